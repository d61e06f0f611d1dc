import Verif.Interp.Sim

/-!
# The interpreter follows the reference semantics

For every rule of the reference semantics there is a lemma which says that the interpreter does the
same, as long as none of the events of `Spec.Event` occurs.
-/

namespace Verif
namespace Interp
namespace Sim

open Spec (State Place Comp)

variable {A : Type}

/-- The interpreter's control flow for a completion. -/
def cfOf : Comp A → CF
  | .normal => .normal
  | .brk => .brk
  | .cont => .cont
  | .ret _ => .ret
  | .thr _ => .throw

/-- The values that belong to a completion are where the interpreter keeps them. -/
structure Jump (c : Comp A) (σ : State A) : Prop where
  ret : ∀ v, c = .ret (some v) → σ.rv = v
  thr : ∀ x, c = .thr x → σ.last = some x

theorem Jump.normal (σ : State A) : Jump .normal σ := ⟨by nofun, by nofun⟩

theorem Jump.of_last {x : Value A} {σ : State A} (h : σ.last = some x) : Jump (.thr x) σ :=
  ⟨by nofun, fun y hy => by cases hy; exact h⟩

/-- An expression evaluator ends as `o` says. -/
def Yields {α : Type} (pre : List (Frame A)) (stk : List (Nat × Bool)) (s : St A) (f : Nat → Res A α) (o : Spec.Out A α)
    (σ' : State A) : Prop :=
  match o with
  | .val v => ∃ s', Ends f (.ok v s') ∧ s'.cf = .normal ∧ Rel pre stk σ' s' ∧ Step (ids stk) s s'
  | .thr x => ∃ s', Ends f (.raise .throw s') ∧ σ'.last = some x ∧ Rel pre stk σ' s' ∧ Step (ids stk) s s'

/-- A statement executor ends as `c` says. -/
def Completes (pre : List (Frame A)) (stk : List (Nat × Bool)) (s : St A) (f : Nat → Res A Unit) (c : Comp A)
    (σ' : State A) : Prop :=
  ∃ s', Ends f (.ok () s') ∧ s'.cf = cfOf c ∧ Jump c σ' ∧ Rel pre stk σ' s' ∧ Step (ids stk) s s'

/-- A call ends as `o` says, in whichever surroundings. -/
def Returns (s : St A) (f : Nat → Res A (Value A)) (o : Spec.Out A (Value A)) (σ σ' : State A) : Prop :=
  match o with
  | .val v => ∃ s', Ends f (.ok v s') ∧ s'.cf = .normal ∧ Data σ' s' ∧ Same s s' ∧ Local σ σ'
  | .thr x => ∃ s', Ends f (.raise .throw s') ∧ σ'.last = some x ∧ Data σ' s' ∧ Same s s' ∧ Local σ σ'

variable {α β : Type} {pre : List (Frame A)} {stk : List (Nat × Bool)} {s s₁ : St A} {σ σ' σ₁ σ₂ σ₃ σ₄ : State A}

theorem Yields.step {f g : Nat → Res A α} {o : Spec.Out A α} (h : ∀ n, f (n + 1) = g n) (hg : Yields pre stk s g o σ') :
    Yields pre stk s f o σ' := by
  cases o with
  | val v => obtain ⟨s', he, hr⟩ := hg; exact ⟨s', he.step h, hr⟩
  | thr x => obtain ⟨s', he, hr⟩ := hg; exact ⟨s', he.step h, hr⟩

theorem Completes.step {f g : Nat → Res A Unit} {c : Comp A} (h : ∀ n, f (n + 1) = g n) (hg : Completes pre stk s g c σ') :
    Completes pre stk s f c σ' := by
  obtain ⟨s', he, hr⟩ := hg; exact ⟨s', he.step h, hr⟩

theorem Yields.congr {f g : Nat → Res A α} {o : Spec.Out A α} (h : ∀ n, f n = g n) (hg : Yields pre stk s g o σ') :
    Yields pre stk s f o σ' := by
  rw [show f = g from funext h]; exact hg

theorem Completes.congr {f g : Nat → Res A Unit} {c : Comp A} (h : ∀ n, f n = g n) (hg : Completes pre stk s g c σ') :
    Completes pre stk s f c σ' := by
  rw [show f = g from funext h]; exact hg

theorem Yields.pure {v : α} (hr : Rel pre stk σ s) (hc : s.cf = .normal) : Yields pre stk s (fun _ => .ok v s) (.val v) σ :=
  ⟨s, .const fun _ => rfl, hc, hr, .refl _ _⟩

theorem Yields.bind {f : Nat → Res A α} {k : Nat → α → St A → Res A β} {a : α} {o : Spec.Out A β}
    (hf : Yields pre stk s f (.val a) σ₁)
    (hk : ∀ s₁, Rel pre stk σ₁ s₁ → s₁.cf = .normal → Yields pre stk s₁ (fun n => k n a s₁) o σ₂) :
    Yields pre stk s (fun n => (f n).bind (k n)) o σ₂ := by
  obtain ⟨s₁, he, hc, hr, hs⟩ := hf
  have := hk s₁ hr hc
  cases o with
  | val v => obtain ⟨s₂, he₂, hc₂, hr₂, hs₂⟩ := this; exact ⟨s₂, he.bind_ok he₂, hc₂, hr₂, hs.trans hs₂⟩
  | thr x => obtain ⟨s₂, he₂, hc₂, hr₂, hs₂⟩ := this; exact ⟨s₂, he.bind_ok he₂, hc₂, hr₂, hs.trans hs₂⟩

theorem Yields.bind_thr {f : Nat → Res A α} {k : Nat → α → St A → Res A β} {x : Value A}
    (hf : Yields pre stk s f (.thr x) σ₁) : Yields pre stk s (fun n => (f n).bind (k n)) (.thr x) σ₁ := by
  obtain ⟨s₁, he, hl, hr, hs⟩ := hf
  exact ⟨s₁, he.bind_raise, hl, hr, hs⟩

theorem Completes.try_val {f : Nat → Res A α} {k : Nat → α → St A → Res A Unit} {a : α} {c : Comp A}
    (hf : Yields pre stk s f (.val a) σ₁)
    (hk : ∀ s₁, Rel pre stk σ₁ s₁ → s₁.cf = .normal → Completes pre stk s₁ (fun n => k n a s₁) c σ₂) :
    Completes pre stk s (fun n => (f n).tryControl (k n)) c σ₂ := by
  obtain ⟨s₁, he, hc, hr, hs⟩ := hf
  obtain ⟨s₂, he₂, hc₂, hj₂, hr₂, hs₂⟩ := hk s₁ hr hc
  exact ⟨s₂, he.try_ok he₂, hc₂, hj₂, hr₂, hs.trans hs₂⟩

theorem Completes.try_thr {f : Nat → Res A α} {k : Nat → α → St A → Res A Unit} {x : Value A}
    (hf : Yields pre stk s f (.thr x) σ₁) : Completes pre stk s (fun n => (f n).tryControl (k n)) (.thr x) σ₁ := by
  obtain ⟨s₁, he, hl, hr, hs⟩ := hf
  exact ⟨_, he.try_raise, rfl, .of_last hl, hr.cf _, hs.cf _⟩

theorem Completes.bind_val {f : Nat → Res A α} {k : Nat → α → St A → Res A Unit} {a : α} {c : Comp A}
    (hf : Yields pre stk s f (.val a) σ₁)
    (hk : ∀ s₁, Rel pre stk σ₁ s₁ → s₁.cf = .normal → Completes pre stk s₁ (fun n => k n a s₁) c σ₂) :
    Completes pre stk s (fun n => (f n).bind (k n)) c σ₂ := by
  obtain ⟨s₁, he, hc, hr, hs⟩ := hf
  obtain ⟨s₂, he₂, hc₂, hj₂, hr₂, hs₂⟩ := hk s₁ hr hc
  exact ⟨s₂, he.bind_ok he₂, hc₂, hj₂, hr₂, hs.trans hs₂⟩

theorem Completes.bind {f : Nat → Res A Unit} {k : Nat → Unit → St A → Res A Unit} {c d : Comp A}
    (hf : Completes pre stk s f c σ₁)
    (hk : ∀ s₁, Rel pre stk σ₁ s₁ → s₁.cf = cfOf c → Jump c σ₁ → Completes pre stk s₁ (fun n => k n () s₁) d σ₂) :
    Completes pre stk s (fun n => (f n).bind (k n)) d σ₂ := by
  obtain ⟨s₁, he, hc, hj, hr, hs⟩ := hf
  obtain ⟨s₂, he₂, hc₂, hj₂, hr₂, hs₂⟩ := hk s₁ hr hc hj
  exact ⟨s₂, he.bind_ok he₂, hc₂, hj₂, hr₂, hs.trans hs₂⟩

theorem Completes.pure {c : Comp A} (hr : Rel pre stk σ s) (hc : s.cf = cfOf c) (hj : Jump c σ) :
    Completes pre stk s (fun _ => .ok () s) c σ :=
  ⟨s, .const fun _ => rfl, hc, hj, hr, .refl _ _⟩

theorem Completes.now {c : Comp A} {s' : St A} (hr : Rel pre stk σ s') (hc : s'.cf = cfOf c) (hj : Jump c σ)
    (hs : Step (ids stk) s s') : Completes pre stk s (fun _ => .ok () s') c σ :=
  ⟨s', .const fun _ => rfl, hc, hj, hr, hs⟩

theorem Completes.done (hr : Rel pre stk σ s) (hc : s.cf = .normal) : Completes pre stk s (fun _ => .ok () s) .normal σ :=
  .pure hr hc (.normal σ)

theorem Completes.nowN {s' : St A} (hr : Rel pre stk σ s') (hc : s'.cf = .normal) (hs : Step (ids stk) s s') :
    Completes pre stk s (fun _ => .ok () s') .normal σ :=
  .now hr hc (.normal σ) hs

theorem Completes.jump {c : Comp A} (hr : Rel pre stk σ s) (hj : Jump c σ) :
    Completes pre stk s (fun _ => .ok () { s with cf := cfOf c }) c σ :=
  .now (hr.cf _) rfl hj ⟨fun _ _ => rfl, Nat.le_refl _⟩

/-- The control flow at the beginning does not matter for what has changed. -/
theorem Completes.of_cf {f : Nat → Res A Unit} {c : Comp A} {d : CF} (h : Completes pre stk { s with cf := d } f c σ') :
    Completes pre stk s f c σ' := by
  obtain ⟨s', he, hc, hj, hr, hs⟩ := h
  exact ⟨s', he, hc, hj, hr, hs.cf_left⟩

theorem Returns.yields {f : Nat → Res A (Value A)} {o : Spec.Out A (Value A)} (h : Returns s f o σ σ') (hr : Rel pre stk σ s) :
    Yields pre stk s f o σ' := by
  cases o with
  | val v => obtain ⟨s', he, hc, hd, hs, hl⟩ := h; exact ⟨s', he, hc, hr.same hs hl hd, hs.step _⟩
  | thr x => obtain ⟨s', he, hc, hd, hs, hl⟩ := h; exact ⟨s', he, hc, hr.same hs hl hd, hs.step _⟩

theorem Returns.step {f g : Nat → Res A (Value A)} {o : Spec.Out A (Value A)} (h : ∀ n, f (n + 1) = g n)
    (hg : Returns s g o σ σ') : Returns s f o σ σ' := by
  cases o with
  | val v => obtain ⟨s', he, hr⟩ := hg; exact ⟨s', he.step h, hr⟩
  | thr x => obtain ⟨s', he, hr⟩ := hg; exact ⟨s', he.step h, hr⟩

/-! ## What is shown of every judgement -/

variable (P : Prim A) (G : Prog A)

def EvalOk (σ : State A) (e : Expr A) (o : Spec.Out A (Value A)) (σ' : State A) : Prop :=
  ∀ pre stk s, Rel pre stk σ s → s.cf = .normal → Yields pre stk s (fun n => eval P G n e s) o σ'

def ArgsOk (σ : State A) (es : List (Expr A)) (o : Spec.Out A (List (Value A))) (σ' : State A) : Prop :=
  ∀ pre stk s, Rel pre stk σ s → s.cf = .normal → Yields pre stk s (fun n => evalArgs P G n es s) o σ'

def CompareOk (σ : State A) (c : Cmp) (v w : Value A) (o : Spec.Out A Bool) (σ' : State A) : Prop :=
  ∀ pre stk s, Rel pre stk σ s → s.cf = .normal → Yields pre stk s (fun n => compareVals P G n c v w s) o σ'

def CallOk (σ : State A) (path : List Name) (f : Name) (vs : List (Value A)) (o : Spec.Out A (Value A)) (σ' : State A) : Prop :=
  ∀ pre stk s, Rel pre stk σ s → s.cf = .normal → Yields pre stk s (fun n => call P G n path f vs s) o σ'

/-- The last part of `call`. -/
def invoke (n : Nat) (m : Bound A) (vs : List (Value A)) (s : St A) : Res A (Value A) :=
  match m.1.code with
  | .native g =>
    match g vs with
    | .ok v => .ok v { s with cf := .normal }
    | .error x => .raise .throw { s with exc := some x, cf := .throw }
  | _ => (run P G n m.1 m.2 vs s).bind afterCall

theorem call_found {path : List Name} {f : Name} {vs : List (Value A)} {m : Bound A}
    (h : resolveCall G s path f vs = .found m) (n : Nat) : call P G (n + 1) path f vs s = invoke P G n m vs s := by
  simp only [call, h]; rfl

def InvokeOk (σ : State A) (m : Bound A) (vs : List (Value A)) (o : Spec.Out A (Value A)) (σ' : State A) : Prop :=
  ∀ s, Data σ s → Idle s → s.cf = .normal → Returns s (fun n => invoke P G n m vs s) o σ σ'

def RunOk (σ : State A) (m : Method A) (self : Option (Name × Nat)) (vs : List (Value A)) (c : Comp A) (σ' : State A) : Prop :=
  (∃ b, m.code = .body b) ∧ ∀ s, Data σ s → Idle s → s.cf = .normal →
    ∃ s' v, Ends (fun n => run P G n m self vs s) (.ok v s') ∧ s'.cf = cfOf c ∧ Data σ' s' ∧ Same s s' ∧ Local σ σ' ∧
      (∀ x, c = .thr x → σ'.last = some x) ∧ (m.isVoid = true → v = .null) ∧
      (m.isVoid = false → ∀ u, c = .ret (some u) → v = u)

def ListOk (σ : State A) (b : List (Stmt A)) (c : Comp A) (σ' : State A) : Prop :=
  ∀ pre stk s, Rel pre stk σ s → s.cf = .normal → Completes pre stk s (fun n => execList P G n b s) c σ'

def BlockOk (σ : State A) (b : List (Stmt A)) (c : Comp A) (σ' : State A) : Prop :=
  ∀ pre stk s, Rel pre stk σ s → s.cf = .normal → Completes pre stk s (fun n => execBlock P G n b s) c σ'

def ExecOk (σ : State A) (st : Stmt A) (c : Comp A) (σ' : State A) : Prop :=
  ∀ pre stk s, Rel pre stk σ s → s.cf = .normal → Completes pre stk s (fun n => exec P G n st s) c σ'

/-- A try statement without its `finally` block. -/
def guarded (n : Nat) (b : List (Stmt A)) (catches : List (Option (Name × Name) × List (Stmt A))) (s : St A) : Res A Unit :=
  (execBlock P G n b s).bind fun _ s => if s.cf = .throw then handle P G n catches s else .ok () s

def GuardedOk (σ : State A) (b : List (Stmt A)) (catches : List (Option (Name × Name) × List (Stmt A))) (c : Comp A)
    (σ' : State A) : Prop :=
  ∀ pre stk s, Rel pre stk σ s → s.cf = .normal → Completes pre stk s (fun n => guarded P G n b catches s) c σ'

def ForOk (σ : State A) (c : Option (Expr A)) (iter b : Stmt A) (d : Comp A) (σ' : State A) : Prop :=
  ∀ pre i stk s, Rel pre ((i, true) :: stk) σ s → s.cf = .normal → stk ≠ [] →
    ∃ s', Ends (fun n => execFor P G n c iter b s) (.ok () s') ∧ s'.cf = cfOf d ∧ Jump d σ' ∧
      Rel pre stk { σ' with blocks := σ'.blocks.tail } s' ∧ Step (i :: ids stk) s s' ∧ s'.scopes i = none

def HoldsOk (σ : State A) (c : Option (Expr A)) (σ' : State A) : Prop :=
  match c with
  | none => σ' = σ
  | some e => ∃ v, EvalOk P G σ e (.val v) σ' ∧ isTrue P v = true

def EachOk (σ : State A) (ty x : Name) (it : Value A) (b : Stmt A) (d : Comp A) (σ' : State A) : Prop :=
  ∀ pre stk s, Rel pre stk σ s → s.cf = .normal → Completes pre stk s (fun n => execForeach P G n ty x it b s) d σ'

def HasNextOk (σ : State A) (it : Value A) (σ' : State A) : Prop :=
  ∃ cls i m v, it = .obj cls i ∧ Spec.methodOf G (some (cls, i)) "hasNext" [] = some m ∧
    InvokeOk P G σ m [] (.val v) σ' ∧ isTrue P v = true

def NextOk (σ : State A) (it : Value A) (o : Spec.Out A (Value A)) (σ' : State A) : Prop :=
  ∃ cls i m, it = .obj cls i ∧ Spec.methodOf G (some (cls, i)) "next" [] = some m ∧ InvokeOk P G σ m [] o σ'

def RoundOk (σ : State A) (e : Expr A) (cases : List (Expr A × List (Stmt A))) (dflt : List (Stmt A)) (d : Comp A)
    (σ' : State A) : Prop :=
  ∀ pre stk s, Rel pre stk σ s → s.cf = .normal →
    ∃ s', s'.cf = cfOf d ∧ Jump d σ' ∧ Rel pre stk σ' s' ∧ Step (ids stk) s s' ∧
      ∀ r, Ends (fun n => switchEnd P G n e cases dflt s') r → Ends (fun n => execSwitch P G n e cases dflt s) r

def CasesOk (σ : State A) (v : Value A) (cases : List (Expr A × List (Stmt A))) (dflt : List (Stmt A)) (d : Comp A)
    (σ' : State A) : Prop :=
  ∀ pre stk s, Rel pre stk σ s → s.cf = .normal →
    ∃ b s', Ends (fun n => execCases P G n v cases dflt s) (.ok b s') ∧ s'.cf = cfOf d ∧ Jump d σ' ∧ Rel pre stk σ' s' ∧
      Step (ids stk) s s' ∧ (b = false → ∃ x, d = .thr x)

variable {P G}

/-! ## Expressions -/

theorem eval_lit {a : A} : EvalOk P G σ (.lit a) (.val (.atom a)) σ := fun _ _ _ hr hc =>
  (Yields.pure hr hc).step fun n => by rw [eval]

theorem eval_sym {p : Path} {w : Place} {v : Value A} (h : σ.locate p = some (w, v)) : EvalOk P G σ (.sym p) (.val v) σ :=
  fun _ _ _ hr hc => (Yields.pure hr hc).step fun n => by simp only [eval, evalSym, hr.lookPath, h, lookOf]

theorem throwNpe_yields (hr : Rel pre stk σ s) (x : Name) :
    Yields (α := α) pre stk s (fun _ => throwNpe P x s) (.thr (P.npe x)) { σ with last := some (P.npe x) } := by
  refine ⟨{ s with exc := some (P.npe x) }, .const fun _ => rfl, rfl, ?_, ⟨fun _ _ => rfl, Nat.le_refl _⟩⟩
  exact ⟨hr.frames, hr.cur, hr.ne, hr.chain, hr.fresh, ⟨hr.data.objs, hr.data.globals, hr.data.out, rfl⟩⟩

theorem eval_symNull {p : Path} (h : σ.locate p = none) :
    EvalOk P G σ (.sym p) (.thr (P.npe p.head)) { σ with last := some (P.npe p.head) } := fun _ _ _ hr _ =>
  (throwNpe_yields hr p.head).step fun n => by simp only [eval, evalSym, hr.lookPath, h, lookOf]

theorem lvalue_ok {p : Path} {w : Place} {v : Value A} (hr : Rel pre stk σ s) (h : σ.locate p = some (w, v)) :
    lvalue s p = .ok (sref (ids stk) w, v) s := by
  simp only [lvalue, hr.lookPath, h, lookOf]

theorem place_ok {w : Place} {v : Value A} {p : Path} (hr : Rel pre stk σ s) (h : σ.locate p = some (w, v)) : PlaceOk stk.length w := by
  rw [hr.length]; exact locate_ok h

theorem eval_assign {p : Path} {e : Expr A} {w : Place} {old v v' : Value A} (hl : σ.locate p = some (w, old))
    (he : EvalOk P G σ e (.val v) σ') (ha : P.assign old v = some v') :
    EvalOk P G σ (.assign p e) (.val v') (σ'.write w p.last v') := by
  intro pre stk s hr hc
  obtain ⟨s₁, he, hc₁, hr₁, hs₁⟩ := he pre stk s hr hc
  have hst := hr₁.store (place_ok hr hl) p.last v'
  refine ⟨_, Ends.step (g := fun n => match eval P G n e s with
        | .ok v s => assignTo s (sref (ids stk) w) p.last (P.assign old v)
        | .raise c s => .ok .null { s with cf := c }
        | r => r) (fun n => by simp only [eval, lvalue_ok hr hl, Res.bind]; rfl) ?_, hst.2.2.trans hc₁, hst.1, hs₁.trans hst.2.1⟩
  exact he.via (fun n hn => by simp only [hn, ha, assignTo]) (Ends.const fun _ => rfl)

theorem eval_incr {op : Name} {p : Path} {w : Place} {old v : Value A} (hl : σ.locate p = some (w, old))
    (hu : P.unary op old = some v) : EvalOk P G σ (.incr op p) (.val v) (σ.write w p.last v) := by
  intro pre stk s hr hc
  have hst := hr.store (place_ok hr hl) p.last v
  exact ⟨_, Ends.step (g := fun _ => .ok v (store s (sref (ids stk) w) p.last v))
    (fun n => by simp only [eval, lvalue_ok hr hl, Res.bind, assignTo, hu]) (.const fun _ => rfl), hst.2.2.trans hc, hst.1, hst.2.1⟩

theorem eval_unary {op : Name} {e : Expr A} {v w : Value A} (he : EvalOk P G σ e (.val v) σ') (hu : P.unary op v = some w) :
    EvalOk P G σ (.unary op e) (.val w) σ' := fun pre stk s hr hc =>
  ((he pre stk s hr hc).bind (k := fun _ v s => ofOption s (P.unary op v)) fun s₁ hr₁ hc₁ =>
    (Yields.pure hr₁ hc₁).congr fun n => by simp only [hu, ofOption]).step fun n => by rw [eval]

theorem eval_unaryThr {op : Name} {e : Expr A} {x : Value A} (he : EvalOk P G σ e (.thr x) σ') :
    EvalOk P G σ (.unary op e) (.thr x) σ' := fun pre stk s hr hc =>
  ((he pre stk s hr hc).bind_thr (k := fun _ v s => ofOption s (P.unary op v))).step fun n => by rw [eval]

theorem eval_validate {e : Expr A} {v : Value A} (he : EvalOk P G σ e (.val v) σ') (hv : isTrue P v = true) :
    EvalOk P G σ (.validate e) (.val v) σ' := fun pre stk s hr hc =>
  ((he pre stk s hr hc).bind (k := fun _ v s => if isTrue P v then .ok v s else .raise .throw s) fun s₁ hr₁ hc₁ =>
    (Yields.pure hr₁ hc₁).congr fun n => by simp only [hv, if_true]).step fun n => by rw [eval]

theorem eval_validateThr {e : Expr A} {x : Value A} (he : EvalOk P G σ e (.thr x) σ') :
    EvalOk P G σ (.validate e) (.thr x) σ' := fun pre stk s hr hc =>
  ((he pre stk s hr hc).bind_thr (k := fun _ v s => if isTrue P v then .ok v s else .raise .throw s)).step fun n => by rw [eval]

theorem eval_binary {op : Name} {l r : Expr A} {v w u : Value A} (hl : EvalOk P G σ l (.val v) σ₁) (hr' : EvalOk P G σ₁ r (.val w) σ₂)
    (hb : P.binary op v w = some u) : EvalOk P G σ (.binary op l r) (.val u) σ₂ := fun pre stk s hr hc =>
  ((hl pre stk s hr hc).bind
    (k := fun n v s => (eval P G n r s).bind fun w s => ofOption s (P.binary op v w)) fun s₁ hr₁ hc₁ =>
    (hr' pre stk s₁ hr₁ hc₁).bind (k := fun _ w s => ofOption s (P.binary op v w)) fun s₂ hr₂ hc₂ =>
      (Yields.pure hr₂ hc₂).congr fun n => by simp only [hb, ofOption]).step fun n => by rw [eval]

theorem eval_binaryThrL {op : Name} {l r : Expr A} {x : Value A} (hl : EvalOk P G σ l (.thr x) σ₁) :
    EvalOk P G σ (.binary op l r) (.thr x) σ₁ := fun pre stk s hr hc =>
  ((hl pre stk s hr hc).bind_thr
    (k := fun n v s => (eval P G n r s).bind fun w s => ofOption s (P.binary op v w))).step fun n => by rw [eval]

theorem eval_binaryThrR {op : Name} {l r : Expr A} {v x : Value A} (hl : EvalOk P G σ l (.val v) σ₁)
    (hr' : EvalOk P G σ₁ r (.thr x) σ₂) : EvalOk P G σ (.binary op l r) (.thr x) σ₂ := fun pre stk s hr hc =>
  ((hl pre stk s hr hc).bind
    (k := fun n v s => (eval P G n r s).bind fun w s => ofOption s (P.binary op v w)) fun s₁ hr₁ hc₁ =>
    (hr' pre stk s₁ hr₁ hc₁).bind_thr (k := fun _ w s => ofOption s (P.binary op v w))).step fun n => by rw [eval]

/-- The interpreter's evaluation of a comparison. -/
def compareK (P : Prim A) (G : Prog A) (c : Cmp) (r : Expr A) (n : Nat) (v : Value A) (s : St A) : Res A (Value A) :=
  (eval P G n r s).bind fun w s => (compareVals P G n c v w s).bind fun b s => .ok (P.bool b) s

theorem eval_compare {c : Cmp} {l r : Expr A} {v w : Value A} {b : Bool} (hl : EvalOk P G σ l (.val v) σ₁)
    (hr' : EvalOk P G σ₁ r (.val w) σ₂) (hb : CompareOk P G σ₂ c v w (.val b) σ₃) :
    EvalOk P G σ (.compare c l r) (.val (P.bool b)) σ₃ := fun pre stk s hr hc =>
  ((hl pre stk s hr hc).bind (k := compareK P G c r) fun s₁ hr₁ hc₁ =>
    (hr' pre stk s₁ hr₁ hc₁).bind (k := fun n w s => (compareVals P G n c v w s).bind fun b s => .ok (P.bool b) s) fun s₂ hr₂ hc₂ =>
      (hb pre stk s₂ hr₂ hc₂).bind (k := fun _ b s => .ok (P.bool b) s) fun s₃ hr₃ hc₃ => .pure hr₃ hc₃).step
    fun n => by rw [eval]; rfl

theorem eval_compareThrL {c : Cmp} {l r : Expr A} {x : Value A} (hl : EvalOk P G σ l (.thr x) σ₁) :
    EvalOk P G σ (.compare c l r) (.thr x) σ₁ := fun pre stk s hr hc =>
  ((hl pre stk s hr hc).bind_thr (k := compareK P G c r)).step fun n => by rw [eval]; rfl

theorem eval_compareThrR {c : Cmp} {l r : Expr A} {v x : Value A} (hl : EvalOk P G σ l (.val v) σ₁)
    (hr' : EvalOk P G σ₁ r (.thr x) σ₂) : EvalOk P G σ (.compare c l r) (.thr x) σ₂ := fun pre stk s hr hc =>
  ((hl pre stk s hr hc).bind (k := compareK P G c r) fun s₁ hr₁ hc₁ =>
    (hr' pre stk s₁ hr₁ hc₁).bind_thr (k := fun n w s => (compareVals P G n c v w s).bind fun b s => .ok (P.bool b) s)).step
    fun n => by rw [eval]; rfl

theorem eval_compareThr {c : Cmp} {l r : Expr A} {v w x : Value A} (hl : EvalOk P G σ l (.val v) σ₁)
    (hr' : EvalOk P G σ₁ r (.val w) σ₂) (hb : CompareOk P G σ₂ c v w (.thr x) σ₃) :
    EvalOk P G σ (.compare c l r) (.thr x) σ₃ := fun pre stk s hr hc =>
  ((hl pre stk s hr hc).bind (k := compareK P G c r) fun s₁ hr₁ hc₁ =>
    (hr' pre stk s₁ hr₁ hc₁).bind (k := fun n w s => (compareVals P G n c v w s).bind fun b s => .ok (P.bool b) s) fun s₂ hr₂ hc₂ =>
      (hb pre stk s₂ hr₂ hc₂).bind_thr (k := fun _ b s => .ok (P.bool b) s)).step
    fun n => by rw [eval]; rfl

/-- The interpreter's evaluation of the right operand of a logical operator. -/
def boolK (P : Prim A) (G : Prog A) (op : BoolOp) (r : Expr A) (n : Nat) (v : Value A) (s : St A) : Res A (Value A) :=
  match op.short (isTrue P v) with
  | some b => .ok (P.bool b) s
  | none => (eval P G n r s).bind fun w s => .ok (P.bool (op.result (isTrue P v) (isTrue P w))) s

theorem short_some {op : BoolOp} {l b : Bool} (h : ∀ x, Spec.value op l x = b) : op.short l = some b := by
  have h1 := h true; have h2 := h false
  cases op <;> cases l <;> simp_all [Spec.value, BoolOp.short]

theorem short_none {op : BoolOp} {l : Bool} (h : Spec.value op l true ≠ Spec.value op l false) : op.short l = none := by
  cases op <;> cases l <;> simp_all [Spec.value, BoolOp.short]

theorem eval_boolShort {op : BoolOp} {l r : Expr A} {v : Value A} {b : Bool} (hl : EvalOk P G σ l (.val v) σ₁)
    (hb : ∀ x, Spec.value op (isTrue P v) x = b) : EvalOk P G σ (.bool op l r) (.val (P.bool b)) σ₁ := fun pre stk s hr hc =>
  ((hl pre stk s hr hc).bind (k := boolK P G op r) fun s₁ hr₁ hc₁ =>
    (Yields.pure hr₁ hc₁).congr fun n => by simp only [boolK, short_some hb]).step fun n => by rw [eval]; rfl

theorem eval_bool {op : BoolOp} {l r : Expr A} {v w : Value A} (hl : EvalOk P G σ l (.val v) σ₁)
    (hb : Spec.value op (isTrue P v) true ≠ Spec.value op (isTrue P v) false) (hr' : EvalOk P G σ₁ r (.val w) σ₂)
    (hnand : op = .nand → isTrue P w = false → False) (hnor : op = .nor → isTrue P w = true → False) :
    EvalOk P G σ (.bool op l r) (.val (P.bool (Spec.value op (isTrue P v) (isTrue P w)))) σ₂ := by
  intro pre stk s hr hc
  have hres : op.result (isTrue P v) (isTrue P w) = Spec.value op (isTrue P v) (isTrue P w) := by
    cases op with
    | and => rfl
    | or => rfl
    | nand =>
      have hw : isTrue P w = true := by
        cases h : isTrue P w with
        | true => rfl
        | false => exact (hnand rfl h).elim
      rw [hw]; cases h : isTrue P v <;> rw [h] at hb <;> simp_all [Spec.value, BoolOp.result]
    | nor =>
      have hw : isTrue P w = false := by
        cases h : isTrue P w with
        | false => rfl
        | true => exact (hnor rfl h).elim
      rw [hw]; cases h : isTrue P v <;> rw [h] at hb <;> simp_all [Spec.value, BoolOp.result]
  refine ((hl pre stk s hr hc).bind (k := boolK P G op r) fun s₁ hr₁ hc₁ => ?_).step fun n => by rw [eval]; rfl
  refine Yields.congr (fun n => by simp only [boolK, short_none hb])
    ((hr' pre stk s₁ hr₁ hc₁).bind (k := fun _ w s => .ok (P.bool (op.result (isTrue P v) (isTrue P w))) s) fun s₂ hr₂ hc₂ => ?_)
  rw [hres]; exact .pure hr₂ hc₂

theorem eval_boolThrL {op : BoolOp} {l r : Expr A} {x : Value A} (hl : EvalOk P G σ l (.thr x) σ₁) :
    EvalOk P G σ (.bool op l r) (.thr x) σ₁ := fun pre stk s hr hc =>
  ((hl pre stk s hr hc).bind_thr (k := boolK P G op r)).step fun n => by rw [eval]; rfl

theorem eval_boolThrR {op : BoolOp} {l r : Expr A} {v x : Value A} (hl : EvalOk P G σ l (.val v) σ₁)
    (hb : Spec.value op (isTrue P v) true ≠ Spec.value op (isTrue P v) false) (hr' : EvalOk P G σ₁ r (.thr x) σ₂) :
    EvalOk P G σ (.bool op l r) (.thr x) σ₂ := fun pre stk s hr hc =>
  ((hl pre stk s hr hc).bind (k := boolK P G op r) fun s₁ hr₁ hc₁ =>
    Yields.congr (fun n => by simp only [boolK, short_none hb])
      ((hr' pre stk s₁ hr₁ hc₁).bind_thr (k := fun _ w s => .ok (P.bool (op.result (isTrue P v) (isTrue P w))) s))).step
    fun n => by rw [eval]; rfl

theorem eval_ternaryT {c t e : Expr A} {v : Value A} {o : Spec.Out A (Value A)} (hc' : EvalOk P G σ c (.val v) σ₁)
    (hv : isTrue P v = true) (ht : EvalOk P G σ₁ t o σ₂) : EvalOk P G σ (.ternary c t e) o σ₂ := fun pre stk s hr hc =>
  ((hc' pre stk s hr hc).bind (k := fun n v s => if isTrue P v then eval P G n t s else eval P G n e s) fun s₁ hr₁ hc₁ =>
    Yields.congr (fun n => by simp only [hv, if_true]) (ht pre stk s₁ hr₁ hc₁)).step fun n => by rw [eval]

theorem eval_ternaryF {c t e : Expr A} {v : Value A} {o : Spec.Out A (Value A)} (hc' : EvalOk P G σ c (.val v) σ₁)
    (hv : isTrue P v = false) (ht : EvalOk P G σ₁ e o σ₂) : EvalOk P G σ (.ternary c t e) o σ₂ := fun pre stk s hr hc =>
  ((hc' pre stk s hr hc).bind (k := fun n v s => if isTrue P v then eval P G n t s else eval P G n e s) fun s₁ hr₁ hc₁ =>
    Yields.congr (fun n => by simp only [hv, Bool.false_eq_true, if_false]) (ht pre stk s₁ hr₁ hc₁)).step fun n => by rw [eval]

theorem eval_ternaryThr {c t e : Expr A} {x : Value A} (hc' : EvalOk P G σ c (.thr x) σ₁) :
    EvalOk P G σ (.ternary c t e) (.thr x) σ₁ := fun pre stk s hr hc =>
  ((hc' pre stk s hr hc).bind_thr (k := fun n v s => if isTrue P v then eval P G n t s else eval P G n e s)).step
    fun n => by rw [eval]

theorem eval_elvisT {c e : Expr A} {v : Value A} (hc' : EvalOk P G σ c (.val v) σ₁) (hv : isTrue P v = true) :
    EvalOk P G σ (.elvis c e) (.val v) σ₁ := fun pre stk s hr hc =>
  ((hc' pre stk s hr hc).bind (k := fun n v s => if isTrue P v then .ok v s else eval P G n e s) fun s₁ hr₁ hc₁ =>
    Yields.congr (fun n => by simp only [hv, if_true]) (.pure hr₁ hc₁)).step fun n => by rw [eval]

theorem eval_elvisF {c e : Expr A} {v : Value A} {o : Spec.Out A (Value A)} (hc' : EvalOk P G σ c (.val v) σ₁)
    (hv : isTrue P v = false) (he : EvalOk P G σ₁ e o σ₂) : EvalOk P G σ (.elvis c e) o σ₂ := fun pre stk s hr hc =>
  ((hc' pre stk s hr hc).bind (k := fun n v s => if isTrue P v then .ok v s else eval P G n e s) fun s₁ hr₁ hc₁ =>
    Yields.congr (fun n => by simp only [hv, Bool.false_eq_true, if_false]) (he pre stk s₁ hr₁ hc₁)).step fun n => by rw [eval]

theorem eval_elvisThr {c e : Expr A} {x : Value A} (hc' : EvalOk P G σ c (.thr x) σ₁) :
    EvalOk P G σ (.elvis c e) (.thr x) σ₁ := fun pre stk s hr hc =>
  ((hc' pre stk s hr hc).bind_thr (k := fun n v s => if isTrue P v then .ok v s else eval P G n e s)).step fun n => by rw [eval]

theorem eval_call {path : List Name} {f : Name} {args : List (Expr A)} {vs : List (Value A)} {o : Spec.Out A (Value A)}
    (ha : ArgsOk P G σ args (.val vs) σ₁) (hc' : CallOk P G σ₁ path f vs o σ₂) : EvalOk P G σ (.call path f args) o σ₂ :=
  fun pre stk s hr hc =>
  ((ha pre stk s hr hc).bind (k := fun n vs s => call P G n path f vs s) fun s₁ hr₁ hc₁ => hc' pre stk s₁ hr₁ hc₁).step
    fun n => by rw [eval]

theorem eval_callThr {path : List Name} {f : Name} {args : List (Expr A)} {x : Value A}
    (ha : ArgsOk P G σ args (.thr x) σ₁) : EvalOk P G σ (.call path f args) (.thr x) σ₁ := fun pre stk s hr hc =>
  ((ha pre stk s hr hc).bind_thr (k := fun n vs s => call P G n path f vs s)).step fun n => by rw [eval]

/-- The construction of an object. -/
def newK (P : Prim A) (G : Prog A) (cls : Name) (n : Nat) (vs : List (Value A)) (s : St A) : Res A (Value A) :=
  match G.ctor cls vs with
  | none => .fatal
  | some m =>
    let o := s.objs.length
    let s := { s with objs := s.objs ++ [G.fields cls] }
    (nested s (run P G n m (some (cls, o)) vs { s with cf := .normal })).bind fun r s =>
      .ok (.obj cls o) { s with cf := r.1 }

theorem eval_new {cls : Name} {args : List (Expr A)} {vs : List (Value A)} {m : Method A} {c : Comp A}
    (ha : ArgsOk P G σ args (.val vs) σ₁) (hm : G.ctor cls vs = some m)
    (hrun : RunOk P G { σ₁ with objs := σ₁.objs ++ [G.fields cls] } m (some (cls, σ₁.objs.length)) vs c σ₂) (hc' : c = .normal) :
    EvalOk P G σ (.new cls args) (.val (.obj cls σ₁.objs.length)) σ₂ := by
  intro pre stk s hr hc
  refine ((ha pre stk s hr hc).bind (k := newK P G cls) fun s₁ hr₁ hc₁ => ?_).step fun n => by rw [eval]; rfl
  subst hc'
  have ho : s₁.objs.length = σ₁.objs.length := by rw [hr₁.data.objs]
  obtain ⟨s₂, v, he, hc₂, hd₂, hs₂, hl₂, -, -, -⟩ := hrun.2 { s₁ with objs := s₁.objs ++ [G.fields cls] }
    ⟨by simp only [hr₁.data.objs], hr₁.data.globals, hr₁.data.out, hr₁.data.exc⟩ ⟨hr₁.idle.cur, hr₁.idle.fresh⟩ hc₁
  have hsame : Same s₁ { s₂ with cf := .normal, cur := s₁.cur } := ⟨hs₂.frames, rfl, hs₂.scopes, hs₂.next⟩
  refine ⟨{ s₂ with cf := .normal, cur := s₁.cur }, ?_, rfl, ?_, hsame.step _⟩
  · refine he.via (h := fun _ => .ok (.obj cls σ₁.objs.length) { s₂ with cf := .normal, cur := s₁.cur }) (fun n hn => ?_)
      (.const fun _ => rfl)
    simp only [newK, hm]
    rw [show ({ s₁ with objs := s₁.objs ++ [G.fields cls], cf := .normal } : St A) = { s₁ with objs := s₁.objs ++ [G.fields cls] } by
      rw [← hc₁], ho, hn]
    simp only [nested, Res.bind, hc₂, cfOf]
  · exact hr₁.same hsame ⟨hl₂.blocks, hl₂.self, hl₂.rv⟩ ⟨hd₂.objs, hd₂.globals, hd₂.out, hd₂.exc⟩

theorem eval_newArgs {cls : Name} {args : List (Expr A)} {x : Value A} (ha : ArgsOk P G σ args (.thr x) σ₁) :
    EvalOk P G σ (.new cls args) (.thr x) σ₁ := fun pre stk s hr hc =>
  ((ha pre stk s hr hc).bind_thr (k := newK P G cls)).step fun n => by rw [eval]; rfl

/-- Values of an alias: the result of `withAlias` as an expression. -/
theorem withAlias_yields {v : Value A} {k : Nat → St A → Res A (Value A)} {u : Value A} (hr : Rel pre stk σ s) (hl : Local σ σ')
    (hc : s.cf = .normal)
    (hk : ∀ s₁, Data σ s₁ → Idle s₁ → s₁.cf = .normal → getScope s₁ = some s.next → s₁.scopes s.next = some (.alias v) →
      ∃ s₂, Ends (fun n => k n s₁) (.ok u s₂) ∧ Same s₁ s₂ ∧ Data σ' s₂ ∧ s₂.cf = .normal) :
    Yields pre stk s (fun n => withAlias v s (k n)) (.val u) σ' := by
  obtain ⟨s', he, hs, hd, hc'⟩ := withAlias_ok hr v (fun s₁ h1 h2 h3 h4 h5 => hk s₁ h1 h2 (h3.trans hc) h4 h5)
  exact ⟨s', he, hc', hr.same hs hl hd, hs.step _⟩

theorem eval_dotSym {l : Expr A} {p : Path} {v u : Value A} {w : Place} (hl : EvalOk P G σ l (.val v) σ₁)
    (hm : σ₁.members (σ₁.member v p.head) p.tail = some (w, u)) : EvalOk P G σ (.dot l (.sym p)) (.val u) σ₁ := by
  intro pre stk s hr hc
  refine ((hl pre stk s hr hc).bind (k := fun n v s => withAlias v s fun s => eval P G n (.sym p) s) fun s₁ hr₁ hc₁ => ?_).step
    fun n => by rw [eval]
  refine withAlias_yields hr₁ (.refl _) hc₁ fun s₂ hd₂ hi₂ hc₂ hg₂ ha₂ => ⟨s₂, ?_, .refl _, hd₂, hc₂⟩
  refine Ends.step (g := fun _ => .ok u s₂) (fun n => ?_) (.const fun _ => rfl)
  simp only [eval, evalSym, lookPath, hg₂, look, ha₂]
  rw [lookVal_eq hd₂ [], lookTail_eq hd₂, hm]; rfl

theorem evalArgs_lits (as : List A) (s : St A) : Ends (fun n => evalArgs P G n (as.map .lit) s) (.ok (as.map .atom) s) := by
  induction as with
  | nil => exact Ends.step (g := fun _ => .ok [] s) (fun n => by simp only [List.map_nil, evalArgs]) (.const fun _ => rfl)
  | cons a as ih =>
    refine Ends.step (g := fun n => (eval P G n (.lit a) s).bind fun v s => (evalArgs P G n (as.map .lit) s).bind fun vs s =>
      .ok (v :: vs) s) (fun n => by simp only [List.map_cons, evalArgs]) ?_
    refine Ends.bind_ok (a := .atom a) (s := s) (k := fun n v s => (evalArgs P G n (as.map .lit) s).bind fun vs s => .ok (v :: vs) s)
      (Ends.step (g := fun _ => .ok (.atom a) s) (fun n => by rw [eval]) (.const fun _ => rfl)) ?_
    exact Ends.bind_ok (k := fun _ vs s => .ok (.atom a :: vs) s) ih (.const fun _ => rfl)

theorem args_lits {as : List A} {o : Spec.Out A (List (Value A))} (h : ArgsOk P G σ (as.map .lit) o σ') (hr : Rel pre stk σ s)
    (hc : s.cf = .normal) : o = .val (as.map .atom) ∧ Rel pre stk σ' s := by
  have h := h pre stk s hr hc
  have hl := evalArgs_lits (P := P) (G := G) as s
  cases o with
  | thr x => obtain ⟨s', he, -⟩ := h; cases he.unique hl
  | val vs =>
    obtain ⟨s', he, -, hr', -⟩ := h
    have := he.unique hl
    cases this
    exact ⟨rfl, hr'⟩

theorem eval_dotCall {l : Expr A} {f : Name} {args : List (Expr A)} {cls : Name} {i : Nat} {vs : List (Value A)} {m : Bound A}
    {v : Value A} (hl : EvalOk P G σ l (.val (.obj cls i)) σ₁) (ha : ArgsOk P G σ₁ args (.val vs) σ₂)
    (hlit : ∃ as : List A, args = as.map .lit) (hm : Spec.methodOf G (some (cls, i)) f vs = some m)
    (hi : InvokeOk P G σ₂ m vs (.val v) σ₃) : EvalOk P G σ (.dot l (.call [] f args)) (.val v) σ₃ := by
  intro pre stk s hr hc
  obtain ⟨as, rfl⟩ := hlit
  refine ((hl pre stk s hr hc).bind (k := fun n v s => withAlias v s fun s => eval P G n (.call [] f (as.map .lit)) s)
    fun s₁ hr₁ hc₁ => ?_).step fun n => by rw [eval]
  obtain ⟨hvs, hr₂⟩ := args_lits ha hr₁ hc₁
  cases hvs
  have hll : Local σ₂ σ₃ := by
    obtain ⟨_, _, _, _, _, h⟩ := hi s₁ hr₂.data hr₂.idle hc₁
    exact h
  refine withAlias_yields hr₂ hll hc₁ fun s₂ hd₂ hi₂ hc₂ hg₂ ha₂ => ?_
  obtain ⟨s₃, he, hc₃, hd₃, hs₃, -⟩ := hi s₂ hd₂ hi₂ hc₂
  refine ⟨s₃, ?_, hs₃, hd₃, hc₃⟩
  refine Ends.step (g := fun n => (evalArgs P G n (as.map .lit) s₂).bind fun vs s => call P G n [] f vs s) (fun n => by rw [eval]) ?_
  refine (evalArgs_lits as s₂).bind_ok (k := fun n vs s => call P G n [] f vs s) ?_
  exact he.step fun n => call_found P G (resolveCall_alias hg₂ ha₂ hm) n

theorem eval_dotThr {l r : Expr A} {x : Value A} (hl : EvalOk P G σ l (.thr x) σ₁) : EvalOk P G σ (.dot l r) (.thr x) σ₁ :=
  fun pre stk s hr hc =>
  ((hl pre stk s hr hc).bind_thr (k := fun n v s => withAlias v s fun s => eval P G n r s)).step fun n => by rw [eval]

theorem args_nil : ArgsOk P G σ [] (.val []) σ := fun _ _ _ hr hc => (Yields.pure hr hc).step fun n => by rw [evalArgs]

/-- The remaining arguments. -/
def argsK (P : Prim A) (G : Prog A) (es : List (Expr A)) (n : Nat) (v : Value A) (s : St A) : Res A (List (Value A)) :=
  (evalArgs P G n es s).bind fun vs s => .ok (v :: vs) s

theorem args_cons {e : Expr A} {es : List (Expr A)} {v : Value A} {vs : List (Value A)} (he : EvalOk P G σ e (.val v) σ₁)
    (hes : ArgsOk P G σ₁ es (.val vs) σ₂) : ArgsOk P G σ (e :: es) (.val (v :: vs)) σ₂ := fun pre stk s hr hc =>
  ((he pre stk s hr hc).bind (k := argsK P G es) fun s₁ hr₁ hc₁ =>
    (hes pre stk s₁ hr₁ hc₁).bind (k := fun _ vs s => .ok (v :: vs) s) fun s₂ hr₂ hc₂ => .pure hr₂ hc₂).step
    fun n => by rw [evalArgs]; rfl

theorem args_consThr {e : Expr A} {es : List (Expr A)} {x : Value A} (he : EvalOk P G σ e (.thr x) σ₁) :
    ArgsOk P G σ (e :: es) (.thr x) σ₁ := fun pre stk s hr hc =>
  ((he pre stk s hr hc).bind_thr (k := argsK P G es)).step fun n => by rw [evalArgs]; rfl

theorem args_consThrTail {e : Expr A} {es : List (Expr A)} {v x : Value A} (he : EvalOk P G σ e (.val v) σ₁)
    (hes : ArgsOk P G σ₁ es (.thr x) σ₂) : ArgsOk P G σ (e :: es) (.thr x) σ₂ := fun pre stk s hr hc =>
  ((he pre stk s hr hc).bind (k := argsK P G es) fun s₁ hr₁ hc₁ =>
    (hes pre stk s₁ hr₁ hc₁).bind_thr (k := fun _ vs s => .ok (v :: vs) s)).step fun n => by rw [evalArgs]; rfl

/-! ## Comparisons and calls -/

theorem compare_prim {c : Cmp} {v w : Value A} {b : Bool} (hv : ∀ cls o, v ≠ .obj cls o) (h : P.compare c v w = some b) :
    CompareOk P G σ c v w (.val b) σ := fun pre stk s hr hc => by
  refine (Yields.pure (v := b) hr hc).step fun n => ?_
  cases v with
  | obj cls o => exact absurd rfl (hv cls o)
  | null => simp only [compareVals, h, ofOption]
  | atom a => simp only [compareVals, h, ofOption]

theorem compare_method {c : Cmp} {cls : Name} {i : Nat} {w u : Value A} {m : Bound A}
    (hm : Spec.methodOf G (some (cls, i)) c.method [w] = some m) (hv : m.1.isVoid = false)
    (hrun : RunOk P G σ m.1 m.2 [w] (.ret (some u)) σ') : CompareOk P G σ c (.obj cls i) w (.val (isTrue P u)) σ' := by
  intro pre stk s hr hc
  obtain ⟨s₂, v, he, hc₂, hd₂, hs₂, hl₂, -, -, hu⟩ := hrun.2 s hr.data hr.idle hc
  have hu := hu hv u rfl
  subst hu
  have hsame : Same s { s₂ with cf := s.cf, cur := s.cur } := ⟨hs₂.frames, rfl, hs₂.scopes, hs₂.next⟩
  refine ⟨{ s₂ with cf := s.cf, cur := s.cur }, ?_, hc, ?_, hsame.step _⟩
  · refine Ends.step (g := fun n => (nested s (run P G n m.1 m.2 [w] { s with cf := .normal })).bind fun r s => .ok (isTrue P r.2) s)
      (fun n => ?_) ?_
    · simp only [compareVals]
      rw [show Target.obj cls i = targetOf (some (cls, i)) from rfl, findMethod_eq, hm]
    · refine he.via (h := fun _ => .ok (isTrue P v) { s₂ with cf := s.cf, cur := s.cur }) (fun n hn => ?_) (.const fun _ => rfl)
      rw [show ({ s with cf := .normal } : St A) = s by rw [← hc], hn]; rfl
  · exact hr.same hsame hl₂ ⟨hd₂.objs, hd₂.globals, hd₂.out, hd₂.exc⟩

theorem compare_same {cls cls' : Name} {i j : Nat} (hm : Spec.methodOf G (some (cls, i)) Cmp.eq.method [.obj cls' j] = none) :
    CompareOk P G σ .eq (.obj cls i) (.obj cls' j) (.val (decide (i = j))) σ := fun pre stk s hr hc =>
  (Yields.pure hr hc).step fun n => by
    simp only [compareVals]
    rw [show Target.obj cls i = targetOf (some (cls, i)) from rfl, findMethod_eq, hm]; rfl

theorem compare_other {cls : Name} {i : Nat} {w : Value A} (hm : Spec.methodOf G (some (cls, i)) Cmp.eq.method [w] = none)
    (hw : ∀ cls' j, w ≠ .obj cls' j) : CompareOk P G σ .eq (.obj cls i) w (.val false) σ := fun pre stk s hr hc =>
  (Yields.pure hr hc).step fun n => by
    simp only [compareVals]
    rw [show Target.obj cls i = targetOf (some (cls, i)) from rfl, findMethod_eq, hm]
    cases w with
    | obj c j => exact absurd rfl (hw c j)
    | null => rfl
    | atom a => rfl

theorem call_ok {path : List Name} {f : Name} {vs : List (Value A)} {m : Bound A} {o : Spec.Out A (Value A)}
    (hm : σ.callee G path f vs = some m) (hi : InvokeOk P G σ m vs o σ') : CallOk P G σ path f vs o σ' :=
  fun _ _ s hr hc => ((hi s hr.data hr.idle hc).yields hr).step fun n => call_found P G ((hr.resolveCall path f vs).1 m hm) n

theorem call_missing {path : List Name} {f : Name} {vs : List (Value A)} (hm : σ.callee G path f vs = none)
    (ho : σ.calleeOuter G path f vs = none) : CallOk P G σ path f vs (.thr (P.npe f)) { σ with last := some (P.npe f) } :=
  fun _ _ s hr _ => (throwNpe_yields hr f).step fun n => by simp only [call, (hr.resolveCall path f vs).2 hm ho]

theorem invoke_native {m : Bound A} {vs : List (Value A)} {g : List (Value A) → Except (Value A) (Value A)} {v : Value A}
    (hm : m.1.code = .native g) (hv : g vs = .ok v) : InvokeOk P G σ m vs (.val v) σ := fun s hd _ _ =>
  ⟨{ s with cf := .normal }, .const fun n => by simp only [invoke, hm, hv], rfl, ⟨hd.objs, hd.globals, hd.out, hd.exc⟩,
    ⟨rfl, rfl, rfl, Nat.le_refl _⟩, .refl _⟩

theorem invoke_nativeThr {m : Bound A} {vs : List (Value A)} {g : List (Value A) → Except (Value A) (Value A)} {x : Value A}
    (hm : m.1.code = .native g) (hv : g vs = .error x) : InvokeOk P G σ m vs (.thr x) { σ with last := some x } := fun s hd _ _ =>
  ⟨{ s with exc := some x, cf := .throw }, .const fun n => by simp only [invoke, hm, hv], rfl, ⟨hd.objs, hd.globals, hd.out, rfl⟩,
    ⟨rfl, rfl, rfl, Nat.le_refl _⟩, ⟨rfl, rfl, rfl⟩⟩

theorem invoke_body {m : Bound A} {vs : List (Value A)} (h : ∃ b, m.1.code = .body b) (n : Nat) :
    invoke P G n m vs s = (run P G n m.1 m.2 vs s).bind afterCall := by
  obtain ⟨b, hb⟩ := h; simp only [invoke, hb]

theorem invoke_value {m : Bound A} {vs : List (Value A)} {v : Value A} (hrun : RunOk P G σ m.1 m.2 vs (.ret (some v)) σ')
    (hv : m.1.isVoid = false) : InvokeOk P G σ m vs (.val v) σ' := by
  intro s hd hi hc
  obtain ⟨s₂, u, he, hc₂, hd₂, hs₂, hl₂, -, -, hu⟩ := hrun.2 s hd hi hc
  have hu := hu hv v rfl
  subst hu
  refine ⟨{ s₂ with cf := .normal }, ?_, rfl, ⟨hd₂.objs, hd₂.globals, hd₂.out, hd₂.exc⟩, ⟨hs₂.frames, hs₂.cur, hs₂.scopes, hs₂.next⟩, hl₂⟩
  refine he.via (h := fun _ => .ok u { s₂ with cf := .normal }) (fun n hn => ?_) (.const fun _ => rfl)
  rw [invoke_body hrun.1, hn]
  simp only [Res.bind, afterCall, hc₂, cfOf]

theorem invoke_void {m : Bound A} {vs : List (Value A)} {c : Comp A} (hrun : RunOk P G σ m.1 m.2 vs c σ')
    (hx : ∀ x, c ≠ .thr x) (hv : m.1.isVoid = true) : InvokeOk P G σ m vs (.val .null) σ' := by
  intro s hd hi hc
  obtain ⟨s₂, u, he, hc₂, hd₂, hs₂, hl₂, -, hu, -⟩ := hrun.2 s hd hi hc
  have hu := hu hv
  subst hu
  refine ⟨{ s₂ with cf := .normal }, ?_, rfl, ⟨hd₂.objs, hd₂.globals, hd₂.out, hd₂.exc⟩, ⟨hs₂.frames, hs₂.cur, hs₂.scopes, hs₂.next⟩, hl₂⟩
  refine he.via (h := fun _ => .ok .null { s₂ with cf := .normal }) (fun n hn => ?_) (.const fun _ => rfl)
  rw [invoke_body hrun.1, hn]
  cases c with
  | thr x => exact absurd rfl (hx x)
  | _ => simp only [Res.bind, afterCall, hc₂, cfOf]

theorem invoke_thr {m : Bound A} {vs : List (Value A)} {x : Value A} (hrun : RunOk P G σ m.1 m.2 vs (.thr x) σ') :
    InvokeOk P G σ m vs (.thr x) σ' := by
  intro s hd hi hc
  obtain ⟨s₂, u, he, hc₂, hd₂, hs₂, hl₂, hx, -, -⟩ := hrun.2 s hd hi hc
  refine ⟨s₂, ?_, hx x rfl, hd₂, hs₂, hl₂⟩
  refine he.via (h := fun _ => .raise .throw s₂) (fun n hn => ?_) (.const fun _ => rfl)
  rw [invoke_body hrun.1, hn]
  simp only [Res.bind, afterCall, hc₂, cfOf]

theorem run_body {m : Method A} {self : Option (Name × Nat)} {vs : List (Value A)} {b : List (Stmt A)} {c : Comp A}
    (hm : m.code = .body b)
    (hb : ListOk P G { σ with blocks := [methodVars self m vs], self := self, rv := .null } b c σ') :
    RunOk P G σ m self vs c { σ' with blocks := σ.blocks, self := σ.self, rv := σ.rv } := by
  refine ⟨⟨b, hm⟩, fun s hd hi hc => ?_⟩
  obtain ⟨s₁, he, hc₁, hj₁, hr₁, hs₁⟩ := hb s.frames [(s.next, false)] (pushFrame s self m vs) (pushFrame_rel hd hi self m vs) hc
  obtain ⟨s₂, hp, hsame, hd₂, hc₂⟩ := popFrame_same (σ := σ) hi hr₁ hs₁
  refine ⟨dropAlias s.next s₂, if m.isVoid then .null else σ'.rv, ?_, hc₂.trans hc₁, hd₂, hsame, ⟨rfl, rfl, rfl⟩,
    fun x hx => hj₁.thr x hx, fun hv => by rw [hv]; rfl, fun hv u hu => by rw [hv]; exact hj₁.ret u hu⟩
  refine Ends.step (g := fun n => match execList P G n b (pushFrame s self m vs) with
      | .ok _ s₁ =>
        let v := if m.isVoid then .null else returnValue s₁
        (popFrame s₁).bind fun _ s₂ => .ok v (dropAlias s.next s₂)
      | .raise c s₁ => .raise c (dropAlias s.next s₁)
      | .fatal => .fatal
      | .ub => .ub
      | .fuel => .fuel) (fun n => by simp only [run, hm]; rfl) ?_
  refine he.via (h := fun _ => .ok (if m.isVoid then .null else σ'.rv) (dropAlias s.next s₂)) (fun n hn => ?_) (.const fun _ => rfl)
  simp only [hn, hp, Res.bind, hr₁.returnValue]

/-! ## Statements -/

theorem list_nil : ListOk P G σ [] .normal σ := fun _ _ _ hr hc =>
  (Completes.done hr hc).step fun n => by rw [execList]

theorem list_cons {st : Stmt A} {b : List (Stmt A)} {c : Comp A} (h1 : ExecOk P G σ st .normal σ₁) (h2 : ListOk P G σ₁ b c σ₂) :
    ListOk P G σ (st :: b) c σ₂ := fun pre stk s hr hc =>
  ((h1 pre stk s hr hc).bind (k := fun n _ s => execList P G n b s) fun s₁ hr₁ hc₁ _ => h2 pre stk s₁ hr₁ hc₁).step
    fun n => by simp only [execList, hc, if_true]

theorem list_jump {st : Stmt A} {b : List (Stmt A)} {c : Comp A} (h1 : ExecOk P G σ st c σ₁) (hne : c ≠ .normal) :
    ListOk P G σ (st :: b) c σ₁ := fun pre stk s hr hc =>
  ((h1 pre stk s hr hc).bind (k := fun n _ s => execList P G n b s) fun s₁ hr₁ hc₁ hj₁ =>
    (Completes.pure hr₁ hc₁ hj₁).step fun n => by
      cases b with
      | nil => rw [execList]
      | cons t ts =>
        rw [execList, if_neg]
        rw [hc₁]; cases c <;> first | exact absurd rfl hne | nofun).step
    fun n => by simp only [execList, hc, if_true]

theorem block_ok {b : List (Stmt A)} {c : Comp A} (h : ListOk P G { σ with blocks := [] :: σ.blocks } b c σ₁) :
    BlockOk P G σ b c { σ₁ with blocks := σ₁.blocks.tail } := by
  intro pre stk s hr hc
  obtain ⟨s₁, h₁, hr₁, hs₁, hc₁⟩ := hr.pushScope
  obtain ⟨s₂, he₂, hc₂, hj₂, hr₂, hs₂⟩ := h pre _ s₁ hr₁ (hc₁.trans hc)
  obtain ⟨s₃, h₃, hr₃, hs₃, hn₃, hc₃⟩ := hr₂.popScope hr.ne
  refine ⟨s₃, ?_, hc₃.trans hc₂, ⟨hj₂.ret, hj₂.thr⟩, hr₃, Step.block hr.fresh hs₁ hs₂ hs₃ hn₃⟩
  refine Ends.step (g := fun n => (execList P G n b s₁).bind fun _ s => popScope s) (fun n => by simp only [execBlock, h₁, Res.bind]) ?_
  exact he₂.bind_ok (k := fun _ _ s => popScope s) (.const fun _ => h₃)

theorem exec_nop : ExecOk P G σ .nop .normal σ := fun _ _ _ hr hc =>
  (Completes.done hr hc).step fun n => by rw [exec]

theorem exec_expr {e : Expr A} {v : Value A} (he : EvalOk P G σ e (.val v) σ') : ExecOk P G σ (.expr e) .normal σ' :=
  fun pre stk s hr hc =>
  (Completes.try_val (k := fun _ _ s => .ok () s) (he pre stk s hr hc) fun _ hr₁ hc₁ => .done hr₁ hc₁).step
    fun n => by rw [exec]

theorem exec_exprThr {e : Expr A} {x : Value A} (he : EvalOk P G σ e (.thr x) σ') : ExecOk P G σ (.expr e) (.thr x) σ' :=
  fun pre stk s hr hc => (Completes.try_thr (k := fun _ _ s => .ok () s) (he pre stk s hr hc)).step fun n => by rw [exec]

theorem exec_exprAssignThr {p : Path} {e : Expr A} {w : Place} {old x : Value A} (hl : σ.locate p = some (w, old))
    (he : EvalOk P G σ e (.thr x) σ') : ExecOk P G σ (.expr (.assign p e)) (.thr x) σ' := by
  intro pre stk s hr hc
  obtain ⟨s₁, he, hx, hr₁, hs₁⟩ := he pre stk s hr hc
  refine ⟨{ s₁ with cf := .throw }, ?_, rfl, .of_last hx, hr₁.cf _, hs₁.cf _⟩
  refine Ends.step (g := fun n => (eval P G n (.assign p e) s).tryControl fun _ s => .ok () s) (fun n => by rw [exec]) ?_
  refine Ends.try_ok (a := .null) (s := { s₁ with cf := .throw }) (k := fun _ _ s => .ok () s) ?_ (.const fun _ => rfl)
  refine Ends.step (g := fun n => match eval P G n e s with
        | .ok v s => assignTo s (sref (ids stk) w) p.last (P.assign old v)
        | .raise c s => .ok .null { s with cf := c }
        | r => r) (fun n => by simp only [eval, lvalue_ok hr hl, Res.bind]; rfl) ?_
  exact he.via (h := fun _ => .ok .null { s₁ with cf := .throw }) (fun n hn => by simp only [hn]) (Ends.const fun _ => rfl)

theorem exec_assign {p : Path} {e : Expr A} {w : Place} {old v v' : Value A} (hl : σ.locate p = some (w, old))
    (he : EvalOk P G σ e (.val v) σ') (ha : P.assign old v = some v') :
    ExecOk P G σ (.assign p e) .normal (σ'.write w p.last v') := fun pre stk s hr hc =>
  (Completes.try_val (k := fun _ v s => (assignTo s (sref (ids stk) w) p.last (P.assign old v)).bind fun _ s => .ok () s)
    (he pre stk s hr hc) fun s₁ hr₁ hc₁ =>
      have hst := hr₁.store (place_ok hr hl) p.last v'
      (Completes.nowN hst.1 (hst.2.2.trans hc₁) hst.2.1).congr fun n => by simp only [ha, assignTo, Res.bind]).step
    fun n => by simp only [exec, lvalue_ok hr hl, Res.bind]

theorem exec_assignThr {p : Path} {e : Expr A} {w : Place} {old x : Value A} (hl : σ.locate p = some (w, old))
    (he : EvalOk P G σ e (.thr x) σ') : ExecOk P G σ (.assign p e) (.thr x) σ' := fun pre stk s hr hc =>
  (Completes.try_thr (k := fun _ v s => (assignTo s (sref (ids stk) w) p.last (P.assign old v)).bind fun _ s => .ok () s)
    (he pre stk s hr hc)).step fun n => by simp only [exec, lvalue_ok hr hl, Res.bind]

theorem exec_decl {ty x : Name} {b : AMap Name (Value A)} {bs : List (AMap Name (Value A))} (hb : σ.blocks = b :: bs)
    (hx : b.find x = none) : ExecOk P G σ (.decl ty x none) .normal { σ with blocks := b.set x (P.default ty) :: bs } := by
  intro pre stk s hr hc
  obtain ⟨s', hd, hr', hs', hc'⟩ := hr.define hb hx (P.default ty)
  exact (Completes.nowN hr' (hc'.trans hc) hs').step fun n => by rw [exec]; exact hd

theorem assignDeclared_ok {x : Name} {w : Place} {old v v' : Value A} (hr : Rel pre stk σ s) (hn : σ.name x = some (w, old))
    (ha : P.assign old v = some v') : assignDeclared P x v s = .ok () (store s (sref (ids stk) w) x v') := by
  obtain ⟨i, b, stk, blk, bs, rfl, -⟩ := hr.cons
  simp only [assignDeclared, hr.getScope, hr.look_name, hn, lookOf, ha, assignTo, Res.bind]

theorem exec_declInit {ty x : Name} {e : Expr A} {b : AMap Name (Value A)} {bs : List (AMap Name (Value A))} {w : Place}
    {old v v' : Value A} (hb : σ.blocks = b :: bs) (hx : b.find x = none)
    (he : EvalOk P G { σ with blocks := b.set x (P.default ty) :: bs } e (.val v) σ') (hn : σ'.name x = some (w, old))
    (ha : P.assign old v = some v') : ExecOk P G σ (.decl ty x (some e)) .normal (σ'.write w x v') := by
  intro pre stk s hr hc
  obtain ⟨s', hd, hr', hs', hc'⟩ := hr.define hb hx (P.default ty)
  have := Completes.try_val (k := fun _ v s => assignDeclared P x v s) (he pre stk s' hr' (hc'.trans hc)) fun s₁ hr₁ hc₁ =>
    have hst := hr₁.store (by rw [hr₁.length]; exact name_ok hn) x v'
    (Completes.nowN hst.1 (hst.2.2.trans hc₁) hst.2.1).congr fun n => assignDeclared_ok hr₁ hn ha
  obtain ⟨s₂, he₂, hc₂, hj₂, hr₂, hs₂⟩ := this
  exact ⟨s₂, he₂.step fun n => by simp only [exec, declare, hd, Res.bind], hc₂, hj₂, hr₂, hs'.trans hs₂⟩

theorem exec_declThr {ty x : Name} {e : Expr A} {b : AMap Name (Value A)} {bs : List (AMap Name (Value A))} {y : Value A}
    (hb : σ.blocks = b :: bs) (hx : b.find x = none)
    (he : EvalOk P G { σ with blocks := b.set x (P.default ty) :: bs } e (.thr y) σ') :
    ExecOk P G σ (.decl ty x (some e)) (.thr y) σ' := by
  intro pre stk s hr hc
  obtain ⟨s', hd, hr', hs', hc'⟩ := hr.define hb hx (P.default ty)
  obtain ⟨s₂, he₂, hc₂, hj₂, hr₂, hs₂⟩ :=
    Completes.try_thr (k := fun _ v s => assignDeclared P x v s) (he pre stk s' hr' (hc'.trans hc))
  exact ⟨s₂, he₂.step fun n => by simp only [exec, declare, hd, Res.bind], hc₂, hj₂, hr₂, hs'.trans hs₂⟩

theorem exec_print {e : Expr A} {v : Value A} (he : EvalOk P G σ e (.val v) σ') :
    ExecOk P G σ (.print e) .normal { σ' with out := v :: σ'.out } := fun pre stk s hr hc =>
  (Completes.try_val (k := fun _ v s => .ok () (printed v s)) (he pre stk s hr hc) fun s₁ hr₁ hc₁ =>
    Completes.nowN (s' := printed v s₁) (σ := { σ' with out := v :: σ'.out })
      ⟨hr₁.frames, hr₁.cur, hr₁.ne, hr₁.chain, hr₁.fresh,
        ⟨hr₁.data.objs, hr₁.data.globals, by simp only [printed, hr₁.data.out], hr₁.data.exc⟩⟩
      hc₁ ⟨fun _ _ => rfl, Nat.le_refl _⟩).step fun n => by rw [exec]

theorem exec_printThr {e : Expr A} {x : Value A} (he : EvalOk P G σ e (.thr x) σ') : ExecOk P G σ (.print e) (.thr x) σ' :=
  fun pre stk s hr hc => (Completes.try_thr (k := fun _ v s => .ok () (printed v s)) (he pre stk s hr hc)).step fun n => by rw [exec]

/-- The end of an assertion. -/
def assertK (P : Prim A) (G : Prog A) (msg : Option (Expr A)) (n : Nat) (v : Value A) (s : St A) : Res A Unit :=
  if isTrue P v then .ok () s
  else
    match msg with
    | none => .fatal
    | some m => (eval P G n m s).tryControl fun _ _ => .fatal

theorem exec_assert {e : Expr A} {msg : Option (Expr A)} {v : Value A} (he : EvalOk P G σ e (.val v) σ') (hv : isTrue P v = true) :
    ExecOk P G σ (.assert e msg) .normal σ' := fun pre stk s hr hc =>
  (Completes.try_val (k := assertK P G msg) (he pre stk s hr hc) fun s₁ hr₁ hc₁ =>
    (Completes.done hr₁ hc₁).congr fun n => by simp only [assertK, hv, if_true]).step fun n => by rw [exec]; rfl

theorem exec_assertThr {e : Expr A} {msg : Option (Expr A)} {x : Value A} (he : EvalOk P G σ e (.thr x) σ') :
    ExecOk P G σ (.assert e msg) (.thr x) σ' := fun pre stk s hr hc =>
  (Completes.try_thr (k := assertK P G msg) (he pre stk s hr hc)).step fun n => by rw [exec]; rfl

theorem exec_delete {e : Expr A} {v : Value A} (he : EvalOk P G σ e (.val v) σ') : ExecOk P G σ (.delete e) .normal σ' :=
  fun pre stk s hr hc =>
  (Completes.try_val (k := fun _ _ s => .ok () s) (he pre stk s hr hc) fun _ hr₁ hc₁ => .done hr₁ hc₁).step
    fun n => by rw [exec]

theorem exec_deleteThr {e : Expr A} {x : Value A} (he : EvalOk P G σ e (.thr x) σ') : ExecOk P G σ (.delete e) (.thr x) σ' :=
  fun pre stk s hr hc => (Completes.try_thr (k := fun _ _ s => .ok () s) (he pre stk s hr hc)).step fun n => by rw [exec]

theorem exec_retNone : ExecOk P G σ (.ret none) (.ret none) σ := fun _ _ _ hr _ =>
  (Completes.jump (c := .ret none) hr ⟨by nofun, by nofun⟩).step fun n => by rw [exec]; rfl

/-- The end of a return statement. -/
def retK (P : Prim A) (_ : Nat) (v : Value A) (s : St A) : Res A Unit :=
  match s.frames[s.cur]? with
  | none => .ub
  | some fr =>
    match P.ret fr.ret v with
    | none => .fatal
    | some v => .ok () { setFrame s { fr with ret := v } with cf := .ret }

theorem exec_ret {e : Expr A} {v : Value A} (he : EvalOk P G σ e (.val v) σ') (hv : P.ret σ'.rv v = some v) :
    ExecOk P G σ (.ret (some e)) (.ret (some v)) { σ' with rv := v } := fun pre stk s hr hc =>
  (Completes.try_val (k := retK P) (he pre stk s hr hc) fun s₁ hr₁ hc₁ =>
    Completes.congr (g := fun _ => .ok () { setFrame s₁ { stack := stk, ret := v } with cf := .ret })
      (fun n => by simp only [retK, hr₁.frame, hv])
      (Completes.now (c := .ret (some v)) (σ := { σ' with rv := v })
        ⟨by simp [setFrame, hr₁.cur, hr₁.frames], hr₁.cur, hr₁.ne, hr₁.chain, hr₁.fresh,
          ⟨hr₁.data.objs, hr₁.data.globals, hr₁.data.out, hr₁.data.exc⟩⟩
        rfl ⟨fun u hu => by cases hu; rfl, by nofun⟩ ⟨fun _ _ => rfl, Nat.le_refl _⟩)).step fun n => by rw [exec]; rfl

theorem exec_retThr {e : Expr A} {x : Value A} (he : EvalOk P G σ e (.thr x) σ') : ExecOk P G σ (.ret (some e)) (.thr x) σ' :=
  fun pre stk s hr hc => (Completes.try_thr (k := retK P) (he pre stk s hr hc)).step fun n => by rw [exec]; rfl

theorem exec_throw {e : Expr A} {v : Value A} (he : EvalOk P G σ e (.val v) σ') :
    ExecOk P G σ (.throw (some e)) (.thr v) { σ' with last := some v } := fun pre stk s hr hc =>
  (Completes.try_val (k := fun _ v s => .ok () { s with exc := some v, cf := .throw }) (he pre stk s hr hc) fun s₁ hr₁ hc₁ =>
    Completes.now (c := .thr v) (σ := { σ' with last := some v }) (s' := { s₁ with exc := some v, cf := .throw })
      ⟨hr₁.frames, hr₁.cur, hr₁.ne, hr₁.chain, hr₁.fresh, ⟨hr₁.data.objs, hr₁.data.globals, hr₁.data.out, rfl⟩⟩
      rfl (.of_last rfl) ⟨fun _ _ => rfl, Nat.le_refl _⟩).step fun n => by rw [exec]

theorem exec_throwThr {e : Expr A} {x : Value A} (he : EvalOk P G σ e (.thr x) σ') : ExecOk P G σ (.throw (some e)) (.thr x) σ' :=
  fun pre stk s hr hc =>
  (Completes.try_thr (k := fun _ v s => .ok () { s with exc := some v, cf := .throw }) (he pre stk s hr hc)).step
    fun n => by rw [exec]

theorem exec_rethrow {x : Value A} (h : σ.last = some x) : ExecOk P G σ (.throw none) (.thr x) { σ with last := some x } := by
  intro pre stk s hr hc
  rw [show ({ σ with last := some x } : State A) = σ by rw [← h]]
  exact (Completes.jump (c := .thr x) hr (.of_last h)).step fun n => by rw [exec]; rfl

theorem exec_brk : ExecOk P G σ .brk .brk σ := fun _ _ _ hr _ =>
  (Completes.jump (c := .brk) hr ⟨by nofun, by nofun⟩).step fun n => by rw [exec]; rfl

theorem exec_cont : ExecOk P G σ .cont .cont σ := fun _ _ _ hr _ =>
  (Completes.jump (c := .cont) hr ⟨by nofun, by nofun⟩).step fun n => by rw [exec]; rfl

theorem exec_iteT {c : Expr A} {t e : Stmt A} {v : Value A} {d : Comp A} (hc' : EvalOk P G σ c (.val v) σ₁) (hv : isTrue P v = true)
    (ht : ExecOk P G σ₁ t d σ₂) : ExecOk P G σ (.ite c t e) d σ₂ := fun pre stk s hr hc =>
  (Completes.try_val (k := fun n v s => if isTrue P v then exec P G n t s else exec P G n e s) (hc' pre stk s hr hc)
    fun s₁ hr₁ hc₁ => (ht pre stk s₁ hr₁ hc₁).congr fun n => by simp only [hv, if_true]).step fun n => by rw [exec]

theorem exec_iteF {c : Expr A} {t e : Stmt A} {v : Value A} {d : Comp A} (hc' : EvalOk P G σ c (.val v) σ₁) (hv : isTrue P v = false)
    (ht : ExecOk P G σ₁ e d σ₂) : ExecOk P G σ (.ite c t e) d σ₂ := fun pre stk s hr hc =>
  (Completes.try_val (k := fun n v s => if isTrue P v then exec P G n t s else exec P G n e s) (hc' pre stk s hr hc)
    fun s₁ hr₁ hc₁ => (ht pre stk s₁ hr₁ hc₁).congr fun n => by simp only [hv, Bool.false_eq_true, if_false]).step
    fun n => by rw [exec]

theorem exec_iteThr {c : Expr A} {t e : Stmt A} {x : Value A} (hc' : EvalOk P G σ c (.thr x) σ₁) :
    ExecOk P G σ (.ite c t e) (.thr x) σ₁ := fun pre stk s hr hc =>
  (Completes.try_thr (k := fun n v s => if isTrue P v then exec P G n t s else exec P G n e s) (hc' pre stk s hr hc)).step
    fun n => by rw [exec]

/-! ### While -/

/-- The rest of a while statement after its condition. -/
def whileK (P : Prim A) (G : Prog A) (c : Expr A) (b : Stmt A) (n : Nat) (v : Value A) (s : St A) : Res A Unit :=
  if isTrue P v then
    (exec P G n b s).bind fun _ s =>
      match afterBody s with
      | some s => execWhile P G n c b s
      | none => .ok () (leaveLoop s)
  else .ok () s

/-- The rest of a while statement after its body. -/
def whileNextK (P : Prim A) (G : Prog A) (c : Expr A) (b : Stmt A) (n : Nat) (_ : Unit) (s : St A) : Res A Unit :=
  match afterBody s with
  | some s => execWhile P G n c b s
  | none => .ok () (leaveLoop s)

theorem exec_while_eq (c : Expr A) (b : Stmt A) (s : St A) (n : Nat) :
    exec P G (n + 2) (.while c b) s = (eval P G n c s).tryControl (whileK P G c b n) := by
  rw [exec, execWhile]; rfl

theorem whileK_true {c : Expr A} {b : Stmt A} {v : Value A} (hv : isTrue P v = true) (n : Nat) (s : St A) :
    whileK P G c b n v s = (exec P G n b s).bind (whileNextK P G c b n) := by
  simp only [whileK, hv, if_true]; rfl

theorem Completes.step2 {f g : Nat → Res A Unit} {c : Comp A} (h : ∀ n, f (n + 2) = g n) (hg : Completes pre stk s g c σ') :
    Completes pre stk s f c σ' := by
  refine Completes.step (g := fun n => f (n + 1)) (fun n => rfl) (Completes.step (g := g) (fun n => h n) hg)

theorem execWhile_of_exec {c : Expr A} {b : Stmt A} {d : Comp A} (h : ExecOk P G σ (.while c b) d σ') (hr : Rel pre stk σ s)
    (hc : s.cf = .normal) : Completes pre stk s (fun n => execWhile P G n c b s) d σ' := by
  obtain ⟨s', ⟨k, hk⟩, h⟩ := h pre stk s hr hc
  refine ⟨s', ⟨k, fun m hm => ?_⟩, h⟩
  have := hk (m + 1) (by omega)
  simp only [exec] at this
  exact this

theorem exec_whileF {c : Expr A} {b : Stmt A} {v : Value A} (hc' : EvalOk P G σ c (.val v) σ₁) (hv : isTrue P v = false) :
    ExecOk P G σ (.while c b) .normal σ₁ := fun pre stk s hr hc =>
  (Completes.try_val (k := whileK P G c b) (hc' pre stk s hr hc) fun s₁ hr₁ hc₁ =>
    (Completes.done hr₁ hc₁).congr fun n => by simp only [whileK, hv, Bool.false_eq_true, if_false]).step2
    (exec_while_eq c b s)

theorem exec_whileThr {c : Expr A} {b : Stmt A} {x : Value A} (hc' : EvalOk P G σ c (.thr x) σ₁) :
    ExecOk P G σ (.while c b) (.thr x) σ₁ := fun pre stk s hr hc =>
  (Completes.try_thr (k := whileK P G c b) (hc' pre stk s hr hc)).step2 (exec_while_eq c b s)

theorem exec_whileNext {c : Expr A} {b : Stmt A} {v : Value A} {d d' : Comp A} (hc' : EvalOk P G σ c (.val v) σ₁)
    (hv : isTrue P v = true) (hb : ExecOk P G σ₁ b d σ₂) (hd : d = .normal ∨ d = .cont)
    (hw : ExecOk P G σ₂ (.while c b) d' σ₃) : ExecOk P G σ (.while c b) d' σ₃ := fun pre stk s hr hc =>
  (Completes.try_val (k := whileK P G c b) (hc' pre stk s hr hc) fun s₁ hr₁ hc₁ =>
    ((hb pre stk s₁ hr₁ hc₁).bind (k := whileNextK P G c b) fun s₂ hr₂ hc₂ _ =>
      ((execWhile_of_exec hw (hr₂.cf .normal) rfl).of_cf).congr fun n => by
        rcases hd with rfl | rfl <;> simp only [whileNextK, afterBody, hc₂, cfOf]).congr fun n => whileK_true hv n s₁).step2
    (exec_while_eq c b s)

theorem exec_whileBrk {c : Expr A} {b : Stmt A} {v : Value A} (hc' : EvalOk P G σ c (.val v) σ₁)
    (hv : isTrue P v = true) (hb : ExecOk P G σ₁ b .brk σ₂) : ExecOk P G σ (.while c b) .normal σ₂ := fun pre stk s hr hc =>
  (Completes.try_val (k := whileK P G c b) (hc' pre stk s hr hc) fun s₁ hr₁ hc₁ =>
    ((hb pre stk s₁ hr₁ hc₁).bind (k := whileNextK P G c b) fun s₂ hr₂ hc₂ _ =>
      (Completes.jump (c := .normal) hr₂ (.normal _)).congr fun n => by
        simp only [whileNextK, afterBody, leaveLoop, hc₂, cfOf]).congr fun n => whileK_true hv n s₁).step2
    (exec_while_eq c b s)

theorem leave_cf {d : Comp A} (hd : (∃ r, d = .ret r) ∨ (∃ x, d = .thr x)) (hc : s.cf = cfOf d) :
    afterBody s = none ∧ leaveLoop s = s := by
  rcases hd with ⟨r, rfl⟩ | ⟨x, rfl⟩ <;> simp only [afterBody, leaveLoop, hc, cfOf, and_self]

theorem exec_whileLeave {c : Expr A} {b : Stmt A} {v : Value A} {d : Comp A} (hc' : EvalOk P G σ c (.val v) σ₁)
    (hv : isTrue P v = true) (hb : ExecOk P G σ₁ b d σ₂) (hd : (∃ r, d = .ret r) ∨ (∃ x, d = .thr x)) :
    ExecOk P G σ (.while c b) d σ₂ := fun pre stk s hr hc =>
  (Completes.try_val (k := whileK P G c b) (hc' pre stk s hr hc) fun s₁ hr₁ hc₁ =>
    ((hb pre stk s₁ hr₁ hc₁).bind (k := whileNextK P G c b) fun s₂ hr₂ hc₂ hj₂ =>
      (Completes.pure hr₂ hc₂ hj₂).congr fun n => by
        simp only [whileNextK, (leave_cf hd hc₂).1, (leave_cf hd hc₂).2]).congr fun n => whileK_true hv n s₁).step2
    (exec_while_eq c b s)

/-! ### For -/

theorem for_stop {c : Expr A} {iter b : Stmt A} {v : Value A} (hc' : EvalOk P G σ c (.val v) σ₁) (hv : isTrue P v = false) :
    ForOk P G σ (some c) iter b .normal σ₁ := by
  intro pre i stk s hr hc hne
  obtain ⟨s₁, he, hc₁, hr₁, hs₁⟩ := hc' pre _ s hr hc
  obtain ⟨s₂, h₂, hr₂, hs₂, hn₂, hc₂⟩ := hr₁.popScope hne
  refine ⟨s₂, ?_, hc₂.trans hc₁, .normal _, hr₂, ?_, hn₂⟩
  · refine Ends.step (g := fun n => (eval P G n c s).tryControl fun v s => if isTrue P v then forBody P G n (some c) iter b s else popScope s)
      (fun n => by rw [execFor]) ?_
    exact he.try_ok (k := fun n v s => if isTrue P v then forBody P G n (some c) iter b s else popScope s)
      (.const fun n => by simp only [hv, Bool.false_eq_true, if_false, h₂])
  · refine ⟨fun j hj => ?_, Nat.le_trans hs₁.next hs₂.next⟩
    rw [hs₂.scopes j (by simp only [List.mem_cons, not_or] at hj; simp [hj.1]), hs₁.scopes j hj]

theorem for_next {c : Option (Expr A)} {iter b : Stmt A} {d d' : Comp A} (hh : HoldsOk P G σ c σ₁) (hb : ExecOk P G σ₁ b d σ₂)
    (hd : d = .normal ∨ d = .cont) (hi : ExecOk P G σ₂ iter .normal σ₃) (hf : ForOk P G σ₃ c iter b d' σ₄) :
    ForOk P G σ c iter b d' σ₄ := by
  intro pre i stk s hr hc hne
  have hbody : ∀ s₁, Rel pre ((i, true) :: stk) σ₁ s₁ → s₁.cf = .normal →
      ∃ s', Ends (fun n => forBody P G n c iter b s₁) (.ok () s') ∧ s'.cf = cfOf d' ∧ Jump d' σ₄ ∧
        Rel pre stk { σ₄ with blocks := σ₄.blocks.tail } s' ∧ Step (i :: ids stk) s₁ s' ∧ s'.scopes i = none := by
    intro s₁ hr₁ hc₁
    obtain ⟨s₂, he₂, hc₂, -, hr₂, hs₂⟩ := hb pre _ s₁ hr₁ hc₁
    obtain ⟨s₃, he₃, hc₃, -, hr₃, hs₃⟩ := hi pre _ { s₂ with cf := .normal } (hr₂.cf .normal) rfl
    obtain ⟨s₄, he₄, hc₄, hj₄, hr₄, hs₄, hn₄⟩ := hf pre i stk s₃ hr₃ hc₃ hne
    refine ⟨s₄, ?_, hc₄, hj₄, hr₄, (hs₂.trans hs₃.cf_left).trans hs₄, hn₄⟩
    refine Ends.step (g := fun n => (exec P G n b s₁).bind fun _ s =>
      match afterBody s with
      | some s => (exec P G n iter s).bind fun _ s => execFor P G n c iter b s
      | none => .ok () (leaveLoop s)) (fun n => by rw [forBody]; rfl) ?_
    refine he₂.bind_ok (k := fun n _ s =>
      match afterBody s with
      | some s => (exec P G n iter s).bind fun _ s => execFor P G n c iter b s
      | none => .ok () (leaveLoop s)) ?_
    have hab : afterBody s₂ = some { s₂ with cf := .normal } := by
      rcases hd with rfl | rfl <;> simp only [afterBody, hc₂, cfOf]
    simp only [hab]
    exact he₃.bind_ok (k := fun n _ s => execFor P G n c iter b s) he₄
  cases c with
  | none =>
    have hh : σ₁ = σ := hh
    subst hh
    obtain ⟨s', he, h⟩ := hbody s hr hc
    exact ⟨s', he.step fun n => by rw [execFor], h⟩
  | some e =>
    obtain ⟨v, he, hv⟩ := hh
    obtain ⟨s₁, he₁, hc₁, hr₁, hs₁⟩ := he pre _ s hr hc
    obtain ⟨s₂, he₂, hc₂, hj₂, hr₂, hs₂, hn₂⟩ := hbody s₁ hr₁ hc₁
    refine ⟨s₂, ?_, hc₂, hj₂, hr₂, hs₁.trans hs₂, hn₂⟩
    refine Ends.step (g := fun n => (eval P G n e s).tryControl fun v s => if isTrue P v then forBody P G n (some e) iter b s else popScope s)
      (fun n => by rw [execFor]) ?_
    refine he₁.try_ok (k := fun n v s => if isTrue P v then forBody P G n (some e) iter b s else popScope s) ?_
    simp only [hv, if_true]
    exact he₂

theorem exec_for {init : Stmt A} {c : Option (Expr A)} {iter b : Stmt A} {d : Comp A}
    (hi : ExecOk P G { σ with blocks := [] :: σ.blocks } init .normal σ₁) (hf : ForOk P G σ₁ c iter b d σ₂) :
    ExecOk P G σ (.for init c iter b) d { σ₂ with blocks := σ₂.blocks.tail } := by
  intro pre stk s hr hc
  obtain ⟨s₁, h₁, hr₁, hs₁, hc₁⟩ := hr.pushScope
  obtain ⟨s₂, he₂, hc₂, -, hr₂, hs₂⟩ := hi pre _ s₁ hr₁ (hc₁.trans hc)
  obtain ⟨s₃, he₃, hc₃, hj₃, hr₃, hs₃, hn₃⟩ := hf pre s.next stk s₂ hr₂ hc₂ hr.ne
  refine ⟨s₃, ?_, hc₃, ⟨hj₃.ret, hj₃.thr⟩, hr₃, Step.block hr.fresh hs₁ (hs₂.trans hs₃) (.refl _ _) hn₃⟩
  refine Ends.step (g := fun n => (exec P G n init s₁).bind fun _ s => execFor P G n c iter b s)
    (fun n => by simp only [exec, h₁, Res.bind]) ?_
  exact he₂.bind_ok (k := fun n _ s => execFor P G n c iter b s) he₃

/-! ### Foreach -/

/-- A parameterless method of the iterator or collection. -/
theorem aliasCall {v u : Value A} {cls : Name} {i : Nat} {f : Name} {m : Bound A} (hv : v = .obj cls i)
    (hm : Spec.methodOf G (some (cls, i)) f [] = some m) (hi : InvokeOk P G σ m [] (.val u) σ') (hr : Rel pre stk σ s)
    (hc : s.cf = .normal) : Yields pre stk s (fun n => withAlias v s fun s => call P G n [] f [] s) (.val u) σ' := by
  subst hv
  have hll : Local σ σ' := by obtain ⟨_, _, _, _, _, h⟩ := hi s hr.data hr.idle hc; exact h
  refine withAlias_yields hr hll hc fun s₂ hd₂ hi₂ hc₂ hg₂ ha₂ => ?_
  obtain ⟨s₃, he, hc₃, hd₃, hs₃, -⟩ := hi s₂ hd₂ hi₂ hc₂
  exact ⟨s₃, he.step fun n => call_found P G (resolveCall_alias hg₂ ha₂ hm) n, hs₃, hd₃, hc₃⟩

/-- The rest of a foreach statement after the collection. -/
def foreachK (P : Prim A) (G : Prog A) (ty x : Name) (b : Stmt A) (n : Nat) (v : Value A) (s : St A) : Res A Unit :=
  (withAlias v s fun s => call P G n [] "getIterator" [] s).bind fun it s => execForeach P G n ty x it b s

theorem exec_foreach {ty x : Name} {coll : Expr A} {b : Stmt A} {cls : Name} {i : Nat} {it : Value A} {m : Bound A} {d : Comp A}
    (he : EvalOk P G σ coll (.val (.obj cls i)) σ₁) (hm : Spec.methodOf G (some (cls, i)) "getIterator" [] = some m)
    (hi : InvokeOk P G σ₁ m [] (.val it) σ₂) (hl : EachOk P G σ₂ ty x it b d σ₃) : ExecOk P G σ (.foreach ty x coll b) d σ₃ :=
  fun pre stk s hr hc =>
  (Completes.try_val (k := foreachK P G ty x b) (he pre stk s hr hc) fun _ hr₁ hc₁ =>
    Completes.bind_val (k := fun n it s => execForeach P G n ty x it b s) (aliasCall rfl hm hi hr₁ hc₁)
      fun s₂ hr₂ hc₂ => hl pre stk s₂ hr₂ hc₂).step fun n => by rw [exec]; rfl

theorem exec_foreachThr {ty x : Name} {coll : Expr A} {b : Stmt A} {y : Value A} (he : EvalOk P G σ coll (.thr y) σ₁) :
    ExecOk P G σ (.foreach ty x coll b) (.thr y) σ₁ := fun pre stk s hr hc =>
  (Completes.try_thr (k := foreachK P G ty x b) (he pre stk s hr hc)).step fun n => by rw [exec]; rfl

theorem exec_foreachIt {ty x : Name} {path : List Name} {f : Name} {args : List (Expr A)} {b : Stmt A} {it : Value A} {d : Comp A}
    (he : EvalOk P G σ (.call path f args) (.val it) σ₁) (hl : EachOk P G σ₁ ty x it b d σ₂) :
    ExecOk P G σ (.foreachIt ty x path f args b) d σ₂ := by
  intro pre stk s hr hc
  obtain ⟨s₁, ⟨k, hk⟩, hc₁, hr₁, hs₁⟩ := he pre stk s hr hc
  obtain ⟨s₂, he₂, hc₂, hj₂, hr₂, hs₂⟩ := hl pre stk s₁ hr₁ hc₁
  refine ⟨s₂, ?_, hc₂, hj₂, hr₂, hs₁.trans hs₂⟩
  have hcall : Ends (fun n => (evalArgs P G n args s).bind fun vs s => call P G n path f vs s) (.ok it s₁) :=
    ⟨k, fun n hn => by have := hk (n + 1) (by omega); simp only [eval] at this; exact this⟩
  refine Ends.step (g := fun n => ((evalArgs P G n args s).bind fun vs s => call P G n path f vs s).bind fun it s =>
    execForeach P G n ty x it b s) (fun n => ?_) (hcall.bind_ok (k := fun n it s => execForeach P G n ty x it b s) he₂)
  rw [exec]; cases evalArgs P G n args s <;> rfl

theorem set_single (x : Name) (u v : Value A) : AMap.set x v (AMap.set x u ([] : AMap Name (Value A))) = [(x, v)] := by
  simp [AMap.set]

theorem overwrite_ok {x : Name} {u v : Value A} {bs : List (AMap Name (Value A))} (hr : Rel pre stk σ s) (hb : σ.blocks = [(x, u)] :: bs) :
    ∃ s', overwriteDeclared x v s = .ok () s' ∧ Rel pre stk { σ with blocks := [(x, v)] :: bs } s' ∧ Step (ids stk) s s' ∧ s'.cf = s.cf := by
  have hn : σ.name x = some (.loc 0, u) := by simp [State.name, hb, Spec.findBlock, AMap.find]
  have hst := hr.store (by rw [hr.length]; exact name_ok hn) x v
  obtain ⟨i, b, stk, blk, bs', rfl, -⟩ := hr.cons
  refine ⟨_, by simp only [overwriteDeclared, hr.getScope, hr.look_name, hn, lookOf], ?_, hst.2.1, hst.2.2⟩
  have := hst.1
  simpa [State.write, hb, AMap.set] using this

theorem each_stop {ty x : Name} {cls : Name} {i : Nat} {b : Stmt A} {m : Bound A} {v : Value A}
    (hm : Spec.methodOf G (some (cls, i)) "hasNext" [] = some m) (hi : InvokeOk P G σ m [] (.val v) σ₁) (hv : isTrue P v = false) :
    EachOk P G σ ty x (.obj cls i) b .normal σ₁ := by
  intro pre stk s hr hc
  obtain ⟨s₁, he, hc₁, hr₁, hs₁⟩ := aliasCall rfl hm hi hr hc
  refine ⟨s₁, ?_, hc₁, .normal _, hr₁, hs₁⟩
  refine he.via (h := fun _ => .ok () s₁) (g := fun n => execForeach P G (n + 1) ty x (.obj cls i) b s) (fun n hn => ?_) (.const fun _ => rfl) |>.step
    (fun n => rfl)
  simp only [execForeach, hn, Res.bind, hv, Bool.false_eq_true, if_false]

/-- One round of the loop up to the end of the body. -/
theorem each_round {ty x : Name} {it v : Value A} {b : Stmt A} {d : Comp A} (hh : HasNextOk P G σ it σ₁)
    (hn : NextOk P G σ₁ it (.val v) σ₂) (hb : ExecOk P G { σ₂ with blocks := [(x, v)] :: σ₂.blocks } b d σ₃)
    (hr : Rel pre stk σ s) (hc : s.cf = .normal) :
    ∃ s', s'.cf = cfOf d ∧ Jump d σ₃ ∧ Rel pre stk { σ₃ with blocks := σ₃.blocks.tail } s' ∧ Step (ids stk) s s' ∧
      ∀ r, Ends (fun n => match afterBody s' with
        | some s => execForeach P G n ty x it b s
        | none => .ok () (leaveLoop s')) r → Ends (fun n => execForeach P G n ty x it b s) r := by
  obtain ⟨cls, i, m, u, rfl, hm, hi, hu⟩ := hh
  obtain ⟨cls', i', m', hit, hm', hi'⟩ := hn
  cases hit
  obtain ⟨s₁, he₁, hc₁, hr₁, hs₁⟩ := aliasCall rfl hm hi hr hc
  obtain ⟨s₂, h₂, hr₂, hs₂, hc₂⟩ := hr₁.pushScope
  obtain ⟨s₃, h₃, hr₃, hs₃, hc₃⟩ := hr₂.define rfl (x := x) rfl (P.default ty)
  -- `next` is called while the loop variable exists already
  have hi'' : InvokeOk P G { σ₁ with blocks := AMap.set x (P.default ty) [] :: σ₁.blocks } m' [] (.val v)
      { σ₂ with blocks := AMap.set x (P.default ty) [] :: σ₁.blocks } := by
    intro s hd hidle hcf
    obtain ⟨s', he, hcf', hd', hs', hl'⟩ := hi' s ⟨hd.objs, hd.globals, hd.out, hd.exc⟩ hidle hcf
    exact ⟨s', he, hcf', ⟨hd'.objs, hd'.globals, hd'.out, hd'.exc⟩, hs', ⟨rfl, hl'.self, hl'.rv⟩⟩
  have hbl : σ₂.blocks = σ₁.blocks := by
    obtain ⟨_, _, _, _, _, h⟩ := hi' s₁ hr₁.data hr₁.idle hc₁; exact h.blocks
  obtain ⟨s₄, he₄, hc₄, hr₄, hs₄⟩ := aliasCall rfl hm' hi'' hr₃ (hc₃.trans (hc₂.trans hc₁))
  obtain ⟨s₅, h₅, hr₅, hs₅, hc₅⟩ := overwrite_ok (v := v) hr₄ (u := P.default ty) (bs := σ₁.blocks) rfl
  have hr₅ : Rel pre ((s₁.next, true) :: stk) { σ₂ with blocks := [(x, v)] :: σ₂.blocks } s₅ := by rw [hbl]; exact hr₅
  obtain ⟨s₆, he₆, hc₆, hj₆, hr₆, hs₆⟩ := hb pre _ s₅ hr₅ (hc₅.trans hc₄)
  obtain ⟨s₇, h₇, hr₇, hs₇, hn₇, hc₇⟩ := hr₆.popScope hr.ne
  refine ⟨s₇, hc₇.trans hc₆, hj₆, hr₇, hs₁.trans (Step.block hr₁.fresh hs₂ (((hs₃.trans hs₄).trans hs₅).trans hs₆) hs₇ hn₇), fun r hr' => ?_⟩
  refine Ends.step (g := fun n => execForeach P G (n + 1) ty x (.obj cls i) b s) (fun n => rfl) ?_
  refine he₁.via (h := fun n => (withAlias (.obj cls i) s₃ fun s => call P G n [] "next" [] s).bind fun v s =>
              (overwriteDeclared x v s).bind fun _ s =>
                (exec P G n b s).bind fun _ s =>
                  (popScope s).bind fun _ s =>
                    match afterBody s with
                    | some s => execForeach P G n ty x (.obj cls i) b s
                    | none => .ok () (leaveLoop s)) (fun n hn => ?_) (he₄.via (h := fun n => (exec P G n b s₅).bind fun _ s =>
                  (popScope s).bind fun _ s =>
                    match afterBody s with
                    | some s => execForeach P G n ty x (.obj cls i) b s
                    | none => .ok () (leaveLoop s)) (fun n hn => ?_) (he₆.via (fun n hn => ?_) hr'))
  · simp only [execForeach, hn, Res.bind, hu, if_true, h₂, declare, h₃]; rfl
  · simp only [hn, Res.bind, h₅]
  · simp only [hn, Res.bind, h₇]

theorem each_next {ty x : Name} {it v : Value A} {b : Stmt A} {d d' : Comp A} (hh : HasNextOk P G σ it σ₁)
    (hn : NextOk P G σ₁ it (.val v) σ₂) (hb : ExecOk P G { σ₂ with blocks := [(x, v)] :: σ₂.blocks } b d σ₃)
    (hd : d = .normal ∨ d = .cont) (hl : EachOk P G { σ₃ with blocks := σ₃.blocks.tail } ty x it b d' σ₄) :
    EachOk P G σ ty x it b d' σ₄ := by
  intro pre stk s hr hc
  obtain ⟨s₁, hc₁, hj₁, hr₁, hs₁, hk⟩ := each_round (ty := ty) hh hn hb hr hc
  obtain ⟨s₂, he₂, hc₂, hj₂, hr₂, hs₂⟩ := hl pre stk { s₁ with cf := .normal } (hr₁.cf .normal) rfl
  refine ⟨s₂, hk _ ?_, hc₂, hj₂, hr₂, hs₁.trans hs₂.cf_left⟩
  have hab : afterBody s₁ = some { s₁ with cf := .normal } := by
    rcases hd with rfl | rfl <;> simp only [afterBody, hc₁, cfOf]
  simp only [hab]; exact he₂

theorem each_brk {ty x : Name} {it v : Value A} {b : Stmt A} (hh : HasNextOk P G σ it σ₁)
    (hn : NextOk P G σ₁ it (.val v) σ₂) (hb : ExecOk P G { σ₂ with blocks := [(x, v)] :: σ₂.blocks } b .brk σ₃) :
    EachOk P G σ ty x it b .normal { σ₃ with blocks := σ₃.blocks.tail } := by
  intro pre stk s hr hc
  obtain ⟨s₁, hc₁, hj₁, hr₁, hs₁, hk⟩ := each_round (ty := ty) hh hn hb hr hc
  refine ⟨{ s₁ with cf := .normal }, hk _ (.const fun n => ?_), rfl, .normal _, hr₁.cf _, hs₁.cf _⟩
  simp only [afterBody, leaveLoop, hc₁, cfOf]

theorem each_leave {ty x : Name} {it v : Value A} {b : Stmt A} {d : Comp A} (hh : HasNextOk P G σ it σ₁)
    (hn : NextOk P G σ₁ it (.val v) σ₂) (hb : ExecOk P G { σ₂ with blocks := [(x, v)] :: σ₂.blocks } b d σ₃)
    (hd : (∃ r, d = .ret r) ∨ (∃ y, d = .thr y)) : EachOk P G σ ty x it b d { σ₃ with blocks := σ₃.blocks.tail } := by
  intro pre stk s hr hc
  obtain ⟨s₁, hc₁, hj₁, hr₁, hs₁, hk⟩ := each_round (ty := ty) hh hn hb hr hc
  refine ⟨s₁, hk _ (.const fun n => ?_), hc₁, ⟨hj₁.ret, hj₁.thr⟩, hr₁, hs₁⟩
  simp only [(leave_cf hd hc₁).1, (leave_cf hd hc₁).2]

/-! ### Switch -/

theorem round_noCase {e : Expr A} {dflt : List (Stmt A)} {d : Comp A} (h : BlockOk P G σ dflt d σ₁) : RoundOk P G σ e [] dflt d σ₁ := by
  intro pre stk s hr hc
  obtain ⟨s₁, he, hc₁, hj₁, hr₁, hs₁⟩ := h pre stk s hr hc
  refine ⟨s₁, hc₁, hj₁, hr₁, hs₁, fun r hr' => ?_⟩
  refine Ends.step (g := fun n => (execBlock P G n dflt s).bind fun _ s => switchEnd P G n e [] dflt s) (fun n => by rw [execSwitch]) ?_
  exact he.bind_ok (k := fun n _ s => switchEnd P G n e [] dflt s) hr'

theorem execSwitch_cons {e : Expr A} {c : Expr A × List (Stmt A)} {cases : List (Expr A × List (Stmt A))} {dflt : List (Stmt A)} (n : Nat)
    (s : St A) : execSwitch P G (n + 1) e (c :: cases) dflt s = (eval P G n e s).tryControl fun v s =>
        match execCases P G n v (c :: cases) dflt s with
        | .ok true s => switchEnd P G n e (c :: cases) dflt s
        | .ok false s => .ok () s
        | .raise c s => .raise c s
        | .fatal => .fatal
        | .ub => .ub
        | .fuel => .fuel := by
  rw [execSwitch]
  · rfl
  · exact List.cons_ne_nil _ _

theorem switchEnd_leave {e : Expr A} {cases : List (Expr A × List (Stmt A))} {dflt : List (Stmt A)} {d : Comp A}
    (hd : (∃ r, d = .ret r) ∨ (∃ x, d = .thr x)) (hc : s.cf = cfOf d) :
    Ends (fun n => switchEnd P G n e cases dflt s) (.ok () s) := by
  refine Ends.step (g := fun _ => .ok () s) (fun n => ?_) (.const fun _ => rfl)
  rcases hd with ⟨r, rfl⟩ | ⟨x, rfl⟩ <;> simp only [switchEnd, hc, cfOf]

theorem round_cases {e : Expr A} {c : Expr A × List (Stmt A)} {cases : List (Expr A × List (Stmt A))} {dflt : List (Stmt A)} {v : Value A}
    {d : Comp A} (he : EvalOk P G σ e (.val v) σ₁) (hcs : CasesOk P G σ₁ v (c :: cases) dflt d σ₂) :
    RoundOk P G σ e (c :: cases) dflt d σ₂ := by
  intro pre stk s hr hc
  obtain ⟨s₁, he₁, hc₁, hr₁, hs₁⟩ := he pre stk s hr hc
  obtain ⟨b, s₂, he₂, hc₂, hj₂, hr₂, hs₂, hb⟩ := hcs pre stk s₁ hr₁ hc₁
  refine ⟨s₂, hc₂, hj₂, hr₂, hs₁.trans hs₂, fun r hr' => ?_⟩
  refine Ends.step (fun n => execSwitch_cons n s) ?_
  refine he₁.try_ok (k := fun n v s =>
        match execCases P G n v (c :: cases) dflt s with
        | .ok true s => switchEnd P G n e (c :: cases) dflt s
        | .ok false s => .ok () s
        | .raise c s => .raise c s
        | .fatal => .fatal
        | .ub => .ub
        | .fuel => .fuel) ?_
  cases b with
  | true => exact he₂.via (fun n hn => by simp only [hn]) hr'
  | false =>
    obtain ⟨x, rfl⟩ := hb rfl
    rw [← (switchEnd_leave (.inr ⟨x, rfl⟩) hc₂).unique hr']
    exact he₂.via (h := fun _ => .ok () s₂) (fun n hn => by simp only [hn]) (.const fun _ => rfl)

theorem round_thr {e : Expr A} {c : Expr A × List (Stmt A)} {cases : List (Expr A × List (Stmt A))} {dflt : List (Stmt A)} {x : Value A}
    (he : EvalOk P G σ e (.thr x) σ₁) : RoundOk P G σ e (c :: cases) dflt (.thr x) σ₁ := by
  intro pre stk s hr hc
  obtain ⟨s₁, he₁, hx₁, hr₁, hs₁⟩ := he pre stk s hr hc
  refine ⟨{ s₁ with cf := .throw }, rfl, .of_last hx₁, hr₁.cf _, hs₁.cf _, fun r hr' => ?_⟩
  rw [← (switchEnd_leave (s := { s₁ with cf := .throw }) (d := .thr x) (.inr ⟨x, rfl⟩) rfl).unique hr']
  exact Ends.step (fun n => execSwitch_cons n s) (he₁.try_raise (k := fun n v s =>
        match execCases P G n v (c :: cases) dflt s with
        | .ok true s => switchEnd P G n e (c :: cases) dflt s
        | .ok false s => .ok () s
        | .raise c s => .raise c s
        | .fatal => .fatal
        | .ub => .ub
        | .fuel => .fuel))

theorem cases_dflt {v : Value A} {dflt : List (Stmt A)} {d : Comp A} (h : BlockOk P G σ dflt d σ₁) : CasesOk P G σ v [] dflt d σ₁ := by
  intro pre stk s hr hc
  obtain ⟨s₁, he, hc₁, hj₁, hr₁, hs₁⟩ := h pre stk s hr hc
  refine ⟨true, s₁, ?_, hc₁, hj₁, hr₁, hs₁, nofun⟩
  refine Ends.step (g := fun n => (execBlock P G n dflt s).bind fun _ s => .ok true s) (fun n => by rw [execCases]) ?_
  exact he.bind_ok (k := fun _ _ s => .ok true s) (.const fun _ => rfl)

/-- The rest of a case after its value has been computed. -/
def casesK (P : Prim A) (G : Prog A) (v : Value A) (b : List (Stmt A)) (cases : List (Expr A × List (Stmt A))) (dflt : List (Stmt A))
    (n : Nat) (w : Value A) (s : St A) : Res A Bool :=
  (compareVals P G n .eq v w s).bind fun same s =>
    if same then (execBlock P G n b s).bind fun _ s => .ok true s
    else execCases P G n v cases dflt s

theorem cases_hit {v w : Value A} {e : Expr A} {b : List (Stmt A)} {cases : List (Expr A × List (Stmt A))} {dflt : List (Stmt A)}
    {d : Comp A} (he : EvalOk P G σ e (.val w) σ₁) (hcmp : CompareOk P G σ₁ .eq v w (.val true) σ₂) (hb : BlockOk P G σ₂ b d σ₃) :
    CasesOk P G σ v ((e, b) :: cases) dflt d σ₃ := by
  intro pre stk s hr hc
  obtain ⟨s₁, he₁, hc₁, hr₁, hs₁⟩ := he pre stk s hr hc
  obtain ⟨s₂, he₂, hc₂, hr₂, hs₂⟩ := hcmp pre stk s₁ hr₁ hc₁
  obtain ⟨s₃, he₃, hc₃, hj₃, hr₃, hs₃⟩ := hb pre stk s₂ hr₂ hc₂
  refine ⟨true, s₃, ?_, hc₃, hj₃, hr₃, (hs₁.trans hs₂).trans hs₃, nofun⟩
  refine Ends.step (g := fun n => execCases P G (n + 1) v ((e, b) :: cases) dflt s) (fun n => rfl) ?_
  refine he₁.via (h := fun n => casesK P G v b cases dflt n w s₁) (fun n hn => by simp only [execCases, hn]; rfl) ?_
  refine he₂.bind_ok (k := fun n same s => if same then (execBlock P G n b s).bind fun _ s => .ok true s
    else execCases P G n v cases dflt s) ?_
  simp only [if_true]
  exact he₃.bind_ok (k := fun _ _ s => .ok true s) (.const fun _ => rfl)

theorem cases_skip {v w : Value A} {e : Expr A} {b : List (Stmt A)} {cases : List (Expr A × List (Stmt A))} {dflt : List (Stmt A)}
    {d : Comp A} (he : EvalOk P G σ e (.val w) σ₁) (hcmp : CompareOk P G σ₁ .eq v w (.val false) σ₂)
    (hcs : CasesOk P G σ₂ v cases dflt d σ₃) : CasesOk P G σ v ((e, b) :: cases) dflt d σ₃ := by
  intro pre stk s hr hc
  obtain ⟨s₁, he₁, hc₁, hr₁, hs₁⟩ := he pre stk s hr hc
  obtain ⟨s₂, he₂, hc₂, hr₂, hs₂⟩ := hcmp pre stk s₁ hr₁ hc₁
  obtain ⟨t, s₃, he₃, hc₃, hj₃, hr₃, hs₃, ht⟩ := hcs pre stk s₂ hr₂ hc₂
  refine ⟨t, s₃, ?_, hc₃, hj₃, hr₃, (hs₁.trans hs₂).trans hs₃, ht⟩
  refine Ends.step (g := fun n => execCases P G (n + 1) v ((e, b) :: cases) dflt s) (fun n => rfl) ?_
  refine he₁.via (h := fun n => casesK P G v b cases dflt n w s₁) (fun n hn => by simp only [execCases, hn]; rfl) ?_
  refine he₂.bind_ok (k := fun n same s => if same then (execBlock P G n b s).bind fun _ s => .ok true s
    else execCases P G n v cases dflt s) ?_
  simp only [Bool.false_eq_true, if_false]
  exact he₃

theorem cases_thr {v x : Value A} {e : Expr A} {b : List (Stmt A)} {cases : List (Expr A × List (Stmt A))} {dflt : List (Stmt A)}
    (he : EvalOk P G σ e (.thr x) σ₁) : CasesOk P G σ v ((e, b) :: cases) dflt (.thr x) σ₁ := by
  intro pre stk s hr hc
  obtain ⟨s₁, he₁, hx₁, hr₁, hs₁⟩ := he pre stk s hr hc
  refine ⟨false, { s₁ with cf := .throw }, ?_, rfl, .of_last hx₁, hr₁.cf _, hs₁.cf _, fun _ => ⟨x, rfl⟩⟩
  refine Ends.step (g := fun n => execCases P G (n + 1) v ((e, b) :: cases) dflt s) (fun n => rfl) ?_
  exact he₁.via (h := fun _ => .ok false { s₁ with cf := .throw }) (fun n hn => by simp only [execCases, hn]) (.const fun _ => rfl)

theorem exec_switch {e : Expr A} {cases : List (Expr A × List (Stmt A))} {dflt : List (Stmt A)} {d : Comp A}
    (h : RoundOk P G σ e cases dflt d σ₁) (hd : (∃ r, d = .ret r) ∨ (∃ x, d = .thr x)) : ExecOk P G σ (.switch e cases dflt) d σ₁ := by
  intro pre stk s hr hc
  obtain ⟨s₁, hc₁, hj₁, hr₁, hs₁, hk⟩ := h pre stk s hr hc
  exact ⟨s₁, Ends.step (fun n => by rw [exec]) (hk _ (switchEnd_leave hd hc₁)), hc₁, hj₁, hr₁, hs₁⟩

theorem exec_switchEnd {e : Expr A} {cases : List (Expr A × List (Stmt A))} {dflt : List (Stmt A)} {d : Comp A}
    (h : RoundOk P G σ e cases dflt d σ₁) (hd : d = .normal ∨ d = .brk) : ExecOk P G σ (.switch e cases dflt) .normal σ₁ := by
  intro pre stk s hr hc
  obtain ⟨s₁, hc₁, hj₁, hr₁, hs₁, hk⟩ := h pre stk s hr hc
  refine ⟨{ s₁ with cf := .normal }, Ends.step (fun n => by rw [exec]) (hk _ ?_), rfl, .normal _, hr₁.cf _, hs₁.cf _⟩
  refine Ends.step (g := fun _ => .ok () { s₁ with cf := .normal }) (fun n => ?_) (.const fun _ => rfl)
  rcases hd with rfl | rfl <;> simp only [switchEnd, hc₁, cfOf]

theorem exec_switchAgain {e : Expr A} {cases : List (Expr A × List (Stmt A))} {dflt : List (Stmt A)} {d : Comp A}
    (h : RoundOk P G σ e cases dflt .cont σ₁) (hs' : ExecOk P G σ₁ (.switch e cases dflt) d σ₂) :
    ExecOk P G σ (.switch e cases dflt) d σ₂ := by
  intro pre stk s hr hc
  obtain ⟨s₁, hc₁, hj₁, hr₁, hs₁, hk⟩ := h pre stk s hr hc
  obtain ⟨s₂, ⟨k, he₂⟩, hc₂, hj₂, hr₂, hs₂⟩ := hs' pre stk { s₁ with cf := .normal } (hr₁.cf .normal) rfl
  refine ⟨s₂, Ends.step (fun n => by rw [exec]) (hk _ ?_), hc₂, hj₂, hr₂, hs₁.trans hs₂.cf_left⟩
  refine Ends.step (g := fun n => execSwitch P G n e cases dflt { s₁ with cf := .normal }) (fun n => ?_)
    ⟨k, fun m hm => by have := he₂ (m + 1) (by omega); simp only [exec] at this; exact this⟩
  simp only [switchEnd, hc₁, cfOf]

/-! ### Try -/

theorem guarded_quiet {b : List (Stmt A)} {catches : List (Option (Name × Name) × List (Stmt A))} {d : Comp A}
    (h : BlockOk P G σ b d σ₁) (hd : ∀ x, d ≠ .thr x) : GuardedOk P G σ b catches d σ₁ := fun pre stk s hr hc =>
  Completes.bind (k := fun n _ s => if s.cf = .throw then handle P G n catches s else .ok () s) (h pre stk s hr hc) fun s₁ hr₁ hc₁ hj₁ =>
    (Completes.pure hr₁ hc₁ hj₁).congr fun n => by
      rw [if_neg]; rw [hc₁]; cases d <;> first | exact absurd rfl (hd _) | nofun

theorem guarded_noClause {b : List (Stmt A)} {x : Value A} (h : BlockOk P G σ b (.thr x) σ₁) : GuardedOk P G σ b [] .normal σ₁ :=
  fun pre stk s hr hc =>
  Completes.bind (k := fun n _ s => if s.cf = .throw then handle P G n [] s else .ok () s) (h pre stk s hr hc) fun s₁ hr₁ hc₁ _ =>
    Completes.congr (fun n => if_pos hc₁)
      (Completes.step (g := fun _ => .ok () { s₁ with cf := .normal }) (fun n => by rw [handle])
        (Completes.jump (c := .normal) hr₁ (.normal _)))

theorem findCatch_eq (x : Value A) (catches : List (Option (Name × Name) × List (Stmt A))) :
    findCatch P (some x) catches = Spec.clause P x catches := by
  induction catches with
  | nil => rfl
  | cons c cs ih =>
    obtain ⟨d, b⟩ := c
    cases d with
    | none => rfl
    | some p =>
      obtain ⟨ty, y⟩ := p
      simp only [findCatch, Spec.clause, List.find?_cons]
      cases h : P.isA ty x with
      | true => simp
      | false => simpa [Spec.clause] using ih

theorem guarded_uncaught {b : List (Stmt A)} {catches : List (Option (Name × Name) × List (Stmt A))} {x : Value A}
    (h : BlockOk P G σ b (.thr x) σ₁) (hne : catches ≠ []) (hcl : Spec.clause P x catches = none) :
    GuardedOk P G σ b catches (.thr x) σ₁ := fun pre stk s hr hc =>
  Completes.bind (k := fun n _ s => if s.cf = .throw then handle P G n catches s else .ok () s) (h pre stk s hr hc)
    fun s₁ hr₁ hc₁ hj₁ =>
    Completes.congr (fun n => if_pos hc₁)
      (Completes.step (g := fun _ => .ok () s₁) (fun n => by
        cases catches with
        | nil => exact absurd rfl hne
        | cons c cs =>
          simp only [handle]
          rw [hr₁.data.exc, hj₁.thr x rfl, findCatch_eq, hcl])
        (Completes.pure hr₁ hc₁ hj₁))

theorem bindException_ok {x : Value A} {decl : Option (Name × Name)} {vars : AMap Name (Value A)} {bs : List (AMap Name (Value A))}
    (hv : Spec.Caught P x decl vars) (hr : Rel pre stk σ s) (hb : σ.blocks = [] :: bs) (hx : σ.last = some x) :
    ∃ s', bindException P decl s = .ok () s' ∧ Rel pre stk { σ with blocks := vars :: bs } s' ∧ Step (ids stk) s s' := by
  cases hv with
  | untyped =>
    refine ⟨s, rfl, ?_, .refl _ _⟩
    rw [← hb]; exact hr
  | typed ha =>
    rename_i ty y v
    obtain ⟨s₁, hd, hr₁, hs₁, hc₁⟩ := hr.define hb (x := y) rfl (P.default ty)
    have hn : State.name { σ with blocks := AMap.set y (P.default ty) [] :: bs } y = some (.loc 0, P.default ty) := by
      simp [State.name, Spec.findBlock, AMap.find, AMap.set]
    have hst := hr₁.store (by rw [hr₁.length]; exact name_ok hn) y v
    refine ⟨store s₁ (sref (ids stk) (.loc 0)) y v, ?_, ?_, hs₁.trans hst.2.1⟩
    · simp only [bindException, declare, hd, Res.bind]
      rw [hr₁.data.exc]
      simp only [hx]
      exact assignDeclared_ok hr₁ hn ha
    · have := hst.1
      simpa [State.write, AMap.set] using this

theorem guarded_caught {b b' : List (Stmt A)} {catches : List (Option (Name × Name) × List (Stmt A))} {x : Value A}
    {decl : Option (Name × Name)} {vars : AMap Name (Value A)} {d : Comp A} (h : BlockOk P G σ b (.thr x) σ₁)
    (hcl : Spec.clause P x catches = some (decl, b')) (hv : Spec.Caught P x decl vars)
    (hb : BlockOk P G { σ₁ with blocks := vars :: σ₁.blocks } b' d σ₂) :
    GuardedOk P G σ b catches d { σ₂ with blocks := σ₂.blocks.tail } := by
  intro pre stk s hr hc
  refine Completes.bind (k := fun n _ s => if s.cf = .throw then handle P G n catches s else .ok () s) (h pre stk s hr hc)
    fun s₁ hr₁ hc₁ hj₁ => ?_
  refine Completes.congr (fun n => if_pos hc₁) ?_
  obtain ⟨s₂, h₂, hr₂, hs₂, -⟩ := hr₁.pushScope
  obtain ⟨s₃, h₃, hr₃, hs₃⟩ := bindException_ok hv hr₂ rfl (hj₁.thr x rfl)
  obtain ⟨s₄, he₄, hc₄, hj₄, hr₄, hs₄⟩ := hb pre _ { s₃ with cf := .normal } (hr₃.cf .normal) rfl
  obtain ⟨s₅, h₅, hr₅, hs₅, hn₅, hc₅⟩ := hr₄.popScope hr.ne
  refine ⟨s₅, ?_, hc₅.trans hc₄, ⟨hj₄.ret, hj₄.thr⟩, hr₅, Step.block hr₁.fresh hs₂ (hs₃.trans hs₄.cf_left) hs₅ hn₅⟩
  refine Ends.step (g := fun n => (execBlock P G n b' { s₃ with cf := .normal }).bind fun _ s => popScope s) (fun n => ?_)
    (he₄.bind_ok (k := fun _ _ s => popScope s) (.const fun _ => h₅))
  cases catches with
  | nil => cases hcl
  | cons c cs =>
    simp only [handle]
    rw [hr₁.data.exc, hj₁.thr x rfl, findCatch_eq, hcl]
    simp only [h₂, Res.bind, h₃]

theorem exec_try_eq (b : List (Stmt A)) (catches : List (Option (Name × Name) × List (Stmt A))) (fin : Option (List (Stmt A))) (s : St A)
    (n : Nat) : exec P G (n + 1) (.try b catches fin) s = (guarded P G n b catches s).bind fun _ s =>
      match fin with
      | none => .ok () s
      | some f =>
        (execBlock P G n f { s with cf := .normal }).bind fun _ s' =>
          .ok () (if s'.cf = .normal then { s' with cf := s.cf } else s') := by
  rw [exec, guarded]
  cases execBlock P G n b s <;> rfl

theorem exec_tryOnly {b : List (Stmt A)} {catches : List (Option (Name × Name) × List (Stmt A))} {d : Comp A}
    (h : GuardedOk P G σ b catches d σ₁) : ExecOk P G σ (.try b catches none) d σ₁ := fun pre stk s hr hc =>
  (Completes.bind (k := fun _ _ s => .ok () s) (h pre stk s hr hc) fun _ hr₁ hc₁ hj₁ => .pure hr₁ hc₁ hj₁).step
    fun n => exec_try_eq b catches none s n

/-- The `finally` block. -/
def finallyK (P : Prim A) (G : Prog A) (f : List (Stmt A)) (n : Nat) (_ : Unit) (s : St A) : Res A Unit :=
  (execBlock P G n f { s with cf := .normal }).bind fun _ s' =>
    .ok () (if s'.cf = .normal then { s' with cf := s.cf } else s')

theorem exec_tryFinally {b f : List (Stmt A)} {catches : List (Option (Name × Name) × List (Stmt A))} {d : Comp A}
    (h : GuardedOk P G σ b catches d σ₁) (hf : BlockOk P G σ₁ f .normal σ₂) (hx : ∀ x, d = .thr x → σ₂.last = some x)
    (hv : ∀ v, d = .ret (some v) → σ₂.rv = v) : ExecOk P G σ (.try b catches (some f)) d σ₂ := by
  intro pre stk s hr hc
  refine (Completes.bind (k := finallyK P G f) (h pre stk s hr hc) fun s₁ hr₁ hc₁ hj₁ => ?_).step
    fun n => exec_try_eq b catches (some f) s n
  obtain ⟨s₂, he₂, hc₂, -, hr₂, hs₂⟩ := hf pre stk { s₁ with cf := .normal } (hr₁.cf .normal) rfl
  refine ⟨{ s₂ with cf := s₁.cf }, he₂.bind_ok (k := fun _ _ s' => .ok () (if s'.cf = .normal then { s' with cf := s₁.cf } else s'))
    (.const fun n => congrArg (Res.ok ()) (if_pos hc₂)), hc₁, ⟨hv, hx⟩, hr₂.cf _, hs₂.cf_left.cf _⟩

theorem exec_tryFinallyJump {b f : List (Stmt A)} {catches : List (Option (Name × Name) × List (Stmt A))} {d d' : Comp A}
    (h : GuardedOk P G σ b catches d σ₁) (hf : BlockOk P G σ₁ f d' σ₂) (hne : d' ≠ .normal) :
    ExecOk P G σ (.try b catches (some f)) d' σ₂ := by
  intro pre stk s hr hc
  refine (Completes.bind (k := finallyK P G f) (h pre stk s hr hc) fun s₁ hr₁ hc₁ hj₁ => ?_).step
    fun n => exec_try_eq b catches (some f) s n
  obtain ⟨s₂, he₂, hc₂, hj₂, hr₂, hs₂⟩ := hf pre stk { s₁ with cf := .normal } (hr₁.cf .normal) rfl
  refine ⟨s₂, he₂.bind_ok (k := fun _ _ s' => .ok () (if s'.cf = .normal then { s' with cf := s₁.cf } else s'))
    (.const fun n => by rw [if_neg]; rw [hc₂]; cases d' <;> first | exact absurd rfl hne | nofun), hc₂, hj₂, hr₂, hs₂.cf_left⟩

theorem exec_block {b : List (Stmt A)} {d : Comp A} (h : BlockOk P G σ b d σ₁) : ExecOk P G σ (.block b) d σ₁ :=
  fun pre stk s hr hc => (h pre stk s hr hc).step fun n => by rw [exec]

/-! ## The helpers of the reference semantics -/

theorem truthy_eq (P : Prim A) : Spec.truthy P = isTrue P := by
  funext v; cases v <;> rfl

theorem operatorMethod_eq (c : Cmp) : Spec.operatorMethod c = c.method := by
  cases c <;> rfl

theorem target_eq (p : Path) : p.target = p.last := by
  obtain ⟨h, t⟩ := p
  simp only [Path.target, Path.last]
  induction t generalizing h with
  | nil => rfl
  | cons x xs ih => rw [List.getLast_cons (List.cons_ne_nil _ _), ih x]; cases xs <;> rfl

theorem bindParams_eq (ps : List (Name × Option (Value A))) : ∀ (vs ws : List (Value A)),
    ((ps.zipIdx ws.length).filter fun p => p.1.1 != "").map (fun p => (p.1.1, (ws ++ vs)[p.2]?.getD (p.1.2.getD .null))) =
      bindParams ps vs := by
  induction ps with
  | nil => intro vs ws; cases vs <;> rfl
  | cons p ps ih =>
    obtain ⟨x, d⟩ := p
    intro vs ws
    cases vs with
    | nil =>
      have h := ih [] (ws ++ [.null])
      have hc : ((ps.zipIdx (ws.length + 1)).filter fun p => p.1.1 != "").map
            (fun p => (p.1.1, (ws ++ [])[p.2]?.getD (p.1.2.getD .null))) = bindParams ps [] := by
        rw [← h]
        simp only [List.length_append, List.length_cons, List.length_nil]
        refine List.map_congr_left fun q hq => ?_
        have hq := List.le_snd_of_mem_zipIdx (List.mem_filter.mp hq).1
        simp only [List.append_nil, Prod.mk.injEq, true_and]
        rw [List.getElem?_eq_none (by omega), List.getElem?_eq_none (by simp; omega)]
      by_cases hx : x = ""
      · simpa [bindParams, hx, List.zipIdx_cons] using hc
      · simpa [bindParams, hx, List.zipIdx_cons] using hc
    | cons v vs =>
      have h := ih vs (ws ++ [v])
      simp only [List.length_append, List.length_cons, List.length_nil, List.append_assoc, List.singleton_append] at h
      by_cases hx : x = ""
      · simpa [bindParams, hx, List.zipIdx_cons] using h
      · simpa [bindParams, hx, List.zipIdx_cons] using h

theorem parameters_eq (self : Option (Name × Nat)) (m : Method A) (vs : List (Value A)) :
    Spec.parameters self m vs = methodVars self m vs := by
  have h := bindParams_eq m.params vs []
  simp only [List.length_nil, List.nil_append] at h
  simp only [Spec.parameters, methodVars, h]
  cases self <;> rfl

/-! ## The rules, put together -/

/-- No event happens. -/
def Never : Spec.Event → Prop := fun _ => False

/-- One lemma for every rule of the reference semantics, in the order of their declaration. -/
local macro "every_rule" : tactic => `(tactic| (
  · intros; (try simp only [truthy_eq, operatorMethod_eq, target_eq, parameters_eq] at *); apply eval_lit <;> assumption
  · intros; (try simp only [truthy_eq, operatorMethod_eq, target_eq, parameters_eq] at *); apply eval_sym <;> assumption
  · intros; (try simp only [truthy_eq, operatorMethod_eq, target_eq, parameters_eq] at *); apply eval_symNull <;> assumption
  · intros; (try simp only [truthy_eq, operatorMethod_eq, target_eq, parameters_eq] at *); apply eval_assign <;> assumption
  · intros; exfalso; assumption
  · intros; (try simp only [truthy_eq, operatorMethod_eq, target_eq, parameters_eq] at *); apply eval_incr <;> assumption
  · intros; (try simp only [truthy_eq, operatorMethod_eq, target_eq, parameters_eq] at *); apply eval_unary <;> assumption
  · intros; (try simp only [truthy_eq, operatorMethod_eq, target_eq, parameters_eq] at *); apply eval_unaryThr <;> assumption
  · intros; (try simp only [truthy_eq, operatorMethod_eq, target_eq, parameters_eq] at *); apply eval_validate <;> assumption
  · intros; exfalso; assumption
  · intros; (try simp only [truthy_eq, operatorMethod_eq, target_eq, parameters_eq] at *); apply eval_validateThr <;> assumption
  · intros; (try simp only [truthy_eq, operatorMethod_eq, target_eq, parameters_eq] at *); apply eval_binary <;> assumption
  · intros; (try simp only [truthy_eq, operatorMethod_eq, target_eq, parameters_eq] at *); apply eval_binaryThrL <;> assumption
  · intros; (try simp only [truthy_eq, operatorMethod_eq, target_eq, parameters_eq] at *); apply eval_binaryThrR <;> assumption
  · intros; (try simp only [truthy_eq, operatorMethod_eq, target_eq, parameters_eq] at *); apply eval_compare <;> assumption
  · intros; (try simp only [truthy_eq, operatorMethod_eq, target_eq, parameters_eq] at *); apply eval_compareThrL <;> assumption
  · intros; (try simp only [truthy_eq, operatorMethod_eq, target_eq, parameters_eq] at *); apply eval_compareThrR <;> assumption
  · intros; (try simp only [truthy_eq, operatorMethod_eq, target_eq, parameters_eq] at *); apply eval_compareThr <;> assumption
  · intros; (try simp only [truthy_eq, operatorMethod_eq, target_eq, parameters_eq] at *); apply eval_boolShort <;> assumption
  · intros; (try simp only [truthy_eq, operatorMethod_eq, target_eq, parameters_eq] at *); apply eval_bool <;> assumption
  · intros; (try simp only [truthy_eq, operatorMethod_eq, target_eq, parameters_eq] at *); apply eval_boolThrL <;> assumption
  · intros; (try simp only [truthy_eq, operatorMethod_eq, target_eq, parameters_eq] at *); apply eval_boolThrR <;> assumption
  · intros; (try simp only [truthy_eq, operatorMethod_eq, target_eq, parameters_eq] at *); apply eval_ternaryT <;> assumption
  · intros; (try simp only [truthy_eq, operatorMethod_eq, target_eq, parameters_eq] at *); apply eval_ternaryF <;> assumption
  · intros; (try simp only [truthy_eq, operatorMethod_eq, target_eq, parameters_eq] at *); apply eval_ternaryThr <;> assumption
  · intros; (try simp only [truthy_eq, operatorMethod_eq, target_eq, parameters_eq] at *); apply eval_elvisT <;> assumption
  · intros; (try simp only [truthy_eq, operatorMethod_eq, target_eq, parameters_eq] at *); apply eval_elvisF <;> assumption
  · intros; (try simp only [truthy_eq, operatorMethod_eq, target_eq, parameters_eq] at *); apply eval_elvisThr <;> assumption
  · intros; (try simp only [truthy_eq, operatorMethod_eq, target_eq, parameters_eq] at *); apply eval_call <;> assumption
  · intros; (try simp only [truthy_eq, operatorMethod_eq, target_eq, parameters_eq] at *); apply eval_callThr <;> assumption
  · intro σ σ₁ σ₂ cls args vs m c _ hm _ hc ha hr
    exact eval_new ha hm hr (hc.elim id fun ⟨_, _, h⟩ => h.elim)
  · intros; exfalso; assumption
  · intros; (try simp only [truthy_eq, operatorMethod_eq, target_eq, parameters_eq] at *); apply eval_newArgs <;> assumption
  · intros; (try simp only [truthy_eq, operatorMethod_eq, target_eq, parameters_eq] at *); apply eval_dotSym <;> assumption
  · intros; exfalso; assumption
  · intro σ σ₁ σ₂ σ₃ l f args cls i vs m o _ _ hl hm _ hx h1 h2 h3
    cases o with
    | thr x => exact (hx x rfl).elim
    | val v => exact eval_dotCall h1 h2 (hl.resolve_right id) hm h3
  · intros; (try simp only [truthy_eq, operatorMethod_eq, target_eq, parameters_eq] at *); apply eval_dotThr <;> assumption
  · intros; (try simp only [truthy_eq, operatorMethod_eq, target_eq, parameters_eq] at *); apply args_nil <;> assumption
  · intros; (try simp only [truthy_eq, operatorMethod_eq, target_eq, parameters_eq] at *); apply args_cons <;> assumption
  · intros; (try simp only [truthy_eq, operatorMethod_eq, target_eq, parameters_eq] at *); apply args_consThr <;> assumption
  · intros; (try simp only [truthy_eq, operatorMethod_eq, target_eq, parameters_eq] at *); apply args_consThrTail <;> assumption
  · intros; (try simp only [truthy_eq, operatorMethod_eq, target_eq, parameters_eq] at *); apply compare_prim <;> assumption
  · intros; (try simp only [truthy_eq, operatorMethod_eq, target_eq, parameters_eq] at *); apply compare_method <;> assumption
  · intros; exfalso; assumption
  · intros; (try simp only [truthy_eq, operatorMethod_eq, target_eq, parameters_eq] at *); apply compare_same <;> assumption
  · intros; (try simp only [truthy_eq, operatorMethod_eq, target_eq, parameters_eq] at *); apply compare_other <;> assumption
  · intros; (try simp only [truthy_eq, operatorMethod_eq, target_eq, parameters_eq] at *); apply call_ok <;> assumption
  · intro σ path f vs hm ho
    exact call_missing hm (ho.resolve_right id)
  · intros; (try simp only [truthy_eq, operatorMethod_eq, target_eq, parameters_eq] at *); apply invoke_native <;> assumption
  · intros; (try simp only [truthy_eq, operatorMethod_eq, target_eq, parameters_eq] at *); apply invoke_nativeThr <;> assumption
  · intros; (try simp only [truthy_eq, operatorMethod_eq, target_eq, parameters_eq] at *); apply invoke_value <;> assumption
  · intros; (try simp only [truthy_eq, operatorMethod_eq, target_eq, parameters_eq] at *); apply invoke_void <;> assumption
  · intros; (try simp only [truthy_eq, operatorMethod_eq, target_eq, parameters_eq] at *); apply invoke_thr <;> assumption
  · intros; (try simp only [truthy_eq, operatorMethod_eq, target_eq, parameters_eq] at *); apply run_body <;> assumption
  · intros; (try simp only [truthy_eq, operatorMethod_eq, target_eq, parameters_eq] at *); apply list_nil <;> assumption
  · intros; (try simp only [truthy_eq, operatorMethod_eq, target_eq, parameters_eq] at *); apply list_cons <;> assumption
  · intros; (try simp only [truthy_eq, operatorMethod_eq, target_eq, parameters_eq] at *); apply list_jump <;> assumption
  · intros; (try simp only [truthy_eq, operatorMethod_eq, target_eq, parameters_eq] at *); apply block_ok <;> assumption
  · intros; (try simp only [truthy_eq, operatorMethod_eq, target_eq, parameters_eq] at *); apply exec_nop <;> assumption
  · intros; (try simp only [truthy_eq, operatorMethod_eq, target_eq, parameters_eq] at *); apply exec_expr <;> assumption
  · intros; (try simp only [truthy_eq, operatorMethod_eq, target_eq, parameters_eq] at *); apply exec_exprThr <;> assumption
  · intros; (try simp only [truthy_eq, operatorMethod_eq, target_eq, parameters_eq] at *); apply exec_exprAssignThr <;> assumption
  · intros; (try simp only [truthy_eq, operatorMethod_eq, target_eq, parameters_eq] at *); apply exec_assign <;> assumption
  · intros; (try simp only [truthy_eq, operatorMethod_eq, target_eq, parameters_eq] at *); apply exec_assignThr <;> assumption
  · intros; (try simp only [truthy_eq, operatorMethod_eq, target_eq, parameters_eq] at *); apply exec_decl <;> assumption
  · intros; (try simp only [truthy_eq, operatorMethod_eq, target_eq, parameters_eq] at *); apply exec_declInit <;> assumption
  · intros; (try simp only [truthy_eq, operatorMethod_eq, target_eq, parameters_eq] at *); apply exec_declThr <;> assumption
  · intros; (try simp only [truthy_eq, operatorMethod_eq, target_eq, parameters_eq] at *); apply exec_print <;> assumption
  · intros; (try simp only [truthy_eq, operatorMethod_eq, target_eq, parameters_eq] at *); apply exec_printThr <;> assumption
  · intros; (try simp only [truthy_eq, operatorMethod_eq, target_eq, parameters_eq] at *); apply exec_assert <;> assumption
  · intros; (try simp only [truthy_eq, operatorMethod_eq, target_eq, parameters_eq] at *); apply exec_assertThr <;> assumption
  · intros; (try simp only [truthy_eq, operatorMethod_eq, target_eq, parameters_eq] at *); apply exec_delete <;> assumption
  · intros; (try simp only [truthy_eq, operatorMethod_eq, target_eq, parameters_eq] at *); apply exec_deleteThr <;> assumption
  · intros; (try simp only [truthy_eq, operatorMethod_eq, target_eq, parameters_eq] at *); apply exec_retNone <;> assumption
  · intro h σ σ' e v _ hv ih
    exact exec_ret ih (hv.resolve_right id)
  · intros; (try simp only [truthy_eq, operatorMethod_eq, target_eq, parameters_eq] at *); apply exec_retThr <;> assumption
  · intros; (try simp only [truthy_eq, operatorMethod_eq, target_eq, parameters_eq] at *); apply exec_throw <;> assumption
  · intros; (try simp only [truthy_eq, operatorMethod_eq, target_eq, parameters_eq] at *); apply exec_throwThr <;> assumption
  · intro σ x hx
    exact exec_rethrow (hx.resolve_right id)
  · intros; (try simp only [truthy_eq, operatorMethod_eq, target_eq, parameters_eq] at *); apply exec_brk <;> assumption
  · intros; (try simp only [truthy_eq, operatorMethod_eq, target_eq, parameters_eq] at *); apply exec_cont <;> assumption
  · intros; (try simp only [truthy_eq, operatorMethod_eq, target_eq, parameters_eq] at *); apply exec_iteT <;> assumption
  · intros; (try simp only [truthy_eq, operatorMethod_eq, target_eq, parameters_eq] at *); apply exec_iteF <;> assumption
  · intros; (try simp only [truthy_eq, operatorMethod_eq, target_eq, parameters_eq] at *); apply exec_iteThr <;> assumption
  · intros; (try simp only [truthy_eq, operatorMethod_eq, target_eq, parameters_eq] at *); apply exec_whileF <;> assumption
  · intros; (try simp only [truthy_eq, operatorMethod_eq, target_eq, parameters_eq] at *); apply exec_whileThr <;> assumption
  · intros; (try simp only [truthy_eq, operatorMethod_eq, target_eq, parameters_eq] at *); apply exec_whileNext <;> assumption
  · intros; (try simp only [truthy_eq, operatorMethod_eq, target_eq, parameters_eq] at *); apply exec_whileBrk <;> assumption
  · intros; (try simp only [truthy_eq, operatorMethod_eq, target_eq, parameters_eq] at *); apply exec_whileLeave <;> assumption
  · intros; (try simp only [truthy_eq, operatorMethod_eq, target_eq, parameters_eq] at *); apply exec_for <;> assumption
  · intros; exfalso; assumption
  · intros; (try simp only [truthy_eq, operatorMethod_eq, target_eq, parameters_eq] at *); apply exec_foreach <;> assumption
  · intros; (try simp only [truthy_eq, operatorMethod_eq, target_eq, parameters_eq] at *); apply exec_foreachThr <;> assumption
  · intros; exfalso; assumption
  · intros; (try simp only [truthy_eq, operatorMethod_eq, target_eq, parameters_eq] at *); apply exec_foreachIt <;> assumption
  · intros; exfalso; assumption
  · intros; (try simp only [truthy_eq, operatorMethod_eq, target_eq, parameters_eq] at *); apply exec_switch <;> assumption
  · intros; (try simp only [truthy_eq, operatorMethod_eq, target_eq, parameters_eq] at *); apply exec_switchEnd <;> assumption
  · intros; (try simp only [truthy_eq, operatorMethod_eq, target_eq, parameters_eq] at *); apply exec_switchAgain <;> assumption
  · intros; (try simp only [truthy_eq, operatorMethod_eq, target_eq, parameters_eq] at *); apply exec_tryOnly <;> assumption
  · intro h σ σ₁ σ₂ b f catches d _ _ hx hv h1 h2
    exact exec_tryFinally h1 h2 (fun x hd => (hx x hd).resolve_right id) (fun v hd => (hv v hd).resolve_right id)
  · intros; (try simp only [truthy_eq, operatorMethod_eq, target_eq, parameters_eq] at *); apply exec_tryFinallyJump <;> assumption
  · intros; (try simp only [truthy_eq, operatorMethod_eq, target_eq, parameters_eq] at *); apply exec_block <;> assumption
  · intros; (try simp only [truthy_eq, operatorMethod_eq, target_eq, parameters_eq] at *); apply guarded_quiet <;> assumption
  · intros; (try simp only [truthy_eq, operatorMethod_eq, target_eq, parameters_eq] at *); apply guarded_noClause <;> assumption
  · intros; (try simp only [truthy_eq, operatorMethod_eq, target_eq, parameters_eq] at *); apply guarded_uncaught <;> assumption
  · intros; (try simp only [truthy_eq, operatorMethod_eq, target_eq, parameters_eq] at *); apply guarded_caught <;> assumption
  · intros; (try simp only [truthy_eq, operatorMethod_eq, target_eq, parameters_eq] at *); apply for_stop <;> assumption
  · intros; exfalso; assumption
  · intros; (try simp only [truthy_eq, operatorMethod_eq, target_eq, parameters_eq] at *); apply for_next <;> assumption
  · intros; exfalso; assumption
  · intros; exfalso; assumption
  · intros; exfalso; assumption
  · intro σ
    exact rfl
  · intro σ σ₁ c v _ hv ih
    exact ⟨v, ih, by rw [← truthy_eq]; exact hv⟩
  · intros; (try simp only [truthy_eq, operatorMethod_eq, target_eq, parameters_eq] at *); apply each_stop <;> assumption
  · intros; exfalso; assumption
  · intros; exfalso; assumption
  · intros; (try simp only [truthy_eq, operatorMethod_eq, target_eq, parameters_eq] at *); apply each_next <;> assumption
  · intros; (try simp only [truthy_eq, operatorMethod_eq, target_eq, parameters_eq] at *); apply each_brk <;> assumption
  · intros; (try simp only [truthy_eq, operatorMethod_eq, target_eq, parameters_eq] at *); apply each_leave <;> assumption
  · intro σ σ₁ cls i m v hm _ hv ih
    exact ⟨cls, i, m, v, rfl, hm, ih, by rw [← truthy_eq]; exact hv⟩
  · intro σ σ₁ cls i m o hm _ ih
    exact ⟨cls, i, m, rfl, hm, ih⟩
  · intros; (try simp only [truthy_eq, operatorMethod_eq, target_eq, parameters_eq] at *); apply round_noCase <;> assumption
  · intros; (try simp only [truthy_eq, operatorMethod_eq, target_eq, parameters_eq] at *); apply round_cases <;> assumption
  · intros; (try simp only [truthy_eq, operatorMethod_eq, target_eq, parameters_eq] at *); apply round_thr <;> assumption
  · intros; (try simp only [truthy_eq, operatorMethod_eq, target_eq, parameters_eq] at *); apply cases_dflt <;> assumption
  · intros; (try simp only [truthy_eq, operatorMethod_eq, target_eq, parameters_eq] at *); apply cases_hit <;> assumption
  · intros; (try simp only [truthy_eq, operatorMethod_eq, target_eq, parameters_eq] at *); apply cases_skip <;> assumption
  · intros; (try simp only [truthy_eq, operatorMethod_eq, target_eq, parameters_eq] at *); apply cases_thr <;> assumption
  · intros h σ σ₁ σ₂ v w x e b cases dflt _ hc _ _
    exfalso; cases hc; assumption
  ))

theorem eval_refines {e : Expr A} {o : Spec.Out A (Value A)} (hd : Spec.Eval P G Never σ e o σ') : EvalOk P G σ e o σ' := by
  refine Spec.Eval.rec (motive_1 := fun σ e o σ' _ => EvalOk P G σ e o σ') (motive_2 := fun σ es o σ' _ => ArgsOk P G σ es o σ')
      (motive_3 := fun σ c v w o σ' _ => CompareOk P G σ c v w o σ') (motive_4 := fun σ p f vs o σ' _ => CallOk P G σ p f vs o σ')
      (motive_5 := fun σ m vs o σ' _ => InvokeOk P G σ m vs o σ') (motive_6 := fun σ m self vs c σ' _ => RunOk P G σ m self vs c σ')
      (motive_7 := fun _ σ b c σ' _ => ListOk P G σ b c σ') (motive_8 := fun _ σ b c σ' _ => BlockOk P G σ b c σ')
      (motive_9 := fun _ σ st c σ' _ => ExecOk P G σ st c σ') (motive_10 := fun _ σ b cs c σ' _ => GuardedOk P G σ b cs c σ')
      (motive_11 := fun _ σ c it b d σ' _ => ForOk P G σ c it b d σ') (motive_12 := fun σ c σ' _ => HoldsOk P G σ c σ')
      (motive_13 := fun _ σ ty x it b d σ' _ => EachOk P G σ ty x it b d σ') (motive_14 := fun σ it σ' _ => HasNextOk P G σ it σ')
      (motive_15 := fun σ it o σ' _ => NextOk P G σ it o σ') (motive_16 := fun _ σ e cs df d σ' _ => RoundOk P G σ e cs df d σ')
      (motive_17 := fun _ σ v cs df d σ' _ => CasesOk P G σ v cs df d σ')
      ?_ ?_ ?_ ?_ ?_ ?_ ?_ ?_ ?_ ?_ ?_ ?_ ?_ ?_ ?_ ?_ ?_ ?_ ?_ ?_ ?_ ?_ ?_ ?_ ?_ ?_ ?_ ?_ ?_ ?_ ?_ ?_ ?_ ?_ ?_ ?_ ?_ ?_ ?_ ?_ ?_ ?_ ?_ ?_ ?_ ?_ ?_ ?_ ?_ ?_ ?_ ?_ ?_ ?_ ?_ ?_ ?_ ?_ ?_ ?_ ?_ ?_ ?_ ?_ ?_ ?_ ?_ ?_ ?_ ?_ ?_ ?_ ?_ ?_ ?_ ?_ ?_ ?_ ?_ ?_ ?_ ?_ ?_ ?_ ?_ ?_ ?_ ?_ ?_ ?_ ?_ ?_ ?_ ?_ ?_ ?_ ?_ ?_ ?_ ?_ ?_ ?_ ?_ ?_ ?_ ?_ ?_ ?_ ?_ ?_ ?_ ?_ ?_ ?_ ?_ ?_ ?_ ?_ ?_ ?_ ?_ ?_ ?_ ?_ ?_ ?_ ?_ ?_ ?_ ?_ ?_ hd
  every_rule

theorem list_refines {h : Option (Value A)} {b : List (Stmt A)} {c : Comp A} (hd : Spec.ExecList P G Never h σ b c σ') : ListOk P G σ b c σ' := by
  refine Spec.ExecList.rec (motive_1 := fun σ e o σ' _ => EvalOk P G σ e o σ') (motive_2 := fun σ es o σ' _ => ArgsOk P G σ es o σ')
      (motive_3 := fun σ c v w o σ' _ => CompareOk P G σ c v w o σ') (motive_4 := fun σ p f vs o σ' _ => CallOk P G σ p f vs o σ')
      (motive_5 := fun σ m vs o σ' _ => InvokeOk P G σ m vs o σ') (motive_6 := fun σ m self vs c σ' _ => RunOk P G σ m self vs c σ')
      (motive_7 := fun _ σ b c σ' _ => ListOk P G σ b c σ') (motive_8 := fun _ σ b c σ' _ => BlockOk P G σ b c σ')
      (motive_9 := fun _ σ st c σ' _ => ExecOk P G σ st c σ') (motive_10 := fun _ σ b cs c σ' _ => GuardedOk P G σ b cs c σ')
      (motive_11 := fun _ σ c it b d σ' _ => ForOk P G σ c it b d σ') (motive_12 := fun σ c σ' _ => HoldsOk P G σ c σ')
      (motive_13 := fun _ σ ty x it b d σ' _ => EachOk P G σ ty x it b d σ') (motive_14 := fun σ it σ' _ => HasNextOk P G σ it σ')
      (motive_15 := fun σ it o σ' _ => NextOk P G σ it o σ') (motive_16 := fun _ σ e cs df d σ' _ => RoundOk P G σ e cs df d σ')
      (motive_17 := fun _ σ v cs df d σ' _ => CasesOk P G σ v cs df d σ')
      ?_ ?_ ?_ ?_ ?_ ?_ ?_ ?_ ?_ ?_ ?_ ?_ ?_ ?_ ?_ ?_ ?_ ?_ ?_ ?_ ?_ ?_ ?_ ?_ ?_ ?_ ?_ ?_ ?_ ?_ ?_ ?_ ?_ ?_ ?_ ?_ ?_ ?_ ?_ ?_ ?_ ?_ ?_ ?_ ?_ ?_ ?_ ?_ ?_ ?_ ?_ ?_ ?_ ?_ ?_ ?_ ?_ ?_ ?_ ?_ ?_ ?_ ?_ ?_ ?_ ?_ ?_ ?_ ?_ ?_ ?_ ?_ ?_ ?_ ?_ ?_ ?_ ?_ ?_ ?_ ?_ ?_ ?_ ?_ ?_ ?_ ?_ ?_ ?_ ?_ ?_ ?_ ?_ ?_ ?_ ?_ ?_ ?_ ?_ ?_ ?_ ?_ ?_ ?_ ?_ ?_ ?_ ?_ ?_ ?_ ?_ ?_ ?_ ?_ ?_ ?_ ?_ ?_ ?_ ?_ ?_ ?_ ?_ ?_ ?_ ?_ ?_ ?_ ?_ ?_ ?_ hd
  every_rule

theorem exec_refines {h : Option (Value A)} {st : Stmt A} {c : Comp A} (hd : Spec.Exec P G Never h σ st c σ') : ExecOk P G σ st c σ' := by
  refine Spec.Exec.rec (motive_1 := fun σ e o σ' _ => EvalOk P G σ e o σ') (motive_2 := fun σ es o σ' _ => ArgsOk P G σ es o σ')
      (motive_3 := fun σ c v w o σ' _ => CompareOk P G σ c v w o σ') (motive_4 := fun σ p f vs o σ' _ => CallOk P G σ p f vs o σ')
      (motive_5 := fun σ m vs o σ' _ => InvokeOk P G σ m vs o σ') (motive_6 := fun σ m self vs c σ' _ => RunOk P G σ m self vs c σ')
      (motive_7 := fun _ σ b c σ' _ => ListOk P G σ b c σ') (motive_8 := fun _ σ b c σ' _ => BlockOk P G σ b c σ')
      (motive_9 := fun _ σ st c σ' _ => ExecOk P G σ st c σ') (motive_10 := fun _ σ b cs c σ' _ => GuardedOk P G σ b cs c σ')
      (motive_11 := fun _ σ c it b d σ' _ => ForOk P G σ c it b d σ') (motive_12 := fun σ c σ' _ => HoldsOk P G σ c σ')
      (motive_13 := fun _ σ ty x it b d σ' _ => EachOk P G σ ty x it b d σ') (motive_14 := fun σ it σ' _ => HasNextOk P G σ it σ')
      (motive_15 := fun σ it o σ' _ => NextOk P G σ it o σ') (motive_16 := fun _ σ e cs df d σ' _ => RoundOk P G σ e cs df d σ')
      (motive_17 := fun _ σ v cs df d σ' _ => CasesOk P G σ v cs df d σ')
      ?_ ?_ ?_ ?_ ?_ ?_ ?_ ?_ ?_ ?_ ?_ ?_ ?_ ?_ ?_ ?_ ?_ ?_ ?_ ?_ ?_ ?_ ?_ ?_ ?_ ?_ ?_ ?_ ?_ ?_ ?_ ?_ ?_ ?_ ?_ ?_ ?_ ?_ ?_ ?_ ?_ ?_ ?_ ?_ ?_ ?_ ?_ ?_ ?_ ?_ ?_ ?_ ?_ ?_ ?_ ?_ ?_ ?_ ?_ ?_ ?_ ?_ ?_ ?_ ?_ ?_ ?_ ?_ ?_ ?_ ?_ ?_ ?_ ?_ ?_ ?_ ?_ ?_ ?_ ?_ ?_ ?_ ?_ ?_ ?_ ?_ ?_ ?_ ?_ ?_ ?_ ?_ ?_ ?_ ?_ ?_ ?_ ?_ ?_ ?_ ?_ ?_ ?_ ?_ ?_ ?_ ?_ ?_ ?_ ?_ ?_ ?_ ?_ ?_ ?_ ?_ ?_ ?_ ?_ ?_ ?_ ?_ ?_ ?_ ?_ ?_ ?_ ?_ ?_ ?_ ?_ hd
  every_rule

theorem run_refines {m : Method A} {self : Option (Name × Nat)} {vs : List (Value A)} {c : Comp A} (hd : Spec.Run P G Never σ m self vs c σ') : RunOk P G σ m self vs c σ' := by
  refine Spec.Run.rec (motive_1 := fun σ e o σ' _ => EvalOk P G σ e o σ') (motive_2 := fun σ es o σ' _ => ArgsOk P G σ es o σ')
      (motive_3 := fun σ c v w o σ' _ => CompareOk P G σ c v w o σ') (motive_4 := fun σ p f vs o σ' _ => CallOk P G σ p f vs o σ')
      (motive_5 := fun σ m vs o σ' _ => InvokeOk P G σ m vs o σ') (motive_6 := fun σ m self vs c σ' _ => RunOk P G σ m self vs c σ')
      (motive_7 := fun _ σ b c σ' _ => ListOk P G σ b c σ') (motive_8 := fun _ σ b c σ' _ => BlockOk P G σ b c σ')
      (motive_9 := fun _ σ st c σ' _ => ExecOk P G σ st c σ') (motive_10 := fun _ σ b cs c σ' _ => GuardedOk P G σ b cs c σ')
      (motive_11 := fun _ σ c it b d σ' _ => ForOk P G σ c it b d σ') (motive_12 := fun σ c σ' _ => HoldsOk P G σ c σ')
      (motive_13 := fun _ σ ty x it b d σ' _ => EachOk P G σ ty x it b d σ') (motive_14 := fun σ it σ' _ => HasNextOk P G σ it σ')
      (motive_15 := fun σ it o σ' _ => NextOk P G σ it o σ') (motive_16 := fun _ σ e cs df d σ' _ => RoundOk P G σ e cs df d σ')
      (motive_17 := fun _ σ v cs df d σ' _ => CasesOk P G σ v cs df d σ')
      ?_ ?_ ?_ ?_ ?_ ?_ ?_ ?_ ?_ ?_ ?_ ?_ ?_ ?_ ?_ ?_ ?_ ?_ ?_ ?_ ?_ ?_ ?_ ?_ ?_ ?_ ?_ ?_ ?_ ?_ ?_ ?_ ?_ ?_ ?_ ?_ ?_ ?_ ?_ ?_ ?_ ?_ ?_ ?_ ?_ ?_ ?_ ?_ ?_ ?_ ?_ ?_ ?_ ?_ ?_ ?_ ?_ ?_ ?_ ?_ ?_ ?_ ?_ ?_ ?_ ?_ ?_ ?_ ?_ ?_ ?_ ?_ ?_ ?_ ?_ ?_ ?_ ?_ ?_ ?_ ?_ ?_ ?_ ?_ ?_ ?_ ?_ ?_ ?_ ?_ ?_ ?_ ?_ ?_ ?_ ?_ ?_ ?_ ?_ ?_ ?_ ?_ ?_ ?_ ?_ ?_ ?_ ?_ ?_ ?_ ?_ ?_ ?_ ?_ ?_ ?_ ?_ ?_ ?_ ?_ ?_ ?_ ?_ ?_ ?_ ?_ ?_ ?_ ?_ ?_ ?_ hd
  every_rule

theorem invoke_refines {m : Bound A} {vs : List (Value A)} {o : Spec.Out A (Value A)} (hd : Spec.Invoke P G Never σ m vs o σ') : InvokeOk P G σ m vs o σ' := by
  refine Spec.Invoke.rec (motive_1 := fun σ e o σ' _ => EvalOk P G σ e o σ') (motive_2 := fun σ es o σ' _ => ArgsOk P G σ es o σ')
      (motive_3 := fun σ c v w o σ' _ => CompareOk P G σ c v w o σ') (motive_4 := fun σ p f vs o σ' _ => CallOk P G σ p f vs o σ')
      (motive_5 := fun σ m vs o σ' _ => InvokeOk P G σ m vs o σ') (motive_6 := fun σ m self vs c σ' _ => RunOk P G σ m self vs c σ')
      (motive_7 := fun _ σ b c σ' _ => ListOk P G σ b c σ') (motive_8 := fun _ σ b c σ' _ => BlockOk P G σ b c σ')
      (motive_9 := fun _ σ st c σ' _ => ExecOk P G σ st c σ') (motive_10 := fun _ σ b cs c σ' _ => GuardedOk P G σ b cs c σ')
      (motive_11 := fun _ σ c it b d σ' _ => ForOk P G σ c it b d σ') (motive_12 := fun σ c σ' _ => HoldsOk P G σ c σ')
      (motive_13 := fun _ σ ty x it b d σ' _ => EachOk P G σ ty x it b d σ') (motive_14 := fun σ it σ' _ => HasNextOk P G σ it σ')
      (motive_15 := fun σ it o σ' _ => NextOk P G σ it o σ') (motive_16 := fun _ σ e cs df d σ' _ => RoundOk P G σ e cs df d σ')
      (motive_17 := fun _ σ v cs df d σ' _ => CasesOk P G σ v cs df d σ')
      ?_ ?_ ?_ ?_ ?_ ?_ ?_ ?_ ?_ ?_ ?_ ?_ ?_ ?_ ?_ ?_ ?_ ?_ ?_ ?_ ?_ ?_ ?_ ?_ ?_ ?_ ?_ ?_ ?_ ?_ ?_ ?_ ?_ ?_ ?_ ?_ ?_ ?_ ?_ ?_ ?_ ?_ ?_ ?_ ?_ ?_ ?_ ?_ ?_ ?_ ?_ ?_ ?_ ?_ ?_ ?_ ?_ ?_ ?_ ?_ ?_ ?_ ?_ ?_ ?_ ?_ ?_ ?_ ?_ ?_ ?_ ?_ ?_ ?_ ?_ ?_ ?_ ?_ ?_ ?_ ?_ ?_ ?_ ?_ ?_ ?_ ?_ ?_ ?_ ?_ ?_ ?_ ?_ ?_ ?_ ?_ ?_ ?_ ?_ ?_ ?_ ?_ ?_ ?_ ?_ ?_ ?_ ?_ ?_ ?_ ?_ ?_ ?_ ?_ ?_ ?_ ?_ ?_ ?_ ?_ ?_ ?_ ?_ ?_ ?_ ?_ ?_ ?_ ?_ ?_ ?_ hd
  every_rule

end Sim
end Interp
end Verif
