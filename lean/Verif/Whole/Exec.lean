import Verif.Whole.Trees
import Verif.Interp.Hangs

/-! # The interpreter executes the code of a program as `Does` says -/

namespace Verif.Whole

open Verif.Str (Text)
open Verif.Calc (Num Cond Val value truth)
open Verif.Interp (Value Prog)
open Verif.Interp.Sim (Never)
open Verif.Interp.Spec (State Eval EvalArgs Exec ExecList ForLoop ExecBlock findBlock Comp truthy)

/-! ## Variables -/

theorem ofList_inj {n m : Text} (h : String.ofList n = String.ofList m) : n = m := by
  have := congrArg String.toList h
  simpa using this

theorem Holds.add {g : List (Text × Kind)} {v : List (Text × Scalar)} {b : AMap Interp.Name (Value Val)} (h : Holds g v b) (n : Text)
    {k : Kind} {s : Scalar} (hs : Good k s) : Holds ((n, k) :: g) ((n, s) :: v) (b.set (String.ofList n) (scalar s)) := by
  intro m
  simp only [List.lookup_cons]
  cases e : m == n with
  | true =>
    rw [beq_iff_eq] at e
    subst e
    exact .inr ⟨k, s, rfl, rfl, hs, AMap.find_set_self _ _ _⟩
  | false =>
    rw [AMap.find_set_ne (fun h => by simp [ofList_inj h] at e)]
    exact h m

theorem Holds.put {g : List (Text × Kind)} {v : List (Text × Scalar)} {b : AMap Interp.Name (Value Val)} (h : Holds g v b) {n : Text}
    {k : Kind} {s : Scalar} (hk : g.lookup n = some k) (hs : Good k s) : Holds g ((n, s) :: v) (b.set (String.ofList n) (scalar s)) := by
  intro m
  simp only [List.lookup_cons]
  cases e : m == n with
  | true =>
    rw [beq_iff_eq] at e
    subst e
    exact .inr ⟨k, s, hk, rfl, hs, AMap.find_set_self _ _ _⟩
  | false =>
    rw [AMap.find_set_ne (fun h => by simp [ofList_inj h] at e)]
    exact h m

theorem Match.put {Γ : Ctx} {vs : Vars} {bs : List (AMap Interp.Name (Value Val))} (h : Match Γ vs bs) {n : Text} {k : Kind}
    (hk : kind Γ n = some k) {s : Scalar} (hs : Good k s) {j : Nat} {o : Value Val} (hf : findBlock (String.ofList n) bs = some (j, o)) :
    Match Γ (put n s vs) (bs.modify j fun b => b.set (String.ofList n) (scalar s)) := by
  induction h generalizing j with
  | nil => cases hk
  | @cons g v b Γ vs bs hh hm ih =>
    simp only [kind, List.findSome?_cons] at hk
    rcases hh n with ⟨h1, h2, h3⟩ | ⟨k', s', h1, h2, h3, h4⟩
    · rw [h1] at hk
      simp only [findBlock, h3, Option.map_eq_some_iff] at hf
      obtain ⟨⟨j', o'⟩, hf, e⟩ := hf
      cases e
      simp only [Whole.put, h2, Option.isSome_none, Bool.false_eq_true, if_false, List.modify_succ_cons]
      exact .cons hh (ih hk hf)
    · rw [h1] at hk
      cases hk
      simp only [findBlock, h4, Option.some.injEq, Prod.mk.injEq] at hf
      obtain ⟨rfl, -⟩ := hf
      simp only [Whole.put, h2, Option.isSome_some, if_true, List.modify_zero_cons]
      exact .cons (hh.put h1 hs) hm

theorem value_congr {σ τ : Text → Int} : ∀ {a : Num}, (∀ n ∈ a.vars, σ n = τ n) → value σ a = value τ a
  | .num k, _ => rfl
  | .var n, h => by simp [value, h n (by simp [Num.vars])]
  | .neg a, h => by simp only [value, value_congr (a := a) fun n hn => h n (by simpa [Num.vars] using hn)]
  | .bin op a b, h => by
    simp only [value, value_congr (a := a) fun n hn => h n (by simp [Num.vars, hn]),
      value_congr (a := b) fun n hn => h n (by simp [Num.vars, hn])]

theorem truth_congr {σ τ : Text → Int} {φ ψ : Text → Bool} : ∀ {c : Cond}, (∀ n ∈ c.vars, σ n = τ n) → (∀ n ∈ c.flags, φ n = ψ n) →
    truth σ φ c = truth τ ψ c
  | .cmp r a b, h, _ => by
    simp only [truth, value_congr (a := a) fun n hn => h n (by simp [Cond.vars, hn]),
      value_congr (a := b) fun n hn => h n (by simp [Cond.vars, hn])]
  | .flag n, _, h => by simp [truth, h n (by simp [Cond.flags])]
  | .const b, _, _ => rfl
  | .not c, h, g => by
    simp only [truth, truth_congr (c := c) (fun n hn => h n (by simpa [Cond.vars] using hn)) fun n hn => g n (by simpa [Cond.flags] using hn)]
  | .and c d, h, g => by
    simp only [truth, truth_congr (c := c) (fun n hn => h n (by simp [Cond.vars, hn])) fun n hn => g n (by simp [Cond.flags, hn]),
      truth_congr (c := d) (fun n hn => h n (by simp [Cond.vars, hn])) fun n hn => g n (by simp [Cond.flags, hn])]
  | .or c d, h, g => by
    simp only [truth, truth_congr (c := c) (fun n hn => h n (by simp [Cond.vars, hn])) fun n hn => g n (by simp [Cond.flags, hn]),
      truth_congr (c := d) (fun n hn => h n (by simp [Cond.vars, hn])) fun n hn => g n (by simp [Cond.flags, hn])]

theorem get_add {v : List (Text × Scalar)} {vs : Vars} {n m : Text} {s : Scalar} (h : m ≠ n) : get (add n s (v :: vs)) m = get (v :: vs) m := by
  simp only [get, add, List.findSome?_cons, List.lookup_cons, show (m == n) = false by simpa using h]

theorem ints_add {v : List (Text × Scalar)} {vs : Vars} {n m : Text} {s : Scalar} (h : m ≠ n) :
    ints (add n s (v :: vs)) m = ints (v :: vs) m := by
  simp only [ints, get_add h]

theorem flags_add {v : List (Text × Scalar)} {vs : Vars} {n m : Text} {s : Scalar} (h : m ≠ n) :
    flags (add n s (v :: vs)) m = flags (v :: vs) m := by
  simp only [flags, get_add h]

theorem texts_add {v : List (Text × Scalar)} {vs : Vars} {n m : Text} {s : Scalar} (h : m ≠ n) :
    texts (add n s (v :: vs)) m = texts (v :: vs) m := by
  simp only [texts, get_add h]

/-- A text does not depend on variables it does not use. -/
theorem told_add {v : List (Text × Scalar)} {vs : Vars} {n : Text} {s : Scalar} {h : Start} {ps : List Part}
    (hn : n ∉ h.vars ++ ps.flatMap Part.vars) : told (add n s (v :: vs)) h ps = told (v :: vs) h ps := by
  simp only [List.mem_append, List.mem_flatMap, not_or, not_exists, not_and] at hn
  have hh : h.value (add n s (v :: vs)) = h.value (v :: vs) := by
    cases h with
    | text t => rfl
    | var m => exact texts_add fun e => hn.1 (by simp [e, Start.vars])
  have hp : ∀ x ∈ ps, x.text? (add n s (v :: vs)) = x.text? (v :: vs) := by
    intro x hx
    have := hn.2 x hx
    cases x with
    | num a => simp only [Part.text?, value_congr (τ := ints (v :: vs)) fun m hm => ints_add fun e : m = n => this (e ▸ hm)]
    | truth c =>
      simp only [Part.text?, truth_congr (τ := ints (v :: vs)) (ψ := flags (v :: vs))
        (fun m hm => ints_add (fun h : m = n => this (List.mem_append_left _ (h ▸ hm))))
        (fun m hm => flags_add (fun h : m = n => this (List.mem_append_right _ (h ▸ hm))))]
    | text t => rfl
    | var m => exact congrArg some (texts_add fun e => this (by simp [e, Part.vars]))
  have aux : ∀ (ps : List Part) (acc : Option Text), (∀ x ∈ ps, x.text? (add n s (v :: vs)) = x.text? (v :: vs)) →
      ps.foldl (fun acc x => acc.bind fun u => (x.text? (add n s (v :: vs))).map (u ++ ·)) acc =
        ps.foldl (fun acc x => acc.bind fun u => (x.text? (v :: vs)).map (u ++ ·)) acc := by
    intro ps
    induction ps with
    | nil => intro acc _; rfl
    | cons x ps ih =>
      intro acc h
      rw [List.foldl_cons, List.foldl_cons, h x List.mem_cons_self]
      exact ih _ fun y hy => h y (List.mem_cons_of_mem _ hy)
  rw [told, told, hh, aux ps _ hp]

/-! ## Commands -/

/-- What the functions of the program are called with. -/
structure Serves (p : Program) (G : Prog Val) : Prop where
  call : ∀ g ∈ p, ∀ is : List Int, is.length = g.params.length → ∃ code,
    G.method none (String.ofList g.name) (is.map fun i => scalar (.int i)) =
      some ⟨g.params.map fun n => (String.ofList n, none), g.isVoid, .body code⟩ ∧ Code [g.params.map (·, .int)] g.body code

/-- How the interpreter says it. -/
def Ended : End → Comp Val
  | .next => .normal
  | .brk => .brk
  | .cont => .cont
  | .left => .ret none
  | .ret i => .ret (some (scalar (.int i)))

/-- A printed value. -/
def Line.value : Line → Value Val
  | .number i => scalar (.int i)
  | .text t => .atom (.str t)

/-- What is printed, latest first. -/
def prints (out : List Line) : List (Value Val) := (out.map Line.value).reverse

theorem prints_append (a b : List Line) : prints (a ++ b) = prints b ++ prints a := by simp [prints]

/-- A state of the interpreter in a function. -/
structure At (Γ : Ctx) (vs : Vars) (σ : State Val) : Prop where
  vars : Match Γ vs σ.blocks
  self : σ.self = none
  fresh : σ.rv = .null

/-- A state after commands: the outer blocks hold the same variables. -/
structure After (g : List (Text × Kind)) (Γ : Ctx) (vs : Vars) (e : End) (out : List Line) (σ σ' : State Val) : Prop where
  vars : Match (g :: Γ) vs σ'.blocks
  self : σ'.self = none
  fresh : (∀ i, e ≠ .ret i) → σ'.rv = .null
  range : ∀ i, e = .ret i → (Calc.inRange i).isSome
  out : σ'.out = prints out ++ σ.out

theorem cast_inRange {i : Int} (h : (Calc.inRange i).isSome) : Ints.Width.w32.cast i = i := by
  refine Ints.cast_of_inRange ?_
  unfold Calc.inRange at h
  split at h
  · rename_i hi
    show -2147483648 ≤ i ∧ i < 2147483648
    omega
  · cases h

theorem assign_int_value {i j : Int} (h : (Calc.inRange j).isSome) :
    prim.assign (scalar (.int i)) (scalar (.int j)) = some (scalar (.int j)) := by
  simp [prim, assign, scalar, Ints.Obj.assign, cast_inRange h]

theorem Good.of {s : Scalar} (h : Good .int s) : ∃ i, s = .int i ∧ (Calc.inRange i).isSome := by
  cases s <;> simp_all [Good]

theorem assign_good {k : Kind} {o s : Scalar} (ho : Good k o) (hs : Good k s) : prim.assign (scalar o) (scalar s) = some (scalar s) := by
  cases k <;> cases o <;> first | (cases ho; done) | skip
  all_goals cases s <;> first | (cases hs; done) | rfl | exact assign_int_value hs

theorem replace_first {P : Interp.Prim Val} {G : Prog Val} {U : Interp.Spec.Event → Prop} {h : Option (Value Val)} {σ τ σ' : State Val}
    {s t : Interp.Stmt Val} {b : List (Interp.Stmt Val)} {c : Comp Val} (he : ExecList P G U h σ (s :: b) c σ')
    (ht : ∀ d σ₁, Exec P G U h σ s d σ₁ → Exec P G U h τ t d σ₁) : ExecList P G U h τ (t :: b) c σ' := by
  cases he with
  | cons h1 h2 => exact .cons (ht _ _ h1) h2
  | jump h1 h2 => exact .jump (ht _ _ h1) h2

theorem args_eval {Γ : Ctx} {as : List Num} {xs : List (Interp.Expr Val)} (h : ArgsCode Γ as xs) (G : Prog Val) {σ : State Val} {vs : Vars}
    (hm : Match Γ vs σ.blocks) : ∀ {is : List Int}, as.map (value (ints vs)) = is.map some →
      EvalArgs prim G Never σ xs (.val (is.map fun i => scalar (.int i))) σ ∧ ∀ i ∈ is, (Calc.inRange i).isSome := by
  induction h with
  | nil =>
    intro is e
    cases is with
    | nil => exact ⟨.nil, nofun⟩
    | cons => cases e
  | cons hx _ ih =>
    intro is e
    cases is with
    | nil => cases e
    | cons i is =>
      simp only [List.map_cons, List.cons.injEq] at e
      obtain ⟨h1, h2⟩ := hx.ok G σ vs i hm e.1
      obtain ⟨h3, h4⟩ := ih e.2
      exact ⟨.cons h1 h3, fun j hj => by 
        rcases List.mem_cons.1 hj with rfl | hj
        · exact h2
        · exact h4 j hj⟩

theorem parameters_eq : ∀ (ns : List Text) (is : List Int) (k : Nat) (ws : List (Value Val)), is.length = ns.length → (∀ n ∈ ns, n ≠ []) →
    ws.length = k →
    ((((ns.map fun n => (String.ofList n, (none : Option (Value Val)))).zipIdx k).filter fun p => p.1.1 != "").map fun p =>
      (p.1.1, (ws ++ is.map fun i => scalar (.int i))[p.2]?.getD (p.1.2.getD .null))) =
    (ns.zip is).map fun q => (String.ofList q.1, scalar (.int q.2))
  | [], is, k, ws, hl, _, _ => by simp
  | n :: ns, is, k, ws, hl, hn, hk => by
    subst hk
    cases is with
    | nil => cases hl
    | cons i is =>
      have h0 : String.ofList n ≠ "" := fun e => hn n List.mem_cons_self (ofList_inj (m := []) e)
      have ih := parameters_eq ns is (ws.length + 1) (ws ++ [scalar (.int i)]) (by simpa using hl) (fun m hm => hn m (List.mem_cons_of_mem _ hm)) (by simp)
      simp only [List.map_cons, List.zipIdx_cons, List.zip_cons_cons]
      rw [List.filter_cons_of_pos (by simpa using h0)]
      simp only [List.map_cons, List.append_assoc, List.singleton_append] at ih ⊢
      rw [ih]
      simp

theorem holds_params : ∀ {ns : List Text} {is : List Int}, is.length = ns.length → (∀ i ∈ is, (Calc.inRange i).isSome) →
    Holds (ns.map (·, .int)) (ns.zip (is.map .int)) ((ns.zip is).map fun q => (String.ofList q.1, scalar (.int q.2)))
  | [], [], _, _ => fun n => .inl ⟨rfl, rfl, rfl⟩
  | m :: ns, i :: is, hl, hr => by
    intro n
    simp only [List.map_cons, List.zip_cons_cons, List.lookup_cons, AMap.find]
    cases e : n == m with
    | true =>
      rw [beq_iff_eq] at e
      subst e
      exact .inr ⟨.int, .int i, rfl, rfl, hr i List.mem_cons_self, by simp⟩
    | false =>
      rw [if_neg (fun h => by simp [ofList_inj h] at e)]
      exact holds_params (by simpa using hl) (fun j hj => hr j (List.mem_cons_of_mem _ hj)) n

theorem match_params {ns : List Text} {is : List Int} (hl : is.length = ns.length) (hn : ∀ n ∈ ns, n ≠ [])
    (hr : ∀ i ∈ is, (Calc.inRange i).isSome) (v : Bool) (code : List (Interp.Stmt Val)) :
    Match [ns.map (·, .int)] [ns.zip (is.map .int)]
      [Interp.Spec.parameters none ⟨ns.map fun n => (String.ofList n, none), v, .body code⟩ (is.map fun i => scalar (.int i))] := by
  have := parameters_eq ns is 0 [] hl hn rfl
  simp only [Interp.Spec.parameters, Option.map_none, Option.toList_none, List.nil_append] at this ⊢
  rw [this]
  exact .cons (holds_params hl hr) .nil

theorem assign_leads {g : List (Text × Kind)} {Γ : Ctx} {vs : Vars} {σ τ : State Val} {n : Text} {k : Kind} {s : Scalar}
    {G : Prog Val} {x : Interp.Expr Val} (hm : Match (g :: Γ) vs σ.blocks) (hk : kind (g :: Γ) n = some k) (hs : Good k s)
    (hx : Eval prim G Never σ x (.val (scalar s)) τ) (ht : τ.blocks = σ.blocks) :
    ∃ σ', Exec prim G Never none σ (.expr (.assign ⟨String.ofList n, []⟩ x)) .normal σ' ∧ Match (g :: Γ) (put n s vs) σ'.blocks ∧
      σ'.self = τ.self ∧ σ'.rv = τ.rv ∧ σ'.out = τ.out := by
  obtain ⟨o, j, h1, h2, h3⟩ := hm.find hk
  have hl : σ.locate ⟨String.ofList n, []⟩ = some (.loc j, scalar o) := by
    simp [State.locate, State.members, State.name, h3]
  have ha : prim.assign (scalar o) (scalar s) = some (scalar s) := by
    exact assign_good h2 hs
  refine ⟨_, .expr (.assign hl hx ha), ?_, rfl, rfl, rfl⟩
  have := hm.put hk hs h3
  simpa [State.write, Interp.Path.target, ht] using this

theorem arith_step (i : Int) (up : Bool) (h : (Calc.inRange i).isSome) :
    prim.unary (if up then "++" else "--") (scalar (.int i)) =
      (Calc.inRange (if up then i + 1 else i - 1)).map fun j => scalar (.int j) := by
  have hc := cast_inRange h
  have h1 : opOfText "++" = none := by decide
  have h2 : opOfText "--" = none := by decide
  have h0 : ("--" : String) ≠ "++" := by decide
  have hm : (Ints.Width.w32.promoted) = Ints.Width.w32 := rfl
  cases up
  · simp only [prim, scalar, Bool.false_eq_true, if_false, h2, h0, step, Ints.Obj.decrement, hc, hm, Ints.Width.cpp, Calc.inRange_fit]
    cases Calc.inRange (i - 1) <;> rfl
  · simp only [prim, scalar, if_true, h1, step, Ints.Obj.increment, hc, hm, Ints.Width.cpp, Calc.inRange_fit]
    cases Calc.inRange (i + 1) <;> rfl

theorem step_value {vs : Vars} {n : Text} {up : Bool} {i : Int} (hi : ints vs n = i) :
    value (ints vs) (Change.num (.step up n)) = Calc.inRange (if up then i + 1 else i - 1) := by
  subst hi
  cases up <;> rfl

/-- A variable changes as it should. -/
theorem change_leads {g : List (Text × Kind)} {Γ : Ctx} {vs : Vars} {σ : State Val} {d : Change} {i : Int} {G : Prog Val}
    {x : Interp.Expr Val} (hm : Match (g :: Γ) vs σ.blocks) (hk : kind (g :: Γ) d.name = some .int) (hx : ChangeCode (g :: Γ) d x)
    (hv : value (ints vs) d.num = some i) :
    ∃ σ', Exec prim G Never none σ (.expr x) .normal σ' ∧ Match (g :: Γ) (put d.name (.int i) vs) σ'.blocks ∧
      σ'.self = σ.self ∧ σ'.rv = σ.rv ∧ σ'.out = σ.out := by
  cases hx with
  | to hx =>
    obtain ⟨hx1, hx2⟩ := hx.ok G σ vs i hm hv
    exact assign_leads (s := .int i) hm hk hx2 hx1 rfl
  | step up n =>
    obtain ⟨o, j, h1, h2, h3⟩ := hm.find hk
    obtain ⟨k, rfl, hr⟩ := h2.of
    · have hl : σ.locate ⟨String.ofList n, []⟩ = some (.loc j, scalar (.int k)) := by
        have h3 : findBlock (String.ofList n) σ.blocks = _ := h3
        simp [State.locate, State.members, State.name, h3]
      have hn : ints vs n = k := by
        have h1 : get vs n = _ := h1
        simp [ints, h1]
      rw [step_value hn] at hv
      have hu := arith_step k up hr
      rw [hv] at hu
      have hi : (Calc.inRange i).isSome := by
        have := Calc.inRange_iff.1 hv
        rw [this.1, hv]; rfl
      refine ⟨_, .expr (.incr hl hu), ?_, rfl, rfl, rfl⟩
      have := hm.put hk (s := .int i) hi h3
      simpa [State.write, Interp.Path.target, Change.name] using this

theorem Match.inner {g : List (Text × Kind)} {Γ : Ctx} {vs : Vars} {bs : List (AMap Interp.Name (Value Val))} (h : Match (g :: Γ) vs bs) :
    ∃ v ws, vs = v :: ws := by
  cases h
  exact ⟨_, _, rfl⟩

theorem declare_from {g : List (Text × Kind)} {Γ : Ctx} {v : List (Text × Scalar)} {vs : Vars} {σ : State Val} {n : Text} {k : Kind} {s d : Scalar} {ty : String}
    {G : Prog Val} {x : Interp.Expr Val} (hm : Match (g :: Γ) (v :: vs) σ.blocks) (hg : g.lookup n = none) (hd : Good k d)
    (hty : prim.default ty = scalar d)
    {o : List (Value Val)} (hx : ∀ τ : State Val, Match (((n, k) :: g) :: Γ) (add n d (v :: vs)) τ.blocks → τ.self = σ.self → τ.rv = σ.rv →
      τ.out = σ.out → ∃ τ', Eval prim G Never τ x (.val (scalar s)) τ' ∧ Good k s ∧ τ'.blocks = τ.blocks ∧ τ'.self = σ.self ∧
        τ'.rv = σ.rv ∧ τ'.out = o) :
    ∃ σ', Exec prim G Never none σ (.decl ty (String.ofList n) (some x)) .normal σ' ∧ Match (((n, k) :: g) :: Γ) (add n s (v :: vs)) σ'.blocks ∧
      σ'.self = σ.self ∧ σ'.rv = σ.rv ∧ σ'.out = o := by
  generalize hbs : σ.blocks = bl at hm
  cases hm with
  | @cons _ _ b _ _ bs hh hm =>
    have hb : b.find (String.ofList n) = none := by
      rcases hh n with ⟨-, -, h3⟩ | ⟨k', s', h1, -⟩
      · exact h3
      · rw [hg] at h1; cases h1
    have hm' : Match (((n, k) :: g) :: Γ) (add n d (v :: vs)) (b.set (String.ofList n) (prim.default ty) :: bs) := by
      rw [hty]; exact .cons (hh.add n hd) hm
    obtain ⟨τ', he, hs, t1, t2, t3, t4⟩ := hx { σ with blocks := b.set (String.ofList n) (prim.default ty) :: bs } hm' rfl rfl rfl
    have ha : prim.assign (scalar d) (scalar s) = some (scalar s) := by
      exact assign_good hd hs
    have t1 : τ'.blocks = b.set (String.ofList n) (prim.default ty) :: bs := t1
    have hn : τ'.name (String.ofList n) = some (.loc 0, scalar d) := by
      simp [State.name, t1, findBlock, AMap.find_set_self, hty]
    refine ⟨_, .declInit hbs hb he hn ha, ?_, t2, t3, t4⟩
    simp only [State.write, t1, List.modify_zero_cons]
    refine .cons ?_ hm
    intro m
    have := (hh.add n hs) m
    rw [hty]
    have h2 : ((b.set (String.ofList n) (scalar d)).set (String.ofList n) (scalar s)).find (String.ofList m) =
        (b.set (String.ofList n) (scalar s)).find (String.ofList m) := by
      by_cases e : String.ofList n = String.ofList m
      · rw [← e, AMap.find_set_self, AMap.find_set_self]
      · rw [AMap.find_set_ne e, AMap.find_set_ne e, AMap.find_set_ne e]
    rw [h2]
    exact this

theorem declare_leads {g : List (Text × Kind)} {Γ : Ctx} {v : List (Text × Scalar)} {vs : Vars} {σ : State Val} {n : Text} {k : Kind} {s d : Scalar} {ty : String}
    {G : Prog Val} {x : Interp.Expr Val} (hm : Match (g :: Γ) (v :: vs) σ.blocks) (hg : g.lookup n = none) (hd : Good k d)
    (hty : prim.default ty = scalar d)
    (hx : ∀ τ : State Val, Match (((n, k) :: g) :: Γ) (add n d (v :: vs)) τ.blocks → Eval prim G Never τ x (.val (scalar s)) τ ∧ Good k s) :
    ∃ σ', Exec prim G Never none σ (.decl ty (String.ofList n) (some x)) .normal σ' ∧ Match (((n, k) :: g) :: Γ) (add n s (v :: vs)) σ'.blocks ∧
      σ'.self = σ.self ∧ σ'.rv = σ.rv ∧ σ'.out = σ.out :=
  declare_from hm hg hd hty fun τ h1 h2 h3 h4 => ⟨τ, (hx τ h1).1, (hx τ h1).2, rfl, h2, h3, h4⟩

theorem zero_good : ∀ k : Kind, Good k k.zero
  | .int => by simp [Good, Kind.zero, Calc.inRange]
  | .bool => trivial
  | .string => trivial

theorem zero_default (k : Kind) : prim.default (String.ofList k.word) = scalar k.zero := by cases k <;> rfl

theorem fresh_leads {g : List (Text × Kind)} {Γ : Ctx} {v : List (Text × Scalar)} {vs : Vars} {σ : State Val} {n : Text} {k : Kind}
    {G : Prog Val} (hm : Match (g :: Γ) (v :: vs) σ.blocks) (hg : g.lookup n = none) :
    ∃ σ', Exec prim G Never none σ (.decl (String.ofList k.word) (String.ofList n) none) .normal σ' ∧
      Match (((n, k) :: g) :: Γ) (add n k.zero (v :: vs)) σ'.blocks ∧ σ'.self = σ.self ∧ σ'.rv = σ.rv ∧ σ'.out = σ.out := by
  generalize hbs : σ.blocks = bl at hm
  cases hm with
  | @cons _ _ b _ _ bs hh hm =>
    have hb : b.find (String.ofList n) = none := by
      rcases hh n with ⟨-, -, h3⟩ | ⟨k', s', h1, -⟩
      · exact h3
      · rw [hg] at h1; cases h1
    exact ⟨_, .decl hbs hb, by rw [zero_default]; exact .cons (hh.add n (zero_good k)) hm, rfl, rfl, rfl⟩

theorem truthy_bool (b : Bool) : truthy prim (scalar (.bool b)) = b := by cases b <;> rfl

theorem Ended_normal {e : End} (h : e ≠ .next) : Ended e ≠ .normal := by cases e <;> simp_all [Ended]

theorem At.enter {Γ : Ctx} {vs : Vars} {σ : State Val} (h : At Γ vs σ) : At ([] :: Γ) ([] :: vs) { σ with blocks := [] :: σ.blocks } :=
  ⟨.cons (fun _ => .inl ⟨rfl, rfl, rfl⟩) h.vars, h.self, h.fresh⟩

theorem After.leave {g g' : List (Text × Kind)} {Γ : Ctx} {l : List (Text × Scalar)} {vs : Vars} {e : End} {out : List Line} {σ σ' : State Val}
    (h : After g' (g :: Γ) (l :: vs) e out { σ with blocks := [] :: σ.blocks } σ') : After g Γ vs e out σ { σ' with blocks := σ'.blocks.tail } := by
  obtain ⟨h1, h2, h3, h4, h5⟩ := h
  refine ⟨?_, h2, h3, h4, h5⟩
  generalize hb : σ'.blocks = bs at h1
  cases h1 with
  | cons _ h => simpa [hb] using h

theorem After.at {g : List (Text × Kind)} {Γ : Ctx} {vs : Vars} {e : End} {out : List Line} {σ σ' : State Val}
    (h : After g Γ vs e out σ σ') (he : ∀ i, e ≠ .ret i) : At (g :: Γ) vs σ' := ⟨h.vars, h.self, h.fresh he⟩

theorem After.then {g g' : List (Text × Kind)} {Γ : Ctx} {vs ws : Vars} {e d : End} {out out' : List Line} {σ σ₁ σ' : State Val}
    (h : After g Γ ws d out σ σ₁) (h' : After g' Γ vs e out' σ₁ σ') : After g' Γ vs e (out ++ out') σ σ' :=
  ⟨h'.vars, h'.self, h'.fresh, h'.range, by rw [h'.out, h.out, prints_append, List.append_assoc]⟩

theorem After.of_out {g : List (Text × Kind)} {Γ : Ctx} {vs : Vars} {e : End} {out : List Line} {σ τ σ' : State Val}
    (h : After g Γ vs e out τ σ') (ho : τ.out = σ.out) : After g Γ vs e out σ σ' :=
  ⟨h.vars, h.self, h.fresh, h.range, by rw [h.out, ho]⟩

/-- The variables of the innermost block after commands. -/
def grow (g : List (Text × Kind)) : List Cmd → List (Text × Kind)
  | [] => g
  | .int n _ :: cs => grow ((n, .int) :: g) cs
  | .bool n _ :: cs => grow ((n, .bool) :: g) cs
  | .fresh k n :: cs => grow ((n, k) :: g) cs
  | .text n _ _ :: cs => grow ((n, .string) :: g) cs
  | .call (.new n) _ _ :: cs => grow ((n, .int) :: g) cs
  | _ :: cs => grow g cs

theorem grow_if {g : List (Text × Kind)} {d : Cmd} (h : d.isIf = true) (cs : List Cmd) : grow g (d :: cs) = grow g cs := by
  cases d <;> first | rfl | cases h

/-- What the rules allow as the end of commands. -/
def Allowed (r : Give) (l : Around) : End → Prop
  | .next => True
  | .brk => l = .whileLoop ∨ l = .switch
  | .cont => l = .whileLoop ∨ l = .forLoop
  | .left => r = .nothing
  | .ret _ => r = .number

/-- The parts of a `for` obey the rules. -/
structure RoundsFit (p : Program) (Γ : Ctx) (c : Cond) (d : Change) (b : List Cmd) : Prop where
  cond : CondFits Γ c
  var : kind Γ d.name = some .int
  step : NumFits Γ d.num
  body : Fits p .never .forLoop ([] :: Γ) b

/-- The block that is executed is one of those that are written, or there is none. -/
theorem chosen_mem {vs : Vars} {i : Int} {as : List (Option Num × List Cmd)} {b : List Cmd} (h : chosen vs i as = some b) :
    b = [] ∨ ∃ x ∈ as, x.2 = b := by
  have hm : ∀ (ls : List (Num × List Cmd)) r, matching vs i ls = some (some r) → ∃ y ∈ ls, y.2 = r := by
    intro ls
    induction ls with
    | nil => intro r h; cases h
    | cons y ls ih =>
      intro r h
      obtain ⟨a, c⟩ := y
      simp only [matching] at h
      split at h
      · cases h
      · split at h
        · cases h; exact ⟨_, List.mem_cons_self, rfl⟩
        · obtain ⟨y, hy, e⟩ := ih r h
          exact ⟨y, List.mem_cons_of_mem _ hy, e⟩
  simp only [chosen, Option.map_eq_some_iff] at h
  obtain ⟨r, hr, rfl⟩ := h
  cases r with
  | none =>
    simp only [Option.getD_none, otherwise]
    cases hf : as.find? (·.1.isNone) with
    | none => exact .inl rfl
    | some x => exact .inr ⟨x, List.mem_of_find?_eq_some hf, rfl⟩
  | some c =>
    obtain ⟨y, hy, rfl⟩ := hm _ _ hr
    simp only [labelled, List.mem_filterMap, Option.map_eq_some_iff] at hy
    obtain ⟨x, hx, a, -, rfl⟩ := hy
    exact .inr ⟨x, hx, rfl⟩

theorem chosen_fits {p : Program} {r : Give} {Γ : Ctx} {vs : Vars} {i : Int} {as : List (Option Num × List Cmd)} {b : List Cmd}
    (h : chosen vs i as = some b) (hf : ∀ x ∈ as, Fits p r .switch ([] :: Γ) x.2) : Fits p r .switch ([] :: Γ) b := by
  rcases chosen_mem h with rfl | ⟨x, hx, rfl⟩
  · exact .nil
  · exact hf x hx

theorem prim_eq {i j : Int} (hi : (Calc.inRange i).isSome) (hj : (Calc.inRange j).isSome) :
    prim.compare .eq (scalar (.int i)) (scalar (.int j)) = some (decide (j = i)) := by
  simp only [prim, scalar, comparison, cmpTy, Calc.compare, Ints.Obj.equal, cast_inRange hi, cast_inRange hj]
  exact congrArg some (Bool.eq_iff_iff.2 (by rw [beq_iff_eq, decide_eq_true_iff]; exact eq_comm))

/-- The cases of a `switch`: the code of the block that is executed. -/
theorem picked {G : Prog Val} {Γ : Ctx} {vs : Vars} {σ : State Val} {i : Int} {db : List (Interp.Stmt Val)} (hm : Match Γ vs σ.blocks)
    (hi : (Calc.inRange i).isSome) : ∀ (xs : List ((Num × List Cmd) × Interp.Expr Val × List (Interp.Stmt Val))) {r : Option (List Cmd)},
    (∀ y ∈ xs, NumCode Γ y.1.1 y.2.1) → matching vs i (xs.map (·.1)) = some r →
    ∃ code, (r = none → code = db) ∧ (∀ b, r = some b → ∃ y ∈ xs, y.1.2 = b ∧ y.2.2 = code) ∧
      (∀ d σ', Interp.Spec.ExecBlock prim G Never none σ code d σ' →
        Interp.Spec.Cases prim G Never none σ (scalar (.int i)) (xs.map (·.2)) db d σ') ∧
      ∀ bad k, Interp.Sim.ListHangs prim G bad k { σ with blocks := [] :: σ.blocks } code →
        Interp.Sim.CasesHangs prim G bad k σ (scalar (.int i)) (xs.map (·.2)) db
  | [], r, _, h => by
    cases h
    exact ⟨db, fun _ => rfl, nofun, fun d σ' h => .dflt h, fun bad k h => Interp.Sim.hangs_default h⟩
  | ((a, b), x, c) :: xs, r, hn, h => by
    have hx := hn _ List.mem_cons_self
    simp only [List.map_cons, matching] at h
    split at h
    · cases h
    · rename_i j hj
      have he := (hx.ok G σ vs j hm hj).1
      have hc := prim_eq hi (hx.ok G σ vs j hm hj).2
      split at h
      · rename_i e
        cases h
        rw [decide_eq_true e] at hc
        exact ⟨c, nofun, fun b' e => by cases e; exact ⟨_, List.mem_cons_self, rfl, rfl⟩, fun d σ' h => .hit he (.prim nofun hc) h,
          fun bad k h => Interp.Sim.hangs_hit (Interp.Sim.eval_refines he) (Interp.Sim.compare_prim nofun hc) h⟩
      · rename_i e
        rw [decide_eq_false e] at hc
        obtain ⟨code, h1, h2, h3, h4⟩ := picked (G := G) (db := db) hm hi xs (fun y hy => hn y (List.mem_cons_of_mem _ hy)) h
        refine ⟨code, h1, fun b' e => ?_, fun d σ' h => .skip he (.prim nofun hc) (h3 d σ' h),
          fun bad k h => Interp.Sim.hangs_skip (Interp.Sim.eval_refines he) (Interp.Sim.compare_prim nofun hc) (h4 bad k h)⟩
        obtain ⟨y, hy, e⟩ := h2 b' e
        exact ⟨y, List.mem_cons_of_mem _ hy, e⟩

/-- A `switch`: the code of the block that is executed. -/
theorem chosen_code {G : Prog Val} {Γ : Ctx} {vs : Vars} {σ : State Val} {a : Num} {i : Int} {as : List (Option Num × List Cmd)} {t : List Cmd}
    {x : Interp.Expr Val} {db : List (Interp.Stmt Val)} {xs : List ((Num × List Cmd) × Interp.Expr Val × List (Interp.Stmt Val))}
    (hm : Match Γ vs σ.blocks) (hx : NumCode Γ a x) (hl : labelled as = xs.map (·.1)) (hn : ∀ y ∈ xs, NumCode Γ y.1.1 y.2.1)
    (hc : ∀ y ∈ xs, Code ([] :: Γ) y.1.2 y.2.2) (hd : Code ([] :: Γ) (otherwise as) db) (hne : labelled as ≠ [])
    (hv : value (ints vs) a = some i) (h : chosen vs i as = some t) :
    ∃ code, Code ([] :: Γ) t code ∧ (∀ d σ', Interp.Spec.ExecBlock prim G Never none σ code d σ' →
        Interp.Spec.Round prim G Never none σ x (xs.map (·.2)) db d σ') ∧
      ∀ bad k, Interp.Sim.ListHangs prim G bad k { σ with blocks := [] :: σ.blocks } code →
        Interp.Sim.ExecHangs prim G bad k σ (.switch x (xs.map (·.2)) db) := by
  simp only [chosen, Option.map_eq_some_iff] at h
  obtain ⟨r, hr, rfl⟩ := h
  rw [hl] at hr hne
  obtain ⟨code, h1, h2, h3, h4⟩ := picked (G := G) (db := db) hm (hx.ok G σ vs i hm hv).2 xs hn hr
  have he := (hx.ok G σ vs i hm hv).1
  refine ⟨code, ?_, ?_, ?_⟩
  · cases r with
    | none => rw [h1 rfl]; exact hd
    | some b =>
      obtain ⟨y, hy, e1, e2⟩ := h2 b rfl
      have := hc y hy
      rw [e1, e2] at this
      exact this
  · intro d σ' h
    cases xs with
    | nil => exact absurd rfl hne
    | cons y xs => exact .cases he (h3 d σ' h)
  · intro bad k h
    cases xs with
    | nil => exact absurd rfl hne
    | cons y xs => exact Interp.Sim.hangs_switch (Interp.Sim.eval_refines he) (h4 bad k h)

theorem allowed_both {p : Program} {vs ws : Vars} {cs : List Cmd} {out : List Line} {e : End} (h : Does p vs cs out ws e) :
    (∀ {r : Give} {l : Around} {Γ : Ctx}, Fits p r l Γ cs → Allowed r l e) ∧
      (∀ {c : Cond} {h : Change} {b : List Cmd}, cs = [.rounds c h b] → ∀ {Γ : Ctx}, Fits p .never .forLoop Γ b → e = .next) := by
  induction h with
  | done => exact ⟨fun _ => trivial, nofun⟩
  | int _ _ ih => exact ⟨fun hf => by cases hf with | int _ _ _ _ hf => exact ih.1 hf, nofun⟩
  | bool _ _ ih => exact ⟨fun hf => by cases hf with | bool _ _ _ _ hf => exact ih.1 hf, nofun⟩
  | set _ _ ih => exact ⟨fun hf => by cases hf with | set _ _ hf => exact ih.1 hf, nofun⟩
  | fresh _ ih => exact ⟨fun hf => by cases hf with | fresh _ _ hf => exact ih.1 hf, nofun⟩
  | check _ _ ih => exact ⟨fun hf => by cases hf with | check _ hf => exact ih.1 hf, nofun⟩
  | mark _ _ ih => exact ⟨fun hf => by cases hf with | mark _ _ hf => exact ih.1 hf, nofun⟩
  | call _ _ _ _ _ _ _ ih => exact ⟨fun hf => by cases hf with | call _ _ _ _ _ hf => exact ih.1 hf, nofun⟩
  | callRet _ _ _ _ _ => exact ⟨fun hf => by cases hf with | call hu _ _ _ _ hf => cases hu; rfl, nofun⟩
  | act _ _ _ _ _ _ _ _ ih => exact ⟨fun hf => by cases hf with | act _ _ _ hf => exact ih.1 hf, nofun⟩
  | print _ _ ih => exact ⟨fun hf => by cases hf with | print _ hf => exact ih.1 hf, nofun⟩
  | say _ _ ih => exact ⟨fun hf => by cases hf with | say _ _ hf => exact ih.1 hf, nofun⟩
  | text _ _ ih => exact ⟨fun hf => by cases hf with | text _ _ _ _ _ hf => exact ih.1 hf, nofun⟩
  | write _ _ ih => exact ⟨fun hf => by cases hf with | write _ _ _ hf => exact ih.1 hf, nofun⟩
  | whenTrue _ _ ih => exact ⟨fun hf => by cases hf with | «when» _ ht hf => exact ih.1 (.block ht hf), nofun⟩
  | whenFalse _ _ ih => exact ⟨fun hf => by cases hf with | «when» _ ht hf => exact ih.1 hf, nofun⟩
  | chooseTrue _ _ ih => exact ⟨fun hf => by cases hf with | choose _ ht hu hf => exact ih.1 (.block ht hf), nofun⟩
  | chooseFalse _ _ ih => exact ⟨fun hf => by cases hf with | choose _ ht hu hf => exact ih.1 (.block hu hf), nofun⟩
  | chainTrue _ _ ih => exact ⟨fun hf => by cases hf with | chain _ ht hd hu hf => exact ih.1 (.block ht hf), nofun⟩
  | chainFalse _ _ ih => exact ⟨fun hf => by cases hf with | chain _ ht hd hu hf => exact ih.1 (hu.more hd hf), nofun⟩
  | pick _ _ _ _ _ _ ih => exact ⟨fun hf => by cases hf with | pick _ _ _ _ _ _ hf => exact ih.1 hf, nofun⟩
  | @pickLeft _ _ _ _ _ _ _ _ _ e _ hc _ h1 h2 ih =>
    refine ⟨fun hf => ?_, nofun⟩
    cases hf with
    | pick _ _ hft _ _ _ hf =>
      have h := ih.1 (chosen_fits hc hft)
      cases e with
      | next => exact absurd rfl h1
      | brk => exact absurd rfl h2
      | cont => rcases h with h | h <;> cases h
      | left => exact h
      | ret i => exact h
  | loopEnd _ _ ih => exact ⟨fun hf => by cases hf with | loop _ ht hf => exact ih.1 hf, nofun⟩
  | loopNext _ _ _ _ _ ih => exact ⟨ih.1, nofun⟩
  | loopBreak _ _ _ _ ih => exact ⟨fun hf => by cases hf with | loop _ ht hf => exact ih.1 hf, nofun⟩
  | loopReturn _ _ ih => exact ⟨fun hf => by cases hf with | loop _ ht hf => have h := ih.1 ht; exact h, nofun⟩
  | loopLeft _ _ ih => exact ⟨fun hf => by cases hf with | loop _ ht hf => have h := ih.1 ht; exact h, nofun⟩
  | count _ _ _ _ ih => exact ⟨fun hf => by cases hf with | count _ _ _ _ _ _ _ hf => exact ih.1 hf, nofun⟩
  | countLeft _ _ he ih => exact ⟨fun hf => by cases hf with | count _ _ _ _ _ _ hb _ => exact absurd (ih.2 rfl hb) he, nofun⟩
  | roundsEnd _ h _ =>
    refine ⟨nofun, fun e => ?_⟩
    cases e
    cases h
    exact fun _ => rfl
  | roundsNext _ _ _ _ _ _ ih => exact ⟨nofun, fun e => by cases e; exact ih.2 rfl⟩
  | roundsBreak _ _ _ ih _ => exact ⟨nofun, fun e _ hf => by cases e; exact absurd (ih.1 hf) nofun⟩
  | roundsReturn _ _ ih => exact ⟨nofun, fun e _ hf => by cases e; exact absurd (ih.1 hf) nofun⟩
  | roundsLeft _ _ ih => exact ⟨nofun, fun e _ hf => by cases e; exact absurd (ih.1 hf) nofun⟩
  | block _ _ _ ih => exact ⟨fun hf => by cases hf with | block ht hf => exact ih.1 hf, nofun⟩
  | blockLeft _ _ ih => exact ⟨fun hf => by cases hf with | block ht hf => exact ih.1 ht, nofun⟩
  | brk => exact ⟨fun hf => by cases hf with | brk h => exact h, nofun⟩
  | cont => exact ⟨fun hf => by cases hf with | cont h => exact h, nofun⟩
  | ret => exact ⟨fun hf => by cases hf; rfl, nofun⟩
  | leave => exact ⟨fun hf => by cases hf; rfl, nofun⟩

/-- Commands end as the rules allow. -/
theorem Does.allowed {p : Program} {vs ws : Vars} {cs : List Cmd} {out : List Line} {e : End} (h : Does p vs cs out ws e) {r : Give}
    {l : Around} {Γ : Ctx} (hf : Fits p r l Γ cs) : Allowed r l e := (allowed_both h).1 hf

theorem last_cons {α : Type} {x y : α} {l : List α} (h : (x :: l).getLast? = some y) : x = y ∨ l.getLast? = some y := by
  cases l with
  | nil => exact .inl (by simpa using h)
  | cons z l => exact .inr (by simpa using h)

theorem last_swap {α : Type} {x y z : α} {l : List α} (h : (x :: l).getLast? = some y) (hx : x ≠ y) : (z :: l).getLast? = some y := by
  cases l with
  | nil => exact absurd (by simpa using h) hx
  | cons u l => simpa using h

/-- Commands that end with `return` return. -/
theorem Does.returns {p : Program} {vs ws : Vars} {cs : List Cmd} {out : List Line} {e : End} (h : Does p vs cs out ws e) {a : Cmd}
    (hg : a.gives) : cs.getLast? = some a → e ≠ .next := by
  induction h with
  | done => nofun
  | whenTrue _ _ ih => exact fun h => ih (last_swap h (by rintro rfl; exact hg))
  | chooseTrue _ _ ih => exact fun h => ih (last_swap h (by rintro rfl; exact hg))
  | chooseFalse _ _ ih => exact fun h => ih (last_swap h (by rintro rfl; exact hg))
  | chainTrue _ _ ih => exact fun h => ih (last_swap h (by rintro rfl; exact hg))
  | chainFalse _ _ ih => exact fun h => ih (last_swap h (by rintro rfl; exact hg))
  | pick _ _ _ _ _ _ ih =>
    intro h
    rcases last_cons h with rfl | h
    · exact absurd hg (by exact nofun)
    · exact ih h
  | pickLeft _ _ _ he _ _ => exact fun _ => he
  | loopNext _ _ _ _ _ ih => exact ih
  | roundsNext _ _ _ _ _ _ ih => exact fun h => ih (last_swap h (by rintro rfl; exact hg))
  | int _ _ ih | bool _ _ ih | fresh _ ih | check _ _ ih | set _ _ ih | mark _ _ ih | print _ _ ih | whenFalse _ _ ih | loopEnd _ _ ih | roundsEnd _ _ ih =>
    exact fun h => ih (by rcases last_cons h with rfl | h; · exact hg.elim
                          exact h)
  | @call _ _ _ u _ _ _ _ _ _ _ _ _ _ _ _ _ hu _ _ ih =>
    exact fun h => ih (by
      rcases last_cons h with rfl | h
      · cases u <;> first | exact hg.elim | exact absurd rfl hu
      · exact h)
  | act _ _ _ _ _ _ _ _ ih | loopBreak _ _ _ _ ih | roundsBreak _ _ _ _ ih | count _ _ _ _ ih | block _ _ _ ih =>
    exact fun h => ih (by rcases last_cons h with rfl | h; · exact hg.elim
                          exact h)
  | say _ _ ih | text _ _ ih | write _ _ ih =>
    exact fun h => ih (by rcases last_cons h with rfl | h; · exact hg.elim
                          exact h)
  | blockLeft _ he _ => exact fun _ => he
  | countLeft _ _ he _ => exact fun _ => he
  | loopReturn | loopLeft | roundsReturn | roundsLeft | brk | cont | ret | leave | callRet => nofun

/-- A function with a result returns it. -/
theorem Does.result {p : Program} {f : Fun} (hff : FunFits p f) {vs ws : Vars} {out : List Line} {e : End} (h : Does p vs f.body out ws e)
    (hv : f.isVoid = false) : ∃ i, e = .ret i := by
  obtain ⟨cs, a, hres, hgives⟩ := hff.result hv
  have ha := h.allowed hff.body
  simp only [Fun.give, hv] at ha
  cases e with
  | next => exact absurd rfl (h.returns hgives (by rw [hres]; simp))
  | ret i => exact ⟨i, rfl⟩
  | brk => rcases ha with h | h <;> cases h
  | cont => rcases ha with h | h <;> cases h
  | left => cases ha

/-- A call of a function whose body has ended. -/
theorem call_leads {p : Program} {G : Prog Val} (hp : WellFormed p) (hG : Serves p G) {g : List (Text × Kind)} {Γ : Ctx} {vs ws : Vars}
    {args : List Num} {xs : List (Interp.Expr Val)} {is : List Int} {f : Fun} {out : List Line} {d : End} {σ : State Val} (ha : At (g :: Γ) vs σ)
    (hx : ArgsCode (g :: Γ) args xs) (hargs : args.map (value (ints vs)) = is.map some) (hmem : f ∈ p) (hlen : args.length = f.params.length)
    (hd : Does p [f.params.zip (is.map .int)] f.body out ws d) (h₁ : d ≠ .brk) (h₂ : d ≠ .cont)
    (hbody : ∀ {code : List (Interp.Stmt Val)} {τ : State Val}, Code [f.params.map (·, .int)] f.body code →
      At [f.params.map (·, .int)] [f.params.zip (is.map .int)] τ →
      ∃ τ' g', ExecList prim G Never none τ code (Ended d) τ' ∧ After g' [] ws d out τ τ') :
    ∃ v τ, Eval prim G Never σ (.call [] (String.ofList f.name) xs) (.val v) τ ∧ τ.blocks = σ.blocks ∧ τ.self = σ.self ∧ τ.rv = σ.rv ∧
      τ.out = prints out ++ σ.out ∧ (f.isVoid = false → ∀ i, d = .ret i → v = scalar (.int i) ∧ (Calc.inRange i).isSome) := by
  have hlen' : is.length = f.params.length := by
    rw [← hlen]
    have := congrArg List.length hargs
    simpa using this.symm
  obtain ⟨body, hm, hcode⟩ := hG.call f hmem is hlen'
  obtain ⟨he, hrange⟩ := args_eval hx G ha.vars hargs
  have hff := hp.funs f hmem
  have hstart : At [f.params.map (·, .int)] [f.params.zip (is.map .int)]
      { σ with blocks := [Interp.Spec.parameters none ⟨f.params.map fun n => (String.ofList n, none), f.isVoid, .body body⟩
        (is.map fun i => scalar (.int i))], self := none, rv := .null } :=
    ⟨match_params hlen' (fun m hm => (hff.params m hm).1.1) hrange _ _, rfl, rfl⟩
  obtain ⟨τ, g', j1, j2⟩ := hbody hcode hstart
  have hrun := Interp.Spec.Run.body (P := prim) (G := G) (U := Never) (σ := σ) (self := none) rfl j1
  have hfound : σ.callee G [] (String.ofList f.name) (is.map fun i => scalar (.int i)) =
      some (⟨f.params.map fun n => (String.ofList n, none), f.isVoid, .body body⟩, none) := by
    simp [State.callee, Interp.Spec.methodOf, ha.self, hm]
  cases hv : f.isVoid with
  | false =>
    obtain ⟨i, rfl⟩ := hd.result hff hv
    exact ⟨scalar (.int i), _, .call he (.found hfound (.value hrun hv)), rfl, rfl, rfl, j2.out,
      fun _ j e => by cases e; exact ⟨rfl, j2.range i rfl⟩⟩
  | true =>
    refine ⟨.null, _, .call he (.found hfound (.void hrun ?_ hv)), rfl, rfl, rfl, j2.out, nofun⟩
    intro x
    cases d <;> first | exact nofun | exact absurd rfl h₁ | exact absurd rfl h₂

/-- The interpreter does what the commands mean. -/
theorem simulates_both {p : Program} {G : Prog Val} (hp : WellFormed p) (hG : Serves p G) {vs vs' : Vars} {cs : List Cmd} {out : List Line} {e : End}
    (hd : Does p vs cs out vs' e) :
    (∀ {r : Give} {l : Around} {g : List (Text × Kind)} {Γ : Ctx} {code : List (Interp.Stmt Val)} {σ : State Val},
      Fits p r l (g :: Γ) cs → Code (g :: Γ) cs code → At (g :: Γ) vs σ →
      ∃ σ' g', ExecList prim G Never none σ code (Ended e) σ' ∧ After g' Γ vs' e out σ σ' ∧ (e = .next → g' = grow g cs)) ∧
    (∀ {c : Cond} {h : Change} {b : List Cmd}, cs = [.rounds c h b] → ∀ {g : List (Text × Kind)} {Γ : Ctx} {y z : Interp.Expr Val}
      {bt : List (Interp.Stmt Val)} {σ : State Val}, RoundsFit p (g :: Γ) c h b → CondCode (g :: Γ) c y → ChangeCode (g :: Γ) h z →
      Code ([] :: g :: Γ) b bt → At (g :: Γ) vs σ →
      ∃ σ', ForLoop prim G Never none σ (some y) (.expr z) (.block bt) .normal σ' ∧
        After g Γ vs' .next out σ σ') := by
  induction hd with
  | done =>
    refine ⟨?_, nofun⟩
    intro r l g Γ code σ hf hc ha
    cases hc
    exact ⟨σ, g, .nil, ⟨ha.vars, ha.self, fun _ => ha.fresh, nofun, rfl⟩, fun _ => rfl⟩
  | @int vs _ n a cs i out e hv _ ih =>
    refine ⟨?_, nofun⟩
    intro r l g Γ code σ hf hc ha
    cases hc with
    | int hx hb =>
    cases hf with
    | int hu hg hn hs hf =>
    obtain ⟨hv1, hv2, hv3⟩ := ha
    obtain ⟨v, ws, rfl⟩ := hv1.inner
    have hval : ∀ d, value (ints (add n d (v :: ws))) a = some i := fun d => by
      rw [value_congr (τ := ints (v :: ws)) fun m hm => ints_add (fun h : m = n => hs (h ▸ hm)), hv]
    obtain ⟨σ₁, h1, h2, h3, h4, h5⟩ := declare_leads (s := .int i) (d := .int 0) (ty := "int") (G := G) (x := _) (k := .int) hv1 hg (by simp [Good, Calc.inRange]) rfl
      fun τ hm => (hx.ok G τ _ i hm (hval _))
    obtain ⟨σ', g', i1, i2, i3⟩ := ih.1 hf hb ⟨h2, h3.trans hv2, h4.trans hv3⟩
    exact ⟨σ', g', .cons h1 i1, i2.of_out h5, i3⟩
  | @bool vs _ n c cs b out e hv _ ih =>
    refine ⟨?_, nofun⟩
    intro r l g Γ code σ hf hc ha
    cases hc with
    | bool hx hb =>
    cases hf with
    | bool hu hg hn hs hf =>
    obtain ⟨hv1, hv2, hv3⟩ := ha
    obtain ⟨v, ws, rfl⟩ := hv1.inner
    have hval : ∀ d, truth (ints (add n d (v :: ws))) (flags (add n d (v :: ws))) c = some b := fun d => by
      rw [truth_congr (τ := ints (v :: ws)) (ψ := flags (v :: ws))
        (fun m hm => ints_add (fun h : m = n => hs (List.mem_append_left _ (h ▸ hm))))
        (fun m hm => flags_add (fun h : m = n => hs (List.mem_append_right _ (h ▸ hm)))), hv]
    obtain ⟨σ₁, h1, h2, h3, h4, h5⟩ := declare_leads (s := .bool b) (d := .bool false) (ty := "bool") (G := G) (x := _) (k := .bool) hv1 hg trivial rfl
      fun τ hm => ⟨hx.ok G τ _ b hm (hval _), trivial⟩
    obtain ⟨σ', g', i1, i2, i3⟩ := ih.1 hf hb ⟨h2, h3.trans hv2, h4.trans hv3⟩
    exact ⟨σ', g', .cons h1 i1, i2.of_out h5, i3⟩
  | @set vs _ d cs i out e hv _ ih =>
    refine ⟨?_, nofun⟩
    intro r l g Γ code σ hf hc ha
    cases hc with
    | set hx hb =>
    cases hf with
    | set hk hn hf =>
    obtain ⟨σ₁, h1, h2, h3, h4, h5⟩ := change_leads (G := G) ha.vars hk hx hv
    obtain ⟨σ', g', i1, i2, i3⟩ := ih.1 hf hb ⟨h2, h3.trans ha.self, h4.trans ha.fresh⟩
    exact ⟨σ', g', .cons h1 i1, i2.of_out h5, i3⟩
  | @fresh vs _ k n cs out e _ ih =>
    refine ⟨?_, nofun⟩
    intro r l g Γ code σ hf hc ha
    cases hc with
    | fresh hb =>
    cases hf with
    | fresh hu hg hf =>
    obtain ⟨hv1, hv2, hv3⟩ := ha
    obtain ⟨v, ws, rfl⟩ := hv1.inner
    obtain ⟨σ₁, h1, h2, h3, h4, h5⟩ := fresh_leads (n := n) (k := k) (G := G) hv1 hg
    obtain ⟨σ', g', i1, i2, i3⟩ := ih.1 hf hb ⟨h2, h3.trans hv2, h4.trans hv3⟩
    exact ⟨σ', g', .cons h1 i1, i2.of_out h5, i3⟩
  | @text vs _ n u t ps cs out e hv _ ih =>
    refine ⟨?_, nofun⟩
    intro r l g Γ code σ hf hc ha
    cases hc with
    | text hx hb =>
    cases hf with
    | text hu hg _ _ hs hf =>
    obtain ⟨hv1, hv2, hv3⟩ := ha
    obtain ⟨v, ws, rfl⟩ := hv1.inner
    obtain ⟨σ₁, h1, h2, h3, h4, h5⟩ := declare_leads (s := .text u) (d := .text []) (ty := "string") (G := G) (x := _) (k := .string) hv1 hg
      trivial rfl fun τ hm => ⟨hx.ok G τ _ u hm ((told_add hs).trans hv), trivial⟩
    obtain ⟨σ', g', i1, i2, i3⟩ := ih.1 hf hb ⟨h2, h3.trans hv2, h4.trans hv3⟩
    exact ⟨σ', g', .cons h1 i1, i2.of_out h5, i3⟩
  | @write vs _ n u t ps cs out e hv _ ih =>
    refine ⟨?_, nofun⟩
    intro r l g Γ code σ hf hc ha
    cases hc with
    | write hx hb =>
    cases hf with
    | write hk _ _ hf =>
    obtain ⟨σ₁, h1, h2, h3, h4, h5⟩ := assign_leads (s := .text u) ha.vars hk trivial (hx.ok G σ vs u ha.vars hv) rfl
    obtain ⟨σ', g', i1, i2, i3⟩ := ih.1 hf hb ⟨h2, h3.trans ha.self, h4.trans ha.fresh⟩
    exact ⟨σ', g', .cons h1 i1, i2.of_out h5, i3⟩
  | @check vs _ c cs out e hv _ ih =>
    refine ⟨?_, nofun⟩
    intro r l g Γ code σ hf hc ha
    cases hc with
    | check hx hb =>
    cases hf with
    | check hn hf =>
    obtain ⟨σ', g', i1, i2, i3⟩ := ih.1 hf hb ha
    exact ⟨σ', g', .cons (.assert (hx.ok G σ vs true ha.vars hv) (truthy_bool true)) i1, i2, i3⟩
  | @mark vs _ n c cs b out e hv _ ih =>
    refine ⟨?_, nofun⟩
    intro r l g Γ code σ hf hc ha
    cases hc with
    | mark hx hb =>
    cases hf with
    | mark hk hn hf =>
    obtain ⟨σ₁, h1, h2, h3, h4, h5⟩ := assign_leads (s := .bool b) ha.vars hk trivial (hx.ok G σ vs b ha.vars hv) rfl
    obtain ⟨σ', g', i1, i2, i3⟩ := ih.1 hf hb ⟨h2, h3.trans ha.self, h4.trans ha.fresh⟩
    exact ⟨σ', g', .cons h1 i1, i2.of_out h5, i3⟩
  | @call vs vs' ws u f args cs is g₀ i out out' e hargs hmem hname hd₀ hur _ ih1 ih2 =>
    refine ⟨?_, nofun⟩
    intro r l g Γ code σ hf hc ha
    cases hf with
    | @call _ _ _ _ _ g₁ _ _ hk hg1 hvoid hlen hn hf =>
    have hgg : g₁ = g₀ := same_name Fun.name hp.distinct hg1 hmem hname.symm
    subst hgg
    have hcall : ∀ {g : List (Text × Kind)} {vs : Vars} {σ : State Val} {xs : List (Interp.Expr Val)}, At (g :: Γ) vs σ →
        ArgsCode (g :: Γ) args xs → args.map (value (ints vs)) = is.map some →
        ∃ τ, Eval prim G Never σ (.call [] (String.ofList g₁.name) xs) (.val (scalar (.int i))) τ ∧ τ.blocks = σ.blocks ∧ τ.self = σ.self ∧
          τ.rv = σ.rv ∧ τ.out = prints out ++ σ.out ∧ (Calc.inRange i).isSome := by
      intro g vs σ xs ha hx hargs
      obtain ⟨v, τ, j1, j2, j3, j4, j5, j6⟩ := call_leads hp hG ha hx hargs hg1 hlen hd₀ nofun nofun fun h1 h2 => by
        obtain ⟨τ', g', k1, k2, -⟩ := ih1.1 (hp.funs g₁ hg1).body h1 h2
        exact ⟨τ', g', k1, k2⟩
      obtain ⟨rfl, hr⟩ := j6 hvoid i rfl
      exact ⟨τ, j1, j2, j3, j4, j5, hr⟩
    cases hc with
    | @call _ _ _ _ _ _ xs y b hx hy hb =>
    cases hk with
    | set hk =>
      cases hy
      obtain ⟨τ, j1, j2, j3, j4, j5, hr⟩ := hcall ha hx hargs
      obtain ⟨σ₁, h1, h2, h3, h4, h5⟩ := assign_leads (s := .int i) ha.vars hk hr j1 j2
      obtain ⟨σ', g'', i1, i2, i3⟩ := ih2.1 hf hb ⟨h2, (h3.trans j3).trans ha.self, (h4.trans j4).trans ha.fresh⟩
      refine ⟨σ', g'', .cons h1 i1, ⟨i2.vars, i2.self, i2.fresh, i2.range, ?_⟩, i3⟩
      rw [i2.out, h5, j5]
      simp [Use.lines, prints_append]
    | @new _ _ _ _ n hu hg hs =>
      cases hy
      obtain ⟨hv1, hv2, hv3⟩ := ha
      obtain ⟨v, ws', rfl⟩ := hv1.inner
      have hargs' : args.map (value (ints (add n (.int 0) (v :: ws')))) = is.map some := by
        rw [← hargs]
        refine List.map_congr_left fun a hm => value_congr fun m hv => ints_add fun h : m = n => hs a hm (h ▸ hv)
      obtain ⟨σ₁, h1, h2, h3, h4, h5⟩ := declare_from (s := .int i) (d := .int 0) (ty := "int") (G := G) (k := .int)
        (x := .call [] (String.ofList g₁.name) xs) (o := prints out ++ σ.out) hv1 hg (by simp [Good, Calc.inRange]) rfl
        fun τ hm t1 t2 t3 => by
          obtain ⟨τ', j1, j2, j3, j4, j5, hr⟩ := hcall (σ := τ) ⟨hm, t1.trans hv2, t2.trans hv3⟩ hx hargs'
          exact ⟨τ', j1, hr, j2, j3.trans t1, j4.trans t2, by rw [j5, t3]⟩
      obtain ⟨σ', g', i1, i2, i3⟩ := ih2.1 hf hb ⟨h2, h3.trans hv2, h4.trans hv3⟩
      refine ⟨σ', g', .cons h1 i1, ⟨i2.vars, i2.self, i2.fresh, i2.range, ?_⟩, i3⟩
      rw [i2.out, h5]
      simp [Use.lines, prints_append]
    | print =>
      cases hy
      obtain ⟨τ, j1, j2, j3, j4, j5, hr⟩ := hcall ha hx hargs
      obtain ⟨σ', g'', i1, i2, i3⟩ := ih2.1 (σ := { τ with out := scalar (.int i) :: τ.out }) hf hb
        ⟨(by simpa [j2, Use.vars] using ha.vars), j3.trans ha.self, j4.trans ha.fresh⟩
      refine ⟨σ', g'', .cons (.print j1) i1, ⟨i2.vars, i2.self, i2.fresh, i2.range, ?_⟩, i3⟩
      rw [i2.out]
      simp [Use.lines, j5, prints, Line.value]
    | ret => exact absurd rfl hur
  | @callRet vs ws f args cs is g₀ i out hargs hmem hname hd₀ ih1 =>
    refine ⟨?_, nofun⟩
    intro r l g Γ code σ hf hc ha
    cases hf with
    | @call _ _ _ _ _ g₁ _ _ hk hg1 hvoid hlen hn hf =>
    have hgg : g₁ = g₀ := same_name Fun.name hp.distinct hg1 hmem hname.symm
    subst hgg
    cases hc with
    | @call _ _ _ _ _ _ xs y b hx hy hb =>
    cases hk
    cases hy
    obtain ⟨v, τ, j1, j2, j3, j4, j5, j6⟩ := call_leads hp hG ha hx hargs hg1 hlen hd₀ nofun nofun fun h1 h2 => by
      obtain ⟨τ', g', k1, k2, -⟩ := ih1.1 (hp.funs g₁ hg1).body h1 h2
      exact ⟨τ', g', k1, k2⟩
    obtain ⟨rfl, hr⟩ := j6 hvoid i rfl
    exact ⟨_, g, .jump (.ret j1 (.inl (by rw [j4, ha.fresh]; rfl))) nofun, ⟨(by simpa [j2] using ha.vars), j3.trans ha.self,
      fun h => absurd rfl (h i), fun j h => by cases h; exact hr, j5⟩, nofun⟩
  | @act vs vs' ws f args cs is g₀ out out' d e hargs hmem hname hd₀ h₁ h₂ _ ih1 ih2 =>
    refine ⟨?_, nofun⟩
    intro r l g Γ code σ hf hc ha
    cases hc with
    | @act _ _ _ _ xs b hx hb =>
    cases hf with
    | @act _ _ _ g₁ _ _ hg1 hlen hn hf =>
    have hgg : g₁ = g₀ := same_name Fun.name hp.distinct hg1 hmem hname.symm
    subst hgg
    obtain ⟨v, τ, j1, j2, j3, j4, j5, j6⟩ := call_leads hp hG ha hx hargs hg1 hlen hd₀ h₁ h₂ fun h1 h2 => by
      obtain ⟨τ', g', k1, k2, -⟩ := ih1.1 (hp.funs g₁ hg1).body h1 h2
      exact ⟨τ', g', k1, k2⟩
    obtain ⟨σ', g'', i1, i2, i3⟩ := ih2.1 hf hb (σ := τ) ⟨j2 ▸ ha.vars, j3.trans ha.self, j4.trans ha.fresh⟩
    refine ⟨σ', g'', .cons (.expr j1) i1, ⟨i2.vars, i2.self, i2.fresh, i2.range, ?_⟩, i3⟩
    rw [i2.out, j5, prints_append, List.append_assoc]
  | @print vs _ a cs i out e hv _ ih =>
    refine ⟨?_, nofun⟩
    intro r l g Γ code σ hf hc ha
    cases hc with
    | print hx hb =>
    cases hf with
    | print hn hf =>
    obtain ⟨σ', g', i1, i2, i3⟩ := ih.1 (σ := { σ with out := scalar (.int i) :: σ.out }) hf hb ⟨ha.vars, ha.self, ha.fresh⟩
    refine ⟨σ', g', .cons (.print (hx.ok G σ vs i ha.vars hv).1) i1, ⟨i2.vars, i2.self, i2.fresh, i2.range, ?_⟩, i3⟩
    rw [i2.out]
    simp [prints, Line.value]
  | @say vs _ t u ps cs out e hv _ ih =>
    refine ⟨?_, nofun⟩
    intro r l g Γ code σ hf hc ha
    cases hc with
    | say hx hb =>
    cases hf with
    | say _ _ hf =>
    obtain ⟨σ', g', i1, i2, i3⟩ := ih.1 (σ := { σ with out := .atom (.str u) :: σ.out }) hf hb ⟨ha.vars, ha.self, ha.fresh⟩
    refine ⟨σ', g', .cons (.print (hx.ok G σ vs u ha.vars hv)) i1, ⟨i2.vars, i2.self, i2.fresh, i2.range, ?_⟩, i3⟩
    rw [i2.out]
    simp [prints, Line.value]
  | @whenTrue vs _ c t cs out e hv _ ih =>
    refine ⟨?_, nofun⟩
    intro r l g Γ code σ hf hc ha
    cases hc with
    | «when» hx ht hb =>
    cases hf with
    | «when» hn hft hf =>
    obtain ⟨σ', g', i1, i2, i3⟩ := ih.1 (.block hft hf) (.block ht hb) ha
    exact ⟨σ', g', replace_first i1 fun d σ₁ h => .iteT (hx.ok G σ vs true ha.vars hv) (truthy_bool true) h, i2, i3⟩
  | @whenFalse vs _ c t cs out e hv _ ih =>
    refine ⟨?_, nofun⟩
    intro r l g Γ code σ hf hc ha
    cases hc with
    | «when» hx ht hb =>
    cases hf with
    | «when» hn hft hf =>
    obtain ⟨σ', g', i1, i2, i3⟩ := ih.1 hf hb ha
    exact ⟨σ', g', .cons (.iteF (hx.ok G σ vs false ha.vars hv) (truthy_bool false) .nop) i1, i2, i3⟩
  | @chooseTrue vs _ c t f cs out e hv _ ih =>
    refine ⟨?_, nofun⟩
    intro r l g Γ code σ hf hc ha
    cases hc with
    | choose hx ht hu hb =>
    cases hf with
    | choose hn hft hfu hf =>
    obtain ⟨σ', g', i1, i2, i3⟩ := ih.1 (.block hft hf) (.block ht hb) ha
    exact ⟨σ', g', replace_first i1 fun d σ₁ h => .iteT (hx.ok G σ vs true ha.vars hv) (truthy_bool true) h, i2, i3⟩
  | @chooseFalse vs _ c t f cs out e hv _ ih =>
    refine ⟨?_, nofun⟩
    intro r l g Γ code σ hf hc ha
    cases hc with
    | choose hx ht hu hb =>
    cases hf with
    | choose hn hft hfu hf =>
    obtain ⟨σ', g', i1, i2, i3⟩ := ih.1 (.block hfu hf) (.block hu hb) ha
    exact ⟨σ', g', replace_first i1 fun d σ₁ h => .iteF (hx.ok G σ vs false ha.vars hv) (truthy_bool false) h, i2, i3⟩
  | @chainTrue vs _ c d t cs out e hv _ ih =>
    refine ⟨?_, nofun⟩
    intro r l g Γ code σ hf hc ha
    cases hc with
    | chain hx ht hu hb =>
    cases hf with
    | chain hn hft hd hfu hf =>
    obtain ⟨σ', g', i1, i2, i3⟩ := ih.1 (.block hft hf) (.block ht hb) ha
    exact ⟨σ', g', replace_first i1 fun d σ₁ h => .iteT (hx.ok G σ vs true ha.vars hv) (truthy_bool true) h, i2, i3⟩
  | @chainFalse vs _ c d t cs out e hv _ ih =>
    refine ⟨?_, nofun⟩
    intro r l g Γ code σ hf hc ha
    cases hc with
    | chain hx ht hu hb =>
    cases hf with
    | chain hn hft hd hfu hf =>
    obtain ⟨σ', g', i1, i2, i3⟩ := ih.1 (hfu.more hd hf) (hu.more hd hb) ha
    rw [grow_if hd] at i3
    exact ⟨σ', g', replace_first i1 fun d σ₁ h => .iteF (hx.ok G σ vs false ha.vars hv) (truthy_bool false) h, i2, i3⟩
  | @pick vs vs' ws l a as b cs i out out' d e hv hch _ hd _ ih1 ih2 =>
    refine ⟨?_, nofun⟩
    intro r l g Γ code σ hf hc ha
    cases hc with
    | pick hx hl hn hcs hdb hb =>
    cases hf with
    | pick _ _ hft _ hne _ hf =>
    obtain ⟨c, q1, q2, -⟩ := chosen_code (G := G) ha.vars hx hl hn hcs hdb hne hv hch
    obtain ⟨σ₁, g₁, i1, i2, -⟩ := ih1.1 (chosen_fits hch hft) q1 ha.enter
    have i3 := i2.leave
    obtain ⟨σ', g', j1, j2, j3⟩ := ih2.1 hf hb (i3.at (by rcases hd with rfl | rfl <;> nofun))
    refine ⟨σ', g', .cons (.switchEnd (q2 _ _ (.block i1)) ?_) j1, i3.then j2, j3⟩
    rcases hd with rfl | rfl
    · exact .inl rfl
    · exact .inr rfl
  | @pickLeft vs ws l a as b cs i out e hv hch hdo he1 he2 ih =>
    refine ⟨?_, nofun⟩
    intro r l g Γ code σ hf hc ha
    cases hc with
    | pick hx hl hn hcs hdb hb =>
    cases hf with
    | pick _ _ hft _ hne _ hf =>
    obtain ⟨c, q1, q2, -⟩ := chosen_code (G := G) ha.vars hx hl hn hcs hdb hne hv hch
    obtain ⟨σ₁, g₁, i1, i2, -⟩ := ih.1 (chosen_fits hch hft) q1 ha.enter
    have hal := hdo.allowed (chosen_fits hch hft)
    refine ⟨_, g, .jump (.switch (q2 _ _ (.block i1)) (.inl ?_)) (Ended_normal he1), i2.leave, fun h => absurd h he1⟩
    cases e with
    | next => exact absurd rfl he1
    | brk => exact absurd rfl he2
    | cont => rcases hal with h | h <;> cases h
    | left => exact ⟨_, rfl⟩
    | ret j => exact ⟨_, rfl⟩
  | @loopEnd vs _ c t cs out e hv _ ih =>
    refine ⟨?_, nofun⟩
    intro r l g Γ code σ hf hc ha
    cases hc with
    | loop hx ht hb =>
    cases hf with
    | loop hn hft hf =>
    obtain ⟨σ', g', i1, i2, i3⟩ := ih.1 hf hb ha
    exact ⟨σ', g', .cons (.whileF (hx.ok G σ vs false ha.vars hv) (truthy_bool false)) i1, i2, i3⟩
  | @loopNext vs vs' ws l c t cs out out' d e hv _ hd _ ih1 ih2 =>
    refine ⟨?_, nofun⟩
    intro r l g Γ code σ hf hc ha
    cases hc with
    | loop hx ht hb =>
    cases hf with
    | loop hn hft hf =>
    obtain ⟨σ₁, g₁, i1, i2, -⟩ := ih1.1 hft ht ha.enter
    have i3 := i2.leave
    obtain ⟨σ', g', j1, j2, j3⟩ := ih2.1 (.loop hn hft hf) (.loop hx ht hb) (i3.at (by rcases hd with rfl | rfl <;> nofun))
    refine ⟨σ', g', replace_first j1 fun d' σ₂ h => .whileNext (hx.ok G σ vs true ha.vars hv) (truthy_bool true) (.block (.block i1)) ?_ h,
      i3.then j2, j3⟩
    rcases hd with rfl | rfl
    · exact .inl rfl
    · exact .inr rfl
  | @loopBreak vs vs' ws l c t cs out out' e hv _ _ ih1 ih2 =>
    refine ⟨?_, nofun⟩
    intro r l g Γ code σ hf hc ha
    cases hc with
    | loop hx ht hb =>
    cases hf with
    | loop hn hft hf =>
    obtain ⟨σ₁, g₁, i1, i2, -⟩ := ih1.1 hft ht ha.enter
    have i3 := i2.leave
    obtain ⟨σ', g', j1, j2, j3⟩ := ih2.1 hf hb (i3.at nofun)
    exact ⟨σ', g', .cons (.whileBrk (hx.ok G σ vs true ha.vars hv) (truthy_bool true) (.block (.block i1))) j1, i3.then j2, j3⟩
  | @loopReturn vs ws l c t cs out i hv _ ih =>
    refine ⟨?_, nofun⟩
    intro r l g Γ code σ hf hc ha
    cases hc with
    | loop hx ht hb =>
    cases hf with
    | loop hn hft hf =>
    obtain ⟨σ₁, g₁, i1, i2, -⟩ := ih.1 hft ht ha.enter
    exact ⟨_, g, .jump (.whileLeave (hx.ok G σ vs true ha.vars hv) (truthy_bool true) (.block (.block i1)) (.inl ⟨_, rfl⟩)) nofun, i2.leave, nofun⟩
  | @loopLeft vs ws l c t cs out hv _ ih =>
    refine ⟨?_, nofun⟩
    intro r l g Γ code σ hf hc ha
    cases hc with
    | loop hx ht hb =>
    cases hf with
    | loop hn hft hf =>
    obtain ⟨σ₁, g₁, i1, i2, -⟩ := ih.1 hft ht ha.enter
    exact ⟨_, g, .jump (.whileLeave (hx.ok G σ vs true ha.vars hv) (truthy_bool true) (.block (.block i1)) (.inl ⟨_, rfl⟩)) nofun, i2.leave, nofun⟩
  | @count vs vs' ws v n a _ c b cs i out out' e hv hd₀ _ ih1 ih2 =>
    refine ⟨?_, nofun⟩
    intro r l g Γ code σ hf hc ha
    cases hc with
    | count hx hy hz ht hb =>
    cases hf with
    | count hu hn hs hcf hm hsf hft hf =>
    have hval : ∀ d, value (ints (add n d ([] :: vs))) a = some i := fun d => by
      rw [value_congr (τ := ints ([] :: vs)) fun m hm => ints_add (fun h : m = n => hs (h ▸ hm))]
      exact hv
    obtain ⟨σ₁, h1, h2, h3, h4, h5⟩ := declare_leads (s := .int i) (d := .int 0) (ty := "int") (G := G) (x := _) (k := .int) ha.enter.vars rfl
      (by simp [Good, Calc.inRange]) rfl fun τ hm => (hx.ok G τ _ i hm (hval _))
    obtain ⟨σ₂, j1, j2⟩ := ih1.2 rfl ⟨hcf, hm, hsf, hft⟩ hy hz ht ⟨h2, h3.trans ha.self, h4.trans ha.fresh⟩
    have j3 := (j2.of_out h5).leave
    obtain ⟨σ', g', i1, i2, i3⟩ := ih2.1 hf hb (j3.at nofun)
    exact ⟨σ', g', .cons (.for h1 j1) i1, j3.then i2, i3⟩
  | countLeft _ hd₀ he _ =>
    refine ⟨?_, nofun⟩
    intro r l g Γ code σ hf hc ha
    cases hf with
    | count hu hn hs hcf hm hsf hft hf => exact absurd ((allowed_both hd₀).2 rfl hft) he
  | @roundsEnd vs vs' c _ b cs out e hv hd₀ _ =>
    refine ⟨nofun, ?_⟩
    intro c' h' b' heq g Γ y z bt σ hf hy hz ht ha
    cases heq
    cases hd₀
    exact ⟨σ, .stop (hy.ok G σ vs false ha.vars hv) (truthy_bool false), ⟨ha.vars, ha.self, fun _ => ha.fresh, nofun, rfl⟩⟩
  | @roundsNext vs vs' ws v c _ b cs i out out' d e hv _ hd hs _ ih1 ih2 =>
    refine ⟨nofun, ?_⟩
    intro c' h' b' heq g Γ y z bt σ hf hy hz ht ha
    cases heq
    obtain ⟨σ₁, g₁, i1, i2, -⟩ := ih1.1 hf.body ht ha.enter
    have i3 := i2.leave
    have hat := i3.at (by rcases hd with rfl | rfl <;> nofun)
    obtain ⟨σ₂, h1, h2, h3, h4, h5⟩ := change_leads (G := G) hat.vars hf.var hz hs
    obtain ⟨σ', j1, j2⟩ := ih2.2 rfl hf hy hz ht ⟨h2, h3.trans hat.self, h4.trans hat.fresh⟩
    refine ⟨σ', .next (.some (hy.ok G σ vs true ha.vars hv) (truthy_bool true)) (.block (.block i1)) ?_ h1 j1, i3.then (j2.of_out h5)⟩
    rcases hd with rfl | rfl
    · exact .inl rfl
    · exact .inr rfl
  | roundsBreak _ hd₀ _ _ _ =>
    exact ⟨nofun, fun e _ _ _ _ _ _ hf => by cases e; exact absurd (hd₀.allowed hf.body) nofun⟩
  | roundsReturn _ hd₀ _ =>
    exact ⟨nofun, fun e _ _ _ _ _ _ hf => by cases e; exact absurd (hd₀.allowed hf.body) nofun⟩
  | roundsLeft _ hd₀ _ =>
    exact ⟨nofun, fun e _ _ _ _ _ _ hf => by cases e; exact absurd (hd₀.allowed hf.body) nofun⟩
  | leave =>
    refine ⟨?_, nofun⟩
    intro r l g Γ code σ hf hc ha
    cases hc
    exact ⟨σ, g, .jump .retNone nofun, ⟨ha.vars, ha.self, fun _ => ha.fresh, nofun, rfl⟩, nofun⟩
  | @block vs vs' ws l t cs out out' e _ _ ih1 ih2 =>
    refine ⟨?_, nofun⟩
    intro r l g Γ code σ hf hc ha
    cases hc with
    | block ht hb =>
    cases hf with
    | block hft hf =>
    obtain ⟨σ₁, g₁, i1, i2, -⟩ := ih1.1 hft ht ha.enter
    have i3 := i2.leave
    obtain ⟨σ', g', j1, j2, j3⟩ := ih2.1 hf hb (i3.at nofun)
    exact ⟨σ', g', .cons (.block (.block i1)) j1, i3.then j2, j3⟩
  | @blockLeft vs ws l t cs out e _ he ih =>
    refine ⟨?_, nofun⟩
    intro r l g Γ code σ hf hc ha
    cases hc with
    | block ht hb =>
    cases hf with
    | block hft hf =>
    obtain ⟨σ₁, g₁, i1, i2, -⟩ := ih.1 hft ht ha.enter
    exact ⟨_, g, .jump (.block (.block i1)) (Ended_normal he), i2.leave, fun h => absurd h he⟩
  | brk =>
    refine ⟨?_, nofun⟩
    intro r l g Γ code σ hf hc ha
    cases hc
    exact ⟨σ, g, .jump .brk nofun, ⟨ha.vars, ha.self, fun _ => ha.fresh, nofun, rfl⟩, nofun⟩
  | cont =>
    refine ⟨?_, nofun⟩
    intro r l g Γ code σ hf hc ha
    cases hc
    exact ⟨σ, g, .jump .cont nofun, ⟨ha.vars, ha.self, fun _ => ha.fresh, nofun, rfl⟩, nofun⟩
  | @ret vs a cs i hv =>
    refine ⟨?_, nofun⟩
    intro r l g Γ code σ hf hc ha
    cases hc with
    | ret hx hb =>
    obtain ⟨h1, h2⟩ := hx.ok G σ vs i ha.vars hv
    exact ⟨_, g, .jump (.ret h1 (.inl (by rw [ha.fresh]; rfl))) nofun, ⟨ha.vars, ha.self, fun h => absurd rfl (h i), fun j h => by cases h; exact h2, rfl⟩, nofun⟩

theorem simulates {p : Program} {G : Prog Val} (hp : WellFormed p) (hG : Serves p G) {vs vs' : Vars} {cs : List Cmd} {out : List Line} {e : End}
    (hd : Does p vs cs out vs' e) {r : Give} {l : Around} {g : List (Text × Kind)} {Γ : Ctx} {code : List (Interp.Stmt Val)} {σ : State Val}
    (hf : Fits p r l (g :: Γ) cs) (hc : Code (g :: Γ) cs code) (ha : At (g :: Γ) vs σ) :
      ∃ σ' g', ExecList prim G Never none σ code (Ended e) σ' ∧ After g' Γ vs' e out σ σ' ∧ (e = .next → g' = grow g cs) :=
  (simulates_both hp hG hd).1 hf hc ha

end Verif.Whole
