import Verif.Interp.Spec

/-!
# The states of the interpreter and of the reference semantics

`Rel` relates a state of the interpreter to a state of the reference semantics, and the lemmas of
this file say that the scope and frame operations of the interpreter correspond to changes of
the blocks.
-/

namespace Verif
namespace Interp
namespace Sim

open Spec (State Place)

variable {A : Type}

/-! ## Results that do not depend on the fuel -/

/-- With enough fuel the result is `r`. -/
def Ends {α : Type} (f : Nat → Res A α) (r : Res A α) : Prop := ∃ n, ∀ m, n ≤ m → f m = r

theorem Ends.unique {α : Type} {f : Nat → Res A α} {r r' : Res A α} (h : Ends f r) (h' : Ends f r') : r = r' := by
  obtain ⟨n, hn⟩ := h; obtain ⟨m, hm⟩ := h'
  rw [← hn (max n m) (by omega), hm (max n m) (by omega)]

theorem Ends.const {α : Type} {f : Nat → Res A α} {r : Res A α} (h : ∀ n, f n = r) : Ends f r := ⟨0, fun m _ => h m⟩

theorem Ends.step {α : Type} {f g : Nat → Res A α} {r : Res A α} (h : ∀ n, f (n + 1) = g n) (hg : Ends g r) : Ends f r := by
  obtain ⟨n, hn⟩ := hg
  refine ⟨n + 1, fun m hm => ?_⟩
  obtain ⟨k, rfl⟩ : ∃ k, m = k + 1 := ⟨m - 1, by omega⟩
  rw [h, hn k (by omega)]

/-- If `f` ends with `r`, then `g` may be computed under the assumption that `f n = r`. -/
theorem Ends.via {α β : Type} {f : Nat → Res A α} {g h : Nat → Res A β} {r : Res A α} {r' : Res A β}
    (hf : Ends f r) (hgh : ∀ n, f n = r → g n = h n) (hh : Ends h r') : Ends g r' := by
  obtain ⟨n, hn⟩ := hf; obtain ⟨m, hm⟩ := hh
  exact ⟨max n m, fun k hk => by rw [hgh k (hn k (by omega)), hm k (by omega)]⟩

theorem Ends.bind_ok {α β : Type} {f : Nat → Res A α} {k : Nat → α → St A → Res A β} {a : α} {s : St A} {r : Res A β}
    (hf : Ends f (.ok a s)) (hk : Ends (fun n => k n a s) r) : Ends (fun n => (f n).bind (k n)) r :=
  hf.via (fun n hn => by simp only [hn, Res.bind]) hk

theorem Ends.bind_raise {α β : Type} {f : Nat → Res A α} {k : Nat → α → St A → Res A β} {c : CF} {s : St A}
    (hf : Ends f (.raise c s)) : Ends (fun n => (f n).bind (k n)) (.raise c s) :=
  hf.via (fun n hn => by simp only [hn, Res.bind]) (Ends.const (f := fun _ => .raise c s) fun _ => rfl)

theorem Ends.try_ok {α : Type} {f : Nat → Res A α} {k : Nat → α → St A → Res A Unit} {a : α} {s : St A} {r : Res A Unit}
    (hf : Ends f (.ok a s)) (hk : Ends (fun n => k n a s) r) : Ends (fun n => (f n).tryControl (k n)) r :=
  hf.via (fun n hn => by simp only [hn, Res.tryControl]) hk

theorem Ends.try_raise {α : Type} {f : Nat → Res A α} {k : Nat → α → St A → Res A Unit} {c : CF} {s : St A}
    (hf : Ends f (.raise c s)) : Ends (fun n => (f n).tryControl (k n)) (.ok () { s with cf := c }) :=
  hf.via (fun n hn => by simp only [hn, Res.tryControl]) (Ends.const (f := fun _ => .ok () { s with cf := c }) fun _ => rfl)

/-! ## The relation -/

/-- What is stored outside of the frames. -/
structure Data (σ : State A) (s : St A) : Prop where
  objs : s.objs = σ.objs
  globals : s.globals = σ.globals
  out : s.out = σ.out
  exc : s.exc = σ.last

/-- The current frame is the newest one, and unused scope numbers are unused. -/
structure Idle (s : St A) : Prop where
  cur : s.cur = s.frames.length - 1
  fresh : ∀ i, s.next ≤ i → s.scopes i = none

/-- The scope around a list of nested scopes. -/
def refOf (top : SRef) : List Nat → SRef
  | [] => top
  | i :: _ => .blk i

/-- The scopes `ids` hold the blocks, each inside the next one. -/
def Chain (scopes : Nat → Option (Scope A)) (top : SRef) : List Nat → List (AMap Name (Value A)) → Prop
  | [], [] => True
  | i :: is, b :: bs => scopes i = some (.scope b (refOf top is)) ∧ (∀ j ∈ is, j < i) ∧ Chain scopes top is bs
  | _, _ => False

def ids (stk : List (Nat × Bool)) : List Nat := stk.map Prod.fst

/-- The interpreter state `s` represents the state `σ` of the reference semantics; `pre` are the frames of
the callers, `stk` is the scope stack of the running method. -/
structure Rel (pre : List (Frame A)) (stk : List (Nat × Bool)) (σ : State A) (s : St A) : Prop where
  frames : s.frames = pre ++ [⟨stk, σ.rv⟩]
  cur : s.cur = pre.length
  ne : stk ≠ []
  chain : Chain s.scopes (selfRef σ.self) (ids stk) σ.blocks
  fresh : ∀ i, s.next ≤ i → s.scopes i = none
  data : Data σ s

/-- No scope but those in `is` has changed. -/
structure Step (is : List Nat) (s s' : St A) : Prop where
  scopes : ∀ i, i ∉ is → s'.scopes i = s.scopes i
  next : s.next ≤ s'.next

/-- Nothing has changed but the data. -/
structure Same (s s' : St A) : Prop where
  frames : s'.frames = s.frames
  cur : s'.cur = s.cur
  scopes : s'.scopes = s.scopes
  next : s.next ≤ s'.next

/-- The same running method. -/
structure Local (σ σ' : State A) : Prop where
  blocks : σ'.blocks = σ.blocks
  self : σ'.self = σ.self
  rv : σ'.rv = σ.rv

theorem Step.refl (is : List Nat) (s : St A) : Step is s s := ⟨fun _ _ => rfl, Nat.le_refl _⟩

theorem Step.trans {is : List Nat} {s s' s'' : St A} (h : Step is s s') (h' : Step is s' s'') : Step is s s'' :=
  ⟨fun i hi => (h'.scopes i hi).trans (h.scopes i hi), Nat.le_trans h.next h'.next⟩

theorem Same.step {s s' : St A} (h : Same s s') (is : List Nat) : Step is s s' :=
  ⟨fun i _ => by rw [h.scopes], h.next⟩

theorem Same.refl (s : St A) : Same s s := ⟨rfl, rfl, rfl, Nat.le_refl _⟩

theorem Same.trans {s s' s'' : St A} (h : Same s s') (h' : Same s' s'') : Same s s'' :=
  ⟨h'.frames.trans h.frames, h'.cur.trans h.cur, h'.scopes.trans h.scopes, Nat.le_trans h.next h'.next⟩

theorem Same.idle {s s' : St A} (h : Same s s') (hi : Idle s) : Idle s' :=
  ⟨by rw [h.cur, h.frames]; exact hi.cur, fun i hn => by rw [h.scopes]; exact hi.fresh i (Nat.le_trans h.next hn)⟩

theorem Local.refl (σ : State A) : Local σ σ := ⟨rfl, rfl, rfl⟩

theorem Rel.idle {pre : List (Frame A)} {stk : List (Nat × Bool)} {σ : State A} {s : St A} (h : Rel pre stk σ s) : Idle s :=
  ⟨by rw [h.cur, h.frames]; simp, h.fresh⟩

theorem Rel.same {pre : List (Frame A)} {stk : List (Nat × Bool)} {σ σ' : State A} {s s' : St A} (h : Rel pre stk σ s)
    (hs : Same s s') (hl : Local σ σ') (hd : Data σ' s') : Rel pre stk σ' s' where
  frames := by rw [hs.frames, hl.rv]; exact h.frames
  cur := by rw [hs.cur]; exact h.cur
  ne := h.ne
  chain := by rw [hs.scopes, hl.blocks, hl.self]; exact h.chain
  fresh := fun i hi => by rw [hs.scopes]; exact h.fresh i (Nat.le_trans hs.next hi)
  data := hd

/-- `cf` is not part of the relation. -/
theorem Rel.cf {pre : List (Frame A)} {stk : List (Nat × Bool)} {σ : State A} {s : St A} (h : Rel pre stk σ s) (c : CF) :
    Rel pre stk σ { s with cf := c } :=
  h.same (s' := { s with cf := c }) ⟨rfl, rfl, rfl, Nat.le_refl _⟩ (.refl σ) ⟨h.data.objs, h.data.globals, h.data.out, h.data.exc⟩

theorem Step.cf {is : List Nat} {s s' : St A} (h : Step is s s') (c : CF) : Step is s { s' with cf := c } :=
  ⟨h.scopes, h.next⟩

theorem Step.cf_left {is : List Nat} {s s' : St A} {c : CF} (h : Step is { s with cf := c } s') : Step is s s' :=
  ⟨h.scopes, h.next⟩

theorem Chain.length {scopes : Nat → Option (Scope A)} {top : SRef} :
    ∀ {is : List Nat} {bs : List (AMap Name (Value A))}, Chain scopes top is bs → is.length = bs.length
  | [], [], _ => rfl
  | _ :: _, _ :: _, h => by simp [h.2.2.length]
  | [], _ :: _, h => h.elim
  | _ :: _, [], h => h.elim

theorem Chain.some {scopes : Nat → Option (Scope A)} {top : SRef} :
    ∀ {is : List Nat} {bs : List (AMap Name (Value A))}, Chain scopes top is bs → ∀ i ∈ is, scopes i ≠ none
  | [], _, _, i, hi => by simp at hi
  | _ :: _, _ :: _, h, i, hi => by
    rcases List.mem_cons.1 hi with rfl | hi
    · rw [h.1]; simp
    · exact h.2.2.some i hi
  | _ :: _, [], h, _, _ => h.elim

theorem Chain.congr {scopes scopes' : Nat → Option (Scope A)} {top : SRef} :
    ∀ {is : List Nat} {bs : List (AMap Name (Value A))}, Chain scopes top is bs → (∀ i ∈ is, scopes' i = scopes i) →
      Chain scopes' top is bs
  | [], [], _, _ => trivial
  | i :: is, b :: bs, h, hs =>
    ⟨by rw [hs i (by simp)]; exact h.1, h.2.1, h.2.2.congr fun j hj => hs j (by simp [hj])⟩
  | [], _ :: _, h, _ => h.elim
  | _ :: _, [], h, _ => h.elim

theorem Rel.lt {pre : List (Frame A)} {stk : List (Nat × Bool)} {σ : State A} {s : St A} (h : Rel pre stk σ s) :
    ∀ i ∈ ids stk, i < s.next := by
  intro i hi
  rcases Nat.lt_or_ge i s.next with hn | hn
  · exact hn
  · exact absurd (h.fresh i hn) (h.chain.some i hi)

theorem Rel.getScope {pre : List (Frame A)} {i : Nat} {b : Bool} {stk : List (Nat × Bool)} {σ : State A} {s : St A}
    (h : Rel pre ((i, b) :: stk) σ s) : getScope s = some i := by
  simp [Interp.getScope, h.cur, h.frames]

theorem Rel.frame {pre : List (Frame A)} {stk : List (Nat × Bool)} {σ : State A} {s : St A} (h : Rel pre stk σ s) :
    s.frames[s.cur]? = some ⟨stk, σ.rv⟩ := by
  simp [h.cur, h.frames]

/-! ## Lookup -/

/-- The interpreter's name of a place. -/
def sref (is : List Nat) : Place → SRef
  | .loc k => .blk (is[k]?.getD 0)
  | .field cls o => .obj cls o
  | .glob => .glob

def lookOf (is : List Nat) : Option (Place × Value A) → Look A
  | some (w, v) => .found (sref is w) v
  | none => .missing

theorem lookGlobal_eq {σ : State A} {s : St A} (h : Data σ s) (is : List Nat) (x : Name) :
    lookGlobal s x = lookOf is (σ.global x) := by
  unfold lookGlobal State.global; rw [h.globals]
  cases σ.globals.find x <;> rfl

theorem lookObj_eq {σ : State A} {s : St A} (h : Data σ s) (is : List Nat) (cls : Name) (o : Nat) (x : Name) :
    lookObj s cls o x = lookOf is (σ.member (.obj cls o) x) := by
  unfold lookObj State.member; rw [h.objs]
  dsimp only
  cases (σ.objs[o]?.getD []).find x with
  | some v => rfl
  | none => exact lookGlobal_eq h is x

theorem lookVal_eq {σ : State A} {s : St A} (h : Data σ s) (is : List Nat) (v : Value A) (x : Name) :
    lookVal s v x = lookOf is (σ.member v x) := by
  cases v with
  | obj cls o => exact lookObj_eq h is cls o x
  | null => rfl
  | atom a => rfl

theorem lookTail_eq {σ : State A} {s : St A} (h : Data σ s) (is : List Nat) (xs : List Name) :
    ∀ r : Option (Place × Value A), lookTail s (lookOf is r) xs = lookOf is (σ.members r xs) := by
  induction xs with
  | nil => intro r; cases r with
    | none => rfl
    | some r => rfl
  | cons x xs ih =>
    intro r
    cases r with
    | none => rfl
    | some r =>
      obtain ⟨w, v⟩ := r
      rw [show lookTail s (lookOf is (some (w, v))) (x :: xs) = lookTail s (lookVal s v x) xs from rfl, lookVal_eq h is, ih]
      rfl

theorem look_top {σ : State A} {s : St A} (h : Data σ s) (is : List Nat) (n : Nat) (x : Name) :
    look n s (selfRef σ.self) x = lookOf is (σ.outer x) := by
  unfold State.outer
  cases σ.self with
  | none => cases n <;> exact lookGlobal_eq h is x
  | some p => cases n <;> exact lookObj_eq h is p.1 p.2 x

theorem look_chain {s : St A} {top : SRef} (x : Name) :
    ∀ (is : List Nat) (bs : List (AMap Name (Value A))), Chain s.scopes top is bs → ∀ n, (∀ i ∈ is, i < n) →
      (∀ k v, Spec.findBlock x bs = some (k, v) → look n s (refOf top is) x = .found (.blk (is[k]?.getD 0)) v) ∧
      (Spec.findBlock x bs = none → ∃ m, look n s (refOf top is) x = look m s top x)
  | [], [], _, n, _ => ⟨by intro k v h; simp [Spec.findBlock] at h, fun _ => ⟨n, rfl⟩⟩
  | i :: is, b :: bs, h, n, hn => by
    obtain ⟨n, rfl⟩ : ∃ m, n = m + 1 := ⟨n - 1, by have := hn i (by simp); omega⟩
    have ih := look_chain x is bs h.2.2 n (fun j hj => by
      have := h.2.1 j hj; have := hn i (by simp); omega)
    simp only [show refOf top (i :: is) = .blk i from rfl, look, h.1, Spec.findBlock]
    cases hb : b.find x with
    | some v => simp
    | none =>
      dsimp only
      refine ⟨fun k v hk => ?_, fun hk => ?_⟩
      · cases hf : Spec.findBlock x bs with
        | none => rw [hf] at hk; simp at hk
        | some p =>
          obtain ⟨k', v'⟩ := p
          rw [hf] at hk
          simp only [Option.map_some, Option.some.injEq, Prod.mk.injEq] at hk
          obtain ⟨rfl, rfl⟩ := hk
          rw [ih.1 _ _ hf]; simp
      · exact ih.2 (by simpa using hk)
  | [], _ :: _, h, _, _ => h.elim
  | _ :: _, [], h, _, _ => h.elim

theorem Rel.cons {pre : List (Frame A)} {stk : List (Nat × Bool)} {σ : State A} {s : St A} (h : Rel pre stk σ s) :
    ∃ i b stk' blk bs, stk = (i, b) :: stk' ∧ σ.blocks = blk :: bs := by
  match stk, hb : σ.blocks, h with
  | [], _, h => exact absurd rfl h.ne
  | (i, b) :: stk, blk :: bs, h => exact ⟨i, b, stk, blk, bs, rfl, rfl⟩
  | (i, b) :: stk, [], h => have := h.chain; rw [hb] at this; exact this.elim

theorem Rel.look_name {pre : List (Frame A)} {i : Nat} {b : Bool} {stk : List (Nat × Bool)} {σ : State A} {s : St A}
    (h : Rel pre ((i, b) :: stk) σ s) (x : Name) :
    look (i + 1) s (.blk i) x = lookOf (ids ((i, b) :: stk)) (σ.name x) := by
  have hc := h.chain
  have hl := look_chain x (ids ((i, b) :: stk)) σ.blocks hc (i + 1) (by
    intro j hj
    rcases List.mem_cons.1 hj with rfl | hj
    · exact Nat.lt_succ_self _
    · cases hb : σ.blocks with
      | nil => rw [hb] at hc; exact hc.elim
      | cons blk bs => rw [hb] at hc; have := hc.2.1 j hj; simp only at this; omega)
  unfold State.name
  cases hf : Spec.findBlock x σ.blocks with
  | some p =>
    obtain ⟨k, v⟩ := p
    exact hl.1 k v hf
  | none =>
    obtain ⟨m, hm⟩ := hl.2 hf
    exact hm.trans (look_top h.data _ m x)

theorem Rel.lookPath {pre : List (Frame A)} {stk : List (Nat × Bool)} {σ : State A} {s : St A}
    (h : Rel pre stk σ s) (p : Path) : lookPath s p = lookOf (ids stk) (σ.locate p) := by
  obtain ⟨i, b, stk, blk, bs, rfl, -⟩ := h.cons
  unfold Interp.lookPath State.locate
  rw [h.getScope]; dsimp only
  rw [h.look_name, lookTail_eq h.data]

/-! ## Storing -/

/-- The place exists. -/
def PlaceOk (n : Nat) : Place → Prop
  | .loc k => k < n
  | _ => True

theorem findBlock_lt {x : Name} : ∀ {bs : List (AMap Name (Value A))} {k : Nat} {v : Value A},
    Spec.findBlock x bs = some (k, v) → k < bs.length
  | [], _, _, h => by simp [Spec.findBlock] at h
  | b :: bs, k, v, h => by
    simp only [Spec.findBlock] at h
    cases hb : b.find x with
    | some w => rw [hb] at h; simp only [Option.some.injEq, Prod.mk.injEq] at h; rw [← h.1]; simp
    | none =>
      rw [hb] at h; dsimp only at h
      cases hf : Spec.findBlock x bs with
      | none => rw [hf] at h; simp at h
      | some p =>
        rw [hf] at h
        simp only [Option.map_some, Option.some.injEq, Prod.mk.injEq] at h
        have := findBlock_lt hf
        rw [← h.1]; simp; omega

theorem global_ok {σ : State A} {x : Name} {w : Place} {v : Value A} (n : Nat) (h : σ.global x = some (w, v)) : PlaceOk n w := by
  unfold State.global at h
  cases hg : σ.globals.find x with
  | none => rw [hg] at h; cases h
  | some u => rw [hg] at h; cases h; trivial

theorem member_ok {σ : State A} {u : Value A} {x : Name} {w : Place} {v : Value A} (n : Nat) (h : σ.member u x = some (w, v)) :
    PlaceOk n w := by
  unfold State.member at h
  split at h
  · split at h
    · cases h; trivial
    · exact global_ok n h
  · cases h

theorem outer_ok {σ : State A} {x : Name} {w : Place} {v : Value A} (n : Nat) (h : σ.outer x = some (w, v)) : PlaceOk n w := by
  unfold State.outer at h
  split at h
  · exact member_ok n h
  · exact global_ok n h

theorem name_ok {σ : State A} {x : Name} {w : Place} {v : Value A} (h : σ.name x = some (w, v)) :
    PlaceOk σ.blocks.length w := by
  unfold State.name at h
  split at h
  · next hf => cases h; exact findBlock_lt hf
  · exact outer_ok _ h

theorem members_ok {σ : State A} {n : Nat} : ∀ (xs : List Name) {r : Option (Place × Value A)} {w : Place} {v : Value A},
    σ.members r xs = some (w, v) → (∀ w v, r = some (w, v) → PlaceOk n w) → PlaceOk n w
  | [], r, w, v, h, hr => hr w v (by simpa [State.members] using h)
  | x :: xs, none, w, v, h, _ => by simp [State.members] at h
  | x :: xs, some (_, u), w, v, h, _ => by
    simp only [State.members] at h
    exact members_ok xs h fun w v hm => member_ok n hm

theorem locate_ok {σ : State A} {p : Path} {w : Place} {v : Value A} (h : σ.locate p = some (w, v)) :
    PlaceOk σ.blocks.length w :=
  members_ok p.tail h fun _ _ h => name_ok h

theorem chain_modify {scopes : Nat → Option (Scope A)} {top : SRef} (x : Name) (v : Value A) :
    ∀ (is : List Nat) (bs : List (AMap Name (Value A))) (k : Nat), Chain scopes top is bs → k < bs.length →
      ∃ b par, scopes (is[k]?.getD 0) = some (.scope b par) ∧
        Chain (upd scopes (is[k]?.getD 0) (some (.scope (b.set x v) par))) top is (bs.modify k fun b => b.set x v)
  | i :: is, b :: bs, 0, h, _ => by
    refine ⟨b, refOf top is, by simpa using h.1, ?_, h.2.1, ?_⟩
    · simp [upd]
    · refine h.2.2.congr fun j hj => ?_
      have := h.2.1 j hj
      have hne : ¬ j = i := by omega
      simp [upd, hne]
  | i :: is, b :: bs, k + 1, h, hk => by
    obtain ⟨b', par, hs, hc⟩ := chain_modify x v is bs k h.2.2 (by simpa using hk)
    have hk' : k < is.length := by rw [h.2.2.length]; simpa using hk
    have hj : is[k]?.getD 0 ∈ is := by simp [hk']
    refine ⟨b', par, by simpa using hs, ?_, h.2.1, hc⟩
    have := h.2.1 _ hj
    have hne : ¬ i = is[k]?.getD 0 := by omega
    simp only [List.getElem?_cons_succ, upd, if_neg hne]
    exact h.1
  | [], [], k, _, hk => by simp at hk
  | [], _ :: _, _, h, _ => h.elim
  | _ :: _, [], _, h, _ => h.elim

theorem Rel.store {pre : List (Frame A)} {stk : List (Nat × Bool)} {σ : State A} {s : St A} (h : Rel pre stk σ s)
    {w : Place} (hw : PlaceOk stk.length w) (x : Name) (v : Value A) :
    Rel pre stk (σ.write w x v) (store s (sref (ids stk) w) x v) ∧ Step (ids stk) s (store s (sref (ids stk) w) x v) ∧
      (store s (sref (ids stk) w) x v).cf = s.cf := by
  have hd := h.data
  cases w with
  | glob =>
    refine ⟨⟨h.frames, h.cur, h.ne, h.chain, h.fresh, ⟨hd.objs, ?_, hd.out, hd.exc⟩⟩, ⟨fun _ _ => rfl, Nat.le_refl _⟩, rfl⟩
    simp [State.write, Interp.store, sref, hd.globals]
  | field cls o =>
    refine ⟨⟨h.frames, h.cur, h.ne, h.chain, h.fresh, ⟨?_, hd.globals, hd.out, hd.exc⟩⟩, ⟨fun _ _ => rfl, Nat.le_refl _⟩, rfl⟩
    simp [State.write, Interp.store, sref, hd.objs]
  | loc k =>
    have hk : k < σ.blocks.length := by
      have := h.chain.length; simp only [ids, List.length_map] at this; simp only [PlaceOk] at hw; omega
    obtain ⟨b, par, hs, hc⟩ := chain_modify x v _ _ k h.chain hk
    have hmem : (ids stk)[k]?.getD 0 ∈ ids stk := by
      have : k < (ids stk).length := by rw [h.chain.length]; exact hk
      simp [this]
    simp only [Interp.store, sref, hs, State.write]
    refine ⟨⟨h.frames, h.cur, h.ne, hc, ?_, ⟨hd.objs, hd.globals, hd.out, hd.exc⟩⟩, ⟨?_, Nat.le_refl _⟩, trivial⟩
    · intro i hi
      have := h.lt _ hmem
      have hne : ¬ i = (ids stk)[k]?.getD 0 := by simp only at hi; omega
      simp only [upd, if_neg hne]; exact h.fresh i hi
    · intro i hi
      have hne : ¬ i = (ids stk)[k]?.getD 0 := fun e => hi (e ▸ hmem)
      simp [upd, if_neg hne]

theorem Rel.length {pre : List (Frame A)} {stk : List (Nat × Bool)} {σ : State A} {s : St A} (h : Rel pre stk σ s) :
    stk.length = σ.blocks.length := by
  have := h.chain.length; simpa [ids] using this

/-! ## Blocks -/

theorem Rel.pushScope {pre : List (Frame A)} {stk : List (Nat × Bool)} {σ : State A} {s : St A} (h : Rel pre stk σ s) :
    ∃ s', pushScope s = .ok () s' ∧ Rel pre ((s.next, true) :: stk) { σ with blocks := [] :: σ.blocks } s' ∧
      Step [s.next] s s' ∧ s'.cf = s.cf := by
  obtain ⟨i, b, stk, blk, bs, rfl, hb⟩ := h.cons
  have hf := h.frame
  refine ⟨_, by simp only [Interp.pushScope, h.getScope, pushEntry, hf]; rfl, ?_, ?_, ?_⟩
  · refine ⟨?_, h.cur, by simp, ?_, ?_, ⟨h.data.objs, h.data.globals, h.data.out, h.data.exc⟩⟩
    · simp [setFrame, h.cur, h.frames]
    · refine ⟨by simp [setFrame, upd, refOf], fun j hj => h.lt j hj, ?_⟩
      refine h.chain.congr fun j hj => ?_
      have := h.lt j hj
      have hne : ¬ j = s.next := by omega
      simp [setFrame, upd, hne]
    · intro j hj
      simp only [setFrame] at hj ⊢
      have hne : ¬ j = s.next := by omega
      simp only [upd, if_neg hne]; exact h.fresh j (by omega)
  · refine ⟨fun j hj => ?_, by simp [setFrame]⟩
    have hne : ¬ j = s.next := by simpa using hj
    simp [setFrame, upd, hne]
  · rfl

theorem Rel.popScope {pre : List (Frame A)} {i : Nat} {stk : List (Nat × Bool)} {σ : State A} {s : St A}
    (h : Rel pre ((i, true) :: stk) σ s) (hne : stk ≠ []) :
    ∃ s', popScope s = .ok () s' ∧ Rel pre stk { σ with blocks := σ.blocks.tail } s' ∧
      Step [i] s s' ∧ s'.scopes i = none ∧ s'.cf = s.cf := by
  have hf := h.frame
  have hlt := h.lt i (by simp [ids])
  refine ⟨_, by simp only [Interp.popScope, hf]; rfl, ?_, ?_, ?_, ?_⟩
  · refine ⟨?_, ?_, hne, ?_, ?_, ⟨h.data.objs, h.data.globals, h.data.out, h.data.exc⟩⟩
    · simp [setFrame, h.cur, h.frames]
    · simp [setFrame, h.cur]
    · have hc := h.chain
      cases hb : σ.blocks with
      | nil => rw [hb] at hc; exact hc.elim
      | cons blk bs =>
        rw [hb] at hc
        refine Chain.congr hc.2.2 fun j hj => ?_
        have := hc.2.1 j hj
        simp only at this
        have hne : ¬ j = i := by omega
        simp [setFrame, upd, hne]
    · intro j hj
      have hne : ¬ j = i := by simp only [if_true, setFrame] at hj; omega
      simp only [if_true, setFrame, upd, if_neg hne]
      exact h.fresh j hj
  · refine ⟨fun j hj => ?_, by simp [setFrame]⟩
    have hne : ¬ j = i := by simpa using hj
    simp [setFrame, upd, hne]
  · simp [upd]
  · rfl

/-- A block is entered and left. -/
theorem Step.block {is : List Nat} {s s₁ s₂ s₃ : St A} (hf : ∀ i, s.next ≤ i → s.scopes i = none) (h₁ : Step [s.next] s s₁)
    (h₂ : Step (s.next :: is) s₁ s₂) (h₃ : Step [s.next] s₂ s₃) (hn : s₃.scopes s.next = none) : Step is s s₃ := by
  refine ⟨fun i hi => ?_, Nat.le_trans h₁.next (Nat.le_trans h₂.next h₃.next)⟩
  by_cases he : i = s.next
  · subst he; rw [hn, hf _ (Nat.le_refl _)]
  · rw [h₃.scopes i (by simpa using he), h₂.scopes i (by simp [he, hi]), h₁.scopes i (by simpa using he)]

/-! ## Declarations -/

theorem Rel.define {pre : List (Frame A)} {stk : List (Nat × Bool)} {σ : State A} {s : St A} (h : Rel pre stk σ s)
    {blk : AMap Name (Value A)} {bs : List (AMap Name (Value A))} (hb : σ.blocks = blk :: bs) {x : Name} (hx : blk.find x = none)
    (v : Value A) :
    ∃ s', define s x v = .ok () s' ∧ Rel pre stk { σ with blocks := blk.set x v :: bs } s' ∧
      Step (ids stk) s s' ∧ s'.cf = s.cf := by
  obtain ⟨i, b, stk, blk', bs', rfl, hb'⟩ := h.cons
  have hc := h.chain
  rw [hb] at hc
  have hlt := h.lt i (by simp [ids])
  have hd : Interp.define s x v =
      .ok () { s with scopes := upd s.scopes i (some (.scope (blk.set x v) (refOf (selfRef σ.self) (ids stk)))) } := by
    simp only [Interp.define, h.getScope]
    rw [show s.scopes i = some (.scope blk (refOf (selfRef σ.self) (ids stk))) from hc.1]
    simp only [hx]
  refine ⟨_, hd, ?_, ?_, ?_⟩
  · refine ⟨h.frames, h.cur, h.ne, ⟨by simp [upd, ids], hc.2.1, ?_⟩, ?_, ⟨h.data.objs, h.data.globals, h.data.out, h.data.exc⟩⟩
    · refine Chain.congr hc.2.2 fun j hj => ?_
      have := hc.2.1 j hj
      simp only at this
      have hne : ¬ j = i := by omega
      simp [upd, hne]
    · intro j hj
      have hne : ¬ j = i := by simp only at hj; omega
      simp only [upd, if_neg hne]; exact h.fresh j hj
  · refine ⟨fun j hj => ?_, Nat.le_refl _⟩
    have hne : ¬ j = i := fun e => hj (by simp [ids, e])
    simp [upd, hne]
  · rfl

/-! ## Frames -/

theorem pushFrame_rel {σ : State A} {s : St A} (hd : Data σ s) (hi : Idle s) (self : Option (Name × Nat)) (m : Method A)
    (vs : List (Value A)) :
    Rel s.frames [(s.next, false)] { σ with blocks := [methodVars self m vs], self := self, rv := .null }
      (pushFrame s self m vs) where
  frames := rfl
  cur := rfl
  ne := by simp
  chain := ⟨by simp [pushFrame, upd, refOf], by simp, trivial⟩
  fresh := fun i h => by
    simp only [pushFrame] at h ⊢
    have hne : ¬ i = s.next := by omega
    simp only [upd, if_neg hne]; exact hi.fresh i (by omega)
  data := ⟨hd.objs, hd.globals, hd.out, hd.exc⟩

theorem popFrame_same {σ σ₁ : State A} {s s₁ : St A} (hi : Idle s) {self : Option (Name × Nat)} {m : Method A} {vs : List (Value A)}
    (hr : Rel s.frames [(s.next, false)] σ₁ s₁) (hs : Step [s.next] (pushFrame s self m vs) s₁) :
    ∃ s₂, popFrame s₁ = .ok () s₂ ∧ Same s (dropAlias s.next s₂) ∧
      Data { σ₁ with blocks := σ.blocks, self := σ.self, rv := σ.rv } (dropAlias s.next s₂) ∧ s₂.cf = s₁.cf := by
  have hl : s₁.frames.getLast? = some ⟨[(s.next, false)], σ₁.rv⟩ := by rw [hr.frames]; simp
  have hp : popFrame s₁ = .ok () { s₁ with frames := s₁.frames.dropLast, cur := s₁.frames.length - 2 } := by
    simp only [popFrame, hl]; simp
  refine ⟨_, hp, ⟨?_, ?_, ?_, ?_⟩, ⟨hr.data.objs, hr.data.globals, hr.data.out, hr.data.exc⟩, rfl⟩
  · simp [dropAlias, hr.frames]
  · simp [dropAlias, hr.frames, hi.cur]
  · funext i
    simp only [dropAlias, upd]
    by_cases he : i = s.next
    · rw [if_pos he, he, hi.fresh _ (Nat.le_refl _)]
    · rw [if_neg he, hs.scopes i (by simpa using he)]
      simp [pushFrame, upd, he]
  · have := hs.next
    simp only [pushFrame, dropAlias] at this ⊢; omega

theorem Rel.returnValue {pre : List (Frame A)} {stk : List (Nat × Bool)} {σ : State A} {s : St A} (h : Rel pre stk σ s) :
    returnValue s = σ.rv := by
  unfold Interp.returnValue; rw [h.frame]

/-! ## Objects as scopes -/

/-- The state after an object has been pushed as a scope. -/
theorem Rel.pushAlias {pre : List (Frame A)} {stk : List (Nat × Bool)} {σ : State A} {s : St A} (h : Rel pre stk σ s) (v : Value A) :
    ∃ s', pushAlias v s = .ok s.next s' ∧ Data σ s' ∧ Idle s' ∧ s'.cf = s.cf ∧ Interp.getScope s' = some s.next ∧
      s'.scopes = upd s.scopes s.next (some (.alias v)) ∧ s'.next = s.next + 1 ∧ s'.cur = s.cur ∧
      s'.frames = pre ++ [⟨(s.next, false) :: stk, σ.rv⟩] := by
  have hf := h.frame
  have hp : Interp.pushAlias v s = .ok s.next (setFrame
      { s with scopes := upd s.scopes s.next (some (.alias v)), next := s.next + 1 } ⟨(s.next, false) :: stk, σ.rv⟩) := by
    simp only [Interp.pushAlias, pushEntry, hf, Res.bind]
  refine ⟨_, hp, ?_, ?_, rfl, ?_, rfl, rfl, rfl, ?_⟩
  · exact ⟨h.data.objs, h.data.globals, h.data.out, h.data.exc⟩
  · refine ⟨by simp [setFrame, h.cur, h.frames], fun i hi => ?_⟩
    simp only [setFrame] at hi ⊢
    have hne : ¬ i = s.next := by omega
    simp only [upd, if_neg hne]; exact h.fresh i (by omega)
  · simp [Interp.getScope, setFrame, h.cur, h.frames]
  · simp [setFrame, h.cur, h.frames]

/-- Code that is run with an object as the current scope and gives back the frames and scopes as they were. -/
theorem withAlias_ok {α : Type} {pre : List (Frame A)} {stk : List (Nat × Bool)} {σ σ' : State A} {s : St A} (h : Rel pre stk σ s)
    (v : Value A) {k : Nat → St A → Res A α} {a : α}
    (hk : ∀ s₁, Data σ s₁ → Idle s₁ → s₁.cf = s.cf → getScope s₁ = some s.next → s₁.scopes s.next = some (.alias v) →
      ∃ s₂, Ends (fun n => k n s₁) (.ok a s₂) ∧ Same s₁ s₂ ∧ Data σ' s₂ ∧ s₂.cf = .normal) :
    ∃ s', Ends (fun n => withAlias v s (k n)) (.ok a s') ∧ Same s s' ∧ Data σ' s' ∧ s'.cf = .normal := by
  obtain ⟨s₁, h₁, hd, hi, hcf, hg, hsc, hnx, hcur, hfr⟩ := h.pushAlias v
  obtain ⟨s₂, h₂, hs, hd₂, hc₂⟩ := hk s₁ hd hi hcf hg (by rw [hsc]; simp [upd])
  have hf₂ : s₂.frames[s₂.cur]? = some ⟨(s.next, false) :: stk, σ.rv⟩ := by
    rw [hs.frames, hs.cur, hfr, hcur, h.cur]; simp
  have hp : popScope s₂ = .ok () (setFrame s₂ { stack := stk, ret := σ.rv }) := by
    simp only [Interp.popScope, hf₂]; rfl
  refine ⟨dropAlias s.next (setFrame s₂ { stack := stk, ret := σ.rv }),
    h₂.via (h := fun _ => .ok a (dropAlias s.next (setFrame s₂ { stack := stk, ret := σ.rv }))) (fun n hn => ?_) (Ends.const fun _ => rfl), ?_, ?_, hc₂⟩
  · simp only [withAlias, h₁, hn, hp, Res.bind]
  · refine ⟨?_, ?_, ?_, ?_⟩
    · simp [dropAlias, setFrame, hs.frames, hs.cur, hfr, hcur, h.cur, h.frames]
    · simp [dropAlias, setFrame, hs.cur, hcur]
    · funext i
      simp only [dropAlias, setFrame, hs.scopes, hsc, upd]
      by_cases he : i = s.next
      · simp [he, h.fresh _ (Nat.le_refl _)]
      · simp [he]
    · have := hs.next; simp only [dropAlias, setFrame]; omega
  · exact ⟨hd₂.objs, hd₂.globals, hd₂.out, hd₂.exc⟩

/-! ## Methods -/

def targetOf : Option (Name × Nat) → Target
  | some (cls, o) => .obj cls o
  | none => .glob

theorem findMethod_eq (G : Prog A) (self : Option (Name × Nat)) (f : Name) (vs : List (Value A)) :
    findMethod G (targetOf self) f vs = Spec.methodOf G self f vs := by
  cases self with
  | none => rfl
  | some p => rfl

theorem methodScope_chain {s : St A} {self : Option (Name × Nat)} :
    ∀ (is : List Nat) (bs : List (AMap Name (Value A))), Chain s.scopes (selfRef self) is bs → ∀ n, (∀ i ∈ is, i < n) →
      methodScope n s (refOf (selfRef self) is) = targetOf self
  | [], [], _, n, _ => by cases self <;> cases n <;> rfl
  | i :: is, b :: bs, h, n, hn => by
    obtain ⟨n, rfl⟩ : ∃ m, n = m + 1 := ⟨n - 1, by have := hn i (by simp); omega⟩
    simp only [refOf, methodScope, h.1]
    exact methodScope_chain is bs h.2.2 n (fun j hj => by have := h.2.1 j hj; have := hn i (by simp); omega)
  | [], _ :: _, h, _, _ => h.elim
  | _ :: _, [], h, _, _ => h.elim

theorem lookMembers_eq {σ : State A} {s : St A} (h : Data σ s) : ∀ (xs : List Name) (v : Value A),
    lookMembers s v xs = σ.fieldPath v xs
  | [], v => by cases v <;> rfl
  | x :: xs, .obj cls o => by
    simp only [lookMembers, State.fieldPath, h.objs]
    cases (σ.objs[o]?.getD []).find x with
    | none => rfl
    | some v => exact lookMembers_eq h xs v
  | x :: xs, .null => rfl
  | x :: xs, .atom _ => rfl

theorem resolveFrom_eq {G : Prog A} {σ : State A} {s : St A} (h : Data σ s) {is : List Nat} {n : Nat} {w : SRef} {x : Name}
    {r : Option (Place × Value A)} (hl : look n s w x = lookOf is r) (xs : List Name) (f : Name) (vs : List (Value A)) :
    resolveFrom G s n w x xs f vs = .ofOption (σ.calleeVia G r xs f vs) := by
  unfold resolveFrom State.calleeVia
  rw [hl]
  cases r with
  | none => rfl
  | some p =>
    simp only [lookOf]
    rw [lookMembers_eq h]
    cases σ.fieldPath p.2 xs with
    | none => rfl
    | some u => cases u <;> rfl

theorem targetOf_ref (self : Option (Name × Nat)) : (targetOf self).ref = selfRef self := by
  cases self <;> rfl

theorem Rel.resolveCall {G : Prog A} {pre : List (Frame A)} {stk : List (Nat × Bool)} {σ : State A} {s : St A} (h : Rel pre stk σ s)
    (path : List Name) (f : Name) (vs : List (Value A)) :
    (∀ m, σ.callee G path f vs = some m → resolveCall G s path f vs = .found m) ∧
    (σ.callee G path f vs = none → σ.calleeOuter G path f vs = none → resolveCall G s path f vs = .missing) := by
  obtain ⟨i, b, stk, blk, bs, rfl, hb⟩ := h.cons
  have hms : methodScope (i + 1) s (.blk i) = targetOf σ.self :=
    methodScope_chain (ids ((i, b) :: stk)) σ.blocks h.chain (i + 1) (by
      have hc := h.chain
      rw [hb] at hc
      intro j hj
      rcases List.mem_cons.1 hj with rfl | hj
      · exact Nat.lt_succ_self _
      · have := hc.2.1 j hj; simp only at this; omega)
  unfold Interp.resolveCall
  rw [h.getScope]; dsimp only
  rw [hms]
  cases path with
  | nil =>
    simp only [State.callee, State.calleeOuter]
    rw [← findMethod_eq]
    cases σ.self with
    | none => exact ⟨fun m hm => by simp only [targetOf] at hm ⊢; rw [hm]; rfl, fun hm _ => by simp only [targetOf] at hm ⊢; rw [hm]; rfl⟩
    | some p => exact ⟨fun m hm => by simp only [targetOf] at hm ⊢; rw [hm]; rfl, fun hm _ => by simp only [targetOf] at hm ⊢; rw [hm]; rfl⟩
  | cons x xs =>
    simp only [State.callee, State.calleeOuter]
    have h1 := resolveFrom_eq (G := G) h.data (h.look_name x) xs f vs
    have h2 : Interp.resolveFrom G s 1 (targetOf σ.self).ref x xs f vs = .ofOption (σ.calleeVia G (σ.outer x) xs f vs) :=
      resolveFrom_eq (is := []) h.data (by rw [targetOf_ref]; exact look_top h.data [] 1 x) xs f vs
    rw [h1]
    have key : ∀ t : Target, t ≠ .dangling → t.ref = (targetOf σ.self).ref →
        (match t with
          | .dangling => MLook.dangling
          | t =>
            match MLook.ofOption (σ.calleeVia G (σ.name x) xs f vs) with
            | MLook.missing => Interp.resolveFrom G s 1 t.ref x xs f vs
            | r => r) =
        match MLook.ofOption (σ.calleeVia G (σ.name x) xs f vs) with
        | MLook.missing => MLook.ofOption (σ.calleeVia G (σ.outer x) xs f vs)
        | r => r := by
      intro t ht hr
      rw [← h2, ← hr]
      cases t <;> first | exact absurd rfl ht | rfl
    have hk := key (targetOf σ.self) (by cases σ.self <;> simp [targetOf]) rfl
    refine ⟨fun m hm => hk.trans ?_, fun hm ho => hk.trans ?_⟩
    · rw [hm]; rfl
    · rw [hm, ho]; rfl

/-- On an object that has been pushed as a scope, a method of the object is found. -/
theorem resolveCall_alias {G : Prog A} {s : St A} {i : Nat} {cls : Name} {o : Nat} (hg : getScope s = some i)
    (hs : s.scopes i = some (.alias (.obj cls o))) {f : Name} {vs : List (Value A)} {m : Bound A}
    (hm : Spec.methodOf G (some (cls, o)) f vs = some m) : resolveCall G s [] f vs = .found m := by
  unfold resolveCall
  rw [hg]; dsimp only
  simp only [methodScope, hs]
  rw [show Target.obj cls o = targetOf (some (cls, o)) from rfl, findMethod_eq, hm]; rfl

end Sim
end Interp
end Verif
