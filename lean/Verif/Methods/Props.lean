import Verif.Methods.Model
import Verif.Scope.Lemmas

/-!
# What signatures and parameters guarantee
-/

namespace Verif
namespace Methods

variable {V : Type}

/-! ## C44: parameter binding -/

/-- The arguments fit a signature: there are not more of them than parameters, each has the type of its
parameter (or the parameter is untyped), and each parameter without an argument has a default value. -/
def Fits (sig args : List (Param V)) : Prop :=
  args.length ≤ sig.length ∧
  (∀ (i : Nat) (a p : Param V), args[i]? = some a → sig[i]? = some p → p.type = a.type ∨ p.type = "") ∧
  (∀ (i : Nat) (p : Param V), args.length ≤ i → sig[i]? = some p → p.hasDefault = true)

/-- What a call should bind the parameter at position `i` to: the object or the value of the argument at
this position, or the default value. -/
def intended (args : List (Param V)) (i : Nat) (p : Param V) : Binding V :=
  match args[i]? with
  | some a => if a.ref = 0 then .value a.value else .object a.ref
  | none => .value p.value

/-- No parameter has to use its default value, or the last argument is not an object. -/
def NoObjectBeforeDefault (sig args : List (Param V)) : Prop :=
  args.length = sig.length ∨ ∀ a, args.getLast? = some a → a.ref = 0

theorem isSignatureValid_iff (sig args : List (Param V)) : isSignatureValid sig args = true ↔ Fits sig args := by
  unfold isSignatureValid
  rw [Scope.isSignatureValid_iff]
  unfold Scope.Accepts Fits
  simp only [List.length_map, List.getElem?_map, Option.map_eq_some_iff]
  constructor
  · rintro ⟨h1, h2, h3⟩
    refine ⟨h1, fun i a p ha hp => ?_, fun i p hi hp => ?_⟩
    · exact h2 i a.type p.shape ⟨a, ha, rfl⟩ ⟨p, hp, rfl⟩
    · exact h3 i p.shape hi ⟨p, hp, rfl⟩
  · rintro ⟨h1, h2, h3⟩
    refine ⟨h1, ?_, ?_⟩
    · rintro i a p ⟨a', ha, rfl⟩ ⟨p', hp, rfl⟩; exact h2 i a' p' ha hp
    · rintro i p hi ⟨p', hp, rfl⟩; exact h3 i p' hi hp

/-- **C44**.  A call with a missing argument without default value, with surplus arguments, or with an
argument of the wrong type is rejected. -/
theorem misfit_rejected (self : Option Nat) {sig args : List (Param V)} (h : ¬ Fits sig args) : callScope self sig args = none := by
  have : isSignatureValid sig args = false := by
    rw [← Bool.not_eq_true, isSignatureValid_iff]; exact h
  simp [callScope, mergeParameters, this]

theorem mergeFrom_get (sig : List (Param V)) : ∀ (r : Nat) (args : List (Param V)) (i : Nat) (p : Param V), sig[i]? = some p →
    args.length ≤ sig.length →
    ∃ q, (mergeFrom r sig args)[i]? = some q ∧ q.name = p.name ∧
      (∀ a, args[i]? = some a → q.value = a.value ∧ q.ref = a.ref) ∧
      (args[i]? = none → q.value = p.value ∧ q.ref = ((args.getLast?.map Param.ref).getD r)) := by
  induction sig with
  | nil => intro r args i p h; simp at h
  | cons s sig ih =>
    intro r args i p h hl
    cases args with
    | nil =>
      cases i with
      | zero =>
        simp only [List.getElem?_cons_zero, Option.some.injEq] at h
        subst h
        exact ⟨_, rfl, rfl, by simp, by simp⟩
      | succ i =>
        simp only [List.getElem?_cons_succ] at h
        obtain ⟨q, h1, h2, -, h4⟩ := ih r [] i p h (by simp)
        exact ⟨q, by simpa [mergeFrom] using h1, h2, by simp, by simpa using h4⟩
    | cons a args =>
      simp only [List.length_cons, Nat.add_le_add_iff_right] at hl
      cases i with
      | zero =>
        simp only [List.getElem?_cons_zero, Option.some.injEq] at h
        subst h
        exact ⟨_, rfl, rfl, by simp, by simp⟩
      | succ i =>
        simp only [List.getElem?_cons_succ] at h
        obtain ⟨q, h1, h2, h3, h4⟩ := ih a.ref args i p h hl
        refine ⟨q, by simpa [mergeFrom] using h1, h2, by simpa using h3, fun hn => ?_⟩
        have := h4 (by simpa using hn)
        refine ⟨this.1, ?_⟩
        rw [this.2]
        cases args with
        | nil => rfl
        | cons b bs =>
          rw [List.getLast?_cons_cons]
          have : ∃ x, (b :: bs).getLast? = some x := ⟨_, List.getLast?_eq_some_getLast (by simp)⟩
          obtain ⟨x, hx⟩ := this
          rw [hx]; rfl

theorem mergeFrom_names (sig : List (Param V)) : ∀ (r : Nat) (args : List (Param V)),
    (mergeFrom r sig args).map Param.name = sig.map Param.name := by
  induction sig with
  | nil => intro r args; rfl
  | cons s sig ih => intro r args; cases args <;> simp [mergeFrom, ih]

/-- The names of the parameters that become variables. -/
def names (sig : List (Param V)) : List String := (sig.map Param.name).filter (· ≠ "")

theorem defineAll_spec (ps : List (Param V)) : ∀ (m : AMap String (Binding V)), (names ps).Nodup →
    (∀ x ∈ names ps, m.find x = none) →
    ∃ m', defineAll ps m = some m' ∧ (∀ p ∈ ps, p.name ≠ "" → m'.find p.name = some p.bind) ∧
      ∀ x, x ∉ names ps → m'.find x = m.find x := by
  induction ps with
  | nil => intro m _ _; exact ⟨m, rfl, by simp, by simp⟩
  | cons p ps ih =>
    intro m hn hf
    by_cases hp : p.name = ""
    · have hnames : names (p :: ps) = names ps := by simp [names, hp]
      rw [hnames] at hn hf
      obtain ⟨m', h1, h2, h3⟩ := ih m hn hf
      refine ⟨m', by simp [defineAll, hp, h1], ?_, by rw [hnames]; exact h3⟩
      intro q hq hqn
      rcases List.mem_cons.1 hq with rfl | hq
      · exact absurd hp hqn
      · exact h2 q hq hqn
    · have hnames : names (p :: ps) = p.name :: names ps := by simp [names, hp]
      rw [hnames] at hn hf
      have hnot := (List.nodup_cons.1 hn).1
      obtain ⟨m', h1, h2, h3⟩ := ih ((p.name, p.bind) :: m) (List.nodup_cons.1 hn).2 (by
        intro x hx
        have hne : p.name ≠ x := by rintro rfl; exact hnot hx
        simp only [AMap.find, if_neg hne]
        exact hf x (List.mem_cons_of_mem _ hx))
      refine ⟨m', ?_, ?_, ?_⟩
      · rw [defineAll, if_neg hp, hf p.name List.mem_cons_self]
        simpa using h1
      · intro q hq hqn
        rcases List.mem_cons.1 hq with rfl | hq
        · rw [h3 _ hnot]; simp [AMap.find]
        · exact h2 q hq hqn
      · intro x hx
        rw [hnames, List.mem_cons, not_or] at hx
        rw [h3 x hx.2]
        simp only [AMap.find, if_neg (Ne.symm hx.1)]

theorem getLast?_isSome {α : Type} {l : List α} {a : α} (h : l ≠ []) : ∃ x, l.getLast? = some x :=
  have := a; ⟨_, List.getLast?_eq_some_getLast h⟩

/-- **C44** (partial).  A call whose arguments fit the signature binds every named parameter to the argument
at its position, or to its default value, and `this` to the object of the call; no other name is bound.
Missing: calls that use a default value after an argument that is an object; the property fails for them
(`parameter_binding_refuted`, `object_before_default`). -/
theorem parameter_binding_partial {self : Option Nat} {sig args : List (Param V)} (h : Fits sig args)
    (hn : (names sig).Nodup) (ht : self ≠ none → "this" ∉ names sig) (hd : NoObjectBeforeDefault sig args) :
    ∃ m, callScope self sig args = some m ∧
      (∀ i p, sig[i]? = some p → p.name ≠ "" → m.find p.name = some (intended args i p)) ∧
      (∀ a, self = some a → m.find "this" = some (.object a)) ∧
      ∀ x, x ∉ names sig → x ≠ "this" → m.find x = none := by
  have hv : isSignatureValid sig args = true := (isSignatureValid_iff sig args).2 h
  have hnames : names (mergeFrom 0 sig args) = names sig := by simp only [names, mergeFrom_names]
  have hm₀ : ∀ x, x ≠ "this" ∨ self = none → (thisScope (V := V) self).find x = none := by
    intro x hx
    cases self with
    | none => rfl
    | some a =>
      rcases hx with hx | hx
      · simp [thisScope, AMap.find, Ne.symm hx]
      · cases hx
  obtain ⟨m, h1, h2, h3⟩ := defineAll_spec (mergeFrom 0 sig args) (thisScope self) (by rw [hnames]; exact hn) (by
    rw [hnames]
    intro x hx
    apply hm₀
    cases self with
    | none => exact .inr rfl
    | some a => exact .inl (by rintro rfl; exact ht (by nofun) hx))
  rw [hnames] at h3
  refine ⟨m, by simpa [callScope, mergeParameters, hv] using h1, ?_, ?_, ?_⟩
  · intro i p hp hpn
    obtain ⟨q, hq, hqn, hsome, hnone⟩ := mergeFrom_get sig 0 args i p hp h.1
    rw [← hqn, h2 q (List.mem_of_getElem? hq) (by rw [hqn]; exact hpn)]
    unfold intended Param.bind
    cases ha : args[i]? with
    | some a =>
      obtain ⟨h4, h5⟩ := hsome a ha
      rw [h4, h5]
      by_cases hr : a.ref = 0 <;> simp [hr]
    | none =>
      obtain ⟨h4, h5⟩ := hnone ha
      have hr : q.ref = 0 := by
        rw [h5]
        rcases hd with hd | hd
        · have := List.getElem?_eq_none_iff.1 ha
          have := (List.getElem?_eq_some_iff.1 hp).1
          omega
        · cases hl : args.getLast? with
          | none => rfl
          | some a => exact hd a hl
      simp [hr, h4]
  · intro a ha
    have := h3 "this" (ht (by rw [ha]; nofun))
    rw [this]
    simp [thisScope, ha, AMap.find]
  · intro x hx hxt
    rw [h3 x hx, hm₀ x (.inl hxt)]

/-- The exact failure: a parameter that should get its default value after an argument that is an object
becomes that object. -/
theorem object_before_default {self : Option Nat} {sig args : List (Param V)} {m : AMap String (Binding V)}
    (h : callScope self sig args = some m) (hn : (names sig).Nodup) (ht : self ≠ none → "this" ∉ names sig)
    {a : Param V} (ha : args.getLast? = some a) (hr : a.ref ≠ 0) {i : Nat} {p : Param V} (hi : args.length ≤ i)
    (hp : sig[i]? = some p) (hpn : p.name ≠ "") : m.find p.name = some (.object a.ref) := by
  have hv : isSignatureValid sig args = true := by
    cases hv : isSignatureValid sig args with
    | true => rfl
    | false => simp [callScope, mergeParameters, hv] at h
  have hfit := (isSignatureValid_iff sig args).1 hv
  have hnames : names (mergeFrom 0 sig args) = names sig := by simp only [names, mergeFrom_names]
  obtain ⟨m', h1, h2, -⟩ := defineAll_spec (mergeFrom 0 sig args) (thisScope self) (by rw [hnames]; exact hn) (by
    rw [hnames]
    intro x hx
    cases self with
    | none => rfl
    | some b =>
      have : "this" ≠ x := by rintro rfl; exact ht (by nofun) hx
      simp [thisScope, AMap.find, this])
  have hm : m = m' := by
    simp only [callScope, mergeParameters, hv, Bool.not_true, Bool.false_eq_true, if_false] at h
    exact Option.some.inj (h.symm.trans h1)
  subst hm
  obtain ⟨q, hq, hqn, -, hnone⟩ := mergeFrom_get sig 0 args i p hp hfit.1
  obtain ⟨-, h5⟩ := hnone (List.getElem?_eq_none_iff.2 hi)
  rw [← hqn, h2 q (List.mem_of_getElem? hq) (by rw [hqn]; exact hpn)]
  have : q.ref = a.ref := by rw [h5, ha]; rfl
  simp [Param.bind, this, hr]

/-- `void f( Object a, int b = 7 )` called as `f( x )`, where `x` lives at address 5: `b` is `x`. -/
def objectThenDefault : List (Param Nat) := [⟨"a", "Object", 0, false, false, 0⟩, ⟨"b", "int", 7, true, false, 0⟩]

theorem parameter_binding_refuted : Fits objectThenDefault [⟨"", "Object", 0, false, false, 5⟩] ∧
    ∃ m, callScope none objectThenDefault [⟨"", "Object", 0, false, false, 5⟩] = some m ∧ m.find "b" = some (.object 5) ∧
      intended [⟨"", "Object", 0, false, false, 5⟩] 1 ⟨"b", "int", 7, true, false, 0⟩ = .value 7 :=
  ⟨(isSignatureValid_iff _ _).1 (by decide), _, rfl, by decide, by decide⟩

/-- The hypotheses of `parameter_binding_partial`: a value, an unnamed parameter, and two default values. -/
example : Fits (V := Nat) [⟨"a", "int", 0, false, false, 0⟩, ⟨"", "int", 0, false, false, 0⟩, ⟨"b", "int", 7, true, false, 0⟩, ⟨"c", "int", 8, true, false, 0⟩]
      [⟨"", "int", 3, false, false, 0⟩, ⟨"", "int", 4, false, false, 0⟩] ∧
    (names (V := Nat) [⟨"a", "int", 0, false, false, 0⟩, ⟨"", "int", 0, false, false, 0⟩, ⟨"b", "int", 7, true, false, 0⟩, ⟨"c", "int", 8, true, false, 0⟩]).Nodup ∧
    NoObjectBeforeDefault (V := Nat) [⟨"a", "int", 0, false, false, 0⟩, ⟨"", "int", 0, false, false, 0⟩, ⟨"b", "int", 7, true, false, 0⟩, ⟨"c", "int", 8, true, false, 0⟩]
      [⟨"", "int", 3, false, false, 0⟩, ⟨"", "int", 4, false, false, 0⟩] :=
  ⟨(isSignatureValid_iff _ _).1 (by decide), by decide, .inr (by intro a h; cases h; rfl)⟩

/-- And of `misfit_rejected`: a surplus argument. -/
example : ¬ Fits objectThenDefault [⟨"", "Object", 0, false, false, 5⟩, ⟨"", "int", 0, false, false, 0⟩, ⟨"", "int", 0, false, false, 0⟩] := by
  rw [← isSignatureValid_iff]; decide

/-! ## C45: the order of overloads -/

theorem less_irrefl_string (a : String) : ¬ a < a := String.lt_irrefl a

theorem firstDifference_self : ∀ l : List String, firstDifference l l = none
  | [] => rfl
  | a :: l => by simp [firstDifference, firstDifference_self l]

theorem firstDifference_none : ∀ {a b : List String}, a.length = b.length → firstDifference a b = none → a = b
  | [], [], _, _ => rfl
  | x :: a, y :: b, hl, h => by
    simp only [List.length_cons, Nat.add_right_cancel_iff] at hl
    rw [firstDifference] at h
    by_cases hxy : x = y
    · rw [if_neg (by simpa using hxy)] at h
      rw [hxy, firstDifference_none hl h]
    · rw [if_pos hxy] at h; cases h

theorem firstDifference_swap : ∀ {a b : List String} {r : Bool}, firstDifference a b = some r → firstDifference b a = some !r
  | [], b, r, h => by cases b <;> simp [firstDifference] at h
  | x :: a, [], r, h => by simp [firstDifference] at h
  | x :: a, y :: b, r, h => by
    rw [firstDifference] at h ⊢
    by_cases hxy : x = y
    · rw [if_neg (by simpa using hxy)] at h
      rw [if_neg (by simpa using hxy.symm)]
      exact firstDifference_swap h
    · rw [if_pos hxy, Option.some.injEq] at h
      rw [if_pos (Ne.symm hxy), Option.some.injEq, ← h]
      rcases Std.lt_trichotomy x y with hlt | heq | hgt
      · simp [hlt, Std.not_gt_of_lt hlt]
      · exact absurd heq hxy
      · simp [hgt, Std.not_gt_of_lt hgt]

theorem firstDifference_trans : ∀ {a b c : List String}, a.length = b.length → b.length = c.length →
    firstDifference a b = some true → firstDifference b c = some true → firstDifference a c = some true
  | [], _, _, _, _, h, _ => by simp [firstDifference] at h
  | x :: a, [], _, hl, _, _, _ => by simp at hl
  | x :: a, y :: b, [], _, hl, _, _ => by simp at hl
  | x :: a, y :: b, z :: c, hl, hl', h, h' => by
    simp only [List.length_cons, Nat.add_right_cancel_iff] at hl hl'
    rw [firstDifference] at h h' ⊢
    by_cases hxy : x = y
    · subst hxy
      rw [if_neg (by simp)] at h
      by_cases hyz : x = z
      · subst hyz
        rw [if_neg (by simp)] at h' ⊢
        exact firstDifference_trans hl hl' h h'
      · rw [if_pos hyz] at h' ⊢
        exact h'
    · rw [if_pos hxy] at h
      simp only [Option.some.injEq, decide_eq_true_eq] at h
      by_cases hyz : y = z
      · subst hyz
        rw [if_pos hxy]
        simpa using h
      · rw [if_pos hyz] at h'
        simp only [Option.some.injEq, decide_eq_true_eq] at h'
        have := String.lt_trans h h'
        have hxz : x ≠ z := by rintro rfl; exact less_irrefl_string _ this
        rw [if_pos hxz]
        simpa using this

/-- **C45**.  No signature comes before itself. -/
theorem order_irreflexive (a : Key) : a.less a = false := by
  simp [Key.less, firstDifference_self]

/-- **C45**.  The order is transitive. -/
theorem order_transitive {a b c : Key} (h : a.less b = true) (h' : b.less c = true) : a.less c = true := by
  simp only [Key.less] at h h' ⊢
  by_cases hab : a.name = b.name
  · rw [if_pos hab] at h
    by_cases hbc : b.name = c.name
    · rw [if_pos hbc] at h'
      rw [if_pos (hab.trans hbc)]
      by_cases lab : a.types.length = b.types.length
      · rw [if_pos lab] at h
        by_cases lbc : b.types.length = c.types.length
        · rw [if_pos lbc] at h'
          rw [if_pos (lab.trans lbc)]
          cases hd : firstDifference a.types b.types with
          | none => rw [hd] at h; simp [lab] at h
          | some r =>
            cases hd' : firstDifference b.types c.types with
            | none => rw [hd'] at h'; simp [lbc] at h'
            | some r' =>
              rw [hd] at h; rw [hd'] at h'
              dsimp only at h h'
              subst h h'
              rw [firstDifference_trans lab lbc hd hd']
        · rw [if_neg lbc] at h'
          simp only [decide_eq_true_eq] at h'
          rw [if_neg (by omega)]
          simpa using (by omega)
      · rw [if_neg lab] at h
        simp only [decide_eq_true_eq] at h
        have : b.types.length ≤ c.types.length := by
          by_cases lbc : b.types.length = c.types.length
          · omega
          · rw [if_neg lbc] at h'
            simp only [decide_eq_true_eq] at h'
            omega
        rw [if_neg (by omega)]
        simpa using (by omega)
    · rw [if_neg hbc] at h'
      rw [if_neg (by rw [hab]; exact hbc), hab]
      exact h'
  · rw [if_neg hab] at h
    simp only [decide_eq_true_eq] at h
    by_cases hbc : b.name = c.name
    · rw [if_neg (by rw [← hbc]; exact hab), ← hbc]
      simpa using h
    · rw [if_neg hbc] at h'
      simp only [decide_eq_true_eq] at h'
      have := String.lt_trans h h'
      rw [if_neg (by intro he; rw [he] at this; exact less_irrefl_string _ this)]
      simpa using this

/-- **C45**.  Two signatures are equivalent in the order exactly if they have the same name and the same
parameter types: distinct signatures never collide, equal ones always do. -/
theorem order_total (a b : Key) : a.less b = false ∧ b.less a = false ↔ a.name = b.name ∧ a.types = b.types := by
  constructor
  · rintro ⟨h, h'⟩
    simp only [Key.less] at h h'
    by_cases hab : a.name = b.name
    · rw [if_pos hab] at h
      rw [if_pos hab.symm] at h'
      by_cases lab : a.types.length = b.types.length
      · rw [if_pos lab] at h
        rw [if_pos lab.symm] at h'
        cases hd : firstDifference a.types b.types with
        | none => exact ⟨hab, firstDifference_none lab hd⟩
        | some r =>
          rw [hd] at h
          rw [firstDifference_swap hd] at h'
          dsimp only at h h'
          subst h
          cases h'
      · rw [if_neg lab] at h
        rw [if_neg (Ne.symm lab)] at h'
        simp only [decide_eq_false_iff_not] at h h'
        omega
    · rw [if_neg hab] at h
      rw [if_neg (Ne.symm hab)] at h'
      simp only [decide_eq_false_iff_not] at h h'
      rcases Std.lt_trichotomy a.name b.name with hlt | heq | hgt
      · exact absurd hlt h
      · exact absurd heq hab
      · exact absurd hgt h'
  · rintro ⟨h1, h2⟩
    simp [Key.less, h1, h2, firstDifference_self]

/-- Three overloads in order: fewer parameters first, then by the first type that differs. -/
example : Key.less ⟨"f", ["int"]⟩ ⟨"f", ["int", "float"]⟩ = true ∧ Key.less ⟨"f", ["int", "float"]⟩ ⟨"f", ["int", "int"]⟩ = true ∧
    Key.less ⟨"f", ["int", "int"]⟩ ⟨"g", []⟩ = true := by decide

end Methods
end Verif
