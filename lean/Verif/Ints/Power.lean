import Verif.Ints.Props

/-!
# `Math.power` and `Math.sqr` for integers (C167)
-/

namespace Verif.Ints

/-- The loop of `power( int, int )` (`Library/System/Math/Functions.os:44-47`); the outer `none`: the rounds do not
suffice, the inner `none`: an operation was undefined. -/
def powerLoop : Nat → Obj → Obj → Obj → Option (Option Obj)
  | 0, _, _, _ => none
  | rounds + 1, result, value, exp =>
    if exp.greater ⟨.w32, 1⟩ then
      match result.arith .mul value, exp.arith .sub ⟨.w32, 1⟩ with
      | some result', some exp' => powerLoop rounds result' value exp'
      | _, _ => some none
    else some (some result)

/-- `power( int, int )` (`Library/System/Math/Functions.os:41-50`): the arguments are given by value. -/
def power (rounds : Nat) (value exp : Int) : Option (Option Obj) :=
  powerLoop rounds ⟨.w32, value⟩ ⟨.w32, value⟩ ⟨.w32, exp⟩

/-- `power( int )` (`Library/System/Math/Functions.os:37-39`). -/
def powerOne (value : Int) : Option Obj := Obj.arith ⟨.w32, value⟩ .mul ⟨.w32, value⟩

/-- `sqr( int )` (`Library/System/Math/Functions.os:60-62`). -/
def sqr (rounds : Nat) (value : Int) : Option (Option Obj) := power rounds value 2

/-! ## Proofs -/

theorem fits_smaller_power {v : Int} {n : Nat} (hn : 1 ≤ n) (h : fits 32 (v ^ (n + 1))) : fits 32 (v ^ n) := by
  have habs : ∀ m, (v ^ m).natAbs = v.natAbs ^ m := fun m => Int.natAbs_pow v m
  have h1 := habs n
  have h2 := habs (n + 1)
  rw [Nat.pow_succ, ← h1] at h2
  unfold fits at *
  by_cases hv : v.natAbs ≤ 1
  · have : v.natAbs ^ n ≤ 1 := Nat.pow_le_one_iff (by omega) |>.2 hv
    omega
  · have : (v ^ n).natAbs * 2 ≤ (v ^ n).natAbs * v.natAbs := Nat.mul_le_mul_left _ (by omega)
    omega

theorem fits_smaller_powers {v : Int} {n : Nat} (hn : 1 ≤ n) : ∀ k, fits 32 (v ^ (n + k)) → fits 32 (v ^ n)
  | 0, h => h
  | k + 1, h => fits_smaller_powers hn k (fits_smaller_power (by omega) h)

theorem powerLoop_next {rounds : Nat} {result value exp result' exp' : Obj} (hg : exp.greater ⟨.w32, 1⟩ = true)
    (hm : result.arith .mul value = some result') (hs : exp.arith .sub ⟨.w32, 1⟩ = some exp') :
    powerLoop (rounds + 1) result value exp = powerLoop rounds result' value exp' := by
  rw [powerLoop, if_pos hg, hm, hs]

theorem powerLoop_undefined {rounds : Nat} {result value exp exp' : Obj} (hg : exp.greater ⟨.w32, 1⟩ = true)
    (hm : result.arith .mul value = none) (hs : exp.arith .sub ⟨.w32, 1⟩ = some exp') :
    powerLoop (rounds + 1) result value exp = some none := by
  rw [powerLoop, if_pos hg, hm, hs]

theorem powerLoop_spec (v : Int) (hv : fits 32 v) : ∀ (m rounds k : Nat), 1 ≤ k → fits 32 (v ^ k) → m < rounds → fits 32 (m + 1) →
    (fits 32 (v ^ (k + m)) → powerLoop rounds ⟨.w32, v ^ k⟩ ⟨.w32, v⟩ ⟨.w32, m + 1⟩ = some (some ⟨.w32, v ^ (k + m)⟩)) ∧
    (¬ fits 32 (v ^ (k + m)) → powerLoop rounds ⟨.w32, v ^ k⟩ ⟨.w32, v⟩ ⟨.w32, m + 1⟩ = some none) := by
  have hw : ((Width.w32 = .w32 ∧ 32 = 32) ∨ (Width.w32 = .w64 ∧ 32 = 64)) := Or.inl ⟨rfl, rfl⟩
  have h1 : fits 32 (1 : Int) := by unfold fits; omega
  intro m
  induction m with
  | zero =>
    intro rounds k hk hf hr _
    obtain ⟨rounds, rfl⟩ : ∃ r, rounds = r + 1 := ⟨rounds - 1, by omega⟩
    have hg : Obj.greater ⟨.w32, ((0 : Nat) : Int) + 1⟩ ⟨.w32, 1⟩ = false := by
      simp only [Obj.greater, Int.natCast_zero, Int.zero_add, gt_iff_lt, Int.lt_irrefl, decide_false]
    constructor
    · intro _; simp only [powerLoop, hg, Nat.add_zero, Bool.false_eq_true, if_false]
    · intro h; exact absurd hf h
  | succ m ih =>
    intro rounds k hk hf hr hm
    obtain ⟨rounds, rfl⟩ : ∃ r, rounds = r + 1 := ⟨rounds - 1, by omega⟩
    have hm' : fits 32 ((m : Int) + 1) := by unfold fits at hm ⊢; omega
    have hg : Obj.greater ⟨.w32, ((m + 1 : Nat) : Int) + 1⟩ ⟨.w32, 1⟩ = true := by
      simp only [Obj.greater, cast_of_inRange (w32_inRange.2 hm), cast_of_inRange (w32_inRange.2 h1)]
      simp only [gt_iff_lt, decide_eq_true_eq]; omega
    have hsub : Obj.arith ⟨.w32, ((m + 1 : Nat) : Int) + 1⟩ .sub ⟨.w32, 1⟩ = some ⟨.w32, (m : Int) + 1⟩ := by
      rw [arith_exact_or_undefined .w32 32 hw .sub _ _ _ hm h1]
      exact ⟨by simp only [exactOp, Option.some.injEq]; omega, by simp, fun _ => hm'⟩
    have hall : k + (m + 1) = (k + 1) + m := by omega
    by_cases hnext : fits 32 (v ^ (k + 1))
    · have hmul : Obj.arith ⟨.w32, v ^ k⟩ .mul ⟨.w32, v⟩ = some ⟨.w32, v ^ (k + 1)⟩ := by
        rw [arith_exact_or_undefined .w32 32 hw .mul _ _ _ hf hv]
        exact ⟨by simp only [exactOp]; rw [Int.pow_succ], by simp, fun _ => hnext⟩
      rw [powerLoop_next hg hmul hsub, hall]
      exact ih rounds (k + 1) (by omega) hnext (by omega) hm'
    · have hmul : Obj.arith ⟨.w32, v ^ k⟩ .mul ⟨.w32, v⟩ = none := by
        rw [arith_undefined_iff .w32 32 hw .mul _ _ hf hv]
        refine Or.inr (Or.inr (Or.inl ⟨rfl, ?_⟩))
        rw [← Int.pow_succ]; exact hnext
      constructor
      · intro h
        rw [hall] at h
        exact absurd (fits_smaller_powers (by omega) m h) hnext
      · intro _
        exact powerLoop_undefined hg hmul hsub

/-! ## C167 -/

/-- `power( value, exp )` is the power, whenever it fits an `int`; when it does not, an operation is undefined.
`_partial`: the exponent is at least 1. -/
theorem power_is_the_power_partial (v : Int) (n rounds : Nat) (hv : fits 32 v) (hn : 1 ≤ n) (he : fits 32 n) (hr : n < rounds) :
    (fits 32 (v ^ n) → power rounds v n = some (some ⟨.w32, v ^ n⟩)) ∧
    (¬ fits 32 (v ^ n) → power rounds v n = some none) := by
  obtain ⟨m, rfl⟩ : ∃ m, n = 1 + m := ⟨n - 1, by omega⟩
  have h := powerLoop_spec v hv m rounds 1 (by omega) (by rw [Int.pow_one]; exact hv) (by omega) (by unfold fits at *; omega)
  rw [Int.pow_one] at h
  unfold power
  rw [show (((1 + m : Nat)) : Int) = (m : Int) + 1 by omega]
  exact h

example : power 6 (-3) 5 = some (some ⟨.w32, -243⟩) ∧ power 33 2 31 = some none ∧
    power 33 (-2) 31 = some (some ⟨.w32, -2147483648⟩) ∧ fits 32 ((-2) ^ 31) ∧ ¬ fits 32 ((2 : Int) ^ 31) := by
  refine ⟨by decide, by decide, by decide, ?_, ?_⟩ <;> unfold fits <;> decide

/-- **Refuted**: for an exponent below 1 the value itself is returned, also for 0, where the power is 1. -/
theorem power_small_exponent_refuted (v e : Int) (rounds : Nat) (he : fits 32 e) (h : e ≤ 0) :
    power (rounds + 1) v e = some (some ⟨.w32, v⟩) := by
  have hg : Obj.greater ⟨.w32, e⟩ ⟨.w32, 1⟩ = false := by
    simp only [Obj.greater, cast_of_inRange (w32_inRange.2 he),
      cast_of_inRange (w32_inRange.2 (show fits 32 (1 : Int) by unfold fits; omega))]
    simp only [gt_iff_lt, decide_eq_false_iff_not]; omega
  simp only [power, powerLoop, hg]
  rfl

example : power 1 7 0 = some (some ⟨.w32, 7⟩) ∧ (7 : Int) ^ 0 = 1 ∧ fits 32 (0 : Int) :=
  ⟨by decide, by decide, by unfold fits; omega⟩

/-- `power( value )` and `sqr( value )` are the square, or both undefined. -/
theorem squares (v : Int) (hv : fits 32 v) (rounds : Nat) (hr : 2 < rounds) :
    (fits 32 (v * v) → powerOne v = some ⟨.w32, v * v⟩ ∧ sqr rounds v = some (some ⟨.w32, v * v⟩)) ∧
    (¬ fits 32 (v * v) → powerOne v = none ∧ sqr rounds v = some none) := by
  have hw : ((Width.w32 = .w32 ∧ 32 = 32) ∨ (Width.w32 = .w64 ∧ 32 = 64)) := Or.inl ⟨rfl, rfl⟩
  have h := power_is_the_power_partial v 2 rounds hv (by omega) (by unfold fits; omega) hr
  have h2 : v ^ 2 = v * v := by rw [Int.pow_succ, Int.pow_one]
  rw [h2] at h
  refine ⟨fun hf => ⟨?_, h.1 hf⟩, fun hf => ⟨?_, h.2 hf⟩⟩
  · unfold powerOne
    rw [arith_exact_or_undefined .w32 32 hw .mul _ _ _ hv hv]
    exact ⟨rfl, by simp, fun _ => hf⟩
  · unfold powerOne
    rw [arith_undefined_iff .w32 32 hw .mul _ _ hv hv]
    exact Or.inr (Or.inr (Or.inl ⟨rfl, hf⟩))

example : powerOne (-46340) = some ⟨.w32, 2147395600⟩ ∧ powerOne 46341 = none := by decide

end Verif.Ints
