import Verif.Ints.Model

/-!
# Properties of integer arithmetic (C26, C29, C72)
-/

namespace Verif.Ints

/-! ## Specification: exact arithmetic -/

/-- The mathematical result of an operation; division by zero has none.  Quotients are rounded towards zero. -/
def exactOp (op : Op) (x y : Int) : Option Int :=
  match op with
  | .add => some (x + y)
  | .sub => some (x - y)
  | .mul => some (x * y)
  | .div => if y = 0 then none else some (x.tdiv y)
  | .mod => if y = 0 then none else some (x - y * x.tdiv y)

/-- Range of an `n`-bit signed integer. -/
def fits (bits : Nat) (i : Int) : Prop := -2 ^ (bits - 1) ≤ i ∧ i < 2 ^ (bits - 1)

/-! ## Lemmas -/

theorem cast_of_inRange {w : Width} {i : Int} (h : w.inRange i) : w.cast i = i := by
  unfold Width.cast
  apply Int.bmod_eq_of_le <;> cases w <;> simp [Width.inRange, Width.modulus] at * <;> omega

theorem cast_inRange (w : Width) (i : Int) : w.inRange (w.cast i) := by
  have h1 := Int.le_bmod (x := i) (m := w.modulus) (by cases w <;> simp [Width.modulus])
  have h2 := Int.bmod_lt (x := i) (m := w.modulus) (by cases w <;> simp [Width.modulus])
  unfold Width.cast
  cases w <;> simp [Width.inRange, Width.modulus] at * <;> omega

theorem w32_inRange {i : Int} : Width.w32.inRange i ↔ fits 32 i := by
  simp [Width.inRange, Width.modulus, fits]

theorem w64_inRange {i : Int} : Width.w64.inRange i ↔ fits 64 i := by
  simp [Width.inRange, Width.modulus, fits]

theorem fit_of {w : Width} {i : Int} (h : w.inRange i) : w.fit i = some i := if_pos h

/-- C++ arithmetic against exact arithmetic. -/
theorem cpp_spec (w : Width) (op : Op) (x y r : Int) :
    w.cpp op x y = some r ↔
      exactOp op x y = some r ∧ (op = .mod → w.inRange (x.tdiv y)) ∧ (op ≠ .mod → w.inRange r) := by
  cases op with
  | add =>
    simp only [Width.cpp, exactOp, Width.fit]
    by_cases h : w.inRange (x + y)
    · simp only [if_pos h, Option.some.injEq]
      exact ⟨fun e => ⟨e, by simp, fun _ => e ▸ h⟩, fun e => e.1⟩
    · simp only [if_neg h, Option.some.injEq]
      exact ⟨fun e => by simp at e, fun e => absurd (e.1 ▸ e.2.2 (by simp)) h⟩
  | sub =>
    simp only [Width.cpp, exactOp, Width.fit]
    by_cases h : w.inRange (x - y)
    · simp only [if_pos h, Option.some.injEq]
      exact ⟨fun e => ⟨e, by simp, fun _ => e ▸ h⟩, fun e => e.1⟩
    · simp only [if_neg h, Option.some.injEq]
      exact ⟨fun e => by simp at e, fun e => absurd (e.1 ▸ e.2.2 (by simp)) h⟩
  | mul =>
    simp only [Width.cpp, exactOp, Width.fit]
    by_cases h : w.inRange (x * y)
    · simp only [if_pos h, Option.some.injEq]
      exact ⟨fun e => ⟨e, by simp, fun _ => e ▸ h⟩, fun e => e.1⟩
    · simp only [if_neg h, Option.some.injEq]
      exact ⟨fun e => by simp at e, fun e => absurd (e.1 ▸ e.2.2 (by simp)) h⟩
  | div =>
    simp only [Width.cpp, exactOp, Width.fit]
    by_cases hy : y = 0
    · simp [hy]
    · simp only [if_neg hy]
      by_cases h : w.inRange (x.tdiv y)
      · simp only [if_pos h, Option.some.injEq]
        exact ⟨fun e => ⟨e, by simp, fun _ => e ▸ h⟩, fun e => e.1⟩
      · simp only [if_neg h, Option.some.injEq]
        exact ⟨fun e => by simp at e, fun e => absurd (e.1 ▸ e.2.2 (by simp)) h⟩
  | mod =>
    simp only [Width.cpp, exactOp]
    by_cases hy : y = 0
    · simp [hy]
    · simp only [if_neg hy]
      have e0 : x.tmod y = x - y * x.tdiv y := by have := Int.mul_tdiv_add_tmod x y; omega
      by_cases h : w.inRange (x.tdiv y)
      · simp [if_pos h, e0, h]
      · simp [if_neg h, h]

/-! ## C26 -/

/-- One operation on two 32-bit (64-bit) values: defined with result `r` exactly when `r` is the mathematical result and
fits (for the remainder: when the quotient fits, which excludes only MIN % -1). -/
theorem arith_exact_or_undefined (w : Width) (bits : Nat) (hw : (w = .w32 ∧ bits = 32) ∨ (w = .w64 ∧ bits = 64))
    (op : Op) (x y r : Int) (hx : fits bits x) (hy : fits bits y) :
    (Obj.arith ⟨w, x⟩ op ⟨w, y⟩ = some ⟨w, r⟩) ↔
      exactOp op x y = some r ∧ (op = .mod → fits bits (x.tdiv y)) ∧ (op ≠ .mod → fits bits r) := by
  have hr : ∀ i, w.inRange i ↔ fits bits i := by
    rcases hw with ⟨rfl, rfl⟩ | ⟨rfl, rfl⟩
    · exact fun i => w32_inRange
    · exact fun i => w64_inRange
  have hp : w.promoted = w := by rcases hw with ⟨rfl, -⟩ | ⟨rfl, -⟩ <;> rfl
  unfold Obj.arith
  simp only [hp, cast_of_inRange ((hr x).2 hx), cast_of_inRange ((hr y).2 hy), Option.map_eq_some_iff]
  have := cpp_spec w op x y r
  simp only [hr] at this
  rw [← this]
  constructor
  · rintro ⟨v, h, e⟩
    simp at e; rw [← e]; exact h
  · intro h; exact ⟨r, h, rfl⟩

example : fits 32 2147483647 ∧ fits 32 2 ∧ exactOp .div 2147483647 2 = some 1073741823 := by
  refine ⟨by unfold fits; omega, by unfold fits; omega, by decide⟩

/-- The undefined cases, outright: overflow of + - *, a zero divisor, and MIN divided by -1. -/
theorem arith_undefined_iff (w : Width) (bits : Nat) (hw : (w = .w32 ∧ bits = 32) ∨ (w = .w64 ∧ bits = 64))
    (op : Op) (x y : Int) (hx : fits bits x) (hy : fits bits y) :
    Obj.arith ⟨w, x⟩ op ⟨w, y⟩ = none ↔
      (op = .add ∧ ¬ fits bits (x + y)) ∨ (op = .sub ∧ ¬ fits bits (x - y)) ∨ (op = .mul ∧ ¬ fits bits (x * y)) ∨
      ((op = .div ∨ op = .mod) ∧ (y = 0 ∨ (x = -2 ^ (bits - 1) ∧ y = -1))) := by
  have hr : ∀ i, w.inRange i ↔ fits bits i := by
    rcases hw with ⟨rfl, rfl⟩ | ⟨rfl, rfl⟩
    · exact fun i => w32_inRange
    · exact fun i => w64_inRange
  have hp : w.promoted = w := by rcases hw with ⟨rfl, -⟩ | ⟨rfl, -⟩ <;> rfl
  have hdiv : y ≠ 0 → (¬ fits bits (x.tdiv y) ↔ (x = -2 ^ (bits - 1) ∧ y = -1)) := by
    intro hy0
    constructor
    · intro hn
      by_cases h1 : y = -1
      · refine ⟨?_, h1⟩
        rw [h1, Int.tdiv_neg, Int.tdiv_one] at hn
        unfold fits at *
        omega
      · exfalso
        apply hn
        have habs : (x.tdiv y).natAbs = x.natAbs / y.natAbs := Int.natAbs_tdiv x y
        by_cases h2 : y = 1
        · rw [h2, Int.tdiv_one]; exact hx
        · have hyabs : 2 ≤ y.natAbs := by omega
          have : x.natAbs / y.natAbs ≤ x.natAbs / 2 := Nat.div_le_div_left hyabs (by omega)
          have h3 : (x.tdiv y).natAbs ≤ x.natAbs / 2 := by rw [habs]; exact this
          clear habs this
          rcases hw with ⟨-, rfl⟩ | ⟨-, rfl⟩ <;> unfold fits at * <;> omega
    · rintro ⟨rfl, rfl⟩ hf
      rw [Int.tdiv_neg, Int.tdiv_one] at hf
      unfold fits at *; omega
  unfold Obj.arith
  simp only [hp, cast_of_inRange ((hr x).2 hx), cast_of_inRange ((hr y).2 hy), Option.map_eq_none_iff]
  cases op with
  | add => simp [Width.cpp, Width.fit, hr]
  | sub => simp [Width.cpp, Width.fit, hr]
  | mul => simp [Width.cpp, Width.fit, hr]
  | div =>
    by_cases hy0 : y = 0
    · simp [Width.cpp, hy0]
    · simp [Width.cpp, hy0, Width.fit, hr, hdiv hy0]
  | mod =>
    by_cases hy0 : y = 0
    · simp [Width.cpp, hy0]
    · simp [Width.cpp, hy0, hr, hdiv hy0]

/-- Exact evaluation of a whole expression; `none` if some intermediate result has no value or does not fit. -/
def exactEval (bits : Nat) (env : Nat → Int) : Expr → Option Int
  | .lit i => some i
  | .var n => some (env n)
  | .neg e => (exactEval bits env e).bind fun x => if -2 ^ (bits - 1) ≤ -x ∧ -x < 2 ^ (bits - 1) then some (-x) else none
  | .bin op l r => (exactEval bits env l).bind fun x => (exactEval bits env r).bind fun y =>
      (exactOp op x y).bind fun z =>
        if (if op = .mod then -2 ^ (bits - 1) ≤ x.tdiv y ∧ x.tdiv y < 2 ^ (bits - 1)
            else -2 ^ (bits - 1) ≤ z ∧ z < 2 ^ (bits - 1)) then some z else none

/-- Literals and variables are values of the type. -/
def Expr.WellRanged (bits : Nat) (env : Nat → Int) : Expr → Prop
  | .lit i => fits bits i
  | .var n => fits bits (env n)
  | .neg e => e.WellRanged bits env
  | .bin _ l r => l.WellRanged bits env ∧ r.WellRanged bits env

/-- Whole expressions of any depth: the computed value is the exact one, and evaluation is undefined exactly when some
intermediate result does not exist or does not fit. -/
theorem eval_exact_or_undefined (w : Width) (bits : Nat) (hw : (w = .w32 ∧ bits = 32) ∨ (w = .w64 ∧ bits = 64))
    (env : Nat → Int) (e : Expr) (h : e.WellRanged bits env) :
    e.eval w env = (exactEval bits env e).map (Obj.mk w) ∧ ∀ v, exactEval bits env e = some v → fits bits v := by
  induction e with
  | lit i => exact ⟨rfl, fun v hv => by simp [exactEval] at hv; rw [← hv]; exact h⟩
  | var n => exact ⟨rfl, fun v hv => by simp [exactEval] at hv; rw [← hv]; exact h⟩
  | neg e ih =>
    obtain ⟨ih1, ih2⟩ := ih h
    simp only [Expr.eval, exactEval, ih1]
    cases hx : exactEval bits env e with
    | none => exact ⟨rfl, by simp⟩
    | some x =>
      have hfx := ih2 x hx
      simp only [Option.map_some, Option.bind_some]
      have hm : Obj.minus ⟨w, x⟩ = Obj.arith ⟨w, x⟩ .mul ⟨w, -1⟩ := by
        have : w.cast (-1) = -1 := by rcases hw with ⟨rfl, -⟩ | ⟨rfl, -⟩ <;> decide
        simp only [Obj.minus, Obj.arith, this]
      have h1 : fits bits (-1) := by rcases hw with ⟨-, rfl⟩ | ⟨-, rfl⟩ <;> unfold fits <;> decide
      by_cases hr : -2 ^ (bits - 1) ≤ -x ∧ -x < 2 ^ (bits - 1)
      · rw [if_pos hr, hm]
        refine ⟨(arith_exact_or_undefined w bits hw .mul x (-1) (-x) hfx h1).2 ⟨?_, by simp, fun _ => hr⟩, ?_⟩
        · show some (x * -1) = some (-x); congr 1; omega
        · intro v hv; simp at hv; rw [← hv]; exact hr
      · rw [if_neg hr, hm]
        refine ⟨?_, by simp⟩
        rw [Option.map_none, arith_undefined_iff w bits hw .mul x (-1) hfx h1]
        right; right; left
        refine ⟨rfl, fun hf => hr ?_⟩
        unfold fits at hf
        rw [show x * -1 = -x by omega] at hf
        exact hf
  | bin op l r ihl ihr =>
    obtain ⟨il1, il2⟩ := ihl h.1
    obtain ⟨ir1, ir2⟩ := ihr h.2
    simp only [Expr.eval, exactEval, il1, ir1]
    cases hx : exactEval bits env l with
    | none => exact ⟨rfl, by simp⟩
    | some x =>
      cases hy : exactEval bits env r with
      | none => exact ⟨rfl, by simp⟩
      | some y =>
        have hfx := il2 x hx
        have hfy := ir2 y hy
        simp only [Option.map_some, Option.bind_some]
        cases hz : exactOp op x y with
        | none =>
          refine ⟨?_, by simp⟩
          cases ha : Obj.arith ⟨w, x⟩ op ⟨w, y⟩ with
          | none => rfl
          | some o =>
            exfalso
            have ho : o = ⟨w, o.stored⟩ := by
              unfold Obj.arith at ha
              rw [Option.map_eq_some_iff] at ha
              obtain ⟨v, -, rfl⟩ := ha; rfl
            rw [ho] at ha
            have := ((arith_exact_or_undefined w bits hw op x y o.stored hfx hfy).1 ha).1
            rw [hz] at this; simp at this
        | some z =>
          simp only [Option.bind_some]
          by_cases hc : (if op = .mod then -2 ^ (bits - 1) ≤ x.tdiv y ∧ x.tdiv y < 2 ^ (bits - 1)
            else -2 ^ (bits - 1) ≤ z ∧ z < 2 ^ (bits - 1))
          · rw [if_pos hc]
            constructor
            · refine (arith_exact_or_undefined w bits hw op x y z hfx hfy).2 ⟨hz, ?_, ?_⟩
              · intro ho; rw [if_pos ho] at hc; exact hc
              · intro ho; rw [if_neg ho] at hc; exact hc
            · intro v hv
              simp at hv; subst hv
              by_cases ho : op = .mod
              · subst ho
                simp only [exactOp] at hz
                split at hz
                · simp at hz
                · rename_i hy0
                  simp at hz
                  have e0 : x.tmod y = z := by have := Int.mul_tdiv_add_tmod x y; omega
                  have hab : (x.tmod y).natAbs = x.natAbs % y.natAbs := Int.natAbs_tmod x y
                  have hlt : x.natAbs % y.natAbs < y.natAbs := Nat.mod_lt _ (by omega)
                  have hle : x.natAbs % y.natAbs ≤ x.natAbs := Nat.mod_le _ _
                  rw [← e0]
                  unfold fits at *; omega
              · rw [if_neg ho] at hc; exact hc
          · rw [if_neg hc]
            refine ⟨?_, by simp⟩
            cases ha : Obj.arith ⟨w, x⟩ op ⟨w, y⟩ with
            | none => rfl
            | some o =>
              exfalso
              have ho : o = ⟨w, o.stored⟩ := by
                unfold Obj.arith at ha
                rw [Option.map_eq_some_iff] at ha
                obtain ⟨v, -, rfl⟩ := ha; rfl
              rw [ho] at ha
              obtain ⟨h1, h2, h3⟩ := (arith_exact_or_undefined w bits hw op x y o.stored hfx hfy).1 ha
              rw [hz] at h1
              simp at h1
              apply hc
              split
              · rename_i hop; exact h2 hop
              · rename_i hop; rw [h1]; exact h3 hop

example : (Expr.bin .mul (.bin .sub (.lit 7) (.var 0)) (.lit 100000)).WellRanged 32 (fun _ => 3) ∧
    (Expr.bin .mul (.bin .sub (.lit 7) (.var 0)) (.lit 100000)).eval .w32 (fun _ => 3) = some ⟨.w32, 400000⟩ := by
  refine ⟨⟨⟨by simp [Expr.WellRanged, fits], by simp [Expr.WellRanged, fits]⟩, by simp [Expr.WellRanged, fits]⟩, by decide⟩

/-- With operands of different widths the claim fails: the wider right operand is silently truncated. -/
theorem mixed_width_arith_refuted :
    ¬ ∀ (x y : Int), fits 32 x → fits 64 y → ∀ o, Obj.arith ⟨.w32, x⟩ .add ⟨.w64, y⟩ = some o → o.stored = x + y := by
  intro h
  exact absurd (h 1 4294967296 (by unfold fits; omega) (by unfold fits; omega) ⟨.w32, 1⟩ (by decide)) (by decide)

/-! ## C72: comparisons -/

/-- Comparing values of the same width compares the numbers. -/
theorem compare_same_width (w : Width) (x y : Int) (hx : w.inRange x) (hy : w.inRange y) :
    (Obj.equal ⟨w, x⟩ ⟨w, y⟩ = true ↔ x = y) ∧ (Obj.less ⟨w, x⟩ ⟨w, y⟩ = true ↔ x < y) ∧
    (Obj.lessEqual ⟨w, x⟩ ⟨w, y⟩ = true ↔ x ≤ y) ∧ (Obj.greater ⟨w, x⟩ ⟨w, y⟩ = true ↔ y < x) ∧
    (Obj.greaterEqual ⟨w, x⟩ ⟨w, y⟩ = true ↔ y ≤ x) := by
  simp [Obj.equal, Obj.less, Obj.lessEqual, Obj.greater, Obj.greaterEqual, cast_of_inRange hx, cast_of_inRange hy]

example : Width.w64.inRange 4294967296 := by decide

/-- A narrower right operand is compared exactly as well. -/
theorem compare_wider_left (w w' : Width) (x y : Int) (hle : w'.modulus ≤ w.modulus) (hx : w.inRange x) (hy : w'.inRange y) :
    (Obj.equal ⟨w, x⟩ ⟨w', y⟩ = true ↔ x = y) ∧ (Obj.less ⟨w, x⟩ ⟨w', y⟩ = true ↔ x < y) ∧
    (Obj.lessEqual ⟨w, x⟩ ⟨w', y⟩ = true ↔ x ≤ y) ∧ (Obj.greater ⟨w, x⟩ ⟨w', y⟩ = true ↔ y < x) ∧
    (Obj.greaterEqual ⟨w, x⟩ ⟨w', y⟩ = true ↔ y ≤ x) := by
  have hy' : w.inRange y := by
    have : w'.modulus / 2 ≤ w.modulus / 2 := Nat.div_le_div_right hle
    unfold Width.inRange at *; omega
  exact compare_same_width w x y hx hy'

/-- With a wider right operand the comparison is wrong: 0 and 4294967296 compare as equal. -/
theorem compare_wider_right_refuted :
    ¬ ∀ (x y : Int), Width.w32.inRange x → Width.w64.inRange y → (Obj.equal ⟨.w32, x⟩ ⟨.w64, y⟩ = true ↔ x = y) := by
  intro h
  exact absurd ((h 0 4294967296 (by decide) (by decide)).1 (by decide)) (by decide)

/-! ## C29: 16-bit arithmetic -/

/-- The range claim fails: after `x = 32767; x++;` the variable holds 32768. -/
theorem int16_range_refuted :
    ¬ ∀ (ss : List Stmt) (env : Nat → Int), execAll .w16 (fun _ => 0) ss = some env → ∀ x, Width.w16.inRange (env x) := by
  intro h
  have := h [.assign 0 (.lit 32767), .inc 0] (fun n => if n = 0 then 32768 else if n = 0 then 32767 else 0) rfl 0
  exact absurd this (by decide)

/-- Negating a value of the type gives 1 for 0 and 0 for every other number. -/
theorem not_exact (w : Width) (x : Int) (hx : w.inRange x) :
    (Obj.not ⟨w, x⟩).width = w ∧ (Obj.equal (Obj.not ⟨w, x⟩) ⟨w, 1⟩ = true ↔ x = 0) ∧
      (Obj.equal (Obj.not ⟨w, x⟩) ⟨w, 0⟩ = true ↔ x ≠ 0) := by
  have h0 : w.cast 0 = 0 := cast_of_inRange (by cases w <;> decide)
  have h1 : w.cast 1 = 1 := cast_of_inRange (by cases w <;> decide)
  refine ⟨rfl, ?_, ?_⟩ <;> by_cases hx0 : x = 0 <;> simp [Obj.not, Obj.equal, hx0, h0, h1]

/-- After `x = 256 * 256` a 16-bit `x` equals 0, but its negation is 0 as well: `!x` looks at more than 16 bits. -/
theorem int16_not_refuted : ∃ o, Obj.arith ⟨.w16, 256⟩ .mul ⟨.w16, 256⟩ = some o ∧ Obj.equal o ⟨.w16, 0⟩ = true ∧
    Obj.equal o.not ⟨.w16, 0⟩ = true := ⟨⟨.w16, 65536⟩, by decide, by decide, by decide⟩

example : Width.w16.inRange 300 ∧ (Obj.not ⟨.w16, 300⟩).stored = 0 := by decide

/-- Ring expressions: no division. -/
def Expr.Ring : Expr → Prop
  | .lit _ => True
  | .var _ => True
  | .neg e => e.Ring
  | .bin op l r => (op = .add ∨ op = .sub ∨ op = .mul) ∧ l.Ring ∧ r.Ring

/-- The value of a ring expression in the integers. -/
def Expr.ringVal (env : Nat → Int) : Expr → Int
  | .lit i => i
  | .var n => env n
  | .neg e => -(e.ringVal env)
  | .bin .add l r => l.ringVal env + r.ringVal env
  | .bin .sub l r => l.ringVal env - r.ringVal env
  | .bin .mul l r => l.ringVal env * r.ringVal env
  | .bin _ _ _ => 0

theorem cast16_emod (i : Int) : Width.w16.cast i % 65536 = i % 65536 := by
  unfold Width.cast Width.modulus
  have := Int.bmod_emod (x := i) (m := 65536)
  simpa using this

theorem mul16_fit {x y : Int} (hx : Width.w16.inRange x) (hy : Width.w16.inRange y) : Width.w32.inRange (x * y) := by
  simp [Width.inRange, Width.modulus] at *
  have h : (x * y).natAbs ≤ 32768 * 32768 := by
    rw [Int.natAbs_mul]
    exact Nat.mul_le_mul (by omega) (by omega)
  omega

/-- The evaluation of a ring expression on 16-bit objects is always defined and congruent to the exact value modulo
2^16, for all stored values. -/
theorem int16_eval_mod (env : Nat → Int) (e : Expr) (h : e.Ring) :
    ∃ v, e.eval .w16 env = some ⟨.w16, v⟩ ∧ v % 65536 = e.ringVal env % 65536 := by
  induction e with
  | lit i => exact ⟨i, rfl, rfl⟩
  | var n => exact ⟨env n, rfl, rfl⟩
  | neg e ih =>
    obtain ⟨v, hv, hm⟩ := ih h
    have hc := cast_inRange .w16 v
    have hf : Width.w32.inRange (Width.w16.cast v * -1) := mul16_fit hc (by decide)
    refine ⟨Width.w16.cast v * -1, ?_, ?_⟩
    · simp only [Expr.eval, hv, Option.bind_some, Obj.minus, Width.promoted, Width.cpp, fit_of hf, Option.map_some]
    · have := cast16_emod v
      simp only [Expr.ringVal]; omega
  | bin op l r ihl ihr =>
    obtain ⟨ho, hl, hr⟩ := h
    obtain ⟨a, ha, hma⟩ := ihl hl
    obtain ⟨b, hb, hmb⟩ := ihr hr
    have hca := cast_inRange .w16 a
    have hcb := cast_inRange .w16 b
    have ea := cast16_emod a
    have eb := cast16_emod b
    simp only [Expr.eval, ha, hb, Option.bind_some, Obj.arith, Width.promoted]
    rcases ho with rfl | rfl | rfl
    · have hf : Width.w32.inRange (Width.w16.cast a + Width.w16.cast b) := by
        simp [Width.inRange, Width.modulus] at *; omega
      refine ⟨_, by simp only [Width.cpp, fit_of hf, Option.map_some]; rfl, ?_⟩
      simp only [Expr.ringVal]; omega
    · have hf : Width.w32.inRange (Width.w16.cast a - Width.w16.cast b) := by
        simp [Width.inRange, Width.modulus] at *; omega
      refine ⟨_, by simp only [Width.cpp, fit_of hf, Option.map_some]; rfl, ?_⟩
      simp only [Expr.ringVal]; omega
    · have hf : Width.w32.inRange (Width.w16.cast a * Width.w16.cast b) := mul16_fit hca hcb
      refine ⟨_, by simp only [Width.cpp, fit_of hf, Option.map_some]; rfl, ?_⟩
      simp only [Expr.ringVal]
      rw [Int.mul_emod, ea, eb, hma, hmb, ← Int.mul_emod]

/-- Exact execution of statements over the integers (no wrap). -/
def exactExec (env : Nat → Int) : Stmt → (Nat → Int)
  | .assign x e => fun n => if n = x then e.ringVal env else env n
  | .inc x => fun n => if n = x then env x + 1 else env n
  | .dec x => fun n => if n = x then env x - 1 else env n

theorem ringVal_congr (e : Expr) (h : e.Ring) (env env' : Nat → Int) (hc : ∀ n, env n % 65536 = env' n % 65536) :
    e.ringVal env % 65536 = e.ringVal env' % 65536 := by
  induction e with
  | lit i => rfl
  | var n => exact hc n
  | neg e ih => have := ih h; simp only [Expr.ringVal]; omega
  | bin op l r ihl ihr =>
    obtain ⟨ho, hl, hr⟩ := h
    have h1 := ihl hl
    have h2 := ihr hr
    rcases ho with rfl | rfl | rfl
    · simp only [Expr.ringVal]; omega
    · simp only [Expr.ringVal]; omega
    · simp only [Expr.ringVal]; rw [Int.mul_emod, h1, h2, ← Int.mul_emod]

/-- C29, the part that holds: any sequence of assignments of ring expressions, increments and decrements is defined,
and every variable is congruent modulo 2^16 to what exact arithmetic gives; a variable that was last written by an
assignment is in range.  Missing: the range after `++`/`--` (refuted above), and `/`, `%` (not compatible with mod 2^16). -/
theorem int16_sequence_mod_partial (ss : List Stmt) (hring : ∀ x e, Stmt.assign x e ∈ ss → e.Ring)
    (env exact : Nat → Int) (h0 : ∀ n, env n % 2 ^ 16 = exact n % 2 ^ 16) :
    ∃ env', execAll .w16 env ss = some env' ∧
      ∀ n, env' n % 2 ^ 16 = (ss.foldl exactExec exact) n % 2 ^ 16 := by
  induction ss generalizing env exact with
  | nil => exact ⟨env, rfl, h0⟩
  | cons s ss ih =>
    have step : ∃ env1, s.exec .w16 env = some env1 ∧ ∀ n, env1 n % 2 ^ 16 = (exactExec exact s) n % 2 ^ 16 := by
      cases s with
      | assign x e =>
        have hr := hring x e (by simp)
        obtain ⟨v, hv, hm⟩ := int16_eval_mod env e hr
        refine ⟨_, by simp only [Stmt.exec, hv, Option.map_some]; rfl, fun n => ?_⟩
        simp only [exactExec, Obj.assign]
        by_cases hn : n = x
        · rw [if_pos hn, if_pos hn]
          have h1 := cast16_emod v
          have h2 := ringVal_congr e hr env exact h0
          omega
        · rw [if_neg hn, if_neg hn]; exact h0 n
      | inc x =>
        have hc := cast_inRange .w16 (env x)
        have hf : Width.w32.inRange (Width.w16.cast (env x) + 1) := by
          simp [Width.inRange, Width.modulus] at *; omega
        refine ⟨_, by simp only [Stmt.exec, Obj.increment, Width.promoted, Width.cpp, fit_of hf, Option.map_some]; rfl,
          fun n => ?_⟩
        simp only [exactExec]
        by_cases hn : n = x
        · rw [if_pos hn, if_pos hn]
          have h1 := cast16_emod (env x)
          have h2 := h0 x
          omega
        · rw [if_neg hn, if_neg hn]; exact h0 n
      | dec x =>
        have hc := cast_inRange .w16 (env x)
        have hf : Width.w32.inRange (Width.w16.cast (env x) - 1) := by
          simp [Width.inRange, Width.modulus] at *; omega
        refine ⟨_, by simp only [Stmt.exec, Obj.decrement, Width.promoted, Width.cpp, fit_of hf, Option.map_some]; rfl,
          fun n => ?_⟩
        simp only [exactExec]
        by_cases hn : n = x
        · rw [if_pos hn, if_pos hn]
          have h1 := cast16_emod (env x)
          have h2 := h0 x
          omega
        · rw [if_neg hn, if_neg hn]; exact h0 n
    obtain ⟨env1, h1, h2⟩ := step
    obtain ⟨env2, h3, h4⟩ := ih (fun x e hm => hring x e (by simp [hm])) env1 (exactExec exact s) h2
    exact ⟨env2, by simp only [execAll, h1, Option.bind_some, h3], h4⟩

example : ∃ env', execAll .w16 (fun _ => 0) [.assign 0 (.bin .mul (.lit 300) (.lit 300)), .inc 0] = some env' ∧ env' 0 = 24465 :=
  ⟨_, rfl, by decide⟩

/-- Assignment always leaves a 16-bit value (and, for the other types, a value of the type). -/
theorem assign_inRange (w : Width) (x v : Int) (w' : Width) : w.inRange ((Obj.mk w x).assign ⟨w', v⟩).stored :=
  cast_inRange w v

/-- Assignment of a value that fits stores exactly that value. -/
theorem assign_exact (w : Width) (x v : Int) (w' : Width) (h : w.inRange v) : ((Obj.mk w x).assign ⟨w', v⟩).stored = v :=
  cast_of_inRange h

end Verif.Ints
