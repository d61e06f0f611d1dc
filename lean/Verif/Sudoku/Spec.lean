/-
What a Sudoku is, independently of the solver.

A grid has n = r * r columns and lines, numbered from 1; `g x y` is the number in column x of line y.
Two places see each other when they share the line, the column or the r-by-r box.
-/
namespace Verif.Sudoku

/-- `1 ≤ x ≤ n` and `1 ≤ y ≤ n`: a place of the grid. -/
def Inside (r x y : Nat) : Prop := 1 ≤ x ∧ x ≤ r * r ∧ 1 ≤ y ∧ y ≤ r * r

/-- The two places share a line, a column or a box. -/
def Sees (r x y x' y' : Nat) : Prop :=
  y = y' ∨ x = x' ∨ ((x - 1) / r = (x' - 1) / r ∧ (y - 1) / r = (y' - 1) / r)

/-- A finished grid: every place has a number from 1 to n, and different places that see each other
have different numbers. -/
def Solution (r : Nat) (g : Nat → Nat → Int) : Prop :=
  (∀ x y, Inside r x y → 1 ≤ g x y ∧ g x y ≤ (r * r : Nat)) ∧
  (∀ x y x' y', Inside r x y → Inside r x' y' → (x, y) ≠ (x', y') → Sees r x y x' y' → g x y ≠ g x' y')

/-- An unfinished grid obeying the rules: 0 marks an empty place, all other numbers are from 1 to n, and
no two different places that see each other have the same number. -/
def Lawful (r : Nat) (g : Nat → Nat → Int) : Prop :=
  (∀ x y, Inside r x y → 0 ≤ g x y ∧ g x y ≤ (r * r : Nat)) ∧
  (∀ x y x' y', Inside r x y → Inside r x' y' → (x, y) ≠ (x', y') → Sees r x y x' y' →
    g x y ≠ 0 → g x y ≠ g x' y')

/-- The grid `s` fills `g`: it has every number `g` has. -/
def Fills (r : Nat) (g s : Nat → Nat → Int) : Prop :=
  ∀ x y, Inside r x y → g x y ≠ 0 → s x y = g x y

/-- Every place has a number. -/
def Full (r : Nat) (g : Nat → Nat → Int) : Prop := ∀ x y, Inside r x y → g x y ≠ 0

end Verif.Sudoku
