import Verif.Types.Model

/-!
# What the type system should do, stated on the history of registrations
-/

namespace Verif.Types

/-- The first registration in a history that is about `l op r`. -/
def firstAbout (l : TName) (o : Op) (r : TName) (rs : List Reg) : Option TName :=
  (rs.find? fun x => x.left = l ∧ x.op = o ∧ x.right = r).map Reg.result

/-- Some registration is about the left type `l`. -/
def KnowsType (l : TName) (rs : List Reg) : Prop := ∃ x ∈ rs, x.left = l

/-- Some registration is about the operation `o` on the left type `l`. -/
def KnowsOp (l : TName) (o : Op) (rs : List Reg) : Prop := ∃ x ∈ rs, x.left = l ∧ x.op = o

/-- Some registration is about `l op r`. -/
def KnowsAll (l : TName) (o : Op) (r : TName) (rs : List Reg) : Prop := ∃ x ∈ rs, x.left = l ∧ x.op = o ∧ x.right = r

/-- The built-in types that have values a program can compute with. -/
def atomic : List BT := [.bool, .double, .float, .int16, .int32, .int64, .string]

/-- The arithmetic operations. -/
def arithmetic : List Op := [.MATH_ADDITION, .MATH_SUBTRACT, .MATH_MULTIPLY, .MATH_DIVIDE, .MATH_MODULO]

/-- Every operation. -/
def allOps : List Op :=
  [.AND, .ASSIGN, .BITAND, .BITCOMPLEMENT, .BITOR, .COMPARE_EQUAL, .COMPARE_EQUAL_CONTENT, .COMPARE_GREATER,
   .COMPARE_GREATER_EQUAL, .COMPARE_LESS, .COMPARE_LESS_EQUAL, .COMPARE_UNEQUAL, .MATH_ADDITION, .MATH_DIVIDE,
   .MATH_MODULO, .MATH_MULTIPLY, .MATH_SUBTRACT, .NAND, .NOR, .OPERATOR_DECREMENT, .OPERATOR_INCREMENT,
   .OPERATOR_SHIFT_LEFT, .OPERATOR_SHIFT_RIGHT, .OR, .TYPECAST]

/-- Every built-in type name. -/
def allBT : List BT := [.bool, .double, .float, .int16, .int32, .int64, .object, .string, .unary, .void]

theorem mem_allOps (o : Op) : o ∈ allOps := by cases o <;> decide
theorem mem_allBT (t : BT) : t ∈ allBT := by cases t <;> decide

end Verif.Types
