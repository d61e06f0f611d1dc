import Verif.Names.Model
import Verif.Scope.Spec

/-!
# What qualified names should mean

A small specification: how names are spelled, which scopes hold the members of a thing, and which things are const.
-/

namespace Verif
namespace Names

open Scope (Vis Sym Meth Decl Kind Scope Res Declares)

/-- The tokens of `n₁.n₂.….nₖ` followed by `rest`. -/
def spell : List String → List Tok → List Tok
  | [], rest => rest
  | [n], rest => .word n :: rest
  | n :: m :: ns, rest => .word n :: .dot :: spell (m :: ns) rest

/-- The name ends here: another token follows, and it is no dot. -/
def Ends (rest : List Tok) : Prop := ∃ t r, rest = t :: r ∧ t ≠ .dot

/-- A class and its base classes. -/
def bases : Scope → List Scope
  | .null => []
  | .mk k L E M X b p => .mk k L E M X b p :: bases b

/-- `n` is declared as `d` in the class, one of its base classes, or the namespace. -/
def MemberOf (c : Scope) (n : String) (d : Decl) : Prop := ∃ sc ∈ bases c, Declares sc n d

/-- The members of the thing `d` are those of the scope `c`: `d` is a variable or a member whose type is the
class `c`, the class itself, or the namespace `c`. -/
inductive Holds (w : World) : Decl → Scope → Prop
  | variable {s t k m c} : w.entity s.id = .object t k m → w.classes t = some c → Holds w (.sym s) c
  | blueprint {s t k m c} : w.entity s.id = .blueprint t k m → w.classes t = some c → Holds w (.sym s) c
  | space {s c} : w.entity s.id = .space c → Holds w (.sym s) c

/-- Every name after the first is a member of what the name before it stands for. -/
def Selects (w : World) : List Part → Prop
  | x :: y :: ps => (∃ c, Holds w x.decl c ∧ MemberOf c y.name y.decl) ∧ Selects w (y :: ps)
  | _ => True

/-- The declaration is declared const. -/
def DeclaredConst (w : World) : Decl → Prop
  | .meth _ => False
  | .sym s => match w.entity s.id with
    | .blueprint _ k _ => k = true
    | .object _ k _ => k = true
    | .space _ => False

/-- The declaration is a variable, a parameter, or a static member. -/
def IsVariable (w : World) : Decl → Prop
  | .meth _ => False
  | .sym s => ∃ t k m, w.entity s.id = .object t k m

/-- The declaration is a non-static member of a class. -/
def IsInstanceMember (w : World) : Decl → Prop
  | .meth _ => False
  | .sym s => ∃ t k, w.entity s.id = .blueprint t k true

/-- A part that opens private members: `this`, `base`, or a variable whose class is the class of the method. -/
def Opens (w : World) (own : Option String) (p : Part) : Prop :=
  p.name = "this" ∨ p.name = "base" ∨ ∃ s t k m, p.decl = .sym s ∧ w.entity s.id = .object t k m ∧ own = some t

end Names
end Verif
