import Verif.Memory.Model

/-! # Specification of the object memory, in terms of the log only -/

namespace Verif.Memory

/-- The addresses handed out so far, newest first. -/
def createdAddrs (l : List Event) : List Ref :=
  l.filterMap fun | .created r => some r | _ => none

/-- References to `r` that were taken and not released. -/
def outstanding (r : Ref) (l : List Event) : Int :=
  (l.count (.took r) : Int) - (l.count (.released r) : Int)

/-- The clients (and destructors) behaved: nobody releases a reference that nobody
holds, and nobody takes a new reference to an object after its last reference has been released. -/
def WellBehaved : List Event → Prop
  | [] => True
  | .took r :: l => (.released r ∈ l → outstanding r l > 0) ∧ WellBehaved l
  | .released r :: l => outstanding r l > 0 ∧ WellBehaved l
  | _ :: l => WellBehaved l

end Verif.Memory
