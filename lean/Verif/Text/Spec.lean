import Verif.Str.Std

/-!
# What the methods of `System.String` are expected to do
-/

namespace Verif.Text

open Verif.Str

/-- `t` occurs in `s` at position `i`. -/
def OccursAt (s t : Text) (i : Nat) : Prop := ∃ a b, s = a ++ t ++ b ∧ a.length = i

/-- `t` occurs in `s`. -/
def Occurs (s t : Text) : Prop := ∃ i, OccursAt s t i

/-- `ps` are the pieces of `s` between the occurrences of `sep`, found from left to right. -/
inductive Pieces (sep : Text) : Text → List Text → Prop
  | last {s : Text} (h : ¬ Occurs s sep) : Pieces sep s [s]
  | cons {s p rest : Text} {ps : List Text} (h : s = p ++ sep ++ rest)
      (first : ∀ i, OccursAt s sep i → p.length ≤ i) (h' : Pieces sep rest ps) : Pieces sep s (p :: ps)

/-- `r` is `s` with every occurrence of `old`, found from left to right, replaced by `new`. -/
inductive Replaced (old new : Text) : Text → Text → Prop
  | none {s : Text} (h : ¬ Occurs s old) : Replaced old new s s
  | step {s p rest r : Text} (h : s = p ++ old ++ rest)
      (first : ∀ i, OccursAt s old i → p.length ≤ i) (h' : Replaced old new rest r) :
      Replaced old new s (p ++ new ++ r)

end Verif.Text
