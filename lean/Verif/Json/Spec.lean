import Verif.Str.Tools

/-!
# JSON documents

What a JSON document is and how it is written (RFC 8259).  Nothing here refers to the model of the library.  `x` says whether the
parts of the grammar are used that the library does not know: the escapes with a letter and exponents with a capital `E`.  Escapes with
`\u` are left out.  Characters of strings need not be printable, which the RFC asks for.
-/

namespace Verif.Json

open Verif.Str (Text)

/-- A JSON value. -/
inductive Json where
  | null
  | bool (b : Bool)
  | num (t : Text)
  | str (s : Text)
  | arr (l : List Json)
  | obj (l : List (Text × Json))

/-- Blanks. -/
def Blank (w : Text) : Prop := ∀ c ∈ w, c = ' ' ∨ c = '\t' ∨ c = '\n' ∨ c = '\r'

def Digits (t : Text) : Prop := ∀ c ∈ t, '0' ≤ c ∧ c ≤ '9'

/-- `-0.5e+7` -/
def IsNumber (x : Prop) (t : Text) : Prop :=
  ∃ sign int frac exp, t = sign ++ int ++ frac ++ exp ∧ (sign = [] ∨ sign = ['-']) ∧
    (int ≠ [] ∧ Digits int ∧ (int = ['0'] ∨ int.head? ≠ some '0')) ∧
    (frac = [] ∨ ∃ ds, frac = '.' :: ds ∧ ds ≠ [] ∧ Digits ds) ∧
    (exp = [] ∨ ∃ e s ds, exp = e :: (s ++ ds) ∧ (e = 'e' ∨ x ∧ e = 'E') ∧ (s = [] ∨ s = ['+'] ∨ s = ['-']) ∧ ds ≠ [] ∧ Digits ds)

/-- The escapes with a letter. -/
def letterEscapes : List (Char × Char) := [('b', '\x08'), ('f', '\x0c'), ('n', '\n'), ('r', '\r'), ('t', '\t')]

/-- `Chars x s t`: the characters `s` are written `t` between quotation marks. -/
inductive Chars (x : Prop) : Text → Text → Prop where
  | nil : Chars x [] []
  | plain {c : Char} {s t : Text} : c ≠ '"' → c ≠ '\\' → Chars x s t → Chars x (c :: s) (c :: t)
  | escape {c : Char} {s t : Text} : c = '"' ∨ c = '\\' ∨ c = '/' → Chars x s t → Chars x (c :: s) ('\\' :: c :: t)
  | letter {e c : Char} {s t : Text} : x → (e, c) ∈ letterEscapes → Chars x s t → Chars x (c :: s) ('\\' :: e :: t)

/-- A part of a document: a value, the values of an array, the members of an object. -/
inductive Part where
  | value (v : Json)
  | items (l : List Json)
  | members (l : List (Text × Json))

/-- `Writes x p t`: the part `p` may be written `t`. -/
inductive Writes (x : Prop) : Part → Text → Prop where
  | null : Writes x (.value .null) "null".toList
  | true : Writes x (.value (.bool true)) "true".toList
  | false : Writes x (.value (.bool false)) "false".toList
  | num {t : Text} : IsNumber x t → Writes x (.value (.num t)) t
  | str {s t : Text} : Chars x s t → Writes x (.value (.str s)) ('"' :: (t ++ ['"']))
  | empty {w : Text} : Blank w → Writes x (.value (.arr [])) ('[' :: (w ++ [']']))
  | arr {l : List Json} {t : Text} : Writes x (.items l) t → Writes x (.value (.arr l)) ('[' :: (t ++ [']']))
  | none {w : Text} : Blank w → Writes x (.value (.obj [])) ('{' :: (w ++ ['}']))
  | obj {l : List (Text × Json)} {t : Text} : Writes x (.members l) t → Writes x (.value (.obj l)) ('{' :: (t ++ ['}']))
  | item {a b t : Text} {v : Json} : Blank a → Writes x (.value v) t → Blank b → Writes x (.items [v]) (a ++ t ++ b)
  | items {a b t u : Text} {v w : Json} {l : List Json} : Blank a → Writes x (.value v) t → Blank b → Writes x (.items (w :: l)) u →
      Writes x (.items (v :: w :: l)) (a ++ t ++ b ++ ',' :: u)
  | member {a b c d k s t : Text} {v : Json} : Blank a → Chars x k s → Blank b → Blank c → Writes x (.value v) t → Blank d →
      Writes x (.members [(k, v)]) (a ++ '"' :: (s ++ '"' :: (b ++ ':' :: (c ++ t ++ d))))
  | members {a b c d k s t u : Text} {v : Json} {m : Text × Json} {l : List (Text × Json)} : Blank a → Chars x k s → Blank b → Blank c →
      Writes x (.value v) t → Blank d → Writes x (.members (m :: l)) u →
      Writes x (.members ((k, v) :: m :: l)) (a ++ '"' :: (s ++ '"' :: (b ++ ':' :: (c ++ t ++ d ++ ',' :: u))))

/-- Arrays and objects. -/
def Json.IsTree : Json → Prop
  | .arr _ => True
  | .obj _ => True
  | _ => False

/-- A document with an array or an object: the value with blanks around it. -/
def Document (x : Prop) (v : Json) (text : Text) : Prop :=
  ∃ a t b, text = a ++ t ++ b ∧ Blank a ∧ Writes x (.value v) t ∧ Blank b

end Verif.Json
