import Verif.Scope.Model

/-! # What "declared", "enclosing" and "applicable" mean

An independent specification for the lookup of names and methods. -/

namespace Verif.Scope

/-- The scope itself declares the name `n`, as `d`. -/
inductive Declares : Scope → String → Decl → Prop
  | symbol {k L E M X b p n s} : L.find n = some s → Declares (.mk k L E M X b p) n (.sym s)
  | external {k L E M X b p n s} : E.find n = some s → Declares (.mk k L E M X b p) n (.sym s)
  | method {k L E M X b p n m} : k ≠ .symbol → m ∈ M → m.name = n → Declares (.mk k L E M X b p) n (.meth m)
  | externalMethod {k L E M X b p n m} : k ≠ .symbol → m ∈ X → m.name = n → Declares (.mk k L E M X b p) n (.meth m)

/-- The scope and the scopes around it, innermost first. -/
def enclosing : Scope → List Scope
  | .null => []
  | .mk k L E M X b p => .mk k L E M X b p :: enclosing p

/-- `d` is a declaration of `n` that is accessible at level `v`, in the first scope of the list that has any. -/
def FirstIn (l : List Scope) (n : String) (v : Vis) (d : Decl) : Prop :=
  ∃ pre sc post, l = pre ++ sc :: post ∧ Declares sc n d ∧ v ≤ d.vis ∧
    ∀ t ∈ pre, ∀ d', Declares t n d' → ¬ v ≤ d'.vis

/-- No scope of the list declares `n` accessibly at level `v`. -/
def NoneIn (l : List Scope) (n : String) (v : Vis) : Prop :=
  ∀ t ∈ l, ∀ d', Declares t n d' → ¬ v ≤ d'.vis

/-- The object or class and its chain of base classes, if each is reached by a symbol called `base`
(not by a method of that name). -/
inductive Lineage : Scope → List Scope → Prop
  | root {k L E M X b p} : k ≠ .symbol → (∀ d, ¬ Declares (.mk k L E M X b p) "base" d) →
      Lineage (.mk k L E M X b p) [.mk k L E M X b p]
  | derived {k L E M X b p l} : k ≠ .symbol → L.find "base" ≠ none → Lineage b l →
      Lineage (.mk k L E M X b p) (.mk k L E M X b p :: l)

/-- A parameter list accepts arguments of these types: each argument has a parameter of its type (or an
untyped one), and each parameter without an argument has a default value. -/
def Accepts (sig : List Param) (args : List String) : Prop :=
  args.length ≤ sig.length ∧
  (∀ (i : Nat) (a : String) (p : Param), args[i]? = some a → sig[i]? = some p → p.type = a ∨ p.type = "") ∧
  (∀ (i : Nat) (p : Param), args.length ≤ i → sig[i]? = some p → p.hasDefault = true)

/-- The scope itself offers method `m` for a call of `n` with arguments of these types at level `v`. -/
def Offers (sc : Scope) (n : String) (args : List String) (v : Vis) (m : Meth) : Prop :=
  Declares sc n (.meth m) ∧ v ≤ m.vis ∧ Accepts m.sig args

/-- The first scope in the list that offers any method for the call offers `m`. -/
def FirstOffer (l : List Scope) (n : String) (args : List String) (v : Vis) (m : Meth) : Prop :=
  ∃ pre sc post, l = pre ++ sc :: post ∧ Offers sc n args v m ∧ ∀ t ∈ pre, ∀ m', ¬ Offers t n args v m'

end Verif.Scope
