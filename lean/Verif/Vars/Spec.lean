import Verif.Vars.Model

/-!
# What a reader of a program expects of its variables
-/

namespace Verif.Vars

/-- `m` is named after `extends` or `implements` in the declaration of `d`. -/
def Parent (P : Program) (d m : String) : Prop :=
  ∃ c ∈ P.classes, c.name = d ∧ ∃ a ∈ c.anc, a.name = m

/-- `m` is named after `extends` in the declaration of `d`. -/
def Extends (P : Program) (d m : String) : Prop :=
  ∃ c ∈ P.classes, c.name = d ∧ ∃ a ∈ c.anc, a.extends_ = true ∧ a.name = m

/-- `m` is named after `implements` in the declaration of `d`. -/
def Implements (P : Program) (d m : String) : Prop :=
  ∃ c ∈ P.classes, c.name = d ∧ ∃ a ∈ c.anc, a.extends_ = false ∧ a.name = m

/-- `d` is `n` or descends from it. -/
inductive Descends (P : Program) : String → String → Prop
  | refl (n : String) : Descends P n n
  | step {d m n : String} : Parent P d m → Descends P m n → Descends P d n

/-- `d` is `n` or inherits from it through `extends` alone. -/
inductive Inherits (P : Program) : String → String → Prop
  | refl (n : String) : Inherits P n n
  | step {d m n : String} : Extends P d m → Inherits P m n → Inherits P d n

/-- What `is` goes by: a chain of `extends`, then perhaps one `implements`. -/
def Recognised (P : Program) (d n : String) : Prop :=
  Inherits P d n ∨ ∃ m, Inherits P d m ∧ Implements P m n

/-- The class of the object at an address. -/
def classAt (h : List Obj) (r : Nat) : Option String :=
  match objAt h r with
  | some o => match o.cell.type with
    | .cls d => some d
    | _ => none
  | none => none

/-- A cell holds what its declared type promises: an atomic value of that type, or null, or an
object of the class or of a class that descends from it. -/
def Holds (P : Program) (h : List Obj) (c : Cell) : Ty → Prop
  | .anon => False
  | .atom a => c.type = .atom a
  | .cls n => c.ref = 0 ∨ ∃ d, classAt h c.ref = some d ∧ Descends P d n

/-- Every variable and every member of every object holds what it was declared for. -/
def WellTyped (P : Program) (Γ : Env) (σ : State) : Prop :=
  (∀ x t, Γ.get x = some t → ∃ c, getL σ.vars x = some c ∧ Holds P σ.heap c t) ∧
  ∀ r d, classAt σ.heap r = some d → ∀ f t, fieldType P d f = some t →
    ∃ c, readLoc σ (.field r f) = some c ∧ Holds P σ.heap c t

/-! ## Programs that cast with care -/

/-- A variable is mentioned in an expression. -/
def mentions (x : String) : Expr → Bool
  | .lit _ _ => false
  | .null => false
  | .place y _ => y == x
  | .newObj _ => false
  | .newAtom _ e => mentions x e
  | .cast _ e => mentions x e
  | .ccast _ e => mentions x e
  | .call _ e => mentions x e
  | .is e _ => mentions x e
  | .eq l r => mentions x l || mentions x r
  | .assign y _ e => y == x || mentions x e

/-- C-style casts are only used where `cast<>` could be, or to give null a type. With `q`, no
atomic values are created with `new`. -/
def careful (q : Bool) (W : World) (P : Program) (Γ : Env) : Expr → Bool
  | .lit _ _ => true
  | .null => true
  | .place _ _ => true
  | .newObj _ => true
  | .newAtom _ e => !q && careful q W P Γ e
  | .cast _ e => careful q W P Γ e
  | .ccast t e => careful q W P Γ e && (match e, t with
    | .null, .cls _ => true
    | _, _ => match typeOf W P Γ e with
      | some s => castable W P t s
      | none => false)
  | .call _ e => careful q W P Γ e
  | .is e _ => careful q W P Γ e
  | .eq l r => careful q W P Γ l && careful q W P Γ r
  | .assign _ _ e => careful q W P Γ e

def isAtomTy : Ty → Bool
  | .atom _ => true
  | _ => false

mutual

/-- The same for statements; the initialiser of `var x` does not mention another `x`. With `q`,
no atomic variable is declared `ref`. -/
def carefulStmt (q : Bool) (W : World) (P : Program) (Γ : Env) : Stmt → Bool
  | .decl t x byRef init =>
    !(q && byRef && isAtomTy t) && match init with
      | some e => careful q W P ((x, t) :: Γ) e
      | none => true
  | .inferred t x byRef e =>
    !(q && byRef && isAtomTy t) && !(mentions x e) && careful q W P Γ e
  | .expr e => careful q W P Γ e
  | .ite e s t => careful q W P Γ e && carefulList q W P Γ s && carefulList q W P Γ t
  | .while e s => careful q W P Γ e && carefulList q W P Γ s

def carefulList (q : Bool) (W : World) (P : Program) (Γ : Env) : List Stmt → Bool
  | [] => true
  | s :: rest => carefulStmt q W P Γ s && match checkStmt W P Γ s with
    | some Δ => carefulList q W P Δ rest
    | none => false

end

/-- No class declares a member of the name of a member of an ancestor. -/
def noHiding (P : Program) : Bool :=
  P.classes.all fun c => c.anc.all fun a => (fieldsOf P.classes a.name).all fun f =>
    decide (fieldType P c.name f.1 = fieldType P a.name f.1)

/-- The program is accepted by the compiler, hides no members and casts with care. -/
def CarefulProgram (q : Bool) (W : World) (P : Program) : Prop :=
  checkProgram W P = true ∧ noHiding P = true ∧
  (∀ d ∈ P.fns, carefulList q W P [(d.param, d.ptype)] d.body = true ∧
    ∀ Δ, check W P [(d.param, d.ptype)] d.body = some Δ → careful q W P Δ d.result = true) ∧
  (q = true → ∀ c ∈ P.classes, ∀ f ∈ c.fields, f.2.2 = true → isAtomTy f.2.1 = false)

/-- The statements `ss`, accepted with the variables `Γ` in the end, lead to `σ`. -/
def Reaches (q : Bool) (W : World) (P : Program) (Γ : Env) (σ : State) : Prop :=
  ∃ n ss, check W P [] ss = some Γ ∧ carefulList q W P [] ss = true ∧
    exec W P n ss ⟨[], []⟩ = .ok () σ

end Verif.Vars
