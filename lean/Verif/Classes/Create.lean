import Verif.Classes.Model

/-!
# Creating objects: the methods an object gets

Model of `Repository::createUserType`, the check in `Repository::createInstance`
(`Projects/Core/Core/VirtualMachine/Repository.cpp`) and `Object::defineMethod`, `Object::resolveMethod`,
`Object::isAbstract` (`Projects/Core/Core/Object.cpp`).
-/

namespace Verif
namespace Classes

/-- A class as far as creating an object reads it: the methods in the order of the set, each with the position
that the copy of it takes in the set of the object (copies have new addresses); the class it extends; the
interfaces it implements, and whether it is declared abstract or as an interface (neither is read: line 298-312
of `Object.cpp` asks for `mBluePrintType`, which `createUserType` does not set).
Simplifications: no type arguments, and no member variables. -/
inductive Blue where
  | mk (methods : List (Method × Nat)) (base : Option Blue) (interfaces : List Blue) (isAbstract isInterface : Bool)

def Blue.methods : Blue → List (Method × Nat)
  | .mk ms _ _ _ _ => ms

def Blue.base : Blue → Option Blue
  | .mk _ b _ _ _ => b

def Blue.interfaces : Blue → List Blue
  | .mk _ _ is _ _ => is

/-- An object: its own methods, then those of its base object, and so on. -/
abbrev Levels := List (List Method)

/-- `MethodScope::resolveMethod` for the own table (`Scope.cpp:360-368`). -/
def findOwn (l : List Method) (name : String) (types : List String) (v : Scope.Vis) : Option Method :=
  l.find? fun m => decide (v.rank ≤ m.vis.rank) && (m.name == name && Scope.isSignatureValid m.sig types)

/-- `Object::resolveMethod` with `onlyCurrentScope` (`Object.cpp:510-541`): a final method of the base object
comes first, then the own ones, then those of the base object that are not private. -/
def findMethod : Levels → String → List String → Scope.Vis → Option Method
  | [], _, _, _ => none
  | l :: [], name, types, v => findOwn l name types v
  | l :: b :: bs, name, types, v =>
    let tmp := findMethod (b :: bs) name types (if v.rank < Scope.Vis.prot.rank then .prot else v)
    match findOwn l name types v with
    | none => tmp
    | some r =>
      match tmp with
      | none => some r
      | some t => if t.layout = .final then some t else some r

/-- What happens to the method that has been found if it is abstract (`Object.cpp:201-208`): it is removed from the
direct base object and deleted.  If it is stored anywhere else, a deleted method stays in use; without a base
object a null pointer is dereferenced. -/
def dropAbstract (o : Levels) (m : Method) : Outcome × Levels :=
  match findMethod o m.name m.types .designtime with
  | none => (.accepted, o)
  | some old =>
    if old.layout ≠ .abstract then (.accepted, o)
    else
      match o with
      | l :: b :: bs =>
        if b.any (fun x => x.id = old.id) then (.accepted, l :: b.filter (fun x => x.id ≠ old.id) :: bs) else (.undefined, o)
      | _ => (.undefined, o)

/-- `MethodScope::defineMethod` (`Scope.cpp:215-226`) for the own table of the object. -/
def addOwn (o : Levels) (m : Method) (k : Nat) : Outcome × Levels :=
  match o with
  | [] => (.accepted, [[m]])
  | l :: bs =>
    match findOwn l m.name m.types .designtime with
    | some _ => (.rejected, o)
    | none => (.accepted, (l.take k ++ m :: l.drop k) :: bs)

/-- `Object::defineMethod` (`Object.cpp:198-211`). -/
def defineObjectMethod (o : Levels) (m : Method) (k : Nat) : Outcome × Levels :=
  match dropAbstract o m with
  | (.accepted, o') => addOwn o' m k
  | r => r

/-- `createUserType` (`Repository.cpp:355-371`): the methods of the class, except static ones, one by one. -/
def defineMethods : Levels → List (Method × Nat) → Outcome × Levels
  | o, [] => (.accepted, o)
  | o, (m, k) :: ms =>
    if m.layout = .static then defineMethods o ms
    else
      match defineObjectMethod o m k with
      | (.accepted, o') => defineMethods o' ms
      | r => r

/-- `createUserType` (`Repository.cpp:270-375`): first the base object; the objects for interfaces have no methods
(`InitilizationType::None`) and are not asked for methods. -/
def createUserType : Blue → Outcome × Levels
  | .mk ms none _ _ _ => defineMethods [[]] ms
  | .mk ms (some b) _ _ _ =>
    match createUserType b with
    | (.accepted, o) => defineMethods ([] :: o) ms
    | r => r

/-- `Object::isAbstract` (`Object.cpp:298-312`): the own methods only. -/
def isAbstractObject : Levels → Bool
  | [] => false
  | l :: _ => l.any fun m => m.layout = .abstract

/-- `createInstance` (`Repository.cpp:153-159`) with `InitilizationType::Final`. -/
def createInstance (c : Blue) : Outcome × Levels :=
  match createUserType c with
  | (.accepted, o) => if isAbstractObject o then (.rejected, o) else (.accepted, o)
  | r => r

end Classes
end Verif
