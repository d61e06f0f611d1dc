import Verif.Heap.Model

/-!
# Specification: references without memory management

Objects are never destroyed and nothing is counted.  This is what a program should observe.
-/

namespace Verif.Heap

/-- Abstract state: how many objects exist, their members, and the variables. -/
structure AState where
  next : Nat := 1
  objs : AMap Nat (List Nat) := []
  vars : AMap Nat Nat := []

/-- One operation; `none` is an exception (and changes nothing). -/
def astep (op : HOp) (s : AState) : Option AState :=
  match op with
  | .declare x =>
    match s.vars.find x with
    | some _ => none
    | none => some { s with vars := s.vars.set x 0 }
  | .destroy x =>
    match s.vars.find x with
    | some _ => some { s with vars := s.vars.erase x }
    | none => none
  | .setNew x k =>
    match s.vars.find x with
    | some _ =>
      if s.next ≥ 4294967295 then none
      else some { next := s.next + 1, objs := s.objs.set s.next (List.replicate k 0), vars := s.vars.set x s.next }
    | none => none
  | .setNull x =>
    match s.vars.find x with
    | some _ => some { s with vars := s.vars.set x 0 }
    | none => none
  | .assign x y =>
    match s.vars.find x, s.vars.find y with
    | some _, some r => some { s with vars := s.vars.set x r }
    | _, _ => none
  | .setField x i y =>
    match s.vars.find x, s.vars.find y with
    | some r, some ref =>
      match s.objs.find r with
      | some fs => if i < fs.length then some { s with objs := s.objs.set r (fs.set i ref) } else none
      | none => none
    | _, _ => none
  | .getField x y i =>
    match s.vars.find x, s.vars.find y with
    | some _, some r =>
      match s.objs.find r with
      | some fs =>
        match fs[i]? with
        | some ref => some { s with vars := s.vars.set x ref }
        | none => none
      | none => none
    | _, _ => none

/-- A program on the abstract state. -/
def arun : List HOp → AState → List Bool × AState
  | [], s => ([], s)
  | op :: ops, s =>
    match astep op s with
    | some s' => (true :: (arun ops s').1, (arun ops s').2)
    | none => (false :: (arun ops s).1, (arun ops s).2)

/-- Object `r` can be reached from a variable. -/
inductive AReach (s : AState) : Nat → Prop
  | var {x r : Nat} : s.vars.find x = some r → r ≠ 0 → AReach s r
  | field {r r' : Nat} {fs : List Nat} : AReach s r → s.objs.find r = some fs → r' ∈ fs → r' ≠ 0 → AReach s r'

/-- How many reference slots a program creates: one per variable, `k` per object with `k` members. -/
def slots : List HOp → Nat
  | [] => 0
  | .declare _ :: ops => 1 + slots ops
  | .setNew _ k :: ops => k + slots ops
  | _ :: ops => slots ops

/-- The number of variables and members (of existing objects) that refer to `r`. -/
def references (w : World) (r : Nat) : Nat :=
  (w.vars.map Prod.snd).count r + ((w.mem.cells.map fun p => p.2.obj.count r).sum)

/-- Object `r` can be reached from a variable of the concrete state. -/
inductive Reach (w : World) : Nat → Prop
  | var {x r : Nat} : w.vars.find x = some r → r ≠ 0 → Reach w r
  | field {r r' : Nat} {fs : List Nat} : Reach w r → Memory.get w.mem r = some fs → r' ∈ fs → r' ≠ 0 → Reach w r'

/-- `r` refers, directly or through other objects, to `r'`. -/
inductive Path (w : World) : Nat → Nat → Prop
  | one {r r' : Nat} {fs : List Nat} : Memory.get w.mem r = some fs → r' ∈ fs → r' ≠ 0 → Path w r r'
  | step {r s r' : Nat} {fs : List Nat} : Memory.get w.mem r = some fs → s ∈ fs → s ≠ 0 → Path w s r' → Path w r r'

end Verif.Heap
