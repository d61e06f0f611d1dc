import Verif.AMap

/-!
# Threads

Model of `Threads` (`Projects/Core/Core/VirtualMachine/Threads.cpp:160-230`).
-/

namespace Verif
namespace Threads

/-- `Threads::mThreads`: the thread objects by id; `created` numbers the objects in the order of their creation and
stands for their addresses. -/
structure Threads where
  threads : AMap Nat Nat := []
  created : Nat := 0
  deriving DecidableEq, Repr

/-- `Threads::createThread` (160-169): the id is the number of threads, as an unsigned number of 32 bits;
`std::map::insert` keeps an entry that is already there.  Returns the id and the object. -/
def Threads.createThread (t : Threads) : (Nat × Nat) × Threads :=
  let id := t.threads.length % 2 ^ 32
  match t.threads.find id with
  | some _ => ((id, t.created), { t with created := t.created + 1 })
  | none => ((id, t.created), { threads := t.threads.set id t.created, created := t.created + 1 })

/-- `Threads::getThread` (198-207): `none` is the runtime exception "invalid thread id". -/
def Threads.getThread (t : Threads) (id : Nat) : Option Nat := t.threads.find id

/-- `Threads::deleteThread` (186-191): the thread is looked up, and nothing else happens. -/
def Threads.deleteThread (t : Threads) (id : Nat) : Option Threads :=
  match t.getThread id with
  | some _ => some t
  | none => none

/-- `Threads::deinit` (171-184). -/
def Threads.deinit (t : Threads) : Threads := { t with threads := [] }

inductive Op where
  | create
  | delete (id : Nat)
  | deinit
  deriving DecidableEq, Repr

/-- One operation; an exception leaves the threads as they are. -/
def Threads.exec (t : Threads) : Op → Threads
  | .create => t.createThread.2
  | .delete id => (t.deleteThread id).getD t
  | .deinit => t.deinit

end Threads
end Verif
