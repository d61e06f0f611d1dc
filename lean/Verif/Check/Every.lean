import Verif.Interp.Model

/-!
# Statements inside statements
-/

namespace Verif
namespace Check

open Interp

variable {A : Type}

mutual

/-- `p` holds of a statement and of every statement inside it. -/
def Every (p : Stmt A → Prop) : Stmt A → Prop
  | .ite c t e => p (.ite c t e) ∧ Every p t ∧ Every p e
  | .while c b => p (.while c b) ∧ Every p b
  | .for i c s b => p (.for i c s b) ∧ Every p i ∧ Every p s ∧ Every p b
  | .foreach ty x e b => p (.foreach ty x e b) ∧ Every p b
  | .foreachIt ty x path f args b => p (.foreachIt ty x path f args b) ∧ Every p b
  | .switch e cases d => p (.switch e cases d) ∧ EveryCase p cases ∧ EveryOf p d
  | .try b cs f => p (.try b cs f) ∧ EveryOf p b ∧ EveryCatch p cs ∧ EveryOpt p f
  | .block b => p (.block b) ∧ EveryOf p b
  | st => p st

/-- `p` holds of the statements of a list and of every statement inside them. -/
def EveryOf (p : Stmt A → Prop) : List (Stmt A) → Prop
  | [] => True
  | st :: b => Every p st ∧ EveryOf p b

def EveryCase (p : Stmt A → Prop) : List (Expr A × List (Stmt A)) → Prop
  | [] => True
  | (_, b) :: cs => EveryOf p b ∧ EveryCase p cs

def EveryCatch (p : Stmt A → Prop) : List (Option (Name × Name) × List (Stmt A)) → Prop
  | [] => True
  | (_, b) :: cs => EveryOf p b ∧ EveryCatch p cs

def EveryOpt (p : Stmt A → Prop) : Option (List (Stmt A)) → Prop
  | none => True
  | some b => EveryOf p b

end

theorem Every.here {p : Stmt A → Prop} {st : Stmt A} (h : Every p st) : p st := by
  cases st <;> (rw [Every] at h <;> first | exact h | exact h.1 | (intros; simp_all))

theorem EveryCatch.mem {p : Stmt A → Prop} : ∀ {cs : List (Option (Name × Name) × List (Stmt A))},
    EveryCatch p cs → ∀ c ∈ cs, EveryOf p c.2
  | (_, _) :: _, h, c, hc => by
    rw [EveryCatch] at h
    rcases List.mem_cons.1 hc with rfl | hc
    · exact h.1
    · exact h.2.mem c hc

end Check
end Verif
