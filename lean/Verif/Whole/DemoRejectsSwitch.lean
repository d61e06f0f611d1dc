import Verif.Whole.DemoRejects
import Verif.Whole.DemoSwitch

/-! C140 for `switch`: a program with a block without jump and with two defaults, and a lawful one. -/

namespace Verif.Whole.Demo

open Verif.Str (Text)
open Verif.Calc (Num Cond value truth)

/-- The blocks of `switch ( k ) { case 1: { print(1); } default: { break; } default: { break; } }`. -/
def wrongArms : List (Option Num × List Cmd) := [(some (.num 1), [.print (.num 1)]), (none, [.brk]), (none, [.brk])]

def wrongMain : Fun := ⟨true, mainName, [], [.int ['k'] (.num 1), .pick (.var ['k']) wrongArms]⟩

def wrongProgram : Program := [wrongMain]

def wrongText : Text :=
  "void Main() { int k = 1; switch ( k ) { case 1: { print(1); } default: { break; } default: { break; } } }".toList

theorem wrong_written : ∃ ms, WritesProgram wrongProgram ms ∧ Laid ms wrongText := by
  have h := Writes.pick (a := .var ['k'])
    (xs := [⟨some (.num 1), [.print (.num 1)], [.num 1], _⟩, ⟨none, [.brk], [], _⟩, ⟨none, [.brk], [], _⟩]) (cs := []) (writes_name _)
    (by
      intro x hx b hb
      simp only [List.mem_cons, List.not_mem_nil, or_false] at hx
      rcases hx with rfl | rfl | rfl
      · cases hb; exact writes_one _
      · cases hb
      · cases hb)
    (List.forall_mem_cons.2 ⟨.print (writes_one _) .nil, List.forall_mem_cons.2 ⟨.brk .nil, List.forall_mem_cons.2 ⟨.brk .nil, nofun⟩⟩⟩)
    .nil
  refine ⟨_, .cons (.int (writes_one _) h) .nil, ?_⟩
  exact ⟨[.word ['v', 'o', 'i', 'd'], .blank ' ', .word ['M', 'a', 'i', 'n'], .sym '(', .sym ')', .blank ' ', .sym '{', .blank ' ',
    .word ['i', 'n', 't'], .blank ' ', .word ['k'], .blank ' ', .sym '=', .blank ' ', .word ['1'], .sym ';', .blank ' ',
    .word ['s', 'w', 'i', 't', 'c', 'h'], .blank ' ', .sym '(', .blank ' ', .word ['k'], .blank ' ', .sym ')', .blank ' ',
    .sym '{', .blank ' ', .word ['c', 'a', 's', 'e'], .blank ' ', .word ['1'], .sym ':', .blank ' ', .sym '{', .blank ' ',
    .word ['p', 'r', 'i', 'n', 't'], .sym '(', .word ['1'], .sym ')', .sym ';', .blank ' ', .sym '}', .blank ' ',
    .word ['d', 'e', 'f', 'a', 'u', 'l', 't'], .sym ':', .blank ' ', .sym '{', .blank ' ', .word ['b', 'r', 'e', 'a', 'k'],
    .sym ';', .blank ' ', .sym '}', .blank ' ', .word ['d', 'e', 'f', 'a', 'u', 'l', 't'], .sym ':', .blank ' ', .sym '{',
    .blank ' ', .word ['b', 'r', 'e', 'a', 'k'], .sym ';', .blank ' ', .sym '}', .blank ' ', .sym '}', .blank ' ', .sym '}'],
    by decide +kernel, by decide +kernel, by decide +kernel⟩

theorem wrong_clean : Clean wrongProgram := by
  have h : VarName wrongProgram ['k'] := ⟨usable_k, by decide⟩
  intro f hf
  cases List.mem_singleton.1 hf
  refine ⟨more_names _ (by decide), nofun, ?_⟩
  simp only [wrongMain, wrongArms, CmdsClean, CmdClean, ArmsClean, NumClean, Num.vars, Num.nums]
  exact ⟨⟨h, nofun, by decide⟩, ⟨⟨fun n hn => by cases List.mem_singleton.1 hn; exact h, nofun⟩,
    ⟨nofun, by decide⟩, ⟨⟨nofun, by decide⟩, trivial⟩, ⟨trivial, trivial⟩, ⟨trivial, trivial⟩, trivial⟩, trivial⟩

theorem wrong_among : Among (.pick (.var ['k']) wrongArms) true wrongMain.body := .later .here

/-- The hypotheses of `block_without_jump_rejected_partial` are met. -/
example : ∀ k, runScript k wrongText = .rejected := by
  obtain ⟨ms, hw, hl⟩ := wrong_written
  refine block_without_jump_rejected_partial wrong_clean hw hl List.mem_cons_self wrong_among List.mem_cons_self ?_
  intro d hd h
  cases h with
  | here => rcases hd with (⟨_, h⟩ | ⟨_, _, h⟩ | h) | h | h <;> cases h
  | later h => cases h

/-- Those of `second_default_rejected_partial`. -/
example : ∀ k, runScript k wrongText = .rejected := by
  obtain ⟨ms, hw, hl⟩ := wrong_written
  exact second_default_rejected_partial wrong_clean hw hl List.mem_cons_self wrong_among (by decide)

/-- The program with `switch` of C135 obeys the rules. -/
example : Lawful pickProgram := ⟨by decide, by decide, by decide +kernel, by decide⟩

end Verif.Whole.Demo
