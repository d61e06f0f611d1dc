import Verif.Whole.DemoOutcomes
import Verif.Whole.DemoElse

/-! Declarations without a value, and assertions: a program that meets the hypotheses of C135, and one that C139 says fails. -/

namespace Verif.Whole.Demo

open Verif.Str (Text)
open Verif.Calc (Num Cond value truth)

theorem usable_letters (n : Text) (h : n ∈ [['n'], ['b'], ['k']]) : Usable n := by
  revert n
  unfold Usable Lex.PlainName
  decide +kernel

/-- `n += 1` -/
def plusOne (n : Text) : Change := .by n .add (.num 1)

theorem plusOne_written (n : Text) : WritesChange (plusOne n) [.name n, .change .add, .formula (.num 1)] := .by (num_written 1)

/-- `n == 1` -/
def isOne : Cond := .cmp .eq (.var ['n']) (.num 1)

def holdsMain : Fun :=
  ⟨true, mainName, [], [.fresh .int ['n'], .fresh .bool ['b'], .set (plusOne ['n']), .mark ['b'] isOne,
    .check (.and (.flag ['b']) isOne), .print (.var ['n'])]⟩

def holdsText : Text := "void Main() { int n; bool b; n += 1; b = n == 1; assert(b && n == 1); print(n); }".toList

theorem holds_wellFormed : WellFormed [holdsMain] where
  funs := fun f hf => by
    rcases List.mem_cons.1 hf with rfl | hf
    · exact
        { name := usable_names _ (by decide)
          params := nofun
          distinct := by decide
          body := .fresh (usable_letters _ (by decide)) rfl (.fresh (usable_letters _ (by decide)) rfl
            (.set rfl ⟨by decide, by decide⟩ (.mark rfl ⟨by decide, by decide, by decide⟩ (.check ⟨by decide, by decide, by decide⟩
              (.print ⟨by decide, by decide⟩ .nil)))))
          result := nofun }
    · cases hf
  distinct := by decide
  main := ⟨holdsMain, List.mem_cons_self, rfl, rfl, rfl⟩

theorem holds_written : ∃ ms, WritesProgram [holdsMain] ms ∧ Laid ms holdsText := by
  refine ⟨_, .cons (.fresh (.fresh (.set (plusOne_written _)
    (.mark (ms := [.name ['n'], .rel .eq, .num 1])
      ⟨.conj (.conjOne (.cmp (.factor (.signed (.atom (.var _)))) (.factor (.signed (.atom (.num _)))))), by simp [Calc.Apart]⟩
    (.check (ms := [.name ['b'], .and, .name ['n'], .rel .eq, .num 1])
      ⟨.conj (.and (ms := [.name ['b']]) (.conjOne (.negated (.atom (.flag _)))) (.cmp (.factor (.signed (.atom (.var _))))
        (.factor (.signed (.atom (.num _)))))), by simp [Calc.Apart]⟩
    (.print (ms := [.name ['n']]) ⟨.factor (.signed (.atom (.var _))), trivial⟩ .nil)))))) .nil, ?_⟩
  exact ⟨[.word ['v', 'o', 'i', 'd'], .blank ' ', .word ['M', 'a', 'i', 'n'], .sym '(', .sym ')', .blank ' ', .sym '{', .blank ' ',
    .word ['i', 'n', 't'], .blank ' ', .word ['n'], .sym ';', .blank ' ', .word ['b', 'o', 'o', 'l'], .blank ' ', .word ['b'],
    .sym ';', .blank ' ', .word ['n'], .blank ' ', .sym '+', .sym '=', .blank ' ', .word ['1'], .sym ';', .blank ' ',
    .word ['b'], .blank ' ', .sym '=', .blank ' ', .word ['n'], .blank ' ', .sym '=', .sym '=', .blank ' ', .word ['1'],
    .sym ';', .blank ' ', .word ['a', 's', 's', 'e', 'r', 't'], .sym '(', .word ['b'], .blank ' ', .sym '&', .sym '&',
    .blank ' ', .word ['n'], .blank ' ', .sym '=', .sym '=', .blank ' ', .word ['1'], .sym ')', .sym ';', .blank ' ',
    .word ['p', 'r', 'i', 'n', 't'], .sym '(', .word ['n'], .sym ')', .sym ';', .blank ' ', .sym '}'],
    by decide +kernel, by decide +kernel, by decide +kernel⟩

theorem holds_prints : Prints [holdsMain] [.number 1] :=
  ⟨holdsMain, List.mem_cons_self, rfl, _, _, .fresh (.fresh (.set (i := 1) rfl (.mark (b := true) rfl (.check rfl (.print rfl .done))))), .inl rfl⟩

/-- The hypotheses of `script_prints_partial` are met. -/
example : ∃ n, ∀ k, n ≤ k → runScript k holdsText = .ended "1\n".toList := by
  obtain ⟨ms, hw, hl⟩ := holds_written
  have h : lines [.number 1] = "1\n".toList := by decide +kernel
  rw [← h]
  exact (script_prints_partial holds_wellFormed hw hl holds_prints).1

/-- `int k; k += 1; n += k; assert(n < 2); print(n);` -/
def assertBody : List Cmd :=
  [.fresh .int ['k'], .set (plusOne ['k']), .set (.by ['n'] .add (.var ['k'])), .check (.cmp .lt (.var ['n']) (.num 2)), .print (.var ['n'])]

def assertMain : Fun := ⟨true, mainName, [], [.fresh .int ['n'], .loop (.const true) assertBody]⟩

def assertText : Text := "void Main() { int n; while ( true ) { int k; k += 1; n += k; assert(n < 2); print(n); } }".toList

theorem assert_wellFormed : WellFormed [assertMain] where
  funs := fun f hf => by
    rcases List.mem_cons.1 hf with rfl | hf
    · exact
        { name := usable_names _ (by decide)
          params := nofun
          distinct := by decide
          body := .fresh (usable_letters _ (by decide)) rfl (.loop ⟨by decide, by decide, by decide⟩
            (.fresh (usable_letters _ (by decide)) rfl (.set rfl ⟨by decide, by decide⟩ (.set rfl ⟨by decide, by decide⟩
              (.check ⟨by decide, by decide, by decide⟩ (.print ⟨by decide, by decide⟩ .nil))))) .nil)
          result := nofun }
    · cases hf
  distinct := by decide
  main := ⟨assertMain, List.mem_cons_self, rfl, rfl, rfl⟩

theorem assert_written : ∃ ms, WritesProgram [assertMain] ms ∧ Laid ms assertText := by
  refine ⟨_, .cons (.fresh (.loop (ms := [.const true]) ⟨.conj (.conjOne (.negated (.atom (.const _)))), trivial⟩
    (.fresh (.set (plusOne_written _) (.set (.by (ms := [.name ['k']]) ⟨.factor (.signed (.atom (.var _))), trivial⟩)
      (.check (ms := [.name ['n'], .rel .lt, .num 2])
        ⟨.conj (.conjOne (.cmp (.factor (.signed (.atom (.var _)))) (.factor (.signed (.atom (.num _)))))), by simp [Calc.Apart]⟩
      (.print (ms := [.name ['n']]) ⟨.factor (.signed (.atom (.var _))), trivial⟩ .nil))))) .nil)) .nil, ?_⟩
  exact ⟨[.word ['v', 'o', 'i', 'd'], .blank ' ', .word ['M', 'a', 'i', 'n'], .sym '(', .sym ')', .blank ' ', .sym '{', .blank ' ',
    .word ['i', 'n', 't'], .blank ' ', .word ['n'], .sym ';', .blank ' ', .word ['w', 'h', 'i', 'l', 'e'], .blank ' ',
    .sym '(', .blank ' ', .word ['t', 'r', 'u', 'e'], .blank ' ', .sym ')', .blank ' ', .sym '{', .blank ' ',
    .word ['i', 'n', 't'], .blank ' ', .word ['k'], .sym ';', .blank ' ', .word ['k'], .blank ' ', .sym '+', .sym '=',
    .blank ' ', .word ['1'], .sym ';', .blank ' ', .word ['n'], .blank ' ', .sym '+', .sym '=', .blank ' ', .word ['k'],
    .sym ';', .blank ' ', .word ['a', 's', 's', 'e', 'r', 't'], .sym '(', .word ['n'], .blank ' ', .sym '<', .blank ' ',
    .word ['2'], .sym ')', .sym ';', .blank ' ', .word ['p', 'r', 'i', 'n', 't'], .sym '(', .word ['n'], .sym ')', .sym ';',
    .blank ' ', .sym '}', .blank ' ', .sym '}'],
    by decide +kernel, by decide +kernel, by decide +kernel⟩

/-- The assertion fails in the second turn. -/
theorem assert_wrong : GoesWrong [assertMain] :=
  ⟨assertMain, List.mem_cons_self, rfl, .later (.fresh .done) (.loopNext rfl
    (.fresh (.set (i := 1) rfl (.set (i := 1) rfl (.check rfl (.print rfl .done))))) (.inl rfl)
    (.loopBody rfl (.later (.fresh .done) (.later (.set (i := 1) rfl .done) (.later (.set (i := 2) rfl .done) (.check (by decide)))))))⟩

/-- The hypotheses of `script_fails_iff_partial` are met. -/
example : ∃ k, runScript k assertText = .failed := by
  obtain ⟨ms, hw, hl⟩ := assert_written
  exact (script_fails_iff_partial assert_wellFormed hw hl).2 assert_wrong

end Verif.Whole.Demo
