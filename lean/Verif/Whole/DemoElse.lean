import Verif.Whole.DemoUse

/-! Chains of `else if`: a program that meets the hypotheses of C135, and one that C140 is about. -/

namespace Verif.Whole.Demo

open Verif.Str (Text)
open Verif.Calc (Num Cond value truth)

/-- `i == k` -/
def isNum (k : Nat) : Cond := .cmp .eq (.var ['i']) (.num k)

/-- `if ( i == 0 ) { print(10); } else if ( i == 1 ) { print(11); } else if ( i == 2 ) { print(12); } else { print(13); }` -/
def chainCmd : Cmd :=
  .chain (isNum 0) [.print (.num 10)] (.chain (isNum 1) [.print (.num 11)] (.choose (isNum 2) [.print (.num 12)] [.print (.num 13)]))

/-- `int i = 0; while ( i < 4 ) { … i++; }` -/
def chainMain : Fun :=
  ⟨true, mainName, [], [.int ['i'] (.num 0), .loop (.cmp .lt (.var ['i']) (.num 4)) [chainCmd, .set (.step true ['i'])]]⟩

def chainText : Text :=
  "void Main() { int i = 0; while ( i < 4 ) { if ( i == 0 ) { print(10); } else if ( i == 1 ) { print(11); } else if ( i == 2 ) { print(12); } else { print(13); } i++; } }".toList

theorem chain_wellFormed : WellFormed [chainMain] where
  funs := fun f hf => by
    rcases List.mem_cons.1 hf with rfl | hf
    · exact
        { name := usable_gcd _ (by decide)
          params := nofun
          distinct := by decide
          body := .int (by unfold Usable Lex.PlainName; decide +kernel) rfl ⟨by decide, by decide⟩ (by decide)
            (.loop ⟨by decide, by decide, by decide⟩
              (.chain ⟨by decide, by decide, by decide⟩ (.print ⟨by decide, by decide⟩ .nil) rfl
                (.chain ⟨by decide, by decide, by decide⟩ (.print ⟨by decide, by decide⟩ .nil) rfl
                  (.choose ⟨by decide, by decide, by decide⟩ (.print ⟨by decide, by decide⟩ .nil) (.print ⟨by decide, by decide⟩ .nil) .nil)
                  .nil)
                (.set (by decide) ⟨by decide, by decide⟩ .nil)) .nil)
          result := nofun }
    cases hf
  distinct := by decide
  main := ⟨chainMain, List.mem_cons_self, rfl, rfl, rfl⟩

theorem isNum_written (k : Nat) : WritesCond (isNum k) [.name ['i'], .rel .eq, .num k] :=
  ⟨.conj (.conjOne (.cmp (.factor (.signed (.atom (.var _)))) (.factor (.signed (.atom (.num _)))))), by simp [Calc.Apart]⟩

theorem num_written (k : Nat) : WritesNum (.num k) [.num k] := ⟨.factor (.signed (.atom (.num _))), trivial⟩

theorem chain_written : ∃ ms, WritesProgram [chainMain] ms ∧ Laid ms chainText := by
  refine ⟨_, .cons
    (.int (num_written 0)
      (.loop (ms := [.name ['i'], .rel .lt, .num 4])
        ⟨.conj (.conjOne (.cmp (.factor (.signed (.atom (.var _)))) (.factor (.signed (.atom (.num _)))))), by simp [Calc.Apart]⟩
        (.chain (isNum_written 0) (.print (num_written 10) .nil) rfl
          (.chain (isNum_written 1) (.print (num_written 11) .nil) rfl
            (.choose (isNum_written 2) (.print (num_written 12) .nil) (.print (num_written 13) .nil) .nil) .nil)
          (.set .step .nil)) .nil)) .nil, ?_⟩
  exact ⟨[.word ['v', 'o', 'i', 'd'], .blank ' ', .word ['M', 'a', 'i', 'n'], .sym '(', .sym ')', .blank ' ', .sym '{', .blank ' ',
    .word ['i', 'n', 't'], .blank ' ', .word ['i'], .blank ' ', .sym '=', .blank ' ', .word ['0'], .sym ';', .blank ' ',
    .word ['w', 'h', 'i', 'l', 'e'], .blank ' ', .sym '(', .blank ' ', .word ['i'], .blank ' ', .sym '<', .blank ' ',
    .word ['4'], .blank ' ', .sym ')', .blank ' ', .sym '{', .blank ' ', .word ['i', 'f'], .blank ' ', .sym '(', .blank ' ',
    .word ['i'], .blank ' ', .sym '=', .sym '=', .blank ' ', .word ['0'], .blank ' ', .sym ')', .blank ' ', .sym '{',
    .blank ' ', .word ['p', 'r', 'i', 'n', 't'], .sym '(', .word ['1', '0'], .sym ')', .sym ';', .blank ' ', .sym '}',
    .blank ' ', .word ['e', 'l', 's', 'e'], .blank ' ', .word ['i', 'f'], .blank ' ', .sym '(', .blank ' ', .word ['i'],
    .blank ' ', .sym '=', .sym '=', .blank ' ', .word ['1'], .blank ' ', .sym ')', .blank ' ', .sym '{', .blank ' ',
    .word ['p', 'r', 'i', 'n', 't'], .sym '(', .word ['1', '1'], .sym ')', .sym ';', .blank ' ', .sym '}', .blank ' ',
    .word ['e', 'l', 's', 'e'], .blank ' ', .word ['i', 'f'], .blank ' ', .sym '(', .blank ' ', .word ['i'], .blank ' ',
    .sym '=', .sym '=', .blank ' ', .word ['2'], .blank ' ', .sym ')', .blank ' ', .sym '{', .blank ' ',
    .word ['p', 'r', 'i', 'n', 't'], .sym '(', .word ['1', '2'], .sym ')', .sym ';', .blank ' ', .sym '}', .blank ' ',
    .word ['e', 'l', 's', 'e'], .blank ' ', .sym '{', .blank ' ', .word ['p', 'r', 'i', 'n', 't'], .sym '(', .word ['1', '3'],
    .sym ')', .sym ';', .blank ' ', .sym '}', .blank ' ', .word ['i'], .sym '+', .sym '+', .sym ';', .blank ' ', .sym '}',
    .blank ' ', .sym '}'],
    by decide +kernel, by decide +kernel, by decide +kernel⟩

theorem chain_prints : Prints [chainMain] [.number 10, .number 11, .number 12, .number 13] :=
  ⟨chainMain, List.mem_cons_self, rfl, _, _, .int (i := 0) rfl
    (.loopNext (out := [.number 10]) (out' := [.number 11, .number 12, .number 13]) rfl
      (.chainTrue rfl (.block (out := [.number 10]) (out' := []) (.print rfl .done) (.set (i := 1) rfl .done))) (.inl rfl)
    (.loopNext (out := [.number 11]) (out' := [.number 12, .number 13]) rfl
      (.chainFalse rfl (.chainTrue rfl (.block (out := [.number 11]) (out' := []) (.print rfl .done)
        (.set (i := 2) rfl .done)))) (.inl rfl)
    (.loopNext (out := [.number 12]) (out' := [.number 13]) rfl
      (.chainFalse rfl (.chainFalse rfl (.chooseTrue rfl (.block (out := [.number 12]) (out' := []) (.print rfl .done)
        (.set (i := 3) rfl .done))))) (.inl rfl)
    (.loopNext (out := [.number 13]) (out' := []) rfl
      (.chainFalse rfl (.chainFalse rfl (.chooseFalse rfl (.block (out := [.number 13]) (out' := []) (.print rfl .done)
        (.set (i := 4) rfl .done))))) (.inl rfl)
    (.loopEnd rfl .done))))), .inl rfl⟩

/-- The hypotheses of `script_prints_partial` are met. -/
example : ∃ n, ∀ k, n ≤ k → runScript k chainText = .ended "10\n11\n12\n13\n".toList := by
  obtain ⟨ms, hw, hl⟩ := chain_written
  have h : lines [.number 10, .number 11, .number 12, .number 13] = "10\n11\n12\n13\n".toList := by decide +kernel
  rw [← h]
  exact (script_prints_partial chain_wellFormed hw hl chain_prints).1

end Verif.Whole.Demo
