import Verif.Whole.DemoRejects
import Verif.Whole.DemoFor

/-! Operators that change a variable, and printed texts: a program that meets the hypotheses of C135, and a mistake that C140 misses. -/

namespace Verif.Whole.Demo

open Verif.Str (Text)
open Verif.Calc (Num Cond value truth)

/-- `int s = 10; for ( int i = 0; i < 3; i++ ) { s -= i; } print("Sum: " + s + ", " + s * 2 + (s < 9)); print(s);` -/
def changeBody : List Cmd :=
  [.int ['s'] (.num 10),
   .count ['i'] (.num 0) (.cmp .lt (.var ['i']) (.num 3)) (.step true ['i']) [.set (.by ['s'] .sub (.var ['i']))],
   .say (.text "Sum: ".toList) [.num (.var ['s']), .text ", ".toList, .num (.bin .mul (.var ['s']) (.num 2)), .truth (.cmp .lt (.var ['s']) (.num 9))], .print (.var ['s'])]

def changeFun : Fun := ⟨true, mainName, [], changeBody⟩

def changeProgram : Program := [changeFun]

def changeText : Text :=
  "void Main() { int s = 10; for ( int i = 0; i < 3; i++ ) { s -= i; } print(\"Sum: \" + s + \", \" + s * 2 + (s < 9)); print(s); }".toList

theorem change_parts : ∀ x ∈ [Part.num (.var ['s']), .text ", ".toList, .num (.bin .mul (.var ['s']) (.num 2)), .truth (.cmp .lt (.var ['s']) (.num 9))],
    PartFits [[(['s'], .int)]] x := by
  intro x hx
  simp only [List.mem_cons, List.not_mem_nil, or_false] at hx
  rcases hx with rfl | rfl | rfl | rfl
  · exact ⟨by decide, by decide⟩
  · trivial
  · exact ⟨by decide, by decide⟩
  · exact ⟨by decide, by decide, by decide⟩

theorem change_wellFormed : WellFormed changeProgram where
  funs := fun f hf => by
    rcases List.mem_cons.1 hf with rfl | hf
    · exact
        { name := usable_here _ (by decide)
          params := nofun
          distinct := by decide
          body := .int (usable_here _ (by decide)) rfl ⟨by decide, by decide⟩ (by decide)
            (.count (usable_here _ (by decide)) ⟨by decide, by decide⟩ (by decide) ⟨by decide, by decide, by decide⟩ rfl
              ⟨by decide, by decide⟩ (.set rfl ⟨by decide, by decide⟩ .nil) (.say trivial change_parts (.print ⟨by decide, by decide⟩ .nil)))
          result := nofun }
    cases hf
  distinct := by decide
  main := ⟨changeFun, List.mem_cons_self, rfl, rfl, rfl⟩

theorem change_written : ∃ ms, WritesProgram changeProgram ms ∧ Laid ms changeText := by
  refine ⟨_, .cons (.int (ms := [.num 10]) ⟨.factor (.signed (.atom (.num _))), trivial⟩
      (.count (ms := [.num 0]) (cm := [.name ['i'], .rel .lt, .num 3]) ⟨.factor (.signed (.atom (.num _))), trivial⟩
        ⟨.conj (.conjOne (.cmp (.factor (.signed (.atom (.var _)))) (.factor (.signed (.atom (.num _)))))), by simp [Calc.Apart]⟩ .step
        (.set (.by (ms := [.name ['i']]) ⟨.factor (.signed (.atom (.var _))), trivial⟩) .nil)
        (.say (.num (ms := [.name ['s']]) (.signed (.atom (.var _))) trivial (.text (.num (ms := [.name ['s'], .op .mul, .num 2])
          (.product (.inl rfl) (.signed (.atom (.var _))) (.atom (.num _))) (by simp [Calc.Apart])
          (.truth (ms := [.open, .name ['s'], .rel .lt, .num 9, .close]) (.paren (ms := [.name ['s'], .rel .lt, .num 9]) (.conj (.conjOne (.cmp (.factor (.signed (.atom (.var _)))) (.factor (.signed (.atom (.num _))))))))
            (by simp [Calc.Apart]) .nil))))
          (.print (ms := [.name ['s']]) ⟨.factor (.signed (.atom (.var _))), trivial⟩ .nil)))) .nil, ?_⟩
  exact ⟨[.word ['v', 'o', 'i', 'd'], .blank ' ', .word ['M', 'a', 'i', 'n'], .sym '(', .sym ')', .blank ' ', .sym '{', .blank ' ',
    .word ['i', 'n', 't'], .blank ' ', .word ['s'], .blank ' ', .sym '=', .blank ' ', .word ['1', '0'], .sym ';', .blank ' ',
    .word ['f', 'o', 'r'], .blank ' ', .sym '(', .blank ' ', .word ['i', 'n', 't'], .blank ' ', .word ['i'], .blank ' ',
    .sym '=', .blank ' ', .word ['0'], .sym ';', .blank ' ', .word ['i'], .blank ' ', .sym '<', .blank ' ', .word ['3'],
    .sym ';', .blank ' ', .word ['i'], .sym '+', .sym '+', .blank ' ', .sym ')', .blank ' ', .sym '{', .blank ' ', .word ['s'],
    .blank ' ', .sym '-', .sym '=', .blank ' ', .word ['i'], .sym ';', .blank ' ', .sym '}', .blank ' ',
    .word ['p', 'r', 'i', 'n', 't'], .sym '(', Lex.quotedPiece "Sum: ".toList, .blank ' ', .sym '+', .blank ' ', .word ['s'], .blank ' ', .sym '+',
    .blank ' ', Lex.quotedPiece ", ".toList, .blank ' ', .sym '+', .blank ' ', .word ['s'], .blank ' ', .sym '*', .blank ' ', .word ['2'], .blank ' ', .sym '+', .blank ' ', .sym '(', .word ['s'], .blank ' ', .sym '<', .blank ' ', .word ['9'], .sym ')',
    .sym ')', .sym ';', .blank ' ',
    .word ['p', 'r', 'i', 'n', 't'], .sym '(', .word ['s'], .sym ')', .sym ';', .blank ' ', .sym '}'],
    by decide +kernel, by decide +kernel, by decide +kernel⟩

theorem change_prints : Prints changeProgram [.text "Sum: 7, 141".toList, .number 7] :=
  ⟨changeFun, List.mem_cons_self, rfl, _, _, .int rfl
    (.count (out := []) (out' := [.text "Sum: 7, 141".toList, .number 7]) rfl
      (.roundsNext (out := []) (out' := []) rfl (.set rfl .done) (.inl rfl) rfl
      (.roundsNext (out := []) (out' := []) rfl (.set rfl .done) (.inl rfl) rfl
      (.roundsNext (out := []) (out' := []) rfl (.set rfl .done) (.inl rfl) rfl (.roundsEnd rfl .done))))
      (.say (by decide +kernel) (.print rfl .done))), .inl rfl⟩

/-- The hypotheses of `script_prints_partial` are met. -/
example : ∃ n, ∀ k, n ≤ k → runScript k changeText = .ended "Sum: 7, 141\n7\n".toList := by
  obtain ⟨ms, hw, hl⟩ := change_written
  have h : lines [.text "Sum: 7, 141".toList, .number 7] = "Sum: 7, 141\n7\n".toList := by decide +kernel
  rw [← h]
  exact (script_prints_partial change_wellFormed hw hl change_prints).1

/-- `bool b = true; print("Here"); b++; print("There");` -/
def boolBody : List Cmd := [.bool ['b'] (.const true), .say (.text "Here".toList) [], .set (.step true ['b']), .say (.text "There".toList) []]

def boolProgram : Program := [⟨true, mainName, [], boolBody⟩]

def boolText : Text := "void Main() { bool b = true; print(\"Here\"); b++; print(\"There\"); }".toList

/-- The command counts a truth value up or down. -/
def CountsTruth (Γ : Ctx) (c : Cmd) : Prop := ∃ up n, c = .set (.step up n) ∧ kind Γ n = some .bool

/-- C140: that `++` has no meaning for a truth value is not found: the script is accepted, and fails when it runs. -/
theorem counted_truth_refuted : ∃ p ms text, Clean p ∧ WritesProgram p ms ∧ Laid ms text ∧
    (∃ f ∈ p, ∃ n a c, .bool n a ∈ f.body ∧ c ∈ f.body ∧ CountsTruth [[(n, .bool)]] c) ∧
    (∃ l, load text = .ok l) ∧ ∀ k, runScript k text = .running ∨ runScript k text = .failed := by
  have hb : Usable ['b'] ∧ ['b'] ∉ boolProgram.map Fun.name := by
    refine ⟨?_, by decide⟩
    unfold Usable Lex.PlainName
    decide +kernel
  refine ⟨boolProgram, _, boolText, ?_, .cons (.bool (ms := [.const true]) ⟨.conj (.conjOne (.negated (.atom (.const _)))), trivial⟩
    (.say .nil (.set .step (.say .nil .nil)))) .nil, ?_,
    ⟨_, List.mem_cons_self, ['b'], .const true, .set (.step true ['b']), .head _, .tail _ (.tail _ (.head _)), true, ['b'], rfl, rfl⟩, ?_, ?_⟩
  · intro f hf
    cases List.mem_singleton.1 hf
    refine ⟨usable_here _ (by decide), nofun, ⟨hb, nofun, nofun, nofun⟩, ⟨trivial, nofun⟩, ⟨hb, ?_, ?_⟩, ⟨trivial, nofun⟩, trivial⟩
    · intro n hn
      cases List.mem_singleton.1 hn
      exact hb
    · intro k hk
      cases List.mem_singleton.1 hk
      decide
  · exact ⟨[.word ['v', 'o', 'i', 'd'], .blank ' ', .word ['M', 'a', 'i', 'n'], .sym '(', .sym ')', .blank ' ', .sym '{', .blank ' ',
    .word ['b', 'o', 'o', 'l'], .blank ' ', .word ['b'], .blank ' ', .sym '=', .blank ' ', .word ['t', 'r', 'u', 'e'],
    .sym ';', .blank ' ', .word ['p', 'r', 'i', 'n', 't'], .sym '(', Lex.quotedPiece "Here".toList, .sym ')', .sym ';', .blank ' ',
    .word ['b'], .sym '+', .sym '+', .sym ';', .blank ' ', .word ['p', 'r', 'i', 'n', 't'], .sym '(', Lex.quotedPiece "There".toList,
    .sym ')', .sym ';', .blank ' ', .sym '}'],
      by decide +kernel, by decide +kernel, by decide +kernel⟩
  · have h : (match load boolText with | .ok _ => true | _ => false) = true := by decide +kernel
    split at h
    · rename_i l hl
      exact ⟨l, hl⟩
    · cases h
  · have h : runScript 100 boolText = .failed := by decide +kernel
    intro k
    by_cases hk : runScript k boolText = .running
    · exact .inl hk
    · exact .inr ((script_unique hk (n := 100) (by rw [h]; nofun)).trans h)

end Verif.Whole.Demo
