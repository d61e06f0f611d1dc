import Verif.Whole.DemoRejects
import Verif.Whole.DemoSwitch

/-! String variables: a program that meets the hypotheses of C135, and one that C140 says is rejected. -/

namespace Verif.Whole.Demo

open Verif.Str (Text)
open Verif.Calc (Num Cond value truth)

theorem usable_s : Usable ['s'] := by
  unfold Usable Lex.PlainName
  decide +kernel

theorem usable_t : Usable ['t'] := by
  unfold Usable Lex.PlainName
  decide +kernel

theorem usable_n : Usable ['n'] := usable_names _ (by decide)

/-- `t = t + n + s;` -/
def growBody : List Cmd := [.write ['t'] (.var ['t']) [.num (.var ['n']), .var ['s']], .set (.step false ['n'])]

def growMain : Fun :=
  ⟨true, mainName, [], [.text ['s'] (.text ",".toList) [], .fresh .string ['t'], .int ['n'] (.num 3),
    .loop (.cmp .gt (.var ['n']) (.num 0)) growBody, .say (.var ['t']) [.text "end".toList]]⟩

def growText : Text :=
  "void Main() { string s = \",\"; string t; int n = 3; while ( n > 0 ) { t = t + n + s; n--; } print(t + \"end\"); }".toList

theorem grow_wellFormed : WellFormed [growMain] where
  funs := fun f hf => by
    rcases List.mem_cons.1 hf with rfl | hf
    · exact
        { name := usable_names _ (by decide)
          params := nofun
          distinct := by decide
          body := .text usable_s rfl trivial nofun (by decide) (.fresh usable_t rfl (.int usable_n rfl ⟨by decide, by decide⟩ (by decide)
            (.loop ⟨by decide, by decide, by decide⟩
              (.write rfl rfl (List.forall_mem_cons.2 ⟨⟨by decide, by decide⟩, List.forall_mem_cons.2 ⟨rfl, nofun⟩⟩)
                (.set rfl ⟨by decide, by decide⟩ .nil))
              (.say rfl (List.forall_mem_cons.2 ⟨trivial, nofun⟩) .nil))))
          result := nofun }
    · cases hf
  distinct := by decide
  main := ⟨growMain, List.mem_cons_self, rfl, rfl, rfl⟩

theorem grow_written : ∃ ms, WritesProgram [growMain] ms ∧ Laid ms growText := by
  refine ⟨_, .cons (.text .nil (.fresh (.int (writes_one _) (.loop (ms := [.name ['n'], .rel .gt, .num 0])
    ⟨.conj (.conjOne (.cmp (.factor (.signed (.atom (.var _)))) (.factor (.signed (.atom (.num _)))))), by simp [Calc.Apart]⟩
    (.write (.num (ms := [.name ['n']]) (.signed (.atom (.var _))) trivial (.var .nil)) (.set .step .nil))
    (.say (.text .nil) .nil))))) .nil, ?_⟩
  exact ⟨[.word ['v', 'o', 'i', 'd'], .blank ' ', .word ['M', 'a', 'i', 'n'], .sym '(', .sym ')', .blank ' ', .sym '{', .blank ' ',
    .word ['s', 't', 'r', 'i', 'n', 'g'], .blank ' ', .word ['s'], .blank ' ', .sym '=', .blank ' ', Lex.quotedPiece ",".toList,
    .sym ';', .blank ' ', .word ['s', 't', 'r', 'i', 'n', 'g'], .blank ' ', .word ['t'], .sym ';', .blank ' ',
    .word ['i', 'n', 't'], .blank ' ', .word ['n'], .blank ' ', .sym '=', .blank ' ', .word ['3'], .sym ';', .blank ' ',
    .word ['w', 'h', 'i', 'l', 'e'], .blank ' ', .sym '(', .blank ' ', .word ['n'], .blank ' ', .sym '>', .blank ' ',
    .word ['0'], .blank ' ', .sym ')', .blank ' ', .sym '{', .blank ' ', .word ['t'], .blank ' ', .sym '=', .blank ' ',
    .word ['t'], .blank ' ', .sym '+', .blank ' ', .word ['n'], .blank ' ', .sym '+', .blank ' ', .word ['s'], .sym ';',
    .blank ' ', .word ['n'], .sym '-', .sym '-', .sym ';', .blank ' ', .sym '}', .blank ' ', .word ['p', 'r', 'i', 'n', 't'],
    .sym '(', .word ['t'], .blank ' ', .sym '+', .blank ' ', Lex.quotedPiece "end".toList, .sym ')', .sym ';', .blank ' ', .sym '}'],
    by decide +kernel, by decide +kernel, by decide +kernel⟩

theorem grow_prints : Prints [growMain] [.text "3,2,1,end".toList] :=
  ⟨growMain, List.mem_cons_self, rfl, _, _, .text (u := ",".toList) rfl (.fresh (.int (i := 3) rfl
    (.loopNext rfl (.write (u := "3,".toList) (by decide +kernel) (.set (i := 2) rfl .done)) (.inl rfl)
    (.loopNext rfl (.write (u := "3,2,".toList) (by decide +kernel) (.set (i := 1) rfl .done)) (.inl rfl)
    (.loopNext rfl (.write (u := "3,2,1,".toList) (by decide +kernel) (.set (i := 0) rfl .done)) (.inl rfl)
    (.loopEnd rfl (.say (u := "3,2,1,end".toList) (by decide +kernel) .done))))))), .inl rfl⟩

/-- The hypotheses of `script_prints_partial` are met. -/
example : ∃ n, ∀ k, n ≤ k → runScript k growText = .ended "3,2,1,end\n".toList := by
  obtain ⟨ms, hw, hl⟩ := grow_written
  have h : lines [.text "3,2,1,end".toList] = "3,2,1,end\n".toList := by decide +kernel
  rw [← h]
  exact (script_prints_partial grow_wellFormed hw hl grow_prints).1

/-! A text may take a number, but not the other way round. -/

def mixMain : Fun :=
  ⟨true, mainName, [], [.text ['s'] (.text "a".toList) [], .int ['n'] (.num 1), .write ['s'] (.var ['s']) [.num (.var ['n'])],
    .set (.to ['n'] (.var ['s']))]⟩

def mixText : Text := "void Main() { string s = \"a\"; int n = 1; s = s + n; n = s; }".toList

theorem mix_written : ∃ ms, WritesProgram [mixMain] ms ∧ Laid ms mixText := by
  refine ⟨_, .cons (.text .nil (.int (writes_one _) (.write (.num (ms := [.name ['n']]) (.signed (.atom (.var _))) trivial .nil)
    (.set (.to (writes_name _)) .nil)))) .nil, ?_⟩
  exact ⟨[.word ['v', 'o', 'i', 'd'], .blank ' ', .word ['M', 'a', 'i', 'n'], .sym '(', .sym ')', .blank ' ', .sym '{', .blank ' ',
    .word ['s', 't', 'r', 'i', 'n', 'g'], .blank ' ', .word ['s'], .blank ' ', .sym '=', .blank ' ', Lex.quotedPiece "a".toList,
    .sym ';', .blank ' ', .word ['i', 'n', 't'], .blank ' ', .word ['n'], .blank ' ', .sym '=', .blank ' ', .word ['1'],
    .sym ';', .blank ' ', .word ['s'], .blank ' ', .sym '=', .blank ' ', .word ['s'], .blank ' ', .sym '+', .blank ' ',
    .word ['n'], .sym ';', .blank ' ', .word ['n'], .blank ' ', .sym '=', .blank ' ', .word ['s'], .sym ';', .blank ' ',
    .sym '}'],
    by decide +kernel, by decide +kernel, by decide +kernel⟩

theorem mix_clean : Clean [mixMain] := by
  have hs : VarName [mixMain] ['s'] := ⟨usable_s, by decide⟩
  have hn : VarName [mixMain] ['n'] := ⟨usable_n, by decide⟩
  intro f hf
  cases List.mem_singleton.1 hf
  refine ⟨more_names _ (by decide), nofun, ?_⟩
  simp only [mixMain, CmdsClean, CmdClean, StartClean, ChangeClean, NumClean, Num.vars, Num.nums, Change.name, Change.num]
  refine ⟨⟨hs, trivial, nofun⟩, ⟨hn, nofun, by decide⟩, ⟨hs, hs, ?_⟩, ⟨hn, ?_, nofun⟩, trivial⟩
  · intro x hx
    cases List.mem_singleton.1 hx
    exact ⟨fun m hm => by cases List.mem_singleton.1 hm; exact hn, nofun⟩
  · exact fun m hm => by cases List.mem_singleton.1 hm; exact hs

/-- The hypotheses of `script_rejected_partial` are met, and the last command breaks a rule: a number does not take a text. -/
example : ∀ k, runScript k mixText = .rejected := by
  obtain ⟨ms, hw, hl⟩ := mix_written
  intro k
  refine (script_rejected_partial mix_clean hw hl k).2 fun h => ?_
  have := h.bodies mixMain List.mem_cons_self
  revert this
  decide +kernel

end Verif.Whole.Demo
