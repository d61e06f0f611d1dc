import Verif.Whole.DemoFor

/-! Choosing a block with `switch`: a program that meets the hypotheses of C135, and a script that does not do what it says. -/

namespace Verif.Whole.Demo

open Verif.Str (Text)
open Verif.Calc (Num Cond value truth)

/-- `switch ( n ) { case 0: { return; } case 2 - 1: { print(10); break; } default: { print(n); break; } } print(100);` -/
def pickBody : List Cmd :=
  [.pick (.var ['n']) [(some (.num 0), [.leave]), (some (.bin .sub (.num 2) (.num 1)), [.print (.num 10), .brk]),
     (none, [.print (.var ['n']), .brk])],
   .print (.num 100)]

def pickFun : Fun := ⟨true, showName, [['n']], pickBody⟩

/-- Shows 0, 1 and 7; a `switch` without a block for 4 does nothing. -/
def pickMainBody : List Cmd :=
  [.act showName [.num 0], .act showName [.num 1], .act showName [.num 7], .int ['k'] (.num 4),
   .pick (.var ['k']) [(some (.num 3), [.print (.num 3), .brk])]]

def pickMain : Fun := ⟨true, mainName, [], pickMainBody⟩

def pickProgram : Program := [pickFun, pickMain]

def pickText : Text :=
  "void show(int n) { switch ( n ) { case 0: { return; } case 2 - 1: { print(10); break; } default: { print(n); break; } } print(100); } void Main() { show(0); show(1); show(7); int k = 4; switch ( k ) { case 3: { print(3); break; } } }".toList

theorem usable_k : Usable ['k'] := by
  unfold Usable Lex.PlainName
  decide +kernel

theorem pick_wellFormed : WellFormed pickProgram where
  funs := fun f hf => by
    rcases List.mem_cons.1 hf with rfl | hf
    · exact
        { name := usable_here _ (by decide)
          params := fun n hn => usable_here n (by revert n; decide)
          distinct := by decide
          body := by
            refine .pick ⟨by decide, by decide⟩ ?_ ?_ ?_ (by simp [labelled]) (by decide) (.print ⟨by decide, by decide⟩ .nil)
            · intro x hx b hb
              simp only [List.mem_cons, List.not_mem_nil, or_false] at hx
              rcases hx with rfl | rfl | rfl
              · cases hb; exact ⟨by decide, by decide⟩
              · cases hb; exact ⟨by decide, by decide⟩
              · cases hb
            · intro x hx
              simp only [List.mem_cons, List.not_mem_nil, or_false] at hx
              rcases hx with rfl | rfl | rfl
              · exact .leave .nil
              · exact .print ⟨by decide, by decide⟩ (.brk (.inr rfl) .nil)
              · exact .print ⟨by decide, by decide⟩ (.brk (.inr rfl) .nil)
            · intro x hx
              simp only [List.mem_cons, List.not_mem_nil, or_false] at hx
              rcases hx with rfl | rfl | rfl
              · exact ⟨[], .leave, rfl, rfl⟩
              · exact ⟨[.print (.num 10)], .brk, rfl, rfl⟩
              · exact ⟨[.print (.var ['n'])], .brk, rfl, rfl⟩
          result := nofun }
    rcases List.mem_cons.1 hf with rfl | hf
    · exact
        { name := usable_here _ (by decide)
          params := nofun
          distinct := by decide
          body := by
            refine .act (g := pickFun) List.mem_cons_self rfl (by decide) (.act (g := pickFun) List.mem_cons_self rfl (by decide)
              (.act (g := pickFun) List.mem_cons_self rfl (by decide) (.int usable_k rfl ⟨by decide, by decide⟩ (by decide)
              (.pick ⟨by decide, by decide⟩ ?_ ?_ ?_ (by simp [labelled]) (by decide) .nil))))
            · intro x hx b hb
              simp only [List.mem_cons, List.not_mem_nil, or_false] at hx
              subst hx
              cases hb; exact ⟨by decide, by decide⟩
            · intro x hx
              simp only [List.mem_cons, List.not_mem_nil, or_false] at hx
              subst hx
              exact .print ⟨by decide, by decide⟩ (.brk (.inr rfl) .nil)
            · intro x hx
              simp only [List.mem_cons, List.not_mem_nil, or_false] at hx
              subst hx
              exact ⟨[.print (.num 3)], .brk, rfl, rfl⟩
          result := nofun }
    cases hf
  distinct := by decide
  main := ⟨pickMain, List.mem_cons_of_mem _ List.mem_cons_self, rfl, rfl, rfl⟩

theorem writes_one (n : Nat) : WritesNum (.num n) [.num n] := ⟨.factor (.signed (.atom (.num _))), trivial⟩

theorem writes_name (n : Text) : WritesNum (.var n) [.name n] := ⟨.factor (.signed (.atom (.var _))), trivial⟩

theorem pick_written : ∃ ms, WritesProgram pickProgram ms ∧ Laid ms pickText := by
  have show_written := Writes.pick (a := .var ['n'])
    (xs := [⟨some (.num 0), [.leave], [.num 0], _⟩, ⟨some (.bin .sub (.num 2) (.num 1)), [.print (.num 10), .brk], [.num 2, .op .sub, .num 1], _⟩,
      ⟨none, [.print (.var ['n']), .brk], [], _⟩]) (cs := [.print (.num 100)]) (writes_name _)
    (by
      intro x hx b hb
      simp only [List.mem_cons, List.not_mem_nil, or_false] at hx
      rcases hx with rfl | rfl | rfl
      · cases hb; exact writes_one _
      · cases hb; exact ⟨.sum (.inr rfl) (.factor (.signed (.atom (.num _)))) (.signed (.atom (.num _))), by simp [Calc.Apart]⟩
      · cases hb)
    (List.forall_mem_cons.2 ⟨.leave .nil, List.forall_mem_cons.2 ⟨.print (writes_one _) (.brk .nil),
      List.forall_mem_cons.2 ⟨.print (writes_name _) (.brk .nil), nofun⟩⟩⟩) (.print (writes_one _) .nil)
  have last_written := Writes.pick (a := .var ['k']) (xs := [⟨some (.num 3), [.print (.num 3), .brk], [.num 3], _⟩]) (cs := []) (writes_name _)
    (by
      intro x hx b hb
      simp only [List.mem_cons, List.not_mem_nil, or_false] at hx
      subst hx
      cases hb; exact writes_one _)
    (List.forall_mem_cons.2 ⟨.print (writes_one _) (.brk .nil), nofun⟩) .nil
  refine ⟨_, .cons show_written (.cons (.act (.one (writes_one _)) (.act (.one (writes_one _)) (.act (.one (writes_one _))
    (.int (writes_one _) last_written)))) .nil), ?_⟩
  exact ⟨[.word ['v', 'o', 'i', 'd'], .blank ' ', .word ['s', 'h', 'o', 'w'], .sym '(', .word ['i', 'n', 't'], .blank ' ',
    .word ['n'], .sym ')', .blank ' ', .sym '{', .blank ' ', .word ['s', 'w', 'i', 't', 'c', 'h'], .blank ' ', .sym '(',
    .blank ' ', .word ['n'], .blank ' ', .sym ')', .blank ' ', .sym '{', .blank ' ', .word ['c', 'a', 's', 'e'], .blank ' ',
    .word ['0'], .sym ':', .blank ' ', .sym '{', .blank ' ', .word ['r', 'e', 't', 'u', 'r', 'n'], .sym ';', .blank ' ',
    .sym '}', .blank ' ', .word ['c', 'a', 's', 'e'], .blank ' ', .word ['2'], .blank ' ', .sym '-', .blank ' ', .word ['1'],
    .sym ':', .blank ' ', .sym '{', .blank ' ', .word ['p', 'r', 'i', 'n', 't'], .sym '(', .word ['1', '0'], .sym ')',
    .sym ';', .blank ' ', .word ['b', 'r', 'e', 'a', 'k'], .sym ';', .blank ' ', .sym '}', .blank ' ',
    .word ['d', 'e', 'f', 'a', 'u', 'l', 't'], .sym ':', .blank ' ', .sym '{', .blank ' ', .word ['p', 'r', 'i', 'n', 't'],
    .sym '(', .word ['n'], .sym ')', .sym ';', .blank ' ', .word ['b', 'r', 'e', 'a', 'k'], .sym ';', .blank ' ', .sym '}',
    .blank ' ', .sym '}', .blank ' ', .word ['p', 'r', 'i', 'n', 't'], .sym '(', .word ['1', '0', '0'], .sym ')', .sym ';',
    .blank ' ', .sym '}', .blank ' ', .word ['v', 'o', 'i', 'd'], .blank ' ', .word ['M', 'a', 'i', 'n'], .sym '(', .sym ')',
    .blank ' ', .sym '{', .blank ' ', .word ['s', 'h', 'o', 'w'], .sym '(', .word ['0'], .sym ')', .sym ';', .blank ' ',
    .word ['s', 'h', 'o', 'w'], .sym '(', .word ['1'], .sym ')', .sym ';', .blank ' ', .word ['s', 'h', 'o', 'w'], .sym '(',
    .word ['7'], .sym ')', .sym ';', .blank ' ', .word ['i', 'n', 't'], .blank ' ', .word ['k'], .blank ' ', .sym '=',
    .blank ' ', .word ['4'], .sym ';', .blank ' ', .word ['s', 'w', 'i', 't', 'c', 'h'], .blank ' ', .sym '(', .blank ' ',
    .word ['k'], .blank ' ', .sym ')', .blank ' ', .sym '{', .blank ' ', .word ['c', 'a', 's', 'e'], .blank ' ', .word ['3'],
    .sym ':', .blank ' ', .sym '{', .blank ' ', .word ['p', 'r', 'i', 'n', 't'], .sym '(', .word ['3'], .sym ')', .sym ';',
    .blank ' ', .word ['b', 'r', 'e', 'a', 'k'], .sym ';', .blank ' ', .sym '}', .blank ' ', .sym '}', .blank ' ', .sym '}'],
    by decide +kernel, by decide +kernel, by decide +kernel⟩

theorem pick_zero : ∃ vs, Does pickProgram [[(['n'], .int 0)]] pickBody [] vs .left :=
  ⟨_, .pickLeft rfl rfl .leave nofun nofun⟩

theorem pick_one : ∃ vs, Does pickProgram [[(['n'], .int 1)]] pickBody [.number 10, .number 100] vs .next :=
  ⟨_, .pick (out := [.number 10]) (out' := [.number 100]) rfl rfl (.print rfl .brk) (.inr rfl) (.print rfl .done)⟩

theorem pick_seven : ∃ vs, Does pickProgram [[(['n'], .int 7)]] pickBody [.number 7, .number 100] vs .next :=
  ⟨_, .pick (out := [.number 7]) (out' := [.number 100]) rfl rfl (.print rfl .brk) (.inr rfl) (.print rfl .done)⟩

theorem pick_prints : Prints pickProgram [.number 10, .number 100, .number 7, .number 100] := by
  obtain ⟨_, h0⟩ := pick_zero
  obtain ⟨_, h1⟩ := pick_one
  obtain ⟨_, h7⟩ := pick_seven
  exact ⟨pickMain, List.mem_cons_of_mem _ List.mem_cons_self, rfl, _, _,
    .act (is := [0]) (g := pickFun) (out := []) (out' := [.number 10, .number 100, .number 7, .number 100]) rfl List.mem_cons_self rfl h0 nofun nofun
    (.act (is := [1]) (g := pickFun) (out := [.number 10, .number 100]) (out' := [.number 7, .number 100]) rfl List.mem_cons_self rfl h1 nofun nofun
    (.act (is := [7]) (g := pickFun) (out := [.number 7, .number 100]) (out' := []) rfl List.mem_cons_self rfl h7 nofun nofun
    (.int rfl (.pick (out := []) (out' := []) (b := []) rfl rfl .done (.inl rfl) .done)))), .inl rfl⟩

/-- The hypotheses of `script_prints_partial` are met. -/
example : ∃ n, ∀ k, n ≤ k → runScript k pickText = .ended "10\n100\n7\n100\n".toList := by
  obtain ⟨ms, hw, hl⟩ := pick_written
  have h : lines [.number 10, .number 100, .number 7, .number 100] = "10\n100\n7\n100\n".toList := by decide +kernel
  rw [← h]
  exact (script_prints_partial pick_wellFormed hw hl pick_prints).1

/-- `void Main() { int n = 0; while ( n < 1 ) { switch ( n ) { case 0: { n = 1; continue; } default: { print(7); break; } } } }` -/
def repeatProgram : Program :=
  [⟨true, mainName, [], [.int ['n'] (.num 0), .loop (.cmp .lt (.var ['n']) (.num 1))
    [.pick (.var ['n']) [(some (.num 0), [.set (.to ['n'] (.num 1)), .cont]), (none, [.print (.num 7), .brk])]]]⟩]

def repeatText : Text :=
  "void Main() { int n = 0; while ( n < 1 ) { switch ( n ) { case 0: { n = 1; continue; } default: { print(7); break; } } } }".toList

/-- C135 fails for `continue` in a `switch`: it does not go on with the loop around it, but with the same `switch` again. -/
theorem continue_in_switch_refuted : ∃ p ms text, WritesProgram p ms ∧ Laid ms text ∧ Prints p [] ∧
    ∀ k, runScript k text = .running ∨ runScript k text = .ended (lines [.number 7]) := by
  have switch_written := Writes.pick (a := .var ['n'])
    (xs := [⟨some (.num 0), [.set (.to ['n'] (.num 1)), .cont], [.num 0], _⟩, ⟨none, [.print (.num 7), .brk], [], _⟩]) (cs := []) (writes_name _)
    (by
      intro x hx b hb
      simp only [List.mem_cons, List.not_mem_nil, or_false] at hx
      rcases hx with rfl | rfl
      · cases hb; exact writes_one _
      · cases hb)
    (List.forall_mem_cons.2 ⟨.set (.to (writes_one _)) (.cont .nil), List.forall_mem_cons.2 ⟨.print (writes_one _) (.brk .nil), nofun⟩⟩) .nil
  refine ⟨repeatProgram, _, repeatText, .cons (.int (writes_one _) (.loop (ms := [.name ['n'], .rel .lt, .num 1])
    ⟨.conj (.conjOne (.cmp (.factor (.signed (.atom (.var _)))) (.factor (.signed (.atom (.num _)))))), by simp [Calc.Apart]⟩
    switch_written .nil)) .nil, ?_, ?_, ?_⟩
  · exact ⟨[.word ['v', 'o', 'i', 'd'], .blank ' ', .word ['M', 'a', 'i', 'n'], .sym '(', .sym ')', .blank ' ', .sym '{', .blank ' ',
    .word ['i', 'n', 't'], .blank ' ', .word ['n'], .blank ' ', .sym '=', .blank ' ', .word ['0'], .sym ';', .blank ' ',
    .word ['w', 'h', 'i', 'l', 'e'], .blank ' ', .sym '(', .blank ' ', .word ['n'], .blank ' ', .sym '<', .blank ' ',
    .word ['1'], .blank ' ', .sym ')', .blank ' ', .sym '{', .blank ' ', .word ['s', 'w', 'i', 't', 'c', 'h'], .blank ' ',
    .sym '(', .blank ' ', .word ['n'], .blank ' ', .sym ')', .blank ' ', .sym '{', .blank ' ', .word ['c', 'a', 's', 'e'],
    .blank ' ', .word ['0'], .sym ':', .blank ' ', .sym '{', .blank ' ', .word ['n'], .blank ' ', .sym '=', .blank ' ',
    .word ['1'], .sym ';', .blank ' ', .word ['c', 'o', 'n', 't', 'i', 'n', 'u', 'e'], .sym ';', .blank ' ', .sym '}',
    .blank ' ', .word ['d', 'e', 'f', 'a', 'u', 'l', 't'], .sym ':', .blank ' ', .sym '{', .blank ' ',
    .word ['p', 'r', 'i', 'n', 't'], .sym '(', .word ['7'], .sym ')', .sym ';', .blank ' ', .word ['b', 'r', 'e', 'a', 'k'],
    .sym ';', .blank ' ', .sym '}', .blank ' ', .sym '}', .blank ' ', .sym '}', .blank ' ', .sym '}'],
      by decide +kernel, by decide +kernel, by decide +kernel⟩
  · exact ⟨_, List.mem_cons_self, rfl, _, _, .int rfl (.loopNext (out := []) (out' := []) rfl
      (.pickLeft rfl rfl (.set rfl .cont) nofun nofun) (.inr rfl) (.loopEnd rfl .done)), .inl rfl⟩
  · have h : runScript 100 repeatText = .ended (lines [.number 7]) := by decide +kernel
    intro k
    by_cases hk : runScript k repeatText = .running
    · exact .inl hk
    · exact .inr ((script_unique hk (n := 100) (by rw [h]; nofun)).trans h)

end Verif.Whole.Demo
