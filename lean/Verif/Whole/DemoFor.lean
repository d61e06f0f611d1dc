import Verif.Whole.Demo

/-! Counting loops, functions called for what they print, and `return` without a result: a program that meets the hypotheses of C135,
and a script that does not do what it says. -/

namespace Verif.Whole.Demo

open Verif.Str (Text)
open Verif.Calc (Num Cond value truth)

def showName : Text := ['s', 'h', 'o', 'w']

def sumName : Text := ['s', 'u', 'm']

/-- `if ( n == 2 ) { return; } print(n);` -/
def showBody : List Cmd := [.when (.cmp .eq (.var ['n']) (.num 2)) [.leave], .print (.var ['n'])]

def showFun : Fun := ⟨true, showName, [['n']], showBody⟩

/-- `i = i + 1` -/
def up : Num := .bin .add (.var ['i']) (.num 1)

/-- `int s = 0; for ( int i = 1; i <= n; i = i + 1 ) { s = s + i; } return s;` -/
def sumBody : List Cmd :=
  [.int ['s'] (.num 0),
   .count ['i'] (.num 1) (.cmp .le (.var ['i']) (.var ['n'])) (.to ['i'] up) [.set (.to ['s'] (.bin .add (.var ['s']) (.var ['i'])))],
   .ret (.var ['s'])]

def sumFun : Fun := ⟨false, sumName, [['n']], sumBody⟩

/-- Shows 0, 2, 3 and 4, then prints the sum of 1, 2 and 3. -/
def countBody : List Cmd :=
  [.int ['t'] (.num 0),
   .count ['i'] (.num 0) (.cmp .lt (.var ['i']) (.num 5)) (.to ['i'] up)
     [.when (.cmp .eq (.var ['i']) (.num 1)) [.cont], .act showName [.var ['i']]],
   .call (.set ['t']) sumName [.num 3], .print (.var ['t']), .leave]

def countFun : Fun := ⟨true, mainName, [], countBody⟩

def countProgram : Program := [showFun, sumFun, countFun]

def countText : Text :=
  "void show(int n) { if ( n == 2 ) { return; } print(n); } int sum(int n) { int s = 0; for ( int i = 1; i <= n; i = i + 1 ) { s = s + i; } return s; } void Main() { int t = 0; for ( int i = 0; i < 5; i = i + 1 ) { if ( i == 1 ) { continue; } show(i); } t = sum(3); print(t); return; }".toList

theorem usable_here : ∀ n ∈ [['n'], ['s'], ['i'], ['t'], showName, sumName, mainName], Usable n := by
  unfold Usable Lex.PlainName
  decide +kernel

theorem count_wellFormed : WellFormed countProgram where
  funs := fun f hf => by
    rcases List.mem_cons.1 hf with rfl | hf
    · exact
        { name := usable_here _ (by decide)
          params := fun n hn => usable_here n (by revert n; decide)
          distinct := by decide
          body := .when ⟨by decide, by decide, by decide⟩ (.leave .nil) (.print ⟨by decide, by decide⟩ .nil)
          result := nofun }
    rcases List.mem_cons.1 hf with rfl | hf
    · exact
        { name := usable_here _ (by decide)
          params := fun n hn => usable_here n (by revert n; decide)
          distinct := by decide
          body := .int (usable_here _ (by decide)) rfl ⟨by decide, by decide⟩ (by decide)
            (.count (usable_here _ (by decide)) ⟨by decide, by decide⟩ (by decide) ⟨by decide, by decide, by decide⟩ rfl
              ⟨by decide, by decide⟩ (.set rfl ⟨by decide, by decide⟩ .nil) (.ret ⟨by decide, by decide⟩ .nil))
          result := fun _ => ⟨sumBody.take 2, .ret (.var ['s']), rfl, trivial⟩ }
    rcases List.mem_cons.1 hf with rfl | hf
    · exact
        { name := usable_here _ (by decide)
          params := nofun
          distinct := by decide
          body := .int (usable_here _ (by decide)) rfl ⟨by decide, by decide⟩ (by decide)
            (.count (usable_here _ (by decide)) ⟨by decide, by decide⟩ (by decide) ⟨by decide, by decide, by decide⟩ rfl
              ⟨by decide, by decide⟩
              (.when ⟨by decide, by decide, by decide⟩ (.cont (.inr rfl) .nil)
                (.act (g := showFun) List.mem_cons_self rfl (by decide) .nil))
              (.call (g := sumFun) (.set rfl) (List.mem_cons_of_mem _ List.mem_cons_self) rfl rfl (by decide)
                (.print ⟨by decide, by decide⟩ (.leave .nil))))
          result := nofun }
    cases hf
  distinct := by decide
  main := ⟨countFun, List.mem_cons_of_mem _ (List.mem_cons_of_mem _ List.mem_cons_self), rfl, rfl, rfl⟩

theorem writes_up : WritesNum up [.name ['i'], .op .add, .num 1] :=
  ⟨.sum (.inl rfl) (.factor (.signed (.atom (.var _)))) (.signed (.atom (.num _))), by simp [Calc.Apart]⟩

theorem count_written : ∃ ms, WritesProgram countProgram ms ∧ Laid ms countText := by
  refine ⟨_, .cons
    (.when (ms := [.name ['n'], .rel .eq, .num 2])
      ⟨.conj (.conjOne (.cmp (.factor (.signed (.atom (.var _)))) (.factor (.signed (.atom (.num _)))))), by simp [Calc.Apart]⟩
      (.leave .nil) (.print (ms := [.name ['n']]) ⟨.factor (.signed (.atom (.var _))), trivial⟩ .nil))
    (.cons (.int (ms := [.num 0]) ⟨.factor (.signed (.atom (.num _))), trivial⟩
      (.count (ms := [.num 1]) (cm := [.name ['i'], .rel .le, .name ['n']]) ⟨.factor (.signed (.atom (.num _))), trivial⟩
        ⟨.conj (.conjOne (.cmp (.factor (.signed (.atom (.var _)))) (.factor (.signed (.atom (.var _)))))), by simp [Calc.Apart]⟩ (.to writes_up)
        (.set (.to (ms := [.name ['s'], .op .add, .name ['i']])
          ⟨.sum (.inl rfl) (.factor (.signed (.atom (.var _)))) (.signed (.atom (.var _))), by simp [Calc.Apart]⟩) .nil)
        (.ret (ms := [.name ['s']]) ⟨.factor (.signed (.atom (.var _))), trivial⟩ .nil)))
    (.cons (.int (ms := [.num 0]) ⟨.factor (.signed (.atom (.num _))), trivial⟩
      (.count (ms := [.num 0]) (cm := [.name ['i'], .rel .lt, .num 5]) ⟨.factor (.signed (.atom (.num _))), trivial⟩
        ⟨.conj (.conjOne (.cmp (.factor (.signed (.atom (.var _)))) (.factor (.signed (.atom (.num _)))))), by simp [Calc.Apart]⟩ (.to writes_up)
        (.when (ms := [.name ['i'], .rel .eq, .num 1])
          ⟨.conj (.conjOne (.cmp (.factor (.signed (.atom (.var _)))) (.factor (.signed (.atom (.num _)))))), by simp [Calc.Apart]⟩
          (.cont .nil) (.act (.one (ms := [.name ['i']]) ⟨.factor (.signed (.atom (.var _))), trivial⟩) .nil))
        (.call (.one (ms := [.num 3]) ⟨.factor (.signed (.atom (.num _))), trivial⟩)
          (.print (ms := [.name ['t']]) ⟨.factor (.signed (.atom (.var _))), trivial⟩ (.leave .nil)))))
      .nil)), ?_⟩
  exact ⟨[.word ['v', 'o', 'i', 'd'], .blank ' ', .word ['s', 'h', 'o', 'w'], .sym '(', .word ['i', 'n', 't'], .blank ' ',
    .word ['n'], .sym ')', .blank ' ', .sym '{', .blank ' ', .word ['i', 'f'], .blank ' ', .sym '(', .blank ' ', .word ['n'],
    .blank ' ', .sym '=', .sym '=', .blank ' ', .word ['2'], .blank ' ', .sym ')', .blank ' ', .sym '{', .blank ' ',
    .word ['r', 'e', 't', 'u', 'r', 'n'], .sym ';', .blank ' ', .sym '}', .blank ' ', .word ['p', 'r', 'i', 'n', 't'],
    .sym '(', .word ['n'], .sym ')', .sym ';', .blank ' ', .sym '}', .blank ' ', .word ['i', 'n', 't'], .blank ' ',
    .word ['s', 'u', 'm'], .sym '(', .word ['i', 'n', 't'], .blank ' ', .word ['n'], .sym ')', .blank ' ', .sym '{',
    .blank ' ', .word ['i', 'n', 't'], .blank ' ', .word ['s'], .blank ' ', .sym '=', .blank ' ', .word ['0'], .sym ';',
    .blank ' ', .word ['f', 'o', 'r'], .blank ' ', .sym '(', .blank ' ', .word ['i', 'n', 't'], .blank ' ', .word ['i'],
    .blank ' ', .sym '=', .blank ' ', .word ['1'], .sym ';', .blank ' ', .word ['i'], .blank ' ', .sym '<', .sym '=',
    .blank ' ', .word ['n'], .sym ';', .blank ' ', .word ['i'], .blank ' ', .sym '=', .blank ' ', .word ['i'], .blank ' ',
    .sym '+', .blank ' ', .word ['1'], .blank ' ', .sym ')', .blank ' ', .sym '{', .blank ' ', .word ['s'], .blank ' ',
    .sym '=', .blank ' ', .word ['s'], .blank ' ', .sym '+', .blank ' ', .word ['i'], .sym ';', .blank ' ', .sym '}',
    .blank ' ', .word ['r', 'e', 't', 'u', 'r', 'n'], .blank ' ', .word ['s'], .sym ';', .blank ' ', .sym '}', .blank ' ',
    .word ['v', 'o', 'i', 'd'], .blank ' ', .word ['M', 'a', 'i', 'n'], .sym '(', .sym ')', .blank ' ', .sym '{', .blank ' ',
    .word ['i', 'n', 't'], .blank ' ', .word ['t'], .blank ' ', .sym '=', .blank ' ', .word ['0'], .sym ';', .blank ' ',
    .word ['f', 'o', 'r'], .blank ' ', .sym '(', .blank ' ', .word ['i', 'n', 't'], .blank ' ', .word ['i'], .blank ' ',
    .sym '=', .blank ' ', .word ['0'], .sym ';', .blank ' ', .word ['i'], .blank ' ', .sym '<', .blank ' ', .word ['5'],
    .sym ';', .blank ' ', .word ['i'], .blank ' ', .sym '=', .blank ' ', .word ['i'], .blank ' ', .sym '+', .blank ' ',
    .word ['1'], .blank ' ', .sym ')', .blank ' ', .sym '{', .blank ' ', .word ['i', 'f'], .blank ' ', .sym '(', .blank ' ',
    .word ['i'], .blank ' ', .sym '=', .sym '=', .blank ' ', .word ['1'], .blank ' ', .sym ')', .blank ' ', .sym '{',
    .blank ' ', .word ['c', 'o', 'n', 't', 'i', 'n', 'u', 'e'], .sym ';', .blank ' ', .sym '}', .blank ' ',
    .word ['s', 'h', 'o', 'w'], .sym '(', .word ['i'], .sym ')', .sym ';', .blank ' ', .sym '}', .blank ' ', .word ['t'],
    .blank ' ', .sym '=', .blank ' ', .word ['s', 'u', 'm'], .sym '(', .word ['3'], .sym ')', .sym ';', .blank ' ',
    .word ['p', 'r', 'i', 'n', 't'], .sym '(', .word ['t'], .sym ')', .sym ';', .blank ' ',
    .word ['r', 'e', 't', 'u', 'r', 'n'], .sym ';', .blank ' ', .sym '}'],
    by decide +kernel, by decide +kernel, by decide +kernel⟩

theorem show_two : ∃ vs, Does countProgram [[(['n'], .int 2)]] showBody [] vs .left :=
  ⟨_, .whenTrue rfl (.blockLeft .leave nofun)⟩

theorem show_other {i : Int} (h : i = 0 ∨ i = 3 ∨ i = 4) : ∃ vs, Does countProgram [[(['n'], .int i)]] showBody [.number i] vs .next := by
  rcases h with rfl | rfl | rfl <;> exact ⟨_, .whenFalse rfl (.print rfl .done)⟩

theorem sum_three : ∃ vs, Does countProgram [[(['n'], .int 3)]] sumBody [] vs (.ret 6) :=
  ⟨_, .int rfl (.count (out := []) (out' := []) rfl
    (.roundsNext (out := []) (out' := []) rfl (.set rfl .done) (.inl rfl) rfl
      (.roundsNext (out := []) (out' := []) rfl (.set rfl .done) (.inl rfl) rfl
        (.roundsNext (out := []) (out' := []) rfl (.set rfl .done) (.inl rfl) rfl (.roundsEnd rfl .done))))
    (.ret rfl))⟩

theorem count_prints : Prints countProgram [.number 0, .number 3, .number 4, .number 6] := by
  obtain ⟨_, h0⟩ := show_other (.inl rfl)
  obtain ⟨_, h2⟩ := show_two
  obtain ⟨_, h3⟩ := show_other (.inr (.inl rfl))
  obtain ⟨_, h4⟩ := show_other (.inr (.inr rfl))
  obtain ⟨_, hs⟩ := sum_three
  have turn {i : Int} {vs : Vars} {out : List Line} {ws : Vars} {d : End} (h : Does countProgram [[(['n'], .int i)]] showBody out ws d)
      (ht : truth (ints ([] :: vs)) (flags ([] :: vs)) (.cmp .eq (.var ['i']) (.num 1)) = some false) (hi : ints ([] :: vs) ['i'] = i)
      (hd : d = .next ∨ d = .left) :
      Does countProgram ([] :: vs) [.when (.cmp .eq (.var ['i']) (.num 1)) [.cont], .act showName [.var ['i']]] out ([] :: vs) .next := by
    have : Does countProgram ([] :: vs) [.act showName [.var ['i']]] (out ++ []) ([] :: vs) .next :=
      .act (is := [i]) (g := showFun) (by simp [value, hi]) List.mem_cons_self rfl h (by rcases hd with rfl | rfl <;> nofun)
        (by rcases hd with rfl | rfl <;> nofun) .done
    rw [List.append_nil] at this
    exact .whenFalse ht this
  exact ⟨countFun, List.mem_cons_of_mem _ (List.mem_cons_of_mem _ List.mem_cons_self), rfl, _, _, .int rfl
    (.count (out := [.number 0, .number 3, .number 4]) (out' := [.number 6]) rfl
      (.roundsNext (out := [.number 0]) (out' := [.number 3, .number 4]) rfl (turn h0 rfl rfl (.inl rfl)) (.inl rfl) rfl
      (.roundsNext (out := []) (out' := [.number 3, .number 4]) rfl (.whenTrue rfl (.blockLeft .cont nofun)) (.inr rfl) rfl
      (.roundsNext (out := []) (out' := [.number 3, .number 4]) rfl (turn h2 rfl rfl (.inr rfl)) (.inl rfl) rfl
      (.roundsNext (out := [.number 3]) (out' := [.number 4]) rfl (turn h3 rfl rfl (.inl rfl)) (.inl rfl) rfl
      (.roundsNext (out := [.number 4]) (out' := []) rfl (turn h4 rfl rfl (.inl rfl)) (.inl rfl) rfl (.roundsEnd rfl .done))))))
      (.call (is := [3]) (g := sumFun) (out := []) (out' := [.number 6]) rfl (List.mem_cons_of_mem _ List.mem_cons_self) rfl hs nofun
        (.print rfl .leave))), .inr rfl⟩

/-- The hypotheses of `script_prints_partial` are met. -/
example : ∃ n, ∀ k, n ≤ k → runScript k countText = .ended "0\n3\n4\n6\n".toList := by
  obtain ⟨ms, hw, hl⟩ := count_written
  have h : lines [.number 0, .number 3, .number 4, .number 6] = "0\n3\n4\n6\n".toList := by decide +kernel
  rw [← h]
  exact (script_prints_partial count_wellFormed hw hl count_prints).1

/-- `void Main() { int i = 5; for ( int i = 0; i < 3; i = i + 1 ) { break; } print(i); }` -/
def stopProgram : Program :=
  [⟨true, mainName, [], [.int ['i'] (.num 5), .count ['i'] (.num 0) (.cmp .lt (.var ['i']) (.num 3)) (.to ['i'] up) [.brk], .print (.var ['i'])]⟩]

def stopText : Text := "void Main() { int i = 5; for ( int i = 0; i < 3; i = i + 1 ) { break; } print(i); }".toList

/-- C135 fails when a `for` is left by `break`: its variable stays, and hides the outer one. -/
theorem break_in_for_refuted : ∃ p ms text, WritesProgram p ms ∧ Laid ms text ∧ Prints p [.number 5] ∧
    ∀ k, runScript k text = .running ∨ runScript k text = .ended (lines [.number 0]) := by
  refine ⟨stopProgram, _, stopText, .cons (.int (ms := [.num 5]) ⟨.factor (.signed (.atom (.num _))), trivial⟩
    (.count (ms := [.num 0]) (cm := [.name ['i'], .rel .lt, .num 3]) ⟨.factor (.signed (.atom (.num _))), trivial⟩
      ⟨.conj (.conjOne (.cmp (.factor (.signed (.atom (.var _)))) (.factor (.signed (.atom (.num _)))))), by simp [Calc.Apart]⟩ (.to writes_up)
      (.brk .nil) (.print (ms := [.name ['i']]) ⟨.factor (.signed (.atom (.var _))), trivial⟩ .nil))) .nil, ?_, ?_, ?_⟩
  · exact ⟨[.word ['v', 'o', 'i', 'd'], .blank ' ', .word ['M', 'a', 'i', 'n'], .sym '(', .sym ')', .blank ' ', .sym '{', .blank ' ',
    .word ['i', 'n', 't'], .blank ' ', .word ['i'], .blank ' ', .sym '=', .blank ' ', .word ['5'], .sym ';', .blank ' ',
    .word ['f', 'o', 'r'], .blank ' ', .sym '(', .blank ' ', .word ['i', 'n', 't'], .blank ' ', .word ['i'], .blank ' ',
    .sym '=', .blank ' ', .word ['0'], .sym ';', .blank ' ', .word ['i'], .blank ' ', .sym '<', .blank ' ', .word ['3'],
    .sym ';', .blank ' ', .word ['i'], .blank ' ', .sym '=', .blank ' ', .word ['i'], .blank ' ', .sym '+', .blank ' ',
    .word ['1'], .blank ' ', .sym ')', .blank ' ', .sym '{', .blank ' ', .word ['b', 'r', 'e', 'a', 'k'], .sym ';', .blank ' ',
    .sym '}', .blank ' ', .word ['p', 'r', 'i', 'n', 't'], .sym '(', .word ['i'], .sym ')', .sym ';', .blank ' ', .sym '}'],
      by decide +kernel, by decide +kernel, by decide +kernel⟩
  · exact ⟨_, List.mem_cons_self, rfl, _, _, .int rfl (.count (out := []) (out' := [.number 5]) rfl (.roundsBreak (out := []) (out' := []) rfl .brk .done)
      (.print rfl .done)), .inl rfl⟩
  · have h : runScript 100 stopText = .ended (lines [.number 0]) := by decide +kernel
    intro k
    by_cases hk : runScript k stopText = .running
    · exact .inl hk
    · exact .inr ((script_unique hk (n := 100) (by rw [h]; nofun)).trans h)

end Verif.Whole.Demo
