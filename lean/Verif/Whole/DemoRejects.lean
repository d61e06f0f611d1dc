import Verif.Whole.Rejects
import Verif.Whole.Demo

/-! Programs that meet the hypotheses of C140, and scripts that are accepted or rejected against the rules. -/

namespace Verif.Whole.Demo

open Verif.Str (Text)
open Verif.Calc (Num Cond value truth)

/-- The program of C135 is clean and lawful: the first two theorems apply to it. -/
theorem program_clean : Clean program := by
  have h : ∀ n ∈ [['n'], ['r'], ['i'], ['f'], ['d', 'o', 'n', 'e']], VarName program n := fun n hn =>
    ⟨usable_names n (by revert n; decide), by revert n; decide⟩
  intro f hf
  rcases List.mem_cons.1 hf with rfl | hf
  · refine ⟨usable_names _ (by decide), fun n hn => h n (by revert n; decide), ?_⟩
    simp only [factFun, factBody, CmdsClean, CmdClean, NumClean, CondClean, Num.vars, Num.nums, Cond.vars, Cond.flags, Cond.nums]
    refine ⟨⟨h _ (by decide), nofun, by decide⟩, ⟨⟨fun n hn => h n (by revert n; decide), nofun, by decide⟩,
      ⟨h _ (by decide), usable_names _ (by decide), fun a ha => ?_⟩,
      ⟨h _ (by decide), fun n hn => h n (by revert n; decide), by decide⟩, trivial⟩,
      ⟨fun n hn => h n (by revert n; decide), by decide⟩, trivial⟩
    cases List.mem_singleton.1 ha
    exact ⟨fun n hn => h n (by revert n; decide), by decide⟩
  · rcases List.mem_cons.1 hf with rfl | hf
    · refine ⟨usable_names _ (by decide), nofun, ?_⟩
      simp only [mainFun, mainBody, CmdsClean, CmdClean, NumClean, CondClean, Num.vars, Num.nums, Cond.vars, Cond.flags, Cond.nums]
      refine ⟨⟨h _ (by decide), nofun, by decide⟩, ⟨h _ (by decide), nofun, by decide⟩, ⟨h _ (by decide), nofun, nofun, nofun⟩,
        ⟨⟨nofun, fun n hn => h n (by revert n; decide), nofun⟩, ⟨h _ (by decide), usable_names _ (by decide), fun a ha => ?_⟩,
          ⟨fun n hn => h n (by revert n; decide), by decide⟩,
          ⟨h _ (by decide), fun n hn => h n (by revert n; decide), by decide⟩,
          ⟨h _ (by decide), fun n hn => h n (by revert n; decide), nofun, by decide⟩, trivial⟩,
        ⟨⟨fun n hn => h n (by revert n; decide), fun n hn => h n (by revert n; decide), by decide⟩,
          ⟨⟨nofun, by decide⟩, trivial⟩, ⟨nofun, by decide⟩, trivial⟩, trivial⟩
      cases List.mem_singleton.1 ha
      exact ⟨fun n hn => h n (by revert n; decide), by decide⟩
    · cases hf

theorem program_lawful : Lawful program := ⟨by decide, by decide, by decide +kernel, by decide⟩

example : (∃ ms, WritesProgram program ms ∧ Laid ms text) ∧ Clean program ∧ Lawful program := ⟨written, program_clean, program_lawful⟩

/-! ## A program that breaks many rules -/

def badF : Fun := ⟨false, ['f'], [['x']], [.print (.var ['y']), .ret (.var ['x'])]⟩

def badH : Fun := ⟨false, ['h'], [], [.when (.const true) [.print (.num 1)]]⟩

def badMain : Fun := ⟨true, mainName, [],
  [.int ['r'] (.num 0), .loop (.const true) [.call (.set ['r']) ['f'] [.num 1, .num 2], .brk],
   .when (.cmp .gt (.var ['r']) (.num 1)) [.cont], .ret (.var ['r'])]⟩

def badProgram : Program := [badF, badH, badMain]

def badText : Text :=
  "int f(int x) { print(y); return x; } int h() { if ( true ) { print(1); } } void Main() { int r = 0; while ( true ) { r = f(1, 2); break; } if ( r > 1 ) { continue; } return r; }".toList

theorem bad_written : ∃ ms, WritesProgram badProgram ms ∧ Laid ms badText := by
  refine ⟨_, .cons (.print (ms := [.name ['y']]) ⟨.factor (.signed (.atom (.var _))), trivial⟩
      (.ret (ms := [.name ['x']]) ⟨.factor (.signed (.atom (.var _))), trivial⟩ .nil))
    (.cons (.when (ms := [.const true]) ⟨.conj (.conjOne (.negated (.atom (.const _)))), trivial⟩
      (.print (ms := [.num 1]) ⟨.factor (.signed (.atom (.num _))), trivial⟩ .nil) .nil)
    (.cons (.int (ms := [.num 0]) ⟨.factor (.signed (.atom (.num _))), trivial⟩
      (.loop (ms := [.const true]) ⟨.conj (.conjOne (.negated (.atom (.const _)))), trivial⟩
        (.call (.more (ms := [.num 1]) ⟨.factor (.signed (.atom (.num _))), trivial⟩
          (.one (ms := [.num 2]) ⟨.factor (.signed (.atom (.num _))), trivial⟩)) (.brk .nil))
        (.when (ms := [.name ['r'], .rel .gt, .num 1])
          ⟨.conj (.conjOne (.cmp (.factor (.signed (.atom (.var _)))) (.factor (.signed (.atom (.num _)))))), by simp [Calc.Apart]⟩
          (.cont .nil)
          (.ret (ms := [.name ['r']]) ⟨.factor (.signed (.atom (.var _))), trivial⟩ .nil)))) .nil)), ?_⟩
  exact ⟨[.word ['i', 'n', 't'], .blank ' ', .word ['f'], .sym '(', .word ['i', 'n', 't'], .blank ' ', .word ['x'], .sym ')',
      .blank ' ', .sym '{', .blank ' ', .word ['p', 'r', 'i', 'n', 't'], .sym '(', .word ['y'], .sym ')', .sym ';', .blank ' ',
      .word ['r', 'e', 't', 'u', 'r', 'n'], .blank ' ', .word ['x'], .sym ';', .blank ' ', .sym '}', .blank ' ',
      .word ['i', 'n', 't'], .blank ' ', .word ['h'], .sym '(', .sym ')', .blank ' ', .sym '{', .blank ' ', .word ['i', 'f'],
      .blank ' ', .sym '(', .blank ' ', .word ['t', 'r', 'u', 'e'], .blank ' ', .sym ')', .blank ' ', .sym '{', .blank ' ',
      .word ['p', 'r', 'i', 'n', 't'], .sym '(', .word ['1'], .sym ')', .sym ';', .blank ' ', .sym '}', .blank ' ', .sym '}',
      .blank ' ', .word ['v', 'o', 'i', 'd'], .blank ' ', .word ['M', 'a', 'i', 'n'], .sym '(', .sym ')', .blank ' ', .sym '{',
      .blank ' ', .word ['i', 'n', 't'], .blank ' ', .word ['r'], .blank ' ', .sym '=', .blank ' ', .word ['0'], .sym ';',
      .blank ' ', .word ['w', 'h', 'i', 'l', 'e'], .blank ' ', .sym '(', .blank ' ', .word ['t', 'r', 'u', 'e'], .blank ' ',
      .sym ')', .blank ' ', .sym '{', .blank ' ', .word ['r'], .blank ' ', .sym '=', .blank ' ', .word ['f'], .sym '(',
      .word ['1'], .sym ',', .blank ' ', .word ['2'], .sym ')', .sym ';', .blank ' ', .word ['b', 'r', 'e', 'a', 'k'],
      .sym ';', .blank ' ', .sym '}', .blank ' ', .word ['i', 'f'], .blank ' ', .sym '(', .blank ' ', .word ['r'], .blank ' ',
      .sym '>', .blank ' ', .word ['1'], .blank ' ', .sym ')', .blank ' ', .sym '{', .blank ' ',
      .word ['c', 'o', 'n', 't', 'i', 'n', 'u', 'e'], .sym ';', .blank ' ', .sym '}', .blank ' ',
      .word ['r', 'e', 't', 'u', 'r', 'n'], .blank ' ', .word ['r'], .sym ';', .blank ' ', .sym '}'],
      by decide +kernel, by decide +kernel, by decide +kernel⟩

theorem more_names : ∀ n ∈ [['x'], ['y'], ['r'], ['f'], ['h'], mainName], Usable n := by
  unfold Usable Lex.PlainName
  decide +kernel

theorem bad_clean : Clean badProgram := by
  have h : ∀ n ∈ [['x'], ['y'], ['r']], VarName badProgram n := fun n hn =>
    ⟨more_names n (by revert n; decide), by revert n; decide⟩
  intro f hf
  rcases List.mem_cons.1 hf with rfl | hf
  · refine ⟨more_names _ (by decide), fun n hn => h n (by revert n; decide), ?_⟩
    simp only [badF, CmdsClean, CmdClean, NumClean, CondClean, Num.vars, Num.nums, Cond.vars, Cond.flags, Cond.nums]
    exact ⟨⟨fun n hn => h n (by revert n; decide), nofun⟩, ⟨fun n hn => h n (by revert n; decide), nofun⟩, trivial⟩
  · rcases List.mem_cons.1 hf with rfl | hf
    · refine ⟨more_names _ (by decide), nofun, ?_⟩
      simp only [badH, CmdsClean, CmdClean, NumClean, CondClean, Num.vars, Num.nums, Cond.vars, Cond.flags, Cond.nums]
      exact ⟨⟨⟨nofun, nofun, nofun⟩, ⟨nofun, by decide⟩, trivial⟩, trivial⟩
    · cases List.mem_singleton.1 hf
      refine ⟨more_names _ (by decide), nofun, ?_⟩
      simp only [badMain, CmdsClean, CmdClean, NumClean, CondClean, Num.vars, Num.nums, Cond.vars, Cond.flags, Cond.nums]
      refine ⟨⟨h _ (by decide), nofun, by decide⟩,
        ⟨⟨nofun, nofun, nofun⟩, ⟨h _ (by decide), more_names _ (by decide), fun a ha => ?_⟩, trivial, trivial⟩,
        ⟨⟨fun n hn => h n (by revert n; decide), nofun, by decide⟩, trivial, trivial⟩,
        ⟨fun n hn => h n (by revert n; decide), nofun⟩, trivial⟩
      rcases List.mem_cons.1 ha with rfl | ha
      · exact ⟨nofun, by decide⟩
      · cases List.mem_singleton.1 ha
        exact ⟨nofun, by decide⟩

/-- `y` is not declared. -/
example : badF ∈ badProgram ∧ Among (.print (.var ['y'])) true badF.body ∧ ['y'] ∈ uses (.print (.var ['y'])) ∧ ['y'] ∉ badF.params ∧
    ∀ d, Among d false badF.body → ¬ Declares ['y'] d := by
  refine ⟨List.mem_cons_self, .here, by decide, by decide, fun d hd hy => ?_⟩
  have : d = .print (.var ['y']) ∨ d = .ret (.var ['x']) := by
    cases hd with
    | here => exact .inl rfl
    | later hd => cases hd with
      | here => exact .inr rfl
      | later hd => cases hd
  rcases hy with ⟨a, rfl⟩ | ⟨b, rfl⟩ | ⟨_, _, _, _, rfl⟩ | ⟨_, _, rfl⟩ | ⟨_, rfl⟩ | ⟨_, _, rfl⟩ <;> rcases this with h | h <;> cases h

def emptyF : Fun := ⟨false, ['f'], [['x']], [.count ['y'] (.num 0) (.cmp .lt (.var ['y']) (.var ['x'])) (.to ['y'] (.num 1)) [.leave]]⟩

def emptyProgram : Program := [emptyF, ⟨true, mainName, [], [.act ['h'] [.num 1]]⟩]

def emptyText : Text := "int f(int x) { for ( int y = 0; y < x; y = 1 ) { return; } } void Main() { h(1); }".toList

/-- The hypotheses of `return_without_result_rejected_partial` and `unknown_function_rejected_partial` are met in loops, and by a function
that is called for what it prints. -/
example : ∀ k, runScript k emptyText = .rejected := by
  have hn : VarName emptyProgram ['y'] := ⟨more_names _ (by decide), by decide⟩
  have hx : VarName emptyProgram ['x'] := ⟨more_names _ (by decide), by decide⟩
  have hc : Clean emptyProgram := by
    intro f hf
    rcases List.mem_cons.1 hf with rfl | hf
    · refine ⟨more_names _ (by decide), fun n hn => by cases List.mem_singleton.1 hn; exact hx, ?_⟩
      simp only [emptyF, CmdsClean, CmdClean, NumClean, CondClean, Num.vars, Num.nums, Cond.vars, Cond.flags, Cond.nums]
      refine ⟨⟨hn, ⟨nofun, by decide⟩, ⟨fun n h => ?_, nofun, nofun⟩, ⟨hn, ⟨nofun, by decide⟩⟩, trivial, trivial⟩, trivial⟩
      rcases List.mem_cons.1 h with rfl | h
      · exact hn
      · cases List.mem_singleton.1 h
        exact hx
    · cases List.mem_singleton.1 hf
      refine ⟨more_names _ (by decide), nofun, ?_⟩
      simp only [CmdsClean, CmdClean, NumClean]
      refine ⟨⟨more_names _ (by decide), fun a ha => ?_⟩, trivial⟩
      cases List.mem_singleton.1 ha
      exact ⟨nofun, by decide⟩
  have hw : ∃ ms, WritesProgram emptyProgram ms ∧ Laid ms emptyText := by
    refine ⟨_, .cons (.count (ms := [.num 0]) (cm := [.name ['y'], .rel .lt, .name ['x']])
      ⟨.factor (.signed (.atom (.num _))), trivial⟩
      ⟨.conj (.conjOne (.cmp (.factor (.signed (.atom (.var _)))) (.factor (.signed (.atom (.var _)))))), by simp [Calc.Apart]⟩
      (.to (ms := [.num 1]) ⟨.factor (.signed (.atom (.num _))), trivial⟩) (.leave .nil) .nil)
      (.cons (.act (.one (ms := [.num 1]) ⟨.factor (.signed (.atom (.num _))), trivial⟩) .nil) .nil), ?_⟩
    exact ⟨[.word ['i', 'n', 't'], .blank ' ', .word ['f'], .sym '(', .word ['i', 'n', 't'], .blank ' ', .word ['x'], .sym ')',
    .blank ' ', .sym '{', .blank ' ', .word ['f', 'o', 'r'], .blank ' ', .sym '(', .blank ' ', .word ['i', 'n', 't'],
    .blank ' ', .word ['y'], .blank ' ', .sym '=', .blank ' ', .word ['0'], .sym ';', .blank ' ', .word ['y'], .blank ' ',
    .sym '<', .blank ' ', .word ['x'], .sym ';', .blank ' ', .word ['y'], .blank ' ', .sym '=', .blank ' ', .word ['1'],
    .blank ' ', .sym ')', .blank ' ', .sym '{', .blank ' ', .word ['r', 'e', 't', 'u', 'r', 'n'], .sym ';', .blank ' ',
    .sym '}', .blank ' ', .sym '}', .blank ' ', .word ['v', 'o', 'i', 'd'], .blank ' ', .word ['M', 'a', 'i', 'n'], .sym '(',
    .sym ')', .blank ' ', .sym '{', .blank ' ', .word ['h'], .sym '(', .word ['1'], .sym ')', .sym ';', .blank ' ', .sym '}'], by decide +kernel, by decide +kernel, by decide +kernel⟩
  obtain ⟨ms, hw, hl⟩ := hw
  have : ∀ k, runScript k emptyText = .rejected :=
    fun k => unknown_function_rejected_partial hc hw hl (List.mem_cons_of_mem _ List.mem_cons_self) (q := true) .here (.inr rfl) (by decide) k
  exact fun k => return_without_result_rejected_partial hc hw hl List.mem_cons_self rfl (.count .here) k

/-- There is no `f` with two parameters, and `h` has no result; `continue` stands in no loop; `Main` has no result. -/
example : (∃ c q, Among c q badMain.body ∧ Calls ['f'] [.num 1, .num 2] c) ∧
    (∀ h ∈ badProgram, h.name = ['f'] → h.params.length ≠ 2) ∧ Among .cont true badMain.body ∧
    (∃ q, Among (.ret (.var ['r'])) q badMain.body) ∧ badMain.isVoid = true ∧ badH ∈ badProgram ∧ badMain ∈ badProgram :=
  ⟨⟨_, false, .later (.loop .here), .inl ⟨_, rfl⟩⟩, by decide, .later (.later (.when .here)), ⟨true, .later (.later (.later .here))⟩, rfl,
    List.mem_cons_of_mem _ List.mem_cons_self, List.mem_cons_of_mem _ (List.mem_cons_of_mem _ List.mem_cons_self)⟩

example : badH.isVoid = false ∧ ∀ a, ¬ Among (.ret a) false badH.body := by
  refine ⟨rfl, fun a h => ?_⟩
  cases h with
  | later h => cases h
  | «when» h => cases h with | later h => cases h

example : ¬ Lawful badProgram ∧ ∀ k, runScript k badText = .rejected := by
  obtain ⟨ms, hw, hl⟩ := bad_written
  have h : ¬ Lawful badProgram := fun h => absurd (h.results badH (List.mem_cons_of_mem _ List.mem_cons_self) rfl) (by decide)
  exact ⟨h, fun k => (script_rejected_partial bad_clean hw hl k).2 h⟩

/-! ## Where the rules are not those one expects -/

theorem of_fuel {text : Text} {o : Outcome} (n : Nat) (h : runScript n text = o) (ho : o ≠ .running) (k : Nat) :
    runScript k text = .running ∨ runScript k text = o := by
  by_cases hk : runScript k text = .running
  · exact .inl hk
  · exact .inr ((script_unique hk (n := n) (by rw [h]; exact ho)).trans h)

theorem loads_of {text : Text} (h : (match load text with | .ok _ => true | _ => false) = true) : ∃ l, load text = .ok l := by
  split at h
  · rename_i l hl
    exact ⟨l, hl⟩
  · cases h

def valueMain : Fun := ⟨true, mainName, [], [.print (.var ['f'])]⟩

def valueProgram : Program := [⟨false, ['f'], [], [.ret (.num 1)]⟩, valueMain]

def valueText' : Text := "int f() { return 1; } void Main() { print(f); }".toList

/-- C140: an undeclared variable with the name of a function is not found: the script is accepted, and throws when it runs. -/
theorem function_as_value_refuted : ∃ p ms text, WritesProgram p ms ∧ Laid ms text ∧
    (∃ f ∈ p, ∃ c n, Among c false f.body ∧ n ∈ uses c ∧ n ∉ f.params ∧ ∀ d, Among d false f.body → ¬ Declares n d) ∧
    (∃ l, load text = .ok l) ∧ ∀ k, runScript k text = .running ∨ runScript k text = .thrown [] := by
  refine ⟨valueProgram, _, valueText', .cons (.ret (ms := [.num 1]) ⟨.factor (.signed (.atom (.num _))), trivial⟩ .nil)
    (.cons (.print (ms := [.name ['f']]) ⟨.factor (.signed (.atom (.var _))), trivial⟩ .nil) .nil), ?_,
    ⟨valueMain, List.mem_cons_of_mem _ List.mem_cons_self, _, ['f'], .here, by decide, by decide, fun d hd hy => ?_⟩,
    loads_of (by decide +kernel), of_fuel 60 (by decide +kernel) nofun⟩
  · exact ⟨[.word ['i', 'n', 't'], .blank ' ', .word ['f'], .sym '(', .sym ')', .blank ' ', .sym '{', .blank ' ',
      .word ['r', 'e', 't', 'u', 'r', 'n'], .blank ' ', .word ['1'], .sym ';', .blank ' ', .sym '}', .blank ' ',
      .word ['v', 'o', 'i', 'd'], .blank ' ', .word ['M', 'a', 'i', 'n'], .sym '(', .sym ')', .blank ' ', .sym '{', .blank ' ',
      .word ['p', 'r', 'i', 'n', 't'], .sym '(', .word ['f'], .sym ')', .sym ';', .blank ' ', .sym '}'],
      by decide +kernel, by decide +kernel, by decide +kernel⟩
  · have : d = .print (.var ['f']) := by
      cases hd with
      | here => rfl
      | later hd => cases hd
    subst this
    rcases hy with ⟨a, h⟩ | ⟨b, h⟩ | ⟨_, _, _, _, h⟩ | ⟨_, _, h⟩ | ⟨_, h⟩ | ⟨_, _, h⟩ <;> cases h

def fallF : Fun := ⟨false, ['f'], [['x']], [.when (.cmp .gt (.var ['x']) (.num 0)) [.ret (.num 1)]]⟩

def fallProgram : Program :=
  [fallF, ⟨true, mainName, [], [.int ['y'] (.num 0), .call (.set ['y']) ['f'] [.num 0], .print (.var ['y'])]⟩]

def fallText : Text := "int f(int x) { if ( x > 0 ) { return 1; } } void Main() { int y = 0; y = f(0); print(y); }".toList

/-- C140: that a function arrives at its end without its result is not found: the script is accepted, and fails when it runs. -/
theorem lost_result_refuted : ∃ p ms text, WritesProgram p ms ∧ Laid ms text ∧
    (∃ f ∈ p, f.isVoid = false ∧ ∃ (is : List Int) (out : List Line) (vs : Vars), is.length = f.params.length ∧ Does p [f.params.zip (is.map .int)] f.body out vs .next) ∧
    (∃ l, load text = .ok l) ∧ ∀ k, runScript k text = .running ∨ runScript k text = .failed := by
  refine ⟨fallProgram, _, fallText, .cons (.when (ms := [.name ['x'], .rel .gt, .num 0])
      ⟨.conj (.conjOne (.cmp (.factor (.signed (.atom (.var _)))) (.factor (.signed (.atom (.num _)))))), by simp [Calc.Apart]⟩
      (.ret (ms := [.num 1]) ⟨.factor (.signed (.atom (.num _))), trivial⟩ .nil) .nil)
    (.cons (.int (ms := [.num 0]) ⟨.factor (.signed (.atom (.num _))), trivial⟩
      (.call (.one (ms := [.num 0]) ⟨.factor (.signed (.atom (.num _))), trivial⟩)
        (.print (ms := [.name ['y']]) ⟨.factor (.signed (.atom (.var _))), trivial⟩ .nil))) .nil), ?_,
    ⟨fallF, List.mem_cons_self, rfl, [0], [], _, rfl, .whenFalse (by decide) .done⟩,
    loads_of (by decide +kernel), of_fuel 60 (by decide +kernel) nofun⟩
  exact ⟨[.word ['i', 'n', 't'], .blank ' ', .word ['f'], .sym '(', .word ['i', 'n', 't'], .blank ' ', .word ['x'], .sym ')',
      .blank ' ', .sym '{', .blank ' ', .word ['i', 'f'], .blank ' ', .sym '(', .blank ' ', .word ['x'], .blank ' ', .sym '>',
      .blank ' ', .word ['0'], .blank ' ', .sym ')', .blank ' ', .sym '{', .blank ' ', .word ['r', 'e', 't', 'u', 'r', 'n'],
      .blank ' ', .word ['1'], .sym ';', .blank ' ', .sym '}', .blank ' ', .sym '}', .blank ' ', .word ['v', 'o', 'i', 'd'],
      .blank ' ', .word ['M', 'a', 'i', 'n'], .sym '(', .sym ')', .blank ' ', .sym '{', .blank ' ', .word ['i', 'n', 't'],
      .blank ' ', .word ['y'], .blank ' ', .sym '=', .blank ' ', .word ['0'], .sym ';', .blank ' ', .word ['y'], .blank ' ',
      .sym '=', .blank ' ', .word ['f'], .sym '(', .word ['0'], .sym ')', .sym ';', .blank ' ',
      .word ['p', 'r', 'i', 'n', 't'], .sym '(', .word ['y'], .sym ')', .sym ';', .blank ' ', .sym '}'],
      by decide +kernel, by decide +kernel, by decide +kernel⟩

def needBody : List Cmd :=
  [.choose (.cmp .gt (.var ['x']) (.num 5)) [.ret (.var ['x'])] [.set (.to ['x'] (.bin .add (.var ['x']) (.num 1)))]]

def needF : Fun := ⟨false, ['f'], [['x']], [.loop (.const true) needBody]⟩

def needProgram : Program :=
  [needF, ⟨true, mainName, [], [.int ['y'] (.num 0), .call (.set ['y']) ['f'] [.num 1], .print (.var ['y'])]⟩]

def needText : Text := "int f(int x) { while ( true ) { if ( x > 5 ) { return x; } else { x = x + 1; } } } void Main() { int y = 0; y = f(1); print(y); }".toList

theorem need_body {p : Program} {vs ws : Vars} {out : List Line} {e : End} (h : Does p vs needBody out ws e) :
    e = .next ∨ ∃ i, e = .ret i := by
  cases h with
  | chooseTrue _ h =>
    cases h with
    | block h _ => cases h
    | blockLeft h _ => cases h; exact .inr ⟨_, rfl⟩
  | chooseFalse _ h =>
    cases h with
    | block _ h => cases h; exact .inl rfl
    | blockLeft h i => cases h with | set _ h => cases h; exact absurd rfl i

theorem need_returns {p : Program} {vs ws : Vars} {out : List Line} {e : End} (h : Does p vs needF.body out ws e) : ∃ i, e = .ret i := by
  generalize hc : needF.body = cs at h
  induction h with
  | loopEnd ht => cases hc; cases ht
  | loopNext _ _ _ _ _ ih => cases hc; exact ih rfl
  | loopBreak _ hb => cases hc; rcases need_body hb with h | ⟨i, h⟩ <;> cases h
  | loopReturn _ _ => exact ⟨_, rfl⟩
  | loopLeft _ hb => cases hc; rcases need_body hb with h | ⟨i, h⟩ <;> cases h
  | _ => cases hc

/-- C140: a script is rejected although its functions end with their results only, and it obeys all other rules. -/
theorem good_result_refuted : ∃ p ms text, Clean p ∧ WritesProgram p ms ∧ Laid ms text ∧
    (∀ f ∈ p, f.isVoid = false → ∀ vs out ws e, Does p vs f.body out ws e → ∃ i, e = .ret i) ∧
    (p.map fun f => (f.name, f.params.length)).Nodup ∧ (∀ f ∈ p, f.params.Nodup) ∧
    (∀ f ∈ p, obeys p (!f.isVoid) false [[], f.params.map (·, .int)] f.body = true) ∧ Prints p [.number 6] ∧
    ∀ k, runScript k text = .rejected := by
  have hc : Clean needProgram := by
    have h : ∀ n ∈ [['x'], ['y']], VarName needProgram n := fun n hn =>
      ⟨more_names n (by revert n; decide), by revert n; decide⟩
    intro f hf
    rcases List.mem_cons.1 hf with rfl | hf
    · refine ⟨more_names _ (by decide), fun n hn => h n (by revert n; decide), ?_⟩
      simp only [needF, needBody, CmdsClean, CmdClean, NumClean, CondClean, Num.vars, Num.nums, Cond.vars, Cond.flags, Cond.nums]
      exact ⟨⟨⟨nofun, nofun, nofun⟩, ⟨⟨fun n hn => h n (by revert n; decide), nofun, by decide⟩,
        ⟨⟨fun n hn => h n (by revert n; decide), nofun⟩, trivial⟩, ⟨h _ (by decide), fun n hn => h n (by revert n; decide), by decide⟩,
        trivial⟩, trivial⟩, trivial⟩
    · cases List.mem_singleton.1 hf
      refine ⟨more_names _ (by decide), nofun, ?_⟩
      simp only [CmdsClean, CmdClean, NumClean, Num.vars, Num.nums, Cond.vars, Cond.flags, Cond.nums]
      refine ⟨⟨h _ (by decide), nofun, by decide⟩, ⟨h _ (by decide), more_names _ (by decide), fun a ha => ?_⟩,
        ⟨fun n hn => h n (by revert n; decide), nofun⟩, trivial⟩
      cases List.mem_singleton.1 ha
      exact ⟨nofun, by decide⟩
  have hw : ∃ ms, WritesProgram needProgram ms ∧ Laid ms needText := by
    refine ⟨_, .cons (.loop (ms := [.const true]) ⟨.conj (.conjOne (.negated (.atom (.const _)))), trivial⟩
        (.choose (ms := [.name ['x'], .rel .gt, .num 5])
          ⟨.conj (.conjOne (.cmp (.factor (.signed (.atom (.var _)))) (.factor (.signed (.atom (.num _)))))), by simp [Calc.Apart]⟩
          (.ret (ms := [.name ['x']]) ⟨.factor (.signed (.atom (.var _))), trivial⟩ .nil)
          (.set (.to (ms := [.name ['x'], .op .add, .num 1])
            ⟨.sum (.inl rfl) (.factor (.signed (.atom (.var _)))) (.signed (.atom (.num _))), by simp [Calc.Apart]⟩) .nil) .nil) .nil)
      (.cons (.int (ms := [.num 0]) ⟨.factor (.signed (.atom (.num _))), trivial⟩
        (.call (.one (ms := [.num 1]) ⟨.factor (.signed (.atom (.num _))), trivial⟩)
          (.print (ms := [.name ['y']]) ⟨.factor (.signed (.atom (.var _))), trivial⟩ .nil))) .nil), ?_⟩
    exact ⟨[.word ['i', 'n', 't'], .blank ' ', .word ['f'], .sym '(', .word ['i', 'n', 't'], .blank ' ', .word ['x'], .sym ')',
      .blank ' ', .sym '{', .blank ' ', .word ['w', 'h', 'i', 'l', 'e'], .blank ' ', .sym '(', .blank ' ',
      .word ['t', 'r', 'u', 'e'], .blank ' ', .sym ')', .blank ' ', .sym '{', .blank ' ', .word ['i', 'f'], .blank ' ',
      .sym '(', .blank ' ', .word ['x'], .blank ' ', .sym '>', .blank ' ', .word ['5'], .blank ' ', .sym ')', .blank ' ',
      .sym '{', .blank ' ', .word ['r', 'e', 't', 'u', 'r', 'n'], .blank ' ', .word ['x'], .sym ';', .blank ' ', .sym '}',
      .blank ' ', .word ['e', 'l', 's', 'e'], .blank ' ', .sym '{', .blank ' ', .word ['x'], .blank ' ', .sym '=', .blank ' ',
      .word ['x'], .blank ' ', .sym '+', .blank ' ', .word ['1'], .sym ';', .blank ' ', .sym '}', .blank ' ', .sym '}',
      .blank ' ', .sym '}', .blank ' ', .word ['v', 'o', 'i', 'd'], .blank ' ', .word ['M', 'a', 'i', 'n'], .sym '(', .sym ')',
      .blank ' ', .sym '{', .blank ' ', .word ['i', 'n', 't'], .blank ' ', .word ['y'], .blank ' ', .sym '=', .blank ' ',
      .word ['0'], .sym ';', .blank ' ', .word ['y'], .blank ' ', .sym '=', .blank ' ', .word ['f'], .sym '(', .word ['1'],
      .sym ')', .sym ';', .blank ' ', .word ['p', 'r', 'i', 'n', 't'], .sym '(', .word ['y'], .sym ')', .sym ';', .blank ' ',
      .sym '}'],
      by decide +kernel, by decide +kernel, by decide +kernel⟩
  obtain ⟨ms, hw, hl⟩ := hw
  refine ⟨needProgram, ms, needText, hc, hw, hl, fun f hf hv vs out ws e h => ?_, by decide, by decide, by decide +kernel, ?_, fun k => ?_⟩
  · rcases List.mem_cons.1 hf with rfl | hf
    · exact need_returns h
    · cases List.mem_singleton.1 hf
      cases hv
  · refine ⟨_, List.mem_cons_of_mem _ List.mem_cons_self, rfl, _, _, .int (i := 0) (by decide) (.call (u := .set ['y']) (i := 6) (is := [1]) (out := []) (ws := [[6, 5, 4, 3, 2, 1].map fun i => (['x'], .int i)]) (by decide)
      List.mem_cons_self rfl ?_ nofun (.print (i := 6) (by decide) .done)), .inl rfl⟩
    have turn : ∀ (i : Int) (b : List (Text × Scalar)) (out : List Line) (ws : Vars), i = 1 ∨ i = 2 ∨ i = 3 ∨ i = 4 ∨ i = 5 →
        Does needProgram [(['x'], .int (i + 1)) :: (['x'], .int i) :: b] [.loop (.const true) needBody] out ws (.ret 6) →
        Does needProgram [(['x'], .int i) :: b] [.loop (.const true) needBody] out ws (.ret 6) := by
      intro i b out ws hi h
      refine .loopNext (l := []) (out := []) (d := .next) rfl (.chooseFalse ?_ (.block (l := []) (out := []) (out' := [])
        (.set (i := i + 1) ?_ .done) .done)) (.inl rfl) h
      all_goals rcases hi with rfl | rfl | rfl | rfl | rfl <;> rfl
    exact turn 1 _ _ _ (by decide) (turn 2 _ _ _ (by decide) (turn 3 _ _ _ (by decide) (turn 4 _ _ _ (by decide) (turn 5 _ _ _ (by decide)
      (.loopReturn (l := []) rfl (.chooseTrue (by decide) (.blockLeft (l := []) (.ret (by decide)) nofun)))))))
  · exact (script_rejected_partial hc hw hl k).2 fun h => absurd (h.results needF List.mem_cons_self rfl) (by decide)

end Verif.Whole.Demo
