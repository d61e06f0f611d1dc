import Verif.Whole.DemoRejects

/-! Results that are returned, printed and given to new variables at once: programs that meet the hypotheses of C135 and C140. -/

namespace Verif.Whole.Demo

open Verif.Str (Text)
open Verif.Calc (Num Cond value truth)

def gcdName : Text := ['g', 'c', 'd']

/-- `if ( b == 0 ) { return a; } return gcd(b, a % b);` -/
def gcdBody : List Cmd :=
  [.when (.cmp .eq (.var ['b']) (.num 0)) [.ret (.var ['a'])], .call .ret gcdName [.var ['b'], .bin .mod (.var ['a']) (.var ['b'])]]

def gcdFun : Fun := ⟨false, gcdName, [['a'], ['b']], gcdBody⟩

/-- `print(gcd(12, 18)); int g = gcd(10, 4); print(g);` -/
def gcdMain : Fun :=
  ⟨true, mainName, [], [.call .print gcdName [.num 12, .num 18], .call (.new ['g']) gcdName [.num 10, .num 4], .print (.var ['g'])]⟩

def gcdProgram : Program := [gcdFun, gcdMain]

def gcdText : Text :=
  "int gcd(int a, int b) { if ( b == 0 ) { return a; } return gcd(b, a % b); } void Main() { print(gcd(12, 18)); int g = gcd(10, 4); print(g); }".toList

theorem usable_gcd : ∀ n ∈ [['a'], ['b'], ['g'], gcdName, mainName], Usable n := by
  unfold Usable Lex.PlainName
  decide +kernel

theorem gcd_wellFormed : WellFormed gcdProgram where
  funs := fun f hf => by
    rcases List.mem_cons.1 hf with rfl | hf
    · exact
        { name := usable_gcd _ (by decide)
          params := fun n hn => usable_gcd n (by revert n; decide)
          distinct := by decide
          body := .when ⟨by decide, by decide, by decide⟩ (.ret ⟨by decide, by decide⟩ .nil)
            (.call (g := gcdFun) .ret List.mem_cons_self rfl rfl (by decide) .nil)
          result := fun _ => ⟨gcdBody.take 1, .call .ret gcdName [.var ['b'], .bin .mod (.var ['a']) (.var ['b'])], rfl, trivial⟩ }
    rcases List.mem_cons.1 hf with rfl | hf
    · exact
        { name := usable_gcd _ (by decide)
          params := nofun
          distinct := by decide
          body := .call (g := gcdFun) .print List.mem_cons_self rfl rfl (by decide)
            (.call (g := gcdFun) (.new (usable_gcd _ (by decide)) rfl (by decide)) List.mem_cons_self rfl rfl (by decide)
              (.print ⟨by decide, by decide⟩ .nil))
          result := nofun }
    cases hf
  distinct := by decide
  main := ⟨gcdMain, List.mem_cons_of_mem _ List.mem_cons_self, rfl, rfl, rfl⟩

theorem gcd_written : ∃ ms, WritesProgram gcdProgram ms ∧ Laid ms gcdText := by
  refine ⟨_, .cons
    (.when (ms := [.name ['b'], .rel .eq, .num 0])
      ⟨.conj (.conjOne (.cmp (.factor (.signed (.atom (.var _)))) (.factor (.signed (.atom (.num _)))))), by simp [Calc.Apart]⟩
      (.ret (ms := [.name ['a']]) ⟨.factor (.signed (.atom (.var _))), trivial⟩ .nil)
      (.callRet (.more (ms := [.name ['b']]) ⟨.factor (.signed (.atom (.var _))), trivial⟩
        (.one (ms := [.name ['a'], .op .mod, .name ['b']])
          ⟨.factor (.product (.inr (.inr rfl)) (.signed (.atom (.var _))) (.atom (.var _))), by simp [Calc.Apart]⟩)) .nil))
    (.cons
      (.callPrint (.more (ms := [.num 12]) ⟨.factor (.signed (.atom (.num _))), trivial⟩
        (.one (ms := [.num 18]) ⟨.factor (.signed (.atom (.num _))), trivial⟩))
      (.callNew (.more (ms := [.num 10]) ⟨.factor (.signed (.atom (.num _))), trivial⟩
        (.one (ms := [.num 4]) ⟨.factor (.signed (.atom (.num _))), trivial⟩))
      (.print (ms := [.name ['g']]) ⟨.factor (.signed (.atom (.var _))), trivial⟩ .nil)))
      .nil), ?_⟩
  exact ⟨[.word ['i', 'n', 't'], .blank ' ', .word ['g', 'c', 'd'], .sym '(', .word ['i', 'n', 't'], .blank ' ', .word ['a'],
    .sym ',', .blank ' ', .word ['i', 'n', 't'], .blank ' ', .word ['b'], .sym ')', .blank ' ', .sym '{', .blank ' ',
    .word ['i', 'f'], .blank ' ', .sym '(', .blank ' ', .word ['b'], .blank ' ', .sym '=', .sym '=', .blank ' ', .word ['0'],
    .blank ' ', .sym ')', .blank ' ', .sym '{', .blank ' ', .word ['r', 'e', 't', 'u', 'r', 'n'], .blank ' ', .word ['a'],
    .sym ';', .blank ' ', .sym '}', .blank ' ', .word ['r', 'e', 't', 'u', 'r', 'n'], .blank ' ', .word ['g', 'c', 'd'],
    .sym '(', .word ['b'], .sym ',', .blank ' ', .word ['a'], .blank ' ', .sym '%', .blank ' ', .word ['b'], .sym ')',
    .sym ';', .blank ' ', .sym '}', .blank ' ', .word ['v', 'o', 'i', 'd'], .blank ' ', .word ['M', 'a', 'i', 'n'], .sym '(',
    .sym ')', .blank ' ', .sym '{', .blank ' ', .word ['p', 'r', 'i', 'n', 't'], .sym '(', .word ['g', 'c', 'd'], .sym '(',
    .word ['1', '2'], .sym ',', .blank ' ', .word ['1', '8'], .sym ')', .sym ')', .sym ';', .blank ' ', .word ['i', 'n', 't'],
    .blank ' ', .word ['g'], .blank ' ', .sym '=', .blank ' ', .word ['g', 'c', 'd'], .sym '(', .word ['1', '0'], .sym ',',
    .blank ' ', .word ['4'], .sym ')', .sym ';', .blank ' ', .word ['p', 'r', 'i', 'n', 't'], .sym '(', .word ['g'], .sym ')',
    .sym ';', .blank ' ', .sym '}'],
    by decide +kernel, by decide +kernel, by decide +kernel⟩

/-- The last call. -/
theorem gcd_last (a : Int) : ∃ vs, Does gcdProgram [[(['a'], .int a), (['b'], .int 0)]] gcdBody [] vs (.ret a) :=
  ⟨_, .whenTrue rfl (.blockLeft (.ret rfl) nofun)⟩

/-- One more call. -/
theorem gcd_step {a b d c : Int} (hb : truth (ints [[(['a'], .int a), (['b'], .int b)]]) (flags [[(['a'], .int a), (['b'], .int b)]])
      (.cmp .eq (.var ['b']) (.num 0)) = some false)
    (hm : value (ints [[(['a'], .int a), (['b'], .int b)]]) (.bin .mod (.var ['a']) (.var ['b'])) = some c)
    (h : ∃ vs, Does gcdProgram [[(['a'], .int b), (['b'], .int c)]] gcdBody [] vs (.ret d)) :
    ∃ vs, Does gcdProgram [[(['a'], .int a), (['b'], .int b)]] gcdBody [] vs (.ret d) := by
  obtain ⟨ws, h⟩ := h
  exact ⟨_, .whenFalse hb (.callRet (is := [b, c]) (g := gcdFun) (by simp only [List.map_cons, List.map_nil, hm]; rfl)
    List.mem_cons_self rfl h)⟩

theorem gcd_prints : Prints gcdProgram [.number 6, .number 2] := by
  obtain ⟨_, h1⟩ : ∃ vs, Does gcdProgram [[(['a'], .int 12), (['b'], .int 18)]] gcdBody [] vs (.ret 6) :=
    gcd_step rfl rfl (gcd_step rfl rfl (gcd_step rfl rfl (gcd_last 6)))
  obtain ⟨_, h2⟩ : ∃ vs, Does gcdProgram [[(['a'], .int 10), (['b'], .int 4)]] gcdBody [] vs (.ret 2) :=
    gcd_step rfl rfl (gcd_step rfl rfl (gcd_last 2))
  exact ⟨gcdMain, List.mem_cons_of_mem _ List.mem_cons_self, rfl, _, _,
    .call (is := [12, 18]) (g := gcdFun) (out := []) (out' := [.number 2]) rfl List.mem_cons_self rfl h1 nofun
      (.call (is := [10, 4]) (g := gcdFun) (out := []) (out' := [.number 2]) rfl List.mem_cons_self rfl h2 nofun (.print rfl .done)), .inl rfl⟩

/-- The hypotheses of `script_prints_partial` are met. -/
example : ∃ n, ∀ k, n ≤ k → runScript k gcdText = .ended "6\n2\n".toList := by
  obtain ⟨ms, hw, hl⟩ := gcd_written
  have h : lines [.number 6, .number 2] = "6\n2\n".toList := by decide +kernel
  rw [← h]
  exact (script_prints_partial gcd_wellFormed hw hl gcd_prints).1

/-! ## Functions without a result -/

theorem usable_void : ∀ n ∈ [['f'], ['h'], ['k'], ['y'], mainName], Usable n := by
  unfold Usable Lex.PlainName
  decide +kernel

def voidProgram : Program :=
  [⟨true, ['h'], [], []⟩, ⟨true, ['k'], [], [.call .ret ['h'] []]⟩, ⟨true, mainName, [], [.act ['k'] [], .call .print ['h'] []]⟩]

def voidText : Text := "void h() { } void k() { return h(); } void Main() { k(); print(h()); }".toList

/-- C140 is false of the code here: what a function without a result gives back can be returned and printed.  The script is accepted,
and an empty line is printed. -/
theorem nothing_printed_refuted : Clean voidProgram ∧ Lawful voidProgram ∧ (∃ ms, WritesProgram voidProgram ms ∧ Laid ms voidText) ∧
    runScript 100 voidText = .ended ['\n'] := by
  refine ⟨fun f hf => ?_, ?_, ⟨_, .cons .nil (.cons (.callRet .nil .nil) (.cons (.act .nil (.callPrint .nil .nil)) .nil)), [.word ['v', 'o', 'i', 'd'], .blank ' ', .word ['h'], .sym '(', .sym ')', .blank ' ', .sym '{', .blank ' ', .sym '}',
    .blank ' ', .word ['v', 'o', 'i', 'd'], .blank ' ', .word ['k'], .sym '(', .sym ')', .blank ' ', .sym '{', .blank ' ',
    .word ['r', 'e', 't', 'u', 'r', 'n'], .blank ' ', .word ['h'], .sym '(', .sym ')', .sym ';', .blank ' ', .sym '}',
    .blank ' ', .word ['v', 'o', 'i', 'd'], .blank ' ', .word ['M', 'a', 'i', 'n'], .sym '(', .sym ')', .blank ' ', .sym '{',
    .blank ' ', .word ['k'], .sym '(', .sym ')', .sym ';', .blank ' ', .word ['p', 'r', 'i', 'n', 't'], .sym '(', .word ['h'],
    .sym '(', .sym ')', .sym ')', .sym ';', .blank ' ', .sym '}'],
    by decide +kernel, by decide +kernel, by decide +kernel⟩, by decide +kernel⟩
  · rcases List.mem_cons.1 hf with rfl | hf
    · exact ⟨usable_void _ (by decide), nofun, trivial⟩
    rcases List.mem_cons.1 hf with rfl | hf
    · exact ⟨usable_void _ (by decide), nofun, ⟨trivial, usable_void _ (by decide), nofun⟩, trivial⟩
    cases List.mem_singleton.1 hf
    exact ⟨usable_void _ (by decide), nofun, ⟨usable_void _ (by decide), nofun⟩, ⟨trivial, usable_void _ (by decide), nofun⟩, trivial⟩
  · exact ⟨by decide, by decide, by decide, by decide⟩

def noneFun : Fun := ⟨true, ['h'], [], []⟩

def oneFun : Fun := ⟨false, ['f'], [], [.ret (.num 1)]⟩

def noneMain : Fun := ⟨true, mainName, [], [.call (.new ['y']) ['h'] [], .call .ret ['f'] []]⟩

def noneProgram : Program := [oneFun, noneFun, noneMain]

def noneText : Text := "int f() { return 1; } void h() { } void Main() { int y = h(); return f(); }".toList

theorem none_clean : Clean noneProgram := fun f hf => by
  rcases List.mem_cons.1 hf with rfl | hf
  · exact ⟨usable_void _ (by decide), nofun, ⟨nofun, by decide⟩, trivial⟩
  rcases List.mem_cons.1 hf with rfl | hf
  · exact ⟨usable_void _ (by decide), nofun, trivial⟩
  cases List.mem_singleton.1 hf
  exact ⟨usable_void _ (by decide), nofun, ⟨⟨usable_void _ (by decide), by decide⟩, usable_void _ (by decide), nofun⟩,
    ⟨trivial, usable_void _ (by decide), nofun⟩, trivial⟩

theorem none_written : ∃ ms, WritesProgram noneProgram ms ∧ Laid ms noneText :=
  ⟨_, .cons (.ret (ms := [.num 1]) ⟨.factor (.signed (.atom (.num _))), trivial⟩ .nil) (.cons .nil (.cons (.callNew .nil (.callRet .nil .nil)) .nil)),
    [.word ['i', 'n', 't'], .blank ' ', .word ['f'], .sym '(', .sym ')', .blank ' ', .sym '{', .blank ' ',
    .word ['r', 'e', 't', 'u', 'r', 'n'], .blank ' ', .word ['1'], .sym ';', .blank ' ', .sym '}', .blank ' ',
    .word ['v', 'o', 'i', 'd'], .blank ' ', .word ['h'], .sym '(', .sym ')', .blank ' ', .sym '{', .blank ' ', .sym '}',
    .blank ' ', .word ['v', 'o', 'i', 'd'], .blank ' ', .word ['M', 'a', 'i', 'n'], .sym '(', .sym ')', .blank ' ', .sym '{',
    .blank ' ', .word ['i', 'n', 't'], .blank ' ', .word ['y'], .blank ' ', .sym '=', .blank ' ', .word ['h'], .sym '(',
    .sym ')', .sym ';', .blank ' ', .word ['r', 'e', 't', 'u', 'r', 'n'], .blank ' ', .word ['f'], .sym '(', .sym ')',
    .sym ';', .blank ' ', .sym '}'],
    by decide +kernel, by decide +kernel, by decide +kernel⟩

/-- The hypotheses of `void_result_rejected_partial` are met by the declaration. -/
example (k : Nat) : runScript k noneText = .rejected := by
  obtain ⟨ms, hw, hl⟩ := none_written
  exact void_result_rejected_partial none_clean hw hl (f := noneMain) (List.mem_cons_of_mem _ (List.mem_cons_of_mem _ List.mem_cons_self))
    (g := noneFun) (List.mem_cons_of_mem _ List.mem_cons_self) rfl (args := []) rfl (u := .new ['y']) nofun nofun (q := true) .here k

/-- The hypotheses of `call_result_of_void_rejected_partial` are met by the return. -/
example (k : Nat) : runScript k noneText = .rejected := by
  obtain ⟨ms, hw, hl⟩ := none_written
  exact call_result_of_void_rejected_partial none_clean hw hl (f := noneMain) (List.mem_cons_of_mem _ (List.mem_cons_of_mem _ List.mem_cons_self))
    rfl (g := oneFun) List.mem_cons_self rfl (args := []) rfl (q := true) (.later .here) k

end Verif.Whole.Demo
