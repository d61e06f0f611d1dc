import Verif.Whole.Props

/-! A program that meets the hypotheses of C135, and scripts that do not do what they say. -/

namespace Verif.Whole.Demo

open Verif.Str (Text)
open Verif.Calc (Num Cond value truth)

instance decNoClose : (t : Text) → Decidable (Lex.NoClose t)
  | [] => inferInstanceAs (Decidable True)
  | [_] => inferInstanceAs (Decidable True)
  | a :: b :: t => have := decNoClose (b :: t); inferInstanceAs (Decidable (¬ (a = '*' ∧ b = '/') ∧ Lex.NoClose (b :: t)))

instance decOk (p : Lex.Piece) : Decidable p.Ok := by
  cases p <;> simp only [Lex.Piece.Ok] <;> infer_instance

instance decFollows (p : Option Lex.Piece) (q : Lex.Piece) : Decidable (Lex.Follows p q) := by
  rcases p with _ | p
  · exact inferInstanceAs (Decidable True)
  · cases p <;> cases q <;> simp only [Lex.Follows] <;> infer_instance

instance decWellFormed : (p : Option Lex.Piece) → (ps : List Lex.Piece) → Decidable (Lex.WellFormed p ps)
  | p, [] => by
    rcases p with _ | p
    · exact inferInstanceAs (Decidable True)
    · cases p <;> simp only [Lex.WellFormed] <;> infer_instance
  | p, q :: ps => by
    have := decWellFormed (some q) ps
    have h : Lex.WellFormed p (q :: ps) = (q.Ok ∧ Lex.Follows p q ∧ Lex.WellFormed (some q) ps) := by
      rcases p with _ | p
      · rfl
      · cases p <;> rfl
    rw [h]
    infer_instance

instance decNumFits (Γ : Ctx) (a : Num) : Decidable (NumFits Γ a) := by unfold NumFits; infer_instance

/-- `r = 1; if ( n > 1 ) { r = fact(n - 1); r = r * n; } return r;` -/
def factBody : List Cmd :=
  [.int ['r'] (.num 1),
   .when (.cmp .gt (.var ['n']) (.num 1))
     [.call (.set ['r']) ['f', 'a', 'c', 't'] [.bin .sub (.var ['n']) (.num 1)], .set (.to ['r'] (.bin .mul (.var ['r']) (.var ['n'])))],
   .ret (.var ['r'])]

/-- The factorials of 0, 1, 2 and 3, then -3. -/
def mainBody : List Cmd :=
  [.int ['i'] (.num 0), .int ['f'] (.num 0), .bool ['d', 'o', 'n', 'e'] (.const false),
   .loop (.not (.flag ['d', 'o', 'n', 'e']))
     [.call (.set ['f']) ['f', 'a', 'c', 't'] [.var ['i']], .print (.var ['f']), .set (.to ['i'] (.bin .add (.var ['i']) (.num 1))),
      .mark ['d', 'o', 'n', 'e'] (.cmp .ge (.var ['i']) (.num 4))],
   .choose (.and (.flag ['d', 'o', 'n', 'e']) (.cmp .eq (.var ['i']) (.num 4))) [.print (.neg (.num 3))] [.print (.num 0)]]

def factFun : Fun := ⟨false, ['f', 'a', 'c', 't'], [['n']], factBody⟩

def mainFun : Fun := ⟨true, mainName, [], mainBody⟩

def program : Program := [factFun, mainFun]

def text : Text :=
  "int fact(int n) {\n  int r = 1;\n  if ( n > 1 ) { r = fact(n - 1); r = r * n; } // n!\n  return r;\n}\nvoid Main() {\n  int i = 0; int f = 0; bool done = false;\n  while ( !done ) {\n    f = fact(i);\n    print(f);\n    i = i + 1;\n    done = i >= (4);\n  }\n  if ( done && i == 4 ) { print(-3); } else { print(0); }\n}\n".toList

theorem usable_names : ∀ n ∈ [['n'], ['r'], ['i'], ['f'], ['d', 'o', 'n', 'e'], ['f', 'a', 'c', 't'], mainName], Usable n := by
  unfold Usable Lex.PlainName
  decide +kernel

theorem factFits : FunFits program factFun where
  name := usable_names _ (by decide)
  params := fun n hn => usable_names n (by revert n; decide)
  distinct := by decide
  body := .int (usable_names _ (by decide)) rfl ⟨by decide, by decide⟩ (by decide)
    (.when ⟨by decide, by decide, by decide⟩
      (.call (g := factFun) (.set rfl) List.mem_cons_self rfl rfl (by decide) (.set rfl ⟨by decide, by decide⟩ .nil))
      (.ret ⟨by decide, by decide⟩ .nil))
  result := fun _ => ⟨factBody.take 2, .ret (.var ['r']), rfl, trivial⟩

theorem mainFits : FunFits program mainFun where
  name := usable_names _ (by decide)
  params := nofun
  distinct := by decide
  body := .int (usable_names _ (by decide)) rfl ⟨by decide, by decide⟩ (by decide)
    (.int (usable_names _ (by decide)) rfl ⟨by decide, by decide⟩ (by decide)
      (.bool (usable_names _ (by decide)) rfl ⟨by decide, by decide, by decide⟩ (by decide)
        (.loop ⟨by decide, by decide, by decide⟩
          (.call (g := factFun) (.set rfl) List.mem_cons_self rfl rfl (by decide) (.print ⟨by decide, by decide⟩
            (.set rfl ⟨by decide, by decide⟩ (.mark rfl ⟨by decide, by decide, by decide⟩ .nil))))
          (.choose ⟨by decide, by decide, by decide⟩ (.print ⟨by decide, by decide⟩ .nil) (.print ⟨by decide, by decide⟩ .nil) .nil))))
  result := nofun

theorem wellFormed : WellFormed program where
  funs := fun f hf => by
    rcases List.mem_cons.1 hf with rfl | hf
    · exact factFits
    · rcases List.mem_cons.1 hf with rfl | hf
      · exact mainFits
      · cases hf
  distinct := by decide
  main := ⟨mainFun, List.mem_cons_of_mem _ List.mem_cons_self, rfl, rfl, rfl⟩

theorem written : ∃ ms, WritesProgram program ms ∧ Laid ms text := by
  refine ⟨_, .cons (.int (ms := [.num 1]) ⟨.factor (.signed (.atom (.num _))), trivial⟩
    (.when (ms := [.name ['n'], .rel .gt, .num 1])
      ⟨.conj (.conjOne (.cmp (.factor (.signed (.atom (.var _)))) (.factor (.signed (.atom (.num _)))))), by simp [Calc.Apart]⟩
      (.call (.one (ms := [.name ['n'], .op .sub, .num 1])
        ⟨.sum (.inr rfl) (.factor (.signed (.atom (.var _)))) (.signed (.atom (.num _))), by simp [Calc.Apart]⟩)
        (.set (.to (ms := [.name ['r'], .op .mul, .name ['n']])
          ⟨.factor (.product (.inl rfl) (.signed (.atom (.var _))) (.atom (.var _))), by simp [Calc.Apart]⟩) .nil))
      (.ret (ms := [.name ['r']]) ⟨.factor (.signed (.atom (.var _))), trivial⟩ .nil)))
    (.cons (.int (ms := [.num 0]) ⟨.factor (.signed (.atom (.num _))), trivial⟩
      (.int (ms := [.num 0]) ⟨.factor (.signed (.atom (.num _))), trivial⟩
        (.bool (ms := [.const false]) ⟨.conj (.conjOne (.negated (.atom (.const _)))), trivial⟩
          (.loop (ms := [.not, .name ['d', 'o', 'n', 'e']]) ⟨.conj (.conjOne (.negated (.not (.flag _)))), by simp [Calc.Apart]⟩
            (.call (.one (ms := [.name ['i']]) ⟨.factor (.signed (.atom (.var _))), trivial⟩)
              (.print (ms := [.name ['f']]) ⟨.factor (.signed (.atom (.var _))), trivial⟩
                (.set (.to (ms := [.name ['i'], .op .add, .num 1])
                  ⟨.sum (.inl rfl) (.factor (.signed (.atom (.var _)))) (.signed (.atom (.num _))), by simp [Calc.Apart]⟩)
                  (.mark (ms := [.name ['i'], .rel .ge, .open, .num 4, .close])
                    ⟨.conj (.conjOne (.cmp (.factor (.signed (.atom (.var _))))
                      (.factor (.signed (.atom (.paren (.factor (.signed (.atom (.num _)))))))))), by simp [Calc.Apart]⟩ .nil))))
            (.choose (ms := [.name ['d', 'o', 'n', 'e'], .and, .name ['i'], .rel .eq, .num 4])
              ⟨.conj (.and (.conjOne (.negated (.atom (.flag _))))
                (.cmp (.factor (.signed (.atom (.var _)))) (.factor (.signed (.atom (.num _)))))), by simp [Calc.Apart]⟩
              (.print (ms := [.op .sub, .num 3]) ⟨.factor (.signed (.neg (.num _))), by simp [Calc.Apart]⟩ .nil)
              (.print (ms := [.num 0]) ⟨.factor (.signed (.atom (.num _))), trivial⟩ .nil) .nil)))))
      .nil), ?_⟩
  refine ⟨[.word ['i', 'n', 't'], .blank ' ', .word ['f', 'a', 'c', 't'], .sym '(', .word ['i', 'n', 't'], .blank ' ', .word ['n'],
    .sym ')', .blank ' ', .sym '{', .blank '\n', .blank ' ', .blank ' ', .word ['i', 'n', 't'], .blank ' ', .word ['r'], .blank ' ',
    .sym '=', .blank ' ', .word ['1'], .sym ';', .blank '\n', .blank ' ', .blank ' ', .word ['i', 'f'], .blank ' ', .sym '(',
    .blank ' ', .word ['n'], .blank ' ', .sym '>', .blank ' ', .word ['1'], .blank ' ', .sym ')', .blank ' ', .sym '{', .blank ' ',
    .word ['r'], .blank ' ', .sym '=', .blank ' ', .word ['f', 'a', 'c', 't'], .sym '(', .word ['n'], .blank ' ', .sym '-',
    .blank ' ', .word ['1'], .sym ')', .sym ';', .blank ' ', .word ['r'], .blank ' ', .sym '=', .blank ' ', .word ['r'], .blank ' ',
    .sym '*', .blank ' ', .word ['n'], .sym ';', .blank ' ', .sym '}', .blank ' ', .slashes " n!".toList, .blank ' ', .blank ' ',
    .word ['r', 'e', 't', 'u', 'r', 'n'], .blank ' ', .word ['r'], .sym ';', .blank '\n', .sym '}', .blank '\n',
    .word ['v', 'o', 'i', 'd'], .blank ' ', .word ['M', 'a', 'i', 'n'], .sym '(', .sym ')', .blank ' ', .sym '{', .blank '\n',
    .blank ' ', .blank ' ', .word ['i', 'n', 't'], .blank ' ', .word ['i'], .blank ' ', .sym '=', .blank ' ', .word ['0'], .sym ';',
    .blank ' ', .word ['i', 'n', 't'], .blank ' ', .word ['f'], .blank ' ', .sym '=', .blank ' ', .word ['0'], .sym ';', .blank ' ',
    .word ['b', 'o', 'o', 'l'], .blank ' ', .word ['d', 'o', 'n', 'e'], .blank ' ', .sym '=', .blank ' ',
    .word ['f', 'a', 'l', 's', 'e'], .sym ';', .blank '\n', .blank ' ', .blank ' ', .word ['w', 'h', 'i', 'l', 'e'], .blank ' ',
    .sym '(', .blank ' ', .sym '!', .word ['d', 'o', 'n', 'e'], .blank ' ', .sym ')', .blank ' ', .sym '{', .blank '\n', .blank ' ',
    .blank ' ', .blank ' ', .blank ' ', .word ['f'], .blank ' ', .sym '=', .blank ' ', .word ['f', 'a', 'c', 't'], .sym '(',
    .word ['i'], .sym ')', .sym ';', .blank '\n', .blank ' ', .blank ' ', .blank ' ', .blank ' ', .word ['p', 'r', 'i', 'n', 't'],
    .sym '(', .word ['f'], .sym ')', .sym ';', .blank '\n', .blank ' ', .blank ' ', .blank ' ', .blank ' ', .word ['i'], .blank ' ',
    .sym '=', .blank ' ', .word ['i'], .blank ' ', .sym '+', .blank ' ', .word ['1'], .sym ';', .blank '\n', .blank ' ', .blank ' ',
    .blank ' ', .blank ' ', .word ['d', 'o', 'n', 'e'], .blank ' ', .sym '=', .blank ' ', .word ['i'], .blank ' ', .sym '>',
    .sym '=', .blank ' ', .sym '(', .word ['4'], .sym ')', .sym ';', .blank '\n', .blank ' ', .blank ' ', .sym '}', .blank '\n',
    .blank ' ', .blank ' ', .word ['i', 'f'], .blank ' ', .sym '(', .blank ' ', .word ['d', 'o', 'n', 'e'], .blank ' ', .sym '&',
    .sym '&', .blank ' ', .word ['i'], .blank ' ', .sym '=', .sym '=', .blank ' ', .word ['4'], .blank ' ', .sym ')', .blank ' ',
    .sym '{', .blank ' ', .word ['p', 'r', 'i', 'n', 't'], .sym '(', .sym '-', .word ['3'], .sym ')', .sym ';', .blank ' ', .sym '}',
    .blank ' ', .word ['e', 'l', 's', 'e'], .blank ' ', .sym '{', .blank ' ', .word ['p', 'r', 'i', 'n', 't'], .sym '(', .word ['0'],
    .sym ')', .sym ';', .blank ' ', .sym '}', .blank '\n', .sym '}', .blank '\n'],
    by decide +kernel, by decide +kernel, by decide +kernel⟩

theorem fact_small {i : Int} (h : i = 0 ∨ i = 1) : ∃ vs, Does program [[(['n'], .int i)]] factBody [] vs (.ret 1) := by
  rcases h with rfl | rfl <;> exact ⟨_, .int rfl (.whenFalse rfl (.ret rfl))⟩

theorem fact_two : ∃ vs, Does program [[(['n'], .int 2)]] factBody [] vs (.ret 2) := by
  obtain ⟨ws, h⟩ := fact_small (.inr rfl)
  exact ⟨_, .int rfl (.whenTrue rfl (.block (out := []) (out' := [])
    (.call (is := [1]) (g := factFun) (out := []) (out' := []) rfl List.mem_cons_self rfl h nofun (.set rfl .done)) (.ret rfl)))⟩

theorem fact_three : ∃ vs, Does program [[(['n'], .int 3)]] factBody [] vs (.ret 6) := by
  obtain ⟨ws, h⟩ := fact_two
  exact ⟨_, .int rfl (.whenTrue rfl (.block (out := []) (out' := [])
    (.call (is := [2]) (g := factFun) (out := []) (out' := []) rfl List.mem_cons_self rfl h nofun (.set rfl .done)) (.ret rfl)))⟩

theorem prints : Prints program [.number 1, .number 1, .number 2, .number 6, .number (-3)] := by
  obtain ⟨_, h0⟩ := fact_small (.inl rfl)
  obtain ⟨_, h1⟩ := fact_small (.inr rfl)
  obtain ⟨_, h2⟩ := fact_two
  obtain ⟨_, h3⟩ := fact_three
  exact ⟨mainFun, List.mem_cons_of_mem _ List.mem_cons_self, rfl, _, _, .int rfl (.int rfl (.bool rfl
    (.loopNext (out := [.number 1]) (out' := [.number 1, .number 2, .number 6, .number (-3)]) rfl (.call (is := [0]) (g := factFun) (out := []) (out' := [.number 1]) rfl List.mem_cons_self rfl h0 nofun
      (.print rfl (.set rfl (.mark rfl .done)))) (.inl rfl)
    (.loopNext (out := [.number 1]) (out' := [.number 2, .number 6, .number (-3)]) rfl (.call (is := [1]) (g := factFun) (out := []) (out' := [.number 1]) rfl List.mem_cons_self rfl h1 nofun
      (.print rfl (.set rfl (.mark rfl .done)))) (.inl rfl)
    (.loopNext (out := [.number 2]) (out' := [.number 6, .number (-3)]) rfl (.call (is := [2]) (g := factFun) (out := []) (out' := [.number 2]) rfl List.mem_cons_self rfl h2 nofun
      (.print rfl (.set rfl (.mark rfl .done)))) (.inl rfl)
    (.loopNext (out := [.number 6]) (out' := [.number (-3)]) rfl (.call (is := [3]) (g := factFun) (out := []) (out' := [.number 6]) rfl List.mem_cons_self rfl h3 nofun
      (.print rfl (.set rfl (.mark rfl .done)))) (.inl rfl)
    (.loopEnd rfl (.chooseTrue rfl (.block (out := [.number (-3)]) (out' := []) (.print rfl .done) .done))))))))), .inl rfl⟩

/-- The hypotheses of `script_prints_partial` are met. -/
example : ∃ n, ∀ k, n ≤ k → runScript k text = .ended "1\n1\n2\n6\n-3\n".toList := by
  obtain ⟨ms, hw, hl⟩ := written
  have h : lines [.number 1, .number 1, .number 2, .number 6, .number (-3)] = "1\n1\n2\n6\n-3\n".toList := by decide +kernel
  rw [← h]
  exact (script_prints_partial wellFormed hw hl prints).1

/-! ## Scripts that do not do what they say -/

/-- `void Main() { int i = 1; { int i = i + 1; print(i); } }` -/
def ownProgram : Program :=
  [⟨true, mainName, [], [.int ['i'] (.num 1), .block [.int ['i'] (.bin .add (.var ['i']) (.num 1)), .print (.var ['i'])]]⟩]

def ownText : Text := "void Main() { int i = 1; { int i = i + 1; print(i); } }".toList

/-- C135 fails when the name of a new variable is used for its initial value: the new variable is read, not the outer one. -/
theorem own_initial_value_refuted : ∃ p ms text, WritesProgram p ms ∧ Laid ms text ∧ Prints p [.number 2] ∧
    ∀ k, runScript k text = .running ∨ runScript k text = .ended (lines [.number 1]) := by
  refine ⟨ownProgram, _, ownText, .cons (.int (ms := [.num 1]) ⟨.factor (.signed (.atom (.num _))), trivial⟩
    (.block (.int (ms := [.name ['i'], .op .add, .num 1])
      ⟨.sum (.inl rfl) (.factor (.signed (.atom (.var _)))) (.signed (.atom (.num _))), by simp [Calc.Apart]⟩
      (.print (ms := [.name ['i']]) ⟨.factor (.signed (.atom (.var _))), trivial⟩ .nil)) .nil)) .nil, ?_, ?_, ?_⟩
  · exact ⟨[.word ['v', 'o', 'i', 'd'], .blank ' ', .word ['M', 'a', 'i', 'n'], .sym '(', .sym ')', .blank ' ', .sym '{', .blank ' ',
    .word ['i', 'n', 't'], .blank ' ', .word ['i'], .blank ' ', .sym '=', .blank ' ', .word ['1'], .sym ';', .blank ' ', .sym '{',
    .blank ' ', .word ['i', 'n', 't'], .blank ' ', .word ['i'], .blank ' ', .sym '=', .blank ' ', .word ['i'], .blank ' ', .sym '+',
    .blank ' ', .word ['1'], .sym ';', .blank ' ', .word ['p', 'r', 'i', 'n', 't'], .sym '(', .word ['i'], .sym ')', .sym ';',
    .blank ' ', .sym '}', .blank ' ', .sym '}'],
      by decide +kernel, by decide +kernel, by decide +kernel⟩
  · exact ⟨_, List.mem_cons_self, rfl, _, _, .int rfl (.block (out := [.number 2]) (out' := []) (.int rfl (.print rfl .done)) .done), .inl rfl⟩
  · have h : runScript 100 ownText = .ended (lines [.number 1]) := by decide +kernel
    intro k
    by_cases hk : runScript k ownText = .running
    · exact .inl hk
    · exact .inr ((script_unique hk (n := 100) (by rw [h]; nofun)).trans h)

/-- A function declares one of its parameters again. -/
def Redeclares (f : Fun) : Prop := ∃ n a cs, n ∈ f.params ∧ f.body = .int n a :: cs

/-- `int f(int n) { int n = 2; return n; } void Main() { int r = 0; r = f(1); print(r); }` -/
def twiceProgram : Program :=
  [⟨false, ['f'], [['n']], [.int ['n'] (.num 2), .ret (.var ['n'])]⟩,
   ⟨true, mainName, [], [.int ['r'] (.num 0), .call (.set ['r']) ['f'] [.num 1], .print (.var ['r'])]⟩]

def twiceText : Text := "int f(int n) { int n = 2; return n; } void Main() { int r = 0; r = f(1); print(r); }".toList

/-- C135: the rule that a name is declared once in a block is not enforced for parameters: such a script is accepted and fails when
the function is called. -/
theorem parameter_twice_refuted : ∃ p ms text, WritesProgram p ms ∧ Laid ms text ∧ (∃ f ∈ p, Redeclares f) ∧ (∃ l, load text = .ok l) ∧
    ∀ k, runScript k text = .running ∨ runScript k text = .failed := by
  refine ⟨twiceProgram, _, twiceText, .cons (.int (ms := [.num 2]) ⟨.factor (.signed (.atom (.num _))), trivial⟩
    (.ret (ms := [.name ['n']]) ⟨.factor (.signed (.atom (.var _))), trivial⟩ .nil))
    (.cons (.int (ms := [.num 0]) ⟨.factor (.signed (.atom (.num _))), trivial⟩
      (.call (.one (ms := [.num 1]) ⟨.factor (.signed (.atom (.num _))), trivial⟩)
        (.print (ms := [.name ['r']]) ⟨.factor (.signed (.atom (.var _))), trivial⟩ .nil))) .nil), ?_,
    ⟨_, List.mem_cons_self, _, _, _, List.mem_cons_self, rfl⟩, ?_, ?_⟩
  · exact ⟨[.word ['i', 'n', 't'], .blank ' ', .word ['f'], .sym '(', .word ['i', 'n', 't'], .blank ' ', .word ['n'], .sym ')', .blank ' ',
    .sym '{', .blank ' ', .word ['i', 'n', 't'], .blank ' ', .word ['n'], .blank ' ', .sym '=', .blank ' ', .word ['2'], .sym ';',
    .blank ' ', .word ['r', 'e', 't', 'u', 'r', 'n'], .blank ' ', .word ['n'], .sym ';', .blank ' ', .sym '}', .blank ' ',
    .word ['v', 'o', 'i', 'd'], .blank ' ', .word ['M', 'a', 'i', 'n'], .sym '(', .sym ')', .blank ' ', .sym '{', .blank ' ',
    .word ['i', 'n', 't'], .blank ' ', .word ['r'], .blank ' ', .sym '=', .blank ' ', .word ['0'], .sym ';', .blank ' ', .word ['r'],
    .blank ' ', .sym '=', .blank ' ', .word ['f'], .sym '(', .word ['1'], .sym ')', .sym ';', .blank ' ',
    .word ['p', 'r', 'i', 'n', 't'], .sym '(', .word ['r'], .sym ')', .sym ';', .blank ' ', .sym '}'],
      by decide +kernel, by decide +kernel, by decide +kernel⟩
  · have h : (match load twiceText with | .ok _ => true | _ => false) = true := by decide +kernel
    split at h
    · rename_i l hl
      exact ⟨l, hl⟩
    · cases h
  · have h : runScript 100 twiceText = .failed := by decide +kernel
    intro k
    by_cases hk : runScript k twiceText = .running
    · exact .inl hk
    · exact .inr ((script_unique hk (n := 100) (by rw [h]; nofun)).trans h)

end Verif.Whole.Demo

