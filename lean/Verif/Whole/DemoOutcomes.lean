import Verif.Whole.Outcomes
import Verif.Whole.Demo

/-! Programs that meet the hypotheses of C139: one that runs forever, and one that goes wrong in its second turn. -/

namespace Verif.Whole.Demo

open Verif.Str (Text)
open Verif.Calc (Num Cond value truth)

/-- `i = 1 - i; print(i);` -/
def spinBody : List Cmd := [.set (.to ['i'] (.bin .sub (.num 1) (.var ['i']))), .print (.var ['i'])]

def spinFun : Fun := ⟨true, mainName, [], [.int ['i'] (.num 0), .loop (.const true) spinBody]⟩

def spinText : Text := "void Main() { int i = 0; while ( true ) { i = 1 - i; print(i); } }".toList

theorem spin_wellFormed : WellFormed [spinFun] where
  funs := fun f hf => by
    rcases List.mem_cons.1 hf with rfl | hf
    · exact
        { name := usable_names _ (by decide)
          params := nofun
          distinct := by decide
          body := .int (usable_names _ (by decide)) rfl ⟨by decide, by decide⟩ (by decide)
            (.loop ⟨by decide, by decide, by decide⟩ (.set rfl ⟨by decide, by decide⟩ (.print ⟨by decide, by decide⟩ .nil)) .nil)
          result := nofun }
    · cases hf
  distinct := by decide
  main := ⟨spinFun, List.mem_cons_self, rfl, rfl, rfl⟩

theorem spin_written : ∃ ms, WritesProgram [spinFun] ms ∧ Laid ms spinText := by
  refine ⟨_, .cons (.int (ms := [.num 0]) ⟨.factor (.signed (.atom (.num _))), trivial⟩
    (.loop (ms := [.const true]) ⟨.conj (.conjOne (.negated (.atom (.const _)))), trivial⟩
      (.set (.to (ms := [.num 1, .op .sub, .name ['i']])
        ⟨.sum (.inr rfl) (.factor (.signed (.atom (.num _)))) (.signed (.atom (.var _))), by simp [Calc.Apart]⟩)
        (.print (ms := [.name ['i']]) ⟨.factor (.signed (.atom (.var _))), trivial⟩ .nil)) .nil)) .nil, ?_⟩
  exact ⟨[.word ['v', 'o', 'i', 'd'], .blank ' ', .word ['M', 'a', 'i', 'n'], .sym '(', .sym ')', .blank ' ', .sym '{', .blank ' ',
    .word ['i', 'n', 't'], .blank ' ', .word ['i'], .blank ' ', .sym '=', .blank ' ', .word ['0'], .sym ';', .blank ' ',
    .word ['w', 'h', 'i', 'l', 'e'], .blank ' ', .sym '(', .blank ' ', .word ['t', 'r', 'u', 'e'], .blank ' ', .sym ')', .blank ' ',
    .sym '{', .blank ' ', .word ['i'], .blank ' ', .sym '=', .blank ' ', .word ['1'], .blank ' ', .sym '-', .blank ' ', .word ['i'],
    .sym ';', .blank ' ', .word ['p', 'r', 'i', 'n', 't'], .sym '(', .word ['i'], .sym ')', .sym ';', .blank ' ', .sym '}', .blank ' ',
    .sym '}'], by decide +kernel, by decide +kernel, by decide +kernel⟩

/-- The variable is 0 or 1. -/
def Bit (vs : Vars) : Prop := ∃ b i, vs = [b] ∧ b.lookup ['i'] = some (.int i) ∧ (i = 0 ∨ i = 1)

theorem bit_value {b : List (Text × Scalar)} {i : Int} (h : b.lookup ['i'] = some (.int i)) (hi : i = 0 ∨ i = 1) :
    value (ints [[], b]) (.bin .sub (.num 1) (.var ['i'])) = some (1 - i) := by
  have : ints [[], b] ['i'] = i := by simp only [ints, get, List.findSome?_cons, List.lookup_nil, h]
  rcases hi with rfl | rfl <;> simp [value, this] <;> rfl

/-- A turn changes it from one to the other, and ends. -/
theorem spin_turn {vs ws : Vars} {out : List Line} {e : End} (hv : Bit vs) (h : Does [spinFun] ([] :: vs) spinBody out ws e) :
    e = .next ∧ ∃ us, ws = [] :: us ∧ Bit us := by
  obtain ⟨b, i, rfl, hb, hi⟩ := hv
  cases h with
  | set h1 h2 =>
    rw [Change.num, bit_value hb hi] at h1
    cases h1
    cases h2 with
    | print _ h3 =>
      cases h3
      refine ⟨rfl, [(['i'], .int (1 - i)) :: b], by simp [put, Change.name, hb], _, 1 - i, rfl, by simp, by omega⟩

theorem spin_stays {vs : Vars} (hv : Bit vs) : Stays [spinFun] vs [.loop (.const true) spinBody] := by
  constructor
  · intro out ws e h
    generalize hc : [Cmd.loop (.const true) spinBody] = cs at h
    induction h with
    | loopNext _ hb _ _ _ ih =>
      cases hc
      obtain ⟨-, us, e, hu⟩ := spin_turn hv hb
      cases e
      exact ih hu rfl
    | loopEnd ht => cases hc; cases ht
    | loopBreak _ hb => cases hc; cases (spin_turn hv hb).1
    | loopReturn _ hb => cases hc; cases (spin_turn hv hb).1
    | loopLeft _ hb => cases hc; cases (spin_turn hv hb).1
    | _ => cases hc
  · intro h
    generalize hc : [Cmd.loop (.const true) spinBody] = cs at h
    induction h with
    | loopCond ht => cases hc; cases ht
    | loopBody _ hb =>
      cases hc
      obtain ⟨b, i, rfl, hb', hi⟩ := hv
      cases hb with
      | set h1 => rw [Change.num, bit_value hb' hi] at h1; cases h1
      | later h1 h2 =>
        cases h1 with
        | set h1 h3 =>
          cases h3
          cases h2 with
          | print h4 => cases h4
          | later _ h4 => cases h4
    | loopNext _ hb _ _ ih =>
      cases hc
      obtain ⟨-, us, e, hu⟩ := spin_turn hv hb
      cases e
      exact ih hu rfl
    | later _ hw => cases hc; cases hw
    | _ => cases hc

theorem spin_forever : Forever [spinFun] := by
  have hbit : Bit (add ['i'] (.int 0) [[]]) := ⟨_, 0, rfl, rfl, .inl rfl⟩
  constructor
  · rintro out ⟨m, hm, -, vs, e, hd, -⟩
    cases List.mem_singleton.1 hm
    cases hd with
    | int h1 h2 =>
      cases h1
      exact (spin_stays hbit).1 _ _ _ h2
  · rintro ⟨m, hm, -, hw⟩
    cases List.mem_singleton.1 hm
    cases hw with
    | int h => cases h
    | later h1 h2 =>
      cases h1 with
      | int h3 h4 =>
        cases h3
        cases h4
        exact (spin_stays hbit).2 h2

/-- The hypotheses of `script_forever_iff_partial` are met. -/
example : ∀ k, runScript k spinText = .running := by
  obtain ⟨ms, hw, hl⟩ := spin_written
  exact (script_forever_iff_partial spin_wellFormed hw hl).2 spin_forever

/-- `i = i - 1; print(10 / i);` -/
def divBody : List Cmd := [.set (.to ['i'] (.bin .sub (.var ['i']) (.num 1))), .print (.bin .div (.num 10) (.var ['i']))]

def divFun : Fun := ⟨true, mainName, [], [.int ['i'] (.num 2), .loop (.const true) divBody]⟩

def divText : Text := "void Main() { int i = 2; while ( true ) { i = i - 1; print(10 / i); } }".toList

theorem div_wellFormed : WellFormed [divFun] where
  funs := fun f hf => by
    rcases List.mem_cons.1 hf with rfl | hf
    · exact
        { name := usable_names _ (by decide)
          params := nofun
          distinct := by decide
          body := .int (usable_names _ (by decide)) rfl ⟨by decide, by decide⟩ (by decide)
            (.loop ⟨by decide, by decide, by decide⟩ (.set rfl ⟨by decide, by decide⟩ (.print ⟨by decide, by decide⟩ .nil)) .nil)
          result := nofun }
    · cases hf
  distinct := by decide
  main := ⟨divFun, List.mem_cons_self, rfl, rfl, rfl⟩

theorem div_written : ∃ ms, WritesProgram [divFun] ms ∧ Laid ms divText := by
  refine ⟨_, .cons (.int (ms := [.num 2]) ⟨.factor (.signed (.atom (.num _))), trivial⟩
    (.loop (ms := [.const true]) ⟨.conj (.conjOne (.negated (.atom (.const _)))), trivial⟩
      (.set (.to (ms := [.name ['i'], .op .sub, .num 1])
        ⟨.sum (.inr rfl) (.factor (.signed (.atom (.var _)))) (.signed (.atom (.num _))), by simp [Calc.Apart]⟩)
        (.print (ms := [.num 10, .op .div, .name ['i']])
          ⟨.factor (.product (.inr (.inl rfl)) (.signed (.atom (.num _))) (.atom (.var _))), by simp [Calc.Apart]⟩ .nil)) .nil)) .nil, ?_⟩
  exact ⟨[.word ['v', 'o', 'i', 'd'], .blank ' ', .word ['M', 'a', 'i', 'n'], .sym '(', .sym ')', .blank ' ', .sym '{', .blank ' ',
    .word ['i', 'n', 't'], .blank ' ', .word ['i'], .blank ' ', .sym '=', .blank ' ', .word ['2'], .sym ';', .blank ' ',
    .word ['w', 'h', 'i', 'l', 'e'], .blank ' ', .sym '(', .blank ' ', .word ['t', 'r', 'u', 'e'], .blank ' ', .sym ')', .blank ' ',
    .sym '{', .blank ' ', .word ['i'], .blank ' ', .sym '=', .blank ' ', .word ['i'], .blank ' ', .sym '-', .blank ' ', .word ['1'],
    .sym ';', .blank ' ', .word ['p', 'r', 'i', 'n', 't'], .sym '(', .word ['1', '0'], .blank ' ', .sym '/', .blank ' ', .word ['i'],
    .sym ')', .sym ';', .blank ' ', .sym '}', .blank ' ', .sym '}'], by decide +kernel, by decide +kernel, by decide +kernel⟩

theorem div_wrong : GoesWrong [divFun] :=
  ⟨divFun, List.mem_cons_self, rfl, .later (.int rfl .done) (.loopNext rfl (.set rfl (.print rfl .done)) (.inl rfl)
    (.loopBody rfl (.later (.set rfl .done) (.print rfl))))⟩

/-- The hypotheses of `script_fails_iff_partial` are met. -/
example : ∃ k, runScript k divText = .failed := by
  obtain ⟨ms, hw, hl⟩ := div_written
  exact (script_fails_iff_partial div_wellFormed hw hl).2 div_wrong

/-- The hypotheses of `script_ends_iff_partial` are met. -/
example : ∃ k, runScript k text = .ended (lines [.number 1, .number 1, .number 2, .number 6, .number (-3)]) := by
  obtain ⟨ms, hw, hl⟩ := written
  exact (script_ends_iff_partial wellFormed hw hl _).2 ⟨_, prints, rfl⟩

end Verif.Whole.Demo
