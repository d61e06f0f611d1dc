import Verif.Whole.Checked
import Verif.Whole.Props

/-!
C140: a script is rejected exactly when it breaks a rule.  The rules are those of `Verif.Whole.Rules`.  What is missing from the full
claim, and false of the code: variables that are named like functions, and functions that end without their result.
-/

namespace Verif.Whole

open Verif.Str (Text)
open Verif.Calc (Num Cond)

/-! ## Theorems -/

/-- C140: a script is accepted exactly if it obeys the rules, however it is laid out. -/
theorem script_checked_partial {p : Program} {ms : List Mark} {text : Text} (hp : Clean p) (hw : WritesProgram p ms) (hl : Laid ms text) :
    (∃ l, load text = .ok l) ↔ Lawful p := by
  obtain ⟨h1, h2⟩ := program_checked hp hw hl
  refine ⟨fun ⟨l, h⟩ => ?_, h1⟩
  apply Classical.byContradiction
  intro hn
  rw [h2 hn] at h
  cases h

theorem runLoaded_not_rejected (k : Nat) (l : Loaded) : runLoaded k l ≠ .rejected := by
  unfold runLoaded
  split
  · nofun
  · split
    · split <;> nofun
    all_goals nofun

/-- C140: a script is rejected before it runs exactly if it breaks a rule; nothing of it is executed then. -/
theorem script_rejected_partial {p : Program} {ms : List Mark} {text : Text} (hp : Clean p) (hw : WritesProgram p ms) (hl : Laid ms text)
    (k : Nat) : runScript k text = .rejected ↔ ¬ Lawful p := by
  obtain ⟨h1, h2⟩ := program_checked hp hw hl
  constructor
  · intro h hn
    obtain ⟨l, hl⟩ := h1 hn
    simp only [runScript, hl] at h
    exact runLoaded_not_rejected k l h
  · intro h
    simp only [runScript, h2 h]

/-! ## Single rules -/

/-- The command is among these commands, at any depth; `free`: not in a loop or in a `switch`. -/
inductive Among (c : Cmd) : (free : Bool) → List Cmd → Prop where
  | here {q : Bool} {cs : List Cmd} : Among c q (c :: cs)
  | later {q : Bool} {d : Cmd} {cs : List Cmd} : Among c q cs → Among c q (d :: cs)
  | when {q : Bool} {x : Cond} {t cs : List Cmd} : Among c q t → Among c q (.when x t :: cs)
  | chooseThen {q : Bool} {x : Cond} {t e cs : List Cmd} : Among c q t → Among c q (.choose x t e :: cs)
  | chooseElse {q : Bool} {x : Cond} {t e cs : List Cmd} : Among c q e → Among c q (.choose x t e :: cs)
  | chainThen {q : Bool} {x : Cond} {d : Cmd} {t cs : List Cmd} : Among c q t → Among c q (.chain x t d :: cs)
  | chainElse {q : Bool} {x : Cond} {d : Cmd} {t cs : List Cmd} : Among c q [d] → Among c q (.chain x t d :: cs)
  | block {q : Bool} {b cs : List Cmd} : Among c q b → Among c q (.block b :: cs)
  | loop {x : Cond} {b cs : List Cmd} : Among c false b → Among c false (.loop x b :: cs)
  | count {n : Text} {a : Num} {x : Cond} {d : Change} {b cs : List Cmd} : Among c false b → Among c false (.count n a x d b :: cs)
  | pick {a : Num} {l : Option Num} {t : List Cmd} {as : List (Option Num × List Cmd)} {cs : List Cmd} :
    (l, t) ∈ as → Among c false t → Among c false (.pick a as :: cs)

/-- The blocks of a lawful `switch` obey the rules and end with a jump; only one is the default. -/
theorem armsObey_mem {p : Program} {r : Bool} {Γ : Ctx} {m : Option Num} {t : List Cmd} : ∀ {as : List (Option Num × List Cmd)} {d : Bool},
    (m, t) ∈ as → armsObey p r Γ d as = true → obeys p r true ([] :: Γ) t = true ∧ ends false t = true ∧
      ∀ b, m = some b → (numKind Γ b).isSome = true
  | (some a, u) :: as, d, hm, ho => by
    simp only [armsObey, Bool.and_eq_true] at ho
    rcases List.mem_cons.1 hm with h | h
    · cases h
      exact ⟨ho.1.1.2, ho.1.2, fun b h => by cases h; exact ho.1.1.1⟩
    · exact armsObey_mem h ho.2
  | (none, u) :: as, d, hm, ho => by
    simp only [armsObey, Bool.and_eq_true] at ho
    rcases List.mem_cons.1 hm with h | h
    · cases h
      exact ⟨ho.1.1.2, ho.1.2, nofun⟩
    · exact armsObey_mem h ho.2

theorem armsObey_defaults {p : Program} {r : Bool} {Γ : Ctx} : ∀ {as : List (Option Num × List Cmd)} {d : Bool},
    armsObey p r Γ d as = true → (as.filter fun x => x.1.isNone).length ≤ if d then 0 else 1
  | [], d, _ => Nat.zero_le _
  | (some a, u) :: as, d, ho => by
    simp only [armsObey, Bool.and_eq_true] at ho
    simpa using armsObey_defaults ho.2
  | (none, u) :: as, d, ho => by
    simp only [armsObey, Bool.and_eq_true, Bool.not_eq_true'] at ho
    have := armsObey_defaults ho.2
    simp [ho.1.1.1] at this ⊢
    exact this

/-- A command of a lawful body obeys the rules, with some variables. -/
theorem among_obeys {p : Program} {r : Bool} {c : Cmd} {cs : List Cmd} {q : Bool} (h : Among c q cs) {l : Bool} {Γ : Ctx}
    (ho : obeys p r l Γ cs = true) : ∃ l' Γ', cmdObeys p r l' Γ' c = true ∧ (q = true → l' = l) := by
  induction h generalizing l Γ with
  | here =>
    simp only [obeys, Bool.and_eq_true] at ho
    exact ⟨l, Γ, ho.1, fun _ => rfl⟩
  | later _ ih =>
    simp only [obeys, Bool.and_eq_true] at ho
    exact ih ho.2
  | «when» _ ih =>
    simp only [obeys, cmdObeys, Bool.and_eq_true] at ho
    exact ih ho.1.2
  | chooseThen _ ih =>
    simp only [obeys, cmdObeys, Bool.and_eq_true] at ho
    exact ih ho.1.1.2
  | chooseElse _ ih =>
    simp only [obeys, cmdObeys, Bool.and_eq_true] at ho
    exact ih ho.1.2
  | chainThen _ ih =>
    simp only [obeys, cmdObeys, Bool.and_eq_true] at ho
    exact ih ho.1.1.2
  | chainElse _ ih =>
    simp only [obeys, cmdObeys, Bool.and_eq_true] at ho
    exact ih (by rw [obeys, ho.1.2]; rfl)
  | block _ ih =>
    simp only [obeys, cmdObeys, Bool.and_eq_true] at ho
    exact ih ho.1
  | loop _ ih =>
    simp only [obeys, cmdObeys, Bool.and_eq_true] at ho
    obtain ⟨l', Γ', h, -⟩ := ih ho.1.2
    exact ⟨l', Γ', h, nofun⟩
  | count _ ih =>
    simp only [obeys, cmdObeys, Bool.and_eq_true] at ho
    obtain ⟨l', Γ', h, -⟩ := ih ho.1.2
    exact ⟨l', Γ', h, nofun⟩
  | pick hm _ ih =>
    simp only [obeys, cmdObeys, Bool.and_eq_true] at ho
    obtain ⟨l', Γ', h, -⟩ := ih (armsObey_mem hm ho.1.2).1
    exact ⟨l', Γ', h, nofun⟩

/-- The command calls the function with these arguments. -/
def Calls (g : Text) (args : List Num) (c : Cmd) : Prop := (∃ u, c = .call u g args) ∨ c = .act g args

/-- C140: a call of a function that does not exist, or not with this number of parameters, is found before the script runs, wherever
it stands. -/
theorem unknown_function_rejected_partial {p : Program} {ms : List Mark} {text : Text} (hp : Clean p) (hw : WritesProgram p ms)
    (hl : Laid ms text) {f : Fun} (hf : f ∈ p) {g : Text} {args : List Num} {c : Cmd} {q : Bool} (hc : Among c q f.body)
    (hcall : Calls g args c) (hg : ∀ h ∈ p, h.name = g → h.params.length ≠ args.length) (k : Nat) : runScript k text = .rejected := by
  refine (script_rejected_partial hp hw hl k).2 fun h => ?_
  obtain ⟨l', Γ', ho, -⟩ := among_obeys hc (h.bodies f hf)
  rcases hcall with ⟨u, rfl⟩ | rfl
  · have ha : answers p g args.length = false := by
      simp only [answers, List.any_eq_false, Bool.and_eq_true, decide_eq_true_eq]
      exact fun x hx i => hg x hx i.1 i.2
    obtain ⟨c1, c2⟩ := not_answers ha
    cases u <;> simp [cmdObeys, callObeys, ha, c1, c2] at ho
  · simp only [cmdObeys, answers, Bool.and_eq_true, List.any_eq_true, decide_eq_true_eq] at ho
    obtain ⟨⟨x, hx, h1, h2⟩, -⟩ := ho
    exact hg x hx h1 h2

/-- C140: `break` and `continue` outside of loops and of `switch` are found. -/
theorem stray_jump_rejected_partial {p : Program} {ms : List Mark} {text : Text} (hp : Clean p) (hw : WritesProgram p ms)
    (hl : Laid ms text) {f : Fun} (hf : f ∈ p) (hc : Among .brk true f.body ∨ Among .cont true f.body) (k : Nat) :
    runScript k text = .rejected := by
  refine (script_rejected_partial hp hw hl k).2 fun h => ?_
  rcases hc with hc | hc
  all_goals
    obtain ⟨l', Γ', ho, he⟩ := among_obeys hc (h.bodies f hf)
    rw [he rfl] at ho
    cases ho

/-- C140: a result in a function without result is found. -/
theorem result_of_void_rejected_partial {p : Program} {ms : List Mark} {text : Text} (hp : Clean p) (hw : WritesProgram p ms)
    (hl : Laid ms text) {f : Fun} (hf : f ∈ p) (hv : f.isVoid = true) {a : Num} {q : Bool} (hc : Among (.ret a) q f.body) (k : Nat) :
    runScript k text = .rejected := by
  refine (script_rejected_partial hp hw hl k).2 fun h => ?_
  obtain ⟨l', Γ', ho, -⟩ := among_obeys hc (h.bodies f hf)
  simp [cmdObeys, hv] at ho

/-- C140: `return;` in a function with a result is found. -/
theorem return_without_result_rejected_partial {p : Program} {ms : List Mark} {text : Text} (hp : Clean p) (hw : WritesProgram p ms)
    (hl : Laid ms text) {f : Fun} (hf : f ∈ p) (hv : f.isVoid = false) {q : Bool} (hc : Among .leave q f.body) (k : Nat) :
    runScript k text = .rejected := by
  refine (script_rejected_partial hp hw hl k).2 fun h => ?_
  obtain ⟨l', Γ', ho, -⟩ := among_obeys hc (h.bodies f hf)
  simp [cmdObeys, hv] at ho

/-- C140: in a function without result, `return f();` with an `f` that has a result is found. -/
theorem call_result_of_void_rejected_partial {p : Program} {ms : List Mark} {text : Text} (hp : Clean p) (hw : WritesProgram p ms)
    (hl : Laid ms text) {f : Fun} (hf : f ∈ p) (hv : f.isVoid = true) {g : Fun} (hg : g ∈ p) (hr : g.isVoid = false) {args : List Num}
    (hn : args.length = g.params.length) {q : Bool} (hc : Among (.call .ret g.name args) q f.body) (k : Nat) :
    runScript k text = .rejected := by
  refine (script_rejected_partial hp hw hl k).2 fun h => ?_
  obtain ⟨l', Γ', ho, -⟩ := among_obeys hc (h.bodies f hf)
  simp [cmdObeys, callObeys, hv, (callable_is h.distinct hg rfl hn.symm).2, hr] at ho

/-- C140: where a result is needed, in an assignment, in a declaration and behind `return` of a function with a result, a call of a
function without result is found. -/
theorem void_result_rejected_partial {p : Program} {ms : List Mark} {text : Text} (hp : Clean p) (hw : WritesProgram p ms)
    (hl : Laid ms text) {f : Fun} (hf : f ∈ p) {g : Fun} (hg : g ∈ p) (hr : g.isVoid = true) {args : List Num}
    (hn : args.length = g.params.length) {u : Use} (hu : u ≠ .print) (hv : u = .ret → f.isVoid = false) {q : Bool}
    (hc : Among (.call u g.name args) q f.body) (k : Nat) : runScript k text = .rejected := by
  refine (script_rejected_partial hp hw hl k).2 fun h => ?_
  obtain ⟨l', Γ', ho, -⟩ := among_obeys hc (h.bodies f hf)
  have hi := (callable_is h.distinct hg rfl hn.symm).1
  cases u with
  | print => exact hu rfl
  | ret => simp [cmdObeys, callObeys, hv rfl, hi, hr] at ho
  | _ => simp [cmdObeys, callObeys, hi, hr] at ho

/-- C140: a second `default` in a `switch` is found. -/
theorem second_default_rejected_partial {p : Program} {ms : List Mark} {text : Text} (hp : Clean p) (hw : WritesProgram p ms)
    (hl : Laid ms text) {f : Fun} (hf : f ∈ p) {a : Num} {as : List (Option Num × List Cmd)} {q : Bool}
    (hc : Among (.pick a as) q f.body) (hd : 2 ≤ (as.filter fun x => x.1.isNone).length) (k : Nat) : runScript k text = .rejected := by
  refine (script_rejected_partial hp hw hl k).2 fun h => ?_
  obtain ⟨l', Γ', ho, -⟩ := among_obeys hc (h.bodies f hf)
  simp only [cmdObeys, Bool.and_eq_true] at ho
  have := armsObey_defaults ho.2
  simp only [Bool.false_eq_true, if_false] at this
  omega

/-- A return. -/
def IsReturn (c : Cmd) : Prop := (∃ a, c = .ret a) ∨ (∃ f args, c = .call .ret f args) ∨ c = .leave

mutual

theorem cmdReturns_among {q : Bool} {c : Cmd} (h : cmdReturns q c = true) (hq : q = false) : ∃ d, IsReturn d ∧ Among d false [c] := by
  cases c with
  | ret a => exact ⟨_, .inl ⟨a, rfl⟩, .here⟩
  | leave => exact ⟨_, .inr (.inr rfl), .here⟩
  | call u f args =>
    cases u with
    | ret => exact ⟨_, .inr (.inl ⟨f, args, rfl⟩), .here⟩
    | _ => subst hq; simp [cmdReturns] at h
  | «when» x t =>
    obtain ⟨d, hd, ha⟩ := returns_among (q := false) (cs := t) (by simpa [cmdReturns] using h) rfl
    exact ⟨d, hd, .when ha⟩
  | choose x t e =>
    obtain ⟨d, hd, ha⟩ := returns_among (q := false) (cs := e) (by simpa [cmdReturns] using h) rfl
    exact ⟨d, hd, .chooseElse ha⟩
  | chain x t e =>
    rw [cmdReturns] at h
    cases ht : returns false t with
    | true =>
      obtain ⟨d, hd, ha⟩ := returns_among ht rfl
      exact ⟨d, hd, .chainThen ha⟩
    | false =>
      rw [ht] at h
      obtain ⟨d, hd, ha⟩ := cmdReturns_among h rfl
      exact ⟨d, hd, .chainElse ha⟩
  | loop x b =>
    obtain ⟨d, hd, ha⟩ := returns_among (q := false) (cs := b) (by simpa [cmdReturns] using h) rfl
    exact ⟨d, hd, .loop ha⟩
  | count n a x _ b =>
    obtain ⟨d, hd, ha⟩ := returns_among (q := false) (cs := b) (by simpa [cmdReturns] using h) rfl
    exact ⟨d, hd, .count ha⟩
  | block b =>
    obtain ⟨d, hd, ha⟩ := returns_among (q := false) (cs := b) (by simpa [cmdReturns] using h) rfl
    exact ⟨d, hd, .block ha⟩
  | pick a as =>
    subst hq
    obtain ⟨m, t, hm, d, hd, ha⟩ := armsReturn_among (q := false) (as := as) (by simpa [cmdReturns] using h) rfl
    exact ⟨d, hd, .pick hm ha⟩
  | _ => subst hq; simp [cmdReturns] at h

theorem armsReturn_among {q : Bool} {as : List (Option Num × List Cmd)} (h : armsReturn q as = true) (hq : q = false) :
    ∃ m t, (m, t) ∈ as ∧ ∃ d, IsReturn d ∧ Among d false t := by
  match as with
  | [] => subst hq; simp [armsReturn] at h
  | (m, t) :: as =>
    rw [armsReturn] at h
    cases ht : returns false t with
    | true =>
      obtain ⟨d, hd, ha⟩ := returns_among ht rfl
      exact ⟨m, t, .head _, d, hd, ha⟩
    | false =>
      rw [ht] at h
      obtain ⟨m', t', hm, hd⟩ := armsReturn_among h rfl
      exact ⟨m', t', .tail _ hm, hd⟩

theorem returns_among {q : Bool} {cs : List Cmd} (h : returns q cs = true) (hq : q = false) : ∃ d, IsReturn d ∧ Among d false cs := by
  cases cs with
  | nil => subst hq; simp [returns] at h
  | cons c cs =>
    cases hr : cmdReturns q c with
    | true =>
      obtain ⟨d, hd, ha⟩ := cmdReturns_among hr hq
      refine ⟨d, hd, ?_⟩
      cases ha with
      | here => exact .here
      | later i => cases i
      | «when» i => exact .when i
      | chooseThen i => exact .chooseThen i
      | chooseElse i => exact .chooseElse i
      | chainThen i => exact .chainThen i
      | chainElse i => exact .chainElse i
      | block i => exact .block i
      | loop i => exact .loop i
      | count i => exact .count i
      | pick j i => exact .pick j i
    | false =>
      rw [returns, hr] at h
      obtain ⟨d, hd, ha⟩ := returns_among h rfl
      exact ⟨d, hd, .later ha⟩

end

/-- A jump. -/
def IsJump (c : Cmd) : Prop := IsReturn c ∨ c = .brk ∨ c = .cont

mutual

theorem cmdEnds_among {q : Bool} {c : Cmd} (h : cmdEnds q c = true) (hq : q = false) : ∃ d, IsJump d ∧ Among d false [c] := by
  cases c with
  | ret a => exact ⟨_, .inl (.inl ⟨a, rfl⟩), .here⟩
  | leave => exact ⟨_, .inl (.inr (.inr rfl)), .here⟩
  | brk => exact ⟨_, .inr (.inl rfl), .here⟩
  | cont => exact ⟨_, .inr (.inr rfl), .here⟩
  | call u f args =>
    cases u with
    | ret => exact ⟨_, .inl (.inr (.inl ⟨f, args, rfl⟩)), .here⟩
    | _ => subst hq; simp [cmdEnds] at h
  | «when» x t =>
    obtain ⟨d, hd, ha⟩ := ends_among (q := false) (cs := t) (by simpa [cmdEnds] using h) rfl
    exact ⟨d, hd, .when ha⟩
  | choose x t e =>
    obtain ⟨d, hd, ha⟩ := ends_among (q := false) (cs := e) (by simpa [cmdEnds] using h) rfl
    exact ⟨d, hd, .chooseElse ha⟩
  | chain x t e =>
    rw [cmdEnds] at h
    cases ht : ends false t with
    | true =>
      obtain ⟨d, hd, ha⟩ := ends_among ht rfl
      exact ⟨d, hd, .chainThen ha⟩
    | false =>
      rw [ht] at h
      obtain ⟨d, hd, ha⟩ := cmdEnds_among h rfl
      exact ⟨d, hd, .chainElse ha⟩
  | loop x b =>
    obtain ⟨d, hd, ha⟩ := ends_among (q := false) (cs := b) (by simpa [cmdEnds] using h) rfl
    exact ⟨d, hd, .loop ha⟩
  | count n a x _ b =>
    obtain ⟨d, hd, ha⟩ := ends_among (q := false) (cs := b) (by simpa [cmdEnds] using h) rfl
    exact ⟨d, hd, .count ha⟩
  | block b =>
    obtain ⟨d, hd, ha⟩ := ends_among (q := false) (cs := b) (by simpa [cmdEnds] using h) rfl
    exact ⟨d, hd, .block ha⟩
  | pick a as =>
    subst hq
    obtain ⟨m, t, hm, d, hd, ha⟩ := armsEnd_among (q := false) (as := as) (by simpa [cmdEnds] using h) rfl
    exact ⟨d, hd, .pick hm ha⟩
  | _ => subst hq; simp [cmdEnds] at h

theorem armsEnd_among {q : Bool} {as : List (Option Num × List Cmd)} (h : armsEnd q as = true) (hq : q = false) :
    ∃ m t, (m, t) ∈ as ∧ ∃ d, IsJump d ∧ Among d false t := by
  match as with
  | [] => subst hq; simp [armsEnd] at h
  | (m, t) :: as =>
    rw [armsEnd] at h
    cases ht : ends false t with
    | true =>
      obtain ⟨d, hd, ha⟩ := ends_among ht rfl
      exact ⟨m, t, .head _, d, hd, ha⟩
    | false =>
      rw [ht] at h
      obtain ⟨m', t', hm, hd⟩ := armsEnd_among h rfl
      exact ⟨m', t', .tail _ hm, hd⟩

theorem ends_among {q : Bool} {cs : List Cmd} (h : ends q cs = true) (hq : q = false) : ∃ d, IsJump d ∧ Among d false cs := by
  cases cs with
  | nil => subst hq; simp [ends] at h
  | cons c cs =>
    cases hr : cmdEnds q c with
    | true =>
      obtain ⟨d, hd, ha⟩ := cmdEnds_among hr hq
      refine ⟨d, hd, ?_⟩
      cases ha with
      | here => exact .here
      | later i => cases i
      | «when» i => exact .when i
      | chooseThen i => exact .chooseThen i
      | chooseElse i => exact .chooseElse i
      | chainThen i => exact .chainThen i
      | chainElse i => exact .chainElse i
      | block i => exact .block i
      | loop i => exact .loop i
      | count i => exact .count i
      | pick j i => exact .pick j i
    | false =>
      rw [ends, hr] at h
      obtain ⟨d, hd, ha⟩ := ends_among h rfl
      exact ⟨d, hd, .later ha⟩

end

/-- C140: a block of a `switch` without any jump is found. -/
theorem block_without_jump_rejected_partial {p : Program} {ms : List Mark} {text : Text} (hp : Clean p) (hw : WritesProgram p ms)
    (hl : Laid ms text) {f : Fun} (hf : f ∈ p) {a : Num} {as : List (Option Num × List Cmd)} {q : Bool}
    (hc : Among (.pick a as) q f.body) {m : Option Num} {t : List Cmd} (hm : (m, t) ∈ as)
    (hj : ∀ d, IsJump d → ¬ Among d false t) (k : Nat) : runScript k text = .rejected := by
  refine (script_rejected_partial hp hw hl k).2 fun h => ?_
  obtain ⟨l', Γ', ho, -⟩ := among_obeys hc (h.bodies f hf)
  simp only [cmdObeys, Bool.and_eq_true] at ho
  obtain ⟨d, hd, ha⟩ := ends_among (armsObey_mem hm ho.2).2.1 rfl
  exact hj d hd ha

/-- C140: a function that promises a result and has no `return` is found. -/
theorem missing_result_rejected_partial {p : Program} {ms : List Mark} {text : Text} (hp : Clean p) (hw : WritesProgram p ms)
    (hl : Laid ms text) {f : Fun} (hf : f ∈ p) (hv : f.isVoid = false) (hc : ∀ a, ¬ Among (.ret a) false f.body)
    (hc' : ∀ g args, ¬ Among (.call .ret g args) false f.body) (k : Nat) : runScript k text = .rejected := by
  refine (script_rejected_partial hp hw hl k).2 fun h => ?_
  obtain ⟨d, ⟨a, rfl⟩ | ⟨g, args, rfl⟩ | rfl, ha⟩ := returns_among (h.results f hf hv) rfl
  · exact hc a ha
  · exact hc' g args ha
  · obtain ⟨l', Γ', ho, -⟩ := among_obeys ha (h.bodies f hf)
    simp [cmdObeys, hv] at ho

/-! ## Variables -/

/-- The variables that a command uses by itself. -/
def uses : Cmd → List Text
  | .int _ a => a.vars
  | .bool _ c => c.vars ++ c.flags
  | .set d => d.name :: d.num.vars
  | .check c => c.vars ++ c.flags
  | .mark n c => n :: (c.vars ++ c.flags)
  | .call (.set n) _ args => n :: args.flatMap Num.vars
  | .call _ _ args => args.flatMap Num.vars
  | .act _ args => args.flatMap Num.vars
  | .print a => a.vars
  | .say h ps => h.vars ++ ps.flatMap Part.vars
  | .text _ h ps => h.vars ++ ps.flatMap Part.vars
  | .write n h ps => n :: (h.vars ++ ps.flatMap Part.vars)
  | .when c _ => c.vars ++ c.flags
  | .choose c _ _ => c.vars ++ c.flags
  | .chain c _ _ => c.vars ++ c.flags
  | .loop c _ => c.vars ++ c.flags
  | .count _ a c d _ => a.vars ++ (c.vars ++ c.flags) ++ d.name :: d.num.vars
  | .ret a => a.vars
  | .pick a as => a.vars ++ as.flatMap fun x => x.1.elim [] Num.vars
  | _ => []

/-- The command declares the variable. -/
def Declares (n : Text) (c : Cmd) : Prop := (∃ a, c = .int n a) ∨ (∃ b, c = .bool n b) ∨ (∃ a x d b, c = .count n a x d b) ∨
  (∃ f args, c = .call (.new n) f args) ∨ (∃ k, c = .fresh k n) ∨ ∃ h ps, c = .text n h ps

theorem kind_counter {Γ : Ctx} {n m : Text} {k : Kind} (h : (kind ([(m, k)] :: Γ) n).isSome = true) : (kind Γ n).isSome = true ∨ n = m := by
  by_cases e : n = m
  · exact .inr e
  · refine .inl ?_
    have hb : (n == m) = false := by simpa using e
    simpa only [kind, List.findSome?_cons, List.lookup_cons, List.lookup_nil, hb] using h

theorem bind_both {o u : Option Kind} {f : Kind → Kind → Option Kind} (h : (o.bind fun k => u.bind fun j => f k j).isSome = true) :
    o.isSome = true ∧ u.isSome = true := by
  cases o with
  | none => cases h
  | some k =>
    cases u with
    | none => cases h
    | some j => exact ⟨rfl, rfl⟩

theorem accepts_both {k j : Option Kind} (h : accepts k j = true) : k.isSome = true ∧ j.isSome = true := by
  obtain ⟨_, _, rfl, rfl, -⟩ := accepts_some h
  exact ⟨rfl, rfl⟩

theorem numKind_vars {Γ : Ctx} : ∀ {a : Num}, (numKind Γ a).isSome = true → ∀ n ∈ a.vars, (kind Γ n).isSome = true
  | .num _, _, n, hn => by simp [Num.vars] at hn
  | .var m, h, n, hn => by simp only [Num.vars, List.mem_singleton] at hn; subst hn; exact h
  | .neg a, h, n, hn => by
    rw [numKind] at h
    split at h
    · rename_i ha
      exact numKind_vars (a := a) (by rw [ha]; rfl) n hn
    · cases h
  | .bin _ a b, h, n, hn => by
    obtain ⟨h1, h2⟩ := bind_both (o := numKind Γ a) (u := numKind Γ b) h
    simp only [Num.vars, List.mem_append] at hn
    rcases hn with hn | hn
    · exact numKind_vars (a := a) h1 n hn
    · exact numKind_vars (a := b) h2 n hn

theorem condKind_vars {Γ : Ctx} : ∀ {c : Cond}, (condKind Γ c).isSome = true → ∀ n ∈ c.vars ++ c.flags, (kind Γ n).isSome = true
  | .cmp r a b, h, n, hn => by
    have hab := bind_both (o := numKind Γ a) (u := numKind Γ b) h
    simp only [Cond.vars, Cond.flags, List.append_nil, List.mem_append] at hn
    rcases hn with hn | hn
    · exact numKind_vars hab.1 n hn
    · exact numKind_vars hab.2 n hn
  | .flag m, h, n, hn => by
    simp only [Cond.vars, Cond.flags, List.nil_append, List.mem_singleton] at hn; subst hn; exact h
  | .const _, _, n, hn => by simp [Cond.vars, Cond.flags] at hn
  | .not c, h, n, hn => by
    rw [condKind] at h
    split at h
    · rename_i hc; exact condKind_vars (c := c) hc n hn
    · cases h
  | .and c d, h, n, hn => by
    rw [condKind] at h
    split at h
    · rename_i hc
      simp only [Cond.vars, Cond.flags, List.mem_append] at hn
      rcases hn with (hn | hn) | (hn | hn)
      · exact condKind_vars (c := c) hc.1 n (by simp [hn])
      · exact condKind_vars (c := d) hc.2 n (by simp [hn])
      · exact condKind_vars (c := c) hc.1 n (by simp [hn])
      · exact condKind_vars (c := d) hc.2 n (by simp [hn])
    · cases h
  | .or c d, h, n, hn => by
    rw [condKind] at h
    split at h
    · rename_i hc
      simp only [Cond.vars, Cond.flags, List.mem_append] at hn
      rcases hn with (hn | hn) | (hn | hn)
      · exact condKind_vars (c := c) hc.1 n (by simp [hn])
      · exact condKind_vars (c := d) hc.2 n (by simp [hn])
      · exact condKind_vars (c := c) hc.1 n (by simp [hn])
      · exact condKind_vars (c := d) hc.2 n (by simp [hn])
    · cases h

theorem startKind_vars {Γ : Ctx} : ∀ {h : Start}, (startKind Γ h).isSome = true → ∀ n ∈ h.vars, (kind Γ n).isSome = true
  | .text _, _, _, hn => by cases hn
  | .var m, h, n, hn => by simp only [Start.vars, List.mem_singleton] at hn; subst hn; exact h

theorem partKind_vars {Γ : Ctx} : ∀ {x : Part}, (partKind Γ x).isSome = true → ∀ n ∈ x.vars, (kind Γ n).isSome = true
  | .num _, h => numKind_vars h
  | .truth _, h => condKind_vars h
  | .text _, _ => fun _ hn => by cases hn
  | .var m, h => fun n hn => by simp only [Part.vars, List.mem_singleton] at hn; subst hn; exact h

theorem toldKind_vars {Γ : Ctx} {h : Start} {ps : List Part} (hk : (toldKind Γ h ps).isSome = true) :
    ∀ n ∈ h.vars ++ ps.flatMap Part.vars, (kind Γ n).isSome = true := by
  have aux : ∀ (ps : List Part) (k : Option Kind),
      (ps.foldl (fun acc x => acc.bind fun k => (partKind Γ x).bind fun j => join .add k j) k).isSome = true →
      k.isSome = true ∧ ∀ x ∈ ps, (partKind Γ x).isSome = true := by
    intro ps
    induction ps with
    | nil => exact fun _ h => ⟨h, nofun⟩
    | cons x ps ih =>
      intro k h
      obtain ⟨h1, h2⟩ := ih _ h
      obtain ⟨h3, h4⟩ := bind_both h1
      exact ⟨h3, fun y hy => (List.mem_cons.1 hy).elim (fun e => e ▸ h4) (h2 y)⟩
  obtain ⟨h1, h2⟩ := aux ps _ hk
  intro n hn
  rcases List.mem_append.1 hn with hn | hn
  · exact startKind_vars h1 n hn
  · obtain ⟨x, hx, hn⟩ := List.mem_flatMap.1 hn
    exact partKind_vars (h2 x hx) n hn

theorem kind_declareIn {n m : Text} {k : Kind} {Γ : Ctx} (h : n ≠ m) : kind (declareIn m k Γ) n = kind Γ n := by
  have hb : (n == m) = false := by simpa using h
  cases Γ with
  | nil => simp [declareIn, kind, List.lookup, hb]
  | cons g Γ => simp only [declareIn, kind, List.findSome?_cons, List.lookup_cons, hb]

theorem changeObeys_uses {Γ : Ctx} {d : Change} {n : Text} (ho : changeObeys Γ d = true) (hn : n ∈ d.name :: d.num.vars) :
    (kind Γ n).isSome = true := by
  cases d with
  | to m a =>
    have ho := accepts_both ho
    rcases List.mem_cons.1 hn with rfl | hn
    · exact ho.1
    · exact numKind_vars ho.2 n hn
  | «by» m op a =>
    have ho := bind_both (o := kind Γ m) (u := numKind Γ a) ho
    simp only [Change.name, Change.num, Num.vars, List.singleton_append, List.mem_cons] at hn
    rcases hn with rfl | rfl | hn
    · exact ho.1
    · exact ho.1
    · exact numKind_vars ho.2 n hn
  | step up m =>
    simp only [Change.name, Change.num, Num.vars, List.append_nil, List.mem_cons, List.not_mem_nil, or_false, or_self] at hn
    subst hn
    exact ho

/-- What a command uses is known, or is what it declares. -/
theorem cmdObeys_uses {p : Program} {r l : Bool} {Γ : Ctx} {c : Cmd} {n : Text} (ho : cmdObeys p r l Γ c = true) (hn : n ∈ uses c) :
    (kind Γ n).isSome = true ∨ Declares n c := by
  cases c with
  | int m a =>
    simp only [cmdObeys, Bool.and_eq_true] at ho
    by_cases e : n = m
    · subst e; exact .inr (.inl ⟨a, rfl⟩)
    · have := numKind_vars (accepts_both ho.2).2 n hn
      rw [kind_declareIn e] at this
      exact .inl this
  | bool m a =>
    simp only [cmdObeys, Bool.and_eq_true] at ho
    by_cases e : n = m
    · subst e; exact .inr (.inr (.inl ⟨a, rfl⟩))
    · have := condKind_vars (accepts_both ho.2).2 n hn
      rw [kind_declareIn e] at this
      exact .inl this
  | text m h ps =>
    simp only [cmdObeys, Bool.and_eq_true] at ho
    by_cases e : n = m
    · subst e; exact .inr (.inr (.inr (.inr (.inr (.inr ⟨h, ps, rfl⟩)))))
    · have := toldKind_vars (accepts_both ho.2).2 n hn
      rw [kind_declareIn e] at this
      exact .inl this
  | write m h ps =>
    have ho := accepts_both ho
    rcases List.mem_cons.1 hn with rfl | hn
    · exact .inl ho.1
    · exact .inl (toldKind_vars ho.2 n hn)
  | set d => exact .inl (changeObeys_uses ho hn)
  | say t ps =>
    exact .inl (toldKind_vars ho n hn)
  | fresh k m => cases hn
  | check c => exact .inl (condKind_vars ho n hn)
  | mark m a =>
    have ho := accepts_both ho
    rcases List.mem_cons.1 hn with rfl | hn
    · exact .inl ho.1
    · exact .inl (condKind_vars ho.2 n hn)
  | call u f as =>
    cases u with
    | set m =>
      simp only [cmdObeys, callObeys, Bool.and_eq_true, List.all_eq_true, decide_eq_true_eq] at ho
      rcases List.mem_cons.1 hn with rfl | hn
      · exact .inl ho.1
      · obtain ⟨a, ha, hn⟩ := List.mem_flatMap.1 hn
        exact .inl (numKind_vars (by rw [ho.2.2 a ha]; rfl) n hn)
    | new m =>
      simp only [cmdObeys, callObeys, Bool.and_eq_true, List.all_eq_true, decide_eq_true_eq] at ho
      obtain ⟨a, ha, hn⟩ := List.mem_flatMap.1 hn
      by_cases e : n = m
      · subst e; exact .inr (.inr (.inr (.inr (.inl ⟨f, as, rfl⟩))))
      · have := numKind_vars (by rw [ho.2.2 a ha]; rfl) n hn
        rw [kind_declareIn e] at this
        exact .inl this
    | _ =>
      simp only [cmdObeys, callObeys, Bool.and_eq_true, List.all_eq_true, decide_eq_true_eq] at ho
      obtain ⟨a, ha, hn⟩ := List.mem_flatMap.1 hn
      exact .inl (numKind_vars (by rw [ho.2 a ha]; rfl) n hn)
  | act f as =>
    simp only [cmdObeys, Bool.and_eq_true, List.all_eq_true, decide_eq_true_eq] at ho
    obtain ⟨a, ha, hn⟩ := List.mem_flatMap.1 hn
    exact .inl (numKind_vars (by rw [ho.2 a ha]; rfl) n hn)
  | count v a x d b =>
    simp only [cmdObeys, Bool.and_eq_true] at ho
    have : (kind ([(v, .int)] :: Γ) n).isSome = true := by
      rcases List.mem_append.1 hn with hn | hn
      · rcases List.mem_append.1 hn with hn | hn
        · exact numKind_vars (accepts_both ho.1.1.1).2 n hn
        · exact condKind_vars ho.1.1.2 n hn
      · exact changeObeys_uses ho.1.2 hn
    rcases kind_counter this with h | rfl
    · exact .inl h
    · exact .inr (.inr (.inr (.inl ⟨a, x, d, b, rfl⟩)))
  | rounds => cases hn
  | leave => cases hn
  | print a => exact .inl (numKind_vars (by simpa only [cmdObeys] using ho) n hn)
  | «when» x t =>
    simp only [cmdObeys, Bool.and_eq_true] at ho
    exact .inl (condKind_vars ho.1 n hn)
  | choose x t e =>
    simp only [cmdObeys, Bool.and_eq_true] at ho
    exact .inl (condKind_vars ho.1.1 n hn)
  | chain x t e =>
    simp only [cmdObeys, Bool.and_eq_true] at ho
    exact .inl (condKind_vars ho.1.1 n hn)
  | pick a as =>
    simp only [cmdObeys, Bool.and_eq_true] at ho
    rcases List.mem_append.1 hn with hn | hn
    · exact .inl (numKind_vars ho.1 n hn)
    · obtain ⟨⟨m, t⟩, hm, hn⟩ := List.mem_flatMap.1 hn
      cases m with
      | none => cases hn
      | some b => exact .inl (numKind_vars ((armsObey_mem hm ho.2).2.2 b rfl) n hn)
  | loop x b =>
    simp only [cmdObeys, Bool.and_eq_true] at ho
    exact .inl (condKind_vars ho.1 n hn)
  | block b => cases hn
  | brk => cases hn
  | cont => cases hn
  | ret a =>
    simp only [cmdObeys, Bool.and_eq_true, decide_eq_true_eq] at ho
    exact .inl (numKind_vars (by rw [ho.2]; rfl) n hn)

theorem kind_behind {Γ : Ctx} {c : Cmd} {n : Text} (h : (kind (behind Γ c) n).isSome = true) : (kind Γ n).isSome = true ∨ Declares n c := by
  cases c with
  | int m a =>
    by_cases e : n = m
    · subst e; exact .inr (.inl ⟨a, rfl⟩)
    · rw [behind, kind_declareIn e] at h; exact .inl h
  | bool m a =>
    by_cases e : n = m
    · subst e; exact .inr (.inr (.inl ⟨a, rfl⟩))
    · rw [behind, kind_declareIn e] at h; exact .inl h
  | fresh k m =>
    by_cases e : n = m
    · subst e; exact .inr (.inr (.inr (.inr (.inr (.inl ⟨k, rfl⟩)))))
    · rw [behind, kind_declareIn e] at h; exact .inl h
  | text m t ps =>
    by_cases e : n = m
    · subst e; exact .inr (.inr (.inr (.inr (.inr (.inr ⟨t, ps, rfl⟩)))))
    · rw [behind, kind_declareIn e] at h; exact .inl h
  | call u f as =>
    cases u with
    | new m =>
      by_cases e : n = m
      · subst e; exact .inr (.inr (.inr (.inr (.inl ⟨f, as, rfl⟩))))
      · rw [behind, kind_declareIn e] at h; exact .inl h
    | _ => exact .inl h
  | _ => exact .inl h

theorem kind_inner {Γ : Ctx} {n : Text} : kind ([] :: Γ) n = kind Γ n := by
  simp only [kind, List.findSome?_cons, List.lookup_nil]

/-- Among lawful commands, what is used is known before or declared by one of them. -/
theorem obeys_uses {p : Program} {r : Bool} {n : Text} {c : Cmd} {cs : List Cmd} {q : Bool} (h : Among c q cs) (hn : n ∈ uses c)
    {l : Bool} {Γ : Ctx} (ho : obeys p r l Γ cs = true) : (kind Γ n).isSome = true ∨ ∃ d, Among d false cs ∧ Declares n d := by
  induction h generalizing l Γ with
  | here =>
    simp only [obeys, Bool.and_eq_true] at ho
    rcases cmdObeys_uses ho.1 hn with h | h
    · exact .inl h
    · exact .inr ⟨_, .here, h⟩
  | later _ ih =>
    simp only [obeys, Bool.and_eq_true] at ho
    rcases ih ho.2 with h | ⟨d, hd, h⟩
    · rcases kind_behind h with h | h
      · exact .inl h
      · exact .inr ⟨_, .here, h⟩
    · exact .inr ⟨d, .later hd, h⟩
  | «when» _ ih =>
    simp only [obeys, cmdObeys, Bool.and_eq_true] at ho
    rcases ih ho.1.2 with h | ⟨d, hd, h⟩
    · exact .inl (kind_inner ▸ h)
    · exact .inr ⟨d, .when hd, h⟩
  | chooseThen _ ih =>
    simp only [obeys, cmdObeys, Bool.and_eq_true] at ho
    rcases ih ho.1.1.2 with h | ⟨d, hd, h⟩
    · exact .inl (kind_inner ▸ h)
    · exact .inr ⟨d, .chooseThen hd, h⟩
  | chooseElse _ ih =>
    simp only [obeys, cmdObeys, Bool.and_eq_true] at ho
    rcases ih ho.1.2 with h | ⟨d, hd, h⟩
    · exact .inl (kind_inner ▸ h)
    · exact .inr ⟨d, .chooseElse hd, h⟩
  | chainThen _ ih =>
    simp only [obeys, cmdObeys, Bool.and_eq_true] at ho
    rcases ih ho.1.1.2 with h | ⟨d, hd, h⟩
    · exact .inl (kind_inner ▸ h)
    · exact .inr ⟨d, .chainThen hd, h⟩
  | chainElse _ ih =>
    simp only [obeys, cmdObeys, Bool.and_eq_true] at ho
    rcases ih (Γ := Γ) (l := l) (by rw [obeys, ho.1.2]; rfl) with h | ⟨d, hd, h⟩
    · exact .inl h
    · exact .inr ⟨d, .chainElse hd, h⟩
  | block _ ih =>
    simp only [obeys, cmdObeys, Bool.and_eq_true] at ho
    rcases ih ho.1 with h | ⟨d, hd, h⟩
    · exact .inl (kind_inner ▸ h)
    · exact .inr ⟨d, .block hd, h⟩
  | loop _ ih =>
    simp only [obeys, cmdObeys, Bool.and_eq_true] at ho
    rcases ih ho.1.2 with h | ⟨d, hd, h⟩
    · exact .inl (kind_inner ▸ h)
    · exact .inr ⟨d, .loop hd, h⟩
  | @count m' a x d' b cs _ ih =>
    simp only [obeys, cmdObeys, Bool.and_eq_true] at ho
    rcases ih ho.1.2 with h | ⟨d, hd, h⟩
    · rcases kind_counter (kind_inner ▸ h) with h | rfl
      · exact .inl h
      · exact .inr ⟨_, .here, .inr (.inr (.inl ⟨a, x, d', b, rfl⟩))⟩
    · exact .inr ⟨d, .count hd, h⟩
  | pick hm _ ih =>
    simp only [obeys, cmdObeys, Bool.and_eq_true] at ho
    rcases ih (armsObey_mem hm ho.1.2).1 with h | ⟨d, hd, h⟩
    · exact .inl (kind_inner ▸ h)
    · exact .inr ⟨d, .pick hm hd, h⟩

/-- C140: a variable that is used anywhere in a function, and is neither a parameter nor declared in it, is found before the script
runs. -/
theorem undeclared_rejected_partial {p : Program} {ms : List Mark} {text : Text} (hp : Clean p) (hw : WritesProgram p ms)
    (hl : Laid ms text) {f : Fun} (hf : f ∈ p) {c : Cmd} {n : Text} {q : Bool} (hc : Among c q f.body) (hn : n ∈ uses c)
    (h1 : n ∉ f.params) (h2 : ∀ d, Among d false f.body → ¬ Declares n d) (k : Nat) : runScript k text = .rejected := by
  refine (script_rejected_partial hp hw hl k).2 fun h => ?_
  rcases obeys_uses hc hn (h.bodies f hf) with h | ⟨d, hd, h⟩
  · have : List.lookup n (f.params.map (·, Kind.int)) = none := List.lookup_eq_none_iff.2 fun x hx => by
      obtain ⟨m, hm, rfl⟩ := List.mem_map.1 hx
      exact bne_iff_ne.2 fun e : n = m => h1 (e ▸ hm)
    simp only [kind, List.findSome?_cons, List.findSome?_nil, List.lookup_nil, this] at h
    cases h
  · exact h2 d hd h

end Verif.Whole
