import Verif.Debug.Model
import Verif.Expr.Props

/-!
# What the debugger guarantees
-/

namespace Verif
namespace Debug

/-- Two breakpoints at the same place. -/
def Same (a b : BreakPoint) : Prop := a.file = b.file ∧ a.line = b.line

theorem less_irrefl (a : BreakPoint) : a.less a = false := by simp [BreakPoint.less]

theorem less_trans {a b c : BreakPoint} (h : a.less b = true) (h' : b.less c = true) : a.less c = true := by
  unfold BreakPoint.less at *
  by_cases hab : a.file = b.file
  · rw [if_pos hab] at h
    by_cases hbc : b.file = c.file
    · rw [if_pos hbc] at h'
      rw [if_pos (hab.trans hbc)]
      simp only [decide_eq_true_eq] at *
      omega
    · rw [if_neg hbc] at h'
      rw [if_neg (by rw [hab]; exact hbc), hab]
      exact h'
  · rw [if_neg hab] at h
    by_cases hbc : b.file = c.file
    · rw [if_neg (by rw [← hbc]; exact hab), ← hbc]
      exact h
    · rw [if_neg hbc] at h'
      simp only [decide_eq_true_eq] at h h'
      have := String.lt_trans h h'
      rw [if_neg (by intro he; rw [he] at this; exact String.lt_irrefl _ this)]
      simpa using this

theorem less_same {a b : BreakPoint} (h : Same a b) : a.less b = false := by simp [BreakPoint.less, h.1, h.2]

theorem same_of_not_less {a b : BreakPoint} (h : a.less b = false) (h' : b.less a = false) : Same a b := by
  unfold BreakPoint.less at *
  by_cases hab : a.file = b.file
  · rw [if_pos hab] at h
    rw [if_pos hab.symm] at h'
    simp only [decide_eq_false_iff_not] at h h'
    exact ⟨hab, by omega⟩
  · rw [if_neg hab] at h
    rw [if_neg (Ne.symm hab)] at h'
    simp only [decide_eq_false_iff_not] at h h'
    rcases Std.lt_trichotomy a.file b.file with hlt | heq | hgt
    · exact absurd hlt h
    · exact absurd heq hab
    · exact absurd hgt h'

/-- The elements of the set are in strictly ascending order. -/
def Sorted (l : List BreakPoint) : Prop := l.Pairwise fun a b => a.less b = true

theorem same_less {a b c : BreakPoint} (h : Same a b) : a.less c = b.less c := by simp [BreakPoint.less, h.1, h.2]

theorem less_same_right {a b c : BreakPoint} (h : Same a b) : c.less a = c.less b := by simp [BreakPoint.less, h.1, h.2]

theorem find_iff {b : BreakPoint} : ∀ {l : List BreakPoint}, Sorted l → ∀ {x : BreakPoint}, find b l = some x ↔ x ∈ l ∧ Same x b
  | [], _, x => by simp [find]
  | y :: l, h, x => by
    obtain ⟨h1, h2⟩ := List.pairwise_cons.1 h
    rw [find]
    by_cases hy : y.less b = true
    · rw [if_pos hy, find_iff h2]
      constructor
      · rintro ⟨h3, h4⟩; exact ⟨List.mem_cons_of_mem _ h3, h4⟩
      · rintro ⟨h3, h4⟩
        rcases List.mem_cons.1 h3 with rfl | h3
        · rw [less_same h4] at hy; cases hy
        · exact ⟨h3, h4⟩
    · rw [if_neg hy]
      by_cases hb : b.less y = true
      · rw [if_pos hb]
        constructor
        · nofun
        · rintro ⟨h3, h4⟩
          exfalso
          rcases List.mem_cons.1 h3 with rfl | h3
          · rw [← same_less h4, less_irrefl] at hb; cases hb
          · have := less_trans hb (h1 x h3)
            rw [← same_less h4, less_irrefl] at this
            cases this
      · rw [if_neg hb]
        have hs := same_of_not_less (Bool.eq_false_iff.2 hy) (Bool.eq_false_iff.2 hb)
        constructor
        · intro h; cases h; exact ⟨List.mem_cons_self, hs⟩
        · rintro ⟨h3, h4⟩
          rcases List.mem_cons.1 h3 with rfl | h3
          · rfl
          · have := h1 x h3
            rw [same_less hs, less_same_right h4, less_irrefl] at this
            cases this

theorem find_none {b : BreakPoint} {l : List BreakPoint} (h : Sorted l) : find b l = none ↔ ∀ x ∈ l, ¬ Same x b := by
  cases hf : find b l with
  | none =>
    refine ⟨fun _ x hx hs => ?_, fun _ => rfl⟩
    rw [(find_iff h).2 ⟨hx, hs⟩] at hf
    cases hf
  | some y =>
    obtain ⟨h1, h2⟩ := (find_iff h).1 hf
    exact ⟨nofun, fun h => absurd h2 (h y h1)⟩

theorem insert_mem {b : BreakPoint} : ∀ {l : List BreakPoint}, (∀ x ∈ l, ¬ Same x b) → ∀ {x : BreakPoint}, x ∈ insert b l ↔ x = b ∨ x ∈ l
  | [], _, x => by simp [insert]
  | y :: l, h, x => by
    rw [insert]
    split
    · rw [List.mem_cons, insert_mem (fun z hz => h z (List.mem_cons_of_mem _ hz)), List.mem_cons]
      constructor
      · rintro (h | h | h)
        · exact .inr (.inl h)
        · exact .inl h
        · exact .inr (.inr h)
      · rintro (h | h | h)
        · exact .inr (.inl h)
        · exact .inl h
        · exact .inr (.inr h)
    · rename_i hy
      split
      · simp
      · rename_i hb
        exact absurd (same_of_not_less (Bool.eq_false_iff.2 hy) (Bool.eq_false_iff.2 hb)) (h y (by simp))

theorem insert_sorted {b : BreakPoint} : ∀ {l : List BreakPoint}, Sorted l → (∀ x ∈ l, ¬ Same x b) → Sorted (insert b l)
  | [], _, _ => List.pairwise_singleton _ _
  | y :: l, h, hn => by
    obtain ⟨h1, h2⟩ := List.pairwise_cons.1 h
    have hn' := fun z hz => hn z (List.mem_cons_of_mem _ hz)
    rw [insert]
    split
    · rename_i hy
      refine List.pairwise_cons.2 ⟨fun x hx => ?_, insert_sorted h2 hn'⟩
      rcases (insert_mem hn').1 hx with rfl | hx
      · exact hy
      · exact h1 x hx
    · split
      · rename_i hb
        refine List.pairwise_cons.2 ⟨fun x hx => ?_, h⟩
        rcases List.mem_cons.1 hx with rfl | hx
        · exact hb
        · exact less_trans hb (h1 x hx)
      · exact h

theorem erase_sub {b : BreakPoint} : ∀ (l : List BreakPoint), (erase b l).Sublist l
  | [] => List.Sublist.refl _
  | y :: l => by
    rw [erase]
    split
    · exact (erase_sub l).cons_cons y
    · split
      · exact List.Sublist.refl _
      · exact List.sublist_cons_self y l

theorem erase_mem {b : BreakPoint} : ∀ {l : List BreakPoint}, Sorted l → ∀ {x : BreakPoint}, x ∈ erase b l ↔ x ∈ l ∧ ¬ Same x b
  | [], _, x => by simp [erase]
  | y :: l, h, x => by
    obtain ⟨h1, h2⟩ := List.pairwise_cons.1 h
    rw [erase]
    split
    · rename_i hy
      rw [List.mem_cons, erase_mem h2, List.mem_cons]
      constructor
      · rintro (rfl | ⟨h3, h4⟩)
        · exact ⟨.inl rfl, fun hs => by rw [less_same hs] at hy; cases hy⟩
        · exact ⟨.inr h3, h4⟩
      · rintro ⟨rfl | h3, h4⟩
        · exact .inl rfl
        · exact .inr ⟨h3, h4⟩
    · rename_i hy
      split
      · rename_i hb
        refine ⟨fun hx => ⟨hx, fun hs => ?_⟩, fun hx => hx.1⟩
        rcases List.mem_cons.1 hx with rfl | hx
        · rw [← same_less hs, less_irrefl] at hb; cases hb
        · have := less_trans hb (h1 x hx)
          rw [← same_less hs, less_irrefl] at this
          cases this
      · rename_i hb
        have hs := same_of_not_less (Bool.eq_false_iff.2 hy) (Bool.eq_false_iff.2 hb)
        constructor
        · intro hx
          refine ⟨List.mem_cons_of_mem _ hx, fun hs' => ?_⟩
          have := h1 x hx
          rw [same_less hs, less_same_right hs', less_irrefl] at this
          cases this
        · rintro ⟨hx, hne⟩
          rcases List.mem_cons.1 hx with rfl | hx
          · exact absurd hs hne
          · exact hx

/-! ## C59: breakpoints -/

/-- What a user expects: for each place whether a breakpoint is set there, and its condition. -/
abbrev Places := String → Nat → Option (Option Condition)

def Places.exec (M : Places) : Cmd → Places
  | .add b => fun f l => if b.file = f ∧ b.line = l then some b.condition else M f l
  | .remove b => fun f l => if b.file = f ∧ b.line = l then none else M f l
  | .clear => fun _ _ => none
  | _ => M

def Places.empty : Places := fun _ _ => none

/-- The breakpoints of the debugger are those of the places. -/
def Agrees (d : Debugger) (M : Places) : Prop := Sorted d.points ∧ ∀ b, b ∈ d.points ↔ M b.file b.line = some b.condition

theorem add_agrees {d : Debugger} {M : Places} (h : Agrees d M) (b : BreakPoint) : Agrees (d.addBreakPoint b) (M.exec (.add b)) := by
  obtain ⟨hs, hm⟩ := h
  have key : ∀ l, Sorted l → (∀ x, x ∈ l ↔ x ∈ d.points ∧ ¬ Same x b) → Agrees { d with points := insert b l } (M.exec (.add b)) := by
    intro l hl hx
    have hn : ∀ x ∈ l, ¬ Same x b := fun x hxl => ((hx x).1 hxl).2
    refine ⟨insert_sorted hl hn, fun x => ?_⟩
    show x ∈ insert b l ↔ (if b.file = x.file ∧ b.line = x.line then some b.condition else M x.file x.line) = some x.condition
    rw [insert_mem hn, hx, hm]
    by_cases hsame : b.file = x.file ∧ b.line = x.line
    · rw [if_pos hsame]
      constructor
      · rintro (rfl | h)
        · rfl
        · exact absurd ⟨hsame.1.symm, hsame.2.symm⟩ h.2
      · intro h
        left
        obtain ⟨xf, xl, xc⟩ := x
        obtain ⟨bf, bl, bc⟩ := b
        simp only at hsame h
        cases h
        rw [hsame.1, hsame.2]
    · rw [if_neg hsame]
      constructor
      · rintro (rfl | h)
        · exact absurd ⟨rfl, rfl⟩ hsame
        · exact h.1
      · intro h
        exact .inr ⟨h, fun h' => hsame ⟨h'.1.symm, h'.2.symm⟩⟩
  unfold Debugger.addBreakPoint
  split
  · exact key _ (List.Pairwise.sublist (erase_sub _) hs) fun x => erase_mem hs
  · rename_i hf
    exact key _ hs fun x => ⟨fun h => ⟨h, (find_none hs).1 hf x h⟩, fun h => h.1⟩

theorem remove_agrees {d d' : Debugger} {M : Places} (h : Agrees d M) {b : BreakPoint} (he : d.removeBreakPoint b = some d') :
    Agrees d' (M.exec (.remove b)) := by
  obtain ⟨hs, hm⟩ := h
  unfold Debugger.removeBreakPoint at he
  split at he
  · cases he
    refine ⟨List.Pairwise.sublist (erase_sub _) hs, fun x => ?_⟩
    show x ∈ erase b d.points ↔ (if b.file = x.file ∧ b.line = x.line then none else M x.file x.line) = some x.condition
    rw [erase_mem hs, hm]
    by_cases hsame : b.file = x.file ∧ b.line = x.line
    · rw [if_pos hsame]
      exact ⟨fun h => absurd ⟨hsame.1.symm, hsame.2.symm⟩ h.2, nofun⟩
    · rw [if_neg hsame]
      exact ⟨fun h => h.1, fun h => ⟨h, fun h' => hsame ⟨h'.1.symm, h'.2.symm⟩⟩⟩
  · cases he

theorem exec_agrees {d d' : Debugger} {M : Places} (h : Agrees d M) {c : Cmd} (he : d.exec c = some d') : Agrees d' (M.exec c) := by
  cases c with
  | add b => cases he; exact add_agrees h b
  | remove b => exact remove_agrees h he
  | clear => cases he; exact ⟨List.Pairwise.nil, fun b => by simp [Places.exec]⟩
  | go a => cases he; exact h
  | register => cases he; exact h
  | unregister => cases he; exact h

theorem run_agrees {cs : List Cmd} : ∀ {d d' : Debugger} {M : Places}, Agrees d M → d.run cs = some d' → Agrees d' (cs.foldl Places.exec M) := by
  induction cs with
  | nil => intro d d' M h hr; cases hr; exact h
  | cons c cs ih =>
    intro d d' M h hr
    rw [Debugger.run] at hr
    split at hr
    · rename_i d₁ h₁; exact ih (exec_agrees h h₁) hr
    · cases hr

theorem empty_agrees : Agrees {} Places.empty := ⟨List.Pairwise.nil, fun b => by simp [Places.empty]⟩

/-- **C59** (partial).  After any sequence of commands that ends, the debugger holds exactly the breakpoints that the
commands leave at each place, each with the condition given last.
Missing: removing a breakpoint that is not set is undefined (`remove_absent_refuted`). -/
theorem breakpoints_partial {cs : List Cmd} {d : Debugger} (h : Debugger.run {} cs = some d) (b : BreakPoint) :
    b ∈ d.points ↔ (cs.foldl Places.exec Places.empty) b.file b.line = some b.condition :=
  (run_agrees empty_agrees h).2 b

/-- **C59** (partial).  In run mode the receiver is told about a place exactly if a breakpoint is set there, with its
condition; when stepping over it is told about every place; otherwise about none. -/
theorem stops_at_partial {cs : List Cmd} {d : Debugger} (h : Debugger.run {} cs = some d) (f : String) (l : Nat) :
    d.notify f l = if d.receiver = false then none else
      match d.action with
      | .stepOver => some ⟨f, l, none⟩
      | .waitForBreakPoint => ((cs.foldl Places.exec Places.empty) f l).map fun c => ⟨f, l, c⟩
      | _ => none := by
  obtain ⟨hs, hm⟩ := run_agrees empty_agrees h
  unfold Debugger.notify
  cases hr : d.receiver with
  | false => simp
  | true =>
    cases ha : d.action with
    | waitForBreakPoint =>
      simp only [Bool.not_true, Bool.false_or, decide_eq_true_eq, reduceCtorEq, if_false]
      cases hM : (cs.foldl Places.exec Places.empty) f l with
      | none =>
        rw [Option.map_none, find_none hs]
        rintro x hx ⟨rfl, rfl⟩
        rw [hm, hM] at hx
        cases hx
      | some c =>
        rw [Option.map_some, find_iff hs, hm]
        exact ⟨hM, rfl, rfl⟩
    | none => simp
    | stepInto => simp
    | stepOut => simp
    | stepOver => simp

/-- The step that was asked for last, if it was `a` before the command. -/
def stepAfter (a : Action) : Cmd → Action
  | .go b => b
  | _ => a

/-- Whether a receiver is registered after the command. -/
def listeningAfter (a : Bool) : Cmd → Bool
  | .register => true
  | .unregister => false
  | _ => a

/-- The step that was asked for last. -/
def lastStep (cs : List Cmd) : Action := cs.foldl stepAfter .waitForBreakPoint

/-- Whether a receiver is registered. -/
def listening (cs : List Cmd) : Bool := cs.foldl listeningAfter false

theorem run_mode {cs : List Cmd} : ∀ {d d' : Debugger}, d.run cs = some d' →
    d'.action = cs.foldl stepAfter d.action ∧ d'.receiver = cs.foldl listeningAfter d.receiver := by
  induction cs with
  | nil => intro d d' h; cases h; exact ⟨rfl, rfl⟩
  | cons c cs ih =>
    intro d d' h
    rw [Debugger.run] at h
    split at h
    · rename_i d₁ h₁
      rw [(ih h).1, (ih h).2, List.foldl_cons, List.foldl_cons]
      have : d₁.action = stepAfter d.action c ∧ d₁.receiver = listeningAfter d.receiver c := by
        cases c with
        | add b =>
          cases h₁
          unfold Debugger.addBreakPoint
          split <;> exact ⟨rfl, rfl⟩
        | remove b =>
          rw [Debugger.exec, Debugger.removeBreakPoint] at h₁
          split at h₁ <;> cases h₁
          exact ⟨rfl, rfl⟩
        | clear => cases h₁; exact ⟨rfl, rfl⟩
        | go a => cases h₁; exact ⟨rfl, rfl⟩
        | register => cases h₁; exact ⟨rfl, rfl⟩
        | unregister => cases h₁; exact ⟨rfl, rfl⟩
      rw [this.1, this.2]
      exact ⟨rfl, rfl⟩
    · cases h

/-- **C59** (partial).  The receiver is told that a method is entered exactly if it is registered and the last step
asked for is a step into, and that a method is left exactly if that step is a step out. -/
theorem steps_partial {cs : List Cmd} {d : Debugger} (h : Debugger.run {} cs = some d) :
    (d.notifyEnter = true ↔ listening cs = true ∧ lastStep cs = .stepInto) ∧
    (d.notifyExit = true ↔ listening cs = true ∧ lastStep cs = .stepOut) ∧
    d.receiver = listening cs ∧ d.action = lastStep cs := by
  obtain ⟨ha, hr⟩ := run_mode h
  have ha : d.action = lastStep cs := ha
  have hr : d.receiver = listening cs := hr
  simp [Debugger.notifyEnter, Debugger.notifyExit, ha, hr]

example : ∃ d, Debugger.run {} [.register, .go .stepInto, .add ⟨"a", 3, none⟩] = some d ∧ d.notifyEnter = true := ⟨_, rfl, rfl⟩

/-- **C59**.  Removing a breakpoint that is not set is undefined, after any sequence of commands; nothing else is. -/
theorem remove_absent_refuted {cs : List Cmd} {d : Debugger} (h : Debugger.run {} cs = some d) (c : Cmd) :
    d.exec c = none ↔ ∃ b, c = .remove b ∧ (cs.foldl Places.exec Places.empty) b.file b.line = none := by
  obtain ⟨hs, hm⟩ := run_agrees empty_agrees h
  cases c with
  | remove b =>
    have : (cs.foldl Places.exec Places.empty) b.file b.line = none ↔ find b d.points = none := by
      rw [find_none hs]
      constructor
      · rintro hn x hx ⟨h1, h2⟩
        rw [hm, h1, h2, hn] at hx
        cases hx
      · intro hn
        cases hM : (cs.foldl Places.exec Places.empty) b.file b.line with
        | none => rfl
        | some c => exact absurd ⟨rfl, rfl⟩ (hn ⟨b.file, b.line, c⟩ ((hm _).2 hM))
    simp only [Debugger.exec, Debugger.removeBreakPoint, Cmd.remove.injEq]
    constructor
    · intro h
      refine ⟨b, rfl, this.2 ?_⟩
      split at h
      · cases h
      · assumption
    · rintro ⟨b', rfl, h⟩
      rw [this.1 h]
  | add b => exact ⟨nofun, fun ⟨_, h, _⟩ => nomatch h⟩
  | clear => exact ⟨nofun, fun ⟨_, h, _⟩ => nomatch h⟩
  | go a => exact ⟨nofun, fun ⟨_, h, _⟩ => nomatch h⟩
  | register => exact ⟨nofun, fun ⟨_, h, _⟩ => nomatch h⟩
  | unregister => exact ⟨nofun, fun ⟨_, h, _⟩ => nomatch h⟩

/-- **C59**.  The command `delete` of the debugger with the number of a breakpoint in the list removes that
breakpoint and keeps the others; any other number changes nothing.  It is never undefined. -/
theorem delete_number {cs : List Cmd} {d : Debugger} (h : Debugger.run {} cs = some d) (idx : Int) :
    ∃ d', d.deleteNumber idx = some d' ∧ ∀ x, x ∈ d'.points ↔ x ∈ d.points ∧ ¬ (1 ≤ idx ∧ d.points[(idx - 1).toNat]? = some x) := by
  obtain ⟨hs, -⟩ := run_agrees empty_agrees h
  unfold Debugger.deleteNumber
  by_cases hi : 1 ≤ idx
  · rw [if_pos hi]
    cases hg : d.points[(idx - 1).toNat]? with
    | none => exact ⟨d, rfl, fun x => by simp⟩
    | some b =>
      have hb : b ∈ d.points := List.mem_of_getElem? hg
      have hf : find b d.points = some b := (find_iff hs).2 ⟨hb, rfl, rfl⟩
      refine ⟨{ d with points := erase b d.points }, by simp [Debugger.removeBreakPoint, hf], fun x => ?_⟩
      show x ∈ erase b d.points ↔ _
      rw [erase_mem hs]
      constructor
      · rintro ⟨h1, h2⟩
        refine ⟨h1, fun ⟨_, h3⟩ => h2 ?_⟩
        cases h3
        exact ⟨rfl, rfl⟩
      · rintro ⟨h1, h2⟩
        refine ⟨h1, fun h3 => h2 ⟨hi, ?_⟩⟩
        have := (find_iff hs).2 ⟨h1, h3⟩
        rw [hf] at this
        exact this
  · rw [if_neg hi]
    exact ⟨d, rfl, fun x => by simp [hi]⟩

/-- A sequence of commands: a condition is replaced, another breakpoint is removed. -/
example : Debugger.run {} [.register, .add ⟨"a.os", 3, none⟩, .add ⟨"b.os", 1, none⟩, .add ⟨"a.os", 3, some ⟨['x'], .equals, ['1']⟩⟩,
    .remove ⟨"b.os", 1, none⟩] = some { points := [⟨"a.os", 3, some ⟨['x'], .equals, ['1']⟩⟩], receiver := true } := by
  decide +kernel

/-! ## C90: stored configurations -/

/-- A breakpoint whose parts survive being split at blanks: names without blanks, a line of 32 bits, and a file name
that is already complete. -/
structure Storable (fullname : Str.Text → String) (b : BreakPoint) : Prop where
  fileNe : b.file.toList ≠ []
  file : ' ' ∉ b.file.toList
  full : fullname b.file.toList = b.file
  line : b.line < 2 ^ 32
  cond : ∀ c, b.condition = some c → c.lhs ≠ [] ∧ ' ' ∉ c.lhs ∧ c.rhs ≠ [] ∧ ' ' ∉ c.rhs

theorem splitBlanks_word : ∀ {w : Str.Text} (t : Str.Text), ' ' ∉ w → t ++ w ≠ [] → splitBlanks t w = [t ++ w]
  | [], t, _, hne => by
    rw [splitBlanks]
    rw [List.append_nil] at hne ⊢
    rw [if_neg (by simpa using hne)]
  | c :: w, t, hb, hne => by
    rw [splitBlanks, if_neg (fun h => hb (by simp [h])), splitBlanks_word (t ++ [c]) (fun h => hb (List.mem_cons_of_mem _ h)) (by simp)]
    simp

theorem splitBlanks_cons : ∀ {w : Str.Text} (t rest : Str.Text), ' ' ∉ w → t ++ w ≠ [] →
    splitBlanks t (w ++ ' ' :: rest) = (t ++ w) :: splitBlanks [] rest
  | [], t, rest, _, hne => by
    rw [List.append_nil] at hne ⊢
    rw [List.nil_append, splitBlanks, if_pos rfl, if_neg (by simpa using hne)]
  | c :: w, t, rest, hb, hne => by
    rw [List.cons_append, splitBlanks, if_neg (fun h => hb (by simp [h])),
      splitBlanks_cons (t ++ [c]) rest (fun h => hb (List.mem_cons_of_mem _ h)) (by simp)]
    simp

theorem opOf_text (o : Op) : opOf o.text = some o := by cases o <;> rfl

theorem op_text_ok (o : Op) : o.text ≠ [] ∧ ' ' ∉ o.text := by cases o <;> decide

theorem line_text {n : Nat} (h : n < 2 ^ 32) : ((Str.stringToInt (Str.natDigits n)) % 2 ^ 32).toNat = n := by
  rw [Expr.stringToInt_digits (Str.natDigits_isDigit n) (Str.natDigits_ne_nil n), Str.digitsVal_natDigits]
  have : Str.clamp64 n = n := by unfold Str.clamp64; omega
  rw [this]
  omega

theorem digits_no_blank (n : Nat) : ' ' ∉ Str.natDigits n := fun h => by
  have := Str.natDigits_isDigit n _ h
  revert this
  decide

/-- The text of a breakpoint is read back. -/
theorem config_text {fullname : Str.Text → String} {b : BreakPoint} (h : Storable fullname b) :
    commandBreakPoint fullname (parseCommands ("breakpoint ".toList ++ b.toConfigString)) = some b := by
  obtain ⟨f, l, c⟩ := b
  obtain ⟨h1, h2, h3, h4, h5⟩ := h
  have hcmd : "breakpoint ".toList = "breakpoint".toList ++ [' '] := by decide
  have hcmd' : ' ' ∉ "breakpoint".toList := by decide
  unfold parseCommands BreakPoint.toConfigString
  rw [hcmd]
  simp only [List.append_assoc, List.cons_append, List.nil_append] at *
  rw [splitBlanks_cons [] _ hcmd' (by decide), splitBlanks_cons [] _ h2 (by simpa using h1)]
  cases c with
  | none =>
    simp only [List.append_nil]
    rw [splitBlanks_word [] (digits_no_blank l) (by simp [Str.natDigits_ne_nil])]
    simp only [commandBreakPoint, List.nil_append]
    rw [h3, line_text h4]
  | some c =>
    obtain ⟨a1, a2, a3, a4⟩ := h5 c rfl
    rw [splitBlanks_cons [] _ (digits_no_blank l) (by simp [Str.natDigits_ne_nil]), splitBlanks_cons [] _ a2 (by simpa using a1),
      splitBlanks_cons [] _ (op_text_ok c.op).2 (by simpa using (op_text_ok c.op).1), splitBlanks_word [] a4 (by simpa using a3)]
    simp only [commandBreakPoint, List.nil_append, opOf_text]
    rw [h3, line_text h4]
    rfl

theorem insert_last {b : BreakPoint} : ∀ {l : List BreakPoint}, (∀ x ∈ l, x.less b = true) → insert b l = l ++ [b]
  | [], _ => rfl
  | y :: l, h => by
    rw [insert, if_pos (h y (by simp)), insert_last fun x hx => h x (List.mem_cons_of_mem _ hx)]
    rfl

theorem load_points {fullname : Str.Text → String} : ∀ (bs done : List BreakPoint) (d : Debugger), d.points = done → Sorted (done ++ bs) →
    (∀ b ∈ bs, Storable fullname b) →
    (bs.map BreakPoint.toConfigString).foldl (Debugger.loadOne fullname) d = { d with points := done ++ bs } := by
  intro bs
  induction bs with
  | nil =>
    rintro done d rfl _ _
    simp
  | cons b bs ih =>
    intro done d hd hs hst
    rw [List.map_cons, List.foldl_cons, Debugger.loadOne, config_text (hst b (by simp))]
    dsimp only
    obtain ⟨hs1, hs2, hs3⟩ := List.pairwise_append.1 hs
    have hl : ∀ x ∈ done, x.less b = true := fun x hx => hs3 x hx b (by simp)
    have hf : find b d.points = none := by
      rw [hd, find_none hs1]
      intro x hx hsame
      have := hl x hx
      rw [less_same hsame] at this
      cases this
    have hadd : d.addBreakPoint b = { d with points := done ++ [b] } := by
      unfold Debugger.addBreakPoint
      rw [hf]
      dsimp only
      rw [hd, insert_last hl]
    rw [hadd, ih (done ++ [b]) _ rfl (by simpa using hs) fun x hx => hst x (List.mem_cons_of_mem _ hx)]
    simp

/-- **C90** (partial).  Storing the breakpoints and loading them again gives the same breakpoints with the same
conditions, if file names and conditions contain no blanks.
Missing: file names and conditions with blanks (`config_blank_refuted`). -/
theorem config_roundtrip_partial {cs : List Cmd} {d d' : Debugger} (h : Debugger.run {} cs = some d) {fullname : Str.Text → String}
    (hst : ∀ b ∈ d.points, Storable fullname b) : (d'.loadConfig fullname d.saveConfig).points = d.points := by
  obtain ⟨hs, -⟩ := run_agrees empty_agrees h
  unfold Debugger.loadConfig Debugger.saveConfig
  rw [load_points d.points [] _ rfl (by simpa using hs) hst]
  rfl

example : Storable String.ofList ⟨"/a.os", 12, some ⟨['x'], .lessEqual, ['3']⟩⟩ := by
  refine ⟨by decide, by decide, by decide, by decide, ?_⟩
  intro c hc
  cases hc
  decide

/-- A breakpoint in a file with a blank in its name is lost. -/
theorem config_blank_refuted : ∃ d : Debugger, d.points = [⟨"/my script.os", 3, none⟩] ∧
    (({} : Debugger).loadConfig String.ofList d.saveConfig).points = [] :=
  ⟨{ points := [⟨"/my script.os", 3, none⟩] }, rfl, by decide +kernel⟩

/-- **C90**.  A command line is split into the words between its blanks. -/
theorem words_split : ∀ (ws : List Str.Text), (∀ w ∈ ws, w ≠ [] ∧ ' ' ∉ w) → parseCommands (ws.flatMap fun w => w ++ [' ']) = ws
  | [], _ => rfl
  | w :: ws, h => by
    have hw := h w (by simp)
    have := words_split ws fun x hx => h x (List.mem_cons_of_mem _ hx)
    unfold parseCommands at this ⊢
    rw [List.flatMap_cons, List.append_assoc, List.singleton_append, splitBlanks_cons [] _ hw.2 (by simpa using hw.1), this]
    rfl

end Debug
end Verif
