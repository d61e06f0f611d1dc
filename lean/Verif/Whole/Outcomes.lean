import Verif.Whole.Forever

/-!
C139: a script ends, fails or runs forever exactly as its commands say.  What is missing from the full claim is what is missing from
C135.  A result that does not fit 32 bits and a division by zero are undefined behaviour of C++; that the script "fails" means no more
than that it arrives there.
-/

namespace Verif.Whole

open Verif.Str (Text)
open Verif.Calc (Num Cond Val value truth)
open Verif.Interp (Value Prog)
open Verif.Interp.Sim (Hangs ListHangs)
open Verif.Interp.Spec (State)

/-- If the body of `Main` hangs, the program does. -/
theorem main_hangs {p : Program} {l : Loaded} (hp : WellFormed p) (h : Coded p l) {m : Fun} (hm : m ∈ p) (hn : m.name = mainName) (bad : Bool) (k : Nat)
    (hb : ∀ code σ, Fits p .nothing .nothing [[]] m.body → Code [[]] m.body code → At [[]] [[]] σ → ListHangs prim (prog l) bad k σ code) :
    ∃ m', callee l "Main".toList [] = some m' ∧ Hangs bad (k + 1) fun n => Interp.run prim (prog l) n m' none [] (Interp.start []) := by
  obtain ⟨m', hm', hn', hparams, hvoid⟩ := hp.main
  have e : m = m' := same_name Fun.name hp.distinct hm hm' (hn.trans hn'.symm)
  subst e
  obtain ⟨code, h1, h2⟩ := callee_fun hp h hm (is := []) (by simp [hparams])
  rw [hn, hparams] at h1
  rw [hparams] at h2
  have hf := (hp.funs m hm).body
  rw [hparams, show m.give = .nothing by simp only [Fun.give, hvoid, if_true]] at hf
  refine ⟨_, h1, Interp.Sim.hangs_run (σ := Interp.initial []) (b := code) rfl (hb code _ hf h2 ⟨.cons (fun _ => .inl ⟨rfl, rfl, rfl⟩) .nil, rfl, rfl⟩)
    ⟨rfl, rfl, rfl, rfl⟩ ⟨rfl, fun _ _ => rfl⟩ rfl⟩

theorem fails_main {p : Program} {l : Loaded} (hp : WellFormed p) (h : Coded p l) (hw : GoesWrong p) : ∃ n, ∀ k, n ≤ k → runLoaded k l = .failed := by
  obtain ⟨m, hm, hn, hw⟩ := hw
  obtain ⟨m', hc, n, hr⟩ := main_hangs hp h hm hn true 0 fun code σ h1 h2 h3 => fails hp (serves hp h) hw 0 h1 h2 h3
  exact ⟨n, fun k hk => by simp only [runLoaded, hc, hr k hk]⟩

theorem forever_main {p : Program} {l : Loaded} (hp : WellFormed p) (h : Coded p l) (hf : Forever p) (k : Nat) : runLoaded k l = .running := by
  obtain ⟨m, hm, hn, hparams, hvoid⟩ := hp.main
  have hfit := (hp.funs m hm).body
  rw [show m.give = .nothing by simp only [Fun.give, hvoid, if_true]] at hfit
  have hs : Stays p [[]] m.body := by
    refine ⟨fun out ws e hd => ?_, fun hw => hf.2 ⟨m, hm, hn, hw⟩⟩
    have hal := hd.allowed hfit
    cases e with
    | next => exact hf.1 out ⟨m, hm, hn, ws, _, hd, .inl rfl⟩
    | left => exact hf.1 out ⟨m, hm, hn, ws, _, hd, .inr rfl⟩
    | brk => rcases hal with h | h <;> cases h
    | cont => rcases hal with h | h <;> cases h
    | ret i => cases hal
  obtain ⟨m', hc, hr⟩ := main_hangs hp h hm hn false k fun code σ h1 h2 h3 => forever hp (serves hp h) k hs h1 h2 h3
  have hr : Interp.run prim (prog l) k m' none [] (Interp.start []) = .fuel :=
    Hangs.less (bad := false) (fun n => (Interp.Sim.monoAt prim (prog l) n).run m' none [] (Interp.start [])) hr
  simp only [runLoaded, hc, hr]

/-! ## Theorems -/

/-- A program does one of three things. -/
theorem three_outcomes (p : Program) : (∃ out, Prints p out) ∨ GoesWrong p ∨ Forever p := by
  by_cases h1 : ∃ out, Prints p out
  · exact .inl h1
  · by_cases h2 : GoesWrong p
    · exact .inr (.inl h2)
    · exact .inr (.inr ⟨fun out h => h1 ⟨out, h⟩, h2⟩)

/-- C139: whenever a script has stopped, either its commands have ended and it has printed what they print, or they have arrived at a
number that does not exist.  It is not rejected, and no exception leaves it. -/
theorem script_outcomes_partial {p : Program} {ms : List Mark} {text : Text} (hp : WellFormed p) (hw : WritesProgram p ms) (hl : Laid ms text)
    (k : Nat) : runScript k text = .running ∨ (∃ out, Prints p out ∧ runScript k text = .ended (lines out)) ∨
      (GoesWrong p ∧ runScript k text = .failed) := by
  obtain ⟨l, h1, h2⟩ := program_loads hp hw hl
  simp only [runScript, h1]
  rcases three_outcomes p with ⟨out, h⟩ | h | h
  · rcases (runs hp h2 h).2 k with h' | h'
    · exact .inl h'
    · exact .inr (.inl ⟨out, h, h'⟩)
  · by_cases hk : runLoaded k l = .running
    · exact .inl hk
    · obtain ⟨n, hn⟩ := fails_main hp h2 h
      have hu := script_unique (text := text) (k := k) (n := n) (by simpa only [runScript, h1] using hk)
        (by simp only [runScript, h1, hn n (Nat.le_refl _)]; nofun)
      simp only [runScript, h1, hn n (Nat.le_refl _)] at hu
      exact .inr (.inr ⟨h, hu⟩)
  · exact .inl (forever_main hp h2 h k)

/-- C139: commands that go wrong do not end. -/
theorem wrong_not_ended_partial {p : Program} {ms : List Mark} {text : Text} {out : List Line} (hp : WellFormed p) (hw : WritesProgram p ms)
    (hl : Laid ms text) (ho : Prints p out) : ¬ GoesWrong p := by
  intro h
  obtain ⟨l, h1, h2⟩ := program_loads hp hw hl
  obtain ⟨n, hn⟩ := fails_main hp h2 h
  obtain ⟨k, hk⟩ := (runs hp h2 ho).1
  have := (hn (max n k) (by omega)).symm.trans (hk (max n k) (by omega))
  cases this

/-- C139: a script ends with an output exactly if its commands end and print it. -/
theorem script_ends_iff_partial {p : Program} {ms : List Mark} {text : Text} (hp : WellFormed p) (hw : WritesProgram p ms) (hl : Laid ms text)
    (t : Text) : (∃ k, runScript k text = .ended t) ↔ ∃ out, Prints p out ∧ t = lines out := by
  constructor
  · rintro ⟨k, hk⟩
    rcases script_outcomes_partial hp hw hl k with h | ⟨out, ho, h⟩ | ⟨-, h⟩ <;> rw [hk] at h <;> cases h
    exact ⟨out, ho, rfl⟩
  · rintro ⟨out, ho, rfl⟩
    obtain ⟨n, hn⟩ := (script_prints_partial hp hw hl ho).1
    exact ⟨n, hn n (Nat.le_refl _)⟩

/-- C139: a script fails exactly if its commands arrive at a number that does not exist. -/
theorem script_fails_iff_partial {p : Program} {ms : List Mark} {text : Text} (hp : WellFormed p) (hw : WritesProgram p ms) (hl : Laid ms text) :
    (∃ k, runScript k text = .failed) ↔ GoesWrong p := by
  constructor
  · rintro ⟨k, hk⟩
    rcases script_outcomes_partial hp hw hl k with h | ⟨out, ho, h⟩ | ⟨h', -⟩
    · rw [hk] at h; cases h
    · rw [hk] at h; cases h
    · exact h'
  · intro h
    obtain ⟨l, h1, h2⟩ := program_loads hp hw hl
    obtain ⟨n, hn⟩ := fails_main hp h2 h
    exact ⟨n, by simp only [runScript, h1, hn n (Nat.le_refl _)]⟩

/-- C139: a script runs forever exactly if its commands do. -/
theorem script_forever_iff_partial {p : Program} {ms : List Mark} {text : Text} (hp : WellFormed p) (hw : WritesProgram p ms) (hl : Laid ms text) :
    (∀ k, runScript k text = .running) ↔ Forever p := by
  constructor
  · intro h
    refine ⟨fun out ho => ?_, fun hg => ?_⟩
    · obtain ⟨k, hk⟩ := (script_ends_iff_partial hp hw hl _).2 ⟨out, ho, rfl⟩
      rw [h k] at hk; cases hk
    · obtain ⟨k, hk⟩ := (script_fails_iff_partial hp hw hl).2 hg
      rw [h k] at hk; cases hk
  · intro h k
    obtain ⟨l, h1, h2⟩ := program_loads hp hw hl
    simp only [runScript, h1, forever_main hp h2 h k]

end Verif.Whole
