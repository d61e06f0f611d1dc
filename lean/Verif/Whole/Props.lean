import Verif.Whole.Exec
import Verif.Interp.Props

/-!
C135: a script does what it says, from its text to its output.  What is missing from the full claim, and false of the code: two minus
signs that meet (C134), `&&` and `||` mixed without parentheses (C19), and initial values that use the name of their own variable
(`own_initial_value_refuted`).
-/

namespace Verif.Whole

open Verif.Str (Text)
open Verif.Calc (Num Cond Val value truth)
open Verif.Interp (Value Prog)
open Verif.Interp.Sim (Never)
open Verif.Interp.Spec (State ExecList)

/-! ## Functions -/

theorem Coded.mem {p : Program} {l : Loaded} (h : Coded p l) {g : Fun} (hg : g ∈ p) :
    ∃ b code, (headerOf g b, code) ∈ l ∧ Code [g.params.map (·, .int)] g.body code := by
  induction h with
  | nil => cases hg
  | @cons f p b code l hc _ ih =>
    rcases List.mem_cons.1 hg with rfl | hg
    · exact ⟨b, code, List.mem_cons_self, hc⟩
    · obtain ⟨b', code', h1, h2⟩ := ih hg
      exact ⟨b', code', List.mem_cons_of_mem _ h1, h2⟩

theorem Coded.names {p : Program} {l : Loaded} (h : Coded p l) : l.map (fun f => f.1.name) = p.map Fun.name := by
  induction h with
  | nil => rfl
  | cons _ _ ih => simp only [List.map_cons, ih]; rfl

theorem callee_fun {p : Program} {l : Loaded} (hp : WellFormed p) (h : Coded p l) {g : Fun} (hg : g ∈ p) {is : List Int}
    (hi : is.length = g.params.length) : ∃ code, callee l g.name (is.map fun i => scalar (.int i)) =
      some ⟨g.params.map fun n => (String.ofList n, none), g.isVoid, .body code⟩ ∧ Code [g.params.map (·, .int)] g.body code := by
  obtain ⟨b, code, h1, h2⟩ := h.mem hg
  refine ⟨code, ?_, h2⟩
  have ht : (is.map fun i => scalar (.int i)).map (fun v => String.ofList (typeText (valueType v))) =
      List.replicate g.params.length "int" := by
    rw [List.map_map, List.eq_replicate_iff]
    refine ⟨by simpa using hi, fun s hs => ?_⟩
    obtain ⟨i, -, rfl⟩ := List.mem_map.1 hs
    exact typeText_int
  have hf := find_only (x := (headerOf g b, code)) (p := fun f : Header × List (Interp.Stmt Val) => f.1.name = g.name &&
    Scope.isSignatureValid f.1.signature ((is.map fun i => scalar (.int i)).map fun v => String.ofList (typeText (valueType v)))) h1
    (by rw [ht]; simp only [signature_valid, Bool.and_true, decide_eq_true_eq]; rfl) (fun y hy he => by
      simp only [Bool.and_eq_true, decide_eq_true_eq] at he
      exact same_name (fun f => f.1.name) (h.names ▸ hp.distinct) hy h1 he.1)
  rw [callee, hf]
  cases hv : g.isVoid <;> simp [method, headerOf, Fun.ty, hv]

theorem serves {p : Program} {l : Loaded} (hp : WellFormed p) (h : Coded p l) : Serves p (prog l) :=
  ⟨fun g hg is hi => by
    obtain ⟨code, h1, h2⟩ := callee_fun hp h hg hi
    exact ⟨code, by simpa [prog] using h1, h2⟩⟩

theorem printed_prints (out : List Line) : printed (prints out) = lines out := by
  have : ∀ l : Line, valueText l.value = l.chars := fun l => by cases l <;> rfl
  simp [printed, prints, lines, List.flatMap_map, this]

/-- The loaded functions run. -/
theorem runs_main {p : Program} {l : Loaded} {out : List Line} (hp : WellFormed p) (h : Coded p l) (ho : Prints p out) :
    ∃ m v s, callee l "Main".toList [] = some m ∧
      (∃ n, ∀ k, n ≤ k → Interp.run prim (prog l) k m none [] (Interp.start []) = .ok v s) ∧ s.out = prints out ∧ s.cf ≠ .throw := by
  obtain ⟨m, hm, hn, vs, e, hd, hend⟩ := ho
  obtain ⟨m', hm', hn', hparams, hvoid⟩ := hp.main
  have em : m = m' := same_name Fun.name hp.distinct hm hm' (hn.trans hn'.symm)
  subst em
  obtain ⟨code, h1, h2⟩ := callee_fun hp h hm (is := []) (by simp [hparams])
  rw [hn, hparams] at h1
  rw [hparams] at h2
  have hf := (hp.funs m hm).body
  rw [hparams] at hf
  obtain ⟨σ', g', h3, h4, -⟩ := simulates hp (serves hp h) hd hf h2
    (σ := { Interp.initial [] with blocks := [Interp.Spec.parameters none ⟨[], m.isVoid, .body code⟩ []], self := none, rv := .null })
    ⟨.cons (fun _ => .inl ⟨rfl, rfl, rfl⟩) .nil, rfl, rfl⟩
  have hrun : Interp.Spec.Run prim (prog l) Never (Interp.initial []) ⟨[], m.isVoid, .body code⟩ none [] (Ended e)
      { σ' with blocks := [], self := none, rv := .null } := .body rfl h3
  obtain ⟨n, v, s, i1, i2, -, -, -, -, -, -, -, i3⟩ := Interp.script_meaning_partial hrun
  refine ⟨_, v, s, h1, Interp.Sim.Ends.run (P := prim) (G := prog l) i1 nofun, ?_, (i3 fun x => by rcases hend with rfl | rfl <;> nofun).1⟩
  rw [i2]
  have := h4.out
  simpa [Interp.initial] using this

/-- The loaded functions print what the program prints. -/
theorem runs {p : Program} {l : Loaded} {out : List Line} (hp : WellFormed p) (h : Coded p l) (ho : Prints p out) :
    (∃ n, ∀ k, n ≤ k → runLoaded k l = .ended (lines out)) ∧ ∀ k, runLoaded k l = .running ∨ runLoaded k l = .ended (lines out) := by
  obtain ⟨m, v, s, hc, ⟨n, hn⟩, hout, hcf⟩ := runs_main hp h ho
  constructor
  · exact ⟨n, fun k hk => by simp only [runLoaded, hc, hn k hk, if_neg hcf, hout, printed_prints]⟩
  · intro k
    by_cases hk : Interp.run prim (prog l) k m none [] (Interp.start []) = .fuel
    · exact .inl (by simp only [runLoaded, hc, hk])
    · have := Interp.run_unique hk (n := n) (by rw [hn n (Nat.le_refl _)]; nofun)
      exact .inr (by simp only [runLoaded, hc, this, hn n (Nat.le_refl _), if_neg hcf, hout, printed_prints])

/-! ## Theorems -/

/-- The result of a script does not depend on the fuel of the model. -/
theorem script_unique {text : Text} {k n : Nat} (hk : runScript k text ≠ .running) (hn : runScript n text ≠ .running) :
    runScript k text = runScript n text := by
  unfold runScript at hk hn ⊢
  split
  · rename_i l hl
    simp only [hl] at hk hn
    unfold runLoaded at hk hn ⊢
    split
    · rfl
    · rename_i m hm
      simp only [hm] at hk hn
      rw [Interp.run_unique (k := k) (n := n) (fun h => by simp [h] at hk) (fun h => by simp [h] at hn)]
  · rfl
  · rfl
  · rfl

/-- C135: a script that obeys the rules of the language is accepted, however it is laid out. -/
theorem script_accepted_partial {p : Program} {ms : List Mark} {text : Text} (hp : WellFormed p) (hw : WritesProgram p ms) (hl : Laid ms text) :
    ∃ l, load text = .ok l := by
  obtain ⟨l, h, -⟩ := program_loads hp hw hl
  exact ⟨l, h⟩

/-- C135: it prints what its commands mean, ends if they end, and prints nothing else whenever it has ended. -/
theorem script_prints_partial {p : Program} {ms : List Mark} {text : Text} {out : List Line} (hp : WellFormed p) (hw : WritesProgram p ms)
    (hl : Laid ms text) (ho : Prints p out) :
    (∃ n, ∀ k, n ≤ k → runScript k text = .ended (lines out)) ∧
      ∀ k, runScript k text = .running ∨ runScript k text = .ended (lines out) := by
  obtain ⟨l, h1, h2⟩ := program_loads hp hw hl
  simpa only [runScript, h1] using runs hp h2 ho

/-- C135: two texts of the same program print the same. -/
theorem layout_irrelevant_partial {p : Program} {ms ms' : List Mark} {text text' : Text} {out : List Line} (hp : WellFormed p)
    (hw : WritesProgram p ms) (hl : Laid ms text) (hw' : WritesProgram p ms') (hl' : Laid ms' text') (ho : Prints p out) :
    ∃ n, ∀ k, n ≤ k → runScript k text = runScript k text' := by
  obtain ⟨n, hn⟩ := (script_prints_partial hp hw hl ho).1
  obtain ⟨n', hn'⟩ := (script_prints_partial hp hw' hl' ho).1
  exact ⟨max n n', fun k hk => by rw [hn k (by omega), hn' k (by omega)]⟩

/-- C135: a program prints one thing only. -/
theorem output_unique_partial {p : Program} {ms : List Mark} {text : Text} {out out' : List Line} (hp : WellFormed p)
    (hw : WritesProgram p ms) (hl : Laid ms text) (ho : Prints p out) (ho' : Prints p out') : out = out' := by
  obtain ⟨l, -, h2⟩ := program_loads hp hw hl
  obtain ⟨m, v, s, hc, ⟨n, hn⟩, hout, -⟩ := runs_main hp h2 ho
  obtain ⟨m', v', s', hc', ⟨n', hn'⟩, hout', -⟩ := runs_main hp h2 ho'
  have e : m = m' := Option.some.inj (hc.symm.trans hc')
  subst e
  have h1 := hn (max n n') (by omega)
  rw [hn' (max n n') (by omega)] at h1
  cases h1
  have := hout.symm.trans hout'
  simp only [prints, List.reverse_inj] at this
  exact (List.map_inj_right fun i j h => by cases i <;> cases j <;> simp_all [Line.value, scalar]).1 this

end Verif.Whole
