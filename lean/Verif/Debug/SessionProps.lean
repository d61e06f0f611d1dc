import Verif.Debug.Session
import Verif.Debug.Props

/-!
C152 (conditional breakpoints), C153 (stack frames), C154 (looking at and changing variables, watches) and C155 (the program stays
stopped until told).
-/

namespace Verif
namespace Debug

open Str (Text)

/-! ### What commands leave alone -/

/-- The words of the commands that select a frame. -/
def frameWords : List Text := ["up".toList, "down".toList, "frame".toList, "f".toList]

theorem mem_lookup {w : String} {v : Verb} : ∀ {l : List (String × Verb)}, l.lookup w = some v → (w, v) ∈ l
  | [], h => by simp at h
  | (a, b) :: l, h => by
    rw [List.lookup_cons] at h
    split at h
    · rename_i e
      have e' : w = a := by simpa using e
      simp only [Option.some.injEq] at h
      subst e' h
      exact List.mem_cons_self
    · exact List.mem_cons_of_mem _ (mem_lookup h)

theorem verbOf_mem {w : Text} {v : Verb} (h : verbOf w = some v) : (String.ofList w, v) ∈ verbs := mem_lookup h

theorem setCurrentFrame_cache (p : Program) (c : Client) (id : Nat) : (setCurrentFrame p c id).1.cache = c.cache := by
  simp only [setCurrentFrame]
  split <;> rfl

theorem frameDown_cache (p : Program) (c : Client) : (frameDown p c).1.cache = c.cache := by
  simp only [frameDown]
  split
  · rfl
  · exact setCurrentFrame_cache p _ _

theorem frameUp_cache (p : Program) (c : Client) : (frameUp p c).1.cache = c.cache := by
  simp only [frameUp]
  split
  · rfl
  · exact setCurrentFrame_cache p _ _

theorem exec_cache {fullname : Text → String} {p : Program} {c : Client} {tokens : List Text} {r : Result}
    (h : exec fullname p c tokens = some r) : r.client.cache = c.cache := by
  have h1 := frameDown_cache p c
  have h2 := frameUp_cache p c
  have h3 := setCurrentFrame_cache p c
  simp only [exec] at h
  repeat' split at h
  all_goals first
    | (simp only [Option.some.injEq] at h; subst h; first | rfl | exact h1 | exact h2 | exact h3 _)
    | (simp only [Option.map_eq_some_iff] at h; obtain ⟨_, _, h⟩ := h; subst h; rfl)
    | cases h

theorem enter_cache {fullname : Text → String} : ∀ {lines : List Text} {p : Program} {c : Client} {r : Result},
    enter fullname p c lines = some r → r.client.cache = c.cache
  | [], p, c, r, h => by simp only [enter, Option.some.injEq] at h; subst h; rfl
  | line :: lines, p, c, r, h => by
    simp only [enter] at h
    split at h
    · split at h
      · rename_i r1 he
        split at h
        · rename_i r2 h2
          simp only [Option.some.injEq] at h; subst h
          show r2.client.cache = c.cache
          rw [enter_cache h2, exec_cache he]
        · cases h
      · cases h
    · cases h

/-! ### C152: conditional breakpoints -/

/-- What holds of the client whenever the program runs: there is no scope, and the cache knows literals only. -/
theorem runs_facts {fullname : Text → String} {literal : Text → Option Value} {compare : Op → Value → Value → Bool} {c : Client}
    (h : Runs fullname literal compare c) : c.scope = none ∧ ∀ n v, c.cache.lookup n = some v → literal n = some v := by
  have hside : ∀ (p : Program) (c : Client) (t : Text),
      (c.scope = none ∧ ∀ n v, c.cache.lookup n = some v → literal n = some v) →
      ((side literal p c t).1.scope = none ∧ ∀ n v, (side literal p c t).1.cache.lookup n = some v → literal n = some v) := by
    intro p c t hc
    simp only [side]
    split
    · exact hc
    · split
      · exact hc
      · split
        · exact hc
        · split
          · rename_i v hv
            refine ⟨hc.1, ?_⟩
            intro n w hn
            rw [List.lookup_cons] at hn
            split at hn
            · rename_i e
              have e' : n = t := by simpa using e
              rw [e', hv]; exact hn
            · exact hc.2 n w hn
          · exact hc
  have hhandle : ∀ (p : Program) (c : Client) (s : Nat) (ls : List Text) (r : Result),
      (c.scope = none ∧ ∀ n v, c.cache.lookup n = some v → literal n = some v) → handle fullname p c s ls = some r →
      (r.client.scope = none ∧ ∀ n v, r.client.cache.lookup n = some v → literal n = some v) := by
    intro p c s ls r hc hh
    simp only [handle] at hh
    split at hh
    · rename_i r1 he
      split at hh
      · cases hh
      · simp only [Option.some.injEq] at hh; subst hh
        refine ⟨rfl, ?_⟩
        intro n v hn
        have h1 := enter_cache he
        have h2 : r1.client.cache = c.cache := h1
        refine hc.2 n v ?_
        rw [← h2]; exact hn
    · cases hh
  induction h with
  | start => exact ⟨rfl, fun n v h => by simp at h⟩
  | @event c p lines e r _ he _ ih =>
    cases e with
    | line b s =>
      simp only [event, asks] at he
      have h1 : ∀ k : Condition, ((side literal p (side literal p c k.lhs).1 k.rhs).1.scope = none ∧ _) :=
        fun k => hside p _ k.rhs (hside p c k.lhs ih)
      cases hk : b.condition with
      | none => rw [hk] at he; exact hhandle _ _ _ _ _ ih he
      | some k =>
        rw [hk] at he
        simp only at he
        cases hv : evaluate compare k.op (sideValue p (side literal p c k.lhs).2)
            (sideValue p (side literal p (side literal p c k.lhs).1 k.rhs).2) with
        | none => rw [hv] at he; cases he
        | some q =>
          rw [hv] at he
          cases q
          · simp only [Option.some.injEq] at he; subst he; exact h1 k
          · exact hhandle _ _ _ _ _ (h1 k) he
    | other s => exact hhandle _ _ _ _ _ ih he

theorem side_running {literal : Text → Option Value} {p : Program} {c : Client} (hs : c.scope = none)
    (hc : ∀ n v, c.cache.lookup n = some v → literal n = some v) {t : Text} (ht : t ≠ []) :
    sideValue p (side literal p c t).2 = (literal t).map some := by
  have he : t.isEmpty = false := by cases t with | nil => exact absurd rfl ht | cons _ _ => rfl
  simp only [side, hs, getSymbol, he, Bool.false_eq_true, if_false]
  cases hl : c.cache.lookup t with
  | some v => simp only [sideValue, hc t v hl, Option.map_some]
  | none =>
    cases hlit : literal t with
    | some v => simp only [sideValue, Option.map_some]
    | none => simp only [sideValue, Option.map_none]

theorem asks_running {fullname : Text → String} {literal : Text → Option Value} {compare : Op → Value → Value → Bool} {c : Client}
    (h : Runs fullname literal compare c) (p : Program) {b : BreakPoint} {k : Condition} (hk : b.condition = some k)
    (hl : k.lhs ≠ []) (hr : k.rhs ≠ []) :
    ∃ c', asks literal compare p c b = some (c', match literal k.lhs, literal k.rhs with
      | some l, some r => compare k.op l r
      | _, _ => true) := by
  obtain ⟨h1, h2⟩ := runs_facts h
  have hsl := side_running (p := p) h1 h2 hl
  have hc1 : (side literal p c k.lhs).1.scope = none ∧
      ∀ n v, (side literal p c k.lhs).1.cache.lookup n = some v → literal n = some v := by
    simp only [side, getSymbol, h1]
    split
    · exact ⟨h1, h2⟩
    · split
      · exact ⟨h1, h2⟩
      · split
        · rename_i v hv
          refine ⟨rfl, ?_⟩
          intro n w hn
          rw [List.lookup_cons] at hn
          split at hn
          · rename_i e
            have e' : n = k.lhs := by simpa using e
            rw [e', hv]; exact hn
          · exact h2 n w hn
        · exact ⟨h1, h2⟩
  have hsr := side_running (p := p) hc1.1 hc1.2 hr
  simp only [asks, hk, hsl, hsr]
  cases hx : literal k.lhs with
  | none => exact ⟨_, by simp [evaluate]; rfl⟩
  | some l =>
    cases hy : literal k.rhs with
    | none => exact ⟨_, by simp [evaluate]; rfl⟩
    | some r =>
      cases hv : compare k.op l r
      · exact ⟨_, by simp [evaluate, hv]; rfl⟩
      · exact ⟨_, by simp [evaluate, hv]; rfl⟩

/-- A breakpoint whose condition compares two literals stops exactly when the comparison holds. -/
theorem literal_condition_partial {fullname : Text → String} {literal : Text → Option Value} {compare : Op → Value → Value → Bool}
    {c : Client} (h : Runs fullname literal compare c) (p : Program) {b : BreakPoint} {k : Condition} (hk : b.condition = some k)
    (hl : k.lhs ≠ []) (hr : k.rhs ≠ []) {l r : Value} (h1 : literal k.lhs = some l) (h2 : literal k.rhs = some r) :
    ∃ c', asks literal compare p c b = some (c', compare k.op l r) := by
  have := asks_running h p hk hl hr
  rw [h1, h2] at this
  exact this

/-- A breakpoint without condition always stops. -/
theorem unconditional_stops {literal : Text → Option Value} {compare : Op → Value → Value → Bool} {c : Client} (p : Program)
    {b : BreakPoint} (hk : b.condition = none) : asks literal compare p c b = some (c, true) := by
  simp only [asks, hk]

/-- But a breakpoint whose condition names a variable stops always, whatever the values of the variables: the names are looked
up in the scope of the last stop, which is gone while the program runs. -/
theorem variable_condition_refuted {fullname : Text → String} {literal : Text → Option Value}
    {compare : Op → Value → Value → Bool} {c : Client} (h : Runs fullname literal compare c) {b : BreakPoint} {k : Condition}
    (hk : b.condition = some k) (hl : k.lhs ≠ []) (hr : k.rhs ≠ []) (hv : literal k.lhs = none ∨ literal k.rhs = none)
    (p : Program) : ∃ c', asks literal compare p c b = some (c', true) := by
  have := asks_running h p hk hl hr
  rcases hv with hv | hv
  · rw [hv] at this; exact this
  · rw [hv] at this
    cases hx : literal k.lhs
    · rw [hx] at this; exact this
    · rw [hx] at this; exact this

/-! ### C153: stack frames -/

/-- A way to select a frame. -/
inductive Move where
  | up | down
  | to (n : Nat)

/-- The frame selected next, of `count` frames, the oldest being 0. -/
def moved (count i : Nat) : Move → Nat
  | .up => i - 1
  | .down => if i + 1 < count then i + 1 else i
  | .to n => if n < count then n else i

/-- The command. -/
def Move.tokens : Move → List Text
  | .up => ["up".toList]
  | .down => ["down".toList]
  | .to n => ["frame".toList, Str.natDigits n]

/-- The client looks at frame `i`. -/
def Looking (p : Program) (c : Client) (i : Nat) : Prop :=
  c.frame = i ∧ i < p.frames.length ∧ c.scope = p.frames[i]?

theorem setCurrentFrame_looking {p : Program} {c : Client} {n : Nat} (h : n < p.frames.length) :
    Looking p (setCurrentFrame p c n).1 n := by
  have : p.frames[n]? = some p.frames[n] := List.getElem?_eq_getElem h
  simp only [setCurrentFrame, this]
  exact ⟨rfl, h, this.symm⟩

/-- Selecting a frame: up, down and by number, except down from the innermost frame. -/
theorem frame_moves_partial {fullname : Text → String} {p : Program} {c : Client} {i : Nat} (h : Looking p c i) (m : Move)
    (hn : ∀ n, m = .to n → n < 2 ^ 32) (hd : ∀ _ : m = .down, i + 1 < p.frames.length) :
    ∃ r, exec fullname p c m.tokens = some r ∧ r.program = p ∧ Looking p r.client (moved p.frames.length i m) := by
  obtain ⟨h1, h2, h3⟩ := h
  cases m with
  | up =>
    refine ⟨_, rfl, rfl, ?_⟩
    show Looking p (frameUp p c).1 (i - 1)
    by_cases h0 : c.frame ≤ 0
    · simp only [frameUp, if_pos h0]
      have : i - 1 = i := by omega
      rw [this]; exact ⟨h1, h2, h3⟩
    · rw [frameUp, if_neg h0]
      simp only [h1]
      exact setCurrentFrame_looking (by omega)
  | down =>
    refine ⟨_, rfl, rfl, ?_⟩
    have hd' := hd rfl
    show Looking p (frameDown p c).1 (if i + 1 < p.frames.length then i + 1 else i)
    rw [if_pos hd']
    have h0 : ¬ c.frame ≥ p.frames.length := by omega
    rw [frameDown, if_neg h0]
    simp only [h1]
    exact setCurrentFrame_looking hd'
  | to n =>
    have e : exec fullname p c (Move.tokens (.to n)) =
        some ⟨p, (setCurrentFrame p c ((Str.stringToInt (Str.natDigits n)) % 2 ^ 32).toNat).1,
          (setCurrentFrame p c ((Str.stringToInt (Str.natDigits n)) % 2 ^ 32).toNat).2⟩ := rfl
    rw [line_text (hn n rfl)] at e
    refine ⟨_, e, rfl, ?_⟩
    show Looking p (setCurrentFrame p c n).1 (if n < p.frames.length then n else i)
    by_cases hlt : n < p.frames.length
    · rw [if_pos hlt]; exact setCurrentFrame_looking hlt
    · rw [if_neg hlt]
      have : p.frames[n]? = none := List.getElem?_eq_none (by omega)
      simp only [setCurrentFrame, this]
      exact ⟨h1, h2, h3⟩

/-- No other command changes the frame or the scope that is looked at. -/
theorem frame_kept {fullname : Text → String} {p : Program} {c : Client} {tokens : List Text} {r : Result}
    (h : exec fullname p c tokens = some r) (hw : ∀ w, tokens.head? = some w → w ∉ frameWords) :
    r.client.frame = c.frame ∧ r.client.scope = c.scope ∧ r.program.frames = p.frames := by
  have hno : ∀ w args, tokens = w :: args → verbOf w ≠ some .up ∧ verbOf w ≠ some .down ∧ verbOf w ≠ some .frame := by
    intro w args ht
    have hw' := hw w (by rw [ht]; rfl)
    refine ⟨?_, ?_, ?_⟩
    · intro hv
      have := verbOf_mem hv
      have e : String.ofList w = "up" := by revert this; simp [verbs]
      have e' : w = "up".toList := by rw [← e, String.toList_ofList]
      exact hw' (by rw [e']; decide)
    · intro hv
      have := verbOf_mem hv
      have e : String.ofList w = "down" := by revert this; simp [verbs]
      have e' : w = "down".toList := by rw [← e, String.toList_ofList]
      exact hw' (by rw [e']; decide)
    · intro hv
      have := verbOf_mem hv
      have e : String.ofList w = "frame" ∨ String.ofList w = "f" := by revert this; simp [verbs]
      rcases e with e | e
      · have e' : w = "frame".toList := by rw [← e, String.toList_ofList]
        exact hw' (by rw [e']; decide)
      · have e' : w = "f".toList := by rw [← e, String.toList_ofList]
        exact hw' (by rw [e']; decide)
  have hmod : ∀ n v, (modifySymbol p c n v).frames = p.frames := by
    intro n v
    simp only [modifySymbol]
    split
    · split <;> rfl
    · rfl
  cases tokens with
  | nil => simp only [exec, Option.some.injEq] at h; subst h; exact ⟨rfl, rfl, rfl⟩
  | cons word args =>
    obtain ⟨n1, n2, n3⟩ := hno word args rfl
    simp only [exec] at h
    split at h
    all_goals first
      | (rename_i hv; exact absurd hv n1)
      | (rename_i hv; exact absurd hv n2)
      | (rename_i hv; exact absurd hv n3)
      | skip
    all_goals repeat' split at h
    all_goals first
      | (simp only [Option.some.injEq] at h; subst h; first | exact ⟨rfl, rfl, rfl⟩ | exact ⟨rfl, rfl, hmod _ _⟩)
      | (simp only [Option.map_eq_some_iff] at h; obtain ⟨_, _, h⟩ := h; subst h; exact ⟨rfl, rfl, rfl⟩)
      | cases h

/-- From the innermost frame, `down` leaves the frames: the selected number is not the one of a frame any more while the scope
is still that of the innermost frame, and the next `up` does not go up. -/
theorem down_past_end_refuted {fullname : Text → String} {p : Program} {c : Client} {i : Nat} (h : Looking p c i)
    (hi : i + 1 = p.frames.length) :
    ∃ r r', exec fullname p c ["down".toList] = some r ∧ r.client.frame = p.frames.length ∧ r.client.scope = p.frames[i]? ∧
      exec fullname p r.client ["up".toList] = some r' ∧ Looking p r'.client i := by
  obtain ⟨h1, h2, h3⟩ := h
  have hnone : p.frames[i + 1]? = none := List.getElem?_eq_none (by omega)
  have hdown : frameDown p c = ({ c with frame := c.frame + 1 }, []) := by
    have h0 : ¬ c.frame ≥ p.frames.length := by omega
    rw [frameDown, if_neg h0]
    simp only [setCurrentFrame, h1, hnone]
  refine ⟨⟨p, (frameDown p c).1, (frameDown p c).2⟩, ⟨p, (frameUp p (frameDown p c).1).1, (frameUp p (frameDown p c).1).2⟩, rfl, ?_, ?_, rfl, ?_⟩
  · rw [hdown]; show c.frame + 1 = _; omega
  · rw [hdown]; exact h3
  · rw [hdown]
    have h0 : ¬ c.frame + 1 ≤ 0 := by omega
    have e : frameUp p { c with frame := c.frame + 1 } = setCurrentFrame p { c with frame := c.frame + 1 - 1 } (c.frame + 1 - 1) := by
      rw [frameUp, if_neg h0]
    rw [e, h1]
    have : i + 1 - 1 = i := by omega
    rw [this]
    exact setCurrentFrame_looking h2

/-- When the program stops, the frame selected is not the innermost one but the one selected at an earlier stop, at first the
oldest: then `up` does nothing and `down` goes to the second oldest frame, wherever the program is. -/
theorem first_stop_frame_refuted {fullname : Text → String} {literal : Text → Option Value} {compare : Op → Value → Value → Bool}
    (d : Debugger) (p : Program) (scope s0 s1 : Nat) (rest : List Nat) (hf : p.frames = s0 :: s1 :: rest) :
    let c : Client := { debugger := d }
    Runs fullname literal compare c ∧ (arrive p c scope).1.frame = 0 ∧ (arrive p c scope).1.scope = some scope ∧
    (exec fullname p (arrive p c scope).1 ["up".toList]).map (fun r => (r.client.frame, r.client.scope)) = some (0, some scope) ∧
    (exec fullname p (arrive p c scope).1 ["down".toList]).map (fun r => (r.client.frame, r.client.scope)) = some (1, some s1) := by
  intro c
  refine ⟨.start, rfl, rfl, rfl, ?_⟩
  show some ((frameDown p (arrive p c scope).1).1.frame, (frameDown p (arrive p c scope).1).1.scope) = _
  simp [frameDown, arrive, c, hf, setCurrentFrame]

/-! ### C154: variables and watches -/

/-- What a path of names stands for, seen from a scope. -/
def follow (p : Program) (scope : Nat) : List Text → Option Sym
  | [] => none
  | [n] => p.resolve scope n
  | n :: m :: ns =>
    match p.resolve scope n with
    | some (.object id) => follow p (p.inside id) (m :: ns)
    | _ => none

/-- The path as it is written: the names with dots between. -/
def dotted : List Text → Text
  | [] => []
  | [n] => n
  | n :: m :: ns => n ++ '.' :: dotted (m :: ns)

theorem dotted_length : ∀ (ns : List Text), ns.length ≤ (dotted ns).length + 1
  | [] => by simp
  | [_] => by simp
  | n :: m :: ns => by
    have := dotted_length (m :: ns)
    simp only [dotted, List.length_append, List.length_cons] at *
    omega

theorem symbolFrom_follow (p : Program) : ∀ (ns : List Text) (fuel scope : Nat), ns ≠ [] → (∀ n ∈ ns, n ≠ [] ∧ '.' ∉ n) →
    ns.length ≤ fuel + 1 → symbolFrom p fuel scope (dotted ns) = follow p scope ns
  | [], _, _, h, _, _ => absurd rfl h
  | [n], fuel, scope, _, hn, _ => by
    have hs : Str.split n = (n, []) := by
      rw [Str.split_eq_splitBy]; exact Str.splitBy_not_mem (hn n List.mem_cons_self).2
    cases fuel with
    | zero => simp [symbolFrom, dotted, hs, follow]
    | succ fuel => simp [symbolFrom, dotted, hs, follow]
  | n :: m :: ns, fuel, scope, _, hn, hf => by
    have hn1 := hn n List.mem_cons_self
    have hs : Str.split (dotted (n :: m :: ns)) = (n, dotted (m :: ns)) := by
      rw [Str.split_eq_splitBy]; exact Str.splitBy_append hn1.2
    have hm : dotted (m :: ns) ≠ [] := by
      have hm1 := (hn m (by simp)).1
      cases ns with
      | nil => exact hm1
      | cons k ns => simp [dotted]
    cases fuel with
    | zero => simp only [List.length_cons] at hf; omega
    | succ fuel =>
      have e1 : n.isEmpty = false := by cases n with | nil => exact absurd rfl hn1.1 | cons _ _ => rfl
      have e2 : (dotted (m :: ns)).isEmpty = false := by
        cases hd : dotted (m :: ns) with | nil => exact absurd hd hm | cons _ _ => rfl
      simp only [symbolFrom, hs, e1, e2, Bool.not_false, Bool.and_true, if_true, follow]
      cases hr : p.resolve scope n with
      | none => rfl
      | some s =>
        cases s with
        | other => rfl
        | object id =>
          exact symbolFrom_follow p (m :: ns) fuel (p.inside id) (by simp)
            (fun k hk => hn k (List.mem_cons_of_mem _ hk)) (by simp only [List.length_cons] at hf ⊢; omega)

/-- `print a.b.c` shows what the names lead to from the scope that is looked at, and changes nothing. -/
theorem print_shows {fullname : Text → String} {p : Program} {c : Client} {s : Nat} (hs : c.scope = some s) {ns : List Text}
    (h0 : ns ≠ []) (hn : ∀ n ∈ ns, n ≠ [] ∧ '.' ∉ n) :
    exec fullname p c ["print".toList, dotted ns] = some ⟨p, c, [.print (shown p (follow p s ns))]⟩ := by
  have : getSymbol p c.scope (dotted ns) = follow p s ns := by
    rw [hs]
    exact symbolFrom_follow p ns _ s h0 hn (dotted_length ns)
  have e : exec fullname p c ["print".toList, dotted ns] = some ⟨p, c, [.print (shown p (getSymbol p c.scope (dotted ns)))]⟩ := rfl
  rw [e, this]

/-- `modify a.b v` changes the value of what the names lead to, if that is a value, and of nothing else. -/
theorem modify_changes_partial {fullname : Text → String} {p : Program} {c : Client} {s : Nat} (hs : c.scope = some s)
    {ns : List Text} (h0 : ns ≠ []) (hn : ∀ n ∈ ns, n ≠ [] ∧ '.' ∉ n) (new : Text) :
    ∃ r, exec fullname p c ["modify".toList, dotted ns, new] = some r ∧ r.client = c ∧ r.program.frames = p.frames ∧
      r.program.resolve = p.resolve ∧
      ∀ id, r.program.value id = if follow p s ns = some (.object id) ∧ p.atomic id = true then .text new else p.value id := by
  have hg : getSymbol p c.scope (dotted ns) = follow p s ns := by
    rw [hs]
    exact symbolFrom_follow p ns _ s h0 hn (dotted_length ns)
  refine ⟨⟨modifySymbol p c (dotted ns) new, c, []⟩, rfl, rfl, ?_⟩
  simp only [modifySymbol, hg]
  cases hf : follow p s ns with
  | none => exact ⟨rfl, rfl, fun id => by simp⟩
  | some y =>
    cases y with
    | other => exact ⟨rfl, rfl, fun id => by simp⟩
    | object j =>
      cases ha : p.atomic j
      · simp only [ha, Bool.false_eq_true, if_false]
        refine ⟨trivial, trivial, fun id => ?_⟩
        by_cases e : j = id
        · subst e; simp [ha]
        · simp [e]
      · simp only [ha, if_true]
        refine ⟨trivial, trivial, fun id => ?_⟩
        by_cases e : id = j
        · subst e; simp [ha]
        · have e' : ¬ j = id := fun h => e h.symm
          simp [e, e']

/-- The new value is a text whatever the type of the variable: a number is one no more. -/
theorem modify_type_refuted {fullname : Text → String} {p : Program} {c : Client} {s : Nat} (hs : c.scope = some s)
    {ns : List Text} (h0 : ns ≠ []) (hn : ∀ n ∈ ns, n ≠ [] ∧ '.' ∉ n) {id : Nat} (hf : follow p s ns = some (.object id))
    (ha : p.atomic id = true) (new : Text) :
    ∃ r, exec fullname p c ["modify".toList, dotted ns, new] = some r ∧ r.program.value id = .text new ∧
      ∀ i, r.program.value id ≠ .int i := by
  obtain ⟨r, h1, _, _, _, h2⟩ := modify_changes_partial (fullname := fullname) hs h0 hn new
  have := h2 id
  rw [if_pos ⟨hf, ha⟩] at this
  exact ⟨r, h1, this, fun i => by rw [this]; simp⟩

/-! ### Watches -/

/-- What a command does to the set of watches. -/
def watchStep (S : Text → Prop) : List Text → Text → Prop
  | [w, n] => fun x =>
    if w = "watch".toList ∨ w = "w".toList then S x ∨ x = n
    else if w = "unwatch".toList then S x ∧ x ≠ n
    else S x
  | _ => S

theorem text_lt_irrefl (a : Text) : ¬ a < a := List.lt_irrefl a
theorem text_lt_trans {a b c : Text} (h : a < b) (h' : b < c) : a < c := List.lt_trans h h'
theorem text_eq_of_not_lt {a b : Text} (h : ¬ a < b) (h' : ¬ b < a) : a = b :=
  List.le_antisymm (List.not_lt.1 h') (List.not_lt.1 h)

theorem insertWatch_mem {w : Text} : ∀ {l : List Text} {x : Text}, x ∈ insertWatch w l ↔ x ∈ l ∨ x = w
  | [], x => by simp [insertWatch]
  | y :: ys, x => by
    simp only [insertWatch]
    split
    · simp only [List.mem_cons, insertWatch_mem (l := ys), or_assoc]
    · split
      · simp only [List.mem_cons]; constructor
        · rintro (h | h | h)
          · exact Or.inr h
          · exact Or.inl (Or.inl h)
          · exact Or.inl (Or.inr h)
        · rintro ((h | h) | h)
          · exact Or.inr (Or.inl h)
          · exact Or.inr (Or.inr h)
          · exact Or.inl h
      · rename_i h1 h2
        have e := text_eq_of_not_lt h1 h2
        subst e
        simp only [List.mem_cons]; constructor
        · exact fun h => Or.inl h
        · rintro (h | h)
          · exact h
          · exact Or.inl h

theorem insertWatch_sorted {w : Text} : ∀ {l : List Text}, l.Pairwise (· < ·) → (insertWatch w l).Pairwise (· < ·)
  | [], _ => by simp [insertWatch]
  | y :: ys, h => by
    rw [List.pairwise_cons] at h
    simp only [insertWatch]
    split
    · rename_i h1
      rw [List.pairwise_cons]
      refine ⟨?_, insertWatch_sorted h.2⟩
      intro z hz
      rcases insertWatch_mem.1 hz with hz | rfl
      · exact h.1 z hz
      · exact h1
    · split
      · rename_i h2
        rw [List.pairwise_cons]
        refine ⟨?_, List.pairwise_cons.2 h⟩
        intro z hz
        rcases List.mem_cons.1 hz with rfl | hz
        · exact h2
        · exact text_lt_trans h2 (h.1 z hz)
      · exact List.pairwise_cons.2 h

theorem verb_words {w : Text} {v : Verb} (h : verbOf w = some v) : w ∈ (verbs.filter (·.2 = v)).map (·.1.toList) := by
  have := verbOf_mem h
  rw [List.mem_map]
  exact ⟨(String.ofList w, v), List.mem_filter.2 ⟨this, by simp⟩, String.toList_ofList⟩

theorem sorted_erase {l : List Text} (h : l.Pairwise (· < ·)) {n x : Text} : x ∈ l.erase n ↔ x ∈ l ∧ x ≠ n := by
  have hn : l.Nodup := by
    refine List.Pairwise.imp (R := (· < ·)) ?_ h
    intro a b hab e
    subst e
    exact text_lt_irrefl a hab
  rw [hn.mem_erase_iff]
  exact And.comm

theorem setCurrentFrame_watches (p : Program) (c : Client) (id : Nat) : (setCurrentFrame p c id).1.watches = c.watches := by
  simp only [setCurrentFrame]
  split <;> rfl

theorem frameDown_watches (p : Program) (c : Client) : (frameDown p c).1.watches = c.watches := by
  simp only [frameDown]
  split
  · rfl
  · exact setCurrentFrame_watches p _ _

theorem frameUp_watches (p : Program) (c : Client) : (frameUp p c).1.watches = c.watches := by
  simp only [frameUp]
  split
  · rfl
  · exact setCurrentFrame_watches p _ _

/-- A word that neither adds nor removes a watch. -/
theorem watchStep_other {S : Text → Prop} {w : Text} {args : List Text} (h1 : verbOf w ≠ some .watch)
    (h2 : verbOf w ≠ some .unwatch) : watchStep S (w :: args) = S := by
  unfold watchStep
  split
  · rename_i heq
    simp only [List.cons.injEq] at heq
    obtain ⟨rfl, _⟩ := heq
    funext x
    rw [if_neg, if_neg]
    · rintro rfl; exact h2 (by decide)
    · rintro (rfl | rfl)
      · exact h1 (by decide)
      · exact h1 (by decide)
  · rfl

/-- A command changes the watches exactly as it should, and they stay sorted. -/
theorem exec_watches {fullname : Text → String} {p : Program} {c : Client} {tokens : List Text} {r : Result}
    (h : exec fullname p c tokens = some r) (hs : c.watches.Pairwise (· < ·)) :
    r.client.watches.Pairwise (· < ·) ∧ ∀ x, x ∈ r.client.watches ↔ watchStep (· ∈ c.watches) tokens x := by
  have h1 := frameDown_watches p c
  have h2 := frameUp_watches p c
  have h3 := setCurrentFrame_watches p c
  cases tokens with
  | nil => simp only [exec, Option.some.injEq] at h; subst h; exact ⟨hs, fun x => Iff.rfl⟩
  | cons word args =>
    by_cases hw : verbOf word = some .watch
    · simp only [exec, hw] at h
      split at h
      · rename_i n
        simp only [Option.some.injEq] at h; subst h
        refine ⟨insertWatch_sorted hs, fun x => ?_⟩
        have := verb_words hw
        have hword : word = "watch".toList ∨ word = "w".toList := by simpa [verbs] using this
        simp only [watchStep, if_pos hword]
        exact insertWatch_mem
      · rename_i hne
        simp only [Option.some.injEq] at h; subst h
        refine ⟨hs, fun x => ?_⟩
        cases args with
        | nil => exact Iff.rfl
        | cons a as =>
          cases as with
          | nil => exact absurd rfl (hne a)
          | cons b bs => exact Iff.rfl
    · by_cases hu : verbOf word = some .unwatch
      · simp only [exec, hu] at h
        split at h
        · rename_i n
          simp only [Option.some.injEq] at h; subst h
          refine ⟨hs.sublist List.erase_sublist, fun x => ?_⟩
          have := verb_words hu
          have hword : word = "unwatch".toList := by simpa [verbs] using this
          have hnot : ¬ (word = "watch".toList ∨ word = "w".toList) := by rw [hword]; decide
          simp only [watchStep, if_neg hnot, if_pos hword]
          exact sorted_erase hs
        · rename_i hne
          simp only [Option.some.injEq] at h; subst h
          refine ⟨hs, fun x => ?_⟩
          cases args with
          | nil => exact Iff.rfl
          | cons a as =>
            cases as with
            | nil => exact absurd rfl (hne a)
            | cons b bs => exact Iff.rfl
      · rw [watchStep_other hw hu]
        suffices e : r.client.watches = c.watches by rw [e]; exact ⟨hs, fun x => Iff.rfl⟩
        simp only [exec] at h
        split at h
        all_goals first
          | (rename_i hv; exact absurd hv hw)
          | (rename_i hv; exact absurd hv hu)
          | skip
        all_goals repeat' split at h
        all_goals first
          | (simp only [Option.some.injEq] at h; subst h; first | rfl | exact h1 | exact h2 | exact h3 _)
          | (simp only [Option.map_eq_some_iff] at h; obtain ⟨_, _, h⟩ := h; subst h; rfl)
          | cases h

/-- The watches after all the commands of a stop: the names watched and not unwatched since, each once, in alphabetical order. -/
theorem watches_set {fullname : Text → String} : ∀ {lines : List Text} {p : Program} {c : Client} {r : Result},
    enter fullname p c lines = some r → c.watches.Pairwise (· < ·) →
    r.client.watches.Pairwise (· < ·) ∧
      ∀ x, x ∈ r.client.watches ↔ (lines.map parseCommands).foldl watchStep (· ∈ c.watches) x
  | [], p, c, r, h, hs => by
    simp only [enter, Option.some.injEq] at h; subst h
    exact ⟨hs, fun x => Iff.rfl⟩
  | line :: lines, p, c, r, h, hs => by
    simp only [enter] at h
    split at h
    · split at h
      · rename_i r1 he
        split at h
        · rename_i r2 h2
          simp only [Option.some.injEq] at h; subst h
          obtain ⟨a1, a2⟩ := exec_watches he hs
          obtain ⟨b1, b2⟩ := watches_set h2 a1
          refine ⟨b1, fun x => ?_⟩
          have e : (fun x => x ∈ r1.client.watches) = watchStep (· ∈ c.watches) (parseCommands line) := by
            funext x; exact propext (a2 x)
          rw [List.map_cons, List.foldl_cons, ← e]
          exact b2 x
        · cases h
      · cases h
    · cases h

/-- `watches` shows every watch with what its name leads to in the scope that is looked at. -/
theorem watches_shown {fullname : Text → String} {p : Program} {c : Client} {s : Nat} (hs : c.scope = some s) :
    ∃ r, exec fullname p c ["watches".toList] = some r ∧ r.client = c ∧ r.program = p ∧ r.out.length = c.watches.length ∧
      ∀ (i : Nat) (n : Text), c.watches[i]? = some n → ∀ ns : List Text, ns ≠ [] → (∀ m ∈ ns, m ≠ [] ∧ '.' ∉ m) → n = dotted ns →
        r.out[i]? = some (.watch n (shown p (follow p s ns))) := by
  refine ⟨⟨p, c, refreshWatches p c⟩, rfl, rfl, rfl, by simp [refreshWatches], ?_⟩
  intro i n hi ns h0 hn e
  have hg : getSymbol p c.scope n = follow p s ns := by
    rw [hs, e]
    exact symbolFrom_follow p ns _ s h0 hn (dotted_length ns)
  simp only [refreshWatches, List.getElem?_map, hi, Option.map_some, hg]

/-! ### C155: the program stays stopped until told -/

/-- What the program is told by a word: to go on to the next breakpoint, to the next line in a called method, to the next line
of this one, out of it, or to the end. -/
def told : List (Text × Action) :=
  [("continue".toList, .waitForBreakPoint), ("c".toList, .waitForBreakPoint), ("run".toList, .waitForBreakPoint),
   ("r".toList, .waitForBreakPoint), ("into".toList, .stepInto), ("i".toList, .stepInto), ("next".toList, .stepOver),
   ("n".toList, .stepOver), ("out".toList, .stepOut), ("o".toList, .stepOut), ("ignore".toList, .none)]

theorem setCurrentFrame_state (p : Program) (c : Client) (id : Nat) : (setCurrentFrame p c id).1.cont = c.cont ∧
    (setCurrentFrame p c id).1.running = c.running ∧ (setCurrentFrame p c id).1.debugger = c.debugger := by
  simp only [setCurrentFrame]
  split <;> exact ⟨rfl, rfl, rfl⟩

theorem frameDown_state (p : Program) (c : Client) : (frameDown p c).1.cont = c.cont ∧ (frameDown p c).1.running = c.running ∧
    (frameDown p c).1.debugger = c.debugger := by
  simp only [frameDown]
  split
  · exact ⟨rfl, rfl, rfl⟩
  · exact setCurrentFrame_state p _ _

theorem frameUp_state (p : Program) (c : Client) : (frameUp p c).1.cont = c.cont ∧ (frameUp p c).1.running = c.running ∧
    (frameUp p c).1.debugger = c.debugger := by
  simp only [frameUp]
  split
  · exact ⟨rfl, rfl, rfl⟩
  · exact setCurrentFrame_state p _ _

theorem told_goes {fullname : Text → String} {p : Program} {c : Client} {s : Nat} (hs : c.scope = some s) {w : Text} {a : Action}
    (hw : (w, a) ∈ told) (args : List Text) :
    exec fullname p c (w :: args) = some ⟨p, { c with debugger := { c.debugger with action := a }, cont := true }, []⟩ := by
  have hrun : ∀ (v : Verb), verbOf w = some v → v = .run → exec fullname p c (w :: args) = some (resume p c .waitForBreakPoint) := by
    intro v hv e
    subst e
    simp only [exec, hv, hs, Option.isSome_some, if_true]
  simp only [told, List.mem_cons, Prod.mk.injEq, List.not_mem_nil, or_false] at hw
  rcases hw with ⟨rfl, rfl⟩ | ⟨rfl, rfl⟩ | ⟨rfl, rfl⟩ | ⟨rfl, rfl⟩ | ⟨rfl, rfl⟩ | ⟨rfl, rfl⟩ | ⟨rfl, rfl⟩ | ⟨rfl, rfl⟩ |
    ⟨rfl, rfl⟩ | ⟨rfl, rfl⟩ | ⟨rfl, rfl⟩
  · rfl
  · rfl
  · exact hrun .run (by decide) rfl
  · exact hrun .run (by decide) rfl
  all_goals rfl

theorem not_told_stays_partial {fullname : Text → String} {p : Program} {c : Client} {tokens : List Text} {r : Result}
    (h : exec fullname p c tokens = some r) (hw : ∀ w a, tokens.head? = some w → (w, a) ∉ told) :
    r.client.cont = c.cont ∧
      (r.client.running = if tokens.head? = some "quit".toList ∨ tokens.head? = some "q".toList then false else c.running) := by
  obtain ⟨d1, d2, _⟩ := frameDown_state p c
  obtain ⟨u1, u2, _⟩ := frameUp_state p c
  have s1 := fun id => (setCurrentFrame_state p c id).1
  have s2 := fun id => (setCurrentFrame_state p c id).2.1
  cases tokens with
  | nil => simp only [exec, Option.some.injEq] at h; subst h; exact ⟨rfl, by simp⟩
  | cons word args =>
    have hq : verbOf word = some .quit ↔ word = "quit".toList ∨ word = "q".toList := by
      constructor
      · intro hv; have := verb_words hv; simpa [verbs] using this
      · rintro (rfl | rfl) <;> decide
    have hno : verbOf word ≠ some .cont ∧ verbOf word ≠ some .ignore ∧ verbOf word ≠ some .into ∧ verbOf word ≠ some .next ∧
        verbOf word ≠ some .out ∧ verbOf word ≠ some .run := by
      have hw' := fun a => hw word a rfl
      refine ⟨?_, ?_, ?_, ?_, ?_, ?_⟩ <;> intro hv <;> have hm := verb_words hv
      · have : word = "continue".toList ∨ word = "c".toList := by simpa [verbs] using hm
        rcases this with e | e <;> exact hw' .waitForBreakPoint (by rw [e]; decide)
      · have : word = "ignore".toList := by simpa [verbs] using hm
        exact hw' .none (by rw [this]; decide)
      · have : word = "into".toList ∨ word = "i".toList := by simpa [verbs] using hm
        rcases this with e | e <;> exact hw' .stepInto (by rw [e]; decide)
      · have : word = "next".toList ∨ word = "n".toList := by simpa [verbs] using hm
        rcases this with e | e <;> exact hw' .stepOver (by rw [e]; decide)
      · have : word = "out".toList ∨ word = "o".toList := by simpa [verbs] using hm
        rcases this with e | e <;> exact hw' .stepOut (by rw [e]; decide)
      · have : word = "run".toList ∨ word = "r".toList := by simpa [verbs] using hm
        rcases this with e | e <;> exact hw' .waitForBreakPoint (by rw [e]; decide)
    obtain ⟨n1, n2, n3, n4, n5, n6⟩ := hno
    simp only [List.head?_cons, Option.some.injEq]
    by_cases hv : verbOf word = some .quit
    · rw [if_pos (hq.1 hv)]
      simp only [exec, hv, Option.some.injEq] at h; subst h
      exact ⟨rfl, rfl⟩
    · rw [if_neg (fun e => hv (hq.2 e))]
      simp only [exec] at h
      split at h
      all_goals first
        | (rename_i hx; exact absurd hx hv)
        | (rename_i hx; exact absurd hx n1)
        | (rename_i hx; exact absurd hx n2)
        | (rename_i hx; exact absurd hx n3)
        | (rename_i hx; exact absurd hx n4)
        | (rename_i hx; exact absurd hx n5)
        | (rename_i hx; exact absurd hx n6)
        | skip
      all_goals repeat' split at h
      all_goals first
        | (simp only [Option.some.injEq] at h; subst h;
           first | exact ⟨rfl, rfl⟩ | exact ⟨d1, d2⟩ | exact ⟨u1, u2⟩ | exact ⟨s1 _, s2 _⟩)
        | (simp only [Option.map_eq_some_iff] at h; obtain ⟨_, _, h⟩ := h; subst h; exact ⟨rfl, rfl⟩)
        | cases h

/-- C155 (partial): the program goes on after a command exactly when it is told to.  Missing: the commands `execute`, `thread` and `load`, for
which `exec` is not defined. -/
theorem goes_on_iff_partial {fullname : Text → String} {p : Program} {c : Client} {s : Nat} (hs : c.scope = some s) (hc : c.cont = false)
    {tokens : List Text} {r : Result} (h : exec fullname p c tokens = some r) :
    (r.client.cont = true ↔ ∃ w a, tokens.head? = some w ∧ (w, a) ∈ told) ∧
    (∀ w a, tokens.head? = some w → (w, a) ∈ told → r.client.debugger.action = a) := by
  by_cases ht : ∃ w a, tokens.head? = some w ∧ (w, a) ∈ told
  · obtain ⟨w, a, hw, ha⟩ := ht
    cases tokens with
    | nil => simp at hw
    | cons x args =>
      simp only [List.head?_cons, Option.some.injEq] at hw
      subst hw
      refine ⟨?_, ?_⟩
      · rw [told_goes hs ha args] at h
        simp only [Option.some.injEq] at h; subst h
        exact ⟨fun _ => ⟨x, a, rfl, ha⟩, fun _ => rfl⟩
      · intro w' a' hw' ha'
        simp only [List.head?_cons, Option.some.injEq] at hw'
        subst hw'
        rw [told_goes hs ha' args] at h
        simp only [Option.some.injEq] at h; subst h
        rfl
  · have hn : ∀ w a, tokens.head? = some w → (w, a) ∉ told := fun w a hw ha => ht ⟨w, a, hw, ha⟩
    refine ⟨⟨fun hr => ?_, fun hx => absurd hx ht⟩, fun w a hw ha => absurd ha (hn w a hw)⟩
    rw [(not_told_stays_partial h hn).1, hc] at hr
    cases hr

/-! ### Concrete cases -/

namespace Sample

/-- Three frames with the scopes 10, 11 and 12; in scope 12 the name `p` is an object (1) with the member `x` (2), and `n` is a
number (3); in scope 11 the name `n` is another number (4). -/
def program : Program where
  frames := [10, 11, 12]
  resolve := fun s n =>
    if s = 12 ∧ n = "p".toList then some (.object 1)
    else if s = 101 ∧ n = "x".toList then some (.object 2)
    else if s = 12 ∧ n = "n".toList then some (.object 3)
    else if s = 11 ∧ n = "n".toList then some (.object 4)
    else if s = 12 ∧ n = "f".toList then some .other
    else none
  inside := fun id => 100 + id
  value := fun id => .int (10 * id)
  atomic := fun id => id != 1

def name (t : Text) : String := String.ofList t
def literal : Text → Option Value := fun t => if t = "7".toList then some (.int 7) else if t = "8".toList then some (.int 8) else none
def compare (op : Op) (a b : Value) : Bool :=
  match op, a, b with
  | .equals, .int i, .int j => i == j
  | .unequal, .int i, .int j => i != j
  | _, _, _ => false

def client : Client := { debugger := {} }
def stopped : Client := { client with scope := some 12, frame := 2 }

/-- After a stop at which the program was told to go on, the client runs with a literal condition and one on a variable. -/
example : ∃ r, event name literal compare program client ["watch n".toList, "frame 1".toList, "c".toList] (.other 12) = some r ∧
    r.client.running = true ∧ r.client.frame = 1 ∧ r.client.watches = ["n".toList] ∧ Runs name literal compare r.client := by
  have h : (event name literal compare program client ["watch n".toList, "frame 1".toList, "c".toList] (.other 12)).isSome = true := by
    decide +kernel
  obtain ⟨r, hr⟩ := Option.isSome_iff_exists.1 h
  have h2 : (event name literal compare program client ["watch n".toList, "frame 1".toList, "c".toList] (.other 12)).map
      (fun r => (r.client.running, r.client.frame, r.client.watches)) = some (true, 1, ["n".toList]) := by decide +kernel
  rw [hr] at h2
  simp only [Option.map_some, Option.some.injEq, Prod.mk.injEq] at h2
  exact ⟨r, hr, h2.1, h2.2.1, h2.2.2, .event .start hr h2.1⟩

/-- `break t.os:5 if n == 7` stops although `n` is 30, `7 == 8` does not stop. -/
example : (asks literal compare program client ⟨"t.os", 5, some ⟨"n".toList, .equals, "7".toList⟩⟩).map (·.2) = some true ∧
    (asks literal compare program client ⟨"t.os", 5, some ⟨"7".toList, .equals, "8".toList⟩⟩).map (·.2) = some false ∧
    program.resolve 12 "n".toList = some (.object 3) ∧ program.value 3 = .int 30 ∧ literal "n".toList = none := by decide +kernel

example : Looking program stopped 2 ∧ Looking program { stopped with frame := 1, scope := some 11 } 1 := by
  refine ⟨⟨rfl, by decide, rfl⟩, ⟨rfl, by decide, rfl⟩⟩

/-- Up shows the variable of the caller. -/
example : (enter name program stopped ["print n".toList, "up".toList, "print n".toList]).map (·.out) =
    some [.print (.value (.int 30)), .print (.value (.int 40))] := by decide +kernel

/-- `down`, then `up`: still in the innermost frame. -/
example : (enter name program stopped ["down".toList, "up".toList, "print n".toList]).map (·.out) =
    some [.print (.value (.int 30))] := by decide +kernel

example : follow program 12 ["p".toList, "x".toList] = some (.object 2) ∧ dotted ["p".toList, "x".toList] = "p.x".toList ∧
    program.atomic 2 = true := by decide +kernel

example : (enter name program stopped ["modify p.x hello".toList, "p p.x".toList, "p n".toList]).map (·.out) =
    some [.print (.value (.text "hello".toList)), .print (.value (.int 30))] := by decide +kernel

example : (enter name program stopped ["w p.x".toList, "w n".toList, "w n".toList, "w z".toList, "unwatch z".toList]).map
    (·.client.watches) = some ["n".toList, "p.x".toList] := by decide +kernel

example : (exec name program stopped (parseCommands "next".toList)).map (fun r => (r.client.cont, r.client.debugger.action)) =
    some (true, .stepOver) ∧
    (exec name program stopped (parseCommands "nxt".toList)).map (·.client.cont) = some false := by decide +kernel

end Sample

end Debug
end Verif
