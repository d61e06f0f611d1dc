import Verif.Trees.Model

/-!
# C143: behaviour trees
-/

namespace Verif.Trees

variable {W : Type} {act : Nat → W → Status × W}

/-! ## Specification -/

/-- The node is not finished. -/
def Waits (s : Status) : Prop := s = .running ∨ s = .waiting

/-- The status for the result of a node that is finished. -/
def done (b : Bool) : Status := if b then .success else .failure

variable (act) in
/-- A node is ticked until it is finished: with result `b`, node and world `n'` and `w'` at the end.  After every tick that leaves it
unfinished the world changes, in any way: `es` are these changes. -/
inductive Episode : Node → W → List (W → W) → Bool → Node → W → Prop where
  | ends {n w b n' w'} : tick act n w = (done b, n', w') → Episode n w [] b n' w'
  | waits {n w s n₁ w₁ e es b n' w'} : tick act n w = (s, n₁, w₁) → Waits s → Episode n₁ (e w₁) es b n' w' → Episode n w (e :: es) b n' w'

variable (act) in
/-- The nodes are executed one after the other, each until it is finished, as long as they succeed. -/
inductive All : List Node → W → List (W → W) → Bool → List Node → W → Prop where
  | nil {w} : All [] w [] true [] w
  | next {c cs w es fs b c' cs' w₁ w'} : Episode act c w es true c' w₁ → All cs w₁ fs b cs' w' → All (c :: cs) w (es ++ fs) b (c' :: cs') w'
  | stop {c cs w es c' w'} : Episode act c w es false c' w' → All (c :: cs) w es false (c' :: cs) w'

variable (act) in
/-- The nodes are executed one after the other, each until it is finished, as long as they fail. -/
inductive Any : List Node → W → List (W → W) → Bool → List Node → W → Prop where
  | nil {w} : Any [] w [] false [] w
  | next {c cs w es fs b c' cs' w₁ w'} : Episode act c w es false c' w₁ → Any cs w₁ fs b cs' w' → Any (c :: cs) w (es ++ fs) b (c' :: cs') w'
  | stop {c cs w es c' w'} : Episode act c w es true c' w' → Any (c :: cs) w es true (c' :: cs) w'

variable (act) in
mutual
/-- A tree as a formula: sequences are "and", fallbacks are "or", inverters are "not"; what decides the value ends the evaluation. -/
def value : Node → W → Bool × W
  | .leaf i, w => (decide ((act i w).1 = .success), (act i w).2)
  | .sequence _ cs, w => allValue cs w
  | .reactiveSequence cs, w => allValue cs w
  | .sequenceStar _ cs, w => allValue cs w
  | .fallback _ cs, w => anyValue cs w
  | .reactiveFallback cs, w => anyValue cs w
  | .inverter c, w => (!(value c w).1, (value c w).2)
  | .forceFailure _ c, w => (false, (value c w).2)
  | .forceSuccess _ c, w => (true, (value c w).2)

def allValue : List Node → W → Bool × W
  | [], w => (true, w)
  | c :: cs, w => if (value c w).1 then allValue cs (value c w).2 else (false, (value c w).2)

def anyValue : List Node → W → Bool × W
  | [], w => (false, w)
  | c :: cs, w => if (value c w).1 then (true, (value c w).2) else anyValue cs (value c w).2
end

mutual
/-- No node is in the middle of its work, and there are no decorators that force a result. -/
def Fresh : Node → Prop
  | .leaf _ => True
  | .sequence i cs => i = 0 ∧ FreshAll cs
  | .reactiveSequence cs => FreshAll cs
  | .sequenceStar i cs => i = 0 ∧ FreshAll cs
  | .fallback i cs => i = 0 ∧ FreshAll cs
  | .reactiveFallback cs => FreshAll cs
  | .inverter c => Fresh c
  | .forceFailure _ _ => False
  | .forceSuccess _ _ => False

def FreshAll : List Node → Prop
  | [] => True
  | c :: cs => Fresh c ∧ FreshAll cs
end

/-! ## Lemmas -/

theorem done_not_waits (b : Bool) : ¬ Waits (done b) := by cases b <;> simp [done, Waits]

theorem status_cases (s : Status) : s = done true ∨ s = done false ∨ Waits s := by cases s <;> simp [done, Waits]

theorem Episode.of_tick {n m : Node} {w v : W} (h : tick act n w = tick act m v) {es : List (W → W)} {b : Bool} {n' : Node} {w' : W}
    (e : Episode act n w es b n' w') : Episode act m v es b n' w' := by
  cases e with
  | ends ht => exact .ends (h ▸ ht)
  | waits ht hs he => exact .waits (h ▸ ht) hs he

/-- The children before the index are passed over. -/
theorem sequenceLoop_skip (pre cs : List Node) (i p : Nat) (h : i = p + pre.length) (w : W) :
    sequenceLoop act i p (pre ++ cs) w =
      ⟨(sequenceLoop act i i cs w).status, (sequenceLoop act i i cs w).index, pre ++ (sequenceLoop act i i cs w).childs,
        (sequenceLoop act i i cs w).world⟩ := by
  induction pre generalizing p with
  | nil => simp only [List.length_nil, Nat.add_zero] at h; subst h; rfl
  | cons c pre ih =>
    simp only [List.length_cons] at h
    rw [List.cons_append, sequenceLoop, if_pos (by omega), ih (p + 1) (by omega)]
    rfl

theorem sequence_tick (pre cs : List Node) (w : W) : tick act (.sequence pre.length (pre ++ cs)) w =
    ((sequenceLoop act pre.length pre.length cs w).status, .sequence (sequenceLoop act pre.length pre.length cs w).index
      (pre ++ (sequenceLoop act pre.length pre.length cs w).childs), (sequenceLoop act pre.length pre.length cs w).world) := by
  rw [tick, sequenceLoop_skip pre cs pre.length 0 (by omega)]

theorem sequence_end (pre : List Node) (w : W) : tick act (.sequence pre.length (pre ++ [])) w = (done true, .sequence 0 pre, w) := by
  rw [sequence_tick, sequenceLoop]; simp [done]

theorem sequence_success {c c' : Node} {w w₁ : W} (h : tick act c w = (done true, c', w₁)) (pre cs : List Node) :
    tick act (.sequence pre.length (pre ++ c :: cs)) w = tick act (.sequence (pre ++ [c']).length ((pre ++ [c']) ++ cs)) w₁ := by
  rw [sequence_tick, sequence_tick, sequenceLoop, if_neg (by omega), h]
  simp only [done, if_true, Loop.cons, List.length_append, List.length_cons, List.length_nil, Nat.zero_add]
  simp

theorem sequence_failure {c c' : Node} {w w₁ : W} (h : tick act c w = (done false, c', w₁)) (pre cs : List Node) :
    tick act (.sequence pre.length (pre ++ c :: cs)) w = (done false, .sequence 0 (pre ++ c' :: cs), w₁) := by
  rw [sequence_tick, sequenceLoop, if_neg (by omega), h]
  simp [done]

theorem sequence_waits {c c' : Node} {s : Status} {w w₁ : W} (h : tick act c w = (s, c', w₁)) (hs : Waits s) (pre cs : List Node) :
    tick act (.sequence pre.length (pre ++ c :: cs)) w = (s, .sequence pre.length (pre ++ c' :: cs), w₁) := by
  rw [sequence_tick, sequenceLoop, if_neg (by omega), h]
  rcases hs with rfl | rfl <;> simp

theorem All.to_episode {cs cs' : List Node} {w w' : W} {es : List (W → W)} {b : Bool} (h : All act cs w es b cs' w') :
    ∀ pre : List Node, Episode act (.sequence pre.length (pre ++ cs)) w es b (.sequence 0 (pre ++ cs')) w' := by
  induction h with
  | nil => intro pre; exact .ends (by rw [sequence_end]; simp)
  | @next c cs w es fs b c' cs' w₁ w' he ha ih =>
    intro pre
    generalize hb : true = r at he
    induction he with
    | @ends n w r n' w₁ ht =>
      subst hb
      have := ih (pre ++ [n'])
      simp only [List.append_assoc, List.cons_append, List.nil_append] at this
      exact this.of_tick (by rw [sequence_success ht]; simp)
    | waits ht hs _ ih' =>
      exact .waits (sequence_waits ht hs pre cs) hs (ih' ha ih hb)
  | @stop c cs w es c' w' he =>
    intro pre
    generalize hb : false = r at he
    induction he with
    | ends ht => subst hb; exact .ends (sequence_failure ht pre cs)
    | waits ht hs _ ih' => exact .waits (sequence_waits ht hs pre cs) hs (ih' hb)

theorem All.cons_waits {c c₁ : Node} {cs cs' : List Node} {s : Status} {w w₁ w' : W} {e : W → W} {es : List (W → W)} {b : Bool}
    (ht : tick act c w = (s, c₁, w₁)) (hs : Waits s) (h : All act (c₁ :: cs) (e w₁) es b cs' w') : All act (c :: cs) w (e :: es) b cs' w' := by
  cases h with
  | next he ha => exact .next (.waits ht hs he) ha
  | stop he => exact .stop (.waits ht hs he)

theorem All.of_episode : ∀ (es : List (W → W)) (cs pre : List Node) {w w' : W} {b : Bool} {n' : Node},
    Episode act (.sequence pre.length (pre ++ cs)) w es b n' w' → ∃ cs', n' = .sequence 0 (pre ++ cs') ∧ All act cs w es b cs' w'
  | es, [], pre, w, w', b, n', h => by
    cases h with
    | ends ht =>
      rw [sequence_end] at ht
      simp only [Prod.mk.injEq] at ht
      obtain ⟨h1, rfl, rfl⟩ := ht
      have : b = true := by cases b with | true => rfl | false => simp [done] at h1
      subst this
      exact ⟨[], by simp, .nil⟩
    | waits ht hs =>
      rw [sequence_end] at ht
      simp only [Prod.mk.injEq] at ht
      exact absurd (ht.1 ▸ hs) (done_not_waits true)
  | es, c :: cs, pre, w, w', b, n', h => by
    rcases hc : tick act c w with ⟨s, c', w₁⟩
    rcases status_cases s with rfl | rfl | hw
    · have h2 := h.of_tick (sequence_success hc pre cs)
      obtain ⟨cs', rfl, ha⟩ := All.of_episode es cs (pre ++ [c']) h2
      exact ⟨c' :: cs', by simp, .next (es := []) (.ends hc) ha⟩
    · have hf := sequence_failure hc pre cs
      cases h with
      | ends ht =>
        rw [hf] at ht
        simp only [Prod.mk.injEq] at ht
        obtain ⟨h1, rfl, rfl⟩ := ht
        have : b = false := by cases b with | false => rfl | true => simp [done] at h1
        subst this
        exact ⟨c' :: cs, rfl, .stop (.ends hc)⟩
      | waits ht hs =>
        rw [hf] at ht
        simp only [Prod.mk.injEq] at ht
        exact absurd (ht.1 ▸ hs) (done_not_waits false)
    · have hf := sequence_waits hc hw pre cs
      cases h with
      | ends ht =>
        rw [hf] at ht
        simp only [Prod.mk.injEq] at ht
        exact absurd (ht.1 ▸ hw) (done_not_waits _)
      | @waits _ _ _ _ _ e es _ _ _ ht hs he =>
        rw [hf] at ht
        simp only [Prod.mk.injEq] at ht
        obtain ⟨rfl, rfl, rfl⟩ := ht
        obtain ⟨cs', rfl, ha⟩ := All.of_episode es (c' :: cs) pre he
        exact ⟨cs', rfl, .cons_waits hc hw ha⟩
  termination_by es cs => (es.length, cs.length)

/-- The children before the index are passed over. -/
theorem fallbackLoop_skip (pre cs : List Node) (i p : Nat) (h : i = p + pre.length) (w : W) :
    fallbackLoop act i p (pre ++ cs) w =
      ⟨(fallbackLoop act i i cs w).status, (fallbackLoop act i i cs w).index, pre ++ (fallbackLoop act i i cs w).childs,
        (fallbackLoop act i i cs w).world⟩ := by
  induction pre generalizing p with
  | nil => simp only [List.length_nil, Nat.add_zero] at h; subst h; rfl
  | cons c pre ih =>
    simp only [List.length_cons] at h
    rw [List.cons_append, fallbackLoop, if_pos (by omega), ih (p + 1) (by omega)]
    rfl

theorem fallback_tick (pre cs : List Node) (w : W) : tick act (.fallback pre.length (pre ++ cs)) w =
    ((fallbackLoop act pre.length pre.length cs w).status, .fallback (fallbackLoop act pre.length pre.length cs w).index
      (pre ++ (fallbackLoop act pre.length pre.length cs w).childs), (fallbackLoop act pre.length pre.length cs w).world) := by
  rw [tick, fallbackLoop_skip pre cs pre.length 0 (by omega)]

theorem fallback_end (pre : List Node) (w : W) : tick act (.fallback pre.length (pre ++ [])) w = (done false, .fallback 0 pre, w) := by
  rw [fallback_tick, fallbackLoop]; simp [done]

theorem fallback_failure {c c' : Node} {w w₁ : W} (h : tick act c w = (done false, c', w₁)) (pre cs : List Node) :
    tick act (.fallback pre.length (pre ++ c :: cs)) w = tick act (.fallback (pre ++ [c']).length ((pre ++ [c']) ++ cs)) w₁ := by
  rw [fallback_tick, fallback_tick, fallbackLoop, if_neg (by omega), h]
  simp only [done, Bool.false_eq_true, if_false, Loop.cons, List.length_append, List.length_cons, List.length_nil, Nat.zero_add]
  simp

theorem fallback_success {c c' : Node} {w w₁ : W} (h : tick act c w = (done true, c', w₁)) (pre cs : List Node) :
    tick act (.fallback pre.length (pre ++ c :: cs)) w = (done true, .fallback 0 (pre ++ c' :: cs), w₁) := by
  rw [fallback_tick, fallbackLoop, if_neg (by omega), h]
  simp [done]

theorem fallback_waits {c c' : Node} {s : Status} {w w₁ : W} (h : tick act c w = (s, c', w₁)) (hs : Waits s) (pre cs : List Node) :
    tick act (.fallback pre.length (pre ++ c :: cs)) w = (s, .fallback pre.length (pre ++ c' :: cs), w₁) := by
  rw [fallback_tick, fallbackLoop, if_neg (by omega), h]
  rcases hs with rfl | rfl <;> simp

theorem Any.to_episode {cs cs' : List Node} {w w' : W} {es : List (W → W)} {b : Bool} (h : Any act cs w es b cs' w') :
    ∀ pre : List Node, Episode act (.fallback pre.length (pre ++ cs)) w es b (.fallback 0 (pre ++ cs')) w' := by
  induction h with
  | nil => intro pre; exact .ends (by rw [fallback_end]; simp)
  | @next c cs w es fs b c' cs' w₁ w' he ha ih =>
    intro pre
    generalize hb : false = r at he
    induction he with
    | @ends n w r n' w₁ ht =>
      subst hb
      have := ih (pre ++ [n'])
      simp only [List.append_assoc, List.cons_append, List.nil_append] at this
      exact this.of_tick (by rw [fallback_failure ht]; simp)
    | waits ht hs _ ih' =>
      exact .waits (fallback_waits ht hs pre cs) hs (ih' ha ih hb)
  | @stop c cs w es c' w' he =>
    intro pre
    generalize hb : true = r at he
    induction he with
    | ends ht => subst hb; exact .ends (fallback_success ht pre cs)
    | waits ht hs _ ih' => exact .waits (fallback_waits ht hs pre cs) hs (ih' hb)

theorem Any.cons_waits {c c₁ : Node} {cs cs' : List Node} {s : Status} {w w₁ w' : W} {e : W → W} {es : List (W → W)} {b : Bool}
    (ht : tick act c w = (s, c₁, w₁)) (hs : Waits s) (h : Any act (c₁ :: cs) (e w₁) es b cs' w') : Any act (c :: cs) w (e :: es) b cs' w' := by
  cases h with
  | next he ha => exact .next (.waits ht hs he) ha
  | stop he => exact .stop (.waits ht hs he)

theorem Any.of_episode : ∀ (es : List (W → W)) (cs pre : List Node) {w w' : W} {b : Bool} {n' : Node},
    Episode act (.fallback pre.length (pre ++ cs)) w es b n' w' → ∃ cs', n' = .fallback 0 (pre ++ cs') ∧ Any act cs w es b cs' w'
  | es, [], pre, w, w', b, n', h => by
    cases h with
    | ends ht =>
      rw [fallback_end] at ht
      simp only [Prod.mk.injEq] at ht
      obtain ⟨h1, rfl, rfl⟩ := ht
      have : b = false := by cases b with | false => rfl | true => simp [done] at h1
      subst this
      exact ⟨[], by simp, .nil⟩
    | waits ht hs =>
      rw [fallback_end] at ht
      simp only [Prod.mk.injEq] at ht
      exact absurd (ht.1 ▸ hs) (done_not_waits false)
  | es, c :: cs, pre, w, w', b, n', h => by
    rcases hc : tick act c w with ⟨s, c', w₁⟩
    rcases status_cases s with rfl | rfl | hw
    · have hf := fallback_success hc pre cs
      cases h with
      | ends ht =>
        rw [hf] at ht
        simp only [Prod.mk.injEq] at ht
        obtain ⟨h1, rfl, rfl⟩ := ht
        have : b = true := by cases b with | true => rfl | false => simp [done] at h1
        subst this
        exact ⟨c' :: cs, rfl, .stop (.ends hc)⟩
      | waits ht hs =>
        rw [hf] at ht
        simp only [Prod.mk.injEq] at ht
        exact absurd (ht.1 ▸ hs) (done_not_waits true)
    · have h2 := h.of_tick (fallback_failure hc pre cs)
      obtain ⟨cs', rfl, ha⟩ := Any.of_episode es cs (pre ++ [c']) h2
      exact ⟨c' :: cs', by simp, .next (es := []) (.ends hc) ha⟩
    · have hf := fallback_waits hc hw pre cs
      cases h with
      | ends ht =>
        rw [hf] at ht
        simp only [Prod.mk.injEq] at ht
        exact absurd (ht.1 ▸ hw) (done_not_waits _)
      | @waits _ _ _ _ _ e es _ _ _ ht hs he =>
        rw [hf] at ht
        simp only [Prod.mk.injEq] at ht
        obtain ⟨rfl, rfl, rfl⟩ := ht
        obtain ⟨cs', rfl, ha⟩ := Any.of_episode es (c' :: cs) pre he
        exact ⟨cs', rfl, .cons_waits hc hw ha⟩
  termination_by es cs => (es.length, cs.length)

/-! ## Theorems -/

/-- C143: a sequence, from a tick at its beginning to the tick that finishes it, executes its children in their order, each until it is
finished, up to the first that fails; then it is at its beginning again. -/
theorem sequence_episode (cs : List Node) (w : W) (es : List (W → W)) (b : Bool) (n' : Node) (w' : W) :
    Episode act (.sequence 0 cs) w es b n' w' ↔ ∃ cs', n' = .sequence 0 cs' ∧ All act cs w es b cs' w' :=
  ⟨fun h => All.of_episode es cs [] h, fun ⟨_, e, h⟩ => e ▸ h.to_episode []⟩

/-- C143: a fallback executes its children in their order, each until it is finished, up to the first that succeeds. -/
theorem fallback_episode (cs : List Node) (w : W) (es : List (W → W)) (b : Bool) (n' : Node) (w' : W) :
    Episode act (.fallback 0 cs) w es b n' w' ↔ ∃ cs', n' = .fallback 0 cs' ∧ Any act cs w es b cs' w' :=
  ⟨fun h => Any.of_episode es cs [] h, fun ⟨_, e, h⟩ => e ▸ h.to_episode []⟩

theorem inverter_tick {c c' : Node} {s : Status} {w w' : W} (h : tick act c w = (s, c', w')) :
    tick act (.inverter c) w = (if s = .running ∨ s = .waiting then s else if s = .failure then .success else .failure, .inverter c', w') := by
  rw [tick, h]

/-- C143: an inverter executes its child and turns the result around. -/
theorem inverter_episode (c : Node) (w : W) (es : List (W → W)) (b : Bool) (n' : Node) (w' : W) :
    Episode act (.inverter c) w es b n' w' ↔ ∃ c', n' = .inverter c' ∧ Episode act c w es (!b) c' w' := by
  constructor
  · intro h
    generalize hn : Node.inverter c = n at h
    induction h generalizing c with
    | @ends n w b n' w' ht =>
      subst hn
      rcases hc : tick act c w with ⟨s, c', w₁⟩
      rw [inverter_tick hc] at ht
      simp only [Prod.mk.injEq] at ht
      obtain ⟨h1, rfl, rfl⟩ := ht
      refine ⟨c', rfl, .ends ?_⟩
      rw [hc]
      cases s <;> cases b <;> simp_all [done]
    | @waits n w s n₁ w₁ e es b n' w' ht hs _ ih =>
      subst hn
      rcases hc : tick act c w with ⟨s', c', w₂⟩
      rw [inverter_tick hc] at ht
      simp only [Prod.mk.injEq] at ht
      obtain ⟨h1, rfl, rfl⟩ := ht
      obtain ⟨c'', rfl, he⟩ := ih c' rfl
      refine ⟨c'', rfl, .waits hc ?_ he⟩
      rw [← h1] at hs
      cases s' <;> simp [Waits] at hs ⊢
  · rintro ⟨c', rfl, h⟩
    generalize hb : (!b) = r at h
    induction h with
    | @ends n w r n' w' ht =>
      refine .ends ?_
      rw [inverter_tick ht]
      subst hb
      cases b <;> simp [done]
    | waits ht hs _ ih =>
      refine .waits ?_ hs (ih hb)
      rw [inverter_tick ht]
      rcases hs with rfl | rfl <;> simp

theorem reactiveSequenceLoop_eq (cs : List Node) (i : Nat) (w : W) :
    (reactiveSequenceLoop act cs w).status = (sequenceLoop act i i cs w).status ∧
    (reactiveSequenceLoop act cs w).childs = (sequenceLoop act i i cs w).childs ∧
    (reactiveSequenceLoop act cs w).world = (sequenceLoop act i i cs w).world := by
  induction cs generalizing i w with
  | nil => simp [reactiveSequenceLoop, sequenceLoop]
  | cons c cs ih =>
    rcases hc : tick act c w with ⟨s, c', w₁⟩
    rw [reactiveSequenceLoop, sequenceLoop, if_neg (by omega), hc]
    have := ih (i + 1) w₁
    cases s <;> simp [Loop.cons, this]

theorem reactiveFallbackLoop_eq (cs : List Node) (i : Nat) (w : W) :
    (reactiveFallbackLoop act cs w).status = (fallbackLoop act i i cs w).status ∧
    (reactiveFallbackLoop act cs w).childs = (fallbackLoop act i i cs w).childs ∧
    (reactiveFallbackLoop act cs w).world = (fallbackLoop act i i cs w).world := by
  induction cs generalizing i w with
  | nil => simp [reactiveFallbackLoop, fallbackLoop]
  | cons c cs ih =>
    rcases hc : tick act c w with ⟨s, c', w₁⟩
    rw [reactiveFallbackLoop, fallbackLoop, if_neg (by omega), hc]
    have := ih (i + 1) w₁
    cases s <;> simp [Loop.cons, this]

/-- C143: a reactive sequence or fallback does at every tick what a sequence or fallback with the same children does at its first tick. -/
theorem reactive_starts_over (cs : List Node) (w : W) :
    (∃ s i cs' w', tick act (.sequence 0 cs) w = (s, .sequence i cs', w') ∧
      tick act (.reactiveSequence cs) w = (s, .reactiveSequence cs', w')) ∧
    ∃ s i cs' w', tick act (.fallback 0 cs) w = (s, .fallback i cs', w') ∧
      tick act (.reactiveFallback cs) w = (s, .reactiveFallback cs', w') := by
  refine ⟨⟨(sequenceLoop act 0 0 cs w).status, (sequenceLoop act 0 0 cs w).index, (sequenceLoop act 0 0 cs w).childs,
    (sequenceLoop act 0 0 cs w).world, by rw [tick], ?_⟩, ⟨(fallbackLoop act 0 0 cs w).status, (fallbackLoop act 0 0 cs w).index,
    (fallbackLoop act 0 0 cs w).childs, (fallbackLoop act 0 0 cs w).world, by rw [tick], ?_⟩⟩
  · obtain ⟨h1, h2, h3⟩ := reactiveSequenceLoop_eq (act := act) cs 0 w
    rw [tick, ← h1, ← h2, ← h3]
  · obtain ⟨h1, h2, h3⟩ := reactiveFallbackLoop_eq (act := act) cs 0 w
    rw [tick, ← h1, ← h2, ← h3]

mutual
theorem tick_value (ha : ∀ i w, ¬ Waits (act i w).1) : ∀ (n : Node) (w : W), Fresh n → tick act n w = (done (value act n w).1, n, (value act n w).2)
  | .leaf i, w, _ => by
    have := ha i w
    rw [tick, value]
    cases h : (act i w).1 <;> simp_all [done, Waits]
  | .sequence i cs, w, h => by
    rw [Fresh] at h
    obtain ⟨rfl, h⟩ := h
    rw [tick, value, sequence_value ha cs 0 w h]
  | .reactiveSequence cs, w, h => by
    rw [Fresh] at h
    obtain ⟨h1, h2, h3⟩ := reactiveSequenceLoop_eq (act := act) cs 0 w
    rw [tick, value, h1, h2, h3, sequence_value ha cs 0 w h]
  | .sequenceStar i cs, w, h => by
    rw [Fresh] at h
    obtain ⟨rfl, h⟩ := h
    rw [tick, value, star_value ha cs 0 w h]
  | .fallback i cs, w, h => by
    rw [Fresh] at h
    obtain ⟨rfl, h⟩ := h
    rw [tick, value, fallback_value ha cs 0 w h]
  | .reactiveFallback cs, w, h => by
    rw [Fresh] at h
    obtain ⟨h1, h2, h3⟩ := reactiveFallbackLoop_eq (act := act) cs 0 w
    rw [tick, value, h1, h2, h3, fallback_value ha cs 0 w h]
  | .inverter c, w, h => by
    rw [Fresh] at h
    rw [inverter_tick (tick_value ha c w h), value]
    cases (value act c w).1 <;> simp [done]
  | .forceFailure _ _, _, h => by rw [Fresh] at h; exact h.elim
  | .forceSuccess _ _, _, h => by rw [Fresh] at h; exact h.elim

theorem sequence_value (ha : ∀ i w, ¬ Waits (act i w).1) : ∀ (cs : List Node) (i : Nat) (w : W), FreshAll cs →
    sequenceLoop act i i cs w = ⟨done (allValue act cs w).1, 0, cs, (allValue act cs w).2⟩
  | [], i, w, _ => by rw [sequenceLoop, allValue]; rfl
  | c :: cs, i, w, h => by
    rw [FreshAll] at h
    rw [sequenceLoop, if_neg (by omega), tick_value ha c w h.1, allValue]
    have := sequence_value ha cs (i + 1) (value act c w).2 h.2
    cases hb : (value act c w).1 <;> simp [done, Loop.cons, this]

theorem star_value (ha : ∀ i w, ¬ Waits (act i w).1) : ∀ (cs : List Node) (i : Nat) (w : W), FreshAll cs →
    starLoop act i i cs w = ⟨done (allValue act cs w).1, 0, cs, (allValue act cs w).2⟩
  | [], i, w, _ => by rw [starLoop, allValue]; rfl
  | c :: cs, i, w, h => by
    rw [FreshAll] at h
    rw [starLoop, if_neg (by omega), tick_value ha c w h.1, allValue]
    have := star_value ha cs (i + 1) (value act c w).2 h.2
    cases hb : (value act c w).1 <;> simp [done, Loop.cons, this]

theorem fallback_value (ha : ∀ i w, ¬ Waits (act i w).1) : ∀ (cs : List Node) (i : Nat) (w : W), FreshAll cs →
    fallbackLoop act i i cs w = ⟨done (anyValue act cs w).1, 0, cs, (anyValue act cs w).2⟩
  | [], i, w, _ => by rw [fallbackLoop, anyValue]; rfl
  | c :: cs, i, w, h => by
    rw [FreshAll] at h
    rw [fallbackLoop, if_neg (by omega), tick_value ha c w h.1, anyValue]
    have := fallback_value ha cs (i + 1) (value act c w).2 h.2
    cases hb : (value act c w).1 <;> simp [done, Loop.cons, this]
end

/-- C143 (partial): if no action ever waits, every tick of a tree evaluates it as a formula, executing exactly the actions the value depends
on, and leaves the tree as it was.  Missing: decorators that force a result. -/
theorem tree_is_formula_partial (ha : ∀ i w, ¬ Waits (act i w).1) (n : Node) (hn : Fresh n) (w : W) :
    tick act n w = (done (value act n w).1, n, (value act n w).2) := tick_value ha n w hn

/-- C143: a decorator that forces a result never ticks its child: nothing happens. -/
theorem force_refuted (c : Node) (st : Status) (hs : ¬ Waits st) (w : W) :
    tick act (.forceFailure st c) w = (.failure, .forceFailure st c, w) ∧ tick act (.forceSuccess st c) w = (.success, .forceSuccess st c, w) := by
  rw [tick, tick]
  unfold Waits at hs
  rw [if_neg hs, if_neg hs]
  exact ⟨rfl, rfl⟩

theorem starLoop_not_waits (cs : List Node) (i p : Nat) (w : W) : ¬ Waits (starLoop act i p cs w).status := by
  induction cs generalizing i p w with
  | nil => simp [starLoop, Waits]
  | cons c cs ih =>
    rw [starLoop]
    split
    · exact ih _ _ _
    · rcases hc : tick act c w with ⟨s, c', w₁⟩
      simp only
      split
      · exact ih _ _ _
      · simp [Waits]

/-- C143: a starred sequence waits for nobody: it is always finished after one tick, and a child that is not finished then counts as failed. -/
theorem star_refuted (c : Node) (cs : List Node) (w : W) :
    (∀ es b n' w', Episode act (.sequenceStar 0 (c :: cs)) w es b n' w' → es = []) ∧
      ∀ s c' w', tick act c w = (s, c', w') → Waits s → tick act (.sequenceStar 0 (c :: cs)) w = (.failure, .sequenceStar 0 (c' :: cs), w') := by
  constructor
  · intro es b n' w' h
    cases h with
    | ends => rfl
    | waits ht hs =>
      rw [tick] at ht
      simp only [Prod.mk.injEq] at ht
      exact absurd (ht.1 ▸ hs) (starLoop_not_waits _ _ _ _)
  · intro s c' w' hc hs
    rw [tick, starLoop, if_neg (by omega), hc]
    rcases hs with rfl | rfl <;> simp

/-! ## Examples -/

/-- Actions that note their number; action 0 waits until something has been noted, action 1 succeeds, the others fail. -/
def demo : Nat → List Nat → Status × List Nat
  | 0, w => (if w = [] then .waiting else .success, 0 :: w)
  | 1, w => (.success, 1 :: w)
  | n, w => (.failure, n :: w)

/-- Actions that do not wait. -/
def quick : Nat → List Nat → Status × List Nat := fun n w => (if n = 1 then .success else .failure, n :: w)

example : ∀ i w, ¬ Waits (quick i w).1 := by intro i w; unfold quick Waits; split <;> simp

example : Fresh (.fallback 0 [.sequence 0 [.leaf 1, .leaf 2, .leaf 1], .inverter (.leaf 3), .leaf 1]) := by simp [Fresh, FreshAll]

example : value quick (.fallback 0 [.sequence 0 [.leaf 1, .leaf 2, .leaf 1], .inverter (.leaf 3), .leaf 1]) [] = (true, [3, 2, 1]) := by
  decide +kernel

example : Episode demo (.sequence 0 [.leaf 0, .leaf 1]) [] [fun w => 7 :: w] true (.sequence 0 [.leaf 0, .leaf 1]) [1, 0, 7, 0] :=
  .waits (s := .waiting) (n₁ := .sequence 0 [.leaf 0, .leaf 1]) (w₁ := [0]) rfl (.inr rfl) (.ends rfl)

example : tick demo (.sequenceStar 0 [.leaf 0, .leaf 1]) [] = (.failure, .sequenceStar 0 [.leaf 0, .leaf 1], [0]) := rfl

example : ¬ Waits .success ∧ value demo (.forceSuccess .success (.leaf 2)) [] = (true, [2]) ∧
    tick demo (.forceSuccess .success (.leaf 2)) [] = (.success, .forceSuccess .success (.leaf 2), []) := ⟨by simp [Waits], rfl, rfl⟩

end Verif.Trees
