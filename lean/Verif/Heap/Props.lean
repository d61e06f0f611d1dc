import Verif.Heap.World

/-! # Properties C04 and C05: references, counts, and cascading release -/

namespace Verif.Heap

open Verif.Memory

theorem inner_eq_sum (r : Nat) (m : Cells) : inner [] r m = (m.map fun p => p.2.obj.count r).sum := by
  induction m with
  | nil => rfl
  | cons p m ih => obtain ⟨k, c⟩ := p; simp [inner, ih]

theorem run_inv {ops : List HOp} {bs : List Bool} {w : World} (h : run ops {} = some (bs, w))
    (hs : slots ops < 4294967295) : WInv (slots ops) w ∧ Sim w (arun ops {}).2 ∧ bs = (arun ops {}).1 := by
  obtain ⟨w', e, i, s⟩ := run_sim ops 0 {} {} winv_empty sim_empty (by simp [uintSize]; omega)
  rw [e] at h
  simp only [Option.some.injEq, Prod.mk.injEq] at h
  obtain ⟨rfl, rfl⟩ := h
  exact ⟨by simpa using i, s, rfl⟩

/-- **C04**, safety.  No program over reference variables and members runs into undefined behaviour
(a dangling iterator) or unbounded destruction. -/
theorem programs_never_undefined (ops : List HOp) (hs : slots ops < 4294967295) :
    ∃ bs w, run ops {} = some (bs, w) := by
  obtain ⟨w', e, -, -⟩ := run_sim ops 0 {} {} winv_empty sim_empty (by simp [uintSize]; omega)
  exact ⟨_, w', e⟩

/-- **C04**.  After any program (fewer than 2^32 - 1 reference slots), every bound variable and every
bound member of an existing object is bound to an existing object. -/
theorem no_dangling_references (ops : List HOp) (bs : List Bool) (w : World)
    (h : run ops {} = some (bs, w)) (hs : slots ops < 4294967295) :
    (∀ x r, w.vars.find x = some r → r ≠ 0 → (get w.mem r).isSome) ∧
    (∀ r fs r', get w.mem r = some fs → r' ∈ fs → r' ≠ 0 → (get w.mem r').isSome) := by
  obtain ⟨hi, -, -⟩ := run_inv h hs
  have live : ∀ r, r ∈ w.mem.cells.keys → (get w.mem r).isSome := by
    intro r hk
    cases hf : w.mem.cells.find r with
    | none => exact absurd hk ((AMap.find_eq_none_iff _ _).1 hf)
    | some c => simp [Memory.get, hf]
  constructor
  · intro x r hx hr; exact live r (hi.var_live hx hr)
  · intro r fs r' hg hm hr
    obtain ⟨c, hc, rfl⟩ := get_eq_some hg
    exact live r' (hi.field_live hc hm hr)

/-- **C04**.  The stored reference count of each existing object is the number of variables and members that
refer to it, and it is positive: no object outlives its last reference. -/
theorem count_eq_references (ops : List HOp) (bs : List Bool) (w : World)
    (h : run ops {} = some (bs, w)) (hs : slots ops < 4294967295) (r : Nat) (c : Cell Fields)
    (hc : w.mem.cells.find r = some c) : c.count = references w r ∧ 0 < references w r := by
  obtain ⟨hi, -, -⟩ := run_inv h hs
  have h1 := hi.cinv.count r c hc
  have h2 := hi.cinv.pos r (AMap.mem_keys_of_find hc) (by simp)
  rw [inner_eq_sum] at h1 h2
  simp only [List.not_mem_nil, false_or] at h2
  exact ⟨h1, h2⟩

/-- A program with sharing, self assignment and rebinding that meets the hypotheses. -/
example : ∃ bs w, run [.declare 1, .declare 2, .setNew 1 2, .assign 2 1, .assign 1 1, .setNew 1 0,
      .setField 2 0 1, .setNull 1, .getField 1 2 0] {} = some (bs, w) ∧
    references w 2 = 2 ∧ references w 1 = 1 := ⟨_, _, rfl, by decide, by decide⟩

/-- **C05**, transparency of memory management.  A program observes exactly what it would observe if
objects were never destroyed: the same operations succeed, the variables are the same, and every
object that can still be reached has the same members. -/
theorem memory_management_invisible (ops : List HOp) (bs : List Bool) (w : World)
    (h : run ops {} = some (bs, w)) (hs : slots ops < 4294967295) :
    bs = (arun ops {}).1 ∧ w.vars = (arun ops {}).2.vars ∧
    ∀ r, AReach (arun ops {}).2 r → ∃ fs, get w.mem r = some fs ∧ (arun ops {}).2.objs.find r = some fs := by
  obtain ⟨hi, sm, hb⟩ := run_inv h hs
  refine ⟨hb, sm.vars, ?_⟩
  have live : ∀ r, r ∈ w.mem.cells.keys →
      ∃ fs, get w.mem r = some fs ∧ (arun ops {}).2.objs.find r = some fs := by
    intro r hk
    cases hf : w.mem.cells.find r with
    | none => exact absurd hk ((AMap.find_eq_none_iff _ _).1 hf)
    | some c =>
      have hg : get w.mem r = some c.obj := by simp [Memory.get, hf]
      exact ⟨c.obj, hg, sm.objs r _ hg⟩
  intro r hr
  induction hr with
  | var hx h0 => rw [← sm.vars] at hx; exact live _ (hi.var_live hx h0)
  | field _ ho hm h0 ih =>
    obtain ⟨fs, hg, ho'⟩ := ih
    rw [ho] at ho'; cases ho'
    obtain ⟨c, hc, rfl⟩ := get_eq_some hg
    exact live _ (hi.field_live hc hm h0)

theorem nodup_subset_length {l k : List Nat} (hn : l.Nodup) (hs : l ⊆ k) : l.length ≤ k.length := by
  induction l generalizing k with
  | nil => simp
  | cons a l ih =>
    simp only [List.nodup_cons] at hn
    have ha : a ∈ k := hs (List.mem_cons_self ..)
    have h1 : l ⊆ k.erase a := by
      intro b hb
      have hba : b ≠ a := fun e => hn.1 (e ▸ hb)
      exact (List.mem_erase_of_ne hba).2 (hs (List.mem_cons_of_mem _ hb))
    have := ih hn.2 h1
    have h2 := List.length_erase_of_mem ha
    have := List.length_pos_of_mem ha
    simp only [List.length_cons]; omega

theorem astep_vars_nodup {op : HOp} {s s' : AState} (h : s.vars.keys.Nodup) (e : astep op s = some s') :
    s'.vars.keys.Nodup := by
  cases op <;> simp only [astep] at e
  all_goals (repeat' split at e)
  all_goals first
    | (cases e; done)
    | (cases e; exact AMap.nodup_set h)
    | (cases e; exact AMap.nodup_erase h)
    | (cases e; exact h)

theorem arun_vars_nodup (ops : List HOp) : ∀ s : AState, s.vars.keys.Nodup → (arun ops s).2.vars.keys.Nodup := by
  induction ops with
  | nil => intro s h; exact h
  | cons op ops ih =>
    intro s h
    simp only [arun]
    cases e : astep op s with
    | none => exact ih s h
    | some s' => exact ih s' (astep_vars_nodup h e)

/-- **C05**, completeness.  If no existing object refers to itself through one or more members, then every
existing object can be reached from a variable: everything unreachable has been destroyed. -/
theorem acyclic_garbage_destroyed (ops : List HOp) (bs : List Bool) (w : World)
    (h : run ops {} = some (bs, w)) (hs : slots ops < 4294967295)
    (hac : ∀ r, ¬ Path w r r) (r : Nat) (hr : (get w.mem r).isSome) : Reach w r := by
  obtain ⟨hi, sm, -⟩ := run_inv h hs
  have hvn : w.vars.keys.Nodup := by
    rw [sm.vars]; exact arun_vars_nodup ops {} (by simp [AMap.keys])
  -- either a variable refers to `r`, or an existing object does
  have pred : ∀ r, r ∈ w.mem.cells.keys → (∃ x, w.vars.find x = some r) ∨
      (∃ s c, w.mem.cells.find s = some c ∧ r ∈ c.obj) := by
    intro r hk
    have hpos := hi.cinv.pos r hk (by simp)
    simp only [List.not_mem_nil, false_or] at hpos
    by_cases hb : 0 < bound w.vars r
    · left
      obtain ⟨⟨x, v⟩, hm, rfl⟩ := List.mem_map.1 (List.count_pos_iff.1 hb)
      exact ⟨x, AMap.find_of_mem hvn hm⟩
    · right
      exact exists_of_inner_pos hi.cinv.addr.cellsNodup (by omega)
  -- walk backwards; the objects seen are all different
  have key : ∀ (k : Nat) (vis : List Nat) (r : Nat), w.mem.cells.keys.length - vis.length = k →
      vis.Nodup → vis ⊆ w.mem.cells.keys → r ∈ vis →
      (∀ t ∈ vis, t = r ∨ Path w r t) → Reach w r := by
    intro k
    induction k with
    | zero =>
      intro vis r hk hn hsub hrv hpath
      rcases pred r (hsub hrv) with ⟨x, hx⟩ | ⟨s, c, hc, hm⟩
      · exact .var hx (hi.cinv.key_ne_zero (hsub hrv))
      · exfalso
        have hg : get w.mem s = some c.obj := by simp [Memory.get, hc]
        have hr0 := hi.cinv.key_ne_zero (hsub hrv)
        have hsv : s ∉ vis := by
          intro hsv
          rcases hpath s hsv with rfl | hp
          · exact hac s (.one hg hm hr0)
          · exact hac s (.step hg hm hr0 hp)
        have := nodup_subset_length (l := s :: vis) (k := w.mem.cells.keys)
          (List.nodup_cons.2 ⟨hsv, hn⟩)
          (List.cons_subset.2 ⟨AMap.mem_keys_of_find hc, hsub⟩)
        simp only [List.length_cons] at this
        omega
    | succ k ih =>
      intro vis r hk hn hsub hrv hpath
      rcases pred r (hsub hrv) with ⟨x, hx⟩ | ⟨s, c, hc, hm⟩
      · exact .var hx (hi.cinv.key_ne_zero (hsub hrv))
      · have hg : get w.mem s = some c.obj := by simp [Memory.get, hc]
        have hr0 := hi.cinv.key_ne_zero (hsub hrv)
        have hsv : s ∉ vis := by
          intro hsv
          rcases hpath s hsv with rfl | hp
          · exact hac s (.one hg hm hr0)
          · exact hac s (.step hg hm hr0 hp)
        have hrs : Reach w s := by
          apply ih (s :: vis) s
          · simp only [List.length_cons]; omega
          · exact List.nodup_cons.2 ⟨hsv, hn⟩
          · exact List.cons_subset.2 ⟨AMap.mem_keys_of_find hc, hsub⟩
          · exact List.mem_cons_self ..
          · intro t ht
            rcases List.mem_cons.1 ht with rfl | ht
            · exact Or.inl rfl
            · right
              rcases hpath t ht with rfl | hp
              · exact .one hg hm hr0
              · exact .step hg hm hr0 hp
        exact .field hrs hg hm hr0
  cases hg : get w.mem r with
  | none => simp [hg] at hr
  | some fs =>
    obtain ⟨c, hc, -⟩ := get_eq_some hg
    have hk := AMap.mem_keys_of_find hc
    exact key _ [r] r rfl (by simp) (by simpa using hk) (by simp) (by simp)

/-- A run that meets the hypotheses of the completeness theorem: a chain of three objects held by one
variable; then the variable is cleared and all three are gone. -/
example : ∃ bs w bs' w',
    run [.declare 1, .declare 2, .setNew 1 1, .setNew 2 1, .setField 2 0 1, .setNew 1 1, .setField 1 0 2, .setNull 2] {} = some (bs, w) ∧
    w.mem.cells.keys = [1, 2, 3] ∧
    run [.declare 1, .declare 2, .setNew 1 1, .setNew 2 1, .setField 2 0 1, .setNew 1 1, .setField 1 0 2, .setNull 2, .setNull 1] {} = some (bs', w') ∧
    w'.mem.cells.keys = [] := ⟨_, _, _, _, rfl, by decide, rfl, by decide⟩

/-- The chain in that run is indeed free of cycles (non-vacuity of the hypothesis `hac`): a
rank decreases along every member. -/
theorem acyclic_of_rank (w : World) (rank : Nat → Nat)
    (h : ∀ r fs r', get w.mem r = some fs → r' ∈ fs → r' ≠ 0 → rank r' < rank r) : ∀ r, ¬ Path w r r := by
  have key : ∀ a b, Path w a b → rank b < rank a := by
    intro a b hp
    induction hp with
    | one hg hm h0 => exact h _ _ _ hg hm h0
    | step hg hm h0 _ ih => have := h _ _ _ hg hm h0; omega
  intro r hp
  have := key r r hp
  omega

/-- **C05**, the limit: with a reference cycle, unreachable objects are never destroyed.  After
this program no variable is left, yet object 1, which refers to itself, still exists. -/
theorem cyclic_garbage_leaks_refuted :
    ∃ ops bs w, run ops {} = some (bs, w) ∧ slots ops < 4294967295 ∧ w.vars = [] ∧ (get w.mem 1).isSome ∧
      ¬ Reach w 1 := by
  refine ⟨[.declare 1, .setNew 1 1, .setField 1 0 1, .destroy 1], _, _, rfl, by decide, rfl, by decide, ?_⟩
  intro hr
  have key : ∀ r, Reach ⟨⟨2, [(1, ⟨1, [1]⟩)], [.released 1, .took 1, .took 1, .created 1]⟩, []⟩ r → False := by
    intro r hr
    induction hr with
    | var hx _ => simp [AMap.find] at hx
    | field _ _ _ _ ih => exact ih
  exact key 1 hr

end Verif.Heap
