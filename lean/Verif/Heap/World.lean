import Verif.Heap.Lemmas

namespace Verif.Heap

open Verif.Memory

/-! ## Counting -/

/-- The number of variables bound to `r`. -/
def bound (vars : AMap Nat Nat) (r : Nat) : Nat := (vars.map Prod.snd).count r

/-- The number of members of all objects. -/
def total : Cells → Nat
  | [] => 0
  | (_, c) :: m => c.obj.length + total m

theorem bound_set {vars : AMap Nat Nat} {x old new : Nat} (h : vars.find x = some old) (r : Nat) :
    bound (vars.set x new) r + (if r = old then 1 else 0) = bound vars r + (if r = new then 1 else 0) := by
  unfold bound
  induction vars with
  | nil => simp [AMap.find] at h
  | cons p m ih =>
    obtain ⟨k, v⟩ := p
    by_cases hk : k = x
    · subst hk
      simp only [AMap.find, if_true, Option.some.injEq] at h; subst h
      simp only [AMap.set, if_true, List.map_cons, List.count_cons, beq_iff_eq]
      simp only [eq_comm (a := r)]
      omega
    · simp only [AMap.find, if_neg hk] at h
      have := ih h
      simp only [AMap.set, if_neg hk, List.map_cons, List.count_cons]; omega

theorem bound_erase {vars : AMap Nat Nat} {x old : Nat} (h : vars.find x = some old) (r : Nat) :
    bound (vars.erase x) r + (if r = old then 1 else 0) = bound vars r := by
  unfold bound
  induction vars with
  | nil => simp [AMap.find] at h
  | cons p m ih =>
    obtain ⟨k, v⟩ := p
    by_cases hk : k = x
    · subst hk
      simp only [AMap.find, if_true, Option.some.injEq] at h; subst h
      simp only [AMap.erase, if_true, List.map_cons, List.count_cons, beq_iff_eq]
      simp only [eq_comm (a := r)]
    · simp only [AMap.find, if_neg hk] at h
      have := ih h
      simp only [AMap.erase, if_neg hk, List.map_cons, List.count_cons]; omega

theorem bound_new {vars : AMap Nat Nat} {x v : Nat} (h : vars.find x = none) (r : Nat) :
    bound (vars.set x v) r = bound vars r + (if r = v then 1 else 0) := by
  unfold bound
  induction vars with
  | nil => simp [AMap.set, List.count_cons, eq_comm (a := r)]
  | cons p m ih =>
    obtain ⟨k, w⟩ := p
    have hk : ¬ k = x := by intro e; simp [AMap.find, e] at h
    simp only [AMap.find, if_neg hk] at h
    have := ih h
    simp only [AMap.set, if_neg hk, List.map_cons, List.count_cons]; omega

theorem bound_pos {vars : AMap Nat Nat} {x r : Nat} (h : vars.find x = some r) : 0 < bound vars r := by
  unfold bound
  apply List.count_pos_iff.2
  exact List.mem_map.2 ⟨_, AMap.mem_of_find h, rfl⟩

theorem bound_le (vars : AMap Nat Nat) (r : Nat) : bound vars r ≤ vars.length := by
  have := List.count_le_length (a := r) (l := vars.map Prod.snd)
  simpa [bound] using this

theorem inner_le_total (dy : List Nat) (r : Nat) (m : Cells) : inner dy r m ≤ total m := by
  induction m with
  | nil => simp [inner]
  | cons p m ih =>
    obtain ⟨k, c⟩ := p
    have := List.count_le_length (a := r) (l := c.obj)
    simp only [inner, total]; split <;> omega

theorem inner_pos {r s : Nat} {c : Cell Fields} {m : Cells} (h : m.find s = some c) (hr : r ∈ c.obj) :
    0 < inner [] r m := by
  induction m with
  | nil => simp [AMap.find] at h
  | cons p m ih =>
    obtain ⟨k, v⟩ := p
    by_cases hk : k = s
    · simp only [AMap.find, hk, if_true, Option.some.injEq] at h; subst h
      have := List.count_pos_iff.2 hr
      simp [inner]; omega
    · simp only [AMap.find, if_neg hk] at h
      have := ih h
      simp only [inner]; omega

theorem exists_of_inner_pos {r : Nat} {m : Cells} (hn : m.keys.Nodup) (h : 0 < inner [] r m) :
    ∃ s c, m.find s = some c ∧ r ∈ c.obj := by
  have : ∃ s c, (s, c) ∈ m ∧ r ∈ c.obj := by
    induction m with
    | nil => simp [inner] at h
    | cons p m ih =>
      obtain ⟨k, c⟩ := p
      simp only [AMap.keys, List.map_cons, List.nodup_cons] at hn
      by_cases hc : r ∈ c.obj
      · exact ⟨k, c, List.mem_cons_self .., hc⟩
      · have h0 := List.count_eq_zero_of_not_mem hc
        simp [inner, h0] at h
        obtain ⟨s, c', h1, h2⟩ := ih hn.2 h
        exact ⟨s, c', List.mem_cons_of_mem _ h1, h2⟩
  obtain ⟨s, c, h1, h2⟩ := this
  exact ⟨s, c, AMap.find_of_mem hn h1, h2⟩

theorem total_set {s : Nat} {c c' : Cell Fields} {m : Cells} (h : m.find s = some c) :
    total (m.set s c') + c.obj.length = total m + c'.obj.length := by
  induction m with
  | nil => simp [AMap.find] at h
  | cons p m ih =>
    obtain ⟨k, v⟩ := p
    by_cases hk : k = s
    · subst hk
      simp only [AMap.find, if_true, Option.some.injEq] at h; subst h
      simp only [AMap.set, if_true, total]; omega
    · simp only [AMap.find, if_neg hk] at h
      have := ih h
      simp only [AMap.set, if_neg hk, total]; omega

theorem total_new {s : Nat} {c : Cell Fields} {m : Cells} (h : s ∉ m.keys) :
    total (m.set s c) = total m + c.obj.length := by
  induction m with
  | nil => simp [AMap.set, total]
  | cons p m ih =>
    obtain ⟨k, v⟩ := p
    simp only [AMap.keys, List.map_cons, List.mem_cons, not_or] at h
    have hk : ¬ k = s := fun e => h.1 e.symm
    have := ih h.2
    simp only [AMap.set, if_neg hk, total]; omega

theorem total_erase {s : Nat} {c : Cell Fields} {m : Cells} (h : m.find s = some c) :
    total (m.erase s) + c.obj.length = total m := by
  induction m with
  | nil => simp [AMap.find] at h
  | cons p m ih =>
    obtain ⟨k, v⟩ := p
    by_cases hk : k = s
    · subst hk
      simp only [AMap.find, if_true, Option.some.injEq] at h; subst h
      simp only [AMap.erase, if_true, total]; omega
    · simp only [AMap.find, if_neg hk] at h
      have := ih h
      simp only [AMap.erase, if_neg hk, total]; omega

theorem total_shrinks (m' : Cells) : ∀ (m : Cells), m'.keys.Nodup → m.keys.Nodup →
    (∀ s c', m'.find s = some c' → ∃ c, m.find s = some c ∧ c.obj = c'.obj) → total m' ≤ total m := by
  induction m' with
  | nil => intro m _ _ _; simp [total]
  | cons p m' ih =>
    obtain ⟨k, c'⟩ := p
    intro m hn' hn hsub
    simp only [AMap.keys, List.map_cons, List.nodup_cons] at hn'
    obtain ⟨c, hc, ho⟩ := hsub k c' (by simp [AMap.find])
    have := ih (m.erase k) hn'.2 (AMap.nodup_erase hn) (fun s cs hs => by
      have hsk : k ≠ s := by
        rintro rfl; exact hn'.1 (AMap.mem_keys_of_find hs)
      rw [AMap.find_erase_ne hsk]
      exact hsub s cs (by simp [AMap.find, hsk, hs]))
    have h2 := total_erase hc
    simp only [total, ← ho]; omega

/-! ## Rebinding -/

theorem addrInv_same {m m' : Mem Fields} (h : AddrInv m) (hn : m'.next = m.next) (hl : m'.log = m.log)
    (hk : m'.cells.keys = m.cells.keys) : AddrInv m' := by
  constructor
  · rw [hn]; exact h.pos
  · rw [hn]; exact h.lt
  · rw [hn, hk]; exact h.cellsLt
  · rw [hk]; exact h.cellsNodup
  · rw [hk, hl]; exact h.cellsCreated
  · rw [hn, hl]; exact h.createdLt
  · rw [hl]; exact h.createdNodup
  · rw [hl]; exact h.eventsCreated

/-- `assignReference` after the new reference has been stored somewhere: `m₀` is the state before the
store, `m₁` after it. -/
theorem rebind_ok {m₀ m₁ : Mem Fields} {ext ext' : Nat → Nat} {fr : List Nat} {old new : Nat}
    (hi : CInv ext [] fr m₀) (hn : m₁.next = m₀.next) (hl : m₁.log = m₀.log)
    (hk : m₁.cells.keys = m₀.cells.keys) (hfr : ∀ s ∈ fr, s = new)
    (hcell : ∀ s c₁, m₁.cells.find s = some c₁ → ∃ c, m₀.cells.find s = some c ∧ c.count = c₁.count)
    (hext : ∀ s, s ≠ 0 → ext' s + inner [] s m₁.cells + (if s = old then 1 else 0)
      = ext s + inner [] s m₀.cells + (if s = new then 1 else 0))
    (hnew : new ≠ 0 → new ∈ m₀.cells.keys)
    (hsmall : ∀ s, s ≠ 0 → ext s + inner [] s m₀.cells + 1 < uintSize) :
    ∃ m', rebind old new m₁ = .ok m' ∧ CInv ext' [] [] m' ∧ Shrinks m₁ m' := by
  have ha := addrInv_same hi.addr hn hl hk
  -- taking the new reference
  have hadd : ∃ m₂, addRef m₁ new = .ok m₂ ∧ CInv (fun s => ext' s + if s = old then 1 else 0) [] [] m₂ ∧
      Shrinks m₁ m₂ := by
    by_cases h0 : new = 0
    · refine ⟨m₁, by simp [addRef, add, h0], ⟨ha, ?_, ?_, by simp, ?_, ?_⟩, Shrinks.refl _⟩
      · intro r c hc
        obtain ⟨c0, h1, h2⟩ := hcell r c hc
        have hr := hi.key_ne_zero (AMap.mem_keys_of_find h1)
        have := hext r hr
        have := hi.count r c0 h1
        have : r ≠ new := fun e => hr (e.trans h0)
        simp only [this, if_false] at *; omega
      · intro r hr hk'
        rw [hk] at hk'
        have := hext r hr
        have := hi.dead r hr hk'
        have : r ≠ new := fun e => hr (e.trans h0)
        simp only [this, if_false] at *; omega
      · intro r hr _
        rw [hk] at hr
        have hr0 := hi.key_ne_zero hr
        have := hext r hr0
        have hne : r ≠ new := fun e => hr0 (e.trans h0)
        rcases hi.pos r hr (by simp) with h | h
        · exact absurd (hfr r h) hne
        · right; simp only [hne, if_false] at *; omega
      · intro r hr
        have := hext r hr
        have := hsmall r hr
        have hne : r ≠ new := fun e => hr (e.trans h0)
        simp only [hne, if_false] at *; omega
    · have hkn := hnew h0
      have hkn1 : new ∈ m₁.cells.keys := hk ▸ hkn
      cases hf : m₁.cells.find new with
      | none => exact absurd hkn1 ((AMap.find_eq_none_iff _ _).1 hf)
      | some c =>
        obtain ⟨c0, h1, h2⟩ := hcell new c hf
        have hc0 := hi.count new c0 h1
        have hsm := hsmall new h0
        have hmod : (c.count + 1) % uintSize = c.count + 1 := Nat.mod_eq_of_lt (by omega)
        have e : addRef m₁ new = .ok { m₁ with cells := m₁.cells.set new { c with count := c.count + 1 },
                                               log := .took new :: m₁.log } := by
          simp only [addRef, add, if_neg h0, hf, hmod]
        have ha2 := addrInv_add ha e
        have hkeys := AMap.keys_set_of_mem (v := ({ c with count := c.count + 1 } : Cell Fields)) hkn1
        have hinn : ∀ s, inner [] s (m₁.cells.set new { c with count := c.count + 1 }) = inner [] s m₁.cells :=
          fun s => inner_set_same hf
        refine ⟨_, e, ⟨ha2, ?_, ?_, by simp, ?_, ?_⟩, ⟨rfl, ?_⟩⟩
        · intro r cr hr
          simp only [hinn] at hr ⊢
          by_cases hrn : new = r
          · subst hrn
            rw [AMap.find_set_self] at hr; cases hr
            have := hext new h0
            simp only [if_true] at this ⊢; omega
          · rw [AMap.find_set_ne hrn] at hr
            obtain ⟨cr0, h3, h4⟩ := hcell r cr hr
            have hr0 := hi.key_ne_zero (AMap.mem_keys_of_find h3)
            have := hext r hr0
            have := hi.count r cr0 h3
            simp only [Ne.symm hrn, if_false] at *; omega
        · intro r hr hk'
          simp only [hkeys, hk, hinn] at hk' ⊢
          have := hext r hr
          have := hi.dead r hr hk'
          have hne : r ≠ new := fun e => hk' (e ▸ hkn)
          simp only [hne, if_false] at *; omega
        · intro r hr _
          simp only [hkeys, hk] at hr
          simp only [hinn]
          have hr0 := hi.key_ne_zero hr
          have := hext r hr0
          right
          by_cases hne : r = new
          · simp only [hne, if_true] at *; omega
          · rcases hi.pos r hr (by simp) with h | h
            · exact absurd (hfr r h) hne
            · simp only [hne, if_false] at *; omega
        · intro r hr
          simp only [hinn]
          have := hext r hr
          have := hsmall r hr
          by_cases hne : r = new
          · simp only [hne, if_true] at *; omega
          · simp only [hne, if_false] at *; omega
        · intro s cs hs
          simp only at hs
          by_cases hsr : new = s
          · subst hsr; rw [AMap.find_set_self] at hs; cases hs; exact ⟨c, hf, rfl⟩
          · rw [AMap.find_set_ne hsr] at hs; exact ⟨cs, hs, rfl⟩
  obtain ⟨m₂, e2, i2, s2⟩ := hadd
  unfold rebind
  rw [e2]
  simp only [Res.bind]
  by_cases h0 : old = 0
  · refine ⟨m₂, by simp [h0], i2.congr ?_, s2⟩
    intro r hr
    have : r ≠ old := fun e => hr (e.trans h0)
    simp [this]
  · obtain ⟨m₃, e3, i3, s3, -⟩ := release (depth m₂) old m₂ ext' [] i2
      (by have := nd_le_length [] m₂.cells; unfold depth; omega)
    exact ⟨m₃, by simp only [h0, if_false, removeRef, e3], i3, s2.trans s3⟩

/-! ## The invariant of the state, and the simulation -/

/-- The invariant between operations; `B` bounds the number of reference slots. -/
structure WInv (B : Nat) (w : World) : Prop where
  cinv : CInv (bound w.vars) [] [] w.mem
  slots : w.vars.length + total w.mem.cells ≤ B

/-- The concrete state agrees with the abstract one on everything that still exists. -/
structure Sim (w : World) (s : AState) : Prop where
  vars : w.vars = s.vars
  next : w.mem.next = s.next
  objs : ∀ r o, Memory.get w.mem r = some o → s.objs.find r = some o
  null : s.objs.find 0 = none

theorem length_set_var {vars : AMap Nat Nat} {x v r : Nat} (h : vars.find x = some r) :
    (vars.set x v).length = vars.length := AMap.length_set_of_mem (AMap.mem_keys_of_find h)

theorem length_set_new {vars : AMap Nat Nat} {x v : Nat} (h : vars.find x = none) :
    (vars.set x v).length = vars.length + 1 := by
  induction vars with
  | nil => rfl
  | cons p m ih =>
    obtain ⟨k, w⟩ := p
    have hk : ¬ k = x := by intro e; simp [AMap.find, e] at h
    simp only [AMap.find, if_neg hk] at h
    simp [AMap.set, if_neg hk, ih h]

theorem WInv.small {B : Nat} {w : World} (h : WInv B w) (hB : B + 1 < uintSize) (s : Nat) :
    bound w.vars s + inner [] s w.mem.cells + 1 < uintSize := by
  have := bound_le w.vars s
  have := inner_le_total [] s w.mem.cells
  have := h.slots
  omega

/-- A bound variable refers to an existing object. -/
theorem WInv.var_live {B : Nat} {w : World} (h : WInv B w) {x r : Nat} (hx : w.vars.find x = some r)
    (hr : r ≠ 0) : r ∈ w.mem.cells.keys := by
  by_cases hk : r ∈ w.mem.cells.keys
  · exact hk
  · have := h.cinv.dead r hr hk
    have := bound_pos hx
    omega

/-- A member of an existing object refers to an existing object. -/
theorem WInv.field_live {B : Nat} {w : World} (h : WInv B w) {s r : Nat} {c : Cell Fields}
    (hs : w.mem.cells.find s = some c) (hm : r ∈ c.obj) (hr : r ≠ 0) : r ∈ w.mem.cells.keys := by
  by_cases hk : r ∈ w.mem.cells.keys
  · exact hk
  · have := h.cinv.dead r hr hk
    have := inner_pos hs hm
    omega

theorem get_eq_some {m : Mem Fields} {r : Nat} {o : Fields} (h : Memory.get m r = some o) :
    ∃ c, m.cells.find r = some c ∧ c.obj = o := by
  unfold Memory.get at h
  cases hf : m.cells.find r with
  | none => simp [hf] at h
  | some c => simp [hf] at h; exact ⟨c, rfl, h⟩

theorem Sim.shrinks {w : World} {s : AState} {m m' : Mem Fields} (hs : Shrinks m m')
    (h : ∀ r o, Memory.get m r = some o → s.objs.find r = some o) :
    ∀ r o, Memory.get m' r = some o → s.objs.find r = some o := by
  intro r o hg
  obtain ⟨c', hc', rfl⟩ := get_eq_some hg
  obtain ⟨c, hc, ho⟩ := hs.obj r c' hc'
  exact h r _ (by simp [Memory.get, hc, ho])

/-- Assigning a valid reference (or null) to a variable; `m₀` may contain just created objects. -/
theorem assignVar_ok {B : Nat} {vars : AMap Nat Nat} {m : Mem Fields} {fr : List Nat} {x old ref : Nat}
    (hi : CInv (bound vars) [] fr m) (hfr : ∀ s ∈ fr, s = ref)
    (hsl : vars.length + total m.cells ≤ B) (hB : B + 1 < uintSize)
    (hx : vars.find x = some old) (href : ref ≠ 0 → ref ∈ m.cells.keys) :
    ∃ m', assignVar x ref ⟨m, vars⟩ = .ok ⟨m', vars.set x ref⟩ ∧ WInv B ⟨m', vars.set x ref⟩ ∧ Shrinks m m' := by
  obtain ⟨m', e, i, s⟩ := rebind_ok (ext' := bound (vars.set x ref)) (old := old) (new := ref) hi rfl rfl rfl hfr
    (fun s c h => ⟨c, h, rfl⟩)
    (fun s _ => by have := bound_set (new := ref) hx s; omega) href
    (fun s _ => by
      have := bound_le vars s
      have := inner_le_total [] s m.cells
      omega)
  refine ⟨m', ?_, ⟨i, ?_⟩, s⟩
  · simp only [assignVar, hx, e, lift]
  · have := total_shrinks m'.cells m.cells i.addr.cellsNodup hi.addr.cellsNodup s.obj
    simp only [length_set_var hx]; omega

/-- The number of reference slots an operation creates. -/
def cost : HOp → Nat
  | .declare _ => 1
  | .setNew _ k => k
  | _ => 0

theorem WInv.mono {B B' : Nat} {w : World} (h : WInv B w) (hB : B ≤ B') : WInv B' w :=
  ⟨h.cinv, Nat.le_trans h.slots hB⟩

/-- One operation: no undefined behaviour, the same success or failure as the specification,
failures change nothing, and the relation is kept. -/
theorem step_sim {B : Nat} {w : World} {s : AState} (op : HOp) (hi : WInv B w) (hs : Sim w s)
    (hB : B + cost op + 1 < uintSize) :
    (∃ w' s', step op w = .ok w' ∧ astep op s = some s' ∧ WInv (B + cost op) w' ∧ Sim w' s') ∨
    (step op w = .throw w ∧ astep op s = none) := by
  obtain ⟨m, vars⟩ := w
  obtain ⟨snext, objs, svars⟩ := s
  obtain ⟨hv, hnx, ho, hnull⟩ := hs
  simp only at hv hnx ho hnull
  subst hv; subst hnx
  have hc0 : CInv (bound vars) [] [] m := hi.cinv
  have hsl0 : vars.length + total m.cells ≤ B := hi.slots
  -- assignment of a reference that is null or live
  have hassign : ∀ x ref, (ref ≠ 0 → ref ∈ m.cells.keys) → ∀ old, vars.find x = some old →
      ∃ w', assignVar x ref ⟨m, vars⟩ = .ok w' ∧ WInv B w' ∧
        Sim w' ⟨m.next, objs, vars.set x ref⟩ := by
    intro x ref href old hx
    obtain ⟨m', e, i, sh⟩ := assignVar_ok hc0 (by simp) hsl0 (by omega) hx href
    exact ⟨_, e, i, ⟨rfl, sh.next, Sim.shrinks (w := ⟨m', vars⟩) (s := ⟨m.next, objs, vars⟩) sh ho, hnull⟩⟩
  have h0 : (0 : Nat) ∉ m.cells.keys := fun h => hc0.key_ne_zero h rfl
  cases op with
  | declare x =>
    cases hx : vars.find x with
    | some r => right; simp [step, astep, hx]
    | none =>
      left
      refine ⟨⟨m, vars.set x 0⟩, ⟨m.next, objs, vars.set x 0⟩, by simp only [step, hx], by simp only [astep, hx],
        ⟨?_, ?_⟩, ⟨rfl, rfl, ho, hnull⟩⟩
      · refine hc0.congr fun r hr => ?_
        simp only [bound_new hx, hr, if_false]; omega
      · have := hsl0
        simp only [length_set_new hx, cost] at *; omega
  | destroy x =>
    cases hx : vars.find x with
    | none => right; simp [step, astep, hx]
    | some r =>
      left
      have hlen : (vars.erase x).length ≤ vars.length := by
        have := AMap.length_erase_of_mem (AMap.mem_keys_of_find hx); omega
      by_cases hr : r = 0
      · refine ⟨⟨m, vars.erase x⟩, ⟨m.next, objs, vars.erase x⟩, by simp only [step, hx, hr, if_true, lift], by simp only [astep, hx], ⟨?_, ?_⟩, ⟨rfl, rfl, ho, hnull⟩⟩
        · refine hc0.congr fun q hq => ?_
          have := bound_erase hx q
          have hne : q ≠ r := fun e => hq (e.trans hr)
          simp only [hne, if_false] at this; simpa using this
        · have := hsl0; simp only [cost] at *; omega
      · have hci : CInv (fun q => bound (vars.erase x) q + if q = r then 1 else 0) [] [] m :=
          hc0.congr fun q _ => bound_erase hx q
        obtain ⟨m', e, i, sh, -⟩ := release (depth m) r m _ [] hci
          (by have := nd_le_length [] m.cells; unfold depth; omega)
        refine ⟨⟨m', vars.erase x⟩, ⟨m.next, objs, vars.erase x⟩, by simp only [step, hx, hr, if_false, removeRef, e, lift], by simp only [astep, hx],
          ⟨i, ?_⟩, ⟨rfl, sh.next, Sim.shrinks (w := ⟨m', vars⟩) (s := ⟨m.next, objs, vars⟩) sh ho, hnull⟩⟩
        have := total_shrinks m'.cells m.cells i.addr.cellsNodup hc0.addr.cellsNodup sh.obj
        have := hsl0
        simp only [cost] at *; omega
  | setNew x k =>
    cases hx : vars.find x with
    | none => right; simp [step, astep, hx]
    | some old =>
      cases hnw : newObject (List.replicate k 0) m with
      | none =>
        right
        have : m.next ≥ 4294967295 := by
          unfold newObject at hnw
          split at hnw
          · simpa [uintSize] using ‹_›
          · cases hnw
        simp [step, astep, hx, hnw, this]
      | some p =>
        obtain ⟨ref, m₁⟩ := p
        left
        obtain ⟨hrf, hlt, hm₁⟩ := newObject_some hc0.addr hnw
        have hfresh : m.next ∉ m.cells.keys := fun h => by have := hc0.addr.cellsLt _ h; omega
        have hpos := hc0.addr.pos
        have hfind : ((m.cells.set m.next ⟨0, List.replicate k 0⟩).find m.next) = some ⟨0, List.replicate k 0⟩ :=
          AMap.find_set_self ..
        have hinn : ∀ q, q ≠ 0 → inner [] q m₁.cells = inner [] q m.cells := by
          intro q hq
          rw [hm₁]
          simp only
          have h1 := inner_set (dy := []) (r := q) (c' := ⟨0, List.replicate k 0⟩) hfind
          rw [inner_new hfresh] at h1
          have hz : (List.replicate k 0).count q = 0 := by
            apply List.count_eq_zero_of_not_mem; simp [List.mem_replicate, hq]
          simp only [List.not_mem_nil, if_false, hz] at h1
          omega
        have hkeys : ∀ q, q ∈ m₁.cells.keys ↔ q = m.next ∨ q ∈ m.cells.keys := by
          intro q; rw [hm₁]; simp only [AMap.mem_keys_set]
          constructor
          · rintro (h | h | h)
            · exact Or.inl h
            · exact Or.inl h
            · exact Or.inr h
          · rintro (h | h)
            · exact Or.inl h
            · exact Or.inr (Or.inr h)
        have hbn : bound vars m.next = 0 := by
          have := hc0.dead m.next (by omega) hfresh
          omega
        have hin : inner [] m.next m.cells = 0 := by
          have := hc0.dead m.next (by omega) hfresh
          omega
        have hci : CInv (bound vars) [] [m.next] m₁ := by
          refine ⟨addrInv_new hc0.addr hnw, ?_, ?_, by simp, ?_, ?_⟩
          · intro q c hc
            have hqk := (hkeys q).1 (AMap.mem_keys_of_find hc)
            by_cases hq : q = m.next
            · rw [hinn q (by omega), hq, hbn, hin]
              rw [hm₁, hq] at hc
              simp only [AMap.find_set_self] at hc
              cases hc; rfl
            · have hqk : q ∈ m.cells.keys := by
                rcases hqk with h | h
                · exact absurd h hq
                · exact h
              rw [hinn q (hc0.key_ne_zero hqk)]
              rw [hm₁] at hc
              simp only [AMap.find_set_ne (Ne.symm hq)] at hc
              exact hc0.count q c hc
          · intro q hq hk'
            rw [hinn q hq]
            rw [hkeys] at hk'
            exact hc0.dead q hq (fun h => hk' (Or.inr h))
          · intro q hq _
            rcases (hkeys q).1 hq with h | h
            · left; simp [h]
            · right
              rw [hinn q (hc0.key_ne_zero h)]
              have := hc0.pos q h (by simp)
              simpa using this
          · intro q hq; rw [hinn q hq]; exact hc0.small q hq
        have htot : total m₁.cells = total m.cells + k := by
          rw [hm₁]; simp only
          have h1 := total_set (c' := ⟨0, List.replicate k 0⟩) hfind
          rw [total_new hfresh] at h1
          simp at h1; omega
        obtain ⟨m', e, i, sh⟩ := assignVar_ok (B := B + k) hci (by simp [hrf]) (by
          omega) (by simpa [cost] using hB) hx
          (fun _ => (hkeys ref).2 (Or.inl hrf))
        refine ⟨⟨m', vars.set x ref⟩, ⟨m.next + 1, objs.set m.next (List.replicate k 0), vars.set x m.next⟩,
          by simp only [step, hx, hnw, e], ?_, i, ?_⟩
        · have : ¬ m.next ≥ 4294967295 := by simp [uintSize] at hlt; omega
          simp only [astep, hx, this, if_false]
        · refine ⟨by simp only [hrf], ?_, ?_, ?_⟩
          · simp only [sh.next, hm₁]
          · intro r o hg
            obtain ⟨c', hc', rfl⟩ := get_eq_some hg
            obtain ⟨c, hc, hoo⟩ := sh.obj r c' hc'
            simp only
            by_cases hq : m.next = r
            · subst hq
              rw [hm₁] at hc
              simp only [AMap.find_set_self] at hc
              cases hc
              rw [AMap.find_set_self, ← hoo]
            · rw [AMap.find_set_ne hq]
              rw [hm₁] at hc
              simp only [AMap.find_set_ne hq] at hc
              exact ho r _ (by simp [Memory.get, hc, hoo])
          · simp only
            rw [AMap.find_set_ne (by omega)]; exact hnull
  | setNull x =>
    cases hx : vars.find x with
    | none => right; simp [step, astep, assignVar, hx]
    | some old =>
      obtain ⟨w', e, i, sm⟩ := hassign x 0 (by simp) old hx
      exact Or.inl ⟨w', _, by simpa only [step] using e, by simp only [astep, hx], by simpa [cost] using i, sm⟩
  | assign x y =>
    cases hx : vars.find x with
    | none =>
      right
      cases hy : vars.find y with
      | none => simp [step, astep, hx, hy]
      | some r => simp [step, astep, assignVar, hx, hy]
    | some old =>
      cases hy : vars.find y with
      | none => right; simp [step, astep, hx, hy]
      | some ref =>
        obtain ⟨w', e, i, sm⟩ := hassign x ref (fun h => hi.var_live hy h) old hx
        exact Or.inl ⟨w', _, by simpa only [step, hy] using e, by simp only [astep, hx, hy], by simpa [cost] using i, sm⟩
  | setField x i y =>
    cases hx : vars.find x with
    | none => right; simp [step, astep, hx]
    | some r =>
      cases hy : vars.find y with
      | none => right; simp [step, astep, hx, hy]
      | some ref =>
        cases hf : m.cells.find r with
        | none =>
          right
          have hr : r = 0 := by
            by_cases hr : r = 0
            · exact hr
            · exact absurd (hi.var_live hx hr) ((AMap.find_eq_none_iff _ _).1 hf)
          subst hr
          simp [step, astep, hx, hy, hf, hnull]
        | some c =>
          have hor := ho r c.obj (by simp [Memory.get, hf])
          cases hg : c.obj[i]? with
          | none =>
            right
            have := List.getElem?_eq_none_iff.1 hg
            have hlt : ¬ i < c.obj.length := by omega
            simp [step, astep, hx, hy, hf, hg, hor, hlt]
          | some old =>
            left
            obtain ⟨hlt, hge⟩ := List.getElem?_eq_some_iff.1 hg
            have hkr := AMap.mem_keys_of_find hf
            have hcnt : ∀ q, (c.obj.set i ref).count q + (if q = old then 1 else 0) = c.obj.count q + (if q = ref then 1 else 0) := by
              intro q
              have h1 := List.count_set (a := ref) (b := q) (l := c.obj) (i := i) hlt
              rw [hge] at h1
              rw [h1]
              have h2 : (if (old == q) = true then 1 else 0) ≤ c.obj.count q := by
                split
                · rename_i h; simp at h; subst h
                  apply List.count_pos_iff.2; rw [← hge]; exact List.getElem_mem ..
                · omega
              simp only [beq_iff_eq, eq_comm (b := q)] at h2 ⊢
              omega
            obtain ⟨m', e, i', sh⟩ := rebind_ok (m₁ := storeField r i ref c m) (ext' := bound vars) (old := old) (new := ref)
              hc0 rfl rfl (AMap.keys_set_of_mem hkr) (by simp)
              (by
                intro s c₁ hs
                simp only [storeField] at hs
                by_cases hsr : r = s
                · subst hsr; rw [AMap.find_set_self] at hs; cases hs; exact ⟨c, hf, rfl⟩
                · rw [AMap.find_set_ne hsr] at hs; exact ⟨c₁, hs, rfl⟩)
              (by
                intro q hq
                simp only [storeField]
                have h1 := inner_set (dy := []) (r := q) (c' := { c with obj := c.obj.set i ref }) hf
                simp only [List.not_mem_nil, if_false] at h1
                have := hcnt q
                omega)
              (fun h => hi.var_live hy h)
              (fun q _ => hi.small (by simp only [cost] at hB; omega) q)
            refine ⟨⟨m', vars⟩, ⟨m.next, objs.set r (c.obj.set i ref), vars⟩, ?_, ?_, ⟨i', ?_⟩, ⟨rfl, sh.next, ?_, ?_⟩⟩
            · simp only [step, hx, hy, hf, hg, e, lift]
            · simp only [astep, hx, hy, hor, hlt, if_true]
            · have h1 := total_shrinks m'.cells (storeField r i ref c m).cells i'.addr.cellsNodup
                (by simp only [storeField]; exact AMap.nodup_set hc0.addr.cellsNodup) sh.obj
              have h2 := total_set (c' := { c with obj := c.obj.set i ref }) hf
              simp only [storeField, List.length_set] at h1 h2
              have := hsl0
              simp only [cost] at *; omega
            · intro q o hg'
              obtain ⟨c', hc', rfl⟩ := get_eq_some hg'
              obtain ⟨c₁, hc₁, hoo⟩ := sh.obj q c' hc'
              simp only [storeField] at hc₁
              simp only
              by_cases hq : r = q
              · subst hq
                rw [AMap.find_set_self] at hc₁ ⊢
                cases hc₁
                rw [← hoo]
              · rw [AMap.find_set_ne hq] at hc₁ ⊢
                exact ho q _ (by simp [Memory.get, hc₁, hoo])
            · simp only
              have hr0 : r ≠ 0 := hc0.key_ne_zero hkr
              rw [AMap.find_set_ne hr0]; exact hnull
  | getField x y i =>
    cases hy : vars.find y with
    | none =>
      right
      cases hx : vars.find x <;> simp [step, astep, hx, hy]
    | some r =>
      cases hx : vars.find x with
      | none =>
        right
        cases hf : m.cells.find r with
        | none => simp [step, astep, hx, hy, hf]
        | some c =>
          cases hg : c.obj[i]? <;> simp [step, astep, assignVar, hx, hy, hf, hg]
      | some old =>
        cases hf : m.cells.find r with
        | none =>
          right
          have hr : r = 0 := by
            by_cases hr : r = 0
            · exact hr
            · exact absurd (hi.var_live hy hr) ((AMap.find_eq_none_iff _ _).1 hf)
          subst hr
          simp [step, astep, hx, hy, hf, hnull]
        | some c =>
          have hor := ho r c.obj (by simp [Memory.get, hf])
          cases hg : c.obj[i]? with
          | none => right; simp [step, astep, hx, hy, hf, hg, hor]
          | some ref =>
            obtain ⟨w', e, i', sm⟩ := hassign x ref
              (fun h => hi.field_live hf (List.mem_of_getElem? hg) h) old hx
            exact Or.inl ⟨w', _, by simpa only [step, hy, hf, hg] using e, by simp only [astep, hx, hy, hor, hg],
              by simpa [cost] using i', sm⟩

theorem slots_cons (op : HOp) (ops : List HOp) : slots (op :: ops) = cost op + slots ops := by
  cases op <;> simp [slots, cost]

/-- Whole programs. -/
theorem run_sim : ∀ (ops : List HOp) (B : Nat) (w : World) (s : AState), WInv B w → Sim w s →
    B + slots ops + 1 < uintSize →
    ∃ w', run ops w = some ((arun ops s).1, w') ∧ WInv (B + slots ops) w' ∧ Sim w' (arun ops s).2 := by
  intro ops
  induction ops with
  | nil => intro B w s hi hs _; exact ⟨w, rfl, by simpa [slots] using hi, hs⟩
  | cons op ops ih =>
    intro B w s hi hs hB
    rw [slots_cons] at hB ⊢
    rcases step_sim op hi hs (by omega) with ⟨w', s', e1, e2, i, sm⟩ | ⟨e1, e2⟩
    · obtain ⟨w'', e3, i3, s3⟩ := ih (B + cost op) w' s' i sm (by omega)
      refine ⟨w'', ?_, ?_, ?_⟩
      · simp only [run, e1, e3, Option.map_some, arun, e2]
      · rw [← Nat.add_assoc]; exact i3
      · simpa only [arun, e2] using s3
    · obtain ⟨w'', e3, i3, s3⟩ := ih B w s hi hs (by omega)
      refine ⟨w'', ?_, ?_, ?_⟩
      · simp only [run, e1, e3, Option.map_some, arun, e2]
      · exact i3.mono (by omega)
      · simpa only [arun, e2] using s3

theorem winv_empty : WInv 0 {} :=
  ⟨⟨addrInv_empty, by simp [AMap.find], by simp [bound, inner], by simp, by simp [AMap.keys], by simp [bound, inner, uintSize]⟩,
    by simp [total]⟩

theorem sim_empty : Sim {} {} := ⟨rfl, rfl, by simp [Memory.get, AMap.find], by simp [AMap.find]⟩

end Verif.Heap
