import Verif.Memory.Lemmas

/-! # Objects live exactly as long as they are referenced: the invariant -/

namespace Verif.Memory

variable {ω : Type}

theorem log_suffix (D : ω → List (Op ω)) (n : Nat) (op : Op ω) (m m' : Mem ω)
    (h : exec D n op m = .ok m') : m.log <:+ m'.log := by
  refine exec_induct D (fun a b => a.log <:+ b.log) (fun _ => List.suffix_refl _)
    (fun _ _ _ => List.IsSuffix.trans) ?_ ?_ ?_ ?_ n op m m' (Or.inl h)
  · intro o m r m' e
    unfold newObject at e
    split at e
    · cases e
    · simp at e; obtain ⟨-, rfl⟩ := e; exact List.suffix_cons ..
  · intro r m m' e
    unfold add at e
    split at e
    · cases e; exact List.suffix_refl _
    · split at e
      · cases e
      · cases e; exact List.suffix_cons ..
  · intro r m c n _ _; exact List.suffix_cons ..
  · intro r m c _; exact List.suffix_cons ..

theorem runOps_log_suffix (D : ω → List (Op ω)) (n : Nat) (ops : List (Op ω)) (m m' : Mem ω)
    (h : runOps (exec D n) ops m = .ok m') : m.log <:+ m'.log := by
  induction ops generalizing m with
  | nil => simp [runOps] at h; subst h; exact List.suffix_refl _
  | cons op ops ih =>
    simp only [runOps] at h
    cases he : exec D n op m with
    | ok m₁ =>
      rw [he] at h; simp only [Res.bind] at h
      exact (log_suffix D n op m m₁ he).trans (ih m₁ h)
    | throw _ => rw [he] at h; cases h
    | ub => rw [he] at h; cases h
    | fuel => rw [he] at h; cases h

theorem WellBehaved.suffix {l l' : List Event} (hs : l <:+ l') (h : WellBehaved l') : WellBehaved l := by
  obtain ⟨t, rfl⟩ := hs
  induction t with
  | nil => exact h
  | cons e t ih =>
    apply ih
    cases e <;> simp only [List.cons_append, WellBehaved] at h
    · exact h
    · exact h.2
    · exact h.2
    · exact h

/-- The invariant: `dy` lists the objects that are being destroyed right now. -/
structure LInv (dy : List Ref) (m : Mem ω) : Prop where
  addr : AddrInv m
  count : ∀ r c, m.cells.find r = some c → (c.count : Int) = outstanding r m.log
  live : ∀ r, r ∈ m.cells.keys → r ∉ dy → .released r ∈ m.log → outstanding r m.log > 0
  dying : ∀ r ∈ dy, outstanding r m.log = 0 ∧ .released r ∈ m.log
  gone : ∀ r, r ∈ createdAddrs m.log → r ∉ m.cells.keys →
    outstanding r m.log = 0 ∧ .released r ∈ m.log ∧ m.log.count (.destroyed r) = 1
  present : ∀ r, r ∈ m.cells.keys → m.log.count (.destroyed r) = 0

theorem lInv_empty : LInv [] ({} : Mem ω) where
  addr := addrInv_empty
  count := by simp [AMap.find]
  live := by simp [AMap.keys]
  dying := by simp
  gone := by simp [createdAddrs]
  present := by simp [AMap.keys]

theorem outstanding_cons_ne {r : Ref} {e : Event} (l : List Event) (h1 : e ≠ .took r) (h2 : e ≠ .released r) :
    outstanding r (e :: l) = outstanding r l := by
  simp [outstanding, List.count_cons, h1, h2]

theorem outstanding_took_self (r : Ref) (l : List Event) :
    outstanding r (.took r :: l) = outstanding r l + 1 := by
  simp [outstanding, List.count_cons]; omega

theorem outstanding_released_self (r : Ref) (l : List Event) :
    outstanding r (.released r :: l) = outstanding r l - 1 := by
  simp [outstanding, List.count_cons]; omega

theorem outstanding_le_length (r : Ref) (l : List Event) : outstanding r l ≤ l.length := by
  have := List.count_le_length (a := Event.took r) (l := l)
  unfold outstanding; omega

theorem lInv_new {dy : List Ref} {m m' : Mem ω} {o : ω} {r : Ref} (h : LInv dy m)
    (e : newObject o m = some (r, m')) : LInv dy m' := by
  have ha := addrInv_new h.addr e
  obtain ⟨-, hlt, rfl⟩ := newObject_some h.addr e
  have hfresh : m.next ∉ createdAddrs m.log := fun hm => by
    have := h.addr.createdLt _ hm; omega
  have hnt : .took m.next ∉ m.log := fun hm => hfresh (h.addr.eventsCreated _ (Or.inl hm))
  have hnr : .released m.next ∉ m.log := fun hm => hfresh (h.addr.eventsCreated _ (Or.inr (Or.inl hm)))
  refine ⟨ha, ?_, ?_, ?_, ?_, ?_⟩
  · intro r c hc
    simp only at hc ⊢
    rw [outstanding_cons_ne _ (by simp) (by simp)]
    by_cases hr : m.next = r
    · subst hr
      rw [AMap.find_set_self] at hc
      cases hc
      simp [outstanding, List.count_eq_zero_of_not_mem hnt, List.count_eq_zero_of_not_mem hnr]
    · rw [AMap.find_set_ne hr, AMap.find_set_ne hr] at hc
      exact h.count r c hc
  · intro r hr hd hrel
    rw [outstanding_cons_ne _ (by simp) (by simp)]
    simp only [AMap.mem_keys_set] at hr
    simp at hrel
    rcases hr with hr | hr | hr
    · subst hr; exact absurd hrel hnr
    · subst hr; exact absurd hrel hnr
    · exact h.live r hr hd hrel
  · intro r hr
    rw [outstanding_cons_ne _ (by simp) (by simp)]
    have := h.dying r hr
    simp [this]
  · intro r hr hk
    rw [outstanding_cons_ne _ (by simp) (by simp)]
    simp only [AMap.mem_keys_set, not_or] at hk
    simp only [createdAddrs, List.filterMap_cons, List.mem_cons] at hr
    rcases hr with hr | hr
    · exact absurd hr hk.1
    · have := h.gone r hr hk.2.2
      simpa [List.count_cons] using this
  · intro r hr
    simp only [List.count_cons]
    simp only [AMap.mem_keys_set] at hr
    have hcase : r = m.next ∨ r ∈ m.cells.keys := by
      rcases hr with hr | hr | hr
      · exact Or.inl hr
      · exact Or.inl hr
      · exact Or.inr hr
    rcases hcase with rfl | hr
    · have : .destroyed m.next ∉ m.log :=
        fun hm => hfresh (h.addr.eventsCreated _ (Or.inr (Or.inr hm)))
      simp [List.count_eq_zero_of_not_mem this]
    · simp [h.present r hr]

theorem lInv_add {dy : List Ref} {m m' : Mem ω} {r : Ref} (h : LInv dy m)
    (e : add r m = .ok m') (hw : WellBehaved m'.log) (hl : m'.log.length < uintSize) : LInv dy m' := by
  have ha := addrInv_add h.addr e
  unfold add at e
  split at e
  · cases e; exact h
  · split at e
    · cases e
    · rename_i c hc
      cases e
      have hk := AMap.mem_keys_of_find hc
      simp only [WellBehaved] at hw
      have hnd : r ∉ dy := fun hd => by
        have := h.dying r hd
        have := hw.1 this.2
        omega
      simp only [List.length_cons] at hl
      refine ⟨ha, ?_, ?_, ?_, ?_, ?_⟩
      · intro r' c' hc'
        simp only at hc' ⊢
        by_cases hr : r = r'
        · subst hr
          rw [AMap.find_set_self] at hc'
          cases hc'
          rw [outstanding_took_self]
          have h1 := h.count r c hc
          have h2 := outstanding_le_length r m.log
          have : c.count + 1 < uintSize := by omega
          simp only [Nat.mod_eq_of_lt this]; omega
        · rw [AMap.find_set_ne hr] at hc'
          rw [outstanding_cons_ne _ (by simp [hr]) (by simp)]
          exact h.count r' c' hc'
      · intro r' hr' hd hrel
        simp only [AMap.keys_set_of_mem hk] at hr'
        simp at hrel
        have := h.live r' hr' hd hrel
        by_cases hr : r = r'
        · subst hr; rw [outstanding_took_self]; omega
        · rw [outstanding_cons_ne _ (by simp [hr]) (by simp)]; exact this
      · intro r' hr'
        have hr : r ≠ r' := fun e => hnd (e ▸ hr')
        rw [outstanding_cons_ne _ (by simp [hr]) (by simp)]
        have := h.dying r' hr'
        simp [this]
      · intro r' hr' hk'
        simp only [AMap.keys_set_of_mem hk] at hk'
        have hr : r ≠ r' := fun e => hk' (e ▸ hk)
        rw [outstanding_cons_ne _ (by simp [hr]) (by simp)]
        have := h.gone r' hr' hk'
        simpa [List.count_cons] using this
      · intro r' hr'
        simp only [AMap.keys_set_of_mem hk] at hr'
        simp [h.present r' hr']

/-- Decrementing: if the count reaches zero the object is dying. -/
theorem lInv_dec {dy : List Ref} {m : Mem ω} {r : Ref} {c : Cell ω} (h : LInv dy m)
    (hc : m.cells.find r = some c) (hw : WellBehaved (.released r :: m.log))
    (hl : m.log.length + 1 < uintSize) (n : Nat) (hnn : n = (c.count + (uintSize - 1)) % uintSize) :
    let m' : Mem ω := { m with cells := m.cells.set r { c with count := n }, log := .released r :: m.log }
    (n = 0 → r ∉ dy ∧ LInv (r :: dy) m') ∧ (n ≠ 0 → LInv dy m') := by
  intro m'
  have ha : AddrInv m' := addrInv_dec h.addr hc
  have hk := AMap.mem_keys_of_find hc
  simp only [WellBehaved] at hw
  have h1 := h.count r c hc
  have h2 := outstanding_le_length r m.log
  have hn : (n : Int) = outstanding r m.log - 1 := by
    have hc1 : 0 < c.count := by omega
    have hc2 : c.count < uintSize := by omega
    have : n = c.count - 1 := by
      simp only [uintSize] at *; omega
    omega
  have hnd : r ∉ dy := fun hd => by have := h.dying r hd; omega
  have hcount : ∀ r' c', m'.cells.find r' = some c' → (c'.count : Int) = outstanding r' m'.log := by
    intro r' c' hc'
    simp only [m'] at hc' ⊢
    by_cases hr : r = r'
    · subst hr
      rw [AMap.find_set_self] at hc'
      cases hc'
      rw [outstanding_released_self]; simp only; omega
    · rw [AMap.find_set_ne hr] at hc'
      rw [outstanding_cons_ne _ (by simp) (by simp [hr])]
      exact h.count r' c' hc'
  have hlive : ∀ r', r' ≠ r → r' ∈ m'.cells.keys → r' ∉ dy → .released r' ∈ m'.log → outstanding r' m'.log > 0 := by
    intro r' hr hr' hd hrel
    simp only [m', AMap.keys_set_of_mem hk] at hr'
    simp [m', hr] at hrel
    simp only [m']
    rw [outstanding_cons_ne _ (by simp) (by simp [hr.symm])]
    exact h.live r' hr' hd hrel
  have hdying : ∀ r' ∈ dy, outstanding r' m'.log = 0 ∧ .released r' ∈ m'.log := by
    intro r' hr'
    have hr : r ≠ r' := fun e => hnd (e ▸ hr')
    simp only [m']
    rw [outstanding_cons_ne _ (by simp) (by simp [hr])]
    have := h.dying r' hr'
    simp [this]
  have hgone : ∀ r', r' ∈ createdAddrs m'.log → r' ∉ m'.cells.keys →
      outstanding r' m'.log = 0 ∧ .released r' ∈ m'.log ∧ m'.log.count (.destroyed r') = 1 := by
    intro r' hr' hk'
    simp only [m', AMap.keys_set_of_mem hk] at hk'
    have hr : r ≠ r' := fun e => hk' (e ▸ hk)
    simp only [m']
    rw [outstanding_cons_ne _ (by simp) (by simp [hr])]
    have := h.gone r' hr' hk'
    simp [this]
  have hpres : ∀ r', r' ∈ m'.cells.keys → m'.log.count (.destroyed r') = 0 := by
    intro r' hr'
    simp only [m', AMap.keys_set_of_mem hk] at hr'
    simp [m', h.present r' hr']
  constructor
  · intro hn0
    refine ⟨hnd, ha, hcount, ?_, ?_, hgone, hpres⟩
    · intro r' hr' hd hrel
      simp only [List.mem_cons, not_or] at hd
      exact hlive r' hd.1 hr' hd.2 hrel
    · intro r' hr'
      rcases List.mem_cons.1 hr' with rfl | hr'
      · simp only [m']
        rw [outstanding_released_self]
        exact ⟨by omega, by simp⟩
      · exact hdying r' hr'
  · intro hn0
    refine ⟨ha, hcount, ?_, hdying, hgone, hpres⟩
    intro r' hr' hd hrel
    by_cases hr : r' = r
    · subst hr
      simp only [m']
      rw [outstanding_released_self]; omega
    · exact hlive r' hr hr' hd hrel

theorem lInv_del {dy : List Ref} {m : Mem ω} {r : Ref} {c : Cell ω} (h : LInv (r :: dy) m)
    (hnd : r ∉ dy) (hc : m.cells.find r = some c) :
    LInv dy { m with cells := m.cells.erase r, log := .destroyed r :: m.log } := by
  have ha := addrInv_del h.addr hc
  have hk := AMap.mem_keys_of_find hc
  have hself : r ∉ (m.cells.erase r).keys :=
    (AMap.find_eq_none_iff _ _).1 (AMap.find_erase_self h.addr.cellsNodup)
  have hsub := (AMap.keys_erase_sublist r m.cells).subset
  refine ⟨ha, ?_, ?_, ?_, ?_, ?_⟩
  · intro r' c' hc'
    have hr : r ≠ r' := by
      rintro rfl; exact hself (AMap.mem_keys_of_find hc')
    rw [AMap.find_erase_ne hr] at hc'
    rw [outstanding_cons_ne _ (by simp) (by simp)]
    exact h.count r' c' hc'
  · intro r' hr' hd hrel
    have hr : r' ≠ r := fun e => hself (e ▸ hr')
    rw [outstanding_cons_ne _ (by simp) (by simp)]
    simp at hrel
    exact h.live r' (hsub hr') (by simp [hr, hd]) hrel
  · intro r' hr'
    rw [outstanding_cons_ne _ (by simp) (by simp)]
    have := h.dying r' (List.mem_cons_of_mem _ hr')
    simp [this]
  · intro r' hr' hk'
    rw [outstanding_cons_ne _ (by simp) (by simp)]
    by_cases hr : r' = r
    · subst hr
      have h1 := h.dying r' (List.mem_cons_self ..)
      have h2 := h.present r' hk
      simp [h1, h2]
    · have hk2 : r' ∉ m.cells.keys := by
        rw [← AMap.find_eq_none_iff] at hk' ⊢
        rwa [AMap.find_erase_ne (Ne.symm hr)] at hk'
      have := h.gone r' hr' hk2
      simpa [List.count_cons, Ne.symm hr] using this
  · intro r' hr'
    have hr : r ≠ r' := fun e => hself (e ▸ hr')
    have := h.present r' (hsub hr')
    simp [hr, this]

theorem lInv_exec (D : ω → List (Op ω)) (n : Nat) : ∀ (op : Op ω) (m m' : Mem ω) (dy : List Ref),
    LInv dy m → exec D n op m = .ok m' → WellBehaved m'.log → m'.log.length < uintSize → LInv dy m' := by
  induction n with
  | zero => intro op m m' dy _ h; simp [exec] at h
  | succ n ih =>
    have hrun : ∀ (ops : List (Op ω)) (m m' : Mem ω) (dy : List Ref), LInv dy m →
        runOps (exec D n) ops m = .ok m' → WellBehaved m'.log → m'.log.length < uintSize → LInv dy m' := by
      intro ops
      induction ops with
      | nil => intro m m' dy hi h; simp [runOps] at h; subst h; exact fun _ _ => hi
      | cons op ops ihops =>
        intro m m' dy hi h hw hl
        simp only [runOps] at h
        cases he : exec D n op m with
        | ok m₁ =>
          rw [he] at h; simp only [Res.bind] at h
          have hs := runOps_log_suffix D n ops m₁ m' h
          exact ihops m₁ m' dy (ih op m m₁ dy hi he (hw.suffix hs) (Nat.lt_of_le_of_lt hs.length_le hl)) h hw hl
        | throw _ => rw [he] at h; cases h
        | ub => rw [he] at h; cases h
        | fuel => rw [he] at h; cases h
    intro op m m' dy hi h hw hl
    cases op with
    | new o =>
      simp only [exec] at h
      cases hn : newObject o m with
      | none => rw [hn] at h; cases h
      | some p =>
        obtain ⟨r, m₁⟩ := p
        rw [hn] at h; cases h
        exact lInv_new hi hn
    | add r => exact lInv_add hi h hw hl
    | remove r =>
      simp only [exec, remove] at h
      split at h
      · cases h; exact hi
      · split at h
        · cases h
        · rename_i hr _ c hc
          split at h
          · rename_i hz
            unfold deleteObject at h
            split at h
            · cases h
            · rename_i c' hc'
              dsimp only at h
              cases hd : runOps (exec D n) (D c'.obj) { m with cells := m.cells.set r { c with count := (c.count + (uintSize - 1)) % uintSize }, log := .released r :: m.log } with
              | ok m₁ =>
                rw [hd] at h; simp only [Res.bind] at h
                have hs := runOps_log_suffix D n _ _ m₁ hd
                split at h
                · cases h
                · rename_i c'' hc''
                  cases h
                  simp only [WellBehaved] at hw
                  simp only [List.length_cons] at hl
                  have hw1 := WellBehaved.suffix hs hw
                  have hl1 := hs.length_le
                  simp only [List.length_cons] at hl1
                  obtain ⟨hnd, hi1⟩ := (lInv_dec hi hc hw1 (by omega) _ rfl).1 hz
                  exact lInv_del (hrun _ _ m₁ _ hi1 hd hw (by omega)) hnd hc''
              | throw _ => rw [hd] at h; cases h
              | ub => rw [hd] at h; cases h
              | fuel => rw [hd] at h; cases h
          · rename_i hz
            cases h
            simp only [List.length_cons] at hl
            exact (lInv_dec hi hc hw hl _ rfl).2 hz

theorem lInv_runOps (D : ω → List (Op ω)) (n : Nat) (ops : List (Op ω)) (m m' : Mem ω) (dy : List Ref)
    (hi : LInv dy m) (h : runOps (exec D n) ops m = .ok m') (hw : WellBehaved m'.log)
    (hl : m'.log.length < uintSize) : LInv dy m' := by
  induction ops generalizing m with
  | nil => simp [runOps] at h; subst h; exact hi
  | cons op ops ihops =>
    simp only [runOps] at h
    cases he : exec D n op m with
    | ok m₁ =>
      rw [he] at h; simp only [Res.bind] at h
      have hs := runOps_log_suffix D n ops m₁ m' h
      exact ihops m₁ (lInv_exec D n op m m₁ dy hi he (hw.suffix hs) (Nat.lt_of_le_of_lt hs.length_le hl)) h
    | throw _ => rw [he] at h; cases h
    | ub => rw [he] at h; cases h
    | fuel => rw [he] at h; cases h

end Verif.Memory
