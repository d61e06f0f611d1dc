import Verif.Memory.Spec

namespace Verif.Memory

variable {ω : Type}

/-! ## A generic induction principle for `exec` -/

/-- A relation between states that is reflexive, transitive and contains every elementary
step contains every execution. -/
theorem exec_induct (D : ω → List (Op ω)) (R : Mem ω → Mem ω → Prop)
    (hrefl : ∀ m, R m m) (htrans : ∀ a b c, R a b → R b c → R a c)
    (hnew : ∀ o m r m', newObject o m = some (r, m') → R m m')
    (hadd : ∀ r m m', add r m = .ok m' → R m m')
    (hdec : ∀ (r : Ref) (m : Mem ω) c n, m.cells.find r = some c → r ≠ 0 →
      R m { m with cells := m.cells.set r { c with count := n }, log := .released r :: m.log })
    (hdel : ∀ (r : Ref) (m : Mem ω) c, m.cells.find r = some c →
      R m { m with cells := m.cells.erase r, log := .destroyed r :: m.log })
    (n : Nat) : ∀ op m m', (exec D n op m = .ok m' ∨ exec D n op m = .throw m') → R m m' := by
  induction n with
  | zero => intro op m m' h; simp [exec] at h
  | succ n ih =>
    have hrun : ∀ ops m m', (runOps (exec D n) ops m = .ok m' ∨ runOps (exec D n) ops m = .throw m') → R m m' := by
      intro ops
      induction ops with
      | nil => intro m m' h; simp [runOps] at h; subst h; exact hrefl _
      | cons op ops ihops =>
        intro m m' h
        simp only [runOps] at h
        cases he : exec D n op m with
        | ok m₁ =>
          simp only [he, Res.bind] at h
          exact htrans _ _ _ (ih op m m₁ (Or.inl he)) (ihops m₁ m' h)
        | throw m₁ =>
          simp [he, Res.bind] at h
          subst h
          exact ih op m m₁ (Or.inr he)
        | ub => simp [he, Res.bind] at h
        | fuel => simp [he, Res.bind] at h
    intro op m m' h
    cases op with
    | new o =>
      simp only [exec] at h
      cases hn : newObject o m with
      | none => simp [hn] at h; subst h; exact hrefl _
      | some p =>
        obtain ⟨r, m₁⟩ := p
        simp [hn] at h
        subst h; exact hnew _ _ _ _ hn
    | add r =>
      simp only [exec] at h
      rcases h with h | h
      · exact hadd _ _ _ h
      · unfold add at h
        split at h
        · cases h
        · split at h
          · cases h; exact hrefl _
          · cases h
    | remove r =>
      simp only [exec, remove] at h
      split at h
      · simp at h; subst h; exact hrefl _
      · split at h
        · simp at h; subst h; exact hrefl _
        · rename_i hr _ c hc
          have h1 := hdec r m c ((c.count + (uintSize - 1)) % uintSize) hc hr
          split at h
          · refine htrans _ _ _ h1 ?_
            unfold deleteObject at h
            split at h
            · simp at h; subst h; exact hrefl _
            · rename_i c' hc'
              dsimp only at h
              cases hd : runOps (exec D n) (D c'.obj) { m with cells := m.cells.set r { c with count := (c.count + (uintSize - 1)) % uintSize }, log := .released r :: m.log } with
              | ok m₁ =>
                rw [hd] at h; simp only [Res.bind] at h
                refine htrans _ _ _ (hrun _ _ _ (Or.inl hd)) ?_
                split at h
                · simp at h
                · rename_i c'' hc''
                  simp at h; subst h
                  exact hdel r m₁ _ hc''
              | throw m₁ =>
                rw [hd] at h; simp [Res.bind] at h
                subst h
                exact hrun _ _ _ (Or.inr hd)
              | ub => rw [hd] at h; simp [Res.bind] at h
              | fuel => rw [hd] at h; simp [Res.bind] at h
          · simp at h; subst h; exact h1

/-- The same for invariants of states, over client histories. -/
theorem history_induct (D : ω → List (Op ω)) (P : Mem ω → Prop)
    (hnew : ∀ o m r m', P m → newObject o m = some (r, m') → P m')
    (hadd : ∀ r m m', P m → add r m = .ok m' → P m')
    (hdec : ∀ (r : Ref) (m : Mem ω) c n, P m → m.cells.find r = some c → r ≠ 0 →
      P { m with cells := m.cells.set r { c with count := n }, log := .released r :: m.log })
    (hdel : ∀ (r : Ref) (m : Mem ω) c, P m → m.cells.find r = some c →
      P { m with cells := m.cells.erase r, log := .destroyed r :: m.log })
    (n : Nat) : ∀ ops m m', P m → history D n ops m = some m' → P m' := by
  have key := exec_induct D (fun a b => P a → P b) (fun _ h => h) (fun _ _ _ f g h => g (f h))
    (fun o m r m' e h => hnew o m r m' h e) (fun r m m' e h => hadd r m m' h e)
    (fun r m c k e h0 h => hdec r m c k h e h0) (fun r m c e h => hdel r m c h e) n
  intro ops
  induction ops with
  | nil => intro m m' hp h; simp [history] at h; subst h; exact hp
  | cons op ops ih =>
    intro m m' hp h
    simp only [history] at h
    cases he : exec D n op m with
    | ok m₁ => simp only [he] at h; exact ih m₁ m' (key op m m₁ (Or.inl he) hp) h
    | throw m₁ => simp only [he] at h; exact ih m₁ m' (key op m m₁ (Or.inr he) hp) h
    | ub => simp [he] at h
    | fuel => simp [he] at h

/-! ## Addresses -/

theorem le_lastKey {cells : AMap Ref (Cell ω)} {r : Ref} (h : r ∈ cells.keys) : r ≤ lastKey cells := by
  unfold lastKey
  generalize cells.keys = l at h
  induction l with
  | nil => cases h
  | cons a l ih =>
    simp only [List.foldr_cons]
    rcases List.mem_cons.1 h with h | h
    · omega
    · have := ih h; omega

theorem lastKey_le {cells : AMap Ref (Cell ω)} {b : Nat} (h : ∀ r ∈ cells.keys, r ≤ b) :
    lastKey cells ≤ b := by
  unfold lastKey
  generalize cells.keys = l at h
  induction l with
  | nil => simp
  | cons a l ih =>
    simp only [List.foldr_cons]
    have := ih fun r hr => h r (List.mem_cons_of_mem _ hr)
    have := h a (List.mem_cons_self ..)
    omega

/-- What holds of the address counter in every state. -/
structure AddrInv (m : Mem ω) : Prop where
  pos : 1 ≤ m.next
  lt : m.next < uintSize
  cellsLt : ∀ r ∈ m.cells.keys, r < m.next
  cellsNodup : m.cells.keys.Nodup
  cellsCreated : ∀ r ∈ m.cells.keys, r ∈ createdAddrs m.log
  createdLt : ∀ r ∈ createdAddrs m.log, 1 ≤ r ∧ r < m.next
  createdNodup : (createdAddrs m.log).Nodup
  eventsCreated : ∀ r, (.took r ∈ m.log ∨ .released r ∈ m.log ∨ .destroyed r ∈ m.log) → r ∈ createdAddrs m.log

/-- In a proper state `rbegin()` is the address just reserved. -/
theorem lastKey_set_next {m : Mem ω} (h : AddrInv m) (c : Cell ω) :
    lastKey (m.cells.set m.next c) = m.next := by
  apply Nat.le_antisymm
  · apply lastKey_le
    intro r hr
    rcases AMap.mem_keys_set.1 hr with hr | hr
    · omega
    · have := h.cellsLt r hr; omega
  · exact le_lastKey (AMap.mem_keys_set.2 (Or.inl rfl))

theorem newObject_some {m m' : Mem ω} {o : ω} {r : Ref} (h : AddrInv m)
    (e : newObject o m = some (r, m')) :
    r = m.next ∧ m.next < uintSize - 1 ∧
    m' = { next := m.next + 1, cells := (m.cells.set m.next ⟨0, o⟩).set m.next ⟨0, o⟩,
           log := .created m.next :: m.log } := by
  unfold newObject at e
  split at e
  · cases e
  · simp only [Option.some.injEq, Prod.mk.injEq] at e
    obtain ⟨e1, e2⟩ := e
    rw [lastKey_set_next h] at e1 e2
    exact ⟨e1.symm, by omega, e2.symm⟩

theorem addrInv_empty : AddrInv ({} : Mem ω) := by
  constructor <;> simp [AMap.keys, createdAddrs, uintSize]

theorem addrInv_new {m m' : Mem ω} {o : ω} {r : Ref} (h : AddrInv m)
    (e : newObject o m = some (r, m')) : AddrInv m' := by
  obtain ⟨-, hlt, rfl⟩ := newObject_some h e
  constructor
  · simp
  · simp [uintSize] at *; omega
  · intro r hr
    simp only [AMap.mem_keys_set] at hr
    rcases hr with hr | hr | hr
    · simp only; omega
    · simp only; omega
    · have := h.cellsLt r hr; simp only; omega
  · exact AMap.nodup_set (AMap.nodup_set h.cellsNodup)
  · intro r hr
    simp only [AMap.mem_keys_set] at hr
    simp only [createdAddrs, List.filterMap_cons, List.mem_cons]
    rcases hr with hr | hr | hr
    · exact Or.inl hr
    · exact Or.inl hr
    · exact Or.inr (h.cellsCreated r hr)
  · intro r hr
    simp only [createdAddrs, List.filterMap_cons, List.mem_cons] at hr
    rcases hr with hr | hr
    · have := h.pos; simp only; omega
    · have := h.createdLt r hr; simp only; omega
  · simp only [createdAddrs, List.filterMap_cons, List.nodup_cons]
    refine ⟨?_, h.createdNodup⟩
    intro hm
    have := h.createdLt _ hm; omega
  · intro r hr
    simp only [createdAddrs, List.filterMap_cons, List.mem_cons]
    simp at hr
    exact Or.inr (h.eventsCreated r hr)

theorem addrInv_add {m m' : Mem ω} {r : Ref} (h : AddrInv m) (e : add r m = .ok m') : AddrInv m' := by
  unfold add at e
  split at e
  · cases e; exact h
  · split at e
    · cases e
    · rename_i c hc
      cases e
      have hk := AMap.mem_keys_of_find hc
      constructor
      · exact h.pos
      · exact h.lt
      · intro r' hr'; simp only [AMap.keys_set_of_mem hk] at hr'; exact h.cellsLt r' hr'
      · exact AMap.nodup_set h.cellsNodup
      · intro r' hr'; simp only [AMap.keys_set_of_mem hk] at hr'; exact h.cellsCreated r' hr'
      · exact h.createdLt
      · exact h.createdNodup
      · intro r' hr'
        simp at hr'
        rcases hr' with (rfl | hr') | hr' | hr'
        · exact h.cellsCreated _ hk
        · exact h.eventsCreated r' (Or.inl hr')
        · exact h.eventsCreated r' (Or.inr (Or.inl hr'))
        · exact h.eventsCreated r' (Or.inr (Or.inr hr'))

theorem addrInv_dec {m : Mem ω} {r : Ref} {c : Cell ω} {n : Nat} (h : AddrInv m)
    (hc : m.cells.find r = some c) :
    AddrInv { m with cells := m.cells.set r { c with count := n }, log := .released r :: m.log } := by
  have hk := AMap.mem_keys_of_find hc
  constructor
  · exact h.pos
  · exact h.lt
  · intro r' hr'; simp only [AMap.keys_set_of_mem hk] at hr'; exact h.cellsLt r' hr'
  · exact AMap.nodup_set h.cellsNodup
  · intro r' hr'; simp only [AMap.keys_set_of_mem hk] at hr'; exact h.cellsCreated r' hr'
  · exact h.createdLt
  · exact h.createdNodup
  · intro r' hr'
    simp at hr'
    rcases hr' with hr' | (rfl | hr') | hr'
    · exact h.eventsCreated r' (Or.inl hr')
    · exact h.cellsCreated _ hk
    · exact h.eventsCreated r' (Or.inr (Or.inl hr'))
    · exact h.eventsCreated r' (Or.inr (Or.inr hr'))

theorem addrInv_del {m : Mem ω} {r : Ref} {c : Cell ω} (h : AddrInv m) (hc : m.cells.find r = some c) :
    AddrInv { m with cells := m.cells.erase r, log := .destroyed r :: m.log } := by
  have hs := AMap.keys_erase_sublist r m.cells
  constructor
  · exact h.pos
  · exact h.lt
  · intro r' hr'; exact h.cellsLt r' (hs.subset hr')
  · exact AMap.nodup_erase h.cellsNodup
  · intro r' hr'; exact h.cellsCreated r' (hs.subset hr')
  · exact h.createdLt
  · exact h.createdNodup
  · intro r' hr'
    simp at hr'
    rcases hr' with hr' | hr' | rfl | hr'
    · exact h.eventsCreated r' (Or.inl hr')
    · exact h.eventsCreated r' (Or.inr (Or.inl hr'))
    · exact h.cellsCreated _ (AMap.mem_keys_of_find hc)
    · exact h.eventsCreated r' (Or.inr (Or.inr hr'))

theorem addrInv_history (D : ω → List (Op ω)) (n : Nat) (ops : List (Op ω)) (m m' : Mem ω)
    (h : AddrInv m) (e : history D n ops m = some m') : AddrInv m' :=
  history_induct D AddrInv (fun _ _ _ _ h e => addrInv_new h e) (fun _ _ _ h e => addrInv_add h e)
    (fun _ _ _ _ h e _ => addrInv_dec h e) (fun _ _ _ h e => addrInv_del h e) n ops m m' h e

end Verif.Memory
