import Verif.Memory.Lives

/-! # Properties C01, C02, C03 and C70 of the object memory -/

namespace Verif.Memory

variable {ω : Type}

theorem created_length_history (D : ω → List (Op ω)) (n : Nat) (ops : List (Op ω)) (m : Mem ω)
    (h : history D n ops {} = some m) : (createdAddrs m.log).length + 1 = m.next := by
  refine (history_induct D (fun m => AddrInv m ∧ (createdAddrs m.log).length + 1 = m.next)
    ?_ ?_ ?_ ?_ n ops {} m ⟨addrInv_empty, by simp [createdAddrs]⟩ h).2
  · intro o m r m' ⟨hi, hp⟩ e
    refine ⟨addrInv_new hi e, ?_⟩
    obtain ⟨-, -, rfl⟩ := newObject_some hi e
    simp [createdAddrs] at hp ⊢; omega
  · intro r m m' ⟨hi, hp⟩ e
    refine ⟨addrInv_add hi e, ?_⟩
    unfold add at e
    split at e
    · cases e; exact hp
    · split at e
      · cases e
      · cases e; simpa [createdAddrs] using hp
  · intro r m c k ⟨hi, hp⟩ hc _
    exact ⟨addrInv_dec hi hc, by simpa [createdAddrs] using hp⟩
  · intro r m c ⟨hi, hp⟩ hc
    exact ⟨addrInv_del hi hc, by simpa [createdAddrs] using hp⟩

/-- **C01**, part 1.  After any history of requests, with destructors that issue any further requests, the
addresses handed out so far are pairwise different and none is null. -/
theorem addresses_distinct (D : ω → List (Op ω)) (n : Nat) (ops : List (Op ω)) (m : Mem ω)
    (h : history D n ops {} = some m) :
    (createdAddrs m.log).Nodup ∧ ∀ r ∈ createdAddrs m.log, r ≠ 0 := by
  have hi := addrInv_history D n ops {} m addrInv_empty h
  exact ⟨hi.createdNodup, fun r hr => by have := hi.createdLt r hr; omega⟩

/-- **C01**, part 2.  The next creation returns an address that was never handed out
before and that now denotes the new object, and leaves all other objects as they are. -/
theorem new_address_fresh (D : ω → List (Op ω)) (n : Nat) (ops : List (Op ω)) (m : Mem ω)
    (h : history D n ops {} = some m) (o : ω) (r : Ref) (m' : Mem ω)
    (e : newObject o m = some (r, m')) :
    r ≠ 0 ∧ r ∉ createdAddrs m.log ∧ get m r = none ∧ get m' r = some o ∧
    createdAddrs m'.log = r :: createdAddrs m.log ∧
    ∀ r', r' ≠ r → m'.cells.find r' = m.cells.find r' := by
  have hi := addrInv_history D n ops {} m addrInv_empty h
  obtain ⟨rfl, -, rfl⟩ := newObject_some hi e
  have := hi.pos
  refine ⟨by omega, fun hm => ?_, ?_, ?_, ?_, ?_⟩
  · have := hi.createdLt _ hm; omega
  · have : m.next ∉ m.cells.keys := fun hk => by have := hi.cellsLt _ hk; omega
    simp [get, (AMap.find_eq_none_iff _ _).2 this]
  · simp [get, AMap.find_set_self]
  · simp [createdAddrs]
  · intro r' hr'
    simp only
    rw [AMap.find_set_ne (Ne.symm hr'), AMap.find_set_ne (Ne.symm hr')]

/-- **C01**, part 3.  Creation fails exactly when all 2^32 - 2 addresses have been handed
out, and then it fails with an exception that changes nothing. -/
theorem new_fails_iff_exhausted (D : ω → List (Op ω)) (n : Nat) (ops : List (Op ω)) (m : Mem ω)
    (h : history D n ops {} = some m) (o : ω) :
    (newObject o m = none ↔ (createdAddrs m.log).length ≥ 4294967294) ∧
    ((createdAddrs m.log).length ≥ 4294967294 → ∀ k, exec D (k + 1) (.new o) m = .throw m) := by
  have hl := created_length_history D n ops m h
  have h1 : newObject o m = none ↔ (createdAddrs m.log).length ≥ 4294967294 := by
    unfold newObject
    simp only [uintSize]
    split
    · simp; omega
    · simp; omega
  refine ⟨h1, fun hge k => ?_⟩
  simp [exec, h1.2 hge]

/-- The hypotheses are met: two objects are created, the first is destroyed, a third is
created, and a destructor creates a fourth. -/
example : ∃ m, history (fun b : Bool => if b then [.new false] else []) 3
      [.new true, .new false, .add 1, .remove 1, .new false] {} = some m ∧
    createdAddrs m.log = [4, 3, 2, 1] ∧ get m 1 = none ∧ get m 4 = some false :=
  ⟨_, rfl, by decide, by decide, by decide⟩

/-- **C02**.  After any run of requests, with any destructors, in which nobody releases a reference
that nobody holds and nobody takes a reference to an object whose last reference is gone, an object that was ever
referenced is alive if and only if references to it are outstanding; it has been
destroyed exactly once if not, and never if so. -/
theorem object_lives_iff_referenced (D : ω → List (Op ω)) (n : Nat) (ops : List (Op ω)) (m : Mem ω)
    (h : runOps (exec D n) ops {} = .ok m) (hw : WellBehaved m.log) (hl : m.log.length < 4294967296)
    (r : Ref) (href : .took r ∈ m.log) :
    ((get m r).isSome ↔ outstanding r m.log > 0) ∧
    (m.log.count (.destroyed r) = if outstanding r m.log > 0 then 0 else 1) ∧
    (∀ c, m.cells.find r = some c → (c.count : Int) = outstanding r m.log) := by
  have hi := lInv_runOps D n ops {} m [] lInv_empty h hw hl
  have hcr := hi.addr.eventsCreated r (Or.inl href)
  refine ⟨?_, ?_, hi.count r⟩
  · by_cases hk : r ∈ m.cells.keys
    · have : (get m r).isSome := by
        cases hf : m.cells.find r with
        | none => exact absurd hk ((AMap.find_eq_none_iff _ _).1 hf)
        | some c => simp [get, hf]
      simp only [this, true_iff]
      by_cases hrel : .released r ∈ m.log
      · exact hi.live r hk (by simp) hrel
      · have := List.count_pos_iff.2 href
        have h0 := List.count_eq_zero_of_not_mem hrel
        simp only [outstanding, h0]; omega
    · have h0 := (AMap.find_eq_none_iff _ _).2 hk
      have := hi.gone r hcr hk
      simp [get, h0, this]
  · by_cases hk : r ∈ m.cells.keys
    · have hp := hi.present r hk
      have : outstanding r m.log > 0 := by
        by_cases hrel : .released r ∈ m.log
        · exact hi.live r hk (by simp) hrel
        · have := List.count_pos_iff.2 href
          have h0 := List.count_eq_zero_of_not_mem hrel
          simp only [outstanding, h0]; omega
      simp [hp, this]
    · have := hi.gone r hcr hk
      simp [this]

/-- **C02**, the moment of destruction: destruction happens during the release that drops the last reference
and at no other time; objects that were created but never referenced stay alive. -/
theorem destroyed_only_by_last_release (D : ω → List (Op ω)) (n : Nat) (ops : List (Op ω)) (m : Mem ω)
    (h : runOps (exec D n) ops {} = .ok m) (hw : WellBehaved m.log) (hl : m.log.length < 4294967296)
    (r : Ref) : .destroyed r ∈ m.log → .released r ∈ m.log ∧ outstanding r m.log = 0 := by
  have hi := lInv_runOps D n ops {} m [] lInv_empty h hw hl
  intro hd
  have hcr := hi.addr.eventsCreated r (Or.inr (Or.inr hd))
  have hk : r ∉ m.cells.keys := fun hk => by
    have := hi.present r hk
    have := List.count_pos_iff.2 hd
    omega
  have := hi.gone r hcr hk
  exact ⟨this.2.1, this.1⟩

/-- The hypotheses are met: object 1 owns object 2 (its destruction releases 2); 2 is also
held by a client.  Releasing 1 destroys 1 only. -/
example : ∃ m, runOps (exec (fun b : Bool => if b then [.remove 2] else []) 3)
      [.new true, .new false, .add 1, .add 2, .add 2, .remove 1] {} = .ok m ∧
    WellBehaved m.log ∧ get m 1 = none ∧ (get m 2).isSome ∧ outstanding 2 m.log = 1 := by
  refine ⟨_, rfl, ?_, rfl, rfl, by decide⟩
  simp [WellBehaved, outstanding]

/-- **C03**, null references: taking or releasing null changes nothing at all. -/
theorem null_is_noop (D : ω → List (Op ω)) (n : Nat) (m : Mem ω) :
    exec D (n + 1) (.add 0) m = .ok m ∧ exec D (n + 1) (.remove 0) m = .ok m := by
  simp [exec, add, remove]

/-- **C03**, unknown addresses: an error is raised and nothing changes. -/
theorem unknown_address_throws (D : ω → List (Op ω)) (n : Nat) (m : Mem ω) (r : Ref)
    (hr : r ≠ 0) (hg : get m r = none) :
    exec D (n + 1) (.add r) m = .throw m ∧ exec D (n + 1) (.remove r) m = .throw m := by
  have : m.cells.find r = none := by
    cases h : m.cells.find r with
    | none => rfl
    | some c => simp [get, h] at hg
  simp [exec, add, remove, this, hr]

/-- **C03**, isolation: taking or releasing a reference to one object, when the destruction of that
object does nothing by itself, changes neither count nor liveness of any other object. -/
theorem reference_ops_isolated (D : ω → List (Op ω)) (n : Nat) (m m' : Mem ω) (r r' : Ref) (hne : r' ≠ r)
    (hleaf : ∀ o, get m r = some o → D o = [])
    (h : exec D (n + 1) (.add r) m = .ok m' ∨ exec D (n + 1) (.remove r) m = .ok m') :
    m'.cells.find r' = m.cells.find r' := by
  rcases h with h | h
  · simp only [exec, add] at h
    split at h
    · cases h; rfl
    · split at h
      · cases h
      · cases h; exact AMap.find_set_ne (Ne.symm hne) _ _
  · simp only [exec, remove] at h
    split at h
    · cases h; rfl
    · split at h
      · cases h
      · rename_i c hc
        split at h
        · have hD : D c.obj = [] := hleaf _ (by simp [get, hc])
          simp only [deleteObject, AMap.find_set_self, hD, runOps, Res.bind] at h
          cases h
          simp only [AMap.find_erase_ne (Ne.symm hne)]
          exact AMap.find_set_ne (Ne.symm hne) _ _
        · cases h; exact AMap.find_set_ne (Ne.symm hne) _ _

/-- **C03**, isolation, for any destructor: unless the last reference is released, only the count of
that one object changes, by one. -/
theorem release_not_last_isolated (D : ω → List (Op ω)) (n : Nat) (m : Mem ω) (r : Ref) (c : Cell ω)
    (hr : r ≠ 0) (hc : m.cells.find r = some c) (h1 : 1 < c.count) (h2 : c.count < 4294967296) :
    ∃ m', exec D (n + 1) (.remove r) m = .ok m' ∧ m'.next = m.next ∧
      m'.cells.find r = some { c with count := c.count - 1 } ∧
      ∀ r', r' ≠ r → m'.cells.find r' = m.cells.find r' := by
  have hcnt : (c.count + (uintSize - 1)) % uintSize = c.count - 1 := by simp only [uintSize]; omega
  simp only [exec, remove, if_neg hr, hc, hcnt]
  rw [if_neg (by omega)]
  exact ⟨_, rfl, rfl, AMap.find_set_self .., fun r' hr' => AMap.find_set_ne (Ne.symm hr') _ _⟩

/-- Taking a reference to a live object raises its count by one (modulo the width of the counter). -/
theorem add_increments (D : ω → List (Op ω)) (n : Nat) (m : Mem ω) (r : Ref) (c : Cell ω)
    (hr : r ≠ 0) (hc : m.cells.find r = some c) (h2 : c.count + 1 < 4294967296) :
    ∃ m', exec D (n + 1) (.add r) m = .ok m' ∧ m'.next = m.next ∧
      m'.cells.find r = some { c with count := c.count + 1 } ∧
      ∀ r', r' ≠ r → m'.cells.find r' = m.cells.find r' := by
  simp only [exec, add, if_neg hr, hc, uintSize, Nat.mod_eq_of_lt h2]
  exact ⟨_, rfl, rfl, AMap.find_set_self .., fun r' hr' => AMap.find_set_ne (Ne.symm hr') _ _⟩

/-- The hypotheses of the isolation theorems are met by a heap with two objects. -/
example : ∃ m m' : Mem Unit, history (fun _ => []) 1 [.new (), .new (), .add 1, .add 1, .add 2] {} = some m ∧
    exec (fun _ => []) 1 (.remove 2) m = .ok m' ∧ get m' 2 = none ∧
    (m'.cells.find 1).map Cell.count = some 2 :=
  ⟨_, _, rfl, rfl, by decide, by decide⟩

/-- **C70**, refuted.  A destructor that takes and drops a reference to its own object (for instance
by storing `this` in a local variable) never terminates: releasing the last reference exceeds
every bound on the nesting of destructions. -/
theorem destructor_self_reference_refuted :
    ∃ (D : Unit → List (Op Unit)) (ops : List (Op Unit)), ∀ n, history D n ops {} = none := by
  refine ⟨fun _ => [.add 1, .remove 1], [.new (), .add 1, .remove 1], ?_⟩
  have key : ∀ (n : Nat) (l : List Event),
      exec (fun _ : Unit => [.add 1, .remove 1]) n (.remove 1)
        { next := 2, cells := [(1, ⟨1, ()⟩)], log := l } = .fuel := by
    intro n
    induction n with
    | zero => intro l; rfl
    | succ n ih =>
      intro l
      have hz : (1 + (uintSize - 1)) % uintSize = 0 := by decide
      cases n with
      | zero => simp [exec, remove, AMap.find, AMap.set, hz, deleteObject, runOps, Res.bind]
      | succ n =>
        have := ih (.took 1 :: .released 1 :: l)
        rw [exec]
        simp only [remove, AMap.find, AMap.set, hz, deleteObject, if_true, runOps]
        have ha : exec (fun _ : Unit => [.add 1, .remove 1]) (n + 1) (.add 1)
            { next := 2, cells := [(1, ⟨0, ()⟩)], log := .released 1 :: l } =
            .ok { next := 2, cells := [(1, ⟨1, ()⟩)], log := .took 1 :: .released 1 :: l } := rfl
        simp only [ha, Res.bind, this]
        simp
  intro n
  cases n with
  | zero => rfl
  | succ n =>
    simp only [history]
    have h1 : exec (fun _ : Unit => [.add 1, .remove 1]) (n + 1) (.new ()) {} =
        .ok { next := 2, cells := [(1, ⟨0, ()⟩)], log := [.created 1] } := rfl
    have h2 : exec (fun _ : Unit => [.add 1, .remove 1]) (n + 1) (.add 1)
        { next := 2, cells := [(1, ⟨0, ()⟩)], log := [.created 1] } =
        .ok { next := 2, cells := [(1, ⟨1, ()⟩)], log := [.took 1, .created 1] } := rfl
    simp [h1, h2, key]

end Verif.Memory
