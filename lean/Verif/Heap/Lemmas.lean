import Verif.Heap.Spec

namespace Verif.Heap

open Verif.Memory

abbrev Cells := AMap Nat (Cell Fields)

/-- References to `r` from members of objects that are not being destroyed. -/
def inner (dy : List Nat) (r : Nat) : Cells → Nat
  | [] => 0
  | (s, c) :: m => (if s ∈ dy then 0 else c.obj.count r) + inner dy r m

/-- The number of objects that are not being destroyed. -/
def nd (dy : List Nat) : Cells → Nat
  | [] => 0
  | (s, _) :: m => (if s ∈ dy then 0 else 1) + nd dy m

theorem inner_set {dy : List Nat} {r s : Nat} {c c' : Cell Fields} {m : Cells} (h : m.find s = some c) :
    inner dy r (m.set s c') + (if s ∈ dy then 0 else c.obj.count r)
      = inner dy r m + (if s ∈ dy then 0 else c'.obj.count r) := by
  induction m with
  | nil => simp [AMap.find] at h
  | cons p m ih =>
    obtain ⟨k, v⟩ := p
    by_cases hk : k = s
    · subst hk
      simp only [AMap.find, if_true, Option.some.injEq] at h; subst h
      simp only [AMap.set, if_true, inner]; omega
    · simp only [AMap.find, if_neg hk] at h
      have := ih h
      simp only [AMap.set, if_neg hk, inner]; omega

theorem inner_set_same {dy : List Nat} {r s n : Nat} {c : Cell Fields} {m : Cells} (h : m.find s = some c) :
    inner dy r (m.set s { c with count := n }) = inner dy r m := by
  have := inner_set (dy := dy) (r := r) (c' := { c with count := n }) h
  simp only at this; omega

theorem nd_set {dy : List Nat} {s : Nat} {c c' : Cell Fields} {m : Cells} (h : m.find s = some c) :
    nd dy (m.set s c') = nd dy m := by
  induction m with
  | nil => simp [AMap.find] at h
  | cons p m ih =>
    obtain ⟨k, v⟩ := p
    by_cases hk : k = s
    · subst hk; simp only [AMap.set, if_true, nd]
    · simp only [AMap.find, if_neg hk] at h
      simp only [AMap.set, if_neg hk, nd, ih h]

theorem inner_new {dy : List Nat} {r s : Nat} {c : Cell Fields} {m : Cells} (h : s ∉ m.keys) :
    inner dy r (m.set s c) = inner dy r m + (if s ∈ dy then 0 else c.obj.count r) := by
  induction m with
  | nil => simp [AMap.set, inner]
  | cons p m ih =>
    obtain ⟨k, v⟩ := p
    simp only [AMap.keys, List.map_cons, List.mem_cons, not_or] at h
    have hk : ¬ k = s := fun e => h.1 e.symm
    have := ih h.2
    simp only [AMap.set, if_neg hk, inner]; omega

theorem inner_notin {dy : List Nat} {r s : Nat} {m : Cells} (h : s ∉ m.keys) :
    inner (s :: dy) r m = inner dy r m := by
  induction m with
  | nil => rfl
  | cons p m ih =>
    obtain ⟨k, v⟩ := p
    simp only [AMap.keys, List.map_cons, List.mem_cons, not_or] at h
    have hk : ¬ k = s := fun e => h.1 e.symm
    simp only [inner, List.mem_cons, hk, false_or, ih h.2]

theorem nd_notin {dy : List Nat} {s : Nat} {m : Cells} (h : s ∉ m.keys) :
    nd (s :: dy) m = nd dy m := by
  induction m with
  | nil => rfl
  | cons p m ih =>
    obtain ⟨k, v⟩ := p
    simp only [AMap.keys, List.map_cons, List.mem_cons, not_or] at h
    have hk : ¬ k = s := fun e => h.1 e.symm
    simp only [nd, List.mem_cons, hk, false_or, ih h.2]

theorem inner_dying {dy : List Nat} {r s : Nat} {c : Cell Fields} {m : Cells} (hn : m.keys.Nodup)
    (h : m.find s = some c) (hs : s ∉ dy) :
    inner (s :: dy) r m + c.obj.count r = inner dy r m := by
  induction m with
  | nil => simp [AMap.find] at h
  | cons p m ih =>
    obtain ⟨k, v⟩ := p
    simp only [AMap.keys, List.map_cons, List.nodup_cons] at hn
    by_cases hk : k = s
    · subst hk
      simp only [AMap.find, if_true, Option.some.injEq] at h; subst h
      have := inner_notin (dy := dy) (r := r) hn.1
      simp [inner, hs]; omega
    · simp only [AMap.find, if_neg hk] at h
      have := ih hn.2 h
      simp only [inner, List.mem_cons, hk, false_or]; omega

theorem nd_dying {dy : List Nat} {s : Nat} {c : Cell Fields} {m : Cells} (hn : m.keys.Nodup)
    (h : m.find s = some c) (hs : s ∉ dy) :
    nd (s :: dy) m + 1 = nd dy m := by
  induction m with
  | nil => simp [AMap.find] at h
  | cons p m ih =>
    obtain ⟨k, v⟩ := p
    simp only [AMap.keys, List.map_cons, List.nodup_cons] at hn
    by_cases hk : k = s
    · subst hk
      have := nd_notin (dy := dy) hn.1
      simp [nd, hs]; omega
    · simp only [AMap.find, if_neg hk] at h
      have := ih hn.2 h
      simp only [nd, List.mem_cons, hk, false_or]; omega

theorem inner_erase_dying {dy : List Nat} {r s : Nat} {m : Cells} (hs : s ∈ dy) :
    inner dy r (m.erase s) = inner dy r m := by
  induction m with
  | nil => rfl
  | cons p m ih =>
    obtain ⟨k, v⟩ := p
    by_cases hk : k = s
    · subst hk; simp [AMap.erase, inner, hs]
    · simp only [AMap.erase, if_neg hk, inner, ih]

theorem nd_erase_dying {dy : List Nat} {s : Nat} {m : Cells} (hs : s ∈ dy) :
    nd dy (m.erase s) = nd dy m := by
  induction m with
  | nil => rfl
  | cons p m ih =>
    obtain ⟨k, v⟩ := p
    by_cases hk : k = s
    · subst hk; simp [AMap.erase, nd, hs]
    · simp only [AMap.erase, if_neg hk, nd, ih]

theorem nd_le_length (dy : List Nat) (m : Cells) : nd dy m ≤ m.length := by
  induction m with
  | nil => simp [nd]
  | cons p m ih => obtain ⟨k, v⟩ := p; simp only [nd, List.length_cons]; split <;> omega

/-- The counting invariant.  `ext r` is the number of references to `r` from outside the heap
(variables, and references about to be released); `dy` are the objects being destroyed; `fr` objects that were just created. -/
structure CInv (ext : Nat → Nat) (dy fr : List Nat) (m : Mem Fields) : Prop where
  addr : AddrInv m
  count : ∀ r c, m.cells.find r = some c → c.count = ext r + inner dy r m.cells
  dead : ∀ r, r ≠ 0 → r ∉ m.cells.keys → ext r + inner dy r m.cells = 0
  dying : ∀ r ∈ dy, r ∈ m.cells.keys ∧ ext r + inner dy r m.cells = 0
  pos : ∀ r, r ∈ m.cells.keys → r ∉ dy → r ∈ fr ∨ 0 < ext r + inner dy r m.cells
  small : ∀ r, r ≠ 0 → ext r + inner dy r m.cells < uintSize

theorem CInv.key_ne_zero {ext : Nat → Nat} {dy fr : List Nat} {m : Mem Fields} (h : CInv ext dy fr m)
    {r : Nat} (hr : r ∈ m.cells.keys) : r ≠ 0 := by
  have := h.addr.createdLt r (h.addr.cellsCreated r hr); omega

/-- The state keeps, of the old one, the objects that survive, with the same members. -/
structure Shrinks (m m' : Mem Fields) : Prop where
  next : m'.next = m.next
  obj : ∀ s c', m'.cells.find s = some c' → ∃ c, m.cells.find s = some c ∧ c.obj = c'.obj

theorem Shrinks.refl (m : Mem Fields) : Shrinks m m := ⟨rfl, fun _ c' h => ⟨c', h, rfl⟩⟩

theorem Shrinks.trans {a b c : Mem Fields} (h1 : Shrinks a b) (h2 : Shrinks b c) : Shrinks a c :=
  ⟨h2.next.trans h1.next, fun s c' h => by
    obtain ⟨c1, h3, h4⟩ := h2.obj s c' h
    obtain ⟨c2, h5, h6⟩ := h1.obj s c1 h3
    exact ⟨c2, h5, h6.trans h4⟩⟩

theorem CInv.congr {ext ext' : Nat → Nat} {dy fr : List Nat} {m : Mem Fields} (h : CInv ext dy fr m)
    (he : ∀ r, r ≠ 0 → ext' r = ext r) : CInv ext' dy fr m := by
  refine ⟨h.addr, ?_, ?_, ?_, ?_, ?_⟩
  · intro r c hc; rw [he r (h.key_ne_zero (AMap.mem_keys_of_find hc))]; exact h.count r c hc
  · intro r hr hk; rw [he r hr]; exact h.dead r hr hk
  · intro r hr
    have := h.dying r hr
    rw [he r (h.key_ne_zero this.1)]; exact this
  · intro r hr hd; rw [he r (h.key_ne_zero hr)]; exact h.pos r hr hd
  · intro r hr; rw [he r hr]; exact h.small r hr

/-- Releasing one reference succeeds, keeps the invariant, and destroys only. -/
theorem release (n : Nat) : ∀ (r : Nat) (m : Mem Fields) (ext : Nat → Nat) (dy : List Nat),
    CInv (fun s => ext s + if s = r then 1 else 0) dy [] m → nd dy m.cells < n →
    ∃ m', exec destroyFields n (.remove r) m = .ok m' ∧ CInv ext dy [] m' ∧ Shrinks m m' ∧
      nd dy m'.cells ≤ nd dy m.cells := by
  induction n with
  | zero => intro r m ext dy _ h; omega
  | succ n ih =>
    -- a list of releases
    have hrun : ∀ (L : List Nat) (m : Mem Fields) (ext : Nat → Nat) (dy : List Nat),
        CInv (fun s => ext s + L.count s) dy [] m → nd dy m.cells < n →
        ∃ m', runOps (exec destroyFields n) (L.map .remove) m = .ok m' ∧ CInv ext dy [] m' ∧ Shrinks m m' ∧
          nd dy m'.cells ≤ nd dy m.cells := by
      intro L
      induction L with
      | nil =>
        intro m ext dy hi hn
        exact ⟨m, rfl, hi.congr (by simp), Shrinks.refl m, Nat.le_refl _⟩
      | cons a L ihL =>
        intro m ext dy hi hn
        have hi' : CInv (fun s => (ext s + L.count s) + if s = a then 1 else 0) dy [] m := by
          refine hi.congr fun s _ => ?_
          simp only [List.count_cons, beq_iff_eq]
          by_cases h : s = a
          · subst h; simp; omega
          · simp [h, Ne.symm h]
        obtain ⟨m₁, e1, i1, s1, n1⟩ := ih a m _ dy hi' hn
        obtain ⟨m₂, e2, i2, s2, n2⟩ := ihL m₁ ext dy i1 (by omega)
        refine ⟨m₂, ?_, i2, s1.trans s2, by omega⟩
        simp only [List.map_cons, runOps, e1, Res.bind, e2]
    intro r m ext dy hi hn
    by_cases hr : r = 0
    · refine ⟨m, by simp [exec, remove, hr], hi.congr ?_, Shrinks.refl m, Nat.le_refl _⟩
      intro s hs; simp [hr, hs]
    · have hk : r ∈ m.cells.keys := by
        by_cases hk : r ∈ m.cells.keys
        · exact hk
        · have := hi.dead r hr hk; simp at this
      cases hf : m.cells.find r with
      | none => exact absurd hk ((AMap.find_eq_none_iff _ _).1 hf)
      | some c =>
        have hcnt := hi.count r c hf
        have hsm := hi.small r hr
        have hnd : r ∉ dy := fun hd => by have := (hi.dying r hd).2; simp at this
        simp only [if_true] at hcnt hsm
        have hc' : (c.count + (uintSize - 1)) % uintSize = c.count - 1 := by
          simp only [uintSize] at *; omega
        have hinner : ∀ dy' s, inner dy' s (m.cells.set r { c with count := c.count - 1 }) = inner dy' s m.cells :=
          fun dy' s => inner_set_same hf
        have hkeys := AMap.keys_set_of_mem (v := ({ c with count := c.count - 1 } : Cell Fields)) hk
        have ha := addrInv_dec (n := c.count - 1) hi.addr hf
        by_cases hz : c.count - 1 = 0
        · -- the last reference: the object is destroyed
          have hi1 : CInv (fun s => ext s + c.obj.count s) (r :: dy) []
              { m with cells := m.cells.set r { c with count := c.count - 1 }, log := .released r :: m.log } := by
            have hdy : ∀ s, inner (r :: dy) s m.cells + c.obj.count s = inner dy s m.cells :=
              fun s => inner_dying hi.addr.cellsNodup hf hnd
            refine ⟨ha, ?_, ?_, ?_, ?_, ?_⟩
            · intro s cs hs
              simp only [hinner] at hs ⊢
              have := hdy s
              by_cases hsr : r = s
              · subst hsr
                rw [AMap.find_set_self] at hs; cases hs
                simp only; omega
              · rw [AMap.find_set_ne hsr] at hs
                have := hi.count s cs hs
                simp only [Ne.symm hsr, if_false] at this; omega
            · intro s hs hk'
              simp only [hkeys, hinner] at hk' ⊢
              have := hdy s
              have := hi.dead s hs hk'
              have hsr : s ≠ r := fun e => hk' (e ▸ hk)
              simp only [hsr, if_false] at this; omega
            · intro s hs
              simp only [hkeys, hinner]
              have := hdy s
              rcases List.mem_cons.1 hs with rfl | hs
              · exact ⟨hk, by omega⟩
              · have h2 := hi.dying s hs
                have hsr : s ≠ r := fun e => hnd (e ▸ hs)
                simp only [hsr, if_false] at h2
                exact ⟨h2.1, by omega⟩
            · intro s hs hd
              simp only [hkeys] at hs
              simp only [List.mem_cons, not_or] at hd
              simp only [hinner]
              have := hdy s
              have h2 := hi.pos s hs hd.2
              simp only [hd.1, if_false, List.not_mem_nil, false_or] at h2
              exact Or.inr (by omega)
            · intro s hs
              simp only [hinner]
              have := hdy s
              have h2 := hi.small s hs
              split at h2 <;> omega
          have hn1 : nd (r :: dy) (m.cells.set r { c with count := c.count - 1 }) < n := by
            rw [nd_set hf]
            have := nd_dying hi.addr.cellsNodup hf hnd
            omega
          obtain ⟨m₁, e1, i1, s1, n1⟩ := hrun c.obj _ ext (r :: dy) hi1 hn1
          have hk1 := (i1.dying r (List.mem_cons_self ..)).1
          cases hf1 : m₁.cells.find r with
          | none => exact absurd hk1 ((AMap.find_eq_none_iff _ _).1 hf1)
          | some c1 =>
            have hself : r ∉ (m₁.cells.erase r).keys :=
              (AMap.find_eq_none_iff _ _).1 (AMap.find_erase_self i1.addr.cellsNodup)
            have hinn : ∀ s, inner dy s (m₁.cells.erase r) = inner (r :: dy) s m₁.cells := by
              intro s
              rw [← inner_notin hself, inner_erase_dying (List.mem_cons_self ..)]
            refine ⟨{ m₁ with cells := m₁.cells.erase r, log := .destroyed r :: m₁.log }, ?_, ?_, ?_, ?_⟩
            · simp only [exec, remove, if_neg hr, hf, hc', hz, if_true, deleteObject, AMap.find_set_self]
              simp only [hz] at e1
              rw [destroyFields, e1]
              simp only [Res.bind, hf1]
            · have hsub := (AMap.keys_erase_sublist r m₁.cells).subset
              refine ⟨addrInv_del i1.addr hf1, ?_, ?_, ?_, ?_, ?_⟩
              · intro s cs hs
                simp only [hinn] at hs ⊢
                have hsr : r ≠ s := by rintro rfl; exact hself (AMap.mem_keys_of_find hs)
                rw [AMap.find_erase_ne hsr] at hs
                exact i1.count s cs hs
              · intro s hs hk'
                simp only [hinn] at hk' ⊢
                by_cases hsr : s = r
                · subst hsr; exact (i1.dying s (List.mem_cons_self ..)).2
                · refine i1.dead s hs ?_
                  rw [← AMap.find_eq_none_iff] at hk' ⊢
                  rwa [AMap.find_erase_ne (Ne.symm hsr)] at hk'
              · intro s hs
                simp only [hinn]
                have h2 := i1.dying s (List.mem_cons_of_mem _ hs)
                have hsr : s ≠ r := fun e => hnd (e ▸ hs)
                refine ⟨?_, h2.2⟩
                by_cases hks : s ∈ (m₁.cells.erase r).keys
                · exact hks
                · rw [← AMap.find_eq_none_iff, AMap.find_erase_ne (Ne.symm hsr), AMap.find_eq_none_iff] at hks
                  exact absurd h2.1 hks
              · intro s hs hd
                simp only [hinn]
                have hsr : s ≠ r := fun e => hself (e ▸ hs)
                exact i1.pos s (hsub hs) (by simp [hsr, hd])
              · intro s hs; simp only [hinn]; exact i1.small s hs
            · refine Shrinks.trans (b := m₁) ?_ ⟨rfl, ?_⟩
              · refine Shrinks.trans ?_ s1
                refine ⟨rfl, fun s cs hs => ?_⟩
                simp only at hs
                by_cases hsr : r = s
                · subst hsr; rw [AMap.find_set_self] at hs; cases hs; exact ⟨c, hf, rfl⟩
                · rw [AMap.find_set_ne hsr] at hs; exact ⟨cs, hs, rfl⟩
              · intro s cs hs
                simp only at hs
                have hsr : r ≠ s := by rintro rfl; exact hself (AMap.mem_keys_of_find hs)
                rw [AMap.find_erase_ne hsr] at hs
                exact ⟨cs, hs, rfl⟩
            · simp only
              rw [← nd_notin hself, nd_erase_dying (List.mem_cons_self ..)]
              rw [nd_set hf] at n1
              have := nd_dying hi.addr.cellsNodup hf hnd
              omega
        · -- not the last reference
          refine ⟨_, by simp only [exec, remove, if_neg hr, hf, hc', hz, if_false]; rfl, ?_, ?_, ?_⟩
          · refine ⟨ha, ?_, ?_, ?_, ?_, ?_⟩
            · intro s cs hs
              simp only [hinner] at hs ⊢
              by_cases hsr : r = s
              · subst hsr
                rw [AMap.find_set_self] at hs; cases hs
                simp only; omega
              · rw [AMap.find_set_ne hsr] at hs
                have := hi.count s cs hs
                simp only [Ne.symm hsr, if_false] at this; omega
            · intro s hs hk'
              simp only [hkeys, hinner] at hk' ⊢
              have := hi.dead s hs hk'
              omega
            · intro s hs
              simp only [hkeys, hinner]
              have h2 := hi.dying s hs
              exact ⟨h2.1, by omega⟩
            · intro s hs hd
              simp only [hkeys] at hs
              simp only [hinner]
              have h2 := hi.pos s hs hd
              by_cases hsr : s = r
              · subst hsr; right; omega
              · simp only [hsr, if_false, List.not_mem_nil, false_or] at h2
                exact Or.inr (by omega)
            · intro s hs
              simp only [hinner]
              have h2 := hi.small s hs
              omega
          · refine ⟨rfl, fun s cs hs => ?_⟩
            simp only at hs
            by_cases hsr : r = s
            · subst hsr; rw [AMap.find_set_self] at hs; cases hs; exact ⟨c, hf, rfl⟩
            · rw [AMap.find_set_ne hsr] at hs; exact ⟨cs, hs, rfl⟩
          · simp only [nd_set hf]; omega

end Verif.Heap
