/-!
# Association lists

The C++ code stores its tables in `std::map`.  We model a `std::map<K, V>` by an
association list.  Only the documented contract of `find`, `insert`,
`operator[]` and `erase` is used, so the order of the list is irrelevant.
-/

namespace Verif

/-- A finite map, as an association list (models `std::map<K, V>`). -/
abbrev AMap (κ : Type) (α : Type) := List (κ × α)

namespace AMap

variable {κ α : Type} [DecidableEq κ]

/-- `map.find(k)`: the value stored under `k`, or `none` for `end()`. -/
def find (k : κ) : AMap κ α → Option α
  | [] => none
  | (k', v) :: m => if k' = k then some v else find k m

/-- `map[k] = v`: overwrite the value of an existing key, or add the key. -/
def set (k : κ) (v : α) : AMap κ α → AMap κ α
  | [] => [(k, v)]
  | (k', v') :: m => if k' = k then (k, v) :: m else (k', v') :: set k v m

/-- `map.erase(k)`. -/
def erase (k : κ) : AMap κ α → AMap κ α
  | [] => []
  | (k', v') :: m => if k' = k then m else (k', v') :: erase k m

/-- The keys. -/
def keys (m : AMap κ α) : List κ := m.map Prod.fst

theorem find_set_self (k : κ) (v : α) (m : AMap κ α) : (m.set k v).find k = some v := by
  induction m with
  | nil => simp [set, find]
  | cons p m ih =>
    obtain ⟨k', v'⟩ := p
    by_cases h : k' = k <;> simp [set, find, h, ih]

theorem find_set_ne {k k' : κ} (h : k ≠ k') (v : α) (m : AMap κ α) :
    (m.set k v).find k' = m.find k' := by
  induction m with
  | nil => simp [set, find, h]
  | cons p m ih =>
    obtain ⟨k₁, v₁⟩ := p
    by_cases h₁ : k₁ = k
    · subst h₁; simp [set, find, h]
    · simp only [set, h₁, if_false, find, ih]

theorem find_erase_ne {k k' : κ} (h : k ≠ k') (m : AMap κ α) :
    (m.erase k).find k' = m.find k' := by
  induction m with
  | nil => simp [erase]
  | cons p m ih =>
    obtain ⟨k₁, v₁⟩ := p
    by_cases h₁ : k₁ = k
    · subst h₁; simp [erase, find, h]
    · simp only [erase, h₁, if_false, find, ih]

theorem find_eq_none_iff (k : κ) (m : AMap κ α) : m.find k = none ↔ k ∉ m.keys := by
  induction m with
  | nil => simp [find, keys]
  | cons p m ih =>
    obtain ⟨k₁, v₁⟩ := p
    by_cases h₁ : k₁ = k
    · simp [find, keys, h₁]
    · simp only [find, h₁, if_false, ih, keys, List.map_cons, List.mem_cons, not_or]
      constructor
      · intro h; exact ⟨fun e => h₁ e.symm, h⟩
      · intro h; exact h.2

theorem mem_keys_of_find {k : κ} {v : α} {m : AMap κ α} (h : m.find k = some v) : k ∈ m.keys := by
  by_cases hk : k ∈ m.keys
  · exact hk
  · rw [(find_eq_none_iff k m).2 hk] at h; cases h

theorem mem_of_find {k : κ} {v : α} {m : AMap κ α} (h : m.find k = some v) : (k, v) ∈ m := by
  induction m with
  | nil => simp [find] at h
  | cons p m ih =>
    obtain ⟨k₁, v₁⟩ := p
    by_cases h₁ : k₁ = k
    · simp only [find, h₁, if_true, Option.some.injEq] at h; simp [h₁, h]
    · simp only [find, h₁, if_false] at h; exact List.mem_cons_of_mem _ (ih h)

theorem find_of_mem {k : κ} {v : α} {m : AMap κ α} (hn : m.keys.Nodup) (h : (k, v) ∈ m) :
    m.find k = some v := by
  induction m with
  | nil => simp at h
  | cons p m ih =>
    obtain ⟨k₁, v₁⟩ := p
    simp only [keys, List.map_cons, List.nodup_cons] at hn
    rcases List.mem_cons.1 h with h | h
    · cases h; simp [find]
    · have : k₁ ≠ k := by
        intro e; subst e
        exact hn.1 (List.mem_map.2 ⟨_, h, rfl⟩)
      simp only [find, this, if_false]
      exact ih hn.2 h

theorem find_erase_self {k : κ} {m : AMap κ α} (hn : m.keys.Nodup) :
    (m.erase k).find k = none := by
  induction m with
  | nil => simp [erase, find]
  | cons p m ih =>
    obtain ⟨k₁, v₁⟩ := p
    simp only [keys, List.map_cons, List.nodup_cons] at hn
    by_cases h₁ : k₁ = k
    · subst h₁; simp only [erase, if_true]
      exact (find_eq_none_iff _ _).2 hn.1
    · simp only [erase, h₁, if_false, find]; exact ih hn.2

theorem keys_erase_sublist (k : κ) (m : AMap κ α) : (m.erase k).keys.Sublist m.keys := by
  induction m with
  | nil => simp [erase, keys]
  | cons p m ih =>
    obtain ⟨k₁, v₁⟩ := p
    by_cases h₁ : k₁ = k
    · simp [erase, h₁, keys]
    · simp only [erase, h₁, if_false, keys, List.map_cons]
      exact List.Sublist.cons_cons _ ih

theorem nodup_erase {k : κ} {m : AMap κ α} (hn : m.keys.Nodup) : (m.erase k).keys.Nodup :=
  hn.sublist (keys_erase_sublist k m)

theorem mem_keys_set {k k' : κ} {v : α} {m : AMap κ α} :
    k' ∈ (m.set k v).keys ↔ k' = k ∨ k' ∈ m.keys := by
  induction m with
  | nil => simp [set, keys]
  | cons p m ih =>
    obtain ⟨k₁, v₁⟩ := p
    by_cases h₁ : k₁ = k
    · subst h₁; simp [set, keys]
    · simp only [set, h₁, if_false, keys, List.map_cons, List.mem_cons] at ih ⊢
      rw [ih]; constructor
      · rintro (h | h | h)
        · exact Or.inr (Or.inl h)
        · exact Or.inl h
        · exact Or.inr (Or.inr h)
      · rintro (h | h | h)
        · exact Or.inr (Or.inl h)
        · exact Or.inl h
        · exact Or.inr (Or.inr h)

theorem nodup_set {k : κ} {v : α} {m : AMap κ α} (hn : m.keys.Nodup) :
    (m.set k v).keys.Nodup := by
  induction m with
  | nil => simp [set, keys]
  | cons p m ih =>
    obtain ⟨k₁, v₁⟩ := p
    simp only [keys, List.map_cons, List.nodup_cons] at hn
    by_cases h₁ : k₁ = k
    · subst h₁; simpa [set, keys] using hn
    · simp only [set, h₁, if_false, keys, List.map_cons, List.nodup_cons]
      refine ⟨?_, ih hn.2⟩
      intro h
      rcases mem_keys_set.1 h with h | h
      · exact h₁ h
      · exact hn.1 h

theorem keys_set_of_mem {k : κ} {v : α} {m : AMap κ α} (h : k ∈ m.keys) :
    (m.set k v).keys = m.keys := by
  induction m with
  | nil => simp [keys] at h
  | cons p m ih =>
    obtain ⟨k₁, v₁⟩ := p
    by_cases h₁ : k₁ = k
    · subst h₁; simp [set, keys]
    · simp only [keys, List.map_cons, List.mem_cons] at h
      have h' : k ∈ keys m := by
        rcases h with h | h
        · exact absurd h.symm h₁
        · exact h
      have := ih h'
      simp only [keys] at this ⊢
      simp [set, h₁, this]

theorem length_erase_of_mem {k : κ} {m : AMap κ α} (h : k ∈ m.keys) :
    (m.erase k).length + 1 = m.length := by
  induction m with
  | nil => simp [keys] at h
  | cons p m ih =>
    obtain ⟨k₁, v₁⟩ := p
    by_cases h₁ : k₁ = k
    · simp [erase, h₁]
    · simp only [keys, List.map_cons, List.mem_cons] at h
      have h' : k ∈ keys m := by
        rcases h with h | h
        · exact absurd h.symm h₁
        · exact h
      simp [erase, h₁, ih h']

theorem length_set_of_mem {k : κ} {v : α} {m : AMap κ α} (h : k ∈ m.keys) :
    (m.set k v).length = m.length := by
  have := congrArg List.length (keys_set_of_mem (v := v) h)
  simpa [keys] using this

end AMap
end Verif
