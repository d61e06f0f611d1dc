import Verif.Heap.Props

/-!
# The end of a program (`Memory::deinit`, `Projects/Core/Core/VirtualMachine/Memory.cpp`)

When the virtual machine is destroyed (`VirtualMachine/VirtualMachine.cpp:70-77`), `Controller::deinit` deletes the global scope with all its
variables and then lets the memory delete every object that is still there (`VirtualMachine/Controller.cpp:26-33`).
-/

namespace Verif.Heap

open Verif.Memory

/-! ## Model -/

/-- The memory during `deinit`.  `obj = none`: `delete` of the object has begun; the record keeps its pointer, which must not be used any more. -/
abbrev Closing := AMap Nat (Cell (Option Fields))

/-- The memory when `deinit` begins. -/
def closing : Cells → Closing
  | [] => []
  | (r, c) :: m => (r, ⟨c.count, some c.obj⟩) :: closing m

/-- One request after the other; the first that fails ends the sequence. -/
def eachOf (f : Nat → Closing → Res Closing) : List Nat → Closing → Res Closing
  | [], T => .ok T
  | r :: rs, T => (f r T).bind (eachOf f rs)

/-- `Memory::remove` with `deleteObject` (Memory.cpp:66-82, 110-126), called from the destructor of a member (Object.cpp:52-57).  An exception that
leaves a destructor ends the program, and `Destructor()` and `delete` for an object that has been deleted are undefined: both are `ub` here.  `fuel`
bounds the nesting of destructions.  Script destructors are empty, as in `Verif.Heap.Model`. -/
def closeRef : Nat → Nat → Closing → Res Closing
  | 0, _, _ => .fuel
  | n + 1, r, T =>
    if r = 0 then .ok T
    else match T.find r with
      | none => .ub
      | some c =>
        let count := (c.count + (uintSize - 1)) % uintSize
        if count = 0 then
          match c.obj with
          | none => .ub
          | some fields => (eachOf (closeRef n) fields (T.set r ⟨count, none⟩)).bind fun T' =>
            match T'.find r with
            | none => .ub
            | some _ => .ok (T'.erase r)
        else .ok (T.set r { c with count := count })

/-- One round of the loop of `Memory::deinit` (Memory.cpp:50-61): `delete it.second.mObject`.  A record that has been erased meanwhile is not met by
the loop. -/
def closeObject (n r : Nat) (T : Closing) : Res Closing :=
  match T.find r with
  | none => .ok T
  | some c => match c.obj with
    | none => .ub
    | some fields => eachOf (closeRef n) fields (T.set r { c with obj := none })

/-- An address at its place in the order of a `std::map`. -/
def place (r : Nat) : List Nat → List Nat
  | [] => [r]
  | s :: rs => if r ≤ s then r :: s :: rs else s :: place r rs

/-- The order in which the loop meets the records: a `std::map` keeps them sorted by address (`Runtime::Reference::operator<`, Runtime/Reference.cpp:36-39). -/
def inOrder : List Nat → List Nat
  | [] => []
  | r :: rs => place r (inOrder rs)

/-- `Memory::deinit` (Memory.cpp:48-64): the records in the order of their addresses (`std::map`), then `clear()`. -/
def shutdown (m : Mem Fields) : Res Unit :=
  match eachOf (closeObject (m.cells.length + 1)) (inOrder m.cells.keys) (closing m.cells) with
  | .ok _ => .ok ()
  | .throw _ => .throw ()
  | .ub => .ub
  | .fuel => .fuel

/-! ## Proofs -/

/-- The references a record still holds. -/
def held (c : Cell (Option Fields)) : Fields := c.obj.getD []

/-- The number of references to `r` in the objects that have not been deleted. -/
def refs (r : Nat) : Closing → Nat
  | [] => 0
  | (_, c) :: T => (held c).count r + refs r T

/-- The number of objects that have not been deleted. -/
def live : Closing → Nat
  | [] => 0
  | (_, c) :: T => (if c.obj.isSome then 1 else 0) + live T

theorem refs_set {r s : Nat} {c c' : Cell (Option Fields)} {T : Closing} (h : T.find s = some c) :
    refs r (T.set s c') + (held c).count r = refs r T + (held c').count r := by
  induction T with
  | nil => simp [AMap.find] at h
  | cons p T ih =>
    obtain ⟨k, v⟩ := p
    by_cases hk : k = s
    · subst hk
      simp only [AMap.find, if_true, Option.some.injEq] at h; subst h
      simp only [AMap.set, if_true, refs]; omega
    · simp only [AMap.find, if_neg hk] at h
      have := ih h
      simp only [AMap.set, if_neg hk, refs]; omega

theorem live_set {s : Nat} {c c' : Cell (Option Fields)} {T : Closing} (h : T.find s = some c) :
    live (T.set s c') + (if c.obj.isSome then 1 else 0) = live T + (if c'.obj.isSome then 1 else 0) := by
  induction T with
  | nil => simp [AMap.find] at h
  | cons p T ih =>
    obtain ⟨k, v⟩ := p
    by_cases hk : k = s
    · subst hk
      simp only [AMap.find, if_true, Option.some.injEq] at h; subst h
      simp only [AMap.set, if_true, live]; omega
    · simp only [AMap.find, if_neg hk] at h
      have := ih h
      simp only [AMap.set, if_neg hk, live]; omega

theorem refs_erase {r s : Nat} {c : Cell (Option Fields)} {T : Closing} (h : T.find s = some c) (ho : c.obj = none) :
    refs r (T.erase s) = refs r T := by
  induction T with
  | nil => simp [AMap.find] at h
  | cons p T ih =>
    obtain ⟨k, v⟩ := p
    by_cases hk : k = s
    · subst hk
      simp only [AMap.find, if_true, Option.some.injEq] at h; subst h
      simp [AMap.erase, refs, held, ho]
    · simp only [AMap.find, if_neg hk] at h
      simp only [AMap.erase, if_neg hk, refs, ih h]

theorem live_erase (s : Nat) (T : Closing) : live (T.erase s) ≤ live T := by
  induction T with
  | nil => simp [AMap.erase]
  | cons p T ih =>
    obtain ⟨k, v⟩ := p
    by_cases hk : k = s
    · subst hk
      simp [AMap.erase, live]
    · simp only [AMap.erase, if_neg hk, live]; omega

/-- The counting invariant: `ext r` references to `r` are about to be released, the objects `dy` are being deleted because nothing refers to them. -/
structure QInv (ext : Nat → Nat) (dy : List Nat) (T : Closing) : Prop where
  nodup : T.keys.Nodup
  zero : T.find 0 = none
  count : ∀ r c, T.find r = some c → c.count = ext r + refs r T
  dead : ∀ r, r ≠ 0 → T.find r = none → ext r + refs r T = 0
  pos : ∀ r c, T.find r = some c → r ∉ dy → 0 < c.count
  dying : ∀ r ∈ dy, ∃ c, T.find r = some c ∧ c.obj = none ∧ c.count = 0
  small : ∀ r, r ≠ 0 → ext r + refs r T < uintSize

/-- What is gone stays gone, and nothing new comes. -/
structure Keeps (T T' : Closing) : Prop where
  gone : ∀ s c, T.find s = some c → c.obj = none → ∃ c', T'.find s = some c' ∧ c'.obj = none
  absent : ∀ s, T.find s = none → T'.find s = none
  fewer : live T' ≤ live T

theorem Keeps.refl (T : Closing) : Keeps T T := ⟨fun _ c h ho => ⟨c, h, ho⟩, fun _ h => h, Nat.le_refl _⟩

theorem Keeps.trans {a b c : Closing} (h1 : Keeps a b) (h2 : Keeps b c) : Keeps a c := by
  refine ⟨?_, fun s h => h2.absent s (h1.absent s h), Nat.le_trans h2.fewer h1.fewer⟩
  intro s x h ho
  obtain ⟨y, h3, h4⟩ := h1.gone s x h ho
  exact h2.gone s y h3 h4

theorem QInv.congr {ext ext' : Nat → Nat} {dy : List Nat} {T : Closing} (h : QInv ext dy T)
    (he : ∀ r, r ≠ 0 → ext' r = ext r) : QInv ext' dy T := by
  have hne : ∀ r c, T.find r = some c → r ≠ 0 := by
    intro r c hc e; subst e; rw [h.zero] at hc; cases hc
  exact ⟨h.nodup, h.zero, fun r c hc => by rw [he r (hne r c hc)]; exact h.count r c hc,
    fun r hr hk => by rw [he r hr]; exact h.dead r hr hk, h.pos, h.dying,
    fun r hr => by rw [he r hr]; exact h.small r hr⟩

theorem find_set {s r : Nat} {c : Cell (Option Fields)} {T : Closing} :
    (T.set r c).find s = if s = r then some c else T.find s := by
  by_cases h : s = r
  · subst h; simp [AMap.find_set_self]
  · rw [AMap.find_set_ne (fun e => h e.symm), if_neg h]

/-- Nothing refers to `r` any more: its destruction begins. -/
theorem QInv.begin {r : Nat} {T : Closing} {ext : Nat → Nat} {dy : List Nat} {c : Cell (Option Fields)} {fields : Fields}
    (h : QInv (fun s => ext s + if s = r then 1 else 0) dy T) (hr : r ≠ 0) (hf : T.find r = some c) (ho : c.obj = some fields)
    (hz : ext r + refs r T = 0) : QInv (fun s => ext s + fields.count s) (r :: dy) (T.set r ⟨0, none⟩) := by
  have hrefs : ∀ s, refs s (T.set r ⟨0, none⟩) + fields.count s = refs s T := by
    intro s
    have := refs_set (r := s) (c' := ⟨0, none⟩) hf
    simp only [held, ho, Option.getD_some, Option.getD_none, List.count_nil] at this
    omega
  refine ⟨AMap.nodup_set h.nodup, ?_, ?_, ?_, ?_, ?_, ?_⟩
  · rw [find_set, if_neg (fun e => hr e.symm)]; exact h.zero
  · intro s c' hc'
    rw [find_set] at hc'
    have hrs := hrefs s
    split at hc'
    · rename_i e; subst e; cases hc'; simp only; omega
    · rename_i e
      have := h.count s c' hc'
      simp only [e, if_false] at this
      omega
  · intro s hs hn
    rw [find_set] at hn
    have hrs := hrefs s
    split at hn
    · cases hn
    · rename_i e
      have := h.dead s hs hn
      simp only [e, if_false] at this
      omega
  · intro s c' hc' hd
    rw [find_set] at hc'
    simp only [List.mem_cons, not_or] at hd
    rw [if_neg hd.1] at hc'
    exact h.pos s c' hc' hd.2
  · intro s hs
    by_cases e : s = r
    · subst e; exact ⟨_, AMap.find_set_self .., rfl, rfl⟩
    · rw [find_set, if_neg e]
      exact h.dying s ((List.mem_cons.1 hs).resolve_left e)
  · intro s hs
    have := h.small s hs
    have hrs := hrefs s
    try simp only at this ⊢
    omega

/-- The loop deletes `k`. -/
theorem QInv.force {k : Nat} {T : Closing} {ext : Nat → Nat} {c : Cell (Option Fields)} {fields : Fields}
    (hq : QInv ext [] T) (hk : k ≠ 0) (hf : T.find k = some c) (ho : c.obj = some fields) :
    QInv (fun s => ext s + fields.count s) [] (T.set k { c with obj := none }) := by
  have hrefs : ∀ s, refs s (T.set k { c with obj := none }) + fields.count s = refs s T := by
    intro s
    have := refs_set (r := s) (c' := { c with obj := none }) hf
    simp only [held, ho, Option.getD_some, Option.getD_none, List.count_nil] at this
    omega
  refine ⟨AMap.nodup_set hq.nodup, ?_, ?_, ?_, ?_, ?_, ?_⟩
  · rw [find_set, if_neg (fun e => hk e.symm)]; exact hq.zero
  · intro s x hx
    have hrs := hrefs s
    rw [find_set] at hx
    split at hx
    · rename_i e; subst e; cases hx
      have := hq.count s c hf
      simp only; omega
    · have := hq.count s x hx
      omega
  · intro s hs hn
    have hrs := hrefs s
    rw [find_set] at hn
    split at hn
    · cases hn
    · have := hq.dead s hs hn
      omega
  · intro s x hx hd
    rw [find_set] at hx
    split at hx
    · cases hx; exact hq.pos k c hf (by simp)
    · exact hq.pos s x hx hd
  · intro s hs; cases hs
  · intro s hs
    have := hq.small s hs
    have hrs := hrefs s
    omega

/-- The result of releasing something: undefined, or the invariant holds without it. -/
def Fine (ext : Nat → Nat) (dy : List Nat) (T : Closing) (x : Res Closing) : Prop :=
  x = .ub ∨ ∃ T', x = .ok T' ∧ QInv ext dy T' ∧ Keeps T T'

theorem eachOf_fine {n : Nat} (hone : ∀ (r : Nat) (T : Closing) (ext : Nat → Nat) (dy : List Nat),
    QInv (fun s => ext s + if s = r then 1 else 0) dy T → live T < n → Fine ext dy T (closeRef n r T)) :
    ∀ (L : List Nat) (T : Closing) (ext : Nat → Nat) (dy : List Nat),
    QInv (fun s => ext s + L.count s) dy T → live T < n → Fine ext dy T (eachOf (closeRef n) L T) := by
  intro L
  induction L with
  | nil =>
    intro T ext dy h _
    exact Or.inr ⟨T, rfl, h.congr (fun r _ => by simp), Keeps.refl T⟩
  | cons r L ih =>
    intro T ext dy h hl
    have h1 := hone r T (fun s => ext s + L.count s) dy (h.congr (fun s _ => by
      by_cases e : s = r
      · subst e; simp; omega
      · have : ¬ r = s := fun x => e x.symm
        simp [e, this])) hl
    rcases h1 with h1 | ⟨T', h1, h2, h3⟩
    · left; simp only [eachOf, h1, Res.bind]
    · simp only [eachOf, h1, Res.bind]
      rcases ih T' ext dy h2 (Nat.lt_of_le_of_lt h3.fewer hl) with h4 | ⟨T'', h4, h5, h6⟩
      · exact Or.inl h4
      · exact Or.inr ⟨T'', h4, h5, h3.trans h6⟩

theorem closeRef_fine : ∀ (n r : Nat) (T : Closing) (ext : Nat → Nat) (dy : List Nat),
    QInv (fun s => ext s + if s = r then 1 else 0) dy T → live T < n → Fine ext dy T (closeRef n r T) := by
  intro n
  induction n with
  | zero => intro r T ext dy _ h; omega
  | succ n ih =>
    intro r T ext dy h hl
    by_cases hr : r = 0
    · subst hr
      refine Or.inr ⟨T, by simp [closeRef], h.congr (fun s hs => by simp [hs]), Keeps.refl T⟩
    cases hf : T.find r with
    | none => left; simp [closeRef, hr, hf]
    | some c =>
      have hc := h.count r c hf
      have hsm := h.small r hr
      simp only [if_true] at hc hsm
      have hcnt : (c.count + (uintSize - 1)) % uintSize = ext r + refs r T := by
        rw [show c.count + (uintSize - 1) = ext r + refs r T + uintSize by omega, Nat.add_mod_right,
          Nat.mod_eq_of_lt (by omega)]
      have hrd : r ∉ dy := by
        intro hd
        obtain ⟨c', h1, _, h3⟩ := h.dying r hd
        rw [hf] at h1
        cases h1
        omega
      by_cases hz : ext r + refs r T = 0
      · cases ho : c.obj with
        | none => left; simp only [closeRef, hr, hf, hcnt, hz, ho, if_true, if_false]
        | some fields =>
          have hlive : live (T.set r ⟨0, none⟩) + 1 = live T := by
            have := live_set (c' := (⟨0, none⟩ : Cell (Option Fields))) hf
            simp only [ho, Option.isSome_some, Option.isSome_none, if_true, Bool.false_eq_true, if_false] at this
            omega
          have hq := h.begin hr hf ho hz
          have hdo : closeRef (n + 1) r T = (eachOf (closeRef n) fields (T.set r ⟨0, none⟩)).bind fun T' =>
              match T'.find r with
              | none => .ub
              | some _ => .ok (T'.erase r) := by
            simp only [closeRef, hr, hf, hcnt, hz, ho, if_true, if_false]
          rcases eachOf_fine ih fields _ ext (r :: dy) hq (by omega) with h1 | ⟨T', h1, h2, h3⟩
          · left; rw [hdo, h1]; rfl
          · right
            obtain ⟨c', hc', ho', hz'⟩ := h2.dying r (List.mem_cons_self ..)
            have herase : ∀ s, refs s (T'.erase r) = refs s T' := fun s => refs_erase hc' ho'
            have hfe : ∀ s, (T'.erase r).find s = if s = r then none else T'.find s := by
              intro s
              by_cases e : s = r
              · subst e; rw [if_pos rfl]; exact AMap.find_erase_self h2.nodup
              · rw [if_neg e]; exact AMap.find_erase_ne (fun x => e x.symm) _
            refine ⟨T'.erase r, by rw [hdo, h1]; simp only [Res.bind, hc'], ?_, ?_⟩
            · refine ⟨AMap.nodup_erase h2.nodup, ?_, ?_, ?_, ?_, ?_, ?_⟩
              · rw [hfe]; split
                · rfl
                · exact h2.zero
              · intro s x hx
                rw [hfe] at hx
                split at hx
                · cases hx
                · rw [herase]; exact h2.count s x hx
              · intro s hs hn
                rw [herase]
                rw [hfe] at hn
                split at hn
                · rename_i e; subst e
                  have := h2.count s c' hc'
                  omega
                · exact h2.dead s hs hn
              · intro s x hx hd
                rw [hfe] at hx
                split at hx
                · cases hx
                · rename_i e
                  exact h2.pos s x hx (by simp [e, hd])
              · intro s hs
                have e : s ≠ r := fun e => hrd (e ▸ hs)
                rw [hfe, if_neg e]
                exact h2.dying s (List.mem_cons_of_mem _ hs)
              · intro s hs
                rw [herase]; exact h2.small s hs
            · refine ⟨?_, ?_, ?_⟩
              · intro s x hx hxo
                have e : s ≠ r := by
                  intro e; subst e; rw [hf] at hx; cases hx; rw [ho] at hxo; cases hxo
                rw [hfe, if_neg e]
                exact h3.gone s x (by rw [find_set, if_neg e]; exact hx) hxo
              · intro s hs
                rw [hfe]
                split
                · rfl
                · rename_i e
                  exact h3.absent s (by rw [find_set, if_neg e]; exact hs)
              · have := live_erase r T'
                have := h3.fewer
                omega
      · right
        have hrefs : ∀ s, refs s (T.set r { c with count := ext r + refs r T }) = refs s T := by
          intro s
          have := refs_set (r := s) (c' := { c with count := ext r + refs r T }) hf
          simp only [held] at this
          omega
        have hlive : live (T.set r { c with count := ext r + refs r T }) = live T := by
          have := live_set (c' := { c with count := ext r + refs r T }) hf
          simp only at this
          omega
        refine ⟨T.set r { c with count := ext r + refs r T }, ?_, ?_, ?_⟩
        · simp only [closeRef, hr, hf, hcnt, hz, if_false]
        · refine ⟨AMap.nodup_set h.nodup, ?_, ?_, ?_, ?_, ?_, ?_⟩
          · rw [find_set, if_neg (fun e => hr e.symm)]; exact h.zero
          · intro s x hx
            rw [hrefs]
            rw [find_set] at hx
            split at hx
            · rename_i e; subst e; cases hx; rfl
            · rename_i e
              have := h.count s x hx
              simpa only [e, if_false, Nat.add_zero] using this
          · intro s hs hn
            rw [hrefs]
            rw [find_set] at hn
            split at hn
            · cases hn
            · rename_i e
              have := h.dead s hs hn
              simpa only [e, if_false, Nat.add_zero] using this
          · intro s x hx hd
            rw [find_set] at hx
            split at hx
            · cases hx; simp only; omega
            · exact h.pos s x hx hd
          · intro s hs
            have e : s ≠ r := fun e => hrd (e ▸ hs)
            rw [find_set, if_neg e]
            exact h.dying s hs
          · intro s hs
            rw [hrefs]
            have := h.small s hs
            omega
        · refine ⟨?_, ?_, Nat.le_of_eq hlive⟩
          · intro s x hx hxo
            by_cases e : s = r
            · subst e
              rw [hf] at hx; cases hx
              exact ⟨_, AMap.find_set_self .., hxo⟩
            · exact ⟨x, by rw [find_set, if_neg e]; exact hx, hxo⟩
          · intro s hs
            have e : s ≠ r := by intro e; subst e; rw [hf] at hs; cases hs
            rw [find_set, if_neg e]; exact hs

theorem refs_zero {r : Nat} {T : Closing} (hn : T.keys.Nodup) (h : ∀ s c, T.find s = some c → c.obj = none) : refs r T = 0 := by
  have key : ∀ T' : Closing, (∀ p ∈ T', p.2.obj = none) → refs r T' = 0 := by
    intro T'
    induction T' with
    | nil => intro _; rfl
    | cons p T' ih =>
      intro hp
      obtain ⟨k, c⟩ := p
      have h1 : c.obj = none := hp (k, c) (List.mem_cons_self ..)
      simp [refs, held, h1, ih (fun q hq => hp q (List.mem_cons_of_mem _ hq))]
  exact key T (fun p hp => h p.1 p.2 (AMap.find_of_mem hn hp))

/-- As long as there is an object, the loop does not come to its end. -/
theorem closeAll_ub {n : Nat} : ∀ (order : List Nat) (T : Closing), QInv (fun _ => 0) [] T → live T < n →
    (∃ s c, T.find s = some c) → (∀ s c, T.find s = some c → s ∈ order ∨ c.obj = none) →
    eachOf (closeObject n) order T = .ub := by
  intro order
  induction order with
  | nil =>
    intro T hq _ ⟨s, c, hs⟩ hall
    have h0 := refs_zero (r := s) hq.nodup (fun s' c' h' => (hall s' c' h').resolve_left (by simp))
    have h1 := hq.count s c hs
    have h2 := hq.pos s c hs (by simp)
    omega
  | cons k order ih =>
    intro T hq hl hex hall
    cases hf : T.find k with
    | none =>
      have : closeObject n k T = .ok T := by simp [closeObject, hf]
      simp only [eachOf, this, Res.bind]
      refine ih T hq hl hex (fun s c hs => ?_)
      rcases hall s c hs with h | h
      · rcases List.mem_cons.1 h with rfl | h
        · rw [hf] at hs; cases hs
        · exact Or.inl h
      · exact Or.inr h
    | some c =>
      cases ho : c.obj with
      | none => simp [eachOf, closeObject, hf, ho, Res.bind]
      | some fields =>
        have hk : k ≠ 0 := by intro e; subst e; rw [hq.zero] at hf; cases hf
        have hlive : live (T.set k { c with obj := none }) + 1 = live T := by
          have := live_set (c' := { c with obj := none }) hf
          simp only [ho, Option.isSome_some, Option.isSome_none, if_true, Bool.false_eq_true, if_false] at this
          omega
        have hq' := hq.force hk hf ho
        have hdo : closeObject n k T = eachOf (closeRef n) fields (T.set k { c with obj := none }) := by
          simp only [closeObject, hf, ho]
        rcases eachOf_fine (closeRef_fine n) fields _ (fun _ => 0) [] hq' (by omega) with h1 | ⟨T', h1, h2, h3⟩
        · simp only [eachOf, hdo, h1, Res.bind]
        · simp only [eachOf, hdo, h1, Res.bind]
          obtain ⟨c', hc', ho'⟩ := h3.gone k _ (AMap.find_set_self ..) rfl
          refine ih T' h2 (by have := h3.fewer; omega) ⟨k, c', hc'⟩ (fun s x hx => ?_)
          by_cases e : s = k
          · subst e; rw [hc'] at hx; cases hx; exact Or.inr ho'
          · cases hs : T.find s with
            | none =>
              have := h3.absent s (by rw [find_set, if_neg e]; exact hs)
              rw [this] at hx; cases hx
            | some y =>
              rcases hall s y hs with h | h
              · exact Or.inl ((List.mem_cons.1 h).resolve_left e)
              · obtain ⟨z, h4, h5⟩ := h3.gone s y (by rw [find_set, if_neg e]; exact hs) h
                rw [h4] at hx; cases hx
                exact Or.inr h5

theorem closing_find (r : Nat) (m : Cells) : (closing m).find r = (m.find r).map fun c => ⟨c.count, some c.obj⟩ := by
  induction m with
  | nil => rfl
  | cons p m ih =>
    obtain ⟨k, c⟩ := p
    by_cases hk : k = r
    · simp [closing, AMap.find, hk]
    · simp only [closing, AMap.find, if_neg hk, ih]

theorem closing_keys (m : Cells) : (closing m).keys = m.keys := by
  induction m with
  | nil => rfl
  | cons p m ih =>
    obtain ⟨k, c⟩ := p
    simp only [AMap.keys, closing, List.map_cons] at ih ⊢
    rw [ih]

theorem closing_refs (r : Nat) (m : Cells) : refs r (closing m) = inner [] r m := by
  induction m with
  | nil => rfl
  | cons p m ih => obtain ⟨k, c⟩ := p; simp [closing, refs, held, inner, ih]

theorem closing_live (m : Cells) : live (closing m) = m.length := by
  induction m with
  | nil => rfl
  | cons p m ih => obtain ⟨k, c⟩ := p; simp [closing, live, ih]; omega

theorem bound_nil (r : Nat) : bound [] r = 0 := by simp [bound]

theorem mem_place (x r : Nat) (rs : List Nat) : x ∈ place r rs ↔ x = r ∨ x ∈ rs := by
  induction rs with
  | nil => simp [place]
  | cons s rs ih =>
    simp only [place]
    split
    · simp
    · simp only [List.mem_cons, ih]; exact or_left_comm

theorem mem_inOrder (x : Nat) (rs : List Nat) : x ∈ inOrder rs ↔ x ∈ rs := by
  induction rs with
  | nil => simp [inOrder]
  | cons s rs ih => simp [inOrder, mem_place, ih]

theorem refs_none {r : Nat} {T : Closing} (hn : T.keys.Nodup)
    (h : ∀ s c fs, T.find s = some c → c.obj = some fs → r ∉ fs) : refs r T = 0 := by
  have key : ∀ T' : Closing, (∀ p ∈ T', ∀ fs, p.2.obj = some fs → r ∉ fs) → refs r T' = 0 := by
    intro T'
    induction T' with
    | nil => intro _; rfl
    | cons p T' ih =>
      intro hp
      obtain ⟨k, c⟩ := p
      have h1 := hp (k, c) (List.mem_cons_self ..)
      have h2 : (held c).count r = 0 := by
        cases ho : c.obj with
        | none => simp [held, ho]
        | some fs => simpa [held, ho, List.count_eq_zero] using h1 fs ho
      simp [refs, h2, ih (fun q hq => hp q (List.mem_cons_of_mem _ hq))]
  exact key T (fun p hp fs ho => h p.1 p.2 fs (AMap.find_of_mem hn hp) ho)

/-- The records are old ones, and the objects in them unchanged. -/
def Alive (T T' : Closing) : Prop :=
  ∀ s c', T'.find s = some c' → ∃ c, T.find s = some c ∧ c.obj = c'.obj

theorem Alive.trans {a b c : Closing} (h1 : Alive a b) (h2 : Alive b c) : Alive a c := by
  intro s x hx
  obtain ⟨y, h3, h4⟩ := h2 s x hx
  obtain ⟨z, h5, h6⟩ := h1 s y h3
  exact ⟨z, h5, h6.trans h4⟩

/-- Nothing that will be released, now or later, refers to a deleted object. -/
def Calm (tr : Nat → Nat) (T : Closing) : Prop := ∀ s c, T.find s = some c → c.obj = none → tr s + refs s T = 0

/-- A release that goes well. -/
def Well (V tr : Nat → Nat) (dy : List Nat) (T : Closing) (x : Res Closing) : Prop :=
  ∃ T', x = .ok T' ∧ QInv (fun s => V s + tr s) dy T' ∧ Keeps T T' ∧ Calm tr T' ∧ Alive T T'

theorem eachOf_well {n : Nat} (hone : ∀ (r : Nat) (T : Closing) (V tr : Nat → Nat) (dy : List Nat),
    QInv (fun s => (V s + tr s) + if s = r then 1 else 0) dy T → Calm (fun s => tr s + if s = r then 1 else 0) T → live T < n →
    Well V tr dy T (closeRef n r T)) :
    ∀ (L : List Nat) (T : Closing) (V tr : Nat → Nat) (dy : List Nat),
    QInv (fun s => (V s + tr s) + L.count s) dy T → Calm (fun s => tr s + L.count s) T → live T < n →
    Well V tr dy T (eachOf (closeRef n) L T) := by
  intro L
  induction L with
  | nil =>
    intro T V tr dy h hc _
    exact ⟨T, rfl, h.congr (fun r _ => by simp), Keeps.refl T, fun s c h1 h2 => by simpa using hc s c h1 h2,
      fun s c h1 => ⟨c, h1, rfl⟩⟩
  | cons r L ih =>
    intro T V tr dy h hc hl
    have hcount : ∀ s, (r :: L).count s = L.count s + if s = r then 1 else 0 := by
      intro s
      by_cases e : s = r
      · subst e; simp
      · have : ¬ r = s := fun x => e x.symm
        simp [e, this]
    obtain ⟨T', h1, h2, h3, h4, h5⟩ := hone r T V (fun s => tr s + L.count s) dy
      (h.congr (fun s _ => by simp only [hcount]; omega))
      (fun s c hs ho => by have := hc s c hs ho; simp only [hcount] at this; simp only; omega) hl
    obtain ⟨T'', g1, g2, g3, g4, g5⟩ := ih T' V tr dy (h2.congr (fun s _ => by simp only; omega)) h4
      (Nat.lt_of_le_of_lt h3.fewer hl)
    exact ⟨T'', by simp only [eachOf, h1, Res.bind, g1], g2, h3.trans g3, g4, h5.trans g5⟩

theorem closeRef_well : ∀ (n r : Nat) (T : Closing) (V tr : Nat → Nat) (dy : List Nat),
    QInv (fun s => (V s + tr s) + if s = r then 1 else 0) dy T → Calm (fun s => tr s + if s = r then 1 else 0) T → live T < n →
    Well V tr dy T (closeRef n r T) := by
  intro n
  induction n with
  | zero => intro r T V tr dy _ _ h; omega
  | succ n ih =>
    intro r T V tr dy h hcalm hl
    suffices hsuf : ∃ T', closeRef (n + 1) r T = .ok T' ∧ Calm tr T' ∧ Alive T T' by
      obtain ⟨T', h1, h2, h3⟩ := hsuf
      rcases closeRef_fine (n + 1) r T (fun s => V s + tr s) dy h hl with h4 | ⟨T'', h4, h5, h6⟩
      · rw [h1] at h4; cases h4
      · rw [h1] at h4; cases h4
        exact ⟨T', h1, h5, h6, h2, h3⟩
    by_cases hr : r = 0
    · subst hr
      refine ⟨T, by simp [closeRef], ?_, fun s c h1 => ⟨c, h1, rfl⟩⟩
      intro s c hs ho
      have := hcalm s c hs ho
      simp only at this; omega
    cases hf : T.find r with
    | none =>
      have := h.dead r hr hf
      simp only [if_true] at this; omega
    | some c =>
      have hc := h.count r c hf
      have hsm := h.small r hr
      simp only [if_true] at hc hsm
      have hcnt : (c.count + (uintSize - 1)) % uintSize = V r + tr r + refs r T := by
        rw [show c.count + (uintSize - 1) = V r + tr r + refs r T + uintSize by omega, Nat.add_mod_right,
          Nat.mod_eq_of_lt (by omega)]
      cases ho : c.obj with
      | none =>
        have := hcalm r c hf ho
        simp only [if_true] at this; omega
      | some fields =>
        by_cases hz : V r + tr r + refs r T = 0
        · have hrefs : ∀ s, refs s (T.set r ⟨0, none⟩) + fields.count s = refs s T := by
            intro s
            have := refs_set (r := s) (c' := ⟨0, none⟩) hf
            simp only [held, ho, Option.getD_some, Option.getD_none, List.count_nil] at this
            omega
          have hlive : live (T.set r ⟨0, none⟩) + 1 = live T := by
            have := live_set (c' := (⟨0, none⟩ : Cell (Option Fields))) hf
            simp only [ho, Option.isSome_some, Option.isSome_none, if_true, Bool.false_eq_true, if_false] at this
            omega
          have hcalm' : Calm (fun s => tr s + fields.count s) (T.set r ⟨0, none⟩) := by
            intro s x hx hxo
            have hrs := hrefs s
            rw [find_set] at hx
            split at hx
            · rename_i e; subst e; simp only; omega
            · have := hcalm s x hx hxo
              simp only at this ⊢; omega
          obtain ⟨T', h1, h2, h3, h4, h5⟩ := eachOf_well ih fields _ V tr (r :: dy)
            (QInv.begin (ext := fun s => V s + tr s) h hr hf ho hz) hcalm' (by omega)
          obtain ⟨c', hc', ho', -⟩ := h2.dying r (List.mem_cons_self ..)
          have hfe : ∀ s, (T'.erase r).find s = if s = r then none else T'.find s := by
            intro s
            by_cases e : s = r
            · subst e; rw [if_pos rfl]; exact AMap.find_erase_self h2.nodup
            · rw [if_neg e]; exact AMap.find_erase_ne (fun x => e x.symm) _
          refine ⟨T'.erase r, ?_, ?_, ?_⟩
          · simp only [closeRef, hr, hf, hcnt, hz, ho, if_true, if_false, h1, Res.bind, hc']
          · intro s x hx hxo
            rw [refs_erase hc' ho']
            rw [hfe] at hx
            split at hx
            · cases hx
            · exact h4 s x hx hxo
          · intro s x hx
            rw [hfe] at hx
            split at hx
            · cases hx
            · rename_i e
              obtain ⟨y, h6, h7⟩ := h5 s x hx
              rw [find_set, if_neg e] at h6
              exact ⟨y, h6, h7⟩
        · have hrefs : ∀ s, refs s (T.set r { c with count := V r + tr r + refs r T }) = refs s T := by
            intro s
            have := refs_set (r := s) (c' := { c with count := V r + tr r + refs r T }) hf
            simp only [held] at this
            omega
          refine ⟨T.set r { c with count := V r + tr r + refs r T }, ?_, ?_, ?_⟩
          · simp only [closeRef, hr, hf, hcnt, hz, if_false]
          · intro s x hx hxo
            rw [hrefs]
            rw [find_set] at hx
            split at hx
            · cases hx; simp only [ho] at hxo; cases hxo
            · rename_i e
              have := hcalm s x hx hxo
              simp only [e, if_false] at this; omega
          · intro s x hx
            rw [find_set] at hx
            split at hx
            · rename_i e; subst e; cases hx; exact ⟨c, hf, rfl⟩
            · exact ⟨x, hx, rfl⟩

/-- If older objects refer to younger ones only, the loop meets the referring objects first. -/
theorem closeAll_ok {n : Nat} {V : Nat → Nat} : ∀ (order : List Nat) (T : Closing), QInv V [] T → live T < n →
    order.Pairwise (· < ·) → Calm (fun _ => 0) T →
    (∀ s c, T.find s = some c → (s ∈ order ↔ c.obj.isSome)) →
    (∀ s c fs, T.find s = some c → c.obj = some fs → ∀ x ∈ fs, x ≠ 0 → s < x) →
    ∃ T', eachOf (closeObject n) order T = .ok T' := by
  intro order
  induction order with
  | nil => intro T _ _ _ _ _ _; exact ⟨T, rfl⟩
  | cons k order ih =>
    intro T hq hl hord hcalm hall hlt
    rw [List.pairwise_cons] at hord
    cases hf : T.find k with
    | none =>
      have : closeObject n k T = .ok T := by simp [closeObject, hf]
      simp only [eachOf, this, Res.bind]
      refine ih T hq hl hord.2 hcalm (fun s c hs => ?_) hlt
      rw [← hall s c hs, List.mem_cons]
      refine ⟨Or.inr, fun h => h.resolve_left ?_⟩
      intro e; subst e; rw [hf] at hs; cases hs
    | some c =>
      cases ho : c.obj with
      | none =>
        have := (hall k c hf).1 (List.mem_cons_self ..)
        rw [ho] at this; cases this
      | some fields =>
        have hk : k ≠ 0 := by intro e; subst e; rw [hq.zero] at hf; cases hf
        have hrefs : ∀ s, refs s (T.set k { c with obj := none }) + fields.count s = refs s T := by
          intro s
          have := refs_set (r := s) (c' := { c with obj := none }) hf
          simp only [held, ho, Option.getD_some, Option.getD_none, List.count_nil] at this
          omega
        have hlive : live (T.set k { c with obj := none }) + 1 = live T := by
          have := live_set (c' := { c with obj := none }) hf
          simp only [ho, Option.isSome_some, Option.isSome_none, if_true, Bool.false_eq_true, if_false] at this
          omega
        have hk0 : refs k T = 0 := by
          refine refs_none hq.nodup (fun s x fs hx hxo hm => ?_)
          have h1 := hlt s x fs hx hxo k hm hk
          rcases List.mem_cons.1 ((hall s x hx).2 (by rw [hxo]; rfl)) with e | h2
          · omega
          · have := hord.1 s h2; omega
        have hcalm' : Calm (fun s => (fun _ => 0) s + fields.count s) (T.set k { c with obj := none }) := by
          intro s x hx hxo
          have hrs := hrefs s
          rw [find_set] at hx
          split at hx
          · rename_i e; subst e; simp only; omega
          · have := hcalm s x hx hxo
            simp only at this ⊢; omega
        have hdo : closeObject n k T = eachOf (closeRef n) fields (T.set k { c with obj := none }) := by
          simp only [closeObject, hf, ho]
        obtain ⟨T', h1, h2, h3, h4, h5⟩ := eachOf_well (closeRef_well n) fields _ V (fun _ => 0) []
          (hq.force hk hf ho) hcalm' (by omega)
        simp only [eachOf, hdo, h1, Res.bind]
        refine ih T' (h2.congr (fun _ _ => by simp)) (by have := h3.fewer; omega) hord.2 h4 ?_ ?_
        · intro s x hx
          obtain ⟨y, h6, h7⟩ := h5 s x hx
          rw [← h7]
          rw [find_set] at h6
          split at h6
          · rename_i e; subst e; cases h6
            simp only [Option.isSome_none, Bool.false_eq_true, iff_false]
            intro hm
            exact Nat.lt_irrefl _ (hord.1 s hm)
          · rename_i e
            rw [← hall s y h6, List.mem_cons]
            exact ⟨Or.inr, fun h => h.resolve_left e⟩
        · intro s x fs hx hxo
          obtain ⟨y, h6, h7⟩ := h5 s x hx
          rw [hxo] at h7
          rw [find_set] at h6
          split at h6
          · cases h6; cases h7
          · exact hlt s y fs h6 h7

theorem place_sorted {r : Nat} {rs : List Nat} (h : rs.Pairwise (· < ·)) (hr : r ∉ rs) : (place r rs).Pairwise (· < ·) := by
  induction rs with
  | nil => simp [place]
  | cons s rs ih =>
    have h' := List.pairwise_cons.1 h
    simp only [List.mem_cons, not_or] at hr
    simp only [place]
    split
    · refine List.pairwise_cons.2 ⟨?_, h⟩
      intro x hx
      rcases List.mem_cons.1 hx with rfl | hx
      · omega
      · have := h'.1 x hx; omega
    · refine List.pairwise_cons.2 ⟨?_, ih h'.2 hr.2⟩
      intro x hx
      rcases (mem_place x r rs).1 hx with rfl | hx
      · omega
      · exact h'.1 x hx

theorem inOrder_sorted {rs : List Nat} (h : rs.Nodup) : (inOrder rs).Pairwise (· < ·) := by
  induction rs with
  | nil => simp [inOrder]
  | cons r rs ih =>
    have h' := List.nodup_cons.1 h
    exact place_sorted (ih h'.2) (fun hm => h'.1 ((mem_inOrder r rs).1 hm))

/-- The invariant when the loop begins. -/
theorem closing_inv {w : World} (hci : CInv (bound w.vars) [] [] w.mem) : QInv (bound w.vars) [] (closing w.mem.cells) := by
  refine ⟨?_, ?_, ?_, ?_, ?_, ?_, ?_⟩
  · rw [closing_keys]; exact hci.addr.cellsNodup
  · rw [closing_find, (AMap.find_eq_none_iff 0 w.mem.cells).2 (fun hm => hci.key_ne_zero hm rfl)]; rfl
  · intro s c hc
    rw [closing_find] at hc
    cases hf : w.mem.cells.find s with
    | none => rw [hf] at hc; cases hc
    | some c' =>
      rw [hf] at hc; cases hc
      rw [closing_refs]
      have := hci.count s c' hf
      exact this
  · intro s hs0 hn
    rw [closing_find] at hn
    rw [closing_refs]
    have := hci.dead s hs0 ((AMap.find_eq_none_iff s _).1 (by simpa using hn))
    exact this
  · intro s c hc _
    rw [closing_find] at hc
    cases hf : w.mem.cells.find s with
    | none => rw [hf] at hc; cases hc
    | some c' =>
      rw [hf] at hc; cases hc
      have h1 := hci.count s c' hf
      have h2 := hci.pos s (AMap.mem_keys_of_find hf) (by simp)
      simp at h2
      simp only; omega
  · intro s hs'; cases hs'
  · intro s hs0
    rw [closing_refs]
    have := hci.small s hs0
    exact this

deriving instance DecidableEq for Memory.Res

/-! ## C182 -/

/-- A program whose variables are all gone ends properly if no object was, at the end, part of itself: nothing is left to be destroyed then. -/
theorem shutdown_of_acyclic_partial (ops : List HOp) (bs : List Bool) (w : World) (h : run ops {} = some (bs, w))
    (hs : slots ops < 4294967295) (hv : w.vars = []) (hac : ∀ r, ¬ Path w r r) :
    (∀ r, get w.mem r = none) ∧ shutdown w.mem = .ok () := by
  have hnone : ∀ r, get w.mem r = none := by
    intro r
    cases hg : get w.mem r with
    | none => rfl
    | some fs =>
      have hr := acyclic_garbage_destroyed ops bs w h hs hac r (by rw [hg]; rfl)
      exfalso
      clear hg
      induction hr with
      | var hx _ => rw [hv] at hx; cases hx
      | field _ _ _ _ ih => exact ih
  refine ⟨hnone, ?_⟩
  have hcells : w.mem.cells = [] := by
    cases hc : w.mem.cells with
    | nil => rfl
    | cons p m =>
      obtain ⟨k, c⟩ := p
      have := hnone k
      simp [Memory.get, hc, AMap.find] at this
  simp [shutdown, hcells, closing, AMap.keys, inOrder, eachOf]

/-- What variables that are never destroyed still hold is deleted properly if every object was created before the objects it refers to.  (The address
of an object tells when it was created: a new object gets a higher one than any before, C01.) -/
theorem shutdown_of_ordered_partial (ops : List HOp) (bs : List Bool) (w : World) (h : run ops {} = some (bs, w))
    (hs : slots ops < 4294967295) (hord : ∀ r fs, get w.mem r = some fs → ∀ s ∈ fs, s ≠ 0 → r < s) : shutdown w.mem = .ok () := by
  obtain ⟨hi, -, -⟩ := run_inv h hs
  have hci := hi.cinv
  have hq := closing_inv hci
  have hobj : ∀ s c, (closing w.mem.cells).find s = some c → ∃ fs, get w.mem s = some fs ∧ c.obj = some fs := by
    intro s c hc
    rw [closing_find] at hc
    cases hf : w.mem.cells.find s with
    | none => rw [hf] at hc; cases hc
    | some c' => rw [hf] at hc; cases hc; exact ⟨c'.obj, by simp [Memory.get, hf], rfl⟩
  obtain ⟨T', hT⟩ := closeAll_ok (n := w.mem.cells.length + 1) (inOrder w.mem.cells.keys) (closing w.mem.cells) hq
    (by rw [closing_live]; omega) (inOrder_sorted hci.addr.cellsNodup)
    (fun s c hc ho => by obtain ⟨fs, -, h2⟩ := hobj s c hc; rw [h2] at ho; cases ho)
    (fun s c hc => by
      obtain ⟨fs, -, h2⟩ := hobj s c hc
      rw [mem_inOrder, ← closing_keys, h2]
      simp [AMap.mem_keys_of_find hc])
    (fun s c fs hc ho => by
      obtain ⟨fs', h1, h2⟩ := hobj s c hc
      rw [h2] at ho; cases ho
      exact hord s fs h1)
  simp only [shutdown, hT]

/-- **Refuted**: a program ends by destroying what is left.  If any object is left when all variables are gone, `deinit` deletes an object that has
been deleted before. -/
theorem shutdown_refuted (ops : List HOp) (bs : List Bool) (w : World) (h : run ops {} = some (bs, w))
    (hs : slots ops < 4294967295) (hv : w.vars = []) (r : Nat) (hr : (get w.mem r).isSome) :
    shutdown w.mem = .ub := by
  obtain ⟨hi, -, -⟩ := run_inv h hs
  have hci := hi.cinv
  have hb : ∀ s, bound w.vars s = 0 := by rw [hv]; exact bound_nil
  have hq : QInv (fun _ => 0) [] (closing w.mem.cells) := (closing_inv hci).congr (fun r _ => (hb r).symm)
  have hex : ∃ s c, (closing w.mem.cells).find s = some c := by
    cases hf : w.mem.cells.find r with
    | none => simp [Memory.get, hf] at hr
    | some c => exact ⟨r, _, by rw [closing_find, hf]; rfl⟩
  have := closeAll_ub (n := w.mem.cells.length + 1) (inOrder w.mem.cells.keys) (closing w.mem.cells) hq
    (by rw [closing_live]; omega) hex (fun s c hc => Or.inl (by
      rw [mem_inOrder, ← closing_keys]; exact AMap.mem_keys_of_find hc))
  simp only [shutdown, this]

/-- A variable that is never destroyed (as the members of a base class are not, C130) is enough, without any cycle: object 1 is deleted by the loop
while object 2 still refers to it. -/
theorem shutdown_leaked_refuted :
    ∃ ops bs w, run ops {} = some (bs, w) ∧ slots ops < 4294967295 ∧ (∀ r, ¬ Path w r r) ∧ shutdown w.mem = .ub := by
  refine ⟨[.declare 1, .setNew 1 0, .declare 2, .setNew 2 1, .setField 2 0 1, .destroy 1], _, _, rfl, by decide, ?_, by decide +kernel⟩
  have key : ∀ w : World, (∀ r fs, get w.mem r = some fs → ∀ r' ∈ fs, r' ≠ 0 → r' < r) → ∀ r, ¬ Path w r r := by
    intro w hw
    have hlt : ∀ r r', Path w r r' → r' < r := by
      intro r r' hp
      induction hp with
      | one h1 h2 h3 => exact hw _ _ h1 _ h2 h3
      | step h1 h2 h3 _ ih => exact Nat.lt_trans ih (hw _ _ h1 _ h2 h3)
    intro r hp
    exact Nat.lt_irrefl r (hlt r r hp)
  show ∀ r, ¬ Path ⟨⟨3, [(1, ⟨1, []⟩), (2, ⟨1, [1]⟩)], [.released 1, .took 1, .took 2, .created 2, .took 1, .created 1]⟩, [(2, 2)]⟩ r r
  refine key _ ?_
  intro r fs hg r' hr' h0
  simp only [Memory.get, AMap.find] at hg
  split at hg
  · simp at hg; subst hg; simp at hr'
  · split at hg
    · rename_i e; simp at hg; subst hg; simp at hr'; omega
    · simp at hg

/-- A chain of two objects, released: nothing is left. -/
example : ∃ bs w, run [.declare 1, .setNew 1 0, .declare 2, .setNew 2 1, .setField 2 0 1, .destroy 1, .destroy 2] {} = some (bs, w) ∧
    w.vars = [] ∧ shutdown w.mem = .ok () := ⟨_, _, rfl, rfl, by decide +kernel⟩

/-- Two objects that refer to each other. -/
example : ∃ bs w, run [.declare 1, .setNew 1 1, .declare 2, .setNew 2 1, .setField 2 0 1, .setField 1 0 2, .destroy 1, .destroy 2] {} =
    some (bs, w) ∧ w.vars = [] ∧ (get w.mem 1).isSome ∧ shutdown w.mem = .ub := ⟨_, _, rfl, rfl, rfl, by decide +kernel⟩

/-- Object 1 refers to object 2 and is held by a variable for ever. -/
example : ∃ bs w, run [.declare 1, .setNew 1 1, .declare 2, .setNew 2 0, .setField 1 0 2, .destroy 2] {} = some (bs, w) ∧
    get w.mem 1 = some [2] ∧ get w.mem 2 = some [] ∧ shutdown w.mem = .ok () := ⟨_, _, rfl, rfl, rfl, by decide +kernel⟩

end Verif.Heap
