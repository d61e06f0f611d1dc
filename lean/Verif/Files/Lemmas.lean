import Verif.Files.Spec

/-!
# The functions do what is expected

The relation between the table of pointers and the open files, and its preservation.
-/

namespace Verif.Files

/-- The table of pointers stands for the open files. -/
structure Rep (w : World) (F : Files) : Prop where
  names : w.sys.names = F.names
  data : w.sys.data = F.data
  files : w.sys.files = F.files
  next : (w.handles.length : Int) = F.next
  known : ∀ h, w.handles.find h = none ↔ F.unknown h
  opened : ∀ h p, w.handles.find h = some p → F.opened h = w.sys.stream p
  closed : ∀ h, F.unknown h → F.opened h = none
  inj : ∀ h h' p, w.handles.find h = some (some p) → w.handles.find h' = some (some p) → h = h'
  bound : ∀ h p, w.handles.find h = some (some p) → p < w.sys.streams.length

theorem Rep.start (names : String → Option Nat) (data : Nat → List Byte) (files : Nat) :
    Rep (start names data files) (Files.start names data files) := by
  refine ⟨rfl, rfl, rfl, rfl, ?_, ?_, ?_, ?_, ?_⟩
  · intro h
    simp only [Files.start, Verif.Files.start, Files.unknown, AMap.find]
    by_cases h0 : (0 : Int) = h
    · subst h0; simp
    by_cases h1 : (1 : Int) = h
    · subst h1; simp
    by_cases h2 : (2 : Int) = h
    · subst h2; simp
    by_cases h3 : (3 : Int) = h
    · subst h3; simp
    simp only [h0, h1, h2, h3, if_false, true_iff]
    omega
  · intro h p hp
    simp only [Verif.Files.start, AMap.find] at hp
    by_cases h0 : (0 : Int) = h
    · subst h0; simp at hp; subst hp; simp [Files.start, Sys.stream]
    by_cases h1 : (1 : Int) = h
    · subst h1; simp at hp; subst hp; simp [Files.start, Sys.stream, Verif.Files.start, stdStreams]
    by_cases h2 : (2 : Int) = h
    · subst h2; simp at hp; subst hp; simp [Files.start, Sys.stream, Verif.Files.start, stdStreams]
    by_cases h3 : (3 : Int) = h
    · subst h3; simp at hp; subst hp; simp [Files.start, Sys.stream, Verif.Files.start, stdStreams]
    simp [h0, h1, h2, h3] at hp
  · intro h hu
    simp only [Files.start, Files.unknown] at hu ⊢
    have h1 : h ≠ 1 := by omega
    have h2 : h ≠ 2 := by omega
    have h3 : h ≠ 3 := by omega
    simp [h1, h2, h3]
  · intro h h' p hp hp'
    simp only [Verif.Files.start, AMap.find] at hp hp'
    split at hp
    · simp at hp
    · split at hp
      · simp at hp; subst hp
        split at hp'
        · simp at hp'
        · split at hp'
          · omega
          · split at hp'
            · simp at hp'
            · split at hp' <;> simp at hp'
      · split at hp
        · simp at hp; subst hp
          split at hp'
          · simp at hp'
          · split at hp'
            · simp at hp'
            · split at hp'
              · omega
              · split at hp' <;> simp at hp'
        · split at hp
          · simp at hp; subst hp
            split at hp'
            · simp at hp'
            · split at hp'
              · simp at hp'
              · split at hp'
                · simp at hp'
                · split at hp'
                  · omega
                  · simp at hp'
          · simp at hp
  · intro h p hp
    simp only [Verif.Files.start, AMap.find] at hp
    show p < stdStreams.length
    split at hp
    · simp at hp
    · split at hp
      · simp at hp; subst hp; decide
      · split at hp
        · simp at hp; subst hp; decide
        · split at hp
          · simp at hp; subst hp; decide
          · simp at hp

/-- A handle that is not stale is unknown, or open. -/
theorem Rep.cases {w : World} {F : Files} (hr : Rep w F) {h : Int} (hs : ¬ F.stale h) :
    (w.handles.find h = none ∧ F.opened h = none) ∨
    (∃ p s, w.handles.find h = some (some p) ∧ w.sys.stream (some p) = some s ∧ F.opened h = some s) := by
  cases hf : w.handles.find h with
  | none => exact Or.inl ⟨rfl, hr.closed h ((hr.known h).1 hf)⟩
  | some q =>
    right
    have ho := hr.opened h q hf
    have hk : ¬ F.unknown h := fun hu => by rw [(hr.known h).2 hu] at hf; cases hf
    cases hs' : F.opened h with
    | none =>
      exfalso; apply hs
      simp only [Files.unknown] at hk
      exact ⟨by omega, by omega, hs'⟩
    | some s =>
      rw [hs'] at ho
      cases q with
      | none => simp [Sys.stream] at ho
      | some p => exact ⟨p, s, rfl, ho.symm, rfl⟩

/-- A stale handle is in the table, and its pointer may not be used. -/
theorem Rep.stale_iff {w : World} {F : Files} (hr : Rep w F) {h : Int} (hs : F.stale h) :
    ∃ q, w.handles.find h = some q ∧ w.sys.stream q = none := by
  cases hf : w.handles.find h with
  | none =>
    have := (hr.known h).1 hf
    simp only [Files.unknown] at this
    obtain ⟨h1, h2, _⟩ := hs
    omega
  | some q => exact ⟨q, rfl, by rw [← hr.opened h q hf]; exact hs.2.2⟩

theorem stream_setStream (S : Sys) (p : Nat) (s : Stream) (hp : p < S.streams.length) (q : Ptr) :
    (S.setStream p s).stream q = if q = some p then some s else S.stream q := by
  cases q with
  | none => simp [Sys.stream]
  | some q =>
    simp only [Sys.stream, Sys.setStream, List.getElem?_set, Option.some.injEq]
    by_cases h : p = q
    · subst h; simp [hp]
    · simp [h, Ne.symm h]

/-- Changing the stream of a handle changes that open file only. -/
theorem Rep.setStream {w : World} {F : Files} (hr : Rep w F) {h : Int} {p : Nat}
    (hf : w.handles.find h = some (some p)) (s : Stream) :
    Rep { w with sys := w.sys.setStream p s } (F.update h (some s)) := by
  refine ⟨hr.names, hr.data, hr.files, hr.next, hr.known, ?_, ?_, hr.inj, ?_⟩
  · intro k q hq
    show (if k = h then some s else F.opened k) = _
    rw [stream_setStream _ _ _ (hr.bound h p hf)]
    by_cases hk : k = h
    · subst hk
      rw [show w.handles.find k = some q from hq] at hf
      cases hf; simp
    · have : q ≠ some p := fun e => hk (by subst e; exact hr.inj k h p hq hf)
      simp only [hk, this, if_false]
      exact hr.opened k q hq
  · intro k hk
    show (if k = h then some s else F.opened k) = none
    have : k ≠ h := fun e => by
      subst e; rw [(hr.known k).2 hk] at hf; cases hf
    simp only [this, if_false]
    exact hr.closed k hk
  · intro k q hq
    simp only [Sys.setStream, List.length_set]
    exact hr.bound k q hq

/-- Closing a stream closes that open file only. -/
theorem Rep.close {w : World} {F : Files} (hr : Rep w F) {h : Int} {p : Nat}
    (hf : w.handles.find h = some (some p)) :
    Rep { w with sys := { w.sys with streams := w.sys.streams.set p none } } (F.update h none) := by
  refine ⟨hr.names, hr.data, hr.files, hr.next, hr.known, ?_, ?_, hr.inj, ?_⟩
  · intro k q hq
    show (if k = h then none else F.opened k) = _
    by_cases hk : k = h
    · subst hk
      rw [show w.handles.find k = some q from hq] at hf
      cases hf
      simp [Sys.stream, List.getElem?_set, hr.bound k p hq]
    · have hne : q ≠ some p := fun e => hk (by subst e; exact hr.inj k h p hq hf)
      simp only [hk, if_false]
      rw [hr.opened k q hq]
      cases q with
      | none => rfl
      | some q =>
        have : p ≠ q := fun e => hne (by rw [e])
        simp [Sys.stream, List.getElem?_set, this]
  · intro k hk
    show (if k = h then none else F.opened k) = none
    by_cases e : k = h
    · simp [e]
    · simp only [e, if_false]; exact hr.closed k hk
  · intro k q hq
    simp only [List.length_set]
    exact hr.bound k q hq

/-- Changing the contents of a file. -/
theorem Rep.setData {w : World} {F : Files} (hr : Rep w F) (f : Nat) (d : List Byte) :
    Rep { w with sys := w.sys.setData f d } (F.write f d) := by
  refine ⟨hr.names, ?_, hr.files, hr.next, hr.known, hr.opened, hr.closed, hr.inj, hr.bound⟩
  simp only [Sys.setData, Files.write, hr.data]

theorem Rep.put {w : World} {F : Files} (hr : Rep w F) {h : Int} {p : Nat}
    (hf : w.handles.find h = some (some p)) (s : Stream) (b : List Byte) :
    Rep { w with sys := w.sys.put p s b } (F.put h s b) := by
  unfold Sys.put Files.put
  rw [hr.data]
  exact (hr.setData s.file _).setStream (h := h) (p := p) hf _

theorem find_append {m : AMap Int Ptr} {k : Int} {p : Ptr} (hk : m.find k = none) (h : Int) :
    AMap.find h (m ++ [(k, p)]) = if h = k then some p else m.find h := by
  induction m with
  | nil =>
    simp only [List.nil_append, AMap.find]
    by_cases e : k = h
    · simp [e]
    · simp [e, Ne.symm e]
  | cons x m ih =>
    obtain ⟨a, v⟩ := x
    simp only [AMap.find, List.cons_append] at hk ⊢
    by_cases ha : a = k
    · simp [ha] at hk
    · simp only [ha, if_false] at hk
      by_cases e : a = h
      · have : h ≠ k := fun e' => ha (e.trans e')
        simp [e, this]
      · simp only [e, if_false]; exact ih hk

theorem stream_append (S : Sys) (s : Stream) (q : Ptr) :
    ({ S with streams := S.streams ++ [some s] } : Sys).stream q
      = if q = some S.streams.length then some s else S.stream q := by
  cases q with
  | none => simp [Sys.stream]
  | some q =>
    simp only [Sys.stream, Option.some.injEq]
    by_cases h : q = S.streams.length
    · subst h; simp
    · simp only [h, if_false]
      by_cases h' : q < S.streams.length
      · rw [List.getElem?_append_left h']
      · rw [List.getElem?_append_right (by omega)]
        have h1 : q - S.streams.length ≠ 0 := by omega
        have h2 : S.streams[q]? = none := by simp; omega
        rw [h2]
        cases hq : q - S.streams.length with
        | zero => exact absurd hq h1
        | succ n => simp

/-- A new stream, under the next handle. -/
theorem Rep.add {w : World} {F : Files} (hr : Rep w F) (s : Stream) :
    Rep { sys := { w.sys with streams := w.sys.streams ++ [some s] },
          handles := insertHandle w.handles w.handles.length (some w.sys.streams.length) }
      (F.add s) := by
  have hnext : w.handles.find (w.handles.length : Int) = none :=
    (hr.known _).2 (Or.inr (by rw [hr.next]; exact Int.le_refl _))
  have hins : insertHandle w.handles w.handles.length (some w.sys.streams.length)
      = w.handles ++ [((w.handles.length : Int), some w.sys.streams.length)] := by
    simp only [insertHandle, hnext]
  have hfind : ∀ h, AMap.find h (insertHandle w.handles w.handles.length (some w.sys.streams.length))
      = if h = F.next then some (some w.sys.streams.length) else w.handles.find h := by
    intro h; rw [hins, find_append hnext, hr.next]
  have hF : (0 : Int) ≤ F.next := by rw [← hr.next]; omega
  refine ⟨hr.names, hr.data, hr.files, ?_, ?_, ?_, ?_, ?_, ?_⟩
  · show ((insertHandle w.handles w.handles.length (some w.sys.streams.length)).length : Int) = F.next + 1
    rw [hins]; simp; exact hr.next
  · intro h
    show AMap.find h (insertHandle _ _ _) = none ↔ _
    rw [hfind]
    by_cases e : h = F.next
    · subst e; simp [Files.unknown, Files.add]; omega
    · simp only [e, if_false]
      rw [hr.known h]
      simp only [Files.unknown, Files.add]; omega
  · intro h q hq
    have hq' : AMap.find h (insertHandle w.handles w.handles.length (some w.sys.streams.length)) = some q := hq
    rw [hfind] at hq'
    rw [stream_append]
    show (if h = F.next then some s else F.opened h) = _
    by_cases e : h = F.next
    · simp only [e, if_true, Option.some.injEq] at hq'
      simp [e, ← hq']
    · simp only [e, if_false] at hq' ⊢
      have hne : q ≠ some w.sys.streams.length := by
        intro e'; subst e'
        have := hr.bound h _ hq'; omega
      simp only [hne, if_false]
      exact hr.opened h q hq'
  · intro h hu
    show (if h = F.next then some s else F.opened h) = none
    simp only [Files.unknown, Files.add] at hu
    have e : h ≠ F.next := by omega
    simp only [e, if_false]
    exact hr.closed h (by simp only [Files.unknown]; omega)
  · intro h h' p hp hp'
    have hp1 : AMap.find h (insertHandle w.handles w.handles.length (some w.sys.streams.length)) = some (some p) := hp
    have hp2 : AMap.find h' (insertHandle w.handles w.handles.length (some w.sys.streams.length)) = some (some p) := hp'
    rw [hfind] at hp1 hp2
    by_cases e : h = F.next <;> by_cases e' : h' = F.next
    · rw [e, e']
    · simp only [e, if_true, Option.some.injEq] at hp1
      simp only [e', if_false] at hp2
      have := hr.bound h' p hp2; omega
    · simp only [e', if_true, Option.some.injEq] at hp2
      simp only [e, if_false] at hp1
      have := hr.bound h p hp1; omega
    · simp only [e, if_false] at hp1
      simp only [e', if_false] at hp2
      exact hr.inj h h' p hp1 hp2
  · intro h p hp
    have hp1 : AMap.find h (insertHandle w.handles w.handles.length (some w.sys.streams.length)) = some (some p) := hp
    rw [hfind] at hp1
    simp only [List.length_append, List.length_singleton]
    by_cases e : h = F.next
    · simp only [e, if_true, Option.some.injEq] at hp1; omega
    · simp only [e, if_false] at hp1
      have := hr.bound h p hp1; omega

/-- What holds of a state stays true if the specification writes the same open file back. -/
theorem update_self {F : Files} {h : Int} {s : Stream} (ho : F.opened h = some s) : F.update h (some s) = F := by
  unfold Files.update
  congr 1
  funext k
  by_cases e : k = h
  · subst e; simp [ho]
  · simp [e]

end Verif.Files
