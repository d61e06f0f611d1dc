import Verif.Files.Step

/-!
# The table of handles in every history

Nothing here needs the calls to be careful.
-/

namespace Verif.Files

/-- The handles are `0, …, n - 1`; different handles have different streams. -/
structure Table (w : World) : Prop where
  known : ∀ h, w.handles.find h = none ↔ h < 0 ∨ (w.handles.length : Int) ≤ h
  inj : ∀ h h' p, w.handles.find h = some (some p) → w.handles.find h' = some (some p) → h = h'
  bound : ∀ h p, w.handles.find h = some (some p) → p < w.sys.streams.length
  size : 4 ≤ w.handles.length

/-- A step of the system that concerns the stream `p` only, and keeps its file. -/
structure Within (p : Ptr) (S S' : Sys) : Prop where
  length : S'.streams.length = S.streams.length
  others : ∀ q, q ≠ p → S'.stream q = S.stream q

theorem Within.refl (p : Ptr) (S : Sys) : Within p S S := ⟨rfl, fun _ _ => rfl⟩

theorem Within.trans {p : Ptr} {S S' S'' : Sys} (a : Within p S S') (b : Within p S' S'') : Within p S S'' :=
  ⟨b.length.trans a.length, fun q hq => (b.others q hq).trans (a.others q hq)⟩

theorem Within.setStream {S : Sys} {p : Nat} {s₀ : Stream} (h : S.stream (some p) = some s₀) (s : Stream) :
    Within (some p) S (S.setStream p s) := by
  refine ⟨by simp [Sys.setStream], ?_⟩
  intro q hq
  rw [stream_setStream _ _ _ (stream_bound h)]
  simp [hq]

theorem Within.put {S : Sys} {p : Nat} {s₀ : Stream} (h : S.stream (some p) = some s₀) (s : Stream) (b : List Byte) :
    Within (some p) S (S.put p s b) := by
  unfold Sys.put
  exact Within.trans (S' := S.setData s.file _) ⟨rfl, fun _ _ => rfl⟩
    (Within.setStream (s₀ := s₀) (by exact h) _)

theorem within_fread {S S' : Sys} {p : Ptr} {n : Nat} {b : List Byte} (h : c_fread S p n = some (b, S')) :
    Within p S S' := by
  simp only [c_fread] at h
  split at h
  · rename_i q s hs
    split at h
    · simp only [Option.some.injEq, Prod.mk.injEq] at h
      rw [← h.2]; exact Within.setStream hs _
    · simp only [Option.some.injEq, Prod.mk.injEq] at h
      rw [← h.2]; exact Within.setStream hs _
  · cases h

theorem within_fgets {S S' : Sys} {p : Ptr} {n : Nat} {b : Option (List Byte)} (h : c_fgets S p n = some (b, S')) :
    Within p S S' := by
  simp only [c_fgets] at h
  split at h
  · rename_i q s hs
    split at h
    · simp only [Option.some.injEq, Prod.mk.injEq] at h
      rw [← h.2]; exact Within.refl _ _
    · split at h
      · simp only [Option.some.injEq, Prod.mk.injEq] at h
        rw [← h.2]; exact Within.setStream hs _
      · simp only [Option.some.injEq, Prod.mk.injEq] at h
        rw [← h.2]; exact Within.setStream hs _
  · cases h

theorem within_freadsLoop : ∀ (fuel : Nat) (S : Sys) (p : Ptr) (n : Int) (v : List Byte) (r : Out Value) (S' : Sys),
    freadsLoop fuel S p n v = some (r, S') → Within p S S' := by
  intro fuel
  induction fuel with
  | zero =>
    intro S p n v r S' h
    simp only [freadsLoop, Option.some.injEq, Prod.mk.injEq] at h
    rw [← h.2]; exact Within.refl _ _
  | succ fuel ih =>
    intro S p n v r S' h
    simp only [freadsLoop] at h
    split at h
    · split at h
      · cases h
      · rename_i S₁ hr
        simp only [Option.some.injEq, Prod.mk.injEq] at h
        rw [← h.2]; exact within_fread hr
      · rename_i b bs S₁ hr
        exact (within_fread hr).trans (ih _ _ _ _ _ _ h)
    · simp only [Option.some.injEq, Prod.mk.injEq] at h
      rw [← h.2]; exact Within.refl _ _

theorem within_fgetsLoop : ∀ (fuel : Nat) (S : Sys) (p : Ptr) (n : Nat) (v : Value) (r : Out Value) (S' : Sys),
    fgetsLoop fuel S p n v = some (r, S') → Within p S S' := by
  intro fuel
  induction fuel with
  | zero =>
    intro S p n v r S' h
    simp only [fgetsLoop, Option.some.injEq, Prod.mk.injEq] at h
    rw [← h.2]; exact Within.refl _ _
  | succ fuel ih =>
    intro S p n v r S' h
    simp only [fgetsLoop] at h
    split at h
    · simp only [Option.some.injEq, Prod.mk.injEq] at h
      rw [← h.2]; exact Within.refl _ _
    · generalize hg : c_fgets S p (if n > readSize then readSize else n) = g at h
      cases g with
      | none => cases h
      | some x => exact (within_fgets hg).trans (ih _ _ _ _ _ _ h)

theorem within_fputs {S S' : Sys} {p : Ptr} {b : List Byte} {r : Int} (h : c_fputs S p b = some (r, S')) :
    Within p S S' := by
  simp only [c_fputs] at h
  split at h
  · rename_i q s hs
    split at h
    · simp only [Option.some.injEq, Prod.mk.injEq] at h
      rw [← h.2]; exact Within.refl _ _
    · split at h
      · simp only [Option.some.injEq, Prod.mk.injEq] at h
        rw [← h.2]; exact Within.setStream hs _
      · simp only [Option.some.injEq, Prod.mk.injEq] at h
        rw [← h.2]; exact Within.put hs _ _
  · cases h

theorem within_fwrite {S S' : Sys} {p : Ptr} {b : List Byte} {r : Int} (h : c_fwrite S p b = some (r, S')) :
    Within p S S' := by
  simp only [c_fwrite] at h
  split at h
  · rename_i q s hs
    split at h
    · simp only [Option.some.injEq, Prod.mk.injEq] at h
      rw [← h.2]; exact Within.setStream hs _
    · simp only [Option.some.injEq, Prod.mk.injEq] at h
      rw [← h.2]; exact Within.put hs _ _
  · cases h

theorem within_fputc {S S' : Sys} {p : Ptr} {c : Int} {r : Int} (h : c_fputc S p c = some (r, S')) :
    Within p S S' := by
  simp only [c_fputc] at h
  split at h
  · rename_i q s hs
    split at h
    · simp only [Option.some.injEq, Prod.mk.injEq] at h
      rw [← h.2]; exact Within.setStream hs _
    · simp only [Option.some.injEq, Prod.mk.injEq] at h
      rw [← h.2]; exact Within.put hs _ _
  · cases h

theorem within_fgetc {S S' : Sys} {p : Ptr} {r : Int} (h : c_fgetc S p = some (r, S')) : Within p S S' := by
  simp only [c_fgetc] at h
  split at h
  · cases h
  · rename_i hr
    simp only [Option.some.injEq, Prod.mk.injEq] at h
    rw [← h.2]; exact within_fread hr
  · rename_i hr
    simp only [Option.some.injEq, Prod.mk.injEq] at h
    rw [← h.2]; exact within_fread hr

theorem within_fseek {S S' : Sys} {p : Ptr} {a b : Int} {r : Int} (h : c_fseek S p a b = some (r, S')) :
    Within p S S' := by
  simp only [c_fseek] at h
  split at h
  · rename_i q s hs
    split at h
    · simp only [Option.some.injEq, Prod.mk.injEq] at h
      rw [← h.2]; exact Within.refl _ _
    · split at h
      · simp only [Option.some.injEq, Prod.mk.injEq] at h
        rw [← h.2]; exact Within.refl _ _
      · simp only [Option.some.injEq, Prod.mk.injEq] at h
        rw [← h.2]; exact Within.setStream hs _
  · cases h

theorem within_rewind {S S' : Sys} {p : Ptr} (h : c_rewind S p = some S') : Within p S S' := by
  simp only [c_rewind] at h
  split at h
  · rename_i q s hs
    simp only [Option.some.injEq] at h
    rw [← h]; exact Within.setStream hs _
  · cases h

theorem within_clearerr {S S' : Sys} {p : Ptr} (h : c_clearerr S p = some S') : Within p S S' := by
  simp only [c_clearerr] at h
  split at h
  · rename_i q s hs
    simp only [Option.some.injEq] at h
    rw [← h]; exact Within.setStream hs _
  · cases h

theorem within_fclose {S S' : Sys} {p : Ptr} {r : Int} (h : c_fclose S p = some (r, S')) : Within p S S' := by
  simp only [c_fclose] at h
  split at h
  · rename_i q s hs
    simp only [Option.some.injEq, Prod.mk.injEq] at h
    rw [← h.2]
    refine ⟨by simp, ?_⟩
    intro k hk
    cases k with
    | none => rfl
    | some k =>
      have : q ≠ k := fun e => hk (by rw [e])
      simp [Sys.stream, List.getElem?_set, this]
  · cases h

/-- What a call on a handle may change. -/
theorem withHandle_within {w : World} {h : Int} {f : Ptr → Option (Out Value × Sys)}
    (hf : ∀ p r S', f p = some (r, S') → Within p w.sys S') {r : Out Value} {w' : World}
    (hw : withHandle w h f = (r, w')) :
    w'.handles = w.handles ∧
      ((w.handles.find h = none ∧ w' = w) ∨ ∃ p, w.handles.find h = some p ∧ Within p w.sys w'.sys) := by
  simp only [withHandle] at hw
  cases hh : w.handles.find h with
  | none =>
    rw [hh] at hw
    simp only [Prod.mk.injEq] at hw
    rw [← hw.2]; exact ⟨rfl, Or.inl ⟨rfl, rfl⟩⟩
  | some p =>
    rw [hh] at hw
    simp only at hw
    cases hp : f p with
    | none =>
      rw [hp] at hw
      simp only [Prod.mk.injEq] at hw
      rw [← hw.2]; exact ⟨rfl, Or.inr ⟨p, rfl, Within.refl _ _⟩⟩
    | some x =>
      rw [hp] at hw
      simp only [Prod.mk.injEq] at hw
      rw [← hw.2]
      exact ⟨rfl, Or.inr ⟨p, rfl, hf p x.1 x.2 hp⟩⟩

theorem map_within {p : Ptr} {S : Sys} {α : Type} {a : Option (α × Sys)} {g : α × Sys → Out Value × Sys}
    {r : Out Value} {S' : Sys} (ha : ∀ x S₁, a = some (x, S₁) → Within p S S₁)
    (h : a.map g = some (r, S')) (hg : ∀ x, (g x).2 = x.2) : Within p S S' := by
  cases a with
  | none => simp at h
  | some x =>
    obtain ⟨x, S₁⟩ := x
    simp only [Option.map_some, Option.some.injEq] at h
    have := hg (x, S₁)
    rw [h] at this
    rw [show S' = S₁ from this]; exact ha x S₁ rfl

theorem map_within_same {p : Ptr} {S : Sys} {a : Option Int} {g : Int → Out Value} {r : Out Value} {S' : Sys}
    (h : a.map (fun x => (g x, S)) = some (r, S')) : Within p S S' := by
  cases a with
  | none => simp at h
  | some x =>
    simp only [Option.map_some, Option.some.injEq, Prod.mk.injEq] at h
    rw [← h.2]; exact Within.refl _ _

theorem map_within_sys {p : Ptr} {S : Sys} {a : Option Sys} {r : Out Value} {S' : Sys}
    (ha : ∀ S₁, a = some S₁ → Within p S S₁)
    (h : a.map (fun S₁ => ((.ok .nothing : Out Value), S₁)) = some (r, S')) : Within p S S' := by
  cases a with
  | none => simp at h
  | some x =>
    simp only [Option.map_some, Option.some.injEq, Prod.mk.injEq] at h
    rw [← h.2]; exact ha x rfl

/-- A call with a handle leaves the table alone and concerns its own stream only. -/
theorem call_within (refused : String → Bool) {w : World} {o : Op} {h : Int} (ho : o.handle = some h)
    {r : Out Value} {w' : World} (hc : call refused w o = (r, w')) :
    w'.handles = w.handles ∧
      ((w.handles.find h = none ∧ w' = w) ∨ ∃ p, w.handles.find h = some p ∧ Within p w.sys w'.sys) := by
  cases o <;> simp only [Op.handle, Option.some.injEq, reduceCtorEq] at ho
  all_goals subst ho
  case fclose => exact withHandle_within (f := _) (h := _) (by intro p r S' hx; exact map_within (fun x S₁ => within_fclose) hx (fun _ => rfl)) hc
  case fgetc => exact withHandle_within (f := _) (h := _) (by intro p r S' hx; exact map_within (fun x S₁ => within_fgetc) hx (fun _ => rfl)) hc
  case fgets => exact withHandle_within (fun p r S' => within_fgetsLoop _ _ _ _ _ _ _) hc
  case freads => exact withHandle_within (fun p r S' => within_freadsLoop _ _ _ _ _ _ _) hc
  case freadi => exact withHandle_within (f := _) (h := _) (by intro p r S' hx; exact map_within (fun x S₁ => within_fread) hx (fun _ => rfl)) hc
  case freadb =>
    refine withHandle_within (fun p r S' hf => ?_) hc
    split at hf
    · cases hf
    · rename_i hr
      simp only [Option.some.injEq, Prod.mk.injEq] at hf
      rw [← hf.2]; exact within_fread hr
    · rename_i hr
      split at hf
      · simp only [Option.some.injEq, Prod.mk.injEq] at hf
        rw [← hf.2]; exact within_fread hr
      · split at hf
        · simp only [Option.some.injEq, Prod.mk.injEq] at hf
          rw [← hf.2]; exact within_fread hr
        · cases hf
  case fputs => exact withHandle_within (f := _) (h := _) (by intro p r S' hx; exact map_within (fun x S₁ => within_fputs) hx (fun _ => rfl)) hc
  case fwrites => exact withHandle_within (f := _) (h := _) (by intro p r S' hx; exact map_within (fun x S₁ => within_fputs) hx (fun _ => rfl)) hc
  case fwritei => exact withHandle_within (f := _) (h := _) (by intro p r S' hx; exact map_within (fun x S₁ => within_fwrite) hx (fun _ => rfl)) hc
  case fwriteb => exact withHandle_within (f := _) (h := _) (by intro p r S' hx; exact map_within (fun x S₁ => within_fwrite) hx (fun _ => rfl)) hc
  case fputc => exact withHandle_within (f := _) (h := _) (by intro p r S' hx; exact map_within (fun x S₁ => within_fputc) hx (fun _ => rfl)) hc
  case fseek => exact withHandle_within (f := _) (h := _) (by intro p r S' hx; exact map_within (fun x S₁ => within_fseek) hx (fun _ => rfl)) hc
  case ftell => exact withHandle_within (fun p r S' => map_within_same) hc
  case feof => exact withHandle_within (fun p r S' => map_within_same) hc
  case ferror => exact withHandle_within (fun p r S' => map_within_same) hc
  case fflush => exact withHandle_within (fun p r S' => map_within_same) hc
  case rewind => exact withHandle_within (fun p r S' => map_within_sys (fun S₁ => within_rewind)) hc
  case clearerr => exact withHandle_within (fun p r S' => map_within_sys (fun S₁ => within_clearerr)) hc

/-- A call without a handle: the table stays, or gets the next handle for a new stream. -/
theorem call_adds (refused : String → Bool) {w : World} (ht : Table w) {o : Op} (ho : o.handle = none)
    {r : Out Value} {w' : World} (hc : call refused w o = (r, w')) :
    (w'.handles = w.handles ∧ w'.sys.streams = w.sys.streams ∧ ((∃ n, o = .remove n) ∨ r = .ok (.int 0))) ∨
    (∃ s, w'.handles = w.handles ++ [((w.handles.length : Int), some w.sys.streams.length)] ∧
      w'.sys.streams = w.sys.streams ++ [some s] ∧ r = .ok (.int w.handles.length)) := by
  have hnone : w.handles.find (w.handles.length : Int) = none := (ht.known _).2 (Or.inr (Int.le_refl _))
  cases o <;> simp only [Op.handle, reduceCtorEq] at ho
  case fopen name mode =>
    simp only [call, fopen, c_fopen] at hc
    split at hc
    · simp only [register, Prod.mk.injEq] at hc
      rw [← hc.2, ← hc.1]; exact Or.inl ⟨rfl, rfl, Or.inr rfl⟩
    · rename_i m hm
      split at hc
      · simp only [register, Prod.mk.injEq] at hc
        rw [← hc.2, ← hc.1]; exact Or.inl ⟨rfl, rfl, Or.inr rfl⟩
      · split at hc
        · simp only [register, Prod.mk.injEq] at hc
          rw [← hc.2, ← hc.1]; exact Or.inl ⟨rfl, rfl, Or.inr rfl⟩
        · rename_i f S hof
          have hstr : S.streams = w.sys.streams := by
            simp only [Sys.openFile] at hof
            split at hof
            · simp only [Option.some.injEq, Prod.mk.injEq] at hof
              rw [← hof.2]; split <;> rfl
            · split at hof
              · simp only [Option.some.injEq, Prod.mk.injEq] at hof
                rw [← hof.2]; rfl
              · cases hof
          simp only [register, Prod.mk.injEq, insertHandle, hnone] at hc
          rw [← hc.2, ← hc.1]
          exact Or.inr ⟨m.stream f, by simp only [hstr], by simp only [hstr], rfl⟩
  case tmpfile =>
    simp only [call, tmpfile, c_tmpfile, register, insertHandle, hnone, Prod.mk.injEq] at hc
    rw [← hc.2, ← hc.1]
    exact Or.inr ⟨_, rfl, rfl, rfl⟩
  case remove name =>
    simp only [call, remove, c_remove] at hc
    split at hc
    · simp only [Prod.mk.injEq] at hc
      rw [← hc.2]; exact Or.inl ⟨rfl, rfl, Or.inl ⟨_, rfl⟩⟩
    · simp only [Prod.mk.injEq] at hc
      rw [← hc.2]; exact Or.inl ⟨rfl, rfl, Or.inl ⟨_, rfl⟩⟩

theorem table_append {w : World} (ht : Table w) {w' : World} {s : Stream}
    (h1 : w'.handles = w.handles ++ [((w.handles.length : Int), some w.sys.streams.length)])
    (h2 : w'.sys.streams = w.sys.streams ++ [some s]) :
    Table w' ∧ ∀ h, w'.handles.find h
      = if h = (w.handles.length : Int) then some (some w.sys.streams.length) else w.handles.find h := by
  have hnone : w.handles.find (w.handles.length : Int) = none := (ht.known _).2 (Or.inr (Int.le_refl _))
  have hfind : ∀ h, w'.handles.find h
      = if h = (w.handles.length : Int) then some (some w.sys.streams.length) else w.handles.find h := by
    intro h; rw [h1, find_append hnone]
  have hlen : w'.handles.length = w.handles.length + 1 := by rw [h1]; simp
  refine ⟨⟨?_, ?_, ?_, ?_⟩, hfind⟩
  · intro h
    rw [hfind]
    by_cases e : h = (w.handles.length : Int)
    · rw [if_pos e]; simp [hlen]; omega
    · rw [if_neg e, ht.known, hlen]; omega
  · intro h h' p hp hp'
    rw [hfind] at hp hp'
    by_cases e : h = (w.handles.length : Int) <;> by_cases e' : h' = (w.handles.length : Int)
    · rw [e, e']
    · simp only [e, if_true, Option.some.injEq] at hp
      simp only [e', if_false] at hp'
      have := ht.bound h' p hp'; omega
    · simp only [e', if_true, Option.some.injEq] at hp'
      simp only [e, if_false] at hp
      have := ht.bound h p hp; omega
    · simp only [e, if_false] at hp
      simp only [e', if_false] at hp'
      exact ht.inj h h' p hp hp'
  · intro h p hp
    rw [hfind] at hp
    rw [h2]; simp only [List.length_append, List.length_singleton]
    by_cases e : h = (w.handles.length : Int)
    · simp only [e, if_true, Option.some.injEq] at hp; omega
    · simp only [e, if_false] at hp
      have := ht.bound h p hp; omega
  · rw [hlen]; have := ht.size; omega

/-- Every call keeps the table in order; handles that are there stay. -/
theorem call_table (refused : String → Bool) {w : World} (ht : Table w) (o : Op) :
    Table (call refused w o).2 ∧ w.handles.length ≤ (call refused w o).2.handles.length ∧
    (∀ h p, w.handles.find h = some p → (call refused w o).2.handles.find h = some p) ∧
    (∀ h p, w.handles.find h = some p → o.handle ≠ some h →
      (call refused w o).2.sys.stream p = w.sys.stream p) := by
  generalize hc : call refused w o = c
  obtain ⟨r, w'⟩ := c
  cases ho : o.handle with
  | none =>
    rcases call_adds refused ht ho hc with ⟨h1, h2, _⟩ | ⟨s, h1, h2, _⟩
    · refine ⟨⟨?_, ?_, ?_, ?_⟩, ?_, ?_, ?_⟩
      · simp only [h1]; exact ht.known
      · simp only [h1]; exact ht.inj
      · simp only [h1, h2]; exact ht.bound
      · simp only [h1]; exact ht.size
      · simp only [h1]; exact Nat.le_refl _
      · simp only [h1]; exact fun h p hp => hp
      · intro h p _ _
        cases p with
        | none => rfl
        | some p => simp only [Sys.stream, h2]
    · obtain ⟨ht', hfind⟩ := table_append ht h1 h2
      refine ⟨ht', by simp only [h1]; simp, ?_, ?_⟩
      · intro h p hp
        simp only [hfind]
        have : h ≠ (w.handles.length : Int) := fun e => by
          rw [(ht.known h).2 (Or.inr (by omega))] at hp; cases hp
        simp only [this, if_false]; exact hp
      · intro h p hp _
        cases p with
        | none => rfl
        | some p =>
          have := ht.bound h p hp
          simp only [Sys.stream, h2, List.getElem?_append_left this]
  | some k =>
    obtain ⟨h1, hcase⟩ := call_within refused ho hc
    have hb : w'.sys.streams.length = w.sys.streams.length := by
      rcases hcase with ⟨_, rfl⟩ | ⟨p, _, hw⟩
      · rfl
      · exact hw.length
    refine ⟨⟨?_, ?_, ?_, ?_⟩, ?_, ?_, ?_⟩
    · simp only [h1]; exact ht.known
    · simp only [h1]; exact ht.inj
    · simp only [h1, hb]; exact ht.bound
    · simp only [h1]; exact ht.size
    · simp only [h1]; exact Nat.le_refl _
    · simp only [h1]; exact fun h p hp => hp
    · intro h p hp hne
      rcases hcase with ⟨_, rfl⟩ | ⟨q, hq, hw⟩
      · rfl
      · cases p with
        | none => rfl
        | some p =>
          apply hw.others
          intro e
          subst e
          exact hne (by rw [ht.inj h k p hp hq])

theorem table_start (names : String → Option Nat) (data : Nat → List Byte) (files : Nat) :
    Table (start names data files) := by
  have hr := Rep.start names data files
  refine ⟨?_, hr.inj, hr.bound, ?_⟩
  · intro h
    rw [hr.known h]
    simp only [Files.unknown, Files.start, Verif.Files.start, List.length_cons, List.length_nil]
    omega
  · simp [Verif.Files.start]

/-- The table is in order after every sequence of calls; what a sequence of calls does not
use stays as it was. -/
theorem calls_table (refused : String → Bool) : ∀ (os : List Op) (w : World), Table w →
    Table (calls refused w os).2 ∧ w.handles.length ≤ (calls refused w os).2.handles.length ∧
    (∀ h p, w.handles.find h = some p → (calls refused w os).2.handles.find h = some p) ∧
    (∀ h p, w.handles.find h = some p → (∀ o ∈ os, o.handle ≠ some h) →
      (calls refused w os).2.sys.stream p = w.sys.stream p) := by
  intro os
  induction os with
  | nil => intro w ht; exact ⟨ht, Nat.le_refl _, fun _ _ h => h, fun _ _ _ _ => rfl⟩
  | cons o os ih =>
    intro w ht
    have h1 := call_table refused ht o
    generalize hc : call refused w o = c at h1
    obtain ⟨r, w'⟩ := c
    have h2 := ih w' h1.1
    cases r with
    | ub =>
      simp only [calls, hc]
      exact ⟨h1.1, h1.2.1, h1.2.2.1, fun h p hp hn => h1.2.2.2 h p hp (hn o (by simp))⟩
    | ok v =>
      simp only [calls, hc]
      exact ⟨h2.1, Nat.le_trans h1.2.1 h2.2.1, fun h p hp => h2.2.2.1 h p (h1.2.2.1 h p hp),
        fun h p hp hn => (h2.2.2.2 h p (h1.2.2.1 h p hp) (fun o' ho' => hn o' (by simp [ho']))).trans
          (h1.2.2.2 h p hp (hn o (by simp)))⟩
    | fail =>
      simp only [calls, hc]
      exact ⟨h2.1, Nat.le_trans h1.2.1 h2.2.1, fun h p hp => h2.2.2.1 h p (h1.2.2.1 h p hp),
        fun h p hp hn => (h2.2.2.2 h p (h1.2.2.1 h p hp) (fun o' ho' => hn o' (by simp [ho']))).trans
          (h1.2.2.2 h p hp (hn o (by simp)))⟩

end Verif.Files
