import Verif.Files.Local

/-!
# Properties of files (C117–C122)
-/

namespace Verif.Files

/-! ## C117: every open file has its own handle -/

/-- Is this a call that opens a file? -/
def Op.opens : Op → Bool
  | .fopen _ _ | .tmpfile => true
  | _ => false

/-- The handles a sequence of calls gives out. -/
def given (refused : String → Bool) : World → List Op → List Int
  | _, [] => []
  | w, o :: os => match call refused w o with
    | (.ub, _) => []
    | (.ok (.int h), w') => if o.opens && decide (h ≠ 0) then h :: given refused w' os else given refused w' os
    | (_, w') => given refused w' os

theorem opens_handle {o : Op} (h : o.opens = true) : o.handle = none := by
  cases o <;> first | rfl | cases h

theorem given_ge (refused : String → Bool) : ∀ (os : List Op) (w : World), Table w →
    (given refused w os).Nodup ∧ ∀ h ∈ given refused w os, (w.handles.length : Int) ≤ h := by
  intro os
  induction os with
  | nil => intro w _; simp [given]
  | cons o os ih =>
    intro w ht
    have h1 := call_table refused ht o
    generalize hc : call refused w o = c at h1
    obtain ⟨r, w'⟩ := c
    have h2 := ih w' h1.1
    have hle : (w.handles.length : Int) ≤ w'.handles.length := by have := h1.2.1; simp only at this; omega
    have hrest : (given refused w' os).Nodup ∧ ∀ h ∈ given refused w' os, (w.handles.length : Int) ≤ h :=
      ⟨h2.1, fun h hh => Int.le_trans hle (h2.2 h hh)⟩
    cases r with
    | ub => simp [given, hc]
    | fail => simp only [given, hc]; exact hrest
    | ok v =>
      cases v with
      | str b => simp only [given, hc]; exact hrest
      | bool b => simp only [given, hc]; exact hrest
      | nothing => simp only [given, hc]; exact hrest
      | int i =>
        simp only [given, hc]
        split
        · rename_i hcond
          simp only [Bool.and_eq_true, decide_eq_true_eq] at hcond
          rcases call_adds refused ht (opens_handle hcond.1) hc with ⟨_, _, h⟩ | ⟨s, ha, _, hr⟩
          · rcases h with ⟨n, rfl⟩ | h
            · simp [Op.opens] at hcond
            · simp only [Out.ok.injEq, Value.int.injEq] at h; exact absurd h hcond.2
          · simp only [Out.ok.injEq, Value.int.injEq] at hr
            have hl : w'.handles.length = w.handles.length + 1 := by rw [ha]; simp
            refine ⟨List.nodup_cons.2 ⟨?_, h2.1⟩, ?_⟩
            · intro hm
              have := h2.2 i hm
              omega
            · intro h hm
              rcases List.mem_cons.1 hm with rfl | hm
              · omega
              · exact hrest.2 h hm
        · exact hrest

/-- The handles a script is given for the files it opens are all different, also from those
of files that were closed, and none of them is 0 or the handle of a standard stream. -/
theorem handles_are_new (refused : String → Bool) (names : String → Option Nat) (data : Nat → List Byte)
    (files : Nat) (os : List Op) :
    (given refused (start names data files) os).Nodup ∧
    ∀ h ∈ given refused (start names data files) os, 3 < h := by
  have h := given_ge refused os _ (table_start names data files)
  refine ⟨h.1, fun k hk => ?_⟩
  have h1 := h.2 k hk
  have h2 : ((start names data files).handles.length : Int) = 4 := rfl
  rw [h2] at h1
  omega

example : given (fun _ => false) (start (fun _ => none) (fun _ => []) 3)
    [.fopen "a" "w", .fclose 4, .fopen "b" "r", .fopen "b" "w", .tmpfile] = [4, 5, 6] := by decide

theorem known_of_tell {w : World} {h : Int} (hk : (ftell w h).1 ≠ .fail) : ∃ p, w.handles.find h = some p := by
  cases hf : w.handles.find h with
  | some p => exact ⟨p, rfl⟩
  | none => simp [ftell, withHandle, hf] at hk

/-- The position, the end-of-file and the error indicator of a file are changed by calls
with its handle only, whatever else a script does with other files. -/
theorem other_handles_are_untouched (refused : String → Bool) (names : String → Option Nat)
    (data : Nat → List Byte) (files : Nat) (before after : List Op) (h : Int) (w w' : World)
    (hw : w = (calls refused (start names data files) before).2) (hw' : w' = (calls refused w after).2)
    (hk : (ftell w h).1 ≠ .fail) (hother : ∀ o ∈ after, o.handle ≠ some h) :
    (ftell w' h).1 = (ftell w h).1 ∧ (feof w' h).1 = (feof w h).1 ∧ (ferror w' h).1 = (ferror w h).1 := by
  have ht : Table w := by
    rw [hw]; exact (calls_table refused before _ (table_start names data files)).1
  obtain ⟨p, hp⟩ := known_of_tell hk
  have hc := calls_table refused after w ht
  have hp' : w'.handles.find h = some p := by rw [hw']; exact hc.2.2.1 h p hp
  have hs : w'.sys.stream p = w.sys.stream p := by rw [hw']; exact hc.2.2.2 h p hp hother
  refine ⟨?_, ?_, ?_⟩
  · simp only [ftell, withHandle, hp, hp', c_ftell, hs]
    cases w.sys.stream p <;> rfl
  · simp only [feof, withHandle, hp, hp', c_feof, hs]
    cases w.sys.stream p <;> rfl
  · simp only [ferror, withHandle, hp, hp', c_ferror, hs]
    cases w.sys.stream p <;> rfl

example : (calls (fun _ => false) (start (fun _ => none) (fun _ => []) 3)
    [.fopen "a" "w+", .fopen "b" "w", .fwrites 4 [104, 105], .fwrites 5 [65], .fclose 5, .ftell 4]).1
    = [.ok (.int 4), .ok (.int 5), .ok (.int 1), .ok (.int 1), .ok (.int 0), .ok (.int 2)] := by decide

/-! ## C118: handles that are not open are rejected -/

theorem known_given (refused : String → Bool) : ∀ (os : List Op) (w : World), Table w → ∀ h,
    (calls refused w os).2.handles.find h ≠ none → w.handles.find h = none → h ∈ given refused w os := by
  intro os
  induction os with
  | nil => intro w _ h h1 h2; exact absurd h2 h1
  | cons o os ih =>
    intro w ht h hk hn
    have h1 := call_table refused ht o
    generalize hc : call refused w o = c at h1
    obtain ⟨r, w'⟩ := c
    -- either the call itself gave the handle, or a later one
    have hstep : w'.handles.find h = none ∨ (o.opens = true ∧ r = .ok (.int h) ∧ h ≠ 0) := by
      cases ho : o.handle with
      | some k => left; rw [(call_within refused ho hc).1]; exact hn
      | none =>
        rcases call_adds refused ht ho hc with ⟨h3, _, _⟩ | ⟨s, h3, h4, h5⟩
        · left; rw [h3]; exact hn
        · by_cases e : h = (w.handles.length : Int)
          · right
            refine ⟨?_, by rw [e]; exact h5, by have := ht.size; omega⟩
            cases o <;> first | rfl | (simp only [Op.handle, reduceCtorEq] at ho)
            simp only [call, remove, Prod.mk.injEq] at hc
            have := congrArg List.length h3
            rw [← hc.2] at this
            simp at this
          · left
            rw [(table_append ht h3 h4).2 h]
            simp only [e, if_false]; exact hn
    cases r with
    | ub =>
      simp only [calls, hc] at hk
      rcases hstep with hs | ⟨_, hs, _⟩
      · exact absurd hs hk
      · cases hs
    | fail =>
      simp only [calls, hc] at hk
      simp only [given, hc]
      rcases hstep with hs | ⟨_, hs, _⟩
      · exact ih w' h1.1 h hk hs
      · cases hs
    | ok v =>
      simp only [calls, hc] at hk
      rcases hstep with hs | ⟨ho, hs, h0⟩
      · have hm := ih w' h1.1 h hk hs
        cases v with
        | str b => simp only [given, hc]; exact hm
        | bool b => simp only [given, hc]; exact hm
        | nothing => simp only [given, hc]; exact hm
        | int i =>
          simp only [given, hc]
          split
          · exact List.mem_cons_of_mem _ hm
          · exact hm
      · simp only [Out.ok.injEq] at hs
        subst hs
        simp only [given, hc, ho, h0, ne_eq, not_false_eq_true, decide_true, Bool.and_self, if_true]
        exact List.mem_cons_self

/-- A number that was never given out as a handle is rejected by every function, and
nothing changes.  (Handles that were closed, and the handle 0 of a file that could not be
opened, are not rejected: `stale_handles_refuted`.) -/
theorem unknown_handles_are_rejected_partial (refused : String → Bool) (names : String → Option Nat)
    (data : Nat → List Byte) (files : Nat) (os : List Op) (o : Op) (h : Int) (w : World)
    (hw : w = (calls refused (start names data files) os).2) (ho : o.handle = some h)
    (hh : h < 0 ∨ (3 < h ∧ h ∉ given refused (start names data files) os)) :
    call refused w o = (.fail, w) := by
  have ht := table_start names data files
  have hnone : w.handles.find h = none := by
    cases hf : w.handles.find h with
    | none => rfl
    | some p =>
      exfalso
      have htw := (calls_table refused os _ ht).1
      rcases hh with hh | ⟨h3, hg⟩
      · have := (htw.known h).2 (Or.inl hh)
        rw [← hw, hf] at this; cases this
      · apply hg
        apply known_given refused os _ ht h
        · rw [← hw, hf]; simp
        · rw [(Rep.start names data files).known h]
          right; show (4 : Int) ≤ h; omega
  cases o <;> simp only [Op.handle, Option.some.injEq, reduceCtorEq] at ho
  all_goals subst ho
  all_goals exact withHandle_unknown hnone _

example : call (fun _ => false) (calls (fun _ => false) (start (fun _ => none) (fun _ => []) 3)
    [.fopen "a" "w"]).2 (.freads 5 1) =
    (.fail, (calls (fun _ => false) (start (fun _ => none) (fun _ => []) 3) [.fopen "a" "w"]).2) :=
  unknown_handles_are_rejected_partial _ _ _ _ _ _ 5 _ rfl rfl (Or.inr (by decide))

/-- **Refuted**: after a file was closed its handle is still accepted, and so is the handle 0
of a file that could not be opened; every function then uses a stream that does not exist. -/
theorem stale_handles_refuted (refused : String → Bool) (names : String → Option Nat) (data : Nat → List Byte)
    (files : Nat) (os : List Op) (hc : AllCareful refused (Files.start names data files) os) (h : Int)
    (hs : (expects refused (Files.start names data files) os).2.stale h) (w : World)
    (hw : w = (calls refused (start names data files) os).2) :
    (∀ o ∈ [Op.fclose h, .fgetc h, .freadi h, .freadb h, .ftell h, .feof h, .ferror h, .rewind h, .clearerr h],
      (call refused w o).1 = .ub) ∧
    (∀ n, 0 < n → (call refused w (.fgets h n)).1 = .ub ∧ (call refused w (.freads h n)).1 = .ub) ∧
    (∀ b, (call refused w (.fputs b h)).1 = .ub ∧ (call refused w (.fwrites h b)).1 = .ub) ∧
    (∀ v, (call refused w (.fwritei h v)).1 = .ub ∧ (call refused w (.fputc v h)).1 = .ub) ∧
    (∀ v, (call refused w (.fwriteb h v)).1 = .ub) ∧
    (∀ a b, (call refused w (.fseek h a b)).1 = .ub) ∧
    (h ≠ 0 → (call refused w (.fflush h)).1 = .ub) := by
  have hr := (calls_agree refused os _ _ (Rep.start names data files) hc).2
  rw [← hw] at hr
  obtain ⟨q, hf, hst⟩ := hr.stale_iff hs
  have hread : ∀ n, c_fread w.sys q n = none := fun n => by simp only [c_fread]; rw [hst]; cases q <;> rfl
  refine ⟨?_, ?_, ?_, ?_, ?_, ?_, ?_⟩
  · intro o ho
    simp only [List.mem_cons, List.not_mem_nil, or_false] at ho
    rcases ho with rfl | rfl | rfl | rfl | rfl | rfl | rfl | rfl | rfl
    · simp [call, fclose, withHandle, hf, c_fclose, hst]
    · simp [call, fgetc, withHandle, hf, c_fgetc, hread]
    · simp [call, freadi, withHandle, hf, hread]
    · simp [call, freadb, withHandle, hf, hread]
    · simp [call, ftell, withHandle, hf, c_ftell, hst]
    · simp [call, feof, withHandle, hf, c_feof, hst]
    · simp [call, ferror, withHandle, hf, c_ferror, hst]
    · simp [call, rewind, withHandle, hf, c_rewind, hst]
    · simp [call, clearerr, withHandle, hf, c_clearerr, hst]
  · intro n hn
    obtain ⟨k, hk⟩ : ∃ k, n.toNat = k + 1 := ⟨n.toNat - 1, by omega⟩
    constructor
    · simp only [call, fgets, withHandle, hf, hk, fgetsLoop]
      simp [c_fgets, hst]
    · have h1 : n > 0 ∨ n = -1 := Or.inl hn
      simp [call, freads, withHandle, hf, freadsLoop, h1, hread]
  · intro b
    constructor
    · simp [call, fputs, withHandle, hf, c_fputs, hst]
    · simp [call, fwrites, withHandle, hf, c_fputs, hst]
  · intro v
    constructor
    · simp [call, fwritei, withHandle, hf, c_fwrite, hst]
    · simp [call, fputc, withHandle, hf, c_fputc, hst]
  · intro v; simp [call, fwriteb, withHandle, hf, c_fwrite, hst]
  · intro a b; simp [call, fseek, withHandle, hf, c_fseek, hst]
  · intro h0
    cases q with
    | some q => simp [call, fflush, withHandle, hf, c_fflush, hst]
    | none =>
      -- the only null pointer is the one of the handle 0
      exfalso
      have hz : ∀ (os : List Op) (w : World), Table w → (∀ h, w.handles.find h = some none → h = 0) →
          ∀ h, (calls refused w os).2.handles.find h = some none → h = 0 := by
        intro os
        induction os with
        | nil => intro w _ hw h hh; exact hw h hh
        | cons o os ih =>
          intro w ht hw h hh
          have h1 := call_table refused ht o
          generalize hc : call refused w o = c at h1
          obtain ⟨r, w'⟩ := c
          have hw' : ∀ h, w'.handles.find h = some none → h = 0 := by
            intro h hh
            cases ho : o.handle with
            | some k => rw [(call_within refused ho hc).1] at hh; exact hw h hh
            | none =>
              rcases call_adds refused ht ho hc with ⟨h3, _, _⟩ | ⟨s, h3, h4, _⟩
              · rw [h3] at hh; exact hw h hh
              · rw [(table_append ht h3 h4).2 h] at hh
                split at hh
                · simp at hh
                · exact hw h hh
          cases r with
          | ub => simp only [calls, hc] at hh; exact hw' h hh
          | ok v => simp only [calls, hc] at hh; exact ih w' h1.1 hw' h hh
          | fail => simp only [calls, hc] at hh; exact ih w' h1.1 hw' h hh
      apply h0
      apply hz os _ (table_start names data files) _ h (by rw [← hw]; exact hf)
      intro k hk
      simp only [start, AMap.find] at hk
      split at hk
      · omega
      · split at hk
        · simp at hk
        · split at hk
          · simp at hk
          · split at hk <;> simp at hk

/-- A small story: a file is written, closed, and then read through its old handle. -/
def staleStory : List Op := [.fopen "a" "w+", .fwrites 4 [104, 105], .fclose 4]

theorem staleStory_careful (names : String → Option Nat) (data : Nat → List Byte) (files : Nat) (hn : names "a" = none) :
    AllCareful (fun _ => false) (Files.start names data files) staleStory ∧
    (expects (fun _ => false) (Files.start names data files) staleStory).2.stale 4 := by
  have hm : parseMode ['w', '+'] = some { read := true, write := true, append := false, truncate := true, create := true } := by
    decide
  simp [staleStory, AllCareful, Careful, expects, expect, Files.openAs, hm, Files.start, hn, Files.create, Files.add,
    Files.on, Op.handle, Files.stale, Files.put, Files.write, Files.update, Mode.stream]

example : (calls (fun _ => false) (start (fun _ => none) (fun _ => []) 3) (staleStory ++ [.freads 4 2])).1
    = [.ok (.int 4), .ok (.int 1), .ok (.int 0), .ub] := by decide

/-- The functions do what is expected (`Files/Spec.lean`) in every sequence of careful
calls: the same replies, and no undefined behaviour.  Missing: calls that are not careful,
see the theorems called `…_refuted`. -/
theorem files_work_as_expected_partial (refused : String → Bool) (names : String → Option Nat)
    (data : Nat → List Byte) (files : Nat) (os : List Op)
    (hc : AllCareful refused (Files.start names data files) os) :
    (calls refused (start names data files) os).1 = (expects refused (Files.start names data files) os).1 :=
  (calls_agree refused os _ _ (Rep.start names data files) hc).1

example : AllCareful (fun _ => false) (Files.start (fun _ => none) (fun _ => []) 3) staleStory ∧
    (expects (fun _ => false) (Files.start (fun _ => none) (fun _ => []) 3) staleStory).1
      = [.ok (.int 4), .ok (.int 1), .ok (.int 0)] :=
  ⟨(staleStory_careful _ _ _ rfl).1, by decide⟩

/-! ## C119: reading -/

/-- The handle `h` stands for the open stream `s`. -/
def IsOpen (w : World) (h : Int) (p : Nat) (s : Stream) : Prop :=
  w.handles.find h = some (some p) ∧ w.sys.stream (some p) = some s

/-- `freads( h, n )` gives exactly the next `n` bytes of the file, or those that are left,
and moves the position behind them; `-1` gives all that is left. -/
theorem freads_reads_the_next_bytes_partial (w : World) (h : Int) (p : Nat) (s : Stream) (n : Nat)
    (ho : IsOpen w h p s) (hc : s.canRead = true) :
    (freads w h n).1 = .ok (.str (((w.sys.data s.file).drop s.pos).take n)) ∧
    (ftell (freads w h n).2 h).1 = .ok (.int (s.pos + min n ((w.sys.data s.file).length - s.pos) : Nat)) ∧
    (freads w h (-1)).1 = .ok (.str ((w.sys.data s.file).drop s.pos)) ∧
    (freads w h n).2.sys.data = w.sys.data := by
  obtain ⟨hf, hs⟩ := ho
  have hfuel : ((w.sys.data s.file).drop s.pos).length < bytesLeft w.sys (some p) + 1 := by
    simp only [bytesLeft, hs, List.length_drop]; omega
  have h1 := freadsLoop_count _ _ w.sys p s n [] hs hc rfl hfuel
  have h2 := freadsLoop_all _ _ w.sys p s [] hs hc rfl hfuel
  refine ⟨?_, ?_, ?_, ?_⟩
  · simp only [freads, withHandle, hf, h1, List.nil_append]
  · have hst : ∀ s', (w.sys.setStream p s').stream (some p) = some s' := by
      intro s'; rw [stream_setStream _ _ _ (stream_bound hs)]; simp
    simp only [freads, withHandle, hf, h1, ftell, c_ftell, hst, Option.map_some, Stream.advance, List.length_take,
      List.length_drop]
    rw [if_neg (by omega)]
  · simp only [freads, withHandle, hf, h2, List.nil_append]
  · simp only [freads, withHandle, hf, h1, Sys.setStream]

/-- **Refuted**: reading from a file that was opened for writing is not reported; the
result is empty, and the number read is 0. -/
theorem failed_reads_are_reported_refuted (w : World) (h : Int) (p : Nat) (s : Stream) (n : Int)
    (ho : IsOpen w h p s) (hc : s.canRead = false) :
    (freads w h n).1 = .ok (.str []) ∧ (freadi w h).1 = .ok (.int 0) ∧ (freadb w h).1 = .ok (.bool false) := by
  obtain ⟨hf, hs⟩ := ho
  refine ⟨?_, ?_, ?_⟩
  · by_cases h1 : n > 0 ∨ n = -1
    · simp [freads, withHandle, hf, freadsLoop, h1, c_fread, hs, hc]
    · simp [freads, withHandle, hf, freadsLoop, h1]
  · simp [freadi, withHandle, hf, c_fread, hs, hc, number, asInt32]
  · simp [freadb, withHandle, hf, c_fread, hs, hc]

/-- **Refuted**: a number is read although fewer than four bytes are left, and any byte other
than 0 and 1 makes `freadb` undefined. -/
theorem short_reads_are_reported_refuted (w : World) (h : Int) (p : Nat) (s : Stream) (b : Byte) (bs : List Byte)
    (ho : IsOpen w h p s) (hc : s.canRead = true) (hb : (w.sys.data s.file).drop s.pos = b :: bs) :
    ((freadi w h).1 = .ok (.int (asInt32 (number ((b :: bs).take 4))))) ∧
    (1 < b → (freadb w h).1 = .ub) := by
  obtain ⟨hf, hs⟩ := ho
  refine ⟨?_, ?_⟩
  · simp only [freadi, withHandle, hf, c_fread_ok hs hc hb, Option.map_some]
  · intro h1
    have h0 : ¬ b = 0 := by unfold Byte at *; omega
    have h2 : ¬ b = 1 := by unfold Byte at *; omega
    simp only [freadb, withHandle, hf, c_fread_ok hs hc hb, List.take_succ_cons, h0, h2, if_false]

/-- A world with one file that holds `d`, open under the handle 4. -/
def sampleWorld (mode : String) (d : List Byte) : World :=
  (calls (fun _ => false) (start (fun n => if n = "a" then some 3 else none) (fun f => if f = 3 then d else []) 4)
    [.fopen "a" mode]).2

example : IsOpen (sampleWorld "r" [104, 105, 10]) 4 3
    { file := 3, pos := 0, eof := false, err := false, canRead := true, canWrite := false, atEnd := false } ∧
    (freads (sampleWorld "r" [104, 105, 10]) 4 2).1 = .ok (.str [104, 105]) := by
  refine ⟨⟨by decide, by decide⟩, by decide⟩

example : IsOpen (sampleWorld "a" [104]) 4 3
    { file := 3, pos := 0, eof := false, err := false, canRead := false, canWrite := true, atEnd := true } ∧
    (freads (sampleWorld "a" [104]) 4 1).1 = .ok (.str []) := by
  refine ⟨⟨by decide, by decide⟩, by decide⟩

example : (freadi (sampleWorld "r" [7, 1]) 4).1 = .ok (.int 263) ∧ (freadb (sampleWorld "r" [7]) 4).1 = .ub := by
  decide

/-! ## C120: what was written can be read back -/

theorem overwrite_read (d : List Byte) (i : Nat) (b : List Byte) :
    ((overwrite d i b).drop i).take b.length = b ∧ i + b.length ≤ (overwrite d i b).length := by
  have hlen : ((d ++ List.replicate (i - d.length) 0).take i).length = i := by
    simp; omega
  constructor
  · unfold overwrite
    rw [List.append_assoc, List.drop_append_of_le_length (by omega), List.drop_eq_nil_of_le (by omega)]
    simp
  · unfold overwrite
    simp only [List.length_append, hlen]; omega

/-- The stream and the contents after writing. -/
theorem put_stream {S : Sys} {p : Nat} {s : Stream} (hs : S.stream (some p) = some s) (b : List Byte) :
    let i := if s.atEnd then (S.data s.file).length else s.pos
    (S.put p s b).stream (some p) = some { s with pos := i + b.length } ∧
    (S.put p s b).data s.file = overwrite (S.data s.file) i b := by
  simp only [Sys.put]
  refine ⟨?_, by simp [Sys.setStream, Sys.setData]⟩
  have hb : p < (S.setData s.file (overwrite (S.data s.file)
      (if s.atEnd then (S.data s.file).length else s.pos) b)).streams.length := stream_bound (s := s) hs
  rw [stream_setStream _ _ _ hb]; simp

theorem seek_after {w : World} {h : Int} {p : Nat} {s : Stream} (ho : IsOpen w h p s) (i : Nat) :
    fseek w h i 0 = (.ok (.int 0), { w with sys := w.sys.setStream p { s with pos := i, eof := false } }) := by
  obtain ⟨hf, hs⟩ := ho
  simp only [fseek, withHandle, hf, c_fseek, hs, originOf, if_true, Int.zero_add]
  rw [if_neg (by omega)]
  simp

/-- Text written to a file is read back: write it, go back to where it was written, and read
as many bytes.  The text must not hold a zero byte. -/
theorem text_is_read_back_partial (refused : String → Bool) (w : World) (h : Int) (p : Nat) (s : Stream)
    (text : List Byte) (ho : IsOpen w h p s) (hr : s.canRead = true) (hw : s.canWrite = true) (ht : text ≠ [])
    (hz : 0 ∉ text) (i : Nat) (hi : i = if s.atEnd then (w.sys.data s.file).length else s.pos) :
    (calls refused w [.fwrites h text, .fseek h i 0, .freads h text.length]).1
      = [.ok (.int 1), .ok (.int 0), .ok (.str text)] := by
  obtain ⟨hf, hs⟩ := ho
  have h1 : call refused w (.fwrites h text) = (.ok (.int 1), { w with sys := w.sys.put p s text }) := by
    simp [call, fwrites, withHandle, hf, c_fputs, hs, cString_id hz, ht, hw]
  obtain ⟨hs1, hd1⟩ := put_stream hs text
  rw [← hi] at hs1 hd1
  have h2 : call refused { w with sys := w.sys.put p s text } (.fseek h i 0) = _ :=
    seek_after (w := { w with sys := w.sys.put p s text }) ⟨hf, hs1⟩ i
  have hs2 : ((w.sys.put p s text).setStream p { s with pos := i, eof := false }).stream (some p)
      = some { s with pos := i, eof := false } := by
    rw [stream_setStream _ _ _ (stream_bound hs1)]; simp
  have h3 := (freads_reads_the_next_bytes_partial
    { w with sys := (w.sys.put p s text).setStream p { s with pos := i, eof := false } } h p
    { s with pos := i, eof := false } text.length ⟨hf, hs2⟩ hr).1
  have hd2 : ((((w.sys.put p s text).setStream p { s with pos := i, eof := false }).data s.file).drop i).take
      text.length = text := by
    show (((w.sys.put p s text).data s.file).drop i).take text.length = text
    rw [hd1]; exact (overwrite_read _ _ _).1
  rw [hd2] at h3
  simp only [calls, h1, h2]
  generalize hc : call refused { w with sys := (w.sys.put p s text).setStream p { s with pos := i, eof := false } }
    (.freads h text.length) = c
  have : c.1 = .ok (.str text) := by rw [← hc]; exact h3
  obtain ⟨r, w'⟩ := c
  simp only at this
  subst this
  rfl

example : (calls (fun _ => false) (sampleWorld "r+" [104, 105, 10]) [.fwrites 4 [72, 73], .fseek 4 0 0, .freads 4 2]).1
    = [.ok (.int 1), .ok (.int 0), .ok (.str [72, 73])] :=
  text_is_read_back_partial _ _ 4 3
    { file := 3, pos := 0, eof := false, err := false, canRead := true, canWrite := true, atEnd := false }
    [72, 73] ⟨by decide, by decide⟩ rfl rfl (by simp) (by decide) 0 rfl

theorem cString_length_lt {b : List Byte} (h : 0 ∈ b) : (cString b).length < b.length := by
  induction b with
  | nil => simp at h
  | cons x b ih =>
    by_cases hx : x = 0
    · simp [cString, hx]
    · have : 0 ∈ b := by
        rcases List.mem_cons.1 h with e | e
        · exact absurd e.symm hx
        · exact e
      have := ih this
      simp [cString, hx]; exact this

theorem cString_not_mem (b : List Byte) : 0 ∉ cString b := by
  induction b with
  | nil => simp [cString]
  | cons x b ih =>
    by_cases hx : x = 0
    · simp [cString, hx]
    · simp only [cString, hx, if_false, List.mem_cons, not_or]
      exact ⟨fun e => hx e.symm, ih⟩

/-- **Refuted**: text that holds a zero byte is cut there, without an error. -/
theorem text_with_zero_byte_refuted (refused : String → Bool) (w : World) (h : Int) (text : List Byte) (hz : 0 ∈ text) :
    call refused w (.fwrites h text) = call refused w (.fwrites h (cString text)) ∧
    (cString text).length < text.length := by
  refine ⟨?_, cString_length_lt hz⟩
  simp only [call, fwrites, cString_id (cString_not_mem text)]

example : (calls (fun _ => false) (sampleWorld "w+" []) [.fwrites 4 [65, 0, 66], .fseek 4 0 0, .freads 4 3]).1
    = [.ok (.int 1), .ok (.int 0), .ok (.str [65])] := by decide

theorem number_bytesOf : ∀ (n v : Nat), number (bytesOf n v) = v % 256 ^ n := by
  intro n
  induction n with
  | zero => intro v; simp [bytesOf, number, Nat.mod_one]
  | succ n ih =>
    intro v
    simp only [bytesOf, number, ih]
    rw [Nat.pow_succ, Nat.mul_comm (256 ^ n) 256, Nat.mod_mul]

theorem bytesOf_length (n v : Nat) : (bytesOf n v).length = n := by
  induction n generalizing v with
  | zero => rfl
  | succ n ih => simp [bytesOf, ih]

theorem asInt32_bits32 (v : Int) (hlo : -2147483648 ≤ v) (hhi : v < 2147483648) : asInt32 (bits32 v) = v := by
  unfold asInt32 bits32
  have hm : (v % 4294967296).toNat % 4294967296 = (v % 4294967296).toNat := by
    apply Nat.mod_eq_of_lt; omega
  rw [hm]
  split <;> omega

/-- Every `int` written to a file is read back. -/
theorem numbers_are_read_back (refused : String → Bool) (w : World) (h : Int) (p : Nat) (s : Stream) (v : Int)
    (ho : IsOpen w h p s) (hr : s.canRead = true) (hw : s.canWrite = true)
    (hlo : -2147483648 ≤ v) (hhi : v < 2147483648)
    (i : Nat) (hi : i = if s.atEnd then (w.sys.data s.file).length else s.pos) :
    (calls refused w [.fwritei h v, .fseek h i 0, .freadi h]).1
      = [.ok (.int 1), .ok (.int 0), .ok (.int v)] := by
  obtain ⟨hf, hs⟩ := ho
  have h1 : call refused w (.fwritei h v)
      = (.ok (.int 1), { w with sys := w.sys.put p s (bytesOf 4 (bits32 v)) }) := by
    simp [call, fwritei, withHandle, hf, c_fwrite, hs, hw]
  generalize hbytes : bytesOf 4 (bits32 v) = bytes at h1
  have hblen : bytes.length = 4 := by rw [← hbytes]; exact bytesOf_length _ _
  obtain ⟨hs1, hd1⟩ := put_stream hs bytes
  rw [← hi] at hs1 hd1
  have h2 : call refused { w with sys := w.sys.put p s bytes } (.fseek h i 0) = _ :=
    seek_after (w := { w with sys := w.sys.put p s bytes }) ⟨hf, hs1⟩ i
  have hs2 : ((w.sys.put p s bytes).setStream p { s with pos := i, eof := false }).stream (some p)
      = some { s with pos := i, eof := false } := by
    rw [stream_setStream _ _ _ (stream_bound hs1)]; simp
  have hd2 : ((((w.sys.put p s bytes).setStream p { s with pos := i, eof := false }).data s.file).drop i).take
      4 = bytes := by
    show (((w.sys.put p s bytes).data s.file).drop i).take 4 = bytes
    rw [hd1, ← hblen]; exact (overwrite_read _ _ _).1
  have h3 : (freadi { w with sys := (w.sys.put p s bytes).setStream p { s with pos := i, eof := false } } h).1
      = .ok (.int v) := by
    simp only [freadi, withHandle, hf, c_fread_ok hs2 hr rfl, Option.map_some, hd2]
    rw [← hbytes, number_bytesOf]
    have : bits32 v % 256 ^ 4 = bits32 v := by
      apply Nat.mod_eq_of_lt; unfold bits32; omega
    rw [this, asInt32_bits32 v hlo hhi]
  simp only [calls, h1, h2]
  generalize hc : call refused { w with sys := (w.sys.put p s bytes).setStream p { s with pos := i, eof := false } }
    (.freadi h) = c
  have : c.1 = .ok (.int v) := by rw [← hc]; exact h3
  obtain ⟨r, w'⟩ := c
  simp only at this
  subst this
  rfl

example : (calls (fun _ => false) (sampleWorld "a+" [104]) [.fwritei 4 (-7), .fseek 4 1 0, .freadi 4]).1
    = [.ok (.int 1), .ok (.int 0), .ok (.int (-7))] :=
  numbers_are_read_back _ _ 4 3
    { file := 3, pos := 0, eof := false, err := false, canRead := true, canWrite := true, atEnd := true }
    (-7) ⟨by decide, by decide⟩ rfl rfl (by decide) (by decide) 1 rfl

/-! ## C121: lines -/

theorem lineBytes_line : ∀ (line : List Byte) (n : Nat) (rest : List Byte), 10 ∉ line → line.length < n →
    lineBytes n (line ++ 10 :: rest) = line ++ [10] := by
  intro line
  induction line with
  | nil =>
    intro n rest _ hl
    cases n with
    | zero => simp at hl
    | succ n => simp [lineBytes]
  | cons b line ih =>
    intro n rest h10 hl
    cases n with
    | zero => simp at hl
    | succ n =>
      simp only [List.mem_cons, not_or] at h10
      have hb : b ≠ 10 := fun e => h10.1 e.symm
      simp only [List.cons_append, lineBytes, hb, if_false]
      rw [ih n rest h10.2 (by simp at hl; omega)]

theorem c_fgets_line {S : Sys} {p : Nat} {s : Stream} (hs : S.stream (some p) = some s) (hc : s.canRead = true)
    {line rest : List Byte} (hb : (S.data s.file).drop s.pos = line ++ 10 :: rest) (h10 : 10 ∉ line) (n : Nat)
    (hl : line.length + 1 < n) :
    c_fgets S (some p) n = some (some (line ++ [10]), S.setStream p { s with pos := s.pos + (line.length + 1) }) := by
  simp only [c_fgets, hs]
  rw [if_neg (by omega), if_neg (by simp [hc]), hb, lineBytes_line line (n - 1) rest h10 (by omega)]
  simp

/-- `fgets( h, n )` gives the next line with its line break and moves behind it, for sizes
up to 1024 that are large enough for the line. -/
theorem fgets_gives_the_next_line_partial (w : World) (h : Int) (p : Nat) (s : Stream) (n : Nat)
    (line rest : List Byte) (ho : IsOpen w h p s) (hc : s.canRead = true)
    (hb : (w.sys.data s.file).drop s.pos = line ++ 10 :: rest) (h10 : 10 ∉ line) (h0 : 0 ∉ line)
    (hl : line.length + 1 < n) (hn : n ≤ 1024) :
    (fgets w h n).1 = .ok (.str (line ++ [10])) ∧
    (freads (fgets w h n).2 h (-1)).1 = .ok (.str rest) := by
  obtain ⟨hf, hs⟩ := ho
  obtain ⟨k, hk⟩ : ∃ k, n = k + 1 := ⟨n - 1, by omega⟩
  have hz : 0 ∉ line ++ [10] := by simp [h0]
  have hg := c_fgets_line hs hc hb h10 n hl
  have hloop : ∀ (m : Nat) (S : Sys) (v : Value), fgetsLoop m S (some p) 0 v = some (.ok v, S) := by
    intro m S v; cases m <;> simp [fgetsLoop]
  have hfg : fgets w h n
      = (.ok (.str (line ++ [10])), { w with sys := w.sys.setStream p { s with pos := s.pos + (line.length + 1) } }) := by
    have h1 : ¬ (n > readSize) := by simp only [readSize]; omega
    have h2 : ¬ (n = 0) := by omega
    have hnat : ((n : Nat) : Int).toNat = n := by omega
    have : fgetsLoop n w.sys (some p) n .nothing
        = some (.ok (.str (line ++ [10])), w.sys.setStream p { s with pos := s.pos + (line.length + 1) }) := by
      conv => lhs; arg 1; rw [hk]
      rw [fgetsLoop, if_neg h2, if_neg h1]
      simp only [hg, Nat.sub_self, hloop, cString_id hz]
    simp only [fgets, withHandle, hf, hnat, this]
  have hs' : (w.sys.setStream p { s with pos := s.pos + (line.length + 1) }).stream (some p)
      = some { s with pos := s.pos + (line.length + 1) } := by
    rw [stream_setStream _ _ _ (stream_bound hs)]; simp
  rw [hfg]
  refine ⟨rfl, ?_⟩
  rw [(freads_reads_the_next_bytes_partial
    { w with sys := w.sys.setStream p { s with pos := s.pos + (line.length + 1) } } h p _ 0 ⟨hf, hs'⟩ hc).2.2.1]
  show Out.ok (Value.str ((w.sys.data s.file).drop (s.pos + (line.length + 1)))) = _
  rw [← List.drop_drop, hb]
  have : (line ++ 10 :: rest) = (line ++ [10]) ++ rest := by simp
  rw [this, List.drop_append_of_le_length (by simp), List.drop_eq_nil_of_le (by simp)]
  simp

example : (fgets (sampleWorld "r" [104, 105, 10, 72, 10]) 4 100).1 = .ok (.str [104, 105, 10]) := by decide

theorem lineBytes_part (part : List Byte) (n : Nat) (rest : List Byte) (h10 : 10 ∉ part) (hl : part.length ≤ n)
    (he : part.length = n ∨ rest = []) : lineBytes n (part ++ rest) = part := by
  induction part generalizing n with
  | nil =>
    rcases he with he | rfl
    · rw [← he]; cases rest <;> rfl
    · cases n <;> rfl
  | cons b part ih =>
    obtain ⟨m, rfl⟩ : ∃ m, n = m + 1 := ⟨n - 1, by simp at hl; omega⟩
    simp only [List.mem_cons, not_or] at h10
    rw [List.cons_append, lineBytes, if_neg (fun e => h10.1 e.symm),
      ih m h10.2 (by simpa using hl) (he.imp (by simp) id)]

/-- `fgets( h, n )` of a line that is longer gives its first `n - 1` bytes, and of a last line without line break all of it; it moves
behind what it gives.  For sizes up to 1024. -/
theorem fgets_gives_a_part_partial (w : World) (h : Int) (p : Nat) (s : Stream) (n : Nat)
    (part rest : List Byte) (ho : IsOpen w h p s) (hc : s.canRead = true)
    (hb : (w.sys.data s.file).drop s.pos = part ++ rest) (h10 : 10 ∉ part) (h0 : 0 ∉ part) (hne : part ≠ [])
    (hl : part.length + 1 ≤ n) (he : part.length + 1 = n ∨ rest = []) (hn : n ≤ 1024) :
    (fgets w h n).1 = .ok (.str part) ∧
    (freads (fgets w h n).2 h (-1)).1 = .ok (.str rest) := by
  obtain ⟨hf, hs⟩ := ho
  have hpos : 0 < part.length := List.length_pos_iff.2 hne
  obtain ⟨k, hk⟩ : ∃ k, n = k + 1 := ⟨n - 1, by omega⟩
  obtain ⟨s', hs', hg⟩ : ∃ s' : Stream, (s'.file = s.file ∧ s'.pos = s.pos + part.length ∧ s'.canRead = true) ∧
      c_fgets w.sys (some p) n = some (some part, w.sys.setStream p s') := by
    refine ⟨{ s with pos := s.pos + part.length,
                     eof := s.eof || (decide (part.length < n - 1) && decide (part.getLast? ≠ some 10)) }, ⟨rfl, rfl, hc⟩, ?_⟩
    simp only [c_fgets, hs]
    rw [if_neg (by omega), if_neg (by simp [hc]), hb,
      lineBytes_part part (n - 1) rest h10 (by omega) (he.imp (by omega) id), if_neg hne]
  have hloop : ∀ (m : Nat) (S : Sys) (v : Value), fgetsLoop m S (some p) 0 v = some (.ok v, S) := by
    intro m S v; cases m <;> simp [fgetsLoop]
  have hfg : fgets w h n = (.ok (.str part), { w with sys := w.sys.setStream p s' }) := by
    have h1 : ¬ (n > readSize) := by simp only [readSize]; omega
    have h2 : ¬ (n = 0) := by omega
    have hnat : ((n : Nat) : Int).toNat = n := by omega
    have : fgetsLoop n w.sys (some p) n .nothing = some (.ok (.str part), w.sys.setStream p s') := by
      conv => lhs; arg 1; rw [hk]
      rw [fgetsLoop, if_neg h2, if_neg h1]
      simp only [hg, Nat.sub_self, hloop, cString_id h0]
    simp only [fgets, withHandle, hf, hnat, this]
  have hst : (w.sys.setStream p s').stream (some p) = some s' := by
    rw [stream_setStream _ _ _ (stream_bound hs)]; simp
  rw [hfg]
  refine ⟨rfl, ?_⟩
  rw [(freads_reads_the_next_bytes_partial { w with sys := w.sys.setStream p s' } h p s' 0 ⟨hf, hst⟩ hs'.2.2).2.2.1]
  show Out.ok (Value.str ((w.sys.data s'.file).drop s'.pos)) = _
  rw [hs'.1, hs'.2.1, ← List.drop_drop, hb, List.drop_left]

/-- Of `hello⏎`, 4 gives `hel`; of `hi` at the end of the file, 100 gives all. -/
example : (fgets (sampleWorld "r" [104, 101, 108, 108, 111, 10]) 4 4).1 = .ok (.str [104, 101, 108]) := by decide
example : (fgets (sampleWorld "r" [104, 105]) 4 100).1 = .ok (.str [104, 105]) := by decide

/-- **Refuted**: with a size of 2048, `fgets` reads two lines and gives the second one; the
first one is lost. -/
theorem fgets_loses_a_line_refuted (w : World) (h : Int) (p : Nat) (s : Stream)
    (line line' rest : List Byte) (ho : IsOpen w h p s) (hc : s.canRead = true)
    (hb : (w.sys.data s.file).drop s.pos = line ++ 10 :: (line' ++ 10 :: rest)) (h10 : 10 ∉ line) (h10' : 10 ∉ line')
    (h0' : 0 ∉ line') (hl : line.length < 1023) (hl' : line'.length < 1023) :
    (fgets w h 2048).1 = .ok (.str (line' ++ [10])) := by
  obtain ⟨hf, hs⟩ := ho
  have hz : 0 ∉ line' ++ [10] := by simp [h0']
  have hg := c_fgets_line hs hc hb h10 1024 (by omega)
  have hs' : (w.sys.setStream p { s with pos := s.pos + (line.length + 1) }).stream (some p)
      = some { s with pos := s.pos + (line.length + 1) } := by
    rw [stream_setStream _ _ _ (stream_bound hs)]; simp
  have hb' : ((w.sys.setStream p { s with pos := s.pos + (line.length + 1) }).data s.file).drop
      (s.pos + (line.length + 1)) = line' ++ 10 :: rest := by
    show (w.sys.data s.file).drop (s.pos + (line.length + 1)) = _
    rw [← List.drop_drop, hb]
    have : (line ++ 10 :: (line' ++ 10 :: rest)) = (line ++ [10]) ++ (line' ++ 10 :: rest) := by simp
    rw [this, List.drop_append_of_le_length (by simp), List.drop_eq_nil_of_le (by simp)]
    simp
  have hg' := c_fgets_line hs' hc hb' h10' 1024 (by omega)
  have hloop : ∀ (m : Nat) (S : Sys) (v : Value), fgetsLoop m S (some p) 0 v = some (.ok v, S) := by
    intro m S v; cases m <;> simp [fgetsLoop]
  have hnat : (2048 : Int).toNat = 2046 + 1 + 1 := rfl
  simp only [fgets, withHandle, hf, hnat]
  rw [fgetsLoop, if_neg (by omega), if_pos (by simp [readSize])]
  simp only [readSize, hg]
  rw [fgetsLoop, if_neg (by omega), if_neg (by simp [readSize])]
  simp only [show 2046 + 1 + 1 - 1024 = 1024 from rfl, hg', Nat.sub_self, hloop, cString_id hz]

example : (fgets (sampleWorld "r" [104, 10, 72, 10]) 4 2048).1 = .ok (.str [72, 10]) :=
  fgets_loses_a_line_refuted _ 4 3
    { file := 3, pos := 0, eof := false, err := false, canRead := true, canWrite := false, atEnd := false }
    [104] [72] [] ⟨by decide, by decide⟩ rfl rfl (by decide) (by decide) (by decide) (by decide) (by decide)

/-! ## C122: the class `File` -/

theorem handle_zero (refused : String → Bool) (names : String → Option Nat) (data : Nat → List Byte) (files : Nat)
    (os : List Op) : (calls refused (start names data files) os).2.handles.find 0 = some none :=
  (calls_table refused os _ (table_start names data files)).2.2.1 0 none rfl

/-- **Refuted**: `File.open` does not return false for a file that cannot be opened; it uses
the null stream. -/
theorem file_open_reports_failure_refuted (refused : String → Bool) (names : String → Option Nat)
    (data : Nat → List Byte) (files : Nat) (os : List Op) (w : World)
    (hw : w = (calls refused (start names data files) os).2) (name mode : String)
    (hfail : (fopen refused w name mode).1 = .ok (.int 0)) :
    (fileOpen refused w {} name mode).1 = .ub := by
  have ht : Table w := by rw [hw]; exact (calls_table refused os _ (table_start names data files)).1
  have hz : w.handles.find 0 = some none := by rw [hw]; exact handle_zero _ _ _ _ _
  generalize hc : fopen refused w name mode = c at hfail
  obtain ⟨r, w1⟩ := c
  simp only at hfail
  subst hfail
  have hz1 : w1.handles.find 0 = some none := by
    have h1 := (call_table refused ht (.fopen name mode)).2.2.1 0 none hz
    simp only [call, hc] at h1; exact h1
  simp [fileOpen, hc, andThen, fseek, withHandle, hz1, c_fseek]

example : (fileOpen (fun _ => false) (start (fun _ => none) (fun _ => []) 3) {} "missing" "r").1 = .ub := by decide

/-- If the file can be opened, `File.open` returns true, `getSize` is the size of the file,
and reading starts at its beginning. -/
theorem file_open_partial (refused : String → Bool) (names : String → Option Nat) (data : Nat → List Byte)
    (files : Nat) (os : List Op) (w w1 : World) (hw : w = (calls refused (start names data files) os).2)
    (name mode : String) (h : Int) (p : Nat) (s : Stream)
    (hok : fopen refused w name mode = (.ok (.int h), w1)) (ho : IsOpen w1 h p s) :
    (fileOpen refused w {} name mode).1 = .ok true ∧
    fileSize (fileOpen refused w {} name mode).2.1 = (w1.sys.data s.file).length ∧
    (ftell (fileOpen refused w {} name mode).2.2 h).1 = .ok (.int 0) := by
  obtain ⟨hf, hs⟩ := ho
  have hne : h ≠ 0 := by
    intro e
    subst e
    have ht : Table w := by rw [hw]; exact (calls_table refused os _ (table_start names data files)).1
    have hz : w.handles.find 0 = some none := by rw [hw]; exact handle_zero _ _ _ _ _
    have h1 := (call_table refused ht (.fopen name mode)).2.2.1 0 none hz
    simp only [call, hok] at h1
    rw [hf] at h1
    simp at h1
  have hst : ∀ (S : Sys) (s₀ s' : Stream), S.stream (some p) = some s₀ →
      (S.setStream p s').stream (some p) = some s' := by
    intro S s₀ s' h0; rw [stream_setStream _ _ _ (stream_bound h0)]; simp
  have hseek : fseek w1 h 0 2 = (.ok (.int 0), { w1 with
      sys := w1.sys.setStream p { s with pos := (w1.sys.data s.file).length, eof := false } }) := by
    simp only [fseek, withHandle, hf, c_fseek, hs, originOf]
    simp only [show ¬ (2 : Int) = 0 by decide, show ¬ (2 : Int) = 1 by decide, if_false, if_true, Int.add_zero]
    rw [if_neg (by omega)]
    simp
  have hs2 := hst w1.sys s { s with pos := (w1.sys.data s.file).length, eof := false } hs
  have htell : ftell { w1 with
      sys := w1.sys.setStream p { s with pos := (w1.sys.data s.file).length, eof := false } } h
      = (.ok (.int (w1.sys.data s.file).length), { w1 with
        sys := w1.sys.setStream p { s with pos := (w1.sys.data s.file).length, eof := false } }) := by
    simp only [ftell, withHandle, hf, c_ftell, hs2, Option.map_some]
    rw [if_neg (by omega)]
  have hback := seek_after (w := { w1 with
      sys := w1.sys.setStream p { s with pos := (w1.sys.data s.file).length, eof := false } }) ⟨hf, hs2⟩ 0
  have hall : fileOpen refused w {} name mode = (.ok true, { handle := h, size := (w1.sys.data s.file).length },
      { w1 with
        sys := ((w1.sys.setStream p { s with pos := (w1.sys.data s.file).length, eof := false }).setStream p
          { s with pos := 0, eof := false }) }) := by
    have hback' : fseek { w1 with
      sys := w1.sys.setStream p { s with pos := (w1.sys.data s.file).length, eof := false } } h 0 0 = _ := hback
    simp only [fileOpen, hok, andThen, hseek, htell, hback']
    simp [hne]
  rw [hall]
  refine ⟨rfl, rfl, ?_⟩
  have hs3 := hst _ _ { s with pos := 0, eof := false } hs2
  simp only [ftell, withHandle, hf, c_ftell, hs3, Option.map_some]
  simp

example : (fileOpen (fun _ => false) (start (fun n => if n = "a" then some 3 else none)
    (fun f => if f = 3 then [104, 105] else []) 4) {} "a" "r").1 = .ok true := by decide

/-- **Refuted**: `File.write` returns false when the text was written. -/
theorem file_write_reports_success_refuted (w : World) (obj : FileObj) (p : Nat) (s : Stream) (text : List Byte)
    (ho : IsOpen w obj.handle p s) (hw : s.canWrite = true) (ht : text ≠ []) (hz : 0 ∉ text) :
    (fileWrite w obj text).1 = .ok false ∧
    (fileWrite w obj text).2.2.sys.data s.file
      = overwrite (w.sys.data s.file) (if s.atEnd then (w.sys.data s.file).length else s.pos) text := by
  obtain ⟨hf, hs⟩ := ho
  have h1 : fwrites w obj.handle text = (.ok (.int 1), { w with sys := w.sys.put p s text }) := by
    simp [fwrites, withHandle, hf, c_fputs, hs, cString_id hz, ht, hw]
  simp only [fileWrite, h1, andThen]
  exact ⟨rfl, (put_stream hs text).2⟩

/-- **Refuted**: `File.write` of a number returns true exactly when the number could not be
written. -/
theorem file_write_int_reports_success_refuted (w : World) (obj : FileObj) (p : Nat) (s : Stream) (v : Int)
    (ho : IsOpen w obj.handle p s) : (fileWriteInt w obj v).1 = .ok (!s.canWrite) := by
  obtain ⟨hf, hs⟩ := ho
  cases hw : s.canWrite <;> simp [fileWriteInt, fwritei, withHandle, hf, c_fwrite, hs, hw, andThen]

example : (fileWrite (sampleWorld "w" []) { handle := 4 } [104]).1 = .ok false ∧
    (fileWriteInt (sampleWorld "r" []) { handle := 4 } 5).1 = .ok true := by decide

/-- **Refuted**: after `close`, the functions of a `File` that need the file use the null
stream, instead of reporting that it is not open. -/
theorem closed_file_refuted (refused : String → Bool) (names : String → Option Nat) (data : Nat → List Byte)
    (files : Nat) (os : List Op) (w : World) (hw : w = (calls refused (start names data files) os).2) (n : Int)
    (hn : 0 < n) :
    (fileRead w {} n).1 = .ub ∧ (fileReadInt w {}).1 = .ub ∧ (fileIsEOF w {}).1 = .ub ∧
    (fileSeek w {} n).1 = .ub ∧ (∀ t, (fileWrite w {} t).1 = .ub) := by
  have hz : w.handles.find 0 = some none := by rw [hw]; exact handle_zero _ _ _ _ _
  refine ⟨?_, ?_, ?_, ?_, ?_⟩
  · have h1 : n > 0 ∨ n = -1 := Or.inl hn
    simp [fileRead, freads, withHandle, hz, freadsLoop, h1, c_fread]
  · simp [fileReadInt, freadi, withHandle, hz, c_fread]
  · simp [fileIsEOF, feof, withHandle, hz, c_feof, Sys.stream, andThen]
  · simp [fileSeek, fseek, withHandle, hz, c_fseek, andThen]
  · intro t; simp [fileWrite, fwrites, withHandle, hz, c_fputs, andThen]

/-- The other methods of a `File` that is open: `isEOF` is the end-of-file indicator, `seek`
moves to the position and `rewind` to the start, `read` gives the next bytes. -/
theorem file_methods (w : World) (obj : FileObj) (p : Nat) (s : Stream) (ho : IsOpen w obj.handle p s) :
    (fileIsEOF w obj).1 = .ok s.eof ∧
    (∀ i : Nat, (fileSeek w obj i).1 = .ok true ∧ (ftell (fileSeek w obj i).2.2 obj.handle).1 = .ok (.int i)) ∧
    (s.canRead = true → ∀ n : Nat, (fileRead w obj n).1 = .ok (.str (((w.sys.data s.file).drop s.pos).take n))) ∧
    (s.canRead = true → (fileReadInt w obj).1
      = .ok (.int (asInt32 (number (((w.sys.data s.file).drop s.pos).take 4))))) := by
  have ⟨hf, hs⟩ := ho
  refine ⟨?_, ?_, ?_, ?_⟩
  · cases he : s.eof <;> simp [fileIsEOF, feof, withHandle, hf, c_feof, hs, andThen, he]
  · intro i
    have h1 : fileSeek w obj i = (.ok true, obj, { w with
        sys := w.sys.setStream p { s with pos := i, eof := false } }) := by
      simp [fileSeek, seek_after ho i, andThen]
    rw [h1]
    refine ⟨rfl, ?_⟩
    have hst : (w.sys.setStream p { s with pos := i, eof := false }).stream (some p)
        = some { s with pos := i, eof := false } := by
      rw [stream_setStream _ _ _ (stream_bound hs)]; simp
    simp only [ftell, withHandle, hf, c_ftell, hst, Option.map_some]
    rw [if_neg (by omega)]
  · intro hc n
    exact (freads_reads_the_next_bytes_partial w obj.handle p s n ho hc).1
  · intro hc
    simp only [fileReadInt, freadi, withHandle, hf, c_fread_ok hs hc rfl, Option.map_some]

example : IsOpen (sampleWorld "r" [104, 105]) 4 3
    { file := 3, pos := 0, eof := false, err := false, canRead := true, canWrite := false, atEnd := false } ∧
    (fileSeek (sampleWorld "r" [104, 105]) { handle := 4 } 1).1 = .ok true := by
  refine ⟨⟨by decide, by decide⟩, by decide⟩

/-- Closing a `File` closes its stream once: the first `close` succeeds, the object is then
not open, and further calls of `close` do nothing. -/
theorem file_close_once (w : World) (obj : FileObj) (p : Nat) (s : Stream) (ho : IsOpen w obj.handle p s)
    (hne : obj.handle ≠ 0) :
    (fileClose w obj).1 = .ok true ∧
    (fileClose w obj).2.2.sys.stream (some p) = none ∧
    fileIsOpen (fileClose w obj).2.1 = false ∧
    fileClose (fileClose w obj).2.2 (fileClose w obj).2.1
      = (.ok true, (fileClose w obj).2.1, (fileClose w obj).2.2) := by
  obtain ⟨hf, hs⟩ := ho
  have h1 : fclose w obj.handle = (.ok (.int 0), { w with sys := { w.sys with streams := w.sys.streams.set p none } }) := by
    simp [fclose, withHandle, hf, c_fclose, hs]
  have h2 : fileClose w obj = (.ok true, { obj with handle := 0 },
      { w with sys := { w.sys with streams := w.sys.streams.set p none } }) := by
    simp [fileClose, hne, h1, andThen]
  rw [h2]
  refine ⟨rfl, ?_, rfl, ?_⟩
  · simp [Sys.stream, List.getElem?_set, stream_bound hs]
  · simp [fileClose]

example : IsOpen (sampleWorld "w" []) 4 3
    { file := 3, pos := 0, eof := false, err := false, canRead := false, canWrite := true, atEnd := false } ∧
    (fileClose (sampleWorld "w" []) { handle := 4 }).1 = .ok true ∧
    (fileRead (fileClose (sampleWorld "w" []) { handle := 4 }).2.2 (fileClose (sampleWorld "w" []) { handle := 4 }).2.1 5).1
      = .ub := by
  refine ⟨⟨by decide, by decide⟩, by decide, by decide⟩

/-- The modes of `File.AccessMode` that are meant for writing. -/
def AccessMode.writes : AccessMode → Bool
  | .readOnly => false
  | _ => true

/-- The modes of `File.AccessMode` that are meant for reading. -/
def AccessMode.reads : AccessMode → Bool
  | .append | .writeOnly => false
  | _ => true

/-- Every access mode but `ReadWrite` opens the file for what it says. -/
theorem access_modes_partial (a : AccessMode) (ha : a ≠ .readWrite) :
    ∃ m, parseMode a.text.toList = some m ∧ m.read = a.reads ∧ m.write = a.writes := by
  cases a
  case readWrite => exact absurd rfl ha
  all_goals exact ⟨_, rfl, by decide, by decide⟩

example : AccessMode.readUpdate ≠ .readWrite := by decide

/-- **Refuted**: a file opened with `AccessMode.ReadWrite` cannot be written. -/
theorem access_mode_readWrite_refuted (refused : String → Bool) (w : World) (name : String) (f : Nat) (v : List Byte)
    (hv : v ≠ []) (hz : 0 ∉ v) (hn : w.sys.names name = some f) (hr : refused name = false) (ht : Table w) :
    ∃ h w1, fopen refused w name AccessMode.readWrite.text = (.ok (.int h), w1) ∧ h ≠ 0 ∧
      (fwrites w1 h v).1 = .fail := by
  have hnone : w.handles.find (w.handles.length : Int) = none := (ht.known _).2 (Or.inr (Int.le_refl _))
  have hm : parseMode AccessMode.readWrite.text.toList
      = some { read := true, write := false, append := false, truncate := false, create := false } := by decide
  refine ⟨w.handles.length, { sys := { w.sys with streams := w.sys.streams ++ [some { file := f, pos := 0, eof := false, err := false, canRead := true, canWrite := false, atEnd := false }] }, handles := w.handles ++ [((w.handles.length : Int), some w.sys.streams.length)] }, ?_, ?_, ?_⟩
  · simp [fopen, c_fopen, hm, hr, Sys.openFile, hn, register, insertHandle, hnone, Mode.stream]
  · have := ht.size; omega
  · have hfind := find_append (p := some w.sys.streams.length) hnone (w.handles.length : Int)
    simp only [if_true] at hfind
    simp [fwrites, withHandle, hfind, c_fputs, stream_append, cString_id hz, hv]

example : (calls (fun _ => false) (start (fun n => if n = "a" then some 3 else none) (fun _ => []) 4)
    [.fopen "a" AccessMode.readWrite.text, .fwrites 4 [104]]).1 = [.ok (.int 4), .fail] := by decide

end Verif.Files
