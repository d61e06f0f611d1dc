import Verif.Files.Props
import Verif.Str.Tools

/-!
# The class `Scanner` of the library (C180)

`Scanner` (`Library/FileReader/Scanner.os`) holds a `File` that is open for reading and the
text that was read from it.
-/

namespace Verif.Files

/-! ## Model -/

/-- An object of the class `Scanner` (`Library/FileReader/Scanner.os:49-50`). -/
structure Scanner where
  file : FileObj
  text : List Byte
  deriving DecidableEq, Repr

/-- The truth value of a text: `AtomicValue::toBool` (`Core/Runtime/AtomicValue.cpp:198-211`)
with `stringToBool`; every byte is one character. -/
def isTrueText (t : List Byte) : Bool := Str.stringToBool (t.map Char.ofNat)

/-- `Scanner.readFile` (`Library/FileReader/Scanner.os:41-47`). -/
def scannerRead (w : World) (sc : Scanner) : MOut Unit × Scanner × World :=
  if isTrueText sc.text then (.ok (), sc, w)
  else match fileRead w sc.file (fileSize sc.file) with
    | (.ok (.str t), w') => (.ok (), { sc with text := t }, w')
    | (.ok _, w') => (.fail, sc, w')
    | (.fail, w') => (.fail, sc, w')
    | (.ub, w') => (.ub, sc, w')

/-- `Scanner.Constructor` (`Library/FileReader/Scanner.os:12-16`) with `File.Constructor`
(`Library/System/IO/File.os:33-39`), which ignores what `open` returns.  A new text is
empty (`StringType::DEFAULTVALUE`, `Core/Runtime/BuildInTypes/StringType.cpp:27`). -/
def scannerNew (refused : String → Bool) (w : World) (name : String) : MOut Unit × Scanner × World :=
  match fileOpen refused w {} name AccessMode.readOnly.text with
  | (.ok _, f, w') => scannerRead w' { file := f, text := [] }
  | (.throws, f, w') => (.throws, { file := f, text := [] }, w')
  | (.fail, f, w') => (.fail, { file := f, text := [] }, w')
  | (.ub, f, w') => (.ub, { file := f, text := [] }, w')

/-- `Scanner.getText` (`Library/FileReader/Scanner.os:30-32`). -/
def scannerText (sc : Scanner) : List Byte := sc.text

/-- `Scanner.reset` (`Library/FileReader/Scanner.os:34-39`); what `rewind` returns is
ignored. -/
def scannerReset (w : World) (sc : Scanner) : MOut Unit × Scanner × World :=
  match fileSeek w sc.file 0 with
  | (.ok _, f, w') => scannerRead w' { file := f, text := [] }
  | (.throws, f, w') => (.throws, { sc with file := f }, w')
  | (.fail, f, w') => (.fail, { sc with file := f }, w')
  | (.ub, f, w') => (.ub, { sc with file := f }, w')

/-- What happens after a `Scanner` was made: calls of file functions by the rest of the
script, and `reset`. -/
inductive ScanAct where
  | other (os : List Op)
  | reset

/-- The acts of a history, one after the other.  It is not modelled that the history ends
where one of its acts fails. -/
def scanRun (refused : String → Bool) : World → Scanner → List ScanAct → Scanner × World
  | w, sc, [] => (sc, w)
  | w, sc, .other os :: as => scanRun refused (calls refused w os).2 sc as
  | w, sc, .reset :: as => scanRun refused (scannerReset w sc).2.2 (scannerReset w sc).2.1 as

/-! ## Proofs -/

/-- The scanner has the file `f` open for reading and took it to have `n` bytes. -/
structure Scans (w : World) (sc : Scanner) (f n : Nat) : Prop where
  table : Table w
  size : sc.file.size = n
  opened : ∃ p s, IsOpen w sc.file.handle p s ∧ s.canRead = true ∧ s.file = f

theorem stream_after {S : Sys} {p : Nat} {s₀ : Stream} (h : S.stream (some p) = some s₀) (s : Stream) :
    (S.setStream p s).stream (some p) = some s := by
  rw [stream_setStream _ _ _ (stream_bound h)]; simp

theorem not_true_empty : isTrueText [] = false := by decide

theorem scannerRead_spec {w : World} {fo : FileObj} {p : Nat} {s : Stream} {n : Nat} (ht : Table w)
    (ho : IsOpen w fo.handle p s) (hr : s.canRead = true) (hp : s.pos = 0) (hn : fo.size = n) :
    (scannerRead w { file := fo, text := [] }).1 = .ok () ∧
    (scannerRead w { file := fo, text := [] }).2.1 = { file := fo, text := (w.sys.data s.file).take n } ∧
    (scannerRead w { file := fo, text := [] }).2.2.sys.data = w.sys.data ∧
    Scans (scannerRead w { file := fo, text := [] }).2.2 { file := fo, text := (w.sys.data s.file).take n } s.file n := by
  have ho' := ho
  obtain ⟨hf, hs⟩ := ho
  have hfuel : ((w.sys.data s.file).drop s.pos).length < bytesLeft w.sys (some p) + 1 := by
    simp only [bytesLeft, hs, List.length_drop]; omega
  have h1 := freadsLoop_count _ _ w.sys p s n [] hs hr rfl hfuel
  have h2 : freads w fo.handle fo.size = (.ok (.str ((w.sys.data s.file).take n)),
      { w with sys := w.sys.setStream p (s.advance (((w.sys.data s.file).drop s.pos).take n).length n) }) := by
    rw [hn]
    simp only [freads, withHandle, hf, h1, hp, List.nil_append, List.drop_zero]
  have h3 : scannerRead w { file := fo, text := [] } = (.ok (), { file := fo, text := (w.sys.data s.file).take n },
      { w with sys := w.sys.setStream p (s.advance (((w.sys.data s.file).drop s.pos).take n).length n) }) := by
    simp only [scannerRead, not_true_empty, fileRead, fileSize, h2, Bool.false_eq_true, if_false]
  have h4 := (call_table (fun _ => false) ht (.freads fo.handle fo.size)).1
  simp only [call, h2] at h4
  rw [h3]
  exact ⟨rfl, rfl, rfl, h4, hn, p, _, ⟨hf, stream_after hs _⟩, hr, rfl⟩

theorem scannerReset_spec {w : World} {sc : Scanner} {f n : Nat} (h : Scans w sc f n) :
    (scannerReset w sc).1 = .ok () ∧
    (scannerReset w sc).2.1 = { sc with text := (w.sys.data f).take n } ∧
    (scannerReset w sc).2.2.sys.data = w.sys.data ∧
    Scans (scannerReset w sc).2.2 (scannerReset w sc).2.1 f n := by
  obtain ⟨ht, hn, p, s, ho, hr, hsf⟩ := h
  have hseek := seek_after ho 0
  have ht' := (call_table (fun _ => false) ht (.fseek sc.file.handle 0 0)).1
  have hseek' : fseek w sc.file.handle 0 0 = _ := hseek
  simp only [call, hseek'] at ht'
  have hback : fileSeek w sc.file 0 = (.ok true, sc.file,
      { w with sys := w.sys.setStream p { s with pos := 0, eof := false } }) := by
    simp only [fileSeek, hseek', andThen]; rfl
  have hall : scannerReset w sc = scannerRead { w with sys := w.sys.setStream p { s with pos := 0, eof := false } }
      { file := sc.file, text := [] } := by
    simp only [scannerReset, hback]
  have h1 := scannerRead_spec (fo := sc.file) (p := p) (s := { s with pos := 0, eof := false }) (n := n) ht'
    ⟨ho.1, stream_after ho.2 _⟩ hr rfl hn
  rw [← hall] at h1
  subst hsf
  refine ⟨h1.1, h1.2.1, h1.2.2.1, ?_⟩
  rw [h1.2.1]
  exact h1.2.2.2

theorem scannerNew_spec {refused : String → Bool} {w : World} (ht : Table w) {name : String} {f : Nat}
    (hname : w.sys.names name = some f) (hok : refused name = false) :
    (scannerNew refused w name).1 = .ok () ∧
    (scannerNew refused w name).2.1.text = w.sys.data f ∧
    (scannerNew refused w name).2.1.file.handle = w.handles.length ∧
    (scannerNew refused w name).2.2.sys.data = w.sys.data ∧
    Scans (scannerNew refused w name).2.2 (scannerNew refused w name).2.1 f (w.sys.data f).length := by
  have hm : parseMode AccessMode.readOnly.text.toList
      = some { read := true, write := false, append := false, truncate := false, create := false } := by decide
  have hnone : w.handles.find (w.handles.length : Int) = none := (ht.known _).2 (Or.inr (Int.le_refl _))
  let m : Mode := { read := true, write := false, append := false, truncate := false, create := false }
  let s : Stream := m.stream f
  let p := w.sys.streams.length
  let h : Int := w.handles.length
  let w1 : World := { sys := { w.sys with streams := w.sys.streams ++ [some s] }, handles := w.handles ++ [(h, some p)] }
  have hopen : fopen refused w name AccessMode.readOnly.text = (.ok (.int h), w1) := by
    simp only [fopen, c_fopen, hm, hok, Sys.openFile, hname, register, insertHandle, hnone, Bool.false_eq_true,
      if_false]
    rfl
  have hf : w1.handles.find h = some (some p) := by
    show AMap.find h (w.handles ++ [(h, some p)]) = _
    rw [find_append hnone]; simp [h]
  have hs : w1.sys.stream (some p) = some s := by
    show Sys.stream { w.sys with streams := w.sys.streams ++ [some s] } (some p) = some s
    simp [Sys.stream, p]
  have hne : h ≠ 0 := by have := ht.size; simp only [h]; omega
  have ht1 : Table w1 := by
    have := (call_table refused ht (.fopen name AccessMode.readOnly.text)).1
    simp only [call, hopen] at this; exact this
  let s2 : Stream := { s with pos := (w.sys.data f).length, eof := false }
  let w2 : World := { w1 with sys := w1.sys.setStream p s2 }
  have hseek : fseek w1 h 0 2 = (.ok (.int 0), w2) := by
    simp only [fseek, withHandle, hf, c_fseek, hs, originOf]
    simp only [show ¬ (2 : Int) = 0 by decide, show ¬ (2 : Int) = 1 by decide, if_false, if_true, Int.add_zero]
    rw [if_neg (by omega)]
    simp [w2, s2, w1, s, Mode.stream]
  have ht2 : Table w2 := by
    have := (call_table refused ht1 (.fseek h 0 2)).1
    simp only [call, hseek] at this; exact this
  have hs2 : w2.sys.stream (some p) = some s2 := stream_after hs _
  have htell : ftell w2 h = (.ok (.int (w.sys.data f).length), w2) := by
    have hf2 : w2.handles.find h = some (some p) := hf
    simp only [ftell, withHandle, hf2, c_ftell, hs2, Option.map_some]
    rw [if_neg (by omega)]
  let w3 : World := { w2 with sys := w2.sys.setStream p { s2 with pos := 0, eof := false } }
  have hback : fseek w2 h 0 0 = (.ok (.int 0), w3) := seek_after (w := w2) ⟨hf, hs2⟩ 0
  have ht3 : Table w3 := by
    have := (call_table refused ht2 (.fseek h 0 0)).1
    simp only [call, hback] at this; exact this
  have hfile : fileOpen refused w {} name AccessMode.readOnly.text
      = (.ok true, { handle := h, size := (w.sys.data f).length }, w3) := by
    simp only [fileOpen, hopen, andThen, hseek, htell, hback]
    simp [hne]
  have hnew : scannerNew refused w name
      = scannerRead w3 { file := { handle := h, size := (w.sys.data f).length }, text := [] } := by
    simp only [scannerNew, hfile]
  have h1 := scannerRead_spec (w := w3) (fo := { handle := h, size := (w.sys.data f).length }) (p := p)
    (s := { s2 with pos := 0, eof := false }) (n := (w.sys.data f).length) ht3
    ⟨hf, stream_after hs2 _⟩ rfl rfl rfl
  rw [← hnew] at h1
  refine ⟨h1.1, ?_, ?_, h1.2.2.1, ?_⟩
  · rw [h1.2.1]
    show (w.sys.data f).take _ = _
    simp
  · rw [h1.2.1]
  · rw [h1.2.1]; exact h1.2.2.2

theorem Scans.calls {refused : String → Bool} {w : World} {sc : Scanner} {f n : Nat} (h : Scans w sc f n)
    {os : List Op} (hother : ∀ o ∈ os, o.handle ≠ some sc.file.handle) :
    Scans (Files.calls refused w os).2 sc f n := by
  obtain ⟨ht, hn, p, s, ho, hr, hf⟩ := h
  have hc := calls_table refused os w ht
  exact ⟨hc.1, hn, p, s, ⟨hc.2.2.1 _ _ ho.1, (hc.2.2.2 _ _ ho.1 hother).trans ho.2⟩, hr, hf⟩

/-- The rest of the script does not use the handle of the scanner. -/
def LeavesAlone (h : Int) (as : List ScanAct) : Prop :=
  ∀ a ∈ as, ∀ os, a = .other os → ∀ o ∈ os, o.handle ≠ some h

theorem Scans.run {refused : String → Bool} {f n : Nat} : ∀ (as : List ScanAct) (w : World) (sc : Scanner),
    Scans w sc f n → LeavesAlone sc.file.handle as →
    Scans (scanRun refused w sc as).2 (scanRun refused w sc as).1 f n := by
  intro as
  induction as with
  | nil => intro w sc h _; exact h
  | cons a as ih =>
    intro w sc h hl
    have hl' : LeavesAlone sc.file.handle as := fun b hb => hl b (List.mem_cons_of_mem _ hb)
    cases a with
    | other os => exact ih _ _ (h.calls (hl _ (List.mem_cons_self ..) os rfl)) hl'
    | reset =>
      have hs := scannerReset_spec h
      refine ih _ _ hs.2.2.2 ?_
      rw [hs.2.1]; exact hl'

/-! ## C180 -/

/-- A `Scanner` that is made for a file that exists and can be read has, whatever a script
did before, the whole contents of the file as its text.  Whatever happens to files
afterwards, `reset` succeeds and the text is then what the file contains at that moment,
cut off at the length the file had when the scanner was made; a file that has not grown is
given whole. -/
theorem scanner_text_partial (refused : String → Bool) (names : String → Option Nat) (data : Nat → List Byte)
    (files : Nat) (before : List Op) (w : World) (hw : w = (calls refused (start names data files) before).2)
    (name : String) (f : Nat) (hname : w.sys.names name = some f) (hok : refused name = false)
    (sc : Scanner) (w' : World) (r : MOut Unit) (hnew : scannerNew refused w name = (r, sc, w')) :
    r = .ok () ∧ scannerText sc = w.sys.data f ∧ w'.sys.data = w.sys.data ∧
    ∀ (after : List ScanAct) (sc₁ : Scanner) (w₁ : World), LeavesAlone sc.file.handle after →
      scanRun refused w' sc after = (sc₁, w₁) →
      (scannerReset w₁ sc₁).1 = .ok () ∧
      scannerText (scannerReset w₁ sc₁).2.1 = (w₁.sys.data f).take (w.sys.data f).length ∧
      ((w₁.sys.data f).length ≤ (w.sys.data f).length →
        scannerText (scannerReset w₁ sc₁).2.1 = w₁.sys.data f) := by
  have ht : Table w := by rw [hw]; exact (calls_table refused before _ (table_start names data files)).1
  have h1 := scannerNew_spec ht hname hok
  rw [hnew] at h1
  refine ⟨h1.1, h1.2.1, h1.2.2.2.1, ?_⟩
  intro after sc₁ w₁ hl hrun
  have h2 := Scans.run (refused := refused) after w' sc h1.2.2.2.2 hl
  rw [hrun] at h2
  have h3 := scannerReset_spec h2
  have h4 : scannerText (scannerReset w₁ sc₁).2.1 = (w₁.sys.data f).take (w.sys.data f).length := by
    rw [h3.2.1]; rfl
  refine ⟨h3.1, h4, ?_⟩
  intro hle
  rw [h4, List.take_of_length_le hle]

/-- A world with a file `a` that contains `hi`. -/
def scanWorld : World := start (fun n => if n = "a" then some 3 else none) (fun f => if f = 3 then [104, 105] else []) 4

example : (scannerNew (fun _ => false) scanWorld "a").1 = .ok () ∧
    scannerText (scannerNew (fun _ => false) scanWorld "a").2.1 = [104, 105] := by decide

/-- The rest of the script overwrites the file with one letter: `reset` gives that letter. -/
example :
    let n := scannerNew (fun _ => false) scanWorld "a"
    let r := scanRun (fun _ => false) n.2.2 n.2.1 [.other [.fopen "a" "w", .fwrites 5 [74], .fclose 5]]
    LeavesAlone n.2.1.file.handle [.other [.fopen "a" "w", .fwrites 5 [74], .fclose 5]] ∧
    r.2.sys.data 3 = [74] ∧ scannerText (scannerReset r.2 r.1).2.1 = [74] := by
  refine ⟨?_, by decide, by decide⟩
  intro a ha os e o ho
  simp only [List.mem_cons, List.not_mem_nil, or_false] at ha
  subst ha
  cases e
  revert o
  decide

/-- **Refuted**: after `reset` a scanner gives the text the file has then.  `File.getSize` is
the size at the time the file was opened: of a file that has grown, only as many bytes as
it had then are read. -/
theorem scanner_grown_refuted (refused : String → Bool) (names : String → Option Nat) (data : Nat → List Byte)
    (files : Nat) (before : List Op) (w : World) (hw : w = (calls refused (start names data files) before).2)
    (name : String) (f : Nat) (hname : w.sys.names name = some f) (hok : refused name = false)
    (after : List ScanAct) (sc₁ : Scanner) (w₁ : World)
    (hl : LeavesAlone (scannerNew refused w name).2.1.file.handle after)
    (hrun : scanRun refused (scannerNew refused w name).2.2 (scannerNew refused w name).2.1 after = (sc₁, w₁))
    (hgrown : (w.sys.data f).length < (w₁.sys.data f).length) :
    scannerText (scannerReset w₁ sc₁).2.1 ≠ w₁.sys.data f := by
  have h := (scanner_text_partial refused names data files before w hw name f hname hok _ _ _ rfl).2.2.2 after
    sc₁ w₁ hl hrun
  rw [h.2.1]
  intro e
  have := congrArg List.length e
  rw [List.length_take] at this
  omega

example :
    let n := scannerNew (fun _ => false) scanWorld "a"
    let r := scanRun (fun _ => false) n.2.2 n.2.1 [.other [.fopen "a" "a", .fwrites 5 [33], .fclose 5]]
    r.2.sys.data 3 = [104, 105, 33] ∧ scannerText (scannerReset r.2 r.1).2.1 = [104, 105] := by decide

/-- **Refuted**: a scanner for a file that cannot be opened is not reported: the null
stream is used. -/
theorem scanner_missing_refuted (refused : String → Bool) (names : String → Option Nat)
    (data : Nat → List Byte) (files : Nat) (before : List Op) (w : World)
    (hw : w = (calls refused (start names data files) before).2) (name : String)
    (hmissing : w.sys.names name = none ∨ refused name = true) :
    (scannerNew refused w name).1 = .ub := by
  have hm : parseMode AccessMode.readOnly.text.toList
      = some { read := true, write := false, append := false, truncate := false, create := false } := by decide
  have hfail : (fopen refused w name AccessMode.readOnly.text).1 = .ok (.int 0) := by
    rcases hmissing with h | h
    · cases hr : refused name <;> simp [fopen, c_fopen, hm, hr, Sys.openFile, h, register]
    · simp [fopen, c_fopen, hm, h, register]
  have h1 := file_open_reports_failure_refuted refused names data files before w hw name _ hfail
  generalize hc : fileOpen refused w {} name AccessMode.readOnly.text = c at h1
  obtain ⟨r, o, w'⟩ := c
  simp only at h1
  subst h1
  simp only [scannerNew, hc]

example : (scannerNew (fun _ => false) scanWorld "b").1 = .ub := by decide

end Verif.Files
