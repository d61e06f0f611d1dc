import Verif.Log.Model
import Verif.Text.Props
import Verif.Files.Props

/-!
# Properties of loggers (C165, C166)
-/

namespace Verif.Log

open Verif.Str Verif.Text Verif.Files

/-! ## C165: keys -/

/-- What the key of a logger should show of a path: all of it if no length is wanted, else exactly that many
characters: the end of the path, or the path filled up with blanks. -/
def Shows (length : Nat) (path key : Text) : Prop :=
  if length = 0 then key = path
  else key.length = length ∧ ((∃ front, path = front ++ key) ∨ ∃ n, key = path ++ List.replicate n ' ')

/-- The last `n` characters. -/
theorem shownKey_shows (path : Text) (n : Nat) (hp : path.length < 2 ^ 31) (hn : n < 2 ^ 31) :
    shownKey path n = .ok (if n = 0 then path
      else if n ≤ path.length then path.drop (path.length - n)
      else path ++ List.replicate (n - path.length) ' ') := by
  unfold shownKey
  rw [strlen_eq hp]
  by_cases h0 : n = 0
  · simp [h0]
  rw [if_pos (by omega), if_neg h0]
  have hpad : ∀ k : Text, extStrrpad k n [' '] = .ok (k ++ List.replicate (n - k.length) ' ') := by
    intro k
    simp only [extStrrpad, toSize_of_nonneg (i := (n : Int)) (by omega), Int.toNat_natCast]
    by_cases h : n > k.length
    · rw [if_pos h, if_neg (by unfold maxSize; omega)]
    · rw [if_neg h]; simp [show n - k.length = 0 by omega]
  by_cases hle : n < path.length
  · rw [if_pos (by omega), if_pos (by omega)]
    have : ((path.length : Int) - n) = ((path.length - n : Nat) : Int) := by omega
    rw [this, sub_take (by omega) hp (by omega)]
    simp only [thenDo]
    rw [hpad, List.take_of_length_le (by simp; omega)]
    simp [show n - (path.length - (path.length - n)) = 0 by omega]
  · rw [if_neg (by omega)]
    simp only [thenDo]
    rw [hpad]
    by_cases he : n = path.length
    · simp [he]
    · rw [if_neg (by omega)]

theorem shows_of {path : Text} {n : Nat} : Shows n path (if n = 0 then path
      else if n ≤ path.length then path.drop (path.length - n)
      else path ++ List.replicate (n - path.length) ' ') := by
  unfold Shows
  by_cases h0 : n = 0
  · simp [h0]
  rw [if_neg h0, if_neg h0]
  by_cases hle : n ≤ path.length
  · rw [if_pos hle]
    exact ⟨by simp; omega, Or.inl ⟨path.take (path.length - n), (List.take_append_drop _ _).symm⟩⟩
  · rw [if_neg hle]
    exact ⟨by simp; omega, Or.inr ⟨_, rfl⟩⟩

/-- A path has one key. -/
theorem shows_unique {n : Nat} {path k k' : Text} (h : Shows n path k) (h' : Shows n path k') : k = k' := by
  unfold Shows at h h'
  by_cases h0 : n = 0
  · rw [if_pos h0] at h h'; rw [h, h']
  rw [if_neg h0] at h h'
  obtain ⟨hl, h⟩ := h
  obtain ⟨hl', h'⟩ := h'
  have key : ∀ {k k' : Text}, k.length = k'.length → (∃ front, path = front ++ k) →
      ((∃ front, path = front ++ k') ∨ ∃ n, k' = path ++ List.replicate n ' ') → k = k' := by
    intro k k' hl ⟨f, e⟩ h'
    rcases h' with ⟨f', e'⟩ | ⟨m, e'⟩
    · exact (List.append_inj' (e.symm.trans e') hl).2
    · have hm : m + f.length = 0 := by
        have h1 := congrArg List.length e'
        have h2 := congrArg List.length e
        simp only [List.length_append, List.length_replicate] at h1 h2
        omega
      have : f = [] := by apply List.eq_nil_of_length_eq_zero; omega
      have : m = 0 := by omega
      subst this; simp_all
  rcases h with h | ⟨m, e⟩
  · exact key (hl.trans hl'.symm) h h'
  · rcases h' with h' | ⟨m', e'⟩
    · exact (key (hl'.trans hl.symm) h' (Or.inr ⟨m, e⟩)).symm
    · have : m = m' := by
        have h1 := congrArg List.length e
        have h2 := congrArg List.length e'
        simp only [List.length_append, List.length_replicate] at h1 h2
        omega
      subst this; rw [e, e']

theorem trimRight_unique {s b : Text} (hb : ∀ c ∈ b, c = ' ') (hs : s.getLast? ≠ some ' ') :
    Str.trimRight (s ++ b) blank = s := by
  obtain ⟨b', e, h2, h3⟩ := trimRight_spec (s ++ b) blank
  generalize Str.trimRight (s ++ b) blank = r at *
  rcases List.append_eq_append_iff.1 e with ⟨x, h, h'⟩ | ⟨x, h, h'⟩
  · rcases List.eq_nil_or_concat x with rfl | ⟨y, c, rfl⟩
    · simpa using h
    · exfalso
      have hc : c = ' ' := hb c (by rw [h']; simp)
      exact h3 c (by rw [h]; simp [← List.append_assoc]) (by simp [hc, blank])
  · rcases List.eq_nil_or_concat x with rfl | ⟨y, c, rfl⟩
    · simpa using h.symm
    · exfalso
      have hc := h2 c (by rw [h']; simp)
      simp only [blank, List.mem_singleton] at hc
      exact hs (by rw [h]; simp [← List.append_assoc, hc])

theorem child_shows {separator path key k : Text} {n : Nat} (hs : Shows n path key) (hl : path.getLast? ≠ some ' ')
    (hp : (path ++ separator ++ k).length < 2 ^ 31) (hn : n < 2 ^ 31) :
    ∃ key', childLogger separator ⟨key, n⟩ k = .ok ⟨key', n⟩ ∧ Shows n (path ++ separator ++ k) key' := by
  unfold childLogger
  by_cases hfull : Str.trimRight key blank = path
  · simp only [hfull]
    rw [shownKey_shows _ n hp hn]
    exact ⟨_, rfl, shows_of⟩
  unfold Shows at hs
  by_cases h0 : n = 0
  · rw [if_pos h0] at hs
    subst hs
    exact absurd (by simpa using trimRight_unique (b := []) (by simp) hl) hfull
  rw [if_neg h0] at hs
  obtain ⟨hkl, ⟨front, e⟩ | ⟨m, e⟩⟩ := hs
  · have hk : Str.trimRight key blank = key := by
      have hlast : key.getLast? ≠ some ' ' := by
        intro h
        refine hl ?_
        rw [e, List.getLast?_append, h]; rfl
      simpa using trimRight_unique (b := []) (by simp) hlast
    simp only [hk]
    have hlen : (key ++ separator ++ k).length < 2 ^ 31 := by
      rw [e] at hp; simp at hp ⊢; omega
    rw [shownKey_shows _ n hlen hn]
    refine ⟨_, rfl, ?_⟩
    rw [if_neg h0, if_pos (by simp; omega)]
    unfold Shows
    rw [if_neg h0]
    refine ⟨by simp; omega, Or.inl ⟨front ++ (key ++ separator ++ k).take ((key ++ separator ++ k).length - n), ?_⟩⟩
    rw [List.append_assoc front, List.take_append_drop, e]
    simp
  · exact absurd (by rw [e]; exact trimRight_unique (by simp [List.mem_replicate]) hl) hfull

theorem descend_shows (separator : Text) (n : Nat) (hn : n < 2 ^ 31) (hsep : separator.getLast? ≠ some ' ') :
    ∀ (keys : List Text) (path key : Text), Shows n path key → path.getLast? ≠ some ' ' →
      (∀ k ∈ keys, k.getLast? ≠ some ' ') → (path ++ (keys.map (separator ++ ·)).flatten).length < 2 ^ 31 →
      ∃ key', descend separator (.ok ⟨key, n⟩) keys = .ok ⟨key', n⟩ ∧
        Shows n (path ++ (keys.map (separator ++ ·)).flatten) key' := by
  intro keys
  induction keys with
  | nil => intro path key hs _ _ _; exact ⟨key, rfl, by simpa using hs⟩
  | cons k keys ih =>
    intro path key hs hl hk hlen
    have hall : path ++ ((k :: keys).map (separator ++ ·)).flatten =
        (path ++ separator ++ k) ++ (keys.map (separator ++ ·)).flatten := by simp
    rw [hall] at hlen ⊢
    have hlen' : (path ++ separator ++ k).length < 2 ^ 31 := by
      rw [List.length_append] at hlen; omega
    obtain ⟨key', e, hs'⟩ := child_shows (k := k) hs hl hlen' hn
    have hl' : (path ++ separator ++ k).getLast? ≠ some ' ' := by
      rw [List.getLast?_append, List.getLast?_append]
      have h1 := hk k (by simp)
      cases hx : k.getLast? with
      | some c => rw [hx] at h1; simpa using h1
      | none =>
        cases hy : separator.getLast? with
        | some c => rw [hy] at hsep; simpa using hsep
        | none => simpa using hl
    obtain ⟨key'', e', hs''⟩ := ih _ key' hs' hl' (fun x hx => hk x (by simp [hx])) hlen
    exact ⟨key'', by simpa [descend, thenDo, e] using e', hs''⟩

theorem intercalate_eq (separator : Text) : ∀ (key : Text) (keys : List Text),
    separator.intercalate (key :: keys) = key ++ (keys.map (separator ++ ·)).flatten
  | key, [] => by simp [List.intercalate]
  | key, k :: keys => by
    have h := intercalate_eq separator k keys
    simp only [List.intercalate, List.intersperse_cons_cons, List.flatten_cons] at h ⊢
    rw [h]
    simp

/-- The key of a logger shows the path of the keys of its ancestors and its own, joined by the separator: all of it, or
exactly as many characters as the topmost logger asks for, the end of the path or the path and blanks.  `_partial`: the
keys (and the separator) do not end in a blank. -/
theorem logger_key_partial (separator key : Text) (keys : List Text) (n : Nat) (hn : n < 2 ^ 31)
    (hsep : separator.getLast? ≠ some ' ') (hkeys : ∀ k ∈ key :: keys, k.getLast? ≠ some ' ')
    (hlen : (separator.intercalate (key :: keys)).length < 2 ^ 31) :
    ∃ l, descend separator (rootLogger key n) keys = .ok l ∧ l.keyLength = n ∧
      Shows n (separator.intercalate (key :: keys)) l.key ∧
      ∀ k, Shows n (separator.intercalate (key :: keys)) k → k = l.key := by
  rw [intercalate_eq] at hlen ⊢
  have hroot := shownKey_shows key n (by rw [List.length_append] at hlen; omega) hn
  obtain ⟨key', e, hs⟩ := descend_shows separator n hn hsep keys key _ shows_of (hkeys key (by simp))
    (fun k hk => hkeys k (by simp [hk])) hlen
  refine ⟨⟨key', n⟩, ?_, rfl, hs, fun k hk => shows_unique hk hs⟩
  rw [← e]
  simp only [rootLogger, hroot, thenDo]

example : descend "::".toList (rootLogger "main".toList 8) ["db".toList, "query".toList] = .ok ⟨"b::query".toList, 8⟩ ∧
    descend "::".toList (rootLogger "main".toList 0) ["db".toList, "query".toList] = .ok ⟨"main::db::query".toList, 0⟩ ∧
    descend "::".toList (rootLogger "main".toList 12) ["db".toList] = .ok ⟨"main::db    ".toList, 12⟩ ∧
    "::".toList.getLast? ≠ some ' ' ∧ (∀ k ∈ ["main".toList, "db".toList, "query".toList], k.getLast? ≠ some ' ') ∧
    ("::".toList.intercalate ["main".toList, "db".toList, "query".toList]).length < 2 ^ 31 := by
  decide +kernel

/-- **Refuted**: a blank at the end of an ancestor's key is not part of the key. -/
theorem logger_key_blank_refuted (separator key k : Text) (hk : key.getLast? ≠ some ' ') :
    descend separator (rootLogger (key ++ [' ']) 0) [k] = .ok ⟨key ++ separator ++ k, 0⟩ := by
  simp only [descend, rootLogger, childLogger, shownKey, thenDo, ne_eq, not_true_eq_false, if_false]
  rw [trimRight_unique (by simp) hk]

example : descend "::".toList (rootLogger "main ".toList 0) ["db".toList] = .ok ⟨"main::db".toList, 0⟩ := by
  decide +kernel

/-- A negative key length raises an exception. -/
theorem logger_negative_length (key : Text) (n : Int) (hn : n < 0) (hr : (key.length : Int) - n < 2 ^ 31) :
    rootLogger key n = .exception := by
  have hk : key.length < 2 ^ 31 := by omega
  simp only [rootLogger, shownKey]
  rw [if_pos (by omega), strlen_eq hk, if_pos (by omega), sub_bad (Or.inr (by omega)) (by omega) hk]
  rfl

example : rootLogger "main".toList (-1) = .exception := by decide +kernel

/-- The key of a `System.IO.Logger` is its key, or the last characters of it.  `_partial`: the key is at least as long as
wanted. -/
theorem io_logger_key_partial (key : Text) (n : Nat) (hk : key.length < 2 ^ 31) (hn : n ≤ key.length) :
    ∃ k, ioLogger key n = .ok k ∧ Shows n key k := by
  unfold ioLogger
  by_cases h0 : n = 0
  · exact ⟨key, by simp [h0], by simp [Shows, h0]⟩
  rw [if_pos (by omega), strlen_eq hk]
  have : ((key.length : Int) - n) = ((key.length - n : Nat) : Int) := by omega
  rw [this, sub_take (by omega) hk (by omega), List.take_of_length_le (by simp; omega)]
  refine ⟨_, rfl, ?_⟩
  have := shows_of (path := key) (n := n)
  rwa [if_neg h0, if_pos hn] at this

/-- **Refuted**: a `System.IO.Logger` with a key that is shorter than the wanted length cannot be made. -/
theorem io_logger_short_key_refuted (key : Text) (n : Int) (hn : key.length < n) (hr : n < 2 ^ 31) :
    ioLogger key n = .exception := by
  have hk : key.length < 2 ^ 31 := by omega
  unfold ioLogger
  rw [if_pos (by omega), strlen_eq hk, sub_bad (Or.inl (by omega)) (by omega) hk]

example : ioLogger "database".toList 4 = .ok "base".toList ∧ ioLogger "db".toList 4 = .exception := by decide +kernel

/-! ## C166: the messages in a file -/

/-- What a reader expects of a call. -/
def expectSaid : Level → Text → Said
  | .fatal, message => .fatal ("fatal error: ".toList ++ message)
  | _, _ => .done

/-- The name of a level, five characters wide. -/
def levelName : Level → String
  | .debug => "DEBUG"
  | .error => "ERROR"
  | .fatal => "FATAL"
  | .info => "INFO "
  | .warning => "WARN "

/-- The text of a message, as a reader of the log sees it. -/
def expectEntry (key : Text) (level : Level) (message : Text) : Text :=
  "[".toList ++ (levelName level).toList ++ "] [".toList ++ key ++ "]   ".toList ++ message

theorem entry_eq (level : Level) (key message : Text) : entry level key message = expectEntry key level message := by
  have h : level.tag = "[".toList ++ (levelName level).toList ++ "] [".toList := by cases level <;> decide +kernel
  unfold entry expectEntry
  rw [h]

theorem overwrite_end (d b : List Byte) : overwrite d d.length b = d ++ b := by
  simp [overwrite]

theorem bytes_no_zero {t : Text} (h : '\x00' ∉ t) : 0 ∉ bytes t := by
  intro hm
  obtain ⟨c, hc, e⟩ := List.mem_map.1 hm
  have : c = '\x00' := by
    apply Char.ext
    apply UInt32.toNat_inj.1
    exact e
  exact h (this ▸ hc)

theorem entry_no_zero {level : Level} {key message : Text} (hk : '\x00' ∉ key) (hm : '\x00' ∉ message) :
    '\x00' ∉ entry level key message := by
  have h1 : '\x00' ∉ level.tag := by cases level <;> decide +kernel
  have h2 : '\x00' ∉ "]   ".toList := by decide +kernel
  simp only [entry, List.mem_append, not_or]
  exact ⟨⟨⟨h1, hk⟩, h2⟩, hm⟩

theorem entry_ne (level : Level) (key message : Text) : bytes (entry level key message) ≠ [] := by
  have h1 : level.tag ≠ [] := by cases level <;> decide +kernel
  simp [bytes, entry, h1]

theorem say_writes (w : World) (obj : FileObj) (p : Nat) (s : Stream) (ho : IsOpen w obj.handle p s) (hw : s.canWrite = true)
    (hpos : s.atEnd = false ∧ s.pos = (w.sys.data s.file).length) (key : Text) (level : Level) (message : Text)
    (hk : '\x00' ∉ key) (hm : '\x00' ∉ message) :
    ∃ w', say w obj key level message = (expectSaid level message, w') ∧ w'.sys.names = w.sys.names ∧
      w'.sys.data s.file = w.sys.data s.file ++ bytes (entry level key message) ∧
      IsOpen w' obj.handle p { s with pos := (w'.sys.data s.file).length } := by
  obtain ⟨hf, hs⟩ := ho
  have hz := bytes_no_zero (entry_no_zero (level := level) hk hm)
  have hne := entry_ne level key message
  have h1 : fwrites w obj.handle (bytes (entry level key message)) =
      (.ok (.int 1), { w with sys := w.sys.put p s (bytes (entry level key message)) }) := by
    simp [fwrites, withHandle, hf, c_fputs, hs, cString_id hz, hne, hw]
  have hput := put_stream hs (bytes (entry level key message))
  simp only [hpos.1, Bool.false_eq_true, if_false, hpos.2, overwrite_end] at hput
  refine ⟨{ w with sys := w.sys.put p s (bytes (entry level key message)) }, ?_, rfl, hput.2, hf, ?_⟩
  · simp only [say, fileWrite, h1, andThen]
    cases level <;> simp [expectSaid]
  · show (w.sys.put p s (bytes (entry level key message))).stream (some p) = _
    rw [hput.1]
    show _ = some { s with pos := ((w.sys.put p s (bytes (entry level key message))).data s.file).length }
    rw [hput.2, List.length_append]
    simp [hpos.1]

theorem sayAll_writes (obj : FileObj) (p : Nat) (key : Text) (hk : '\x00' ∉ key) :
    ∀ (ms : List (Level × Text)) (w : World) (s : Stream), IsOpen w obj.handle p s → s.canWrite = true →
      (s.atEnd = false ∧ s.pos = (w.sys.data s.file).length) → (∀ m ∈ ms, '\x00' ∉ m.2) →
      (sayAll w obj key ms).1 = ms.map (fun m => expectSaid m.1 m.2) ∧
      (sayAll w obj key ms).2.sys.names = w.sys.names ∧
      (sayAll w obj key ms).2.sys.data s.file =
        w.sys.data s.file ++ (ms.map fun m => bytes (entry m.1 key m.2)).flatten := by
  intro ms
  induction ms with
  | nil => intro w s _ _ _ _; simp [sayAll]
  | cons m ms ih =>
    intro w s ho hw hpos hz
    obtain ⟨w', e, hn, hd, ho'⟩ := say_writes w obj p s ho hw hpos key m.1 m.2 hk (hz m (by simp))
    obtain ⟨h1, h2, h3⟩ := ih w' _ ho' hw ⟨hpos.1, rfl⟩ (fun x hx => hz x (by simp [hx]))
    simp only [sayAll, e]
    refine ⟨by simp [h1], by rw [h2, hn], ?_⟩
    rw [h3, hd]; simp

/-- Opening a log: the file is there, empty, and open for writing at its start. -/
theorem openLog_opens (refused : String → Bool) (w : World) (ht : Table w) (name : String) (hr : refused name = false)
    (append : Bool) :
    ∃ obj w' p s, openLog refused w name append = (.ok true, obj, w') ∧ IsOpen w' obj.handle p s ∧ s.canWrite = true ∧
      s.atEnd = false ∧ s.pos = 0 ∧ w'.sys.names name = some s.file ∧ w'.sys.data s.file = [] ∧
      ∀ f, w.sys.names name = some f → s.file = f := by
  have hnone : w.handles.find (w.handles.length : Int) = none := (ht.known _).2 (Or.inr (Int.le_refl _))
  have hm : ∃ r, parseMode (if append then AccessMode.writeUpdate.text else AccessMode.writeOnly.text).toList
      = some { read := r, write := true, append := false, truncate := true, create := true } := by
    cases append
    · exact ⟨false, by decide⟩
    · exact ⟨true, by decide⟩
  obtain ⟨r, hm⟩ := hm
  have hopen : ∃ f S, w.sys.openFile name { read := r, write := true, append := false, truncate := true, create := true }
      = some (f, S) ∧ S.names name = some f ∧ S.data f = [] ∧ S.streams = w.sys.streams ∧
      ∀ g, w.sys.names name = some g → f = g := by
    simp only [Sys.openFile]
    cases hn : w.sys.names name with
    | some f => exact ⟨f, _, rfl, by simpa [Sys.setData] using hn, by simp [Sys.setData], rfl, by simp⟩
    | none => exact ⟨_, _, rfl, by simp, by simp [Sys.setData], rfl, by simp⟩
  obtain ⟨f, S, he, hname, hdata, hstr, hsame⟩ := hopen
  have hfopen : fopen refused w name (if append then AccessMode.writeUpdate.text else AccessMode.writeOnly.text) =
      (.ok (.int w.handles.length),
        { sys := { S with streams := w.sys.streams ++ [some { file := f, pos := 0, eof := false, err := false, canRead := r, canWrite := true, atEnd := false }] },
          handles := w.handles ++ [((w.handles.length : Int), some w.sys.streams.length)] }) := by
    simp only [fopen, c_fopen, hm, hr, Bool.false_eq_true, if_false, he, register, insertHandle, hnone, hstr, Mode.stream]
  generalize hw1 : ({ sys := { S with streams := w.sys.streams ++ [some { file := f, pos := 0, eof := false, err := false, canRead := r, canWrite := true, atEnd := false }] }, handles := w.handles ++ [((w.handles.length : Int), some w.sys.streams.length)] } : World) = w1 at hfopen
  have hfind : w1.handles.find (w.handles.length : Int) = some (some w.sys.streams.length) := by
    rw [← hw1]
    simpa using find_append (p := some w.sys.streams.length) hnone (w.handles.length : Int)
  have hs1 : w1.sys.stream (some w.sys.streams.length) =
      some { file := f, pos := 0, eof := false, err := false, canRead := r, canWrite := true, atEnd := false } := by
    rw [← hw1]; simp [Sys.stream]
  have hd1 : w1.sys.data f = [] := by rw [← hw1]; exact hdata
  have hn1 : w1.sys.names name = some f := by rw [← hw1]; exact hname
  clear hw1
  generalize w.sys.streams.length = p at *
  have hst : ∀ (T : Sys) (s₀ s' : Stream), T.stream (some p) = some s₀ → (T.setStream p s').stream (some p) = some s' := by
    intro T s₀ s' h0; rw [stream_setStream _ _ _ (stream_bound h0)]; simp
  have hne : ¬ (w.handles.length : Int) = 0 := by have := ht.size; omega
  generalize (w.handles.length : Int) = h at *
  generalize hsd : ({ file := f, pos := 0, eof := false, err := false, canRead := r, canWrite := true, atEnd := false } : Stream) = s at *
  have hseek : fseek w1 h 0 2 = (.ok (.int 0), { w1 with sys := w1.sys.setStream p s }) := by
    subst hsd
    simp only [fseek, withHandle, hfind, c_fseek, hs1, originOf]
    simp only [show ¬ (2 : Int) = 0 by decide, show ¬ (2 : Int) = 1 by decide, if_false, if_true, Int.add_zero, hd1]
    rw [if_neg (by simp)]
    simp
  have hs2 := hst w1.sys s s hs1
  have htell : ftell { w1 with sys := w1.sys.setStream p s } h = (.ok (.int 0), { w1 with sys := w1.sys.setStream p s }) := by
    subst hsd
    simp only [ftell, withHandle, hfind, c_ftell, hs2, Option.map_some]
    rw [if_neg (by omega)]
    rfl
  have hback := seek_after (w := { w1 with sys := w1.sys.setStream p s }) ⟨hfind, hs2⟩ 0
  have hs3 := hst _ _ { s with pos := 0, eof := false } hs2
  refine ⟨{ handle := h, size := 0 }, { w1 with sys := (w1.sys.setStream p s).setStream p { s with pos := 0, eof := false } },
    p, { s with pos := 0, eof := false }, ?_, ⟨hfind, hs3⟩, ?_, ?_, rfl, ?_, ?_, ?_⟩
  · have hback' : fseek { w1 with sys := w1.sys.setStream p s } h 0 0 = _ := hback
    simp only [openLog, fileOpen, hfopen, andThen, hseek, htell, hback']
    simp [hne]
  · rw [← hsd]
  · rw [← hsd]
  · rw [← hsd]; exact hn1
  · rw [← hsd]; exact hd1
  · rw [← hsd]; exact hsame

/-- A file logger makes its file, which then holds exactly the entries that were logged, one behind the other and
nothing else; every call returns, but `fatal` throws. -/
theorem file_log_contents (refused : String → Bool) (names : String → Option Nat) (data : Nat → List Byte) (files : Nat)
    (os : List Files.Op) (w : World) (hw : w = (calls refused (start names data files) os).2) (name : String)
    (hr : refused name = false) (append : Bool) (key : Text) (ms : List (Level × Text)) (hk : '\x00' ∉ key)
    (hms : ∀ m ∈ ms, '\x00' ∉ m.2) :
    (openLog refused w name append).1 = .ok true ∧
    (sayAll (openLog refused w name append).2.2 (openLog refused w name append).2.1 key ms).1 =
      ms.map (fun m => expectSaid m.1 m.2) ∧
    ∃ f, (sayAll (openLog refused w name append).2.2 (openLog refused w name append).2.1 key ms).2.sys.names name = some f ∧
      (∀ g, w.sys.names name = some g → f = g) ∧
      (sayAll (openLog refused w name append).2.2 (openLog refused w name append).2.1 key ms).2.sys.data f =
        (ms.map fun m => bytes (expectEntry key m.1 m.2)).flatten := by
  have ht : Table w := by rw [hw]; exact (calls_table refused os _ (table_start names data files)).1
  obtain ⟨obj, w', p, s, e, ho, h1, h2, h3, h4, h5, h6⟩ := openLog_opens refused w ht name hr append
  rw [e]
  obtain ⟨g1, g2, g3⟩ := sayAll_writes obj p key hk ms w' s ho h1 ⟨h2, by rw [h3, h5]; rfl⟩ hms
  refine ⟨rfl, g1, s.file, by rw [g2, h4], h6, ?_⟩
  rw [g3, h5]
  simp only [List.nil_append, entry_eq]

/-- **Refuted** (its name promises it): an `AppendingFileLogger` does not keep what the file held. -/
theorem appending_log_refuted (refused : String → Bool) (names : String → Option Nat) (data : Nat → List Byte) (files : Nat)
    (os : List Files.Op) (w : World) (hw : w = (calls refused (start names data files) os).2) (name : String) (f : Nat)
    (hr : refused name = false) (hf : w.sys.names name = some f) :
    (openLog refused w name true).2.2.sys.data f = [] := by
  have ht : Table w := by rw [hw]; exact (calls_table refused os _ (table_start names data files)).1
  obtain ⟨obj, w', p, s, e, _, _, _, _, _, h5, h6⟩ := openLog_opens refused w ht name hr true
  rw [e, ← h6 f hf]
  exact h5

/-- **Refuted**: the entries in a file are not lines; unless a message holds a line break, the file holds none. -/
theorem file_log_lines_refuted (refused : String → Bool) (names : String → Option Nat) (data : Nat → List Byte) (files : Nat)
    (os : List Files.Op) (w : World) (hw : w = (calls refused (start names data files) os).2) (name : String)
    (hr : refused name = false) (append : Bool) (key : Text) (ms : List (Level × Text)) (hk : '\x00' ∉ key ∧ '\n' ∉ key)
    (hms : ∀ m ∈ ms, '\x00' ∉ m.2 ∧ '\n' ∉ m.2) :
    ∃ f, (sayAll (openLog refused w name append).2.2 (openLog refused w name append).2.1 key ms).2.sys.names name = some f ∧
      10 ∉ (sayAll (openLog refused w name append).2.2 (openLog refused w name append).2.1 key ms).2.sys.data f := by
  obtain ⟨-, -, f, h1, -, h2⟩ := file_log_contents refused names data files os w hw name hr append key ms hk.1
    (fun m hm => (hms m hm).1)
  refine ⟨f, h1, ?_⟩
  rw [h2]
  intro hc
  obtain ⟨l, hl, hin⟩ := List.mem_flatten.1 hc
  obtain ⟨m, hm, rfl⟩ := List.mem_map.1 hl
  obtain ⟨c, hcm, e⟩ := List.mem_map.1 hin
  have hnl : c = '\n' := by
    apply Char.ext
    apply UInt32.toNat_inj.1
    exact e
  subst hnl
  have h1 : '\n' ∉ "[".toList ++ (levelName m.1).toList ++ "] [".toList := by
    cases m.1 <;> decide +kernel
  have h2 : '\n' ∉ "]   ".toList := by decide +kernel
  unfold expectEntry at hcm
  rw [List.mem_append, List.mem_append, List.mem_append] at hcm
  rcases hcm with ((h | h) | h) | h
  · exact h1 h
  · exact hk.2 h
  · exact h2 h
  · exact (hms m hm).2 h

/-- A file `log` with two bytes. -/
def sample : World := start (fun n => if n = "log" then some 3 else none) (fun f => if f = 3 then [104, 105] else []) 4

example : (openLog (fun _ => false) sample "log" true).1 = .ok true ∧
    (sayAll (openLog (fun _ => false) sample "log" true).2.2 (openLog (fun _ => false) sample "log" true).2.1 "k".toList
      [(.info, "up".toList), (.fatal, "down".toList)]).1 = [.done, .fatal "fatal error: down".toList] ∧
    (sayAll (openLog (fun _ => false) sample "log" true).2.2 (openLog (fun _ => false) sample "log" true).2.1 "k".toList
      [(.info, "up".toList), (.fatal, "down".toList)]).2.sys.data 3 =
      bytes "[INFO ] [k]   up[FATAL] [k]   down".toList := by
  decide +kernel

end Verif.Log
