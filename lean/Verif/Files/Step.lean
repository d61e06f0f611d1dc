import Verif.Files.Lemmas

/-!
# One call, and sequences of calls
-/

namespace Verif.Files

theorem setStream_setStream (S : Sys) (p : Nat) (a b : Stream) :
    (S.setStream p a).setStream p b = S.setStream p b := by
  simp [Sys.setStream]

theorem setStream_self {S : Sys} {p : Nat} {s : Stream} (h : S.stream (some p) = some s) :
    S.setStream p s = S := by
  obtain ⟨a, b, c, streams⟩ := S
  simp only [Sys.setStream, Sys.stream] at h ⊢
  congr 1
  apply List.ext_getElem?
  intro i
  rw [List.getElem?_set]
  by_cases e : p = i
  · subst e
    cases hp : streams[p]? with
    | none => rw [hp] at h; simp at h
    | some x =>
      rw [hp] at h
      simp only [Option.join_some] at h
      have hl : p < streams.length := by
        rcases Nat.lt_or_ge p streams.length with h' | h'
        · exact h'
        · simp [h'] at hp
      simp [hl, h]
  · simp [e]

theorem stream_bound {S : Sys} {p : Nat} {s : Stream} (h : S.stream (some p) = some s) :
    p < S.streams.length := by
  simp only [Sys.stream] at h
  rcases Nat.lt_or_ge p S.streams.length with h' | h'
  · exact h'
  · simp [h'] at h

theorem drop_succ_of_cons {d : List Byte} {i : Nat} {b : Byte} {bs : List Byte} (h : d.drop i = b :: bs) :
    d.drop (i + 1) = bs := by
  rw [← List.drop_drop, h]; rfl

/-- `fread` on a stream that may be read. -/
theorem c_fread_ok {S : Sys} {p : Nat} {s : Stream} (hs : S.stream (some p) = some s) (hc : s.canRead = true)
    {bs : List Byte} (hb : (S.data s.file).drop s.pos = bs) (n : Nat) :
    c_fread S (some p) n = some (bs.take n, S.setStream p (s.advance (bs.take n).length n)) := by
  subst hb
  simp only [c_fread, hs]
  rw [if_neg (by simp [hc])]
  rfl

/-- Reading a given number of bytes one by one. -/
theorem freadsLoop_count : ∀ (bs : List Byte) (fuel : Nat) (S : Sys) (p : Nat) (s : Stream) (n : Nat) (value : List Byte),
    S.stream (some p) = some s → s.canRead = true → (S.data s.file).drop s.pos = bs → bs.length < fuel →
    freadsLoop fuel S (some p) n value
      = some (.ok (.str (value ++ bs.take n)), S.setStream p (s.advance (bs.take n).length n)) := by
  intro bs
  induction bs with
  | nil =>
    intro fuel S p s n value hs hc hb hf
    cases fuel with
    | zero => simp at hf
    | succ fuel =>
      by_cases hn : n = 0
      · subst hn
        simp [freadsLoop, Stream.advance, setStream_self hs]
      · have h1 : ((n : Int) > 0 ∨ (n : Int) = -1) := Or.inl (by omega)
        have h2 : 0 < n := by omega
        rw [freadsLoop, if_pos h1, c_fread_ok hs hc hb]
        simp [Stream.advance, h2]
  | cons b bs ih =>
    intro fuel S p s n value hs hc hb hf
    cases fuel with
    | zero => simp at hf
    | succ fuel =>
      cases n with
      | zero => simp [freadsLoop, Stream.advance, setStream_self hs]
      | succ n =>
        have h1 : (((n + 1 : Nat) : Int) > 0 ∨ ((n + 1 : Nat) : Int) = -1) := Or.inl (by omega)
        have h2 : ((n + 1 : Nat) : Int) > 0 := by omega
        rw [freadsLoop, if_pos h1, c_fread_ok hs hc hb]
        simp only [List.take_succ_cons, List.take_zero, List.length_singleton, if_pos h2]
        have ha : s.advance 1 1 = { s with pos := s.pos + 1 } := by simp [Stream.advance]
        rw [ha]
        have h3 : (((n + 1 : Nat) : Int) - 1) = (n : Int) := by omega
        rw [h3]
        have hs' : (S.setStream p { s with pos := s.pos + 1 }).stream (some p) = some { s with pos := s.pos + 1 } := by
          rw [stream_setStream _ _ _ (stream_bound hs)]; simp
        have := ih fuel (S.setStream p { s with pos := s.pos + 1 }) p { s with pos := s.pos + 1 } n (value ++ [b])
          hs' hc (by exact drop_succ_of_cons hb) (by simp at hf; omega)
        rw [this, setStream_setStream]
        simp only [Stream.advance, List.append_assoc, List.singleton_append, List.length_cons,
          Nat.add_assoc, Nat.add_lt_add_iff_right]
        rw [Nat.add_comm 1 (bs.take n).length]

/-- Reading to the end of the file. -/
theorem freadsLoop_all : ∀ (bs : List Byte) (fuel : Nat) (S : Sys) (p : Nat) (s : Stream) (value : List Byte),
    S.stream (some p) = some s → s.canRead = true → (S.data s.file).drop s.pos = bs → bs.length < fuel →
    freadsLoop fuel S (some p) (-1) value
      = some (.ok (.str (value ++ bs)), S.setStream p { s with pos := s.pos + bs.length, eof := true }) := by
  intro bs
  induction bs with
  | nil =>
    intro fuel S p s value hs hc hb hf
    cases fuel with
    | zero => simp at hf
    | succ fuel =>
      rw [freadsLoop, if_pos (Or.inr rfl), c_fread_ok hs hc hb]
      simp [Stream.advance]
  | cons b bs ih =>
    intro fuel S p s value hs hc hb hf
    cases fuel with
    | zero => simp at hf
    | succ fuel =>
      have h1 : ((-1 : Int) > 0 ∨ (-1 : Int) = -1) := Or.inr rfl
      have h2 : ¬ ((-1 : Int) > 0) := by omega
      rw [freadsLoop, if_pos h1, c_fread_ok hs hc hb]
      simp only [List.take_succ_cons, List.take_zero, List.length_singleton, if_neg h2]
      have ha : s.advance 1 1 = { s with pos := s.pos + 1 } := by simp [Stream.advance]
      rw [ha]
      have hs' : (S.setStream p { s with pos := s.pos + 1 }).stream (some p) = some { s with pos := s.pos + 1 } := by
        rw [stream_setStream _ _ _ (stream_bound hs)]; simp
      have := ih fuel (S.setStream p { s with pos := s.pos + 1 }) p { s with pos := s.pos + 1 } (value ++ [b])
        hs' hc (by exact drop_succ_of_cons hb) (by simp at hf; omega)
      rw [this, setStream_setStream]
      simp only [List.append_assoc, List.singleton_append, List.length_cons, Nat.add_assoc]
      rw [Nat.add_comm 1 bs.length]

theorem freadsLoop_neg (fuel : Nat) (S : Sys) (p : Ptr) (n : Int) (value : List Byte) (h : n < -1) :
    freadsLoop fuel S p n value = some (.ok (.str value), S) := by
  cases fuel with
  | zero => rfl
  | succ fuel =>
    have : ¬ (n > 0 ∨ n = -1) := by omega
    simp [freadsLoop, this]

theorem cString_id {b : List Byte} (h : 0 ∉ b) : cString b = b := by
  induction b with
  | nil => rfl
  | cons x b ih =>
    simp only [List.mem_cons, not_or] at h
    have hx : x ≠ 0 := fun e => h.1 e.symm
    simp [cString, hx, ih h.2]

/-- A function with an unknown handle. -/
theorem withHandle_unknown {w : World} {h : Int} (hf : w.handles.find h = none) (f : Ptr → Option (Out Value × Sys)) :
    withHandle w h f = (.fail, w) := by
  simp [withHandle, hf]

theorem on_none {F : Files} {h : Int} (ho : F.opened h = none) (f : Stream → Out Value × Files) :
    F.on h f = (.fail, F) := by simp [Files.on, ho]

theorem on_some {F : Files} {h : Int} {s : Stream} (ho : F.opened h = some s) (f : Stream → Out Value × Files) :
    F.on h f = f s := by simp [Files.on, ho]

theorem reading_none {F : Files} {h : Int} (ho : F.opened h = none) (f : Stream → Out Value × Files) :
    F.reading h f = (.fail, F) := by simp [Files.reading, Files.on, ho]

theorem reading_some {F : Files} {h : Int} {s : Stream} (ho : F.opened h = some s) (hc : s.canRead = true)
    (f : Stream → Out Value × Files) : F.reading h f = f s := by simp [Files.reading, Files.on, ho, hc]

/-- What a call does, compared with what is expected. -/
structure Agrees (a : Out Value × World) (e : Out Value × Files) : Prop where
  out : a.1 = e.1
  defined : e.1 ≠ .ub
  rep : Rep a.2 e.2

theorem Rep.self {w : World} {F : Files} (hr : Rep w F) : Rep { w with sys := w.sys } F := hr

/-- The two cases of a function on a handle. -/
theorem agrees_on {w : World} {F : Files} (hr : Rep w F) {h : Int} (hs : ¬ F.stale h)
    {f : Ptr → Option (Out Value × Sys)} {g : Stream → Out Value × Files}
    (hfg : ∀ p s, w.handles.find h = some (some p) → w.sys.stream (some p) = some s → F.opened h = some s →
      ∃ r S, f (some p) = some (r, S) ∧ r = (g s).1 ∧ r ≠ .ub ∧ Rep { w with sys := S } (g s).2) :
    Agrees (withHandle w h f) (F.on h g) := by
  rcases hr.cases hs with ⟨hf, ho⟩ | ⟨p, s, hf, hst, ho⟩
  · rw [withHandle_unknown hf, on_none ho]
    exact ⟨rfl, by simp, hr⟩
  · rw [on_some ho]
    obtain ⟨r, S, h1, h2, h3, h4⟩ := hfg p s hf hst ho
    simp only [withHandle, hf, h1]
    exact ⟨h2, h2 ▸ h3, h4⟩

/-- The same for reading. -/
theorem agrees_reading {w : World} {F : Files} (hr : Rep w F) {h : Int} (hs : ¬ F.stale h)
    (hc : ∀ s, F.opened h = some s → s.canRead = true)
    {f : Ptr → Option (Out Value × Sys)} {g : Stream → Out Value × Files}
    (hfg : ∀ p s, w.handles.find h = some (some p) → w.sys.stream (some p) = some s → F.opened h = some s →
      s.canRead = true → ∃ r S, f (some p) = some (r, S) ∧ r = (g s).1 ∧ r ≠ .ub ∧ Rep { w with sys := S } (g s).2) :
    Agrees (withHandle w h f) (F.reading h g) := by
  rcases hr.cases hs with ⟨hf, ho⟩ | ⟨p, s, hf, hst, ho⟩
  · rw [withHandle_unknown hf, reading_none ho]
    exact ⟨rfl, by simp, hr⟩
  · rw [reading_some ho (hc s ho)]
    obtain ⟨r, S, h1, h2, h3, h4⟩ := hfg p s hf hst ho (hc s ho)
    simp only [withHandle, hf, h1]
    exact ⟨h2, h2 ▸ h3, h4⟩

theorem rest_eq {w : World} {F : Files} (hr : Rep w F) (s : Stream) :
    (w.sys.data s.file).drop s.pos = F.rest s := by
  unfold Files.rest; rw [hr.data]

theorem openFile_rep {w : World} {F : Files} (hr : Rep w F) (name : String) (m : Mode) {f : Nat} {S : Sys}
    (ho : w.sys.openFile name m = some (f, S)) :
    S.streams = w.sys.streams ∧
    ((F.names name = some f ∧ Rep { w with sys := S } (if m.truncate then F.write f [] else F)) ∨
     (F.names name = none ∧ m.create = true ∧ f = F.files ∧ Rep { w with sys := S } (F.create name))) := by
  simp only [Sys.openFile, hr.names] at ho
  cases hn : F.names name with
  | some g =>
    rw [hn] at ho
    simp only [Option.some.injEq, Prod.mk.injEq] at ho
    obtain ⟨rfl, rfl⟩ := ho
    cases m.truncate with
    | true => exact ⟨rfl, Or.inl ⟨rfl, hr.setData g []⟩⟩
    | false => exact ⟨rfl, Or.inl ⟨rfl, hr⟩⟩
  | none =>
    rw [hn] at ho
    cases hc : m.create with
    | false => simp [hc] at ho
    | true =>
      simp only [hc, if_true, Option.some.injEq, Prod.mk.injEq] at ho
      obtain ⟨rfl, rfl⟩ := ho
      refine ⟨rfl, Or.inr ⟨rfl, rfl, hr.files, ?_⟩⟩
      refine ⟨?_, ?_, ?_, hr.next, hr.known, hr.opened, hr.closed, hr.inj, hr.bound⟩
      · simp only [Files.create, hr.names, hr.files]
      · simp only [Files.create, Sys.setData, hr.data, hr.files]
      · simp only [Files.create, Sys.setData, hr.files]

theorem agrees_fopen (refused : String → Bool) {w : World} {F : Files} (hr : Rep w F) (name mode : String) :
    Agrees (fopen refused w name mode) (expect refused F (.fopen name mode)) := by
  simp only [fopen, c_fopen, expect, Files.openAs]
  cases parseMode mode.toList with
  | none => exact ⟨rfl, by simp, hr⟩
  | some m =>
    cases hrf : refused name with
    | true => exact ⟨rfl, by simp, hr⟩
    | false =>
      simp only [Bool.false_eq_true, if_false]
      cases hof : w.sys.openFile name m with
      | none =>
        simp only [Sys.openFile, hr.names] at hof
        cases hn : F.names name with
        | some g => rw [hn] at hof; simp at hof
        | none =>
          rw [hn] at hof
          cases hc : m.create with
          | true => simp [hc] at hof
          | false => exact ⟨rfl, by simp, hr⟩
      | some fs =>
        obtain ⟨f, S⟩ := fs
        obtain ⟨hstr, hcase⟩ := openFile_rep hr name m hof
        rcases hcase with ⟨hn, hrep⟩ | ⟨hn, hc, rfl, hrep⟩
        · rw [hn]
          simp only [register]
          refine ⟨?_, by simp, hrep.add (m.stream f)⟩
          show Out.ok (Value.int _) = Out.ok (Value.int _)
          rw [hr.next]
        · rw [hn, hc]
          simp only [register, if_true]
          refine ⟨?_, by simp, hrep.add (m.stream F.files)⟩
          show Out.ok (Value.int _) = Out.ok (Value.int _)
          rw [hr.next]

theorem agrees_tmpfile (refused : String → Bool) {w : World} {F : Files} (hr : Rep w F) :
    Agrees (tmpfile w) (expect refused F .tmpfile) := by
  simp only [tmpfile, c_tmpfile, register, expect]
  have h1 : Rep { w with sys := { w.sys with
      data := fun g => if g = w.sys.files then [] else w.sys.data g, files := w.sys.files + 1 } }
      { F with data := fun g => if g = F.files then [] else F.data g, files := F.files + 1 } := by
    refine ⟨hr.names, ?_, ?_, hr.next, hr.known, hr.opened, hr.closed, hr.inj, hr.bound⟩
    · simp only [hr.data, hr.files]
    · simp only [hr.files]
  refine ⟨?_, by simp, ?_⟩
  · show Out.ok (Value.int _) = Out.ok (Value.int _)
    rw [hr.next]
  · have := h1.add { file := F.files, pos := 0, eof := false, err := false, canRead := true, canWrite := true, atEnd := false }
    rw [← hr.files] at this ⊢
    exact this

/-- One careful call does what is expected. -/
theorem call_agrees (refused : String → Bool) {w : World} {F : Files} (hr : Rep w F) (o : Op) (hc : Careful F o) :
    Agrees (call refused w o) (expect refused F o) := by
  cases o with
  | fopen name mode => exact agrees_fopen refused hr name mode
  | tmpfile => exact agrees_tmpfile refused hr
  | fclose h =>
    refine agrees_on hr (hc.1 h rfl) ?_
    intro p s hf hst ho
    exact ⟨.ok (.int 0), _, by simp [c_fclose, hst], rfl, by simp, hr.close hf⟩
  | fgetc h =>
    refine agrees_reading hr (hc.1 h rfl) hc.2 ?_
    intro p s hf hst ho hcr
    cases hb : F.rest s with
    | nil =>
      exact ⟨_, _, by simp only [c_fgetc, c_fread_ok hst hcr ((rest_eq hr s).trans hb)]; rfl, rfl, by simp,
        hr.setStream hf (s.advance 0 1)⟩
    | cons b bs =>
      exact ⟨_, _, by simp only [c_fgetc, c_fread_ok hst hcr ((rest_eq hr s).trans hb)]; rfl, rfl, by simp,
        hr.setStream hf (s.advance 1 1)⟩
  | fgets h n =>
    refine agrees_reading hr (hc.1 h rfl) (fun s ho => (hc.2.2 s ho).1) ?_
    intro p s hf hst ho hcr
    have hz := (hc.2.2 s ho).2
    have hn := hc.2.1
    by_cases h0 : n ≤ 0
    · have : n.toNat = 0 := by omega
      exact ⟨.ok .nothing, w.sys, by simp [fgetsLoop, this], by simp [h0], by simp, by simpa [h0] using hr⟩
    · by_cases h1 : n = 1
      · subst h1
        exact ⟨.ok (.str []), w.sys, by simp [fgetsLoop, c_fgets, hst, readSize, cString], by simp, by simp,
          by simpa using hr⟩
      · obtain ⟨k, hk⟩ : ∃ k, n.toNat = k + 2 := ⟨n.toNat - 2, by omega⟩
        have hk' : ¬ (k + 2 > readSize) := by simp only [readSize]; omega
        rw [hk] at hz
        simp only [h0, h1, if_false, hk]
        have hloop : ∀ (m : Nat) (S : Sys) (v : Value), fgetsLoop m S (some p) 0 v = some (.ok v, S) := by
          intro m S v; cases m <;> simp [fgetsLoop]
        refine ⟨_, _, ?_, rfl, by simp, hr.setStream hf _⟩
        have h2 : ¬ (k + 2 ≤ 1) := by omega
        have h3 : ¬ (k + 2 = 0) := by omega
        have hg : c_fgets w.sys (some p) (k + 2)
            = some (if lineBytes (k + 2 - 1) (F.rest s) = [] then none else some (lineBytes (k + 2 - 1) (F.rest s)),
                w.sys.setStream p { s with
                  pos := s.pos + (lineBytes (k + 2 - 1) (F.rest s)).length
                  eof := s.eof || (decide ((lineBytes (k + 2 - 1) (F.rest s)).length < k + 2 - 1)
                    && decide ((lineBytes (k + 2 - 1) (F.rest s)).getLast? ≠ some 10)) }) := by
          simp only [c_fgets, hst, rest_eq hr]
          rw [if_neg h2, if_neg (by simp [hcr])]
        rw [show k + 2 = (k + 1) + 1 from rfl, fgetsLoop]
        rw [if_neg h3, if_neg hk']
        simp only [show k + 1 + 1 = k + 2 from rfl, hg, Nat.sub_self, hloop]
        by_cases he : lineBytes (k + 2 - 1) (F.rest s) = []
        · simp only [he, if_true]
        · simp only [he, if_false, cString_id hz]
  | freads h n =>
    refine agrees_reading hr (hc.1 h rfl) hc.2 ?_
    intro p s hf hst ho hcr
    have hfuel : (F.rest s).length < bytesLeft w.sys (some p) + 1 := by
      simp only [bytesLeft, hst, Files.rest, List.length_drop, hr.data]; omega
    by_cases h1 : n = -1
    · subst h1
      refine ⟨_, _, freadsLoop_all (F.rest s) _ w.sys p s [] hst hcr (rest_eq hr s) hfuel, by simp, by simp, ?_⟩
      simpa using hr.setStream hf _
    · rcases Int.lt_or_le n 0 with hneg | hpos
      · refine ⟨_, _, freadsLoop_neg _ w.sys _ n [] (by omega), ?_, by simp, ?_⟩
        · have : n.toNat = 0 := by omega
          simp [h1, this]
        · have : n.toNat = 0 := by omega
          simp only [h1, if_false, this, List.take_zero, List.length_nil]
          have e : s.advance 0 0 = s := by simp [Stream.advance]
          rw [e, update_self ho]; exact hr
      · have hn : ((n.toNat : Nat) : Int) = n := by omega
        have := freadsLoop_count (F.rest s) _ w.sys p s n.toNat [] hst hcr (rest_eq hr s) hfuel
        rw [hn] at this
        refine ⟨_, _, this, by simp [h1], by simp, ?_⟩
        simpa [h1] using hr.setStream hf _
  | freadi h =>
    refine agrees_reading hr (hc.1 h rfl) (fun s ho => (hc.2 s ho).1) ?_
    intro p s hf hst ho hcr
    have hl := (hc.2 s ho).2
    have hl' : ¬ ((F.rest s).length < 4) := by omega
    have hlen : ((F.rest s).take 4).length = 4 := by simp; omega
    simp only [hl', if_false]
    exact ⟨_, _, by simp only [c_fread_ok hst hcr (rest_eq hr s), hlen]; rfl, rfl, by simp,
      hr.setStream hf (s.advance 4 4)⟩
  | freadb h =>
    refine agrees_reading hr (hc.1 h rfl) (fun s ho => (hc.2 s ho).1) ?_
    intro p s hf hst ho hcr
    obtain ⟨b, hb, hle⟩ := (hc.2 s ho).2
    cases hbs : F.rest s with
    | nil => rw [hbs] at hb; simp at hb
    | cons c bs =>
      rw [hbs] at hb
      simp only [List.head?_cons, Option.some.injEq] at hb
      subst hb
      have hrep := hr.setStream hf (s.advance 1 1)
      have : c = 0 ∨ c = 1 := by unfold Byte at *; omega
      rcases this with rfl | rfl
      · exact ⟨.ok (.bool false), _, by simp only [c_fread_ok hst hcr ((rest_eq hr s).trans hbs)]; rfl, by simp,
          by simp, hrep⟩
      · exact ⟨.ok (.bool true), _, by simp only [c_fread_ok hst hcr ((rest_eq hr s).trans hbs)]; rfl, by simp,
          by simp, hrep⟩
  | fputs b h =>
    refine agrees_on hr (hc.1 h rfl) ?_
    intro p s hf hst ho
    have hz : 0 ∉ b := hc.2
    by_cases hb : b = []
    · subst hb
      exact ⟨.ok (.int 1), w.sys, by simp [c_fputs, hst, cString], by simp, by simp, by simpa using hr⟩
    · cases hw : s.canWrite with
      | true =>
        exact ⟨.ok (.int 1), _, by simp [c_fputs, hst, cString_id hz, hb, hw]; rfl, by simp [hb], by simp,
          by simpa [hb] using hr.put hf s b⟩
      | false =>
        exact ⟨.ok (.int (-1)), _, by simp [c_fputs, hst, cString_id hz, hb, hw]; rfl, by simp [hb], by simp,
          by simpa [hb, hw] using hr.setStream hf { s with err := true }⟩
  | fwrites h b =>
    refine agrees_on hr (hc.1 h rfl) ?_
    intro p s hf hst ho
    have hz : 0 ∉ b := hc.2
    by_cases hb : b = []
    · subst hb
      exact ⟨.ok (.int 1), w.sys, by simp [c_fputs, hst, cString], by simp, by simp, by simpa using hr⟩
    · cases hw : s.canWrite with
      | true =>
        exact ⟨.ok (.int 1), _, by simp [c_fputs, hst, cString_id hz, hb, hw]; rfl, by simp [hb], by simp,
          by simpa [hb] using hr.put hf s b⟩
      | false =>
        exact ⟨.fail, _, by simp [c_fputs, hst, cString_id hz, hb, hw]; rfl, by simp [hb], by simp,
          by simpa [hb, hw] using hr.setStream hf { s with err := true }⟩
  | fwritei h v =>
    refine agrees_on hr (hc.1 h rfl) ?_
    intro p s hf hst ho
    cases hw : s.canWrite with
    | true =>
      exact ⟨.ok (.int 1), _, by simp [c_fwrite, hst, hw]; rfl, by simp, by simp,
        by simpa using hr.put hf s _⟩
    | false =>
      exact ⟨.ok (.int 0), _, by simp [c_fwrite, hst, hw]; rfl, by simp, by simp,
        by simpa [hw] using hr.setStream hf { s with err := true }⟩
  | fwriteb h v =>
    refine agrees_on hr (hc.1 h rfl) ?_
    intro p s hf hst ho
    cases hw : s.canWrite with
    | true =>
      exact ⟨.ok (.int 1), _, by simp [c_fwrite, hst, hw]; rfl, by simp, by simp,
        by simpa using hr.put hf s _⟩
    | false =>
      exact ⟨.ok (.int 0), _, by simp [c_fwrite, hst, hw]; rfl, by simp, by simp,
        by simpa [hw] using hr.setStream hf { s with err := true }⟩
  | fputc c h =>
    refine agrees_on hr (hc.1 h rfl) ?_
    intro p s hf hst ho
    cases hw : s.canWrite with
    | true =>
      exact ⟨.ok (.int (c % 256)), _, by simp [c_fputc, hst, hw]; rfl, by simp, by simp,
        by simpa using hr.put hf s _⟩
    | false =>
      exact ⟨.ok (.int (-1)), _, by simp [c_fputc, hst, hw]; rfl, by simp, by simp,
        by simpa [hw] using hr.setStream hf { s with err := true }⟩
  | fseek h a b =>
    refine agrees_on hr (hc.1 h rfl) ?_
    intro p s hf hst ho
    have horig : originOf w.sys s b = (if b = 0 then some 0 else if b = 1 then some (s.pos : Int)
        else if b = 2 then some ((F.data s.file).length : Int) else none) := by
      simp only [originOf, hr.data]
    simp only [c_fseek, hst, horig]
    cases hb : (if b = 0 then some 0 else if b = 1 then some (s.pos : Int)
        else if b = 2 then some ((F.data s.file).length : Int) else none) with
    | none => exact ⟨.fail, w.sys, by simp, by simp, by simp, hr⟩
    | some o =>
      by_cases hneg : o + a < 0
      · exact ⟨.fail, w.sys, by simp [hneg], by simp [hneg], by simp, by simpa [hneg] using hr⟩
      · exact ⟨.ok (.int 0), _, by simp [hneg]; rfl, by simp [hneg], by simp,
          by simpa [hneg] using hr.setStream hf _⟩
  | ftell h =>
    refine agrees_on hr (hc.1 h rfl) ?_
    intro p s hf hst ho
    have : ¬ ((s.pos : Int) = -1) := by omega
    exact ⟨.ok (.int s.pos), w.sys, by simp [c_ftell, hst, this], rfl, by simp, hr⟩
  | feof h =>
    refine agrees_on hr (hc.1 h rfl) ?_
    intro p s hf hst ho
    exact ⟨_, w.sys, by simp [c_feof, hst], rfl, by simp, hr⟩
  | ferror h =>
    refine agrees_on hr (hc.1 h rfl) ?_
    intro p s hf hst ho
    exact ⟨_, w.sys, by simp [c_ferror, hst], rfl, by simp, hr⟩
  | fflush h =>
    refine agrees_on hr (hc.1 h rfl) ?_
    intro p s hf hst ho
    exact ⟨.ok (.int 0), w.sys, by simp [c_fflush, hst], rfl, by simp, hr⟩
  | rewind h =>
    refine agrees_on hr (hc.1 h rfl) ?_
    intro p s hf hst ho
    exact ⟨.ok .nothing, _, by simp [c_rewind, hst], rfl, by simp, hr.setStream hf _⟩
  | clearerr h =>
    refine agrees_on hr (hc.1 h rfl) ?_
    intro p s hf hst ho
    exact ⟨.ok .nothing, _, by simp [c_clearerr, hst], rfl, by simp, hr.setStream hf _⟩
  | remove name =>
    simp only [call, remove, c_remove, expect, hr.names]
    cases hn : F.names name with
    | none => exact ⟨rfl, by simp, hr⟩
    | some f =>
      refine ⟨rfl, by simp, ?_⟩
      refine ⟨?_, hr.data, hr.files, hr.next, hr.known, hr.opened, hr.closed, hr.inj, hr.bound⟩
      rfl

/-- A careful sequence of calls does what is expected. -/
theorem calls_agree (refused : String → Bool) : ∀ (os : List Op) (w : World) (F : Files), Rep w F →
    AllCareful refused F os →
    (calls refused w os).1 = (expects refused F os).1 ∧ Rep (calls refused w os).2 (expects refused F os).2 := by
  intro os
  induction os with
  | nil => intro w F hr _; exact ⟨rfl, hr⟩
  | cons o os ih =>
    intro w F hr hc
    obtain ⟨h1, h2⟩ := hc
    have ha := call_agrees refused hr o h1
    obtain ⟨hi1, hi2⟩ := ih _ _ ha.rep h2
    generalize hco : call refused w o = c at ha hi1 hi2
    obtain ⟨r, w'⟩ := c
    have hne : r ≠ .ub := fun e => ha.defined (by rw [← ha.out]; exact e)
    simp only [calls, expects, hco]
    cases r with
    | ub => exact absurd rfl hne
    | ok v => exact ⟨by rw [hi1]; congr 1; exact ha.out, hi2⟩
    | fail => exact ⟨by rw [hi1]; congr 1; exact ha.out, hi2⟩

end Verif.Files
