import Verif.Net.Model

namespace Verif.Net

/-! ### The specification -/

/-- The bytes in which a value travels. -/
def Val.bytes : Val → List Byte
  | .bool b => [if b then 1 else 0]
  | .int i => intBytes i
  | .float bits => stored 4 bits
  | .double bits => stored 8 bits
  | .text t => t

/-- A value of its type: `int` and `float` have 32 bits, `double` has 64. -/
def Val.Fits : Val → Prop
  | .bool _ => True
  | .int i => -2147483648 ≤ i ∧ i < 2147483648
  | .float bits => bits < 4294967296
  | .double bits => bits < 18446744073709551616
  | .text _ => True

instance : (v : Val) → Decidable v.Fits
  | .bool _ => inferInstanceAs (Decidable True)
  | .int i => inferInstanceAs (Decidable (-2147483648 ≤ i ∧ i < 2147483648))
  | .float bits => inferInstanceAs (Decidable (bits < 4294967296))
  | .double bits => inferInstanceAs (Decidable (bits < 18446744073709551616))
  | .text _ => inferInstanceAs (Decidable True)

/-- The call that receives a value of this type; for a text the receiver names its length. -/
def Val.kind : Val → Kind
  | .bool _ => .bool
  | .int _ => .int
  | .float _ => .float
  | .double _ => .double
  | .text t => .text t.length

/-- How many bytes the program asks one call of the operating system to move for this value. -/
def Val.piece : Val → Nat
  | .bool _ => 1
  | .int _ => 4
  | .float _ => 4
  | .double _ => 8
  | .text _ => 1

/-- The operating system never fails and moves at least `n` bytes per call, if so many are asked
for and there. -/
def Moves (n : Nat) (answers : Nat → Answer) : Prop :=
  ∀ t, ∃ k, answers t = .upTo k ∧ n ≤ k + 1

/-- The operating system never fails. -/
def NeverFails (answers : Nat → Answer) : Prop := Moves 1 answers

/-! ### Numbers in memory -/

theorem stored_length (n v : Nat) : (stored n v).length = n := by
  induction n generalizing v with
  | zero => rfl
  | succ n ih => simp [stored, ih]

theorem loaded_stored (n v : Nat) : loaded (stored n v) = v % 256 ^ n := by
  induction n generalizing v with
  | zero => simp [stored, loaded, Nat.mod_one]
  | succ n ih =>
    simp only [stored, loaded, ih]
    rw [Nat.pow_succ, Nat.mul_comm (256 ^ n) 256, Nat.mod_mul]

theorem loaded_append (a b : List Byte) :
    loaded (a ++ b) = loaded a + 256 ^ a.length * loaded b := by
  induction a with
  | nil => simp [loaded]
  | cons x a ih =>
    simp only [List.cons_append, loaded, ih, List.length_cons, Nat.pow_succ]
    rw [Nat.mul_add, Nat.add_assoc, Nat.mul_comm (256 ^ a.length) 256, Nat.mul_assoc]

theorem loaded_zeros (n : Nat) : loaded (List.replicate n 0) = 0 := by
  induction n with
  | zero => rfl
  | succ n ih => simp [List.replicate_succ, loaded, ih]

theorem loaded_overlay (n : Nat) (got : List Byte) : loaded (overlay n got) = loaded got := by
  simp [overlay, loaded_append, loaded_zeros]

theorem stored_take (n k v : Nat) (h : k ≤ n) : (stored n v).take k = stored k v := by
  induction n generalizing k v with
  | zero => obtain rfl : k = 0 := by omega
            rfl
  | succ n ih =>
    cases k with
    | zero => rfl
    | succ k => simp only [stored, List.take_succ_cons]; rw [ih k _ (by omega)]

theorem intOf_stored (i : Int) (h1 : -2147483648 ≤ i) (h2 : i < 2147483648) :
    intOf (intBytes i) = i := by
  unfold intOf intBytes
  simp only [loaded_stored]
  have e : (256 : Nat) ^ 4 = 4294967296 := by decide
  rw [e]
  split <;> omega

/-! ### Sending -/

theorem writeOnce_moves (bytes : List Byte) (s : Line) (n : Nat) (hm : Moves n s.answers)
    (hn : bytes.length ≤ n) :
    writeOnce bytes s
      = (.count bytes.length, { s with calls := s.calls + 1, wire := s.wire ++ bytes }) := by
  obtain ⟨k, hk, hle⟩ := hm s.calls
  unfold writeOnce sysWrite
  simp only [hk]
  have e1 : min bytes.length (k + 1) = bytes.length := by omega
  have e2 : bytes.take (k + 1) = bytes := List.take_of_length_le (by omega)
  rw [e1, e2]

theorem writeLoop_moves (t : List Byte) (size : Nat) (s : Line) (hm : NeverFails s.answers) :
    writeLoop t size s
      = (.count (if t = [] then size else 1),
          { s with calls := s.calls + t.length, wire := s.wire ++ t }) := by
  induction t generalizing size s with
  | nil => simp [writeLoop]
  | cons c t ih =>
    obtain ⟨k, hk, _⟩ := hm s.calls
    unfold writeLoop sysWrite
    simp only [hk]
    have e1 : min [c].length (k + 1) = 1 := by simp
    have e2 : [c].take (k + 1) = [c] := by simp
    rw [e1, e2]
    rw [ih 1 { s with calls := s.calls + 1, wire := s.wire ++ [c] } hm]
    simp [Nat.add_assoc, Nat.add_comm 1]

theorem Moves.mono {m n : Nat} {a : Nat → Answer} (h : Moves n a) (hle : m ≤ n) : Moves m a := by
  intro t
  obtain ⟨k, hk, h2⟩ := h t
  exact ⟨k, hk, by omega⟩

/-- One value is sent whole when the operating system takes it whole. -/
theorem write_moves (v : Val) (s : Line) (n : Nat) (hm : Moves n s.answers) (hn : v.piece ≤ n) :
    ∃ c r, write v s = (.count r, { s with calls := c, wire := s.wire ++ v.bytes }) := by
  cases v with
  | bool b => exact ⟨_, _, writeOnce_moves _ s n hm hn⟩
  | int i => exact ⟨_, _, writeOnce_moves _ s n hm (by rw [intBytes, stored_length]; exact hn)⟩
  | float b => exact ⟨_, _, writeOnce_moves _ s n hm (by rw [stored_length]; exact hn)⟩
  | double b => exact ⟨_, _, writeOnce_moves _ s n hm (by rw [stored_length]; exact hn)⟩
  | text t => exact ⟨_, _, writeLoop_moves t 0 s (hm.mono hn)⟩

theorem sendAll_moves (vs : List Val) (s : Line) (n : Nat) (hm : Moves n s.answers)
    (hn : ∀ v ∈ vs, v.piece ≤ n) :
    (sendAll vs s).2.wire = s.wire ++ vs.flatMap Val.bytes
      ∧ ∀ r ∈ (sendAll vs s).1, r ≠ .raises := by
  induction vs generalizing s with
  | nil => simp [sendAll]
  | cons v vs ih =>
    obtain ⟨c, r, hw⟩ := write_moves v s n hm (hn v (by simp))
    have h := ih { s with calls := c, wire := s.wire ++ v.bytes } hm
      (fun v' hv' => hn v' (by simp [hv']))
    simp only [sendAll, hw]
    refine ⟨?_, ?_⟩
    · rw [h.1]; simp
    · intro r' hr'
      simp only [List.mem_cons] at hr'
      rcases hr' with rfl | hr'
      · simp
      · exact h.2 r' hr'

/-! ### Receiving -/

theorem readOnce_moves (bytes rest : List Byte) (make : List Byte → Got) (s : Line) (n : Nat)
    (hw : s.wire = bytes ++ rest) (hm : Moves n s.answers) (hn : bytes.length ≤ n) :
    readOnce bytes.length make s
      = (make bytes, { s with calls := s.calls + 1, wire := rest }) := by
  obtain ⟨k, hk, hle⟩ := hm s.calls
  unfold readOnce sysRead
  simp only [hk]
  have e1 : min bytes.length (k + 1) = bytes.length := by omega
  rw [e1, hw]
  simp [overlay]

/-- `reads` with a count: exactly that many bytes, or all there are, however they arrive. -/
theorem readLoop_text (m : Nat) (fuel : Nat) (value : List Byte) (s : Line)
    (hm : NeverFails s.answers) (hf : s.wire.length < fuel) :
    ∃ c, readLoop fuel m value s
      = (.value (.text (value ++ s.wire.take m)), { s with calls := c, wire := s.wire.drop m }) := by
  induction m generalizing fuel value s with
  | zero =>
    cases fuel with
    | zero => omega
    | succ fuel => exact ⟨s.calls, by simp [readLoop]⟩
  | succ m ih =>
    cases fuel with
    | zero => omega
    | succ fuel =>
      obtain ⟨k, hk, _⟩ := hm s.calls
      have e1 : min 1 (k + 1) = 1 := by omega
      have hpos : ((m + 1 : Nat) : Int) > 0 ∨ ((m + 1 : Nat) : Int) = -1 := by omega
      unfold readLoop sysRead
      rw [if_pos hpos]
      simp only [hk, e1]
      cases hw : s.wire with
      | nil => exact ⟨s.calls + 1, by simp⟩
      | cons c w =>
        simp only [List.take_succ_cons, List.take_zero, List.drop_succ_cons, List.drop_zero]
        have e2 : (if ((m + 1 : Nat) : Int) > 0 then ((m + 1 : Nat) : Int) - 1
            else ((m + 1 : Nat) : Int)) = (m : Int) := by
          rw [if_pos (by omega)]; omega
        rw [e2]
        obtain ⟨c', h⟩ := ih fuel (value ++ [c]) { s with calls := s.calls + 1, wire := w } hm
          (by simp [hw] at hf ⊢; omega)
        exact ⟨c', by rw [h]; simp⟩

/-- `reads` with −1: all bytes until the other side ends. -/
theorem readLoop_all (fuel : Nat) (value : List Byte) (s : Line)
    (hm : NeverFails s.answers) (hf : s.wire.length < fuel) :
    ∃ c, readLoop fuel (-1) value s
      = (.value (.text (value ++ s.wire)), { s with calls := c, wire := [] }) := by
  induction fuel generalizing value s with
  | zero => omega
  | succ fuel ih =>
    obtain ⟨k, hk, _⟩ := hm s.calls
    have e1 : min 1 (k + 1) = 1 := by omega
    unfold readLoop sysRead
    rw [if_pos (Or.inr rfl)]
    simp only [hk, e1]
    cases hw : s.wire with
    | nil => exact ⟨s.calls + 1, by simp⟩
    | cons c w =>
      simp only [List.take_succ_cons, List.take_zero, List.drop_succ_cons, List.drop_zero]
      rw [if_neg (by omega : ¬ (-1 : Int) > 0)]
      obtain ⟨c', h⟩ := ih (value ++ [c]) { s with calls := s.calls + 1, wire := w } hm
        (by simp [hw] at hf ⊢; omega)
      exact ⟨c', by rw [h]; simp⟩

theorem read_moves (v : Val) (rest : List Byte) (s : Line) (n : Nat) (hv : v.Fits)
    (hw : s.wire = v.bytes ++ rest) (hm : Moves n s.answers) (hn : v.piece ≤ n) :
    ∃ c, read v.kind s = (.value v, { s with calls := c, wire := rest }) := by
  cases v with
  | bool b =>
    refine ⟨s.calls + 1, ?_⟩
    have h := readOnce_moves _ rest boolOf s n hw hm hn
    simp only [Val.bytes, List.length_singleton] at h
    simp only [read, Val.kind]
    rw [h]
    cases b <;> rfl
  | int i =>
    refine ⟨s.calls + 1, ?_⟩
    have h := readOnce_moves _ rest (fun bs => .value (.int (intOf bs))) s n hw hm
      (by simp only [Val.bytes, intBytes, stored_length]; exact hn)
    simp only [Val.bytes] at h
    rw [show (intBytes i).length = 4 from stored_length _ _] at h
    simp only [read, Val.kind]
    rw [h, intOf_stored i hv.1 hv.2]
  | float b =>
    refine ⟨s.calls + 1, ?_⟩
    have h := readOnce_moves _ rest (fun bs => .value (.float (loaded bs))) s n hw hm
      (by simp only [Val.bytes, stored_length]; exact hn)
    simp only [Val.bytes] at h
    rw [stored_length] at h
    simp only [read, Val.kind]
    rw [h, loaded_stored, Nat.mod_eq_of_lt (Nat.lt_of_lt_of_eq hv (by decide))]
  | double b =>
    refine ⟨s.calls + 1, ?_⟩
    have h := readOnce_moves _ rest (fun bs => .value (.double (loaded bs))) s n hw hm
      (by simp only [Val.bytes, stored_length]; exact hn)
    simp only [Val.bytes] at h
    rw [stored_length] at h
    simp only [read, Val.kind]
    rw [h, loaded_stored, Nat.mod_eq_of_lt (Nat.lt_of_lt_of_eq hv (by decide))]
  | text t =>
    obtain ⟨c, h⟩ := readLoop_text t.length (s.wire.length + 1) [] s (hm.mono hn) (by omega)
    refine ⟨c, ?_⟩
    simp only [read, Val.kind]
    rw [h, hw]
    simp [Val.bytes]

theorem receiveAll_moves (vs : List Val) (rest : List Byte) (s : Line) (n : Nat)
    (hv : ∀ v ∈ vs, v.Fits) (hw : s.wire = vs.flatMap Val.bytes ++ rest)
    (hm : Moves n s.answers) (hn : ∀ v ∈ vs, v.piece ≤ n) :
    (receiveAll (vs.map Val.kind) s).1 = vs.map Got.value
      ∧ (receiveAll (vs.map Val.kind) s).2.wire = rest := by
  induction vs generalizing s with
  | nil => simpa [receiveAll] using hw
  | cons v vs ih =>
    obtain ⟨c, hr⟩ := read_moves v (vs.flatMap Val.bytes ++ rest) s n (hv v (by simp))
      (by rw [hw]; simp) hm (hn v (by simp))
    have h := ih { s with calls := c, wire := vs.flatMap Val.bytes ++ rest }
      (fun v' hv' => hv v' (by simp [hv'])) rfl hm (fun v' hv' => hn v' (by simp [hv']))
    simp only [List.map_cons, receiveAll, hr]
    exact ⟨by rw [h.1], h.2⟩

/-! ### C157: what is sent is received -/

/-- **C157.**  Whatever values one script sends and in whatever pieces the operating system moves
the bytes of either side: as long as no call fails and none moves fewer bytes than the program
asked for, the other script receives exactly these values, in this order, and no byte is left.
With `n = 1` this covers texts and truth values under every way of cutting the bytes into
pieces (`small_values_arrive`). -/
theorem values_arrive_partial (n : Nat) (vs : List Val) (out inn : Nat → Answer)
    (hv : ∀ v ∈ vs, v.Fits) (hn : ∀ v ∈ vs, v.piece ≤ n)
    (ho : Moves n out) (hi : Moves n inn) :
    let sent := sendAll vs { answers := out, calls := 0, wire := [] }
    let got := receiveAll (vs.map Val.kind) { answers := inn, calls := 0, wire := sent.2.wire }
    (∀ r ∈ sent.1, r ≠ .raises) ∧ got.1 = vs.map Got.value ∧ got.2.wire = [] := by
  intro sent got
  have h1 := sendAll_moves vs { answers := out, calls := 0, wire := [] } n ho hn
  have h2 := receiveAll_moves vs [] { answers := inn, calls := 0, wire := sent.2.wire } n hv
    (by simpa using h1.1) hi hn
  exact ⟨h1.2, h2.1, h2.2⟩

/-- Texts and truth values arrive whatever the operating system does, short of failing. -/
theorem small_values_arrive (vs : List Val) (out inn : Nat → Answer)
    (hs : ∀ v ∈ vs, (∃ b, v = .bool b) ∨ ∃ t, v = .text t)
    (ho : NeverFails out) (hi : NeverFails inn) :
    let sent := sendAll vs { answers := out, calls := 0, wire := [] }
    let got := receiveAll (vs.map Val.kind) { answers := inn, calls := 0, wire := sent.2.wire }
    (∀ r ∈ sent.1, r ≠ .raises) ∧ got.1 = vs.map Got.value ∧ got.2.wire = [] := by
  refine values_arrive_partial 1 vs out inn ?_ ?_ ho hi
  · intro v h
    rcases hs v h with ⟨b, rfl⟩ | ⟨t, rfl⟩ <;> exact True.intro
  · intro v h
    rcases hs v h with ⟨b, rfl⟩ | ⟨t, rfl⟩ <;> exact Nat.le_refl 1

example :
    let vs : List Val := [.int (-5), .text [72, 105], .bool true, .double 4607182418800017408]
    (∀ v ∈ vs, v.Fits) ∧ (∀ v ∈ vs, v.piece ≤ 8) ∧ Moves 8 (fun _ => .upTo 7) := by
  refine ⟨by decide, by decide, fun t => ⟨7, rfl, by decide⟩⟩

/-- A number that arrives in two pieces is not received: whatever `int` was sent, when the first
call of the receiver moves only `k + 1 < 4` bytes, `readi` gives the number those bytes alone make
up and leaves the others for the next call. -/
theorem int_in_pieces (i : Int) (rest : List Byte) (s : Line) (k : Nat) (hk : k < 3)
    (hw : s.wire = intBytes i ++ rest) (ha : s.answers s.calls = .upTo k) :
    (read .int s).1 = .value (.int (i % 256 ^ (k + 1)))
      ∧ (read .int s).2.wire = (intBytes i).drop (k + 1) ++ rest := by
  simp only [read, readOnce, sysRead, ha]
  have e1 : min 4 (k + 1) = k + 1 := by omega
  have el : (intBytes i).length = 4 := stored_length _ _
  rw [e1, hw, List.take_append_of_le_length (by omega), List.drop_append_of_le_length (by omega)]
  refine ⟨?_, rfl⟩
  unfold intOf
  simp only [loaded_overlay]
  rw [intBytes, stored_take 4 (k + 1) _ (by omega), loaded_stored]
  obtain rfl | rfl | rfl : k = 0 ∨ k = 1 ∨ k = 2 := by omega
  all_goals
    simp only [Nat.reduceAdd, Nat.reducePow, Int.reducePow]
    rw [if_pos (by omega)]
    congr 2
    omega

/-- So for every `int` outside of 0 … 255 there is a way of delivering its bytes, without any
failure, in which the receiver gets another number and no exception. -/
theorem values_arrive_refuted (i : Int) (h : i < 0 ∨ 255 < i) :
    ∃ inn, NeverFails inn ∧
      let sent := sendAll [.int i] { answers := fun _ => .upTo 3, calls := 0, wire := [] }
      ∃ j, j ≠ i ∧
        (receiveAll [.int] { answers := inn, calls := 0, wire := sent.2.wire }).1
          = [.value (.int j)] := by
  refine ⟨fun _ => .upTo 0, fun t => ⟨0, rfl, by decide⟩, ?_⟩
  intro sent
  have hs := (sendAll_moves [.int i] { answers := fun _ => .upTo 3, calls := 0, wire := [] } 4
    (fun t => ⟨3, rfl, by decide⟩) (by simp [Val.piece])).1
  have hr := (int_in_pieces i [] { answers := fun _ => .upTo 0, calls := 0, wire := sent.2.wire } 0
    (by decide) (by simpa [Val.bytes] using hs) rfl).1
  exact ⟨i % 256, by omega, by simp only [receiveAll]; rw [hr]; rfl⟩

/-- `reads(handle, n)` for every `n`, and any bytes, however they arrive: the first `n` bytes,
fewer only when the other side has ended; a count of −1 stands for all; other counts below 1 give
the empty text and touch nothing. -/
theorem reads_takes (length : Int) (s : Line) (hm : NeverFails s.answers) :
    (read (.text length) s).1
        = .value (.text (if length = -1 then s.wire else s.wire.take length.toNat))
      ∧ (read (.text length) s).2.wire
        = (if length = -1 then [] else s.wire.drop length.toNat) := by
  simp only [read]
  by_cases h1 : length = -1
  · subst h1
    obtain ⟨c, h⟩ := readLoop_all (s.wire.length + 1) [] s hm (by omega)
    rw [h]; simp
  · by_cases h2 : 0 ≤ length
    · obtain ⟨m, rfl⟩ := Int.eq_ofNat_of_zero_le h2
      obtain ⟨c, h⟩ := readLoop_text m (s.wire.length + 1) [] s hm (by omega)
      rw [if_neg h1, if_neg h1, h]; simp
    · rw [if_neg h1, if_neg h1]
      unfold readLoop
      rw [if_neg (by omega)]
      rw [Int.toNat_of_nonpos (by omega)]
      simp

example : NeverFails (fun t => .upTo (t % 2)) := fun t => ⟨t % 2, rfl, by omega⟩

/-- The end of the connection is not told: a script that receives a value after the other side
has ended gets zero, exactly as if the sender had sent zero (`false`, the empty text). -/
theorem end_not_told_refuted (s : Line) (hm : NeverFails s.answers) (he : s.wire = []) :
    (read .bool s).1 = .value (.bool false) ∧ (read .int s).1 = .value (.int 0)
      ∧ (read .float s).1 = .value (.float 0) ∧ (read .double s).1 = .value (.double 0)
      ∧ ∀ n, (read (.text n) s).1 = .value (.text []) := by
  obtain ⟨k, hk, _⟩ := hm s.calls
  refine ⟨?_, ?_, ?_, ?_, ?_⟩
  · simp only [read, readOnce, sysRead, hk, he]; rfl
  · simp only [read, readOnce, sysRead, hk, he, List.take_nil]; rfl
  · simp only [read, readOnce, sysRead, hk, he, List.take_nil]; rfl
  · simp only [read, readOnce, sysRead, hk, he, List.take_nil]; rfl
  · intro n
    rw [(reads_takes n s hm).1, he]
    simp

/-! ### C158: failures and counts -/

/-- A call of the operating system that fails is told by an exception when any value but a text is
received, and no byte is taken off the line; when a value is sent it is always told, and when the
first call fails nothing was sent. -/
theorem failure_told_partial (s : Line) (ha : s.answers s.calls = .error) :
    (∀ k, (∀ n, k ≠ .text n) → (read k s).1 = .raises ∧ (read k s).2.wire = s.wire)
      ∧ (∀ v, v.bytes ≠ [] → (write v s).1 = .raises ∧ (write v s).2.wire = s.wire) := by
  refine ⟨?_, ?_⟩
  · intro k hk
    cases k with
    | text n => exact absurd rfl (hk n)
    | _ => simp [read, readOnce, sysRead, ha]
  · intro v hv
    cases v with
    | text t =>
      cases t with
      | nil => exact absurd rfl hv
      | cons c t => simp [write, writeLoop, sysWrite, ha]
    | _ => simp [write, writeOnce, sysWrite, ha]

/-- A failing `reads` ends with the control flow of an exception, but there is no exception that
could be caught, for every count that makes it read at all. -/
theorem failure_told_refuted (n : Int) (hn : 0 < n ∨ n = -1) (s : Line)
    (ha : s.answers s.calls = .error) :
    (read (.text n) s).1 = .throwsNothing := by
  simp only [read]
  unfold readLoop
  rw [if_pos (by omega)]
  simp [sysRead, ha]

example : ∃ s : Line, s.answers s.calls = .error ∧ s.wire ≠ [] :=
  ⟨{ answers := fun _ => .error, calls := 0, wire := [1] }, rfl, by decide⟩

/-- A text is never sent scrambled: whatever the operating system answers, what is added to the
line is a beginning of the text; it is the whole text unless an exception is raised. -/
theorem text_sent_in_order (t : List Byte) (s : Line) :
    ∃ done left, t = done ++ left ∧ (write (.text t) s).2.wire = s.wire ++ done
      ∧ ((write (.text t) s).1 = .raises ∨ left = []) := by
  simp only [write]
  suffices h : ∀ size, ∃ done left, t = done ++ left
      ∧ (writeLoop t size s).2.wire = s.wire ++ done
      ∧ ((writeLoop t size s).1 = .raises ∨ left = []) from h 0
  intro size
  induction t generalizing size s with
  | nil => exact ⟨[], [], rfl, by simp [writeLoop], Or.inr rfl⟩
  | cons c t ih =>
    unfold writeLoop sysWrite
    cases ha : s.answers s.calls with
    | error => exact ⟨[], c :: t, rfl, by simp, Or.inl rfl⟩
    | upTo k =>
      obtain ⟨done, left, h1, h2, h3⟩ := ih
        { s with calls := s.calls + 1, wire := s.wire ++ [c].take (k + 1) } (min [c].length (k + 1))
      refine ⟨c :: done, left, by simp [h1], ?_, h3⟩
      simp only []
      rw [h2]; simp

/-- The number a `write…` function gives back is the number of bytes that were added to the line,
for all values but texts, whatever the operating system answers. -/
theorem count_of_bytes_partial (v : Val) (hv : ∀ t, v ≠ .text t) (s : Line) (n : Nat)
    (h : (write v s).1 = .count n) : (write v s).2.wire.length = s.wire.length + n := by
  have key : ∀ bytes : List Byte, (writeOnce bytes s).1 = .count n →
      (writeOnce bytes s).2.wire.length = s.wire.length + n := by
    intro bytes hb
    unfold writeOnce sysWrite at hb ⊢
    cases ha : s.answers s.calls with
    | error => simp [ha] at hb
    | upTo k =>
      simp only [ha, Sent.count.injEq] at hb ⊢
      simp only [List.length_append, List.length_take]
      omega
  cases v with
  | text t => exact absurd rfl (hv t)
  | bool b => exact key _ h
  | int i => exact key _ h
  | float b => exact key _ h
  | double b => exact key _ h

example : (write (.int 7) { answers := fun _ => .upTo 1, calls := 0, wire := [9] }).1 = .count 2 := by
  decide

/-- `writes` always gives 1 for a text that is not empty. -/
theorem count_of_bytes_refuted (t : List Byte) (h : 1 < t.length) (s : Line)
    (hm : NeverFails s.answers) :
    ∃ n, (write (.text t) s).1 = .count n ∧ (write (.text t) s).2.wire.length ≠ s.wire.length + n := by
  refine ⟨1, ?_, ?_⟩
  · simp only [write]
    rw [writeLoop_moves t 0 s hm]
    rw [if_neg (by rintro rfl; simp at h)]
  · simp only [write]
    rw [writeLoop_moves t 0 s hm]
    simp only [List.length_append]
    omega

/-! ### C159: the socket classes -/

/-- Whether a client is connected after a history of calls: the last call of `Connect` or `Close`
was a `Connect` that said yes. -/
def up (h : List (Act × Told)) : Bool :=
  h.foldl (fun u e => match e with
    | (.connect _, t) => t == .yes
    | (.close, _) => false
    | (.write _, _) => u) false

/-- What a client must tell the script, from what it told before. -/
def expected (before : List (Act × Told)) : Act → Told → Prop
  | .connect _, t => t = .yes ∨ t = .no
  | .close, t => t = .done
  | .write _, t => t = if up before then .done else .notConnected

theorem up_append (h : List (Act × Told)) (a : Act) (t : Told) :
    up (h ++ [(a, t)]) = match a with
      | .connect _ => t == .yes
      | .close => false
      | .write _ => up h := by
  simp only [up, List.foldl_append, List.foldl_cons, List.foldl_nil]
  cases a <;> rfl

/-- The client with what was told so far. -/
theorem run_told (as : List Act) (c : Client) (before : List (Act × Told))
    (hc : c.connected = up before) :
    ∀ (l : List Act) (a : Act) (r : List Act) , as = l ++ a :: r →
      ∃ t, (c.run as).1[l.length]? = some t
        ∧ expected (before ++ l.zip (c.run as).1) a t := by
  induction as generalizing c before with
  | nil => intro l a r h; simp at h
  | cons a0 as ih =>
    intro l a r h
    cases l with
    | nil =>
      simp only [List.nil_append, List.cons.injEq] at h
      obtain ⟨rfl, rfl⟩ := h
      refine ⟨(c.step a0).1, by simp [Client.run], ?_⟩
      simp only [List.zip_nil_left, List.append_nil]
      cases a0 with
      | connect ok =>
        simp only [expected, Client.step]
        cases (ok && c.isOpen) <;> simp
      | close => simp only [expected, Client.step]; split <;> rfl
      | write v =>
        simp only [expected, Client.step, ← hc]
        cases c.connected <;> rfl
    | cons a1 l =>
      simp only [List.cons_append, List.cons.injEq] at h
      obtain ⟨rfl, h⟩ := h
      have hc' : (c.step a0).2.2.connected = up (before ++ [(a0, (c.step a0).1)]) := by
        rw [up_append]
        cases a0 with
        | connect ok =>
          simp only [Client.step]
          cases (ok && c.isOpen) <;> rfl
        | close =>
          simp only [Client.step]
          cases hcc : c.connected <;> simp [hcc]
        | write v =>
          simp only [Client.step]
          cases hcc : c.connected <;> simp [hcc] at hc ⊢ <;> exact hc
      obtain ⟨t, h1, h2⟩ := ih (c.step a0).2.2 _ hc' l a r h
      refine ⟨t, by simpa [Client.run] using h1, ?_⟩
      simpa [Client.run, List.append_assoc] using h2

/-- **C159.**  In every history of calls of a new `ClientSocket`, a call of `Write` is refused
with "not connected" exactly when the last call of `Connect` or `Close` before it was not a
`Connect` that said yes. -/
theorem client_writes_when_connected (l : List Act) (a : Act) (r : List Act) :
    ∃ t, (Client.new.run (l ++ a :: r)).1[l.length]? = some t
      ∧ expected (l.zip (Client.new.run (l ++ a :: r)).1) a t := by
  obtain ⟨t, h1, h2⟩ := run_told (l ++ a :: r) Client.new [] rfl l a r rfl
  exact ⟨t, h1, by simpa using h2⟩

/-- The values of the writes that were not refused, in order. -/
def accepted : List (Act × Told) → List Val
  | [] => []
  | (.write v, .done) :: h => v :: accepted h
  | _ :: h => accepted h

/-- What the operating system was asked to write. -/
def written : List Sys → List Val
  | [] => []
  | .writes v :: h => v :: written h
  | _ :: h => written h

theorem written_append (a b : List Sys) : written (a ++ b) = written a ++ written b := by
  induction a with
  | nil => rfl
  | cons x a ih => cases x <;> simp [written, ih]

/-- Exactly the values of the writes that were not refused reach the operating system, in the
order of the calls. -/
theorem client_writes_reach (c : Client) (as : List Act) :
    written (c.run as).2.1 = accepted (as.zip (c.run as).1) := by
  induction as generalizing c with
  | nil => rfl
  | cons a as ih =>
    simp only [Client.run, List.zip_cons_cons, written_append, ih]
    cases a with
    | connect ok => simp [Client.step, written, accepted]
    | close =>
      simp only [Client.step]
      split <;> simp [written, accepted]
    | write v =>
      simp only [Client.step]
      split <;> simp [written, accepted]

example : (Client.new.run [.write (.int 1), .connect true, .write (.int 2), .close,
    .write (.int 3)]).1 = [.notConnected, .yes, .done, .done, .notConnected] := by decide

theorem closed_stays (as : List Act) (c : Client) (h : c.isOpen = false) :
    ∀ ok t, (Act.connect ok, t) ∈ as.zip (c.run as).1 → t = .no := by
  induction as generalizing c with
  | nil => intro ok t hm; simp at hm
  | cons a as ih =>
    intro ok t hm
    simp only [Client.run, List.zip_cons_cons, List.mem_cons] at hm
    rcases hm with hm | hm
    · simp only [Prod.mk.injEq] at hm
      obtain ⟨rfl, rfl⟩ := hm
      simp [Client.step, h]
    · refine ih (c.step a).2.2 ?_ ok t hm
      cases a <;> simp only [Client.step] <;> (try split) <;> simp [h]

/-- A client that was closed can not be connected again: after `Connect` (yes) and `Close`,
whatever follows, every `Connect` says no, even when the peer would take the connection. -/
theorem reconnect_refuted (as : List Act) :
    let told := (Client.new.run (.connect true :: .close :: as)).1
    ∀ ok t, (Act.connect ok, t) ∈ as.zip (told.drop 2) → t = .no := by
  intro told ok t hm
  have e : told.drop 2 = (Client.run { connected := false, isOpen := false } as).1 := by
    simp [told, Client.run, Client.step, Client.new]
  rw [e] at hm
  exact closed_stays as _ rfl ok t hm

/-- `ServerSocket::Bind` never says that the socket was bound. -/
theorem bind_told_refuted (bound : Bool) : serverBind bound = false := by
  cases bound <;> decide

end Verif.Net
