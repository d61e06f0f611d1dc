import Verif.Coll.Lemmas

/-!
# Moving an iterator in both directions

The rest of `Iterator` (Projects/Library/System/Collections/DoubleLinkedIterator.os and Iterator.os, which agree in these lines):
`current`, `hasPrevious`, `previous`, `peek` and `reset`; and that a list whose elements were put in with `push_back` and `push_front` is linked
in both directions.
-/

namespace Verif
namespace Coll

variable {α : Type}

/-! ## Model -/

/-- What a call on an iterator comes to: a value, nothing, the exceptions "index out of bounds" and "iterator not initialized", or the access
to a member of `null`. -/
inductive Step (α : Type) where
  | value (v : α) | bool (b : Bool) | done | outOfBounds | notInitialized | null
  deriving DecidableEq, Repr

/-- `Iterator::hasPrevious` (DoubleLinkedIterator.os 33-43). -/
def hasPrevious (h : Heap α) (it : Iter) : Except Err Bool :=
  if it.start.obj = none then .ok false
  else if it.current.obj = none then .ok it.start.obj.isSome
  else
    match prevOf h it.current with
    | .ok r => .ok r.obj.isSome
    | .error e => .error e

/-- `Iterator::previous` (DoubleLinkedIterator.os 81-89). -/
def previous (h : Heap α) (it : Iter) : Except Err (Iter × α) :=
  match hasPrevious h it with
  | .error e => .error e
  | .ok false => .error .outOfBounds
  | .ok true =>
    match prevOf h it.current with
    | .error e => .error e
    | .ok r =>
      match valueOf h (put it.current r) with
      | .ok v => .ok ({ it with current := put it.current r }, v)
      | .error e => .error e

/-- `while ( ... ) tmpItem = tmpItem.previous;`, as often as that. -/
def walkBack (h : Heap α) : Nat → Ref → Except Err Ref
  | 0, r => .ok r
  | n + 1, r =>
    match prevOf h r with
    | .ok r' => walkBack h n (put r r')
    | .error e => .error e

/-- The calls on an iterator. -/
inductive Move where
  | hasNext | next | hasPrevious | previous | current | reset | peek (offset : Int)
  deriving DecidableEq, Repr

/-- The outcome of a call that raises or accesses `null`. -/
def fails (e : Err) : Step α := match e with
  | .outOfBounds => .outOfBounds
  | _ => .null

/-- `Iterator::peek` (DoubleLinkedIterator.os 60-79): the loops compare the offset before they count it down, so that they make one round more
than the offset says. -/
def itPeek (h : Heap α) (it : Iter) (offset : Int) : Step α :=
  if it.current.obj = none ∧ it.start.obj = none then .notInitialized
  else
    let tmp := put {} it.current
    match (if offset > 0 then walk h (offset.toNat + 1) tmp
      else if offset < 0 then walkBack h ((-offset).toNat + 1) tmp else .ok tmp) with
    | .error e => fails e
    | .ok r =>
      match valueOf h r with
      | .ok v => .value v
      | .error e => fails e

/-- A call on an iterator: its outcome and the iterator afterwards (DoubleLinkedIterator.os 13-97). -/
def move (h : Heap α) (it : Iter) : Move → Step α × Iter
  | .hasNext => match Coll.hasNext h it with
    | .ok b => (.bool b, it)
    | .error e => (fails e, it)
  | .hasPrevious => match Coll.hasPrevious h it with
    | .ok b => (.bool b, it)
    | .error e => (fails e, it)
  | .next => match Coll.next h it with
    | .ok (it', v) => (.value v, it')
    | .error e => (fails e, it)
  | .previous => match Coll.previous h it with
    | .ok (it', v) => (.value v, it')
    | .error e => (fails e, it)
  | .current =>
    if it.current.obj = none then (.notInitialized, it)
    else match valueOf h it.current with
      | .ok v => (.value v, it)
      | .error e => (fails e, it)
  | .reset => (.done, { it with current := put it.current .null })
  | .peek offset => (itPeek h it offset, it)

/-- A sequence of calls. -/
def moves (h : Heap α) : Iter → List Move → List (Step α)
  | _, [] => []
  | it, m :: ms => (move h it m).1 :: moves h (move h it m).2 ms

/-- Filling a list: `true` stands for `push_back`, `false` for `push_front`. -/
def fill : List (Bool × α) → W α → Except Err (W α)
  | [], w => .ok w
  | (b, v) :: l, w =>
    match (if b then listPushBack w v else listPushFront w v) with
    | .ok w' => fill l w'
    | .error e => .error e

/-! ## Specification -/

/-- The sequence that results from filling. -/
def filled : List (Bool × α) → List α → List α
  | [], xs => xs
  | (b, v) :: l, xs => filled l (if b then xs ++ [v] else v :: xs)

/-- A position in a sequence: none yet, or an index. -/
abbrev Pos := Option Nat

/-- The index of the next element. -/
@[simp] def ahead : Pos → Nat
  | none => 0
  | some i => i + 1

/-- What a call should do at a position of `xs`. -/
def cursor (xs : List α) (p : Pos) : Move → Step α × Pos
  | .hasNext => (.bool (decide (ahead p < xs.length)), p)
  | .next =>
    match xs[ahead p]? with
    | some v => (.value v, some (ahead p))
    | none => (.outOfBounds, p)
  | .hasPrevious => (.bool (match p with | none => false | some i => decide (0 < i)), p)
  | .previous =>
    match p with
    | some (i + 1) => match xs[i]? with
      | some v => (.value v, some i)
      | none => (.outOfBounds, p)
    | _ => (.outOfBounds, p)
  | .current =>
    match p with
    | none => (.notInitialized, p)
    | some i => match xs[i]? with
      | some v => (.value v, p)
      | none => (.notInitialized, p)
  | .reset => (.done, none)
  | .peek offset =>
    match p with
    | none => (.notInitialized, p)
    | some i => match (if 0 ≤ (i : Int) + offset then xs[((i : Int) + offset).toNat]? else none) with
      | some v => (.value v, p)
      | none => (.outOfBounds, p)

/-- A sequence of calls. -/
def cursors (xs : List α) : Pos → List Move → List (Step α)
  | _, [] => []
  | p, m :: ms => (cursor xs p m).1 :: cursors xs (cursor xs p m).2 ms

/-- The calls for which the code agrees: not `hasPrevious` and `previous` before the first element is reached, and not `peek`, except of the
current element. -/
def CursorOk (xs : List α) : Pos → List Move → Prop
  | _, [] => True
  | p, m :: ms =>
    (match m with
      | .hasPrevious | .previous => p ≠ none ∨ xs = []
      | .peek k => k = 0 ∧ p ≠ none
      | _ => True) ∧ CursorOk xs (cursor xs p m).2 ms

/-! ## Items linked in both directions -/

/-- The first item has `p` in front of it, and each further item the one before. -/
def Linked (h : Heap α) : Option Nat → List Nat → Prop
  | _, [] => True
  | p, a :: as => ∃ n, h[a]? = some n ∧ n.prev.obj = p ∧ (p ≠ none → n.prev.isRef = true) ∧ Linked h (some a) as

theorem Linked.frame {h h' : Heap α} : ∀ {p as}, Linked h p as →
    (∀ a ∈ as, ∀ n, h[a]? = some n → ∃ n', h'[a]? = some n' ∧ n'.prev = n.prev) → Linked h' p as
  | _, [], _, _ => trivial
  | p, a :: as, ⟨n, hn, h1, h2, h3⟩, hf => by
    obtain ⟨n', hn', hp⟩ := hf a (by simp) n hn
    exact ⟨n', hn', by rw [hp]; exact h1, by rw [hp]; exact h2, h3.frame fun b hb => hf b (List.mem_cons_of_mem _ hb)⟩

theorem Linked.append {h : Heap α} : ∀ {p as} {b c : Nat}, Linked h p (as ++ [b]) → Linked h (some b) [c] →
    Linked h p (as ++ [b] ++ [c])
  | _, [], b, c, ⟨n, hn, h1, h2, _⟩, hc => ⟨n, hn, h1, h2, hc⟩
  | _, a :: as, b, c, ⟨n, hn, h1, h2, h3⟩, hc => ⟨n, hn, h1, h2, Linked.append h3 hc⟩

theorem linked_get {h : Heap α} : ∀ {p as} {i a : Nat}, Linked h p as → as[i]? = some a →
    ∃ n, h[a]? = some n ∧ n.prev.obj = (match i with | 0 => p | j + 1 => as[j]?) ∧
      (n.prev.obj ≠ none → n.prev.isRef = true)
  | p, b :: as, 0, a, ⟨n, hn, h1, h2, h3⟩, ha => by
    simp only [List.getElem?_cons_zero, Option.some.injEq] at ha
    subst ha
    exact ⟨n, hn, h1, fun hne => h2 (by rw [← h1]; exact hne)⟩
  | p, b :: as, i + 1, a, ⟨n, hn, h1, h2, h3⟩, ha => by
    simp only [List.getElem?_cons_succ] at ha
    obtain ⟨n', hn', g1, g2⟩ := linked_get h3 ha
    refine ⟨n', hn', ?_, g2⟩
    rw [g1]
    cases i <;> simp

theorem seg_get {h : Heap α} : ∀ {r as xs e} {i a : Nat}, Seg h r as xs e → as[i]? = some a →
    ∃ n x, h[a]? = some n ∧ xs[i]? = some x ∧ n.value = x ∧
      n.next = (match as[i + 1]? with | some b => .to b | none => e)
  | r, b :: as, x :: xs, e, 0, a, ⟨hr, n, hn, hv, hs⟩, ha => by
    simp only [List.getElem?_cons_zero, Option.some.injEq] at ha
    subst ha
    refine ⟨n, x, hn, rfl, hv, ?_⟩
    cases as with
    | nil => cases xs with
      | nil => exact hs
      | cons => cases hs
    | cons c as => cases xs with
      | nil => cases hs
      | cons => exact hs.1
  | r, b :: as, x :: xs, e, i + 1, a, ⟨hr, n, hn, hv, hs⟩, ha => by
    obtain ⟨n', x', h1, h2, h3, h4⟩ := seg_get (i := i) hs (by simpa using ha)
    exact ⟨n', x', h1, by simpa using h2, h3, by simpa using h4⟩

/-- The list holds `xs`, linked in both directions. -/
def LRep (w : W α) (xs : List α) : Prop :=
  ∃ as e, Seg w.heap w.first as xs e ∧ e.obj = none ∧ e.isRef = false ∧ as.Nodup ∧ w.size = xs.length ∧
    w.last = lastRef as ∧ Linked w.heap none as

theorem lrep_empty : LRep ({} : W α) [] := ⟨[], {}, rfl, rfl, rfl, by simp, rfl, rfl, trivial⟩

theorem LRep.holds {w : W α} {xs : List α} (h : LRep w xs) : Rep w xs := by
  obtain ⟨as, e, h1, h2, _, h3, h4, h5, _⟩ := h
  exact ⟨as, .of_seg h1 h2 h3 h4, fun _ => h5⟩

theorem lrep_pushBack {w : W α} {xs : List α} (h : LRep w xs) (v : α) :
    ∃ w', listPushBack w v = .ok w' ∧ LRep w' (xs ++ [v]) := by
  by_cases hne : xs = []
  · subst hne
    obtain ⟨as, e, h1, h2, h2', h3, h4, h5, h6⟩ := h
    have has : as = [] := by cases as with | nil => rfl | cons => cases h1
    subst has
    have hl : w.last = {} := h5
    rw [listPushBack]
    have hz : w.size = 0 := by simpa using h4
    simp only [hz, if_true, setPrev_some (alloc_new w.heap v), hl]
    refine ⟨_, rfl, [w.heap.length], {}, seg_setPrev (seg_new _ _) (alloc_new _ _) _, rfl, rfl, by simp, by simp, by simp, ?_⟩
    refine ⟨⟨{}, {}, v⟩, ?_, rfl, by simp, trivial⟩
    rw [List.getElem?_set_self (by simp [length_alloc])]
    rfl
  · obtain ⟨ys, y, rfl⟩ := exists_snoc hne
    have hrep := h.holds
    obtain ⟨as, e, s1, s2, s2', s3, s4, s5, s6⟩ := h
    obtain ⟨bs, b, rfl⟩ := exists_snoc (show as ≠ [] by rintro rfl; cases ys <;> cases s1)
    have h1 : Holds w (bs ++ [b]) (ys ++ [y]) := .of_seg s1 s2 s3 s4
    obtain ⟨hs3, n, hn, hv, hne'⟩ := s1.snoc
    have hb : b ∉ bs := by
      rw [List.nodup_append] at s3
      intro hb
      exact s3.2.2 b hb b (by simp) rfl
    have hz : w.size ≠ 0 := by rw [s4]; simp; omega
    have hl : w.last = .to b := by rw [s5]; simp
    obtain ⟨g1, g2⟩ := seg_pushBack (v := v) h1 hn hb
    have hlt : b < w.heap.length := (List.getElem?_eq_some_iff.1 hn).1
    have hnew : ((alloc w.heap v).set b { n with next := .to w.heap.length })[w.heap.length]? = some ⟨{}, {}, v⟩ := by
      rw [List.getElem?_set_ne (by omega), alloc_new]
    rw [listPushBack]
    simp only [if_neg hz, hl, g1, setPrev_some hnew]
    refine ⟨_, rfl, bs ++ [b] ++ [w.heap.length], {}, seg_setPrev g2 hnew _, rfl, rfl, nodup_snoc s3 h1.fresh, ?_,
      (lastRef_snoc _ _).symm, ?_⟩
    · simp only [s4]; simp; omega
    · refine Linked.append (s6.frame ?_) ?_
      · intro a ha m hm
        have halt : a < w.heap.length := (List.getElem?_eq_some_iff.1 hm).1
        rw [List.getElem?_set_ne (by omega)]
        by_cases hab : b = a
        · subst hab
          rw [hn] at hm
          simp only [Option.some.injEq] at hm
          subst hm
          refine ⟨_, List.getElem?_set_self (by rw [length_alloc]; omega), rfl⟩
        · rw [List.getElem?_set_ne hab, alloc, List.getElem?_append_left halt]
          exact ⟨m, hm, rfl⟩
      · refine ⟨_, List.getElem?_set_self ?_, rfl, fun _ => rfl, trivial⟩
        rw [List.length_set, length_alloc]; omega

theorem lrep_pushFront {w : W α} {xs : List α} (h : LRep w xs) (v : α) :
    ∃ w', listPushFront w v = .ok w' ∧ LRep w' (v :: xs) := by
  obtain ⟨as, e, s1, s2, s2', s3, s4, s5, s6⟩ := h
  rw [listPushFront]
  cases xs with
  | nil =>
    have has : as = [] := by cases as with | nil => rfl | cons => cases s1
    subst has
    have hz : w.size = 0 := by simpa using s4
    simp only [hz, if_true]
    exact ⟨_, rfl, [w.heap.length], {}, seg_new _ _, rfl, rfl, by simp, by simp, by simp,
      ⟨_, alloc_new _ _, rfl, by simp, trivial⟩⟩
  | cons x xs =>
    have hz : ¬ w.size = 0 := by rw [s4]; simp; omega
    cases as with
    | nil => cases s1
    | cons a as =>
      have h1 : Holds w (a :: as) (x :: xs) := .of_seg s1 s2 s3 s4
      have hf : w.first = .to a := s1.1
      obtain ⟨g1, g2⟩ := h1.push v w.last
      have hpush := (seg_push (h := w.heap) (r := w.first) (as := a :: as) (xs := x :: xs) (e := e) (by rw [hf]; rw [hf] at s1; exact s1) v).2
      obtain ⟨hr, n, hn, hv, hs⟩ := s1
      have hlt : a < w.heap.length := (List.getElem?_eq_some_iff.1 hn).1
      have hn2 : ((alloc w.heap v).set w.heap.length ⟨put {} w.first, {}, v⟩)[a]? = some n := by
        rw [List.getElem?_set_ne (by omega), alloc, List.getElem?_append_left hlt]; exact hn
      rw [hf] at g1 hn2 hpush
      simp only [if_neg hz, hf, g1, setPrev_some hn2]
      have hnd : (w.heap.length :: a :: as).Nodup := g2.nodup
      refine ⟨_, rfl, _, e, seg_setPrev hpush hn2 _, s2, s2', hnd, by simp [s4], ?_, ?_⟩
      · rw [s5, lastRef_cons w.heap.length (by simp)]
      · obtain ⟨n0, hn0, p1, p2, p3⟩ := s6
        rw [hn] at hn0
        simp only [Option.some.injEq] at hn0
        subst hn0
        refine ⟨⟨put {} (.to a), {}, v⟩, ?_, rfl, by simp, ?_⟩
        · rw [List.getElem?_set_ne (by omega), List.getElem?_set_self (by rw [length_alloc]; omega)]
        · refine ⟨_, List.getElem?_set_self (by rw [List.length_set, length_alloc]; omega), rfl, fun _ => rfl, p3.frame ?_⟩
          intro c hc m hm
          have hclt : c < w.heap.length := (List.getElem?_eq_some_iff.1 hm).1
          have hca : a ≠ c := by
            rintro rfl
            rw [List.nodup_cons] at s3
            exact s3.1 hc
          rw [List.getElem?_set_ne hca, List.getElem?_set_ne (by omega), alloc, List.getElem?_append_left hclt]
          exact ⟨m, hm, rfl⟩

theorem fill_lrep : ∀ (l : List (Bool × α)) {w : W α} {xs : List α}, LRep w xs →
    ∃ w', fill l w = .ok w' ∧ LRep w' (filled l xs)
  | [], w, xs, h => ⟨w, rfl, h⟩
  | (true, v) :: l, w, xs, h => by
    obtain ⟨w1, h1, h2⟩ := lrep_pushBack h v
    simp only [fill, if_true, h1, filled]
    exact fill_lrep l h2
  | (false, v) :: l, w, xs, h => by
    obtain ⟨w1, h1, h2⟩ := lrep_pushFront h v
    simp only [fill, h1, filled]
    exact fill_lrep l h2

/-! ## The iterator -/

/-- The iterator is at that position. -/
def At (w : W α) (as : List Nat) (xs : List α) (it : Iter) : Pos → Prop
  | none => it.start = iterStart w ∧ it.current.obj = none
  | some i => it.start = iterStart w ∧ ∃ a, as[i]? = some a ∧ it.current = .to a
where iterStart (w : W α) : Ref := (iter w.first).start

theorem prevOf_to {h : Heap α} {a : Nat} {n : Node α} (hn : h[a]? = some n) : prevOf h (.to a) = .ok n.prev := by
  rw [prevOf, node_to hn]

theorem ref_eq {r : Ref} {a : Nat} (h1 : r.obj = some a) (h2 : r.isRef = true) : r = .to a := by
  cases r; simp_all [Ref.to]

/-- Where the iterator starts. -/
def startOf : List Nat → Ref
  | [] => ⟨none, false⟩
  | a :: _ => .to a

theorem start_eq {w : W α} {as : List Nat} {xs : List α} {e : Ref} (s1 : Seg w.heap w.first as xs e) (he : e.obj = none) :
    At.iterStart w = startOf as := by
  cases as with
  | nil => cases xs with
    | nil =>
      have : w.first = e := s1
      rw [At.iterStart, this, iter]; simp [he, put, startOf]
    | cons => cases s1
  | cons a as => cases xs with
    | nil => cases s1
    | cons x xs => rw [At.iterStart, s1.1]; rfl

/-- One call: the outcome is the specified one, and so is the position afterwards. -/
theorem move_sim {w : W α} {as : List Nat} {xs : List α} {e : Ref} (s1 : Seg w.heap w.first as xs e) (he : e.obj = none)
    (s6 : Linked w.heap none as) {it : Iter} {p : Pos} (hp : At w as xs it p) {m : Move} {ms : List Move}
    (hok : CursorOk xs p (m :: ms)) :
    (move w.heap it m).1 = (cursor xs p m).1 ∧ At w as xs (move w.heap it m).2 (cursor xs p m).2 := by
  have hlen := s1.length
  have hst : it.start = At.iterStart w := by cases p <;> exact hp.1
  have hstart := start_eq s1 he
  cases p with
  | none =>
    obtain ⟨-, hc⟩ := hp
    cases as with
    | nil =>
      have hxs : xs = [] := by cases xs with | nil => rfl | cons => cases s1
      subst hxs
      have hso : it.start.obj = none := by rw [hst, hstart]; rfl
      cases m with
      | hasNext => exact ⟨by simp [move, cursor, Coll.hasNext, hso], by simp [move, cursor, Coll.hasNext, hso]; exact ⟨hst, hc⟩⟩
      | next => exact ⟨by simp [move, cursor, Coll.next, Coll.hasNext, hso, fails], by simp [move, cursor, Coll.next, Coll.hasNext, hso]; exact ⟨hst, hc⟩⟩
      | hasPrevious => exact ⟨by simp [move, cursor, Coll.hasPrevious, hso], by simp [move, cursor, Coll.hasPrevious, hso]; exact ⟨hst, hc⟩⟩
      | previous => exact ⟨by simp [move, cursor, Coll.previous, Coll.hasPrevious, hso, fails], by simp [move, cursor, Coll.previous, Coll.hasPrevious, hso]; exact ⟨hst, hc⟩⟩
      | current => exact ⟨by simp [move, cursor, hc], by simp [move, cursor, hc]; exact ⟨hst, hc⟩⟩
      | reset => exact ⟨rfl, hst, rfl⟩
      | peek k => exact absurd hok.1.2 (by simp)
    | cons a as =>
      cases xs with
      | nil => cases s1
      | cons x xs =>
        have hso : it.start = .to a := by rw [hst, hstart]; rfl
        obtain ⟨hr, n, hn, hv, hs⟩ := s1
        have hh : Coll.hasNext w.heap it = .ok true := by simp [Coll.hasNext, hso, hc, Ref.to]
        cases m with
        | hasNext => exact ⟨by simp [move, cursor, hh], by simp [move, cursor, hh]; exact ⟨hst, hc⟩⟩
        | next =>
          have hx : Coll.next w.heap it = .ok (⟨.to a, .to a⟩, x) := by
            rw [Coll.next, hh]
            simp only [if_pos hc, hso, put_to, valueOf_to hn, hv]
          exact ⟨by simp [move, cursor, hx], by simp [move, cursor, hx]; exact ⟨by rw [hstart]; rfl, a, rfl, rfl⟩⟩
        | hasPrevious => exact absurd hok.1 (by simp)
        | previous => exact absurd hok.1 (by simp)
        | current => exact ⟨by simp [move, cursor, hc], by simp [move, cursor, hc]; exact ⟨hst, hc⟩⟩
        | reset => exact ⟨rfl, hst, rfl⟩
        | peek k => exact absurd hok.1.2 (by simp)
  | some i =>
    obtain ⟨-, a, ha, hc⟩ := hp
    obtain ⟨n, x, hn, hx, hv, hnext⟩ := seg_get s1 ha
    obtain ⟨n', hn', hprev, hisref⟩ := linked_get s6 ha
    rw [hn] at hn'
    simp only [Option.some.injEq] at hn'
    subst hn'
    have hne : ¬ it.current.obj = none := by rw [hc]; simp [Ref.to]
    have hso : ¬ it.start.obj = none := by
      rw [hst, hstart]
      cases as with
      | nil => simp at ha
      | cons => simp [Ref.to, startOf]
    have hat : At w as xs it (some i) := ⟨hst, a, ha, hc⟩
    have hil : i < xs.length := (List.getElem?_eq_some_iff.1 hx).1
    have hh : Coll.hasNext w.heap it = .ok n.next.obj.isSome := by
      rw [Coll.hasNext, if_neg hso, if_neg hne, hc, nextOf_to hn]
    have hhp : Coll.hasPrevious w.heap it = .ok n.prev.obj.isSome := by
      rw [Coll.hasPrevious, if_neg hso, if_neg hne, hc, prevOf_to hn]
    cases m with
    | hasNext =>
      refine ⟨?_, by simp [move, cursor, hh]; exact hat⟩
      simp only [move, hh, cursor, ahead]
      congr 1
      rw [hnext]
      by_cases hb : i + 1 < xs.length
      · rw [List.getElem?_eq_getElem (by omega)]; simp [hb, Ref.to]
      · rw [List.getElem?_eq_none (by omega)]; simp [hb, he]
    | next =>
      by_cases hb : i + 1 < xs.length
      · have hb' : as[i + 1]? = some as[i + 1] := List.getElem?_eq_getElem (by omega)
        obtain ⟨n2, x2, hn2, hx2, hv2, -⟩ := seg_get s1 hb'
        have hnx : n.next = .to as[i + 1] := by rw [hnext, hb']
        have hgo : Coll.next w.heap it = .ok (⟨it.start, .to as[i + 1]⟩, x2) := by
          rw [Coll.next, hh, hnx]
          simp only [Ref.to, Option.isSome_some]
          rw [if_neg hne, hc, nextOf_to hn, hnx]
          simp only [put_to, valueOf_to hn2, hv2]
          rfl
        simp only [move, hgo, cursor, ahead, hx2]
        exact ⟨trivial, hst, _, hb', rfl⟩
      · have hb' : as[i + 1]? = none := List.getElem?_eq_none (by omega)
        have hnx : n.next = e := by rw [hnext, hb']
        have hgo : Coll.next w.heap it = .error .outOfBounds := by
          rw [Coll.next, hh, hnx, he]
          rfl
        have hxn : xs[i + 1]? = none := List.getElem?_eq_none (by omega)
        simp only [move, hgo, cursor, ahead, hxn, fails]
        exact ⟨trivial, hat⟩
    | hasPrevious =>
      refine ⟨?_, by simp [move, cursor, hhp]; exact hat⟩
      simp only [move, hhp, cursor]
      congr 1
      rw [hprev]
      cases i with
      | zero => rfl
      | succ j =>
        show as[j]?.isSome = _
        rw [List.getElem?_eq_getElem (by omega)]; simp
    | previous =>
      cases i with
      | zero =>
        have hgo : Coll.previous w.heap it = .error .outOfBounds := by
          rw [Coll.previous, hhp, hprev]; rfl
        simp only [move, hgo, cursor, fails]
        exact ⟨trivial, hat⟩
      | succ j =>
        have hj : as[j]? = some as[j] := List.getElem?_eq_getElem (by omega)
        have hpv : n.prev.obj = some as[j] := by rw [hprev, ← hj]
        have hpr : n.prev = .to as[j] := ref_eq hpv (hisref (by rw [hpv]; simp))
        obtain ⟨n2, x2, hn2, hx2, hv2, -⟩ := seg_get s1 hj
        have hgo : Coll.previous w.heap it = .ok (⟨it.start, .to as[j]⟩, x2) := by
          rw [Coll.previous, hhp, hpv]
          simp only [Option.isSome_some]
          rw [hc, prevOf_to hn, hpr]
          simp only [put_to, valueOf_to hn2, hv2]
        simp only [move, hgo, cursor, hx2]
        exact ⟨trivial, hst, _, hj, rfl⟩
    | current =>
      have hgo : move w.heap it .current = (.value x, it) := by
        simp only [move]
        rw [if_neg hne, hc, valueOf_to hn, hv]
      rw [hgo]
      simp only [cursor, hx]
      exact ⟨trivial, hat⟩
    | reset => exact ⟨rfl, hst, rfl⟩
    | peek k =>
      have hk : k = 0 := hok.1.1
      subst hk
      have hcur : cursor xs (some i) (.peek 0) = (.value x, some i) := by simp [cursor, hx]
      rw [hcur]
      refine ⟨?_, hat⟩
      simp only [move, itPeek]
      rw [if_neg (by simp [hne])]
      simp [hc, put_to, valueOf_to hn, hv]

/-- C133: on a list that was filled with `push_back` and `push_front`, any sequence of calls on an iterator behaves like a position in the
sequence of the elements that is moved one forth and one back: `next` and `previous` give the neighbours, `hasNext` and `hasPrevious` tell
whether there is one, `current` gives the element, `reset` starts again.  Missing: `hasPrevious` and `previous` before the first element, and
`peek` of other elements, for which it is false. -/
theorem iterator_is_cursor_partial (l : List (Bool × α)) (ms : List Move) (hok : CursorOk (filled l []) none ms) :
    ∃ w, fill l {} = .ok w ∧ moves w.heap (iter w.first) ms = cursors (filled l []) none ms := by
  obtain ⟨w, hw, as, e, s1, s2, -, -, -, -, s6⟩ := fill_lrep l (lrep_empty (α := α))
  refine ⟨w, hw, ?_⟩
  have key : ∀ (ms : List Move) (it : Iter) (p : Pos), At w as (filled l []) it p → CursorOk (filled l []) p ms →
      moves w.heap it ms = cursors (filled l []) p ms := by
    intro ms
    induction ms with
    | nil => intros; rfl
    | cons m ms ih =>
      intro it p hat hok
      obtain ⟨h1, h2⟩ := move_sim s1 s2 s6 hat hok
      simp only [moves, cursors, h1]
      rw [ih _ _ h2 hok.2]
  exact key ms _ none ⟨rfl, rfl⟩ hok

example : CursorOk (filled [(true, 2), (true, 3), (false, 1)] []) none [.hasNext, .next, .next, .previous, .hasPrevious, .previous, .next, .current, .reset, .next] ∧
    cursors (filled [(true, 2), (true, 3), (false, 1)] []) none [.hasNext, .next, .next, .previous, .hasPrevious, .previous, .next, .current, .reset, .next] =
      [.bool true, .value 1, .value 2, .value 1, .bool false, .outOfBounds, .value 2, .value 2, .done, .value 1] := by
  refine ⟨?_, by decide⟩
  simp [CursorOk, cursor, filled]

theorem walk_get {h : Heap α} {r : Ref} {as : List Nat} {xs : List α} {e : Ref} (s1 : Seg h r as xs e) : ∀ (k i a b : Nat),
    as[i]? = some a → as[i + k]? = some b → walk h k (.to a) = .ok (.to b) := by
  intro k
  induction k with
  | zero => intro i a b ha hb; rw [Nat.add_zero, ha] at hb; cases hb; rfl
  | succ k ih =>
    intro i a b ha hb
    have hlt : i + (k + 1) < as.length := (List.getElem?_eq_some_iff.1 hb).1
    have hc : as[i + 1]? = some as[i + 1] := List.getElem?_eq_getElem (by omega)
    obtain ⟨n, x, hn, -, -, hnext⟩ := seg_get s1 ha
    rw [walk, nextOf_to hn, hnext, hc]
    exact ih (i + 1) _ b hc (by rw [← hb]; congr 1; omega)

/-- Refuted: `peek(k)` does not look `k` elements ahead but one more, at every position of every list and for every `k > 0` (if the list is long
enough). -/
theorem peek_refuted (l : List (Bool × α)) (i k : Nat) (hk : 0 < k) (hi : i + k + 1 < (filled l []).length) :
    ∃ w, fill l {} = .ok w ∧
      (moves w.heap (iter w.first) (List.replicate (i + 1) .next ++ [.peek k])).getLast? =
        some (.value (filled l [])[i + k + 1]) ∧
      (cursors (filled l []) none (List.replicate (i + 1) .next ++ [.peek k])).getLast? =
        some (.value (filled l [])[i + k]) := by
  obtain ⟨w, hw, as, e, s1, s2, -, -, -, -, s6⟩ := fill_lrep l (lrep_empty (α := α))
  have hlen := s1.length
  refine ⟨w, hw, ?_⟩
  -- after `j` steps the position is `j`
  have key : ∀ (j : Nat) (it : Iter) (p : Pos), At w as (filled l []) it p →
      ahead p + j = i + 1 →
      (moves w.heap it (List.replicate j .next ++ [.peek k])).getLast? = some (.value (filled l [])[i + k + 1]) ∧
      (cursors (filled l []) p (List.replicate j .next ++ [.peek k])).getLast? = some (.value (filled l [])[i + k]) := by
    intro j
    induction j with
    | zero =>
      intro it p hat hp
      cases p with
      | none => simp [ahead] at hp
      | some q =>
        have hq : q = i := by simpa [ahead] using hp
        subst hq
        obtain ⟨-, a, ha, hc⟩ := hat
        have hb : as[q + (k + 1)]? = some as[q + (k + 1)] := List.getElem?_eq_getElem (by omega)
        obtain ⟨n, x, hn, hx, hv, -⟩ := seg_get s1 hb
        have hx' : (filled l [])[q + k + 1] = x := by
          have := List.getElem?_eq_getElem hi
          rw [show q + (k + 1) = q + k + 1 by omega, this] at hx
          exact Option.some.inj hx
        constructor
        · simp only [List.replicate_zero, List.nil_append, moves, List.getLast?_singleton, move, itPeek]
          rw [if_neg (by rw [hc]; simp [Ref.to])]
          have hk' : (k : Int) > 0 := by omega
          simp only [if_pos hk', Int.toNat_natCast, hc, put_to]
          rw [walk_get s1 (k + 1) q a _ ha hb]
          simp only [valueOf_to hn, hv, hx']
        · simp only [List.replicate_zero, List.nil_append, cursors, List.getLast?_singleton, cursor]
          rw [if_pos (by omega), show ((q : Int) + (k : Int)).toNat = q + k by omega, List.getElem?_eq_getElem (by omega)]
    | succ j ih =>
      intro it p hat hp
      have hok : CursorOk (filled l []) p [.next] := ⟨trivial, trivial⟩
      obtain ⟨h1, h2⟩ := move_sim s1 s2 s6 hat hok
      have hpos : (cursor (filled l []) p .next).2 = some (ahead p) := by
        simp only [cursor]
        rw [List.getElem?_eq_getElem (by omega)]
      rw [hpos] at h2
      have := ih _ _ h2 (by simp only [ahead] at hp ⊢; omega)
      have hl1 : ∀ {β : Type} (y : β) (l : List β) (z : β), l.getLast? = some z → (y :: l).getLast? = some z := by
        intro β y l z hz
        rw [getLast_cons' y (by rintro rfl; cases hz)]; exact hz
      simp only [List.replicate_succ, List.cons_append, moves, cursors]
      rw [hpos]
      exact ⟨hl1 _ _ _ this.1, hl1 _ _ _ this.2⟩
  exact key (i + 1) _ none ⟨rfl, rfl⟩ (by simp [ahead])

/-- `peek(1)` at the first of four elements gives the third. -/
example : (fill [(true, 1), (true, 2), (true, 3), (true, 4)] ({} : W Nat)).toOption.map
    (fun w => moves w.heap (iter w.first) [.next, .peek 1]) = some [.value 1, .value 3] := by decide

/-- Refuted: an iterator that has not moved yet says that there is a previous element, and going there accesses `null`, in every list that holds
anything. -/
theorem previous_at_start_refuted (l : List (Bool × α)) (hne : filled l [] ≠ []) :
    ∃ w, fill l {} = .ok w ∧ moves w.heap (iter w.first) [.hasPrevious, .previous] = [.bool true, .null] ∧
      cursors (filled l []) none [.hasPrevious, .previous] = [.bool false, .outOfBounds] := by
  obtain ⟨w, hw, as, e, s1, -⟩ := fill_lrep l (lrep_empty (α := α))
  refine ⟨w, hw, ?_, rfl⟩
  obtain ⟨x, xs, hx⟩ := List.exists_cons_of_ne_nil hne
  rw [hx] at s1
  cases as with
  | nil => cases s1
  | cons a as =>
    have hf : w.first = .to a := s1.1
    simp [moves, move, hf, iter, put, Ref.to, Coll.hasPrevious, Coll.previous, prevOf, node, fails]

/-! ## Items linked in one direction -/

/-- Putting elements into a `Vector`. -/
inductive VecOp (α : Type) where
  | back (v : α) | front (v : α) | insert (index : Int) (v : α)
  deriving DecidableEq, Repr

/-- Filling a `Vector`. -/
def vecFill : List (VecOp α) → W α → Except Err (W α)
  | [], w => .ok w
  | op :: l, w =>
    match (match op with
      | .back v => pushBack w v
      | .front v => vectorPushFront w v
      | .insert i v => vectorInsert w i v) with
    | .ok w' => vecFill l w'
    | .error e => .error e

/-- No item refers to a previous one. -/
def NoPrev (h : Heap α) : Prop := ∀ n ∈ h, n.prev.obj = none

theorem noPrev_alloc {h : Heap α} (hn : NoPrev h) (v : α) : NoPrev (alloc h v) := by
  intro n hm
  rw [alloc, List.mem_append] at hm
  rcases hm with hm | hm
  · exact hn n hm
  · simp only [List.mem_singleton] at hm; subst hm; rfl

theorem noPrev_setNext {h h' : Heap α} {r v : Ref} (hn : NoPrev h) (hs : setNext h r v = .ok h') : NoPrev h' := by
  rw [setNext] at hs
  cases hr : r.obj with
  | none => simp [hr] at hs
  | some a =>
    simp only [hr] at hs
    cases ha : h[a]? with
    | none => simp [ha] at hs
    | some m =>
      simp only [ha, Except.ok.injEq] at hs
      subst hs
      intro n hm
      rcases List.mem_or_eq_of_mem_set hm with hm | hm
      · exact hn n hm
      · subst hm; exact hn m (List.mem_of_getElem? ha)

theorem noPrev_op {w w' : W α} (hn : NoPrev w.heap) : ∀ {op : VecOp α}, (match op with
      | .back v => pushBack w v
      | .front v => vectorPushFront w v
      | .insert i v => vectorInsert w i v) = .ok w' → NoPrev w'.heap
  | .back v, h => by
    simp only [pushBack] at h
    by_cases hz : w.size = 0
    · simp only [hz, if_true, Except.ok.injEq] at h
      subst h; exact noPrev_alloc hn v
    · simp only [hz, if_false] at h
      cases hs : setNext (alloc w.heap v) w.last (.to w.heap.length) with
      | error e => simp [hs] at h
      | ok h1 =>
        simp only [hs, Except.ok.injEq] at h
        subst h; exact noPrev_setNext (noPrev_alloc hn v) hs
  | .front v, h => by
    simp only [vectorPushFront] at h
    cases hs : setNext (alloc w.heap v) (.to w.heap.length) w.first with
    | error e => simp [hs] at h
    | ok h1 =>
      simp only [hs, Except.ok.injEq] at h
      subst h; exact noPrev_setNext (noPrev_alloc hn v) hs
  | .insert i v, h => by
    simp only [vectorInsert] at h
    split at h
    · cases h
    · split at h
      · simp only [Except.ok.injEq] at h
        subst h; exact noPrev_alloc hn v
      · split at h
        · cases hs : setNext (alloc w.heap v) (.to w.heap.length) w.first with
          | error e => simp [hs] at h
          | ok h1 =>
            simp only [hs, Except.ok.injEq] at h
            subst h; exact noPrev_setNext (noPrev_alloc hn v) hs
        · split at h
          · cases hs : setNext (alloc w.heap v) w.last (.to w.heap.length) with
            | error e => simp [hs] at h
            | ok h1 =>
              simp only [hs, Except.ok.injEq] at h
              subst h; exact noPrev_setNext (noPrev_alloc hn v) hs
          · cases hw : walk (alloc w.heap v) (i - 1).toNat (put {} w.first) with
            | error e => simp only [hw] at h; cases h
            | ok tmp =>
              simp only [hw] at h
              cases hx : nextOf (alloc w.heap v) tmp with
              | error e => simp [hx] at h
              | ok r =>
                simp only [hx] at h
                cases hs : setNext (alloc w.heap v) (.to w.heap.length) r with
                | error e => simp [hs] at h
                | ok h1 =>
                  simp only [hs] at h
                  cases hs2 : setNext h1 tmp (.to w.heap.length) with
                  | error e => simp [hs2] at h
                  | ok h2 =>
                    simp only [hs2, Except.ok.injEq] at h
                    subst h; exact noPrev_setNext (noPrev_setNext (noPrev_alloc hn v) hs) hs2

theorem vecFill_noPrev : ∀ (l : List (VecOp α)) {w w' : W α}, NoPrev w.heap → vecFill l w = .ok w' → NoPrev w'.heap
  | [], w, w', hn, h => by simp only [vecFill, Except.ok.injEq] at h; subst h; exact hn
  | op :: l, w, w', hn, h => by
    rw [vecFill.eq_def] at h
    simp only at h
    split at h
    · next w1 h1 => exact vecFill_noPrev l (noPrev_op hn h1) h
    · cases h

/-- Refuted: in a `Vector` an iterator cannot go back.  However the vector was filled and whatever was called before, `previous()` raises an
exception or accesses `null`. -/
theorem vector_previous_refuted (l : List (VecOp α)) (w : W α) (hl : vecFill l {} = .ok w) (ms : List Move) (i : Nat)
    (hi : ms[i]? = some .previous) :
    (moves w.heap (iter w.first) ms)[i]? = some .outOfBounds ∨ (moves w.heap (iter w.first) ms)[i]? = some .null := by
  have hn : NoPrev w.heap := vecFill_noPrev l (w := {}) (by intro n hm; cases hm) hl
  have key : ∀ (ms : List Move) (it : Iter) (i : Nat), ms[i]? = some .previous →
      (moves w.heap it ms)[i]? = some .outOfBounds ∨ (moves w.heap it ms)[i]? = some .null := by
    intro ms
    induction ms with
    | nil => intro it i hi; simp at hi
    | cons m ms ih =>
      intro it i hi
      cases i with
      | succ i => exact ih _ i (by simpa using hi)
      | zero =>
        simp only [List.getElem?_cons_zero, Option.some.injEq] at hi
        subst hi
        simp only [moves, List.getElem?_cons_zero, Option.some.injEq]
        rw [move]
        by_cases hs : it.start.obj = none
        · left; simp [Coll.previous, Coll.hasPrevious, hs, fails]
        · cases hc : it.current.obj with
          | none => right; simp [Coll.previous, Coll.hasPrevious, hs, hc, prevOf, node, fails, Option.isSome_iff_ne_none.2 hs]
          | some a =>
            cases ha : w.heap[a]? with
            | none => right; simp [Coll.previous, Coll.hasPrevious, hs, hc, prevOf, node, ha, fails]
            | some n =>
              left
              have := hn n (List.mem_of_getElem? ha)
              simp [Coll.previous, Coll.hasPrevious, hs, hc, prevOf, node, ha, fails, this]
  exact key ms _ i hi

/-- In a vector of three elements `previous()` at the third raises the exception. -/
example : (vecFill [.back 2, .back 3, .front 1] ({} : W Nat)).toOption.map
    (fun w => moves w.heap (iter w.first) [.next, .next, .next, .previous]) =
      some [.value 1, .value 2, .value 3, .outOfBounds] := by decide

end Coll
end Verif
