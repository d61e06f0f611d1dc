import Verif.Coll.Model

/-!
# Linked items as sequences

`Seg h r as xs e`: starting from the reference `r`, the items at the addresses `as` hold the values `xs` and the last of them
has `e` as its successor.  `Rep w xs`: the collection `w` holds the sequence `xs`.
-/

namespace Verif
namespace Coll

variable {α : Type}

/-- A chain of items. -/
def Seg (h : Heap α) : Ref → List Nat → List α → Ref → Prop
  | r, [], [], e => r = e
  | r, a :: as, x :: xs, e => r = .to a ∧ ∃ n, h[a]? = some n ∧ n.value = x ∧ Seg h n.next as xs e
  | _, _, _, _ => False

theorem Seg.length {h : Heap α} : ∀ {r as xs e}, Seg h r as xs e → as.length = xs.length
  | _, [], [], _, _ => rfl
  | _, _ :: _, _ :: _, _, ⟨_, _, _, _, hs⟩ => by simp [hs.length]

theorem Seg.lt {h : Heap α} : ∀ {r as xs e}, Seg h r as xs e → ∀ a ∈ as, a < h.length
  | _, a :: as, x :: xs, _, ⟨_, n, hn, _, hs⟩, b, hb => by
    rw [List.mem_cons] at hb
    rcases hb with rfl | hb
    · exact (List.getElem?_eq_some_iff.1 hn).1
    · exact hs.lt b hb

/-- A chain can be cut anywhere. -/
theorem seg_append {h : Heap α} : ∀ {r as bs xs ys e}, as.length = xs.length →
    (Seg h r (as ++ bs) (xs ++ ys) e ↔ ∃ m, Seg h r as xs m ∧ Seg h m bs ys e)
  | r, [], bs, [], ys, e, _ => by simp [Seg]
  | r, a :: as, bs, x :: xs, ys, e, hl => by
    simp only [List.cons_append, Seg]
    constructor
    · rintro ⟨hr, n, hn, hv, hs⟩
      obtain ⟨m, h1, h2⟩ := (seg_append (by simpa using hl)).1 hs
      exact ⟨m, ⟨hr, n, hn, hv, h1⟩, h2⟩
    · rintro ⟨m, ⟨hr, n, hn, hv, h1⟩, h2⟩
      exact ⟨hr, n, hn, hv, (seg_append (by simpa using hl)).2 ⟨m, h1, h2⟩⟩

/-- A chain depends on the values and successors of its own items only. -/
theorem Seg.frame {h h' : Heap α} : ∀ {r as xs e}, Seg h r as xs e →
    (∀ a ∈ as, ∀ n, h[a]? = some n → ∃ n', h'[a]? = some n' ∧ n'.next = n.next ∧ n'.value = n.value) → Seg h' r as xs e
  | _, [], [], _, hs, _ => hs
  | _, a :: as, x :: xs, _, ⟨hr, n, hn, hv, hs⟩, hf => by
    obtain ⟨n', h1, h2, h3⟩ := hf a (by simp) n hn
    exact ⟨hr, n', h1, h3.trans hv, by rw [h2]; exact hs.frame fun b hb => hf b (List.mem_cons_of_mem _ hb)⟩

theorem Seg.set {h : Heap α} {r as xs e} (hs : Seg h r as xs e) {a : Nat} (ha : a ∉ as) (n : Node α) : Seg (h.set a n) r as xs e := by
  refine hs.frame ?_
  intro b hb m hm
  refine ⟨m, ?_, rfl, rfl⟩
  rw [List.getElem?_set_ne]
  · exact hm
  · rintro rfl; exact ha hb

theorem Seg.append {h : Heap α} {r as xs e} (hs : Seg h r as xs e) (l : Heap α) : Seg (h ++ l) r as xs e := by
  refine hs.frame ?_
  intro b hb m hm
  refine ⟨m, ?_, rfl, rfl⟩
  rw [List.getElem?_append_left (hs.lt b hb)]
  exact hm

/-- The chain is determined by where it starts and ends and by its length. -/
theorem Seg.head {h : Heap α} {r as xs e} (hs : Seg h r as xs e) (hne : as ≠ []) : ∃ a, r = .to a := by
  cases as with
  | nil => exact absurd rfl hne
  | cons a as =>
    cases xs with
    | nil => cases hs
    | cons x xs => exact ⟨a, hs.1⟩

theorem put_to (r : Ref) (a : Nat) : put r (.to a) = .to a := rfl

/-- What a chain starts with is taken over by an assignment. -/
theorem Seg.put {h : Heap α} {r as xs e} (hs : Seg h r as xs e) (hne : as ≠ []) (q : Ref) : put q r = r := by
  obtain ⟨a, rfl⟩ := hs.head hne
  rfl

/-! ## The operations on a chain -/

theorem node_to {h : Heap α} {a : Nat} {n : Node α} (hn : h[a]? = some n) : node h (.to a) = .ok n := by simp [node, Ref.to, hn]

theorem nextOf_to {h : Heap α} {a : Nat} {n : Node α} (hn : h[a]? = some n) : nextOf h (.to a) = .ok n.next := by
  rw [nextOf, node_to hn]

theorem valueOf_to {h : Heap α} {a : Nat} {n : Node α} (hn : h[a]? = some n) : valueOf h (.to a) = .ok n.value := by
  rw [valueOf, node_to hn]

theorem nextOf_seg {h : Heap α} {a : Nat} {as : List Nat} {x : α} {xs : List α} {r e} (hs : Seg h r (a :: as) (x :: xs) e) :
    ∃ m, nextOf h r = .ok m ∧ Seg h m as xs e ∧ valueOf h r = .ok x := by
  obtain ⟨rfl, n, hn, hv, hs⟩ := hs
  exact ⟨n.next, nextOf_to hn, hs, by rw [valueOf_to hn, hv]⟩

/-- Going to the end of a chain ends at a reference. -/
theorem walk_seg {h : Heap α} : ∀ {as xs r m}, Seg h r as xs m → m.isRef = true → walk h as.length r = .ok m
  | [], [], r, m, hs, _ => by rw [show r = m from hs]; rfl
  | a :: as, x :: xs, r, m, hs, hm => by
    obtain ⟨m', h1, h2, _⟩ := nextOf_seg hs
    rw [List.length_cons, walk, h1]
    have : put r m' = m' := by
      cases as with
      | nil =>
        cases xs with
        | nil => rw [show m' = m from h2, put, if_pos hm]
        | cons => cases h2
      | cons b as => exact h2.put (by simp) r
    simp only [this]
    exact walk_seg h2 hm

theorem walk_seg' {h : Heap α} {as xs r} {b : Nat} {n : Nat} (hs : Seg h r as xs (.to b)) (hn : n = xs.length) :
    walk h n (put {} r) = .ok (.to b) := by
  have : put {} r = r := by
    cases as with
    | nil =>
      cases xs with
      | nil => rw [show r = .to b from hs]; rfl
      | cons => cases hs
    | cons a as => exact hs.put (by simp) _
  rw [hn, ← hs.length, this]
  exact walk_seg hs rfl

/-- Going beyond the end of a chain raises no exception: the last step stays where it is or ends at `null`. -/
theorem walk_ok {h : Heap α} : ∀ {as xs r m}, Seg h r as xs m → ∃ q, walk h as.length r = .ok q
  | [], [], r, m, _ => ⟨r, rfl⟩
  | [a], [x], r, m, hs => by
    obtain ⟨m', h1, h2, _⟩ := nextOf_seg hs
    exact ⟨put r m', by rw [List.length_singleton, walk, h1]; rfl⟩
  | a :: b :: as, x :: y :: xs, r, m, hs => by
    obtain ⟨m', h1, h2, _⟩ := nextOf_seg hs
    obtain ⟨q, hq⟩ := walk_ok h2
    refine ⟨q, ?_⟩
    rw [List.length_cons, walk, h1]
    simp only [h2.put (by simp) r]
    exact hq

theorem search_seg (eq : α → α → Bool) {h : Heap α} (v : α) : ∀ {as xs r m}, Seg h r as xs m → ∀ i : Int,
    search eq h v xs.length i r =
      .ok (match xs.findIdx? (fun x => eq x v) with | some k => i + k | none => -1)
  | [], [], r, m, hs, i => by simp [search]
  | a :: as, x :: xs, r, m, ⟨hr, n, hn, hv, hs⟩, i => by
    subst hr
    rw [List.length_cons, search]
    simp only [node_to hn, hv]
    rw [List.findIdx?_cons]
    by_cases he : eq x v = true
    · simp [he]
    · have hrest : search eq h v xs.length (i + 1) (put (.to a) n.next) = search eq h v xs.length (i + 1) n.next := by
        cases as with
        | nil =>
          cases xs with
          | nil => rfl
          | cons => cases hs
        | cons b as => rw [hs.put (by simp)]
      rw [if_neg he, hrest, search_seg eq v hs (i + 1), if_neg he]
      cases hf : xs.findIdx? (fun x => eq x v) with
      | none => simp
      | some k =>
        simp only [Option.map_some]
        congr 1
        push_cast
        omega

theorem toLastButOne_seg {h : Heap α} : ∀ {as : List Nat} {xs : List α} {r e : Ref} {b c : Nat} {y z : α} {n : Nat},
    Seg h r (as ++ [b, c]) (xs ++ [y, z]) e → e.obj = none → as.length = xs.length → as.length < n →
    toLastButOne h n r = .ok (.to b)
  | [], [], r, e, b, c, y, z, n + 1, hs, he, _, _ => by
    obtain ⟨m, h1, h2, _⟩ := nextOf_seg hs
    obtain ⟨m', h3, h4, _⟩ := nextOf_seg h2
    have hm' : m' = e := h4
    subst hm'
    rw [toLastButOne, h1]
    simp only [h3, he, if_true]
    rw [hs.1]
  | a :: as, x :: xs, r, e, b, c, y, z, n + 1, hs, he, hl, hn => by
    obtain ⟨m, h1, h2, _⟩ := nextOf_seg (as := as ++ [b, c]) (xs := xs ++ [y, z]) hs
    have hl' : as.length = xs.length := by simpa using hl
    rw [toLastButOne, h1]
    have : ∃ d, nextOf h m = .ok (.to d) := by
      cases as with
      | nil =>
        cases xs with
        | nil =>
          obtain ⟨m', h3, h4, _⟩ := nextOf_seg (as := [c]) (xs := [z]) h2
          exact ⟨c, by rw [h3, h4.1]⟩
        | cons => cases hl'
      | cons a' as =>
        cases xs with
        | nil => cases hl'
        | cons x' xs =>
          obtain ⟨m', h3, h4, _⟩ := nextOf_seg (as := as ++ [b, c]) (xs := xs ++ [y, z]) h2
          cases as with
          | nil =>
            cases xs with
            | nil => exact ⟨b, by rw [h3, h4.1]⟩
            | cons => simp at hl'
          | cons a'' as =>
            cases xs with
            | nil => simp at hl'
            | cons x'' xs => exact ⟨a'', by rw [h3, h4.1]⟩
    obtain ⟨d, hd⟩ := this
    have hd' : ¬ (Ref.to d).obj = none := by simp [Ref.to]
    simp only [hd, if_neg hd', h2.put (by simp) r]
    exact toLastButOne_seg h2 he hl' (by simpa using hn)

theorem setNext_some {h : Heap α} {a : Nat} {n : Node α} (hn : h[a]? = some n) (v : Ref) :
    setNext h (.to a) v = .ok (h.set a { n with next := put n.next v }) := by simp [setNext, Ref.to, hn]

theorem setPrev_some {h : Heap α} {a : Nat} {n : Node α} (hn : h[a]? = some n) (v : Ref) :
    setPrev h (.to a) v = .ok (h.set a { n with prev := put n.prev v }) := by simp [setPrev, Ref.to, hn]

theorem alloc_new (h : Heap α) (v : α) : (alloc h v)[h.length]? = some ⟨{}, {}, v⟩ := by simp [alloc]

theorem Seg.alloc {h : Heap α} {r as xs e} (hs : Seg h r as xs e) (v : α) : Seg (alloc h v) r as xs e := hs.append _

theorem length_alloc (h : Heap α) (v : α) : (alloc h v).length = h.length + 1 := by simp [Coll.alloc]

theorem Seg.snoc {h : Heap α} {r as xs e} {b : Nat} {y : α} (hs : Seg h r (as ++ [b]) (xs ++ [y]) e) :
    Seg h r as xs (.to b) ∧ ∃ n, h[b]? = some n ∧ n.value = y ∧ n.next = e := by
  have hl : as.length = xs.length := by have := hs.length; simpa using this
  obtain ⟨m, h1, h2⟩ := (seg_append hl).1 hs
  obtain ⟨rfl, n, hn, hv, he⟩ := h2
  exact ⟨h1, n, hn, hv, he⟩

theorem exists_snoc {β : Type} {l : List β} (h : l ≠ []) : ∃ as b, l = as ++ [b] :=
  ⟨l.dropLast, l.getLast h, (List.dropLast_concat_getLast h).symm⟩

theorem getLast_cons' {β : Type} (a : β) {l : List β} (h : l ≠ []) : (a :: l).getLast? = l.getLast? := by
  obtain ⟨k, b, rfl⟩ := exists_snoc h
  rw [← List.cons_append, List.getLast?_concat, List.getLast?_concat]

theorem getLast_append' {β : Type} (k : List β) {l : List β} (h : l ≠ []) : (k ++ l).getLast? = l.getLast? := by
  obtain ⟨l', b, rfl⟩ := exists_snoc h
  rw [← List.append_assoc, List.getLast?_concat, List.getLast?_concat]

theorem length_le_of_lt : ∀ (n : Nat) (l : List Nat), l.Nodup → (∀ a ∈ l, a < n) → l.length ≤ n
  | 0, [], _, _ => by simp
  | 0, a :: _, _, h => absurd (h a (by simp)) (by omega)
  | n + 1, l, hn, h => by
    by_cases hm : n ∈ l
    · have h1 := length_le_of_lt n (l.erase n) (hn.erase n) (by
        intro a ha
        have h2 := (List.Nodup.mem_erase_iff hn).1 ha
        have h3 := h a h2.2
        have h4 := h2.1
        omega)
      rw [List.length_erase_of_mem hm] at h1
      omega
    · have := length_le_of_lt n l hn (by
        intro a ha
        have h3 := h a ha
        have : a ≠ n := by rintro rfl; exact hm ha
        omega)
      omega

/-! ## The invariant -/

/-- The items at the addresses `as` hold the values `xs`, and that is all. -/
def Chain (h : Heap α) (r : Ref) (as : List Nat) (xs : List α) : Prop := ∃ e, Seg h r as xs e ∧ e.obj = none

/-- The collection holds the sequence `xs`, not considering `mLast`. What counts is what a variable is that `mFirst` is assigned to: if the
collection holds nothing, `mFirst` may still refer to an item, without being marked as a reference. -/
def Holds (w : W α) (as : List Nat) (xs : List α) : Prop :=
  Chain w.heap (put {} w.first) as xs ∧ as.length = xs.length ∧ as.Nodup ∧ w.size = xs.length

/-- The last item of a collection, as `mLast` refers to it. -/
def lastRef (as : List Nat) : Ref := as.getLast?.elim {} .to

@[simp] theorem lastRef_snoc (as : List Nat) (b : Nat) : lastRef (as ++ [b]) = .to b := by simp [lastRef]

@[simp] theorem lastRef_one (b : Nat) : lastRef [b] = .to b := rfl

theorem lastRef_cons {as : List Nat} (a : Nat) (h : as ≠ []) : lastRef (a :: as) = lastRef as := by
  rw [lastRef, lastRef, getLast_cons' a h]

theorem lastRef_append {as : List Nat} (bs : List Nat) (h : as ≠ []) : lastRef (bs ++ as) = lastRef as := by
  rw [lastRef, lastRef, getLast_append' bs h]

/-- The collection holds the sequence `xs`. -/
def Rep (w : W α) (xs : List α) : Prop :=
  ∃ as, Holds w as xs ∧ (xs ≠ [] → w.last = lastRef as)

/-- If the collection holds nothing, `mFirst` refers to nothing. -/
def Clean (w : W α) : Prop := w.size = 0 → w.first.obj = none

theorem rep_empty : Rep ({} : W α) [] := ⟨[], ⟨⟨{}, rfl, rfl⟩, rfl, by simp, rfl⟩, nofun⟩

theorem clean_empty : Clean ({} : W α) := fun _ => rfl

theorem Holds.size {w : W α} {as : List Nat} {xs : List α} (h : Holds w as xs) : w.size = xs.length := h.2.2.2

theorem Holds.nodup {w : W α} {as : List Nat} {xs : List α} (h : Holds w as xs) : as.Nodup := h.2.2.1

theorem Holds.nil_of {w : W α} {as : List Nat} (h : Holds w as []) : as = [] ∧ w.size = 0 := by
  have hl := h.2.1
  have : as = [] := by cases as; rfl; simp at hl
  subst this
  exact ⟨rfl, h.size⟩

theorem Holds.size_zero {w : W α} {as : List Nat} {xs : List α} (h : Holds w as xs) : w.size = 0 ↔ xs = [] := by
  rw [h.size]
  cases xs <;> simp <;> omega

theorem Holds.ne_nil {w : W α} {as : List Nat} {xs : List α} (h : Holds w as xs) (hne : xs ≠ []) : as ≠ [] := by
  intro he
  subst he
  have := h.2.1
  exact hne (by simpa using this.symm)

theorem Holds.seg {w : W α} {as : List Nat} {xs : List α} (h : Holds w as xs) (hne : xs ≠ []) :
    ∃ e, Seg w.heap w.first as xs e ∧ e.obj = none := by
  obtain ⟨e, hs, he⟩ := h.1
  refine ⟨e, ?_, he⟩
  obtain ⟨a, ha⟩ := hs.head (h.ne_nil hne)
  have : put {} w.first = w.first := by
    rw [put] at ha ⊢
    split
    · rfl
    · rename_i hr
      rw [if_neg hr] at ha
      cases ha
  rw [← this]
  exact hs

theorem Holds.lt {w : W α} {as : List Nat} {xs : List α} (h : Holds w as xs) : ∀ a ∈ as, a < w.heap.length := by
  intro a ha
  by_cases hne : xs = []
  · subst hne
    rw [h.nil_of.1] at ha
    cases ha
  · obtain ⟨e, hs, _⟩ := h.seg hne
    exact hs.lt a ha

theorem Holds.of_seg {w : W α} {as : List Nat} {xs : List α} {e : Ref} (hs : Seg w.heap w.first as xs e) (he : e.obj = none) (hnd : as.Nodup)
    (hz : w.size = xs.length) : Holds w as xs := by
  refine ⟨?_, hs.length, hnd, hz⟩
  cases as with
  | nil =>
    cases xs with
    | nil =>
      have : w.first = e := hs
      refine ⟨_, rfl, ?_⟩
      rw [this, put]
      split
      · exact he
      · rfl
    | cons => cases hs
  | cons a as => exact ⟨e, by rw [hs.put (by simp)]; exact hs, he⟩

theorem Holds.zero {w : W α} (hz : w.size = 0) (hf : (put {} w.first).obj = none) : Holds w [] [] :=
  ⟨⟨_, rfl, hf⟩, rfl, by simp, by simpa using hz⟩

theorem at_holds {w : W α} {as : List Nat} {xs : List α} (h : Holds w as xs) (i : Int) :
    at' w i = if hi : 0 ≤ i ∧ i < xs.length then .ok (xs[i.toNat]'(by omega)) else .error .outOfBounds := by
  rw [at']
  by_cases hi : 0 ≤ i ∧ i < xs.length
  · rw [dif_pos hi, if_neg (by rw [h.size]; omega)]
    have hk : i.toNat < xs.length := by omega
    have hl := h.2.1
    have hne : xs ≠ [] := by rintro rfl; simp at hk
    obtain ⟨e, hs, _⟩ := h.seg hne
    have e1 : xs = xs.take i.toNat ++ xs[i.toNat] :: xs.drop (i.toNat + 1) := by simp
    have e2 : as = as.take i.toNat ++ as[i.toNat] :: as.drop (i.toNat + 1) := by simp
    rw [e1, e2] at hs
    obtain ⟨m, h1, h2⟩ := (seg_append (by simp; omega)).1 hs
    have hm := h2.1
    rw [hm] at h1
    rw [walk_seg' h1 (by simp; omega)]
    obtain ⟨_, _, _, hv⟩ := nextOf_seg h2
    rw [hm] at hv
    exact hv
  · rw [dif_neg hi, if_pos (by rw [h.size]; omega)]

theorem indexOf_holds (eq : α → α → Bool) {w : W α} {as : List Nat} {xs : List α} (h : Holds w as xs) (v : α) :
    indexOf eq w v = .ok (match xs.findIdx? (fun x => eq x v) with | some k => (k : Int) | none => -1) := by
  rw [indexOf, h.size, Int.toNat_natCast]
  by_cases hne : xs = []
  · subst hne; simp [search]
  · obtain ⟨e, hs, _⟩ := h.seg hne
    rw [hs.put (h.ne_nil hne), search_seg eq v hs 0]
    cases xs.findIdx? (fun x => eq x v) <;> simp

theorem clear_holds {w : W α} {as : List Nat} {xs : List α} (h : Holds w as xs) :
    ∃ w', clear w = .ok w' ∧ Rep w' [] ∧ Clean w' := by
  have hw : ∃ q, walk w.heap w.size.toNat w.first = .ok q := by
    rw [h.size, Int.toNat_natCast, ← h.2.1]
    by_cases hne : xs = []
    · subst hne
      rw [h.nil_of.1]
      exact ⟨_, rfl⟩
    · obtain ⟨e, hs, _⟩ := h.seg hne
      exact walk_ok hs
  obtain ⟨q, hq⟩ := hw
  rw [clear, hq]
  exact ⟨_, rfl, ⟨[], .zero rfl rfl, nofun⟩, fun _ => rfl⟩

theorem first_holds {w : W α} {as : List Nat} {xs : List α} (h : Holds w as xs) :
    first w = match xs with | [] => .error .outOfBounds | x :: _ => .ok x := by
  rw [first]
  cases xs with
  | nil => rw [if_pos (h.size_zero.2 rfl)]
  | cons x xs =>
    have : ¬ w.size = 0 := by rw [h.size_zero]; simp
    rw [if_neg this]
    obtain ⟨e, hs, _⟩ := h.seg (by simp)
    cases as with
    | nil => cases hs
    | cons a as =>
      obtain ⟨_, _, _, hv⟩ := nextOf_seg hs
      exact hv

theorem valueOf_last {w : W α} {xs : List α} (h : Rep w xs) (hne : xs ≠ []) : valueOf w.heap w.last = .ok (xs.getLast hne) := by
  obtain ⟨as, h1, h2⟩ := h
  obtain ⟨ys, y, rfl⟩ := exists_snoc hne
  obtain ⟨bs, b, rfl⟩ := exists_snoc (h1.ne_nil hne)
  rw [h2 hne]
  obtain ⟨e, hs, _⟩ := h1.seg hne
  obtain ⟨_, n, hn, hv, _⟩ := hs.snoc
  simp [valueOf_to hn, hv]

theorem last_rep {w : W α} {xs : List α} (h : Rep w xs) :
    last w = if hne : xs ≠ [] then .ok (xs.getLast hne) else .error .outOfBounds := by
  rw [last]
  obtain ⟨as, h1, h2⟩ := id h
  by_cases hne : xs ≠ []
  · rw [dif_pos hne, if_neg (by rw [h1.size_zero]; exact hne)]
    exact valueOf_last h hne
  · rw [dif_neg hne, if_pos (by rw [h1.size_zero]; simpa using hne)]

theorem popFront_rep {w : W α} {x : α} {xs : List α} (h : Rep w (x :: xs)) :
    ∃ w', popFront w = .ok w' ∧ Rep w' xs ∧ (xs ≠ [] → Clean w') := by
  obtain ⟨as, h1, h4⟩ := h
  obtain ⟨e, hs0, he⟩ := h1.seg (by simp)
  cases as with
  | nil => cases hs0
  | cons a as =>
    obtain ⟨m, hm, hs, _⟩ := nextOf_seg hs0
    have hz := h1.size
    rw [List.length_cons] at hz
    rw [popFront, if_neg (by rw [hz]; omega), hm]
    refine ⟨_, rfl, ⟨as, ⟨?_, hs.length, (List.nodup_cons.1 h1.nodup).2, ?_⟩, ?_⟩, ?_⟩
    · show Chain w.heap (put {} (put w.first m)) as xs
      cases as with
      | nil =>
        cases xs with
        | nil =>
          have : m = e := hs
          subst this
          refine ⟨_, rfl, ?_⟩
          cases hr : m.isRef with
          | true => rw [put, put]; simp [hr, he]
          | false => rw [put, put]; simp [hr]
        | cons => cases hs
      | cons b bs =>
        rw [hs.put (by simp), hs.put (by simp)]
        exact ⟨e, hs, he⟩
    · simp only [hz]; push_cast; omega
    · intro hne
      have hane : as ≠ [] := by intro hx; subst hx; have := hs.length; exact hne (by simpa using this.symm)
      simp only [h4 (by simp)]
      rw [lastRef_cons _ hane]
    · intro hne hz'
      simp only [hz] at hz'
      exact absurd (List.length_pos_iff.2 hne) (by push_cast at hz'; omega)

theorem popFront_nil {w : W α} (h : Rep w []) : popFront w = .error .outOfBounds := by
  obtain ⟨as, h1, _⟩ := h
  rw [popFront, if_pos (by rw [h1.nil_of.2]; omega)]

/-! ## Changing links -/

theorem seg_link {h : Heap α} {r bs b ys y e cs zs v e'} {n : Node α} (h1 : Seg h r (bs ++ [b]) (ys ++ [y]) e) (hn : h[b]? = some n)
    (hb : b ∉ bs) (h2 : Seg h v cs zs e') (hc : b ∉ cs) :
    Seg (h.set b { n with next := v }) r ((bs ++ [b]) ++ cs) ((ys ++ [y]) ++ zs) e' := by
  obtain ⟨h3, n', hn', hv, _⟩ := h1.snoc
  rw [hn] at hn'
  simp only [Option.some.injEq] at hn'
  subst hn'
  have hlt : b < h.length := (List.getElem?_eq_some_iff.1 hn).1
  rw [List.append_assoc, List.append_assoc, seg_append h3.length]
  refine ⟨.to b, h3.set hb _, rfl, { n with next := v }, ?_, hv, h2.set hc _⟩
  rw [List.getElem?_set_self hlt]

theorem seg_setPrev {h : Heap α} {r as xs e} {a : Nat} {n : Node α} (hs : Seg h r as xs e) (hn : h[a]? = some n) (v : Ref) :
    Seg (h.set a { n with prev := v }) r as xs e := by
  refine hs.frame ?_
  intro b hb m hm
  by_cases hab : a = b
  · subst hab
    rw [hn] at hm
    simp only [Option.some.injEq] at hm
    subst hm
    refine ⟨{ n with prev := v }, ?_, rfl, rfl⟩
    rw [List.getElem?_set_self (List.getElem?_eq_some_iff.1 hn).1]
  · exact ⟨m, by rw [List.getElem?_set_ne hab]; exact hm, rfl, rfl⟩

theorem seg_new (h : Heap α) (v : α) : Seg (alloc h v) (.to h.length) [h.length] [v] {} :=
  ⟨rfl, _, alloc_new h v, rfl, rfl⟩

/-- A new item in front of a chain. -/
theorem seg_push {h : Heap α} {r as xs e} (hs : Seg h (put {} r) as xs e) (v : α) :
    setNext (alloc h v) (.to h.length) r = .ok ((alloc h v).set h.length ⟨put {} r, {}, v⟩) ∧
    Seg ((alloc h v).set h.length ⟨put {} r, {}, v⟩) (.to h.length) (h.length :: as) (v :: xs) e := by
  refine ⟨setNext_some (alloc_new h v) r, ?_⟩
  have := seg_link (bs := []) (ys := []) (seg_new h v) (alloc_new h v) (by simp) (hs.alloc v)
    (by intro hm; exact absurd (hs.lt _ hm) (by omega))
  exact this

theorem fresh_notMem {h : Heap α} {r as xs e} (hs : Seg h r as xs e) : h.length ∉ as := by
  intro hm
  exact absurd (hs.lt _ hm) (by omega)

theorem Holds.fresh {w : W α} {as : List Nat} {xs : List α} (h : Holds w as xs) : w.heap.length ∉ as := by
  obtain ⟨e, hs, _⟩ := h.1
  exact fresh_notMem hs

theorem Rep.snoc {w : W α} {ys : List α} {y : α} (h : Rep w (ys ++ [y])) :
    ∃ bs b n, Holds w (bs ++ [b]) (ys ++ [y]) ∧ w.last = .to b ∧ w.heap[b]? = some n ∧ b ∉ bs ∧ w.size ≠ 0 ∧ n.next.obj = none := by
  obtain ⟨as, h1, h2⟩ := h
  obtain ⟨bs, b, rfl⟩ := exists_snoc (h1.ne_nil (by simp))
  obtain ⟨e, hs, he⟩ := h1.1
  obtain ⟨_, n, hn, _, hne⟩ := hs.snoc
  refine ⟨bs, b, n, h1, ?_, hn, ?_, ?_, by rw [hne]; exact he⟩
  · rw [h2 (by simp)]; simp
  · have := h1.nodup
    rw [List.nodup_append] at this
    intro hb
    exact this.2.2 b hb b (by simp) rfl
  · rw [h1.size]; simp; omega

/-- Appending to a chain: the memory after `mLast.next = item`. -/
theorem seg_pushBack {w : W α} {ys : List α} {y v : α} {bs : List Nat} {b : Nat} {n : Node α} (h : Holds w (bs ++ [b]) (ys ++ [y]))
    (hn : w.heap[b]? = some n) (hb : b ∉ bs) :
    setNext (alloc w.heap v) (.to b) (.to w.heap.length) = .ok ((alloc w.heap v).set b { n with next := .to w.heap.length }) ∧
    Seg ((alloc w.heap v).set b { n with next := .to w.heap.length }) w.first (bs ++ [b] ++ [w.heap.length]) (ys ++ [y] ++ [v]) {} := by
  have hlt : b < w.heap.length := (List.getElem?_eq_some_iff.1 hn).1
  have hn' : (alloc w.heap v)[b]? = some n := by rw [alloc, List.getElem?_append_left hlt]; exact hn
  refine ⟨setNext_some hn' _, ?_⟩
  obtain ⟨e, hs, _⟩ := h.seg (by simp)
  exact seg_link (hs.alloc v) hn' hb (seg_new _ _) (by simp; omega)

theorem nodup_snoc {as : List Nat} {b : Nat} (h : as.Nodup) (hb : b ∉ as) : (as ++ [b]).Nodup := by
  rw [List.nodup_append]
  refine ⟨h, by simp, ?_⟩
  rintro a ha c hc rfl
  rw [List.mem_singleton] at hc
  subst hc
  exact hb ha

theorem Clean.of_pos {w : W α} {x : α} {xs : List α} (h : w.size = ((x :: xs).length : Nat)) : Clean w := by
  intro hz
  rw [h, List.length_cons] at hz
  push_cast at hz
  omega

theorem clean_of_rep {w : W α} {xs : List α} (h : Rep w xs) (hne : xs ≠ []) : Clean w := by
  obtain ⟨as, h1, _⟩ := h
  intro hz
  exact absurd (h1.size_zero.1 hz) hne

theorem pushBack_rep {w : W α} {xs : List α} (h : Rep w xs) (v : α) : ∃ w', pushBack w v = .ok w' ∧ Rep w' (xs ++ [v]) := by
  by_cases hne : xs = []
  · subst hne
    obtain ⟨as, h1, _⟩ := h
    obtain ⟨_, hz⟩ := h1.nil_of
    rw [pushBack]
    simp only [hz, if_true]
    exact ⟨_, rfl, [w.heap.length], .of_seg (seg_new _ _) rfl (by simp) (by simp), by simp⟩
  · obtain ⟨ys, y, rfl⟩ := exists_snoc hne
    obtain ⟨bs, b, n, h1, hl, hn, hb, hz, _⟩ := h.snoc
    obtain ⟨g1, g2⟩ := seg_pushBack (v := v) h1 hn hb
    rw [pushBack]
    simp only [if_neg hz, hl, g1]
    refine ⟨_, rfl, bs ++ [b] ++ [w.heap.length], .of_seg g2 rfl (nodup_snoc h1.nodup h1.fresh) ?_, fun _ => (lastRef_snoc _ _).symm⟩
    simp only [h1.size]
    simp
    omega

theorem listPushBack_rep {w : W α} {xs : List α} (h : Rep w xs) (v : α) : ∃ w', listPushBack w v = .ok w' ∧ Rep w' (xs ++ [v]) := by
  by_cases hne : xs = []
  · subst hne
    obtain ⟨as, h1, _⟩ := h
    obtain ⟨_, hz⟩ := h1.nil_of
    rw [listPushBack]
    simp only [hz, if_true, setPrev_some (alloc_new w.heap v)]
    exact ⟨_, rfl, [w.heap.length], .of_seg (seg_setPrev (seg_new _ _) (alloc_new _ _) _) rfl (by simp) (by simp), by simp⟩
  · obtain ⟨ys, y, rfl⟩ := exists_snoc hne
    obtain ⟨bs, b, n, h1, hl, hn, hb, hz, _⟩ := h.snoc
    obtain ⟨g1, g2⟩ := seg_pushBack (v := v) h1 hn hb
    have hlt : b < w.heap.length := (List.getElem?_eq_some_iff.1 hn).1
    have hnew : ((alloc w.heap v).set b { n with next := .to w.heap.length })[w.heap.length]? = some ⟨{}, {}, v⟩ := by
      rw [List.getElem?_set_ne (by omega), alloc_new]
    rw [listPushBack]
    simp only [if_neg hz, hl, g1, setPrev_some hnew]
    refine ⟨_, rfl, bs ++ [b] ++ [w.heap.length], .of_seg (seg_setPrev g2 hnew _) rfl (nodup_snoc h1.nodup h1.fresh) ?_, fun _ => (lastRef_snoc _ _).symm⟩
    simp only [h1.size]
    simp
    omega

theorem Holds.push {w : W α} {as : List Nat} {xs : List α} (h : Holds w as xs) (v : α) (l : Ref) :
    setNext (alloc w.heap v) (.to w.heap.length) w.first = .ok ((alloc w.heap v).set w.heap.length ⟨put {} w.first, {}, v⟩) ∧
    Holds { heap := (alloc w.heap v).set w.heap.length ⟨put {} w.first, {}, v⟩, first := .to w.heap.length, last := l, size := w.size + 1 }
      (w.heap.length :: as) (v :: xs) := by
  obtain ⟨e, hs, he⟩ := h.1
  refine ⟨(seg_push hs v).1, .of_seg (seg_push hs v).2 he ?_ ?_⟩
  · rw [List.nodup_cons]
    exact ⟨h.fresh, h.nodup⟩
  · simp [h.size]

theorem vectorPushFront_rep {w : W α} {xs : List α} (h : Rep w xs) (v : α) : ∃ w', vectorPushFront w v = .ok w' ∧ Rep w' (v :: xs) := by
  obtain ⟨as, h1, h2⟩ := h
  rw [vectorPushFront]
  simp only [(h1.push v {}).1]
  refine ⟨_, rfl, _, (h1.push v _).2, ?_⟩
  intro _
  by_cases hne : xs = []
  · subst hne
    obtain ⟨rfl, hz⟩ := h1.nil_of
    simp [hz]
  · have hz : ¬ w.size = 0 := by rw [h1.size_zero]; exact hne
    simp only [if_neg hz, h2 hne]
    rw [lastRef_cons _ (h1.ne_nil hne)]

theorem listPushFront_rep {w : W α} {xs : List α} (h : Rep w xs) (v : α) : ∃ w', listPushFront w v = .ok w' ∧ Rep w' (v :: xs) := by
  obtain ⟨as, h1, h2⟩ := h
  rw [listPushFront]
  by_cases hne : xs = []
  · subst hne
    obtain ⟨rfl, hz⟩ := h1.nil_of
    simp only [hz, if_true]
    exact ⟨_, rfl, [w.heap.length], .of_seg (seg_new _ _) rfl (by simp) (by simp), by simp⟩
  · have hz : ¬ w.size = 0 := by rw [h1.size_zero]; exact hne
    obtain ⟨a, as', rfl⟩ := List.exists_cons_of_ne_nil (h1.ne_nil hne)
    obtain ⟨x, xs', rfl⟩ := List.exists_cons_of_ne_nil hne
    obtain ⟨e, hs0, he⟩ := h1.seg hne
    have hf : w.first = .to a := hs0.1
    obtain ⟨g1, g2⟩ := h1.push v w.last
    obtain ⟨hr, n, hn, hv, hs⟩ := (hs0.alloc v)
    have hlt := hs0.lt a (by simp)
    have hn2 : ((alloc w.heap v).set w.heap.length ⟨put {} w.first, {}, v⟩)[a]? = some n := by
      rw [List.getElem?_set_ne (by omega)]; exact hn
    obtain ⟨e', hs', he'⟩ := g2.seg (by simp)
    rw [hf] at g1 hn2 hs'
    simp only [if_neg hz, hf, g1, setPrev_some hn2]
    refine ⟨_, rfl, _, .of_seg (seg_setPrev hs' hn2 _) he' g2.nodup g2.size, ?_⟩
    intro _
    simp only [h2 hne]
    rw [lastRef_cons w.heap.length (h1.ne_nil hne)]

/-- A new item behind the item `b`. -/
theorem insert_mid {w : W α} {bs cs : List Nat} {b : Nat} {ys zs : List α} {y v : α} {m e : Ref} (h : Holds w (bs ++ [b] ++ cs) (ys ++ [y] ++ zs))
    (hm : Seg w.heap m cs zs e) (he : e.obj = none) (hp : Seg w.heap w.first (bs ++ [b]) (ys ++ [y]) m) :
    ∃ n h1 h2 e', nextOf (alloc w.heap v) (.to b) = .ok m ∧ (alloc w.heap v)[b]? = some n ∧
      setNext (alloc w.heap v) (.to w.heap.length) m = .ok h1 ∧ setNext h1 (.to b) (.to w.heap.length) = .ok h2 ∧
      Seg h2 w.first (bs ++ [b] ++ w.heap.length :: cs) (ys ++ [y] ++ v :: zs) e' ∧ e'.obj = none ∧
      (bs ++ [b] ++ w.heap.length :: cs).Nodup := by
  obtain ⟨_, n, hn, hv, hnx⟩ := (hp.alloc v).snoc
  have hm' : ∃ e', Seg w.heap (put {} m) cs zs e' ∧ e'.obj = none := by
    cases cs with
    | nil =>
      cases zs with
      | nil =>
        have : m = e := hm
        subst this
        refine ⟨_, rfl, ?_⟩
        rw [put]
        split
        · exact he
        · rfl
      | cons => cases hm
    | cons c cs => exact ⟨e, by rw [hm.put (by simp)]; exact hm, he⟩
  obtain ⟨e', hm', he'⟩ := hm'
  obtain ⟨g1, g2⟩ := seg_push hm' v
  have hfresh := h.fresh
  have hbl : b ≠ w.heap.length := by rintro rfl; exact hfresh (by simp)
  have hn2 : ((alloc w.heap v).set w.heap.length ⟨put {} m, {}, v⟩)[b]? = some n := by
    rw [List.getElem?_set_ne (by omega)]; exact hn
  have hnd := h.nodup
  rw [List.nodup_append, List.nodup_append] at hnd
  obtain ⟨⟨nd1, -, nd2⟩, nd3, nd4⟩ := hnd
  refine ⟨n, _, _, e', by rw [nextOf_to hn, hnx], hn, g1, setNext_some hn2 _, ?_, he', ?_⟩
  · refine seg_link (e := m) ((hp.alloc v).set ?_ _) hn2 ?_ g2 ?_
    · intro hx
      exact hfresh (List.mem_append_left _ hx)
    · intro hx
      exact nd2 b hx b (by simp) rfl
    · rw [List.mem_cons]
      rintro (hx | hx)
      · exact hbl hx
      · exact nd4 b (by simp) b hx rfl
  · rw [List.nodup_append, List.nodup_cons]
    refine ⟨?_, ⟨fun hx => hfresh (List.mem_append_right _ hx), nd3⟩, ?_⟩
    · rw [List.nodup_append]; exact ⟨nd1, by simp, nd2⟩
    · intro a ha c hc
      rw [List.mem_cons] at hc
      rcases hc with rfl | hc
      · rintro rfl; exact hfresh (List.mem_append_left _ ha)
      · exact nd4 a ha c hc

/-- Cutting a sequence behind position `k`. -/
theorem Holds.cut {w : W α} {as : List Nat} {xs : List α} (h : Holds w as xs) {k : Nat} (hk : k < xs.length) :
    ∃ bs b cs ys y zs m e, as = bs ++ [b] ++ cs ∧ xs = ys ++ [y] ++ zs ∧ ys.length = k ∧ bs.length = k ∧
      Seg w.heap w.first (bs ++ [b]) (ys ++ [y]) m ∧ Seg w.heap m cs zs e ∧ e.obj = none ∧ Seg w.heap w.first bs ys (.to b) := by
  have hl := h.2.1
  have e1 : xs = xs.take k ++ [xs[k]] ++ xs.drop (k + 1) := by simp
  have e2 : as = as.take k ++ [as[k]] ++ as.drop (k + 1) := by simp
  obtain ⟨e, hs, he⟩ := h.seg (by rintro rfl; simp at hk)
  rw [e1, e2] at hs
  obtain ⟨m, h1, h2⟩ := (seg_append (by simp; omega)).1 hs
  exact ⟨_, _, _, _, _, _, m, e, e2, e1, by simp; omega, by simp; omega, h1, h2, he, h1.snoc.1⟩

theorem vectorInsert_rep {w : W α} {xs : List α} (h : Rep w xs) (hc : Clean w) (i : Int) (v : α) (h0 : 0 ≤ i) (hi : i ≤ xs.length) :
    ∃ w', vectorInsert w i v = .ok w' ∧ Rep w' (xs.take i.toNat ++ v :: xs.drop i.toNat) := by
  obtain ⟨as, h1, h2⟩ := id h
  rw [vectorInsert, if_neg (by rw [h1.size]; omega)]
  by_cases hne : xs = []
  · subst hne
    obtain ⟨rfl, hz⟩ := h1.nil_of
    simp only [hc hz, if_true]
    refine ⟨_, rfl, [w.heap.length], .of_seg (by simpa using seg_new w.heap v) rfl (by simp) ?_, by simp⟩
    simp [hz]
  · obtain ⟨e, hs, he⟩ := h1.seg hne
    have hfn : ¬ w.first.obj = none := by
      obtain ⟨a, ha⟩ := hs.head (h1.ne_nil hne)
      rw [ha]
      simp [Ref.to]
    simp only [if_neg hfn]
    by_cases hi0 : i = 0
    · subst hi0
      simp only [if_true, (h1.push v {}).1]
      refine ⟨_, rfl, _, by simpa using (h1.push v _).2, ?_⟩
      intro _
      simp only [h2 hne]
      rw [lastRef_cons _ (h1.ne_nil hne)]
    · simp only [if_neg hi0]
      by_cases his : i = w.size
      · simp only [if_pos his]
        obtain ⟨ys, y, rfl⟩ := exists_snoc hne
        obtain ⟨bs, b, n, h1', hl, hn, hb, hz, _⟩ := h.snoc
        obtain ⟨g1, g2⟩ := seg_pushBack (v := v) h1' hn hb
        have hit : i.toNat = (ys ++ [y]).length := by rw [his, h1'.size]; simp
        simp only [hl, g1]
        rw [hit, List.take_length, List.drop_length]
        refine ⟨_, rfl, bs ++ [b] ++ [w.heap.length], .of_seg g2 rfl (nodup_snoc h1'.nodup h1'.fresh) ?_, fun _ => (lastRef_snoc _ _).symm⟩
        simp only [h1'.size]
        simp
        omega
      · simp only [if_neg his]
        have hk : (i - 1).toNat < xs.length := by omega
        obtain ⟨bs, b, cs, ys, y, zs, m, e, e1, e2, hyl, hbl, s1, s2, he, s3⟩ := h1.cut hk
        subst e1 e2
        have hzs : zs ≠ [] := by
          rintro rfl
          rw [h1.size] at his
          simp at his hi
          omega
        have hcs : cs ≠ [] := by
          intro he
          subst he
          have := s2.length
          exact hzs (by simpa using this.symm)
        obtain ⟨n, hh1, hh2, e', g1, g2, g3, g4, g5, g6, g7⟩ := insert_mid (v := v) h1 s2 he s1
        rw [walk_seg' (s3.alloc v) (by omega)]
        simp only [g1, g3, g4]
        have hit : i.toNat = (ys ++ [y]).length := by simp; omega
        rw [hit, List.take_left', List.drop_left'] <;> try rfl
        refine ⟨_, rfl, _, .of_seg g5 g6 g7 ?_, ?_⟩
        · simp only [h1.size]
          simp
          omega
        · intro _
          simp only [h2 hne]
          rw [lastRef_append _ hcs, lastRef_append _ (by simp), lastRef_cons _ hcs]

theorem erase_holds {w : W α} {as : List Nat} {xs : List α} (h : Holds w as xs) (i : Int) (h0 : 0 ≤ i) (hi : i < xs.length) :
    ∃ w' as', erase w i = .ok w' ∧ Holds w' as' (xs.eraseIdx i.toNat) ∧ Clean w' ∧
      (w.last = lastRef as → xs.eraseIdx i.toNat ≠ [] → w'.last = lastRef as') := by
  have hne : xs ≠ [] := by rintro rfl; simp at hi; omega
  obtain ⟨e, hseg, he⟩ := h.seg hne
  have hdone : ∀ (h' : Heap α) (f l e' : Ref) (as' : List Nat) (xs' : List α), (xs' ≠ [] → Seg h' f as' xs' e' ∧ e'.obj = none) →
      as'.length = xs'.length → as'.Nodup → w.size - 1 = xs'.length →
      (w.last = lastRef as → xs' ≠ [] → l = lastRef as') →
      Holds (reset ⟨h', f, l, w.size - 1⟩) as' xs' ∧ Clean (reset ⟨h', f, l, w.size - 1⟩) ∧
        (w.last = lastRef as → xs' ≠ [] → (reset ⟨h', f, l, w.size - 1⟩).last = lastRef as') := by
    intro h' f l e' as' xs' hs hlen hnd hsz hlast
    by_cases hz : w.size - 1 = 0
    · have hx : xs' = [] := by
        rw [hz] at hsz
        cases xs'
        · rfl
        · simp at hsz; omega
      subst hx
      have : as' = [] := by cases as'; rfl; simp at hlen
      subst this
      have e : reset ⟨h', f, l, w.size - 1⟩ = { heap := h', first := .null, last := put l .null, size := w.size - 1 } := if_pos hz
      rw [e]
      exact ⟨.zero hz rfl, fun _ => rfl, by simp⟩
    · have e : reset ⟨h', f, l, w.size - 1⟩ = ⟨h', f, l, w.size - 1⟩ := if_neg hz
      rw [e]
      have hx : xs' ≠ [] := by rintro rfl; simp at hsz; omega
      exact ⟨.of_seg (hs hx).1 (hs hx).2 hnd hsz, fun hz' => absurd hz' hz, hlast⟩
  rw [erase, if_neg (by rw [h.size]; omega)]
  by_cases hi0 : i = 0
  · subst hi0
    obtain ⟨a, as', rfl⟩ := List.exists_cons_of_ne_nil (h.ne_nil hne)
    obtain ⟨x, xs', rfl⟩ := List.exists_cons_of_ne_nil hne
    obtain ⟨m, hm, hs, _⟩ := nextOf_seg hseg
    simp only [if_true, hm]
    have hane : xs' ≠ [] → as' ≠ [] := by
      intro hne' he; subst he
      have := hs.length
      exact hne' (by simpa using this.symm)
    have := hdone w.heap (put w.first m) w.last e as' xs' (fun hx => ⟨by rw [hs.put (hane hx)]; exact hs, he⟩) hs.length
      (List.nodup_cons.1 h.nodup).2 (by rw [h.size]; simp) (by
        intro hl hne'
        rw [hl, lastRef_cons _ (hane hne')])
    exact ⟨_, as', rfl, this.1, this.2⟩
  · simp only [if_neg hi0]
    by_cases hil : i = w.size - 1
    · simp only [if_pos hil]
      -- the last element of at least two
      obtain ⟨xs', z, rfl⟩ := exists_snoc hne
      have hne2 : xs' ≠ [] := by rintro rfl; rw [h.size] at hil; simp at hil; omega
      obtain ⟨ys, y, rfl⟩ := exists_snoc hne2
      obtain ⟨as', c, rfl⟩ := exists_snoc (h.ne_nil hne)
      have hl := hseg.length
      have hne3 : as' ≠ [] := by rintro rfl; simp at hl
      obtain ⟨bs, b, rfl⟩ := exists_snoc hne3
      have hbl : bs.length = ys.length := by simpa using hl
      have e1 : bs ++ [b] ++ [c] = bs ++ [b, c] := by simp
      have e2 : ys ++ [y] ++ [z] = ys ++ [y, z] := by simp
      have hs' := hseg
      rw [e1, e2] at hs'
      have hble : (bs ++ [b] ++ [c]).length ≤ w.heap.length :=
        length_le_of_lt _ _ h.nodup hseg.lt
      rw [hseg.put (by simp), toLastButOne_seg hs' he hbl (by simp at hble; omega)]
      simp only
      obtain ⟨m, s1, s2⟩ := (seg_append (by simp [hbl])).1 hseg
      obtain ⟨_, n, hn, _, _⟩ := s1.snoc
      have hnd := h.nodup
      rw [List.nodup_append, List.nodup_append] at hnd
      have hb : b ∉ bs := fun hx => hnd.1.2.2 b hx b (by simp) rfl
      rw [setNext_some hn]
      have hlink := seg_link (cs := []) (zs := []) (v := .null) (e' := .null) s1 hn hb rfl (by simp)
      simp only [List.append_nil] at hlink
      have hit : i.toNat = (ys ++ [y]).length := by
        rw [hil, h.size]; simp; omega
      have her : (ys ++ [y] ++ [z]).eraseIdx i.toNat = ys ++ [y] := by
        rw [hit, List.eraseIdx_append_of_length_le (by simp)]
        simp
      rw [her]
      have := hdone _ w.first (put w.last (.to b)) .null (bs ++ [b]) (ys ++ [y]) (fun _ => ⟨hlink, rfl⟩) hlink.length
        (by rw [List.nodup_append]; exact hnd.1)
        (by rw [h.size]; simp; omega) (by simp [lastRef, put_to])
      exact ⟨_, _, rfl, this.1, this.2⟩
    · simp only [if_neg hil]
      -- an element between two others
      have hk : (i - 1).toNat < xs.length := by omega
      obtain ⟨bs, b, cs, ys, y, zs, m, e, rfl, rfl, hyl, hbl, s1, s2, he, s3⟩ := h.cut hk
      rw [walk_seg' s3 (by omega)]
      simp only
      have hzl : zs.length ≥ 2 := by
        have := h.size
        rw [this] at hil
        rw [List.length_append, List.length_append, List.length_singleton] at hi hil
        omega
      obtain ⟨z, zs', rfl⟩ : ∃ z zs', zs = z :: zs' := by
        cases zs with
        | nil => simp at hzl
        | cons z zs' => exact ⟨z, zs', rfl⟩
      have hcl := s2.length
      obtain ⟨c, cs', rfl⟩ : ∃ c cs', cs = c :: cs' := by
        cases cs with
        | nil => simp at hcl
        | cons c cs' => exact ⟨c, cs', rfl⟩
      have hcs' : cs' ≠ [] := by
        rintro rfl
        rw [List.length_cons] at hcl hzl
        simp at hcl
        subst hcl
        simp at hzl
      obtain ⟨_, n, hn, _, hnx⟩ := s1.snoc
      have hmc : m = .to c := s2.1
      obtain ⟨m', hm', s4, _⟩ := nextOf_seg s2
      have hnb : nextOf w.heap (.to b) = .ok (.to c) := by rw [nextOf_to hn, hnx, hmc]
      rw [hmc] at hm'
      have hcn : ¬ (Ref.to c).obj = none := by simp [Ref.to]
      simp only [hnb, hm', if_neg hcn, setNext_some hn, s4.put hcs']
      have hnd := h.nodup
      rw [List.nodup_append, List.nodup_append] at hnd
      obtain ⟨⟨nd1, nd0, nd2⟩, nd5, nd4⟩ := hnd
      have nd6 := (List.nodup_cons.1 nd5).2
      have hb : b ∉ bs := fun hx => nd2 b hx b (by simp) rfl
      have hlink := seg_link (v := m') s1 hn hb s4 (fun hx => nd4 b (by simp) b (List.mem_cons_of_mem _ hx) rfl)
      have her : (ys ++ [y] ++ z :: zs').eraseIdx i.toNat = ys ++ [y] ++ zs' := by
        have hit : i.toNat = (ys ++ [y]).length := by simp; omega
        rw [hit, List.eraseIdx_append_of_length_le (by simp)]
        simp
      rw [her]
      have := hdone _ w.first w.last e (bs ++ [b] ++ cs') (ys ++ [y] ++ zs') (fun _ => ⟨hlink, he⟩) hlink.length
        (by
          rw [List.nodup_append]
          refine ⟨by rw [List.nodup_append]; exact ⟨nd1, nd0, nd2⟩, nd6, ?_⟩
          intro a ha d hd
          exact nd4 a ha d (List.mem_cons_of_mem _ hd))
        (by rw [h.size]; simp; omega)
        (by
          intro hl _
          rw [hl, lastRef_append _ hcs', lastRef_append _ (by simp), lastRef_cons _ hcs'])
      exact ⟨_, _, rfl, this.1, this.2⟩

/-! ## Iteration -/

theorem visit_from {h : Heap α} {start : Ref} (hst : start.obj ≠ none) : ∀ {as xs m e} {c : Nat} {n : Node α} {fuel : Nat},
    h[c]? = some n → n.next = m → Seg h m as xs e → e.obj = none → xs.length < fuel → visit h fuel ⟨start, .to c⟩ = .ok xs
  | [], [], m, e, c, n, f + 1, hn, hm, hs, he, _ => by
    have : m = e := hs
    subst this
    have hc : ¬ (Ref.to c).obj = none := by simp [Ref.to]
    have hh : hasNext h ⟨start, .to c⟩ = .ok false := by
      rw [hasNext]
      simp [hst, hc, nextOf_to hn, hm, he]
    rw [visit, hh]
  | a :: as, x :: xs, m, e, c, n, f + 1, hn, hm, hs, he, hf => by
    obtain ⟨hr, n', hn', hv, hs'⟩ := hs
    subst hr
    have ih := visit_from hst hn' rfl hs' he (fuel := f) (by simpa using hf)
    have hc : ¬ (Ref.to c).obj = none := by simp [Ref.to]
    have hh : hasNext h ⟨start, .to c⟩ = .ok true := by
      rw [hasNext]
      simp only [if_neg hst, if_neg hc, nextOf_to hn, hm]
      rfl
    have hx : next h ⟨start, .to c⟩ = .ok (⟨start, .to a⟩, x) := by
      rw [next, hh]
      simp only [if_neg hc, nextOf_to hn, hm, put_to, valueOf_to hn', hv]
    rw [visit, hh]
    simp only [hx, ih]

/-- An iterator visits the elements in order. -/
theorem visit_seg {h : Heap α} {r as xs e} (hs : Seg h r as xs e) (he : e.obj = none) {fuel : Nat} (hf : xs.length < fuel) :
    visit h fuel (iter r) = .ok xs := by
  obtain ⟨f, rfl⟩ : ∃ f, fuel = f + 1 := ⟨fuel - 1, by omega⟩
  cases as with
  | nil =>
    cases xs with
    | nil =>
      have : r = e := hs
      subst this
      simp [visit, hasNext, iter, he, put]
    | cons => cases hs
  | cons a as =>
    cases xs with
    | nil => cases hs
    | cons x xs =>
      obtain ⟨hr, n, hn, hv, hs'⟩ := hs
      subst hr
      have ih := visit_from (start := .to a) (by simp [Ref.to]) hn rfl hs' he (fuel := f) (by simpa using hf)
      have hit : iter (.to a) = ⟨.to a, {}⟩ := rfl
      have hh : hasNext h ⟨.to a, {}⟩ = .ok true := rfl
      have hx : next h ⟨.to a, {}⟩ = .ok (⟨.to a, .to a⟩, x) := by
        rw [next, hh]
        simp only [if_true, put_to, valueOf_to hn, hv]
      rw [hit, visit, hh]
      simp only [hx, ih]

theorem Holds.length_le {w : W α} {as : List Nat} {xs : List α} (h : Holds w as xs) : xs.length ≤ w.heap.length := by
  rw [← h.2.1]
  exact length_le_of_lt _ _ h.nodup h.lt

theorem visit_holds {w : W α} {as : List Nat} {xs : List α} (h : Holds w as xs) (hc : Clean w) :
    visit w.heap (w.heap.length + 1) (iter w.first) = .ok xs := by
  by_cases hne : xs = []
  · subst hne
    have hf := hc h.nil_of.2
    simp [visit, hasNext, iter, hf, put]
  · obtain ⟨e, hs, he⟩ := h.seg hne
    exact visit_seg hs he (by have := h.length_le; omega)

/-! ## `Set` -/

theorem place_seg (lt : α → α → Bool) {h : Heap α} (v : α) : ∀ {as xs tmp e}, Seg h tmp as xs e → ∀ prev : Ref,
    place lt h v xs.length tmp prev =
      .ok ((((as.take (xs.takeWhile (fun x => !lt v x)).length).getLast?).map .to).getD prev)
  | [], [], tmp, e, _, prev => by simp [place]
  | a :: as, x :: xs, tmp, e, ⟨hr, n, hn, hv, hs⟩, prev => by
    subst hr
    rw [List.length_cons, place]
    simp only [node_to hn, hv]
    by_cases hl : lt v x = true
    · simp [hl]
    · have hrest : place lt h v xs.length (put (.to a) n.next) (put prev (.to a)) = place lt h v xs.length n.next (.to a) := by
        rw [put_to]
        cases as with
        | nil =>
          cases xs with
          | nil => rfl
          | cons => cases hs
        | cons b as => rw [hs.put (by simp)]
      rw [if_neg hl, hrest, place_seg lt v hs (.to a)]
      have hl' : lt v x = false := by simpa using hl
      rw [List.takeWhile_cons]
      simp only [hl', Bool.not_false, if_true, List.length_cons, List.take_succ_cons]
      congr 1
      by_cases he : as.take (xs.takeWhile (fun x => !lt v x)).length = []
      · rw [he]; rfl
      · rw [getLast_cons' _ he]
        rw [List.getLast?_eq_some_getLast he]
        rfl

/-- Where `Set::insert` puts a value. -/
def sortedInsert (lt : α → α → Bool) (v : α) (xs : List α) : List α :=
  xs.takeWhile (fun x => !lt v x) ++ v :: xs.dropWhile (fun x => !lt v x)

theorem setInsert_holds (lt : α → α → Bool) (dup : Bool) {w : W α} {as : List Nat} {xs : List α} (h : Holds w as xs) (hc : Clean w) (v : α) :
    ∃ w' as', setInsert lt dup w v = .ok w' ∧ Holds w' as' (sortedInsert lt v xs) := by
  cases xs with
  | nil =>
    obtain ⟨rfl, hz⟩ := h.nil_of
    rw [setInsert]
    simp only [hc hz, if_true]
    exact ⟨_, [w.heap.length], rfl, .of_seg (seg_new _ _) rfl (by simp) (by simp [hz, sortedInsert])⟩
  | cons x xs =>
    obtain ⟨a, as, rfl⟩ := List.exists_cons_of_ne_nil (h.ne_nil (by simp))
    obtain ⟨e, hseg, he⟩ := h.seg (by simp)
    have hf : w.first = .to a := hseg.1
    obtain ⟨_, _, _, hx⟩ := nextOf_seg (hseg.alloc v)
    have hfo : ¬ w.first.obj = none := by rw [hf]; simp [Ref.to]
    rw [setInsert]
    simp only [if_neg hfo, hx]
    by_cases hl : lt v x = true
    · simp only [hl, if_true, (h.push v {}).1]
      refine ⟨_, w.heap.length :: a :: as, rfl, ?_⟩
      have : sortedInsert lt v (x :: xs) = v :: x :: xs := by simp [sortedInsert, hl]
      rw [this]
      exact (h.push v w.last).2
    · have hl' : lt v x = false := by simpa using hl
      have hpl := place_seg lt v (hseg.alloc v) {}
      simp only [hl', Bool.false_eq_true, if_false, h.size, Int.toNat_natCast, hseg.put (by simp), hpl]
      -- the position
      generalize hk : (List.takeWhile (fun y => !lt v y) (x :: xs)).length = k
      have hkpos : 0 < k := by
        rw [← hk, List.takeWhile_cons]; simp [hl']
      have hkle : k ≤ (x :: xs).length := by
        rw [← hk]; exact (List.takeWhile_prefix _).length_le
      obtain ⟨bs, b, cs, ys, y, zs, m, e, e1, e2, hyl, hbl, s1, s2, he, s3⟩ := h.cut (k := k - 1) (by omega)
      have htake : (a :: as).take k = bs ++ [b] := by
        rw [e1]
        have : k = (bs ++ [b]).length := by simp; omega
        rw [this, List.take_left' rfl]
      rw [htake, List.getLast?_concat]
      simp only [Option.map_some, Option.getD_some]
      have hspec : sortedInsert lt v (x :: xs) = ys ++ [y] ++ v :: zs := by
        have e3 : (x :: xs).takeWhile (fun y => !lt v y) = ys ++ [y] := by
          have hpre := List.takeWhile_prefix (l := x :: xs) (fun y => !lt v y)
          rw [List.prefix_iff_eq_take.1 hpre, hk, e2]
          have : k = (ys ++ [y]).length := by simp; omega
          rw [this, List.take_left' rfl]
        have e4 : (x :: xs).dropWhile (fun y => !lt v y) = zs := by
          have h1 := List.takeWhile_append_dropWhile (p := fun y => !lt v y) (l := x :: xs)
          rw [e3] at h1
          exact List.append_cancel_left (h1.trans e2)
        rw [sortedInsert, e3, e4]
      rw [hspec]
      rw [e1, e2] at h
      obtain ⟨n, hh1, hh2, e', g1, g2, g3, g4, g5, g6, g7⟩ := insert_mid (v := v) h s2 he s1
      have hne : ¬ ((!dup && m.obj.isSome && ((Ref.to w.heap.length).obj == m.obj)) = true) := by
        intro hc
        simp only [Bool.and_eq_true, beq_iff_eq] at hc
        have hm := hc.2
        cases cs with
        | nil =>
          cases zs with
          | nil => have : m = e := s2; rw [this, he] at hm; cases hm
          | cons => cases s2
        | cons c cs =>
          cases zs with
          | nil => cases s2
          | cons z zs =>
            have := s2.1
            rw [this] at hm
            simp only [Ref.to, Option.some.injEq] at hm
            have hlt := s2.lt c (by simp)
            omega
      simp only [g1, if_neg hne, g3, g4]
      refine ⟨_, _, rfl, .of_seg g5 g6 g7 ?_⟩
      rw [e2]
      simp
      omega

end Coll
end Verif
