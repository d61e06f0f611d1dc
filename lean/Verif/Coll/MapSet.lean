import Verif.Coll.Props

/-!
# Properties of `Set`, `Map`, `Range`, of iterators and of copies
-/

namespace Verif
namespace Coll

variable {α : Type}

/-! ## Set -/

/-- What a script can do with a set. -/
inductive TOp (α : Type) where
  | insert (v : α) | erase (i : Int) | clear
  | at (i : Int) | first | last | size | empty | indexOf (v : α) | contains (v : α) | elements
  deriving DecidableEq, Repr

/-- Insertion into an ascending sequence, behind the elements that are not greater. -/
def ascInsert (lt : α → α → Bool) (v : α) : List α → List α
  | [] => [v]
  | x :: xs => if lt v x then v :: x :: xs else x :: ascInsert lt v xs

/-- A set that keeps duplicates, as an ascending sequence. -/
def setSpec [DecidableEq α] (lt : α → α → Bool) : TOp α → List α → Out α × List α
  | .insert v, xs => (.done, ascInsert lt v xs)
  | .erase i, xs => spec (.erase i) xs
  | .clear, xs => spec .clear xs
  | .at i, xs => spec (.at i) xs
  | .first, xs => spec .first xs
  | .last, xs => spec .last xs
  | .size, xs => spec .size xs
  | .empty, xs => spec .empty xs
  | .indexOf v, xs => spec (.indexOf v) xs
  | .contains v, xs => spec (.contains v) xs
  | .elements, xs => spec .elements xs

/-- `System.Collections.Set` (Set.os). -/
def setStep [DecidableEq α] (lt : α → α → Bool) (allowDuplicates : Bool) : TOp α → W α → Out α × W α
  | .insert v, w => cmd w (setInsert lt allowDuplicates w v)
  | .erase i, w => common (.erase i) w
  | .clear, w => common .clear w
  | .at i, w => common (.at i) w
  | .first, w => common .first w
  | .last, w => common .last w
  | .size, w => common .size w
  | .empty, w => common .empty w
  | .indexOf v, w => common (.indexOf v) w
  | .contains v, w => common (.contains v) w
  | .elements, w => common .elements w

theorem sortedInsert_eq (lt : α → α → Bool) (v : α) : ∀ xs, sortedInsert lt v xs = ascInsert lt v xs
  | [] => rfl
  | x :: xs => by
    rw [ascInsert, ← sortedInsert_eq lt v xs, sortedInsert, List.takeWhile_cons, List.dropWhile_cons]
    by_cases h : lt v x = true
    · simp [h]
    · have : lt v x = false := by simpa using h
      simp [this, sortedInsert]

/-- What holds of a `Set`. -/
def SetOk (op : TOp α) (xs : List α) : Prop :=
  match op with
  | .erase i => i ≠ xs.length
  | .last => xs = []
  | _ => True

/-- The set holds the sequence, and refers to nothing if it is empty. -/
def SetRep (w : W α) (xs : List α) : Prop := (∃ as, Holds w as xs) ∧ Clean w

theorem set_sim [DecidableEq α] (lt : α → α → Bool) (dup : Bool) (op : TOp α) (w : W α) (xs : List α) (h : SetRep w xs)
    (ho : SetOk op xs) :
    (setStep lt dup op w).1 = (setSpec lt op xs).1 ∧ SetRep (setStep lt dup op w).2 (setSpec lt op xs).2 := by
  obtain ⟨⟨as, h1⟩, hc⟩ := id h
  have hq : ∀ o : Op α, o.query = true → (common o w).1 = (spec o xs).1 ∧ SetRep (common o w).2 (spec o xs).2 := by
    intro o hm
    obtain ⟨g1, g2, g3⟩ := common_holds h1 o hm
    exact ⟨g1, by rw [g2, g3]; exact h⟩
  cases op
  case insert v =>
    obtain ⟨w', as', e, hr⟩ := setInsert_holds lt dup h1 hc v
    simp only [setStep, setSpec, e]
    refine ⟨rfl, ⟨as', by rw [← sortedInsert_eq]; exact hr⟩, ?_⟩
    intro hz
    have := hr.size_zero.1 hz
    simp [sortedInsert] at this
  case erase i =>
    simp only [setStep, setSpec, common, spec]
    by_cases hi : 0 ≤ i ∧ i < xs.length
    · obtain ⟨w', as', e, hh, hcl, _⟩ := erase_holds h1 i hi.1 hi.2
      rw [e, if_pos hi]
      exact ⟨rfl, ⟨as', hh⟩, hcl⟩
    · rw [erase_out h1 i hi ho, if_neg hi]
      exact ⟨rfl, h⟩
  case clear =>
    simp only [setStep, setSpec, common, spec]
    obtain ⟨w', e, ⟨as', hr, _⟩, hcl⟩ := clear_holds h1
    rw [e]
    exact ⟨rfl, ⟨as', hr⟩, hcl⟩
  case last =>
    have hx : xs = [] := ho
    subst hx
    simp only [setStep, setSpec, common, spec]
    rw [last, if_pos h1.nil_of.2]
    exact ⟨rfl, h⟩
  case elements =>
    simp only [setStep, setSpec, common, spec]
    rw [visit_holds h1 hc]
    exact ⟨rfl, h⟩
  all_goals exact hq _ rfl

theorem setRep_empty : SetRep ({} : W α) [] := ⟨⟨[], .zero rfl rfl⟩, clean_empty⟩

/-- C68: in every history without `last` and `erase( size )` a set is observed as the ascending sequence of the values inserted. Missing:
duplicates, `last` and `erase( size )`, of which the property is false. -/
theorem set_is_ascending_sequence_partial [DecidableEq α] (lt : α → α → Bool) (dup : Bool) (ops : List (TOp α))
    (hops : Within (setSpec lt) SetOk ops []) : run (setStep lt dup) ops {} = run (setSpec lt) ops [] :=
  run_refines SetRep (set_sim lt dup) ops {} [] setRep_empty hops

example : Within (setSpec Nat.blt) SetOk [.insert 3, .insert 1, .insert 2, .erase 0, .insert 0, .elements] [] ∧
    run (setSpec Nat.blt) [.insert 3, .insert 1, .insert 2, .erase 0, .insert 0, .elements] [] =
      [.done, .done, .done, .done, .done, .values [0, 2, 3]] :=
  ⟨⟨trivial, trivial, trivial, by show (0 : Int) ≠ _; decide, trivial, trivial, trivial⟩, by decide⟩

/-- Every element is followed by elements that are not less. -/
def Ascending (lt : α → α → Bool) (xs : List α) : Prop := xs.Pairwise fun a b => lt b a = false

/-- A strict weak order, as `operator<` should be. -/
structure StrictWeak (lt : α → α → Bool) : Prop where
  asymm : ∀ a b, lt a b = true → lt b a = false
  negtrans : ∀ a b c, lt a b = false → lt b c = false → lt a c = false

theorem ascInsert_mem (lt : α → α → Bool) (v y : α) : ∀ xs : List α, y ∈ ascInsert lt v xs → y = v ∨ y ∈ xs
  | [], h => by simpa [ascInsert] using h
  | x :: xs, h => by
    rw [ascInsert] at h
    by_cases hl : lt v x = true
    · rw [if_pos hl] at h
      simpa using h
    · rw [if_neg hl] at h
      rcases List.mem_cons.1 h with rfl | h
      · simp
      · rcases ascInsert_mem lt v y xs h with rfl | h
        · simp
        · simp [h]

theorem ascInsert_ascending {lt : α → α → Bool} (hlt : StrictWeak lt) (v : α) : ∀ xs, Ascending lt xs → Ascending lt (ascInsert lt v xs)
  | [], _ => by simp [ascInsert, Ascending]
  | x :: xs, h => by
    have h' := List.pairwise_cons.1 h
    rw [ascInsert]
    by_cases hl : lt v x = true
    · rw [if_pos hl]
      refine List.pairwise_cons.2 ⟨?_, h⟩
      intro b hb
      rcases List.mem_cons.1 hb with rfl | hb
      · exact hlt.asymm _ _ hl
      · exact hlt.negtrans b x v (h'.1 b hb) (hlt.asymm _ _ hl)
    · rw [if_neg hl]
      refine List.pairwise_cons.2 ⟨?_, ascInsert_ascending hlt v xs h'.2⟩
      intro b hb
      rcases ascInsert_mem lt v b xs hb with rfl | hb
      · simpa using hl
      · exact h'.1 b hb

theorem ascInsert_perm (lt : α → α → Bool) (v : α) : ∀ xs, (ascInsert lt v xs).Perm (v :: xs)
  | [] => List.Perm.refl _
  | x :: xs => by
    rw [ascInsert]
    by_cases hl : lt v x = true
    · rw [if_pos hl]
    · rw [if_neg hl]
      exact ((ascInsert_perm lt v xs).cons x).trans (List.Perm.swap v x xs)

/-- C68: after any sequence of insertions into a new set, none of which fails, `foreach` visits the values that were inserted, each as often
as it was inserted, in ascending order. -/
theorem set_insertions_ascending [DecidableEq α] {lt : α → α → Bool} (hlt : StrictWeak lt) (dup : Bool) (vs : List α) :
    ∃ xs, run (setStep lt dup) (vs.map .insert ++ [.elements]) {} = vs.map (fun _ => .done) ++ [.values xs] ∧
      Ascending lt xs ∧ xs.Perm vs := by
  have hgen : ∀ (vs xs : List α), Ascending lt xs → ∃ ys, run (setSpec lt) (vs.map .insert ++ [.elements]) xs =
      vs.map (fun _ => .done) ++ [.values ys] ∧ Ascending lt ys ∧ ys.Perm (vs.reverse ++ xs) := by
    intro vs
    induction vs with
    | nil => exact fun xs h => ⟨xs, rfl, h, List.Perm.refl _⟩
    | cons v vs ih =>
      intro xs h
      obtain ⟨ys, h1, h2, h3⟩ := ih (ascInsert lt v xs) (ascInsert_ascending hlt v xs h)
      refine ⟨ys, ?_, h2, ?_⟩
      · rw [List.map_cons, List.cons_append, run, List.map_cons, List.cons_append, ← h1]
        rfl
      · refine h3.trans ?_
        rw [List.reverse_cons, List.append_assoc]
        exact List.Perm.append_left _ (ascInsert_perm lt v xs)
  obtain ⟨xs, h1, h2, h3⟩ := hgen vs [] List.Pairwise.nil
  refine ⟨xs, ?_, h2, ?_⟩
  · rw [← h1]
    refine set_is_ascending_sequence_partial lt dup _ ?_
    refine within_of_all (fun op => match op with | .erase _ | .last => False | _ => True) ?_ _ _ ?_
    · intro op s hp
      cases op <;> first | exact hp.elim | trivial
    · intro op hop
      rw [List.mem_append, List.mem_map] at hop
      rcases hop with ⟨v, _, rfl⟩ | hop
      · trivial
      · rw [List.mem_singleton.1 hop]; trivial
  · rw [List.append_nil] at h3
    exact h3.trans vs.reverse_perm

theorem natBlt_strictWeak : StrictWeak Nat.blt := by
  constructor
  · intro a b h
    rw [Nat.blt_eq] at h
    rw [Bool.eq_false_iff, ne_eq, Nat.blt_eq]
    omega
  · intro a b c h1 h2
    rw [Bool.eq_false_iff, ne_eq, Nat.blt_eq] at *
    omega

example : StrictWeak Nat.blt ∧ run (setStep Nat.blt false) [.insert 3, .insert 1, .insert 2, .elements] {} =
    [.done, .done, .done, .values [1, 2, 3]] := ⟨natBlt_strictWeak, by decide⟩

/-- A set that allows no duplicates takes them, without an exception. -/
theorem set_duplicates_refuted :
    run (setStep Nat.blt false) [.insert 1, .insert 1, .elements] {} = [.done, .done, .values [1, 1]] := by
  decide

/-- `last` of a set is the element that was inserted first. -/
theorem set_last_refuted :
    run (setStep Nat.blt false) [.insert 1, .insert 2, .last] {} = [.done, .done, .value 1] ∧
    run (setSpec Nat.blt) [.insert 1, .insert 2, .last] [] = [.done, .done, .value 2] := by
  decide

/-! ## Map -/

variable {κ β : Type}

/-- What a script can do with a map. -/
inductive MOp (κ β : Type) where
  | insert (k : κ) (v : β) | put (k : κ) (v : β) | get (k : κ) | contains (k : κ) | remove (k : κ) | size | empty | clear
  deriving DecidableEq, Repr

/-- A mathematical map: the value of every key, and the number of keys that have one. -/
structure FinMap (κ β : Type) where
  value : κ → Option β := fun _ => none
  count : Int := 0

/-- The map with another value for one key. -/
def FinMap.set [DecidableEq κ] (m : FinMap κ β) (k : κ) (v : Option β) (n : Int) : FinMap κ β :=
  { value := fun k' => if k' = k then v else m.value k', count := n }

/-- The operations of a mathematical map. -/
def mapSpec [DecidableEq κ] : MOp κ β → FinMap κ β → Out β × FinMap κ β
  | .insert k v, m => (.done, m.set k (some v) (if (m.value k).isSome then m.count else m.count + 1))
  | .put k v, m => if (m.value k).isSome then (.done, m.set k (some v) m.count) else (.raises .unknownKey, m)
  | .get k, m => ((m.value k).elim (.raises .unknownKey) .value, m)
  | .contains k, m => (.bool (m.value k).isSome, m)
  | .remove k, m => (.done, if (m.value k).isSome then m.set k none (m.count - 1) else m)
  | .size, m => (.int m.count, m)
  | .empty, m => (.bool (m.count == 0), m)
  | .clear, _ => (.done, {})

def mcmd (w : W (κ × β)) : Except Err (W (κ × β)) → Out β × W (κ × β)
  | .ok w' => (.done, w')
  | .error e => (.raises e, w)

/-- `System.Collections.Map` (Map.os). -/
def mapStep [DecidableEq κ] : MOp κ β → W (κ × β) → Out β × W (κ × β)
  | .insert k v, w => mcmd w (mapInsert w k v)
  | .put k v, w => mcmd w (mapPut (fun a b => decide (a = b)) w k v)
  | .get k, w =>
    match mapGet (fun a b => decide (a = b)) w k with
    | .ok v => (.value v, w)
    | .error e => (.raises e, w)
  | .contains k, w =>
    match mapContains (fun a b => decide (a = b)) w k with
    | .ok b => (.bool b, w)
    | .error e => (.raises e, w)
  | .remove k, w => mcmd w (mapRemove (fun a b => decide (a = b)) w k)
  | .size, w => (.int w.size, w)
  | .empty, w => (.bool (w.size == 0), w)
  | .clear, w => mcmd w (clear w)

/-- What holds of a `Map`: all but `insert` of a key that is there already. -/
def MapOk (op : MOp κ β) (m : FinMap κ β) : Prop :=
  match op with
  | .insert k _ => m.value k = none
  | _ => True

theorem lookup_none [DecidableEq κ] (k : κ) : ∀ (ps : List (κ × β)) (i : Nat),
    lookup (fun a b => decide (a = b)) k ps i = none → ∀ p ∈ ps, p.1 ≠ k
  | [], _, _, _, h => by cases h
  | q :: ps, i, h, p, hp => by
    rw [lookup] at h
    by_cases hq : q.1 = k
    · simp [hq] at h
    · simp only [hq, decide_false, Bool.false_eq_true, if_false] at h
      rcases List.mem_cons.1 hp with rfl | hp
      · exact hq
      · exact lookup_none k ps _ h p hp

theorem lookup_some [DecidableEq κ] (k : κ) : ∀ (ps : List (κ × β)) (i j : Nat) (p : κ × β),
    lookup (fun a b => decide (a = b)) k ps i = some (j, p) →
      ∃ l1 l2, ps = l1 ++ p :: l2 ∧ j = i + l1.length ∧ p.1 = k ∧ ∀ q ∈ l1, q.1 ≠ k
  | [], _, _, _, h => by cases h
  | q :: ps, i, j, p, h => by
    rw [lookup] at h
    by_cases hq : q.1 = k
    · simp only [hq, decide_true, if_true, Option.some.injEq, Prod.mk.injEq] at h
      obtain ⟨rfl, rfl⟩ := h
      exact ⟨[], ps, rfl, rfl, hq, by simp⟩
    · simp only [hq, decide_false, Bool.false_eq_true, if_false] at h
      obtain ⟨l1, l2, rfl, rfl, hk, hn⟩ := lookup_some k ps _ _ _ h
      refine ⟨q :: l1, l2, rfl, by simp; omega, hk, ?_⟩
      intro r hr
      rcases List.mem_cons.1 hr with rfl | hr
      · exact hq
      · exact hn r hr

/-- The value of a key in a list of pairs with different keys. -/
def ValueIn (ps : List (κ × β)) (k : κ) (o : Option β) : Prop :=
  match o with
  | none => ∀ p ∈ ps, p.1 ≠ k
  | some v => (k, v) ∈ ps

/-- The map holds these values. -/
def MapRep (w : W (κ × β)) (m : FinMap κ β) : Prop :=
  ∃ ps, (Rep w ps ∧ Clean w) ∧ (ps.map Prod.fst).Nodup ∧ m.count = ps.length ∧ ∀ k, ValueIn ps k (m.value k)

theorem key_unique {ps : List (κ × β)} (h : (ps.map Prod.fst).Nodup) {k : κ} {v v' : β} (h1 : (k, v) ∈ ps) (h2 : (k, v') ∈ ps) : v = v' := by
  induction ps with
  | nil => cases h1
  | cons p ps ih =>
    rw [List.map_cons, List.nodup_cons] at h
    rcases List.mem_cons.1 h1 with e1 | m1 <;> rcases List.mem_cons.1 h2 with e2 | m2
    · rw [← e1] at e2
      simp only [Prod.mk.injEq, true_and] at e2
      exact e2.symm
    · subst e1
      exact absurd (List.mem_map (f := Prod.fst).2 ⟨_, m2, rfl⟩) h.1
    · subst e2
      exact absurd (List.mem_map (f := Prod.fst).2 ⟨_, m1, rfl⟩) h.1
    · exact ih h.2 m1 m2

/-- What the loops of the map find. -/
theorem find_of_rep [DecidableEq κ] {w : W (κ × β)} {m : FinMap κ β} {ps : List (κ × β)} (hr : Rep w ps ∧ Clean w) (hv : ∀ k, ValueIn ps k (m.value k))
    (hnd : (ps.map Prod.fst).Nodup) (k : κ) :
    pairs w = .ok ps ∧
    (m.value k = none → lookup (fun a b => decide (a = b)) k ps 0 = none) ∧
    (∀ v, m.value k = some v → ∃ l1 l2, ps = l1 ++ (k, v) :: l2 ∧ lookup (fun a b => decide (a = b)) k ps 0 = some (l1.length, k, v)) := by
  obtain ⟨⟨as, h1, _⟩, hcl⟩ := hr
  refine ⟨visit_holds h1 hcl, ?_, ?_⟩
  · intro hn
    cases hl : lookup (fun a b => decide (a = b)) k ps 0 with
    | none => rfl
    | some r =>
      obtain ⟨j, p⟩ := r
      obtain ⟨l1, l2, rfl, _, hk, _⟩ := lookup_some k ps 0 j p hl
      have := hv k
      rw [hn] at this
      exact absurd hk (this p (by simp))
  · intro v hs
    have hm := hv k
    rw [hs] at hm
    have hm : (k, v) ∈ ps := hm
    cases hl : lookup (fun a b => decide (a = b)) k ps 0 with
    | none => exact absurd rfl (lookup_none k ps 0 hl _ hm)
    | some r =>
      obtain ⟨j, p⟩ := r
      obtain ⟨l1, l2, he, hj, hk, _⟩ := lookup_some k ps 0 j p hl
      obtain ⟨k', v'⟩ := p
      have hk : k' = k := hk
      subst hk
      have hm' : (k', v') ∈ ps := by rw [he]; simp
      have := key_unique hnd hm hm'
      subst this
      exact ⟨l1, l2, he, by rw [hj]; simp⟩

theorem seg_setValue {h : Heap α} {r bs b cs ys y zs e} {n : Node α} (hs : Seg h r (bs ++ b :: cs) (ys ++ y :: zs) e) (hl : bs.length = ys.length)
    (hn : h[b]? = some n) (hnd : (bs ++ b :: cs).Nodup) (y' : α) :
    Seg (h.set b { n with value := y' }) r (bs ++ b :: cs) (ys ++ y' :: zs) e := by
  obtain ⟨m, s1, hm, n', hn', hv, s3⟩ := (seg_append hl).1 hs
  rw [hn] at hn'
  simp only [Option.some.injEq] at hn'
  subst hn'
  have hlt : b < h.length := (List.getElem?_eq_some_iff.1 hn).1
  rw [List.nodup_append, List.nodup_cons] at hnd
  refine (seg_append hl).2 ⟨m, s1.set ?_ _, hm, { n with value := y' }, ?_, rfl, s3.set hnd.2.1.1 _⟩
  · intro hb
    exact hnd.2.2 b hb b (by simp) rfl
  · rw [List.getElem?_set_self hlt]

theorem setSecond_rep {w : W (κ × β)} {l1 l2 : List (κ × β)} {p : κ × β} (h : Rep w (l1 ++ p :: l2)) (v : β) :
    ∃ w', setSecond w l1.length v = .ok w' ∧ Rep w' (l1 ++ (p.1, v) :: l2) := by
  obtain ⟨as, h1, h2⟩ := h
  obtain ⟨bs, b, cs, ys, y, zs, m, e, rfl, e2, hyl, hbl, s1, s2, he, s3⟩ := h1.cut (k := l1.length) (by simp)
  have e3 : ys = l1 ∧ [y] ++ zs = p :: l2 := by
    rw [List.append_assoc] at e2
    exact (List.append_inj e2.symm hyl)
  obtain ⟨rfl, e4⟩ := e3
  simp only [List.singleton_append, List.cons.injEq] at e4
  obtain ⟨rfl, rfl⟩ := e4
  obtain ⟨_, n, hn, hv, _⟩ := s1.snoc
  obtain ⟨e, hseg, he⟩ := h1.seg (by simp)
  rw [List.append_assoc, List.singleton_append] at hseg
  have hnd := h1.nodup
  rw [List.append_assoc, List.singleton_append] at hnd
  rw [setSecond, walk_seg' s3 rfl]
  have ho : (Ref.to b).obj = some b := rfl
  simp only [ho, hn]
  refine ⟨_, rfl, bs ++ b :: cs, .of_seg ?_ he hnd ?_, ?_⟩
  · rw [hv]
    exact seg_setValue hseg (by omega) hn hnd _
  · simp only [h1.size]; simp
  · intro _
    simp only [h2 (by simp)]
    rw [List.append_assoc, List.singleton_append]

theorem nodup_keys_middle {l1 l2 : List (κ × β)} {k : κ} {v v' : β} (h : ((l1 ++ (k, v) :: l2).map Prod.fst).Nodup) :
    ((l1 ++ (k, v') :: l2).map Prod.fst).Nodup ∧ ((l1 ++ l2).map Prod.fst).Nodup ∧
      (∀ p ∈ l1 ++ l2, p.1 ≠ k) := by
  simp only [List.map_append, List.map_cons] at *
  refine ⟨h, ?_, ?_⟩
  · rw [List.nodup_append, List.nodup_cons] at h
    rw [List.nodup_append]
    exact ⟨h.1, h.2.1.2, fun a ha b hb => h.2.2 a ha b (List.mem_cons_of_mem _ hb)⟩
  · rw [List.nodup_append, List.nodup_cons] at h
    intro p hp
    rcases List.mem_append.1 hp with hp | hp
    · exact h.2.2 p.1 (List.mem_map.2 ⟨p, hp, rfl⟩) k (by simp)
    · rintro rfl
      exact h.2.1.1 (List.mem_map.2 ⟨p, hp, rfl⟩)

theorem map_sim [DecidableEq κ] (op : MOp κ β) (w : W (κ × β)) (m : FinMap κ β) (h : MapRep w m) (ho : MapOk op m) :
    (mapStep op w).1 = (mapSpec op m).1 ∧ MapRep (mapStep op w).2 (mapSpec op m).2 := by
  obtain ⟨ps, hr, hnd, hc, hv⟩ := id h
  obtain ⟨as, h1, h2⟩ := id hr.1
  cases op with
  | insert k v =>
    have hk : m.value k = none := ho
    obtain ⟨w', e, hr'⟩ := listPushBack_rep hr.1 (k, v)
    simp only [mapStep, mapSpec, mapInsert, e]
    have hnk := hv k
    rw [hk] at hnk
    have hnk : ∀ p ∈ ps, p.1 ≠ k := hnk
    refine ⟨rfl, ps ++ [(k, v)], ⟨hr', clean_of_rep hr' (by simp)⟩, ?_, ?_, ?_⟩
    · rw [List.map_append, List.nodup_append]
      refine ⟨hnd, by simp, ?_⟩
      intro a ha b hb
      obtain ⟨p, hp, rfl⟩ := List.mem_map.1 ha
      simp only [List.map_cons, List.map_nil, List.mem_singleton] at hb
      subst hb
      exact hnk p hp
    · simp [FinMap.set, hk, hc]
    · intro k'
      simp only [FinMap.set]
      by_cases hkk : k' = k
      · subst hkk; simp [ValueIn]
      · rw [if_neg hkk]
        have := hv k'
        cases hval : m.value k' with
        | none =>
          rw [hval] at this
          intro p hp
          rcases List.mem_append.1 hp with hp | hp
          · exact this p hp
          · rw [List.mem_singleton.1 hp]; exact fun e => hkk e.symm
        | some v' =>
          rw [hval] at this
          exact List.mem_append_left _ this
  | put k v =>
    obtain ⟨g1, g2, g3⟩ := find_of_rep hr hv hnd k
    rw [mapStep, mapSpec, mapPut, g1]
    cases hval : m.value k with
    | none =>
      simp only [g2 hval]
      exact ⟨rfl, h⟩
    | some v0 =>
      obtain ⟨l1, l2, rfl, hl⟩ := g3 v0 hval
      obtain ⟨w', e, hr'⟩ := setSecond_rep hr.1 v
      simp only [hl, e]
      obtain ⟨n1, n2, n3⟩ := nodup_keys_middle (v' := v) hnd
      refine ⟨rfl, _, ⟨hr', clean_of_rep hr' (by simp)⟩, n1, ?_, ?_⟩
      · simp [FinMap.set, hc]
      · intro k'
        simp only [Option.isSome_some, if_true, FinMap.set]
        by_cases hkk : k' = k
        · subst hkk; simp [ValueIn]
        · rw [if_neg hkk]
          have := hv k'
          cases hval' : m.value k' with
          | none =>
            rw [hval'] at this
            intro p hp
            rcases List.mem_append.1 hp with hp | hp
            · exact this p (List.mem_append_left _ hp)
            · rcases List.mem_cons.1 hp with rfl | hp
              · exact fun e => hkk e.symm
              · exact this p (List.mem_append_right _ (List.mem_cons_of_mem _ hp))
          | some v' =>
            rw [hval'] at this
            have this : (k', v') ∈ l1 ++ (k, v0) :: l2 := this
            rcases List.mem_append.1 this with hp | hp
            · exact List.mem_append_left _ hp
            · rcases List.mem_cons.1 hp with e | hp
              · simp only [Prod.mk.injEq] at e
                exact absurd e.1 hkk
              · exact List.mem_append_right _ (List.mem_cons_of_mem _ hp)
  | get k =>
    obtain ⟨g1, g2, g3⟩ := find_of_rep hr hv hnd k
    rw [mapStep, mapSpec, mapGet, g1]
    cases hval : m.value k with
    | none =>
      simp only [g2 hval]
      exact ⟨rfl, h⟩
    | some v0 =>
      obtain ⟨l1, l2, _, hl⟩ := g3 v0 hval
      simp only [hl]
      exact ⟨rfl, h⟩
  | contains k =>
    obtain ⟨g1, g2, g3⟩ := find_of_rep hr hv hnd k
    rw [mapStep, mapSpec, mapContains, g1]
    cases hval : m.value k with
    | none =>
      simp only [g2 hval]
      exact ⟨rfl, h⟩
    | some v0 =>
      obtain ⟨l1, l2, _, hl⟩ := g3 v0 hval
      simp only [hl]
      exact ⟨rfl, h⟩
  | remove k =>
    obtain ⟨g1, g2, g3⟩ := find_of_rep hr hv hnd k
    rw [mapStep, mapSpec, mapRemove, g1]
    cases hval : m.value k with
    | none =>
      simp only [g2 hval]
      exact ⟨rfl, h⟩
    | some v0 =>
      obtain ⟨l1, l2, rfl, hl⟩ := g3 v0 hval
      obtain ⟨n1, n2, n3⟩ := nodup_keys_middle (v' := v0) hnd
      obtain ⟨w', as', e, hh, hcl, hlast⟩ := erase_holds h1 l1.length (by omega) (by simp; omega)
      have he : (l1 ++ (k, v0) :: l2).eraseIdx (l1.length : Int).toNat = l1 ++ l2 := by
        rw [Int.toNat_natCast, List.eraseIdx_append_of_length_le (Nat.le_refl _)]
        simp
      rw [he] at hh hlast
      simp only [hl, e]
      refine ⟨rfl, l1 ++ l2, ⟨⟨as', hh, hlast (h2 (by simp))⟩, hcl⟩, n2, ?_, ?_⟩
      · simp [FinMap.set, hc]
        omega
      · intro k'
        simp only [Option.isSome_some, if_true, FinMap.set]
        by_cases hkk : k' = k
        · subst hkk
          rw [if_pos rfl]
          exact n3
        · rw [if_neg hkk]
          have := hv k'
          cases hval' : m.value k' with
          | none =>
            rw [hval'] at this
            intro p hp
            refine this p ?_
            rcases List.mem_append.1 hp with hp | hp
            · exact List.mem_append_left _ hp
            · exact List.mem_append_right _ (List.mem_cons_of_mem _ hp)
          | some v' =>
            rw [hval'] at this
            have this : (k', v') ∈ l1 ++ (k, v0) :: l2 := this
            rcases List.mem_append.1 this with hp | hp
            · exact List.mem_append_left _ hp
            · rcases List.mem_cons.1 hp with e | hp
              · simp only [Prod.mk.injEq] at e
                exact absurd e.1 hkk
              · exact List.mem_append_right _ hp
  | size => exact ⟨by simp [mapStep, mapSpec, h1.size, hc], h⟩
  | empty => exact ⟨by simp [mapStep, mapSpec, h1.size, hc], h⟩
  | clear =>
    obtain ⟨w', e, hr', hcl⟩ := clear_holds h1
    simp only [mapStep, mapSpec, e]
    exact ⟨rfl, [], ⟨hr', hcl⟩, by simp, rfl, fun k => by simp [ValueIn]⟩

/-- C69: in every history in which no key is inserted that is there already, a `Map` is observed as a mathematical map. Missing: `insert` of a
key that is there already, of which the property is false. -/
theorem map_is_finite_map_partial [DecidableEq κ] (ops : List (MOp κ β)) (hops : Within mapSpec MapOk ops {}) :
    run mapStep ops {} = run mapSpec ops ({} : FinMap κ β) :=
  run_refines MapRep map_sim ops {} {} ⟨[], ⟨rep_empty, clean_empty⟩, by simp, rfl, fun k => by simp [ValueIn]⟩ hops

example : Within mapSpec MapOk [.insert 1 10, .insert 2 20, .put 1 11, .get 1, .get 2, .remove 1, .get 1, .insert 1 12, .get 1, .size]
      ({} : FinMap Nat Nat) ∧
    run mapSpec [.insert 1 10, .insert 2 20, .put 1 11, .get 1, .get 2, .remove 1, .get 1, .insert 1 12, .get 1, .size]
      ({} : FinMap Nat Nat) =
      [.done, .done, .done, .value 11, .value 20, .done, .raises .unknownKey, .done, .value 12, .int 2] :=
  ⟨⟨rfl, rfl, trivial, trivial, trivial, trivial, trivial, rfl, trivial, trivial, trivial⟩, by decide⟩

/-- `insert` of a key that is there already is not seen by `get`, is counted, and shows after `remove`. -/
theorem map_insert_refuted :
    run mapSpec [.insert 1 10, .insert 1 20, .get 1, .size, .remove 1, .contains 1] ({} : FinMap Nat Nat) =
      [.done, .done, .value 20, .int 1, .done, .bool false] ∧
    run mapStep [.insert 1 10, .insert 1 20, .get 1, .size, .remove 1, .contains 1] ({} : W (Nat × Nat)) =
      [.done, .done, .value 10, .int 2, .done, .bool true] := by
  decide

/-- `indexOf` is 0 for every key that is in the map. -/
theorem map_indexOf_refuted [DecidableEq κ] {w : W (κ × β)} {m : FinMap κ β} (h : MapRep w m) (k : κ) :
    mapIndexOf (fun a b => decide (a = b)) w k = .ok (if (m.value k).isSome then 0 else -1) := by
  obtain ⟨ps, hr, hnd, hc, hv⟩ := h
  obtain ⟨g1, g2, g3⟩ := find_of_rep hr hv hnd k
  rw [mapIndexOf, g1]
  cases hval : m.value k with
  | none => simp [g2 hval]
  | some v0 =>
    obtain ⟨l1, l2, _, hl⟩ := g3 v0 hval
    simp [hl]

/-! ## Iterators -/

/-- C96: an iterator of a collection that holds `xs` visits each element once, in order; if it holds nothing, provided that it does not refer
to an element that was taken out (`Clean`). (That `List` and the others hold the sequence a script expects, and so that `foreach` visits it,
is part of C65 to C69, C93 and C94.) Missing: collections whose only element was taken out with `pop_front`, of which the property is false. -/
theorem iterator_visits_partial {w : W α} {xs : List α} (h : Rep w xs) (hc : xs = [] → w.first.obj = none) :
    visit w.heap (w.heap.length + 1) (iter w.first) = .ok xs := by
  obtain ⟨as, h1, _⟩ := h
  exact visit_holds h1 fun hz => hc (h1.size_zero.1 hz)

example : ∃ w : W Nat, Rep w [1, 2] ∧ ([1, 2] = [] → w.first.obj = none) := by
  obtain ⟨w, _, h⟩ := listPushBack_rep (rep_empty (α := Nat)) 1
  obtain ⟨w', _, h'⟩ := listPushBack_rep h 2
  exact ⟨w', h', nofun⟩

/-- A list that holds nothing, and whose iterator visits an element. -/
theorem iterator_visits_taken_refuted : ∃ w : W Nat, (listStep .popFront (listStep (.pushBack 1) {}).2).2 = w ∧ Rep w [] ∧
    visit w.heap (w.heap.length + 1) (iter w.first) = .ok [1] :=
  ⟨_, rfl, ⟨[], .zero rfl rfl, nofun⟩, rfl⟩

/-- A reverse iterator visits nothing: its first step accesses `null`, whatever the list holds. -/
theorem reverse_iterator_refuted {w : W α} {xs : List α} (h : Rep w xs) (hne : xs ≠ []) :
    revHasNext w.heap (iter w.last) = .ok true ∧ revNext w.heap (iter w.last) = .error .null := by
  obtain ⟨as, h1, h2⟩ := h
  obtain ⟨bs, b, rfl⟩ := exists_snoc (h1.ne_nil hne)
  have hl : w.last = .to b := by rw [h2 hne]; simp
  have hi : iter (.to b) = ⟨.to b, {}⟩ := rfl
  have e : revHasNext w.heap (iter w.last) = .ok true := by rw [hl]; rfl
  refine ⟨e, ?_⟩
  rw [revNext, e]
  rfl

/-! ## Copies -/

/-- `Copy` (List.os 18-26): another collection with the same items. Both are in one memory: `view w c` is what the original is while the
copy is `c`. -/
def view (w c : W α) : W α := { w with heap := c.heap }

/-- Appending to a copy. -/
def appendAll : W α → List α → Except Err (W α)
  | w, [] => .ok w
  | w, v :: vs =>
    match listPushBack w v with
    | .ok w' => appendAll w' vs
    | .error e => .error e

theorem listPushBack_first {w w' : W α} {v : α} (hz : w.size ≠ 0) (h : listPushBack w v = .ok w') : w'.first = w.first := by
  rw [listPushBack] at h
  simp only [if_neg hz] at h
  split at h
  · cases h
  · split at h
    · cases h
    · cases h; rfl

/-- C97: a list that is not empty and of which a copy has got more elements still has its size and its elements, by index. Missing: `foreach`,
and everything else that changes the copy, of which the property is false. -/
theorem copy_is_independent_partial {w : W α} {xs : List α} (h : Rep w xs) (hne : xs ≠ []) (vs : List α) :
    ∃ c, appendAll w vs = .ok c ∧ Rep c (xs ++ vs) ∧ (view w c).size = xs.length ∧ ∀ i, at' (view w c) i = at' w i := by
  have hgen : ∀ (vs ys : List α) (c : W α), Rep c (xs ++ ys) → c.first = w.first →
      ∃ c', appendAll c vs = .ok c' ∧ Rep c' (xs ++ ys ++ vs) ∧ c'.first = w.first := by
    intro vs
    induction vs with
    | nil => exact fun ys c hc hf => ⟨c, rfl, by simpa using hc, hf⟩
    | cons v vs ih =>
      intro ys c hc hf
      obtain ⟨c1, e, hc1⟩ := listPushBack_rep hc v
      obtain ⟨as, hc0, _⟩ := hc
      have hz : c.size ≠ 0 := by rw [ne_eq, hc0.size_zero]; simp [hne]
      have hf1 : c1.first = w.first := (listPushBack_first hz e).trans hf
      obtain ⟨c', e', hr, hf'⟩ := ih (ys ++ [v]) c1 (by simpa using hc1) hf1
      exact ⟨c', by rw [appendAll, e]; exact e', by simpa using hr, hf'⟩
  obtain ⟨c, e, hr, hf⟩ := hgen vs [] w (by simpa using h) rfl
  rw [List.append_nil] at hr
  obtain ⟨as, h1, _⟩ := id h
  refine ⟨c, e, hr, h1.size, ?_⟩
  intro i
  obtain ⟨cs, hc, _⟩ := hr
  rw [at_holds h1, at']
  have hsz : (view w c).size = xs.length := h1.size
  by_cases hi : 0 ≤ i ∧ i < xs.length
  · rw [dif_pos hi, if_neg (by rw [hsz]; omega)]
    have hci := at_holds hc i
    have hi' : 0 ≤ i ∧ i < (xs ++ vs).length := by rw [List.length_append]; omega
    rw [dif_pos hi', at', if_neg (by rw [hc.size]; omega), hf] at hci
    rw [List.getElem_append_left (by omega)] at hci
    exact hci
  · rw [dif_neg hi, if_pos (by rw [hsz]; omega)]

/-- What is appended to a copy is visited in the original; what is erased from the copy is gone from the original, which then has its last
element twice, or accesses `null`. -/
theorem copy_shares_items_refuted : ∃ w c d : W Nat, appendAll {} [1, 2, 3] = .ok w ∧
    (listStep (.pushBack 4) w).2 = c ∧ (listStep .elements (view w c)).1 = .values [1, 2, 3, 4] ∧ (listStep .size (view w c)).1 = .int 3 ∧
    (listStep (.erase 1) w).2 = d ∧ (listStep (.at 1) (view w d)).1 = .value 3 ∧ (listStep (.at 2) (view w d)).1 = .value 3 ∧
    (listStep (.at 2) (view w (listStep (.erase 2) w).2)).1 = .raises .null :=
  ⟨((appendAll {} [1, 2, 3]).toOption.getD {}), _, _, by rfl, rfl, by decide, by decide, rfl, by decide, by decide, by decide⟩

/-! ## Range -/

/-- The values a range stands for. -/
def rangeValues (start step : Int) : Nat → List Int
  | 0 => []
  | n + 1 => start :: rangeValues (start + step) step n

theorem mem_rangeValues {step : Int} : ∀ (n : Nat) (start v : Int), v ∈ rangeValues start step n ↔ ∃ i : Nat, i < n ∧ v = start + i * step
  | 0, start, v => by simp [rangeValues]
  | n + 1, start, v => by
    rw [rangeValues, List.mem_cons, mem_rangeValues n]
    constructor
    · rintro (rfl | ⟨i, hi, rfl⟩)
      · exact ⟨0, by omega, by simp⟩
      · refine ⟨i + 1, by omega, ?_⟩
        push_cast
        rw [Int.add_mul, Int.one_mul]
        omega
    · rintro ⟨i, hi, rfl⟩
      cases i with
      | zero => left; simp
      | succ i =>
        right
        refine ⟨i, by omega, ?_⟩
        push_cast
        rw [Int.add_mul, Int.one_mul]
        omega

theorem range_visit_from (r : Range) (hstep : 0 < r.step) (hle : r.start ≤ r.stop) : ∀ (k : Nat) (i : Int) (fuel : Nat),
    -1 ≤ i → i + 1 + k = r.size → k < fuel → Range.visit r fuel i = .ok (rangeValues (r.start + (i + 1) * r.step) r.step k)
  | 0, i, f + 1, _, hk, _ => by
    rw [Range.visit, if_neg (by omega)]
    rfl
  | k + 1, i, f + 1, hi, hk, hf => by
    rw [Range.visit, if_pos (by omega)]
    have hdiv : (r.stop - r.start).tdiv r.step = (r.stop - r.start) / r.step := by
      rw [Int.tdiv_eq_ediv_of_nonneg (by omega)]
    have hmul : (i + 1) * r.step ≤ r.stop - r.start := by
      have h1 : i + 1 ≤ (r.stop - r.start) / r.step := by
        rw [Range.size, hdiv] at hk
        omega
      exact (Int.le_ediv_iff_mul_le hstep).1 h1
    rw [Range.at', if_neg (by omega)]
    simp only
    rw [range_visit_from r hstep hle k (i + 1) f (by omega) (by push_cast at hk ⊢; omega) (by omega)]
    simp only [rangeValues]
    have : r.start + (i + 1) * r.step + r.step = r.start + (i + 1 + 1) * r.step := by
      rw [Int.add_mul (i + 1) 1, Int.one_mul]
      omega
    rw [this]

/-- C95: `foreach` over a range with a positive step and a start that is not behind its end visits, in ascending order, exactly the numbers from
the start to the end that the step leads to. Missing: negative steps and empty ranges, of which the property is false. -/
theorem range_visits_partial (r : Range) (hstep : 0 < r.step) (hle : r.start ≤ r.stop) :
    ∃ vs n, Range.visit r (r.size.toNat + 1) (-1) = .ok vs ∧ vs = rangeValues r.start r.step n ∧
      vs.Pairwise (· < ·) ∧ ∀ v, v ∈ vs ↔ r.start ≤ v ∧ v ≤ r.stop ∧ r.step ∣ v - r.start := by
  have hdiv : (r.stop - r.start).tdiv r.step = (r.stop - r.start) / r.step := by
    rw [Int.tdiv_eq_ediv_of_nonneg (by omega)]
  have hnn : 0 ≤ (r.stop - r.start) / r.step := Int.ediv_nonneg (by omega) (by omega)
  have hsz : r.size = (r.stop - r.start) / r.step + 1 := by rw [Range.size, hdiv]
  refine ⟨rangeValues r.start r.step r.size.toNat, r.size.toNat, ?_, rfl, ?_, ?_⟩
  · have := range_visit_from r hstep hle r.size.toNat (-1) (r.size.toNat + 1) (by omega) (by omega) (by omega)
    simpa using this
  · have hgen : ∀ (n : Nat) (s : Int), (rangeValues s r.step n).Pairwise (· < ·) := by
      intro n
      induction n with
      | zero => exact fun _ => List.Pairwise.nil
      | succ n ih =>
        intro s
        refine List.pairwise_cons.2 ⟨?_, ih _⟩
        intro v hv
        obtain ⟨i, _, rfl⟩ := (mem_rangeValues n _ _).1 hv
        have : 0 ≤ (i : Int) * r.step := Int.mul_nonneg (by omega) (by omega)
        omega
    exact hgen _ _
  · intro v
    rw [mem_rangeValues]
    constructor
    · rintro ⟨i, hi, rfl⟩
      have h0 : 0 ≤ (i : Int) * r.step := Int.mul_nonneg (by omega) (by omega)
      have h1 : (i : Int) ≤ (r.stop - r.start) / r.step := by omega
      have h2 := (Int.le_ediv_iff_mul_le hstep).1 h1
      refine ⟨by omega, by omega, i, ?_⟩
      rw [Int.mul_comm r.step]
      omega
    · rintro ⟨h1, h2, k, hk⟩
      have hk0 : 0 ≤ k := by
        rcases Int.lt_or_le k 0 with hn | hn
        · have := Int.mul_neg_of_pos_of_neg hstep hn
          omega
        · exact hn
      have hk1 : k ≤ (r.stop - r.start) / r.step := by
        rw [Int.le_ediv_iff_mul_le hstep, Int.mul_comm]
        omega
      refine ⟨k.toNat, by omega, ?_⟩
      rw [Int.toNat_of_nonneg hk0, Int.mul_comm]
      omega

example : Range.visit ⟨1, 8, 3⟩ (Range.size ⟨1, 8, 3⟩).toNat.succ (-1) = .ok [1, 4, 7] := by rfl

/-- With a negative step the first element is out of bounds. -/
theorem range_negative_step_refuted (r : Range) (hstep : r.step < 0) (hlt : r.stop < r.start) (fuel : Nat) :
    Range.visit r (fuel + 1) (-1) = .error .outOfBounds := by
  have hsz : (0 : Int) < r.size := by
    rw [Range.size]
    have : 0 ≤ (r.stop - r.start).tdiv r.step := Int.tdiv_nonneg_of_nonpos_of_nonpos (by omega) (by omega)
    omega
  rw [Range.visit, if_pos (by omega), Range.at', if_pos (by right; simp; omega)]

example : (⟨3, 1, -1⟩ : Range).step < 0 ∧ (⟨3, 1, -1⟩ : Range).stop < (⟨3, 1, -1⟩ : Range).start := by decide

/-- A range whose end is less than a step before its start is not empty, and its only element is out of bounds. -/
theorem range_empty_refuted : Range.visit ⟨1, 0, 2⟩ 2 (-1) = .error .outOfBounds := by
  rfl

end Coll
end Verif
