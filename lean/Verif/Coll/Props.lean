import Verif.Coll.Lemmas

/-!
# Properties of the collections

The specification is a mathematical sequence: `spec` says what every operation yields and what the sequence is afterwards.
-/

namespace Verif
namespace Coll

variable {α : Type}

/-! ## Specification -/

/-- What a script can do with a collection. -/
inductive Op (α : Type) where
  | pushBack (v : α) | pushFront (v : α) | popBack | popFront
  | insert (i : Int) (v : α) | erase (i : Int) | clear
  | at (i : Int) | first | last | size | empty
  | indexOf (v : α) | contains (v : α)
  /-- `foreach` -/
  | elements
  deriving DecidableEq, Repr

/-- What the script observes. -/
inductive Out (α : Type) where
  | done | value (v : α) | int (i : Int) | bool (b : Bool) | values (vs : List α) | raises (e : Err)
  /-- the class has no such method -/
  | missing
  deriving DecidableEq, Repr

/-- The position of the first element equal to `v`, or -1. -/
def specIndexOf [DecidableEq α] (v : α) : List α → Int
  | [] => -1
  | x :: xs =>
    if x = v then 0
    else if specIndexOf v xs = -1 then -1 else specIndexOf v xs + 1

/-- The operations of a mathematical sequence. -/
def spec [DecidableEq α] : Op α → List α → Out α × List α
  | .pushBack v, xs => (.done, xs ++ [v])
  | .pushFront v, xs => (.done, v :: xs)
  | .popBack, xs => if xs = [] then (.raises .outOfBounds, xs) else (.done, xs.dropLast)
  | .popFront, xs => if xs = [] then (.raises .outOfBounds, xs) else (.done, xs.tail)
  | .insert i v, xs =>
    if 0 ≤ i ∧ i ≤ xs.length then (.done, xs.take i.toNat ++ v :: xs.drop i.toNat) else (.raises .outOfBounds, xs)
  | .erase i, xs => if 0 ≤ i ∧ i < xs.length then (.done, xs.eraseIdx i.toNat) else (.raises .outOfBounds, xs)
  | .clear, _ => (.done, [])
  | .at i, xs => (if h : 0 ≤ i ∧ i < xs.length then .value (xs[i.toNat]'(by omega)) else .raises .outOfBounds, xs)
  | .first, xs => (if h : xs ≠ [] then .value (xs.head h) else .raises .outOfBounds, xs)
  | .last, xs => (if h : xs ≠ [] then .value (xs.getLast h) else .raises .outOfBounds, xs)
  | .size, xs => (.int xs.length, xs)
  | .empty, xs => (.bool (decide (xs = [])), xs)
  | .indexOf v, xs => (.int (specIndexOf v xs), xs)
  | .contains v, xs => (.bool (decide (v ∈ xs)), xs)
  | .elements, xs => (.values xs, xs)

/-- What is observed in the course of a history. -/
def run {ω β σ : Type} (step : ω → σ → β × σ) : List ω → σ → List β
  | [], _ => []
  | op :: ops, s => (step op s).1 :: run step ops (step op s).2

/-- A specification with a mark: whether the only element was taken out at the front, and nothing was put in since. It does not change what is
observed (`run_track`). -/
def track {ω β σ : Type} (abs : ω → σ → β × σ) (mark : ω → σ → Bool → Bool) (op : ω) (s : σ × Bool) : β × (σ × Bool) :=
  ((abs op s.1).1, ((abs op s.1).2, mark op s.1 s.2))

theorem run_track {ω β σ : Type} (abs : ω → σ → β × σ) (mark : ω → σ → Bool → Bool) : ∀ ops s b,
    run (track abs mark) ops (s, b) = run abs ops s
  | [], _, _ => rfl
  | op :: ops, s, b => by rw [run, run, track, run_track abs mark ops]

/-- The mark of a sequence. -/
def taken : Op α → List α → Bool → Bool
  | .popFront, xs, b => b || decide (xs.length = 1)
  | .pushBack _, _, _ => false
  | .pushFront _, _, _ => false
  | .insert i _, xs, b => b && !decide (0 ≤ i ∧ i ≤ xs.length)
  | .clear, _, _ => false
  | _, _, b => b

/-- A history in which every operation is allowed where it happens. -/
def Within {ω β σ : Type} (step : ω → σ → β × σ) (ok : ω → σ → Prop) : List ω → σ → Prop
  | [], _ => True
  | op :: ops, s => ok op s ∧ Within step ok ops (step op s).2

/-! ## The classes as state machines -/

/-- A method without result: what is observed, and the collection afterwards. -/
def cmd (w : W α) : Except Err (W α) → Out α × W α
  | .ok w' => (.done, w')
  | .error e => (.raises e, w)

/-- A method with a result that leaves the collection alone. -/
def qry (w : W α) : Except Err (Out α) → Out α × W α
  | .ok o => (o, w)
  | .error e => (.raises e, w)

def asValue : Except Err α → Except Err (Out α)
  | .ok v => .ok (.value v)
  | .error e => .error e

def asInt : Except Err Int → Except Err (Out α)
  | .ok i => .ok (.int i)
  | .error e => .error e

def asBool : Except Err Bool → Except Err (Out α)
  | .ok b => .ok (.bool b)
  | .error e => .error e

def asValues : Except Err (List α) → Except Err (Out α)
  | .ok vs => .ok (.values vs)
  | .error e => .error e

/-- The methods that are the same in `List`, `Vector`, `Set` and `DoubleLinkedList`. -/
def common [DecidableEq α] : Op α → W α → Out α × W α
  | .popFront, w => cmd w (popFront w)
  | .erase i, w => cmd w (erase w i)
  | .clear, w => cmd w (clear w)
  | .at i, w => qry w (asValue (at' w i))
  | .first, w => qry w (asValue (first w))
  | .last, w => qry w (asValue (last w))
  | .size, w => (.int w.size, w)
  | .empty, w => (.bool (empty w), w)
  | .indexOf v, w => qry w (asInt (indexOf (fun a b => decide (a = b)) w v))
  | .contains v, w => qry w (asBool (contains (fun a b => decide (a = b)) w v))
  | .elements, w => qry w (asValues (visit w.heap (w.heap.length + 1) (iter w.first)))
  | _, w => (.missing, w)

/-- `System.Collections.List` (List.os). -/
def listStep [DecidableEq α] : Op α → W α → Out α × W α
  | .pushBack v, w => cmd w (listPushBack w v)
  | .pushFront v, w => cmd w (listPushFront w v)
  | .popBack, w => cmd w (popBack w)
  | op, w => common op w

/-- `System.Collections.Vector` (Vector.os). -/
def vectorStep [DecidableEq α] : Op α → W α → Out α × W α
  | .pushBack v, w => cmd w (pushBack w v)
  | .pushFront v, w => cmd w (vectorPushFront w v)
  | .popBack, w => cmd w (popBack w)
  | .insert i v, w => cmd w (vectorInsert w i v)
  | op, w => common op w

/-- `System.Collections.DoubleLinkedList` (DoubleLinkedList.os). -/
def dllStep [DecidableEq α] : Op α → W α → Out α × W α
  | .pushBack v, w => cmd w (pushBack w v)
  | .pushFront v, w => cmd w (dllPushFront w v)
  | .popBack, w => cmd w (dllPopBack w)
  | op, w => common op w

/-! ## Refinement -/

/-- The general argument: operations that are simulated one by one are simulated in every history. -/
theorem run_refines {ω β σ τ : Type} {step : ω → σ → β × σ} {abs : ω → τ → β × τ} {ok : ω → τ → Prop} (R : σ → τ → Prop)
    (hstep : ∀ op s t, R s t → ok op t → (step op s).1 = (abs op t).1 ∧ R (step op s).2 (abs op t).2) :
    ∀ ops s t, R s t → Within abs ok ops t → run step ops s = run abs ops t
  | [], _, _, _, _ => rfl
  | op :: ops, s, t, hr, hw => by
    obtain ⟨h1, h2⟩ := hstep op s t hr hw.1
    rw [run, run, h1, run_refines R hstep ops _ _ h2 hw.2]

theorem specIndexOf_findIdx [DecidableEq α] (v : α) : ∀ xs : List α,
    specIndexOf v xs = match xs.findIdx? (fun x => decide (x = v)) with | some k => (k : Int) | none => -1
  | [] => rfl
  | x :: xs => by
    rw [specIndexOf, List.findIdx?_cons, specIndexOf_findIdx v xs]
    by_cases hx : x = v
    · simp [hx]
    · cases hf : xs.findIdx? (fun x => decide (x = v)) with
      | none => simp [hx]
      | some k =>
        simp [hx]

theorem contains_holds [DecidableEq α] {w : W α} {as : List Nat} {xs : List α} (h : Holds w as xs) (v : α) :
    contains (fun a b => decide (a = b)) w v = .ok (decide (v ∈ xs)) := by
  rw [contains, indexOf_holds _ h]
  cases hf : xs.findIdx? (fun x => decide (x = v)) with
  | none =>
    rw [List.findIdx?_eq_none_iff] at hf
    have : v ∉ xs := by
      intro hm
      have := hf v hm
      simp at this
    simp [this]
  | some k =>
    obtain ⟨hk, hp, _⟩ := List.findIdx?_eq_some_iff_getElem.1 hf
    have hv : xs[k] = v := by simpa using hp
    have : v ∈ xs := hv ▸ List.getElem_mem hk
    simp [this]

/-- The methods that only look. -/
def Op.query : Op α → Bool
  | .at _ | .first | .size | .empty | .indexOf _ | .contains _ => true
  | _ => false

/-- The common methods of a collection that holds `xs` (`last` aside). -/
theorem common_holds [DecidableEq α] {w : W α} {as : List Nat} {xs : List α} (h : Holds w as xs) :
    ∀ op : Op α, op.query = true →
      (common op w).1 = (spec op xs).1 ∧ (common op w).2 = w ∧ (spec op xs).2 = xs := by
  intro op hop
  cases op <;> first | cases hop | skip
  case «at» i =>
    rw [common, spec]
    rw [at_holds h]
    by_cases hi : 0 ≤ i ∧ i < xs.length
    · simp only [dif_pos hi]; exact ⟨rfl, rfl, trivial⟩
    · simp only [dif_neg hi]; exact ⟨rfl, rfl, trivial⟩
  case first =>
    rw [common, spec]
    rw [first_holds h]
    cases xs <;> exact ⟨rfl, rfl, rfl⟩
  case size => simp [common, spec, h.size]
  case empty =>
    simp only [common, spec, empty, and_true]
    congr 1
    have := h.size_zero
    by_cases hx : xs = []
    · simp [hx, this.2 hx]
    · have : ¬ w.size = 0 := fun e => hx (this.1 e)
      simp [hx, this]
  case indexOf v =>
    rw [common, spec, specIndexOf_findIdx]
    rw [indexOf_holds _ h]
    exact ⟨rfl, rfl, rfl⟩
  case contains v =>
    rw [common, spec]
    rw [contains_holds h]
    exact ⟨rfl, rfl, rfl⟩

theorem erase_out {w : W α} {as : List Nat} {xs : List α} (h : Holds w as xs) (i : Int) (hi : ¬ (0 ≤ i ∧ i < xs.length)) (hne : i ≠ xs.length) :
    erase w i = .error .outOfBounds := by
  rw [erase, if_pos (by rw [h.size]; omega)]

/-- The collection holds the sequence, and refers to nothing if it is empty and the mark is not set. -/
def TRep (w : W α) (s : List α × Bool) : Prop := Rep w s.1 ∧ (s.2 = false → Clean w)

theorem trep_empty : TRep ({} : W α) ([], false) := ⟨rep_empty, fun _ => clean_empty⟩

theorem common_sim [DecidableEq α] {w : W α} {s : List α × Bool} (h : TRep w s) :
    ∀ op : Op α, (match op with
        | .erase i => i ≠ s.1.length
        | .pushBack _ | .pushFront _ | .popBack | .insert _ _ => False
        | .elements => s.2 = false
        | _ => True) →
      (common op w).1 = (track spec taken op s).1 ∧ TRep (common op w).2 (track spec taken op s).2 := by
  intro op hop
  obtain ⟨xs, b⟩ := s
  obtain ⟨hr, hc⟩ := id h
  have hr : Rep w xs := hr
  have hc : b = false → Clean w := hc
  obtain ⟨as, h1, h2⟩ := id hr
  have hq : op.query = true → taken op xs b = b →
      (common op w).1 = (track spec taken op (xs, b)).1 ∧ TRep (common op w).2 (track spec taken op (xs, b)).2 := by
    intro hm ht
    obtain ⟨g1, g2, g3⟩ := common_holds h1 op hm
    refine ⟨g1, ?_⟩
    simp only [track]
    rw [g2, g3, ht]
    exact h
  cases op <;> try exact hop.elim
  case popFront =>
    simp only [common, track, spec, taken]
    cases xs with
    | nil => rw [popFront_nil hr]; exact ⟨rfl, hr, by simpa [cmd] using hc⟩
    | cons x xs =>
      obtain ⟨w', e, hr', hc'⟩ := popFront_rep hr
      rw [e]
      refine ⟨rfl, hr', ?_⟩
      intro hb
      refine hc' ?_
      rintro rfl
      simp at hb
  case erase i =>
    simp only [common, track, spec, taken]
    by_cases hi : 0 ≤ i ∧ i < xs.length
    · obtain ⟨w', as', e, hh, hcl, hl⟩ := erase_holds h1 i hi.1 hi.2
      rw [e, if_pos hi]
      refine ⟨rfl, ⟨as', hh, hl (h2 ?_)⟩, fun _ => hcl⟩
      rintro rfl
      simp at hi
      omega
    · rw [erase_out h1 i hi hop, if_neg hi]
      exact ⟨rfl, h⟩
  case clear =>
    simp only [common, track, spec, taken]
    obtain ⟨w', e, hr, hcl⟩ := clear_holds h1
    rw [e]
    exact ⟨rfl, hr, fun _ => hcl⟩
  case last =>
    simp only [common, track, spec, taken]
    rw [last_rep hr]
    by_cases hx : xs ≠ []
    · simp only [dif_pos hx]; exact ⟨rfl, h⟩
    · simp only [dif_neg hx]; exact ⟨rfl, h⟩
  case elements =>
    simp only [common, track, spec, taken]
    rw [visit_holds h1 (hc hop)]
    exact ⟨rfl, h⟩
  all_goals exact hq rfl rfl

theorem popBack_nil {w : W α} (h : Rep w []) : popBack w = .error .outOfBounds := by
  obtain ⟨as, h1, _⟩ := h
  rw [popBack, if_pos (by rw [h1.nil_of.2]; omega)]

/-- What holds of a `List`: all but `pop_back` of a list that is not empty, `erase` of the index `size`, and `foreach` where the mark is set. -/
def ListOk (op : Op α) (s : List α × Bool) : Prop :=
  match op with
  | .popBack => s.1 = []
  | .erase i => i ≠ s.1.length
  | .insert _ _ => False
  | .elements => s.2 = false
  | _ => True

theorem list_sim [DecidableEq α] (op : Op α) (w : W α) (s : List α × Bool) (h : TRep w s) (ho : ListOk op s) :
    (listStep op w).1 = (track spec taken op s).1 ∧ TRep (listStep op w).2 (track spec taken op s).2 := by
  cases op <;> try exact ho.elim
  case pushBack v =>
    simp only [listStep, track, spec, taken]
    obtain ⟨w', e, hr⟩ := listPushBack_rep h.1 v
    rw [e]
    exact ⟨rfl, hr, fun _ => clean_of_rep hr (by simp)⟩
  case pushFront v =>
    simp only [listStep, track, spec, taken]
    obtain ⟨w', e, hr⟩ := listPushFront_rep h.1 v
    rw [e]
    exact ⟨rfl, hr, fun _ => clean_of_rep hr (by simp)⟩
  case popBack =>
    obtain ⟨xs, b⟩ := s
    have : xs = [] := ho
    subst this
    simp only [listStep, track, spec, taken]
    rw [popBack_nil h.1]
    exact ⟨rfl, h⟩
  case erase i => exact common_sim h (.erase i) ho
  case elements => exact common_sim h .elements ho
  all_goals exact common_sim h _ trivial

/-- The operations the property names. -/
def ListOp : Op α → Prop
  | .popBack | .erase _ | .insert _ _ | .elements => False
  | _ => True

theorem within_of_all {ω β σ : Type} {step : ω → σ → β × σ} {ok : ω → σ → Prop} (p : ω → Prop) (h : ∀ op s, p op → ok op s) :
    ∀ ops s, (∀ op ∈ ops, p op) → Within step ok ops s
  | [], _, _ => trivial
  | op :: ops, s, hp => ⟨h op s (hp op (by simp)), within_of_all p h ops _ fun o ho => hp o (List.mem_cons_of_mem _ ho)⟩

/-- C65: whatever a script does to a new `List` with the operations of the property (and `clear`, `contains`, `empty`), it observes a
mathematical sequence. -/
theorem list_is_sequence [DecidableEq α] (ops : List (Op α)) (hops : ∀ op ∈ ops, ListOp op) :
    run listStep ops {} = run spec ops ([] : List α) := by
  rw [← run_track spec taken ops [] false]
  refine run_refines TRep list_sim ops {} _ trep_empty (within_of_all ListOp ?_ ops _ hops)
  intro op s hp
  cases op <;> first | exact hp.elim | trivial

example : ∃ ops : List (Op Nat), (∀ op ∈ ops, ListOp op) ∧ run spec ops [] =
    [.done, .done, .done, .value 1, .int 2, .done, .value 3, .raises .outOfBounds] :=
  ⟨[.pushBack 2, .pushFront 1, .pushBack 3, .first, .indexOf 3, .popFront, .last, .at 2],
    by intro op hop; simp at hop; rcases hop with h | h | h | h | h | h | h | h <;> subst h <;> trivial, by decide⟩

/-- C65, more operations: `erase` of an index other than `size`, `pop_back` of an empty list, and `foreach` unless the only element was taken out
with `pop_front` and nothing was put in since. Missing: the other cases, of which it is false. -/
theorem list_is_sequence_with_erase_partial [DecidableEq α] (ops : List (Op α)) (hops : Within (track spec taken) ListOk ops ([], false)) :
    run listStep ops {} = run spec ops ([] : List α) := by
  rw [← run_track spec taken ops [] false]
  exact run_refines TRep list_sim ops {} _ trep_empty hops

example : Within (track spec taken) ListOk [.pushBack 1, .pushBack 2, .pushBack 3, .erase 1, .popFront, .elements] (([] : List Nat), false) ∧
    run spec [.pushBack 1, .pushBack 2, .pushBack 3, .erase 1, .popFront, .elements] ([] : List Nat) =
      [.done, .done, .done, .done, .done, .values [3]] :=
  ⟨⟨trivial, trivial, trivial, by show (1 : Int) ≠ _; decide, trivial, rfl, trivial⟩, by decide⟩

/-- `pop_front` of the only element leaves a list that is empty and over which `foreach` visits the element that was taken out. -/
theorem list_pop_front_refuted :
    run spec [.pushBack 1, .popFront, .empty, .elements] ([] : List Nat) = [.done, .done, .bool true, .values []] ∧
    run listStep [.pushBack 1, .popFront, .empty, .elements] ({} : W Nat) = [.done, .done, .bool true, .values [1]] := by
  decide

/-- `pop_back` keeps the element it should remove: it is still visited, and `last` still returns it. -/
theorem list_pop_back_refuted : ∃ ops : List (Op Nat), ops = [.pushBack 1, .pushBack 2, .popBack, .last, .elements] ∧
    run spec ops [] = [.done, .done, .done, .value 1, .values [1]] ∧
    run listStep ops {} = [.done, .done, .done, .value 2, .values [1, 2]] :=
  ⟨_, rfl, by decide, by decide⟩

/-- `erase` of the index `size` raises no exception: it makes the list shorter for `size` only, or accesses `null`. -/
theorem list_erase_size_refuted :
    (run spec [.pushBack 1, .pushBack 2, .erase 2, .size, .elements] ([] : List Nat) =
      [.done, .done, .raises .outOfBounds, .int 2, .values [1, 2]] ∧
     run listStep [.pushBack 1, .pushBack 2, .erase 2, .size, .elements] ({} : W Nat) =
      [.done, .done, .done, .int 1, .values [1, 2]]) ∧
    run spec [.erase 0] ([] : List Nat) = [.raises .outOfBounds] ∧ run listStep [.erase 0] ({} : W Nat) = [.raises .null] := by
  decide

/-! ## Vector -/

/-- What holds of a `Vector`. -/
def VectorOk (op : Op α) (s : List α × Bool) : Prop :=
  match op with
  | .popBack => s.1 = []
  | .erase i => i ≠ s.1.length
  | .insert i _ => 0 ≤ i ∧ i ≤ s.1.length → s.2 = false
  | .elements => s.2 = false
  | _ => True

theorem insert_out {w : W α} {as : List Nat} {xs : List α} (h : Holds w as xs) (i : Int) (v : α) (hi : ¬ (0 ≤ i ∧ i ≤ xs.length)) :
    vectorInsert w i v = .error .outOfBounds := by
  rw [vectorInsert, if_pos (by rw [h.size]; omega)]

theorem vector_sim [DecidableEq α] (op : Op α) (w : W α) (s : List α × Bool) (h : TRep w s) (ho : VectorOk op s) :
    (vectorStep op w).1 = (track spec taken op s).1 ∧ TRep (vectorStep op w).2 (track spec taken op s).2 := by
  cases op
  case pushBack v =>
    simp only [vectorStep, track, spec, taken]
    obtain ⟨w', e, hr⟩ := pushBack_rep h.1 v
    rw [e]
    exact ⟨rfl, hr, fun _ => clean_of_rep hr (by simp)⟩
  case pushFront v =>
    simp only [vectorStep, track, spec, taken]
    obtain ⟨w', e, hr⟩ := vectorPushFront_rep h.1 v
    rw [e]
    exact ⟨rfl, hr, fun _ => clean_of_rep hr (by simp)⟩
  case popBack =>
    obtain ⟨xs, b⟩ := s
    have : xs = [] := ho
    subst this
    simp only [vectorStep, track, spec, taken]
    rw [popBack_nil h.1]
    exact ⟨rfl, h⟩
  case insert i v =>
    simp only [vectorStep, track, spec, taken]
    by_cases hi : 0 ≤ i ∧ i ≤ s.1.length
    · obtain ⟨w', e, hr⟩ := vectorInsert_rep h.1 (h.2 (ho hi)) i v hi.1 hi.2
      rw [e, if_pos hi]
      exact ⟨rfl, hr, fun _ => clean_of_rep hr (by simp)⟩
    · obtain ⟨as, h1, _⟩ := id h.1
      rw [insert_out h1 i v hi, if_neg hi]
      refine ⟨rfl, h.1, ?_⟩
      simp only [hi, decide_false, Bool.not_false, Bool.and_true]
      exact h.2
  case erase i => exact common_sim h (.erase i) ho
  case elements => exact common_sim h .elements ho
  all_goals exact common_sim h _ trivial

/-- C66: a `Vector` is observed as a mathematical sequence in every history without `pop_back` of a vector that is not empty, without `erase` of
the index `size`, and without `insert` and `foreach` while the vector is empty because its only element was taken out with `pop_front`.
Missing: these, of which the property is false. -/
theorem vector_is_sequence_partial [DecidableEq α] (ops : List (Op α)) (hops : Within (track spec taken) VectorOk ops ([], false)) :
    run vectorStep ops {} = run spec ops ([] : List α) := by
  rw [← run_track spec taken ops [] false]
  exact run_refines TRep vector_sim ops {} _ trep_empty hops

example : Within (track spec taken) VectorOk [.insert 0 1, .insert 1 3, .insert 1 2, .insert 5 9, .pushFront 0, .erase 3, .elements, .last]
      (([] : List Nat), false) ∧
    run spec [.insert 0 1, .insert 1 3, .insert 1 2, .insert 5 9, .pushFront 0, .erase 3, .elements, .last] ([] : List Nat) =
      [.done, .done, .done, .raises .outOfBounds, .done, .done, .values [0, 1, 2], .value 2] :=
  ⟨⟨fun _ => rfl, fun _ => rfl, fun _ => rfl, fun _ => rfl, trivial, by show (3 : Int) ≠ _; decide, rfl, trivial, trivial⟩, by decide⟩

/-- After `pop_front` of the only element, `insert` of an element leaves `last` at the element that was taken out, and loses what is appended
then. -/
theorem vector_pop_front_refuted :
    run spec [.pushBack 1, .popFront, .insert 0 2, .last, .pushBack 3, .elements] ([] : List Nat) =
      [.done, .done, .done, .value 2, .done, .values [2, 3]] ∧
    run vectorStep [.pushBack 1, .popFront, .insert 0 2, .last, .pushBack 3, .elements] ({} : W Nat) =
      [.done, .done, .done, .value 1, .done, .values [2]] := by
  decide

/-- `pop_back` removes nothing: the element is still visited, and comes back with the next `push_back` — where the new element should be. -/
theorem vector_pop_back_refuted :
    run spec [.pushBack 1, .pushBack 2, .popBack, .pushBack 3, .at 1, .elements] ([] : List Nat) =
      [.done, .done, .done, .done, .value 3, .values [1, 3]] ∧
    run vectorStep [.pushBack 1, .pushBack 2, .popBack, .pushBack 3, .at 1, .elements] ({} : W Nat) =
      [.done, .done, .done, .done, .value 2, .values [1, 2, 3]] := by
  decide

/-- After `pop_back` of the only element a vector that is empty has a last element again as soon as something is inserted: the old one. -/
theorem vector_pop_only_refuted :
    run spec [.pushBack 1, .popBack, .insert 0 2, .last, .elements] ([] : List Nat) = [.done, .done, .done, .value 2, .values [2]] ∧
    run vectorStep [.pushBack 1, .popBack, .insert 0 2, .last, .elements] ({} : W Nat) = [.done, .done, .done, .value 1, .values [2, 1]] := by
  decide

/-- `erase( size )` is accepted. -/
theorem vector_erase_size_refuted :
    run spec [.pushBack 1, .pushBack 2, .erase 2, .size] ([] : List Nat) = [.done, .done, .raises .outOfBounds, .int 2] ∧
    run vectorStep [.pushBack 1, .pushBack 2, .erase 2, .size] ({} : W Nat) = [.done, .done, .done, .int 1] := by
  decide

/-! ## DoubleLinkedList -/

/-- What holds of a `DoubleLinkedList`. -/
def DllOk (op : Op α) (s : List α × Bool) : Prop :=
  match op with
  | .popBack => s.1 = []
  | .erase i => i ≠ s.1.length
  | .pushFront _ => s.1 ≠ []
  | .insert _ _ => False
  | .elements => s.2 = false
  | _ => True

theorem dllPushFront_rep {w : W α} {xs : List α} (h : Rep w xs) (hne : xs ≠ []) (v : α) :
    ∃ w', dllPushFront w v = .ok w' ∧ Rep w' (v :: xs) := by
  obtain ⟨as, h1, h2⟩ := h
  rw [dllPushFront]
  simp only [(h1.push v {}).1]
  refine ⟨_, rfl, _, (h1.push v _).2, ?_⟩
  intro _
  simp only [h2 hne]
  rw [lastRef_cons _ (h1.ne_nil hne)]

theorem dll_sim [DecidableEq α] (op : Op α) (w : W α) (s : List α × Bool) (h : TRep w s) (ho : DllOk op s) :
    (dllStep op w).1 = (track spec taken op s).1 ∧ TRep (dllStep op w).2 (track spec taken op s).2 := by
  cases op <;> try exact ho.elim
  case pushBack v =>
    simp only [dllStep, track, spec, taken]
    obtain ⟨w', e, hr⟩ := pushBack_rep h.1 v
    rw [e]
    exact ⟨rfl, hr, fun _ => clean_of_rep hr (by simp)⟩
  case pushFront v =>
    simp only [dllStep, track, spec, taken]
    obtain ⟨w', e, hr⟩ := dllPushFront_rep h.1 ho v
    rw [e]
    exact ⟨rfl, hr, fun _ => clean_of_rep hr (by simp)⟩
  case popBack =>
    obtain ⟨xs, b⟩ := s
    have : xs = [] := ho
    subst this
    obtain ⟨as, h1, _⟩ := id h.1
    simp only [dllStep, track, spec, taken]
    rw [dllPopBack, if_pos (by rw [h1.nil_of.2]; omega)]
    exact ⟨rfl, h⟩
  case erase i => exact common_sim h (.erase i) ho
  case elements => exact common_sim h .elements ho
  all_goals exact common_sim h _ trivial

/-- C94: a `DoubleLinkedList` is observed as a mathematical sequence in every history without `push_front` on an empty list, `pop_back` of
a list that is not empty, `erase` of the index `size`, and `foreach` over a list that is empty because its only element was taken out with
`pop_front`; of these the property is false. -/
theorem double_linked_list_is_sequence_partial [DecidableEq α] (ops : List (Op α)) (hops : Within (track spec taken) DllOk ops ([], false)) :
    run dllStep ops {} = run spec ops ([] : List α) := by
  rw [← run_track spec taken ops [] false]
  exact run_refines TRep dll_sim ops {} _ trep_empty hops

example : Within (track spec taken) DllOk [.pushBack 2, .pushFront 1, .pushBack 3, .popFront, .elements, .last] (([] : List Nat), false) ∧
    run spec [.pushBack 2, .pushFront 1, .pushBack 3, .popFront, .elements, .last] ([] : List Nat) =
      [.done, .done, .done, .done, .values [2, 3], .value 3] :=
  ⟨⟨trivial, by show [_] ≠ []; nofun, trivial, trivial, rfl, trivial, trivial⟩, by decide⟩

/-- `pop_front` of the only element leaves an empty list over which `foreach` visits the element that was taken out. -/
theorem double_linked_pop_front_refuted :
    run spec [.pushBack 1, .popFront, .elements] ([] : List Nat) = [.done, .done, .values []] ∧
    run dllStep [.pushBack 1, .popFront, .elements] ({} : W Nat) = [.done, .done, .values [1]] := by
  decide

/-- `push_front` on an empty list: the list has a first, but no last element, and nothing can be appended. -/
theorem double_linked_push_front_refuted :
    run spec [.pushFront 1, .first, .last, .pushBack 2] ([] : List Nat) = [.done, .value 1, .value 1, .done] ∧
    run dllStep [.pushFront 1, .first, .last, .pushBack 2] ({} : W Nat) = [.done, .value 1, .raises .null, .raises .null] := by
  decide

/-- `pop_back` removes nothing. -/
theorem double_linked_pop_back_refuted :
    run spec [.pushBack 1, .pushBack 2, .popBack, .last, .elements] ([] : List Nat) = [.done, .done, .done, .value 1, .values [1]] ∧
    run dllStep [.pushBack 1, .pushBack 2, .popBack, .last, .elements] ({} : W Nat) = [.done, .done, .done, .value 2, .values [1, 2]] := by
  decide

/-! ## Queue -/

/-- What a script can do with a queue. -/
inductive QOp (α : Type) where
  | enqueue (v : α) | dequeue | peek | size | empty | clear | at (i : Int) | elements
  deriving DecidableEq, Repr

/-- First in, first out. -/
def queueSpec : QOp α → List α → Out α × List α
  | .enqueue v, xs => (.done, xs ++ [v])
  | .dequeue, [] => (.raises .outOfBounds, [])
  | .dequeue, x :: xs => (.value x, xs)
  | .peek, [] => (.raises .outOfBounds, [])
  | .peek, x :: xs => (.value x, x :: xs)
  | .size, xs => (.int xs.length, xs)
  | .empty, xs => (.bool xs.isEmpty, xs)
  | .clear, _ => (.done, [])
  | .at i, xs => (if h : 0 ≤ i ∧ i < xs.length then .value (xs[i.toNat]'(by omega)) else .raises .outOfBounds, xs)
  | .elements, xs => (.values xs, xs)

/-- `System.Collections.Queue` (Queue.os), which passes everything on to a `List`. -/
def queueStep : QOp α → W α → Out α × W α
  | .enqueue v, w => cmd w (listPushBack w v)
  | .dequeue, w =>
    match dequeue w with
    | .ok (w', v) => (.value v, w')
    | .error e => (.raises e, w)
  | .peek, w => qry w (asValue (queuePeek w))
  | .size, w => (.int w.size, w)
  | .empty, w => (.bool (empty w), w)
  | .clear, w => cmd w (clear w)
  | .at i, w => qry w (asValue (at' w i))
  | .elements, w => qry w (asValues (visit w.heap (w.heap.length + 1) (iter w.first)))

/-- The mark of a queue. -/
def qTaken : QOp α → List α → Bool → Bool
  | .dequeue, xs, b => b || decide (xs.length = 1)
  | .enqueue _, _, _ => false
  | .clear, _, _ => false
  | _, _, b => b

/-- `peek` is right as long as the queue has at most one element, `foreach` as long as the mark is not set. -/
def QueueOk (op : QOp α) (s : List α × Bool) : Prop :=
  match op with
  | .peek => s.1.length ≤ 1
  | .elements => s.2 = false
  | _ => True

theorem queue_sim (op : QOp α) (w : W α) (s : List α × Bool) (h : TRep w s) (ho : QueueOk op s) :
    (queueStep op w).1 = (track queueSpec qTaken op s).1 ∧ TRep (queueStep op w).2 (track queueSpec qTaken op s).2 := by
  obtain ⟨xs, b⟩ := s
  obtain ⟨hr, hc⟩ := id h
  have hr : Rep w xs := hr
  have hc : b = false → Clean w := hc
  obtain ⟨as, h1, h2⟩ := id hr
  cases op with
  | enqueue v =>
    simp only [queueStep, track, queueSpec, qTaken]
    obtain ⟨w', e, hr⟩ := listPushBack_rep hr v
    rw [e]
    exact ⟨rfl, hr, fun _ => clean_of_rep hr (by simp)⟩
  | dequeue =>
    rw [queueStep, dequeue]
    cases xs with
    | nil =>
      rw [if_pos (by rw [h1.size]; simp)]
      exact ⟨rfl, hr, by simpa [track, qTaken] using hc⟩
    | cons x xs =>
      obtain ⟨w', e, hr', hc'⟩ := popFront_rep hr
      rw [if_neg (by rw [h1.size]; simp), at_holds h1, dif_pos (by simp), e]
      refine ⟨rfl, hr', ?_⟩
      intro hb
      refine hc' ?_
      rintro rfl
      simp [track, qTaken] at hb
  | peek =>
    have hl : xs.length ≤ 1 := ho
    rw [queueStep, queuePeek, last_rep hr]
    cases xs with
    | nil => exact ⟨rfl, h⟩
    | cons x xs =>
      have : xs = [] := by cases xs; rfl; simp at hl
      subst this
      exact ⟨rfl, h⟩
  | size => exact ⟨by simp [queueStep, track, queueSpec, h1.size], h⟩
  | empty =>
    refine ⟨?_, h⟩
    have := h1.size_zero
    cases xs with
    | nil => simp [queueStep, track, queueSpec, empty, this.2 rfl]
    | cons x xs =>
      have : ¬ w.size = 0 := by rw [this]; simp
      simp [queueStep, track, queueSpec, empty, this]
  | clear =>
    simp only [queueStep, track, queueSpec, qTaken]
    obtain ⟨w', e, hr, hcl⟩ := clear_holds h1
    rw [e]
    exact ⟨rfl, hr, fun _ => hcl⟩
  | «at» i =>
    simp only [queueStep, track, queueSpec, qTaken]
    rw [at_holds h1]
    by_cases hi : 0 ≤ i ∧ i < xs.length
    · simp only [dif_pos hi]; exact ⟨rfl, h⟩
    · simp only [dif_neg hi]; exact ⟨rfl, h⟩
  | elements =>
    simp only [queueStep, track, queueSpec, qTaken]
    rw [visit_holds h1 (hc ho)]
    exact ⟨rfl, h⟩

/-- C93: a `Queue` is first in, first out in every history in which `peek` is only used with at most one element in the queue, and `foreach` not
after the only element was dequeued. Missing: `peek` and `foreach` otherwise, of which the property is false. -/
theorem queue_is_fifo_partial (ops : List (QOp α)) (hops : Within (track queueSpec qTaken) QueueOk ops ([], false)) :
    run queueStep ops {} = run queueSpec ops ([] : List α) := by
  rw [← run_track queueSpec qTaken ops [] false]
  exact run_refines TRep queue_sim ops {} _ trep_empty hops

example : Within (track queueSpec qTaken) QueueOk
      [.enqueue 1, .peek, .enqueue 2, .enqueue 3, .dequeue, .elements, .dequeue, .peek, .dequeue, .dequeue] (([] : List Nat), false) ∧
    run queueSpec [.enqueue 1, .peek, .enqueue 2, .enqueue 3, .dequeue, .elements, .dequeue, .peek, .dequeue, .dequeue] ([] : List Nat) =
      [.done, .value 1, .done, .done, .value 1, .values [2, 3], .value 2, .value 3, .value 3, .raises .outOfBounds] :=
  ⟨⟨trivial, by show 1 ≤ 1; omega, trivial, trivial, trivial, rfl, trivial, by show 1 ≤ 1; omega, trivial, trivial, trivial⟩, by decide⟩

/-- `foreach` over a queue whose only element was dequeued visits this element. -/
theorem queue_foreach_refuted :
    run queueSpec [.enqueue 1, .dequeue, .elements] ([] : List Nat) = [.done, .value 1, .values []] ∧
    run queueStep [.enqueue 1, .dequeue, .elements] ({} : W Nat) = [.done, .value 1, .values [1]] := by
  decide

/-- `peek` returns the element that was enqueued last. -/
theorem queue_peek_refuted :
    run queueSpec [.enqueue 1, .enqueue 2, .peek, .dequeue] ([] : List Nat) = [.done, .done, .value 1, .value 1] ∧
    run queueStep [.enqueue 1, .enqueue 2, .peek, .dequeue] ({} : W Nat) = [.done, .done, .value 2, .value 1] := by
  decide

/-! ## Stack -/

/-- What a script can do with a stack. -/
inductive SOp (α : Type) where
  | push (v : α) | pop | peek | size | empty
  deriving DecidableEq, Repr

/-- Last in, first out; the top is at the head. -/
def stackSpec : SOp α → List α → Out α × List α
  | .push v, xs => (.done, v :: xs)
  | .pop, [] => (.raises .outOfBounds, [])
  | .pop, x :: xs => (.value x, xs)
  | .peek, [] => (.raises .outOfBounds, [])
  | .peek, x :: xs => (.value x, x :: xs)
  | .size, xs => (.int xs.length, xs)
  | .empty, xs => (.bool xs.isEmpty, xs)

/-- `System.Collections.Stack` (Stack.os). -/
def stackStep : SOp α → W α → Out α × W α
  | .push v, w => cmd w (pushBack w v)
  | .pop, w =>
    match pop w with
    | .ok (w', v) => (.value v, w')
    | .error e => (.raises e, w)
  | .peek, w => qry w (asValue (peek w))
  | .size, w => (.int w.size, w)
  | .empty, w => (.bool (empty w), w)

/-- `pop` of a stack with more than one element spoils it. -/
def StackOk (op : SOp α) (xs : List α) : Prop :=
  match op with
  | .pop => xs.length ≤ 1
  | _ => True

/-- The stack holds `xs`, or it is empty and refers to what it held. -/
def StackRep (w : W α) (xs : List α) : Prop := Rep w xs.reverse ∨ (xs = [] ∧ w.size = 0)

theorem StackRep.size {w : W α} {xs : List α} (h : StackRep w xs) : w.size = xs.length := by
  rcases h with ⟨as, h, _⟩ | ⟨rfl, h⟩
  · simpa using h.size
  · simpa using h

theorem stack_push {w : W α} {xs : List α} (h : StackRep w xs) (v : α) : ∃ w', pushBack w v = .ok w' ∧ StackRep w' (v :: xs) := by
  rcases h with h | ⟨rfl, hz⟩
  · obtain ⟨w', e, hr⟩ := pushBack_rep h v
    exact ⟨w', e, .inl (by simpa using hr)⟩
  · rw [pushBack]
    simp only [hz, if_true]
    exact ⟨_, rfl, .inl ⟨[w.heap.length], .of_seg (seg_new _ _) rfl (by simp) (by simp), by simp⟩⟩

theorem stack_top {w : W α} {x : α} {xs : List α} (h : StackRep w (x :: xs)) : valueOf w.heap w.last = .ok x := by
  rcases h with h | ⟨h, _⟩
  · rw [valueOf_last h (by simp)]
    simp
  · cases h

/-- The outcome of every operation on a stack that is in order. -/
theorem stack_out (op : SOp α) (w : W α) (xs : List α) (h : StackRep w xs) : (stackStep op w).1 = (stackSpec op xs).1 := by
  have hs := h.size
  cases op with
  | push v =>
    obtain ⟨w', e, _⟩ := stack_push h v
    simp only [stackStep, e]
    rfl
  | pop =>
    rw [stackStep, pop]
    cases xs with
    | nil => rw [if_pos (by rw [hs]; simp)]; rfl
    | cons x xs =>
      rw [if_neg (by rw [hs]; simp), stack_top h]
      by_cases h1 : w.size = 1
      · simp only [if_pos h1]; rfl
      · simp only [if_neg h1]
        rcases h with ⟨as, hh, hl⟩ | ⟨h, _⟩
        · have hk : (w.size - 1).toNat < ((x :: xs).reverse).length := by rw [hs]; simp
          obtain ⟨bs, b, cs, ys, y, zs, m, e, e1, e2, hyl, hbl, s1, s2, he, s3⟩ := hh.cut hk
          rw [walk_seg' s3 hyl.symm]
          obtain ⟨_, n, hn, _, _⟩ := s1.snoc
          simp only [nextOf_to hn]
          rfl
        · cases h
  | peek =>
    rw [stackStep, peek]
    cases xs with
    | nil => rw [if_pos (by rw [hs]; simp)]; rfl
    | cons x xs => rw [if_neg (by rw [hs]; simp), stack_top h]; rfl
  | size => simp [stackStep, stackSpec, hs]
  | empty =>
    cases xs with
    | nil => simp [stackStep, stackSpec, empty, hs]
    | cons x xs =>
      have : ¬ ((xs.length : Int) + 1 = 0) := by omega
      simp [stackStep, stackSpec, empty, hs, this]

theorem stack_sim (op : SOp α) (w : W α) (xs : List α) (h : StackRep w xs) (ho : StackOk op xs) :
    (stackStep op w).1 = (stackSpec op xs).1 ∧ StackRep (stackStep op w).2 (stackSpec op xs).2 := by
  refine ⟨stack_out op w xs h, ?_⟩
  have hs := h.size
  cases op with
  | push v =>
    obtain ⟨w', e, hr⟩ := stack_push h v
    simp only [stackStep, e]
    exact hr
  | pop =>
    rw [stackStep, pop]
    cases xs with
    | nil => rw [if_pos (by rw [hs]; simp)]; exact h
    | cons x xs =>
      have hl : (x :: xs).length ≤ 1 := ho
      have : xs = [] := by cases xs; rfl; simp at hl
      subst this
      have h1 : w.size = 1 := by rw [hs]; rfl
      rw [if_neg (by rw [h1]; omega), stack_top h]
      simp only [if_pos h1]
      exact .inr ⟨rfl, by simp [h1]⟩
  | peek =>
    rw [stackStep, peek]
    cases xs with
    | nil => rw [if_pos (by rw [hs]; simp)]; exact h
    | cons x xs => rw [if_neg (by rw [hs]; simp), stack_top h]; exact h
  | size => exact h
  | empty => exact h

theorem run_append {ω β σ τ : Type} {step : ω → σ → β × σ} {abs : ω → τ → β × τ} {ok : ω → τ → Prop} (R : σ → τ → Prop)
    (hstep : ∀ op s t, R s t → ok op t → (step op s).1 = (abs op t).1 ∧ R (step op s).2 (abs op t).2)
    (hout : ∀ op s t, R s t → (step op s).1 = (abs op t).1) (last : ω) :
    ∀ ops s t, R s t → Within abs ok ops t → run step (ops ++ [last]) s = run abs (ops ++ [last]) t
  | [], s, t, hr, _ => by rw [List.nil_append, run, run, run, run, hout _ _ _ hr]
  | op :: ops, s, t, hr, hw => by
    obtain ⟨h1, h2⟩ := hstep op s t hr hw.1
    rw [List.cons_append, run, run, h1, run_append R hstep hout last ops _ _ h2 hw.2]

/-- C67: a `Stack` is last in, first out in every history in which it is popped with at most one element in it — and one more operation,
whatever it is. Missing: what comes after a `pop` with more elements, of which the property is false. -/
theorem stack_is_lifo_partial (ops : List (SOp α)) (hops : Within stackSpec StackOk ops []) (last : SOp α) :
    run stackStep (ops ++ [last]) {} = run stackSpec (ops ++ [last]) ([] : List α) :=
  run_append StackRep stack_sim stack_out last ops {} [] (.inl rep_empty) hops

example : Within stackSpec StackOk [.push 1, .pop, .pop, .push 2, .push 3, .peek] ([] : List Nat) ∧
    run stackSpec ([.push 1, .pop, .pop, .push 2, .push 3, .peek] ++ [.pop]) ([] : List Nat) =
      [.done, .value 1, .raises .outOfBounds, .done, .done, .value 3, .value 3] :=
  ⟨⟨trivial, by show 1 ≤ 1; omega, by show 0 ≤ 1; omega, trivial, trivial, trivial, trivial⟩, by decide⟩

/-- A value is popped twice, another one is never popped. -/
theorem stack_pop_refuted :
    run stackSpec [.push 1, .push 2, .pop, .pop] ([] : List Nat) = [.done, .done, .value 2, .value 1] ∧
    run stackStep [.push 1, .push 2, .pop, .pop] ({} : W Nat) = [.done, .done, .value 2, .value 2] := by
  decide

/-- What remains of an observation without its value. -/
def Out.shape : Out α → Out Unit
  | .done => .done
  | .value _ => .value ()
  | .int i => .int i
  | .bool b => .bool b
  | .values vs => .values (vs.map fun _ => ())
  | .raises e => .raises e
  | .missing => .missing

/-- What every history keeps: a chain with the last item in it, far enough from the start. -/
def StackInv (w : W α) (n : Nat) : Prop :=
  w.size = n ∧ (0 < n → ∃ bs b cs ys zs, Seg w.heap w.first (bs ++ b :: cs) (ys ++ zs) {} ∧ bs.length = ys.length ∧
    (bs ++ b :: cs).Nodup ∧ w.last = .to b ∧ n ≤ bs.length + 1)

theorem inv_push {w : W α} {n : Nat} (h : StackInv w n) (v : α) : ∃ w', pushBack w v = .ok w' ∧ StackInv w' (n + 1) := by
  obtain ⟨hz, hi⟩ := h
  rw [pushBack]
  by_cases h0 : w.size = 0
  · simp only [h0, if_true]
    refine ⟨_, rfl, by simp; omega, fun _ => ⟨[], w.heap.length, [], [], [v], seg_new _ _, rfl, by simp, rfl, by simp; omega⟩⟩
  · obtain ⟨bs, b, cs, ys, zs, hs, hl, hnd, hlast, hn⟩ := hi (by omega)
    obtain ⟨m, s1, s2⟩ := (seg_append hl).1 hs
    cases zs with
    | nil => cases s2
    | cons z zs =>
      obtain ⟨hm, nd, hnb, hv, s3⟩ := s2
      subst hm
      have hb : b ∉ bs := by
        rw [List.nodup_append] at hnd
        intro hx
        exact hnd.2.2 b hx b (by simp) rfl
      have hs2 : Seg w.heap w.first (bs ++ [b]) (ys ++ [z]) nd.next :=
        (seg_append hl).2 ⟨.to b, s1, rfl, nd, hnb, hv, rfl⟩
      have hlt : b < w.heap.length := (List.getElem?_eq_some_iff.1 hnb).1
      have hn' : (alloc w.heap v)[b]? = some nd := by rw [alloc, List.getElem?_append_left hlt]; exact hnb
      have hlink := seg_link (v := .to w.heap.length) (hs2.alloc v) hn' hb (seg_new w.heap v) (by simp; omega)
      simp only [if_neg h0, hlast, setNext_some hn', put_to]
      refine ⟨_, rfl, by simp [hz], fun _ => ⟨bs ++ [b], w.heap.length, [], ys ++ [z], [v], hlink, by simp [hl], ?_, rfl, by simp; omega⟩⟩
      refine nodup_snoc ?_ (fresh_notMem hs2)
      rw [show bs ++ b :: cs = (bs ++ [b]) ++ cs by simp, List.nodup_append] at hnd
      exact hnd.1

theorem inv_pop {w : W α} {n : Nat} (h : StackInv w n) :
    (n = 0 → pop w = .error .outOfBounds) ∧ (0 < n → ∃ w' v, pop w = .ok (w', v) ∧ peek w = .ok v ∧ StackInv w' (n - 1)) := by
  obtain ⟨hz, hi⟩ := h
  refine ⟨fun h0 => by rw [pop, if_pos (by omega)], fun hpos => ?_⟩
  obtain ⟨bs, b, cs, ys, zs, hs, hl, hnd, hlast, hn⟩ := hi hpos
  obtain ⟨m, s1, s2⟩ := (seg_append hl).1 hs
  cases zs with
  | nil => cases s2
  | cons z zs =>
    obtain ⟨hm, nd, hnb, hv, s3⟩ := s2
    have hval : valueOf w.heap w.last = .ok z := by rw [hlast, valueOf_to hnb, hv]
    rw [pop, peek, if_neg (by omega), if_neg (by omega), hval]
    by_cases h1 : w.size = 1
    · simp only [if_pos h1]
      exact ⟨_, _, rfl, rfl, by simp; omega, by omega⟩
    · simp only [if_neg h1]
      -- the item at the index `size - 1`
      have hlen := hs.length
      have hk : n - 1 < (bs ++ b :: cs).length := by simp; omega
      have e1 : bs ++ b :: cs = (bs ++ b :: cs).take (n - 1) ++ (bs ++ b :: cs)[n - 1] :: (bs ++ b :: cs).drop (n - 1 + 1) := by simp
      have e2 : ys ++ z :: zs = (ys ++ z :: zs).take (n - 1) ++ (ys ++ z :: zs).drop (n - 1) := by simp
      have hs' := hs
      rw [e1, e2] at hs'
      have hl' : ((bs ++ b :: cs).take (n - 1)).length = ((ys ++ z :: zs).take (n - 1)).length := by
        rw [List.length_take, List.length_take, hlen]
      obtain ⟨m', t1, t2⟩ := (seg_append hl').1 hs'
      have hnext : ∃ r, nextOf w.heap m' = .ok r ∧ m' = .to (bs ++ b :: cs)[n - 1] := by
        generalize (ys ++ z :: zs).drop (n - 1) = q at t2
        cases q with
        | nil => cases t2
        | cons q qs =>
          obtain ⟨r, hr, _, _⟩ := nextOf_seg t2
          exact ⟨r, hr, t2.1⟩
      obtain ⟨r, hr, hm'⟩ := hnext
      have hw : walk w.heap (w.size - 1).toNat (put {} w.first) = .ok m' := by
        rw [hm'] at t1 ⊢
        exact walk_seg' t1 (by rw [← hl']; simp at hk ⊢; omega)
      rw [hw]
      simp only [hr]
      refine ⟨_, _, rfl, rfl, by simp; omega, fun _ => ⟨_, _, _, _, _, hs', hl', ?_, by rw [hm', put_to], ?_⟩⟩
      · rw [← e1]; exact hnd
      · simp at hk ⊢; omega

theorem run_shape {ω σ τ : Type} {step : ω → σ → Out α × σ} {abs : ω → τ → Out α × τ} (R : σ → τ → Prop)
    (hstep : ∀ op s t, R s t → (step op s).1.shape = (abs op t).1.shape ∧ R (step op s).2 (abs op t).2) :
    ∀ ops s t, R s t → (run step ops s).map Out.shape = (run abs ops t).map Out.shape
  | [], _, _, _ => rfl
  | op :: ops, s, t, hr => by
    obtain ⟨h1, h2⟩ := hstep op s t hr
    rw [run, run, List.map_cons, List.map_cons, h1, run_shape R hstep ops _ _ h2]

theorem stack_inv_step (op : SOp α) (w : W α) (xs : List α) (h : StackInv w xs.length) :
    (stackStep op w).1.shape = (stackSpec op xs).1.shape ∧ StackInv (stackStep op w).2 (stackSpec op xs).2.length := by
  cases op with
  | push v =>
    obtain ⟨w', e, hr⟩ := inv_push h v
    simp only [stackStep, e]
    exact ⟨rfl, hr⟩
  | pop =>
    obtain ⟨h1, h2⟩ := inv_pop h
    rw [stackStep]
    cases xs with
    | nil => rw [h1 rfl]; exact ⟨rfl, h⟩
    | cons x xs =>
      obtain ⟨w', v, e, _, hr⟩ := h2 (by simp)
      rw [e]
      exact ⟨rfl, hr⟩
  | peek =>
    obtain ⟨h1, h2⟩ := inv_pop h
    rw [stackStep]
    cases xs with
    | nil =>
      rw [peek, if_pos (by rw [h.1]; simp)]
      exact ⟨rfl, h⟩
    | cons x xs =>
      obtain ⟨w', v, _, e, hr⟩ := h2 (by simp)
      rw [e]
      exact ⟨rfl, h⟩
  | size => exact ⟨by simp [stackStep, stackSpec, h.1, Out.shape], h⟩
  | empty =>
    refine ⟨?_, h⟩
    cases xs with
    | nil => simp [stackStep, stackSpec, empty, h.1, Out.shape]
    | cons x xs =>
      have : ¬ ((xs.length : Int) + 1 = 0) := by omega
      simp [stackStep, stackSpec, empty, h.1, Out.shape, this]

/-- C67, for every history of a stack: its size is right, and `pop` and `peek` raise an exception exactly when the stack is empty. Only the
values may be wrong. -/
theorem stack_size_and_exceptions (ops : List (SOp α)) :
    (run stackStep ops {}).map Out.shape = (run stackSpec ops ([] : List α)).map Out.shape :=
  run_shape (fun w xs => StackInv w xs.length) stack_inv_step ops {} [] ⟨rfl, by simp⟩

/-- The state after a history. -/
def after {ω β σ : Type} (step : ω → σ → β × σ) : List ω → σ → σ
  | [], s => s
  | op :: ops, s => after step ops (step op s).2

theorem stack_after_inv (ops : List (SOp α)) : ∀ (w : W α) (xs : List α), StackInv w xs.length →
    StackInv (after stackStep ops w) (after stackSpec ops xs).length := by
  induction ops with
  | nil => exact fun w n h => h
  | cons op ops ih => exact fun w xs h => ih _ _ (stack_inv_step op w xs h).2

/-- The loop of `clear` stays at the last item for ever: what is assigned there was never assigned itself. -/
theorem drain_loop {h : Heap α} : ∀ (n : Nat) {r r' : Ref} {as : List Nat} {xs : List α}, Seg h r as xs {} → as ≠ [] → r'.obj = r.obj →
    drain h n r' = .loop
  | 0, _, _, _, _, _, _, _ => rfl
  | n + 1, r, r', [], xs, hs, hne, ho => absurd rfl hne
  | n + 1, r, r', a :: as, [], hs, hne, ho => by cases hs
  | n + 1, r, r', a :: as, x :: xs, hs, hne, ho => by
    obtain ⟨hr, nd, hn, hv, hs'⟩ := id hs
    have hnx : nextOf h r' = .ok nd.next := by
      rw [hr] at ho
      have : r'.obj = some a := ho
      simp [nextOf, node, this, hn]
    rw [drain, hnx]
    simp only
    cases as with
    | nil =>
      cases xs with
      | nil =>
        have : nd.next = {} := hs'
        rw [this]
        exact drain_loop n hs hne ho
      | cons => cases hs'
    | cons b bs =>
      rw [hs'.put (by simp)]
      exact drain_loop n hs' (by simp) rfl

/-- `Stack::clear` does not end for any stack that is not empty, whatever was done to it before: after any number of rounds its loop still
runs. -/
theorem stack_clear_refuted (ops : List (SOp α)) (hne : after stackSpec ops ([] : List α) ≠ []) (rounds : Nat) :
    stackClear rounds (after stackStep ops ({} : W α)) = .error .loop := by
  obtain ⟨hz, hi⟩ := stack_after_inv ops {} ([] : List α) ⟨rfl, by simp⟩
  have hpos := List.length_pos_iff.2 hne
  obtain ⟨bs, b, cs, ys, zs, hs, _⟩ := hi hpos
  rw [stackClear, if_pos (by rw [hz]; omega), drain_loop rounds hs (by simp) rfl]

example : after stackSpec [.push 1, .push 2, .pop] ([] : List Nat) ≠ [] := by decide

/-- C67, for every history of a stack: `peek` returns what `pop` would return. -/
theorem stack_peek_is_pop (ops : List (SOp α)) :
    (stackStep .peek (after stackStep ops {})).1 = (stackStep .pop (after stackStep ops ({} : W α))).1 := by
  have hm := stack_after_inv ops {} ([] : List α) ⟨rfl, by simp⟩
  generalize (after stackSpec ops ([] : List α)).length = m at hm
  obtain ⟨h1, h2⟩ := inv_pop hm
  rw [stackStep, stackStep]
  by_cases h0 : m = 0
  · rw [h1 h0, peek, if_pos (by rw [hm.1]; omega)]
    rfl
  · obtain ⟨w', v, e, e', _⟩ := h2 (by omega)
    rw [e, e']
    rfl

example : (stackStep .peek (after stackStep [.push 1, .push 2, .push 3, .pop, .push 4, .pop] ({} : W Nat))).1 = .value 3 := by decide

end Coll
end Verif
