import Verif.Sudoku.Model
import Verif.Sudoku.Spec
namespace Verif.Sudoku

theorem mem_upTo {n x : Nat} : x ∈ upTo n ↔ 1 ≤ x ∧ x ≤ n := by
  simp only [upTo, List.mem_map, List.mem_range]
  constructor
  · rintro ⟨a, h, rfl⟩; omega
  · intro h; exact ⟨x - 1, by omega, by omega⟩

theorem mem_places {r : Nat} {p : Nat × Nat} : p ∈ places r ↔ Inside r p.1 p.2 := by
  obtain ⟨x, y⟩ := p
  simp only [places, List.mem_flatMap, List.mem_map, mem_upTo, Inside, Prod.mk.injEq]
  constructor
  · rintro ⟨a, ha, b, hb, rfl, rfl⟩; omega
  · intro h; exact ⟨y, by omega, x, by omega, rfl, rfl⟩

theorem side_pos {r x y : Nat} (h : Inside r x y) : 0 < r := by
  rcases Nat.eq_zero_or_pos r with rfl | h'
  · simp only [Inside] at h; omega
  · exact h'

theorem box_iff {r o x : Nat} (hr : 0 < r) (ho : 1 ≤ o ∧ o ≤ r * r) :
    (1 ≤ x ∧ x ≤ r * r ∧ (o - 1) / r = (x - 1) / r) ↔ ∃ i, 1 ≤ i ∧ i ≤ r ∧ x = (o - 1) / r * r + i := by
  constructor
  · rintro ⟨h1, h2, h3⟩
    refine ⟨(x - 1) % r + 1, by omega, Nat.mod_lt _ hr, ?_⟩
    rw [h3]
    have := Nat.div_add_mod (x - 1) r
    rw [Nat.mul_comm] at this
    omega
  · rintro ⟨i, h1, h2, rfl⟩
    have h4 : (o - 1) / r < r := (Nat.div_lt_iff_lt_mul hr).2 (by omega)
    have h5 : (o - 1) / r * r + r ≤ r * r := by
      have := Nat.mul_le_mul_right r (Nat.succ_le_of_lt h4)
      rw [Nat.succ_mul] at this
      exact this
    refine ⟨by omega, by omega, ?_⟩
    have h6 : (o - 1) / r * r + i - 1 = (i - 1) + (o - 1) / r * r := by omega
    rw [h6, Nat.add_mul_div_right _ _ hr, Nat.div_eq_of_lt (show i - 1 < r by omega)]
    omega

/-- A number is safe for a place exactly when no place seen from there, nor the place itself, has it. -/
theorem isSafe_iff {r : Nat} {b : Board} {x y : Nat} {v : Int} (h : Inside r x y) :
    isSafe r b x y v = true ↔ ∀ x' y', Inside r x' y' → Sees r x y x' y' → b.grid x' y' ≠ v := by
  have hr := side_pos h
  have h' := h
  obtain ⟨hx1, hx2, hy1, hy2⟩ := h'
  have hbox : isUsedInBox r b x y v = true ↔ ∃ x' y', Inside r x' y' ∧
      ((x - 1) / r = (x' - 1) / r ∧ (y - 1) / r = (y' - 1) / r) ∧ b.grid x' y' = v := by
    simp only [isUsedInBox, List.any_eq_true, mem_upTo, beq_iff_eq, Board.grid]
    constructor
    · rintro ⟨j, hj, i, hi, he⟩
      have a1 := (box_iff hr ⟨hx1, hx2⟩).2 ⟨i, hi.1, hi.2, rfl⟩
      have a2 := (box_iff hr ⟨hy1, hy2⟩).2 ⟨j, hj.1, hj.2, rfl⟩
      exact ⟨_, _, ⟨a1.1, a1.2.1, a2.1, a2.2.1⟩, ⟨a1.2.2, a2.2.2⟩, he⟩
    · rintro ⟨x', y', ⟨i1, i2, i3, i4⟩, ⟨e1, e2⟩, he⟩
      obtain ⟨i, a1, a2, rfl⟩ := (box_iff hr ⟨hx1, hx2⟩).1 ⟨i1, i2, e1⟩
      obtain ⟨j, a3, a4, rfl⟩ := (box_iff hr ⟨hy1, hy2⟩).1 ⟨i3, i4, e2⟩
      exact ⟨j, ⟨a3, a4⟩, i, ⟨a1, a2⟩, he⟩
  have hline : isUsedInLine r b y v = true ↔ ∃ x', 1 ≤ x' ∧ x' ≤ r * r ∧ b.grid x' y = v := by
    simp only [isUsedInLine, List.any_eq_true, mem_upTo, beq_iff_eq, Board.grid, and_assoc]
  have hrow : isUsedInRow r b x v = true ↔ ∃ y', 1 ≤ y' ∧ y' ≤ r * r ∧ b.grid x y' = v := by
    simp only [isUsedInRow, List.any_eq_true, mem_upTo, beq_iff_eq, Board.grid, and_assoc]
  simp only [isSafe, Bool.and_eq_true, Bool.not_eq_true', ← Bool.not_eq_true, hbox, hline, hrow]
  constructor
  · rintro ⟨⟨hb, hl⟩, hw⟩ x' y' hin hs he
    rcases hs with rfl | rfl | hs
    · exact hl ⟨x', hin.1, hin.2.1, he⟩
    · exact hw ⟨y', hin.2.2.1, hin.2.2.2, he⟩
    · exact hb ⟨x', y', hin, hs, he⟩
  · intro hall
    refine ⟨⟨?_, ?_⟩, ?_⟩
    · rintro ⟨x', y', hin, hs, he⟩; exact hall x' y' hin (Or.inr (Or.inr hs)) he
    · rintro ⟨x', h1, h2, he⟩; exact hall x' y ⟨h1, h2, hy1, hy2⟩ (Or.inl rfl) he
    · rintro ⟨y', h1, h2, he⟩; exact hall x y' ⟨hx1, hx2, h1, h2⟩ (Or.inr (Or.inl rfl)) he

theorem put_same (b : Board) (x y : Nat) (c : Cell) : (put b x y c).cell x y = c := by simp [put]
theorem put_other {b : Board} {x y x' y' : Nat} {c : Cell} (h : ¬ (x' = x ∧ y' = y)) :
    (put b x y c).cell x' y' = b.cell x' y' := by simp [put, h]

theorem sees_symm {r x y x' y' : Nat} (h : Sees r x y x' y') : Sees r x' y' x y := by
  rcases h with h | h | ⟨h, h'⟩
  · exact Or.inl h.symm
  · exact Or.inr (Or.inl h.symm)
  · exact Or.inr (Or.inr ⟨h.symm, h'.symm⟩)

/-- Putting a safe number from 1 to n on a place keeps the rules. -/
theorem put_lawful {r : Nat} {b : Board} {x y : Nat} {c : Cell} (hin : Inside r x y) (h : Lawful r b.grid)
    (hs : c.value = 0 ∨ isSafe r b x y c.value = true) (hv : 0 ≤ c.value ∧ c.value ≤ (r * r : Nat)) :
    Lawful r (put b x y c).grid := by
  refine ⟨?_, ?_⟩
  · intro x' y' hin'
    by_cases he : x' = x ∧ y' = y
    · obtain ⟨rfl, rfl⟩ := he
      simp only [Board.grid, put_same]; exact hv
    · simp only [Board.grid, put_other he]; exact h.1 x' y' hin'
  · intro x1 y1 x2 y2 h1 h2 hne hsee hnz
    by_cases e1 : x1 = x ∧ y1 = y
    · obtain ⟨rfl, rfl⟩ := e1
      have e2 : ¬ (x2 = x1 ∧ y2 = y1) := by rintro ⟨rfl, rfl⟩; exact hne rfl
      simp only [Board.grid, put_same, put_other e2] at hnz ⊢
      rcases hs with hs | hs
      · exact absurd hs hnz
      · exact fun e => (isSafe_iff hin).1 hs x2 y2 h2 hsee e.symm
    · by_cases e2 : x2 = x ∧ y2 = y
      · obtain ⟨rfl, rfl⟩ := e2
        simp only [Board.grid, put_same, put_other e1] at hnz ⊢
        rcases hs with hs | hs
        · rw [hs]; exact hnz
        · exact (isSafe_iff hin).1 hs x1 y1 h1 (sees_symm hsee)
      · simp only [Board.grid, put_other e1, put_other e2] at hnz ⊢
        exact h.2 x1 y1 x2 y2 h1 h2 hne hsee hnz

/-- The possible values `calculatePossibleValues` writes down for an empty cell. -/
def options (r : Nat) (b : Board) (x y : Nat) : List Int :=
  ((upTo (r * r)).map Int.ofNat).filter (isSafe r b x y)

theorem mem_options {r : Nat} {b : Board} {x y : Nat} {v : Int} :
    v ∈ options r b x y ↔ (1 ≤ v ∧ v ≤ (r * r : Nat)) ∧ isSafe r b x y v = true := by
  simp only [options, List.mem_filter, List.mem_map, mem_upTo]
  constructor
  · rintro ⟨⟨a, ha, rfl⟩, hs⟩
    exact ⟨⟨by simp only [Int.ofNat_eq_natCast]; omega, by simp only [Int.ofNat_eq_natCast]; omega⟩, hs⟩
  · rintro ⟨⟨h1, h2⟩, hs⟩
    exact ⟨⟨v.toNat, by omega, by simp only [Int.ofNat_eq_natCast]; omega⟩, hs⟩

/-- No cell has exactly one possible value written down. -/
def Tidy (b : Board) : Prop := ∀ x y v, (b.cell x y).possible ≠ [v]

/-- The three things a visit can do. -/
theorem visit_cases (r : Nat) (s : Pass) (p : Nat × Nat) (ht : Tidy s.board) :
    ((s.board.cell p.1 p.2).value ≠ 0 ∧ visit r s p = s) ∨
    ((s.board.cell p.1 p.2).value = 0 ∧ (∀ v, options r s.board p.1 p.2 ≠ [v]) ∧
      visit r s p = { s with
        board := put s.board p.1 p.2 { value := 0, possible := options r s.board p.1 p.2 }
        missing := s.missing + 1 }) ∨
    ((s.board.cell p.1 p.2).value = 0 ∧ ∃ v, options r s.board p.1 p.2 = [v] ∧
      visit r s p = {
        board := put (put s.board p.1 p.2 { value := 0, possible := [v] }) p.1 p.2 { value := v, possible := [] }
        missing := s.missing + 1 - 1
        again := true }) := by
  by_cases hz : (s.board.cell p.1 p.2).value = 0
  · right
    have e : ((upTo (r * r)).map Int.ofNat).filter (isSafe r s.board p.1 p.2) = options r s.board p.1 p.2 := rfl
    by_cases ho : ∃ v, options r s.board p.1 p.2 = [v]
    · obtain ⟨v, ho⟩ := ho
      refine Or.inr ⟨hz, v, ho, ?_⟩
      simp only [visit, hz, if_true, e, ho, put_same]
    · have ho' : ∀ v, options r s.board p.1 p.2 ≠ [v] := fun v hv => ho ⟨v, hv⟩
      refine Or.inl ⟨hz, ho', ?_⟩
      simp only [visit, hz, if_true, e, put_same]
  · left
    refine ⟨hz, ?_⟩
    simp only [visit, hz, if_false]
    split
    · rename_i v hv; exact absurd hv (ht _ _ v)
    · rfl

theorem put_tidy {b : Board} {x y : Nat} {c : Cell} (h : Tidy b) (hc : ∀ v, c.possible ≠ [v]) : Tidy (put b x y c) := by
  intro x' y' v
  by_cases e : x' = x ∧ y' = y
  · obtain ⟨rfl, rfl⟩ := e; rw [put_same]; exact hc v
  · rw [put_other e]; exact h _ _ v

theorem put_put (b : Board) (x y : Nat) (c d : Cell) : put (put b x y c) x y d = put b x y d := by
  simp only [put, Board.mk.injEq, and_true]
  funext x' y'
  by_cases h : x' = x ∧ y' = y
  · simp [h]
  · simp [h]

theorem visit_tidy {r : Nat} {s : Pass} {p : Nat × Nat} (h : Tidy s.board) : Tidy (visit r s p).board := by
  rcases visit_cases r s p h with ⟨_, e⟩ | ⟨_, ho, e⟩ | ⟨_, v, ho, e⟩
  · rw [e]; exact h
  · rw [e]; exact put_tidy h ho
  · rw [e, put_put]; exact put_tidy h (by simp)

/-- A property every visit keeps is kept by a pass. -/
theorem foldl_keeps {r : Nat} (P : Pass → Prop) (l : List (Nat × Nat)) (hl : ∀ p ∈ l, Inside r p.1 p.2)
    (hv : ∀ s p, Inside r p.1 p.2 → P s → P (visit r s p)) (s : Pass) (h : P s) : P (l.foldl (visit r) s) := by
  induction l generalizing s with
  | nil => exact h
  | cons p ps ih => exact ih (fun q hq => hl q (List.mem_cons_of_mem _ hq)) _ (hv s p (hl p List.mem_cons_self) h)

theorem pass_keeps {r : Nat} (P : Pass → Prop) (b : Board)
    (hv : ∀ s p, Inside r p.1 p.2 → P s → P (visit r s p))
    (h : P { board := b, missing := 0, again := false }) : P (pass r b) :=
  foldl_keeps P _ (fun _ hp => mem_places.1 hp) hv _ h

/-- A property of boards every visit keeps is kept by `calculate`. -/
theorem calculate_keeps_prop {r : Nat} (P : Board → Prop)
    (hv : ∀ s p, Inside r p.1 p.2 → P s.board → P (visit r s p).board)
    (hsol : ∀ b s, P b → P { b with solved := s }) (k : Nat) (b b' : Board) (h : P b)
    (hc : calculate r k b = some b') : P b' := by
  induction k generalizing b with
  | zero => simp [calculate] at hc
  | succ k ih =>
    have hp : P (pass r b).board := pass_keeps (fun s => P s.board) b hv h
    simp only [calculate] at hc
    split at hc
    · exact ih _ hp hc
    · simp only [Option.some.injEq] at hc; subst hc; exact hsol _ _ hp

/-! ### Rounds end -/

def empties (r : Nat) (b : Board) : Nat := (places r).countP fun p => (b.cell p.1 p.2).value == 0

theorem empties_le {r : Nat} {b b' : Board} (h : ∀ x y, b.grid x y ≠ 0 → b'.grid x y ≠ 0) :
    empties r b' ≤ empties r b := by
  apply List.countP_mono_left
  intro p _ hp
  simp only [beq_iff_eq] at hp ⊢
  exact Classical.byContradiction fun hn => h p.1 p.2 hn hp

theorem countP_lt {α : Type} (f g : α → Bool) (l : List α) (h : ∀ a ∈ l, f a = true → g a = true) (a : α) (ha : a ∈ l)
    (h1 : f a = false) (h2 : g a = true) : l.countP f < l.countP g := by
  induction l with
  | nil => cases ha
  | cons c cs ih =>
    have hle : cs.countP f ≤ cs.countP g :=
      List.countP_mono_left fun a ha => h a (List.mem_cons_of_mem _ ha)
    rcases List.mem_cons.1 ha with rfl | ha'
    · rw [List.countP_cons, List.countP_cons, h1, h2]; simp; omega
    · have := ih (fun a ha => h a (List.mem_cons_of_mem _ ha)) ha'
      rw [List.countP_cons, List.countP_cons]
      have hc := h c List.mem_cons_self
      cases hf : f c
      · simp; omega
      · rw [hc hf]; simp; omega

theorem visit_grid_keeps {r : Nat} {s : Pass} {p : Nat × Nat} (ht : Tidy s.board) (x y : Nat)
    (h : s.board.grid x y ≠ 0) : (visit r s p).board.grid x y = s.board.grid x y := by
  rcases visit_cases r s p ht with ⟨_, e⟩ | ⟨hz, _, e⟩ | ⟨hz, v, _, e⟩
  · rw [e]
  all_goals
    rw [e]
    have hne : ¬ (x = p.1 ∧ y = p.2) := by rintro ⟨rfl, rfl⟩; exact h hz
    simp only [Board.grid, put_other hne]

/-- In one pass either some empty place got a number, or no number changed. -/
theorem pass_progress {r : Nat} {b : Board} (ht : Tidy b) :
    (pass r b).again = true → empties r (pass r b).board < empties r b := by
  have h := pass_keeps (r := r)
    (fun s => Tidy s.board ∧ empties r s.board ≤ empties r b ∧
      (s.again = true → empties r s.board < empties r b)) b ?_ ⟨ht, Nat.le_refl _, by simp⟩
  · exact h.2.2
  · rintro s p hin ⟨h1, h2, h3⟩
    have hle : empties r (visit r s p).board ≤ empties r s.board :=
      empties_le fun x y hz => by rw [visit_grid_keeps h1 x y hz]; exact hz
    refine ⟨visit_tidy h1, Nat.le_trans hle h2, ?_⟩
    intro ha
    by_cases hs : s.again = true
    · exact Nat.lt_of_le_of_lt hle (h3 hs)
    · rcases visit_cases r s p h1 with ⟨_, e⟩ | ⟨hz, _, e⟩ | ⟨hz, v, ho, e⟩
      · rw [e] at ha; exact absurd ha hs
      · rw [e] at ha; exact absurd ha hs
      · refine Nat.lt_of_lt_of_le ?_ h2
        have hv : 1 ≤ v := (mem_options.1 (ho ▸ List.mem_singleton_self v : v ∈ options r s.board p.1 p.2)).1.1
        refine countP_lt _ _ _ ?_ p (mem_places.2 hin) ?_ (by simp [hz])
        · intro q _ hq
          simp only [beq_iff_eq] at hq ⊢
          refine Classical.byContradiction fun hn => ?_
          have := visit_grid_keeps (r := r) (p := p) h1 q.1 q.2 hn
          simp only [Board.grid] at this
          exact hn (this ▸ hq)
        · rw [e, put_put]
          simp only [put_same]
          have : v ≠ 0 := by omega
          simpa using this

theorem pass_tidy {r : Nat} {b : Board} (ht : Tidy b) : Tidy (pass r b).board :=
  pass_keeps (fun s => Tidy s.board) b (fun _ _ _ h => visit_tidy h) ht

theorem calculate_some {r : Nat} (k : Nat) (b : Board) (ht : Tidy b) (hk : empties r b < k) :
    ∃ b', calculate r k b = some b' := by
  induction k generalizing b with
  | zero => omega
  | succ k ih =>
    simp only [calculate]
    by_cases ha : (pass r b).again = true
    · rw [if_pos ha]
      exact ih _ (pass_tidy ht) (by have := pass_progress ht ha; omega)
    · rw [if_neg ha]; exact ⟨_, rfl⟩

/-! ### The count of missing numbers -/

theorem foldl_missing {r : Nat} (l : List (Nat × Nat)) (s : Pass) (ht : Tidy s.board)
    (h : (l.foldl (visit r) s).again = false) :
    (l.foldl (visit r) s).missing = s.missing + (l.countP fun p => s.board.grid p.1 p.2 == 0 : Nat) ∧
    (l.foldl (visit r) s).board.grid = s.board.grid ∧ s.again = false := by
  induction l generalizing s with
  | nil => exact ⟨by simp, rfl, h⟩
  | cons p ps ih =>
    obtain ⟨h1, h2, h3⟩ := ih (visit r s p) (visit_tidy ht) h
    rw [List.foldl_cons, h1, h2]
    rcases visit_cases r s p ht with ⟨hz, e⟩ | ⟨hz, _, e⟩ | ⟨hz, v, _, e⟩
    · rw [e] at h3 ⊢
      refine ⟨?_, rfl, h3⟩
      rw [List.countP_cons]
      simp [Board.grid, hz]
    · rw [e] at h3 ⊢
      have hg : (put s.board p.1 p.2 { value := 0, possible := options r s.board p.1 p.2 }).grid = s.board.grid := by
        funext x y
        by_cases hp : x = p.1 ∧ y = p.2
        · obtain ⟨rfl, rfl⟩ := hp; simp only [Board.grid, put_same, hz]
        · simp only [Board.grid, put_other hp]
      refine ⟨?_, hg, h3⟩
      rw [List.countP_cons]
      simp only [hg]
      have : (s.board.grid p.1 p.2 == 0) = true := by simp [Board.grid, hz]
      rw [this]
      simp
      omega
    · rw [e] at h3; simp at h3

/-- What the reported flag means after `calculate`. -/
theorem calculate_flag {r : Nat} (k : Nat) (b b' : Board) (ht : Tidy b) (hc : calculate r k b = some b') :
    b'.solved = true ↔ Full r b'.grid := by
  induction k generalizing b with
  | zero => simp [calculate] at hc
  | succ k ih =>
    simp only [calculate] at hc
    split at hc
    · exact ih _ (pass_tidy ht) hc
    · rename_i ha
      simp only [Option.some.injEq] at hc; subst hc
      have ha' : (pass r b).again = false := by simpa using ha
      obtain ⟨h1, h2, _⟩ := foldl_missing (places r) { board := b, missing := 0, again := false } ht ha'
      have h1' : (pass r b).missing = 0 + ((places r).countP fun p => b.grid p.1 p.2 == 0 : Nat) := h1
      have h2' : (pass r b).board.grid = b.grid := h2
      simp only [h1', beq_iff_eq]
      have e : Board.grid { (pass r b).board with solved := (0 + ((places r).countP fun p => b.grid p.1 p.2 == 0 : Nat) == (0 : Int)) } = b.grid := h2'
      rw [e]
      constructor
      · intro h x y hin hz
        have hpos : 0 < (places r).countP fun p => b.grid p.1 p.2 == 0 :=
          List.countP_pos_iff.2 ⟨(x, y), mem_places.2 hin, by simpa using hz⟩
        omega
      · intro h
        have : (places r).countP (fun p => b.grid p.1 p.2 == 0) = 0 := by
          rw [List.countP_eq_zero]
          intro p hp hz
          exact h p.1 p.2 (mem_places.1 hp) (by simpa using hz)
        omega

/-! ### Searching -/

theorem clear_keeps_prop {r : Nat} (P : Board → Prop)
    (hput : ∀ b x y, Inside r x y → P b → P (put b x y { (b.cell x y) with value := 0 }))
    (l : List (Nat × Nat)) (hl : ∀ p ∈ l, Inside r p.1 p.2) (b : Board) (h : P b) : P (clear l b) := by
  induction l generalizing b with
  | nil => exact h
  | cons p ps ih =>
    exact ih (fun q hq => hl q (List.mem_cons_of_mem _ hq)) _ (hput b p.1 p.2 (hl p List.mem_cons_self) h)

/-- The search never reports success. -/
theorem tries_false {r : Nat} {deeper : Board → Bool × Board} (hd : ∀ b, (deeper b).1 = false) (p : Nat × Nat) (vs : List Int)
    (b : Board) : (tries r deeper p vs b).1 = false := by
  induction vs generalizing b with
  | nil => rfl
  | cons v vs ih =>
    simp only [tries]
    split
    · split
      · rename_i b' he
        have := hd (put b p.1 p.2 { (b.cell p.1 p.2) with value := v })
        rw [he] at this; exact absurd this (by simp)
      · exact ih _
    · exact ih _

theorem search_false {r : Nat} (l : List (Nat × Nat)) (b : Board) : (search r l b).1 = false := by
  induction l generalizing b with
  | nil => rfl
  | cons p ps ih =>
    simp only [search]
    have h := tries_false (r := r) (deeper := fun b' => search r ps (clear ps b')) (fun b => ih _) p (b.cell p.1 p.2).possible b
    split
    · rename_i b' he; rw [he] at h; exact absurd h (by simp)
    · split
      · rfl
      · exact ih _

/-- What putting safe possible values and clearing keeps, the search keeps. `possibleAt` are the values written down. -/
theorem tries_keeps {r : Nat} (P : Board → Prop) {deeper : Board → Bool × Board} (hd : ∀ b, P b → P (deeper b).2)
    (p : Nat × Nat) (vs : List Int)
    (hput : ∀ b v, v ∈ vs → P b → isSafe r b p.1 p.2 v = true → P (put b p.1 p.2 { (b.cell p.1 p.2) with value := v }))
    (b : Board) (h : P b) : P (tries r deeper p vs b).2 := by
  induction vs generalizing b with
  | nil => exact h
  | cons v vs ih =>
    have ih' := ih fun b w hw => hput b w (List.mem_cons_of_mem _ hw)
    simp only [tries]
    split
    · rename_i hs
      have h1 := hd _ (hput b v List.mem_cons_self h hs)
      split
      · rename_i b' he; rw [he] at h1; exact h1
      · rename_i b' he; rw [he] at h1; exact ih' _ h1
    · exact ih' _ h

theorem search_keeps {r : Nat} (P : Board → Prop) (possibleAt : Nat × Nat → List Int)
    (hpos : ∀ b p, P b → (b.cell p.1 p.2).possible = possibleAt p) (l : List (Nat × Nat))
    (hzero : ∀ b p, p ∈ l → P b → P (put b p.1 p.2 { (b.cell p.1 p.2) with value := 0 }))
    (hput : ∀ b p v, p ∈ l → v ∈ possibleAt p → P b → isSafe r b p.1 p.2 v = true →
      P (put b p.1 p.2 { (b.cell p.1 p.2) with value := v }))
    (b : Board) (h : P b) : P (search r l b).2 := by
  induction l generalizing b with
  | nil => exact h
  | cons p ps ih =>
    have ih' := ih (fun b q hq => hzero b q (List.mem_cons_of_mem _ hq))
      (fun b q v hq => hput b q v (List.mem_cons_of_mem _ hq))
    have hclear : ∀ (l : List (Nat × Nat)), (∀ q ∈ l, q ∈ ps) → ∀ b, P b → P (clear l b) := by
      intro l
      induction l with
      | nil => intro _ b h; exact h
      | cons q qs ihq =>
        intro hl b h
        exact ihq (fun q' hq' => hl q' (List.mem_cons_of_mem _ hq')) _
          (hzero b q (List.mem_cons_of_mem _ (hl q List.mem_cons_self)) h)
    have h1 : P (tries r (fun b' => search r ps (clear ps b')) p (b.cell p.1 p.2).possible b).2 := by
      refine tries_keeps P (fun b hb => ih' _ (hclear ps (fun _ hq => hq) b hb)) p _ ?_ b h
      intro b' v hv hb' hs
      rw [hpos b p h] at hv
      exact hput b' p v List.mem_cons_self hv hb' hs
    simp only [search]
    split
    · rename_i b' he; rw [he] at h1; exact h1
    · rename_i b' he
      rw [he] at h1
      split
      · exact h1
      · exact ih' _ h1

end Verif.Sudoku
