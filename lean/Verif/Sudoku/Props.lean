import Verif.Sudoku.Lemmas
/-
C149 (what the first step of the solver fills in is forced), C150 (the search) and C151 (setting and checking numbers).
-/
namespace Verif.Sudoku

/-! ### Every board the program can have -/

/-- The possible values written down are numbers from 1 to n. -/
def Ranged (r : Nat) (b : Board) : Prop := ∀ x y v, v ∈ (b.cell x y).possible → 1 ≤ v ∧ v ≤ (r * r : Nat)

theorem visit_ranged {r : Nat} {s : Pass} {p : Nat × Nat} (ht : Tidy s.board) (h : Ranged r s.board) :
    Ranged r (visit r s p).board := by
  intro x y v hv
  by_cases hp : x = p.1 ∧ y = p.2
  · obtain ⟨rfl, rfl⟩ := hp
    rcases visit_cases r s p ht with ⟨_, e⟩ | ⟨_, _, e⟩ | ⟨_, w, _, e⟩
    · rw [e] at hv; exact h _ _ v hv
    · rw [e] at hv; simp only [put_same] at hv; exact (mem_options.1 hv).1
    · rw [e] at hv; simp only [put_same] at hv; cases hv
  · rcases visit_cases r s p ht with ⟨_, e⟩ | ⟨_, _, e⟩ | ⟨_, w, _, e⟩
    · rw [e] at hv; exact h _ _ v hv
    · rw [e] at hv; simp only [put_other hp] at hv; exact h _ _ v hv
    · rw [e] at hv; simp only [put_other hp] at hv; exact h _ _ v hv

/-- The search leaves the written possible values and all places outside the list alone. -/
theorem search_frame {r : Nat} (b : Board) (l : List (Nat × Nat)) :
    (∀ x y, ((search r l (clear l b)).2.cell x y).possible = (b.cell x y).possible) ∧
    (∀ x y, (x, y) ∉ l → (search r l (clear l b)).2.grid x y = b.grid x y) := by
  let P : Board → Prop := fun c =>
    (∀ x y, (c.cell x y).possible = (b.cell x y).possible) ∧ (∀ x y, (x, y) ∉ l → c.grid x y = b.grid x y)
  have hput : ∀ (c : Board) (p : Nat × Nat) (v : Int), p ∈ l → P c →
      P (put c p.1 p.2 { (c.cell p.1 p.2) with value := v }) := by
    intro c p v hp hc
    refine ⟨?_, ?_⟩
    · intro x y
      by_cases e : x = p.1 ∧ y = p.2
      · obtain ⟨rfl, rfl⟩ := e; rw [put_same]; exact hc.1 _ _
      · rw [put_other e]; exact hc.1 _ _
    · intro x y hn
      have e : ¬ (x = p.1 ∧ y = p.2) := by rintro ⟨rfl, rfl⟩; exact hn hp
      simp only [Board.grid, put_other e]; exact hc.2 _ _ hn
  have hclear : ∀ (m : List (Nat × Nat)), (∀ q ∈ m, q ∈ l) → ∀ c, P c → P (clear m c) := by
    intro m
    induction m with
    | nil => intro _ c h; exact h
    | cons q qs ih =>
      intro hm c h
      exact ih (fun q' hq' => hm q' (List.mem_cons_of_mem _ hq')) _ (hput c q 0 (hm q List.mem_cons_self) h)
  exact search_keeps P (fun p => (b.cell p.1 p.2).possible) (fun c p hc => hc.1 _ _) l
    (fun c p hp hc => hput c p 0 hp hc) (fun c p v hp _ hc _ => hput c p v hp hc) _
    (hclear l (fun _ hq => hq) b ⟨fun _ _ => rfl, fun _ _ _ => rfl⟩)

theorem emptyPlaces_nil {r : Nat} {b : Board} : (emptyPlaces r b).isEmpty = true ↔ Full r b.grid := by
  simp only [List.isEmpty_iff, emptyPlaces, List.filter_eq_nil_iff, beq_iff_eq]
  constructor
  · intro h x y hin hz; exact h (x, y) (mem_places.2 hin) hz
  · intro h p hp hz; exact h p.1 p.2 (mem_places.1 hp) hz

theorem solve_cases (r : Nat) (b : Board) :
    (b.solved = true ∧ solve r b = b) ∨
    (b.solved = false ∧ Full r b.grid ∧ solve r b = { b with solved := true }) ∨
    (b.solved = false ∧ ¬ Full r b.grid ∧
      solve r b = { (search r (emptyPlaces r b) (clear (emptyPlaces r b) b)).2 with solved := false }) := by
  cases hs : b.solved
  · right
    by_cases he : Full r b.grid
    · left
      refine ⟨rfl, he, ?_⟩
      simp only [solve, hs, emptyPlaces_nil.2 he]
      simp
    · right
      refine ⟨rfl, he, ?_⟩
      have h1 : (emptyPlaces r b).isEmpty = false := by
        cases hh : (emptyPlaces r b).isEmpty
        · rfl
        · exact absurd (emptyPlaces_nil.1 hh) he
      simp only [solve, hs, h1]
      simp [search_false]
  · left; exact ⟨rfl, by simp [solve, hs]⟩

/-- What every board of the program satisfies. -/
theorem made_facts {r : Nat} {b : Board} (h : Made r b) :
    Tidy b ∧ Ranged r b ∧ (b.solved = true → Full r b.grid) := by
  induction h with
  | new => exact ⟨fun _ _ _ => by simp [newBoard], fun _ _ _ hv => by simp [newBoard] at hv, by simp [newBoard]⟩
  | @set b b' x y value validate _ _ hs ih =>
    simp only [set] at hs
    split at hs
    · simp at hs
    · simp only [Option.some.injEq] at hs; subst hs
      refine ⟨?_, ?_, by simp⟩
      · exact fun x' y' v => put_tidy (x := x) (y := y) (c := { (b.cell x y) with value := value }) ih.1 (fun v => ih.1 x y v) x' y' v
      · intro x' y' v hv
        by_cases e : x' = x ∧ y' = y
        · obtain ⟨rfl, rfl⟩ := e; simp only [put_same] at hv; exact ih.2.1 _ _ v hv
        · simp only [put_other e] at hv; exact ih.2.1 _ _ v hv
  | @calculate b b' k _ hc ih =>
    have h1 := calculate_keeps_prop (r := r) (fun b => Tidy b ∧ Ranged r b)
      (fun s p _ h => ⟨visit_tidy h.1, visit_ranged h.1 h.2⟩) (fun _ _ h => h) k b b' ⟨ih.1, ih.2.1⟩ hc
    exact ⟨h1.1, h1.2, (calculate_flag k b b' ih.1 hc).1⟩
  | @solve b _ ih =>
    rcases solve_cases r b with ⟨_, e⟩ | ⟨_, hf, e⟩ | ⟨_, _, e⟩
    · rw [e]; exact ih
    · rw [e]; exact ⟨ih.1, ih.2.1, fun _ => hf⟩
    · rw [e]
      have hfr := (search_frame (r := r) b (emptyPlaces r b)).1
      exact ⟨fun x y v => by rw [hfr]; exact ih.1 x y v, fun x y v hv => ih.2.1 x y v (by rw [hfr] at hv; exact hv), by simp⟩

/-! ### C149: what is filled in is forced -/

theorem length_upTo (n : Nat) : (upTo n).length = n := by simp [upTo]

theorem length_places (r : Nat) : (places r).length = r * r * (r * r) := by
  have h : ∀ (l : List Nat), (l.flatMap fun y => (upTo (r * r)).map fun x => (x, y)).length = l.length * (r * r) := by
    intro l
    induction l with
    | nil => simp
    | cons a l ih => simp only [List.flatMap_cons, List.length_append, ih, List.length_map, length_upTo, List.length_cons, Nat.succ_mul]; omega
  rw [places, h, length_upTo]

/-- Working out the possible values always ends, after at most one round more than there are places. -/
theorem calculate_ends {r : Nat} {b : Board} (h : Made r b) : ∃ b', calculate r (r * r * (r * r) + 1) b = some b' := by
  refine calculate_some _ b (made_facts h).1 ?_
  have : empties r b ≤ (places r).length := List.countP_le_length
  rw [length_places] at this
  omega

/-- Numbers on the board stay where they are. -/
theorem calculate_keeps_numbers {r k : Nat} {b b' : Board} (h : Made r b) (hc : calculate r k b = some b')
    (x y : Nat) (hz : b.grid x y ≠ 0) : b'.grid x y = b.grid x y := by
  have := calculate_keeps_prop (r := r) (fun c => Tidy c ∧ c.grid x y = b.grid x y)
    (fun s p _ hs => ⟨visit_tidy hs.1, by rw [visit_grid_keeps hs.1 x y (by rw [hs.2]; exact hz)]; exact hs.2⟩)
    (fun _ _ hb => hb) k b b' ⟨(made_facts h).1, rfl⟩ hc
  exact this.2

/-- A solution of the board before a visit is one of the board after it. -/
theorem visit_forced {r : Nat} {s : Pass} {p : Nat × Nat} (ht : Tidy s.board) (hin : Inside r p.1 p.2)
    {g : Nat → Nat → Int} (hg : Solution r g) (hf : Fills r s.board.grid g) : Fills r (visit r s p).board.grid g := by
  intro x y hxy hz
  by_cases hp : x = p.1 ∧ y = p.2
  · obtain ⟨rfl, rfl⟩ := hp
    rcases visit_cases r s p ht with ⟨_, e⟩ | ⟨_, _, e⟩ | ⟨h0, w, ho, e⟩
    · rw [e] at hz ⊢; exact hf _ _ hxy hz
    · rw [e] at hz; simp only [Board.grid, put_same] at hz; exact absurd rfl hz
    · rw [e]
      simp only [Board.grid, put_same]
      have hm : g p.1 p.2 ∈ options r s.board p.1 p.2 := by
        refine mem_options.2 ⟨hg.1 _ _ hin, (isSafe_iff hin).2 ?_⟩
        intro x' y' hin' hs he
        by_cases hs' : (p.1, p.2) = (x', y')
        · simp only [Prod.mk.injEq] at hs'
          obtain ⟨rfl, rfl⟩ := hs'
          have := (hg.1 _ _ hin).1
          simp only [Board.grid, h0] at he; omega
        · have hne : s.board.grid x' y' ≠ 0 := by
            intro h0'; have := (hg.1 _ _ hin).1; omega
          have := hf x' y' hin' hne
          exact hg.2 _ _ _ _ hin hin' hs' hs (by omega)
      rw [ho] at hm
      simpa using hm
  · have he : (visit r s p).board.grid x y = s.board.grid x y := by
      rcases visit_cases r s p ht with ⟨_, e⟩ | ⟨_, _, e⟩ | ⟨h0, w, ho, e⟩
      · rw [e]
      · rw [e]; simp only [Board.grid, put_other hp]
      · rw [e]; simp only [Board.grid, put_other hp]
    rw [he] at hz ⊢
    exact hf x y hxy hz

/-- Every number filled in is forced: whichever way the puzzle can be finished, it has that number there. -/
theorem calculate_forced {r k : Nat} {b b' : Board} (h : Made r b) (hc : calculate r k b = some b')
    (g : Nat → Nat → Int) (hg : Solution r g) (hf : Fills r b.grid g) : Fills r b'.grid g :=
  (calculate_keeps_prop (r := r) (fun c => Tidy c ∧ Fills r c.grid g)
    (fun _ _ hin hs => ⟨visit_tidy hs.1, visit_forced hs.1 hin hg hs.2⟩)
    (fun _ _ hb => hb) k b b' ⟨(made_facts h).1, hf⟩ hc).2

theorem isSafe_congr {r : Nat} {b c : Board} (h : b.grid = c.grid) (x y : Nat) (v : Int) : isSafe r b x y v = isSafe r c x y v := by
  have h' : ∀ x y, (b.cell x y).value = (c.cell x y).value := fun x y => congrFun (congrFun h x) y
  simp only [isSafe, isUsedInBox, isUsedInLine, isUsedInRow, h']

theorem options_congr {r : Nat} {b c : Board} (h : b.grid = c.grid) (x y : Nat) : options r b x y = options r c x y := by
  have : isSafe r b x y = isSafe r c x y := funext fun v => isSafe_congr h x y v
  simp only [options, this]

theorem foldl_lists {r : Nat} (l : List (Nat × Nat)) (s : Pass) (ht : Tidy s.board)
    (h : (l.foldl (visit r) s).again = false) (done : Nat × Nat → Prop)
    (hdone : ∀ q, done q → s.board.grid q.1 q.2 = 0 → (s.board.cell q.1 q.2).possible = options r s.board q.1 q.2) :
    ∀ q, done q ∨ q ∈ l → s.board.grid q.1 q.2 = 0 →
      ((l.foldl (visit r) s).board.cell q.1 q.2).possible = options r s.board q.1 q.2 := by
  induction l generalizing s done with
  | nil => intro q hq hz; exact hdone q (by simpa using hq) hz
  | cons p ps ih =>
    intro q hq hz
    have hm := foldl_missing (p :: ps) s ht h
    have hm' := foldl_missing ps (visit r s p) (visit_tidy ht) h
    have hgrid : (visit r s p).board.grid = s.board.grid := hm'.2.1.symm.trans hm.2.1
    have := ih (visit r s p) (visit_tidy ht) h (fun q => done q ∨ q = p) ?_ q ?_ (by rw [hgrid]; exact hz)
    · rw [List.foldl_cons, this]; exact options_congr hgrid _ _
    · intro q' hq' hz'
      rw [options_congr hgrid]
      rw [hgrid] at hz'
      rcases visit_cases r s p ht with ⟨hp, e⟩ | ⟨hp, _, e⟩ | ⟨hp, w, _, e⟩
      · rcases hq' with hq' | rfl
        · rw [e]; exact hdone q' hq' hz'
        · exact absurd hz' hp
      · by_cases hqp : q' = p
        · subst hqp; rw [e]; simp only [put_same]
        · have hne : ¬ (q'.1 = p.1 ∧ q'.2 = p.2) := fun hh => hqp (Prod.ext hh.1 hh.2)
          rw [e]; simp only [put_other hne]
          exact hdone q' (hq'.resolve_right hqp) hz'
      · have := hm'.2.2
        rw [e] at this; simp at this
    · rcases hq with hq | hq
      · exact Or.inl (Or.inl hq)
      · rcases List.mem_cons.1 hq with rfl | hq
        · exact Or.inl (Or.inr rfl)
        · exact Or.inr hq

/-- Afterwards the possible values written down for an empty place are exactly the numbers from 1 to n that no place
seen from there has, and there never is exactly one of them. -/
theorem calculate_lists {r k : Nat} {b b' : Board} (h : Made r b) (hc : calculate r k b = some b')
    (x y : Nat) (hin : Inside r x y) (hz : b'.grid x y = 0) :
    (∀ v, v ∈ (b'.cell x y).possible ↔
      (1 ≤ v ∧ v ≤ (r * r : Nat)) ∧ ∀ x' y', Inside r x' y' → Sees r x y x' y' → b'.grid x' y' ≠ v) ∧
    (b'.cell x y).possible.length ≠ 1 := by
  have ht := (made_facts h).1
  have ht' : Tidy b' := (made_facts (Made.calculate h hc)).1
  refine ⟨?_, ?_⟩
  · clear h ht'
    induction k generalizing b with
    | zero => simp [calculate] at hc
    | succ k ih =>
      simp only [calculate] at hc
      split at hc
      · exact ih hc (pass_tidy ht)
      · rename_i ha
        simp only [Option.some.injEq] at hc; subst hc
        have ha' : (pass r b).again = false := by simpa using ha
        have hg : (pass r b).board.grid = b.grid :=
          (foldl_missing (places r) { board := b, missing := 0, again := false } ht ha').2.1
        have hz' : b.grid x y = 0 := by rw [← hg]; exact hz
        have hl : ((pass r b).board.cell x y).possible = options r b x y :=
          foldl_lists (places r) { board := b, missing := 0, again := false } ht ha' (fun _ => False)
            (fun _ hf => hf.elim) (x, y) (Or.inr (mem_places.2 hin)) hz'
        intro v
        show v ∈ ((pass r b).board.cell x y).possible ↔ (_ ∧ ∀ x' y', Inside r x' y' → Sees r x y x' y' → (pass r b).board.grid x' y' ≠ v)
        rw [hl, mem_options, isSafe_iff hin, hg]
  · intro hlen
    obtain ⟨v, hv⟩ := List.length_eq_one_iff.1 hlen
    exact ht' x y v hv

/-- So every way of finishing the puzzle uses, on every place left empty, one of the values written down. -/
theorem calculate_covers {r k : Nat} {b b' : Board} (h : Made r b) (hc : calculate r k b = some b')
    (g : Nat → Nat → Int) (hg : Solution r g) (hf : Fills r b.grid g) (x y : Nat) (hin : Inside r x y)
    (hz : b'.grid x y = 0) : g x y ∈ (b'.cell x y).possible := by
  have hf' := calculate_forced h hc g hg hf
  refine ((calculate_lists h hc x y hin hz).1 _).2 ⟨hg.1 x y hin, ?_⟩
  intro x' y' hin' hs he
  have h1 := (hg.1 x y hin).1
  have hne : b'.grid x' y' ≠ 0 := by omega
  have hxy : (x, y) ≠ (x', y') := by
    intro e; simp only [Prod.mk.injEq] at e; obtain ⟨rfl, rfl⟩ := e; exact hne hz
  exact hg.2 _ _ _ _ hin hin' hxy hs (by rw [hf' x' y' hin' hne]; exact he.symm)

theorem visit_lawful {r : Nat} {s : Pass} {p : Nat × Nat} (ht : Tidy s.board) (hin : Inside r p.1 p.2)
    (h : Lawful r s.board.grid) : Lawful r (visit r s p).board.grid := by
  rcases visit_cases r s p ht with ⟨_, e⟩ | ⟨_, _, e⟩ | ⟨_, w, ho, e⟩
  · rw [e]; exact h
  · rw [e]; exact put_lawful hin h (Or.inl rfl) ⟨Int.le_refl 0, Int.natCast_nonneg _⟩
  · rw [e, put_put]
    have hm := mem_options.1 (ho ▸ List.mem_singleton_self w : w ∈ options r s.board p.1 p.2)
    exact put_lawful hin h (Or.inr hm.2) ⟨by have := hm.1.1; show (0 : Int) ≤ w; omega, hm.1.2⟩

theorem calculate_lawful {r k : Nat} {b b' : Board} (h : Made r b) (hc : calculate r k b = some b') (hl : Lawful r b.grid) :
    Lawful r b'.grid :=
  (calculate_keeps_prop (r := r) (fun c => Tidy c ∧ Lawful r c.grid)
    (fun _ _ hin hs => ⟨visit_tidy hs.1, visit_lawful hs.1 hin hs.2⟩)
    (fun _ _ hb => hb) k b b' ⟨(made_facts h).1, hl⟩ hc).2

/-- When the step reports the puzzle as solved, the board is a solution of the puzzle and the only one. It reports so
exactly when no place is empty. -/
theorem calculate_solved {r k : Nat} {b b' : Board} (h : Made r b) (hc : calculate r k b = some b')
    (hl : Lawful r b.grid) :
    (b'.solved = true ↔ Full r b'.grid) ∧
    (b'.solved = true → Solution r b'.grid ∧ Fills r b.grid b'.grid ∧
      ∀ g, Solution r g → Fills r b.grid g → ∀ x y, Inside r x y → g x y = b'.grid x y) := by
  have hflag := calculate_flag k b b' (made_facts h).1 hc
  refine ⟨hflag, fun hs => ?_⟩
  have hfull := hflag.1 hs
  have hlaw := calculate_lawful h hc hl
  refine ⟨⟨?_, ?_⟩, fun x y _ hz => calculate_keeps_numbers h hc x y hz, ?_⟩
  · intro x y hin
    have h1 := hlaw.1 x y hin
    have h2 := hfull x y hin
    omega
  · intro x y x' y' h1 h2 h3 h4
    exact hlaw.2 x y x' y' h1 h2 h3 h4 (hfull x y h1)
  · intro g hg hf x y hin
    exact calculate_forced h hc g hg hf x y hin (hfull x y hin)

/-! ### C150: the search -/

/-- The search keeps the rules and all numbers that were on the board. -/
theorem solve_keeps_partial {r : Nat} {b : Board} (h : Made r b) (hl : Lawful r b.grid) :
    Lawful r (solve r b).grid ∧ ∀ x y, Inside r x y → b.grid x y ≠ 0 → (solve r b).grid x y = b.grid x y := by
  obtain ⟨_, hr, _⟩ := made_facts h
  rcases solve_cases r b with ⟨_, e⟩ | ⟨_, _, e⟩ | ⟨_, _, e⟩
  · rw [e]; exact ⟨hl, fun _ _ _ _ => rfl⟩
  · rw [e]; exact ⟨hl, fun _ _ _ _ => rfl⟩
  · rw [e]
    refine ⟨?_, ?_⟩
    · let P : Board → Prop := fun c => Lawful r c.grid ∧ ∀ x y, (c.cell x y).possible = (b.cell x y).possible
      have hin : ∀ p, p ∈ emptyPlaces r b → Inside r p.1 p.2 := fun p hp => mem_places.1 (List.mem_filter.1 hp).1
      have hpos : ∀ (c : Board) (p : Nat × Nat) (v : Int), P c → ∀ x y,
          ((put c p.1 p.2 { (c.cell p.1 p.2) with value := v }).cell x y).possible = (b.cell x y).possible := by
        intro c p v hc x y
        by_cases e : x = p.1 ∧ y = p.2
        · obtain ⟨rfl, rfl⟩ := e; rw [put_same]; exact hc.2 _ _
        · rw [put_other e]; exact hc.2 _ _
      have hzero : ∀ (c : Board) (p : Nat × Nat), p ∈ emptyPlaces r b → P c →
          P (put c p.1 p.2 { (c.cell p.1 p.2) with value := 0 }) := fun c p hp hc =>
        ⟨put_lawful (hin p hp) hc.1 (Or.inl rfl) ⟨Int.le_refl 0, Int.natCast_nonneg _⟩, hpos c p 0 hc⟩
      have hclear : P (clear (emptyPlaces r b) b) := by
        have : ∀ (m : List (Nat × Nat)), (∀ q ∈ m, q ∈ emptyPlaces r b) → ∀ c, P c → P (clear m c) := by
          intro m
          induction m with
          | nil => intro _ c h; exact h
          | cons q qs ih =>
            intro hm c h
            exact ih (fun q' hq' => hm q' (List.mem_cons_of_mem _ hq')) _ (hzero c q (hm q List.mem_cons_self) h)
        exact this _ (fun _ hq => hq) b ⟨hl, fun _ _ => rfl⟩
      have := search_keeps (r := r) P (fun p => (b.cell p.1 p.2).possible) (fun c p hc => hc.2 _ _) (emptyPlaces r b) hzero
        (fun c p v hp hv hc hs =>
          ⟨put_lawful (hin p hp) hc.1 (Or.inr hs) ⟨by have := (hr _ _ v hv).1; show (0 : Int) ≤ v; omega, (hr _ _ v hv).2⟩, hpos c p v hc⟩)
        _ hclear
      exact this.1
    · intro x y hin hz
      refine (search_frame (r := r) b (emptyPlaces r b)).2 x y ?_
      intro hm
      have := (List.mem_filter.1 hm).2
      simp only [beq_iff_eq] at this
      exact hz this

/-- But the search never reports a solution: the solver says "solved" exactly when nothing was left to solve. -/
theorem solve_reports_refuted {r : Nat} {b : Board} (h : Made r b) : (solve r b).solved = true ↔ Full r b.grid := by
  rcases solve_cases r b with ⟨hs, e⟩ | ⟨_, hf, e⟩ | ⟨_, hf, e⟩
  · rw [e]; exact ⟨fun _ => (made_facts h).2.2 hs, fun _ => hs⟩
  · rw [e]; exact ⟨fun _ => hf, fun _ => rfl⟩
  · rw [e]; exact ⟨fun hh => by simp at hh, fun hh => absurd hh hf⟩

/-! ### C151: setting and checking -/

/-- A checked number is accepted exactly when no place seen from there, nor the place itself, has it; then it is on the
board, nothing else changed, and the board obeys the rules if it did before. -/
theorem set_checked {r : Nat} {b : Board} {x y : Nat} {v : Int} (hin : Inside r x y) :
    ((set r b x y v true).isSome = true ↔ ∀ x' y', Inside r x' y' → Sees r x y x' y' → b.grid x' y' ≠ v) ∧
    (∀ b', set r b x y v true = some b' →
      b'.grid x y = v ∧ (∀ x' y', (x', y') ≠ (x, y) → b'.grid x' y' = b.grid x' y') ∧ b'.solved = false ∧
      (Lawful r b.grid → 0 ≤ v ∧ v ≤ (r * r : Nat) → Lawful r b'.grid)) := by
  rw [← isSafe_iff hin]
  cases hs : isSafe r b x y v
  · simp [set, hs]
  · simp only [set, hs, Bool.not_true, Bool.and_false, Bool.false_eq_true, if_false, Option.isSome_some, true_and,
      Option.some.injEq]
    rintro b' rfl
    refine ⟨by simp [Board.grid, put_same], ?_, rfl, ?_⟩
    · intro x' y' hne
      have e : ¬ (x' = x ∧ y' = y) := by rintro ⟨rfl, rfl⟩; exact hne rfl
      simp only [Board.grid, put_other e]
    · intro hl hv
      exact put_lawful (c := { (b.cell x y) with value := v }) hin hl (Or.inr hs) hv

/-- Place `q` comes before place `p` when reading line by line. -/
def Before (q p : Nat × Nat) : Prop := q.2 < p.2 ∨ (q.2 = p.2 ∧ q.1 < p.1)

theorem pairwise_upTo (n : Nat) : (upTo n).Pairwise (· < ·) := by
  refine List.Pairwise.map _ ?_ (List.pairwise_lt_range (n := n))
  intro a b h; omega

theorem pairwise_places (r : Nat) : (places r).Pairwise Before := by
  have h : ∀ (l : List Nat), l.Pairwise (· < ·) →
      (l.flatMap fun y => (upTo (r * r)).map fun x => (x, y)).Pairwise Before := by
    intro l hl
    induction l with
    | nil => simp
    | cons a l ih =>
      rw [List.pairwise_cons] at hl
      rw [List.flatMap_cons, List.pairwise_append]
      refine ⟨List.Pairwise.map _ (fun x x' h => Or.inr ⟨rfl, h⟩) (pairwise_upTo _), ih hl.2, ?_⟩
      intro p hp q hq
      simp only [List.mem_map, List.mem_flatMap] at hp hq
      obtain ⟨_, _, rfl⟩ := hp
      obtain ⟨y, hy, _, _, rfl⟩ := hq
      exact Or.inl (hl.1 y hy)
  exact h _ (pairwise_upTo _)

/-- The first empty place in reading order is found, and none exactly when the board is full. -/
theorem findEmptyCell_spec {r : Nat} {b : Board} :
    (findEmptyCell r b = none ↔ Full r b.grid) ∧
    (∀ p, findEmptyCell r b = some p → Inside r p.1 p.2 ∧ b.grid p.1 p.2 = 0 ∧
      ∀ q, Inside r q.1 q.2 → Before q p → b.grid q.1 q.2 ≠ 0) := by
  refine ⟨?_, ?_⟩
  · simp only [findEmptyCell, List.find?_eq_none, beq_iff_eq]
    constructor
    · intro h x y hin hz; exact h (x, y) (mem_places.2 hin) hz
    · intro h p hp hz; exact h p.1 p.2 (mem_places.1 hp) hz
  · intro p hp
    rw [findEmptyCell, List.find?_eq_some_iff_append] at hp
    obtain ⟨h0, as, bs, he, hno⟩ := hp
    refine ⟨mem_places.1 (by rw [he]; simp), by simpa [Board.grid] using h0, ?_⟩
    intro q hq hb
    have hm := mem_places.2 hq
    have hpw := pairwise_places r
    rw [he] at hm hpw
    rw [List.pairwise_append] at hpw
    rcases List.mem_append.1 hm with hm | hm
    · have := hno q hm; simpa [Board.grid] using this
    · exfalso
      simp only [Before] at hb
      rcases List.mem_cons.1 hm with rfl | hm
      · omega
      · have := (List.pairwise_cons.1 hpw.2.1).1 q hm
        simp only [Before] at this
        omega

/-- The check for a finished board refuses every board, right or wrong: a number is always "used" by its own place. -/
theorem isSane_refuted {r : Nat} (hr : 0 < r) (b : Board) : isSane r b = false := by
  have hpos : 1 ≤ r * r := Nat.mul_pos hr hr
  have hin : Inside r 1 1 := ⟨Nat.le_refl 1, hpos, Nat.le_refl 1, hpos⟩
  have hns : isSafe r b 1 1 (b.cell 1 1).value = false := by
    cases hs : isSafe r b 1 1 (b.cell 1 1).value
    · rfl
    · exact absurd rfl ((isSafe_iff hin).1 hs 1 1 hin (Or.inl rfl))
  rw [isSane, List.all_eq_false]
  exact ⟨(1, 1), mem_places.2 hin, by simp [hns]⟩

/-! ### Cases -/

/-- Sets the number the lines have for a place. -/
def fillOne (r : Nat) (lines : List (List Int)) (b : Board) (p : Nat × Nat) : Board :=
  (set r b p.1 p.2 (((lines[p.2 - 1]?).getD [])[p.1 - 1]?.getD 0) false).getD b

/-- A board with the given lines. -/
def fill (r : Nat) (lines : List (List Int)) : Board := (places r).foldl (fillOne r lines) newBoard

theorem fill_made (r : Nat) (lines : List (List Int)) : Made r (fill r lines) := by
  have h : ∀ (l : List (Nat × Nat)), (∀ p ∈ l, Inside r p.1 p.2) → ∀ b, Made r b →
      Made r (l.foldl (fillOne r lines) b) := by
    intro l
    induction l with
    | nil => intro _ b hb; exact hb
    | cons p ps ih =>
      intro hl b hb
      refine ih (fun q hq => hl q (List.mem_cons_of_mem _ hq)) _ ?_
      exact Made.set (validate := false) hb (hl p List.mem_cons_self) (by simp only [fillOne, set]; rfl)
  exact h _ (fun p hp => mem_places.1 hp) _ .new

/-- The numbers of a board, line by line. -/
def lines (r : Nat) (b : Board) : List (List Int) :=
  (upTo (r * r)).map fun y => (upTo (r * r)).map fun x => b.grid x y

instance (r x y x' y' : Nat) : Decidable (Sees r x y x' y') := inferInstanceAs (Decidable (_ ∨ _ ∨ (_ ∧ _)))

instance (r : Nat) (g : Nat → Nat → Int) : Decidable (Full r g) :=
  decidable_of_iff (∀ p ∈ places r, g p.1 p.2 ≠ 0)
    ⟨fun h x y hin => h (x, y) (mem_places.2 hin), fun h p hp => h p.1 p.2 (mem_places.1 hp)⟩

instance (r : Nat) (g s : Nat → Nat → Int) : Decidable (Fills r g s) :=
  decidable_of_iff (∀ p ∈ places r, g p.1 p.2 ≠ 0 → s p.1 p.2 = g p.1 p.2)
    ⟨fun h x y hin => h (x, y) (mem_places.2 hin), fun h p hp => h p.1 p.2 (mem_places.1 hp)⟩

instance (r : Nat) (g : Nat → Nat → Int) : Decidable (Solution r g) :=
  decidable_of_iff ((∀ p ∈ places r, 1 ≤ g p.1 p.2 ∧ g p.1 p.2 ≤ (r * r : Nat)) ∧
      ∀ p ∈ places r, ∀ q ∈ places r, (p.1, p.2) ≠ (q.1, q.2) → Sees r p.1 p.2 q.1 q.2 → g p.1 p.2 ≠ g q.1 q.2)
    ⟨fun h => ⟨fun x y hin => h.1 (x, y) (mem_places.2 hin),
        fun x y x' y' h1 h2 => h.2 (x, y) (mem_places.2 h1) (x', y') (mem_places.2 h2)⟩,
      fun h => ⟨fun p hp => h.1 p.1 p.2 (mem_places.1 hp),
        fun p hp q hq => h.2 p.1 p.2 q.1 q.2 (mem_places.1 hp) (mem_places.1 hq)⟩⟩

instance (r : Nat) (g : Nat → Nat → Int) : Decidable (Lawful r g) :=
  decidable_of_iff ((∀ p ∈ places r, 0 ≤ g p.1 p.2 ∧ g p.1 p.2 ≤ (r * r : Nat)) ∧
      ∀ p ∈ places r, ∀ q ∈ places r, (p.1, p.2) ≠ (q.1, q.2) → Sees r p.1 p.2 q.1 q.2 → g p.1 p.2 ≠ 0 → g p.1 p.2 ≠ g q.1 q.2)
    ⟨fun h => ⟨fun x y hin => h.1 (x, y) (mem_places.2 hin),
        fun x y x' y' h1 h2 => h.2 (x, y) (mem_places.2 h1) (x', y') (mem_places.2 h2)⟩,
      fun h => ⟨fun p hp => h.1 p.1 p.2 (mem_places.1 hp),
        fun p hp q hq => h.2 p.1 p.2 q.1 q.2 (mem_places.1 hp) (mem_places.1 hq)⟩⟩

def easyPuzzle : Board := fill 2 [[1, 2, 0, 4], [3, 0, 1, 2], [2, 1, 0, 3], [4, 0, 2, 1]]
def hardPuzzle : Board := fill 2 [[0, 0, 0, 2], [2, 0, 0, 0], [0, 2, 0, 0], [0, 3, 2, 0]]

/-- C149 on an easy puzzle: it obeys the rules, the step ends, and reports it as solved. -/
example : Made 2 easyPuzzle ∧ Lawful 2 easyPuzzle.grid ∧
    (calculate 2 17 easyPuzzle).map (fun b => (lines 2 b, b.solved)) =
      some ([[1, 2, 3, 4], [3, 4, 1, 2], [2, 1, 4, 3], [4, 3, 2, 1]], true) :=
  ⟨fill_made _ _, by decide +kernel, by decide +kernel⟩

/-- C149 on a harder one: it has a solution, nothing is filled in, and places are left with several values. -/
example : Made 2 hardPuzzle ∧ Lawful 2 hardPuzzle.grid ∧
    (∃ g, Solution 2 g ∧ Fills 2 hardPuzzle.grid g) ∧
    (calculate 2 17 hardPuzzle).map (fun b => ((b.cell 1 1).possible, (b.cell 2 1).possible, b.solved)) =
      some ([1, 3, 4], [1, 4], false) :=
  ⟨fill_made _ _, by decide +kernel,
    ⟨(fill 2 [[3, 1, 4, 2], [2, 4, 1, 3], [1, 2, 3, 4], [4, 3, 2, 1]]).grid, by decide +kernel, by decide +kernel⟩,
    by decide +kernel⟩

/-- Nor does the search always leave a solution on the board: this puzzle obeys the rules and has a solution, but the
solver stops with empty places, because values left on later places by an earlier attempt rule out the right ones. -/
theorem solve_finds_refuted : ∃ b b' : Board, Made 2 b ∧ Lawful 2 b.grid ∧ calculate 2 17 b = some b' ∧
    (∃ g, Solution 2 g ∧ Fills 2 b.grid g) ∧ ¬ Full 2 (solve 2 b').grid ∧
    lines 2 (solve 2 b') = [[1, 4, 3, 2], [2, 0, 0, 0], [0, 2, 0, 0], [0, 3, 2, 0]] := by
  have h : ((calculate 2 17 hardPuzzle).all fun b' => decide (¬ Full 2 (solve 2 b').grid ∧
    lines 2 (solve 2 b') = [[1, 4, 3, 2], [2, 0, 0, 0], [0, 2, 0, 0], [0, 3, 2, 0]])) = true := by decide +kernel
  obtain ⟨b', hc⟩ := calculate_ends (fill_made 2 _ : Made 2 hardPuzzle)
  have hc' : calculate 2 17 hardPuzzle = some b' := hc
  rw [hc'] at h
  simp only [Option.all_some, decide_eq_true_eq] at h
  exact ⟨hardPuzzle, b', fill_made _ _, by decide +kernel, hc',
    ⟨(fill 2 [[3, 1, 4, 2], [2, 4, 1, 3], [1, 2, 3, 4], [4, 3, 2, 1]]).grid, by decide +kernel, by decide +kernel⟩, h⟩

/-- C150 (rules and given numbers kept) on the same puzzle, where the search does put numbers. -/
example : Made 2 hardPuzzle ∧ Lawful 2 hardPuzzle.grid ∧ hardPuzzle.grid 4 1 = 2 ∧ ¬ Full 2 hardPuzzle.grid :=
  ⟨fill_made _ _, by decide +kernel, by decide +kernel, by decide +kernel⟩

/-- C151: 3 may go to the place (1, 1) of the harder puzzle, 2 may not; the first empty place is (1, 1); and a finished
board that is a solution is refused by the check. -/
example : (set 2 hardPuzzle 1 1 3 true).isSome = true ∧ (set 2 hardPuzzle 1 1 2 true).isSome = false ∧
    findEmptyCell 2 hardPuzzle = some (1, 1) ∧
    Solution 2 (fill 2 [[3, 1, 4, 2], [2, 4, 1, 3], [1, 2, 3, 4], [4, 3, 2, 1]]).grid := by
  refine ⟨by decide +kernel, by decide +kernel, by decide +kernel, by decide +kernel⟩

end Verif.Sudoku
