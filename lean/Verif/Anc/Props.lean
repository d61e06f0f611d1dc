import Verif.Anc.Model

/-! # What the set of ancestors of a class holds -/

namespace Verif.Anc

open Verif.Str
open Verif.Decl (Ancestor Relation Arg)

/-! ## Specification -/

/-- Two ancestors are written with the same kind and name; their type arguments may differ. -/
def Alike (a b : Ancestor) : Prop := a.relation = b.relation ∧ a.name = b.name

instance (a b : Ancestor) : Decidable (Alike a b) := inferInstanceAs (Decidable (_ ∧ _))

/-- `a` comes before `b`: extended ones before implemented ones, those of a kind by name. -/
def Earlier (a b : Ancestor) : Prop :=
  code a.relation < code b.relation ∨ (a.relation = b.relation ∧ a.name < b.name)

/-- The ancestors that are kept: those with as many type arguments as the first one of the same kind and name. -/
def kept (written : List Ancestor) : List Ancestor :=
  written.filter fun a => (written.find? fun b => decide (Alike a b)).all fun b => b.args.length == a.args.length

/-- Rebalancing moves elements to other places of the tree, but leaves their order. -/
def Balances (balance : Tree → Tree) : Prop := ∀ t, (balance t).elems = t.elems

/-! ## The comparison -/

theorem code_inj {a b : Relation} (h : code a = code b) : a = b := by
  cases a <;> cases b <;> simp [code] at h <;> rfl

theorem sameConstraints_iff (as bs : List Arg) (i : Nat) :
    sameConstraints (numbered i as) (numbered i bs) = (as.length == bs.length) := by
  induction as generalizing bs i with
  | nil => cases bs <;> simp [numbered, sameConstraints]
  | cons a as ih =>
    cases bs with
    | nil => simp [numbered, sameConstraints]
    | cons b bs =>
      have hl : ∀ (xs : List Arg) j, (numbered j xs).length = xs.length := by
        intro xs; induction xs with
        | nil => intro j; rfl
        | cons x xs ihx => intro j; simp [numbered, ihx]
      simp [numbered, sameConstraints, sameConstraint, ih, hl]

theorem earlier_irrefl (a : Ancestor) : ¬ Earlier a a := by
  rintro (h | ⟨_, h⟩)
  · exact Nat.lt_irrefl _ h
  · exact List.lt_irrefl _ h

theorem earlier_trans {a b c : Ancestor} (h : Earlier a b) (g : Earlier b c) : Earlier a c := by
  rcases h with h | ⟨h1, h2⟩ <;> rcases g with g | ⟨g1, g2⟩
  · exact .inl (Nat.lt_trans h g)
  · exact .inl (g1 ▸ h)
  · exact .inl (h1 ▸ g)
  · exact .inr ⟨h1.trans g1, List.lt_trans h2 g2⟩

theorem earlier_total (a b : Ancestor) : Earlier a b ∨ Alike a b ∨ Earlier b a := by
  rcases Nat.lt_trichotomy (code a.relation) (code b.relation) with h | h | h
  · exact .inl (.inl h)
  · by_cases h1 : a.name < b.name
    · exact .inl (.inr ⟨code_inj h, h1⟩)
    by_cases h2 : b.name < a.name
    · exact .inr (.inr (.inr ⟨(code_inj h).symm, h2⟩))
    exact .inr (.inl ⟨code_inj h, List.le_antisymm (List.not_lt.1 h2) (List.not_lt.1 h1)⟩)
  · exact .inr (.inr (.inl h))

theorem Alike.symm {a b : Ancestor} (h : Alike a b) : Alike b a := ⟨h.1.symm, h.2.symm⟩
theorem Alike.trans {a b c : Ancestor} (h : Alike a b) (g : Alike b c) : Alike a c := ⟨h.1.trans g.1, h.2.trans g.2⟩

theorem Alike.not_earlier {a b : Ancestor} (h : Alike a b) : ¬ Earlier a b := by
  rintro (g | ⟨_, g⟩)
  · rw [h.1] at g; exact Nat.lt_irrefl _ g
  · rw [h.2] at g; exact List.lt_irrefl _ g

theorem earlier_of_alike {a b c : Ancestor} (h : Earlier a b) (g : Alike b c) : Earlier a c := by
  rcases h with h | ⟨h1, h2⟩
  · exact .inl (g.1 ▸ h)
  · exact .inr ⟨h1.trans g.1, g.2 ▸ h2⟩

/-- What `Ancestor::operator<` computes: alike ancestors are less than each other exactly if they have as many arguments. -/
theorem less_iff (a b : Ancestor) :
    less a b = true ↔ Earlier a b ∨ (Alike a b ∧ a.args.length = b.args.length) := by
  unfold less
  by_cases h : code a.relation = code b.relation
  · have hr := code_inj h
    by_cases hn : a.name = b.name
    · have hal : Alike a b := ⟨hr, hn⟩
      simp only [h, hn, if_true, sameConstraints_iff, beq_iff_eq]
      exact ⟨fun e => .inr ⟨hal, e⟩, fun e => e.elim (fun e => absurd e hal.not_earlier) (·.2)⟩
    · simp only [h, hn, if_true, if_false, decide_eq_true_eq]
      constructor
      · exact fun e => .inl (.inr ⟨hr, e⟩)
      · rintro ((e | e) | e)
        · exact absurd h (Nat.ne_of_lt e)
        · exact e.2
        · exact absurd e.1.2 hn
  · simp only [h, if_false, decide_eq_true_eq]
    constructor
    · exact fun e => .inl (.inl e)
    · rintro ((e | e) | e)
      · exact e
      · exact absurd (by rw [e.1]) h
      · exact absurd (by rw [e.1.1]) h

/-! ## Insertion -/

/-- Where the elements that the new one is not less than come first, insertion puts the new one after them. -/
theorem elems_insert (k : Ancestor) (t : Tree) : ∀ (prev : Option Ancestor) (pre post : List Ancestor),
    t.elems = pre ++ post → (∀ x ∈ pre, less k x = false) → (∀ x ∈ post, less k x = true) →
    (t.insert k prev).elems =
      if ((pre.getLast?).or prev).all (fun p => less p k) then pre ++ k :: post else pre ++ post := by
  induction t with
  | leaf =>
    intro prev pre post h _ _
    have h' : pre = [] ∧ post = [] := by simpa [Tree.elems] using h
    obtain ⟨rfl, rfl⟩ := h'
    simp only [Tree.insert, List.getLast?_nil, Option.none_or]
    by_cases hp : (prev.all fun p => less p k) = true
    · simp only [hp, ↓reduceIte]; rfl
    · simp only [hp, ↓reduceIte]; rfl
  | node l a r ihl ihr =>
    intro prev pre post h h1 h2
    simp only [Tree.elems] at h
    simp only [Tree.insert]
    rcases List.append_eq_append_iff.1 h with ⟨m, hm1, hm2⟩ | ⟨m, hm1, hm2⟩
    · -- `pre = l.elems ++ m`, `a :: r.elems = m ++ post`
      cases m with
      | nil =>
        simp only [List.append_nil] at hm1
        simp only [List.nil_append] at hm2
        have ha : less k a = true := h2 a (by rw [← hm2]; simp)
        rw [if_pos ha]
        have := ihl prev pre [] (by simp [hm1]) h1 (by simp)
        simp only [Tree.elems, this, ← hm2]
        split <;> simp
      | cons b m =>
        simp only [List.cons_append, List.cons.injEq] at hm2
        obtain ⟨rfl, hm2⟩ := hm2
        have ha : less k a = false := h1 a (by rw [hm1]; simp)
        rw [if_neg (by simp [ha])]
        have := ihr (some a) m post hm2 (fun x hx => h1 x (by rw [hm1]; simp [hx])) h2
        simp only [Tree.elems, this, hm1]
        have e : ((l.elems ++ a :: m).getLast?).or prev = (m.getLast?).or (some a) := by
          rw [List.getLast?_append, List.getLast?_cons]
          cases m.getLast? <;> rfl
        rw [e]
        split <;> simp
    · -- `l.elems = pre ++ m`, `post = m ++ a :: r.elems`
      have ha : less k a = true := h2 a (by rw [hm2]; simp)
      rw [if_pos ha]
      have := ihl prev pre m hm1 h1 (fun x hx => h2 x (by rw [hm2]; simp [hx]))
      simp only [Tree.elems, this, hm2]
      split <;> simp

/-- What holds of the elements of the set at any time: they are in order, and alike ones have as many arguments. -/
structure Ordered (l : List Ancestor) : Prop where
  sorted : l.Pairwise fun a b => ¬ Earlier b a
  uniform : ∀ a ∈ l, ∀ b ∈ l, Alike a b → a.args.length = b.args.length

theorem split_ordered (k : Ancestor) (l : List Ancestor) (h : l.Pairwise fun a b => ¬ Earlier b a)
    (hu : ∀ a ∈ l, ∀ b ∈ l, Alike a b → a.args.length = b.args.length) :
    ∃ pre post, l = pre ++ post ∧ (∀ x ∈ pre, less k x = false) ∧ (∀ x ∈ post, less k x = true) := by
  induction l with
  | nil => exact ⟨[], [], rfl, by simp, by simp⟩
  | cons a l ih =>
    by_cases ha : less k a = true
    · refine ⟨[], a :: l, rfl, by simp, ?_⟩
      intro x hx
      rcases List.mem_cons.1 hx with rfl | hx'
      · exact ha
      · have hax := (List.pairwise_cons.1 h).1 x hx'
        rw [less_iff] at ha ⊢
        rcases earlier_total a x with e | e | e
        · rcases ha with ha | ha
          · exact .inl (earlier_trans ha e)
          · rcases earlier_total k x with g | g | g
            · exact .inl g
            · exact absurd e ((ha.1.symm.trans g).not_earlier)
            · exact absurd (earlier_of_alike (earlier_trans e g) ha.1) (earlier_irrefl a)
        · rcases ha with ha | ha
          · exact .inl (earlier_of_alike ha e)
          · exact .inr ⟨ha.1.trans e, ha.2.trans (hu a (by simp) x hx e)⟩
        · exact absurd e hax
    · obtain ⟨pre, post, rfl, h1, h2⟩ := ih (List.pairwise_cons.1 h).2
        (fun x hx y hy => hu x (List.mem_cons_of_mem _ hx) y (List.mem_cons_of_mem _ hy))
      refine ⟨a :: pre, post, rfl, ?_, h2⟩
      intro x hx
      rcases List.mem_cons.1 hx with rfl | hx
      · simpa using ha
      · exact h1 x hx

/-- An insertion adds the new ancestor, unless one of the same kind and name with another number of arguments is there. -/
theorem insert_spec (k : Ancestor) (t : Tree) (h : Ordered t.elems) :
    Ordered (t.insert k none).elems ∧
    ((∀ a ∈ t.elems, Alike k a → a.args.length = k.args.length) → ((t.insert k none).elems).Perm (k :: t.elems)) ∧
    ((∃ a ∈ t.elems, Alike k a ∧ a.args.length ≠ k.args.length) → (t.insert k none).elems = t.elems) := by
  obtain ⟨pre, post, hl, h1, h2⟩ := split_ordered k t.elems h.sorted h.uniform
  rw [elems_insert k t none pre post hl h1 h2, hl, Option.or_none]
  have hs := h.sorted
  have hu := h.uniform
  rw [hl] at hs hu
  have hs' := List.pairwise_append.1 hs
  -- the last element that the new one is not less than
  by_cases hal : ∃ a ∈ pre ++ post, Alike k a ∧ a.args.length ≠ k.args.length
  · obtain ⟨a, ha, hka, hne⟩ := hal
    have hapre : a ∈ pre := by
      rcases List.mem_append.1 ha with ha | ha
      · exact ha
      · rcases (less_iff k a).1 (h2 a ha) with e | e
        · exact absurd e hka.not_earlier
        · exact absurd e.2.symm hne
    have hno : ¬ (pre.getLast?.all fun p => less p k) = true := by
      have hp : pre ≠ [] := List.ne_nil_of_mem hapre
      rw [List.getLast?_eq_some_getLast hp]
      simp only [Option.all_some]
      intro hless
      have hlast : pre.getLast hp ∈ pre := List.getLast_mem hp
      have hnl : ¬ Earlier k (pre.getLast hp) := by
        intro e
        have := h1 _ hlast
        rw [(less_iff _ _).2 (.inl e)] at this; cases this
      -- the last one is alike
      have halike : Alike k (pre.getLast hp) := by
        by_cases hla : pre.getLast hp = a
        · rw [hla]; exact hka
        · have hge : ¬ Earlier (pre.getLast hp) a := by
            have hpw := hs'.1
            rw [← List.dropLast_concat_getLast hp] at hpw hapre
            rcases List.mem_append.1 hapre with hd | hd
            · exact (List.pairwise_append.1 hpw).2.2 a hd _ (by simp)
            · exact absurd (List.mem_singleton.1 hd).symm hla
          rcases earlier_total k (pre.getLast hp) with e | e | e
          · exact absurd e hnl
          · exact e
          · exact absurd (earlier_of_alike e hka) hge
      have hlen := hu _ (List.mem_append_left _ hlast) a ha (halike.symm.trans hka)
      rcases (less_iff _ _).1 hless with e | e
      · exact absurd e halike.symm.not_earlier
      · exact hne (hlen ▸ e.2)
    rw [if_neg hno]
    refine ⟨⟨hs, hu⟩, fun hall => absurd (hall a ha hka) hne, fun _ => rfl⟩
  · have hall : ∀ a ∈ pre ++ post, Alike k a → a.args.length = k.args.length := by
      intro a ha hka
      by_cases e : a.args.length = k.args.length
      · exact e
      · exact absurd ⟨a, ha, hka, e⟩ hal
    have hpreE : ∀ a ∈ pre, Earlier a k := by
      intro a ha
      have hn := h1 a ha
      rcases earlier_total a k with e | e | e
      · exact e
      · rw [(less_iff k a).2 (.inr ⟨e.symm, (hall a (List.mem_append_left _ ha) e.symm).symm⟩)] at hn; cases hn
      · rw [(less_iff k a).2 (.inl e)] at hn; cases hn
    have hyes : (pre.getLast?.all fun p => less p k) = true := by
      cases hg : pre.getLast? with
      | none => rfl
      | some p =>
        simp only [Option.all_some]
        exact (less_iff p k).2 (.inl (hpreE p (List.mem_of_getLast? hg)))
    rw [if_pos hyes]
    refine ⟨⟨?_, ?_⟩, fun _ => List.perm_middle, fun hx => absurd hx hal⟩
    · rw [List.pairwise_append]
      refine ⟨hs'.1, List.pairwise_cons.2 ⟨?_, hs'.2.1⟩, ?_⟩
      · intro b hb e
        rcases (less_iff k b).1 (h2 b hb) with g | g
        · exact earlier_irrefl _ (earlier_trans e g)
        · exact g.1.symm.not_earlier e
      · intro a ha b hb
        rcases List.mem_cons.1 hb with rfl | hb
        · exact fun e => earlier_irrefl _ (earlier_trans e (hpreE a ha))
        · exact hs'.2.2 a ha b hb
    · intro a ha b hb hab
      have ha' : a = k ∨ a ∈ pre ++ post := by simpa [or_left_comm] using ha
      have hb' : b = k ∨ b ∈ pre ++ post := by simpa [or_left_comm] using hb
      rcases ha' with rfl | ha' <;> rcases hb' with rfl | hb'
      · rfl
      · exact (hall b hb' hab).symm
      · exact hall a ha' hab.symm
      · exact hu a ha' b hb' hab

/-! ## The ancestors of a class -/

theorem insertAll_append (balance : Tree → Tree) (t : Tree) (as bs : List Ancestor) :
    insertAll balance t (as ++ bs) = insertAll balance (insertAll balance t as) bs := List.foldl_append

theorem kept_sublist (w : List Ancestor) : List.Sublist (kept w) w := List.filter_sublist

theorem find_alike (w : List Ancestor) {a b : Ancestor} (h : Alike a b) :
    (w.find? fun c => decide (Alike a c)) = w.find? fun c => decide (Alike b c) := by
  congr 1
  funext c
  exact decide_eq_decide.2 ⟨fun g => h.symm.trans g, fun g => h.trans g⟩

theorem mem_kept {w : List Ancestor} {a : Ancestor} :
    a ∈ kept w ↔ a ∈ w ∧ ∀ b, (w.find? fun c => decide (Alike a c)) = some b → b.args.length = a.args.length := by
  unfold kept
  rw [List.mem_filter]
  cases w.find? fun c => decide (Alike a c) <;> simp

/-- The first ancestor of its kind and name is kept. -/
theorem first_kept {w : List Ancestor} {a : Ancestor} (ha : a ∈ w) :
    ∃ b, (w.find? fun c => decide (Alike a c)) = some b ∧ Alike a b ∧ b ∈ kept w := by
  cases hf : w.find? fun c => decide (Alike a c) with
  | none => exact absurd ((List.find?_eq_none.1 hf) a ha) (by simp [Alike])
  | some b =>
    have hab : Alike a b := by simpa using List.find?_some hf
    refine ⟨b, rfl, hab, mem_kept.2 ⟨List.mem_of_find?_eq_some hf, ?_⟩⟩
    intro c hc
    rw [← find_alike w hab, hf] at hc
    cases hc; rfl

theorem kept_concat (w : List Ancestor) (k : Ancestor) :
    kept (w ++ [k]) = kept w ++
      if ∃ a ∈ kept w, Alike k a ∧ a.args.length ≠ k.args.length then [] else [k] := by
  have e1 : (w.filter fun a => ((w ++ [k]).find? fun b => decide (Alike a b)).all fun b => b.args.length == a.args.length)
      = kept w := by
    unfold kept
    apply List.filter_congr
    intro a ha
    obtain ⟨b, hb, _⟩ := first_kept ha
    rw [List.find?_append, hb]; rfl
  have e2 : kept (w ++ [k]) = kept w ++ [k].filter fun a =>
      ((w ++ [k]).find? fun b => decide (Alike a b)).all fun b => b.args.length == a.args.length := by
    rw [← e1]; unfold kept; rw [List.filter_append]
  rw [e2]
  congr 1
  have hkk : Alike k k := ⟨rfl, rfl⟩
  cases hf : w.find? fun c => decide (Alike k c) with
  | none =>
    rw [if_neg]
    · rw [List.filter_cons_of_pos]
      · rfl
      · rw [List.find?_append, hf]; simp [hkk]
    · rintro ⟨a, ha, hka, _⟩
      exact (List.find?_eq_none.1 hf) a ((kept_sublist w).subset ha) (by simpa using hka)
  | some b =>
    have hkb : Alike k b := by simpa using List.find?_some hf
    have hbw : b ∈ w := List.mem_of_find?_eq_some hf
    have hbk : b ∈ kept w := mem_kept.2 ⟨hbw, by
      intro c hc
      rw [← find_alike w hkb, hf] at hc
      cases hc; rfl⟩
    by_cases hlen : b.args.length = k.args.length
    · rw [if_neg]
      · rw [List.filter_cons_of_pos]
        · rfl
        · rw [List.find?_append, hf]; simp [hlen]
      · rintro ⟨a, ha, hka, hne⟩
        have := (mem_kept.1 ha).2 b (by rw [find_alike w hka.symm, hf])
        exact hne (this ▸ hlen)
    · rw [if_pos ⟨b, hbk, hkb, hlen⟩, List.filter_cons_of_neg]
      · rfl
      · rw [List.find?_append, hf]; simp [hlen]

/-- **C176**, the set that is collected: whatever the trees look like, it holds the ancestors kept, in the order of their kinds and
names. -/
theorem insertAll_spec (balance : Tree → Tree) (hb : Balances balance) (w : List Ancestor) :
    Ordered (insertAll balance .leaf w).elems ∧ ((insertAll balance .leaf w).elems).Perm (kept w) := by
  suffices H : ∀ r : List Ancestor, Ordered (insertAll balance .leaf r.reverse).elems ∧
      ((insertAll balance .leaf r.reverse).elems).Perm (kept r.reverse) by
    have := H w.reverse; rwa [List.reverse_reverse] at this
  intro r
  induction r with
  | nil => exact ⟨⟨List.Pairwise.nil, fun _ h => by simp [insertAll, Tree.elems] at h⟩, List.Perm.refl _⟩
  | cons k r ih =>
    obtain ⟨ho, hp⟩ := ih
    rw [List.reverse_cons, insertAll_append, kept_concat]
    have := insert_spec k _ ho
    simp only [insertAll, List.foldl_cons, List.foldl_nil] at this ho hp ⊢
    rw [hb]
    refine ⟨this.1, ?_⟩
    by_cases h : ∃ a ∈ kept r.reverse, Alike k a ∧ a.args.length ≠ k.args.length
    · rw [if_pos h, List.append_nil, this.2.2]
      · exact hp
      · obtain ⟨a, ha, h⟩ := h
        exact ⟨a, hp.mem_iff.2 ha, h⟩
    · rw [if_neg h]
      refine (this.2.1 ?_).trans ((hp.cons k).trans (List.perm_append_singleton k _).symm)
      intro a ha hka
      by_cases e : a.args.length = k.args.length
      · exact e
      · exact absurd ⟨a, hp.mem_iff.1 ha, hka, e⟩ h

theorem kept_of_uniform (w : List Ancestor) (h : ∀ a ∈ w, ∀ b ∈ w, Alike a b → a.args.length = b.args.length) : kept w = w := by
  unfold kept
  rw [List.filter_eq_self]
  intro a ha
  obtain ⟨b, hb, hab, hk⟩ := first_kept ha
  rw [hb]
  simp [h a ha b ((kept_sublist w).subset hk) hab]

/-- **C176**, exactly: the ancestors of a class are those written that are kept and, if the class is implemented and extends
nothing, `Object`; in the order of their kinds and names, whatever the trees look like. -/
theorem class_ancestors_exact (balance : Tree → Tree) (hb : Balances balance) (isImplemented : Bool) (w : List Ancestor) :
    ((classAncestors balance isImplemented w).elems).Perm
        (kept w ++ if isImplemented = true ∧ (∀ a ∈ w, a.relation ≠ .extends) then [root] else []) ∧
      ((classAncestors balance isImplemented w).elems).Pairwise (fun a b => ¬ Earlier b a) := by
  obtain ⟨ho, hp⟩ := insertAll_spec balance hb w
  obtain ⟨ho', hp'⟩ := insertAll_spec balance hb (insertAll balance .leaf w).elems
  rw [kept_of_uniform _ ho.uniform] at hp'
  have hpw := hp'.trans hp
  have hany : ((insertAll balance .leaf w).elems.any fun a => decide (a.relation = .extends)) = true ↔
      ∃ a ∈ w, a.relation = .extends := by
    rw [List.any_eq_true]
    constructor
    · rintro ⟨a, ha, h⟩
      exact ⟨a, (kept_sublist w).subset (hp.mem_iff.1 ha), by simpa using h⟩
    · rintro ⟨a, ha, h⟩
      obtain ⟨b, _, hab, hk⟩ := first_kept ha
      exact ⟨b, hp.mem_iff.2 hk, by simpa using hab.1.symm.trans h⟩
  simp only [classAncestors, collected]
  by_cases hr : isImplemented = true ∧ ∀ a ∈ w, a.relation ≠ .extends
  · have hf : ((insertAll balance .leaf w).elems.any fun a => decide (a.relation = .extends)) = false := by
      rw [Bool.eq_false_iff]
      intro h
      obtain ⟨a, ha, h⟩ := hany.1 h
      exact hr.2 a ha h
    have hy : (isImplemented && !((insertAll balance .leaf w).elems.any fun a => decide (a.relation = .extends))) = true := by
      rw [hr.1, hf]; rfl
    simp only [if_pos hr, hy, ↓reduceIte]
    rw [hb (Tree.insert root none _)]
    have := insert_spec root _ ho'
    refine ⟨(this.2.1 ?_).trans ((hpw.cons root).trans (List.perm_append_singleton root _).symm), this.1.sorted⟩
    intro a ha hra
    exact absurd hra.1.symm (hr.2 a ((kept_sublist w).subset (hpw.mem_iff.1 ha)))
  · have hn : ¬ ((isImplemented && !((insertAll balance .leaf w).elems.any fun a => decide (a.relation = .extends))) = true) := by
      intro h
      simp only [Bool.and_eq_true, Bool.not_eq_true'] at h
      refine hr ⟨h.1, fun a ha hx => ?_⟩
      rw [hany.2 ⟨a, ha, hx⟩] at h
      cases h.2
    simp only [if_neg hr, List.append_nil, hn, ↓reduceIte]
    exact ⟨hpw, ho'.sorted⟩

/-- **C176**: if ancestors of the same kind and name are written with the same number of type arguments, a class has exactly the
ancestors written, and `Object` if it is implemented and extends nothing.  (Missing: such ancestors with different numbers of
arguments, and one ancestor written twice: `ancestor_lost_refuted`, `ancestor_twice_refuted`.) -/
theorem class_ancestors_partial (balance : Tree → Tree) (hb : Balances balance) (isImplemented : Bool) (w : List Ancestor)
    (h : ∀ a ∈ w, ∀ b ∈ w, Alike a b → a.args.length = b.args.length) :
    ((classAncestors balance isImplemented w).elems).Perm
        (w ++ if isImplemented = true ∧ (∀ a ∈ w, a.relation ≠ .extends) then [root] else []) := by
  have := (class_ancestors_exact balance hb isImplemented w).1
  rwa [kept_of_uniform w h] at this

/-- The ancestors of one kind are those of the class of that kind: nothing is lost when they are copied into another set. -/
theorem ancestors_of_kind (balance : Tree → Tree) (hb : Balances balance) (isImplemented : Bool) (w : List Ancestor)
    (kind : Relation) :
    ((ofKind balance kind (classAncestors balance isImplemented w)).elems).Perm
      ((classAncestors balance isImplemented w).elems.filter fun a => a.relation = kind) := by
  have hp := (class_ancestors_exact balance hb isImplemented w).1
  have hu : ∀ a ∈ (classAncestors balance isImplemented w).elems, ∀ b ∈ (classAncestors balance isImplemented w).elems,
      Alike a b → a.args.length = b.args.length := by
    obtain ⟨ho, hq⟩ := insertAll_spec balance hb w
    have hk : ∀ a ∈ kept w, ∀ b ∈ kept w, Alike a b → a.args.length = b.args.length :=
      fun a ha b hb' => ho.uniform a (hq.mem_iff.2 ha) b (hq.mem_iff.2 hb')
    intro a ha b hb' hab
    have ha := hp.mem_iff.1 ha
    have hb' := hp.mem_iff.1 hb'
    by_cases hr : isImplemented = true ∧ ∀ a ∈ w, a.relation ≠ .extends
    · rw [if_pos hr] at ha hb'
      rcases List.mem_append.1 ha with ha | ha <;> rcases List.mem_append.1 hb' with hb' | hb'
      · exact hk a ha b hb' hab
      · rw [List.mem_singleton.1 hb'] at hab
        exact absurd hab.1 (hr.2 a ((kept_sublist w).subset ha))
      · rw [List.mem_singleton.1 ha] at hab
        exact absurd hab.1.symm (hr.2 b ((kept_sublist w).subset hb'))
      · rw [List.mem_singleton.1 ha, List.mem_singleton.1 hb']
    · rw [if_neg hr, List.append_nil] at ha hb'
      exact hk a ha b hb' hab
  have := (insertAll_spec balance hb ((classAncestors balance isImplemented w).elems.filter fun a => a.relation = kind)).2
  rwa [kept_of_uniform] at this
  intro a ha b hb'
  exact hu a (List.mem_filter.1 ha).1 b (List.mem_filter.1 hb').1

/-- A class inherits from the classes that are written after its name. -/
theorem inherits_from_written (balance : Tree → Tree) (hb : Balances balance) (isImplemented : Bool) (w : List Ancestor)
    (name : Text) :
    inheritsFrom (classAncestors balance isImplemented w) name = true ↔
      (∃ a ∈ w, a.name = name) ∨
        (isImplemented = true ∧ (∀ a ∈ w, a.relation ≠ .extends) ∧ name = "Object".toList) := by
  have hp := (class_ancestors_exact balance hb isImplemented w).1
  unfold inheritsFrom
  rw [List.any_eq_true]
  constructor
  · rintro ⟨a, ha, h⟩
    have h : a.name = name := by simpa using h
    rcases List.mem_append.1 (hp.mem_iff.1 ha) with ha | ha
    · exact .inl ⟨a, (kept_sublist w).subset ha, h⟩
    · by_cases hr : isImplemented = true ∧ ∀ a ∈ w, a.relation ≠ .extends
      · rw [if_pos hr] at ha
        rw [List.mem_singleton.1 ha] at h
        exact .inr ⟨hr.1, hr.2, h.symm⟩
      · rw [if_neg hr] at ha; cases ha
  · rintro (⟨a, ha, h⟩ | ⟨h1, h2, h3⟩)
    · obtain ⟨b, _, hab, hk⟩ := first_kept ha
      exact ⟨b, hp.mem_iff.2 (List.mem_append_left _ hk), by simpa using hab.2.symm.trans h⟩
    · refine ⟨root, hp.mem_iff.2 (List.mem_append_right _ ?_), by rw [h3]; simp [root]⟩
      rw [if_pos ⟨h1, h2⟩]; simp

/-! ## Cases -/

/-- `IList<A>`, `IList<A, B>`, `IComparable`, `Base`. -/
def listA : Ancestor := ⟨['L'], [⟨['A'], []⟩], .implements⟩
def listAB : Ancestor := ⟨['L'], [⟨['A'], []⟩, ⟨['B'], []⟩], .implements⟩
def listB : Ancestor := ⟨['L'], [⟨['B'], []⟩], .implements⟩
def base : Ancestor := ⟨['B'], [], .extends⟩

theorem id_balances : Balances id := fun _ => rfl

/-- The hypotheses are met: `implements L<A>, L<B> extends B`. -/
example : ∀ a ∈ [listA, listB, base], ∀ b ∈ [listA, listB, base], Alike a b → a.args.length = b.args.length := by decide

example : (classAncestors id true [listA, listB, base]).elems = [base, listA, listB] := by decide
example : (classAncestors id true [listB]).elems = [root, listB] := by decide +kernel

/-- **C176** fails of the second of two ancestors with the same name and different numbers of type arguments: the class does not
have it, although it is written.  Which one is lost depends on their order. -/
theorem ancestor_lost_refuted :
    listAB ∉ (classAncestors id true [base, listA, listAB]).elems ∧
    listA ∉ (classAncestors id true [base, listAB, listA]).elems := by decide +kernel

/-- **C176** fails of an ancestor written twice: the set holds it twice, as an ancestor is less than itself. -/
theorem ancestor_twice_refuted :
    (classAncestors id true [base, listA, listA]).elems = [base, listA, listA] ∧ less listA listA = true := by decide +kernel

end Verif.Anc
