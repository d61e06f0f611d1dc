import Verif.Vars.Sound

/-!
# The ancestors an object knows
-/

namespace Verif.Vars

theorem findClass_none_ne {cs : List ClassDecl} {n : String} (h : (findClass cs n).isNone = true)
    {c : ClassDecl} (hc : c ∈ cs) : c.name ≠ n := by
  intro hn
  unfold findClass at h
  rw [Option.isNone_iff_eq_none, List.find?_eq_none] at h
  exact h c hc (by simp [hn])

/-- A class that is not in the list has no ancestors. -/
theorem upsOf_unknown {cs : List ClassDecl} {n : String} (h : ∀ c ∈ cs, c.name ≠ n) :
    upsOf cs n = [] := by
  induction cs with
  | nil => rfl
  | cons c cs ih =>
    unfold upsOf
    rw [if_neg (h c (by simp))]
    exact ih (fun d hd => h d (by simp [hd]))

theorem checkClasses_cons {c : ClassDecl} {cs : List ClassDecl}
    (h : checkClasses (c :: cs) = true) :
    c.name ≠ "Object" ∧ (∀ d ∈ cs, d.name ≠ c.name) ∧
    (∀ a ∈ c.anc, a.name ≠ c.name) ∧ checkClasses cs = true := by
  unfold checkClasses at h
  simp only [Bool.and_eq_true, bne_iff_ne, ne_eq, List.all_eq_true, Bool.or_eq_true,
    beq_iff_eq] at h
  obtain ⟨⟨⟨h1, h2⟩, h3⟩, h4⟩ := h
  refine ⟨h1, fun d hd => findClass_none_ne h2 hd, fun a ha hn => ?_, h4⟩
  rcases h3 a ha with h | h
  · exact h1 (hn.symm.trans h)
  · cases hf : findClass cs a.name with
    | none => rw [hf] at h; cases h
    | some d =>
      obtain ⟨hd, hdn⟩ := mem_of_findClass hf
      exact findClass_none_ne h2 hd (hdn.trans hn)

/-- The ancestors of a class, one level unfolded. -/
theorem mem_upsOf {cs : List ClassDecl} (h : checkClasses cs = true) (d t : String) :
    t ∈ upsOf cs d ↔ ∃ c ∈ cs, c.name = d ∧ ∃ a ∈ c.anc,
      a.name = t ∨ (a.extends_ = true ∧ t ∈ upsOf cs a.name) := by
  induction cs with
  | nil => simp [upsOf]
  | cons c cs ih =>
    obtain ⟨h1, h2, h3, h4⟩ := checkClasses_cons h
    by_cases hd : c.name = d
    · have hself : upsOf (c :: cs) d = c.anc.flatMap (fun a => a.name ::
          (if a.extends_ then upsOf cs a.name else [])) := by
        rw [upsOf, if_pos hd]
      have hup : ∀ a ∈ c.anc, upsOf (c :: cs) a.name = upsOf cs a.name := by
        intro a ha
        rw [upsOf, if_neg (fun e => h3 a ha e.symm)]
      rw [hself, List.mem_flatMap]
      constructor
      · rintro ⟨a, ha, ht⟩
        refine ⟨c, by simp, hd, a, ha, ?_⟩
        rw [hup a ha]
        rw [List.mem_cons] at ht
        rcases ht with ht | ht
        · exact .inl ht.symm
        · split at ht
          · exact .inr ⟨by assumption, ht⟩
          · cases ht
      · rintro ⟨c', hc', hn, a, ha, ht⟩
        have hcc : c' = c := by
          rw [List.mem_cons] at hc'
          rcases hc' with hc' | hc'
          · exact hc'
          · exact absurd (hn.trans hd.symm) (h2 c' hc')
        subst hcc
        rw [hup a ha] at ht
        refine ⟨a, ha, ?_⟩
        rw [List.mem_cons]
        rcases ht with ht | ⟨he, ht⟩
        · exact .inl ht.symm
        · rw [if_pos he]
          exact .inr ht
    · have hself : upsOf (c :: cs) d = upsOf cs d := by rw [upsOf, if_neg hd]
      rw [hself, ih h4]
      have hup : ∀ c' ∈ cs, ∀ a ∈ c'.anc, upsOf (c :: cs) a.name = upsOf cs a.name := by
        intro c' hc' a ha
        rw [upsOf, if_neg]
        intro hn
        -- the ancestors of later classes are declared after them
        have key : ∀ ds : List ClassDecl, checkClasses ds = true → c' ∈ ds → a.name = "Object" ∨
            ∃ e ∈ ds, e.name = a.name := by
          intro ds
          induction ds with
          | nil => intro _ h; cases h
          | cons e ds ihd =>
            intro hds hmem
            rw [List.mem_cons] at hmem
            rcases hmem with rfl | hmem
            · unfold checkClasses at hds
              simp only [Bool.and_eq_true, List.all_eq_true, Bool.or_eq_true,
                beq_iff_eq] at hds
              rcases hds.1.2 a ha with h | h
              · exact .inl h
              · cases hf : findClass ds a.name with
                | none => rw [hf] at h; cases h
                | some e' =>
                  obtain ⟨he', hen⟩ := mem_of_findClass hf
                  exact .inr ⟨e', by simp [he'], hen⟩
            · rcases ihd (checkClasses_cons hds).2.2.2 hmem with h | ⟨e', he', hen⟩
              · exact .inl h
              · exact .inr ⟨e', by simp [he'], hen⟩
        rcases key cs h4 hc' with h | ⟨e, he, hen⟩
        · exact h1 (hn.trans h)
        · exact h2 e he (hen.trans hn.symm)
      constructor
      · rintro ⟨c', hc', hn, a, ha, ht⟩
        exact ⟨c', by simp [hc'], hn, a, ha, by rwa [hup c' hc' a ha]⟩
      · rintro ⟨c', hc', hn, a, ha, ht⟩
        rw [List.mem_cons] at hc'
        rcases hc' with rfl | hc'
        · exact absurd hn hd
        · exact ⟨c', hc', hn, a, ha, by rwa [hup c' hc' a ha] at ht⟩

theorem Inherits.mono {c : ClassDecl} {cs : List ClassDecl} {fs : List Fn} {d n : String}
    (h : Inherits ⟨cs, fs⟩ d n) : Inherits ⟨c :: cs, fs⟩ d n := by
  induction h with
  | refl => exact .refl _
  | step e _ ih =>
    obtain ⟨x, hx, r⟩ := e
    exact .step ⟨x, List.mem_cons_of_mem _ hx, r⟩ ih

theorem upsOf_recognised (cs : List ClassDecl) (fs : List Fn) :
    ∀ d t, t ∈ upsOf cs d → Recognised ⟨cs, fs⟩ d t := by
  induction cs with
  | nil => intro d t h; simp [upsOf] at h
  | cons c cs ih =>
    intro d t h
    have mono : ∀ m, Recognised ⟨cs, fs⟩ m t → Recognised ⟨c :: cs, fs⟩ m t := by
      intro m hm
      rcases hm with hm | ⟨k, hk, x, hx, r⟩
      · exact .inl hm.mono
      · exact .inr ⟨k, hk.mono, x, List.mem_cons_of_mem _ hx, r⟩
    unfold upsOf at h
    split at h
    · rename_i hd
      rw [List.mem_flatMap] at h
      obtain ⟨a, ha, ht⟩ := h
      rw [List.mem_cons] at ht
      rcases ht with ht | ht
      · subst ht
        cases he : a.extends_ with
        | true =>
          exact .inl (.step ⟨c, List.mem_cons_self .., hd, a, ha, he, rfl⟩ (.refl _))
        | false =>
          exact .inr ⟨d, .refl _, c, List.mem_cons_self .., hd, a, ha, he, rfl⟩
      · split at ht
        · rename_i he
          have hstep : Extends ⟨c :: cs, fs⟩ d a.name :=
            ⟨c, List.mem_cons_self .., hd, a, ha, he, rfl⟩
          rcases mono _ (ih _ _ ht) with h | ⟨k, hk, r⟩
          · exact .inl (.step hstep h)
          · exact .inr ⟨k, .step hstep hk, r⟩
        · cases ht
    · exact mono _ (ih _ _ h)

/-- The names an object answers to are its class, the classes it inherits from through `extends`,
and the interfaces these implement directly. -/
theorem recognised_iff {P : Program} (h : checkClasses P.classes = true) (d t : String) :
    (t = d ∨ t ∈ upsOf P.classes d) ↔ Recognised P d t := by
  constructor
  · rintro (rfl | ht)
    · exact .inl (.refl _)
    · exact upsOf_recognised P.classes P.fns d t ht
  · have up : ∀ d m, Inherits P d m → ∀ t, (t = m ∨ t ∈ upsOf P.classes m) →
        (t = d ∨ t ∈ upsOf P.classes d) := by
      intro d m hi
      induction hi with
      | refl => exact fun t ht => ht
      | @step d k m e _ ih =>
        intro t ht
        obtain ⟨c, hc, hn, a, ha, he, rfl⟩ := e
        refine .inr ((mem_upsOf h d t).mpr ⟨c, hc, hn, a, ha, ?_⟩)
        rcases ih t ht with h | h
        · exact .inl h.symm
        · exact .inr ⟨he, h⟩
    rintro (hi | ⟨m, hi, c, hc, hn, a, ha, -, rfl⟩)
    · exact up d t hi t (.inl rfl)
    · exact up d m hi _ (.inr ((mem_upsOf h m _).mpr ⟨c, hc, hn, a, ha, .inl rfl⟩))

end Verif.Vars
