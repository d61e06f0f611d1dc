import Verif.Scope.Spec

/-! # Lemmas about lookup -/

namespace Verif.Scope

theorem Vis.le_def (a b : Vis) : a ≤ b ↔ a.rank ≤ b.rank := Iff.rfl

theorem Vis.le_trans {a b c : Vis} (h : a ≤ b) (g : b ≤ c) : a ≤ c := Nat.le_trans h g

theorem Vis.designtime_le (v : Vis) : Vis.designtime ≤ v := Nat.zero_le _

theorem Vis.le_atLeastProt (v : Vis) : v ≤ v.atLeastProt := by cases v <;> decide

theorem Vis.prot_le_atLeastProt (v : Vis) : Vis.prot ≤ v.atLeastProt := by cases v <;> decide

theorem Vis.atLeastProt_mono {v w : Vis} (h : v ≤ w) : v.atLeastProt ≤ w.atLeastProt := by
  revert h; cases v <;> cases w <;> decide

theorem declares_iff {k : Kind} {L E : AMap String Sym} {M X : List Meth} {b p : Scope} {n : String} {d : Decl} :
    Declares (.mk k L E M X b p) n d ↔ (∃ s, d = .sym s ∧ (L.find n = some s ∨ E.find n = some s)) ∨
      (k ≠ .symbol ∧ ∃ m, (m ∈ M ∨ m ∈ X) ∧ m.name = n ∧ d = .meth m) := by
  constructor
  · intro h
    cases h with
    | symbol h => exact Or.inl ⟨_, rfl, Or.inl h⟩
    | external h => exact Or.inl ⟨_, rfl, Or.inr h⟩
    | method hk h hn => exact Or.inr ⟨hk, _, Or.inl h, hn, rfl⟩
    | externalMethod hk h hn => exact Or.inr ⟨hk, _, Or.inr h, hn, rfl⟩
  · rintro (⟨s, rfl, h | h⟩ | ⟨hk, m, h | h, hn, rfl⟩)
    · exact .symbol h
    · exact .external h
    · exact .method hk h hn
    · exact .externalMethod hk h hn

theorem ownSymbol_some {L E : AMap String Sym} {n : String} {v : Vis} {d : Decl} (h : ownSymbol L E n v = some d) :
    ∃ s, d = .sym s ∧ (L.find n = some s ∨ E.find n = some s) ∧ v ≤ s.vis := by
  have ext : ∀ {d}, ownSymbol.ext E n v = some d → ∃ s, d = .sym s ∧ E.find n = some s ∧ v ≤ s.vis := by
    intro d h
    unfold ownSymbol.ext at h
    split at h
    · rename_i s hs
      split at h
      · rename_i hv; cases h; exact ⟨s, rfl, hs, hv⟩
      · cases h
    · cases h
  unfold ownSymbol at h
  split at h
  · rename_i s hs
    split at h
    · rename_i hv; cases h; exact ⟨s, rfl, Or.inl hs, hv⟩
    · obtain ⟨t, h1, h2, h3⟩ := ext h; exact ⟨t, h1, Or.inr h2, h3⟩
  · obtain ⟨t, h1, h2, h3⟩ := ext h; exact ⟨t, h1, Or.inr h2, h3⟩

theorem ownSymbol_none {L E : AMap String Sym} {n : String} {v : Vis} (h : ownSymbol L E n v = none) {s : Sym}
    (hs : L.find n = some s ∨ E.find n = some s) : ¬ v ≤ s.vis := by
  unfold ownSymbol ownSymbol.ext at h
  rcases hs with hs | hs
  · rw [hs] at h
    simp only at h
    intro hv
    rw [if_pos hv] at h
    cases h
  · intro hv
    rw [hs] at h
    simp only [if_pos hv] at h
    split at h
    · split at h <;> cases h
    · cases h

theorem firstNamed_some {ms : List Meth} {n : String} {v : Vis} {d : Decl} (h : firstNamed ms n v = some d) :
    ∃ m ∈ ms, d = .meth m ∧ m.name = n ∧ v ≤ m.vis := by
  unfold firstNamed at h
  cases hf : ms.find? (fun m => decide (v ≤ m.vis) && m.name == n) with
  | none => rw [hf] at h; cases h
  | some m =>
    rw [hf] at h
    cases h
    have h1 := List.find?_some hf
    have h2 := List.mem_of_find?_eq_some hf
    simp only [Bool.and_eq_true, decide_eq_true_eq, beq_iff_eq] at h1
    exact ⟨m, h2, rfl, h1.2, h1.1⟩

theorem firstNamed_none {ms : List Meth} {n : String} {v : Vis} (h : firstNamed ms n v = none) {m : Meth}
    (hm : m ∈ ms) (hn : m.name = n) : ¬ v ≤ m.vis := by
  unfold firstNamed at h
  rw [Option.map_eq_none_iff, List.find?_eq_none] at h
  have := h m hm
  intro hv
  simp [hn, hv] at this

theorem ownDecl_some {k : Kind} {L E : AMap String Sym} {M X : List Meth} {b p : Scope} {n : String} {v : Vis}
    {d : Decl} (hk : k ≠ .symbol) (h : ownDecl L E M X n v = some d) :
    Declares (.mk k L E M X b p) n d ∧ v ≤ d.vis := by
  unfold ownDecl at h
  rw [Option.or_eq_some_iff] at h
  rcases h with h | ⟨-, h⟩
  · obtain ⟨s, rfl, hs, hv⟩ := ownSymbol_some h
    rcases hs with hs | hs
    · exact ⟨.symbol hs, hv⟩
    · exact ⟨.external hs, hv⟩
  · rw [Option.or_eq_some_iff] at h
    rcases h with h | ⟨-, h⟩
    · obtain ⟨m, hm, rfl, hn, hv⟩ := firstNamed_some h; exact ⟨.method hk hm hn, hv⟩
    · obtain ⟨m, hm, rfl, hn, hv⟩ := firstNamed_some h; exact ⟨.externalMethod hk hm hn, hv⟩

theorem ownDecl_none {k : Kind} {L E : AMap String Sym} {M X : List Meth} {b p : Scope} {n : String} {v : Vis}
    (h : ownDecl L E M X n v = none) {d : Decl} (hd : Declares (.mk k L E M X b p) n d) : ¬ v ≤ d.vis := by
  unfold ownDecl at h
  rw [Option.or_eq_none_iff, Option.or_eq_none_iff] at h
  obtain ⟨h1, h2, h3⟩ := h
  cases hd with
  | symbol hs => exact ownSymbol_none h1 (Or.inl hs)
  | external hs => exact ownSymbol_none h1 (Or.inr hs)
  | method _ hm hn => exact firstNamed_none h2 hm hn
  | externalMethod _ hm hn => exact firstNamed_none h3 hm hn

theorem ownSymbol_none' {k : Kind} {L E : AMap String Sym} {M X : List Meth} {b p : Scope} {n : String} {v : Vis}
    (hk : k = .symbol) (h : ownSymbol L E n v = none) {d : Decl} (hd : Declares (.mk k L E M X b p) n d) :
    ¬ v ≤ d.vis := by
  cases hd with
  | symbol hs => exact ownSymbol_none h (Or.inl hs)
  | external hs => exact ownSymbol_none h (Or.inr hs)
  | method hk' _ _ => exact absurd hk hk'
  | externalMethod hk' _ _ => exact absurd hk hk'

theorem ownDecl_eq_none_of_not_declares {k : Kind} {L E : AMap String Sym} {M X : List Meth} {b p : Scope}
    {n : String} {v : Vis} (hk : k ≠ .symbol) (h : ∀ d, Declares (.mk k L E M X b p) n d → ¬ v ≤ d.vis) :
    ownDecl L E M X n v = none := by
  cases e : ownDecl L E M X n v with
  | none => rfl
  | some d =>
    obtain ⟨h1, h2⟩ := ownDecl_some (b := b) (p := p) hk e
    exact absurd h2 (h d h1)

theorem ownSymbol_eq_none_of_not_declares {L E : AMap String Sym} {M X : List Meth} {b p : Scope}
    {n : String} {v : Vis} (h : ∀ d, Declares (.mk .symbol L E M X b p) n d → ¬ v ≤ d.vis) :
    ownSymbol L E n v = none := by
  cases e : ownSymbol L E n v with
  | none => rfl
  | some d =>
    obtain ⟨s, rfl, hs, hv⟩ := ownSymbol_some e
    rcases hs with hs | hs
    · exact absurd hv (h _ (.symbol hs))
    · exact absurd hv (h _ (.external hs))

theorem ownDecl_mono {L E : AMap String Sym} {M X : List Meth} {n : String} {v w : Vis} (hv : v ≤ w)
    (h : ownDecl L E M X n v = none) : ownDecl L E M X n w = none := by
  refine ownDecl_eq_none_of_not_declares (k := .method) (b := .null) (p := .null) (by decide) fun d hd hw => ?_
  exact ownDecl_none h hd (Vis.le_trans hv hw)

theorem ownSymbol_mono {L E : AMap String Sym} {n : String} {v w : Vis} (hv : v ≤ w)
    (h : ownSymbol L E n v = none) : ownSymbol L E n w = none := by
  refine ownSymbol_eq_none_of_not_declares (M := []) (X := []) (b := .null) (p := .null) fun d hd hw => ?_
  exact ownSymbol_none' rfl h hd (Vis.le_trans hv hw)

/-! ## The cases of a lookup in a `MethodScope` -/

/-- What a `MethodScope` does if it declares nothing itself. -/
theorem methodResolve_none_own {bs : Option Decl} {rb rp : Res Decl} {only : Bool} {v : Vis} :
    methodResolve none bs rb rp only v =
      if v = .designtime then (if only then .none else rp)
      else match bs with
        | none => if only then .none else rp
        | some (.meth _) => .threw
        | some (.sym _) => match rb with
          | .none => if only then .none else rp
          | r => r := rfl

theorem objectResolve_found {r1 r2 r3 : Res Decl} {only : Bool} {d : Decl} (h : objectResolve r1 r2 r3 only = .found d) :
    r1 = .found d ∨ (only = false ∧ r2 = .found d) ∨ (only = false ∧ r3 = .found d) := by
  unfold objectResolve at h
  cases r1 with
  | found a => exact Or.inl h
  | threw => cases h
  | undefined => cases h
  | none =>
    cases only with
    | true => cases h
    | false =>
      cases r2 with
      | none => exact Or.inr (Or.inr ⟨rfl, h⟩)
      | found a => exact Or.inr (Or.inl ⟨rfl, h⟩)
      | threw => cases h
      | undefined => cases h

theorem baseResult_found {α : Type} {bs : Option Decl} {b : Scope} {r : Res α} {a : α}
    (h : baseResult bs b r = .found a) : r = .found a ∧ ∃ y, bs = some (.sym y) := by
  unfold baseResult at h
  split at h
  · split at h
    · exact ⟨h, _, rfl⟩
    · cases h
  · cases h

/-! ## Signatures -/

theorem go_iff (sig : List Param) : ∀ args : List String, args.length ≤ sig.length →
    (isSignatureValid.go sig args = true ↔
      (∀ (i : Nat) (a : String) (p : Param), args[i]? = some a → sig[i]? = some p → p.type = a ∨ p.type = "") ∧
      (∀ (i : Nat) (p : Param), args.length ≤ i → sig[i]? = some p → p.hasDefault = true)) := by
  induction sig with
  | nil => intro args h; simp [isSignatureValid.go]
  | cons s sig ih =>
    intro args hl
    cases args with
    | nil =>
      have := ih [] (by simp)
      unfold isSignatureValid.go
      cases hd : s.hasDefault with
      | false =>
        simp only [Bool.not_false, if_true, Bool.false_eq_true, false_iff, not_and]
        intro _ h
        have := h 0 s (by simp) (by simp)
        rw [hd] at this; cases this
      | true =>
        simp only [Bool.not_true, Bool.false_eq_true, if_false]
        rw [this]
        constructor
        · rintro ⟨-, h⟩
          refine ⟨by simp, ?_⟩
          intro i p _ hi
          cases i with
          | zero => simp only [List.getElem?_cons_zero, Option.some.injEq] at hi; rw [← hi]; exact hd
          | succ i => exact h i p (by simp) (by simpa using hi)
        · rintro ⟨-, h⟩
          exact ⟨by simp, fun i p _ hi => h (i+1) p (by simp) (by simpa using hi)⟩
    | cons a args =>
      have := ih args (by simpa using hl)
      unfold isSignatureValid.go
      by_cases hne : s.type ≠ a ∧ s.type ≠ ""
      · rw [if_pos hne]
        simp only [Bool.false_eq_true, false_iff, not_and]
        intro h
        rcases h 0 a s (by simp) (by simp) with h | h
        · exact absurd h hne.1
        · exact absurd h hne.2
      · rw [if_neg hne, this]
        constructor
        · rintro ⟨h1, h2⟩
          constructor
          · intro i a' p ha hp
            cases i with
            | zero =>
              simp only [List.getElem?_cons_zero, Option.some.injEq] at ha hp
              subst ha; subst hp
              by_cases h : s.type = a
              · exact Or.inl h
              · right
                by_cases h' : s.type = ""
                · exact h'
                · exact absurd ⟨h, h'⟩ hne
            | succ i => exact h1 i a' p (by simpa using ha) (by simpa using hp)
          · intro i p hi hp
            cases i with
            | zero => simp at hi
            | succ i => exact h2 i p (by simpa using hi) (by simpa using hp)
        · rintro ⟨h1, h2⟩
          exact ⟨fun i a' p ha hp => h1 (i+1) a' p (by simpa using ha) (by simpa using hp),
            fun i p hi hp => h2 (i+1) p (by simpa using hi) (by simpa using hp)⟩

theorem isSignatureValid_iff (sig : List Param) (args : List String) :
    isSignatureValid sig args = true ↔ Accepts sig args := by
  unfold isSignatureValid Accepts
  by_cases h : args.length > sig.length
  · rw [if_pos h]; constructor
    · intro h'; cases h'
    · rintro ⟨h', -⟩; omega
  · rw [if_neg h, go_iff sig args (by omega)]
    constructor
    · rintro ⟨h1, h2⟩; exact ⟨by omega, h1, h2⟩
    · rintro ⟨-, h1, h2⟩; exact ⟨h1, h2⟩

theorem firstApplicable_some {ms : List Meth} {n : String} {args : List String} {v : Vis} {m : Meth}
    (h : firstApplicable ms n args v = some m) : m ∈ ms ∧ m.name = n ∧ v ≤ m.vis ∧ Accepts m.sig args := by
  unfold firstApplicable at h
  have h1 := List.find?_some h
  have h2 := List.mem_of_find?_eq_some h
  simp only [Bool.and_eq_true, decide_eq_true_eq, beq_iff_eq, isSignatureValid_iff] at h1
  exact ⟨h2, h1.2.1, h1.1, h1.2.2⟩

theorem firstApplicable_none {ms : List Meth} {n : String} {args : List String} {v : Vis}
    (h : firstApplicable ms n args v = none) {m : Meth} (hm : m ∈ ms) (hn : m.name = n) (hv : v ≤ m.vis) :
    ¬ Accepts m.sig args := by
  unfold firstApplicable at h
  rw [List.find?_eq_none] at h
  have := h m hm
  intro ha
  rw [← isSignatureValid_iff] at ha
  simp [hn, hv, ha] at this

theorem ownMeth_some {k : Kind} {L E : AMap String Sym} {M X : List Meth} {b p : Scope} {n : String}
    {args : List String} {v : Vis} {m : Meth} (hk : k ≠ .symbol)
    (h : (firstApplicable M n args v).or (firstApplicable X n args v) = some m) :
    Offers (.mk k L E M X b p) n args v m := by
  rw [Option.or_eq_some_iff] at h
  rcases h with h | ⟨-, h⟩
  · obtain ⟨h1, hn, h3, h4⟩ := firstApplicable_some h; exact ⟨.method hk h1 hn, h3, h4⟩
  · obtain ⟨h1, hn, h3, h4⟩ := firstApplicable_some h; exact ⟨.externalMethod hk h1 hn, h3, h4⟩

theorem ownMeth_none {k : Kind} {L E : AMap String Sym} {M X : List Meth} {b p : Scope} {n : String}
    {args : List String} {v : Vis} {m : Meth}
    (h : (firstApplicable M n args v).or (firstApplicable X n args v) = none) :
    ¬ Offers (.mk k L E M X b p) n args v m := by
  rw [Option.or_eq_none_iff] at h
  rintro ⟨hd, hv, ha⟩
  cases hd with
  | method _ hm hn => exact firstApplicable_none h.1 hm hn hv ha
  | externalMethod _ hm hn => exact firstApplicable_none h.2 hm hn hv ha

end Verif.Scope
