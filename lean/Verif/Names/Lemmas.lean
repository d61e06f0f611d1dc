import Verif.Names.Spec
import Verif.Scope.Lemmas
import Verif.Scope.Props

namespace Verif
namespace Names

open Scope (Vis Sym Meth Decl Kind Scope Res Declares)

theorem only_declares {s : Scope} {n : String} {v : Vis} {d : Decl} (h : Scope.resolve s n true v = .found d) :
    MemberOf s n d := by
  induction s generalizing d with
  | null => cases h
  | mk k L E M X b p ihb _ =>
    have key : ∀ {d}, k ≠ .symbol → Scope.methodResolve (Scope.ownDecl L E M X n v) (Scope.ownDecl L E M X "base" .designtime)
        (Scope.resolve b n true v) (Scope.resolve p n false v) true v = .found d →
        MemberOf (.mk k L E M X b p) n d := by
      intro d hk h
      cases e : Scope.ownDecl L E M X n v with
      | some d' =>
        rw [e] at h
        cases h
        exact ⟨_, List.mem_cons_self, (Scope.ownDecl_some hk e).1⟩
      | none =>
        rw [e, Scope.methodResolve_none_own] at h
        simp only [if_true] at h
        split at h
        · cases h
        · split at h
          · cases h
          · cases h
          · split at h
            · cases h
            · obtain ⟨sc, hsc, hd⟩ := ihb (by assumption)
              exact ⟨sc, List.mem_cons_of_mem _ hsc, hd⟩
    cases k with
    | symbol =>
      simp only [Scope.resolve] at h
      cases e : Scope.ownSymbol L E n v with
      | some d' =>
        rw [e] at h
        cases h
        obtain ⟨s, rfl, hs, _⟩ := Scope.ownSymbol_some e
        refine ⟨_, List.mem_cons_self, ?_⟩
        rcases hs with hs | hs
        · exact .symbol hs
        · exact .external hs
      | none => rw [e] at h; simp at h
    | method => exact key (by decide) (by simpa only [Scope.resolve] using h)
    | object =>
      simp only [Scope.resolve] at h
      rcases Scope.objectResolve_found h with h | ⟨h, _⟩ | ⟨h, _⟩
      · exact key (by decide) h
      · cases h
      · cases h

/-- One step of `resolve`. -/
theorem resolve_word {w : World} {own : Option String} {n : String} {rest : List Tok} {b : Scope} {only : Bool} {v : Vis}
    {o : Out} (h : resolve w own (.word n :: rest) b only v = o) :
    (b = .null ∧ o = .threw) ∨ (b ≠ .null ∧
      ((Scope.resolve b n only (if only then v else .priv) = .threw ∧ o = .threw) ∨
       (Scope.resolve b n only (if only then v else .priv) = .undefined ∧ o = .undefined) ∨
       (Scope.resolve b n only (if only then v else .priv) = .none ∧ o = .missing (.word n :: rest)) ∨
       ∃ d, Scope.resolve b n only (if only then v else .priv) = .found d ∧
         ((part w n d = none ∧ o = .threw) ∨ ∃ p sc, part w n d = some (p, sc) ∧
           ((rest = [] ∧ o = .undefined) ∨
            (∃ r, rest = .dot :: r ∧
              ((∃ ps r', resolve w own r sc true (nextVis w own n d v) = .found ps r' ∧ o = .found (p :: ps) r') ∨
               ((∀ ps r', resolve w own r sc true (nextVis w own n d v) ≠ .found ps r') ∧
                 o = resolve w own r sc true (nextVis w own n d v)))) ∨
            (Ends rest ∧ o = .found [p] rest))))) := by
  by_cases hb : b = .null
  · subst hb
    exact Or.inl ⟨rfl, by rw [← h]; simp [resolve]⟩
  · refine Or.inr ⟨hb, ?_⟩
    rw [resolve] at h
    rotate_left
    · exact fun hn => hb hn
    split at h
    · exact Or.inl ⟨by assumption, h.symm⟩
    · exact Or.inr (Or.inl ⟨by assumption, h.symm⟩)
    · exact Or.inr (Or.inr (Or.inl ⟨by assumption, h.symm⟩))
    · rename_i d hd
      refine Or.inr (Or.inr (Or.inr ⟨d, hd, ?_⟩))
      split at h
      · exact Or.inl ⟨by assumption, h.symm⟩
      · rename_i p sc hp
        refine Or.inr ⟨p, sc, hp, ?_⟩
        split at h
        · exact Or.inl ⟨rfl, h.symm⟩
        · rename_i r
          refine Or.inr (Or.inl ⟨r, rfl, ?_⟩)
          split at h
          · rename_i ps r' hr
            exact Or.inl ⟨ps, r', hr, h.symm⟩
          · rename_i hr
            exact Or.inr ⟨fun ps r' hh => hr ps r' hh, h.symm⟩
        · rename_i h1 h2
          refine Or.inr (Or.inr ⟨?_, h.symm⟩)
          cases rest with
          | nil => exact absurd rfl h1
          | cons t r => exact ⟨t, r, rfl, fun ht => h2 r (by rw [ht])⟩

theorem part_props {w : World} {n : String} {d : Decl} {p : Part} {sc : Scope} (h : part w n d = some (p, sc)) :
    p.name = n ∧ p.decl = d ∧ (sc ≠ .null → Holds w d sc) := by
  unfold part at h
  split at h
  · cases h; exact ⟨rfl, rfl, fun h => absurd rfl h⟩
  · split at h
    · rename_i he
      simp only [Option.map_eq_some_iff, Prod.mk.injEq] at h
      obtain ⟨c, hc, hp, hs⟩ := h
      subst hs; subst hp
      exact ⟨rfl, rfl, fun _ => .blueprint he hc⟩
    · rename_i he
      cases h
      exact ⟨rfl, rfl, fun _ => .space he⟩
    · rename_i t k m he
      cases h
      refine ⟨rfl, rfl, fun hn => ?_⟩
      by_cases ha : w.atomic t = true
      · rw [if_pos ha] at hn; exact absurd rfl hn
      · rw [if_neg ha] at hn ⊢
        cases hc : w.classes t with
        | none => rw [hc] at hn; exact absurd rfl hn
        | some c => exact .variable he hc

theorem spell_ends {ns : List String} {n : String} {rest : List Tok} (he : Ends rest) :
    (ns = [] ∧ spell (n :: ns) rest = .word n :: rest) ∨
    (∃ m ms, ns = m :: ms ∧ spell (n :: ns) rest = .word n :: .dot :: spell (m :: ms) rest) := by
  cases ns with
  | nil => exact Or.inl ⟨rfl, rfl⟩
  | cons m ms => exact Or.inr ⟨m, ms, rfl, rfl⟩

/-- What a successful lookup of a spelled name returns. -/
theorem resolve_found {w : World} {own : Option String} {rest : List Tok} (he : Ends rest) :
    ∀ (ns : List String) (b : Scope) (only : Bool) (v : Vis) (ps : List Part) (r : List Tok), ns ≠ [] →
      resolve w own (spell ns rest) b only v = .found ps r →
      r = rest ∧ ps.map Part.name = ns ∧ Selects w ps ∧ b ≠ .null ∧
      ∃ p ps', ps = p :: ps' ∧ Scope.resolve b p.name only (if only then v else .priv) = .found p.decl := by
  intro ns
  induction ns with
  | nil => intro b only v ps r h; exact absurd rfl h
  | cons n ns ih =>
    intro b only v ps r _ h
    rcases spell_ends (ns := ns) (n := n) he with ⟨rfl, hs⟩ | ⟨m, ms, rfl, hs⟩
    · rw [hs] at h
      rcases resolve_word h with ⟨_, h⟩ | ⟨hb, h⟩
      · cases h
      · rcases h with ⟨_, h⟩ | ⟨_, h⟩ | ⟨_, h⟩ | ⟨d, hd, h⟩
        · cases h
        · cases h
        · cases h
        · rcases h with ⟨_, h⟩ | ⟨p, sc, hp, h⟩
          · cases h
          · rcases h with ⟨_, h⟩ | ⟨r', hr', _⟩ | ⟨_, h⟩
            · cases h
            · obtain ⟨t, r, rfl, ht⟩ := he
              cases hr'
              exact absurd rfl ht
            · cases h
              obtain ⟨h1, h2, _⟩ := part_props hp
              exact ⟨rfl, by simp [h1], trivial, hb, p, [], rfl, by rw [h1, h2]; exact hd⟩
    · rw [hs] at h
      rcases resolve_word h with ⟨_, h⟩ | ⟨hb, h⟩
      · cases h
      · rcases h with ⟨_, h⟩ | ⟨_, h⟩ | ⟨_, h⟩ | ⟨d, hd, h⟩
        · cases h
        · cases h
        · cases h
        · rcases h with ⟨_, h⟩ | ⟨p, sc, hp, h⟩
          · cases h
          · rcases h with ⟨_, h⟩ | ⟨r', hr', h⟩ | ⟨⟨t, r', hr', ht⟩, _⟩
            · cases h
            · cases hr'
              rcases h with ⟨ps', r', hres, h⟩ | ⟨hno, h⟩
              · cases h
                obtain ⟨i1, i2, i3, i4, q, qs, rfl, i5⟩ := ih sc true _ ps' r (by simp) hres
                obtain ⟨h1, h2, h3⟩ := part_props hp
                refine ⟨i1, by simp [h1, ← i2], ⟨⟨sc, ?_, ?_⟩, i3⟩, hb, p, q :: qs, rfl, by rw [h1, h2]; exact hd⟩
                · rw [h2]; exact h3 i4
                · simp only [if_true] at i5
                  exact only_declares i5
              · exact absurd h.symm (hno ps r)
            · cases hr'
              exact absurd rfl ht

/-- Where a failed lookup of a spelled name leaves the iterator. -/
theorem resolve_missing {w : World} {own : Option String} {rest : List Tok} (he : Ends rest) :
    ∀ (ns : List String) (b : Scope) (only : Bool) (v : Vis) (r : List Tok), ns ≠ [] →
      resolve w own (spell ns rest) b only v = .missing r →
      ∃ k, k < ns.length ∧ r = spell (ns.drop k) rest ∧
        (k ≠ 0 → ∃ n d, ns.head? = some n ∧ Scope.resolve b n only (if only then v else .priv) = .found d) := by
  intro ns
  induction ns with
  | nil => intro b only v r h; exact absurd rfl h
  | cons n ns ih =>
    intro b only v r _ h
    rcases spell_ends (ns := ns) (n := n) he with ⟨rfl, hs⟩ | ⟨m, ms, rfl, hs⟩
    · rw [hs] at h
      rcases resolve_word h with ⟨_, h⟩ | ⟨hb, h⟩
      · cases h
      · rcases h with ⟨_, h⟩ | ⟨_, h⟩ | ⟨_, h⟩ | ⟨d, hd, h⟩
        · cases h
        · cases h
        · cases h
          exact ⟨0, by simp, rfl, fun h => absurd rfl h⟩
        · rcases h with ⟨_, h⟩ | ⟨p, sc, hp, h⟩
          · cases h
          · rcases h with ⟨_, h⟩ | ⟨r', hr', _⟩ | ⟨_, h⟩
            · cases h
            · obtain ⟨t, r, rfl, ht⟩ := he
              cases hr'
              exact absurd rfl ht
            · cases h
    · rw [hs] at h
      rcases resolve_word h with ⟨_, h⟩ | ⟨hb, h⟩
      · cases h
      · rcases h with ⟨_, h⟩ | ⟨_, h⟩ | ⟨_, h⟩ | ⟨d, hd, h⟩
        · cases h
        · cases h
        · cases h
          exact ⟨0, by simp, hs.symm, fun h => absurd rfl h⟩
        · rcases h with ⟨_, h⟩ | ⟨p, sc, hp, h⟩
          · cases h
          · rcases h with ⟨_, h⟩ | ⟨r', hr', h⟩ | ⟨⟨t, r', hr', ht⟩, _⟩
            · cases h
            · cases hr'
              rcases h with ⟨ps', r', hres, h⟩ | ⟨hno, h⟩
              · cases h
              · obtain ⟨k, hk, hr, _⟩ := ih sc true _ r (by simp) h.symm
                refine ⟨k + 1, by simp only [List.length_cons] at hk ⊢; omega, by simpa using hr, fun _ => ⟨n, d, rfl, hd⟩⟩
            · cases hr'
              exact absurd rfl ht

end Names
end Verif
