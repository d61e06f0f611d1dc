import Verif.Text.Model
import Verif.Text.Spec
import Verif.Str.Props

/-!
# Properties of `System.String` and its iterators (C123–C127)

Texts are shorter than 2^31: their sizes are `int`s.
-/

namespace Verif.Text

open Verif.Str

/-! ## Lemmas -/

theorem strlen_eq {s : Text} (h : s.length < 2 ^ 31) : strlen s = s.length := by
  simp only [strlen, toInt32]
  rw [Nat.mod_eq_of_lt (by omega), if_pos (by omega)]

theorem occursAt_le {s t : Text} {i : Nat} (h : OccursAt s t i) : i + t.length ≤ s.length := by
  obtain ⟨a, b, e, ha⟩ := h
  rw [e]; simp; omega

theorem find_spec (s t : Text) (p : Nat) (hs : s.length < 2 ^ 31) (hp : p < 2 ^ 62) :
    (extStrfind s t p = .ok (-1) ∧ ∀ i, OccursAt s t i → i < p) ∨
    (∃ i : Nat, OccursAt s t i ∧ p ≤ i ∧ extStrfind s t p = .ok i ∧ ∀ j, OccursAt s t j → p ≤ j → i ≤ j) := by
  rcases strfind_first s t p hs (by omega) with ⟨h1, h2⟩ | ⟨a, b, e, hle, h1, h2⟩
  · left
    refine ⟨h1, fun i ho => ?_⟩
    obtain ⟨a, b, e, ha⟩ := ho
    refine Nat.lt_of_not_le fun hle => h2 ⟨a, b, e, by omega⟩
  · right
    refine ⟨a.length, ⟨a, b, e, rfl⟩, by omega, h1, fun j ho hj => ?_⟩
    obtain ⟨a', b', e', ha'⟩ := ho
    have := h2 a' b' e' (by omega)
    omega

theorem sub_rest {s : Text} {i : Nat} (h : i ≤ s.length) (hs : s.length < 2 ^ 31) :
    extSubstr s i none = .ok (s.drop i) := by
  rw [substr_rest s (s.drop i) i (by omega) (by omega)]
  exact ⟨s.take i, (List.take_append_drop i s).symm, by simp; omega⟩

theorem sub_take {s : Text} {i n : Nat} (h : i ≤ s.length) (hs : s.length < 2 ^ 31) (hn : n < 2 ^ 62) :
    extSubstr s i (some n) = .ok ((s.drop i).take n) := by
  rw [substr_slice s ((s.drop i).take n) i n (by omega) (by omega) (by omega)]
  refine ⟨s.take i, (s.drop i).drop n, ?_, by simp; omega, ?_⟩
  · rw [List.append_assoc, List.take_append_drop, List.take_append_drop]
  · left
    refine ⟨by omega, by simp; omega, ?_⟩
    by_cases hle : n ≤ s.length - i
    · left; simp; omega
    · right; rw [List.drop_drop, List.drop_eq_nil_iff]; omega

theorem sub_bad {s : Text} {i : Int} {n : Option Int} (h : i < 0 ∨ i > s.length) (hi : -2 ^ 62 ≤ i ∧ i < 2 ^ 62)
    (hs : s.length < 2 ^ 31) : extSubstr s i n = .exception :=
  substr_out_of_range s i n (by omega) (by omega) h

/-! ## C123: questions about a text -/

/-- `CharAt( i )` is the character at the index, and an exception outside of the text. -/
theorem charAt_is_the_character (v : Text) (hv : v.length < 2 ^ 31) (i : Int) (hi : -2 ^ 31 ≤ i ∧ i < 2 ^ 31) :
    (∀ c, charAt (newString v) i = .ok c ↔ ∃ a x b, v = a ++ x :: b ∧ (a.length : Int) = i ∧ c = [x]) ∧
    (charAt (newString v) i = .exception ↔ i < 0 ∨ i ≥ v.length) := by
  have hsz : (newString v).size = v.length := strlen_eq hv
  by_cases h : i < 0 ∨ i ≥ v.length
  · have he : charAt (newString v) i = .exception := by
      simp only [charAt, hsz]; rw [if_pos h]
    refine ⟨fun c => ?_, by simp [he, h]⟩
    rw [he]
    constructor
    · intro h; cases h
    · rintro ⟨a, x, b, e, ha, _⟩
      have := congrArg List.length e
      simp at this
      omega
  · obtain ⟨n, rfl⟩ : ∃ n : Nat, i = n := ⟨i.toNat, by omega⟩
    have hn : n < v.length := by omega
    have he : charAt (newString v) n = .ok [v[n]] := by
      simp only [charAt, hsz]
      rw [if_neg h]
      have := sub_take (s := v) (i := n) (n := 1) (by omega) hv (by omega)
      rw [show (newString v).value = v from rfl]
      refine this.trans ?_
      rw [← List.getElem_cons_drop hn]; rfl
    refine ⟨fun c => ?_, by simp only [he, reduceCtorEq, false_iff]; exact h⟩
    rw [he]
    simp only [Ext.ok.injEq]
    constructor
    · intro e
      exact ⟨v.take n, v[n], v.drop (n + 1), by rw [List.getElem_cons_drop, List.take_append_drop], by simp; omega, e.symm⟩
    · rintro ⟨a, x, b, e, ha, rfl⟩
      have hal : a.length = n := by omega
      subst hal
      simp [e]

example : charAt (newString "hello".toList) 4 = .ok ['o'] ∧ charAt (newString "hello".toList) 5 = .exception := by
  decide

/-- `Contains( t )` tells whether `t` occurs. -/
theorem contains_iff (v t : Text) (hv : v.length < 2 ^ 31) :
    (contains (newString v) t = .ok true ↔ Occurs v t) ∧ (contains (newString v) t = .ok false ↔ ¬ Occurs v t) := by
  rcases find_spec v t 0 hv (by omega) with ⟨h1, h2⟩ | ⟨i, h1, _, h2, _⟩
  · have hn : ¬ Occurs v t := by rintro ⟨i, hi⟩; exact absurd (h2 i hi) (by omega)
    have h1' : extStrfind v t 0 = .ok (-1) := h1
    simp [contains, newString, h1', thenDo, hn]
  · have hy : Occurs v t := ⟨i, h1⟩
    have h2' : extStrfind v t 0 = .ok (i : Int) := h2
    simp [contains, newString, h2', thenDo, hy]

example : contains (newString "hello".toList) "ll".toList = .ok true := by decide

/-- `StartsWith( t )` tells whether the text begins with `t`. -/
theorem startsWith_iff (v t : Text) (hv : v.length < 2 ^ 31) (ht : t.length < 2 ^ 31) :
    (startsWith (newString v) t = .ok true ↔ ∃ b, v = t ++ b) ∧
    (startsWith (newString v) t = .ok false ↔ ¬ ∃ b, v = t ++ b) := by
  have h1 : startsWith (newString v) t = .ok (decide (t = v.take t.length)) := by
    have := sub_take (s := v) (i := 0) (n := t.length) (by omega) hv (by omega)
    simp only [startsWith, newString, strlen_eq ht]
    rw [show extSubstr v 0 (some (t.length : Int)) = _ from this]
    simp [thenDo]
  have h2 : t = v.take t.length ↔ ∃ b, v = t ++ b := by
    constructor
    · intro h; exact ⟨v.drop t.length, by conv => lhs; rw [← List.take_append_drop t.length v, ← h]⟩
    · rintro ⟨b, rfl⟩; simp
  rw [h1, ← h2]
  simp

example : startsWith (newString "hello".toList) "he".toList = .ok true ∧
    startsWith (newString "he".toList) "hello".toList = .ok false := by decide

/-- `EndsWith( t )` tells whether the text ends with `t`, if `t` is not longer than the text. -/
theorem endsWith_iff_partial (v t : Text) (hv : v.length < 2 ^ 31) (ht : t.length ≤ v.length) :
    (endsWith (newString v) t = .ok true ↔ ∃ a, v = a ++ t) ∧
    (endsWith (newString v) t = .ok false ↔ ¬ ∃ a, v = a ++ t) := by
  have h1 : endsWith (newString v) t = .ok (decide (t = v.drop (v.length - t.length))) := by
    have := sub_rest (s := v) (i := v.length - t.length) (by omega) hv
    have hc : ((v.length : Int) - t.length) = ((v.length - t.length : Nat) : Int) := by omega
    simp only [endsWith, newString, strlen_eq hv, strlen_eq (s := t) (by omega), hc, this, thenDo]
  have h2 : t = v.drop (v.length - t.length) ↔ ∃ a, v = a ++ t := by
    constructor
    · intro h
      exact ⟨v.take (v.length - t.length), by
        conv => lhs; rw [← List.take_append_drop (v.length - t.length) v, ← h]⟩
    · rintro ⟨a, rfl⟩; simp
  rw [h1, ← h2]
  simp

example : endsWith (newString "hello".toList) "lo".toList = .ok true := by decide

/-- **Refuted**: for a longer `t` the answer is an exception instead of false. -/
theorem endsWith_longer_refuted (v t : Text) (ht : v.length < t.length) (ht' : t.length < 2 ^ 31) :
    endsWith (newString v) t = .exception := by
  simp only [endsWith, newString, strlen_eq (s := v) (by omega), strlen_eq ht']
  rw [sub_bad (by omega) (by omega) (by omega)]
  rfl

example : endsWith (newString "lo".toList) "hello".toList = .exception := by decide

/-- `IndexOf( t, p )` is the first position from `p` on at which `t` occurs, or -1. -/
theorem indexOf_is_the_first (v t : Text) (hv : v.length < 2 ^ 31) (p : Nat) (hp : p < 2 ^ 31) (r : Int) :
    indexOf (newString v) t p = .ok r ↔
      ((∃ i : Nat, r = i ∧ OccursAt v t i ∧ p ≤ i ∧ ∀ j, OccursAt v t j → p ≤ j → i ≤ j) ∨
       (r = -1 ∧ ¬ ∃ j, OccursAt v t j ∧ p ≤ j)) := by
  rcases find_spec v t p hv (by omega) with ⟨h1, h2⟩ | ⟨i, h1, hle, h2, h3⟩
  · simp only [indexOf, newString, h1, Ext.ok.injEq]
    constructor
    · rintro rfl
      right
      refine ⟨rfl, ?_⟩
      rintro ⟨j, hj, hpj⟩
      exact absurd (h2 j hj) (by omega)
    · rintro (⟨i, rfl, ho, hpi, _⟩ | ⟨rfl, _⟩)
      · exact absurd (h2 i ho) (by omega)
      · rfl
  · simp only [indexOf, newString, h2, Ext.ok.injEq]
    constructor
    · rintro rfl; left; exact ⟨i, rfl, h1, hle, h3⟩
    · rintro (⟨k, rfl, ho, hpk, hm⟩ | ⟨_, hn⟩)
      · have := h3 k ho hpk
        have := hm i h1 hle
        omega
      · exact absurd ⟨i, h1, hle⟩ hn

example : indexOf (newString "abcabc".toList) "bc".toList 2 = .ok 4 := by decide

theorem lastIndexLoop_spec (v t : Text) (hv : v.length < 2 ^ 31) : ∀ (fuel : Nat) (index : Int),
    (index = -1 ∨ ∃ i : Nat, index = i ∧ OccursAt v t i) → (v.length : Int) < fuel + index →
    ∃ r : Int, lastIndexLoop fuel (newString v) t index = some (.ok r) ∧ index ≤ r ∧
      (r = index ∨ ∃ i : Nat, r = i ∧ OccursAt v t i) ∧ ∀ j : Nat, OccursAt v t j → (j : Int) ≤ r := by
  intro fuel
  induction fuel with
  | zero =>
    intro index hi hf
    rcases hi with rfl | ⟨i, rfl, ho⟩
    · omega
    · have := occursAt_le ho; omega
  | succ fuel ih =>
    intro index hi hf
    obtain ⟨p, hp⟩ : ∃ p : Nat, index + 1 = p := ⟨(index + 1).toNat, by
      rcases hi with rfl | ⟨i, rfl, _⟩ <;> omega⟩
    have hpl : p ≤ v.length + 1 := by
      rcases hi with rfl | ⟨i, rfl, ho⟩
      · omega
      · have := occursAt_le ho; omega
    simp only [lastIndexLoop, hp, indexOf]
    rw [show (newString v).value = v from rfl]
    rcases find_spec v t p hv (by omega) with ⟨h1, h2⟩ | ⟨i, h1, hle, h2, h3⟩
    · rw [h1]
      refine ⟨index, by simp, Int.le_refl _, Or.inl rfl, fun j hj => ?_⟩
      have := h2 j hj; omega
    · rw [h2]
      have hne : (i : Int) ≠ -1 := by omega
      simp only [ne_eq, hne, not_false_eq_true, if_true]
      obtain ⟨r, hr1, hr2, hr3, hr4⟩ := ih (i : Int) (Or.inr ⟨i, rfl, h1⟩) (by omega)
      refine ⟨r, hr1, by omega, ?_, hr4⟩
      rcases hr3 with rfl | h
      · exact Or.inr ⟨i, rfl, h1⟩
      · exact Or.inr h

/-- `LastIndexOf( t )` ends, with the last position at which `t` occurs, or -1. -/
theorem lastIndexOf_is_the_last (v t : Text) (hv : v.length < 2 ^ 31) (fuel : Nat) (hf : v.length + 1 < fuel) :
    ∃ r : Int, lastIndexOf fuel (newString v) t = some (.ok r) ∧
      ((∃ i : Nat, r = i ∧ OccursAt v t i ∧ ∀ j, OccursAt v t j → j ≤ i) ∨ (r = -1 ∧ ¬ Occurs v t)) := by
  obtain ⟨r, h1, _, h3, h4⟩ := lastIndexLoop_spec v t hv fuel (-1) (Or.inl rfl) (by omega)
  refine ⟨r, h1, ?_⟩
  rcases h3 with rfl | ⟨i, rfl, ho⟩
  · right
    refine ⟨rfl, ?_⟩
    rintro ⟨j, hj⟩
    have := h4 j hj; omega
  · left
    exact ⟨i, rfl, ho, fun j hj => by have := h4 j hj; omega⟩

example : lastIndexOf 9 (newString "abcabc".toList) "bc".toList = some (.ok 4) := by decide

/-- `s[first, last]` (documented as the substring between the indices). -/
theorem between_refuted (v : Text) (hv : v.length < 2 ^ 31) (first last : Nat) (hl : last ≤ v.length)
    (hf : first ≤ last) (hpart : 0 < first ∨ last < v.length) : between (newString v) first last = .ok [] := by
  simp only [between, newString, strlen_eq hv]
  split
  · omega
  · rfl

example : between (newString "hello".toList) 1 3 = .ok [] := by decide

/-! ## C124: modifying a text -/

theorem replace_spec (v old new : Text) (hv : v.length < 2 ^ 31) :
    (¬ Occurs v old ∧ replace (newString v) old new = (.ok false, newString v)) ∨
    (∃ a b, v = a ++ old ++ b ∧ (∀ i, OccursAt v old i → a.length ≤ i) ∧
      replace (newString v) old new = (.ok true, newString (a ++ new ++ b))) := by
  rcases find_spec v old 0 hv (by omega) with ⟨h1, h2⟩ | ⟨i, h1, _, h2, h3⟩
  · left
    refine ⟨fun ⟨i, hi⟩ => absurd (h2 i hi) (by omega), ?_⟩
    have h1' : extStrfind v old 0 = .ok (-1) := h1
    simp [replace, newString, h1']
  · right
    have hle := occursAt_le h1
    obtain ⟨a, b, e, ha⟩ := h1
    refine ⟨a, b, e, fun j hj => by rw [ha]; exact h3 j hj (by omega), ?_⟩
    have h2' : extStrfind v old 0 = .ok (i : Int) := h2
    have s1 : extSubstr v 0 (some (i : Int)) = .ok a := by
      have := sub_take (s := v) (i := 0) (n := i) (by omega) hv (by omega)
      rw [show extSubstr v 0 (some (i : Int)) = _ from this, e, ← ha]; simp
    have s2 : extSubstr v ((i : Int) + strlen old) none = .ok b := by
      have hc : (i : Int) + strlen old = ((i + old.length : Nat) : Int) := by
        rw [strlen_eq (s := old) (by omega)]; omega
      rw [hc, sub_rest hle hv, e, ← ha]
      have : a.length + old.length = (a ++ old).length := by simp
      rw [this, List.drop_left' rfl]
    have hp : ((i : Nat) : Int) ≥ 0 := by omega
    simp only [replace, newString, h2', hp, if_true, s1, s2]

/-- `Replace( old, new )` replaces the first occurrence of `old`, and tells whether there is
one. -/
theorem replace_replaces_the_first (v old new : Text) (hv : v.length < 2 ^ 31) :
    ((replace (newString v) old new).1 = .ok true ↔ Occurs v old) ∧
    ((replace (newString v) old new).1 = .ok false ↔ ¬ Occurs v old) ∧
    (¬ Occurs v old → (replace (newString v) old new).2.value = v) ∧
    (∀ a b, v = a ++ old ++ b → (∀ i, OccursAt v old i → a.length ≤ i) →
      (replace (newString v) old new).2.value = a ++ new ++ b) := by
  rcases replace_spec v old new hv with ⟨hn, h⟩ | ⟨a, b, e, hfirst, h⟩
  · rw [h]
    refine ⟨by simp [hn], by simp [hn], fun _ => rfl, fun a b e _ => absurd ⟨a.length, a, b, e, rfl⟩ hn⟩
  · have hy : Occurs v old := ⟨a.length, a, b, e, rfl⟩
    rw [h]
    refine ⟨by simp [hy], by simp [hy], fun hn => absurd hy hn, fun a' b' e' hfirst' => ?_⟩
    have h1 := hfirst a'.length ⟨a', b', e', rfl⟩
    have h2 := hfirst' a.length ⟨a, b, e, rfl⟩
    have hl : a.length = a'.length := by omega
    have e2 : a ++ (old ++ b) = a' ++ (old ++ b') := by rw [← List.append_assoc, ← e, e', List.append_assoc]
    obtain ⟨ha, hb⟩ := List.append_inj e2 hl
    have hb' := (List.append_inj hb rfl).2
    rw [ha, hb']
    rfl

example : (replace (newString "abcabc".toList) "bc".toList "X".toList).2.value = "aXabc".toList := by decide

/-- `RemoveCharAt( i )` removes that character; outside of the text it is an exception and
nothing changes. -/
theorem removeCharAt_removes (v : Text) (hv : v.length < 2 ^ 31) :
    (∀ a x b, v = a ++ x :: b → removeCharAt (newString v) a.length = (.ok (), newString (a ++ b))) ∧
    (∀ i : Int, i < 0 ∨ i ≥ v.length → removeCharAt (newString v) i = (.exception, newString v)) := by
  have hsz : (newString v).size = v.length := strlen_eq hv
  refine ⟨fun a x b e => ?_, fun i hi => ?_⟩
  · have hlen := congrArg List.length e
    simp at hlen
    have s1 : extSubstr v 0 (some (a.length : Int)) = .ok a := by
      have := sub_take (s := v) (i := 0) (n := a.length) (by omega) hv (by omega)
      rw [show extSubstr v 0 (some (a.length : Int)) = _ from this, e]; simp
    have s2 : extSubstr v ((a.length : Int) + 1) none = .ok b := by
      have := sub_rest (s := v) (i := a.length + 1) (by omega) hv
      rw [show ((a.length : Int) + 1) = ((a.length + 1 : Nat) : Int) by omega, this, e]
      have : a ++ x :: b = (a ++ [x]) ++ b := by simp
      rw [this, List.drop_left' (by simp)]
    have hif : ¬ ((a.length : Int) < 0 ∨ (a.length : Int) ≥ v.length) := by omega
    simp only [removeCharAt, hsz, hif, if_false]
    rw [show (newString v).value = v from rfl, s1, s2]
    simp only [newString, Prod.mk.injEq, true_and, StringObj.mk.injEq, and_true]
    rw [strlen_eq (s := a ++ b) (by simp; omega)]
    simp; omega
  · simp only [removeCharAt, hsz]
    rw [if_pos hi]

example : (removeCharAt (newString "hello".toList) 1).2.value = "hllo".toList := by decide

/-- `TrimLeft( n )` cuts `n` characters away on the left, if the text has more than `n`;
otherwise it is an exception. -/
theorem trimLeftBy_cuts (v : Text) (hv : v.length < 2 ^ 31) :
    (∀ a b, v = a ++ b → b ≠ [] → trimLeftBy (newString v) a.length = (.ok b, newString b)) ∧
    (∀ i : Int, i < 0 ∨ i ≥ v.length → trimLeftBy (newString v) i = (.exception, newString v)) := by
  have hsz : (newString v).size = v.length := strlen_eq hv
  refine ⟨fun a b e hb => ?_, fun i hi => ?_⟩
  · have hlen := congrArg List.length e
    have hbl : 0 < b.length := List.length_pos_iff.2 hb
    simp at hlen
    have s1 : extSubstr v (a.length : Int) none = .ok b := by
      rw [sub_rest (by omega) hv, e]; simp
    have hif : ¬ ((a.length : Int) < 0 ∨ (a.length : Int) ≥ v.length) := by omega
    simp only [trimLeftBy, hsz, hif, if_false]
    rw [show (newString v).value = v from rfl, s1]
  · simp only [trimLeftBy, hsz]
    rw [if_pos hi]

example : (trimLeftBy (newString "hello".toList) 2).1 = .ok "llo".toList := by decide

/-- `TrimRight( n )` cuts `n` characters away on the right, if the text has that many. -/
theorem trimRightBy_cuts_partial (v a b : Text) (hv : v.length < 2 ^ 31) (e : v = a ++ b) :
    trimRightBy (newString v) b.length = (.ok a, newString a) := by
  have hlen := congrArg List.length e
  simp at hlen
  have s1 : extSubstr v 0 (some (strlen v - b.length)) = .ok a := by
    have := sub_take (s := v) (i := 0) (n := a.length) (by omega) hv (by omega)
    rw [strlen_eq hv, show ((v.length : Int) - b.length) = (a.length : Int) by omega,
      show extSubstr v 0 (some (a.length : Int)) = _ from this, e]; simp
  simp only [trimRightBy]
  rw [show (newString v).value = v from rfl, s1]

example : (trimRightBy (newString "hello".toList) 2).1 = .ok "hel".toList := by decide

/-- **Refuted**: cutting away more characters than there are removes nothing. -/
theorem trimRightBy_more_refuted (v : Text) (hv : v.length < 2 ^ 31) (n : Int) (hn : (v.length : Int) < n)
    (hn' : n < 2 ^ 31) : trimRightBy (newString v) n = (.ok v, newString v) := by
  have s1 : extSubstr v 0 (some (strlen v - n)) = .ok v := by
    rw [strlen_eq hv, substr_slice v v 0 _ (by omega) (by omega) (by omega)]
    exact ⟨[], [], by simp, rfl, Or.inr ⟨by omega, rfl⟩⟩
  simp only [trimRightBy]
  rw [show (newString v).value = v from rfl, s1]

example : (trimRightBy (newString "hi".toList) 3).1 = .ok "hi".toList := by decide

/-- `Trim` removes exactly the blanks at both ends. -/
theorem trim_removes_blanks_partial (a m b : Text) (ha : ∀ c ∈ a, c = ' ') (hb : ∀ c ∈ b, c = ' ')
    (hm1 : ∀ c, m.head? = some c → c ≠ ' ') (hm2 : ∀ c, m.getLast? = some c → c ≠ ' ') :
    (trim (newString (a ++ m ++ b))).value = m := by
  have h1 := trim_left_removes_maximal_run (a ++ m ++ b) blank
  have h2 := trim_right_removes_maximal_run (Str.trimLeft (a ++ m ++ b) blank) blank
  obtain ⟨⟨x, hx1, hx2⟩, hx3⟩ := h1
  obtain ⟨⟨y, hy1, hy2⟩, hy3⟩ := h2
  simp only [trim, newString]
  have hm := trim_unique (a := a) (m := m) (b := b) (t := blank) (fun c hc => by simp [blank, ha c hc])
    (fun c hc => by simp [blank, hb c hc]) (fun c hc => by simp [blank, hm1 c hc]) (fun c hc => by simp [blank, hm2 c hc])
  generalize a ++ m ++ b = s at *
  generalize hr : Str.trimRight (Str.trimLeft s blank) blank = r at *
  have hall : s = x ++ r ++ y := by rw [List.append_assoc, ← hy1]; exact hx1
  have hr' := trim_unique (a := x) (m := r) (b := y) (t := blank) hx2 hy2
    (fun c hc => hx3 c (by
      rw [hy1]
      cases r with
      | nil => simp at hc
      | cons d r => simpa using hc)) hy3
  rw [← hall, hm] at hr'
  exact hr'.symm

example : (trim (newString "  hi  ".toList)).value = "hi".toList := by decide

/-- `TrimLeft` and `TrimRight` remove exactly the blanks at their end, for the object whatever it
was; assigning replaces the text. -/
theorem one_side_and_assignment (o : StringObj) :
    (∃ a, o.value = a ++ (trimLeft o).value ∧ (∀ c ∈ a, c = ' ') ∧ ∀ c, (trimLeft o).value.head? = some c → c ≠ ' ') ∧
    (∃ b, o.value = (trimRight o).value ++ b ∧ (∀ c ∈ b, c = ' ') ∧ ∀ c, (trimRight o).value.getLast? = some c → c ≠ ' ') ∧
    ∀ v, (assign o v).value = v := by
  obtain ⟨⟨x, hx1, hx2⟩, hx3⟩ := trim_left_removes_maximal_run o.value blank
  obtain ⟨⟨y, hy1, hy2⟩, hy3⟩ := trim_right_removes_maximal_run o.value blank
  refine ⟨⟨x, hx1, fun c hc => ?_, fun c hc => ?_⟩, ⟨y, hy1, fun c hc => ?_, fun c hc => ?_⟩, fun v => rfl⟩
  · simpa [blank] using hx2 c hc
  · simpa [blank] using hx3 c hc
  · simpa [blank] using hy2 c hc
  · simpa [blank] using hy3 c hc

example : (trimLeft (newString "  hi  ".toList)).value = "hi  ".toList ∧
    (trimRight (newString "  hi  ".toList)).value = "  hi".toList := by decide

/-- **Refuted** (the documentation says whitespaces): tabs and line breaks are not removed. -/
theorem trim_whitespace_refuted (c : Char) (hc : c ≠ ' ') (m : Text) :
    (trim (newString (c :: m ++ [c]))).value = c :: m ++ [c] := by
  have := trim_removes_blanks_partial [] (c :: m ++ [c]) [] (by simp) (by simp)
    (by intro d hd; simp at hd; rw [← hd]; exact hc)
    (by
      intro d hd
      rw [List.getLast?_append] at hd
      simp at hd
      rw [← hd]; exact hc)
  simpa using this

example : (trim (newString "\thi\t".toList)).value = "\thi\t".toList := by decide

/-- Does the call append with `<<`? -/
def Op.appends : Op → Bool
  | .append _ => true
  | _ => false

theorem call_in_sync (o : StringObj) (op : Op) (ho : o.size = strlen o.value) (hl : o.value.length < 2 ^ 31)
    (ha : op.appends = false) : (call o op).size = strlen (call o op).value := by
  have hon : o = newString o.value := by cases o; simp_all [newString]
  cases op with
  | append v => simp [Op.appends] at ha
  | assign v => rfl
  | trim => rfl
  | trimLeft => rfl
  | trimRight => rfl
  | replace a b =>
    rw [hon]
    rcases replace_spec o.value a b hl with ⟨_, h⟩ | ⟨x, y, _, _, h⟩
    · simp only [call, h]; rfl
    · simp only [call, h]; rfl
  | removeCharAt i =>
    rw [hon]
    by_cases hi : i < 0 ∨ i ≥ o.value.length
    · simp only [call, (removeCharAt_removes o.value hl).2 i hi]; rfl
    · obtain ⟨n, rfl⟩ : ∃ n : Nat, i = n := ⟨i.toNat, by omega⟩
      have hn : n < o.value.length := by omega
      have h := (removeCharAt_removes o.value hl).1 (o.value.take n) o.value[n] (o.value.drop (n + 1))
        (by rw [List.getElem_cons_drop, List.take_append_drop])
      rw [List.length_take, Nat.min_eq_left (by omega)] at h
      simp only [call, h]; rfl
  | trimLeftBy i =>
    rw [hon]
    by_cases hi : i < 0 ∨ i ≥ o.value.length
    · simp only [call, (trimLeftBy_cuts o.value hl).2 i hi]; rfl
    · obtain ⟨n, rfl⟩ : ∃ n : Nat, i = n := ⟨i.toNat, by omega⟩
      have h := (trimLeftBy_cuts o.value hl).1 (o.value.take n) (o.value.drop n)
        (List.take_append_drop n _).symm (by rw [ne_eq, List.drop_eq_nil_iff]; omega)
      rw [List.length_take, Nat.min_eq_left (by omega)] at h
      simp only [call, h]; rfl
  | trimRightBy i =>
    rw [hon]
    simp only [call, trimRightBy]
    split <;> rfl

/-- The objects a sequence of calls goes through. -/
def calls (o : StringObj) : List Op → StringObj
  | [] => o
  | op :: ops => calls (call o op) ops

/-- All texts on the way are shorter than 2^31. -/
def Fits (o : StringObj) : List Op → Prop
  | [] => o.value.length < 2 ^ 31
  | op :: ops => o.value.length < 2 ^ 31 ∧ Fits (call o op) ops

/-- `Length` is the length of the text after every sequence of calls without `<<`. -/
theorem length_is_right_partial (ops : List Op) (v : Text) (hf : Fits (newString v) ops)
    (ha : ∀ op ∈ ops, op.appends = false) :
    length (calls (newString v) ops) = (calls (newString v) ops).value.length := by
  have key : ∀ (ops : List Op) (o : StringObj), o.size = strlen o.value → Fits o ops →
      (∀ op ∈ ops, op.appends = false) → length (calls o ops) = (calls o ops).value.length := by
    intro ops
    induction ops with
    | nil =>
      intro o ho hf _
      simp only [calls, length, ho]
      exact strlen_eq hf
    | cons op ops ih =>
      intro o ho hf ha
      exact ih _ (call_in_sync o op ho hf.1 (ha op (by simp))) hf.2 (fun p hp => ha p (by simp [hp]))
  exact key ops _ rfl hf ha

example : Fits (newString "hello".toList) [.trim, .replace "l".toList "LL".toList, .removeCharAt 0] ∧
    calls (newString "hello".toList) [.trim, .replace "l".toList "LL".toList, .removeCharAt 0]
      = newString "eLLlo".toList := by
  refine ⟨⟨by decide, by decide, by decide, ?_⟩, by decide⟩
  show List.length _ < 2 ^ 31
  decide

/-- **Refuted**: after `<<` the length is the old one, and the characters appended are out of
bounds. -/
theorem append_length_refuted (v w : Text) (hw : w ≠ []) (hl : (v ++ w).length < 2 ^ 31) :
    length (append (newString v) w) < (append (newString v) w).value.length ∧
    ∀ i : Nat, v.length ≤ i → i < (v ++ w).length → charAt (append (newString v) w) i = .exception := by
  have hwl : 0 < w.length := List.length_pos_iff.2 hw
  simp only [List.length_append] at hl
  have hsz : (append (newString v) w).size = v.length := strlen_eq (s := v) (by omega)
  refine ⟨?_, fun i hi _ => ?_⟩
  · rw [show length (append (newString v) w) = (v.length : Int) from hsz]
    simp only [append, newString, List.length_append]; omega
  · simp only [charAt, hsz]
    rw [if_pos (Or.inr (by omega))]

example : length (append (newString "ab".toList) "cd".toList) = 2 := by decide

/-! ## C125: `ReplaceAll` -/

theorem newString_value (v : Text) : (newString v).value = v := rfl

/-- When `ReplaceAll` ends, the text it searched for does not occur any more. -/
theorem replaceAll_leaves_none (fuel : Nat) (v old new : Text) (r : Ext Bool) (o : StringObj)
    (h : replaceAll fuel (newString v) old new = some (r, o))
    (hb : v.length + fuel * new.length < 2 ^ 31) : ¬ Occurs o.value old := by
  have key : ∀ (fuel : Nat) (v : Text) (found : Bool), v.length + fuel * new.length < 2 ^ 31 →
      replaceAllLoop fuel (newString v) old new found = some (r, o) → ¬ Occurs o.value old := by
    intro fuel
    induction fuel with
    | zero => intro v found _ h; simp [replaceAllLoop] at h
    | succ fuel ih =>
      intro v found hb h
      rw [Nat.succ_mul] at hb
      rcases replace_spec v old new (by omega) with ⟨hn, hr⟩ | ⟨a, b, e, _, hr⟩
      · simp only [replaceAllLoop, hr, Option.some.injEq, Prod.mk.injEq] at h
        rw [← h.2]; exact hn
      · simp only [replaceAllLoop, hr] at h
        refine ih _ true ?_ h
        have := congrArg List.length e
        simp at this ⊢
        omega
  exact key fuel v false hb h

/-- **Refuted**: if the new text contains the old one, or the old one is empty, `ReplaceAll`
never ends on a text in which the old one occurs. -/
theorem replaceAll_ends_refuted (v old new : Text) (hocc : Occurs v old) (hnew : Occurs new old) (fuel : Nat)
    (hb : v.length + fuel * new.length < 2 ^ 31) : replaceAll fuel (newString v) old new = none := by
  have key : ∀ (fuel : Nat) (v : Text) (found : Bool), Occurs v old → v.length + fuel * new.length < 2 ^ 31 →
      replaceAllLoop fuel (newString v) old new found = none := by
    intro fuel
    induction fuel with
    | zero => intros; rfl
    | succ fuel ih =>
      intro v found ho hb
      rw [Nat.succ_mul] at hb
      rcases replace_spec v old new (by omega) with ⟨hn, _⟩ | ⟨a, b, e, _, hr⟩
      · exact absurd ho hn
      · simp only [replaceAllLoop, hr]
        refine ih _ true ?_ ?_
        · obtain ⟨i, x, y, hxy, _⟩ := hnew
          exact ⟨(a ++ x).length, a ++ x, y ++ b, by rw [hxy]; simp, rfl⟩
        · have := congrArg List.length e
          simp at this ⊢
          omega
  exact key fuel v false hocc hb

example : Occurs "aa".toList "a".toList ∧ Occurs "banana".toList "a".toList ∧
    replaceAll 100 (newString "banana".toList) "a".toList "aa".toList = none :=
  have h1 : Occurs "aa".toList "a".toList := ⟨0, [], ['a'], by decide, rfl⟩
  have h2 : Occurs "banana".toList "a".toList := ⟨1, ['b'], "nana".toList, by decide, rfl⟩
  ⟨h1, h2, replaceAll_ends_refuted _ _ _ h2 h1 100 (by decide)⟩

/-- `ReplaceAll` ends if the new text is shorter than the old one, after at most as many
rounds as the text is long. -/
theorem replaceAll_ends_partial (v old new : Text) (hv : v.length < 2 ^ 31) (hlt : new.length < old.length)
    (fuel : Nat) (hf : v.length < fuel) : ∃ b o, replaceAll fuel (newString v) old new = some (.ok b, o) := by
  have key : ∀ (fuel : Nat) (v : Text) (found : Bool), v.length < 2 ^ 31 → v.length < fuel →
      ∃ b o, replaceAllLoop fuel (newString v) old new found = some (.ok b, o) := by
    intro fuel
    induction fuel with
    | zero => intro v _ _ h; omega
    | succ fuel ih =>
      intro v found hv hf
      rcases replace_spec v old new hv with ⟨_, hr⟩ | ⟨a, b, e, _, hr⟩
      · simp [replaceAllLoop, hr]
      · simp only [replaceAllLoop, hr]
        have := congrArg List.length e
        simp at this
        exact ih _ true (by simp; omega) (by simp; omega)
  exact key fuel v false hv hf

example : replaceAll 8 (newString "aabb".toList) "ab".toList [] = some (.ok true, newString []) := by decide

/-- **Refuted**: `ReplaceAll` replaces also what comes up by replacing. -/
theorem replaceAll_once_refuted :
    replaceAll 9 (newString "aabb".toList) "ab".toList [] = some (.ok true, newString []) ∧
    Replaced "ab".toList [] "aabb".toList "ab".toList := by
  refine ⟨by decide, ?_⟩
  have hn : ¬ Occurs ['b'] ['a', 'b'] := by
    rintro ⟨i, a, b, e, _⟩
    have := congrArg List.length e
    simp at this
    omega
  have h1 : Replaced ['a', 'b'] [] ['b'] ['b'] := .none hn
  have h2 : ∀ i, OccursAt ['a', 'a', 'b', 'b'] ['a', 'b'] i → ['a'].length ≤ i := by
    rintro i ⟨a, b, e, rfl⟩
    cases a with
    | nil => simp at e
    | cons c a => simp
  exact Replaced.step (p := ['a']) (rest := ['b']) rfl h2 h1

theorem occurs_in_rest {a new c old : Text} (hnew : new ≠ []) (hdis : ∀ x ∈ new, x ∉ old) (hold : old ≠ []) {i : Nat}
    (h : OccursAt (a ++ new ++ c) old i) :
    i + old.length ≤ a.length ∨ a.length + new.length ≤ i := by
  obtain ⟨x, y, e, hx⟩ := h
  refine Decidable.byContradiction fun hcon => ?_
  have hnl : 0 < new.length := List.length_pos_iff.2 hnew
  have hol : 0 < old.length := List.length_pos_iff.2 hold
  have h1 : a.length < i + old.length := by omega
  have h2 : i < a.length + new.length := by omega
  -- a position inside of both
  have hk : ∃ k, a.length ≤ k ∧ k < a.length + new.length ∧ i ≤ k ∧ k < i + old.length :=
    ⟨max a.length i, by omega, by omega, by omega, by omega⟩
  obtain ⟨k, hk1, hk2, hk3, hk4⟩ := hk
  have e1 : (a ++ new ++ c)[k]? = new[k - a.length]? := by
    rw [List.append_assoc, List.getElem?_append_right hk1, List.getElem?_append_left (by omega)]
  have e2 : (x ++ old ++ y)[k]? = old[k - i]? := by
    rw [List.append_assoc, List.getElem?_append_right (by omega), List.getElem?_append_left (by omega), hx]
  have hn : new[k - a.length]? = some (new[k - a.length]'(by omega)) := List.getElem?_eq_getElem (by omega)
  have ho : old[k - i]? = some (old[k - i]'(by omega)) := List.getElem?_eq_getElem (by omega)
  have heq : new[k - a.length]'(by omega) = old[k - i]'(by omega) := by
    have : some (new[k - a.length]'(by omega)) = some (old[k - i]'(by omega)) := by
      rw [← hn, ← ho, ← e1, ← e2, e]
    simpa using this
  have hmem : new[k - a.length]'(by omega) ∈ new := List.getElem_mem _
  refine hdis _ hmem ?_
  rw [heq]
  exact List.getElem_mem _

/-- If the new text has no character in common with the old one and is not empty,
`ReplaceAll` replaces every occurrence, and ends. -/
theorem replaceAll_replaces_each_partial (v old new : Text) (hold : old ≠ []) (hnew : new ≠ [])
    (hdis : ∀ x ∈ new, x ∉ old) (fuel : Nat) (hf : v.length < fuel) (hb : v.length + fuel * new.length < 2 ^ 31) :
    ∃ b r, replaceAll fuel (newString v) old new = some (.ok b, newString r) ∧ Replaced old new v r ∧
      (b = true ↔ Occurs v old) := by
  have hol : 0 < old.length := List.length_pos_iff.2 hold
  -- done: the part that is finished, in which nothing occurs and whose end cannot take part
  have key : ∀ (fuel : Nat) (done v : Text) (found : Bool),
      (∀ i, OccursAt (done ++ v) old i → done.length ≤ i) → v.length < fuel →
      (done ++ v).length + fuel * new.length < 2 ^ 31 →
      ∃ b r, replaceAllLoop fuel (newString (done ++ v)) old new found = some (.ok b, newString (done ++ r)) ∧
        Replaced old new v r ∧ (b = true ↔ found = true ∨ Occurs v old) := by
    intro fuel
    induction fuel with
    | zero => intro _ v _ _ h; omega
    | succ fuel ih =>
      intro done v found hdone hf hb
      rw [Nat.succ_mul] at hb
      rcases replace_spec (done ++ v) old new (by omega) with ⟨hn, hr⟩ | ⟨a, b, e, hfirst, hr⟩
      · have hnv : ¬ Occurs v old := by
          rintro ⟨i, x, y, hxy, _⟩
          exact hn ⟨(done ++ x).length, done ++ x, y, by rw [hxy]; simp, rfl⟩
        exact ⟨found, v, by simp [replaceAllLoop, hr], .none hnv, by simp [hnv]⟩
      · have hle : done.length ≤ a.length := hdone _ ⟨a, b, e, rfl⟩
        -- a = done ++ p
        have ha : a = done ++ a.drop done.length := by
          have : a.take done.length = done := by
            have := congrArg (List.take done.length) e
            rw [List.take_left' rfl, List.append_assoc, List.take_append_of_le_length hle] at this
            exact this.symm
          conv => lhs; rw [← List.take_append_drop done.length a, this]
        generalize hp : a.drop done.length = p at ha
        subst ha
        have hv : v = p ++ old ++ b := by
          have : done ++ v = done ++ (p ++ old ++ b) := by rw [e]; simp
          exact List.append_cancel_left this
        have hpfirst : ∀ i, OccursAt v old i → p.length ≤ i := by
          rintro i ⟨x, y, hxy, rfl⟩
          have := hfirst (done ++ x).length ⟨done ++ x, y, by rw [hxy]; simp, rfl⟩
          simp at this
          exact this
        have hlen := congrArg List.length hv
        simp at hlen hb
        obtain ⟨bb, r, h1, h2, h3⟩ := ih (done ++ p ++ new) b true (by
          intro i hi
          rcases occurs_in_rest hnew hdis hold hi with h | h
          · exfalso
            -- it would lie in front of the first occurrence
            obtain ⟨x, y, hxy, hx⟩ := hi
            have hpre : x ++ old <+: done ++ p := by
              have h3 : x ++ old <+: (done ++ p ++ new ++ b) := ⟨y, hxy.symm⟩
              have h4 : done ++ p <+: (done ++ p ++ new ++ b) := ⟨new ++ b, by simp⟩
              exact List.prefix_of_prefix_length_le h3 h4 (by simp; simp at h; omega)
            obtain ⟨z, hz⟩ := hpre
            have := hfirst x.length ⟨x, z ++ old ++ b, by rw [e, ← hz]; simp, rfl⟩
            simp at this h
            omega
          · simp at h ⊢; omega) (by omega) (by simp; omega)
        refine ⟨bb, p ++ new ++ r, ?_, .step hv hpfirst h2, ?_⟩
        · simp only [replaceAllLoop, hr, h1]
          simp
        · have hy : Occurs v old := ⟨p.length, p, b, hv, rfl⟩
          simp at h3
          simp [h3, hy]
  obtain ⟨b, r, h1, h2, h3⟩ := key fuel [] v false (by intro i _; simp) hf (by simpa using hb)
  exact ⟨b, r, by simpa [replaceAll] using h1, h2, by simpa using h3⟩

example : replaceAll 9 (newString "banana".toList) "an".toList "XY".toList
    = some (.ok true, newString "bXYXYa".toList) := by decide

/-! ## C126: the pieces of a text -/

/-- The state of the iterator in front of the rest of a text. -/
def StrIter.before (v sep : Text) (cur : Int) (pos : Nat) : StrIter :=
  { currentPosition := cur, nextPosition := (pos : Int) - sep.length, separator := sep, value := newString v }

theorem next_spec (a rest sep : Text) (cur : Int) (hsep : sep ≠ []) (hv : (a ++ rest).length < 2 ^ 31)
    (hsl : sep.length < 2 ^ 31) :
    (¬ Occurs rest sep ∧ (StrIter.before (a ++ rest) sep cur a.length).next
        = (.ok rest, { currentPosition := a.length, nextPosition := (a ++ rest).length, separator := sep, value := newString (a ++ rest) })) ∨
    (∃ p r, rest = p ++ sep ++ r ∧ (∀ i, OccursAt rest sep i → p.length ≤ i) ∧
      (StrIter.before (a ++ rest) sep cur a.length).next
        = (.ok p, StrIter.before (a ++ rest) sep a.length (a ++ p ++ sep).length)) := by
  have hsl0 : 0 < sep.length := List.length_pos_iff.2 hsep
  have hsz : length (newString (a ++ rest)) = (a ++ rest).length := strlen_eq hv
  have hif : ¬ ((a.length : Int) - sep.length ≥ (a ++ rest).length) := by simp; omega
  have hcur : (a.length : Int) - sep.length + strlen sep = a.length := by rw [strlen_eq hsl]; omega
  have hshift : ∀ i, OccursAt rest sep i → OccursAt (a ++ rest) sep (a.length + i) := by
    rintro i ⟨x, y, hxy, rfl⟩
    exact ⟨a ++ x, y, by rw [hxy]; simp, by simp⟩
  rcases find_spec (a ++ rest) sep a.length hv (by simp at hv; omega) with ⟨h1, h2⟩ | ⟨i, h1, hle, h2, h3⟩
  · left
    refine ⟨fun ⟨i, hi⟩ => by have := h2 _ (hshift i hi); omega, ?_⟩
    have hs : subString (newString (a ++ rest)) (a.length : Int) = .ok rest := by
      simp only [subString, newString_value]
      rw [sub_rest (by simp) hv]; simp
    simp only [StrIter.before, StrIter.next, hsz, hif, if_false, hcur, indexOf, newString_value, h1]
    simp [hs]
  · right
    obtain ⟨x, r, hxr, hx⟩ := h1
    have hx2 : x = a ++ x.drop a.length := by
      have : x.take a.length = a := by
        have := congrArg (List.take a.length) hxr
        rw [List.take_left' rfl, List.append_assoc, List.take_append_of_le_length (by omega)] at this
        exact this.symm
      conv => lhs; rw [← List.take_append_drop a.length x, this]
    generalize x.drop a.length = p at hx2
    subst hx2
    have hrest : rest = p ++ sep ++ r := by
      have : a ++ rest = a ++ (p ++ sep ++ r) := by rw [hxr]; simp
      exact List.append_cancel_left this
    refine ⟨p, r, hrest, ?_, ?_⟩
    · intro j hj
      have := h3 _ (hshift j hj) (by omega)
      simp at hx
      omega
    · have hi : i = a.length + p.length := by rw [← hx]; simp
      have hge : ((i : Nat) : Int) ≥ 0 := by omega
      have hs : subStringLen (newString (a ++ rest)) (a.length : Int) ((i : Int) - a.length) = .ok p := by
        simp only [subStringLen, newString_value]
        rw [show ((i : Int) - a.length) = ((p.length : Nat) : Int) by omega,
          sub_take (by simp) hv (by have := congrArg List.length hrest; simp at this hv; omega)]
        rw [hrest]; simp
      simp only [StrIter.before, StrIter.next, hsz, hif, if_false, hcur, indexOf, newString_value, h2, hge, if_true, hs]
      simp
      omega

theorem collect_pieces (sep : Text) (hsep : sep ≠ []) (hsl : sep.length < 2 ^ 31) : ∀ (fuel : Nat) (a rest : Text) (cur : Int),
    (a ++ rest).length < 2 ^ 31 → rest.length + 1 < fuel →
    ∃ ps, StrIter.collect fuel (StrIter.before (a ++ rest) sep cur a.length) = some (.ok ps) ∧ Pieces sep rest ps := by
  have hsl0 : 0 < sep.length := List.length_pos_iff.2 hsep
  intro fuel
  induction fuel with
  | zero => intro _ _ _ _ h; omega
  | succ fuel ih =>
    intro a rest cur hv hf
    have hsz : length (newString (a ++ rest)) = (a ++ rest).length := strlen_eq hv
    have hn : (StrIter.before (a ++ rest) sep cur a.length).hasNext = true := by
      simp only [StrIter.hasNext, StrIter.before, hsz, decide_eq_true_eq]
      simp; omega
    rcases next_spec a rest sep cur hsep hv hsl with ⟨hno, hnext⟩ | ⟨p, r, hrest, hfirst, hnext⟩
    · refine ⟨[rest], ?_, .last hno⟩
      obtain ⟨k, rfl⟩ : ∃ k, fuel = k + 1 := ⟨fuel - 1, by omega⟩
      have hend : StrIter.collect (k + 1) { currentPosition := a.length, nextPosition := (a ++ rest).length, separator := sep, value := newString (a ++ rest) } = some (.ok []) := by
        simp [StrIter.collect, StrIter.hasNext, hsz]
      rw [StrIter.collect, if_pos hn, hnext]
      simp only [hend]
    · have hlen := congrArg List.length hrest
      simp at hlen
      have heq : a ++ rest = (a ++ p ++ sep) ++ r := by rw [hrest]; simp
      obtain ⟨ps, h1, h2⟩ := ih (a ++ p ++ sep) r a.length (by rw [← heq]; exact hv) (by omega)
      refine ⟨p :: ps, ?_, .cons hrest hfirst h2⟩
      rw [← heq] at h1
      rw [StrIter.collect, if_pos hn, hnext]
      simp only [h1]

/-- Iterating over `SplitBy( sep )` ends and gives the pieces of the text between the
separators, for every separator that is not empty. -/
theorem split_gives_the_pieces_partial (v sep : Text) (hsep : sep ≠ []) (hv : v.length < 2 ^ 31)
    (hsl : sep.length < 2 ^ 31) (fuel : Nat) (hf : v.length + 1 < fuel) :
    ∃ ps, splitBy fuel v sep = some (.ok ps) ∧ Pieces sep v ps := by
  have h0 : StrIter.new (newString v) sep = StrIter.before ([] ++ v) sep (-1) ([] : Text).length := by
    simp only [StrIter.new, StrIter.reset, StrIter.before, strlen_eq hsl, List.nil_append]
    simp
  rw [splitBy, h0]
  exact collect_pieces sep hsep hsl fuel [] v (-1) (by simpa using hv) hf

example : splitBy 9 "a,,b".toList ",".toList = some (.ok ["a".toList, [], "b".toList]) := by decide

/-- The pieces joined with the separator are the text again. -/
theorem pieces_join {sep s : Text} {ps : List Text} (h : Pieces sep s ps) : (ps.intersperse sep).flatten = s := by
  induction h with
  | last => simp
  | @cons s p rest ps h _ h' ih =>
    cases ps with
    | nil => cases h'
    | cons q qs => rw [h, ← ih]; simp

/-- No piece contains the separator. -/
theorem pieces_without_separator {sep s : Text} {ps : List Text} (h : Pieces sep s ps) (hsep : sep ≠ []) :
    ∀ p ∈ ps, ¬ Occurs p sep := by
  induction h with
  | last hn => intro p hp; simp at hp; rw [hp]; exact hn
  | @cons s p rest ps h first _ ih =>
    intro q hq
    rcases List.mem_cons.1 hq with rfl | hq
    · rintro ⟨i, ho⟩
      have hle := occursAt_le ho
      obtain ⟨x, y, hxy, hx⟩ := ho
      have := first x.length ⟨x, y ++ sep ++ rest, by rw [h, hxy]; simp, rfl⟩
      have : 0 < sep.length := List.length_pos_iff.2 hsep
      omega
    · exact ih q hq

/-- Splitting and joining gives the text back. -/
theorem split_join_partial (v sep : Text) (hsep : sep ≠ []) (hv : v.length < 2 ^ 31)
    (hsl : sep.length < 2 ^ 31) (fuel : Nat) (hf : v.length + 1 < fuel) :
    ∃ ps, splitBy fuel v sep = some (.ok ps) ∧ (ps.intersperse sep).flatten = v ∧ ∀ p ∈ ps, ¬ Occurs p sep := by
  obtain ⟨ps, h1, h2⟩ := split_gives_the_pieces_partial v sep hsep hv hsl fuel hf
  exact ⟨ps, h1, pieces_join h2, pieces_without_separator h2 hsep⟩

example : ((["a".toList, [], "b".toList] : List Text).intersperse ",".toList).flatten = "a,,b".toList := by decide

/-- **Refuted**: with an empty separator the iteration never ends, unless the text is
empty. -/
theorem split_empty_separator_refuted (v : Text) (hv : v.length < 2 ^ 31) (hne : v ≠ []) (fuel : Nat) :
    splitBy fuel v [] = none := by
  have hl : 0 < v.length := List.length_pos_iff.2 hne
  have hsz : length (newString v) = v.length := strlen_eq hv
  have hfind : indexOf (newString v) [] 0 = .ok 0 := by
    rcases find_spec v [] 0 hv (by omega) with ⟨_, h2⟩ | ⟨i, _, _, h2, h3⟩
    · exact absurd (h2 0 ⟨[], v, rfl, rfl⟩) (by omega)
    · have := h3 0 ⟨[], v, rfl, rfl⟩ (by omega)
      have hi : i = 0 := by omega
      subst hi
      exact h2
  have hs : subStringLen (newString v) 0 0 = .ok [] := by
    have := sub_take (s := v) (i := 0) (n := 0) (by omega) hv (by omega)
    simp only [subStringLen, newString_value]
    exact this
  have key : ∀ (fuel : Nat) (cur : Int), StrIter.collect fuel
      { currentPosition := cur, nextPosition := 0, separator := [], value := newString v } = none := by
    intro fuel
    induction fuel with
    | zero => intro _; rfl
    | succ fuel ih =>
      intro cur
      have hst : strlen [] = 0 := rfl
      have hnot : ¬ ((0 : Int) ≥ v.length) := by omega
      have hn : (StrIter.mk cur 0 [] (newString v)).hasNext = true := by
        simp [StrIter.hasNext, hsz, hl]
      have hnext : (StrIter.mk cur 0 [] (newString v)).next = (.ok [], StrIter.mk 0 0 [] (newString v)) := by
        simp [StrIter.next, hsz, hst, hfind, hs, hne]
      rw [StrIter.collect, if_pos hn, hnext]
      simp only [ih 0]
  have h0 : StrIter.new (newString v) [] = { currentPosition := -1, nextPosition := 0, separator := [], value := newString v } := by
    rfl
  rw [splitBy, h0]
  exact key fuel (-1)

example : splitBy 50 "ab".toList [] = none := by decide

/-- `current` gives what `next` gave. -/
theorem current_is_the_last_piece (a rest sep : Text) (cur : Int) (hsep : sep ≠ []) (hv : (a ++ rest).length < 2 ^ 31)
    (hsl : sep.length < 2 ^ 31) (p : Text) (it : StrIter)
    (h : (StrIter.before (a ++ rest) sep cur a.length).next = (.ok p, it)) : it.current = .ok p := by
  have hsz : length (newString (a ++ rest)) = (a ++ rest).length := strlen_eq hv
  rcases next_spec a rest sep cur hsep hv hsl with ⟨_, hnext⟩ | ⟨q, r, hrest, _, hnext⟩
  · rw [hnext] at h
    simp only [Prod.mk.injEq, Ext.ok.injEq] at h
    obtain ⟨rfl, rfl⟩ := h
    have h1 : ¬ ((a.length : Int) < 0) := by omega
    have h2 : ¬ (((a ++ rest).length : Int) > (a ++ rest).length) := by omega
    simp only [StrIter.current, hsz, h1, h2, if_false, subStringLen, newString_value]
    rw [show (((a ++ rest).length : Int) - a.length) = ((rest.length : Nat) : Int) by simp; omega,
      sub_take (by simp) hv (by simp at hv; omega)]
    simp
  · rw [hnext] at h
    simp only [Prod.mk.injEq, Ext.ok.injEq] at h
    obtain ⟨rfl, rfl⟩ := h
    have hlen := congrArg List.length hrest
    simp at hlen
    have h1 : ¬ ((a.length : Int) < 0) := by omega
    have h2 : ¬ ((((a ++ q ++ sep).length : Nat) : Int) - sep.length > (a ++ rest).length) := by simp; omega
    simp only [StrIter.current, StrIter.before, hsz, h1, h2, if_false, subStringLen, newString_value]
    rw [show ((((a ++ q ++ sep).length : Nat) : Int) - sep.length - a.length) = ((q.length : Nat) : Int) by simp; omega,
      sub_take (by simp) hv (by simp at hv; omega)]
    rw [hrest]; simp

example : (StrIter.new (newString "a,b".toList) ",".toList).next.2.current = .ok "a".toList := by decide

/-- **Refuted**: `next( separator )` does not return the next piece: it skips it.  Here `b` is
lost, and `c` is returned. -/
theorem nextWith_skips_refuted (a b c : Text) (x y : Char) (hxa : x ∉ a) (hyb : y ∉ b) (hyc : y ∉ c)
    (hv : (a ++ x :: (b ++ y :: c)).length < 2 ^ 31) :
    let it := (StrIter.new (newString (a ++ x :: (b ++ y :: c))) [x]).next
    it.1 = .ok a ∧ (it.2.nextWith [y]).1 = .ok c := by
  intro it
  have hsz : length (newString (a ++ x :: (b ++ y :: c))) = (a ++ x :: (b ++ y :: c)).length := strlen_eq hv
  have single : ∀ (s : Text) (z : Char) (i : Nat), OccursAt s [z] i ↔ s[i]? = some z := by
    intro s z i
    constructor
    · rintro ⟨p, q, rfl, rfl⟩; simp
    · intro h
      obtain ⟨hi, hz⟩ := List.getElem?_eq_some_iff.1 h
      exact ⟨s.take i, s.drop (i + 1), by rw [← hz]; simp, by simp; omega⟩
  have hit : it = (.ok a, StrIter.before (a ++ x :: (b ++ y :: c)) [x] 0 (a.length + 1)) := by
    have h0 : StrIter.new (newString (a ++ x :: (b ++ y :: c))) [x]
        = StrIter.before ([] ++ (a ++ x :: (b ++ y :: c))) [x] (-1) ([] : Text).length := by
      simp only [StrIter.new, StrIter.reset, StrIter.before, strlen_eq (s := [x]) (by simp), List.nil_append]
      simp
    show (StrIter.new (newString (a ++ x :: (b ++ y :: c))) [x]).next = _
    rw [h0]
    rcases next_spec [] (a ++ x :: (b ++ y :: c)) [x] (-1) (by simp) (by simpa using hv) (by simp) with ⟨hno, _⟩ | ⟨p, r, hrest, hfirst, hnext⟩
    · exact absurd ⟨a.length, a, b ++ y :: c, by simp, rfl⟩ hno
    · have h1 : p.length ≤ a.length := hfirst _ ⟨a, b ++ y :: c, by simp, rfl⟩
      have h2 : (a ++ x :: (b ++ y :: c))[p.length]? = some x := (single _ _ _).1 ⟨p, r, hrest, rfl⟩
      have h3 : p.length = a.length := by
        refine Decidable.byContradiction fun hne => hxa ?_
        rw [List.getElem?_append_left (by omega)] at h2
        exact List.mem_of_getElem? h2
      have h4 : p = a := by
        rw [List.append_assoc] at hrest
        exact (List.append_inj hrest h3.symm).1.symm
      rw [hnext, h4]
      simp
  rw [hit]
  refine ⟨rfl, ?_⟩
  have hidx : indexOf (newString (a ++ x :: (b ++ y :: c))) [y] ((a.length : Int) + 1)
      = .ok (((a ++ x :: b).length : Nat) : Int) := by
    have hocc : OccursAt (a ++ x :: (b ++ y :: c)) [y] (a ++ x :: b).length := ⟨a ++ x :: b, c, by simp, rfl⟩
    rcases find_spec (a ++ x :: (b ++ y :: c)) [y] (a.length + 1) hv (by simp at hv; omega) with ⟨_, h2⟩ | ⟨i, h1, hle, h2, h3⟩
    · have := h2 _ hocc; simp at this
    · have h4 := h3 _ hocc (by simp)
      have h5 := (single _ _ _).1 h1
      have h6 : i = (a ++ x :: b).length := by
        refine Decidable.byContradiction fun hne => hyb ?_
        simp at h4 hne
        have : (a ++ x :: (b ++ y :: c))[i]? = b[i - a.length - 1]? := by
          rw [List.getElem?_append_right (by omega), List.getElem?_cons, if_neg (by omega),
            List.getElem?_append_left (by omega)]
        rw [this] at h5
        exact List.mem_of_getElem? h5
      rw [h6] at h2
      exact h2
  have hset : StrIter.setSeparator { StrIter.before (a ++ x :: (b ++ y :: c)) [x] 0 (a.length + 1) with
        currentPosition := (StrIter.before (a ++ x :: (b ++ y :: c)) [x] 0 (a.length + 1)).nextPosition
          + strlen (StrIter.before (a ++ x :: (b ++ y :: c)) [x] 0 (a.length + 1)).separator } [y]
      = StrIter.before ((a ++ x :: b ++ [y]) ++ c) [y] ((a.length : Int) + 1) (a ++ x :: b ++ [y]).length := by
    have e1 : (((a.length + 1 : Nat) : Int) - ([x] : Text).length + strlen [x]) = (a.length : Int) + 1 := by
      rw [strlen_eq (s := [x]) (by simp)]; simp
    have e2 : ¬ ((((a ++ x :: b).length : Nat) : Int) ≤ 0) := by simp; omega
    simp only [StrIter.setSeparator, StrIter.before, e1, hidx, if_neg e2]
    simp
    omega
  simp only [StrIter.nextWith]
  rw [hset]
  rcases next_spec (a ++ x :: b ++ [y]) c [y] ((a.length : Int) + 1) (by simp) (by simp at hv ⊢; omega) (by simp) with ⟨_, hnext⟩ | ⟨p, r, hrest, _, _⟩
  · rw [hnext]
  · exact absurd (by rw [hrest]; simp) hyc

example : let it := (StrIter.new (newString "a,b;c".toList) ",".toList).next
    it.1 = .ok "a".toList ∧ (it.2.nextWith ";".toList).1 = .ok "c".toList := by decide

/-! ## C127: the characters of a text -/

/-- **Refuted**: iterating over the characters of a text gives, behind the last one, an empty
text. -/
theorem characters_refuted (v : Text) (hv : v.length < 2 ^ 31 - 1) (fuel : Nat) (hf : v.length + 1 < fuel) :
    (CharIter.new v).collect fuel = some (.ok (v.map (fun c => [c]) ++ [[]])) := by
  have hsz : strlen v = v.length := strlen_eq (by omega)
  have key : ∀ (fuel : Nat) (a b : Text), v = a ++ b → b.length + 1 < fuel →
      CharIter.collect fuel { currentIndex := (a.length : Int) - 1, length := strlen v, value := v }
        = some (.ok (b.map (fun c => [c]) ++ [[]])) := by
    intro fuel
    induction fuel with
    | zero => intro _ _ _ h; omega
    | succ fuel ih =>
      intro a b e hf
      have hlen := congrArg List.length e
      simp at hlen
      have hn : (CharIter.mk ((a.length : Int) - 1) (strlen v) v).hasNext = true := by
        simp only [CharIter.hasNext, hsz, decide_eq_true_eq]; omega
      have hif : ¬ ((a.length : Int) - 1 + 1 > strlen v) := by rw [hsz]; omega
      have hs : extSubstr v ((a.length : Int) - 1 + 1) (some 1) = .ok (b.take 1) := by
        rw [show (a.length : Int) - 1 + 1 = ((a.length : Nat) : Int) by omega]
        refine (sub_take (s := v) (i := a.length) (n := 1) (by omega) (by omega) (by omega)).trans ?_
        rw [e]; simp
      have hnext : (CharIter.mk ((a.length : Int) - 1) (strlen v) v).next
          = (.ok (b.take 1), CharIter.mk ((a.length : Int) - 1 + 1) (strlen v) v) := by
        simp only [CharIter.next, hif, if_false, hs]
      rw [CharIter.collect, if_pos hn, hnext]
      cases b with
      | nil =>
        obtain ⟨k, rfl⟩ : ∃ k, fuel = k + 1 := ⟨fuel - 1, by omega⟩
        have hno : (CharIter.mk ((a.length : Int) - 1 + 1) (strlen v) v).hasNext = false := by
          simp only [CharIter.hasNext, hsz, decide_eq_false_iff_not]
          simp at hlen; omega
        have hend : CharIter.collect (k + 1) (CharIter.mk ((a.length : Int) - 1 + 1) (strlen v) v) = some (.ok []) := by
          rw [CharIter.collect, if_neg (by rw [hno]; simp)]
        simp only [hend]
        rfl
      | cons c b =>
        have := ih (a ++ [c]) b (by rw [e]; simp) (by simp at hf; omega)
        rw [show ((a ++ [c]).length : Int) - 1 = (a.length : Int) - 1 + 1 by simp] at this
        simp only [this, List.take_succ_cons, List.take_zero, List.map_cons, List.cons_append]
  have := key fuel [] v rfl hf
  simpa [CharIter.new] using this

example : (CharIter.new "hi".toList).collect 9 = some (.ok ["h".toList, "i".toList, []]) := by decide

/-- The first characters given are those of the text, in order. -/
theorem characters_partial (v : Text) (hv : v.length < 2 ^ 31 - 1) (fuel : Nat) (hf : v.length + 1 < fuel) :
    ∃ cs, (CharIter.new v).collect fuel = some (.ok cs) ∧ cs.take v.length = v.map (fun c => [c]) :=
  ⟨_, characters_refuted v hv fuel hf, by simp⟩

example : (CharIter.new [] ).collect 9 = some (.ok [[]]) := by decide

/-- `peek` gives what `next` will give. -/
theorem peek_is_next (it : CharIter) (h : 0 ≤ it.currentIndex + 1) : it.peek = it.next.1 := by
  simp only [CharIter.peek, CharIter.next]
  by_cases h1 : it.currentIndex + 1 > it.length
  · rw [if_pos (Or.inr h1), if_pos h1]
  · rw [if_neg (by omega), if_neg h1]

example : (CharIter.new "hi".toList).peek = .ok "h".toList := by decide

end Verif.Text
