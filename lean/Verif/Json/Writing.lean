import Verif.Json.Reading
import Verif.Str.Props

/-! # What the writers write -/

namespace Verif.Json

open Verif.Str (Text)

mutual

/-- The object that stands for a value. -/
def denote : Json → Value
  | .null => .null
  | .bool b => .bool b
  | .num t => .leaf .number t
  | .str s => .leaf .string s
  | .arr l => .arr (denoteItems l)
  | .obj l => .obj (denoteMembers l)

def denoteItems : List Json → List Value
  | [] => []
  | v :: l => denote v :: denoteItems l

def denoteMembers : List (Text × Json) → List (Text × Value)
  | [] => []
  | (k, v) :: l => (k, denote v) :: denoteMembers l

end

/-- Nothing in the text needs to be escaped. -/
def Unescaped (s : Text) : Prop := ∀ c ∈ s, c ≠ '"' ∧ c ≠ '\\'

/-- An array of several values whose first is `false`. -/
def FalseFirst : List Json → Prop
  | .bool false :: _ :: _ => True
  | _ => False

mutual

/-- No text needs escapes, numbers are written as JSON asks, no array of several values begins with `false`. -/
def Plain : Json → Prop
  | .num t => IsNumber False t
  | .str s => Unescaped s
  | .arr l => ¬ FalseFirst l ∧ PlainItems l
  | .obj l => PlainMembers l
  | _ => True

def PlainItems : List Json → Prop
  | [] => True
  | v :: l => Plain v ∧ PlainItems l

def PlainMembers : List (Text × Json) → Prop
  | [] => True
  | (k, v) :: l => Unescaped k ∧ Plain v ∧ PlainMembers l

end

theorem Unescaped.chars {s : Text} (h : Unescaped s) : Chars False s s := by
  induction s with
  | nil => exact .nil
  | cons c s ih =>
    exact .plain (h c (List.mem_cons_self ..)).1 (h c (List.mem_cons_self ..)).2 (ih fun d hd => h d (List.mem_cons_of_mem _ hd))

/-! ## Texts that count as true -/

/-- Blanks, then a character that is neither blank nor the first of `false`. -/
def Solid (s : Text) : Prop := ∃ a c m, s = a ++ c :: m ∧ (∀ d ∈ a, d = ' ') ∧ c ≠ ' ' ∧ c ≠ '\n' ∧ c.toLower ≠ 'f'

theorem Solid.append {s : Text} (h : Solid s) (t : Text) : Solid (s ++ t) := by
  obtain ⟨a, c, m, rfl, h1, h2⟩ := h
  exact ⟨a, c, m ++ t, by simp, h1, h2⟩

theorem lead_unique {a b : Text} {c d : Char} {m n : Text} (ha : ∀ x ∈ a, x = ' ') (hb : ∀ x ∈ b, x = ' ') (hc : c ≠ ' ') (hd : d ≠ ' ')
    (h : a ++ c :: m = b ++ d :: n) : c = d := by
  induction a generalizing b with
  | nil =>
    cases b with
    | nil => simp at h; exact h.1
    | cons x b =>
      simp only [List.nil_append, List.cons_append, List.cons.injEq] at h
      exact absurd (h.1.trans (hb x (List.mem_cons_self ..))) hc
  | cons y a ih =>
    cases b with
    | nil =>
      simp only [List.nil_append, List.cons_append, List.cons.injEq] at h
      exact absurd (h.1.symm.trans (ha y (List.mem_cons_self ..))) hd
    | cons x b =>
      simp only [List.cons_append, List.cons.injEq] at h
      exact ih (fun z hz => ha z (List.mem_cons_of_mem _ hz)) (fun z hz => hb z (List.mem_cons_of_mem _ hz)) h.2

theorem Solid.true {s : Text} (h : Solid s) : Str.stringToBool s = true := by
  obtain ⟨a, c, m, rfl, h1, h2, h3, h4⟩ := h
  cases hs : Str.stringToBool (a ++ c :: m) with
  | true => rfl
  | false =>
    obtain ⟨p, q, b, e, hp, hb, hq⟩ := (Str.text_false_iff _).1 hs
    exfalso
    rcases hq with rfl | rfl | hq
    · have : c ∈ p ++ [] ++ b := by rw [← e]; simp
      simp only [List.append_nil, List.mem_append] at this
      rcases this with h | h
      · exact h2 (hp c h)
      · exact h2 (hb c h)
    · rw [List.append_assoc] at e
      exact h3 (lead_unique h1 hp h2 (by decide) e)
    · cases q with
      | nil => simp at hq
      | cons d q =>
        simp only [List.map_cons, List.cons.injEq] at hq
        have hd : d ≠ ' ' := by rintro rfl; exact absurd hq.1 (by decide)
        rw [List.append_assoc, List.cons_append] at e
        have := lead_unique h1 hp h2 hd e
        subst this
        exact h4 hq.1

theorem replicate_blank (n : Nat) : Blank (List.replicate n ' ') := fun _ h => .inl (List.eq_of_mem_replicate h)

theorem number_first {t : Text} (h : IsNumber False t) : ∃ c r, t = c :: r ∧ c ≠ ' ' ∧ c ≠ '\n' ∧ c.toLower ≠ 'f' := by
  obtain ⟨c, r, rfl, -, h2⟩ := number_chars h
  refine ⟨c, r, rfl, ?_⟩
  have h3 : ∀ d ∈ digits, d ≠ ' ' ∧ d ≠ '\n' ∧ d.toLower ≠ 'f' := by decide
  exact h3 c (h2 c (List.mem_cons_self ..))

/-- The text of a value other than `false` counts as true. -/
theorem write_first (s : Style) (n : Nat) (v : Json) (hv : Plain v) (hf : v ≠ .bool false) :
    ∃ c r, write s n (denote v) = c :: r ∧ c ≠ ' ' ∧ c ≠ '\n' ∧ c.toLower ≠ 'f' := by
  cases v with
  | null => exact ⟨'n', _, rfl, by decide⟩
  | bool b =>
    cases b with
    | true => exact ⟨'t', "rue".toList, by simp only [denote, Value.bool, write, if_true]; decide, by decide⟩
    | false => exact absurd rfl hf
  | num t =>
    rw [Plain] at hv
    simpa [denote, write, leafText] using number_first hv
  | str t => exact ⟨'"', _, by simp only [denote, write, leafText]; rfl, by decide⟩
  | arr l => exact ⟨'[', _, by simp only [denote, write]; rfl, by decide⟩
  | obj l => exact ⟨'{', _, by simp only [denote, write]; rfl, by decide⟩

/-! ## Blanks around the members -/

theorem Writes.blank_before {p : Part} {t w : Text} {x : Prop} (h : Writes x p t) (hw : Blank w) (hp : ∀ v, p ≠ .value v) : Writes x p (w ++ t) := by
  have app : ∀ {a : Text}, Blank a → Blank (w ++ a) := by
    intro a ha c hc
    rcases List.mem_append.1 hc with h | h
    · exact hw c h
    · exact ha c h
  cases h with
  | item ha h hb => simpa using Writes.item (app ha) h hb
  | items ha h hb h2 => simpa using Writes.items (app ha) h hb h2
  | member ha hk hb hc h hd => simpa using Writes.member (app ha) hk hb hc h hd
  | members ha hk hb hc h hd h2 => simpa using Writes.members (app ha) hk hb hc h hd h2
  | _ => exact absurd rfl (hp _)

theorem Writes.blank_after {p : Part} {t w : Text} {x : Prop} (h : Writes x p t) (hw : Blank w) (hp : ∀ v, p ≠ .value v) : Writes x p (t ++ w) := by
  have app : ∀ {a : Text}, Blank a → Blank (a ++ w) := by
    intro a ha c hc
    rcases List.mem_append.1 hc with h | h
    · exact ha c h
    · exact hw c h
  induction h with
  | item ha h hb => simpa using Writes.item ha h (app hb)
  | items ha h hb h2 _ ih => simpa using Writes.items ha h hb (ih fun v h => by cases h)
  | member ha hk hb hc h hd => simpa using Writes.member ha hk hb hc h (app hd)
  | members ha hk hb hc h hd h2 _ ih => simpa using Writes.members ha hk hb hc h hd (ih fun v h => by cases h)
  | _ => exact absurd rfl (hp _)

/-! ## The writers -/

/-- Only blanks around the members. -/
structure Style.Good (s : Style) : Prop where
  start : Blank s.start
  stop : Blank s.stop

theorem plain_good : plain.Good := ⟨by unfold plain Blank; decide, by unfold plain Blank; decide⟩

theorem styled_good : styled.Good := ⟨by unfold styled Blank; decide, by unfold styled Blank; decide⟩

theorem indent_blank (s : Style) (n : Nat) : Blank (s.indent n) := replicate_blank _

theorem indent_space (s : Style) (n : Nat) : ∀ d ∈ s.indent n, d = ' ' := fun _ h => List.eq_of_mem_replicate h

theorem Blank.append {a b : Text} (ha : Blank a) (hb : Blank b) : Blank (a ++ b) := by
  intro c hc
  rcases List.mem_append.1 hc with h | h
  · exact ha c h
  · exact hb c h

theorem Blank.nil : Blank [] := fun _ h => by cases h

mutual

theorem write_writes {s : Style} (hs : s.Good) : ∀ (v : Json) (n : Nat), Plain v → Writes False (.value v) (write s n (denote v))
  | .null, n, _ => by simpa only [denote, Value.null, write, leafText] using Writes.null
  | .bool true, n, _ => by
    have : write s n (denote (.bool true)) = "true".toList := by simp only [denote, Value.bool, write, if_true]; decide
    rw [this]; exact Writes.true
  | .bool false, n, _ => by
    have : write s n (denote (.bool false)) = "false".toList := by
      simp only [denote, Value.bool, write, Bool.false_eq_true, if_false]; decide
    rw [this]; exact Writes.false
  | .num t, n, h => by
    rw [Plain] at h
    simpa only [denote, write, leafText] using Writes.num h
  | .str t, n, h => by
    rw [Plain] at h
    simpa only [denote, write, leafText] using Writes.str h.chars
  | .arr [], n, _ => by
    have := Writes.empty (x := False) (w := s.start ++ (s.stop ++ s.indent n)) (hs.start.append (hs.stop.append (indent_blank s n)))
    simpa [denote, denoteItems, write, writeItems] using this
  | .arr (v :: l), n, h => by
    rw [Plain, PlainItems] at h
    obtain ⟨h1, h2, h3⟩ := h
    have hv := write_writes hs v (n + 1) h2
    have hl := writeItems_writes hs l (n + 1) h3
    have key : Writes False (.items (v :: l)) (writeItems s (n + 1) [] (denoteItems (v :: l))) := by
      have e0 : separator [] (',' :: s.stop) = [] := by
        rw [separator, if_neg (by decide)]
      rw [denoteItems, writeItems, e0, List.nil_append, List.nil_append]
      cases l with
      | nil =>
        have := Writes.item (indent_blank s (n + 1)) hv Blank.nil
        simpa [denoteItems, writeItems] using this
      | cons w l =>
        obtain ⟨u, hu, hacc⟩ := hl w l rfl
        have hf : v ≠ .bool false := by rintro rfl; exact h1 trivial
        obtain ⟨c, r, e, hc⟩ := write_first s (n + 1) v h2 hf
        rw [hacc _ ⟨s.indent (n + 1), c, r, by rw [e], indent_space s _, hc⟩]
        have := Writes.items (indent_blank s (n + 1)) hv Blank.nil hu
        simpa using this
    have := Writes.arr ((key.blank_before hs.start (fun v h => by cases h)).blank_after (hs.stop.append (indent_blank s n)) (fun v h => by cases h))
    simpa [denote, write] using this
  | .obj [], n, _ => by
    have := Writes.none (x := False) (w := s.start ++ (s.stop ++ s.indent n)) (hs.start.append (hs.stop.append (indent_blank s n)))
    simpa [denote, denoteMembers, write, writeMembers] using this
  | .obj ((k, v) :: l), n, h => by
    rw [Plain, PlainMembers] at h
    obtain ⟨hk, h2, h3⟩ := h
    have hv := write_writes hs v (n + 1) h2
    have hl := writeMembers_writes hs l (n + 1) h3
    have key : Writes False (.members ((k, v) :: l)) (writeMembers s (n + 1) [] (denoteMembers ((k, v) :: l))) := by
      have e0 : separator [] (',' :: s.stop) = [] := by
        rw [separator, if_neg (by decide)]
      rw [denoteMembers, writeMembers, e0, List.nil_append, List.nil_append]
      cases l with
      | nil =>
        have := Writes.member (indent_blank s (n + 1)) hk.chars Blank.nil (c := [' ']) (by unfold Blank; decide) hv Blank.nil
        simpa [denoteMembers, writeMembers] using this
      | cons m l =>
        obtain ⟨u, hu, hacc⟩ := hl m l rfl
        rw [hacc _ ⟨s.indent (n + 1), '"', _, rfl, indent_space s _, by decide⟩]
        have := Writes.members (indent_blank s (n + 1)) hk.chars Blank.nil (c := [' ']) (by unfold Blank; decide) hv Blank.nil hu
        simpa using this
    have := Writes.obj ((key.blank_before hs.start (fun v h => by cases h)).blank_after (hs.stop.append (indent_blank s n)) (fun v h => by cases h))
    simpa [denote, write] using this

/-- The values after the first. -/
theorem writeItems_writes {s : Style} (hs : s.Good) : ∀ (l : List Json) (n : Nat), PlainItems l → ∀ v l', l = v :: l' →
    ∃ u, Writes False (.items l) u ∧ ∀ acc, Solid acc → writeItems s n acc (denoteItems l) = acc ++ ',' :: u
  | [], n, _, v, l', e => by cases e
  | v :: l, n, h, _, _, _ => by
    rw [PlainItems] at h
    have hv := write_writes hs v n h.1
    have hl := writeItems_writes hs l n h.2
    cases l with
    | nil =>
      refine ⟨_, Writes.item (hs.stop.append (indent_blank s n)) hv Blank.nil, fun acc ha => ?_⟩
      rw [denoteItems, writeItems, separator, ha.true, if_pos rfl]
      simp [denoteItems, writeItems]
    | cons w l =>
      obtain ⟨u, hu, hacc⟩ := hl w l rfl
      refine ⟨_, Writes.items (hs.stop.append (indent_blank s n)) hv Blank.nil hu, fun acc ha => ?_⟩
      rw [denoteItems, writeItems, hacc _ (ha.append _), separator, ha.true, if_pos rfl]
      simp

theorem writeMembers_writes {s : Style} (hs : s.Good) : ∀ (l : List (Text × Json)) (n : Nat), PlainMembers l → ∀ v l', l = v :: l' →
    ∃ u, Writes False (.members l) u ∧ ∀ acc, Solid acc → writeMembers s n acc (denoteMembers l) = acc ++ ',' :: u
  | [], n, _, v, l', e => by cases e
  | (k, v) :: l, n, h, _, _, _ => by
    rw [PlainMembers] at h
    have hv := write_writes hs v n h.2.1
    have hl := writeMembers_writes hs l n h.2.2
    cases l with
    | nil =>
      refine ⟨_, Writes.member (hs.stop.append (indent_blank s n)) h.1.chars Blank.nil (c := [' ']) (by unfold Blank; decide) hv Blank.nil,
        fun acc ha => ?_⟩
      rw [denoteMembers, writeMembers, separator, ha.true, if_pos rfl]
      simp [denoteMembers, writeMembers]
    | cons w l =>
      obtain ⟨u, hu, hacc⟩ := hl w l rfl
      refine ⟨_, Writes.members (hs.stop.append (indent_blank s n)) h.1.chars Blank.nil (c := [' ']) (by unfold Blank; decide) hv Blank.nil hu,
        fun acc ha => ?_⟩
      rw [denoteMembers, writeMembers, hacc _ (ha.append _), separator, ha.true, if_pos rfl]
      simp

end

mutual

/-- `JsonWriter` writes what `toString` gives. -/
theorem write_plain : ∀ (v : Value) (n : Nat), write plain n v = toText v
  | .leaf k t, n => by rw [write, toText]
  | .arr l, n => by
    rw [write, toText, writeItems_plain l]
    simp [plain, Style.indent]
  | .obj l, n => by
    rw [write, toText, writeMembers_plain l]
    simp [plain, Style.indent]

theorem writeItems_plain : ∀ (l : List Value) (n : Nat) (acc : Text), writeItems plain n acc l = itemsText acc l
  | [], n, acc => by rw [writeItems, itemsText]
  | v :: l, n, acc => by
    rw [writeItems, itemsText, writeItems_plain l, write_plain v]
    simp [plain, Style.indent]

theorem writeMembers_plain : ∀ (l : List (Text × Value)) (n : Nat) (acc : Text), writeMembers plain n acc l = membersText acc l
  | [], n, acc => by rw [writeMembers, membersText]
  | (k, v) :: l, n, acc => by
    rw [writeMembers, membersText, writeMembers_plain l, write_plain v]
    simp [plain, Style.indent]

end

end Verif.Json
