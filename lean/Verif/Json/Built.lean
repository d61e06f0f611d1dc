import Verif.Json.Builder
import Verif.Json.Props

/-! C141: what the JSON builders build. -/

namespace Verif.Json.Build

open Verif.Str (Text)

/-! ## Specification -/

/-- What is to be built. -/
inductive Item where
  | bool (b : Bool)
  | int (i : Int)
  | str (s : Text)
  | arr (l : List Item)
  | obj (l : List (Text × Item))

mutual

/-- The JSON value it is. -/
def json : Item → Json
  | .bool b => .bool b
  | .int i => .num (Str.intToString i)
  | .str s => .str s
  | .arr l => .arr (jsonItems l)
  | .obj l => .obj (jsonMembers l)

def jsonItems : List Item → List Json
  | [] => []
  | v :: l => json v :: jsonItems l

def jsonMembers : List (Text × Item) → List (Text × Json)
  | [] => []
  | (k, v) :: l => (k, json v) :: jsonMembers l

end

mutual

/-- The calls that add it to an array. -/
def itemCalls : Item → List Call
  | .bool b => [.addValue (.bool b)]
  | .int i => [.addValue (.int i)]
  | .str s => [.addValue (.str s)]
  | .arr l => .beginArray :: (itemsCalls l ++ [.endArray])
  | .obj l => .beginObject :: (membersCalls l ++ [.endObject])

def itemsCalls : List Item → List Call
  | [] => []
  | v :: l => itemCalls v ++ itemsCalls l

/-- The calls that add it to an object. -/
def memberCalls (k : Text) : Item → List Call
  | .bool b => [.addElement k (.bool b)]
  | .int i => [.addElement k (.int i)]
  | .str s => [.addElement k (.str s)]
  | .arr l => .beginArrayOf k :: (itemsCalls l ++ [.endArray])
  | .obj l => .beginObjectOf k :: (membersCalls l ++ [.endObject])

def membersCalls : List (Text × Item) → List Call
  | [] => []
  | (k, v) :: l => memberCalls k v ++ membersCalls l

end

/-- The document a builder gives for the members of an object. -/
def built (l : List (Text × Item)) : Text := plainString ((membersCalls l).foldl plain {})

/-- The document a styled builder gives. -/
def builtStyled (l : List (Text × Item)) : Text := styledString ((membersCalls l).foldl styled {})

mutual

/-- No truth values. -/
def NoBool : Item → Prop
  | .bool _ => False
  | .arr l => NoBoolItems l
  | .obj l => NoBoolMembers l
  | _ => True

def NoBoolItems : List Item → Prop
  | [] => True
  | v :: l => NoBool v ∧ NoBoolItems l

def NoBoolMembers : List (Text × Item) → Prop
  | [] => True
  | (_, v) :: l => NoBool v ∧ NoBoolMembers l

end

mutual

/-- Nothing in the texts needs to be escaped. -/
def Clear : Item → Prop
  | .str s => Unescaped s
  | .arr l => ClearItems l
  | .obj l => ClearMembers l
  | _ => True

def ClearItems : List Item → Prop
  | [] => True
  | v :: l => Clear v ∧ ClearItems l

def ClearMembers : List (Text × Item) → Prop
  | [] => True
  | (k, v) :: l => Unescaped k ∧ Clear v ∧ ClearMembers l

end

/-! ## Numbers -/

theorem digits_of {t : Text} (h : ∀ c ∈ t, Str.isDigit c = true) : Digits t := by
  intro c hc
  have := h c hc
  simp only [Str.isDigit, Bool.and_eq_true, decide_eq_true_eq] at this
  exact this

theorem natDigits_head (n : Nat) : n = 0 ∨ (Str.natDigits n).head? ≠ some '0' := by
  induction n using Str.natDigits.induct with
  | case1 n h =>
    have : ∀ k < 10, k = 0 ∨ some (Str.digitChar k) ≠ some '0' := by decide
    unfold Str.natDigits
    rw [if_pos h]
    exact this n h
  | case2 n h ih =>
    unfold Str.natDigits
    rw [if_neg h]
    right
    rcases ih with ih | ih
    · omega
    · cases hd : Str.natDigits (n / 10) with
      | nil => exact absurd hd (Str.natDigits_ne_nil _)
      | cons c cs => rw [hd] at ih; exact ih

theorem isNumber_nat (n : Nat) : Str.natDigits n ≠ [] ∧ Digits (Str.natDigits n) ∧
    (Str.natDigits n = ['0'] ∨ (Str.natDigits n).head? ≠ some '0') := by
  refine ⟨Str.natDigits_ne_nil n, digits_of (Str.natDigits_isDigit n), ?_⟩
  rcases natDigits_head n with rfl | h
  · left; decide +kernel
  · exact .inr h

theorem isNumber_int (i : Int) : IsNumber False (Str.intToString i) := by
  unfold Str.intToString
  split
  · exact ⟨['-'], _, [], [], by simp, .inr rfl, isNumber_nat i.natAbs, .inl rfl, .inl rfl⟩
  · exact ⟨[], _, [], [], by simp, .inl rfl, isNumber_nat i.natAbs, .inl rfl, .inl rfl⟩

/-! ## Both builders -/

mutual

/-- The value with 1 and 0 in place of the truth values. -/
def digit : Item → Item
  | .bool b => .int (if b then 1 else 0)
  | .arr l => .arr (digitItems l)
  | .obj l => .obj (digitMembers l)
  | v => v

def digitItems : List Item → List Item
  | [] => []
  | v :: l => digit v :: digitItems l

def digitMembers : List (Text × Item) → List (Text × Item)
  | [] => []
  | (k, v) :: l => (k, digit v) :: digitMembers l

end

theorem boolText (b : Bool) : Str.boolToString b = Str.intToString (if b then 1 else 0) := by
  cases b <;> decide +kernel

/-- How a builder acts: blanks `w` before what it adds. -/
structure Acts (f : State → Call → State) : Prop where
  addElement : ∀ s k v, ∃ w, Blank w ∧ f s (.addElement k v) =
    { s with first := false, value := s.value ++ (if s.first then [] else [',']) ++ w ++ keyText k ++ v.text }
  addValue : ∀ s v, ∃ w, Blank w ∧ f s (.addValue v) =
    { s with first := false, value := s.value ++ (if s.first then [] else [',']) ++ w ++ v.text }
  nests : ∃ d : Int, (∀ s, (∃ w u, Blank w ∧ Blank u ∧ f s .beginArray =
      { level := s.level + d, first := true, value := s.value ++ (if s.first then [] else [',']) ++ w ++ '[' :: u }) ∧
    (∃ w u, Blank w ∧ Blank u ∧ f s .beginObject =
      { level := s.level + d, first := true, value := s.value ++ (if s.first then [] else [',']) ++ w ++ '{' :: u }) ∧
    (∀ k, ∃ w u, Blank w ∧ Blank u ∧ f s (.beginArrayOf k) =
      { level := s.level + d, first := true, value := s.value ++ (if s.first then [] else [',']) ++ w ++ keyText k ++ '[' :: u }) ∧
    (∀ k, ∃ w u, Blank w ∧ Blank u ∧ f s (.beginObjectOf k) =
      { level := s.level + d, first := true, value := s.value ++ (if s.first then [] else [',']) ++ w ++ keyText k ++ '{' :: u }) ∧
    (∃ w, Blank w ∧ f s .endArray = { level := s.level - d, first := false, value := s.value ++ w ++ [']'] }) ∧
    (∃ w, Blank w ∧ f s .endObject = { level := s.level - d, first := false, value := s.value ++ w ++ ['}'] }))

theorem blank_space : Blank [' '] := by unfold Blank; decide
theorem blank_line : Blank ['\n'] := by unfold Blank; decide
theorem blank_both : Blank [' ', '\n'] := by unfold Blank; decide

theorem plain_acts : Acts plain where
  addElement := fun s k v => by
    cases h : s.first
    · exact ⟨[' '], blank_space, by simp [plain, State.comma, State.put, h]⟩
    · exact ⟨[], Blank.nil, by simp [plain, State.comma, State.put, h]⟩
  addValue := fun s v => by
    cases h : s.first
    · exact ⟨[' '], blank_space, by simp [plain, State.comma, State.put, h]⟩
    · exact ⟨[], Blank.nil, by simp [plain, State.comma, State.put, h]⟩
  nests := ⟨0, fun s => by
    refine ⟨?_, ?_, fun k => ?_, fun k => ?_, ⟨[], Blank.nil, by simp [plain, State.put]⟩, ⟨[], Blank.nil, by simp [plain, State.put]⟩⟩
    all_goals
      cases h : s.first
      · exact ⟨[' '], [], blank_space, Blank.nil, by simp [plain, State.comma, State.put, h]⟩
      · exact ⟨[], [], Blank.nil, Blank.nil, by simp [plain, State.comma, State.put, h]⟩⟩

theorem blank_indent (n : Nat) : Blank (List.replicate n "    ".toList).flatten := by
  intro c hc
  obtain ⟨l, hl, hc⟩ := List.mem_flatten.1 hc
  rw [List.eq_of_mem_replicate hl] at hc
  have h : ∀ c ∈ "    ".toList, c = ' ' ∨ c = '\t' ∨ c = '\n' ∨ c = '\r' := by decide
  exact h c hc

theorem styled_acts : Acts styled where
  addElement := fun s k v => by
    cases h : s.first
    · exact ⟨_, blank_both.append (blank_indent s.level.toNat), by simp [styled, State.comma, State.put, State.indent, h]⟩
    · exact ⟨_, blank_indent s.level.toNat, by simp [styled, State.comma, State.put, State.indent, h]⟩
  addValue := fun s v => by
    cases h : s.first
    · exact ⟨[' '], blank_space, by simp [styled, State.comma, State.put, h]⟩
    · exact ⟨[], Blank.nil, by simp [styled, State.comma, State.put, h]⟩
  nests := ⟨1, fun s => by
    refine ⟨?_, ?_, fun k => ?_, fun k => ?_, ⟨_, blank_line.append (blank_indent (s.level - 1).toNat), by simp [styled, State.put, State.indent]⟩,
      ⟨_, blank_line.append (blank_indent (s.level - 1).toNat), by simp [styled, State.put, State.indent]⟩⟩
    all_goals
      cases h : s.first
      · exact ⟨_, ['\n'], blank_both.append (blank_indent s.level.toNat), blank_line, by simp [styled, State.comma, State.put, State.indent, h]⟩
      · exact ⟨_, ['\n'], blank_indent s.level.toNat, blank_line, by simp [styled, State.comma, State.put, State.indent, h]⟩⟩

/-- What a literal is written as. -/
theorem lit_writes (v : Lit) (hv : ∀ s, v = .str s → Unescaped s) : Writes False (.value (json (digit (match v with
    | .bool b => .bool b
    | .int i => .int i
    | .str s => .str s)))) v.text := by
  cases v with
  | bool b => rw [Lit.text, boolText]; exact .num (isNumber_int _)
  | int i => exact .num (isNumber_int i)
  | str s => exact .str (hv s rfl).chars

/-- `k` is written as a key. -/
theorem key_member {k a t : Text} {v : Json} (hk : Unescaped k) (ha : Blank a) (ht : Writes False (.value v) t) :
    Writes False (.members [(k, v)]) (a ++ keyText k ++ t) := by
  have := Writes.member ha hk.chars Blank.nil blank_space ht Blank.nil
  simpa [keyText] using this

theorem key_members {k a t u : Text} {v : Json} {m : Text × Json} {l : List (Text × Json)} (hk : Unescaped k) (ha : Blank a)
    (ht : Writes False (.value v) t) (hu : Writes False (.members (m :: l)) u) :
    Writes False (.members ((k, v) :: m :: l)) (a ++ keyText k ++ t ++ ',' :: u) := by
  have := Writes.members ha hk.chars Blank.nil blank_space ht Blank.nil hu
  simpa [keyText] using this

/-- The state of a builder after some values. -/
abbrev Added (f : State → Call → State) (s : State) (calls : List Call) (p : Part) : Prop :=
  ∃ t, Writes False p t ∧ calls.foldl f s = { s with first := false, value := s.value ++ (if s.first then [] else [',']) ++ t }

theorem inArray {f : State → Call → State} {l : List Item} {d : Int} {s : State}
    (he : ∀ s : State, ∃ w, Blank w ∧ f s .endArray = { level := s.level - d, first := false, value := s.value ++ w ++ [']'] })
    (hl : l ≠ [] → Added f s (itemsCalls l) (.items (jsonItems (digitItems l)))) (hs : s.first = true) {u : Text} (hu : Blank u) :
    ∃ t, Writes False (.value (.arr (jsonItems (digitItems l)))) ('[' :: (u ++ t)) ∧
      (itemsCalls l ++ [Call.endArray]).foldl f s = { level := s.level - d, first := false, value := s.value ++ t } := by
  cases l with
  | nil =>
    obtain ⟨w, hw, h⟩ := he s
    refine ⟨w ++ [']'], ?_, ?_⟩
    · have := Writes.empty (x := False) (hu.append hw)
      simpa [jsonItems, digitItems] using this
    · simpa [itemsCalls] using h
  | cons v l =>
    obtain ⟨t, h1, h2⟩ := hl nofun
    obtain ⟨w, hw, h⟩ := he ((itemsCalls (v :: l)).foldl f s)
    refine ⟨t ++ w ++ [']'], ?_, ?_⟩
    · have := Writes.arr ((h1.blank_before hu nofun).blank_after hw nofun)
      simpa using this
    · rw [List.foldl_append, List.foldl_cons, List.foldl_nil, h, h2, hs]
      simp

theorem inObject {f : State → Call → State} {l : List (Text × Item)} {d : Int} {s : State}
    (he : ∀ s : State, ∃ w, Blank w ∧ f s .endObject = { level := s.level - d, first := false, value := s.value ++ w ++ ['}'] })
    (hl : l ≠ [] → Added f s (membersCalls l) (.members (jsonMembers (digitMembers l)))) (hs : s.first = true) {u : Text} (hu : Blank u) :
    ∃ t, Writes False (.value (.obj (jsonMembers (digitMembers l)))) ('{' :: (u ++ t)) ∧
      (membersCalls l ++ [Call.endObject]).foldl f s = { level := s.level - d, first := false, value := s.value ++ t } := by
  cases l with
  | nil =>
    obtain ⟨w, hw, h⟩ := he s
    refine ⟨w ++ ['}'], ?_, ?_⟩
    · have := Writes.none (x := False) (hu.append hw)
      simpa [jsonMembers, digitMembers] using this
    · simpa [membersCalls] using h
  | cons v l =>
    obtain ⟨t, h1, h2⟩ := hl nofun
    obtain ⟨w, hw, h⟩ := he ((membersCalls (v :: l)).foldl f s)
    refine ⟨t ++ w ++ ['}'], ?_, ?_⟩
    · have := Writes.obj ((h1.blank_before hu nofun).blank_after hw nofun)
      simpa using this
    · rw [List.foldl_append, List.foldl_cons, List.foldl_nil, h, h2, hs]
      simp

mutual

theorem item_built {f : State → Call → State} (hf : Acts f) : ∀ (v : Item) (s : State), Clear v → ∃ w t, Blank w ∧
    Writes False (.value (json (digit v))) t ∧
    (itemCalls v).foldl f s = { s with first := false, value := s.value ++ (if s.first then [] else [',']) ++ w ++ t }
  | .bool b, s, _ => by
    obtain ⟨w, hw, h⟩ := hf.addValue s (.bool b)
    exact ⟨w, _, hw, lit_writes (.bool b) nofun, by simpa [itemCalls] using h⟩
  | .int i, s, _ => by
    obtain ⟨w, hw, h⟩ := hf.addValue s (.int i)
    exact ⟨w, _, hw, lit_writes (.int i) nofun, by simpa [itemCalls] using h⟩
  | .str x, s, hc => by
    obtain ⟨w, hw, h⟩ := hf.addValue s (.str x)
    exact ⟨w, _, hw, lit_writes (.str x) (fun _ e => by cases e; simpa [Clear] using hc), by simpa [itemCalls] using h⟩
  | .arr l, s, hc => by
    obtain ⟨d, hd⟩ := hf.nests
    obtain ⟨w, u, hw, hu, h1⟩ := (hd s).1
    obtain ⟨t, h2, h3⟩ := inArray (l := l) (s := f s .beginArray) (fun s => (hd s).2.2.2.2.1) (items_built hf l _ (by simpa [Clear] using hc)) (by rw [h1]) hu
    refine ⟨w, '[' :: (u ++ t), hw, by simpa [json, digit] using h2, ?_⟩
    rw [itemCalls, List.foldl_cons, h3, h1]
    simp
  | .obj l, s, hc => by
    obtain ⟨d, hd⟩ := hf.nests
    obtain ⟨w, u, hw, hu, h1⟩ := (hd s).2.1
    obtain ⟨t, h2, h3⟩ := inObject (l := l) (s := f s .beginObject) (fun s => (hd s).2.2.2.2.2) (members_built hf l _ (by simpa [Clear] using hc)) (by rw [h1]) hu
    refine ⟨w, '{' :: (u ++ t), hw, by simpa [json, digit] using h2, ?_⟩
    rw [itemCalls, List.foldl_cons, h3, h1]
    simp

theorem member_built {f : State → Call → State} (hf : Acts f) (k : Text) : ∀ (v : Item) (s : State), Clear v → ∃ w t, Blank w ∧
    Writes False (.value (json (digit v))) t ∧
    (memberCalls k v).foldl f s = { s with first := false, value := s.value ++ (if s.first then [] else [',']) ++ w ++ keyText k ++ t }
  | .bool b, s, _ => by
    obtain ⟨w, hw, h⟩ := hf.addElement s k (.bool b)
    exact ⟨w, _, hw, lit_writes (.bool b) nofun, by simpa [memberCalls] using h⟩
  | .int i, s, _ => by
    obtain ⟨w, hw, h⟩ := hf.addElement s k (.int i)
    exact ⟨w, _, hw, lit_writes (.int i) nofun, by simpa [memberCalls] using h⟩
  | .str x, s, hc => by
    obtain ⟨w, hw, h⟩ := hf.addElement s k (.str x)
    exact ⟨w, _, hw, lit_writes (.str x) (fun _ e => by cases e; simpa [Clear] using hc), by simpa [memberCalls] using h⟩
  | .arr l, s, hc => by
    obtain ⟨d, hd⟩ := hf.nests
    obtain ⟨w, u, hw, hu, h1⟩ := (hd s).2.2.1 k
    obtain ⟨t, h2, h3⟩ := inArray (l := l) (s := f s (.beginArrayOf k)) (fun s => (hd s).2.2.2.2.1) (items_built hf l _ (by simpa [Clear] using hc)) (by rw [h1]) hu
    refine ⟨w, '[' :: (u ++ t), hw, by simpa [json, digit] using h2, ?_⟩
    rw [memberCalls, List.foldl_cons, h3, h1]
    simp
  | .obj l, s, hc => by
    obtain ⟨d, hd⟩ := hf.nests
    obtain ⟨w, u, hw, hu, h1⟩ := (hd s).2.2.2.1 k
    obtain ⟨t, h2, h3⟩ := inObject (l := l) (s := f s (.beginObjectOf k)) (fun s => (hd s).2.2.2.2.2) (members_built hf l _ (by simpa [Clear] using hc)) (by rw [h1]) hu
    refine ⟨w, '{' :: (u ++ t), hw, by simpa [json, digit] using h2, ?_⟩
    rw [memberCalls, List.foldl_cons, h3, h1]
    simp

theorem items_built {f : State → Call → State} (hf : Acts f) : ∀ (l : List Item) (s : State), ClearItems l → l ≠ [] →
    Added f s (itemsCalls l) (.items (jsonItems (digitItems l)))
  | [], _, _, h => absurd rfl h
  | v :: l, s, hc, _ => by
    rw [ClearItems] at hc
    obtain ⟨w, t, hw, h1, h2⟩ := item_built hf v s hc.1
    have ih := items_built hf l ((itemCalls v).foldl f s) hc.2
    cases l with
    | nil =>
      refine ⟨w ++ t, ?_, ?_⟩
      · have := Writes.item hw h1 Blank.nil
        simpa [jsonItems, digitItems] using this
      · simp only [itemsCalls, List.append_nil, h2, List.append_assoc]
    | cons v' l =>
      obtain ⟨t', h3, h4⟩ := ih nofun
      refine ⟨w ++ t ++ ',' :: t', ?_, ?_⟩
      · have := Writes.items hw h1 Blank.nil h3
        simpa [jsonItems, digitItems] using this
      · rw [itemsCalls, List.foldl_append, h4, h2]
        simp

theorem members_built {f : State → Call → State} (hf : Acts f) : ∀ (l : List (Text × Item)) (s : State), ClearMembers l → l ≠ [] →
    Added f s (membersCalls l) (.members (jsonMembers (digitMembers l)))
  | [], _, _, h => absurd rfl h
  | (k, v) :: l, s, hc, _ => by
    rw [ClearMembers] at hc
    obtain ⟨w, t, hw, h1, h2⟩ := member_built hf k v s hc.2.1
    have ih := members_built hf l ((memberCalls k v).foldl f s) hc.2.2
    cases l with
    | nil =>
      refine ⟨w ++ keyText k ++ t, ?_, ?_⟩
      · simpa [jsonMembers, digitMembers] using key_member hc.1 hw h1
      · simp only [membersCalls, List.append_nil, h2, List.append_assoc]
    | cons m' l =>
      obtain ⟨t', h3, h4⟩ := ih nofun
      refine ⟨w ++ keyText k ++ t ++ ',' :: t', ?_, ?_⟩
      · obtain ⟨k', v'⟩ := m'
        simpa [jsonMembers, digitMembers] using key_members hc.1 hw h1 (by simpa [jsonMembers, digitMembers] using h3)
      · rw [membersCalls, List.foldl_append, h4, h2]
        simp

end

/-- What the builders build, with 1 and 0 for the truth values. -/
theorem built_digits (l : List (Text × Item)) (hc : ClearMembers l) :
    Document False (.obj (jsonMembers (digitMembers l))) (built l) ∧ Document False (.obj (jsonMembers (digitMembers l))) (builtStyled l) := by
  cases l with
  | nil =>
    constructor
    · exact ⟨[], built [], [], by simp, Blank.nil, .none (blank_space.append blank_space), Blank.nil⟩
    · refine ⟨[], "{\n\n}".toList, "\n".toList, by decide, Blank.nil, .none (blank_line.append blank_line), blank_line⟩
  | cons m l =>
    constructor
    · obtain ⟨t, h1, h2⟩ := members_built plain_acts (m :: l) {} hc nofun
      refine ⟨[], built (m :: l), [], by simp, Blank.nil, ?_, Blank.nil⟩
      have := Writes.obj ((h1.blank_before blank_space nofun).blank_after blank_space nofun)
      simpa [built, plainString, h2] using this
    · obtain ⟨t, h1, h2⟩ := members_built styled_acts (m :: l) {} hc nofun
      refine ⟨[], '{' :: ('\n' :: t ++ ['\n'] ++ ['}']), ['\n'], by simp [builtStyled, styledString, h2], Blank.nil, ?_, blank_line⟩
      exact Writes.obj ((h1.blank_before blank_line nofun).blank_after blank_line nofun)

mutual

theorem digit_noBool : ∀ v, NoBool v → digit v = v
  | .bool _, h => by simp [NoBool] at h
  | .int _, _ => rfl
  | .str _, _ => rfl
  | .arr l, h => by rw [digit, digitItems_noBool l (by simpa [NoBool] using h)]
  | .obj l, h => by rw [digit, digitMembers_noBool l (by simpa [NoBool] using h)]

theorem digitItems_noBool : ∀ l, NoBoolItems l → digitItems l = l
  | [], _ => rfl
  | v :: l, h => by rw [NoBoolItems] at h; rw [digitItems, digit_noBool v h.1, digitItems_noBool l h.2]

theorem digitMembers_noBool : ∀ l, NoBoolMembers l → digitMembers l = l
  | [], _ => rfl
  | (k, v) :: l, h => by rw [NoBoolMembers] at h; rw [digitMembers, digit_noBool v h.1, digitMembers_noBool l h.2]

end

mutual

theorem noBool_of_quoted : ∀ v, quoted (json (digit v)) = quoted (json v) → NoBool v
  | .bool b, h => by simp [digit, json, quoted] at h
  | .int _, _ => by simp [NoBool]
  | .str _, _ => by simp [NoBool]
  | .arr l, h => by
    simp only [digit, json, quoted, Json.arr.injEq] at h
    simpa [NoBool] using noBoolItems_of_quoted l h
  | .obj l, h => by
    simp only [digit, json, quoted, Json.obj.injEq] at h
    simpa [NoBool] using noBoolMembers_of_quoted l h

theorem noBoolItems_of_quoted : ∀ l, quotedItems (jsonItems (digitItems l)) = quotedItems (jsonItems l) → NoBoolItems l
  | [], _ => by simp [NoBoolItems]
  | v :: l, h => by
    simp only [digitItems, jsonItems, quotedItems, List.cons.injEq] at h
    rw [NoBoolItems]
    exact ⟨noBool_of_quoted v h.1, noBoolItems_of_quoted l h.2⟩

theorem noBoolMembers_of_quoted : ∀ l, quotedMembers (jsonMembers (digitMembers l)) = quotedMembers (jsonMembers l) → NoBoolMembers l
  | [], _ => by simp [NoBoolMembers]
  | (k, v) :: l, h => by
    simp only [digitMembers, jsonMembers, quotedMembers, List.cons.injEq, Prod.mk.injEq, true_and] at h
    rw [NoBoolMembers]
    exact ⟨noBool_of_quoted v h.1, noBoolMembers_of_quoted l h.2⟩

end

/-! ## Theorems -/

/-- C141 (partial): the calls that add the members of an object one after the other, at any depth, build a JSON document of that object,
if it has no truth values and no text that needs escapes. -/
theorem built_document_partial (l : List (Text × Item)) (hc : ClearMembers l) (hb : NoBoolMembers l) :
    Document False (.obj (jsonMembers l)) (built l) ∧ Document False (.obj (jsonMembers l)) (builtStyled l) := by
  have := built_digits l hc
  rwa [digitMembers_noBool l hb] at this

/-- C141 (partial): the JSON reader reads them back, numbers as texts. -/
theorem built_read_partial (l : List (Text × Item)) (hc : ClearMembers l) (hb : NoBoolMembers l) :
    Reads (built l) (denote (quoted (.obj (jsonMembers l)))) ∧ Reads (builtStyled l) (denote (quoted (.obj (jsonMembers l)))) := by
  obtain ⟨h1, h2⟩ := built_document_partial l hc hb
  exact ⟨document_read_partial _ _ trivial h1, document_read_partial _ _ trivial h2⟩

theorem documents_quoted {v w : Json} {t : Text} (hv : v.IsTree) (hw : w.IsTree) (h1 : Document False v t) (h2 : Document False w t) :
    quoted v = quoted w :=
  denote_inj _ _ (Reads.unique (document_read_partial v t hv h1) (document_read_partial w t hw h2))

/-- C141: a truth value anywhere in the object is written as the number 1 or 0: the document is never that of the object. -/
theorem truth_refuted (l : List (Text × Item)) (hc : ClearMembers l) (hb : ¬ NoBoolMembers l) :
    ¬ Document False (.obj (jsonMembers l)) (built l) ∧ ¬ Document False (.obj (jsonMembers l)) (builtStyled l) := by
  obtain ⟨h1, h2⟩ := built_digits l hc
  constructor <;> intro h <;> apply hb
  · have := documents_quoted (v := .obj _) (w := .obj _) trivial trivial h1 h
    simp only [quoted, Json.obj.injEq] at this
    exact noBoolMembers_of_quoted l this
  · have := documents_quoted (v := .obj _) (w := .obj _) trivial trivial h2 h
    simp only [quoted, Json.obj.injEq] at this
    exact noBoolMembers_of_quoted l this

/-- C141: texts are not escaped: one text can make two members. -/
theorem injection_refuted (k x y z : Text) (hk : Unescaped k) (hx : Unescaped x) (hy : Unescaped y) (hz : Unescaped z) :
    Document False (.obj [(k, .str x), (y, .str z)]) (built [(k, .str (x ++ "\", \"".toList ++ y ++ "\": \"".toList ++ z))]) := by
  have h := (built_document_partial [(k, .str x), (y, .str z)] ⟨hk, hx, hy, hz, trivial⟩ ⟨trivial, trivial, trivial⟩).1
  have e : built [(k, .str (x ++ "\", \"".toList ++ y ++ "\": \"".toList ++ z))] = built [(k, .str x), (y, .str z)] := by
    simp [built, membersCalls, memberCalls, plain, plainString, State.comma, State.put, keyText, Lit.text]
  rw [e]
  exact h

theorem membersCalls_append (l m : List (Text × Item)) : membersCalls (l ++ m) = membersCalls l ++ membersCalls m := by
  induction l with
  | nil => rfl
  | cons a l ih => obtain ⟨k, v⟩ := a; simp only [List.cons_append, membersCalls, ih, List.append_assoc]

theorem quotedMembers_length : ∀ l, (quotedMembers l).length = l.length
  | [] => rfl
  | (k, v) :: l => by simp only [quotedMembers, List.length_cons, quotedMembers_length l]

theorem jsonMembers_length : ∀ l, (jsonMembers l).length = l.length
  | [] => rfl
  | (k, v) :: l => by simp only [jsonMembers, List.length_cons, jsonMembers_length l]

theorem clearMembers_append {l m : List (Text × Item)} (hl : ClearMembers l) (hm : ClearMembers m) : ClearMembers (l ++ m) := by
  induction l with
  | nil => exact hm
  | cons a l ih => obtain ⟨k, v⟩ := a; rw [ClearMembers] at hl; rw [List.cons_append, ClearMembers]; exact ⟨hl.1, hl.2.1, ih hl.2.2⟩

theorem noBoolMembers_append {l m : List (Text × Item)} (hl : NoBoolMembers l) (hm : NoBoolMembers m) : NoBoolMembers (l ++ m) := by
  induction l with
  | nil => exact hm
  | cons a l ih => obtain ⟨k, v⟩ := a; rw [NoBoolMembers] at hl; rw [List.cons_append, NoBoolMembers]; exact ⟨hl.1, ih hl.2⟩

/-- C141: the functions of StructuredBuilder.os begin no new document: the second one, too, has the members of the first. -/
theorem second_document_refuted (l m : List (Text × Item)) (hl : ClearMembers l) (hm : ClearMembers m) (hbl : NoBoolMembers l)
    (hbm : NoBoolMembers m) (hn : l ≠ []) :
    ¬ Document False (.obj (jsonMembers m)) (plainString ((membersCalls m).foldl plain ((membersCalls l).foldl plain {}))) := by
  intro h
  have e : plainString ((membersCalls m).foldl plain ((membersCalls l).foldl plain {})) = built (l ++ m) := by
    rw [built, membersCalls_append, List.foldl_append]
  rw [e] at h
  have h1 := (built_document_partial (l ++ m) (clearMembers_append hl hm) (noBoolMembers_append hbl hbm)).1
  have := documents_quoted (v := .obj _) (w := .obj _) trivial trivial h1 h
  simp only [quoted, Json.obj.injEq] at this
  have := congrArg List.length this
  simp only [quotedMembers_length, jsonMembers_length, List.length_append] at this
  exact hn (List.length_eq_zero_iff.1 (by omega))

/-! ## Examples -/

def sample : List (Text × Item) :=
  [("id".toList, .int (-7)), ("tags".toList, .arr [.str "a b".toList, .int 0, .arr [], .obj [("x".toList, .int 10)]]), ("o".toList, .obj [])]

theorem sample_clear : ClearMembers sample ∧ NoBoolMembers sample := by
  unfold sample
  simp only [ClearMembers, Clear, ClearItems, NoBoolMembers, NoBool, NoBoolItems, Unescaped]
  decide

example := built_document_partial _ sample_clear.1 sample_clear.2

example : built sample = "{ \"id\": -7, \"tags\": [\"a b\", 0, [], {\"x\": 10}], \"o\": {} }".toList := by decide +kernel

example : builtStyled sample = "{\n    \"id\": -7, \n    \"tags\": [\n\"a b\", 0, \n        [\n\n        ], \n        {\n            \"x\": 10\n        }\n    ], \n    \"o\": {\n\n    }\n}\n".toList := by
  decide +kernel

example : ClearMembers [("b".toList, .arr [.bool false])] ∧ ¬ NoBoolMembers [("b".toList, .arr [.bool false])] := by
  simp only [ClearMembers, Clear, ClearItems, NoBoolMembers, NoBool, NoBoolItems, Unescaped]
  decide

end Verif.Json.Build
