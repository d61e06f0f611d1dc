import Verif.Json.Tokens

/-! # Reading the tokens of a JSON document -/

namespace Verif.Json

open Verif.Str (Text)

mutual

/-- What the reader makes of a value: numbers become strings. -/
def read : Json → Value
  | .null => .null
  | .bool b => .bool b
  | .num t => .leaf .string t
  | .str s => .leaf .string s
  | .arr l => .arr (readItems l)
  | .obj l => .obj (readMembers l)

def readItems : List Json → List Value
  | [] => []
  | v :: l => read v :: readItems l

def readMembers : List (Text × Json) → List (Text × Value)
  | [] => []
  | (k, v) :: l => (k, read v) :: readMembers l

end

mutual

/-- How much fuel a value needs. -/
def size : Json → Nat
  | .arr l => 2 + itemsSize l
  | .obj l => 2 + membersSize l
  | _ => 1

def itemsSize : List Json → Nat
  | [] => 1
  | v :: l => 1 + size v + itemsSize l

def membersSize : List (Text × Json) → Nat
  | [] => 1
  | (_, v) :: l => 1 + size v + membersSize l

end

theorem require_cons {t u : Tok} {r : Cursor} : require t.ty (t :: u :: r) = .ok (u :: r) := by
  rw [require, if_pos rfl]

/-- Values begin with a token that closes nothing. -/
theorem toks_head (v : Json) : ∃ t r, toks v = t :: r ∧ t.ty ≠ .bracketClose ∧ t.ty ≠ .curlyClose ∧ t.ty ≠ .comma := by
  cases v <;> simp [toks]

theorem itemToks_head (v : Json) (l : List Json) : ∃ t r, itemToks (v :: l) = t :: r ∧ t.ty ≠ .bracketClose := by
  obtain ⟨t, r, h, h1, -⟩ := toks_head v
  rw [itemToks, h]
  exact ⟨t, _, rfl, h1⟩

mutual

theorem parseValue_toks : ∀ (v : Json) (k : Nat) (t : Tok) (r : Cursor), size v ≤ k →
    parseValue k (toks v ++ t :: r) = .ok (read v, t :: r)
  | .null, k + 1, t, r, _ => by simp [toks, parseValue, next, Res.bind, read]
  | .bool b, k + 1, t, r, _ => by cases b <;> simp [toks, parseValue, next, Res.bind, read]
  | .num _, k + 1, t, r, _ => by simp [toks, parseValue, next, Res.bind, read]
  | .str _, k + 1, t, r, _ => by simp [toks, parseValue, next, Res.bind, read]
  | .arr l, 0, t, r, h => by rw [size] at h; omega
  | .obj l, 0, t, r, h => by rw [size] at h; omega
  | .arr l, k + 1, t, r, h => by
    rw [size] at h
    cases k with
    | zero => omega
    | succ k =>
      have h1 := items_toks l k (t :: r) (by omega)
      have h2 : ∃ u c, itemToks l ++ ⟨.bracketClose, [']']⟩ :: t :: r = u :: c := by
        cases itemToks l <;> simp
      obtain ⟨u, c, h2⟩ := h2
      simp only [toks, List.cons_append, List.append_assoc, List.nil_append, parseValue, parseArray]
      rw [h2, require, if_pos rfl]
      simp only [Res.bind]
      rw [← h2, h1]
      simp [require, read]
  | .obj l, k + 1, t, r, h => by
    rw [size] at h
    cases k with
    | zero => omega
    | succ k =>
      have h1 := members_toks l k (t :: r) (by omega)
      have h2 : ∃ u c, memberToks l ++ ⟨.curlyClose, ['}']⟩ :: t :: r = u :: c := by
        cases memberToks l <;> simp
      obtain ⟨u, c, h2⟩ := h2
      simp only [toks, List.cons_append, List.append_assoc, List.nil_append, parseValue, parseObject]
      rw [h2, require, if_pos rfl]
      simp only [Res.bind]
      rw [← h2, h1]
      simp [require, read]

theorem items_toks : ∀ (l : List Json) (k : Nat) (r : Cursor), itemsSize l ≤ k →
    items k (itemToks l ++ ⟨.bracketClose, [']']⟩ :: r) = .ok (readItems l, ⟨.bracketClose, [']']⟩ :: r)
  | [], k + 1, r, _ => by simp [itemToks, items, at?, readItems]
  | v :: l, 0, r, h => by rw [itemsSize] at h; omega
  | v :: l, k + 1, r, h => by
    rw [itemsSize] at h
    obtain ⟨t, q, h1, h2, -⟩ := toks_head v
    have h3 : ∀ s, at? .bracketClose (toks v ++ s) = false := by
      intro s; rw [h1]; simp [at?, h2]
    rw [items, itemToks, List.append_assoc, h3, if_neg (by simp)]
    cases l with
    | nil =>
      simp only [List.isEmpty_nil, if_true, List.nil_append]
      rw [parseValue_toks v k _ _ (by omega)]
      simp [Res.bind, at?, readItems]
    | cons w l =>
      obtain ⟨u, c, h4, -⟩ := itemToks_head w l
      have h5 := items_toks (w :: l) k r (by omega)
      simp only [List.isEmpty_cons, Bool.false_eq_true, if_false, List.cons_append]
      rw [parseValue_toks v k _ _ (by omega)]
      rw [h4, List.cons_append] at h5
      simp only [Res.bind, at?, List.head?_cons, Option.map_some, decide_true, if_true]
      rw [h4, List.cons_append, require, if_pos rfl]
      simp only [h5, readItems]

theorem members_toks : ∀ (l : List (Text × Json)) (k : Nat) (r : Cursor), membersSize l ≤ k →
    members k (memberToks l ++ ⟨.curlyClose, ['}']⟩ :: r) = .ok (readMembers l, ⟨.curlyClose, ['}']⟩ :: r)
  | [], k + 1, r, _ => by simp [memberToks, members, readMembers]
  | (x, v) :: l, 0, r, h => by rw [membersSize] at h; omega
  | (x, v) :: l, k + 1, r, h => by
    rw [membersSize] at h
    obtain ⟨t, q, h1, -⟩ := toks_head v
    simp only [memberToks, List.cons_append, List.append_assoc]
    rw [members, if_neg (by simp)]
    simp only [next, Res.bind]
    have h3 : ∀ s, require .colon (⟨.colon, [':']⟩ :: (toks v ++ s)) = .ok (toks v ++ s) := by
      intro s; rw [h1, List.cons_append, require, if_pos rfl]
    rw [h3]
    cases l with
    | nil =>
      simp only [List.isEmpty_nil, if_true, List.nil_append]
      rw [parseValue_toks v k _ _ (by omega)]
      simp [at?, readMembers]
    | cons m l =>
      have h5 := members_toks (m :: l) k r (by omega)
      have h4 : ∃ u c, memberToks (m :: l) = u :: c := ⟨_, _, rfl⟩
      obtain ⟨u, c, h4⟩ := h4
      simp only [List.isEmpty_cons, Bool.false_eq_true, if_false, List.cons_append]
      rw [parseValue_toks v k _ _ (by omega)]
      rw [h4, List.cons_append] at h5
      simp only [at?, List.head?_cons, Option.map_some, decide_true, if_true]
      rw [h4, List.cons_append, require, if_pos rfl]
      simp only [h5, readMembers]

end

/-- The iterator after the last bracket of an array, at the end of the text too. -/
def after (t : Tok) (r : Cursor) : Cursor := if r = [] then [t] else r

theorem require_after (t : Tok) (r : Cursor) : require t.ty (t :: r) = .ok (after t r) := by
  cases r <;> simp [require, after]

theorem parseArray_toks (l : List Json) (k : Nat) (r : Cursor) (h : size (.arr l) ≤ k) :
    parseArray k (toks (.arr l) ++ r) = .ok (read (.arr l), after ⟨.bracketClose, [']']⟩ r) := by
  rw [size] at h
  cases k with
  | zero => omega
  | succ k =>
    have h1 := items_toks l k r (by omega)
    have h2 : ∃ u c, itemToks l ++ ⟨.bracketClose, [']']⟩ :: r = u :: c := by
      cases itemToks l <;> simp
    obtain ⟨u, c, h2⟩ := h2
    simp only [toks, List.cons_append, List.append_assoc, List.nil_append, parseArray]
    rw [h2, require, if_pos rfl]
    simp only [Res.bind]
    rw [← h2, h1]
    simp only [require_after ⟨.bracketClose, [']']⟩ r, read]

theorem parseObject_toks (l : List (Text × Json)) (k : Nat) (r : Cursor) (h : size (.obj l) ≤ k) :
    parseObject k (toks (.obj l) ++ r) = .ok (read (.obj l), after ⟨.curlyClose, ['}']⟩ r) := by
  rw [size] at h
  cases k with
  | zero => omega
  | succ k =>
    have h1 := members_toks l k r (by omega)
    have h2 : ∃ u c, memberToks l ++ ⟨.curlyClose, ['}']⟩ :: r = u :: c := by
      cases memberToks l <;> simp
    obtain ⟨u, c, h2⟩ := h2
    simp only [toks, List.cons_append, List.append_assoc, List.nil_append, parseObject]
    rw [h2, require, if_pos rfl]
    simp only [Res.bind]
    rw [← h2, h1]
    simp only [require_after ⟨.curlyClose, ['}']⟩ r, read]

/-- Arrays and objects are read as what they are. -/
theorem parseTokens_toks (v : Json) (h : v.IsTree) (k : Nat) (hk : size v ≤ k) : parseTokens k (toks v) = .ok (some (read v)) := by
  cases v with
  | arr l =>
    have h1 := parseArray_toks l k [] hk
    rw [List.append_nil] at h1
    rw [show parseTokens k (toks (.arr l)) = (parseArray k (toks (.arr l))).bind fun v =>
      if at? .bracketClose v.2 then .ok (some v.1) else .thrown from rfl, h1]
    simp [Res.bind, after, at?]
  | obj l =>
    have h1 := parseObject_toks l k [] hk
    rw [List.append_nil] at h1
    rw [show parseTokens k (toks (.obj l)) = (parseObject k (toks (.obj l))).bind fun v =>
      if at? .curlyClose v.2 then .ok (some v.1) else .thrown from rfl, h1]
    simp [Res.bind, after, at?]
  | _ => exact h.elim

end Verif.Json
