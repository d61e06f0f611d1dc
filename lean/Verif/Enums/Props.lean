import Verif.Enums.Model
import Verif.Expr.Props

/-!
# What enumerations guarantee
-/

namespace Verif
namespace Enums

/-- A declared entry: its name and, if given, the text of its value. -/
structure Decl where
  name : String
  value : Option Str.Text := none
  deriving DecidableEq, Repr

def Decl.tokens (d : Decl) : List Tok :=
  match d.value with
  | none => [.ident d.name]
  | some c => [.ident d.name, .assign, .int c]

/-- The source text: entries separated by commas. -/
def list : List Decl → List Tok
  | [] => []
  | [d] => d.tokens
  | d :: d' :: ds => d.tokens ++ .comma :: list (d' :: ds)

/-- The value of an entry behind an entry of value `p`: the one given, or the successor. -/
def Decl.valueAfter (p : Int) (d : Decl) : Int :=
  match d.value with
  | some c => Str.stringToInt c
  | none => p + 1

/-- The values of entries that follow an entry of value `p`. -/
def values (p : Int) : List Decl → List Int
  | [] => []
  | d :: ds => d.valueAfter p :: values (d.valueAfter p) ds

/-- Each value is larger than the one before. -/
def Ascending (p : Int) : List Int → Prop
  | [] => True
  | v :: vs => p < v ∧ Ascending v vs

/-- No value needs a successor of the largest number. -/
def Fits (p : Int) : List Decl → Prop
  | [] => True
  | d :: ds => (d.value = none → p ≠ 2 ^ 63 - 1) ∧ Fits (d.valueAfter p) ds

theorem define_ok {es es' : Entries} {p v : Int} {n : String} {rest : List Tok} :
    define es p v n rest = .ok es' ↔ p < v ∧ n ∉ es.map Prod.fst ∧ es' = es ++ [(n, v)] := by
  unfold define
  by_cases h1 : p ≥ v
  · rw [if_pos h1]
    exact ⟨nofun, fun h => by omega⟩
  · rw [if_neg h1]
    by_cases h2 : n ∈ es.map Prod.fst
    · rw [if_pos]
      · exact ⟨nofun, fun h => absurd h2 h.2.1⟩
      · obtain ⟨e, he, rfl⟩ := List.mem_map.1 h2
        exact List.any_eq_true.2 ⟨e, he, by simp⟩
    · rw [if_neg]
      · constructor
        · intro h; cases h; exact ⟨by omega, h2, rfl⟩
        · rintro ⟨-, -, rfl⟩; rfl
      · rw [List.any_eq_true]
        rintro ⟨e, he, hn⟩
        exact h2 (List.mem_map.2 ⟨e, he, by simpa using hn⟩)

theorem finish_ok {es es' : Entries} {ts : List Tok} : finish es ts = .ok es' ↔ es' = es ∧ ∃ rest, ts = .semicolon :: rest := by
  cases ts with
  | nil => exact ⟨nofun, fun ⟨_, r, h⟩ => nomatch h⟩
  | cons t ts => cases t <;> simp [finish, eq_comm]

theorem next_ok {p v : Int} : next p = .ok v ↔ p ≠ 2 ^ 63 - 1 ∧ v = p + 1 := by
  unfold next
  split
  · rename_i h; exact ⟨nofun, fun h' => absurd h h'.1⟩
  · rename_i h
    constructor
    · intro h'; cases h'; exact ⟨h, rfl⟩
    · rintro ⟨-, rfl⟩; rfl

/-- What is accepted, starting behind the entries `es` the last of which has value `p`. -/
structure Accepted (es : Entries) (p : Int) (ds : List Decl) (rest : List Tok) (ts : List Tok) (out : Entries) : Prop where
  ne : ds ≠ []
  text : ts = list ds ++ .semicolon :: rest
  names : (es.map Prod.fst ++ ds.map Decl.name).Nodup
  ascending : Ascending p (values p ds)
  fits : Fits p ds
  out : out = es ++ (ds.map Decl.name).zip (values p ds)

theorem Accepted.one {es : Entries} {p : Int} {d : Decl} {rest : List Tok} (hes : (es.map Prod.fst).Nodup)
    (hn : d.name ∉ es.map Prod.fst) (hp : p < d.valueAfter p) (hf : d.value = none → p ≠ 2 ^ 63 - 1) :
    Accepted es p [d] rest (d.tokens ++ .semicolon :: rest) (es ++ [(d.name, d.valueAfter p)]) where
  ne := by simp
  text := rfl
  names := by
    rw [List.nodup_append]
    refine ⟨hes, by simp, ?_⟩
    rintro a ha b hb rfl
    simp only [List.map_cons, List.map_nil, List.mem_singleton] at hb
    exact hn (hb ▸ ha)
  ascending := ⟨hp, trivial⟩
  fits := ⟨hf, trivial⟩
  out := rfl

theorem Accepted.cons {es : Entries} {p : Int} {d : Decl} {ds : List Decl} {rest ts : List Tok} {out : Entries}
    (hp : p < d.valueAfter p) (hf : d.value = none → p ≠ 2 ^ 63 - 1)
    (h : Accepted (es ++ [(d.name, d.valueAfter p)]) (d.valueAfter p) ds rest ts out) :
    Accepted es p (d :: ds) rest (d.tokens ++ .comma :: ts) out where
  ne := by simp
  text := by
    obtain ⟨hne, ht, -⟩ := h
    cases ds with
    | nil => exact absurd rfl hne
    | cons d' ds => rw [ht]; simp [list]
  names := by simpa using h.names
  ascending := ⟨hp, h.ascending⟩
  fits := ⟨hf, h.fits⟩
  out := by rw [h.out]; simp [values]

theorem grow {es : Entries} {n : String} {v : Int} (h : (es.map Prod.fst).Nodup) (hn : n ∉ es.map Prod.fst) :
    ((es ++ [(n, v)]).map Prod.fst).Nodup := by
  rw [List.map_append, List.nodup_append]
  refine ⟨h, by simp, ?_⟩
  rintro a ha b hb rfl
  simp only [List.map_cons, List.map_nil, List.mem_singleton] at hb
  exact hn (hb ▸ ha)

theorem buildEnum_sound (ts : List Tok) (es : Entries) (p q : Int) (out : Entries) (hq : p = q) (hes : (es.map Prod.fst).Nodup)
    (h : buildEnum es p q ts = .ok out) : ∃ ds rest, Accepted es p ds rest ts out := by
  fun_induction buildEnum es p q ts
  case case2 es p q n c t ts es' hd ih =>
    obtain ⟨h1, h2, rfl⟩ := define_ok.1 hd
    obtain ⟨ds, rest, ha⟩ := ih rfl (grow hes h2) h
    exact ⟨_, rest, Accepted.cons (d := ⟨n, some c⟩) h1 nofun ha⟩
  case case4 es p q n c ts _ es' hd =>
    obtain ⟨h1, h2, rfl⟩ := define_ok.1 hd
    obtain ⟨rfl, rest, rfl⟩ := finish_ok.1 h
    exact ⟨_, rest, Accepted.one (d := ⟨n, some c⟩) hes h2 h1 nofun⟩
  case case10 es p q n t ts v hv es' hd ih =>
    obtain ⟨h1, h2, rfl⟩ := define_ok.1 hd
    obtain ⟨h3, rfl⟩ := next_ok.1 hv
    subst hq
    obtain ⟨ds, rest, ha⟩ := ih rfl (grow hes h2) h
    exact ⟨_, rest, Accepted.cons (d := ⟨n, none⟩) h1 (fun _ => h3) ha⟩
  case case13 =>
    rename_i n t ts _ _ _ _ _ v hv es' hd
    obtain ⟨h1, h2, rfl⟩ := define_ok.1 hd
    obtain ⟨h3, rfl⟩ := next_ok.1 hv
    subst hq
    obtain ⟨rfl, rest, h⟩ := finish_ok.1 h
    rw [h]
    exact ⟨_, rest, Accepted.one (d := ⟨n, none⟩) hes h2 h1 (fun _ => h3)⟩
  all_goals cases h

theorem list_head (d : Decl) (ds : List Decl) : ∃ t, list (d :: ds) = .ident d.name :: t := by
  cases ds with
  | nil => unfold list Decl.tokens; split <;> exact ⟨_, rfl⟩
  | cons d' ds => rw [list]; unfold Decl.tokens; split <;> exact ⟨_, rfl⟩

theorem buildEnum_complete : ∀ (ds : List Decl) (es : Entries) (p : Int) (rest : List Tok), ds ≠ [] →
    (es.map Prod.fst ++ ds.map Decl.name).Nodup → Ascending p (values p ds) → Fits p ds →
    buildEnum es p p (list ds ++ .semicolon :: rest) = .ok (es ++ (ds.map Decl.name).zip (values p ds)) := by
  intro ds
  induction ds with
  | nil => intro es p rest h; exact absurd rfl h
  | cons d ds ih =>
    intro es p rest _ hn ha hf
    obtain ⟨ha1, ha2⟩ := ha
    obtain ⟨hf1, hf2⟩ := hf
    have hname : d.name ∉ es.map Prod.fst := by
      intro h
      exact (List.nodup_append.1 hn).2.2 _ h d.name (by simp) rfl
    have hdef : ∀ ts, define es p (d.valueAfter p) d.name ts = .ok (es ++ [(d.name, d.valueAfter p)]) :=
      fun ts => define_ok.2 ⟨ha1, hname, rfl⟩
    cases ds with
    | nil =>
      cases hv : d.value with
      | none =>
        have hva : d.valueAfter p = p + 1 := by simp [Decl.valueAfter, hv]
        rw [hva] at hdef
        simp only [list, Decl.tokens, hv, List.cons_append, List.nil_append]
        rw [buildEnum, next_ok.2 ⟨hf1 hv, rfl⟩]
        · dsimp only
          rw [hdef]
          simp [finish, values, hva]
        all_goals simp
      | some c =>
        have hva : d.valueAfter p = Str.stringToInt c := by simp [Decl.valueAfter, hv]
        rw [hva] at hdef
        simp only [list, Decl.tokens, hv, List.cons_append, List.nil_append]
        rw [buildEnum, hdef]
        · simp [finish, values, hva]
        · nofun
    | cons d' ds =>
      have ih := ih (es ++ [(d.name, d.valueAfter p)]) (d.valueAfter p) rest (by simp) (by simpa using hn) ha2 hf2
      obtain ⟨t, ht⟩ := list_head d' ds
      cases hv : d.value with
      | none =>
        have hva : d.valueAfter p = p + 1 := by simp [Decl.valueAfter, hv]
        simp only [list, Decl.tokens, hv, List.cons_append, List.nil_append]
        rw [ht, List.cons_append] at ih ⊢
        rw [hva] at hdef ih
        rw [buildEnum, next_ok.2 ⟨hf1 hv, rfl⟩]
        dsimp only
        rw [hdef]
        dsimp only
        rw [ih]
        simp [values, hva]
      | some c =>
        have hva : d.valueAfter p = Str.stringToInt c := by simp [Decl.valueAfter, hv]
        simp only [list, Decl.tokens, hv, List.cons_append, List.nil_append]
        rw [ht, List.cons_append] at ih ⊢
        rw [hva] at hdef ih
        rw [buildEnum, hdef]
        dsimp only
        rw [ih]
        simp [values, hva]

/-- **C50**.  A declaration is accepted exactly if it is a list of entries with different names, a semicolon, and
the values, given or counted on from the entry before (from 0 at the beginning), are ascending; the members of
the enumeration are these entries with these values. -/
theorem enum_members (ts : List Tok) (es : Entries) : enumOf ts = .ok es ↔
    ∃ ds rest, ds ≠ [] ∧ ts = list ds ++ .semicolon :: rest ∧ (ds.map Decl.name).Nodup ∧
      Ascending (-1) (values (-1) ds) ∧ Fits (-1) ds ∧ es = (ds.map Decl.name).zip (values (-1) ds) := by
  constructor
  · intro h
    obtain ⟨ds, rest, ha⟩ := buildEnum_sound ts [] (-1) (-1) es rfl (by simp) h
    exact ⟨ds, rest, ha.ne, ha.text, by simpa using ha.names, ha.ascending, ha.fits, by simpa using ha.out⟩
  · rintro ⟨ds, rest, h1, rfl, h2, h3, h4, rfl⟩
    have := buildEnum_complete ds [] (-1) rest h1 (by simpa using h2) h3 h4
    simpa [enumOf] using this

theorem Ascending.pairwise : ∀ {vs : List Int} {p : Int}, Ascending p vs → (p :: vs).Pairwise (· < ·)
  | [], p, _ => by simp
  | v :: vs, p, ⟨h1, h2⟩ => by
    have := Ascending.pairwise h2
    rw [List.pairwise_cons]
    refine ⟨?_, this⟩
    intro x hx
    rcases List.mem_cons.1 hx with rfl | hx
    · exact h1
    · exact Int.lt_trans h1 ((List.pairwise_cons.1 this).1 x hx)

theorem values_length (p : Int) (ds : List Decl) : (values p ds).length = ds.length := by
  induction ds generalizing p with
  | nil => rfl
  | cons d ds ih => simp [values, ih]

/-- **C50**.  The values of an accepted enumeration are not negative and strictly ascending in the order of the
declaration. -/
theorem enum_ascending {ts : List Tok} {es : Entries} (h : enumOf ts = .ok es) :
    (es.map Prod.snd).Pairwise (· < ·) ∧ ∀ v ∈ es.map Prod.snd, 0 ≤ v := by
  obtain ⟨ds, rest, -, -, -, h4, -, rfl⟩ := (enum_members ts es).1 h
  rw [List.map_snd_zip (by rw [values_length]; simp)]
  have := List.pairwise_cons.1 h4.pairwise
  exact ⟨this.2, fun v hv => by have := this.1 v hv; omega⟩

/-- **C50**.  Names and values of an accepted enumeration are unique. -/
theorem enum_unique {ts : List Tok} {es : Entries} (h : enumOf ts = .ok es) :
    (es.map Prod.fst).Nodup ∧ (es.map Prod.snd).Nodup := by
  refine ⟨?_, (enum_ascending h).1.imp fun h => by omega⟩
  obtain ⟨ds, rest, -, -, h3, -, -, rfl⟩ := (enum_members ts es).1 h
  rw [List.map_fst_zip (by rw [values_length]; simp)]
  exact h3

/-- **C50**.  A value given in decimal digits is that number. -/
theorem explicit_value (p : Int) (name : String) (n : Nat) (h : n < 2 ^ 63) : Decl.valueAfter p ⟨name, some (Str.natDigits n)⟩ = n := by
  show Str.stringToInt (Str.natDigits n) = n
  rw [Expr.stringToInt_digits (Str.natDigits_isDigit n) (Str.natDigits_ne_nil n), Str.digitsVal_natDigits]
  unfold Str.clamp64
  omega

/-- `enum E { A, B = 5, C; }` -/
example : enumOf [.ident "A", .comma, .ident "B", .assign, .int ['5'], .comma, .ident "C", .semicolon] = .ok [("A", 0), ("B", 5), ("C", 6)] := by
  rw [enum_members]
  exact ⟨[⟨"A", none⟩, ⟨"B", some ['5']⟩, ⟨"C", none⟩], [], by decide, rfl, by decide,
    by simp [values, Ascending, Decl.valueAfter, show Str.stringToInt ['5'] = 5 from rfl],
    by simp [Fits, Decl.valueAfter, show Str.stringToInt ['5'] = 5 from rfl], rfl⟩

/-! ## C89: declarations that are not accepted -/

theorem define_undefined {es : Entries} {p v : Int} {n : String} {rest : List Tok} (h : define es p v n rest = .error .undefined) : rest = [] := by
  unfold define at h
  split at h
  · cases rest with
    | nil => rfl
    | cons t ts => cases h
  · split at h <;> cases h

theorem finish_undefined {es : Entries} {ts : List Tok} (h : finish es ts = .error .undefined) : ts = [] := by
  cases ts with
  | nil => rfl
  | cons t ts => cases t <;> cases h

theorem next_undefined {v : Int} {e : Err} (h : next v = .error e) : v = 2 ^ 63 - 1 := by
  unfold next at h
  split at h
  · assumption
  · cases h

theorem buildEnum_decided (ts : List Tok) (es : Entries) (p q : Int) (hi : ∀ c, Tok.int c ∈ ts → Str.stringToInt c + ts.length < 2 ^ 63)
    (hq : q + ts.length < 2 ^ 63) (hs : Tok.semicolon ∈ ts) : buildEnum es p q ts ≠ .error .undefined := by
  fun_induction buildEnum es p q ts
  case case1 => cases hs
  case case2 es p q n c t ts es' hd ih =>
    have hc := hi c (by simp)
    simp only [List.length_cons] at hi hc ih
    refine ih (fun c' hc' => ?_) (by omega) (by simpa using hs)
    have := hi c' (by simp only [List.mem_cons] at hc' ⊢; simp [hc'])
    omega
  case case3 => rename_i hd; intro h; cases h; exact absurd (define_undefined hd) (by simp)
  case case4 => intro h; have := finish_undefined h; subst this; simp at hs
  case case5 => rename_i hd; intro h; cases h; have := define_undefined hd; subst this; simp at hs
  case case6 => simp at hs
  case case7 => nofun
  case case8 => simp at hs
  case case9 => rename_i hv; have := next_undefined hv; simp only [List.length_cons] at hq; omega
  case case10 es p q n t ts v hv es' hd ih =>
    have hv := (next_ok.1 hv).2
    simp only [List.length_cons] at hi ih hq
    refine ih (fun c' hc' => ?_) (by omega) (by simpa using hs)
    have := hi c' (by simp only [List.mem_cons] at hc' ⊢; simp [hc'])
    omega
  case case11 => rename_i hd; intro h; cases h; exact absurd (define_undefined hd) (by simp)
  case case12 => rename_i hv; have := next_undefined hv; simp only [List.length_cons] at hq; omega
  case case13 => intro h; exact absurd (finish_undefined h) (by simp)
  case case14 => rename_i hd; intro h; cases h; exact absurd (define_undefined hd) (by simp)
  case case15 => nofun

/-- **C89** (partial).  A declaration with a semicolon is accepted or rejected with an error, if no value comes
near the largest number.
Missing: a list of entries without a semicolon, and the empty declaration: they read behind the end of the
token list (`enum_without_semicolon_refuted`); counting beyond the largest number
(`enum_overflow_refuted`). -/
theorem enum_decided_partial {ts : List Tok} (hi : ∀ c, Tok.int c ∈ ts → Str.stringToInt c + ts.length < 2 ^ 63) (hl : ts.length < 2 ^ 63)
    (hs : Tok.semicolon ∈ ts) : enumOf ts ≠ .error .undefined :=
  buildEnum_decided ts [] (-1) (-1) hi (by omega) hs

example : ∃ ts : List Tok, (∀ c, Tok.int c ∈ ts → Str.stringToInt c + ts.length < 2 ^ 63) ∧ ts.length < 2 ^ 63 ∧ Tok.semicolon ∈ ts ∧
    enumOf ts = .error .syntax :=
  ⟨[.ident "A", .assign, .int ['1'], .comma, .ident "B", .assign, .int ['1'], .semicolon], by
    intro c hc
    simp at hc
    subst hc
    decide, by decide, by decide, rfl⟩

theorem buildEnum_list : ∀ (ds : List Decl) (es : Entries) (p : Int), ds ≠ [] → (es.map Prod.fst ++ ds.map Decl.name).Nodup →
    Ascending p (values p ds) → Fits p ds → buildEnum es p p (list ds) = .error .undefined := by
  intro ds
  induction ds with
  | nil => intro es p h; exact absurd rfl h
  | cons d ds ih =>
    intro es p _ hn ha hf
    obtain ⟨ha1, ha2⟩ := ha
    obtain ⟨hf1, hf2⟩ := hf
    have hname : d.name ∉ es.map Prod.fst := by
      intro h
      exact (List.nodup_append.1 hn).2.2 _ h d.name (by simp) rfl
    have hdef : ∀ ts, define es p (d.valueAfter p) d.name ts = .ok (es ++ [(d.name, d.valueAfter p)]) :=
      fun ts => define_ok.2 ⟨ha1, hname, rfl⟩
    cases ds with
    | nil =>
      cases hv : d.value with
      | none => simp [list, Decl.tokens, hv, buildEnum]
      | some c =>
        have hva : d.valueAfter p = Str.stringToInt c := by simp [Decl.valueAfter, hv]
        rw [hva] at hdef
        simp [list, Decl.tokens, hv, buildEnum, hdef, finish]
    | cons d' ds =>
      have ih := ih (es ++ [(d.name, d.valueAfter p)]) (d.valueAfter p) (by simp) (by simpa using hn) ha2 hf2
      obtain ⟨t, ht⟩ := list_head d' ds
      cases hv : d.value with
      | none =>
        have hva : d.valueAfter p = p + 1 := by simp [Decl.valueAfter, hv]
        simp only [list, Decl.tokens, hv, List.cons_append, List.nil_append]
        rw [ht] at ih ⊢
        rw [hva] at hdef ih
        rw [buildEnum, next_ok.2 ⟨hf1 hv, rfl⟩]
        dsimp only
        rw [hdef]
        exact ih
      | some c =>
        have hva : d.valueAfter p = Str.stringToInt c := by simp [Decl.valueAfter, hv]
        simp only [list, Decl.tokens, hv, List.cons_append, List.nil_append]
        rw [ht] at ih ⊢
        rw [hva] at hdef ih
        rw [buildEnum, hdef]
        exact ih

/-- Without the semicolon, which may be omitted, every correct list of entries reads behind the end of the token
list; so does the empty declaration. -/
theorem enum_without_semicolon_refuted : enumOf [] = .error .undefined ∧ ∀ ds : List Decl, ds ≠ [] → (ds.map Decl.name).Nodup →
    Ascending (-1) (values (-1) ds) → Fits (-1) ds → enumOf (list ds) = .error .undefined :=
  ⟨rfl, fun ds h1 h2 h3 h4 => buildEnum_list ds [] (-1) h1 (by simpa using h2) h3 h4⟩

example : Ascending (-1) (values (-1) [⟨"A", none⟩, ⟨"B", none⟩]) ∧ Fits (-1) [⟨"A", none⟩, ⟨"B", none⟩] := by
  simp [values, Ascending, Decl.valueAfter, Fits]

/-- An entry behind the largest number overflows. -/
theorem enum_overflow_refuted : ∃ ts : List Tok, Tok.semicolon ∈ ts ∧ enumOf ts = .error .undefined :=
  ⟨[.ident "A", .assign, .int "9223372036854775807".toList, .comma, .ident "B", .semicolon], by decide, by rfl⟩

/-- What stands behind a semicolon is ignored without an error, even if it is an entry. -/
theorem enum_rest_ignored {ts : List Tok} {es : Entries} (h : enumOf ts = .ok es) (rest : List Tok) : enumOf (ts ++ rest) = .ok es := by
  obtain ⟨ds, r, h1, rfl, h2⟩ := (enum_members ts es).1 h
  exact (enum_members _ es).2 ⟨ds, r ++ rest, h1, by simp, h2⟩

end Enums
end Verif
