import Verif.Calc.Lexing
import Verif.Calc.Model
import Verif.Expr.Props
import Verif.Types.Props

/-!
# C134: from the text of a formula to its value

The tokenizer, the parser with its type checks and the interpreter together compute what the formula stands for.
-/

namespace Verif.Calc

open Verif.Str (Text)
open Verif.Lex (Tok Ty Cat PlainName)
open Verif.Ints (Op Obj)
open Verif.Expr (Env Syn Pos Lvl Der Plain Ends Sym Kind typed)
open Verif.Types (TName BT)

/-! ## Reading -/

def opLvl : Op → Lvl
  | .add => .arith
  | .sub => .arith
  | _ => .factor

def relTy (r : Rel) : Ty := (relTok r).ty

/-- The syntax tree of a number. -/
def synNum : Num → Syn
  | .num k => .lit .CONST_INTEGER (Str.natDigits k)
  | .var n => .name n
  | .neg a => .prefix .MATH_SUBTRACT (synNum a)
  | .bin op a b => .bin (opLvl op) (opTy op) (synNum a) (synNum b)

/-- The syntax tree of a condition. -/
def synCond : Cond → Syn
  | .cmp r a b => .bin .condition (relTy r) (synNum a) (synNum b)
  | .flag n => .name n
  | .const b => .lit .CONST_BOOLEAN (boolText b)
  | .not c => .prefix .OPERATOR_NOT (synCond c)
  | .and c d => .bin .expression .AND (synCond c) (synCond d)
  | .or c d => .bin .expression .OR (synCond c) (synCond d)

def Place.pos : Place → Pos
  | .atom => .term
  | .signed => .pre
  | .product => .lvl .factor
  | .sum => .lvl .arith

def CPlace.pos : CPlace → Pos
  | .atom => .term
  | .negated => .pre
  | .relation => .lvl .condition
  | _ => .lvl .expression

theorem fin_of_erase {t : Tok} {m : Mark} (h : erase t = fin m) :
    t.ty = (fin m).ty ∧ t.cat = (fin m).cat ∧ t.content = (fin m).content :=
  ⟨(congrArg Tok.ty h :), (congrArg Tok.cat h :), (congrArg Tok.content h :)⟩

theorem split_one {ts : List Tok} {m : Mark} (h : ts.map erase = [m].map fin) : ∃ t, ts = [t] ∧ erase t = fin m := by
  match ts with
  | [] => cases h
  | [t] => exact ⟨t, rfl, by simpa using h⟩
  | _ :: _ :: _ => simp at h

theorem split_cons {ts : List Tok} {m : Mark} {ms : List Mark} (h : ts.map erase = (m :: ms).map fin) :
    ∃ t r, ts = t :: r ∧ erase t = fin m ∧ r.map erase = ms.map fin := by
  match ts with
  | [] => cases h
  | t :: r => simp only [List.map_cons, List.cons.injEq] at h; exact ⟨t, r, rfl, h.1, h.2⟩

theorem split_join {ts : List Tok} {m : Mark} {ms ns : List Mark} (h : ts.map erase = (ms ++ m :: ns).map fin) :
    ∃ x t y, ts = x ++ t :: y ∧ x.map erase = ms.map fin ∧ erase t = fin m ∧ y.map erase = ns.map fin := by
  rw [List.map_append] at h
  obtain ⟨x, z, rfl, hx, hz⟩ := List.map_eq_append_iff.1 h
  obtain ⟨t, y, rfl, ht, hy⟩ := split_cons hz
  exact ⟨x, t, y, rfl, hx, ht, hy⟩

theorem plain_fin {t : Tok} {m : Mark} (h : erase t = fin m) (hm : ender m = false ∨ m = .close) : Plain t := by
  obtain ⟨-, hc, -⟩ := fin_of_erase h
  unfold Plain
  rw [hc]
  cases m with
  | rel r => cases r <;> decide
  | close => decide
  | op o => cases o <;> decide
  | and => decide
  | or => decide
  | not => decide
  | «open» => decide
  | _ => rcases hm with h | h <;> cases h

theorem up_arith {env : Env} {b : Bool} {s : Syn} {ts : List Tok} (h : Der env true (.lvl .arith) b s ts) :
    Der env true (.lvl .expression) b s ts := .up _ _ _ _ (by decide) (.up _ _ _ _ (by decide) h)

theorem num_der (env : Env) {p : Place} {a : Num} {ms : List Mark} (h : SpellsNum p a ms) :
    ∀ ts : List Tok, ts.map erase = ms.map fin → Der env true p.pos false (synNum a) ts := by
  induction h with
  | num k =>
    intro ts hts
    obtain ⟨t, rfl, ht⟩ := split_one hts
    obtain ⟨h1, -, h3⟩ := fin_of_erase ht
    have := Der.lit (env := env) (strict := true) t (by rw [h1]; simp [fin, tok, Expr.literal]; split <;> rfl)
    rw [h1, h3] at this
    exact this
  | var n =>
    intro ts hts
    obtain ⟨t, rfl, ht⟩ := split_one hts
    obtain ⟨h1, -, h3⟩ := fin_of_erase ht
    have := Der.name (env := env) (strict := true) t h1
    rw [h3] at this
    exact this
  | paren _ ih =>
    intro ts hts
    rw [List.cons_append] at hts
    obtain ⟨o, r, rfl, ho, hr⟩ := split_cons hts
    obtain ⟨x, c, y, rfl, hx, hc, hy⟩ := split_join hr
    have : y = [] := by simpa using hy
    subst this
    exact .paren o c false _ x (fin_of_erase ho).1 (fin_of_erase hc).1
      (fun _ => ⟨plain_fin ho (.inl rfl), plain_fin hc (.inr rfl)⟩) (up_arith (ih x hx))
  | neg _ ih =>
    intro ts hts
    obtain ⟨o, r, rfl, ho, hr⟩ := split_cons hts
    have := Der.prefix o false _ r (.inr (.inl (fin_of_erase ho).1)) (ih r hr)
    rw [(fin_of_erase ho).1] at this
    exact this
  | atom _ ih => exact fun ts hts => .pre _ _ _ (ih ts hts)
  | product hop ha hb iha ihb =>
    rename_i op a b ms ns
    intro ts hts
    obtain ⟨x, o, y, rfl, hx, ho, hy⟩ := split_join hts
    have h1 := (fin_of_erase ho).1
    have := Der.bin .factor o false false _ _ x y (by rw [h1]; rcases hop with rfl | rfl | rfl <;> decide)
      (fun _ => ⟨rfl, plain_fin ho (.inl rfl)⟩) (iha x hx) (.infix _ _ _ (.post _ _ _ (ihb y hy)))
    rw [h1] at this
    rw [show synNum (.bin op a b) = .bin .factor (opTy op) (synNum a) (synNum b) by rcases hop with rfl | rfl | rfl <;> rfl]
    exact this
  | signed _ ih => exact fun ts hts => .up .factor _ _ _ (by decide) (.infix _ _ _ (.post _ _ _ (ih ts hts)))
  | sum hop ha hb iha ihb =>
    rename_i op a b ms ns
    intro ts hts
    obtain ⟨x, o, y, rfl, hx, ho, hy⟩ := split_join hts
    have h1 := (fin_of_erase ho).1
    have := Der.bin .arith o false false _ _ x y (by rw [h1]; rcases hop with rfl | rfl <;> decide)
      (fun _ => ⟨rfl, plain_fin ho (.inl rfl)⟩) (iha x hx) (ihb y hy)
    rw [h1] at this
    rw [show synNum (.bin op a b) = .bin .arith (opTy op) (synNum a) (synNum b) by rcases hop with rfl | rfl <;> rfl]
    exact this
  | factor _ ih => exact fun ts hts => .up .arith _ _ _ (by decide) (ih ts hts)

theorem up_pre {env : Env} {b : Bool} {s : Syn} {ts : List Tok} (h : Der env true .pre b s ts) :
    Der env true (.lvl .condition) b s ts :=
  .up _ _ _ _ (by decide) (.up _ _ _ _ (by decide) (.up _ _ _ _ (by decide) (.infix _ _ _ (.post _ _ _ h))))

theorem cond_der (env : Env) {p : CPlace} {c : Cond} {ms : List Mark} (h : SpellsCond p c ms) :
    ∀ ts : List Tok, ts.map erase = ms.map fin → Der env true p.pos false (synCond c) ts := by
  induction h with
  | flag n =>
    intro ts hts
    obtain ⟨t, rfl, ht⟩ := split_one hts
    obtain ⟨h1, -, h3⟩ := fin_of_erase ht
    have := Der.name (env := env) (strict := true) t h1
    rw [h3] at this
    exact this
  | const b =>
    intro ts hts
    obtain ⟨t, rfl, ht⟩ := split_one hts
    obtain ⟨h1, -, h3⟩ := fin_of_erase ht
    have := Der.lit (env := env) (strict := true) t (by rw [h1]; simp [fin, tok, Expr.literal])
    rw [h1, h3] at this
    exact this
  | paren _ ih =>
    intro ts hts
    rw [List.cons_append] at hts
    obtain ⟨o, r, rfl, ho, hr⟩ := split_cons hts
    obtain ⟨x, c, y, rfl, hx, hc, hy⟩ := split_join hr
    have : y = [] := by simpa using hy
    subst this
    exact .paren o c false _ x (fin_of_erase ho).1 (fin_of_erase hc).1
      (fun _ => ⟨plain_fin ho (.inl rfl), plain_fin hc (.inr rfl)⟩) (ih x hx)
  | not _ ih =>
    intro ts hts
    obtain ⟨o, r, rfl, ho, hr⟩ := split_cons hts
    have := Der.prefix o false _ r (.inr (.inr (fin_of_erase ho).1)) (ih r hr)
    rw [(fin_of_erase ho).1] at this
    exact this
  | atom _ ih => exact fun ts hts => .pre _ _ _ (ih ts hts)
  | cmp ha hb =>
    rename_i r a b ms ns
    intro ts hts
    obtain ⟨x, o, y, rfl, hx, ho, hy⟩ := split_join hts
    have h1 := (fin_of_erase ho).1
    have := Der.bin .condition o false false _ _ x y (by rw [h1]; cases r <;> decide)
      (fun _ => ⟨rfl, plain_fin ho (.inl rfl)⟩) (.up .condition _ _ _ (by decide) (num_der env ha x hx)) (num_der env hb y hy)
    rw [h1] at this
    exact this
  | negated _ ih => exact fun ts hts => up_pre (ih ts hts)
  | and _ _ ihc ihd =>
    intro ts hts
    obtain ⟨x, o, y, rfl, hx, ho, hy⟩ := split_join hts
    have h1 := (fin_of_erase ho).1
    have := Der.bin .expression o false false _ _ x y (by rw [h1]; decide)
      (fun _ => ⟨rfl, plain_fin ho (.inl rfl)⟩) (ihc x hx) (ihd y hy)
    rw [h1] at this
    exact this
  | conjOne _ ih => exact fun ts hts => .up .expression _ _ _ (by decide) (ih ts hts)
  | or _ _ ihc ihd =>
    intro ts hts
    obtain ⟨x, o, y, rfl, hx, ho, hy⟩ := split_join hts
    have h1 := (fin_of_erase ho).1
    have := Der.bin .expression o false false _ _ x y (by rw [h1]; decide)
      (fun _ => ⟨rfl, plain_fin ho (.inl rfl)⟩) (ihc x hx) (ihd y hy)
    rw [h1] at this
    exact this
  | disjOne _ ih => exact fun ts hts => .up .expression _ _ _ (by decide) (ih ts hts)
  | conj _ ih => exact ih
  | disj _ ih => exact ih

/-! ## Types and values -/

/-- The surroundings of a formula: a program that may declare any classes and enumerations.  `int` is a known type, and it has no
methods. -/
structure Setting (env : Env) : Prop where
  table : ∃ ds : List Types.TypeDecl, (∀ d ∈ ds, ∃ n, d.name = .user n) ∧ env.table = Types.initTypes ds Types.builtinTable
  known : env.isType (.b .int32) = true
  plain : ∀ f args, env.classMethod (.b .int32) f args = none

/-- The name stands for a variable of type `int` whose value is the 32-bit number `σ n`. -/
def IsInt (env : Env) (store : Text → Option Val) (σ : Text → Int) (n : Text) : Prop :=
  (∃ c, env.lookup n = some ⟨.var, .b .int32, true, c⟩) ∧ store n = some (.int ⟨.w32, σ n⟩) ∧ (inRange (σ n)).isSome

/-- The name stands for a variable of type `bool` whose value is `φ n`. -/
def IsFlag (env : Env) (store : Text → Option Val) (φ : Text → Bool) (n : Text) : Prop :=
  (∃ c, env.lookup n = some ⟨.var, .b .bool, true, c⟩) ∧ store n = some (.bool (φ n))

/-- The outcome for a number: the value, or undefined behaviour if there is none. -/
def numOut : Option Int → Out
  | some v => .ok (.int ⟨.w32, v⟩)
  | none => .undefined

/-- The outcome for a condition. -/
def condOut : Option Bool → Out
  | some b => .ok (.bool b)
  | none => .undefined

theorem inRange_iff {i v : Int} : inRange i = some v ↔ v = i ∧ Ints.Width.w32.inRange i := by
  simp only [inRange, Ints.Width.inRange, Ints.Width.modulus]
  split
  · rename_i h
    simp only [Option.some.injEq]
    constructor
    · rintro rfl; exact ⟨rfl, by omega⟩
    · rintro ⟨rfl, -⟩; rfl
  · rename_i h
    simp only [reduceCtorEq, false_iff]
    rintro ⟨-, h'⟩
    exact h (by omega)

theorem inRange_fit (i : Int) : Ints.Width.w32.fit i = inRange i := by
  cases h : inRange i with
  | some v => obtain ⟨rfl, hv⟩ := inRange_iff.1 h; exact if_pos hv
  | none =>
    refine if_neg fun h' => ?_
    have := (inRange_iff (v := i)).2 ⟨rfl, h'⟩
    rw [h] at this; cases this

theorem apply_range {op : Op} {x y v : Int} (hx : Ints.Width.w32.inRange x) (hy : Ints.Width.w32.inRange y)
    (h : apply op x y = some v) : Ints.Width.w32.inRange v := by
  cases op with
  | add => exact (inRange_iff.1 h).1 ▸ (inRange_iff.1 h).2
  | sub => exact (inRange_iff.1 h).1 ▸ (inRange_iff.1 h).2
  | mul => exact (inRange_iff.1 h).1 ▸ (inRange_iff.1 h).2
  | div =>
    simp only [apply] at h
    split at h
    · cases h
    · exact (inRange_iff.1 h).1 ▸ (inRange_iff.1 h).2
  | mod =>
    simp only [apply] at h
    split at h
    · cases h
    · rename_i hy0
      cases hq : inRange (x.tdiv y) with
      | none => rw [hq] at h; cases h
      | some q =>
        rw [hq] at h
        obtain ⟨rfl, -⟩ := inRange_iff.1 hq
        simp only [Option.map_some, Option.some.injEq] at h
        rw [← Int.tmod_def] at h
        subst h
        have h1 : (x.tmod y).natAbs ≤ x.natAbs := by
          rw [Int.natAbs_tmod]; exact Nat.mod_le _ _
        have h2 : (x.tmod y).natAbs < y.natAbs := by
          rw [Int.natAbs_tmod]; exact Nat.mod_lt _ (by omega)
        simp only [Ints.Width.inRange, Ints.Width.modulus] at *
        omega

theorem arith_apply {op : Op} {x y : Int} (hx : Ints.Width.w32.inRange x) (hy : Ints.Width.w32.inRange y) :
    Obj.arith ⟨.w32, x⟩ op ⟨.w32, y⟩ = (apply op x y).map (Obj.mk .w32) := by
  simp only [Obj.arith, Ints.Width.promoted, Ints.cast_of_inRange hx, Ints.cast_of_inRange hy]
  cases op with
  | add => simp [Ints.Width.cpp, apply, inRange_fit]
  | sub => simp [Ints.Width.cpp, apply, inRange_fit]
  | mul => simp [Ints.Width.cpp, apply, inRange_fit]
  | div =>
    simp only [Ints.Width.cpp, apply, inRange_fit]
  | mod =>
    simp only [Ints.Width.cpp, apply]
    split
    · rfl
    · cases h : inRange (x.tdiv y) with
      | none =>
        rw [if_neg]
        · rfl
        · intro h'
          have := (inRange_iff (v := x.tdiv y)).2 ⟨rfl, h'⟩
          rw [h] at this; cases this
      | some q =>
        obtain ⟨rfl, hq⟩ := inRange_iff.1 h
        rw [if_pos hq, Int.tmod_def]
        rfl

theorem minus_apply {x : Int} (hx : Ints.Width.w32.inRange x) :
    Obj.minus ⟨.w32, x⟩ = (inRange (-x)).map (Obj.mk .w32) := by
  simp only [Obj.minus, Ints.Width.promoted, Ints.cast_of_inRange hx, Ints.Width.cpp, inRange_fit]
  rw [show x * -1 = -x by omega]

theorem table_type {env : Env} (hs : Setting env) {o : Types.Op} {l r t : BT}
    (h : Types.getType (.b l) o (.b r) Types.builtinTable = .ok (.b t)) :
    Types.getType (.b l) o (.b r) env.table = .ok (.b t) := by
  obtain ⟨ds, hn, e⟩ := hs.table
  rw [e]
  exact (Types.user_types_keep_builtins ds hn l r o _).2 h

/-- The operator is defined on `int` with this result type. -/
theorem arith_type {env : Env} (hs : Setting env) (op : Op) :
    Expr.typeOf env (.b .int32) (opTy op) (.b .int32) = some (.b .int32) := by
  cases op <;> simp only [Expr.typeOf, opTy, Expr.opOf] <;> rw [table_type hs (t := .int32) (by decide +kernel)]

theorem minus_type {env : Env} (hs : Setting env) :
    Expr.typeOf env (.b .int32) .MATH_SUBTRACT (.b .unary) = some (.b .int32) := by
  simp only [Expr.typeOf, Expr.opOf]; rw [table_type hs (t := .int32) (by decide +kernel)]

theorem rel_type {env : Env} (hs : Setting env) (r : Rel) :
    Expr.typeOf env (.b .int32) (Expr.compareOp (relTy r)) (.b .int32) = some (.b .bool) := by
  cases r <;> simp only [Expr.typeOf, relTy, relTok, tok, Expr.compareOp, Expr.opOf] <;>
    rw [table_type hs (t := .bool) (by decide +kernel)]

theorem value_range {env : Env} {store : Text → Option Val} {σ : Text → Int} {a : Num} (hv : ∀ n ∈ a.vars, IsInt env store σ n)
    (hk : ∀ k ∈ a.nums, k < 2 ^ 31) : ∀ v, value σ a = some v → Ints.Width.w32.inRange v := by
  induction a with
  | num k =>
    intro v h
    have := hk k (by simp [Num.nums])
    simp only [value, Option.some.injEq] at h
    subst h
    simp only [Ints.Width.inRange, Ints.Width.modulus]
    omega
  | var n =>
    intro v h
    simp only [value, Option.some.injEq] at h
    subst h
    obtain ⟨-, -, h⟩ := hv n (by simp [Num.vars])
    obtain ⟨w, hw⟩ := Option.isSome_iff_exists.1 h
    exact (inRange_iff.1 hw).2
  | neg a ih =>
    intro v h
    obtain ⟨x, hx, h⟩ := Option.bind_eq_some_iff.1 h
    exact (inRange_iff.1 h).1 ▸ (inRange_iff.1 h).2
  | bin op a b iha ihb =>
    intro v h
    obtain ⟨x, hx, h⟩ := Option.bind_eq_some_iff.1 h
    obtain ⟨y, hy, h⟩ := Option.bind_eq_some_iff.1 h
    exact apply_range (iha (fun n hn => hv n (by simp [Num.vars, hn])) (fun k h => hk k (by simp [Num.nums, h])) x hx)
      (ihb (fun n hn => hv n (by simp [Num.vars, hn])) (fun k h => hk k (by simp [Num.nums, h])) y hy) h

theorem num_eval {env : Env} {store : Text → Option Val} {σ : Text → Int} (hs : Setting env) (a : Num)
    (hv : ∀ n ∈ a.vars, IsInt env store σ n) (hk : ∀ k ∈ a.nums, k < 2 ^ 31) :
    ∃ e, typed env (synNum a) = some e ∧ e.ty = .b .int32 ∧ (e.isSym = true → e.atomicSym = true) ∧
      eval store e = numOut (value σ a) := by
  induction a with
  | num k =>
    have hk := hk k (by simp [Num.nums])
    refine ⟨.lit (.int32 k), ?_, rfl, fun h => by simp [Expr.Expr.isSym] at h, rfl⟩
    have : Expr.literal .CONST_INTEGER (Str.natDigits k) = some (.int32 k) := by
      simp only [Expr.literal]
      rw [Expr.stringToInt_digits (Str.natDigits_isDigit k) (Str.natDigits_ne_nil k), Str.digitsVal_natDigits]
      have : Str.clamp64 k = k := by unfold Str.clamp64; omega
      rw [this, if_pos (by omega)]
    simp [synNum, typed, this]
  | var n =>
    obtain ⟨⟨c, hl⟩, hst, -⟩ := hv n (by simp [Num.vars])
    exact ⟨.sym n ⟨.var, .b .int32, true, c⟩, by simp [synNum, typed, hl], rfl, fun _ => rfl, by simp [eval, hst, value, numOut]⟩
  | neg a ih =>
    obtain ⟨e, h1, h2, -, h4⟩ := ih hv hk
    refine ⟨.unary .MATH_SUBTRACT false e, ?_, h2, fun h => by simp [Expr.Expr.isSym] at h, ?_⟩
    · simp [synNum, typed, h1, Expr.buildPrefix, h2, minus_type hs]
    · simp only [eval, h4, value]
      cases hva : value σ a with
      | none => rfl
      | some x =>
        simp only [numOut, Out.bind, unary, Option.bind_some, minus_apply (value_range (a := a) hv hk x hva)]
        cases inRange (-x) <;> rfl
  | bin op a b iha ihb =>
    have hva : ∀ n ∈ a.vars, IsInt env store σ n := fun n hn => hv n (by simp [Num.vars, hn])
    have hvb : ∀ n ∈ b.vars, IsInt env store σ n := fun n hn => hv n (by simp [Num.vars, hn])
    have hka : ∀ k ∈ a.nums, k < 2 ^ 31 := fun k h => hk k (by simp [Num.nums, h])
    have hkb : ∀ k ∈ b.nums, k < 2 ^ 31 := fun k h => hk k (by simp [Num.nums, h])
    obtain ⟨x, hx1, hx2, hx3, hx4⟩ := iha hva hka
    obtain ⟨y, hy1, hy2, hy3, hy4⟩ := ihb hvb hkb
    refine ⟨.binary (opTy op) x y (.b .int32), ?_, rfl, fun h => by simp [Expr.Expr.isSym] at h, ?_⟩
    · have hb : Expr.buildArith env (opTy op) x y = some (.binary (opTy op) x y (.b .int32)) := by
        simp only [Expr.buildArith, hx2, hy2, arith_type hs]
        rw [if_pos]
        cases h : x.isSym with
        | false => rfl
        | true => simp [hx3 h]
      cases op <;> simp [synNum, typed, hx1, hy1, Expr.build, opLvl, hb]
    · simp only [eval, hx4, hy4, value]
      cases h1 : value σ a with
      | none => rfl
      | some u =>
        cases h2 : value σ b with
        | none => rfl
        | some w =>
          have ho : arithOp (opTy op) = some op := by cases op <;> rfl
          simp only [numOut, Out.bind, binary, ho, arith_apply (value_range hva hka u h1) (value_range hvb hkb w h2),
            Option.bind_some]
          cases apply op u w <;> rfl

theorem cmp_build {env : Env} (hs : Setting env) (r : Rel) {x y : Expr.Expr} (hx : x.ty = .b .int32) (hy : y.ty = .b .int32) :
    Expr.buildCondition env (relTy r) x y =
      some (if r = .ne then .not [] (.boolean .COMPARE_EQUAL x y) else .boolean (relTy r) x y) := by
  have hc : Expr.buildCompare env (relTy r) x y = some (.boolean (Expr.compareOp (relTy r)) x y) := by
    unfold Expr.buildCompare
    rw [hx, hs.plain]
    simp only [Option.isSome_none, Bool.and_false, Bool.false_eq_true, if_false]
    cases r <;> rfl
  simp only [Expr.buildCondition, hx, hy, rel_type hs, hs.known, hc]
  cases r <;> rfl

theorem compare_holds (r : Rel) {x y : Int} (hx : Ints.Width.w32.inRange x) (hy : Ints.Width.w32.inRange y) :
    compare (relTy r) (.int ⟨.w32, x⟩) (.int ⟨.w32, y⟩) = .ok (.bool (r.holds x y)) := by
  cases r <;> simp [compare, relTy, relTok, tok, Rel.holds, Obj.less, Obj.lessEqual, Obj.greater, Obj.greaterEqual, Obj.equal,
    Ints.cast_of_inRange hx, Ints.cast_of_inRange hy] <;> rfl

theorem early_rel (r : Rel) (b : Bool) : early (relTy r) b = none := by cases r <;> cases b <;> rfl

theorem late_rel (r : Rel) (a b : Val) : late (relTy r) a b = compare (relTy r) a b := by cases r <;> rfl

theorem cond_eval {env : Env} {store : Text → Option Val} {σ : Text → Int} {φ : Text → Bool} (hs : Setting env) (c : Cond)
    (hv : ∀ n ∈ c.vars, IsInt env store σ n) (hf : ∀ n ∈ c.flags, IsFlag env store φ n) (hk : ∀ k ∈ c.nums, k < 2 ^ 31) :
    ∃ e, typed env (synCond c) = some e ∧ e.ty = .b .bool ∧ eval store e = condOut (truth σ φ c) := by
  induction c with
  | flag n =>
    obtain ⟨⟨c, hl⟩, hst⟩ := hf n (by simp [Cond.flags])
    exact ⟨.sym n ⟨.var, .b .bool, true, c⟩, by simp [synCond, typed, hl], rfl, by simp [eval, hst, truth, condOut]⟩
  | const b =>
    refine ⟨.lit (.bool b), ?_, rfl, rfl⟩
    cases b <;> rfl
  | not c ih =>
    obtain ⟨e, h1, h2, h3⟩ := ih hv hf hk
    refine ⟨.not ['!'] e, by simp [synCond, typed, h1, Expr.buildPrefix], rfl, ?_⟩
    simp only [eval, h3, truth]
    cases truth σ φ c <;> rfl
  | and c d ihc ihd =>
    obtain ⟨x, hx1, -, hx3⟩ := ihc (fun n h => hv n (by simp [Cond.vars, h])) (fun n h => hf n (by simp [Cond.flags, h]))
      (fun k h => hk k (by simp [Cond.nums, h]))
    obtain ⟨y, hy1, -, hy3⟩ := ihd (fun n h => hv n (by simp [Cond.vars, h])) (fun n h => hf n (by simp [Cond.flags, h]))
      (fun k h => hk k (by simp [Cond.nums, h]))
    refine ⟨.boolean .AND x y, by simp [synCond, typed, hx1, hy1, Expr.build], rfl, ?_⟩
    simp only [eval, hx3, hy3, truth]
    cases truth σ φ c with
    | none => rfl
    | some u => cases u <;> cases truth σ φ d <;> rfl
  | or c d ihc ihd =>
    obtain ⟨x, hx1, -, hx3⟩ := ihc (fun n h => hv n (by simp [Cond.vars, h])) (fun n h => hf n (by simp [Cond.flags, h]))
      (fun k h => hk k (by simp [Cond.nums, h]))
    obtain ⟨y, hy1, -, hy3⟩ := ihd (fun n h => hv n (by simp [Cond.vars, h])) (fun n h => hf n (by simp [Cond.flags, h]))
      (fun k h => hk k (by simp [Cond.nums, h]))
    refine ⟨.boolean .OR x y, by simp [synCond, typed, hx1, hy1, Expr.build], rfl, ?_⟩
    simp only [eval, hx3, hy3, truth]
    cases truth σ φ c with
    | none => rfl
    | some u => cases u <;> cases truth σ φ d <;> rfl
  | cmp r a b =>
    have hva : ∀ n ∈ a.vars, IsInt env store σ n := fun n hn => hv n (by simp [Cond.vars, hn])
    have hvb : ∀ n ∈ b.vars, IsInt env store σ n := fun n hn => hv n (by simp [Cond.vars, hn])
    have hka : ∀ k ∈ a.nums, k < 2 ^ 31 := fun k h => hk k (by simp [Cond.nums, h])
    have hkb : ∀ k ∈ b.nums, k < 2 ^ 31 := fun k h => hk k (by simp [Cond.nums, h])
    obtain ⟨x, hx1, hx2, -, hx4⟩ := num_eval hs a hva hka
    obtain ⟨y, hy1, hy2, -, hy4⟩ := num_eval hs b hvb hkb
    have key : ∀ q : Rel, eval store (.boolean (relTy q) x y) = condOut (truth σ φ (.cmp q a b)) := by
      intro q
      simp only [eval, hx4, hy4, truth]
      cases h1 : value σ a with
      | none => rfl
      | some u =>
        cases h2 : value σ b with
        | none => simp only [numOut, Out.bind, early_rel]; rfl
        | some w =>
          simp only [numOut, Out.bind, early_rel, late_rel, compare_holds q (value_range hva hka u h1) (value_range hvb hkb w h2)]
          rfl
    refine ⟨if r = .ne then .not [] (.boolean .COMPARE_EQUAL x y) else .boolean (relTy r) x y, ?_, ?_, ?_⟩
    · simp [synCond, typed, hx1, hy1, Expr.build, cmp_build hs r hx2 hy2]
    · split <;> rfl
    · by_cases h : r = .ne
      · subst h
        have := key .eq
        rw [if_pos rfl]
        simp only [eval] at this ⊢
        rw [show relTy .eq = .COMPARE_EQUAL from rfl] at this
        rw [this]
        simp only [truth]
        cases value σ a with
        | none => rfl
        | some u =>
          cases value σ b with
          | none => rfl
          | some w => simp [condOut, Out.bind, unary, Rel.holds]
      · rw [if_neg h]; exact key r

/-! ## The property -/

theorem ends_tail {rest : List Tok} (h : rest.map erase = tail) : Ends rest := by
  match rest with
  | [] => cases h
  | t :: r =>
    simp only [tail, List.map_cons, List.cons.injEq] at h
    have h1 : t.ty = .SEMICOLON := congrArg Tok.ty h.1
    have h2 : t.cat = .none := congrArg Tok.cat h.1
    exact ⟨t, r, rfl, by simp [Plain, h2], by simp [h1, Expr.terminators]⟩

theorem read_formula {env : Env} {s : Syn} {ms : List Mark} {text : Text} {e : Expr.Expr} (hsh : Shape ms) (ha : Apart ms)
    (hl : Laid ms text) (hn : ∀ n ∈ ms.flatMap Mark.names, PlainName n)
    (hd : ∀ ts : List Tok, ts.map erase = ms.map fin → Der env true (.lvl .expression) false s ts) (ht : typed env s = some e) :
    ∃ ts rest, Lex.tokenize text = .ok ts ∧ Expr.parse env ts = .ok e rest ∧ rest.map Tok.ty = [.SEMICOLON, .ENDOFFILE] := by
  obtain ⟨ts, h1, h2⟩ := formula_tokens hsh ha hl hn
  obtain ⟨x, rest, rfl, hx, hr⟩ := List.map_eq_append_iff.1 h2
  refine ⟨_, rest, h1, ?_, ?_⟩
  · rw [Expr.spelling_read (hd x hx) (ends_tail hr), ht]; rfl
  · have := congrArg (List.map Tok.ty) hr
    rw [List.map_map] at this
    exact this

/-- C134: the text of a number formula, however it is laid out and whatever redundant parentheses it has, is accepted up to its
semicolon as an expression of type `int`, and evaluating it gives the number the formula stands for; if there is no such
number, the behaviour is undefined. -/
theorem number_text_partial {env : Env} {store : Text → Option Val} {σ : Text → Int} {a : Num} {ms : List Mark} {text : Text}
    (hset : Setting env) (hsp : SpellsNum .sum a ms) (hl : Laid ms text) (hn : ∀ n ∈ ms.flatMap Mark.names, PlainName n)
    (hv : ∀ n ∈ a.vars, IsInt env store σ n) (hk : ∀ k ∈ a.nums, k < 2 ^ 31) (hap : Apart ms) :
    ∃ ts e rest, Lex.tokenize text = .ok ts ∧ Expr.parse env ts = .ok e rest ∧ rest.map Tok.ty = [.SEMICOLON, .ENDOFFILE] ∧
      e.ty = .b .int32 ∧ eval store e = numOut (value σ a) := by
  obtain ⟨e, h1, h2, -, h4⟩ := num_eval hset a hv hk
  obtain ⟨ts, rest, h5, h6, h7⟩ := read_formula (num_shape hsp) hap hl hn (fun ts h => up_arith (num_der env hsp ts h)) h1
  exact ⟨ts, e, rest, h5, h6, h7, h2, h4⟩

/-- C134, for conditions. -/
theorem condition_text_partial {env : Env} {store : Text → Option Val} {σ : Text → Int} {φ : Text → Bool} {c : Cond}
    {ms : List Mark} {text : Text} (hset : Setting env) (hsp : SpellsCond .any c ms) (hl : Laid ms text)
    (hn : ∀ n ∈ ms.flatMap Mark.names, PlainName n) (hv : ∀ n ∈ c.vars, IsInt env store σ n)
    (hf : ∀ n ∈ c.flags, IsFlag env store φ n) (hk : ∀ k ∈ c.nums, k < 2 ^ 31) (hap : Apart ms) :
    ∃ ts e rest, Lex.tokenize text = .ok ts ∧ Expr.parse env ts = .ok e rest ∧ rest.map Tok.ty = [.SEMICOLON, .ENDOFFILE] ∧
      e.ty = .b .bool ∧ eval store e = condOut (truth σ φ c) := by
  obtain ⟨e, h1, h2, h3⟩ := cond_eval hset c hv hf hk
  obtain ⟨ts, rest, h5, h6, h7⟩ := read_formula (cond_shape hsp) hap hl hn (fun ts h => cond_der env hsp ts h) h1
  exact ⟨ts, e, rest, h5, h6, h7, h2, h3⟩

/-- C134 fails without `Apart`: `u - -v`, laid out in any way, is read as `u--` with `v` left over. -/
theorem minus_minus_refuted {env : Env} {u v text : Text} (hu : PlainName u) (hv : PlainName v)
    (hl : env.lookup u = some ⟨.var, .b .int32, true, false⟩)
    (ht : Laid [.name u, .op .sub, .op .sub, .name v] text) :
    SpellsNum .sum (.bin .sub (.var u) (.neg (.var v))) [.name u, .op .sub, .op .sub, .name v] ∧
    ∃ ts rest, Lex.tokenize text = .ok ts ∧
      Expr.parse env ts = .ok (.unary .OPERATOR_DECREMENT true (.sym u ⟨.var, .b .int32, true, false⟩)) rest ∧
      rest.map Tok.ty = [.IDENTIFIER, .SEMICOLON, .ENDOFFILE] := by
  refine ⟨.sum (.inr rfl) (.factor (.signed (.atom (.var u)))) (.signed (.neg (.var v))), ?_⟩
  obtain ⟨ps, hw, rfl, hf⟩ := ht
  have hr := Lex.tokens_as_written ps hw
  have hraw : (Lex.expect 1 ps ++ [Lex.eof]).map erase =
      [tok .none .IDENTIFIER u, tok .operator .MATH_SUBTRACT ['-'], tok .operator .MATH_SUBTRACT ['-'], tok .none .IDENTIFIER v]
        ++ tail := by
    rw [List.map_append, expect_erase, hf, List.flatMap_append, List.flatMap_assoc]
    have h1 : Mark.pieces (.name u) |>.flatMap pieceToks |> (· = raw (.name u)) := pieceToks_marks (by simpa [Mark.names])
    have h2 : Mark.pieces (.name v) |>.flatMap pieceToks |> (· = raw (.name v)) := pieceToks_marks (by simpa [Mark.names])
    simp only [List.flatMap_cons, h1, h2]
    rfl
  have hm : (Lex.mergeOperators (Lex.mergeAssignments (Lex.expect 1 ps ++ [Lex.eof]))).map erase =
      [tok .none .IDENTIFIER u, tok .operator .OPERATOR_DECREMENT "--".toList, tok .none .IDENTIFIER v] ++ tail := by
    rw [Lex.mergeOperators, mergeLoop_erase, Lex.mergeAssignments, mergeLoop_erase, hraw]
    rfl
  generalize hts : Lex.mergeOperators (Lex.mergeAssignments (Lex.expect 1 ps ++ [Lex.eof])) = ts at hm
  have hty : ts.map Tok.ty = [.IDENTIFIER, .OPERATOR_DECREMENT, .IDENTIFIER, .SEMICOLON, .ENDOFFILE] := by
    have := congrArg (List.map Tok.ty) hm
    rw [List.map_map] at this
    exact this
  have hconst : Lex.NoConst ts := by
    apply Lex.noConst_words
    · rw [hty]; decide
    · rw [hty]; simp [Lex.Adjacent]
  have hword : Lex.NoOperatorWord ts := by
    intro t ht h
    have : Ty.RESERVED_WORD ∈ ts.map Tok.ty := List.mem_map.2 ⟨t, ht, h.1⟩
    rw [hty] at this
    exact absurd this (by decide)
  have htok : Lex.tokenize (Lex.render ps) = .ok ts := by
    rw [Lex.tokenize, hr]
    show Lex.passes (Lex.expect 1 ps ++ [Lex.eof]) = .ok ts
    simp only [Lex.passes, hts, Lex.replaceConsts_id hconst]
    rw [Lex.replaceOps_id ts [] (by simp [Lex.NoOperatorWord]) hword]
    rfl
  clear hconst hword hty hts hraw hr
  simp only [tail, List.cons_append, List.nil_append, List.map_eq_cons_iff, List.map_eq_nil_iff] at hm
  obtain ⟨t1, -, rfl, h1, t2, -, rfl, h2, t3, -, rfl, h3, t4, -, rfl, h4, t5, -, rfl, h5, rfl⟩ := hm
  have a1 : t1.ty = .IDENTIFIER := congrArg Tok.ty h1
  have a2 : t1.content = u := congrArg Tok.content h1
  have b1 : t2.ty = .OPERATOR_DECREMENT := congrArg Tok.ty h2
  have b2 : t2.cat = .operator := congrArg Tok.cat h2
  have c1 : t3.ty = .IDENTIFIER := congrArg Tok.ty h3
  have d1 : t4.ty = .SEMICOLON := congrArg Tok.ty h4
  have g1 : t5.ty = .ENDOFFILE := congrArg Tok.ty h5
  refine ⟨_, [t3, t4, t5], htok, ?_, by simp [c1, d1, g1]⟩
  generalize hx : Expr.Expr.unary .OPERATOR_DECREMENT true (.sym u ⟨.var, .b .int32, true, false⟩) = x
  have k1 : ∀ n, Expr.parseName env (n + 1) [t1, t2, t3, t4, t5] = .ok x [t3, t4, t5] := by
    intro n
    rw [Expr.parseName.eq_def]
    simp only [Expr.resolve, a1, a2, hl, if_true, Expr.Res.bind, Expr.Res.ofOption, b1, b2]
    simp [Expr.buildIncDec, hx, b1, b2]
  have k2 : ∀ n, Expr.parseTerm env (n + 2) [t1, t2, t3, t4, t5] = .ok x [t3, t4, t5] := by
    intro n
    rw [Expr.parseTerm.eq_def]
    simp only [a1, Expr.literal, if_true, k1]
  have k3 : ∀ n, Expr.parseInfix env (n + 3) [t1, t2, t3, t4, t5] = .ok x [t3, t4, t5] := by
    intro n
    rw [Expr.parseInfix.eq_def]
    simp only [a1, k2, Expr.Res.bind]
    rw [if_neg (by decide), Expr.parsePostfix.eq_def]
    simp [c1, Expr.postLoop]
  have k4 : ∀ n l, l ≠ .infix → Expr.parseLoop env (n + 1) l x [t3, t4, t5] = .ok x [t3, t4, t5] := by
    intro n l hl
    rw [Expr.parseLoop.eq_def]
    simp only [c1]
    rw [if_neg (by revert hl; cases l <;> decide)]
  show Expr.parseLevel env 60 .expression _ = _
  rw [Expr.parseLevel.eq_def]; simp only
  rw [Expr.parseLevel.eq_def]; simp only
  rw [Expr.parseLevel.eq_def]; simp only
  rw [Expr.parseLevel.eq_def]; simp only
  rw [Expr.parseLevel.eq_def]; simp only
  rw [k3 52]
  simp only [Expr.Res.bind]
  rw [k4 55 _ (by decide)]
  simp only
  rw [k4 56 _ (by decide)]
  simp only
  rw [k4 57 _ (by decide)]
  simp only
  rw [k4 58 _ (by decide)]

/-! ## Examples -/

namespace Demo

def classes : List Types.TypeDecl := [⟨.user "Point".toList, false, [], []⟩]

/-- A program with the variables `a`, `b`, `n` and the flag `ok`. -/
def env : Env where
  lookup x := if x = ['a'] ∨ x = ['b'] ∨ x = ['n'] then some ⟨.var, .b .int32, true, false⟩
    else if x = ['o', 'k'] then some ⟨.var, .b .bool, true, false⟩ else none
  table := Types.initTypes classes Types.builtinTable
  isType _ := true
  method _ _ := none
  classMethod _ _ _ := none

def ints (x : Text) : Int := if x = ['a'] then 7 else if x = ['b'] then -3 else 2

def flags (_ : Text) : Bool := true

def store (x : Text) : Option Val :=
  if x = ['o', 'k'] then some (.bool true) else some (.int ⟨.w32, ints x⟩)

theorem setting : Setting env :=
  have h1 : ∃ ds, (∀ d ∈ ds, ∃ n, d.name = .user n) ∧ env.table = Types.initTypes ds Types.builtinTable :=
    ⟨classes, by simp [classes], by simp only [env]⟩
  ⟨h1, rfl, fun _ _ => rfl⟩

/-- `(a + 10) * -(b % 2)`. -/
def formula : Num := .bin .mul (.bin .add (.var ['a']) (.num 10)) (.neg (.bin .mod (.var ['b']) (.num 2)))

def marks : List Mark :=
  [.open, .name ['a'], .op .add, .num 10, .close, .op .mul, .op .sub, .open, .name ['b'], .op .mod, .num 2, .close]

theorem spelled : SpellsNum .sum formula marks :=
  .factor (.product (.inl rfl)
    (.signed (.atom (.paren (.sum (.inl rfl) (.factor (.signed (.atom (.var _)))) (.signed (.atom (.num _)))))))
    (.neg (.paren (.factor (.product (.inr (.inr rfl)) (.signed (.atom (.var _))) (.atom (.num _)))))))

def text : Text := "(a + 10)  // the first factor\n\t* -/* sign */(b % 2) ;".toList

theorem laid : Laid marks text := by
  refine ⟨[.sym '(', .word ['a'], .blank ' ', .sym '+', .blank ' ', .word "10".toList, .sym ')', .blank ' ', .blank ' ',
    .slashes " the first factor".toList, .blank '\t', .sym '*', .blank ' ', .sym '-', .block " sign ".toList, .sym '(', .word ['b'],
    .blank ' ', .sym '%', .blank ' ', .word ['2'], .sym ')', .blank ' ', .sym ';'], ?_, by decide,
    by simp [isGap, marks, Mark.pieces, opChar, Str.natDigits, Str.digitChar]⟩
  simp [Lex.WellFormed, Lex.Piece.Ok, Lex.Follows, Lex.symbols, Lex.whitespaces, Lex.delimiters, Lex.controlChars, Lex.nul,
    Lex.NoClose]

theorem plain_names : ∀ n ∈ [['a'], ['b'], ['n'], ['o', 'k']], PlainName n := by
  unfold PlainName; decide

theorem is_int {x : Text} (h : x = ['a'] ∨ x = ['b'] ∨ x = ['n']) : IsInt env store ints x := by
  rcases h with rfl | rfl | rfl <;> exact ⟨⟨false, rfl⟩, rfl, by decide⟩

/-- The hypotheses of `number_text_partial` are met, and the value is `17 * -(-1)`. -/
example : ∃ ts e rest, Lex.tokenize text = .ok ts ∧ Expr.parse env ts = .ok e rest ∧
    rest.map Tok.ty = [.SEMICOLON, .ENDOFFILE] ∧ e.ty = .b .int32 ∧ eval store e = .ok (.int ⟨.w32, 17⟩) :=
  number_text_partial (a := formula) setting spelled laid (fun n hn => plain_names n (by revert n; decide))
    (fun n hn => is_int (by revert n; decide)) (by decide) (by decide)

/-- `ok && !(a <= b) && n != 0`. -/
def test : Cond := .and (.and (.flag ['o', 'k']) (.not (.cmp .le (.var ['a']) (.var ['b'])))) (.cmp .ne (.var ['n']) (.num 0))

def testMarks : List Mark :=
  [.name ['o', 'k'], .and, .not, .open, .name ['a'], .rel .le, .name ['b'], .close, .and, .name ['n'], .rel .ne, .num 0]

theorem testSpelled : SpellsCond .any test testMarks :=
  .conj (.and (.and (.conjOne (.negated (.atom (.flag _))))
      (.negated (.not (.paren (.conj (.conjOne (.cmp (.factor (.signed (.atom (.var _)))) (.factor (.signed (.atom (.var _)))))))))))
    (.cmp (.factor (.signed (.atom (.var _)))) (.factor (.signed (.atom (.num _))))))

def testText : Text := "ok&&!(a <= b)\n&& n!=0;".toList

theorem testLaid : Laid testMarks testText := by
  refine ⟨[.word ['o', 'k'], .sym '&', .sym '&', .sym '!', .sym '(', .word ['a'], .blank ' ', .sym '<', .sym '=', .blank ' ',
    .word ['b'], .sym ')', .blank '\n', .sym '&', .sym '&', .blank ' ', .word ['n'], .sym '!', .sym '=', .word ['0'], .sym ';'],
    ?_, by decide, by simp [isGap, testMarks, Mark.pieces, relChars, Str.natDigits, Str.digitChar]⟩
  simp [Lex.WellFormed, Lex.Piece.Ok, Lex.Follows, Lex.symbols, Lex.whitespaces, Lex.delimiters, Lex.controlChars, Lex.nul]

/-- The hypotheses of `condition_text_partial` are met. -/
example : ∃ ts e rest, Lex.tokenize testText = .ok ts ∧ Expr.parse env ts = .ok e rest ∧
    rest.map Tok.ty = [.SEMICOLON, .ENDOFFILE] ∧ e.ty = .b .bool ∧ eval store e = .ok (.bool true) :=
  condition_text_partial (φ := flags) (c := test) setting testSpelled testLaid (fun n hn => plain_names n (by revert n; decide))
    (fun n hn => is_int (by revert n; decide))
    (fun n hn => by
      have : n = ['o', 'k'] := by revert n; decide
      subst this; exact ⟨⟨false, rfl⟩, rfl⟩)
    (by decide) (by decide)

/-- The hypotheses of `minus_minus_refuted` are met by `a - -b;`. -/
example : ∃ ts rest, Lex.tokenize "a - -b;".toList = .ok ts ∧
    Expr.parse env ts = .ok (.unary .OPERATOR_DECREMENT true (.sym ['a'] ⟨.var, .b .int32, true, false⟩)) rest ∧
    rest.map Tok.ty = [.IDENTIFIER, .SEMICOLON, .ENDOFFILE] :=
  (minus_minus_refuted (plain_names ['a'] (by decide)) (plain_names ['b'] (by decide)) rfl
    ⟨[.word ['a'], .blank ' ', .sym '-', .blank ' ', .sym '-', .word ['b'], .sym ';'],
      by simp [Lex.WellFormed, Lex.Piece.Ok, Lex.Follows, Lex.symbols, Lex.whitespaces, Lex.delimiters, Lex.controlChars, Lex.nul],
      by decide, by decide⟩).2

end Demo

end Verif.Calc
