import Verif.Decl.Parts

/-! # Parameters, members and methods are read as they are written -/

namespace Verif.Decl

open Verif.Str (Text)
open Verif.Lex (Tok Ty Cat)
open Verif.Expr (Res expect)

/-! ## Values -/

theorem valueFits_iff (i : InitSrc) (type : Text) (t : Tok) (h : ConstTok i.ty i.text t) :
    valueFits i.negative type i.ty i.text = i.fits type := by
  obtain ⟨neg, ty, text⟩ := i
  simp only [ConstTok] at h
  obtain ⟨_, _, h⟩ := h
  by_cases h1 : type = "bool".toList
  · subst h1; rcases h with h | ⟨rfl, rfl⟩
    · simp only [List.mem_cons, List.not_mem_nil, or_false] at h
      rcases h with rfl | rfl | rfl | rfl | rfl <;> simp [valueFits, InitSrc.fits]
    · cases neg <;> decide
  by_cases h2 : type = "string".toList
  · subst h2; rcases h with h | ⟨rfl, rfl⟩
    · simp only [List.mem_cons, List.not_mem_nil, or_false] at h
      rcases h with rfl | rfl | rfl | rfl | rfl <;> simp [valueFits, InitSrc.fits]
    · cases neg <;> decide
  by_cases h3 : type = "double".toList
  · subst h3; rcases h with h | ⟨rfl, rfl⟩
    · simp only [List.mem_cons, List.not_mem_nil, or_false] at h
      rcases h with rfl | rfl | rfl | rfl | rfl <;> simp [valueFits, InitSrc.fits]
    · cases neg <;> decide
  by_cases h4 : type = "float".toList
  · subst h4; rcases h with h | ⟨rfl, rfl⟩
    · simp only [List.mem_cons, List.not_mem_nil, or_false] at h
      rcases h with rfl | rfl | rfl | rfl | rfl <;> simp [valueFits, InitSrc.fits]
    · cases neg <;> decide
  by_cases h5 : type = "int16".toList
  · subst h5; rcases h with h | ⟨rfl, rfl⟩
    · simp only [List.mem_cons, List.not_mem_nil, or_false] at h
      rcases h with rfl | rfl | rfl | rfl | rfl <;> simp [valueFits, InitSrc.fits]
    · cases neg <;> decide
  by_cases h6 : type = "int".toList
  · subst h6; rcases h with h | ⟨rfl, rfl⟩
    · simp only [List.mem_cons, List.not_mem_nil, or_false] at h
      rcases h with rfl | rfl | rfl | rfl | rfl <;> simp [valueFits, InitSrc.fits]
    · cases neg <;> decide
  by_cases h7 : type = "int64".toList
  · subst h7; rcases h with h | ⟨rfl, rfl⟩
    · simp only [List.mem_cons, List.not_mem_nil, or_false] at h
      rcases h with rfl | rfl | rfl | rfl | rfl <;> simp [valueFits, InitSrc.fits]
    · cases neg <;> decide
  by_cases h8 : type = "void".toList
  · subst h8; rcases h with h | ⟨rfl, rfl⟩
    · simp only [List.mem_cons, List.not_mem_nil, or_false] at h
      rcases h with rfl | rfl | rfl | rfl | rfl <;> simp [valueFits, InitSrc.fits]
    · cases neg <;> decide
  have ha : type ∉ atomicTypes := by
    simp only [atomicTypes, List.mem_cons, List.not_mem_nil, or_false, h1, h2, h3, h4, h5, h6, h7, h8, or_self, not_false_eq_true]
  rcases h with h | ⟨rfl, rfl⟩
  · simp only [List.mem_cons, List.not_mem_nil, or_false] at h
    rcases h with rfl | rfl | rfl | rfl | rfl <;>
      simp only [valueFits, InitSrc.fits, h1, h2, h3, h4, h5, h6, h7, h8, if_false, decide_false, Bool.false_and, Bool.or_self, or_self,
        reduceCtorEq]
  · simp only [valueFits, InitSrc.fits, h1, h2, h3, h4, h5, h6, h7, h8, if_false, or_self, ha, decide_false, Bool.not_false, decide_true,
      Bool.true_and]

theorem initialValue_text {i : InitSrc} {ts : List Tok} (h : InitText i ts) (type : Text) (rest : List Tok) :
    initialValue type (ts ++ rest) = if i.fits type then .ok ⟨i.negative, i.ty, i.text⟩ rest else .error := by
  cases h with
  | @plain ty x t h =>
    have hv := valueFits_iff ⟨false, ty, x⟩ type t h
    have hm : t.ty ≠ .MATH_SUBTRACT := by
      rw [h.1]; rcases h.2.2 with h | h
      · intro e; rw [e] at h; revert h; decide
      · rw [h.1]; decide
    simp only [List.cons_append, List.nil_append, initialValue, hm, if_false, value]
    simp only at hv
    rw [h.1, h.2.1, hv]
  | @negative ty x m t hm h =>
    have hv := valueFits_iff ⟨true, ty, x⟩ type t h
    simp only [List.cons_append, List.nil_append, initialValue, hm.1, if_true, value, h.1, h.2.1]
    simp only at hv
    rw [hv]

theorem InitOpt.starts {i : Option InitSrc} {ts rest : List Tok} (h : InitOpt i ts) {tys : List Ty} (hr : Starts tys rest) :
    Starts (.ASSIGN :: tys) (ts ++ rest) := by
  cases h with
  | none => exact hr.mono (by intro x hx; simp [hx])
  | some he _ => exact (he.starts (by decide) _).mono (by simp)

/-! ## Parameters -/

theorem paramName_opt {o : Option Text} {ts rest : List Tok} {tys : List Ty} (h : Opt NameTok o ts) (hr : Starts tys rest)
    (hn : Ty.IDENTIFIER ∉ tys := by decide) : paramName (ts ++ rest) = .ok (o.getD []) rest := by
  cases o with
  | none =>
    cases h
    obtain ⟨t, r, rfl, h1, _⟩ := hr
    have : t.ty ≠ .IDENTIFIER := fun e => hn (e ▸ h1)
    simp [paramName, this]
  | some a =>
    obtain ⟨t, rfl, ht⟩ := h
    simp [paramName, ht.1, ht.2.1]

theorem parameter_text {p : ParamSrc} {ts : List Tok} (h : ParamText p ts) {rest : List Tok}
    (hr : Starts [.COMMA, .PARENTHESIS_CLOSE] rest) : parameter (ts ++ rest) = Res.ofOption (paramOf p) rest := by
  cases h with
  | @mk ty n m a i ht hn hm ha hi hmt =>
    have s1 := hi.starts hr
    have s2 := ha.starts (fun _ _ => refTok_word) s1
    have s3 := hm.starts (fun _ _ => mutTok_word) s2
    have h0 : typeDeclaration (ty ++ (n ++ (m ++ (a ++ (i ++ rest))))) = .ok (typeOf p.type) (n ++ (m ++ (a ++ (i ++ rest)))) := by
      cases hpn : p.name with
      | none =>
        rw [hpn] at hn; cases hn
        rw [hmt hpn] at hm; cases hm
        exact typeDeclaration_text ht s2
      | some x =>
        rw [hpn] at hn
        obtain ⟨t, rfl, hx⟩ := hn
        exact typeDeclaration_text ht (hx.starts _)
    simp only [List.append_assoc, parameter, h0, Res.bind]
    rw [paramName_opt hn s3]
    simp only []
    rw [attr_opt hm (fun _ _ => mutTok) s2]
    simp only []
    rw [accessMode_opt ha _ s1]
    simp only []
    have hname : ∀ x, p.name = some x → x ≠ [] := by
      intro x e e'
      rw [e] at hn
      obtain ⟨t, _, hx⟩ := hn
      exact hx.2.2.2 (by rw [e']; decide)
    generalize hpi : p.init = pi at hi
    cases hi with
    | none =>
      obtain ⟨t, r, rfl, h1, _⟩ := hr
      have : t.ty ≠ .ASSIGN := fun e => by rw [e] at h1; revert h1; decide
      simp [paramDefault, this, paramOf, hpi, initOf, Res.ofOption, typeOf]
    | @some j e ts he hj =>
      simp only [List.cons_append, paramDefault, he.1, if_true]
      cases hpn : p.name with
      | none => simp [paramOf, hpi, hpn, Res.ofOption]
      | some x =>
        simp only [Option.getD_some, hname x hpn, if_false]
        rw [initialValue_text hj]
        simp only [paramOf, hpi, hpn, Option.isSome_some, reduceCtorEq, false_or, true_and, initOf, typeOf]
        by_cases hf : j.fits (dotted p.type.path) = true
        · simp only [hf, if_true]
          rcases hpr : p.ref with _ | _ | _ <;> simp [accessText, Res.ofOption, Res.bind]
        · simp only [hf, if_false]
          rcases hpr : p.ref with _ | _ | _ <;> simp [Res.ofOption, Res.bind]

theorem ParamText.starts {p : ParamSrc} {ts : List Tok} (h : ParamText p ts) : Starts [.IDENTIFIER] ts := by
  cases h with
  | mk ht _ _ _ _ _ => exact ht.starts.append _

theorem paramLoop_commas {ps : List ParamSrc} {ts : List Tok} (h : Commas ParamText ps ts) {c : Tok}
    (hc : Is .PARENTHESIS_CLOSE ")" c) (rest : List Tok) : ∀ (n : Nat) (x : Tok), ts.length ≤ n →
      paramLoop n (x :: (ts ++ c :: rest)) = Res.ofOption (paramsOf ps) (c :: rest) := by
  induction h with
  | @one p ts h =>
    intro n x hn
    obtain ⟨t, r, e, ht, _⟩ := h.starts
    obtain ⟨k, rfl⟩ : ∃ k, n = k + 1 := ⟨n - 1, by rw [e] at hn; simp at hn; omega⟩
    have hp := parameter_text h ((hc.starts (by decide) rest).mono (b := [.COMMA, .PARENTHESIS_CLOSE]))
    simp only [List.mem_singleton] at ht
    rw [e, List.cons_append] at hp ⊢
    simp only [paramLoop, ht, reduceCtorEq, if_false, hp]
    cases hq : paramOf p <;> simp [Res.ofOption, Res.bind, hc.1, paramsOf, hq]
  | @more p ps ts d us h hd _ ih =>
    intro n x hn
    obtain ⟨t, r, e, ht, _⟩ := h.starts
    simp only [List.length_append, List.length_cons] at hn
    obtain ⟨k, rfl⟩ : ∃ k, n = k + 1 := ⟨n - 1, by omega⟩
    have hp := parameter_text h ((hd.starts (by decide) (us ++ c :: rest)).mono (b := [.COMMA, .PARENTHESIS_CLOSE]))
    simp only [List.mem_singleton] at ht
    rw [List.append_assoc, List.cons_append]
    rw [e, List.cons_append] at hp ⊢
    simp only [paramLoop, ht, reduceCtorEq, if_false, hp]
    cases hq : paramOf p with
    | none => simp [Res.ofOption, Res.bind, paramsOf, hq]
    | some q =>
      simp only [Res.ofOption, Res.bind, hd.1, reduceCtorEq, if_false, paramsOf, hq, Option.bind_some]
      rw [ih k d (by omega)]
      cases paramsOf ps <;> simp [Res.ofOption]

theorem parameters_text {ps : List ParamSrc} {ts : List Tok} (h : ParamsText ps ts) {o c : Tok} (ho : Is .PARENTHESIS_OPEN "(" o)
    (hc : Is .PARENTHESIS_CLOSE ")" c) (rest : List Tok) :
    parameters (o :: (ts ++ c :: rest)) = Res.ofOption (paramsOf ps) (c :: rest) := by
  simp only [parameters, ho.1, if_true]
  cases h with
  | none => simp [paramLoop, hc.1, paramsOf, Res.ofOption]
  | some h => exact paramLoop_commas h hc rest _ o (by simp; omega)

/-! ## Members and methods -/

/-- The scope in the model. -/
def Ctx.toWhere : Ctx → Where
  | .space => .space
  | .cls k => .blueprint k
  | .iface k => .blueprint k

/-- The flag of interfaces in the model. -/
def Ctx.isIface : Ctx → Bool
  | .iface _ => true
  | _ => false

theorem toWhere_const (c : Ctx) : c.toWhere = .blueprint true ↔ c.const = true := by cases c <;> simp [Ctx.toWhere, Ctx.const]

theorem toWhere_space (c : Ctx) : c.toWhere = .space ↔ c = .space := by cases c <;> simp [Ctx.toWhere]

theorem member_text {ty : TypeSrc} {n : Text} {m : Option Mut} {r : Option Bool} {i : Option InitSrc} {mt rt it : List Tok} {s : Tok}
    (hm : Opt MutTok m mt) (hr : Opt RefTok r rt) (hi : InitOpt i it) (hs : Is .SEMICOLON ";" s) (c : Ctx) (v : Vis) (l : Layout)
    (f : Feature) (rest : List Tok) : member c.toWhere v l f (typeOf ty) n (mt ++ (rt ++ (it ++ s :: rest))) =
      Res.ofOption (if c.const ∧ m ≠ some .const then none else (initOf (dotted ty.path) i).map fun i =>
        .member v l f (typeOf ty) n (m.getD .modify) (accessText .byValue r) i) (s :: rest) := by
  have s0 := hs.starts (by decide) rest
  have s1 := hi.starts s0
  have s2 := hr.starts (fun _ _ => refTok_word) s1
  simp only [member]
  rw [attr_opt hm (fun _ _ => mutTok) s2]
  simp only [Res.bind]
  rw [accessMode_opt hr _ s1]
  simp only [toWhere_const]
  have hk : (c.const = true ∧ m.getD .modify ≠ .const) ↔ (c.const = true ∧ m ≠ some .const) := by
    cases m <;> simp
  by_cases hq : c.const = true ∧ m ≠ some .const
  · rw [if_pos (hk.2 hq), if_pos hq]; rfl
  · rw [if_neg (fun h => hq (hk.1 h)), if_neg hq]
    cases hi with
    | none => simp [hs.1, initOf, Res.ofOption]
    | @some j e ts he hj =>
      simp only [List.cons_append, he.1, if_true, typeOf]
      rw [initialValue_text hj]
      simp only [initOf]
      by_cases hf : j.fits (dotted ty.path) = true
      · simp [hf, Res.ofOption, hs.1]
      · simp [hf, Res.ofOption]

/-- A block with balanced brackets. -/
theorem block_text {o c : Tok} {b : List Tok} (ho : Is .BRACKET_CURLY_OPEN "{" o)
    (hb : Brackets.Nested .BRACKET_CURLY_OPEN .BRACKET_CURLY_CLOSE b) (hc : Is .BRACKET_CURLY_CLOSE "}" c) (rest : List Tok) :
    block (o :: (b ++ c :: rest)) = .ok b (c :: rest) := by
  simp only [block, Brackets.declaration_block_extracted b rest o c ho.1 hc.1 hb]

theorem BodyText.starts {b : Option (List Tok)} {ts : List Tok} (h : BodyText b ts) : Starts [.BRACKET_CURLY_OPEN, .SEMICOLON] ts := by
  cases h with
  | none hs => exact (hs.starts (by decide) _).mono
  | some ho _ _ => exact (ho.starts (by decide) _).mono

theorem throwsTok_word {a : Bool} {t : Tok} (h : ThrowsTok a t) : t.ty = if a then .MODIFIER else .IDENTIFIER := by
  cases a <;> exact h.1

/-- What is behind the parameters of a method. -/
theorem methodEnd_text {m : Option Mut} {e : Option Bool} {b : Option (List Tok)} {mt et bt : List Tok} (hm : Opt MutTok m mt)
    (he : Opt ThrowsTok e et) (hb : BodyText b bt) (c : Ctx) (v : Vis) (l : Layout) (f : Feature) (ty : TypeDecl) (n : Text)
    (ps : List Param) (kind : MethodKind) (hty : ∀ a ∈ ty.args, a.type ≠ []) (rest : List Tok) :
    ∃ last, methodEnd c.toWhere v l f ty n ps kind (mt ++ (et ++ (bt ++ rest))) =
      Res.ofOption (if c.const ∧ kind = .method ∧ m.getD (if kind = .method then .const else .modify) ≠ .const then none
        else if bodyOk l f b.isSome then
          some (.method v l f ty n ps kind (m.getD (if kind = .method then .const else .modify)) (e.getD false) b)
        else none) (last :: rest) := by
  have s0 := hb.starts.append rest
  have s1 : ∃ t r, et ++ (bt ++ rest) = t :: r ∧ t.ty ≠ .MUTABILITY := by
    cases e with
    | none =>
      cases he
      obtain ⟨t, r, e, h1, -⟩ := s0
      exact ⟨t, r, e, fun e => by rw [e] at h1; revert h1; decide⟩
    | some a =>
      obtain ⟨t, rfl, ht⟩ := he
      exact ⟨t, _, rfl, by rw [throwsTok_word ht]; cases a <;> decide⟩
  simp only [methodEnd]
  rw [attr_next hm (fun _ _ => mutTok) s1]
  simp only [Res.bind]
  rw [exceptions_opt he _ s0]
  simp only [toWhere_const]
  have hany : ty.args.any (fun a => decide (a.type = [])) = false := by
    simpa using hty
  generalize m.getD (if kind = .method then .const else .modify) = mm
  by_cases hq : c.const = true ∧ kind = .method ∧ mm ≠ .const
  · exact ⟨⟨.none, .UNKNOWN, [], 0, false⟩, by rw [if_pos ⟨hq.2.1, hq.1, hq.2.2⟩, if_pos hq]; rfl⟩
  · rw [if_neg (fun h => hq ⟨h.2.1, h.1, h.2.2⟩), if_neg hq]
    cases hb with
    | @none s hs =>
      refine ⟨s, ?_⟩
      by_cases hl : l = .abstr
      · simp [hs.1, hl, hany, bodyOk, Res.ofOption]
      · by_cases hf : f = .notImplemented <;> simp [hs.1, hl, hf, hany, bodyOk, Res.ofOption]
    | @some o b k ho hn hk =>
      refine ⟨k, ?_⟩
      have hbl := block_text ho hn hk rest
      simp only [List.cons_append, List.append_assoc, List.nil_append, ho.1, if_true]
      by_cases hl : l = .abstr
      · simp [hl, bodyOk, Res.ofOption]
      · simp only [hl, if_false, hbl]
        simp [hl, hany, bodyOk, Res.ofOption]

theorem args_named {as : List ArgSrc} {ts : List Tok} (h : ArgsText as ts) : ∀ a ∈ argsOf as, a.type ≠ [] := by
  have one : ∀ {a : ArgSrc} {ts : List Tok}, ArgText a ts → a.name ≠ [] := by
    intro a ts h
    cases h with
    | plain h => intro e; exact h.2.2.2 (by simp only at e; rw [e]; decide)
    | bound h _ _ => intro e; exact h.2.2.2 (by simp only at e; rw [e]; decide)
  cases h with
  | none => simp [argsOf]
  | some _ hc _ =>
    induction hc with
    | one h => simpa [argsOf] using one h
    | more h _ _ ih =>
      simp only [argsOf, List.map_cons, List.mem_cons, forall_eq_or_imp]
      exact ⟨one h, ih⟩

theorem type_named {d : TypeSrc} {ts : List Tok} (h : TypeText d ts) : ∀ a ∈ (typeOf d).args, a.type ≠ [] := by
  cases h with
  | mk _ ha _ => exact args_named ha

/-- A member cannot go on like this. -/
theorem member_error {ts : List Tok} (w : Where) (v : Vis) (l : Layout) (f : Feature) (ty : TypeDecl) (n : Text)
    (h : Starts [.OPERATOR_SCOPE, .COMPARE_LESS, .IDENTIFIER] ts ∨ ∃ m r, ts = m :: r ∧ m.ty = .MUTABILITY ∧ Starts [.IDENTIFIER] r) :
    member w v l f ty n ts = .error := by
  have tail : ∀ (k : Mut) (us : List Tok), Starts [.OPERATOR_SCOPE, .COMPARE_LESS, .IDENTIFIER] us →
      ((accessMode .byValue us).bind fun a ts =>
        if w = .blueprint true ∧ k ≠ .const then (.error : Res Node)
        else match ts with
          | [] => .undefined
          | t :: ts =>
            (if t.ty = .ASSIGN then (initialValue ty.name ts).bind fun i ts => .ok (some i) ts else .ok none (t :: ts)).bind fun i ts =>
              match ts with
              | [] => .undefined
              | s :: ts => if s.ty = .SEMICOLON then .ok (.member v l f ty n k a i) (s :: ts) else .error) = .error := by
    intro k us hs
    have hacc := accessMode_opt (o := none) (ts := []) rfl .byValue hs
    simp only [List.nil_append] at hacc
    obtain ⟨t, r, rfl, h1, _⟩ := hs
    simp only [hacc, Res.bind]
    split
    · rfl
    · have e1 : t.ty ≠ .ASSIGN := fun e => by rw [e] at h1; revert h1; decide
      have e2 : t.ty ≠ .SEMICOLON := fun e => by rw [e] at h1; revert h1; decide
      simp [e1, e2]
  rcases h with h | ⟨m, r, rfl, hm, hs⟩
  · have := attr_opt (P := MutTok) (o := none) (ts := []) (d := .modify) rfl (fun _ _ => mutTok) h
    simp only [List.nil_append] at this
    simp only [member, this]
    exact tail _ _ h
  · simp only [member, attr, hm, if_true]
    exact tail _ _ hs.mono

/-- A type, and what follows it, without the first name. -/
theorem TypeText.second {d : TypeSrc} {tt : List Tok} (h : TypeText d tt) {n : Text} {nt : Tok} (hn : NameTok n nt) (rest : List Tok) :
    ∃ t r, tt ++ nt :: rest = t :: r ∧ (Starts [.OPERATOR_SCOPE, .COMPARE_LESS, .IDENTIFIER] r ∨
      ∃ m r', r = m :: r' ∧ m.ty = .MUTABILITY ∧ Starts [.IDENTIFIER] r') := by
  obtain ⟨path, args, mutab⟩ := d
  cases h with
  | @mk p a m hp ha hm =>
    simp only at hp ha hm
    cases hp with
    | @one x t hx =>
      refine ⟨t, a ++ (m ++ nt :: rest), by simp, ?_⟩
      cases ha with
      | some hl _ _ => exact .inl ((hl.starts (by decide) _).mono)
      | none =>
        cases mutab with
        | none => cases hm; exact .inl (hn.starts _).mono
        | some k =>
          obtain ⟨u, rfl, hu⟩ := hm
          exact .inr ⟨u, nt :: rest, rfl, (mutTok hu).1, hn.starts _⟩
    | @more x t d' ns ts hx hd hp =>
      exact ⟨t, d' :: (ts ++ (a ++ (m ++ nt :: rest))), by simp, .inl ((hd.starts (by decide) _).mono)⟩

/-- A memory layout is no type: such a declaration is rejected where memory layouts are not expected. -/
theorem wrong_layout {l : Layout} {lt : Tok} {f : Option Feature} {ft tt : List Tok} {ty : TypeSrc} {n : Text} {nt : Tok}
    (hl : LayoutTok l lt) (hf : Opt FeatureTok f ft) (ht : TypeText ty tt) (hn : NameTok n nt) (w : Where) (i : Bool) (v : Vis) (l' : Layout)
    (rest : List Tok) :
    ((attr .LANGUAGE_FEATURE_STATE featureOf .stable (lt :: (ft ++ (tt ++ nt :: rest)))).bind fun f ts => (typeDeclaration ts).bind fun ty ts =>
        match ts with
        | [] => .undefined
        | n :: ts =>
          match ts with
          | [] => .undefined
          | t :: ts =>
            if t.ty = .PARENTHESIS_OPEN then methodStub w i v l' f ty n.content (t :: ts)
            else member w v l' f ty n.content (t :: ts)) = .error := by
  have hlt := (layoutTok hl).1
  have key : ∀ x X, Starts [.LANGUAGE_FEATURE_STATE, .IDENTIFIER] (x :: X) →
      (Starts [.OPERATOR_SCOPE, .COMPARE_LESS, .IDENTIFIER] X ∨ ∃ m r', X = m :: r' ∧ m.ty = .MUTABILITY ∧ Starts [.IDENTIFIER] r') →
      ((attr .LANGUAGE_FEATURE_STATE featureOf .stable (lt :: x :: X)).bind fun f ts => (typeDeclaration ts).bind fun ty ts =>
        match ts with
        | [] => .undefined
        | n :: ts =>
          match ts with
          | [] => .undefined
          | t :: ts =>
            if t.ty = .PARENTHESIS_OPEN then methodStub w i v l' f ty n.content (t :: ts)
            else member w v l' f ty n.content (t :: ts)) = .error := by
    intro x X hx hX
    obtain ⟨t, r, e, h1, _⟩ := hx
    cases e
    have e1 : x.ty ≠ .COMPARE_LESS := fun e => by rw [e] at h1; revert h1; decide
    have e2 : x.ty ≠ .MUTABILITY := fun e => by rw [e] at h1; revert h1; decide
    simp only [attr, hlt, reduceCtorEq, if_false, Res.bind, typeDeclaration, identify, typeArgs, e1, e2]
    obtain ⟨t, r, rfl, hp⟩ : ∃ t r, X = t :: r ∧ t.ty ≠ .PARENTHESIS_OPEN := by
      rcases hX with ⟨t, r, rfl, h1, _⟩ | ⟨m, r, rfl, hm, _⟩
      · exact ⟨t, r, rfl, fun e => by rw [e] at h1; revert h1; decide⟩
      · exact ⟨m, r, rfl, by rw [hm]; decide⟩
    simp only [hp, if_false]
    exact member_error _ _ _ _ _ _ hX
  cases f with
  | none =>
    cases hf
    obtain ⟨t, r, e, h2⟩ := ht.second hn rest
    simp only [List.nil_append]
    have hs := ht.starts.append (nt :: rest)
    rw [e] at hs ⊢
    exact key t r hs.mono h2
  | some f =>
    obtain ⟨x, rfl, hx⟩ := hf
    have hx' := featureTok_word hx
    exact key x _ ⟨x, _, rfl, by simp [hx'.1], hx'.2⟩ (.inl (ht.starts.append _).mono)

theorem bind_ok {α β : Type} (a : α) (r : List Tok) (k : α → List Tok → Res β) : (Res.ok a r).bind k = k a r := rfl

/-- The beginning of a member or method. -/
theorem memberOrMethod_head {v : Option Vis} {l : Option Layout} {f : Option Feature} {ty : TypeSrc} {n : Text} {vt lt ft tt : List Tok}
    {nt : Tok} (hv : Opt VisTok v vt) (hl : Opt LayoutTok l lt) (hf : Opt FeatureTok f ft) (ht : TypeText ty tt) (hn : NameTok n nt)
    (c : Ctx) (t : Tok) (rest : List Tok) :
    memberOrMethod c.toWhere c.isIface (vt ++ (lt ++ (ft ++ (tt ++ nt :: t :: rest)))) =
      match layoutIn c l with
      | none => .error
      | some l =>
        if t.ty = .PARENTHESIS_OPEN then
          methodStub c.toWhere c.isIface (v.getD .priv) l (f.getD .stable) (typeOf ty) n (t :: rest)
        else member c.toWhere (v.getD .priv) l (f.getD .stable) (typeOf ty) n (t :: rest) := by
  have s0 := ht.starts.append (nt :: t :: rest)
  have s1 := hf.starts (fun _ _ => featureTok_word) s0
  have s2 := hl.starts (fun _ _ => layoutTok_word) s1
  have htd := typeDeclaration_text ht (hn.starts (t :: rest))
  simp only [memberOrMethod]
  rw [visibility_opt hv _ s2, bind_ok]
  have done : ∀ l', ((attr .LANGUAGE_FEATURE_STATE featureOf .stable (ft ++ (tt ++ nt :: t :: rest))).bind fun f ts =>
      (typeDeclaration ts).bind fun ty ts =>
        match ts with
        | [] => .undefined
        | n :: ts =>
          match ts with
          | [] => .undefined
          | t :: ts =>
            if t.ty = .PARENTHESIS_OPEN then methodStub c.toWhere c.isIface (v.getD .priv) l' f ty n.content (t :: ts)
            else member c.toWhere (v.getD .priv) l' f ty n.content (t :: ts)) =
      if t.ty = .PARENTHESIS_OPEN then
          methodStub c.toWhere c.isIface (v.getD .priv) l' (f.getD .stable) (typeOf ty) n (t :: rest)
        else member c.toWhere (v.getD .priv) l' (f.getD .stable) (typeOf ty) n (t :: rest) := by
    intro l'
    rw [attr_opt hf (fun _ _ => featureTok) s0]
    simp only [Res.bind, htd, hn.2.1]
  cases c with
  | cls k =>
    simp only [Ctx.isIface, Bool.false_eq_true, if_false, Ctx.toWhere, reduceCtorEq, layoutIn]
    rw [attr_opt hl (fun _ _ => layoutTok) s1, bind_ok]
    exact done _
  | space =>
    cases l with
    | none => cases hl; simp only [Ctx.isIface, Ctx.toWhere, layoutIn, bind_ok, if_true, if_false, Bool.false_eq_true]; exact done .stat
    | some l =>
      obtain ⟨x, rfl, hx⟩ := hl
      simp only [Ctx.isIface, Ctx.toWhere, layoutIn, bind_ok, if_true, if_false, Bool.false_eq_true]
      exact wrong_layout hx hf ht hn .space false (v.getD .priv) .stat (t :: rest)
  | iface k =>
    cases l with
    | none => cases hl; simp only [Ctx.isIface, Ctx.toWhere, layoutIn, bind_ok, if_true, if_false, Bool.false_eq_true]; exact done .abstr
    | some l =>
      obtain ⟨x, rfl, hx⟩ := hl
      simp only [Ctx.isIface, Ctx.toWhere, layoutIn, bind_ok, if_true, if_false, Bool.false_eq_true]
      exact wrong_layout hx hf ht hn (.blueprint k) true (v.getD .priv) .abstr (t :: rest)

end Verif.Decl
