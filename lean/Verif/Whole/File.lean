import Verif.Whole.Reading
import Verif.Whole.Sane
import Verif.Whole.Model

/-! # Reading the functions of a file -/

namespace Verif.Whole

open Verif.Str (Text)
open Verif.Lex (Tok Ty Cat PlainName)
open Verif.Calc (erase tok)

/-- The type of the result. -/
def Fun.ty (f : Fun) : Types.TName := if f.isVoid then .b .void else .b .int32

/-- The header of a function whose body consists of these tokens. -/
def headerOf (f : Fun) (b : List Tok) : Header := ⟨f.ty, f.name, f.params.map (·, .b .int32), false, b⟩

/-- The headers of a program whose bodies are written with these tokens. -/
inductive Headers : Program → List Header → Prop where
  | nil : Headers [] []
  | cons {f : Fun} {p : Program} {ms : List Mark} {b : List Tok} {hs : List Header} : Writes f.body ms → Named ms → Toks b ms →
      Headers p hs → Headers (f :: p) (headerOf f b :: hs)

theorem no_names {n : Text} (h : PlainName n) (ht : n ∉ ["extension".toList, "nothrow".toList]) : n ∉ Decl.noNames := by
  intro hn
  have : ∀ w ∈ Decl.noNames, w = [] ∨ w ∈ ["extension".toList, "nothrow".toList] ∨
      Lex.classifyWord w ≠ (.none, .IDENTIFIER, w, false) := by decide
  rcases this n hn with h' | h' | h'
  · exact h.1 h'
  · exact ht h'
  · exact h' h.2.2

theorem usable_no_names {n : Text} (h : Usable n) : n ∉ Decl.noNames :=
  no_names h.1 (fun hn => h.2 (by revert hn; simp [taken]; rintro (h | h) <;> simp [h]))

theorem nameTok {t : Tok} {n : Text} (h : erase t = fin (.name n)) (hn : n ∉ Decl.noNames) : Decl.NameTok n t := by
  obtain ⟨h1, -, h3, h4⟩ := fin_of h
  exact ⟨h1, h3, h4, hn⟩

theorem is_lparen {t : Tok} (h : erase t = fin .lparen) : Decl.Is .PARENTHESIS_OPEN "(" t := by
  obtain ⟨h1, -, h3, h4⟩ := fin_of h
  exact ⟨h1, h3, h4⟩

theorem is_rparen {t : Tok} (h : erase t = fin .rparen) : Decl.Is .PARENTHESIS_CLOSE ")" t := by
  obtain ⟨h1, -, h3, h4⟩ := fin_of h
  exact ⟨h1, h3, h4⟩

theorem is_lcurly {t : Tok} (h : erase t = fin .lcurly) : Decl.Is .BRACKET_CURLY_OPEN "{" t := by
  obtain ⟨h1, -, h3, h4⟩ := fin_of h
  exact ⟨h1, h3, h4⟩

theorem is_rcurly {t : Tok} (h : erase t = fin .rcurly) : Decl.Is .BRACKET_CURLY_CLOSE "}" t := by
  obtain ⟨h1, -, h3, h4⟩ := fin_of h
  exact ⟨h1, h3, h4⟩

theorem is_comma {t : Tok} (h : erase t = fin .comma) : Decl.Is .COMMA "," t := by
  obtain ⟨h1, -, h3, h4⟩ := fin_of h
  exact ⟨h1, h3, h4⟩

/-- A type without arguments. -/
def plainType (n : Text) : Decl.TypeSrc := ⟨[n], [], none⟩

theorem type_text {t : Tok} {n : Text} (h : erase t = fin (.name n)) (hn : n ∉ Decl.noNames) : Decl.TypeText (plainType n) [t] := by
  have := Decl.TypeText.mk (d := plainType n) (m := []) (.one (nameTok h hn)) .none rfl
  simpa using this

/-- `int n`. -/
def paramSrc (n : Text) : Decl.ParamSrc := ⟨plainType "int".toList, some n, none, none, none⟩

theorem param_text {t x : Tok} {n : Text} (ht : erase t = fin (.name "int".toList)) (hx : erase x = fin (.name n))
    (hn : n ∉ Decl.noNames) : Decl.ParamText (paramSrc n) [t, x] := by
  have := Decl.ParamText.mk (p := paramSrc n) (m := []) (a := []) (type_text ht (by decide)) ⟨x, rfl, nameTok hx hn⟩ rfl rfl .none nofun
  simpa using this

theorem params_commas : ∀ {ns : List Text} {ts : List Tok}, ns ≠ [] → (∀ n ∈ ns, n ∉ Decl.noNames) → Toks ts (paramMarks ns) →
    Decl.Commas Decl.ParamText (ns.map paramSrc) ts
  | [], _, h, _, _ => absurd rfl h
  | [n], ts, _, hn, ht => by
    obtain ⟨t, r, rfl, h1, ht⟩ := Toks.cons ht
    obtain ⟨x, r, rfl, h2, ht⟩ := ht.cons
    cases ht.nil
    exact .one (param_text h1 h2 (hn n (by simp)))
  | n :: m :: ns, ts, _, hn, ht => by
    obtain ⟨t, r, rfl, h1, ht⟩ := Toks.cons ht
    obtain ⟨x, r, rfl, h2, ht⟩ := ht.cons
    obtain ⟨c, r, rfl, h3, ht⟩ := ht.cons
    have := Decl.Commas.more (param_text h1 h2 (hn n (by simp))) (is_comma h3)
      (params_commas (ns := m :: ns) nofun (fun n h => hn n (by simp [List.mem_cons.1 h])) ht)
    simpa using this

theorem params_text {ns : List Text} {ts : List Tok} (hn : ∀ n ∈ ns, n ∉ Decl.noNames) (ht : Toks ts (paramMarks ns)) :
    Decl.ParamsText (ns.map paramSrc) ts := by
  cases ns with
  | nil => cases ht.nil; exact .none
  | cons n ns => exact .some (params_commas nofun hn ht)

theorem params_meaning : ∀ ns : List Text, Decl.paramsOf (ns.map paramSrc) =
    some (ns.map fun n => ⟨n, ⟨"int".toList, [], .modify⟩, .modify, .unspecified, none⟩)
  | [] => rfl
  | n :: ns => by simp [Decl.paramsOf, params_meaning ns, Decl.paramOf, paramSrc, plainType, Decl.initOf, Decl.typeOf, Decl.dotted,
      Decl.argsOf, Decl.accessText]

theorem params_types : ∀ ns : List Text, parameterList (ns.map fun n => ⟨n, ⟨"int".toList, [], .modify⟩, .modify, .unspecified, none⟩) =
    some (ns.map (·, .b .int32))
  | [] => rfl
  | n :: ns => by
    have : typeNames.lookup "int".toList = some (.b .int32) := by decide
    simp only [List.map_cons, parameterList, params_types ns, parameter, resolveType, this]
    simp

theorem result_type (f : Fun) : typeNames.lookup f.resultName = some f.ty := by
  unfold Fun.resultName Fun.ty
  cases f.isVoid <;> decide

theorem result_no_name (f : Fun) : f.resultName ∉ Decl.noNames := by
  unfold Fun.resultName
  cases f.isVoid <;> decide

/-- Any site will do where no names are resolved. -/
def anySite : Stmt.Site := site [] ⟨.b .void, [], [], false, []⟩

theorem program_reads {p : Program} {ms : List Mark} (h : WritesProgram p ms) : (∀ f ∈ p, Usable f.name ∧ ∀ n ∈ f.params, Usable n) →
    Named ms → ∀ ts, Toks ts ms → ∃ is ds hs, Decl.SpellsAll is ts ∧ Decl.RegularAll is ∧ Decl.meaningAll .space is = some ds ∧
      headers ds = some hs ∧ Headers p hs := by
  induction h with
  | nil =>
    intro _ _ ts ht
    cases ht.nil
    exact ⟨[], [], [], .nil, trivial, rfl, rfl, .nil⟩
  | @cons f p ms ns hw _ ih =>
    intro hu hn ts ht
    obtain ⟨t, r, rfl, h1, ht⟩ := ht.cons
    obtain ⟨x, r, rfl, h2, ht⟩ := ht.cons
    obtain ⟨o, r, rfl, h3, ht⟩ := ht.cons
    obtain ⟨qs, r, rfl, h4, ht⟩ := ht.append
    obtain ⟨c, r, rfl, h5, ht⟩ := ht.cons
    obtain ⟨l, r, rfl, h6, ht⟩ := ht.cons
    obtain ⟨b, r, rfl, h7, ht⟩ := ht.append
    obtain ⟨z, r, rfl, h8, ht⟩ := ht.cons
    obtain ⟨is, ds, hs, i1, i2, i3, i4, i5⟩ := ih (fun g hg => hu g (by simp [hg])) (fun n h => hn n (by simp [h])) r ht
    have hm : Named ms := fun n h => hn n (by simp [h])
    obtain ⟨u1, u2⟩ := hu f (by simp)
    have hb := (writes_spells anySite hw hm b h7).nc
    have hf := Decl.Spells.method (v := none) (l := none) (f := none) (m := none) (e := none) (vt := []) (lt := []) (ft := []) (mt := [])
      (et := []) rfl rfl rfl (type_text h1 (result_no_name f)) (nameTok h2 (usable_no_names u1)) (is_lparen h3)
      (params_text (fun n h => usable_no_names (u2 n h)) h4) (is_rparen h5) rfl rfl (.some (is_lcurly h6) hb (is_rcurly h8))
    refine ⟨_ :: is, .method .priv .stat .stable ⟨f.resultName, [], .modify⟩ f.name
      (f.params.map fun n => ⟨n, ⟨"int".toList, [], .modify⟩, .modify, .unspecified, none⟩) .method .const false (some b) :: ds,
      headerOf f b :: hs, by simpa using Decl.SpellsAll.cons hf i1, ⟨by simp [Decl.Regular], i2⟩, ?_, ?_, .cons hw hm h7 i5⟩
    · simp only [Decl.meaningAll, Decl.meaning, Decl.layoutIn, params_meaning, i3]
      simp [Decl.kindOf, Decl.Ctx.const, Decl.bodyOk, plainType, Decl.typeOf, Decl.dotted, Decl.argsOf]
    · simp only [headers, header, resolveType, result_type, params_types, i4]
      simp [headerOf]

theorem named_names {ms : List Mark} (h : Named ms) : ∀ n ∈ ms.flatMap Mark.names, PlainName n := by
  intro n hn
  obtain ⟨m, hm, hn⟩ := List.mem_flatMap.1 hn
  cases m with
  | formula m =>
    cases m with
    | name k =>
      simp only [Mark.names, Calc.Mark.names, List.mem_singleton] at hn
      subst hn
      exact h _ hm
    | _ => simp [Mark.names, Calc.Mark.names] at hn
  | _ => simp [Mark.names] at hn

theorem fun_usable {p : Program} (h : WellFormed p) : ∀ f ∈ p, Usable f.name ∧ ∀ n ∈ f.params, Usable n :=
  fun f hf => ⟨(h.funs f hf).name, (h.funs f hf).params⟩

/-- The functions of a written program are found. -/
theorem file_reads_of {p : Program} {ms : List Mark} {text : Text} (hu : ∀ f ∈ p, Usable f.name ∧ ∀ n ∈ f.params, Usable n)
    (hn : Named ms) (h : WritesProgram p ms) (hl : Laid ms text) :
    ∃ ts ds b hs, Lex.tokenize text = .ok ts ∧ Brackets.sane ts = true ∧ Load.ofRes (Decl.analyse ts) = .ok (ds, b) ∧ headers ds = some hs ∧ Headers p hs := by
  obtain ⟨ts, e, h1, h2, h3⟩ := marks_tokens (program_chained h) hl (named_names hn)
  obtain ⟨is, ds, hs, i1, i2, i3, i4, i5⟩ := program_reads h hu hn ts h2
  have he : e.ty = .ENDOFFILE := (congrArg Tok.ty h3 :)
  refine ⟨_, ds, false, hs, h1, program_sane h h2 he, ?_, i4, i5⟩
  rw [Decl.declarations_read_partial i1 i2 [e] (.inr ⟨e, [], rfl, he⟩), i3]
  rfl

theorem file_reads {p : Program} {ms : List Mark} {text : Text} (hp : WellFormed p) (h : WritesProgram p ms) (hl : Laid ms text) :
    ∃ ts ds b hs, Lex.tokenize text = .ok ts ∧ Brackets.sane ts = true ∧ Load.ofRes (Decl.analyse ts) = .ok (ds, b) ∧ headers ds = some hs ∧ Headers p hs :=
  file_reads_of (fun_usable hp) (program_named (fun f hf => (fun_usable hp f hf).1) h hp.funs) h hl

theorem Headers.map {p : Program} {hs : List Header} (h : Headers p hs) : hs.map Header.name = p.map Fun.name := by
  induction h with
  | nil => rfl
  | cons _ _ _ _ ih => simp [ih, headerOf]

theorem definable_distinct : ∀ {hs : List Header}, (hs.map Header.name).Nodup → definable hs = true
  | [], _ => rfl
  | h :: hs, hd => by
    rw [List.map_cons, List.nodup_cons] at hd
    simp only [definable, Bool.and_eq_true, List.all_eq_true]
    refine ⟨fun g hg => ?_, definable_distinct hd.2⟩
    have : g.name ≠ h.name := fun e => hd.1 (e ▸ List.mem_map_of_mem hg)
    simp [this]

end Verif.Whole
