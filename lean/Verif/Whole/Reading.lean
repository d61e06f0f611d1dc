import Verif.Whole.Lexing
import Verif.Calc.Props
import Verif.Stmt.Props
import Verif.Decl.Props

/-! # The tokens of a program are read as its functions and commands -/

namespace Verif.Whole

open Verif.Str (Text)
open Verif.Lex (Tok Ty Cat PlainName)
open Verif.Expr (Syn Der DerArgs Plain Lvl)
open Verif.Stmt (Src Simple Site ExprText NoCurly Spells SpellsList)
open Verif.Calc (Num Cond SpellsNum SpellsCond erase tok synNum synCond)

/-! ## Names -/

theorem num_names {p : Calc.Place} {a : Num} {ms : List Calc.Mark} (h : SpellsNum p a ms) :
    ∀ n, Calc.Mark.name n ∈ ms → n ∈ a.vars := by
  induction h <;> simp_all [Num.vars]
  all_goals
    intro n hn
    rcases hn with hn | hn <;> simp [*]

theorem cond_names {p : Calc.CPlace} {c : Cond} {ms : List Calc.Mark} (h : SpellsCond p c ms) :
    ∀ n, Calc.Mark.name n ∈ ms → n ∈ c.vars ∨ n ∈ c.flags := by
  induction h with
  | cmp ha hb =>
    have h1 := num_names ha
    have h2 := num_names hb
    intro n hn
    simp only [List.mem_append, List.mem_cons, reduceCtorEq, false_or] at hn
    rcases hn with hn | hn
    · simp [Cond.vars, h1 n hn]
    · simp [Cond.vars, h2 n hn]
  | and _ _ h1 h2 =>
    intro n hn
    simp only [List.mem_append, List.mem_cons, reduceCtorEq, false_or] at hn
    rcases hn with hn | hn
    · rcases h1 n hn with h | h <;> simp [Cond.vars, Cond.flags, h]
    · rcases h2 n hn with h | h <;> simp [Cond.vars, Cond.flags, h]
  | or _ _ h1 h2 =>
    intro n hn
    simp only [List.mem_append, List.mem_cons, reduceCtorEq, false_or] at hn
    rcases hn with hn | hn
    · rcases h1 n hn with h | h <;> simp [Cond.vars, Cond.flags, h]
    · rcases h2 n hn with h | h <;> simp [Cond.vars, Cond.flags, h]
  | _ => simp_all [Cond.vars, Cond.flags]

/-- All names in scope can be used. -/
def AllUsable (Γ : Ctx) : Prop := ∀ n k, kind Γ n = some k → Usable n

/-- Every name that is written can be used, or is the name of a type. -/
def Named (ms : List Mark) : Prop := ∀ n, Mark.name n ∈ ms → PlainName n

theorem Named.num {Γ : Ctx} (hΓ : AllUsable Γ) {a : Num} {ms : List Calc.Mark} (hf : NumFits Γ a) (h : WritesNum a ms) :
    Named (marks ms) := by
  intro n hn
  simp only [marks, List.mem_map, Mark.name, Mark.formula.injEq, exists_eq_right] at hn
  exact (hΓ n _ (hf.1 n (num_names h.1 n hn))).1

theorem Named.cond {Γ : Ctx} (hΓ : AllUsable Γ) {c : Cond} {ms : List Calc.Mark} (hf : CondFits Γ c) (h : WritesCond c ms) :
    Named (marks ms) := by
  intro n hn
  simp only [marks, List.mem_map, Mark.name, Mark.formula.injEq, exists_eq_right] at hn
  rcases cond_names h.1 n hn with h | h
  · exact (hΓ n _ (hf.1 n h)).1
  · exact (hΓ n _ (hf.2.1 n h)).1

theorem Named.nil : Named [] := fun _ h => nomatch h

theorem Named.append {as bs : List Mark} (ha : Named as) (hb : Named bs) : Named (as ++ bs) := by
  intro n hn
  rcases List.mem_append.1 hn with h | h
  · exact ha n h
  · exact hb n h

theorem Named.name {n : Text} {ms : List Mark} (hn : PlainName n) (h : Named ms) : Named (.name n :: ms) := by
  intro m hm
  rcases List.mem_cons.1 hm with h' | h'
  · cases h'; exact hn
  · exact h m h'

theorem Named.cons {m : Mark} {ms : List Mark} (hm : isName m = false) (h : Named ms) : Named (m :: ms) := by
  intro n hn
  rcases List.mem_cons.1 hn with h' | h'
  · subst h'; cases hm
  · exact h n h'

theorem Named.change {Γ : Ctx} (hΓ : AllUsable Γ) {d : Change} {ms : List Mark} (hk : kind Γ d.name = some .int) (hf : NumFits Γ d.num)
    (h : WritesChange d ms) : Named ms := by
  cases h with
  | to h => exact .name (hΓ _ _ hk).1 (.cons rfl (.num hΓ hf h))
  | «by» h =>
    exact .name (hΓ _ _ hk).1 (.cons rfl (.num hΓ ⟨fun n hn => hf.1 n (by simp [Change.num, Num.vars, hn]),
      fun k hk => hf.2 k (by simp [Change.num, Num.nums, hk])⟩ h))
  | step => exact .name (hΓ _ _ hk).1 (.cons rfl .nil)

theorem args_named {Γ : Ctx} (hΓ : AllUsable Γ) {as : List Num} {ms : List Mark} (hf : ∀ a ∈ as, NumFits Γ a)
    (h : WritesArgs as ms) : Named ms := by
  induction h with
  | nil => exact .nil
  | one h => exact .num hΓ (hf _ List.mem_cons_self) h
  | more h _ ih =>
    exact (Named.num hΓ (hf _ List.mem_cons_self) h).append (.cons rfl (ih fun a ha => hf a (List.mem_cons_of_mem _ ha)))

theorem parts_named {Γ : Ctx} (hΓ : AllUsable Γ) {ps : List Part} {ms : List Mark} (hf : ∀ x ∈ ps, PartFits Γ x)
    (h : WritesParts ps ms) : Named ms := by
  induction h with
  | nil => exact .nil
  | num h ha _ ih =>
    exact .cons rfl ((Named.num hΓ (hf _ List.mem_cons_self) ⟨.factor h, ha⟩).append (ih fun a ha => hf a (List.mem_cons_of_mem _ ha)))
  | truth h ha _ ih =>
    exact .cons rfl ((Named.cond hΓ (hf _ List.mem_cons_self) ⟨.conj (.conjOne (.negated (.atom h))), ha⟩).append
      (ih fun a ha => hf a (List.mem_cons_of_mem _ ha)))
  | text _ ih => exact .cons rfl (.cons rfl (ih fun a ha => hf a (List.mem_cons_of_mem _ ha)))
  | var _ ih =>
    exact .cons rfl (.name (hΓ _ _ (hf _ List.mem_cons_self)).1 (ih fun a ha => hf a (List.mem_cons_of_mem _ ha)))

theorem start_named {Γ : Ctx} (hΓ : AllUsable Γ) {h : Start} {ms : List Mark} (hf : StartFits Γ h) (hm : Named ms) :
    Named (h.mark :: ms) := by
  cases h with
  | text t => exact .cons rfl hm
  | var n => exact .name (hΓ _ _ hf).1 hm

theorem AllUsable.push {Γ : Ctx} (h : AllUsable Γ) : AllUsable ([] :: Γ) := h

theorem AllUsable.add {g : List (Text × Kind)} {Γ : Ctx} {n : Text} {k : Kind} (hn : Usable n) (h : AllUsable (g :: Γ)) :
    AllUsable (((n, k) :: g) :: Γ) := by
  intro m j hm
  simp only [kind, List.findSome?_cons, List.lookup_cons] at hm
  by_cases e : m = n
  · exact e ▸ hn
  · rw [show (m == n) = false by simpa using e] at hm
    exact h m j (by simpa only [kind, List.findSome?_cons] using hm)

theorem plain_int : PlainName "int".toList := ⟨by decide, by decide, by decide⟩

theorem plain_bool : PlainName "bool".toList := ⟨by decide, by decide, by decide⟩

theorem plain_string : PlainName "string".toList := ⟨by decide, by decide, by decide⟩

theorem plain_void : PlainName "void".toList := ⟨by decide, by decide, by decide⟩

theorem plain_kind : ∀ k : Kind, PlainName k.word
  | .int => plain_int
  | .bool => plain_bool
  | .string => plain_string

theorem writes_named {p : Program} (hp : ∀ f ∈ p, Usable f.name) {cs : List Cmd} {ms : List Mark} (h : Writes cs ms) :
    ∀ {r : Give} {l : Around} {Γ : Ctx}, AllUsable Γ → Fits p r l Γ cs → Named ms := by
  induction h with
  | nil => exact fun _ _ => .nil
  | int h _ ih =>
    intro r l Γ hΓ hf
    cases hf with
    | int hn _ ha _ hc =>
      exact .name plain_int (.name hn.1 (.cons rfl ((Named.num hΓ ha h).append (.cons rfl (ih (hΓ.add hn) hc)))))
  | bool h _ ih =>
    intro r l Γ hΓ hf
    cases hf with
    | bool hn _ ha _ hc =>
      exact .name plain_bool (.name hn.1 (.cons rfl ((Named.cond hΓ ha h).append (.cons rfl (ih (hΓ.add hn) hc)))))
  | set h _ ih =>
    intro r l Γ hΓ hf
    cases hf with
    | set hn ha hc => exact (Named.change hΓ hn ha h).append (.cons rfl (ih hΓ hc))
  | text h _ ih =>
    intro r l Γ hΓ hf
    cases hf with
    | text hn _ hs hx _ hc =>
      exact .name plain_string (.name hn.1 (.cons rfl (start_named hΓ hs
        ((parts_named hΓ hx h).append (.cons rfl (ih (hΓ.add hn) hc))))))
  | write h _ ih =>
    intro r l Γ hΓ hf
    cases hf with
    | write hk hs hx hc =>
      exact .name (hΓ _ _ hk).1 (.cons rfl (start_named hΓ hs ((parts_named hΓ hx h).append (.cons rfl (ih hΓ hc)))))
  | fresh _ ih =>
    intro r l Γ hΓ hf
    cases hf with
    | fresh hn _ hc => exact .name (plain_kind _) (.name hn.1 (.cons rfl (ih (hΓ.add hn) hc)))
  | check h _ ih =>
    intro r l Γ hΓ hf
    cases hf with
    | check ha hc => exact .cons rfl (.cons rfl ((Named.cond hΓ ha h).append (.cons rfl (.cons rfl (ih hΓ hc)))))
  | mark h _ ih =>
    intro r l Γ hΓ hf
    cases hf with
    | mark hn ha hc => exact .name (hΓ _ _ hn).1 (.cons rfl ((Named.cond hΓ ha h).append (.cons rfl (ih hΓ hc))))
  | call h _ ih =>
    intro r l Γ hΓ hf
    cases hf with
    | call hn hg _ _ ha hc =>
      cases hn with
      | set hn =>
        exact .name (hΓ _ _ hn).1 (.cons rfl (.name (hp _ hg).1 (.cons rfl ((args_named hΓ ha h).append
          (.cons rfl (.cons rfl (ih hΓ hc)))))))
  | callNew h _ ih =>
    intro r l Γ hΓ hf
    cases hf with
    | call hn hg _ _ ha hc =>
      cases hn with
      | new hn =>
        exact .name plain_int (.name hn.1 (.cons rfl (.name (hp _ hg).1 (.cons rfl ((args_named hΓ ha h).append
          (.cons rfl (.cons rfl (ih (hΓ.add hn) hc))))))))
  | callPrint h _ ih =>
    intro r l Γ hΓ hf
    cases hf with
    | call hn hg _ _ ha hc =>
      cases hn
      exact .cons rfl (.cons rfl (.name (hp _ hg).1 (.cons rfl ((args_named hΓ ha h).append
        (.cons rfl (.cons rfl (.cons rfl (ih hΓ hc))))))))
  | callRet h _ ih =>
    intro r l Γ hΓ hf
    cases hf with
    | call hn hg _ _ ha hc =>
      cases hn
      exact .cons rfl (.name (hp _ hg).1 (.cons rfl ((args_named hΓ ha h).append (.cons rfl (.cons rfl (ih hΓ hc))))))
  | act h _ ih =>
    intro r l Γ hΓ hf
    cases hf with
    | act hg _ ha hc =>
      exact .name (hp _ hg).1 (.cons rfl ((args_named hΓ ha h).append (.cons rfl (.cons rfl (ih hΓ hc)))))
  | count h hc hs _ _ ihb ih =>
    intro r l Γ hΓ hf
    cases hf with
    | count hn ha _ hc' hm hs' hb hr =>
      have hΓ' := AllUsable.add (k := .int) hn hΓ.push
      exact .cons rfl (.cons rfl (.name plain_int (.name hn.1 (.cons rfl ((Named.num hΓ ha h).append (.cons rfl
        ((Named.cond hΓ' hc' hc).append (.cons rfl ((Named.change hΓ' hm hs' hs).append (.cons rfl (.cons rfl
          ((ihb hΓ'.push hb).append (.cons rfl (ih hΓ hr))))))))))))))
  | say h _ ih =>
    intro r l Γ hΓ hf
    cases hf with
    | say hs hx hc =>
      exact .cons rfl (.cons rfl (start_named hΓ hs ((parts_named hΓ hx h).append (.cons rfl (.cons rfl (ih hΓ hc))))))
  | leave _ ih =>
    intro r l Γ hΓ hf
    cases hf with
    | leave hc => exact .cons rfl (.cons rfl (ih hΓ hc))
  | print h _ ih =>
    intro r l Γ hΓ hf
    cases hf with
    | print ha hc => exact .cons rfl (.cons rfl ((Named.num hΓ ha h).append (.cons rfl (.cons rfl (ih hΓ hc)))))
  | «when» h _ _ iht ih =>
    intro r l Γ hΓ hf
    cases hf with
    | «when» ha ht hc =>
      exact .cons rfl (.cons rfl ((Named.cond hΓ ha h).append (.cons rfl (.cons rfl ((iht hΓ.push ht).append (.cons rfl (ih hΓ hc)))))))
  | choose h _ _ _ iht ihe ih =>
    intro r l Γ hΓ hf
    cases hf with
    | choose ha ht he hc =>
      exact .cons rfl (.cons rfl ((Named.cond hΓ ha h).append (.cons rfl (.cons rfl ((iht hΓ.push ht).append (.cons rfl (.cons rfl
        (.cons rfl ((ihe hΓ.push he).append (.cons rfl (ih hΓ hc)))))))))))
  | chain h _ _ _ _ iht ihe ih =>
    intro r l Γ hΓ hf
    cases hf with
    | chain ha ht _ he hc =>
      exact .cons rfl (.cons rfl ((Named.cond hΓ ha h).append (.cons rfl (.cons rfl ((iht hΓ.push ht).append (.cons rfl (.cons rfl
        ((ihe hΓ he).append (ih hΓ hc)))))))))
  | @pick _ xs _ _ _ h hm _ _ iht ih =>
    intro r l Γ hΓ hf
    cases hf with
    | pick ha hl hb _ _ _ hc =>
      refine .cons rfl (.cons rfl ((Named.num hΓ ha h).append (.cons rfl (.cons rfl (Named.append ?_ (.cons rfl (ih hΓ hc)))))))
      intro n hn
      obtain ⟨x, hx, hn⟩ := List.mem_flatMap.1 hn
      have hmem : (x.label, x.cmds) ∈ xs.map fun x => (x.label, x.cmds) := List.mem_map.2 ⟨x, hx, rfl⟩
      have hb := iht x hx hΓ.push (hb _ hmem)
      have hl := hl _ hmem
      have hm := hm x hx
      obtain ⟨label, cmds, ms, ts⟩ := x
      cases label with
      | none => exact Named.cons rfl (.cons rfl (.cons rfl (hb.append (.cons rfl .nil)))) n hn
      | some b =>
        exact Named.cons rfl ((Named.num hΓ (hl b rfl) (hm b rfl)).append (.cons rfl (.cons rfl (hb.append (.cons rfl .nil))))) n hn
  | loop h _ _ iht ih =>
    intro r l Γ hΓ hf
    cases hf with
    | loop ha ht hc =>
      exact .cons rfl (.cons rfl ((Named.cond hΓ ha h).append (.cons rfl (.cons rfl ((iht hΓ.push ht).append (.cons rfl (ih hΓ hc)))))))
  | block _ _ iht ih =>
    intro r l Γ hΓ hf
    cases hf with
    | block ht hc => exact .cons rfl ((iht hΓ.push ht).append (.cons rfl (ih hΓ hc)))
  | brk _ ih =>
    intro r l Γ hΓ hf
    cases hf with
    | brk _ hc => exact .cons rfl (.cons rfl (ih hΓ hc))
  | cont _ ih =>
    intro r l Γ hΓ hf
    cases hf with
    | cont _ hc => exact .cons rfl (.cons rfl (ih hΓ hc))
  | ret h _ ih =>
    intro r l Γ hΓ hf
    cases hf with
    | ret ha hc => exact .cons rfl ((Named.num hΓ ha h).append (.cons rfl (ih hΓ hc)))

theorem params_named : ∀ ns : List Text, (∀ n ∈ ns, Usable n) → Named (paramMarks ns)
  | [], _ => .nil
  | [n], h => .name plain_int (.name (h n (by simp)).1 .nil)
  | n :: m :: ns, h => .name plain_int (.name (h n (by simp)).1 (.cons rfl (params_named (m :: ns) fun x hx => h x (by simp_all))))

theorem usable_params : ∀ ns : List Text, (∀ n ∈ ns, Usable n) → AllUsable [ns.map (·, .int)] := by
  intro ns h n k hk
  simp only [kind, List.findSome?_cons, List.findSome?_nil] at hk
  apply h
  induction ns with
  | nil => simp at hk
  | cons m ns ih =>
    simp only [List.map_cons, List.lookup_cons] at hk
    by_cases e : n = m
    · subst e; simp
    · rw [show (n == m) = false by simpa using e] at hk
      exact List.mem_cons_of_mem _ (ih (fun x hx => h x (List.mem_cons_of_mem _ hx)) hk)

theorem program_named {q : Program} (hq : ∀ f ∈ q, Usable f.name) {p : Program} {ms : List Mark} (h : WritesProgram p ms)
    (hp : ∀ f ∈ p, FunFits q f) : Named ms := by
  induction h with
  | nil => exact .nil
  | @cons f p ms ns h _ ih =>
    have hf := hp f List.mem_cons_self
    refine .name ?_ (.name hf.name.1 (.cons rfl ((params_named _ hf.params).append (.cons rfl (.cons rfl
      ((writes_named hq h (usable_params _ hf.params) hf.body).append (.cons rfl (ih fun g hg => hp g (List.mem_cons_of_mem _ hg)))))))))
    unfold Fun.resultName
    split
    · exact plain_void
    · exact plain_int

/-! ## Commands -/

/-- The expression of a change. -/
def synChange : Change → Syn
  | .to n a => .assign n .ASSIGN (synNum a)
  | .by n op a => .assign n (changeTy op) (synNum a)
  | .step up n => .incdec n (if up then .OPERATOR_INCREMENT else .OPERATOR_DECREMENT)

/-- The expression of a part of what is printed. -/
def synPart : Part → Syn
  | .num a => synNum a
  | .truth c => synCond c
  | .text t => .lit .CONST_LITERAL t
  | .var n => synNum (.var n)

/-- The expression of the beginning of a text. -/
def synStart : Start → Syn
  | .text t => .lit .CONST_LITERAL t
  | .var n => synNum (.var n)

/-- The expression of what is printed. -/
def synTold (h : Start) (ps : List Part) : Syn :=
  ps.foldl (fun s x => .bin .arith .MATH_ADDITION s (synPart x)) (synStart h)

mutual

/-- The statement of a command. -/
def src : Cmd → Src
  | .int n a => .simple (.decl ⟨"int".toList, n, none, none⟩ (some (synNum a)))
  | .bool n c => .simple (.decl ⟨"bool".toList, n, none, none⟩ (some (synCond c)))
  | .set d => .simple (.expr (synChange d))
  | .fresh k n => .simple (.decl ⟨k.word, n, none, none⟩ none)
  | .text n h ps => .simple (.decl ⟨"string".toList, n, none, none⟩ (some (synTold h ps)))
  | .write n h ps => .simple (.expr (.assign n .ASSIGN (synTold h ps)))
  | .check c => .assert (synCond c) none
  | .mark n c => .simple (.expr (.assign n .ASSIGN (synCond c)))
  | .call (.set n) f args => .simple (.expr (.assign n .ASSIGN (.call f (args.map synNum))))
  | .call (.new n) f args => .simple (.decl ⟨"int".toList, n, none, none⟩ (some (.call f (args.map synNum))))
  | .call .print f args => .print (.call f (args.map synNum))
  | .call .ret f args => .ret (some (.call f (args.map synNum)))
  | .act f args => .simple (.expr (.call f (args.map synNum)))
  | .print a => .print (synNum a)
  | .say t ps => .print (synTold t ps)
  | .when c t => .ifThen (synCond c) (.block (srcs t))
  | .choose c t e => .ifElse (synCond c) (.block (srcs t)) (.block (srcs e))
  | .chain c t d => .ifElse (synCond c) (.block (srcs t)) (src d)
  | .pick a as => .switch (synNum a) (srcArms as)
  | .loop c b => .while (synCond c) (.block (srcs b))
  | .count n a c d b => .for (some (.decl ⟨"int".toList, n, none, none⟩ (some (synNum a)))) (some (synCond c))
      (some (.expr (synChange d))) (.block (srcs b))
  | .rounds c d b => .for none (some (synCond c)) (some (.expr (synChange d))) (.block (srcs b))
  | .block b => .block (srcs b)
  | .brk => .brk
  | .cont => .cont
  | .ret a => .ret (some (synNum a))
  | .leave => .ret none

def srcs : List Cmd → List Src
  | [] => []
  | c :: cs => src c :: srcs cs

def srcArms : List (Option Num × List Cmd) → List (Option Syn × List Src)
  | [] => []
  | (some a, b) :: as => (some (synNum a), srcs b) :: srcArms as
  | (none, b) :: as => (none, srcs b) :: srcArms as

end

/-- The tokens of these marks, wherever they stand. -/
abbrev Toks (ts : List Tok) (ms : List Mark) : Prop := ts.map erase = ms.map fin

theorem Toks.cons {ts : List Tok} {m : Mark} {ms : List Mark} (h : Toks ts (m :: ms)) :
    ∃ t r, ts = t :: r ∧ erase t = fin m ∧ Toks r ms := by
  obtain ⟨t, r, rfl, h1, h2⟩ := List.map_eq_cons_iff.1 h
  exact ⟨t, r, rfl, h1, h2⟩

theorem Toks.append {ts : List Tok} {ms ns : List Mark} (h : Toks ts (ms ++ ns)) :
    ∃ x y, ts = x ++ y ∧ Toks x ms ∧ Toks y ns := by
  unfold Toks at h
  rw [List.map_append] at h
  obtain ⟨x, y, rfl, h1, h2⟩ := List.map_eq_append_iff.1 h
  exact ⟨x, y, rfl, h1, h2⟩

theorem Toks.nil {ts : List Tok} (h : Toks ts []) : ts = [] := List.map_eq_nil_iff.1 h

theorem toks_formula {ts : List Tok} {ms : List Calc.Mark} (h : Toks ts (marks ms)) : ts.map erase = ms.map Calc.fin := by
  rw [h, marks, List.map_map]
  rfl

theorem fin_of {t : Tok} {m : Mark} (h : erase t = fin m) :
    t.ty = (fin m).ty ∧ t.cat = (fin m).cat ∧ t.content = (fin m).content ∧ t.optional = (fin m).optional :=
  ⟨(congrArg Tok.ty h :), (congrArg Tok.cat h :), (congrArg Tok.content h :), (congrArg Tok.optional h :)⟩

theorem calc_curly (m : Calc.Mark) : (Calc.fin m).ty ≠ .BRACKET_CURLY_OPEN ∧ (Calc.fin m).ty ≠ .BRACKET_CURLY_CLOSE := by
  cases m with
  | op o => cases o <;> decide
  | rel r => cases r <;> decide
  | _ => simp [Calc.fin, tok]

theorem noCurly_formula {ts : List Tok} {ms : List Calc.Mark} (h : Toks ts (marks ms)) : NoCurly ts := by
  intro t ht
  have : erase t ∈ ms.map Calc.fin := by rw [← toks_formula h]; exact List.mem_map_of_mem ht
  obtain ⟨m, -, hm⟩ := List.mem_map.1 this
  have e : t.ty = (Calc.fin m).ty := (congrArg Tok.ty hm :).symm
  rw [e]
  exact calc_curly m

theorem num_text (w : Site) {a : Num} {ms : List Calc.Mark} {ts : List Tok} (h : WritesNum a ms) (ht : Toks ts (marks ms)) :
    ExprText w .expression (synNum a) ts :=
  ⟨⟨false, Calc.up_arith (Calc.num_der _ h.1 ts (toks_formula ht))⟩, noCurly_formula ht⟩

theorem cond_text (w : Site) {c : Cond} {ms : List Calc.Mark} {ts : List Tok} (h : WritesCond c ms) (ht : Toks ts (marks ms)) :
    ExprText w .expression (synCond c) ts :=
  ⟨⟨false, Calc.cond_der _ h.1 ts (toks_formula ht)⟩, noCurly_formula ht⟩

theorem plain_word {n : Text} (h : PlainName n) : n ∉ Stmt.words := by
  intro hn
  have hc := h.2.2
  have : ∀ w ∈ Stmt.words, Lex.classifyWord w ≠ (.none, .IDENTIFIER, w, false) := by decide
  exact this n hn hc

theorem name_tok {t : Tok} {n : Text} (h : erase t = fin (.name n)) (hn : PlainName n) : Stmt.Name t ∧ t.content = n := by
  obtain ⟨h1, h2, h3, -⟩ := fin_of h
  exact ⟨⟨h1, by rw [h2]; exact nofun, by rw [h3]; exact plain_word hn⟩, h3⟩

theorem mark_semi {t : Tok} (h : erase t = fin .semi) : Stmt.Mark .SEMICOLON t := by
  obtain ⟨h1, h2, h3, -⟩ := fin_of h
  exact ⟨h1, ⟨by rw [h2]; decide, by rw [h2]; decide⟩, by rw [h3]; decide⟩

theorem mark_comma {t : Tok} (h : erase t = fin .comma) : Stmt.Mark .COMMA t := by
  obtain ⟨h1, h2, h3, -⟩ := fin_of h
  exact ⟨h1, ⟨by rw [h2]; decide, by rw [h2]; decide⟩, by rw [h3]; decide⟩

theorem mark_lparen {t : Tok} (h : erase t = fin .lparen) : Stmt.Mark .PARENTHESIS_OPEN t := by
  obtain ⟨h1, h2, h3, -⟩ := fin_of h
  exact ⟨h1, ⟨by rw [h2]; decide, by rw [h2]; decide⟩, by rw [h3]; decide⟩

theorem mark_rparen {t : Tok} (h : erase t = fin .rparen) : Stmt.Mark .PARENTHESIS_CLOSE t := by
  obtain ⟨h1, h2, h3, -⟩ := fin_of h
  exact ⟨h1, ⟨by rw [h2]; decide, by rw [h2]; decide⟩, by rw [h3]; decide⟩

theorem mark_lcurly {t : Tok} (h : erase t = fin .lcurly) : Stmt.Mark .BRACKET_CURLY_OPEN t := by
  obtain ⟨h1, h2, h3, -⟩ := fin_of h
  exact ⟨h1, ⟨by rw [h2]; decide, by rw [h2]; decide⟩, by rw [h3]; decide⟩

theorem mark_rcurly {t : Tok} (h : erase t = fin .rcurly) : Stmt.Mark .BRACKET_CURLY_CLOSE t := by
  obtain ⟨h1, h2, h3, -⟩ := fin_of h
  exact ⟨h1, ⟨by rw [h2]; decide, by rw [h2]; decide⟩, by rw [h3]; decide⟩

theorem mark_colon {t : Tok} (h : erase t = fin .colon) : Stmt.Mark .COLON t := by
  obtain ⟨h1, h2, h3, -⟩ := fin_of h
  exact ⟨h1, ⟨by rw [h2]; decide, by rw [h2]; decide⟩, by rw [h3]; decide⟩

theorem word_tok {t : Tok} {v : Word} (h : erase t = fin (.word v)) (s : String) (hs : v.text = s.toList) : Stmt.Word s t := by
  obtain ⟨h1, -, h3, -⟩ := fin_of h
  exact ⟨h1, h3.trans hs⟩

theorem assign_tok {t : Tok} (h : erase t = fin .assign) : t.ty = .ASSIGN ∧ t.cat = .assignment ∧ Stmt.Assign t := by
  obtain ⟨h1, h2, h3, -⟩ := fin_of h
  exact ⟨h1, h2, h1, by rw [h3]; decide⟩

/-- `type n = e`. -/
theorem decl_text (w : Site) {ty n : Text} {e : Syn} {t x a : Tok} {ts : List Tok} (ht : erase t = fin (.name ty)) (hty : PlainName ty)
    (hx : erase x = fin (.name n)) (hn : PlainName n) (ha : erase a = fin .assign) (he : ExprText w .expression e ts) :
    Stmt.SimpleText w (.decl ⟨ty, n, none, none⟩ (some e)) (t :: x :: a :: ts) := by
  obtain ⟨h1, h2⟩ := name_tok ht hty
  obtain ⟨h3, h4⟩ := name_tok hx hn
  have hd := Stmt.DeclText.mk t x none none [] [] h1 h3 .none .none
  rw [h2, h4] at hd
  exact .init _ a e _ ts hd (assign_tok ha).2.2 he

/-- `type n`. -/
theorem fresh_text (w : Site) {ty n : Text} {t x : Tok} (ht : erase t = fin (.name ty)) (hty : PlainName ty)
    (hx : erase x = fin (.name n)) (hn : PlainName n) : Stmt.SimpleText w (.decl ⟨ty, n, none, none⟩ none) [t, x] := by
  obtain ⟨h1, h2⟩ := name_tok ht hty
  obtain ⟨h3, h4⟩ := name_tok hx hn
  have hd := Stmt.DeclText.mk t x none none [] [] h1 h3 .none .none
  rw [h2, h4] at hd
  exact .decl _ _ hd

/-- `n = e`, `n += e` … -/
theorem assigning_text (w : Site) {n : Text} {e : Syn} {x a : Tok} {ts : List Tok} (hx : erase x = fin (.name n)) (hn : PlainName n)
    {ty : Ty} (h1 : a.ty = ty) (h2 : a.cat = .assignment) (ht : ty ∈ [Ty.ASSIGN, .ASSIGN_ADDITION, .ASSIGN_SUBTRACT, .ASSIGN_MULTIPLY,
      .ASSIGN_DIVIDE, .ASSIGN_MODULO]) (he : ExprText w .expression e ts) :
    Stmt.SimpleText w (.expr (.assign n ty e)) (x :: a :: ts) := by
  obtain ⟨h3, h4⟩ := name_tok hx hn
  obtain ⟨⟨b, hb⟩, hc⟩ := he
  have hd : Der w.types true .term true (.assign n ty e) (x :: a :: ts) := by
    have := Der.assign (env := w.types) (strict := true) x a b e ts h3.1 h2
      (fun _ => by
        simp only [List.mem_cons, List.not_mem_nil, or_false] at ht
        rcases ht with rfl | rfl | rfl | rfl | rfl | rfl <;>
          exact ⟨by simp [Expr.Starts, h1, h2], by simp [h1], by simp [h1], by simp [h1]⟩) hb
    rwa [h4, h1] at this
  have hl : Der w.types true (.lvl .expression) true (.assign n ty e) (x :: a :: ts) :=
    .up _ _ _ _ (by decide) (Calc.up_pre (.pre _ _ _ hd))
  refine .expr _ _ (.assign x a _ ts h3 h2 ⟨⟨true, hl⟩, ?_⟩)
  intro t hm
  rcases List.mem_cons.1 hm with rfl | hm
  · simp [h3.1]
  rcases List.mem_cons.1 hm with rfl | hm
  · rw [h1]
    simp only [List.mem_cons, List.not_mem_nil, or_false] at ht
    rcases ht with rfl | rfl | rfl | rfl | rfl | rfl <;> exact ⟨nofun, nofun⟩
  · exact hc t hm

/-- `n = e`. -/
theorem assign_text (w : Site) {n : Text} {e : Syn} {x a : Tok} {ts : List Tok} (hx : erase x = fin (.name n)) (hn : PlainName n)
    (ha : erase a = fin .assign) (he : ExprText w .expression e ts) :
    Stmt.SimpleText w (.expr (.assign n .ASSIGN e)) (x :: a :: ts) := by
  obtain ⟨h1, h2, -⟩ := assign_tok ha
  exact assigning_text w hx hn h1 h2 (by simp) he

/-- A change. -/
theorem change_text (w : Site) {d : Change} {ms : List Mark} {ts : List Tok} (h : WritesChange d ms) (hn : Named ms) (ht : Toks ts ms) :
    Stmt.SimpleText w (.expr (synChange d)) ts := by
  cases h with
  | to h =>
    obtain ⟨x, r, rfl, h2, ht⟩ := ht.cons
    obtain ⟨a, r, rfl, h3, ht⟩ := ht.cons
    exact assign_text w h2 (hn _ (by simp)) h3 (num_text w h ht)
  | @«by» _ o _ _ h =>
    obtain ⟨x, r, rfl, h2, ht⟩ := ht.cons
    obtain ⟨a, r, rfl, h3, ht⟩ := ht.cons
    obtain ⟨k1, k2, -, -⟩ := fin_of h3
    exact assigning_text w h2 (hn _ (by simp)) k1 k2 (by cases o <;> simp [fin, changeTy, tok]) (num_text w h ht)
  | @step up _ =>
    obtain ⟨x, r, rfl, h2, ht⟩ := ht.cons
    obtain ⟨a, r, rfl, h3, ht⟩ := ht.cons
    cases ht.nil
    obtain ⟨h1, h4⟩ := name_tok h2 (hn _ (by simp))
    obtain ⟨k1, k2, -, -⟩ := fin_of h3
    have hd := Der.incdec (env := w.types) (strict := true) x a h1.1 (by rw [k1]; cases up <;> simp [fin, twiceTok, tok])
      (fun _ => by constructor <;> (rw [k2]; cases up <;> decide))
    rw [h4, k1] at hd
    refine .expr _ _ (.use x _ _ h1 (fun u hu => ?_) ?_)
    · cases List.mem_singleton.1 hu
      rw [k1]; cases up <;> exact ⟨nofun, nofun⟩
    · cases up <;> exact hd

theorem args_text (w : Site) {as : List Num} {ms : List Mark} (h : WritesArgs as ms) :
    ∀ ts, Toks ts ms → DerArgs w.types true (as.map synNum) ts ∧ NoCurly ts := by
  induction h with
  | nil =>
    intro ts ht
    cases ht.nil
    exact ⟨.nil, fun _ h => nomatch h⟩
  | one h =>
    intro ts ht
    obtain ⟨⟨b, hb⟩, hc⟩ := num_text w h ht
    exact ⟨.last b _ _ hb, hc⟩
  | more h _ ih =>
    intro ts ht
    obtain ⟨x, y, rfl, hx, hy⟩ := ht.append
    obtain ⟨c, z, rfl, hc, hz⟩ := hy.cons
    obtain ⟨⟨b, hb⟩, hcx⟩ := num_text w h hx
    obtain ⟨h1, h2⟩ := ih z hz
    have hm := mark_comma hc
    refine ⟨?_, ?_⟩
    · have := DerArgs.cons (env := w.types) (strict := true) c b _ _ x [] z hm.1 (fun _ => ⟨hm.2.1, rfl⟩)
        (fun _ h => nomatch h) hb h1
      simpa using this
    · intro t ht
      rcases List.mem_append.1 ht with ht | ht
      · exact hcx t ht
      rcases List.mem_cons.1 ht with rfl | ht
      · simp [hm.1]
      · exact h2 t ht

/-- `f(args)`. -/
theorem call_text (w : Site) {f : Text} {as : List Num} {ms : List Mark} {t o c : Tok} {ts : List Tok} (ht : erase t = fin (.name f))
    (ho : erase o = fin .lparen) (hc : erase c = fin .rparen) (h : WritesArgs as ms) (hts : Toks ts ms) :
    ExprText w .expression (.call f (as.map synNum)) (t :: o :: (ts ++ [c])) := by
  obtain ⟨h1, -, h3, -⟩ := fin_of ht
  have hmo := mark_lparen ho
  have hmc := mark_rparen hc
  obtain ⟨ha, hn⟩ := args_text w h ts hts
  have hd := Der.call (env := w.types) (strict := true) t o c _ ts h1 hmo.1 hmc.1 (fun _ => ⟨hmo.2.1, hmc.2.1⟩) ha
  rw [show t.content = f from h3] at hd
  refine ⟨⟨false, .up _ _ _ _ (by decide) (Calc.up_pre (.pre _ _ _ hd))⟩, ?_⟩
  intro u hu
  simp only [List.mem_cons, List.mem_append, List.not_mem_nil, or_false] at hu
  rcases hu with rfl | rfl | hu | rfl
  · simp [h1, fin, Calc.fin, tok]
  · simp [hmo.1]
  · exact hn u hu
  · simp [hmc.1]

/-- `f(args)` as a statement. -/
theorem act_text (w : Site) {f : Text} {as : List Num} {ms : List Mark} {t o c : Tok} {ts : List Tok} (ht : erase t = fin (.name f))
    (hn : PlainName f) (ho : erase o = fin .lparen) (hc : erase c = fin .rparen) (h : WritesArgs as ms) (hts : Toks ts ms) :
    Stmt.SimpleText w (.expr (.call f (as.map synNum))) (t :: o :: (ts ++ [c])) := by
  obtain ⟨h1, -, h3, -⟩ := fin_of ht
  have hmo := mark_lparen ho
  have hmc := mark_rparen hc
  obtain ⟨ha, -⟩ := args_text w h ts hts
  have hd := Der.call (env := w.types) (strict := true) t o c _ ts h1 hmo.1 hmc.1 (fun _ => ⟨hmo.2.1, hmc.2.1⟩) ha
  rw [show t.content = f from h3] at hd
  exact .expr _ _ (.use t _ _ (name_tok ht hn).1 (fun u hu => (call_text w ht ho hc h hts).2 u (List.mem_cons_of_mem _ hu)) hd)

/-- A text. -/
theorem lit_der (w : Site) {t : Tok} {s : Text} (h : erase t = fin (.text s)) :
    Der w.types true (.lvl .factor) false (.lit .CONST_LITERAL s) [t] ∧ NoCurly [t] := by
  obtain ⟨h1, h2, h3, -⟩ := fin_of h
  have hd := Der.lit (env := w.types) (strict := true) t (by rw [h1]; simp [fin, tok, Expr.literal])
  rw [show t.content = s from h3, show t.ty = .CONST_LITERAL from h1] at hd
  refine ⟨.up .factor _ _ _ (by decide) (.infix _ _ _ (.post _ _ _ (.pre _ _ _ hd))), ?_⟩
  intro u hu
  cases List.mem_singleton.1 hu
  rw [h1]; exact ⟨nofun, nofun⟩

/-- A variable. -/
theorem var_der (w : Site) {t : Tok} {n : Text} (h : erase t = fin (.name n)) :
    Der w.types true (.lvl .factor) false (synNum (.var n)) [t] ∧ NoCurly [t] :=
  have ht : Toks [t] (List.map Mark.formula [.name n]) := congrArg (· :: []) h
  ⟨.up .factor _ _ _ (by decide) (.infix _ _ _ (.post _ _ _ (.pre _ _ _ (Calc.num_der w.types (.var n) [t] (toks_formula ht))))),
    noCurly_formula ht⟩

/-- The beginning of a text. -/
theorem start_der (w : Site) {t : Tok} {h : Start} (ht : erase t = fin h.mark) :
    Der w.types true (.lvl .factor) false (synStart h) [t] ∧ NoCurly [t] := by
  cases h with
  | text s => exact lit_der w ht
  | var n => exact var_der w ht

theorem NoCurly.append {xs ys : List Tok} (hx : NoCurly xs) (hy : NoCurly ys) : NoCurly (xs ++ ys) := fun t ht => by
  rcases List.mem_append.1 ht with ht | ht
  · exact hx t ht
  · exact hy t ht

/-- Parts behind what stands before them. -/
theorem parts_der (w : Site) {ps : List Part} {ms : List Mark} (h : WritesParts ps ms) : ∀ (s : Syn) (xs ts : List Tok),
    Der w.types true (.lvl .arith) false s xs → NoCurly xs → Toks ts ms →
      Der w.types true (.lvl .arith) false (ps.foldl (fun s x => .bin .arith .MATH_ADDITION s (synPart x)) s) (xs ++ ts) ∧
        NoCurly (xs ++ ts) := by
  have plus : ∀ {o : Tok} {s y : Syn} {xs ys : List Tok}, erase o = fin (.formula (.op .add)) → Der w.types true (.lvl .arith) false s xs →
      NoCurly xs → Der w.types true (.lvl .factor) false y ys → NoCurly ys →
      Der w.types true (.lvl .arith) false (.bin .arith .MATH_ADDITION s y) (xs ++ o :: ys) ∧ NoCurly (xs ++ o :: ys) := by
    intro o s y xs ys ho hx hcx hy hcy
    have h1 : o.ty = .MATH_ADDITION := (fin_of ho).1
    have := Der.bin .arith o false false _ _ xs ys (by rw [h1]; decide) (fun _ => ⟨rfl, Calc.plain_fin (m := .op .add) ho (.inl rfl)⟩) hx hy
    rw [h1] at this
    refine ⟨this, hcx.append ?_⟩
    intro t ht
    rcases List.mem_cons.1 ht with rfl | ht
    · rw [h1]; exact ⟨nofun, nofun⟩
    · exact hcy t ht
  induction h with
  | nil =>
    intro s xs ts hx hc ht
    cases ht.nil
    simpa using ⟨hx, hc⟩
  | num h _ _ ih =>
    intro s xs ts hx hc ht
    obtain ⟨o, r, rfl, ho, ht⟩ := ht.cons
    obtain ⟨y, r, rfl, hy, ht⟩ := ht.append
    obtain ⟨i1, i2⟩ := plus ho hx hc (Calc.num_der _ h y (toks_formula hy)) (noCurly_formula hy)
    simpa [synPart] using ih _ _ r i1 i2 ht
  | truth h _ _ ih =>
    intro s xs ts hx hc ht
    obtain ⟨o, r, rfl, ho, ht⟩ := ht.cons
    obtain ⟨y, r, rfl, hy, ht⟩ := ht.append
    have hd := Der.up .factor _ _ _ (by decide) (.infix _ _ _ (.post _ _ _ (.pre _ _ _ (Calc.cond_der w.types h y (toks_formula hy)))))
    obtain ⟨i1, i2⟩ := plus ho hx hc hd (noCurly_formula hy)
    simpa [synPart] using ih _ _ r i1 i2 ht
  | text _ ih =>
    intro s xs ts hx hc ht
    obtain ⟨o, r, rfl, ho, ht⟩ := ht.cons
    obtain ⟨y, r, rfl, hy, ht⟩ := ht.cons
    obtain ⟨j1, j2⟩ := lit_der w hy
    obtain ⟨i1, i2⟩ := plus ho hx hc j1 j2
    simpa [synPart] using ih _ _ r i1 i2 ht
  | var _ ih =>
    intro s xs ts hx hc ht
    obtain ⟨o, r, rfl, ho, ht⟩ := ht.cons
    obtain ⟨y, r, rfl, hy, ht⟩ := ht.cons
    obtain ⟨j1, j2⟩ := var_der w hy
    obtain ⟨i1, i2⟩ := plus ho hx hc j1 j2
    simpa [synPart] using ih _ _ r i1 i2 ht

/-- A text with its parts. -/
theorem say_text (w : Site) {t : Tok} {s : Start} {ps : List Part} {ms : List Mark} {ts : List Tok} (h : erase t = fin s.mark)
    (hp : WritesParts ps ms) (ht : Toks ts ms) : ExprText w .expression (synTold s ps) (t :: ts) := by
  obtain ⟨i1, i2⟩ := start_der w h
  obtain ⟨j1, j2⟩ := parts_der w hp _ _ ts (.up .arith _ _ _ (by decide) i1) i2 ht
  exact ⟨⟨false, Calc.up_arith j1⟩, j2⟩

/-- A list of one command is spelt like the command. -/
theorem spells_one {w : Site} {d : Cmd} {ts : List Tok} (h : SpellsList w (srcs [d]) ts) : Spells w (src d) ts := by
  simp only [srcs] at h
  cases h with
  | cons _ _ _ _ h h' => cases h' with | nil => simpa using h

/-- The blocks of a `switch`. -/
theorem arms_spell (w : Site) : ∀ {xs : List Arm}, (∀ x ∈ xs, ∀ b, x.label = some b → WritesNum b x.ms) →
    (∀ x ∈ xs, ∀ ts, Toks ts x.ts → SpellsList w (srcs x.cmds) ts) → ∀ ts, Toks ts (xs.flatMap Arm.marks) →
    Stmt.SpellsCases w (srcArms (xs.map fun x => (x.label, x.cmds))) ts
  | [], _, _, ts, ht => by
    cases ht.nil
    exact .nil
  | x :: xs, hm, hc, ts, ht => by
    obtain ⟨q, r, rfl, hq, hr⟩ := Toks.append (ms := x.marks) (by simpa using ht)
    have ih := arms_spell w (fun y hy => hm y (List.mem_cons_of_mem _ hy)) (fun y hy => hc y (List.mem_cons_of_mem _ hy)) r hr
    have hc := hc x List.mem_cons_self
    have hm := hm x List.mem_cons_self
    obtain ⟨label, cmds, ms, us⟩ := x
    cases label with
    | none =>
      obtain ⟨k, q, rfl, h1, hq⟩ := hq.cons
      obtain ⟨m, q, rfl, h2, hq⟩ := hq.cons
      obtain ⟨o, q, rfl, h3, hq⟩ := hq.cons
      obtain ⟨b, q, rfl, h4, hq⟩ := hq.append
      obtain ⟨c, q, rfl, h5, hq⟩ := hq.cons
      cases hq.nil
      have := Stmt.SpellsCases.default k m o c _ _ b r (word_tok h1 "default" rfl) (mark_colon h2) (mark_lcurly h3) (mark_rcurly h5) (hc b h4) ih
      simpa [srcArms] using this
    | some a =>
      obtain ⟨k, q, rfl, h1, hq⟩ := hq.cons
      obtain ⟨es, q, rfl, h6, hq⟩ := hq.append
      obtain ⟨m, q, rfl, h2, hq⟩ := hq.cons
      obtain ⟨o, q, rfl, h3, hq⟩ := hq.cons
      obtain ⟨b, q, rfl, h4, hq⟩ := hq.append
      obtain ⟨c, q, rfl, h5, hq⟩ := hq.cons
      cases hq.nil
      have := Stmt.SpellsCases.case k m o c _ _ _ es b r (word_tok h1 "case" rfl) (mark_colon h2) (mark_lcurly h3) (mark_rcurly h5)
        (num_text w (hm a rfl) h6) (hc b h4) ih
      simpa [srcArms] using this

theorem writes_spells (w : Site) {cs : List Cmd} {ms : List Mark} (h : Writes cs ms) :
    Named ms → ∀ ts, Toks ts ms → SpellsList w (srcs cs) ts := by
  induction h with
  | nil =>
    intro _ ts ht
    cases ht.nil
    exact .nil
  | int h _ ih =>
    intro hn ts ht
    obtain ⟨t, r, rfl, h1, ht⟩ := ht.cons
    obtain ⟨x, r, rfl, h2, ht⟩ := ht.cons
    obtain ⟨a, r, rfl, h3, ht⟩ := ht.cons
    obtain ⟨es, r, rfl, h4, ht⟩ := ht.append
    obtain ⟨m, r, rfl, h5, ht⟩ := ht.cons
    have hs := Spells.simple _ _ m (decl_text w h1 plain_int h2 (hn _ (by simp)) h3 (num_text w h h4)) (mark_semi h5)
    have := SpellsList.cons _ _ _ _ hs (ih (fun n h => hn n (by simp [h])) r ht)
    simpa [srcs, src] using this
  | bool h _ ih =>
    intro hn ts ht
    obtain ⟨t, r, rfl, h1, ht⟩ := ht.cons
    obtain ⟨x, r, rfl, h2, ht⟩ := ht.cons
    obtain ⟨a, r, rfl, h3, ht⟩ := ht.cons
    obtain ⟨es, r, rfl, h4, ht⟩ := ht.append
    obtain ⟨m, r, rfl, h5, ht⟩ := ht.cons
    have hs := Spells.simple _ _ m (decl_text w h1 plain_bool h2 (hn _ (by simp)) h3 (cond_text w h h4)) (mark_semi h5)
    have := SpellsList.cons _ _ _ _ hs (ih (fun n h => hn n (by simp [h])) r ht)
    simpa [srcs, src] using this
  | set h _ ih =>
    intro hn ts ht
    obtain ⟨es, r, rfl, h4, ht⟩ := ht.append
    obtain ⟨m, r, rfl, h5, ht⟩ := ht.cons
    have hs := Spells.simple _ _ m (change_text w h (fun n h => hn n (by simp [h])) h4) (mark_semi h5)
    have := SpellsList.cons _ _ _ _ hs (ih (fun n h => hn n (by simp [h])) r ht)
    simpa [srcs, src] using this
  | text h _ ih =>
    intro hn ts ht
    obtain ⟨t, r, rfl, h1, ht⟩ := ht.cons
    obtain ⟨x, r, rfl, h2, ht⟩ := ht.cons
    obtain ⟨a, r, rfl, h3, ht⟩ := ht.cons
    obtain ⟨s, r, rfl, h4, ht⟩ := ht.cons
    obtain ⟨y, r, rfl, h7, ht⟩ := ht.append
    obtain ⟨m, r, rfl, h5, ht⟩ := ht.cons
    have hs := Spells.simple _ _ m (decl_text w h1 plain_string h2 (hn _ (by simp)) h3 (say_text w h4 h h7)) (mark_semi h5)
    have := SpellsList.cons _ _ _ _ hs (ih (fun n h => hn n (by simp [h])) r ht)
    simpa [srcs, src] using this
  | write h _ ih =>
    intro hn ts ht
    obtain ⟨x, r, rfl, h2, ht⟩ := ht.cons
    obtain ⟨a, r, rfl, h3, ht⟩ := ht.cons
    obtain ⟨s, r, rfl, h4, ht⟩ := ht.cons
    obtain ⟨y, r, rfl, h7, ht⟩ := ht.append
    obtain ⟨m, r, rfl, h5, ht⟩ := ht.cons
    have hs := Spells.simple _ _ m (assign_text w h2 (hn _ (by simp)) h3 (say_text w h4 h h7)) (mark_semi h5)
    have := SpellsList.cons _ _ _ _ hs (ih (fun n h => hn n (by simp [h])) r ht)
    simpa [srcs, src] using this
  | fresh _ ih =>
    intro hn ts ht
    obtain ⟨t, r, rfl, h1, ht⟩ := ht.cons
    obtain ⟨x, r, rfl, h2, ht⟩ := ht.cons
    obtain ⟨m, r, rfl, h5, ht⟩ := ht.cons
    have hs := Spells.simple _ _ m (fresh_text w h1 (plain_kind _) h2 (hn _ (by simp))) (mark_semi h5)
    have := SpellsList.cons _ _ _ _ hs (ih (fun n h => hn n (by simp [h])) r ht)
    simpa [srcs, src] using this
  | check h _ ih =>
    intro hn ts ht
    obtain ⟨k, r, rfl, h2, ht⟩ := ht.cons
    obtain ⟨o, r, rfl, h3, ht⟩ := ht.cons
    obtain ⟨es, r, rfl, h4, ht⟩ := ht.append
    obtain ⟨c, r, rfl, h5, ht⟩ := ht.cons
    obtain ⟨m, r, rfl, h6, ht⟩ := ht.cons
    have hs := Spells.assert k o c m _ es (word_tok h2 "assert" rfl) (mark_lparen h3) (mark_rparen h5) (mark_semi h6) (cond_text w h h4)
    have := SpellsList.cons _ _ _ _ hs (ih (fun n h => hn n (by simp [h])) r ht)
    simpa [srcs, src] using this
  | mark h _ ih =>
    intro hn ts ht
    obtain ⟨x, r, rfl, h2, ht⟩ := ht.cons
    obtain ⟨a, r, rfl, h3, ht⟩ := ht.cons
    obtain ⟨es, r, rfl, h4, ht⟩ := ht.append
    obtain ⟨m, r, rfl, h5, ht⟩ := ht.cons
    have hs := Spells.simple _ _ m (assign_text w h2 (hn _ (by simp)) h3 (cond_text w h h4)) (mark_semi h5)
    have := SpellsList.cons _ _ _ _ hs (ih (fun n h => hn n (by simp [h])) r ht)
    simpa [srcs, src] using this
  | call h _ ih =>
    intro hn ts ht
    obtain ⟨x, r, rfl, h2, ht⟩ := ht.cons
    obtain ⟨a, r, rfl, h3, ht⟩ := ht.cons
    obtain ⟨f, r, rfl, h4, ht⟩ := ht.cons
    obtain ⟨o, r, rfl, h5, ht⟩ := ht.cons
    obtain ⟨es, r, rfl, h6, ht⟩ := ht.append
    obtain ⟨c, r, rfl, h7, ht⟩ := ht.cons
    obtain ⟨m, r, rfl, h8, ht⟩ := ht.cons
    have hs := Spells.simple _ _ m (assign_text w h2 (hn _ (by simp)) h3 (call_text w h4 h5 h7 h h6)) (mark_semi h8)
    have := SpellsList.cons _ _ _ _ hs (ih (fun n h => hn n (by simp [h])) r ht)
    simpa [srcs, src] using this
  | callNew h _ ih =>
    intro hn ts ht
    obtain ⟨t, r, rfl, h1, ht⟩ := ht.cons
    obtain ⟨x, r, rfl, h2, ht⟩ := ht.cons
    obtain ⟨a, r, rfl, h3, ht⟩ := ht.cons
    obtain ⟨f, r, rfl, h4, ht⟩ := ht.cons
    obtain ⟨o, r, rfl, h5, ht⟩ := ht.cons
    obtain ⟨es, r, rfl, h6, ht⟩ := ht.append
    obtain ⟨c, r, rfl, h7, ht⟩ := ht.cons
    obtain ⟨m, r, rfl, h8, ht⟩ := ht.cons
    have hs := Spells.simple _ _ m (decl_text w h1 plain_int h2 (hn _ (by simp)) h3 (call_text w h4 h5 h7 h h6)) (mark_semi h8)
    have := SpellsList.cons _ _ _ _ hs (ih (fun n h => hn n (by simp [h])) r ht)
    simpa [srcs, src] using this
  | callPrint h _ ih =>
    intro hn ts ht
    obtain ⟨k, r, rfl, h1, ht⟩ := ht.cons
    obtain ⟨o', r, rfl, h2, ht⟩ := ht.cons
    obtain ⟨f, r, rfl, h4, ht⟩ := ht.cons
    obtain ⟨o, r, rfl, h5, ht⟩ := ht.cons
    obtain ⟨es, r, rfl, h6, ht⟩ := ht.append
    obtain ⟨c, r, rfl, h7, ht⟩ := ht.cons
    obtain ⟨c', r, rfl, h3, ht⟩ := ht.cons
    obtain ⟨m, r, rfl, h8, ht⟩ := ht.cons
    have hs := Spells.print k o' c' m _ _ (word_tok h1 "print" rfl) (mark_lparen h2) (mark_rparen h3) (mark_semi h8)
      (call_text w h4 h5 h7 h h6)
    have := SpellsList.cons _ _ _ _ hs (ih (fun n h => hn n (by simp [h])) r ht)
    simpa [srcs, src] using this
  | callRet h _ ih =>
    intro hn ts ht
    obtain ⟨k, r, rfl, h1, ht⟩ := ht.cons
    obtain ⟨f, r, rfl, h4, ht⟩ := ht.cons
    obtain ⟨o, r, rfl, h5, ht⟩ := ht.cons
    obtain ⟨es, r, rfl, h6, ht⟩ := ht.append
    obtain ⟨c, r, rfl, h7, ht⟩ := ht.cons
    obtain ⟨m, r, rfl, h8, ht⟩ := ht.cons
    have hs := Spells.ret k m _ _ (word_tok h1 "return" rfl) (mark_semi h8) (.some _ _ (call_text w h4 h5 h7 h h6))
    have := SpellsList.cons _ _ _ _ hs (ih (fun n h => hn n (by simp [h])) r ht)
    simpa [srcs, src] using this
  | act h _ ih =>
    intro hn ts ht
    obtain ⟨f, r, rfl, h4, ht⟩ := ht.cons
    obtain ⟨o, r, rfl, h5, ht⟩ := ht.cons
    obtain ⟨es, r, rfl, h6, ht⟩ := ht.append
    obtain ⟨c, r, rfl, h7, ht⟩ := ht.cons
    obtain ⟨m, r, rfl, h8, ht⟩ := ht.cons
    have hs := Spells.simple _ _ m (act_text w h4 (hn _ (by simp)) h5 h7 h h6) (mark_semi h8)
    have := SpellsList.cons _ _ _ _ hs (ih (fun n h => hn n (by simp [h])) r ht)
    simpa [srcs, src] using this
  | count h hc hs _ _ ihb ih =>
    intro hn ts ht
    obtain ⟨k, r, rfl, g1, ht⟩ := ht.cons
    obtain ⟨o, r, rfl, g2, ht⟩ := ht.cons
    obtain ⟨t, r, rfl, g3, ht⟩ := ht.cons
    obtain ⟨x, r, rfl, g4, ht⟩ := ht.cons
    obtain ⟨a, r, rfl, g5, ht⟩ := ht.cons
    obtain ⟨is, r, rfl, g6, ht⟩ := ht.append
    obtain ⟨m₁, r, rfl, g7, ht⟩ := ht.cons
    obtain ⟨es, r, rfl, g8, ht⟩ := ht.append
    obtain ⟨m₂, r, rfl, g9, ht⟩ := ht.cons
    obtain ⟨ss, r, rfl, g12, ht⟩ := ht.append
    obtain ⟨c, r, rfl, g13, ht⟩ := ht.cons
    obtain ⟨l, r, rfl, g14, ht⟩ := ht.cons
    obtain ⟨b, r, rfl, g15, ht⟩ := ht.append
    obtain ⟨z, r, rfl, g16, ht⟩ := ht.cons
    have hb := Spells.block l z _ b (mark_lcurly g14) (mark_rcurly g16) (ihb (fun n h => hn n (by simp [h])) b g15)
    have hs := Spells.for k o m₁ m₂ c _ _ _ _ _ _ _ _ (word_tok g1 "for" rfl) (mark_lparen g2) (mark_semi g7) (mark_semi g9)
      (mark_rparen g13) (.some _ _ (decl_text w g3 plain_int g4 (hn _ (by simp)) g5 (num_text w h g6)))
      (.some _ _ (cond_text w hc g8)) (.some _ _ (change_text w hs (fun n h => hn n (by simp [h])) g12)) hb
    have := SpellsList.cons _ _ _ _ hs (ih (fun n h => hn n (by simp [h])) r ht)
    simpa [srcs, src] using this
  | say h _ ih =>
    intro hn ts ht
    obtain ⟨k, r, rfl, h2, ht⟩ := ht.cons
    obtain ⟨o, r, rfl, h3, ht⟩ := ht.cons
    obtain ⟨t, r, rfl, h4, ht⟩ := ht.cons
    obtain ⟨y, r, rfl, h7, ht⟩ := ht.append
    obtain ⟨c, r, rfl, h5, ht⟩ := ht.cons
    obtain ⟨m, r, rfl, h6, ht⟩ := ht.cons
    have hs := Spells.print k o c m _ (t :: y) (word_tok h2 "print" rfl) (mark_lparen h3) (mark_rparen h5) (mark_semi h6) (say_text w h4 h h7)
    have := SpellsList.cons _ _ _ _ hs (ih (fun n h => hn n (by simp [h])) r ht)
    simpa [srcs, src] using this
  | leave _ ih =>
    intro hn ts ht
    obtain ⟨k, r, rfl, h2, ht⟩ := ht.cons
    obtain ⟨m, r, rfl, h3, ht⟩ := ht.cons
    exact SpellsList.cons _ _ _ _ (.ret k m none [] (word_tok h2 "return" rfl) (mark_semi h3) .none)
      (ih (fun n h => hn n (by simp [h])) r ht)
  | print h _ ih =>
    intro hn ts ht
    obtain ⟨k, r, rfl, h2, ht⟩ := ht.cons
    obtain ⟨o, r, rfl, h3, ht⟩ := ht.cons
    obtain ⟨es, r, rfl, h4, ht⟩ := ht.append
    obtain ⟨c, r, rfl, h5, ht⟩ := ht.cons
    obtain ⟨m, r, rfl, h6, ht⟩ := ht.cons
    have hs := Spells.print k o c m _ es (word_tok h2 "print" rfl) (mark_lparen h3) (mark_rparen h5) (mark_semi h6) (num_text w h h4)
    have := SpellsList.cons _ _ _ _ hs (ih (fun n h => hn n (by simp [h])) r ht)
    simpa [srcs, src] using this
  | «when» h _ _ iht ih =>
    intro hn ts ht
    obtain ⟨k, r, rfl, h2, ht⟩ := ht.cons
    obtain ⟨o, r, rfl, h3, ht⟩ := ht.cons
    obtain ⟨es, r, rfl, h4, ht⟩ := ht.append
    obtain ⟨c, r, rfl, h5, ht⟩ := ht.cons
    obtain ⟨l, r, rfl, h6, ht⟩ := ht.cons
    obtain ⟨b, r, rfl, h7, ht⟩ := ht.append
    obtain ⟨z, r, rfl, h8, ht⟩ := ht.cons
    have hb := Spells.block l z _ b (mark_lcurly h6) (mark_rcurly h8) (iht (fun n h => hn n (by simp [h])) b h7)
    have hs := Spells.ifThen k o c _ _ es _ (word_tok h2 "if" rfl) (mark_lparen h3) (mark_rparen h5) (cond_text w h h4) hb
    have := SpellsList.cons _ _ _ _ hs (ih (fun n h => hn n (by simp [h])) r ht)
    simpa [srcs, src] using this
  | choose h _ _ _ iht ihe ih =>
    intro hn ts ht
    obtain ⟨k, r, rfl, h2, ht⟩ := ht.cons
    obtain ⟨o, r, rfl, h3, ht⟩ := ht.cons
    obtain ⟨es, r, rfl, h4, ht⟩ := ht.append
    obtain ⟨c, r, rfl, h5, ht⟩ := ht.cons
    obtain ⟨l, r, rfl, h6, ht⟩ := ht.cons
    obtain ⟨b, r, rfl, h7, ht⟩ := ht.append
    obtain ⟨z, r, rfl, h8, ht⟩ := ht.cons
    obtain ⟨k', r, rfl, h9, ht⟩ := ht.cons
    obtain ⟨l', r, rfl, h10, ht⟩ := ht.cons
    obtain ⟨b', r, rfl, h11, ht⟩ := ht.append
    obtain ⟨z', r, rfl, h12, ht⟩ := ht.cons
    have hb := Spells.block l z _ b (mark_lcurly h6) (mark_rcurly h8) (iht (fun n h => hn n (by simp [h])) b h7)
    have hb' := Spells.block l' z' _ b' (mark_lcurly h10) (mark_rcurly h12) (ihe (fun n h => hn n (by simp [h])) b' h11)
    have hs := Spells.ifElse k o c k' _ _ _ es _ _ (word_tok h2 "if" rfl) (mark_lparen h3) (mark_rparen h5)
      (word_tok h9 "else" rfl) (cond_text w h h4) hb rfl hb'
    have := SpellsList.cons _ _ _ _ hs (ih (fun n h => hn n (by simp [h])) r ht)
    simpa [srcs, src] using this
  | chain h _ _ _ _ iht ihe ih =>
    intro hn ts ht
    obtain ⟨k, r, rfl, h2, ht⟩ := ht.cons
    obtain ⟨o, r, rfl, h3, ht⟩ := ht.cons
    obtain ⟨es, r, rfl, h4, ht⟩ := ht.append
    obtain ⟨c, r, rfl, h5, ht⟩ := ht.cons
    obtain ⟨l, r, rfl, h6, ht⟩ := ht.cons
    obtain ⟨b, r, rfl, h7, ht⟩ := ht.append
    obtain ⟨z, r, rfl, h8, ht⟩ := ht.cons
    obtain ⟨k', r, rfl, h9, ht⟩ := ht.cons
    obtain ⟨b', r, rfl, h11, ht⟩ := ht.append
    have hb := Spells.block l z _ b (mark_lcurly h6) (mark_rcurly h8) (iht (fun n h => hn n (by simp [h])) b h7)
    have hb' := spells_one (ihe (fun n h => hn n (by simp [h])) b' h11)
    have hs := Spells.ifElse k o c k' _ _ _ es _ _ (word_tok h2 "if" rfl) (mark_lparen h3) (mark_rparen h5)
      (word_tok h9 "else" rfl) (cond_text w h h4) hb rfl hb'
    have := SpellsList.cons _ _ _ _ hs (ih (fun n h => hn n (by simp [h])) r ht)
    simpa [srcs, src] using this
  | @pick _ xs _ _ _ h hm _ _ iht ih =>
    intro hn ts ht
    obtain ⟨k, r, rfl, h2, ht⟩ := ht.cons
    obtain ⟨o, r, rfl, h3, ht⟩ := ht.cons
    obtain ⟨es, r, rfl, h4, ht⟩ := ht.append
    obtain ⟨c, r, rfl, h5, ht⟩ := ht.cons
    obtain ⟨l, r, rfl, h6, ht⟩ := ht.cons
    obtain ⟨b, r, rfl, h7, ht⟩ := ht.append
    obtain ⟨z, r, rfl, h8, ht⟩ := ht.cons
    have hb := arms_spell w hm (fun x hx => iht x hx fun n hn' => hn n (by
      have : Mark.name n ∈ x.marks := by unfold Arm.marks; split <;> simp [hn']
      simp only [List.mem_cons, List.mem_append, List.mem_flatMap]
      exact .inr (.inr (.inr (.inr (.inr (.inl ⟨x, hx, this⟩))))))) b h7
    have hs := Spells.switch k o c l z _ _ es _ (word_tok h2 "switch" rfl) (mark_lparen h3) (mark_rparen h5) (mark_lcurly h6) (mark_rcurly h8)
      (num_text w h h4) hb
    have := SpellsList.cons _ _ _ _ hs (ih (fun n h => hn n (by simp [h])) r ht)
    simpa [srcs, src] using this
  | loop h _ _ iht ih =>
    intro hn ts ht
    obtain ⟨k, r, rfl, h2, ht⟩ := ht.cons
    obtain ⟨o, r, rfl, h3, ht⟩ := ht.cons
    obtain ⟨es, r, rfl, h4, ht⟩ := ht.append
    obtain ⟨c, r, rfl, h5, ht⟩ := ht.cons
    obtain ⟨l, r, rfl, h6, ht⟩ := ht.cons
    obtain ⟨b, r, rfl, h7, ht⟩ := ht.append
    obtain ⟨z, r, rfl, h8, ht⟩ := ht.cons
    have hb := Spells.block l z _ b (mark_lcurly h6) (mark_rcurly h8) (iht (fun n h => hn n (by simp [h])) b h7)
    have hs := Spells.while k o c _ _ es _ (word_tok h2 "while" rfl) (mark_lparen h3) (mark_rparen h5) (cond_text w h h4) hb
    have := SpellsList.cons _ _ _ _ hs (ih (fun n h => hn n (by simp [h])) r ht)
    simpa [srcs, src] using this
  | block _ _ iht ih =>
    intro hn ts ht
    obtain ⟨l, r, rfl, h6, ht⟩ := ht.cons
    obtain ⟨b, r, rfl, h7, ht⟩ := ht.append
    obtain ⟨z, r, rfl, h8, ht⟩ := ht.cons
    have hs := Spells.block l z _ b (mark_lcurly h6) (mark_rcurly h8) (iht (fun n h => hn n (by simp [h])) b h7)
    have := SpellsList.cons _ _ _ _ hs (ih (fun n h => hn n (by simp [h])) r ht)
    simpa [srcs, src] using this
  | brk _ ih =>
    intro hn ts ht
    obtain ⟨k, r, rfl, h2, ht⟩ := ht.cons
    obtain ⟨m, r, rfl, h3, ht⟩ := ht.cons
    exact SpellsList.cons _ _ _ _ (.brk k m (word_tok h2 "break" rfl) (mark_semi h3)) (ih (fun n h => hn n (by simp [h])) r ht)
  | cont _ ih =>
    intro hn ts ht
    obtain ⟨k, r, rfl, h2, ht⟩ := ht.cons
    obtain ⟨m, r, rfl, h3, ht⟩ := ht.cons
    exact SpellsList.cons _ _ _ _ (.cont k m (word_tok h2 "continue" rfl) (mark_semi h3)) (ih (fun n h => hn n (by simp [h])) r ht)
  | ret h _ ih =>
    intro hn ts ht
    obtain ⟨k, r, rfl, h2, ht⟩ := ht.cons
    obtain ⟨es, r, rfl, h4, ht⟩ := ht.append
    obtain ⟨m, r, rfl, h5, ht⟩ := ht.cons
    have hs := Spells.ret k m _ es (word_tok h2 "return" rfl) (mark_semi h5) (.some _ es (num_text w h h4))
    have := SpellsList.cons _ _ _ _ hs (ih (fun n h => hn n (by simp [h])) r ht)
    simpa [srcs, src] using this

theorem arms_fit (w : Site) : ∀ {as : List (Option Num × List Cmd)}, (∀ x ∈ as, Stmt.FitsList w (srcs x.2)) → Stmt.FitsCases w (srcArms as)
  | [], _ => trivial
  | (none, b) :: as, h => ⟨h _ List.mem_cons_self, arms_fit w fun x hx => h x (List.mem_cons_of_mem _ hx)⟩
  | (some _, b) :: as, h => ⟨h _ List.mem_cons_self, arms_fit w fun x hx => h x (List.mem_cons_of_mem _ hx)⟩

/-- Names that are no types: the loops have blocks as bodies. -/
theorem srcs_fit (w : Site) {p : Program} {r : Give} {l : Around} {Γ : Ctx} {cs : List Cmd} (h : Fits p r l Γ cs)
    (hw : ∀ n, Usable n → Stmt.NotType w n) : Stmt.FitsList w (srcs cs) := by
  induction h with
  | nil => trivial
  | int hn _ _ _ _ ih => exact ⟨fun x hx => by cases List.mem_singleton.1 hx; exact hw _ hn, ih⟩
  | bool hn _ _ _ _ ih => exact ⟨fun x hx => by cases List.mem_singleton.1 hx; exact hw _ hn, ih⟩
  | set _ _ _ ih => exact ⟨fun x hx => (by cases hx), ih⟩
  | fresh hn _ _ ih => exact ⟨fun x hx => by cases List.mem_singleton.1 hx; exact hw _ hn, ih⟩
  | check _ _ ih => exact ⟨trivial, ih⟩
  | mark _ _ _ ih => exact ⟨fun x hx => (by cases hx), ih⟩
  | call hu _ _ _ _ _ ih =>
    cases hu with
    | set => exact ⟨fun x hx => (by cases hx), ih⟩
    | new hn => exact ⟨fun x hx => by cases List.mem_singleton.1 hx; exact hw _ hn, ih⟩
    | print => exact ⟨trivial, ih⟩
    | ret => exact ⟨trivial, ih⟩
  | print _ _ ih => exact ⟨trivial, ih⟩
  | say _ _ _ ih => exact ⟨trivial, ih⟩
  | text hn _ _ _ _ _ ih => exact ⟨fun x hx => by cases List.mem_singleton.1 hx; exact hw _ hn, ih⟩
  | write _ _ _ _ ih => exact ⟨fun x hx => (by cases hx), ih⟩
  | «when» _ _ _ iht ih => exact ⟨iht, ih⟩
  | choose _ _ _ _ iht ihe ih => exact ⟨⟨rfl, iht, ihe⟩, ih⟩
  | chain _ _ _ _ _ iht ihe ih => exact ⟨⟨rfl, iht, ihe.1⟩, ih⟩
  | pick _ _ _ _ _ _ _ iht ih => exact ⟨arms_fit w iht, ih⟩
  | loop _ _ _ iht ih => exact ⟨⟨.inl rfl, iht⟩, ih⟩
  | block _ _ iht ih => exact ⟨iht, ih⟩
  | brk _ _ ih => exact ⟨trivial, ih⟩
  | cont _ _ ih => exact ⟨trivial, ih⟩
  | ret _ _ ih => exact ⟨trivial, ih⟩
  | leave _ ih => exact ⟨trivial, ih⟩
  | act _ _ _ _ ih => exact ⟨fun x hx => (by cases hx), ih⟩
  | count hn _ _ _ _ _ _ _ ihb ih =>
    exact ⟨⟨fun x hx => by cases List.mem_singleton.1 hx; exact hw _ hn, fun x hx => (by cases hx), .inl rfl, ihb⟩, ih⟩

end Verif.Whole
