import Verif.Stmt.Fits

/-!
# Statements are read as they are written
-/

namespace Verif.Stmt

open Verif.Str (Text)
open Verif.Lex (Tok Ty Cat)
open Verif.Types (TName)
open Verif.Brackets (Nested)
open Verif.Expr (Env Sym Kind Res Expr Syn Der DerArgs Plain Lvl Ends resolve expect bind_ok expect_ok)

/-! ## Curly brackets -/

/-- Well nested curly brackets. -/
abbrev NC (ts : List Tok) : Prop := Nested .BRACKET_CURLY_OPEN .BRACKET_CURLY_CLOSE ts

theorem NC.append {a b : List Tok} (ha : NC a) (hb : NC b) : NC (a ++ b) := by
  induction ha with
  | nil => exact hb
  | other h1 h2 _ ih => exact .other h1 h2 ih
  | group ho hc h1 _ _ ih =>
    simp only [List.cons_append, List.append_assoc]
    exact .group ho hc h1 ih

theorem NC.one {t : Tok} (h1 : t.ty ≠ .BRACKET_CURLY_OPEN) (h2 : t.ty ≠ .BRACKET_CURLY_CLOSE) : NC [t] := .other h1 h2 .nil

theorem NoCurly.nc {ts : List Tok} (h : NoCurly ts) : NC ts := by
  induction ts with
  | nil => exact .nil
  | cons t ts ih =>
    exact .other (h t List.mem_cons_self).1 (h t List.mem_cons_self).2 (ih fun u hu => h u (List.mem_cons_of_mem _ hu))

theorem NC.mk {t : Tok} {ts : List Tok} (ty : Ty) (h : t.ty = ty) (h1 : ty ≠ .BRACKET_CURLY_OPEN) (h2 : ty ≠ .BRACKET_CURLY_CLOSE)
    (hs : NC ts) : NC (t :: ts) := .other (by rw [h]; exact h1) (by rw [h]; exact h2) hs

theorem Word.nc {w : String} {t : Tok} {ts : List Tok} (h : Word w t) (hs : NC ts) : NC (t :: ts) := .mk _ h.1 (by decide) (by decide) hs

theorem Name.nc {t : Tok} {ts : List Tok} (h : Name t) (hs : NC ts) : NC (t :: ts) := .mk _ h.1 (by decide) (by decide) hs

theorem Mark.nc {ty : Ty} {t : Tok} {ts : List Tok} (h : Mark ty t) (hs : NC ts) (h1 : ty ≠ .BRACKET_CURLY_OPEN := by decide)
    (h2 : ty ≠ .BRACKET_CURLY_CLOSE := by decide) : NC (t :: ts) := .mk ty h.1 h1 h2 hs

theorem ExprText.nc {w : Site} {l : Lvl} {e : Syn} {ts : List Tok} (h : ExprText w l e ts) : NC ts := h.2.nc

theorem Mutability.nc {m : Option Bool} {ts : List Tok} (h : Mutability m ts) : NC ts := by
  cases h with
  | none => exact .nil
  | const t ht => exact .mk _ ht (by decide) (by decide) .nil
  | modify t ht => exact .mk _ ht (by decide) (by decide) .nil

theorem Access.nc {m : Option Bool} {ts : List Tok} (h : Access m ts) : NC ts := by
  cases h with
  | none => exact .nil
  | ref t ht => exact .mk _ ht (by decide) (by decide) .nil
  | val t ht => exact .mk _ ht (by decide) (by decide) .nil

theorem DeclText.nc {d : Decl} {ts : List Tok} (h : DeclText d ts) : NC ts := by
  cases h with
  | mk t x m a ms as ht hx hm ha => exact ht.nc (hx.nc (hm.nc.append ha.nc))

theorem SimpleText.nc {w : Site} {i : Simple} {ts : List Tok} (h : SimpleText w i ts) : NC ts := by
  cases h with
  | expr e ts h =>
    cases h with
    | assign t a e ts ht ha h => exact h.nc
    | paren t e ts ht h => exact h.nc
    | use t e ts ht hc h => exact ht.nc hc.nc
  | decl d ds hd => exact hd.nc
  | init d a e ds ts hd ha h => exact hd.nc.append (.mk _ ha.1 (by decide) (by decide) h.nc)
  | infer v x a m r e ms as ts hv hx hm hr ha h =>
    exact hv.nc (hx.nc ((hm.nc.append hr.nc).append (.mk _ ha.1 (by decide) (by decide) h.nc)))

theorem OptText.nc {α : Type} {P : α → List Tok → Prop} {a : Option α} {ts : List Tok} (h : OptText P a ts)
    (hp : ∀ a ts, P a ts → NC ts) : NC ts := by
  cases h with
  | none => exact .nil
  | some a ts h => exact hp a ts h

theorem NC.wrap {o c : Tok} {a b : List Tok} (ho : Mark .BRACKET_CURLY_OPEN o) (hc : Mark .BRACKET_CURLY_CLOSE c) (ha : NC a)
    (hb : NC b) : NC (o :: a ++ c :: b) := .group ho.1 hc.1 ha hb

mutual

theorem Spells.nc {w : Site} {s : Src} {ts : List Tok} : Spells w s ts → NC ts
  | .empty t ht => ht.nc .nil
  | .simple s ts t h ht => h.nc.append (ht.nc .nil)
  | .block o c b ts ho hc h => .wrap ho hc h.nc .nil
  | .ifThen k o c e t es ts hk ho hc he ht => hk.nc (ho.nc (he.nc.append (hc.nc ht.nc)))
  | .ifElse k o c l e t f es ts fs hk ho hc hl he ht hd hf =>
    hk.nc (ho.nc ((he.nc.append (hc.nc ht.nc)).append (hl.nc hf.nc)))
  | .while k o c e b es ts hk ho hc he hb => hk.nc (ho.nc (he.nc.append (hc.nc hb.nc)))
  | .for k o m₁ m₂ c i e s b is es ss ts hk ho h₁ h₂ hc hi he hs hb =>
    hk.nc (ho.nc ((((hi.nc fun _ _ h => h.nc).append (h₁.nc (he.nc fun _ _ h => h.nc))).append (h₂.nc (hs.nc fun _ _ h => h.nc))).append (hc.nc hb.nc)))
  | .foreach k o m c d e b ds es ts hk ho hm hc hd he hb =>
    hk.nc (ho.nc ((hd.nc.append (hm.nc he.nc)).append (hc.nc hb.nc)))
  | .switch k o c bo bc e cs es ts hk ho hc hbo hbc he hcs =>
    by
      have : NC (bo :: ts ++ [bc]) := .wrap hbo hbc hcs.nc .nil
      have := hk.nc (ho.nc (he.nc.append (hc.nc this)))
      simpa using this
  | .try k o c b hs ts us hk ho hc hb hh => hk.nc (.wrap ho hc hb.nc hh.nc)
  | .ret k m e es hk hm he => hk.nc ((he.nc fun _ _ h => h.nc).append (hm.nc .nil))
  | .throw k m e es hk hm he => hk.nc ((he.nc fun _ _ h => h.nc).append (hm.nc .nil))
  | .brk k m hk hm => hk.nc (hm.nc .nil)
  | .cont k m hk hm => hk.nc (hm.nc .nil)
  | .assert k o c m e es hk ho hc hm he => hk.nc (ho.nc (he.nc.append (hc.nc (hm.nc .nil))))
  | .assertMsg k o p c m e f es fs hk ho hp hc hm he hf =>
    hk.nc (ho.nc ((he.nc.append (hp.nc hf.nc)).append (hc.nc (hm.nc .nil))))
  | .print k o c m e es hk ho hc hm he => hk.nc (ho.nc (he.nc.append (hc.nc (hm.nc .nil))))
  | .exit k o c m e es hk ho hc hm he => hk.nc (ho.nc (he.nc.append (hc.nc (hm.nc .nil))))
  | .delete k m e es hk hm he => hk.nc (he.nc.append (hm.nc .nil))

theorem SpellsList.nc {w : Site} {b : List Src} {ts : List Tok} : SpellsList w b ts → NC ts
  | .nil => .nil
  | .cons s b ts us h hb => h.nc.append hb.nc

theorem SpellsCases.nc {w : Site} {cs : List (Option Syn × List Src)} {ts : List Tok} : SpellsCases w cs ts → NC ts
  | .nil => .nil
  | .case k m o c e b cs es ts us hk hm ho hc he hb hs => by
    have := hk.nc (he.nc.append (hm.nc (NC.wrap ho hc hb.nc hs.nc)))
    simpa using this
  | .default k m o c b cs ts us hk hm ho hc hb hs => hk.nc (hm.nc (.wrap ho hc hb.nc hs.nc))

theorem SpellsHandlers.nc {w : Site} {hs : List (Handler × List Src)} {ts : List Tok} : SpellsHandlers w hs ts → NC ts
  | .nil => .nil
  | .catchAll k o c b hs ts us hk ho hc hb hr => hk.nc (.wrap ho hc hb.nc hr.nc)
  | .catch k p q o c d b hs ds ts us hk hp hq ho hc hd hb hr => by
    have := hk.nc (hp.nc (hd.nc.append (hq.nc (NC.wrap ho hc hb.nc hr.nc))))
    simpa using this
  | .fin k o c b hs ts us hk ho hc hb hr => hk.nc (.wrap ho hc hb.nc hr.nc)

end

/-! ## The first token -/

/-- A token that begins a statement. -/
def Opens (t : Tok) : Prop :=
  t.ty ≠ .ENDOFFILE ∧ t.content ≠ "catch".toList ∧ t.content ≠ "finally".toList ∧ isWord t "else" = false

theorem Name.opens {t : Tok} (h : Name t) : Opens t :=
  ⟨by rw [h.1]; decide, fun e => h.2.2 (by rw [e]; decide), fun e => h.2.2 (by rw [e]; decide), by simp [isWord, h.1]⟩

theorem Mark.opens {ty : Ty} {t : Tok} (h : Mark ty t) (h1 : ty ≠ .ENDOFFILE := by decide) (h2 : ty ≠ .KEYWORD := by decide) : Opens t :=
  ⟨by rw [h.1]; exact h1, fun e => h.2.2 (by rw [e]; decide), fun e => h.2.2 (by rw [e]; decide), by simp [isWord, h.1, h2]⟩

theorem Word.opens {w : String} {t : Tok} (h : Word w t) (h1 : w.toList ≠ "catch".toList := by decide)
    (h2 : w.toList ≠ "finally".toList := by decide) (h3 : w.toList ≠ "else".toList := by decide) : Opens t :=
  ⟨by rw [h.1]; decide, by rw [h.2]; exact h1, by rw [h.2]; exact h2, by simp only [isWord, h.2, h3]; simp⟩

theorem SimpleText.opens {w : Site} {i : Simple} {ts : List Tok} (h : SimpleText w i ts) :
    ∃ t r, ts = t :: r ∧ Opens t ∧ t.ty ≠ .SEMICOLON ∧ t.ty ≠ .PARENTHESIS_CLOSE := by
  cases h with
  | expr e ts h =>
    cases h with
    | assign t a e ts ht ha h => exact ⟨t, _, rfl, ht.opens, by simp [ht.1], by simp [ht.1]⟩
    | paren t e ts ht h => exact ⟨t, _, rfl, ht.opens, by simp [ht.1], by simp [ht.1]⟩
    | use t e ts ht hc h => exact ⟨t, _, rfl, ht.opens, by simp [ht.1], by simp [ht.1]⟩
  | decl d ds hd =>
    obtain ⟨t, x, r, rfl, ht, -⟩ := hd.shape
    exact ⟨t, _, rfl, ht.opens, by simp [ht.1], by simp [ht.1]⟩
  | init d a e ds ts hd ha h =>
    obtain ⟨t, x, r, rfl, ht, -⟩ := hd.shape
    exact ⟨t, _, rfl, ht.opens, by simp [ht.1], by simp [ht.1]⟩
  | infer v x a m r e ms as ts hv hx hm hr ha h => exact ⟨v, _, rfl, hv.opens, by simp [hv.1], by simp [hv.1]⟩

theorem Spells.opens {w : Site} {s : Src} {ts : List Tok} (h : Spells w s ts) : ∃ t r, ts = t :: r ∧ Opens t := by
  cases h with
  | empty t ht => exact ⟨t, _, rfl, ht.opens⟩
  | simple s ts t h ht =>
    obtain ⟨u, r, rfl, hu, -⟩ := h.opens
    exact ⟨u, _, rfl, hu⟩
  | block o c b ts ho hc h => exact ⟨o, _, rfl, ho.opens⟩
  | ifThen k o c e t es ts hk => exact ⟨k, _, rfl, hk.opens⟩
  | ifElse k o c l e t f es ts fs hk => exact ⟨k, _, rfl, hk.opens⟩
  | «while» k o c e b es ts hk => exact ⟨k, _, rfl, hk.opens⟩
  | «for» k o m₁ m₂ c i e s b is es ss ts hk => exact ⟨k, _, rfl, hk.opens⟩
  | foreach k o m c d e b ds es ts hk => exact ⟨k, _, rfl, hk.opens⟩
  | switch k o c bo bc e cs es ts hk => exact ⟨k, _, rfl, hk.opens⟩
  | «try» k o c b hs ts us hk => exact ⟨k, _, rfl, hk.opens⟩
  | ret k m e es hk => exact ⟨k, _, rfl, hk.opens⟩
  | throw k m e es hk => exact ⟨k, _, rfl, hk.opens⟩
  | brk k m hk => exact ⟨k, _, rfl, hk.opens⟩
  | cont k m hk => exact ⟨k, _, rfl, hk.opens⟩
  | assert k o c m e es hk => exact ⟨k, _, rfl, hk.opens⟩
  | assertMsg k o p c m e f es fs hk => exact ⟨k, _, rfl, hk.opens⟩
  | print k o c m e es hk => exact ⟨k, _, rfl, hk.opens⟩
  | exit k o c m e es hk => exact ⟨k, _, rfl, hk.opens⟩
  | delete k m e es hk => exact ⟨k, _, rfl, hk.opens⟩

/-! ## Reading -/

/-- What a statement leaves of its own tokens. -/
def Left (s : Src) (l : List Tok) : Prop := if closed s then l = [] else ∃ m, l = [m] ∧ Mark .SEMICOLON m

/-- What may follow behind a statement. -/
def Follow (s : Src) (rest : List Tok) : Prop :=
  ∀ t r, rest = t :: r → t.content ≠ "catch".toList ∧ t.content ≠ "finally".toList ∧ (endsIf s = true → isWord t "else" = false)

theorem Follow.opens {s : Src} {t : Tok} {rest : List Tok} (h : Opens t) : Follow s (t :: rest) := by
  intro u r he
  cases he
  exact ⟨h.2.1, h.2.2.1, fun _ => h.2.2.2⟩

theorem Follow.left {s s' : Src} {l rest : List Tok} (hl : Left s l) (hc : closed s' = closed s) (he : endsIf s = endsIf s')
    (h : Follow s' (l ++ rest)) : Follow s (l ++ rest) := by
  intro t r e
  have := h t r e
  rw [he]; exact this

def ReadsStmt (w : Site) (s : Src) (ts : List Tok) : Prop :=
  Fits w s → ∃ l, Left s l ∧ ∀ n inner allow st rest, 4 * ts.length ≤ n → Names w st → Follow s (l ++ rest) →
    statement w n inner allow st (ts ++ rest) = Res.ofOption (elabStmt w (allow || (inner && isBlock s)) st s) (l ++ rest)

def ReadsList (w : Site) (b : List Src) (ts : List Tok) : Prop :=
  FitsList w b → ∀ n allow st, 4 * ts.length + 1 ≤ n → Names w st →
    statements w n allow st ts = Res.ofOption (elabList w allow st b) []

def ReadsCases (w : Site) (cs : List (Option Syn × List Src)) (ts : List Tok) : Prop :=
  FitsCases w cs → ∀ n st acc d c rest, 4 * ts.length + 1 ≤ n → Names w st → Mark .BRACKET_CURLY_CLOSE c →
    cases w n st acc d (ts ++ c :: rest) = Res.ofOption (elabCases w st acc d cs) (c :: rest)

def ReadsHandlers (w : Site) (hs : List (Handler × List Src)) (ts : List Tok) : Prop :=
  FitsHandlers w hs → ∀ n allow st c rest, 4 * ts.length + 1 ≤ n → Names w st →
    (∀ t r, rest = t :: r → t.content ≠ "catch".toList ∧ t.content ≠ "finally".toList) →
    clauses w n allow st c (ts ++ rest) = Res.ofOption (elabHandlers w allow st c hs) rest

/-- A block. -/
theorem ReadsList.block {w : Site} {b : List Src} {ts : List Tok} (h : ReadsList w b ts) (hf : FitsList w b) (hnc : NC ts) {o c : Tok}
    (ho : Mark .BRACKET_CURLY_OPEN o) (hc : Mark .BRACKET_CURLY_CLOSE c) {n : Nat} (hn : 4 * ts.length + 2 ≤ n) (allow needs : Bool)
    {st : St} (hst : Names w st) (rest : List Tok) :
    Stmt.block w n allow needs st (o :: (ts ++ c :: rest)) =
      Res.ofOption ((elabList w allow st.enter b).bind (leave needs)) (c :: rest) := by
  obtain ⟨n, rfl⟩ : ∃ k, n = k + 1 := ⟨n - 1, by omega⟩
  rw [Stmt.block, Brackets.statement_block_extracted ts rest o c ho.1 hc.1 hnc]
  dsimp only
  rw [h hf n allow st.enter (by omega) hst.enter]
  cases elabList w allow st.enter b with
  | none => rfl
  | some q => rfl

theorem elab_body {w : Site} {b : Src} (h : LoopBody b) (allow : Bool) (st : St) :
    elabStmt w (allow || (true && isBlock b)) st b = elabStmt w true st b := by
  rcases h with h | h
  · rw [h, Bool.and_true, Bool.or_true]
  · exact free_stmt w _ _ b st h

end Verif.Stmt
