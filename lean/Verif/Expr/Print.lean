import Verif.Expr.Fuel

/-! # Printing expressions, and the shape of the typed tree -/

namespace Verif.Expr

open Verif.Str (Text)
open Verif.Lex (Tok Ty Cat)
open Verif.Types (TName)

/-- A token of an operator or a bracket. -/
def tk (ty : Ty) : Tok := ⟨.operator, ty, [], 0, false⟩

/-- A token of a name. -/
def nameTok (n : Text) : Tok := ⟨.none, .IDENTIFIER, n, 0, false⟩

/-- How tightly the outermost operator binds: 0 names, literals, calls, casts, assignments; 1 prefix; 2 postfix; 3 `is` and
conditionals; 4 to 7 the binary operators. -/
def strength : Syn → Nat
  | .prefix _ _ => 1
  | .postfix _ _ => 2
  | .is _ _ => 3
  | .ternary _ _ _ => 3
  | .elvis _ _ => 3
  | .bin .factor _ _ _ => 4
  | .bin .arith _ _ _ => 5
  | .bin .condition _ _ _ => 6
  | .bin .expression _ _ _ => 7
  | _ => 0

/-- Assignments and conditionals extend as far to the right as possible. -/
def isOpen : Syn → Bool
  | .assign _ _ _ => true
  | .ternary _ _ _ => true
  | .elvis _ _ => true
  | .ccast _ _ => true
  | _ => false

/-- The strength of a level. -/
def lvlStrength : Lvl → Nat
  | .infix => 3
  | .factor => 4
  | .arith => 5
  | .condition => 6
  | .expression => 7

/-- Put parentheses around an operand unless it binds at least as tightly as needed. -/
def wrap (k : Nat) (s : Syn) (text : List Tok) : List Tok :=
  if strength s ≤ k ∧ isOpen s = false then text else tk .PARENTHESIS_OPEN :: text ++ [tk .PARENTHESIS_CLOSE]

/-- Parentheses always. -/
def paren (text : List Tok) : List Tok := tk .PARENTHESIS_OPEN :: text ++ [tk .PARENTHESIS_CLOSE]

mutual

/-- The printed expression; `t e` is never printed for a cast. -/
def print : Syn → List Tok
  | .lit ty c => [⟨.constant, ty, c, 0, false⟩]
  | .name n => [nameTok n]
  | .call f args => nameTok f :: tk .PARENTHESIS_OPEN :: printArgs args ++ [tk .PARENTHESIS_CLOSE]
  | .incdec n op => [nameTok n, tk op]
  | .cast ty e => ⟨.keyword, .KEYWORD, "cast".toList, 0, false⟩ :: tk .COMPARE_LESS :: nameTok ty :: tk .COMPARE_GREATER ::
      tk .PARENTHESIS_OPEN :: print e ++ [tk .PARENTHESIS_CLOSE]
  | .ccast ty e => nameTok ty :: print e
  | .assign n op e => nameTok n :: ⟨.assignment, op, [], 0, false⟩ :: print e
  | .prefix op e => tk op :: wrap 0 e (print e)
  | .postfix op e => (if op = .OPERATOR_NOT then wrap 2 e (print e) else paren (print e)) ++ [tk op]
  | .is e ty => wrap 1 e (print e) ++ [tk .OPERATOR_IS, nameTok ty]
  | .ternary c a b => wrap 1 c (print c) ++ tk .QUESTION_MARK :: print a ++ tk .COLON :: print b
  | .elvis c b => wrap 1 c (print c) ++ tk .QUESTION_MARK :: tk .COLON :: print b
  | .bin l op x y => wrap (lvlStrength l) x (print x) ++ tk op :: wrap (lvlStrength l.next) y (print y)

/-- The arguments of a call, separated by commas. -/
def printArgs : List Syn → List Tok
  | [] => []
  | [s] => print s
  | s :: ss => print s ++ tk .COMMA :: printArgs ss

end

/-- The assignment operators. -/
def assignOps : List Ty := [.ASSIGN, .ASSIGN_ADDITION, .ASSIGN_BITAND, .ASSIGN_BITCOMPLEMENT, .ASSIGN_BITOR, .ASSIGN_DIVIDE,
  .ASSIGN_MODULO, .ASSIGN_MULTIPLY, .ASSIGN_SUBTRACT]

mutual

/-- Every operator stands where operators of its kind belong. -/
def WellFormed : Syn → Prop
  | .lit ty c => (literal ty c).isSome
  | .name _ => True
  | .call _ args => WellFormedArgs args
  | .incdec _ op => op = .OPERATOR_DECREMENT ∨ op = .OPERATOR_INCREMENT
  | .cast _ e => WellFormed e
  | .ccast _ _ => False
  | .assign _ op e => op ∈ assignOps ∧ WellFormed e
  | .prefix op e => (op = .MATH_ADDITION ∨ op = .MATH_SUBTRACT ∨ op = .OPERATOR_NOT) ∧ WellFormed e
  | .postfix op e => (op = .OPERATOR_DECREMENT ∨ op = .OPERATOR_INCREMENT ∨ op = .OPERATOR_NOT) ∧ WellFormed e
  | .is e _ => WellFormed e
  | .ternary c a b => WellFormed c ∧ WellFormed a ∧ WellFormed b
  | .elvis c b => WellFormed c ∧ WellFormed b
  | .bin l op x y => op ∈ l.ops ∧ WellFormed x ∧ WellFormed y

/-- The same for arguments. -/
def WellFormedArgs : List Syn → Prop
  | [] => True
  | s :: ss => WellFormed s ∧ WellFormedArgs ss

end

/-- The position of a strength. -/
def posOf : Nat → Pos
  | 0 => .term
  | 1 => .pre
  | 2 => .post
  | 3 => .lvl .infix
  | 4 => .lvl .factor
  | 5 => .lvl .arith
  | 6 => .lvl .condition
  | _ => .lvl .expression

theorem plain_tk (ty : Ty) : Plain (tk ty) := by simp [Plain, tk]

theorem der_step {env : Env} {b : Bool} {s : Syn} {ts : List Tok} (k : Nat) (h : Der env true (posOf k) b s ts) :
    Der env true (posOf (k + 1)) b s ts := by
  match k, h with
  | 0, h => exact .pre _ _ _ h
  | 1, h => exact .post _ _ _ h
  | 2, h => exact .infix _ _ _ h
  | 3, h => exact .up .factor _ _ _ (by decide) h
  | 4, h => exact .up .arith _ _ _ (by decide) h
  | 5, h => exact .up .condition _ _ _ (by decide) h
  | 6, h => exact .up .expression _ _ _ (by decide) h
  | _ + 7, h => exact h

theorem der_lift {env : Env} {b : Bool} {s : Syn} {ts : List Tok} {k : Nat} (h : Der env true (posOf k) b s ts) (m : Nat)
    (hm : k ≤ m) : Der env true (posOf m) b s ts := by
  induction hm with
  | refl => exact h
  | step _ ih => exact der_step _ ih

theorem strength_le (s : Syn) : strength s ≤ 7 := by
  unfold strength; split <;> omega

theorem posOf_lvl (l : Lvl) : posOf (lvlStrength l) = .lvl l := by cases l <;> rfl

/-- What is shown of the printed text. -/
def Printed (env : Env) (s : Syn) (ts : List Tok) : Prop := Der env true (posOf (strength s)) (isOpen s) s ts

theorem Printed.top {env : Env} {s : Syn} {ts : List Tok} (h : Printed env s ts) : Der env true (.lvl .expression) (isOpen s) s ts :=
  der_lift h 7 (strength_le s)

theorem Printed.paren {env : Env} {s : Syn} {ts : List Tok} (h : Printed env s ts) (k : Nat) :
    Der env true (posOf k) false s (tk .PARENTHESIS_OPEN :: ts ++ [tk .PARENTHESIS_CLOSE]) :=
  der_lift (k := 0) (.paren _ _ _ _ _ rfl rfl (fun _ => ⟨plain_tk _, plain_tk _⟩) h.top) k (by omega)

theorem Printed.wrap {env : Env} {s : Syn} {ts : List Tok} (h : Printed env s ts) (k : Nat) :
    Der env true (posOf k) false s (wrap k s ts) := by
  unfold Verif.Expr.wrap
  split
  · next hk => have := der_lift h k hk.1; rwa [hk.2] at this
  · exact h.paren k

theorem last_of_append_one (ts : List Tok) (t : Tok) : (ts ++ [t]).getLast? = some t := by simp

theorem strength_bin (l : Lvl) (op : Ty) (x y : Syn) (h : op ∈ l.ops) : strength (.bin l op x y) = lvlStrength l := by
  cases l <;> first | rfl | cases h

mutual

theorem print_der (env : Env) : ∀ s, WellFormed s → Printed env s (print s)
  | .lit ty c, h => by
    simp only [WellFormed] at h; simp only [print, Printed, strength, isOpen]
    exact Der.lit ⟨.constant, ty, c, 0, false⟩ h
  | .name n, _ => by
    simp only [print, Printed, strength, isOpen]
    exact Der.name (nameTok n) rfl
  | .call f args, h => by
    simp only [WellFormed] at h; simp only [print, Printed, strength, isOpen]
    exact Der.call (nameTok f) (tk .PARENTHESIS_OPEN) (tk .PARENTHESIS_CLOSE) args _ rfl rfl rfl
      (fun _ => ⟨plain_tk _, plain_tk _⟩) (printArgs_der env args h)
  | .incdec n op, h => by
    simp only [WellFormed] at h; simp only [print, Printed, strength, isOpen]
    exact Der.incdec (nameTok n) (tk op) rfl h (fun _ => plain_tk _)
  | .cast ty e, h => by
    simp only [WellFormed] at h; simp only [print, Printed, strength, isOpen]
    exact Der.cast ⟨.keyword, .KEYWORD, "cast".toList, 0, false⟩ (tk .COMPARE_LESS) (nameTok ty) (tk .COMPARE_GREATER)
      (tk .PARENTHESIS_OPEN) (tk .PARENTHESIS_CLOSE) _ e _ rfl rfl rfl rfl rfl rfl
      (fun _ => ⟨plain_tk _, nofun, nofun⟩) (print_der env e h).top
  | .ccast _ _, h => by simp [WellFormed] at h
  | .assign n op e, h => by
    simp only [WellFormed] at h; simp only [print, Printed, strength, isOpen]
    refine Der.assign (nameTok n) ⟨.assignment, op, [], 0, false⟩ _ e _ rfl rfl (fun _ => ?_) (print_der env e h.2).top
    have := h.1; revert this; unfold Starts; cases op <;> decide
  | .prefix op e, h => by
    simp only [WellFormed] at h; simp only [print, Printed, strength, isOpen]
    exact Der.prefix (tk op) _ e _ h.1 ((print_der env e h.2).wrap 0)
  | .postfix op e, h => by
    simp only [WellFormed] at h; simp only [print, Printed, strength, isOpen]
    by_cases ho : op = .OPERATOR_NOT
    · rw [if_pos ho]
      exact Der.postfix (tk op) _ e _ h.1 (fun _ => ⟨rfl, plain_tk _, fun k => absurd ho k⟩) ((print_der env e h.2).wrap 2)
    · rw [if_neg ho]
      refine Der.postfix (tk op) _ e _ h.1 (fun _ => ⟨rfl, plain_tk _, fun _ => ?_⟩) ((print_der env e h.2).paren 2)
      intro t ht
      simp only [paren, List.cons_append] at ht
      rw [show tk .PARENTHESIS_OPEN :: (print e ++ [tk .PARENTHESIS_CLOSE]) =
        (tk .PARENTHESIS_OPEN :: print e) ++ [tk .PARENTHESIS_CLOSE] by simp, last_of_append_one] at ht
      cases ht; decide
  | .is e ty, h => by
    simp only [WellFormed] at h; simp only [print, Printed, strength, isOpen]
    exact Der.is (tk .OPERATOR_IS) (nameTok ty) _ e _ rfl (fun _ => ⟨rfl, plain_tk _, nofun, nofun⟩)
      ((print_der env e h).wrap 1)
  | .ternary c a b, h => by
    simp only [WellFormed] at h; simp only [print, Printed, strength, isOpen]
    exact Der.ternary (tk .QUESTION_MARK) (tk .COLON) _ _ _ c a b _ _ _ rfl rfl
      (fun _ => ⟨rfl, plain_tk _, plain_tk _⟩) ((print_der env c h.1).wrap 1) (print_der env a h.2.1).top (print_der env b h.2.2).top
  | .elvis c b, h => by
    simp only [WellFormed] at h; simp only [print, Printed, strength, isOpen]
    exact Der.elvis (tk .QUESTION_MARK) (tk .COLON) _ _ c b _ _ rfl rfl
      (fun _ => ⟨rfl, plain_tk _⟩) ((print_der env c h.1).wrap 1) (print_der env b h.2).top
  | .bin l op x y, h => by
    simp only [WellFormed] at h; simp only [print, Printed]
    rw [strength_bin l op x y h.1, posOf_lvl, show isOpen (.bin l op x y) = false from rfl]
    have hx := (print_der env x h.2.1).wrap (lvlStrength l)
    have hy := (print_der env y h.2.2).wrap (lvlStrength l.next)
    rw [posOf_lvl] at hx hy
    exact Der.bin l (tk op) false false x y _ _ h.1 (fun _ => ⟨rfl, plain_tk _⟩) hx hy

theorem printArgs_der (env : Env) : ∀ ss, WellFormedArgs ss → DerArgs env true ss (printArgs ss)
  | [], _ => by simp only [printArgs]; exact .nil
  | [s], h => by
    simp only [WellFormedArgs] at h; simp only [printArgs]
    exact .last _ s _ (print_der env s h.1).top
  | s :: t :: ss, h => by
    simp only [WellFormedArgs] at h
    have ih := printArgs_der env (t :: ss) (by simp only [WellFormedArgs]; exact h.2)
    have := DerArgs.cons (env := env) (strict := true) (tk .COMMA) _ s (t :: ss) _ [] _ rfl
      (fun _ => ⟨plain_tk _, rfl⟩) (by simp) (print_der env s h.1).top ih
    simpa [printArgs] using this

end

/-! ## The typed tree has the shape of the expression -/

/-- The names of the operators that are compared as `==`. -/
def negated : List Ty := [.COMPARE_UNEQUAL, .COMPARE_UNEQUAL_CONTENT]

/-- The compound assignments and the operators they stand for. -/
def compoundOps : List (Ty × Ty) :=
  [(.ASSIGN_ADDITION, .MATH_ADDITION), (.ASSIGN_SUBTRACT, .MATH_SUBTRACT), (.ASSIGN_MULTIPLY, .MATH_MULTIPLY),
   (.ASSIGN_DIVIDE, .MATH_DIVIDE), (.ASSIGN_MODULO, .MATH_MODULO), (.ASSIGN_BITAND, .BITAND), (.ASSIGN_BITOR, .BITOR),
   (.ASSIGN_BITCOMPLEMENT, .BITCOMPLEMENT)]

/-- The operators that a class can define, and the names of the methods that define them. -/
def operatorMethods : List (Ty × String) :=
  [(.ASSIGN, "operator="), (.BITAND, "operator&"), (.BITCOMPLEMENT, "operator~"), (.BITOR, "operator|"),
   (.COMPARE_EQUAL, "operator=="), (.COMPARE_LESS, "operator<"), (.COMPARE_LESS_EQUAL, "operator<="),
   (.COMPARE_GREATER, "operator>"), (.COMPARE_GREATER_EQUAL, "operator>="), (.MATH_ADDITION, "operator+"),
   (.MATH_SUBTRACT, "operator-"), (.MATH_MULTIPLY, "operator*"), (.MATH_DIVIDE, "operator/"), (.MATH_MODULO, "operator%"),
   (.OPERATOR_INCREMENT, "operator++"), (.OPERATOR_DECREMENT, "operator--"), (.OPERATOR_SHIFT_LEFT, "operator<<"),
   (.OPERATOR_SHIFT_RIGHT, "operator>>")]

/-- `n` is the name of the method that defines the operator `op`, if a class can define it. -/
def NamesOperator (op : Ty) (n : Text) : Prop :=
  ∀ p ∈ operatorMethods, p.1 = op → n = p.2.toList

theorem opName_names (op : Ty) : NamesOperator op (opName op) := by
  unfold NamesOperator; cases op <;> decide

theorem opName_names_compare (op : Ty) :
    NamesOperator op (opName (compareOp op)) ∧ (op = .COMPARE_EQUAL_CONTENT → opName (compareOp op) = "operator==".toList) := by
  unfold NamesOperator; cases op <;> decide

mutual

/-- `Mirrors s e`: the tree `e` consists of the operators, operands and names of `s`, in the same nesting and order, with types
added; an operator is either built in or a call of an operator method of the left operand. -/
inductive Mirrors : Syn → Expr → Prop
  | lit (ty : Ty) (c : Text) (l : Lit) (h : literal ty c = some l) : Mirrors (.lit ty c) (.lit l)
  | name (n : Text) (y : Sym) : Mirrors (.name n) (.sym n y)
  | call (f : Text) (args : List Syn) (es : List Expr) (t : TName) (h : MirrorsArgs args es) : Mirrors (.call f args) (.call f es t)
  | incdec (n : Text) (op : Ty) (y : Sym) : Mirrors (.incdec n op) (.unary op true (.sym n y))
  | incdecMethod (n : Text) (op : Ty) (y : Sym) (t : TName) (f : Text) (hf : NamesOperator op f) :
      Mirrors (.incdec n op) (.opCall (.sym n y) f [] t)
  | cast (ty : Text) (s : Syn) (e : Expr) (t : TName) (h : Mirrors s e) : Mirrors (.cast ty s) (.cast t e)
  | ccast (ty : Text) (s : Syn) (e : Expr) (t : TName) (h : Mirrors s e) : Mirrors (.ccast ty s) (.cast t e)
  | assign (n : Text) (op : Ty) (s : Syn) (y : Sym) (e r : Expr) (t : TName) (h : Mirrors s e) (hr : Assigned n y op e r) :
      Mirrors (.assign n op s) (.assign n y r t)
  | assignMethod (n : Text) (op : Ty) (s : Syn) (y : Sym) (e r : Expr) (t : TName) (h : Mirrors s e) (hr : Assigned n y op e r) :
      Mirrors (.assign n op s) (.opCall (.sym n y) "operator=".toList [r] t)
  | not (s : Syn) (e : Expr) (h : Mirrors s e) : Mirrors (.prefix .OPERATOR_NOT s) (.not ['!'] e)
  | prefix (op : Ty) (s : Syn) (e : Expr) (ho : op ≠ .OPERATOR_NOT) (h : Mirrors s e) : Mirrors (.prefix op s) (.unary op false e)
  | validate (s : Syn) (e : Expr) (h : Mirrors s e) : Mirrors (.postfix .OPERATOR_NOT s) (.validate e)
  | postfix (op : Ty) (s : Syn) (e : Expr) (ho : op ≠ .OPERATOR_NOT) (h : Mirrors s e) : Mirrors (.postfix op s) (.unary op false e)
  | is (s : Syn) (ty : Text) (e : Expr) (t : TName) (h : Mirrors s e) : Mirrors (.is s ty) (.is e t)
  | ternary (c a b : Syn) (x y z : Expr) (hc : Mirrors c x) (ha : Mirrors a y) (hb : Mirrors b z) :
      Mirrors (.ternary c a b) (.ternary x y z)
  | elvis (c b : Syn) (x z : Expr) (hc : Mirrors c x) (hb : Mirrors b z) : Mirrors (.elvis c b) (.ternary x x z)
  | boolean (op : Ty) (a b : Syn) (x y : Expr) (ha : Mirrors a x) (hb : Mirrors b y) :
      Mirrors (.bin .expression op a b) (.boolean op x y)
  | compare (op : Ty) (a b : Syn) (x y e : Expr) (ha : Mirrors a x) (hb : Mirrors b y) (h : Compared op x y e) :
      Mirrors (.bin .condition op a b) e
  | binary (l : Lvl) (op : Ty) (a b : Syn) (x y : Expr) (t : TName) (hl : l = .arith ∨ l = .factor ∨ l = .infix)
      (ha : Mirrors a x) (hb : Mirrors b y) : Mirrors (.bin l op a b) (.binary op x y t)
  | binaryMethod (l : Lvl) (op : Ty) (a b : Syn) (x y : Expr) (t : TName) (hl : l = .arith ∨ l = .factor ∨ l = .infix)
      (ha : Mirrors a x) (hb : Mirrors b y) (f : Text) (hf : NamesOperator op f) : Mirrors (.bin l op a b) (.opCall x f [y] t)

/-- The same for arguments. -/
inductive MirrorsArgs : List Syn → List Expr → Prop
  | nil : MirrorsArgs [] []
  | cons (s : Syn) (e : Expr) (ss : List Syn) (es : List Expr) (h : Mirrors s e) (hs : MirrorsArgs ss es) :
      MirrorsArgs (s :: ss) (e :: es)

/-- The value that `n op e` assigns: `e` itself, or `n` combined with `e` (`compoundOps` pairs `+=` with `+`, and so on). -/
inductive Assigned : Text → Sym → Ty → Expr → Expr → Prop
  | plain (n : Text) (y : Sym) (e : Expr) : Assigned n y .ASSIGN e e
  | builtin (n : Text) (y : Sym) (op o : Ty) (e : Expr) (t : TName) (h : (op, o) ∈ compoundOps) :
      Assigned n y op e (.binary o (.sym n y) e t)
  | method (n : Text) (y : Sym) (op o : Ty) (e : Expr) (t : TName) (h : (op, o) ∈ compoundOps) (f : Text)
      (hf : NamesOperator o f) : Assigned n y op e (.opCall (.sym n y) f [e] t)

/-- A comparison; `!=` and `!==` negate `==`. -/
inductive Compared : Ty → Expr → Expr → Expr → Prop
  | builtin (op : Ty) (x y : Expr) (h : op ∉ negated) : Compared op x y (.boolean op x y)
  | method (op : Ty) (x y : Expr) (t : TName) (h : op ∉ negated) (f : Text)
      (hf : NamesOperator op f ∧ (op = .COMPARE_EQUAL_CONTENT → f = "operator==".toList)) : Compared op x y (.opCall x f [y] t)
  | notBuiltin (x y : Expr) : Compared .COMPARE_UNEQUAL x y (.not [] (.boolean .COMPARE_EQUAL x y))
  | notMethod (op : Ty) (x y : Expr) (t : TName) (h : op ∈ negated) : Compared op x y (.not [] (.opCall x "operator==".toList [y] t))

end

theorem compare_mirrors {env : Env} {op : Ty} {x y e : Expr} (h : buildCondition env op x y = some e) : Compared op x y e := by
  unfold buildCondition at h
  split at h
  · cases h
  · split at h
    · cases h
    · split at h
      · cases h
      · next c hc =>
        simp only [Option.some.injEq] at h
        unfold buildCompare callOperator at hc
        by_cases hn : op = .COMPARE_UNEQUAL ∨ op = .COMPARE_UNEQUAL_CONTENT
        · rw [if_pos hn] at h
          have hm : op ∈ negated := by rcases hn with h | h <;> simp [h, negated]
          have hco : compareOp op = .COMPARE_EQUAL := by rcases hn with h | h <;> rw [h] <;> rfl
          rw [hco] at hc
          split at hc
          · split at hc
            · cases hc; cases h; exact .notMethod op x y _ hm
            · cases hc
          · split at hc
            · cases hc
            · next hk =>
              cases hc; cases h
              rcases hn with rfl | rfl
              · exact .notBuiltin x y
              · simp at hk
        · rw [if_neg hn] at h
          have hm : op ∉ negated := by simpa [negated] using hn
          subst h
          split at hc
          · split at hc
            · cases hc; exact .method op x y _ hm _ (opName_names_compare op)
            · cases hc
          · split at hc
            · cases hc
            · next hk =>
              cases hc
              have : compareOp op = op := by
                simp only [not_or] at hn hk
                cases op <;> first | rfl | exact absurd rfl hn.1 | exact absurd rfl hk.1 | exact absurd rfl hn.2
              rw [this]; exact .builtin op x y hm

theorem arith_mirrors {env : Env} {op : Ty} {x y e : Expr} (h : buildArith env op x y = some e) :
    ∃ t, e = .binary op x y t ∨ e = .opCall x (opName op) [y] t := by
  unfold buildArith at h
  split at h
  · cases h
  · split at h
    · cases h; exact ⟨_, .inl rfl⟩
    · split at h
      · cases h
      · unfold callOperator at h
        split at h
        · cases h; exact ⟨_, .inr rfl⟩
        · cases h

theorem assignedOp_mem {op o : Ty} (h : assignedOp op = some o) : (op, o) ∈ compoundOps := by
  cases op <;> simp only [assignedOp] at h <;> cases h <;> decide

theorem compound_mirrors {env : Env} {n : Text} {y : Sym} {op : Ty} {e r : Expr} (h : compound env n y op e = some r) :
    Assigned n y op e r := by
  unfold compound at h
  split at h
  · next ho => subst ho; cases h; exact .plain n y _
  · split at h
    · cases h
    · next o ho =>
      split at h
      · cases h
      · split at h
        · cases h; exact .builtin n y op o e _ (assignedOp_mem ho)
        · split at h
          · cases h
          · unfold callOperator at h
            split at h
            · cases h; exact .method n y op o e _ (assignedOp_mem ho) _ (opName_names o)
            · cases h

theorem assign_mirrors {env : Env} {n : Text} {y : Sym} {op : Ty} {s : Syn} {e a : Expr} (hs : Mirrors s e)
    (h : buildAssign env n y op e = some a) : Mirrors (.assign n op s) a := by
  unfold buildAssign at h
  split at h
  · cases h
  · next r hr =>
    have hr := compound_mirrors hr
    split at h
    · cases h
    · split at h
      · split at h
        · cases h
        · cases h; exact .assign n op s y e r _ hs hr
      · split at h
        · cases h
        · unfold callOperator at h
          split at h
          · cases h; exact .assignMethod n op s y e r _ hs hr
          · cases h

theorem bind_some_eq {α β : Type} {o : Option α} {f : α → Option β} {b : β} (h : o.bind f = some b) :
    ∃ a, o = some a ∧ f a = some b := by
  cases o with
  | none => cases h
  | some a => exact ⟨a, rfl, h⟩

theorem map_some_eq {α β : Type} {o : Option α} {f : α → β} {b : β} (h : o.map f = some b) :
    ∃ a, o = some a ∧ f a = b := by
  cases o with
  | none => cases h
  | some a => exact ⟨a, rfl, by simpa using h⟩

mutual

theorem typed_mirrors (env : Env) : ∀ s e, typed env s = some e → Mirrors s e
  | .lit ty c, e, h => by
    simp only [typed] at h; obtain ⟨l, hl, rfl⟩ := map_some_eq h; exact .lit ty c l hl
  | .name n, e, h => by
    simp only [typed] at h; obtain ⟨y, hy, rfl⟩ := map_some_eq h; exact .name n y
  | .call f args, e, h => by
    simp only [typed] at h
    split at h
    · cases h
    · obtain ⟨es, hes, h⟩ := bind_some_eq h
      unfold buildCall at h
      split at h
      · cases h; exact .call f args es _ (typedList_mirrors env args es hes)
      · cases h
  | .incdec n op, e, h => by
    simp only [typed] at h
    obtain ⟨y, hy, h⟩ := bind_some_eq h
    unfold buildIncDec callOperator at h
    split at h
    · cases h
    · split at h
      · cases h; exact .incdec n op y
      · split at h
        · cases h
        · split at h
          · cases h; exact .incdecMethod n op y _ _ (opName_names op)
          · cases h
  | .cast ty s, e, h => by
    simp only [typed] at h
    split at h
    · cases h
    · split at h
      · cases h
      · obtain ⟨x, hx, h⟩ := bind_some_eq h
        unfold buildCast at h
        split at h
        · cases h; exact .cast ty s x _ (typed_mirrors env s x hx)
        · cases h
  | .ccast ty s, e, h => by
    simp only [typed] at h
    split at h
    · cases h
    · obtain ⟨x, hx, rfl⟩ := map_some_eq h
      exact .ccast ty s x _ (typed_mirrors env s x hx)
  | .assign n op s, e, h => by
    simp only [typed] at h
    split at h
    · cases h
    · obtain ⟨x, hx, h⟩ := bind_some_eq h
      exact assign_mirrors (typed_mirrors env s x hx) h
  | .prefix op s, e, h => by
    simp only [typed] at h
    obtain ⟨x, hx, h'⟩ := bind_some_eq h
    have ih := typed_mirrors env s x hx
    unfold buildPrefix at h'
    split at h'
    · next ho => subst ho; cases h'; exact .not s x ih
    · next ho =>
      split at h'
      · cases h'; exact .prefix op s x ho ih
      · cases h'
  | .postfix op s, e, h => by
    simp only [typed] at h
    obtain ⟨x, hx, h'⟩ := map_some_eq h
    have ih := typed_mirrors env s x hx
    split at h'
    · next ho => subst ho; cases h'; exact .validate s x ih
    · next ho => cases h'; exact .postfix op s x ho ih
  | .is s ty, e, h => by
    simp only [typed] at h
    obtain ⟨x, hx, h⟩ := bind_some_eq h
    obtain ⟨y, hy, rfl⟩ := map_some_eq h
    exact .is s ty x _ (typed_mirrors env s x hx)
  | .ternary c a b, e, h => by
    simp only [typed] at h
    obtain ⟨x, hx, h⟩ := bind_some_eq h
    obtain ⟨y, hy, h⟩ := bind_some_eq h
    obtain ⟨z, hz, h⟩ := bind_some_eq h
    unfold buildTernary at h
    split at h
    · cases h; exact .ternary c a b x y z (typed_mirrors env c x hx) (typed_mirrors env a y hy) (typed_mirrors env b z hz)
    · cases h
  | .elvis c b, e, h => by
    simp only [typed] at h
    obtain ⟨x, hx, h⟩ := bind_some_eq h
    obtain ⟨z, hz, h⟩ := bind_some_eq h
    unfold buildTernary at h
    split at h
    · cases h; exact .elvis c b x z (typed_mirrors env c x hx) (typed_mirrors env b z hz)
    · cases h
  | .bin l op a b, e, h => by
    simp only [typed] at h
    obtain ⟨x, hx, h⟩ := bind_some_eq h
    obtain ⟨y, hy, h⟩ := bind_some_eq h
    have ha := typed_mirrors env a x hx
    have hb := typed_mirrors env b y hy
    cases l with
    | expression => cases h; exact .boolean op a b x y ha hb
    | condition => exact .compare op a b x y e ha hb (compare_mirrors h)
    | arith =>
      obtain ⟨t, rfl | rfl⟩ := arith_mirrors h
      · exact .binary _ op a b x y t (.inl rfl) ha hb
      · exact .binaryMethod _ op a b x y t (.inl rfl) ha hb _ (opName_names op)
    | factor =>
      obtain ⟨t, rfl | rfl⟩ := arith_mirrors h
      · exact .binary _ op a b x y t (.inr (.inl rfl)) ha hb
      · exact .binaryMethod _ op a b x y t (.inr (.inl rfl)) ha hb _ (opName_names op)
    | «infix» =>
      obtain ⟨t, rfl | rfl⟩ := arith_mirrors h
      · exact .binary _ op a b x y t (.inr (.inr rfl)) ha hb
      · exact .binaryMethod _ op a b x y t (.inr (.inr rfl)) ha hb _ (opName_names op)

theorem typedList_mirrors (env : Env) : ∀ ss es, typedList env ss = some es → MirrorsArgs ss es
  | [], es, h => by simp only [typedList, Option.some.injEq] at h; subst h; exact .nil
  | s :: ss, es, h => by
    simp only [typedList] at h
    obtain ⟨e, he, h⟩ := bind_some_eq h
    obtain ⟨es', hes, rfl⟩ := map_some_eq h
    exact .cons s e ss es' (typed_mirrors env s e he) (typedList_mirrors env ss es' hes)

end

end Verif.Expr
