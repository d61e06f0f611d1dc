import Verif.Whole.Spec

/-!
# The rules a script is checked against

Which programs of the small language are accepted: names are declared where they are used, once in a block; numbers, truth
values and texts are not mixed where an operator has no meaning for them; functions are called with the right number of numbers; `break` and
`continue` stand in loops; functions with a result return one, the others none.  Nothing here refers to the model of the parsers.
-/

namespace Verif.Whole

open Verif.Str (Text)
open Verif.Calc (Num Cond)

/-! ## Types of formulas -/

/-- The type of an operation: arithmetic is for numbers, and `+` appends anything to a text. -/
def join (op : Ints.Op) : Kind → Kind → Option Kind
  | .int, .int => some .int
  | .string, _ => if op = .add then some .string else none
  | _, _ => none

/-- The type of a formula made of numbers and variables. -/
def numKind (Γ : Ctx) : Num → Option Kind
  | .num _ => some .int
  | .var n => kind Γ n
  | .neg a => if numKind Γ a = some .int then some .int else none
  | .bin op a b => (numKind Γ a).bind fun k => (numKind Γ b).bind fun j => join op k j

/-- The relations that compare truth values. -/
def equates : Calc.Rel → Bool
  | .eq => true
  | .ne => true
  | _ => false

/-- The types a relation compares: numbers with numbers, texts with texts, truth values only for equality. -/
def relates (r : Calc.Rel) : Kind → Kind → Bool
  | .int, .int => true
  | .string, .string => true
  | .bool, .bool => equates r
  | _, _ => false

/-- The type of a condition.  `!`, `&&` and `||` take all types. -/
def condKind (Γ : Ctx) : Cond → Option Kind
  | .cmp r a b =>
    (numKind Γ a).bind fun k => (numKind Γ b).bind fun j => if relates r k j then some .bool else none
  | .flag n => kind Γ n
  | .const _ => some .bool
  | .not c => if (condKind Γ c).isSome then some .bool else none
  | .and c d => if (condKind Γ c).isSome ∧ (condKind Γ d).isSome then some .bool else none
  | .or c d => if (condKind Γ c).isSome ∧ (condKind Γ d).isSome then some .bool else none

/-- The type of the beginning of a text. -/
def startKind (Γ : Ctx) : Start → Option Kind
  | .text _ => some .string
  | .var n => kind Γ n

/-- The type of a further part. -/
def partKind (Γ : Ctx) : Part → Option Kind
  | .num a => numKind Γ a
  | .truth c => condKind Γ c
  | .text _ => some .string
  | .var n => kind Γ n

/-- The type of a text with its parts, added one after the other; if it begins with a number it need not be a text at all. -/
def toldKind (Γ : Ctx) (h : Start) (ps : List Part) : Option Kind :=
  ps.foldl (fun acc x => acc.bind fun k => (partKind Γ x).bind fun j => join .add k j) (startKind Γ h)

/-- A variable of the first type takes a value of the second: everything but a text for a number. -/
def takes : Kind → Kind → Bool
  | .int, .string => false
  | _, _ => true

/-- Both types are known, and the first takes the second. -/
def accepts : Option Kind → Option Kind → Bool
  | some k, some j => takes k j
  | _, _ => false

/-! ## Commands -/

/-- The name is declared in the innermost block. -/
def isDeclared (Γ : Ctx) (n : Text) : Bool :=
  match Γ with
  | [] => false
  | g :: _ => (g.lookup n).isSome

/-- One more variable in the innermost block. -/
def declareIn (n : Text) (k : Kind) : Ctx → Ctx
  | [] => [[(n, k)]]
  | g :: Γ => ((n, k) :: g) :: Γ

/-- What is known behind a command. -/
def behind (Γ : Ctx) : Cmd → Ctx
  | .int n _ => declareIn n .int Γ
  | .bool n _ => declareIn n .bool Γ
  | .fresh k n => declareIn n k Γ
  | .text n _ _ => declareIn n .string Γ
  | .call (.new n) _ _ => declareIn n .int Γ
  | _ => Γ

/-- There is a function with this name, this number of parameters, and a result. -/
def callable (p : Program) (f : Text) (n : Nat) : Bool := p.any fun g => g.name = f && g.params.length = n && !g.isVoid

/-- There is a function with this name, this number of parameters, and without a result. -/
def callableVoid (p : Program) (f : Text) (n : Nat) : Bool := p.any fun g => g.name = f && g.params.length = n && g.isVoid

/-- There is a function with this name and this number of parameters. -/
def answers (p : Program) (f : Text) (n : Nat) : Bool := p.any fun g => g.name = f && g.params.length = n

/-- The change obeys the rules.  `++` and `--` are accepted for variables of all types (and fail when they are executed, unless it is a
number). -/
def changeObeys (Γ : Ctx) : Change → Bool
  | .to n a => accepts (kind Γ n) (numKind Γ a)
  | .by n op a => ((kind Γ n).bind fun k => (numKind Γ a).bind fun j => join op k j).isSome
  | .step _ n => (kind Γ n).isSome

/-- The call obeys the rules.  `r`: a result can be returned.  `print(f());` is accepted for functions without a result as well, and so
is `return f();` where nothing is to be returned. -/
def callObeys (p : Program) (r : Bool) (Γ : Ctx) (f : Text) (args : List Num) : Use → Bool
  | .set n => (kind Γ n).isSome && (callable p f args.length && args.all fun a => numKind Γ a = some .int)
  | .new n => !isDeclared Γ n && (callable p f args.length && args.all fun a => numKind (declareIn n .int Γ) a = some .int)
  | .print => answers p f args.length && args.all fun a => numKind Γ a = some .int
  | .ret => (if r then callable p f args.length else callableVoid p f args.length) && args.all fun a => numKind Γ a = some .int

mutual

/-- Does a command end with a jump (`break`, `continue`, `return`)?  `f`: so far.  The last jump or block decides; of `if` and `else`, the
latter; of the blocks of a `switch`, the last. -/
def cmdEnds (f : Bool) : Cmd → Bool
  | .ret _ => true
  | .call .ret _ _ => true
  | .leave => true
  | .brk => true
  | .cont => true
  | .when _ t => ends false t
  | .choose _ _ e => ends false e
  | .chain _ t d => cmdEnds (ends false t) d
  | .pick _ as => armsEnd f as
  | .loop _ b => ends false b
  | .count _ _ _ _ b => ends false b
  | .block b => ends false b
  | _ => f

def ends (f : Bool) : List Cmd → Bool
  | [] => f
  | c :: cs => ends (cmdEnds f c) cs

def armsEnd (f : Bool) : List (Option Num × List Cmd) → Bool
  | [] => f
  | (_, t) :: as => armsEnd (ends false t) as

end

mutual

/-- The command obeys the rules.  `r`: a result can be returned; `l`: it stands in a loop.  A variable is known in its own initial value.  In the blocks of a `switch`, `break` and `continue` are accepted as in loops. -/
def cmdObeys (p : Program) (r l : Bool) (Γ : Ctx) : Cmd → Bool
  | .int n a => !isDeclared Γ n && accepts (some .int) (numKind (declareIn n .int Γ) a)
  | .bool n c => !isDeclared Γ n && accepts (some .bool) (condKind (declareIn n .bool Γ) c)
  | .text n h ps => !isDeclared Γ n && accepts (some .string) (toldKind (declareIn n .string Γ) h ps)
  | .set d => changeObeys Γ d
  | .fresh _ n => !isDeclared Γ n
  | .check c => (condKind Γ c).isSome
  | .mark n c => accepts (kind Γ n) (condKind Γ c)
  | .write n h ps => accepts (kind Γ n) (toldKind Γ h ps)
  | .call u f args => callObeys p r Γ f args u
  | .act f args => answers p f args.length && args.all fun a => numKind Γ a = some .int
  | .print a => (numKind Γ a).isSome
  | .say h ps => (toldKind Γ h ps).isSome
  | .when c t => (condKind Γ c).isSome && obeys p r l ([] :: Γ) t
  | .choose c t e => (condKind Γ c).isSome && obeys p r l ([] :: Γ) t && obeys p r l ([] :: Γ) e
  | .chain c t d => (condKind Γ c).isSome && obeys p r l ([] :: Γ) t && cmdObeys p r l Γ d
  | .pick a as => (numKind Γ a).isSome && armsObey p r Γ false as
  | .loop c b => (condKind Γ c).isSome && obeys p r true ([] :: Γ) b
  | .count n a c d b => accepts (some .int) (numKind ([(n, .int)] :: Γ) a) && (condKind ([(n, .int)] :: Γ) c).isSome &&
      changeObeys ([(n, .int)] :: Γ) d && obeys p r true ([] :: [(n, .int)] :: Γ) b
  | .rounds _ _ _ => false
  | .block b => obeys p r l ([] :: Γ) b
  | .brk => l
  | .cont => l
  | .ret a => r && numKind Γ a = some .int
  | .leave => !r

/-- The commands obey the rules, one after the other. -/
def obeys (p : Program) (r l : Bool) (Γ : Ctx) : List Cmd → Bool
  | [] => true
  | c :: cs => cmdObeys p r l Γ c && obeys p r l (behind Γ c) cs

/-- The blocks of a `switch` obey the rules: each ends with a jump, and there is one `default` at most.  `d`: there was one. -/
def armsObey (p : Program) (r : Bool) (Γ : Ctx) (d : Bool) : List (Option Num × List Cmd) → Bool
  | [] => true
  | (some b, t) :: as => (numKind Γ b).isSome && obeys p r true ([] :: Γ) t && ends false t && armsObey p r Γ d as
  | (none, t) :: as => !d && obeys p r true ([] :: Γ) t && ends false t && armsObey p r Γ true as

end

mutual

/-- Does the body of a function end with a result?  `f`: so far.  The last jump or block decides; of `if` and `else`, the latter; of the
blocks of a `switch`, the last. -/
def cmdReturns (f : Bool) : Cmd → Bool
  | .ret _ => true
  | .call .ret _ _ => true
  | .leave => true
  | .brk => false
  | .cont => false
  | .when _ t => returns false t
  | .choose _ _ e => returns false e
  | .chain _ t d => cmdReturns (returns false t) d
  | .pick _ as => armsReturn f as
  | .loop _ b => returns false b
  | .count _ _ _ _ b => returns false b
  | .block b => returns false b
  | _ => f

def returns (f : Bool) : List Cmd → Bool
  | [] => f
  | c :: cs => returns (cmdReturns f c) cs

def armsReturn (f : Bool) : List (Option Num × List Cmd) → Bool
  | [] => f
  | (_, t) :: as => armsReturn (returns false t) as

end

/-- A program obeys the rules.  Functions of the same name differ in the number of their parameters. -/
structure Lawful (p : Program) : Prop where
  distinct : (p.map fun f => (f.name, f.params.length)).Nodup
  params : ∀ f ∈ p, f.params.Nodup
  bodies : ∀ f ∈ p, obeys p (!f.isVoid) false [[], f.params.map (·, .int)] f.body = true
  results : ∀ f ∈ p, f.isVoid = false → returns false f.body = true

/-! ## Names -/

/-- A name for a variable: not that of a function. -/
def VarName (p : Program) (n : Text) : Prop := Usable n ∧ n ∉ p.map Fun.name

/-- The names of variables can be used, and numbers have 31 bits. -/
def NumClean (p : Program) (a : Num) : Prop := (∀ n ∈ a.vars, VarName p n) ∧ ∀ k ∈ a.nums, k < 2 ^ 31

/-- Likewise for a condition. -/
def CondClean (p : Program) (c : Cond) : Prop :=
  (∀ n ∈ c.vars, VarName p n) ∧ (∀ n ∈ c.flags, VarName p n) ∧ ∀ k ∈ c.nums, k < 2 ^ 31

/-- Likewise for a change. -/
def ChangeClean (p : Program) (d : Change) : Prop := VarName p d.name ∧ NumClean p d.num

/-- Likewise for the use of a result. -/
def UseClean (p : Program) : Use → Prop
  | .set n => VarName p n
  | .new n => VarName p n
  | _ => True

/-- Likewise for the beginning of a text. -/
def StartClean (p : Program) : Start → Prop
  | .text _ => True
  | .var n => VarName p n

/-- Likewise for a part of a text. -/
def PartClean (p : Program) : Part → Prop
  | .num a => NumClean p a
  | .truth c => CondClean p c
  | .text _ => True
  | .var n => VarName p n

mutual

/-- Likewise for a command. -/
def CmdClean (p : Program) : Cmd → Prop
  | .int n a => VarName p n ∧ NumClean p a
  | .bool n c => VarName p n ∧ CondClean p c
  | .set d => ChangeClean p d
  | .fresh _ n => VarName p n
  | .check c => CondClean p c
  | .mark n c => VarName p n ∧ CondClean p c
  | .text n h ps => VarName p n ∧ StartClean p h ∧ ∀ x ∈ ps, PartClean p x
  | .write n h ps => VarName p n ∧ StartClean p h ∧ ∀ x ∈ ps, PartClean p x
  | .call u f args => UseClean p u ∧ Usable f ∧ ∀ a ∈ args, NumClean p a
  | .act f args => Usable f ∧ ∀ a ∈ args, NumClean p a
  | .print a => NumClean p a
  | .say h ps => StartClean p h ∧ ∀ x ∈ ps, PartClean p x
  | .when c t => CondClean p c ∧ CmdsClean p t
  | .choose c t e => CondClean p c ∧ CmdsClean p t ∧ CmdsClean p e
  | .chain c t d => CondClean p c ∧ CmdsClean p t ∧ d.isIf = true ∧ CmdClean p d
  | .pick a as => NumClean p a ∧ ArmsClean p as
  | .loop c b => CondClean p c ∧ CmdsClean p b
  | .count n a c d b => VarName p n ∧ NumClean p a ∧ CondClean p c ∧ ChangeClean p d ∧ CmdsClean p b
  | .rounds _ _ _ => False
  | .block b => CmdsClean p b
  | .brk => True
  | .cont => True
  | .ret a => NumClean p a
  | .leave => True

def CmdsClean (p : Program) : List Cmd → Prop
  | [] => True
  | c :: cs => CmdClean p c ∧ CmdsClean p cs

/-- Likewise for the blocks of a `switch`. -/
def ArmsClean (p : Program) : List (Option Num × List Cmd) → Prop
  | [] => True
  | (some b, t) :: as => NumClean p b ∧ CmdsClean p t ∧ ArmsClean p as
  | (none, t) :: as => CmdsClean p t ∧ ArmsClean p as

end

/-- The names in a program are names, whether or not they are declared, and variables are not named like functions. -/
def Clean (p : Program) : Prop := ∀ f ∈ p, Usable f.name ∧ (∀ n ∈ f.params, VarName p n) ∧ CmdsClean p f.body

end Verif.Whole
