import Verif.Calc.Spec
import Verif.Lex.Props

/-!
# What a small program means

A small language as in a textbook: `int`, `bool` and `string` variables in nested blocks, assignments (`=`, `+=` …, `++`), texts put
together of texts, numbers and truth values, `assert`, `if`, `switch`, `while` with `break` and `continue`, `for`, `print`, and functions on numbers that may call themselves and each other.  `Does` is its semantics, `Fits` its static
rules, `Writes` says how a program is written and `Laid` how it may be laid out as text.  Formulas are those of `Verif.Calc.Spec`.
Nothing here refers to the model of the parsers or the interpreter; of the tokenizer only the table of its words is used (`PlainName`).
-/

namespace Verif.Whole

open Verif.Str (Text)
open Verif.Calc (Num Cond value truth SpellsNum SpellsCond Apart isGap)

/-- A change of a variable. -/
inductive Change where
  /-- `n = a` -/
  | to (n : Text) (a : Num)
  /-- `n += a`, and likewise with `-`, `*`, `/` and `%` -/
  | by (n : Text) (op : Ints.Op) (a : Num)
  /-- `n++` or `n--` -/
  | step (up : Bool) (n : Text)

/-- The variable that is changed. -/
def Change.name : Change → Text
  | .to n _ => n
  | .by n _ _ => n
  | .step _ n => n

/-- The formula for its new value. -/
def Change.num : Change → Num
  | .to _ a => a
  | .by n op a => .bin op (.var n) a
  | .step up n => .bin (if up then .add else .sub) (.var n) (.num 1)

/-- What a text begins with: a text, or a `string` variable. -/
inductive Start where
  | text (t : Text)
  | var (n : Text)

/-- A further part of a text, behind `+`. -/
inductive Part where
  | num (a : Num)
  | truth (c : Cond)
  | text (t : Text)
  /-- a `string` variable -/
  | var (n : Text)

/-- The variables of a text. -/
def Start.vars : Start → List Text
  | .text _ => []
  | .var n => [n]

/-- Likewise for a part. -/
def Part.vars : Part → List Text
  | .num a => a.vars
  | .truth c => c.vars ++ c.flags
  | .text _ => []
  | .var n => [n]

/-- What is done with the result of a function. -/
inductive Use where
  /-- `n = f(args);` -/
  | set (n : Text)
  /-- `int n = f(args);` -/
  | new (n : Text)
  /-- `print(f(args));` -/
  | print
  /-- `return f(args);` -/
  | ret
deriving DecidableEq

/-- The types. -/
inductive Kind where
  | int | bool | string
deriving Repr, DecidableEq

/-- Their names. -/
def Kind.word : Kind → Text
  | .int => "int".toList
  | .bool => "bool".toList
  | .string => "string".toList

/-- A command. -/
inductive Cmd where
  /-- `int n = a;` -/
  | int (n : Text) (a : Num)
  /-- `bool n = c;` -/
  | bool (n : Text) (c : Cond)
  /-- `string n = "t" + a + m;` … -/
  | text (n : Text) (h : Start) (ps : List Part)
  /-- `int n;`, `bool n;` or `string n;` -/
  | fresh (k : Kind) (n : Text)
  /-- `n = a;`, `n += a;`, `n++;` … -/
  | set (d : Change)
  /-- `n = c;` -/
  | mark (n : Text) (c : Cond)
  /-- `n = "t" + a + m;` … -/
  | write (n : Text) (h : Start) (ps : List Part)
  /-- `n = f(args);`, `int n = f(args);`, `print(f(args));`, `return f(args);` -/
  | call (u : Use) (f : Text) (args : List Num)
  /-- `f(args);` -/
  | act (f : Text) (args : List Num)
  /-- `print(a);` -/
  | print (a : Num)
  /-- `print("t");`, `print("t" + a + "u" + m);`, `print(m + b)` … -/
  | say (h : Start) (ps : List Part)
  /-- `assert( c );` -/
  | check (c : Cond)
  /-- `if ( c ) { … }` -/
  | when (c : Cond) (t : List Cmd)
  /-- `if ( c ) { … } else { … }` -/
  | choose (c : Cond) (t e : List Cmd)
  /-- `if ( c ) { … } else if …`: `d` is the second `if`, with all that belongs to it. -/
  | chain (c : Cond) (t : List Cmd) (d : Cmd)
  /-- `switch ( a ) { case b: { … } … default: { … } }`; the block without a number is that of `default`. -/
  | pick (a : Num) (as : List (Option Num × List Cmd))
  /-- `while ( c ) { … }` -/
  | loop (c : Cond) (b : List Cmd)
  /-- `for ( int n = a; c; d ) { … }` -/
  | count (n : Text) (a : Num) (c : Cond) (d : Change) (b : List Cmd)
  /-- The rounds of such a `for` that are still to come.  This is no command of a program, it only serves to say what `for` means. -/
  | rounds (c : Cond) (d : Change) (b : List Cmd)
  /-- `{ … }` -/
  | block (b : List Cmd)
  | brk
  | cont
  /-- `return a;` -/
  | ret (a : Num)
  /-- `return;` -/
  | leave

/-- The command begins with `if`. -/
def Cmd.isIf : Cmd → Bool
  | .when _ _ => true
  | .choose _ _ _ => true
  | .chain _ _ _ => true
  | _ => false

/-- The command is `break` or `return`. -/
def Cmd.leaves : Cmd → Bool
  | .brk => true
  | .ret _ => true
  | .call .ret _ _ => true
  | .leave => true
  | _ => false

/-- A function on numbers; `isVoid`: without a result. -/
structure Fun where
  isVoid : Bool
  name : Text
  params : List Text
  body : List Cmd

/-- A program: its functions, one of which is `Main`. -/
abbrev Program := List Fun

/-! ## Meaning -/

/-- The value of a variable. -/
inductive Scalar where
  | int (i : Int)
  | bool (b : Bool)
  | text (t : Text)
deriving Repr, DecidableEq

/-- The value of a variable nobody has given one. -/
def Kind.zero : Kind → Scalar
  | .int => .int 0
  | .bool => .bool false
  | .string => .text []

/-- The variables of the blocks, innermost block first. -/
abbrev Vars := List (List (Text × Scalar))

/-- The innermost variable of this name. -/
def get (vs : Vars) (n : Text) : Option Scalar := vs.findSome? (·.lookup n)

/-- Change the innermost variable of this name. -/
def put (n : Text) (v : Scalar) : Vars → Vars
  | [] => []
  | b :: vs => if (b.lookup n).isSome then ((n, v) :: b) :: vs else b :: put n v vs

/-- A new variable in the innermost block. -/
def add (n : Text) (v : Scalar) : Vars → Vars
  | [] => [[(n, v)]]
  | b :: vs => ((n, v) :: b) :: vs

/-- The numbers of the variables. -/
def ints (vs : Vars) (n : Text) : Int :=
  match get vs n with
  | some (.int i) => i
  | _ => 0

/-- The truth values of the variables. -/
def flags (vs : Vars) (n : Text) : Bool :=
  match get vs n with
  | some (.bool b) => b
  | _ => false

/-- The texts of the variables. -/
def texts (vs : Vars) (n : Text) : Text :=
  match get vs n with
  | some (.text t) => t
  | _ => []

/-- How commands end. -/
inductive End where
  | next | brk | cont | left
  | ret (i : Int)
deriving Repr, DecidableEq

/-- A line that is printed. -/
inductive Line where
  | number (i : Int)
  | text (t : Text)
deriving Repr, DecidableEq

/-- What a text begins with. -/
def Start.value (vs : Vars) : Start → Text
  | .text t => t
  | .var n => texts vs n

/-- What a part adds to the text. -/
def Part.text? (vs : Vars) : Part → Option Text
  | .num a => (value (ints vs) a).map Str.intToString
  | .truth c => (Calc.truth (ints vs) (flags vs) c).map fun b => if b then ['1'] else ['0']
  | .text t => some t
  | .var n => some (texts vs n)

/-- The text with its parts. -/
def told (vs : Vars) (h : Start) (ps : List Part) : Option Text :=
  ps.foldl (fun acc x => acc.bind fun u => (x.text? vs).map (u ++ ·)) (some (h.value vs))

/-- What is printed of a result. -/
def Use.lines (i : Int) : Use → List Line
  | .print => [.number i]
  | _ => []

/-- The variables, given a result. -/
def Use.vars (i : Int) (vs : Vars) : Use → Vars
  | .set n => put n (.int i) vs
  | .new n => add n (.int i) vs
  | _ => vs

/-- The blocks with a number. -/
def labelled (as : List (Option Num × List Cmd)) : List (Num × List Cmd) := as.filterMap fun x => x.1.map (·, x.2)

/-- The block of `default`; none is an empty one. -/
def otherwise (as : List (Option Num × List Cmd)) : List Cmd := ((as.find? (·.1.isNone)).map (·.2)).getD []

/-- The first block with this number, if there is one; the numbers are computed one after the other, and must exist. -/
def matching (vs : Vars) (i : Int) : List (Num × List Cmd) → Option (Option (List Cmd))
  | [] => some none
  | (a, b) :: as =>
    match value (ints vs) a with
    | none => none
    | some k => if k = i then some (some b) else matching vs i as

/-- The block that is executed: the first one with this number, or that of `default`. -/
def chosen (vs : Vars) (i : Int) (as : List (Option Num × List Cmd)) : Option (List Cmd) :=
  (matching vs i (labelled as)).map (·.getD (otherwise as))

/-- `Does p vs cs out vs' e`: with the functions `p` and the variables `vs`, the commands `cs` print the lines `out`, leave the
variables `vs'` and end with `e`.  There is no rule for numbers that do not exist: results that do not fit 32 bits, and division
by zero.  Nor is there one for an assertion that does not hold. -/
inductive Does (p : Program) : Vars → List Cmd → List Line → Vars → End → Prop where
  | done {vs : Vars} : Does p vs [] [] vs .next
  | int {vs vs' : Vars} {n : Text} {a : Num} {cs : List Cmd} {i : Int} {out : List Line} {e : End} :
      value (ints vs) a = some i → Does p (add n (.int i) vs) cs out vs' e → Does p vs (.int n a :: cs) out vs' e
  | bool {vs vs' : Vars} {n : Text} {c : Cond} {cs : List Cmd} {b : Bool} {out : List Line} {e : End} :
      truth (ints vs) (flags vs) c = some b → Does p (add n (.bool b) vs) cs out vs' e → Does p vs (.bool n c :: cs) out vs' e
  | text {vs vs' : Vars} {n u : Text} {h : Start} {ps : List Part} {cs : List Cmd} {out : List Line} {e : End} :
      told vs h ps = some u → Does p (add n (.text u) vs) cs out vs' e → Does p vs (.text n h ps :: cs) out vs' e
  | fresh {vs vs' : Vars} {k : Kind} {n : Text} {cs : List Cmd} {out : List Line} {e : End} :
      Does p (add n k.zero vs) cs out vs' e → Does p vs (.fresh k n :: cs) out vs' e
  | set {vs vs' : Vars} {h : Change} {cs : List Cmd} {i : Int} {out : List Line} {e : End} :
      value (ints vs) h.num = some i → Does p (put h.name (.int i) vs) cs out vs' e → Does p vs (.set h :: cs) out vs' e
  | mark {vs vs' : Vars} {n : Text} {c : Cond} {cs : List Cmd} {b : Bool} {out : List Line} {e : End} :
      truth (ints vs) (flags vs) c = some b → Does p (put n (.bool b) vs) cs out vs' e → Does p vs (.mark n c :: cs) out vs' e
  | write {vs vs' : Vars} {n u : Text} {h : Start} {ps : List Part} {cs : List Cmd} {out : List Line} {e : End} :
      told vs h ps = some u → Does p (put n (.text u) vs) cs out vs' e → Does p vs (.write n h ps :: cs) out vs' e
  /-- The function sees its parameters and nothing of its caller. -/
  | call {vs vs' ws : Vars} {u : Use} {f : Text} {args : List Num} {cs : List Cmd} {is : List Int} {g : Fun} {i : Int}
      {out out' : List Line} {e : End} :
      args.map (value (ints vs)) = is.map some → g ∈ p → g.name = f → Does p [g.params.zip (is.map .int)] g.body out ws (.ret i) →
      u ≠ .ret → Does p (u.vars i vs) cs out' vs' e → Does p vs (.call u f args :: cs) (out ++ (u.lines i ++ out')) vs' e
  | callRet {vs ws : Vars} {f : Text} {args : List Num} {cs : List Cmd} {is : List Int} {g : Fun} {i : Int} {out : List Line} :
      args.map (value (ints vs)) = is.map some → g ∈ p → g.name = f → Does p [g.params.zip (is.map .int)] g.body out ws (.ret i) →
      Does p vs (.call .ret f args :: cs) out vs (.ret i)
  | act {vs vs' ws : Vars} {f : Text} {args : List Num} {cs : List Cmd} {is : List Int} {g : Fun} {out out' : List Line} {d e : End} :
      args.map (value (ints vs)) = is.map some → g ∈ p → g.name = f → Does p [g.params.zip (is.map .int)] g.body out ws d →
      d ≠ .brk → d ≠ .cont → Does p vs cs out' vs' e → Does p vs (.act f args :: cs) (out ++ out') vs' e
  | print {vs vs' : Vars} {a : Num} {cs : List Cmd} {i : Int} {out : List Line} {e : End} :
      value (ints vs) a = some i → Does p vs cs out vs' e → Does p vs (.print a :: cs) (.number i :: out) vs' e
  | say {vs vs' : Vars} {h : Start} {u : Text} {ps : List Part} {cs : List Cmd} {out : List Line} {e : End} :
      told vs h ps = some u → Does p vs cs out vs' e → Does p vs (.say h ps :: cs) (.text u :: out) vs' e
  | check {vs vs' : Vars} {c : Cond} {cs : List Cmd} {out : List Line} {e : End} :
      truth (ints vs) (flags vs) c = some true → Does p vs cs out vs' e → Does p vs (.check c :: cs) out vs' e
  | whenTrue {vs vs' : Vars} {c : Cond} {t cs : List Cmd} {out : List Line} {e : End} :
      truth (ints vs) (flags vs) c = some true → Does p vs (.block t :: cs) out vs' e → Does p vs (.when c t :: cs) out vs' e
  | whenFalse {vs vs' : Vars} {c : Cond} {t cs : List Cmd} {out : List Line} {e : End} :
      truth (ints vs) (flags vs) c = some false → Does p vs cs out vs' e → Does p vs (.when c t :: cs) out vs' e
  | chooseTrue {vs vs' : Vars} {c : Cond} {t f cs : List Cmd} {out : List Line} {e : End} :
      truth (ints vs) (flags vs) c = some true → Does p vs (.block t :: cs) out vs' e → Does p vs (.choose c t f :: cs) out vs' e
  | chooseFalse {vs vs' : Vars} {c : Cond} {t f cs : List Cmd} {out : List Line} {e : End} :
      truth (ints vs) (flags vs) c = some false → Does p vs (.block f :: cs) out vs' e → Does p vs (.choose c t f :: cs) out vs' e
  | chainTrue {vs vs' : Vars} {c : Cond} {d : Cmd} {t cs : List Cmd} {out : List Line} {e : End} :
      truth (ints vs) (flags vs) c = some true → Does p vs (.block t :: cs) out vs' e → Does p vs (.chain c t d :: cs) out vs' e
  | chainFalse {vs vs' : Vars} {c : Cond} {d : Cmd} {t cs : List Cmd} {out : List Line} {e : End} :
      truth (ints vs) (flags vs) c = some false → Does p vs (d :: cs) out vs' e → Does p vs (.chain c t d :: cs) out vs' e
  /-- `break` leaves the `switch`. -/
  | pick {vs vs' ws : Vars} {l : List (Text × Scalar)} {a : Num} {as : List (Option Num × List Cmd)} {b cs : List Cmd} {i : Int}
      {out out' : List Line} {d e : End} :
      value (ints vs) a = some i → chosen vs i as = some b → Does p ([] :: vs) b out (l :: ws) d → d = .next ∨ d = .brk →
      Does p ws cs out' vs' e → Does p vs (.pick a as :: cs) (out ++ out') vs' e
  | pickLeft {vs ws : Vars} {l : List (Text × Scalar)} {a : Num} {as : List (Option Num × List Cmd)} {b cs : List Cmd} {i : Int}
      {out : List Line} {e : End} :
      value (ints vs) a = some i → chosen vs i as = some b → Does p ([] :: vs) b out (l :: ws) e → e ≠ .next → e ≠ .brk →
      Does p vs (.pick a as :: cs) out ws e
  | loopEnd {vs vs' : Vars} {c : Cond} {b cs : List Cmd} {out : List Line} {e : End} :
      truth (ints vs) (flags vs) c = some false → Does p vs cs out vs' e → Does p vs (.loop c b :: cs) out vs' e
  | loopNext {vs vs' ws : Vars} {l : List (Text × Scalar)} {c : Cond} {b cs : List Cmd} {out out' : List Line} {d e : End} :
      truth (ints vs) (flags vs) c = some true → Does p ([] :: vs) b out (l :: ws) d → d = .next ∨ d = .cont →
      Does p ws (.loop c b :: cs) out' vs' e → Does p vs (.loop c b :: cs) (out ++ out') vs' e
  | loopBreak {vs vs' ws : Vars} {l : List (Text × Scalar)} {c : Cond} {b cs : List Cmd} {out out' : List Line} {e : End} :
      truth (ints vs) (flags vs) c = some true → Does p ([] :: vs) b out (l :: ws) .brk →
      Does p ws cs out' vs' e → Does p vs (.loop c b :: cs) (out ++ out') vs' e
  | loopReturn {vs ws : Vars} {l : List (Text × Scalar)} {c : Cond} {b cs : List Cmd} {out : List Line} {i : Int} :
      truth (ints vs) (flags vs) c = some true → Does p ([] :: vs) b out (l :: ws) (.ret i) →
      Does p vs (.loop c b :: cs) out ws (.ret i)
  | loopLeft {vs ws : Vars} {l : List (Text × Scalar)} {c : Cond} {b cs : List Cmd} {out : List Line} :
      truth (ints vs) (flags vs) c = some true → Does p ([] :: vs) b out (l :: ws) .left →
      Does p vs (.loop c b :: cs) out ws .left
  /-- The variable of `for` belongs to the loop. -/
  | count {vs vs' ws : Vars} {l : List (Text × Scalar)} {n : Text} {a : Num} {h : Change} {c : Cond} {b cs : List Cmd} {i : Int}
      {out out' : List Line} {e : End} :
      value (ints vs) a = some i → Does p ([(n, .int i)] :: vs) [.rounds c h b] out (l :: ws) .next →
      Does p ws cs out' vs' e → Does p vs (.count n a c h b :: cs) (out ++ out') vs' e
  | countLeft {vs ws : Vars} {l : List (Text × Scalar)} {n : Text} {a : Num} {h : Change} {c : Cond} {b cs : List Cmd} {i : Int}
      {out : List Line} {e : End} :
      value (ints vs) a = some i → Does p ([(n, .int i)] :: vs) [.rounds c h b] out (l :: ws) e → e ≠ .next →
      Does p vs (.count n a c h b :: cs) out ws e
  | roundsEnd {vs vs' : Vars} {c : Cond} {h : Change} {b cs : List Cmd} {out : List Line} {e : End} :
      truth (ints vs) (flags vs) c = some false → Does p vs cs out vs' e → Does p vs (.rounds c h b :: cs) out vs' e
  | roundsNext {vs vs' ws : Vars} {l : List (Text × Scalar)} {c : Cond} {h : Change} {b cs : List Cmd} {i : Int}
      {out out' : List Line} {d e : End} :
      truth (ints vs) (flags vs) c = some true → Does p ([] :: vs) b out (l :: ws) d → d = .next ∨ d = .cont →
      value (ints ws) h.num = some i → Does p (put h.name (.int i) ws) (.rounds c h b :: cs) out' vs' e →
      Does p vs (.rounds c h b :: cs) (out ++ out') vs' e
  | roundsBreak {vs vs' ws : Vars} {l : List (Text × Scalar)} {c : Cond} {h : Change} {b cs : List Cmd}
      {out out' : List Line} {e : End} :
      truth (ints vs) (flags vs) c = some true → Does p ([] :: vs) b out (l :: ws) .brk →
      Does p ws cs out' vs' e → Does p vs (.rounds c h b :: cs) (out ++ out') vs' e
  | roundsReturn {vs ws : Vars} {l : List (Text × Scalar)} {c : Cond} {h : Change} {b cs : List Cmd} {out : List Line} {i : Int} :
      truth (ints vs) (flags vs) c = some true → Does p ([] :: vs) b out (l :: ws) (.ret i) →
      Does p vs (.rounds c h b :: cs) out ws (.ret i)
  | roundsLeft {vs ws : Vars} {l : List (Text × Scalar)} {c : Cond} {h : Change} {b cs : List Cmd} {out : List Line} :
      truth (ints vs) (flags vs) c = some true → Does p ([] :: vs) b out (l :: ws) .left →
      Does p vs (.rounds c h b :: cs) out ws .left
  | block {vs vs' ws : Vars} {l : List (Text × Scalar)} {b cs : List Cmd} {out out' : List Line} {e : End} :
      Does p ([] :: vs) b out (l :: ws) .next → Does p ws cs out' vs' e → Does p vs (.block b :: cs) (out ++ out') vs' e
  | blockLeft {vs ws : Vars} {l : List (Text × Scalar)} {b cs : List Cmd} {out : List Line} {e : End} :
      Does p ([] :: vs) b out (l :: ws) e → e ≠ .next → Does p vs (.block b :: cs) out ws e
  | brk {vs : Vars} {cs : List Cmd} : Does p vs (.brk :: cs) [] vs .brk
  | cont {vs : Vars} {cs : List Cmd} : Does p vs (.cont :: cs) [] vs .cont
  | ret {vs : Vars} {a : Num} {cs : List Cmd} {i : Int} : value (ints vs) a = some i → Does p vs (.ret a :: cs) [] vs (.ret i)
  | leave {vs : Vars} {cs : List Cmd} : Does p vs (.leave :: cs) [] vs .left

/-- The name of the first function. -/
def mainName : Text := "Main".toList

/-- The program prints the lines `out` and ends. -/
def Prints (p : Program) (out : List Line) : Prop :=
  ∃ m ∈ p, m.name = mainName ∧ ∃ vs e, Does p [[]] m.body out vs e ∧ (e = .next ∨ e = .left)

/-- The commands arrive at a number that does not exist, or at an assertion that does not hold, or go on to commands that do. -/
inductive Wrong (p : Program) : Vars → List Cmd → Prop where
  | int {vs : Vars} {n : Text} {a : Num} {cs : List Cmd} : value (ints vs) a = none → Wrong p vs (.int n a :: cs)
  | bool {vs : Vars} {n : Text} {c : Cond} {cs : List Cmd} : truth (ints vs) (flags vs) c = none → Wrong p vs (.bool n c :: cs)
  | set {vs : Vars} {h : Change} {cs : List Cmd} : value (ints vs) h.num = none → Wrong p vs (.set h :: cs)
  | mark {vs : Vars} {n : Text} {c : Cond} {cs : List Cmd} : truth (ints vs) (flags vs) c = none → Wrong p vs (.mark n c :: cs)
  | text {vs : Vars} {n : Text} {h : Start} {ps : List Part} {cs : List Cmd} : told vs h ps = none → Wrong p vs (.text n h ps :: cs)
  | write {vs : Vars} {n : Text} {h : Start} {ps : List Part} {cs : List Cmd} : told vs h ps = none → Wrong p vs (.write n h ps :: cs)
  | arg {vs : Vars} {u : Use} {f : Text} {args : List Num} {cs : List Cmd} : (∃ a ∈ args, value (ints vs) a = none) →
      Wrong p vs (.call u f args :: cs)
  | call {vs : Vars} {u : Use} {f : Text} {args : List Num} {cs : List Cmd} {is : List Int} {g : Fun} :
      args.map (value (ints vs)) = is.map some → g ∈ p → g.name = f → Wrong p [g.params.zip (is.map .int)] g.body →
      Wrong p vs (.call u f args :: cs)
  | actArg {vs : Vars} {f : Text} {args : List Num} {cs : List Cmd} : (∃ a ∈ args, value (ints vs) a = none) →
      Wrong p vs (.act f args :: cs)
  | act {vs : Vars} {f : Text} {args : List Num} {cs : List Cmd} {is : List Int} {g : Fun} :
      args.map (value (ints vs)) = is.map some → g ∈ p → g.name = f → Wrong p [g.params.zip (is.map .int)] g.body →
      Wrong p vs (.act f args :: cs)
  | print {vs : Vars} {a : Num} {cs : List Cmd} : value (ints vs) a = none → Wrong p vs (.print a :: cs)
  | say {vs : Vars} {h : Start} {ps : List Part} {cs : List Cmd} : told vs h ps = none → Wrong p vs (.say h ps :: cs)
  | check {vs : Vars} {c : Cond} {cs : List Cmd} : truth (ints vs) (flags vs) c ≠ some true → Wrong p vs (.check c :: cs)
  | whenCond {vs : Vars} {c : Cond} {t cs : List Cmd} : truth (ints vs) (flags vs) c = none → Wrong p vs (.when c t :: cs)
  | whenTrue {vs : Vars} {c : Cond} {t cs : List Cmd} : truth (ints vs) (flags vs) c = some true → Wrong p ([] :: vs) t →
      Wrong p vs (.when c t :: cs)
  | chooseCond {vs : Vars} {c : Cond} {t f cs : List Cmd} : truth (ints vs) (flags vs) c = none → Wrong p vs (.choose c t f :: cs)
  | chooseTrue {vs : Vars} {c : Cond} {t f cs : List Cmd} : truth (ints vs) (flags vs) c = some true → Wrong p ([] :: vs) t →
      Wrong p vs (.choose c t f :: cs)
  | chooseFalse {vs : Vars} {c : Cond} {t f cs : List Cmd} : truth (ints vs) (flags vs) c = some false → Wrong p ([] :: vs) f →
      Wrong p vs (.choose c t f :: cs)
  | chainCond {vs : Vars} {c : Cond} {d : Cmd} {t cs : List Cmd} : truth (ints vs) (flags vs) c = none → Wrong p vs (.chain c t d :: cs)
  | chainTrue {vs : Vars} {c : Cond} {d : Cmd} {t cs : List Cmd} : truth (ints vs) (flags vs) c = some true → Wrong p ([] :: vs) t →
      Wrong p vs (.chain c t d :: cs)
  | chainFalse {vs : Vars} {c : Cond} {d : Cmd} {t cs : List Cmd} : truth (ints vs) (flags vs) c = some false → Wrong p vs [d] →
      Wrong p vs (.chain c t d :: cs)
  | pickNum {vs : Vars} {a : Num} {as : List (Option Num × List Cmd)} {cs : List Cmd} : value (ints vs) a = none →
      Wrong p vs (.pick a as :: cs)
  | pickLabel {vs : Vars} {a : Num} {as : List (Option Num × List Cmd)} {cs : List Cmd} {i : Int} : value (ints vs) a = some i →
      chosen vs i as = none → Wrong p vs (.pick a as :: cs)
  | pick {vs : Vars} {a : Num} {as : List (Option Num × List Cmd)} {b cs : List Cmd} {i : Int} : value (ints vs) a = some i →
      chosen vs i as = some b → Wrong p ([] :: vs) b → Wrong p vs (.pick a as :: cs)
  | loopCond {vs : Vars} {c : Cond} {b cs : List Cmd} : truth (ints vs) (flags vs) c = none → Wrong p vs (.loop c b :: cs)
  | loopBody {vs : Vars} {c : Cond} {b cs : List Cmd} : truth (ints vs) (flags vs) c = some true → Wrong p ([] :: vs) b →
      Wrong p vs (.loop c b :: cs)
  | loopNext {vs ws : Vars} {l : List (Text × Scalar)} {c : Cond} {b cs : List Cmd} {out : List Line} {d : End} :
      truth (ints vs) (flags vs) c = some true → Does p ([] :: vs) b out (l :: ws) d → d = .next ∨ d = .cont →
      Wrong p ws [.loop c b] → Wrong p vs (.loop c b :: cs)
  | countStart {vs : Vars} {n : Text} {a : Num} {h : Change} {c : Cond} {b cs : List Cmd} : value (ints vs) a = none →
      Wrong p vs (.count n a c h b :: cs)
  | count {vs : Vars} {n : Text} {a : Num} {h : Change} {c : Cond} {b cs : List Cmd} {i : Int} : value (ints vs) a = some i →
      Wrong p ([(n, .int i)] :: vs) [.rounds c h b] → Wrong p vs (.count n a c h b :: cs)
  | roundsCond {vs : Vars} {c : Cond} {h : Change} {b cs : List Cmd} : truth (ints vs) (flags vs) c = none →
      Wrong p vs (.rounds c h b :: cs)
  | roundsBody {vs : Vars} {c : Cond} {h : Change} {b cs : List Cmd} : truth (ints vs) (flags vs) c = some true →
      Wrong p ([] :: vs) b → Wrong p vs (.rounds c h b :: cs)
  | roundsStep {vs ws : Vars} {l : List (Text × Scalar)} {c : Cond} {h : Change} {b cs : List Cmd} {out : List Line} {d : End} :
      truth (ints vs) (flags vs) c = some true → Does p ([] :: vs) b out (l :: ws) d → d = .next ∨ d = .cont →
      value (ints ws) h.num = none → Wrong p vs (.rounds c h b :: cs)
  | roundsNext {vs ws : Vars} {l : List (Text × Scalar)} {c : Cond} {h : Change} {b cs : List Cmd} {i : Int} {out : List Line}
      {d : End} :
      truth (ints vs) (flags vs) c = some true → Does p ([] :: vs) b out (l :: ws) d → d = .next ∨ d = .cont →
      value (ints ws) h.num = some i → Wrong p (put h.name (.int i) ws) [.rounds c h b] → Wrong p vs (.rounds c h b :: cs)
  | block {vs : Vars} {b cs : List Cmd} : Wrong p ([] :: vs) b → Wrong p vs (.block b :: cs)
  | ret {vs : Vars} {a : Num} {cs : List Cmd} : value (ints vs) a = none → Wrong p vs (.ret a :: cs)
  | later {vs ws : Vars} {c : Cmd} {cs : List Cmd} {out : List Line} : Does p vs [c] out ws .next → Wrong p ws cs → Wrong p vs (c :: cs)

/-- The program arrives at a number that does not exist, or at an assertion that does not hold. -/
def GoesWrong (p : Program) : Prop := ∃ m ∈ p, m.name = mainName ∧ Wrong p [[]] m.body

/-- The program neither ends nor arrives at a number that does not exist or at an assertion that does not hold. -/
def Forever (p : Program) : Prop := (∀ out, ¬ Prints p out) ∧ ¬ GoesWrong p

/-! ## Static rules -/

/-- The variables known at a point of a program, innermost block first. -/
abbrev Ctx := List (List (Text × Kind))

/-- The type of the innermost variable of this name. -/
def kind (Γ : Ctx) (n : Text) : Option Kind := Γ.findSome? (·.lookup n)

/-- A formula uses known variables as what they are, and numbers with 31 bits. -/
def NumFits (Γ : Ctx) (a : Num) : Prop := (∀ n ∈ a.vars, kind Γ n = some .int) ∧ ∀ k ∈ a.nums, k < 2 ^ 31

/-- Likewise for a condition. -/
def CondFits (Γ : Ctx) (c : Cond) : Prop :=
  (∀ n ∈ c.vars, kind Γ n = some .int) ∧ (∀ n ∈ c.flags, kind Γ n = some .bool) ∧ ∀ k ∈ c.nums, k < 2 ^ 31

/-- Likewise for the beginning of a text. -/
def StartFits (Γ : Ctx) : Start → Prop
  | .text _ => True
  | .var n => kind Γ n = some .string

/-- Likewise for a part of it. -/
def PartFits (Γ : Ctx) : Part → Prop
  | .num a => NumFits Γ a
  | .truth c => CondFits Γ c
  | .text _ => True
  | .var n => kind Γ n = some .string

/-- Identifiers that mean something else. -/
def taken : List Text :=
  ["bool".toList, "double".toList, "float".toList, "int16".toList, "int".toList, "int64".toList, "string".toList, "void".toList,
   "Object".toList, "null".toList, "extension".toList, "nothrow".toList]

/-- A name for a variable or a function: letters etc., and no word of the language. -/
def Usable (n : Text) : Prop := Lex.PlainName n ∧ n ∉ taken

/-- What may be returned: a number, nothing (`return;`), or not even that. -/
inductive Give where
  | number | nothing | never
deriving Repr, DecidableEq

/-- The innermost loop or `switch` around a command. -/
inductive Around where
  | nothing | whileLoop | forLoop | switch
deriving Repr, DecidableEq

/-- `UseFits r Γ args u Γ'`: the result of a function can be used so, and what is known behind it. -/
inductive UseFits : Give → Ctx → List Num → Use → Ctx → Prop where
  | set {r : Give} {Γ : Ctx} {args : List Num} {n : Text} : kind Γ n = some .int → UseFits r Γ args (.set n) Γ
  | new {r : Give} {Γ : Ctx} {g : List (Text × Kind)} {args : List Num} {n : Text} : Usable n → g.lookup n = none →
      (∀ a ∈ args, n ∉ a.vars) → UseFits r (g :: Γ) args (.new n) (((n, .int) :: g) :: Γ)
  | print {r : Give} {Γ : Ctx} {args : List Num} : UseFits r Γ args .print Γ
  | ret {Γ : Ctx} {args : List Num} : UseFits .number Γ args .ret Γ

/-- The commands end with `break` or `return`. -/
def Ends (cs : List Cmd) : Prop := ∃ cs' c, cs = cs' ++ [c] ∧ c.leaves = true

/-- `Fits p r l Γ cs`: the commands obey the rules of the language.  `r`: what they may return; `l`: the loop or `switch` they stand in.
A variable is declared before it is used, once in a block, and its name is not used for its own initial value.  A `for` is not left
by `break` or `return`.  Every block of a `switch` ends with `break` or `return`, `continue` does not leave a `switch`, and there is at
least one `case` and at most one `default`. -/
inductive Fits (p : Program) : Give → Around → Ctx → List Cmd → Prop where
  | nil {r : Give} {l : Around} {Γ : Ctx} : Fits p r l Γ []
  | int {r : Give} {l : Around} {Γ : Ctx} {g : List (Text × Kind)} {n : Text} {a : Num} {cs : List Cmd} : Usable n → g.lookup n = none →
      NumFits (g :: Γ) a → n ∉ a.vars → Fits p r l (((n, .int) :: g) :: Γ) cs → Fits p r l (g :: Γ) (.int n a :: cs)
  | bool {r : Give} {l : Around} {Γ : Ctx} {g : List (Text × Kind)} {n : Text} {c : Cond} {cs : List Cmd} : Usable n → g.lookup n = none →
      CondFits (g :: Γ) c → n ∉ c.vars ++ c.flags → Fits p r l (((n, .bool) :: g) :: Γ) cs → Fits p r l (g :: Γ) (.bool n c :: cs)
  | text {r : Give} {l : Around} {Γ : Ctx} {g : List (Text × Kind)} {n : Text} {h : Start} {ps : List Part} {cs : List Cmd} : Usable n →
      g.lookup n = none → StartFits (g :: Γ) h → (∀ x ∈ ps, PartFits (g :: Γ) x) → n ∉ h.vars ++ ps.flatMap Part.vars →
      Fits p r l (((n, .string) :: g) :: Γ) cs → Fits p r l (g :: Γ) (.text n h ps :: cs)
  | fresh {r : Give} {l : Around} {Γ : Ctx} {g : List (Text × Kind)} {k : Kind} {n : Text} {cs : List Cmd} : Usable n →
      g.lookup n = none → Fits p r l (((n, k) :: g) :: Γ) cs → Fits p r l (g :: Γ) (.fresh k n :: cs)
  | set {r : Give} {l : Around} {Γ : Ctx} {h : Change} {cs : List Cmd} : kind Γ h.name = some .int → NumFits Γ h.num → Fits p r l Γ cs →
      Fits p r l Γ (.set h :: cs)
  | mark {r : Give} {l : Around} {Γ : Ctx} {n : Text} {c : Cond} {cs : List Cmd} : kind Γ n = some .bool → CondFits Γ c → Fits p r l Γ cs →
      Fits p r l Γ (.mark n c :: cs)
  | write {r : Give} {l : Around} {Γ : Ctx} {n : Text} {h : Start} {ps : List Part} {cs : List Cmd} : kind Γ n = some .string →
      StartFits Γ h → (∀ x ∈ ps, PartFits Γ x) → Fits p r l Γ cs → Fits p r l Γ (.write n h ps :: cs)
  | call {r : Give} {l : Around} {Γ Γ' : Ctx} {u : Use} {g : Fun} {args : List Num} {cs : List Cmd} : UseFits r Γ args u Γ' → g ∈ p →
      g.isVoid = false → args.length = g.params.length → (∀ a ∈ args, NumFits Γ a) → Fits p r l Γ' cs →
      Fits p r l Γ (.call u g.name args :: cs)
  | act {r : Give} {l : Around} {Γ : Ctx} {g : Fun} {args : List Num} {cs : List Cmd} : g ∈ p → args.length = g.params.length →
      (∀ a ∈ args, NumFits Γ a) → Fits p r l Γ cs → Fits p r l Γ (.act g.name args :: cs)
  | print {r : Give} {l : Around} {Γ : Ctx} {a : Num} {cs : List Cmd} : NumFits Γ a → Fits p r l Γ cs → Fits p r l Γ (.print a :: cs)
  | say {r : Give} {l : Around} {Γ : Ctx} {h : Start} {ps : List Part} {cs : List Cmd} : StartFits Γ h → (∀ x ∈ ps, PartFits Γ x) →
      Fits p r l Γ cs → Fits p r l Γ (.say h ps :: cs)
  | check {r : Give} {l : Around} {Γ : Ctx} {c : Cond} {cs : List Cmd} : CondFits Γ c → Fits p r l Γ cs → Fits p r l Γ (.check c :: cs)
  | when {r : Give} {l : Around} {Γ : Ctx} {c : Cond} {t cs : List Cmd} : CondFits Γ c → Fits p r l ([] :: Γ) t → Fits p r l Γ cs →
      Fits p r l Γ (.when c t :: cs)
  | choose {r : Give} {l : Around} {Γ : Ctx} {c : Cond} {t e cs : List Cmd} : CondFits Γ c → Fits p r l ([] :: Γ) t → Fits p r l ([] :: Γ) e →
      Fits p r l Γ cs → Fits p r l Γ (.choose c t e :: cs)
  | chain {r : Give} {l : Around} {Γ : Ctx} {c : Cond} {d : Cmd} {t cs : List Cmd} : CondFits Γ c → Fits p r l ([] :: Γ) t → d.isIf = true →
      Fits p r l Γ [d] → Fits p r l Γ cs → Fits p r l Γ (.chain c t d :: cs)
  | pick {r : Give} {l : Around} {Γ : Ctx} {a : Num} {as : List (Option Num × List Cmd)} {cs : List Cmd} : NumFits Γ a →
      (∀ x ∈ as, ∀ b, x.1 = some b → NumFits Γ b) → (∀ x ∈ as, Fits p r .switch ([] :: Γ) x.2) → (∀ x ∈ as, Ends x.2) →
      labelled as ≠ [] → (as.filter (·.1.isNone)).length ≤ 1 → Fits p r l Γ cs → Fits p r l Γ (.pick a as :: cs)
  | loop {r : Give} {l : Around} {Γ : Ctx} {c : Cond} {b cs : List Cmd} : CondFits Γ c → Fits p r .whileLoop ([] :: Γ) b → Fits p r l Γ cs →
      Fits p r l Γ (.loop c b :: cs)
  | block {r : Give} {l : Around} {Γ : Ctx} {b cs : List Cmd} : Fits p r l ([] :: Γ) b → Fits p r l Γ cs → Fits p r l Γ (.block b :: cs)
  | count {r : Give} {l : Around} {Γ : Ctx} {n : Text} {a : Num} {h : Change} {c : Cond} {b cs : List Cmd} : Usable n → NumFits Γ a → n ∉ a.vars →
      CondFits ([(n, .int)] :: Γ) c → kind ([(n, .int)] :: Γ) h.name = some .int → NumFits ([(n, .int)] :: Γ) h.num →
      Fits p .never .forLoop ([] :: [(n, .int)] :: Γ) b → Fits p r l Γ cs → Fits p r l Γ (.count n a c h b :: cs)
  | brk {r : Give} {l : Around} {Γ : Ctx} {cs : List Cmd} : l = .whileLoop ∨ l = .switch → Fits p r l Γ cs → Fits p r l Γ (.brk :: cs)
  | cont {r : Give} {l : Around} {Γ : Ctx} {cs : List Cmd} : l = .whileLoop ∨ l = .forLoop → Fits p r l Γ cs → Fits p r l Γ (.cont :: cs)
  | ret {l : Around} {Γ : Ctx} {a : Num} {cs : List Cmd} : NumFits Γ a → Fits p .number l Γ cs → Fits p .number l Γ (.ret a :: cs)
  | leave {l : Around} {Γ : Ctx} {cs : List Cmd} : Fits p .nothing l Γ cs → Fits p .nothing l Γ (.leave :: cs)

/-- What a function returns. -/
def Fun.give (f : Fun) : Give := if f.isVoid then .nothing else .number

/-- The command returns a number. -/
def Cmd.gives : Cmd → Prop
  | .ret _ => True
  | .call .ret _ _ => True
  | _ => False

/-- A function obeys the rules: different parameters, and a result at the end. -/
structure FunFits (p : Program) (f : Fun) : Prop where
  name : Usable f.name
  params : ∀ n ∈ f.params, Usable n
  distinct : f.params.Nodup
  body : Fits p f.give .nothing [f.params.map (·, .int)] f.body
  result : f.isVoid = false → ∃ cs c, f.body = cs ++ [c] ∧ c.gives

/-- A program obeys the rules: every function does, they have different names, and `Main` has neither parameters nor a result. -/
structure WellFormed (p : Program) : Prop where
  funs : ∀ f ∈ p, FunFits p f
  distinct : (p.map Fun.name).Nodup
  main : ∃ m ∈ p, m.name = mainName ∧ m.params = [] ∧ m.isVoid = true

/-! ## Writing -/

/-- The words of the commands. -/
inductive Word where
  | assert | break | case | continue | default | else | for | if | print | return | switch | while
deriving Repr, DecidableEq

/-- Their letters. -/
def Word.text : Word → Text
  | .assert => "assert".toList
  | .break => "break".toList
  | .case => "case".toList
  | .continue => "continue".toList
  | .default => "default".toList
  | .else => "else".toList
  | .for => "for".toList
  | .if => "if".toList
  | .print => "print".toList
  | .return => "return".toList
  | .switch => "switch".toList
  | .while => "while".toList

/-- The marks a program is written with: those of formulas, and some more. -/
inductive Mark where
  | formula (m : Calc.Mark)
  | word (w : Word)
  /-- `+=` … -/
  | change (op : Ints.Op)
  /-- `++` or `--` -/
  | twice (up : Bool)
  | text (t : Text)
  | assign | semi | comma | colon | lcurly | rcurly
deriving Repr, DecidableEq

/-- A name, or the name of a type. -/
abbrev Mark.name (n : Text) : Mark := .formula (.name n)

abbrev Mark.lparen : Mark := .formula .open

abbrev Mark.rparen : Mark := .formula .close

/-- The marks of a formula. -/
abbrev marks (ms : List Calc.Mark) : List Mark := ms.map .formula

/-- The ways to write a number: without two minus signs in a row. -/
def WritesNum (a : Num) (ms : List Calc.Mark) : Prop := SpellsNum .sum a ms ∧ Apart ms

/-- The ways to write a condition. -/
def WritesCond (c : Cond) (ms : List Calc.Mark) : Prop := SpellsCond .any c ms ∧ Apart ms

/-- The arguments of a function, with commas between them. -/
inductive WritesArgs : List Num → List Mark → Prop where
  | nil : WritesArgs [] []
  | one {a : Num} {ms : List Calc.Mark} : WritesNum a ms → WritesArgs [a] (marks ms)
  | more {a b : Num} {as : List Num} {ms : List Calc.Mark} {ns : List Mark} : WritesNum a ms → WritesArgs (b :: as) ns →
      WritesArgs (a :: b :: as) (marks ms ++ .comma :: ns)

/-- The ways to write a change. -/
inductive WritesChange : Change → List Mark → Prop where
  | to {n : Text} {a : Num} {ms : List Calc.Mark} : WritesNum a ms → WritesChange (.to n a) (.name n :: .assign :: marks ms)
  | by {n : Text} {op : Ints.Op} {a : Num} {ms : List Calc.Mark} : WritesNum a ms →
      WritesChange (.by n op a) (.name n :: .change op :: marks ms)
  | step {up : Bool} {n : Text} : WritesChange (.step up n) [.name n, .twice up]

/-- How the beginning of a text is written. -/
def Start.mark : Start → Mark
  | .text t => .text t
  | .var n => .name n

/-- The ways to write the parts of a text, each behind a `+`: sums of numbers and conditions need parentheses. -/
inductive WritesParts : List Part → List Mark → Prop where
  | nil : WritesParts [] []
  | num {a : Num} {ps : List Part} {ms : List Calc.Mark} {ns : List Mark} : SpellsNum .product a ms → Apart ms → WritesParts ps ns →
      WritesParts (.num a :: ps) (.formula (.op .add) :: (marks ms ++ ns))
  | truth {c : Cond} {ps : List Part} {ms : List Calc.Mark} {ns : List Mark} : SpellsCond .atom c ms → Apart ms → WritesParts ps ns →
      WritesParts (.truth c :: ps) (.formula (.op .add) :: (marks ms ++ ns))
  | text {t : Text} {ps : List Part} {ns : List Mark} : WritesParts ps ns →
      WritesParts (.text t :: ps) (.formula (.op .add) :: .text t :: ns)
  | var {n : Text} {ps : List Part} {ns : List Mark} : WritesParts ps ns →
      WritesParts (.var n :: ps) (.formula (.op .add) :: .name n :: ns)

/-- A block of a `switch` and how it is written. -/
structure Arm where
  label : Option Num
  cmds : List Cmd
  /-- the marks of the number -/
  ms : List Calc.Mark
  /-- the marks of the commands -/
  ts : List Mark

/-- `case a: { … }` or `default: { … }` -/
def Arm.marks (x : Arm) : List Mark :=
  match x.label with
  | some _ => .word .case :: (Whole.marks x.ms ++ .colon :: .lcurly :: (x.ts ++ [.rcurly]))
  | none => .word .default :: .colon :: .lcurly :: (x.ts ++ [.rcurly])

/-- The ways to write commands. -/
inductive Writes : List Cmd → List Mark → Prop where
  | nil : Writes [] []
  | int {n : Text} {a : Num} {cs : List Cmd} {ms : List Calc.Mark} {ns : List Mark} : WritesNum a ms → Writes cs ns →
      Writes (.int n a :: cs) (.name "int".toList :: .name n :: .assign :: (marks ms ++ .semi :: ns))
  | bool {n : Text} {c : Cond} {cs : List Cmd} {ms : List Calc.Mark} {ns : List Mark} : WritesCond c ms → Writes cs ns →
      Writes (.bool n c :: cs) (.name "bool".toList :: .name n :: .assign :: (marks ms ++ .semi :: ns))
  | text {n : Text} {h : Start} {ps : List Part} {cs : List Cmd} {ms ns : List Mark} : WritesParts ps ms → Writes cs ns →
      Writes (.text n h ps :: cs) (.name "string".toList :: .name n :: .assign :: h.mark :: (ms ++ .semi :: ns))
  | fresh {k : Kind} {n : Text} {cs : List Cmd} {ns : List Mark} : Writes cs ns →
      Writes (.fresh k n :: cs) (.name k.word :: .name n :: .semi :: ns)
  | set {d : Change} {cs : List Cmd} {ms ns : List Mark} : WritesChange d ms → Writes cs ns →
      Writes (.set d :: cs) (ms ++ .semi :: ns)
  | mark {n : Text} {c : Cond} {cs : List Cmd} {ms : List Calc.Mark} {ns : List Mark} : WritesCond c ms → Writes cs ns →
      Writes (.mark n c :: cs) (.name n :: .assign :: (marks ms ++ .semi :: ns))
  | write {n : Text} {h : Start} {ps : List Part} {cs : List Cmd} {ms ns : List Mark} : WritesParts ps ms → Writes cs ns →
      Writes (.write n h ps :: cs) (.name n :: .assign :: h.mark :: (ms ++ .semi :: ns))
  | call {n f : Text} {args : List Num} {cs : List Cmd} {ms ns : List Mark} : WritesArgs args ms → Writes cs ns →
      Writes (.call (.set n) f args :: cs) (.name n :: .assign :: .name f :: .lparen :: (ms ++ .rparen :: .semi :: ns))
  | callNew {n f : Text} {args : List Num} {cs : List Cmd} {ms ns : List Mark} : WritesArgs args ms → Writes cs ns →
      Writes (.call (.new n) f args :: cs)
        (.name "int".toList :: .name n :: .assign :: .name f :: .lparen :: (ms ++ .rparen :: .semi :: ns))
  | callPrint {f : Text} {args : List Num} {cs : List Cmd} {ms ns : List Mark} : WritesArgs args ms → Writes cs ns →
      Writes (.call .print f args :: cs) (.word .print :: .lparen :: .name f :: .lparen :: (ms ++ .rparen :: .rparen :: .semi :: ns))
  | callRet {f : Text} {args : List Num} {cs : List Cmd} {ms ns : List Mark} : WritesArgs args ms → Writes cs ns →
      Writes (.call .ret f args :: cs) (.word .return :: .name f :: .lparen :: (ms ++ .rparen :: .semi :: ns))
  | act {f : Text} {args : List Num} {cs : List Cmd} {ms ns : List Mark} : WritesArgs args ms → Writes cs ns →
      Writes (.act f args :: cs) (.name f :: .lparen :: (ms ++ .rparen :: .semi :: ns))
  | print {a : Num} {cs : List Cmd} {ms : List Calc.Mark} {ns : List Mark} : WritesNum a ms → Writes cs ns →
      Writes (.print a :: cs) (.word .print :: .lparen :: (marks ms ++ .rparen :: .semi :: ns))
  | say {h : Start} {ps : List Part} {cs : List Cmd} {ms ns : List Mark} : WritesParts ps ms → Writes cs ns →
      Writes (.say h ps :: cs) (.word .print :: .lparen :: h.mark :: (ms ++ .rparen :: .semi :: ns))
  | check {c : Cond} {cs : List Cmd} {ms : List Calc.Mark} {ns : List Mark} : WritesCond c ms → Writes cs ns →
      Writes (.check c :: cs) (.word .assert :: .lparen :: (marks ms ++ .rparen :: .semi :: ns))
  | when {c : Cond} {t cs : List Cmd} {ms : List Calc.Mark} {ts ns : List Mark} : WritesCond c ms → Writes t ts → Writes cs ns →
      Writes (.when c t :: cs) (.word .if :: .lparen :: (marks ms ++ .rparen :: .lcurly :: (ts ++ .rcurly :: ns)))
  | choose {c : Cond} {t e cs : List Cmd} {ms : List Calc.Mark} {ts es ns : List Mark} : WritesCond c ms → Writes t ts →
      Writes e es → Writes cs ns → Writes (.choose c t e :: cs)
        (.word .if :: .lparen :: (marks ms ++ .rparen :: .lcurly :: (ts ++ .rcurly :: .word .else :: .lcurly :: (es ++ .rcurly :: ns))))
  | chain {c : Cond} {d : Cmd} {t cs : List Cmd} {ms : List Calc.Mark} {ts es ns : List Mark} : WritesCond c ms → Writes t ts →
      d.isIf = true → Writes [d] es → Writes cs ns → Writes (.chain c t d :: cs)
        (.word .if :: .lparen :: (marks ms ++ .rparen :: .lcurly :: (ts ++ .rcurly :: .word .else :: (es ++ ns))))
  | pick {a : Num} {xs : List Arm} {cs : List Cmd} {ms : List Calc.Mark} {ns : List Mark} : WritesNum a ms →
      (∀ x ∈ xs, ∀ b, x.label = some b → WritesNum b x.ms) → (∀ x ∈ xs, Writes x.cmds x.ts) → Writes cs ns →
      Writes (.pick a (xs.map fun x => (x.label, x.cmds)) :: cs)
        (.word .switch :: .lparen :: (marks ms ++ .rparen :: .lcurly :: (xs.flatMap Arm.marks ++ .rcurly :: ns)))
  | loop {c : Cond} {b cs : List Cmd} {ms : List Calc.Mark} {ts ns : List Mark} : WritesCond c ms → Writes b ts → Writes cs ns →
      Writes (.loop c b :: cs) (.word .while :: .lparen :: (marks ms ++ .rparen :: .lcurly :: (ts ++ .rcurly :: ns)))
  | count {n : Text} {a : Num} {d : Change} {c : Cond} {b cs : List Cmd} {ms cm : List Calc.Mark} {sm ts ns : List Mark} : WritesNum a ms →
      WritesCond c cm → WritesChange d sm → Writes b ts → Writes cs ns → Writes (.count n a c d b :: cs)
        (.word .for :: .lparen :: .name "int".toList :: .name n :: .assign :: (marks ms ++ .semi :: (marks cm ++ .semi ::
          (sm ++ .rparen :: .lcurly :: (ts ++ .rcurly :: ns)))))
  | block {b cs : List Cmd} {ts ns : List Mark} : Writes b ts → Writes cs ns →
      Writes (.block b :: cs) (.lcurly :: (ts ++ .rcurly :: ns))
  | brk {cs : List Cmd} {ns : List Mark} : Writes cs ns → Writes (.brk :: cs) (.word .break :: .semi :: ns)
  | cont {cs : List Cmd} {ns : List Mark} : Writes cs ns → Writes (.cont :: cs) (.word .continue :: .semi :: ns)
  | ret {a : Num} {cs : List Cmd} {ms : List Calc.Mark} {ns : List Mark} : WritesNum a ms → Writes cs ns →
      Writes (.ret a :: cs) (.word .return :: (marks ms ++ .semi :: ns))
  | leave {cs : List Cmd} {ns : List Mark} : Writes cs ns → Writes (.leave :: cs) (.word .return :: .semi :: ns)

/-- `int a, int b, …` -/
def paramMarks : List Text → List Mark
  | [] => []
  | [n] => [.name "int".toList, .name n]
  | n :: ns => .name "int".toList :: .name n :: .comma :: paramMarks ns

/-- The type of the result. -/
def Fun.resultName (f : Fun) : Text := if f.isVoid then "void".toList else "int".toList

/-- The ways to write a program: one function after the other. -/
inductive WritesProgram : Program → List Mark → Prop where
  | nil : WritesProgram [] []
  | cons {f : Fun} {p : Program} {ms ns : List Mark} : Writes f.body ms → WritesProgram p ns → WritesProgram (f :: p)
      (.name f.resultName :: .name f.name :: .lparen :: (paramMarks f.params ++ .rparen :: .lcurly :: (ms ++ .rcurly :: ns)))

/-- How a mark is written: as a word or as symbols. -/
def Mark.pieces : Mark → List Lex.Piece
  | .formula m => m.pieces
  | .word w => [.word w.text]
  | .change op => [.sym (Calc.opChar op), .sym '=']
  | .twice up => [.sym (if up then '+' else '-'), .sym (if up then '+' else '-')]
  | .text t => [Lex.quotedPiece t]
  | .assign => [.sym '=']
  | .semi => [.sym ';']
  | .comma => [.sym ',']
  | .colon => [.sym ':']
  | .lcurly => [.sym '{']
  | .rcurly => [.sym '}']

/-- The text consists of these marks, with any blanks, line ends and comments in between. -/
def Laid (ms : List Mark) (text : Text) : Prop :=
  ∃ ps : List Lex.Piece, Lex.WellFormed none ps ∧ Lex.render ps = text ∧ ps.filter (fun p => !isGap p) = ms.flatMap Mark.pieces

/-- The characters of a line. -/
def Line.chars : Line → Text
  | .number i => Str.intToString i
  | .text t => t

/-- What is printed: every number and every text on a line of its own. -/
def lines (out : List Line) : Text := out.flatMap fun l => l.chars ++ ['\n']

end Verif.Whole
