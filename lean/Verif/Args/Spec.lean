import Verif.Args.Model

/-!
# What is expected of the command line

Independent of how it is read: what a user writes, as data.
-/

namespace Verif.Args

open Verif.Str

/-- The options of the usage text (`main.cpp:62-78`); `short`: written in the short form. -/
inductive Opt where
  | debug
  | help (short : Bool)
  | library (short : Bool) (folder : Text)
  | quiet (short : Bool)
  | skipSanity
  | spec (query : Text)
  | «syntax»
  | tokens
  | verbose (short : Bool)
  | version
  deriving DecidableEq, Repr

/-- How the option is written. -/
def Opt.words : Opt → List Text
  | .debug => ["--debug".toList]
  | .help short => [if short then "-h".toList else "--help".toList]
  | .library short d => [if short then "-l".toList else "--library".toList, d]
  | .quiet short => [if short then "-q".toList else "--quiet".toList]
  | .skipSanity => ["--skip-sanitycheck".toList]
  | .spec q => ["--spec".toList, q]
  | .«syntax» => ["--syntax".toList]
  | .tokens => ["--tokens".toList]
  | .verbose short => [if short then "-v".toList else "--verbose".toList]
  | .version => ["--version".toList]

/-- The option in front of the name of the file, if there is one. -/
def fileFlag : Option Bool → List Text
  | none => []
  | some true => ["-f".toList]
  | some false => ["--file".toList]

/-- The options that ask for something else than running the script. -/
def Opt.noRun : Opt → Bool
  | .debug | .help _ | .spec _ | .«syntax» | .tokens | .version => true
  | _ => false

/-- The texts joined with line breaks. -/
def lines : List Text → Text
  | [] => []
  | [t] => t
  | t :: ts => t ++ '\n' :: lines ts

/-- An argument of a script: a word or a key with a value. -/
inductive Arg where
  | word (w : Text)
  | pair (k v : Text)
  deriving DecidableEq, Repr

/-- How it is written. -/
def Arg.text : Arg → Text
  | .word w => w
  | .pair k v => k ++ '=' :: v

/-- A name without the dashes in front of it. -/
def undash : Text → Text
  | '-' :: '-' :: t => t
  | '-' :: t => t
  | t => t

/-- The parameter the script should find. -/
def Arg.param : Arg → Param
  | .word w => ⟨undash w, []⟩
  | .pair k v => ⟨undash k, v⟩

/-- No blank, line break, quote, backslash or equals sign. -/
def Plain (t : Text) : Prop := ∀ c ∈ t, c ≠ ' ' ∧ c ≠ '\n' ∧ c ≠ '"' ∧ c ≠ '\\' ∧ c ≠ '='

/-- A word that is not empty and not the word `false`. -/
def NotFalse (t : Text) : Prop := t ≠ [] ∧ t.map Char.toLower ≠ "false".toList

/-- The arguments for which the handler works. -/
def Arg.Good : Arg → Prop
  | .word w => Plain w ∧ NotFalse w
  | .pair k v => Plain k ∧ Plain v

end Verif.Args
