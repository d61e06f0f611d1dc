import Verif.Text.Model
import Verif.Files.Model

/-!
# Loggers: `libLog` and `System.IO.Logger`
-/

namespace Verif.Log

open Verif.Str Verif.Text Verif.Files

/-- The key and the key length of a logger (`Library/libLog/Logger.os:68-70`); the place the messages go to is the
file of the section below. -/
structure Logger where
  key : Text
  keyLength : Int
  deriving DecidableEq, Repr

/-- The key a logger shows, from the wanted key and length (`Library/libLog/StdOutLogger.os:12-24`,
`FileLogger.os:11-23`, `Logger.os:22-28`: the same lines).  The difference of the lengths is an `int`; the theorems
speak of lengths for which it does not overflow. -/
def shownKey (key : Text) (keyLength : Int) : Ext Text :=
  if keyLength ≠ 0 then
    thenDo (if strlen key > keyLength then extSubstr key (strlen key - keyLength) (some keyLength) else .ok key)
      fun k => extStrrpad k keyLength [' ']
  else .ok key

/-- A logger without parent (`Library/libLog/StdOutLogger.os:12-24`, `FileLogger.os:11-23`, `FileLogger.os:53-65`). -/
def rootLogger (key : Text) (keyLength : Int) : Ext Logger :=
  thenDo (shownKey key keyLength) fun k => .ok { key := k, keyLength := keyLength }

/-- A logger with a parent (`Library/libLog/Logger.os:13-29`); `separator` is `LibLog.KeySeparator`, which a script
may change (`LibLog.os:16`).  A missing parent, which throws, is not modelled. -/
def childLogger (separator : Text) (parent : Logger) (key : Text) : Ext Logger :=
  thenDo (shownKey (Str.trimRight parent.key blank ++ separator ++ key) parent.keyLength) fun k =>
    .ok { key := k, keyLength := parent.keyLength }

/-- A logger for each further key, every one made from the one before. -/
def descend (separator : Text) : Ext Logger → List Text → Ext Logger
  | l, [] => l
  | l, key :: keys => descend separator (thenDo l fun p => childLogger separator p key) keys

/-- The constructor of `System.IO.Logger` (`Library/System/IO/Logger.os:8-15`): the key. -/
def ioLogger (key : Text) (keyLength : Int) : Ext Text :=
  if keyLength ≠ 0 then extSubstr key (strlen key - keyLength) (some keyLength) else .ok key

/-! ## Messages -/

/-- The methods of a logger (`Library/libLog/Logger.os:43-63`). -/
inductive Level where
  | debug | error | fatal | info | warning
  deriving DecidableEq, Repr

/-- The text in front of the key (`Library/libLog/Logger.os:44,48,52,58,62`). -/
def Level.tag : Level → Text
  | .debug => "[DEBUG] [".toList
  | .error => "[ERROR] [".toList
  | .fatal => "[FATAL] [".toList
  | .info => "[INFO ] [".toList
  | .warning => "[WARN ] [".toList

/-- What a logger hands to its context (`Library/libLog/Logger.os:43-63`). -/
def entry (level : Level) (key message : Text) : Text := level.tag ++ key ++ "]   ".toList ++ message

/-- The bytes of a text. -/
def bytes (t : Text) : List Byte := t.map Char.toNat

/-- The file of a `FileContext` (`Library/libLog/Context.os:10-12`, `System/IO/File.os:33-39`). -/
def openLog (refused : String → Bool) (w : World) (name : String) (append : Bool) : MOut Bool × FileObj × World :=
  fileOpen refused w {} name (if append then AccessMode.writeUpdate.text else AccessMode.writeOnly.text)

/-- How a call of a logger's method ends: it returns, throws a `FatalError` with a text, fails, or is undefined. -/
inductive Said where
  | done | fatal (text : Text) | fail | ub
  deriving DecidableEq, Repr

/-- A call of a method of a logger whose context is a file (`Library/libLog/Logger.os:43-63`, `Context.os:20-22`); the
answer of `write` is not looked at. -/
def say (w : World) (obj : FileObj) (key : Text) (level : Level) (message : Text) : Said × World :=
  match fileWrite w obj (bytes (entry level key message)) with
  | (.ok _, _, w') => (if level = .fatal then .fatal ("fatal error: ".toList ++ message) else .done, w')
  | (.throws, _, w') => (.fail, w')
  | (.fail, _, w') => (.fail, w')
  | (.ub, _, w') => (.ub, w')

/-- Calls of a logger's methods, one after the other; the script catches what is thrown. -/
def sayAll (w : World) (obj : FileObj) (key : Text) : List (Level × Text) → List Said × World
  | [] => ([], w)
  | (level, message) :: rest =>
    let r := say w obj key level message
    let rs := sayAll r.2 obj key rest
    (r.1 :: rs.1, rs.2)

end Verif.Log
