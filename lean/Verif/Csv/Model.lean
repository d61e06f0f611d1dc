import Verif.Text.Model

/-!
# Reading tables (`Projects/Library/libCSVReader/CSVReader.os`)

On top of the models of `CharacterIterator` and `StringIterator` (`Verif/Text/Model.lean`).  A file is the text `File.readString` gives.
-/

namespace Verif.Csv

open Verif.Str Verif.Text

/-- `Settings.SEPARATOR` (Settings.os:5). -/
def separator : Text := [',']

/-- `LINEBREAK` (StringsExtension.cpp:49-54, everywhere but on Windows). -/
def lineBreak : Text := ['\n']

/-- The loop over the columns of a line (CSVReader.os:76-81).  It needs at most two rounds more than the line has characters. -/
def parseRow (line : Text) : Option (Ext (List Text)) := splitBy (line.length + 2) line separator

/-- The loop of `parseString` (CSVReader.os:73-95) from a state of the iterator, with the members `line` and `mData`.
`none`: the rounds do not suffice. -/
def parseLoop (headerOnly : Bool) : Nat → CharIter → Text → List (List Text) → Option (Ext (List (List Text)))
  | 0, _, _, _ => none
  | fuel + 1, it, line, data =>
    if it.hasNext then
      match it.next with
      | (.exception, _) => some .exception
      | (.ok char, it') =>
        if char = lineBreak then
          match parseRow line with
          | none => none
          | some .exception => some .exception
          | some (.ok row) => if headerOnly then some (.ok (data ++ [row])) else parseLoop headerOnly fuel it' [] (data ++ [row])
        else parseLoop headerOnly fuel it' (line ++ char) data
    else some (.ok data)

/-- `parseString` (CSVReader.os:67-98): adds to the rows there are. -/
def parseString (data : List (List Text)) (content : Text) (headerOnly : Bool := false) : Option (Ext (List (List Text))) :=
  parseLoop headerOnly (content.length + 2) (CharIter.new content) [] data

/-- `open` (CSVReader.os:50-61) of a file with this content. -/
def «open» (data : List (List Text)) (content : Text) (headerOnly : Bool := false) : Option (Ext (List (List Text))) :=
  parseString data content headerOnly

/-- `Constructor` (CSVReader.os:15-22) with the name of a file with this content. -/
def new (content : Text) (columnTitles : Bool := false) : Option (Ext (List (List Text))) := «open» [] content columnTitles

/-- The loop of `Row.getIdx` (Row.os:13-21). -/
def getIdxLoop (column : Text) (idx : Int) : List Text → Int
  | [] => -1
  | c :: cs => if c = column then idx else getIdxLoop column (idx + 1) cs

/-- `Row.getIdx` (Row.os:13-21). -/
def getIdx (row : List Text) (column : Text) : Int := getIdxLoop column 0 row

end Verif.Csv
