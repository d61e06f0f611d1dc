/-
Model of Projects/Library/SudokuSolver/Board.os and Cell.os.

Simplifications, for every definition below:
* SizeX = SizeY = Repeat = r, as in the board the program makes (SudokuSolver.os:37, with r = 3); boards of
  other shapes are not modelled;
* the map from "x,y" to a cell is a function of x and y: only places inside the board are ever asked for
  when the caller asks for one (places outside throw in Map.get);
* numbers do not overflow, and what is printed is left out.
-/
namespace Verif.Sudoku

/-- Cell.os:7-19. X and Y are the place the cell is stored at. -/
structure Cell where
  value : Int
  possible : List Int
deriving Repr, DecidableEq

/-- Board.os:263-267. -/
structure Board where
  cell : Nat → Nat → Cell
  solved : Bool

/-- The numbers on the board. -/
def Board.grid (b : Board) : Nat → Nat → Int := fun x y => (b.cell x y).value

/-- The range `1..n` (Range.os). -/
def upTo (n : Nat) : List Nat := (List.range n).map (· + 1)

/-- The order in which the nested `foreach` loops visit places (Board.os:19-20, 45-46, 76-77, 100-101, 177-178). -/
def places (r : Nat) : List (Nat × Nat) := (upTo (r * r)).flatMap fun y => (upTo (r * r)).map fun x => (x, y)

/-- Board.os:12-24. -/
def newBoard : Board := { cell := fun _ _ => { value := 0, possible := [] }, solved := false }

/-- Changes one cell: cells are objects shared by the map and the vectors holding them. -/
def put (b : Board) (x y : Nat) (c : Cell) : Board :=
  { b with cell := fun x' y' => if x' = x ∧ y' = y then c else b.cell x' y' }

/-- Board.os:115-130. -/
def isUsedInBox (r : Nat) (b : Board) (ox oy : Nat) (value : Int) : Bool :=
  let bx := (ox - 1) / r
  let boxY := (oy - 1) / r
  (upTo r).any fun y => (upTo r).any fun x => (b.cell (bx * r + x) (boxY * r + y)).value == value

/-- Board.os:132-142. -/
def isUsedInLine (r : Nat) (b : Board) (y : Nat) (value : Int) : Bool :=
  (upTo (r * r)).any fun x => (b.cell x y).value == value

/-- Board.os:144-154. -/
def isUsedInRow (r : Nat) (b : Board) (x : Nat) (value : Int) : Bool :=
  (upTo (r * r)).any fun y => (b.cell x y).value == value

/-- Board.os:93-97. -/
def isSafe (r : Nat) (b : Board) (x y : Nat) (value : Int) : Bool :=
  !isUsedInBox r b x y value && !isUsedInLine r b y value && !isUsedInRow r b x value

/-- The locals of Board.os:38-39 with the board. -/
structure Pass where
  board : Board
  missing : Int
  again : Bool

/-- The body of the two inner loops, Board.os:47-67. -/
def visit (r : Nat) (s : Pass) (p : Nat × Nat) : Pass :=
  let cell := s.board.cell p.1 p.2
  let s1 : Pass :=
    if cell.value = 0 then
      { s with
        board := put s.board p.1 p.2
          { cell with possible := ((upTo (r * r)).map Int.ofNat).filter (isSafe r s.board p.1 p.2) }
        missing := s.missing + 1 }
    else s
  match (s1.board.cell p.1 p.2).possible with
  | [v] => { board := put s1.board p.1 p.2 { value := v, possible := [] }, missing := s1.missing - 1, again := true }
  | _ => s1

/-- One run of the `while` body, Board.os:42-69. -/
def pass (r : Nat) (b : Board) : Pass :=
  (places r).foldl (visit r) { board := b, missing := 0, again := false }

/-- `calculatePossibleValues`, Board.os:37-73, with a number of rounds after which the model gives up
(`calculate_ends` shows that there always is a number that is enough). -/
def calculate (r : Nat) : Nat → Board → Option Board
  | 0, _ => none
  | k + 1, b =>
    let s := pass r b
    if s.again then calculate r k s.board
    else some { s.board with solved := s.missing == 0 }

/-- Board.os:75-87. -/
def findEmptyCell (r : Nat) (b : Board) : Option (Nat × Nat) :=
  (places r).find? fun p => (b.cell p.1 p.2).value == 0

/-- Board.os:99-113. -/
def isSane (r : Nat) (b : Board) : Bool :=
  (places r).all fun p =>
    !((b.cell p.1 p.2).value == 0 || !isSafe r b p.1 p.2 (b.cell p.1 p.2).value)

/-- Board.os:156-167; `none` is the exception. -/
def set (r : Nat) (b : Board) (x y : Nat) (value : Int) (validate : Bool) : Option Board :=
  if validate && !isSafe r b x y value then none
  else some { put b x y { (b.cell x y) with value := value } with solved := false }

/-- Board.os:198-201, with the cells from `index` on. -/
def clear : List (Nat × Nat) → Board → Board
  | [], b => b
  | p :: ps, b => clear ps (put b p.1 p.2 { (b.cell p.1 p.2) with value := 0 })

/-- Board.os:207-218; `deeper` is the call in line 214. -/
def tries (r : Nat) (deeper : Board → Bool × Board) (p : Nat × Nat) : List Int → Board → Bool × Board
  | [], b => (false, b)
  | v :: vs, b =>
    if isSafe r b p.1 p.2 v then
      match deeper (put b p.1 p.2 { (b.cell p.1 p.2) with value := v }) with
      | (true, b') => (true, b')
      | (false, b') => tries r deeper p vs b'
    else tries r deeper p vs b

/-- Board.os:204-228, with the cells from `index` on. `index` and the loop variable go up together, so the
call `solve(cells, index + 1)` always gets the cells after the current one. -/
def search (r : Nat) : List (Nat × Nat) → Board → Bool × Board
  | [], b => (false, b)
  | p :: ps, b =>
    match tries r (fun b' => search r ps (clear ps b')) p (b.cell p.1 p.2).possible b with
    | (true, b') => (true, b')
    | (false, b') => if (b'.cell p.1 p.2).value = 0 then (false, b') else search r ps b'

/-- The empty cells, Board.os:175-185. -/
def emptyPlaces (r : Nat) (b : Board) : List (Nat × Nat) :=
  (places r).filter fun p => (b.cell p.1 p.2).value == 0

/-- Board.os:169-193 with 195-202. -/
def solve (r : Nat) (b : Board) : Board :=
  if b.solved then b
  else
    let cells := emptyPlaces r b
    if cells.isEmpty then { b with solved := true }
    else
      let (ok, b') := search r cells (clear cells b)
      { b' with solved := ok }

/-- What SudokuSolver.os:34-78 can do with a board: make one, set numbers on places inside it, calculate and solve. -/
inductive Made (r : Nat) : Board → Prop
  | new : Made r newBoard
  | set {b b' : Board} {x y : Nat} {value : Int} {validate : Bool} :
      Made r b → 1 ≤ x ∧ x ≤ r * r ∧ 1 ≤ y ∧ y ≤ r * r → set r b x y value validate = some b' → Made r b'
  | calculate {b b' : Board} {k : Nat} : Made r b → calculate r k b = some b' → Made r b'
  | solve {b : Board} : Made r b → Made r (solve r b)

end Verif.Sudoku
