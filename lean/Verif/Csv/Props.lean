import Verif.Csv.Model
import Verif.Text.Props

/-!
# C144: reading tables
-/

namespace Verif.Csv

open Verif.Str Verif.Text

/-! ## Specification -/

/-- The fields of a line: what is between the commas. -/
def fields : Text → List Text
  | [] => [[]]
  | c :: t => if c = ',' then [] :: fields t else
    match fields t with
    | [] => [[c]]
    | f :: fs => (c :: f) :: fs

/-- A row as a line: its fields with commas between them. -/
def line : List Text → Text
  | [] => []
  | [f] => f
  | f :: fs => f ++ ',' :: line fs

/-- A table as a text: every row as a line. -/
def table (rows : List (List Text)) : Text := (rows.map fun r => line r ++ ['\n']).flatten

/-- Fields that can be written as they are. -/
def Plain (f : Text) : Prop := ',' ∉ f ∧ '\n' ∉ f

/-- A row has a field, and all its fields can be written as they are. -/
def PlainRow (r : List Text) : Prop := r ≠ [] ∧ ∀ f ∈ r, Plain f

/-! ## Lemmas -/

theorem fields_ne_nil (t : Text) : fields t ≠ [] := by
  cases t with
  | nil => simp [fields]
  | cons c t => rw [fields]; split; simp; split <;> simp

theorem fields_no_comma {t : Text} (h : ',' ∉ t) : fields t = [t] := by
  induction t with
  | nil => rfl
  | cons c t ih =>
    simp only [List.mem_cons, not_or] at h
    rw [fields, if_neg (fun e => h.1 e.symm), ih h.2]

theorem fields_comma {p r : Text} (h : ',' ∉ p) : fields (p ++ ',' :: r) = p :: fields r := by
  induction p with
  | nil => simp [fields]
  | cons c p ih =>
    simp only [List.mem_cons, not_or] at h
    rw [List.cons_append, fields, if_neg (fun e => h.1 e.symm), ih h.2]

theorem occurs_single (s : Text) (c : Char) : Occurs s [c] ↔ c ∈ s := by
  constructor
  · rintro ⟨i, a, b, e, -⟩; rw [e]; simp
  · intro h
    obtain ⟨a, b, e⟩ := List.append_of_mem h
    exact ⟨a.length, a, b, by simp [e], rfl⟩

theorem pieces_fields {s : Text} {ps : List Text} (h : Pieces [','] s ps) : ps = fields s := by
  induction h with
  | last h => rw [occurs_single] at h; rw [fields_no_comma h]
  | @cons s p rest ps h first _ ih =>
    subst h
    have : ',' ∉ p := by
      intro hm
      obtain ⟨a, b, e⟩ := List.append_of_mem hm
      have := first a.length ⟨a, b ++ [','] ++ rest, by simp [e], rfl⟩
      rw [e] at this
      simp at this
      omega
    rw [List.append_assoc, List.cons_append, List.nil_append, fields_comma this, ih]

theorem parseRow_eq (l : Text) (h : l.length < 2 ^ 31) : parseRow l = some (.ok (fields l)) := by
  obtain ⟨ps, h1, h2⟩ := split_gives_the_pieces_partial l separator (by simp [separator]) h (by simp [separator]) (l.length + 2) (by omega)
  rw [parseRow, h1, pieces_fields h2]

/-- What the loop adds for the rest `b` of the text, with the line `l` begun. -/
def run (headerOnly : Bool) : Text → Text → List (List Text) → List (List Text)
  | [], _, d => d
  | c :: b, l, d => if c = '\n' then (if headerOnly then d ++ [fields l] else run headerOnly b [] (d ++ [fields l])) else run headerOnly b (l ++ [c]) d

theorem parseLoop_run (v : Text) (hv : v.length < 2 ^ 31 - 1) (ho : Bool) : ∀ (fuel : Nat) (a b l : Text) (d : List (List Text)),
    v = a ++ b → b.length + 1 < fuel → l.length ≤ a.length →
    parseLoop ho fuel { currentIndex := (a.length : Int) - 1, length := strlen v, value := v } l d = some (.ok (run ho b l d)) := by
  have hsz : strlen v = v.length := strlen_eq (by omega)
  intro fuel
  induction fuel with
  | zero => intro _ _ _ _ _ h; omega
  | succ fuel ih =>
    intro a b l d e hf hl
    have hlen := congrArg List.length e
    simp at hlen
    have hn : (CharIter.mk ((a.length : Int) - 1) (strlen v) v).hasNext = true := by
      simp only [CharIter.hasNext, hsz, decide_eq_true_eq]; omega
    have hif : ¬ ((a.length : Int) - 1 + 1 > strlen v) := by rw [hsz]; omega
    have hs : extSubstr v ((a.length : Int) - 1 + 1) (some 1) = .ok (b.take 1) := by
      rw [show (a.length : Int) - 1 + 1 = ((a.length : Nat) : Int) by omega]
      refine (sub_take (s := v) (i := a.length) (n := 1) (by omega) (by omega) (by omega)).trans ?_
      rw [e]; simp
    have hnext : (CharIter.mk ((a.length : Int) - 1) (strlen v) v).next
        = (.ok (b.take 1), CharIter.mk ((a.length : Int) - 1 + 1) (strlen v) v) := by
      simp only [CharIter.next, hif, if_false, hs]
    rw [parseLoop, if_pos hn, hnext]
    cases b with
    | nil =>
      obtain ⟨k, rfl⟩ : ∃ k, fuel = k + 1 := ⟨fuel - 1, by omega⟩
      have hno : (CharIter.mk ((a.length : Int) - 1 + 1) (strlen v) v).hasNext = false := by
        simp only [CharIter.hasNext, hsz, decide_eq_false_iff_not]
        simp at hlen; omega
      simp only [List.take_nil, lineBreak, List.nil_eq, List.cons_ne_self, if_false, List.append_nil]
      rw [parseLoop, if_neg (by rw [hno]; simp), run]
    | cons c b =>
      have hc : (a ++ [c]).length = a.length + 1 := by simp
      have hi : (a.length : Int) - 1 + 1 = ((a ++ [c]).length : Int) - 1 := by rw [hc]; omega
      have ih' := fun l d h => ih (a ++ [c]) b l d (by rw [e]; simp) (by simp at hf; omega) h
      simp only [List.take_succ_cons, List.take_zero, lineBreak, List.cons.injEq, and_true]
      rw [run]
      split
      · rw [parseRow_eq l (by omega)]
        simp only
        split
        · rfl
        · rw [hi]; exact ih' _ _ (by simp)
      · rw [hi]; exact ih' _ _ (by simp; omega)

theorem parseString_run (v : Text) (hv : v.length < 2 ^ 31 - 1) (ho : Bool) (d : List (List Text)) :
    parseString d v ho = some (.ok (run ho v [] d)) := by
  have := parseLoop_run v hv ho (v.length + 2) [] v [] d rfl (by omega) (by simp)
  simpa [parseString, CharIter.new] using this

theorem run_line (ho : Bool) (x b l : Text) (d : List (List Text)) (hx : '\n' ∉ x) : run ho (x ++ b) l d = run ho b (l ++ x) d := by
  induction x generalizing l with
  | nil => simp
  | cons c x ih =>
    simp only [List.mem_cons, not_or] at hx
    rw [List.cons_append, run, if_neg (fun e => hx.1 e.symm), ih _ hx.2]
    simp

theorem run_lines (ls : List Text) (rest : Text) (d : List (List Text)) (hl : ∀ l ∈ ls, '\n' ∉ l) (hr : '\n' ∉ rest) :
    run false ((ls.map (· ++ ['\n'])).flatten ++ rest) [] d = d ++ ls.map fields := by
  induction ls generalizing d with
  | nil =>
    have := run_line false rest [] [] d hr
    simp only [List.append_nil, List.nil_append] at this
    simp [this, run]
  | cons l ls ih =>
    simp only [List.map_cons, List.flatten_cons, List.append_assoc]
    rw [run_line false l _ _ _ (hl l (by simp)), List.cons_append, run, if_pos rfl]
    simp only [Bool.false_eq_true, if_false, List.nil_append]
    rw [ih _ (fun x hx => hl x (by simp [hx]))]
    simp

theorem fields_line {r : List Text} (h : PlainRow r) : fields (line r) = r ∧ '\n' ∉ line r := by
  obtain ⟨hne, hf⟩ := h
  induction r with
  | nil => exact absurd rfl hne
  | cons f fs ih =>
    have h1 := hf f (by simp)
    cases fs with
    | nil => exact ⟨fields_no_comma h1.1, h1.2⟩
    | cons g gs =>
      have := ih (by simp) (fun x hx => hf x (by simp [hx]))
      rw [line]
      · refine ⟨by rw [fields_comma h1.1, this.1], ?_⟩
        simp [h1.2, this.2]
      · simp

theorem table_lines (rows : List (List Text)) : table rows = ((rows.map line).map (· ++ ['\n'])).flatten := by
  simp [table, List.map_map, Function.comp_def]

/-! ## Theorems -/

/-- C144: opening a file adds a row for every line that is ended by a line break, with the texts between the commas as its fields; what is
behind the last line break is lost. -/
theorem open_rows (ls : List Text) (rest : Text) (d : List (List Text)) (hl : ∀ l ∈ ls, '\n' ∉ l) (hr : '\n' ∉ rest)
    (hv : ((ls.map (· ++ ['\n'])).flatten ++ rest).length < 2 ^ 31 - 1) :
    «open» d ((ls.map (· ++ ['\n'])).flatten ++ rest) = some (.ok (d ++ ls.map fields)) := by
  rw [«open», parseString_run _ hv, run_lines ls rest d hl hr]

/-- C144 (partial): a table that is written row by row, the fields with commas between them, is read back as it was, if no field has a comma
or a line break. -/
theorem table_read_partial (rows : List (List Text)) (h : ∀ r ∈ rows, PlainRow r) (hv : (table rows).length < 2 ^ 31 - 1) :
    new (table rows) = some (.ok rows) := by
  have e := table_lines rows
  have := open_rows (rows.map line) [] [] (by
    intro l hl
    obtain ⟨r, hr, rfl⟩ := List.mem_map.1 hl
    exact (fields_line (h r hr)).2) (by simp) (by rw [List.append_nil, ← e]; exact hv)
  rw [List.append_nil, ← e] at this
  rw [new, this, List.nil_append, List.map_map]
  congr 2
  conv => rhs; rw [← List.map_id rows]
  exact List.map_congr_left fun r hr => (fields_line (h r hr)).1

/-- C144: a last row without a line break is lost. -/
theorem last_row_refuted (rows : List (List Text)) (r : List Text) (h : ∀ r ∈ rows, PlainRow r) (hr : PlainRow r)
    (hv : (table rows ++ line r).length < 2 ^ 31 - 1) : new (table rows ++ line r) = some (.ok rows) := by
  have e := table_lines rows
  have := open_rows (rows.map line) (line r) [] (by
    intro l hl
    obtain ⟨r, hr, rfl⟩ := List.mem_map.1 hl
    exact (fields_line (h r hr)).2) (fields_line hr).2 (by rw [← e]; exact hv)
  rw [← e] at this
  rw [new, this, List.nil_append, List.map_map]
  congr 2
  conv => rhs; rw [← List.map_id rows]
  exact List.map_congr_left fun r hr => (fields_line (h r hr)).1

/-- C144: a reader for a table with titles in its first row reads the titles and nothing else. -/
theorem titles_refuted (r : List Text) (rows : List (List Text)) (hr : PlainRow r) (hv : (table (r :: rows)).length < 2 ^ 31 - 1) :
    new (table (r :: rows)) true = some (.ok [r]) := by
  rw [new, «open», parseString_run _ hv]
  simp only [table, List.map_cons, List.flatten_cons, List.append_assoc]
  rw [run_line true _ _ _ _ (fields_line hr).2, List.cons_append, run, if_pos rfl]
  simp [(fields_line hr).1]

/-- C144: opening a second file keeps the rows of the first. -/
theorem second_file_refuted (rows rows' : List (List Text)) (h' : ∀ r ∈ rows', PlainRow r) (hv : (table rows').length < 2 ^ 31 - 1) :
    «open» rows (table rows') = some (.ok (rows ++ rows')) := by
  have e := table_lines rows'
  have := open_rows (rows'.map line) [] rows (by
    intro l hl
    obtain ⟨r, hr, rfl⟩ := List.mem_map.1 hl
    exact (fields_line (h' r hr)).2) (by simp) (by rw [List.append_nil, ← e]; exact hv)
  rw [List.append_nil, ← e] at this
  rw [this, List.map_map]
  congr 3
  conv => rhs; rw [← List.map_id rows']
  exact List.map_congr_left fun r hr => (fields_line (h' r hr)).1

/-- C144: quotation marks do not protect a comma: the field becomes two. -/
theorem quoted_refuted (f g : Text) (hf : Plain f) (hg : Plain g) (hv : (f ++ g).length < 2 ^ 30) :
    new ('"' :: (f ++ ',' :: (g ++ ['"', '\n']))) = some (.ok [['"' :: f, g ++ ['"']]]) := by
  have h : PlainRow ['"' :: f, g ++ ['"']] := by
    refine ⟨by simp, ?_⟩
    intro x hx
    simp only [List.mem_cons, List.not_mem_nil, or_false] at hx
    rcases hx with rfl | rfl
    · exact ⟨by simp [hf.1], by simp [hf.2]⟩
    · exact ⟨by simp [hg.1], by simp [hg.2]⟩
  have := table_read_partial [['"' :: f, g ++ ['"']]] (by simpa using h) (by simp [table, line] at hv ⊢; omega)
  simpa [table, line] using this

theorem getIdxLoop_spec (column : Text) (row : List Text) (i : Nat) :
    (column ∉ row ∧ getIdxLoop column i row = -1) ∨
      ∃ a b, row = a ++ column :: b ∧ column ∉ a ∧ getIdxLoop column i row = (i + a.length : Nat) := by
  induction row generalizing i with
  | nil => exact .inl ⟨by simp, rfl⟩
  | cons c cs ih =>
    rw [getIdxLoop]
    by_cases h : c = column
    · rw [if_pos h]
      exact .inr ⟨[], cs, by simp [h], by simp, by simp⟩
    · rw [if_neg h]
      rcases ih (i + 1) with ⟨h1, h2⟩ | ⟨a, b, e, hn, h2⟩
      · exact .inl ⟨by simp [h1, Ne.symm h], by rw [← h2]; rfl⟩
      · refine .inr ⟨c :: a, b, by simp [e], by simp [hn, Ne.symm h], ?_⟩
        rw [show ((i : Int) + 1) = ((i + 1 : Nat) : Int) by omega, h2]
        simp; omega

/-- C144: `getIdx` is the first column with that title, -1 if there is none. -/
theorem column_index (row : List Text) (column : Text) :
    (column ∉ row ∧ getIdx row column = -1) ∨ ∃ a b, row = a ++ column :: b ∧ column ∉ a ∧ getIdx row column = a.length := by
  rcases getIdxLoop_spec column row 0 with h | ⟨a, b, e, hn, h⟩
  · exact .inl h
  · exact .inr ⟨a, b, e, hn, by rw [getIdx]; simpa using h⟩

/-! ## Examples -/

def sample : List (List Text) := [["name".toList, "age".toList], ["Ann Lee".toList, []], [[]]]

example : table sample = "name,age\nAnn Lee,\n\n".toList := by decide

theorem sample_plain : ∀ r ∈ sample, PlainRow r := by unfold sample PlainRow Plain; decide

example := table_read_partial sample sample_plain (by decide)
example := last_row_refuted sample ["x".toList, "y".toList] sample_plain (by unfold PlainRow Plain; decide) (by decide)
example := titles_refuted ["name".toList, "age".toList] [["Ann".toList, "7".toList]] (by unfold PlainRow Plain; decide) (by decide)
example : new "name,age\nAnn,7\nBo,8".toList = some (.ok [["name".toList, "age".toList], ["Ann".toList, "7".toList]]) := by decide +kernel
example : getIdx ["a".toList, "b".toList, "b".toList] "b".toList = 1 := by decide

end Verif.Csv
