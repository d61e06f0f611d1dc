import Mathlib.Data.List.Induction
import Verif.AMap
import Verif.Str.Words
import Verif.Str.Tools

/-!
# Configuration files (`Projects/Utils/Common/Configuration/Configurator.cpp`)

A file is read into lines, each line into words; the first word of a line is a key, the second a type, the
rest the value.  Simplifications: the disk is a function from names to contents (`none`: no such file; a file that
exists but cannot be opened counts as empty, as in the code); `std::map` is an association list with one entry for
each key; the value of `SLANG_HOME` is given to the constructor. -/

namespace Verif.Str.Config

open Verif Verif.Str

/-- `Value` (`Utils/Parsers/Value.h:19-59`): name, type and value; the array fields are never set here. -/
structure Value where
  name : Text
  type : Text
  value : Text
deriving DecidableEq, Repr

/-- `Value()` (Value.cpp:16-20). -/
def Value.empty : Value := ⟨[], [], []⟩

/-- The members of `Configurator` (Configurator.h:56-62). -/
structure Configurator where
  home : Text
  file : Text
  lines : List Text
  values : AMap Text Value
  success : Bool

/-- `Configurator::unload` (Configurator.cpp:139-146). -/
def Configurator.unload (c : Configurator) : Configurator :=
  { c with file := [], lines := [], values := [], success := false }

/-- The loop of `load` (Configurator.cpp:103-112): `line` is the text since the last line end. -/
def cutLines : Text → Text → List Text
  | _, [] => []
  | line, c :: rest => if c = '\n' then line :: cutLines [] rest else cutLines (line ++ [c]) rest

/-- `LineParser::parse` (LineParser.cpp:16-43) as a `Value`. -/
def parseValue (line : Text) : Value :=
  match parseLine (line.length + 1) line with
  | some (some (n, t, v)) => ⟨n, t, v⟩
  | _ => .empty

/-- `Configurator::split` (Configurator.cpp:120-131). -/
def split (lines : List Text) : AMap Text Value :=
  lines.foldl (fun m l =>
    let v := parseValue l
    if v.name.isEmpty then m else m.set v.name v) []

/-- `Configurator::load` (Configurator.cpp:82-118); the result is `success`. -/
def Configurator.load (disk : Text → Option Text) (c : Configurator) (file : Text) : Configurator :=
  let c := { c.unload with file := c.home ++ file }
  match disk (c.home ++ file) with
  | none => c
  | some data =>
    if data.isEmpty then c
    else { c with lines := cutLines [] data, values := split (cutLines [] data), success := true }

/-- The constructor (Configurator.cpp:20-38); `env` is the value of `SLANG_HOME`. -/
def Configurator.new (disk : Text → Option Text) (env : Option Text) (file : Text) : Configurator :=
  let home := match env with
    | none => []
    | some h => if h.isEmpty then h else h ++ ['/']
  let c : Configurator := ⟨home, file, [], [], false⟩
  if file.isEmpty then c else c.load disk file

/-- The name under which a key with an index is looked up (Configurator.cpp:47-50, 69-72). -/
def member (key : Text) (idx : Int) : Text := if idx ≠ -1 then key ++ ':' :: intToString idx else key

/-- `Configurator::getValue(key, idx)` (Configurator.cpp:45-60). -/
def Configurator.getValue (c : Configurator) (key : Text) (idx : Int) : Value :=
  (c.values.find (member key idx)).getD .empty

/-- `Configurator::getValue(parent, idx, key)` (Configurator.cpp:62-65). -/
def Configurator.getValueIn (c : Configurator) (parent : Text) (idx : Int) (key : Text) : Value :=
  c.getValue (parent ++ ':' :: intToString idx ++ '.' :: key) (-1)

/-- `Configurator::isMember` (Configurator.cpp:67-80). -/
def Configurator.isMember (c : Configurator) (key : Text) (idx : Int) : Bool :=
  (c.values.find (member key idx)).isSome

/-! ## Independent specification -/

/-- `Lines text ls last`: `ls` are the lines of the text that a line end follows, `last` is what stands behind
the last line end. -/
inductive Lines : Text → List Text → Text → Prop
  | last {t} : '\n' ∉ t → Lines t [] t
  | line {l rest ls last} : '\n' ∉ l → Lines rest ls last → Lines (l ++ '\n' :: rest) (l :: ls) last

/-- The line sets the key: its first word is the key, its second the type, and the other words, with one blank
between them, are the value.  Words are separated by blanks, tabulators, carriage returns and semicolons. -/
def Sets (line key type value : Text) : Prop :=
  ∃ ws, IsWords [' ', '\t', '\n', '\r', ';'] line (key :: type :: ws) ∧ value = List.intercalate [' '] ws

/-- The last of the lines that set the key sets it to this type and value. -/
def LastSets (ls : List Text) (key type value : Text) : Prop :=
  ∃ pre l post, ls = pre ++ l :: post ∧ Sets l key type value ∧ ∀ l' ∈ post, ∀ t v, ¬ Sets l' key t v

/-- No line sets the key. -/
def NoneSets (ls : List Text) (key : Text) : Prop := ∀ l ∈ ls, ∀ t v, ¬ Sets l key t v

/-! ## Lemmas -/

theorem words_nonempty {d : List Char} {s : Text} {ws : List Text} (h : IsWords d s ws) : ∀ w ∈ ws, w ≠ [] := by
  induction h with
  | none => simp
  | last _ _ hw _ => simpa using hw
  | more _ _ hw _ _ _ ih => simpa using ⟨hw, ih⟩

theorem collect_more (fuel : Nat) : ∀ (w : WordSplitter) (ws : List Text), w.collect fuel = some ws →
    w.collect (fuel + 1) = some ws := by
  induction fuel with
  | zero => intro w ws h; simp [WordSplitter.collect] at h
  | succ fuel ih =>
    intro w ws h
    rw [WordSplitter.collect] at h ⊢
    rcases e : w.hasNext with ⟨b, w'⟩
    rw [e] at h
    cases b with
    | false => exact h
    | true =>
      simp only at h ⊢
      cases e' : w'.collect fuel with
      | none => rw [e'] at h; cases h
      | some ws' => rw [e'] at h; rw [ih _ _ e']; exact h

theorem join_words : ∀ (ws : List Text) (v : Text), (∀ w ∈ ws, w ≠ []) → v ≠ [] →
    ws.foldl (fun v w => if v.isEmpty then v ++ w else v ++ [' '] ++ w) v = v ++ (ws.flatMap fun w => ' ' :: w)
  | [], v, _, _ => by simp
  | w :: ws, v, hw, hv => by
    rw [List.foldl_cons, if_neg (by simpa using hv)]
    rw [join_words ws _ (fun x hx => hw x (List.mem_cons_of_mem _ hx)) (by simp)]
    simp

theorem join_intercalate (ws : List Text) (h : ∀ w ∈ ws, w ≠ []) :
    ws.foldl (fun v w => if v.isEmpty then v ++ w else v ++ [' '] ++ w) [] = List.intercalate [' '] ws := by
  cases ws with
  | nil => rfl
  | cons w ws =>
    rw [List.foldl_cons]
    simp only [List.isEmpty_nil, if_true, List.nil_append]
    rw [join_words ws w (fun x hx => h x (List.mem_cons_of_mem _ hx)) (h w (by simp))]
    induction ws generalizing w with
    | nil => simp [List.intercalate]
    | cons x ws ih =>
      have := ih x (fun y hy => h y (List.mem_cons_of_mem _ hy))
      simp only [List.intercalate, List.intersperse, List.flatMap_cons] at this ⊢
      simp only [List.flatten_cons] at this ⊢
      rw [← this]
      simp

theorem parseLine_words {line : Text} {ws : List Text} (h : IsWords [' ', '\t', '\n', '\r', ';'] line ws) :
    parseLine (line.length + 1) line = some (match ws with
      | n :: t :: rest => some (n, t, List.intercalate [' '] rest)
      | _ => none) := by
  have hn := words_nonempty h
  obtain ⟨ws', h1, h2⟩ := collect_spec (line.length + 1) (WordSplitter.new line []) (by simp [WordSplitter.new])
  obtain rfl : ws' = ws := by
    refine IsWords.unique ?_ h
    simpa [WordSplitter.new, defaultDelimiters] using h2
  unfold parseLine
  rw [WordSplitter.collect] at h1
  rcases e1 : (WordSplitter.new line []).hasNext with ⟨b1, t1⟩
  rw [e1] at h1
  cases b1 with
  | false => simp only [Option.some.injEq] at h1; subst h1; rfl
  | true =>
    simp only at h1 ⊢
    cases hc : t1.collect line.length with
    | none => rw [hc] at h1; cases h1
    | some ws1 =>
      rw [hc] at h1
      simp only [Option.map_some, Option.some.injEq] at h1
      subst h1
      have hc' := collect_more _ _ _ hc
      rw [WordSplitter.collect] at hc'
      rcases e2 : t1.hasNext with ⟨b2, t2⟩
      rw [e2] at hc'
      cases b2 with
      | false => simp only [Option.some.injEq] at hc'; subst hc'; rfl
      | true =>
        simp only at hc' ⊢
        cases hd : t2.collect line.length with
        | none => rw [hd] at hc'; cases hc'
        | some ws2 =>
          rw [hd] at hc'
          simp only [Option.map_some, Option.some.injEq] at hc'
          subst hc'
          rw [collect_more _ _ _ hd]
          simp only [Option.map_some, Option.some.injEq]
          rw [join_intercalate ws2 (fun w hw => hn w (by simp [hw]))]

/-- Every line has its words. -/
theorem words_exist (line : Text) : ∃ ws, IsWords [' ', '\t', '\n', '\r', ';'] line ws := by
  obtain ⟨ws, _, h⟩ := collect_spec (line.length + 1) (WordSplitter.new line []) (by simp [WordSplitter.new])
  exact ⟨ws, by simpa [WordSplitter.new, defaultDelimiters] using h⟩

/-- A line either sets one key, or no key at all. -/
theorem parseValue_cases (line : Text) :
    (∃ n t v, n ≠ [] ∧ Sets line n t v ∧ parseValue line = ⟨n, t, v⟩ ∧ ∀ n' t' v', Sets line n' t' v' → n' = n ∧ t' = t ∧ v' = v) ∨
    ((∀ n t v, ¬ Sets line n t v) ∧ parseValue line = .empty) := by
  obtain ⟨ws, h⟩ := words_exist line
  have hn := words_nonempty h
  have hp := parseLine_words h
  match ws, h, hn, hp with
  | [], h, _, hp =>
    refine .inr ⟨?_, by unfold parseValue; rw [hp]⟩
    rintro n t v ⟨ws', h', _⟩
    cases h.unique h'
  | [_], h, _, hp =>
    refine .inr ⟨?_, by unfold parseValue; rw [hp]⟩
    rintro n t v ⟨ws', h', _⟩
    cases h.unique h'
  | n :: t :: ws, h, hn, hp =>
    refine .inl ⟨n, t, _, hn n (by simp), ⟨ws, h, rfl⟩, by unfold parseValue; rw [hp], ?_⟩
    rintro n' t' v' ⟨ws', h', rfl⟩
    cases h.unique h'
    exact ⟨rfl, rfl, rfl⟩

theorem cutLines_lines {text : Text} {ls : List Text} {last : Text} (h : Lines text ls last) :
    cutLines [] text = ls := by
  have go : ∀ (l acc : Text), '\n' ∉ l → ∀ rest, cutLines acc (l ++ rest) = cutLines (acc ++ l) rest := by
    intro l
    induction l with
    | nil => intro acc _ rest; simp
    | cons c l ih =>
      intro acc hl rest
      simp only [List.mem_cons, not_or] at hl
      rw [List.cons_append, cutLines, if_neg (fun e => hl.1 e.symm), ih _ hl.2]
      simp
  induction h with
  | last h => have := go _ [] h []; simpa [cutLines] using this
  | line h _ ih => rw [go _ [] h, cutLines, if_pos rfl, ih]; simp

/-- Every text has its lines. -/
theorem lines_exist : ∀ text : Text, ∃ ls last, Lines text ls last
  | [] => ⟨[], [], .last (by simp)⟩
  | c :: text => by
    obtain ⟨ls, last, h⟩ := lines_exist text
    by_cases hc : c = '\n'
    · subst hc; exact ⟨_, last, .line (l := []) (by simp) h⟩
    · cases h with
      | last h => exact ⟨_, _, .last (by simp [h, Ne.symm hc])⟩
      | line hl h => exact ⟨_, _, .line (l := c :: _) (by simp [hl, Ne.symm hc]) h⟩

theorem split_append (ls : List Text) (l : Text) :
    split (ls ++ [l]) = (if (parseValue l).name.isEmpty then split ls else (split ls).set (parseValue l).name (parseValue l)) := by
  unfold split
  rw [List.foldl_append]
  rfl

theorem split_find (ls : List Text) (key : Text) :
    (∀ t v, LastSets ls key t v → (split ls).find key = some ⟨key, t, v⟩) ∧ (NoneSets ls key → (split ls).find key = none) := by
  induction ls using List.reverseRecOn with
  | nil =>
    constructor
    · rintro t v ⟨pre, l, post, e, _⟩; simp at e
    · intro _; rfl
  | append_singleton ls l ih =>
    rw [split_append]
    rcases parseValue_cases l with ⟨n, t, v, hne, hs, hp, hu⟩ | ⟨hno, hp⟩
    · rw [hp, if_neg (by simpa using hne)]
      simp only
      by_cases hk : n = key
      · subst hk
        constructor
        · rintro t' v' ⟨pre, l', post, e, hs', hpost⟩
          rw [AMap.find_set_self]
          cases post using List.reverseRecOn with
          | nil =>
            obtain ⟨rfl, e2⟩ := List.append_inj' e rfl
            cases e2
            obtain ⟨_, rfl, rfl⟩ := hu _ _ _ hs'
            rfl
          | append_singleton post x _ =>
            rw [← List.cons_append, ← List.append_assoc] at e
            obtain ⟨_, e2⟩ := List.append_inj' e rfl
            cases e2
            exact absurd hs (hpost l (by simp) t v)
        · intro hno; exact absurd hs (hno l (by simp) t v)
      · rw [AMap.find_set_ne hk]
        constructor
        · rintro t' v' ⟨pre, l', post, e, hs', hpost⟩
          cases post using List.reverseRecOn with
          | nil =>
            obtain ⟨rfl, e2⟩ := List.append_inj' e rfl
            cases e2
            exact absurd (hu _ _ _ hs').1.symm hk
          | append_singleton post x _ =>
            rw [← List.cons_append, ← List.append_assoc] at e
            obtain ⟨e1, e2⟩ := List.append_inj' e rfl
            exact ih.1 t' v' ⟨pre, l', post, e1, hs', fun y hy => hpost y (by simp [hy])⟩
        · intro hno; exact ih.2 fun x hx => hno x (by simp [hx])
    · rw [hp, if_pos (by rfl)]
      constructor
      · rintro t' v' ⟨pre, l', post, e, hs', hpost⟩
        cases post using List.reverseRecOn with
        | nil =>
          obtain ⟨rfl, e2⟩ := List.append_inj' e rfl
          cases e2
          exact absurd hs' (hno _ _ _)
        | append_singleton post x _ =>
          rw [← List.cons_append, ← List.append_assoc] at e
          obtain ⟨e1, e2⟩ := List.append_inj' e rfl
          exact ih.1 t' v' ⟨pre, l', post, e1, hs', fun y hy => hpost y (by simp [hy])⟩
      · intro hno'; exact ih.2 fun x hx => hno' x (by simp [hx])

/-- A key is set by a last line, or by none. -/
theorem sets_or_none (ls : List Text) (key : Text) : (∃ t v, LastSets ls key t v) ∨ NoneSets ls key := by
  induction ls with
  | nil => exact .inr (by intro l hl; cases hl)
  | cons l ls ih =>
    rcases ih with ⟨t, v, pre, l', post, rfl, h⟩ | h
    · exact .inl ⟨t, v, l :: pre, l', post, rfl, h⟩
    · by_cases hl : ∃ t v, Sets l key t v
      · obtain ⟨t, v, hs⟩ := hl
        exact .inl ⟨t, v, [], l, ls, rfl, hs, h⟩
      · refine .inr ?_
        intro x hx t v hs
        rcases List.mem_cons.1 hx with rfl | hx
        · exact hl ⟨t, v, hs⟩
        · exact h x hx t v hs

/-! ## C163 -/

/-- What the file with this text says about a key: the last line that sets it counts. -/
def Says (text key type value : Text) : Prop :=
  ∃ ls last, Lines text ls last ∧ LastSets (ls ++ [last]) key type value

/-- **C163**: when a configuration file has been loaded, whatever was loaded before, the value of a key is the one the
last line that sets it gives it, a key is a member exactly when a line sets it, and the value of any other key is empty.
`_partial`: only lines that a line end follows count (`config_last_line_refuted` shows that the last line of a file
without line end is lost). -/
theorem config_values_partial (disk : Text → Option Text) (c : Configurator) (file text : Text)
    (hd : disk (c.home ++ file) = some text) (hne : text ≠ []) (ls : List Text) (last : Text) (hl : Lines text ls last) :
    (c.load disk file).success = true ∧
    (∀ key type value, LastSets ls key type value → (c.load disk file).getValue key (-1) = ⟨key, type, value⟩) ∧
    (∀ key, NoneSets ls key → (c.load disk file).getValue key (-1) = ⟨[], [], []⟩) ∧
    (∀ key, (c.load disk file).isMember key (-1) = true ↔ ∃ l ∈ ls, ∃ type value, Sets l key type value) := by
  have hv : (c.load disk file).values = split ls ∧ (c.load disk file).success = true := by
    unfold Configurator.load Configurator.unload
    simp only [hd]
    rw [if_neg (by simpa using hne), cutLines_lines hl]
    exact ⟨rfl, rfl⟩
  have hm : ∀ key, member key (-1) = key := fun key => by simp [member]
  refine ⟨hv.2, ?_, ?_, ?_⟩
  · intro key t v h
    unfold Configurator.getValue
    rw [hv.1, hm, (split_find ls key).1 t v h]
    rfl
  · intro key h
    unfold Configurator.getValue
    rw [hv.1, hm, (split_find ls key).2 h]
    rfl
  · intro key
    unfold Configurator.isMember
    rw [hv.1, hm]
    rcases sets_or_none ls key with ⟨t, v, h⟩ | h
    · rw [(split_find ls key).1 t v h]
      obtain ⟨pre, l, post, rfl, hs, _⟩ := h
      exact ⟨fun _ => ⟨l, by simp, t, v, hs⟩, fun _ => rfl⟩
    · rw [(split_find ls key).2 h]
      constructor
      · intro h; cases h
      · rintro ⟨l, hl, t, v, hs⟩; exact absurd hs (h l hl t v)

/-- **C163**: an element of a list is the key with a colon and its index; a member of an element has a dot and its name
behind that; index −1 stands for the key itself. -/
theorem config_indexed (c : Configurator) (key sub : Text) (i : Int) :
    (i ≠ -1 → c.getValue key i = c.getValue (key ++ ":".toList ++ intToString i) (-1) ∧
      c.isMember key i = c.isMember (key ++ ":".toList ++ intToString i) (-1)) ∧
    c.getValueIn key i sub = c.getValue (key ++ ":".toList ++ intToString i ++ ".".toList ++ sub) (-1) := by
  refine ⟨fun h => ?_, ?_⟩
  · simp [Configurator.getValue, Configurator.isMember, member, h]
  · simp [Configurator.getValueIn]

/-- **C163**: loading a file that does not exist or is empty is no success and leaves no key of an earlier file. -/
theorem config_missing (disk : Text → Option Text) (c : Configurator) (file : Text)
    (hd : disk (c.home ++ file) = none ∨ disk (c.home ++ file) = some []) :
    (c.load disk file).success = false ∧ ∀ key i, (c.load disk file).isMember key i = false ∧
      (c.load disk file).getValue key i = ⟨[], [], []⟩ := by
  rcases hd with hd | hd <;>
  · unfold Configurator.load Configurator.unload
    simp only [hd]
    refine ⟨?_, fun _ _ => ⟨?_, ?_⟩⟩ <;> first | trivial | rfl

/-- **C163** is false for a last line without line end: its key is not found. -/
theorem config_last_line_refuted : ∃ (disk : Text → Option Text) (key type value : Text),
    Says "a int 1\nb int 2".toList key type value ∧ disk "f".toList = some "a int 1\nb int 2".toList ∧
      (Configurator.new disk none "f".toList).success = true ∧
      (Configurator.new disk none "f".toList).isMember key (-1) = false := by
  refine ⟨fun f => if f = "f".toList then some "a int 1\nb int 2".toList else none, "b".toList, "int".toList, "2".toList,
    ⟨["a int 1".toList], "b int 2".toList, ?_, ["a int 1".toList], "b int 2".toList, [], rfl, ?_, by simp⟩,
    by decide +kernel, by decide +kernel, by decide +kernel⟩
  · exact .line (l := "a int 1".toList) (by decide) (.last (by decide))
  · refine ⟨["2".toList], ?_, by decide⟩
    refine .more (a := []) (w := "b".toList) (x := ' ') (rest := "int 2".toList) (by decide) (by simp) (by simp) (by decide) (by decide) ?_
    refine .more (a := []) (w := "int".toList) (x := ' ') (rest := "2".toList) (by decide) (by simp) (by simp) (by decide) (by decide) ?_
    exact .last (a := []) (by decide) (by simp) (by simp) (by decide)

/-- A file that sets `k` twice and has a line with one word only: the second value of `k` counts, with one blank between
its words; the home directory is in front of the name of the file. -/
example : (let disk : Text → Option Text := fun f =>
        if f = "/h/c.conf".toList then some "k int 1\nword\nlist:2.x  string\ta;b  c\nk bool true\n".toList else none
    let c := Configurator.new disk (some "/h".toList) "c.conf".toList
    (c.success, c.getValue "k".toList (-1), c.getValueIn "list".toList 2 "x".toList, c.isMember "word".toList (-1))) =
    (true, ⟨"k".toList, "bool".toList, "true".toList⟩, ⟨"list:2.x".toList, "string".toList, "a b c".toList⟩, false) := by
  decide +kernel

/-- The hypotheses of `config_values_partial` for a text with two complete lines and the rest of a third. -/
example : Lines "k int 1\nword\nk bool".toList ["k int 1".toList, "word".toList] "k bool".toList ∧
    LastSets ["k int 1".toList, "word".toList] "k".toList "int".toList "1".toList := by
  refine ⟨.line (l := "k int 1".toList) (by decide) (.line (l := "word".toList) (by decide) (.last (by decide))),
    [], "k int 1".toList, ["word".toList], rfl, ⟨["1".toList], ?_, by decide⟩, ?_⟩
  · refine .more (a := []) (w := "k".toList) (x := ' ') (rest := "int 1".toList) (by decide) (by simp) (by simp) (by decide) (by decide) ?_
    refine .more (a := []) (w := "int".toList) (x := ' ') (rest := "1".toList) (by decide) (by simp) (by simp) (by decide) (by decide) ?_
    exact .last (a := []) (by decide) (by simp) (by simp) (by decide)
  · intro l hl t v ⟨ws, h, _⟩
    simp only [List.mem_singleton] at hl
    subst hl
    have h' : IsWords [' ', '\t', '\n', '\r', ';'] "word".toList ["word".toList] :=
      .last (a := []) (by decide) (by simp) (by simp) (by decide)
    cases h.unique h'

end Verif.Str.Config
