import Verif.Args.Spec
import Verif.Str.Props

/-!
# C128, C129: the command line and the arguments of a script
-/

namespace Verif.Args

open Verif.Str

/-! ## C128: options are for `slang`, what follows the file name is for the script -/

theorem loop_script (args : List Text) : ∀ (s : State), s.scriptParams = true →
    loop s args = some { s with params := s.params ++ args, paramStr := s.paramStr ++ args.flatMap ('\n' :: ·) } := by
  induction args with
  | nil => intro s _; simp [loop]
  | cons a rest ih =>
    intro s hs
    rw [loop.eq_def]
    simp only [if_pos hs]
    rw [ih { s with params := s.params ++ [a], paramStr := s.paramStr ++ '\n' :: a } hs]
    simp

theorem lines_cons (f : Text) (args : List Text) : lines (f :: args) = f ++ args.flatMap ('\n' :: ·) := by
  induction args generalizing f with
  | nil => simp [lines]
  | cons a rest ih => rw [lines, ih]; simp; simp

/-- What an option sets. -/
def Opt.apply (s : State) : Opt → State
  | .debug => { s with debug := true }
  | .help _ => { s with printUsage := true }
  | .library _ d => { s with libraries := s.libraries ++ [d] }
  | .quiet _ => { s with loudness := 0 }
  | .skipSanity => { s with sanityCheck := false }
  | .spec q => { s with printSpec := true, requestedSpec := q }
  | .«syntax» => { s with syntaxCheck := true }
  | .tokens => { s with printTokens := true }
  | .verbose _ => { s with loudness := 2 }
  | .version => { s with printVersion := true }

theorem loop_opt (s : State) (o : Opt) (rest : List Text) (hs : s.scriptParams = false) :
    loop s (o.words ++ rest) = loop (o.apply s) rest := by
  have h : ¬ (s.scriptParams = true) := by rw [hs]; simp
  cases o with
  | debug => 
    have hw : word "--debug".toList = .debug := by decide
    simp only [Opt.words, List.cons_append, List.nil_append]; rw [loop.eq_def]; simp only [if_neg h, hw]; rfl
  | help b =>
    have hw : word (if b then "-h".toList else "--help".toList) = .help := by cases b <;> decide
    simp only [Opt.words, List.cons_append, List.nil_append]; rw [loop.eq_def]; simp only [if_neg h, hw]; rfl
  | library b d =>
    have hw : word (if b then "-l".toList else "--library".toList) = .library := by cases b <;> decide
    simp only [Opt.words, List.cons_append, List.nil_append]; rw [loop.eq_def]; simp only [if_neg h, hw]; rfl
  | quiet b =>
    have hw : word (if b then "-q".toList else "--quiet".toList) = .quiet := by cases b <;> decide
    simp only [Opt.words, List.cons_append, List.nil_append]; rw [loop.eq_def]; simp only [if_neg h, hw]; rfl
  | skipSanity =>
    have hw : word "--skip-sanitycheck".toList = .skipSanity := by decide
    simp only [Opt.words, List.cons_append, List.nil_append]; rw [loop.eq_def]; simp only [if_neg h, hw]; rfl
  | spec q =>
    have hw : word "--spec".toList = .spec := by decide
    simp only [Opt.words, List.cons_append, List.nil_append]; rw [loop.eq_def]; simp only [if_neg h, hw]; rfl
  | «syntax» =>
    have hw : word "--syntax".toList = .«syntax» := by decide
    simp only [Opt.words, List.cons_append, List.nil_append]; rw [loop.eq_def]; simp only [if_neg h, hw]; rfl
  | tokens =>
    have hw : word "--tokens".toList = .tokens := by decide
    simp only [Opt.words, List.cons_append, List.nil_append]; rw [loop.eq_def]; simp only [if_neg h, hw]; rfl
  | verbose b =>
    have hw : word (if b then "-v".toList else "--verbose".toList) = .verbose := by cases b <;> decide
    simp only [Opt.words, List.cons_append, List.nil_append]; rw [loop.eq_def]; simp only [if_neg h, hw]; rfl
  | version =>
    have hw : word "--version".toList = .version := by decide
    simp only [Opt.words, List.cons_append, List.nil_append]; rw [loop.eq_def]; simp only [if_neg h, hw]; rfl

theorem loop_opts (opts : List Opt) : ∀ (s : State) (rest : List Text), s.scriptParams = false →
    loop s (opts.flatMap Opt.words ++ rest) = loop (opts.foldl Opt.apply s) rest ∧
    (opts.foldl Opt.apply s).scriptParams = false ∧ (opts.foldl Opt.apply s).filename = s.filename ∧
    (opts.foldl Opt.apply s).params = s.params ∧ (opts.foldl Opt.apply s).paramStr = s.paramStr := by
  induction opts with
  | nil => intro s rest hs; simp [hs]
  | cons o opts ih =>
    intro s rest hs
    have h0 : (o.apply s).scriptParams = false ∧ (o.apply s).filename = s.filename ∧ (o.apply s).params = s.params ∧
        (o.apply s).paramStr = s.paramStr := by cases o <;> exact ⟨hs, rfl, rfl, rfl⟩
    obtain ⟨h1, h2, h3, h4, h5⟩ := ih (o.apply s) rest h0.1
    rw [List.flatMap_cons, List.append_assoc, loop_opt s o _ hs]
    exact ⟨h1, h2, h3.trans h0.2.1, h4.trans h0.2.2.1, h5.trans h0.2.2.2⟩

theorem foldl_flags (opts : List Opt) (s : State) :
    let r := opts.foldl Opt.apply s
    (r.debug = true ↔ s.debug = true ∨ .debug ∈ opts) ∧
    (r.printSpec = true ↔ s.printSpec = true ∨ ∃ q, .spec q ∈ opts) ∧
    (r.printTokens = true ↔ s.printTokens = true ∨ .tokens ∈ opts) ∧
    (r.printUsage = true ↔ s.printUsage = true ∨ ∃ b, .help b ∈ opts) ∧
    (r.printVersion = true ↔ s.printVersion = true ∨ .version ∈ opts) ∧
    (r.syntaxCheck = true ↔ s.syntaxCheck = true ∨ .«syntax» ∈ opts) ∧
    (r.sanityCheck = false ↔ s.sanityCheck = false ∨ .skipSanity ∈ opts) ∧
    (∀ d, d ∈ r.libraries ↔ d ∈ s.libraries ∨ ∃ b, .library b d ∈ opts) := by
  induction opts generalizing s with
  | nil => simp
  | cons o opts ih =>
    obtain ⟨h1, h2, h3, h4, h5, h6, h7, h8⟩ := ih (o.apply s)
    simp only [List.foldl_cons]
    refine ⟨h1.trans ?_, h2.trans ?_, h3.trans ?_, h4.trans ?_, h5.trans ?_, h6.trans ?_, h7.trans ?_, fun d => (h8 d).trans ?_⟩
    all_goals cases o <;> simp [Opt.apply]
    all_goals (try (constructor <;> rintro (h | h) <;> simp_all))
    all_goals grind

/-- The file and everything behind it: the options in front are `slang`'s, the rest is handed to
the script unchanged and in order, options among it included, whatever it is.  The name of the
file may be preceded by `-f` or `--file`, and need not then differ from the options. -/
theorem options_then_script (opts : List Opt) (f : Text) (args : List Text) (flag : Option Bool)
    (hf : flag = none → ∀ p ∈ optionWords, p.1 ≠ f) :
    ∃ s, processParameters (opts.flatMap Opt.words ++
        fileFlag flag ++ f :: args) = some s ∧
      s.filename = f ∧ s.params = f :: args ∧ s.paramStr = lines (f :: args) ∧
      (s.debug = true ↔ .debug ∈ opts) ∧ (s.printSpec = true ↔ ∃ q, .spec q ∈ opts) ∧
      (s.printTokens = true ↔ .tokens ∈ opts) ∧ (s.printUsage = true ↔ ∃ b, .help b ∈ opts) ∧
      (s.printVersion = true ↔ .version ∈ opts) ∧ (s.syntaxCheck = true ↔ .«syntax» ∈ opts) ∧
      (s.sanityCheck = false ↔ .skipSanity ∈ opts) ∧ (∀ d, d ∈ s.libraries ↔ ∃ b, .library b d ∈ opts) := by
  obtain ⟨h1, h2, h3, h4, h5⟩ := loop_opts opts {}
    (fileFlag flag ++ f :: args) rfl
  have hfl := foldl_flags opts {}
  simp only [Bool.false_eq_true, false_or, List.not_mem_nil, Bool.true_eq_false] at hfl
  rw [processParameters, List.append_assoc, h1]
  generalize List.foldl Opt.apply {} opts = s at *
  refine ⟨{ setFile s f with params := (setFile s f).params ++ args, paramStr := (setFile s f).paramStr ++ args.flatMap ('\n' :: ·) }, ?_, rfl, ?_, ?_, ?_⟩
  · have hs : ¬ (s.scriptParams = true) := by rw [h2]; simp
    cases flag with
    | none =>
      have hw : word f = .other := by
        have : optionWords.lookup f = none := by
          rw [List.lookup_eq_none_iff]
          intro p hp
          simpa using (hf rfl p hp).symm
        rw [word, this]; rfl
      rw [show fileFlag none ++ f :: args = f :: args from rfl, loop.eq_def]
      simp only [if_neg hs, hw, h3, List.isEmpty_nil, if_true]
      exact loop_script args _ rfl
    | some b =>
      have hw : word (if b then "-f".toList else "--file".toList) = .file := by cases b <;> decide
      have : fileFlag (some b) ++ f :: args
          = (if b then "-f".toList else "--file".toList) :: f :: args := by cases b <;> rfl
      rw [this, loop.eq_def]
      simp only [if_neg hs, hw]
      exact loop_script args _ rfl
  · simp [setFile, h4]
  · rw [lines_cons]; simp [setFile, h5]
  · exact hfl

example : (processParameters (["--library", "lib", "-q", "a.os", "-q", "--file", "x y"].map String.toList)).map
    (fun s => (s.filename, s.libraries, s.params.length)) = some ("a.os".toList, ["lib".toList], 4) := by decide

/-- The script is run, with the number and the text of its arguments, exactly if no option asks
for something else and its name is not empty. -/
theorem script_runs_iff (opts : List Opt) (f : Text) (args : List Text) (hf : ∀ p ∈ optionWords, p.1 ≠ f)
    (hl : args.length + 1 < 2 ^ 31) :
    ∃ s, processParameters (opts.flatMap Opt.words ++ f :: args) = some s ∧
      ((∃ o ∈ opts, o.noRun = true) ∨ f = [] → ∀ g n t, action s ≠ .run g n t) ∧
      (¬ ((∃ o ∈ opts, o.noRun = true) ∨ f = []) → action s = .run f (args.length + 1) (lines (f :: args))) := by
  obtain ⟨s, h, h1, h2, h3, h4, h5, h6, h7, h8, h9, -, -⟩ := options_then_script opts f args none (fun _ => hf)
  simp only [fileFlag, List.append_nil] at h
  refine ⟨s, h, ?_, ?_⟩
  · rintro hno g n t hr
    unfold action at hr
    split at hr; · cases hr
    split at hr; · cases hr
    split at hr; · cases hr
    split at hr; · cases hr
    split at hr; · cases hr
    split at hr; · cases hr
    rename_i n1 n2 n3 n4 n5 n6
    rw [h4] at n1; rw [h5] at n2; rw [h8] at n3; rw [h6] at n5; rw [h9] at n6
    simp only [Bool.or_eq_true, h7, List.isEmpty_iff, h1, not_or] at n4
    rcases hno with ⟨o, ho, hn⟩ | hf
    · cases o with
      | help b => exact n4.1 ⟨b, ho⟩
      | debug => exact n1 ho
      | spec q => exact n2 ⟨q, ho⟩
      | «syntax» => exact n6 ho
      | tokens => exact n5 ho
      | version => exact n3 ho
      | _ => simp [Opt.noRun] at hn
    · exact n4.2 hf
  · intro hno
    have hn : ∀ o ∈ opts, o.noRun = false := by
      intro o ho
      cases hb : o.noRun
      · rfl
      · exact absurd (Or.inl ⟨o, ho, hb⟩) hno
    have hargc : s.argc = args.length + 1 := by
      have := Text.strlen_eq (s := ((s.params.map fun _ => 'x') : Text)) (by simp [h2]; omega)
      simp only [Text.strlen, List.length_map] at this
      rw [State.argc, this, h2]; simp
    have g1 : s.debug = false := by
      cases hb : s.debug
      · rfl
      · exact absurd (hn _ (h4.1 hb)) (by simp [Opt.noRun])
    have g2 : s.printSpec = false := by
      cases hb : s.printSpec
      · rfl
      · obtain ⟨q, hq⟩ := h5.1 hb
        exact absurd (hn _ hq) (by simp [Opt.noRun])
    have g3 : s.printVersion = false := by
      cases hb : s.printVersion
      · rfl
      · exact absurd (hn _ (h8.1 hb)) (by simp [Opt.noRun])
    have g4 : s.printUsage = false := by
      cases hb : s.printUsage
      · rfl
      · obtain ⟨q, hq⟩ := h7.1 hb
        exact absurd (hn _ hq) (by simp [Opt.noRun])
    have g5 : s.printTokens = false := by
      cases hb : s.printTokens
      · rfl
      · exact absurd (hn _ (h6.1 hb)) (by simp [Opt.noRun])
    have g6 : s.syntaxCheck = false := by
      cases hb : s.syntaxCheck
      · rfl
      · exact absurd (hn _ (h9.1 hb)) (by simp [Opt.noRun])
    have g7 : s.filename.isEmpty = false := by
      cases hb : s.filename.isEmpty
      · rfl
      · rw [List.isEmpty_iff, h1] at hb
        exact absurd (Or.inr hb) hno
    unfold action
    simp only [g1, g2, g3, g4, g5, g6, g7, Bool.false_eq_true, if_false, Bool.or_false]
    rw [h1, h3, hargc]

example : (processParameters (["-v", "a.os", "--syntax", "-h"].map String.toList)).map action
    = some (.run "a.os".toList 3 "a.os\n--syntax\n-h".toList) := by decide

example : (processParameters (["--syntax", "a.os"].map String.toList)).map action = some .syntaxCheck := by decide

/-- The folders added for `SLANG_LIBRARY` are the pieces of its text between the colons that are
not empty, in order. -/
theorem environment_folders (path : Text) (fuel : Nat) (hf : path.length < fuel) :
    ∃ ps, envFolders fuel path = some (ps.filter (fun p => !p.isEmpty)) ∧ Text.Pieces [':'] path ps := by
  induction fuel generalizing path with
  | zero => omega
  | succ fuel ih =>
    have single : ∀ (s : Text) (i : Nat), Text.OccursAt s [':'] i → ':' ∈ s := by
      rintro s i ⟨a, b, rfl, _⟩; simp
    by_cases hp : path = []
    · subst hp
      refine ⟨[[]], by simp [envFolders], .last ?_⟩
      rintro ⟨i, h⟩
      exact absurd (single _ _ h) (by simp)
    · have hpe : path.isEmpty = false := by simpa using hp
      rcases splitBy_spec path ':' with ⟨h1, h2⟩ | ⟨h, t, e, hn, h2⟩
      · refine ⟨[path], ?_, .last ?_⟩
        · obtain ⟨k, rfl⟩ : ∃ k, fuel = k + 1 := ⟨fuel - 1, by
            have := List.length_pos_iff.2 hp; omega⟩
          have hend : envFolders (k + 1) [] = some [] := rfl
          rw [envFolders, if_neg (by simp [hpe]), h2]
          simp only [hend, hpe]
          simp [hp]
        · rintro ⟨i, h⟩
          exact h1 (single _ _ h)
      · have hlen := congrArg List.length e
        simp at hlen
        obtain ⟨ps, h3, h4⟩ := ih t (by omega)
        refine ⟨h :: ps, ?_, .cons (p := h) (rest := t) (by simpa using e) ?_ h4⟩
        · rw [envFolders, if_neg (by simp [hpe]), h2]
          simp only [h3]
          cases h <;> simp
        · rintro i ⟨a, b, e2, rfl⟩
          refine Decidable.byContradiction fun hc => hn ?_
          have : path[a.length]? = some ':' := by rw [e2]; simp
          rw [e, List.getElem?_append_left (by omega)] at this
          exact List.mem_of_getElem? this

example : envFolders 20 "/usr/lib:./own::".toList = some ["/usr/lib".toList, "./own".toList] := by decide

/-! ## C129: the handler gives a script its arguments -/

theorem process_eq (args : Text) (hl : args.length < 2 ^ 31 - 1) :
    process args = some (insert ((args.map fun c => [c]).foldl step {} |> fun s => step s [])) := by
  rw [process, Text.characters_refuted args hl _ (by omega)]
  simp [List.foldl_append]

theorem step_empty (s : PS) : insert (step s []) = insert s := by
  simp [step, insert]

/-- The state after the characters of a text. -/
def feed (s : PS) (t : Text) : PS := (t.map fun c => [c]).foldl step s

theorem feed_append (s : PS) (a b : Text) : feed s (a ++ b) = feed (feed s a) b := by
  simp [feed, List.foldl_append]

theorem feed_cons (s : PS) (c : Char) (t : Text) : feed s (c :: t) = feed (step s [c]) t := by simp [feed]

theorem feed_plain (t : Text) (ht : Plain t) : ∀ (s : PS), s.isEscape = false →
    feed s t = { s with param := s.param ++ t } := by
  induction t with
  | nil => intro s _; simp [feed]
  | cons c t ih =>
    intro s hs
    obtain ⟨h1, h2, h3, h4, h5⟩ := ht c (by simp)
    have : step s [c] = { s with param := s.param ++ [c] } := by
      simp [step, h1, h2, h3, h4, h5, hs]
    rw [feed_cons, this, ih (fun d hd => ht d (by simp [hd])) { s with param := s.param ++ [c] } hs]
    simp

theorem step_break (s : PS) (h : s.isString = false) :
    step s ['\n'] = { out := if stringToBool s.param || s.isValue then insert s else s.out } := by
  simp [step, h]

theorem step_blank (s : PS) (h : s.isString = false) :
    step s [' '] = { out := if stringToBool s.param || s.isValue then insert s else s.out } := by
  simp [step, h]

theorem step_equals (s : PS) (h : s.isString = false) :
    step s ['='] = { s with isValue := true, key := s.param, param := [] } := by
  simp [step, h]

theorem newParam_eq (k v : Text) : newParam k v = ⟨undash k, v⟩ := by
  match k with
  | [] => rfl
  | [c] =>
    by_cases h : c = '-'
    · subst h; rfl
    · simp [newParam, h, undash]
  | c :: d :: t =>
    by_cases h : c = '-'
    · subst h
      by_cases h2 : d = '-'
      · subst h2; rfl
      · simp [newParam, h2, undash]
    · simp [newParam, h, undash]

theorem notFalse_true {t : Text} (hp : Plain t) (hn : NotFalse t) : stringToBool t = true := by
  cases h : stringToBool t
  · obtain ⟨a, m, b, e, ha, hb, hm⟩ := (text_false_iff t).1 h
    have ha' : a = [] := by
      cases a with
      | nil => rfl
      | cons c a => exact absurd (ha c (by simp)) (hp c (by simp [e])).1
    have hb' : b = [] := by
      cases b with
      | nil => rfl
      | cons c b => exact absurd (hb c (by simp)) (hp c (by simp [e])).1
    subst ha' hb'
    simp at e
    subst e
    rcases hm with h | h | h
    · exact absurd h hn.1
    · exact absurd rfl (hp '\n' (by simp [h])).2.1
    · exact absurd h hn.2
  · rfl

/-- What an argument leaves when it was read from the beginning of a state. -/
theorem feed_arg (a : Arg) (ha : a.Good) (ps : List Param) :
    let s := feed { out := ps } a.text
    s.isEscape = false ∧ s.isString = false ∧ (stringToBool s.param || s.isValue) = true ∧ insert s = ps ++ [a.param] := by
  cases a with
  | word w =>
    simp only [Arg.text]
    rw [feed_plain w ha.1 _ rfl]
    refine ⟨rfl, rfl, ?_, ?_⟩
    · simp [notFalse_true ha.1 ha.2]
    · simp [insert, newParam_eq, Arg.param]
  | pair k v =>
    simp only [Arg.text]
    rw [feed_append, feed_plain k ha.1 _ rfl, feed_cons, step_equals _ rfl, feed_plain v ha.2 _ rfl]
    refine ⟨rfl, rfl, by simp, ?_⟩
    simp [insert, newParam_eq, Arg.param]

theorem feed_args (args : List Arg) : ∀ (a : Arg) (ps : List Param), a.Good → (∀ a ∈ args, a.Good) →
    insert (feed { out := ps } (lines ((a :: args).map Arg.text))) = ps ++ (a :: args).map Arg.param := by
  induction args with
  | nil => intro a ps ha _; exact (feed_arg a ha ps).2.2.2
  | cons b args ih =>
    intro a ps ha h
    obtain ⟨h1, h2, h3, h4⟩ := feed_arg a ha ps
    have : lines ((a :: b :: args).map Arg.text) = a.text ++ '\n' :: lines ((b :: args).map Arg.text) := rfl
    rw [this, feed_append, feed_cons, step_break _ h2, if_pos h3, h4, ih b _ (h b (by simp)) (fun c hc => h c (by simp [hc]))]
    simp

/-- For words and keys with values without blanks, line breaks, quotes, backslashes and further
equals signs, the handler gives the script exactly its arguments, in order, and the name of the
program. -/
theorem handler_gives_the_arguments_partial (f : Text) (hf : Plain f ∧ NotFalse f) (args : List Arg)
    (ha : ∀ a ∈ args, a.Good) (hl : (lines (f :: args.map Arg.text)).length < 2 ^ 31 - 1) (skip : Bool) :
    ∃ dir, construct (args.length + 1) (lines (f :: args.map Arg.text)) skip
      = some { programName := undash f, directoryName := dir, params := args.map Arg.param } := by
  have := feed_args args (.word f) [] hf ha
  simp only [List.map_cons, Arg.text, List.nil_append] at this
  rw [construct, process_eq _ hl]
  simp only [step_empty]
  simp only [feed] at this
  rw [this]
  simp [Arg.param]

example : construct 4 "app.os\n--name=x\n-v\ninput.txt".toList true
    = some { programName := "app.os".toList, params := [⟨"name".toList, "x".toList⟩, ⟨"v".toList, []⟩, ⟨"input.txt".toList, []⟩] } := by
  decide +kernel

/-- From the command line to the script. -/
theorem script_gets_its_arguments_partial (opts : List Opt) (ho : ∀ o ∈ opts, o.noRun = false) (f : Text)
    (hf : Plain f ∧ NotFalse f) (hw : ∀ p ∈ optionWords, p.1 ≠ f) (args : List Arg) (ha : ∀ a ∈ args, a.Good)
    (hl : (lines (f :: args.map Arg.text)).length < 2 ^ 31 - 1) (hn : args.length + 1 < 2 ^ 31) :
    ∃ s n t h, processParameters (opts.flatMap Opt.words ++ f :: args.map Arg.text) = some s ∧
      action s = .run f n t ∧ construct n t true = some h ∧ h.programName = undash f ∧ h.params = args.map Arg.param := by
  obtain ⟨s, h1, -, h2⟩ := script_runs_iff opts f (args.map Arg.text) hw (by simpa using hn)
  obtain ⟨d, h3⟩ := handler_gives_the_arguments_partial f hf args ha hl true
  refine ⟨s, _, _, { programName := undash f, directoryName := d, params := args.map Arg.param }, h1, h2 ?_, ?_, rfl, rfl⟩
  · rintro (⟨o, ho', hb⟩ | hb)
    · rw [ho o ho'] at hb; cases hb
    · exact hf.2.1 hb
  · rw [List.length_map]; exact h3

/-- `contains` and `operator[]` find a parameter by its key: the first with it. -/
theorem handler_lookup (h : Handler) (key : Text) :
    (h.contains key = true ↔ ∃ p ∈ h.params, p.key = key) ∧
    (∀ p, h.get key = some p ↔ ∃ a b, h.params = a ++ p :: b ∧ p.key = key ∧ ∀ q ∈ a, q.key ≠ key) := by
  refine ⟨by simp [Handler.contains], fun p => ?_⟩
  rw [Handler.get, List.find?_eq_some_iff_append]
  simp only [decide_eq_true_eq, Bool.not_eq_eq_eq_not, Bool.not_true, decide_eq_false_iff_not]
  constructor
  · rintro ⟨h1, a, b, e, h2⟩; exact ⟨a, b, e, h1, h2⟩
  · rintro ⟨a, b, e, h1, h2⟩; exact ⟨h1, a, b, e, h2⟩

example : ({ params := [⟨['a'], ['1']⟩, ⟨['a'], ['2']⟩] } : Handler).get ['a'] = some ⟨['a'], ['1']⟩ := by decide

/-- The directory is everything up to the last slash. -/
theorem directory_name (f : Text) (hf : Plain f ∧ NotFalse f) (args : List Arg)
    (ha : ∀ a ∈ args, a.Good) (hl : (lines (f :: args.map Arg.text)).length < 2 ^ 31 - 1) :
    ∃ h rest, construct (args.length + 1) (lines (f :: args.map Arg.text)) false = some h ∧
      h.programName = h.directoryName ++ rest ∧ '/' ∉ rest ∧
      (h.directoryName = [] ∨ h.directoryName.getLast? = some '/') := by
  have := feed_args args (.word f) [] hf ha
  simp only [List.map_cons, Arg.text, List.nil_append] at this
  have key : ∀ (name : Text) (n : Nat), n ≤ name.length → '/' ∉ name.drop n →
      ∃ rest, name = name.take (dirLength name n) ++ rest ∧ '/' ∉ rest ∧
        (name.take (dirLength name n) = [] ∨ (name.take (dirLength name n)).getLast? = some '/') := by
    intro name n
    induction n with
    | zero => intro _ h; exact ⟨name, by simp [dirLength], by simpa using h, by simp [dirLength]⟩
    | succ n ih =>
      intro hn h
      have hd : name.drop n = name[n] :: name.drop (n + 1) := List.drop_eq_getElem_cons (by omega)
      by_cases hc : name[n] = '/'
      · refine ⟨name.drop (n + 1), ?_⟩
        have : dirLength name (n + 1) = n + 1 := by simp [dirLength, hd, hc]
        rw [this]
        refine ⟨(List.take_append_drop _ _).symm, h, Or.inr ?_⟩
        rw [List.take_succ_eq_append_getElem (by omega), hc]; simp
      · have : dirLength name (n + 1) = dirLength name n := by
          rw [dirLength, if_pos (by rw [hd]; intro h; exact hc (by simpa only [List.take_succ_cons, List.take_zero, List.cons.injEq, and_true] using h))]
        rw [this]
        refine ih (by omega) ?_
        rw [hd]
        simp only [List.mem_cons, not_or]
        exact ⟨fun e => hc e.symm, h⟩
  obtain ⟨rest, h1, h2, h3⟩ := key (undash f) (undash f).length (Nat.le_refl _) (by simp)
  refine ⟨{ programName := undash f, directoryName := (undash f).take (dirLength (undash f) (undash f).length), params := args.map Arg.param }, rest, ?_, h1, h2, h3⟩
  rw [construct, process_eq _ hl]
  simp only [step_empty]
  simp only [feed] at this
  rw [this]
  simp [Arg.param]

example : (construct 1 "src/tools/app.os".toList false).map (·.directoryName) = some "src/tools/".toList := by decide

/-- **Refuted**: an argument with a blank (as a shell passes it for `"u v"`) makes two of it, and
the assertion of the constructor fails. -/
theorem blank_in_argument_refuted (f u v : Text) (hf : Plain f ∧ NotFalse f) (hu : Plain u ∧ NotFalse u) (hv : Plain v)
    (hl : (lines [f, u ++ ' ' :: v]).length < 2 ^ 31 - 1) (skip : Bool) :
    construct 2 (lines [f, u ++ ' ' :: v]) skip = none := by
  have : insert (feed {} (lines [f, u ++ ' ' :: v])) = [⟨undash f, []⟩, ⟨undash u, []⟩, ⟨undash v, []⟩] := by
    simp only [lines]
    rw [feed_append, feed_plain f hf.1 _ rfl, feed_cons, step_break _ rfl,
      if_pos (by simp [notFalse_true hf.1 hf.2]), feed_append, feed_plain u hu.1 _ rfl, feed_cons, step_blank _ rfl,
      if_pos (by simp [notFalse_true hu.1 hu.2]), feed_plain v hv _ rfl]
    simp [insert, newParam_eq]
  rw [construct, process_eq _ hl]
  simp only [step_empty]
  simp only [feed] at this
  rw [this]
  simp

example : construct 2 (lines ["a.os".toList, "my file".toList]) true = none := by decide

/-- **Refuted**: an empty argument, or the word `false`, is dropped unless it is the last one, and
the assertion fails. -/
theorem false_argument_refuted (f u v : Text) (hf : Plain f ∧ NotFalse f) (hu : Plain u ∧ ¬ NotFalse u) (hv : Plain v)
    (hl : (lines [f, u, v]).length < 2 ^ 31 - 1) (skip : Bool) :
    construct 3 (lines [f, u, v]) skip = none := by
  have hfalse : stringToBool u = false := by
    rw [text_false_iff]
    refine ⟨[], u, [], by simp, by simp, by simp, ?_⟩
    by_cases h : u = []
    · exact Or.inl h
    · refine Or.inr (Or.inr ?_)
      refine Decidable.byContradiction fun hc => hu.2 ⟨h, hc⟩
  have : insert (feed {} (lines [f, u, v])) = [⟨undash f, []⟩, ⟨undash v, []⟩] := by
    simp only [lines]
    rw [feed_append, feed_plain f hf.1 _ rfl, feed_cons, step_break _ rfl,
      if_pos (by simp [notFalse_true hf.1 hf.2]), feed_append, feed_plain u hu.1 _ rfl, feed_cons, step_break _ rfl,
      if_neg (by simp [hfalse]), feed_plain v hv _ rfl]
    simp [insert, newParam_eq]
  rw [construct, process_eq _ hl]
  simp only [step_empty]
  simp only [feed] at this
  rw [this]
  simp

example : construct 3 (lines ["a.os".toList, "False".toList, "x".toList]) true = none := by decide

/-- **Refuted**: with a second equals sign the key is lost. -/
theorem second_equals_refuted (f k a b : Text) (hf : Plain f ∧ NotFalse f) (hk : Plain k) (ha : Plain a) (hb : Plain b)
    (hl : (lines [f, k ++ '=' :: (a ++ '=' :: b)]).length < 2 ^ 31 - 1) :
    (construct 2 (lines [f, k ++ '=' :: (a ++ '=' :: b)]) true).map (·.params) = some [⟨undash a, b⟩] := by
  have : insert (feed {} (lines [f, k ++ '=' :: (a ++ '=' :: b)])) = [⟨undash f, []⟩, ⟨undash a, b⟩] := by
    simp only [lines]
    rw [feed_append, feed_plain f hf.1 _ rfl, feed_cons, step_break _ rfl,
      if_pos (by simp [notFalse_true hf.1 hf.2]), feed_append, feed_plain k hk _ rfl, feed_cons, step_equals _ rfl,
      feed_append, feed_plain a ha _ rfl, feed_cons, step_equals _ rfl, feed_plain b hb _ rfl]
    simp [insert, newParam_eq]
  rw [construct, process_eq _ hl]
  simp only [step_empty]
  simp only [feed] at this
  rw [this]
  simp

example : (construct 2 (lines ["a.os".toList, "--filter=name=x".toList]) true).map (·.params)
    = some [⟨"name".toList, "x".toList⟩] := by decide

/-- **Refuted**: quotes that the shell left in the argument are removed, the script does not see
them. -/
theorem quotes_refuted (f w : Text) (hf : Plain f ∧ NotFalse f) (hw : Plain w)
    (hl : (lines [f, '"' :: (w ++ ['"'])]).length < 2 ^ 31 - 1) :
    (construct 2 (lines [f, '"' :: (w ++ ['"'])]) true).map (·.params) = some [⟨undash w, []⟩] := by
  have : insert (feed {} (lines [f, '"' :: (w ++ ['"'])])) = [⟨undash f, []⟩, ⟨undash w, []⟩] := by
    simp only [lines]
    rw [feed_append, feed_plain f hf.1 _ rfl, feed_cons, step_break _ rfl,
      if_pos (by simp [notFalse_true hf.1 hf.2]), feed_cons]
    have : ∀ ps, step { out := ps } ['"'] = { out := ps, isString := true } := fun ps => rfl
    rw [this, feed_append, feed_plain w hw _ rfl, feed_cons]
    simp [feed, step, insert, newParam_eq]
  rw [construct, process_eq _ hl]
  simp only [step_empty]
  simp only [feed] at this
  rw [this]
  simp

example : (construct 2 (lines ["a.os".toList, "\"hi\"".toList]) true).map (·.params) = some [⟨"hi".toList, []⟩] := by decide

end Verif.Args
