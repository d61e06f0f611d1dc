import Verif.Generic.Props
import Verif.Lex.Model

/-!
# Uses of generic types

C156: how `Name<t1, ..., tk>` is read behind `new` and in declarations of methods, and which instance it means.
-/

namespace Verif.Generic

/-! ## Model -/

/-- What reading tokens gives: a result and the remaining tokens, or a read behind the last token. -/
inductive Read (α : Type) where
  | ok (a : α) (rest : List Lex.Tok)
  | undefined
  deriving DecidableEq, Repr

def Read.map {α β : Type} (f : α → β) : Read α → Read β
  | .ok a rest => .ok (f a) rest
  | .undefined => .undefined

/-- Skip a token of this type. -/
def skip (ty : Lex.Ty) : List Lex.Tok → List Lex.Tok
  | [] => []
  | t :: ts => if t.ty = ty then ts else t :: ts

theorem skip_length (ty : Lex.Ty) (ts : List Lex.Tok) : (skip ty ts).length ≤ ts.length := by
  cases ts with
  | nil => exact Nat.le_refl _
  | cons t ts => simp only [skip]; split <;> simp

/-- The loop of `collectRuntimePrototypeConstraints` (`Parser.cpp:247-272`): any token but `>` is a type, the colon and the comma
may be missing. -/
def runtimeArgs (index : Nat) (ts : List Lex.Tok) : Read (List Constraint) :=
  match ts with
  | [] => .undefined
  | t :: ts =>
    if t.ty = .COMPARE_GREATER then .ok [] ts
    else (runtimeArgs (index + 1) (skip .COMMA (skip .COLON ts))).map (⟨index, "", String.ofList t.content, ""⟩ :: ·)
termination_by ts.length
decreasing_by
  have h1 := skip_length .COMMA (skip .COLON ts)
  have h2 := skip_length .COLON ts
  simp only [List.length_cons]
  omega

/-- `collectRuntimePrototypeConstraints` (`Parser.cpp:236-278`). -/
def collectRuntime : List Lex.Tok → Read (List Constraint)
  | [] => .undefined
  | t :: ts => if t.ty = .COMPARE_LESS then runtimeArgs 0 ts else .ok [] (t :: ts)

/-- `Repository::createInstance`, the choice of the class (`Repository.cpp:130-151`): the known classes afterwards, and the name of
the class of the new object. -/
def instanceOf (R : AMap String Class) (c : Class) (cs : List Constraint) : Except Err (AMap String Class × String) :=
  let create (cs : List Constraint) : Except Err (AMap String Class × String) :=
    let name := runtimeName c.name cs
    if c.name = name then .ok (R, name)
    else
      match R.find name with
      | some _ => .ok (R, name)
      | none =>
        match createBluePrint R c cs with
        | .ok R' => .ok (R', name)
        | .error e => .error e
  if sameAll cs c.cs then create cs
  else if cs.length < c.cs.length then create (buildRawConstraints c.cs cs)
  else .error .mismatch

/-! ## Specification -/

/-- The arguments `t1, ..., tk`. -/
def given (ts : List String) : List Constraint := ts.zipIdx.map fun (t, i) => ⟨i, "", t, ""⟩

/-- A name. -/
def nameTok (t : String) : Lex.Tok := ⟨.none, .IDENTIFIER, t.toList, 1, false⟩

def lessTok : Lex.Tok := ⟨.comparator, .COMPARE_LESS, ['<'], 1, false⟩

def greaterTok : Lex.Tok := ⟨.comparator, .COMPARE_GREATER, ['>'], 1, false⟩

def commaTok : Lex.Tok := ⟨.none, .COMMA, [','], 1, false⟩

/-- `<t1, ..., tk>`. -/
def argTokens (ts : List String) : List Lex.Tok := lessTok :: ((ts.map nameTok).intersperse commaTok ++ [greaterTok])

/-- The parameters of a class are numbered from 0, as the parser does. -/
def Numbered (c : Class) : Prop := c.cs.map Constraint.index = List.range c.cs.length

/-- The arguments with `Object` for those that are missing. -/
def filled (n : Nat) (ts : List String) : List String := ts ++ List.replicate (n - ts.length) "Object"

/-! ## Reading -/

theorem args_loop : ∀ (ts : List String) (i : Nat) (rest : List Lex.Tok),
    runtimeArgs i ((ts.map nameTok).intersperse commaTok ++ greaterTok :: rest) =
      .ok ((ts.zipIdx i).map fun (t, i) => ⟨i, "", t, ""⟩) rest
  | [], i, rest => by rw [List.map_nil, List.intersperse_nil, List.nil_append, runtimeArgs]; rfl
  | [t], i, rest => by
    rw [runtimeArgs.eq_def]
    simp only [List.map_cons, List.map_nil, List.intersperse_singleton, List.singleton_append, nameTok, reduceCtorEq, if_false]
    simp only [skip, greaterTok, reduceCtorEq, if_false]
    rw [runtimeArgs.eq_def]
    simp [Read.map]
  | t :: u :: ts, i, rest => by
    have ih := args_loop (u :: ts) (i + 1) rest
    simp only [List.map_cons, List.intersperse_cons_cons, List.cons_append] at ih ⊢
    rw [runtimeArgs.eq_def]
    simp only [show (nameTok t).ty = .IDENTIFIER from rfl, reduceCtorEq, if_false]
    simp only [skip, show commaTok.ty = .COMMA from rfl, reduceCtorEq, if_false, if_true]
    rw [ih]
    simp [Read.map, nameTok, List.zipIdx_cons]

/-- C156: the type arguments are read in the order in which they are written. -/
theorem arguments_read (ts : List String) (rest : List Lex.Tok) : collectRuntime (argTokens ts ++ rest) = .ok (given ts) rest := by
  simp only [argTokens, List.cons_append, List.append_assoc, List.singleton_append, collectRuntime, lessTok, if_true]
  exact args_loop ts 0 rest

/-! ## The instance -/

/-- The same numbers and run time types. -/
def Alike (cs ds : List Constraint) : Prop := cs.map (fun c => (c.index, c.run)) = ds.map fun c => (c.index, c.run)

theorem alike_arguments : ∀ {cs ds : List Constraint}, Alike cs ds → arguments cs = arguments ds
  | [], [], _ => rfl
  | [], _ :: _, h => by simp [Alike] at h
  | _ :: _, [], h => by simp [Alike] at h
  | [c], [d], h => by simp_all [Alike, arguments, Constraint.argument]
  | [c], d :: e :: ds, h => by simp [Alike] at h
  | c :: b :: cs, [d], h => by simp [Alike] at h
  | c :: b :: cs, d :: e :: ds, h => by
    have h1 : c.run = d.run := by simp [Alike] at h; exact h.1.2
    have h2 : Alike (b :: cs) (e :: ds) := by
      unfold Alike at h ⊢
      rw [List.map_cons, List.map_cons] at h
      exact (List.cons.inj h).2
    have e1 : arguments (c :: b :: cs) = c.argument ++ "," ++ arguments (b :: cs) := by rw [arguments]; simp
    have e2 : arguments (d :: e :: ds) = d.argument ++ "," ++ arguments (e :: ds) := by rw [arguments]; simp
    rw [e1, e2, alike_arguments h2, Constraint.argument, Constraint.argument, h1]

theorem alike_name {cs ds : List Constraint} (h : Alike cs ds) (n : String) : runtimeName n cs = runtimeName n ds := by
  unfold runtimeName
  rw [alike_arguments h]
  have : cs = [] ↔ ds = [] := by
    have := congrArg List.length h
    simp only [List.length_map] at this
    rw [← List.length_eq_zero_iff, ← List.length_eq_zero_iff, this]
  by_cases e : cs = []
  · rw [if_pos e, if_pos (this.1 e)]
  · rw [if_neg e, if_neg (fun h => e (this.2 h))]

theorem alike_same : ∀ {cs ds : List Constraint}, Alike cs ds → ∀ es, sameAll es cs = sameAll es ds
  | [], [], _, _ => rfl
  | [], _ :: _, h, _ => by simp [Alike] at h
  | _ :: _, [], h, _ => by simp [Alike] at h
  | c :: cs, d :: ds, h, [] => rfl
  | c :: cs, d :: ds, h, e :: es => by
    simp only [Alike, List.map_cons, List.cons.injEq, Prod.mk.injEq] at h
    rw [sameAll, sameAll, alike_same (cs := cs) (ds := ds) h.2, Constraint.same, Constraint.same, h.1.1]

theorem alike_merge : ∀ {cs ds : List Constraint}, Alike cs ds → ∀ es, mergeConstraints es cs = mergeConstraints es ds
  | [], [], _, _ => rfl
  | [], _ :: _, h, _ => by simp [Alike] at h
  | _ :: _, [], h, _ => by simp [Alike] at h
  | c :: cs, d :: ds, h, [] => rfl
  | c :: cs, d :: ds, h, e :: es => by
    simp only [Alike, List.map_cons, List.cons.injEq, Prod.mk.injEq] at h
    rw [mergeConstraints, mergeConstraints, alike_merge (cs := cs) (ds := ds) h.2, h.1.2]

theorem alike_create {cs ds : List Constraint} (h : Alike cs ds) (R : AMap String Class) (c : Class) :
    createBluePrint R c cs = createBluePrint R c ds := by
  rw [createBluePrint, createBluePrint, alike_same h, alike_merge h]

theorem same_iff : ∀ {cs ds : List Constraint}, sameAll cs ds = true ↔ cs.map Constraint.index = ds.map Constraint.index
  | [], [] => by simp [sameAll]
  | [], _ :: _ => by simp [sameAll]
  | _ :: _, [] => by simp [sameAll]
  | c :: cs, d :: ds => by
    simp only [sameAll, Constraint.same, decide_true, Bool.and_true, Bool.and_eq_true, decide_eq_true_eq, List.map_cons, List.cons.injEq,
      same_iff (cs := cs)]

theorem given_index (ts : List String) : (given ts).map Constraint.index = List.range ts.length := by
  simp [given, List.zipIdx_map_snd, Function.comp_def, List.range_eq_range']

theorem given_length (ts : List String) : (given ts).length = ts.length := by simp [given]

theorem raw_alike {c : Class} (hc : Numbered c) {ts : List String} (h : ts.length ≤ c.cs.length) :
    Alike (buildRawConstraints c.cs (given ts)) (given (filled c.cs.length ts)) := by
  unfold Alike
  apply List.ext_getElem?
  intro i
  simp only [buildRawConstraints, given, filled, List.getElem?_map, List.getElem?_append, List.length_map, List.length_zipIdx,
    List.getElem?_drop, List.getElem?_zipIdx, Nat.zero_add]
  by_cases hi : i < ts.length
  · simp [hi]
  · have hr : (c.cs.map Constraint.index)[i]? = (List.range c.cs.length)[i]? := congrArg (·[i]?) hc
    simp only [List.getElem?_map] at hr
    simp only [if_neg hi]
    rw [show ts.length + (i - ts.length) = i by omega]
    by_cases hn : i < c.cs.length
    · rw [List.getElem?_range hn] at hr
      rw [List.getElem?_replicate, if_pos (by omega)]
      cases hx : c.cs[i]? with
      | none => rw [hx] at hr; cases hr
      | some x => rw [hx] at hr; simp only [Option.map_some, Option.some.injEq] at hr; simp [hr]
    · rw [List.getElem?_eq_none (by omega), List.getElem?_replicate, if_neg (by omega)]; rfl

/-- C156: the object that `Name<t1, ..., tk>` creates has the class that is written with `Object` for the missing arguments, no
matter which classes are known, and the same class is created for it if there is none. -/
theorem missing_arguments_object (R : AMap String Class) {c : Class} (hc : Numbered c) {ts : List String} (h : ts.length ≤ c.cs.length) :
    instanceOf R c (given ts) = instanceOf R c (given (filled c.cs.length ts)) ∧
    ∀ R' n, instanceOf R c (given ts) = .ok (R', n) → n = runtimeName c.name (given (filled c.cs.length ts)) := by
  have hf : (filled c.cs.length ts).length = c.cs.length := by simp [filled]; omega
  have hs : sameAll (given (filled c.cs.length ts)) c.cs = true := by rw [same_iff, given_index, hf, hc]
  have key : instanceOf R c (given ts) = instanceOf R c (given (filled c.cs.length ts)) := by
    by_cases he : ts.length = c.cs.length
    · have : filled c.cs.length ts = ts := by simp [filled, he]
      rw [this]
    · have hn : ¬ sameAll (given ts) c.cs = true := by
        rw [same_iff, given_index, hc]
        intro e
        have := congrArg List.length e
        simp only [List.length_range] at this
        exact he this
      have ha := raw_alike hc h
      unfold instanceOf
      simp only [if_neg hn, if_pos hs]
      rw [if_pos (by rw [given_length]; omega), alike_name ha, alike_create ha]
  refine ⟨key, fun R' n hr => ?_⟩
  rw [key] at hr
  unfold instanceOf at hr
  simp only [if_pos hs] at hr
  split at hr
  · cases hr; rfl
  · split at hr
    · cases hr; rfl
    · split at hr
      · cases hr; rfl
      · cases hr

/-- C156: more arguments than parameters are rejected. -/
theorem too_many_arguments (R : AMap String Class) {c : Class} {ts : List String} (h : c.cs.length < ts.length) :
    instanceOf R c (given ts) = .error .mismatch := by
  have hn : ¬ sameAll (given ts) c.cs = true := by
    rw [same_iff]
    intro e
    have := congrArg List.length e
    simp only [List.length_map, given_length] at this
    omega
  unfold instanceOf
  simp only [if_neg hn]
  rw [if_neg (by rw [given_length]; omega)]

/-! ## What the reader does not check -/

theorem loop_unseparated : ∀ (ts : List String) (i : Nat) (rest : List Lex.Tok),
    runtimeArgs i (ts.map nameTok ++ greaterTok :: rest) = .ok ((ts.zipIdx i).map fun (t, i) => ⟨i, "", t, ""⟩) rest
  | [], i, rest => by rw [List.map_nil, List.nil_append, runtimeArgs]; rfl
  | t :: ts, i, rest => by
    have ih := loop_unseparated ts (i + 1) rest
    rw [runtimeArgs.eq_def]
    simp only [List.map_cons, List.cons_append, show (nameTok t).ty = .IDENTIFIER from rfl, reduceCtorEq, if_false]
    have hs : skip .COMMA (skip .COLON (ts.map nameTok ++ greaterTok :: rest)) = ts.map nameTok ++ greaterTok :: rest := by
      cases ts with
      | nil => rfl
      | cons u ts => rfl
    rw [hs, ih]
    simp [Read.map, nameTok, List.zipIdx_cons]

/-- C156 does not hold for the separators: without the commas the same arguments are read. -/
theorem separators_refuted (ts : List String) (rest : List Lex.Tok) :
    collectRuntime (lessTok :: (ts.map nameTok ++ greaterTok :: rest)) = collectRuntime (argTokens ts ++ rest) := by
  rw [arguments_read]
  simp only [collectRuntime, lessTok, if_true]
  exact loop_unseparated ts 0 rest

/-- C156 does not hold for arguments that are generic types: of `<a<b>` and what follows, three arguments `a`, `<` and `b` are read, and
the closing bracket of the inner type ends them. -/
theorem nested_arguments_refuted (a b : String) (rest : List Lex.Tok) :
    collectRuntime (lessTok :: nameTok a :: (argTokens [b] ++ rest)) = .ok (given [a, "<", b]) rest := by
  simp only [collectRuntime, lessTok, if_true, argTokens, List.map_cons, List.map_nil, List.intersperse_singleton, List.cons_append,
    List.nil_append]
  rw [runtimeArgs.eq_def]
  simp only [show (nameTok a).ty = .IDENTIFIER from rfl, reduceCtorEq, if_false, skip]
  rw [runtimeArgs.eq_def]
  simp only [reduceCtorEq, if_false, skip, show (nameTok b).ty = .IDENTIFIER from rfl]
  rw [runtimeArgs.eq_def]
  simp only [show (nameTok b).ty = .IDENTIFIER from rfl, reduceCtorEq, if_false, skip, show greaterTok.ty = .COMPARE_GREATER from rfl]
  rw [runtimeArgs.eq_def]
  simp [Read.map, nameTok, given, greaterTok, List.zipIdx_cons, show String.ofList ['<'] = "<" from rfl]

/-! ## A case that meets the hypotheses -/

/-- `Map<K, V>`. -/
def mapClass : Class := { name := "Map", cs := [⟨0, "K", "", ""⟩, ⟨1, "V", "", ""⟩] }

def mapWorld : AMap String Class :=
  [("Map", mapClass), ("int", { name := "int", cs := [] }), ("Object", { name := "Object", cs := [] })]

example : Numbered mapClass := rfl

example : filled 2 ["int"] = ["int", "Object"] ∧
    (instanceOf mapWorld mapClass (given ["int"])).toOption.map (·.2) = some "Map<int,Object>" ∧
    (instanceOf mapWorld mapClass (given [])).toOption.map (·.2) = some "Map<Object,Object>" := by
  refine ⟨rfl, ?_, ?_⟩ <;> decide +kernel

end Verif.Generic
