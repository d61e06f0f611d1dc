import Verif.Trace.Model

/-!
# C179: what is reported of an uncaught exception
-/

namespace Verif.Trace

open Verif.Str

variable {V T : Type}

/-! ## Specification -/

/-- A call that is going on: the method and its parameters. -/
structure Call where
  name : Text
  params : List Param
  deriving DecidableEq, Repr

/-- An exception: the value, the place of the throw statement and the calls that were going on there, the first one first. -/
structure Raised (V : Type) where
  value : V
  pos : Pos
  calls : List Call

/-- How a command ends. -/
inductive Outcome (V : Type) where
  | normal
  | raised (r : Raised V)

/-- A final block decides only if it raises an exception itself. -/
def finish (before : Outcome V) : Outcome V → Outcome V
  | .normal => before
  | .raised r => .raised r

/-- The handler is for this value. -/
def Applies (is : V → T → Bool) (type : Option T) (v : V) : Prop := ∀ ty, type = some ty → is v ty = true

/-- The first handler for this value. -/
inductive Catches (is : V → T → Bool) (v : V) : Handlers V T → Cmd V T → Prop
  | here {type handler rest} : Applies is type v → Catches is v (.cons type handler rest) handler
  | later {type other rest handler} : ¬ Applies is type v → Catches is v rest handler → Catches is v (.cons type other rest) handler

/-- How commands are to end: with the calls going on and the exception that is being handled, if there is one.  A try statement without any handler
catches everything. -/
inductive Spec (is : V → T → Bool) (methods : Text → Option (Cmd V T)) : List Call → Option (Raised V) → Cmd V T → Outcome V → Prop
  | skip {st cur} : Spec is methods st cur .skip .normal
  | throw {st cur} (v : V) (p : Pos) : Spec is methods st cur (.throw v p) (.raised ⟨v, p, st⟩)
  | rethrow {st} (r : Raised V) : Spec is methods st (some r) .rethrow (.raised r)
  | call {st cur name params body o} : methods name = some body → Spec is methods (st ++ [⟨name, params⟩]) none body o →
      Spec is methods st cur (.call name params) o
  | next {st cur a b o} : Spec is methods st cur a .normal → Spec is methods st cur b o → Spec is methods st cur (.seq a b) o
  | stop {st cur a b r} : Spec is methods st cur a (.raised r) → Spec is methods st cur (.seq a b) (.raised r)
  | quiet {st cur body handlers final e} : Spec is methods st cur body .normal → Spec is methods st cur final e →
      Spec is methods st cur (.try_ body handlers final) (finish .normal e)
  | swallowed {st cur body final r e} : Spec is methods st cur body (.raised r) → Spec is methods st cur final e →
      Spec is methods st cur (.try_ body .nil final) (finish .normal e)
  | handled {st cur body handlers handler final r o e} : Spec is methods st cur body (.raised r) → Catches is r.value handlers handler →
      Spec is methods st (some r) handler o → Spec is methods st cur final e → Spec is methods st cur (.try_ body handlers final) (finish o e)
  | other {st cur body handlers final r e} : Spec is methods st cur body (.raised r) → handlers ≠ .nil →
      (∀ handler, ¬ Catches is r.value handlers handler) → Spec is methods st cur final e →
      Spec is methods st cur (.try_ body handlers final) (finish (.raised r) e)

/-- The line for the `i`-th call. -/
def callLine (thread i : Nat) (c : Call) : Text :=
  "Thread ".toList ++ (toString thread).toList ++ ": Frame ".toList ++ (toString i).toList ++ ": ".toList ++ c.name ++ "(".toList ++
    paramsText c.params ++ ")\n".toList

/-- The lines for the calls, numbered from 0. -/
def callLines (thread : Nat) (calls : List Call) : Text := (calls.zipIdx.map fun (c, i) => callLine thread i c).flatten

/-- The report of an exception: the place, the value, the calls. -/
def reportText (show_ : V → Text) (thread : Nat) (r : Raised V) : Text :=
  "Exception raised in file ".toList ++ r.pos.file ++ ", line ".toList ++ (toString r.pos.line).toList ++ ", column ".toList ++
    (toString r.pos.column).toList ++ ":\n".toList ++ show_ r.value ++ "\n".toList ++ callLines thread r.calls

mutual
/-- Nothing in it can raise an exception. -/
def quiet : Cmd V T → Bool
  | .skip => true
  | .throw _ _ => false
  | .rethrow => false
  | .fault _ => false
  | .call _ _ => false
  | .seq a b => quiet a && quiet b
  | .try_ a hs b => quiet a && quietHandlers hs && quiet b
def quietHandlers : Handlers V T → Bool
  | .nil => true
  | .cons _ h rest => quiet h && quietHandlers rest
end

mutual
/-- The programs the theorem is about: no failing accesses; between the begin of a handler and a rethrow in it nothing can raise an exception
(`fresh`: this is so here); nothing in the final block of a try statement with handlers can. -/
def ok (fresh : Bool) : Cmd V T → Bool
  | .skip => true
  | .throw _ _ => true
  | .rethrow => fresh
  | .fault _ => false
  | .call _ _ => true
  | .seq a b => ok fresh a && ok (fresh && quiet a) b
  | .try_ a hs b => ok fresh a && okHandlers hs && ok false b && (hs.isNil || quiet b)
def okHandlers : Handlers V T → Bool
  | .nil => true
  | .cons _ h rest => ok true h && okHandlers rest
end

/-! ## Lemmas -/

/-- The frames for the calls. -/
def framesOf (st : List Call) : List Frame := st.zipIdx.map fun (c, i) => ⟨i, c.name, c.params⟩

/-- What a thread remembers of an exception. -/
def dataOf (id : Nat) (r : Raised V) : Data V := ⟨r.value, r.pos, stackTrace id (framesOf r.calls)⟩

def flowOf : Outcome V → Flow
  | .normal => .normal
  | .raised _ => .throw

theorem framesOf_push (st : List Call) (c : Call) : framesOf (st ++ [c]) = framesOf st ++ [⟨(framesOf st).length, c.name, c.params⟩] := by
  simp [framesOf, List.zipIdx_append]

theorem assoc_line (a b c d e f g h i j : Text) (cd x : Text) (h1 : cd = c ++ d) (h2 : x = i ++ j) :
    a ++ b ++ c ++ (d ++ e ++ c ++ (f ++ g ++ h ++ i)) ++ j = a ++ b ++ cd ++ e ++ c ++ f ++ g ++ h ++ x := by
  subst h1 h2
  simp only [List.append_assoc]

theorem line_eq (id k : Nat) (c : Call) : traceLine id ⟨k, c.name, c.params⟩ = callLine id k c :=
  assoc_line _ _ _ _ _ _ _ _ _ _ _ _ (by decide +kernel) (by decide +kernel)

theorem stackTrace_cons (id k : Nat) (c : Call) (fs : List Frame) :
    stackTrace id (⟨k, c.name, c.params⟩ :: fs) = callLine id k c ++ stackTrace id fs :=
  congrArg (· ++ stackTrace id fs) (line_eq id k c)

theorem stackTrace_lines (id : Nat) (st : List Call) : stackTrace id (framesOf st) = callLines id st := by
  have key : ∀ (k : Nat), stackTrace id ((st.zipIdx k).map fun (c, i) => (⟨i, c.name, c.params⟩ : Frame)) =
      ((st.zipIdx k).map fun (c, i) => callLine id i c).flatten := by
    induction st with
    | nil => intro k; rfl
    | cons c st ih =>
      intro k
      rw [List.zipIdx_cons, List.map_cons, List.map_cons, List.flatten_cons]
      exact (stackTrace_cons id k c _).trans (congrArg (callLine id k c ++ ·) (ih (k + 1)))
  exact key 0

/-- The end of a try statement. -/
theorem afterFinal_eq (o e : Outcome V) (t : Thread V) : afterFinal (flowOf o) (some (flowOf e, t)) = some (flowOf (finish o e), t) := by
  cases e <;> rfl

theorem handles_eq (is : V → T → Bool) (type : Option T) (id : Nat) (r : Raised V) :
    (Applies is type r.value → handles is type (some (dataOf id r)) = true) ∧
    (¬ Applies is type r.value → handles is type (some (dataOf id r)) = false) := by
  cases type with
  | none => exact ⟨fun _ => rfl, fun h => absurd (by intro ty h; cases h) h⟩
  | some ty =>
    constructor
    · intro h; exact h ty rfl
    · intro h
      cases hb : is r.value ty with
      | false => exact hb
      | true => exact absurd (by intro ty' h'; cases h'; exact hb) h

theorem pick_some {is : V → T → Bool} {id : Nat} {r : Raised V} {hs : Handlers V T} {h : Cmd V T} (hc : Catches is r.value hs h) :
    pick is (some (dataOf id r)) hs = some h ∧ (okHandlers hs = true → ok true h = true) ∧ (quietHandlers hs = true → quiet h = true) ∧
      hs.isNil = false := by
  induction hc with
  | here ha =>
    refine ⟨by rw [pick, if_pos ((handles_eq is _ id r).1 ha)], fun h => ?_, fun h => ?_, rfl⟩
    · simp only [okHandlers, Bool.and_eq_true] at h; exact h.1
    · simp only [quietHandlers, Bool.and_eq_true] at h; exact h.1
  | later ha _ ih =>
    refine ⟨by rw [pick, if_neg (by rw [(handles_eq is _ id r).2 ha]; simp), ih.1], fun h => ?_, fun h => ?_, rfl⟩
    · simp only [okHandlers, Bool.and_eq_true] at h; exact ih.2.1 h.2
    · simp only [quietHandlers, Bool.and_eq_true] at h; exact ih.2.2.1 h.2

theorem pick_none (is : V → T → Bool) (id : Nat) (r : Raised V) (hs : Handlers V T) (hc : ∀ h, ¬ Catches is r.value hs h) :
    pick is (some (dataOf id r)) hs = none := by
  match hs, hc with
  | .nil, _ => rfl
  | .cons type h rest, hc =>
    have ha : ¬ Applies is type r.value := fun ha => hc h (.here ha)
    rw [pick, if_neg (by rw [(handles_eq is _ id r).2 ha]; simp)]
    exact pick_none is id r rest fun h' hr => hc h' (.later ha hr)

theorem isNil_iff (hs : Handlers V T) : hs.isNil = true ↔ hs = .nil := by cases hs <;> simp [Handlers.isNil]

theorem run_spec (is : V → T → Bool) (methods : Text → Option (Cmd V T)) (hm : ∀ name body, methods name = some body → ok false body = true)
    {st : List Call} {cur : Option (Raised V)} {c : Cmd V T} {o : Outcome V} (h : Spec is methods st cur c o) :
    ∀ (fresh : Bool) (t : Thread V), ok fresh c = true → (fresh = true → t.exc = cur.map (dataOf t.id)) → t.frames = framesOf st →
    ∃ n t', (∀ m, n ≤ m → run is methods m t c = some (flowOf o, t')) ∧ t'.id = t.id ∧ t'.frames = t.frames ∧
      (∀ r, o = .raised r → t'.exc = some (dataOf t.id r)) ∧ (quiet c = true → t'.exc = t.exc) := by
  have fuel : ∀ m n, n + 1 ≤ m → ∃ k, m = k + 1 ∧ n ≤ k := fun m n h => ⟨m - 1, by omega, by omega⟩
  induction h with
  | skip =>
    intro fresh t _ _ _
    refine ⟨1, t, fun m h => ?_, rfl, rfl, nofun, fun _ => rfl⟩
    obtain ⟨k, rfl, -⟩ := fuel m 0 h
    rfl
  | @throw st cur v p =>
    intro fresh t _ _ hf
    refine ⟨1, t.raise v p, fun m h => ?_, rfl, rfl, ?_, nofun⟩
    · obtain ⟨k, rfl, -⟩ := fuel m 0 h
      rfl
    · rintro r ⟨rfl⟩
      simp [Thread.raise, dataOf, hf]
  | rethrow r =>
    intro fresh t hok hc _
    refine ⟨1, t, fun m h => ?_, rfl, rfl, ?_, nofun⟩
    · obtain ⟨k, rfl, -⟩ := fuel m 0 h
      rfl
    · rintro r' ⟨rfl⟩
      exact hc hok
  | @call st cur name params body o hb _ ih =>
    intro fresh t _ _ hf
    obtain ⟨n, t', h1, h2, h3, h4, -⟩ := ih false (t.push name params) (hm _ _ hb) nofun (by
      rw [framesOf_push, ← hf]; rfl)
    refine ⟨n + 1, t'.pop, fun m h => ?_, h2, ?_, fun r hr => h4 r hr, nofun⟩
    · obtain ⟨k, rfl, hk⟩ := fuel m n h
      rw [run, hb]
      simp only [h1 k hk]
    · simp [Thread.pop, h3, Thread.push]
  | @next st cur a b o _ _ iha ihb =>
    intro fresh t hok hc hf
    simp only [ok, Bool.and_eq_true] at hok
    obtain ⟨n1, t1, a1, a2, a3, -, a5⟩ := iha fresh t hok.1 hc hf
    obtain ⟨n2, t2, b1, b2, b3, b4, b5⟩ := ihb (fresh && quiet a) t1 hok.2 (by
      intro hx
      simp only [Bool.and_eq_true] at hx
      rw [a5 hx.2, hc hx.1, a2]) (a3.trans hf)
    refine ⟨max n1 n2 + 1, t2, fun m h => ?_, b2.trans a2, b3.trans a3, fun r hr => by rw [b4 r hr, a2], ?_⟩
    · obtain ⟨k, rfl, hk⟩ := fuel m _ h
      rw [run, a1 k (by omega)]
      exact b1 k (by omega)
    · intro hq
      simp only [quiet, Bool.and_eq_true] at hq
      rw [b5 hq.2, a5 hq.1]
  | @stop st cur a b r _ iha =>
    intro fresh t hok hc hf
    simp only [ok, Bool.and_eq_true] at hok
    obtain ⟨n1, t1, a1, a2, a3, a4, a5⟩ := iha fresh t hok.1 hc hf
    refine ⟨n1 + 1, t1, fun m h => ?_, a2, a3, a4, ?_⟩
    · obtain ⟨k, rfl, hk⟩ := fuel m _ h
      rw [run, a1 k (by omega)]
      rfl
    · intro hq
      simp only [quiet, Bool.and_eq_true] at hq
      exact a5 hq.1
  | @quiet st cur body handlers final e _ _ iha ihb =>
    intro fresh t hok hc hf
    simp only [ok, Bool.and_eq_true] at hok
    obtain ⟨⟨⟨o1, o2⟩, o3⟩, o4⟩ := hok
    obtain ⟨n1, t1, a1, a2, a3, a4, a5⟩ := iha fresh t o1 hc hf
    obtain ⟨n2, t2, b1, b2, b3, b4, b5⟩ := ihb false t1 o3 nofun (a3.trans hf)
    refine ⟨max n1 n2 + 1, t2, fun m h => ?_, b2.trans a2, b3.trans a3, ?_, ?_⟩
    · obtain ⟨k, rfl, hk⟩ := fuel m _ h
      rw [run, a1 k (by omega)]
      simp only [flowOf, b1 k (by omega)]
      exact afterFinal_eq .normal e t2
    · intro r hr
      cases e with
      | normal => simp [finish] at hr
      | raised r' => rw [b4 r hr, a2]
    · intro hq
      simp only [Trace.quiet, Bool.and_eq_true] at hq
      rw [b5 hq.2, a5 hq.1.1]
  | @swallowed st cur body final r e _ _ iha ihb =>
    intro fresh t hok hc hf
    simp only [ok, Bool.and_eq_true] at hok
    obtain ⟨⟨⟨o1, o2⟩, o3⟩, o4⟩ := hok
    obtain ⟨n1, t1, a1, a2, a3, a4, a5⟩ := iha fresh t o1 hc hf
    obtain ⟨n2, t2, b1, b2, b3, b4, b5⟩ := ihb false t1 o3 nofun (a3.trans hf)
    refine ⟨max n1 n2 + 1, t2, fun m h => ?_, b2.trans a2, b3.trans a3, ?_, ?_⟩
    · obtain ⟨k, rfl, hk⟩ := fuel m _ h
      rw [run, a1 k (by omega)]
      simp only [flowOf, pick, Handlers.isNil, if_true, b1 k (by omega)]
      exact afterFinal_eq .normal e t2
    · intro r hr
      cases e with
      | normal => simp [finish] at hr
      | raised r' => rw [b4 r hr, a2]
    · intro hq
      simp only [Trace.quiet, Bool.and_eq_true] at hq
      rw [b5 hq.2, a5 hq.1.1]
  | @handled st cur body handlers handler final r o e _ ha _ _ iha ihh ihb =>
    intro fresh t hok hc hf
    simp only [ok, Bool.and_eq_true] at hok
    obtain ⟨⟨⟨o1, o2⟩, o3⟩, o4⟩ := hok
    obtain ⟨p1, p2, p3, p4⟩ := pick_some (id := t.id) ha
    rw [p4, Bool.false_or] at o4
    obtain ⟨n1, t1, a1, a2, a3, a4, a5⟩ := iha fresh t o1 hc hf
    obtain ⟨n2, t2, b1, b2, b3, b4, b5⟩ := ihh true t1 (p2 o2) (fun _ => by rw [a4 r rfl, a2]; rfl) (a3.trans hf)
    obtain ⟨n3, t3, c1, c2, c3, c4, c5⟩ := ihb false t2 o3 nofun (b3.trans (a3.trans hf))
    refine ⟨max n1 (max n2 n3) + 1, t3, fun m h => ?_, c2.trans (b2.trans a2), c3.trans (b3.trans a3), ?_, ?_⟩
    · obtain ⟨k, rfl, hk⟩ := fuel m _ h
      rw [run, a1 k (by omega)]
      simp only [flowOf, a4 r rfl, p1, b1 k (by omega), c1 k (by omega)]
      exact afterFinal_eq o e t3
    · intro r' hr
      cases e with
      | normal => rw [c5 o4, b4 r' hr, a2]
      | raised r'' => rw [c4 r' hr, b2, a2]
    · intro hq
      simp only [Trace.quiet, Bool.and_eq_true] at hq
      rw [c5 hq.2, b5 (p3 hq.1.2), a5 hq.1.1]
  | @other st cur body handlers final r e _ hne ha _ iha ihb =>
    intro fresh t hok hc hf
    simp only [ok, Bool.and_eq_true] at hok
    obtain ⟨⟨⟨o1, o2⟩, o3⟩, o4⟩ := hok
    have p4 : handlers.isNil = false := by
      cases hn : handlers.isNil with
      | false => rfl
      | true => exact absurd ((isNil_iff _).1 hn) hne
    rw [p4, Bool.false_or] at o4
    obtain ⟨n1, t1, a1, a2, a3, a4, a5⟩ := iha fresh t o1 hc hf
    obtain ⟨n2, t2, b1, b2, b3, b4, b5⟩ := ihb false t1 o3 nofun (a3.trans hf)
    refine ⟨max n1 n2 + 1, t2, fun m h => ?_, b2.trans a2, b3.trans a3, ?_, ?_⟩
    · obtain ⟨k, rfl, hk⟩ := fuel m _ h
      rw [run, a1 k (by omega)]
      simp only [flowOf, a4 r rfl, pick_none is t.id r handlers ha, p4, b1 k (by omega), Bool.false_eq_true, if_false]
      exact afterFinal_eq (.raised r) e t2
    · intro r' hr
      cases e with
      | normal => simp only [finish, Outcome.raised.injEq] at hr; rw [b5 o4, a4 r rfl, hr]
      | raised r'' => rw [b4 r' hr, a2]
    · intro hq
      simp only [Trace.quiet, Bool.and_eq_true] at hq
      rw [b5 hq.2, a5 hq.1.1]

/-! ## Theorems -/

theorem assoc_report (a b c d e f g h i j k : Text) (ab : Text) (h1 : ab = a ++ b) :
    a ++ (b ++ c ++ (d ++ e ++ (f ++ g))) ++ h ++ (i ++ j) ++ k = ab ++ c ++ d ++ e ++ f ++ g ++ h ++ i ++ j ++ k := by
  subst h1
  simp only [List.append_assoc]

/-- The text of a report. -/
theorem text_eq (show_ : V → Text) (id : Nat) (r : Raised V) (h1 : r.pos.file ≠ []) (h2 : r.pos.line ≠ 0) (h3 : r.pos.column ≠ 0) :
    "Exception raised in ".toList ++ r.pos.text ++ ":\n".toList ++ (show_ r.value ++ "\n".toList) ++ stackTrace id (framesOf r.calls) =
      reportText show_ id r := by
  rw [stackTrace_lines, Pos.text, if_pos h1, if_pos h2, if_pos h3]
  exact assoc_report _ _ _ _ _ _ _ _ _ _ _ _ (by decide +kernel)

/-- C179 (partial): a script that ends with an exception reports the place and the value of the throw statement it comes from, and the calls
that were going on there, the first one first, numbered from 0; a script that ends without one reports nothing.  Partial: see `ok`; and places
have a file, a line and a column. -/
theorem uncaught_report_partial (show_ : V → Text) (is : V → T → Bool) (methods : Text → Option (Cmd V T)) (id : Nat) (name : Text)
    (params : List Param) (hm : ∀ name body, methods name = some body → ok false body = true) :
    (Spec is methods [] none (.call name params) .normal → ∃ n, ∀ m, n ≤ m → report show_ is methods m id name params = some none) ∧
    (∀ r, Spec is methods [] none (.call name params) (.raised r) → r.pos.file ≠ [] → r.pos.line ≠ 0 → r.pos.column ≠ 0 →
      ∃ n, ∀ m, n ≤ m → report show_ is methods m id name params = some (some (reportText show_ id r))) := by
  constructor
  · intro h
    obtain ⟨n, t', h1, -⟩ := run_spec is methods hm h false ⟨id, [], none⟩ rfl nofun rfl
    exact ⟨n, fun m hm => by rw [report, h1 m hm]; rfl⟩
  · intro r h p1 p2 p3
    obtain ⟨n, t', h1, -, -, h4, -⟩ := run_spec is methods hm h false ⟨id, [], none⟩ rfl nofun rfl
    refine ⟨n, fun m hm => ?_⟩
    rw [report, h1 m hm]
    simp only [flowOf, h4 r rfl, dataOf, text_eq show_ id r p1 p2 p3]

/-- `Main` calls `f`, `f` throws again what it catches of `g`, `g` throws. -/
def exampleMethods (name : Text) : Option (Cmd Nat Nat) :=
  if name = ['M'] then some (.seq .skip (.call ['f'] [⟨['i', 'n', 't'], ['n'], .const, false, none⟩]))
  else if name = ['f'] then some (.try_ (.call ['g'] []) (.cons (some 8) .skip (.cons (some 7) (.seq .skip .rethrow) (.cons none .skip .nil))) .skip)
  else if name = ['g'] then some (.throw 7 ⟨['a', '.', 'o', 's'], 3, 5⟩)
  else none

example : (∀ name body, exampleMethods name = some body → ok false body = true) ∧
    Spec (fun v ty => v == ty) exampleMethods [] none (.call ['M'] [])
      (.raised ⟨7, ⟨['a', '.', 'o', 's'], 3, 5⟩, [⟨['M'], []⟩, ⟨['f'], [⟨['i', 'n', 't'], ['n'], .const, false, none⟩]⟩, ⟨['g'], []⟩]⟩) := by
  constructor
  · intro name body h
    unfold exampleMethods at h
    split at h
    · cases h; rfl
    · split at h
      · cases h; rfl
      · split at h
        · cases h; rfl
        · cases h
  · refine .call (body := .seq .skip (.call ['f'] [⟨['i', 'n', 't'], ['n'], .const, false, none⟩])) (by rfl) (.next .skip ?_)
    refine .call (body := .try_ (.call ['g'] []) (.cons (some 8) .skip (.cons (some 7) (.seq .skip .rethrow) (.cons none .skip .nil))) .skip) (by rfl) ?_
    refine Spec.handled (o := .raised _) (e := .normal) ?_ (.later (fun h => absurd (h 8 rfl) (by decide)) (.here fun ty h => by cases h; rfl))
      (.next .skip (.rethrow _)) .skip
    exact .call (body := .throw 7 ⟨['a', '.', 'o', 's'], 3, 5⟩) (by rfl) (.throw _ _)

example : report (fun v => (toString v).toList) (fun (v ty : Nat) => v == ty) exampleMethods 9 1 ['M'] [] = some (some
    "Exception raised in file a.os, line 3, column 5:\n7\nThread 1: Frame 0: M()\nThread 1: Frame 1: f(int n const default)\nThread 1: Frame 2: g()\n".toList) := by
  decide +kernel

/-- Refuted: an access that fails, such as one to a member of null, is reported with neither a place nor a call, however deep it is. -/
theorem fault_refuted (show_ : V → Text) (is : V → T → Bool) (methods : Text → Option (Cmd V T)) (id : Nat) (name : Text) (params : List Param)
    (v : V) (hb : methods name = some (.fault v)) (m : Nat) :
    report show_ is methods (m + 2) id name params = some (some ("Exception raised in :\n".toList ++ show_ v ++ ['\n'])) := by
  simp [report, run, hb, Thread.pop, Thread.push, noPos, Pos.text]

/-- Refuted: an exception thrown again in its handler is reported with the value and the place of another one, that was raised and handled in the
handler in between. -/
theorem rethrow_refuted (show_ : V → Text) (is : V → T → Bool) (id : Nat) (name : Text) (params : List Param) (v w : V) (p q : Pos)
    (hq : q.file ≠ [] ∧ q.line ≠ 0 ∧ q.column ≠ 0) :
    let body : Cmd V T := .try_ (.throw v p) (.cons none (.seq (.try_ (.throw w q) .nil .skip) .rethrow) .nil) .skip
    let methods : Text → Option (Cmd V T) := fun n => if n = name then some body else none
    Spec is methods [] none (.call name params) (.raised ⟨v, p, [⟨name, params⟩]⟩) ∧
      ∀ m, report show_ is methods (m + 6) id name params = some (some (reportText show_ id ⟨w, q, [⟨name, params⟩]⟩)) := by
  intro body methods
  have hmn : methods name = some body := if_pos rfl
  refine ⟨.call hmn (Spec.handled (o := .raised ⟨v, p, [⟨name, params⟩]⟩) (e := .normal) (.throw v p) (.here nofun)
    (.next (Spec.swallowed (e := .normal) (.throw w q) .skip) (.rethrow _)) .skip), fun m => ?_⟩
  rw [← text_eq show_ id _ hq.1 hq.2.1 hq.2.2]
  have hf : framesOf [⟨name, params⟩] = [⟨0, name, params⟩] := rfl
  simp only [report, run, hmn, body, Thread.push, Thread.raise, Thread.pop, handles, pick, Handlers.isNil, afterFinal, List.length_nil, List.nil_append, hf, if_true]

/-- Refuted: an exception that nothing catches is reported with the value and the place of another one, that was raised and handled in a final block. -/
theorem final_refuted (show_ : V → Text) (is : V → T → Bool) (id : Nat) (name : Text) (params : List Param) (v w : V) (p q : Pos) (ty : T)
    (hn : is v ty = false) (hq : q.file ≠ [] ∧ q.line ≠ 0 ∧ q.column ≠ 0) :
    let body : Cmd V T := .try_ (.throw v p) (.cons (some ty) .skip .nil) (.try_ (.throw w q) .nil .skip)
    let methods : Text → Option (Cmd V T) := fun n => if n = name then some body else none
    Spec is methods [] none (.call name params) (.raised ⟨v, p, [⟨name, params⟩]⟩) ∧
      ∀ m, report show_ is methods (m + 6) id name params = some (some (reportText show_ id ⟨w, q, [⟨name, params⟩]⟩)) := by
  intro body methods
  have hmn : methods name = some body := if_pos rfl
  have hc : ∀ h, ¬ Catches is v (.cons (some ty) .skip .nil) h := by
    rintro h (ha | ⟨-, ⟨⟩⟩)
    have := ha ty rfl
    rw [hn] at this
    cases this
  refine ⟨.call hmn (Spec.other (e := .normal) (.throw v p) nofun hc (Spec.swallowed (e := .normal) (.throw w q) .skip)), fun m => ?_⟩
  rw [← text_eq show_ id _ hq.1 hq.2.1 hq.2.2]
  have hf : framesOf [⟨name, params⟩] = [⟨0, name, params⟩] := rfl
  simp only [report, run, hmn, body, Thread.push, Thread.raise, Thread.pop, handles, pick, Handlers.isNil, afterFinal, List.length_nil, List.nil_append, hf, hn,
    Bool.false_eq_true, if_false, if_true]

end Verif.Trace
