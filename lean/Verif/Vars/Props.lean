import Verif.Vars.Classes

/-!
# Properties of variables and references (C109-C116)
-/

namespace Verif.Vars

/-! ## A world and some programs to try things on -/

/-- Atomic types are only assigned and compared among themselves, every cast is allowed, and
values are coded in tenths, so that integers lose a digit. -/
def w0 : World where
  assigns a b := decide (a = b)
  casts _ _ := true
  equals a b := decide (a = b)
  convert a v := match a with
    | .int16 | .int32 | .int64 => v / 10 * 10
    | _ => v
  equal _ v w := decide (v = w)
  truth v := decide (v ≠ 0)

/-- `class Base { int v; Base next; }`, `class Derived extends Base`, a class of its own, and
interfaces one of which extends the other. -/
def zoo : List ClassDecl :=
  [⟨"Leaf", false, [⟨true, "Derived"⟩, ⟨false, "Deep"⟩], []⟩,
   ⟨"Derived", false, [⟨true, "Base"⟩], [("extra", .atom .int32, false)]⟩,
   ⟨"Base", false, [⟨true, "Object"⟩], [("v", .atom .int32, false), ("next", .cls "Base", false)]⟩,
   ⟨"Foo", false, [⟨true, "Object"⟩], [("w", .atom .int32, false)]⟩,
   ⟨"Deep", true, [⟨false, "Top"⟩], []⟩,
   ⟨"Top", true, [⟨true, "Object"⟩], []⟩]

/-- `Base id(Base p) { return p; }` and `int id(int p) { return p; }`. -/
def zooFns : List Fn :=
  [⟨"id", "p", .cls "Base", .cls "Base", [], .place "p" []⟩,
   ⟨"id", "p", .atom .int32, .atom .int32, [], .place "p" []⟩]

def zooP : Program := ⟨zoo, zooFns⟩

theorem zooP_ok : checkProgram w0 zooP = true ∧ noHiding zooP = true := by
  constructor <;> decide +kernel

theorem zooP_careful (q : Bool) : CarefulProgram q w0 zooP := by
  refine ⟨zooP_ok.1, zooP_ok.2, ?_, ?_⟩
  · intro d hd
    simp only [zooP, zooFns, List.mem_cons, List.not_mem_nil, or_false] at hd
    rcases hd with rfl | rfl <;> refine ⟨by cases q <;> decide +kernel, ?_⟩ <;> intro Δ hΔ <;>
      simp [check] at hΔ <;> subst hΔ <;> rfl
  · intro _ c hc f hf hr
    simp only [zooP, zoo, List.mem_cons, List.not_mem_nil, or_false] at hc
    rcases hc with rfl | rfl | rfl | rfl | rfl | rfl <;>
      simp only [List.mem_cons, List.not_mem_nil, or_false] at hf
    · subst hf; cases hr
    · rcases hf with rfl | rfl <;> cases hr
    · subst hf; cases hr

/-- A run of accepted, careful statements. -/
abbrev goes (q : Bool) (P : Program) (ss : List Stmt) (Γ : Env) (σ : State) : Prop :=
  check w0 P [] ss = some Γ ∧ carefulList q w0 P [] ss = true ∧
    exec w0 P 20 ss ⟨[], []⟩ = .ok () σ

theorem goes.reaches {q : Bool} {P : Program} {ss : List Stmt} {Γ : Env} {σ : State}
    (h : goes q P ss Γ σ) : Reaches q w0 P Γ σ := ⟨20, ss, h⟩

/-- The state in which a run ends, `default` if it does not. -/
def ends (P : Program) (ss : List Stmt) : State :=
  match exec w0 P 20 ss ⟨[], []⟩ with
  | .ok _ σ => σ
  | .err _ => ⟨[], []⟩

def endsOk (P : Program) (ss : List Stmt) : Bool :=
  match exec w0 P 20 ss ⟨[], []⟩ with
  | .ok _ _ => true
  | .err _ => false

/-- `Base b = new Derived(); Base c = new Base(); c.next = b; int i = c.v;` -/
def story : List Stmt :=
  [.decl (.cls "Base") "b" false (some (.newObj "Derived")),
   .decl (.cls "Base") "c" false (some (.newObj "Base")),
   .expr (.assign "c" ["next"] (.place "b" [])),
   .decl (.atom .int32) "i" false (some (.place "c" ["v"])),
   .decl (.atom .int32) "j" false (some (.lit .int32 70))]

def storyΓ : Env :=
  [("j", .atom .int32), ("i", .atom .int32), ("c", .cls "Base"), ("b", .cls "Base")]

theorem story_goes (q : Bool) : goes q zooP story storyΓ (ends zooP story) := by
  cases q <;> decide +kernel


/-! ## C110: what variables hold -/

/-- C110. In programs that hide no members and cast with care, at the end of every run every
variable holds a value of its type: null, or an object of its class or of a class that descends
from it. The same goes for the members of every object. Missing: other programs, see
`variables_hold_their_type_refuted`. -/
theorem variables_hold_their_type_partial {q : Bool} {W : World} {P : Program}
    (hP : CarefulProgram q W P) {Γ : Env} {σ : State} (h : Reaches q W P Γ σ) :
    WellTyped P Γ σ := by
  have I := h.inv hP
  have key : ∀ l t, LocTy P Γ σ.heap l t → ∃ c, readLoc σ l = some c ∧ Holds P σ.heap c t := by
    intro l t hl
    obtain ⟨c, hc, k⟩ := I.read hl
    refine ⟨c, hc, ?_⟩
    cases t with
    | anon => exact k
    | atom a => exact k.2.1
    | cls n =>
      by_cases hr : c.ref = 0
      · exact .inl hr
      · obtain ⟨o, d, ho, hd, hn, -⟩ := k.2.2.2 hr
        exact .inr ⟨d, by simp [classAt, ho, hd], hn⟩
  refine ⟨fun x t hx => key (.var x) t hx, fun r d hd f t hf => key (.field r f) t ?_⟩
  unfold classAt at hd
  cases ho : objAt σ.heap r with
  | none => rw [ho] at hd; cases hd
  | some o =>
    rw [ho] at hd
    dsimp only at hd
    split at hd
    · rename_i d' hc
      cases hd
      exact ⟨o, _, ho, hc, hf⟩
    · cases hd

example : WellTyped zooP storyΓ (ends zooP story) :=
  variables_hold_their_type_partial (zooP_careful false) (story_goes false).reaches

theorem parent_zoo {d m : String} (h : Parent zooP d m) :
    (d, m) ∈ [("Leaf", "Derived"), ("Leaf", "Deep"), ("Derived", "Base"), ("Base", "Object"),
      ("Foo", "Object"), ("Deep", "Top"), ("Top", "Object")] := by
  obtain ⟨c, hc, rfl, a, ha, rfl⟩ := h
  simp only [zooP, zoo, List.mem_cons, List.not_mem_nil, or_false] at hc
  rcases hc with rfl | rfl | rfl | rfl | rfl | rfl <;>
    simp only [List.mem_cons, List.not_mem_nil, or_false] at ha
  · rcases ha with rfl | rfl <;> decide
  all_goals subst ha; decide

theorem foo_not_base : ¬ Descends zooP "Foo" "Base" := by
  have key : ∀ d n, Descends zooP d n → d = "Foo" ∨ d = "Object" → n = "Foo" ∨ n = "Object" := by
    intro d n h
    induction h with
    | refl => exact fun h => h
    | step p _ ih =>
      intro hd
      have := parent_zoo p
      apply ih
      rcases hd with rfl | rfl
      · simp at this
        exact .inr this
      · simp at this
  intro h
  have := key _ _ h (.inl rfl)
  simp at this

theorem derived_extends : Extends zooP "Derived" "Base" :=
  ⟨_, .tail _ (.head _), rfl, _, .head _, rfl, rfl⟩

/-- C110 fails with C-style casts: in `Base b; b = Base null; b = Base new Foo();` the compiler
takes the word of the programmer, and a variable that holds null has forgotten its class at run
time. -/
theorem variables_hold_their_type_refuted :
    ∃ (P : Program) (ss : List Stmt) (Γ : Env) (σ : State),
      checkProgram w0 P = true ∧ check w0 P [] ss = some Γ ∧
      exec w0 P 20 ss ⟨[], []⟩ = .ok () σ ∧ ¬ WellTyped P Γ σ := by
  let ss : List Stmt :=
    [.decl (.cls "Base") "b" false none,
     .expr (.assign "b" [] (.ccast (.cls "Base") .null)),
     .expr (.assign "b" [] (.ccast (.cls "Base") (.newObj "Foo")))]
  refine ⟨zooP, ss, [("b", .cls "Base")], ends zooP ss, zooP_ok.1,
    by decide +kernel, by decide +kernel, ?_⟩
  intro h
  obtain ⟨c, hc, hh⟩ := h.1 "b" (.cls "Base") rfl
  have h1 : (getL (ends zooP ss).vars "b").map (·.ref) = some 1 := by decide +kernel
  have h2 : classAt (ends zooP ss).heap 1 = some "Foo" := by decide +kernel
  rw [hc] at h1
  simp only [Option.map_some, Option.some.injEq] at h1
  rcases hh with hh | ⟨d, hd, hn⟩
  · omega
  · rw [h1, h2] at hd
    cases hd
    exact foo_not_base hn

/-! ## C109: which objects a class variable accepts -/

/-- What happens when a variable of a class is assigned a value. -/
theorem assign_var {W : World} {P : Program} {x : String} {e : Expr} {k : Nat} {σ τ : State}
    {r c : Cell} {c0 : Cell} (hx : getL σ.vars x = some c0) (he : eval W P k e σ = .ok r τ)
    (hc : getL τ.vars x = some c) :
    eval W P (k + 1) (.assign x [] e) σ =
      (binAssign W τ (.var x) r).bind fun _ υ => match readLoc υ (.var x) with
        | none => .err .unknownName
        | some c => .ok (anonAssign υ.heap c) υ := by
  simp only [eval, resolve, resolveFields, readLoc, hx, he, bind_ok]
  rfl

theorem objAssign_var_ref {σ : State} {x : String} {c r : Cell}
    (hr : r.isRef = true) (hc : getL σ.vars x = some c) :
    ∃ c', getL (objAssign σ (.var x) c r).vars x = some c' ∧ c'.ref = r.ref ∧
      c'.isRef = true ∧ c'.type = r.type ∧ (objAssign σ (.var x) c r).heap = σ.heap := by
  unfold objAssign
  simp only [hr, if_true, writeLoc]
  refine ⟨_, getL_setL_self hc, ?_⟩
  simp

/-- What an object answers to. -/
theorem instance_iff {P : Program} (hc : checkClasses P.classes = true) {r : Cell} {d : String}
    (ht : r.type = .cls d) (hu : r.ups = upsOf P.classes d) (t : String) :
    isInstanceOf r t = true ↔ Recognised P d t := by
  rw [← recognised_iff hc]
  unfold isInstanceOf
  rw [ht, hu]
  simp only [Bool.or_eq_true, decide_eq_true_eq, Ty.cls.injEq, List.contains_eq_mem]
  constructor
  · rintro (rfl | h)
    · exact .inl rfl
    · exact .inr h
  · rintro (rfl | h)
    · exact .inl rfl
    · exact .inr h

/-- C109, exactly. When a variable that last took an object or was declared with class `k` is
assigned an object of class `d` (`r` is a reference to it), the assignment succeeds exactly if
`d` is `k`, or inherits from it, or from a class that implements it; it then denotes that object.
Otherwise the script ends with an internal error. In particular it is not the declared class of
the variable that counts. Missing: values that are not references, see C116. -/
theorem class_variable_accepts_partial {q : Bool} {W : World} {P : Program}
    (hP : CarefulProgram q W P) {Γ : Env} {σ : State} (h : Reaches q W P Γ σ) {x : String} {e : Expr}
    {n : String} (hx : Γ.get x = some (.cls n)) (hte : typeOf W P Γ e = some (.cls n))
    (hce : careful q W P Γ e = true) {k : Nat} {r : Cell} {τ : State}
    (he : eval W P k e σ = .ok r τ) {d : String} (hr : r.isRef = true)
    (hd : classAt τ.heap r.ref = some d) {c : Cell} (hc : getL τ.vars x = some c) {m : String}
    (hm : (c.isRef = true ∧ classAt τ.heap c.ref = some m) ∨
      (∃ b, c = create (.cls n) b ∧ m = n)) :
    (Recognised P d m → ∃ v υ c', eval W P (k + 1) (.assign x [] e) σ = .ok v υ ∧
      getL υ.vars x = some c' ∧ c'.ref = r.ref ∧ υ.heap = τ.heap) ∧
    (¬ Recognised P d m → eval W P (k + 1) (.assign x [] e) σ = .err .invalidOperation) := by
  have I := h.inv hP
  obtain ⟨c0, hx0, -⟩ := I.vars.get hx
  have A := ((all_ok hP k).1 e Γ σ _ I hte hce).ok he
  obtain ⟨Iτ, -, kr⟩ := A
  have hcc : checkClasses P.classes = true := by
    have := hP.1
    unfold checkProgram at this
    simp only [Bool.and_eq_true] at this
    exact this.1.1
  have obj : ∀ {c : Cell}, CellOk q P τ.heap c (.cls n) → c.isRef = true →
      ∀ {d}, classAt τ.heap c.ref = some d →
      c.ref ≠ 0 ∧ c.type = .cls d ∧ c.ups = upsOf P.classes d := by
    intro c kc hi d hcd
    have hne : c.ref ≠ 0 := by
      intro h0
      rw [h0] at hcd
      simp [classAt, objAt_zero] at hcd
    obtain ⟨o, d', ho, hd', -, hh⟩ := kc.2.2.2 hne
    simp only [classAt, ho, hd', Option.some.injEq] at hcd
    subst hcd
    exact ⟨hne, hh hi⟩
  obtain ⟨hrne, hrt, hru⟩ := obj kr hr hd
  have kc : CellOk q P τ.heap c (.cls n) := by
    obtain ⟨c', hc', kc'⟩ := Iτ.vars.get hx
    rw [hc] at hc'
    cases hc'
    exact kc'
  have hct : c.type = .cls m := by
    rcases hm with ⟨hi, hm⟩ | ⟨b, rfl, rfl⟩
    · exact (obj kc hi hm).2.1
    · rfl
  rw [assign_var hx0 he hc]
  have hinst := instance_iff hcc hrt hru m
  have hv : isValid W τ.heap r = true := by simp [isValid, hrt, hrne]
  unfold binAssign
  simp only [readLoc, hc, hct, hrt]
  constructor
  · intro hrec
    have hii := hinst.mpr hrec
    obtain ⟨c', h1, h2, -, -, h3⟩ := objAssign_var_ref (σ := τ) (x := x) hr hc
    refine ⟨anonAssign (objAssign τ (.var x) c r).heap c', objAssign τ (.var x) c r, c', ?_, h1,
      h2, h3⟩
    simp only [hv, hii]
    by_cases hdm : d = m
    · simp [hdm, bind_ok, h1]
    · simp [hdm, bind_ok, h1]
  · intro hrec
    have hdm : d ≠ m := by
      rintro rfl
      exact hrec (.inl (.refl _))
    have hii : isInstanceOf r m = false := by
      rw [← Bool.not_eq_true, hinst]
      exact hrec
    simp [hdm, hv, hii, bind_err]

/-- C109 fails: `Base b = new Derived(); b = new Base();` is accepted by the compiler and ends
the script with an internal error, because `b` last held a `Derived`. -/
theorem class_variable_accepts_refuted :
    ∃ (P : Program) (ss : List Stmt) (Γ : Env),
      CarefulProgram false w0 P ∧ check w0 P [] ss = some Γ ∧ carefulList false w0 P [] ss = true ∧
      exec w0 P 20 ss ⟨[], []⟩ = .err .invalidOperation ∧
      ss = [.decl (.cls "Base") "b" false (some (.newObj "Derived")),
            .expr (.assign "b" [] (.newObj "Base"))] :=
  ⟨zooP, _, [("b", .cls "Base")], zooP_careful _, by decide +kernel, by decide +kernel,
    by decide +kernel, rfl⟩

/-- `c = b` after the story: `b` holds a `Derived` and `c` held a `Base`. -/
example : ∃ v υ c', eval w0 zooP 11 (.assign "c" [] (.place "b" [])) (ends zooP story) = .ok v υ ∧
    getL υ.vars "c" = some c' ∧ c'.ref = 1 ∧ υ.heap = (ends zooP story).heap :=
  (class_variable_accepts_partial (zooP_careful false) (story_goes false).reaches (x := "c")
    (e := .place "b" []) (n := "Base") (k := 10) (d := "Derived") (m := "Base")
    (r := ⟨.cls "Base", .cls "Derived", true, 1, 0, ["Base", "Object"]⟩)
    (c := ⟨.cls "Base", .cls "Base", true, 2, 0, ["Object"]⟩) rfl
    (by decide +kernel) rfl (by decide +kernel) rfl (by decide +kernel) (by decide +kernel)
    (.inl (by decide +kernel))).1
    (.inl (.step derived_extends (.refl _)))

/-! ## C111: assignment of references -/

theorem readLoc_writeLoc_ne {σ : State} {c c0 : Cell} {l l' : Loc} (hl : readLoc σ l = some c0)
    (h : l' ≠ l) : readLoc (writeLoc σ c l) l' = readLoc σ l' := by
  cases l with
  | var x =>
    cases l' with
    | var y =>
      simp only [readLoc, writeLoc]
      exact getL_setL_ne (fun e => h (by rw [e]))
    | field r f => rfl
  | field r f =>
    cases l' with
    | var y => rfl
    | field r' f' =>
      simp only [readLoc, writeLoc, objAt]
      by_cases h0 : r' = 0
      · simp [h0]
      · simp only [h0, if_false, List.getElem?_modify]
        cases hg : σ.heap[r' - 1]? with
        | none => simp
        | some o =>
          by_cases hr : r - 1 = r' - 1
          · simp only [hr, if_true, Option.map_some, Option.bind_some]
            by_cases hf : f' = f
            · by_cases hr0 : r = 0
              · subst hr0
                simp [readLoc, objAt_zero] at hl
              · exact absurd (by rw [hf, show r' = r by omega]) h
            · exact getL_setL_ne hf
          · simp [hr]

theorem readLoc_writeLoc_self {σ : State} {c c0 : Cell} {l : Loc} (hl : readLoc σ l = some c0) :
    readLoc (writeLoc σ c l) l = some c := by
  cases l with
  | var x => exact getL_setL_self hl
  | field r f =>
    simp only [readLoc] at hl
    cases ho : objAt σ.heap r with
    | none => rw [ho] at hl; cases hl
    | some o =>
      rw [ho] at hl
      obtain ⟨i, rfl, hi⟩ := objAt_some ho
      simp only [readLoc, writeLoc, objAt_succ, Nat.add_sub_cancel, List.getElem?_modify, hi,
        if_true, Option.map_some, Option.bind_some]
      exact getL_setL_self hl

theorem readLoc_setHeapValue (σ : State) (r : Nat) (v : Int) (l : Loc) :
    readLoc { σ with heap := setHeapValue σ.heap r v } l = readLoc σ l := by
  cases l with
  | var x => rfl
  | field r' f =>
    simp only [readLoc, objAt, setHeapValue]
    by_cases h0 : r' = 0
    · simp [h0]
    · simp only [h0, if_false, List.getElem?_modify]
      cases σ.heap[r' - 1]? with
      | none => simp
      | some o => by_cases hr : r - 1 = r' - 1 <;> simp [hr]

theorem objAssign_frame {σ : State} {l l' : Loc} {c r : Cell} (hc : readLoc σ l = some c)
    (h : l' ≠ l) : readLoc (objAssign σ l c r) l' = readLoc σ l' := by
  unfold objAssign
  dsimp only
  split
  · exact readLoc_writeLoc_ne hc h
  · split
    · rw [readLoc_setHeapValue (writeLoc σ _ l)]
      exact readLoc_writeLoc_ne hc h
    · exact readLoc_writeLoc_ne hc h

theorem binAssign_frame {W : World} {σ υ : State} {l l' : Loc} {r : Cell}
    (h : binAssign W σ l r = .ok () υ) (hl : l' ≠ l) : readLoc υ l' = readLoc σ l' := by
  unfold binAssign at h
  cases hc : readLoc σ l with
  | none => rw [hc] at h; cases h
  | some c =>
    rw [hc] at h
    dsimp only at h
    repeat' split at h
    all_goals first
      | (cases h; exact objAssign_frame hc hl)
      | cases h

/-- The parts of a finished assignment. -/
theorem assign_parts {W : World} {P : Program} {x : String} {fs : List String} {e : Expr} {k : Nat}
    {σ υ : State} {v : Cell} (h : eval W P (k + 1) (.assign x fs e) σ = .ok v υ) :
    ∃ l r τ c, resolve σ x fs = .ok l ∧ eval W P k e σ = .ok r τ ∧
      binAssign W τ l r = .ok () υ ∧ readLoc υ l = some c ∧ v = anonAssign υ.heap c := by
  simp only [eval] at h
  cases hl : resolve σ x fs with
  | error er => rw [hl] at h; cases h
  | ok l =>
    rw [hl] at h
    dsimp only at h
    cases he : eval W P k e σ with
    | err er => rw [he] at h; cases h
    | ok r τ =>
      rw [he, bind_ok] at h
      cases hb : binAssign W τ l r with
      | err er => rw [hb] at h; cases h
      | ok u ω =>
        rw [hb, bind_ok] at h
        cases hc : readLoc ω l with
        | none => rw [hc] at h; cases h
        | some c =>
          rw [hc] at h
          cases h
          exact ⟨l, r, τ, c, rfl, rfl, hb, hc, rfl⟩

/-- C111. Assigning to a variable or member changes no other variable and no member of any
object: whatever the right side left behind is still there. This holds of every program in every
state. -/
theorem assignment_changes_only_its_target {W : World} {P : Program} {x : String}
    {fs : List String} {e : Expr} {k : Nat} {σ τ υ : State} {r v : Cell} {l : Loc}
    (hl : resolve σ x fs = .ok l) (he : eval W P k e σ = .ok r τ)
    (h : eval W P (k + 1) (.assign x fs e) σ = .ok v υ) :
    ∀ l', l' ≠ l → readLoc υ l' = readLoc τ l' := by
  obtain ⟨l0, r0, τ0, c, h1, h2, h3, -, -⟩ := assign_parts h
  rw [hl] at h1
  cases h1
  rw [he] at h2
  cases h2
  exact fun l' hl' => binAssign_frame h3 hl'

example : ∃ v υ, eval w0 zooP 11 (.assign "c" ["next"] (.place "b" [])) (ends zooP story) = .ok v υ ∧
    ∀ l', l' ≠ .field 2 "next" → readLoc υ l' = readLoc (ends zooP story) l' := by
  have h : ∃ v υ, eval w0 zooP 11 (.assign "c" ["next"] (.place "b" [])) (ends zooP story) =
      .ok v υ := ⟨_, _, rfl⟩
  obtain ⟨v, υ, h⟩ := h
  exact ⟨v, υ, h, assignment_changes_only_its_target (k := 10)
    (τ := ends zooP story) (r := ⟨.cls "Base", .cls "Derived", true, 1, 0, ["Base", "Object"]⟩)
    (by rfl) (by decide +kernel) h⟩

/-- C111. After `x = y`, where `y` refers to an object, both names lead to the same members,
however long the path: what is assigned through one is read through the other. -/
theorem assigned_objects_are_shared {W : World} {P : Program} {x y : String} {k : Nat}
    {σ υ : State} {v cx cy : Cell} {m : String} (hx : getL σ.vars x = some cx)
    (hy : getL σ.vars y = some cy) (hcx : cx.type = .cls m)
    (hr : cy.isRef = true) (h : eval W P (k + 2) (.assign x [] (.place y [])) σ = .ok v υ) :
    ∀ f fs, resolve υ x (f :: fs) = resolve υ y (f :: fs) := by
  have he : eval W P (k + 1) (.place y []) σ = .ok cy σ := by
    simp [eval, resolve, resolveFields, readLoc, hy]
  obtain ⟨l, r, τ, c, h1, h2, h3, h4, -⟩ := assign_parts h
  rw [he] at h2
  cases h2
  have hlx : l = .var x := by
    simp only [resolve, resolveFields, readLoc, hx] at h1
    cases h1
    rfl
  subst hlx
  have key : υ = objAssign σ (.var x) cx cy := by
    unfold binAssign at h3
    simp only [readLoc, hx, hcx] at h3
    repeat' split at h3
    all_goals first
      | (cases h3; rfl)
      | cases h3
  obtain ⟨c', g1, g2, -, -, g3⟩ := objAssign_var_ref (σ := σ) (x := x) hr hx
  rw [← key] at g1 g3
  have hy' : ∃ d, getL υ.vars y = some d ∧ d.ref = cy.ref := by
    by_cases hxy : y = x
    · subst hxy
      exact ⟨c', g1, g2⟩
    · have := binAssign_frame h3 (l' := .var y) (fun e => hxy (by cases e; rfl))
      simp only [readLoc] at this
      exact ⟨cy, by rw [this, hy], rfl⟩
  obtain ⟨d, hd, hdr⟩ := hy'
  intro f fs
  simp only [resolve, resolveFields, readLoc, g1, hd, g2, hdr]

example : ∃ v υ, eval w0 zooP 12 (.assign "c" [] (.place "b" [])) (ends zooP story) = .ok v υ ∧
    ∀ f fs, resolve υ "c" (f :: fs) = resolve υ "b" (f :: fs) := by
  have h : ∃ v υ, eval w0 zooP 12 (.assign "c" [] (.place "b" [])) (ends zooP story) =
      .ok v υ := ⟨_, _, rfl⟩
  obtain ⟨v, υ, h⟩ := h
  exact ⟨v, υ, h, assigned_objects_are_shared (k := 10)
    (cx := ⟨.cls "Base", .cls "Base", true, 2, 0, ["Object"]⟩)
    (cy := ⟨.cls "Base", .cls "Derived", true, 1, 0, ["Base", "Object"]⟩)
    (by decide +kernel) (by decide +kernel) rfl rfl h⟩

/-! ## C112: comparing objects -/

/-- C112. In programs that cast with care, two values of classes without an `operator==` of their
own are equal exactly if they are the same object or both null. -/
theorem equality_is_identity {q : Bool} {W : World} {P : Program} (hP : CarefulProgram q W P)
    {Γ : Env} {σ : State} (h : Reaches q W P Γ σ) {l r : Expr} {m n : String}
    (hl : typeOf W P Γ l = some (.cls m)) (hr : typeOf W P Γ r = some (.cls n))
    (hcl : careful q W P Γ l = true) (hcr : careful q W P Γ r = true) {k : Nat} {c d : Cell}
    {τ υ : State} (h1 : eval W P k l σ = .ok c τ) (h2 : eval W P k r τ = .ok d υ) :
    eval W P (k + 1) (.eq l r) σ = .ok (atomic .bool (if c.ref = d.ref then 1 else 0)) υ := by
  have I := h.inv hP
  obtain ⟨Iτ, -, kc⟩ := ((all_ok hP k).1 l Γ σ _ I hl hcl).ok h1
  obtain ⟨-, -, kd⟩ := ((all_ok hP k).1 r Γ τ _ Iτ hr hcr).ok h2
  obtain ⟨-, ⟨t, hct⟩, hcv, -⟩ := kc
  obtain ⟨-, -, hdv, -⟩ := kd
  have : equal W υ.heap c d = decide (c.ref = d.ref) := by
    unfold equal
    rw [hct]
    dsimp only
    split
    · rfl
    · rw [hcv, hdv]
      simp
  simp only [eval, h1, h2, bind_ok, this]
  by_cases hh : c.ref = d.ref <;> simp [hh]

/-- After the story `c.next == b`, but not `c == b`. -/
example : eval w0 zooP 11 (.eq (.place "c" ["next"]) (.place "b" [])) (ends zooP story) =
      .ok (atomic .bool 1) (ends zooP story) ∧
    eval w0 zooP 11 (.eq (.place "c" []) (.place "b" [])) (ends zooP story) =
      .ok (atomic .bool 0) (ends zooP story) :=
  ⟨equality_is_identity (zooP_careful false) (story_goes false).reaches (k := 10) (m := "Base")
      (n := "Base") (τ := ends zooP story) (c := ⟨.cls "Base", .cls "Derived", true, 1, 0, ["Base", "Object"]⟩)
      (d := ⟨.cls "Base", .cls "Derived", true, 1, 0, ["Base", "Object"]⟩)
      (by decide +kernel) (by decide +kernel) rfl rfl (by decide +kernel) (by decide +kernel),
    equality_is_identity (zooP_careful false) (story_goes false).reaches (k := 10) (m := "Base")
      (n := "Base") (τ := ends zooP story) (c := ⟨.cls "Base", .cls "Base", true, 2, 0, ["Object"]⟩)
      (d := ⟨.cls "Base", .cls "Derived", true, 1, 0, ["Base", "Object"]⟩)
      (by decide +kernel) (by decide +kernel) rfl rfl (by decide +kernel) (by decide +kernel)⟩

/-! ## C113: `is` -/

/-- C113, for references to objects: `e is C` is true exactly if the class of the object is `C`,
or inherits from it through `extends`, or from a class that names `C` after `implements`. Missing:
interfaces of interfaces, null, and values that are not references; see the refutations. -/
theorem is_follows_the_object_partial {q : Bool} {W : World} {P : Program}
    (hP : CarefulProgram q W P) {Γ : Env} {σ : State} (h : Reaches q W P Γ σ) {e : Expr}
    {n C : String} (ht : typeOf W P Γ e = some (.cls n)) (hc : careful q W P Γ e = true) {k : Nat}
    {c : Cell} {τ : State} (he : eval W P k e σ = .ok c τ) (hr : c.isRef = true) {d : String}
    (hd : classAt τ.heap c.ref = some d) :
    ∃ b : Bool, eval W P (k + 1) (.is e C) σ = .ok (atomic .bool (if b then 1 else 0)) τ ∧
      (b = true ↔ Recognised P d C) := by
  have I := h.inv hP
  obtain ⟨-, -, kc⟩ := ((all_ok hP k).1 e Γ σ _ I ht hc).ok he
  have hcc : checkClasses P.classes = true := by
    have := hP.1
    unfold checkProgram at this
    simp only [Bool.and_eq_true] at this
    exact this.1.1
  have hne : c.ref ≠ 0 := by
    intro h0
    rw [h0] at hd
    simp [classAt, objAt_zero] at hd
  obtain ⟨o, d', ho, hd', -, hh⟩ := kc.2.2.2 hne
  simp only [classAt, ho, hd', Option.some.injEq] at hd
  subst hd
  refine ⟨isInstanceOf c C, ?_, instance_iff hcc (hh hr).1 (hh hr).2 C⟩
  simp only [eval, he, bind_ok]

/-- After the story `b is Base` although `b` holds a `Derived`. -/
example : ∃ b : Bool, eval w0 zooP 11 (.is (.place "b" []) "Base") (ends zooP story) =
      .ok (atomic .bool (if b then 1 else 0)) (ends zooP story) ∧
    (b = true ↔ Recognised zooP "Derived" "Base") :=
  is_follows_the_object_partial (zooP_careful false) (story_goes false).reaches (k := 10)
    (n := "Base") (c := ⟨.cls "Base", .cls "Derived", true, 1, 0, ["Base", "Object"]⟩)
    (by decide +kernel) rfl (by decide +kernel) rfl (by decide +kernel)

/-- C113 fails for interfaces of interfaces: `Leaf` implements `Deep`, which implements `Top`, but
`new Leaf() is Top` is false. -/
theorem is_follows_the_object_refuted :
    Descends zooP "Leaf" "Top" ∧ CarefulProgram false w0 zooP ∧
    eval w0 zooP 5 (.is (.newObj "Leaf") "Top") ⟨[], []⟩ =
      .ok (atomic .bool 0) (newObject zooP.classes "Leaf" ⟨[], []⟩).2 :=
  ⟨.step ⟨_, .head _, rfl, _, .tail _ (.head _), rfl⟩
    (.step ⟨_, .tail _ (.tail _ (.tail _ (.tail _ (.head _)))), rfl, _, .head _, rfl⟩ (.refl _)),
   zooP_careful _, by decide +kernel⟩

/-- C113 fails for null: after `Base b;` the test `b is Base` is true, and after `b = Base null;`
it is false, although `b` is null both times. -/
theorem null_is_instance_refuted :
    ∃ (ss ts : List Stmt) (Γ : Env),
      ss = [.decl (.cls "Base") "b" false none] ∧
      ts = ss ++ [.expr (.assign "b" [] (.ccast (.cls "Base") .null))] ∧
      goes true zooP ss Γ (ends zooP ss) ∧ goes true zooP ts Γ (ends zooP ts) ∧
      (getL (ends zooP ss).vars "b").map (·.ref) = some 0 ∧
      (getL (ends zooP ts).vars "b").map (·.ref) = some 0 ∧
      eval w0 zooP 5 (.is (.place "b" []) "Base") (ends zooP ss) =
        .ok (atomic .bool 1) (ends zooP ss) ∧
      eval w0 zooP 5 (.is (.place "b" []) "Base") (ends zooP ts) =
        .ok (atomic .bool 0) (ends zooP ts) :=
  ⟨_, _, [("b", .cls "Base")], rfl, rfl, by decide +kernel, by decide +kernel, by decide +kernel,
    by decide +kernel, by decide +kernel, by decide +kernel⟩

/-! ## C114: the function that is called -/

/-- C114. In programs that hide no members and cast with care, the type by which the interpreter
chooses among functions of one name is the type the compiler chose by; so the function called is
the one the compiler found, and there always is one. Missing: other programs, see
`called_function_is_the_compiled_one_refuted`. -/
theorem called_function_is_the_compiled_one_partial {q : Bool} {W : World} {P : Program}
    (hP : CarefulProgram q W P) {Γ : Env} {σ : State} (h : Reaches q W P Γ σ) {e : Expr} {t : Ty}
    (ht : typeOf W P Γ e = some t) (hc : careful q W P Γ e = true) (k : Nat) :
    (∀ c τ, eval W P k e σ = .ok c τ → ∀ f, findFn P f c.outer = findFn P f t) ∧
    eval W P k e σ ≠ .err .noFunction ∧ eval W P k e σ ≠ .err .unknownName := by
  have I := h.inv hP
  have G := (all_ok hP k).1 e Γ σ _ I ht hc
  refine ⟨?_, ?_, ?_⟩
  · intro c τ he f
    obtain ⟨-, -, kc⟩ := G.ok he
    have : c.outer = t := by
      cases t with
      | anon => exact absurd kc id
      | atom a => exact kc.1
      | cls n => exact kc.1
    rw [this]
  · intro he
    rw [he] at G
    rcases G with G | G | G <;> cases G
  · intro he
    rw [he] at G
    rcases G with G | G | G <;> cases G

/-- `id(b)` after the story: `b` holds a `Derived`, and the function for `Base` is called. -/
example : ∀ c τ, eval w0 zooP 10 (.place "b" []) (ends zooP story) = .ok c τ →
    ∀ f, findFn zooP f c.outer = findFn zooP f (.cls "Base") :=
  (called_function_is_the_compiled_one_partial (zooP_careful false) (story_goes false).reaches
    (e := .place "b" []) (t := .cls "Base") (by decide +kernel) rfl 10).1

example : (findFn zooP "id" (.cls "Base")).map (·.ret) = some (.cls "Base") := by decide +kernel

/-- `class Base { int v; }`, `class Derived extends Base { string v; }`, `int g(int)`, `int
g(string)`. -/
def hidden : Program :=
  ⟨[⟨"Derived", false, [⟨true, "Base"⟩], [("v", .atom .string, false)]⟩,
    ⟨"Base", false, [⟨true, "Object"⟩], [("v", .atom .int32, false)]⟩],
   [⟨"g", "p", .atom .int32, .atom .int32, [], .lit .int32 10⟩,
    ⟨"g", "p", .atom .string, .atom .int32, [], .lit .int32 20⟩]⟩

/-- C114 fails when a class hides a member behind one of another type: in `Base b = new
Derived(); int r = g(b.v);` the compiler chose `g(int)`, and `g(string)` is called. -/
theorem called_function_is_the_compiled_one_refuted :
    ∃ (ss : List Stmt) (Γ : Env) (σ : State),
      checkProgram w0 hidden = true ∧ check w0 hidden [] ss = some Γ ∧
      exec w0 hidden 20 ss ⟨[], []⟩ = .ok () σ ∧
      typeOf w0 hidden Γ (.place "b" ["v"]) = some (.atom .int32) ∧
      (findFn hidden "g" (.atom .int32)).map (·.result) = some (.lit .int32 10) ∧
      eval w0 hidden 5 (.call "g" (.place "b" ["v"])) σ = .ok (atomic .int32 20) σ := by
  let ss : List Stmt := [.decl (.cls "Base") "b" false (some (.newObj "Derived"))]
  exact ⟨ss, [("b", .cls "Base")], ends hidden ss, by decide +kernel, by decide +kernel,
    by decide +kernel, by decide +kernel, by decide +kernel, by decide +kernel⟩

/-! ## C115: atomic variables are independent -/

/-- The value a place holds. -/
def valueAt (σ : State) (l : Loc) : Option Int := (readLoc σ l).map (getValue σ.heap)

/-- The place is a variable or member of an atomic type. -/
def AtomPlace (P : Program) (Γ : Env) (σ : State) : Loc → Prop
  | .var x => ∃ a, Γ.get x = some (.atom a)
  | .field r f => ∃ d a, classAt σ.heap r = some d ∧ fieldType P d f = some (.atom a)

theorem AtomPlace.cell {P : Program} {Γ : Env} {σ : State} {l : Loc} (h : AtomPlace P Γ σ l)
    (I : Inv true P Γ σ) : ∃ c, readLoc σ l = some c ∧ c.ref = 0 := by
  have key : ∃ a, LocTy P Γ σ.heap l (.atom a) := by
    cases l with
    | var x => exact h
    | field r f =>
      obtain ⟨d, a, hd, hf⟩ := h
      unfold classAt at hd
      cases ho : objAt σ.heap r with
      | none => rw [ho] at hd; cases hd
      | some o =>
        rw [ho] at hd
        dsimp only at hd
        split at hd
        · rename_i d' hc
          cases hd
          exact ⟨a, o, _, ho, hc, hf⟩
        · cases hd
  obtain ⟨a, hl⟩ := key
  obtain ⟨c, hc, k⟩ := I.read hl
  exact ⟨c, hc, (k.2.2.1 rfl).1⟩

theorem getValue_null (h : List Obj) {c : Cell} (hc : c.ref = 0) : getValue h c = c.value := by
  unfold getValue
  rw [hc, objAt_zero]

/-- C115. In programs that cast with care and use neither `new` for atomic values nor `ref` for
atomic variables, an atomic variable that is assigned has the value assigned, converted if the
types differ, and every other atomic variable and member of an object keeps its value. Missing:
programs with atomic references, see `atomic_variables_are_independent_refuted`. -/
theorem atomic_variables_are_independent_partial {W : World} {P : Program}
    (hP : CarefulProgram true W P) {Γ : Env} {σ : State} (h : Reaches true W P Γ σ) {x : String}
    {e : Expr} {a b : Atom} (hx : Γ.get x = some (.atom a)) (hte : typeOf W P Γ e = some (.atom b))
    (hce : careful true W P Γ e = true) {k : Nat} {r v : Cell} {τ υ : State}
    (he : eval W P k e σ = .ok r τ) (ha : eval W P (k + 1) (.assign x [] e) σ = .ok v υ) :
    valueAt υ (.var x) = some (if a = b then getValue τ.heap r else
      W.convert a (getValue τ.heap r)) ∧
    ∀ l, l ≠ .var x → AtomPlace P Γ τ l → valueAt υ l = valueAt τ l := by
  have I := h.inv hP
  obtain ⟨l, r0, τ0, c, h1, h2, h3, h4, -⟩ := assign_parts ha
  rw [he] at h2
  cases h2
  obtain ⟨c0, hx0, -⟩ := I.vars.get hx
  have hlx : l = .var x := by
    simp only [resolve, resolveFields, readLoc, hx0] at h1
    cases h1
    rfl
  subst hlx
  obtain ⟨Iτ, -, kr⟩ := ((all_ok hP k).1 e Γ σ _ I hte hce).ok he
  obtain ⟨cx, hcx, kx⟩ := Iτ.vars.get hx
  obtain ⟨-, hxt, hxr, -⟩ := kx
  obtain ⟨-, hrt, hrr, -⟩ := kr
  have hx0' := (hxr rfl).1
  have put : ∀ s : Cell, s.isRef = false →
      objAssign τ (.var x) cx s = writeLoc τ
        ⟨if cx.outer = .anon then s.outer else cx.outer, s.type, s.isRef, cx.ref,
          getValue τ.heap s, s.ups⟩ (.var x) := by
    intro s hs
    unfold objAssign
    simp only [hs, hx0']
    simp
  have hrl : readLoc τ (.var x) = some cx := hcx
  have key : ∃ s : Cell, s.isRef = false ∧ υ = objAssign τ (.var x) cx s ∧
      getValue τ.heap s = if a = b then getValue τ.heap r else W.convert a (getValue τ.heap r) := by
    unfold binAssign at h3
    simp only [hrl, hxt, hrt] at h3
    by_cases hab : b = a
    · subst hab
      simp at h3
      exact ⟨r, (hrr rfl).2, h3.symm, by simp⟩
    · simp [hab] at h3
      refine ⟨_, rfl, h3.symm, ?_⟩
      rw [getValue_null _ rfl, if_neg (fun e => hab e.symm)]
      rfl
  obtain ⟨s, hs, rfl, hv⟩ := key
  rw [put s hs]
  constructor
  · unfold valueAt
    rw [readLoc_writeLoc_self hrl]
    simp only [Option.map_some, Option.some.injEq]
    rw [getValue_null _ (by exact hx0')]
    exact hv
  · intro l hl hA
    obtain ⟨d, hd, hd0⟩ := hA.cell Iτ
    unfold valueAt
    rw [readLoc_writeLoc_ne hrl hl, hd]
    simp only [Option.map_some]
    rw [getValue_null _ hd0, getValue_null _ hd0]

/-- `i = j` after the story: `i` is 7, `j` and the members stay. -/
example : ∃ v υ, eval w0 zooP 11 (.assign "i" [] (.place "j" [])) (ends zooP story) = .ok v υ ∧
    valueAt υ (.var "i") = some 70 ∧ valueAt υ (.field 2 "v") = some 0 := by
  have h : ∃ v υ, eval w0 zooP 11 (.assign "i" [] (.place "j" [])) (ends zooP story) =
      .ok v υ := ⟨_, _, rfl⟩
  obtain ⟨v, υ, h⟩ := h
  have := atomic_variables_are_independent_partial (zooP_careful true) (story_goes true).reaches
    (x := "i") (e := .place "j" []) (a := .int32) (b := .int32) rfl (by decide +kernel) rfl
    (k := 10) (τ := ends zooP story) (r := ⟨.atom .int32, .atom .int32, false, 0, 70, []⟩) (by decide +kernel) h
  refine ⟨v, υ, h, this.1, ?_⟩
  rw [this.2 (.field 2 "v") (by simp) ⟨"Base", .int32, by decide +kernel, by decide +kernel⟩]
  decide +kernel

/-- C115 fails with `new`: in `int a ref = new int(1); int b = a; b = 2;` the assignment to `b`
changes `a` as well, although `b` is not declared `ref`. -/
theorem atomic_variables_are_independent_refuted :
    ∃ (ss : List Stmt) (Γ : Env) (σ υ : State) (v : Cell),
      ss = [.decl (.atom .int32) "a" true (some (.newAtom .int32 (.lit .int32 10))),
            .decl (.atom .int32) "b" false (some (.place "a" []))] ∧
      goes false zooP ss Γ σ ∧ valueAt σ (.var "a") = some 10 ∧
      eval w0 zooP 5 (.assign "b" [] (.lit .int32 20)) σ = .ok v υ ∧
      valueAt υ (.var "a") = some 20 := by
  refine ⟨_, [("b", .atom .int32), ("a", .atom .int32)], ends zooP
    [.decl (.atom .int32) "a" true (some (.newAtom .int32 (.lit .int32 10))),
     .decl (.atom .int32) "b" false (some (.place "a" []))], _, _, rfl, by decide +kernel,
    by decide +kernel, rfl, by decide +kernel⟩

/-- C115 fails with `new` for casts as well: `int a ref = new int(..); bool c = cast<bool>(a);`
writes the converted value through the reference. Here a cast to an integer type cuts off what
follows the point of a `double`. -/
theorem casts_leave_their_argument_refuted :
    ∃ (ss : List Stmt) (Γ : Env) (σ υ : State) (v : Cell),
      ss = [.decl (.atom .double) "a" true (some (.newAtom .double (.lit .double 15)))] ∧
      goes false zooP ss Γ σ ∧ valueAt σ (.var "a") = some 15 ∧
      eval w0 zooP 5 (.cast (.atom .int32) (.place "a" [])) σ = .ok v υ ∧
      valueAt υ (.var "a") = some 10 := by
  refine ⟨_, [("a", .atom .double)], ends zooP
    [.decl (.atom .double) "a" true (some (.newAtom .double (.lit .double 15)))], _, _, rfl,
    by decide +kernel, by decide +kernel, rfl, by decide +kernel⟩

/-! ## C116: assigning null -/

/-- C116. `x = T null` (also for a member) makes the place null, in every program and state in
which it gets that far. Missing: other sources of null, see `assigning_null_refuted`. -/
theorem assigning_null_partial {W : World} {P : Program} {x n m : String} {fs : List String} {k : Nat}
    {σ : State} {l : Loc} {c : Cell} (hl : resolve σ x fs = .ok l) (hc : readLoc σ l = some c)
    (hm : c.type = .cls m) :
    ∃ v υ c', eval W P (k + 3) (.assign x fs (.ccast (.cls n) .null)) σ = .ok v υ ∧
      readLoc υ l = some c' ∧ c'.ref = 0 := by
  have he : eval W P (k + 2) (.ccast (.cls n) .null) σ =
      .ok { nullCell with outer := .cls n } σ := by
    simp [eval, bind_ok, typecast, anonAssign, nullCell, create]
  have hb : ∃ υ, binAssign W σ l { nullCell with outer := .cls n } = .ok () υ ∧
      υ = objAssign σ l c { nullCell with outer := .cls n } := by
    unfold binAssign
    simp only [hc, hm]
    have hv : isValid W σ.heap { nullCell with outer := .cls n } = false := by
      simp [isValid, nullCell, create]
    by_cases ht : m = "Object"
    · exact ⟨_, by simp [nullCell, create, ht], rfl⟩
    · exact ⟨_, by rw [if_neg (by simp [nullCell, create, ht, eq_comm])]; simp [hv], rfl⟩
  obtain ⟨υ, hb, hυ⟩ := hb
  have hr : ∃ c', readLoc υ l = some c' ∧ c'.ref = 0 := by
    have hu : υ = writeLoc σ ⟨if c.outer = .anon then .cls n else c.outer, .cls "Object", true, 0,
        c.value, []⟩ l := by
      rw [hυ]
      rfl
    rw [hu]
    exact ⟨_, readLoc_writeLoc_self hc, rfl⟩
  obtain ⟨c', h1, h2⟩ := hr
  refine ⟨anonAssign υ.heap c', υ, c', ?_, h1, h2⟩
  simp only [eval] at he ⊢
  rw [hl]
  dsimp only
  rw [he, bind_ok, hb, bind_ok, h1]

example : ∃ v υ c', eval w0 zooP 10 (.assign "c" ["next"] (.ccast (.cls "Base") .null))
      (ends zooP story) = .ok v υ ∧
    readLoc υ (.field 2 "next") = some c' ∧ c'.ref = 0 :=
  assigning_null_partial (k := 7) (m := "Derived")
    (c := ⟨.cls "Base", .cls "Derived", true, 1, 0, ["Base", "Object"]⟩)
    (by rfl) (by decide +kernel) rfl

/-- C116 fails when the null comes from a member that was never assigned: in `Base a = new
Base(); a = a.next;` the member is null, and so should `a` be, but `a` keeps its object. -/
theorem assigning_null_refuted :
    ∃ (ss : List Stmt) (Γ : Env) (σ υ : State) (v : Cell),
      ss = [.decl (.cls "Base") "a" false (some (.newObj "Base"))] ∧
      goes true zooP ss Γ σ ∧
      (readLoc σ (.field 1 "next")).map (·.ref) = some 0 ∧
      typeOf w0 zooP Γ (.assign "a" [] (.place "a" ["next"])) = some (.cls "Base") ∧
      eval w0 zooP 5 (.assign "a" [] (.place "a" ["next"])) σ = .ok v υ ∧
      (readLoc υ (.var "a")).map (·.ref) = some 1 := by
  refine ⟨_, [("a", .cls "Base")], ends zooP
    [.decl (.cls "Base") "a" false (some (.newObj "Base"))], _, _, rfl, by decide +kernel,
    by decide +kernel, by decide +kernel, rfl, by decide +kernel⟩

/-- C116, exactly: for values of the last class of the variable the reference is taken over only
from a value that is itself a reference; otherwise the variable keeps its object. -/
theorem assigned_reference_exactly {W : World} {P : Program} {x : String} {e : Expr} {k : Nat}
    {σ τ υ : State} {r v c0 c : Cell} {m : String} (hx : getL σ.vars x = some c0)
    (he : eval W P k e σ = .ok r τ) (hc : getL τ.vars x = some c) (hm : c.type = .cls m)
    (h : eval W P (k + 1) (.assign x [] e) σ = .ok v υ) :
    (getL υ.vars x).map (·.ref) = some (if r.isRef then r.ref else c.ref) := by
  obtain ⟨l, r0, τ0, c1, h1, h2, h3, -, -⟩ := assign_parts h
  rw [he] at h2
  cases h2
  have hlx : l = .var x := by
    simp only [resolve, resolveFields, readLoc, hx] at h1
    cases h1
    rfl
  subst hlx
  have key : υ = objAssign τ (.var x) c r := by
    unfold binAssign at h3
    simp only [readLoc, hc, hm] at h3
    repeat' split at h3
    all_goals first
      | (cases h3; rfl)
      | cases h3
  rw [key]
  unfold objAssign
  dsimp only
  rcases Bool.eq_false_or_eq_true r.isRef with hr | hr
  · simp only [hr, if_true, writeLoc]
    rw [getL_setL_self hc]
    rfl
  · simp only [hr, Bool.false_eq_true, if_false, writeLoc]
    split
    · dsimp only
      rw [getL_setL_self hc]
      rfl
    · rw [getL_setL_self hc]
      rfl

example : ∃ v υ, eval w0 zooP 6 (.assign "b" [] (.place "b" ["next"])) (ends zooP story) = .ok v υ ∧
    (getL υ.vars "b").map (·.ref) = some 1 := by
  have h : ∃ v υ, eval w0 zooP 6 (.assign "b" [] (.place "b" ["next"])) (ends zooP story) =
      .ok v υ := ⟨_, _, rfl⟩
  obtain ⟨v, υ, h⟩ := h
  exact ⟨v, υ, h, assigned_reference_exactly (k := 5) (m := "Derived")
    (τ := ends zooP story) (r := ⟨.cls "Base", .cls "Base", false, 0, 0, []⟩)
    (c0 := ⟨.cls "Base", .cls "Derived", true, 1, 0, ["Base", "Object"]⟩)
    (c := ⟨.cls "Base", .cls "Derived", true, 1, 0, ["Base", "Object"]⟩)
    (by decide +kernel) (by decide +kernel) (by decide +kernel) rfl h⟩

end Verif.Vars
