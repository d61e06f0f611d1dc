import Verif.Pkg.Model
import Verif.SemVer.Props

/-!
# Lemmas about the package manager

The specification: `Reach srv locals m m'` says that the module `m'` is needed for `m`, following the
dependencies of the descriptions on the server, except through modules that are installed already.
`Respects rs m` says that the version of `m` lies in the range of every restriction for `m`.
-/

namespace Verif
namespace Pkg

open SemVer Str

/-! ## Specification -/

/-- `m'` is needed for `m`, not through modules that are installed already. -/
inductive Reach (srv : Server) (locals : List Mod) : Mod → Mod → Prop
  | refl (m) : Reach srv locals m m
  | dep {m m' i d} : srv m.name m.version.toText = some i → d ∈ i.deps → (∀ l ∈ locals, l.name ≠ d.name) →
      Reach srv locals ⟨d.name, Version.ofText d.min⟩ m' → Reach srv locals m m'

/-- `m'` is a dependency of `m` that is not installed already. -/
def Needs (srv : Server) (locals : List Mod) (m' m : Mod) : Prop :=
  ∃ i d, srv m.name m.version.toText = some i ∧ d ∈ i.deps ∧ (∀ l ∈ locals, l.name ≠ d.name) ∧ m' = ⟨d.name, Version.ofText d.min⟩

/-- The version of `m` lies in the range of every restriction for `m`. -/
def Respects (rs : List Restriction) (m : Mod) : Prop :=
  ∀ r ∈ rs, r.name = m.name → (r.min.valid = true → m.version.lt r.min = false) ∧ (r.max.valid = true → r.max.lt m.version = false)

/-- Versions whose text determines them. -/
def Regular (v : Version) : Prop := v.InRange ∧ 0 ≤ v.bugfix ∧ '+' ∉ v.label

/-- The description of a version on the server has that version. -/
def Faithful (srv : Server) : Prop := ∀ name v i, Regular v → srv name v.toText = some i → i.version.eq v = true

/-- A description that can be installed. -/
def Usable (srv : Server) (m : Mod) : Prop :=
  ∃ i, srv m.name m.version.toText = some i ∧ i.target = true ∧ i.archOk = true

/-- A module of that name is on disk. -/
def OnDisk (st : St) (name : String) : Prop := ∃ v, st.disk.find name = some v

/-! ## Lists of modules -/

theorem contains_iff (l : List Mod) (name : String) : contains l name = true ↔ ∃ m ∈ l, m.name = name := by
  simp [contains]

theorem not_contains_iff (l : List Mod) (name : String) : contains l name = false ↔ ∀ m ∈ l, m.name ≠ name := by
  rw [← Bool.not_eq_true, contains_iff]
  simp

theorem mem_insertMod (m x : Mod) : ∀ l, x ∈ insertMod m l ↔ x = m ∨ x ∈ l
  | [] => by simp [insertMod]
  | y :: ys => by
    rw [insertMod]
    split
    · simp
    · rw [List.mem_cons, mem_insertMod m x ys, List.mem_cons]
      constructor
      · rintro (h | h | h) <;> simp [h]
      · rintro (h | h | h) <;> simp [h]

theorem contains_addModule (m : Mod) (l : List Mod) (name : String) :
    contains (addModule m l) name = true ↔ name = m.name ∨ contains l name = true := by
  rw [addModule]
  split
  · next h =>
    constructor
    · exact Or.inr
    · rintro (rfl | h')
      · exact h
      · exact h'
  · rw [contains_iff, contains_iff]
    constructor
    · rintro ⟨x, hx, rfl⟩
      rcases (mem_insertMod _ _ _).1 hx with rfl | hx
      · exact Or.inl rfl
      · exact Or.inr ⟨x, hx, rfl⟩
    · rintro (rfl | ⟨x, hx, rfl⟩)
      · exact ⟨m, (mem_insertMod _ _ _).2 (Or.inl rfl), rfl⟩
      · exact ⟨x, (mem_insertMod _ _ _).2 (Or.inr hx), rfl⟩

theorem mem_addModule {m x : Mod} {l : List Mod} (h : x ∈ addModule m l) : x = m ∨ x ∈ l := by
  rw [addModule] at h
  split at h
  · exact Or.inr h
  · exact (mem_insertMod _ _ _).1 h

theorem mem_addModule_of_mem {m x : Mod} {l : List Mod} (h : x ∈ l) : x ∈ addModule m l := by
  rw [addModule]
  split
  · exact h
  · exact (mem_insertMod _ _ _).2 (Or.inr h)

theorem getModule_some {l : List Mod} {name : String} {m : Mod} (h : getModule l name = some m) : m ∈ l ∧ m.name = name := by
  rw [getModule] at h
  refine ⟨List.mem_of_find?_eq_some h, ?_⟩
  have := List.find?_some h
  simpa using this

theorem getModule_none {l : List Mod} {name : String} : getModule l name = none ↔ contains l name = false := by
  rw [getModule, List.find?_eq_none, not_contains_iff]
  simp

/-! ## Reachability -/

theorem Reach.trans_dep {srv : Server} {locals : List Mod} {m m' : Mod} (h : Reach srv locals m m') {i : Info} {d : Dep}
    (hi : srv m'.name m'.version.toText = some i) (hd : d ∈ i.deps) (hl : ∀ l ∈ locals, l.name ≠ d.name) :
    Reach srv locals m ⟨d.name, Version.ofText d.min⟩ := by
  induction h with
  | refl m => exact .dep hi hd hl (.refl _)
  | dep h1 h2 h3 _ ih => exact .dep h1 h2 h3 (ih hi)

/-! ## Preparation -/

/-- What is known after preparing modules of `W`. -/
structure Prepared (srv : Server) (W : Mod → Prop) (st st' : St) : Prop where
  locals : st'.locals = st.locals
  disk : st'.disk = st.disk
  log : st'.log = st.log
  kept : ∀ m ∈ st.missing, m ∈ st'.missing
  new : ∀ m ∈ st'.missing, m ∈ st.missing ∨ (W m ∧ contains st.locals m.name = false)
  cache : ∀ name, st'.cache.find name = st.cache.find name ∨
    ∃ m, W m ∧ m.name = name ∧ st'.cache.find name = some (srv m.name m.version.toText)
  found : ∀ name, contains st'.missing name = true → contains st.missing name = true ∨
    ∃ m, W m ∧ m.name = name ∧ st'.cache.find name = some (srv m.name m.version.toText)

theorem Prepared.refl (srv : Server) (W : Mod → Prop) (st : St) : Prepared srv W st st where
  locals := rfl
  disk := rfl
  log := rfl
  kept := fun _ h => h
  new := fun _ h => Or.inl h
  cache := fun _ => Or.inl rfl
  found := fun _ h => Or.inl h

theorem Prepared.trans {srv : Server} {W : Mod → Prop} {a b c : St} (h : Prepared srv W a b) (h' : Prepared srv W b c) :
    Prepared srv W a c where
  locals := h'.locals.trans h.locals
  disk := h'.disk.trans h.disk
  log := h'.log.trans h.log
  kept := fun m hm => h'.kept m (h.kept m hm)
  new := by
    intro m hm
    rcases h'.new m hm with hm | hm
    · exact h.new m hm
    · rw [h.locals] at hm; exact Or.inr hm
  cache := by
    intro name
    rcases h'.cache name with hc | hc
    · rw [hc]; exact h.cache name
    · exact Or.inr hc
  found := by
    intro name hn
    rcases h'.found name hn with hn | hn
    · rcases h.found name hn with hn | ⟨m, hm, hmn, hc⟩
      · exact Or.inl hn
      · right
        rcases h'.cache name with hc' | hc'
        · exact ⟨m, hm, hmn, by rw [hc']; exact hc⟩
        · exact hc'
    · exact Or.inr hn

/-- `W` contains the dependencies that are not installed. -/
def Closed (srv : Server) (locals : List Mod) (W : Mod → Prop) : Prop :=
  ∀ m i d, W m → srv m.name m.version.toText = some i → d ∈ i.deps → contains locals d.name = false → W ⟨d.name, Version.ofText d.min⟩

theorem prepare_prepared {srv : Server} {cfg : Config} {W : Mod → Prop} : ∀ (n : Nat) (m : Mod) (st st' : St),
    Closed srv st.locals W → W m → prepare srv cfg n m st = .ok st' →
    Prepared srv W st st' ∧ ∃ m', W m' ∧ m'.name = m.name ∧ st'.cache.find m.name = some (srv m'.name m'.version.toText)
  | 0, m, st, st', _, _, h => by cases h
  | n + 1, m, st, st', hc, hm, h => by
    have h0 : Prepared srv W st { st with cache := st.cache.set m.name (srv m.name m.version.toText) } := by
      refine ⟨rfl, rfl, rfl, fun _ h => h, fun _ h => Or.inl h, ?_, fun _ h => Or.inl h⟩
      intro name
      by_cases hn : m.name = name
      · subst hn
        exact Or.inr ⟨m, hm, rfl, AMap.find_set_self _ _ _⟩
      · exact Or.inl (AMap.find_set_ne hn _ _)
    have hf0 : ({ st with cache := st.cache.set m.name (srv m.name m.version.toText) } : St).cache.find m.name = some (srv m.name m.version.toText) :=
      AMap.find_set_self _ _ _
    have loop : ∀ (ds : List Dep) (s s' : St), Closed srv s.locals W →
        (∀ d ∈ ds, contains s.locals d.name = false → W ⟨d.name, Version.ofText d.min⟩) →
        prepareDeps (prepare srv cfg n) ds s = .ok s' → Prepared srv W s s' := by
      intro ds
      induction ds with
      | nil =>
        intro s s' _ _ h
        simp only [prepareDeps, Res.ok.injEq] at h
        subst h
        exact Prepared.refl srv W s
      | cons d ds ih =>
        intro s s' hc hd h
        rw [prepareDeps] at h
        by_cases hl : contains s.locals d.name = true
        · rw [if_pos hl] at h
          exact ih s s' hc (fun d' h' => hd d' (List.mem_cons_of_mem _ h')) h
        · rw [if_neg hl] at h
          have hl' : contains s.locals d.name = false := by simpa using hl
          have hW := hd d (by simp) hl'
          simp only at h
          cases hp : prepare srv cfg n ⟨d.name, Version.ofText d.min⟩ { s with missing := addModule ⟨d.name, Version.ofText d.min⟩ s.missing } with
          | fuel => rw [hp] at h; cases h
          | exit x => rw [hp] at h; cases h
          | ok s1 =>
            rw [hp] at h
            obtain ⟨h1, m', hm', hmn, hcf⟩ := prepare_prepared n _ _ _ (by exact hc) hW hp
            have h2 : Prepared srv W s s1 := by
              refine ⟨h1.locals, h1.disk, h1.log, fun x hx => h1.kept x (mem_addModule_of_mem hx), ?_, h1.cache, ?_⟩
              · intro x hx
                rcases h1.new x hx with hx | hx
                · rcases mem_addModule hx with rfl | hx
                  · exact Or.inr ⟨hW, hl'⟩
                  · exact Or.inl hx
                · exact Or.inr hx
              · intro name hn
                rcases h1.found name hn with hn | hn
                · rcases (contains_addModule _ _ _).1 hn with rfl | hn
                  · exact Or.inr ⟨m', hm', hmn, hcf⟩
                  · exact Or.inl hn
                · exact Or.inr hn
            have hloc : s1.locals = s.locals := h2.locals
            exact h2.trans (ih s1 s' (by rw [hloc]; exact hc) (fun d' h' => by rw [hloc]; exact hd d' (List.mem_cons_of_mem _ h')) h)
    have fin : ∀ s', Prepared srv W { st with cache := st.cache.set m.name (srv m.name m.version.toText) } s' →
        Prepared srv W st s' ∧ ∃ m', W m' ∧ m'.name = m.name ∧ s'.cache.find m.name = some (srv m'.name m'.version.toText) := by
      intro s' hs
      refine ⟨h0.trans hs, ?_⟩
      rcases hs.cache m.name with hx | hx
      · exact ⟨m, hm, rfl, by rw [hx]; exact hf0⟩
      · exact hx
    rw [prepare] at h
    by_cases hsk : cfg.skipDeps = true
    · rw [if_pos hsk] at h
      simp only [Res.ok.injEq] at h
      subst h
      exact fin _ (Prepared.refl srv W _)
    · rw [if_neg hsk] at h
      cases hi : srv m.name m.version.toText with
      | none =>
        rw [hi] at h
        simp only [Res.ok.injEq] at h
        subst h
        rw [← hi]
        exact fin _ (Prepared.refl srv W _)
      | some i =>
        rw [hi] at h
        simp only at h
        split at h
        · cases h
        · rw [← hi] at h
          exact fin _ (loop i.deps _ _ hc (fun d hd hl => hc m i d hm hi hd hl) h)

/-- Everything needed becomes a missing module. -/
theorem prepare_reaches {srv : Server} {cfg : Config} (hsk : cfg.skipDeps = false) : ∀ (n : Nat) (m : Mod) (st st' : St),
    prepare srv cfg n m st = .ok st' → ∀ m', Reach srv st.locals m m' → m' = m ∨ contains st'.missing m'.name = true
  | 0, m, st, st', h => by cases h
  | n + 1, m, st, st', h => by
    intro m' hr
    have loop : ∀ (ds : List Dep) (s s' : St), prepareDeps (prepare srv cfg n) ds s = .ok s' → ∀ d ∈ ds, contains s.locals d.name = false →
        ∀ m', Reach srv s.locals ⟨d.name, Version.ofText d.min⟩ m' → contains s'.missing m'.name = true := by
      intro ds
      induction ds with
      | nil => intro s s' _ d hd; cases hd
      | cons d ds ih =>
        intro s s' h d' hd' hl m' hr
        rw [prepareDeps] at h
        have hkeep : ∀ (ds : List Dep) (s s' : St), prepareDeps (prepare srv cfg n) ds s = .ok s' → s'.locals = s.locals ∧
            ∀ name, contains s.missing name = true → contains s'.missing name = true := by
          intro ds
          induction ds with
          | nil =>
            intro s s' h
            simp only [prepareDeps, Res.ok.injEq] at h
            subst h
            exact ⟨rfl, fun _ h => h⟩
          | cons e es ih2 =>
            intro s s' h
            rw [prepareDeps] at h
            split at h
            · exact ih2 s s' h
            · simp only at h
              cases hp : prepare srv cfg n ⟨e.name, Version.ofText e.min⟩ { s with missing := addModule ⟨e.name, Version.ofText e.min⟩ s.missing } with
              | fuel => rw [hp] at h; cases h
              | exit x => rw [hp] at h; cases h
              | ok s1 =>
                rw [hp] at h
                obtain ⟨h1, _⟩ := prepare_prepared (W := fun _ => True) n _ _ _ (fun _ _ _ _ _ _ _ => trivial) trivial hp
                obtain ⟨h2, h3⟩ := ih2 s1 s' h
                refine ⟨h2.trans h1.locals, ?_⟩
                intro name hn
                apply h3
                obtain ⟨x, hx, rfl⟩ := (contains_iff _ _).1 hn
                exact (contains_iff _ _).2 ⟨x, h1.kept x (mem_addModule_of_mem hx), rfl⟩
        by_cases hld : contains s.locals d.name = true
        · rw [if_pos hld] at h
          rw [List.mem_cons] at hd'
          rcases hd' with rfl | hd'
          · rw [hl] at hld; cases hld
          · exact ih s s' h d' hd' hl m' hr
        · rw [if_neg hld] at h
          simp only at h
          cases hp : prepare srv cfg n ⟨d.name, Version.ofText d.min⟩ { s with missing := addModule ⟨d.name, Version.ofText d.min⟩ s.missing } with
          | fuel => rw [hp] at h; cases h
          | exit x => rw [hp] at h; cases h
          | ok s1 =>
            rw [hp] at h
            obtain ⟨h1, _⟩ := prepare_prepared (W := fun _ => True) n _ _ _ (fun _ _ _ _ _ _ _ => trivial) trivial hp
            obtain ⟨hloc, hkeep'⟩ := hkeep ds s1 s' h
            have hl1 : s1.locals = s.locals := h1.locals
            rw [List.mem_cons] at hd'
            rcases hd' with rfl | hd'
            · apply hkeep'
              rcases prepare_reaches hsk n _ _ _ hp m' hr with rfl | h'
              · have : contains (addModule ⟨d'.name, Version.ofText d'.min⟩ s.missing) d'.name = true :=
                  (contains_addModule _ _ _).2 (Or.inl rfl)
                obtain ⟨x, hx, hxn⟩ := (contains_iff _ _).1 this
                exact (contains_iff _ _).2 ⟨x, h1.kept x hx, hxn⟩
              · exact h'
            · exact ih s1 s' h d' hd' (by rw [hl1]; exact hl) m' (by rw [hl1]; exact hr)
    cases hr with
    | refl => exact Or.inl rfl
    | dep hi hd hl hr =>
      right
      rw [prepare] at h
      simp only [hsk, Bool.false_eq_true, if_false, hi] at h
      split at h
      · cases h
      · exact loop _ _ _ h _ hd ((not_contains_iff _ _).2 hl) _ hr

/-- The preparation of all requested modules. -/
theorem prepareAll_prepared {srv : Server} {cfg : Config} {W : Mod → Prop} {n : Nat} : ∀ (ps : List (String × Text)) (st st' : St),
    Closed srv st.locals W → (∀ p ∈ ps, W (requested cfg p)) → prepareAll srv cfg n ps st = .ok st' →
    Prepared srv W st st' ∧ ∀ p ∈ ps, ∃ m', W m' ∧ m'.name = (requested cfg p).name ∧
      st'.cache.find (requested cfg p).name = some (srv m'.name m'.version.toText)
  | [], st, st', _, _, h => by
    simp only [prepareAll, Res.ok.injEq] at h
    subst h
    exact ⟨Prepared.refl srv W st, by simp⟩
  | p :: ps, st, st', hc, hW, h => by
    rw [prepareAll] at h
    cases hp : prepare srv cfg n (requested cfg p) st with
    | fuel => rw [hp] at h; cases h
    | exit x => rw [hp] at h; cases h
    | ok s1 =>
      rw [hp] at h
      obtain ⟨h1, h2⟩ := prepare_prepared n _ _ _ hc (hW p (by simp)) hp
      obtain ⟨h3, h4⟩ := prepareAll_prepared ps s1 st' (by rw [h1.locals]; exact hc) (fun q hq => hW q (List.mem_cons_of_mem _ hq)) h
      refine ⟨h1.trans h3, ?_⟩
      intro q hq
      rw [List.mem_cons] at hq
      rcases hq with rfl | hq
      · rcases h3.cache (requested cfg q).name with hx | hx
        · rw [hx]; exact h2
        · exact hx
      · exact h4 q hq

theorem prepareAll_reaches {srv : Server} {cfg : Config} (hsk : cfg.skipDeps = false) {n : Nat} : ∀ (ps : List (String × Text)) (st st' : St),
    prepareAll srv cfg n ps st = .ok st' → ∀ p ∈ ps, ∀ m', Reach srv st.locals (requested cfg p) m' →
    m' = requested cfg p ∨ contains st'.missing m'.name = true
  | [], st, st', _ => by simp
  | p :: ps, st, st', h => by
    rw [prepareAll] at h
    cases hp : prepare srv cfg n (requested cfg p) st with
    | fuel => rw [hp] at h; cases h
    | exit x => rw [hp] at h; cases h
    | ok s1 =>
      rw [hp] at h
      obtain ⟨h1, _⟩ := prepare_prepared (W := fun _ => True) n _ _ _ (fun _ _ _ _ _ _ _ => trivial) trivial hp
      obtain ⟨h3, _⟩ := prepareAll_prepared (W := fun _ => True) ps s1 st' (fun _ _ _ _ _ _ _ => trivial) (fun _ _ => trivial) h
      intro q hq m' hr
      rw [List.mem_cons] at hq
      rcases hq with rfl | hq
      · rcases prepare_reaches hsk n _ _ _ hp m' hr with h' | h'
        · exact Or.inl h'
        · obtain ⟨x, hx, hxn⟩ := (contains_iff _ _).1 h'
          exact Or.inr ((contains_iff _ _).2 ⟨x, h3.kept x hx, hxn⟩)
      · exact prepareAll_reaches hsk ps s1 st' h q hq m' (by rw [h1.locals]; exact hr)

/-! ## Installation -/

theorem onDisk_set {st : St} {name name' : String} {v : Version} {l : List Mod} (h : OnDisk st name') :
    OnDisk { st with disk := st.disk.set name v, log := l } name' := by
  by_cases hn : name = name'
  · subst hn; exact ⟨v, AMap.find_set_self _ _ _⟩
  · obtain ⟨u, hu⟩ := h
    exact ⟨u, by rw [AMap.find_set_ne hn]; exact hu⟩

theorem installModule_spec (name : String) (st : St) :
    (installModule name st).locals = st.locals ∧ (installModule name st).cache = st.cache ∧
    (∀ n', OnDisk st n' → OnDisk (installModule name st) n') ∧
    ((installModule name st).log = st.log ∧ (installModule name st).disk = st.disk ∨
      ∃ i, st.cache.find name = some (some i) ∧ (installModule name st).log = ⟨name, i.version⟩ :: st.log ∧
        (installModule name st).disk = st.disk.set name i.version) ∧
    (∀ i, st.cache.find name = some (some i) → i.target = true → OnDisk (installModule name st) name) := by
  rw [installModule]
  split
  · next i hi =>
    split
    · next ht =>
      refine ⟨rfl, rfl, fun _ h => onDisk_set h, Or.inr ⟨i, hi, rfl, rfl⟩, ?_⟩
      intro _ _ _
      exact ⟨i.version, AMap.find_set_self _ _ _⟩
    · next ht =>
      refine ⟨rfl, rfl, fun _ h => h, Or.inl ⟨rfl, rfl⟩, ?_⟩
      intro j hj htj
      rw [hi] at hj
      simp only [Option.some.injEq] at hj
      subst hj
      exact absurd htj ht
  · next hno =>
    refine ⟨rfl, rfl, fun _ h => h, Or.inl ⟨rfl, rfl⟩, ?_⟩
    intro j hj
    exact absurd hj (hno j)

theorem installModule_missing (name : String) (st : St) : (installModule name st).missing = st.missing := by
  rw [installModule]
  split
  · split <;> rfl
  · rfl

theorem installAll_missing (force : Bool) : ∀ (ms : List Mod) (st : St), (installAll force ms st).missing = st.missing
  | [], _ => rfl
  | m :: ms, st => by
    rw [installAll]
    split
    · split
      · exact installAll_missing force ms st
      · rw [installAll_missing force ms, installModule_missing]
    · rw [installAll_missing force ms, installModule_missing]

/-- Why a module is unpacked. -/
def Reason (force : Bool) (ms : List Mod) (st : St) (x : Mod) : Prop :=
  ∃ m ∈ ms, m.name = x.name ∧ (∃ i, st.cache.find x.name = some (some i) ∧ i.version = x.version) ∧
    (contains st.locals x.name = false ∨ force = true ∨ ∃ t, getModule st.locals x.name = some t ∧ t.version.lt m.version = true)

theorem installAll_spec (force : Bool) : ∀ (ms : List Mod) (st : St),
    (installAll force ms st).locals = st.locals ∧ (installAll force ms st).cache = st.cache ∧
    (∀ n', OnDisk st n' → OnDisk (installAll force ms st) n') ∧
    (∃ new, (installAll force ms st).log = new ++ st.log ∧ (∀ x ∈ new, Reason force ms st x) ∧
      ∀ n', (installAll force ms st).disk.find n' = st.disk.find n' ∨
        ∃ x ∈ new, x.name = n' ∧ (installAll force ms st).disk.find n' = some x.version) ∧
    (∀ m ∈ ms, ∀ i, st.cache.find m.name = some (some i) → i.target = true →
      contains st.locals m.name = true ∨ OnDisk (installAll force ms st) m.name)
  | [], st => by
    refine ⟨rfl, rfl, fun _ h => h, ⟨[], rfl, by simp, fun _ => Or.inl rfl⟩, by simp⟩
  | m :: ms, st => by
    have skip : ∀ (hl : contains st.locals m.name = true),
        (installAll force ms st).locals = st.locals ∧ (installAll force ms st).cache = st.cache ∧
        (∀ n', OnDisk st n' → OnDisk (installAll force ms st) n') ∧
        (∃ new, (installAll force ms st).log = new ++ st.log ∧ (∀ x ∈ new, Reason force (m :: ms) st x) ∧
          ∀ n', (installAll force ms st).disk.find n' = st.disk.find n' ∨
            ∃ x ∈ new, x.name = n' ∧ (installAll force ms st).disk.find n' = some x.version) ∧
        (∀ m' ∈ m :: ms, ∀ i, st.cache.find m'.name = some (some i) → i.target = true →
          contains st.locals m'.name = true ∨ OnDisk (installAll force ms st) m'.name) := by
      intro hl
      obtain ⟨h1, h2, h3, ⟨new, h4, h4', hd⟩, h5⟩ := installAll_spec force ms st
      refine ⟨h1, h2, h3, ⟨new, h4, ?_, hd⟩, ?_⟩
      · intro x hx
        obtain ⟨m', hm', h⟩ := h4' x hx
        exact ⟨m', List.mem_cons_of_mem _ hm', h⟩
      · intro m' hm' i hi ht
        rw [List.mem_cons] at hm'
        rcases hm' with rfl | hm'
        · exact Or.inl hl
        · exact h5 m' hm' i hi ht
    have go : ∀ (hr : contains st.locals m.name = false ∨ force = true ∨ ∃ t, getModule st.locals m.name = some t ∧ t.version.lt m.version = true),
        (installAll force ms (installModule m.name st)).locals = st.locals ∧ (installAll force ms (installModule m.name st)).cache = st.cache ∧
        (∀ n', OnDisk st n' → OnDisk (installAll force ms (installModule m.name st)) n') ∧
        (∃ new, (installAll force ms (installModule m.name st)).log = new ++ st.log ∧ (∀ x ∈ new, Reason force (m :: ms) st x) ∧
          ∀ n', (installAll force ms (installModule m.name st)).disk.find n' = st.disk.find n' ∨
            ∃ x ∈ new, x.name = n' ∧ (installAll force ms (installModule m.name st)).disk.find n' = some x.version) ∧
        (∀ m' ∈ m :: ms, ∀ i, st.cache.find m'.name = some (some i) → i.target = true →
          contains st.locals m'.name = true ∨ OnDisk (installAll force ms (installModule m.name st)) m'.name) := by
      intro hr
      obtain ⟨g1, g2, g3, g4, g5⟩ := installModule_spec m.name st
      obtain ⟨h1, h2, h3, ⟨new, h4, h4', hd⟩, h5⟩ := installAll_spec force ms (installModule m.name st)
      have up : ∀ x ∈ new, Reason force (m :: ms) st x := by
        intro x hx
        obtain ⟨m', hm', h, h', h''⟩ := h4' x hx
        rw [g2] at h'
        rw [g1] at h''
        exact ⟨m', List.mem_cons_of_mem _ hm', h, h', h''⟩
      refine ⟨h1.trans g1, h2.trans g2, fun n' h => h3 n' (g3 n' h), ?_, ?_⟩
      · rcases g4 with ⟨g4, gd⟩ | ⟨i, gi, g4, gd⟩
        · exact ⟨new, by rw [h4, g4], up, fun n' => by rw [← gd]; exact hd n'⟩
        · refine ⟨new ++ [⟨m.name, i.version⟩], by rw [h4, g4, List.append_assoc]; rfl, ?_, ?_⟩
          · intro x hx
            rw [List.mem_append, List.mem_singleton] at hx
            rcases hx with hx | rfl
            · exact up x hx
            · exact ⟨m, by simp, rfl, ⟨i, gi, rfl⟩, hr⟩
          · intro n'
            rcases hd n' with h | ⟨x, hx, h⟩
            · by_cases hn : m.name = n'
              · right
                refine ⟨⟨m.name, i.version⟩, by simp, hn, ?_⟩
                rw [h, gd, hn, AMap.find_set_self]
              · left
                rw [h, gd, AMap.find_set_ne hn]
            · exact Or.inr ⟨x, by simp [hx], h⟩
      · intro m' hm' i hi ht
        rw [List.mem_cons] at hm'
        rcases hm' with rfl | hm'
        · exact Or.inr (h3 _ (g5 i hi ht))
        · rw [g1, g2] at h5
          exact h5 m' hm' i hi ht
    rw [installAll]
    cases hg : getModule st.locals m.name with
    | none => exact go (Or.inl (getModule_none.1 hg))
    | some t =>
      simp only
      split
      · apply skip
        obtain ⟨h1, h2⟩ := getModule_some hg
        exact (contains_iff _ _).2 ⟨t, h1, h2⟩
      · next hf =>
        apply go
        right
        cases force with
        | true => exact Or.inl rfl
        | false => exact Or.inr ⟨t, hg, by simpa using hf⟩

/-! ## A whole installation -/

theorem foldl_addModule (cfg : Config) : ∀ (ps : List (String × Text)) (l : List Mod),
    (∀ x ∈ l, x ∈ ps.foldl (fun l p => addModule (requested cfg p) l) l) ∧
    (∀ x ∈ ps.foldl (fun l p => addModule (requested cfg p) l) l, x ∈ l ∨ ∃ p ∈ ps, x = requested cfg p) ∧
    (∀ p ∈ ps, contains (ps.foldl (fun l p => addModule (requested cfg p) l) l) (requested cfg p).name = true)
  | [], l => by simp
  | p :: ps, l => by
    obtain ⟨h1, h2, h3⟩ := foldl_addModule cfg ps (addModule (requested cfg p) l)
    rw [List.foldl_cons]
    refine ⟨fun x hx => h1 x (mem_addModule_of_mem hx), ?_, ?_⟩
    · intro x hx
      rcases h2 x hx with hx | ⟨q, hq, h⟩
      · rcases mem_addModule hx with rfl | hx
        · exact Or.inr ⟨p, by simp, rfl⟩
        · exact Or.inl hx
      · exact Or.inr ⟨q, List.mem_cons_of_mem _ hq, h⟩
    · intro q hq
      rw [List.mem_cons] at hq
      rcases hq with rfl | hq
      · have := (contains_addModule (requested cfg q) l (requested cfg q).name).2 (Or.inl rfl)
        obtain ⟨x, hx, hxn⟩ := (contains_iff _ _).1 this
        exact (contains_iff _ _).2 ⟨x, h1 x hx, hxn⟩
      · exact h3 q hq

/-- The local modules: the interpreter and the modules on disk. -/
theorem contains_collectLocal (product : Mod) (st : St) (name : String) :
    contains (collectLocal product st).locals name = true ↔
      name = product.name ∨ contains st.locals name = true ∨ ∃ v, (name, v) ∈ st.disk := by
  have key : ∀ (d : List (String × Version)) (l : List Mod), contains (d.foldl (fun l e => addModule ⟨e.1, e.2⟩ l) l) name = true ↔
      contains l name = true ∨ ∃ v, (name, v) ∈ d := by
    intro d
    induction d with
    | nil => simp
    | cons e d ih =>
      intro l
      rw [List.foldl_cons, ih, contains_addModule]
      constructor
      · rintro ((h | h) | ⟨v, h⟩)
        · exact Or.inr ⟨e.2, by rw [h]; simp⟩
        · exact Or.inl h
        · exact Or.inr ⟨v, List.mem_cons_of_mem _ h⟩
      · rintro (h | ⟨v, h⟩)
        · exact Or.inl (Or.inr h)
        · rw [List.mem_cons] at h
          rcases h with h | h
          · exact Or.inl (Or.inl (by rw [← h]))
          · exact Or.inr ⟨v, h⟩
  rw [collectLocal]
  simp only
  rw [key, contains_addModule, or_assoc]

/-- What an installation that was not stopped does, in terms of reachability: from a state in which nothing has been
prepared, what is unpacked (`new`) has been described for a needed module. -/
theorem install_spec {srv : Server} {cfg : Config} {product : Mod} {n : Nat} {params : List (String × Text)} {st st' : St}
    (hm : st.missing = []) (hc : st.cache = []) (h : install srv cfg product n params st = .ok st') :
    let L := (collectLocal product st).locals
    let W := fun m => ∃ p ∈ params, Reach srv L (requested cfg p) m
    ∃ new, st'.log = new ++ st.log ∧ (allowed cfg params = false → new = [] ∧ st'.disk = st.disk) ∧
      (∀ n', OnDisk st n' → OnDisk st' n') ∧
      (∀ n', st'.disk.find n' = st.disk.find n' ∨ ∃ x ∈ new, x.name = n' ∧ st'.disk.find n' = some x.version) ∧
      (∀ x ∈ new, (∃ m i, W m ∧ m.name = x.name ∧ srv m.name m.version.toText = some i ∧ i.version = x.version) ∧
        (contains L x.name = false ∨ forced cfg params = true ∨
          ∃ p ∈ params, ∃ t, (requested cfg p).name = x.name ∧ getModule L x.name = some t ∧ t.version.lt (requested cfg p).version = true)) ∧
      (allowed cfg params = true → cfg.skipDeps = false → (∀ m, W m → Usable srv m) → ∀ m, W m →
        contains L m.name = true ∨ OnDisk st' m.name) := by
  intro L W
  rw [install] at h
  by_cases hp : params.isEmpty = true
  · rw [if_pos hp] at h
    simp only [Res.ok.injEq] at h
    subst h
    have hpe : params = [] := by simpa using hp
    subst hpe
    refine ⟨[], rfl, fun _ => ⟨rfl, rfl⟩, fun _ h => h, fun _ => Or.inl rfl, by simp, ?_⟩
    rintro _ _ _ m ⟨p, hp, _⟩
    cases hp
  · rw [if_neg hp] at h
    cases hpa : prepareAll srv cfg n params (collectLocal product st) with
    | fuel => rw [hpa] at h; cases h
    | exit x => rw [hpa] at h; cases h
    | ok s1 =>
      rw [hpa] at h
      have hclosed : Closed srv (collectLocal product st).locals W := by
        rintro m i d ⟨p, hp, hr⟩ hi hd hl
        exact ⟨p, hp, hr.trans_dep hi hd ((not_contains_iff _ _).1 hl)⟩
      obtain ⟨h1, h2⟩ := prepareAll_prepared params _ _ hclosed (fun p hp => ⟨p, hp, .refl _⟩) hpa
      have hL : s1.locals = L := h1.locals
      obtain ⟨f1, f2, f3⟩ := foldl_addModule cfg params s1.missing
      simp only at h
      generalize hs2 : ({ s1 with missing := params.foldl (fun l p => addModule (requested cfg p) l) s1.missing } : St) = s2 at h
      have hs2l : s2.locals = L := by rw [← hs2]; exact hL
      have hs2c : s2.cache = s1.cache := by rw [← hs2]
      have hs2d : s2.disk = st.disk := by rw [← hs2]; exact h1.disk
      have hs2log : s2.log = st.log := by rw [← hs2]; exact h1.log
      have hs2m : s2.missing = params.foldl (fun l p => addModule (requested cfg p) l) s1.missing := by rw [← hs2]
      have hcache : ∀ name info, s2.cache.find name = some info → ∃ m, W m ∧ m.name = name ∧ info = srv m.name m.version.toText := by
        intro name info hf
        rw [hs2c] at hf
        rcases h1.cache name with hx | ⟨m, hm, hmn, hx⟩
        · rw [hx] at hf
          rw [show (collectLocal product st).cache = st.cache from rfl, hc] at hf
          cases hf
        · rw [hx] at hf
          simp only [Option.some.injEq] at hf
          exact ⟨m, hm, hmn, hf.symm⟩
      by_cases hal : allowed cfg params = true
      · rw [if_pos hal] at h
        simp only [Res.ok.injEq] at h
        obtain ⟨g1, g2, g3, ⟨new, g4, g4', gd⟩, g5⟩ := installAll_spec (forced cfg params) s2.missing s2
        rw [← hs2m] at h
        rw [h] at g1 g2 g3 g4 g5 gd
        refine ⟨new, by rw [g4, hs2log], by rw [hal]; nofun, ?_, fun n' => by rw [← hs2d]; exact gd n', ?_, ?_⟩
        · intro n' hn
          apply g3
          obtain ⟨v, hv⟩ := hn
          exact ⟨v, by rw [hs2d]; exact hv⟩
        · intro x hx
          obtain ⟨m, hm', hmn, ⟨i, hi, hiv⟩, hr⟩ := g4' x hx
          refine ⟨?_, ?_⟩
          · obtain ⟨m0, hw, hn0, he⟩ := hcache _ _ hi
            exact ⟨m0, i, hw, hn0, he.symm, hiv⟩
          · rw [hs2l] at hr
            rcases hr with hr | hr | ⟨t, ht, hlt⟩
            · exact Or.inl hr
            · exact Or.inr (Or.inl hr)
            · right; right
              rw [hs2m] at hm'
              rcases f2 m hm' with hm' | ⟨p, hp, rfl⟩
              · rcases h1.new m hm' with hm' | ⟨_, hno⟩
                · rw [show (collectLocal product st).missing = st.missing from rfl, hm] at hm'
                  cases hm'
                · exfalso
                  rw [hmn] at hno
                  rw [getModule_none.2 hno] at ht
                  cases ht
              · exact ⟨p, hp, t, hmn, ht, hlt⟩
        · rintro _ hsk hus m ⟨p, hp', hr⟩
          have hmiss : contains s2.missing m.name = true := by
            rcases prepareAll_reaches hsk params _ _ hpa p hp' m hr with rfl | hx
            · rw [hs2m]; exact f3 p hp'
            · obtain ⟨x, hx, hxn⟩ := (contains_iff _ _).1 hx
              rw [hs2m]
              exact (contains_iff _ _).2 ⟨x, f1 x hx, hxn⟩
          have hfound : ∃ m', W m' ∧ m'.name = m.name ∧ s1.cache.find m.name = some (srv m'.name m'.version.toText) := by
            obtain ⟨x, hx, hxn⟩ := (contains_iff _ _).1 hmiss
            rw [hs2m] at hx
            rcases f2 x hx with hx | ⟨q, hq, rfl⟩
            · have : contains s1.missing m.name = true := (contains_iff _ _).2 ⟨x, hx, hxn⟩
              rcases h1.found m.name this with h' | h'
              · rw [show (collectLocal product st).missing = st.missing from rfl, hm] at h'
                cases h'
              · exact h'
            · rw [← hxn]; exact h2 q hq
          obtain ⟨m', hw', hn', hcf⟩ := hfound
          obtain ⟨i, hi, ht, _⟩ := hus m' hw'
          obtain ⟨x, hx, hxn⟩ := (contains_iff _ _).1 hmiss
          have := g5 x hx i (by rw [hs2c, hxn, hcf, hi]) ht
          rw [hs2l, hxn] at this
          exact this
      · rw [if_neg hal] at h
        simp only [Res.ok.injEq] at h
        subst h
        refine ⟨[], by rw [hs2log]; rfl, fun _ => ⟨rfl, hs2d⟩, ?_, fun _ => Or.inl (by rw [hs2d]), by simp, fun h => absurd h hal⟩
        rintro n' ⟨v, hv⟩
        exact ⟨v, by rw [hs2d]; exact hv⟩

/-! ## Looking up local modules -/

theorem find?_insertMod_ne {m : Mod} {name : String} (h : m.name ≠ name) : ∀ l, getModule (insertMod m l) name = getModule l name
  | [] => by simp [insertMod, getModule, h]
  | y :: ys => by
    rw [insertMod]
    split
    · simp [getModule, h]
    · have := find?_insertMod_ne h ys
      simp only [getModule] at this ⊢
      rw [List.find?_cons, List.find?_cons, this]

theorem find?_insertMod_self {m : Mod} : ∀ l, contains l m.name = false → getModule (insertMod m l) m.name = some m
  | [], _ => by simp [insertMod, getModule]
  | y :: ys, h => by
    rw [insertMod]
    have hy : y.name ≠ m.name := (not_contains_iff _ _).1 h y (by simp)
    have hys : contains ys m.name = false := (not_contains_iff _ _).2 fun x hx => (not_contains_iff _ _).1 h x (List.mem_cons_of_mem _ hx)
    split
    · simp [getModule]
    · have := find?_insertMod_self ys hys
      simp only [getModule] at this ⊢
      rw [List.find?_cons, this]
      simp [hy]

theorem getModule_addModule (m : Mod) (l : List Mod) (name : String) :
    getModule (addModule m l) name =
      if contains l name then getModule l name else if m.name = name then some m else none := by
  by_cases hc : contains l m.name = true
  · rw [addModule, if_pos hc]
    by_cases hn : contains l name = true
    · rw [if_pos hn]
    · rw [if_neg hn]
      by_cases he : m.name = name
      · rw [he] at hc; exact absurd hc hn
      · rw [if_neg he]
        exact getModule_none.2 (by simpa using hn)
  · rw [addModule, if_neg hc]
    by_cases he : m.name = name
    · rw [← he, if_neg hc, if_pos rfl]
      exact find?_insertMod_self l (by simpa using hc)
    · rw [find?_insertMod_ne he, if_neg he]
      by_cases hn : contains l name = true
      · rw [if_pos hn]
      · rw [if_neg hn]
        exact getModule_none.2 (by simpa using hn)

theorem getModule_foldl (name : String) : ∀ (d : AMap String Version) (l : List Mod),
    getModule (d.foldl (fun l e => addModule ⟨e.1, e.2⟩ l) l) name =
      if contains l name then getModule l name else (d.find name).map (⟨name, ·⟩)
  | [], l => by
    rw [List.foldl_nil]
    split
    · rfl
    · next h => exact getModule_none.2 (by simpa using h)
  | (k, v) :: d, l => by
    rw [List.foldl_cons, getModule_foldl name d, getModule_addModule]
    by_cases hc : contains l name = true
    · have : contains (addModule ⟨k, v⟩ l) name = true := (contains_addModule _ _ _).2 (Or.inr hc)
      rw [if_pos this, if_pos hc, if_pos hc]
    · rw [if_neg hc, if_neg hc]
      by_cases hk : k = name
      · subst hk
        have : contains (addModule ⟨k, v⟩ l) k = true := (contains_addModule _ _ _).2 (Or.inl rfl)
        rw [if_pos this, if_pos rfl]
        simp [AMap.find]
      · have : ¬ contains (addModule ⟨k, v⟩ l) name = true := by
          intro h
          rcases (contains_addModule _ _ _).1 h with h | h
          · exact hk h.symm
          · exact hc h
        rw [if_neg this]
        simp [AMap.find, hk]

theorem getModule_collectLocal_old {product : Mod} {st : St} {name : String} (h : contains st.locals name = true) :
    getModule (collectLocal product st).locals name = getModule st.locals name := by
  rw [collectLocal]
  simp only
  rw [getModule_foldl, if_pos ((contains_addModule _ _ _).2 (Or.inr h)), getModule_addModule, if_pos h]

theorem getModule_collectLocal {product : Mod} {st : St} {name : String} (h : contains st.locals name = false) (hp : name ≠ product.name) :
    getModule (collectLocal product st).locals name = (st.disk.find name).map (⟨name, ·⟩) := by
  rw [collectLocal]
  simp only
  rw [getModule_foldl, if_neg]
  intro hc
  rcases (contains_addModule _ _ _).1 hc with h' | h'
  · exact hp h'
  · rw [h] at h'; cases h'

/-! ## Versions -/

theorem eq_fields {a b : Version} : a.eq b = true ↔
    a.major = b.major ∧ a.minor = b.minor ∧ a.bugfix = b.bugfix ∧ a.label = b.label ∧ a.metadata = b.metadata := by
  simp [Version.eq, and_assoc]

theorem lt_congr_right {a b c : Version} (h : b.eq c = true) : a.lt b = a.lt c := by
  obtain ⟨h1, h2, h3, h4, h5⟩ := eq_fields.1 h
  simp [Version.lt, h1, h2, h3, h4, h5]

theorem lt_congr_left {a b c : Version} (h : a.eq b = true) : a.lt c = b.lt c := by
  obtain ⟨h1, h2, h3, h4, h5⟩ := eq_fields.1 h
  simp [Version.lt, h1, h2, h3, h4, h5]

theorem Regular.congr {a b : Version} (h : a.eq b = true) (hb : Regular b) : Regular a := by
  obtain ⟨h1, h2, h3, h4, h5⟩ := eq_fields.1 h
  obtain ⟨⟨r1, r2, r3⟩, hb, hl⟩ := hb
  exact ⟨⟨h1 ▸ r1, h2 ▸ r2, h3 ▸ r3⟩, h3 ▸ hb, h4 ▸ hl⟩

theorem Regular.reparsed {v : Version} (h : Regular v) : Regular (Version.ofText v.toText) ∧ (Version.ofText v.toText).eq v = true := by
  have := (version_roundtrip v h.1).2 h.2
  exact ⟨h.congr this, this⟩

theorem regular_default : Regular (Version.ofText []) := by
  unfold Regular Version.InRange inInt32
  decide

theorem requested_regular {cfg : Config} {p : String × Text} (hr : ∀ r ∈ cfg.remote, Regular r.version) (hp : p.2 = []) :
    Regular (requested cfg p).version := by
  rw [requested, hp]
  simp only [List.isEmpty_nil, if_true]
  cases hg : getModule cfg.remote p.1 with
  | none => exact regular_default
  | some m => exact (hr m (getModule_some hg).1).reparsed.1

theorem requested_name (cfg : Config) (p : String × Text) : (requested cfg p).name = p.1 := by
  rw [requested]
  split
  · split <;> rfl
  · rfl

theorem checkRestrictions_iff (rs : List Restriction) (m : Mod) : checkRestrictions rs m = true ↔ Respects rs m := by
  rw [checkRestrictions, List.all_eq_true]
  constructor
  · intro h r hr hn
    have := h r hr
    rw [hn] at this
    cases hmin : r.min.valid <;> cases hmax : r.max.valid <;> simp_all
  · intro h r hr
    by_cases hn : r.name = m.name
    · have := h r hr hn
      cases hmin : r.min.valid <;> cases hmax : r.max.valid <;> simp_all
    · simp [hn]

theorem Respects.congr {rs : List Restriction} {a b : Mod} (hn : a.name = b.name) (h : a.version.eq b.version = true) (hb : Respects rs b) :
    Respects rs a := by
  intro r hr hra
  have := hb r hr (hra.trans hn)
  rw [lt_congr_left h, lt_congr_right h]
  exact this

/-! ## Nothing is replaced by something older -/

/-- What holds during a run without forced versions, in terms of the modules `L0` installed when it began: their
entries in the two repositories and the cached descriptions are those asked for without a version. -/
structure Steady (srv : Server) (cfg : Config) (L0 : List Mod) (st0 st : St) : Prop where
  locals : ∀ name, contains L0 name = true → getModule st.locals name = getModule L0 name
  missing : ∀ m ∈ st.missing, contains L0 m.name = true → m = requested cfg (m.name, [])
  cache : ∀ name info, contains L0 name = true → st.cache.find name = some info → info = srv name (requested cfg (name, [])).version.toText
  done : ∃ new, st.log = new ++ st0.log ∧ (∀ x ∈ new, ∀ t, getModule L0 x.name = some t → t.version.lt x.version = true) ∧
    ∀ name, st.disk.find name = st0.disk.find name ∨ ∃ x ∈ new, x.name = name ∧ st.disk.find name = some x.version

theorem contains_of_getModule {l : List Mod} {name : String} {t : Mod} (h : getModule l name = some t) : contains l name = true := by
  obtain ⟨h1, h2⟩ := getModule_some h
  exact (contains_iff _ _).2 ⟨t, h1, h2⟩

theorem getModule_of_contains {l : List Mod} {name : String} (h : contains l name = true) : ∃ t, getModule l name = some t := by
  cases hg : getModule l name with
  | some t => exact ⟨t, rfl⟩
  | none => rw [getModule_none.1 hg] at h; cases h

theorem Steady.contains {srv : Server} {cfg : Config} {L0 : List Mod} {st0 st : St} (h : Steady srv cfg L0 st0 st) {name : String}
    (hc : contains L0 name = true) : contains st.locals name = true := by
  obtain ⟨t, ht⟩ := getModule_of_contains hc
  exact contains_of_getModule ((h.locals name hc).trans ht)

theorem Steady.collect {srv : Server} {cfg : Config} {L0 : List Mod} {st0 st : St} (product : Mod) (h : Steady srv cfg L0 st0 st) :
    Steady srv cfg L0 st0 (collectLocal product st) where
  locals := fun name hc => by rw [getModule_collectLocal_old (h.contains hc)]; exact h.locals name hc
  missing := h.missing
  cache := h.cache
  done := h.done

theorem install_steady {srv : Server} {cfg : Config} {product : Mod} {n : Nat} {params : List (String × Text)} {L0 : List Mod} {st0 st st' : St}
    (hf : Faithful srv) (hr : ∀ r ∈ cfg.remote, Regular r.version) (hforce : cfg.force = false) (hpar : ∀ p ∈ params, p.2 = [])
    (hne : params ≠ []) (hs' : Steady srv cfg L0 st0 (collectLocal product st)) (h : install srv cfg product n params st = .ok st') :
    Steady srv cfg L0 st0 st' := by
  rw [install] at h
  by_cases hp : params.isEmpty = true
  · exact absurd (by simpa using hp) hne
  · rw [if_neg hp] at h
    cases hpa : prepareAll srv cfg n params (collectLocal product st) with
    | fuel => rw [hpa] at h; cases h
    | exit x => rw [hpa] at h; cases h
    | ok s1 =>
      rw [hpa] at h
      have hself : ∀ p ∈ params, requested cfg p = requested cfg ((requested cfg p).name, []) := by
        intro p hp
        rw [requested_name]
        have : p = (p.1, []) := by rw [← hpar p hp]
        rw [← this]
      obtain ⟨h1, -⟩ := prepareAll_prepared (W := fun m => Pkg.contains L0 m.name = true → m = requested cfg (m.name, [])) params _ _
        (fun m i d _ _ _ hl hc => by rw [hs'.contains hc] at hl; cases hl) (fun p hp _ => hself p hp) hpa
      obtain ⟨f1, f2, f3⟩ := foldl_addModule cfg params s1.missing
      simp only at h
      generalize hs2 : ({ s1 with missing := params.foldl (fun l p => addModule (requested cfg p) l) s1.missing } : St) = s2 at h
      have hs2m : s2.missing = params.foldl (fun l p => addModule (requested cfg p) l) s1.missing := by rw [← hs2]
      have hs2l : s2.locals = (collectLocal product st).locals := by rw [← hs2]; exact h1.locals
      have hs2c : s2.cache = s1.cache := by rw [← hs2]
      have hs2d : s2.disk = st.disk := by rw [← hs2]; exact h1.disk
      have hs2log : s2.log = st.log := by rw [← hs2]; exact h1.log
      have st2 : Steady srv cfg L0 st0 s2 := by
        refine ⟨?_, ?_, ?_, ?_⟩
        · rw [hs2l]; exact hs'.locals
        · rw [hs2m]
          intro m hm hc
          rcases f2 m hm with hm | ⟨p, hp, rfl⟩
          · rcases h1.new m hm with hm | ⟨hW, -⟩
            · exact hs'.missing m hm hc
            · exact hW hc
          · exact hself p hp
        · rw [hs2c]
          intro name info hc hi
          rcases h1.cache name with hx | ⟨m, hW, hn, hx⟩
          · rw [hx] at hi; exact hs'.cache name info hc hi
          · rw [hx] at hi
            simp only [Option.some.injEq] at hi
            rw [← hi, hn, hW (by rw [hn]; exact hc), hn]
        · rw [hs2log, hs2d]; exact hs'.done
      have hfo : forced cfg params = false := by
        rw [forced, hforce, Bool.false_or, List.any_eq_false]
        intro p hp
        rw [hpar p hp]
        simp
      by_cases hal : allowed cfg params = true
      · rw [if_pos hal, hfo, ← hs2m] at h
        simp only [Res.ok.injEq] at h
        obtain ⟨g1, g2, g3, ⟨new, g4, g4', gd⟩, g5⟩ := installAll_spec false s2.missing s2
        have g0 : (installAll false s2.missing s2).missing = s2.missing := installAll_missing _ _ _
        rw [h] at g1 g2 g3 g4 gd g0
        refine ⟨by rw [g1]; exact st2.locals, by rw [g0]; exact st2.missing, by rw [g2]; exact st2.cache, ?_⟩
        obtain ⟨new0, d1, d2, d3⟩ := st2.done
        refine ⟨new ++ new0, by rw [g4, d1, List.append_assoc], ?_, ?_⟩
        · intro x hx t ht
          rw [List.mem_append] at hx
          rcases hx with hx | hx
          · obtain ⟨m, hm, hmn, ⟨i, hi, hiv⟩, hr'⟩ := g4' x hx
            have hc := contains_of_getModule ht
            have hmr := st2.missing m hm (by rw [hmn]; exact hc)
            have hci := st2.cache _ _ hc hi
            have hreg : Regular (requested cfg (x.name, [])).version := requested_regular hr rfl
            have hev := hf _ _ _ hreg hci.symm
            rcases hr' with hr' | hr' | ⟨t', ht', hlt⟩
            · rw [st2.contains hc] at hr'; cases hr'
            · cases hr'
            · rw [st2.locals _ hc, ht] at ht'
              simp only [Option.some.injEq] at ht'
              subst ht'
              rw [hmr, hmn] at hlt
              rw [← hiv, lt_congr_right hev]
              exact hlt
          · exact d2 x hx t ht
        · intro name
          rcases gd name with hd | ⟨x, hx, hd⟩
          · rw [hd]
            rcases d3 name with hd | ⟨x, hx, hd⟩
            · exact Or.inl hd
            · exact Or.inr ⟨x, by simp [hx], hd⟩
          · exact Or.inr ⟨x, by simp [hx], hd⟩
      · rw [if_neg hal] at h
        simp only [Res.ok.injEq] at h
        subst h
        exact st2

theorem upgradeAll_steady {srv : Server} {cfg : Config} {product : Mod} {n : Nat} {L0 : List Mod} {st0 : St}
    (hf : Faithful srv) (hr : ∀ r ∈ cfg.remote, Regular r.version) (hforce : cfg.force = false) : ∀ (ms : List Mod) (st st' : St),
    Steady srv cfg L0 st0 st → upgradeAll srv cfg product n ms st = .ok st' → Steady srv cfg L0 st0 st'
  | [], st, st', hs, h => by
    simp only [upgradeAll, Res.ok.injEq] at h
    subst h
    exact hs
  | m :: ms, st, st', hs, h => by
    rw [upgradeAll] at h
    cases hi : install srv cfg product n [(m.name, [])] st with
    | fuel => rw [hi] at h; cases h
    | exit x => rw [hi] at h; cases h
    | ok s1 =>
      rw [hi] at h
      exact upgradeAll_steady hf hr hforce ms s1 st' (install_steady hf hr hforce (by simp) (by simp) (hs.collect product) hi) h

theorem steady_start (srv : Server) (cfg : Config) (product : Mod) {st : St} (hm : st.missing = []) (hc : st.cache = []) :
    Steady srv cfg (collectLocal product st).locals st (collectLocal product st) where
  locals := fun _ _ => rfl
  missing := by rw [show (collectLocal product st).missing = st.missing from rfl, hm]; nofun
  cache := by rw [show (collectLocal product st).cache = st.cache from rfl, hc]; nofun
  done := ⟨[], rfl, by simp, fun _ => Or.inl rfl⟩

/-! ## Termination -/

theorem prepareDeps_fuel {srv : Server} {cfg : Config} {L : List Mod} : ∀ (ds : List Dep),
    (∀ d ∈ ds, (∀ l ∈ L, l.name ≠ d.name) → ∃ N, ∀ n, N ≤ n → ∀ st : St, st.locals = L → prepare srv cfg n ⟨d.name, Version.ofText d.min⟩ st ≠ .fuel) →
    ∃ N, ∀ n, N ≤ n → ∀ st : St, st.locals = L → prepareDeps (prepare srv cfg n) ds st ≠ .fuel
  | [], _ => ⟨0, by intro n _ st _ h; cases h⟩
  | d :: ds, hd => by
    obtain ⟨N, hN⟩ := prepareDeps_fuel (srv := srv) (cfg := cfg) (L := L) ds (fun x hx => hd x (List.mem_cons_of_mem _ hx))
    by_cases hl : contains L d.name = true
    · refine ⟨N, ?_⟩
      intro n hn st hst h
      rw [prepareDeps, hst, if_pos hl] at h
      exact hN n hn st hst h
    · have hl' : contains L d.name = false := by simpa using hl
      obtain ⟨M, hM⟩ := hd d (by simp) ((not_contains_iff _ _).1 hl')
      refine ⟨max M N, ?_⟩
      intro n hn st hst h
      rw [prepareDeps, if_neg (by rw [hst]; exact hl)] at h
      simp only at h
      cases hp : prepare srv cfg n ⟨d.name, Version.ofText d.min⟩ { st with missing := addModule ⟨d.name, Version.ofText d.min⟩ st.missing } with
      | fuel => exact hM n (by omega) _ (by exact hst) hp
      | exit x => rw [hp] at h; cases h
      | ok s1 =>
        rw [hp] at h
        obtain ⟨h1, _⟩ := prepare_prepared (W := fun _ => True) n _ _ _ (fun _ _ _ _ _ _ _ => trivial) trivial hp
        exact hN n (by omega) s1 (h1.locals.trans hst) h

theorem prepare_fuel {srv : Server} {cfg : Config} {L : List Mod} {m : Mod} (ha : Acc (Needs srv L) m) :
    ∃ N, ∀ n, N ≤ n → ∀ st : St, st.locals = L → prepare srv cfg n m st ≠ .fuel := by
  induction ha with
  | intro m _ ih =>
    cases hi : srv m.name m.version.toText with
    | none =>
      refine ⟨1, ?_⟩
      intro n hn st hst h
      obtain ⟨k, rfl⟩ : ∃ k, n = k + 1 := ⟨n - 1, by omega⟩
      rw [prepare, hi] at h
      simp only at h
      split at h <;> cases h
    | some i =>
      obtain ⟨N, hN⟩ := prepareDeps_fuel (srv := srv) (cfg := cfg) (L := L) i.deps
        (fun d hd hl => ih _ ⟨i, d, hi, hd, hl, rfl⟩)
      refine ⟨N + 1, ?_⟩
      intro n hn st hst h
      obtain ⟨k, rfl⟩ : ∃ k, n = k + 1 := ⟨n - 1, by omega⟩
      rw [prepare, hi] at h
      simp only at h
      split at h
      · cases h
      · split at h
        · cases h
        · exact hN k (by omega) _ (by exact hst) h

theorem prepareAll_fuel {srv : Server} {cfg : Config} {L : List Mod} : ∀ (ps : List (String × Text)),
    (∀ p ∈ ps, Acc (Needs srv L) (requested cfg p)) →
    ∃ N, ∀ n, N ≤ n → ∀ st : St, st.locals = L → prepareAll srv cfg n ps st ≠ .fuel
  | [], _ => ⟨0, by intro n _ st _ h; cases h⟩
  | p :: ps, hp => by
    obtain ⟨N, hN⟩ := prepareAll_fuel (srv := srv) (cfg := cfg) (L := L) ps (fun x hx => hp x (List.mem_cons_of_mem _ hx))
    obtain ⟨M, hM⟩ := prepare_fuel (cfg := cfg) (hp p (by simp))
    refine ⟨max M N, ?_⟩
    intro n hn st hst h
    rw [prepareAll] at h
    cases hpr : prepare srv cfg n (requested cfg p) st with
    | fuel => exact hM n (by omega) _ hst hpr
    | exit x => rw [hpr] at h; cases h
    | ok s1 =>
      rw [hpr] at h
      obtain ⟨h1, _⟩ := prepare_prepared (W := fun _ => True) n _ _ _ (fun _ _ _ _ _ _ _ => trivial) trivial hpr
      exact hN n (by omega) s1 (h1.locals.trans hst) h

end Pkg
end Verif
