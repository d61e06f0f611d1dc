import Verif.Pkg.Lemmas

/-!
# What the package manager guarantees

The specification (`Reach`, `Needs`, `Respects`, `Regular`, `Faithful`, `Usable`, `OnDisk`) is at the beginning of
`Verif.Pkg.Lemmas`.  A run begins with an empty repository of missing modules, an empty cache and no local
modules (`Fresh`): the local modules are collected from the disk.
-/

namespace Verif
namespace Pkg

open SemVer Str

/-- The beginning of a run. -/
def Fresh (st : St) : Prop := st.locals = [] ∧ st.missing = [] ∧ st.cache = []

/-! ## A repository for the examples -/

def t (s : String) : Text := s.toList

/-- `lib 1.0.0` needs `base`, at least 1.0.0; `app 2.0.0` needs `lib`, at least 1.0.0. -/
def shop : Server := fun name v =>
  if name = "base" ∧ (v = t "1.0.0" ∨ v = t "1.5.0" ∨ v = t "2.0.0") then some ⟨Version.ofText v, [], true, true⟩
  else if name = "lib" ∧ v = t "1.0.0" then some ⟨Version.ofText v, [⟨"base", t "1.0.0", []⟩], true, true⟩
  else if name = "app" ∧ v = t "2.0.0" then some ⟨Version.ofText v, [⟨"lib", t "1.0.0", []⟩], true, true⟩
  else none

def slang : Mod := ⟨"Slang", Version.ofText (t "0.7.2")⟩

def index : List Mod := [⟨"app", Version.ofText (t "2.0.0")⟩, ⟨"base", Version.ofText (t "1.5.0")⟩, ⟨"lib", Version.ofText (t "1.0.0")⟩]

/-- A run that ended normally, in a state with a property. -/
def Res.holds (r : Res) (P : St → Bool) : Bool :=
  match r with
  | .ok st => P st
  | _ => false

theorem Res.of_holds {r : Res} {P : St → Bool} (h : r.holds P = true) : ∃ st', r = .ok st' ∧ P st' = true := by
  cases r with
  | ok st => exact ⟨st, rfl, h⟩
  | exit st => cases h
  | fuel => cases h

/-- The versions on disk, as text. -/
def St.listing (st : St) : List (String × Text) := st.disk.map fun e => (e.1, e.2.toText)

def disk (l : List (String × String)) : AMap String Version := l.map fun e => (e.1, Version.ofText (t e.2))

example : ((install shop { remote := index } slang 5 [("app", [])] {}).holds fun st =>
    st.listing = [("app", t "2.0.0"), ("base", t "1.0.0"), ("lib", t "1.0.0")]) = true := by decide +kernel

theorem shop_faithful : Faithful shop := by
  intro name v i hv h
  have := hv.reparsed.2
  rw [shop] at h
  repeat' split at h
  all_goals (simp only [Option.some.injEq, reduceCtorEq] at h; try subst h; try exact this)

theorem index_regular : ∀ r ∈ index, Regular r.version := by
  unfold Regular Version.InRange inInt32
  decide +kernel

theorem onDisk_of_mem {st : St} {name : String} {v : Version} (h : (name, v) ∈ st.disk) : OnDisk st name := by
  cases hf : st.disk.find name with
  | some u => exact ⟨u, hf⟩
  | none =>
    have := (AMap.find_eq_none_iff name st.disk).1 hf
    exact absurd (List.mem_map.2 ⟨_, h, rfl⟩) this

theorem local_of_fresh {product : Mod} {st : St} (hf : Fresh st) {name : String} :
    contains (collectLocal product st).locals name = true ↔ name = product.name ∨ OnDisk st name := by
  rw [contains_collectLocal, hf.1]
  constructor
  · rintro (h | h | ⟨v, h⟩)
    · exact Or.inl h
    · cases h
    · exact Or.inr (onDisk_of_mem h)
  · rintro (h | ⟨v, h⟩)
    · exact Or.inl h
    · exact Or.inr (Or.inr ⟨v, AMap.mem_of_find h⟩)

/-! ## C57 — resolution of dependencies -/

/-- An installation ends if no chain of dependencies that are not installed goes on for ever (`Acc`: the
requested modules are in the well-founded part of the dependency relation). -/
theorem resolution_terminates_partial (srv : Server) (cfg : Config) (product : Mod) (params : List (String × Text)) (st : St)
    (h : ∀ p ∈ params, Acc (Needs srv (collectLocal product st).locals) (requested cfg p)) :
    ∃ N, ∀ n, N ≤ n → install srv cfg product n params st ≠ .fuel := by
  obtain ⟨N, hN⟩ := prepareAll_fuel (srv := srv) (cfg := cfg) (L := (collectLocal product st).locals) params h
  refine ⟨N, ?_⟩
  intro n hn hi
  rw [install] at hi
  split at hi
  · cases hi
  · cases hp : prepareAll srv cfg n params (collectLocal product st) with
    | fuel => exact hN n hn _ rfl hp
    | exit x => rw [hp] at hi; cases hi
    | ok s1 =>
      rw [hp] at hi
      simp only at hi
      split at hi <;> cases hi

/-- The chains of the example end: `app`, `lib`, `base`. -/
theorem shop_acc (L : List Mod) (m : Mod) : Acc (Needs shop L) m := by
  have rank : ∀ m' m, Needs shop L m' m →
      (if m'.name = "app" then 2 else if m'.name = "lib" then 1 else 0) < (if m.name = "app" then 2 else if m.name = "lib" then 1 else 0) := by
    rintro m' m ⟨i, d, hi, hd, _, rfl⟩
    rw [shop] at hi
    split at hi
    · simp only [Option.some.injEq] at hi; subst hi; simp at hd
    · split at hi
      · next h => simp only [Option.some.injEq] at hi; subst hi; simp at hd; subst hd; simp [h.1]
      · split at hi
        · next h => simp only [Option.some.injEq] at hi; subst hi; simp at hd; subst hd; simp [h.1]
        · cases hi
  exact (Subrelation.wf (fun {a b} h => rank a b h)
    (InvImage.wf (fun m : Mod => if m.name = "app" then 2 else if m.name = "lib" then 1 else 0) Nat.lt_wfRel.wf)).apply m

example : ∃ N, ∀ n, N ≤ n → install shop { remote := index } slang n [("app", []), ("base", [])] {} ≠ .fuel :=
  resolution_terminates_partial _ _ _ _ _ fun _ _ => shop_acc _ _

/-- Two modules that need each other. -/
def ring : Server := fun name v =>
  if name = "ping" then some ⟨Version.ofText v, [⟨"pong", t "1.0.0", []⟩], true, true⟩
  else if name = "pong" then some ⟨Version.ofText v, [⟨"ping", t "1.0.0", []⟩], true, true⟩
  else none

theorem ring_fuel (cfg : Config) (hs : cfg.skipDeps = false) : ∀ (n : Nat) (m : Mod) (st : St), m.name = "ping" ∨ m.name = "pong" →
    contains st.locals "ping" = false → contains st.locals "pong" = false → prepare ring cfg n m st = .fuel
  | 0, _, _, _, _, _ => rfl
  | n + 1, m, st, hm, h1, h2 => by
    rcases hm with hm | hm
    · have : ring m.name m.version.toText = some ⟨Version.ofText m.version.toText, [⟨"pong", t "1.0.0", []⟩], true, true⟩ := by
        rw [ring, if_pos hm]
      rw [prepare, this]
      simp only [hs, prepareDeps, h2]
      rw [ring_fuel cfg hs n _ _ (Or.inr rfl) (by exact h1) (by exact h2)]
      rfl
    · have : ring m.name m.version.toText = some ⟨Version.ofText m.version.toText, [⟨"ping", t "1.0.0", []⟩], true, true⟩ := by
        rw [ring, if_neg (by rw [hm]; decide), if_pos hm]
      rw [prepare, this]
      simp only [hs, prepareDeps, h1]
      rw [ring_fuel cfg hs n _ _ (Or.inl rfl) (by exact h1) (by exact h2)]
      rfl

/-- Resolution does not terminate when two modules on the server depend on each other: it never comes to an end, however
many steps are allowed. -/
theorem cyclic_dependencies_refuted :
    ¬ ∀ (srv : Server) (params : List (String × Text)) (st : St), Fresh st → ∃ n, install srv {} slang n params st ≠ .fuel := by
  intro h
  obtain ⟨n, hn⟩ := h ring [("ping", t "1.0.0")] {} ⟨rfl, rfl, rfl⟩
  apply hn
  rw [install, if_neg (by decide), prepareAll]
  rw [ring_fuel {} rfl n _ _ (Or.inl (requested_name _ _)) (by decide) (by decide)]

/-- After an installation that went through, every module needed for the requested ones — following the dependencies of
the descriptions on the server, with their minimal versions, up to modules that were already installed — is installed or
is the interpreter itself, provided that the server has an installable description of each of them, the requested modules
respect the restrictions and dependencies are not skipped.

What is missing: dependencies of modules that are already installed are not looked at, and a dependency is always looked for
in its minimal version (see the refutations below). -/
theorem dependencies_installed_partial {srv : Server} {cfg : Config} {product : Mod} {n : Nat} {params : List (String × Text)} {st st' : St}
    (hf : Fresh st) (h : install srv cfg product n params st = .ok st')
    (hr : ∀ p ∈ params, Respects cfg.restrictions (requested cfg p)) (hs : cfg.skipDeps = false)
    (hu : ∀ p ∈ params, ∀ m, Reach srv (collectLocal product st).locals (requested cfg p) m → Usable srv m) :
    ∀ p ∈ params, ∀ m, Reach srv (collectLocal product st).locals (requested cfg p) m → m.name = product.name ∨ OnDisk st' m.name := by
  obtain ⟨new, _, _, h3, _, _, h6⟩ := install_spec hf.2.1 hf.2.2 h
  have hal : allowed cfg params = true := by
    rw [allowed, List.all_eq_true]
    exact fun p hp => (checkRestrictions_iff _ _).2 (hr p hp)
  intro p hp m hm
  rcases h6 hal hs (by rintro m ⟨p, hp, hr⟩; exact hu p hp m hr) m ⟨p, hp, hm⟩ with h | h
  · rcases (local_of_fresh hf).1 h with h | h
    · exact Or.inl h
    · exact Or.inr (h3 _ h)
  · exact Or.inr h

/-- In the example everything `app` needs can be installed. -/
theorem shop_usable (L : List Mod) (m m' : Mod) (h : Reach shop L m m') (hu : Usable shop m) : Usable shop m' := by
  have u1 : Usable shop ⟨"lib", Version.ofText (t "1.0.0")⟩ :=
    ⟨⟨Version.ofText (t "1.0.0"), [⟨"base", t "1.0.0", []⟩], true, true⟩, by decide +kernel, rfl, rfl⟩
  have u2 : Usable shop ⟨"base", Version.ofText (t "1.0.0")⟩ :=
    ⟨⟨Version.ofText (t "1.0.0"), [], true, true⟩, by decide +kernel, rfl, rfl⟩
  induction h with
  | refl m => exact hu
  | dep hi hd _ _ ih =>
    apply ih
    rw [shop] at hi
    split at hi
    · simp only [Option.some.injEq] at hi; subst hi; simp at hd
    · split at hi
      · simp only [Option.some.injEq] at hi; subst hi; simp at hd; subst hd; exact u2
      · split at hi
        · simp only [Option.some.injEq] at hi; subst hi; simp at hd; subst hd; exact u1
        · cases hi

example : ∃ st', install shop { remote := index } slang 5 [("app", [])] {} = .ok st' ∧ OnDisk st' "base" := by
  obtain ⟨st', h, -⟩ := Res.of_holds (r := install shop { remote := index } slang 5 [("app", [])] {}) (P := fun _ => true) (by decide +kernel)
  refine ⟨st', h, ?_⟩
  have ua : Usable shop (requested { remote := index } ("app", [])) :=
    ⟨⟨Version.ofText (t "2.0.0"), [⟨"lib", t "1.0.0", []⟩], true, true⟩, by decide +kernel, rfl, rfl⟩
  have reach : Reach shop (collectLocal slang {}).locals (requested { remote := index } ("app", [])) ⟨"base", Version.ofText (t "1.0.0")⟩ := by
    refine .dep (i := ⟨Version.ofText (t "2.0.0"), [⟨"lib", t "1.0.0", []⟩], true, true⟩) (d := ⟨"lib", t "1.0.0", []⟩)
      (by decide +kernel) (by simp) (by decide +kernel) ?_
    refine .dep (i := ⟨Version.ofText (t "1.0.0"), [⟨"base", t "1.0.0", []⟩], true, true⟩) (d := ⟨"base", t "1.0.0", []⟩)
      (by decide +kernel) (by simp) (by decide +kernel) (.refl _)
  have := dependencies_installed_partial ⟨rfl, rfl, rfl⟩ h (by intro p _ r hr; cases hr) rfl
    (by intro p hp m hm; rw [List.mem_singleton] at hp; subst hp; exact shop_usable _ _ _ hm ua) ("app", []) (by simp) _ reach
  rcases this with h | h
  · exact absurd h (by decide)
  · exact h

/-- A server on which `tool 1.0.0` needs `base` in any version (no minimal version), and of `base` there is 1.0.0. -/
def anyBase : Server := fun name v =>
  if name = "tool" ∧ v = t "1.0.0" then some ⟨Version.ofText v, [⟨"base", [], []⟩], true, true⟩ else shop name v

/-- A dependency without a minimal version is not installed although the server has the module: version 0.0.0 is asked for. -/
theorem dependency_without_version_refuted :
    ¬ ∀ (srv : Server) (cfg : Config) (n : Nat) (p : String × Text) (st st' : St) (i : Info) (d : Dep) (r : Mod), Fresh st →
      cfg.skipDeps = false → srv (requested cfg p).name (requested cfg p).version.toText = some i → d ∈ i.deps →
      r ∈ cfg.remote → r.name = d.name → Usable srv r →
      install srv cfg slang n [p] st = .ok st' → OnDisk st' d.name := by
  intro h
  obtain ⟨st', he, hd⟩ := Res.of_holds (r := install anyBase { remote := index } slang 5 [("tool", t "1.0.0")] {})
    (P := fun st => st.disk.find "base" = none) (by decide +kernel)
  obtain ⟨v, hv⟩ := h anyBase { remote := index } 5 ("tool", t "1.0.0") {} st' ⟨Version.ofText (t "1.0.0"), [⟨"base", [], []⟩], true, true⟩ ⟨"base", [], []⟩
    ⟨"base", Version.ofText (t "1.5.0")⟩ ⟨rfl, rfl, rfl⟩ rfl (by decide +kernel) (by simp) (by decide +kernel) rfl
    ⟨⟨Version.ofText (t "1.5.0"), [], true, true⟩, by decide +kernel, rfl, rfl⟩ he
  simp only [decide_eq_true_eq] at hd
  have hv' : st'.disk.find "base" = some v := hv
  rw [hd] at hv'
  cases hv'

/-- Dependencies of a module that is already installed are not looked at: with `lib` on disk but not the `base` it needs,
installing `app`, which needs `lib`, leaves `base` missing. -/
theorem dependency_of_installed_refuted :
    ¬ ∀ (srv : Server) (cfg : Config) (n : Nat) (p : String × Text) (st st' : St) (m : Mod), Fresh st → cfg.skipDeps = false →
      Reach srv [] (requested cfg p) m → Usable srv m → install srv cfg slang n [p] st = .ok st' → OnDisk st' m.name := by
  intro h
  obtain ⟨st', he, hd⟩ := Res.of_holds (r := install shop { remote := index } slang 5 [("app", [])] { disk := disk [("lib", "1.0.0")] })
    (P := fun st => st.disk.find "base" = none) (by decide +kernel)
  have reach : Reach shop [] (requested { remote := index } ("app", [])) ⟨"base", Version.ofText (t "1.0.0")⟩ := by
    refine .dep (i := ⟨Version.ofText (t "2.0.0"), [⟨"lib", t "1.0.0", []⟩], true, true⟩) (d := ⟨"lib", t "1.0.0", []⟩)
      (by decide +kernel) (by simp) (by simp) ?_
    refine .dep (i := ⟨Version.ofText (t "1.0.0"), [⟨"base", t "1.0.0", []⟩], true, true⟩) (d := ⟨"base", t "1.0.0", []⟩)
      (by decide +kernel) (by simp) (by simp) (.refl _)
  obtain ⟨v, hv⟩ := h shop { remote := index } 5 ("app", []) { disk := disk [("lib", "1.0.0")] } st' _ ⟨rfl, rfl, rfl⟩ rfl reach
    ⟨⟨Version.ofText (t "1.0.0"), [], true, true⟩, by decide +kernel, rfl, rfl⟩ he
  simp only [decide_eq_true_eq] at hd
  have hv' : st'.disk.find "base" = some v := hv
  rw [hd] at hv'
  cases hv'

/-! ## C56 — restrictions -/

/-- A restriction read from texts. -/
def restriction (name min max : String) : Restriction := ⟨name, Version.ofText (t min), Version.ofText (t max)⟩

/-- If one of the requested modules violates a restriction, nothing at all is installed. -/
theorem violating_request_installs_nothing {srv : Server} {cfg : Config} {product : Mod} {n : Nat} {params : List (String × Text)} {st st' : St}
    (hf : Fresh st) (h : install srv cfg product n params st = .ok st') (hv : ∃ p ∈ params, ¬ Respects cfg.restrictions (requested cfg p)) :
    st'.disk = st.disk ∧ st'.log = st.log := by
  obtain ⟨new, h1, h2, _⟩ := install_spec hf.2.1 hf.2.2 h
  have hal : allowed cfg params = false := by
    rw [← Bool.not_eq_true, allowed, List.all_eq_true]
    intro hall
    obtain ⟨p, hp, hn⟩ := hv
    exact hn ((checkRestrictions_iff _ _).1 (hall p hp))
  obtain ⟨rfl, hd⟩ := h2 hal
  exact ⟨hd, by rw [h1]; rfl⟩

example : ∃ p ∈ [("base", t "2.0.0")], ¬ Respects [restriction "base" "1.0.0" "1.9.9"] (requested {} p) := by
  refine ⟨("base", t "2.0.0"), by simp, ?_⟩
  rw [← checkRestrictions_iff]
  decide +kernel

/-- Every module that is unpacked respects the restrictions, if the server is faithful (the description of a version is that of
this version) and restricted modules are only ever needed because they were requested.  What is missing is exactly the
last condition: see `restriction_of_dependency_refuted`. -/
theorem installed_respects_restrictions_partial {srv : Server} {cfg : Config} {product : Mod} {n : Nat} {params : List (String × Text)} {st st' : St}
    (hf : Fresh st) (hfa : Faithful srv) (h : install srv cfg product n params st = .ok st')
    (hreg : ∀ p ∈ params, Regular (requested cfg p).version)
    (hdep : ∀ p ∈ params, ∀ m, Reach srv (collectLocal product st).locals (requested cfg p) m →
      (∃ q ∈ params, m = requested cfg q) ∨ ∀ r ∈ cfg.restrictions, r.name ≠ m.name) :
    (∃ new, st'.log = new ++ st.log ∧ ∀ x ∈ new, Respects cfg.restrictions x) ∧
    ∀ name v, st'.disk.find name = some v → st.disk.find name ≠ some v → Respects cfg.restrictions ⟨name, v⟩ := by
  obtain ⟨new, h1, h2, _, h4, h5, _⟩ := install_spec hf.2.1 hf.2.2 h
  have main : ∀ x ∈ new, Respects cfg.restrictions x := by
    intro x hx
    obtain ⟨⟨m, i, ⟨p, hp, hr⟩, hn, hi, hv⟩, _⟩ := h5 x hx
    rcases hdep p hp m hr with ⟨q, hq, rfl⟩ | hno
    · have hal : allowed cfg params = true := by
        cases hal : allowed cfg params with
        | true => rfl
        | false => obtain ⟨rfl, _⟩ := h2 hal; cases hx
      rw [allowed, List.all_eq_true] at hal
      have hq' := (checkRestrictions_iff _ _).1 (hal q hq)
      refine hq'.congr hn.symm ?_
      rw [← hv]
      exact hfa _ _ _ (hreg q hq) hi
    · intro r hr hrn
      exact absurd (hrn.trans hn.symm) (hno r hr)
  refine ⟨⟨new, h1, main⟩, ?_⟩
  intro name v hv hold
  rcases h4 name with he | ⟨x, hx, hn, hxv⟩
  · rw [he] at hv; exact absurd hv hold
  · rw [hv] at hxv
    simp only [Option.some.injEq] at hxv
    have := main x hx
    rw [hxv, ← hn]
    exact this

example : ∀ p ∈ [("base", t "1.5.0")], ∀ m, Reach shop (collectLocal slang {}).locals (requested {} p) m →
    (∃ q ∈ [("base", t "1.5.0")], m = requested {} q) ∨ ∀ r ∈ [restriction "base" "1.0.0" "1.9.9"], r.name ≠ m.name := by
  intro p hp m hm
  rw [List.mem_singleton] at hp
  subst hp
  left
  refine ⟨("base", t "1.5.0"), by simp, ?_⟩
  generalize hb : requested {} ("base", t "1.5.0") = b at hm
  cases hm with
  | refl => rfl
  | dep hi hd _ _ =>
    rw [← hb] at hi
    have : shop (requested {} ("base", t "1.5.0")).name (requested {} ("base", t "1.5.0")).version.toText =
        some ⟨Version.ofText (t "1.5.0"), [], true, true⟩ := by decide +kernel
    rw [this] at hi
    simp only [Option.some.injEq] at hi
    subst hi
    cases hd

/-- Restrictions are not checked for modules that are installed as dependencies: `lib` needs `base` 1.0.0, a restriction demands
at least 1.5.0 of `base`, and `base` 1.0.0 is installed. -/
theorem restriction_of_dependency_refuted :
    ¬ ∀ (srv : Server) (cfg : Config) (n : Nat) (params : List (String × Text)) (st st' : St), Fresh st → Faithful srv →
      install srv cfg slang n params st = .ok st' → ∀ name v, st'.disk.find name = some v → st.disk.find name ≠ some v →
      Respects cfg.restrictions ⟨name, v⟩ := by
  intro h
  obtain ⟨st', he, hd⟩ := Res.of_holds (r := install shop { remote := index, restrictions := [restriction "base" "1.5.0" ""] } slang 5 [("lib", [])] {})
    (P := fun st => st.disk.find "base" = some (Version.ofText (t "1.0.0"))) (by decide +kernel)
  simp only [decide_eq_true_eq] at hd
  have := h _ _ _ _ _ _ ⟨rfl, rfl, rfl⟩ shop_faithful he "base" _ hd (by decide)
  rw [← checkRestrictions_iff] at this
  exact absurd this (by decide +kernel)

/-- The restriction a configuration gives for the interpreter is without effect: the hardcoded one is inserted first, and it has
no lower bound. -/
theorem restriction_of_interpreter_refuted :
    ¬ ∀ (product : String) (version : Text) (config : List (String × Text × Text)) (c : String × Text × Text) (m : Mod), c ∈ config →
      checkRestrictions (loadRestrictions product version config) m = true →
      Respects [⟨c.1, Version.ofText c.2.1, Version.ofText c.2.2⟩] m := by
  intro h
  have := h "Slang" (t "0.7.2") [("Slang", t "0.7.0", [])] _ ⟨"Slang", Version.ofText (t "0.6.0")⟩ (List.mem_singleton.2 rfl) (by decide +kernel)
  rw [← checkRestrictions_iff] at this
  exact absurd this (by decide +kernel)

/-- For every other module, the first restriction of a configuration counts. -/
theorem restrictions_loaded {product : String} {version : Text} {config before after : List (String × Text × Text)} {c : String × Text × Text} {m : Mod}
    (hc : config = before ++ c :: after) (hfirst : ∀ c' ∈ before, c'.1 ≠ c.1) (hp : c.1 ≠ product)
    (h : checkRestrictions (loadRestrictions product version config) m = true) :
    Respects [⟨c.1, Version.ofText c.2.1, Version.ofText c.2.2⟩] m := by
  let f := fun (l : List Restriction) (c : String × Text × Text) => insertRestriction ⟨c.1, Version.ofText c.2.1, Version.ofText c.2.2⟩ l
  have kept : ∀ (cs : List (String × Text × Text)) (l : List Restriction) (r : Restriction), r ∈ l → r ∈ cs.foldl f l := by
    intro cs
    induction cs with
    | nil => intro l r h; exact h
    | cons c cs ih =>
      intro l r h
      rw [List.foldl_cons]
      apply ih
      show r ∈ insertRestriction _ l
      rw [insertRestriction]
      split
      · exact h
      · exact List.mem_append_left _ h
  have names : ∀ (cs : List (String × Text × Text)) (l : List Restriction) (r : Restriction), r ∈ cs.foldl f l → r ∈ l ∨ ∃ c ∈ cs, r.name = c.1 := by
    intro cs
    induction cs with
    | nil => intro l r h; exact Or.inl h
    | cons c cs ih =>
      intro l r h
      rw [List.foldl_cons] at h
      rcases ih _ r h with h | ⟨c', hc', h⟩
      · change r ∈ insertRestriction _ l at h
        rw [insertRestriction] at h
        split at h
        · exact Or.inl h
        · rw [List.mem_append, List.mem_singleton] at h
          rcases h with h | h
          · exact Or.inl h
          · exact Or.inr ⟨c, by simp, by rw [h]⟩
      · exact Or.inr ⟨c', List.mem_cons_of_mem _ hc', h⟩
  have hmem : (⟨c.1, Version.ofText c.2.1, Version.ofText c.2.2⟩ : Restriction) ∈ loadRestrictions product version config := by
    rw [loadRestrictions, hc, List.foldl_append, List.foldl_cons]
    apply kept
    show _ ∈ insertRestriction _ _
    rw [insertRestriction, if_neg]
    · simp
    · simp only [List.any_eq_true, decide_eq_true_eq, not_exists, not_and]
      intro r hr hn
      rcases names before _ r hr with hr | ⟨c', hc', hr⟩
      · rw [List.mem_singleton] at hr
        subst hr
        exact hp hn.symm
      · exact hfirst c' hc' (by rw [← hr, hn])
  intro r hr hn
  rw [List.mem_singleton] at hr
  subst hr
  exact (checkRestrictions_iff _ _).1 h _ hmem hn

example : ¬ checkRestrictions (loadRestrictions "Slang" (t "0.7.2") [("base", t "1.0.0", t "1.9.9"), ("base", [], [])])
    ⟨"base", Version.ofText (t "2.0.0")⟩ = true := by decide +kernel

/-! ## C58 — nothing is replaced by something older -/

/-- Without `--force` and without an explicitly requested version, an installation replaces an installed module only by a newer
one, and unpacks no installed module again in an equal or older version (`new` are the modules unpacked). -/
theorem install_never_downgrades_partial {srv : Server} {cfg : Config} {product : Mod} {n : Nat} {params : List (String × Text)} {st st' : St}
    (hf : Fresh st) (hfa : Faithful srv) (hreg : ∀ r ∈ cfg.remote, Regular r.version) (hforce : cfg.force = false)
    (hpar : ∀ p ∈ params, p.2 = []) (hne : params ≠ []) (h : install srv cfg product n params st = .ok st') :
    ∀ name u, st.disk.find name = some u → name ≠ product.name →
      (∃ new, st'.log = new ++ st.log ∧ ∀ x ∈ new, x.name = name → u.lt x.version = true) ∧
      ∃ v, st'.disk.find name = some v ∧ (v = u ∨ u.lt v = true) := by
  have hs := install_steady hfa hreg hforce hpar hne (steady_start srv cfg product hf.2.1 hf.2.2) h
  intro name u hu hp
  obtain ⟨new, h1, h2, h3⟩ := hs.done
  have hg : getModule (collectLocal product st).locals name = some ⟨name, u⟩ := by
    rw [getModule_collectLocal (by rw [hf.1]; rfl) hp, hu]; rfl
  refine ⟨⟨new, h1, ?_⟩, ?_⟩
  · intro x hx hn
    exact h2 x hx ⟨name, u⟩ (by rw [hn]; exact hg)
  · rcases h3 name with he | ⟨x, hx, hn, hv⟩
    · exact ⟨u, by rw [he, hu], Or.inl rfl⟩
    · exact ⟨x.version, hv, Or.inr (h2 x hx ⟨name, u⟩ (by rw [hn]; exact hg))⟩

example : ((install shop { remote := index } slang 5 [("app", []), ("base", [])] { disk := disk [("base", "2.0.0"), ("app", "1.0.0")] }).holds fun st =>
    st.listing = [("base", t "2.0.0"), ("app", t "2.0.0"), ("lib", t "1.0.0")]) = true := by decide +kernel

/-- An upgrade without `--force` never leaves an installed module in an older version than before, and unpacks only newer ones. -/
theorem upgrade_never_downgrades {srv : Server} {cfg : Config} {product : Mod} {n : Nat} {params : List String} {st st' : St}
    (hf : Fresh st) (hfa : Faithful srv) (hreg : ∀ r ∈ cfg.remote, Regular r.version) (hforce : cfg.force = false)
    (h : upgrade srv cfg product n params st = .ok st') :
    ∀ name u, st.disk.find name = some u → name ≠ product.name →
      (∃ new, st'.log = new ++ st.log ∧ ∀ x ∈ new, x.name = name → u.lt x.version = true) ∧
      ∃ v, st'.disk.find name = some v ∧ (v = u ∨ u.lt v = true) := by
  rw [upgrade] at h
  have hs := upgradeAll_steady hfa hreg hforce _ _ _ (steady_start srv cfg product hf.2.1 hf.2.2) h
  intro name u hu hp
  obtain ⟨new, h1, h2, h3⟩ := hs.done
  have hg : getModule (collectLocal product st).locals name = some ⟨name, u⟩ := by
    rw [getModule_collectLocal (by rw [hf.1]; rfl) hp, hu]; rfl
  refine ⟨⟨new, h1, ?_⟩, ?_⟩
  · intro x hx hn
    exact h2 x hx ⟨name, u⟩ (by rw [hn]; exact hg)
  · rcases h3 name with he | ⟨x, hx, hn, hv⟩
    · exact ⟨u, by rw [he, hu], Or.inl rfl⟩
    · exact ⟨x.version, hv, Or.inr (h2 x hx ⟨name, u⟩ (by rw [hn]; exact hg))⟩

example : ((upgrade shop { remote := index } slang 5 [] { disk := disk [("base", "1.0.0"), ("lib", "3.0.0"), ("app", "1.0.0")] }).holds fun st =>
    st.listing = [("base", t "1.5.0"), ("lib", t "3.0.0"), ("app", t "2.0.0")]) = true := by decide +kernel

/-- What is unpacked while the modules `W` are wanted. -/
structure Asked (L0 : List Mod) (W : Mod → Prop) (st0 st : St) : Prop where
  locals : ∀ name, contains L0 name = true → contains st.locals name = true
  missing : ∀ m ∈ st.missing, W m
  done : ∃ new, st.log = new ++ st0.log ∧ (∀ x ∈ new, ∃ m, W m ∧ m.name = x.name) ∧
    ∀ name, st.disk.find name = st0.disk.find name ∨ ∃ x ∈ new, x.name = name

theorem Asked.collect {L0 : List Mod} {W : Mod → Prop} {st0 st : St} (product : Mod) (h : Asked L0 W st0 st) :
    Asked L0 W st0 (collectLocal product st) where
  locals := fun name hc => (contains_collectLocal product st name).2 (.inr (.inl (h.locals name hc)))
  missing := h.missing
  done := h.done

theorem install_asked {srv : Server} {cfg : Config} {product : Mod} {n : Nat} {params : List (String × Text)} {L0 : List Mod} {W : Mod → Prop}
    {st0 st st' : St} (hW : Closed srv L0 W) (hpar : ∀ p ∈ params, W (requested cfg p)) (hs : Asked L0 W st0 st)
    (h : install srv cfg product n params st = .ok st') : Asked L0 W st0 st' := by
  rw [install] at h
  by_cases hp : params.isEmpty = true
  · rw [if_pos hp] at h
    cases h
    exact hs
  · rw [if_neg hp] at h
    have hs' := hs.collect product
    cases hpa : prepareAll srv cfg n params (collectLocal product st) with
    | fuel => rw [hpa] at h; cases h
    | exit x => rw [hpa] at h; cases h
    | ok s1 =>
      rw [hpa] at h
      obtain ⟨h1, -⟩ := prepareAll_prepared (W := W) params _ _
        (fun m i d hm hi hd hl => hW m i d hm hi hd (by
          cases hc : contains L0 d.name with
          | false => rfl
          | true => rw [hs'.locals _ hc] at hl; cases hl)) hpar hpa
      obtain ⟨-, f2, -⟩ := foldl_addModule cfg params s1.missing
      simp only at h
      have st2 : Asked L0 W st0 { s1 with missing := params.foldl (fun l p => addModule (requested cfg p) l) s1.missing } := by
        refine ⟨?_, ?_, ?_⟩
        · intro name hc
          show contains s1.locals name = true
          rw [h1.locals]; exact hs'.locals name hc
        · intro m hm
          rcases f2 m hm with hm | ⟨p, hp, rfl⟩
          · rcases h1.new m hm with hm | ⟨hW, -⟩
            · exact hs'.missing m hm
            · exact hW
          · exact hpar p hp
        · show ∃ new, s1.log = new ++ st0.log ∧ _ ∧ ∀ name, s1.disk.find name = st0.disk.find name ∨ _
          rw [h1.log, h1.disk]; exact hs'.done
      generalize hs2 : ({ s1 with missing := params.foldl (fun l p => addModule (requested cfg p) l) s1.missing } : St) = s2 at h st2
      rw [show params.foldl (fun l p => addModule (requested cfg p) l) s1.missing = s2.missing by rw [← hs2]] at h
      by_cases hal : allowed cfg params = true
      · rw [if_pos hal] at h
        cases h
        obtain ⟨g1, -, -, ⟨new, g4, g4', gd⟩, -⟩ := installAll_spec (forced cfg params) s2.missing s2
        refine ⟨by rw [g1]; exact st2.locals, by rw [installAll_missing]; exact st2.missing, ?_⟩
        obtain ⟨new0, d1, d2, d3⟩ := st2.done
        refine ⟨new ++ new0, by rw [g4, d1, List.append_assoc], ?_, ?_⟩
        · intro x hx
          rcases List.mem_append.1 hx with hx | hx
          · obtain ⟨m, hm, hn, -⟩ := g4' x hx
            exact ⟨m, st2.missing m hm, hn⟩
          · exact d2 x hx
        · intro name
          rcases gd name with hd | ⟨x, hx, hn, -⟩
          · rcases d3 name with hd' | ⟨x, hx, hn⟩
            · exact .inl (hd.trans hd')
            · exact .inr ⟨x, List.mem_append_right _ hx, hn⟩
          · exact .inr ⟨x, List.mem_append_left _ hx, hn⟩
      · rw [if_neg hal] at h
        cases h
        exact st2

theorem upgradeAll_asked {srv : Server} {cfg : Config} {product : Mod} {n : Nat} {L0 : List Mod} {W : Mod → Prop} {st0 : St}
    (hW : Closed srv L0 W) : ∀ (ms : List Mod) (st st' : St), (∀ m ∈ ms, W (requested cfg (m.name, []))) →
    Asked L0 W st0 st → upgradeAll srv cfg product n ms st = .ok st' → Asked L0 W st0 st'
  | [], st, st', _, hs, h => by cases h; exact hs
  | m :: ms, st, st', hm, hs, h => by
    rw [upgradeAll] at h
    cases hi : install srv cfg product n [(m.name, [])] st with
    | fuel => rw [hi] at h; cases h
    | exit x => rw [hi] at h; cases h
    | ok s1 =>
      rw [hi] at h
      exact upgradeAll_asked hW ms s1 st' (fun m' hm' => hm m' (List.mem_cons_of_mem _ hm'))
        (install_asked hW (by simpa using hm m (by simp)) hs hi) h

/-- **C58**.  An upgrade of given modules unpacks only those modules, and modules they need that are not installed; with
no module given, the same for the installed modules the index has a newer version of. -/
theorem upgrade_only_asked {srv : Server} {cfg : Config} {product : Mod} {n : Nat} {params : List String} {st st' : St}
    (hf : Fresh st) (h : upgrade srv cfg product n params st = .ok st') :
    let L := (collectLocal product st).locals
    ∃ new, st'.log = new ++ st.log ∧
      (∀ x ∈ new, ∃ r ∈ checkOutdated L cfg.remote, (params = [] ∨ r.name ∈ params) ∧
        ∃ m, Reach srv L (requested cfg (r.name, [])) m ∧ m.name = x.name) ∧
      ∀ name, st'.disk.find name = st.disk.find name ∨ ∃ x ∈ new, x.name = name := by
  intro L
  rw [upgrade] at h
  let W : Mod → Prop := fun m => ∃ r ∈ checkOutdated L cfg.remote, (params = [] ∨ r.name ∈ params) ∧
    Reach srv L (requested cfg (r.name, [])) m
  have hcl : Closed srv L W := by
    rintro m i d ⟨r, hr, hp, hR⟩ hi hd hl
    exact ⟨r, hr, hp, hR.trans_dep hi hd ((not_contains_iff _ _).1 hl)⟩
  have hs : Asked L W st (collectLocal product st) :=
    ⟨fun _ h => h, by rw [show (collectLocal product st).missing = st.missing from rfl, hf.2.1]; nofun,
      ⟨[], rfl, by simp, fun _ => .inl rfl⟩⟩
  obtain ⟨-, -, new, h1, h2, h3⟩ := upgradeAll_asked (product := product) (n := n) hcl (selected cfg params (collectLocal product st)) _ _ (by
    intro m hm
    simp only [selected, List.mem_filter, Bool.or_eq_true, List.isEmpty_iff, List.any_eq_true, decide_eq_true_eq] at hm
    refine ⟨m, hm.1, ?_, .refl _⟩
    rcases hm.2 with h | ⟨p, hp, rfl⟩
    · exact .inl h
    · exact .inr hp) hs h
  refine ⟨new, h1, fun x hx => ?_, h3⟩
  obtain ⟨m, ⟨r, hr, hp, hR⟩, hn⟩ := h2 x hx
  exact ⟨r, hr, hp, m, hR, hn⟩

/-- Only `base` is upgraded, although `app` is out of date as well. -/
example : ((upgrade shop { remote := index } slang 5 ["base"] { disk := disk [("base", "1.0.0"), ("lib", "3.0.0"), ("app", "1.0.0")] }).holds fun st =>
    st.listing = [("base", t "1.5.0"), ("lib", t "3.0.0"), ("app", t "1.0.0")]) = true := by decide +kernel

/-- The modules offered for an upgrade are exactly the entries of the index that are newer than the installed module of the same
name (the index has one entry for each name). -/
theorem upgrade_offers (locals remote : List Mod) (hu : ∀ r ∈ remote, ∀ r' ∈ remote, r.name = r'.name → r = r') (m : Mod) :
    m ∈ checkOutdated locals remote ↔ m ∈ remote ∧ ∃ l ∈ locals, l.name = m.name ∧ l.version.lt m.version = true := by
  have inner : ∀ (l : Mod) (rs : List Mod) (out : List Mod), (∀ r ∈ rs, r ∈ remote) → (∀ r ∈ out, r ∈ remote) →
      (∀ r ∈ rs.foldl (fun out r => if l.name = r.name && l.version.lt r.version then addModule r out else out) out, r ∈ remote) ∧
      ∀ m, m ∈ rs.foldl (fun out r => if l.name = r.name && l.version.lt r.version then addModule r out else out) out ↔
        m ∈ out ∨ m ∈ rs ∧ l.name = m.name ∧ l.version.lt m.version = true := by
    intro l rs
    induction rs with
    | nil => intro out _ ho; simpa using ho
    | cons r rs ih =>
      intro out hr ho
      rw [List.foldl_cons]
      by_cases hc : (l.name = r.name && l.version.lt r.version) = true
      · rw [if_pos hc]
        simp only [Bool.and_eq_true, decide_eq_true_eq] at hc
        have ho' : ∀ x ∈ addModule r out, x ∈ remote := by
          intro x hx
          rcases mem_addModule hx with rfl | hx
          · exact hr _ (by simp)
          · exact ho x hx
        obtain ⟨i1, i2⟩ := ih (addModule r out) (fun x hx => hr x (List.mem_cons_of_mem _ hx)) ho'
        refine ⟨i1, ?_⟩
        intro m
        rw [i2]
        have hmem : r ∈ addModule r out := by
          obtain ⟨x, hx, hxn⟩ := (contains_iff _ _).1 ((contains_addModule r out r.name).2 (Or.inl rfl))
          have e := hu r (hr r (by simp)) x (ho' x hx) hxn.symm
          rw [← e] at hx
          exact hx
        constructor
        · rintro (h | ⟨h, h'⟩)
          · rcases mem_addModule h with rfl | h
            · exact Or.inr ⟨by simp, hc⟩
            · exact Or.inl h
          · exact Or.inr ⟨List.mem_cons_of_mem _ h, h'⟩
        · rintro (h | ⟨h, h'⟩)
          · exact Or.inl (mem_addModule_of_mem h)
          · rw [List.mem_cons] at h
            rcases h with rfl | h
            · exact Or.inl hmem
            · exact Or.inr ⟨h, h'⟩
      · rw [if_neg hc]
        obtain ⟨i1, i2⟩ := ih out (fun x hx => hr x (List.mem_cons_of_mem _ hx)) ho
        refine ⟨i1, ?_⟩
        intro m
        rw [i2]
        constructor
        · rintro (h | ⟨h, h'⟩)
          · exact Or.inl h
          · exact Or.inr ⟨List.mem_cons_of_mem _ h, h'⟩
        · rintro (h | ⟨h, h'⟩)
          · exact Or.inl h
          · rw [List.mem_cons] at h
            rcases h with rfl | h
            · exact absurd (by simp [h'.1, h'.2]) hc
            · exact Or.inr ⟨h, h'⟩
  have outer : ∀ (ls : List Mod) (out : List Mod), (∀ r ∈ out, r ∈ remote) →
      ∀ m, m ∈ ls.foldl (fun out l => remote.foldl (fun out r => if l.name = r.name && l.version.lt r.version then addModule r out else out) out) out ↔
        m ∈ out ∨ m ∈ remote ∧ ∃ l ∈ ls, l.name = m.name ∧ l.version.lt m.version = true := by
    intro ls
    induction ls with
    | nil => simp
    | cons l ls ih =>
      intro out ho m
      rw [List.foldl_cons]
      obtain ⟨i1, i2⟩ := inner l remote out (fun _ h => h) ho
      rw [ih _ i1, i2]
      constructor
      · rintro ((h | ⟨h, h'⟩) | ⟨h, x, hx, h'⟩)
        · exact Or.inl h
        · exact Or.inr ⟨h, l, by simp, h'⟩
        · exact Or.inr ⟨h, x, List.mem_cons_of_mem _ hx, h'⟩
      · rintro (h | ⟨h, x, hx, h'⟩)
        · exact Or.inl (Or.inl h)
        · rw [List.mem_cons] at hx
          rcases hx with rfl | hx
          · exact Or.inl (Or.inr ⟨h, h'⟩)
          · exact Or.inr ⟨h, x, hx, h'⟩
  rw [checkOutdated, outer locals [] (by simp)]
  simp

example : (∀ r ∈ index, ∀ r' ∈ index, r.name = r'.name → r = r') ∧
    checkOutdated [⟨"base", Version.ofText (t "1.0.0")⟩, ⟨"lib", Version.ofText (t "1.0.0")⟩] index = [⟨"base", Version.ofText (t "1.5.0")⟩] := by
  decide +kernel

/-- An explicit version for one module forces all of them: `install lib:1.0.0 base` replaces the installed `base` 2.0.0, for which no
version was requested, by the 1.5.0 of the index. -/
theorem explicit_version_forces_all_refuted :
    ¬ ∀ (srv : Server) (cfg : Config) (n : Nat) (params : List (String × Text)) (st st' : St), Fresh st → Faithful srv → cfg.force = false →
      install srv cfg slang n params st = .ok st' → ∀ name u, (∀ p ∈ params, p.1 = name → p.2 = []) → st.disk.find name = some u → name ≠ slang.name →
      ∃ v, st'.disk.find name = some v ∧ v.lt u = false := by
  intro h
  obtain ⟨st', he, hd⟩ := Res.of_holds (r := install shop { remote := index } slang 5 [("lib", t "1.0.0"), ("base", [])] { disk := disk [("base", "2.0.0")] })
    (P := fun st => st.disk.find "base" = some (Version.ofText (t "1.5.0"))) (by decide +kernel)
  obtain ⟨v, hv, hlt⟩ := h _ _ _ _ _ _ ⟨rfl, rfl, rfl⟩ shop_faithful rfl he "base" (Version.ofText (t "2.0.0")) (by decide) (by decide +kernel) (by decide)
  simp only [decide_eq_true_eq] at hd
  rw [hd] at hv
  simp only [Option.some.injEq] at hv
  subst hv
  exact absurd hlt (by decide +kernel)

/-- An upgrade of two modules installs the first of them twice, the second time over an equal version. -/
theorem upgrade_reinstalls_refuted :
    ¬ ∀ (srv : Server) (cfg : Config) (n : Nat) (st st' : St), Fresh st → Faithful srv → cfg.force = false →
      upgrade srv cfg slang n [] st = .ok st' → st.log = [] → st'.log.Nodup := by
  intro h
  obtain ⟨st', he, hd⟩ := Res.of_holds (r := upgrade shop { remote := index } slang 5 [] { disk := disk [("app", "1.0.0"), ("base", "1.0.0"), ("lib", "1.0.0")] })
    (P := fun st => st.log = [⟨"base", Version.ofText (t "1.5.0")⟩, ⟨"app", Version.ofText (t "2.0.0")⟩, ⟨"app", Version.ofText (t "2.0.0")⟩]) (by decide +kernel)
  have := h _ _ _ _ _ ⟨rfl, rfl, rfl⟩ shop_faithful rfl he rfl
  simp only [decide_eq_true_eq] at hd
  rw [hd] at this
  exact absurd this (by decide +kernel)

/-- Pre-releases are upgraded in circles: of 1.0.0-alpha and 1.0.0-beta each is newer than the other, so that an index with the
older of them is offered as an upgrade of the newer one. -/
theorem upgrade_between_prereleases_refuted :
    ¬ ∀ (locals remote : List Mod) (m : Mod), m ∈ checkOutdated locals remote → ∃ l ∈ locals, l.name = m.name ∧ m.version.lt l.version = false := by
  intro h
  obtain ⟨l, hl, _, hlt⟩ := h [⟨"base", Version.ofText (t "1.0.0-beta")⟩] [⟨"base", Version.ofText (t "1.0.0-alpha")⟩]
    ⟨"base", Version.ofText (t "1.0.0-alpha")⟩ (by decide +kernel)
  rw [List.mem_singleton] at hl
  subst hl
  exact absurd hlt (by decide +kernel)

/-! ## C92 — versions of dependencies -/

/-- What is unpacked for a dependency is the version some needed module asks for as its minimum, or the requested one. -/
theorem unpacked_versions_asked_for_partial {srv : Server} {cfg : Config} {product : Mod} {n : Nat} {params : List (String × Text)} {st st' : St}
    (hf : Fresh st) (hfa : Faithful srv) (h : install srv cfg product n params st = .ok st') :
    ∃ new, st'.log = new ++ st.log ∧ ∀ x ∈ new, ∃ p ∈ params, ∃ m, Reach srv (collectLocal product st).locals (requested cfg p) m ∧
      m.name = x.name ∧ (Regular m.version → x.version.eq m.version = true) := by
  obtain ⟨new, h1, _, _, _, h5, _⟩ := install_spec hf.2.1 hf.2.2 h
  refine ⟨new, h1, ?_⟩
  intro x hx
  obtain ⟨⟨m, i, ⟨p, hp, hr⟩, hn, hi, hv⟩, _⟩ := h5 x hx
  exact ⟨p, hp, m, hr, hn, fun hreg => by rw [← hv]; exact hfa _ _ _ hreg hi⟩

/-- A server on which `old 1.0.0` needs `base` 1.5.0 or newer, `new 1.0.0` needs `base` between 1.0.0 and 1.5.0. -/
def picky : Server := fun name v =>
  if name = "new" ∧ v = t "1.0.0" then some ⟨Version.ofText v, [⟨"base", t "1.5.0", []⟩], true, true⟩
  else if name = "old" ∧ v = t "1.0.0" then some ⟨Version.ofText v, [⟨"base", t "1.0.0", t "1.4.0"⟩], true, true⟩
  else shop name v

/-- The installed module `name` satisfies the dependency `d`. -/
def Satisfies (d : Dep) (v : Version) : Prop :=
  v.lt (Version.ofText d.min) = false ∧ (d.max ≠ [] → (Version.ofText d.max).lt v = false)

/-- An installed module that is too old satisfies a dependency: nothing is installed for it. -/
theorem dependency_too_old_refuted :
    ¬ ∀ (srv : Server) (cfg : Config) (n : Nat) (p : String × Text) (st st' : St) (i : Info) (d : Dep) (v : Version), Fresh st → cfg.skipDeps = false →
      srv (requested cfg p).name (requested cfg p).version.toText = some i → d ∈ i.deps → Usable srv ⟨d.name, Version.ofText d.min⟩ →
      install srv cfg slang n [p] st = .ok st' → st'.disk.find d.name = some v → Satisfies d v := by
  intro h
  obtain ⟨st', he, hd⟩ := Res.of_holds (r := install picky { remote := index } slang 5 [("new", t "1.0.0")] { disk := disk [("base", "1.0.0")] })
    (P := fun st => st.disk.find "base" = some (Version.ofText (t "1.0.0"))) (by decide +kernel)
  simp only [decide_eq_true_eq] at hd
  have := h picky { remote := index } 5 ("new", t "1.0.0") { disk := disk [("base", "1.0.0")] } st'
    ⟨Version.ofText (t "1.0.0"), [⟨"base", t "1.5.0", []⟩], true, true⟩ ⟨"base", t "1.5.0", []⟩ (Version.ofText (t "1.0.0")) ⟨rfl, rfl, rfl⟩ rfl
    (by decide +kernel) (by simp) ⟨⟨Version.ofText (t "1.5.0"), [], true, true⟩, by decide +kernel, rfl, rfl⟩ he hd
  exact absurd this.1 (by decide +kernel)

/-- Two modules with different ranges for the same dependency: the description fetched last decides, and the upper bound is
never looked at.  Here `old`, which does not work with a `base` newer than 1.4.0, gets 1.5.0. -/
theorem dependency_too_new_refuted :
    ¬ ∀ (srv : Server) (cfg : Config) (n : Nat) (params : List (String × Text)) (p : String × Text) (st st' : St) (i : Info) (d : Dep) (v : Version), Fresh st →
      cfg.skipDeps = false → p ∈ params →
      srv (requested cfg p).name (requested cfg p).version.toText = some i → d ∈ i.deps → Usable srv ⟨d.name, Version.ofText d.min⟩ →
      install srv cfg slang n params st = .ok st' → st'.disk.find d.name = some v → Satisfies d v := by
  intro h
  obtain ⟨st', he, hd⟩ := Res.of_holds (r := install picky { remote := index } slang 5 [("old", t "1.0.0"), ("new", t "1.0.0")] {})
    (P := fun st => st.disk.find "base" = some (Version.ofText (t "1.5.0"))) (by decide +kernel)
  simp only [decide_eq_true_eq] at hd
  have := h picky { remote := index } 5 _ ("old", t "1.0.0") {} st'
    ⟨Version.ofText (t "1.0.0"), [⟨"base", t "1.0.0", t "1.4.0"⟩], true, true⟩ ⟨"base", t "1.0.0", t "1.4.0"⟩ (Version.ofText (t "1.5.0")) ⟨rfl, rfl, rfl⟩ rfl
    (by simp) (by decide +kernel) (by simp) ⟨⟨Version.ofText (t "1.0.0"), [], true, true⟩, by decide +kernel, rfl, rfl⟩ he hd
  exact absurd (this.2 (by decide)) (by decide +kernel)

end Pkg
end Verif
