import Verif.Imports.Model

/-!
# What loading a script guarantees

The specification is small.  `Names d i g` says that the file `g` is one the import `i` stands for in
the folder `d`: `d/i.slang`, `d/i.os`, `d/i/All.slang` or `d/i/All.os`.  `IsDir` says that a path and all
the paths above it are directories.
-/

namespace Verif
namespace Imports

/-! ## Specification -/

/-- `g` is a file the import `i` stands for in the folder `d`. -/
def Names (d : Path) (i : Import) (g : LibFile) : Prop := g.path = d ++ i ∨ g.path = d ++ i ++ ["All"]

/-- The path and everything above it are directories. -/
def IsDir (fs : FS) (p : Path) : Prop := ∀ q, q ≠ [] → q <+: p → q ∈ fs.dirs

/-- Files lie in directories. -/
def FS.WF (fs : FS) : Prop := ∀ f, fs.exists f = true → IsDir fs f.folder

/-- The state of an attempt to load, whatever its outcome. -/
def Res.state? : Res → Option State
  | .ok _ s => some s
  | .unresolved _ _ s => some s
  | .broken _ s => some s
  | .fuel => none

/-! ## Paths -/

theorem walk_dir (fs : FS) : ∀ (p : Path) (done : Path), (∀ q, q ≠ [] → q <+: p → done ++ q ∈ fs.dirs) →
    ∀ r, fs.walk done (p ++ r) = fs.walk (done ++ p) r
  | [], done, _, r => by simp
  | c :: p, done, h, r => by
    rw [List.cons_append, FS.walk, if_pos (h [c] (by simp) (by simp [List.cons_prefix_cons]))]
    rw [walk_dir fs p (done ++ [c])]
    · simp
    · intro q hq hp
      have := h (c :: q) (by simp) (by simpa [List.cons_prefix_cons] using hp)
      simpa using this

theorem fullname_dir {fs : FS} {p : Path} (h : IsDir fs p) : fs.fullname p = p := by
  have := walk_dir fs p [] (by simpa [IsDir] using h) []
  rw [FS.fullname]
  simpa [FS.walk] using this

theorem fullname_append {fs : FS} {p : Path} (h : IsDir fs p) (r : Path) : fs.fullname (p ++ r) = fs.walk p r := by
  have := walk_dir fs p [] (by simpa [IsDir] using h) r
  simpa [FS.fullname] using this

/-- Where the walk ends: at the end of the path, or at the first component that does not exist. -/
theorem walk_end (fs : FS) : ∀ (r done : Path), fs.walk done r = done ++ r ∨
    ∃ p, p <+: r ∧ p ≠ [] ∧ p.length < r.length ∧ fs.walk done r = done ++ p ∧ done ++ p ∉ fs.dirs ∧
      ∀ x, x ≠ [] → x <+: p → x ≠ p → done ++ x ∈ fs.dirs
  | [], done => by simp [FS.walk]
  | c :: r, done => by
    rw [FS.walk]
    split
    · next hd =>
      rcases walk_end fs r (done ++ [c]) with h | ⟨p, hp, hn, hl, he, hnd, hx⟩
      · left; rw [h]; simp
      · right
        refine ⟨c :: p, by simpa [List.cons_prefix_cons] using hp, by simp, by simpa using hl, by rw [he]; simp, by simpa using hnd, ?_⟩
        intro x hxn hxp hxe
        cases x with
        | nil => exact absurd rfl hxn
        | cons a x =>
          rw [List.cons_prefix_cons] at hxp
          obtain ⟨rfl, hxp⟩ := hxp
          by_cases h0 : x = []
          · subst h0; exact hd
          · have := hx x h0 hxp (by intro h; exact hxe (by rw [h]))
            simpa using this
    · next hd =>
      cases r with
      | nil => left; rfl
      | cons c' r =>
        right
        refine ⟨[c], by simp [List.cons_prefix_cons], by simp, by simp, rfl, hd, ?_⟩
        intro x hxn hxp hxe
        cases x with
        | nil => exact absurd rfl hxn
        | cons a x =>
          rw [List.cons_prefix_cons, List.prefix_nil] at hxp
          obtain ⟨rfl, rfl⟩ := hxp
          exact absurd rfl hxe

/-- The walk stops at the first component that does not exist, whatever follows. -/
theorem walk_stop (fs : FS) : ∀ (q r done : Path), q ≠ [] → (∀ x, x ≠ [] → x <+: q → x ≠ q → done ++ x ∈ fs.dirs) →
    done ++ q ∉ fs.dirs → fs.walk done (q ++ r) = done ++ q
  | [], _, _, h, _, _ => absurd rfl h
  | c :: q, r, done, _, hx, hnd => by
    rw [List.cons_append, FS.walk]
    cases q with
    | nil => rw [if_neg (by simpa using hnd)]
    | cons c' q' =>
      rw [if_pos (hx [c] (by simp) (by simp [List.cons_prefix_cons]) (by simp))]
      rw [walk_stop fs (c' :: q') r (done ++ [c]) (by simp) ?_ (by simpa using hnd)]
      · simp
      · intro x hxn hxp hxq
        have := hx (c :: x) (by simp) (by simpa [List.cons_prefix_cons] using hxp) (by simpa using hxq)
        simpa using this

theorem mem_insertFolder (p d : Path) : ∀ (l : List Path), d ∈ insertFolder p l ↔ d = p ∨ d ∈ l
  | [] => by simp [insertFolder]
  | q :: qs => by
    rw [insertFolder]
    split
    · next h => subst h; simp
    · split
      · simp
      · rw [List.mem_cons, mem_insertFolder p d qs, List.mem_cons]
        constructor
        · rintro (h | h | h) <;> simp [h]
        · rintro (h | h | h) <;> simp [h]

/-! ## How the state grows -/

/-- `new` are the files loaded between two states. -/
structure Grow (fs : FS) (s s' : State) (new : List LibFile) : Prop where
  imported : s'.imported = new ++ s.imported
  log : s'.log = new ++ s.log
  nodup : new.Nodup
  fresh : ∀ g ∈ new, g ∉ s.imported
  folders : ∀ d ∈ s.folders, d ∈ s'.folders
  ex : ∀ g ∈ new, fs.exists g = true
  dirs : (∀ d ∈ s.folders, IsDir fs d) → ∀ d ∈ s'.folders, IsDir fs d
  own : ∀ g ∈ new, g.folder ∈ s'.folders

theorem Grow.refl (fs : FS) (s : State) : Grow fs s s [] where
  imported := rfl
  log := rfl
  nodup := by simp
  fresh := by simp
  folders := fun _ h => h
  ex := by simp
  dirs := fun h => h
  own := by simp

theorem Grow.trans {fs : FS} {s s₁ s₂ : State} {a b : List LibFile} (h : Grow fs s s₁ a) (h' : Grow fs s₁ s₂ b) :
    Grow fs s s₂ (b ++ a) where
  imported := by rw [h'.imported, h.imported, List.append_assoc]
  log := by rw [h'.log, h.log, List.append_assoc]
  nodup := by
    rw [List.nodup_append]
    refine ⟨h'.nodup, h.nodup, ?_⟩
    intro x hx y hy he
    subst he
    exact h'.fresh x hx (by rw [h.imported]; exact List.mem_append_left _ hy)
  fresh := by
    intro g hg
    rw [List.mem_append] at hg
    rcases hg with hg | hg
    · intro hm
      exact h'.fresh g hg (by rw [h.imported]; exact List.mem_append_right _ hm)
    · exact h.fresh g hg
  folders := fun d hd => h'.folders d (h.folders d hd)
  ex := by
    intro g hg
    rw [List.mem_append] at hg
    exact hg.elim (h'.ex g) (h.ex g)
  dirs := fun hd => h'.dirs (h.dirs hd)
  own := by
    intro g hg
    rw [List.mem_append] at hg
    rcases hg with hg | hg
    · exact h'.own g hg
    · exact h'.folders _ (h.own g hg)

/-- Every import of `g` has been loaded from some folder; relative to the file itself if possible. -/
def Done (fs : FS) (g : LibFile) (s : State) : Prop :=
  ∀ i ∈ fs.imports g, (∃ d ∈ s.folders, fs.exists (fs.buildFilename d i) = true ∧ fs.buildFilename d i ∈ s.imported) ∧
    (fs.exists (fs.buildFilename g.folder i) = true → fs.buildFilename g.folder i ∈ s.imported)

theorem Done.mono {fs : FS} {g : LibFile} {s s' : State} {new : List LibFile} (h : Grow fs s s' new) (hd : Done fs g s) :
    Done fs g s' := by
  intro i hi
  obtain ⟨⟨d, hd', he, hm⟩, hr⟩ := hd i hi
  refine ⟨⟨d, h.folders d hd', he, ?_⟩, fun he => ?_⟩
  · rw [h.imported]; exact List.mem_append_right _ hm
  · rw [h.imported]; exact List.mem_append_right _ (hr he)

/-- Every new file is one of those asked for (`P`), or imported by another new file or by one whose
imports are being looked at (`C`). -/
def Cause (fs : FS) (P C : LibFile → Prop) (new : List LibFile) (s : State) : Prop :=
  ∀ g ∈ new, P g ∨ ∃ h, (h ∈ new ∨ C h) ∧ ∃ i ∈ fs.imports h, ∃ d ∈ s.folders, g = fs.buildFilename d i

theorem Cause.mono {fs : FS} {P Q C D : LibFile → Prop} {new new' : List LibFile} {s s' : State}
    (h : Cause fs P C new s) (hs : ∀ g ∈ new, g ∈ new') (hf : ∀ d ∈ s.folders, d ∈ s'.folders)
    (hP : ∀ g ∈ new, P g → Q g ∨ ∃ h, (h ∈ new' ∨ D h) ∧ ∃ i ∈ fs.imports h, ∃ d ∈ s'.folders, g = fs.buildFilename d i)
    (hC : ∀ g, C g → g ∈ new' ∨ D g) :
    ∀ g ∈ new, Q g ∨ ∃ h, (h ∈ new' ∨ D h) ∧ ∃ i ∈ fs.imports h, ∃ d ∈ s'.folders, g = fs.buildFilename d i := by
  intro g hg
  rcases h g hg with h | ⟨x, hx, i, hi, d, hd, he⟩
  · exact hP g hg h
  · exact Or.inr ⟨x, hx.elim (fun h => Or.inl (hs x h)) (hC x), i, hi, d, hf d hd, he⟩

/-- What is known after an attempt: `P` are the files asked for, `C` the files whose imports are being
looked at, `base` folders that are certainly searched. -/
def Post (fs : FS) (good : List LibFile → LibFile → Bool) (P C : LibFile → Prop) (base : List Path) (s : State) : Res → Prop
  | .ok _ s' => ∃ new, Grow fs s s' new ∧ (∀ g ∈ new, Done fs g s') ∧ Cause fs P C new s'
  | .unresolved i h s' => ∃ new, Grow fs s s' new ∧ (h ∈ new ∨ C h) ∧ i ∈ fs.imports h ∧
      ∀ d, d ∈ base ∨ d = h.folder → fs.exists (fs.buildFilename d i) = false
  | .broken g s' => ∃ new, Grow fs s s' (g :: new) ∧ good (new ++ s.log) g = false
  | .fuel => False

/-- How many files are not imported yet. -/
def todo (fs : FS) (s : State) : Nat := fs.files.countP fun e => decide (e.1 ∉ s.imported)

theorem countP_le_of_imp {α : Type} (p q : α → Bool) : ∀ (l : List α), (∀ x ∈ l, p x = true → q x = true) →
    l.countP p ≤ l.countP q
  | [], _ => by simp
  | a :: l, h => by
    have := countP_le_of_imp p q l fun x hx => h x (List.mem_cons_of_mem _ hx)
    have h1 := h a (by simp)
    simp only [List.countP_cons]
    cases hp : p a
    · simp; omega
    · rw [h1 hp]; simp; omega

theorem countP_lt_of_imp {α : Type} (p q : α → Bool) : ∀ (l : List α), (∀ x ∈ l, p x = true → q x = true) →
    (∃ x ∈ l, p x = false ∧ q x = true) → l.countP p < l.countP q
  | [], _, h => by obtain ⟨x, hx, _⟩ := h; cases hx
  | a :: l, h, hx => by
    have h1 := h a (by simp)
    have h2 : ∀ x ∈ l, p x = true → q x = true := fun x hx => h x (List.mem_cons_of_mem _ hx)
    simp only [List.countP_cons]
    obtain ⟨x, hm, hp, hq⟩ := hx
    rw [List.mem_cons] at hm
    rcases hm with rfl | hm
    · have := countP_le_of_imp p q l h2
      rw [hp, hq]; simp; omega
    · have := countP_lt_of_imp p q l h2 ⟨x, hm, hp, hq⟩
      cases hp : p a
      · simp; omega
      · rw [h1 hp]; simp; omega

theorem todo_grow {fs : FS} {s s' : State} {new : List LibFile} (h : Grow fs s s' new) : todo fs s' ≤ todo fs s := by
  apply countP_le_of_imp
  intro e _ he
  simp only [decide_eq_true_eq] at he ⊢
  intro hm
  exact he (by rw [h.imported]; exact List.mem_append_right _ hm)

theorem exists_iff (fs : FS) (f : LibFile) : fs.exists f = true ↔ ∃ e ∈ fs.files, e.1 = f := by
  simp [FS.exists]

theorem todo_lt {fs : FS} {s s' : State} {f : LibFile} (he : fs.exists f = true) (hf : f ∉ s.imported)
    (hs : s'.imported = f :: s.imported) : todo fs s' < todo fs s := by
  apply countP_lt_of_imp
  · intro e _ he
    simp only [decide_eq_true_eq] at he ⊢
    intro hm
    exact he (by rw [hs]; exact List.mem_cons_of_mem _ hm)
  · obtain ⟨e, hm, rfl⟩ := (exists_iff fs _).1 he
    exact ⟨e, hm, by simp [hs], by simpa using hf⟩

/-- What is assumed of the function that loads one file. -/
structure LoadSpec (fs : FS) (good : List LibFile → LibFile → Bool) (n : Nat) (load : LibFile → State → Res) : Prop where
  post : ∀ f s, todo fs s < n → Post fs good (fun g => g = f) (fun _ => False) s.folders s (load f s)
  found : ∀ f s s', todo fs s < n → load f s = .ok true s' → fs.exists f = true ∧ f ∈ s'.imported
  missing : ∀ f s s', todo fs s < n → load f s = .ok false s' → fs.exists f = false ∧ s' = s

theorem Post.weaken {fs : FS} {good : List LibFile → LibFile → Bool} {P Q C D : LibFile → Prop} {s s₁ : State}
    {base base' : List Path} {a : List LibFile} {r : Res} (ha : Grow fs s s₁ a) (hr : ∀ b s', r ≠ .ok b s')
    (hCD : ∀ h, C h → h ∈ a ∨ D h) (hb : ∀ d ∈ base', d ∈ base) (h : Post fs good P C base s₁ r) :
    Post fs good Q D base' s r := by
  cases r with
  | ok b s' => exact absurd rfl (hr b s')
  | fuel => exact h
  | unresolved i f s' =>
    obtain ⟨new, hg, hm, hi, hd⟩ := h
    refine ⟨new ++ a, ha.trans hg, ?_, hi, ?_⟩
    · rcases hm with hm | hm
      · exact Or.inl (List.mem_append_left _ hm)
      · rcases hCD f hm with hm | hm
        · exact Or.inl (List.mem_append_right _ hm)
        · exact Or.inr hm
    · rintro d (h | h)
      · exact hd d (Or.inl (hb d h))
      · exact hd d (Or.inr h)
  | broken g s' =>
    obtain ⟨new, hg, hm⟩ := h
    refine ⟨new ++ a, ha.trans hg, ?_⟩
    rw [List.append_assoc, ← ha.log]
    exact hm

/-- After a first part that ends well, a second part decides. -/
theorem Post.seq {fs : FS} {good : List LibFile → LibFile → Bool} {P P' Q C D : LibFile → Prop} {s s₁ : State}
    {base base' : List Path} {a : List LibFile} {r : Res} (ha : Grow fs s s₁ a) (hda : ∀ g ∈ a, Done fs g s₁)
    (hca : Cause fs P C a s₁) (hb : ∀ d ∈ base', d ∈ base) (h : Post fs good P' C base s₁ r)
    (hP : ∀ g (s' : State), P g → (∀ d ∈ s₁.folders, d ∈ s'.folders) →
      Q g ∨ ∃ h, (h ∈ a ∨ D h) ∧ ∃ i ∈ fs.imports h, ∃ d ∈ s'.folders, g = fs.buildFilename d i)
    (hP' : ∀ g b (s' : State), r = .ok b s' → P' g → (∀ d ∈ s₁.folders, d ∈ s'.folders) →
      Q g ∨ ∃ h, (h ∈ a ∨ D h) ∧ ∃ i ∈ fs.imports h, ∃ d ∈ s'.folders, g = fs.buildFilename d i)
    (hCD : ∀ h, C h → h ∈ a ∨ D h) : Post fs good Q D base' s r := by
  cases r with
  | fuel => exact h
  | unresolved i f s' => exact Post.weaken ha (by nofun) hCD hb h
  | broken g s' => exact Post.weaken ha (by nofun) hCD hb h
  | ok b s' =>
    obtain ⟨new, hg, hd, hc⟩ := h
    refine ⟨new ++ a, ha.trans hg, ?_, ?_⟩
    · intro g hm
      rw [List.mem_append] at hm
      exact hm.elim (hd g) fun h => (hda g h).mono hg
    · have up : ∀ x, (x ∈ a ∨ D x) → (x ∈ new ++ a ∨ D x) := fun x h => h.imp_left (List.mem_append_right _)
      intro g hm
      rw [List.mem_append] at hm
      rcases hm with hm | hm
      · refine hc.mono (fun g h => List.mem_append_left _ h) (fun _ h => h) ?_ ?_ g hm
        · intro g _ h
          rcases hP' g b s' rfl h hg.folders with h | ⟨x, hx, h⟩
          · exact Or.inl h
          · exact Or.inr ⟨x, up x hx, h⟩
        · exact fun g h => up g (hCD g h)
      · refine hca.mono (fun g h => List.mem_append_right _ h) hg.folders ?_ ?_ g hm
        · intro g _ h
          rcases hP g s' h hg.folders with h | ⟨x, hx, h⟩
          · exact Or.inl h
          · exact Or.inr ⟨x, up x hx, h⟩
        · exact fun g h => up g (hCD g h)

/-- The search through the folders. -/
theorem search_spec {fs : FS} {good : List LibFile → LibFile → Bool} {n : Nat} {load : LibFile → State → Res}
    (H : LoadSpec fs good n load) (i : Import) : ∀ (ds : List Path) (s : State), todo fs s < n →
    Post fs good (fun g => ∃ d ∈ ds, g = fs.buildFilename d i) (fun _ => False) s.folders s (search fs load i ds s) ∧
    (∀ s', search fs load i ds s = .ok true s' → ∃ d ∈ ds, fs.exists (fs.buildFilename d i) = true ∧ fs.buildFilename d i ∈ s'.imported) ∧
    (∀ s', search fs load i ds s = .ok false s' → s' = s ∧ ∀ d ∈ ds, fs.exists (fs.buildFilename d i) = false)
  | [], s, _ => by
    refine ⟨⟨[], Grow.refl fs s, by simp, by intro g hg; cases hg⟩, ?_, ?_⟩
    · intro s' h; simp [search] at h
    · intro s' h
      simp only [search, Res.ok.injEq, true_and] at h
      exact ⟨h.symm, by simp⟩
  | d :: ds, s, ht => by
    have hp := H.post (fs.buildFilename d i) s ht
    rw [search]
    cases hl : load (fs.buildFilename d i) s with
    | fuel => rw [hl] at hp; exact hp.elim
    | unresolved j h s' =>
      rw [hl] at hp
      refine ⟨Post.weaken (Grow.refl fs s) (by nofun) (by simp) (fun _ h => h) hp, by nofun, by nofun⟩
    | broken g s' =>
      rw [hl] at hp
      refine ⟨Post.weaken (Grow.refl fs s) (by nofun) (by simp) (fun _ h => h) hp, by nofun, by nofun⟩
    | ok b s' =>
      rw [hl] at hp
      cases b with
      | true =>
        obtain ⟨he, hm⟩ := H.found _ _ _ ht hl
        obtain ⟨new, hg, hd, hc⟩ := hp
        refine ⟨⟨new, hg, hd, ?_⟩, ?_, by nofun⟩
        · exact hc.mono (fun _ h => h) (fun _ h => h) (fun g _ h => Or.inl ⟨d, by simp, h⟩) (by simp)
        · intro s'' h
          simp only [Res.ok.injEq, true_and] at h
          subst h
          exact ⟨d, by simp, he, hm⟩
      | false =>
        obtain ⟨he, rfl⟩ := H.missing _ _ _ ht hl
        obtain ⟨h1, h2, h3⟩ := search_spec H i ds s' ht
        simp only
        refine ⟨?_, ?_, ?_⟩
        · refine Post.seq (P := fun _ => False) (Grow.refl fs s') (by simp) (by intro g hg; cases hg) (fun _ h => h) h1 (by simp) ?_ (by simp)
          rintro g b s'' _ ⟨d', hd', h⟩ _
          exact Or.inl ⟨d', List.mem_cons_of_mem _ hd', h⟩
        · intro s'' h
          obtain ⟨d', hd', h⟩ := h2 s'' h
          exact ⟨d', List.mem_cons_of_mem _ hd', h⟩
        · intro s'' h
          obtain ⟨h, hd'⟩ := h3 s'' h
          refine ⟨h, ?_⟩
          intro d' hm
          rw [List.mem_cons] at hm
          rcases hm with rfl | hm
          · exact he
          · exact hd' d' hm

/-- The loop over all imports that are searched in the folders. -/
theorem searchAll_spec {fs : FS} {good : List LibFile → LibFile → Bool} {n : Nat} {load : LibFile → State → Res}
    (H : LoadSpec fs good n load) (cur : LibFile) (folders : State → List Path) (base : List Path)
    (hfold : ∀ s₁ : State, (∀ d ∈ base, d ∈ s₁.folders) → (∀ d ∈ folders s₁, d ∈ s₁.folders) ∧ ∀ d ∈ base, d ∈ folders s₁)
    (hcur : cur.folder ∈ base) :
    ∀ (is : List Import) (s : State), todo fs s < n → (∀ d ∈ base, d ∈ s.folders) → (∀ i ∈ is, i ∈ fs.imports cur) →
    Post fs good (fun _ => False) (fun h => h = cur) base s (searchAll fs load cur folders is s) ∧
    (∀ b s', searchAll fs load cur folders is s = .ok b s' → b = true ∧
      ∀ i ∈ is, ∃ d ∈ s'.folders, fs.exists (fs.buildFilename d i) = true ∧ fs.buildFilename d i ∈ s'.imported)
  | [], s, _, hb, _ => by
    refine ⟨⟨[], Grow.refl fs s, by simp, by intro g hg; cases hg⟩, ?_⟩
    intro b s' h
    simp only [searchAll, Res.ok.injEq] at h
    exact ⟨h.1.symm, by simp⟩
  | i :: is, s, ht, hb, hi => by
    obtain ⟨hp, hfound, hmiss⟩ := search_spec H i (folders s) s ht
    rw [searchAll]
    cases hl : search fs load i (folders s) s with
    | fuel => rw [hl] at hp; exact hp.elim
    | unresolved j h s' =>
      rw [hl] at hp
      exact ⟨Post.weaken (Grow.refl fs s) (by nofun) (by simp) hb hp, by nofun⟩
    | broken g s' =>
      rw [hl] at hp
      exact ⟨Post.weaken (Grow.refl fs s) (by nofun) (by simp) hb hp, by nofun⟩
    | ok b s' =>
      rw [hl] at hp
      cases b with
      | false =>
        obtain ⟨rfl, hd⟩ := hmiss s' hl
        refine ⟨⟨[], Grow.refl fs s', Or.inr rfl, hi i (by simp), ?_⟩, by nofun⟩
        rintro d (h | rfl)
        · exact hd d ((hfold s' hb).2 d h)
        · exact hd _ ((hfold s' hb).2 _ hcur)
      | true =>
        obtain ⟨d, hdm, hde, hdi⟩ := hfound s' hl
        obtain ⟨new, hg, hdone, hc⟩ := hp
        have hb' : ∀ d ∈ base, d ∈ s'.folders := fun d h => hg.folders d (hb d h)
        obtain ⟨h1, h2⟩ := searchAll_spec H cur folders base hfold hcur is s' (Nat.lt_of_le_of_lt (todo_grow hg) ht) hb'
          fun j hj => hi j (List.mem_cons_of_mem _ hj)
        simp only
        refine ⟨?_, ?_⟩
        · refine Post.seq hg hdone (hc.mono (C := fun _ => False) (Q := fun g => ∃ d ∈ folders s, g = fs.buildFilename d i) (D := fun h => h = cur) (fun _ h => h) (fun _ h => h) (fun g _ h => Or.inl h) (by simp))
            (fun _ h => h) h1 ?_ (by simp) (fun h hh => Or.inr hh)
          rintro g s'' ⟨d, hd, rfl⟩ hsub
          exact Or.inr ⟨cur, Or.inr rfl, i, hi i (by simp), d, hsub d (hg.folders d ((hfold s hb).1 d hd)), rfl⟩
        · intro b s'' h
          obtain ⟨hbt, hall⟩ := h2 b s'' h
          refine ⟨hbt, ?_⟩
          intro j hj
          rw [List.mem_cons] at hj
          rcases hj with rfl | hj
          · rw [h] at h1
            obtain ⟨new', hg', _⟩ := h1
            refine ⟨d, hg'.folders d (hg.folders d ((hfold s hb).1 d hdm)), hde, ?_⟩
            rw [hg'.imported]
            exact List.mem_append_right _ hdi
          · exact hall j hj

/-- What is known after the loop over the imports that are looked for relative to the current file. -/
def RelPost (fs : FS) (good : List LibFile → LibFile → Bool) (cur : LibFile) (is : List Import) (s : State) :
    Except Res (State × List Import) → Prop
  | .error r => (∀ b s', r ≠ .ok b s') ∧ Post fs good (fun _ => False) (fun h => h = cur) s.folders s r
  | .ok (s', rest) => ∃ new, Grow fs s s' new ∧ (∀ g ∈ new, Done fs g s') ∧
      Cause fs (fun _ => False) (fun h => h = cur) new s' ∧ (∀ i ∈ rest, i ∈ is) ∧
      ∀ i ∈ is, i ∈ rest ∧ fs.exists (fs.buildFilename cur.folder i) = false ∨
        fs.exists (fs.buildFilename cur.folder i) = true ∧ fs.buildFilename cur.folder i ∈ s'.imported

theorem relative_spec {fs : FS} {good : List LibFile → LibFile → Bool} {n : Nat} {load : LibFile → State → Res}
    (H : LoadSpec fs good n load) (cur : LibFile) :
    ∀ (is : List Import) (s : State), todo fs s < n → cur.folder ∈ s.folders → (∀ i ∈ is, i ∈ fs.imports cur) →
    RelPost fs good cur is s (relative fs load cur.folder is s)
  | [], s, ht, hc, hi => by
    rw [relative]
    exact ⟨[], Grow.refl fs s, by simp, (by intro g hg; cases hg), by simp, by simp⟩
  | i :: is, s, ht, hc, hi => by
    have hp := H.post (fs.buildFilename cur.folder i) s ht
    rw [relative]
    cases hl : load (fs.buildFilename cur.folder i) s with
    | fuel => rw [hl] at hp; exact hp.elim
    | unresolved j h s' =>
      rw [hl] at hp
      exact ⟨by nofun, Post.weaken (Grow.refl fs s) (by nofun) (by simp) (fun _ h => h) hp⟩
    | broken g s' =>
      rw [hl] at hp
      exact ⟨by nofun, Post.weaken (Grow.refl fs s) (by nofun) (by simp) (fun _ h => h) hp⟩
    | ok b s' =>
      rw [hl] at hp
      obtain ⟨new, hg, hdone, hcause⟩ := hp
      have ih := relative_spec H cur is s' (Nat.lt_of_le_of_lt (todo_grow hg) ht) (hg.folders _ hc)
        fun j hj => hi j (List.mem_cons_of_mem _ hj)
      have hcause' : Cause fs (fun _ => False) (fun h => h = cur) new s' := by
        refine hcause.mono (fun _ h => h) (fun _ h => h) ?_ (by simp)
        rintro g _ rfl
        exact Or.inr ⟨cur, Or.inr rfl, i, hi i (by simp), cur.folder, hg.folders _ hc, rfl⟩
      cases hr : relative fs load cur.folder is s' with
      | error r =>
        rw [hr] at ih
        obtain ⟨h1, h2⟩ := ih
        have : Post fs good (fun _ => False) (fun h => h = cur) s.folders s r :=
          Post.weaken hg h1 (fun h hh => Or.inr hh) hg.folders h2
        cases b
        · simp only [hr]; exact ⟨h1, this⟩
        · simp only [hr]; exact ⟨h1, this⟩
      | ok p =>
        obtain ⟨s'', rest⟩ := p
        rw [hr] at ih
        obtain ⟨new', hg', hdone', hc', hsub, hall⟩ := ih
        have hG := hg.trans hg'
        have hD : ∀ g ∈ new' ++ new, Done fs g s'' := by
          intro g hm
          rw [List.mem_append] at hm
          exact hm.elim (hdone' g) fun h => (hdone g h).mono hg'
        have hC : Cause fs (fun _ => False) (fun h => h = cur) (new' ++ new) s'' := by
          intro g hm
          rw [List.mem_append] at hm
          rcases hm with hm | hm
          · exact hc'.mono (Q := fun _ => False) (D := fun h => h = cur) (fun g h => List.mem_append_left _ h) (fun _ h => h) (by simp) (fun g h => Or.inr h) g hm
          · exact hcause'.mono (Q := fun _ => False) (D := fun h => h = cur) (fun g h => List.mem_append_right _ h) hg'.folders (by simp) (fun g h => Or.inr h) g hm
        cases b with
        | true =>
          obtain ⟨he, hm⟩ := H.found _ _ _ ht hl
          simp only [hr]
          refine ⟨new' ++ new, hG, hD, hC, fun j hj => List.mem_cons_of_mem _ (hsub j hj), ?_⟩
          intro j hj
          rw [List.mem_cons] at hj
          rcases hj with rfl | hj
          · exact Or.inr ⟨he, by rw [hg'.imported]; exact List.mem_append_right _ hm⟩
          · exact hall j hj
        | false =>
          obtain ⟨he, rfl⟩ := H.missing _ _ _ ht hl
          simp only [hr]
          refine ⟨new' ++ new, hG, hD, hC, ?_, ?_⟩
          · intro j hj
            rw [List.mem_cons] at hj ⊢
            exact hj.imp_right (hsub j)
          · intro j hj
            rw [List.mem_cons] at hj
            rcases hj with rfl | hj
            · exact Or.inl ⟨by simp, he⟩
            · rcases hall j hj with ⟨h, h'⟩ | h
              · exact Or.inl ⟨List.mem_cons_of_mem _ h, h'⟩
              · exact Or.inr h

/-- Loading one file, with enough fuel. -/
theorem loadLibrary_spec {fs : FS} (hw : fs.WF) (good : List LibFile → LibFile → Bool) :
    ∀ n, LoadSpec fs good n (loadLibrary fs good n)
  | 0 => ⟨fun f s h => absurd h (Nat.not_lt_zero _), fun f s s' h => absurd h (Nat.not_lt_zero _),
      fun f s s' h => absurd h (Nat.not_lt_zero _)⟩
  | n + 1 => by
    have H := loadLibrary_spec hw good n
    have key : ∀ f s, todo fs s < n + 1 →
        Post fs good (fun g => g = f) (fun _ => False) s.folders s (loadLibrary fs good (n + 1) f s) ∧
        (∀ s', loadLibrary fs good (n + 1) f s = .ok true s' → fs.exists f = true ∧ f ∈ s'.imported) ∧
        (∀ s', loadLibrary fs good (n + 1) f s = .ok false s' → fs.exists f = false ∧ s' = s) := by
      intro f s ht
      rw [loadLibrary]
      by_cases hex : fs.exists f = true
      · rw [if_neg (by simp [hex])]
        by_cases him : f ∈ s.imported
        · rw [if_pos him]
          refine ⟨⟨[], Grow.refl fs s, by simp, by intro g hg; cases hg⟩, ?_, by nofun⟩
          intro s' h
          simp only [Res.ok.injEq, true_and] at h
          subst h
          exact ⟨hex, him⟩
        · rw [if_neg him]
          have hfull : fs.fullname f.folder = f.folder := fullname_dir (hw f hex)
          have hfold : (addLibraryFolder fs f.folder s).folders = insertFolder f.folder s.folders := by
            rw [addLibraryFolder, hfull]
          generalize hs1 : ({ addLibraryFolder fs f.folder s with imported := f :: s.imported, log := f :: s.log } : State) = s1
          have hg1 : Grow fs s s1 [f] := by
            subst hs1
            refine ⟨rfl, rfl, by simp, by simpa using him, ?_, by simpa using hex, ?_, ?_⟩
            · intro d hd
              rw [hfold, mem_insertFolder]
              exact Or.inr hd
            · intro hd d hm
              rw [hfold, mem_insertFolder] at hm
              rcases hm with rfl | hm
              · exact hw f hex
              · exact hd d hm
            · intro g hm
              rw [List.mem_singleton] at hm
              subst hm
              rw [hfold, mem_insertFolder]
              exact Or.inl rfl
          have hcur : f.folder ∈ s1.folders := hg1.own f (by simp)
          have ht1 : todo fs s1 < n := by
            have := todo_lt (s' := s1) hex him (by rw [hg1.imported]; rfl)
            omega
          have e1 : (addLibraryFolder fs f.folder s).log = s.log := rfl
          have e2 : (addLibraryFolder fs f.folder s).imported = s.imported := rfl
          have e3 : (addLibraryFolder fs f.folder s).folders = s1.folders := by rw [← hs1]
          have e4 : ({ folders := s1.folders, imported := f :: s.imported, log := f :: s.log } : State) = s1 := by rw [← hs1]
          simp only [e1, e2, e3, e4]
          cases hgood : good s.log f with
          | false =>
            simp only [Bool.not_false, if_true]
            exact ⟨⟨[], hg1, by simpa using hgood⟩, by nofun, by nofun⟩
          | true =>
            simp only [Bool.not_true, Bool.false_eq_true, if_false]
            have hr := relative_spec H f (fs.imports f) s1 ht1 hcur fun i hi => hi
            cases hrel : relative fs (loadLibrary fs good n) f.folder (fs.imports f) s1 with
            | error r =>
              rw [hrel] at hr
              obtain ⟨h1, h2⟩ := hr
              refine ⟨Post.weaken hg1 h1 (by rintro h rfl; simp) hg1.folders h2, ?_, ?_⟩
              · intro s' h; exact absurd h (h1 _ _)
              · intro s' h; exact absurd h (h1 _ _)
            | ok p =>
              obtain ⟨s2, rest⟩ := p
              rw [hrel] at hr
              obtain ⟨new, hg2, hd2, hc2, hsub, hall⟩ := hr
              have hbase : ∀ d ∈ insertFolder f.folder s1.folders, d ∈ s1.folders := by
                intro d hd
                rw [mem_insertFolder] at hd
                rcases hd with rfl | hd
                · exact hcur
                · exact hd
              have hbase2 : ∀ d ∈ insertFolder f.folder s1.folders, d ∈ s2.folders := fun d hd => hg2.folders d (hbase d hd)
              obtain ⟨hp3, hall3⟩ := searchAll_spec H f (fun _ => insertFolder f.folder s1.folders) (insertFolder f.folder s1.folders)
                (fun s₁ h => ⟨h, fun _ h => h⟩) ((mem_insertFolder _ _ _).2 (Or.inl rfl)) rest s2
                (Nat.lt_of_le_of_lt (todo_grow hg2) ht1) hbase2 hsub
              simp only
              cases hsa : searchAll fs (loadLibrary fs good n) f (fun _ => insertFolder f.folder s1.folders) rest s2 with
              | fuel => rw [hsa] at hp3; exact hp3.elim
              | unresolved i h s' =>
                rw [hsa] at hp3
                refine ⟨Post.weaken (hg1.trans hg2) (by nofun) (by rintro h rfl; simp) ?_ hp3, by nofun, by nofun⟩
                exact fun d hd => (mem_insertFolder _ _ _).2 (Or.inr (hg1.folders d hd))
              | broken g s' =>
                rw [hsa] at hp3
                exact ⟨Post.weaken (base' := s.folders) (hg1.trans hg2) (by nofun) (by rintro h rfl; simp)
                  (fun d hd => (mem_insertFolder _ _ _).2 (Or.inr (hg1.folders d hd))) hp3, by nofun, by nofun⟩
              | ok b s' =>
                rw [hsa] at hp3
                obtain ⟨rfl, hres⟩ := hall3 b s' hsa
                obtain ⟨new3, hg3, hd3, hc3⟩ := hp3
                have hG : Grow fs s s' (new3 ++ (new ++ [f])) := (hg1.trans hg2).trans hg3
                refine ⟨⟨_, hG, ?_, ?_⟩, ?_, by nofun⟩
                · intro g hm
                  simp only [List.mem_append, List.mem_singleton] at hm
                  rcases hm with hm | hm | rfl
                  · exact hd3 g hm
                  · exact (hd2 g hm).mono hg3
                  · intro i hi
                    rcases hall i hi with ⟨hr, he⟩ | ⟨he, hm⟩
                    · exact ⟨hres i hr, by simp [he]⟩
                    · have hm' : fs.buildFilename g.folder i ∈ s'.imported := by
                        rw [hg3.imported]; exact List.mem_append_right _ hm
                      exact ⟨⟨g.folder, hG.own g (by simp), he, hm'⟩, fun _ => hm'⟩
                · intro g hm
                  simp only [List.mem_append, List.mem_singleton] at hm
                  rcases hm with hm | hm | rfl
                  · exact hc3.mono (Q := fun x => x = f) (D := fun _ => False) (fun g h => List.mem_append_left _ h) (fun _ h => h) (by simp) (fun h hh => by simp [hh]) g hm
                  · exact hc2.mono (Q := fun x => x = f) (D := fun _ => False) (fun g h => List.mem_append_right _ (List.mem_append_left _ h)) hg3.folders (by simp) (fun h hh => by simp [hh]) g hm
                  · exact Or.inl rfl
                · intro s'' h
                  simp only [Res.ok.injEq, true_and] at h
                  subst h
                  exact ⟨hex, by rw [hG.imported]; simp⟩
      · rw [if_pos (by simp [hex])]
        refine ⟨⟨[], Grow.refl fs s, by simp, by intro g hg; cases hg⟩, by nofun, ?_⟩
        intro s' h
        simp only [Res.ok.injEq, true_and] at h
        exact ⟨by simpa using hex, h.symm⟩
    exact ⟨fun f s h => (key f s h).1, fun f s s' h => (key f s h).2.1 s', fun f s s' h => (key f s h).2.2 s'⟩

/-! ## More fuel changes nothing -/

theorem search_congr {fs : FS} {good : List LibFile → LibFile → Bool} {n : Nat} {load load' : LibFile → State → Res}
    (H : LoadSpec fs good n load) (he : ∀ f s, todo fs s < n → load' f s = load f s) (i : Import) :
    ∀ (ds : List Path) (s : State), todo fs s < n → search fs load' i ds s = search fs load i ds s
  | [], s, _ => rfl
  | d :: ds, s, ht => by
    rw [search, search, he _ _ ht]
    cases hl : load (fs.buildFilename d i) s with
    | ok b s' =>
      cases b with
      | true => rfl
      | false =>
        obtain ⟨_, rfl⟩ := H.missing _ _ _ ht hl
        exact search_congr H he i ds s' ht
    | _ => rfl

theorem searchAll_congr {fs : FS} {good : List LibFile → LibFile → Bool} {n : Nat} {load load' : LibFile → State → Res}
    (H : LoadSpec fs good n load) (he : ∀ f s, todo fs s < n → load' f s = load f s) (cur : LibFile) (folders : State → List Path) :
    ∀ (is : List Import) (s : State), todo fs s < n → searchAll fs load' cur folders is s = searchAll fs load cur folders is s
  | [], s, _ => rfl
  | i :: is, s, ht => by
    rw [searchAll, searchAll, search_congr H he i _ s ht]
    have hp := (search_spec H i (folders s) s ht).1
    cases hl : search fs load i (folders s) s with
    | ok b s' =>
      cases b with
      | false => rfl
      | true =>
        rw [hl] at hp
        obtain ⟨new, hg, _⟩ := hp
        exact searchAll_congr H he cur folders is s' (Nat.lt_of_le_of_lt (todo_grow hg) ht)
    | _ => rfl

theorem relative_congr {fs : FS} {good : List LibFile → LibFile → Bool} {n : Nat} {load load' : LibFile → State → Res}
    (H : LoadSpec fs good n load) (he : ∀ f s, todo fs s < n → load' f s = load f s) (folder : Path) :
    ∀ (is : List Import) (s : State), todo fs s < n → relative fs load' folder is s = relative fs load folder is s
  | [], s, _ => rfl
  | i :: is, s, ht => by
    rw [relative, relative, he _ _ ht]
    have hp := H.post (fs.buildFilename folder i) s ht
    cases hl : load (fs.buildFilename folder i) s with
    | ok b s' =>
      rw [hl] at hp
      obtain ⟨new, hg, _⟩ := hp
      have := relative_congr H he folder is s' (Nat.lt_of_le_of_lt (todo_grow hg) ht)
      cases b
      · simp only [this]
      · exact this
    | _ => rfl

/-- Once the fuel exceeds the number of files that are not imported, the result does not depend on it. -/
theorem loadLibrary_more {fs : FS} (hw : fs.WF) (good : List LibFile → LibFile → Bool) :
    ∀ (n m : Nat), n ≤ m → ∀ f s, todo fs s < n → loadLibrary fs good m f s = loadLibrary fs good n f s
  | 0, _, _, f, s, h => absurd h (Nat.not_lt_zero _)
  | n + 1, 0, h, _, _, _ => absurd h (by omega)
  | n + 1, m + 1, hnm, f, s, ht => by
    have H := loadLibrary_spec hw good n
    have he := loadLibrary_more hw good n m (by omega)
    by_cases hex : fs.exists f = true
    · by_cases him : f ∈ s.imported
      · simp only [loadLibrary, hex, him, Bool.not_true, Bool.false_eq_true, if_false, if_true]
      · generalize hs1 : ({ folders := (addLibraryFolder fs f.folder s).folders, imported := f :: (addLibraryFolder fs f.folder s).imported, log := f :: (addLibraryFolder fs f.folder s).log } : State) = s1
        have ht1 : todo fs s1 < n := by
          have := todo_lt (s' := s1) hex him (by rw [← hs1]; rfl)
          omega
        have hcur : f.folder ∈ s1.folders := by
          rw [← hs1]
          show f.folder ∈ (addLibraryFolder fs f.folder s).folders
          rw [addLibraryFolder, fullname_dir (hw f hex)]
          exact (mem_insertFolder _ _ _).2 (Or.inl rfl)
        have hr := relative_spec H f (fs.imports f) s1 ht1 hcur fun i hi => hi
        simp only [loadLibrary, hex, him, Bool.not_true, Bool.false_eq_true, if_false, hs1,
          relative_congr H he f.folder (fs.imports f) s1 ht1]
        cases hrel : relative fs (loadLibrary fs good n) f.folder (fs.imports f) s1 with
        | error r => rfl
        | ok p =>
          obtain ⟨s2, rest⟩ := p
          rw [hrel] at hr
          obtain ⟨new, hg2, _⟩ := hr
          simp only [searchAll_congr H he f _ rest s2 (Nat.lt_of_le_of_lt (todo_grow hg2) ht1)]
    · simp [loadLibrary, hex]

/-! ## Which file an import stands for -/

/-- If the import stands for an existing file of the folder, `buildFilename` finds an existing file. -/
theorem buildFilename_finds {fs : FS} (hw : fs.WF) {d : Path} (hd : IsDir fs d) {i : Import} {g : LibFile}
    (hg : fs.exists g = true) (hn : Names d i g) : fs.exists (fs.buildFilename d i) = true := by
  have key : fs.exists ⟨fs.buildPath d i, .slang⟩ = true ∨ fs.exists ⟨fs.buildPath d i, .os⟩ = true ∨
      fs.exists ⟨fs.buildPath (fs.buildPath d i) ["All"], .slang⟩ = true ∨ fs.exists ⟨fs.buildPath (fs.buildPath d i) ["All"], .os⟩ = true := by
    obtain ⟨p, e⟩ := g
    rcases hn with rfl | rfl
    · have : fs.buildPath d i = d ++ i := by
        rw [FS.buildPath]
        by_cases hi : i = []
        · subst hi
          rw [List.append_nil, fullname_dir hd]
        · have hdir := hw _ hg
          rw [LibFile.folder] at hdir
          rcases List.eq_nil_or_concat i with h | ⟨j, c, rfl⟩
          · exact absurd h hi
          · simp only [List.concat_eq_append] at *
            rw [← List.append_assoc] at hdir ⊢
            rw [List.dropLast_concat] at hdir
            rw [fullname_append hdir, FS.walk]
            split
            · rw [FS.walk]
            · rfl
      rw [this]
      cases e
      · exact Or.inl hg
      · exact Or.inr (Or.inl hg)
    · have hdir := hw _ hg
      rw [LibFile.folder, List.dropLast_concat] at hdir
      have h1 : fs.buildPath d i = d ++ i := fullname_dir hdir
      have h2 : fs.buildPath (d ++ i) ["All"] = d ++ i ++ ["All"] := by
        rw [FS.buildPath, fullname_append hdir, FS.walk]
        split
        · rw [FS.walk]
        · rfl
      rw [h1, h2]
      cases e
      · exact Or.inr (Or.inr (Or.inl hg))
      · exact Or.inr (Or.inr (Or.inr hg))
  rw [FS.buildFilename]
  split
  · assumption
  · split
    · assumption
    · split
      · assumption
      · rcases key with h | h | h | h
        · exact absurd h (by assumption)
        · exact absurd h (by assumption)
        · exact absurd h (by assumption)
        · exact h

/-- No import leads through a missing directory to a file of the same name as that directory. -/
def Separate (fs : FS) : Prop :=
  ∀ f i, i ∈ fs.imports f → ∀ d p e, p <+: i → p ≠ [] → p.length < i.length → fs.exists ⟨d ++ p, e⟩ = true → d ++ p ∈ fs.dirs

/-- Under `Separate`, the file `buildFilename` finds is one the import stands for. -/
theorem buildFilename_names {fs : FS} (hs : Separate fs) {d : Path} (hd : IsDir fs d) {i : Import} {f : LibFile}
    (hi : i ∈ fs.imports f) (he : fs.exists (fs.buildFilename d i) = true) : Names d i (fs.buildFilename d i) := by
  have hpath : fs.buildPath d i = fs.walk d i := fullname_append hd i
  have trunc : ∀ p, p <+: i → p ≠ [] → p.length < i.length → d ++ p ∉ fs.dirs → ∀ e, ¬ fs.exists ⟨d ++ p, e⟩ = true :=
    fun p h1 h2 h3 h4 e h => h4 (hs f i hi d p e h1 h2 h3 h)
  rw [FS.buildFilename] at he ⊢
  rcases walk_end fs i d with hw | ⟨p, hp, hne, hl, hw, hnd, hx⟩
  · rw [hpath, hw] at he ⊢
    have hall : ∀ e, fs.exists ⟨fs.buildPath (d ++ i) ["All"], e⟩ = true → ¬ fs.exists ⟨d ++ i, .slang⟩ = true → ¬ fs.exists ⟨d ++ i, .os⟩ = true →
        fs.buildPath (d ++ i) ["All"] = d ++ i ++ ["All"] := by
      intro e hex h1 h2
      have h0 : fs.buildPath (d ++ i) ["All"] = fs.walk d (i ++ ["All"]) := by
        rw [FS.buildPath, List.append_assoc, fullname_append hd]
      rw [h0] at hex ⊢
      rcases walk_end fs (i ++ ["All"]) d with h | ⟨p, hp, hne, hl, h, hnd, _⟩
      · rw [h, List.append_assoc]
      · rw [h] at hex
        have hpi : p <+: i := by
          rcases List.prefix_concat_iff.1 (by simpa using hp) with h | h
          · rw [h] at hl; simp at hl
          · exact h
        by_cases hpl : p.length < i.length
        · exact absurd hex (trunc p hpi hne hpl hnd e)
        · have : p = i := hpi.eq_of_length (by have := hpi.length_le; omega)
          subst this
          cases e
          · exact absurd hex h1
          · exact absurd hex h2
    by_cases h1 : fs.exists ⟨d ++ i, .slang⟩ = true
    · rw [if_pos h1]; exact Or.inl rfl
    · rw [if_neg h1] at he ⊢
      by_cases h2 : fs.exists ⟨d ++ i, .os⟩ = true
      · rw [if_pos h2]; exact Or.inl rfl
      · rw [if_neg h2] at he ⊢
        by_cases h3 : fs.exists ⟨fs.buildPath (d ++ i) ["All"], .slang⟩ = true
        · rw [if_pos h3]; exact Or.inr (hall _ h3 h1 h2)
        · rw [if_neg h3] at he ⊢
          exact Or.inr (hall _ he h1 h2)
  · exfalso
    rw [hpath, hw] at he
    have hd2 : fs.buildPath (d ++ p) ["All"] = d ++ p := by
      have h0 : fs.buildPath (d ++ p) ["All"] = fs.walk d (p ++ ["All"]) := by
        rw [FS.buildPath, List.append_assoc, fullname_append hd]
      rw [h0]
      exact walk_stop fs p ["All"] d hne hx hnd
    rw [hd2] at he
    have h1 := trunc p hp hne hl hnd
    rw [if_neg (h1 _), if_neg (h1 _), if_neg (h1 _)] at he
    exact h1 _ he

/-! ## Scripts -/

/-- What is known after the imports of a script have been loaded. -/
theorem createScript_spec {fs : FS} (hw : fs.WF) (good : List LibFile → LibFile → Bool) {script : LibFile}
    (hx : fs.exists script = true) (s : State) :
    let base := insertFolder script.folder s.folders
    let s0 : State := { folders := base, imported := s.imported, log := script :: s.log }
    createScript fs good script s = .broken script s0 ∧ good s.log script = false ∨
    (Post fs good (fun _ => False) (fun h => h = script) base s0 (createScript fs good script s) ∧
      ∀ b s', createScript fs good script s = .ok b s' → b = true ∧
        ∀ i ∈ fs.imports script, ∃ d ∈ s'.folders, fs.exists (fs.buildFilename d i) = true ∧ fs.buildFilename d i ∈ s'.imported) := by
  intro base s0
  have hfull : fs.fullname script.folder = script.folder := fullname_dir (hw _ hx)
  simp only [createScript, addLibraryFolder, hfull]
  cases hg : good s.log script with
  | false => left; exact ⟨rfl, rfl⟩
  | true =>
    right
    have ht : todo fs s0 < enough fs := by
      have : todo fs s0 ≤ fs.files.length := List.countP_le_length
      rw [enough]
      omega
    have := searchAll_spec (loadLibrary_spec hw good (enough fs)) script (fun s => s.folders) base
      (fun s₁ h => ⟨fun _ h => h, h⟩) ((mem_insertFolder _ _ _).2 (Or.inl rfl)) (fs.imports script) s0 ht (fun _ h => h) (fun _ h => h)
    exact this

/-- **C51.** Loading terminates, for every set of files, also if they import each other in cycles: loading
one library ends with the fuel "number of files not imported yet, plus one", and more fuel does not change the
result; a script ends with `enough` fuel. -/
theorem loading_terminates {fs : FS} (hw : fs.WF) (good : List LibFile → LibFile → Bool) :
    (∀ f s n, (fs.files.filter fun e => e.1 ∉ s.imported).length < n →
      loadLibrary fs good n f s ≠ .fuel ∧ ∀ m, n ≤ m → loadLibrary fs good m f s = loadLibrary fs good n f s) ∧
    ∀ script s, fs.exists script = true → createScript fs good script s ≠ .fuel := by
  refine ⟨?_, ?_⟩
  · intro f s n ht
    rw [← List.countP_eq_length_filter] at ht
    refine ⟨?_, fun m hm => loadLibrary_more hw good n m hm f s ht⟩
    intro h
    have := (loadLibrary_spec hw good n).post f s ht
    rw [h] at this
    exact this
  · intro script s hx h
    rcases createScript_spec hw good hx s with ⟨h', _⟩ | ⟨hp, _⟩
    · rw [h'] at h; cases h
    · rw [h] at hp; exact hp

/-- **C51.** Whatever the outcome, the files analysed for a script are the script followed by libraries that
are pairwise different and had not been imported before; exactly they have been added to the imported
libraries. -/
theorem libraries_analysed_once {fs : FS} (hw : fs.WF) (good : List LibFile → LibFile → Bool) {script : LibFile}
    (hx : fs.exists script = true) (s s' : State) (h : (createScript fs good script s).state? = some s') :
    ∃ libs : List LibFile, s'.log = libs ++ script :: s.log ∧ s'.imported = libs ++ s.imported ∧ libs.Nodup ∧
      (∀ g ∈ libs, g ∉ s.imported) ∧ ∀ g ∈ libs, fs.exists g = true := by
  rcases createScript_spec hw good hx s with ⟨h', _⟩ | ⟨hp, _⟩
  · rw [h'] at h
    simp only [Res.state?, Option.some.injEq] at h
    subst h
    exact ⟨[], rfl, rfl, by simp, by simp, by simp⟩
  · cases hr : createScript fs good script s with
    | fuel => rw [hr] at h; cases h
    | ok b s₁ =>
      rw [hr] at h hp
      simp only [Res.state?, Option.some.injEq] at h
      subst h
      obtain ⟨new, hg, _⟩ := hp
      exact ⟨new, hg.log, hg.imported, hg.nodup, hg.fresh, hg.ex⟩
    | unresolved i f s₁ =>
      rw [hr] at h hp
      simp only [Res.state?, Option.some.injEq] at h
      subst h
      obtain ⟨new, hg, _⟩ := hp
      exact ⟨new, hg.log, hg.imported, hg.nodup, hg.fresh, hg.ex⟩
    | broken g s₁ =>
      rw [hr] at h hp
      simp only [Res.state?, Option.some.injEq] at h
      subst h
      obtain ⟨new, hg, _⟩ := hp
      exact ⟨g :: new, hg.log, hg.imported, hg.nodup, hg.fresh, hg.ex⟩

/-- **C52, partial.** If loading a script succeeds then every import of the script and of every library
loaded for it stands for a loaded library in one of the library folders; and where such a file exists beside
a library that imports it, it is that file which has been loaded. Missing: imports through a missing directory (`Separate`), see
`import_loads_other_file_refuted`; library folders that do not exist. -/
theorem imports_complete_partial {fs : FS} (hw : fs.WF) (hs : Separate fs) (good : List LibFile → LibFile → Bool)
    {script : LibFile} (hx : fs.exists script = true) {s s' : State} (hd : ∀ d ∈ s.folders, IsDir fs d) {b : Bool}
    (h : createScript fs good script s = .ok b s') :
    b = true ∧ ∃ libs, s'.imported = libs ++ s.imported ∧
      (∀ f, f = script ∨ f ∈ libs → ∀ i ∈ fs.imports f,
        ∃ d ∈ s'.folders, IsDir fs d ∧ ∃ g ∈ s'.imported, fs.exists g = true ∧ Names d i g) ∧
      (∀ f ∈ libs, ∀ i ∈ fs.imports f, (∃ g, fs.exists g = true ∧ Names f.folder i g) →
        ∃ g ∈ s'.imported, fs.exists g = true ∧ Names f.folder i g) := by
  rcases createScript_spec hw good hx s with ⟨h', _⟩ | ⟨hp, hb⟩
  · rw [h'] at h; cases h
  · obtain ⟨hbt, himp⟩ := hb b s' h
    rw [h] at hp
    obtain ⟨new, hg, hdone, _⟩ := hp
    have hdirs : ∀ d ∈ s'.folders, IsDir fs d := by
      refine hg.dirs ?_
      intro d hm
      rcases (mem_insertFolder _ _ _).1 hm with rfl | hm
      · exact hw _ hx
      · exact hd d hm
    refine ⟨hbt, new, hg.imported, ?_, ?_⟩
    · intro f hf i hi
      have : ∃ d ∈ s'.folders, fs.exists (fs.buildFilename d i) = true ∧ fs.buildFilename d i ∈ s'.imported := by
        rcases hf with rfl | hf
        · exact himp i hi
        · exact (hdone f hf i hi).1
      obtain ⟨d, hdm, hde, hdi⟩ := this
      exact ⟨d, hdm, hdirs d hdm, _, hdi, hde, buildFilename_names hs (hdirs d hdm) hi hde⟩
    · rintro f hf i hi ⟨g, hge, hgn⟩
      have hfd : IsDir fs f.folder := hw f (hg.ex f hf)
      have he := buildFilename_finds hw hfd hge hgn
      exact ⟨_, (hdone f hf i hi).2 he, he, buildFilename_names hs hfd hi he⟩

/-- **C52.** Only what is imported is loaded: every library loaded for a script is the file found for an import
of the script or of another loaded library, in one of the library folders. -/
theorem only_imports_loaded {fs : FS} (hw : fs.WF) (good : List LibFile → LibFile → Bool)
    {script : LibFile} (hx : fs.exists script = true) {s s' : State} {b : Bool}
    (h : createScript fs good script s = .ok b s') :
    ∃ libs, s'.imported = libs ++ s.imported ∧ ∀ g ∈ libs, ∃ f, (f = script ∨ f ∈ libs) ∧
      ∃ i ∈ fs.imports f, ∃ d ∈ s'.folders, g = fs.buildFilename d i := by
  rcases createScript_spec hw good hx s with ⟨h', _⟩ | ⟨hp, hb⟩
  · rw [h'] at h; cases h
  · rw [h] at hp
    obtain ⟨new, hg, _, hc⟩ := hp
    refine ⟨new, hg.imported, ?_⟩
    intro g hm
    rcases hc g hm with h | ⟨f, hf, h⟩
    · exact h.elim
    · exact ⟨f, hf.symm, h⟩

/-- **C52.** If an import is reported as not resolvable, it is an import of the script or of a library loaded
for it, and no file it stands for exists beside the importing file or in the library folders known at the
start. -/
theorem unresolved_is_missing {fs : FS} (hw : fs.WF) (good : List LibFile → LibFile → Bool)
    {script : LibFile} (hx : fs.exists script = true) {s s' : State} (hd : ∀ d ∈ s.folders, IsDir fs d)
    {i : Import} {f : LibFile} (h : createScript fs good script s = .unresolved i f s') :
    (f = script ∨ f ∈ s'.imported) ∧ i ∈ fs.imports f ∧
      ∀ d, d ∈ s.folders ∨ d = f.folder → ∀ g, Names d i g → fs.exists g = false := by
  rcases createScript_spec hw good hx s with ⟨h', _⟩ | ⟨hp, hb⟩
  · rw [h'] at h; cases h
  · rw [h] at hp
    obtain ⟨new, hg, hf, hi, hall⟩ := hp
    refine ⟨?_, hi, ?_⟩
    · rcases hf with hf | hf
      · right; rw [hg.imported]; exact List.mem_append_left _ hf
      · exact Or.inl hf
    · intro d hdm g hn
      have hdir : IsDir fs d := by
        rcases hdm with hdm | rfl
        · exact hd d hdm
        · rcases hf with hf | rfl
          · exact hw f (hg.ex f hf)
          · exact hw _ hx
      have hno := hall d (hdm.imp_left fun hdm => (mem_insertFolder _ _ _).2 (Or.inr hdm))
      cases hge : fs.exists g with
      | false => rfl
      | true => rw [buildFilename_finds hw hdir hge hn] at hno; cases hno

/-- **C52, partial.** If some import of the script or of a library that would be loaded cannot be resolved anywhere,
loading does not succeed. Missing: see `imports_complete_partial`. -/
theorem unresolvable_import_fails_partial {fs : FS} (hw : fs.WF) (hs : Separate fs) (good : List LibFile → LibFile → Bool)
    {script : LibFile} (hx : fs.exists script = true) {s : State} (hd : ∀ d ∈ s.folders, IsDir fs d)
    {i : Import} (hi : i ∈ fs.imports script) (hno : ∀ d g, IsDir fs d → Names d i g → fs.exists g = false) :
    ∀ b s', createScript fs good script s ≠ .ok b s' := by
  intro b s' h
  obtain ⟨_, libs, _, h1, _⟩ := imports_complete_partial hw hs good hx hd h
  obtain ⟨d, _, hdd, g, _, hge, hn⟩ := h1 script (Or.inl rfl) i hi
  rw [hno d g hdd hn] at hge
  cases hge

/-! ## Witnesses -/

/-- Two files that import each other. -/
def cyclic : FS where
  dirs := [["p"]]
  files := [(⟨["p", "main"], .slang⟩, [["lib"]]), (⟨["p", "lib"], .slang⟩, [["main"]])]

/-- **C51, refuted for the script.** The script is not entered in the imported libraries: if a library
imports the file of the script, the script is analysed twice. -/
theorem script_analysed_twice_refuted :
    ∃ (fs : FS) (script : LibFile) (s' : State), fs.WF ∧ fs.exists script = true ∧
      createScript fs (fun _ _ => true) script {} = .ok true s' ∧ s'.log.count script = 2 := by
  refine ⟨cyclic, ⟨["p", "main"], .slang⟩, ⟨[["p"]], [⟨["p", "main"], .slang⟩, ⟨["p", "lib"], .slang⟩],
    [⟨["p", "main"], .slang⟩, ⟨["p", "lib"], .slang⟩, ⟨["p", "main"], .slang⟩]⟩, ?_, by decide, by rfl, by decide⟩
  intro f hf q hq hp
  obtain ⟨e, he, rfl⟩ := (exists_iff _ _).1 hf
  simp only [cyclic, List.mem_cons, List.not_mem_nil, or_false] at he
  have : e.1.folder = ["p"] := by rcases he with rfl | rfl <;> rfl
  rw [this] at hp
  cases q with
  | nil => exact absurd rfl hq
  | cons c q =>
    rw [List.cons_prefix_cons, List.prefix_nil] at hp
    obtain ⟨rfl, rfl⟩ := hp
    decide

/-- A script with `import a.b`, beside `a.slang`. -/
def truncated : FS where
  dirs := [["p"]]
  files := [(⟨["p", "main"], .slang⟩, [["a", "b"]]), (⟨["p", "a"], .slang⟩, [])]

/-- **C52, refuted.** The path of an import ends at the first directory that does not exist: `import a.b` with no
directory `a` loads `a.slang`, although no file of that name exists, instead of failing. -/
theorem import_loads_other_file_refuted :
    ∃ (fs : FS) (script : LibFile) (s' : State), fs.exists script = true ∧ ["a", "b"] ∈ fs.imports script ∧
      (∀ d g, Names d ["a", "b"] g → fs.exists g = false) ∧
      createScript fs (fun _ _ => true) script {} = .ok true s' ∧ s'.imported = [⟨["p", "a"], .slang⟩] := by
  refine ⟨truncated, ⟨["p", "main"], .slang⟩, ⟨[["p"]], [⟨["p", "a"], .slang⟩], [⟨["p", "a"], .slang⟩, ⟨["p", "main"], .slang⟩]⟩,
    by decide, by decide, ?_, by rfl, rfl⟩
  intro d g hn
  cases hg : truncated.exists g with
  | false => rfl
  | true =>
    obtain ⟨e, he, rfl⟩ := (exists_iff _ _).1 hg
    simp only [truncated, List.mem_cons, List.not_mem_nil, or_false] at he
    exfalso
    have h1 : ∀ (x : String) (l : List String), ["p", x] = l ++ ["a", "b"] → x = "b" := by
      intro x l h
      have := congrArg List.reverse h
      simp only [List.reverse_append, List.reverse_cons, List.reverse_nil, List.nil_append, List.cons_append, List.cons.injEq] at this
      exact this.1
    have h2 : ∀ (x : String) (l : List String), ["p", x] = l ++ ["a", "b"] ++ ["All"] → x = "All" := by
      intro x l h
      have := congrArg List.reverse h
      simp only [List.reverse_append, List.reverse_cons, List.reverse_nil, List.nil_append, List.cons_append, List.cons.injEq] at this
      exact this.1
    rcases he with rfl | rfl
    · rcases hn with h | h
      · exact absurd (h1 _ _ h) (by decide)
      · exact absurd (h2 _ _ h) (by decide)
    · rcases hn with h | h
      · exact absurd (h1 _ _ h) (by decide)
      · exact absurd (h2 _ _ h) (by decide)

/-- Library folder `/c`, script folder `/s`; `x` exists both beside the script and beside the library `k.lib`. -/
def shadowing (imports : List Import) : FS where
  dirs := [["c"], ["c", "k"], ["s"]]
  files := [(⟨["s", "main"], .slang⟩, imports), (⟨["s", "x"], .slang⟩, []), (⟨["c", "k", "lib"], .slang⟩, []), (⟨["c", "k", "x"], .slang⟩, [])]

/-- **C91, refuted.** What `import x` of a script means depends on what has been imported before: the folder of
every loaded library becomes a library folder, and the folders are searched in alphabetical order. -/
theorem import_meaning_depends_on_history_refuted :
    (∃ s', createScript (shadowing [["x"]]) (fun _ _ => true) ⟨["s", "main"], .slang⟩ { folders := [["c"]] } = .ok true s' ∧
      ⟨["s", "x"], .slang⟩ ∈ s'.imported ∧ ⟨["c", "k", "x"], .slang⟩ ∉ s'.imported) ∧
    (∃ s', createScript (shadowing [["k", "lib"], ["x"]]) (fun _ _ => true) ⟨["s", "main"], .slang⟩ { folders := [["c"]] } = .ok true s' ∧
      ⟨["s", "x"], .slang⟩ ∉ s'.imported ∧ ⟨["c", "k", "x"], .slang⟩ ∈ s'.imported) := by
  refine ⟨⟨⟨[["c"], ["s"]], [⟨["s", "x"], .slang⟩], [⟨["s", "x"], .slang⟩, ⟨["s", "main"], .slang⟩]⟩, by rfl, by decide, by decide⟩,
    ⟨⟨[["c"], ["c", "k"], ["s"]], [⟨["c", "k", "x"], .slang⟩, ⟨["c", "k", "lib"], .slang⟩],
      [⟨["c", "k", "x"], .slang⟩, ⟨["c", "k", "lib"], .slang⟩, ⟨["s", "main"], .slang⟩]⟩, by rfl, by decide, by decide⟩⟩

/-! ## The hypotheses are met -/

theorem wf_of_check (fs : FS) (h : ∀ e ∈ fs.files, ∀ n ∈ List.range (e.1.folder.length + 1), e.1.folder.take n ≠ [] → e.1.folder.take n ∈ fs.dirs) :
    fs.WF := by
  intro f hf q hq hp
  obtain ⟨e, he, rfl⟩ := (exists_iff _ _).1 hf
  have := h e he q.length (by have := hp.length_le; rw [List.mem_range]; omega)
  rw [← List.prefix_iff_eq_take.1 hp] at this
  exact this hq

theorem separate_of_check (fs : FS)
    (h : ∀ e ∈ fs.files, ∀ i ∈ e.2, ∀ n ∈ List.range i.length, i.take n ≠ [] → ∀ g ∈ fs.files, i.take n <:+ g.1.path → g.1.path ∈ fs.dirs) :
    Separate fs := by
  intro f i hi d p e hp hne hl hex
  have hi' : ∃ x ∈ fs.files, i ∈ x.2 := by
    rw [FS.imports] at hi
    cases hfind : fs.files.find? fun e => e.1 = f with
    | none => rw [hfind] at hi; cases hi
    | some x => rw [hfind] at hi; exact ⟨x, List.mem_of_find?_eq_some hfind, hi⟩
  obtain ⟨x, hx, hxi⟩ := hi'
  obtain ⟨g, hg, hge⟩ := (exists_iff _ _).1 hex
  have := h x hx i hxi p.length (List.mem_range.2 hl)
  rw [← List.prefix_iff_eq_take.1 hp] at this
  have := this hne g hg (by rw [hge]; exact List.suffix_append d p)
  rwa [hge] at this

/-- A script that imports `a.b` (found below its folder) and `util` (a directory with an `All` file, found in the
library folder); `a.b` imports `c` beside it, which imports `a.b` again through the script's folder. -/
def nested : FS where
  dirs := [["p"], ["p", "a"], ["lib"], ["lib", "util"]]
  files := [(⟨["p", "main"], .slang⟩, [["a", "b"], ["util"]]), (⟨["p", "a", "b"], .slang⟩, [["c"]]),
    (⟨["p", "a", "c"], .os⟩, [["a", "b"]]), (⟨["lib", "util", "All"], .slang⟩, [])]

example : nested.WF ∧ Separate nested ∧ nested.exists ⟨["p", "main"], .slang⟩ = true ∧
    (∀ d ∈ [["lib"]], IsDir nested d) ∧
    createScript nested (fun _ _ => true) ⟨["p", "main"], .slang⟩ { folders := [["lib"]] } =
      .ok true ⟨[["lib"], ["lib", "util"], ["p"], ["p", "a"]],
        [⟨["lib", "util", "All"], .slang⟩, ⟨["p", "a", "c"], .os⟩, ⟨["p", "a", "b"], .slang⟩],
        [⟨["lib", "util", "All"], .slang⟩, ⟨["p", "a", "c"], .os⟩, ⟨["p", "a", "b"], .slang⟩, ⟨["p", "main"], .slang⟩]⟩ := by
  refine ⟨wf_of_check _ (by decide), separate_of_check _ (by decide), by decide, ?_, by rfl⟩
  intro d hd q hq hp
  rw [List.mem_singleton] at hd
  subst hd
  cases q with
  | nil => exact absurd rfl hq
  | cons c q =>
    rw [List.cons_prefix_cons, List.prefix_nil] at hp
    obtain ⟨rfl, rfl⟩ := hp
    decide

/-- An import that cannot be resolved: the hypotheses of `unresolved_is_missing` and
`unresolvable_import_fails_partial`. -/
def dangling : FS where
  dirs := [["p"]]
  files := [(⟨["p", "main"], .slang⟩, [["lib"]]), (⟨["p", "lib"], .slang⟩, [["gone"]])]

example : dangling.WF ∧ createScript dangling (fun _ _ => true) ⟨["p", "main"], .slang⟩ {} =
    .unresolved ["gone"] ⟨["p", "lib"], .slang⟩ ⟨[["p"]], [⟨["p", "lib"], .slang⟩], [⟨["p", "lib"], .slang⟩, ⟨["p", "main"], .slang⟩]⟩ :=
  ⟨wf_of_check _ (by decide), by rfl⟩

/-- A library that cannot be analysed ends the loading. -/
example : createScript cyclic (fun _ f => f.path != ["p", "lib"]) ⟨["p", "main"], .slang⟩ {} =
    .broken ⟨["p", "lib"], .slang⟩ ⟨[["p"]], [⟨["p", "lib"], .slang⟩], [⟨["p", "lib"], .slang⟩, ⟨["p", "main"], .slang⟩]⟩ := by rfl

end Imports
end Verif
