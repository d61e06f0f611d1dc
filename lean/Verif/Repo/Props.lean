import Verif.Repo.Model
import Verif.SemVer.ScriptProps
import Verif.Text.Props

/-!
# Properties of the tools for repositories (C174, C175)
-/

namespace Verif.Repo

open Verif.Str Verif.Text
open Verif.SemVer.Script (SemVer fromString Before Usable compare_partial before_total sub_part sub_tail)

/-! ## C174: the index lists the newest versions -/

theorem lastOf_eq (a b : Text) (c : Char) (hb : c ∉ b) (hl : (a ++ c :: b).length < 2 ^ 31) : lastOf (a ++ c :: b) c = .ok a.length := by
  obtain ⟨r, h1, h2⟩ := lastIndexOf_is_the_last (a ++ c :: b) [c] hl _ (Nat.lt_succ_self _)
  unfold lastOf
  rw [h1]
  have hat : OccursAt (a ++ c :: b) [c] a.length := ⟨a, b, by simp, rfl⟩
  rcases h2 with ⟨i, rfl, ⟨x, y, e, hx⟩, hmax⟩ | ⟨-, hno⟩
  · have hge := hmax _ hat
    have : i = a.length := by
      rcases Nat.lt_or_ge a.length i with hlt | hle
      · exfalso
        apply hb
        have hxi : (a ++ c :: b)[i]? = some c := by rw [e]; simp [← hx]
        rw [List.getElem?_append_right (by omega)] at hxi
        obtain ⟨k, hk⟩ : ∃ k, i - a.length = k + 1 := ⟨i - a.length - 1, by omega⟩
        rw [hk, List.getElem?_cons_succ] at hxi
        exact List.mem_of_getElem? hxi
      · omega
    rw [this]
  · exact absurd ⟨_, hat⟩ hno

/-- The path of a module's file. -/
def pathOf (dir name version : Text) : Text := dir ++ '/' :: (name ++ '_' :: (version ++ ".json".toList))

theorem readPath_eq (dir name version : Text) (hn : '/' ∉ name) (hv : '/' ∉ version) (hu : '_' ∉ version)
    (hl : (pathOf dir name version).length < 2 ^ 31) : readPath (pathOf dir name version) = .ok (name, version) := by
  have hjson : ".json".toList.length = 5 := by decide
  have e1 : '/' ∉ name ++ '_' :: (version ++ ".json".toList) := by
    intro h
    rcases List.mem_append.1 h with h | h
    · exact hn h
    · rcases List.mem_cons.1 h with h | h
      · exact absurd h (by decide)
      · rcases List.mem_append.1 h with h | h
        · exact hv h
        · exact absurd h (by decide +kernel)
  have hlen : ∀ s : Text, s.length < 2 ^ 31 → length (newString s) = s.length := by
    intro s hs
    exact strlen_eq hs
  have hl' := hl
  unfold pathOf at hl'
  simp only [List.length_append, List.length_cons, hjson] at hl'
  unfold readPath
  have h1 : lastOf (pathOf dir name version) '/' = .ok (dir.length : Int) := lastOf_eq _ _ _ e1 hl
  rw [h1]
  simp only [thenDo, subStringLen, hlen _ hl]
  have h2 : extSubstr (newString (pathOf dir name version)).value ((dir.length : Int) + 1)
      (some ((pathOf dir name version).length : Int)) = .ok (name ++ '_' :: (version ++ ".json".toList)) := by
    have e : (newString (pathOf dir name version)).value = (dir ++ ['/']) ++ (name ++ '_' :: (version ++ ".json".toList)) := by
      simp [newString, pathOf]
    rw [e, sub_part _ _ _ _ (by simp) (by omega) (by simp only [List.length_append, List.length_cons, hjson, List.length_nil]; omega)]
    rw [List.take_of_length_le]
    simp only [pathOf, List.length_append, List.length_cons, hjson, Int.toNat_natCast]; omega
  rw [h2]
  simp only
  have hl2 : (name ++ '_' :: (version ++ ".json".toList)).length < 2 ^ 31 := by
    simp only [List.length_append, List.length_cons, hjson]; omega
  rw [hlen _ hl2]
  have h3 : extSubstr (newString (name ++ '_' :: (version ++ ".json".toList))).value 0
      (some (((name ++ '_' :: (version ++ ".json".toList)).length : Int) - 5)) = .ok (name ++ '_' :: version) := by
    have := sub_part [] (name ++ '_' :: (version ++ ".json".toList)) 0
      (((name ++ '_' :: (version ++ ".json".toList)).length : Int) - 5) (by simp)
      (by simp only [List.length_append, List.length_cons, hjson]; omega) (by simpa using hl2)
    rw [List.nil_append] at this
    rw [show (newString (name ++ '_' :: (version ++ ".json".toList))).value = name ++ '_' :: (version ++ ".json".toList) from rfl, this]
    have hk : (((name ++ '_' :: (version ++ ".json".toList)).length : Int) - 5).toNat = (name ++ '_' :: version).length := by
      simp only [List.length_append, List.length_cons, hjson]; omega
    rw [hk, show name ++ '_' :: (version ++ ".json".toList) = (name ++ '_' :: version) ++ ".json".toList by simp, List.take_left]
  rw [h3]
  simp only
  have hl3 : (name ++ '_' :: version).length < 2 ^ 31 := by
    simp only [List.length_append, List.length_cons]; omega
  rw [lastOf_eq _ _ _ hu hl3]
  simp only
  have h4 : extSubstr (newString (name ++ '_' :: version)).value 0 (some (name.length : Int)) = .ok name := by
    have := sub_part [] (name ++ '_' :: version) 0 (name.length : Int) (by simp) (by omega) (by simpa using hl3)
    rw [List.nil_append] at this
    rw [show (newString (name ++ '_' :: version)).value = name ++ '_' :: version from rfl, this, Int.toNat_natCast, List.take_left]
  rw [h4]
  simp only [subString]
  have h5 : extSubstr (newString (name ++ '_' :: version)).value ((name.length : Int) + 1) none = .ok version := by
    have := sub_tail (name ++ ['_']) version ((name.length : Int) + 1) (by simp) (by simpa using hl3)
    rw [← this]; simp [newString]
  rw [h5]

example : readPath "./modules/lib_x_1.2.3.json".toList = .ok ("lib_x".toList, "1.2.3".toList) := by decide +kernel

/-- A file of the repository: its directory, the module's name and the text of its version. -/
structure ModuleFile where
  dir : Text
  name : Text
  text : Text

/-- The file is named as the tool expects: it stands for version `v` of the module.  The name and the path do not count as
false, labels are texts that do not either. -/
structure StandsFor (f : ModuleFile) (m : Module) : Prop where
  name : m.name = f.name
  version : fromString f.text = some m.version
  slash : '/' ∉ f.name ∧ '/' ∉ f.text
  underscore : '_' ∉ f.text
  short : (pathOf f.dir f.name f.text).length < 2 ^ 31
  path_true : stringToBool (pathOf f.dir f.name f.text) = true
  name_true : stringToBool f.name = true
  label : Usable m.version.label

/-- The index lists the newest version of every module, once, in the order of the names. -/
def Newest (all index : List Module) : Prop :=
  index.Pairwise (fun a b => a.name < b.name) ∧
  ∀ m, m ∈ index ↔ m ∈ all ∧ ∀ m' ∈ all, m'.name = m.name → ¬ Before m.version m'.version

theorem name_trichotomy (a b : Text) : a < b ∨ a = b ∨ b < a := by
  by_cases h1 : a < b
  · exact .inl h1
  · by_cases h2 : b < a
    · exact .inr (.inr h2)
    · exact .inr (.inl (List.le_antisymm (List.not_lt.1 h2) (List.not_lt.1 h1)))

theorem mem_ascInsert (lt : Module → Module → Bool) (m x : Module) : ∀ l, x ∈ Coll.ascInsert lt m l ↔ x = m ∨ x ∈ l
  | [] => by simp [Coll.ascInsert]
  | y :: l => by
    rw [Coll.ascInsert]
    split
    · simp
    · rw [List.mem_cons, mem_ascInsert lt m x l, List.mem_cons]
      constructor
      · rintro (h | h | h) <;> simp [h]
      · rintro (h | h | h) <;> simp [h]

theorem pairwise_ascInsert (m : Module) : ∀ l : List Module, l.Pairwise (fun a b => a.name < b.name) → (∀ x ∈ l, x.name ≠ m.name) →
    (Coll.ascInsert Module.lt m l).Pairwise (fun a b => a.name < b.name)
  | [], _, _ => by simp [Coll.ascInsert]
  | y :: l, hp, hne => by
    have hy : y.name ≠ m.name := hne y (by simp)
    have hlt : Module.lt m y = decide (m.name < y.name) := by unfold Module.lt; rw [if_neg (Ne.symm hy)]
    rw [List.pairwise_cons] at hp
    rw [Coll.ascInsert, hlt]
    by_cases h : m.name < y.name
    · rw [if_pos (by simpa using h)]
      refine List.pairwise_cons.2 ⟨fun x hx => ?_, List.pairwise_cons.2 hp⟩
      rcases List.mem_cons.1 hx with rfl | hx
      · exact h
      · exact List.lt_trans h (hp.1 x hx)
    · rw [if_neg (by simpa using h)]
      refine List.pairwise_cons.2 ⟨fun x hx => ?_, pairwise_ascInsert m l hp.2 fun x hx => hne x (by simp [hx])⟩
      rcases (mem_ascInsert _ _ _ _).1 hx with rfl | hx
      · rcases name_trichotomy x.name y.name with k | k | k
        · exact absurd k h
        · exact absurd k.symm hy
        · exact k
      · exact hp.1 x hx

theorem indexOf_some (m : Module) : ∀ {l : List Module} {i : Nat}, indexOfModule l m = some i →
    ∃ a o b, l = a ++ o :: b ∧ a.length = i ∧ o.name = m.name
  | x :: xs, i, h => by
    rw [indexOfModule] at h
    split at h
    · next hx => cases h; exact ⟨[], x, xs, rfl, rfl, hx⟩
    · cases hr : indexOfModule xs m with
      | none => rw [hr] at h; cases h
      | some k =>
        rw [hr] at h
        cases h
        obtain ⟨a, o, b, e, hl, ho⟩ := indexOf_some m hr
        exact ⟨x :: a, o, b, by rw [e]; rfl, by simp [hl], ho⟩

theorem indexOf_none (m : Module) : ∀ {l : List Module}, indexOfModule l m = none → ∀ x ∈ l, x.name ≠ m.name
  | [], _, _, h => by cases h
  | y :: ys, h, x, hx => by
    rw [indexOfModule] at h
    split at h
    · cases h
    · next hy =>
      rcases List.mem_cons.1 hx with rfl | hx
      · exact hy
      · refine indexOf_none m ?_ x hx
        cases hr : indexOfModule ys m with
        | none => rfl
        | some k => rw [hr] at h; cases h

theorem addModule_newest {all index : List Module} (h : Newest all index) (hu : ∀ x ∈ all, Usable x.version.label) (m : Module)
    (hm : Usable m.version.label) : Newest (all ++ [m]) (addModule index m) := by
  obtain ⟨hp, hi⟩ := h
  unfold addModule
  cases hidx : indexOfModule index m with
  | none =>
    have hne := indexOf_none m hidx
    have hnone : ∀ x ∈ all, x.name ≠ m.name := by
      -- a module in `all` has a newest version in the index
      intro x hx e
      have hmax : ∀ (l : List Module), (∃ y ∈ l, y.name = m.name) →
          ∃ y ∈ l, y.name = m.name ∧ ∀ z ∈ l, z.name = m.name → ¬ Before y.version z.version := by
        intro l
        induction l with
        | nil => rintro ⟨y, hy, -⟩; cases hy
        | cons w ws ih =>
          rintro ⟨y, hy, hyn⟩
          by_cases hws : ∃ y ∈ ws, y.name = m.name
          · obtain ⟨z, hz, hzn, hzm⟩ := ih hws
            by_cases hwz : w.name = m.name ∧ Before z.version w.version
            · refine ⟨w, by simp, hwz.1, fun u hu hun => ?_⟩
              rcases List.mem_cons.1 hu with rfl | hu
              · exact (before_total u.version u.version u.version).1
              · intro hb
                exact hzm u hu hun ((before_total z.version w.version u.version).2.2.1 hwz.2 hb)
            · refine ⟨z, by simp [hz], hzn, fun u hu hun => ?_⟩
              rcases List.mem_cons.1 hu with rfl | hu
              · exact fun hb => hwz ⟨hun, hb⟩
              · exact hzm u hu hun
          · rcases List.mem_cons.1 hy with rfl | hy
            · refine ⟨y, by simp, hyn, fun u hu hun => ?_⟩
              rcases List.mem_cons.1 hu with rfl | hu
              · exact (before_total u.version u.version u.version).1
              · exact absurd ⟨u, hu, hun⟩ hws
            · exact absurd ⟨y, hy, hyn⟩ hws
      obtain ⟨y, hy, hyn, hym⟩ := hmax all ⟨x, hx, e⟩
      exact hne y ((hi y).2 ⟨hy, fun m' hm' hn' => hym m' hm' (hn'.trans hyn)⟩) hyn
    refine ⟨pairwise_ascInsert m index hp hne, fun x => ?_⟩
    rw [mem_ascInsert]
    constructor
    · rintro (rfl | hx)
      · refine ⟨by simp, fun m' hm' hn' => ?_⟩
        rcases List.mem_append.1 hm' with hm' | hm'
        · exact absurd hn' (hnone m' hm')
        · rw [List.mem_singleton.1 hm']; exact (before_total x.version x.version x.version).1
      · obtain ⟨h1, h2⟩ := (hi x).1 hx
        refine ⟨by simp [h1], fun m' hm' hn' => ?_⟩
        rcases List.mem_append.1 hm' with hm' | hm'
        · exact h2 m' hm' hn'
        · rw [List.mem_singleton.1 hm'] at hn'
          exact absurd hn'.symm (hne x hx)
    · rintro ⟨hx, hmax⟩
      rcases List.mem_append.1 hx with hx | hx
      · right
        exact (hi x).2 ⟨hx, fun m' hm' => hmax m' (by simp [hm'])⟩
      · left; exact List.mem_singleton.1 hx
  | some i =>
    obtain ⟨a, o, b, e, hl, ho⟩ := indexOf_some m hidx
    subst hl
    subst e
    have hget : (a ++ o :: b)[a.length]? = some o := by simp
    have herase : (a ++ o :: b).eraseIdx a.length = a ++ b := by
      rw [List.eraseIdx_append_of_length_le (Nat.le_refl _)]; simp
    simp only [hget, herase]
    have hoi := (hi o).1 (by simp)
    have hlt : Module.lt o m = true ↔ Before o.version m.version := by
      unfold Module.lt
      rw [if_pos ho]
      exact (compare_partial _ _ (hu o hoi.1) hm).1
    have huniq : ∀ x ∈ a ++ b, x.name ≠ o.name := by
      rw [List.pairwise_append, List.pairwise_cons] at hp
      intro x hx he
      rcases List.mem_append.1 hx with hx | hx
      · have := hp.2.2 x hx o (by simp)
        rw [he] at this
        exact List.lt_irrefl _ this
      · have := hp.2.1.1 x hx
        rw [he] at this
        exact List.lt_irrefl _ this
    by_cases hb : Before o.version m.version
    · rw [if_pos (hlt.2 hb)]
      refine ⟨pairwise_ascInsert m _ ?_ fun x hx => by rw [← ho]; exact huniq x hx, fun x => ?_⟩
      · refine hp.sublist ?_
        exact List.Sublist.append_left (List.sublist_cons_self o b) a
      · rw [mem_ascInsert]
        constructor
        · rintro (rfl | hx)
          · refine ⟨by simp, fun m' hm' hn' => ?_⟩
            rcases List.mem_append.1 hm' with hm' | hm'
            · intro hb'
              exact hoi.2 m' hm' (hn'.trans ho.symm) ((before_total o.version x.version m'.version).2.2.1 hb hb')
            · rw [List.mem_singleton.1 hm']; exact (before_total x.version x.version x.version).1
          · have hx' : x ∈ a ++ o :: b := by
              rcases List.mem_append.1 hx with h | h <;> simp [h]
            obtain ⟨h1, h2⟩ := (hi x).1 hx'
            refine ⟨by simp [h1], fun m' hm' hn' => ?_⟩
            rcases List.mem_append.1 hm' with hm' | hm'
            · exact h2 m' hm' hn'
            · rw [List.mem_singleton.1 hm'] at hn'
              exact absurd (hn'.symm.trans ho.symm) (huniq x hx)
        · rintro ⟨hx, hmax⟩
          rcases List.mem_append.1 hx with hx | hx
          · right
            have hxi := (hi x).2 ⟨hx, fun m' hm' => hmax m' (by simp [hm'])⟩
            have hxo : x ≠ o := by
              rintro rfl
              exact hmax m (by simp) ho.symm hb
            rcases List.mem_append.1 hxi with h | h
            · simp [h]
            · rcases List.mem_cons.1 h with h | h
              · exact absurd h hxo
              · simp [h]
          · left; exact List.mem_singleton.1 hx
    · rw [if_neg (fun k => hb (hlt.1 k))]
      refine ⟨hp, fun x => ?_⟩
      constructor
      · intro hx
        obtain ⟨h1, h2⟩ := (hi x).1 hx
        refine ⟨by simp [h1], fun m' hm' hn' => ?_⟩
        rcases List.mem_append.1 hm' with hm' | hm'
        · exact h2 m' hm' hn'
        · have hmm := List.mem_singleton.1 hm'
          subst hmm
          have : x = o := by
            rcases List.mem_append.1 hx with h | h
            · exact absurd (hn'.symm.trans ho.symm) (huniq x (by simp [h]))
            · rcases List.mem_cons.1 h with h | h
              · exact h
              · exact absurd (hn'.symm.trans ho.symm) (huniq x (by simp [h]))
          rw [this]; exact hb
      · rintro ⟨hx, hmax⟩
        rcases List.mem_append.1 hx with hx | hx
        · exact (hi x).2 ⟨hx, fun m' hm' => hmax m' (by simp [hm'])⟩
        · have hxm := List.mem_singleton.1 hx
          have : ¬ Before x.version o.version := hmax o (by simp [hoi.1]) (by rw [hxm]; exact ho)
          rcases (before_total o.version x.version x.version).2.2.2 with h | h | h
          · have : o = x := by
              cases o; cases x; cases hxm
              simp only at h ho
              rw [h, ho]
            rw [← this]; simp
          · rw [hxm] at h; exact absurd h hb
          · exact absurd h this

/-- **C174**: the index lists the newest version of every module in the repository, each once, in the order of their names.
`_partial`: all files are named after a module and a version (`StandsFor`). -/
theorem index_newest_partial (files : List (ModuleFile × Module)) (h : ∀ f ∈ files, StandsFor f.1 f.2) :
    ∃ index, buildIndex [] (files.map fun f => pathOf f.1.dir f.1.name f.1.text) = some index ∧ Newest (files.map Prod.snd) index := by
  have key : ∀ (files : List (ModuleFile × Module)) (done index : List Module), (∀ f ∈ files, StandsFor f.1 f.2) →
      Newest done index → (∀ x ∈ done, Usable x.version.label) →
      ∃ index', buildIndex index (files.map fun f => pathOf f.1.dir f.1.name f.1.text) = some index' ∧
        Newest (done ++ files.map Prod.snd) index' := by
    intro files
    induction files with
    | nil =>
      intro done index hf hn _
      exact ⟨index, rfl, by simpa using hn⟩
    | cons f fs ih =>
      intro done index hf hn hu
      have hfm := hf f (by simp)
      obtain ⟨index', e1, e2⟩ := ih (done ++ [f.2]) (addModule index f.2) (fun g hg => hf g (by simp [hg]))
        (addModule_newest hn hu f.2 hfm.label) (by
        intro x hx
        rcases List.mem_append.1 hx with hx | hx
        · exact hu x hx
        · rw [List.mem_singleton.1 hx]; exact hfm.label)
      refine ⟨index', ?_, by simpa using e2⟩
      rw [List.map_cons, buildIndex, if_neg (by rw [hfm.path_true]; simp),
        readPath_eq _ _ _ hfm.slash.1 hfm.slash.2 hfm.underscore hfm.short]
      simp only [hfm.version, hfm.name_true, if_true]
      rw [← hfm.name]
      exact e1
  exact key files [] [] h ⟨List.Pairwise.nil, by simp⟩ (by simp)

/-- **Refuted** (C174): one file whose version is not one makes the whole index fail, whatever else is there. -/
theorem index_bad_file_refuted (index : List Module) (f : ModuleFile) (rest : List Text) (hv : fromString f.text = none)
    (hs : '/' ∉ f.name ∧ '/' ∉ f.text) (hu : '_' ∉ f.text) (hl : (pathOf f.dir f.name f.text).length < 2 ^ 31)
    (hp : stringToBool (pathOf f.dir f.name f.text) = true) : buildIndex index (pathOf f.dir f.name f.text :: rest) = none := by
  rw [buildIndex, if_neg (by rw [hp]; simp), readPath_eq _ _ _ hs.1 hs.2 hu hl]
  simp only [hv]

/-- **Refuted** (C174): a module with a name that counts as false is not listed. -/
theorem index_false_refuted : buildIndex [] ["./modules/false_1.0.0.json".toList] = some [] := by decide +kernel

example : buildIndex [] ["./modules/b_1.0.0.json".toList, "./modules/a_1.2.0.json".toList, "./modules/b_1.0.1.json".toList,
    "./modules/b_1.0.1-rc.json".toList, [], "./modules/a_1.0.9.json".toList] =
    some [⟨"a".toList, ⟨1, 2, 0, [], []⟩⟩, ⟨"b".toList, ⟨1, 0, 1, [], []⟩⟩] := by decide +kernel

example : buildIndex [] ["./modules/b_1.0.0.json".toList, "./modules/c_beta.json".toList] = none := by decide +kernel

example : StandsFor ⟨"./modules".toList, "lib_x".toList, "1.0.1-rc".toList⟩ ⟨"lib_x".toList, ⟨1, 0, 1, "rc".toList, []⟩⟩ :=
  ⟨rfl, by decide +kernel, by decide +kernel, by decide +kernel, by decide +kernel, by decide +kernel, by decide +kernel,
    .inr (by decide +kernel)⟩

/-! ## C175: the check of dependencies -/

/-- The version is one the dependency allows. -/
def Allows (d : Dependency) (v : SemVer) : Prop :=
  (∀ lo, d.min = some lo → ¬ Before v lo) ∧ (∀ hi, d.max = some hi → ¬ Before hi v)

/-- All labels are texts that do not count as false. -/
def Plain (m : Installed) : Prop :=
  Usable m.version.label ∧ ∀ d ∈ m.dependencies, (∀ v, d.min = some v → Usable v.label) ∧ (∀ v, d.max = some v → Usable v.label)

theorem fits_iff (d : Dependency) (e : Installed) (he : Usable e.version.label)
    (hd : (∀ v, d.min = some v → Usable v.label) ∧ (∀ v, d.max = some v → Usable v.label)) :
    fits d e = true ↔ (e.name = d.name → Allows d e.version) := by
  unfold fits Allows
  by_cases hn : d.name = e.name
  · rw [if_neg (by simpa using hn)]
    have hmin : d.tooOld e.version = true ↔ ¬ ∀ lo, d.min = some lo → ¬ Before e.version lo := by
      unfold Dependency.tooOld
      cases hm : d.min with
      | none => simp
      | some lo => simpa using (compare_partial lo e.version (hd.1 lo hm) he).2.1
    have hmax : d.tooNew e.version = true ↔ ¬ ∀ hi, d.max = some hi → ¬ Before hi e.version := by
      unfold Dependency.tooNew
      cases hm : d.max with
      | none => simp
      | some hi => simpa using (compare_partial hi e.version (hd.2 hi hm) he).1
    by_cases h : ∀ lo, d.min = some lo → ¬ Before e.version lo
    · rw [if_neg (fun k => hmin.1 k h)]
      by_cases h' : ∀ hi, d.max = some hi → ¬ Before hi e.version
      · rw [if_neg (fun k => hmax.1 k h')]
        exact ⟨fun _ _ => ⟨h, h'⟩, fun _ => rfl⟩
      · rw [if_pos (hmax.2 h')]
        exact ⟨fun k => (by cases k), fun k => absurd (k hn.symm).2 h'⟩
    · rw [if_pos (hmin.2 h)]
      exact ⟨fun k => (by cases k), fun k => absurd (k hn.symm).1 h⟩
  · rw [if_pos hn]
    simp only [true_iff]
    exact fun k => absurd k.symm hn

/-- **C175**: the answer is "OK" exactly if no module has a version that a module read later does not allow.  `_partial`: a
module that is missing, or read later than the one that needs it, is not noticed. -/
theorem check_ok_iff_partial (ms : List Installed) (hp : ∀ m ∈ ms, Plain m) :
    check [] ms = true ↔ ∀ earlier m later, ms = earlier ++ m :: later → ∀ d ∈ m.dependencies, ∀ e ∈ earlier,
      e.name = d.name → Allows d e.version := by
  have key : ∀ (ms done : List Installed), (∀ m ∈ ms, Plain m) → (∀ m ∈ done, Plain m) →
      (check done ms = true ↔ ∀ earlier m later, ms = earlier ++ m :: later → ∀ d ∈ m.dependencies, ∀ e ∈ done ++ earlier,
        e.name = d.name → Allows d e.version) := by
    intro ms
    induction ms with
    | nil => intro done _ _; simp [check]
    | cons m ms ih =>
      intro done hms hdone
      have hfirst : (m.dependencies.all fun d => done.all fun e => fits d e) = true ↔
          ∀ d ∈ m.dependencies, ∀ e ∈ done, e.name = d.name → Allows d e.version := by
        simp only [List.all_eq_true]
        constructor
        · intro h d hd e he
          exact (fits_iff d e (hdone e he).1 ((hms m (by simp)).2 d hd)).1 (h d hd e he)
        · intro h d hd e he
          exact (fits_iff d e (hdone e he).1 ((hms m (by simp)).2 d hd)).2 (h d hd e he)
      rw [check]
      have hih := ih (done ++ [m]) (fun x hx => hms x (by simp [hx])) (by
        intro x hx
        rcases List.mem_append.1 hx with hx | hx
        · exact hdone x hx
        · rw [List.mem_singleton.1 hx]; exact hms m (by simp))
      by_cases h1 : (m.dependencies.all fun d => done.all fun e => fits d e) = true
      · rw [if_pos h1, hih]
        constructor
        · intro h earlier x later e d hd
          cases earlier with
          | nil =>
            simp only [List.nil_append, List.cons.injEq] at e
            rw [List.append_nil]
            rw [← e.1] at hd
            exact hfirst.1 h1 d hd
          | cons y ys =>
            simp only [List.cons_append, List.cons.injEq] at e
            have := h ys x later e.2 d hd
            rw [← e.1]
            simpa using this
        · intro h earlier x later e d hd
          have := h (m :: earlier) x later (by rw [e]; rfl) d hd
          simpa using this
      · rw [if_neg h1]
        simp only [Bool.false_eq_true, false_iff]
        intro h
        exact h1 (hfirst.2 (by simpa using h [] m ms rfl))
  simpa using key ms [] hp (by simp)

/-- **Refuted** (C175): a module that needs one that is not installed is fine. -/
theorem check_missing_refuted (m : Installed) : check [] [m] = true := by simp [check]

/-- **Refuted** (C175): a module that is read later may have any version. -/
theorem check_later_refuted (m e : Installed) (h : e.dependencies = []) : check [] [m, e] = true := by simp [check, h]

example : check [] [⟨"a".toList, ⟨1, 0, 0, [], []⟩, []⟩,
      ⟨"b".toList, ⟨1, 0, 0, [], []⟩, [⟨"a".toList, some ⟨1, 1, 0, [], []⟩, none⟩]⟩] = false ∧
    check [] [⟨"b".toList, ⟨1, 0, 0, [], []⟩, [⟨"c".toList, some ⟨1, 1, 0, [], []⟩, none⟩]⟩,
      ⟨"c".toList, ⟨1, 0, 0, [], []⟩, []⟩] = true := by decide +kernel

end Verif.Repo
