import Verif.Heap.Shutdown

/-!
# When the end of a program is proper (`Memory::deinit`, `Projects/Core/Core/VirtualMachine/Memory.cpp:48-64`)

The exact condition, for any objects and any variables that are left.
-/

namespace Verif.Heap

open Verif.Memory

/-! ## Specification -/

/-- `x` is deleted before the turn of `k`: a variable holds it and its own turn is earlier, or no variable holds it and everything that refers to it
is deleted before the turn of `k`. -/
inductive Sooner (w : World) (k : Nat) : Nat → Prop
  | held {x : Nat} : x ∈ w.vars.map Prod.snd → x < k → Sooner w k x
  | loose {x : Nat} : x ∉ w.vars.map Prod.snd → (∀ y fs, get w.mem y = some fs → x ∈ fs → Sooner w k y) → Sooner w k x

/-! ## Proofs -/

/-- Deleted objects whose records remain are held by a variable. -/
def Safe (V : Nat → Nat) (dy : List Nat) (T : Closing) : Prop := ∀ s c, T.find s = some c → c.obj = none → s ∈ dy ∨ 0 < V s

/-- A release that goes well. -/
def Goes (V tr : Nat → Nat) (dy : List Nat) (T : Closing) (x : Res Closing) : Prop :=
  ∃ T', x = .ok T' ∧ QInv (fun s => V s + tr s) dy T' ∧ Keeps T T' ∧ Safe V dy T' ∧ Alive T T'

theorem eachOf_goes {n : Nat} (hone : ∀ (r : Nat) (T : Closing) (V tr : Nat → Nat) (dy : List Nat),
    QInv (fun s => (V s + tr s) + if s = r then 1 else 0) dy T → Safe V dy T → live T < n → Goes V tr dy T (closeRef n r T)) :
    ∀ (L : List Nat) (T : Closing) (V tr : Nat → Nat) (dy : List Nat),
    QInv (fun s => (V s + tr s) + L.count s) dy T → Safe V dy T → live T < n → Goes V tr dy T (eachOf (closeRef n) L T) := by
  intro L
  induction L with
  | nil =>
    intro T V tr dy h hc _
    exact ⟨T, rfl, h.congr (fun r _ => by simp), Keeps.refl T, hc, fun s c h1 => ⟨c, h1, rfl⟩⟩
  | cons r L ih =>
    intro T V tr dy h hc hl
    have hcount : ∀ s, (r :: L).count s = L.count s + if s = r then 1 else 0 := by
      intro s
      by_cases e : s = r
      · subst e; simp
      · have : ¬ r = s := fun x => e x.symm
        simp [e, this]
    obtain ⟨T', h1, h2, h3, h4, h5⟩ := hone r T V (fun s => tr s + L.count s) dy
      (h.congr (fun s _ => by simp only [hcount]; omega)) hc hl
    obtain ⟨T'', g1, g2, g3, g4, g5⟩ := ih T' V tr dy (h2.congr (fun s _ => by simp only; omega)) h4
      (Nat.lt_of_le_of_lt h3.fewer hl)
    exact ⟨T'', by simp only [eachOf, h1, Res.bind, g1], g2, h3.trans g3, g4, h5.trans g5⟩

theorem closeRef_goes : ∀ (n r : Nat) (T : Closing) (V tr : Nat → Nat) (dy : List Nat),
    QInv (fun s => (V s + tr s) + if s = r then 1 else 0) dy T → Safe V dy T → live T < n →
    Goes V tr dy T (closeRef n r T) := by
  intro n
  induction n with
  | zero => intro r T V tr dy _ _ h; omega
  | succ n ih =>
    intro r T V tr dy h hsafe hl
    suffices hsuf : ∃ T', closeRef (n + 1) r T = .ok T' ∧ Safe V dy T' ∧ Alive T T' by
      obtain ⟨T', h1, h2, h3⟩ := hsuf
      rcases closeRef_fine (n + 1) r T (fun s => V s + tr s) dy h hl with h4 | ⟨T'', h4, h5, h6⟩
      · rw [h1] at h4; cases h4
      · rw [h1] at h4; cases h4
        exact ⟨T', h1, h5, h6, h2, h3⟩
    by_cases hr : r = 0
    · subst hr
      exact ⟨T, by simp [closeRef], hsafe, fun s c h1 => ⟨c, h1, rfl⟩⟩
    cases hf : T.find r with
    | none =>
      have := h.dead r hr hf
      simp only [if_true] at this; omega
    | some c =>
      have hc := h.count r c hf
      have hsm := h.small r hr
      simp only [if_true] at hc hsm
      have hcnt : (c.count + (uintSize - 1)) % uintSize = V r + tr r + refs r T := by
        rw [show c.count + (uintSize - 1) = V r + tr r + refs r T + uintSize by omega, Nat.add_mod_right,
          Nat.mod_eq_of_lt (by omega)]
      have hrd : r ∉ dy := by
        intro hd
        obtain ⟨c', h1, _, h3⟩ := h.dying r hd
        rw [hf] at h1
        cases h1
        omega
      by_cases hz : V r + tr r + refs r T = 0
      · cases ho : c.obj with
        | none =>
          rcases hsafe r c hf ho with h1 | h1
          · exact absurd h1 hrd
          · omega
        | some fields =>
          have hlive : live (T.set r ⟨0, none⟩) + 1 = live T := by
            have := live_set (c' := (⟨0, none⟩ : Cell (Option Fields))) hf
            simp only [ho, Option.isSome_some, Option.isSome_none, if_true, Bool.false_eq_true, if_false] at this
            omega
          have hsafe' : Safe V (r :: dy) (T.set r ⟨0, none⟩) := by
            intro s x hx hxo
            rw [find_set] at hx
            split at hx
            · rename_i e; subst e; exact Or.inl (List.mem_cons_self ..)
            · exact (hsafe s x hx hxo).imp (List.mem_cons_of_mem _) id
          obtain ⟨T', h1, h2, h3, h4, h5⟩ := eachOf_goes ih fields _ V tr (r :: dy)
            (QInv.begin (ext := fun s => V s + tr s) h hr hf ho hz) hsafe' (by omega)
          obtain ⟨c', hc', ho', -⟩ := h2.dying r (List.mem_cons_self ..)
          have hfe : ∀ s, (T'.erase r).find s = if s = r then none else T'.find s := by
            intro s
            by_cases e : s = r
            · subst e; rw [if_pos rfl]; exact AMap.find_erase_self h2.nodup
            · rw [if_neg e]; exact AMap.find_erase_ne (fun x => e x.symm) _
          refine ⟨T'.erase r, ?_, ?_, ?_⟩
          · simp only [closeRef, hr, hf, hcnt, hz, ho, if_true, if_false, h1, Res.bind, hc']
          · intro s x hx hxo
            rw [hfe] at hx
            split at hx
            · cases hx
            · rename_i e
              rcases h4 s x hx hxo with h6 | h6
              · exact Or.inl ((List.mem_cons.1 h6).resolve_left e)
              · exact Or.inr h6
          · intro s x hx
            rw [hfe] at hx
            split at hx
            · cases hx
            · rename_i e
              obtain ⟨y, h6, h7⟩ := h5 s x hx
              rw [find_set, if_neg e] at h6
              exact ⟨y, h6, h7⟩
      · refine ⟨T.set r { c with count := V r + tr r + refs r T }, ?_, ?_, ?_⟩
        · simp only [closeRef, hr, hf, hcnt, hz, if_false]
        · intro s x hx hxo
          rw [find_set] at hx
          split at hx
          · rename_i e; subst e; cases hx; exact hsafe s c hf hxo
          · exact hsafe s x hx hxo
        · intro s x hx
          rw [find_set] at hx
          split at hx
          · rename_i e; subst e; cases hx; exact ⟨c, hf, rfl⟩
          · exact ⟨x, hx, rfl⟩

theorem bound_pos_iff {vars : AMap Nat Nat} {x : Nat} : 0 < bound vars x ↔ x ∈ vars.map Prod.snd := by
  simp only [bound, List.count_pos_iff]

theorem bound_zero {vars : AMap Nat Nat} {x : Nat} (h : x ∉ vars.map Prod.snd) : bound vars x = 0 := by
  have : ¬ 0 < bound vars x := fun h' => h (bound_pos_iff.1 h')
  omega

/-- If everything that no variable holds is deleted before its turn, the loop comes to its end. -/
theorem closeAll_goes {n : Nat} {w : World}
    (hcond : ∀ k, (get w.mem k).isSome → k ∉ w.vars.map Prod.snd → Sooner w k k) :
    ∀ (order : List Nat) (T : Closing), QInv (bound w.vars) [] T → live T < n → order.Pairwise (· < ·) →
    Safe (bound w.vars) [] T → (∀ s c, T.find s = some c → (s ∈ order ↔ c.obj.isSome)) →
    (∀ s c fs, T.find s = some c → c.obj = some fs → get w.mem s = some fs) →
    ∃ T', eachOf (closeObject n) order T = .ok T' := by
  intro order
  induction order with
  | nil => intro T _ _ _ _ _ _; exact ⟨T, rfl⟩
  | cons k order ih =>
    intro T hq hl hord hsafe hall horig
    have hord' := List.pairwise_cons.1 hord
    cases hf : T.find k with
    | none =>
      have : closeObject n k T = .ok T := by simp [closeObject, hf]
      simp only [eachOf, this, Res.bind]
      refine ih T hq hl hord'.2 hsafe (fun s c hs => ?_) horig
      rw [← hall s c hs, List.mem_cons]
      refine ⟨Or.inr, fun h => h.resolve_left ?_⟩
      intro e; subst e; rw [hf] at hs; cases hs
    | some c =>
      cases ho : c.obj with
      | none =>
        have := (hall k c hf).1 (List.mem_cons_self ..)
        rw [ho] at this; cases this
      | some fields =>
        have hk : k ≠ 0 := by intro e; subst e; rw [hq.zero] at hf; cases hf
        have hlive : live (T.set k { c with obj := none }) + 1 = live T := by
          have := live_set (c' := { c with obj := none }) hf
          simp only [ho, Option.isSome_some, Option.isSome_none, if_true, Bool.false_eq_true, if_false] at this
          omega
        have hnot : ∀ x, Sooner w k x → ∀ c' fs, T.find x = some c' → c'.obj = some fs → False := by
          intro x hx
          induction hx with
          | held h1 h2 =>
            intro c' fs hc' ho'
            rcases List.mem_cons.1 ((hall _ c' hc').2 (by rw [ho']; rfl)) with e | h3
            · omega
            · have := hord'.1 _ h3; omega
          | @loose x h1 _ ih' =>
            intro c' fs hc' ho'
            have h2 : refs x T = 0 := refs_none hq.nodup (fun s y fs' hy hyo hm => ih' s fs' (horig s y fs' hy hyo) hm y fs' hy hyo)
            have h3 := hq.count x c' hc'
            have h4 := hq.pos x c' hc' (by simp)
            rw [bound_zero h1] at h3
            omega
        have hV : 0 < bound w.vars k := by
          rw [bound_pos_iff]
          refine Classical.byContradiction fun hn => ?_
          exact hnot k (hcond k (by rw [horig k c fields hf ho]; rfl) hn) c fields hf ho
        have hsafe' : Safe (bound w.vars) [] (T.set k { c with obj := none }) := by
          intro s x hx hxo
          rw [find_set] at hx
          split at hx
          · rename_i e; subst e; exact Or.inr hV
          · exact hsafe s x hx hxo
        have hdo : closeObject n k T = eachOf (closeRef n) fields (T.set k { c with obj := none }) := by
          simp only [closeObject, hf, ho]
        obtain ⟨T', h1, h2, h3, h4, h5⟩ := eachOf_goes (closeRef_goes n) fields _ (bound w.vars) (fun _ => 0) []
          (hq.force hk hf ho) hsafe' (by omega)
        simp only [eachOf, hdo, h1, Res.bind]
        refine ih T' (h2.congr (fun _ _ => by simp)) (by have := h3.fewer; omega) hord'.2 h4 ?_ ?_
        · intro s x hx
          obtain ⟨y, h6, h7⟩ := h5 s x hx
          rw [← h7]
          rw [find_set] at h6
          split at h6
          · rename_i e; subst e; cases h6
            simp only [Option.isSome_none, Bool.false_eq_true, iff_false]
            intro hm
            exact Nat.lt_irrefl _ (hord'.1 s hm)
          · rename_i e
            rw [← hall s y h6, List.mem_cons]
            exact ⟨Or.inr, fun h => h.resolve_left e⟩
        · intro s x fs hx hxo
          obtain ⟨y, h6, h7⟩ := h5 s x hx
          rw [hxo] at h7
          rw [find_set] at h6
          split at h6
          · cases h6; cases h7
          · exact horig s y fs h6 h7

/-- A deleted object that no variable holds: the loop does not come to its end. -/
theorem closeAll_lost {n : Nat} {V : Nat → Nat} : ∀ (order : List Nat) (T : Closing), QInv V [] T → live T < n →
    (∃ s c, T.find s = some c ∧ c.obj = none ∧ V s = 0) → (∀ s c, T.find s = some c → s ∈ order ∨ c.obj = none) →
    eachOf (closeObject n) order T = .ub := by
  intro order
  induction order with
  | nil =>
    intro T hq _ ⟨s, c, hs, _, hv⟩ hall
    have h0 := refs_zero (r := s) hq.nodup (fun s' c' h' => (hall s' c' h').resolve_left (by simp))
    have h1 := hq.count s c hs
    have h2 := hq.pos s c hs (by simp)
    omega
  | cons k order ih =>
    intro T hq hl hex hall
    cases hf : T.find k with
    | none =>
      have : closeObject n k T = .ok T := by simp [closeObject, hf]
      simp only [eachOf, this, Res.bind]
      refine ih T hq hl hex (fun s c hs => ?_)
      rcases hall s c hs with h | h
      · rcases List.mem_cons.1 h with rfl | h
        · rw [hf] at hs; cases hs
        · exact Or.inl h
      · exact Or.inr h
    | some c =>
      cases ho : c.obj with
      | none => simp [eachOf, closeObject, hf, ho, Res.bind]
      | some fields =>
        have hk : k ≠ 0 := by intro e; subst e; rw [hq.zero] at hf; cases hf
        have hlive : live (T.set k { c with obj := none }) + 1 = live T := by
          have := live_set (c' := { c with obj := none }) hf
          simp only [ho, Option.isSome_some, Option.isSome_none, if_true, Bool.false_eq_true, if_false] at this
          omega
        have hdo : closeObject n k T = eachOf (closeRef n) fields (T.set k { c with obj := none }) := by
          simp only [closeObject, hf, ho]
        rcases eachOf_fine (closeRef_fine n) fields _ V [] (hq.force hk hf ho) (by omega) with h1 | ⟨T', h1, h2, h3⟩
        · simp only [eachOf, hdo, h1, Res.bind]
        · simp only [eachOf, hdo, h1, Res.bind]
          obtain ⟨s0, c0, hs0, ho0, hv0⟩ := hex
          have hne : s0 ≠ k := by intro e; subst e; rw [hf] at hs0; cases hs0; rw [ho] at ho0; cases ho0
          obtain ⟨c1, hc1, ho1⟩ := h3.gone s0 c0 (by rw [find_set, if_neg hne]; exact hs0) ho0
          obtain ⟨c', hc', ho'⟩ := h3.gone k _ (AMap.find_set_self ..) rfl
          refine ih T' h2 (by have := h3.fewer; omega) ⟨s0, c1, hc1, ho1, hv0⟩ (fun s x hx => ?_)
          by_cases e : s = k
          · subst e; rw [hc'] at hx; cases hx; exact Or.inr ho'
          · cases hs : T.find s with
            | none =>
              have := h3.absent s (by rw [find_set, if_neg e]; exact hs)
              rw [this] at hx; cases hx
            | some y =>
              rcases hall s y hs with h | h
              · exact Or.inl ((List.mem_cons.1 h).resolve_left e)
              · obtain ⟨z, h4, h5⟩ := h3.gone s y (by rw [find_set, if_neg e]; exact hs) h
                rw [h4] at hx; cases hx
                exact Or.inr h5

/-- The objects of `S` are there, and each is held by a variable or by another one of `S`. -/
def Stay (S : Nat → Prop) (V : Nat → Nat) (T : Closing) : Prop :=
  ∀ x, S x → ∃ c, T.find x = some c ∧ c.obj.isSome ∧
    (0 < V x ∨ ∃ y c' fs, S y ∧ T.find y = some c' ∧ c'.obj = some fs ∧ x ∈ fs)

theorem Stay.same {S : Nat → Prop} {V : Nat → Nat} {T T' : Closing} (h : Stay S V T)
    (hs : ∀ x c, S x → T.find x = some c → ∃ c', T'.find x = some c' ∧ c'.obj = c.obj) : Stay S V T' := by
  intro x hx
  obtain ⟨c, h1, h2, h3⟩ := h x hx
  obtain ⟨c', h4, h5⟩ := hs x c hx h1
  refine ⟨c', h4, by rw [h5]; exact h2, h3.imp id ?_⟩
  rintro ⟨y, d, fs, h6, h7, h8, h9⟩
  obtain ⟨d', h10, h11⟩ := hs y d h6 h7
  exact ⟨y, d', fs, h6, h10, by rw [h11]; exact h8, h9⟩

theorem refs_pos {r y : Nat} {T : Closing} {c : Cell (Option Fields)} {fs : Fields} (h : T.find y = some c) (ho : c.obj = some fs)
    (hm : r ∈ fs) : 0 < refs r T := by
  induction T with
  | nil => simp [AMap.find] at h
  | cons p T ih =>
    obtain ⟨k, v⟩ := p
    by_cases hk : k = y
    · subst hk
      simp only [AMap.find, if_true, Option.some.injEq] at h; subst h
      have : 0 < fs.count r := List.count_pos_iff.2 hm
      simp only [refs, held, ho, Option.getD_some]; omega
    · simp only [AMap.find, if_neg hk] at h
      have := ih h
      simp only [refs]; omega

theorem eachOf_stay {n : Nat} {S : Nat → Prop} {V : Nat → Nat} (hone : ∀ (r : Nat) (T T' : Closing) (tr : Nat → Nat) (dy : List Nat),
    QInv (fun s => (V s + tr s) + if s = r then 1 else 0) dy T → live T < n → Stay S V T → closeRef n r T = .ok T' → Stay S V T') :
    ∀ (L : List Nat) (T T' : Closing) (tr : Nat → Nat) (dy : List Nat),
    QInv (fun s => (V s + tr s) + L.count s) dy T → live T < n → Stay S V T → eachOf (closeRef n) L T = .ok T' → Stay S V T' := by
  intro L
  induction L with
  | nil => intro T T' tr dy _ _ hs h; simp only [eachOf] at h; cases h; exact hs
  | cons r L ih =>
    intro T T' tr dy hq hl hs h
    have hcount : ∀ s, (r :: L).count s = L.count s + if s = r then 1 else 0 := by
      intro s
      by_cases e : s = r
      · subst e; simp
      · have : ¬ r = s := fun x => e x.symm
        simp [e, this]
    have hq1 : QInv (fun s => (V s + (fun s => tr s + L.count s) s) + if s = r then 1 else 0) dy T :=
      hq.congr (fun s _ => by simp only [hcount]; omega)
    rcases closeRef_fine n r T _ dy hq1 hl with h1 | ⟨T1, h1, h2, h3⟩
    · simp only [eachOf, h1, Res.bind] at h; cases h
    · simp only [eachOf, h1, Res.bind] at h
      exact ih T1 T' tr dy (h2.congr (fun s _ => by simp only; omega)) (Nat.lt_of_le_of_lt h3.fewer hl)
        (hone r T T1 _ dy hq1 hl hs h1) h

theorem closeRef_stay {S : Nat → Prop} {V : Nat → Nat} : ∀ (n r : Nat) (T T' : Closing) (tr : Nat → Nat) (dy : List Nat),
    QInv (fun s => (V s + tr s) + if s = r then 1 else 0) dy T → live T < n → Stay S V T → closeRef n r T = .ok T' → Stay S V T' := by
  intro n
  induction n with
  | zero => intro r T T' tr dy _ h; omega
  | succ n ih =>
    intro r T T' tr dy h hl hs hok
    by_cases hr : r = 0
    · subst hr; simp only [closeRef, if_true] at hok; cases hok; exact hs
    cases hf : T.find r with
    | none => simp only [closeRef, hr, hf, if_false] at hok; cases hok
    | some c =>
      have hc := h.count r c hf
      have hsm := h.small r hr
      simp only [if_true] at hc hsm
      have hcnt : (c.count + (uintSize - 1)) % uintSize = V r + tr r + refs r T := by
        rw [show c.count + (uintSize - 1) = V r + tr r + refs r T + uintSize by omega, Nat.add_mod_right,
          Nat.mod_eq_of_lt (by omega)]
      by_cases hz : V r + tr r + refs r T = 0
      · have hrS : ¬ S r := by
          intro hS
          obtain ⟨-, -, -, h3⟩ := hs r hS
          rcases h3 with h3 | ⟨y, c', fs, -, h4, h5, h6⟩
          · omega
          · have := refs_pos h4 h5 h6; omega
        cases ho : c.obj with
        | none => simp only [closeRef, hr, hf, hcnt, hz, ho, if_true, if_false] at hok; cases hok
        | some fields =>
          have hlive : live (T.set r ⟨0, none⟩) + 1 = live T := by
            have := live_set (c' := (⟨0, none⟩ : Cell (Option Fields))) hf
            simp only [ho, Option.isSome_some, Option.isSome_none, if_true, Bool.false_eq_true, if_false] at this
            omega
          have hq := QInv.begin (ext := fun s => V s + tr s) h hr hf ho hz
          have hs' : Stay S V (T.set r ⟨0, none⟩) := hs.same (fun x cx hx hcx =>
            ⟨cx, by rw [find_set, if_neg (show x ≠ r from fun e => hrS (e ▸ hx))]; exact hcx, rfl⟩)
          simp only [closeRef, hr, hf, hcnt, hz, ho, if_true, if_false] at hok
          rcases eachOf_fine (closeRef_fine n) fields _ _ (r :: dy) hq (by omega) with h1 | ⟨T1, h1, h2, h3⟩
          · rw [h1] at hok; cases hok
          · rw [h1] at hok
            have hst := eachOf_stay ih fields _ T1 tr (r :: dy) hq (by omega) hs' h1
            simp only [Res.bind] at hok
            split at hok
            · cases hok
            · cases hok
              exact hst.same (fun x cx hx hcx =>
                ⟨cx, by rw [AMap.find_erase_ne (show r ≠ x from fun e => hrS (e ▸ hx))]; exact hcx, rfl⟩)
      · simp only [closeRef, hr, hf, hcnt, hz, if_false] at hok
        cases hok
        refine hs.same (fun x cx hx hcx => ?_)
        rw [find_set]
        split
        · rename_i e; subst e; rw [hf] at hcx; cases hcx; exact ⟨_, rfl, rfl⟩
        · exact ⟨cx, hcx, rfl⟩

/-- An object that no variable holds and that is not deleted before its turn: the loop does not come to its end. -/
theorem closeAll_late {n : Nat} {w : World} {k0 : Nat} (hk0 : k0 ∉ w.vars.map Prod.snd) {S : Nat → Prop} (hS0 : S k0)
    (hS : ∀ x, x ∈ w.vars.map Prod.snd → x < k0 → ¬ S x) :
    ∀ (order : List Nat) (T : Closing), QInv (bound w.vars) [] T → live T < n → order.Pairwise (· < ·) → k0 ∈ order →
    (∀ s c, T.find s = some c → s ∈ order ∨ c.obj = none) → Stay S (bound w.vars) T →
    eachOf (closeObject n) order T = .ub := by
  intro order
  induction order with
  | nil => intro T _ _ _ h; cases h
  | cons k order ih =>
    intro T hq hl hord hmem hall hstay
    have hord' := List.pairwise_cons.1 hord
    cases hf : T.find k with
    | none =>
      have : closeObject n k T = .ok T := by simp [closeObject, hf]
      simp only [eachOf, this, Res.bind]
      have hne : k0 ≠ k := by
        intro e; subst e
        obtain ⟨c, h1, -⟩ := hstay k0 hS0
        rw [hf] at h1; cases h1
      refine ih T hq hl hord'.2 ((List.mem_cons.1 hmem).resolve_left hne) (fun s c hs => ?_) hstay
      rcases hall s c hs with h | h
      · rcases List.mem_cons.1 h with rfl | h
        · rw [hf] at hs; cases hs
        · exact Or.inl h
      · exact Or.inr h
    | some c =>
      cases ho : c.obj with
      | none => simp [eachOf, closeObject, hf, ho, Res.bind]
      | some fields =>
        have hk : k ≠ 0 := by intro e; subst e; rw [hq.zero] at hf; cases hf
        have hlive : live (T.set k { c with obj := none }) + 1 = live T := by
          have := live_set (c' := { c with obj := none }) hf
          simp only [ho, Option.isSome_some, Option.isSome_none, if_true, Bool.false_eq_true, if_false] at this
          omega
        have hdo : closeObject n k T = eachOf (closeRef n) fields (T.set k { c with obj := none }) := by
          simp only [closeObject, hf, ho]
        have hqf := hq.force hk hf ho
        rcases eachOf_fine (closeRef_fine n) fields _ (bound w.vars) [] hqf (by omega) with h1 | ⟨T', h1, h2, h3⟩
        · simp only [eachOf, hdo, h1, Res.bind]
        · simp only [eachOf, hdo, h1, Res.bind]
          obtain ⟨c', hc', ho'⟩ := h3.gone k _ (AMap.find_set_self ..) rfl
          have hall' : ∀ s x, T'.find s = some x → s ∈ order ∨ x.obj = none := by
            intro s x hx
            by_cases e : s = k
            · subst e; rw [hc'] at hx; cases hx; exact Or.inr ho'
            · cases hs : T.find s with
              | none =>
                have := h3.absent s (by rw [find_set, if_neg e]; exact hs)
                rw [this] at hx; cases hx
              | some y =>
                rcases hall s y hs with h | h
                · exact Or.inl ((List.mem_cons.1 h).resolve_left e)
                · obtain ⟨z, h4, h5⟩ := h3.gone s y (by rw [find_set, if_neg e]; exact hs) h
                  rw [h4] at hx; cases hx
                  exact Or.inr h5
          by_cases hV : bound w.vars k = 0
          · exact closeAll_lost order T' h2 (by have := h3.fewer; omega) ⟨k, c', hc', ho', hV⟩ hall'
          · have hVk : k ∈ w.vars.map Prod.snd := bound_pos_iff.1 (by omega)
            have hne : k0 ≠ k := fun e => hk0 (e ▸ hVk)
            have hm := (List.mem_cons.1 hmem).resolve_left hne
            have hkS : ¬ S k := hS k hVk (hord'.1 k0 hm)
            have hst : Stay S (bound w.vars) (T.set k { c with obj := none }) := hstay.same (fun x cx hx hcx =>
              ⟨cx, by rw [find_set, if_neg (show x ≠ k from fun e => hkS (e ▸ hx))]; exact hcx, rfl⟩)
            exact ih T' h2 (by have := h3.fewer; omega) hord'.2 hm hall'
              (eachOf_stay (closeRef_stay n) fields _ T' (fun _ => 0) [] hqf (by omega) hst h1)

/-! ## C182 -/

/-- After any history, with any variables left, the shutdown is proper exactly if every object that no variable holds is deleted, because the objects
that refer to it are, before its own turn; otherwise it is undefined. -/
theorem shutdown_iff_partial (ops : List HOp) (bs : List Bool) (w : World) (h : run ops {} = some (bs, w)) (hs : slots ops < 4294967295) :
    (shutdown w.mem = .ok () ↔ ∀ k, (get w.mem k).isSome → k ∉ w.vars.map Prod.snd → Sooner w k k) ∧
    (shutdown w.mem = .ok () ∨ shutdown w.mem = .ub) := by
  obtain ⟨hi, -, -⟩ := run_inv h hs
  have hci := hi.cinv
  have hq := closing_inv hci
  have hlive : live (closing w.mem.cells) < w.mem.cells.length + 1 := by rw [closing_live]; omega
  have hsort := inOrder_sorted hci.addr.cellsNodup
  have hobj : ∀ s c, (closing w.mem.cells).find s = some c → ∃ fs, get w.mem s = some fs ∧ c.obj = some fs := by
    intro s c hc
    rw [closing_find] at hc
    cases hf : w.mem.cells.find s with
    | none => rw [hf] at hc; cases hc
    | some c' => rw [hf] at hc; cases hc; exact ⟨c'.obj, by simp [Memory.get, hf], rfl⟩
  have hobj' : ∀ s fs, get w.mem s = some fs → ∃ c, (closing w.mem.cells).find s = some c ∧ c.obj = some fs := by
    intro s fs hg
    rw [closing_find]
    cases hf : w.mem.cells.find s with
    | none => simp [Memory.get, hf] at hg
    | some c' =>
      simp [Memory.get, hf] at hg
      exact ⟨_, rfl, by simp [hg]⟩
  have hin : ∀ s c, (closing w.mem.cells).find s = some c → s ∈ inOrder w.mem.cells.keys := by
    intro s c hc
    rw [mem_inOrder, ← closing_keys]; exact AMap.mem_keys_of_find hc
  have hyes : (∀ k, (get w.mem k).isSome → k ∉ w.vars.map Prod.snd → Sooner w k k) → shutdown w.mem = .ok () := by
    intro hcond
    obtain ⟨T', hT⟩ := closeAll_goes (n := w.mem.cells.length + 1) hcond (inOrder w.mem.cells.keys) (closing w.mem.cells) hq hlive hsort
      (fun s c hc ho => by obtain ⟨fs, -, h2⟩ := hobj s c hc; rw [h2] at ho; cases ho)
      (fun s c hc => by
        obtain ⟨fs, -, h2⟩ := hobj s c hc
        rw [h2]; simp [hin s c hc])
      (fun s c fs hc ho => by
        obtain ⟨fs', h1, h2⟩ := hobj s c hc
        rw [h2] at ho; cases ho; exact h1)
    simp only [shutdown, hT]
  have hno : ¬ (∀ k, (get w.mem k).isSome → k ∉ w.vars.map Prod.snd → Sooner w k k) → shutdown w.mem = .ub := by
    intro hn
    obtain ⟨k0, hn⟩ := Classical.not_forall.1 hn
    obtain ⟨hg0, hn⟩ := Classical.not_forall.1 hn
    obtain ⟨hv0, hn⟩ := Classical.not_forall.1 hn
    obtain ⟨fs0, hfs0⟩ := Option.isSome_iff_exists.1 hg0
    obtain ⟨c0, hc0, -⟩ := hobj' k0 fs0 hfs0
    have := closeAll_late (n := w.mem.cells.length + 1) (S := fun x => (get w.mem x).isSome ∧ ¬ Sooner w k0 x) hv0 ⟨hg0, hn⟩
      (fun x hx hlt hSx => hSx.2 (.held hx hlt)) (inOrder w.mem.cells.keys) (closing w.mem.cells) hq hlive hsort (hin k0 c0 hc0)
      (fun s c hc => Or.inl (hin s c hc)) (by
        rintro x ⟨hgx, hsx⟩
        obtain ⟨fs, hfs⟩ := Option.isSome_iff_exists.1 hgx
        obtain ⟨c, hc, ho⟩ := hobj' x fs hfs
        refine ⟨c, hc, by rw [ho]; rfl, ?_⟩
        by_cases hv : x ∈ w.vars.map Prod.snd
        · exact Or.inl (bound_pos_iff.2 hv)
        · right
          refine Classical.byContradiction fun hnone => hsx (.loose hv fun y fs' hy hm => ?_)
          refine Classical.byContradiction fun hny => hnone ?_
          obtain ⟨c', hc', ho'⟩ := hobj' y fs' hy
          exact ⟨y, c', fs', ⟨by rw [hy]; rfl, hny⟩, hc', ho', hm⟩)
    simp only [shutdown, this]
  by_cases hcond : ∀ k, (get w.mem k).isSome → k ∉ w.vars.map Prod.snd → Sooner w k k
  · exact ⟨⟨fun _ => hcond, hyes⟩, Or.inl (hyes hcond)⟩
  · refine ⟨⟨fun hok => ?_, hyes⟩, Or.inr (hno hcond)⟩
    rw [hno hcond] at hok; cases hok

/-- A variable holds object 2, which refers to object 1: proper if the variable holds object 1 as well, undefined if it does not. -/
example : ∃ bs w, run [.declare 1, .setNew 1 0, .declare 2, .setNew 2 1, .setField 2 0 1] {} = some (bs, w) ∧ w.vars = [(1, 1), (2, 2)] ∧
    get w.mem 2 = some [1] ∧ shutdown w.mem = .ok () := ⟨_, _, rfl, rfl, rfl, by decide +kernel⟩

end Verif.Heap
