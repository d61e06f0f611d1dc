import Verif.Heap.Inherit
import Verif.Heap.Props

/-! # Property C130: what the inherited members of an object hold -/

namespace Verif.Heap

open Verif.Memory

/-! ## Names -/

theorem user_ne_slot (x r i : Nat) : user x ≠ slot r i := by unfold user slot; omega

theorem user_inj {x y : Nat} (h : user x = user y) : x = y := by unfold user at h; omega

theorem slot_inj {r i r' i' : Nat} (h : slot r i = slot r' i') : r = r' ∧ i = i' := by
  unfold slot at h
  have : Nat.pair r i = Nat.pair r' i' := by omega
  exact Nat.pair_eq_pair.1 this

theorem name_cases (z : Nat) : (∃ x, z = user x) ∨ (∃ r i, z = slot r i) := by
  by_cases h : z % 2 = 0
  · left; exact ⟨z / 2, by unfold user; omega⟩
  · right
    refine ⟨(Nat.unpair (z / 2)).1, (Nat.unpair (z / 2)).2, ?_⟩
    unfold slot
    rw [Nat.pair_unpair]; omega

/-! ## Addresses are not used again -/

/-- Every object of `b` is one of `a` or has a new address. -/
def Grows (a b : Mem Fields) : Prop :=
  AddrInv a → AddrInv b ∧ a.next ≤ b.next ∧ ∀ k ∈ b.cells.keys, k ∈ a.cells.keys ∨ a.next ≤ k

theorem Grows.refl (m : Mem Fields) : Grows m m := fun h => ⟨h, Nat.le_refl _, fun _ hk => Or.inl hk⟩

theorem Grows.trans {a b c : Mem Fields} (h1 : Grows a b) (h2 : Grows b c) : Grows a c := by
  intro h
  obtain ⟨hb, hn, hk⟩ := h1 h
  obtain ⟨hc, hn', hk'⟩ := h2 hb
  refine ⟨hc, Nat.le_trans hn hn', fun k hm => ?_⟩
  rcases hk' k hm with h | h
  · exact hk k h
  · exact Or.inr (Nat.le_trans hn h)

theorem Grows.new {o : Fields} {m m' : Mem Fields} {r : Nat} (e : newObject o m = some (r, m')) : Grows m m' := by
  intro h
  refine ⟨addrInv_new h e, ?_⟩
  obtain ⟨-, -, rfl⟩ := newObject_some h e
  refine ⟨Nat.le_succ _, fun k hk => ?_⟩
  simp only [AMap.mem_keys_set] at hk
  rcases hk with rfl | rfl | hk
  · right; exact Nat.le_refl _
  · right; exact Nat.le_refl _
  · exact Or.inl hk

theorem Grows.add {r : Nat} {m m' : Mem Fields} (e : add r m = .ok m') : Grows m m' := by
  intro h
  refine ⟨addrInv_add h e, ?_⟩
  unfold Memory.add at e
  split at e
  · cases e; exact ⟨Nat.le_refl _, fun _ hk => Or.inl hk⟩
  · split at e
    · cases e
    · rename_i c hc
      cases e
      refine ⟨Nat.le_refl _, fun k hk => ?_⟩
      simp only [AMap.mem_keys_set] at hk
      rcases hk with rfl | hk
      · exact Or.inl (AMap.mem_keys_of_find hc)
      · exact Or.inl hk

theorem Grows.exec {n : Nat} {op : Op Fields} {m m' : Mem Fields} (e : exec destroyFields n op m = .ok m') :
    Grows m m' := by
  refine exec_induct destroyFields Grows Grows.refl (fun _ _ _ => Grows.trans) (fun _ _ _ _ => Grows.new)
    (fun _ _ _ => Grows.add) ?_ ?_ n op m m' (Or.inl e)
  · intro r m c k hc _ h
    refine ⟨addrInv_dec h hc, Nat.le_refl _, fun q hq => ?_⟩
    simp only [AMap.mem_keys_set] at hq
    rcases hq with rfl | hq
    · exact Or.inl (AMap.mem_keys_of_find hc)
    · exact Or.inl hq
  · intro r m c hc h
    exact ⟨addrInv_del h hc, Nat.le_refl _, fun q hq => Or.inl ((AMap.keys_erase_sublist r m.cells).subset hq)⟩

theorem Grows.rebind {old new : Nat} {m m' : Mem Fields} (e : rebind old new m = .ok m') : Grows m m' := by
  unfold Heap.rebind addRef at e
  cases ha : Memory.add new m with
  | ok m₁ =>
    simp only [ha, Res.bind] at e
    split at e
    · cases e; exact Grows.add ha
    · exact (Grows.add ha).trans (Grows.exec e)
  | throw _ => simp [ha, Res.bind] at e
  | ub => simp [ha, Res.bind] at e
  | fuel => simp [ha, Res.bind] at e

theorem lift_ok {vars : AMap Nat Nat} {x : Res (Mem Fields)} {w : World} (h : lift vars x = .ok w) :
    ∃ m, x = .ok m ∧ w = ⟨m, vars⟩ := by
  cases x with
  | ok m => simp only [lift, Res.ok.injEq] at h; exact ⟨m, rfl, h.symm⟩
  | throw _ => simp [lift] at h
  | ub => simp [lift] at h
  | fuel => simp [lift] at h

theorem Grows.assignVar {x ref : Nat} {w w' : World} (e : assignVar x ref w = .ok w') : Grows w.mem w'.mem := by
  unfold Heap.assignVar at e
  split at e
  · cases e
  · obtain ⟨m, hm, rfl⟩ := lift_ok e
    exact Grows.rebind hm

theorem Grows.store {r i ref : Nat} {c : Cell Fields} {m : Mem Fields} (hc : m.cells.find r = some c) :
    Grows m (storeField r i ref c m) := by
  intro h
  have hk : (storeField r i ref c m).cells.keys = m.cells.keys :=
    AMap.keys_set_of_mem (AMap.mem_keys_of_find hc)
  exact ⟨addrInv_same h rfl rfl hk, Nat.le_refl _, fun k hk' => Or.inl (hk ▸ hk')⟩

theorem Grows.step {op : HOp} {w w' : World} (e : step op w = .ok w') : Grows w.mem w'.mem := by
  cases op <;> simp only [Heap.step] at e
  case declare x =>
    split at e
    · cases e
    · cases e; exact Grows.refl _
  case destroy x =>
    split at e
    · cases e
    · obtain ⟨m, hm, rfl⟩ := lift_ok e
      split at hm
      · cases hm; exact Grows.refl _
      · exact Grows.exec hm
  case setNew x k =>
    split at e
    · cases e
    · split at e
      · cases e
      · rename_i ref m hm
        exact (Grows.new hm).trans (Grows.assignVar e)
  case setNull x => exact Grows.assignVar e
  case assign x y =>
    split at e
    · cases e
    · exact Grows.assignVar e
  case setField x i y =>
    split at e
    · split at e
      · cases e
      · rename_i c hc
        split at e
        · cases e
        · obtain ⟨m, hm, rfl⟩ := lift_ok e
          exact (Grows.store hc).trans (Grows.rebind hm)
    · cases e
  case getField x y i =>
    split at e
    · cases e
    · split at e
      · cases e
      · split at e
        · cases e
        · exact Grows.assignVar e

/-! ## Only the target changes -/

/-- The variable an operation changes. -/
def target : HOp → Option Nat
  | .declare x => some x
  | .destroy x => some x
  | .setNew x _ => some x
  | .setNull x => some x
  | .assign x _ => some x
  | .setField _ _ _ => none
  | .getField x _ _ => some x

theorem astep_frame {op : HOp} {s s' : AState} (e : astep op s = some s') {z : Nat} (hz : target op ≠ some z) :
    s'.vars.find z = s.vars.find z := by
  cases op <;> simp only [target, ne_eq, Option.some.injEq] at hz <;> simp only [astep] at e
  all_goals (repeat' split at e)
  all_goals first
    | (cases e; done)
    | (cases e; exact AMap.find_set_ne hz _ _)
    | (cases e; exact AMap.find_erase_ne hz _)
    | (cases e; rfl)

/-! ## The invariant -/

/-- What holds between the operations of a program. -/
structure IInv (B : Nat) (w : World) : Prop where
  winv : WInv B w
  sim : ∃ s, Sim w s
  nodup : w.vars.keys.Nodup
  slotLt : ∀ r i v, w.vars.find (slot r i) = some v → r < w.mem.next

theorem plain_ok {B : Nat} {w : World} (op : HOp) (h : IInv B w) (hB : B + cost op + 1 < uintSize)
    (ht : ∀ r i, target op = some (slot r i) → r < w.mem.next) :
    (∃ w', plain op w = some (true, w') ∧ step op w = .ok w' ∧ IInv (B + cost op) w' ∧ Grows w.mem w'.mem ∧
      ∀ z, target op ≠ some z → w'.vars.find z = w.vars.find z) ∨
    plain op w = some (false, w) := by
  obtain ⟨s, hs⟩ := h.sim
  rcases step_sim op h.winv hs hB with ⟨w', s', e, ea, hi', hs'⟩ | ⟨e, -⟩
  · left
    have hg := Grows.step e
    have hfr : ∀ z, target op ≠ some z → w'.vars.find z = w.vars.find z := by
      intro z hz
      rw [hs'.vars, hs.vars]
      exact astep_frame ea hz
    refine ⟨w', by simp only [plain, e], e, ⟨hi', ⟨s', hs'⟩, ?_, ?_⟩, hg, hfr⟩
    · rw [hs'.vars]; exact astep_vars_nodup (hs.vars ▸ h.nodup) ea
    · intro r i v hv
      have hn := (hg h.winv.cinv.addr).2.1
      by_cases hz : target op = some (slot r i)
      · exact Nat.lt_of_lt_of_le (ht r i hz) hn
      · rw [hfr _ hz] at hv
        exact Nat.lt_of_lt_of_le (h.slotLt r i v hv) hn
  · right; simp only [plain, e]

theorem run_declares (xs : List Nat) : ∀ w : World, ∃ bs w', run (xs.map HOp.declare) w = some (bs, w') ∧
    w'.mem = w.mem ∧ (∀ z, z ∉ xs → w'.vars.find z = w.vars.find z) := by
  induction xs with
  | nil => intro w; exact ⟨[], w, rfl, rfl, fun _ _ => rfl⟩
  | cons x xs ih =>
    intro w
    cases hx : w.vars.find x with
    | some v =>
      obtain ⟨bs, w', e, hm, hv⟩ := ih w
      refine ⟨false :: bs, w', ?_, hm, fun z hz => hv z (fun h => hz (List.mem_cons_of_mem _ h))⟩
      simp [run, step, hx, e]
    | none =>
      obtain ⟨bs, w', e, hm, hv⟩ := ih { w with vars := w.vars.set x 0 }
      refine ⟨true :: bs, w', ?_, hm, fun z hz => ?_⟩
      · simp [run, step, hx, e]
      · rw [hv z (fun h => hz (List.mem_cons_of_mem _ h))]
        exact AMap.find_set_ne (fun (h : x = z) => hz (h ▸ List.mem_cons_self ..)) _ _

theorem slots_declareBase (r : Nat) (l : List Nat) : slots (l.map fun i => HOp.declare (slot r i)) = l.length := by
  induction l with
  | nil => rfl
  | cons i l ih => simp only [List.map_cons, slots, ih, List.length_cons]; omega

theorem declareBase_ok {B : Nat} {w : World} {r j : Nat} (h : IInv B w) (hB : B + j + 1 < uintSize)
    (hr : r < w.mem.next) :
    ∃ bs w', run (declareBase r j) w = some (bs, w') ∧ IInv (B + j) w' ∧ w'.mem = w.mem ∧
      (∀ z, (∀ i, z ≠ slot r i) → w'.vars.find z = w.vars.find z) := by
  obtain ⟨s, hs⟩ := h.sim
  have hlen : slots (declareBase r j) = j := by
    unfold declareBase; rw [slots_declareBase]; simp
  obtain ⟨w', e, hi, hs'⟩ := run_sim (declareBase r j) B w s h.winv hs (by rw [hlen]; exact hB)
  rw [hlen] at hi
  obtain ⟨bs', w'', e', hm, hv⟩ := run_declares ((List.range j).map fun i => slot r i) w
  have hmap : ((List.range j).map fun i => slot r i).map HOp.declare = declareBase r j := by
    simp [declareBase]
  rw [hmap] at e'
  rw [e] at e'
  simp only [Option.some.injEq, Prod.mk.injEq] at e'
  obtain ⟨-, rfl⟩ := e'
  have hv' : ∀ z, (∀ i, z ≠ slot r i) → w'.vars.find z = w.vars.find z := by
    intro z hz
    apply hv
    intro hm
    obtain ⟨i, -, rfl⟩ := List.mem_map.1 hm
    exact hz i rfl
  refine ⟨_, w', e, ⟨hi, ⟨_, hs'⟩, ?_, ?_⟩, hm, hv'⟩
  · rw [hs'.vars]; exact arun_vars_nodup _ _ (hs.vars ▸ h.nodup)
  · intro r' i v hf
    rw [hm]
    by_cases hrr : r' = r
    · subst hrr; exact hr
    · rw [hv' _ (fun i' e => hrr (slot_inj e).1)] at hf
      exact h.slotLt r' i v hf

/-- The reference slots an operation creates. -/
def icost : IOp → Nat
  | .declare _ => 1
  | .setNew _ k j => k + j
  | _ => 0

theorem islots_cons (op : IOp) (ops : List IOp) : islots (op :: ops) = icost op + islots ops := by
  cases op <;> simp [islots, icost]

/-- One operation: defined, the invariant is kept, no address is used again, and the inherited members of objects that do not exist
are left alone. -/
theorem istep_ok {B : Nat} {w : World} (op : IOp) (h : IInv B w) (hB : B + icost op + 1 < uintSize) :
    ∃ b w', istep op w = some (b, w') ∧ IInv (B + icost op) w' ∧ Grows w.mem w'.mem ∧
      ∀ r i, r < w.mem.next → r ∉ w.mem.cells.keys → w'.vars.find (slot r i) = w.vars.find (slot r i) := by
  have mono : ∀ {C : Nat}, B ≤ C → IInv C w := fun hC => ⟨h.winv.mono hC, h.sim, h.nodup, h.slotLt⟩
  -- operations whose target is a variable of the program, or none
  have easy : ∀ (hop : HOp), cost hop + B ≤ B + icost op → (∀ r i, target hop ≠ some (slot r i)) →
      istep op w = plain hop w → ∃ b w', istep op w = some (b, w') ∧ IInv (B + icost op) w' ∧ Grows w.mem w'.mem ∧
      ∀ r i, r < w.mem.next → r ∉ w.mem.cells.keys → w'.vars.find (slot r i) = w.vars.find (slot r i) := by
    intro hop hc ht e
    rcases plain_ok hop h (by omega) (fun r i e => absurd e (ht r i)) with ⟨w', e', -, hi, hg, hf⟩ | e'
    · exact ⟨true, w', by rw [e, e'], ⟨hi.winv.mono (by omega), hi.sim, hi.nodup, hi.slotLt⟩, hg,
        fun r i _ _ => hf _ (ht r i)⟩
    · exact ⟨false, w, by rw [e, e'], mono (by omega), Grows.refl _, fun _ _ _ _ => rfl⟩
  have hu : ∀ x r i, some (user x) ≠ some (slot r i) := fun x r i e => user_ne_slot x r i (Option.some.inj e)
  cases op with
  | declare x => exact easy (.declare (user x)) (by simp [cost, icost]; omega) (hu x) rfl
  | destroy x => exact easy (.destroy (user x)) (by simp [cost, icost]) (hu x) rfl
  | setNull x => exact easy (.setNull (user x)) (by simp [cost, icost]) (hu x) rfl
  | assign x y => exact easy (.assign (user x) (user y)) (by simp [cost, icost]) (hu x) rfl
  | setField x i y => exact easy (.setField (user x) i (user y)) (by simp [cost, icost]) (by simp [target]) rfl
  | getField x y i => exact easy (.getField (user x) (user y) i) (by simp [cost, icost]) (hu x) rfl
  | setNew x k j =>
    simp only [icost] at hB ⊢
    rcases plain_ok (.setNew (user x) k) h (by simp only [cost]; omega) (fun r i e => absurd e (hu x r i)) with
      ⟨w₁, e, est, hi, hg, hf⟩ | e
    · -- the new object
      simp only [cost] at hi
      have hr : ∃ r, w₁.vars.find (user x) = some r ∧ r = w.mem.next ∧ r < w₁.mem.next := by
        simp only [step] at est
        cases hold : w.vars.find (user x) with
        | none => simp [hold] at est
        | some old =>
          cases hm : newObject (List.replicate k 0) w.mem with
          | none => simp [hold, hm] at est
          | some p =>
            obtain ⟨ref, m⟩ := p
            simp only [hold, hm] at est
            obtain ⟨hrf, -, hm'⟩ := newObject_some h.winv.cinv.addr hm
            have hnx := (Grows.assignVar est (addrInv_new h.winv.cinv.addr hm)).2.1
            simp only [assignVar, hold] at est
            obtain ⟨m₂, -, rfl⟩ := lift_ok est
            refine ⟨ref, AMap.find_set_self .., hrf, ?_⟩
            have : m.next = w.mem.next + 1 := by rw [hm']
            simp only at hnx ⊢
            omega
      obtain ⟨r, hrv, hrn, hrlt⟩ := hr
      obtain ⟨bs, w₂, e₂, hi₂, hm₂, hv₂⟩ := declareBase_ok (j := j) hi (by omega) hrlt
      refine ⟨true, w₂, ?_, ⟨hi₂.winv.mono (by omega), hi₂.sim, hi₂.nodup, hi₂.slotLt⟩, ?_, ?_⟩
      · simp only [istep, e, hrv, e₂, Option.map_some]
      · rw [hm₂]; exact hg
      · intro q i hq _
        rw [hv₂ _ (fun i' e => by have := (slot_inj e).1; omega)]
        exact hf _ (hu x q i)
    · refine ⟨false, w, by simp only [istep, e], mono (by omega), Grows.refl _, fun _ _ _ _ => rfl⟩
  | setBase x i y =>
    simp only [icost] at hB ⊢
    cases hx : w.vars.find (user x) with
    | none => exact ⟨false, w, by simp only [istep, hx], mono (by omega), Grows.refl _, fun _ _ _ _ => rfl⟩
    | some r =>
      cases hc : w.mem.cells.find r with
      | none => exact ⟨false, w, by simp only [istep, hx, hc], mono (by omega), Grows.refl _, fun _ _ _ _ => rfl⟩
      | some c =>
        have hk := AMap.mem_keys_of_find hc
        have hlt := h.winv.cinv.addr.cellsLt r hk
        rcases plain_ok (.assign (slot r i) (user y)) h (by simp only [cost]; omega)
          (fun r' i' e => by
            have := (slot_inj (Option.some.inj e)).1
            omega) with ⟨w', e, -, hi, hg, hf⟩ | e
        · refine ⟨true, w', by simp only [istep, hx, hc, e], hi, hg, fun q i' hq hnk => ?_⟩
          apply hf
          intro e
          have := (slot_inj (Option.some.inj e)).1
          exact hnk (this ▸ hk)
        · exact ⟨false, w, by simp only [istep, hx, hc, e], mono (by omega), Grows.refl _, fun _ _ _ _ => rfl⟩
  | getBase x y i =>
    simp only [icost] at hB ⊢
    cases hy : w.vars.find (user y) with
    | none => exact ⟨false, w, by simp only [istep, hy], mono (by omega), Grows.refl _, fun _ _ _ _ => rfl⟩
    | some r =>
      cases hc : w.mem.cells.find r with
      | none => exact ⟨false, w, by simp only [istep, hy, hc], mono (by omega), Grows.refl _, fun _ _ _ _ => rfl⟩
      | some c =>
        rcases plain_ok (.assign (user x) (slot r i)) h (by simp only [cost]; omega)
          (fun r' i' e => absurd e (hu x r' i')) with ⟨w', e, -, hi, hg, hf⟩ | e
        · exact ⟨true, w', by simp only [istep, hy, hc, e], hi, hg, fun q i' _ _ => hf _ (hu x q i')⟩
        · exact ⟨false, w, by simp only [istep, hy, hc, e], mono (by omega), Grows.refl _, fun _ _ _ _ => rfl⟩

theorem irun_ok (ops : List IOp) : ∀ (B : Nat) (w : World), IInv B w → B + islots ops + 1 < uintSize →
    ∃ bs w', irun ops w = some (bs, w') ∧ IInv (B + islots ops) w' ∧ Grows w.mem w'.mem ∧
      ∀ r i, r < w.mem.next → r ∉ w.mem.cells.keys → w'.vars.find (slot r i) = w.vars.find (slot r i) := by
  induction ops with
  | nil => intro B w h _; exact ⟨[], w, rfl, h, Grows.refl _, fun _ _ _ _ => rfl⟩
  | cons op ops ih =>
    intro B w h hB
    rw [islots_cons] at hB ⊢
    obtain ⟨b, w₁, e, hi, hg, hf⟩ := istep_ok op h (by omega)
    obtain ⟨bs, w₂, e₂, hi₂, hg₂, hf₂⟩ := ih _ w₁ hi (by omega)
    refine ⟨b :: bs, w₂, by simp only [irun, e, e₂, Option.map_some], by rw [← Nat.add_assoc]; exact hi₂, hg.trans hg₂, ?_⟩
    intro r i hr hk
    obtain ⟨-, hn, hkeys⟩ := hg h.winv.cinv.addr
    rw [hf₂ r i (by omega) ?_, hf r i hr hk]
    intro hm
    rcases hkeys r hm with h' | h'
    · exact hk h'
    · omega

theorem iinv_empty : IInv 0 {} :=
  ⟨winv_empty, ⟨_, sim_empty⟩, by simp [AMap.keys], by simp [AMap.find]⟩

theorem irun_inv {ops : List IOp} {bs : List Bool} {w : World} (h : irun ops {} = some (bs, w))
    (hs : islots ops < 4294967295) : IInv (islots ops) w := by
  obtain ⟨bs', w', e, hi, -⟩ := irun_ok ops 0 {} iinv_empty (by simp [uintSize]; omega)
  rw [e] at h
  simp only [Option.some.injEq, Prod.mk.injEq] at h
  obtain ⟨-, rfl⟩ := h
  simpa using hi

/-! ## The property -/

/-- **C130**, safety: no program over variables, declared and inherited members runs into undefined behaviour. -/
theorem inherited_never_undefined (ops : List IOp) (hs : islots ops < 4294967295) :
    ∃ bs w, irun ops {} = some (bs, w) := by
  obtain ⟨bs, w, e, -⟩ := irun_ok ops 0 {} iinv_empty (by simp [uintSize]; omega)
  exact ⟨bs, w, e⟩

/-- **C130**, safety: every variable and every member of an existing object, declared or inherited, is null or
refers to an existing object. -/
theorem inherited_no_dangling (ops : List IOp) (bs : List Bool) (w : World)
    (h : irun ops {} = some (bs, w)) (hs : islots ops < 4294967295) :
    (∀ x r, w.vars.find (user x) = some r → r ≠ 0 → (get w.mem r).isSome) ∧
    (∀ r r', Holds w r r' → r' ≠ 0 → (get w.mem r').isSome) := by
  have hi := irun_inv h hs
  have live : ∀ r, r ∈ w.mem.cells.keys → (get w.mem r).isSome := by
    intro r hk
    cases hf : w.mem.cells.find r with
    | none => exact absurd hk ((AMap.find_eq_none_iff _ _).1 hf)
    | some c => simp [Memory.get, hf]
  constructor
  · intro x r hx hr; exact live r (hi.winv.var_live hx hr)
  · intro r r' hh hr
    cases hh with
    | own hg hm =>
      obtain ⟨c, hc, rfl⟩ := get_eq_some hg
      exact live r' (hi.winv.field_live hc hm hr)
    | base _ hv => exact live r' (hi.winv.var_live hv hr)

/-- **C130**: the stored reference count of each existing object is the number of variables and members that refer to it, where
the inherited members of all objects count, of destroyed ones as well (`w.vars` holds the variables and these). -/
theorem inherited_count_eq_references (ops : List IOp) (bs : List Bool) (w : World)
    (h : irun ops {} = some (bs, w)) (hs : islots ops < 4294967295) (r : Nat) (c : Cell Fields)
    (hc : w.mem.cells.find r = some c) : c.count = references w r ∧ 0 < references w r := by
  have hi := irun_inv h hs
  have h1 := hi.winv.cinv.count r c hc
  have h2 := hi.winv.cinv.pos r (AMap.mem_keys_of_find hc) (by simp)
  rw [inner_eq_sum] at h1 h2
  simp only [List.not_mem_nil, false_or] at h2
  exact ⟨h1, h2⟩

/-- **C130** refuted: what an inherited member of an object refers to when the object is destroyed is never released.
Whatever the program does afterwards, the object referred to goes on existing. -/
theorem inherited_members_leak_refuted (ops more : List IOp) (bs bs' : List Bool) (w w' : World)
    (h : irun ops {} = some (bs, w)) (h' : irun more w = some (bs', w'))
    (hs : islots ops + islots more < 4294967295) (r i q : Nat)
    (hdead : get w.mem r = none) (hslot : w.vars.find (slot r i) = some q) (hq : q ≠ 0) :
    (get w'.mem q).isSome := by
  have hi := irun_inv h (by omega)
  obtain ⟨bs₂, w₂, e₂, hi₂, -, hf⟩ := irun_ok more _ w hi (by simp [uintSize]; omega)
  rw [e₂] at h'
  simp only [Option.some.injEq, Prod.mk.injEq] at h'
  obtain ⟨-, rfl⟩ := h'
  have hk : r ∉ w.mem.cells.keys := by
    intro hm
    cases hc : w.mem.cells.find r with
    | none => exact ((AMap.find_eq_none_iff _ _).1 hc) hm
    | some c => simp [Memory.get, hc] at hdead
  have hv := hf r i (hi.slotLt r i q hslot) hk
  rw [hslot] at hv
  have hk' := hi₂.winv.var_live hv hq
  cases hc : w₂.mem.cells.find q with
  | none => exact absurd hk' ((AMap.find_eq_none_iff _ _).1 hc)
  | some c => simp [Memory.get, hc]

/-- Two objects; the first has an inherited member and refers to the second one by it.  All variables are cleared: the first object is
destroyed, the second stays.  With a member declared by the class itself both are destroyed. -/
theorem inherited_leak_exists :
    (∃ bs w, irun [.declare 1, .declare 2, .setNew 1 0 1, .setNew 2 0 0, .setBase 1 0 2, .setNull 2, .setNull 1] {} = some (bs, w) ∧
      (∀ b ∈ bs, b = true) ∧ get w.mem 1 = none ∧ w.vars.find (slot 1 0) = some 2 ∧ (get w.mem 2).isSome ∧
      w.vars.find (user 1) = some 0 ∧ w.vars.find (user 2) = some 0) ∧
    (∃ bs w, irun [.declare 1, .declare 2, .setNew 1 1 0, .setNew 2 0 0, .setField 1 0 2, .setNull 2, .setNull 1] {} = some (bs, w) ∧
      (∀ b ∈ bs, b = true) ∧ get w.mem 1 = none ∧ get w.mem 2 = none) :=
  ⟨⟨_, _, rfl, by decide +kernel, by decide +kernel, by decide +kernel, by decide +kernel, by decide +kernel, by decide +kernel⟩,
    ⟨_, _, rfl, by decide +kernel, by decide +kernel, by decide +kernel⟩⟩

/-- **C130**, what is missing is only that: if no object refers to itself through its members and no object that was destroyed still
held anything by an inherited member, then everything that exists can be reached from a variable. -/
theorem inherited_garbage_destroyed_partial (ops : List IOp) (bs : List Bool) (w : World)
    (h : irun ops {} = some (bs, w)) (hs : islots ops < 4294967295)
    (hac : ∀ r, ¬ IPath w r r)
    (hleak : ∀ r i q, get w.mem r = none → w.vars.find (slot r i) = some q → q = 0)
    (r : Nat) (hr : (get w.mem r).isSome) : IReach w r := by
  have hi := irun_inv h hs
  have pred : ∀ r, r ∈ w.mem.cells.keys → (∃ x, w.vars.find (user x) = some r) ∨
      (∃ s, s ∈ w.mem.cells.keys ∧ Holds w s r) := by
    intro r hk
    have hr0 := hi.winv.cinv.key_ne_zero hk
    have hpos := hi.winv.cinv.pos r hk (by simp)
    simp only [List.not_mem_nil, false_or] at hpos
    by_cases hb : 0 < bound w.vars r
    · obtain ⟨⟨z, v⟩, hm, rfl⟩ := List.mem_map.1 (List.count_pos_iff.1 hb)
      have hz := AMap.find_of_mem hi.nodup hm
      rcases name_cases z with ⟨x, rfl⟩ | ⟨s, i, rfl⟩
      · exact Or.inl ⟨x, hz⟩
      · right
        cases hg : get w.mem s with
        | none => exact absurd (hleak s i _ hg hz) hr0
        | some fs =>
          obtain ⟨c, hc, -⟩ := get_eq_some hg
          exact ⟨s, AMap.mem_keys_of_find hc, .base (i := i) (by simp [hg]) hz⟩
    · right
      obtain ⟨s, c, hc, hm⟩ := exists_of_inner_pos hi.winv.cinv.addr.cellsNodup (show 0 < inner [] r w.mem.cells by omega)
      exact ⟨s, AMap.mem_keys_of_find hc, .own (fs := c.obj) (by simp [Memory.get, hc]) hm⟩
  have key : ∀ (k : Nat) (vis : List Nat) (r : Nat), w.mem.cells.keys.length - vis.length = k →
      vis.Nodup → vis ⊆ w.mem.cells.keys → r ∈ vis →
      (∀ t ∈ vis, t = r ∨ IPath w r t) → IReach w r := by
    intro k
    induction k with
    | zero =>
      intro vis r hk hn hsub hrv hpath
      rcases pred r (hsub hrv) with ⟨x, hx⟩ | ⟨s, hsk, hh⟩
      · exact .var hx (hi.winv.cinv.key_ne_zero (hsub hrv))
      · exfalso
        have hr0 := hi.winv.cinv.key_ne_zero (hsub hrv)
        have hsv : s ∉ vis := by
          intro hsv
          rcases hpath s hsv with rfl | hp
          · exact hac s (.one hh hr0)
          · exact hac s (.step hh hr0 hp)
        have := nodup_subset_length (l := s :: vis) (k := w.mem.cells.keys)
          (List.nodup_cons.2 ⟨hsv, hn⟩) (List.cons_subset.2 ⟨hsk, hsub⟩)
        simp only [List.length_cons] at this
        omega
    | succ k ih =>
      intro vis r hk hn hsub hrv hpath
      rcases pred r (hsub hrv) with ⟨x, hx⟩ | ⟨s, hsk, hh⟩
      · exact .var hx (hi.winv.cinv.key_ne_zero (hsub hrv))
      · have hr0 := hi.winv.cinv.key_ne_zero (hsub hrv)
        have hsv : s ∉ vis := by
          intro hsv
          rcases hpath s hsv with rfl | hp
          · exact hac s (.one hh hr0)
          · exact hac s (.step hh hr0 hp)
        have hrs : IReach w s := by
          apply ih (s :: vis) s
          · simp only [List.length_cons]; omega
          · exact List.nodup_cons.2 ⟨hsv, hn⟩
          · exact List.cons_subset.2 ⟨hsk, hsub⟩
          · exact List.mem_cons_self ..
          · intro t ht
            rcases List.mem_cons.1 ht with rfl | ht
            · exact Or.inl rfl
            · right
              rcases hpath t ht with rfl | hp
              · exact .one hh hr0
              · exact .step hh hr0 hp
        exact .member hrs hh hr0
  cases hg : get w.mem r with
  | none => simp [hg] at hr
  | some fs =>
    obtain ⟨c, hc, -⟩ := get_eq_some hg
    have hk := AMap.mem_keys_of_find hc
    exact key _ [r] r rfl (by simp) (by simpa using hk) (by simp) (by simp)

/-- A program whose first object refers to its second one by an inherited member. -/
def demoOps : List IOp := [.declare 1, .declare 2, .setNew 1 1 1, .setNew 2 0 0, .setBase 1 0 2, .setNull 2]

/-- Its last state. -/
def demo : World := ((irun demoOps {}).map (·.2)).getD {}

/-- A program that meets the hypotheses of the last theorem with an inherited member in use: the object of variable 1 refers to the second object
by it. -/
example : ∃ bs w, irun demoOps {} = some (bs, w) ∧
    (∀ r, ¬ IPath w r r) ∧ (∀ r i q, get w.mem r = none → w.vars.find (slot r i) = some q → q = 0) ∧
    (get w.mem 2).isSome ∧ Holds w 1 2 := by
  refine ⟨_, demo, rfl, ?_, ?_, by decide +kernel, .base (i := 0) (by decide +kernel) (by decide +kernel)⟩
  · have edge : ∀ r r', Holds demo r r' →
        r' ≠ 0 → r = 1 ∧ r' = 2 := by
      intro r r' hh h0
      cases hh with
      | own hg hm =>
        exfalso
        by_cases h1 : r = 1
        · subst h1
          have : get demo.mem 1 = some [0] := by
            decide +kernel
          rw [this] at hg; cases hg; simp at hm; exact h0 hm
        · by_cases h2 : r = 2
          · subst h2
            have : get demo.mem 2 = some [] := by
              decide +kernel
            rw [this] at hg; cases hg; simp at hm
          · have hk : demo.mem.cells.keys = [1, 2] := by
              decide +kernel
            obtain ⟨c, hc, -⟩ := get_eq_some hg
            have := AMap.mem_keys_of_find hc
            rw [hk] at this
            simp [h1, h2] at this
      | @base i _ hv =>
        have hvars : demo.vars =
            [(user 1, 1), (user 2, 0), (slot 1 0, 2)] := by decide +kernel
        rw [hvars] at hv
        simp only [AMap.find, if_neg (user_ne_slot _ _ _)] at hv
        split at hv
        · rename_i e
          cases hv
          exact ⟨(slot_inj e).1.symm, rfl⟩
        · cases hv
    intro r hp
    have key : ∀ a b, IPath demo a b → a = 1 ∧ b = 2 := by
      intro a b hp
      induction hp with
      | one hh h0 => exact edge _ _ hh h0
      | step hh h0 _ ih => have := (edge _ _ hh h0).2; omega
    have := key r r hp
    omega
  · intro r i q hg hv
    have hvars : demo.vars =
        [(user 1, 1), (user 2, 0), (slot 1 0, 2)] := by decide +kernel
    have hv' : AMap.find (slot r i) [(user 1, 1), (user 2, 0), (slot 1 0, 2)] = some q := by rw [← hvars]; exact hv
    simp only [AMap.find, if_neg (user_ne_slot _ _ _)] at hv'
    split at hv'
    · rename_i e
      have := (slot_inj e).1
      subst this
      have : get demo.mem 1 = some [0] := by
        decide +kernel
      exact absurd (this.symm.trans hg) (by simp)
    · cases hv'

end Verif.Heap
