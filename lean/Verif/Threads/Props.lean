import Verif.Threads.Model

/-!
# Identities of threads
-/

namespace Verif
namespace Threads

/-- The number of threads created. -/
def creations (ops : List Op) : Nat := ops.count .create

/-- The number of threads created since all were removed. -/
def recent : List Op → Nat
  | [] => 0
  | op :: ops => if Op.deinit ∈ ops then recent ops else (if op = .create then 1 else 0) + recent ops

def run (ops : List Op) : Threads := ops.foldl Threads.exec {}

/-- `n` threads with the ids below `n`, the last ones created. -/
structure Inv (t : Threads) (n : Nat) : Prop where
  length : t.threads.length = n
  le : n ≤ t.created
  find : ∀ id, t.threads.find id = if id < n then some (t.created - n + id) else none

theorem length_set_new {m : AMap Nat Nat} {k v : Nat} (h : m.find k = none) : (m.set k v).length = m.length + 1 := by
  induction m with
  | nil => rfl
  | cons p m ih =>
    obtain ⟨k', v'⟩ := p
    simp only [AMap.find] at h
    split at h
    · cases h
    · rename_i hk
      simp [AMap.set, hk, ih h]

theorem create_inv {t : Threads} {n : Nat} (h : Inv t n) (hn : n < 2 ^ 32) :
    t.createThread.1 = (n, t.created) ∧ Inv t.createThread.2 (n + 1) := by
  have hid : t.threads.length % 2 ^ 32 = n := by rw [h.length]; omega
  have hf : t.threads.find n = none := by rw [h.find, if_neg (by omega)]
  have hc : t.createThread = ((n, t.created), { threads := t.threads.set n t.created, created := t.created + 1 }) := by
    unfold Threads.createThread
    rw [hid]
    dsimp only
    rw [hf]
  rw [hc]
  refine ⟨rfl, ⟨by rw [length_set_new hf, h.length], by have := h.le; dsimp only; omega, fun id => ?_⟩⟩
  have := h.le
  by_cases he : id = n
  · subst he
    rw [AMap.find_set_self, if_pos (by omega)]
    dsimp only
    congr 1
    omega
  · dsimp only
    rw [AMap.find_set_ne (Ne.symm he), h.find]
    by_cases hl : id < n
    · rw [if_pos hl, if_pos (by omega)]
      congr 1
      omega
    · rw [if_neg hl, if_neg (by omega)]

/-- The number of recent threads, counted from the left. -/
def count (n : Nat) : Op → Nat
  | .create => n + 1
  | .delete _ => n
  | .deinit => 0

theorem exec_inv {t : Threads} {n : Nat} (h : Inv t n) (op : Op) (hn : op = .create → n < 2 ^ 32) : Inv (t.exec op) (count n op) := by
  cases op with
  | create => exact (create_inv h (hn rfl)).2
  | delete id =>
    have : t.exec (.delete id) = t := by
      simp only [Threads.exec, Threads.deleteThread]
      split <;> rfl
    rw [this]
    exact h
  | deinit => exact ⟨rfl, Nat.zero_le _, fun id => by simp [Threads.exec, Threads.deinit, AMap.find, count]⟩

theorem exec_created (t : Threads) (op : Op) : (t.exec op).created = t.created + if op = .create then 1 else 0 := by
  cases op with
  | create =>
    simp only [Threads.exec, Threads.createThread]
    split <;> simp
  | delete id =>
    simp only [Threads.exec, Threads.deleteThread]
    split <;> simp
  | deinit => simp [Threads.exec, Threads.deinit]

theorem fold_inv : ∀ (ops : List Op) {t : Threads} {n : Nat}, Inv t n → n + creations ops ≤ 2 ^ 32 →
    Inv (ops.foldl Threads.exec t) (ops.foldl count n) ∧ (ops.foldl Threads.exec t).created = t.created + creations ops
  | [], t, n, h, _ => ⟨h, rfl⟩
  | op :: ops, t, n, h, hl => by
    have hc : creations (op :: ops) = (if op = .create then 1 else 0) + creations ops := by
      unfold creations
      rw [List.count_cons]
      by_cases h : op = .create
      · simp [h]; omega
      · simp [h]
    have hlt : op = .create → n < 2 ^ 32 := by
      rintro rfl
      rw [hc, if_pos rfl] at hl
      omega
    have hcount : count n op + creations ops ≤ 2 ^ 32 := by
      cases op with
      | create => rw [hc, if_pos rfl] at hl; simp only [count]; omega
      | delete id => rw [hc] at hl; simp only [count]; simp at hl; omega
      | deinit => rw [hc] at hl; simp only [count]; simp at hl; omega
    obtain ⟨h1, h2⟩ := fold_inv ops (exec_inv h op hlt) hcount
    refine ⟨h1, ?_⟩
    rw [List.foldl_cons, h2, exec_created, hc]
    omega

theorem count_recent : ∀ (ops : List Op) (n : Nat), ops.foldl count n = (if Op.deinit ∈ ops then 0 else n) + recent ops
  | [], n => by simp [recent]
  | op :: ops, n => by
    rw [List.foldl_cons, count_recent ops, recent]
    by_cases h : Op.deinit ∈ ops
    · simp [h]
    · rw [if_neg h, if_neg h]
      cases op with
      | create => simp [count, h]; omega
      | delete id => simp [count, h]
      | deinit => simp [count]

theorem run_inv {ops : List Op} (h : creations ops ≤ 2 ^ 32) : Inv (run ops) (recent ops) ∧ (run ops).created = creations ops := by
  have := fold_inv ops (t := {}) (n := 0) ⟨rfl, Nat.le_refl _, fun id => by simp [AMap.find]⟩ (by omega)
  rw [count_recent] at this
  simpa [run] using this

/-- **C64** (partial).  A thread that is created gets an id under which no thread is found before; afterwards the
new thread is found under it, and every other id finds what it found before.
Missing: more than `2 ^ 32` threads (`thread_overflow_refuted`); ids are used again after all threads have been
removed, and a deleted thread is still found (`thread_reuse_refuted`, `thread_delete_refuted`). -/
theorem thread_created_partial {ops : List Op} (h : creations ops < 2 ^ 32) :
    (run ops).getThread (run ops).createThread.1.1 = none ∧
    (run ops).createThread.2.getThread (run ops).createThread.1.1 = some (run ops).createThread.1.2 ∧
    ∀ id, id ≠ (run ops).createThread.1.1 → (run ops).createThread.2.getThread id = (run ops).getThread id := by
  obtain ⟨hi, hc⟩ := run_inv (Nat.le_of_lt h)
  have hle : recent ops ≤ creations ops := by have := hi.le; omega
  obtain ⟨h1, h2⟩ := create_inv hi (by omega)
  have hcr : (run ops).createThread.2.created = (run ops).created + 1 := exec_created (run ops) .create
  have := hi.le
  rw [h1]
  dsimp only
  refine ⟨?_, ?_, fun id hid => ?_⟩
  · rw [Threads.getThread, hi.find, if_neg (by omega)]
  · rw [Threads.getThread, h2.find, if_pos (by omega), hcr]
    congr 1
    omega
  · rw [Threads.getThread, Threads.getThread, h2.find, hi.find, hcr]
    by_cases hl : id < recent ops
    · rw [if_pos (by omega), if_pos hl]
      congr 1
      omega
    · rw [if_neg (by omega), if_neg hl]

/-- **C64** (partial).  Exactly the ids below the number of threads created since all were removed are found, each
belongs to the thread created at that position, and any other id raises an error. -/
theorem thread_found_partial {ops : List Op} (h : creations ops ≤ 2 ^ 32) (id obj : Nat) :
    (run ops).getThread id = some obj ↔ id < recent ops ∧ obj + recent ops = creations ops + id := by
  obtain ⟨hi, hc⟩ := run_inv h
  have := hi.le
  rw [Threads.getThread, hi.find]
  split
  · rename_i hl
    rw [Option.some.injEq]
    constructor
    · rintro rfl; exact ⟨hl, by omega⟩
    · rintro ⟨-, h⟩; omega
  · rename_i hl
    exact ⟨nofun, fun h => absurd h.1 hl⟩

/-- Three threads, all removed, two more. -/
example : creations [.create, .create, .delete 0, .create, .deinit, .create, .create] < 2 ^ 32 ∧
    recent [.create, .create, .delete 0, .create, .deinit, .create, .create] = 2 ∧
    (run [.create, .create, .delete 0, .create, .deinit, .create, .create]).getThread 1 = some 4 := by
  decide

/-- After all threads have been removed the ids of earlier ones are used again. -/
theorem thread_reuse_refuted : (run []).createThread.1.1 = (run [.create, .deinit]).createThread.1.1 := by decide

/-- A deleted thread is still found: deleting has no effect. -/
theorem thread_delete_refuted (t : Threads) (id : Nat) : t.exec (.delete id) = t := by
  simp only [Threads.exec, Threads.deleteThread]
  split <;> rfl

/-- With `2 ^ 32` threads the next one gets the id of the first one, and cannot be found. -/
theorem thread_overflow_refuted {ops : List Op} (h : creations ops = 2 ^ 32) (hr : recent ops = 2 ^ 32) :
    (run ops).createThread.1.1 = 0 ∧ (run ops).createThread.2.getThread 0 = some 0 ∧ (run ops).createThread.1.2 ≠ 0 := by
  obtain ⟨hi, hc⟩ := run_inv (Nat.le_of_eq h)
  have hid : (run ops).threads.length % 2 ^ 32 = 0 := by rw [hi.length, hr]
  have hf : (run ops).threads.find 0 = some 0 := by
    rw [hi.find, hr, if_pos (by decide), hc, h]
  have hcr : (run ops).createThread = ((0, (run ops).created), { run ops with created := (run ops).created + 1 }) := by
    unfold Threads.createThread
    rw [hid]
    dsimp only
    rw [hf]
  rw [hcr]
  exact ⟨rfl, hf, by dsimp only; rw [hc, h]; decide⟩

/-- Creating threads only. -/
theorem recent_replicate : ∀ n : Nat, recent (List.replicate n .create) = n
  | 0 => rfl
  | n + 1 => by
    rw [List.replicate_succ, recent, if_neg (by simp [List.mem_replicate]), recent_replicate n, if_pos rfl]
    omega

example : creations (List.replicate (2 ^ 32) .create) = 2 ^ 32 ∧ recent (List.replicate (2 ^ 32) .create) = 2 ^ 32 :=
  ⟨by unfold creations; rw [List.count_replicate_self], recent_replicate _⟩

end Threads
end Verif
