import Verif.Model.Py
import Mathlib.Tactic.Ring
import Mathlib.Tactic.Linarith

/-! Helper lemmas about the two sweep loops of `Verif.Model.Py`. -/

namespace VGPA

@[simp] theorem py_ok_bind {α β : Type} (x : α) (f : α → Py β) :
    ((Except.ok x : Py α) >>= f) = f x := rfl

@[simp] theorem py_error_bind {α β : Type} (e : PyErr) (f : α → Py β) :
    ((Except.error e : Py α) >>= f) = .error e := rfl

@[simp] theorem py_pure {α : Type} (x : α) : (pure x : Py α) = .ok x := rfl

theorem idx_ok {α : Type*} {l : List α} {k : ℕ} (h : k < l.length) : idx l k = .ok l[k] := by
  simp [idx, h]

theorem idx_err {α : Type*} {l : List α} {k : ℕ} (h : l.length ≤ k) :
    idx l k = .error .indexError := by
  simp [idx, h]

theorem setIdx_ok {α : Type*} {l : List α} {k : ℕ} (h : k < l.length) (v : α) :
    setIdx l k v = .ok (l.set k v) := by
  simp [setIdx, h]

theorem setIdx_err {α : Type*} {l : List α} {k : ℕ} (h : l.length ≤ k) (v : α) :
    setIdx l k v = .error .indexError := by
  simp [setIdx, h]

/-- Iterates of a time-dependent map. -/
def traj {X : Type} (x0 : X) (g : ℕ → X → X) : ℕ → X
  | 0 => x0
  | k + 1 => g k (traj x0 g k)

/-- The state of the forward loop after `j` turns. -/
theorem fwdSweep_prefix {X : Type} [Zero X] (n : ℕ) (x0 : X) (step : ℕ → X → Py X)
    (g : ℕ → X → X) (hn : 0 < n) (j : ℕ) (hj : j ≤ n - 1)
    (h : ∀ k < j, ∀ x, step k x = .ok (g k x)) :
    (List.range j).foldlM (fun buf k => do
      let x ← idx buf k
      let y ← step k x
      setIdx buf (k + 1) y) ((List.replicate n (0 : X)).set 0 x0)
    = (.ok ((List.range n).map fun i => if i ≤ j then traj x0 g i else 0) : Py (List X)) := by
  induction j with
  | zero =>
    simp only [List.range_zero, List.foldlM_nil, py_pure]
    congr 1
    apply List.ext_getElem
    · simp
    · intro i h1 h2
      rcases i with _ | i
      · simp [traj]
      · simp
  | succ j ih =>
    rw [List.range_succ, List.foldlM_append, ih (by omega) (fun k hk => h k (by omega))]
    have hlen : ((List.range n).map fun i => if i ≤ j then traj x0 g i else 0).length = n := by simp
    simp only [py_ok_bind, List.foldlM_cons, List.foldlM_nil]
    rw [idx_ok (by rw [hlen]; omega)]
    simp only [py_ok_bind, List.getElem_map, List.getElem_range, le_refl, if_true]
    rw [h j (by omega)]
    simp only [py_ok_bind]
    rw [setIdx_ok (by rw [hlen]; omega)]
    simp only [py_ok_bind, py_pure]
    congr 1
    apply List.ext_getElem
    · simp
    · intro i h1 h2
      simp only [List.getElem_set, List.getElem_map, List.getElem_range]
      by_cases hi : j + 1 = i
      · subst hi; simp [traj]
      · by_cases h3 : i ≤ j
        · have : i ≤ j + 1 := by omega
          simp [hi, h3, this]
        · have : ¬ i ≤ j + 1 := by omega
          simp [hi, h3, this]

theorem fwdSweep_ok {X : Type} [Zero X] (n : ℕ) (x0 : X) (step : ℕ → X → Py X)
    (g : ℕ → X → X) (hn : 0 < n) (h : ∀ k < n - 1, ∀ x, step k x = .ok (g k x)) :
    fwdSweep n x0 step = .ok ((List.range n).map (traj x0 g)) := by
  unfold fwdSweep
  rw [setIdx_ok (by simpa using hn)]
  simp only [py_ok_bind]
  rw [fwdSweep_prefix n x0 step g hn (n - 1) le_rfl h]
  congr 1
  apply List.map_congr_left
  intro i hi
  have : i ≤ n - 1 := by have := List.mem_range.1 hi; omega
  simp [this]

theorem fwdSweep_zero {X : Type} [Zero X] (x0 : X) (step : ℕ → X → Py X) :
    fwdSweep 0 x0 step = .error .indexError := by
  unfold fwdSweep
  rw [setIdx_err (by simp)]
  rfl

theorem foldlM_error_append {α β : Type} (f : β → α → Py β) (l1 l2 : List α) (b : β) (e : PyErr)
    (h : l1.foldlM f b = .error e) : (l1 ++ l2).foldlM f b = .error e := by
  rw [List.foldlM_append, h]; rfl

/-- If some turn fails whatever the buffer holds, and the turns before it succeed, the sweep fails. -/
theorem fwdSweep_err {X : Type} [Zero X] (n : ℕ) (x0 : X) (step : ℕ → X → Py X)
    (g : ℕ → X → X) (hn : 0 < n) (j : ℕ) (hj : j < n - 1) (e : PyErr)
    (h : ∀ k < j, ∀ x, step k x = .ok (g k x)) (he : ∀ x, step j x = .error e) :
    fwdSweep n x0 step = .error e := by
  unfold fwdSweep
  rw [setIdx_ok (by simpa using hn)]
  simp only [py_ok_bind]
  have hsplit : List.range (n - 1) = List.range (j + 1) ++ (List.range (n - 1 - (j + 1))).map (j + 1 + ·) := by
    rw [← List.range_add]; congr 1; omega
  rw [hsplit]
  apply foldlM_error_append
  rw [List.range_succ, List.foldlM_append, fwdSweep_prefix n x0 step g hn j (by omega) h]
  simp only [py_ok_bind, List.foldlM_cons, List.foldlM_nil]
  rw [idx_ok (by simp; omega)]
  simp only [py_ok_bind, he, py_error_bind]

/-- The state of the backward loop after `j` turns. -/
theorem bwdSweep_prefix {X : Type} [Zero X] (n : ℕ) (step : ℕ → X → Py X)
    (g : ℕ → X → X) (j : ℕ) (hj : j ≤ n - 1)
    (h : ∀ k < j, ∀ x, step (n - 1 - k) x = .ok (g (n - 1 - k) x)) :
    ((List.range j).map fun k => n - 1 - k).foldlM (fun buf t => do
      let x ← idx buf t
      let y ← step t x
      setIdx buf (t - 1) y) (List.replicate n (0 : X))
    = (.ok ((List.range n).map fun i =>
        if n - 1 - i ≤ j then traj 0 (fun k => g (n - 1 - k)) (n - 1 - i) else 0) : Py (List X)) := by
  induction j with
  | zero =>
    simp only [List.range_zero, List.map_nil, List.foldlM_nil, py_pure]
    congr 1
    apply List.ext_getElem
    · simp
    · intro i h1 h2
      simp only [List.getElem_replicate, List.getElem_map, List.getElem_range]
      split
      · have : n - 1 - i = 0 := by omega
        rw [this]; rfl
      · rfl
  | succ j ih =>
    rw [List.range_succ, List.map_append, List.foldlM_append,
      ih (by omega) (fun k hk => h k (by omega))]
    have hlen : ((List.range n).map fun i =>
        if n - 1 - i ≤ j then traj 0 (fun k => g (n - 1 - k)) (n - 1 - i) else 0).length = n := by simp
    simp only [py_ok_bind, List.map_cons, List.map_nil, List.foldlM_cons, List.foldlM_nil]
    rw [idx_ok (by rw [hlen]; omega)]
    have e1 : n - 1 - (n - 1 - j) = j := by omega
    simp only [py_ok_bind, List.getElem_map, List.getElem_range, e1, le_refl, if_true]
    rw [h j (by omega)]
    simp only [py_ok_bind]
    rw [setIdx_ok (by rw [hlen]; omega)]
    simp only [py_ok_bind, py_pure]
    congr 1
    apply List.ext_getElem
    · simp
    · intro i h1 h2
      have hin : i < n := by simpa using h2
      simp only [List.getElem_set, List.getElem_map, List.getElem_range]
      by_cases hi : n - 1 - j - 1 = i
      · have e2 : n - 1 - i = j + 1 := by omega
        simp [hi, e2, traj]
      · by_cases h3 : n - 1 - i ≤ j
        · have : n - 1 - i ≤ j + 1 := by omega
          simp [hi, h3, this]
        · have : ¬ n - 1 - i ≤ j + 1 := by omega
          simp [hi, h3, this]

theorem bwd_range_eq (n : ℕ) :
    ((List.range (n - 1)).map (· + 1)).reverse = (List.range (n - 1)).map fun k => n - 1 - k := by
  apply List.ext_getElem
  · simp
  · intro i h1 h2
    simp at h1 h2 ⊢
    omega

theorem bwdSweep_ok {X : Type} [Zero X] (n : ℕ) (step : ℕ → X → Py X)
    (g : ℕ → X → X) (h : ∀ t, 0 < t → t < n → ∀ x, step t x = .ok (g t x)) :
    bwdSweep n step
      = .ok ((List.range n).map fun i => traj 0 (fun k => g (n - 1 - k)) (n - 1 - i)) := by
  unfold bwdSweep
  rw [bwd_range_eq, bwdSweep_prefix n step g (n - 1) le_rfl
    (fun k hk => h _ (by omega) (by omega))]
  congr 1
  apply List.map_congr_left
  intro i hi
  have : n - 1 - i ≤ n - 1 := by omega
  simp [this]

theorem bwdSweep_err {X : Type} [Zero X] (n : ℕ) (step : ℕ → X → Py X)
    (g : ℕ → X → X) (t : ℕ) (ht0 : 0 < t) (ht : t < n) (e : PyErr)
    (h : ∀ t', t < t' → t' < n → ∀ x, step t' x = .ok (g t' x)) (he : ∀ x, step t x = .error e) :
    bwdSweep n step = .error e := by
  unfold bwdSweep
  rw [bwd_range_eq]
  obtain ⟨j, rfl⟩ : ∃ j, t = n - 1 - j := ⟨n - 1 - t, by omega⟩
  by_cases hj : j ≤ n - 1
  · have hsplit : List.range (n - 1)
        = List.range (j + 1) ++ (List.range (n - 1 - (j + 1))).map (j + 1 + ·) := by
      rw [← List.range_add]; congr 1; omega
    rw [hsplit, List.map_append]
    apply foldlM_error_append
    rw [List.range_succ, List.map_append, List.foldlM_append,
      bwdSweep_prefix n step g j (by omega) (fun k hk => h _ (by omega) (by omega))]
    simp only [py_ok_bind, List.map_cons, List.map_nil, List.foldlM_cons, List.foldlM_nil]
    rw [idx_ok (by simp; omega)]
    simp only [py_ok_bind, he, py_error_bind]
  · omega

end VGPA
