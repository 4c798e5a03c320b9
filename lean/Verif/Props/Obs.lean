import Verif.Props.Traj
import Verif.Lemmas.Arrays

/-!
# C37, C38, C39: observations
-/

namespace VGPA

variable {G : Type}

open Matrix

namespace Spec

/-- The number of observations: the length of the window times the density, rounded down. -/
noncomputable def numObs (N : ℕ) (dt : ℝ) (n_obs : ℝ) : ℤ := ⌊N * dt * n_obs⌋

/-- Indices into a window of `N + 1` points: strictly increasing, between `1` and `N`, and equidistant up to
rounding. -/
def EquidistantIndices {M : ℕ} (N : ℕ) (t : Fin M → ℕ) : Prop :=
  (∀ i j, i < j → t i < t j) ∧ (∀ i, 1 ≤ t i ∧ t i ≤ N)
  ∧ ∀ i j k l : Fin M, (k : ℕ) = i + 1 → (l : ℕ) = j + 1 → t k - t i ≤ t l - t j + 1

end Spec

/-! ## Auxiliary -/

theorem pyInt_inv {dt : ℝ} (hdt : 0 < dt) : pyInt (1.0 / dt) = ⌊1 / dt⌋ := by
  have : (0 : ℝ) ≤ 1.0 / dt := by positivity
  unfold pyInt
  rw [if_pos this]
  norm_num

theorem numObs_le {N : ℕ} {dt : ℝ} {n : ℝ} (hdt : 0 < dt) (hn : n ≤ ⌊1 / dt⌋) : Spec.numObs N dt n ≤ N := by
  have h1 : n ≤ 1 / dt := hn.trans (Int.floor_le _)
  have h2 : (N : ℝ) * dt * n ≤ N := by
    have : (N : ℝ) * dt * n ≤ N * dt * (1 / dt) := by
      apply mul_le_mul_of_nonneg_left h1; positivity
    have e : (N : ℝ) * dt * (1 / dt) = N := by field_simp
    rw [e] at this; exact this
  have := Int.floor_le_floor h2
  simpa [Spec.numObs] using this

/-- Index `i` (counted from zero) of `M` equidistant indices in a window of `N + 1` points. -/
def eqIdx (N M i : ℕ) : ℕ := (i + 1) * (N + 1) / (M + 1)

theorem eqIdx_spec (N M : ℕ) (hM : M ≤ N) : Spec.EquidistantIndices N (fun i : Fin M => eqIdx N M i) := by
  have step : ∀ i, eqIdx N M i + 1 ≤ eqIdx N M (i + 1) := by
    intro i
    unfold eqIdx
    rw [Nat.le_div_iff_mul_le (by omega)]
    have := Nat.div_mul_le_self ((i + 1) * (N + 1)) (M + 1)
    calc ((i + 1) * (N + 1) / (M + 1) + 1) * (M + 1)
        = (i + 1) * (N + 1) / (M + 1) * (M + 1) + (M + 1) := by ring
      _ ≤ (i + 1) * (N + 1) + (N + 1) := by omega
      _ = (i + 1 + 1) * (N + 1) := by ring
  have mono : ∀ i j, i < j → eqIdx N M i < eqIdx N M j := by
    intro i j hij
    induction j with
    | zero => omega
    | succ j ih =>
      have := step j
      rcases Nat.lt_succ_iff_lt_or_eq.1 hij with h | h
      · have := ih h; omega
      · subst h; omega
  -- the gaps are `q` or `q + 1` with `q = (N + 1) / (M + 1)`
  have gap : ∀ i, (N + 1) / (M + 1) ≤ eqIdx N M (i + 1) - eqIdx N M i
      ∧ eqIdx N M (i + 1) - eqIdx N M i ≤ (N + 1) / (M + 1) + 1 := by
    intro i
    have hc : 0 < M + 1 := by omega
    have e : (i + 1 + 1) * (N + 1) = (i + 1) * (N + 1) + (N + 1) := by ring
    have h := Nat.add_div (a := (i + 1) * (N + 1)) (b := N + 1) hc
    unfold eqIdx
    rw [e, h]
    generalize (i + 1) * (N + 1) / (M + 1) = u
    generalize (N + 1) / (M + 1) = v
    split_ifs <;> omega
  refine ⟨fun i j hij => mono i j hij, fun i => ⟨?_, ?_⟩, fun i j k l hk hl => ?_⟩
  · show 1 ≤ eqIdx N M i
    unfold eqIdx
    rw [Nat.le_div_iff_mul_le (by omega)]
    nlinarith [i.2]
  · show eqIdx N M i ≤ N
    unfold eqIdx
    rw [← Nat.lt_succ_iff, Nat.div_lt_iff_lt_mul (by omega)]
    have := i.2
    nlinarith
  · show eqIdx N M k - eqIdx N M i ≤ eqIdx N M l - eqIdx N M j + 1
    rw [hk, hl]
    have g1 := gap i; have g2 := gap j
    omega

theorem grid_getLast (t0 dt : ℝ) (N : ℕ) : (Spec.grid t0 dt N).getLastD 0 = t0 + N * dt := by
  have hne : Spec.grid t0 dt N ≠ [] := by
    intro h
    have := congrArg List.length h
    simp [Spec.grid] at this
  rw [List.getLastD_eq_getLast?, List.getLast?_eq_some_getLast hne]
  simp only [Option.getD_some]
  rw [List.getLast_eq_getElem]
  simp only [Spec.grid, List.getElem_ofFn, List.length_ofFn, Nat.add_sub_cancel]

theorem obsIndices_grid (t0 dt : ℝ) (N : ℕ) (hN : 0 < N) (hdt : 0 < dt) (n : ℝ) :
    (⌊1 / dt⌋ < n → obsIndices (Spec.grid t0 dt N) n = .error .valueError)
    ∧ (n ≤ ⌊1 / dt⌋ → Spec.numObs N dt n + 2 < 0 → obsIndices (Spec.grid t0 dt N) n = .error .valueError)
    ∧ (n ≤ ⌊1 / dt⌋ → 0 ≤ Spec.numObs N dt n + 2 → Spec.numObs N dt n ≤ 0 →
        obsIndices (Spec.grid t0 dt N) n = .error .typeError)
    ∧ (n ≤ ⌊1 / dt⌋ → ∀ M : ℕ, Spec.numObs N dt n = M → 0 < M →
        obsIndices (Spec.grid t0 dt N) n = .ok (M, List.ofFn fun i : Fin M => eqIdx N M i)) := by
  have hl : (Spec.grid t0 dt N).length = N + 1 := by simp [Spec.grid]
  have h1 : idx (Spec.grid t0 dt N) 1 = .ok (t0 + dt) := by
    rw [idx_ok (by rw [hl]; omega)]
    simp [Spec.grid]
  have h0 : idx (Spec.grid t0 dt N) 0 = .ok t0 := by
    rw [idx_ok (by rw [hl]; omega)]
    simp [Spec.grid]
  have habs : |t0 - (t0 + N * dt)| = N * dt := by
    rw [show t0 - (t0 + N * dt) = -(N * dt) by ring, abs_neg, abs_of_nonneg (by positivity)]
  have hd : t0 + dt - t0 = dt := by ring
  unfold obsIndices
  rw [h1, h0]
  simp only [py_ok_bind, hd, if_neg hdt.ne', pyInt_inv hdt, grid_getLast, habs, hl]
  have hM : ⌊(N : ℝ) * dt * n⌋ = Spec.numObs N dt n := rfl
  rw [hM]
  refine ⟨fun h => ?_, fun h h2 => ?_, fun h h2 h3 => ?_, fun h M hM hpos => ?_⟩
  · rw [if_pos h]
  · rw [if_neg (not_lt.2 h), if_pos h2]
  · rw [if_neg (not_lt.2 h), if_neg (by omega), if_pos h3]
  · rw [if_neg (not_lt.2 h), if_neg (by omega), if_neg (by omega)]
    have hMN : M ≤ N := by have := numObs_le (N := N) hdt h; omega
    have htn : (Spec.numObs N dt n).toNat = M := by omega
    rw [htn]
    simp only [py_pure, Except.ok.injEq, Prod.mk.injEq, true_and]
    have e : (((List.range (M + 2)).map fun i => i * (N + 1) / (M + 2 - 1)).drop 1).dropLast
        = List.ofFn fun i : Fin M => eqIdx N M i := by
      apply List.ext_getElem
      · simp
      · intro i h1 h2
        simp [List.getElem_dropLast, eqIdx, Nat.add_comm]
    rw [e]
    have hs := (eqIdx_spec N M hMN).1
    unfold npUnique
    rw [(List.toFinset_sort (r := (· ≤ ·)) ?_).2]
    · rw [List.pairwise_ofFn]
      intro i j hij
      exact (hs i j hij).le
    · rw [List.nodup_ofFn]
      intro i j hij
      rcases lt_trichotomy i j with h | h | h
      · exact absurd hij (hs i j h).ne
      · exact h
      · exact absurd hij (hs j i h).ne'

theorem npTake_ofFn {X : Type} (N : ℕ) (x : ℕ → X) {M : ℕ} (t : Fin M → ℕ) (ht : ∀ i, t i ≤ N) :
    npTake (List.ofFn fun i : Fin (N + 1) => x i) (List.ofFn t) = .ok (List.ofFn fun i => x (t i)) := by
  have h : ∀ l : List ℕ, (∀ a ∈ l, a ≤ N) →
      npTake (List.ofFn fun i : Fin (N + 1) => x i) l = .ok (l.map x) := by
    intro l
    induction l with
    | nil => intro _; rfl
    | cons a l ih =>
      intro hl
      have e := ih (fun b hb => hl b (by simp [hb]))
      unfold npTake at e ⊢
      have ha := hl a (by simp)
      rw [List.mapM_cons, idx_ok (by simp; omega), e]
      simp only [py_ok_bind, List.getElem_ofFn, py_pure, List.map_cons]
  rw [h _ (by simpa using ht), List.map_ofFn]
  rfl

/-! ## C37, C38, C39 for one dimensional paths -/

/-- The outcome of `collect_obs` on a one dimensional path, without mask and with one noise variance. -/
theorem collectObs1_grid (R : Rng G) (p : Proc G ℝ) (t0 dt : ℝ) (N : ℕ) (x : ℕ → ℝ) (hN : 0 < N) (hdt : 0 < dt)
    (htk : p.tk = some (Spec.grid t0 dt N)) (hxt : p.xt = some (List.ofFn fun i : Fin (N + 1) => x i)) (n : ℝ)
    (rn : ℝ) (hn : n ≤ ⌊1 / dt⌋) (M : ℕ) (hM : Spec.numObs N dt n = M) (hpos : 0 < M) :
    p.collectObs1 R n (.scalar rn) none = (.ok
      { obs_t := List.ofFn fun i : Fin M => eqIdx N M i
        obs_y := List.ofFn fun i : Fin M => x (eqIdx N M i) + Real.sqrt rn * Spec.draw R p.rng i
        obs_noise := .scalar rn }, { p with rng := Spec.stateAfter R p.rng M }) := by
  have hMN : M ≤ N := by have := numObs_le (N := N) hdt hn; omega
  have hs := eqIdx_spec N M hMN
  unfold Proc.collectObs1
  rw [htk, hxt]
  simp only [(obsIndices_grid t0 dt N hN hdt n).2.2.2 hn M hM hpos]
  rw [npTake_ofFn N x _ (fun i => (hs.2.1 i).2)]
  simp only [Option.getD_none, ne_eq, not_true, if_false, normals_eq, sqrtScale, py_ok_bind]
  rw [addInPlace, if_pos (by simp)]
  simp only [Prod.mk.injEq, Except.ok.injEq, Obs1.mk.injEq, true_and, and_true]
  rw [map_range_ofFn, List.map_ofFn, zipWith_ofFn]
  rfl

/-- C37, C39 on one dimensional paths: with an accepted density that gives at least one observation, `collect_obs`
returns `floor(T * n_obs)` strictly increasing, equidistant indices, and each observation is the path value plus the
square root of the noise variance times a fresh draw. The noise comes back unchanged and so does the path. -/
theorem C37_indices_1d (R : Rng G) (p : Proc G ℝ) (t0 dt : ℝ) (N : ℕ) (x : ℕ → ℝ) (hN : 0 < N) (hdt : 0 < dt)
    (htk : p.tk = some (Spec.grid t0 dt N)) (hxt : p.xt = some (List.ofFn fun i : Fin (N + 1) => x i)) (n : ℝ)
    (rn : ℝ) (hn : n ≤ ⌊1 / dt⌋) (M : ℕ) (hM : Spec.numObs N dt n = M) (hpos : 0 < M) :
    ∃ (t : Fin M → ℕ) (r : Obs1) (p' : Proc G ℝ), p.collectObs1 R n (.scalar rn) none = (.ok r, p')
      ∧ r.obs_t = List.ofFn t ∧ Spec.EquidistantIndices N t := by
  have hMN : M ≤ N := by have := numObs_le (N := N) hdt hn; omega
  exact ⟨_, _, _, collectObs1_grid R p t0 dt N x hN hdt htk hxt n rn hn M hM hpos, rfl, eqIdx_spec N M hMN⟩

/-- C38 on one dimensional paths: for a density `n_obs >= 0`, `collect_obs` raises `ValueError` exactly when the
density exceeds `floor(1/dt)`. An accepted density that gives at least one observation never fails. (One that gives
no observation at all makes numpy raise `TypeError`.) -/
theorem C38_density_1d (R : Rng G) (p : Proc G ℝ) (t0 dt : ℝ) (N : ℕ) (x : ℕ → ℝ) (hN : 0 < N) (hdt : 0 < dt)
    (htk : p.tk = some (Spec.grid t0 dt N)) (hxt : p.xt = some (List.ofFn fun i : Fin (N + 1) => x i)) (n : ℝ)
    (rn : ℝ) (hn : 0 ≤ n) :
    ((p.collectObs1 R n (.scalar rn) none).1 = .error .valueError ↔ ⌊1 / dt⌋ < n)
    ∧ ((p.collectObs1 R n (.scalar rn) none).1 = .error .typeError ↔ n ≤ ⌊1 / dt⌋ ∧ Spec.numObs N dt n = 0)
    ∧ ((∃ r, (p.collectObs1 R n (.scalar rn) none).1 = .ok r) ↔ n ≤ ⌊1 / dt⌋ ∧ 1 ≤ Spec.numObs N dt n) := by
  have hnn : 0 ≤ Spec.numObs N dt n := Int.floor_nonneg.2 (by positivity)
  obtain ⟨h1, h2, h3, h4⟩ := obsIndices_grid t0 dt N hN hdt n
  by_cases hc : ⌊1 / dt⌋ < n
  · have e : (p.collectObs1 R n (.scalar rn) none).1 = .error .valueError := by
      unfold Proc.collectObs1; rw [htk, hxt]; simp only [h1 hc]
    simp [-one_div, e, hc, not_le.2 hc]
  · have hc' := not_lt.1 hc
    by_cases hz : Spec.numObs N dt n = 0
    · have e : (p.collectObs1 R n (.scalar rn) none).1 = .error .typeError := by
        unfold Proc.collectObs1; rw [htk, hxt]; simp only [h3 hc' (by omega) (by omega)]
      simp [-one_div, e, hc, hc', hz]
    · obtain ⟨M, hM⟩ := Int.eq_ofNat_of_zero_le hnn
      have e := collectObs1_grid R p t0 dt N x hN hdt htk hxt n rn hc' M hM (by omega)
      rw [e]
      simp [-one_div, hc, hc']
      omega

/-- C39 on one dimensional paths. -/
theorem C39_observations_1d (R : Rng G) (p : Proc G ℝ) (t0 dt : ℝ) (N : ℕ) (x : ℕ → ℝ) (hN : 0 < N) (hdt : 0 < dt)
    (htk : p.tk = some (Spec.grid t0 dt N)) (hxt : p.xt = some (List.ofFn fun i : Fin (N + 1) => x i)) (n : ℝ)
    (rn : ℝ) (hn : n ≤ ⌊1 / dt⌋) (M : ℕ) (hM : Spec.numObs N dt n = M) (hpos : 0 < M) :
    ∃ (t : Fin M → ℕ) (r : Obs1) (p' : Proc G ℝ), p.collectObs1 R n (.scalar rn) none = (.ok r, p')
      ∧ r.obs_t = List.ofFn t
      ∧ r.obs_y = List.ofFn (fun i => x (t i) + Real.sqrt rn * Spec.draw R p.rng i)
      ∧ r.obs_noise = .scalar rn ∧ p'.xt = p.xt ∧ p'.tk = p.tk :=
  ⟨_, _, _, collectObs1_grid R p t0 dt N x hN hdt htk hxt n rn hn M hM hpos, rfl, rfl, rfl, rfl, rfl⟩

/-- Non-vacuity: a window of length 10 with step 1/100 and two observations per unit of time has 20 observations. -/
example : (2 : ℤ) ≤ ⌊1 / (1 / 100 : ℝ)⌋ ∧ Spec.numObs 1000 (1 / 100) 2 = (20 : ℕ) := by
  constructor
  · norm_num
  · norm_num [Spec.numObs]

/-! ## C37, C38, C39 for multivariate paths -/

namespace Spec

/-- The observed components: all of them, or the ones the mask selects, in order. -/
def observed {d : ℕ} : Option (List Bool) → List (Fin d)
  | none => List.finRange d
  | some mask => (List.finRange d).filter fun j => mask.getD j false

/-- The observation noise matrix of each documented form: a variance, a vector of variances, or the diagonal of a
matrix, of which a single row or column stands for all of them. -/
def noiseMatrix (k : ℕ) : NdArr → Option (Matrix (Fin k) (Fin k) ℝ)
  | .scalar r => some (Matrix.diagonal fun _ => r)
  | .vec c v => if h : c = k then some (Matrix.diagonal fun i => v (Fin.cast h.symm i)) else none
  | .mat r c M =>
    if h : r = k ∧ c = k then some (Matrix.diagonal fun i => M (Fin.cast h.1.symm i) (Fin.cast h.2.symm i))
    else if h : (r = k ∨ r = 1) ∧ (c = k ∨ c = 1) then some (Matrix.diagonal fun i =>
      M (if hr : r = k then Fin.cast hr.symm i else ⟨0, by omega⟩) (if hc : c = k then Fin.cast hc.symm i else ⟨0, by omega⟩))
    else none
  | .high _ => none

/-- A mask is usable when it is not given, or has one entry per component. -/
def MaskOk (d : ℕ) : Option (List Bool) → Prop
  | none => True
  | some mask => mask.length = d ∧ 0 < d

end Spec

theorem obsNoise_eq (k : ℕ) (rn : NdArr) : obsNoise k rn =
    match Spec.noiseMatrix k rn with
    | some N => .ok N
    | none => .error .valueError := by
  cases rn with
  | scalar r =>
    simp only [obsNoise, Spec.noiseMatrix]
    congr 1
    ext i j
    by_cases h : i = j
    · subst h; simp
    · simp [h]
  | vec c v =>
    simp only [obsNoise, Spec.noiseMatrix]
    by_cases h : c = k <;> simp [h]
  | mat r c M =>
    simp only [obsNoise, Spec.noiseMatrix]
    by_cases h : r = k ∧ c = k
    · simp only [h, and_self, dite_true]
      congr 1
      ext i j
      by_cases hij : i = j
      · subst hij; simp
      · simp [hij]
    · simp only [dif_neg h]
      by_cases h' : (r = k ∨ r = 1) ∧ (c = k ∨ c = 1)
      · simp only [dif_pos h']
        congr 1
        ext i j
        by_cases hij : i = j
        · subst hij; simp [bcIdx]
        · simp [hij]
      · simp only [dif_neg h']
  | high n => rfl

theorem noiseMatrix_diag {k : ℕ} {rn : NdArr} {N : Matrix (Fin k) (Fin k) ℝ} (h : Spec.noiseMatrix k rn = some N) :
    N = Matrix.diagonal N.diag := by
  cases rn with
  | scalar r => simp only [Spec.noiseMatrix, Option.some.injEq] at h; subst h; simp
  | vec c v =>
    simp only [Spec.noiseMatrix] at h
    split_ifs at h with hc
    simp only [Option.some.injEq] at h; subst h; simp
  | mat r c M =>
    simp only [Spec.noiseMatrix] at h
    split_ifs at h with hc hc <;> (simp only [Option.some.injEq] at h; subst h; simp)
  | high n => simp [Spec.noiseMatrix] at h

theorem cols_eq {d : ℕ} (mask : Option (List Bool)) (h : Spec.MaskOk d mask) :
    (if mask.getD [] ≠ [] then (maskCols (mask.getD []) : List (Fin d)) else List.finRange d) = Spec.observed mask
    ∧ ¬ (mask.getD [] ≠ [] ∧ (mask.getD []).length ≠ d) := by
  cases mask with
  | none => simp [Spec.observed]
  | some m =>
    obtain ⟨h1, h2⟩ := h
    have : m ≠ [] := by intro h; subst h; simp at h1; omega
    simp [this, h1, Spec.observed, maskCols]

theorem collectObsN_grid (R : Rng G) {d : ℕ} (p : Proc G (Fin d → ℝ)) (t0 dt : ℝ) (N : ℕ) (x : ℕ → Fin d → ℝ)
    (hN : 0 < N) (hdt : 0 < dt) (htk : p.tk = some (Spec.grid t0 dt N))
    (hxt : p.xt = some (List.ofFn fun i : Fin (N + 1) => x i)) (n : ℝ)
    (rn : NdArr) (mask : Option (List Bool)) (hmask : Spec.MaskOk d mask)
    (hn : n ≤ ⌊1 / dt⌋) (M : ℕ) (hM : Spec.numObs N dt n = M) (hpos : 0 < M)
    (hk : (Spec.observed mask : List (Fin d)).length ≠ 1)
    (N' : Matrix (Fin (Spec.observed mask : List (Fin d)).length) (Fin (Spec.observed mask : List (Fin d)).length) ℝ)
    (hN' : Spec.noiseMatrix _ rn = some N') :
    p.collectObsN R n rn mask = (.ok
      { obs_t := List.ofFn fun i : Fin M => eqIdx N M i
        k := (Spec.observed mask : List (Fin d)).length
        obs_y := List.ofFn fun i : Fin M => (fun c => x (eqIdx N M i) ((Spec.observed mask).get c))
          + (N'.map Real.sqrt) *ᵥ fun l => Spec.draw R p.rng (l * M + i)
        obs_noise := .mat _ _ N' },
      { p with rng := Spec.stateAfter R p.rng ((Spec.observed mask : List (Fin d)).length * M) }) := by
  have hMN : M ≤ N := by have := numObs_le (N := N) hdt hn; omega
  have hs := eqIdx_spec N M hMN
  unfold Proc.collectObsN
  rw [htk, hxt]
  simp only [(obsIndices_grid t0 dt N hN hdt n).2.2.2 hn M hM hpos]
  rw [npTake_ofFn N x _ (fun i => (hs.2.1 i).2)]
  simp only []
  obtain ⟨hc, hm⟩ := cols_eq (d := d) mask hmask
  rw [if_neg hm, hc]
  revert hN' hk N'
  generalize (Spec.observed mask : List (Fin d)) = cols
  intro hk N' hN'
  rw [if_neg hk, obsNoise_eq, hN']
  simp only []
  rw [if_neg (by simp)]
  simp only [Prod.mk.injEq, Except.ok.injEq, ObsN.mk.injEq, true_and, heq_eq_eq, and_true]
  constructor
  · apply List.ext_getElem
    · simp
    · intro i h1 h2
      have hi : i < M := by simpa using h2
      rw [List.getElem_mapIdx]
      simp only [List.getElem_map, List.getElem_ofFn]
      funext c
      simp only [Pi.add_apply, Matrix.mulVec, dotProduct, Matrix.map_apply]
      congr 1
      exact Finset.sum_congr rfl fun l _ => by rw [normalsMat_eq R _ M _ l i hi]
  · simp only [Rng.normalsMat, normals_eq]

/-- C37 on multivariate paths, unmasked or with a mask that selects at least two components. -/
theorem C37_indices_nd (R : Rng G) {d : ℕ} (p : Proc G (Fin d → ℝ)) (t0 dt : ℝ) (N : ℕ) (x : ℕ → Fin d → ℝ)
    (hN : 0 < N) (hdt : 0 < dt) (htk : p.tk = some (Spec.grid t0 dt N))
    (hxt : p.xt = some (List.ofFn fun i : Fin (N + 1) => x i)) (n : ℝ)
    (rn : NdArr) (mask : Option (List Bool)) (hmask : Spec.MaskOk d mask)
    (hn : n ≤ ⌊1 / dt⌋) (M : ℕ) (hM : Spec.numObs N dt n = M) (hpos : 0 < M)
    (hk : 2 ≤ (Spec.observed mask : List (Fin d)).length)
    (N' : Matrix (Fin (Spec.observed mask : List (Fin d)).length) (Fin (Spec.observed mask : List (Fin d)).length) ℝ)
    (hN' : Spec.noiseMatrix _ rn = some N') :
    ∃ (t : Fin M → ℕ) (r : ObsN) (p' : Proc G (Fin d → ℝ)), p.collectObsN R n rn mask = (.ok r, p')
      ∧ r.obs_t = List.ofFn t ∧ Spec.EquidistantIndices N t := by
  have hMN : M ≤ N := by have := numObs_le (N := N) hdt hn; omega
  exact ⟨_, _, _, collectObsN_grid R p t0 dt N x hN hdt htk hxt n rn mask hmask hn M hM hpos (by omega) N' hN', rfl,
    eqIdx_spec N M hMN⟩

/-- C38 on multivariate paths. -/
theorem C38_density_nd (R : Rng G) {d : ℕ} (p : Proc G (Fin d → ℝ)) (t0 dt : ℝ) (N : ℕ) (x : ℕ → Fin d → ℝ)
    (hN : 0 < N) (hdt : 0 < dt) (htk : p.tk = some (Spec.grid t0 dt N))
    (hxt : p.xt = some (List.ofFn fun i : Fin (N + 1) => x i)) (n : ℝ)
    (rn : NdArr) (mask : Option (List Bool)) (hmask : Spec.MaskOk d mask) (hn : 0 ≤ n)
    (hk : 2 ≤ (Spec.observed mask : List (Fin d)).length)
    (N' : Matrix (Fin (Spec.observed mask : List (Fin d)).length) (Fin (Spec.observed mask : List (Fin d)).length) ℝ)
    (hN' : Spec.noiseMatrix _ rn = some N') :
    ((p.collectObsN R n rn mask).1 = .error .valueError ↔ ⌊1 / dt⌋ < n)
    ∧ ((p.collectObsN R n rn mask).1 = .error .typeError ↔ n ≤ ⌊1 / dt⌋ ∧ Spec.numObs N dt n = 0)
    ∧ ((∃ r, (p.collectObsN R n rn mask).1 = .ok r) ↔ n ≤ ⌊1 / dt⌋ ∧ 1 ≤ Spec.numObs N dt n) := by
  have hnn : 0 ≤ Spec.numObs N dt n := Int.floor_nonneg.2 (by positivity)
  obtain ⟨h1, h2, h3, h4⟩ := obsIndices_grid t0 dt N hN hdt n
  by_cases hc : ⌊1 / dt⌋ < n
  · have e : (p.collectObsN R n rn mask).1 = .error .valueError := by
      unfold Proc.collectObsN; rw [htk, hxt]; simp only [h1 hc]
    simp [-one_div, e, hc, not_le.2 hc]
  · have hc' := not_lt.1 hc
    by_cases hz : Spec.numObs N dt n = 0
    · have e : (p.collectObsN R n rn mask).1 = .error .typeError := by
        unfold Proc.collectObsN; rw [htk, hxt]; simp only [h3 hc' (by omega) (by omega)]
      simp [-one_div, e, hc, hc', hz]
    · obtain ⟨M, hM⟩ := Int.eq_ofNat_of_zero_le hnn
      have e := collectObsN_grid R p t0 dt N x hN hdt htk hxt n rn mask hmask hc' M hM (by omega) (by omega) N' hN'
      rw [e]
      simp [-one_div, hc, hc']
      omega

/-- C39 (partial) on multivariate paths: with two or more observed components each observation is the observed part
of the path value plus a square root of the returned noise matrix times fresh draws, and the path is not modified.
Missing: masks that select one component, where it fails, see `C39_single_component_violated`. -/
theorem C39_observations_nd_partial (R : Rng G) {d : ℕ} (p : Proc G (Fin d → ℝ)) (t0 dt : ℝ) (N : ℕ)
    (x : ℕ → Fin d → ℝ) (hN : 0 < N) (hdt : 0 < dt) (htk : p.tk = some (Spec.grid t0 dt N))
    (hxt : p.xt = some (List.ofFn fun i : Fin (N + 1) => x i)) (n : ℝ)
    (rn : NdArr) (mask : Option (List Bool)) (hmask : Spec.MaskOk d mask)
    (hn : n ≤ ⌊1 / dt⌋) (M : ℕ) (hM : Spec.numObs N dt n = M) (hpos : 0 < M)
    (hk : 2 ≤ (Spec.observed mask : List (Fin d)).length)
    (N' : Matrix (Fin (Spec.observed mask : List (Fin d)).length) (Fin (Spec.observed mask : List (Fin d)).length) ℝ)
    (hN' : Spec.noiseMatrix _ rn = some N') (hpsd : ∀ i, 0 ≤ N' i i) :
    ∃ (t : Fin M → ℕ) (S : Matrix (Fin (Spec.observed mask : List (Fin d)).length)
        (Fin (Spec.observed mask : List (Fin d)).length) ℝ) (p' : Proc G (Fin d → ℝ)),
      S * Sᵀ = N'
      ∧ p.collectObsN R n rn mask = (.ok
          { obs_t := List.ofFn t
            k := (Spec.observed mask : List (Fin d)).length
            obs_y := List.ofFn fun i : Fin M => (fun c => x (t i) ((Spec.observed mask).get c))
              + S *ᵥ fun l => Spec.draw R p.rng (l * M + i)
            obs_noise := .mat _ _ N' }, p')
      ∧ p'.xt = p.xt ∧ p'.tk = p.tk := by
  refine ⟨_, N'.map Real.sqrt, _, ?_, collectObsN_grid R p t0 dt N x hN hdt htk hxt n rn mask hmask hn M hM hpos
    (by omega) N' hN', rfl, rfl⟩
  have hd := noiseMatrix_diag hN'
  have e : N'.map Real.sqrt = Matrix.diagonal fun i => Real.sqrt (N' i i) := by
    ext i j
    by_cases hij : i = j
    · subst hij; simp
    · have : N' i j = 0 := by rw [hd]; simp [hij]
      simp [hij, this]
  rw [e, Matrix.diagonal_transpose, Matrix.diagonal_mul_diagonal]
  ext i j
  by_cases hij : i = j
  · subst hij; simp [Real.mul_self_sqrt (hpsd i)]
  · have : N' i j = 0 := by rw [hd]; simp [hij]
    simp [hij, this]

/-- C39 fails for every mask that selects one component: with two or more observations, `collect_obs` raises
`ValueError` whatever the path and the noise. -/
theorem C39_single_component_violated (R : Rng G) {d : ℕ} (p : Proc G (Fin d → ℝ)) (t0 dt : ℝ) (N : ℕ)
    (x : ℕ → Fin d → ℝ) (hN : 0 < N) (hdt : 0 < dt) (htk : p.tk = some (Spec.grid t0 dt N))
    (hxt : p.xt = some (List.ofFn fun i : Fin (N + 1) => x i)) (n : ℝ)
    (rn : NdArr) (mask : Option (List Bool)) (hmask : Spec.MaskOk d mask)
    (hn : n ≤ ⌊1 / dt⌋) (M : ℕ) (hM : Spec.numObs N dt n = M) (hpos : 2 ≤ M)
    (hk : (Spec.observed mask : List (Fin d)).length = 1) :
    (p.collectObsN R n rn mask).1 = .error .valueError := by
  have hMN : M ≤ N := by have := numObs_le (N := N) hdt hn; omega
  have hs := eqIdx_spec N M hMN
  unfold Proc.collectObsN
  rw [htk, hxt]
  simp only [(obsIndices_grid t0 dt N hN hdt n).2.2.2 hn M hM (by omega)]
  rw [npTake_ofFn N x _ (fun i => (hs.2.1 i).2)]
  simp only []
  obtain ⟨hc, hm⟩ := cols_eq (d := d) mask hmask
  rw [if_neg hm, hc, if_pos hk, if_neg (by omega)]

/-- Non-vacuity: masks of a three dimensional path with two and with one observed components, and a noise vector. -/
example : (Spec.observed (some [true, false, true]) : List (Fin 3)).length = 2
    ∧ (Spec.observed (some [false, false, true]) : List (Fin 3)).length = 1
    ∧ Spec.MaskOk 3 (some [true, false, true])
    ∧ Spec.noiseMatrix 2 (.vec 2 ![1, 4]) = some (Matrix.diagonal ![1, 4]) := by
  refine ⟨by decide, by decide, by simp [Spec.MaskOk], ?_⟩
  simp [Spec.noiseMatrix]

end VGPA
