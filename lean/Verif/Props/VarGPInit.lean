import Verif.Props.VarGPGrad1
import Verif.Props.Obs

/-!
# C62, C63: the initial parameters

Windows have `N + 1` points `tw 0 < ... < tw N`; there are `k + 1` observations at strictly increasing indices.
The parameter `fit` stands for the curve `CubicSpline` builds; all that is used of it is that the curve passes through the data.
-/

namespace VGPA

open Matrix

variable {N k d : ℕ}

namespace Spec

/-- `fit` interpolates: the curve through the points `(xs[i], ys[i])`, at least two and with strictly increasing
abscissae, has the value `ys[i]` at `xs[i]`. -/
def Interpolates {V : Type} (fit : List ℝ → List V → ℝ → V) : Prop :=
  ∀ (xs : List ℝ) (ys : List V), xs.length = ys.length → 2 ≤ xs.length → xs.Pairwise (· < ·) →
    ∀ (i : ℕ) (x : ℝ) (y : V), xs[i]? = some x → ys[i]? = some y → fit xs ys x = y

/-- The data of a `VarGP` object: time window, and observations at the window points with indices `t`. -/
structure HasData {V W : Type} (o : VarGP V W) (tw : Fin (N + 1) → ℝ) (t : Fin (k + 1) → Fin (N + 1))
    (y : Fin (k + 1) → V) : Prop where
  window : o.model.time_window = .ok (List.ofFn tw)
  dim : o.dim_n = N + 1
  mono : StrictMono tw
  obs_t : o.obs_t = List.ofFn fun j => (t j : ℕ)
  obs_y : o.obs_y = List.ofFn y
  increasing : StrictMono t

end Spec

theorem lastIdx_ofFn {α : Type} (f : Fin (N + 1) → α) : lastIdx (List.ofFn f) = .ok (f (Fin.last N)) := by
  unfold lastIdx
  rw [List.ofFn_succ_last, List.getLast?_append]
  simp

theorem splineData_eq {V W : Type} {o : VarGP V W} {tw : Fin (N + 1) → ℝ} {t : Fin (k + 1) → Fin (N + 1)}
    {y : Fin (k + 1) → V} (h : Spec.HasData o tw t y) :
    o.splineData (List.ofFn tw) = .ok (tw 0 :: ((List.ofFn fun j => tw (t j)) ++ [tw (Fin.last N)]),
      y 0 :: (List.ofFn y ++ [y (Fin.last k)])) := by
  unfold VarGP.splineData
  have h0 : idx (List.ofFn tw) 0 = .ok (tw 0) := idx_ofFn tw 0
  have h1 : idx (List.ofFn y) 0 = .ok (y 0) := idx_ofFn y 0
  rw [h.obs_t, h.obs_y, fancy_ofFn, lastIdx_ofFn, lastIdx_ofFn, h0, h1]
  rfl

theorem abscissae_increasing {tw : Fin (N + 1) → ℝ} (ht : StrictMono tw) {t : Fin (k + 1) → Fin (N + 1)}
    (hi : StrictMono t) :
    (tw 0 :: ((List.ofFn fun j => tw (t j)) ++ [tw (Fin.last N)])).Pairwise (· < ·)
      ↔ ∀ j, 0 < t j ∧ t j < Fin.last N := by
  rw [List.pairwise_cons, List.pairwise_append, List.pairwise_ofFn]
  simp only [List.mem_append, List.mem_ofFn, List.mem_singleton, List.pairwise_singleton]
  constructor
  · rintro ⟨h1, _, _, h2⟩ j
    exact ⟨ht.lt_iff_lt.1 (h1 _ (Or.inl ⟨j, rfl⟩)), ht.lt_iff_lt.1 (h2 _ ⟨j, rfl⟩ _ rfl)⟩
  · intro h
    refine ⟨?_, fun i j hij => ht (hi hij), trivial, ?_⟩
    · rintro x (⟨j, rfl⟩ | rfl)
      · exact ht (h j).1
      · exact ht ((h 0).1.trans (h 0).2)
    · rintro x ⟨j, rfl⟩ y rfl
      exact ht (h j).2

/-- The curve is built exactly when all observations are inside the window, neither at its first nor at its last
point; otherwise `ValueError`. -/
theorem spline_eq {V W : Type} {o : VarGP V W} {tw : Fin (N + 1) → ℝ} {t : Fin (k + 1) → Fin (N + 1)}
    {y : Fin (k + 1) → V} (h : Spec.HasData o tw t y) (fit : List ℝ → List V → ℝ → V) :
    ((∀ j, 0 < t j ∧ t j < Fin.last N) →
      cubicSpline fit (tw 0 :: ((List.ofFn fun j => tw (t j)) ++ [tw (Fin.last N)])) (y 0 :: (List.ofFn y ++ [y (Fin.last k)]))
        = .ok (fit (tw 0 :: ((List.ofFn fun j => tw (t j)) ++ [tw (Fin.last N)])) (y 0 :: (List.ofFn y ++ [y (Fin.last k)]))))
    ∧ ((¬ ∀ j, 0 < t j ∧ t j < Fin.last N) →
      cubicSpline fit (tw 0 :: ((List.ofFn fun j => tw (t j)) ++ [tw (Fin.last N)])) (y 0 :: (List.ofFn y ++ [y (Fin.last k)]))
        = .error .valueError) := by
  have hp := abscissae_increasing h.mono h.increasing
  constructor <;> intro hj
  · unfold cubicSpline
    rw [if_neg (by simp), if_neg (by simp), if_pos (hp.2 hj)]
  · unfold cubicSpline
    rw [if_neg (by simp), if_neg (by simp), if_neg (fun h => hj (hp.1 h))]

/-- The interpolating curve takes the value `y j` at the time of observation `j`. -/
theorem curve_through {V W : Type} {o : VarGP V W} {tw : Fin (N + 1) → ℝ} {t : Fin (k + 1) → Fin (N + 1)}
    {y : Fin (k + 1) → V} (h : Spec.HasData o tw t y) {fit : List ℝ → List V → ℝ → V} (hfit : Spec.Interpolates fit)
    (hj : ∀ j, 0 < t j ∧ t j < Fin.last N) :
    let c := fit (tw 0 :: ((List.ofFn fun j => tw (t j)) ++ [tw (Fin.last N)])) (y 0 :: (List.ofFn y ++ [y (Fin.last k)]))
    c (tw 0) = y 0 ∧ c (tw (Fin.last N)) = y (Fin.last k) ∧ ∀ j, c (tw (t j)) = y j := by
  intro c
  have hp := (abscissae_increasing h.mono h.increasing).2 hj
  have hl : (tw 0 :: ((List.ofFn fun j => tw (t j)) ++ [tw (Fin.last N)])).length
      = (y 0 :: (List.ofFn y ++ [y (Fin.last k)])).length := by simp
  refine ⟨hfit _ _ hl (by simp) hp 0 _ _ rfl rfl, hfit _ _ hl (by simp) hp (k + 2) _ _ ?_ ?_, fun j =>
    hfit _ _ hl (by simp) hp (j + 1) _ _ ?_ ?_⟩
  · simp
  · simp
  · rw [List.getElem?_cons_succ, List.getElem?_append_left (by rw [List.length_ofFn]; exact j.2)]
    simp only [List.getElem?_ofFn, j.2, dite_true]
  · rw [List.getElem?_cons_succ, List.getElem?_append_left (by rw [List.length_ofFn]; exact j.2)]
    simp only [List.getElem?_ofFn, j.2, dite_true]

/-! ## The two variants of `initialization` -/

theorem init1_eq {o : VarGP ℝ ℝ} {tw : Fin (N + 1) → ℝ} {t : Fin (k + 1) → Fin (N + 1)} {y : Fin (k + 1) → ℝ}
    (h : Spec.HasData o tw t y) (fit : List ℝ → List ℝ → ℝ → ℝ) :
    ((∀ j, 0 < t j ∧ t j < Fin.last N) → o.initialization1 fit = .ok ((List.ofFn fun _ : Fin (N + 1) => 2 * o.model.sigma)
        ++ List.ofFn fun i => fit (tw 0 :: ((List.ofFn fun j => tw (t j)) ++ [tw (Fin.last N)]))
          (y 0 :: (List.ofFn y ++ [y (Fin.last k)])) (tw i)))
    ∧ ((¬ ∀ j, 0 < t j ∧ t j < Fin.last N) → o.initialization1 fit = .error .valueError) := by
  have hs := spline_eq h fit
  constructor <;> intro hj
  · unfold VarGP.initialization1
    rw [h.window]
    simp only [bind, Except.bind, splineData_eq h, hs.1 hj, h.dim, pure, Except.pure, List.map_ofFn, Function.comp_def]
    congr 2
    rw [List.ofFn_const]
    congr 1
    norm_num
    ring
  · unfold VarGP.initialization1
    rw [h.window]
    simp only [bind, Except.bind, splineData_eq h, hs.2 hj]

theorem initN_eq {o : VarGP (Fin d → ℝ) (Matrix (Fin d) (Fin d) ℝ)} {tw : Fin (N + 1) → ℝ}
    {t : Fin (k + 1) → Fin (N + 1)} {y : Fin (k + 1) → Fin d → ℝ}
    (h : Spec.HasData o tw t y) (fit : List ℝ → List (Fin d → ℝ) → ℝ → Fin d → ℝ) :
    let c := fit (tw 0 :: ((List.ofFn fun j => tw (t j)) ++ [tw (Fin.last N)])) (y 0 :: (List.ofFn y ++ [y (Fin.last k)]))
    ((∀ j, 0 < t j ∧ t j < Fin.last N) → ∃ b : Fin (N + 1) → Fin d → ℝ,
        o.initializationN fit = .ok (ravel3 (List.ofFn fun _ : Fin (N + 1) => Matrix.diagonal fun i => 2 * o.model.sigma i i)
          ++ ravel2 (List.ofFn b))
        ∧ (∀ (i : Fin N) (p : Fin d), b i.castSucc p = o.dt⁻¹ * (c (tw i.succ) p - c (tw i.castSucc) p)
            + 2 * o.model.sigma p p * c (tw i.castSucc) p)
        ∧ ∀ p : Fin d, b (Fin.last N) p = 2 * o.model.sigma p p * c (tw (Fin.last N)) p)
    ∧ ((¬ ∀ j, 0 < t j ∧ t j < Fin.last N) → o.initializationN fit = .error .valueError) := by
  intro c
  have hs := spline_eq h fit
  constructor <;> intro hj
  · let A : Matrix (Fin d) (Fin d) ℝ := (0.5 : ℝ) • Matrix.diagonal fun i =>
      o.model.sigma.diag i / ((0.25 : ℝ) • (1 : Matrix (Fin d) (Fin d) ℝ)).diag i
    have hA : A = Matrix.diagonal fun i => 2 * o.model.sigma i i := by
      simp only [A]
      rw [← Matrix.diagonal_smul]
      congr 1
      funext i
      simp only [Pi.smul_apply, Matrix.diag_apply, Matrix.smul_apply, Matrix.one_apply_eq, smul_eq_mul]
      norm_num
      ring
    let b : Fin (N + 1) → Fin d → ℝ := Fin.snoc (α := fun _ => Fin d → ℝ)
      (fun i : Fin N => o.dt⁻¹ • (c (tw i.succ) - c (tw i.castSucc)) + A.diag * c (tw i.castSucc))
      (A.diag * c (tw (Fin.last N)))
    refine ⟨b, ?_, fun i p => ?_, fun p => ?_⟩
    · have hz : List.zipWith (fun q p : Fin d → ℝ => q - p) (List.ofFn fun i => c (tw i)).tail (List.ofFn fun i => c (tw i))
          = List.ofFn fun i : Fin N => c (tw i.succ) - c (tw i.castSucc) := by
        apply List.ext_getElem
        · simp
        · intro i h1 h2
          simp only [List.getElem_zipWith, List.getElem_tail, List.getElem_ofFn]
          rfl
      have hr : (List.range N).mapM (fun q => do
          let dk ← idx (List.ofFn fun i : Fin N => o.dt⁻¹ • (c (tw i.succ) - c (tw i.castSucc))) q
          let mk ← idx (List.ofFn fun i => c (tw i)) q
          pure (A, dk + A.diag * mk)) = (Except.ok (List.ofFn fun i : Fin N =>
            (A, o.dt⁻¹ • (c (tw i.succ) - c (tw i.castSucc)) + A.diag * c (tw i.castSucc))) : Py _) := by
        apply range_mapM_ofFn
        intro i
        have h2 : idx (List.ofFn fun i => c (tw i)) (i : ℕ) = .ok (c (tw i.castSucc)) :=
          idx_ofFn (fun i => c (tw i)) i.castSucc
        simp only [idx_ofFn, h2, bind, Except.bind, pure, Except.pure]
      unfold VarGP.initializationN
      rw [h.window]
      simp only [bind, Except.bind, splineData_eq h, hs.1 hj, h.dim, List.map_ofFn, Function.comp_def]
      rw [show (fun i => fit (tw 0 :: ((List.ofFn fun j => tw (t j)) ++ [tw (Fin.last N)]))
        (y 0 :: (List.ofFn y ++ [y (Fin.last k)])) (tw i)) = fun i => c (tw i) from rfl]
      simp only [hz, List.map_ofFn, Function.comp_def, Nat.add_sub_cancel]
      simp only [bind, Except.bind] at hr
      simp only [A] at hr
      rw [hr]
      simp only [Nat.succ_ne_zero, if_false, lastIdx_ofFn, pure, Except.pure, List.map_append, List.map_ofFn,
        Function.comp_def, List.map_cons, List.map_nil]
      rw [← hA]
      congr 2
      · rw [List.ofFn_succ_last]
      · rw [List.ofFn_succ_last]
        simp only [b, Fin.snoc_castSucc, Fin.snoc_last]
        rfl
    · simp only [b, Fin.snoc_castSucc, hA]
      simp
    · simp only [b, Fin.snoc_last, hA]
      simp
  · unfold VarGP.initializationN
    rw [h.window]
    simp only [bind, Except.bind, splineData_eq h, hs.2 hj]

/-! ## C63 -/

/-- C63, the part that holds, in one dimension: `initialization` succeeds exactly when no observation sits at the first or
the last point of the window; otherwise `ValueError`. Missing: observations at the two end points. -/
theorem C63_interior_1d_partial {o : VarGP ℝ ℝ} {tw : Fin (N + 1) → ℝ} {t : Fin (k + 1) → Fin (N + 1)}
    {y : Fin (k + 1) → ℝ} (h : Spec.HasData o tw t y) (fit : List ℝ → List ℝ → ℝ → ℝ) :
    ((∃ x, o.initialization1 fit = .ok x) ↔ ∀ j, 0 < t j ∧ t j < Fin.last N)
    ∧ ((¬ ∃ x, o.initialization1 fit = .ok x) → o.initialization1 fit = .error .valueError) := by
  obtain ⟨h1, h2⟩ := init1_eq h fit
  by_cases hj : ∀ j, 0 < t j ∧ t j < Fin.last N
  · exact ⟨⟨fun _ => hj, fun _ => ⟨_, h1 hj⟩⟩, fun hn => absurd ⟨_, h1 hj⟩ hn⟩
  · refine ⟨⟨fun ⟨x, hx⟩ => ?_, fun hn => absurd hn hj⟩, fun _ => h2 hj⟩
    rw [h2 hj] at hx
    cases hx

/-- The same in `d` dimensions. -/
theorem C63_interior_nd_partial {o : VarGP (Fin d → ℝ) (Matrix (Fin d) (Fin d) ℝ)} {tw : Fin (N + 1) → ℝ}
    {t : Fin (k + 1) → Fin (N + 1)} {y : Fin (k + 1) → Fin d → ℝ} (h : Spec.HasData o tw t y)
    (fit : List ℝ → List (Fin d → ℝ) → ℝ → Fin d → ℝ) :
    ((∃ x, o.initializationN fit = .ok x) ↔ ∀ j, 0 < t j ∧ t j < Fin.last N)
    ∧ ((¬ ∃ x, o.initializationN fit = .ok x) → o.initializationN fit = .error .valueError) := by
  obtain ⟨h1, h2⟩ := initN_eq h fit
  by_cases hj : ∀ j, 0 < t j ∧ t j < Fin.last N
  · obtain ⟨b, hb, _⟩ := h1 hj
    exact ⟨⟨fun _ => hj, fun _ => ⟨_, hb⟩⟩, fun hn => absurd ⟨_, hb⟩ hn⟩
  · refine ⟨⟨fun ⟨x, hx⟩ => ?_, fun hn => absurd hn hj⟩, fun _ => h2 hj⟩
    rw [h2 hj] at hx
    cases hx

theorem grid_mono {t0 dt : ℝ} (hdt : 0 < dt) (N : ℕ) :
    StrictMono (fun i : Fin (N + 1) => t0 + ((i : ℕ) : ℝ) * dt) := by
  intro i j hij
  have : ((i : ℕ) : ℝ) < (j : ℕ) := by exact_mod_cast hij
  show t0 + ((i : ℕ) : ℝ) * dt < t0 + ((j : ℕ) : ℝ) * dt
  nlinarith

/-- C63 for what `collect_obs` returns on a one dimensional path: with `M` observations on a window of `N + 1` points,
`initialization` succeeds if `M < N` and raises `ValueError` if `M = N`, the largest possible number. Missing: `M = N`. -/
theorem C63_collect_obs_1d_partial {G : Type} (R : Rng G) (p : Proc G ℝ) (t0 dt : ℝ) (N : ℕ) (x : ℕ → ℝ) (hN : 0 < N)
    (hdt : 0 < dt) (htk : p.tk = some (Spec.grid t0 dt N)) (hxt : p.xt = some (List.ofFn fun i : Fin (N + 1) => x i))
    (n : ℝ) (rn : ℝ) (hn : n ≤ ⌊1 / dt⌋) (M : ℕ) (hM : Spec.numObs N dt n = M) (hpos : 0 < M)
    (o : VarGP ℝ ℝ) (hw : o.model.time_window = p.timeWindow) (hdim : o.dim_n = N + 1)
    (r : Obs1) (p' : Proc G ℝ) (hr : p.collectObs1 R n (.scalar rn) none = (.ok r, p')) (hot : o.obs_t = r.obs_t)
    (hoy : o.obs_y = r.obs_y) (fit : List ℝ → List ℝ → ℝ → ℝ) :
    (M < N → ∃ z, o.initialization1 fit = .ok z) ∧ (M = N → o.initialization1 fit = .error .valueError) := by
  have hMN : M ≤ N := by have := numObs_le (N := N) hdt hn; omega
  have hc := collectObs1_grid R p t0 dt N x hN hdt htk hxt n rn hn M hM hpos
  rw [hc] at hr
  injection hr with hr _
  injection hr with hr
  subst hr
  have hs := eqIdx_spec N M hMN
  obtain ⟨q, rfl⟩ : ∃ q, M = q + 1 := ⟨M - 1, by omega⟩
  have hd : Spec.HasData (N := N) (k := q) o (fun i : Fin (N + 1) => t0 + ((i : ℕ) : ℝ) * dt)
      (fun j => ⟨eqIdx N (q + 1) j, Nat.lt_succ_of_le (hs.2.1 j).2⟩)
      (fun i => x (eqIdx N (q + 1) i) + Real.sqrt rn * Spec.draw R p.rng i) := by
    refine ⟨?_, hdim, grid_mono hdt N, hot, hoy, fun i j hij => hs.1 i j hij⟩
    rw [hw, Proc.timeWindow, htk]
    rfl
  have key := C63_interior_1d_partial hd fit
  have lastv : eqIdx N (q + 1) q = (q + 1) * (N + 1) / (q + 1 + 1) := rfl
  constructor
  · intro hlt
    refine key.1.2 fun j => ⟨?_, ?_⟩
    · exact Fin.lt_def.2 (hs.2.1 j).1
    · refine Fin.lt_def.2 ?_
      have hlast : eqIdx N (q + 1) q < N := by
        rw [lastv, Nat.div_lt_iff_lt_mul (by omega)]
        nlinarith
      show eqIdx N (q + 1) j < N
      rcases Nat.lt_or_ge (j : ℕ) q with hj | hj
      · exact (hs.1 j ⟨q, by omega⟩ hj).trans hlast
      · have : (j : ℕ) = q := by omega
        rw [this]; exact hlast
  · intro heq
    refine key.2 fun hex => ?_
    have := (key.1.1 hex ⟨q, by omega⟩).2
    have h2 : eqIdx N (q + 1) q < N := this
    rw [lastv, heq, Nat.mul_div_cancel _ (by omega)] at h2
    omega

/-- C63 for what `collect_obs` returns on a path of vectors: with `M` observations (of all or some components, of whatever values) on a window of `N + 1` points,
`initialization` succeeds if `M < N` and raises `ValueError` if `M = N`. Missing: `M = N`. -/
theorem C63_collect_obs_nd_partial {G : Type} (R : Rng G) {d : ℕ} (p : Proc G (Fin d → ℝ)) (t0 dt : ℝ) (N : ℕ) (x : ℕ → Fin d → ℝ) (hN : 0 < N)
    (hdt : 0 < dt) (htk : p.tk = some (Spec.grid t0 dt N)) (hxt : p.xt = some (List.ofFn fun i : Fin (N + 1) => x i))
    (n : ℝ) (rn : NdArr) (mask : Option (List Bool)) (hmask : Spec.MaskOk d mask) (hn : n ≤ ⌊1 / dt⌋) (M : ℕ) (hM : Spec.numObs N dt n = M) (hpos : 0 < M)
    (hk : 2 ≤ (Spec.observed mask : List (Fin d)).length)
    (N' : Matrix (Fin (Spec.observed mask : List (Fin d)).length) (Fin (Spec.observed mask : List (Fin d)).length) ℝ)
    (hN' : Spec.noiseMatrix _ rn = some N')
    (o : VarGP (Fin d → ℝ) (Matrix (Fin d) (Fin d) ℝ)) (hw : o.model.time_window = p.timeWindow) (hdim : o.dim_n = N + 1)
    (r : ObsN) (p' : Proc G (Fin d → ℝ)) (hr : p.collectObsN R n rn mask = (.ok r, p')) (hot : o.obs_t = r.obs_t)
    (y : Fin M → Fin d → ℝ) (hoy : o.obs_y = List.ofFn y) (fit : List ℝ → List (Fin d → ℝ) → ℝ → Fin d → ℝ) :
    (M < N → ∃ z, o.initializationN fit = .ok z) ∧ (M = N → o.initializationN fit = .error .valueError) := by
  have hMN : M ≤ N := by have := numObs_le (N := N) hdt hn; omega
  have hc := collectObsN_grid R p t0 dt N x hN hdt htk hxt n rn mask hmask hn M hM hpos (by omega) N' hN'
  rw [hc] at hr
  injection hr with hr _
  injection hr with hr
  subst hr
  have hs := eqIdx_spec N M hMN
  obtain ⟨q, rfl⟩ : ∃ q, M = q + 1 := ⟨M - 1, by omega⟩
  have hd : Spec.HasData (N := N) (k := q) o (fun i : Fin (N + 1) => t0 + ((i : ℕ) : ℝ) * dt)
      (fun j => ⟨eqIdx N (q + 1) j, Nat.lt_succ_of_le (hs.2.1 j).2⟩) y := by
    refine ⟨?_, hdim, grid_mono hdt N, hot, hoy, fun i j hij => hs.1 i j hij⟩
    rw [hw, Proc.timeWindow, htk]
    rfl
  have key := C63_interior_nd_partial hd fit
  have lastv : eqIdx N (q + 1) q = (q + 1) * (N + 1) / (q + 1 + 1) := rfl
  constructor
  · intro hlt
    refine key.1.2 fun j => ⟨?_, ?_⟩
    · exact Fin.lt_def.2 (hs.2.1 j).1
    · refine Fin.lt_def.2 ?_
      have hlast : eqIdx N (q + 1) q < N := by
        rw [lastv, Nat.div_lt_iff_lt_mul (by omega)]
        nlinarith
      show eqIdx N (q + 1) j < N
      rcases Nat.lt_or_ge (j : ℕ) q with hj | hj
      · exact (hs.1 j ⟨q, by omega⟩ hj).trans hlast
      · have : (j : ℕ) = q := by omega
        rw [this]; exact hlast
  · intro heq
    refine key.2 fun hex => ?_
    have := (key.1.1 hex ⟨q, by omega⟩).2
    have h2 : eqIdx N (q + 1) q < N := this
    rw [lastv, heq, Nat.mul_div_cancel _ (by omega)] at h2
    omega

/-- The hypotheses of the last theorem for 20 observations of two of three components on 1001 points. -/
example : Spec.numObs 1000 (1 / 100) 2 = (20 : ℕ) ∧ (2 : ℝ) ≤ ⌊1 / (1 / 100 : ℝ)⌋ ∧ (Spec.observed (some [true, false, true]) : List (Fin 3)).length = 2
    ∧ Spec.MaskOk 3 (some [true, false, true]) ∧ Spec.noiseMatrix 2 (.vec 2 ![1, 4]) = some (Matrix.diagonal ![1, 4]) := by
  refine ⟨by norm_num [Spec.numObs], by norm_num, by decide, by simp [Spec.MaskOk], ?_⟩
  simp [Spec.noiseMatrix]

/-- C63 fails: on a window of five points with step `1/4`, `collect_obs` accepts four observations per time unit, and
`initialization` then raises `ValueError`, for every path, noise, generator, and interpolation. -/
theorem C63_violated {G : Type} (R : Rng G) (p : Proc G ℝ) (htk : p.tk = some (Spec.grid 0 (1 / 4) 4)) (x : ℕ → ℝ)
    (hxt : p.xt = some (List.ofFn fun i : Fin (4 + 1) => x i)) (rn : ℝ) :
    ∃ (r : Obs1) (p' : Proc G ℝ), p.collectObs1 R 4 (.scalar rn) none = (.ok r, p')
      ∧ ∀ (o : VarGP ℝ ℝ) (fit : List ℝ → List ℝ → ℝ → ℝ), o.model.time_window = p.timeWindow → o.dim_n = 5 →
        o.obs_t = r.obs_t → o.obs_y = r.obs_y → o.initialization1 fit = .error .valueError := by
  have hn : (4 : ℝ) ≤ ⌊1 / (1 / 4 : ℝ)⌋ := by norm_num
  have hM : Spec.numObs 4 (1 / 4) 4 = ((4 : ℕ) : ℤ) := by
    unfold Spec.numObs
    rw [Int.floor_eq_iff]
    norm_num
  have hc := collectObs1_grid R p 0 (1 / 4) 4 x (by norm_num) (by norm_num) htk hxt 4 rn hn 4 hM (by norm_num)
  exact ⟨_, _, hc, fun o fit h1 h2 h3 h4 => (C63_collect_obs_1d_partial R p 0 (1 / 4) 4 x (by norm_num) (by norm_num) htk hxt
    4 rn hn 4 hM (by norm_num) o h1 h2 _ _ hc h3 h4 fit).2 rfl⟩

/-! ## C62 -/

/-- C62 in one dimension, the part that holds: `2 n` parameters; the linear part is constant and makes `0.25` the
stationary variance; the offset is the interpolating curve itself, which passes through the observations.
Missing: the mean of the forward sweep does not follow the curve, see `C62_1d_violated`. -/
theorem C62_1d_partial {o : VarGP ℝ ℝ} {tw : Fin (N + 1) → ℝ} {t : Fin (k + 1) → Fin (N + 1)}
    {y : Fin (k + 1) → ℝ} (h : Spec.HasData o tw t y) (fit : List ℝ → List ℝ → ℝ → ℝ) (hfit : Spec.Interpolates fit)
    (hj : ∀ j, 0 < t j ∧ t j < Fin.last N) :
    ∃ (a b : Fin (N + 1) → ℝ) (c : ℝ → ℝ), o.initialization1 fit = .ok (List.ofFn a ++ List.ofFn b)
      ∧ (List.ofFn a ++ List.ofFn b).length = 2 * (N + 1)
      ∧ (∀ i, rhs1.fun_st 0.25 (a i) o.model.sigma = 0) ∧ (∀ i, b i = c (tw i)) ∧ ∀ j, c (tw (t j)) = y j := by
  refine ⟨_, _, _, (init1_eq h fit).1 hj, by simp; ring, fun i => ?_, fun i => rfl, (curve_through h hfit hj).2.2⟩
  simp only [rhs1]
  norm_num
  ring

/-- C62 fails in one dimension: with one observation `y` in the middle of three points, every interpolating curve is `y`
at all three, but the mean of the Euler sweep that starts at `y` is at the second point
`y + dt (1 - 2 sigma) y`. -/
theorem C62_1d_violated {o : VarGP ℝ ℝ} {tw : Fin (2 + 1) → ℝ} {y : Fin (0 + 1) → ℝ} (h : Spec.HasData o tw ![1] y)
    (fit : List ℝ → List ℝ → ℝ → ℝ) (hfit : Spec.Interpolates fit) (hy : y 0 ≠ 0) (hdt : o.dt ≠ 0)
    (hσ : o.model.sigma ≠ 1 / 2) (s0 : ℝ) :
    ∃ (a b : Fin (2 + 1) → ℝ) (m s : Fin (2 + 1) → ℝ), o.initialization1 fit = .ok (List.ofFn a ++ List.ofFn b)
      ∧ solveFwd .euler rhs1 o.dt (List.ofFn a) (List.ofFn b) (y 0) s0 o.model.sigma = .ok (List.ofFn m, List.ofFn s)
      ∧ (∀ i, b i = y 0) ∧ m 1 ≠ y 0 := by
  have hj : ∀ j, 0 < (![1] : Fin (0 + 1) → Fin (2 + 1)) j ∧ (![1] : Fin (0 + 1) → Fin (2 + 1)) j < Fin.last 2 := by decide
  obtain ⟨c1, c2, c3⟩ := curve_through h hfit hj
  have hb : ∀ i : Fin (2 + 1), fit (tw 0 :: ((List.ofFn fun j => tw ((![1] : Fin (0 + 1) → Fin (2 + 1)) j)) ++ [tw (Fin.last 2)]))
      (y 0 :: (List.ofFn y ++ [y (Fin.last 0)])) (tw i) = y 0 := by
    intro i
    fin_cases i
    · exact c1
    · exact c3 0
    · exact c2
  have hi := (init1_eq h fit).1 hj
  simp only [hb] at hi
  let a : Fin (2 + 1) → ℝ := fun _ => 2 * o.model.sigma
  let b : Fin (2 + 1) → ℝ := fun _ => y 0
  let g : ℕ → ℝ × ℝ → ℝ × ℝ := fun _ q => (q.1 + o.dt • rhs1.fun_mt q.1 (2 * o.model.sigma) (y 0),
    q.2 + o.dt • rhs1.fun_st q.2 (2 * o.model.sigma) o.model.sigma)
  refine ⟨a, b, fun i => (traj (y 0, s0) g i).1, fun i => (traj (y 0, s0) g i).2, hi, ?_, fun _ => rfl, ?_⟩
  · simp only [solveFwd, Euler.solveFwd, List.length_ofFn]
    rw [fwdSweep_ok (2 + 1) (y 0, s0) _ g (by norm_num) (fun q hq x => by
      have hq' : q < 2 + 1 := by omega
      have h1 : idx (List.ofFn a) q = .ok (a ⟨q, hq'⟩) := idx_ofFn a ⟨q, hq'⟩
      have h2 : idx (List.ofFn b) q = .ok (b ⟨q, hq'⟩) := idx_ofFn b ⟨q, hq'⟩
      rw [h1, h2]; rfl)]
    simp only [py_ok_bind, List.map_map, pure, Except.pure]
    rw [map_range_ofFn, map_range_ofFn]
    rfl
  · show y 0 + o.dt * (-(2 * o.model.sigma * y 0) + y 0) ≠ y 0
    intro he
    have : o.dt * (y 0 * (1 - 2 * o.model.sigma)) = 0 := by linarith
    rcases mul_eq_zero.1 this with h0 | h0
    · exact hdt h0
    · rcases mul_eq_zero.1 h0 with h0 | h0
      · exact hy h0
      · exact hσ (by linarith)

/-- The Euler sweep with the parameters of `initialization` in `d` dimensions. -/
theorem initN_follow {o : VarGP (Fin d → ℝ) (Matrix (Fin d) (Fin d) ℝ)} {tw : Fin (N + 1) → ℝ}
    {t : Fin (k + 1) → Fin (N + 1)} {y : Fin (k + 1) → Fin d → ℝ} (h : Spec.HasData o tw t y)
    (fit : List ℝ → List (Fin d → ℝ) → ℝ → Fin d → ℝ) (hfit : Spec.Interpolates fit) (hdt : o.dt ≠ 0)
    (hj : ∀ j, 0 < t j ∧ t j < Fin.last N) :
    ∃ (a : Fin (N + 1) → Matrix (Fin d) (Fin d) ℝ) (b : Fin (N + 1) → Fin d → ℝ) (c : ℝ → Fin d → ℝ),
      o.initializationN fit = .ok (ravel3 (List.ofFn a) ++ ravel2 (List.ofFn b))
      ∧ (∀ j, c (tw (t j)) = y j)
      ∧ (∀ i, a i = Matrix.diagonal fun p => 2 * o.model.sigma p p)
      ∧ ∀ s0 : Matrix (Fin d) (Fin d) ℝ, ∃ s : Fin (N + 1) → Matrix (Fin d) (Fin d) ℝ,
          solveFwd .euler (rhsN d) o.dt (List.ofFn a) (List.ofFn b) (c (tw 0)) s0 o.model.sigma
            = .ok (List.ofFn (fun i => c (tw i)), List.ofFn s)
          ∧ s 0 = s0 ∧ ∀ i : Fin N, s i.succ = s i.castSucc + o.dt • (rhsN d).fun_st (s i.castSucc)
              (Matrix.diagonal fun p => 2 * o.model.sigma p p) o.model.sigma := by
  obtain ⟨b, hb, hb1, _⟩ := (initN_eq h fit).1 hj
  set c := fit (tw 0 :: ((List.ofFn fun j => tw (t j)) ++ [tw (Fin.last N)])) (y 0 :: (List.ofFn y ++ [y (Fin.last k)])) with hc
  refine ⟨_, b, c, hb, (curve_through h hfit hj).2.2, fun _ => rfl, fun s0 => ?_⟩
  let A : Matrix (Fin d) (Fin d) ℝ := Matrix.diagonal fun p => 2 * o.model.sigma p p
  let g : ℕ → (Fin d → ℝ) × Matrix (Fin d) (Fin d) ℝ → (Fin d → ℝ) × Matrix (Fin d) (Fin d) ℝ := fun q x =>
    (x.1 + o.dt • (rhsN d).fun_mt x.1 A (if hq : q < N + 1 then b ⟨q, hq⟩ else 0),
      x.2 + o.dt • (rhsN d).fun_st x.2 A o.model.sigma)
  have hm : ∀ q (hq : q < N + 1), (traj (c (tw 0), s0) g q).1 = c (tw ⟨q, hq⟩) := by
    intro q
    induction q with
    | zero => intro _; rfl
    | succ q ih =>
      intro hq
      have hq' : q < N := by omega
      show (traj (c (tw 0), s0) g q).1 + o.dt • (rhsN d).fun_mt (traj (c (tw 0), s0) g q).1 A _ = _
      rw [ih (by omega), dif_pos (by omega : q < N + 1)]
      funext p
      have hbp := hb1 ⟨q, hq'⟩ p
      have e1 : (⟨q, hq'⟩ : Fin N).castSucc = ⟨q, by omega⟩ := rfl
      have e2 : (⟨q, hq'⟩ : Fin N).succ = ⟨q + 1, hq⟩ := rfl
      rw [e1, e2] at hbp
      simp only [rhsN, Pi.add_apply, Pi.smul_apply, Pi.neg_apply, A, Matrix.mulVec_diagonal, smul_eq_mul, hbp]
      field_simp
      ring
  refine ⟨fun i => (traj (c (tw 0), s0) g i).2, ?_, rfl, fun i => rfl⟩
  simp only [solveFwd, Euler.solveFwd, List.length_ofFn]
  rw [fwdSweep_ok (N + 1) (c (tw 0), s0) _ g (by omega) (fun q hq x => by
    have hq' : q < N + 1 := by omega
    have h1 : idx (List.ofFn fun _ : Fin (N + 1) => A) q = .ok A := idx_ofFn (fun _ : Fin (N + 1) => A) ⟨q, hq'⟩
    have h2 : idx (List.ofFn b) q = .ok (b ⟨q, hq'⟩) := idx_ofFn b ⟨q, hq'⟩
    simp only [h1, h2, py_ok_bind, g, dif_pos hq', A]
    rfl)]
  simp only [py_ok_bind, List.map_map, pure, Except.pure]
  rw [map_range_ofFn, map_range_ofFn]
  congr 3
  funext i
  exact hm i i.2

/-- C62 in `d` dimensions for a diagonal noise matrix: `n d (d + 1)` parameters, and the Euler sweep that starts on
the curve with covariance `0.25 I` follows a curve through the observations exactly, with constant covariance `0.25 I`. -/
theorem C62_nd {o : VarGP (Fin d → ℝ) (Matrix (Fin d) (Fin d) ℝ)} {tw : Fin (N + 1) → ℝ}
    {t : Fin (k + 1) → Fin (N + 1)} {y : Fin (k + 1) → Fin d → ℝ} (h : Spec.HasData o tw t y)
    (fit : List ℝ → List (Fin d → ℝ) → ℝ → Fin d → ℝ) (hfit : Spec.Interpolates fit) (hdt : o.dt ≠ 0)
    (hj : ∀ j, 0 < t j ∧ t j < Fin.last N) (hσ : ∀ p q, p ≠ q → o.model.sigma p q = 0) :
    ∃ (a : Fin (N + 1) → Matrix (Fin d) (Fin d) ℝ) (b : Fin (N + 1) → Fin d → ℝ) (c : ℝ → Fin d → ℝ),
      o.initializationN fit = .ok (ravel3 (List.ofFn a) ++ ravel2 (List.ofFn b))
      ∧ (ravel3 (List.ofFn a) ++ ravel2 (List.ofFn b)).length = (N + 1) * d * (d + 1)
      ∧ (∀ j, c (tw (t j)) = y j)
      ∧ solveFwd .euler (rhsN d) o.dt (List.ofFn a) (List.ofFn b) (c (tw 0)) ((0.25 : ℝ) • 1) o.model.sigma
          = .ok (List.ofFn (fun i => c (tw i)), List.ofFn fun _ : Fin (N + 1) => (0.25 : ℝ) • 1) := by
  obtain ⟨a, b, c, h1, h2, ha, h3⟩ := initN_follow h fit hfit hdt hj
  obtain ⟨s, h4, h5, h6⟩ := h3 ((0.25 : ℝ) • 1)
  refine ⟨a, b, c, h1, ?_, h2, ?_⟩
  · rw [List.length_append, ravel3_length, ravel2_length]; simp; ring
  · rw [h4]
    congr 3
    funext i
    induction i using Fin.induction with
    | zero => exact h5
    | succ i ih =>
      rw [h6, ih]
      have : (rhsN d).fun_st ((0.25 : ℝ) • 1) (Matrix.diagonal fun p => 2 * o.model.sigma p p) o.model.sigma = 0 := by
        ext p q
        by_cases hpq : p = q
        · subst hpq
          simp [rhsN]
          norm_num
          ring
        · simp [rhsN, hpq, hσ p q hpq]
      rw [this, smul_zero, add_zero]

/-- C62 in `d` dimensions for an arbitrary noise matrix: the mean follows the curve exactly, and the variances `0.25` of the
components are stationary for the covariance `0.25 I`. Missing: the covariances are not stationary when the noise is
correlated, see `C62_nd_violated`. -/
theorem C62_nd_mean_partial {o : VarGP (Fin d → ℝ) (Matrix (Fin d) (Fin d) ℝ)} {tw : Fin (N + 1) → ℝ}
    {t : Fin (k + 1) → Fin (N + 1)} {y : Fin (k + 1) → Fin d → ℝ} (h : Spec.HasData o tw t y)
    (fit : List ℝ → List (Fin d → ℝ) → ℝ → Fin d → ℝ) (hfit : Spec.Interpolates fit) (hdt : o.dt ≠ 0)
    (hj : ∀ j, 0 < t j ∧ t j < Fin.last N) :
    ∃ (a : Fin (N + 1) → Matrix (Fin d) (Fin d) ℝ) (b : Fin (N + 1) → Fin d → ℝ) (c : ℝ → Fin d → ℝ),
      o.initializationN fit = .ok (ravel3 (List.ofFn a) ++ ravel2 (List.ofFn b))
      ∧ (∀ j, c (tw (t j)) = y j)
      ∧ (∀ i p, (rhsN d).fun_st ((0.25 : ℝ) • 1) (a i) o.model.sigma p p = 0)
      ∧ ∀ s0, ∃ s : Fin (N + 1) → Matrix (Fin d) (Fin d) ℝ,
          solveFwd .euler (rhsN d) o.dt (List.ofFn a) (List.ofFn b) (c (tw 0)) s0 o.model.sigma
            = .ok (List.ofFn (fun i => c (tw i)), List.ofFn s) := by
  obtain ⟨a, b, c, h1, h2, ha, h3⟩ := initN_follow h fit hfit hdt hj
  refine ⟨a, b, c, h1, h2, fun i p => ?_, fun s0 => ?_⟩
  · rw [ha]
    simp [rhsN]
    norm_num
    ring
  · obtain ⟨s, h4, _⟩ := h3 s0
    exact ⟨s, h4⟩

/-- C62 fails for correlated noise: the covariance that the Euler sweep reaches from `0.25 I` in one step differs from
`0.25 I`. -/
theorem C62_nd_violated {o : VarGP (Fin d → ℝ) (Matrix (Fin d) (Fin d) ℝ)} {tw : Fin (N + 1) → ℝ}
    {t : Fin (k + 1) → Fin (N + 1)} {y : Fin (k + 1) → Fin d → ℝ} (h : Spec.HasData o tw t y)
    (fit : List ℝ → List (Fin d → ℝ) → ℝ → Fin d → ℝ) (hfit : Spec.Interpolates fit) (hdt : o.dt ≠ 0)
    (hj : ∀ j, 0 < t j ∧ t j < Fin.last N) (p q : Fin d) (hpq : p ≠ q) (hσ : o.model.sigma p q ≠ 0) :
    ∃ (a : Fin (N + 1) → Matrix (Fin d) (Fin d) ℝ) (b : Fin (N + 1) → Fin d → ℝ) (c : ℝ → Fin d → ℝ)
      (s : Fin (N + 1) → Matrix (Fin d) (Fin d) ℝ),
      o.initializationN fit = .ok (ravel3 (List.ofFn a) ++ ravel2 (List.ofFn b))
      ∧ solveFwd .euler (rhsN d) o.dt (List.ofFn a) (List.ofFn b) (c (tw 0)) ((0.25 : ℝ) • 1) o.model.sigma
            = .ok (List.ofFn (fun i => c (tw i)), List.ofFn s)
      ∧ s 1 ≠ (0.25 : ℝ) • 1 := by
  obtain ⟨a, b, c, h1, h2, ha, h3⟩ := initN_follow h fit hfit hdt hj
  obtain ⟨s, h4, h5, h6⟩ := h3 ((0.25 : ℝ) • 1)
  refine ⟨a, b, c, s, h1, h4, fun hs => ?_⟩
  have hN : 0 < N := by
    have := (hj 0).1.trans (hj 0).2
    have := Fin.lt_def.1 this
    simpa using this
  obtain ⟨N', rfl⟩ : ∃ N', N = N' + 1 := ⟨N - 1, by omega⟩
  have h7 := h6 0
  have e0 : (0 : Fin (N' + 1)).castSucc = 0 := rfl
  have e1 : (0 : Fin (N' + 1)).succ = 1 := rfl
  rw [e0, e1, h5, hs] at h7
  have h8 := congrFun (congrFun h7 p) q
  simp [rhsN, hpq] at h8
  exact h8.elim hdt hσ

/-! ## Non-vacuity -/

/-- An interpolating `fit`: the value at the first abscissa equal to the argument. -/
noncomputable def lookupFit {V : Type} [Zero V] (xs : List ℝ) (ys : List V) (x : ℝ) : V :=
  ys.getD (xs.idxOf x) 0

theorem lookupFit_interpolates {V : Type} [Zero V] : Spec.Interpolates (lookupFit (V := V)) := by
  intro xs ys _ _ hp i x y hx hy
  have hi : i < xs.length := (List.getElem?_eq_some_iff.1 hx).1
  have hxi : xs[i] = x := (List.getElem?_eq_some_iff.1 hx).2
  have hnd : xs.Nodup := hp.imp fun h => ne_of_lt h
  have : xs.idxOf x = i := by
    rw [← hxi]; exact hnd.idxOf_getElem i hi
  simp [lookupFit, this, List.getD, hy]

noncomputable def initObj : VarGP ℝ ℝ := { vgpObj vgpDW.sde .euler with
  model := { vgpDW.sde with time_window := .ok (List.ofFn fun i : Fin (2 + 1) => ((i : ℕ) : ℝ)) }
  dim_n := 3, obs_t := [1], obs_y := [7], dt := 1 }

theorem initObj_data : Spec.HasData initObj (fun i : Fin (2 + 1) => ((i : ℕ) : ℝ)) ![1] (fun _ : Fin (0 + 1) => 7) :=
  ⟨rfl, rfl, fun i j h => by exact_mod_cast h, by simp [initObj], by simp [initObj], fun i j h => by omega⟩

example := C62_1d_violated initObj_data lookupFit lookupFit_interpolates (by norm_num) (by norm_num [initObj])
  (by norm_num [initObj, DW.sde, vgpDW]) 1

example := C63_interior_1d_partial initObj_data lookupFit

noncomputable def initObjN : VarGP (Fin 2 → ℝ) (Matrix (Fin 2) (Fin 2) ℝ) where
  model := { sigma := !![1, 0; 0, 2], inverse_sigma := 1, time_step := .ok 1, sample_path := .ok []
             time_window := .ok (List.ofFn fun i : Fin (2 + 1) => ((i : ℕ) : ℝ)), energy := fun _ _ _ _ _ => .error .valueError }
  fwd_ode := ⟨1, "", .euler⟩
  bwd_ode := ⟨1, "", .euler⟩
  likelihood := ⟨fun _ _ => .ok 0, fun _ _ => .error .valueError⟩
  kl0 := fun _ _ => .ok 0
  obs_y := [![3, 4]]
  obs_t := [1]
  dt := 1
  dim_n := 3
  m0 := 0
  s0 := 1
  cache := none

example := C62_nd (o := initObjN) (tw := fun i : Fin (2 + 1) => ((i : ℕ) : ℝ)) (t := ![1]) (y := ![![3, 4]])
  ⟨rfl, rfl, fun i j h => by exact_mod_cast h, by simp [initObjN], by simp [initObjN], fun i j h => by omega⟩
  lookupFit lookupFit_interpolates (by norm_num [initObjN]) (by decide)
  (fun p q h => by fin_cases p <;> fin_cases q <;> simp_all [initObjN])

end VGPA
