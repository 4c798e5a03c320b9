import Verif.Model.GaussianMoments
import Verif.Lemmas.Gauss1

/-! # C01-C03: `GaussianMoments` -/

namespace VGPA

open ProbabilityTheory MeasureTheory
open scoped NNReal

/-- Specification: `E[x^n]` for a normal variable with mean `m` and variance `v ≥ 0`. -/
noncomputable def Spec.normalMoment (n : ℕ) (m v : ℝ) : ℝ := ∫ x, x ^ n ∂(gaussianReal m v.toNNReal)

theorem normalMoment_rec (n : ℕ) (m v : ℝ) (hv : 0 ≤ v) :
    Spec.normalMoment (n + 2) m v = m * Spec.normalMoment (n + 1) m v + (n + 1) * v * Spec.normalMoment n m v := by
  have := nmom_succ_succ n m v.toNNReal
  rwa [Real.coe_toNNReal v hv] at this

/-- The polynomials of the order table. -/
noncomputable def momPoly : ℕ → ℝ → ℝ → ℝ
  | 0, _, _ => 1
  | 1, m, _ => m
  | n + 2, m, v => m * momPoly (n + 1) m v + (n + 1) * v * momPoly n m v

theorem normalMoment_eq_poly : ∀ (n : ℕ) (m v : ℝ), 0 ≤ v → Spec.normalMoment n m v = momPoly n m v
  | 0, m, v, _ => nmom_zero _ _
  | 1, m, v, _ => nmom_one _ _
  | n + 2, m, v, hv => by
    rw [normalMoment_rec n m v hv, normalMoment_eq_poly (n + 1) m v hv, normalMoment_eq_poly n m v hv]
    rfl

theorem zipWith_const {α β γ : Type*} (c : γ) : ∀ (l : List α) (l' : List β), l.length = l'.length →
    List.zipWith (fun _ _ => c) l l' = List.replicate l.length c
  | [], [], _ => rfl
  | [], _ :: _, h => by simp at h
  | _ :: _, [], h => by simp at h
  | _ :: l, _ :: l', h => by
    simp [zipWith_const c l l' (by simpa using h), List.replicate_succ]

theorem zipWith_fst {α β : Type*} : ∀ (l : List α) (l' : List β), l.length = l'.length →
    List.zipWith (fun a _ => a) l l' = l
  | [], [], _ => rfl
  | [], _ :: _, h => by simp at h
  | _ :: _, [], h => by simp at h
  | a :: l, _ :: l', h => by
    simp [zipWith_fst l l' (by simpa using h)]

theorem zipWith_congr_mem {α β γ : Type*} {f g : α → β → γ} : ∀ (l : List α) (l' : List β),
    (∀ b ∈ l', ∀ a, f a b = g a b) → List.zipWith f l l' = List.zipWith g l l'
  | [], _, _ => rfl
  | _ :: _, [], _ => rfl
  | a :: l, b :: l', h => by
    simp only [List.zipWith_cons_cons]
    rw [h b (by simp) a, zipWith_congr_mem l l' (fun b hb a => h b (by simp [hb]) a)]

/-- C01: for arrays of equal length, `GaussianMoments(m, v)(order)` is the list of true moments
`E[x^order]`, for every order from 0 to 8. -/
theorem C01_moments (m v : List ℝ) (hl : m.length = v.length) (hv : ∀ x ∈ v, 0 ≤ x) (order : ℕ) (ho : order ≤ 8) :
    ∃ g, GaussianMoments.init m v = .ok g
      ∧ g.call order = .ok (List.zipWith (fun m v => Spec.normalMoment order m v) m v) := by
  refine ⟨⟨m, v, m.length⟩, by simp [GaussianMoments.init, hl], ?_⟩
  rw [zipWith_congr_mem m v (fun b hb a => normalMoment_eq_poly order a b (hv b hb))]
  interval_cases order
  · simp only [GaussianMoments.call, momPoly]
    rw [zipWith_const _ _ _ hl]; simp
  · simp only [GaussianMoments.call, momPoly]
    rw [zipWith_fst _ _ hl]; simp
  all_goals
    simp only [GaussianMoments.call, GaussianMoments.zip, momPoly]
    norm_num
    congr 1
    funext m v
    ring

/-- C01: every other integer order raises `ValueError`. -/
theorem C01_bad_order (g : GaussianMoments) (order : ℤ) (ho : order < 0 ∨ 8 < order) :
    g.call order = .error .valueError := by
  have h : ∀ k : ℤ, 0 ≤ k → k ≤ 8 → order ≠ k := by intro k h1 h2 h3; omega
  simp [GaussianMoments.call, h 0, h 1, h 2, h 3, h 4, h 5, h 6, h 7, h 8]

/-- Entry by entry, with the list laws unfolded: entry `i` of the result is the moment for `m[i]`, `v[i]`. -/
theorem C01_entry (m v : List ℝ) (hl : m.length = v.length) (hv : ∀ x ∈ v, 0 ≤ x) (order : ℕ) (ho : order ≤ 8) :
    ∃ g r, GaussianMoments.init m v = .ok g ∧ g.call order = .ok r ∧ r.length = m.length
      ∧ ∀ (i : ℕ) (a b : ℝ), m[i]? = some a → v[i]? = some b → r[i]? = some (∫ x, x ^ order ∂(gaussianReal a b.toNNReal)) := by
  obtain ⟨g, h1, h2⟩ := C01_moments m v hl hv order ho
  refine ⟨g, _, h1, h2, by simp [hl], fun i a b ha hb => ?_⟩
  simp [List.getElem?_zipWith, ha, hb, Spec.normalMoment]

example : ∃ g r, GaussianMoments.init [0, 1, -2] [1, 0, 3] = .ok g ∧ g.call 4 = .ok r ∧ r = [3, 1, 115] := by
  refine ⟨_, _, rfl, rfl, ?_⟩
  norm_num [GaussianMoments.zip]

/-! ## C02 -/

theorem momPoly_hasDerivAt_m (n : ℕ) (m v : ℝ) :
    HasDerivAt (fun m => momPoly (n + 1) m v) ((n + 1) * momPoly n m v) m ∧
    HasDerivAt (fun m => momPoly n m v) (n * momPoly (n - 1) m v) m := by
  induction n with
  | zero =>
    simp only [momPoly]
    refine ⟨(hasDerivAt_id' m).congr_deriv (by simp), by simpa using hasDerivAt_const m (1 : ℝ)⟩
  | succ n ih =>
    refine ⟨?_, by simpa using ih.1⟩
    have := ((hasDerivAt_id m).mul ih.1).add (ih.2.const_mul ((n + 1) * v))
    refine (HasDerivAt.congr_deriv (f := fun m => momPoly (n + 1 + 1) m v) this ?_)
    cases n with
    | zero => simp [momPoly]; ring
    | succ k =>
      simp only [Nat.add_sub_cancel, momPoly, id]
      push_cast
      ring

theorem momPoly_hasDerivAt_v (n : ℕ) (m v : ℝ) :
    HasDerivAt (fun v => momPoly (n + 2) m v) ((n + 2) * (n + 1) / 2 * momPoly n m v) v := by
  induction n using Nat.strong_induction_on with
  | _ n ih =>
    match n, ih with
    | 0, _ =>
      have : HasDerivAt (fun v : ℝ => m * m + v) 1 v := (hasDerivAt_id v).const_add _
      have e : (fun v => momPoly 2 m v) = fun v : ℝ => m * m + v := by
        funext v; simp [momPoly]
      rw [show (0 + 2 : ℕ) = 2 from rfl, e]
      exact this.congr_deriv (by simp [momPoly])
    | 1, ih =>
      have : HasDerivAt (fun v : ℝ => m * (m * m + v) + 2 * v * m) (3 * m) v := by
        have := (((hasDerivAt_id v).const_add (m * m)).const_mul m).add
          (((hasDerivAt_id v).const_mul 2).mul_const m)
        exact this.congr_deriv (by ring)
      have e : (fun v => momPoly 3 m v) = fun v : ℝ => m * (m * m + v) + 2 * v * m := by
        funext v; simp only [momPoly]; push_cast; ring
      rw [show (1 + 2 : ℕ) = 3 from rfl, e]
      exact this.congr_deriv (by simp [momPoly]; left; norm_num)
    | k + 2, ih =>
      have h1 := ih (k + 1) (by omega)
      have h2 := ih k (by omega)
      have := (h1.const_mul m).add (((hasDerivAt_id v).const_mul ((k + 2 : ℕ) + 1 : ℝ)).mul h2)
      refine (HasDerivAt.congr_deriv (f := fun v => momPoly (k + 2 + 2) m v) this ?_)
      simp only [momPoly, id]
      push_cast
      ring

/-- C02: `dm(order)` is, entry by entry, the derivative of `E[x^order]` with respect to the mean. -/
theorem C02_dm (m v : List ℝ) (hl : m.length = v.length) (hv : ∀ x ∈ v, 0 ≤ x) (order : ℕ)
    (h1 : 1 ≤ order) (h8 : order ≤ 8) :
    ∃ g r, GaussianMoments.init m v = .ok g ∧ g.dm order = .ok r ∧ r.length = m.length
      ∧ ∀ (i : ℕ) (a b : ℝ), m[i]? = some a → v[i]? = some b → ∃ c, r[i]? = some c ∧
          HasDerivAt (fun a' => Spec.normalMoment order a' b) c a := by
  have key : (GaussianMoments.mk m v m.length).dm order
      = .ok (List.zipWith (fun a b => (order : ℝ) * momPoly (order - 1) a b) m v) := by
    interval_cases order
    · norm_num [GaussianMoments.dm, momPoly]
      rw [zipWith_const _ _ _ hl]
    all_goals
      simp only [GaussianMoments.dm, GaussianMoments.zip, momPoly]
      norm_num [momPoly]
      try
        congr 1
        funext m v
        ring
  refine ⟨⟨m, v, m.length⟩, _, by simp [GaussianMoments.init, hl], key, by simp [hl], fun i a b ha hb => ?_⟩
  refine ⟨_, by simp [List.getElem?_zipWith, ha, hb]; rfl, ?_⟩
  have hb' : 0 ≤ b := hv b (List.mem_of_getElem? hb)
  have e : (fun a' => Spec.normalMoment order a' b) = fun a' => momPoly order a' b :=
    funext fun a' => normalMoment_eq_poly order a' b hb'
  rw [e]
  exact (momPoly_hasDerivAt_m order a b).2

/-- C02: `ds(order)` is, entry by entry, the derivative of `E[x^order]` with respect to the variance
(one-sided at variance zero). -/
theorem C02_ds (m v : List ℝ) (hl : m.length = v.length) (hv : ∀ x ∈ v, 0 ≤ x) (order : ℕ)
    (h1 : 1 ≤ order) (h8 : order ≤ 8) :
    ∃ g r, GaussianMoments.init m v = .ok g ∧ g.ds order = .ok r ∧ r.length = m.length
      ∧ ∀ (i : ℕ) (a b : ℝ), m[i]? = some a → v[i]? = some b → ∃ c, r[i]? = some c ∧
          HasDerivWithinAt (fun b' => Spec.normalMoment order a b') c (Set.Ici 0) b := by
  have key : (GaussianMoments.mk m v m.length).ds order
      = .ok (List.zipWith (fun a b => if order = 1 then 0 else
          (order : ℝ) * ((order : ℝ) - 1) / 2 * momPoly (order - 2) a b) m v) := by
    interval_cases order
    · simp only [GaussianMoments.ds, if_true]
      rw [zipWith_const _ _ _ hl]; simp
    · norm_num [GaussianMoments.ds, momPoly]
      rw [zipWith_const _ _ _ hl]
    all_goals
      simp only [GaussianMoments.ds, GaussianMoments.zip, momPoly]
      norm_num [momPoly]
      try
        congr 1
        funext m v
        ring
  refine ⟨⟨m, v, m.length⟩, _, by simp [GaussianMoments.init, hl], key, by simp [hl], fun i a b ha hb => ?_⟩
  refine ⟨_, by simp only [List.getElem?_zipWith, ha, hb]; rfl, ?_⟩
  have hb' : 0 ≤ b := hv b (List.mem_of_getElem? hb)
  have base : HasDerivAt (fun b' => momPoly order a b') (if order = 1 then 0 else
          (order : ℝ) * ((order : ℝ) - 1) / 2 * momPoly (order - 2) a b) b := by
    match order, h1 with
    | 1, _ => simpa [momPoly] using hasDerivAt_const b a
    | n + 2, _ =>
      refine (momPoly_hasDerivAt_v n a b).congr_deriv ?_
      rw [if_neg (by omega), Nat.add_sub_cancel]
      push_cast
      ring
  exact base.hasDerivWithinAt.congr (fun x hx => normalMoment_eq_poly order a x hx)
    (normalMoment_eq_poly order a b hb')

/-- C02: every other integer order raises `ValueError`. -/
theorem C02_bad_order (g : GaussianMoments) (order : ℤ) (ho : order < 1 ∨ 8 < order) :
    g.dm order = .error .valueError ∧ g.ds order = .error .valueError := by
  have h : ∀ k : ℤ, 1 ≤ k → k ≤ 8 → order ≠ k := by intro k h1 h2 h3; omega
  simp [GaussianMoments.dm, GaussianMoments.ds, h 1, h 2, h 3, h 4, h 5, h 6, h 7, h 8]

example : ∃ g r, GaussianMoments.init [1, 2] [1, 0] = .ok g ∧ g.dm 3 = .ok r ∧ r = [6, 12] := by
  refine ⟨_, _, rfl, rfl, ?_⟩
  norm_num [GaussianMoments.zip]

/-! ## C03 -/

/-- C03 as expected is false: mismatched lengths do not raise `RuntimeError`. -/
theorem C03_runtimeError_violated : GaussianMoments.init [0] [1, 1] ≠ .error .runtimeError := by
  simp [GaussianMoments.init]

/-- C03, what holds: mismatched lengths always raise (a `ValueError`), equal lengths are always accepted and
the object keeps both arrays. -/
theorem C03_mismatch_partial (m v : List ℝ) :
    (m.length ≠ v.length → GaussianMoments.init m v = .error .valueError) ∧
    (m.length = v.length → ∃ g, GaussianMoments.init m v = .ok g ∧ g.m_arr = m ∧ g.v_arr = v ∧ g.n_size = m.length) := by
  constructor
  · intro h; simp [GaussianMoments.init, h]
  · intro h; exact ⟨_, by simp only [GaussianMoments.init, h, ne_eq, not_true, if_false]; rfl, rfl, rfl, h.symm⟩

example : GaussianMoments.init [0] [1, 1] = .error .valueError := (C03_mismatch_partial _ _).1 (by simp)

end VGPA
