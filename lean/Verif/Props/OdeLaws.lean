import Verif.Props.OdeBasic
import Mathlib.LinearAlgebra.Matrix.Symmetric
import Mathlib.LinearAlgebra.Matrix.Notation

/-!
# Properties C19 - C23: symmetry, causality, equilibria, 1-D/n-D agreement, superposition
-/

namespace VGPA

open Matrix

/-! ## C19 -/

/-- An invariant of the pure step is an invariant of the series. -/
theorem traj_inv {X : Type} (P : X → Prop) (x0 : X) (g : ℕ → X → X) (h0 : P x0)
    (hg : ∀ k x, P x → P (g k x)) (k : ℕ) : P (traj x0 g k) := by
  induction k with
  | zero => exact h0
  | succ k ih => exact hg k _ ih

section
variable {d : ℕ}

theorem symm_fun_st {S A Sg : Matrix (Fin d) (Fin d) ℝ} (hS : S.IsSymm) (hg : Sg.IsSymm) :
    ((rhsN d).fun_st S A Sg).IsSymm := by
  unfold rhsN Matrix.IsSymm at *
  simp only [transpose_add, transpose_sub, transpose_neg, transpose_mul, transpose_transpose, hS, hg]
  abel

theorem symm_fun_psi {E A P : Matrix (Fin d) (Fin d) ℝ} (hE : E.IsSymm) (hP : P.IsSymm) :
    ((rhsN d).fun_psi E A P).IsSymm := by
  unfold rhsN Matrix.IsSymm at *
  simp only [transpose_add, transpose_neg, transpose_mul, transpose_transpose, hE, hP]
  abel

theorem symm_smul {S : Matrix (Fin d) (Fin d) ℝ} (hS : S.IsSymm) (c : ℝ) : (c • S).IsSymm := by
  unfold Matrix.IsSymm at *; rw [transpose_smul, hS]

theorem symm_add {S T : Matrix (Fin d) (Fin d) ℝ} (hS : S.IsSymm) (hT : T.IsSymm) :
    (S + T).IsSymm := by
  unfold Matrix.IsSymm at *; rw [transpose_add, hS, hT]

theorem symm_sub {S T : Matrix (Fin d) (Fin d) ℝ} (hS : S.IsSymm) (hT : T.IsSymm) :
    (S - T).IsSymm := by
  unfold Matrix.IsSymm at *; rw [transpose_sub, hS, hT]

theorem asFun_prop {X : Type} [Zero X] (P : X → Prop) (h0 : P 0) (l : List X) (h : ∀ x ∈ l, P x)
    (k : ℕ) : P (asFun l k) := by
  by_cases hk : k < l.length
  · rw [asFun_eq hk]; exact h _ (List.getElem_mem hk)
  · have : asFun l k = 0 := by simp [asFun, Nat.not_lt.1 hk]
    rw [this]; exact h0

/-- **C19 (forward).** With symmetric `s0` and `Sigma` every covariance returned by any of the four
forward methods is symmetric, whatever the linear parameters. -/
theorem C19_covariance_symmetric (meth : Method) (dt : ℝ)
    (A : List (Matrix (Fin d) (Fin d) ℝ)) (b : List (Fin d → ℝ)) (m0 : Fin d → ℝ)
    (s0 sigma : Matrix (Fin d) (Fin d) ℝ) (mt st)
    (hrun : solveFwd meth (rhsN d) dt A b m0 s0 sigma = .ok (mt, st))
    (hs0 : s0.IsSymm) (hsig : sigma.IsSymm) : ∀ S ∈ st, S.IsSymm := by
  obtain ⟨_, _, _, rfl⟩ := solveFwd_inv hrun
  intro S hS
  obtain ⟨k, _, rfl⟩ := List.mem_map.1 hS
  refine traj_inv (fun x : (Fin d → ℝ) × Matrix (Fin d) (Fin d) ℝ => x.2.IsSymm) _ _ hs0 ?_ k
  rintro k ⟨m, s⟩ h
  simp only at h
  have hst : ∀ {S' A'}, S'.IsSymm → ((rhsN d).fun_st S' A' sigma).IsSymm :=
    fun hS' => symm_fun_st hS' hsig
  cases meth <;> simp only [fwdStep]
  · exact symm_add h (symm_smul (hst h) _)
  · exact symm_add h (symm_smul (symm_add (hst h) (hst (symm_add h (symm_smul (hst h) _)))) _)
  · exact symm_add h (symm_smul (hst (symm_add h (symm_smul (hst h) _))) _)
  · have h1 := hst (A' := asFun A k) h
    have h2 := hst (A' := (0.5 : ℝ) • (asFun A k + asFun A (k + 1))) (symm_add h (symm_smul h1 (0.5 * dt)))
    have h3 := hst (A' := (0.5 : ℝ) • (asFun A k + asFun A (k + 1))) (symm_add h (symm_smul h2 (0.5 * dt)))
    have h4 := hst (A' := asFun A (k + 1)) (symm_add h (symm_smul h3 dt))
    exact symm_add h (symm_smul (symm_smul (symm_add (symm_add h1 (symm_smul (symm_add h2 h3) _)) h4) _) _)

/-- **C19 (backward).** With symmetric gradients and jumps every `psi` returned by any of the four
backward methods is symmetric. -/
theorem C19_psi_symmetric (meth : Method) (dt : ℝ)
    (A : List (Matrix (Fin d) (Fin d) ℝ)) (em : List (Fin d → ℝ)) (es : List (Matrix (Fin d) (Fin d) ℝ))
    (om : List (Fin d → ℝ)) (os : List (Matrix (Fin d) (Fin d) ℝ)) (lam psi)
    (hrun : solveBwd meth (rhsN d) dt A em es om os = .ok (lam, psi))
    (hes : ∀ E ∈ es, E.IsSymm) (hos : ∀ E ∈ os, E.IsSymm) : ∀ P ∈ psi, P.IsSymm := by
  obtain ⟨_, _, rfl⟩ := solveBwd_inv hrun
  intro P hP
  obtain ⟨i, _, rfl⟩ := List.mem_map.1 hP
  have h0 : (0 : Matrix (Fin d) (Fin d) ℝ).IsSymm := Matrix.transpose_zero
  refine traj_inv (fun x : (Fin d → ℝ) × Matrix (Fin d) (Fin d) ℝ => x.2.IsSymm) _ _ h0 ?_ _
  rintro k ⟨l, p⟩ h
  simp only at h
  have hE : ∀ j, (asFun es j).IsSymm := asFun_prop _ h0 es hes
  have hO : ∀ j, (asFun os j).IsSymm := asFun_prop _ h0 os hos
  have hM : ∀ j i, ((0.5 : ℝ) • (asFun es i + asFun es j)).IsSymm :=
    fun j i => symm_smul (symm_add (hE i) (hE j)) _
  generalize em.length - 1 - k = t
  cases meth <;> simp only [bwdStep]
  · exact symm_add (symm_sub h (symm_smul (symm_fun_psi (hE _) h) _)) (hO _)
  · exact symm_add (symm_sub h (symm_smul (symm_add (symm_fun_psi (hE _) h)
      (symm_fun_psi (hE _) (symm_sub h (symm_smul (symm_fun_psi (hE _) h) _)))) _)) (hO _)
  · exact symm_add (symm_sub h (symm_smul (symm_fun_psi (hM _ _)
      (symm_sub h (symm_smul (symm_fun_psi (hE _) h) _))) _)) (hO _)
  · have h1 := symm_fun_psi (A := asFun A t) (hE t) h
    have h2 := symm_fun_psi (A := (0.5 : ℝ) • (asFun A (t - 1) + asFun A t)) (hM t (t - 1))
      (symm_sub h (symm_smul h1 (0.5 * dt)))
    have h3 := symm_fun_psi (A := (0.5 : ℝ) • (asFun A (t - 1) + asFun A t)) (hM t (t - 1))
      (symm_sub h (symm_smul h2 (0.5 * dt)))
    have h4 := symm_fun_psi (A := asFun A (t - 1)) (hE (t - 1)) (symm_sub h (symm_smul h3 dt))
    exact symm_add (symm_sub h (symm_smul (symm_smul
      (symm_add (symm_add h1 (symm_smul (symm_add h2 h3) _)) h4) _) _)) (hO _)

end

-- Non-vacuity: a non-symmetric linear parameter with symmetric `s0`, `Sigma`.
example : ∃ mt st, solveFwd .rk4 (rhsN 2) 0.1 [!![1, 2; 0, 1], !![0, 1; 3, 1]] [0, 0] 0 1 1 = .ok (mt, st) ∧
    (1 : Matrix (Fin 2) (Fin 2) ℝ).IsSymm ∧ ¬ (!![1, 2; 0, 1] : Matrix (Fin 2) (Fin 2) ℝ).IsSymm := by
  obtain ⟨mt, st, h, _⟩ := (C16_forward_shapes .rk4 (rhsN 2) 0.1 [!![1, 2; 0, 1], !![0, 1; 3, 1]]
    [0, 0] 0 1 1).1 (by simp)
  refine ⟨mt, st, h, Matrix.transpose_one, fun hs => ?_⟩
  have := congrFun (congrFun hs 0) 1
  simp at this

/-! ## C20 -/

section
variable {V W : Type} [AddCommGroup V] [Module ℝ V] [AddCommGroup W] [Module ℝ W]

theorem asFun_take_eq {X : Type} [Zero X] {l l' : List X} {n k : ℕ} (h : l.take n = l'.take n)
    (hk : k < n) : asFun l k = asFun l' k := by
  have := congrArg (fun L => L[k]?) h
  simp only [List.getElem?_take, hk, if_true] at this
  simp [asFun, List.getD_eq_getElem?_getD, this]

theorem asFun_drop_eq {X : Type} [Zero X] {l l' : List X} {n k : ℕ} (h : l.drop n = l'.drop n)
    (hk : n ≤ k) : asFun l k = asFun l' k := by
  have := congrArg (fun L => L[k - n]?) h
  simp only [List.getElem?_drop, Nat.add_sub_cancel' hk] at this
  simp [asFun, List.getD_eq_getElem?_getD, this]

/-- **C20 (forward).** Two runs, possibly of different lengths, whose parameters agree at the indices
`0..k` have the same moments at index `k` (all methods, 1-D and n-D). -/
theorem C20_forward_causal (meth : Method) (F : Rhs V W) (dt : ℝ) (A A' : List W) (b b' : List V)
    (m0 : V) (s0 sigma : W) (mt mt' : List V) (st st' : List W)
    (h : solveFwd meth F dt A b m0 s0 sigma = .ok (mt, st))
    (h' : solveFwd meth F dt A' b' m0 s0 sigma = .ok (mt', st'))
    (k : ℕ) (hA : A.take (k + 1) = A'.take (k + 1)) (hb : b.take (k + 1) = b'.take (k + 1))
    (hk : k < b.length) (hk' : k < b'.length) :
    mt[k]? = mt'[k]? ∧ st[k]? = st'[k]? := by
  obtain ⟨_, _, rfl, rfl⟩ := solveFwd_inv h
  obtain ⟨_, _, rfl, rfl⟩ := solveFwd_inv h'
  have key : ∀ j ≤ k, traj (m0, s0) (fwdStep meth F dt (asFun A) (asFun b) sigma) j
      = traj (m0, s0) (fwdStep meth F dt (asFun A') (asFun b') sigma) j := by
    intro j hj
    induction j with
    | zero => rfl
    | succ j ih =>
      simp only [traj]
      rw [ih (by omega)]
      have a1 := asFun_take_eq hA (k := j) (by omega)
      have a2 := asFun_take_eq hA (k := j + 1) (by omega)
      have b1 := asFun_take_eq hb (k := j) (by omega)
      have b2 := asFun_take_eq hb (k := j + 1) (by omega)
      unfold fwdStep
      rw [a1, a2, b1, b2]
  simp [hk, hk', key k le_rfl]

/-- **C20 (forward, Euler).** For Euler the moments at index `k` depend only on indices `< k`. -/
theorem C20_forward_causal_euler (F : Rhs V W) (dt : ℝ) (A A' : List W) (b b' : List V)
    (m0 : V) (s0 sigma : W) (mt mt' : List V) (st st' : List W)
    (h : solveFwd .euler F dt A b m0 s0 sigma = .ok (mt, st))
    (h' : solveFwd .euler F dt A' b' m0 s0 sigma = .ok (mt', st'))
    (k : ℕ) (hA : A.take k = A'.take k) (hb : b.take k = b'.take k)
    (hk : k < b.length) (hk' : k < b'.length) :
    mt[k]? = mt'[k]? ∧ st[k]? = st'[k]? := by
  obtain ⟨_, _, rfl, rfl⟩ := solveFwd_inv h
  obtain ⟨_, _, rfl, rfl⟩ := solveFwd_inv h'
  have key : ∀ j ≤ k, traj (m0, s0) (fwdStep .euler F dt (asFun A) (asFun b) sigma) j
      = traj (m0, s0) (fwdStep .euler F dt (asFun A') (asFun b') sigma) j := by
    intro j hj
    induction j with
    | zero => rfl
    | succ j ih =>
      simp only [traj]
      rw [ih (by omega)]
      have a1 := asFun_take_eq hA (k := j) (by omega)
      have b1 := asFun_take_eq hb (k := j) (by omega)
      simp only [fwdStep]
      rw [a1, b1]
  simp [hk, hk', key k le_rfl]

/-- **C20 (backward).** Two backward runs over the same number of points whose parameters, gradients
and jumps agree at the indices `k..` have the same multipliers at index `k`. -/
theorem C20_backward_causal (meth : Method) (F : Rhs V W) (dt : ℝ) (A A' : List W) (em em' : List V)
    (es es' : List W) (om om' : List V) (os os' : List W) (lam lam' : List V) (psi psi' : List W)
    (h : solveBwd meth F dt A em es om os = .ok (lam, psi))
    (h' : solveBwd meth F dt A' em' es' om' os' = .ok (lam', psi'))
    (hlen : em.length = em'.length) (k : ℕ)
    (hA : A.drop k = A'.drop k) (hem : em.drop k = em'.drop k) (hes : es.drop k = es'.drop k)
    (hom : om.drop k = om'.drop k) (hos : os.drop k = os'.drop k) :
    lam[k]? = lam'[k]? ∧ psi[k]? = psi'[k]? := by
  obtain ⟨_, rfl, rfl⟩ := solveBwd_inv h
  obtain ⟨_, rfl, rfl⟩ := solveBwd_inv h'
  by_cases hk : k < em.length
  · have key : ∀ j ≤ em.length - 1 - k,
        traj 0 (fun i => bwdStep meth F dt (asFun A) (asFun em) (asFun es) (asFun om) (asFun os)
          (em.length - 1 - i)) j
        = traj 0 (fun i => bwdStep meth F dt (asFun A') (asFun em') (asFun es') (asFun om') (asFun os')
          (em'.length - 1 - i)) j := by
      intro j hj
      induction j with
      | zero => rfl
      | succ j ih =>
        simp only [traj]
        rw [ih (by omega), ← hlen]
        have hh := @asFun_drop_eq
        have a1 := asFun_drop_eq hA (k := em.length - 1 - j) (by omega)
        have a2 := asFun_drop_eq hA (k := em.length - 1 - j - 1) (by omega)
        have b1 := asFun_drop_eq hem (k := em.length - 1 - j) (by omega)
        have b2 := asFun_drop_eq hem (k := em.length - 1 - j - 1) (by omega)
        have c1 := asFun_drop_eq hes (k := em.length - 1 - j) (by omega)
        have c2 := asFun_drop_eq hes (k := em.length - 1 - j - 1) (by omega)
        have d2 := asFun_drop_eq hom (k := em.length - 1 - j - 1) (by omega)
        have e2 := asFun_drop_eq hos (k := em.length - 1 - j - 1) (by omega)
        unfold bwdStep
        rw [a1, a2, b1, b2, c1, c2, d2, e2]
    have hk' : k < em'.length := by omega
    simp [hk, hk', key _ le_rfl]
    rw [← hlen]; exact ⟨rfl, rfl⟩
  · simp [hk, ← hlen]

end

-- Non-vacuity: two different series that agree up to index 1.
example : ([1, 2, 3] : List ℝ).take 2 = [1, 2, 7].take 2 ∧ ([1, 2, 3] : List ℝ) ≠ [1, 2, 7] := by
  constructor
  · rfl
  · intro h; simp at h

/-! ## C21 -/

section
variable {V W : Type} [AddCommGroup V] [Module ℝ V] [AddCommGroup W] [Module ℝ W]

theorem asFun_replicate {X : Type} [Zero X] {n k : ℕ} (x : X) (h : k < n) :
    asFun (List.replicate n x) k = x := by
  rw [asFun_eq (by simpa using h)]; simp

theorem smul_half_double {X : Type} [AddCommGroup X] [Module ℝ X] (x : X) :
    (0.5 : ℝ) • (x + x) = x := by
  have : (0.5 : ℝ) • (x + x) = (1 : ℝ) • x := by module
  rw [this, one_smul]

theorem traj_fst_inv (n : ℕ) {X Y : Type} (P : X → Prop) (x0 : X × Y) (g : ℕ → X × Y → X × Y)
    (h0 : P x0.1) (hg : ∀ k x, k + 1 < n → P x.1 → P (g k x).1) (k : ℕ) (hk : k < n) :
    P (traj x0 g k).1 := by
  induction k with
  | zero => exact h0
  | succ k ih => exact hg k _ hk (ih (by omega))

theorem traj_snd_inv (n : ℕ) {X Y : Type} (P : Y → Prop) (x0 : X × Y) (g : ℕ → X × Y → X × Y)
    (h0 : P x0.2) (hg : ∀ k x, k + 1 < n → P x.2 → P (g k x).2) (k : ℕ) (hk : k < n) :
    P (traj x0 g k).2 := by
  induction k with
  | zero => exact h0
  | succ k ih => exact hg k _ hk (ih (by omega))

theorem equilibrium_mean_generic (meth : Method) (F : Rhs V W) (dt : ℝ) (n : ℕ) (A : W) (b m0 : V)
    (s0 sigma : W) (hF : F.fun_mt m0 A b = 0) (mt : List V) (st : List W)
    (hrun : solveFwd meth F dt (List.replicate n A) (List.replicate n b) m0 s0 sigma = .ok (mt, st)) :
    mt = List.replicate n m0 := by
  obtain ⟨_, _, rfl, _⟩ := solveFwd_inv hrun
  simp only [List.length_replicate]
  rw [List.eq_replicate_iff]
  refine ⟨by simp, ?_⟩
  intro x hx
  obtain ⟨k, hk, rfl⟩ := List.mem_map.1 hx
  have hk := List.mem_range.1 hk
  refine traj_fst_inv n (· = m0) _ _ rfl ?_ k hk
  rintro k ⟨m, s⟩ hk (rfl : m = m0)
  have a1 := asFun_replicate A (by omega : k < n)
  have a2 := asFun_replicate A (by omega : k + 1 < n)
  have b1 := asFun_replicate b (by omega : k < n)
  have b2 := asFun_replicate b (by omega : k + 1 < n)
  cases meth <;>
    simp only [fwdStep, a1, a2, b1, b2, smul_half_double, hF, smul_zero, add_zero]

theorem equilibrium_var_generic (meth : Method) (hm : meth ≠ .rk2) (F : Rhs V W) (dt : ℝ) (n : ℕ)
    (A : W) (b : List V) (hb : b.length = n) (m0 : V)
    (s0 sigma : W) (hF : F.fun_st s0 A sigma = 0) (mt : List V) (st : List W)
    (hrun : solveFwd meth F dt (List.replicate n A) b m0 s0 sigma = .ok (mt, st)) :
    st = List.replicate n s0 := by
  obtain ⟨_, _, _, rfl⟩ := solveFwd_inv hrun
  rw [List.eq_replicate_iff]
  refine ⟨by simp [hb], ?_⟩
  intro x hx
  obtain ⟨k, hk, rfl⟩ := List.mem_map.1 hx
  have hk : k < n := by have := List.mem_range.1 hk; omega
  refine traj_snd_inv n (· = s0) _ _ rfl ?_ k hk
  rintro k ⟨m, s⟩ hk (rfl : s = s0)
  have a1 := asFun_replicate A (by omega : k < n)
  have a2 := asFun_replicate A (by omega : k + 1 < n)
  cases meth
  case rk2 => exact absurd rfl hm
  all_goals simp only [fwdStep, a1, a2, smul_half_double, hF, smul_zero, add_zero]

end

/-- **C21 (mean, n-D).** Constant parameters with `b = A m0` keep the mean at `m0`: all four methods. -/
theorem C21_mean_equilibrium_nD (d : ℕ) (meth : Method) (dt : ℝ) (n : ℕ)
    (A : Matrix (Fin d) (Fin d) ℝ) (b m0 : Fin d → ℝ) (s0 sigma : Matrix (Fin d) (Fin d) ℝ)
    (hb : A *ᵥ m0 = b) (mt st)
    (hrun : solveFwd meth (rhsN d) dt (List.replicate n A) (List.replicate n b) m0 s0 sigma = .ok (mt, st)) :
    mt = List.replicate n m0 :=
  equilibrium_mean_generic meth (rhsN d) dt n A b m0 s0 sigma (by simp [rhsN, hb]) mt st hrun

/-- **C21 (mean, 1-D).** -/
theorem C21_mean_equilibrium_1D (meth : Method) (dt : ℝ) (n : ℕ) (a b m0 s0 sigma : ℝ)
    (hb : a * m0 = b) (mt st)
    (hrun : solveFwd meth rhs1 dt (List.replicate n a) (List.replicate n b) m0 s0 sigma = .ok (mt, st)) :
    mt = List.replicate n m0 :=
  equilibrium_mean_generic meth rhs1 dt n a b m0 s0 sigma (by simp [rhs1, hb]) mt st hrun

/-- **C21 (covariance, n-D, partial).** Constant linear parameter with `A S0 + S0 A' = Sigma` keeps the
covariance at `S0`, for Euler, Heun and RK4.
Full statement: for all four methods. False for RK2, see `C21_rk2_violated`. -/
theorem C21_covariance_equilibrium_nD_partial (d : ℕ) (meth : Method) (hm : meth ≠ .rk2) (dt : ℝ)
    (n : ℕ) (A : Matrix (Fin d) (Fin d) ℝ) (b : List (Fin d → ℝ)) (hb : b.length = n) (m0 : Fin d → ℝ)
    (s0 sigma : Matrix (Fin d) (Fin d) ℝ) (hs : A * s0 + s0 * Aᵀ = sigma) (mt st)
    (hrun : solveFwd meth (rhsN d) dt (List.replicate n A) b m0 s0 sigma = .ok (mt, st)) :
    st = List.replicate n s0 :=
  equilibrium_var_generic meth hm (rhsN d) dt n A b hb m0 s0 sigma
    (by simp only [rhsN, ← hs]; abel) mt st hrun

/-- **C21 (variance, 1-D, partial).** -/
theorem C21_variance_equilibrium_1D_partial (meth : Method) (hm : meth ≠ .rk2) (dt : ℝ) (n : ℕ)
    (a : ℝ) (b : List ℝ) (hb : b.length = n) (m0 s0 sigma : ℝ) (hs : 2 * a * s0 = sigma) (mt st)
    (hrun : solveFwd meth rhs1 dt (List.replicate n a) b m0 s0 sigma = .ok (mt, st)) :
    st = List.replicate n s0 :=
  equilibrium_var_generic meth hm rhs1 dt n a b hb m0 s0 sigma (by simp [rhs1, hs]) mt st hrun

/-- **C21 is violated by RK2**: `a = 2`, `s0 = 1`, `Sigma = 4 = 2 a s0`, `dt = 1` gives the variances
`1, -3`: the stationary variance is left, and a negative variance is returned. -/
theorem C21_rk2_violated :
    ∃ mt : List ℝ, solveFwd .rk2 rhs1 1 [2, 2] [0, 0] 0 1 4 = .ok (mt, [1, -3]) := by
  refine ⟨[0, 0], ?_⟩
  rw [solveFwd_ok _ _ _ _ _ _ _ _ (by simp) (by simp [needA])]
  simp [List.range_succ, traj, fwdStep, rhs1, asFun]
  norm_num

-- Non-vacuity: an equilibrium with non-trivial values.
example : ∃ mt st, solveFwd .rk4 rhs1 0.1 (List.replicate 3 2) (List.replicate 3 6) 3 1 4 = .ok (mt, st) ∧
    (2 : ℝ) * 3 = 6 ∧ (2 : ℝ) * 2 * 1 = 4 := by
  obtain ⟨mt, st, h, _⟩ := (C16_forward_shapes .rk4 rhs1 0.1 (List.replicate 3 2) (List.replicate 3 6)
    3 1 4).1 (by simp)
  exact ⟨mt, st, h, by norm_num, by norm_num⟩

/-! ## C22 -/

section
variable {V W V' W' : Type} [AddCommGroup V] [Module ℝ V] [AddCommGroup W] [Module ℝ W]
  [AddCommGroup V'] [Module ℝ V'] [AddCommGroup W'] [Module ℝ W']

theorem asFun_map {X Y : Type} [AddCommGroup X] [Module ℝ X] [AddCommGroup Y] [Module ℝ Y]
    (φ : X →ₗ[ℝ] Y) (l : List X) (k : ℕ) : asFun (l.map φ) k = φ (asFun l k) := by
  by_cases hk : k < l.length
  · rw [asFun_eq (by simpa using hk), asFun_eq hk]; simp
  · simp [asFun, Nat.not_lt.1 hk]

/-- The sweeps commute with linear maps that commute with the right-hand sides. -/
theorem solveFwd_map (meth : Method) (F : Rhs V W) (F' : Rhs V' W') (φ : V →ₗ[ℝ] V') (ψ : W →ₗ[ℝ] W')
    (hm : ∀ m a b, F'.fun_mt (φ m) (ψ a) (φ b) = φ (F.fun_mt m a b))
    (hs : ∀ s a n, F'.fun_st (ψ s) (ψ a) (ψ n) = ψ (F.fun_st s a n))
    (dt : ℝ) (A : List W) (b : List V) (m0 : V) (s0 sigma : W) :
    solveFwd meth F' dt (A.map ψ) (b.map φ) (φ m0) (ψ s0) (ψ sigma)
      = (solveFwd meth F dt A b m0 s0 sigma).map (fun r => (r.1.map φ, r.2.map ψ)) := by
  by_cases hc : b.length = 0 ∨ A.length < needA meth b.length
  · rw [solveFwd_err meth F dt A b m0 s0 sigma hc, solveFwd_err meth F' dt _ _ _ _ _ (by simpa using hc)]
    rfl
  · have hb : 0 < b.length := by omega
    have ha : needA meth b.length ≤ A.length := by omega
    rw [solveFwd_ok meth F dt A b m0 s0 sigma hb ha,
      solveFwd_ok meth F' dt _ _ _ _ _ (by simpa using hb) (by simpa using ha)]
    have key : ∀ k, traj (φ m0, ψ s0) (fwdStep meth F' dt (asFun (A.map ψ)) (asFun (b.map φ)) (ψ sigma)) k
        = Prod.map φ ψ (traj (m0, s0) (fwdStep meth F dt (asFun A) (asFun b) sigma) k) := by
      intro k
      induction k with
      | zero => rfl
      | succ k ih =>
        simp only [traj, ih]
        cases meth <;>
          simp only [fwdStep, asFun_map, Prod.map, ← map_add, ← map_smul, hm, hs]
    simp [Except.map, key, Function.comp_def]

theorem solveBwd_map (meth : Method) (F : Rhs V W) (F' : Rhs V' W') (φ : V →ₗ[ℝ] V') (ψ : W →ₗ[ℝ] W')
    (hm : ∀ e a l, F'.fun_lam (φ e) (ψ a) (φ l) = φ (F.fun_lam e a l))
    (hs : ∀ e a p, F'.fun_psi (ψ e) (ψ a) (ψ p) = ψ (F.fun_psi e a p))
    (dt : ℝ) (A : List W) (em : List V) (es : List W) (om : List V) (os : List W) :
    solveBwd meth F' dt (A.map ψ) (em.map φ) (es.map ψ) (om.map φ) (os.map ψ)
      = (solveBwd meth F dt A em es om os).map (fun r => (r.1.map φ, r.2.map ψ)) := by
  by_cases hc : BwdShapes em.length A.length es.length om.length os.length
  · rw [solveBwd_ok meth F dt A em es om os hc, solveBwd_ok meth F' dt _ _ _ _ _ (by simpa using hc)]
    have key : ∀ k, traj 0 (fun i => bwdStep meth F' dt (asFun (A.map ψ)) (asFun (em.map φ))
          (asFun (es.map ψ)) (asFun (om.map φ)) (asFun (os.map ψ)) (em.length - 1 - i)) k
        = Prod.map φ ψ (traj 0 (fun i => bwdStep meth F dt (asFun A) (asFun em) (asFun es) (asFun om)
          (asFun os) (em.length - 1 - i)) k) := by
      intro k
      induction k with
      | zero => simp [traj, Prod.ext_iff]
      | succ k ih =>
        simp only [traj, ih]
        cases meth <;>
          simp only [bwdStep, asFun_map, Prod.map, ← map_add, ← map_smul, ← map_sub, hm, hs]
    simp [Except.map, key, Function.comp_def]
  · rw [solveBwd_err meth F dt A em es om os hc, solveBwd_err meth F' dt _ _ _ _ _ (by simpa using hc)]
    rfl

end

/-- A scalar as a vector of length one. -/
def toVec1 : ℝ →ₗ[ℝ] (Fin 1 → ℝ) where
  toFun x := fun _ => x
  map_add' _ _ := rfl
  map_smul' _ _ := rfl

/-- A scalar as a 1x1 matrix. -/
def toMat1 : ℝ →ₗ[ℝ] Matrix (Fin 1) (Fin 1) ℝ where
  toFun x := Matrix.of fun _ _ => x
  map_add' _ _ := rfl
  map_smul' _ _ := rfl

@[simp] theorem toVec1_apply (x : ℝ) (i : Fin 1) : toVec1 x i = x := rfl
@[simp] theorem toMat1_apply (x : ℝ) (i j : Fin 1) : toMat1 x i j = x := rfl

/-- **C22 (forward).** The n-D code on 1x1 data computes the 1-D result, for every method and input,
including the failing ones. -/
theorem C22_forward_1D_nD_agree (meth : Method) (dt : ℝ) (a b : List ℝ) (m0 s0 sigma : ℝ) :
    solveFwd meth (rhsN 1) dt (a.map toMat1) (b.map toVec1) (toVec1 m0) (toMat1 s0) (toMat1 sigma)
      = (solveFwd meth rhs1 dt a b m0 s0 sigma).map (fun r => (r.1.map toVec1, r.2.map toMat1)) := by
  apply solveFwd_map
  · intro m a b
    funext i
    simp [rhsN, rhs1, Matrix.mulVec, dotProduct]
  · intro s a n
    ext i j
    simp [rhsN, rhs1, Matrix.mul_apply]
    ring

/-- **C22 (backward).** -/
theorem C22_backward_1D_nD_agree (meth : Method) (dt : ℝ) (a em es om os : List ℝ) :
    solveBwd meth (rhsN 1) dt (a.map toMat1) (em.map toVec1) (es.map toMat1) (om.map toVec1)
        (os.map toMat1)
      = (solveBwd meth rhs1 dt a em es om os).map (fun r => (r.1.map toVec1, r.2.map toMat1)) := by
  apply solveBwd_map
  · intro e a l
    funext i
    simp [rhsN, rhs1, Matrix.vecMul, dotProduct]
  · intro e a p
    ext i j
    simp [rhsN, rhs1, Matrix.mul_apply]
    ring

-- The two embeddings are injective, so the agreement is an equality of numbers.
example (x y : ℝ) (h : toMat1 x = toMat1 y) : x = y := congrFun (congrFun h 0) 0
example (x y : ℝ) (h : toVec1 x = toVec1 y) : x = y := congrFun h 0

/-! ## C23 -/

/-- Entry-wise linear combination of two series. -/
def comb {X : Type} [AddCommGroup X] [Module ℝ X] (α β : ℝ) (l l' : List X) : List X :=
  List.zipWith (fun x y => α • x + β • y) l l'

section
variable {V W : Type} [AddCommGroup V] [Module ℝ V] [AddCommGroup W] [Module ℝ W]

theorem asFun_comb {X : Type} [AddCommGroup X] [Module ℝ X] (α β : ℝ) (l l' : List X)
    (h : l.length = l'.length) (k : ℕ) : asFun (comb α β l l') k = α • asFun l k + β • asFun l' k := by
  by_cases hk : k < l.length
  · rw [asFun_eq (by simp [comb]; omega), asFun_eq hk, asFun_eq (by omega)]
    simp [comb]
  · have e1 : asFun l k = 0 := by simp [asFun, Nat.not_lt.1 hk]
    have e2 : asFun l' k = 0 := by simp [asFun, ← h, Nat.not_lt.1 hk]
    have e3 : asFun (comb α β l l') k = 0 := by
      have : (comb α β l l').length ≤ k := by simp [comb]; omega
      simp [asFun, this]
    rw [e1, e2, e3]; simp

theorem comb_range {X : Type} [AddCommGroup X] [Module ℝ X] (α β : ℝ) (n : ℕ) (f g : ℕ → X) :
    comb α β ((List.range n).map f) ((List.range n).map g)
      = (List.range n).map fun k => α • f k + β • g k := by
  apply List.ext_getElem
  · simp [comb]
  · intro i h1 h2; simp [comb]

theorem superposition_mean_generic (meth : Method) (F : Rhs V W) (dt : ℝ) (A : List W)
    (hF : ∀ (α β : ℝ) m m' a b b', F.fun_mt (α • m + β • m') a (α • b + β • b')
        = α • F.fun_mt m a b + β • F.fun_mt m' a b')
    (b b' : List V) (hlen : b.length = b'.length) (m0 m0' : V) (s0 s0' s0'' sigma sigma' sigma'' : W)
    (α β : ℝ)
    (mt mt' mt'' : List V) (st st' st'' : List W)
    (h : solveFwd meth F dt A b m0 s0 sigma = .ok (mt, st))
    (h' : solveFwd meth F dt A b' m0' s0' sigma' = .ok (mt', st'))
    (h'' : solveFwd meth F dt A (comb α β b b') (α • m0 + β • m0') s0'' sigma'' = .ok (mt'', st'')) :
    mt'' = comb α β mt mt' := by
  obtain ⟨_, _, rfl, _⟩ := solveFwd_inv h
  obtain ⟨_, _, rfl, _⟩ := solveFwd_inv h'
  obtain ⟨_, _, rfl, _⟩ := solveFwd_inv h''
  have hl : (comb α β b b').length = b.length := by simp [comb]; omega
  rw [hl, ← hlen, comb_range]
  apply List.map_congr_left
  intro k _
  induction k with
  | zero => rfl
  | succ k ih =>
    simp only [traj]
    generalize traj (α • m0 + β • m0', s0'') _ k = x at ih ⊢
    generalize traj (m0, s0) _ k = y at ih ⊢
    generalize traj (m0', s0') _ k = z at ih ⊢
    have ih := ih (List.mem_range.2 (by have := List.mem_range.1 ‹_›; omega))
    have e : ∀ (γ : ℝ) (p p' q q' : V), (α • p + β • p') + γ • (α • q + β • q')
        = α • (p + γ • q) + β • (p' + γ • q') := by intros; module
    have e' : ∀ (p p' q q' : V), (α • p + β • p') + (α • q + β • q')
        = α • (p + q) + β • (p' + q') := by intros; module
    have e'' : ∀ (γ : ℝ) (p p' : V), γ • (α • p + β • p') = α • (γ • p) + β • (γ • p') := by
      intros; module
    cases meth <;> simp only [fwdStep, asFun_comb _ _ _ _ hlen, ih]
    · rw [hF, e]
    · rw [hF, e, hF, e', e]
    · rw [hF, e, e', e'', hF, e]
    · rw [hF, e, e', e'', hF, e, hF, e, hF, e', e'', e', e', e'', e]

theorem superposition_bwd_generic (meth : Method) (F : Rhs V W) (dt : ℝ) (A : List W)
    (hF : ∀ (α β : ℝ) e e' a l l', F.fun_lam (α • e + β • e') a (α • l + β • l')
        = α • F.fun_lam e a l + β • F.fun_lam e' a l')
    (hG : ∀ (α β : ℝ) e e' a l l', F.fun_psi (α • e + β • e') a (α • l + β • l')
        = α • F.fun_psi e a l + β • F.fun_psi e' a l')
    (em em' om om' : List V) (es es' os os' : List W)
    (h1 : em.length = em'.length) (h2 : es.length = es'.length) (h3 : om.length = om'.length)
    (h4 : os.length = os'.length) (α β : ℝ)
    (lam lam' lam'' : List V) (psi psi' psi'' : List W)
    (h : solveBwd meth F dt A em es om os = .ok (lam, psi))
    (h' : solveBwd meth F dt A em' es' om' os' = .ok (lam', psi'))
    (h'' : solveBwd meth F dt A (comb α β em em') (comb α β es es') (comb α β om om') (comb α β os os')
      = .ok (lam'', psi'')) :
    lam'' = comb α β lam lam' ∧ psi'' = comb α β psi psi' := by
  obtain ⟨_, rfl, rfl⟩ := solveBwd_inv h
  obtain ⟨_, rfl, rfl⟩ := solveBwd_inv h'
  obtain ⟨_, rfl, rfl⟩ := solveBwd_inv h''
  have hl : (comb α β em em').length = em.length := by simp [comb]; omega
  rw [hl, ← h1, comb_range, comb_range]
  have key : ∀ k, traj 0 (fun i => bwdStep meth F dt (asFun A) (asFun (comb α β em em'))
        (asFun (comb α β es es')) (asFun (comb α β om om')) (asFun (comb α β os os'))
        (em.length - 1 - i)) k
      = (α • (traj 0 (fun i => bwdStep meth F dt (asFun A) (asFun em) (asFun es) (asFun om)
          (asFun os) (em.length - 1 - i)) k) + β • (traj 0 (fun i => bwdStep meth F dt (asFun A)
          (asFun em') (asFun es') (asFun om') (asFun os') (em.length - 1 - i)) k)) := by
    intro k
    induction k with
    | zero => simp [traj]
    | succ k ih =>
      simp only [traj, ih]
      generalize traj 0 _ k = y
      generalize traj 0 _ k = z
      generalize em.length - 1 - k = t
      have e : ∀ {U : Type} [AddCommGroup U] [Module ℝ U] (γ : ℝ) (p p' q q' : U),
          (α • p + β • p') - γ • (α • q + β • q')
          = α • (p - γ • q) + β • (p' - γ • q') := by intros; module
      have e' : ∀ {U : Type} [AddCommGroup U] [Module ℝ U] (p p' q q' : U),
          (α • p + β • p') + (α • q + β • q')
          = α • (p + q) + β • (p' + q') := by intros; module
      have e'' : ∀ {U : Type} [AddCommGroup U] [Module ℝ U] (γ : ℝ) (p p' : U),
          γ • (α • p + β • p') = α • (γ • p) + β • (γ • p') := by
        intros; module
      ext : 1
      · cases meth <;> simp only [bwdStep, asFun_comb _ _ _ _ h1, asFun_comb _ _ _ _ h3,
          Prod.fst_add, Prod.smul_fst]
        · rw [hF, e, e']
        · rw [hF, e, hF, e', e, e']
        · rw [e', e'', hF, e, hF, e, e']
        · rw [e', e'', hF, e, hF, e, hF, e, hF, e', e'', e', e', e'', e, e']
      · cases meth <;> simp only [bwdStep, asFun_comb _ _ _ _ h2, asFun_comb _ _ _ _ h4,
          Prod.snd_add, Prod.smul_snd]
        · rw [hG, e, e']
        · rw [hG, e, hG, e', e, e']
        · rw [e', e'', hG, e, hG, e, e']
        · rw [e', e'', hG, e, hG, e, hG, e, hG, e', e'', e', e', e'', e, e']
  constructor <;> apply List.map_congr_left <;> intro i _ <;> rw [key] <;> simp

end

/-- **C23 (forward mean, n-D).** For fixed linear parameters the mean series is linear in `(m0, b)`:
the run for a linear combination of initial means and offset series is the linear combination of the runs
(initial covariances and noise play no role). -/
theorem C23_mean_superposition_nD (d : ℕ) (meth : Method) (dt : ℝ) (A : List (Matrix (Fin d) (Fin d) ℝ))
    (b b' : List (Fin d → ℝ)) (hlen : b.length = b'.length) (m0 m0' : Fin d → ℝ)
    (s0 s0' s0'' sigma sigma' sigma'' : Matrix (Fin d) (Fin d) ℝ) (α β : ℝ) (mt mt' mt'' st st' st'')
    (h : solveFwd meth (rhsN d) dt A b m0 s0 sigma = .ok (mt, st))
    (h' : solveFwd meth (rhsN d) dt A b' m0' s0' sigma' = .ok (mt', st'))
    (h'' : solveFwd meth (rhsN d) dt A (comb α β b b') (α • m0 + β • m0') s0'' sigma'' = .ok (mt'', st'')) :
    mt'' = comb α β mt mt' :=
  superposition_mean_generic meth (rhsN d) dt A
    (by intro α β m m' a b b'; simp only [rhsN, mulVec_add, mulVec_smul]; module)
    b b' hlen m0 m0' s0 s0' s0'' sigma sigma' sigma'' α β mt mt' mt'' st st' st'' h h' h''

/-- **C23 (forward mean, 1-D).** -/
theorem C23_mean_superposition_1D (meth : Method) (dt : ℝ) (A b b' : List ℝ) (hlen : b.length = b'.length)
    (m0 m0' s0 s0' s0'' sigma sigma' sigma'' α β : ℝ) (mt mt' mt'' st st' st'')
    (h : solveFwd meth rhs1 dt A b m0 s0 sigma = .ok (mt, st))
    (h' : solveFwd meth rhs1 dt A b' m0' s0' sigma' = .ok (mt', st'))
    (h'' : solveFwd meth rhs1 dt A (comb α β b b') (α * m0 + β * m0') s0'' sigma'' = .ok (mt'', st'')) :
    mt'' = comb α β mt mt' :=
  superposition_mean_generic meth rhs1 dt A
    (by intro α β m m' a b b'; simp only [rhs1, smul_eq_mul]; ring)
    b b' hlen m0 m0' s0 s0' s0'' sigma sigma' sigma'' α β mt mt' mt'' st st' st'' h h' h''

/-- **C23 (backward, n-D).** For fixed linear parameters both multiplier series are linear in the gradient
and jump inputs. -/
theorem C23_multiplier_superposition_nD (d : ℕ) (meth : Method) (dt : ℝ)
    (A : List (Matrix (Fin d) (Fin d) ℝ))
    (em em' om om' : List (Fin d → ℝ)) (es es' os os' : List (Matrix (Fin d) (Fin d) ℝ))
    (h1 : em.length = em'.length) (h2 : es.length = es'.length) (h3 : om.length = om'.length)
    (h4 : os.length = os'.length) (α β : ℝ) (lam lam' lam'' psi psi' psi'')
    (h : solveBwd meth (rhsN d) dt A em es om os = .ok (lam, psi))
    (h' : solveBwd meth (rhsN d) dt A em' es' om' os' = .ok (lam', psi'))
    (h'' : solveBwd meth (rhsN d) dt A (comb α β em em') (comb α β es es') (comb α β om om') (comb α β os os')
      = .ok (lam'', psi'')) :
    lam'' = comb α β lam lam' ∧ psi'' = comb α β psi psi' :=
  superposition_bwd_generic meth (rhsN d) dt A
    (by intro α β m m' a b b'; simp only [rhsN, add_vecMul, smul_vecMul]; module)
    (by intro α β m m' a b b'
        simp only [rhsN, Matrix.add_mul, Matrix.mul_add, Matrix.smul_mul, Matrix.mul_smul]; module)
    em em' om om' es es' os os' h1 h2 h3 h4 α β lam lam' lam'' psi psi' psi'' h h' h''

/-- **C23 (backward, 1-D).** -/
theorem C23_multiplier_superposition_1D (meth : Method) (dt : ℝ)
    (A em em' om om' es es' os os' : List ℝ)
    (h1 : em.length = em'.length) (h2 : es.length = es'.length) (h3 : om.length = om'.length)
    (h4 : os.length = os'.length) (α β : ℝ) (lam lam' lam'' psi psi' psi'')
    (h : solveBwd meth rhs1 dt A em es om os = .ok (lam, psi))
    (h' : solveBwd meth rhs1 dt A em' es' om' os' = .ok (lam', psi'))
    (h'' : solveBwd meth rhs1 dt A (comb α β em em') (comb α β es es') (comb α β om om') (comb α β os os')
      = .ok (lam'', psi'')) :
    lam'' = comb α β lam lam' ∧ psi'' = comb α β psi psi' :=
  superposition_bwd_generic meth rhs1 dt A
    (by intro α β m m' a b b'; simp only [rhs1, smul_eq_mul]; ring)
    (by intro α β m m' a b b'; simp only [rhs1, smul_eq_mul]; ring)
    em em' om om' es es' os os' h1 h2 h3 h4 α β lam lam' lam'' psi psi' psi'' h h' h''

-- Non-vacuity: the three runs exist.
example : (∃ r, solveFwd .rk4 rhs1 0.1 [1, 2] [3, 4] 1 1 1 = .ok r) ∧
    (∃ r, solveFwd .rk4 rhs1 0.1 [1, 2] [5, 6] 2 1 1 = .ok r) ∧
    (∃ r, solveFwd .rk4 rhs1 0.1 [1, 2] (comb 2 3 [3, 4] [5, 6]) (2 * 1 + 3 * 2) 1 1 = .ok r) := by
  refine ⟨?_, ?_, ?_⟩
  · exact ⟨_, solveFwd_ok _ _ _ _ _ _ _ _ (by simp) (by simp [needA])⟩
  · exact ⟨_, solveFwd_ok _ _ _ _ _ _ _ _ (by simp) (by simp [needA])⟩
  · exact ⟨_, solveFwd_ok _ _ _ _ _ _ _ _ (by simp [comb]) (by simp [needA, comb])⟩

end VGPA
