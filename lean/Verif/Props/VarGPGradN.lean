import Verif.Lemmas.Stein
import Verif.Props.VarGPGrad1

/-!
# C61 in `d` dimensions: the blocks of `VarGP.gradient` for the two Lorenz models
-/

namespace VGPA

open Matrix ProbabilityTheory MeasureTheory WithLp

variable {n k d : ℕ}

/-- A `VarGP` object with a `d` dimensional likelihood: `k` observations at distinct grid points, the identity as observation
operator and a positive definite observation noise; the prior term has a value. -/
structure VgpNOk (o : VarGP (Fin d → ℝ) (Matrix (Fin d) (Fin d) ℝ)) (n k : ℕ) (y : Fin k → Fin d → ℝ) (t : Fin k → Fin n)
    (R : Matrix (Fin d) (Fin d) ℝ) : Prop where
  pos : 0 < n
  dim : o.dim_n = n
  like : o.likelihood = (⟨List.ofFn y, List.ofFn fun j => (t j : ℕ), R, 1⟩ : LikeN d).toIf
  noise : R.PosDef
  inj : Function.Injective t
  prior : ∃ E0, o.kl0 o.m0 o.s0 = .ok E0
  obs : o.obs_t = List.ofFn fun j => (t j : ℕ)

namespace Spec

/-- The claim of C61 in `d` dimensions, for parameters `x = (a, b)` whose forward moments are `m`, `s`: the evaluation
succeeds, `arg_out` shows these moments and multipliers `lam`, `psi`, and at every index with a positive semidefinite
covariance the blocks are `dt (Da - lam mᵀ - 2 psi s)` and `dt (Db + lam)`. Here `Da`, `Db` are the partial derivatives of
`E[(f - g)ᵀ P (f - g)] / 2`, where `g(x) = -A x + b` and `P` is the inverse noise matrix. -/
def GradientAssembledN (o : VarGP (Fin d → ℝ) (Matrix (Fin d) (Fin d) ℝ)) (f : (Fin d → ℝ) → Fin d → ℝ)
    (a : Fin n → Matrix (Fin d) (Fin d) ℝ) (b : Fin n → Fin d → ℝ) (m : Fin n → Fin d → ℝ)
    (s : Fin n → Matrix (Fin d) (Fin d) ℝ) : Prop :=
  ∃ (lam gB : Fin n → Fin d → ℝ) (psi gA : Fin n → Matrix (Fin d) (Fin d) ℝ) (c : VgpCache _ _) (o' : VarGP _ _),
    o.gradient (shapeN d) (ravel3 (List.ofFn a) ++ ravel2 (List.ofFn b)) true
      = (.ok (ravel3 (List.ofFn gA) ++ ravel2 (List.ofFn gB)), o')
    ∧ o'.argOut = (o.m0, o.s0, some c)
    ∧ c.mt = List.ofFn m ∧ c.st = List.ofFn s ∧ c.lamt = List.ofFn lam ∧ c.psit = List.ofFn psi
    ∧ ∀ i, (s i).PosSemidef → ∃ (Da : Matrix (Fin d) (Fin d) ℝ) (Db : Fin d → ℝ),
        (∀ (U : Matrix (Fin d) (Fin d) ℝ) (v : Fin d → ℝ),
          HasDerivAt (fun ε : ℝ => 1 / 2 * weightedMismatch f o.model.inverse_sigma (a i + ε • U) (b i + ε • v) (m i) (s i))
            ((∑ p, ∑ q, Da p q * U p q) + ∑ p, Db p * v p) 0)
        ∧ gA i = o.dt • (Da - vecMulVec (lam i) (m i) - (2 : ℝ) • (psi i * s i))
        ∧ gB i = o.dt • (Db + lam i)

end Spec

theorem vgpN_eval (hd : d ≠ 1) {o : VarGP (Fin d → ℝ) (Matrix (Fin d) (Fin d) ℝ)} {y : Fin k → Fin d → ℝ}
    {t : Fin k → Fin n} {R : Matrix (Fin d) (Fin d) ℝ} (ho : VgpNOk o n k y t R)
    (a : Fin n → Matrix (Fin d) (Fin d) ℝ) (b m : Fin n → Fin d → ℝ) (s : Fin n → Matrix (Fin d) (Fin d) ℝ)
    (hfwd : solveFwd o.fwd_ode.solver (rhsN d) o.fwd_ode.dt (List.ofFn a) (List.ofFn b) o.m0 o.s0 o.model.sigma
      = .ok (List.ofFn m, List.ofFn s))
    (E : ℝ) (ef dm : Fin n → Fin d → ℝ) (edf ds : Fin n → Matrix (Fin d) (Fin d) ℝ)
    (he : o.model.energy (List.ofFn a) (List.ofFn b) (List.ofFn m) (List.ofFn s) o.obs_t
      = .ok ⟨E, List.ofFn ef, List.ofFn edf, List.ofFn dm, List.ofFn ds⟩) :
    ∃ (F : ℝ) (lam : Fin n → Fin d → ℝ) (psi : Fin n → Matrix (Fin d) (Fin d) ℝ),
      o.eval (shapeN d) (ravel3 (List.ofFn a) ++ ravel2 (List.ofFn b)) = .ok (F,
        ⟨List.ofFn m, List.ofFn s, List.ofFn ef, List.ofFn edf, List.ofFn lam, List.ofFn psi⟩) := by
  obtain ⟨E0, hE0⟩ := ho.prior
  obtain ⟨lo, om, os, g1, g2, _⟩ := C54_values ho.noise y t ho.inj m
  have hlo : (⟨List.ofFn y, List.ofFn fun j => (t j : ℕ), R, 1⟩ : LikeN d) = lo := by
    have : LikeN.init (List.ofFn y) (List.ofFn fun j => (t j : ℕ)) R (some 1)
      = .ok (⟨List.ofFn y, List.ofFn fun j => (t j : ℕ), R, 1⟩ : LikeN d) := rfl
    rw [this] at g1
    injection g1
  have hk : k ≤ n := by simpa using Fintype.card_le_of_injective t ho.inj
  have hg := likeN_gauss_eq ho.noise y t hk m s
  obtain ⟨lt, pt, h4, hl, hps, _⟩ := (C16_backward_shapes o.bwd_ode.solver (rhsN d) o.bwd_ode.dt (List.ofFn a)
    (List.ofFn dm) (List.ofFn ds) (List.ofFn om) (List.ofFn os)).1 (Or.inr (by simp))
  obtain ⟨lam, rfl⟩ := list_eq_ofFn (hl.trans (List.length_ofFn))
  obtain ⟨psi, rfl⟩ := list_eq_ofFn (hps.trans (List.length_ofFn))
  suffices h : ∃ F, o.eval (shapeN d) (ravel3 (List.ofFn a) ++ ravel2 (List.ofFn b)) = .ok (F,
      ⟨List.ofFn m, List.ofFn s, List.ofFn ef, List.ofFn edf, List.ofFn lam, List.ofFn psi⟩) from
    h.elim fun F h => ⟨F, lam, psi, h⟩
  unfold VarGP.eval
  rw [ho.dim, ho.like, hE0]
  have hu := (C58_pack_unpack_nd hd a b).2.1
  have hr : (shapeN d).rhs = rhsN d := rfl
  rw [← hlo] at g2
  simp only [hu, hr, bind, Except.bind, hfwd, LikeN.toIf, hg, he, g2, pure, Except.pure, h4]
  exact ⟨_, rfl⟩

theorem vgpN_gradient (hd : d ≠ 1) {o : VarGP (Fin d → ℝ) (Matrix (Fin d) (Fin d) ℝ)} {y : Fin k → Fin d → ℝ}
    {t : Fin k → Fin n} {R : Matrix (Fin d) (Fin d) ℝ} (ho : VgpNOk o n k y t R)
    (a : Fin n → Matrix (Fin d) (Fin d) ℝ) (b m : Fin n → Fin d → ℝ) (s : Fin n → Matrix (Fin d) (Fin d) ℝ)
    (hfwd : solveFwd o.fwd_ode.solver (rhsN d) o.fwd_ode.dt (List.ofFn a) (List.ofFn b) o.m0 o.s0 o.model.sigma
      = .ok (List.ofFn m, List.ofFn s))
    (E : ℝ) (ef dm : Fin n → Fin d → ℝ) (edf ds : Fin n → Matrix (Fin d) (Fin d) ℝ)
    (he : o.model.energy (List.ofFn a) (List.ofFn b) (List.ofFn m) (List.ofFn s) o.obs_t
      = .ok ⟨E, List.ofFn ef, List.ofFn edf, List.ofFn dm, List.ofFn ds⟩) :
    ∃ (lam : Fin n → Fin d → ℝ) (psi : Fin n → Matrix (Fin d) (Fin d) ℝ) (c : VgpCache _ _) (o' : VarGP _ _),
      o.gradient (shapeN d) (ravel3 (List.ofFn a) ++ ravel2 (List.ofFn b)) true = (.ok
        (ravel3 (List.ofFn fun i => o.dt • (o.model.inverse_sigma * (edf i + a i) * s i
            - vecMulVec (o.model.inverse_sigma *ᵥ (-ef i - a i *ᵥ m i + b i)) (m i)
            - vecMulVec (lam i) (m i) - (2 : ℝ) • (psi i * s i)))
          ++ ravel2 (List.ofFn fun i => o.dt • (o.model.inverse_sigma *ᵥ (-ef i - a i *ᵥ m i + b i) + lam i))), o')
      ∧ o'.argOut = (o.m0, o.s0, some c)
      ∧ c.mt = List.ofFn m ∧ c.st = List.ofFn s ∧ c.lamt = List.ofFn lam ∧ c.psit = List.ofFn psi := by
  obtain ⟨F, lam, psi, hev⟩ := vgpN_eval hd ho a b m s hfwd E ef dm edf ds he
  refine ⟨lam, psi, ⟨List.ofFn m, List.ofFn s, List.ofFn ef, List.ofFn edf, List.ofFn lam, List.ofFn psi⟩,
    { o with cache := some _ }, ?_, rfl, rfl, rfl, rfl, rfl⟩
  unfold VarGP.gradient VarGP.freeEnergy
  rw [hev]
  simp only [if_true]
  congr 1
  have h2 : (2.0 : ℝ) = 2 := by norm_num
  refine (gradBody_ofFn (shapeN d) _ (ravel3 (List.ofFn a) ++ ravel2 (List.ofFn b)) a b m ef lam s edf psi
    (by exact ho.dim) rfl (C58_pack_unpack_nd hd a b).2.2).trans ?_
  simp only [shapeN, h2]

theorem gradientAssembledN_of (hd : d ≠ 1) {o : VarGP (Fin d → ℝ) (Matrix (Fin d) (Fin d) ℝ)} {y : Fin k → Fin d → ℝ}
    {t : Fin k → Fin n} {R : Matrix (Fin d) (Fin d) ℝ} (ho : VgpNOk o n k y t R) {f : (Fin d → ℝ) → Fin d → ℝ}
    (hf : Spec.QuadDrift f) (hP : o.model.inverse_sigma.IsSymm)
    (a : Fin n → Matrix (Fin d) (Fin d) ℝ) (b m : Fin n → Fin d → ℝ) (s : Fin n → Matrix (Fin d) (Fin d) ℝ)
    (hfwd : solveFwd o.fwd_ode.solver (rhsN d) o.fwd_ode.dt (List.ofFn a) (List.ofFn b) o.m0 o.s0 o.model.sigma
      = .ok (List.ofFn m, List.ofFn s))
    (E : ℝ) (ef dm : Fin n → Fin d → ℝ) (edf ds : Fin n → Matrix (Fin d) (Fin d) ℝ)
    (he : o.model.energy (List.ofFn a) (List.ofFn b) (List.ofFn m) (List.ofFn s) o.obs_t
      = .ok ⟨E, List.ofFn ef, List.ofFn edf, List.ofFn dm, List.ofFn ds⟩)
    (hef : ∀ i, (s i).PosSemidef → ef i = fun p => Spec.mvE (m i) (s i) fun x => f x p)
    (hedf : ∀ i, (s i).PosSemidef → edf i = Matrix.of fun p q => Spec.mvE (m i) (s i) fun x => Spec.jac f x p q) :
    Spec.GradientAssembledN o f a b m s := by
  obtain ⟨lam, psi, c, o', h1, h2, h3, h4, h5, h6⟩ := vgpN_gradient hd ho a b m s hfwd E ef dm edf ds he
  refine ⟨lam, _, psi, _, c, o', h1, h2, h3, h4, h5, h6, fun i hi => ⟨_, _, fun U v => ?_, rfl, rfl⟩⟩
  rw [hef i hi, hedf i hi]
  exact weightedMismatch_deriv hf hP (a i) (b i) (m i) hi U v

theorem l63_quadDrift (θ : Fin 3 → ℝ) : Spec.QuadDrift (Spec.l63Field θ) := by
  refine ⟨l63α, 0, fun _ => ![1, 0, 0], l63W, fun i => l63L θ 0 i, fun x i => ?_⟩
  have h := l63_mismatch_quad θ 0 0 i (toLp 2 x)
  simpa [lin] using h

theorem l96_quadDrift [NeZero d] (F : ℝ) : Spec.QuadDrift (Spec.l96Field (d := d) F) := by
  refine ⟨1, fun _ => F, fun i => Pi.single (i + 1) 1 - Pi.single (i - 2) 1, fun i => Pi.single (i - 1) 1,
    fun i => -Pi.single i 1, fun x i => ?_⟩
  have h1 : ∀ u : Fin d → ℝ, ∑ q, u q * x q = lin u (toLp 2 x) := fun _ => rfl
  simp only [h1, lin_sub, lin_neg, lin_single, Spec.l96Field, Pi.one_apply]
  ring

/-- C61 for `Lorenz63`: every choice of parameters, every integrator. -/
theorem C61_lorenz63 {G : Type} (p : L63 G) (o : VarGP (Fin 3 → ℝ) (Matrix (Fin 3) (Fin 3) ℝ)) (y : Fin k → Fin 3 → ℝ)
    (t : Fin k → Fin n) (R : Matrix (Fin 3) (Fin 3) ℝ) (ho : VgpNOk o n k y t R) (hmodel : o.model = p.sde)
    (hσ : p.sigma.PosDef) (hinv : p.sig_inv = p.sigma⁻¹) (dt : ℝ) (hg : Spec.HasGrid p.base n dt) (ht : StrictMono t)
    (a : Fin n → Matrix (Fin 3) (Fin 3) ℝ) (b : Fin n → Fin 3 → ℝ) :
    ∃ (m : Fin n → Fin 3 → ℝ) (s : Fin n → Matrix (Fin 3) (Fin 3) ℝ),
      solveFwd o.fwd_ode.solver (rhsN 3) o.fwd_ode.dt (List.ofFn a) (List.ofFn b) o.m0 o.s0 o.model.sigma
        = .ok (List.ofFn m, List.ofFn s)
      ∧ Spec.GradientAssembledN o (Spec.l63Field p.theta) a b m s := by
  have hp := ho.pos
  obtain ⟨mt, st, h1, hm, hs, _⟩ := (C16_forward_shapes o.fwd_ode.solver (rhsN 3) o.fwd_ode.dt (List.ofFn a) (List.ofFn b)
    o.m0 o.s0 o.model.sigma).1 ⟨by simpa using hp, Or.inl (by simp)⟩
  obtain ⟨m, rfl⟩ := list_eq_ofFn (hm.trans (List.length_ofFn))
  obtain ⟨s, rfl⟩ := list_eq_ofFn (hs.trans (List.length_ofFn))
  have hobs : Spec.ObsSorted (some o.obs_t) := by
    intro l hl
    cases hl
    rw [ho.obs, List.pairwise_ofFn]
    intro i j hij
    exact (ht hij).le
  refine ⟨m, s, h1, ?_⟩
  obtain ⟨E, dm, ds, he⟩ : ∃ E dm ds, o.model.energy (List.ofFn a) (List.ofFn b) (List.ofFn m) (List.ofFn s) o.obs_t
      = .ok ⟨E, List.ofFn fun t => L63.avgDrift p.theta (m t) (s t), List.ofFn fun t => L63.avgJac p.theta (m t),
          List.ofFn dm, List.ofFn ds⟩ := by
    rw [hmodel]
    simp only [L63.sde, l63_energy_eq p a b m s (some o.obs_t) dt hg hobs, bind, Except.bind]
    exact ⟨_, _, _, rfl⟩
  have hP : o.model.inverse_sigma.IsSymm := by
    rw [hmodel]
    change p.sig_inv.IsSymm
    rw [hinv]
    have := hσ.inv.isHermitian
    rwa [Matrix.IsHermitian, Matrix.conjTranspose_eq_transpose_of_trivial] at this
  refine gradientAssembledN_of (by norm_num) ho (l63_quadDrift _) hP a b m s h1 _ _ _ _ _ he (fun i hi => ?_) (fun i hi => ?_)
  · funext q; exact l63_avgDrift_eq _ _ _ hi q
  · ext q r; exact l63_avgJac_eq _ _ _ hi q r

/-- C61 for `Lorenz96`: all parameters for which the covariances of the forward sweep are positive definite (the Cholesky
factorisation in `energy` needs this), every integrator, `4 ≤ d`. -/
theorem C61_lorenz96 {G : Type} [NeZero d] (hd : 4 ≤ d) (p : L96 G d) (o : VarGP (Fin d → ℝ) (Matrix (Fin d) (Fin d) ℝ))
    (y : Fin k → Fin d → ℝ) (t : Fin k → Fin n) (R : Matrix (Fin d) (Fin d) ℝ) (ho : VgpNOk o n k y t R)
    (hmodel : o.model = p.sde) (hσ : p.sigma.PosDef) (hinv : p.sig_inv = p.sigma⁻¹) (dt : ℝ)
    (hg : Spec.HasGrid p.base n dt) (ht : StrictMono t)
    (a : Fin n → Matrix (Fin d) (Fin d) ℝ) (b m : Fin n → Fin d → ℝ) (s : Fin n → Matrix (Fin d) (Fin d) ℝ)
    (hfwd : solveFwd o.fwd_ode.solver (rhsN d) o.fwd_ode.dt (List.ofFn a) (List.ofFn b) o.m0 o.s0 o.model.sigma
      = .ok (List.ofFn m, List.ofFn s)) (hs : ∀ i, (s i).PosDef) :
    Spec.GradientAssembledN o (Spec.l96Field p.theta) a b m s := by
  have hobs : Spec.ObsSorted (some o.obs_t) := by
    intro l hl
    cases hl
    rw [ho.obs, List.pairwise_ofFn]
    intro i j hij
    exact (ht hij).le
  obtain ⟨E, dm, ds, he⟩ : ∃ E dm ds, o.model.energy (List.ofFn a) (List.ofFn b) (List.ofFn m) (List.ofFn s) o.obs_t
      = .ok ⟨E, List.ofFn fun t => e96Drift p.theta (m t) (s t), List.ofFn fun t => e96DriftDx (m t),
          List.ofFn dm, List.ofFn ds⟩ := by
    rw [hmodel]
    simp only [L96.sde, l96_energy_eq (by omega) p a b m s (some o.obs_t) dt hg hobs hs, bind, Except.bind]
    exact ⟨_, _, _, rfl⟩
  have hP : o.model.inverse_sigma.IsSymm := by
    rw [hmodel]
    change p.sig_inv.IsSymm
    rw [hinv]
    have := hσ.inv.isHermitian
    rwa [Matrix.IsHermitian, Matrix.conjTranspose_eq_transpose_of_trivial] at this
  refine gradientAssembledN_of (by omega) ho (l96_quadDrift _) hP a b m s hfwd _ _ _ _ _ he (fun i hi => ?_) (fun i hi => ?_)
  · funext q; exact l96_avgDrift_eq _ _ _ hi q
  · ext q r; exact l96_avgJac_eq hd _ _ _ hi q r

/-- Non-vacuity of both: `n = 2` grid points, one observation at the second, unit noise matrices, zero parameters. -/
noncomputable def vgpObjN (d : ℕ) (M : SdeModel (Fin d → ℝ) (Matrix (Fin d) (Fin d) ℝ)) (meth : Method) :
    VarGP (Fin d → ℝ) (Matrix (Fin d) (Fin d) ℝ) where
  model := M
  fwd_ode := ⟨1 / 2, "", meth⟩
  bwd_ode := ⟨1 / 2, "", meth⟩
  likelihood := (⟨List.ofFn ![fun _ => 3], List.ofFn fun j : Fin 1 => ((![1] : Fin 1 → Fin 2) j : ℕ), 1, 1⟩ : LikeN d).toIf
  kl0 := fun _ _ => .ok 0
  obs_y := [fun _ => 3]
  obs_t := List.ofFn fun j : Fin 1 => ((![1] : Fin 1 → Fin 2) j : ℕ)
  dt := 1 / 2
  dim_n := 2
  m0 := fun _ => 1
  s0 := 1
  cache := none

theorem vgpObjN_ok (M : SdeModel (Fin d → ℝ) (Matrix (Fin d) (Fin d) ℝ)) (meth : Method) :
    VgpNOk (vgpObjN d M meth) 2 1 ![fun _ => 3] ![1] 1 :=
  ⟨by norm_num, rfl, rfl, Matrix.PosDef.one, by decide, ⟨0, rfl⟩, rfl⟩

noncomputable def vgpL63 : L63 ℕ where
  base := { xt := none, tk := some [0, 1 / 2], single_dimension := false, rng := 0 }
  sigma := 1
  theta := ![10, 28, 8]
  sig_inv := 1

example (meth : Method) (a : Fin 2 → Matrix (Fin 3) (Fin 3) ℝ) (b : Fin 2 → Fin 3 → ℝ) :=
  C61_lorenz63 (k := 1) vgpL63 _ _ _ _ (vgpObjN_ok _ meth) rfl Matrix.PosDef.one
    (by simp [vgpL63]) (1 / 2) ⟨[0, 1 / 2], rfl, rfl, by norm_num [vgpL63, Proc.timeStep, idx, bind, Except.bind, pure, Except.pure, abs_of_pos]⟩
    (by decide) a b

example : ∃ (m : Fin 2 → Fin 4 → ℝ) (s : Fin 2 → Matrix (Fin 4) (Fin 4) ℝ), solveFwd .euler (rhsN 4) (1 / 2)
      (List.ofFn fun _ : Fin 2 => (0 : Matrix (Fin 4) (Fin 4) ℝ)) (List.ofFn fun _ : Fin 2 => (0 : Fin 4 → ℝ)) (fun _ => 1) 1 1
      = .ok (List.ofFn m, List.ofFn s) ∧ ∀ i : Fin 2, (s i).PosDef := by
  refine ⟨fun _ _ => 1, ![1, 1 + (1 / 2 : ℝ) • 1], ?_, fun i => ?_⟩
  · simp [solveFwd, Euler.solveFwd, fwdSweep, setIdx, idx, bind, Except.bind, pure, Except.pure, rhsN]
  · fin_cases i
    · exact Matrix.PosDef.one
    · exact Matrix.PosDef.one.add (Matrix.PosDef.one.smul (by norm_num))

end VGPA
