import Verif.Props.VarGP
import Verif.Props.Energy1
import Verif.Props.Like1
import Verif.Props.Prior
import Verif.Props.OdeBasic
import Verif.Props.Lorenz63

/-!
# C59, C61 for the one dimensional models
-/

namespace VGPA

variable {n k : ℕ}

theorem list_eq_ofFn {α : Type} {l : List α} (h : l.length = n) : ∃ f : Fin n → α, l = List.ofFn f := by
  subst h
  exact ⟨fun i => l[i], by apply List.ext_getElem <;> simp⟩

/-- `gradient` on cached arrays of the right length. -/
theorem gradBody_ofFn {V W : Type} [AddCommGroup V] [Module ℝ V] [AddCommGroup W] [Module ℝ W] (sh : Shape V W)
    (o : VarGP V W) (x : List ℝ) (a : Fin n → W) (b m ef lam : Fin n → V) (s edf psi : Fin n → W) (hdim : o.dim_n = n)
    (hc : o.cache = some ⟨List.ofFn m, List.ofFn s, List.ofFn ef, List.ofFn edf, List.ofFn lam, List.ofFn psi⟩)
    (hu : sh.unpackG n x = .ok (List.ofFn a, List.ofFn b)) :
    o.gradBody sh x = .ok (
      sh.ravelA (List.ofFn fun i => o.dt • sh.grad_at (sh.dEsde_da o.model.inverse_sigma (a i) (m i) (s i) (edf i)
        (sh.dEsde_db o.model.inverse_sigma (ef i) (m i) (a i) (b i))) (lam i) (m i) (psi i) (s i))
      ++ sh.ravelB (List.ofFn fun i => o.dt • (sh.dEsde_db o.model.inverse_sigma (ef i) (m i) (a i) (b i) + lam i))) := by
  unfold VarGP.gradBody
  rw [hdim, hu, hc]
  simp only [bind, Except.bind]
  rw [range_mapM_ofFn _ (fun i => (sh.grad_at (sh.dEsde_da o.model.inverse_sigma (a i) (m i) (s i) (edf i)
        (sh.dEsde_db o.model.inverse_sigma (ef i) (m i) (a i) (b i))) (lam i) (m i) (psi i) (s i),
      sh.dEsde_db o.model.inverse_sigma (ef i) (m i) (a i) (b i) + lam i))]
  · simp only [List.map_ofFn, Function.comp_def]
    rfl
  · intro i
    unfold VarGP.gradRow
    simp only [idx_ofFn, bind, Except.bind]
    rfl

/-- What the two one dimensional processes have in common: `energy` accepts equally long arrays, and returns the averages
`ef`, `edf` of the drift and of its slope. -/
def EnergyOk1 (M : SdeModel ℝ ℝ) (n : ℕ) (obs : List ℕ) (ef edf : ℝ → ℝ → ℝ) : Prop :=
  ∀ a b m s : Fin n → ℝ, ∃ (E : ℝ) (dm ds : Fin n → ℝ),
    M.energy (List.ofFn a) (List.ofFn b) (List.ofFn m) (List.ofFn s) obs
      = .ok ⟨E, List.ofFn fun i => ef (m i) (s i), List.ofFn fun i => edf (m i) (s i), List.ofFn dm, List.ofFn ds⟩

/-- A one dimensional variational object on `n` grid points with `k` observations at distinct grid points. -/
structure Vgp1Ok (o : VarGP ℝ ℝ) (n k : ℕ) (y : Fin k → ℝ) (t : Fin k → Fin n) (R H : ℝ) (p : Prior1) : Prop where
  pos : 0 < n
  dim : o.dim_n = n
  like : o.likelihood = (⟨List.ofFn y, List.ofFn fun j => (t j : ℕ), R, H⟩ : Like1).toIf
  inj : Function.Injective t
  prior : o.kl0 = fun m s => .ok (p.gauss m s)
  obs : o.obs_t = List.ofFn fun j => (t j : ℕ)

theorem vgp1_eval {o : VarGP ℝ ℝ} {y : Fin k → ℝ} {t : Fin k → Fin n} {R H : ℝ} {p : Prior1}
    (ho : Vgp1Ok o n k y t R H p) {ef edf : ℝ → ℝ → ℝ} (he : EnergyOk1 o.model n o.obs_t ef edf) (a b : Fin n → ℝ) :
    ∃ (F : ℝ) (m s lam psi : Fin n → ℝ), o.eval shape1 (List.ofFn a ++ List.ofFn b) = .ok (F,
      ⟨List.ofFn m, List.ofFn s, List.ofFn fun i => ef (m i) (s i), List.ofFn fun i => edf (m i) (s i), List.ofFn lam,
        List.ofFn psi⟩)
      ∧ solveFwd o.fwd_ode.solver rhs1 o.fwd_ode.dt (List.ofFn a) (List.ofFn b) o.m0 o.s0 o.model.sigma
        = .ok (List.ofFn m, List.ofFn s) := by
  have hp := ho.pos
  obtain ⟨mt, st, h1, hm, hs, _⟩ := (C16_forward_shapes o.fwd_ode.solver rhs1 o.fwd_ode.dt (List.ofFn a) (List.ofFn b)
    o.m0 o.s0 o.model.sigma).1 ⟨by simpa using hp, Or.inl (by simp)⟩
  obtain ⟨m, rfl⟩ := list_eq_ofFn (hm.trans (List.length_ofFn))
  obtain ⟨s, rfl⟩ := list_eq_ofFn (hs.trans (List.length_ofFn))
  obtain ⟨E, dm, ds, h2⟩ := he a b m s
  obtain ⟨om, os, or_, h3, _⟩ := like1_gradients_eq H R y t ho.inj m s
  obtain ⟨lt, pt, h4, hl, hps, _⟩ := (C16_backward_shapes o.bwd_ode.solver rhs1 o.bwd_ode.dt (List.ofFn a) (List.ofFn dm)
    (List.ofFn ds) (List.ofFn om) (List.ofFn os)).1 (Or.inr (by simp))
  obtain ⟨lam, rfl⟩ := list_eq_ofFn (hl.trans (List.length_ofFn))
  obtain ⟨psi, rfl⟩ := list_eq_ofFn (hps.trans (List.length_ofFn))
  have hu := (C58_pack_unpack_1d a b).2.1
  simp only [shape1, id] at hu
  obtain ⟨Eobs, h5⟩ : ∃ E, (⟨List.ofFn y, List.ofFn fun j => (t j : ℕ), R, H⟩ : Like1).gauss (List.ofFn m) (List.ofFn s)
      = .ok E := ⟨_, like1_gauss_eq H R y t m s⟩
  refine ⟨p.gauss o.m0 o.s0 + E + Eobs, m, s, lam, psi, ?_, h1⟩
  unfold VarGP.eval
  rw [ho.dim, ho.like, ho.prior]
  simp only [shape1, hu, bind, Except.bind, h1, Like1.toIf, h5, h2, h3, pure, Except.pure, h4]

/-- The value of `gradient(x, eval_fun=True)` in terms of what `arg_out` shows afterwards. -/
theorem vgp1_gradient {o : VarGP ℝ ℝ} {y : Fin k → ℝ} {t : Fin k → Fin n} {R H : ℝ} {p : Prior1}
    (ho : Vgp1Ok o n k y t R H p) {ef edf : ℝ → ℝ → ℝ} (he : EnergyOk1 o.model n o.obs_t ef edf) (a b : Fin n → ℝ) :
    ∃ (m s lam psi : Fin n → ℝ) (c : VgpCache ℝ ℝ) (o' : VarGP ℝ ℝ),
      o.gradient shape1 (List.ofFn a ++ List.ofFn b) true = (.ok
        (List.ofFn (fun i => o.dt * (o.model.inverse_sigma * (edf (m i) (s i) + a i) * s i
            - o.model.inverse_sigma * (-ef (m i) (s i) - a i * m i + b i) * m i - lam i * m i - 2 * psi i * s i))
          ++ List.ofFn (fun i => o.dt * (o.model.inverse_sigma * (-ef (m i) (s i) - a i * m i + b i) + lam i))), o')
      ∧ o'.argOut = (o.m0, o.s0, some c) ∧ c.mt = List.ofFn m ∧ c.st = List.ofFn s ∧ c.lamt = List.ofFn lam
      ∧ c.psit = List.ofFn psi
      ∧ solveFwd o.fwd_ode.solver rhs1 o.fwd_ode.dt (List.ofFn a) (List.ofFn b) o.m0 o.s0 o.model.sigma
        = .ok (List.ofFn m, List.ofFn s) := by
  obtain ⟨F, m, s, lam, psi, h, hfwd⟩ := vgp1_eval ho he a b
  refine ⟨m, s, lam, psi, ⟨List.ofFn m, List.ofFn s, List.ofFn fun i => ef (m i) (s i),
    List.ofFn fun i => edf (m i) (s i), List.ofFn lam, List.ofFn psi⟩, { o with cache := some _ }, ?_, rfl, rfl, rfl, rfl, rfl, hfwd⟩
  unfold VarGP.gradient VarGP.freeEnergy
  rw [h]
  simp only [if_true]
  congr 1
  have h2 : (2.0 : ℝ) = 2 := by norm_num
  refine (gradBody_ofFn shape1 _ (List.ofFn a ++ List.ofFn b) a b m _ lam s _ psi (by exact ho.dim) rfl
    (C58_pack_unpack_1d a b).2.2).trans ?_
  simp only [smul_eq_mul, shape1, id, h2]

namespace Spec

/-- The density of the energy of the process: `E[(f - g)²] / (2 sigma)` under the normal law with mean `m` and variance
`v`, where `g(x) = -a x + b`. -/
noncomputable def sdeDensity (f : ℝ → ℝ) (sigma a b m v : ℝ) : ℝ := mismatch f a b m v / (2 * sigma)

/-- The claim of C61 for one dimensional models with drift `f`. For every `x = (a, b)`, `gradient(x, eval_fun=True)`
succeeds, and `arg_out` then shows moments `m`, `s` (those of the forward sweep) and multipliers `lam`, `psi` such that
the `a`-block at every index where the variance is not negative is `dt (D_a - lam m - 2 psi s)` and the `b`-block is
`dt (D_b + lam)`, where `D_a`, `D_b` are the derivatives of the energy density with respect to `a` and `b`. -/
def GradientAssembled (o : VarGP ℝ ℝ) (n : ℕ) (f : ℝ → ℝ) : Prop :=
  ∀ a b : Fin n → ℝ, ∃ (m s lam psi gA gB : Fin n → ℝ) (c : VgpCache ℝ ℝ) (o' : VarGP ℝ ℝ),
    o.gradient shape1 (List.ofFn a ++ List.ofFn b) true = (.ok (List.ofFn gA ++ List.ofFn gB), o')
    ∧ o'.argOut = (o.m0, o.s0, some c)
    ∧ c.mt = List.ofFn m ∧ c.st = List.ofFn s ∧ c.lamt = List.ofFn lam ∧ c.psit = List.ofFn psi
    ∧ solveFwd o.fwd_ode.solver rhs1 o.fwd_ode.dt (List.ofFn a) (List.ofFn b) o.m0 o.s0 o.model.sigma
        = .ok (List.ofFn m, List.ofFn s)
    ∧ ∀ i, 0 ≤ s i → ∃ Da Db : ℝ,
        HasDerivAt (fun α => sdeDensity f o.model.sigma α (b i) (m i) (s i)) Da (a i)
        ∧ HasDerivAt (fun β => sdeDensity f o.model.sigma (a i) β (m i) (s i)) Db (b i)
        ∧ gA i = o.dt * (Da - lam i * m i - 2 * psi i * s i)
        ∧ gB i = o.dt * (Db + lam i)

end Spec

theorem ou_energyOk {G : Type} (p : OU G) (n : ℕ) (obs : List ℕ) (dt : ℝ) (hdt : p.base.timeStep = .ok dt)
    (hobs : obs.Pairwise (· ≤ ·)) : EnergyOk1 p.sde n obs (fun m _ => -p.theta * m) (fun _ _ => -p.theta) := by
  intro a b m s
  refine ⟨0.5 * Spec.trapezoidRule dt (List.ofFn fun i => ouQ p.theta (a i) (b i) (m i) (s i)) / p.sigma,
    fun i => (m i * (p.theta - a i) ^ 2 + (p.theta - a i) * b i) / p.sigma,
    fun i => 0.5 * (p.theta - a i) ^ 2 / p.sigma, ?_⟩
  simp only [OU.sde, ou_energy_eq p a b m s (some obs) dt hdt (fun l hl => by cases hl; exact hobs), bind, Except.bind]
  rfl

theorem dw_energyOk {G : Type} (p : DW G) (n : ℕ) (obs : List ℕ) (dt : ℝ) (hdt : p.base.timeStep = .ok dt)
    (hobs : obs.Pairwise (· ≤ ·)) : EnergyOk1 p.sde n obs (fun m s => 4 * (p.theta * m - momPoly 3 m s))
      (fun m s => 4 * (p.theta - 3 * momPoly 2 m s)) := by
  intro a b m s
  have h := dw_energy_eq p a b m s (some obs) dt hdt (fun l hl => by cases hl; exact hobs)
  simp only [DW.sde, h, bind, Except.bind]
  exact ⟨_, _, _, rfl⟩

/-- C61 for `OrnsteinUhlenbeck` objects, all four integrators, any observations at distinct grid points in increasing
order. -/
theorem C61_ornstein_uhlenbeck {G : Type} (p : OU G) (o : VarGP ℝ ℝ) (y : Fin k → ℝ) (t : Fin k → Fin n) (R H : ℝ)
    (pr : Prior1) (ho : Vgp1Ok o n k y t R H pr) (hmodel : o.model = p.sde) (hσ : 0 < p.sigma)
    (hinv : p.sig_inv * p.sigma = 1) (dt : ℝ) (hdt : p.base.timeStep = .ok dt) (ht : StrictMono t) :
    Spec.GradientAssembled o n (Spec.ouDrift p.theta) := by
  have hobs : o.obs_t.Pairwise (· ≤ ·) := by
    rw [ho.obs, List.pairwise_ofFn]
    intro i j hij
    exact (ht hij).le
  intro a b
  obtain ⟨m, s, lam, psi, c, o', h1, h2, h3, h4, h5, h6, h7⟩ := vgp1_gradient ho
    (hmodel ▸ ou_energyOk p n o.obs_t dt hdt hobs) a b
  refine ⟨m, s, lam, psi, _, _, c, o', h1, h2, h3, h4, h5, h6, h7, fun i hi => ?_⟩
  have e1 : o.model.sigma = p.sigma := by rw [hmodel]; rfl
  have e2 : o.model.inverse_sigma = 1 / p.sigma := by
    rw [hmodel]; exact eq_one_div_of_mul_eq_one_left hinv
  refine ⟨((p.theta - a i) * -(m i ^ 2 + s i) - m i * b i) / p.sigma,
    (m i * (p.theta - a i) + b i) / p.sigma, ?_, ?_, ?_, ?_⟩
  · simp only [Spec.sdeDensity, ouQ_eq _ _ _ _ _ hi, ouQ, e1]
    have h := ((((((hasDerivAt_id' (a i)).const_sub p.theta).fun_pow 2).const_mul (m i ^ 2 + s i)).fun_add
      ((((hasDerivAt_id' (a i)).const_sub p.theta).const_mul (2 * m i)).mul_const (b i))).add_const (b i ^ 2)).div_const
        (2 * p.sigma)
    refine h.congr_deriv ?_
    field_simp
    ring
  · simp only [Spec.sdeDensity, ouQ_eq _ _ _ _ _ hi, ouQ, e1]
    have h := ((((hasDerivAt_id' (b i)).const_mul (2 * m i * (p.theta - a i))).fun_add
      ((hasDerivAt_id' (b i)).fun_pow 2)).const_add ((m i ^ 2 + s i) * (p.theta - a i) ^ 2)).div_const (2 * p.sigma)
    refine (h.congr_of_eventuallyEq ?_).congr_deriv ?_
    · filter_upwards with β
      ring
    · field_simp
      ring
  · rw [e2]; field_simp; ring
  · rw [e2]; field_simp

/-- C61 for `DoubleWell` objects. (The derivatives are those of the documented energy density, although the energy value
that `energy` returns differs from it, see `C42_energy_violated`.) -/
theorem C61_double_well {G : Type} (p : DW G) (o : VarGP ℝ ℝ) (y : Fin k → ℝ) (t : Fin k → Fin n) (R H : ℝ)
    (pr : Prior1) (ho : Vgp1Ok o n k y t R H pr) (hmodel : o.model = p.sde) (hσ : 0 < p.sigma)
    (hinv : p.sig_inv * p.sigma = 1) (dt : ℝ) (hdt : p.base.timeStep = .ok dt) (ht : StrictMono t) :
    Spec.GradientAssembled o n (Spec.dwDrift p.theta) := by
  have hobs : o.obs_t.Pairwise (· ≤ ·) := by
    rw [ho.obs, List.pairwise_ofFn]
    intro i j hij
    exact (ht hij).le
  intro a b
  obtain ⟨m, s, lam, psi, c, o', h1, h2, h3, h4, h5, h6, h7⟩ := vgp1_gradient ho
    (hmodel ▸ dw_energyOk p n o.obs_t dt hdt hobs) a b
  refine ⟨m, s, lam, psi, _, _, c, o', h1, h2, h3, h4, h5, h6, h7, fun i hi => ?_⟩
  have e1 : o.model.sigma = p.sigma := by rw [hmodel]; rfl
  have e2 : o.model.inverse_sigma = 1 / p.sigma := by
    rw [hmodel]; exact eq_one_div_of_mul_eq_one_left hinv
  refine ⟨(-4 * momPoly 4 (m i) (s i) + (4 * p.theta + a i) * momPoly 2 (m i) (s i) - b i * m i) / p.sigma,
    (4 * momPoly 3 (m i) (s i) - (4 * p.theta + a i) * m i + b i) / p.sigma, ?_, ?_, ?_, ?_⟩
  · simp only [Spec.sdeDensity, dwQ_eq _ _ _ _ _ hi, dwQ, e1]
    generalize momPoly 6 (m i) (s i) = M6
    generalize momPoly 4 (m i) (s i) = M4
    generalize momPoly 3 (m i) (s i) = M3
    generalize momPoly 2 (m i) (s i) = M2
    have h := ((((((hasDerivAt_id' (a i)).const_add (4 * p.theta)).fun_pow 2).const_mul M2).fun_add
      (((hasDerivAt_id' (a i)).const_add (4 * p.theta)).const_mul (-8 * M4 - 2 * b i * m i))).add_const
        (16 * M6 + 8 * b i * M3 + b i ^ 2)).div_const (2 * p.sigma)
    refine (h.congr_of_eventuallyEq ?_).congr_deriv ?_
    · filter_upwards with α
      ring
    · field_simp
      ring
  · simp only [Spec.sdeDensity, dwQ_eq _ _ _ _ _ hi, dwQ, e1]
    generalize momPoly 6 (m i) (s i) = M6
    generalize momPoly 4 (m i) (s i) = M4
    generalize momPoly 3 (m i) (s i) = M3
    generalize momPoly 2 (m i) (s i) = M2
    have h := ((((hasDerivAt_id' (b i)).const_mul (8 * M3 - 2 * (4 * p.theta + a i) * m i)).fun_add
      ((hasDerivAt_id' (b i)).fun_pow 2)).const_add
        (16 * M6 - 8 * (4 * p.theta + a i) * M4 + (4 * p.theta + a i) ^ 2 * M2)).div_const (2 * p.sigma)
    refine (h.congr_of_eventuallyEq ?_).congr_deriv ?_
    · filter_upwards with β
      ring
    · field_simp
      ring
  · rw [e2]; simp only [momPoly]; field_simp; ring
  · rw [e2]; simp only [momPoly]; field_simp; ring

/-- Non-vacuity: a double well on four grid points with two observations. -/
noncomputable def vgpDW : DW ℕ where
  base := { xt := some [1, 1, 1, 1], tk := some [0, 1 / 2, 1, 3 / 2], rng := 0, single_dimension := true }
  sigma := 2
  theta := 1
  sig_inv := 1 / 2

theorem vgpDW_step : vgpDW.base.timeStep = .ok (1 / 2) := by
  norm_num [vgpDW, Proc.timeStep, idx, bind, Except.bind, pure, Except.pure, abs_of_pos]

noncomputable def vgpObj (M : SdeModel ℝ ℝ) (meth : Method) : VarGP ℝ ℝ where
  model := M
  fwd_ode := ⟨1 / 2, "", meth⟩
  bwd_ode := ⟨1 / 2, "", meth⟩
  likelihood := (⟨List.ofFn ![1, 2], List.ofFn fun j : Fin 2 => ((![1, 2] : Fin 2 → Fin 4) j : ℕ), 1, 1⟩ : Like1).toIf
  kl0 := fun m s => .ok ((⟨0, 1⟩ : Prior1).gauss m s)
  obs_y := List.ofFn ![1, 2]
  obs_t := List.ofFn fun j : Fin 2 => ((![1, 2] : Fin 2 → Fin 4) j : ℕ)
  dt := 1 / 2
  dim_n := 4
  m0 := 1
  s0 := 1
  cache := none

theorem vgpObj_ok (M : SdeModel ℝ ℝ) (meth : Method) : Vgp1Ok (vgpObj M meth) 4 2 ![1, 2] ![1, 2] 1 1 ⟨0, 1⟩ :=
  ⟨by norm_num, rfl, rfl, by decide, rfl, rfl⟩

example (meth : Method) : Spec.GradientAssembled (vgpObj vgpDW.sde meth) 4 (Spec.dwDrift 1) :=
  C61_double_well vgpDW _ _ _ _ _ _ (vgpObj_ok _ meth) rfl (by norm_num [vgpDW]) (by norm_num [vgpDW]) _ vgpDW_step
    (by decide)

end VGPA
