import Verif.Props.FloatError

/-!
# C151: a run of the optimizer in double precision, judged by exact arithmetic
-/

namespace VGPA

open Flt Spec

/-- The free energy with exact arithmetic, at the parameters `y`. -/
def Spec.ExactEnergy (r : VgpF ℝ) (y : List ℝ) (F : ℝ) : Prop := ∃ mt st, r.freeEnergy realLibm y = .ok (F, mt, st)

/-- The size of the terms that the free energy adds up: the same program, with absolute values, and sums in the place of differences. -/
def Spec.EnergySize (r : VgpF ℝ) (y : List ℝ) (S : ℝ) : Prop := ∃ p mt st, (r.map Sized.of).freeEnergy Sized.lib (y.map Sized.of) = .ok (p, mt, st) ∧ S = p.size

theorem finite_vals : ∀ l : List Flt, (∀ a ∈ l, Spec.Finite a) → ∃ y : List ℝ, List.Forall₂ IsVal l y
  | [], _ => ⟨[], .nil⟩
  | a :: l, h => by
    obtain ⟨y, hy⟩ := finite_vals l fun b hb => h b (List.mem_cons_of_mem _ hb)
    obtain ⟨h1, h2⟩ := h a List.mem_cons_self
    obtain ⟨r, hr⟩ : ∃ r, IsVal a r := by
      cases a with
      | nan => exact absurd rfl h1
      | inf s => exact absurd rfl (h2 s)
      | zero s => exact ⟨0, isVal_zero s⟩
      | num r hr => exact ⟨r, by simp, rfl⟩
    exact ⟨r :: y, .cons hr hy⟩

/-- C151: the optimizer runs in double precision on the free energy in double precision, with any gradient function. If the value at the start and the reported value are
finite, then the free energy with exact arithmetic at the reported parameters `y` is not more than rounding errors above the one at the start `y0`: `max_it / 2^52`
for the decisions, and `(217 n + m + 30) / 2^52` times the sizes for the two values. The parameters reported are finite. -/
theorem C151_exact_descent {σ A : Type} {n : ℕ} {L : Libm Flt} (hL : Spec.Library L) (hA : Spec.Accurate L) (w : VgpF Flt) (r : VgpF ℝ) (hr : Spec.Reads w r)
    (h2 : 2 ≤ r.dim_n) (hd : n = 2 * r.dim_n) (hl : r.obs_v.length = r.obs_t.length) (hm : r.method ≠ .rk2)
    (hσ : 0 < r.sigma) (hn : 0 < r.obs_n) (hτ : 0 < r.tau0) (hs : 0 < r.s0) (hbig : 217 * r.dim_n + r.obs_t.length + 30 ≤ 2 ^ 53)
    {dot : (Fin n → Flt) → (Fin n → Flt) → Flt} (hdot : Spec.OddDot dot) (o : Oracle σ A Flt (Fin n → Flt)) (args : A)
    (hF : ∀ x s v s', o.f x args s = (.ok v, s') → ∃ mt st, w.freeEnergy L (List.ofFn x) = .ok (v, mt, st))
    (p p' : Scg Flt) (hp : Spec.Arrays p) (x0 x : Fin n → Flt) (s s' : σ) (fx : Flt) (hov : Spec.NoOverflow dot o args p x0 s)
    (h : Scg.call (ieeeArith n dot) o args p x0 s = (.ok (x, fx), p', s')) (v0 : Flt) (mt0 st0 : List Flt)
    (h0 : w.freeEnergy L (List.ofFn x0) = .ok (v0, mt0, st0)) (hv0 : Spec.Finite v0) (hfx : Spec.Finite fx) :
    ∃ y0 y : List ℝ, List.Forall₂ IsVal (List.ofFn x0) y0 ∧ List.Forall₂ IsVal (List.ofFn x) y ∧ ∃ F0 F S0 S, Spec.ExactEnergy r y0 F0 ∧ Spec.ExactEnergy r y F ∧
      Spec.EnergySize r y0 S0 ∧ Spec.EnergySize r y S ∧
      F ≤ F0 + p.nit / 2 ^ 52 + (217 * r.dim_n + r.obs_t.length + 30 : ℕ) / 2 ^ 52 * (S0 + S) := by
  let Fv : (Fin n → Flt) → Flt := fun y => match w.freeEnergy L (List.ofFn y) with
    | .ok q => q.1
    | .error _ => nan
  have hF' : ∀ y t v t', o.f y args t = (.ok v, t') → v = Fv y := fun y t v t' hy => by
    obtain ⟨mt, st, e⟩ := hF y t v t' hy
    simp [Fv, e]
  have k1 := (C137_descent_floats_partial hdot Fv hF' p p' hp x0 x s s' fx hov h).2
  have k2 := C64_consistent_pair (ar := ieeeArith n dot) (o := o) (args := args) Fv hF' p p' x0 s s' x fx h
  have e0 : Fv x0 = v0 := by simp [Fv, h0]
  rw [e0] at k1
  obtain ⟨mt, st, h1⟩ : ∃ mt st, w.freeEnergy L (List.ofFn x) = .ok (fx, mt, st) := by
    cases h1 : w.freeEnergy L (List.ofFn x) with
    | error e =>
      rw [show Fv x = nan by simp [Fv, h1]] at k2
      exact absurd k2 hfx.1
    | ok q =>
      obtain ⟨a, b, c⟩ := q
      rw [show Fv x = a by simp [Fv, h1]] at k2
      exact ⟨b, c, by rw [k2]⟩
  have hobs : w.obs_v.length = w.obs_t.length := by rw [hr.obs_v.length_eq, hl, hr.obs_t]
  -- the parameters are finite
  obtain ⟨y0, hy0⟩ := finite_vals (List.ofFn x0) fun a ha => C143_finite hL w _ (by rw [hr.dim_n]; exact h2) (by simp [hd, hr.dim_n]) hobs v0 mt0 st0 h0 hv0 a
    (by simp only [Spec.inputs, List.mem_append]; tauto)
  obtain ⟨y, hy⟩ := finite_vals (List.ofFn x) fun a ha => C143_finite hL w _ (by rw [hr.dim_n]; exact h2) (by simp [hd, hr.dim_n]) hobs fx mt st h1 hfx a
    (by simp only [Spec.inputs, List.mem_append]; tauto)
  obtain ⟨w0, F0, a1, a2, S0, b1, b2, b3, b4, b5, b6⟩ := C146_free_energy hL hA w r _ y0 hr hy0 (by rw [← hy0.length_eq]; simp [hd]) hl hm hσ hn hτ hs hbig v0 mt0 st0 h0 hv0
  obtain ⟨w1, F, c1, c2, S, d1, d2, d3, d4, d5, d6⟩ := C146_free_energy hL hA w r _ y hr hy (by rw [← hy.length_eq]; simp [hd]) hl hm hσ hn hτ hs hbig fx mt st h1 hfx
  refine ⟨y0, y, hy0, hy, F0, F, S0.1.size, S.1.size, ⟨_, _, b2⟩, ⟨_, _, d2⟩, ⟨S0.1, S0.2.1, S0.2.2, b3, rfl⟩, ⟨S.1, S.2.1, S.2.2, d3, rfl⟩, ?_⟩
  rw [b1.2, d1.2, ← EReal.coe_add, EReal.coe_le_coe_iff] at k1
  rw [abs_le] at b6 d6
  linarith [b6.1, b6.2, d6.1, d6.2]

/-- C151 for the objects of the model, Ornstein-Uhlenbeck: `F0` and `F` are what `free_energy` returns with exact arithmetic. -/
theorem C151_ornstein_uhlenbeck {G σ A : Type} {n : ℕ} {L : Libm Flt} (hL : Spec.Library L) (hA : Spec.Accurate L) (q : OU G) (g : VarGP ℝ ℝ) (lk : Like1) (K : Prior1)
    (step : ℝ) (hmod : g.model = q.sde) (hstep : q.base.timeStep = .ok step) (hlk : g.likelihood = lk.toIf) (hK : ∀ m s, g.kl0 m s = .ok (K.gauss m s))
    (ht : g.obs_t = lk.obs_t) (w : VgpF Flt)
    (hr : Spec.Reads w ⟨.ou, q.theta, q.sigma, step, g.fwd_ode.solver, g.fwd_ode.dt, lk.obs_v, lk.obs_t, lk.obs_n, K.mu0, K.tau0, g.m0, g.s0, g.dim_n⟩)
    (h2 : 2 ≤ g.dim_n) (hd : n = 2 * g.dim_n) (hl : lk.obs_v.length = lk.obs_t.length) (hm : g.fwd_ode.solver ≠ .rk2)
    (hσ : 0 < q.sigma) (hn : 0 < lk.obs_n) (hτ : 0 < K.tau0) (hs : 0 < g.s0) (hbig : 217 * g.dim_n + lk.obs_t.length + 30 ≤ 2 ^ 53)
    {dot : (Fin n → Flt) → (Fin n → Flt) → Flt} (hdot : Spec.OddDot dot) (o : Oracle σ A Flt (Fin n → Flt)) (args : A)
    (hF : ∀ x s v s', o.f x args s = (.ok v, s') → ∃ mt st, w.freeEnergy L (List.ofFn x) = .ok (v, mt, st))
    (p p' : Scg Flt) (hp : Spec.Arrays p) (x0 x : Fin n → Flt) (s s' : σ) (fx : Flt) (hov : Spec.NoOverflow dot o args p x0 s)
    (h : Scg.call (ieeeArith n dot) o args p x0 s = (.ok (x, fx), p', s')) (v0 : Flt) (mt0 st0 : List Flt)
    (h0 : w.freeEnergy L (List.ofFn x0) = .ok (v0, mt0, st0)) (hv0 : Spec.Finite v0) (hfx : Spec.Finite fx) :
    ∃ y0 y : List ℝ, List.Forall₂ IsVal (List.ofFn x0) y0 ∧ List.Forall₂ IsVal (List.ofFn x) y ∧ ∃ S0 S,
      Spec.EnergySize ⟨.ou, q.theta, q.sigma, step, g.fwd_ode.solver, g.fwd_ode.dt, lk.obs_v, lk.obs_t, lk.obs_n, K.mu0, K.tau0, g.m0, g.s0, g.dim_n⟩ y0 S0 ∧
      Spec.EnergySize ⟨.ou, q.theta, q.sigma, step, g.fwd_ode.solver, g.fwd_ode.dt, lk.obs_v, lk.obs_t, lk.obs_n, K.mu0, K.tau0, g.m0, g.s0, g.dim_n⟩ y S ∧
      ∀ F0 F c0 c, g.eval shape1 y0 = .ok (F0, c0) → g.eval shape1 y = .ok (F, c) →
        F ≤ F0 + p.nit / 2 ^ 52 + (217 * g.dim_n + lk.obs_t.length + 30 : ℕ) / 2 ^ 52 * (S0 + S) := by
  obtain ⟨y0, y, a1, a2, F0, F, S0, S, ⟨_, _, b1⟩, ⟨_, _, b2⟩, b3, b4, b5⟩ := C151_exact_descent hL hA w _ hr h2 hd hl hm hσ hn hτ hs hbig hdot o args hF p p' hp x0 x s s' fx hov h
    v0 mt0 st0 h0 hv0 hfx
  refine ⟨y0, y, a1, a2, S0, S, b3, b4, fun F0' F' c0 c e0 e => ?_⟩
  rw [C143_same_program_ou q g lk K step y0 F0' c0 hmod hstep hlk hK ht e0] at b1
  rw [C143_same_program_ou q g lk K step y F' c hmod hstep hlk hK ht e] at b2
  cases b1
  cases b2
  exact b5

/-- C151 for the objects of the model, double well. -/
theorem C151_double_well {G σ A : Type} {n : ℕ} {L : Libm Flt} (hL : Spec.Library L) (hA : Spec.Accurate L) (q : DW G) (g : VarGP ℝ ℝ) (lk : Like1) (K : Prior1)
    (step : ℝ) (hmod : g.model = q.sde) (hstep : q.base.timeStep = .ok step) (hlk : g.likelihood = lk.toIf) (hK : ∀ m s, g.kl0 m s = .ok (K.gauss m s))
    (ht : g.obs_t = lk.obs_t) (w : VgpF Flt)
    (hr : Spec.Reads w ⟨.dw, q.theta, q.sigma, step, g.fwd_ode.solver, g.fwd_ode.dt, lk.obs_v, lk.obs_t, lk.obs_n, K.mu0, K.tau0, g.m0, g.s0, g.dim_n⟩)
    (h2 : 2 ≤ g.dim_n) (hd : n = 2 * g.dim_n) (hl : lk.obs_v.length = lk.obs_t.length) (hm : g.fwd_ode.solver ≠ .rk2)
    (hσ : 0 < q.sigma) (hn : 0 < lk.obs_n) (hτ : 0 < K.tau0) (hs : 0 < g.s0) (hbig : 217 * g.dim_n + lk.obs_t.length + 30 ≤ 2 ^ 53)
    {dot : (Fin n → Flt) → (Fin n → Flt) → Flt} (hdot : Spec.OddDot dot) (o : Oracle σ A Flt (Fin n → Flt)) (args : A)
    (hF : ∀ x s v s', o.f x args s = (.ok v, s') → ∃ mt st, w.freeEnergy L (List.ofFn x) = .ok (v, mt, st))
    (p p' : Scg Flt) (hp : Spec.Arrays p) (x0 x : Fin n → Flt) (s s' : σ) (fx : Flt) (hov : Spec.NoOverflow dot o args p x0 s)
    (h : Scg.call (ieeeArith n dot) o args p x0 s = (.ok (x, fx), p', s')) (v0 : Flt) (mt0 st0 : List Flt)
    (h0 : w.freeEnergy L (List.ofFn x0) = .ok (v0, mt0, st0)) (hv0 : Spec.Finite v0) (hfx : Spec.Finite fx) :
    ∃ y0 y : List ℝ, List.Forall₂ IsVal (List.ofFn x0) y0 ∧ List.Forall₂ IsVal (List.ofFn x) y ∧ ∃ S0 S,
      Spec.EnergySize ⟨.dw, q.theta, q.sigma, step, g.fwd_ode.solver, g.fwd_ode.dt, lk.obs_v, lk.obs_t, lk.obs_n, K.mu0, K.tau0, g.m0, g.s0, g.dim_n⟩ y0 S0 ∧
      Spec.EnergySize ⟨.dw, q.theta, q.sigma, step, g.fwd_ode.solver, g.fwd_ode.dt, lk.obs_v, lk.obs_t, lk.obs_n, K.mu0, K.tau0, g.m0, g.s0, g.dim_n⟩ y S ∧
      ∀ F0 F c0 c, g.eval shape1 y0 = .ok (F0, c0) → g.eval shape1 y = .ok (F, c) →
        F ≤ F0 + p.nit / 2 ^ 52 + (217 * g.dim_n + lk.obs_t.length + 30 : ℕ) / 2 ^ 52 * (S0 + S) := by
  obtain ⟨y0, y, a1, a2, F0, F, S0, S, ⟨_, _, b1⟩, ⟨_, _, b2⟩, b3, b4, b5⟩ := C151_exact_descent hL hA w _ hr h2 hd hl hm hσ hn hτ hs hbig hdot o args hF p p' hp x0 x s s' fx hov h
    v0 mt0 st0 h0 hv0 hfx
  refine ⟨y0, y, a1, a2, S0, S, b3, b4, fun F0' F' c0 c e0 e => ?_⟩
  rw [C143_same_program_dw q g lk K step y0 F0' c0 hmod hstep hlk hK ht e0] at b1
  rw [C143_same_program_dw q g lk K step y F' c hmod hstep hlk hK ht e] at b2
  cases b1
  cases b2
  exact b5

/-! ## A case that meets the hypotheses -/

/-- The free energy of two points and one observation, with a gradient function that always says zero. -/
noncomputable def toyOracle : Oracle Unit Unit Flt (Fin 4 → Flt) where
  f x _ s := match (toyVgp (zero false) .euler).freeEnergy bestLibm (List.ofFn x) with
    | .ok q => (.ok q.1, s)
    | .error e => (.error e, s)
  df _ _ s := (.ok fun _ => zero false, s)
  dfEval _ s := (.ok fun _ => zero false, s)

theorem toyOracle_f (x : Fin 4 → Flt) (s : Unit) (v : Flt) (s' : Unit) (h : toyOracle.f x () s = (.ok v, s')) :
    ∃ mt st, (toyVgp (zero false) .euler).freeEnergy bestLibm (List.ofFn x) = .ok (v, mt, st) := by
  simp only [toyOracle] at h
  split at h
  case h_1 q e =>
    obtain ⟨a, b, c⟩ := q
    cases h
    exact ⟨b, c, e⟩
  case h_2 => cases h

theorem toy_kappa (f0 : Flt) (x0 : Fin 4 → Flt) : (ieeeArith 4 Flt.dot).lt ((ieeeArith 4 Flt.dot).dot
    (dirOf (ieeeArith 4 Flt.dot) (ScgLoc.start (ieeeArith 4 Flt.dot) x0 f0 fun _ => zero false)).1
    (dirOf (ieeeArith 4 Flt.dot) (ScgLoc.start (ieeeArith 4 Flt.dot) x0 f0 fun _ => zero false)).1) ((ieeeArith 4 Flt.dot).lit (1 / 2 ^ 52)) = true := by
  have h : (dirOf (ieeeArith 4 Flt.dot) (ScgLoc.start (ieeeArith 4 Flt.dot) x0 f0 fun _ => zero false)).1 = fun _ => zero true := by
    unfold dirOf
    split <;> rfl
  rw [h]
  have e : (ieeeArith 4 Flt.dot).dot (fun _ => zero true) (fun _ => zero true) = zero false := by
    show Flt.dot (fun _ : Fin 4 => zero true) (fun _ => zero true) = zero false
    rfl
  rw [e]
  show Flt.lt (zero false) (Flt.lit (1 / 2 ^ 52)) = true
  rw [lit_eps, Flt.lt_iff]
  refine ⟨by simp, by simp [pow2], ?_⟩
  simp only [pow2, val, EReal.coe_pos]
  exact two_zpow_pos _

theorem toy_dir {f0 : Flt} {x0 : Fin 4 → Flt} {j : ℕ} {w w1 : World Unit Flt} {r : ScgLoc Flt (Fin 4 → Flt) ⊕ ((Fin 4 → Flt) × Flt)}
    (hd : DirPath (ieeeArith 4 Flt.dot) toyOracle j (ScgLoc.start (ieeeArith 4 Flt.dot) x0 f0 fun _ => zero false) w r w1) : r = .inr (x0, f0) := by
  have hk := toy_kappa f0 x0
  generalize hL : ScgLoc.start (ieeeArith 4 Flt.dot) x0 f0 (fun _ => zero false) = L at hd hk
  cases hd with
  | keep h => rw [← hL] at h; cases h
  | zero _ _ => rw [← hL]; rfl
  | curv _ h => rw [hk] at h; cases h

/-- A run: the assumptions are met, and the reported value is that of the start. -/
example : let x0 : Fin 4 → Flt := fun _ => zero false
    let p := Scg.init (ieeeArith 4 Flt.dot) (some 1) none none
    ∃ fx p' s' y0 y F0 F S0 S, Scg.call (ieeeArith 4 Flt.dot) toyOracle () p x0 () = (.ok (x0, fx), p', s') ∧ Spec.Finite fx ∧
      Spec.ExactEnergy ⟨.ou, 0, 1, 1, .euler, 1, [0], [0], 1, 0, 1, 0, 1, 2⟩ y0 F0 ∧ Spec.ExactEnergy ⟨.ou, 0, 1, 1, .euler, 1, [0], [0], 1, 0, 1, 0, 1, 2⟩ y F ∧
      F ≤ F0 + 1 / 2 ^ 52 + 465 / 2 ^ 52 * (S0 + S) := by
  intro x0 p
  obtain ⟨v0, mt0, st0, h0, hv0⟩ := toy_finite
  have h0 : (toyVgp (zero false) .euler).freeEnergy bestLibm (List.ofFn x0) = .ok (v0, mt0, st0) := by
    rw [← h0]; rfl
  have hov : Spec.NoOverflow Flt.dot toyOracle () p x0 () := by
    intro it L w L1 w1 beta alpha hit hr hd hst
    cases hr with
    | start f0 g0 s1 s2 hf hg =>
      have hg : g0 = fun _ => zero false := (Except.ok.inj (congrArg Prod.fst hg)).symm
      subst hg
      cases toy_dir ((directional_ok _ _).1 hd)
    | step _ h _ => exact absurd hit (by simp [p, Scg.init])
  obtain ⟨⟨x, fx⟩, p', s', h⟩ := call_total' (ar := ieeeArith 4 Flt.dot) (o := toyOracle) (args := ()) (ieee_total (by norm_num) _)
    (Scg.init_arrays _ (some 1) none none) ⟨fun x s => by
      have : ∃ v mt st, (toyVgp (zero false) .euler).freeEnergy bestLibm (List.ofFn x) = .ok (v, mt, st) := ⟨_, _, _, rfl⟩
      obtain ⟨v, mt, st, e⟩ := this
      exact ⟨v, s, by simp only [toyOracle, e]⟩, fun _ _ => ⟨_, _, rfl⟩, fun _ _ => ⟨_, _, rfl⟩⟩ x0 ()
  have hx : (x, fx) = (x0, v0) := by
    obtain ⟨f0, g0, s1, s2, t, hf, hg, hl, _⟩ := (call_ok _ _ _).1 h
    obtain ⟨mt, st, hf⟩ := toyOracle_f _ _ _ _ hf
    rw [h0] at hf
    cases hf
    have hg : g0 = fun _ => zero false := (Except.ok.inj (congrArg Prod.fst hg)).symm
    subst hg
    rw [show List.range (Scg.init (ieeeArith 4 Flt.dot) (some 1) none none).nit = [0] from rfl] at hl
    simp only [Scg.loop, ScgM.bind_ok] at hl
    obtain ⟨r, w1, ht, hr⟩ := hl
    rcases (turn_ok _ _ _).1 ht with ⟨q, rfl, hd⟩ | ⟨L1, w1', beta, alpha, hd, hst, hm⟩
    · cases toy_dir hd
      simp only [ScgM.pure_ok] at hr
      exact hr.1.symm
    · cases toy_dir hd
  cases hx
  have z : IsVal (zero false) 0 := isVal_zero _
  have u : IsVal (Flt.lit 1) 1 := by simpa using lit_nat (k := 1) (by norm_num)
  obtain ⟨y0, y, -, -, F0, F, S0, S, b1, b2, -, -, b5⟩ := C151_exact_descent bestLibm_library bestLibm_accurate (toyVgp (zero false) .euler)
    ⟨.ou, 0, 1, 1, .euler, 1, [0], [0], 1, 0, 1, 0, 1, 2⟩ ⟨rfl, z, u, u, rfl, u, .cons z .nil, rfl, u, z, u, z, u, rfl⟩ le_rfl rfl rfl (by simp)
    (by norm_num) (by norm_num) (by norm_num) (by norm_num) (by norm_num) dot_odd toyOracle () toyOracle_f p p' (Scg.init_arrays _ _ _ _) x0 x0 () s' v0 hov h
    v0 mt0 st0 h0 hv0 hv0
  refine ⟨v0, p', s', y0, y, F0, F, S0, S, h, hv0, b1, b2, ?_⟩
  norm_num [p, Scg.init] at b5 ⊢
  exact b5

end VGPA
