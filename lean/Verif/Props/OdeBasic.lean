import Verif.Lemmas.Ode
import Mathlib.Tactic.FinCases

/-!
# Properties C15 - C18: solver construction, shapes, and textbook steps
-/

namespace VGPA

open Matrix

/-- Documented names of the integration methods (README, `FwdOde`/`BwdOde` error messages). -/
def docName : Method → String
  | .euler => "Euler"
  | .heun => "Heun"
  | .rk2 => "RK2"
  | .rk4 => "RK4"

/-- The textbook scheme that the documentation of each class names. -/
def scheme : Method → Spec.Scheme
  | .euler => .euler
  | .heun => .heun
  | .rk2 => .midpoint
  | .rk4 => .rk4

/-! ## C15 -/

theorem numIntegration_iff (s : String) (m : Method) :
    numIntegration s = .ok m ↔ s = pyLower (docName m) := by
  have h1 : pyLower (docName .euler) = "euler" := by decide
  have h2 : pyLower (docName .heun) = "heun" := by decide
  have h3 : pyLower (docName .rk2) = "rk2" := by decide
  have h4 : pyLower (docName .rk4) = "rk4" := by decide
  unfold numIntegration
  cases m
  · rw [h1]; split_ifs <;> simp_all
  · rw [h2]; split_ifs <;> simp_all
  · rw [h3]; split_ifs <;> simp_all
  · rw [h4]; split_ifs <;> simp_all

theorem numIntegration_err (s : String) (h : ∀ m, numIntegration s ≠ .ok m) :
    numIntegration s = .error .keyError := by
  unfold numIntegration at *
  split_ifs at * <;> simp_all

/-- **C15 (forward).** `FwdOde(dt, method)` succeeds exactly when `dt > 0` and the method name is, up
to letter case, a documented one; the object then holds that step and uses the named method.
Otherwise it raises `ValueError`. -/
theorem C15_fwd_construction (dt : ℝ) (s : String) :
    (∀ o, FwdOde.init dt s = .ok o ↔
      0 < dt ∧ ∃ m, pyLower s = pyLower (docName m) ∧ o = ⟨dt, s, m⟩) ∧
    ((¬ (0 < dt ∧ ∃ m, pyLower s = pyLower (docName m))) →
      FwdOde.init dt s = .error .valueError) := by
  unfold FwdOde.init solverInit
  by_cases hdt : dt ≤ 0
  · simp [hdt, not_lt.2 hdt]
  · have hpos : 0 < dt := not_le.1 hdt
    simp only [hdt, if_false, hpos, true_and]
    cases hm : numIntegration (pyLower s) with
    | ok m =>
      have := (numIntegration_iff _ _).1 hm
      constructor
      · intro o
        simp only [py_ok_bind, Except.ok.injEq]
        constructor
        · rintro rfl; exact ⟨m, this, rfl⟩
        · rintro ⟨m', h', rfl⟩
          have := (numIntegration_iff _ _).2 h'
          rw [hm] at this
          cases this; rfl
      · intro h; exact absurd ⟨m, this⟩ h
    | error e =>
      have hno : ∀ m, numIntegration (pyLower s) ≠ .ok m := by intro m h; rw [hm] at h; cases h
      have hk := numIntegration_err _ hno
      rw [hm] at hk
      cases hk
      constructor
      · intro o
        simp only [py_error_bind]
        constructor
        · intro h; cases h
        · rintro ⟨m', h', _⟩
          exact absurd ((numIntegration_iff _ _).2 h') (hno m')
      · intro _; rfl

/-- **C15 (backward).** The same for `BwdOde`, which stores the lower-cased name. -/
theorem C15_bwd_construction (dt : ℝ) (s : String) :
    (∀ o, BwdOde.init dt s = .ok o ↔
      0 < dt ∧ ∃ m, pyLower s = pyLower (docName m) ∧ o = ⟨dt, pyLower s, m⟩) ∧
    ((¬ (0 < dt ∧ ∃ m, pyLower s = pyLower (docName m))) →
      BwdOde.init dt s = .error .valueError) := by
  unfold BwdOde.init solverInit
  by_cases hdt : dt ≤ 0
  · simp [hdt, not_lt.2 hdt]
  · have hpos : 0 < dt := not_le.1 hdt
    simp only [hdt, if_false, hpos, true_and]
    cases hm : numIntegration (pyLower s) with
    | ok m =>
      have := (numIntegration_iff _ _).1 hm
      constructor
      · intro o
        simp only [py_ok_bind, Except.ok.injEq]
        constructor
        · rintro rfl; exact ⟨m, this, rfl⟩
        · rintro ⟨m', h', rfl⟩
          have := (numIntegration_iff _ _).2 h'
          rw [hm] at this
          cases this; rfl
      · intro h; exact absurd ⟨m, this⟩ h
    | error e =>
      have hno : ∀ m, numIntegration (pyLower s) ≠ .ok m := by intro m h; rw [hm] at h; cases h
      have hk := numIntegration_err _ hno
      rw [hm] at hk
      cases hk
      constructor
      · intro o
        simp only [py_error_bind]
        constructor
        · intro h; cases h
        · rintro ⟨m', h', _⟩
          exact absurd ((numIntegration_iff _ _).2 h') (hno m')
      · intro _; rfl

-- Non-vacuity: mixed-case names are accepted, and both failure modes occur.
example : FwdOde.init 0.01 "hEuN" = .ok ⟨0.01, "hEuN", .heun⟩ :=
  ((C15_fwd_construction 0.01 "hEuN").1 _).2 ⟨by norm_num, .heun, by decide, rfl⟩
example : FwdOde.init 0 "Heun" = .error .valueError :=
  (C15_fwd_construction 0 "Heun").2 (by norm_num)
example : BwdOde.init 0.01 "rk3" = .error .valueError :=
  (C15_bwd_construction 0.01 "rk3").2 (by rintro ⟨_, m, hm⟩; cases m <;> revert hm <;> decide)

/-! ## C16 -/

section
variable {V W : Type} [AddCommGroup V] [Module ℝ V] [AddCommGroup W] [Module ℝ W]

/-- **C16 (forward).** For every method, in 1-D and n-D (`F` is arbitrary): if the offset series is
non-empty and the linear series is long enough, the sweep succeeds, returns series of the length of the
offset series and starts at `(m0, s0)`; otherwise it raises `IndexError`. "Long enough" is: at least as
long as the offset series, or one shorter for Euler, or anything at all if there is only one time point. -/
theorem C16_forward_shapes (meth : Method) (F : Rhs V W) (dt : ℝ) (A : List W) (b : List V)
    (m0 : V) (s0 sigma : W) :
    (0 < b.length ∧ (b.length ≤ A.length ∨ (meth = .euler ∧ b.length ≤ A.length + 1) ∨ b.length = 1) →
      ∃ mt st, solveFwd meth F dt A b m0 s0 sigma = .ok (mt, st) ∧
        mt.length = b.length ∧ st.length = b.length ∧ mt[0]? = some m0 ∧ st[0]? = some s0) ∧
    (¬ (0 < b.length ∧ (b.length ≤ A.length ∨ (meth = .euler ∧ b.length ≤ A.length + 1) ∨ b.length = 1)) →
      solveFwd meth F dt A b m0 s0 sigma = .error .indexError) := by
  constructor
  · rintro ⟨hb, hA⟩
    have hn : needA meth b.length ≤ A.length := by
      rw [fwd_shape_iff]
      rcases hA with h | h | h
      · exact Or.inr (Or.inr h)
      · exact Or.inl h
      · exact Or.inr (Or.inl h.le)
    refine ⟨_, _, solveFwd_ok meth F dt A b m0 s0 sigma hb hn, by simp, by simp, ?_, ?_⟩ <;>
    · rw [List.getElem?_eq_getElem (by simpa using hb)]
      simp [traj]
  · intro h
    apply solveFwd_err
    by_contra hc
    rw [not_or, not_lt, fwd_shape_iff] at hc
    apply h
    refine ⟨by omega, ?_⟩
    rcases hc.2 with h1 | h1 | h1
    · exact Or.inr (Or.inl h1)
    · exact Or.inr (Or.inr (by omega))
    · exact Or.inl h1

/-- **C16 (backward).** The multiplier series have the length of the gradient series, and the last
entry is zero; the sweep fails (with `IndexError`) exactly when there are at least two time points
and one of the other series is too short. -/
theorem C16_backward_shapes (meth : Method) (F : Rhs V W) (dt : ℝ) (A : List W) (em : List V)
    (es : List W) (om : List V) (os : List W) :
    ((em.length ≤ 1 ∨ (em.length ≤ A.length ∧ em.length ≤ es.length ∧ em.length ≤ om.length + 1 ∧
        em.length ≤ os.length + 1)) →
      ∃ lam psi, solveBwd meth F dt A em es om os = .ok (lam, psi) ∧
        lam.length = em.length ∧ psi.length = em.length ∧
        (em ≠ [] → lam.getLast? = some 0 ∧ psi.getLast? = some 0)) ∧
    (¬ (em.length ≤ 1 ∨ (em.length ≤ A.length ∧ em.length ≤ es.length ∧ em.length ≤ om.length + 1 ∧
        em.length ≤ os.length + 1)) →
      solveBwd meth F dt A em es om os = .error .indexError) := by
  constructor
  · intro h
    have hs : BwdShapes em.length A.length es.length om.length os.length := by
      rcases h with h | h
      · exact Or.inl h
      · exact Or.inr (by omega)
    refine ⟨_, _, solveBwd_ok meth F dt A em es om os hs, by simp, by simp, ?_⟩
    intro hne
    have hpos : 0 < em.length := List.length_pos_of_ne_nil hne
    constructor <;>
    · rw [List.getLast?_eq_getElem?, List.getElem?_eq_getElem (by simp; omega)]
      simp [traj]
  · intro h
    apply solveBwd_err
    intro hs
    apply h
    rcases hs with hs | hs
    · exact Or.inl hs
    · exact Or.inr (by omega)

end

-- Non-vacuity: a well-shaped and an ill-shaped call.
example : ∃ mt st, solveFwd .rk4 rhs1 0.1 [1, 2, 3] [1, 1, 1] 0 1 1 = .ok (mt, st) ∧
    mt.length = 3 ∧ st.length = 3 ∧ mt[0]? = some 0 ∧ st[0]? = some 1 :=
  (C16_forward_shapes .rk4 rhs1 0.1 [1, 2, 3] [1, 1, 1] 0 1 1).1 (by simp)
example : solveFwd .heun rhs1 0.1 [1, 2] [1, 1, 1] 0 1 1 = .error .indexError :=
  (C16_forward_shapes .heun rhs1 0.1 [1, 2] [1, 1, 1] 0 1 1).2 (by simp)

/-! ## C17 -/

section
variable {V W : Type} [AddCommGroup V] [Module ℝ V] [AddCommGroup W] [Module ℝ W]

theorem half_half (dt : ℝ) : (0.5 : ℝ) * dt = dt / 2 := by norm_num; ring

/-- Values of an interpolant at the grid points and mid-points used by a forward step. -/
theorem interp_vals {X : Type} [AddCommGroup X] [Module ℝ X] {dt : ℝ} {l : List X} {f : ℝ → X}
    (h : Spec.LinInterp dt l f) (k : ℕ) (hk : k + 1 < l.length) :
    f (k * dt) = asFun l k ∧ f (k * dt + dt) = asFun l (k + 1) ∧
    f (k * dt + dt / 2) = (0.5 : ℝ) • (asFun l k + asFun l (k + 1)) := by
  have e1 := h.1 k (by omega)
  have e2 := h.1 (k + 1) hk
  have e3 := h.2 k hk (1 / 2) (by norm_num) (by norm_num)
  rw [asFun_eq hk, asFun_eq (by omega : k < l.length)]
  refine ⟨e1, ?_, ?_⟩
  · rw [← e2]; congr 1; push_cast; ring
  · have : (k : ℝ) * dt + dt / 2 = (k + 1 / 2) * dt := by ring
    rw [this, e3]; module

theorem fwdStep_mean_spec (meth : Method) (F : Rhs V W) (dt : ℝ) (A : List W) (b : List V) (sigma : W)
    (At : ℝ → W) (bt : ℝ → V) (hA : Spec.LinInterp dt A At) (hb : Spec.LinInterp dt b bt)
    (k : ℕ) (hk : k + 1 < b.length) (hkA : needA meth b.length ≤ A.length) (x : V × W) :
    (fwdStep meth F dt (asFun A) (asFun b) sigma k x).1
      = Spec.step (scheme meth) (fun t m => F.fun_mt m (At t) (bt t)) dt (k * dt) x.1 := by
  obtain ⟨b1, b2, b3⟩ := interp_vals hb k hk
  cases meth
  case euler =>
    have : k < A.length := by simp only [needA] at hkA; omega
    have a1 : At (k * dt) = asFun A k := by rw [hA.1 k this, asFun_eq this]
    simp [fwdStep, scheme, Spec.step, Spec.eulerStep, b1, a1]
  all_goals
    have hA' : k + 1 < A.length := by
      simp only [needA] at hkA
      split at hkA <;> omega
    obtain ⟨a1, a2, a3⟩ := interp_vals hA k hA'
    simp only [fwdStep, scheme, Spec.step, Spec.heunStep, Spec.midpointStep, Spec.rk4Step,
      b1, b2, b3, a1, a2, a3, half_half]
  case rk4 => module

theorem fwdStep_var_spec (meth : Method) (hm : meth ≠ .rk2) (F : Rhs V W) (dt : ℝ) (A : List W)
    (b : List V) (sigma : W)
    (At : ℝ → W) (hA : Spec.LinInterp dt A At)
    (k : ℕ) (hk : k + 1 < b.length) (hkA : needA meth b.length ≤ A.length) (x : V × W) :
    (fwdStep meth F dt (asFun A) (asFun b) sigma k x).2
      = Spec.step (scheme meth) (fun t s => F.fun_st s (At t) sigma) dt (k * dt) x.2 := by
  cases meth
  case euler =>
    have : k < A.length := by simp only [needA] at hkA; omega
    have a1 : At (k * dt) = asFun A k := by rw [hA.1 k this, asFun_eq this]
    simp [fwdStep, scheme, Spec.step, Spec.eulerStep, a1]
  case rk2 => exact absurd rfl hm
  all_goals
    have hA' : k + 1 < A.length := by
      simp only [needA] at hkA
      split at hkA <;> omega
    obtain ⟨a1, a2, a3⟩ := interp_vals hA k hA'
    simp only [fwdStep, scheme, Spec.step, Spec.heunStep, Spec.rk4Step,
      a1, a2, a3, half_half]
  case rk4 => module

theorem forward_steps_generic (meth : Method) (F : Rhs V W) (dt : ℝ) (A : List W) (b : List V)
    (m0 : V) (s0 sigma : W) (mt : List V) (st : List W)
    (hrun : solveFwd meth F dt A b m0 s0 sigma = .ok (mt, st))
    (At : ℝ → W) (bt : ℝ → V) (hA : Spec.LinInterp dt A At) (hb : Spec.LinInterp dt b bt) :
    (∀ k (h : k + 1 < mt.length), mt[k + 1]
        = Spec.step (scheme meth) (fun t m => F.fun_mt m (At t) (bt t)) dt (k * dt) mt[k]) ∧
    (meth ≠ .rk2 → ∀ k (h : k + 1 < st.length), st[k + 1]
        = Spec.step (scheme meth) (fun t s => F.fun_st s (At t) sigma) dt (k * dt) st[k]) := by
  obtain ⟨hpos, hn, _, _⟩ := solveFwd_inv hrun
  obtain ⟨l1, l2, hstep⟩ := solveFwd_step hrun
  constructor
  · intro k h
    have := congrArg Prod.fst (hstep k h (by omega))
    rw [fwdStep_mean_spec meth F dt A b sigma At bt hA hb k (by omega) hn] at this
    exact this
  · intro hm k h
    have := congrArg Prod.snd (hstep k (by omega) h)
    rw [fwdStep_var_spec meth hm F dt A b sigma At hA k (by omega) hn] at this
    exact this

end

/-- **C17 (n-D, partial).** Consecutive entries of a forward sweep in `d` dimensions are related by one
textbook step for `dm/dt = -A m + b` and `dS/dt = -A S - S A' + Sigma`, where `A(t)`, `b(t)` are the
piecewise linear interpolants of the given series.
Full statement: for all four methods. Missing: the covariance series of RK2, where it is false
(`C17_rk2_variance_violated`). -/
theorem C17_forward_steps_nD_partial (d : ℕ) (meth : Method) (dt : ℝ)
    (A : List (Matrix (Fin d) (Fin d) ℝ)) (b : List (Fin d → ℝ)) (m0 : Fin d → ℝ)
    (s0 sigma : Matrix (Fin d) (Fin d) ℝ) (mt st)
    (hrun : solveFwd meth (rhsN d) dt A b m0 s0 sigma = .ok (mt, st))
    (At : ℝ → Matrix (Fin d) (Fin d) ℝ) (bt : ℝ → Fin d → ℝ)
    (hA : Spec.LinInterp dt A At) (hb : Spec.LinInterp dt b bt) :
    (∀ k (h : k + 1 < mt.length), mt[k + 1]
        = Spec.step (scheme meth) (fun t m => -(At t *ᵥ m) + bt t) dt (k * dt) mt[k]) ∧
    (meth ≠ .rk2 → ∀ k (h : k + 1 < st.length), st[k + 1]
        = Spec.step (scheme meth) (fun t S => -(At t * S) - S * (At t)ᵀ + sigma) dt (k * dt) st[k]) :=
  forward_steps_generic meth (rhsN d) dt A b m0 s0 sigma mt st hrun At bt hA hb

/-- **C17 (1-D, partial).** The same for scalar series, `dm/dt = -a m + b`, `ds/dt = -2 a s + Sigma`. -/
theorem C17_forward_steps_1D_partial (meth : Method) (dt : ℝ) (a b : List ℝ) (m0 s0 sigma : ℝ) (mt st)
    (hrun : solveFwd meth rhs1 dt a b m0 s0 sigma = .ok (mt, st))
    (at_ bt : ℝ → ℝ) (hA : Spec.LinInterp dt a at_) (hb : Spec.LinInterp dt b bt) :
    (∀ k (h : k + 1 < mt.length), mt[k + 1]
        = Spec.step (scheme meth) (fun t m => -(at_ t * m) + bt t) dt (k * dt) mt[k]) ∧
    (meth ≠ .rk2 → ∀ k (h : k + 1 < st.length), st[k + 1]
        = Spec.step (scheme meth) (fun t s => -(2 * at_ t * s) + sigma) dt (k * dt) st[k]) :=
  forward_steps_generic meth rhs1 dt a b m0 s0 sigma mt st hrun at_ bt hA hb

/-- **C17 is violated by RK2's variance.** With `dt = 1`, constant `a = 2`, `Sigma = 1`, `s0 = 1` over two
points, the explicit midpoint rule gives the variance 4, RK2 returns 0. The cause is
`fun_st(sk, sk, sigma)` in `/repo/src/numerics/runge_kutta2.py:96`. -/
theorem C17_rk2_variance_violated :
    ∃ st mt : List ℝ, solveFwd .rk2 rhs1 1 [2, 2] [0, 0] 0 1 1 = .ok (mt, st) ∧
      st = [1, 0] ∧
      Spec.step (scheme .rk2) (fun _ s => -(2 * 2 * s) + 1) (1 : ℝ) 0 (1 : ℝ) = 4 := by
  refine ⟨[1, 0], [0, 0], ?_, rfl, ?_⟩
  · rw [solveFwd_ok _ _ _ _ _ _ _ _ (by simp) (by simp [needA])]
    simp [List.range_succ, traj, fwdStep, rhs1, asFun]
    norm_num
  · simp [scheme, Spec.step, Spec.midpointStep]; norm_num

-- Non-vacuity: a run and interpolants that meet the hypotheses of C17.
example : ∃ mt st at_ bt, solveFwd .rk4 rhs1 0.1 [1, 2, 3] [1, 0, 1] 0 1 1 = .ok (mt, st) ∧
    Spec.LinInterp 0.1 ([1, 2, 3] : List ℝ) at_ ∧ Spec.LinInterp 0.1 ([1, 0, 1] : List ℝ) bt := by
  obtain ⟨mt, st, h, _⟩ := (C16_forward_shapes .rk4 rhs1 0.1 [1, 2, 3] [1, 0, 1] 0 1 1).1 (by simp)
  obtain ⟨f, hf⟩ := Spec.exists_linInterp (0.1 : ℝ) (by norm_num) ([1, 2, 3] : List ℝ)
  obtain ⟨g, hg⟩ := Spec.exists_linInterp (0.1 : ℝ) (by norm_num) ([1, 0, 1] : List ℝ)
  exact ⟨mt, st, f, g, h, hf, hg⟩

/-! ## C18 -/

section
variable {V W : Type} [AddCommGroup V] [Module ℝ V] [AddCommGroup W] [Module ℝ W]

theorem interp_vals_bwd {X : Type} [AddCommGroup X] [Module ℝ X] {dt : ℝ} {l : List X} {f : ℝ → X}
    (h : Spec.LinInterp dt l f) (k : ℕ) (hk : k + 1 < l.length) :
    f ((k + 1 : ℕ) * dt) = asFun l (k + 1) ∧ f ((k + 1 : ℕ) * dt + -dt) = asFun l k ∧
    f ((k + 1 : ℕ) * dt + -(dt / 2)) = (0.5 : ℝ) • (asFun l k + asFun l (k + 1)) := by
  obtain ⟨e1, e2, e3⟩ := interp_vals h k hk
  refine ⟨?_, ?_, ?_⟩
  · rw [← e2]; congr 1; push_cast; ring
  · rw [← e1]; congr 1; push_cast; ring
  · rw [← e3]; congr 1; push_cast; ring

theorem backward_steps_generic (meth : Method) (F : Rhs V W) (dt : ℝ) (A : List W) (em : List V)
    (es : List W) (om : List V) (os : List W) (lam : List V) (psi : List W)
    (hrun : solveBwd meth F dt A em es om os = .ok (lam, psi))
    (At : ℝ → W) (Em : ℝ → V) (Es : ℝ → W)
    (hA : Spec.LinInterp dt A At) (hm : Spec.LinInterp dt em Em) (hs : Spec.LinInterp dt es Es) :
    (∀ k (h : k + 1 < lam.length) (ho : k < om.length), lam[k]
        = Spec.step (scheme meth) (fun t l => F.fun_lam (Em t) (At t) l) (-dt) ((k + 1 : ℕ) * dt) lam[k + 1]
          + om[k]) ∧
    (∀ k (h : k + 1 < psi.length) (ho : k < os.length), psi[k]
        = Spec.step (scheme meth) (fun t p => F.fun_psi (Es t) (At t) p) (-dt) ((k + 1 : ℕ) * dt) psi[k + 1]
          + os[k]) := by
  obtain ⟨hsh, _, _⟩ := solveBwd_inv hrun
  obtain ⟨l1, l2, _, hstep⟩ := solveBwd_step hrun
  constructor
  · intro k h ho
    have hsh' := hsh.resolve_left (by omega)
    have := congrArg Prod.fst (hstep k h (by omega))
    simp only at this
    rw [this, ← asFun_eq ho]
    obtain ⟨a1, a2, a3⟩ := interp_vals_bwd hA k (by omega)
    obtain ⟨m1, m2, m3⟩ := interp_vals_bwd hm k (by omega)
    cases meth <;>
      simp only [bwdStep, scheme, Spec.step, Spec.eulerStep, Spec.heunStep, Spec.midpointStep,
        Spec.rk4Step, Nat.add_sub_cancel, a1, a2, a3, m1, m2, m3, half_half, sub_eq_add_neg,
        neg_div, neg_smul]
    all_goals module
  · intro k h ho
    have hsh' := hsh.resolve_left (by omega)
    have := congrArg Prod.snd (hstep k (by omega) h)
    simp only at this
    rw [this, ← asFun_eq ho]
    obtain ⟨a1, a2, a3⟩ := interp_vals_bwd hA k (by omega)
    obtain ⟨m1, m2, m3⟩ := interp_vals_bwd hs k (by omega)
    cases meth <;>
      simp only [bwdStep, scheme, Spec.step, Spec.eulerStep, Spec.heunStep, Spec.midpointStep,
        Spec.rk4Step, Nat.add_sub_cancel, a1, a2, a3, m1, m2, m3, half_half, sub_eq_add_neg,
        neg_div, neg_smul]
    all_goals module

end

/-- **C18 (n-D).** Consecutive entries of a backward sweep are related by one textbook step with
step `-dt` for `d lam/dt = -dE/dm + lam A'` and `d psi/dt = -dE/dS + psi A + A' psi`, plus the observation
jump at the new time. -/
theorem C18_backward_steps_nD (d : ℕ) (meth : Method) (dt : ℝ)
    (A : List (Matrix (Fin d) (Fin d) ℝ)) (em : List (Fin d → ℝ)) (es : List (Matrix (Fin d) (Fin d) ℝ))
    (om : List (Fin d → ℝ)) (os : List (Matrix (Fin d) (Fin d) ℝ)) (lam psi)
    (hrun : solveBwd meth (rhsN d) dt A em es om os = .ok (lam, psi))
    (At : ℝ → Matrix (Fin d) (Fin d) ℝ) (Em : ℝ → Fin d → ℝ) (Es : ℝ → Matrix (Fin d) (Fin d) ℝ)
    (hA : Spec.LinInterp dt A At) (hm : Spec.LinInterp dt em Em) (hs : Spec.LinInterp dt es Es) :
    (∀ k (h : k + 1 < lam.length) (ho : k < om.length), lam[k]
        = Spec.step (scheme meth) (fun t l => -(Em t) + l ᵥ* (At t)ᵀ) (-dt) ((k + 1 : ℕ) * dt) lam[k + 1]
          + om[k]) ∧
    (∀ k (h : k + 1 < psi.length) (ho : k < os.length), psi[k]
        = Spec.step (scheme meth) (fun t p => -(Es t) + p * At t + (At t)ᵀ * p) (-dt) ((k + 1 : ℕ) * dt)
            psi[k + 1] + os[k]) :=
  backward_steps_generic meth (rhsN d) dt A em es om os lam psi hrun At Em Es hA hm hs

/-- **C18 (1-D).** -/
theorem C18_backward_steps_1D (meth : Method) (dt : ℝ) (a em es om os : List ℝ) (lam psi)
    (hrun : solveBwd meth rhs1 dt a em es om os = .ok (lam, psi))
    (at_ Em Es : ℝ → ℝ)
    (hA : Spec.LinInterp dt a at_) (hm : Spec.LinInterp dt em Em) (hs : Spec.LinInterp dt es Es) :
    (∀ k (h : k + 1 < lam.length) (ho : k < om.length), lam[k]
        = Spec.step (scheme meth) (fun t l => -(Em t) + l * at_ t) (-dt) ((k + 1 : ℕ) * dt) lam[k + 1]
          + om[k]) ∧
    (∀ k (h : k + 1 < psi.length) (ho : k < os.length), psi[k]
        = Spec.step (scheme meth) (fun t p => -(Es t) + 2 * p * at_ t) (-dt) ((k + 1 : ℕ) * dt)
            psi[k + 1] + os[k]) :=
  backward_steps_generic meth rhs1 dt a em es om os lam psi hrun at_ Em Es hA hm hs

-- Non-vacuity.
example : ∃ lam psi, solveBwd .heun rhs1 0.1 [1, 2, 3] [1, 1, 1] [1, 0, 1] [0, 5, 0] [0, 1, 0]
    = .ok (lam, psi) := by
  obtain ⟨l, p, h, _⟩ := (C16_backward_shapes .heun rhs1 0.1 [1, 2, 3] [1, 1, 1] [1, 0, 1] [0, 5, 0]
    [0, 1, 0]).1 (by simp)
  exact ⟨l, p, h⟩

end VGPA
