import Verif.Props.VarGPGrad1
import Verif.Props.OdeAdjoint

/-!
# C96: the gradient and the derivative of the free energy
-/

namespace VGPA

open Finset

variable {n k : ℕ}

/-! ## Sequences -/

/-- The Euler recursion of the mean. -/
noncomputable def eulerMean (dt m0 : ℝ) (a b : ℕ → ℝ) : ℕ → ℝ
  | 0 => m0
  | k + 1 => eulerMean dt m0 a b k + dt * (-(a k * eulerMean dt m0 a b k) + b k)

/-- The Euler recursion of the variance. -/
noncomputable def eulerVar (dt s0 sigma : ℝ) (a : ℕ → ℝ) : ℕ → ℝ
  | 0 => s0
  | k + 1 => eulerVar dt s0 sigma a k + dt * (-(2 * a k * eulerVar dt s0 sigma a k) + sigma)

/-- The derivative of the mean along a direction. -/
noncomputable def eulerMean' (dt m0 : ℝ) (a b α β : ℕ → ℝ) : ℕ → ℝ
  | 0 => 0
  | k + 1 => eulerMean' dt m0 a b α β k
      + dt * (-(a k * eulerMean' dt m0 a b α β k) + (β k - α k * eulerMean dt m0 a b k))

/-- The derivative of the variance along a direction. -/
noncomputable def eulerVar' (dt s0 sigma : ℝ) (a α : ℕ → ℝ) : ℕ → ℝ
  | 0 => 0
  | k + 1 => eulerVar' dt s0 sigma a α k
      + dt * (-(2 * a k * eulerVar' dt s0 sigma a α k) + (-(2 * α k * eulerVar dt s0 sigma a k)))

theorem eulerMean_hasDerivAt (dt m0 : ℝ) (a b α β : ℕ → ℝ) (i : ℕ) :
    HasDerivAt (fun ε : ℝ => eulerMean dt m0 (fun k => a k + ε * α k) (fun k => b k + ε * β k) i)
      (eulerMean' dt m0 a b α β i) 0 := by
  induction i with
  | zero => exact hasDerivAt_const _ _
  | succ i ih =>
    have ha : HasDerivAt (fun ε : ℝ => a i + ε * α i) (α i) 0 := by
      simpa using ((hasDerivAt_id' (0 : ℝ)).mul_const (α i)).const_add (a i)
    have hb : HasDerivAt (fun ε : ℝ => b i + ε * β i) (β i) 0 := by
      simpa using ((hasDerivAt_id' (0 : ℝ)).mul_const (β i)).const_add (b i)
    have h := ih.fun_add ((((ha.fun_mul ih).fun_neg).fun_add hb).const_mul dt)
    refine h.congr_deriv ?_
    simp only [eulerMean', zero_mul, add_zero]
    ring

theorem eulerVar_hasDerivAt (dt s0 sigma : ℝ) (a α : ℕ → ℝ) (i : ℕ) :
    HasDerivAt (fun ε : ℝ => eulerVar dt s0 sigma (fun k => a k + ε * α k) i) (eulerVar' dt s0 sigma a α i) 0 := by
  induction i with
  | zero => exact hasDerivAt_const _ _
  | succ i ih =>
    have ha : HasDerivAt (fun ε : ℝ => a i + ε * α i) (α i) 0 := by
      simpa using ((hasDerivAt_id' (0 : ℝ)).mul_const (α i)).const_add (a i)
    have h := ih.fun_add ((((ha.const_mul 2).fun_mul ih).fun_neg.add_const sigma).const_mul dt)
    refine h.congr_deriv ?_
    simp only [eulerVar', zero_mul, add_zero]
    ring

/-- Summation by parts for the multipliers. -/
theorem sum_multipliers (N : ℕ) (dt c : ℝ) (l e j a u M : ℕ → ℝ)
    (hl : ∀ t < N, l t = l (t + 1) - dt * (-e (t + 1) + c * a (t + 1) * l (t + 1)) + j t)
    (hN : l N = 0) (h0 : M 0 = 0) (hM : ∀ t, M (t + 1) = M t + dt * (-(c * a t * M t) + u t)) :
    dt * ∑ t ∈ range (N + 1), l t * u t = ∑ t ∈ range N, M (t + 1) * (dt * e (t + 1) + j t) := by
  have key : ∀ n ≤ N, dt * ∑ t ∈ range n, l t * u t
      = ∑ t ∈ range n, M (t + 1) * (dt * e (t + 1) + j t) + (1 - dt * (c * a n)) * l n * M n := by
    intro n
    induction n with
    | zero => simp [h0]
    | succ n ih =>
      intro hn
      rw [sum_range_succ, sum_range_succ, mul_add, ih (by omega)]
      have e1 := hl n (by omega)
      have e2 := hM n
      have : dt * u n = M (n + 1) - M n + dt * (c * a n * M n) := by rw [e2]; ring
      have e3 : (1 - dt * (c * a (n + 1))) * l (n + 1) = l n - dt * e (n + 1) - j n := by rw [e1]; ring
      rw [e3, show dt * (l n * u n) = l n * (dt * u n) by ring, this]
      ring
  rw [sum_range_succ, hN, zero_mul, add_zero, key N le_rfl, hN]
  ring

/-- The trapezoidal rule as a sum. -/
theorem rule_ofFn_sum (dt : ℝ) (N : ℕ) (q : ℕ → ℝ) : Spec.trapezoidRule dt (List.ofFn fun i : Fin (N + 1) => q i)
    = dt * ∑ t ∈ range (N + 1), q t - dt / 2 * (q 0 + q N) := by
  induction N generalizing q with
  | zero => simp [Spec.trapezoidRule]; ring
  | succ N ih =>
    have := ih (fun i => q (i + 1))
    rw [List.ofFn_succ]
    rw [List.ofFn_succ] at this ⊢
    simp only [Fin.val_zero, Fin.val_succ, zero_add] at this ⊢
    rw [Spec.trapezoidRule, this, sum_range_succ' (fun t => q t) (N + 1)]
    simp only [smul_eq_mul]
    ring

/-! ## The objects -/

theorem entry_ofFn (a : Fin n → ℝ) (i : Fin n) : entry (List.ofFn a) i = a i := by simp [entry]

theorem entry_line (a α : Fin n → ℝ) (ε : ℝ) :
    entry (List.ofFn fun i => a i + ε * α i) = fun t => entry (List.ofFn a) t + ε * entry (List.ofFn α) t := by
  funext t
  by_cases h : t < n <;> simp [entry, h]

theorem euler_moments {dt : ℝ} {a b m s : Fin n → ℝ} {m0 s0 sigma : ℝ}
    (h : solveFwd .euler rhs1 dt (List.ofFn a) (List.ofFn b) m0 s0 sigma = .ok (List.ofFn m, List.ofFn s)) (i : Fin n) :
    m i = eulerMean dt m0 (entry (List.ofFn a)) (entry (List.ofFn b)) i
      ∧ s i = eulerVar dt s0 sigma (entry (List.ofFn a)) i := by
  obtain ⟨i, hi⟩ := i
  induction i with
  | zero =>
    obtain ⟨hb, -, hm, hs⟩ := solveFwd_inv h
    have e1 := congrArg (fun l => l[0]?) hm
    have e2 := congrArg (fun l => l[0]?) hs
    simp [traj, hi] at e1 e2
    exact ⟨e1, e2⟩
  | succ i ih =>
    obtain ⟨h1, h2⟩ := euler_fwd_entries h i (by simpa using hi)
    obtain ⟨e1, e2⟩ := ih (by omega)
    have f1 := entry_ofFn m ⟨i + 1, hi⟩
    have f2 := entry_ofFn m ⟨i, by omega⟩
    have f3 := entry_ofFn s ⟨i + 1, hi⟩
    have f4 := entry_ofFn s ⟨i, by omega⟩
    simp only at f1 f2 f3 f4 e1 e2
    rw [f1, f2, e1] at h1
    rw [f3, f4, e2] at h2
    exact ⟨h1, h2⟩

/-- The chain rule for a function of four variables with the given partial derivatives. -/
def Chain4 (Q Qa Qb Qm Qs : ℝ → ℝ → ℝ → ℝ → ℝ) : Prop :=
  ∀ (A B M S : ℝ → ℝ) (α β m' s' : ℝ), HasDerivAt A α 0 → HasDerivAt B β 0 → HasDerivAt M m' 0 → HasDerivAt S s' 0 →
    HasDerivAt (fun ε => Q (A ε) (B ε) (M ε) (S ε)) (Qa (A 0) (B 0) (M 0) (S 0) * α + Qb (A 0) (B 0) (M 0) (S 0) * β
      + Qm (A 0) (B 0) (M 0) (S 0) * m' + Qs (A 0) (B 0) (M 0) (S 0) * s') 0

/-- A one dimensional process whose energy is the integral of `Q + X`, where the gradients that it reports and the ones that `VarGP` adds are
those of `Q`. -/
structure Energy1Of (M : SdeModel ℝ ℝ) (n : ℕ) (obs : List ℕ) (dt : ℝ) (ef edf : ℝ → ℝ → ℝ)
    (Q Qa Qb Qm Qs X : ℝ → ℝ → ℝ → ℝ → ℝ) : Prop where
  energy : ∀ a b m s : Fin n → ℝ, M.energy (List.ofFn a) (List.ofFn b) (List.ofFn m) (List.ofFn s) obs
    = .ok ⟨Spec.trapezoidRule dt (List.ofFn fun i => Q (a i) (b i) (m i) (s i) + X (a i) (b i) (m i) (s i)),
        List.ofFn fun i => ef (m i) (s i), List.ofFn fun i => edf (m i) (s i),
        List.ofFn fun i => Qm (a i) (b i) (m i) (s i), List.ofFn fun i => Qs (a i) (b i) (m i) (s i)⟩
  chain : Chain4 Q Qa Qb Qm Qs
  da : ∀ a b m s, M.inverse_sigma * (edf m s + a) * s - M.inverse_sigma * (-ef m s - a * m + b) * m = Qa a b m s
  db : ∀ a b m s, M.inverse_sigma * (-ef m s - a * m + b) = Qb a b m s

namespace Spec

/-- The value at the next grid point, zero after the last one. -/
def after (f : Fin n → ℝ) (i : Fin n) : ℝ := if h : (i : ℕ) + 1 < n then f ⟨i + 1, h⟩ else 0

/-- `free_energy` at the points `(a + ε α, b + ε β)` returns `F ε`, and `arg_out` then shows the moments `m ε`, `s ε`. -/
def AlongLine (o : VarGP ℝ ℝ) (a b α β : Fin n → ℝ) (F : ℝ → ℝ) (m s : ℝ → Fin n → ℝ) : Prop :=
  ∀ ε, ∃ (c : VgpCache ℝ ℝ) (o' : VarGP ℝ ℝ),
    o.freeEnergy shape1 (List.ofFn (fun i => a i + ε * α i) ++ List.ofFn fun i => b i + ε * β i) = (.ok (F ε), o')
    ∧ o'.argOut = (o.m0, o.s0, some c) ∧ c.mt = List.ofFn (m ε) ∧ c.st = List.ofFn (s ε)

end Spec

/-- Both integrators are Euler's, with the step of the object. -/
structure EulerOnly (o : VarGP ℝ ℝ) : Prop where
  fwd : o.fwd_ode.solver = .euler
  bwd : o.bwd_ode.solver = .euler
  fdt : o.fwd_ode.dt = o.dt
  bdt : o.bwd_ode.dt = o.dt

section
variable {o : VarGP ℝ ℝ} {y : Fin k → ℝ} {t : Fin k → Fin n} {R : ℝ} {p : Prior1} {ef edf : ℝ → ℝ → ℝ}
  {Q Qa Qb Qm Qs X : ℝ → ℝ → ℝ → ℝ → ℝ}

/-- The free energy in closed form, and the multipliers. -/
theorem euler_eval (ho : Vgp1Ok o n k y t R 1 p) (hE : EulerOnly o)
    (he : Energy1Of o.model n o.obs_t o.dt ef edf Q Qa Qb Qm Qs X) (a b m s : Fin n → ℝ)
    (hm : m = fun i : Fin n => eulerMean o.dt o.m0 (entry (List.ofFn a)) (entry (List.ofFn b)) i)
    (hs : s = fun i : Fin n => eulerVar o.dt o.s0 o.model.sigma (entry (List.ofFn a)) i) :
    ∃ lam psi jm js : Fin n → ℝ, o.eval shape1 (List.ofFn a ++ List.ofFn b) = .ok (p.gauss o.m0 o.s0
        + Spec.trapezoidRule o.dt (List.ofFn fun i => Q (a i) (b i) (m i) (s i) + X (a i) (b i) (m i) (s i))
        + ∑ j, (0.5 * (y j ^ 2 - 2 * y j * m (t j) + (m (t j) ^ 2 + s (t j))) / R + 0.5 * (log2pi + Real.log R)),
        ⟨List.ofFn m, List.ofFn s, List.ofFn fun i => ef (m i) (s i), List.ofFn fun i => edf (m i) (s i), List.ofFn lam,
          List.ofFn psi⟩)
      ∧ solveBwd .euler rhs1 o.dt (List.ofFn a) (List.ofFn fun i => Qm (a i) (b i) (m i) (s i))
          (List.ofFn fun i => Qs (a i) (b i) (m i) (s i)) (List.ofFn jm) (List.ofFn js) = .ok (List.ofFn lam, List.ofFn psi)
      ∧ (∀ j, jm (t j) = (m (t j) - y j) / R) ∧ (∀ j, js (t j) = 1 / (2 * R))
      ∧ ∀ i, (∀ j, t j ≠ i) → jm i = 0 ∧ js i = 0 := by
  have hp := ho.pos
  obtain ⟨mt, st, h1, hml, hsl, _⟩ := (C16_forward_shapes o.fwd_ode.solver rhs1 o.fwd_ode.dt (List.ofFn a) (List.ofFn b)
    o.m0 o.s0 o.model.sigma).1 ⟨by simpa using hp, Or.inl (by simp)⟩
  obtain ⟨m', rfl⟩ := list_eq_ofFn (hml.trans (List.length_ofFn))
  obtain ⟨s', rfl⟩ := list_eq_ofFn (hsl.trans (List.length_ofFn))
  rw [hE.fwd, hE.fdt] at h1
  obtain rfl : m = m' := by rw [hm]; funext i; exact (euler_moments h1 i).1.symm
  obtain rfl : s = s' := by rw [hs]; funext i; exact (euler_moments h1 i).2.symm
  obtain ⟨jm, js, jr, h3, g1, g2, -, g3⟩ := like1_gradients_eq 1 R y t ho.inj m s
  obtain ⟨lt, pt, h4, hl, hps, _⟩ := (C16_backward_shapes .euler rhs1 o.dt (List.ofFn a)
    (List.ofFn fun i => Qm (a i) (b i) (m i) (s i)) (List.ofFn fun i => Qs (a i) (b i) (m i) (s i)) (List.ofFn jm)
      (List.ofFn js)).1 (Or.inr (by simp))
  obtain ⟨lam, rfl⟩ := list_eq_ofFn (hl.trans (List.length_ofFn))
  obtain ⟨psi, rfl⟩ := list_eq_ofFn (hps.trans (List.length_ofFn))
  have hu := (C58_pack_unpack_1d a b).2.1
  simp only [shape1, id] at hu
  refine ⟨lam, psi, jm, js, ?_, h4, fun j => ?_, fun j => ?_, fun i hi => ⟨(g3 i hi).1, (g3 i hi).2.1⟩⟩
  · unfold VarGP.eval
    rw [ho.dim, ho.like, ho.prior, hE.fwd, hE.fdt, hE.bwd, hE.bdt]
    simp only [shape1, hu, bind, Except.bind, h1, Like1.toIf, like1_gauss_eq 1 R y t m s, he.energy, h3, pure, Except.pure, h4]
  · rw [g1]; ring
  · rw [g2]; norm_num; ring

/-- The trapezoidal rule as a sum over the grid. -/
theorem rule_fin (dt : ℝ) {N : ℕ} (f : Fin (N + 1) → ℝ) : Spec.trapezoidRule dt (List.ofFn f)
    = dt * ∑ i, f i - dt / 2 * (f 0 + f (Fin.last N)) := by
  have h := rule_ofFn_sum dt N (entry (List.ofFn f))
  have e1 : (fun i : Fin (N + 1) => entry (List.ofFn f) i) = f := funext fun i => entry_ofFn f i
  have e2 := entry_ofFn f 0
  have e3 := entry_ofFn f (Fin.last N)
  rw [e1, Finset.sum_range] at h
  rw [h]
  simp only [entry_ofFn]
  simp only [Fin.val_zero, Fin.val_last] at e2 e3
  rw [e2, e3]

theorem rule_fin_hasDerivAt (dt : ℝ) {N : ℕ} {f : ℝ → Fin (N + 1) → ℝ} {f' : Fin (N + 1) → ℝ}
    (h : ∀ i, HasDerivAt (fun ε => f ε i) (f' i) 0) :
    HasDerivAt (fun ε => Spec.trapezoidRule dt (List.ofFn (f ε))) (Spec.trapezoidRule dt (List.ofFn f')) 0 := by
  simp only [rule_fin]
  exact ((HasDerivAt.fun_sum fun i _ => h i).const_mul dt).fun_sub (((h 0).fun_add (h (Fin.last N))).const_mul (dt / 2))

/-- `sum_multipliers` for sequences on the grid. -/
theorem sum_multipliers_fin {N : ℕ} (dt c : ℝ) (l e j a : Fin (N + 1) → ℝ) (u M : ℕ → ℝ)
    (hl : ∀ t, t < N → entry (List.ofFn l) t = entry (List.ofFn l) (t + 1) - dt * (-entry (List.ofFn e) (t + 1)
      + c * entry (List.ofFn a) (t + 1) * entry (List.ofFn l) (t + 1)) + entry (List.ofFn j) t)
    (hN : entry (List.ofFn l) N = 0) (h0 : M 0 = 0)
    (hM : ∀ t, M (t + 1) = M t + dt * (-(c * entry (List.ofFn a) t * M t) + u t)) :
    dt * ∑ i, l i * u i = ∑ i : Fin (N + 1), (dt * (e i * M i) + j i * Spec.after (fun i : Fin (N + 1) => M i) i) := by
  have h := sum_multipliers N dt c _ _ (entry (List.ofFn j)) (entry (List.ofFn a)) u M hl hN h0 hM
  rw [Finset.sum_range] at h
  simp only [entry_ofFn] at h
  rw [h, Finset.sum_add_distrib, Fin.sum_univ_succ (fun i => dt * (e i * M i)),
    Fin.sum_univ_castSucc (fun i : Fin (N + 1) => j i * Spec.after (fun i : Fin (N + 1) => M i) i), Finset.sum_range]
  simp only [Fin.val_zero, h0, mul_zero, zero_add, Spec.after, Fin.val_last, lt_irrefl, dif_neg, not_false_eq_true, add_zero]
  rw [← Finset.sum_add_distrib]
  refine Finset.sum_congr rfl fun i _ => ?_
  have e1 := entry_ofFn e i.succ
  have e2 := entry_ofFn j i.castSucc
  simp only [Fin.val_succ, Fin.val_castSucc] at e1 e2
  simp only [Fin.val_castSucc, Fin.val_succ, Nat.add_lt_add_iff_right, Fin.is_lt, dif_pos]
  rw [e1, e2]
  ring

/-- The relation between gradient and derivative. -/
theorem gradient_derivative (ho : Vgp1Ok o n k y t R 1 p) (hE : EulerOnly o)
    (he : Energy1Of o.model n o.obs_t o.dt ef edf Q Qa Qb Qm Qs X)
    (hX : ∀ (A B M S : ℝ → ℝ) (α β m' s' : ℝ), HasDerivAt A α 0 → HasDerivAt B β 0 → HasDerivAt M m' 0 → HasDerivAt S s' 0 →
      ∃ D, HasDerivAt (fun ε => X (A ε) (B ε) (M ε) (S ε)) D 0) (a b α β : Fin n → ℝ) :
    ∃ (F : ℝ → ℝ) (m s : ℝ → Fin n → ℝ) (gA gB m' s' q' x' : Fin n → ℝ) (o' : VarGP ℝ ℝ),
      Spec.AlongLine o a b α β F m s
      ∧ o.gradient shape1 (List.ofFn a ++ List.ofFn b) true = (.ok (List.ofFn gA ++ List.ofFn gB), o')
      ∧ (∀ i, HasDerivAt (fun ε => m ε i) (m' i) 0) ∧ (∀ i, HasDerivAt (fun ε => s ε i) (s' i) 0)
      ∧ (∀ i, HasDerivAt (fun ε => Q (a i + ε * α i) (b i + ε * β i) (m ε i) (s ε i)) (q' i) 0)
      ∧ (∀ i, HasDerivAt (fun ε => X (a i + ε * α i) (b i + ε * β i) (m ε i) (s ε i)) (x' i) 0)
      ∧ HasDerivAt F (∑ i, (gA i * α i + gB i * β i)
          - o.dt / 2 * (q' ⟨0, ho.pos⟩ + q' ⟨n - 1, by have := ho.pos; omega⟩)
          - ∑ j, ((m 0 (t j) - y j) / R * (Spec.after m' (t j) - m' (t j))
            + 1 / (2 * R) * (Spec.after s' (t j) - s' (t j)))
          + Spec.trapezoidRule o.dt (List.ofFn x')) 0 := by
  obtain ⟨N, rfl⟩ : ∃ N, n = N + 1 := ⟨n - 1, by have := ho.pos; omega⟩
  set m : ℝ → Fin (N + 1) → ℝ := fun ε i => eulerMean o.dt o.m0 (entry (List.ofFn fun i => a i + ε * α i))
    (entry (List.ofFn fun i => b i + ε * β i)) i with hm
  set s : ℝ → Fin (N + 1) → ℝ := fun ε i => eulerVar o.dt o.s0 o.model.sigma (entry (List.ofFn fun i => a i + ε * α i)) i
    with hs
  set M' := eulerMean' o.dt o.m0 (entry (List.ofFn a)) (entry (List.ofFn b)) (entry (List.ofFn α)) (entry (List.ofFn β)) with hM'
  set S' := eulerVar' o.dt o.s0 o.model.sigma (entry (List.ofFn a)) (entry (List.ofFn α)) with hS'
  have dm : ∀ i : Fin (N + 1), HasDerivAt (fun ε => m ε i) (M' i) 0 := by
    intro i
    simp only [hm, entry_line]
    exact eulerMean_hasDerivAt _ _ _ _ _ _ _
  have ds : ∀ i : Fin (N + 1), HasDerivAt (fun ε => s ε i) (S' i) 0 := by
    intro i
    simp only [hs, entry_line]
    exact eulerVar_hasDerivAt _ _ _ _ _ _
  have da : ∀ i, HasDerivAt (fun ε : ℝ => a i + ε * α i) (α i) 0 := fun i => by
    simpa using ((hasDerivAt_id' (0 : ℝ)).mul_const (α i)).const_add (a i)
  have db : ∀ i, HasDerivAt (fun ε : ℝ => b i + ε * β i) (β i) 0 := fun i => by
    simpa using ((hasDerivAt_id' (0 : ℝ)).mul_const (β i)).const_add (b i)
  have dq := fun i => he.chain _ _ _ _ _ _ _ _ (da i) (db i) (dm i) (ds i)
  simp only [zero_mul, add_zero] at dq
  choose x' dx using fun i => hX _ _ _ _ _ _ _ _ (da i) (db i) (dm i) (ds i)
  have ev := fun ε => euler_eval ho hE he (fun i => a i + ε * α i) (fun i => b i + ε * β i) (m ε) (s ε) rfl rfl
  choose lam psi jm js h1 h2 h3 h4 h5 using ev
  have hline : ∀ ε, o.freeEnergy shape1 (List.ofFn (fun i => a i + ε * α i) ++ List.ofFn fun i => b i + ε * β i)
      = (.ok _, { o with cache := some _ }) := fun ε => by
    unfold VarGP.freeEnergy
    rw [h1 ε]
  have hx : (List.ofFn fun i => a i + 0 * α i) ++ (List.ofFn fun i => b i + 0 * β i) = List.ofFn a ++ List.ofFn b := by simp
  have hgrad : o.gradient shape1 (List.ofFn a ++ List.ofFn b) true = (.ok
        (List.ofFn (fun i => o.dt * (Qa (a i) (b i) (m 0 i) (s 0 i) - lam 0 i * m 0 i - 2 * psi 0 i * s 0 i))
          ++ List.ofFn (fun i => o.dt * (Qb (a i) (b i) (m 0 i) (s 0 i) + lam 0 i))), { o with cache := some (VgpCache.mk
            (List.ofFn (m 0)) (List.ofFn (s 0)) (List.ofFn fun i => ef (m 0 i) (s 0 i)) (List.ofFn fun i => edf (m 0 i) (s 0 i))
            (List.ofFn (lam 0)) (List.ofFn (psi 0))) }) := by
    rw [← hx]
    unfold VarGP.gradient
    rw [hline 0, hx]
    simp only [if_true]
    congr 1
    have e2 : (2.0 : ℝ) = 2 := by norm_num
    refine (gradBody_ofFn shape1 _ (List.ofFn a ++ List.ofFn b) a b (m 0) _ (lam 0) (s 0) _ (psi 0) (by exact ho.dim) rfl
      (C58_pack_unpack_1d a b).2.2).trans ?_
    simp only [smul_eq_mul, shape1, id, e2, he.da]
    simp only [he.db]
  refine ⟨_, m, s, _, _, fun i => M' i, fun i => S' i, _, x', _, fun ε => ⟨_, _, hline ε, rfl, rfl, rfl⟩, hgrad, dm, ds, dq, dx, ?_⟩
  have hobs : ∀ j, HasDerivAt (fun ε => 0.5 * (y j ^ 2 - 2 * y j * m ε (t j) + (m ε (t j) ^ 2 + s ε (t j))) / R
      + 0.5 * (log2pi + Real.log R)) ((m 0 (t j) - y j) / R * M' (t j) + 1 / (2 * R) * S' (t j)) 0 := fun j => by
    have h := ((((((dm (t j)).const_mul (2 * y j)).const_sub (y j ^ 2)).fun_add (((dm (t j)).fun_pow 2).fun_add (ds (t j)))).const_mul
      0.5).div_const R).add_const (0.5 * (log2pi + Real.log R))
    refine h.congr_deriv ?_
    by_cases hR : R = 0
    · simp [hR]
    · norm_num
      field_simp
      ring
  have hF := ((rule_fin_hasDerivAt o.dt fun i => (dq i).fun_add (dx i)).const_add (p.gauss o.m0 o.s0)).fun_add
    (HasDerivAt.fun_sum (u := Finset.univ) fun j _ => hobs j)
  refine hF.congr_deriv ?_
  have b2 := h2 0
  simp only [zero_mul, add_zero] at b2
  obtain ⟨⟨z1, z2⟩, st⟩ := euler_bwd_entries b2
  simp only [List.length_ofFn, Nat.add_sub_cancel, Nat.add_lt_add_iff_right] at z1 z2 st
  have s1 := sum_multipliers_fin o.dt 1 (lam 0) (fun i => Qm (a i) (b i) (m 0 i) (s 0 i)) (jm 0) a
    (fun i => entry (List.ofFn β) i - entry (List.ofFn α) i * eulerMean o.dt o.m0 (entry (List.ofFn a)) (entry (List.ofFn b)) i)
    M' (fun i hi => by
      have := (st i hi).1
      simp only [rhs1, smul_eq_mul] at this
      rw [this]; ring) z1 rfl (fun i => by simp only [hM', eulerMean']; ring)
  have s2 := sum_multipliers_fin o.dt 2 (psi 0) (fun i => Qs (a i) (b i) (m 0 i) (s 0 i)) (js 0) a
    (fun i => -(2 * entry (List.ofFn α) i * eulerVar o.dt o.s0 o.model.sigma (entry (List.ofFn a)) i))
    S' (fun i hi => by
      have := (st i hi).2
      simp only [rhs1, smul_eq_mul] at this
      rw [this]; ring) z2 rfl (fun i => by simp only [hS', eulerVar'])
  simp only [entry_ofFn] at s1 s2
  have m00 : ∀ i : Fin (N + 1), eulerMean o.dt o.m0 (entry (List.ofFn a)) (entry (List.ofFn b)) i = m 0 i := fun i => by
    simp only [hm, zero_mul, add_zero]
  have s00 : ∀ i : Fin (N + 1), eulerVar o.dt o.s0 o.model.sigma (entry (List.ofFn a)) i = s 0 i := fun i => by
    simp only [hs, zero_mul, add_zero]
  simp only [m00] at s1
  simp only [s00] at s2
  have o1 : ∑ j, ((m 0 (t j) - y j) / R * M' (t j) + 1 / (2 * R) * S' (t j))
      = ∑ i, (jm 0 i * M' i + js 0 i * S' i) :=
    Fintype.sum_of_injective t ho.inj _ _ (fun i hi => by
      have := h5 0 i (fun j hj => hi ⟨j, hj⟩)
      rw [this.1, this.2]; ring) (fun j => by rw [h3, h4])
  have o2 : ∑ j, ((m 0 (t j) - y j) / R * (Spec.after (fun i : Fin (N + 1) => M' i) (t j) - M' (t j))
        + 1 / (2 * R) * (Spec.after (fun i : Fin (N + 1) => S' i) (t j) - S' (t j)))
      = ∑ i, (jm 0 i * (Spec.after (fun i : Fin (N + 1) => M' i) i - M' i)
        + js 0 i * (Spec.after (fun i : Fin (N + 1) => S' i) i - S' i)) :=
    Fintype.sum_of_injective t ho.inj _ _ (fun i hi => by
      have := h5 0 i (fun j hj => hi ⟨j, hj⟩)
      rw [this.1, this.2]; ring) (fun j => by rw [h3, h4])
  rw [o1, o2, rule_fin, rule_fin]
  rw [Finset.mul_sum] at s1 s2
  set q' : Fin (N + 1) → ℝ := fun i => Qa (a i) (b i) (m 0 i) (s 0 i) * α i + Qb (a i) (b i) (m 0 i) (s 0 i) * β i
    + Qm (a i) (b i) (m 0 i) (s 0 i) * M' i + Qs (a i) (b i) (m 0 i) (s 0 i) * S' i with hq'
  have key : ∑ i, (o.dt * (Qa (a i) (b i) (m 0 i) (s 0 i) - lam 0 i * m 0 i - 2 * psi 0 i * s 0 i) * α i
        + o.dt * (Qb (a i) (b i) (m 0 i) (s 0 i) + lam 0 i) * β i)
      = ∑ i, (o.dt * q' i + jm 0 i * Spec.after (fun i : Fin (N + 1) => M' i) i
        + js 0 i * Spec.after (fun i : Fin (N + 1) => S' i) i) := by
    calc _ = ∑ i, (o.dt * (Qa (a i) (b i) (m 0 i) (s 0 i) * α i + Qb (a i) (b i) (m 0 i) (s 0 i) * β i))
          + ∑ i, o.dt * (lam 0 i * (β i - α i * m 0 i)) + ∑ i, o.dt * (psi 0 i * -(2 * α i * s 0 i)) := by
          rw [← Finset.sum_add_distrib, ← Finset.sum_add_distrib]
          exact Finset.sum_congr rfl fun i _ => by ring
      _ = _ := by
          rw [s1, s2, ← Finset.sum_add_distrib, ← Finset.sum_add_distrib]
          exact Finset.sum_congr rfl fun i _ => by rw [hq']; ring
  rw [key]
  change o.dt * ∑ i, (q' i + x' i) - o.dt / 2 * (q' 0 + x' 0 + (q' (Fin.last N) + x' (Fin.last N)))
      + ∑ i, (jm 0 i * M' i + js 0 i * S' i)
    = ∑ i, (o.dt * q' i + jm 0 i * Spec.after (fun i : Fin (N + 1) => M' i) i
        + js 0 i * Spec.after (fun i : Fin (N + 1) => S' i) i)
      - o.dt / 2 * (q' 0 + q' (Fin.last N)) - _ + _
  clear_value q'
  simp only [Finset.sum_add_distrib, mul_add, mul_sub, Finset.sum_sub_distrib, Finset.mul_sum]
  ring

end

/-! ## The two processes -/

/-- The derivative of a moment along a curve. -/
noncomputable def momD : ℕ → ℝ → ℝ → ℝ → ℝ → ℝ
  | 0, _, _, _, _ => 0
  | 1, _, _, m', _ => m'
  | n + 2, m, v, m', v' => m' * momPoly (n + 1) m v + m * momD (n + 1) m v m' v'
      + (n + 1) * (v' * momPoly n m v + v * momD n m v m' v')

theorem momPoly_chain {M S : ℝ → ℝ} {m' s' : ℝ} (hM : HasDerivAt M m' 0) (hS : HasDerivAt S s' 0) :
    ∀ n, HasDerivAt (fun ε => momPoly n (M ε) (S ε)) (momD n (M 0) (S 0) m' s') 0
  | 0 => hasDerivAt_const _ _
  | 1 => hM
  | n + 2 => by
    have h := (hM.fun_mul (momPoly_chain hM hS (n + 1))).fun_add
      ((hS.const_mul ((n : ℝ) + 1)).fun_mul (momPoly_chain hM hS n))
    simp only [momPoly]
    refine h.congr_deriv ?_
    simp only [momD]
    ring

theorem ou_energy1Of {G : Type} (p : OU G) (n : ℕ) (obs : List ℕ) (dt : ℝ) (hdt : p.base.timeStep = .ok dt)
    (hobs : obs.Pairwise (· ≤ ·)) (hinv : p.sig_inv * p.sigma = 1) :
    Energy1Of p.sde n obs dt (fun m _ => -p.theta * m) (fun _ _ => -p.theta)
      (fun a b m s => ouQ p.theta a b m s / (2 * p.sigma)) (fun a b m s => ((p.theta - a) * -(m ^ 2 + s) - m * b) / p.sigma)
      (fun a b m _ => (m * (p.theta - a) + b) / p.sigma)
      (fun a b m _ => (m * (p.theta - a) ^ 2 + (p.theta - a) * b) / p.sigma)
      (fun a _ _ _ => 0.5 * (p.theta - a) ^ 2 / p.sigma) (fun _ _ _ _ => 0) := by
  have hs : p.sigma ≠ 0 := fun h => by rw [h, mul_zero] at hinv; exact zero_ne_one hinv
  have e2 : p.sde.inverse_sigma = 1 / p.sigma := eq_one_div_of_mul_eq_one_left hinv
  refine ⟨fun a b m s => ?_, fun A B M S α β m' s' hA hB hM hS => ?_, fun a b m s => ?_, fun a b m s => ?_⟩
  · simp only [OU.sde, ou_energy_eq p a b m s (some obs) dt hdt (fun l hl => by cases hl; exact hobs), bind, Except.bind, add_zero,
      ← rule_div]
    rfl
  · have h := ((((hM.fun_pow 2).fun_add hS).fun_mul ((hA.const_sub p.theta).fun_pow 2)).fun_add
      (((hM.const_mul 2).fun_mul (hA.const_sub p.theta)).fun_mul hB)).fun_add (hB.fun_pow 2) |>.div_const (2 * p.sigma)
    simp only [ouQ]
    refine h.congr_deriv ?_
    norm_num
    field_simp
    ring
  · rw [e2]; field_simp; ring
  · rw [e2]; field_simp

theorem dw_energy1Of {G : Type} (p : DW G) (n : ℕ) (obs : List ℕ) (dt : ℝ) (hdt : p.base.timeStep = .ok dt)
    (hobs : obs.Pairwise (· ≤ ·)) (hinv : p.sig_inv * p.sigma = 1) :
    Energy1Of p.sde n obs dt (fun m s => 4 * (p.theta * m - momPoly 3 m s)) (fun m s => 4 * (p.theta - 3 * momPoly 2 m s))
      (fun a b m s => dwQ p.theta a b m s / (2 * p.sigma))
      (fun a b m s => (-4 * momPoly 4 m s + (4 * p.theta + a) * momPoly 2 m s - b * m) / p.sigma)
      (fun a b m s => (4 * momPoly 3 m s - (4 * p.theta + a) * m + b) / p.sigma)
      (fun a b m s => 0.5 * (16 * (6 * momPoly 5 m s) - 8 * (4 * p.theta + a) * (4 * momPoly 3 m s)
          + 8 * b * (3 * momPoly 2 m s) + (4 * p.theta + a) ^ 2 * (2 * momPoly 1 m s) - 2 * b * (4 * p.theta + a)) / p.sigma)
      (fun a b m s => 0.5 * (16 * (15 * momPoly 4 m s) - 8 * (4 * p.theta + a) * (6 * momPoly 2 m s)
          + 8 * b * (3 * momPoly 1 m s) + (4 * p.theta + a) ^ 2 * 1) / p.sigma)
      (fun _ _ m s => -(8 * momPoly 6 m s / (2 * p.sigma))) := by
  have hs : p.sigma ≠ 0 := fun h => by rw [h, mul_zero] at hinv; exact zero_ne_one hinv
  have e2 : p.sde.inverse_sigma = 1 / p.sigma := eq_one_div_of_mul_eq_one_left hinv
  refine ⟨fun a b m s => ?_, fun A B M S α β m' s' hA hB hM hS => ?_, fun a b m s => ?_, fun a b m s => ?_⟩
  · simp only [DW.sde, dw_energy_eq p a b m s (some obs) dt hdt (fun l hl => by cases hl; exact hobs), bind, Except.bind, rule_div]
    have e : (fun i => (dwQ p.theta (a i) (b i) (m i) (s i) - 8 * momPoly 6 (m i) (s i)) / (2 * p.sigma))
        = fun i => dwQ p.theta (a i) (b i) (m i) (s i) / (2 * p.sigma) + -(8 * momPoly 6 (m i) (s i) / (2 * p.sigma)) :=
      funext fun i => by ring
    rw [e]
    rfl
  · have hc := hA.const_add (4 * p.theta)
    have h := (((((((momPoly_chain hM hS 6).const_mul 16).fun_sub ((hc.const_mul 8).fun_mul (momPoly_chain hM hS 4))).fun_add
      ((hB.const_mul 8).fun_mul (momPoly_chain hM hS 3))).fun_add ((hc.fun_pow 2).fun_mul (momPoly_chain hM hS 2))).fun_sub
      (((hB.const_mul 2).fun_mul hc).fun_mul hM)).fun_add (hB.fun_pow 2)).div_const (2 * p.sigma)
    simp only [dwQ]
    refine h.congr_deriv ?_
    simp only [momD, momPoly]
    norm_num
    field_simp
    ring
  · rw [e2]; simp only [momPoly]; field_simp; ring
  · rw [e2]; simp only [momPoly]; field_simp; ring

namespace Spec

/-- How far the gradient of a one dimensional variational object with drift `f` is from the derivative of its free energy. `F ε` is `free_energy` at
the point `(a + ε α, b + ε β)`, `m ε` and `s ε` the moments that `arg_out` then shows, `gA` and `gB` the two blocks of `gradient`. With `m'`, `s'`, `q'` the derivatives
of the moments and of the energy density, the derivative of `F` is the inner product of gradient and direction up to two corrections: half a step of the
density at both ends, and, for each observation, the effect of using the moments one step later (zero after the last grid point).
`extra` is a further difference; it may depend on the moments along the line. -/
def GradientUpTo (o : VarGP ℝ ℝ) (f : ℝ → ℝ) (y : Fin k → ℝ) (t : Fin k → Fin n) (R : ℝ) (hn : 0 < n)
    (extra : (m s : ℝ → Fin n → ℝ) → ℝ → Prop) : Prop :=
  ∀ a b α β : Fin n → ℝ, ∃ (F : ℝ → ℝ) (m s : ℝ → Fin n → ℝ) (gA gB m' s' q' : Fin n → ℝ) (x' : ℝ) (o' : VarGP ℝ ℝ),
    AlongLine o a b α β F m s
    ∧ o.gradient shape1 (List.ofFn a ++ List.ofFn b) true = (.ok (List.ofFn gA ++ List.ofFn gB), o')
    ∧ (∀ i, HasDerivAt (fun ε => m ε i) (m' i) 0) ∧ (∀ i, HasDerivAt (fun ε => s ε i) (s' i) 0)
    ∧ (∀ i, 0 < s 0 i → HasDerivAt (fun ε => sdeDensity f o.model.sigma (a i + ε * α i) (b i + ε * β i) (m ε i) (s ε i)) (q' i) 0)
    ∧ extra m s x'
    ∧ HasDerivAt F (∑ i, (gA i * α i + gB i * β i)
        - o.dt / 2 * (q' ⟨0, hn⟩ + q' ⟨n - 1, Nat.sub_lt hn one_pos⟩)
        - ∑ j, ((m 0 (t j) - y j) / R * (after m' (t j) - m' (t j)) + 1 / (2 * R) * (after s' (t j) - s' (t j)))
        + x') 0

end Spec

theorem near_positive {S : ℝ → ℝ} {s' : ℝ} (hS : HasDerivAt S s' 0) (h : 0 < S 0) : ∀ᶠ ε in nhds 0, 0 ≤ S ε :=
  (hS.continuousAt.eventually (lt_mem_nhds h)).mono fun _ h => h.le

/-- C96 for the Ornstein-Uhlenbeck process with Euler's method: what holds instead of "the gradient is the derivative of the free energy". For every
point and direction the difference is exactly the half steps at both ends and the shift of the observations by one step. Missing: these corrections are not
zero (`C96_violated`); the other integrators. -/
theorem C96_ornstein_uhlenbeck_partial {G : Type} (p : OU G) (o : VarGP ℝ ℝ) (y : Fin k → ℝ) (t : Fin k → Fin n) (R : ℝ)
    (pr : Prior1) (ho : Vgp1Ok o n k y t R 1 pr) (hE : EulerOnly o) (hmodel : o.model = p.sde) (hinv : p.sig_inv * p.sigma = 1)
    (hdt : p.base.timeStep = .ok o.dt) (ht : StrictMono t) :
    Spec.GradientUpTo o (Spec.ouDrift p.theta) y t R ho.pos (fun _ _ x => x = 0) := by
  have hobs : o.obs_t.Pairwise (· ≤ ·) := by
    rw [ho.obs, List.pairwise_ofFn]
    intro i j hij
    exact (ht hij).le
  intro a b α β
  obtain ⟨F, m, s, gA, gB, m', s', q', x', o', h1, h2, h3, h4, h5, h6, h7⟩ := gradient_derivative ho hE
    (hmodel ▸ ou_energy1Of p n o.obs_t o.dt hdt hobs hinv) (fun _ _ _ _ _ _ _ _ _ _ _ _ => ⟨0, hasDerivAt_const _ _⟩) a b α β
  have hx : x' = fun _ => 0 := funext fun i => (h6 i).unique (hasDerivAt_const _ _)
  refine ⟨F, m, s, gA, gB, m', s', q', 0, o', h1, h2, h3, h4, fun i hi => ?_, rfl, ?_⟩
  · refine (h5 i).congr_of_eventuallyEq ?_
    filter_upwards [near_positive (h4 i) hi] with ε hε
    rw [Spec.sdeDensity, ouQ_eq _ _ _ _ _ hε, hmodel]
    rfl
  · have e0 : Spec.trapezoidRule o.dt (List.ofFn x') = 0 := by
      obtain ⟨N, rfl⟩ : ∃ N, n = N + 1 := ⟨n - 1, by have := ho.pos; omega⟩
      rw [rule_fin, hx]
      simp
    rw [e0] at h7
    exact h7

/-- C96 for the double well process with Euler's method: the same, and the derivative of the missing part `8 E[x^6] / (2 sigma)` of the energy (C42) is
missing from the derivative of the free energy, but not from the gradient. -/
theorem C96_double_well_partial {G : Type} (p : DW G) (o : VarGP ℝ ℝ) (y : Fin k → ℝ) (t : Fin k → Fin n) (R : ℝ)
    (pr : Prior1) (ho : Vgp1Ok o n k y t R 1 pr) (hE : EulerOnly o) (hmodel : o.model = p.sde) (hinv : p.sig_inv * p.sigma = 1)
    (hdt : p.base.timeStep = .ok o.dt) (ht : StrictMono t) :
    Spec.GradientUpTo o (Spec.dwDrift p.theta) y t R ho.pos (fun m s x => (∀ i, 0 < s 0 i) →
      HasDerivAt (fun ε => -Spec.trapezoidRule o.dt (List.ofFn fun i => 8 * Spec.normalMoment 6 (m ε i) (s ε i) / (2 * p.sigma))) x 0) := by
  have hobs : o.obs_t.Pairwise (· ≤ ·) := by
    rw [ho.obs, List.pairwise_ofFn]
    intro i j hij
    exact (ht hij).le
  intro a b α β
  obtain ⟨F, m, s, gA, gB, m', s', q', x', o', h1, h2, h3, h4, h5, h6, h7⟩ := gradient_derivative ho hE
    (hmodel ▸ dw_energy1Of p n o.obs_t o.dt hdt hobs hinv)
    (fun _ _ _ _ _ _ _ _ _ _ hM hS => ⟨_, (((momPoly_chain hM hS 6).const_mul 8).div_const (2 * p.sigma)).fun_neg⟩) a b α β
  refine ⟨F, m, s, gA, gB, m', s', q', Spec.trapezoidRule o.dt (List.ofFn x'), o', h1, h2, h3, h4, fun i hi => ?_, fun hs => ?_, h7⟩
  · refine (h5 i).congr_of_eventuallyEq ?_
    filter_upwards [near_positive (h4 i) hi] with ε hε
    rw [Spec.sdeDensity, dwQ_eq _ _ _ _ _ hε, hmodel]
    rfl
  · obtain ⟨N, rfl⟩ : ∃ N, n = N + 1 := ⟨n - 1, by have := ho.pos; omega⟩
    have h := rule_fin_hasDerivAt o.dt h6
    refine h.congr_of_eventuallyEq ?_
    have : ∀ᶠ ε in nhds (0 : ℝ), ∀ i, 0 ≤ s ε i := Filter.eventually_all.2 fun i => near_positive (h4 i) (hs i)
    filter_upwards [this] with ε hε
    rw [rule_fin, rule_fin]
    simp only [normalMoment_eq_poly _ _ _ (hε _), Finset.sum_neg_distrib]
    ring

theorem alongLine_moments {o : VarGP ℝ ℝ} {y : Fin k → ℝ} {t : Fin k → Fin n} {R : ℝ} {p : Prior1} {a b α β : Fin n → ℝ}
    {F : ℝ → ℝ} {m s : ℝ → Fin n → ℝ} (ho : Vgp1Ok o n k y t R 1 p) (hE : EulerOnly o) (h : Spec.AlongLine o a b α β F m s) (ε : ℝ) :
    (∀ i : Fin n, m ε i = eulerMean o.dt o.m0 (entry (List.ofFn fun i => a i + ε * α i)) (entry (List.ofFn fun i => b i + ε * β i)) i)
    ∧ ∀ i : Fin n, s ε i = eulerVar o.dt o.s0 o.model.sigma (entry (List.ofFn fun i => a i + ε * α i)) i := by
  obtain ⟨c, o', h1, h2, h3, h4⟩ := h ε
  unfold VarGP.freeEnergy at h1
  rcases hev : o.eval shape1 (List.ofFn (fun i => a i + ε * α i) ++ List.ofFn fun i => b i + ε * β i) with e | ⟨F', c'⟩
  · rw [hev] at h1; cases h1
  · rw [hev] at h1
    cases h1
    obtain ⟨a', b', -, -, -, -, e1, e2, -⟩ := eval_ok shape1 o _ _ _ hev
    have hu := (C58_pack_unpack_1d (fun i => a i + ε * α i) (fun i => b i + ε * β i)).2.1
    simp only [shape1, id] at hu e1
    rw [ho.dim, hu] at e1
    cases e1
    obtain rfl : c' = c := by simpa [VarGP.argOut] using h2
    rw [h3, h4, hE.fwd, hE.fdt] at e2
    exact ⟨fun i => (euler_moments e2 i).1, fun i => (euler_moments e2 i).2⟩

/-- An Ornstein-Uhlenbeck process with noise 2 and drift parameter 1, on four grid points. -/
noncomputable def vgpOU : OU ℕ where
  base := { xt := some [1, 1, 1, 1], tk := some [0, 1 / 2, 1, 3 / 2], rng := 0, single_dimension := true }
  sigma := 2
  theta := 1
  sig_inv := 1 / 2

theorem vgpOU_step : vgpOU.base.timeStep = .ok (1 / 2) := by
  norm_num [vgpOU, Proc.timeStep, idx, bind, Except.bind, pure, Except.pure, abs_of_pos]

theorem vgpOU_upTo : Spec.GradientUpTo (vgpObj vgpOU.sde .euler) (Spec.ouDrift 1) ![1, 2] ![1, 2] 1 (by norm_num : 0 < 4)
    (fun _ _ x => x = 0) :=
  C96_ornstein_uhlenbeck_partial vgpOU _ _ _ _ _ (vgpObj_ok _ .euler) ⟨rfl, rfl, rfl, rfl⟩ rfl (by norm_num [vgpOU]) vgpOU_step (by decide)

/-- C96 as stated is false: an Ornstein-Uhlenbeck process on four grid points with two observations, all parameters zero, moved in the
direction of the last offset. The derivative of the free energy exists and is not the inner product of gradient and direction. -/
theorem C96_violated : ∃ (o : VarGP ℝ ℝ) (p : OU ℕ) (a b α β gA gB : Fin 4 → ℝ) (F : ℝ → ℝ) (m s : ℝ → Fin 4 → ℝ) (D : ℝ) (o' : VarGP ℝ ℝ),
    o.model = p.sde ∧ Vgp1Ok o 4 2 ![1, 2] ![1, 2] 1 1 ⟨0, 1⟩ ∧ EulerOnly o
    ∧ Spec.AlongLine o a b α β F m s
    ∧ o.gradient shape1 (List.ofFn a ++ List.ofFn b) true = (.ok (List.ofFn gA ++ List.ofFn gB), o')
    ∧ HasDerivAt F D 0 ∧ D ≠ ∑ i, (gA i * α i + gB i * β i) := by
  obtain ⟨F, m, s, gA, gB, m', s', q', x', o', h1, h2, h3, h4, h5, rfl, h7⟩ := vgpOU_upTo 0 0 0 ![0, 0, 0, 1]
  refine ⟨vgpObj vgpOU.sde .euler, vgpOU, 0, 0, 0, ![0, 0, 0, 1], gA, gB, F, m, s, _, o', rfl, vgpObj_ok _ _, ⟨rfl, rfl, rfl, rfl⟩, h1, h2, h7, ?_⟩
  have hmo := fun ε => alongLine_moments (vgpObj_ok vgpOU.sde .euler) ⟨rfl, rfl, rfl, rfl⟩ h1 ε
  have hm : ∀ ε i, m ε i = 1 := fun ε i => by
    rw [(hmo ε).1 i]
    fin_cases i <;> norm_num [eulerMean, entry, vgpObj]
  have hs : ∀ ε (i : Fin 4), s ε i = 1 + i := fun ε i => by
    rw [(hmo ε).2 i]
    fin_cases i <;> norm_num [eulerVar, entry, vgpObj, OU.sde, vgpOU]
  have hm' : ∀ i, m' i = 0 := fun i => by
    have := h3 i
    simp only [hm] at this
    exact this.unique (hasDerivAt_const _ _)
  have hs' : ∀ i, s' i = 0 := fun i => by
    have := h4 i
    simp only [hs] at this
    exact this.unique (hasDerivAt_const _ _)
  have hq : ∀ i : Fin 4, q' i = (![0, 0, 0, 1] : Fin 4 → ℝ) i / 2 := fun i => by
    have h := h5 i (by rw [hs]; positivity)
    simp only [hm, hs, Spec.sdeDensity, ouQ_eq _ _ _ _ _ (by positivity : (0 : ℝ) ≤ 1 + (i : ℕ)), ouQ, Pi.zero_apply, zero_add, mul_zero] at h
    refine h.unique ?_
    have hb : HasDerivAt (fun ε : ℝ => ε * (![0, 0, 0, 1] : Fin 4 → ℝ) i) ((![0, 0, 0, 1] : Fin 4 → ℝ) i) 0 := by
      simpa using (hasDerivAt_id' (0 : ℝ)).mul_const ((![0, 0, 0, 1] : Fin 4 → ℝ) i)
    have h' := ((hb.const_mul (2 * 1 * (1 - 0))).fun_add (hb.fun_pow 2)).const_add ((1 ^ 2 + (1 + (i : ℕ) : ℝ)) * (1 - 0) ^ 2)
      |>.div_const (2 * (vgpObj vgpOU.sde .euler).model.sigma)
    refine (h'.congr_of_eventuallyEq ?_).congr_deriv ?_
    · filter_upwards with ε
      ring
    · norm_num [vgpObj, OU.sde, vgpOU]
      ring
  have ha : ∀ f : Fin 4 → ℝ, (∀ i, f i = 0) → ∀ i, Spec.after f i = 0 := fun f hf i => by
    unfold Spec.after
    split
    · exact hf _
    · rfl
  simp only [ha m' hm', ha s' hs', hm', hs', hq]
  norm_num [vgpObj]

end VGPA
