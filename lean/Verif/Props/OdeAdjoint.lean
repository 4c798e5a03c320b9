import Verif.Props.OdeLaws
import Mathlib.LinearAlgebra.BilinearMap
import Mathlib.Algebra.Algebra.Bilinear
import Mathlib.LinearAlgebra.Matrix.Trace
import Mathlib.LinearAlgebra.Matrix.Notation
import Mathlib.Algebra.BigOperators.Intervals
import Mathlib.Tactic.LinearCombination

/-!
# Properties C26, C27: the backward sweep as a discrete adjoint; influence of the observations
-/

namespace VGPA

open Matrix

/-- Entry `t` of a series (zero outside). -/
def entry {X : Type} [Zero X] (l : List X) (t : ℕ) : X := l.getD t 0

section
variable {V W : Type} [AddCommGroup V] [Module ℝ V] [AddCommGroup W] [Module ℝ W]

theorem entry_eq {X : Type} [Zero X] {l : List X} {t : ℕ} (h : t < l.length) : entry l t = l[t] := by
  simp [entry, h]

/-- Summation by parts: the algebra behind the adjoint identities, for any bilinear pairing. -/
theorem adjoint_sum {X Y : Type} [AddCommGroup X] [Module ℝ X] [AddCommGroup Y] [Module ℝ Y]
    (p : X →ₗ[ℝ] Y →ₗ[ℝ] ℝ) (n : ℕ) (hn : 1 ≤ n) (dt : ℝ) (l g j Kl : ℕ → X) (m b Km : ℕ → Y)
    (hl : ∀ t, t < n → l t = l (t + 1) - dt • (-g (t + 1) + Kl (t + 1)) + j t)
    (hm : ∀ t, t < n → m (t + 1) = m t + dt • (-Km t + b t))
    (hK : ∀ t, t < n → p (Kl t) (m t) = p (l t) (Km t))
    (hln : l n = 0) (hKn : Kl n = 0) :
    ∑ t ∈ Finset.Ico 1 (n + 1), p (dt • g t + j (t - 1)) (m t)
      = p (l 0) (m 1) + dt * ∑ t ∈ Finset.Ico 1 (n + 1), p (l t) (b t) := by
  have h1 : ∀ t ∈ Finset.Ico 1 (n + 1), p (dt • g t + j (t - 1)) (m t) - dt * p (l t) (b t)
      = p (l (t - 1)) (m t) - p (l t) (m (t + 1)) := by
    intro t ht
    obtain ⟨h1, h2⟩ := Finset.mem_Ico.1 ht
    have e := hl (t - 1) (by omega)
    rw [Nat.sub_add_cancel h1] at e
    have e' : dt • g t + j (t - 1) = l (t - 1) - l t + dt • Kl t := by rw [e]; module
    rw [e']
    by_cases htn : t < n
    · rw [hm t htn]
      simp only [map_add, map_sub, map_smul, LinearMap.add_apply, LinearMap.sub_apply,
        LinearMap.smul_apply, smul_eq_mul, map_neg, hK t htn]
      ring
    · have : t = n := by omega
      subst this
      simp [hln, hKn]
  have h2 := Finset.sum_congr rfl h1
  rw [Finset.sum_sub_distrib, ← Finset.mul_sum] at h2
  have h3 : ∑ t ∈ Finset.Ico 1 (n + 1), (p (l (t - 1)) (m t) - p (l t) (m (t + 1)))
      = p (l 0) (m 1) - p (l n) (m (n + 1)) := by
    rw [Finset.sum_Ico_eq_sum_range]
    have := Finset.sum_range_sub' (fun t => p (l t) (m (t + 1))) n
    simp only [zero_add] at this
    rw [← this]
    apply Finset.sum_congr (by simp)
    intro t _
    simp [add_comm 1 t]
  rw [h3, hln] at h2
  simp only [map_zero, LinearMap.zero_apply, sub_zero] at h2
  linarith

end

/-- The dot product as a bilinear map. -/
def dotB (d : ℕ) : (Fin d → ℝ) →ₗ[ℝ] (Fin d → ℝ) →ₗ[ℝ] ℝ :=
  LinearMap.mk₂ ℝ (fun u v => u ⬝ᵥ v) add_dotProduct (fun _ _ _ => smul_dotProduct _ _ _)
    dotProduct_add (fun _ _ _ => dotProduct_smul _ _ _)

/-- The trace pairing as a bilinear map. -/
def trB (d : ℕ) : Matrix (Fin d) (Fin d) ℝ →ₗ[ℝ] Matrix (Fin d) (Fin d) ℝ →ₗ[ℝ] ℝ :=
  LinearMap.mk₂ ℝ (fun u v => (u * v).trace) (by intros; rw [Matrix.add_mul, Matrix.trace_add])
    (by intros; rw [Matrix.smul_mul, Matrix.trace_smul])
    (by intros; rw [Matrix.mul_add, Matrix.trace_add])
    (by intros; rw [Matrix.mul_smul, Matrix.trace_smul])

/-- The entries of an Euler forward run. -/
theorem euler_fwd_entries {V W : Type} [AddCommGroup V] [Module ℝ V] [AddCommGroup W] [Module ℝ W]
    {F : Rhs V W} {dt : ℝ} {A : List W} {b : List V} {m0 : V} {s0 sigma : W} {mt : List V} {st : List W}
    (h : solveFwd .euler F dt A b m0 s0 sigma = .ok (mt, st)) (t : ℕ) (ht : t + 1 < b.length) :
    entry mt (t + 1) = entry mt t + dt • F.fun_mt (entry mt t) (entry A t) (entry b t) ∧
    entry st (t + 1) = entry st t + dt • F.fun_st (entry st t) (entry A t) sigma := by
  obtain ⟨h1, h2, h3⟩ := solveFwd_step h
  have := h3 t (by omega) (by omega)
  rw [entry_eq (by omega), entry_eq (by omega), entry_eq (l := st) (by omega), entry_eq (l := st) (by omega)]
  simp only [fwdStep, Prod.mk.injEq] at this
  exact this

theorem euler_bwd_entries {V W : Type} [AddCommGroup V] [Module ℝ V] [AddCommGroup W] [Module ℝ W]
    {F : Rhs V W} {dt : ℝ} {A : List W} {em om : List V} {es os : List W} {lam : List V} {psi : List W}
    (h : solveBwd .euler F dt A em es om os = .ok (lam, psi)) :
    (entry lam (em.length - 1) = 0 ∧ entry psi (em.length - 1) = 0) ∧
    ∀ t, t + 1 < em.length →
    entry lam t = entry lam (t + 1) - dt • F.fun_lam (entry em (t + 1)) (entry A (t + 1)) (entry lam (t + 1))
      + entry om t ∧
    entry psi t = entry psi (t + 1) - dt • F.fun_psi (entry es (t + 1)) (entry A (t + 1)) (entry psi (t + 1))
      + entry os t := by
  obtain ⟨h1, h2, h3, h4⟩ := solveBwd_step h
  constructor
  · by_cases h0 : em.length = 0
    · have e1 : lam = [] := List.eq_nil_of_length_eq_zero (by omega)
      have e2 : psi = [] := List.eq_nil_of_length_eq_zero (by omega)
      simp [entry, e1, e2]
    · rw [entry_eq (by omega), entry_eq (by omega)]
      exact h3 (by omega) (by omega)
  · intro t ht
    have := h4 t (by omega) (by omega)
    rw [entry_eq (by omega), entry_eq (by omega), entry_eq (l := psi) (by omega), entry_eq (l := psi) (by omega)]
    simp only [bwdStep, Prod.mk.injEq, Nat.add_sub_cancel] at this
    exact this

/-! ## C26 -/

/-- **C26 (1-D).** The Euler backward sweep is the exact discrete adjoint of the Euler forward mean sweep:
for every mean series computed from `(A, b, m0)` and every multiplier series computed from gradients `g` and
jumps `j` on the same grid of `N ≥ 2` points,
`sum_{t=1}^{N-1} (dt g[t] + j[t-1]) m[t] = lam[0] m[1] + dt sum_{t=1}^{N-1} lam[t] b[t]`. -/
theorem C26_euler_adjoint_1D (dt : ℝ) (A b g j gs js : List ℝ) (m0 s0 sigma : ℝ) (mt st lam psi)
    (hN : 2 ≤ b.length) (hlen : g.length = b.length)
    (hf : solveFwd .euler rhs1 dt A b m0 s0 sigma = .ok (mt, st))
    (hb : solveBwd .euler rhs1 dt A g gs j js = .ok (lam, psi)) :
    ∑ t ∈ Finset.Ico 1 b.length, (dt * entry g t + entry j (t - 1)) * entry mt t
      = entry lam 0 * entry mt 1 + dt * ∑ t ∈ Finset.Ico 1 b.length, entry lam t * entry b t := by
  obtain ⟨⟨hz, _⟩, hB⟩ := euler_bwd_entries hb
  obtain ⟨n, hn⟩ : ∃ n, b.length = n + 1 := ⟨b.length - 1, by omega⟩
  have := adjoint_sum (LinearMap.mul ℝ ℝ) n (by omega) dt (entry lam) (entry g) (entry j)
    (fun t => entry lam t * entry A t) (entry mt) (entry b) (fun t => entry A t * entry mt t)
    (fun t ht => by rw [(hB t (by omega)).1]; rfl)
    (fun t ht => by rw [(euler_fwd_entries hf t (by omega)).1]; rfl)
    (fun t ht => by simp only [LinearMap.mul_apply']; ring)
    (by rw [← hz]; congr 1; omega) (by rw [hlen, hn] at hz; simp at hz; simp [hz])
  rw [hn]
  exact this

/-- **C26 (n-D, what the code computes).** For arbitrary linear parameters the Euler backward sweep is the
exact discrete adjoint of the Euler forward mean sweep *run with the transposed linear parameters*. -/
theorem C26_euler_adjoint_of_transposed (d : ℕ) (dt : ℝ) (A : List (Matrix (Fin d) (Fin d) ℝ))
    (b g j : List (Fin d → ℝ)) (gs js : List (Matrix (Fin d) (Fin d) ℝ)) (m0 : Fin d → ℝ)
    (s0 sigma : Matrix (Fin d) (Fin d) ℝ) (mt st lam psi)
    (hN : 2 ≤ b.length) (hlen : g.length = b.length)
    (hf : solveFwd .euler (rhsN d) dt (A.map Matrix.transpose) b m0 s0 sigma = .ok (mt, st))
    (hb : solveBwd .euler (rhsN d) dt A g gs j js = .ok (lam, psi)) :
    ∑ t ∈ Finset.Ico 1 b.length, (dt • entry g t + entry j (t - 1)) ⬝ᵥ entry mt t
      = entry lam 0 ⬝ᵥ entry mt 1 + dt * ∑ t ∈ Finset.Ico 1 b.length, entry lam t ⬝ᵥ entry b t := by
  obtain ⟨⟨hz, _⟩, hB⟩ := euler_bwd_entries hb
  obtain ⟨n, hn⟩ : ∃ n, b.length = n + 1 := ⟨b.length - 1, by omega⟩
  have hAt : ∀ t, entry (A.map Matrix.transpose) t = (entry A t)ᵀ := by
    intro t
    by_cases ht : t < A.length
    · rw [entry_eq (by simpa using ht), entry_eq ht]; simp
    · simp [entry, Nat.not_lt.1 ht]
  have hzn : entry lam n = 0 := by rw [← hz]; congr 1; omega
  have := adjoint_sum (dotB d) n (by omega) dt (entry lam) (entry g) (entry j)
    (fun t => entry lam t ᵥ* (entry A t)ᵀ) (entry mt) (entry b) (fun t => (entry A t)ᵀ *ᵥ entry mt t)
    (fun t ht => by rw [(hB t (by omega)).1]; rfl)
    (fun t ht => by rw [(euler_fwd_entries hf t (by omega)).1, hAt]; rfl)
    (fun t ht => by simp only [dotB, LinearMap.mk₂_apply]; rw [dotProduct_mulVec])
    hzn (by simp [hzn])
  rw [hn]
  exact this

/-- **C26 (n-D, partial).** When all linear parameters are symmetric, the Euler backward sweep is the exact
discrete adjoint of the Euler forward mean sweep.
Full statement: for arbitrary linear parameters. False: see `C26_nonsymmetric_violated`; the repository's
auxiliary function multiplies `lam` by `A'` from the right (i.e. computes `A lam`) where the adjoint of
`dm/dt = -A m + b` needs `A' lam`. -/
theorem C26_euler_adjoint_nD_partial (d : ℕ) (dt : ℝ) (A : List (Matrix (Fin d) (Fin d) ℝ))
    (hsym : ∀ a ∈ A, a.IsSymm)
    (b g j : List (Fin d → ℝ)) (gs js : List (Matrix (Fin d) (Fin d) ℝ)) (m0 : Fin d → ℝ)
    (s0 sigma : Matrix (Fin d) (Fin d) ℝ) (mt st lam psi)
    (hN : 2 ≤ b.length) (hlen : g.length = b.length)
    (hf : solveFwd .euler (rhsN d) dt A b m0 s0 sigma = .ok (mt, st))
    (hb : solveBwd .euler (rhsN d) dt A g gs j js = .ok (lam, psi)) :
    ∑ t ∈ Finset.Ico 1 b.length, (dt • entry g t + entry j (t - 1)) ⬝ᵥ entry mt t
      = entry lam 0 ⬝ᵥ entry mt 1 + dt * ∑ t ∈ Finset.Ico 1 b.length, entry lam t ⬝ᵥ entry b t := by
  have hA : A.map Matrix.transpose = A := by
    conv_rhs => rw [← List.map_id A]
    exact List.map_congr_left fun a ha => hsym a ha
  exact C26_euler_adjoint_of_transposed d dt A b g j gs js m0 s0 sigma mt st lam psi hN hlen
    (by rw [hA]; exact hf) hb

/-- **C26 is violated in n-D for non-symmetric linear parameters.** `d = 2`, three grid points, `dt = 1`,
`A = [[0,1],[0,0]]`, `m0 = 0`, offsets `(0,1)` then 0, gradient `(1,0)` at the last point: the left side of
the identity is `-1`, the right side `0`. -/
theorem C26_nonsymmetric_violated :
    ∃ (A : List (Matrix (Fin 2) (Fin 2) ℝ)) (b g j : List (Fin 2 → ℝ)) (gs js : List (Matrix (Fin 2) (Fin 2) ℝ))
      (mt lam : List (Fin 2 → ℝ)) (st psi : List (Matrix (Fin 2) (Fin 2) ℝ)),
      b.length = 3 ∧ g.length = 3 ∧ A.length = 3 ∧
      solveFwd .euler (rhsN 2) 1 A b 0 0 0 = .ok (mt, st) ∧
      solveBwd .euler (rhsN 2) 1 A g gs j js = .ok (lam, psi) ∧
      ∑ t ∈ Finset.Ico 1 b.length, ((1 : ℝ) • entry g t + entry j (t - 1)) ⬝ᵥ entry mt t = -1 ∧
      entry lam 0 ⬝ᵥ entry mt 1 + 1 * ∑ t ∈ Finset.Ico 1 b.length, entry lam t ⬝ᵥ entry b t = 0 := by
  let E : Matrix (Fin 2) (Fin 2) ℝ := !![0, 1; 0, 0]
  refine ⟨[E, E, E], [![0, 1], 0, 0], [0, 0, ![1, 0]], [0, 0, 0], [0, 0, 0], [0, 0, 0],
    _, _, _, _, rfl, rfl, rfl, solveFwd_ok _ _ _ _ _ _ _ _ (by simp) (by simp [needA]),
    solveBwd_ok _ _ _ _ _ _ _ _ (by simp [BwdShapes]), ?_, ?_⟩
  · simp [Finset.sum_Ico_succ_top, entry, List.range_succ, traj, fwdStep, rhsN, asFun, E, vecHead, vecTail]
  · simp [Finset.sum_Ico_succ_top, entry, List.range_succ, traj, fwdStep, bwdStep, rhsN, asFun, E, vecHead, vecTail, vecMul]

/-- **C26 (covariance).** The Euler backward sweep for `psi` is the exact discrete adjoint of the Euler forward
covariance sweep, in every dimension and for arbitrary linear parameters (trace pairing). -/
theorem C26_euler_adjoint_covariance (d : ℕ) (dt : ℝ) (A : List (Matrix (Fin d) (Fin d) ℝ))
    (b g j : List (Fin d → ℝ)) (gs js : List (Matrix (Fin d) (Fin d) ℝ)) (m0 : Fin d → ℝ)
    (s0 sigma : Matrix (Fin d) (Fin d) ℝ) (mt st lam psi)
    (hN : 2 ≤ b.length) (hlen : g.length = b.length)
    (hf : solveFwd .euler (rhsN d) dt A b m0 s0 sigma = .ok (mt, st))
    (hb : solveBwd .euler (rhsN d) dt A g gs j js = .ok (lam, psi)) :
    ∑ t ∈ Finset.Ico 1 b.length, ((dt • entry gs t + entry js (t - 1)) * entry st t).trace
      = (entry psi 0 * entry st 1).trace + dt * ∑ t ∈ Finset.Ico 1 b.length, (entry psi t * sigma).trace := by
  obtain ⟨⟨_, hz⟩, hB⟩ := euler_bwd_entries hb
  obtain ⟨n, hn⟩ : ∃ n, b.length = n + 1 := ⟨b.length - 1, by omega⟩
  have hzn : entry psi n = 0 := by rw [← hz]; congr 1; omega
  have := adjoint_sum (trB d) n (by omega) dt (entry psi) (entry gs) (entry js)
    (fun t => entry psi t * entry A t + (entry A t)ᵀ * entry psi t) (entry st) (fun _ => sigma)
    (fun t => entry A t * entry st t + entry st t * (entry A t)ᵀ)
    (fun t ht => by rw [(hB t (by omega)).2]; simp only [rhsN, add_assoc])
    (fun t ht => by rw [(euler_fwd_entries hf t (by omega)).2]; simp only [rhsN]; congr 2; abel)
    (fun t ht => by
      simp only [trB, LinearMap.mk₂_apply, Matrix.add_mul, Matrix.mul_add, Matrix.trace_add]
      congr 1
      · rw [Matrix.mul_assoc]
      · rw [Matrix.mul_assoc, Matrix.trace_mul_comm, Matrix.mul_assoc])
    hzn (by simp [hzn])
  rw [hn]
  exact this

-- Non-vacuity: the two runs of the 1-D identity exist on a common grid.
example : (∃ r, solveFwd .euler rhs1 0.1 [1, 2, 3] [4, 5, 6] 1 1 1 = .ok r) ∧
    (∃ r, solveBwd .euler rhs1 0.1 [1, 2, 3] [1, 2, 3] [1, 1, 1] [0, 7, 0] [0, 8, 0] = .ok r) :=
  ⟨⟨_, solveFwd_ok _ _ _ _ _ _ _ _ (by simp) (by simp [needA])⟩,
   ⟨_, solveBwd_ok _ _ _ _ _ _ _ _ (by simp [BwdShapes])⟩⟩

/-! ## C27 -/

/-- **C27 is violated.** Whatever the inputs and the method, the observation gradients at the last grid point
have no effect at all: replacing them by anything leaves both multiplier series unchanged. -/
theorem C27_last_observation_violated {V W : Type} [AddCommGroup V] [Module ℝ V] [AddCommGroup W] [Module ℝ W]
    (meth : Method) (F : Rhs V W) (dt : ℝ) (A : List W) (em om : List V) (es os : List W)
    (hm : om.length = em.length) (hs : os.length = em.length) (x : V) (y : W) :
    solveBwd meth F dt A em es (om.set (em.length - 1) x) (os.set (em.length - 1) y)
      = solveBwd meth F dt A em es om os := by
  by_cases hc : BwdShapes em.length A.length es.length om.length os.length
  · rw [solveBwd_ok meth F dt A em es om os hc, solveBwd_ok meth F dt A em es _ _ (by simpa using hc)]
    have key : ∀ k, k ≤ em.length - 1 → traj 0 (fun i => bwdStep meth F dt (asFun A) (asFun em) (asFun es)
          (asFun (om.set (em.length - 1) x)) (asFun (os.set (em.length - 1) y)) (em.length - 1 - i)) k
        = traj 0 (fun i => bwdStep meth F dt (asFun A) (asFun em) (asFun es) (asFun om) (asFun os)
          (em.length - 1 - i)) k := by
      intro k hk
      induction k with
      | zero => rfl
      | succ k ih =>
        have e1 : asFun (om.set (em.length - 1) x) (em.length - 1 - k - 1)
            = asFun om (em.length - 1 - k - 1) := by
          simp only [asFun, List.getD_eq_getElem?_getD]
          rw [List.getElem?_set_ne (by omega)]
        have e2 : asFun (os.set (em.length - 1) y) (em.length - 1 - k - 1)
            = asFun os (em.length - 1 - k - 1) := by
          simp only [asFun, List.getD_eq_getElem?_getD]
          rw [List.getElem?_set_ne (by omega)]
        simp only [traj, ih (by omega)]
        cases meth <;> simp only [bwdStep, e1, e2]
    congr 2 <;> apply List.map_congr_left <;> intro i hi <;> rw [key _ (by omega)]
  · rw [solveBwd_err meth F dt A em es om os hc, solveBwd_err meth F dt A em es _ _ (by simpa using hc)]

/-- **C27 (partial).** At every other grid point `t < N - 1` the observation gradient does influence the
multipliers: replacing `om[t]` and `os[t]` changes `lam[t]` and `psi[t]` by exactly the difference (and
nothing at later points).
Full statement: at every grid point, including the last; false there. -/
theorem C27_observation_influences_partial {V W : Type} [AddCommGroup V] [Module ℝ V] [AddCommGroup W]
    [Module ℝ W] (meth : Method) (F : Rhs V W) (dt : ℝ) (A : List W) (em om : List V) (es os : List W)
    (hm : om.length = em.length) (hs : os.length = em.length) (t : ℕ) (ht : t + 1 < em.length) (x : V) (y : W)
    (lam lam' psi psi')
    (h : solveBwd meth F dt A em es om os = .ok (lam, psi))
    (h' : solveBwd meth F dt A em es (om.set t x) (os.set t y) = .ok (lam', psi')) :
    entry lam' t - entry lam t = x - entry om t ∧ entry psi' t - entry psi t = y - entry os t ∧
    ∀ u, t < u → entry lam' u = entry lam u ∧ entry psi' u = entry psi u := by
  obtain ⟨hl, hp, hz, hst⟩ := solveBwd_step h
  obtain ⟨hl', hp', hz', hst'⟩ := solveBwd_step h'
  have later : ∀ i, t < em.length - 1 - i → entry lam' (em.length - 1 - i) = entry lam (em.length - 1 - i) ∧
      entry psi' (em.length - 1 - i) = entry psi (em.length - 1 - i) := by
    intro i
    induction i with
    | zero =>
      intro _
      have a := hz (by omega) (by omega)
      have a' := hz' (by omega) (by omega)
      simp only [Nat.sub_zero]
      rw [entry_eq (by omega), entry_eq (by omega), entry_eq (by omega), entry_eq (by omega), a.1, a.2,
        a'.1, a'.2]
      exact ⟨rfl, rfl⟩
    | succ i ih =>
      intro hi
      obtain ⟨u, hu⟩ : ∃ u, u = em.length - 1 - (i + 1) := ⟨_, rfl⟩
      rw [← hu] at hi ⊢
      have hu1 : em.length - 1 - i = u + 1 := by omega
      rw [hu1] at ih
      obtain ⟨i1, i2⟩ := ih (by omega)
      have a := hst u (by omega) (by omega)
      have a' := hst' u (by omega) (by omega)
      rw [entry_eq (by omega), entry_eq (by omega)] at i1
      rw [entry_eq (by omega), entry_eq (by omega)] at i2
      rw [entry_eq (by omega), entry_eq (by omega), entry_eq (by omega), entry_eq (by omega)]
      rw [i1, i2] at a'
      have e1 : asFun (om.set t x) u = asFun om u := by
        simp only [asFun, List.getD_eq_getElem?_getD]; rw [List.getElem?_set_ne (by omega)]
      have e2 : asFun (os.set t y) u = asFun os u := by
        simp only [asFun, List.getD_eq_getElem?_getD]; rw [List.getElem?_set_ne (by omega)]
      have : (lam'[u], psi'[u]) = (lam[u], psi[u]) := by
        rw [a, a']
        cases meth <;> simp only [bwdStep, e1, e2, Nat.add_sub_cancel]
      exact Prod.mk.inj this
  have key : ∀ u, t < u → entry lam' u = entry lam u ∧ entry psi' u = entry psi u := by
    intro u hu
    by_cases hul : u < em.length
    · have := later (em.length - 1 - u) (by omega)
      rwa [show em.length - 1 - (em.length - 1 - u) = u by omega] at this
    · simp [entry, Nat.not_lt.1 (by omega : ¬ u < lam.length), Nat.not_lt.1 (by omega : ¬ u < lam'.length),
        Nat.not_lt.1 (by omega : ¬ u < psi.length), Nat.not_lt.1 (by omega : ¬ u < psi'.length)]
  obtain ⟨i1, i2⟩ := key (t + 1) (by omega)
  have a := hst t (by omega) (by omega)
  have a' := hst' t (by omega) (by omega)
  rw [entry_eq (by omega), entry_eq (by omega)] at i1
  rw [entry_eq (by omega), entry_eq (by omega)] at i2
  rw [i1, i2] at a'
  have e1 : asFun (om.set t x) t = x := by
    simp only [asFun, List.getD_eq_getElem?_getD]; rw [List.getElem?_set_self (by omega)]; rfl
  have e2 : asFun (os.set t y) t = y := by
    simp only [asFun, List.getD_eq_getElem?_getD]; rw [List.getElem?_set_self (by omega)]; rfl
  have f1 : asFun om t = entry om t := rfl
  have f2 : asFun os t = entry os t := rfl
  rw [entry_eq (l := lam') (by omega), entry_eq (l := lam) (by omega), entry_eq (l := psi') (by omega),
    entry_eq (l := psi) (by omega)]
  refine ⟨?_, ?_, key⟩
  · have b := congrArg Prod.fst a
    have b' := congrArg Prod.fst a'
    simp only at b b'
    rw [b, b']
    cases meth <;> simp only [bwdStep, e1, f1, Nat.add_sub_cancel] <;> abel
  · have b := congrArg Prod.snd a
    have b' := congrArg Prod.snd a'
    simp only at b b'
    rw [b, b']
    cases meth <;> simp only [bwdStep, e2, f2, Nat.add_sub_cancel] <;> abel

end VGPA
