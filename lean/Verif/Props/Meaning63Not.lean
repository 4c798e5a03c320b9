import Verif.Props.Meaning63
import Verif.Props.PriorShift

/-!
# C99: the number reported for Lorenz-63 is not the free energy

By C114 the estimate does not depend on the prior. The reported number and the free energy of the estimate depend on the prior mean in
different ways, so they cannot agree for three prior means on a line.
-/

namespace VGPA

noncomputable section

variable {G : Type}

/-- The same configuration with `δ` added to each component of the prior mean. -/
def Spec.Config3.shiftPrior (c : Spec.Config3) (δ : ℝ) : Spec.Config3 := { c with mu0 := fun i => c.mu0 i + δ }

theorem docName_inj {m m' : Method} (h : pyLower (docName m) = pyLower (docName m')) : m = m' := by
  revert h
  cases m <;> cases m' <;> decide

/-- The recursion of the moments has one solution. -/
theorem moments_unique3 {c : Spec.Config3} (hdt : c.dt ≠ 0) {meth : Method} (hne : meth ≠ .rk2) {N : ℕ} {a : Fin (N + 1) → Matrix (Fin 3) (Fin 3) ℝ}
    {b : Fin (N + 1) → Fin 3 → ℝ} {m m' : Fin (N + 1) → Fin 3 → ℝ} {S S' : Fin (N + 1) → Matrix (Fin 3) (Fin 3) ℝ} {m0 : Fin 3 → ℝ}
    {S0 : Matrix (Fin 3) (Fin 3) ℝ} (h : Spec.MomentsFollow3 c meth a b m0 S0 m S) (h' : Spec.MomentsFollow3 c meth a b m0 S0 m' S') :
    m' = m ∧ S' = S := by
  obtain ⟨At, hA⟩ := Spec.exists_linInterp c.dt hdt (List.ofFn a)
  obtain ⟨bt, hB⟩ := Spec.exists_linInterp c.dt hdt (List.ofFn b)
  obtain ⟨h1, h2, h3⟩ := h
  obtain ⟨h1', h2', h3'⟩ := h'
  have key : ∀ i, m' i = m i ∧ S' i = S i := by
    intro i
    induction i using Fin.induction with
    | zero => exact ⟨h1'.trans h1.symm, h2'.trans h2.symm⟩
    | succ k ih =>
      obtain ⟨e1, e2⟩ := h3 At bt hA hB k
      obtain ⟨e1', e2'⟩ := h3' At bt hA hB k
      exact ⟨by rw [e1, e1', ih.1], by rw [e2 hne, e2' hne, ih.2]⟩
  exact ⟨funext fun i => (key i).1, funext fun i => (key i).2⟩

theorem mats_inj {n : ℕ} {a a' : Fin n → Matrix (Fin 3) (Fin 3) ℝ} {b b' : Fin n → Fin 3 → ℝ} (h : Spec.mats a' = Spec.mats a)
    (h' : Spec.vecs b' = Spec.vecs b) : a' = a ∧ b' = b := by
  rw [← vals_mats, ← vals_mats] at h
  rw [← vals_vecs, ← vals_vecs] at h'
  injection h with h
  injection h with _ h
  injection h' with h'
  injection h' with _ h'
  have e := (C58_pack_unpack_nd (d := 3) (by norm_num) a b).2.1
  have e' := (C58_pack_unpack_nd (d := 3) (by norm_num) a' b').2.1
  rw [h, h', e] at e'
  injection e' with e'
  injection e' with e1 e2
  exact ⟨(List.ofFn_injective e1).symm, (List.ofFn_injective e2).symm⟩

/-- C99, why only `_partial`: take a valid Lorenz-63 configuration with a diagonal noise, and the two that arise from it by adding 1 to, or subtracting 1
from, each component of the prior mean. For at least one of the three the reported `fx` is not the free energy of the reported `at`, `bt`
(`rk2` is left out because its covariances are not specified). -/
theorem C99_violated (E : Env G) (c : Spec.Config3) (N : ℕ) (hv : c.Valid N) (v : Fin 3 → ℝ) (hc : c.sys = Matrix.diagonal v)
    (hrk : pyLower c.method ≠ pyLower (docName .rk2)) (params : ℝ → Json)
    (hin : ∀ δ ∈ ({0, 1, -1} : Set ℝ), (c.shiftPrior δ).In (params δ))
    (hsame : ∀ δ ∈ ({0, 1, -1} : Set ℝ), ∀ key ∈ ["Drift", "Noise", "Time-window", "Ode-method", "Random-Seed", "Observations", "Model"],
      (params δ).item key = (params 0).item key) (s : Sim (AnyProc G) Arr) :
    ∃ δ ∈ ({0, 1, -1} : Set ℝ), ∃ (M : ℕ) (y : Fin M → Fin 3 → ℝ) (t : Fin M → Fin (N + 1)) (m0 : Fin 3 → ℝ) (meth : Method)
      (a : Fin (N + 1) → Matrix (Fin 3) (Fin 3) ℝ) (b m : Fin (N + 1) → Fin 3 → ℝ) (S : Fin (N + 1) → Matrix (Fin 3) (Fin 3) ℝ) (fx : ℝ),
      (s.setup (pyClasses E) (params δ) none).2.m_data.obs_y = some (.path 3 (List.ofFn y))
      ∧ (s.setup (pyClasses E) (params δ) none).2.m_data.obs_t = some (.times (List.ofFn fun j => (t j : ℕ)))
      ∧ (s.setup (pyClasses E) (params δ) none).2.m_data.m0 = some (.nd (.vec 3 m0)) ∧ pyLower c.method = pyLower (docName meth)
      ∧ ((s.setup (pyClasses E) (params δ) none).2.run (pyClasses E)).2.output.lookup "at" = some (Spec.mats a)
      ∧ ((s.setup (pyClasses E) (params δ) none).2.run (pyClasses E)).2.output.lookup "bt" = some (Spec.vecs b)
      ∧ ((s.setup (pyClasses E) (params δ) none).2.run (pyClasses E)).2.output.lookup "fx" = some (.scalar fx)
      ∧ Spec.MomentsFollow3 (c.shiftPrior δ) meth a b m0 (Matrix.diagonal fun _ => 1 / 5) m S
      ∧ ((∀ i, (S i).PosSemidef) → fx ≠ Spec.freeEnergy3 (c.shiftPrior δ) y t m0 (Matrix.diagonal fun _ => 1 / 5) a b m S) := by
  have hval : ∀ δ, (c.shiftPrior δ).Valid N := fun δ =>
    ⟨hv.name, hv.sys, hv.obs, hv.tau0, hv.dt, hv.tf, hv.method, hv.seed, hv.density, hv.some_obs, hv.not_all⟩
  have z0 : (0 : ℝ) ∈ ({0, 1, -1} : Set ℝ) := by simp
  obtain ⟨M, hM, y, t, m0, meth, a, b, m, S, fx, h1, h2, h3, h4, h5, h6, h7, h8, h9, -⟩ :=
    C99_diagonal_partial E _ _ (hin 0 z0) N (hval 0) v hc s
  have hne : meth ≠ .rk2 := fun e => hrk (by rw [← e]; exact h4)
  have all : ∀ δ ∈ ({0, 1, -1} : Set ℝ), ∃ fx',
      (s.setup (pyClasses E) (params δ) none).2.m_data.obs_y = some (.path 3 (List.ofFn y))
      ∧ (s.setup (pyClasses E) (params δ) none).2.m_data.obs_t = some (.times (List.ofFn fun j => (t j : ℕ)))
      ∧ (s.setup (pyClasses E) (params δ) none).2.m_data.m0 = some (.nd (.vec 3 m0)) ∧ pyLower c.method = pyLower (docName meth)
      ∧ ((s.setup (pyClasses E) (params δ) none).2.run (pyClasses E)).2.output.lookup "at" = some (Spec.mats a)
      ∧ ((s.setup (pyClasses E) (params δ) none).2.run (pyClasses E)).2.output.lookup "bt" = some (Spec.vecs b)
      ∧ ((s.setup (pyClasses E) (params δ) none).2.run (pyClasses E)).2.output.lookup "fx" = some (.scalar fx')
      ∧ Spec.MomentsFollow3 (c.shiftPrior δ) meth a b m0 (Matrix.diagonal fun _ => 1 / 5) m S
      ∧ ((∀ i, (S i).PosSemidef) → fx' = Spec.freeEnergy3 (c.shiftPrior δ) y t m0 (Matrix.diagonal fun _ => 1 / 5) a b m S
        + (Spec.priorExtra3 (c.shiftPrior δ) m0 + Spec.obsExtra3 c t S hM)) := by
    intro δ hδ
    obtain ⟨M', hM', y', t', m0', meth', a', b', m', S', fx', g1, g2, g3, g4, g5, g6, g7, g8, g9, -⟩ :=
      C99_diagonal_partial E _ _ (hin δ hδ) N (hval δ) v hc s
    obtain ⟨r1, r2⟩ := C97_setup_and_run E _ _ (hin 0 z0) N (hval 0) s
    obtain ⟨q1, q2⟩ := C97_setup_and_run E _ _ (hin δ hδ) N (hval δ) s
    obtain ⟨x, x', hbut⟩ := setup_but E s _ _ none (hsame δ hδ) r1 q1
    have hout := (C114_prior E s _ _ none (hsame δ hδ) r1 r2 q1 q2).1
    rw [hbut] at g1 g2 g3
    dsimp only at g1 g2 g3
    rw [h1] at g1
    rw [h2] at g2
    rw [h3] at g3
    rw [hout _ (by decide), h5] at g5
    rw [hout _ (by decide), h6] at g6
    simp only [Option.some.injEq, Arr.path.injEq, Arr.times.injEq] at g1 g2
    have hlen := congrArg List.length g2
    simp only [List.length_ofFn] at hlen
    subst hlen
    have ey : y = y' := List.ofFn_injective (eq_of_heq g1.2)
    have et : t = t' := funext fun j => Fin.ext (congrFun (List.ofFn_injective g2) j)
    have em : m0 = m0' := by simpa using g3
    obtain ⟨ea, eb⟩ := mats_inj (Option.some.inj g5) (Option.some.inj g6)
    have emeth : meth = meth' := docName_inj (h4.symm.trans g4)
    subst ey et em ea eb emeth
    obtain ⟨rfl, rfl⟩ := moments_unique3 (c := c) hv.dt.ne' hne h8 g8
    refine ⟨fx', ?_, ?_, ?_, h4, ?_, ?_, g7, g8, g9⟩
    · rw [hbut]; exact h1
    · rw [hbut]; exact h2
    · rw [hbut]; exact h3
    · rw [hout _ (by decide), h5]
    · rw [hout _ (by decide), h6]
  by_contra hcon
  push Not at hcon
  have bad : ∀ δ ∈ ({0, 1, -1} : Set ℝ), Spec.priorExtra3 (c.shiftPrior δ) m0 + Spec.obsExtra3 c t S hM = 0 := by
    intro δ hδ
    obtain ⟨fx', k1, k2, k3, k4, k5, k6, k7, k8, k9⟩ := all δ hδ
    obtain ⟨hps, heq⟩ := hcon δ hδ M y t m0 meth a b m S fx' k1 k2 k3 k4 k5 k6 k7 k8
    linarith [k9 hps]
  have b0 := bad 0 z0
  have b1 := bad 1 (by simp)
  have b2 := bad (-1) (by simp)
  have p0 := inv_pos.2 (hv.tau0 0)
  have p1 := inv_pos.2 (hv.tau0 1)
  have p2 := inv_pos.2 (hv.tau0 2)
  simp only [Spec.priorExtra3, Spec.Config3.shiftPrior, Fin.sum_univ_three, div_eq_mul_inv, one_mul] at b0 b1 b2
  nlinarith

/-- Non-vacuity of C99_violated: the shipped configuration, with prior means 1, 2 and 0. -/
example (E : Env G) (s : Sim (AnyProc G) Arr) :=
  C99_violated E Spec.exampleConfig3 2000 example_valid3 ![10, 10, 10] rfl (by show pyLower "Heun" ≠ _; decide) (fun δ => Spec.exampleParams3Prior (1 + δ))
    (fun _ _ => example_in3Prior _) (fun _ _ => example_same3Prior _ _) s

end

end VGPA
