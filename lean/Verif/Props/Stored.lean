import Verif.Props.RunTotal63

/-!
# C120: what the stored arrays are
-/

namespace VGPA

noncomputable section

namespace Spec

/-- The dictionary `d` shows the intermediate results of one evaluation of the free energy of the one dimensional object `o` at the parameter vector `x`: the two
arguments of the forward integrator are the halves of `x`; `mt`, `st` are what it returns from `m0`, `s0`; `Efx`, `Edf` are the averages that the model's `energy`
returns for these; `lamt`, `psit` are what the backward integrator returns for the gradients of the model's energy and of the likelihood, in this order. -/
def Shows1 (o : VarGP ℝ ℝ) (x : List ℝ) (d : Dict Val) : Prop :=
  ∃ (mt st Efx Edf dm ds dEm dEs lam psi : List ℝ) (Esde : ℝ),
    solveFwd o.fwd_ode.solver rhs1 o.fwd_ode.dt (x.take o.dim_n) (x.drop o.dim_n) o.m0 o.s0 o.model.sigma = .ok (mt, st)
    ∧ o.model.energy (x.take o.dim_n) (x.drop o.dim_n) mt st o.obs_t = .ok ⟨Esde, Efx, Edf, dm, ds⟩
    ∧ o.likelihood.gradients mt st = .ok (dEm, dEs)
    ∧ solveBwd o.bwd_ode.solver rhs1 o.bwd_ode.dt (x.take o.dim_n) dm ds dEm dEs = .ok (lam, psi)
    ∧ d.lookup "m0" = some (.scalar o.m0) ∧ d.lookup "s0" = some (.scalar o.s0)
    ∧ d.lookup "mt" = some (.array ⟨[mt.length], mt⟩) ∧ d.lookup "st" = some (.array ⟨[st.length], st⟩)
    ∧ d.lookup "Efx" = some (.array ⟨[Efx.length], Efx⟩) ∧ d.lookup "Edf" = some (.array ⟨[Edf.length], Edf⟩)
    ∧ d.lookup "lamt" = some (.array ⟨[lam.length], lam⟩) ∧ d.lookup "psit" = some (.array ⟨[psi.length], psi⟩)

/-- A list of vectors as an array of shape `(n, d)`. -/
def rows {d : ℕ} (l : List (Fin d → ℝ)) : Val := .array ⟨[l.length, d], (l.map fun v => List.ofFn v).flatten⟩

/-- A list of matrices as an array of shape `(n, d, d)`. -/
def slabs {d : ℕ} (l : List (Matrix (Fin d) (Fin d) ℝ)) : Val :=
  .array ⟨[l.length, d, d], (l.map fun M => (List.ofFn fun i => List.ofFn fun j => M i j).flatten).flatten⟩

/-- The same for `d` components: `x` is the list of the entries of the matrices `a`, then that of the entries of the vectors `b`. -/
def ShowsN {d : ℕ} (o : VarGP (Fin d → ℝ) (Matrix (Fin d) (Fin d) ℝ)) (x : List ℝ) (D : Dict Val) : Prop :=
  ∃ (a : List (Matrix (Fin d) (Fin d) ℝ)) (b mt : List (Fin d → ℝ)) (st : List (Matrix (Fin d) (Fin d) ℝ)) (Efx : List (Fin d → ℝ)) (Edf : List (Matrix (Fin d) (Fin d) ℝ))
    (dm : List (Fin d → ℝ)) (ds : List (Matrix (Fin d) (Fin d) ℝ)) (dEm : List (Fin d → ℝ)) (dEs : List (Matrix (Fin d) (Fin d) ℝ))
    (lam : List (Fin d → ℝ)) (psi : List (Matrix (Fin d) (Fin d) ℝ)) (Esde : ℝ),
    x = (a.map fun M => (List.ofFn fun i => List.ofFn fun j => M i j).flatten).flatten ++ (b.map fun v => List.ofFn v).flatten
    ∧ solveFwd o.fwd_ode.solver (rhsN d) o.fwd_ode.dt a b o.m0 o.s0 o.model.sigma = .ok (mt, st)
    ∧ o.model.energy a b mt st o.obs_t = .ok ⟨Esde, Efx, Edf, dm, ds⟩
    ∧ o.likelihood.gradients mt st = .ok (dEm, dEs)
    ∧ solveBwd o.bwd_ode.solver (rhsN d) o.bwd_ode.dt a dm ds dEm dEs = .ok (lam, psi)
    ∧ D.lookup "m0" = some (.array ⟨[d], List.ofFn o.m0⟩) ∧ D.lookup "s0" = some (.array ⟨[d, d], (List.ofFn fun i => List.ofFn fun j => o.s0 i j).flatten⟩)
    ∧ D.lookup "mt" = some (rows mt) ∧ D.lookup "st" = some (slabs st)
    ∧ D.lookup "Efx" = some (rows Efx) ∧ D.lookup "Edf" = some (slabs Edf)
    ∧ D.lookup "lamt" = some (rows lam) ∧ D.lookup "psit" = some (slabs psi)

/-- One of the two, by the dimension of the process. -/
def Shows : AnyVgp → List ℝ → Dict Val → Prop
  | .one o, x, D => Shows1 o x D
  | .many _ o, x, D => ShowsN o x D

end Spec

theorem rows_eq {d : ℕ} (l : List (Fin d → ℝ)) : AnyVgp.arr2 l = Spec.rows l := rfl

theorem slabs_eq {d : ℕ} (l : List (Matrix (Fin d) (Fin d) ℝ)) : AnyVgp.arr3 l = Spec.slabs l := rfl

/-- C120: after a successful `free_energy(x)` the dictionary `arg_out` shows the intermediate results of the evaluation at `x` under their names. -/
theorem C120_arg_out (v v' : AnyVgp) (x : List ℝ) (F : ℝ) (h : v.freeEnergy x = (.ok F, v')) : Spec.Shows v x v'.argOut := by
  cases v with
  | one o =>
    simp only [AnyVgp.freeEnergy, VarGP.freeEnergy] at h
    rcases he : o.eval shape1 x with e | ⟨F', c⟩
    · rw [he] at h; cases h
    · rw [he] at h
      cases h
      obtain ⟨a, b, e, dE, E0, Eobs, h1, h2, h3, h4, h5, h6, h7, h8, h9, -⟩ := eval_ok shape1 o x _ c he
      simp only [shape1, mul_one] at h1
      injection h1 with h1
      simp only [Prod.mk.injEq] at h1
      obtain ⟨rfl, rfl⟩ := h1
      refine ⟨c.mt, c.st, c.Efx, c.Edf, e.dm, e.ds, dE.1, dE.2, c.lamt, c.psit, e.Esde, h2, ?_, h6, h7, rfl, rfl, rfl, rfl, rfl, rfl, rfl, rfl⟩
      rw [h4, h8, h9]
  | many d o =>
    simp only [AnyVgp.freeEnergy, VarGP.freeEnergy] at h
    rcases he : o.eval (shapeN d) x with e | ⟨F', c⟩
    · rw [he] at h; cases h
    · rw [he] at h
      cases h
      obtain ⟨a, b, e, dE, E0, Eobs, h1, h2, h3, h4, h5, h6, h7, h8, h9, -⟩ := eval_ok (shapeN d) o x _ c he
      have hd : d ≠ 1 := fun hd => by
        simp only [shapeN, if_pos hd] at h1
        cases h1
      have hx : x = ravel3 a ++ ravel2 b := by
        by_cases hl : x.length = o.dim_n * d * (d + 1)
        · obtain ⟨a', b', e1, -, -, -, e2⟩ := (C58_unpack_pack_nd hd x).1 hl
          rw [h1] at e1
          injection e1 with e1
          simp only [Prod.mk.injEq] at e1
          rw [e1.1, e1.2, e2]
        · rw [((C58_unpack_pack_nd hd x).2 hl).1] at h1
          cases h1
      refine ⟨a, b, c.mt, c.st, c.Efx, c.Edf, e.dm, e.ds, dE.1, dE.2, c.lamt, c.psit, e.Esde, hx, h2, ?_, h6, h7, rfl, rfl, rfl, rfl, rfl, rfl, rfl, rfl⟩
      rw [h4, h8, h9]

theorem Shows.of_lookup {v : AnyVgp} {x : List ℝ} {D D' : Dict Val} (h : Spec.Shows v x D) (hl : ∀ k ∈ Spec.momentNames, D'.lookup k = D.lookup k) :
    Spec.Shows v x D' := by
  have l : ∀ k, k ∈ Spec.momentNames → D'.lookup k = D.lookup k := hl
  cases v with
  | one o =>
    obtain ⟨a1, a2, a3, a4, a5, a6, a7, a8, a9, a10, a11, h1, h2, h3, h4, h5⟩ := h
    refine ⟨a1, a2, a3, a4, a5, a6, a7, a8, a9, a10, a11, h1, h2, h3, h4, ?_⟩
    rwa [l "m0" (by simp [Spec.momentNames]), l "s0" (by simp [Spec.momentNames]), l "mt" (by simp [Spec.momentNames]), l "st" (by simp [Spec.momentNames]),
      l "Efx" (by simp [Spec.momentNames]), l "Edf" (by simp [Spec.momentNames]), l "lamt" (by simp [Spec.momentNames]), l "psit" (by simp [Spec.momentNames])]
  | many d o =>
    obtain ⟨a0, b0, a1, a2, a3, a4, a5, a6, a7, a8, a9, a10, a11, hx, h1, h2, h3, h4, h5⟩ := h
    refine ⟨a0, b0, a1, a2, a3, a4, a5, a6, a7, a8, a9, a10, a11, hx, h1, h2, h3, h4, ?_⟩
    rwa [l "m0" (by simp [Spec.momentNames]), l "s0" (by simp [Spec.momentNames]), l "mt" (by simp [Spec.momentNames]), l "st" (by simp [Spec.momentNames]),
      l "Efx" (by simp [Spec.momentNames]), l "Edf" (by simp [Spec.momentNames]), l "lamt" (by simp [Spec.momentNames]), l "psit" (by simp [Spec.momentNames])]

/-- C120: after a successful `run()` the output shows, under their names, the intermediate results of one evaluation of the free energy of the object that `run` built: at
the stored parameters `at`, `bt`, or, when the optimizer used all its iterations, at some vector (see C85). -/
theorem C120_run {G : Type} (E : Env G) (s : Sim (AnyProc G) Arr) (h : (s.run (pyClasses E)).1 = .ok ()) :
    ∃ p v x0 a b y, Spec.Builds (pyClasses E) s.m_data p v x0
      ∧ (s.run (pyClasses E)).2.output.lookup "at" = some (.array a)
      ∧ (s.run (pyClasses E)).2.output.lookup "bt" = some (.array b)
      ∧ (y = a.data ++ b.data ∨ Spec.UsesAllIterations v x0)
      ∧ Spec.Shows v y (s.run (pyClasses E)).2.output := by
  obtain ⟨p, v, x0, a, b, fx, hb, h1, h2, h3, h4⟩ := C85_stored_moments_partial E s h
  have key : ∀ y Fy, (v.freeEnergy y).1 = .ok Fy → (∀ k ∈ Spec.momentNames, ∃ z, (s.run (pyClasses E)).2.output.lookup k = some z
      ∧ (v.freeEnergy y).2.argOut.lookup k = some z) → Spec.Shows v y (s.run (pyClasses E)).2.output := fun y Fy hy hk =>
    Shows.of_lookup (C120_arg_out v _ y Fy (Prod.ext hy rfl)) fun k hm => by
      obtain ⟨z, e1, e2⟩ := hk k hm
      rw [e1, e2]
  rcases h4 with h4 | ⟨hL, y, Fy, hy, -, h4⟩
  · exact ⟨p, v, x0, a, b, _, hb, h1, h2, .inl rfl, key _ _ h3 h4⟩
  · exact ⟨p, v, x0, a, b, y, hb, h1, h2, .inr hL, key _ _ hy h4⟩

/-- Non-vacuity: the runs of C87 and C97. -/
example {G : Type} (E : Env G) (s : Sim (AnyProc G) Arr) :=
  C120_run E _ (C87_setup_and_run E _ _ (example_in "OU") 1000 (example_valid "OU" (.inr rfl)) s).2

example {G : Type} (E : Env G) (s : Sim (AnyProc G) Arr) := C120_run E _ (C97_setup_and_run E _ _ example_in3 2000 example_valid3 s).2

end

end VGPA
