import Verif.Props.ScgMethod
import Verif.Props.Pipeline

/-!
# C94: `run()` minimizes the free energy by scaled conjugate gradients
-/

namespace VGPA

noncomputable section

/-- `F` and `G` are the free energy and its fresh gradient, on vectors with `n` entries, wherever these exist. -/
structure Spec.EnergyAndGradient (v : AnyVgp) (n : ℕ) (F : (Fin n → ℝ) → ℝ) (G : (Fin n → ℝ) → Fin n → ℝ) : Prop where
  energy : ∀ y r, (v.freeEnergy (List.ofFn y)).1 = .ok r → F y = r
  gradient : ∀ y g, (v.gradient (List.ofFn y) true).1 = .ok (List.ofFn g) → G y = g

/-- The method stops after `k` iterations from `x0`: for the first time there is no direction to search in, or the last iteration
converged, or `nit` iterations are made. -/
def Spec.ScgStops {n : ℕ} (F : (Fin n → ℝ) → ℝ) (G : (Fin n → ℝ) → Fin n → ℝ) (x0 : Fin n → ℝ) (nit : ℕ) (xTol fTol : ℝ) (k : ℕ) :
    Prop :=
  k ≤ nit ∧ (∀ j < k, ¬ (Spec.scg F G x0 j).NoDirection G) ∧ (∀ j, j + 1 < k → ¬ (Spec.scg F G x0 j).Converged F G xTol fTol)
    ∧ ((Spec.scg F G x0 k).NoDirection G ∨ (∃ j, k = j + 1 ∧ (Spec.scg F G x0 j).Converged F G xTol fTol) ∨ k = nit)

theorem asVec_ofFn {n : ℕ} {l : List ℝ} {g : Fin n → ℝ} (h : AnyVgp.asVec n l = .ok g) : l = List.ofFn g := by
  unfold AnyVgp.asVec at h
  split at h
  · next hl =>
    cases h
    subst hl
    exact (ofFn_getD l).symm
  · cases h

theorem optimize_method {v v' : AnyVgp} {x0 x : List ℝ} {fx : ℝ} (h : v.optimize x0 = (.ok (x, fx), v'))
    {F : (Fin x0.length → ℝ) → ℝ} {G : (Fin x0.length → ℝ) → Fin x0.length → ℝ} (hFG : Spec.EnergyAndGradient v x0.length F G) :
    ∃ k, x = List.ofFn (Spec.scg F G (fun i => x0.getD i 0) k).x ∧ fx = F (Spec.scg F G (fun i => x0.getD i 0) k).x
      ∧ Spec.ScgStops F G (fun i => x0.getD i 0) 500 (1 / 10 ^ 6) (1 / 10 ^ 8) k := by
  have core : ∀ {V W : Type} [AddCommGroup V] [Module ℝ V] [AddCommGroup W] [Module ℝ W] (sh : Shape V W) (o : VarGP V W)
      (ι : Option (VgpCache V W) → AnyVgp) (hι : ∀ n, Follows ι (cacheOracle sh o n) (AnyVgp.oracle n) ())
      (hv : v = ι o.cache) (hfe : ∀ y F c, o.eval sh y = .ok (F, c) → v.freeEnergy y = (.ok F, ι (some c)))
      (hgr : ∀ y F c, o.eval sh y = .ok (F, c) → (v.gradient y true).1 = VarGP.gradBody sh { o with cache := some c } y),
      ∃ k, x = List.ofFn (Spec.scg F G (fun i => x0.getD i 0) k).x ∧ fx = F (Spec.scg F G (fun i => x0.getD i 0) k).x
        ∧ Spec.ScgStops F G (fun i => x0.getD i 0) 500 (1 / 10 ^ 6) (1 / 10 ^ 8) k := by
    intro V W _ _ _ _ sh o ι hι hv hfe hgr
    unfold AnyVgp.optimize at h
    simp only at h
    rw [hv, call_map (hι _)] at h
    let o1 := cacheOracle sh o x0.length
    let o2 : Oracle (Option (VgpCache V W)) Unit ℝ (Fin x0.length → ℝ) := { o1 with df := fun x _ c => o1.dfEval x c }
    have fok : ∀ x s r s', o1.f x () s = (.ok r, s') → ∃ c, o.eval sh (List.ofFn x) = .ok (r, c) ∧ s' = some c := by
      intro x s r s' hf
      simp only [o1, cacheOracle] at hf
      rcases he : o.eval sh (List.ofFn x) with e | ⟨r', c⟩
      · rw [he] at hf; cases hf
      · rw [he] at hf; cases hf; exact ⟨c, rfl, rfl⟩
    have gok : ∀ x s g s', o1.dfEval x s = (.ok g, s') → g = G x := by
      intro x s g s' hg
      simp only [o1, cacheOracle] at hg
      rcases he : o.eval sh (List.ofFn x) with e | ⟨r', c⟩
      · rw [he] at hg; cases hg
      · rw [he] at hg
        simp only [Prod.mk.injEq] at hg
        have h1 := hg.1
        rw [← hgr _ _ _ he] at h1
        rcases hl : (v.gradient (List.ofFn x) true).1 with e | l
        · rw [hl] at h1; cases h1
        · rw [hl] at h1
          have h2 := asVec_ofFn h1
          exact (hFG.gradient x g (by rw [hl, h2])).symm
    have ho : Spec.Computes o2 () F G := by
      refine ⟨fun x s r s' hf => ?_, fun x s g s' hg => gok x s g s' hg, fun x s g s' hg => gok x s g s' hg⟩
      obtain ⟨c, he, _⟩ := fok x s r s' hf
      exact (hFG.energy x r (by rw [hfe _ _ _ he])).symm
    have heq : ∀ p x0 c, Scg.call (realArith _) o1 () p x0 c = Scg.call (realArith _) o2 () p x0 c := by
      intro p x0 c
      refine call_congr (o₁ := o1) (o₂ := o2) rfl rfl (fun x s r s' hf => ?_) p x0 c
      obtain ⟨c', he, rfl⟩ := fok x s r s' hf
      simp only [o2, o1, cacheOracle, he]
    rw [heq] at h
    generalize hp : Scg.init (realArith x0.length) (some 500) (some 1.0e-6) (some 1.0e-8) = p at h
    have hnit : p.nit = 500 := by rw [← hp]; rfl
    have hxt : p.x_tol = 1 / 10 ^ 6 := by rw [← hp]; simp only [Scg.init, Option.getD_some]; norm_num
    have hft : p.f_tol = 1 / 10 ^ 8 := by rw [← hp]; simp only [Scg.init, Option.getD_some]; norm_num
    generalize hr : Scg.call (realArith x0.length) o2 () p (fun i => x0.getD i 0) o.cache = r at h
    obtain ⟨q, p', c'⟩ := r
    rcases q with e | ⟨z, fz⟩
    · simp [Except.map] at h
    · simp only [Except.map, Prod.mk.injEq, Except.ok.injEq] at h
      obtain ⟨⟨rfl, rfl⟩, rfl⟩ := h
      obtain ⟨k, h1, h2, _, h4, h5, h6⟩ := C92_method ho p p' (hp ▸ scgInit_arrays _ _ _ _) _ z _ c' fz hr
      rw [hnit, hxt, hft] at h6
      rw [hxt, hft] at h5
      refine ⟨k, by rw [h1], by rw [h2, h1], ?_, h4, h5, ?_⟩
      · rcases h6 with h6 | ⟨_, _, h6, _⟩ | h6
        · exact h6.1.le
        · exact h6
        · exact h6.1.le
      · rcases h6 with h6 | ⟨j, h6, _, h7, _⟩ | h6
        · exact .inl h6.2.1
        · exact .inr (.inl ⟨j, h6, h7⟩)
        · exact .inr (.inr h6.1)
  cases v with
  | one o =>
    refine core shape1 o (fun c => AnyVgp.one { o with cache := c }) (follows_one o) rfl (fun y F c he => ?_) (fun y F c he => ?_)
    · simp only [AnyVgp.freeEnergy, VarGP.freeEnergy, he]
    · simp only [AnyVgp.gradient, VarGP.gradient, VarGP.freeEnergy, he, if_true]
  | many d o =>
    refine core (shapeN d) o (fun c => AnyVgp.many d { o with cache := c }) (follows_many d o) rfl (fun y F c he => ?_) (fun y F c he => ?_)
    · simp only [AnyVgp.freeEnergy, VarGP.freeEnergy, he]
    · simp only [AnyVgp.gradient, VarGP.gradient, VarGP.freeEnergy, he, if_true]

/-- C94: after a successful `run()`, the stored arrays `at` and `bt` are the point that the scaled conjugate gradient method reaches
from the start point of the variational object, applied to its free energy and its gradient, with at most 500 iterations and
the tolerances `1e-6` and `1e-8`; the stored `fx` is the free energy there. -/
theorem C94_run_is_scg {Gs : Type} (E : Env Gs) (s : Sim (AnyProc Gs) Arr) (h : (s.run (pyClasses E)).1 = .ok ()) :
    ∃ p v x0 a b fx, Spec.Builds (pyClasses E) s.m_data p v x0
      ∧ (s.run (pyClasses E)).2.output.lookup "at" = some (.array a)
      ∧ (s.run (pyClasses E)).2.output.lookup "bt" = some (.array b)
      ∧ (s.run (pyClasses E)).2.output.lookup "fx" = some (.scalar fx)
      ∧ ∀ F G, Spec.EnergyAndGradient v x0.length F G →
        ∃ k, a.data ++ b.data = List.ofFn (Spec.scg F G (fun i => x0.getD i 0) k).x
          ∧ fx = F (Spec.scg F G (fun i => x0.getD i 0) k).x
          ∧ Spec.ScgStops F G (fun i => x0.getD i 0) 500 (1 / 10 ^ 6) (1 / 10 ^ 8) k := by
  obtain ⟨p, x, fx, g, a, b, hr, ha, hb, hout⟩ := run_ok_output _ s h
  replace hout : (s.run (pyClasses E)).2.output
      = (((s.output.put "at" (.array a)).put "bt" (.array b)).put "fx" (.scalar fx)).update g.argOut := by rw [hout]; rfl
  obtain ⟨v, x0, hbu, ho⟩ := runBody_builds.1 hr
  obtain ⟨_, m0, s0, f, b', l, k, y, t, hc⟩ := builds_create hbu
  obtain ⟨_, h1, _, _⟩ := optimize_ok ho
  have hx := (create_splits hc h1).2.1 a b ha hb
  refine ⟨p, v, x0, a, b, fx, hbu, ?_, ?_, ?_, fun F G hFG => by rw [hx]; exact optimize_method ho hFG⟩
  all_goals
    rw [hout, lookup_update _ _ (argOut_distinct g), argOut_none g _ (by simp)]
    simp [lookup_put]

open Classical in
-- Non-vacuity: `F` and `G` exist for every variational object (and C87 shows that there are successful runs).
example (v : AnyVgp) (n : ℕ) : ∃ F G, Spec.EnergyAndGradient v n F G := by
  refine ⟨fun y => match (v.freeEnergy (List.ofFn y)).1 with | .ok r => r | .error _ => 0,
    fun y => if h : ∃ g : Fin n → ℝ, (v.gradient (List.ofFn y) true).1 = .ok (List.ofFn g) then h.choose else 0,
    fun y r h => by simp only [h], fun y g h => ?_⟩
  have hex : ∃ g : Fin n → ℝ, (v.gradient (List.ofFn y) true).1 = .ok (List.ofFn g) := ⟨g, h⟩
  simp only [hex, dif_pos]
  exact (List.ofFn_injective (Except.ok.inj (h.symm.trans hex.choose_spec))).symm

end

end VGPA
