import Verif.Props.VarGPGradN
import Verif.Props.Below
import Verif.Props.VarGPInit
import Mathlib.Order.Fin.Basic

/-!
# C130: the order in which the observations are given
-/

namespace VGPA

noncomputable section

open Matrix

/-! ## What of the energy depends on the observation times -/

/-- Only the number `Esde` depends on the observation times. -/
def ObsFree {V W : Type} (M : SdeModel V W) : Prop :=
  ∀ a b m s obs obs', (M.energy a b m s obs).map (fun e => (e.Efx, e.Edf, e.dm, e.ds)) = (M.energy a b m s obs').map fun e => (e.Efx, e.Edf, e.dm, e.ds)

theorem map_bind_py {α β γ : Type} (x : Py α) (f : α → Py β) (g : β → γ) : (x >>= f).map g = x >>= fun a => (f a).map g := by
  cases x <;> rfl

theorem obsFree_dw {G : Type} (p : DW G) : ObsFree p.sde := fun a b m s obs obs' => by
  simp only [DW.sde, map_bind_py, DW.energy, bind_assoc]
  refine bind_congr fun _ => bind_congr fun _ => bind_congr fun _ => bind_congr fun _ => bind_congr fun _ => bind_congr fun _ => ?_
  split_ifs
  · rfl
  · simp only [bind_assoc]
    refine bind_congr fun _ => bind_congr fun _ => bind_congr fun _ => bind_congr fun _ => bind_congr fun _ => bind_congr fun _ => bind_congr fun _ => bind_congr fun _ => ?_
    rfl

theorem obsFree_ou {G : Type} (p : OU G) : ObsFree p.sde := fun a b m s obs obs' => by
  simp only [OU.sde, map_bind_py, OU.energy, bind_assoc]
  refine bind_congr fun _ => bind_congr fun _ => bind_congr fun _ => ?_
  split_ifs <;> rfl

theorem obsFree_l63 {G : Type} (p : L63 G) : ObsFree p.sde := fun a b m s obs obs' => by
  simp only [L63.sde, map_bind_py, L63.energy, bind_assoc]
  refine bind_congr fun _ => bind_congr fun _ => bind_congr fun _ => ?_
  rfl

theorem obsFree_l96 {G : Type} {d : ℕ} (p : L96 G d) : ObsFree p.sde := fun a b m s obs obs' => by
  simp only [L96.sde, map_bind_py, L96.energy, bind_assoc]
  refine bind_congr fun _ => bind_congr fun _ => bind_congr fun _ => ?_
  rfl

/-! ## Evaluation with other observations -/

section
variable {V W : Type} [AddCommGroup V] [Module ℝ V] [AddCommGroup W] [Module ℝ W]

/-- `o'` is `o` with other observations. -/
def withObs (o : VarGP V W) (L : LikeIf V W) (ys : List V) (ts : List ℕ) : VarGP V W := { o with likelihood := L, obs_y := ys, obs_t := ts }

omit [AddCommGroup V] [Module ℝ V] [AddCommGroup W] [Module ℝ W] in
theorem withObs_model (o : VarGP V W) (L : LikeIf V W) (ys : List V) (ts : List ℕ) : (withObs o L ys ts).model = o.model := rfl

theorem eval_withObs (sh : Shape V W) (o : VarGP V W) (hM : ObsFree o.model) (L : LikeIf V W) (ys : List V) (ts : List ℕ) (x : List ℝ)
    (h : ∀ a b mt st, sh.unpackF o.dim_n x = .ok (a, b) → solveFwd o.fwd_ode.solver sh.rhs o.fwd_ode.dt a b o.m0 o.s0 o.model.sigma = .ok (mt, st) →
      (∃ E, L.call mt st = .ok E ∧ o.likelihood.call mt st = .ok E) ∧ L.gradients mt st = o.likelihood.gradients mt st) :
    ((withObs o L ys ts).eval sh x).map Prod.snd = (o.eval sh x).map Prod.snd := by
  unfold VarGP.eval
  show Except.map Prod.snd (sh.unpackF o.dim_n x >>= _) = _
  rcases h1 : sh.unpackF o.dim_n x with e | ⟨a, b⟩
  · rfl
  simp only [py_ok_bind]
  show Except.map Prod.snd (solveFwd o.fwd_ode.solver sh.rhs o.fwd_ode.dt a b o.m0 o.s0 o.model.sigma >>= _) = _
  rcases h2 : solveFwd o.fwd_ode.solver sh.rhs o.fwd_ode.dt a b o.m0 o.s0 o.model.sigma with e | ⟨mt, st⟩
  · rfl
  obtain ⟨⟨E, g1, g2⟩, g3⟩ := h a b mt st h1 h2
  simp only [py_ok_bind]
  show Except.map Prod.snd (L.call mt st >>= _) = _
  rw [g1, g2]
  simp only [py_ok_bind]
  have hE := hM a b mt st ts o.obs_t
  show Except.map Prod.snd (o.model.energy a b mt st ts >>= _) = _
  rcases e1 : o.model.energy a b mt st ts with e | e <;> rcases e2 : o.model.energy a b mt st o.obs_t with e' | e' <;> rw [e1, e2] at hE <;>
    simp only [Except.map, Except.error.injEq, Except.ok.injEq, reduceCtorEq, Prod.mk.injEq] at hE
  · subst hE
    rfl
  obtain ⟨h3, h4, h5, h6⟩ := hE
  simp only [py_ok_bind]
  show Except.map Prod.snd (L.gradients mt st >>= _) = _
  rw [g3, h3, h4, h5, h6]
  rcases o.likelihood.gradients mt st with e | ⟨d1, d2⟩
  · rfl
  simp only [py_ok_bind]
  show Except.map Prod.snd (solveBwd o.bwd_ode.solver sh.rhs o.bwd_ode.dt a e'.dm e'.ds d1 d2 >>= _) = _
  rcases solveBwd o.bwd_ode.solver sh.rhs o.bwd_ode.dt a e'.dm e'.ds d1 d2 with e | ⟨l, q⟩
  · rfl
  simp only [py_ok_bind]
  show Except.map Prod.snd (o.kl0 o.m0 o.s0 >>= _) = _
  rcases o.kl0 o.m0 o.s0 with e | E0 <;> rfl

theorem gradRow_withObs (sh : Shape V W) (o : VarGP V W) (L : LikeIf V W) (ys : List V) (ts : List ℕ) (c c' : Option (VgpCache V W)) (x : List ℝ) (h : c = c') :
    ({ withObs o L ys ts with cache := c }).gradBody sh x = ({ o with cache := c' }).gradBody sh x := by
  subst h
  rfl

/-- The gradient and what `arg_out` shows depend on the evaluation only through the stored arrays. -/
theorem gradient_withObs (sh : Shape V W) (o : VarGP V W) (L : LikeIf V W) (ys : List V) (ts : List ℕ) (x : List ℝ)
    (h : ((withObs o L ys ts).eval sh x).map Prod.snd = (o.eval sh x).map Prod.snd) :
    ((withObs o L ys ts).gradient sh x true).1 = (o.gradient sh x true).1 ∧ ((withObs o L ys ts).gradient sh x true).2.argOut = (o.gradient sh x true).2.argOut := by
  unfold VarGP.gradient VarGP.freeEnergy
  rcases e1 : (withObs o L ys ts).eval sh x with e | ⟨F, c⟩ <;> rcases e2 : o.eval sh x with e' | ⟨F', c'⟩ <;> rw [e1, e2] at h <;>
    simp only [Except.map, Except.error.injEq, Except.ok.injEq, reduceCtorEq] at h
  · subst h
    exact ⟨rfl, rfl⟩
  · simp only [if_true]
    exact ⟨gradRow_withObs sh o L ys ts _ _ x (by rw [h]), by subst h; rfl⟩

end

/-! ## Likelihoods -/

variable {n k d : ℕ}

/-- C130, the part that holds: the observation energy in one dimension does not depend on the order of the observations. -/
theorem C130_likelihood_1d_partial (H R : ℝ) (y : Fin k → ℝ) (t : Fin k → Fin n) (e : Equiv.Perm (Fin k)) (m s : Fin n → ℝ) :
    ∃ E, (⟨List.ofFn (y ∘ e), List.ofFn fun j => (t (e j) : ℕ), R, H⟩ : Like1).gauss (List.ofFn m) (List.ofFn s) = .ok E
      ∧ (⟨List.ofFn y, List.ofFn fun j => (t j : ℕ), R, H⟩ : Like1).gauss (List.ofFn m) (List.ofFn s) = .ok E := by
  refine ⟨_, ?_, like1_gauss_eq H R y t m s⟩
  have := like1_gauss_eq H R (y ∘ e) (t ∘ e) m s
  simp only [Function.comp_apply] at this
  rw [this]
  congr 1
  exact Equiv.sum_comp e fun j => 0.5 * (y j ^ 2 - 2 * y j * m (t j) + (m (t j) ^ 2 + s (t j))) / R + 0.5 * (log2pi + Real.log R)

/-- Two vectors with the same values at the observation times and zero elsewhere are the same. -/
theorem ext_perm {α : Type} [Zero α] {t : Fin k → Fin n} (e : Equiv.Perm (Fin k)) {v : Fin k → α} {f g : Fin n → α} (h1 : ∀ j, f (t (e j)) = v (e j)) (h2 : ∀ i, (∀ j, t (e j) ≠ i) → f i = 0)
    (h3 : ∀ j, g (t j) = v j) (h4 : ∀ i, (∀ j, t j ≠ i) → g i = 0) : f = g := by
  funext i
  by_cases h : ∃ j, t j = i
  · obtain ⟨j, rfl⟩ := h
    have := h1 (e.symm j)
    rw [Equiv.apply_symm_apply] at this
    rw [this, h3]
  · push Not at h
    rw [h2 i fun j => h (e j), h4 i h]

theorem like1_gradients_perm (H R : ℝ) (y : Fin k → ℝ) (t : Fin k → Fin n) (ht : Function.Injective t) (e : Equiv.Perm (Fin k)) (m s : Fin n → ℝ) :
    (⟨List.ofFn (y ∘ e), List.ofFn fun j => (t (e j) : ℕ), R, H⟩ : Like1).gradients (List.ofFn m) (List.ofFn s)
      = (⟨List.ofFn y, List.ofFn fun j => (t j : ℕ), R, H⟩ : Like1).gradients (List.ofFn m) (List.ofFn s) := by
  obtain ⟨a, b, c, h1, h2, h3, h4, h5⟩ := like1_gradients_eq H R y t ht m s
  obtain ⟨a', b', c', h1', h2', h3', h4', h5'⟩ := like1_gradients_eq H R (y ∘ e) (t ∘ e) (ht.comp e.injective) m s
  simp only [Function.comp_apply] at h1' h2' h3' h4' h5'
  rw [h1, h1']
  have ea : a' = a := ext_perm e (v := fun j => -(y j - H * m (t j)) / R) h2' (fun i hi => (h5' i hi).1) h2 fun i hi => (h5 i hi).1
  have eb : b' = b := ext_perm e (v := fun _ => 0.5 / R) h3' (fun i hi => (h5' i hi).2.1) h3 fun i hi => (h5 i hi).2.1
  have ec : c' = c := ext_perm e (v := fun j => -0.5 * (y j ^ 2 - 2 * y j * m (t j) + (m (t j) ^ 2 + s (t j)) + 1) / R) h4' (fun i hi => (h5' i hi).2.2) h4 fun i hi => (h5 i hi).2.2
  rw [ea, eb, ec]

/-- C130, the part that holds: nor does it in several dimensions. -/
theorem C130_likelihood_nd_partial {R : Matrix (Fin d) (Fin d) ℝ} (hR : R.PosDef) (y : Fin k → Fin d → ℝ) (t : Fin k → Fin n) (hk : k ≤ n) (e : Equiv.Perm (Fin k)) (m : Fin n → Fin d → ℝ)
    (s : Fin n → Matrix (Fin d) (Fin d) ℝ) :
    ∃ E, (⟨List.ofFn (y ∘ e), List.ofFn fun j => (t (e j) : ℕ), R, 1⟩ : LikeN d).gauss (List.ofFn m) (List.ofFn s) = .ok E
      ∧ (⟨List.ofFn y, List.ofFn fun j => (t j : ℕ), R, 1⟩ : LikeN d).gauss (List.ofFn m) (List.ofFn s) = .ok E := by
  refine ⟨_, ?_, likeN_gauss_eq hR y t hk m s⟩
  have := likeN_gauss_eq hR (y ∘ e) (t ∘ e) hk m s
  simp only [Function.comp_apply] at this
  rw [this]
  congr 1
  simp only [mul_add, Finset.sum_add_distrib]
  congr 2
  exact Equiv.sum_comp e fun j => 1 / 2 * ((y j - m (t j)) ⬝ᵥ R⁻¹ *ᵥ (y j - m (t j)))

theorem likeN_gradients_perm {R : Matrix (Fin d) (Fin d) ℝ} (hR : R.PosDef) (y : Fin k → Fin d → ℝ) (t : Fin k → Fin n) (ht : Function.Injective t) (e : Equiv.Perm (Fin k))
    (m : Fin n → Fin d → ℝ) :
    (⟨List.ofFn (y ∘ e), List.ofFn fun j => (t (e j) : ℕ), R, 1⟩ : LikeN d).gradients (List.ofFn m) = (⟨List.ofFn y, List.ofFn fun j => (t j : ℕ), R, 1⟩ : LikeN d).gradients (List.ofFn m) := by
  obtain ⟨o, a, b, h0, h1, h2, h3⟩ := C54_values hR y t ht m
  obtain ⟨o', a', b', h0', h1', h2', h3'⟩ := C54_values hR (y ∘ e) (t ∘ e) (ht.comp e.injective) m
  cases h0
  cases h0'
  simp only [Function.comp_apply] at h1' h2' h3'
  have ea : a' = a := ext_perm e (v := fun j => R⁻¹ *ᵥ (m (t j) - y j)) (fun j => (h2' j).1) (fun i hi => (h3' i hi).1) (fun j => (h2 j).1) fun i hi => (h3 i hi).1
  have eb : b' = b := ext_perm e (v := fun _ => (1 / 2 : ℝ) • R⁻¹) (fun j => (h2' j).2) (fun i hi => (h3' i hi).2) (fun j => (h2 j).2) fun i hi => (h3 i hi).2
  rw [ea, eb] at h1'
  exact h1'.trans h1.symm

/-! ## C130 -/

namespace Spec

/-- In one dimension: `o'` is the object `o` with the same observations in another order. -/
def Reordered1 (o o' : VarGP ℝ ℝ) (y : Fin k → ℝ) (t : Fin k → Fin n) (e : Equiv.Perm (Fin k)) : Prop :=
  ∃ R H pr, Vgp1Ok o n k y t R H pr ∧ o.obs_y = List.ofFn y ∧ o' = { o with
    likelihood := (⟨List.ofFn fun j => y (e j), List.ofFn fun j => (t (e j) : ℕ), R, H⟩ : Like1).toIf
    obs_y := List.ofFn fun j => y (e j)
    obs_t := List.ofFn fun j => (t (e j) : ℕ) }

/-- The same in several dimensions. -/
def ReorderedN (o o' : VarGP (Fin d → ℝ) (Matrix (Fin d) (Fin d) ℝ)) (y : Fin k → Fin d → ℝ) (t : Fin k → Fin n) (e : Equiv.Perm (Fin k)) : Prop :=
  ∃ R, VgpNOk o n k y t R ∧ o.obs_y = List.ofFn y ∧ o' = { o with
    likelihood := (⟨List.ofFn fun j => y (e j), List.ofFn fun j => (t (e j) : ℕ), R, 1⟩ : LikeN d).toIf
    obs_y := List.ofFn fun j => y (e j)
    obs_t := List.ofFn fun j => (t (e j) : ℕ) }

end Spec

/-- C130, the part that holds, in one dimension: the gradient at every parameter vector and the moments and multipliers that `arg_out` shows do not depend on the order of the observations. Missing: the free energy,
see `C130_free_energy_violated`, and the initialization, see `C130_initialization_violated`. -/
theorem C130_gradient_1d_partial {G : Type} {o o' : VarGP ℝ ℝ} {y : Fin k → ℝ} {t : Fin k → Fin n} {e : Equiv.Perm (Fin k)} (h : Spec.Reordered1 o o' y t e)
    (hmodel : (∃ p : DW G, o.model = p.sde) ∨ ∃ p : OU G, o.model = p.sde) (x : List ℝ) (hx : x.length = 2 * n) :
    (o'.gradient shape1 x true).1 = (o.gradient shape1 x true).1 ∧ (o'.gradient shape1 x true).2.argOut = (o.gradient shape1 x true).2.argOut := by
  obtain ⟨R, H, pr, ho, -, rfl⟩ := h
  have hM : ObsFree o.model := by
    rcases hmodel with ⟨p, hp⟩ | ⟨p, hp⟩ <;> rw [hp]
    · exact obsFree_dw p
    · exact obsFree_ou p
  refine gradient_withObs shape1 o _ _ _ x (eval_withObs shape1 o hM _ _ _ x fun a b mt st h1 h2 => ?_)
  obtain ⟨a', b', hu, -⟩ := C58_unpack_pack_1d (n := n) x (by omega)
  rw [ho.dim, hu] at h1
  cases h1
  obtain ⟨mt', st', h3, hm, hs, -⟩ := (C16_forward_shapes o.fwd_ode.solver rhs1 o.fwd_ode.dt (List.ofFn a') (List.ofFn b') o.m0 o.s0 o.model.sigma).1 ⟨by simpa using ho.pos, Or.inl (by simp)⟩
  rw [show shape1.rhs = rhs1 from rfl, h3] at h2
  cases h2
  obtain ⟨m, rfl⟩ := list_eq_ofFn (hm.trans (List.length_ofFn))
  obtain ⟨s, rfl⟩ := list_eq_ofFn (hs.trans (List.length_ofFn))
  rw [ho.like]
  refine ⟨C130_likelihood_1d_partial H R y t e m s, ?_⟩
  have := like1_gradients_perm H R y t ho.inj e m s
  simp only [Function.comp_def] at this
  simp only [Like1.toIf, this]

/-- C130, the part that holds, in several dimensions. -/
theorem C130_gradient_nd_partial {G : Type} {o o' : VarGP (Fin d → ℝ) (Matrix (Fin d) (Fin d) ℝ)} {y : Fin k → Fin d → ℝ} {t : Fin k → Fin n} {e : Equiv.Perm (Fin k)} (hd : d ≠ 1)
    (h : Spec.ReorderedN o o' y t e) (hmodel : (∃ (p : L63 G) (h3 : d = 3), o.model = h3 ▸ p.sde) ∨ ∃ p : L96 G d, o.model = p.sde) (x : List ℝ) :
    (o'.gradient (shapeN d) x true).1 = (o.gradient (shapeN d) x true).1 ∧ (o'.gradient (shapeN d) x true).2.argOut = (o.gradient (shapeN d) x true).2.argOut := by
  obtain ⟨R, ho, -, rfl⟩ := h
  have hM : ObsFree o.model := by
    rcases hmodel with ⟨p, rfl, hp⟩ | ⟨p, hp⟩ <;> rw [hp]
    · exact obsFree_l63 p
    · exact obsFree_l96 p
  refine gradient_withObs (shapeN d) o _ _ _ x (eval_withObs (shapeN d) o hM _ _ _ x fun a b mt st h1 h2 => ?_)
  have hx : x.length = n * d * (d + 1) := by
    by_contra hx
    rw [ho.dim, ((C58_unpack_pack_nd (n := n) hd x).2 hx).1] at h1
    cases h1
  obtain ⟨a', b', hu, -⟩ := (C58_unpack_pack_nd (n := n) hd x).1 hx
  rw [ho.dim, hu] at h1
  cases h1
  obtain ⟨mt', st', h3, hm, hs, -⟩ := (C16_forward_shapes o.fwd_ode.solver (rhsN d) o.fwd_ode.dt (List.ofFn a') (List.ofFn b') o.m0 o.s0 o.model.sigma).1 ⟨by simpa using ho.pos, Or.inl (by simp)⟩
  rw [show (shapeN d).rhs = rhsN d from rfl, h3] at h2
  cases h2
  obtain ⟨m, rfl⟩ := list_eq_ofFn (hm.trans (List.length_ofFn))
  obtain ⟨s, rfl⟩ := list_eq_ofFn (hs.trans (List.length_ofFn))
  rw [ho.like]
  refine ⟨C130_likelihood_nd_partial ho.noise y t (by simpa using Fintype.card_le_of_injective t ho.inj) e m s, ?_⟩
  have := likeN_gradients_perm ho.noise y t ho.inj e m
  simp only [Function.comp_def] at this
  simp only [LikeN.toIf, this]

/-! ## What the quadrature makes of observation times that are not increasing -/

section
variable (dx : ℝ)

theorem slice_back {V : Type} (fx : List V) {f l : ℕ} (h : l < f) : slice fx f (l + 1) = [] := by
  unfold slice
  rw [show l + 1 - f = 0 by omega, List.take_zero]

theorem trap_step (fx : List ℝ) (f l : ℕ) :
    trapezoid dx (slice fx f (l + 1)) + trapezoid dx (fx.drop l) = trapezoid dx (fx.drop f) + if l < f then trapezoid dx ((fx.drop l).take (f - l + 1)) else 0 := by
  split_ifs with h
  · rw [slice_back fx h, show trapezoid dx ([] : List ℝ) = 0 by simp [trapezoid], zero_add, ← trapezoid_split dx (fx.drop l) (f - l), List.drop_drop, show l + (f - l) = f by omega, add_comm]
  · have := trapezoid_split dx (fx.drop f) (l - f)
    rw [List.drop_drop, show f + (l - f) = l by omega] at this
    rw [← this, add_zero, slice, show l + 1 - f = l - f + 1 by omega]

theorem trap_pos (hdx : 0 < dx) : ∀ (l : List ℝ), 2 ≤ l.length → (∀ x ∈ l, 0 < x) → 0 < trapezoid dx l
  | [], h, _ => by simp at h
  | [_], h, _ => by simp at h
  | x :: y :: l, _, hp => by
    rw [trapezoid_cons]
    have h1 := hp x (by simp)
    have h2 := hp y (by simp)
    have h3 : 0 ≤ trapezoid dx (y :: l) := by
      rw [trapezoid_eq_rule]
      exact rule_nonneg dx hdx.le _ fun z hz => (hp z (List.mem_cons_of_mem _ hz)).le
    have : 0 < (dx / 2) • (y + x) := by
      rw [smul_eq_mul]
      positivity
    linarith

theorem trap_fold (hdx : 0 < dx) (fx : List ℝ) (hp : ∀ x ∈ fx, 0 < x) : ∀ (obs : List ℕ) (f : ℕ) (acc : ℝ), f < fx.length → (∀ l ∈ obs, l < fx.length) →
    let r := obs.foldl (fun (acc : ℝ × ℕ) l => (acc.1 + trapezoid dx (slice fx acc.2 (l + 1)), l)) (acc, f)
    r.2 < fx.length ∧ acc + trapezoid dx (fx.drop f) ≤ r.1 + trapezoid dx (fx.drop r.2)
      ∧ (¬ (f :: obs).Pairwise (· ≤ ·) → acc + trapezoid dx (fx.drop f) < r.1 + trapezoid dx (fx.drop r.2))
  | [], f, acc, hf, _ => ⟨hf, le_refl _, fun h => absurd (List.pairwise_singleton _ _) h⟩
  | l :: obs, f, acc, hf, hl => by
    obtain ⟨h1, h2, h3⟩ := trap_fold hdx fx hp obs l (acc + trapezoid dx (slice fx f (l + 1))) (hl l (by simp)) fun x hx => hl x (List.mem_cons_of_mem _ hx)
    have hs := trap_step dx fx f l
    rw [List.foldl_cons]
    by_cases hlf : l < f
    · rw [if_pos hlf] at hs
      have : 0 < trapezoid dx ((fx.drop l).take (f - l + 1)) := by
        refine trap_pos dx hdx _ ?_ fun x hx => hp x (List.drop_subset _ _ (List.take_subset _ _ hx))
        rw [List.length_take, List.length_drop]
        omega
      exact ⟨h1, by linarith, fun _ => by linarith⟩
    · rw [if_neg hlf] at hs
      refine ⟨h1, by linarith, fun hn => ?_⟩
      have : ¬ (l :: obs).Pairwise (· ≤ ·) := fun hl' => hn (List.pairwise_cons.2 ⟨fun x hx => ?_, hl'⟩)
      · have := h3 this
        linarith
      · rcases List.mem_cons.1 hx with rfl | hx
        · omega
        · have := (List.pairwise_cons.1 hl').1 x hx
          omega

/-- With a positive integrand, observation times that are out of order make the quadrature too large. -/
theorem myTrapz_unsorted (hdx : 0 < dx) (fx : List ℝ) (hp : ∀ x ∈ fx, 0 < x) (obs : List ℕ) (hl : ∀ l ∈ obs, l < fx.length) (hn : ¬ obs.Pairwise (· ≤ ·)) :
    Spec.trapezoidRule dx fx < myTrapz fx dx (some obs) := by
  have hfx : 0 < fx.length := by
    rcases obs with _ | ⟨l, obs⟩
    · exact absurd List.Pairwise.nil hn
    · have := hl l (by simp)
      omega
  obtain ⟨h1, -, h3⟩ := trap_fold dx hdx fx hp obs 0 0 hfx hl
  have h4 := h3 fun h => hn (List.pairwise_cons.1 h).2
  rw [List.drop_zero, zero_add, trapezoid_eq_rule] at h4
  unfold myTrapz
  simp only
  split_ifs with h
  · exact h4
  · have e : trapezoid dx (fx.drop (obs.foldl (fun (acc : ℝ × ℕ) l => (acc.1 + trapezoid dx (slice fx acc.2 (l + 1)), l)) (0, 0)).2) = 0 := by
      have : (fx.drop (obs.foldl (fun (acc : ℝ × ℕ) l => (acc.1 + trapezoid dx (slice fx acc.2 (l + 1)), l)) (0, 0)).2).length = 1 := by
        rw [List.length_drop]
        omega
      obtain ⟨x, hx⟩ := List.length_eq_one_iff.1 this
      rw [hx]
      simp [trapezoid]
    rw [e, add_zero] at h4
    exact h4

end

/-- The `Esde` of `OrnsteinUhlenbeck.energy` for observation times in any order. -/
theorem ou_esde_any {G : Type} (p : OU G) (a b m s : Fin n → ℝ) (obs : List ℕ) {dt : ℝ} (hdt : p.base.timeStep = .ok dt) :
    ∃ E ef edf dm ds, p.sde.energy (List.ofFn a) (List.ofFn b) (List.ofFn m) (List.ofFn s) obs = .ok ⟨E, ef, edf, dm, ds⟩
      ∧ E = 0.5 * myTrapz (List.ofFn fun i => ouQ p.theta (a i) (b i) (m i) (s i)) dt (some obs) / p.sigma := by
  have hinit : GaussianMoments.init (List.ofFn m) (List.ofFn s) = .ok ⟨List.ofFn m, List.ofFn s, n⟩ := by
    simp [GaussianMoments.init]
  simp only [OU.sde]
  unfold OU.energy
  simp only [hinit, hdt, py_ok_bind, GaussianMoments.call, GaussianMoments.zip, zipWith_ofFn]
  norm_num only [List.length_ofFn, tab_eq_ofFn, ent_ofFn, ne_eq, not_true_eq_false, or_self, if_false,
    py_ok_bind, py_pure, ouQ, mul_one]
  simp only [if_true, py_ok_bind, ent_ofFn]
  exact ⟨_, _, _, _, _, rfl, rfl⟩

theorem perm_not_mono {t : Fin k → Fin n} (ht : StrictMono t) {e : Equiv.Perm (Fin k)} (he : e ≠ 1) : ¬ (List.ofFn fun j => (t (e j) : ℕ)).Pairwise (· ≤ ·) := by
  rw [List.pairwise_ofFn]
  intro h
  apply he
  have hm : StrictMono e := fun i j hij => by
    have := h hij
    rcases (ht.le_iff_le.1 (Fin.le_def.2 this)).lt_or_eq with h | h
    · exact h
    · exact absurd (e.injective h) hij.ne
  ext i
  have : (hm.orderIsoOfSurjective e e.surjective) = OrderIso.refl _ := Subsingleton.elim _ _
  have h2 := DFunLike.congr_fun this i
  simpa using congrArg Fin.val h2

theorem ouQ_pos {theta a b m v : ℝ} (hv : 0 < v) (ha : a ≠ theta) : 0 < ouQ theta a b m v := by
  have : ouQ theta a b m v = v * (theta - a) ^ 2 + (m * (theta - a) + b) ^ 2 := by
    unfold ouQ
    ring
  rw [this]
  have := sq_pos_of_ne_zero (sub_ne_zero.2 ha.symm)
  positivity

/-- C130 is violated by the free energy: for every Ornstein-Uhlenbeck object whose observations are given in increasing order, and every other order of the same observations, the free energy comes out larger, at
every parameter vector with positive variances and no coefficient `A` equal to `theta`. -/
theorem C130_free_energy_violated {G : Type} (p : OU G) {o o' : VarGP ℝ ℝ} {y : Fin k → ℝ} {t : Fin k → Fin n} {e : Equiv.Perm (Fin k)} (h : Spec.Reordered1 o o' y t e)
    (hmodel : o.model = p.sde) (hσ : 0 < p.sigma) {dt : ℝ} (hstep : p.base.timeStep = .ok dt) (hdt : 0 < dt) (hmono : StrictMono t) (he : e ≠ 1) (a b : Fin n → ℝ)
    (ha : ∀ i, a i ≠ p.theta) (hs : ∀ c, (o.freeEnergy shape1 (List.ofFn a ++ List.ofFn b)).2.cache = some c → ∀ v ∈ c.st, 0 < v) :
    ∃ F F', (o.freeEnergy shape1 (List.ofFn a ++ List.ofFn b)).1 = .ok F ∧ (o'.freeEnergy shape1 (List.ofFn a ++ List.ofFn b)).1 = .ok F' ∧ F < F' := by
  obtain ⟨R, H, pr, ho, -, rfl⟩ := h
  have hobs : o.obs_t.Pairwise (· ≤ ·) := by
    rw [ho.obs, List.pairwise_ofFn]
    exact fun i j hij => (hmono hij).le
  have hok : EnergyOk1 o.model n o.obs_t (fun m _ => -p.theta * m) (fun _ _ => -p.theta) := by
    rw [hmodel]
    exact ou_energyOk p n o.obs_t dt hstep hobs
  obtain ⟨F, m, s, lam, psi, hev, hfwd⟩ := vgp1_eval ho hok a b
  have hpos : ∀ i, 0 < s i := fun i => hs _ (by unfold VarGP.freeEnergy; rw [hev]) _ (List.mem_ofFn.2 ⟨i, rfl⟩)
  have hE := eval_withObs shape1 o (by rw [hmodel]; exact obsFree_ou p) (⟨List.ofFn fun j => y (e j), List.ofFn fun j => (t (e j) : ℕ), R, H⟩ : Like1).toIf (List.ofFn fun j => y (e j))
    (List.ofFn fun j => (t (e j) : ℕ)) (List.ofFn a ++ List.ofFn b) fun a' b' mt st h1 h2 => ?_
  swap
  · have hu := (C58_pack_unpack_1d a b).2.1
    simp only [shape1, id] at hu h1
    rw [ho.dim, hu] at h1
    cases h1
    rw [show shape1.rhs = rhs1 from rfl, hfwd] at h2
    cases h2
    rw [ho.like]
    refine ⟨C130_likelihood_1d_partial H R y t e m s, ?_⟩
    have := like1_gradients_perm H R y t ho.inj e m s
    simp only [Function.comp_def] at this
    simp only [Like1.toIf, this]
  rw [hev] at hE
  rcases hev' : (withObs o (⟨List.ofFn fun j => y (e j), List.ofFn fun j => (t (e j) : ℕ), R, H⟩ : Like1).toIf (List.ofFn fun j => y (e j)) (List.ofFn fun j => (t (e j) : ℕ))).eval shape1
    (List.ofFn a ++ List.ofFn b) with er | ⟨F', c'⟩
  · rw [hev'] at hE
    simp [Except.map] at hE
  refine ⟨F, F', by unfold VarGP.freeEnergy; rw [hev], ?_, ?_⟩
  · show ((withObs o _ _ _).freeEnergy shape1 _).1 = _
    unfold VarGP.freeEnergy
    rw [hev']
  have hfe : o.freeEnergy shape1 (List.ofFn a ++ List.ofFn b) = (.ok F, (o.freeEnergy shape1 (List.ofFn a ++ List.ofFn b)).2) := by
    unfold VarGP.freeEnergy
    rw [hev]
  have hfe' : (withObs o (⟨List.ofFn fun j => y (e j), List.ofFn fun j => (t (e j) : ℕ), R, H⟩ : Like1).toIf (List.ofFn fun j => y (e j)) (List.ofFn fun j => (t (e j) : ℕ))).freeEnergy shape1
      (List.ofFn a ++ List.ofFn b) = (.ok F', ((withObs o (⟨List.ofFn fun j => y (e j), List.ofFn fun j => (t (e j) : ℕ), R, H⟩ : Like1).toIf (List.ofFn fun j => y (e j))
        (List.ofFn fun j => (t (e j) : ℕ))).freeEnergy shape1 (List.ofFn a ++ List.ofFn b)).2) := by
    unfold VarGP.freeEnergy
    rw [hev']
  obtain ⟨al, bl, mt, st, eo, E0, Eo, h1, h2, h3, h4, h5, h6, -⟩ := C59_sum_of_energies _ _ _ _ _ hfe
  obtain ⟨al', bl', mt', st', eo', E0', Eo', h1', h2', h3', h4', h5', h6', -⟩ := C59_sum_of_energies _ _ _ _ _ hfe'
  have hu := (C58_pack_unpack_1d a b).2.1
  simp only [shape1, id] at hu h1 h1'
  simp only [withObs] at h1' h2' h3' h4' h5'
  rw [ho.dim, hu] at h1 h1'
  cases h1
  cases h1'
  rw [show shape1.rhs = rhs1 from rfl, hfwd] at h2 h2'
  cases h2
  cases h2'
  rw [h3] at h3'
  cases h3'
  obtain ⟨E, g1, g2⟩ := C130_likelihood_1d_partial H R y t e m s
  have g1' : (⟨List.ofFn fun j => y (e j), List.ofFn fun j => (t (e j) : ℕ), R, H⟩ : Like1).toIf.call (List.ofFn m) (List.ofFn s) = .ok E := g1
  have g2' : o.likelihood.call (List.ofFn m) (List.ofFn s) = .ok E := by
    rw [ho.like]
    exact g2
  rw [g2'] at h5
  rw [g1'] at h5'
  cases h5
  cases h5'
  rw [hmodel] at h4 h4'
  obtain ⟨E1, ef, edf, dm, ds, k1, rfl⟩ := ou_esde_any p a b m s o.obs_t hstep
  obtain ⟨E2, ef', edf', dm', ds', k1', rfl⟩ := ou_esde_any p a b m s (List.ofFn fun j => (t (e j) : ℕ)) hstep
  rw [k1] at h4
  rw [k1'] at h4'
  cases h4
  cases h4'
  have key := myTrapz_unsorted dt hdt (List.ofFn fun i => ouQ p.theta (a i) (b i) (m i) (s i)) (fun x hx => by
    obtain ⟨i, rfl⟩ := List.mem_ofFn.1 hx
    exact ouQ_pos (hpos i) (ha i)) (List.ofFn fun j => (t (e j) : ℕ)) (fun l hl => by
    obtain ⟨j, rfl⟩ := List.mem_ofFn.1 hl
    simp) (perm_not_mono hmono he)
  rw [h6, h6', (C04_split_invariance _ dt _ hobs).1]
  have := div_lt_div_of_pos_right (mul_lt_mul_of_pos_left key (by norm_num : (0 : ℝ) < 0.5)) hσ
  linarith

/-! ## Initialization -/

theorem abscissae_unsorted {N k : ℕ} {tw : Fin (N + 1) → ℝ} (htw : StrictMono tw) {t : Fin (k + 1) → Fin (N + 1)} (ht : StrictMono t) {e : Equiv.Perm (Fin (k + 1))} (he : e ≠ 1) :
    ¬ (tw 0 :: ((List.ofFn fun j => tw (t (e j))) ++ [tw (Fin.last N)])).Pairwise (· < ·) := fun h => by
  rw [List.pairwise_cons, List.pairwise_append, List.pairwise_ofFn] at h
  refine perm_not_mono ht he ?_
  rw [List.pairwise_ofFn]
  exact fun i j hij => (htw.lt_iff_lt.1 (h.2.1 hij)).le

theorem splineData_perm {V W : Type} {N k : ℕ} {o : VarGP V W} (L : LikeIf V W) {tw : Fin (N + 1) → ℝ} {t : Fin (k + 1) → Fin (N + 1)} {y : Fin (k + 1) → V} (e : Equiv.Perm (Fin (k + 1))) :
    (withObs o L (List.ofFn fun j => y (e j)) (List.ofFn fun j => (t (e j) : ℕ))).splineData (List.ofFn tw) = .ok (tw 0 :: ((List.ofFn fun j => tw (t (e j))) ++ [tw (Fin.last N)]),
      y (e 0) :: ((List.ofFn fun j => y (e j)) ++ [y (e (Fin.last k))])) := by
  unfold VarGP.splineData
  have h0 : idx (List.ofFn tw) 0 = .ok (tw 0) := idx_ofFn tw 0
  have h1 : idx (List.ofFn fun j => y (e j)) 0 = .ok (y (e 0)) := idx_ofFn (fun j => y (e j)) 0
  simp only [withObs]
  rw [lastIdx_ofFn, lastIdx_ofFn, h0, h1]
  have := fancy_ofFn tw fun j => t (e j)
  rw [this]
  rfl

/-- C130 is violated by the initialization in one dimension: with the observations in increasing order, all of them inside the window, it returns a start; with the same observations in any other order it raises
`ValueError`. -/
theorem C130_initialization_1d_violated {N k : ℕ} {o o' : VarGP ℝ ℝ} {y : Fin (k + 1) → ℝ} {tw : Fin (N + 1) → ℝ} {t : Fin (k + 1) → Fin (N + 1)} {e : Equiv.Perm (Fin (k + 1))}
    (h : Spec.Reordered1 o o' y t e) (hdata : Spec.HasData o tw t y) (hin : ∀ j, 0 < t j ∧ t j < Fin.last N) (he : e ≠ 1) (fit : List ℝ → List ℝ → ℝ → ℝ) :
    (∃ x, o.initialization1 fit = .ok x) ∧ o'.initialization1 fit = .error .valueError := by
  obtain ⟨R, H, pr, ho, -, rfl⟩ := h
  refine ⟨⟨_, (init1_eq hdata fit).1 hin⟩, ?_⟩
  show (withObs o _ _ _).initialization1 fit = _
  unfold VarGP.initialization1
  rw [withObs_model, hdata.window, py_ok_bind, splineData_perm]
  simp only [py_ok_bind]
  unfold cubicSpline
  rw [if_neg (by simp), if_neg (by simp), if_neg (abscissae_unsorted hdata.mono hdata.increasing he)]
  rfl

/-- C130 is violated by the initialization in several dimensions. -/
theorem C130_initialization_nd_violated {N k : ℕ} {o o' : VarGP (Fin d → ℝ) (Matrix (Fin d) (Fin d) ℝ)} {y : Fin (k + 1) → Fin d → ℝ} {tw : Fin (N + 1) → ℝ} {t : Fin (k + 1) → Fin (N + 1)}
    {e : Equiv.Perm (Fin (k + 1))} (h : Spec.ReorderedN o o' y t e) (hdata : Spec.HasData o tw t y) (hin : ∀ j, 0 < t j ∧ t j < Fin.last N) (he : e ≠ 1)
    (fit : List ℝ → List (Fin d → ℝ) → ℝ → Fin d → ℝ) : (∃ x, o.initializationN fit = .ok x) ∧ o'.initializationN fit = .error .valueError := by
  obtain ⟨R, ho, -, rfl⟩ := h
  obtain ⟨b, hb, -⟩ := (initN_eq hdata fit).1 hin
  refine ⟨⟨_, hb⟩, ?_⟩
  show (withObs o _ _ _).initializationN fit = _
  unfold VarGP.initializationN
  rw [withObs_model, hdata.window, py_ok_bind, splineData_perm]
  simp only [py_ok_bind]
  unfold cubicSpline
  rw [if_neg (by simp), if_neg (by simp), if_neg (abscissae_unsorted hdata.mono hdata.increasing he)]
  rfl

/-! ## Examples -/

def ordOU : OU ℕ where
  base := { xt := none, tk := some (List.ofFn fun i : Fin 4 => (i : ℝ) / 2), single_dimension := true, rng := 0 }
  sigma := 2
  theta := 3
  sig_inv := 1 / 2

theorem ordOU_step : ordOU.base.timeStep = .ok (1 / 2) := by
  norm_num [ordOU, Proc.timeStep, idx, bind, Except.bind, pure, Except.pure, abs_of_pos]

/-- The observations of `vgpObj` in reverse order. -/
def ordObj : VarGP ℝ ℝ := { vgpObj ordOU.sde .euler with
  likelihood := (⟨[2, 1], [2, 1], 1, 1⟩ : Like1).toIf
  obs_y := [2, 1]
  obs_t := [2, 1] }

theorem ordObj_reordered : Spec.Reordered1 (n := 4) (vgpObj ordOU.sde .euler) ordObj ![1, 2] ![1, 2] (Equiv.swap 0 1) := by
  refine ⟨1, 1, ⟨0, 1⟩, vgpObj_ok _ _, rfl, ?_⟩
  simp [ordObj, vgpObj, List.ofFn_succ]

theorem ordObj_data : Spec.HasData (N := 3) (k := 1) (vgpObj ordOU.sde .euler) (fun i => (i : ℝ) / 2) ![1, 2] ![1, 2] where
  window := rfl
  dim := rfl
  mono := fun i j h => by
    have : ((i : ℕ) : ℝ) < (j : ℕ) := by exact_mod_cast h
    show (i : ℝ) / 2 < (j : ℝ) / 2
    linarith
  obs_t := rfl
  obs_y := rfl
  increasing := by decide

example (x : List ℝ) (hx : x.length = 2 * 4) : (ordObj.gradient shape1 x true).1 = ((vgpObj ordOU.sde .euler).gradient shape1 x true).1 :=
  (C130_gradient_1d_partial (G := ℕ) ordObj_reordered (.inr ⟨ordOU, rfl⟩) x hx).1

example (fit : List ℝ → List ℝ → ℝ → ℝ) := C130_initialization_1d_violated ordObj_reordered ordObj_data (by decide) (by decide) fit

example : ∃ F F', ((vgpObj ordOU.sde .euler).freeEnergy shape1 (List.ofFn (0 : Fin 4 → ℝ) ++ List.ofFn (0 : Fin 4 → ℝ))).1 = .ok F
    ∧ (ordObj.freeEnergy shape1 (List.ofFn (0 : Fin 4 → ℝ) ++ List.ofFn (0 : Fin 4 → ℝ))).1 = .ok F' ∧ F < F' := by
  refine C130_free_energy_violated ordOU ordObj_reordered rfl (by norm_num [ordOU]) ordOU_step (by norm_num) (by decide) (by decide) 0 0 (fun i => by norm_num [ordOU]) fun c hc v hv => ?_
  have hobs : (vgpObj ordOU.sde .euler).obs_t.Pairwise (· ≤ ·) := by
    rw [(vgpObj_ok ordOU.sde .euler).obs, List.pairwise_ofFn]
    decide
  obtain ⟨c', hF, hst⟩ := freeEnergy_formula (N := 3) (vgpObj_ok ordOU.sde .euler) (ou_density ordOU 3 hobs ordOU_step) 0 0
  have hF2 := congrArg (fun r => r.2.cache) hF
  have e : c = c' := Option.some.inj (hc.symm.trans hF2)
  rw [e, hst, List.mem_ofFn] at hv
  obtain ⟨i, rfl⟩ := hv
  have : ∀ k : ℕ, pathMS .euler (1 / 2) 2 1 1 0 0 k = ((1 : ℝ), 1 + (k : ℝ)) := fun k => by
    induction k with
    | zero => simp [pathMS, traj]
    | succ k ih =>
      show fwdStep .euler rhs1 (1 / 2) _ _ 2 k (pathMS .euler (1 / 2) 2 1 1 0 0 k) = _
      rw [ih]
      norm_num [fwdStep, rhs1]
      ring
  show 0 < (pathMS .euler (1 / 2) 2 1 1 0 0 i).2
  rw [this]
  show (0 : ℝ) < 1 + _
  positivity

def ordL63 : L63 ℕ where
  base := { xt := none, tk := some (List.ofFn fun i : Fin 4 => (i : ℝ) / 2), single_dimension := false, rng := 0 }
  sigma := 1
  theta := ![10, 28, 8]
  sig_inv := 1

def ordObjN (y : Fin 2 → Fin 3 → ℝ) (t : Fin 2 → Fin 4) : VarGP (Fin 3 → ℝ) (Matrix (Fin 3) (Fin 3) ℝ) := { vgpObjN 3 ordL63.sde .euler with
  likelihood := (⟨List.ofFn y, List.ofFn fun j => (t j : ℕ), 1, 1⟩ : LikeN 3).toIf
  obs_y := List.ofFn y
  obs_t := List.ofFn fun j => (t j : ℕ)
  dim_n := 4 }

theorem ordObjN_reordered (u v : Fin 3 → ℝ) : Spec.ReorderedN (n := 4) (ordObjN ![u, v] ![1, 2]) (ordObjN ![v, u] ![2, 1]) ![u, v] ![1, 2] (Equiv.swap 0 1) := by
  refine ⟨1, ⟨by norm_num, rfl, rfl, Matrix.PosDef.one, by decide, (vgpObjN_ok ordL63.sde .euler).prior, rfl⟩, rfl, ?_⟩
  simp [ordObjN, List.ofFn_succ]

example (u v : Fin 3 → ℝ) (x : List ℝ) := C130_gradient_nd_partial (G := ℕ) (by decide) (ordObjN_reordered u v) (.inl ⟨ordL63, rfl, rfl⟩) x

example (u v : Fin 3 → ℝ) (fit : List ℝ → List (Fin 3 → ℝ) → ℝ → Fin 3 → ℝ) := C130_initialization_nd_violated (N := 3) (k := 1) (ordObjN_reordered u v) (tw := fun i => (i : ℝ) / 2)
  ⟨rfl, rfl, ordObj_data.mono, rfl, rfl, by decide⟩ (by decide) (by decide) fit

end

end VGPA
