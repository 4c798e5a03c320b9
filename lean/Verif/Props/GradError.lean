import Verif.Lemmas.LogicalGrad
import Verif.Props.FloatError
import Verif.Props.SameGradient

/-!
# C149: rounding errors of the gradient
-/

namespace VGPA

open Flt Spec

/-- The numbers of an object, one by one. -/
def VgpG.map {α β : Type} (f : α → β) (o : VgpG α) : VgpG β :=
  { toVgpF := o.toVgpF.map f, obs_h := f o.obs_h, method_bwd := o.method_bwd, dt_bwd := f o.dt_bwd }

/-- The object with doubles holds finite numbers; these are the values. -/
structure Spec.ReadsG (o : VgpG Flt) (r : VgpG ℝ) : Prop where
  base : Spec.Reads o.toVgpF r.toVgpF
  obs_h : IsVal o.obs_h r.obs_h
  method_bwd : o.method_bwd = r.method_bwd
  dt_bwd : IsVal o.dt_bwd r.dt_bwd

/-- Where `v` is finite, it differs from the exact number by at most `k/2^52` times the size, and the size is not less than the number. -/
def Spec.Within (k : ℕ) (v : Flt) (p : Sized) : Prop :=
  |p.x| ≤ p.size ∧ (Spec.Finite v → ∃ w, IsVal v w ∧ |w - p.x| ≤ k / 2 ^ 52 * p.size)

theorem NearF.within {k : ℕ} (hk : k ≤ 2 ^ 53) {v : Flt} {p : Sized} (h : NearF k v p) : Spec.Within k v p := by
  refine ⟨h.1, fun hf => ?_⟩
  obtain ⟨w, h1, h2⟩ := h.2 hf
  exact ⟨w, h1, h2.trans (mul_le_mul_of_nonneg_right (gam_le hk) h.size_nonneg)⟩

theorem eq_map_x {l : List ℝ} {l' : List Sized} (h : List.Forall₂ (fun r p => p.x = r) l l') : l = l'.map Sized.x := by
  induction h with
  | nil => rfl
  | cons h _ ih => rw [List.map_cons, h, ← ih]

theorem same_of (l : List ℝ) : List.Forall₂ (fun (r : ℝ) (p : Sized) => p.x = r) l (l.map Sized.of) :=
  List.forall₂_map_right_iff.2 (List.forall₂_same.2 fun _ _ => rfl)

/-- C149: if `gradient` in double precision returns, so it does with real numbers, and every finite entry is exact up to `(253 n + 34)/2^52` times the size of what is
added up to get it; the stored multipliers are exact up to `(217 n + 24)/2^52` times their sizes. The forward integrator is Euler, Heun or Runge-Kutta 4, the backward
integrator any of the four. -/
theorem C149_gradient {L : Libm Flt} (hL : Spec.Library L) (hA : Spec.Accurate L) (o : VgpG Flt) (r : VgpG ℝ) (x : List Flt) (y : List ℝ)
    (hr : Spec.ReadsG o r) (hx : List.Forall₂ IsVal x y) (hdim : y.length = 2 * r.dim_n) (hl : r.obs_v.length = r.obs_t.length) (hm : r.method ≠ .rk2)
    (hσ : 0 < r.sigma) (hn : 0 < r.obs_n) (hτ : 0 < r.tau0) (hs : 0 < r.s0) (hbig : 253 * r.dim_n + 34 ≤ 2 ^ 53)
    (g lam psi : List Flt) (h : o.gradient L x = .ok (g, lam, psi)) :
    ∃ g' lam' psi' Sg Sl Sp, r.gradient realLibm y = .ok (g', lam', psi') ∧
      (r.map Sized.of).gradient Sized.lib (y.map Sized.of) = .ok (Sg, Sl, Sp) ∧
      g' = Sg.map Sized.x ∧ lam' = Sl.map Sized.x ∧ psi' = Sp.map Sized.x ∧
      List.Forall₂ (Spec.Within (253 * r.dim_n + 34)) g Sg ∧ List.Forall₂ (Spec.Within (217 * r.dim_n + 24)) lam Sl ∧
      List.Forall₂ (Spec.Within (217 * r.dim_n + 24)) psi Sp := by
  have hb := hr.base
  have key := (near_logical hL hA).gradient o (r.map Sized.of) x (y.map Sized.of) (forall₂_sized hx) (by rw [hx.length_eq, hdim, hb.dim_n]) hb.dim_n.symm
    hb.proc.symm hb.method.symm (hb.method ▸ hm) hb.obs_t.symm (near_of_isVal hb.theta le_rfl) ⟨hσ, hb.sigma, le_rfl⟩ (near_of_isVal hb.sigma le_rfl)
    (near_of_isVal hb.time_step le_rfl) (near_of_isVal hb.dt le_rfl) (forall₂_sized hb.obs_v) (by rw [hb.obs_v.length_eq, hl, hb.obs_t]) ⟨hn, hb.obs_n, le_rfl⟩
    (near_of_isVal hb.mu0 le_rfl) ⟨hτ, hb.tau0, le_rfl⟩ (near_of_isVal hb.m0 le_rfl) ⟨hs, hb.s0, le_rfl⟩ (near_of_isVal hb.s0 le_rfl)
    (near_of_isVal hr.obs_h le_rfl) hr.method_bwd.symm (near_of_isVal hr.dt_bwd le_rfl)
  have key' := exact_logical.gradient r (r.map Sized.of) y (y.map Sized.of) (same_of _) hdim rfl rfl rfl hm rfl
    rfl rfl rfl rfl rfl (same_of _) hl rfl rfl rfl rfl rfl rfl rfl rfl rfl
  rw [h] at key
  generalize hS : (r.map Sized.of).gradient Sized.lib (y.map Sized.of) = A at key key'
  generalize hF : r.gradient realLibm y = B at key'
  rw [hb.dim_n] at key
  cases key with
  | @ok _ S k1 =>
  cases key' with
  | @ok F _ k2 =>
  obtain ⟨Sg, Sl, Sp⟩ := S
  obtain ⟨g', lam', psi'⟩ := F
  exact ⟨g', lam', psi', Sg, Sl, Sp, rfl, rfl, eq_map_x k2.1, eq_map_x k2.2.1, eq_map_x k2.2.2, k1.1.imp fun _ _ h => h.within hbig,
    k1.2.1.imp fun _ _ h => h.within (by omega), k1.2.2.imp fun _ _ h => h.within (by omega)⟩

/-- C149 for the objects of the model, Ornstein-Uhlenbeck: `g'` is what `gradient` returns with exact arithmetic, and `c` what it stores. -/
theorem C149_ornstein_uhlenbeck {G : Type} {L : Libm Flt} (hL : Spec.Library L) (hA : Spec.Accurate L) (p : OU G) (w w' : VarGP ℝ ℝ) (lk : Like1) (K : Prior1)
    (step : ℝ) (y g' : List ℝ) (hmod : w.model = p.sde) (hinv : p.sig_inv = 1 / p.sigma) (hstep : p.base.timeStep = .ok step) (hstep' : w.dt = step)
    (hlk : w.likelihood = lk.toIf) (hK : ∀ m s, w.kl0 m s = .ok (K.gauss m s)) (ht : w.obs_t = lk.obs_t) (hg : w.gradient shape1 y true = (.ok g', w'))
    (o : VgpG Flt) (x : List Flt) (hx : List.Forall₂ IsVal x y) (hr : Spec.ReadsG o (vgpG .ou p.theta p.sigma step w lk K))
    (hdim : y.length = 2 * w.dim_n) (hl : lk.obs_v.length = lk.obs_t.length) (hm : w.fwd_ode.solver ≠ .rk2)
    (hσ : 0 < p.sigma) (hn : 0 < lk.obs_n) (hτ : 0 < K.tau0) (hs : 0 < w.s0) (hbig : 253 * w.dim_n + 34 ≤ 2 ^ 53)
    (g lam psi : List Flt) (h : o.gradient L x = .ok (g, lam, psi)) :
    ∃ c Sg Sl Sp, w'.cache = some c ∧ ((vgpG .ou p.theta p.sigma step w lk K).map Sized.of).gradient Sized.lib (y.map Sized.of) = .ok (Sg, Sl, Sp) ∧
      g' = Sg.map Sized.x ∧ c.lamt = Sl.map Sized.x ∧ c.psit = Sp.map Sized.x ∧
      List.Forall₂ (Spec.Within (253 * w.dim_n + 34)) g Sg ∧ List.Forall₂ (Spec.Within (217 * w.dim_n + 24)) lam Sl ∧
      List.Forall₂ (Spec.Within (217 * w.dim_n + 24)) psi Sp := by
  obtain ⟨c, hc, e⟩ := C148_same_gradient_ou p w w' lk K step y g' hmod hinv hstep hstep' hlk hK ht hg
  obtain ⟨g1, l1, p1, Sg, Sl, Sp, h1, h2, h3, h4, h5, h6, h7, h8⟩ := C149_gradient hL hA o _ x y hr hx hdim hl hm hσ hn hτ hs hbig g lam psi h
  rw [e] at h1
  cases h1
  exact ⟨c, Sg, Sl, Sp, hc, h2, h3, h4, h5, h6, h7, h8⟩

/-- C149 for the objects of the model, double well. -/
theorem C149_double_well {G : Type} {L : Libm Flt} (hL : Spec.Library L) (hA : Spec.Accurate L) (p : DW G) (w w' : VarGP ℝ ℝ) (lk : Like1) (K : Prior1)
    (step : ℝ) (y g' : List ℝ) (hmod : w.model = p.sde) (hinv : p.sig_inv = 1 / p.sigma) (hstep : p.base.timeStep = .ok step) (hstep' : w.dt = step)
    (hlk : w.likelihood = lk.toIf) (hK : ∀ m s, w.kl0 m s = .ok (K.gauss m s)) (ht : w.obs_t = lk.obs_t) (hg : w.gradient shape1 y true = (.ok g', w'))
    (o : VgpG Flt) (x : List Flt) (hx : List.Forall₂ IsVal x y) (hr : Spec.ReadsG o (vgpG .dw p.theta p.sigma step w lk K))
    (hdim : y.length = 2 * w.dim_n) (hl : lk.obs_v.length = lk.obs_t.length) (hm : w.fwd_ode.solver ≠ .rk2)
    (hσ : 0 < p.sigma) (hn : 0 < lk.obs_n) (hτ : 0 < K.tau0) (hs : 0 < w.s0) (hbig : 253 * w.dim_n + 34 ≤ 2 ^ 53)
    (g lam psi : List Flt) (h : o.gradient L x = .ok (g, lam, psi)) :
    ∃ c Sg Sl Sp, w'.cache = some c ∧ ((vgpG .dw p.theta p.sigma step w lk K).map Sized.of).gradient Sized.lib (y.map Sized.of) = .ok (Sg, Sl, Sp) ∧
      g' = Sg.map Sized.x ∧ c.lamt = Sl.map Sized.x ∧ c.psit = Sp.map Sized.x ∧
      List.Forall₂ (Spec.Within (253 * w.dim_n + 34)) g Sg ∧ List.Forall₂ (Spec.Within (217 * w.dim_n + 24)) lam Sl ∧
      List.Forall₂ (Spec.Within (217 * w.dim_n + 24)) psi Sp := by
  obtain ⟨c, hc, e⟩ := C148_same_gradient_dw p w w' lk K step y g' hmod hinv hstep hstep' hlk hK ht hg
  obtain ⟨g1, l1, p1, Sg, Sl, Sp, h1, h2, h3, h4, h5, h6, h7, h8⟩ := C149_gradient hL hA o _ x y hr hx hdim hl hm hσ hn hτ hs hbig g lam psi h
  rw [e] at h1
  cases h1
  exact ⟨c, Sg, Sl, Sp, hc, h2, h3, h4, h5, h6, h7, h8⟩

/-! ## A case that meets the hypotheses -/

noncomputable def toyVgpG (mb : Method) : VgpG Flt :=
  { toVgpF := toyVgp (zero false) .euler, obs_h := Flt.lit 1, method_bwd := mb, dt_bwd := Flt.lit 1 }

/-- Two points and one observation: the gradient returns four numbers with every backward integrator, and the derivative at the last point is finite. -/
theorem toyG_finite (mb : Method) : ∃ g1 g2 g3 g4 lam psi, (toyVgpG mb).gradient bestLibm (List.replicate 4 (zero false)) = .ok ([g1, g2, g3, g4], lam, psi) ∧
    Spec.Finite g4 := by
  have hm : zero false + funMtF (zero false) (zero false) (zero false) * Flt.lit 1 = zero false := by
    simp only [funMtF, lit_one', e_zmz, e_negz, e_zz, e_zm]
    norm_num [e_zz]
  have hg : Spec.Finite (Flt.lit 1 * (Flt.lit 1 / Flt.lit 1 * (-(-zero false * zero false) - zero false * zero false + zero false) + zero false)) := by
    rw [show -(-zero false * zero false) - zero false * zero false + zero false = zero false by simp [e_ss, e_zmz, e_negz, e_zz]]
    rw [lit_one', e_dd]
    norm_num [round_one, e_mz, e_zz]
    exact ⟨by simp, by simp⟩
  cases mb
  all_goals
    refine ⟨_, _, _, _, _, _, rfl, ?_⟩
    change Spec.Finite (Flt.lit 1 * (Flt.lit 1 / Flt.lit 1 * (-(-zero false * (zero false + funMtF (zero false) (zero false) (zero false) * Flt.lit 1)) -
      zero false * (zero false + funMtF (zero false) (zero false) (zero false) * Flt.lit 1) + zero false) + zero false))
    rw [hm]
    exact hg

/-- The derivative with respect to the last offset is exact up to `540/2^52` times its size. -/
example (mb : Method) : ∃ g1 g2 g3 g4 lam psi p1 p2 p3 p4 Sl Sp w, (toyVgpG mb).gradient bestLibm (List.replicate 4 (zero false)) =
      .ok ([g1, g2, g3, g4], lam, psi) ∧
    (VgpG.map Sized.of { toVgpF := ⟨.ou, 0, 1, 1, .euler, 1, [0], [0], 1, 0, 1, 0, 1, 2⟩, obs_h := 1, method_bwd := mb, dt_bwd := 1 }).gradient Sized.lib
      ((List.replicate 4 0).map Sized.of) = .ok ([p1, p2, p3, p4], Sl, Sp) ∧ IsVal g4 w ∧ |w - p4.x| ≤ 540 / 2 ^ 52 * p4.size := by
  obtain ⟨g1, g2, g3, g4, lam, psi, h1, h2⟩ := toyG_finite mb
  have z : IsVal (zero false) 0 := isVal_zero _
  have u : IsVal (Flt.lit 1) 1 := by simpa using lit_nat (k := 1) (by norm_num)
  obtain ⟨g', l', p', Sg, Sl, Sp, -, k2, -, -, -, k3, -, -⟩ := C149_gradient bestLibm_library bestLibm_accurate (toyVgpG mb)
    { toVgpF := ⟨.ou, 0, 1, 1, .euler, 1, [0], [0], 1, 0, 1, 0, 1, 2⟩, obs_h := 1, method_bwd := mb, dt_bwd := 1 } _ (List.replicate 4 0)
    ⟨⟨rfl, z, u, u, rfl, u, .cons z .nil, rfl, u, z, u, z, u, rfl⟩, u, rfl, u⟩ (.cons z (.cons z (.cons z (.cons z .nil)))) rfl rfl (by simp)
    (by norm_num) (by norm_num) (by norm_num) (by norm_num) (by norm_num) _ lam psi h1
  cases k3 with
  | cons _ k3 =>
  cases k3 with
  | cons _ k3 =>
  cases k3 with
  | cons _ k3 =>
  cases k3 with
  | cons k4 k3 =>
  cases k3
  obtain ⟨w, k5, k6⟩ := k4.2 h2
  exact ⟨g1, g2, g3, g4, lam, psi, _, _, _, _, Sl, Sp, w, h1, k2, k5, by norm_num at k6 ⊢; exact k6⟩

end VGPA
