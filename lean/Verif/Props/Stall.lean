import Verif.Props.RunMethod
import Verif.Props.RunTotal

/-!
# C85 and C125: runs that end where they started
-/

namespace VGPA

open Matrix

section
variable {σ A : Type} {n : ℕ} {o : Oracle σ A ℝ (Fin n → ℝ)} {args : A}
variable {F : (Fin n → ℝ) → ℝ} {G : (Fin n → ℝ) → Fin n → ℝ}

theorem dirOf_steepest {L : ScgLoc ℝ (Fin n → ℝ)} (h : L.d = -L.grad_new) : (dirOf (realArith n) L).1 = -L.grad_new := by
  unfold dirOf
  split
  · rfl
  · exact h

theorem finish_steepest {dim : ℕ} {delta : ℝ} {L L' : ScgLoc ℝ (Fin n → ℝ)} (hs : L.success = false) (h : L.d = -L.grad_new)
    (hf : Scg.finish (realArith n) dim delta L = .ok L') : L'.d = -L.grad_new := by
  unfold Scg.finish at hf
  by_cases h1 : L.count_success = dim
  · simp only [h1, if_true, pure, Except.pure] at hf
    injection hf with hf; subst hf
    rfl
  · simp only [h1, if_false, hs, Bool.false_eq_true, pure, Except.pure] at hf
    injection hf with hf; subst hf
    exact h

/-- If the objective increases along the negative gradient at the start, however short the step, then the optimizer stays there, and the state left behind is
that of a point which it tried and rejected. -/
theorem scg_stall (ho : Spec.Computes o args F G) (At : (Fin n → ℝ) → σ → Prop) (hA : Spec.Remembers o args At) (p p' : Scg ℝ) (hn : 0 < p.nit)
    (x0 x : Fin n → ℝ) (hk : 1 / 2 ^ 52 ≤ G x0 ⬝ᵥ G x0) (hup : ∀ α : ℝ, 0 < α → F x0 < F (x0 - α • G x0)) (s s' : σ) (fx : ℝ)
    (h : Scg.call (realArith n) o args p x0 s = (.ok (x, fx), p', s')) :
    x = x0 ∧ fx = F x0 ∧ ∃ α : ℝ, 0 < α ∧ At (x0 - α • G x0) s' := by
  have dir : ∀ {j : ℕ} {L L1 : ScgLoc ℝ (Fin n → ℝ)} {w w1 : World σ ℝ}, L.d = -L.grad_new →
      DirPath (realArith n) o j L w (.inl L1) w1 → L1.x = L.x ∧ L1.d = -L.grad_new ∧ L1.grad_new = L.grad_new ∧ L1.f_old = L.f_old := by
    intro j L L1 w w1 hd hp
    cases hp with
    | keep _ => exact ⟨rfl, hd, rfl, rfl⟩
    | curv _ _ _ _ _ _ _ _ _ => exact ⟨rfl, dirOf_steepest hd, rfl, rfl⟩
  have tried : ∀ {L1 : ScgLoc ℝ (Fin n → ℝ)} {α : ℝ}, L1.x = x0 → L1.d = -G x0 →
      (realArith n).vadd L1.x ((realArith n).smul α L1.d) = x0 - α • G x0 := by
    intro L1 α h1 h2
    simp only [realArith, h1, h2, smul_neg, sub_eq_add_neg]
  have no : ∀ {L1 : ScgLoc ℝ (Fin n → ℝ)} {α f_new delta : ℝ} {t t' : σ}, L1.x = x0 → L1.d = -G x0 → L1.f_old = F x0 → 0 < α → L1.mu < 0 →
      o.f ((realArith n).vadd L1.x ((realArith n).smul α L1.d)) args t = (.ok f_new, t') →
      (realArith n).div ((realArith n).mul ((realArith n).lit 2) ((realArith n).sub f_new L1.f_old)) ((realArith n).mul α L1.mu) = .ok delta →
      (realArith n).le ((realArith n).lit 0) delta = true → False := by
    intro L1 α f_new delta t t' h1 h2 h3 h4 h5 hf hdl hr
    obtain ⟨r1, r2⟩ := ratio_real (n := n) (f_new := f_new) (f_old := L1.f_old) h4 h5
    rw [r1] at hdl
    rw [← Except.ok.inj hdl, r2, ho.f _ _ _ _ hf, tried h1 h2, h3] at hr
    exact absurd (hup α h4) (not_lt.2 hr)
  have inv : ∀ {it L w}, Reach (realArith n) o args p x0 s it L w →
      L.x = x0 ∧ L.grad_new = G x0 ∧ L.d = -G x0 ∧ L.f_old = F x0 ∧ (0 < it → ∃ α : ℝ, 0 < α ∧ At (x0 - α • G x0) w.st) := by
    intro it L w hr
    induction hr with
    | start f0 g0 s1 s2 hf hg =>
      have e1 := ho.f _ _ _ _ hf
      have e2 := ho.df _ _ _ _ hg
      subst e1 e2
      exact ⟨rfl, rfl, rfl, rfl, fun h => absurd h (lt_irrefl _)⟩
    | @step it L L' w w' hr hit ht ih =>
      obtain ⟨i1, i2, i3, i4, -⟩ := ih
      rcases (turn_ok _ o args).1 ht with ⟨q, hq, _⟩ | ⟨L1, w1, beta, alpha, hd, hst, hm⟩
      · cases hq
      · have h1 := dirPath_good (reach_good hr) hd
        obtain ⟨b, dl, e1, e2, e3, e4, _⟩ := stepSize_real h1
        rw [e1] at hst
        obtain ⟨rfl, rfl⟩ := Prod.mk.inj (Except.ok.inj hst)
        obtain ⟨d1, d2, d3, d4⟩ := dir (by rw [i3, i2]) hd
        rw [i2] at d2 d3
        rw [i1] at d1
        rw [i4] at d4
        cases hm with
        | reject f_new delta st hf hdl hr hj L' hfin =>
          obtain ⟨f1, _, f3, f4, _, f6, _⟩ := finish_ok _ hfin
          refine ⟨f1.trans d1, f4.trans d3, ?_, f3.trans d4, fun _ => ⟨_, e3, ?_⟩⟩
          · exact (finish_steepest rfl (by exact d2.trans (by rw [d3])) hfin).trans (by rw [d3])
          · have := hA.f _ _ _ _ hf
            rwa [tried (L1 := { L1 with beta := b }) d1 d2] at this
        | accept f_new delta big f_now g st st2 st3 hf hdl hr hj _ _ hf2 hg _ L' hfin =>
          exact (no (L1 := { L1 with beta := b }) d1 d2 d4 e3 h1.descent hf hdl hr).elim
  obtain ⟨it, L, w, hr, hc, _⟩ := call_reach _ o args h
  generalize p'.stats = stats at hc
  obtain ⟨i1, i2, i3, i4, i5⟩ := inv hr
  rcases hc with ⟨rfl, hq, rfl⟩ | ⟨hit, ht⟩
  · cases hq
    exact ⟨i1, i4, i5 hn⟩
  · exfalso
    rcases (turn_ok _ o args).1 ht with ⟨q, hq, hd⟩ | ⟨L1, w1, beta, alpha, hd, hst, hm⟩
    · cases hq
      cases hd with
      | zero hs hz =>
        rw [dirOf_steepest (by rw [i3, i2]), i2] at hz
        simp only [realArith, decide_eq_true_eq, neg_dotProduct, dotProduct_neg, neg_neg] at hz
        push_cast at hz
        linarith
    · have h1 := dirPath_good (reach_good hr) hd
      obtain ⟨b, dl, e1, e2, e3, e4, _⟩ := stepSize_real h1
      rw [e1] at hst
      obtain ⟨rfl, rfl⟩ := Prod.mk.inj (Except.ok.inj hst)
      obtain ⟨d1, d2, d3, d4⟩ := dir (by rw [i3, i2]) hd
      rw [i2] at d2 d3
      rw [i1] at d1
      rw [i4] at d4
      generalize hq : (Sum.inr (x, fx) : ScgLoc ℝ (Fin n → ℝ) ⊕ ((Fin n → ℝ) × ℝ)) = r at hm
      cases hm with
      | reject => cases hq
      | accept => cases hq
      | tol f_new delta big st hf hdl hr _ _ _ _ => exact no (L1 := { L1 with beta := b }) d1 d2 d4 e3 h1.descent hf hdl hr
      | flat f_new delta big f_now g st st2 st3 hf hdl hr _ _ _ hf2 hg _ =>
        exact no (L1 := { L1 with beta := b }) d1 d2 d4 e3 h1.descent hf hdl hr

end

/-- The same for the optimizer inside `run()`, on an object with free energy `F` and gradient `G`. -/
theorem optimize_stall {w : VarGP ℝ ℝ} {n : ℕ} {F : (Fin n → ℝ) → ℝ} {G : (Fin n → ℝ) → Fin n → ℝ} {C : (Fin n → ℝ) → VgpCache ℝ ℝ}
    (hF : ∀ x, w.eval shape1 (List.ofFn x) = .ok (F x, C x))
    (hG : ∀ x, VarGP.gradBody shape1 { w with cache := some (C x) } (List.ofFn x) = .ok (List.ofFn (G x)))
    (y0 : Fin n → ℝ) (hk : 1 / 2 ^ 52 ≤ G y0 ⬝ᵥ G y0) (hup : ∀ α : ℝ, 0 < α → F y0 < F (y0 - α • G y0)) {x0 x : List ℝ} (hx0 : x0 = List.ofFn y0)
    {fx : ℝ} {v' : AnyVgp} (h : (AnyVgp.one w).optimize x0 = (.ok (x, fx), v')) :
    x = x0 ∧ fx = F y0 ∧ ∃ α : ℝ, 0 < α ∧ v' = .one { w with cache := some (C (y0 - α • G y0)) } := by
  obtain rfl : n = x0.length := by rw [hx0, List.length_ofFn]
  have hy : (fun i : Fin x0.length => x0.getD i 0) = y0 := List.ofFn_injective ((ofFn_getD x0).trans hx0)
  unfold AnyVgp.optimize at h
  simp only at h
  have e0 : AnyVgp.one w = (fun c => AnyVgp.one { w with cache := c }) w.cache := rfl
  rw [e0, call_map (follows_one w x0.length)] at h
  let o1 := cacheOracle shape1 w x0.length
  let o2 : Oracle (Option (VgpCache ℝ ℝ)) Unit ℝ (Fin x0.length → ℝ) := { o1 with df := fun x _ c => o1.dfEval x c }
  have f1 : ∀ x s, o1.f x () s = (.ok (F x), some (C x)) := fun x s => by simp only [o1, cacheOracle, hF]
  have g1 : ∀ x s, o1.dfEval x s = (.ok (G x), some (C x)) := fun x s => by
    simp only [o1, cacheOracle, hF, hG, Except.bind, AnyVgp.asVec, List.length_ofFn, if_true]
    congr 2
    funext i
    simp
  have ho : Spec.Computes o2 () F G := by
    refine ⟨fun x s r s' hf => ?_, fun x s g s' hg => ?_, fun x s g s' hg => ?_⟩
    · have := (f1 x s).symm.trans hf; cases this; rfl
    · have := (g1 x s).symm.trans hg; cases this; rfl
    · have := (g1 x s).symm.trans hg; cases this; rfl
  have hA : Spec.Remembers o2 () (fun y s => s = some (C y)) := by
    refine ⟨fun x s r s' hf => ?_, fun x s g s' _ hg => ?_, fun x s g s' hg => ?_⟩
    · have := (f1 x s).symm.trans hf; cases this; rfl
    · have := (g1 x s).symm.trans hg; cases this; rfl
    · have := (g1 x s).symm.trans hg; cases this; rfl
  have heq : ∀ p x0 c, Scg.call (realArith _) o1 () p x0 c = Scg.call (realArith _) o2 () p x0 c := by
    intro p x0 c
    refine call_congr (o₁ := o1) (o₂ := o2) rfl rfl (fun x s r s' hf => ?_) p x0 c
    have := (f1 x s).symm.trans hf
    cases this
    have g2 := g1 x (some (C x))
    simp only [o2, o1, cacheOracle, hF] at g2 ⊢
  rw [heq, hy] at h
  generalize hr : Scg.call (realArith x0.length) o2 () _ y0 w.cache = r at h
  obtain ⟨q, p', c'⟩ := r
  rcases q with e | ⟨z, fz⟩
  · simp [Except.map] at h
  · simp only [Except.map, Prod.mk.injEq, Except.ok.injEq] at h
    obtain ⟨⟨rfl, rfl⟩, rfl⟩ := h
    obtain ⟨rfl, h2, α, h3, rfl⟩ := scg_stall ho _ hA _ p' (by show 0 < 500; norm_num) y0 z hk hup _ c' fz hr
    exact ⟨hx0.symm, h2, α, h3, rfl⟩

/-! ## A double well on three grid points -/

noncomputable section

/-- The Euler sweep over three grid points. -/
theorem euler3 (dt m0 s0 sig : ℝ) (a b : Fin 3 → ℝ) :
    solveFwd .euler rhs1 dt (List.ofFn a) (List.ofFn b) m0 s0 sig = .ok
      (List.ofFn ![m0, m0 + dt * (-(a 0 * m0) + b 0), m0 + dt * (-(a 0 * m0) + b 0) + dt * (-(a 1 * (m0 + dt * (-(a 0 * m0) + b 0))) + b 1)],
       List.ofFn ![s0, s0 + dt * (-(2 * a 0 * s0) + sig), s0 + dt * (-(2 * a 0 * s0) + sig) + dt * (-(2 * a 1 * (s0 + dt * (-(2 * a 0 * s0) + sig))) + sig)]) := by
  simp [solveFwd, Euler.solveFwd, fwdSweep, idx, setIdx, rhs1, bind, Except.bind, pure, Except.pure, List.range_succ, List.replicate, List.ofFn_succ]

/-- The Euler sweep back over three grid points. -/
theorem euler3_bwd (dt : ℝ) (a em es om os : Fin 3 → ℝ) :
    solveBwd .euler rhs1 dt (List.ofFn a) (List.ofFn em) (List.ofFn es) (List.ofFn om) (List.ofFn os) = .ok
      (List.ofFn ![dt * em 2 + om 1 - dt * (-em 1 + (dt * em 2 + om 1) * a 1) + om 0, dt * em 2 + om 1, 0],
       List.ofFn ![dt * es 2 + os 1 - dt * (-es 1 + 2 * (dt * es 2 + os 1) * a 1) + os 0, dt * es 2 + os 1, 0]) := by
  simp [solveBwd, Euler.solveBwd, bwdSweep, idx, setIdx, rhs1, bind, Except.bind, pure, Except.pure, List.range_succ, List.replicate, List.ofFn_succ]

namespace Stall

/-- The variational object: `theta = 1/2`, `sigma = 2`, steps of `1/4`, initial moments `1/2` and `0.2`, one observation of `2` at the middle point with
the variance `1/4`. -/
def obj {G : Type} (p : Proc G ℝ) (K : Prior1) : VarGP ℝ ℝ :=
  vgpOf (DW.sde ⟨p, 2, 1 / 2, 1.0 / 2⟩) ⟨1 / 4, "Euler", .euler⟩ ⟨1 / 4, pyLower "Euler", .euler⟩ (1 / 2) 0.2 (1 / 4) (1 / 4) K (2 + 1) 2 1 (fun _ => 2)

section
variable (x : Fin (3 + 3) → ℝ)

def a : Fin 3 → ℝ := fun i => x (Fin.castAdd 3 i)
def b : Fin 3 → ℝ := fun i => x (Fin.natAdd 3 i)
def m1 : ℝ := 1 / 2 + 1 / 4 * (-(a x 0 * (1 / 2)) + b x 0)
def m2 : ℝ := m1 x + 1 / 4 * (-(a x 1 * m1 x) + b x 1)
def s1 : ℝ := 0.2 + 1 / 4 * (-(2 * a x 0 * 0.2) + 2)
def s2 : ℝ := s1 x + 1 / 4 * (-(2 * a x 1 * s1 x) + 2)
def m : Fin 3 → ℝ := ![1 / 2, m1 x, m2 x]
def s : Fin 3 → ℝ := ![0.2, s1 x, s2 x]

/-- The integrand of the energy. -/
def q (i : Fin 3) : ℝ := dwQ (1 / 2) (a x i) (b x i) (m x i) (s x i) - 8 * momPoly 6 (m x i) (s x i)

def F (K : Prior1) : ℝ :=
  K.gauss (1 / 2) 0.2 + 0.5 * Spec.trapezoidRule (1 / 4) (List.ofFn (q x)) / 2
    + ∑ _j : Fin 1, (0.5 * (2 ^ 2 - 2 * 2 * m x 1 + (m x 1 ^ 2 + s x 1)) / (1 / 4) + 0.5 * (log2pi + Real.log (1 / 4)))

def em (i : Fin 3) : ℝ := 0.5 * (16 * (6 * momPoly 5 (m x i) (s x i))
          - 8 * (4 * (1 / 2) + a x i) * (4 * momPoly 3 (m x i) (s x i))
          + 8 * b x i * (3 * momPoly 2 (m x i) (s x i)) + (4 * (1 / 2) + a x i) ^ 2 * (2 * momPoly 1 (m x i) (s x i))
          - 2 * b x i * (4 * (1 / 2) + a x i)) / 2
def es (i : Fin 3) : ℝ := 0.5 * (16 * (15 * momPoly 4 (m x i) (s x i))
          - 8 * (4 * (1 / 2) + a x i) * (6 * momPoly 2 (m x i) (s x i))
          + 8 * b x i * (3 * momPoly 1 (m x i) (s x i)) + (4 * (1 / 2) + a x i) ^ 2 * 1) / 2
def om : Fin 3 → ℝ := ![0, -(2 - 1 * m x 1) / (1 / 4), 0]
def os : Fin 3 → ℝ := ![0, 0.5 / (1 / 4), 0]
def lam : Fin 3 → ℝ :=
  ![1 / 4 * em x 2 + om x 1 - 1 / 4 * (-em x 1 + (1 / 4 * em x 2 + om x 1) * a x 1) + om x 0, 1 / 4 * em x 2 + om x 1, 0]
def psi : Fin 3 → ℝ :=
  ![1 / 4 * es x 2 + os 1 - 1 / 4 * (-es x 1 + 2 * (1 / 4 * es x 2 + os 1) * a x 1) + os 0, 1 / 4 * es x 2 + os 1, 0]
def ef (i : Fin 3) : ℝ := 4 * (1 / 2 * m x i - momPoly 3 (m x i) (s x i))
def edf (i : Fin 3) : ℝ := 4 * (1 / 2 - 3 * momPoly 2 (m x i) (s x i))

def C : VgpCache ℝ ℝ := ⟨List.ofFn (m x), List.ofFn (s x), List.ofFn (ef x), List.ofFn (edf x), List.ofFn (lam x), List.ofFn (psi x)⟩

def gb (i : Fin 3) : ℝ := 1.0 / 2 * (-ef x i - a x i * m x i + b x i)
def ga (i : Fin 3) : ℝ := 1.0 / 2 * (edf x i + a x i) * s x i - gb x i * m x i - lam x i * m x i - 2.0 * psi x i * s x i
def g : Fin (3 + 3) → ℝ := Fin.append (fun i => 1 / 4 * ga x i) (fun i => 1 / 4 * (gb x i + lam x i))

variable {G : Type} {p : Proc G ℝ} (K : Prior1)

theorem eval_eq (hp : p.timeStep = .ok (1 / 4)) : (obj p K).eval shape1 (List.ofFn x) = .ok (F x K, C x) := by
  have ho := vgpOf_ok (DW.sde ⟨p, 2, 1 / 2, 1.0 / 2⟩) ⟨1 / 4, "Euler", .euler⟩ ⟨1 / 4, pyLower "Euler", .euler⟩ (1 / 2) 0.2 (1 / 4) (1 / 4) K
    (N := 2) (M := 1) (by norm_num) (fun _ => 2)
  have h1 := euler3 (1 / 4) (1 / 2) 0.2 2 (a x) (b x)
  have hm : (![1 / 2, 1 / 2 + 1 / 4 * (-(a x 0 * (1 / 2)) + b x 0), 1 / 2 + 1 / 4 * (-(a x 0 * (1 / 2)) + b x 0)
      + 1 / 4 * (-(a x 1 * (1 / 2 + 1 / 4 * (-(a x 0 * (1 / 2)) + b x 0))) + b x 1)] : Fin 3 → ℝ) = m x := rfl
  have hs : (![0.2, 0.2 + 1 / 4 * (-(2 * a x 0 * 0.2) + 2), 0.2 + 1 / 4 * (-(2 * a x 0 * 0.2) + 2)
      + 1 / 4 * (-(2 * a x 1 * (0.2 + 1 / 4 * (-(2 * a x 0 * 0.2) + 2))) + 2)] : Fin 3 → ℝ) = s x := rfl
  rw [hm, hs] at h1
  have h2 := dw_energy_eq (⟨p, 2, 1 / 2, 1.0 / 2⟩ : DW G) (a x) (b x) (m x) (s x) (some [1]) (1 / 4) hp
    (fun l hl => by cases hl; simp)
  have ht : (fun j : Fin 1 => eqIdx 2 1 j) = fun j => ((fun _ => 1 : Fin 1 → Fin 3) j : ℕ) := by
    funext j; fin_cases j; rfl
  obtain ⟨dm, ds, dr, h3, c1, c2, -, c4⟩ := like1_gradients_eq (n := 3) (k := 1) 1 (1 / 4) (fun _ => 2) (fun _ => 1)
    (fun i j _ => Subsingleton.elim i j) (m x) (s x)
  have hdm : dm = om x := by
    funext i
    fin_cases i
    · exact (c4 0 (by simp)).1
    · exact c1 0
    · exact (c4 2 (by simp)).1
  have hds : ds = os := by
    funext i
    fin_cases i
    · exact (c4 0 (by simp)).2.1
    · exact c2 0
    · exact (c4 2 (by simp)).2.1
  have h4 := euler3_bwd (1 / 4) (a x) (em x) (es x) (om x) os
  have h5 := like1_gauss_eq (n := 3) (k := 1) 1 (1 / 4) (fun _ => 2) (fun _ => 1) (m x) (s x)
  rw [split_ofFn]
  have hu := (C58_pack_unpack_1d (a x) (b x)).2.1
  simp only [shape1, id] at hu
  rw [hdm, hds] at h3
  unfold VarGP.eval
  simp only [obj, vgpOf, ht, shape1, Like1.toIf, DW.sde]
  have hl : (List.ofFn fun j : Fin 1 => ((fun _ => 1 : Fin 1 → Fin 3) j : ℕ)) = [1] := rfl
  have hu' : (List.take (3 * 1 * 1) (List.ofFn (a x) ++ List.ofFn (b x)), List.drop (3 * 1 * 1) (List.ofFn (a x) ++ List.ofFn (b x)))
    = (List.ofFn (a x), List.ofFn (b x)) := Except.ok.inj hu
  rw [hl] at h5 h3 ⊢
  change ((do
    let __x ← (Except.ok (List.take (3 * 1 * 1) (List.ofFn (a x) ++ List.ofFn (b x)), List.drop (3 * 1 * 1) (List.ofFn (a x) ++ List.ofFn (b x))) : Py _)
    _) : Py _) = _
  rw [hu']
  simp only [py_ok_bind, h1, h5, h2, h3, pure, Except.pure]
  have h4' : solveBwd Method.euler rhs1 (1 / 4) (List.ofFn (a x)) (List.ofFn (em x)) (List.ofFn (es x)) (List.ofFn (om x))
      (List.ofFn os) = .ok (List.ofFn (lam x), List.ofFn (psi x)) := h4
  unfold em es at h4'
  rw [h4']
  rfl

theorem grad_eq : VarGP.gradBody shape1 { obj p K with cache := some (C x) } (List.ofFn x) = .ok (List.ofFn (g x)) := by
  rw [split_ofFn]
  refine (gradBody_ofFn shape1 _ (List.ofFn (a x) ++ List.ofFn (b x)) (a x) (b x) (m x) (ef x) (lam x) (s x) (edf x) (psi x) rfl rfl
    (C58_pack_unpack_1d (a x) (b x)).2.2).trans ?_
  rw [g, List.ofFn_fin_append]
  rfl

/-- The start. -/
def y0 : Fin (3 + 3) → ℝ := ![4, 4, 4, 2, 2, 2]

theorem g_start : g y0 = ![-1111 / 3200, -473 / 3200, -23 / 800, 187 / 320, -389 / 320, 7 / 80] := by
  have ha : a y0 = fun _ => 4 := by funext i; fin_cases i <;> rfl
  have hb : b y0 = fun _ => 2 := by funext i; fin_cases i <;> rfl
  have e1 : m1 y0 = 1 / 2 := by norm_num [m1, ha, hb]
  have e2 : m2 y0 = 1 / 2 := by norm_num [m2, e1, ha, hb]
  have e3 : s1 y0 = 3 / 10 := by norm_num [s1, ha, hb]
  have e4 : s2 y0 = 1 / 5 := by norm_num [s2, e3, ha, hb]
  have u0 : m y0 0 = 1 / 2 := rfl
  have u1 : m y0 1 = 1 / 2 := e1
  have u2 : m y0 2 = 1 / 2 := e2
  have w0 : s y0 0 = 1 / 5 := by show (0.2 : ℝ) = _; norm_num
  have w1 : s y0 1 = 3 / 10 := e3
  have w2 : s y0 2 = 1 / 5 := e4
  have v1 : em y0 1 = 159 / 20 := by norm_num [em, momPoly, ha, hb, u1, w1]
  have v2 : em y0 2 = 39 / 20 := by norm_num [em, momPoly, ha, hb, u2, w2]
  have v3 : es y0 1 = 447 / 20 := by norm_num [es, momPoly, ha, hb, u1, w1]
  have v4 : es y0 2 = 231 / 20 := by norm_num [es, momPoly, ha, hb, u2, w2]
  have o1 : om y0 1 = -6 := by show -(2 - 1 * m y0 1) / (1 / 4) = _; rw [u1]; norm_num
  have l0 : lam y0 0 = 159 / 80 := by
    show 1 / 4 * em y0 2 + om y0 1 - 1 / 4 * (-em y0 1 + (1 / 4 * em y0 2 + om y0 1) * a y0 1) + 0 = _
    rw [v1, v2, o1, ha]; norm_num
  have l1 : lam y0 1 = -441 / 80 := by show 1 / 4 * em y0 2 + om y0 1 = _; rw [v2, o1]; norm_num
  have p0 : psi y0 0 = 7 / 10 := by
    show 1 / 4 * es y0 2 + 0.5 / (1 / 4) - 1 / 4 * (-es y0 1 + 2 * (1 / 4 * es y0 2 + 0.5 / (1 / 4)) * a y0 1) + 0 = _
    rw [v3, v4, ha]; norm_num
  have p1 : psi y0 1 = 391 / 80 := by show 1 / 4 * es y0 2 + 0.5 / (1 / 4) = _; rw [v4]; norm_num
  have l2 : lam y0 2 = 0 := rfl
  have p2 : psi y0 2 = 0 := rfl
  funext i
  fin_cases i
  · show 1 / 4 * ga y0 0 = -1111 / 3200
    norm_num [ga, gb, l0, p0, u0, w0, ha, hb, ef, edf, momPoly]
  · show 1 / 4 * ga y0 1 = -473 / 3200
    norm_num [ga, gb, l1, p1, u1, w1, ha, hb, ef, edf, momPoly]
  · show 1 / 4 * ga y0 2 = -23 / 800
    norm_num [ga, gb, l2, p2, u2, w2, ha, hb, ef, edf, momPoly]
  · show 1 / 4 * (gb y0 0 + lam y0 0) = 187 / 320
    norm_num [ga, gb, l0, p0, u0, w0, ha, hb, ef, edf, momPoly]
  · show 1 / 4 * (gb y0 1 + lam y0 1) = -389 / 320
    norm_num [ga, gb, l1, p1, u1, w1, ha, hb, ef, edf, momPoly]
  · show 1 / 4 * (gb y0 2 + lam y0 2) = 7 / 80
    norm_num [ga, gb, l2, p2, u2, w2, ha, hb, ef, edf, momPoly]

/-- The trial points. -/
def y (α : ℝ) : Fin (3 + 3) → ℝ := y0 - α • g y0

theorem y_a (α : ℝ) : a (y α) = ![4 + 1111 / 3200 * α, 4 + 473 / 3200 * α, 4 + 23 / 800 * α] := by
  funext i
  fin_cases i
  · show 4 - α * g y0 0 = 4 + 1111 / 3200 * α
    rw [g_start]; show 4 - α * (-1111 / 3200) = _; ring
  · show 4 - α * g y0 1 = 4 + 473 / 3200 * α
    rw [g_start]; show 4 - α * (-473 / 3200) = _; ring
  · show 4 - α * g y0 2 = 4 + 23 / 800 * α
    rw [g_start]; show 4 - α * (-23 / 800) = _; ring

theorem y_b (α : ℝ) : b (y α) = ![2 - 187 / 320 * α, 2 + 389 / 320 * α, 2 - 7 / 80 * α] := by
  funext i
  fin_cases i
  · show 2 - α * g y0 3 = 2 - 187 / 320 * α
    rw [g_start]; show 2 - α * (187 / 320) = _; ring
  · show 2 - α * g y0 4 = 2 + 389 / 320 * α
    rw [g_start]; show 2 - α * (-389 / 320) = _; ring
  · show 2 - α * g y0 5 = 2 - 7 / 80 * α
    rw [g_start]; show 2 - α * (7 / 80) = _; ring

theorem y_m1 (α : ℝ) : m1 (y α) = 1 / 2 - 4851 / 25600 * α := by
  simp only [m1, y_a, y_b, Matrix.cons_val_zero]
  ring

theorem y_m2 (α : ℝ) : m2 (y α) = 1 / 2 + 7307 / 25600 * α + 2294523 / 327680000 * α ^ 2 := by
  simp only [m2, y_m1, y_a, y_b, Matrix.cons_val_one, Matrix.cons_val_zero]
  ring

theorem y_s1 (α : ℝ) : s1 (y α) = 3 / 10 - 1111 / 32000 * α := by
  simp only [s1, y_a, Matrix.cons_val_zero]
  ring

theorem y_s2 (α : ℝ) : s2 (y α) = 1 / 5 + 803 / 64000 * α + 525503 / 204800000 * α ^ 2 := by
  simp only [s2, y_s1, y_a, Matrix.cons_val_one, Matrix.cons_val_zero]
  ring

theorem y_F (α : ℝ) : F (y α) K = F y0 K + (52382177 / 40960000 * α ^ 1
      + 120915050463 / 1048576000000 * α ^ 2
      + 11422909454009 / 1342177280000000 * α ^ 3
      + 7671957788596099 / 1342177280000000000 * α ^ 4
      + 1793451510358383015029 / 1099511627776000000000000 * α ^ 5
      + 13270358995697536228987291 / 28147497671065600000000000000 * α ^ 6
      + 265897380675259479061284831 / 7205759403792793600000000000000 * α ^ 7
      + 778067439349897986808461132267 / 461168601842738790400000000000000000 * α ^ 8
      + 54734024489612368051207239386049 / 1180591620717411303424000000000000000000 * α ^ 9
      + 23280072278169533766647558412474297 / 30223145490365729367654400000000000000000000 * α ^ 10
      + 1394191526481448822204538699559647403 / 193428131138340667952988160000000000000000000000 * α ^ 11
      + 145933329862542465940022113522635866889 / 4951760157141521099596496896000000000000000000000000 * α ^ 12) := by
  have e : ∀ β, F (y β) K = K.gauss (1 / 2) 0.2 + 0.5 * (1 / 4 / 2 * (q (y β) 0 + q (y β) 1) + (1 / 4 / 2 * (q (y β) 1 + q (y β) 2) + 0)) / 2
      + (0.5 * (2 ^ 2 - 2 * 2 * m1 (y β) + (m1 (y β) ^ 2 + s1 (y β))) / (1 / 4) + 0.5 * (log2pi + Real.log (1 / 4))) := by
    intro β
    unfold F
    rw [Fin.sum_univ_one]
    rfl
  have q0 : ∀ β, q (y β) 0 = dwQ (1 / 2) (4 + 1111 / 3200 * β) (2 - 187 / 320 * β) (1 / 2) 0.2 - 8 * momPoly 6 (1 / 2) 0.2 := by
    intro β; unfold q; rw [y_a, y_b]; rfl
  have q1 : ∀ β, q (y β) 1 = dwQ (1 / 2) (4 + 473 / 3200 * β) (2 + 389 / 320 * β) (m1 (y β)) (s1 (y β)) - 8 * momPoly 6 (m1 (y β)) (s1 (y β)) := by
    intro β; unfold q; rw [y_a, y_b]; rfl
  have q2 : ∀ β, q (y β) 2 = dwQ (1 / 2) (4 + 23 / 800 * β) (2 - 7 / 80 * β) (m2 (y β)) (s2 (y β)) - 8 * momPoly 6 (m2 (y β)) (s2 (y β)) := by
    intro β; unfold q; rw [y_a, y_b]; rfl
  have h0 : y0 = y 0 := by simp [y]
  rw [h0, e, e, q0, q0, q1, q1, q2, q2, y_m1, y_m1, y_m2, y_m2, y_s1, y_s1, y_s2, y_s2]
  simp only [dwQ, momPoly]
  generalize K.gauss (1 / 2) 0.2 = k
  generalize log2pi = k2
  generalize Real.log (1 / 4) = k3
  push_cast
  ring

theorem energy_grows (α : ℝ) (hα : 0 < α) : F y0 K < F (y0 - α • g y0) K := by
  have := y_F K α
  unfold y at this
  rw [this]
  have : 0 < (52382177 / 40960000 * α ^ 1
      + 120915050463 / 1048576000000 * α ^ 2
      + 11422909454009 / 1342177280000000 * α ^ 3
      + 7671957788596099 / 1342177280000000000 * α ^ 4
      + 1793451510358383015029 / 1099511627776000000000000 * α ^ 5
      + 13270358995697536228987291 / 28147497671065600000000000000 * α ^ 6
      + 265897380675259479061284831 / 7205759403792793600000000000000 * α ^ 7
      + 778067439349897986808461132267 / 461168601842738790400000000000000000 * α ^ 8
      + 54734024489612368051207239386049 / 1180591620717411303424000000000000000000 * α ^ 9
      + 23280072278169533766647558412474297 / 30223145490365729367654400000000000000000000 * α ^ 10
      + 1394191526481448822204538699559647403 / 193428131138340667952988160000000000000000000000 * α ^ 11
      + 145933329862542465940022113522635866889 / 4951760157141521099596496896000000000000000000000000 * α ^ 12) := by positivity
  linarith

end

/-- A generator: the uniform number is `1`, the normal numbers are `0, 0, 0, 0, 11/4, 0, 0, ...`. -/
def rng : Rng ℕ where
  seed _ := 0
  random n := (1, n)
  normal n := (if n = 4 then 11 / 4 else 0, n + 1)

theorem draw_rng (k : ℕ) : Spec.draw rng 0 k = if k = 4 then 11 / 4 else 0 := by
  have : ∀ k, Spec.stateAfter rng 0 k = k := by
    intro k
    induction k with
    | zero => rfl
    | succ k ih =>
      unfold Spec.stateAfter at ih ⊢
      rw [Function.iterate_succ_apply', ih]
      rfl
  unfold Spec.draw
  rw [this]
  rfl

/-- A configuration of the double well: a window of two steps, with one observation. -/
def config : Spec.Config1 where
  name := "DW"
  theta := 1 / 2
  sys := 2
  obs := 1 / 4
  t0 := 0
  tf := 1 / 2
  dt := 1 / 4
  method := "Euler"
  seed := .null
  density := 2
  mu0 := 0
  tau0 := 1

/-- The parameter file. -/
def params : Json :=
  .obj [("Output_Name", .str "Sim_DW"), ("Model", .str "DW"), ("Ode-method", .str "Euler"), ("Random-Seed", .null),
    ("Time-window", .obj [("t0", .num 0), ("tf", .num (1 / 2)), ("dt", .num (1 / 4))]),
    ("Noise", .obj [("sys", .num 2), ("obs", .num (1 / 4))]), ("Observations", .obj [("density", .num 2), ("operator", .null)]),
    ("Drift", .obj [("theta", .num (1 / 2))]), ("Prior", .obj [("mu0", .num 0), ("tau0", .num 1)])]

theorem config_in : config.In params :=
  ⟨rfl, ⟨_, rfl, rfl⟩, ⟨_, rfl, rfl, rfl⟩, ⟨_, rfl, rfl, rfl, rfl⟩, rfl, rfl, ⟨_, rfl, rfl, rfl⟩, _, rfl, rfl, rfl⟩

theorem config_valid : config.Valid 2 where
  name := .inl ((pyUpper_eq_iff (by decide)).1 (by show pyUpper "DW" = "DW"; decide))
  sys := by norm_num [config]
  obs := by norm_num [config]
  tau0 := by norm_num [config]
  dt := by norm_num [config]
  tf := by norm_num [config]
  method := ⟨.euler, by show pyLower "Euler" = _; decide⟩
  seed := .inl rfl
  density := by norm_num [config]
  some_obs := by norm_num [config, Spec.numObs]
  not_all := by norm_num [config, Spec.numObs]

/-- What the run on this configuration does. -/
theorem run_stalls (fit1 : List ℝ → List ℝ → ℝ → ℝ) (fitN : ∀ d, List ℝ → List (Fin d → ℝ) → ℝ → Fin d → ℝ) (hfit : Spec.Interpolates fit1)
    (sim : Sim (AnyProc ℕ) Arr) : ∃ p v x0 α,
      let sim' := (sim.setup (pyClasses ⟨rng, 0, fit1, fitN⟩) params none).2
      let r := sim'.run (pyClasses ⟨rng, 0, fit1, fitN⟩)
      Spec.Builds (pyClasses ⟨rng, 0, fit1, fitN⟩) sim'.m_data p v x0
      ∧ x0 = List.ofFn y0 ∧ (v.freeEnergy x0).1 = .ok (F y0 ⟨0, 1⟩) ∧ (v.gradient x0 true).1 = .ok (List.ofFn (g y0)) ∧ 0 < α
      ∧ r.2.output.lookup "at" = some (.array ⟨[3], [4, 4, 4]⟩)
      ∧ r.2.output.lookup "bt" = some (.array ⟨[3], [2, 2, 2]⟩)
      ∧ r.2.output.lookup "fx" = some (.scalar (F y0 ⟨0, 1⟩))
      ∧ r.2.output.lookup "mt" = some (.array ⟨[3], [1 / 2, m1 (y α), m2 (y α)]⟩)
      ∧ r.2.output.lookup "st" = some (.array ⟨[3], [0.2, s1 (y α), s2 (y α)]⟩) := by
  set E : Env ℕ := ⟨rng, 0, fit1, fitN⟩ with hE
  have hM : Spec.numObs 2 config.dt config.density = (1 : ℕ) := by norm_num [config, Spec.numObs]
  obtain ⟨m', x, g', k, h1, h2, h3⟩ := setup_total E config_in config_valid 1 hM sim.m_data
  have hrun := (C87_setup_and_run E config params config_in 2 config_valid sim).2
  have hm : (sim.setup (pyClasses E) params none).2.m_data = m' := by unfold Sim.setup; rw [h1]
  generalize hsim : (sim.setup (pyClasses E) params none).2 = sim' at hm hrun
  subst hm
  obtain ⟨-, hz, rfl, hx0, hxs⟩ : _ ∧ _ := by
    rcases h3 with h | ⟨h, -⟩
    · exact h
    · exact (not_both ((pyUpper_eq_iff (by decide)).1 (by show pyUpper "DW" = "DW"; decide)) h).elim
  have hz' : ∀ k, Spec.draw E.R g' k = if k = 4 then 11 / 4 else 0 := fun k => by rw [hz]; exact draw_rng k
  simp only [hz'] at hx0 hxs
  have e0 : x 0 = 1 / 2 := by
    rw [hx0]
    have : (1 / 2 : ℝ) < (E.R.random (Spec.startState E.R E.entropy config.seed)).1 := by show (1 / 2 : ℝ) < 1; norm_num
    rw [if_pos this]
    norm_num [config]
  have e1 : x 1 = 5 / 8 := by
    have := hxs 0 (by norm_num)
    rw [e0] at this
    rw [this]
    norm_num [config, Spec.dwField]
  obtain ⟨p, b, sde, meth, x0, z, fx, v', hsde, hstep, hmeth, hone, hlen, hb, hx0l, ho⟩ := run_builds E config_valid hM h2
  have ec : Real.sqrt config.obs = 1 / 2 := by
    show Real.sqrt (1 / 4) = 1 / 2
    rw [show (1 / 4 : ℝ) = (1 / 2) ^ 2 by norm_num, Real.sqrt_sq (by norm_num)]
  have hmeth' : meth = .euler := by
    have : ∀ m, pyLower "Euler" = pyLower (docName m) → m = .euler := by
      intro m h
      cases m with
      | euler => rfl
      | heun => exact absurd h (by decide)
      | rk2 => exact absurd h (by decide)
      | rk4 => exact absurd h (by decide)
    exact this meth hmeth
  subst hmeth'
  obtain ⟨hsde', hp⟩ : sde = DW.sde ⟨b, 2, 1 / 2, 1.0 / 2⟩ ∧ p = .dw ⟨b, 2, 1 / 2, 1.0 / 2⟩ := by
    cases hsde with
    | dw h => exact ⟨rfl, rfl⟩
    | ou h => exact (not_both ((pyUpper_eq_iff (by decide)).1 (by show pyUpper "DW" = "DW"; decide)) h).elim
  subst hsde'
  have hy : (fun i : Fin 1 => x (eqIdx 2 1 i) + Real.sqrt config.obs * Spec.draw E.R g' (2 + 2 + i)) = fun _ => 2 := by
    funext i
    fin_cases i
    show x 1 + _ * Spec.draw E.R g' 4 = 2
    rw [hz', ec, e1]
    norm_num
  have hm0 : x 0 + 0.1 * Spec.draw E.R g' (2 + 2 + 1) = 1 / 2 := by
    rw [hz', e0]; norm_num
  rw [hy, hm0] at hb ho
  replace hb : Spec.Builds (pyClasses E) sim'.m_data p (.one (obj b ⟨0, 1⟩)) x0 := hb
  replace ho : (AnyVgp.one (obj b ⟨0, 1⟩)).optimize x0 = (.ok (z, fx), v') := ho
  have htk : b.tk = some (Spec.grid 0 (1 / 4) 2) := by
    obtain ⟨p', hp', b', hb', htk', -⟩ := h2.model
    obtain ⟨hp1, -⟩ := builds_create hb
    rw [hp1] at hp'
    have hpp : p = p' := Option.some.inj hp'
    rw [← hpp, hp] at hb'
    generalize hP : AnyProc.dw ⟨b, 2, 1 / 2, 1.0 / 2⟩ = P at hb'
    cases hb' with
    | dw _ _ _ =>
      injection hP with hP
      injection hP with hP
      rw [hP]
      exact htk'
    | ou _ _ _ => cases hP
  have hinit : AnyVgp.initialization E (.one (obj b ⟨0, 1⟩)) = .ok x0 := by
    obtain ⟨_, _, _, _, _, _, _, _, _, _, _, _, _, _, _, _, _, -, -, -, -, -, -, -, -, -, -, -, -, -, -, -, -, -, -, -, hi⟩ := hb
    exact hi
  have hd : Spec.HasData (N := 2) (k := 0) (obj b ⟨0, 1⟩) (fun i : Fin 3 => 0 + ((i : ℕ) : ℝ) * (1 / 4)) (fun _ => 1) (fun _ => 2) := by
    refine ⟨?_, rfl, grid_mono (by norm_num) 2, rfl, rfl, fun i j hij => absurd hij (by omega)⟩
    show b.timeWindow = _
    simp only [Proc.timeWindow, htk]
    rfl
  have hx0 : x0 = List.ofFn y0 := by
    have hi := (init1_eq hd fit1).1 (fun _ => by decide)
    have := hi.symm.trans hinit
    injection this with this
    rw [← this]
    have nodes := hfit [0, 1 / 4, 1 / 2] [2, 2, 2] rfl (by simp) (by norm_num)
    have n0 := nodes 0 0 2 rfl rfl
    have n1 := nodes 1 (1 / 4) 2 rfl rfl
    have n2 := nodes 2 (1 / 2) 2 rfl rfl
    rw [split_ofFn y0]
    congr 1
    · congr 1
      funext i
      fin_cases i <;> (show (2 * 2 : ℝ) = 4; norm_num)
    · congr 1
      funext i
      have hl1 : (((0 : ℝ) + (((0 : Fin 3) : ℕ) : ℝ) * (1 / 4)) :: ((List.ofFn fun _ : Fin 1 => (0 : ℝ) + (((1 : Fin 3) : ℕ) : ℝ) * (1 / 4))
          ++ [(0 : ℝ) + (((Fin.last 2 : Fin 3) : ℕ) : ℝ) * (1 / 4)])) = [0, 1 / 4, 1 / 2] := by
        norm_num [List.ofFn_succ]
      have hl2 : ((2 : ℝ) :: ((List.ofFn fun _ : Fin 1 => (2 : ℝ)) ++ [2])) = [2, 2, 2] := by simp [List.ofFn_succ]
      have key : fit1 [0, 1 / 4, 1 / 2] [2, 2, 2] (0 + ((i : ℕ) : ℝ) * (1 / 4)) = 2 := by
        fin_cases i
        · norm_num [n0]
        · norm_num; exact n1
        · norm_num; exact n2
      rw [hl1, hl2, key]
      fin_cases i <;> rfl
  have hF := eval_eq (p := b) (K := ⟨0, 1⟩)
  have hG := grad_eq (p := b) (K := ⟨0, 1⟩)
  have hk : 1 / 2 ^ 52 ≤ g y0 ⬝ᵥ g y0 := by
    rw [g_start]
    norm_num [dotProduct, Fin.sum_univ_succ]
  obtain ⟨hz, hfx, α, hα, rfl⟩ := optimize_stall (w := obj b ⟨0, 1⟩) (F := fun x => F x ⟨0, 1⟩) (G := g) (C := C) (fun x => hF x hstep) hG y0 hk
    (energy_grows ⟨0, 1⟩) hx0 ho
  obtain ⟨p1, x1, fx1, g1, a1, b1, hr, ha, hb1, hout⟩ := run_ok_output _ sim' hrun
  have hr' := runBody_builds.2 ⟨_, x0, hb, ho⟩
  rw [hr] at hr'
  obtain ⟨rfl, rfl, rfl, rfl⟩ : p1 = p ∧ x1 = z ∧ fx1 = fx ∧ g1 = _ := by
    injection hr' with hr'
    simpa only [Prod.mk.injEq] using hr'
  replace hout : (sim'.run (pyClasses E)).2.output
      = (((sim'.output.put "at" (.array a1)).put "bt" (.array b1)).put "fx" (.scalar fx1)).update
        (AnyVgp.argOut (.one { obj b ⟨0, 1⟩ with cache := some (C (y0 - α • g y0)) })) := by rw [hout]; rfl
  have hxl : x1 = [4, 4, 4, 2, 2, 2] := by rw [hz, hx0]; simp [y0, List.ofFn_succ]
  have ha' : a1 = ⟨[3], [4, 4, 4]⟩ := by
    have : p1.unpackA x1 = .ok a1 := ha
    simp [AnyProc.unpackA, hlen, hone, hxl, bind, Except.bind, pure, Except.pure] at this
    exact this.symm
  have hb' : b1 = ⟨[3], [2, 2, 2]⟩ := by
    have : p1.unpackB x1 = .ok b1 := hb1
    simp [AnyProc.unpackB, hlen, hone, hxl, bind, Except.bind, pure, Except.pure] at this
    exact this.symm
  subst ha' hb'
  refine ⟨p1, _, x0, α, hb, hx0, ?_, ?_, hα, ?_, ?_, ?_, ?_, ?_⟩
  · rw [hx0]
    simp only [AnyVgp.freeEnergy, VarGP.freeEnergy, hF y0 hstep]
  · rw [hx0]
    simp only [AnyVgp.gradient, VarGP.gradient, VarGP.freeEnergy, hF y0 hstep, if_true, hG]
  · rw [hout, lookup_update _ _ (argOut_distinct _), argOut_none _ _ (by simp)]
    simp [lookup_put]
  · rw [hout, lookup_update _ _ (argOut_distinct _), argOut_none _ _ (by simp)]
    simp [lookup_put]
  · rw [hout, lookup_update _ _ (argOut_distinct _), argOut_none _ _ (by simp), hfx]
    simp [lookup_put]
  · rw [hout, lookup_update _ _ (argOut_distinct _)]
    rfl
  · rw [hout, lookup_update _ _ (argOut_distinct _)]
    rfl

end Stall

/-- C85 does not hold: there is a valid configuration and a random stream such that, whichever interpolating curve is used and whatever happened to the
simulation before, `setup` and `run()` succeed, and the stored variances `st` are not the ones that the chosen integrator (Euler) gives for the stored `at`: already
the second one differs. -/
theorem C85_stored_moments_violated : ∃ (R : Rng ℕ) (g : ℕ) (c : Spec.Config1) (params : Json), c.In params ∧ c.Valid 2 ∧ c.method = "Euler" ∧
    ∀ (fit1 : List ℝ → List ℝ → ℝ → ℝ) (fitN : ∀ d, List ℝ → List (Fin d → ℝ) → ℝ → Fin d → ℝ), Spec.Interpolates fit1 →
    ∀ sim : Sim (AnyProc ℕ) Arr,
      let sim' := sim.setup (pyClasses ⟨R, g, fit1, fitN⟩) params none
      let r := sim'.2.run (pyClasses ⟨R, g, fit1, fitN⟩)
      sim'.1 = .ok () ∧ r.1 = .ok () ∧ ∃ a0 a1 a2 v0 v1 v2 : ℝ,
        r.2.output.lookup "at" = some (.array ⟨[3], [a0, a1, a2]⟩)
        ∧ r.2.output.lookup "st" = some (.array ⟨[3], [v0, v1, v2]⟩)
        ∧ v1 ≠ v0 + c.dt * (c.sys - 2 * a0 * v0) := by
  refine ⟨Stall.rng, 0, Stall.config, Stall.params, Stall.config_in, Stall.config_valid, rfl, fun fit1 fitN hfit sim => ?_⟩
  obtain ⟨h1, h2⟩ := C87_setup_and_run ⟨Stall.rng, 0, fit1, fitN⟩ _ _ Stall.config_in 2 Stall.config_valid sim
  obtain ⟨p, v, x0, α, -, -, -, -, hα, ha, -, -, -, hs⟩ := Stall.run_stalls fit1 fitN hfit sim
  refine ⟨h1, h2, 4, 4, 4, 0.2, Stall.s1 (Stall.y α), Stall.s2 (Stall.y α), ha, hs, ?_⟩
  rw [Stall.y_s1]
  norm_num [Stall.config]
  linarith

/-- C125 does not hold: on the same configuration, `run()` returns the parameters that it started from, although the gradient there is not zero. -/
theorem C125_progress_violated : ∃ (R : Rng ℕ) (g : ℕ) (c : Spec.Config1) (params : Json), c.In params ∧ c.Valid 2 ∧
    ∀ (fit1 : List ℝ → List ℝ → ℝ → ℝ) (fitN : ∀ d, List ℝ → List (Fin d → ℝ) → ℝ → Fin d → ℝ), Spec.Interpolates fit1 →
    ∀ sim : Sim (AnyProc ℕ) Arr,
      let sim' := sim.setup (pyClasses ⟨R, g, fit1, fitN⟩) params none
      let r := sim'.2.run (pyClasses ⟨R, g, fit1, fitN⟩)
      sim'.1 = .ok () ∧ r.1 = .ok () ∧ ∃ p v x0 a b fx grad,
        Spec.Builds (pyClasses ⟨R, g, fit1, fitN⟩) sim'.2.m_data p v x0
        ∧ r.2.output.lookup "at" = some (.array a) ∧ r.2.output.lookup "bt" = some (.array b) ∧ r.2.output.lookup "fx" = some (.scalar fx)
        ∧ a.data ++ b.data = x0 ∧ (v.freeEnergy x0).1 = .ok fx
        ∧ (v.gradient x0 true).1 = .ok grad ∧ ∃ e ∈ grad, e ≠ 0 := by
  refine ⟨Stall.rng, 0, Stall.config, Stall.params, Stall.config_in, Stall.config_valid, fun fit1 fitN hfit sim => ?_⟩
  obtain ⟨h1, h2⟩ := C87_setup_and_run ⟨Stall.rng, 0, fit1, fitN⟩ _ _ Stall.config_in 2 Stall.config_valid sim
  obtain ⟨p, v, x0, α, hb, hx0, hF, hG, hα, ha, hbt, hfx, -, hs⟩ := Stall.run_stalls fit1 fitN hfit sim
  refine ⟨h1, h2, p, v, x0, _, _, _, _, hb, ha, hbt, hfx, ?_, hF, hG, -1111 / 3200, ?_, by norm_num⟩
  · rw [hx0]
    simp [Stall.y0, List.ofFn_succ]
  · rw [Stall.g_start]
    simp [List.ofFn_succ]

end

end VGPA
