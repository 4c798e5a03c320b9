import Verif.Model.LiveVgp
import Verif.Props.VarGP
import Verif.Props.Shapes

/-!
# C158: changing the process under a `VarGP` object
-/

namespace VGPA

noncomputable section

variable {G V W : Type}

/-- The four process classes. -/
inductive Spec.IsClass : {V W : Type} → LiveApi V W → Prop
  | doubleWell {G : Type} (R : Rng G) : Spec.IsClass (dwLive R)
  | ornsteinUhlenbeck {G : Type} (R : Rng G) : Spec.IsClass (ouLive R)
  | lorenz63 {G : Type} (R : Rng G) : Spec.IsClass (l63Live R)
  | lorenz96 {G : Type} (R : Rng G) (d : ℕ) : Spec.IsClass (l96Live R d)

/-- A process with a path on the grid `tk`. -/
def OnGrid {X : Type} (b : Proc G X) (tk : List ℝ) : Prop := b.tk = some tk ∧ ∃ p, b.xt = some p ∧ p.length = tk.length

/-- The same as far as a `VarGP` object can see it. -/
def SdeGrid (M : SdeModel V W) (tk : List ℝ) : Prop :=
  M.time_window = .ok tk
    ∧ M.time_step = (do
        let t1 ← idx tk 1
        let t0 ← idx tk 0
        pure |t1 - t0|)
    ∧ ∃ p, M.sample_path = .ok p ∧ p.length = tk.length

/-- What the proof uses about a class. -/
structure Steady (A : LiveApi V W) : Prop where
  make : ∀ o t0 tf dt mu o', A.makeTrajectory o t0 tf dt mu = (.ok (), o') →
    ∃ tk, arange t0 (tf + dt) dt = .ok tk ∧ SdeGrid (A.sde o') tk
  sigma : ∀ o tk v, SdeGrid (A.sde o) tk → SdeGrid (A.sde (A.setSigma o v).2) tk
  theta : ∀ o tk v, SdeGrid (A.sde o) tk → SdeGrid (A.sde (A.setTheta o v).2) tk
  again : ∀ o t0 tf dt mu tk, arange t0 (tf + dt) dt = .ok tk → SdeGrid (A.sde o) tk →
    SdeGrid (A.sde (A.makeTrajectory o t0 tf dt mu).2) tk

theorem dw_make_grid (R : Rng G) (o : DW G) (t0 tf dt : ℝ) :
    (∃ tk p, arange t0 (tf + dt) dt = .ok tk ∧ p.length = tk.length
      ∧ (DW.makeTrajectory R o t0 tf dt).2.base.tk = some tk ∧ (DW.makeTrajectory R o t0 tf dt).2.base.xt = some p)
    ∨ ((DW.makeTrajectory R o t0 tf dt).1 ≠ .ok () ∧ (DW.makeTrajectory R o t0 tf dt).2.base.tk = o.base.tk
      ∧ (DW.makeTrajectory R o t0 tf dt).2.base.xt = o.base.xt) := by
  unfold DW.makeTrajectory
  rcases ha : arange t0 (tf + dt) dt with e | tk
  · exact .inr ⟨by simp, rfl, rfl⟩
  · simp only []
    by_cases htk : tk.length = 0
    · rw [if_pos htk]
      exact .inr ⟨by simp, rfl, rfl⟩
    · rw [if_neg htk]
      split
      · exact .inr ⟨by simp, rfl, rfl⟩
      · rename_i x hx
        exact .inl ⟨tk, x, rfl, fwdSweep_length hx, rfl, rfl⟩

theorem ou_make_grid (R : Rng G) (o : OU G) (t0 tf dt mu : ℝ) :
    (∃ tk p, arange t0 (tf + dt) dt = .ok tk ∧ p.length = tk.length
      ∧ (OU.makeTrajectory R o t0 tf dt mu).2.base.tk = some tk ∧ (OU.makeTrajectory R o t0 tf dt mu).2.base.xt = some p)
    ∨ ((OU.makeTrajectory R o t0 tf dt mu).1 ≠ .ok () ∧ (OU.makeTrajectory R o t0 tf dt mu).2.base.tk = o.base.tk
      ∧ (OU.makeTrajectory R o t0 tf dt mu).2.base.xt = o.base.xt) := by
  unfold OU.makeTrajectory
  rcases ha : arange t0 (tf + dt) dt with e | tk
  · exact .inr ⟨by simp, rfl, rfl⟩
  · simp only []
    by_cases htk : tk.length = 0
    · rw [if_pos htk]
      exact .inr ⟨by simp, rfl, rfl⟩
    · rw [if_neg htk]
      split
      · exact .inr ⟨by simp, rfl, rfl⟩
      · rename_i x hx
        exact .inl ⟨tk, x, rfl, fwdSweep_length hx, rfl, rfl⟩

theorem lorenz_make_grid {T : Type} {d : ℕ} (R : Rng G) (o : LorenzObj G d T) (f : (Fin d → ℝ) → Fin d → ℝ) (x0 : Fin d → ℝ) (t0 tf dt : ℝ) :
    (∃ tk p, arange t0 (tf + dt) dt = .ok tk ∧ p.length = tk.length
      ∧ (LorenzObj.makeTrajectory R o f x0 t0 tf dt).2.base.tk = some tk ∧ (LorenzObj.makeTrajectory R o f x0 t0 tf dt).2.base.xt = some p)
    ∨ ((LorenzObj.makeTrajectory R o f x0 t0 tf dt).1 ≠ .ok () ∧ (LorenzObj.makeTrajectory R o f x0 t0 tf dt).2.base.tk = o.base.tk
      ∧ (LorenzObj.makeTrajectory R o f x0 t0 tf dt).2.base.xt = o.base.xt) := by
  unfold LorenzObj.makeTrajectory
  rcases ha : arange t0 (tf + dt) dt with e | tk
  · exact .inr ⟨by simp, rfl, rfl⟩
  · simp only []
    by_cases htk : tk.length = 0
    · rw [if_pos htk]
      exact .inr ⟨by simp, rfl, rfl⟩
    · rw [if_neg htk]
      split
      · exact .inr ⟨by simp, rfl, rfl⟩
      · rename_i x hx
        exact .inl ⟨tk, x, rfl, fwdSweep_length hx, rfl, rfl⟩

theorem proc_grid {X : Type} {b : Proc G X} {tk : List ℝ} (h1 : b.timeWindow = .ok tk) (h2 : ∃ p, b.samplePath = .ok p ∧ p.length = tk.length) :
    OnGrid b tk := by
  unfold Proc.timeWindow at h1
  unfold Proc.samplePath at h2
  obtain ⟨p, h2, h3⟩ := h2
  refine ⟨?_, p, ?_, h3⟩
  · split at h1
    · cases h1
    · injection h1 with h1
      rename_i e
      rw [e, h1]
  · split at h2
    · cases h2
    · injection h2 with h2
      rename_i e
      rw [e, h2]

theorem grid_proc {X : Type} {b : Proc G X} {tk : List ℝ} (h : OnGrid b tk) : b.timeWindow = .ok tk
    ∧ b.timeStep = (do
        let t1 ← idx tk 1
        let t0 ← idx tk 0
        pure |t1 - t0|)
    ∧ ∃ p, b.samplePath = .ok p ∧ p.length = tk.length := by
  obtain ⟨h1, p, h2, h3⟩ := h
  unfold Proc.timeWindow Proc.timeStep Proc.samplePath
  rw [h1, h2]
  exact ⟨rfl, rfl, p, rfl, h3⟩

/-- A class whose view of the grid is that of its base object is steady when the assignments keep the base object. -/
theorem steady_of {X : Type} (A : LiveApi V W) (base : A.Obj → Proc G X)
    (hs : ∀ o tk, SdeGrid (A.sde o) tk ↔ OnGrid (base o) tk)
    (hsig : ∀ o v, base (A.setSigma o v).2 = base o) (hth : ∀ o v, base (A.setTheta o v).2 = base o)
    (hmk : ∀ o t0 tf dt mu, (∃ tk p, arange t0 (tf + dt) dt = .ok tk ∧ p.length = tk.length
        ∧ (base (A.makeTrajectory o t0 tf dt mu).2).tk = some tk ∧ (base (A.makeTrajectory o t0 tf dt mu).2).xt = some p)
      ∨ ((A.makeTrajectory o t0 tf dt mu).1 ≠ .ok () ∧ (base (A.makeTrajectory o t0 tf dt mu).2).tk = (base o).tk
        ∧ (base (A.makeTrajectory o t0 tf dt mu).2).xt = (base o).xt)) : Steady A where
  make o t0 tf dt mu o' h := by
    rcases hmk o t0 tf dt mu with ⟨tk, p, h1, h2, h3, h4⟩ | ⟨h1, -⟩
    · rw [h] at h3 h4
      exact ⟨tk, h1, (hs _ _).2 ⟨h3, p, h4, h2⟩⟩
    · rw [h] at h1
      exact absurd rfl h1
  sigma o tk v h := by rw [hs, hsig, ← hs]; exact h
  theta o tk v h := by rw [hs, hth, ← hs]; exact h
  again o t0 tf dt mu tk ha h := by
    rw [hs] at h ⊢
    rcases hmk o t0 tf dt mu with ⟨tk', p, h1, h2, h3, h4⟩ | ⟨-, h1, h2⟩
    · rw [ha] at h1
      injection h1 with h1
      subst h1
      exact ⟨h3, p, h4, h2⟩
    · unfold OnGrid
      rw [h1, h2]
      exact h

theorem lorenz_sigma_base {T : Type} {d : ℕ} (o : LorenzObj G d T) (v : NdArr) : (o.setSigma v).2.base = o.base := by
  unfold LorenzObj.setSigma
  split
  · split
    · simp only []
      split
      · rfl
      · split <;> rfl
    · rfl
  · rfl

theorem lorenz_make_inverse {T : Type} {d : ℕ} (R : Rng G) (o : LorenzObj G d T) (f : (Fin d → ℝ) → Fin d → ℝ) (x0 : Fin d → ℝ) (t0 tf dt : ℝ) :
    (LorenzObj.makeTrajectory R o f x0 t0 tf dt).2.sig_inv = o.sig_inv := by
  unfold LorenzObj.makeTrajectory
  rcases arange t0 (tf + dt) dt with e | tk
  · rfl
  · simp only []
    by_cases htk : tk.length = 0
    · rw [if_pos htk]
    · rw [if_neg htk]
      split <;> rfl

theorem steady_of_class {A : LiveApi V W} (h : Spec.IsClass A) : Steady A := by
  cases h with
  | doubleWell R =>
    refine steady_of (dwLive R) (fun o => DW.base o) (fun o tk => ⟨fun h => proc_grid h.1 h.2.2, grid_proc⟩) (fun o v => ?_) (fun o v => rfl)
      (fun o t0 tf dt _ => dw_make_grid R o t0 tf dt)
    show (DW.setSigma o v).2.base = _
    unfold DW.setSigma
    split_ifs <;> rfl
  | ornsteinUhlenbeck R =>
    refine steady_of (ouLive R) (fun o => OU.base o) (fun o tk => ⟨fun h => proc_grid h.1 h.2.2, grid_proc⟩) (fun o v => ?_) (fun o v => ?_)
      (fun o t0 tf dt mu => ou_make_grid R o t0 tf dt mu)
    · show (OU.setSigma o v).2.base = _
      unfold OU.setSigma
      split_ifs <;> rfl
    · show (OU.setTheta o v).2.base = _
      unfold OU.setTheta
      split_ifs <;> rfl
  | lorenz63 R =>
    exact steady_of (l63Live R) (fun o => LorenzObj.base o) (fun o tk => ⟨fun h => proc_grid h.1 h.2.2, grid_proc⟩) (fun o v => lorenz_sigma_base o v)
      (fun o v => rfl) (fun o t0 tf dt _ => lorenz_make_grid R o _ _ t0 tf dt)
  | lorenz96 R d =>
    exact steady_of (l96Live R d) (fun o => LorenzObj.base o) (fun o tk => ⟨fun h => proc_grid h.1 h.2.2, grid_proc⟩) (fun o v => lorenz_sigma_base o v)
      (fun o v => rfl) (fun o t0 tf dt _ => lorenz_make_grid R o _ _ t0 tf dt)

variable [AddCommGroup V] [Module ℝ V] [AddCommGroup W] [Module ℝ W]

/-- After a history on one grid, the object is what a new one would be, up to the stored results. -/
theorem live_history {A : LiveApi V W} (hA : Steady A) (sh : Shape V W) (t0 tf dt : ℝ) (tk : List ℝ) (ha : arange t0 (tf + dt) dt = .ok tk)
    (h : LiveVgp A) (hg : SdeGrid (A.sde h.proc) tk) (ops : List (LiveOp A))
    (hops : ∀ t0' tf' dt' mu', LiveOp.makeTrajectory t0' tf' dt' mu' ∈ ops → t0' = t0 ∧ tf' = tf ∧ dt' = dt) :
    SdeGrid (A.sde (runLive sh h ops).proc) tk
      ∧ ∃ c, (runLive sh h ops).now = { h.vgp with model := A.sde (runLive sh h ops).proc, cache := c } := by
  induction ops generalizing h with
  | nil => exact ⟨hg, _, rfl⟩
  | cons op ops ih =>
    have hops' : ∀ t0' tf' dt' mu', LiveOp.makeTrajectory t0' tf' dt' mu' ∈ ops → t0' = t0 ∧ tf' = tf ∧ dt' = dt :=
      fun a b c d hm => hops a b c d (List.mem_cons_of_mem _ hm)
    show SdeGrid (A.sde (runLive sh (op.after sh h) ops).proc) tk ∧ ∃ c, (runLive sh (op.after sh h) ops).now = _
    cases op with
    | setSigma v => exact ih { h with proc := (A.setSigma h.proc v).2 } (hA.sigma _ _ v hg) hops'
    | setTheta v => exact ih { h with proc := (A.setTheta h.proc v).2 } (hA.theta _ _ v hg) hops'
    | makeTrajectory t0' tf' dt' mu' =>
      obtain ⟨rfl, rfl, rfl⟩ := hops t0' tf' dt' mu' (by simp)
      exact ih { h with proc := (A.makeTrajectory h.proc t0' tf' dt' mu').2 } (hA.again _ _ _ _ mu' _ ha hg) hops'
    | freeEnergy x =>
      obtain ⟨c, hc⟩ := freeEnergy_obj sh h.now x
      have key : ∀ M c', ({ (h.now.freeEnergy sh x).2 with model := M, cache := c' } : VarGP V W) = { h.vgp with model := M, cache := c' } :=
        fun M c' => by rw [hc]; rfl
      obtain ⟨h1, c', h2⟩ := ih { h with vgp := (h.now.freeEnergy sh x).2 } hg hops'
      exact ⟨h1, c', h2.trans (key _ _)⟩
    | gradient x e =>
      obtain ⟨c, hc⟩ := gradient_obj sh h.now x e
      have key : ∀ M c', ({ (h.now.gradient sh x e).2 with model := M, cache := c' } : VarGP V W) = { h.vgp with model := M, cache := c' } :=
        fun M c' => by rw [hc]; rfl
      obtain ⟨h1, c', h2⟩ := ih { h with vgp := (h.now.gradient sh x e).2 } hg hops'
      exact ⟨h1, c', h2.trans (key _ _)⟩

theorem live_new {A : LiveApi V W} (hA : Spec.IsClass A) (sh : Shape V W) (o₀ o : A.Obj) (t0 tf dt mu : ℝ)
    (ht : A.makeTrajectory o₀ t0 tf dt mu = (.ok (), o)) (m0 : V) (s0 : W) (fwd bwd : OdeFrontEnd) (like : LikeIf V W) (kl0 : V → W → Py ℝ)
    (obs_y : List V) (obs_t : List ℕ) (h : LiveVgp A) (hh : LiveVgp.init A o m0 s0 fwd bwd like kl0 obs_y obs_t = .ok h)
    (ops : List (LiveOp A))
    (hops : ∀ t0' tf' dt' mu', LiveOp.makeTrajectory t0' tf' dt' mu' ∈ ops → t0' = t0 ∧ tf' = tf ∧ dt' = dt) :
    ∃ w c, VarGP.init (A.sde (runLive sh h ops).proc) m0 s0 fwd bwd like kl0 obs_y obs_t = .ok w
      ∧ (runLive sh h ops).now = { w with cache := c } := by
  have hS := steady_of_class hA
  obtain ⟨tk, ha, hg⟩ := hS.make o₀ t0 tf dt mu o ht
  unfold LiveVgp.init VarGP.init at hh
  obtain ⟨-, hstep, p, hp, hl⟩ := id hg
  rw [hp] at hh
  rcases e1 : (A.sde o).time_step with e | st
  · rw [e1] at hh
    cases hh
  · rw [e1] at hh
    injection hh with hh
    have hg0 : SdeGrid (A.sde h.proc) tk := by rw [← hh]; exact hg
    obtain ⟨hg', c, hc⟩ := live_history hS sh t0 tf dt tk ha h hg0 ops hops
    obtain ⟨-, hstep', p', hp', hl'⟩ := id hg'
    rw [hstep] at e1
    rw [e1] at hstep'
    refine ⟨{ h.vgp with model := A.sde (runLive sh h ops).proc, cache := none }, c, ?_, hc⟩
    unfold VarGP.init
    rw [hstep', hp']
    simp only [py_ok_bind]
    rw [hl', ← hl]
    generalize A.sde (runLive sh h ops).proc = M
    rw [← hh]
    rfl

/-- C158. A process has made a trajectory, and a `VarGP` object has been built on it. Then any number of calls follow, in any order: assignments to the noise and the drift parameters of the process, accepted or rejected, new
trajectories over the same times, and evaluations. Building a new `VarGP` object on the process as it is now, from the same other arguments, succeeds, and for all parameters `x` the old object returns the same free energy and the same gradient, or raises the same
exception. -/
theorem C158_as_new {A : LiveApi V W} (hA : Spec.IsClass A) (sh : Shape V W) (o₀ o : A.Obj) (t0 tf dt mu : ℝ)
    (ht : A.makeTrajectory o₀ t0 tf dt mu = (.ok (), o)) (m0 : V) (s0 : W) (fwd bwd : OdeFrontEnd) (like : LikeIf V W) (kl0 : V → W → Py ℝ)
    (obs_y : List V) (obs_t : List ℕ) (h : LiveVgp A) (hh : LiveVgp.init A o m0 s0 fwd bwd like kl0 obs_y obs_t = .ok h)
    (ops : List (LiveOp A))
    (hops : ∀ t0' tf' dt' mu', LiveOp.makeTrajectory t0' tf' dt' mu' ∈ ops → t0' = t0 ∧ tf' = tf ∧ dt' = dt) :
    ∃ w, VarGP.init (A.sde (runLive sh h ops).proc) m0 s0 fwd bwd like kl0 obs_y obs_t = .ok w
      ∧ (∀ x, ((runLive sh h ops).now.freeEnergy sh x).1 = (w.freeEnergy sh x).1)
      ∧ (∀ x, ((runLive sh h ops).now.gradient sh x true).1 = (w.gradient sh x true).1)
      ∧ ∀ x, (∃ F, (w.freeEnergy sh x).1 = .ok F) →
          ((runLive sh h (ops ++ [.freeEnergy x])).now.gradient sh x false).1 = (w.gradient sh x true).1 := by
  obtain ⟨w, c, hw, hc⟩ := live_new hA sh o₀ o t0 tf dt mu ht m0 s0 fwd bwd like kl0 obs_y obs_t h hh ops hops
  refine ⟨w, hw, fun x => ?_, fun x => ?_, fun x hx => ?_⟩
  · rw [hc]
    unfold VarGP.freeEnergy
    rw [eval_cache]
    cases w.eval sh x <;> rfl
  · rw [hc, gradient_true_eq, gradient_true_eq, eval_cache]
  · have e : (runLive sh h (ops ++ [.freeEnergy x])).now = ((runLive sh h ops).now.freeEnergy sh x).2 := by
      have : runLive sh h (ops ++ [.freeEnergy x]) = (LiveOp.freeEnergy x).after sh (runLive sh h ops) := by
        unfold runLive
        rw [List.foldl_append]
        rfl
      rw [this]
      obtain ⟨c', hc'⟩ := freeEnergy_obj sh (runLive sh h ops).now x
      show ({ ((runLive sh h ops).now.freeEnergy sh x).2 with model := A.sde (runLive sh h ops).proc } : VarGP V W) = _
      rw [hc']
      rfl
    rw [e, hc]
    have hk := C60_cached sh w [] [] x (.freeEnergy x) (.inl rfl) (by simp) hx
    rw [← hk]
    obtain ⟨F, hF⟩ := hx
    unfold VarGP.freeEnergy at hF ⊢
    rw [eval_cache]
    show _ = ((VgpCall.after sh w (.freeEnergy x)).gradient sh x false).1
    simp only [VgpCall.after, VarGP.freeEnergy]
    cases he : w.eval sh x with
    | error e => rw [he] at hF; cases hF
    | ok r => rfl

/-- C158, the start of the optimisation: in one dimension. -/
theorem C158_start_one {A : LiveApi ℝ ℝ} (hA : Spec.IsClass A) (fit : List ℝ → List ℝ → ℝ → ℝ) (sh : Shape ℝ ℝ) (o₀ o : A.Obj) (t0 tf dt mu : ℝ)
    (ht : A.makeTrajectory o₀ t0 tf dt mu = (.ok (), o)) (m0 s0 : ℝ) (fwd bwd : OdeFrontEnd) (like : LikeIf ℝ ℝ) (kl0 : ℝ → ℝ → Py ℝ)
    (obs_y : List ℝ) (obs_t : List ℕ) (h : LiveVgp A) (hh : LiveVgp.init A o m0 s0 fwd bwd like kl0 obs_y obs_t = .ok h)
    (ops : List (LiveOp A))
    (hops : ∀ t0' tf' dt' mu', LiveOp.makeTrajectory t0' tf' dt' mu' ∈ ops → t0' = t0 ∧ tf' = tf ∧ dt' = dt) :
    ∃ w, VarGP.init (A.sde (runLive sh h ops).proc) m0 s0 fwd bwd like kl0 obs_y obs_t = .ok w
      ∧ (runLive sh h ops).now.initialization1 fit = w.initialization1 fit := by
  obtain ⟨w, c, hw, hc⟩ := live_new hA sh o₀ o t0 tf dt mu ht m0 s0 fwd bwd like kl0 obs_y obs_t h hh ops hops
  exact ⟨w, hw, by rw [hc]; rfl⟩

/-- C158, the start of the optimisation: in several dimensions. -/
theorem C158_start_many {d : ℕ} {A : LiveApi (Fin d → ℝ) (Matrix (Fin d) (Fin d) ℝ)} (hA : Spec.IsClass A)
    (fit : List ℝ → List (Fin d → ℝ) → ℝ → Fin d → ℝ) (sh : Shape (Fin d → ℝ) (Matrix (Fin d) (Fin d) ℝ)) (o₀ o : A.Obj) (t0 tf dt mu : ℝ)
    (ht : A.makeTrajectory o₀ t0 tf dt mu = (.ok (), o)) (m0 : Fin d → ℝ) (s0 : Matrix (Fin d) (Fin d) ℝ) (fwd bwd : OdeFrontEnd)
    (like : LikeIf (Fin d → ℝ) (Matrix (Fin d) (Fin d) ℝ)) (kl0 : (Fin d → ℝ) → Matrix (Fin d) (Fin d) ℝ → Py ℝ)
    (obs_y : List (Fin d → ℝ)) (obs_t : List ℕ) (h : LiveVgp A) (hh : LiveVgp.init A o m0 s0 fwd bwd like kl0 obs_y obs_t = .ok h)
    (ops : List (LiveOp A))
    (hops : ∀ t0' tf' dt' mu', LiveOp.makeTrajectory t0' tf' dt' mu' ∈ ops → t0' = t0 ∧ tf' = tf ∧ dt' = dt) :
    ∃ w, VarGP.init (A.sde (runLive sh h ops).proc) m0 s0 fwd bwd like kl0 obs_y obs_t = .ok w
      ∧ (runLive sh h ops).now.initializationN fit = w.initializationN fit := by
  obtain ⟨w, c, hw, hc⟩ := live_new hA sh o₀ o t0 tf dt mu ht m0 s0 fwd bwd like kl0 obs_y obs_t h hh ops hops
  exact ⟨w, hw, by rw [hc]; rfl⟩

theorem class_inverse {V W : Type} {A : LiveApi V W} (h : Spec.IsClass A) (o : A.Obj) :
    (∀ v, (A.sde (A.setTheta o v).2).inverse_sigma = (A.sde o).inverse_sigma)
      ∧ ∀ t0 tf dt mu, (A.sde (A.makeTrajectory o t0 tf dt mu).2).inverse_sigma = (A.sde o).inverse_sigma := by
  cases h with
  | doubleWell R =>
    refine ⟨fun v => ?_, fun t0 tf dt mu => ?_⟩
    · show (DW.setTheta o v).2.sig_inv = DW.sig_inv o
      rfl
    show (DW.makeTrajectory R o t0 tf dt).2.sig_inv = o.sig_inv
    unfold DW.makeTrajectory
    rcases arange t0 (tf + dt) dt with e | tk
    · rfl
    · simp only []
      by_cases htk : tk.length = 0
      · rw [if_pos htk]
      · rw [if_neg htk]
        split <;> rfl
  | ornsteinUhlenbeck R =>
    refine ⟨fun v => ?_, fun t0 tf dt mu => ?_⟩
    · show (OU.setTheta o v).2.sig_inv = o.sig_inv
      unfold OU.setTheta
      split_ifs <;> rfl
    · show (OU.makeTrajectory R o t0 tf dt mu).2.sig_inv = o.sig_inv
      unfold OU.makeTrajectory
      rcases arange t0 (tf + dt) dt with e | tk
      · rfl
      · simp only []
        by_cases htk : tk.length = 0
        · rw [if_pos htk]
        · rw [if_neg htk]
          split <;> rfl
  | lorenz63 R =>
    refine ⟨fun v => ?_, fun t0 tf dt mu => ?_⟩
    · show (LorenzObj.setTheta o v).2.sig_inv = LorenzObj.sig_inv o
      rfl
    show (L63.makeTrajectory R o t0 tf dt).2.sig_inv = LorenzObj.sig_inv o
    exact lorenz_make_inverse R o _ _ t0 tf dt
  | lorenz96 R d =>
    refine ⟨fun v => ?_, fun t0 tf dt mu => ?_⟩
    · show (LorenzObj.setTheta o v).2.sig_inv = LorenzObj.sig_inv o
      rfl
    show (L96.makeTrajectory R o t0 tf dt).2.sig_inv = LorenzObj.sig_inv o
    exact lorenz_make_inverse R o _ _ t0 tf dt

/-- C158, what `gradient(x)` is without an evaluation: until the next evaluation it returns what it returned before, whatever drift parameters are assigned and whatever trajectories are made, over whatever times. It belongs to the parameters
of the last evaluation. -/
theorem C158_until_evaluated {A : LiveApi V W} (hA : Spec.IsClass A) (sh : Shape V W) (h : LiveVgp A) (ops : List (LiveOp A))
    (hops : ∀ op ∈ ops, (∃ v, op = .setTheta v) ∨ ∃ t0 tf dt mu, op = .makeTrajectory t0 tf dt mu) (x : List ℝ) :
    ((runLive sh h ops).now.gradient sh x false).1 = (h.now.gradient sh x false).1 := by
  have key : (A.sde (runLive sh h ops).proc).inverse_sigma = (A.sde h.proc).inverse_sigma ∧ (runLive sh h ops).vgp = h.vgp := by
    induction ops generalizing h with
    | nil => exact ⟨rfl, rfl⟩
    | cons op ops ih =>
      have hops' := fun op' hm => hops op' (List.mem_cons_of_mem _ hm)
      rcases hops op (by simp) with ⟨v, rfl⟩ | ⟨t0, tf, dt, mu, rfl⟩
      · obtain ⟨h1, h2⟩ := ih { h with proc := (A.setTheta h.proc v).2 } hops'
        exact ⟨h1.trans ((class_inverse hA _).1 v), h2⟩
      · obtain ⟨h1, h2⟩ := ih { h with proc := (A.makeTrajectory h.proc t0 tf dt mu).2 } hops'
        exact ⟨h1.trans ((class_inverse hA _).2 t0 tf dt mu), h2⟩
  have hgf : ∀ o : VarGP V W, (o.gradient sh x false).1 = o.gradBody sh x := fun o => rfl
  rw [hgf, hgf]
  unfold LiveVgp.now
  rw [key.2]
  have row : ∀ (M N : SdeModel V W) (o : VarGP V W), M.inverse_sigma = N.inverse_sigma →
      VarGP.gradBody sh { o with model := M } x = VarGP.gradBody sh { o with model := N } x := by
    intro M N o e
    unfold VarGP.gradBody
    have : ∀ c a b k, VarGP.gradRow sh { o with model := M } c a b k = VarGP.gradRow sh { o with model := N } c a b k := by
      intro c a b k
      unfold VarGP.gradRow
      simp only [e]
    simp only [funext (this _ _ _)]
  exact row (A.sde (runLive sh h ops).proc) (A.sde h.proc) h.vgp key.1

/-- The hypotheses of C158 are met by every generator and every Ornstein-Uhlenbeck process, over `[0, 1]` with step one half. -/
theorem live_ready (R : Rng G) (o₀ : OU G) (like : LikeIf ℝ ℝ) (kl0 : ℝ → ℝ → Py ℝ) (fwd bwd : OdeFrontEnd) :
    ∃ o h, (ouLive R).makeTrajectory o₀ 0 1 (1 / 2) 3 = (.ok (), o) ∧ LiveVgp.init (ouLive R) o 0 1 fwd bwd like kl0 [5] [1] = .ok h := by
  obtain ⟨x, he, -⟩ := ou_traj R o₀ (t0 := 0) (tf := 1) (dt := 1 / 2) 3 (by norm_num) (by norm_num)
  have hN : gridN 0 1 (1 / 2) = 2 := by
    have := gridN_exact (t0 := 0) (dt := 1 / 2) (by norm_num) 2
    rw [← this]
    norm_num
  rw [hN] at he
  generalize ho : ({ o₀ with base := { o₀.base with
      xt := some (List.ofFn fun i : Fin (2 + 1) => x i)
      tk := some (Spec.grid 0 (1 / 2) 2)
      rng := Spec.stateAfter R o₀.base.rng (2 + 1) } } : OU G) = o at he
  have h1 : ((ouLive R).sde o).time_step = .ok (1 / 2) := timeStep_grid o.base 0 (1 / 2) 2 (by norm_num) (by norm_num) (by rw [← ho])
  have h2 : ((ouLive R).sde o).sample_path = .ok (List.ofFn fun i : Fin (2 + 1) => x i) := by
    show o.base.samplePath = _
    rw [← ho]
    rfl
  refine ⟨o, ?h, he, ?_⟩
  case h => exact ⟨o, ⟨(ouLive R).sde o, fwd, bwd, like, kl0, [5], [1], 1 / 2, (List.ofFn fun i : Fin (2 + 1) => x i).length, 0, 1, none⟩⟩
  unfold LiveVgp.init VarGP.init
  rw [h1, h2]
  rfl

example (R : Rng G) (o₀ : OU G) (like : LikeIf ℝ ℝ) (kl0 : ℝ → ℝ → Py ℝ) (fwd bwd : OdeFrontEnd) :
    ∃ (h : LiveVgp (ouLive R)) (w : VarGP ℝ ℝ),
      VarGP.init ((ouLive R).sde (runLive shape1 h [.setSigma (2 : ℝ), .freeEnergy [1, 2, 3, 4, 5, 6], .setTheta (7 : ℝ), .makeTrajectory 0 1 (1 / 2) 8]).proc)
          0 1 fwd bwd like kl0 [5] [1] = .ok w := by
  obtain ⟨o, h, h1, h2⟩ := live_ready R o₀ like kl0 fwd bwd
  obtain ⟨w, hw, -⟩ := C158_as_new (.ornsteinUhlenbeck R) shape1 o₀ o 0 1 (1 / 2) 3 h1 0 1 fwd bwd like kl0 [5] [1] h h2
    [.setSigma (2 : ℝ), .freeEnergy [1, 2, 3, 4, 5, 6], .setTheta (7 : ℝ), .makeTrajectory 0 1 (1 / 2) 8] (by
      intro a b c d hm
      simp at hm
      exact ⟨hm.1, hm.2.1, hm.2.2.1.trans (by norm_num)⟩)
  exact ⟨h, w, hw⟩

end

end VGPA
