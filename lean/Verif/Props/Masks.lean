import Verif.Props.RunTotal96

/-!
# C104: observing some of the components
-/

namespace VGPA

noncomputable section

open Matrix

variable {G : Type}

namespace Spec

/-- A mask in a parameter file: a list of truth values. -/
def maskOf (b : Fin 3 → Bool) : Json := .arr [.bool (b 0), .bool (b 1), .bool (b 2)]

/-- The selected components, in order. -/
def selected (b : Fin 3 → Bool) : List (Fin 3) := [0, 1, 2].filter b

/-- The JSON dictionary `params` has the entries of the configuration (and possibly others), the same variance `r` for all observations, and
the mask `b` as operator. -/
def Config3.InMasked (c : Config3) (r : ℝ) (b : Fin 3 → Bool) (params : Json) : Prop :=
  params.item "Model" = .ok (.str c.name)
  ∧ (∃ j, params.item "Drift" = .ok j ∧ j.item "theta" = .ok (list3 c.theta))
  ∧ (∃ j s, params.item "Noise" = .ok j ∧ j.item "sys" = .ok s ∧ j.item "obs" = .ok (.num r) ∧ CovarianceEntry s c.sys)
  ∧ (∃ j, params.item "Time-window" = .ok j ∧ j.item "t0" = .ok (.num c.t0) ∧ j.item "tf" = .ok (.num c.tf)
      ∧ j.item "dt" = .ok (.num c.dt))
  ∧ params.item "Ode-method" = .ok (.str c.method)
  ∧ params.item "Random-Seed" = .ok c.seed
  ∧ (∃ j, params.item "Observations" = .ok j ∧ j.item "density" = .ok (.num c.density) ∧ j.item "operator" = .ok (maskOf b))
  ∧ ∃ j m t, params.item "Prior" = .ok j ∧ j.item "mu0" = .ok m ∧ j.item "tau0" = .ok t ∧ MeanEntry m c.mu0 ∧ VarianceEntry t c.tau0

end Spec

theorem mask_json (b : Fin 3 → Bool) : (Spec.maskOf b).mask = .ok (some [b 0, b 1, b 2]) := rfl

theorem mask_arr (b : Fin 3 → Bool) :
    ∃ h : Fin 3 → ℝ, (Spec.maskOf b).ndArr = .ok (.vec 3 h) := ⟨_, rfl⟩

theorem observed_mask (b : Fin 3 → Bool) : (Spec.observed (some [b 0, b 1, b 2]) : List (Fin 3)) = Spec.selected b := by
  have key : ∀ p q r : Bool, (Spec.observed (some [p, q, r]) : List (Fin 3)) = Spec.selected ![p, q, r] := by decide
  rw [key]
  congr 1
  funext i
  fin_cases i <;> rfl

theorem collect_masked3 (E : Env G) {c : Spec.Config3} {N : ℕ} {x : ℕ → Fin 3 → ℝ} {g : G} {k : ℕ} {b : Proc G (Fin 3 → ℝ)}
    (hp : Ready3 E.R c N x g k b) (hdt : 0 < c.dt) (hN : 0 < N) (n : ℝ) (r : ℝ) (mask : Fin 3 → Bool)
    (h1 : (Spec.selected mask).length ≠ 1) (hn : n ≤ ⌊1 / c.dt⌋) (M : ℕ) (hM : Spec.numObs N c.dt n = M) (hpos : 0 < M) :
    ∃ b', AnyProc.collectObs E (proc3 c b) (.num n) (.num r) (Spec.maskOf mask)
        = (.ok (.times (List.ofFn fun i : Fin M => eqIdx N M i),
            .path (Spec.selected mask).length (List.ofFn fun (i : Fin M) (l : Fin (Spec.selected mask).length) =>
              x (eqIdx N M i) ((Spec.selected mask).get l) + Real.sqrt r * Spec.draw E.R g (k + (l * M + i))),
            .nd (.mat (Spec.selected mask).length (Spec.selected mask).length (Matrix.diagonal fun _ => r))), proc3 c b')
      ∧ Ready3 E.R c N x g (k + (Spec.selected mask).length * M) b' := by
  obtain ⟨hb, htk, hxt, hg⟩ := hp
  have he := collectObsN_grid E.R b c.t0 c.dt N x hN hdt htk hxt n (.scalar r) (some [mask 0, mask 1, mask 2]) ⟨rfl, by norm_num⟩ hn M hM hpos
  rw [observed_mask] at he
  have he := he h1 (Matrix.diagonal fun _ => r) rfl
  rw [hg] at he
  simp only [draw_add, stateAfter_add] at he
  have hj : Json.real (.num n) = .ok n := rfl
  have ha : Json.ndArr (.num r) = .ok (.scalar r) := rfl
  refine ⟨{ b with rng := Spec.stateAfter E.R g (k + (Spec.selected mask).length * M) }, ?_, hb, htk, hxt, rfl⟩
  simp only [AnyProc.collectObs, proc3, hj, ha, mask_json, py_ok_bind, pure, Except.pure, he, Except.map, AnyProc.obsN]
  refine congrArg₂ Prod.mk (congrArg Except.ok (congrArg₂ Prod.mk rfl (congrArg₂ Prod.mk ?_ rfl))) rfl
  congr 2
  funext i l
  rw [Matrix.diagonal_map Real.sqrt_zero]
  simp only [Pi.add_apply, Matrix.mulVec_diagonal]

/-- What `setup` leaves when a mask is given. -/
structure SetUpM3 (R : Rng G) (c : Spec.Config3) (r : ℝ) (mask : Fin 3 → Bool) (N M : ℕ) (x : ℕ → Fin 3 → ℝ) (g : G)
    (m : MData (AnyProc G) Arr) : Prop where
  tw : ∃ j, m.time_window = some j ∧ j.item "dt" = .ok (.num c.dt)
  ode : m.ode_solver = some (.str c.method)
  one : m.single_dim = some false
  times : m.obs_t = some (.times (List.ofFn fun i : Fin M => eqIdx N M i))
  obs : m.obs_y = some (.path (Spec.selected mask).length (List.ofFn fun (i : Fin M) (l : Fin (Spec.selected mask).length) =>
    x (eqIdx N M i) ((Spec.selected mask).get l) + Real.sqrt r * Spec.draw R g (3 * (N + 1) + (l * M + i))))
  noise : m.obs_noise = some (.nd (.mat (Spec.selected mask).length (Spec.selected mask).length (Matrix.diagonal fun _ => r)))
  op : ∃ j, m.obs_setup = some j ∧ j.item "operator" = .ok (Spec.maskOf mask)
  mu0 : m.mu0 = some (.arr (.nd (.vec 3 c.mu0)))
  tau0 : m.tau0 = some (.arr (.nd (.mat 3 3 (Matrix.diagonal c.tau0))))
  model : ∃ b, m.model = some (proc3 c b) ∧ Ready3 R c N x g (3 * (N + 1) + (Spec.selected mask).length * M + 3) b
  m0 : m.m0 = some (.nd (.vec 3 fun l => x 0 l + 0.1 * Spec.draw R g (3 * (N + 1) + (Spec.selected mask).length * M + l)))
  s0 : m.s0 = some (.nd (.mat 3 3 ((0.2 : ℝ) • 1)))

theorem setup_masked3 (E : Env G) {c : Spec.Config3} {r : ℝ} {mask : Fin 3 → Bool} {params : Json} (hin : c.InMasked r mask params) {N : ℕ}
    (hv : c.Valid N) (hk : (Spec.selected mask).length ≠ 1) (M : ℕ) (hM : Spec.numObs N c.dt c.density = M) (m : MData (AnyProc G) Arr) :
    ∃ m' x, Sim.setupBody (pyClasses E) params none m = (.ok (), m')
      ∧ SetUpM3 E.R c r mask N M x (Spec.startState E.R E.entropy c.seed) m'
      ∧ Spec.PathFrom3 E.R c N (Spec.startState E.R E.entropy c.seed) x (LorenzObj.noiseFactor c.sys c.dt) := by
  have hpos : 0 < M := by have := hv.some_obs; omega
  have hN : 0 < N := by have := hv.not_all; have := hv.some_obs; omega
  obtain ⟨hmod, ⟨jd, hd1, hd2⟩, ⟨jn, sj, hn1, hn2, hn3, hsj⟩, ⟨jt, ht1, ht2, ht3, ht4⟩, hode, hseed, ⟨jo, ho1, ho2, ho3⟩,
    jp, mj, tj, hp1, hp2, hp3, hmj, htj⟩ := hin
  obtain ⟨b, hc, hb, hb0⟩ := create_ready3 E hv hsj
  obtain ⟨b1, x, h1, r1, hpath⟩ := traj_ready3 E (c := c) hb hv.dt N
  rw [hb0] at hpath r1
  obtain ⟨b2, h2, r2⟩ := collect_masked3 E r1 hv.dt hN c.density r mask hk hv.density M hM hpos
  obtain ⟨b3, h3, r3⟩ := mean_ready3 E r2
  rw [← hv.tf] at h1
  let g := Spec.startState E.R E.entropy c.seed
  let m1 : MData (AnyProc G) Arr := { m with
    drift := some jd, noise := some jn, time_window := some jt, ode_solver := some (.str c.method), random_seed := some c.seed
    obs_setup := some jo, mu0 := some (.given mj), tau0 := some (.given tj), model := some (proc3 c b1)
    single_dim := some false }
  let m2 : MData (AnyProc G) Arr := { m1 with
    model := some (proc3 c b2), obs_t := some (.times (List.ofFn fun i : Fin M => eqIdx N M i))
    obs_y := some (.path (Spec.selected mask).length (List.ofFn fun (i : Fin M) (l : Fin (Spec.selected mask).length) =>
      x (eqIdx N M i) ((Spec.selected mask).get l) + Real.sqrt r * Spec.draw E.R g (3 * (N + 1) + (l * M + i))))
    obs_noise := some (.nd (.mat (Spec.selected mask).length (Spec.selected mask).length (Matrix.diagonal fun _ => r))) }
  let m3 : MData (AnyProc G) Arr := { m2 with
    model := some (proc3 c b3)
    m0 := some (.nd (.vec 3 fun l => x 0 l + 0.1 * Spec.draw E.R g (3 * (N + 1) + (Spec.selected mask).length * M + l)))
    s0 := some (.nd (.mat 3 3 ((0.2 : ℝ) • 1))), mu0 := some (.arr (.nd (.vec 3 c.mu0)))
    tau0 := some (.arr (.nd (.mat 3 3 (Matrix.diagonal c.tau0)))) }
  have e2 : Sim.setupObs (pyClasses E) none m1 = (.ok (), m2) := by
    unfold Sim.setupObs
    simp only
    rw [step_view (a := .num c.density) (by exact ho2), step_view (a := .num r) (by exact hn3),
      step_view (a := Spec.maskOf mask) (by exact ho3), step_model (p := proc3 c b1) (p' := proc3 c b2) (by rfl) (by exact h2)]
    rfl
  have e3 : Sim.setupMoments (pyClasses E) m2 = (.ok (), m3) := by
    unfold Sim.setupMoments
    rw [step_view (a := false) (by rfl), step_model (p := proc3 c b2) (p' := proc3 c b3) (by rfl) (by exact h3), step_write,
      step_view (a := .nd (.mat 3 3 ((0.2 : ℝ) • 1))) (by rfl), step_write, if_neg (by simp),
      step_view (a := .arr (.nd (.vec 3 c.mu0))) (by exact mu0_ready b3 hmj), step_write,
      step_view (a := .arr (.nd (.mat 3 3 (Matrix.diagonal c.tau0)))) (by exact tau0_ready b3 htj)]
    rfl
  refine ⟨m3, x, ?_, ⟨⟨jt, rfl, ht4⟩, rfl, rfl, rfl, rfl, rfl, ⟨jo, rfl, ho3⟩, rfl, rfl, ⟨b3, rfl, r3⟩, rfl, rfl⟩, hpath⟩
  have hone : (proc3 c b).singleDim = false := hb
  unfold Sim.setupBody
  rw [step_lift hd1, step_write, step_lift hn1, step_write, step_lift ht1, step_write, step_lift hode, step_write,
    step_lift hseed, step_write, step_lift ho1, step_write, step_lift (a := mj) (by rw [hp1]; exact hp2), step_write,
    step_lift (a := tj) (by rw [hp1]; exact hp3), step_write, step_view (a := sj) (by exact hn2),
    step_view (a := Spec.list3 c.theta) (by exact hd2), step_view (a := c.seed) (by rfl), step_lift hmod, step_lift hc, step_write, step_write,
    step_view (a := .num c.t0) (by exact ht2), step_view (a := .num c.tf) (by exact ht3), step_view (a := .num c.dt) (by exact ht4),
    step_model (p := proc3 c b) (p' := proc3 c b1) (a := ()) (by rfl) (by exact h1)]
  change (Sim.setupObs (pyClasses E) none >>= fun _ => Sim.setupMoments (pyClasses E))
    { m1 with single_dim := some (proc3 c b).singleDim } = _
  rw [hone]
  exact (ScgM.bind_step e2).trans e3

/-! ## `run` -/

/-- The number of selected components is not the number of components. -/
theorem run_partial_mask (E : Env G) {c : Spec.Config3} {r : ℝ} {mask : Fin 3 → Bool} {N : ℕ} (hv : c.Valid N) {M : ℕ}
    {x : ℕ → Fin 3 → ℝ} {g : G} {s : Sim (AnyProc G) Arr} (h : SetUpM3 E.R c r mask N M x g s.m_data) (hk : (Spec.selected mask).length ≠ 3) :
    s.run (pyClasses E) = (.error .valueError, s) := by
  obtain ⟨jt, ht1, ht2⟩ := h.tw
  obtain ⟨jo, ho1, ho2⟩ := h.op
  obtain ⟨meth, hmeth⟩ := hv.method
  have hf := ((C15_fwd_construction c.dt c.method).1 _).2 ⟨hv.dt, meth, hmeth, rfl⟩
  have hb := ((C15_bwd_construction c.dt c.method).1 _).2 ⟨hv.dt, meth, hmeth, rfl⟩
  obtain ⟨a, ha⟩ := mask_arr mask
  have hy := h.obs
  have hn := h.noise
  generalize hY : (List.ofFn fun (i : Fin M) (l : Fin (Spec.selected mask).length) =>
    x (eqIdx N M i) ((Spec.selected mask).get l) + Real.sqrt r * Spec.draw E.R g (3 * (N + 1) + (l * M + i))) = Y at hy
  have hlik : mkLike (.path (Spec.selected mask).length Y) (.times (List.ofFn fun i : Fin M => eqIdx N M i))
      (.nd (.mat (Spec.selected mask).length (Spec.selected mask).length (Matrix.diagonal fun _ => r))) (Spec.maskOf mask) false = .error .valueError := by
    have hop : operatorN (Spec.selected mask).length (Spec.maskOf mask) = .error .valueError := by
      have : operatorN (Spec.selected mask).length (Spec.maskOf mask) = (do
          match ← (Spec.maskOf mask).ndArr with
          | .scalar c => pure (.inl (some (c • 1)))
          | .vec n h => if e : n = (Spec.selected mask).length then pure (.inr fun i => h (Fin.cast e.symm i)) else .error .valueError
          | H => do pure (.inl (some (← squareOf _ H)))) := rfl
      rw [this, ha]
      simp only [py_ok_bind, dif_neg (Ne.symm hk)]
    simp only [mkLike, squareOf, and_self, dite_true, py_ok_bind, hop]
    rfl
  have hrun : Sim.runBody (pyClasses E) s.m_data = .error .valueError := by
    unfold Sim.runBody
    simp only [need, ht1, ht2, h.ode, h.one, hy, h.times, hn, ho1, ho2, py_ok_bind, pyClasses, mkFwd, mkBwd, Json.real, methodName, hf, hb, hlik]
    rfl
  unfold Sim.run
  rw [hrun]

/-- With a vector as operator the expected log likelihood exists only when there are as many observations as components. -/
theorem likeV_raises {d n k : ℕ} (R : Matrix (Fin d) (Fin d) ℝ) (hR : R.PosDef) (h : Fin d → ℝ) (y : Fin k → Fin d → ℝ) (t : Fin k → Fin n)
    (hk : k ≠ d) (m : Fin n → Fin d → ℝ) (s : List (Matrix (Fin d) (Fin d) ℝ)) :
    (⟨List.ofFn y, List.ofFn fun j => (t j : ℕ), R, h⟩ : LikeV d).gauss (List.ofFn m) s = .error .valueError := by
  obtain ⟨c, hc⟩ := cholInv_posDef hR
  unfold LikeV.gauss
  simp only [fancy_ofFn, bcast_ofFn, hc, py_ok_bind]
  rw [dif_neg]
  rw [List.length_map, List.length_ofFn]
  exact hk

/-- An evaluation whose likelihood raises. -/
theorem eval_like_raises {d n : ℕ} (hd : d ≠ 1) {o : VarGP (Fin d → ℝ) (Matrix (Fin d) (Fin d) ℝ)} (hn : 0 < n) (hdim : o.dim_n = n) {e : PyErr}
    (hl : ∀ (m : Fin n → Fin d → ℝ) s, o.likelihood.call (List.ofFn m) s = .error e) (x : List ℝ) (hx : x.length = n * d * (d + 1)) :
    o.eval (shapeN d) x = .error e := by
  obtain ⟨a, b, hu, -⟩ := (C58_unpack_pack_nd (n := n) hd x).1 hx
  obtain ⟨mt, st, h1, hm, -⟩ := (C16_forward_shapes o.fwd_ode.solver (rhsN d) o.fwd_ode.dt (List.ofFn a) (List.ofFn b)
    o.m0 o.s0 o.model.sigma).1 ⟨by rw [List.length_ofFn]; exact hn, Or.inl (by rw [List.length_ofFn, List.length_ofFn])⟩
  obtain ⟨m, rfl⟩ := list_eq_ofFn (hm.trans (List.length_ofFn))
  unfold VarGP.eval
  have hr : (shapeN d).rhs = rhsN d := rfl
  rw [hdim]
  simp only [hu, hr, h1, hl, bind, Except.bind]

/-- All components are selected, and there are not exactly three observations. -/
theorem run_full_mask (E : Env G) {c : Spec.Config3} {r : ℝ} (hr : 0 < r) {N : ℕ} (hv : c.Valid N) {M : ℕ}
    (hM : Spec.numObs N c.dt c.density = M) {x : ℕ → Fin 3 → ℝ} {g : G} {s : Sim (AnyProc G) Arr}
    (h : SetUpM3 E.R c r (fun _ => true) N M x g s.m_data) (hk : M ≠ 3) :
    s.run (pyClasses E) = (.error .valueError, s) := by
  have hpos : 0 < M := by have := hv.some_obs; omega
  have hlt : M < N := by have := hv.not_all; omega
  obtain ⟨jt, ht1, ht2⟩ := h.tw
  obtain ⟨jo, ho1, ho2⟩ := h.op
  obtain ⟨b, hp, hb1, htk, hxt, -⟩ := h.model
  obtain ⟨meth, hmeth⟩ := hv.method
  have hf := ((C15_fwd_construction c.dt c.method).1 _).2 ⟨hv.dt, meth, hmeth, rfl⟩
  have hb := ((C15_bwd_construction c.dt c.method).1 _).2 ⟨hv.dt, meth, hmeth, rfl⟩
  have hstep := timeStep_grid b c.t0 c.dt N (by omega) hv.dt htk
  obtain ⟨y, hy⟩ : ∃ y : Fin M → Fin 3 → ℝ, s.m_data.obs_y = some (.path 3 (List.ofFn y)) := ⟨_, h.obs⟩
  obtain ⟨m0, hm0⟩ : ∃ m0 : Fin 3 → ℝ, s.m_data.m0 = some (.nd (.vec 3 m0)) := ⟨_, h.m0⟩
  have hnoise : s.m_data.obs_noise = some (.nd (.mat 3 3 (Matrix.diagonal fun _ => r))) := h.noise
  have hR : (Matrix.diagonal fun _ : Fin 3 => r).PosDef := Matrix.PosDef.diagonal fun _ => hr
  obtain ⟨a, hlik⟩ : ∃ a : Fin 3 → ℝ, mkLike (.path 3 (List.ofFn y)) (.times (List.ofFn fun i : Fin M => eqIdx N M i))
      (.nd (.mat 3 3 (Matrix.diagonal fun _ => r))) (Spec.maskOf fun _ => true) false
        = .ok (.vecOp 3 ⟨List.ofFn y, List.ofFn fun i : Fin M => eqIdx N M i, Matrix.diagonal fun _ => r, a⟩) := ⟨_, rfl⟩
  let w : VarGP (Fin 3 → ℝ) (Matrix (Fin 3) (Fin 3) ℝ) :=
    { vgpOf3 (⟨b, c.sys, c.theta, c.sys⁻¹⟩ : L63 G) ⟨c.dt, c.method, meth⟩ ⟨c.dt, pyLower c.method, meth⟩ m0 ((0.2 : ℝ) • 1) c.dt
        (Matrix.diagonal fun _ => r) ⟨c.mu0, Matrix.diagonal c.tau0⟩ N M y with
      likelihood := (⟨List.ofFn y, List.ofFn fun i : Fin M => eqIdx N M i, Matrix.diagonal fun _ => r, a⟩ : LikeV 3).toIf }
  have hwin : (L63.sde (⟨b, c.sys, c.theta, c.sys⁻¹⟩ : L63 G)).time_window = .ok (Spec.grid c.t0 c.dt N) := by
    simp only [L63.sde, Proc.timeWindow, htk]
  obtain ⟨x0, hx0, hi⟩ : ∃ x0 : List ℝ, x0.length = (N + 1) * 3 * (3 + 1) ∧ w.initializationN (E.fitN 3) = .ok x0 := by
    obtain ⟨q, rfl⟩ : ∃ q, M = q + 1 := ⟨M - 1, by omega⟩
    have hd : Spec.HasData w (fun i : Fin (N + 1) => c.t0 + ((i : ℕ) : ℝ) * c.dt) (obsIdx N (q + 1) hlt) y :=
      ⟨by show (L63.sde _).time_window = _; rw [hwin]; rfl, rfl, grid_mono hv.dt N, rfl, rfl, obsIdx_mono hlt⟩
    obtain ⟨bb, h0, -⟩ := (initN_eq hd (E.fitN 3)).1 fun j =>
      ⟨Fin.lt_def.2 (eqIdx_inner hlt j).1, Fin.lt_def.2 (eqIdx_inner hlt j).2⟩
    exact ⟨_, (C58_pack_unpack_nd (by norm_num) _ bb).1, h0⟩
  have hev : ∀ x : List ℝ, x.length = (N + 1) * 3 * (3 + 1) → w.eval (shapeN 3) x = .error .valueError := by
    refine eval_like_raises (by norm_num) (Nat.succ_pos N) rfl fun m s => ?_
    exact likeV_raises _ hR a y (obsIdx N M hlt) hk m s
  have hopt : ∃ v', (AnyVgp.many 3 w).optimize x0 = (.error .valueError, v') := by
    rcases optimize_orN (w := w) (e := .valueError) x0 hx0 fun x => .inr (hev _ List.length_ofFn) with ⟨z, fx, v', ho, -⟩ | h
    · exfalso
      obtain ⟨-, -, ⟨F0, hF0, -⟩, -⟩ := optimize_ok ho
      simp only [AnyVgp.freeEnergy, VarGP.freeEnergy, hev x0 hx0] at hF0
      cases hF0
    · exact h
  obtain ⟨v', ho⟩ := hopt
  have hpri : mkPrior (.arr (.nd (.vec 3 c.mu0))) (.arr (.nd (.mat 3 3 (Matrix.diagonal c.tau0)))) false
      = .ok (.many 3 ⟨c.mu0, Matrix.diagonal c.tau0⟩) := rfl
  have hcr : AnyVgp.create (proc3 c b) (.nd (.vec 3 m0)) (.nd (.mat 3 3 ((0.2 : ℝ) • 1))) ⟨c.dt, c.method, meth⟩ ⟨c.dt, pyLower c.method, meth⟩
      (.vecOp 3 ⟨List.ofFn y, List.ofFn fun i : Fin M => eqIdx N M i, Matrix.diagonal fun _ => r, a⟩) (.many 3 ⟨c.mu0, Matrix.diagonal c.tau0⟩)
      (.path 3 (List.ofFn y)) (.times (List.ofFn fun i : Fin M => eqIdx N M i)) = .ok (.many 3 w) := by
    have hs1 : (L63.sde (⟨b, c.sys, c.theta, c.sys⁻¹⟩ : L63 G)).time_step = .ok c.dt := hstep
    have hs2 : (L63.sde (⟨b, c.sys, c.theta, c.sys⁻¹⟩ : L63 G)).sample_path = .ok (List.ofFn fun i : Fin (N + 1) => x i) := by
      simp only [L63.sde, Proc.samplePath, hxt]
    simp only [AnyVgp.create, proc3, AnyVgp.mkN, AnyVgp.likeIf, VarGP.init, hs1, hs2, py_ok_bind, and_self, dite_true, List.length_ofFn]
    rw [List.map_ofFn]
    rfl
  have hbld : Spec.Builds (pyClasses E) s.m_data (proc3 c b) (.many 3 w) x0 :=
    ⟨jt, .num c.dt, .str c.method, false, ⟨c.dt, c.method, meth⟩, ⟨c.dt, pyLower c.method, meth⟩, _, _, _, jo, Spec.maskOf fun _ => true,
      .vecOp 3 ⟨List.ofFn y, List.ofFn fun i : Fin M => eqIdx N M i, Matrix.diagonal fun _ => r, a⟩, _, _,
      .many 3 ⟨c.mu0, Matrix.diagonal c.tau0⟩, _, _, ht1, ht2, h.ode, h.one,
      hf, hb, hy, h.times, hnoise, ho1, ho2, hlik, h.mu0, h.tau0, hpri, hp, hm0, h.s0, hcr, hi⟩
  unfold Sim.run
  rw [runBody_error hbld ho]

theorem selected_all {mask : Fin 3 → Bool} (h : (Spec.selected mask).length = 3) : mask = fun _ => true := by
  have key : ∀ p q r : Bool, (Spec.selected ![p, q, r]).length = 3 → p = true ∧ q = true ∧ r = true := by decide
  have e : mask = ![mask 0, mask 1, mask 2] := by
    funext i
    fin_cases i <;> rfl
  rw [e] at h
  obtain ⟨h0, h1, h2⟩ := key _ _ _ h
  funext i
  fin_cases i
  · exact h0
  · exact h1
  · exact h2

/-! ## The theorems -/

/-- C104, what holds: with a mask that selects no, two or all components of a Lorenz-63 process, `setup(params)` succeeds for every valid configuration and
every history. It records the values of the path at equidistant times in the selected components, in their order, each with its own normal
error of the configured variance. Missing: that `run()` then completes, see `C104_run_violated`. -/
theorem C104_setup_partial (E : Env G) (c : Spec.Config3) (r : ℝ) (mask : Fin 3 → Bool) (params : Json) (hin : c.InMasked r mask params) (N : ℕ)
    (hv : c.Valid N) (hk : (Spec.selected mask).length ≠ 1) (s : Sim (AnyProc G) Arr) :
    ∃ (M : ℕ) (x : ℕ → Fin 3 → ℝ) (U : Matrix (Fin 3) (Fin 3) ℝ) (z : ℕ → ℝ) (b : Proc G (Fin 3 → ℝ)) (m : MData (AnyProc G) Arr),
      s.setup (pyClasses E) params none = (.ok (), { s with m_data := m })
      ∧ Spec.numObs N c.dt c.density = M
      ∧ z = Spec.draw E.R (Spec.startState E.R E.entropy c.seed)
      ∧ Uᵀ * U = c.dt • c.sys
      ∧ Spec.PathFrom3 E.R c N (Spec.startState E.R E.entropy c.seed) x U
      ∧ m.model = some (.l63 ⟨b, c.sys, c.theta, c.sys⁻¹⟩)
      ∧ b.samplePath = .ok (List.ofFn fun i : Fin (N + 1) => x i)
      ∧ m.obs_t = some (.times (List.ofFn fun i : Fin M => (i + 1) * (N + 1) / (M + 1)))
      ∧ m.obs_y = some (.path (Spec.selected mask).length (List.ofFn fun (i : Fin M) (l : Fin (Spec.selected mask).length) =>
          x ((i + 1) * (N + 1) / (M + 1)) ((Spec.selected mask).get l) + Real.sqrt r * z (3 * (N + 1) + (l * M + i))))
      ∧ m.obs_noise = some (.nd (.mat (Spec.selected mask).length (Spec.selected mask).length (Matrix.diagonal fun _ => r))) := by
  obtain ⟨M, hM⟩ := Int.eq_ofNat_of_zero_le (a := Spec.numObs N c.dt c.density) (by have := hv.some_obs; omega)
  obtain ⟨m', x, h1, h2, h3⟩ := setup_masked3 E hin hv hk M hM s.m_data
  obtain ⟨b, hp, hb, htk, hxt, -⟩ := h2.model
  obtain ⟨hU1, -⟩ := noiseFactor_posDef c.sys c.dt hv.sys hv.dt
  exact ⟨M, x, _, _, b, m', by unfold Sim.setup; rw [h1], hM, rfl, hU1, h3, hp, by simp only [Proc.samplePath, hxt], h2.times, h2.obs, h2.noise⟩

/-- C104, the negation: with a mask that selects no, two or all components (in the last case unless there are exactly three
observations), for every valid configuration and every history, `setup(params)` succeeds and the `run()` that follows raises `ValueError`. -/
theorem C104_run_violated (E : Env G) (c : Spec.Config3) (r : ℝ) (mask : Fin 3 → Bool) (params : Json) (hin : c.InMasked r mask params) (N : ℕ)
    (hv : c.Valid N) (hr : 0 < r) (hk : (Spec.selected mask).length ≠ 1)
    (h3 : (Spec.selected mask).length ≠ 3 ∨ Spec.numObs N c.dt c.density ≠ 3) (s : Sim (AnyProc G) Arr) :
    (s.setup (pyClasses E) params none).1 = .ok ()
    ∧ (s.setup (pyClasses E) params none).2.run (pyClasses E) = (.error .valueError, (s.setup (pyClasses E) params none).2) := by
  obtain ⟨M, hM⟩ := Int.eq_ofNat_of_zero_le (a := Spec.numObs N c.dt c.density) (by have := hv.some_obs; omega)
  obtain ⟨m', x, h1, h2, -⟩ := setup_masked3 E hin hv hk M hM s.m_data
  unfold Sim.setup
  rw [h1]
  refine ⟨rfl, ?_⟩
  by_cases hl : (Spec.selected mask).length = 3
  · have hM3 : M ≠ 3 := by
      rintro rfl
      rcases h3 with h | h
      · exact h hl
      · exact h (by rw [hM]; rfl)
    obtain rfl := selected_all hl
    exact run_full_mask E hr hv hM (s := { s with m_data := m' }) h2 hM3
  · exact run_partial_mask E hv (s := { s with m_data := m' }) h2 hl

/-- C104, the negation for one component: with a mask that selects one component and two or more observations, `setup(params)` raises `ValueError`
for every valid configuration and every history. -/
theorem C104_setup_violated (E : Env G) (c : Spec.Config3) (r : ℝ) (mask : Fin 3 → Bool) (params : Json) (hin : c.InMasked r mask params) (N : ℕ)
    (hv : c.Valid N) (hk : (Spec.selected mask).length = 1) (h2 : 2 ≤ Spec.numObs N c.dt c.density) (s : Sim (AnyProc G) Arr) :
    (s.setup (pyClasses E) params none).1 = .error .valueError := by
  obtain ⟨M, hM⟩ := Int.eq_ofNat_of_zero_le (a := Spec.numObs N c.dt c.density) (by have := hv.some_obs; omega)
  have hN : 0 < N := by have := hv.not_all; have := hv.some_obs; omega
  obtain ⟨hmod, ⟨jd, hd1, hd2⟩, ⟨jn, sj, hn1, hn2, hn3, hsj⟩, ⟨jt, ht1, ht2, ht3, ht4⟩, hode, hseed, ⟨jo, ho1, ho2, ho3⟩,
    jp, mj, tj, hp1, hp2, hp3, hmj, htj⟩ := hin
  obtain ⟨b, hc, hb, hb0⟩ := create_ready3 E hv hsj
  obtain ⟨b1, x, h1, ⟨hb1, htk, hxt, -⟩, hpath⟩ := traj_ready3 E (c := c) hb hv.dt N
  have he := C39_single_component_violated E.R b1 c.t0 c.dt N x hN hv.dt htk hxt c.density (.scalar r) (some [mask 0, mask 1, mask 2])
    ⟨rfl, by norm_num⟩ hv.density M hM (by omega) (by rw [observed_mask]; exact hk)
  have hcol : (AnyProc.collectObs E (proc3 c b1) (.num c.density) (.num r) (Spec.maskOf mask)).1 = .error .valueError := by
    have hj : Json.real (.num c.density) = .ok c.density := rfl
    have ha : Json.ndArr (.num r) = .ok (.scalar r) := rfl
    simp only [AnyProc.collectObs, proc3, hj, ha, mask_json, py_ok_bind, pure, Except.pure]
    rw [he]
    rfl
  rw [← hv.tf] at h1
  unfold Sim.setup
  show (Sim.setupBody (pyClasses E) params none s.m_data).1 = _
  unfold Sim.setupBody
  rw [step_lift hd1, step_write, step_lift hn1, step_write, step_lift ht1, step_write, step_lift hode, step_write,
    step_lift hseed, step_write, step_lift ho1, step_write, step_lift (a := mj) (by rw [hp1]; exact hp2), step_write,
    step_lift (a := tj) (by rw [hp1]; exact hp3), step_write, step_view (a := sj) (by exact hn2),
    step_view (a := Spec.list3 c.theta) (by exact hd2), step_view (a := c.seed) (by rfl), step_lift hmod, step_lift hc, step_write, step_write,
    step_view (a := .num c.t0) (by exact ht2), step_view (a := .num c.tf) (by exact ht3), step_view (a := .num c.dt) (by exact ht4),
    step_model (p := proc3 c b) (p' := proc3 c b1) (a := ()) (by rfl) (by exact h1)]
  refine ScgM.bind_err ?_
  unfold Sim.setupObs
  simp only
  rw [step_view (a := .num c.density) (by exact ho2), step_view (a := .num r) (by exact hn3),
    step_view (a := Spec.maskOf mask) (by exact ho3)]
  refine ScgM.bind_err ?_
  simp only [Sim.onModel]
  exact hcol

/-! ## The hypotheses can be met -/

/-- `/repo/sim_params_L3D.json`, with the system noise as a list of three variances and a mask. -/
def Spec.maskedParams3 (b : Fin 3 → Bool) : Json :=
  .obj [("Output_Name", .str "Sim_L3D"), ("Model", .str "L63"), ("Ode-method", .str "Heun"), ("Random-Seed", .num 31415926535),
    ("Time-window", .obj [("t0", .num 0), ("tf", .num 20), ("dt", .num 0.01)]),
    ("Noise", .obj [("sys", .arr [.num 10, .num 10, .num 10]), ("obs", .num 2)]),
    ("Observations", .obj [("density", .num 5), ("operator", Spec.maskOf b)]),
    ("Drift", .obj [("theta", .arr [.num 10, .num 28, .num 2.667])]),
    ("Prior", .obj [("tau0", .num 0.5), ("mu0", .num 1)])]

theorem masked_in3 (b : Fin 3 → Bool) : Spec.exampleConfig3.InMasked 2 b (Spec.maskedParams3 b) :=
  ⟨rfl, ⟨_, rfl, rfl⟩, ⟨_, _, rfl, rfl, rfl, .variances ![10, 10, 10]⟩, ⟨_, rfl, rfl, rfl, rfl⟩, rfl, rfl, ⟨_, rfl, rfl, rfl⟩, _, _, _,
    rfl, rfl, rfl, .number _, .number _⟩

/-- Two components, all of them, and one. -/
example (E : Env G) (s : Sim (AnyProc G) Arr) :=
  C104_run_violated E _ 2 ![true, false, true] _ (masked_in3 _) 2000 example_valid3 (by norm_num) (by decide) (.inl (by decide)) s

example (E : Env G) (s : Sim (AnyProc G) Arr) :=
  C104_run_violated E _ 2 (fun _ => true) _ (masked_in3 _) 2000 example_valid3 (by norm_num) (by decide)
    (.inr (by norm_num [Spec.exampleConfig3, Spec.numObs])) s

example (E : Env G) (s : Sim (AnyProc G) Arr) :=
  C104_setup_partial E _ 2 ![true, false, true] _ (masked_in3 _) 2000 example_valid3 (by decide) s

example (E : Env G) (s : Sim (AnyProc G) Arr) :=
  C104_setup_violated E _ 2 ![true, false, false] _ (masked_in3 _) 2000 example_valid3 (by decide)
    (by norm_num [Spec.exampleConfig3, Spec.numObs]) s

/-- C54, a number as operator: the likelihood that `run()` builds from a parameter file whose observation operator is the number `c` observes `c` times the state: its value and its
gradients are those with the operator `c` times the identity. -/
theorem C54_number_operator {d : ℕ} (y : List (Fin d → ℝ)) (t : List ℕ) (R : Matrix (Fin d) (Fin d) ℝ) (c : ℝ) :
    ∃ o, mkLike (.path d y) (.times t) (.nd (.mat d d R)) (.num c) false = .ok (.many d o)
      ∧ o.obs_v = y ∧ o.obs_t = t ∧ o.obs_n = R ∧ ∀ x : Fin d → ℝ, x ᵥ* o.obs_h = c • x := by
  refine ⟨⟨y, t, R, c • 1⟩, ?_, rfl, rfl, rfl, fun x => ?_⟩
  · have hs : squareOf d (.mat d d R) = .ok R := by
      simp only [squareOf, and_self, dite_true, Fin.cast_refl]
      rfl
    unfold mkLike
    simp only [hs]
    rfl
  · simp [Matrix.vecMul_smul]

/-- C51, a number as operator in one dimension: the likelihood that `run()` builds from a parameter file whose observation operator is the number `c` has that operator, and the observations and the noise of `setup()`. With no
operator in the file it is one, as soon as there is an observation. -/
theorem C51_number_operator (y : List ℝ) (t : List ℕ) (r c : ℝ) :
    mkLike (.series y) (.times t) (.nd (.scalar r)) (.num c) true = .ok (.one ⟨y, t, r, c⟩)
      ∧ (y ≠ [] → mkLike (.series y) (.times t) (.nd (.scalar r)) .null true = .ok (.one ⟨y, t, r, 1⟩)) := by
  refine ⟨rfl, fun hy => ?_⟩
  obtain ⟨a, l, rfl⟩ := List.exists_cons_of_ne_nil hy
  rfl

example : mkLike (.series [1, 2]) (.times [3, 5]) (.nd (.scalar 4)) (.num 2) true = .ok (.one ⟨[1, 2], [3, 5], 4, 2⟩) := (C51_number_operator [1, 2] [3, 5] 4 2).1

/-- C54, a matrix as operator: the likelihood that `run()` builds from a parameter file whose observation operator is the square matrix `H`, written as a list of rows, has that operator. -/
theorem C54_matrix_operator {d : ℕ} (y : List (Fin (d + 1) → ℝ)) (t : List ℕ) (R H : Matrix (Fin (d + 1)) (Fin (d + 1)) ℝ) :
    mkLike (.path (d + 1) y) (.times t) (.nd (.mat (d + 1) (d + 1) R)) (Spec.rowsOf H) false = .ok (.many (d + 1) ⟨y, t, R, H⟩) := by
  have hs : ∀ M : Matrix (Fin (d + 1)) (Fin (d + 1)) ℝ, squareOf (d + 1) (.mat (d + 1) (d + 1) M) = .ok M := fun M => by
    simp only [squareOf, and_self, dite_true, Fin.cast_refl]
    rfl
  have ho : operatorN (d + 1) (Spec.rowsOf H) = .ok (.inl (some H)) := by
    have h1 : operatorN (d + 1) (Spec.rowsOf H) = (do
        match ← (Spec.rowsOf H).ndArr with
        | .scalar c => pure (.inl (some (c • 1)))
        | .vec n h => if e : n = d + 1 then pure (.inr fun i => h (Fin.cast e.symm i)) else .error .valueError
        | H => do pure (.inl (some (← squareOf (d + 1) H)))) := rfl
    rw [h1, rows40_ndArr, py_ok_bind]
    simp only [hs]
    rfl
  unfold mkLike
  simp only [hs, ho]
  rfl

end

end VGPA
