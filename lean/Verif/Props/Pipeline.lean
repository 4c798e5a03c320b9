import Verif.Props.VgpRun
import Verif.Props.Simulation
import Verif.Props.SaveLoad
import Verif.Props.OdeBasic

/-!
# C76, C84, C85: a whole `run()` with the modelled classes
-/

namespace VGPA

noncomputable section

variable {G : Type}

/-! ## What the pieces of a run look like -/

theorem dw_energy_sizes {o : DW G} {a b m s : List ℝ} {t : Option (List ℕ)} {e : Energy1}
    (h : o.energy a b m s t = .ok e) : a.length = m.length ∧ b.length = m.length := by
  by_contra hne
  have hne' : a.length ≠ m.length ∨ b.length ≠ m.length := by
    by_cases h1 : a.length = m.length
    · exact .inr fun h2 => hne ⟨h1, h2⟩
    · exact .inl h1
  unfold DW.energy at h
  simp only [py_bind_ok] at h
  obtain ⟨_, _, _, _, _, _, _, _, _, _, _, _, h⟩ := h
  rw [if_pos hne'] at h
  cases h

theorem ou_energy_sizes {o : OU G} {a b m s : List ℝ} {t : Option (List ℕ)} {e : Energy1}
    (h : o.energy a b m s t = .ok e) : a.length = m.length ∧ b.length = m.length := by
  by_contra hne
  have hne' : a.length ≠ m.length ∨ b.length ≠ m.length := by
    by_cases h1 : a.length = m.length
    · exact .inr fun h2 => hne ⟨h1, h2⟩
    · exact .inl h1
  unfold OU.energy at h
  simp only [py_bind_ok] at h
  obtain ⟨_, _, _, _, _, _, h⟩ := h
  rw [if_pos hne'] at h
  cases h

theorem solveFwd_sizes {V W : Type} [AddCommGroup V] [Module ℝ V] [AddCommGroup W] [Module ℝ W] {meth : Method} {F : Rhs V W}
    {dt : ℝ} {A : List W} {b : List V} {m0 : V} {s0 sigma : W} {mt : List V} {st : List W}
    (h : solveFwd meth F dt A b m0 s0 sigma = .ok (mt, st)) : 0 < b.length ∧ mt.length = b.length := by
  obtain ⟨h1, h2⟩ := C16_forward_shapes meth F dt A b m0 s0 sigma
  by_cases hc : 0 < b.length ∧ (b.length ≤ A.length ∨ (meth = .euler ∧ b.length ≤ A.length + 1) ∨ b.length = 1)
  · obtain ⟨mt', st', h', hl, _⟩ := h1 hc
    rw [h] at h'
    cases h'
    exact ⟨hc.1, hl⟩
  · have := h2 hc
    rw [h] at this
    simp at this

/-- A one dimensional vector at which the free energy exists consists of two blocks with `dim_n` entries. -/
theorem one_sizes {w : VarGP ℝ ℝ} (hsz : ∀ a b m s t e, w.model.energy a b m s t = .ok e → a.length = m.length ∧ b.length = m.length)
    {x : List ℝ} {F : ℝ} (h : ((AnyVgp.one w).freeEnergy x).1 = .ok F) :
    0 < w.dim_n ∧ (x.take w.dim_n).length = w.dim_n ∧ (x.drop w.dim_n).length = w.dim_n := by
  simp only [AnyVgp.freeEnergy, VarGP.freeEnergy] at h
  rcases he : w.eval shape1 x with e | ⟨F', c⟩
  · rw [he] at h; cases h
  · obtain ⟨a, b, e, dE, E0, Eobs, h1, h2, _, h4, _⟩ := eval_ok shape1 w x F' c he
    obtain ⟨hb, hmt⟩ := solveFwd_sizes h2
    obtain ⟨ha, hb'⟩ := hsz _ _ _ _ _ _ h4
    simp only [shape1, Nat.mul_one, Except.ok.injEq, Prod.mk.injEq] at h1
    obtain ⟨rfl, rfl⟩ := h1
    simp only [List.length_take, List.length_drop] at *
    omega

/-- A multivariate vector at which the free energy exists consists of two blocks with `dim_n * d * d` and `dim_n * d`
entries. -/
theorem many_sizes {d : ℕ} {w : VarGP (Fin d → ℝ) (Matrix (Fin d) (Fin d) ℝ)}
    {x : List ℝ} {F : ℝ} (h : ((AnyVgp.many d w).freeEnergy x).1 = .ok F) :
    (x.take (w.dim_n * d * d)).length = w.dim_n * d * d ∧ (x.drop (w.dim_n * d * d)).length = w.dim_n * d := by
  simp only [AnyVgp.freeEnergy, VarGP.freeEnergy] at h
  rcases he : w.eval (shapeN d) x with e | ⟨F', c⟩
  · rw [he] at h; cases h
  · obtain ⟨a, b, e, dE, E0, Eobs, h1, _⟩ := eval_ok (shapeN d) w x F' c he
    simp only [shapeN] at h1
    split at h1
    · cases h1
    · simp only [py_bind_ok] at h1
      obtain ⟨_, h2, _, h3, _⟩ := h1
      unfold reshape3 at h2
      unfold reshape2 at h3
      split at h2
      · split at h3
        · constructor <;> assumption
        · cases h3
      · cases h2

theorem many_pos {d : ℕ} {w : VarGP (Fin d → ℝ) (Matrix (Fin d) (Fin d) ℝ)} {x : List ℝ} {F : ℝ}
    (h : ((AnyVgp.many d w).freeEnergy x).1 = .ok F) : 0 < w.dim_n := by
  simp only [AnyVgp.freeEnergy, VarGP.freeEnergy] at h
  rcases he : w.eval (shapeN d) x with e | ⟨F', c⟩
  · rw [he] at h; cases h
  · obtain ⟨a, b, e, dE, E0, Eobs, h1, h2, _⟩ := eval_ok (shapeN d) w x F' c he
    obtain ⟨hb, _⟩ := solveFwd_sizes h2
    simp only [shapeN] at h1
    split at h1
    · cases h1
    · simp only [py_bind_ok] at h1
      obtain ⟨_, _, b', h3, h4⟩ := h1
      cases h4
      unfold reshape2 at h3
      split at h3
      · cases h3
        simpa using hb
      · cases h3

/-- `VarGP.init` reads the number of points from the path. -/
theorem vargp_init_ok {V W : Type} {model : SdeModel V W} {m0 : V} {s0 : W} {f b : OdeFrontEnd} {l : LikeIf V W}
    {kl : V → W → Py ℝ} {y : List V} {t : List ℕ} {w : VarGP V W} (h : VarGP.init model m0 s0 f b l kl y t = .ok w) :
    ∃ dt path, model.time_step = .ok dt ∧ model.sample_path = .ok path
      ∧ w = { model, fwd_ode := f, bwd_ode := b, likelihood := l, kl0 := kl, obs_y := y, obs_t := t, dt,
              dim_n := path.length, m0, s0, cache := none } := by
  unfold VarGP.init at h
  simp only [py_bind_ok] at h
  obtain ⟨dt, h1, path, h2, h3⟩ := h
  cases h3
  exact ⟨dt, path, h1, h2, rfl⟩

theorem mk1_ok {sde : SdeModel ℝ ℝ} {m0 s0 : Arr} {f b : OdeFrontEnd} {l : AnyLike} {k : AnyPrior} {y t : Arr} {v : AnyVgp}
    (h : AnyVgp.mk1 sde m0 s0 f b l k y t = .ok v) :
    ∃ w path, v = .one w ∧ w.model = sde ∧ sde.sample_path = .ok path ∧ w.dim_n = path.length := by
  unfold AnyVgp.mk1 at h
  split at h
  · simp only [py_bind_ok] at h
    obtain ⟨w, h1, h2⟩ := h
    obtain ⟨dt, path, _, h4, rfl⟩ := vargp_init_ok h1
    cases h2
    exact ⟨_, path, rfl, rfl, h4, rfl⟩
  · cases h

theorem mkN_ok {d : ℕ} {sde : SdeModel (Fin d → ℝ) (Matrix (Fin d) (Fin d) ℝ)} {m0 s0 : Arr} {f b : OdeFrontEnd} {l : AnyLike}
    {k : AnyPrior} {y t : Arr} {v : AnyVgp} (h : AnyVgp.mkN sde m0 s0 f b l k y t = .ok v) :
    ∃ w path, v = .many d w ∧ w.model = sde ∧ sde.sample_path = .ok path ∧ w.dim_n = path.length := by
  unfold AnyVgp.mkN at h
  split at h
  · split at h
    · simp only [py_bind_ok] at h
      obtain ⟨_, -, w, h1, h2⟩ := h
      obtain ⟨dt, path, _, h4, rfl⟩ := vargp_init_ok h1
      cases h2
      exact ⟨_, path, rfl, rfl, h4, rfl⟩
    · cases h
  · cases h

/-- The arrays `at`, `bt` of a path with `n` points, for a process with `d` components. -/
def Spec.TwoBlocks (d n : ℕ) (a b : NdArray) : Prop :=
  (if d = 1 then a.shape = [n] ∧ b.shape = [n] else a.shape = [n, d, d] ∧ b.shape = [n, d])
  ∧ a.data.length = n * d * d ∧ b.data.length = n * d

/-- The flag of a process object says whether it has one component. -/
def Spec.FlagFits (p : AnyProc G) : Prop := p.singleDim = decide (p.dim = 1)

theorem create_splits {p : AnyProc G} {m0 s0 : Arr} {f b : OdeFrontEnd} {l : AnyLike} {k : AnyPrior} {y t : Arr} {v : AnyVgp}
    (h : AnyVgp.create p m0 s0 f b l k y t = .ok v) {x : List ℝ} {F : ℝ} (hF : (v.freeEnergy x).1 = .ok F) :
    (∀ a, p.unpackA x = .ok a → ∃ b, p.unpackB x = .ok b)
    ∧ (∀ a b, p.unpackA x = .ok a → p.unpackB x = .ok b → a.data ++ b.data = x)
    ∧ (∀ a b, Spec.FlagFits p → p.unpackA x = .ok a → p.unpackB x = .ok b →
        ∃ n, 0 < n ∧ p.pathLength = .ok n ∧ Spec.TwoBlocks p.dim n a b) := by
  have hn : ∃ n, p.pathLength = .ok n ∧ (x.take (n * p.dim * p.dim)).length = n * p.dim * p.dim
      ∧ (x.drop (n * p.dim * p.dim)).length = n * p.dim ∧ 0 < n := by
    cases p with
    | dw o =>
      obtain ⟨w, path, rfl, hm, hp, hd⟩ := mk1_ok h
      refine ⟨path.length, ?_, ?_⟩
      · have : o.base.samplePath = .ok path := hp
        simp only [AnyProc.pathLength, this]; rfl
      · have := one_sizes (w := w) (fun a b m s t e he => by
          rw [hm] at he
          simp only [DW.sde, py_bind_ok] at he
          obtain ⟨e', he, _⟩ := he
          exact dw_energy_sizes he) hF
        rw [hd] at this
        simpa only [AnyProc.dim, Nat.mul_one, and_comm, and_assoc, and_left_comm] using this
    | ou o =>
      obtain ⟨w, path, rfl, hm, hp, hd⟩ := mk1_ok h
      refine ⟨path.length, ?_, ?_⟩
      · have : o.base.samplePath = .ok path := hp
        simp only [AnyProc.pathLength, this]; rfl
      · have := one_sizes (w := w) (fun a b m s t e he => by
          rw [hm] at he
          simp only [OU.sde, py_bind_ok] at he
          obtain ⟨e', he, _⟩ := he
          exact ou_energy_sizes he) hF
        rw [hd] at this
        simpa only [AnyProc.dim, Nat.mul_one, and_comm, and_assoc, and_left_comm] using this
    | l63 o =>
      obtain ⟨w, path, rfl, hm, hp, hd⟩ := mkN_ok h
      have := many_sizes hF
      rw [hd] at this
      refine ⟨path.length, ?_, this.1, this.2, ?_⟩
      · have : o.base.samplePath = .ok path := hp
        simp only [AnyProc.pathLength, this]; rfl
      · rw [← hd]
        exact many_pos hF
    | l96 o =>
      obtain ⟨w, path, rfl, hm, hp, hd⟩ := mkN_ok h
      have := many_sizes hF
      rw [hd] at this
      refine ⟨path.length, ?_, this.1, this.2, ?_⟩
      · have : o.base.samplePath = .ok path := hp
        simp only [AnyProc.pathLength, this]; rfl
      · rw [← hd]
        exact many_pos hF
  obtain ⟨n, hn, hA, hB, hpos⟩ := hn
  have take_drop : ∀ k, x.take k ++ x.drop k = x := fun k => List.take_append_drop k x
  refine ⟨fun a ha => ?_, fun a b ha hb => ?_, fun a b hf ha hb => ⟨n, hpos, hn, ?_⟩⟩
  · unfold AnyProc.unpackB
    simp only [hn, bind, Except.bind, hB, if_true]
    split
    · exact ⟨_, rfl⟩
    · exact ⟨_, rfl⟩
  · unfold AnyProc.unpackA at ha
    unfold AnyProc.unpackB at hb
    simp only [hn, bind, Except.bind, hA, hB, if_true] at ha hb
    by_cases hs : p.singleDim = true
    · rw [if_pos hs] at ha hb
      cases ha; cases hb
      exact take_drop _
    · rw [if_neg hs] at ha hb
      cases ha; cases hb
      exact take_drop _
  · unfold AnyProc.unpackA at ha
    unfold AnyProc.unpackB at hb
    simp only [hn, bind, Except.bind, hA, hB, if_true] at ha hb
    unfold Spec.FlagFits at hf
    unfold Spec.TwoBlocks
    by_cases hd : p.dim = 1
    · simp only [hd, decide_true] at hf
      rw [hf] at ha hb
      cases ha; cases hb
      rw [hd] at hA hB ⊢
      simp only [Nat.mul_one] at hA hB ⊢
      simp only [hA, hB, if_true, and_self]
    · simp only [hd, decide_false] at hf
      rw [hf] at ha hb
      cases ha; cases hb
      simp only [hd, if_false, hA, hB, and_self]

/-! ## What a run builds -/

/-- From the data `m` of a simulation, `run()` builds the variational object `v` of the process `p`, and starts the optimizer
at `x0`. -/
def Spec.Builds {M A F B L K Vg X : Type} (C : Classes M A F B L K Vg X) (m : MData M A) (p : M) (v : Vg) (x0 : X) : Prop :=
  ∃ tw dt ode one f b y t r os op lik mu0 tau0 k m0 s0,
    m.time_window = some tw ∧ tw.item "dt" = .ok dt ∧ m.ode_solver = some ode ∧ m.single_dim = some one
    ∧ C.fwd_ode dt ode one = .ok f ∧ C.bwd_ode dt ode one = .ok b
    ∧ m.obs_y = some y ∧ m.obs_t = some t ∧ m.obs_noise = some r ∧ m.obs_setup = some os ∧ os.item "operator" = .ok op
    ∧ C.likelihood y t r op one = .ok lik
    ∧ m.mu0 = some mu0 ∧ m.tau0 = some tau0 ∧ C.prior mu0 tau0 one = .ok k
    ∧ m.model = some p ∧ m.m0 = some m0 ∧ m.s0 = some s0
    ∧ C.var_gp p m0 s0 f b lik k y t = .ok v ∧ C.initialization v = .ok x0

theorem runBody_builds {M A F B L K Vg X : Type} {C : Classes M A F B L K Vg X} {m : MData M A} {p : M} {x : X} {fx : ℝ} {g' : Vg} :
    Sim.runBody C m = .ok (p, x, fx, g') ↔ ∃ v x0, Spec.Builds C m p v x0 ∧ C.optimize v x0 = (.ok (x, fx), g') := by
  rw [runBody_ok]
  constructor
  · rintro ⟨tw, dt, ode, one, f, b, y, t, r, os, op, lik, mu0, tau0, k, m0, s0, g, x0, h1, h2, h3, h4, h5, h8, h9, h10, h11, h12,
        h13, h15, h16, h17, h19, h20, h21, h22, h23, h24, ho⟩
    exact ⟨g, x0, ⟨tw, dt, ode, one, f, b, y, t, r, os, op, lik, mu0, tau0, k, m0, s0, h1, h2, h3, h4, h5, h8, h9, h10, h11, h12,
        h13, h15, h16, h17, h19, h20, h21, h22, h23, h24⟩, ho⟩
  · rintro ⟨g, x0, ⟨tw, dt, ode, one, f, b, y, t, r, os, op, lik, mu0, tau0, k, m0, s0, h1, h2, h3, h4, h5, h8, h9, h10, h11, h12,
        h13, h15, h16, h17, h19, h20, h21, h22, h23, h24⟩, ho⟩
    exact ⟨tw, dt, ode, one, f, b, y, t, r, os, op, lik, mu0, tau0, k, m0, s0, g, x0, h1, h2, h3, h4, h5, h8, h9, h10, h11, h12,
        h13, h15, h16, h17, h19, h20, h21, h22, h23, h24, ho⟩

theorem builds_create {E : Env G} {m : MData (AnyProc G) Arr} {p : AnyProc G} {v : AnyVgp} {x0 : List ℝ}
    (h : Spec.Builds (pyClasses E) m p v x0) : m.model = some p ∧
    ∃ m0 s0 f b l k y t, AnyVgp.create p m0 s0 f b l k y t = .ok v := by
  obtain ⟨tw, dt, ode, one, f, b, y, t, r, os, op, lik, mu0, tau0, k, m0, s0, h1, h2, h3, h4, h5, h8, h9, h10, h11, h12,
        h13, h15, h16, h17, h19, h20, h21, h22, h23, h24⟩ := h
  exact ⟨h20, _, _, _, _, _, _, _, _, h23⟩

/-- The modelled classes return vectors that split into the two blocks. -/
theorem py_splits (E : Env G) : Spec.Splits (pyClasses E) := by
  intro m p x fx g a hr ha
  obtain ⟨v, x0, hb, ho⟩ := runBody_builds.1 hr
  obtain ⟨_, m0, s0, f, b, l, k, y, t, hc⟩ := builds_create hb
  exact (create_splits hc (optimize_ok ho).2.1).1 a ha

/-- C76 for the modelled classes, second half: a `run()` that raises changes nothing. -/
theorem C76_failed_run_keeps_output_py (E : Env G) (s : Sim (AnyProc G) Arr) (e : PyErr)
    (h : (s.run (pyClasses E)).1 = .error e) : (s.run (pyClasses E)).2 = s :=
  C76_failed_run_keeps_output _ (py_splits E) s e h

theorem lookup_put {α : Type} (d : Dict α) (k k' : String) (v : α) :
    (d.put k v).lookup k' = if k' = k then some v else d.lookup k' := by
  induction d with
  | nil =>
    simp only [Dict.put, List.lookup]
    by_cases h : k' = k
    · simp [h]
    · simp [h, beq_eq_false_iff_ne.2 h]
  | cons q d ih =>
    obtain ⟨k1, w⟩ := q
    unfold Dict.put
    by_cases h1 : k1 = k
    · subst h1
      rw [if_pos rfl]
      by_cases h : k' = k1
      · simp [List.lookup, h]
      · simp [List.lookup, h, beq_eq_false_iff_ne.2 h]
    · rw [if_neg h1]
      by_cases h : k' = k1
      · subst h
        simp [List.lookup, h1]
      · simp only [List.lookup, beq_eq_false_iff_ne.2 h]
        exact ih

theorem lookup_update {α : Type} (d e : Dict α) (he : Spec.DistinctKeys e) (k : String) :
    (d.update e).lookup k = (e.lookup k).or (d.lookup k) := by
  induction e generalizing d with
  | nil => simp [Dict.update]
  | cons q e ih =>
    obtain ⟨k1, w⟩ := q
    unfold Spec.DistinctKeys at he ih
    simp only [List.map_cons, List.nodup_cons] at he
    show ((d.put k1 w).update e).lookup k = _
    rw [ih _ he.2, lookup_put]
    by_cases h : k = k1
    · subst h
      rw [lookup_none_iff_keys.2 he.1]
      simp [List.lookup]
    · simp [List.lookup, h, beq_eq_false_iff_ne.2 h]

theorem argOut_distinct (v : AnyVgp) : Spec.DistinctKeys v.argOut := by
  unfold Spec.DistinctKeys
  cases v with
  | one o =>
    simp only [AnyVgp.argOut]
    cases o.cache <;> simp
  | many d o =>
    simp only [AnyVgp.argOut]
    cases o.cache <;> simp

theorem argOut_none (v : AnyVgp) (k : String) (hk : k = "at" ∨ k = "bt" ∨ k = "fx") : v.argOut.lookup k = none := by
  rw [lookup_none_iff_keys]
  cases v with
  | one o =>
    simp only [AnyVgp.argOut]
    cases o.cache <;> rcases hk with rfl | rfl | rfl <;> simp
  | many d o =>
    simp only [AnyVgp.argOut]
    cases o.cache <;> rcases hk with rfl | rfl | rfl <;> simp

/-- C84: after a successful `run()`, the stored `fx` is the free energy of the stored arrays `at`, `bt` (laid out one
after the other), and is at most the free energy at the parameters that the optimizer started from. -/
theorem C84_reported_energy (E : Env G) (s : Sim (AnyProc G) Arr) (h : (s.run (pyClasses E)).1 = .ok ()) :
    ∃ p v x0 a b fx F0, Spec.Builds (pyClasses E) s.m_data p v x0
      ∧ (s.run (pyClasses E)).2.output.lookup "at" = some (.array a)
      ∧ (s.run (pyClasses E)).2.output.lookup "bt" = some (.array b)
      ∧ (s.run (pyClasses E)).2.output.lookup "fx" = some (.scalar fx)
      ∧ (v.freeEnergy (a.data ++ b.data)).1 = .ok fx
      ∧ (v.freeEnergy x0).1 = .ok F0 ∧ fx ≤ F0 := by
  obtain ⟨p, x, fx, g, a, b, hr, ha, hb, hout⟩ := run_ok_output _ s h
  replace hout : (s.run (pyClasses E)).2.output
      = (((s.output.put "at" (.array a)).put "bt" (.array b)).put "fx" (.scalar fx)).update g.argOut := by rw [hout]; rfl
  obtain ⟨v, x0, hbu, ho⟩ := runBody_builds.1 hr
  obtain ⟨_, m0, s0, f, b', l, k, y, t, hc⟩ := builds_create hbu
  obtain ⟨_, h1, ⟨F0, h2, h3⟩, _⟩ := optimize_ok ho
  have hx := (create_splits hc h1).2.1 a b ha hb
  refine ⟨p, v, x0, a, b, fx, F0, hbu, ?_, ?_, ?_, by rw [hx]; exact h1, h2, h3⟩
  all_goals
    rw [hout, lookup_update _ _ (argOut_distinct g), argOut_none g _ (by simp)]
    simp [lookup_put]

/-- The names of the arrays that describe the approximating process. -/
def Spec.momentNames : List String := ["m0", "s0", "mt", "st", "Efx", "Edf", "lamt", "psit"]

theorem argOut_fe {v v' : AnyVgp} {x : List ℝ} {F : ℝ} (h : v.freeEnergy x = (.ok F, v')) :
    v'.argOut.map Prod.fst = Spec.momentNames := by
  cases v with
  | one o =>
    simp only [AnyVgp.freeEnergy, VarGP.freeEnergy] at h
    rcases he : o.eval shape1 x with e | ⟨F', c⟩
    · rw [he] at h; cases h
    · rw [he] at h; cases h; rfl
  | many d o =>
    simp only [AnyVgp.freeEnergy, VarGP.freeEnergy] at h
    rcases he : o.eval (shapeN d) x with e | ⟨F', c⟩
    · rw [he] at h; cases h
    · rw [he] at h; cases h; rfl

/-- C85, as far as it holds: after a successful `run()` all moments and multipliers in the output are the ones that one
evaluation of the free energy at the stored `at`, `bt` gives. Missing: runs that use up all 500 iterations of the
optimizer; then they may be those of another vector `y` with a larger free energy, see `C85_stored_moments_violated`. -/
theorem C85_stored_moments_partial (E : Env G) (s : Sim (AnyProc G) Arr) (h : (s.run (pyClasses E)).1 = .ok ()) :
    ∃ p v x0 a b fx, Spec.Builds (pyClasses E) s.m_data p v x0
      ∧ (s.run (pyClasses E)).2.output.lookup "at" = some (.array a)
      ∧ (s.run (pyClasses E)).2.output.lookup "bt" = some (.array b)
      ∧ (v.freeEnergy (a.data ++ b.data)).1 = .ok fx
      ∧ ((∀ k ∈ Spec.momentNames, ∃ z, (s.run (pyClasses E)).2.output.lookup k = some z
              ∧ (v.freeEnergy (a.data ++ b.data)).2.argOut.lookup k = some z)
        ∨ Spec.UsesAllIterations v x0 ∧ ∃ y Fy, (v.freeEnergy y).1 = .ok Fy ∧ fx < Fy
          ∧ ∀ k ∈ Spec.momentNames, ∃ z, (s.run (pyClasses E)).2.output.lookup k = some z
              ∧ (v.freeEnergy y).2.argOut.lookup k = some z) := by
  obtain ⟨p, x, fx, g, a, b, hr, ha, hb, hout⟩ := run_ok_output _ s h
  replace hout : (s.run (pyClasses E)).2.output
      = (((s.output.put "at" (.array a)).put "bt" (.array b)).put "fx" (.scalar fx)).update g.argOut := by rw [hout]; rfl
  obtain ⟨v, x0, hbu, ho⟩ := runBody_builds.1 hr
  obtain ⟨_, m0, s0, f, b', l, k, y, t, hc⟩ := builds_create hbu
  obtain ⟨_, h1, _, h4⟩ := optimize_ok ho
  have hx := (create_splits hc h1).2.1 a b ha hb
  have look : ∀ x' F', v.freeEnergy x' = (.ok F', g) → ∀ k ∈ Spec.momentNames, ∃ z,
      (s.run (pyClasses E)).2.output.lookup k = some z ∧ (v.freeEnergy x').2.argOut.lookup k = some z := by
    intro x' F' hF' k hk
    rw [hF', hout, lookup_update _ _ (argOut_distinct g)]
    simp only
    rcases hz : g.argOut.lookup k with _ | z
    · rw [lookup_none_iff_keys, argOut_fe hF'] at hz
      exact absurd hk hz
    · exact ⟨z, by simp, rfl⟩
  refine ⟨p, v, x0, a, b, fx, hbu, ?_, ?_, by rw [hx]; exact h1, ?_⟩
  · rw [hout, lookup_update _ _ (argOut_distinct g), argOut_none g _ (by simp)]
    simp [lookup_put]
  · rw [hout, lookup_update _ _ (argOut_distinct g), argOut_none g _ (by simp)]
    simp [lookup_put]
  · rcases h4 with rfl | ⟨hL, y, Fy, hy, hlt⟩
    · refine .inl ?_
      rw [hx]
      exact look x fx (Prod.ext h1 rfl)
    · refine .inr ⟨hL, y, Fy, by rw [hy], hlt, look y Fy hy⟩

end

end VGPA
