import Verif.Model.Api
import Verif.Lemmas.Sweep
import Mathlib.Tactic.NormNum
import Mathlib.Tactic.SplitIfs

/-!
# C29, C35, C36: histories of calls on the process objects
-/

namespace VGPA

variable {G : Type}

/-! ## Frame facts -/

theorem dw_traj_frame (R : Rng G) (o : DW G) (t0 tf dt : ℝ) :
    (DW.makeTrajectory R o t0 tf dt).2.sigma = o.sigma ∧ (DW.makeTrajectory R o t0 tf dt).2.sig_inv = o.sig_inv
      ∧ (DW.makeTrajectory R o t0 tf dt).2.theta = o.theta := by
  unfold DW.makeTrajectory
  split
  · simp
  · dsimp only
    split
    · simp
    · split <;> simp

theorem ou_traj_frame (R : Rng G) (o : OU G) (t0 tf dt mu : ℝ) :
    (OU.makeTrajectory R o t0 tf dt mu).2.sigma = o.sigma ∧ (OU.makeTrajectory R o t0 tf dt mu).2.sig_inv = o.sig_inv
      ∧ (OU.makeTrajectory R o t0 tf dt mu).2.theta = o.theta := by
  unfold OU.makeTrajectory
  split
  · simp
  · dsimp only
    split
    · simp
    · split <;> simp

/-! ## C29 -/

/-- An invariant kept by every call holds after every history. -/
theorem runOps_inv {A : ProcApi G} (P : A.Obj → Prop) (h : ∀ o (op : Op A), P o → P (op.run o).2) :
    ∀ (ops : List (Op A)) (o : A.Obj), P o → P (runOps o ops).2
  | [], _, ho => ho
  | op :: ops, o, ho => runOps_inv P h ops _ (h o op ho)

/-- C29: after construction and any history of calls, a `DoubleWell` object has a positive noise and the inverse that
belongs to it. -/
theorem C29_dw_history (R : Rng G) (g : G) (sigma theta : ℝ) (seed : Option ℤ) (o : DW G)
    (h : DW.init R g sigma theta seed = .ok o) (ops : List (Op (api R .doubleWell))) (o' : DW G)
    (ho' : (runOps (A := api R .doubleWell) o ops).2 = o') :
    0 < o'.sigma ∧ o'.sig_inv * o'.sigma = 1 := by
  subst ho'
  refine runOps_inv (A := api R .doubleWell) (fun o : DW G => 0 < o.sigma ∧ o.sig_inv * o.sigma = 1) ?_ ops o ?_
  · intro o op ho
    cases op with
    | setSigma v =>
      change DW G at o
      change ℝ at v
      show 0 < (DW.setSigma o v).2.sigma ∧ (DW.setSigma o v).2.sig_inv * (DW.setSigma o v).2.sigma = 1
      unfold DW.setSigma
      split_ifs with hv
      · exact ho
      · have : 0 < v := by norm_num at hv; exact hv
        exact ⟨this, by norm_num [this.ne']⟩
    | makeTrajectory t0 tf dt mu =>
      obtain ⟨h1, h2, -⟩ := dw_traj_frame R o t0 tf dt
      show 0 < (DW.makeTrajectory R o t0 tf dt).2.sigma
        ∧ (DW.makeTrajectory R o t0 tf dt).2.sig_inv * (DW.makeTrajectory R o t0 tf dt).2.sigma = 1
      rw [h1, h2]; exact ho
    | setTheta v => exact ho
    | setPath v => exact ho
    | setWindow v => exact ho
    | collectObs n rn mask => exact ho
    | samplePath => exact ho
    | timeWindow => exact ho
    | timeStep => exact ho
  · unfold DW.init at h
    cases hb : (Proc.init R g seed true : Py (Proc G ℝ)) with
    | error e => simp [hb] at h
    | ok b =>
      simp only [hb, py_ok_bind] at h
      split_ifs at h with hs
      simp only [py_pure, Except.ok.injEq] at h
      subst h
      have : 0 < sigma := by norm_num at hs; exact hs
      exact ⟨this, by norm_num [this.ne']⟩

/-- C29: the same for `OrnsteinUhlenbeck`, whose drift parameter also stays positive. -/
theorem C29_ou_history (R : Rng G) (g : G) (sigma theta : ℝ) (seed : Option ℤ) (o : OU G)
    (h : OU.init R g sigma theta seed = .ok o) (ops : List (Op (api R .ornsteinUhlenbeck))) (o' : OU G)
    (ho' : (runOps (A := api R .ornsteinUhlenbeck) o ops).2 = o') :
    0 < o'.sigma ∧ o'.sig_inv * o'.sigma = 1 ∧ 0 < o'.theta := by
  subst ho'
  refine runOps_inv (A := api R .ornsteinUhlenbeck)
    (fun o : OU G => 0 < o.sigma ∧ o.sig_inv * o.sigma = 1 ∧ 0 < o.theta) ?_ ops o ?_
  · intro o op ho
    cases op with
    | setSigma v =>
      change OU G at o
      change ℝ at v
      show 0 < (OU.setSigma o v).2.sigma ∧ (OU.setSigma o v).2.sig_inv * (OU.setSigma o v).2.sigma = 1
        ∧ 0 < (OU.setSigma o v).2.theta
      unfold OU.setSigma
      split_ifs with hv
      · exact ho
      · have : 0 < v := by norm_num at hv; exact hv
        exact ⟨this, by norm_num [this.ne'], ho.2.2⟩
    | setTheta v =>
      change OU G at o
      change ℝ at v
      show 0 < (OU.setTheta o v).2.sigma ∧ (OU.setTheta o v).2.sig_inv * (OU.setTheta o v).2.sigma = 1
        ∧ 0 < (OU.setTheta o v).2.theta
      unfold OU.setTheta
      split_ifs with hv
      · exact ho
      · have : 0 < v := by norm_num at hv; exact hv
        exact ⟨ho.1, ho.2.1, this⟩
    | makeTrajectory t0 tf dt mu =>
      obtain ⟨h1, h2, h3⟩ := ou_traj_frame R o t0 tf dt mu
      show 0 < (OU.makeTrajectory R o t0 tf dt mu).2.sigma
        ∧ (OU.makeTrajectory R o t0 tf dt mu).2.sig_inv * (OU.makeTrajectory R o t0 tf dt mu).2.sigma = 1
        ∧ 0 < (OU.makeTrajectory R o t0 tf dt mu).2.theta
      rw [h1, h2, h3]; exact ho
    | setPath v => exact ho
    | setWindow v => exact ho
    | collectObs n rn mask => exact ho
    | samplePath => exact ho
    | timeWindow => exact ho
    | timeStep => exact ho
  · unfold OU.init at h
    cases hb : (Proc.init R g seed true : Py (Proc G ℝ)) with
    | error e => simp [hb] at h
    | ok b =>
      simp only [hb, py_ok_bind] at h
      split_ifs at h with hs ht
      simp only [py_pure, Except.ok.injEq] at h
      subst h
      have h1 : 0 < sigma := by norm_num at hs; exact hs
      have h2 : 0 < theta := by norm_num at ht; exact ht
      exact ⟨h1, by norm_num [h1.ne'], h2⟩

/-- C29: an assignment raises `ValueError` exactly when the value is not strictly positive, and then changes
nothing; otherwise the new value is stored. -/
theorem C29_assignments (o : DW G) (p : OU G) (v : ℝ) :
    ((o.setSigma v).1 = .error .valueError ↔ v ≤ 0) ∧ (v ≤ 0 → (o.setSigma v).2 = o)
      ∧ (0 < v → (o.setSigma v).1 = .ok () ∧ (o.setSigma v).2.sigma = v)
    ∧ ((p.setSigma v).1 = .error .valueError ↔ v ≤ 0) ∧ (v ≤ 0 → (p.setSigma v).2 = p)
      ∧ (0 < v → (p.setSigma v).1 = .ok () ∧ (p.setSigma v).2.sigma = v)
    ∧ ((p.setTheta v).1 = .error .valueError ↔ v ≤ 0) ∧ (v ≤ 0 → (p.setTheta v).2 = p)
      ∧ (0 < v → (p.setTheta v).1 = .ok () ∧ (p.setTheta v).2.theta = v)
    ∧ (o.setTheta v).1 = .ok () ∧ (o.setTheta v).2.theta = v := by
  have e : (v ≤ 0.0) ↔ v ≤ 0 := by norm_num
  unfold DW.setSigma OU.setSigma OU.setTheta DW.setTheta
  by_cases h : v ≤ 0
  · have h' : ¬ 0 < v := not_lt.2 h
    simp [e, h, h']
  · have h' : 0 < v := not_le.1 h
    simp [e, h, h']

/-- C29: construction succeeds exactly with strictly positive arguments (and a seed that numpy accepts). -/
theorem C29_construction (R : Rng G) (g : G) (sigma theta : ℝ) (seed : Option ℤ) :
    ((∃ o, DW.init R g sigma theta seed = .ok o) ↔ 0 < sigma ∧ ∀ s, seed = some s → 0 ≤ s)
    ∧ ((∃ o, OU.init R g sigma theta seed = .ok o) ↔ 0 < sigma ∧ 0 < theta ∧ ∀ s, seed = some s → 0 ≤ s) := by
  have hb : ∀ b : Bool, (∃ p, (Proc.init R g seed b : Py (Proc G ℝ)) = .ok p) ↔ ∀ s, seed = some s → 0 ≤ s := by
    intro b
    cases seed with
    | none => simp [Proc.init]
    | some s =>
      unfold Proc.init
      dsimp only
      split_ifs with h1 h2
      · simp [h1]
      · simp; omega
      · simp; omega
  have e : ∀ x : ℝ, (x ≤ 0.0) ↔ ¬ 0 < x := by intro x; norm_num
  constructor
  · rw [← hb true]
    unfold DW.init
    cases h : (Proc.init R g seed true : Py (Proc G ℝ)) with
    | error e => simp
    | ok b =>
      simp only [py_ok_bind, e]
      by_cases hs : 0 < sigma <;> simp [hs]
  · rw [← hb true]
    unfold OU.init
    cases h : (Proc.init R g seed true : Py (Proc G ℝ)) with
    | error e => simp
    | ok b =>
      simp only [py_ok_bind, e]
      by_cases hs : 0 < sigma <;> by_cases ht : 0 < theta <;> simp [hs, ht]

/-- Non-vacuity of C29: a constructed object and a history with a rejected and an accepted assignment. -/
example (R : Rng G) (g : G) : ∃ o, OU.init R g 2 1 none = .ok o
    ∧ (runOps (A := api R .ornsteinUhlenbeck) o [.setSigma (-1 : ℝ), .setSigma (4 : ℝ)]).1
      = [(.setSigma (-1 : ℝ), .error .valueError), (.setSigma (4 : ℝ), .ok .unit)] := by
  refine ⟨⟨⟨none, none, g, true⟩, 2, 1, 1.0 / 2⟩, by norm_num [OU.init, Proc.init], ?_⟩
  simp only [runOps, Op.run, api, OU.setSigma]
  norm_num [Except.map]

/-! ## C35 -/

theorem proc_init_seed {X : Type} (R : Rng G) (g g' : G) (s : ℤ) (hs : s ≠ 0) (b : Bool) :
    (Proc.init R g (some s) b : Py (Proc G X)) = Proc.init R g' (some s) b := by
  simp [Proc.init, hs]

/-- C35 (partial): with a given integer seed other than zero, two objects of the same class with the same parameters
are indistinguishable: construction gives the same result and every sequence of calls gives the same results,
whatever the entropy of the operating system. Missing: the seed zero, for which it fails, see
`C35_seed_zero_violated`. -/
theorem C35_reproducible_partial (R : Rng G) (k : Kind) (g g' : G) (sigma : (api R k).Sig) (theta : (api R k).Th)
    (s : ℤ) (hs : s ≠ 0) :
    (api R k).create g sigma theta (some s) = (api R k).create g' sigma theta (some s)
    ∧ ∀ o o', (api R k).create g sigma theta (some s) = .ok o → (api R k).create g' sigma theta (some s) = .ok o' →
        ∀ ops, (runOps o ops).1 = (runOps o' ops).1 := by
  have key : (api R k).create g sigma theta (some s) = (api R k).create g' sigma theta (some s) := by
    cases k with
    | doubleWell => show DW.init R g sigma theta _ = DW.init R g' sigma theta _
                    unfold DW.init; rw [proc_init_seed R g g' s hs]
    | ornsteinUhlenbeck => show OU.init R g sigma theta _ = OU.init R g' sigma theta _
                           unfold OU.init; rw [proc_init_seed R g g' s hs]
    | lorenz63 => show L63.init R g sigma theta _ = L63.init R g' sigma theta _
                  unfold L63.init; rw [proc_init_seed R g g' s hs]
    | lorenz96 d => show L96.init R g sigma theta _ d = L96.init R g' sigma theta _ d
                    unfold L96.init; rw [proc_init_seed R g g' s hs]
  refine ⟨key, fun o o' h h' ops => ?_⟩
  rw [key, h'] at h
  injection h with h
  rw [h]

/-- A generator whose draws expose its state. -/
noncomputable def exposedRng : Rng ℝ := ⟨fun s => (s : ℝ), fun g => (g, g), fun g => (g, g)⟩

/-- C35 does not hold for the seed zero: the truth test `if r_seed:` treats it as "no seed". With the same
parameters, the same seed zero and the same calls, two `OrnsteinUhlenbeck` objects produce different paths. -/
theorem C35_seed_zero_violated : ∃ o o',
    OU.init exposedRng 0 1 1 (some 0) = .ok o ∧ OU.init exposedRng 1 1 1 (some 0) = .ok o'
      ∧ ((OU.makeTrajectory exposedRng o 0 1 1 0).2.base.samplePath
          ≠ (OU.makeTrajectory exposedRng o' 0 1 1 0).2.base.samplePath) := by
  refine ⟨_, _, by norm_num [OU.init, Proc.init]; rfl, by norm_num [OU.init, Proc.init]; rfl, ?_⟩
  have h2 : ⌈((1 : ℝ) + 1 - 0) / 1⌉.toNat = 2 := by norm_num [show (2 : ℤ).toNat = 2 from rfl]
  have key : ∀ g : ℝ, (OU.makeTrajectory exposedRng ⟨⟨none, none, g, true⟩, 1, 1, 1⟩ 0 1 1 0).2.base.samplePath
      = .ok [0, g] := by
    intro g
    unfold OU.makeTrajectory arange
    rw [if_neg one_ne_zero]
    simp only [h2, List.length_map, List.length_range]
    norm_num [fwdSweep, setIdx, idx, List.replicate_succ, OU.pathStep, Rng.normals, exposedRng, List.range_succ,
      Proc.samplePath]
  rw [key, key]
  norm_num

/-! ## C36 -/

namespace Spec

/-- In this history, the object has been given a sample path. -/
def pathGiven {A : ProcApi G} (hist : List (Op A × Py (Out A))) : Prop :=
  ∃ h ∈ hist, (∃ x, h.1 = .setPath x) ∨ (∃ t0 tf dt mu u, h.1 = .makeTrajectory t0 tf dt mu ∧ h.2 = .ok u)

/-- In this history, the object has been given a time window. -/
def windowGiven {A : ProcApi G} (hist : List (Op A × Py (Out A))) : Prop :=
  ∃ h ∈ hist, (∃ t, h.1 = .setWindow t) ∨ (∃ t0 tf dt mu u, h.1 = .makeTrajectory t0 tf dt mu ∧ h.2 = .ok u)

end Spec

/-- What C36 needs to know about a class. -/
structure Lawful (A : ProcApi G) : Prop where
  base_withBase : ∀ o b, A.base (A.withBase o b) = b
  create : ∀ g s t r o, A.create g s t r = .ok o → (A.base o).xt = none ∧ (A.base o).tk = none
  setSigma : ∀ o v, A.base (A.setSigma o v).2 = A.base o
  setTheta : ∀ o v, A.base (A.setTheta o v).2 = A.base o
  traj_ok : ∀ o t0 tf dt mu u, (A.makeTrajectory o t0 tf dt mu).1 = .ok u →
    (A.base (A.makeTrajectory o t0 tf dt mu).2).xt.isSome ∧ (A.base (A.makeTrajectory o t0 tf dt mu).2).tk.isSome
  traj_err : ∀ o t0 tf dt mu e, (A.makeTrajectory o t0 tf dt mu).1 = .error e →
    (A.base (A.makeTrajectory o t0 tf dt mu).2).xt = (A.base o).xt
      ∧ (A.base (A.makeTrajectory o t0 tf dt mu).2).tk = (A.base o).tk
  collect : ∀ p n rn mask, (A.collectObs p n rn mask).2.xt = p.xt ∧ (A.collectObs p n rn mask).2.tk = p.tk
    ∧ ((A.collectObs p n rn mask).1 = .error .notImplementedError ↔ p.xt = none ∨ p.tk = none)

theorem idx_ni {X : Type} (l : List X) (k : ℕ) : idx l k ≠ .error .notImplementedError := by
  unfold idx; split <;> simp

theorem npTake_ni {X : Type} (xt : List X) (l : List ℕ) : npTake xt l ≠ .error .notImplementedError := by
  unfold npTake
  induction l with
  | nil => simp
  | cons a l ih =>
    rw [List.mapM_cons]
    cases h : idx xt a with
    | error e => have := idx_ni xt a; rw [h] at this; simpa using this
    | ok x =>
      simp only [py_ok_bind]
      cases h2 : List.mapM (fun t => idx xt t) l with
      | error e => rw [h2] at ih; simpa using ih
      | ok y => simp

theorem obsIndices_ni (tk : List ℝ) (n : ℝ) : obsIndices tk n ≠ .error .notImplementedError := by
  unfold obsIndices
  cases h : idx tk 1 with
  | error e => have := idx_ni tk 1; rw [h] at this; simpa using this
  | ok x =>
    cases h' : idx tk 0 with
    | error e => have := idx_ni tk 0; rw [h'] at this; simpa using this
    | ok y =>
      simp only [py_ok_bind]
      split_ifs <;> simp

theorem sqrtScale_ni (rn : NdArr) (z : List ℝ) : sqrtScale rn z ≠ .error .notImplementedError := by
  unfold sqrtScale
  split
  · simp
  · split_ifs <;> simp
  · simp
  · simp

theorem addInPlace_ni (y z : List ℝ) : addInPlace y z ≠ .error .notImplementedError := by
  unfold addInPlace; split_ifs <;> simp

theorem sqrtOne_ni (rn : NdArr) (z : List ℝ) : sqrtOne rn z ≠ .error .notImplementedError := by
  unfold sqrtOne
  split <;> simp

theorem obsNoise_ni (k : ℕ) (rn : NdArr) : obsNoise k rn ≠ .error .notImplementedError := by
  unfold obsNoise
  split
  · simp
  · split_ifs <;> simp
  · split_ifs <;> simp
  · simp

theorem collectObs1_law (R : Rng G) (p : Proc G ℝ) (n : ℝ) (rn : NdArr) (mask : Option (List Bool)) :
    (p.collectObs1 R n rn mask).2.xt = p.xt ∧ (p.collectObs1 R n rn mask).2.tk = p.tk
      ∧ ((p.collectObs1 R n rn mask).1 = .error .notImplementedError ↔ p.xt = none ∨ p.tk = none) := by
  unfold Proc.collectObs1
  split
  · rename_i tk xt htk hxt
    have hno : ¬ (p.xt = none ∨ p.tk = none) := by simp [htk, hxt]
    have ni := obsIndices_ni tk n
    split
    · rename_i e he; rw [he] at ni; simpa [hno] using ni
    · rename_i dim_m obs_t he
      have ni2 := npTake_ni xt obs_t
      split
      · rename_i e he; rw [he] at ni2; simpa [hno] using ni2
      · split_ifs
        · simp [hno]
        · dsimp only
          generalize hz : (do let w ← sqrtScale rn _; addInPlace _ w : Py (List ℝ)) = r
          rename_i obs_y _ _
          have ni3 : r ≠ .error .notImplementedError := by
            rw [← hz]
            cases h : sqrtScale rn (R.normals dim_m p.rng).1 with
            | error e =>
              have := sqrtScale_ni rn (R.normals dim_m p.rng).1
              rw [h] at this; simpa using this
            | ok w => simpa using addInPlace_ni _ _
          cases r with
          | error e => simpa [hno] using ni3
          | ok y => simp [hno]
  · rename_i hx
    refine ⟨rfl, rfl, ?_⟩
    simp only [true_iff]
    by_contra hcon
    push Not at hcon
    obtain ⟨x, h1⟩ := Option.ne_none_iff_exists'.1 hcon.1
    obtain ⟨t, h2⟩ := Option.ne_none_iff_exists'.1 hcon.2
    exact hx t x h2 h1

theorem collectObsN_law {d : ℕ} (R : Rng G) (p : Proc G (Fin d → ℝ)) (n : ℝ) (rn : NdArr)
    (mask : Option (List Bool)) :
    (p.collectObsN R n rn mask).2.xt = p.xt ∧ (p.collectObsN R n rn mask).2.tk = p.tk
      ∧ ((p.collectObsN R n rn mask).1 = .error .notImplementedError ↔ p.xt = none ∨ p.tk = none) := by
  unfold Proc.collectObsN
  split
  · rename_i tk xt htk hxt
    have hno : ¬ (p.xt = none ∨ p.tk = none) := by simp [htk, hxt]
    have ni := obsIndices_ni tk n
    split
    · rename_i e he; rw [he] at ni; simpa [hno] using ni
    · rename_i dim_m obs_t he
      have ni2 := npTake_ni xt obs_t
      split
      · rename_i e he; rw [he] at ni2; simpa [hno] using ni2
      · dsimp only
        split
        · simp [hno]
        · generalize (if mask.getD [] ≠ [] then maskCols (mask.getD []) else List.finRange d) = cols
          split
          · split
            · split
              · rename_i e he
                have := sqrtOne_ni rn (R.normals dim_m p.rng).1
                rw [he] at this
                simpa [hno] using this
              · simp [hno]
            · simp [hno]
          · split
            · rename_i e he
              have ni3 := obsNoise_ni cols.length rn
              rw [he] at ni3
              refine ⟨?_, ?_, ?_⟩
              · cases rn <;> rfl
              · cases rn <;> rfl
              · simpa [hno] using ni3
            · split <;> simp [hno]
  · rename_i hx
    refine ⟨rfl, rfl, ?_⟩
    simp only [true_iff]
    by_contra hcon
    push Not at hcon
    obtain ⟨x, h1⟩ := Option.ne_none_iff_exists'.1 hcon.1
    obtain ⟨t, h2⟩ := Option.ne_none_iff_exists'.1 hcon.2
    exact hx t x h2 h1

theorem proc_init_none {X : Type} {R : Rng G} {g : G} {s : Option ℤ} {b : Bool} {p : Proc G X}
    (h : Proc.init R g s b = .ok p) : p.xt = none ∧ p.tk = none := by
  unfold Proc.init at h
  split at h
  · simp only [Except.ok.injEq] at h; subst h; simp
  · split_ifs at h <;> (simp only [Except.ok.injEq] at h; subst h; simp)

theorem lorenz_traj_law {T : Type} {d : ℕ} (R : Rng G) (o : LorenzObj G d T) (drift : (Fin d → ℝ) → Fin d → ℝ)
    (x0 : Fin d → ℝ) (t0 tf dt : ℝ) :
    (∀ u, (o.makeTrajectory R drift x0 t0 tf dt).1 = .ok u →
      (o.makeTrajectory R drift x0 t0 tf dt).2.base.xt.isSome ∧ (o.makeTrajectory R drift x0 t0 tf dt).2.base.tk.isSome)
    ∧ (∀ e, (o.makeTrajectory R drift x0 t0 tf dt).1 = .error e →
      (o.makeTrajectory R drift x0 t0 tf dt).2.base.xt = o.base.xt
        ∧ (o.makeTrajectory R drift x0 t0 tf dt).2.base.tk = o.base.tk) := by
  unfold LorenzObj.makeTrajectory
  split
  · simp
  · dsimp only
    split
    · simp
    · split <;> simp

theorem lorenz_setSigma_base {T : Type} {d : ℕ} (o : LorenzObj G d T) (v : NdArr) :
    (o.setSigma v).2.base = o.base := by
  unfold LorenzObj.setSigma
  split
  · split
    · dsimp only
      split
      · rfl
      · split <;> rfl
    · rfl
  · rfl

theorem dw_traj_law (R : Rng G) (o : DW G) (t0 tf dt : ℝ) :
    (∀ u, (o.makeTrajectory R t0 tf dt).1 = .ok u →
      (o.makeTrajectory R t0 tf dt).2.base.xt.isSome ∧ (o.makeTrajectory R t0 tf dt).2.base.tk.isSome)
    ∧ (∀ e, (o.makeTrajectory R t0 tf dt).1 = .error e →
      (o.makeTrajectory R t0 tf dt).2.base.xt = o.base.xt ∧ (o.makeTrajectory R t0 tf dt).2.base.tk = o.base.tk) := by
  unfold DW.makeTrajectory
  split
  · simp
  · dsimp only
    split
    · simp
    · split <;> simp

theorem ou_traj_law (R : Rng G) (o : OU G) (t0 tf dt mu : ℝ) :
    (∀ u, (o.makeTrajectory R t0 tf dt mu).1 = .ok u →
      (o.makeTrajectory R t0 tf dt mu).2.base.xt.isSome ∧ (o.makeTrajectory R t0 tf dt mu).2.base.tk.isSome)
    ∧ (∀ e, (o.makeTrajectory R t0 tf dt mu).1 = .error e →
      (o.makeTrajectory R t0 tf dt mu).2.base.xt = o.base.xt
        ∧ (o.makeTrajectory R t0 tf dt mu).2.base.tk = o.base.tk) := by
  unfold OU.makeTrajectory
  split
  · simp
  · dsimp only
    split
    · simp
    · split <;> simp

theorem dw_init_base {R : Rng G} {g : G} {s t : ℝ} {r : Option ℤ} {o : DW G} (h : DW.init R g s t r = .ok o) :
    o.base.xt = none ∧ o.base.tk = none := by
  unfold DW.init at h
  cases hb : (Proc.init R g r true : Py (Proc G ℝ)) with
  | error e => simp [hb] at h
  | ok b =>
    simp only [hb, py_ok_bind] at h
    split_ifs at h
    simp only [py_pure, Except.ok.injEq] at h
    subst h
    exact proc_init_none hb

theorem ou_init_base {R : Rng G} {g : G} {s t : ℝ} {r : Option ℤ} {o : OU G} (h : OU.init R g s t r = .ok o) :
    o.base.xt = none ∧ o.base.tk = none := by
  unfold OU.init at h
  cases hb : (Proc.init R g r true : Py (Proc G ℝ)) with
  | error e => simp [hb] at h
  | ok b =>
    simp only [hb, py_ok_bind] at h
    split_ifs at h
    simp only [py_pure, Except.ok.injEq] at h
    subst h
    exact proc_init_none hb

theorem l63_init_ok {R : Rng G} {g : G} {s : NdArr} {t : Fin 3 → ℝ} {r : Option ℤ} {o : L63 G}
    (h : L63.init R g s t r = .ok o) :
    (o.base.xt = none ∧ o.base.tk = none) ∧ sigmaMatrix 3 s = .ok o.sigma
      ∧ (¬ ∃ z ∈ npEigvals o.sigma, npLeZero z) ∧ (∃ L, cholInv o.sigma = .ok (o.sig_inv, L)) ∧ o.theta = t := by
  unfold L63.init at h
  cases hb : (Proc.init R g r false : Py (Proc G (Fin 3 → ℝ))) with
  | error e => simp [hb] at h
  | ok b =>
    simp only [hb, py_ok_bind] at h
    cases hm : sigmaMatrix 3 s with
    | error e => simp [hm] at h
    | ok M =>
      simp only [hm, py_ok_bind] at h
      split_ifs at h with he
      cases hc : cholInv M with
      | error e => simp [hc] at h
      | ok w =>
        simp only [hc, py_ok_bind, py_pure, Except.ok.injEq] at h
        subst h
        exact ⟨proc_init_none hb, rfl, he, ⟨w.2, hc⟩, rfl⟩

theorem l96_init_ok {R : Rng G} {g : G} {s : NdArr} {t : ℝ} {r : Option ℤ} {d : ℕ} {o : L96 G d}
    (h : L96.init R g s t r d = .ok o) :
    (o.base.xt = none ∧ o.base.tk = none) ∧ 10 ≤ d ∧ sigmaMatrix d s = .ok o.sigma
      ∧ (∀ z ∈ npEigvals o.sigma, npGtZero z) ∧ (∃ L, cholInv o.sigma = .ok (o.sig_inv, L)) ∧ o.theta = t := by
  unfold L96.init at h
  cases hb : (Proc.init R g r false : Py (Proc G (Fin d → ℝ))) with
  | error e => simp [hb] at h
  | ok b =>
    simp only [hb, py_ok_bind] at h
    split_ifs at h with hd
    cases hm : sigmaMatrix d s with
    | error e => simp [hm] at h
    | ok M =>
      simp only [hm, py_ok_bind] at h
      split_ifs at h with he
      cases hc : cholInv M with
      | error e => simp [hc] at h
      | ok w =>
        simp only [hc, py_ok_bind, py_pure, Except.ok.injEq] at h
        subst h
        exact ⟨proc_init_none hb, by omega, rfl, he, ⟨w.2, hc⟩, rfl⟩

theorem lawful (R : Rng G) (k : Kind) : Lawful (api R k) := by
  cases k with
  | doubleWell =>
    refine ⟨fun _ _ => rfl, fun g s t r o h => dw_init_base h, ?_, fun _ _ => rfl,
      fun o t0 tf dt mu u h => (dw_traj_law R o t0 tf dt).1 u h,
      fun o t0 tf dt mu e h => (dw_traj_law R o t0 tf dt).2 e h, fun p n rn mask => collectObs1_law R p n rn mask⟩
    intro o v
    change (DW.setSigma o v).2.base = DW.base o
    unfold DW.setSigma; split <;> rfl
  | ornsteinUhlenbeck =>
    refine ⟨fun _ _ => rfl, fun g s t r o h => ou_init_base h, ?_, ?_,
      fun o t0 tf dt mu u h => (ou_traj_law R o t0 tf dt mu).1 u h,
      fun o t0 tf dt mu e h => (ou_traj_law R o t0 tf dt mu).2 e h, fun p n rn mask => collectObs1_law R p n rn mask⟩
    · intro o v
      change (OU.setSigma o v).2.base = OU.base o
      unfold OU.setSigma; split <;> rfl
    · intro o v
      change (OU.setTheta o v).2.base = OU.base o
      unfold OU.setTheta; split <;> rfl
  | lorenz63 =>
    exact ⟨fun _ _ => rfl, fun g s t r o h => (l63_init_ok h).1, fun o v => lorenz_setSigma_base o v, fun _ _ => rfl,
      fun o t0 tf dt mu u h => (lorenz_traj_law R o _ _ t0 tf dt).1 u h,
      fun o t0 tf dt mu e h => (lorenz_traj_law R o _ _ t0 tf dt).2 e h,
      fun p n rn mask => collectObsN_law R p n rn mask⟩
  | lorenz96 d =>
    exact ⟨fun _ _ => rfl, fun g s t r o h => (l96_init_ok h).1, fun o v => lorenz_setSigma_base o v, fun _ _ => rfl,
      fun o t0 tf dt mu u h => (lorenz_traj_law R o _ _ t0 tf dt).1 u h,
      fun o t0 tf dt mu e h => (lorenz_traj_law R o _ _ t0 tf dt).2 e h,
      fun p n rn mask => collectObsN_law R p n rn mask⟩

theorem pathGiven_cons {A : ProcApi G} (x : Op A × Py (Out A)) (l : List (Op A × Py (Out A))) :
    Spec.pathGiven (x :: l) ↔ Spec.pathGiven [x] ∨ Spec.pathGiven l := by
  simp [Spec.pathGiven]

theorem windowGiven_cons {A : ProcApi G} (x : Op A × Py (Out A)) (l : List (Op A × Py (Out A))) :
    Spec.windowGiven (x :: l) ↔ Spec.windowGiven [x] ∨ Spec.windowGiven l := by
  simp [Spec.windowGiven]

theorem step_given {A : ProcApi G} (L : Lawful A) (o : A.Obj) (op : Op A) :
    ((A.base (op.run o).2).xt.isSome ↔ (A.base o).xt.isSome ∨ Spec.pathGiven [(op, (op.run o).1)])
    ∧ ((A.base (op.run o).2).tk.isSome ↔ (A.base o).tk.isSome ∨ Spec.windowGiven [(op, (op.run o).1)]) := by
  cases op with
  | setSigma v => simp [Op.run, L.setSigma, Spec.pathGiven, Spec.windowGiven]
  | setTheta v => simp [Op.run, L.setTheta, Spec.pathGiven, Spec.windowGiven]
  | setPath x => simp [Op.run, L.base_withBase, Spec.pathGiven, Spec.windowGiven, Proc.setSamplePath]
  | setWindow x => simp [Op.run, L.base_withBase, Spec.pathGiven, Spec.windowGiven, Proc.setTimeWindow]
  | makeTrajectory t0 tf dt mu =>
    cases h : (A.makeTrajectory o t0 tf dt mu).1 with
    | ok u =>
      obtain ⟨h1, h2⟩ := L.traj_ok o t0 tf dt mu u h
      simp [Op.run, Spec.pathGiven, Spec.windowGiven, h, h1, h2, Except.map]
    | error e =>
      obtain ⟨h1, h2⟩ := L.traj_err o t0 tf dt mu e h
      simp [Op.run, Spec.pathGiven, Spec.windowGiven, h, h1, h2, Except.map]
  | collectObs n rn mask =>
    obtain ⟨h1, h2, -⟩ := L.collect (A.base o) n rn mask
    simp [Op.run, L.base_withBase, Spec.pathGiven, Spec.windowGiven, h1, h2]
  | samplePath => simp [Op.run, Spec.pathGiven, Spec.windowGiven]
  | timeWindow => simp [Op.run, Spec.pathGiven, Spec.windowGiven]
  | timeStep => simp [Op.run, Spec.pathGiven, Spec.windowGiven]

theorem runOps_given {A : ProcApi G} (L : Lawful A) : ∀ (ops : List (Op A)) (o : A.Obj),
    ((A.base (runOps o ops).2).xt.isSome ↔ (A.base o).xt.isSome ∨ Spec.pathGiven (runOps o ops).1)
    ∧ ((A.base (runOps o ops).2).tk.isSome ↔ (A.base o).tk.isSome ∨ Spec.windowGiven (runOps o ops).1)
  | [], o => by simp [runOps, Spec.pathGiven, Spec.windowGiven]
  | op :: ops, o => by
    obtain ⟨h1, h2⟩ := runOps_given L ops (op.run o).2
    obtain ⟨s1, s2⟩ := step_given L o op
    simp only [runOps]
    rw [pathGiven_cons, windowGiven_cons, h1, h2, s1, s2, or_assoc, or_assoc]
    exact ⟨Iff.rfl, Iff.rfl⟩

theorem map_error_iff {α β : Type} (f : α → β) (x : Py α) (e : PyErr) : x.map f = .error e ↔ x = .error e := by
  cases x <;> simp [Except.map]

/-- C36: whatever has been called on an object since its construction, `sample_path`, `time_window`, `time_step`
and `collect_obs` raise `NotImplementedError` exactly when what they need has not been given yet, by an assignment
or by a successful `make_trajectory`. -/
theorem C36_guarded_accessors (R : Rng G) (k : Kind) (g : G) (sigma : (api R k).Sig) (theta : (api R k).Th)
    (seed : Option ℤ) (o : (api R k).Obj) (h : (api R k).create g sigma theta seed = .ok o)
    (ops : List (Op (api R k))) (hist : List (Op (api R k) × Py (Out (api R k)))) (o' : (api R k).Obj)
    (hrun : runOps o ops = (hist, o')) :
    ((Op.run o' .samplePath).1 = .error .notImplementedError ↔ ¬ Spec.pathGiven hist)
    ∧ ((Op.run o' .timeWindow).1 = .error .notImplementedError ↔ ¬ Spec.windowGiven hist)
    ∧ ((Op.run o' .timeStep).1 = .error .notImplementedError ↔ ¬ Spec.windowGiven hist)
    ∧ ∀ n rn mask, ((Op.run o' (.collectObs n rn mask)).1 = .error .notImplementedError
        ↔ ¬ (Spec.pathGiven hist ∧ Spec.windowGiven hist)) := by
  have L := lawful R k
  obtain ⟨c1, c2⟩ := L.create g sigma theta seed o h
  obtain ⟨h1, h2⟩ := runOps_given L ops o
  rw [hrun] at h1 h2
  simp only [c1, c2, Option.isSome_none, Bool.false_eq_true, false_or] at h1 h2
  have hx : ((api R k).base o').xt = none ↔ ¬ Spec.pathGiven hist := by rw [← h1]; simp
  have ht : ((api R k).base o').tk = none ↔ ¬ Spec.windowGiven hist := by rw [← h2]; simp
  refine ⟨?_, ?_, ?_, ?_⟩
  · rw [← hx]
    simp only [Op.run, map_error_iff, Proc.samplePath]
    split <;> simp_all
  · rw [← ht]
    simp only [Op.run, map_error_iff, Proc.timeWindow]
    split <;> simp_all
  · rw [← ht]
    simp only [Op.run, map_error_iff, Proc.timeStep]
    split
    · simp_all
    · rename_i t htk
      simp only [htk, reduceCtorEq, iff_false]
      cases h1 : idx t 1 with
      | error e => have := idx_ni t 1; rw [h1] at this; simpa using this
      | ok x =>
        cases h0 : idx t 0 with
        | error e => have := idx_ni t 0; rw [h0] at this; simpa using this
        | ok y => simp
  · intro n rn mask
    simp only [Op.run, map_error_iff]
    rw [(L.collect _ n rn mask).2.2, hx, ht]
    tauto

/-- Non-vacuity of C36: a history in which the path has been given but not the window. -/
example (R : Rng G) (g : G) : ∃ o, (api R .doubleWell).create g (1 : ℝ) (1 : ℝ) none = .ok o
    ∧ Spec.pathGiven (runOps o [.setPath ([1, 2] : List ℝ)]).1 ∧ ¬ Spec.windowGiven (runOps o [.setPath ([1, 2] : List ℝ)]).1 := by
  refine ⟨(⟨⟨none, none, g, true⟩, 1, 1, 1.0 / 1⟩ : DW G), ?_, ?_, ?_⟩
  · show DW.init R g 1 1 none = _
    norm_num [DW.init, Proc.init]
    rfl
  · simp [runOps, Op.run, Spec.pathGiven]
    exact ⟨_, rfl⟩
  · simp [runOps, Op.run, Spec.windowGiven]

/-- The accessors return what was assigned last (read-your-writes). -/
theorem C36_read_back (R : Rng G) (k : Kind) (o : (api R k).Obj) (x : List (api R k).X) (t : List ℝ) :
    (Op.run (Op.run o (.setPath x)).2 .samplePath).1 = .ok (.path x)
    ∧ (Op.run (Op.run o (.setWindow t)).2 .timeWindow).1 = .ok (.window t)
    ∧ (Op.run (Op.run o (.setPath x)).2 .timeWindow).1 = (Op.run o .timeWindow).1
    ∧ (Op.run (Op.run o (.setWindow t)).2 .samplePath).1 = (Op.run o .samplePath).1 := by
  have L := lawful R k
  simp [Op.run, L.base_withBase, Proc.setSamplePath, Proc.setTimeWindow, Proc.samplePath, Proc.timeWindow, Except.map]

end VGPA
