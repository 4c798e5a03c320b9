import Verif.Props.History
import Verif.Props.LinAlg
import Mathlib.LinearAlgebra.Matrix.IsDiag
import Mathlib.Tactic.FieldSimp
import Mathlib.Tactic.Positivity

/-!
# C32, C33, C34: sample paths
-/

namespace VGPA

variable {G : Type}

open Matrix

namespace Spec

/-- The state of the generator after `n` standard normal draws. -/
def stateAfter (R : Rng G) (g : G) (n : ℕ) : G := (fun s => (R.normal s).2)^[n] g

/-- The `n`-th standard normal draw. -/
def draw (R : Rng G) (g : G) (n : ℕ) : ℝ := (R.normal (stateAfter R g n)).1

/-- The double well drift. -/
noncomputable def dwField (theta x : ℝ) : ℝ := 4 * x * (theta - x ^ 2)

/-- The Ornstein–Uhlenbeck drift with mean `mu`. -/
noncomputable def ouField (theta mu x : ℝ) : ℝ := theta * (mu - x)

/-- The Lorenz-63 equations with parameters `(sigma, rho, beta)`. -/
def l63Field (u x : Fin 3 → ℝ) : Fin 3 → ℝ :=
  ![u 0 * (x 1 - x 0), x 0 * (u 1 - x 2) - x 1, x 0 * x 1 - u 2 * x 2]

/-- The Lorenz-96 equations with forcing `F`; indices are cyclic (addition in `Fin d`). -/
def l96Field {d : ℕ} [NeZero d] (F : ℝ) (x : Fin d → ℝ) : Fin d → ℝ := fun i =>
  (x (i + 1) - x (i - 2)) * x (i - 1) - x i + F

/-- The grid `t0, t0 + dt, ..., t0 + N dt`. -/
noncomputable def grid (t0 dt : ℝ) (N : ℕ) : List ℝ := List.ofFn fun i : Fin (N + 1) => t0 + (i : ℕ) * dt

end Spec

/-! ## Auxiliary -/

theorem normals_eq (R : Rng G) : ∀ (n : ℕ) (g : G),
    R.normals n g = ((List.range n).map (Spec.draw R g), Spec.stateAfter R g n)
  | 0, g => rfl
  | n + 1, g => by
    have h : ∀ k, Spec.stateAfter R (R.normal g).2 k = Spec.stateAfter R g (k + 1) := fun k => rfl
    simp only [Rng.normals, normals_eq R n, List.range_succ_eq_map, List.map_cons, List.map_map]
    rfl

theorem normalsMat_eq (R : Rng G) (r c : ℕ) (g : G) (i : Fin r) (j : ℕ) (hj : j < c) :
    (R.normalsMat r c g).1 i j = Spec.draw R g (i * c + j) := by
  have hlt : (i : ℕ) * c + j < r * c := by
    calc (i : ℕ) * c + j < i * c + c := by omega
      _ = (i + 1) * c := by ring
      _ ≤ r * c := Nat.mul_le_mul_right c i.2
  simp only [Rng.normalsMat, normals_eq]
  rw [List.getD_eq_getElem?_getD, List.getElem?_map, List.getElem?_range hlt]
  rfl

/-- The number of steps of the grid. -/
noncomputable def gridN (t0 tf dt : ℝ) : ℕ := ⌈(tf - t0) / dt⌉₊

theorem arange_grid {t0 tf dt : ℝ} (h : t0 ≤ tf) (hdt : 0 < dt) :
    arange t0 (tf + dt) dt = .ok (Spec.grid t0 dt (gridN t0 tf dt)) := by
  have h0 : 0 ≤ (tf - t0) / dt := div_nonneg (by linarith) hdt.le
  have h1 : (tf + dt - t0) / dt = (tf - t0) / dt + 1 := by field_simp; ring
  have h2 : ⌈(tf + dt - t0) / dt⌉.toNat = gridN t0 tf dt + 1 := by
    rw [h1, Int.ceil_add_one]
    have : 0 ≤ ⌈(tf - t0) / dt⌉ := Int.ceil_nonneg h0
    have e : ((gridN t0 tf dt : ℕ) : ℤ) = ⌈(tf - t0) / dt⌉ := by
      unfold gridN
      exact Int.natCast_ceil_eq_ceil h0
    omega
  unfold arange
  rw [if_neg hdt.ne', h2]
  congr 1
  apply List.ext_getElem
  · simp [Spec.grid]
  · intro i h1 h2
    simp only [Spec.grid, List.getElem_map, List.getElem_range, List.getElem_ofFn]

theorem gridN_bounds {t0 tf dt : ℝ} (h : t0 ≤ tf) (hdt : 0 < dt) :
    tf ≤ t0 + gridN t0 tf dt * dt ∧ t0 + gridN t0 tf dt * dt < tf + dt := by
  have h0 : 0 ≤ (tf - t0) / dt := div_nonneg (by linarith) hdt.le
  have a := Nat.le_ceil ((tf - t0) / dt)
  have b := Nat.ceil_lt_add_one h0
  rw [div_le_iff₀ hdt] at a
  have : ((tf - t0) / dt + 1) * dt = tf - t0 + dt := by field_simp
  have c := mul_lt_mul_of_pos_right b hdt
  rw [this] at c
  unfold gridN
  constructor <;> linarith

theorem gridN_exact {t0 dt : ℝ} (hdt : 0 < dt) (M : ℕ) : gridN t0 (t0 + M * dt) dt = M := by
  unfold gridN
  rw [show (t0 + M * dt - t0) / dt = (M : ℝ) by field_simp; ring]
  simp

theorem map_range_ofFn {α : Type*} (n : ℕ) (f : ℕ → α) : (List.range n).map f = List.ofFn fun i : Fin n => f i := by
  apply List.ext_getElem <;> simp

theorem timeStep_grid {X : Type} (p : Proc G X) (t0 dt : ℝ) (N : ℕ) (hN : 0 < N) (hdt : 0 < dt)
    (h : p.tk = some (Spec.grid t0 dt N)) : p.timeStep = .ok dt := by
  unfold Proc.timeStep
  rw [h]
  simp only
  rw [idx_ok (by simp [Spec.grid]; omega), idx_ok (by simp [Spec.grid])]
  simp [Spec.grid, abs_of_pos hdt]

/-! ## The four `make_trajectory` methods in closed form -/

theorem dw_traj (R : Rng G) (o : DW G) {t0 tf dt : ℝ} (h : t0 ≤ tf) (hdt : 0 < dt) :
    ∃ x : ℕ → ℝ,
      o.makeTrajectory R t0 tf dt = (.ok (), { o with base := { o.base with
          xt := some (List.ofFn fun i : Fin (gridN t0 tf dt + 1) => x i)
          tk := some (Spec.grid t0 dt (gridN t0 tf dt))
          rng := Spec.stateAfter R (R.random o.base.rng).2 (gridN t0 tf dt + 2) } })
      ∧ x 0 = (if 1 / 2 < (R.random o.base.rng).1 then o.theta else -o.theta)
          + Real.sqrt (o.sigma * dt / 2) * Spec.draw R (R.random o.base.rng).2 0
      ∧ ∀ t < gridN t0 tf dt, x (t + 1) = x t + Spec.dwField o.theta (x t) * dt
          + Real.sqrt (o.sigma * dt) * Spec.draw R (R.random o.base.rng).2 (t + 2) := by
  set N := gridN t0 tf dt with hN
  unfold DW.makeTrajectory
  rw [arange_grid h hdt]
  simp only [← hN]
  have hl : (Spec.grid t0 dt N).length = N + 1 := by simp [Spec.grid]
  rw [hl, if_neg (by omega)]
  simp only [normals_eq]
  generalize hx0 : (if (R.random o.base.rng).1 > 0.5 then o.theta else -o.theta)
    + Real.sqrt (0.5 * o.sigma * dt) * (R.normal (R.random o.base.rng).2).1 = x0
  rw [fwdSweep_ok (N + 1) x0 _ (fun k x => x + 4.0 * x * (o.theta - x ^ 2) * dt
    + Real.sqrt (o.sigma * dt) * Spec.draw R (R.normal (R.random o.base.rng).2).2 (k + 1)) (by omega)]
  · rw [map_range_ofFn]
    refine ⟨_, rfl, ?_, ?_⟩
    · simp only [traj]
      rw [← hx0]
      have e1 : (0.5 : ℝ) = 1 / 2 := by norm_num
      have e2 : 1 / 2 * o.sigma * dt = o.sigma * dt / 2 := by ring
      rw [e1, e2]
      rfl
    · intro t ht
      simp only [traj, Spec.dwField]
      norm_num
      left; rfl
  · intro k hk x
    simp only [DW.pathStep]
    rw [idx_ok (by simp; omega)]
    simp

theorem ou_traj (R : Rng G) (o : OU G) {t0 tf dt : ℝ} (mu : ℝ) (h : t0 ≤ tf) (hdt : 0 < dt) :
    ∃ x : ℕ → ℝ,
      o.makeTrajectory R t0 tf dt mu = (.ok (), { o with base := { o.base with
          xt := some (List.ofFn fun i : Fin (gridN t0 tf dt + 1) => x i)
          tk := some (Spec.grid t0 dt (gridN t0 tf dt))
          rng := Spec.stateAfter R o.base.rng (gridN t0 tf dt + 1) } })
      ∧ x 0 = mu
      ∧ ∀ t < gridN t0 tf dt, x (t + 1) = x t + Spec.ouField o.theta mu (x t) * dt
          + Real.sqrt (o.sigma * dt) * Spec.draw R o.base.rng (t + 1) := by
  set N := gridN t0 tf dt with hN
  unfold OU.makeTrajectory
  rw [arange_grid h hdt]
  simp only [← hN]
  have hl : (Spec.grid t0 dt N).length = N + 1 := by simp [Spec.grid]
  rw [hl, if_neg (by omega)]
  simp only [normals_eq]
  rw [fwdSweep_ok (N + 1) mu _ (fun k x => x + o.theta * (mu - x) * dt
    + Real.sqrt (o.sigma * dt) * Spec.draw R o.base.rng (k + 1)) (by omega)]
  · rw [map_range_ofFn]
    exact ⟨_, rfl, rfl, fun t ht => rfl⟩
  · intro k hk x
    simp only [OU.pathStep]
    rw [idx_ok (by simp; omega)]
    simp

theorem lorenz_traj {T : Type} {d : ℕ} (R : Rng G) (o : LorenzObj G d T) (drift : (Fin d → ℝ) → Fin d → ℝ)
    (x0 : Fin d → ℝ) {t0 tf dt : ℝ} (h : t0 ≤ tf) (hdt : 0 < dt) :
    ∃ x : ℕ → Fin d → ℝ, ∃ g' : G,
      o.makeTrajectory R drift x0 t0 tf dt = (.ok (), { o with base := { o.base with
          xt := some (List.ofFn fun i : Fin (gridN t0 tf dt + 1) => x i)
          tk := some (Spec.grid t0 dt (gridN t0 tf dt)), rng := g' } })
      ∧ x 0 = LorenzObj.burnIn drift x0
      ∧ ∀ t < gridN t0 tf dt, x (t + 1) = x t + dt • drift (x t)
          + LorenzObj.noiseFactor o.sigma dt
            *ᵥ (fun l => Spec.draw R o.base.rng (l * (gridN t0 tf dt + 1) + (t + 1))) := by
  set N := gridN t0 tf dt with hN
  unfold LorenzObj.makeTrajectory
  rw [arange_grid h hdt]
  simp only [← hN]
  have hl : (Spec.grid t0 dt N).length = N + 1 := by simp [Spec.grid]
  rw [hl, if_neg (by omega)]
  generalize LorenzObj.burnIn drift x0 = y0
  rw [fwdSweep_ok (N + 1) _ (fun k x => pure (x + dt • drift x
    + LorenzObj.noiseRow (LorenzObj.noiseFactor o.sigma dt) (R.normalsMat d (N + 1) o.base.rng).1 (k + 1)))
    (fun k x => x + dt • drift x
    + LorenzObj.noiseRow (LorenzObj.noiseFactor o.sigma dt) (R.normalsMat d (N + 1) o.base.rng).1 (k + 1)) (by omega)
    (fun _ _ _ => rfl)]
  rw [map_range_ofFn]
  refine ⟨_, _, rfl, rfl, fun t ht => ?_⟩
  simp only [traj, LorenzObj.noiseRow]
  congr 2
  funext l
  rw [normalsMat_eq R d (N + 1) _ l (t + 1) (by omega)]

/-! ## C32 -/

theorem c32_core {A : ProcApi G} {o o' : A.Obj} {t0 tf dt mu : ℝ} {x : List A.X} (h : t0 ≤ tf) (hdt : 0 < dt)
    (hm : A.makeTrajectory o t0 tf dt mu = (.ok (), o')) (hx : (A.base o').xt = some x)
    (hlen : x.length = gridN t0 tf dt + 1) (ht : (A.base o').tk = some (Spec.grid t0 dt (gridN t0 tf dt))) :
    ∃ o', Op.run o (.makeTrajectory t0 tf dt mu) = (.ok .unit, o') ∧ ∃ N : ℕ,
      (Op.run o' .timeWindow).1 = .ok (.window (Spec.grid t0 dt N))
      ∧ tf ≤ t0 + N * dt ∧ t0 + N * dt < tf + dt
      ∧ (∃ x, (Op.run o' .samplePath).1 = .ok (.path x) ∧ x.length = N + 1)
      ∧ (t0 < tf → (Op.run o' .timeStep).1 = .ok (.step dt))
      ∧ (∀ M : ℕ, tf = t0 + M * dt → N = M) := by
  have hb := gridN_bounds h hdt
  have hpos : t0 < tf → 0 < gridN t0 tf dt := by
    intro h'
    rcases Nat.eq_zero_or_pos (gridN t0 tf dt) with h0 | h0
    · rw [h0] at hb; simp at hb; linarith
    · exact h0
  refine ⟨o', ?_, gridN t0 tf dt, ?_, hb.1, hb.2, ⟨x, ?_, hlen⟩, fun h' => ?_, ?_⟩
  · simp [Op.run, hm, Except.map]
  · simp [Op.run, Proc.timeWindow, ht, Except.map]
  · simp [Op.run, Proc.samplePath, hx, Except.map]
  · simp only [Op.run]
    rw [timeStep_grid _ t0 dt _ (hpos h') hdt ht]; rfl
  · intro M hM
    subst hM
    exact gridN_exact hdt M

/-- C32: with `t0 <= tf` and `dt > 0`, `make_trajectory` succeeds for every class and leaves a window
`t0, t0 + dt, ..., t0 + N dt` whose last point lies in `[tf, tf + dt)`, and a path with one entry per window point.
If `tf` is `M` steps after `t0`, then `N = M`. `time_step` returns `dt` when there are at least two points. -/
theorem C32_time_window (R : Rng G) (k : Kind) (o : (api R k).Obj) (t0 tf dt mu : ℝ) (h : t0 ≤ tf) (hdt : 0 < dt) :
    ∃ o', Op.run o (.makeTrajectory t0 tf dt mu) = (.ok .unit, o') ∧ ∃ N : ℕ,
      (Op.run o' .timeWindow).1 = .ok (.window (Spec.grid t0 dt N))
      ∧ tf ≤ t0 + N * dt ∧ t0 + N * dt < tf + dt
      ∧ (∃ x, (Op.run o' .samplePath).1 = .ok (.path x) ∧ x.length = N + 1)
      ∧ (t0 < tf → (Op.run o' .timeStep).1 = .ok (.step dt))
      ∧ (∀ M : ℕ, tf = t0 + M * dt → N = M) := by
  cases k with
  | doubleWell =>
    obtain ⟨x, he, -⟩ := dw_traj R o h hdt
    exact c32_core (A := api R .doubleWell) h hdt he rfl List.length_ofFn rfl
  | ornsteinUhlenbeck =>
    obtain ⟨x, he, -⟩ := ou_traj R o mu h hdt
    exact c32_core (A := api R .ornsteinUhlenbeck) h hdt he rfl List.length_ofFn rfl
  | lorenz63 =>
    obtain ⟨x, g', he, -⟩ := lorenz_traj R (o : L63 G) (fun x => l63 x (LorenzObj.theta o)) (fun _ => 1) h hdt
    exact c32_core (A := api R .lorenz63) h hdt he rfl List.length_ofFn rfl
  | lorenz96 d =>
    obtain ⟨x, g', he, -⟩ := lorenz_traj R (o : L96 G d) (fun x => l96 x (LorenzObj.theta o))
      (L96.start (LorenzObj.theta o)) h hdt
    exact c32_core (A := api R (.lorenz96 d)) h hdt he rfl List.length_ofFn rfl

/-- Non-vacuity of C32. -/
example : (0 : ℝ) ≤ 10 ∧ (0 : ℝ) < 0.01 := by norm_num

/-! ## C33 -/

/-- C33 for `DoubleWell`. -/
theorem C33_double_well (R : Rng G) (o : DW G) (t0 tf dt : ℝ) (h : t0 ≤ tf) (hdt : 0 < dt) :
    ∃ (N : ℕ) (x : ℕ → ℝ) (o' : DW G), o.makeTrajectory R t0 tf dt = (.ok (), o')
      ∧ o'.base.timeWindow = .ok (Spec.grid t0 dt N)
      ∧ o'.base.samplePath = .ok (List.ofFn fun i : Fin (N + 1) => x i)
      ∧ x 0 = (if 1 / 2 < (R.random o.base.rng).1 then o.theta else -o.theta)
          + Real.sqrt (o.sigma * dt / 2) * Spec.draw R (R.random o.base.rng).2 0
      ∧ ∀ t < N, x (t + 1) = x t + Spec.dwField o.theta (x t) * dt
          + Real.sqrt (o.sigma * dt) * Spec.draw R (R.random o.base.rng).2 (t + 2) := by
  obtain ⟨x, he, h0, hs⟩ := dw_traj R o h hdt
  exact ⟨_, x, _, he, rfl, rfl, h0, hs⟩

/-- C33 for `OrnsteinUhlenbeck`. -/
theorem C33_ornstein_uhlenbeck (R : Rng G) (o : OU G) (t0 tf dt mu : ℝ) (h : t0 ≤ tf) (hdt : 0 < dt) :
    ∃ (N : ℕ) (x : ℕ → ℝ) (o' : OU G), o.makeTrajectory R t0 tf dt mu = (.ok (), o')
      ∧ o'.base.timeWindow = .ok (Spec.grid t0 dt N)
      ∧ o'.base.samplePath = .ok (List.ofFn fun i : Fin (N + 1) => x i)
      ∧ x 0 = mu
      ∧ ∀ t < N, x (t + 1) = x t + Spec.ouField o.theta mu (x t) * dt
          + Real.sqrt (o.sigma * dt) * Spec.draw R o.base.rng (t + 1) := by
  obtain ⟨x, he, h0, hs⟩ := ou_traj R o mu h hdt
  exact ⟨_, x, _, he, rfl, rfl, h0, hs⟩

theorem l63_eq_field (u x : Fin 3 → ℝ) : l63 x u = Spec.l63Field u x := by
  funext i
  fin_cases i <;> simp [l63, Spec.l63Field]
  ring

theorem burnIn_path {d : ℕ} (drift : (Fin d → ℝ) → Fin d → ℝ) (x0 : Fin d → ℝ) :
    ∃ z : ℕ → Fin d → ℝ, z 0 = x0 ∧ (∀ k, z (k + 1) = z k + (1 / 1000 : ℝ) • drift (z k)) ∧ LorenzObj.burnIn drift x0 = z 5000 := by
  refine ⟨fun k => (fun x => x + (1.0e-3 : ℝ) • drift x)^[k] x0, rfl, fun k => ?_, rfl⟩
  simp only [Function.iterate_succ_apply']
  norm_num

/-- C33 for `Lorenz63`: the noise of step `t + 1` is a fixed matrix `C` (see C34) times fresh draws; the path starts where 5000 steps of the equations without
noise, of size `0.001`, lead from `(1, 1, 1)`. -/
theorem C33_lorenz63 (R : Rng G) (o : L63 G) (t0 tf dt : ℝ) (h : t0 ≤ tf) (hdt : 0 < dt) :
    ∃ (N : ℕ) (x : ℕ → Fin 3 → ℝ) (o' : L63 G), o.makeTrajectory R t0 tf dt = (.ok (), o')
      ∧ o'.base.timeWindow = .ok (Spec.grid t0 dt N)
      ∧ o'.base.samplePath = .ok (List.ofFn fun i : Fin (N + 1) => x i)
      ∧ (∃ z : ℕ → Fin 3 → ℝ, z 0 = (fun _ => 1) ∧ (∀ k, z (k + 1) = z k + (1 / 1000 : ℝ) • Spec.l63Field o.theta (z k)) ∧ x 0 = z 5000)
      ∧ ∀ t < N, x (t + 1) = x t + dt • Spec.l63Field o.theta (x t)
          + LorenzObj.noiseFactor o.sigma dt *ᵥ fun l => Spec.draw R o.base.rng (l * (N + 1) + (t + 1)) := by
  obtain ⟨x, g', he, h0, hs⟩ := lorenz_traj R o (fun x => l63 x o.theta) (fun _ => 1) h hdt
  obtain ⟨z, z0, zs, ze⟩ := burnIn_path (fun x => l63 x o.theta) (fun _ => 1)
  refine ⟨_, x, _, he, rfl, rfl, ⟨z, z0, fun k => ?_, h0.trans ze⟩, fun t ht => ?_⟩
  · rw [← l63_eq_field]
    exact zs k
  · rw [← l63_eq_field]
    exact hs t ht

theorem rollIdx_fin {d : ℕ} [NeZero d] (i : Fin d) :
    rollIdx (-1) i = i + 1 ∧ rollIdx 1 i = i - 1 ∧ rollIdx 2 i = i - 2 := by
  have hd : 0 < d := Nat.pos_of_ne_zero (NeZero.ne d)
  have key : ∀ (k : ℤ) (j : Fin d), ((i : ℤ) - k) % d = (j : ℤ) % d → rollIdx k i = j := by
    intro k j h
    apply Fin.ext
    simp only [rollIdx]
    rw [h, Int.emod_eq_of_lt (by omega) (by have := j.2; omega)]
    simp
  refine ⟨key _ _ ?_, key _ _ ?_, key _ _ ?_⟩
  · have h1 : ((1 : Fin d) : ℕ) = 1 % d := rfl
    rw [Fin.val_add, h1]
    push_cast
    simp [Int.add_emod]
  · have h1 : ((1 : Fin d) : ℕ) = 1 % d := rfl
    rw [Fin.val_sub, h1]
    have : 1 % d ≤ d := (Nat.mod_lt _ hd).le
    push_cast [Nat.cast_sub this]
    rw [Int.emod_emod_of_dvd _ (dvd_refl _)]
    have : ((d : ℤ) - 1 % d + i) % d = (i - 1 % d) % d := by
      rw [show (d : ℤ) - 1 % d + i = (i - 1 % d) + d by ring, Int.add_emod_right]
    rw [this, Int.sub_emod, Int.sub_emod (i : ℤ) (1 % d), Int.emod_emod_of_dvd _ (dvd_refl _)]
  · have h2 : ((2 : Fin d) : ℕ) = 2 % d := rfl
    rw [Fin.val_sub, h2]
    have : 2 % d ≤ d := (Nat.mod_lt _ hd).le
    push_cast [Nat.cast_sub this]
    rw [Int.emod_emod_of_dvd _ (dvd_refl _)]
    have : ((d : ℤ) - 2 % d + i) % d = (i - 2 % d) % d := by
      rw [show (d : ℤ) - 2 % d + i = (i - 2 % d) + d by ring, Int.add_emod_right]
    rw [this, Int.sub_emod, Int.sub_emod (i : ℤ) (2 % d), Int.emod_emod_of_dvd _ (dvd_refl _)]

theorem l96_eq_field {d : ℕ} [NeZero d] (F : ℝ) (x : Fin d → ℝ) : l96 x F = Spec.l96Field F x := by
  funext i
  obtain ⟨h1, h2, h3⟩ := rollIdx_fin i
  simp only [l96, npRoll, h1, h2, h3, Spec.l96Field]

/-- C33 for `Lorenz96`, in every dimension; the starting point before the 5000 steps without noise is `(theta, ..., theta)` with `0.001` added in the middle. -/
theorem C33_lorenz96 (R : Rng G) {d : ℕ} [NeZero d] (o : L96 G d) (t0 tf dt : ℝ) (h : t0 ≤ tf) (hdt : 0 < dt) :
    ∃ (N : ℕ) (x : ℕ → Fin d → ℝ) (o' : L96 G d), o.makeTrajectory R t0 tf dt = (.ok (), o')
      ∧ o'.base.timeWindow = .ok (Spec.grid t0 dt N)
      ∧ o'.base.samplePath = .ok (List.ofFn fun i : Fin (N + 1) => x i)
      ∧ (∃ z : ℕ → Fin d → ℝ, z 0 = (fun i : Fin d => if (i : ℕ) = d / 2 then o.theta + 1 / 1000 else o.theta) ∧ (∀ k, z (k + 1) = z k + (1 / 1000 : ℝ) • Spec.l96Field o.theta (z k)) ∧ x 0 = z 5000)
      ∧ ∀ t < N, x (t + 1) = x t + dt • Spec.l96Field o.theta (x t)
          + LorenzObj.noiseFactor o.sigma dt *ᵥ fun l => Spec.draw R o.base.rng (l * (N + 1) + (t + 1)) := by
  obtain ⟨x, g', he, h0, hs⟩ := lorenz_traj R o (fun x => l96 x o.theta) (L96.start o.theta) h hdt
  obtain ⟨z, z0, zs, ze⟩ := burnIn_path (fun x => l96 x o.theta) (L96.start o.theta)
  refine ⟨_, x, _, he, rfl, rfl, ⟨z, ?_, fun k => ?_, h0.trans ze⟩, fun t ht => ?_⟩
  · rw [z0]
    funext i
    simp only [L96.start, mul_one]
    split <;> norm_num
  · rw [← l96_eq_field]
    exact zs k
  · rw [← l96_eq_field]
    exact hs t ht

/-! ## C34 -/

/-- An upper triangular real matrix that commutes with its transpose is diagonal. -/
theorem normal_upper_diagonal {d : ℕ} (U : Matrix (Fin d) (Fin d) ℝ) (hU : ∀ i j, j < i → U i j = 0)
    (hn : U * Uᵀ = Uᵀ * U) : ∀ i j, i ≠ j → U i j = 0 := by
  have key : ∀ n : ℕ, ∀ i : Fin d, (i : ℕ) < n → ∀ j, i < j → U i j = 0 := by
    intro n
    induction n with
    | zero => intro i hi; omega
    | succ n ih =>
      intro i hi j hij
      have e := congrFun (congrFun hn i) i
      simp only [Matrix.mul_apply, Matrix.transpose_apply] at e
      have e2 : ∑ k, U k i * U k i = U i i * U i i := by
        refine Finset.sum_eq_single i (fun k _ hk => ?_) (by simp)
        rcases lt_or_gt_of_ne hk with h | h
        · rw [ih k (by have := Fin.lt_def.1 h; omega) i h]; ring
        · rw [hU k i h]; ring
      rw [e2, ← Finset.add_sum_erase _ _ (Finset.mem_univ i)] at e
      have e3 : ∑ k ∈ Finset.univ.erase i, U i k * U i k = 0 := by linarith
      rw [Finset.sum_eq_zero_iff_of_nonneg (fun k _ => mul_self_nonneg _)] at e3
      have := e3 j (by simp [hij.ne'])
      exact mul_self_eq_zero.1 this
  intro i j hij
  rcases lt_or_gt_of_ne hij with h | h
  · exact key (i + 1) i (by omega) j h
  · exact hU i j h

theorem noiseFactor_posDef {d : ℕ} (sigma : Matrix (Fin d) (Fin d) ℝ) (dt : ℝ) (hs : sigma.PosDef) (hdt : 0 < dt) :
    (LorenzObj.noiseFactor sigma dt)ᵀ * LorenzObj.noiseFactor sigma dt = dt • sigma
      ∧ (∀ i j, j < i → LorenzObj.noiseFactor sigma dt i j = 0) := by
  have hp : (dt • sigma).PosDef := hs.smul hdt
  have hsym : (dt • sigma).IsSymm := (posDef_iff_quad.1 hp).1
  have hss : symLower (dt • sigma)ᵀ = dt • sigma := by rw [hsym, symLower_of_isSymm hsym]
  obtain ⟨L, hL⟩ := chol_some_of_posDef d (dt • sigma)ᵀ (by rw [hss]; exact hp)
  obtain ⟨h1, h2, -, -⟩ := chol_spec d _ L hL
  have e : LorenzObj.noiseFactor sigma dt = Lᵀ := by
    unfold LorenzObj.noiseFactor spCholesky
    rw [hL]
  rw [e, Matrix.transpose_transpose, h1, hss]
  exact ⟨rfl, fun i j hij => by rw [Matrix.transpose_apply]; exact h2 j i hij⟩

/-- C34: the noise increments `C z`, with `z` standard normal, have covariance `C * Cᵀ`. For a symmetric positive
definite `sigma` this is `sigma * dt` exactly when `sigma` is diagonal: `C` is the upper Cholesky factor, for which
`Cᵀ * C`, not `C * Cᵀ`, is `sigma * dt`. So the property holds for diagonal noise and fails for every other. -/
theorem C34_covariance_partial {d : ℕ} (sigma : Matrix (Fin d) (Fin d) ℝ) (dt : ℝ) (hs : sigma.PosDef) (hdt : 0 < dt) :
    LorenzObj.noiseFactor sigma dt * (LorenzObj.noiseFactor sigma dt)ᵀ = dt • sigma ↔ sigma.IsDiag := by
  obtain ⟨h1, h2⟩ := noiseFactor_posDef sigma dt hs hdt
  set U := LorenzObj.noiseFactor sigma dt
  constructor
  · intro h
    have hd := normal_upper_diagonal U h2 (by rw [h, h1])
    intro i j hij
    have e : (dt • sigma) i j = 0 := by
      rw [← h1, Matrix.mul_apply]
      refine Finset.sum_eq_zero fun k _ => ?_
      rw [Matrix.transpose_apply]
      by_cases hki : k = i
      · subst hki; rw [hd k j hij, mul_zero]
      · rw [hd k i hki, zero_mul]
    simpa [hdt.ne'] using e
  · intro h
    have hU : U.IsDiag := by
      have low : ∀ n : ℕ, ∀ i : Fin d, (i : ℕ) < n → ∀ j, i < j → U i j = 0 := by
        intro n
        induction n with
        | zero => intro i hi; omega
        | succ n ih =>
          intro i hi j hij
          have e : (dt • sigma) i j = 0 := by simp [h hij.ne]
          rw [← h1, Matrix.mul_apply] at e
          have e2 : ∑ k, Uᵀ i k * U k j = U i i * U i j := by
            refine Finset.sum_eq_single i (fun k _ hk => ?_) (by simp)
            rw [Matrix.transpose_apply]
            rcases lt_or_gt_of_ne hk with h | h
            · rw [ih k (by have := Fin.lt_def.1 h; omega) i h, zero_mul]
            · rw [h2 k i h, zero_mul]
          rw [e2] at e
          rcases mul_eq_zero.1 e with h0 | h0
          · exfalso
            have e4 : (dt • sigma) i i = 0 := by
              rw [← h1, Matrix.mul_apply]
              refine Finset.sum_eq_zero fun k _ => ?_
              rw [Matrix.transpose_apply]
              rcases lt_trichotomy k i with h | h | h
              · rw [ih k (by have := Fin.lt_def.1 h; omega) i h, zero_mul]
              · subst h; rw [h0, zero_mul]
              · rw [h2 k i h, zero_mul]
            have := (hs.smul hdt).diag_pos (i := i)
            rw [e4] at this
            exact lt_irrefl _ this
          · exact h0
      intro i j hij
      rcases lt_or_gt_of_ne hij with h | h
      · exact low (i + 1) i (by omega) j h
      · exact h2 i j h
    have ht : Uᵀ = U := by
      ext i j
      by_cases hij : i = j
      · subst hij; rfl
      · rw [Matrix.transpose_apply, hU (Ne.symm hij), hU hij]
    rw [← h1, ht]

/-- C34 fails: a symmetric positive definite noise matrix for which the increments do not have the requested
covariance. -/
theorem C34_covariance_violated : ∃ sigma : Matrix (Fin 3) (Fin 3) ℝ, sigma.PosDef ∧ ∀ dt : ℝ, 0 < dt →
    LorenzObj.noiseFactor sigma dt * (LorenzObj.noiseFactor sigma dt)ᵀ ≠ dt • sigma := by
  have hp : (!![2, 1, 0; 1, 2, 0; 0, 0, 1] : Matrix (Fin 3) (Fin 3) ℝ).PosDef := by
    rw [posDef_iff_quad]
    refine ⟨by ext i j; fin_cases i <;> fin_cases j <;> rfl, fun x hx => ?_⟩
    simp only [quad, Fin.sum_univ_three]
    simp
    have h3 : ¬ (x 0 = 0 ∧ x 1 = 0 ∧ x 2 = 0) := by
      rintro ⟨h0, h1, h2⟩
      apply hx
      funext i
      fin_cases i <;> assumption
    by_contra hcon
    push Not at hcon
    apply h3
    have e : x 0 ^ 2 + x 1 ^ 2 + (x 0 + x 1) ^ 2 + x 2 ^ 2 ≤ 0 := by nlinarith
    have p0 := sq_nonneg (x 0); have p1 := sq_nonneg (x 1); have p2 := sq_nonneg (x 0 + x 1)
    have p3 := sq_nonneg (x 2)
    exact ⟨pow_eq_zero_iff (two_ne_zero) |>.1 (by linarith), pow_eq_zero_iff (two_ne_zero) |>.1 (by linarith),
      pow_eq_zero_iff (two_ne_zero) |>.1 (by linarith)⟩
  refine ⟨_, hp, fun dt hdt h => ?_⟩
  have := (C34_covariance_partial _ dt hp hdt).1 h (show (0 : Fin 3) ≠ 1 by decide)
  simp at this

end VGPA
