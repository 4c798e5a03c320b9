import Verif.Props.Mirror
import Verif.Props.ScgMap
import Verif.Props.RunTotal

/-!
# C134: the origin of time
-/

namespace VGPA

noncomputable section

open Matrix

variable {G X : Type}

namespace Spec

/-- The same process with a time window that starts `c` later. -/
def laterP (c : ℝ) (p : Proc G X) : Proc G X := { p with tk := p.tk.map (List.map (· + c)) }

/-- The same process with a time window that starts `c` later. -/
def later (c : ℝ) : AnyProc G → AnyProc G
  | .dw o => .dw { o with base := laterP c o.base }
  | .ou o => .ou { o with base := laterP c o.base }
  | .l63 o => .l63 { o with base := laterP c o.base }
  | .l96 o => .l96 { o with base := laterP c o.base }

/-- Two parameter files, the second one like the first one but for `t0` and `tf`, which are both greater by `c`. -/
structure LaterParams (c : ℝ) (params params' : Json) : Prop where
  other : ∀ key, key ≠ "Time-window" → params'.item key = params.item key
  window : ∃ j j' t0 tf, params.item "Time-window" = .ok j ∧ params'.item "Time-window" = .ok j' ∧ j.item "t0" = .ok (.num t0) ∧ j'.item "t0" = .ok (.num (t0 + c))
    ∧ j.item "tf" = .ok (.num tf) ∧ j'.item "tf" = .ok (.num (tf + c)) ∧ j'.item "dt" = j.item "dt"

/-- An interpolation through points that are `c` later gives the same values `c` later. -/
def FitShifts (E : Env G) (c : ℝ) : Prop :=
  (∀ xs ys t, E.fit1 (xs.map (· + c)) ys (t + c) = E.fit1 xs ys t) ∧ ∀ d xs ys t, E.fitN d (xs.map (· + c)) ys (t + c) = E.fitN d xs ys t

end Spec

open Spec

/-! ## Processes -/

theorem laterP_zero (p : Proc G X) : laterP 0 p = p := by
  rcases p with ⟨xt, tk, g, b⟩
  cases tk <;> simp [laterP]

theorem later_zero (p : AnyProc G) : later 0 p = p := by
  cases p <;> simp only [later, laterP_zero]

theorem laterP_timeStep (c : ℝ) (p : Proc G X) : (laterP c p).timeStep = p.timeStep := by
  unfold Proc.timeStep laterP
  rcases p.tk with - | t
  · rfl
  simp only [Option.map_some, idx_map]
  rcases idx t 1 with e | t1
  · rfl
  rcases idx t 0 with e | t0
  · rfl
  show Except.ok _ = Except.ok _
  rw [add_sub_add_right_eq_sub]

theorem laterP_timeWindow (c : ℝ) (p : Proc G X) : (laterP c p).timeWindow = p.timeWindow.map (List.map (· + c)) := by
  unfold Proc.timeWindow laterP
  rcases p.tk with - | t <;> rfl

theorem obsIndices_later (c : ℝ) (tk : List ℝ) (n : ℝ) : obsIndices (tk.map (· + c)) n = obsIndices tk n := by
  match tk with
  | [] => rfl
  | [_] => rfl
  | a :: b :: l =>
    have h1 : ((a :: b :: l).map (· + c)).getLastD 0 = (a :: b :: l).getLastD 0 + c := by
      rw [List.getLastD_eq_getLast?, List.getLast?_map, List.getLastD_eq_getLast?]
      rw [List.getLast?_eq_getLast_of_ne_nil (by simp)]
      rfl
    unfold obsIndices
    rw [h1, List.length_map]
    simp only [List.map_cons, idx, List.getElem?_cons_succ, List.getElem?_cons_zero, py_ok_bind, add_sub_add_right_eq_sub]

theorem collectObs1_later (R : Rng G) (c : ℝ) (p : Proc G ℝ) (n : ℝ) (rn : NdArr) (mask : Option (List Bool)) :
    (laterP c p).collectObs1 R n rn mask = ((p.collectObs1 R n rn mask).1, laterP c (p.collectObs1 R n rn mask).2) := by
  rcases p with ⟨xt, tk, g, b⟩
  unfold Proc.collectObs1 laterP
  rcases tk with - | tk
  · rfl
  rcases xt with - | xt
  · rfl
  simp only [Option.map_some, obsIndices_later]
  rcases obsIndices tk n with e | ⟨dim_m, obs_t⟩
  · rfl
  dsimp only
  rcases npTake xt obs_t with e | y
  · rfl
  dsimp only
  split_ifs
  · rfl
  rcases (do let w ← sqrtScale rn (R.normals dim_m g).1; addInPlace y w : Py (List ℝ)) with e | y <;> rfl

theorem collectObsN_later {d : ℕ} (R : Rng G) (c : ℝ) (p : Proc G (Fin d → ℝ)) (n : ℝ) (rn : NdArr) (mask : Option (List Bool)) :
    (laterP c p).collectObsN R n rn mask = ((p.collectObsN R n rn mask).1, laterP c (p.collectObsN R n rn mask).2) := by
  rcases p with ⟨xt, tk, g, b⟩
  unfold Proc.collectObsN laterP
  rcases tk with - | tk
  · rfl
  rcases xt with - | xt
  · rfl
  simp only [Option.map_some, obsIndices_later]
  rcases obsIndices tk n with e | ⟨dim_m, obs_t⟩
  · rfl
  dsimp only
  rcases npTake xt obs_t with e | y
  · rfl
  dsimp only
  by_cases h1 : mask.getD [] ≠ [] ∧ (mask.getD []).length ≠ d
  · rw [if_pos h1, if_pos h1]
    rfl
  rw [if_neg h1, if_neg h1]
  generalize (if mask.getD [] ≠ [] then maskCols (mask.getD []) else List.finRange d : List (Fin d)) = cols
  by_cases h2 : cols.length = 1
  · rw [if_pos h2, if_pos h2]
    by_cases h3 : dim_m = 1
    · rw [if_pos h3, if_pos h3]
      rcases sqrtOne rn (R.normals dim_m g).1 with e | w <;> rfl
    · rw [if_neg h3, if_neg h3]
      rfl
  rw [if_neg h2, if_neg h2]
  rcases obsNoise cols.length rn with e | N
  · cases rn <;> rfl
  dsimp only
  split_ifs <;> rfl

theorem arange_later (c t0 tf dt : ℝ) : arange (t0 + c) (tf + c + dt) dt = (arange t0 (tf + dt) dt).map (List.map (· + c)) := by
  unfold arange
  split
  · rfl
  show Except.ok _ = Except.ok _
  rw [show tf + c + dt - (t0 + c) = tf + dt - t0 by ring, List.map_map]
  congr 1
  refine List.map_congr_left fun i _ => ?_
  show t0 + c + i * dt = t0 + i * dt + c
  ring

theorem dw_traj_later (R : Rng G) (c : ℝ) (o : DW G) (t0 tf dt : ℝ) :
    DW.makeTrajectory R { o with base := laterP c o.base } (t0 + c) (tf + c) dt
      = ((DW.makeTrajectory R o t0 tf dt).1, { (DW.makeTrajectory R o t0 tf dt).2 with base := laterP c (DW.makeTrajectory R o t0 tf dt).2.base }) := by
  unfold DW.makeTrajectory
  rw [arange_later]
  rcases arange t0 (tf + dt) dt with e | tk
  · rfl
  have hp : ∀ dt ek, DW.pathStep { o with base := laterP c o.base } dt ek = o.pathStep dt ek := fun _ _ => rfl
  have hr : (laterP c o.base).rng = o.base.rng := rfl
  simp only [Except.map, List.length_map, hp, hr]
  by_cases h : tk.length = 0
  · rw [if_pos h, if_pos h]
    rfl
  rw [if_neg h, if_neg h]
  generalize (fwdSweep tk.length _ _ : Py (List ℝ)) = r
  rcases r with e | x <;> rfl

theorem ou_traj_later (R : Rng G) (c : ℝ) (o : OU G) (t0 tf dt mu : ℝ) :
    OU.makeTrajectory R { o with base := laterP c o.base } (t0 + c) (tf + c) dt mu
      = ((OU.makeTrajectory R o t0 tf dt mu).1, { (OU.makeTrajectory R o t0 tf dt mu).2 with base := laterP c (OU.makeTrajectory R o t0 tf dt mu).2.base }) := by
  unfold OU.makeTrajectory
  rw [arange_later]
  rcases arange t0 (tf + dt) dt with e | tk
  · rfl
  have hp : ∀ dt ek, OU.pathStep { o with base := laterP c o.base } dt mu ek = o.pathStep dt mu ek := fun _ _ => rfl
  have hr : (laterP c o.base).rng = o.base.rng := rfl
  simp only [Except.map, List.length_map, hp, hr]
  by_cases h : tk.length = 0
  · rw [if_pos h, if_pos h]
  rw [if_neg h, if_neg h]
  generalize (fwdSweep tk.length _ _ : Py (List ℝ)) = r
  rcases r with e | x <;> rfl

theorem lorenz_traj_later {T : Type} {d : ℕ} (R : Rng G) (c : ℝ) (o : LorenzObj G d T) (drift : (Fin d → ℝ) → Fin d → ℝ) (x0 : Fin d → ℝ) (t0 tf dt : ℝ) :
    LorenzObj.makeTrajectory R { o with base := laterP c o.base } drift x0 (t0 + c) (tf + c) dt
      = ((LorenzObj.makeTrajectory R o drift x0 t0 tf dt).1,
        { (LorenzObj.makeTrajectory R o drift x0 t0 tf dt).2 with base := laterP c (LorenzObj.makeTrajectory R o drift x0 t0 tf dt).2.base }) := by
  unfold LorenzObj.makeTrajectory
  rw [arange_later]
  rcases arange t0 (tf + dt) dt with e | tk
  · rfl
  have hr : (laterP c o.base).rng = o.base.rng := rfl
  simp only [Except.map, List.length_map, hr]
  by_cases h : tk.length = 0
  · rw [if_pos h, if_pos h]
  rw [if_neg h, if_neg h]
  generalize (fwdSweep tk.length _ _ : Py (List (Fin d → ℝ))) = r
  rcases r with e | x <;> rfl

theorem traj_later (E : Env G) (c : ℝ) (p : AnyProc G) (t0 tf : ℝ) (dt : Json) :
    (later c p).makeTrajectory E (.num (t0 + c)) (.num (tf + c)) dt
      = ((p.makeTrajectory E (.num t0) (.num tf) dt).1, later c (p.makeTrajectory E (.num t0) (.num tf) dt).2) := by
  unfold AnyProc.makeTrajectory
  rw [show ∀ x : ℝ, (Json.num x).real = .ok x from fun _ => rfl, show ∀ x : ℝ, (Json.num x).real = .ok x from fun _ => rfl,
    show ∀ x : ℝ, (Json.num x).real = .ok x from fun _ => rfl, show ∀ x : ℝ, (Json.num x).real = .ok x from fun _ => rfl]
  rcases dt.real with e | dt
  · rfl
  simp only [py_ok_bind, py_pure]
  cases p with
  | dw o => simp only [later, dw_traj_later]
  | ou o => simp only [later, ou_traj_later]
  | l63 o =>
    have := lorenz_traj_later E.R c o (fun x => l63 x o.theta) (fun _ => 1) t0 tf dt
    simp only [later, L63.makeTrajectory, this]
  | l96 o =>
    have := lorenz_traj_later E.R c o (fun x => l96 x o.theta) (L96.start o.theta) t0 tf dt
    simp only [later, L96.makeTrajectory, this]

theorem collectObs_later (E : Env G) (c : ℝ) (p : AnyProc G) (n rn op : Json) :
    (later c p).collectObs E n rn op = ((p.collectObs E n rn op).1, later c (p.collectObs E n rn op).2) := by
  unfold AnyProc.collectObs
  generalize (do pure ((← n.real), (← rn.ndArr), (← op.mask)) : Py (ℝ × NdArr × Option (List Bool))) = r
  rcases r with e | ⟨n, rn, mask⟩
  · rfl
  cases p <;> simp only [later, collectObs1_later, collectObsN_later]

theorem firstMean_later (E : Env G) (c : ℝ) (p : AnyProc G) :
    (later c p).firstMean E = ((p.firstMean E).1, later c (p.firstMean E).2) := by
  have h1 : ∀ q : Proc G ℝ, AnyProc.firstMean1 E.R (laterP c q) = ((AnyProc.firstMean1 E.R q).1, laterP c (AnyProc.firstMean1 E.R q).2) := by
    intro q
    unfold AnyProc.firstMean1
    rw [show (laterP c q).samplePath = q.samplePath from rfl]
    rcases (do idx (← q.samplePath) 0 : Py ℝ) with e | x <;> rfl
  have hN : ∀ {d : ℕ} (q : Proc G (Fin d → ℝ)), AnyProc.firstMeanN E.R (laterP c q) = ((AnyProc.firstMeanN E.R q).1, laterP c (AnyProc.firstMeanN E.R q).2) := by
    intro d q
    unfold AnyProc.firstMeanN
    rw [show (laterP c q).samplePath = q.samplePath from rfl]
    rcases (do idx (← q.samplePath) 0 : Py (Fin d → ℝ)) with e | x <;> rfl
  cases p <;> simp only [later, AnyProc.firstMean, h1, hN]

theorem dim_later (c : ℝ) (p : AnyProc G) : (later c p).dim = p.dim := by cases p <;> rfl

theorem firstVar_later (c : ℝ) (p : AnyProc G) : (later c p).firstVar = p.firstVar := by cases p <;> rfl

theorem singleDim_later (c : ℝ) (p : AnyProc G) : (later c p).singleDim = p.singleDim := by cases p <;> rfl

theorem pathLength_later (c : ℝ) (p : AnyProc G) : (later c p).pathLength = p.pathLength := by cases p <;> rfl

theorem timesOnes_later (c : ℝ) (p : AnyProc G) (v : PriorVal Arr) : (later c p).timesOnes v = p.timesOnes v := by cases p <;> rfl

theorem timesEye_later (c : ℝ) (p : AnyProc G) (v : PriorVal Arr) : (later c p).timesEye v = p.timesEye v := by cases p <;> rfl

theorem unpackA_later (c : ℝ) (p : AnyProc G) (x : List ℝ) : (later c p).unpackA x = p.unpackA x := by
  unfold AnyProc.unpackA
  rw [pathLength_later, singleDim_later, dim_later]

theorem unpackB_later (c : ℝ) (p : AnyProc G) (x : List ℝ) : (later c p).unpackB x = p.unpackB x := by
  unfold AnyProc.unpackB
  rw [pathLength_later, singleDim_later, dim_later]

/-- A new process has no time window yet. -/
theorem create_fresh (E : Env G) (c : ℝ) (k : SysName) (sys theta seed : Json) (p : AnyProc G) (h : AnyProc.create E k sys theta seed = .ok p) :
    later c p = p := by
  have hb : ∀ {X : Type} (s : Option ℤ) (b : Bool) (q : Proc G X), Proc.init E.R E.entropy s b = .ok q → laterP c q = q := by
    intro X s b q hq
    unfold Proc.init at hq
    split at hq
    · cases hq; rfl
    · split_ifs at hq <;> cases hq <;> rfl
  unfold AnyProc.create at h
  cases k
  · simp only [DW.init, py_bind_ok] at h
    obtain ⟨x, -, y, -, z, -, o, ⟨q, hq, ho⟩, h⟩ := h
    split_ifs at ho
    cases ho
    cases h
    simp only [later, hb _ _ _ hq]
  · simp only [OU.init, py_bind_ok] at h
    obtain ⟨x, -, y, -, z, -, o, ⟨q, hq, ho⟩, h⟩ := h
    split_ifs at ho
    cases ho
    cases h
    simp only [later, hb _ _ _ hq]
  · simp only [L63.init, py_bind_ok] at h
    obtain ⟨x, -, y, -, z, -, o, ⟨q, hq, S, -, ho⟩, h⟩ := h
    split_ifs at ho
    obtain ⟨I, -, ho⟩ := py_bind_ok.1 ho
    cases ho
    cases h
    simp only [later, hb _ _ _ hq]
  · simp only [L96.init, py_bind_ok] at h
    obtain ⟨x, -, y, -, z, -, o, ⟨q, hq, ho⟩, h⟩ := h
    rw [if_neg (by norm_num)] at ho
    obtain ⟨S, -, ho⟩ := py_bind_ok.1 ho
    split_ifs at ho
    obtain ⟨I, -, ho⟩ := py_bind_ok.1 ho
    cases ho
    cases h
    simp only [later, hb _ _ _ hq]

/-! ## Variational objects -/

section
variable {V W : Type}

/-- The same variational object with a time window that starts `c` later. -/
def VarGP.later (c : ℝ) (o : VarGP V W) : VarGP V W :=
  { o with model := { o.model with time_window := o.model.time_window.map (List.map (· + c)) } }

theorem splineData_later (c : ℝ) (o : VarGP V W) (tw : List ℝ) :
    (o.later c).splineData (tw.map (· + c)) = (o.splineData tw).map fun r => (r.1.map (· + c), r.2) := by
  unfold VarGP.splineData VarGP.later
  simp only [idx_map, fancy_map, lastIdx_map]
  rcases idx tw 0 with e | t0
  · rfl
  simp only [Except.map, py_ok_bind]
  rcases fancy tw o.obs_t with e | ts
  · rfl
  simp only [py_ok_bind]
  rcases lastIdx tw with e | t1
  · rfl
  simp only [py_ok_bind]
  rcases idx o.obs_y 0 with e | y0
  · rfl
  simp only [py_ok_bind]
  rcases lastIdx o.obs_y with e | y1
  · rfl
  simp [py_pure, py_ok_bind]

theorem cubicSpline_later (c : ℝ) {fit : List ℝ → List V → ℝ → V} (hfit : ∀ xs ys t, fit (xs.map (· + c)) ys (t + c) = fit xs ys t)
    (xs : List ℝ) (ys : List V) (tw : List ℝ) :
    (cubicSpline fit (xs.map (· + c)) ys).map (fun g => (tw.map (· + c)).map g) = (cubicSpline fit xs ys).map fun g => tw.map g := by
  unfold cubicSpline
  have hp : (xs.map (· + c)).Pairwise (· < ·) ↔ xs.Pairwise (· < ·) := by
    rw [List.pairwise_map]
    simp only [add_lt_add_iff_right]
  simp only [List.length_map, hp]
  split_ifs
  · rfl
  · rfl
  · simp only [Except.map, List.map_map]
    congr 1
    exact List.map_congr_left fun t _ => hfit xs ys t
  · rfl

end

/-- The same variational object with a time window that starts `c` later. -/
def AnyVgp.later (c : ℝ) : AnyVgp → AnyVgp
  | .one o => .one (o.later c)
  | .many d o => .many d (o.later c)

theorem initialization_later (E : Env G) (c : ℝ) (hE : FitShifts E c) (v : AnyVgp) : (v.later c).initialization E = v.initialization E := by
  cases v with
  | one o =>
    simp only [AnyVgp.later, AnyVgp.initialization, VarGP.initialization1]
    rw [show (o.later c).model.time_window = o.model.time_window.map (List.map (· + c)) from rfl]
    rcases o.model.time_window with e | tw
    · rfl
    simp only [Except.map, py_ok_bind]
    rw [splineData_later]
    rcases o.splineData tw with e | ⟨xs, ys⟩
    · rfl
    simp only [Except.map, py_ok_bind]
    have := cubicSpline_later c hE.1 xs ys tw
    rcases h : cubicSpline E.fit1 xs ys with e | g
    · rcases h' : cubicSpline E.fit1 (xs.map (· + c)) ys with e' | g'
      · rw [h, h'] at this
        simpa [Except.map] using this
      · rw [h, h'] at this
        simp [Except.map] at this
    · rcases h' : cubicSpline E.fit1 (xs.map (· + c)) ys with e' | g'
      · rw [h, h'] at this
        simp [Except.map] at this
      · rw [h, h'] at this
        have e : (tw.map (· + c)).map g' = tw.map g := by simpa only [Except.map, Except.ok.injEq] using this
        simp only [py_ok_bind, e]
        rfl
  | many d o =>
    simp only [AnyVgp.later, AnyVgp.initialization, VarGP.initializationN]
    rw [show (o.later c).model.time_window = o.model.time_window.map (List.map (· + c)) from rfl]
    rcases o.model.time_window with e | tw
    · rfl
    simp only [Except.map, py_ok_bind]
    rw [splineData_later]
    rcases o.splineData tw with e | ⟨xs, ys⟩
    · rfl
    simp only [Except.map, py_ok_bind]
    have := cubicSpline_later c (hE.2 d) xs ys tw
    rcases h : cubicSpline (E.fitN d) xs ys with e | g
    · rcases h' : cubicSpline (E.fitN d) (xs.map (· + c)) ys with e' | g'
      · rw [h, h'] at this
        simpa [Except.map] using this
      · rw [h, h'] at this
        simp [Except.map] at this
    · rcases h' : cubicSpline (E.fitN d) (xs.map (· + c)) ys with e' | g'
      · rw [h, h'] at this
        simp [Except.map] at this
      · rw [h, h'] at this
        have e : (tw.map (· + c)).map g' = tw.map g := by simpa only [Except.map, Except.ok.injEq] using this
        simp only [py_ok_bind, e]
        rfl

theorem freeEnergy_later (c : ℝ) (v : AnyVgp) (x : List ℝ) : (v.later c).freeEnergy x = ((v.freeEnergy x).1, (v.freeEnergy x).2.later c) := by
  cases v with
  | one o =>
    simp only [AnyVgp.later, AnyVgp.freeEnergy, VarGP.freeEnergy]
    rw [show (o.later c).eval shape1 x = o.eval shape1 x from rfl]
    rcases o.eval shape1 x with e | ⟨F, k⟩ <;> rfl
  | many d o =>
    simp only [AnyVgp.later, AnyVgp.freeEnergy, VarGP.freeEnergy]
    rw [show (o.later c).eval (shapeN d) x = o.eval (shapeN d) x from rfl]
    rcases o.eval (shapeN d) x with e | ⟨F, k⟩ <;> rfl

theorem gradient_later (c : ℝ) (v : AnyVgp) (x : List ℝ) (ev : Bool) :
    (v.later c).gradient x ev = ((v.gradient x ev).1, (v.gradient x ev).2.later c) := by
  cases ev
  · cases v <;> rfl
  cases v with
  | one o =>
    simp only [AnyVgp.later, AnyVgp.gradient, VarGP.gradient, VarGP.freeEnergy, if_true]
    rw [show (o.later c).eval shape1 x = o.eval shape1 x from rfl]
    rcases o.eval shape1 x with e | ⟨F, k⟩ <;> rfl
  | many d o =>
    simp only [AnyVgp.later, AnyVgp.gradient, VarGP.gradient, VarGP.freeEnergy, if_true]
    rw [show (o.later c).eval (shapeN d) x = o.eval (shapeN d) x from rfl]
    rcases o.eval (shapeN d) x with e | ⟨F, k⟩ <;> rfl

theorem optimize_later (c : ℝ) (v : AnyVgp) (x0 : List ℝ) : (v.later c).optimize x0 = ((v.optimize x0).1, (v.optimize x0).2.later c) := by
  have h : Follows (AnyVgp.later c) (AnyVgp.oracle x0.length) (AnyVgp.oracle x0.length) () := by
    constructor
    · intro x s
      simp only [AnyVgp.oracle, freeEnergy_later]
    · intro x s
      simp only [AnyVgp.oracle, gradient_later]
    · intro x s
      simp only [AnyVgp.oracle, gradient_later]
  unfold AnyVgp.optimize
  simp only [call_map h]

theorem argOut_later (c : ℝ) (v : AnyVgp) : (v.later c).argOut = v.argOut := by cases v <;> rfl

theorem vgpInit_later {V W : Type} (c : ℝ) (sde sde' : SdeModel V W)
    (h : sde' = { sde with time_window := sde.time_window.map (List.map (· + c)) }) (m0 : V) (s0 : W) (f b : OdeFrontEnd) (L : LikeIf V W)
    (K : V → W → Py ℝ) (y : List V) (t : List ℕ) :
    VarGP.init sde' m0 s0 f b L K y t = (VarGP.init sde m0 s0 f b L K y t).map (VarGP.later c) := by
  subst h
  unfold VarGP.init
  dsimp only
  rcases h1 : sde.time_step with e | dt
  · rfl
  rcases h2 : sde.sample_path with e | p
  · rfl
  simp only [py_ok_bind, py_pure, Except.map, VarGP.later, h1, h2]

theorem mk1_later (c : ℝ) (sde sde' : SdeModel ℝ ℝ) (h : sde' = { sde with time_window := sde.time_window.map (List.map (· + c)) }) (m0 s0 : Arr)
    (f b : OdeFrontEnd) (L : AnyLike) (K : AnyPrior) (y t : Arr) : AnyVgp.mk1 sde' m0 s0 f b L K y t = (AnyVgp.mk1 sde m0 s0 f b L K y t).map (AnyVgp.later c) := by
  unfold AnyVgp.mk1
  split
  · rw [vgpInit_later c sde sde' h]
    generalize VarGP.init sde _ _ _ _ _ _ _ _ = r
    rcases r with e | o <;> rfl
  · rfl

theorem mkN_later {d : ℕ} (c : ℝ) (sde sde' : SdeModel (Fin d → ℝ) (Matrix (Fin d) (Fin d) ℝ))
    (h : sde' = { sde with time_window := sde.time_window.map (List.map (· + c)) }) (m0 s0 : Arr)
    (f b : OdeFrontEnd) (L : AnyLike) (K : AnyPrior) (y t : Arr) : AnyVgp.mkN sde' m0 s0 f b L K y t = (AnyVgp.mkN sde m0 s0 f b L K y t).map (AnyVgp.later c) := by
  unfold AnyVgp.mkN
  split
  · split
    · generalize AnyVgp.likeIf d _ = r
      rcases r with e | L
      · rfl
      simp only [py_ok_bind]
      rw [vgpInit_later c sde sde' h]
      generalize VarGP.init sde _ _ _ _ _ _ _ _ = r
      rcases r with e | o <;> rfl
    · rfl
  · rfl

theorem dw_sde_later (c : ℝ) (o : DW G) : ({ o with base := laterP c o.base } : DW G).sde = { o.sde with time_window := o.sde.time_window.map (List.map (· + c)) } := by
  simp only [DW.sde, DW.energy, laterP_timeStep, laterP_timeWindow]
  rfl

theorem ou_sde_later (c : ℝ) (o : OU G) : ({ o with base := laterP c o.base } : OU G).sde = { o.sde with time_window := o.sde.time_window.map (List.map (· + c)) } := by
  simp only [OU.sde, OU.energy, laterP_timeStep, laterP_timeWindow]
  rfl

theorem l63_sde_later (c : ℝ) (o : L63 G) :
    L63.sde { o with base := laterP c o.base } = { L63.sde o with time_window := (L63.sde o).time_window.map (List.map (· + c)) } := by
  simp only [L63.sde, L63.energy, laterP_timeStep, laterP_timeWindow]
  rcases o.base.timeWindow with e | tw
  · rfl
  · simp only [Except.map, py_ok_bind, List.length_map]
    rfl

theorem l96_sde_later {d : ℕ} (c : ℝ) (o : L96 G d) :
    L96.sde { o with base := laterP c o.base } = { L96.sde o with time_window := (L96.sde o).time_window.map (List.map (· + c)) } := by
  simp only [L96.sde, L96.energy, laterP_timeStep, laterP_timeWindow]
  rcases o.base.timeWindow with e | tw
  · rfl
  · simp only [Except.map, py_ok_bind, List.length_map]
    rfl

theorem vgpCreate_later (c : ℝ) (p : AnyProc G) (m0 s0 : Arr) (f b : OdeFrontEnd) (L : AnyLike) (K : AnyPrior) (y t : Arr) :
    AnyVgp.create (later c p) m0 s0 f b L K y t = (AnyVgp.create p m0 s0 f b L K y t).map (AnyVgp.later c) := by
  cases p with
  | dw o => exact mk1_later c _ _ (dw_sde_later c o) m0 s0 f b L K y t
  | ou o => exact mk1_later c _ _ (ou_sde_later c o) m0 s0 f b L K y t
  | l63 o => exact mkN_later c _ _ (l63_sde_later c o) m0 s0 f b L K y t
  | l96 o => exact mkN_later c _ _ (l96_sde_later c o) m0 s0 f b L K y t

/-! ## `setup` -/

abbrev PData (G : Type) := MData (AnyProc G) Arr

/-- What two `m_data` have in common after the two `setup` calls, however they ended. -/
def Weak (m m' : PData G) : Prop :=
  ∃ w c, m' = { m with time_window := w, model := m.model.map (later c) } ∧ (do (← need w).item "dt" : Py Json) = do (← need m.time_window).item "dt"

/-- Two steps that do the same: from `Pre` they come to `Post`. -/
def Two (Pre Post : PData G → PData G → Prop) {α : Type} (P P' : Sim.Step (AnyProc G) Arr α) : Prop :=
  ∀ m m', Pre m m' → (P' m').1 = (P m).1 ∧ (∀ a, (P m).1 = .ok a → Post (P m).2 (P' m').2) ∧ Weak (P m).2 (P' m').2

variable {α β : Type} {c : ℝ} {Pre Mid Post : PData G → PData G → Prop}

theorem Two.bind {P P' : Sim.Step (AnyProc G) Arr α} {f f' : α → Sim.Step (AnyProc G) Arr β} (h : Two Pre Mid P P')
    (hf : ∀ a, Two Mid Post (f a) (f' a)) : Two Pre Post (P >>= f) (P' >>= f') := by
  intro m m' hm
  obtain ⟨h1, h2, h3⟩ := h m m' hm
  rcases hP : P m with ⟨r, n⟩
  rcases hP' : P' m' with ⟨r', n'⟩
  rw [hP, hP'] at h1 h2 h3
  dsimp only at h1 h2 h3
  subst h1
  cases r' with
  | ok a =>
    rw [ScgM.bind_step hP, ScgM.bind_step hP']
    exact hf a n n' (h2 a rfl)
  | error e =>
    rw [ScgM.bind_fail hP, ScgM.bind_fail hP']
    exact ⟨rfl, fun a ha => (by cases ha), h3⟩

theorem Two.of_ok {a a' : α} {f f' : α → Sim.Step (AnyProc G) Arr β} (h : Two Pre Post (f a) (f' a')) :
    Two Pre Post ((ScgM.lift (.ok a) : Sim.Step (AnyProc G) Arr α) >>= f) ((ScgM.lift (.ok a') : Sim.Step (AnyProc G) Arr α) >>= f') := h

theorem Two.of_view {a a' : α} {g g' : PData G → Py α} (hg : ∀ m m', Pre m m' → g m = .ok a ∧ g' m' = .ok a')
    {f f' : α → Sim.Step (AnyProc G) Arr β} (h : Two Pre Post (f a) (f' a')) : Two Pre Post (Sim.view g >>= f) (Sim.view g' >>= f') := by
  intro m m' hm
  rw [step_view (hg m m' hm).1, step_view (hg m m' hm).2]
  exact h m m' hm

theorem two_lift (hw : ∀ m m', Pre m m' → Weak m m') (p p' : Py α) (h : p' = p) : Two Pre Pre (ScgM.lift p : Sim.Step (AnyProc G) Arr α) (ScgM.lift p') := by
  subst h
  exact fun m m' hm => ⟨rfl, fun _ _ => hm, hw m m' hm⟩

theorem two_view (hw : ∀ m m', Pre m m' → Weak m m') {g g' : PData G → Py α} (h : ∀ m m', Pre m m' → g' m' = g m) :
    Two Pre Pre (Sim.view g) (Sim.view g') := fun m m' hm => ⟨h m m' hm, fun _ _ => hm, hw m m' hm⟩

theorem two_write (hw : ∀ m m', Post m m' → Weak m m') {g g' : PData G → PData G} (h : ∀ m m', Pre m m' → Post (g m) (g' m')) :
    Two Pre Post (Sim.write g) (Sim.write g') := fun m m' hm => ⟨rfl, fun _ _ => h m m' hm, hw _ _ (h m m' hm)⟩

/-- Equal but for the time window. -/
def Before (j j' : Json) (m m' : PData G) : Prop :=
  m.time_window = some j ∧ m' = { m with time_window := some j' }

/-- Equal but for the time window, and with a later process. -/
def After (c : ℝ) (j j' : Json) (m m' : PData G) : Prop :=
  m.time_window = some j ∧ m' = { m with time_window := some j', model := m.model.map (later c) }

theorem later_zero_opt (o : Option (AnyProc G)) : o.map (later 0) = o := by
  cases o
  · rfl
  · simp only [Option.map_some, later_zero]

theorem weak_eq (m m' : PData G) (h : m = m') : Weak m m' := by
  subst h
  refine ⟨m.time_window, 0, ?_, rfl⟩
  rw [later_zero_opt]

theorem weak_before {j j' : Json} (hj : j'.item "dt" = j.item "dt") (m m' : PData G) (h : Before j j' m m') : Weak m m' := by
  obtain ⟨h1, rfl⟩ := h
  refine ⟨some j', 0, by rw [later_zero_opt], ?_⟩
  rw [h1]
  exact hj

theorem weak_after {j j' : Json} (hj : j'.item "dt" = j.item "dt") (m m' : PData G) (h : After c j j' m m') : Weak m m' := by
  obtain ⟨h1, rfl⟩ := h
  refine ⟨some j', c, rfl, ?_⟩
  rw [h1]
  exact hj

theorem two_model {j j' : Json} (hj : j'.item "dt" = j.item "dt") {f f' : AnyProc G → Py α × AnyProc G}
    (h : ∀ p, f' (later c p) = ((f p).1, later c (f p).2)) : Two (After c j j') (After c j j') (Sim.onModel f) (Sim.onModel f') := by
  rintro m m' ⟨h1, rfl⟩
  have hA : After c j j' (Sim.onModel f m).2 (Sim.onModel f' { m with time_window := some j', model := m.model.map (later c) }).2
      ∧ (Sim.onModel f' { m with time_window := some j', model := m.model.map (later c) }).1 = (Sim.onModel f m).1 := by
    unfold Sim.onModel
    rcases hm : m.model with - | p
    · exact ⟨⟨h1, by simp only [hm, Option.map_none]⟩, rfl⟩
    · dsimp only [Option.map_some]
      rw [h]
      exact ⟨⟨h1, rfl⟩, rfl⟩
  exact ⟨hA.2, fun _ _ => hA.1, weak_after hj _ _ hA.1⟩

theorem two_pure (hw : ∀ m m', Pre m m' → Weak m m') (a : α) : Two Pre Pre (pure a : Sim.Step (AnyProc G) Arr α) (pure a) :=
  fun m m' hm => ⟨rfl, fun _ _ => hm, hw m m' hm⟩

theorem two_obs (E : Env G) {j j' : Json} (hj : j'.item "dt" = j.item "dt") (data : Option (Data Arr)) :
    Two (After c j j') (After c j j') (Sim.setupObs (pyClasses E) data) (Sim.setupObs (pyClasses E) data) := by
  have hw := weak_after (G := G) (c := c) hj
  have hwr : ∀ g : PData G → PData G, (∀ m, (g m).time_window = m.time_window) →
      (∀ m, g { m with time_window := some j', model := m.model.map (later c) } = { g m with time_window := some j', model := (g m).model.map (later c) }) →
      Two (After c j j') (After c j j') (Sim.write g) (Sim.write g) := by
    intro g h1 h2
    refine two_write hw ?_
    rintro m m' ⟨h, rfl⟩
    exact ⟨(h1 m).trans h, h2 m⟩
  unfold Sim.setupObs
  cases data with
  | some d =>
    refine (two_lift hw _ _ rfl).bind fun t => (hwr _ ?_ ?_).bind fun _ => (two_lift hw _ _ rfl).bind fun y => hwr _ ?_ ?_
    all_goals exact fun _ => rfl
  | none =>
    refine (two_view hw ?_).bind fun n => (two_view hw ?_).bind fun rn => (two_view hw ?_).bind fun op => (two_model hj ?_).bind fun r =>
      (hwr _ ?_ ?_).bind fun _ => (hwr _ ?_ ?_).bind fun _ => hwr _ ?_ ?_
    · rintro m m' ⟨-, rfl⟩; rfl
    · rintro m m' ⟨-, rfl⟩; rfl
    · rintro m m' ⟨-, rfl⟩; rfl
    · exact fun p => collectObs_later E c p n rn op
    all_goals exact fun _ => rfl

theorem two_moments (E : Env G) {j j' : Json} (hj : j'.item "dt" = j.item "dt") :
    Two (After c j j') (After c j j') (Sim.setupMoments (pyClasses E)) (Sim.setupMoments (pyClasses E)) := by
  have hw := weak_after (G := G) (c := c) hj
  have hwr : ∀ g : PData G → PData G, (∀ m, (g m).time_window = m.time_window) →
      (∀ m, g { m with time_window := some j', model := m.model.map (later c) } = { g m with time_window := some j', model := (g m).model.map (later c) }) →
      Two (After c j j') (After c j j') (Sim.write g) (Sim.write g) := by
    intro g h1 h2
    refine two_write hw ?_
    rintro m m' ⟨h, rfl⟩
    exact ⟨(h1 m).trans h, h2 m⟩
  unfold Sim.setupMoments
  refine (two_view hw ?_).bind fun one => (two_model hj ?_).bind fun m0 => (hwr _ ?_ ?_).bind fun _ => (two_view hw ?_).bind fun s0 =>
    (hwr _ ?_ ?_).bind fun _ => ?_
  · rintro m m' ⟨-, rfl⟩; rfl
  · exact fun p => firstMean_later E c p
  · exact fun _ => rfl
  · exact fun _ => rfl
  · rintro m m' ⟨-, rfl⟩
    rcases hm : m.model with - | p
    · rfl
    · simp only [Option.map_some, need, py_ok_bind, pyClasses, firstVar_later]
  · exact fun _ => rfl
  · exact fun _ => rfl
  cases one
  · refine (two_view hw ?_).bind fun mu0 => (hwr _ ?_ ?_).bind fun _ => (two_view hw ?_).bind fun tau0 => hwr _ ?_ ?_
    · rintro m m' ⟨-, rfl⟩
      rcases hm : m.model with - | p
      · rfl
      · simp only [Option.map_some, need, py_ok_bind, pyClasses, timesOnes_later]
    · exact fun _ => rfl
    · exact fun _ => rfl
    · rintro m m' ⟨-, rfl⟩
      rcases hm : m.model with - | p
      · rfl
      · simp only [Option.map_some, need, py_ok_bind, pyClasses, timesEye_later]
    · exact fun _ => rfl
    · exact fun _ => rfl
  · exact two_pure hw ()

theorem two_setup (E : Env G) {params params' : Json} (h : LaterParams c params params') (data : Option (Data Arr)) :
    ∃ j j', Two (fun m m' => m = m') (After c j j') (Sim.setupBody (pyClasses E) params data) (Sim.setupBody (pyClasses E) params' data) := by
  obtain ⟨ho, j, j', t0, tf, hw1, hw2, h01, h02, hf1, hf2, hj⟩ := h
  refine ⟨j, j', ?_⟩
  have hA := weak_after (G := G) (c := c) hj
  have hB := weak_before (G := G) hj
  have hwr : ∀ g : PData G → PData G, (∀ m, (g m).time_window = m.time_window) →
      (∀ m, g { m with time_window := some j' } = { g m with time_window := some j' }) →
      Two (Before j j') (Before j j') (Sim.write g) (Sim.write g) := by
    intro g h1 h2
    refine two_write hB ?_
    rintro m m' ⟨h, rfl⟩
    exact ⟨(h1 m).trans h, h2 m⟩
  unfold Sim.setupBody
  refine (two_lift weak_eq _ _ (ho _ (by decide))).bind fun v => (two_write (Post := fun m m' => m = m') weak_eq ?_).bind fun _ => ?_
  · rintro m m' rfl; rfl
  refine (two_lift weak_eq _ _ (ho _ (by decide))).bind fun v => (two_write (Post := fun m m' => m = m') weak_eq ?_).bind fun _ => ?_
  · rintro m m' rfl; rfl
  rw [hw1, hw2]
  refine Two.of_ok ?_
  refine (two_write (Post := Before j j') hB ?_).bind fun _ => ?_
  · rintro m m' rfl; exact ⟨rfl, rfl⟩
  refine (two_lift hB _ _ (ho _ (by decide))).bind fun v => (hwr _ ?_ ?_).bind fun _ => ?_
  · exact fun _ => rfl
  · exact fun _ => rfl
  refine (two_lift hB _ _ (ho _ (by decide))).bind fun v => (hwr _ ?_ ?_).bind fun _ => ?_
  · exact fun _ => rfl
  · exact fun _ => rfl
  refine (two_lift hB _ _ (ho _ (by decide))).bind fun v => (hwr _ ?_ ?_).bind fun _ => ?_
  · exact fun _ => rfl
  · exact fun _ => rfl
  refine (two_lift hB _ _ (by rw [ho _ (by decide)])).bind fun v => (hwr _ ?_ ?_).bind fun _ => ?_
  · exact fun _ => rfl
  · exact fun _ => rfl
  refine (two_lift hB _ _ (by rw [ho _ (by decide)])).bind fun v => (hwr _ ?_ ?_).bind fun _ => ?_
  · exact fun _ => rfl
  · exact fun _ => rfl
  refine (two_view hB (by rintro m m' ⟨-, rfl⟩; rfl)).bind fun sys => ?_
  refine (two_view hB (by rintro m m' ⟨-, rfl⟩; rfl)).bind fun th => ?_
  refine (two_view hB (by rintro m m' ⟨-, rfl⟩; rfl)).bind fun seed => ?_
  refine (two_lift hB _ _ (ho _ (by decide))).bind fun name => ?_
  rcases hp : Sim.stochasticModel (pyClasses E) name sys th seed with e | p
  · intro m m' hm
    exact ⟨rfl, fun a ha => (by cases ha), hB m m' hm⟩
  have hfresh : later c p = p := by
    unfold Sim.stochasticModel at hp
    rcases hk : Sim.findSystem name with - | k
    · rw [hk] at hp
      cases hp
    rw [hk] at hp
    dsimp only at hp
    split at hp
    · cases hp
    · exact create_fresh E c k sys th seed p hp
  refine Two.of_ok ?_
  refine (two_write (Post := After c j j') hA ?_).bind fun _ => ?_
  · rintro m m' ⟨h1, rfl⟩
    exact ⟨h1, by simp only [Option.map_some, hfresh]⟩
  refine (two_write (Post := After c j j') hA ?_).bind fun _ => ?_
  · rintro m m' ⟨h1, rfl⟩
    exact ⟨h1, rfl⟩
  refine Two.of_view (a := Json.num t0) (a' := Json.num (t0 + c)) ?_ ?_
  · rintro m m' ⟨h1, rfl⟩
    exact ⟨by rw [h1]; exact h01, h02⟩
  refine Two.of_view (a := Json.num tf) (a' := Json.num (tf + c)) ?_ ?_
  · rintro m m' ⟨h1, rfl⟩
    exact ⟨by rw [h1]; exact hf1, hf2⟩
  refine (two_view hA ?_).bind fun dt => (two_model hj (fun p => traj_later E c p t0 tf dt)).bind fun _ => (two_obs E hj data).bind fun _ => two_moments E hj
  rintro m m' ⟨h1, rfl⟩
  rw [h1]
  exact hj

/-! ## `run` -/

theorem runBody_later (E : Env G) {c : ℝ} {w : Option Json} (m : PData G) (hE : FitShifts E c)
    (hw : (do (← need w).item "dt" : Py Json) = do (← need m.time_window).item "dt") :
    Sim.runBody (pyClasses E) { m with time_window := w, model := m.model.map (later c) }
      = (Sim.runBody (pyClasses E) m).map fun r => (later c r.1, r.2.1, r.2.2.1, r.2.2.2.later c) := by
  have assoc : ∀ {β : Type} (o : Option Json) (k : Json → Py β), (do let d ← (← need o).item "dt"; k d) = (do let d ← (do (← need o).item "dt" : Py Json); k d) := by
    intro β o k
    cases o <;> rfl
  have hmap : ∀ {α β γ : Type} (p : Py α) (k : α → Py β) (g : β → γ), (p >>= k).map g = p >>= fun a => (k a).map g := by
    intro α β γ p k g
    cases p <;> rfl
  unfold Sim.runBody
  rw [assoc, assoc, hw]
  rw [hmap]
  congr 1; funext dt
  rw [hmap]
  congr 1; funext a1
  rw [hmap]
  congr 1; funext a2
  rw [hmap]
  congr 1; funext a3
  rw [hmap]
  congr 1; funext a4
  rw [hmap]
  congr 1; funext a5
  rw [hmap]
  congr 1; funext a6
  rw [hmap]
  congr 1; funext a7
  rw [hmap]
  congr 1; funext a8
  rw [hmap]
  congr 1; funext a9
  rw [hmap]
  congr 1; funext a10
  rw [hmap]
  congr 1; funext a11
  rw [hmap]
  congr 1; funext a12
  rw [hmap]
  congr 1; funext a13
  rw [hmap]
  congr 1; funext a14
  rw [hmap]
  congr 1; funext a15
  rw [hmap]
  congr 1; funext a16
  rw [hmap]
  congr 1; funext a17
  rw [hmap]
  rcases m.model with - | p
  · rfl
  simp only [Option.map_some, need, py_ok_bind]
  rw [hmap]
  congr 1; funext m0
  rw [hmap]
  congr 1; funext s0
  simp only [pyClasses]
  rw [vgpCreate_later]
  rcases AnyVgp.create p m0 s0 a3 a6 a13 a17 a7 a8 with e | v
  · rfl
  simp only [Except.map, py_ok_bind]
  rw [initialization_later E c hE]
  rcases AnyVgp.initialization E v with e | x0
  · rfl
  simp only [py_ok_bind]
  rw [optimize_later]
  rcases v.optimize x0 with ⟨e | ⟨x, fx⟩, v⟩ <;> rfl

theorem run_weak (E : Env G) (hE : ∀ c, FitShifts E c) {s s' : Sim (AnyProc G) Arr} (h : Weak s.m_data s'.m_data) (ho : s'.output = s.output) :
    (s'.run (pyClasses E)).1 = (s.run (pyClasses E)).1 ∧ (s'.run (pyClasses E)).2.output = (s.run (pyClasses E)).2.output := by
  obtain ⟨w, c, hm, hw⟩ := h
  unfold Sim.run
  rw [hm, runBody_later E s.m_data (hE c) hw]
  rcases Sim.runBody (pyClasses E) s.m_data with e | ⟨p, x, fx, v⟩
  · exact ⟨rfl, ho⟩
  simp only [Except.map, pyClasses, unpackA_later, unpackB_later, argOut_later]
  rcases p.unpackA x with e | a
  · exact ⟨rfl, ho⟩
  dsimp only
  rcases p.unpackB x with e | b
  · exact ⟨rfl, by simp only [ho]⟩
  · exact ⟨rfl, by simp only [ho]⟩

/-- C134: two parameter files of which one has a time window that starts and ends later by `c`, with the same step, give the same `setup` and the same
`run`: the same outcome, the same output. The process has the same path and draws the same observations. -/
theorem C134_origin_of_time (E : Env G) (hE : ∀ c, FitShifts E c) (c : ℝ) (params params' : Json) (h : LaterParams c params params') (data : Option (Data Arr))
    (s : Sim (AnyProc G) Arr) :
    let r := s.setup (pyClasses E) params data
    let r' := s.setup (pyClasses E) params' data
    r'.1 = r.1
      ∧ (r.1 = .ok () → r'.2.m_data.model = r.2.m_data.model.map (later c) ∧ r'.2.m_data.obs_t = r.2.m_data.obs_t ∧ r'.2.m_data.obs_y = r.2.m_data.obs_y
        ∧ r'.2.m_data.m0 = r.2.m_data.m0)
      ∧ (r'.2.run (pyClasses E)).1 = (r.2.run (pyClasses E)).1 ∧ (r'.2.run (pyClasses E)).2.output = (r.2.run (pyClasses E)).2.output := by
  obtain ⟨j, j', ht⟩ := two_setup E h data
  obtain ⟨h1, h2, h3⟩ := ht s.m_data s.m_data rfl
  refine ⟨h1, fun hr => ?_, run_weak E hE h3 rfl⟩
  obtain ⟨-, hA⟩ := h2 () hr
  simp only [Sim.setup, hA]
  exact ⟨trivial, trivial, trivial, trivial⟩

/-! ## Example -/

theorem stepFit_later {V : Type} (z : V) (c : ℝ) (xs : List ℝ) (ys : List V) (t : ℝ) :
    ys.getD ((xs.map (· + c)).countP fun x => decide (x ≤ t + c)) z = ys.getD (xs.countP fun x => decide (x ≤ t)) z := by
  rw [List.countP_map]
  congr 2
  funext x
  simp

/-- An interpolation by steps, for which the hypothesis of C134 holds. -/
def stepEnv (E : Env G) : Env G :=
  { E with fit1 := stepFit, fitN := fun _ xs ys t => ys.getD (xs.countP fun x => decide (x ≤ t)) 0 }

theorem stepEnv_shifts (E : Env G) (c : ℝ) : FitShifts (stepEnv E) c :=
  ⟨fun xs ys t => stepFit_later 0 c xs ys t, fun _ xs ys t => stepFit_later 0 c xs ys t⟩

/-- `/repo/sim_params_DW.json`, with the name of the model and the time window left open. -/
def windowParams (name : String) (t0 tf : ℝ) : Json :=
  .obj [("Time-window", .obj [("t0", .num t0), ("tf", .num tf), ("dt", .num 0.01)]), ("Model", .str name), ("Ode-method", .str "Euler"),
    ("Random-Seed", .num 31415926535), ("Noise", .obj [("sys", .num 0.8), ("obs", .num 0.04)]),
    ("Observations", .obj [("density", .num 2), ("operator", .null)]), ("Drift", .obj [("theta", .num 1)]),
    ("Prior", .obj [("tau0", .num 0.5), ("mu0", .num 1)])]

theorem windowParams_later (name : String) (t0 tf c : ℝ) : LaterParams c (windowParams name t0 tf) (windowParams name (t0 + c) (tf + c)) := by
  refine ⟨fun key hk => ?_, _, _, t0, tf, rfl, rfl, rfl, rfl, rfl, rfl, rfl⟩
  simp [windowParams, Json.item, List.lookup_cons, beq_eq_false_iff_ne.2 hk]

/-- The hypotheses are met by pairs of files for which `setup` and `run` complete: here with the windows `[0, 10]` and `[-3, 7]`. -/
example (E : Env G) (s : Sim (AnyProc G) Arr) :
    ((s.setup (pyClasses (stepEnv E)) (windowParams "DW" (0 + (-3)) (10 + (-3))) none).2.run (pyClasses (stepEnv E))).1 = .ok () := by
  rw [(C134_origin_of_time (stepEnv E) (stepEnv_shifts E) (-3) _ _ (windowParams_later "DW" 0 10 (-3)) none s).2.2.1]
  exact (C87_setup_and_run (stepEnv E) (Spec.exampleConfig "DW") _
    ⟨rfl, ⟨_, rfl, rfl⟩, ⟨_, rfl, rfl, rfl⟩, ⟨_, rfl, rfl, rfl, rfl⟩, rfl, rfl, ⟨_, rfl, rfl, rfl⟩, _, rfl, rfl, rfl⟩ 1000 (example_valid "DW" (.inl rfl)) s).2

end

end VGPA
