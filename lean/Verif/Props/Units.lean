import Verif.Props.Mirror
import Verif.Props.Below

/-!
# C142: the units of measurement of the state and of time do not matter

The numbers in a one-dimensional problem change when the state is measured in another unit (all states are multiplied by `c`) and when time is
measured in another unit (all times are divided by `r`, so rates are multiplied by `r`). For the Ornstein-Uhlenbeck process every choice of the two
units gives again an Ornstein-Uhlenbeck process. The double well `4 x (θ - x²)` keeps its form when `r = c²`.
-/

namespace VGPA

noncomputable section

namespace Spec

/-- All numbers multiplied by `a`. -/
def times (a : ℝ) (l : List ℝ) : List ℝ := l.map fun v => a * v

/-- Packed parameters, or a packed gradient: the first `n` numbers are multiplied by `a`, the others by `b`. -/
def inUnits (n : ℕ) (a b : ℝ) (x : List ℝ) : List ℝ := times a (x.take n) ++ times b (x.drop n)

/-- The moments, the drift moments and the multipliers that are stored, in other units. -/
def storedInUnits (c r : ℝ) (k : VgpCache ℝ ℝ) : VgpCache ℝ ℝ :=
  ⟨times c k.mt, times (c ^ 2) k.st, times (c * r) k.Efx, times r k.Edf, times c⁻¹ k.lamt, times (c ^ 2)⁻¹ k.psit⟩

end Spec

open Spec

theorem times_length (a : ℝ) (l : List ℝ) : (times a l).length = l.length := by simp [times]

theorem asFun_times (a : ℝ) (l : List ℝ) (k : ℕ) : asFun (times a l) k = a * asFun l k := by
  unfold asFun times
  rw [List.getD_eq_getElem?_getD, List.getD_eq_getElem?_getD, List.getElem?_map]
  cases l[k]? <;> simp

theorem ent_times (a : ℝ) (l : List ℝ) (k : ℕ) : ent (times a l) k = a * ent l k := asFun_times a l k

/-! ## The integrators -/

theorem solveFwd_units (meth : Method) {c r : ℝ} (hr : r ≠ 0) (hm : meth = .rk2 → r = c ^ 2) (dt : ℝ) (A b : List ℝ) (m0 s0 sigma : ℝ) :
    solveFwd meth rhs1 (dt / r) (times r A) (times (c * r) b) (c * m0) (c ^ 2 * s0) (c ^ 2 * r * sigma)
      = (solveFwd meth rhs1 dt A b m0 s0 sigma).map (fun q => (times c q.1, times (c ^ 2) q.2)) := by
  by_cases hc : b.length = 0 ∨ A.length < needA meth b.length
  · rw [solveFwd_err meth rhs1 dt A b m0 s0 sigma hc, solveFwd_err meth rhs1 _ _ _ _ _ _ (by simpa [times_length] using hc)]
    rfl
  · have hb : 0 < b.length := by omega
    have ha : needA meth b.length ≤ A.length := by omega
    rw [solveFwd_ok meth rhs1 dt A b m0 s0 sigma hb ha,
      solveFwd_ok meth rhs1 _ _ _ _ _ _ (by simpa [times_length] using hb) (by simpa [times_length] using ha)]
    have key : ∀ k, traj (c * m0, c ^ 2 * s0) (fwdStep meth rhs1 (dt / r) (asFun (times r A)) (asFun (times (c * r) b)) (c ^ 2 * r * sigma)) k
        = Prod.map (fun v => c * v) (fun v => c ^ 2 * v) (traj (m0, s0) (fwdStep meth rhs1 dt (asFun A) (asFun b) sigma) k) := by
      intro k
      induction k with
      | zero => rfl
      | succ k ih =>
        simp only [traj, ih]
        generalize traj (m0, s0) (fwdStep meth rhs1 dt (asFun A) (asFun b) sigma) k = x
        obtain ⟨x1, x2⟩ := x
        cases meth with
        | rk2 =>
          have := hm rfl
          subst this
          simp only [fwdStep, asFun_times, Prod.map, rhs1, smul_eq_mul]
          generalize asFun A k = a0
          generalize asFun A (k + 1) = a1
          generalize asFun b k = b0
          generalize asFun b (k + 1) = b1
          ext
          · dsimp only; field_simp; try ring
          · dsimp only; field_simp; try ring
        | _ =>
          simp only [fwdStep, asFun_times, Prod.map, rhs1, smul_eq_mul]
          generalize asFun A k = a0
          generalize asFun A (k + 1) = a1
          generalize asFun b k = b0
          generalize asFun b (k + 1) = b1
          ext
          · dsimp only; field_simp; try ring
          · dsimp only; field_simp; try ring
    simp only [key, Except.map, times_length, Prod.map]
    simp [times, Function.comp_def]

theorem solveBwd_units (meth : Method) {c r : ℝ} (hc : c ≠ 0) (hr : r ≠ 0) (dt : ℝ) (A em es om os : List ℝ) :
    solveBwd meth rhs1 (dt / r) (times r A) (times (r / c) em) (times (r / c ^ 2) es) (times c⁻¹ om) (times (c ^ 2)⁻¹ os)
      = (solveBwd meth rhs1 dt A em es om os).map (fun q => (times c⁻¹ q.1, times (c ^ 2)⁻¹ q.2)) := by
  by_cases hs : BwdShapes em.length A.length es.length om.length os.length
  · rw [solveBwd_ok meth rhs1 dt A em es om os hs, solveBwd_ok meth rhs1 _ _ _ _ _ _ (by simpa [times_length] using hs)]
    have key : ∀ k, traj 0 (fun i => bwdStep meth rhs1 (dt / r) (asFun (times r A)) (asFun (times (r / c) em))
          (asFun (times (r / c ^ 2) es)) (asFun (times c⁻¹ om)) (asFun (times (c ^ 2)⁻¹ os)) (em.length - 1 - i)) k
        = Prod.map (fun v => c⁻¹ * v) (fun v => (c ^ 2)⁻¹ * v) (traj 0 (fun i => bwdStep meth rhs1 dt (asFun A) (asFun em) (asFun es) (asFun om)
          (asFun os) (em.length - 1 - i)) k) := by
      intro k
      induction k with
      | zero => simp [traj, Prod.ext_iff]
      | succ k ih =>
        simp only [traj, ih]
        generalize traj 0 (fun i => bwdStep meth rhs1 dt (asFun A) (asFun em) (asFun es) (asFun om) (asFun os) (em.length - 1 - i)) k = x
        obtain ⟨x1, x2⟩ := x
        generalize em.length - 1 - k = t
        cases meth <;>
        · simp only [bwdStep, asFun_times, Prod.map, rhs1, smul_eq_mul]
          generalize asFun A (t - 1) = a0
          generalize asFun A t = a1
          generalize asFun em (t - 1) = b0
          generalize asFun em t = b1
          generalize asFun es (t - 1) = c0
          generalize asFun es t = c1
          ext
          · dsimp only; field_simp; try ring
          · dsimp only; field_simp; try ring
    simp only [key, Except.map, times_length, Prod.map]
    simp [times, Function.comp_def]
  · rw [solveBwd_err meth rhs1 dt A em es om os hs, solveBwd_err meth rhs1 _ _ _ _ _ _ (by simpa [times_length] using hs)]
    rfl

/-! ## Quadrature, likelihood and prior -/

theorem times_sum (a : ℝ) (l : List ℝ) : (times a l).sum = a * l.sum := by
  unfold times
  rw [List.sum_map_mul_left, List.map_id']

theorem trapezoid_units (a b dx : ℝ) (l : List ℝ) : trapezoid (dx * b) (times a l) = a * b * trapezoid dx l := by
  unfold trapezoid times
  rw [← List.map_dropLast, ← List.map_tail, List.zipWith_map]
  have := times_sum (a * b) (List.zipWith (fun p q : ℝ => (dx / 2) • (q + p)) l.dropLast l.tail)
  rw [← this, times, List.map_zipWith]
  congr 2
  funext p q
  simp only [smul_eq_mul]
  ring

theorem slice_times (a : ℝ) (l : List ℝ) (f t : ℕ) : slice (times a l) f t = times a (slice l f t) := by
  simp [slice, times]

theorem myTrapz_units (a b dx : ℝ) (fx : List ℝ) (obs : Option (List ℕ)) :
    myTrapz (times a fx) (dx * b) obs = a * b * myTrapz fx dx obs := by
  cases obs with
  | none => exact trapezoid_units a b dx fx
  | some obs =>
    have key : ∀ (l : List ℕ) (u : ℝ) (f : ℕ),
        l.foldl (fun (acc : ℝ × ℕ) k => (acc.1 + trapezoid (dx * b) (slice (times a fx) acc.2 (k + 1)), k)) (a * b * u, f)
          = Prod.map (fun v => a * b * v) id (l.foldl (fun (acc : ℝ × ℕ) k => (acc.1 + trapezoid dx (slice fx acc.2 (k + 1)), k)) (u, f)) := by
      intro l
      induction l with
      | nil => intro u f; rfl
      | cons k l ih =>
        intro u f
        simp only [List.foldl_cons, slice_times, trapezoid_units, ← mul_add]
        simp only [slice_times, trapezoid_units] at ih
        exact ih _ _
    have h0 := key obs 0 0
    rw [mul_zero] at h0
    simp only [myTrapz, h0, times_length]
    generalize obs.foldl (fun (acc : ℝ × ℕ) k => (acc.1 + trapezoid dx (slice fx acc.2 (k + 1)), k)) (0, 0) = q
    obtain ⟨u, f⟩ := q
    simp only [Prod.map, id]
    split
    · rw [show (times a fx).drop f = times a (fx.drop f) by simp [times], trapezoid_units]
      ring
    · rfl

theorem tab_times (n : ℕ) (a : ℝ) (f g : ℕ → ℝ) (h : ∀ i, f i = a * g i) : tab n f = times a (tab n g) := by
  unfold tab times
  rw [List.map_map]
  exact List.map_congr_left fun i _ => h i

theorem zipWith_times {f : ℝ → ℝ → ℝ} {c d u : ℝ} (h : ∀ m v, f (c * m) (d * v) = u * f m v) (m s : List ℝ) :
    List.zipWith f (times c m) (times d s) = times u (List.zipWith f m s) := by
  unfold times
  rw [List.zipWith_map, List.map_zipWith]
  simp only [h]

theorem fancy_times (a : ℝ) (l : List ℝ) (ks : List ℕ) : fancy (times a l) ks = (fancy l ks).map (times a) := fancy_map _ l ks

theorem bcast_times {f f' : ℝ → ℝ → ℝ} {c d u : ℝ} (h : ∀ x y, f' (c * x) (d * y) = u * f x y) (xs ys : List ℝ) :
    bcast f' (times c xs) (times d ys) = (bcast f xs ys).map (times u) :=
  bcast_map (g := fun v => c * v) (h := fun v => d * v) (u := fun v => u * v) h xs ys

theorem fancySet_times (a : ℝ) (n : ℕ) (ks : List ℕ) (vs : List ℝ) :
    fancySet (List.replicate n (0 : ℝ)) ks (times a vs) = (fancySet (List.replicate n 0) ks vs).map (times a) := by
  have := fancySet_map (fun v => a * v) ks vs (List.replicate n 0)
  rw [List.map_replicate, mul_zero] at this
  exact this

theorem log_unit {c x : ℝ} (hc : 0 < c) (hx : 0 < x) : Real.log (c ^ 2 * x) = 2 * Real.log c + Real.log x := by
  rw [Real.log_mul (by positivity) hx.ne', Real.log_pow]
  push_cast
  ring

theorem like1_call_units (L : Like1) {c : ℝ} (hc : 0 < c) (hR : 0 < L.obs_n) (m s : List ℝ) :
    ({ L with obs_v := times c L.obs_v, obs_n := c ^ 2 * L.obs_n } : Like1).gauss (times c m) (times (c ^ 2) s)
      = (L.gauss m s).map fun v => v + L.obs_t.length * Real.log c := by
  unfold Like1.gauss
  simp only [fancy_times, show (2.0 : ℝ) = 2 by norm_num, show (0.5 : ℝ) = 1 / 2 by norm_num]
  rcases fancy m L.obs_t with e | mo
  · rfl
  simp only [Except.map, py_ok_bind]
  rcases fancy s L.obs_t with e | so
  · rfl
  simp only [Except.map, py_ok_bind]
  rw [zipWith_times (f := fun m s => m ^ 2 + s) (u := c ^ 2) (by intros; ring),
    bcast_times (f := fun y m : ℝ => y ^ 2 - 2 * y * m) (u := c ^ 2) (by intros; ring)]
  rcases bcast (fun y m : ℝ => y ^ 2 - 2 * y * m) L.obs_v mo with e | q
  · rfl
  simp only [Except.map, py_ok_bind]
  rw [bcast_times (f := fun q e : ℝ => q + e) (u := c ^ 2) (by intros; ring)]
  rcases bcast (fun q e : ℝ => q + e) q (List.zipWith (fun m s => m ^ 2 + s) mo so) with e | w
  · rfl
  simp only [Except.map, py_ok_bind, py_pure, times_sum, log_unit hc hR]
  congr 1
  have := hR.ne'
  have := hc.ne'
  field_simp
  ring

/-- Whether an operation fails, and how. -/
def how {α : Type} (x : Py α) : Py Unit := x.map fun _ => ()

theorem how_bind {α β γ : Type} {x : Py α} {y : Py β} (h : how x = how y) (p : Py γ) : (x >>= fun _ => p) = y >>= fun _ => p := by
  rcases x with e | x <;> rcases y with e' | y <;> simp [how, Except.map] at h
  · subst h; rfl
  · rfl

theorem how_map {α β : Type} (x : Py α) (f : α → β) : how (x.map f) = how x := by cases x <;> rfl

theorem bcast_how {α β γ α' β' γ' : Type} (f : α → β → γ) (f' : α' → β' → γ') (xs : List α) (ys : List β) (xs' : List α') (ys' : List β')
    (hx : xs'.length = xs.length) (hy : ys'.length = ys.length) :
    (bcast f' xs' ys').map (List.map fun _ => ()) = (bcast f xs ys).map (List.map fun _ => ()) := by
  rw [← bcast_map (f := f) (f' := fun _ _ => ()) (g := fun _ => ()) (h := fun _ => ()) (u := fun _ => ()) (fun _ _ => rfl),
    ← bcast_map (f := f') (f' := fun _ _ => ()) (g := fun _ => ()) (h := fun _ => ()) (u := fun _ => ()) (fun _ _ => rfl)]
  simp only [List.map_const', hx, hy]

theorem fancySet_how {α β : Type} (l : List α) (l' : List β) (ks : List ℕ) (vs : List α) (vs' : List β) (hl : l'.length = l.length)
    (hv : vs'.length = vs.length) : how (fancySet l' ks vs') = how (fancySet l ks vs) := by
  have h1 := fancySet_map (fun _ => ()) ks vs l
  have h2 := fancySet_map (fun _ => ()) ks vs' l'
  simp only [List.map_const', hl, hv] at h1 h2
  rw [← how_map (fancySet l' ks vs') (List.map fun _ => ()), ← how_map (fancySet l ks vs) (List.map fun _ => ())]
  rw [← h1, ← h2]

theorem like1_grad_units (L : Like1) {c : ℝ} (hc : 0 < c) (m s : List ℝ) :
    (Like1.toIf { L with obs_v := times c L.obs_v, obs_n := c ^ 2 * L.obs_n }).gradients (times c m) (times (c ^ 2) s)
      = (L.toIf.gradients m s).map fun q => (times c⁻¹ q.1, times (c ^ 2)⁻¹ q.2) := by
  have hc' := hc.ne'
  unfold Like1.toIf Like1.gradients
  simp only [fancy_times, times_length, show (2.0 : ℝ) = 2 by norm_num, show (0.5 : ℝ) = 1 / 2 by norm_num]
  rcases fancy m L.obs_t with e | mo
  · rfl
  simp only [Except.map, py_ok_bind]
  rcases fancy s L.obs_t with e | so
  · rfl
  simp only [Except.map, py_ok_bind]
  rw [bcast_times (f := fun y m : ℝ => y - L.obs_h * m) (u := c) (by intros; ring)]
  rcases bcast (fun y m : ℝ => y - L.obs_h * m) L.obs_v mo with e | W
  · rfl
  simp only [Except.map, py_ok_bind]
  have e1 : (times c W).map (fun w => -w / (c ^ 2 * L.obs_n)) = times c⁻¹ (W.map fun w => -w / L.obs_n) := by
    unfold times
    rw [List.map_map, List.map_map]
    refine List.map_congr_left fun w _ => ?_
    simp only [Function.comp]
    field_simp
  have e2 : L.obs_t.map (fun _ => 1 / 2 / (c ^ 2 * L.obs_n)) = times (c ^ 2)⁻¹ (L.obs_t.map fun _ => 1 / 2 / L.obs_n) := by
    unfold times
    rw [List.map_map]
    refine List.map_congr_left fun w _ => ?_
    simp only [Function.comp]
    field_simp
  rw [e1, e2, fancySet_times, fancySet_times]
  rcases fancySet (List.replicate m.length (0 : ℝ)) L.obs_t (W.map fun w => -w / L.obs_n) with e | dm
  · rfl
  simp only [Except.map, py_ok_bind]
  rcases fancySet (List.replicate m.length (0 : ℝ)) L.obs_t (L.obs_t.map fun _ => 1 / 2 / L.obs_n) with e | ds
  · rfl
  simp only [Except.map, py_ok_bind]
  rw [bcast_times (f := fun y m : ℝ => y ^ 2 - 2 * y * m) (u := c ^ 2) (by intros; ring)]
  rcases bcast (fun y m : ℝ => y ^ 2 - 2 * y * m) L.obs_v mo with e | q
  · rfl
  simp only [Except.map, py_ok_bind]
  have hb := bcast_how (fun q e : ℝ => q + e + 1.0) (fun q e : ℝ => q + e + 1.0) q (List.zipWith (fun m s => m ^ 2 + s) mo so) (times (c ^ 2) q)
    (List.zipWith (fun m s => m ^ 2 + s) (times c mo) (times (c ^ 2) so)) (times_length _ _) (by simp [times_length])
  generalize bcast (fun q e : ℝ => q + e + 1.0) q (List.zipWith (fun m s => m ^ 2 + s) mo so) = u at hb ⊢
  generalize bcast (fun q e : ℝ => q + e + 1.0) (times (c ^ 2) q) (List.zipWith (fun m s => m ^ 2 + s) (times c mo) (times (c ^ 2) so)) = u' at hb ⊢
  rcases u with e | u <;> rcases u' with e' | u' <;> simp [Except.map] at hb
  · subst hb; rfl
  simp only [py_ok_bind]
  have hd := fancySet_how (List.replicate m.length (0 : ℝ)) (List.replicate m.length (0 : ℝ)) L.obs_t (u.map fun r => -(1 / 2) * r / L.obs_n)
    (u'.map fun r => -(1 / 2) * r / (c ^ 2 * L.obs_n)) rfl (by simp [hb])
  rcases hx : fancySet (List.replicate m.length (0 : ℝ)) L.obs_t (u.map fun r => -(1 / 2) * r / L.obs_n) with e | v <;>
    rcases hx' : fancySet (List.replicate m.length (0 : ℝ)) L.obs_t (u'.map fun r => -(1 / 2) * r / (c ^ 2 * L.obs_n)) with e' | v' <;>
    rw [hx, hx'] at hd <;> simp [how, Except.map] at hd
  · subst hd; rfl
  · rfl

theorem prior1_units (K : Prior1) {c : ℝ} (hc : 0 < c) (ht : 0 < K.tau0) (m s : ℝ) (hs : 0 < s) :
    Prior1.gauss ⟨c * K.mu0, c ^ 2 * K.tau0⟩ (c * m) (c ^ 2 * s) = K.gauss m s - Real.log c := by
  unfold Prior1.gauss
  simp only [log_unit hc hs, log_unit hc ht, show (0.5 : ℝ) = 1 / 2 by norm_num, show (1.0 : ℝ) = 1 by norm_num]
  have := hc.ne'
  have := ht.ne'
  field_simp
  ring

/-! ## The processes -/

/-- What `energy` returns to the variational object, in other units. -/
def SdeTerms.inUnits (c r : ℝ) (e : SdeTerms ℝ ℝ) : SdeTerms ℝ ℝ :=
  ⟨e.Esde, times (c * r) e.Efx, times r e.Edf, times (r / c) e.dm, times (r / c ^ 2) e.ds⟩

theorem timeStep_units {G : Type} (p p' : Proc G ℝ) {r : ℝ} (hr : 0 < r) (h : p'.tk = p.tk.map (List.map fun t => t / r)) :
    p'.timeStep = p.timeStep.map fun d => d * r⁻¹ := by
  unfold Proc.timeStep
  rw [h]
  rcases p.tk with - | t
  · rfl
  simp only [Option.map_some, idx_map]
  rcases idx t 1 with e | t1
  · rfl
  simp only [Except.map, py_ok_bind]
  rcases idx t 0 with e | t0
  · rfl
  simp only [Except.map, py_ok_bind, py_pure]
  rw [← sub_div, abs_div, abs_of_pos hr, div_eq_mul_inv]

theorem ou_energy_units {G : Type} (p p' : OU G) {c r : ℝ} (hc : 0 < c) (hr : 0 < r) (hth : p'.theta = r * p.theta) (hsg : p'.sigma = c ^ 2 * r * p.sigma)
    (htk : p'.base.tk = p.base.tk.map (List.map fun t => t / r)) (a b m s : List ℝ) (t : List ℕ) :
    p'.sde.energy (times r a) (times (c * r) b) (times c m) (times (c ^ 2) s) t = (p.sde.energy a b m s t).map (SdeTerms.inUnits c r) := by
  have hc' := hc.ne'
  have hr' := hr.ne'
  simp only [OU.sde]
  unfold OU.energy GaussianMoments.init
  rw [timeStep_units p.base p'.base hr htk]
  simp only [times_length, hth, hsg]
  split
  · rfl
  simp only [py_ok_bind]
  rcases p.base.timeStep with e | dt
  · rfl
  have c2 : ∀ g : GaussianMoments, g.call 2 = .ok (List.zipWith (fun m v => m ^ 2 + v) g.m_arr g.v_arr) := fun _ => rfl
  simp only [Except.map, py_ok_bind, c2]
  split
  · rfl
  rw [zipWith_times (f := fun m v => m ^ 2 + v) (u := c ^ 2) (by intros; ring)]
  simp only [ent_times, py_pure, py_ok_bind, SdeTerms.inUnits]
  simp only [show (2.0 : ℝ) = 2 by norm_num, show (0.5 : ℝ) = 1 / 2 by norm_num]
  have q1 : (tab m.length fun i => (r * p.theta - r * ent a i) ^ 2) = times (r ^ 2) (tab m.length fun i => (p.theta - ent a i) ^ 2) :=
    tab_times _ _ _ _ fun i => by ring
  have q2 : (tab m.length fun i => r * ent a i * (c * r * ent b i)) = times (c * r ^ 2) (tab m.length fun i => ent a i * ent b i) :=
    tab_times _ _ _ _ fun i => by ring
  rw [q1, q2]
  simp only [ent_times]
  congr 1
  rw [SdeTerms.mk.injEq]
  refine ⟨?_, ?_, ?_, ?_, ?_⟩
  · rw [tab_times _ ((c * r) ^ 2) _ _ fun i => by
      show _ = _ * (ent (List.zipWith (fun m v => m ^ 2 + v) m s) i * ent (tab m.length fun i => (p.theta - ent a i) ^ 2) i + 2 * ent m i * (p.theta - ent a i) * ent b i + ent b i ^ 2)
      ring, myTrapz_units]
    field_simp
  · exact tab_times _ _ _ _ fun i => by ring
  · exact tab_times _ _ _ _ fun i => by ring
  · exact tab_times _ _ _ _ fun i => by field_simp
  · exact tab_times _ _ _ _ fun i => by field_simp

theorem dw_energy_units {G : Type} (p p' : DW G) {c : ℝ} (hc : 0 < c) (hth : p'.theta = c ^ 2 * p.theta) (hsg : p'.sigma = c ^ 2 * c ^ 2 * p.sigma)
    (htk : p'.base.tk = p.base.tk.map (List.map fun t => t / c ^ 2)) (a b m s : List ℝ) (t : List ℕ) :
    p'.sde.energy (times (c ^ 2) a) (times (c * c ^ 2) b) (times c m) (times (c ^ 2) s) t = (p.sde.energy a b m s t).map (SdeTerms.inUnits c (c ^ 2)) := by
  have hc' := hc.ne'
  simp only [DW.sde]
  unfold DW.energy GaussianMoments.init
  rw [timeStep_units p.base p'.base (pow_pos hc 2) htk]
  simp only [times_length, hth, hsg]
  split
  · rfl
  simp only [py_ok_bind]
  rcases p.base.timeStep with e | dt
  · rfl
  have c2 : ∀ g : GaussianMoments, g.call 2 = .ok (List.zipWith (fun m v => m ^ 2 + v) g.m_arr g.v_arr) := fun _ => rfl
  have c3 : ∀ g : GaussianMoments, g.call 3 = .ok (List.zipWith (fun m v => m ^ 3 + 3 * m * v) g.m_arr g.v_arr) := fun _ => rfl
  have c4 : ∀ g : GaussianMoments, g.call 4 = .ok (List.zipWith (fun m v => m ^ 4 + 6 * (m ^ 2) * v + 3 * (v ^ 2)) g.m_arr g.v_arr) := fun _ => rfl
  have c6 : ∀ g : GaussianMoments, g.call 6 = .ok (List.zipWith (fun m v =>
    m ^ 6 + 15 * (m ^ 4) * v + 45 * (m ^ 2) * (v ^ 2) + 15 * (v ^ 3)) g.m_arr g.v_arr) := fun _ => rfl
  have d2 : ∀ g : GaussianMoments, g.dm 2 = .ok (List.zipWith (fun m _ => 2 * m) g.m_arr g.v_arr) := fun _ => rfl
  have d3 : ∀ g : GaussianMoments, g.dm 3 = .ok (List.zipWith (fun m v => 3 * (m ^ 2 + v)) g.m_arr g.v_arr) := fun _ => rfl
  have d4 : ∀ g : GaussianMoments, g.dm 4 = .ok (List.zipWith (fun m v => 4 * (m ^ 3 + 3 * m * v)) g.m_arr g.v_arr) := fun _ => rfl
  have d6 : ∀ g : GaussianMoments, g.dm 6 = .ok (List.zipWith (fun m v => 6 * (m ^ 5 + 10 * (m ^ 3) * v + 15 * m * (v ^ 2))) g.m_arr g.v_arr) :=
    fun _ => rfl
  have s2 : ∀ g : GaussianMoments, g.ds 2 = .ok (List.replicate g.n_size 1) := fun _ => rfl
  have s3 : ∀ g : GaussianMoments, g.ds 3 = .ok (List.zipWith (fun m _ => 3 * m) g.m_arr g.v_arr) := fun _ => rfl
  have s4 : ∀ g : GaussianMoments, g.ds 4 = .ok (List.zipWith (fun m v => 6 * (m ^ 2 + v)) g.m_arr g.v_arr) := fun _ => rfl
  have s6 : ∀ g : GaussianMoments, g.ds 6 = .ok (List.zipWith (fun m v => 15 * (m ^ 4) + 90 * (m ^ 2) * v + 45 * (v ^ 2)) g.m_arr g.v_arr) :=
    fun _ => rfl
  simp only [Except.map, py_ok_bind, c2, c3, c4, c6, d2, d3, d4, d6, s2, s3, s4, s6]
  split
  · rfl
  rw [zipWith_times (f := fun m v => m ^ 2 + v) (u := c ^ 2) (by intros; ring),
    zipWith_times (f := fun m v => m ^ 3 + 3 * m * v) (u := c ^ 3) (by intros; ring),
    zipWith_times (f := fun m v => m ^ 4 + 6 * (m ^ 2) * v + 3 * (v ^ 2)) (u := c ^ 4) (by intros; ring),
    zipWith_times (f := fun m v => m ^ 6 + 15 * (m ^ 4) * v + 45 * (m ^ 2) * (v ^ 2) + 15 * (v ^ 3)) (u := c ^ 6) (by intros; ring),
    zipWith_times (f := fun m _ => 2 * m) (u := c) (by intros; ring), zipWith_times (f := fun m v => 3 * (m ^ 2 + v)) (u := c ^ 2) (by intros; ring),
    zipWith_times (f := fun m v => 4 * (m ^ 3 + 3 * m * v)) (u := c ^ 3) (by intros; ring),
    zipWith_times (f := fun m v => 6 * (m ^ 5 + 10 * (m ^ 3) * v + 15 * m * (v ^ 2))) (u := c ^ 5) (by intros; ring),
    zipWith_times (f := fun m _ => 3 * m) (u := c) (by intros; ring), zipWith_times (f := fun m v => 6 * (m ^ 2 + v)) (u := c ^ 2) (by intros; ring),
    zipWith_times (f := fun m v => 15 * (m ^ 4) + 90 * (m ^ 2) * v + 45 * (v ^ 2)) (u := c ^ 4) (by intros; ring)]
  simp only [ent_times, py_pure, py_ok_bind, SdeTerms.inUnits]
  simp only [show (8.0 : ℝ) = 8 by norm_num, show (4.0 : ℝ) = 4 by norm_num, show (2.0 : ℝ) = 2 by norm_num, show (16.0 : ℝ) = 16 by norm_num,
    show (3.0 : ℝ) = 3 by norm_num, show (0.5 : ℝ) = 1 / 2 by norm_num]
  have q1 : (tab m.length fun i => 4 * (c ^ 2 * p.theta) + c ^ 2 * ent a i) = times (c ^ 2) (tab m.length fun i => 4 * p.theta + ent a i) :=
    tab_times _ _ _ _ fun i => by ring
  rw [q1]
  simp only [ent_times]
  have q2 : (tab m.length fun i => (c ^ 2 * ent (tab m.length fun i => 4 * p.theta + ent a i) i) ^ 2)
      = times (c ^ 4) (tab m.length fun i => (ent (tab m.length fun i => 4 * p.theta + ent a i) i) ^ 2) :=
    tab_times _ _ _ _ fun i => by ring
  rw [q2]
  simp only [ent_times]
  generalize (tab m.length fun i => (ent (tab m.length fun i => 4 * p.theta + ent a i) i) ^ 2) = u2
  generalize (tab m.length fun i => 4 * p.theta + ent a i) = u
  generalize List.zipWith (fun m v : ℝ => m ^ 2 + v) m s = z2
  generalize List.zipWith (fun m v : ℝ => m ^ 3 + 3 * m * v) m s = z3
  generalize List.zipWith (fun m v : ℝ => m ^ 4 + 6 * (m ^ 2) * v + 3 * (v ^ 2)) m s = z4
  generalize List.zipWith (fun m v : ℝ => m ^ 6 + 15 * (m ^ 4) * v + 45 * (m ^ 2) * (v ^ 2) + 15 * (v ^ 3)) m s = z6
  generalize List.zipWith (fun m _ : ℝ => 2 * m) m s = y2
  generalize List.zipWith (fun m v : ℝ => 3 * (m ^ 2 + v)) m s = y3
  generalize List.zipWith (fun m v : ℝ => 4 * (m ^ 3 + 3 * m * v)) m s = y4
  generalize List.zipWith (fun m v : ℝ => 6 * (m ^ 5 + 10 * (m ^ 3) * v + 15 * m * (v ^ 2))) m s = y6
  generalize List.zipWith (fun m _ : ℝ => 3 * m) m s = x3
  generalize List.zipWith (fun m v : ℝ => 6 * (m ^ 2 + v)) m s = x4
  generalize List.zipWith (fun m v : ℝ => 15 * (m ^ 4) + 90 * (m ^ 2) * v + 45 * (v ^ 2)) m s = x6
  congr 1
  rw [SdeTerms.mk.injEq]
  refine ⟨?_, ?_, ?_, ?_, ?_⟩
  · rw [tab_times _ (c ^ 6) _ _ fun i => by
      show _ = _ * (8 * (ent z6 i - ent u i * ent z4 i + ent b i * ent z3 i) + (ent u2 i * ent z2 i) - (2 * ent b i * ent u i * ent m i) + (ent b i ^ 2))
      ring, myTrapz_units]
    field_simp
  · exact tab_times _ _ _ _ fun i => by ring
  · exact tab_times _ _ _ _ fun i => by ring
  · exact tab_times _ _ _ _ fun i => by field_simp
  · exact tab_times _ _ _ _ fun i => by field_simp

/-! ## The variational object -/

namespace Spec

/-- `o'` is the one-dimensional problem `o`, with states multiplied by `c` and times divided by `r`.

* The process is an Ornstein-Uhlenbeck process, or a double well if `r = c²`; the drift parameter is a rate, the system noise a squared state per time,
  and the inverse of the noise is what the constructor computes from the noise. The stored path is arbitrary in the second.
* Means and observations are multiplied by `c`, variances by `c²`.
* The grid, the time step and the step of the two integrators are divided by `r`; the methods of integration are the same.
* Stored moments of earlier calls, if any, belong to each other. -/
structure Rescaled (G : Type) (c r : ℝ) (o o' : VarGP ℝ ℝ) : Prop where
  units : 0 < c ∧ 0 < r
  process : (∃ p p' : OU G, o.model = p.sde ∧ o'.model = p'.sde ∧ p'.theta = r * p.theta ∧ p'.sigma = c ^ 2 * r * p.sigma
      ∧ p.sig_inv = 1.0 / p.sigma ∧ p'.sig_inv = 1.0 / p'.sigma ∧ p'.base.tk = p.base.tk.map (List.map fun t => t / r))
    ∨ r = c ^ 2 ∧ ∃ p p' : DW G, o.model = p.sde ∧ o'.model = p'.sde ∧ p'.theta = r * p.theta ∧ p'.sigma = c ^ 2 * r * p.sigma
      ∧ p.sig_inv = 1.0 / p.sigma ∧ p'.sig_inv = 1.0 / p'.sigma ∧ p'.base.tk = p.base.tk.map (List.map fun t => t / r)
  like : ∃ L : Like1, 0 < L.obs_n ∧ L.obs_t = o.obs_t ∧ o.likelihood = L.toIf
    ∧ o'.likelihood = Like1.toIf { L with obs_v := times c L.obs_v, obs_n := c ^ 2 * L.obs_n }
  prior : ∃ K : Prior1, 0 < K.tau0 ∧ o.kl0 = (fun m s => .ok (K.gauss m s))
    ∧ o'.kl0 = fun m s => .ok (Prior1.gauss ⟨c * K.mu0, c ^ 2 * K.tau0⟩ m s)
  m0 : o'.m0 = c * o.m0
  s0 : 0 < o.s0 ∧ o'.s0 = c ^ 2 * o.s0
  obs_t : o'.obs_t = o.obs_t
  grid : o'.dim_n = o.dim_n ∧ o'.dt = o.dt / r
  solvers : o'.fwd_ode.solver = o.fwd_ode.solver ∧ o'.bwd_ode.solver = o.bwd_ode.solver
    ∧ o'.fwd_ode.dt = o.fwd_ode.dt / r ∧ o'.bwd_ode.dt = o.bwd_ode.dt / r
  stored : o'.cache = o.cache.map (storedInUnits c r)

end Spec

variable {G : Type} {c r : ℝ} {o o' : VarGP ℝ ℝ}

theorem unpack_units (n : ℕ) (a b : ℝ) (x : List ℝ) :
    shape1.unpackF n (inUnits n a b x) = (shape1.unpackF n x).map fun q => (times a q.1, times b q.2) := by
  simp only [shape1, inUnits, Except.map, mul_one]
  rcases le_total n x.length with h | h
  · rw [List.take_left' (by simpa [times_length] using h), List.drop_left' (by simpa [times_length] using h)]
  · rw [List.drop_eq_nil_of_le h, List.take_of_length_le h]
    simp [times, h]

theorem Spec.Rescaled.energy (h : Rescaled G c r o o') (a b m s : List ℝ) :
    o'.model.energy (times r a) (times (c * r) b) (times c m) (times (c ^ 2) s) o.obs_t
      = (o.model.energy a b m s o.obs_t).map (SdeTerms.inUnits c r) := by
  rcases h.process with ⟨p, p', e, e', h1, h2, -, -, h3⟩ | ⟨rfl, p, p', e, e', h1, h2, -, -, h3⟩
  · rw [e, e']
    exact ou_energy_units p p' h.units.1 h.units.2 h1 h2 h3 a b m s o.obs_t
  · rw [e, e']
    exact dw_energy_units p p' h.units.1 h1 h2 h3 a b m s o.obs_t

theorem Spec.Rescaled.sigma (h : Rescaled G c r o o') : o'.model.sigma = c ^ 2 * r * o.model.sigma := by
  rcases h.process with ⟨p, p', e, e', h1, h2, -, -, h3⟩ | ⟨rfl, p, p', e, e', h1, h2, -, -, h3⟩ <;> rw [e, e'] <;> exact h2

theorem Spec.Rescaled.isigma (h : Rescaled G c r o o') : o'.model.inverse_sigma = (c ^ 2 * r)⁻¹ * o.model.inverse_sigma := by
  rcases h.process with ⟨p, p', e, e', h1, h2, h3, h4, -⟩ | ⟨rfl, p, p', e, e', h1, h2, h3, h4, -⟩ <;> rw [e, e'] <;>
  · simp only [OU.sde, DW.sde]
    rw [h3, h4, h2, show (1.0 : ℝ) = 1 by norm_num, one_div, one_div, mul_inv]

theorem Spec.Rescaled.call (h : Rescaled G c r o o') (m s : List ℝ) :
    o'.likelihood.call (times c m) (times (c ^ 2) s) = (o.likelihood.call m s).map fun v => v + o.obs_t.length * Real.log c := by
  obtain ⟨L, hR, ht, e, e'⟩ := h.like
  rw [e, e', ← ht]
  exact like1_call_units L h.units.1 hR m s

theorem Spec.Rescaled.grad (h : Rescaled G c r o o') (m s : List ℝ) :
    o'.likelihood.gradients (times c m) (times (c ^ 2) s) = (o.likelihood.gradients m s).map fun q => (times c⁻¹ q.1, times (c ^ 2)⁻¹ q.2) := by
  obtain ⟨L, hR, ht, e, e'⟩ := h.like
  rw [e, e']
  exact like1_grad_units L h.units.1 m s

theorem eval_units (h : Rescaled G c r o o') (hm : o.fwd_ode.solver = .rk2 → r = c ^ 2) (x : List ℝ) :
    o'.eval shape1 (inUnits o.dim_n r (c * r) x)
      = (o.eval shape1 x).map fun q => (q.1 + ((o.obs_t.length : ℝ) - 1) * Real.log c, storedInUnits c r q.2) := by
  obtain ⟨K, hK, e, e'⟩ := h.prior
  unfold VarGP.eval
  rw [h.grid.1, unpack_units, h.m0, h.s0.2, h.sigma, h.solvers.1, h.solvers.2.1, h.solvers.2.2.1, h.solvers.2.2.2, h.obs_t, e, e']
  rcases shape1.unpackF o.dim_n x with er | ⟨a, b⟩
  · rfl
  simp only [Except.map, py_ok_bind]
  rw [show shape1.rhs = rhs1 from rfl, solveFwd_units o.fwd_ode.solver h.units.2.ne' hm]
  rcases solveFwd o.fwd_ode.solver rhs1 o.fwd_ode.dt a b o.m0 o.s0 o.model.sigma with er | ⟨mt, st⟩
  · rfl
  simp only [Except.map, py_ok_bind]
  rw [h.call]
  rcases o.likelihood.call mt st with er | Eobs
  · rfl
  simp only [Except.map, py_ok_bind]
  rw [h.energy]
  rcases o.model.energy a b mt st o.obs_t with er | en
  · rfl
  simp only [Except.map, py_ok_bind]
  rw [h.grad]
  rcases o.likelihood.gradients mt st with er | ⟨gm, gs⟩
  · rfl
  simp only [Except.map, py_ok_bind, SdeTerms.inUnits]
  rw [solveBwd_units o.bwd_ode.solver h.units.1.ne' h.units.2.ne']
  rcases solveBwd o.bwd_ode.solver rhs1 o.bwd_ode.dt a en.dm en.ds gm gs with er | ⟨lam, psi⟩
  · rfl
  simp only [Except.map, py_ok_bind, py_pure, prior1_units K h.units.1 hK o.m0 o.s0 h.s0.1]
  congr 2
  ring

theorem freeEnergy_units (h : Rescaled G c r o o') (hm : o.fwd_ode.solver = .rk2 → r = c ^ 2) (x : List ℝ) :
    (o'.freeEnergy shape1 (inUnits o.dim_n r (c * r) x)).1 = (o.freeEnergy shape1 x).1.map (fun F => F + ((o.obs_t.length : ℝ) - 1) * Real.log c)
      ∧ Rescaled G c r (o.freeEnergy shape1 x).2 (o'.freeEnergy shape1 (inUnits o.dim_n r (c * r) x)).2 := by
  unfold VarGP.freeEnergy
  rw [eval_units h hm]
  rcases o.eval shape1 x with e | ⟨F, k⟩
  · exact ⟨rfl, h⟩
  · exact ⟨rfl, { h with stored := rfl }⟩

theorem idx_times (a : ℝ) (l : List ℝ) (k : ℕ) : idx (times a l) k = (idx l k).map fun v => a * v := idx_map _ l k

theorem gradRow_units (h : Rescaled G c r o o') (k : VgpCache ℝ ℝ) (a b : List ℝ) (i : ℕ) :
    VarGP.gradRow shape1 o' (storedInUnits c r k) (times r a) (times (c * r) b) i = (VarGP.gradRow shape1 o k a b i).map fun q => (q.1, c⁻¹ * q.2) := by
  have hc := h.units.1.ne'
  have hr := h.units.2.ne'
  unfold VarGP.gradRow storedInUnits
  simp only [idx_times, h.isigma]
  rcases idx a i with e | ak
  · rfl
  simp only [Except.map, py_ok_bind]
  rcases idx k.st i with e | sk
  · rfl
  simp only [Except.map, py_ok_bind]
  rcases idx k.mt i with e | mk
  · rfl
  simp only [Except.map, py_ok_bind]
  rcases idx k.lamt i with e | lk
  · rfl
  simp only [Except.map, py_ok_bind]
  rcases idx k.Efx i with e | ek
  · rfl
  simp only [Except.map, py_ok_bind]
  rcases idx b i with e | bk
  · rfl
  simp only [Except.map, py_ok_bind]
  rcases idx k.Edf i with e | fk
  · rfl
  simp only [Except.map, py_ok_bind]
  rcases idx k.psit i with e | pk
  · rfl
  simp only [Except.map, py_ok_bind, py_pure, shape1, show (2.0 : ℝ) = 2 by norm_num]
  congr 2
  · field_simp
  · field_simp

theorem gradBody_units (h : Rescaled G c r o o') (x : List ℝ) :
    o'.gradBody shape1 (inUnits o.dim_n r (c * r) x) = (o.gradBody shape1 x).map (inUnits o.dim_n r⁻¹ (c * r)⁻¹) := by
  unfold VarGP.gradBody
  have hu := unpack_units o.dim_n r (c * r) x
  rw [show shape1.unpackF = shape1.unpackG from rfl] at hu
  rw [h.grid.1, hu, h.stored, h.grid.2]
  rcases shape1.unpackG o.dim_n x with e | ⟨a, b⟩
  · rfl
  simp only [Except.map, py_ok_bind]
  rcases o.cache with - | k
  · rfl
  simp only [Option.map_some, funext (gradRow_units h k a b)]
  rw [mapM_map_py]
  rcases hr : (List.range o.dim_n).mapM (VarGP.gradRow shape1 o k a b) with e | rows
  · rfl
  have hl : rows.length = o.dim_n := by rw [mapM_length hr, List.length_range]
  have hc := h.units.1.ne'
  have hr := h.units.2.ne'
  simp only [Except.map, py_ok_bind, List.map_map, py_pure, shape1, id]
  congr 1
  unfold inUnits
  rw [List.take_left' (by simpa using hl), List.drop_left' (by simpa using hl)]
  unfold times
  rw [List.map_map, List.map_map]
  congr 1
  · refine List.map_congr_left fun q _ => ?_
    simp only [Function.comp, smul_eq_mul]
    field_simp
  · refine List.map_congr_left fun q _ => ?_
    simp only [Function.comp, smul_eq_mul]
    field_simp

/-- C142: the same problem in other units has the same free energy, up to a constant that depends on the units and on the number of observations
only, or raises the same exception; its gradient is the gradient in the other units; what is stored is what was stored, in the other units.
Missing: the second-order Runge-Kutta method with units that do not satisfy `r = c²`, see `C142_violated`. -/
theorem C142_free_energy_partial (h : Rescaled G c r o o') (hm : o.fwd_ode.solver = .rk2 → r = c ^ 2) (x : List ℝ) :
    (o'.freeEnergy shape1 (inUnits o.dim_n r (c * r) x)).1 = (o.freeEnergy shape1 x).1.map (fun F => F + ((o.obs_t.length : ℝ) - 1) * Real.log c)
      ∧ Rescaled G c r (o.freeEnergy shape1 x).2 (o'.freeEnergy shape1 (inUnits o.dim_n r (c * r) x)).2
      ∧ ∀ ev, (o'.gradient shape1 (inUnits o.dim_n r (c * r) x) ev).1 = (o.gradient shape1 x ev).1.map (inUnits o.dim_n r⁻¹ (c * r)⁻¹)
        ∧ Rescaled G c r (o.gradient shape1 x ev).2 (o'.gradient shape1 (inUnits o.dim_n r (c * r) x) ev).2 := by
  obtain ⟨h1, h2⟩ := freeEnergy_units h hm x
  refine ⟨h1, h2, fun ev => ?_⟩
  unfold VarGP.gradient
  cases ev with
  | false => exact ⟨gradBody_units h x, h⟩
  | true =>
    have hd := freeEnergy_dim shape1 o x
    generalize o'.freeEnergy shape1 (inUnits o.dim_n r (c * r) x) = q' at h1 h2
    generalize o.freeEnergy shape1 x = q at h1 h2 hd
    obtain ⟨F', q'⟩ := q'
    obtain ⟨F, q⟩ := q
    dsimp only at h1 h2 hd
    subst h1
    cases F with
    | ok F => exact ⟨by have := gradBody_units h2 x; rw [hd] at this; exact this, h2⟩
    | error e => exact ⟨rfl, h2⟩

theorem inUnits_inv (n : ℕ) {a b : ℝ} (ha : a ≠ 0) (hb : b ≠ 0) (x : List ℝ) : inUnits n a b (inUnits n a⁻¹ b⁻¹ x) = x := by
  have hi : ∀ {a : ℝ}, a ≠ 0 → ∀ l : List ℝ, times a (times a⁻¹ l) = l := fun ha l => by
    unfold times
    rw [List.map_map]
    exact (List.map_congr_left fun v _ => by simp [Function.comp, ha]).trans (List.map_id l)
  have h := unpack_units n a⁻¹ b⁻¹ x
  simp only [shape1, Except.map, mul_one, Except.ok.injEq, Prod.mk.injEq] at h
  rw [inUnits, h.1, h.2, hi ha, hi hb, List.take_append_drop]

theorem inUnits_length (n : ℕ) (a b : ℝ) (x : List ℝ) : (inUnits n a b x).length = x.length := by
  simp [inUnits, times_length]
  omega

namespace Spec

/-- No packed parameters of the same length have a smaller free energy. -/
def Best (o : VarGP ℝ ℝ) (x : List ℝ) : Prop :=
  ∃ F, (o.freeEnergy shape1 x).1 = .ok F ∧ ∀ y, y.length = x.length → ∀ F', (o.freeEnergy shape1 y).1 = .ok F' → F ≤ F'

end Spec

/-- C142: the best parameters in other units are the best parameters, in the other units. Missing: as for the free energy. -/
theorem C142_best_partial (h : Rescaled G c r o o') (hm : o.fwd_ode.solver = .rk2 → r = c ^ 2) (x : List ℝ) (hx : Best o x) :
    Best o' (inUnits o.dim_n r (c * r) x) := by
  obtain ⟨F, hF, hb⟩ := hx
  have hc := h.units.1.ne'
  have hr := h.units.2.ne'
  refine ⟨_, by rw [(freeEnergy_units h hm x).1, hF]; rfl, fun y hy F' hF' => ?_⟩
  rw [← inUnits_inv o.dim_n hr (mul_ne_zero hc hr) y, (freeEnergy_units h hm _).1] at hF'
  rw [inUnits_length] at hy
  rcases hz : (o.freeEnergy shape1 (inUnits o.dim_n r⁻¹ (c * r)⁻¹ y)).1 with e | F2
  · rw [hz] at hF'
    cases hF'
  · rw [hz] at hF'
    have := hb _ (by rw [inUnits_length, hy]) F2 hz
    injection hF' with hF'
    rw [← hF']
    linarith

/-! ## Two problems -/

theorem vgpOf_rescaled (p p' : OU G) (hc : 0 < c) (hr : 0 < r) (hth : p'.theta = r * p.theta) (hsg : p'.sigma = c ^ 2 * r * p.sigma)
    (hi : p.sig_inv = 1.0 / p.sigma) (hi' : p'.sig_inv = 1.0 / p'.sigma) (htk : p'.base.tk = p.base.tk.map (List.map fun t => t / r))
    (f b f' b' : OdeFrontEnd) (hf : f'.solver = f.solver ∧ f'.dt = f.dt / r) (hb : b'.solver = b.solver ∧ b'.dt = b.dt / r)
    (m s dt R : ℝ) (hs : 0 < s) (hR : 0 < R) (K : Prior1) (hK : 0 < K.tau0) (n N M : ℕ) (y : Fin M → ℝ) :
    Rescaled G c r (vgpOf p.sde f b m s dt R K n N M y)
      (vgpOf p'.sde f' b' (c * m) (c ^ 2 * s) (dt / r) (c ^ 2 * R) ⟨c * K.mu0, c ^ 2 * K.tau0⟩ n N M fun i => c * y i) where
  units := ⟨hc, hr⟩
  process := .inl ⟨p, p', rfl, rfl, hth, hsg, hi, hi', htk⟩
  like := ⟨_, hR, rfl, rfl, by simp only [times, List.map_ofFn]; rfl⟩
  prior := ⟨K, hK, rfl, rfl⟩
  m0 := rfl
  s0 := ⟨hs, rfl⟩
  obs_t := rfl
  grid := ⟨rfl, rfl⟩
  solvers := ⟨hf.1, hb.1, hf.2, hb.2⟩
  stored := rfl

/-- An Ornstein-Uhlenbeck process on the grid `0, 1`, with drift parameter two. -/
def unitsOU (g : G) (sigma : ℝ) : OU G := ⟨⟨some [0, 0], some (Spec.grid 0 1 1), g, true⟩, sigma, 2, 1.0 / sigma⟩

/-- The free energy of a problem with one observation of zero at the end of one time step. -/
theorem units_value (g : G) (f b : OdeFrontEnd) (hf : f.solver = .rk2) (hd : f.dt = 1) (sigma s R : ℝ) (K : Prior1) (dt : ℝ) (y : Fin 1 → ℝ) (hy : y 0 = 0) (m : ℝ)
    (hm : m = 0) :
    ((vgpOf (unitsOU g sigma).sde f b m s dt R K 2 1 1 y).freeEnergy shape1 [1, 1, 0, 0]).1
      = .ok (K.gauss 0 s + (s + (s + (-2 * (s + 1 / 2 * (-2 * s * s + sigma)) + sigma))) / (4 * sigma)
        + (1 / 2 * (s + (-2 * (s + 1 / 2 * (-2 * s * s + sigma)) + sigma)) / R + 1 / 2 * (log2pi + Real.log R))) := by
  subst hm
  have hstep : (unitsOU g sigma).base.timeStep = .ok 1 := timeStep_grid _ 0 1 1 (by norm_num) (by norm_num) rfl
  have ho := vgpOf_ok (unitsOU g sigma).sde f b 0 s dt R K (N := 1) (M := 1) le_rfl y
  have hobs : (vgpOf (unitsOU g sigma).sde f b 0 s dt R K 2 1 1 y).obs_t.Pairwise (· ≤ ·) := by
    simp [vgpOf]
  obtain ⟨k, hF, -⟩ := freeEnergy_formula ho (ou_density (unitsOU g sigma) 1 hobs hstep) (fun _ => 1) fun _ => 0
  have e : List.ofFn (fun _ : Fin (1 + 1) => (1 : ℝ)) ++ List.ofFn (fun _ : Fin (1 + 1) => (0 : ℝ)) = [1, 1, 0, 0] := by
    simp [List.ofFn_succ]
  rw [e] at hF
  rw [hF]
  have hp1 : pathMS .rk2 1 sigma 0 s (fun _ => 1) (fun _ => 0) 1 = (0, s + (-2 * (s + 1 / 2 * (-2 * s * s + sigma)) + sigma)) := by
    simp only [pathMS, traj, fwdStep, rhs1, smul_eq_mul]
    norm_num
  have hp0 : pathMS .rk2 1 sigma 0 s (fun _ => 1) (fun _ => 0) 0 = (0, s) := rfl
  have hi : eqIdx 1 1 0 = 1 := by decide
  simp only [vgpOf, hf, hd, Finset.sum_range_one, Fin.sum_univ_one, zero_add, show (unitsOU g sigma).sde.sigma = sigma from rfl, hp1, hp0, Fin.val_zero, hi, hy, obsPoly,
    ouQ, show (unitsOU g sigma).theta = 2 from rfl, show (unitsOU g sigma).sigma = sigma from rfl, show (0.5 : ℝ) = 1 / 2 by norm_num]
  congr 1
  ring

/-- C142 fails for the second-order Runge-Kutta method: an Ornstein-Uhlenbeck process with one observation, the same problem with the state in half the unit, and
parameters at which the second free energy is larger by 4.5 (the constant of `C142_free_energy_partial` is zero here). The predictor of the variance takes the
variance in the place of the linear parameter, a rate. -/
theorem C142_violated (g : G) : ∃ (o o' : VarGP ℝ ℝ) (x : List ℝ) (F : ℝ), Rescaled G 2 1 o o' ∧ o.fwd_ode.solver = .rk2 ∧ o.obs_t.length = 1
    ∧ (o.freeEnergy shape1 x).1 = .ok F ∧ (o'.freeEnergy shape1 (inUnits o.dim_n 1 (2 * 1) x)).1 = .ok (F + 4.5) := by
  have h := vgpOf_rescaled (c := 2) (r := 1) (unitsOU g 1) (unitsOU g 4) (by norm_num) (by norm_num) (by simp [unitsOU]) (by norm_num [unitsOU]) rfl rfl
    (by simp [unitsOU]) ⟨1, "rk2", .rk2⟩ ⟨1, "rk2", .rk2⟩ ⟨1, "rk2", .rk2⟩ ⟨1, "rk2", .rk2⟩ (by simp) (by simp) 0 1 1 1 (by norm_num) (by norm_num) ⟨0, 1⟩ (by norm_num)
    2 1 1 fun _ => 0
  refine ⟨_, _, [1, 1, 0, 0], _, h, rfl, by simp [vgpOf], units_value g _ _ rfl rfl _ _ _ _ _ _ rfl _ rfl, ?_⟩
  have e : inUnits (vgpOf (unitsOU g 1).sde ⟨1, "rk2", .rk2⟩ ⟨1, "rk2", .rk2⟩ 0 1 1 1 ⟨0, 1⟩ 2 1 1 fun _ => 0).dim_n 1 (2 * 1) [1, 1, 0, 0] = [1, 1, 0, 0] := by
    simp [vgpOf, inUnits, times]
  rw [e, units_value g _ _ rfl rfl _ _ _ _ _ _ (by simp) _ (by simp)]
  have hlog : Real.log 4 = 2 * Real.log 2 := by
    rw [show (4 : ℝ) = 2 ^ 2 by norm_num, Real.log_pow]
    norm_num
  simp only [Prior1.gauss]
  norm_num
  rw [hlog]
  ring

/-- A pair of problems in different units of state and time, with the fourth-order Runge-Kutta method, whose free energies exist; and such a pair of double wells. -/
example (g : G) : (∃ o o' : VarGP ℝ ℝ, Rescaled G 3 (1 / 60) o o' ∧ o.fwd_ode.solver = .rk4 ∧ o'.m0 ≠ o.m0 ∧ ∃ x F, (o.freeEnergy shape1 x).1 = .ok F)
    ∧ ∃ o o' : VarGP ℝ ℝ, Rescaled G 3 9 o o' ∧ (∃ p : DW G, o.model = p.sde) ∧ o'.m0 ≠ o.m0 := by
  constructor
  · let p : OU G := unitsOU g 1
    let p' : OU G := ⟨⟨none, p.base.tk.map (List.map fun t => t / (1 / 60)), g, true⟩, 3 ^ 2 * (1 / 60) * 1, 1 / 60 * 2, 1.0 / (3 ^ 2 * (1 / 60) * 1)⟩
    have h := vgpOf_rescaled (c := 3) (r := 1 / 60) p p' (by norm_num) (by norm_num) rfl rfl rfl rfl rfl ⟨1, "rk4", .rk4⟩ ⟨1, "rk4", .rk4⟩ ⟨1 / (1 / 60), "rk4", .rk4⟩
      ⟨1 / (1 / 60), "rk4", .rk4⟩ ⟨rfl, rfl⟩ ⟨rfl, rfl⟩ 1 1 1 1 (by norm_num) (by norm_num) ⟨0, 1⟩ (by norm_num) 2 1 1 fun _ => 5
    refine ⟨_, _, h, rfl, by norm_num [vgpOf], ?_⟩
    have hstep : p.base.timeStep = .ok 1 := timeStep_grid _ 0 1 1 (by norm_num) (by norm_num) rfl
    obtain ⟨k, hF, -⟩ := freeEnergy_formula (vgpOf_ok p.sde ⟨1, "rk4", .rk4⟩ ⟨1, "rk4", .rk4⟩ 1 1 1 1 ⟨0, 1⟩ (N := 1) (M := 1) le_rfl fun _ => 5)
      (ou_density p 1 (by simp [vgpOf]) hstep) (fun _ => 1) fun _ => 0
    exact ⟨_, _, by rw [hF]⟩
  · let p : DW G := mirrorDW g
    let p' : DW G := ⟨⟨none, p.base.tk.map (List.map fun t => t / 9), g, true⟩, 3 ^ 2 * 9 * 0.8, 9 * 1, 1.0 / (3 ^ 2 * 9 * 0.8)⟩
    let L : Like1 := ⟨[1], [4], 0.5, 1⟩
    let K : Prior1 := ⟨0, 1⟩
    refine ⟨⟨p.sde, ⟨0.1, "rk2", .rk2⟩, ⟨0.1, "rk2", .rk2⟩, L.toIf, fun m s => .ok (K.gauss m s), [1], [4], 0.1, 11, 1, 1, none⟩,
      ⟨p'.sde, ⟨0.1 / 9, "rk2", .rk2⟩, ⟨0.1 / 9, "rk2", .rk2⟩, Like1.toIf { L with obs_v := times 3 L.obs_v, obs_n := 3 ^ 2 * L.obs_n },
        fun m s => .ok (Prior1.gauss ⟨3 * K.mu0, 3 ^ 2 * K.tau0⟩ m s), [3 * 1], [4], 0.1 / 9, 11, 3 * 1, 3 ^ 2 * 1, none⟩, ?_, ⟨p, rfl⟩, by norm_num⟩
    exact ⟨by norm_num, .inr ⟨by norm_num, p, p', rfl, rfl, rfl, rfl, rfl, rfl, rfl⟩, ⟨L, by norm_num [L], rfl, rfl, rfl⟩, ⟨K, by norm_num [K], rfl, rfl⟩, rfl,
      ⟨by norm_num, rfl⟩, rfl, ⟨rfl, rfl⟩, ⟨rfl, rfl, rfl, rfl⟩, rfl⟩

end

end VGPA
