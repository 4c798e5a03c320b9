import Verif.Model.Rounded
import Verif.Props.OdeJumps

/-! Helper lemmas: errors of single operations and of single steps of the integrators in rounded arithmetic. -/

open Set

namespace VGPA

noncomputable section

/-! ## The sweeps as iterations of steps -/

/-- One step of each method with the operations of a machine; `op` is the addition (forward) or the subtraction (backward). -/
def stepR {X : Type} (meth : Method) (mul : ℝ → ℝ → ℝ) (o : ArrOps X) (op : X → X → X) (dt : ℝ) (f0 fm f1 g : X → X) (y : X) : X :=
  let h := mul 0.5 dt
  match meth with
  | .euler => op y (o.smul dt (f0 y))
  | .heun => op y (o.smul h (o.add (f0 y) (f1 (op y (o.smul dt (f0 y))))))
  | .rk2 => op y (o.smul dt (fm (op y (o.smul h (g y)))))
  | .rk4 =>
    let K1 := f0 y
    let K2 := fm (op y (o.smul h K1))
    let K3 := fm (op y (o.smul h K2))
    let K4 := f1 (op y (o.smul dt K3))
    op y (o.combine dt K1 K2 K3 K4)

section sweeps
variable {V W : Type} [Zero V] [Zero W]

def ArrOps.mid {X : Type} (o : ArrOps X) (x y : X) : X := o.smul 0.5 (o.add x y)

theorem idx_midpointsR {X : Type} [Zero X] (o : ArrOps X) {l : List X} {k : ℕ} (h : k + 1 < l.length) :
    idx (o.midpoints l) k = .ok (o.mid (asFun l k) (asFun l (k + 1))) := by
  rw [idx_ok (by simp [ArrOps.midpoints]; omega), asFun_eq h, asFun_eq (by omega)]
  simp [ArrOps.midpoints, ArrOps.mid]

theorem idx_midpointsR_pad {X : Type} [Zero X] (o : ArrOps X) {l : List X} {k : ℕ} (h : k + 1 < l.length) :
    idx (o.midpoints l ++ [0]) k = .ok (o.mid (asFun l k) (asFun l (k + 1))) := by
  rw [← idx_midpointsR o h, idx_ok (by simp [ArrOps.midpoints]; omega), idx_ok (by simp [ArrOps.midpoints]; omega),
    List.getElem_append_left]

/-- Forward step. -/
def fwdStepR (meth : Method) (M : Machine V W) (dt : ℝ) (a : ℕ → W) (b : ℕ → V) (sigma : W) (k : ℕ) (x : V × W) : V × W :=
  (stepR meth M.mul M.v M.v.add dt (fun m => M.rhs.fun_mt m (a k) (b k))
      (fun m => M.rhs.fun_mt m (M.w.mid (a k) (a (k + 1))) (M.v.mid (b k) (b (k + 1))))
      (fun m => M.rhs.fun_mt m (a (k + 1)) (b (k + 1))) (fun m => M.rhs.fun_mt m (a k) (b k)) x.1,
   stepR meth M.mul M.w M.w.add dt (fun s => M.rhs.fun_st s (a k) sigma) (fun s => M.rhs.fun_st s (M.w.mid (a k) (a (k + 1))) sigma)
      (fun s => M.rhs.fun_st s (a (k + 1)) sigma) (fun s => M.rhs.fun_st s s sigma) x.2)

/-- Backward step. -/
def bwdStepR (meth : Method) (M : Machine V W) (dt : ℝ) (a : ℕ → W) (em : ℕ → V) (es : ℕ → W) (om : ℕ → V) (os : ℕ → W) (t : ℕ) (x : V × W) : V × W :=
  (M.v.add (stepR meth M.mul M.v M.v.sub dt (fun l => M.rhs.fun_lam (em t) (a t) l)
      (fun l => M.rhs.fun_lam (M.v.mid (em (t - 1)) (em t)) (M.w.mid (a (t - 1)) (a t)) l)
      (fun l => M.rhs.fun_lam (em (t - 1)) (a (t - 1)) l) (fun l => M.rhs.fun_lam (em t) (a t) l) x.1) (om (t - 1)),
   M.w.add (stepR meth M.mul M.w M.w.sub dt (fun p => M.rhs.fun_psi (es t) (a t) p)
      (fun p => M.rhs.fun_psi (M.w.mid (es (t - 1)) (es t)) (M.w.mid (a (t - 1)) (a t)) p)
      (fun p => M.rhs.fun_psi (es (t - 1)) (a (t - 1)) p) (fun p => M.rhs.fun_psi (es t) (a t) p) x.2) (os (t - 1)))

theorem solveFwdR_ok (meth : Method) (M : Machine V W) (dt : ℝ) (lin_a : List W) (off_b : List V)
    (m0 : V) (s0 sigma : W) (hb : 0 < off_b.length) (ha : needA meth off_b.length ≤ lin_a.length) :
    M.solveFwd meth dt lin_a off_b m0 s0 sigma
      = .ok ((List.range off_b.length).map fun k => (traj (m0, s0) (fwdStepR meth M dt (asFun lin_a) (asFun off_b) sigma) k).1,
             (List.range off_b.length).map fun k => (traj (m0, s0) (fwdStepR meth M dt (asFun lin_a) (asFun off_b) sigma) k).2) := by
  cases meth
  case euler =>
    simp only [Machine.solveFwd, Machine.eulerFwd]
    rw [fwdSweep_ok _ _ _ (fwdStepR .euler M dt (asFun lin_a) (asFun off_b) sigma) hb]
    · simp [List.map_map, Function.comp_def]
    · rintro k hk ⟨m, s⟩
      simp only [needA] at ha
      rw [idx_asFun (l := lin_a) (by omega), idx_asFun (l := off_b) (by omega)]
      simp [fwdStepR, stepR]
  case heun =>
    simp only [Machine.solveFwd, Machine.heunFwd]
    rw [fwdSweep_ok _ _ _ (fwdStepR .heun M dt (asFun lin_a) (asFun off_b) sigma) hb]
    · simp [List.map_map, Function.comp_def]
    · rintro k hk ⟨m, s⟩
      have ha' : off_b.length ≤ lin_a.length := by
        simp only [needA] at ha; split at ha <;> omega
      rw [idx_asFun (l := lin_a) (by omega), idx_asFun (l := off_b) (by omega),
        idx_asFun (l := lin_a) (by omega), idx_asFun (l := off_b) (by omega)]
      simp [fwdStepR, stepR]
  case rk2 =>
    simp only [Machine.solveFwd, Machine.rk2Fwd]
    rw [fwdSweep_ok _ _ _ (fwdStepR .rk2 M dt (asFun lin_a) (asFun off_b) sigma) hb]
    · simp [List.map_map, Function.comp_def]
    · rintro k hk ⟨m, s⟩
      have ha' : off_b.length ≤ lin_a.length := by
        simp only [needA] at ha; split at ha <;> omega
      rw [idx_asFun (l := lin_a) (by omega), idx_asFun (l := off_b) (by omega),
        idx_midpointsR _ (by omega), idx_midpointsR _ (by omega)]
      simp [fwdStepR, stepR]
  case rk4 =>
    simp only [Machine.solveFwd, Machine.rk4Fwd]
    rw [fwdSweep_ok _ _ _ (fwdStepR .rk4 M dt (asFun lin_a) (asFun off_b) sigma) hb]
    · simp [List.map_map, Function.comp_def]
    · rintro k hk ⟨m, s⟩
      have ha' : off_b.length ≤ lin_a.length := by
        simp only [needA] at ha; split at ha <;> omega
      rw [idx_asFun (l := lin_a) (by omega), idx_asFun (l := off_b) (by omega),
        idx_midpointsR _ (by omega), idx_midpointsR _ (by omega),
        idx_asFun (l := lin_a) (by omega), idx_asFun (l := off_b) (by omega)]
      simp [fwdStepR, stepR]

theorem solveBwdR_ok (meth : Method) (M : Machine V W) (dt : ℝ) (lin_a : List W) (em : List V)
    (es : List W) (om : List V) (os : List W)
    (hs : BwdShapes em.length lin_a.length es.length om.length os.length) :
    M.solveBwd meth dt lin_a em es om os
      = .ok ((List.range em.length).map fun i =>
              (traj 0 (fun k => bwdStepR meth M dt (asFun lin_a) (asFun em) (asFun es) (asFun om)
                (asFun os) (em.length - 1 - k)) (em.length - 1 - i)).1,
             (List.range em.length).map fun i =>
              (traj 0 (fun k => bwdStepR meth M dt (asFun lin_a) (asFun em) (asFun es) (asFun om)
                (asFun os) (em.length - 1 - k)) (em.length - 1 - i)).2) := by
  cases meth
  case euler =>
    simp only [Machine.solveBwd, Machine.eulerBwd]
    rw [bwdSweep_ok _ _ (bwdStepR .euler M dt (asFun lin_a) (asFun em) (asFun es) (asFun om)
                (asFun os))]
    · simp [List.map_map, Function.comp_def]
    · rintro t ht0 ht ⟨l, p⟩
      have : em.length ≤ lin_a.length ∧ em.length ≤ es.length ∧ em.length - 1 ≤ om.length ∧
        em.length - 1 ≤ os.length := by rcases hs with hs | hs <;> omega
      rw [idx_asFun (l := lin_a) (by omega), idx_asFun (l := em) (by omega),
        idx_asFun (l := om) (by omega), idx_asFun (l := es) (by omega),
        idx_asFun (l := os) (by omega)]
      simp [bwdStepR, stepR]
  case heun =>
    simp only [Machine.solveBwd, Machine.heunBwd]
    rw [bwdSweep_ok _ _ (bwdStepR .heun M dt (asFun lin_a) (asFun em) (asFun es) (asFun om)
                (asFun os))]
    · simp [List.map_map, Function.comp_def]
    · rintro t ht0 ht ⟨l, p⟩
      have : em.length ≤ lin_a.length ∧ em.length ≤ es.length ∧ em.length - 1 ≤ om.length ∧
        em.length - 1 ≤ os.length := by rcases hs with hs | hs <;> omega
      rw [idx_asFun (l := lin_a) (by omega), idx_asFun (l := lin_a) (by omega),
        idx_asFun (l := em) (by omega), idx_asFun (l := em) (by omega),
        idx_asFun (l := om) (by omega), idx_asFun (l := es) (by omega),
        idx_asFun (l := es) (by omega), idx_asFun (l := os) (by omega)]
      simp [bwdStepR, stepR]
  case rk2 =>
    simp only [Machine.solveBwd, Machine.rk2Bwd]
    rw [bwdSweep_ok _ _ (bwdStepR .rk2 M dt (asFun lin_a) (asFun em) (asFun es) (asFun om)
                (asFun os))]
    · simp [List.map_map, Function.comp_def]
    · rintro t ht0 ht ⟨l, p⟩
      have : em.length ≤ lin_a.length ∧ em.length ≤ es.length ∧ em.length - 1 ≤ om.length ∧
        em.length - 1 ≤ os.length := by rcases hs with hs | hs <;> omega
      have e1 : t - 1 + 1 = t := by omega
      rw [idx_asFun (l := lin_a) (by omega), idx_midpointsR_pad _ (l := lin_a) (by omega),
        idx_midpointsR_pad _ (l := em) (by omega), idx_midpointsR_pad _ (l := es) (by omega),
        idx_asFun (l := em) (by omega),
        idx_asFun (l := om) (by omega), idx_asFun (l := es) (by omega),
        idx_asFun (l := os) (by omega)]
      simp [bwdStepR, stepR, e1]
  case rk4 =>
    simp only [Machine.solveBwd, Machine.rk4Bwd]
    rw [bwdSweep_ok _ _ (bwdStepR .rk4 M dt (asFun lin_a) (asFun em) (asFun es) (asFun om)
                (asFun os))]
    · simp [List.map_map, Function.comp_def]
    · rintro t ht0 ht ⟨l, p⟩
      have : em.length ≤ lin_a.length ∧ em.length ≤ es.length ∧ em.length - 1 ≤ om.length ∧
        em.length - 1 ≤ os.length := by rcases hs with hs | hs <;> omega
      have e1 : t - 1 + 1 = t := by omega
      rw [idx_asFun (l := lin_a) (by omega), idx_midpointsR_pad _ (l := lin_a) (by omega),
        idx_midpointsR_pad _ (l := em) (by omega), idx_midpointsR_pad _ (l := es) (by omega),
        idx_asFun (l := em) (by omega), idx_asFun (l := em) (by omega),
        idx_asFun (l := lin_a) (by omega),
        idx_asFun (l := om) (by omega), idx_asFun (l := es) (by omega),
        idx_asFun (l := es) (by omega), idx_asFun (l := os) (by omega)]
      simp [bwdStepR, stepR, e1]

end sweeps

/-! ## Exact operations -/

/-- The exact operations of a vector space. -/
def exactOps (X : Type) [AddCommGroup X] [Module ℝ X] : ArrOps X where
  add x y := x + y
  sub x y := x - y
  smul c x := c • x
  sdiv x c := c⁻¹ • x

/-- The exact operations with the right-hand sides of `Verif.Model.Ode`. -/
def exactMachine {V W : Type} [AddCommGroup V] [Module ℝ V] [AddCommGroup W] [Module ℝ W] (F : Rhs V W) : Machine V W where
  mul x y := x * y
  v := exactOps V
  w := exactOps W
  rhs := F

section exact
variable {V W : Type} [AddCommGroup V] [Module ℝ V] [AddCommGroup W] [Module ℝ W]

theorem fwdStepR_exact (meth : Method) (F : Rhs V W) : fwdStepR meth (exactMachine F) = fwdStep meth F := by
  funext dt a b sigma k x
  cases meth <;> simp only [fwdStepR, fwdStep, stepR, exactMachine, exactOps, ArrOps.mid, ArrOps.combine, one_div]

theorem bwdStepR_exact (meth : Method) (F : Rhs V W) : bwdStepR meth (exactMachine F) = bwdStep meth F := by
  funext dt a em es om os t x
  cases meth <;> simp only [bwdStepR, bwdStep, stepR, exactMachine, exactOps, ArrOps.mid, ArrOps.combine, one_div]

/-- With exact operations, the sweeps of this module are those of `Verif.Model.Ode`. -/
theorem solveFwdR_exact (meth : Method) (F : Rhs V W) (dt : ℝ) (lin_a : List W) (off_b : List V) (m0 : V) (s0 sigma : W) (hb : 0 < off_b.length)
    (ha : needA meth off_b.length ≤ lin_a.length) :
    (exactMachine F).solveFwd meth dt lin_a off_b m0 s0 sigma = solveFwd meth F dt lin_a off_b m0 s0 sigma := by
  rw [solveFwdR_ok meth _ dt lin_a off_b m0 s0 sigma hb ha, solveFwd_ok meth F dt lin_a off_b m0 s0 sigma hb ha, fwdStepR_exact]

theorem solveBwdR_exact (meth : Method) (F : Rhs V W) (dt : ℝ) (lin_a : List W) (em : List V) (es : List W) (om : List V) (os : List W)
    (hs : BwdShapes em.length lin_a.length es.length om.length os.length) :
    (exactMachine F).solveBwd meth dt lin_a em es om os = solveBwd meth F dt lin_a em es om os := by
  rw [solveBwdR_ok meth _ dt lin_a em es om os hs, solveBwd_ok meth F dt lin_a em es om os hs, bwdStepR_exact]

end exact

/-! ## Errors of single operations -/

/-- `x` has size at most `A`, and `xh` is an approximation of `x` with an error of at most `E * u`. -/
def Near {X : Type} [NormedAddCommGroup X] (u A E : ℝ) (xh x : X) : Prop := 0 ≤ E ∧ ‖x‖ ≤ A ∧ ‖xh - x‖ ≤ E * u

section near
variable {X : Type} [NormedAddCommGroup X] [NormedSpace ℝ X] {u : ℝ}

omit [NormedSpace ℝ X] in
theorem Near.refl {A : ℝ} {x : X} (h : ‖x‖ ≤ A) : Near u A 0 x x := ⟨le_rfl, h, by simp⟩

omit [NormedSpace ℝ X] in
theorem Near.size {A E : ℝ} {xh x : X} (hu1 : u ≤ 1) (h : Near u A E xh x) : ‖xh‖ ≤ A + E := by
  obtain ⟨h0, h1, h2⟩ := h
  have h3 : ‖xh‖ ≤ ‖x‖ + ‖xh - x‖ := by simpa using norm_add_le x (xh - x)
  have : E * u ≤ E := mul_le_of_le_one_right h0 hu1
  linarith

omit [NormedSpace ℝ X] in
theorem Near.nonneg {A E : ℝ} {xh x : X} (h : Near u A E xh x) : 0 ≤ A := (norm_nonneg _).trans h.2.1

/-- Element-wise operations have a relative error of at most `u`. -/
structure OpsNear (o : ArrOps X) (u : ℝ) : Prop where
  add : ∀ x y, ‖o.add x y - (x + y)‖ ≤ u * ‖x + y‖
  sub : ∀ x y, ‖o.sub x y - (x - y)‖ ≤ u * ‖x - y‖
  smul : ∀ c x, ‖o.smul c x - c • x‖ ≤ u * ‖c • x‖
  sdiv : ∀ x c, ‖o.sdiv x c - c⁻¹ • x‖ ≤ u * ‖c⁻¹ • x‖

omit [NormedSpace ℝ X] in
/-- Rounding of an operation on approximate operands. -/
theorem near_of_round {A E K : ℝ} {z zh z' : X} (hu0 : 0 ≤ u) (hE : 0 ≤ E) (hA : 0 ≤ A) (hK : 0 ≤ K) (hz : ‖z‖ ≤ A) (h1 : ‖zh - z'‖ ≤ u * ‖z'‖) (h2 : ‖z' - z‖ ≤ E * u)
    (h3 : ‖z'‖ ≤ K) : Near u A (K + E) zh z := by
  refine ⟨by positivity, hz, ?_⟩
  calc ‖zh - z‖ = ‖(zh - z') + (z' - z)‖ := by congr 1; abel
    _ ≤ ‖zh - z'‖ + ‖z' - z‖ := norm_add_le _ _
    _ ≤ u * K + E * u := add_le_add (h1.trans (by gcongr)) h2
    _ = _ := by ring

/-- The exact counterpart of an addition or a subtraction. -/
structure OpPair (oph op : X → X → X) (u : ℝ) : Prop where
  round : ∀ x y, ‖oph x y - op x y‖ ≤ u * ‖op x y‖
  size : ∀ x y, ‖op x y‖ ≤ ‖x‖ + ‖y‖
  diff : ∀ x y x' y', ‖op x y - op x' y'‖ ≤ ‖x - x'‖ + ‖y - y'‖

theorem OpsNear.addPair {o : ArrOps X} (h : OpsNear o u) : OpPair o.add (fun x y => x + y) u where
  round := h.add
  size := norm_add_le
  diff x y x' y' := by
    rw [show x + y - (x' + y') = (x - x') + (y - y') by abel]; exact norm_add_le _ _

theorem OpsNear.subPair {o : ArrOps X} (h : OpsNear o u) : OpPair o.sub (fun x y => x - y) u where
  round := h.sub
  size := norm_sub_le
  diff x y x' y' := by
    rw [show x - y - (x' - y') = (x - x') - (y - y') by abel]; exact norm_sub_le _ _

omit [NormedSpace ℝ X] in
theorem OpPair.near {oph op : X → X → X} (h : OpPair oph op u) (hu0 : 0 ≤ u) (hu1 : u ≤ 1) {A E A' E' : ℝ} {xh x yh y : X}
    (hx : Near u A E xh x) (hy : Near u A' E' yh y) : Near u (A + A') ((A + E + (A' + E')) + (E + E')) (oph xh yh) (op x y) := by
  have hA := hx.nonneg
  have hA' := hy.nonneg
  have := hx.1
  have := hy.1
  refine near_of_round hu0 (by linarith) (by linarith) (by linarith) ((h.size _ _).trans (add_le_add hx.2.1 hy.2.1)) (h.round _ _) ?_ ?_
  · refine (h.diff _ _ _ _).trans ?_
    rw [add_mul]
    exact add_le_add hx.2.2 hy.2.2
  · exact (h.size _ _).trans (add_le_add (hx.size hu1) (hy.size hu1))

theorem OpsNear.near_smul {o : ArrOps X} (h : OpsNear o u) (hu0 : 0 ≤ u) (hu1 : u ≤ 1) {A E A' E' : ℝ} {ch c : ℝ} {xh x : X}
    (hc : Near u A E ch c) (hx : Near u A' E' xh x) : Near u (A * A') ((A + E) * (A' + E') + (E * (A' + E') + A * E')) (o.smul ch xh) (c • x) := by
  have hA := hc.nonneg
  have hA' := hx.nonneg
  have := hc.1
  have := hx.1
  refine near_of_round hu0 (by positivity) (by positivity) (by positivity) ?_ (h.smul _ _) ?_ ?_
  · rw [norm_smul]; exact mul_le_mul hc.2.1 hx.2.1 (norm_nonneg _) hA
  · rw [show ch • xh - c • x = (ch - c) • xh + c • (xh - x) by module]
    refine (norm_add_le _ _).trans ?_
    rw [norm_smul, norm_smul, add_mul]
    refine add_le_add ?_ ?_
    · calc _ ≤ (E * u) * (A' + E') := mul_le_mul hc.2.2 (hx.size hu1) (norm_nonneg _) (by positivity)
        _ = _ := by ring
    · calc _ ≤ A * (E' * u) := mul_le_mul hc.2.1 hx.2.2 (norm_nonneg _) hA
        _ = _ := by ring
  · rw [norm_smul]; exact mul_le_mul (hc.size hu1) (hx.size hu1) (norm_nonneg _) (by linarith)

theorem OpsNear.near_sdiv6 {o : ArrOps X} (h : OpsNear o u) (hu0 : 0 ≤ u) (hu1 : u ≤ 1) {A E : ℝ} {xh x : X} (hx : Near u A E xh x) :
    Near u A ((A + E) + E) (o.sdiv xh 6) ((6 : ℝ)⁻¹ • x) := by
  have hA := hx.nonneg
  have hE := hx.1
  have e : ‖(6 : ℝ)⁻¹‖ = 6⁻¹ := by norm_num
  refine near_of_round hu0 hE hA (by linarith) ?_ (h.sdiv _ _) ?_ ?_
  · rw [norm_smul, e]; linarith [hx.2.1, norm_nonneg x]
  · rw [← smul_sub, norm_smul, e]; linarith [hx.2.2, norm_nonneg (xh - x)]
  · rw [norm_smul, e]; linarith [hx.size hu1, norm_nonneg xh]

/-- One step of every method: the error that rounding adds. -/
theorem stepR_near (Φ Ψ : ℝ → ℝ → ℝ) (r : ℝ) : ∃ A E, ∀ (meth : Method) (u : ℝ) (mul : ℝ → ℝ → ℝ) (o : ArrOps X) (oph op : X → X → X) (dt : ℝ)
    (f0h fmh f1h gh f0 fm f1 g : X → X) (y : X), 0 ≤ u → u ≤ 1 → |dt| ≤ 1 → (∀ x y, |mul x y - x * y| ≤ u * |x * y|) → OpsNear o u → OpPair oph op u →
    (∀ A E xh x, Near u A E xh x → Near u (Φ A E) (Ψ A E) (f0h xh) (f0 x)) → (∀ A E xh x, Near u A E xh x → Near u (Φ A E) (Ψ A E) (fmh xh) (fm x)) →
    (∀ A E xh x, Near u A E xh x → Near u (Φ A E) (Ψ A E) (f1h xh) (f1 x)) → (∀ A E xh x, Near u A E xh x → Near u (Φ A E) (Ψ A E) (gh xh) (g x)) →
    ‖y‖ ≤ r → Near u A E (stepR meth mul o oph dt f0h fmh f1h gh y) (stepR meth (fun x y => x * y) (exactOps X) op dt f0 fm f1 g y) := by
  suffices ∀ meth : Method, ∃ A E, ∀ (u : ℝ) (mul : ℝ → ℝ → ℝ) (o : ArrOps X) (oph op : X → X → X) (dt : ℝ)
      (f0h fmh f1h gh f0 fm f1 g : X → X) (y : X), 0 ≤ u → u ≤ 1 → |dt| ≤ 1 → (∀ x y, |mul x y - x * y| ≤ u * |x * y|) → OpsNear o u → OpPair oph op u →
      (∀ A E xh x, Near u A E xh x → Near u (Φ A E) (Ψ A E) (f0h xh) (f0 x)) → (∀ A E xh x, Near u A E xh x → Near u (Φ A E) (Ψ A E) (fmh xh) (fm x)) →
      (∀ A E xh x, Near u A E xh x → Near u (Φ A E) (Ψ A E) (f1h xh) (f1 x)) → (∀ A E xh x, Near u A E xh x → Near u (Φ A E) (Ψ A E) (gh xh) (g x)) →
      ‖y‖ ≤ r → Near u A E (stepR meth mul o oph dt f0h fmh f1h gh y) (stepR meth (fun x y => x * y) (exactOps X) op dt f0 fm f1 g y) by
    choose A E h using this
    refine ⟨|A .euler| + |A .heun| + |A .rk2| + |A .rk4|, |E .euler| + |E .heun| + |E .rk2| + |E .rk4|, ?_⟩
    intro meth u mul o oph op dt f0h fmh f1h gh f0 fm f1 g y hu0 hu1 hdt hmul ho hp h0 hm h1 hg hy
    obtain ⟨k0, k1, k2⟩ := h meth u mul o oph op dt f0h fmh f1h gh f0 fm f1 g y hu0 hu1 hdt hmul ho hp h0 hm h1 hg hy
    have a1 : A meth ≤ |A .euler| + |A .heun| + |A .rk2| + |A .rk4| := by
      have := abs_nonneg (A .euler); have := abs_nonneg (A .heun); have := abs_nonneg (A .rk2); have := abs_nonneg (A .rk4)
      have := le_abs_self (A meth)
      cases meth <;> linarith
    have a2 : E meth ≤ |E .euler| + |E .heun| + |E .rk2| + |E .rk4| := by
      have := abs_nonneg (E .euler); have := abs_nonneg (E .heun); have := abs_nonneg (E .rk2); have := abs_nonneg (E .rk4)
      have := le_abs_self (E meth)
      cases meth <;> linarith
    exact ⟨by positivity, k1.trans a1, k2.trans (by gcongr)⟩
  have hdt' : ∀ {u dt : ℝ}, |dt| ≤ 1 → Near u 1 0 dt dt := fun h => Near.refl h
  have hh' : ∀ {u dt : ℝ} {mul : ℝ → ℝ → ℝ}, 0 ≤ u → |dt| ≤ 1 → (∀ x y, |mul x y - x * y| ≤ u * |x * y|) → Near u 1 1 (mul 0.5 dt) (0.5 * dt) := by
    intro u dt mul hu hdt hmul
    have e : |0.5 * dt| ≤ 1 := by rw [abs_mul, show |(0.5 : ℝ)| = 1 / 2 by norm_num]; linarith
    refine ⟨zero_le_one, e, (hmul _ _).trans ?_⟩
    rw [one_mul]
    exact mul_le_of_le_one_right hu e
  intro meth
  cases meth
  case euler =>
    apply Exists.intro
    apply Exists.intro
    intro u mul o oph op dt f0h fmh f1h gh f0 fm f1 g y hu0 hu1 hdt hmul ho hp h0 hm h1 hg hy
    have hy' : Near u r 0 y y := Near.refl hy
    exact hp.near hu0 hu1 hy' (ho.near_smul hu0 hu1 (hdt' hdt) (h0 _ _ _ _ hy'))
  case heun =>
    apply Exists.intro
    apply Exists.intro
    intro u mul o oph op dt f0h fmh f1h gh f0 fm f1 g y hu0 hu1 hdt hmul ho hp h0 hm h1 hg hy
    have hy' : Near u r 0 y y := Near.refl hy
    exact hp.near hu0 hu1 hy' (ho.near_smul hu0 hu1 (hh' hu0 hdt hmul) (ho.addPair.near hu0 hu1 (h0 _ _ _ _ hy')
      (h1 _ _ _ _ (hp.near hu0 hu1 hy' (ho.near_smul hu0 hu1 (hdt' hdt) (h0 _ _ _ _ hy'))))))
  case rk2 =>
    apply Exists.intro
    apply Exists.intro
    intro u mul o oph op dt f0h fmh f1h gh f0 fm f1 g y hu0 hu1 hdt hmul ho hp h0 hm h1 hg hy
    have hy' : Near u r 0 y y := Near.refl hy
    exact hp.near hu0 hu1 hy' (ho.near_smul hu0 hu1 (hdt' hdt)
      (hm _ _ _ _ (hp.near hu0 hu1 hy' (ho.near_smul hu0 hu1 (hh' hu0 hdt hmul) (hg _ _ _ _ hy')))))
  case rk4 =>
    apply Exists.intro
    apply Exists.intro
    intro u mul o oph op dt f0h fmh f1h gh f0 fm f1 g y hu0 hu1 hdt hmul ho hp h0 hm h1 hg hy
    have hy' : Near u r 0 y y := Near.refl hy
    have k1 := h0 _ _ _ _ hy'
    have k2 := hm _ _ _ _ (hp.near hu0 hu1 hy' (ho.near_smul hu0 hu1 (hh' hu0 hdt hmul) k1))
    have k3 := hm _ _ _ _ (hp.near hu0 hu1 hy' (ho.near_smul hu0 hu1 (hh' hu0 hdt hmul) k2))
    have k4 := h1 _ _ _ _ (hp.near hu0 hu1 hy' (ho.near_smul hu0 hu1 (hdt' hdt) k3))
    have two : Near u 2 0 (2 : ℝ) 2 := Near.refl (by norm_num)
    exact hp.near hu0 hu1 hy' (ho.near_sdiv6 hu0 hu1 (ho.near_smul hu0 hu1 (hdt' hdt)
      (ho.addPair.near hu0 hu1 (ho.addPair.near hu0 hu1 k1 (ho.near_smul hu0 hu1 two (ho.addPair.near hu0 hu1 k2 k3))) k4)))

end near

end

end VGPA
