import Verif.Model.Ode
import Verif.Spec.Ode
import Verif.Lemmas.Sweep
import Mathlib.Tactic.Module
import Mathlib.Tactic.NormNum

/-! Helper lemmas: the solvers as iterations of pure steps. -/

namespace VGPA

noncomputable section

variable {V W : Type} [AddCommGroup V] [Module ℝ V] [AddCommGroup W] [Module ℝ W]

/-- Pure forward step of each solver, parameters given as functions of the index. -/
def fwdStep (meth : Method) (F : Rhs V W) (dt : ℝ) (a : ℕ → W) (b : ℕ → V) (sigma : W) (k : ℕ)
    (x : V × W) : V × W :=
  let h := 0.5 * dt
  let am := (0.5 : ℝ) • (a k + a (k + 1))
  let bm := (0.5 : ℝ) • (b k + b (k + 1))
  match meth with
  | .euler => (x.1 + dt • F.fun_mt x.1 (a k) (b k), x.2 + dt • F.fun_st x.2 (a k) sigma)
  | .heun =>
    (x.1 + h • (F.fun_mt x.1 (a k) (b k)
        + F.fun_mt (x.1 + dt • F.fun_mt x.1 (a k) (b k)) (a (k + 1)) (b (k + 1))),
     x.2 + h • (F.fun_st x.2 (a k) sigma
        + F.fun_st (x.2 + dt • F.fun_st x.2 (a k) sigma) (a (k + 1)) sigma))
  | .rk2 =>
    (x.1 + dt • F.fun_mt (x.1 + h • F.fun_mt x.1 (a k) (b k)) am bm,
     x.2 + dt • F.fun_st (x.2 + h • F.fun_st x.2 x.2 sigma) am sigma)
  | .rk4 =>
    let K1 := F.fun_mt x.1 (a k) (b k)
    let K2 := F.fun_mt (x.1 + h • K1) am bm
    let K3 := F.fun_mt (x.1 + h • K2) am bm
    let K4 := F.fun_mt (x.1 + dt • K3) (a (k + 1)) (b (k + 1))
    let L1 := F.fun_st x.2 (a k) sigma
    let L2 := F.fun_st (x.2 + h • L1) am sigma
    let L3 := F.fun_st (x.2 + h • L2) am sigma
    let L4 := F.fun_st (x.2 + dt • L3) (a (k + 1)) sigma
    (x.1 + (1 / 6 : ℝ) • (dt • (K1 + (2 : ℝ) • (K2 + K3) + K4)),
     x.2 + (1 / 6 : ℝ) • (dt • (L1 + (2 : ℝ) • (L2 + L3) + L4)))

/-- Pure backward step of each solver (from index `t` to `t - 1`). -/
def bwdStep (meth : Method) (F : Rhs V W) (dt : ℝ) (a : ℕ → W) (em : ℕ → V) (es : ℕ → W)
    (om : ℕ → V) (os : ℕ → W) (t : ℕ) (x : V × W) : V × W :=
  let h := 0.5 * dt
  let am := (0.5 : ℝ) • (a (t - 1) + a t)
  let emm := (0.5 : ℝ) • (em (t - 1) + em t)
  let esm := (0.5 : ℝ) • (es (t - 1) + es t)
  match meth with
  | .euler => (x.1 - dt • F.fun_lam (em t) (a t) x.1 + om (t - 1),
               x.2 - dt • F.fun_psi (es t) (a t) x.2 + os (t - 1))
  | .heun =>
    (x.1 - h • (F.fun_lam (em t) (a t) x.1
        + F.fun_lam (em (t - 1)) (a (t - 1)) (x.1 - dt • F.fun_lam (em t) (a t) x.1)) + om (t - 1),
     x.2 - h • (F.fun_psi (es t) (a t) x.2
        + F.fun_psi (es (t - 1)) (a (t - 1)) (x.2 - dt • F.fun_psi (es t) (a t) x.2)) + os (t - 1))
  | .rk2 =>
    (x.1 - dt • F.fun_lam emm am (x.1 - h • F.fun_lam (em t) (a t) x.1) + om (t - 1),
     x.2 - dt • F.fun_psi esm am (x.2 - h • F.fun_psi (es t) (a t) x.2) + os (t - 1))
  | .rk4 =>
    let K1 := F.fun_lam (em t) (a t) x.1
    let K2 := F.fun_lam emm am (x.1 - h • K1)
    let K3 := F.fun_lam emm am (x.1 - h • K2)
    let K4 := F.fun_lam (em (t - 1)) (a (t - 1)) (x.1 - dt • K3)
    let L1 := F.fun_psi (es t) (a t) x.2
    let L2 := F.fun_psi esm am (x.2 - h • L1)
    let L3 := F.fun_psi esm am (x.2 - h • L2)
    let L4 := F.fun_psi (es (t - 1)) (a (t - 1)) (x.2 - dt • L3)
    (x.1 - (1 / 6 : ℝ) • (dt • (K1 + (2 : ℝ) • (K2 + K3) + K4)) + om (t - 1),
     x.2 - (1 / 6 : ℝ) • (dt • (L1 + (2 : ℝ) • (L2 + L3) + L4)) + os (t - 1))

/-- Reading a list as a function of the index. -/
def asFun {X : Type} [Zero X] (l : List X) (k : ℕ) : X := l.getD k 0

theorem idx_asFun {X : Type} [Zero X] {l : List X} {k : ℕ} (h : k < l.length) :
    idx l k = .ok (asFun l k) := by
  simp [idx, asFun, h]

theorem asFun_eq {X : Type} [Zero X] {l : List X} {k : ℕ} (h : k < l.length) :
    asFun l k = l[k] := by
  simp [asFun, h]

@[simp] theorem midpoints_length {X : Type} [AddCommGroup X] [Module ℝ X] (l : List X) :
    (midpoints l).length = l.length - 1 := by
  simp [midpoints]

theorem idx_midpoints {X : Type} [AddCommGroup X] [Module ℝ X] {l : List X} {k : ℕ}
    (h : k + 1 < l.length) :
    idx (midpoints l) k = .ok ((0.5 : ℝ) • (asFun l k + asFun l (k + 1))) := by
  rw [idx_ok (by simp; omega), asFun_eq h, asFun_eq (by omega)]
  simp [midpoints]

theorem idx_midpoints_pad {X : Type} [AddCommGroup X] [Module ℝ X] {l : List X} {k : ℕ}
    (h : k + 1 < l.length) :
    idx (midpoints l ++ [0]) k = .ok ((0.5 : ℝ) • (asFun l k + asFun l (k + 1))) := by
  rw [← idx_midpoints h, idx_ok (by simp; omega), idx_ok (by simp; omega),
    List.getElem_append_left]

/-- How many linear parameters a forward sweep over `n` points reads. -/
def needA (meth : Method) (n : ℕ) : ℕ :=
  match meth with
  | .euler => n - 1
  | _ => if n ≤ 1 then 0 else n

theorem solveFwd_ok (meth : Method) (F : Rhs V W) (dt : ℝ) (lin_a : List W) (off_b : List V)
    (m0 : V) (s0 sigma : W) (hb : 0 < off_b.length) (ha : needA meth off_b.length ≤ lin_a.length) :
    solveFwd meth F dt lin_a off_b m0 s0 sigma
      = .ok ((List.range off_b.length).map fun k =>
              (traj (m0, s0) (fwdStep meth F dt (asFun lin_a) (asFun off_b) sigma) k).1,
             (List.range off_b.length).map fun k =>
              (traj (m0, s0) (fwdStep meth F dt (asFun lin_a) (asFun off_b) sigma) k).2) := by
  cases meth
  case euler =>
    simp only [solveFwd, Euler.solveFwd]
    rw [fwdSweep_ok _ _ _ (fwdStep .euler F dt (asFun lin_a) (asFun off_b) sigma) hb]
    · simp [List.map_map, Function.comp_def]
    · rintro k hk ⟨m, s⟩
      simp only [needA] at ha
      rw [idx_asFun (l := lin_a) (by omega), idx_asFun (l := off_b) (by omega)]
      simp [fwdStep]
  case heun =>
    simp only [solveFwd, Heun.solveFwd]
    rw [fwdSweep_ok _ _ _ (fwdStep .heun F dt (asFun lin_a) (asFun off_b) sigma) hb]
    · simp [List.map_map, Function.comp_def]
    · rintro k hk ⟨m, s⟩
      have ha' : off_b.length ≤ lin_a.length := by
        simp only [needA] at ha; split at ha <;> omega
      rw [idx_asFun (l := lin_a) (by omega), idx_asFun (l := off_b) (by omega),
        idx_asFun (l := lin_a) (by omega), idx_asFun (l := off_b) (by omega)]
      simp [fwdStep]
  case rk2 =>
    simp only [solveFwd, RK2.solveFwd]
    rw [fwdSweep_ok _ _ _ (fwdStep .rk2 F dt (asFun lin_a) (asFun off_b) sigma) hb]
    · simp [List.map_map, Function.comp_def]
    · rintro k hk ⟨m, s⟩
      have ha' : off_b.length ≤ lin_a.length := by
        simp only [needA] at ha; split at ha <;> omega
      rw [idx_asFun (l := lin_a) (by omega), idx_asFun (l := off_b) (by omega),
        idx_midpoints (by omega), idx_midpoints (by omega)]
      simp [fwdStep]
  case rk4 =>
    simp only [solveFwd, RK4.solveFwd]
    rw [fwdSweep_ok _ _ _ (fwdStep .rk4 F dt (asFun lin_a) (asFun off_b) sigma) hb]
    · simp [List.map_map, Function.comp_def]
    · rintro k hk ⟨m, s⟩
      have ha' : off_b.length ≤ lin_a.length := by
        simp only [needA] at ha; split at ha <;> omega
      rw [idx_asFun (l := lin_a) (by omega), idx_asFun (l := off_b) (by omega),
        idx_midpoints (by omega), idx_midpoints (by omega),
        idx_asFun (l := lin_a) (by omega), idx_asFun (l := off_b) (by omega)]
      simp [fwdStep]

/-- The exact condition under which a backward sweep reads no missing entry. -/
def BwdShapes (n na ns nom nos : ℕ) : Prop :=
  n ≤ 1 ∨ (n ≤ na ∧ n ≤ ns ∧ n - 1 ≤ nom ∧ n - 1 ≤ nos)

theorem solveBwd_ok (meth : Method) (F : Rhs V W) (dt : ℝ) (lin_a : List W) (em : List V)
    (es : List W) (om : List V) (os : List W)
    (hs : BwdShapes em.length lin_a.length es.length om.length os.length) :
    solveBwd meth F dt lin_a em es om os
      = .ok ((List.range em.length).map fun i =>
              (traj 0 (fun k => bwdStep meth F dt (asFun lin_a) (asFun em) (asFun es) (asFun om)
                (asFun os) (em.length - 1 - k)) (em.length - 1 - i)).1,
             (List.range em.length).map fun i =>
              (traj 0 (fun k => bwdStep meth F dt (asFun lin_a) (asFun em) (asFun es) (asFun om)
                (asFun os) (em.length - 1 - k)) (em.length - 1 - i)).2) := by
  cases meth
  case euler =>
    simp only [solveBwd, Euler.solveBwd]
    rw [bwdSweep_ok _ _ (bwdStep .euler F dt (asFun lin_a) (asFun em) (asFun es) (asFun om)
                (asFun os))]
    · simp [List.map_map, Function.comp_def]
    · rintro t ht0 ht ⟨l, p⟩
      have : em.length ≤ lin_a.length ∧ em.length ≤ es.length ∧ em.length - 1 ≤ om.length ∧
        em.length - 1 ≤ os.length := by rcases hs with hs | hs <;> omega
      rw [idx_asFun (l := lin_a) (by omega), idx_asFun (l := em) (by omega),
        idx_asFun (l := om) (by omega), idx_asFun (l := es) (by omega),
        idx_asFun (l := os) (by omega)]
      simp [bwdStep]
  case heun =>
    simp only [solveBwd, Heun.solveBwd]
    rw [bwdSweep_ok _ _ (bwdStep .heun F dt (asFun lin_a) (asFun em) (asFun es) (asFun om)
                (asFun os))]
    · simp [List.map_map, Function.comp_def]
    · rintro t ht0 ht ⟨l, p⟩
      have : em.length ≤ lin_a.length ∧ em.length ≤ es.length ∧ em.length - 1 ≤ om.length ∧
        em.length - 1 ≤ os.length := by rcases hs with hs | hs <;> omega
      rw [idx_asFun (l := lin_a) (by omega), idx_asFun (l := lin_a) (by omega),
        idx_asFun (l := em) (by omega), idx_asFun (l := em) (by omega),
        idx_asFun (l := om) (by omega), idx_asFun (l := es) (by omega),
        idx_asFun (l := es) (by omega), idx_asFun (l := os) (by omega)]
      simp [bwdStep]
  case rk2 =>
    simp only [solveBwd, RK2.solveBwd]
    rw [bwdSweep_ok _ _ (bwdStep .rk2 F dt (asFun lin_a) (asFun em) (asFun es) (asFun om)
                (asFun os))]
    · simp [List.map_map, Function.comp_def]
    · rintro t ht0 ht ⟨l, p⟩
      have : em.length ≤ lin_a.length ∧ em.length ≤ es.length ∧ em.length - 1 ≤ om.length ∧
        em.length - 1 ≤ os.length := by rcases hs with hs | hs <;> omega
      have e1 : t - 1 + 1 = t := by omega
      rw [idx_asFun (l := lin_a) (by omega), idx_midpoints_pad (l := lin_a) (by omega),
        idx_midpoints_pad (l := em) (by omega), idx_midpoints_pad (l := es) (by omega),
        idx_asFun (l := em) (by omega),
        idx_asFun (l := om) (by omega), idx_asFun (l := es) (by omega),
        idx_asFun (l := os) (by omega)]
      simp [bwdStep, e1]
  case rk4 =>
    simp only [solveBwd, RK4.solveBwd]
    rw [bwdSweep_ok _ _ (bwdStep .rk4 F dt (asFun lin_a) (asFun em) (asFun es) (asFun om)
                (asFun os))]
    · simp [List.map_map, Function.comp_def]
    · rintro t ht0 ht ⟨l, p⟩
      have : em.length ≤ lin_a.length ∧ em.length ≤ es.length ∧ em.length - 1 ≤ om.length ∧
        em.length - 1 ≤ os.length := by rcases hs with hs | hs <;> omega
      have e1 : t - 1 + 1 = t := by omega
      rw [idx_asFun (l := lin_a) (by omega), idx_midpoints_pad (l := lin_a) (by omega),
        idx_midpoints_pad (l := em) (by omega), idx_midpoints_pad (l := es) (by omega),
        idx_asFun (l := em) (by omega), idx_asFun (l := em) (by omega),
        idx_asFun (l := lin_a) (by omega),
        idx_asFun (l := om) (by omega), idx_asFun (l := es) (by omega),
        idx_asFun (l := es) (by omega), idx_asFun (l := os) (by omega)]
      simp [bwdStep, e1]

theorem bind_indexError_of_idx {α β : Type} (l : List α) (k : ℕ) (f : α → Py β)
    (hf : ∀ x, f x = .error .indexError) : (idx l k >>= f) = .error .indexError := by
  unfold idx
  split
  · exact hf _
  · rfl

theorem solveFwd_err (meth : Method) (F : Rhs V W) (dt : ℝ) (lin_a : List W) (off_b : List V)
    (m0 : V) (s0 sigma : W)
    (h : off_b.length = 0 ∨ lin_a.length < needA meth off_b.length) :
    solveFwd meth F dt lin_a off_b m0 s0 sigma = .error .indexError := by
  by_cases hb : off_b.length = 0
  · cases meth <;>
      simp only [solveFwd, Euler.solveFwd, Heun.solveFwd, RK2.solveFwd, RK4.solveFwd, hb,
        fwdSweep_zero] <;> rfl
  · have h : lin_a.length < needA meth off_b.length := by omega
    cases meth
    case euler =>
      simp only [needA] at h
      simp only [solveFwd, Euler.solveFwd]
      rw [fwdSweep_err _ _ _ (fwdStep .euler F dt (asFun lin_a) (asFun off_b) sigma) (by omega)
        lin_a.length h .indexError]
      · rfl
      · rintro k hk ⟨m, s⟩
        rw [idx_asFun (l := lin_a) (by omega), idx_asFun (l := off_b) (by omega)]
        simp [fwdStep]
      · rintro ⟨m, s⟩
        rw [idx_err (l := lin_a) (by omega)]
        rfl
    all_goals
      have h1 : 1 < off_b.length ∧ lin_a.length < off_b.length := by
        simp only [needA] at h; split at h <;> omega
    case heun =>
      simp only [solveFwd, Heun.solveFwd]
      rw [fwdSweep_err _ _ _ (fwdStep .heun F dt (asFun lin_a) (asFun off_b) sigma) (by omega)
        (lin_a.length - 1) (by omega) .indexError]
      · rfl
      · rintro k hk ⟨m, s⟩
        rw [idx_asFun (l := lin_a) (by omega), idx_asFun (l := off_b) (by omega),
          idx_asFun (l := lin_a) (by omega), idx_asFun (l := off_b) (by omega)]
        simp [fwdStep]
      · rintro ⟨m, s⟩
        apply bind_indexError_of_idx; intro _
        apply bind_indexError_of_idx; intro _
        rw [idx_err (l := lin_a) (by omega)]
        rfl
    case rk2 =>
      simp only [solveFwd, RK2.solveFwd]
      rw [fwdSweep_err _ _ _ (fwdStep .rk2 F dt (asFun lin_a) (asFun off_b) sigma) (by omega)
        (lin_a.length - 1) (by omega) .indexError]
      · rfl
      · rintro k hk ⟨m, s⟩
        rw [idx_asFun (l := lin_a) (by omega), idx_asFun (l := off_b) (by omega),
          idx_midpoints (by omega), idx_midpoints (by omega)]
        simp [fwdStep]
      · rintro ⟨m, s⟩
        apply bind_indexError_of_idx; intro _
        apply bind_indexError_of_idx; intro _
        rw [idx_err (by simp)]
        rfl
    case rk4 =>
      simp only [solveFwd, RK4.solveFwd]
      rw [fwdSweep_err _ _ _ (fwdStep .rk4 F dt (asFun lin_a) (asFun off_b) sigma) (by omega)
        (lin_a.length - 1) (by omega) .indexError]
      · rfl
      · rintro k hk ⟨m, s⟩
        rw [idx_asFun (l := lin_a) (by omega), idx_asFun (l := off_b) (by omega),
          idx_midpoints (by omega), idx_midpoints (by omega),
          idx_asFun (l := lin_a) (by omega), idx_asFun (l := off_b) (by omega)]
        simp [fwdStep]
      · rintro ⟨m, s⟩
        apply bind_indexError_of_idx; intro _
        apply bind_indexError_of_idx; intro _
        rw [idx_err (by simp)]
        rfl

theorem idx_bind_err_cases {α β : Type} (l : List α) (k : ℕ) (f : α → Py β)
    (h : l.length ≤ k ∨ ∀ x, f x = .error .indexError) : (idx l k >>= f) = .error .indexError := by
  rcases h with h | h
  · rw [idx_err h]; rfl
  · exact bind_indexError_of_idx l k f h

theorem solveBwd_err (meth : Method) (F : Rhs V W) (dt : ℝ) (lin_a : List W) (em : List V)
    (es : List W) (om : List V) (os : List W)
    (hs : ¬ BwdShapes em.length lin_a.length es.length om.length os.length) :
    solveBwd meth F dt lin_a em es om os = .error .indexError := by
  have hn : 1 < em.length := by
    by_contra h; exact hs (Or.inl (by omega))
  have hs' : lin_a.length ≤ em.length - 1 ∨ es.length ≤ em.length - 1 ∨
      om.length ≤ em.length - 1 - 1 ∨ os.length ≤ em.length - 1 - 1 := by
    by_contra h; apply hs; right; omega
  cases meth <;>
    simp only [solveBwd, Euler.solveBwd, Heun.solveBwd, RK2.solveBwd, RK4.solveBwd]
  all_goals
    rw [bwdSweep_err _ _ (fun _ x => x) (em.length - 1) (by omega) (by omega) .indexError]
    · rfl
    · intro t' h1 h2; omega
    rintro ⟨l, p⟩
    rcases hs' with h | h | h | h
  all_goals
    repeat
      first
      | (apply idx_bind_err_cases; left; simpa using h)
      | (apply idx_bind_err_cases; right; intro _)

theorem fwd_shape_iff (meth : Method) (n na : ℕ) :
    needA meth n ≤ na ↔ (meth = .euler ∧ n ≤ na + 1) ∨ n ≤ 1 ∨ n ≤ na := by
  cases meth <;> simp only [needA] <;> (try split) <;> simp <;> omega

theorem solveFwd_inv {meth : Method} {F : Rhs V W} {dt : ℝ} {lin_a : List W} {off_b : List V}
    {m0 : V} {s0 sigma : W} {mt : List V} {st : List W}
    (h : solveFwd meth F dt lin_a off_b m0 s0 sigma = .ok (mt, st)) :
    0 < off_b.length ∧ needA meth off_b.length ≤ lin_a.length ∧
    mt = (List.range off_b.length).map (fun k =>
              (traj (m0, s0) (fwdStep meth F dt (asFun lin_a) (asFun off_b) sigma) k).1) ∧
    st = (List.range off_b.length).map (fun k =>
              (traj (m0, s0) (fwdStep meth F dt (asFun lin_a) (asFun off_b) sigma) k).2) := by
  by_cases hc : off_b.length = 0 ∨ lin_a.length < needA meth off_b.length
  · rw [solveFwd_err meth F dt lin_a off_b m0 s0 sigma hc] at h
    cases h
  · have hb : 0 < off_b.length := by omega
    have ha : needA meth off_b.length ≤ lin_a.length := by omega
    rw [solveFwd_ok meth F dt lin_a off_b m0 s0 sigma hb ha] at h
    simp only [Except.ok.injEq, Prod.mk.injEq] at h
    exact ⟨hb, ha, h.1.symm, h.2.symm⟩

theorem solveBwd_inv {meth : Method} {F : Rhs V W} {dt : ℝ} {lin_a : List W} {em : List V}
    {es : List W} {om : List V} {os : List W} {lam : List V} {psi : List W}
    (h : solveBwd meth F dt lin_a em es om os = .ok (lam, psi)) :
    BwdShapes em.length lin_a.length es.length om.length os.length ∧
    lam = (List.range em.length).map (fun i =>
              (traj 0 (fun k => bwdStep meth F dt (asFun lin_a) (asFun em) (asFun es) (asFun om)
                (asFun os) (em.length - 1 - k)) (em.length - 1 - i)).1) ∧
    psi = (List.range em.length).map (fun i =>
              (traj 0 (fun k => bwdStep meth F dt (asFun lin_a) (asFun em) (asFun es) (asFun om)
                (asFun os) (em.length - 1 - k)) (em.length - 1 - i)).2) := by
  by_cases hc : BwdShapes em.length lin_a.length es.length om.length os.length
  · rw [solveBwd_ok meth F dt lin_a em es om os hc] at h
    simp only [Except.ok.injEq, Prod.mk.injEq] at h
    exact ⟨hc, h.1.symm, h.2.symm⟩
  · rw [solveBwd_err meth F dt lin_a em es om os hc] at h
    cases h

/-- Consecutive entries of a successful forward sweep are related by the pure step. -/
theorem solveFwd_step {meth : Method} {F : Rhs V W} {dt : ℝ} {lin_a : List W} {off_b : List V}
    {m0 : V} {s0 sigma : W} {mt : List V} {st : List W}
    (h : solveFwd meth F dt lin_a off_b m0 s0 sigma = .ok (mt, st)) :
    mt.length = off_b.length ∧ st.length = off_b.length ∧
    ∀ k (hm : k + 1 < mt.length) (hs : k + 1 < st.length),
      (mt[k + 1], st[k + 1]) = fwdStep meth F dt (asFun lin_a) (asFun off_b) sigma k (mt[k], st[k]) := by
  obtain ⟨_, _, rfl, rfl⟩ := solveFwd_inv h
  refine ⟨by simp, by simp, ?_⟩
  intro k hm hs
  simp [traj]

theorem solveBwd_step {meth : Method} {F : Rhs V W} {dt : ℝ} {lin_a : List W} {em : List V}
    {es : List W} {om : List V} {os : List W} {lam : List V} {psi : List W}
    (h : solveBwd meth F dt lin_a em es om os = .ok (lam, psi)) :
    lam.length = em.length ∧ psi.length = em.length ∧
    (∀ (hl : em.length - 1 < lam.length) (hp : em.length - 1 < psi.length),
      lam[em.length - 1] = 0 ∧ psi[em.length - 1] = 0) ∧
    ∀ k (hl : k + 1 < lam.length) (hp : k + 1 < psi.length),
      (lam[k], psi[k]) = bwdStep meth F dt (asFun lin_a) (asFun em) (asFun es) (asFun om)
                (asFun os) (k + 1) (lam[k + 1], psi[k + 1]) := by
  obtain ⟨_, rfl, rfl⟩ := solveBwd_inv h
  refine ⟨by simp, by simp, by simp [traj], ?_⟩
  intro k hl hp
  simp only [List.length_map, List.length_range] at hl
  simp only [List.getElem_map, List.getElem_range]
  have e : em.length - 1 - k = (em.length - 1 - (k + 1)) + 1 := by omega
  have e2 : em.length - 1 - (em.length - 1 - (k + 1)) = k + 1 := by omega
  rw [e]
  simp only [traj, e2]

end

end VGPA
