import Verif.Lemmas.Ode
import Mathlib.Analysis.Matrix.Normed
import Mathlib.Analysis.Calculus.MeanValue
import Mathlib.Analysis.SpecialFunctions.Exp

/-!
# One step of each solver, up to the second order in the step
-/

namespace VGPA

noncomputable section

section step
variable {X : Type} [NormedAddCommGroup X] [NormedSpace ℝ X]

/-- One step of each method for right-hand sides `f0`, `fm`, `f1` at the start, the middle and the end of the step. `g` is what RK2 uses
to reach the middle. -/
def gStep (meth : Method) (dt : ℝ) (f0 fm f1 g : X → X) (y : X) : X :=
  let h := 0.5 * dt
  match meth with
  | .euler => y + dt • f0 y
  | .heun => y + h • (f0 y + f1 (y + dt • f0 y))
  | .rk2 => y + dt • fm (y + h • g y)
  | .rk4 =>
    let K1 := f0 y
    let K2 := fm (y + h • K1)
    let K3 := fm (y + h • K2)
    let K4 := f1 (y + dt • K3)
    y + (1 / 6 : ℝ) • (dt • (K1 + (2 : ℝ) • (K2 + K3) + K4))

/-- The share of the right-hand side at the end of the step. -/
def endShare : Method → ℝ
  | .euler => 0
  | _ => 1 / 2

theorem endShare_bounds (meth : Method) : 0 ≤ endShare meth ∧ endShare meth ≤ 1 := by
  cases meth <;> norm_num [endShare]

theorem gStep_remainder (meth : Method) {dt q κ : ℝ} {f0 fm f1 g : X → X} {y : X} (hdt : |dt| ≤ 1) (hq : 0 ≤ q)
    (hm : ∀ x z, ‖fm x - fm z‖ ≤ q * ‖x - z‖) (h1 : ∀ x z, ‖f1 x - f1 z‖ ≤ q * ‖x - z‖)
    (k0 : ‖f0 y‖ ≤ κ) (km : ‖fm y‖ ≤ κ) (kg : ‖g y‖ ≤ κ) (hmid : fm y = (0.5 : ℝ) • (f0 y + f1 y)) :
    ‖gStep meth dt f0 fm f1 g y - (y + dt • (f0 y + endShare meth • (f1 y - f0 y)))‖ ≤ q * κ * (1 + q) ^ 2 * dt ^ 2 := by
  have hκ : 0 ≤ κ := (norm_nonneg _).trans k0
  have ha : 0 ≤ |dt| := abs_nonneg dt
  have hsq : |dt| * |dt| = dt ^ 2 := by rw [← sq, sq_abs]
  have hK : 0 ≤ q * κ := mul_nonneg hq hκ
  have hone : 1 ≤ (1 + q) ^ 2 := by nlinarith
  have hbase : q * κ * dt ^ 2 ≤ q * κ * (1 + q) ^ 2 * dt ^ 2 := by
    have : q * κ * dt ^ 2 * 1 ≤ q * κ * dt ^ 2 * (1 + q) ^ 2 := mul_le_mul_of_nonneg_left hone (by positivity)
    linarith
  cases meth with
  | euler =>
    simp only [gStep, endShare, zero_smul, add_zero, sub_self, norm_zero]
    positivity
  | heun =>
    have e : gStep .heun dt f0 fm f1 g y - (y + dt • (f0 y + endShare .heun • (f1 y - f0 y)))
        = (dt / 2) • (f1 (y + dt • f0 y) - f1 y) := by
      simp only [gStep, endShare]
      rw [show (0.5 * dt : ℝ) = dt / 2 by ring]
      module
    rw [e, norm_smul, Real.norm_eq_abs, abs_div, abs_two]
    have h := h1 (y + dt • f0 y) y
    rw [add_sub_cancel_left, norm_smul, Real.norm_eq_abs] at h
    calc |dt| / 2 * ‖f1 (y + dt • f0 y) - f1 y‖ ≤ |dt| / 2 * (q * (|dt| * κ)) := by gcongr; exact h.trans (by gcongr)
      _ = q * κ * dt ^ 2 / 2 := by rw [← hsq]; ring
      _ ≤ q * κ * dt ^ 2 := by have : 0 ≤ q * κ * dt ^ 2 := by positivity
                               linarith
      _ ≤ _ := hbase
  | rk2 =>
    have e : gStep .rk2 dt f0 fm f1 g y - (y + dt • (f0 y + endShare .rk2 • (f1 y - f0 y)))
        = dt • (fm (y + (dt / 2) • g y) - fm y) := by
      simp only [gStep, endShare, hmid]
      rw [show (0.5 * dt : ℝ) = dt / 2 by ring, show (0.5 : ℝ) = 1 / 2 by norm_num]
      module
    rw [e, norm_smul, Real.norm_eq_abs]
    have h := hm (y + (dt / 2) • g y) y
    rw [add_sub_cancel_left, norm_smul, Real.norm_eq_abs, abs_div, abs_two] at h
    calc |dt| * ‖fm (y + (dt / 2) • g y) - fm y‖ ≤ |dt| * (q * (|dt| / 2 * κ)) := by gcongr; exact h.trans (by gcongr)
      _ = q * κ * dt ^ 2 / 2 := by rw [← hsq]; ring
      _ ≤ q * κ * dt ^ 2 := by have : 0 ≤ q * κ * dt ^ 2 := by positivity
                               linarith
      _ ≤ _ := hbase
  | rk4 =>
    obtain ⟨K1, hK1⟩ : ∃ v, f0 y = v := ⟨_, rfl⟩
    obtain ⟨K2, hK2⟩ : ∃ v, fm (y + (dt / 2) • K1) = v := ⟨_, rfl⟩
    obtain ⟨K3, hK3⟩ : ∃ v, fm (y + (dt / 2) • K2) = v := ⟨_, rfl⟩
    obtain ⟨K4, hK4⟩ : ∃ v, f1 (y + dt • K3) = v := ⟨_, rfl⟩
    have e : gStep .rk4 dt f0 fm f1 g y - (y + dt • (f0 y + endShare .rk4 • (f1 y - f0 y)))
        = (dt / 6) • ((2 : ℝ) • (K2 - fm y) + (2 : ℝ) • (K3 - fm y) + (K4 - f1 y)) := by
      simp only [gStep, endShare]
      rw [show (0.5 * dt : ℝ) = dt / 2 by ring]
      simp only [hmid, hK1, hK2, hK3, hK4]
      rw [show (0.5 : ℝ) = 1 / 2 by norm_num]
      module
    have d2 : ‖K2 - fm y‖ ≤ q * κ * |dt| / 2 := by
      have h := hm (y + (dt / 2) • K1) y
      rw [hK2, add_sub_cancel_left, norm_smul, Real.norm_eq_abs, abs_div, abs_two] at h
      rw [hK1] at k0
      calc _ ≤ _ := h
        _ ≤ q * (|dt| / 2 * κ) := by gcongr
        _ = _ := by ring
    have n2 : ‖K2‖ ≤ κ * (1 + q) := by
      have : ‖K2‖ ≤ ‖K2 - fm y‖ + ‖fm y‖ := by simpa using norm_add_le (K2 - fm y) (fm y)
      nlinarith [mul_le_mul_of_nonneg_left hdt hK]
    have d3 : ‖K3 - fm y‖ ≤ q * (κ * (1 + q)) * |dt| / 2 := by
      have h := hm (y + (dt / 2) • K2) y
      rw [hK3, add_sub_cancel_left, norm_smul, Real.norm_eq_abs, abs_div, abs_two] at h
      calc _ ≤ _ := h
        _ ≤ q * (|dt| / 2 * (κ * (1 + q))) := by gcongr
        _ = _ := by ring
    have hK' : 0 ≤ q * (κ * (1 + q)) := by positivity
    have n3 : ‖K3‖ ≤ κ * (1 + q) ^ 2 := by
      have : ‖K3‖ ≤ ‖K3 - fm y‖ + ‖fm y‖ := by simpa using norm_add_le (K3 - fm y) (fm y)
      have h3 : q * (κ * (1 + q)) * |dt| ≤ q * (κ * (1 + q)) := by simpa using mul_le_mul_of_nonneg_left hdt hK'
      have : κ * (1 + q) ^ 2 = κ + κ * q + q * (κ * (1 + q)) := by ring
      have : 0 ≤ κ * q := by positivity
      linarith
    have d4 : ‖K4 - f1 y‖ ≤ q * (κ * (1 + q) ^ 2) * |dt| := by
      have h := h1 (y + dt • K3) y
      rw [hK4, add_sub_cancel_left, norm_smul, Real.norm_eq_abs] at h
      calc _ ≤ _ := h
        _ ≤ q * (|dt| * (κ * (1 + q) ^ 2)) := by gcongr
        _ = _ := by ring
    rw [e, norm_smul, Real.norm_eq_abs, abs_div, abs_of_pos (by norm_num : (0 : ℝ) < 6)]
    have hs : ‖(2 : ℝ) • (K2 - fm y) + (2 : ℝ) • (K3 - fm y) + (K4 - f1 y)‖ ≤ 6 * (q * κ * (1 + q) ^ 2 * |dt|) := by
      have h2 : ‖(2 : ℝ) • (K2 - fm y)‖ ≤ q * κ * |dt| := by
        rw [norm_smul, Real.norm_eq_abs, abs_two]; linarith
      have h3 : ‖(2 : ℝ) • (K3 - fm y)‖ ≤ q * (κ * (1 + q)) * |dt| := by
        rw [norm_smul, Real.norm_eq_abs, abs_two]; linarith
      have h4 := norm_add₃_le (a := (2 : ℝ) • (K2 - fm y)) (b := (2 : ℝ) • (K3 - fm y)) (c := K4 - f1 y)
      have a1 : q * κ * |dt| * 1 ≤ q * κ * |dt| * (1 + q) ^ 2 := mul_le_mul_of_nonneg_left hone (by positivity)
      have a2 : q * κ * |dt| * (1 + q) ≤ q * κ * |dt| * (1 + q) ^ 2 :=
        mul_le_mul_of_nonneg_left (by nlinarith) (by positivity)
      have a3 : 0 ≤ q * κ * (1 + q) ^ 2 * |dt| := by positivity
      nlinarith
    calc |dt| / 6 * _ ≤ |dt| / 6 * (6 * (q * κ * (1 + q) ^ 2 * |dt|)) := by gcongr
      _ = q * κ * (1 + q) ^ 2 * (|dt| * |dt|) := by ring
      _ = _ := by rw [hsq]

/-- Discrete Gronwall inequality. -/
theorem gronwall_step {u : ℕ → ℝ} {n : ℕ} {q c dt : ℝ} (hq : 0 ≤ q) (hc : 0 ≤ c) (hdt : 0 < dt) (h0 : 0 ≤ u 0)
    (h : ∀ k < n, u k ≤ Real.exp (q * (k * dt)) * (u 0 + k * dt * c) → u (k + 1) ≤ (1 + q * dt) * u k + dt * c) :
    ∀ k ≤ n, u k ≤ Real.exp (q * (k * dt)) * (u 0 + k * dt * c) := by
  intro k
  induction k with
  | zero => intro _; simp
  | succ k ih =>
    intro hk
    have h1 := ih (by omega)
    have h2 := h k (by omega) h1
    have h3 : 1 + q * dt ≤ Real.exp (q * dt) := by rw [add_comm]; exact Real.add_one_le_exp _
    have e : Real.exp (q * ((k + 1 : ℕ) * dt)) = Real.exp (q * dt) * Real.exp (q * (k * dt)) := by
      rw [← Real.exp_add]; congr 1; push_cast; ring
    have h4 : 0 ≤ u 0 + k * dt * c := by positivity
    have h5 : 1 ≤ Real.exp (q * ((k + 1 : ℕ) * dt)) := Real.one_le_exp (by positivity)
    calc u (k + 1) ≤ (1 + q * dt) * u k + dt * c := h2
      _ ≤ (1 + q * dt) * (Real.exp (q * (k * dt)) * (u 0 + k * dt * c)) + dt * c := by gcongr
      _ ≤ Real.exp (q * dt) * (Real.exp (q * (k * dt)) * (u 0 + k * dt * c)) + dt * c := by
          have : 0 ≤ Real.exp (q * (k * dt)) * (u 0 + k * dt * c) := by positivity
          gcongr
      _ = Real.exp (q * ((k + 1 : ℕ) * dt)) * (u 0 + k * dt * c) + dt * c := by rw [e]; ring
      _ ≤ Real.exp (q * ((k + 1 : ℕ) * dt)) * (u 0 + k * dt * c) + Real.exp (q * ((k + 1 : ℕ) * dt)) * (dt * c) := by
          have : 0 ≤ dt * c := by positivity
          nlinarith
      _ = _ := by push_cast; ring

/-- The bound that Gronwall's inequality gives on a whole window. -/
theorem gronwall_window {u : ℕ → ℝ} {n : ℕ} {q c dt T : ℝ} (hq : 0 ≤ q) (hc : 0 ≤ c) (hdt : 0 < dt) (hT : n * dt ≤ T) (h0 : 0 ≤ u 0)
    (h : ∀ k < n, u k ≤ Real.exp (q * T) * (u 0 + T * c) → u (k + 1) ≤ (1 + q * dt) * u k + dt * c) :
    ∀ k ≤ n, u k ≤ Real.exp (q * T) * (u 0 + T * c) := by
  have hT0 : 0 ≤ T := le_trans (by positivity) hT
  have key : ∀ k ≤ n, Real.exp (q * (k * dt)) * (u 0 + k * dt * c) ≤ Real.exp (q * T) * (u 0 + T * c) := by
    intro k hk
    have : (k : ℝ) * dt ≤ T := le_trans (by gcongr) hT
    gcongr
  intro k hk
  refine (gronwall_step hq hc hdt h0 (fun j hj hu => h j hj (hu.trans (key j hj.le))) k hk).trans (key k hk)

end step

end

end VGPA
