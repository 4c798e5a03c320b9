import Verif.Model.IeeeDiff
import Verif.Lemmas.IeeeErr
import Verif.Props.FiniteDiff
import Verif.Props.Floats

/-!
# C139: finite differences in double precision
-/

namespace VGPA

open Flt

/-- The two points at which the function is evaluated for entry `i`. -/
noncomputable def fdPlus {n : ℕ} (x : Fin n → Flt) (i : Fin n) : Fin n → Flt := fun j => (x j).add (if j = i then deltaHF else zero false)
noncomputable def fdMinus {n : ℕ} (x : Fin n → Flt) (i : Fin n) : Fin n → Flt := fun j => (x j).sub (if j = i then deltaHF else zero false)

theorem finiteDiffF_fold {S : Type} {n : ℕ} (fn : S → (Fin n → Flt) → Py (Flt × S)) (f : (Fin n → Flt) → Flt)
    (upd : S → (Fin n → Flt) → S) (hfn : ∀ s y, fn s y = .ok (f y, upd s y)) (x : Fin n → Flt)
    (is : List (Fin n)) (g : Fin n → Flt) (s : S) :
    ∃ g' s', is.foldlM (fdBodyF fn x) (g, fun _ => zero false, s) = .ok (g', fun _ => zero false, s') ∧
      ∀ j, g' j = if j ∈ is then ((Flt.lit (1 / 2)).mul ((f (fdPlus x j)).sub (f (fdMinus x j)))).div deltaHF else g j := by
  induction is generalizing g s with
  | nil => exact ⟨g, s, by simp [pure, Except.pure], by simp⟩
  | cons i is ih =>
    have e0 : Function.update (Function.update (fun _ : Fin n => zero false) i deltaHF) i (zero false) = fun _ => zero false := by
      funext j; by_cases hj : j = i <;> simp [hj]
    have ep : (fun j => (x j).add (Function.update (fun _ : Fin n => zero false) i deltaHF j)) = fdPlus x i := by
      funext j; by_cases hj : j = i <;> simp [hj, fdPlus]
    have em : (fun j => (x j).sub (Function.update (fun _ : Fin n => zero false) i deltaHF j)) = fdMinus x i := by
      funext j; by_cases hj : j = i <;> simp [hj, fdMinus]
    obtain ⟨g', s', h1, h2⟩ := ih (Function.update g i (((Flt.lit (1 / 2)).mul ((f (fdPlus x i)).sub (f (fdMinus x i)))).div deltaHF))
      (upd (upd s (fdPlus x i)) (fdMinus x i))
    refine ⟨g', s', ?_, ?_⟩
    · rw [List.foldlM_cons]
      have : fdBodyF fn x (g, fun _ => zero false, s) i = .ok (Function.update g i
          (((Flt.lit (1 / 2)).mul ((f (fdPlus x i)).sub (f (fdMinus x i)))).div deltaHF), fun _ => zero false,
          upd (upd s (fdPlus x i)) (fdMinus x i)) := by
        simp only [fdBodyF, hfn, py_ok_bind, py_pure, ep, em, e0]
      rw [this, py_ok_bind, h1]
    · intro j
      rw [h2 j]
      by_cases hji : j = i
      · subst hji
        simp only [List.mem_cons, true_or, if_true, Function.update_self]
        split_ifs <;> rfl
      · simp [hji]

theorem finiteDiffF_eq {S : Type} {n : ℕ} {fn : S → (Fin n → Flt) → Py (Flt × S)} {f : (Fin n → Flt) → Flt}
    {upd : S → (Fin n → Flt) → S} (hfn : ∀ s y, fn s y = .ok (f y, upd s y)) (x : Fin n → Flt) (s : S) :
    ∃ g s', finiteDiffF fn s x = .ok (g, s') ∧ ∀ j, g j = ((Flt.lit (1 / 2)).mul ((f (fdPlus x j)).sub (f (fdMinus x j)))).div deltaHF := by
  obtain ⟨g, s', h1, h2⟩ := finiteDiffF_fold fn f upd hfn x (List.finRange n) (fun _ => zero false) s
  refine ⟨g, s', ?_, fun j => by rw [h2 j, if_pos (List.mem_finRange j)]⟩
  unfold finiteDiffF
  rw [h1]
  rfl

theorem deltaHF_val : ∃ h, IsVal deltaHF h ∧ |h - 1 / 10 ^ 6| ≤ 2 * uro / 10 ^ 6 := by
  have h0 : |((1 / 10 ^ 6 : ℚ) : ℝ)| ≤ 2 ^ 1023 := by
    have : |((1 / 10 ^ 6 : ℚ) : ℝ)| ≤ 1 := by rw [abs_of_pos] <;> norm_num
    exact this.trans (one_le_pow₀ (by norm_num))
  obtain ⟨h, h1, h2⟩ := lit_err h0
  refine ⟨h, h1, ?_⟩
  have h3 : tiny ≤ 1 / 2 ^ 100 := tiny_le (by norm_num)
  push_cast at h2
  rw [abs_of_pos (by norm_num : (0 : ℝ) < 1 / 10 ^ 6), uro_eq] at h2
  rw [uro_eq]
  generalize |h - 1 / 10 ^ 6| = z at *
  norm_num at h2 h3 ⊢
  linarith

theorem lit_half : IsVal (Flt.lit (1 / 2)) (1 / 2) := by
  have := round_zpow (k := -1) (by norm_num) (by norm_num)
  unfold Flt.lit
  rw [if_neg (by norm_num)]
  push_cast
  have e : (1 / 2 : ℝ) = 2 ^ (-1 : ℤ) := by norm_num
  rw [e, this]
  exact isVal_num _ _

/-- The quotient that is computed, against the one that is meant. -/
theorem quotient_err {a b : Flt} {p q : ℝ} (ha : IsVal a p) (hb : IsVal b q) (hp : |p| ≤ 2 ^ 900) (hq : |q| ≤ 2 ^ 900) :
    ∃ r, IsVal (((Flt.lit (1 / 2)).mul (a.sub b)).div deltaHF) r ∧ |r - (p - q) / (2 * (1 / 10 ^ 6))| ≤ 8 * uro * 10 ^ 6 * |p - q| + 1 / 2 ^ 1001 := by
  have hu : uro = 1 / 2 ^ 53 := uro_eq
  have ht : tiny ≤ 1 / 2 ^ 1040 := tiny_le (by norm_num)
  have ht1 : tiny ≤ 1 / 2 ^ 100 := tiny_le (by norm_num)
  have ht0 := tiny_pos
  have big : ∀ z : ℝ, z ≤ 2 ^ 123 * 2 ^ 900 → z ≤ 2 ^ 1023 := fun z hz => hz.trans_eq (by rw [← pow_add])
  have hone : (1 : ℝ) ≤ 2 ^ 900 := one_le_pow₀ (by norm_num)
  have hfin : (1 : ℝ) / 2 ^ 1001 = 2 ^ 39 * (1 / 2 ^ 1040) := by
    rw [show (2 : ℝ) ^ 1040 = 2 ^ 1001 * 2 ^ 39 by rw [← pow_add]]; field_simp
  rw [hfin]
  clear hfin
  generalize (1 : ℝ) / 2 ^ 1040 = th at *
  generalize (2 : ℝ) ^ 900 = T at *
  have hD : |p - q| ≤ 2 * T := (abs_sub _ _).trans (by linarith)
  obtain ⟨d, hd, hd1⟩ := sub_err ha hb (big _ (by norm_num; linarith))
  rw [hu] at hd1
  have hd2 : |d| ≤ 2 * |p - q| + tiny := by
    have := abs_sub_abs_le_abs_sub d (p - q)
    have := abs_nonneg (p - q)
    norm_num at hd1
    linarith
  obtain ⟨e, he, he1⟩ := mul_err lit_half hd (big _ (by
    rw [abs_mul, abs_of_pos (by norm_num : (0 : ℝ) < 1 / 2)]; norm_num at ht1 ⊢; linarith))
  rw [hu, abs_mul, abs_of_pos (by norm_num : (0 : ℝ) < 1 / 2)] at he1
  obtain ⟨h, hh, hh1⟩ := deltaHF_val
  rw [hu] at hh1
  have hh2 := abs_le.1 hh1
  have hlow : (1 : ℝ) / (2 * 10 ^ 6) ≤ h := by norm_num at hh2 ⊢; linarith [hh2.1]
  have hh0 : 0 < h := lt_of_lt_of_le (by norm_num) hlow
  have he2 : |e - (p - q) / 2| ≤ 2 * (1 / 2 ^ 53) * |p - q| + 2 * tiny := by
    have e1 : e - (p - q) / 2 = (e - 1 / 2 * d) + 1 / 2 * (d - (p - q)) := by ring
    rw [e1]
    refine (abs_add_le _ _).trans ?_
    rw [abs_mul, abs_of_pos (by norm_num : (0 : ℝ) < 1 / 2)]
    have := abs_nonneg (p - q)
    norm_num at hd1 he1 ⊢
    linarith
  have he3 : |e| ≤ |p - q| + 2 * tiny := by
    have e1 : e = (e - (p - q) / 2) + (p - q) / 2 := by ring
    rw [e1]
    refine (abs_add_le _ _).trans ?_
    rw [abs_div, abs_of_pos (by norm_num : (0 : ℝ) < 2)]
    have := abs_nonneg (p - q)
    norm_num at he2 ⊢
    linarith
  have hq1 : |e / h| ≤ 2 * 10 ^ 6 * |e| := by
    rw [abs_div, abs_of_pos hh0, div_le_iff₀ hh0]
    have h1 : 1 ≤ 2 * 10 ^ 6 * h := by norm_num at hlow ⊢; linarith
    have := mul_le_mul_of_nonneg_left h1 (abs_nonneg e)
    linarith
  obtain ⟨r, hr, hr1⟩ := div_err he hh hh0.ne' (big _ (by
    refine hq1.trans ?_
    norm_num at ht1 ⊢
    linarith))
  refine ⟨r, hr, ?_⟩
  rw [hu] at hr1 ⊢
  have hq2 : |e / h - e * 10 ^ 6| ≤ 4 * (1 / 2 ^ 53) * 10 ^ 6 * |e| := by
    have e1 : e / h - e * 10 ^ 6 = e / h * ((1 / 10 ^ 6 - h) * 10 ^ 6) := by field_simp
    rw [e1, abs_mul]
    have h2 : |(1 / 10 ^ 6 - h) * 10 ^ 6| ≤ 2 * (1 / 2 ^ 53) := by
      rw [abs_mul, abs_of_pos (by norm_num : (0 : ℝ) < 10 ^ 6), abs_sub_comm]
      norm_num at hh1 ⊢
      linarith
    have := mul_le_mul hq1 h2 (abs_nonneg _) (by positivity)
    linarith
  have e2 : r - (p - q) / (2 * (1 / 10 ^ 6)) = (r - e / h) + (e / h - e * 10 ^ 6) + 10 ^ 6 * (e - (p - q) / 2) := by ring
  rw [e2]
  refine (abs_add_le _ _).trans ?_
  have h3 := abs_add_le (r - e / h) (e / h - e * 10 ^ 6)
  rw [abs_mul, abs_of_pos (by norm_num : (0 : ℝ) < 10 ^ 6)]
  norm_num at *
  linarith

/-- C139, the part that holds: for an argument of size at most 10^9, if the function that is evaluated stays within `eps` of a smooth exact function, entry `i`
of the result stays within `M/10^12 + 2*10^6*eps + L*(|x_i|+1)/10^9` (and less than the smallest normal number) of the exact derivative; here `L` and `M`
bound the first and third derivative along the coordinate line. Missing: arguments of any size, see `C139_violated`. -/
theorem C139_error_partial {S : Type} {n : ℕ} {fn : S → (Fin n → Flt) → Py (Flt × S)} {f : (Fin n → Flt) → Flt}
    {upd : S → (Fin n → Flt) → S} (hfn : ∀ s y, fn s y = .ok (f y, upd s y)) (x : Fin n → Flt) (xr : Fin n → ℝ)
    (hx : ∀ k, IsVal (x k) (xr k)) (i : Fin n) (hxi : |xr i| ≤ 10 ^ 9) (φ φ1 φ2 φ3 : ℝ → ℝ) (L M eps : ℝ)
    (h1 : ∀ t, |t - xr i| ≤ 2 / 10 ^ 6 → HasDerivAt φ (φ1 t) t)
    (h2 : ∀ t, |t - xr i| ≤ 2 / 10 ^ 6 → HasDerivAt φ1 (φ2 t) t)
    (h3 : ∀ t, |t - xr i| ≤ 2 / 10 ^ 6 → HasDerivAt φ2 (φ3 t) t)
    (hL : ∀ t, |t - xr i| ≤ 2 / 10 ^ 6 → |φ1 t| ≤ L) (hM : ∀ t, |t - xr i| ≤ 2 / 10 ^ 6 → |φ3 t| ≤ M)
    (hf : ∀ y t, |t - xr i| ≤ 2 / 10 ^ 6 → (∀ k, IsVal (y k) (Function.update xr i t k)) →
      ∃ q, IsVal (f y) q ∧ |q - φ t| ≤ eps ∧ |q| ≤ 2 ^ 900) (s : S) :
    ∃ g s', finiteDiffF fn s x = .ok (g, s') ∧
      ∃ r, IsVal (g i) r ∧ |r - φ1 (xr i)| ≤ M / 10 ^ 12 + 2 * 10 ^ 6 * eps + L * (|xr i| + 1) / 10 ^ 9 + 1 / 2 ^ 1000 := by
  obtain ⟨g, s', hg, hgj⟩ := finiteDiffF_eq hfn x s
  refine ⟨g, s', hg, ?_⟩
  rw [hgj i]
  have hu : uro = 1 / 2 ^ 53 := uro_eq
  have ht1 : tiny ≤ 1 / 2 ^ 100 := tiny_le (by norm_num)
  have ht0 := tiny_pos
  obtain ⟨h, hh, hh1⟩ := deltaHF_val
  rw [hu] at hh1
  have hx0 := abs_nonneg (xr i)
  have big : (2 : ℝ) ^ 100 ≤ 2 ^ 1023 := pow_le_pow_right₀ (by norm_num) (by norm_num)
  have hsmall : ∀ z : ℝ, |z| ≤ 10 ^ 10 → |z| ≤ 2 ^ 1023 := fun z hz => (hz.trans (by norm_num)).trans big
  have hhb := abs_le.1 hh1
  have hb1 : |xr i + h| ≤ |xr i| + 2 / 10 ^ 6 := by
    refine (abs_add_le _ _).trans ?_
    have : |h| ≤ 2 / 10 ^ 6 := by rw [abs_le]; norm_num at hhb ⊢; constructor <;> linarith [hhb.1, hhb.2]
    linarith
  have hb2 : |xr i - h| ≤ |xr i| + 2 / 10 ^ 6 := by
    refine (abs_sub _ _).trans ?_
    have : |h| ≤ 2 / 10 ^ 6 := by rw [abs_le]; norm_num at hhb ⊢; constructor <;> linarith [hhb.1, hhb.2]
    linarith
  obtain ⟨p, hp, hp1⟩ := add_err (hx i) hh (hsmall _ (by norm_num at hxi hb1 ⊢; linarith))
  obtain ⟨m, hm, hm1⟩ := sub_err (hx i) hh (hsmall _ (by norm_num at hxi hb2 ⊢; linarith))
  rw [hu] at hp1 hm1
  -- the two points
  have hpe : |p - (xr i + 1 / 10 ^ 6)| ≤ (|xr i| + 1) / 2 ^ 53 := by
    have e : p - (xr i + 1 / 10 ^ 6) = (p - (xr i + h)) + (h - 1 / 10 ^ 6) := by ring
    rw [e]
    refine (abs_add_le _ _).trans ?_
    norm_num at hp1 hh1 hb1 ht1 ⊢
    linarith
  have hme : |m - (xr i - 1 / 10 ^ 6)| ≤ (|xr i| + 1) / 2 ^ 53 := by
    have e : m - (xr i - 1 / 10 ^ 6) = (m - (xr i - h)) - (h - 1 / 10 ^ 6) := by ring
    rw [e]
    refine (abs_sub _ _).trans ?_
    norm_num at hm1 hh1 hb2 ht1 ⊢
    linarith
  have heta : (|xr i| + 1) / 2 ^ 53 ≤ 1 / 10 ^ 6 := by norm_num at hxi ⊢; linarith
  have hpin : |p - xr i| ≤ 2 / 10 ^ 6 := by
    have e : p - xr i = (p - (xr i + 1 / 10 ^ 6)) + 1 / 10 ^ 6 := by ring
    rw [e]
    refine (abs_add_le _ _).trans ?_
    rw [abs_of_pos (by norm_num : (0 : ℝ) < 1 / 10 ^ 6)]
    linarith
  have hmin : |m - xr i| ≤ 2 / 10 ^ 6 := by
    have e : m - xr i = (m - (xr i - 1 / 10 ^ 6)) - 1 / 10 ^ 6 := by ring
    rw [e]
    refine (abs_sub _ _).trans ?_
    rw [abs_of_pos (by norm_num : (0 : ℝ) < 1 / 10 ^ 6)]
    linarith
  have hcoord : ∀ (y : Fin n → Flt) (t : ℝ), IsVal (y i) t → (∀ k, k ≠ i → IsVal (y k) (xr k)) → ∀ k, IsVal (y k) (Function.update xr i t k) := by
    intro y t hy hk k
    by_cases hki : k = i
    · subst hki; simpa using hy
    · simpa [hki] using hk k hki
  have hz : ∀ k s, IsVal ((x k).add (zero s)) (xr k) := by
    intro k s
    rcases isVal_cases (hx k) with ⟨t, e, e'⟩ | ⟨hr, e⟩
    · rw [e, e']; exact isVal_zero _
    · rw [e]; exact isVal_num _ _
  obtain ⟨qp, hqp, hqp1, hqp2⟩ := hf (fdPlus x i) p hpin (hcoord _ _ (by simpa [fdPlus] using hp) fun k hk => by simpa [fdPlus, hk] using hz k false)
  obtain ⟨qm, hqm, hqm1, hqm2⟩ := hf (fdMinus x i) m hmin (hcoord _ _ (by simpa [fdMinus] using hm) fun k hk => by simpa [fdMinus, hk, Flt.sub, Flt.neg] using hz k true)
  obtain ⟨r, hr, hr1⟩ := quotient_err hqp hqm hqp2 hqm2
  refine ⟨r, hr, ?_⟩
  rw [hu] at hr1
  have hL0 : 0 ≤ L := (abs_nonneg _).trans (hL (xr i) (by rw [sub_self, abs_zero]; norm_num))
  have hM0 : 0 ≤ M := (abs_nonneg _).trans (hM (xr i) (by rw [sub_self, abs_zero]; norm_num))
  have he0 : 0 ≤ eps := (abs_nonneg _).trans hqp1
  -- change of the exact function between the points meant and the points used
  have lip : ∀ a b, |a - xr i| ≤ 2 / 10 ^ 6 → |b - xr i| ≤ 2 / 10 ^ 6 → |φ a - φ b| ≤ L * |a - b| := by
    intro a b ha hb
    have hin : ∀ z ∈ Set.uIcc b a, |z - xr i| ≤ 2 / 10 ^ 6 := by
      intro z hz
      rw [Set.mem_uIcc] at hz
      rw [abs_le] at ha hb ⊢
      rcases hz with ⟨z1, z2⟩ | ⟨z1, z2⟩ <;> constructor <;> linarith [ha.1, ha.2, hb.1, hb.2]
    have := (convex_uIcc b a).norm_image_sub_le_of_norm_hasDerivWithin_le (f := φ) (f' := φ1) (C := L)
      (fun z hz => (h1 z (hin z hz)).hasDerivWithinAt) (fun z hz => hL z (hin z hz)) Set.left_mem_uIcc Set.right_mem_uIcc
    simpa [Real.norm_eq_abs] using this
  have hin1 : |xr i + 1 / 10 ^ 6 - xr i| ≤ 2 / 10 ^ 6 := by
    rw [add_sub_cancel_left, abs_of_pos (by norm_num : (0 : ℝ) < 1 / 10 ^ 6)]; norm_num
  have hin2 : |xr i - 1 / 10 ^ 6 - xr i| ≤ 2 / 10 ^ 6 := by
    rw [sub_sub_cancel_left, abs_neg, abs_of_pos (by norm_num : (0 : ℝ) < 1 / 10 ^ 6)]; norm_num
  have l1 := (lip p _ hpin hin1).trans (mul_le_mul_of_nonneg_left hpe hL0)
  have l2 := (lip m _ hmin hin2).trans (mul_le_mul_of_nonneg_left hme hL0)
  have l3 := lip _ _ hin1 hin2
  rw [show xr i + 1 / 10 ^ 6 - (xr i - 1 / 10 ^ 6) = 2 / 10 ^ 6 by ring, abs_of_pos (by norm_num : (0 : ℝ) < 2 / 10 ^ 6)] at l3
  have cd := central_difference_error φ φ1 φ2 φ3 (xr i) (1 / 10 ^ 6) M (by norm_num)
    (fun t ht => h1 t (by rw [abs_le]; constructor <;> norm_num at ht ⊢ <;> linarith [ht.1, ht.2]))
    (fun t ht => h2 t (by rw [abs_le]; constructor <;> norm_num at ht ⊢ <;> linarith [ht.1, ht.2]))
    (fun t ht => h3 t (by rw [abs_le]; constructor <;> norm_num at ht ⊢ <;> linarith [ht.1, ht.2]))
    (fun t ht => hM t (by rw [abs_le]; constructor <;> norm_num at ht ⊢ <;> linarith [ht.1, ht.2]))
  generalize φ (xr i + 1 / 10 ^ 6) = fp at *
  generalize φ (xr i - 1 / 10 ^ 6) = fm at *
  -- the difference of the two values
  have hdd : |(qp - qm) - (fp - fm)| ≤ 2 * eps + 2 * (L * ((|xr i| + 1) / 2 ^ 53)) := by
    have e : (qp - qm) - (fp - fm) = ((qp - φ p) - (qm - φ m)) + ((φ p - fp) - (φ m - fm)) := by ring
    rw [e]
    refine (abs_add_le _ _).trans ?_
    have := abs_sub (qp - φ p) (qm - φ m)
    have := abs_sub (φ p - fp) (φ m - fm)
    linarith
  have hqq : |qp - qm| ≤ 2 * eps + 2 * (L * ((|xr i| + 1) / 2 ^ 53)) + L * (2 / 10 ^ 6) := by
    have e : qp - qm = ((qp - qm) - (fp - fm)) + (fp - fm) := by ring
    rw [e]
    exact (abs_add_le _ _).trans (by linarith)
  have e : r - φ1 (xr i) = (r - (qp - qm) / (2 * (1 / 10 ^ 6))) + ((qp - qm) - (fp - fm)) / (2 * (1 / 10 ^ 6)) + ((fp - fm) / (2 * (1 / 10 ^ 6)) - φ1 (xr i)) := by
    ring
  rw [e]
  refine (abs_add_le _ _).trans ?_
  have t1 := abs_add_le (r - (qp - qm) / (2 * (1 / 10 ^ 6))) (((qp - qm) - (fp - fm)) / (2 * (1 / 10 ^ 6)))
  have t2 : |((qp - qm) - (fp - fm)) / (2 * (1 / 10 ^ 6))| ≤ 10 ^ 6 / 2 * (2 * eps + 2 * (L * ((|xr i| + 1) / 2 ^ 53))) := by
    rw [abs_div, abs_of_pos (by norm_num : (0 : ℝ) < 2 * (1 / 10 ^ 6)), div_le_iff₀ (by norm_num)]
    linarith
  have hLX : L * (|xr i| + 1) = L * |xr i| + L := by ring
  have hLx : 0 ≤ L * |xr i| := mul_nonneg hL0 hx0
  have hf1 : (1 : ℝ) / 2 ^ 1000 = 2 * (1 / 2 ^ 1001) := by rw [show (2 : ℝ) ^ 1001 = 2 ^ 1000 * 2 by rw [← pow_succ]]; field_simp
  have hf0 : (0 : ℝ) ≤ 1 / 2 ^ 1001 := by positivity
  rw [hf1]
  generalize (1 : ℝ) / 2 ^ 1001 = w at *
  clear hf1
  rw [mul_div_assoc', hLX] at hqq
  rw [mul_div_assoc' L, hLX] at t2
  rw [hLX]
  norm_num at *
  linarith

/-! ## Large arguments -/

theorem nearest_unique {t : ℝ} {k : ℕ} (ht : 0 ≤ t) (h : |t - k| < 1 / 2) : nearest t = k := by
  have h1 := nearest_err ht
  have h2 : |((nearest t : ℤ) : ℝ) - ((k : ℤ) : ℝ)| < 1 := by
    have e : ((nearest t : ℤ) : ℝ) - ((k : ℤ) : ℝ) = ((nearest t : ℝ) - t) + (t - k) := by push_cast; ring
    rw [e]
    exact (abs_add_le _ _).trans_lt (by linarith)
  have h3 : |((nearest t : ℤ) - (k : ℤ))| < 1 := by exact_mod_cast h2
  have := Int.abs_lt_one_iff.1 h3
  omega

/-- A large double does not change when something of the size of the step is added. -/
theorem roundAbs_absorb {y δ : ℝ} (hy : (2 : ℝ) ^ (35 : ℤ) ≤ y) (hr : roundAbs y = y) (hδ : |δ| ≤ 11 / 10 ^ 7) : roundAbs (y + δ) = y := by
  have hy0 : 0 < y := (two_zpow_pos _).trans_le hy
  have hl := le_log hy0 hy
  have hb : lastBit y = Int.log 2 y - 52 := by unfold lastBit; rw [_root_.max_eq_left (by omega)]
  obtain ⟨k, hk⟩ : ∃ k : ℕ, y = k * 2 ^ lastBit y := ⟨_, hr.symm⟩
  set l := Int.log 2 y with hldef
  have hB : (2 : ℝ) ^ (-17 : ℤ) ≤ 2 ^ lastBit y := zpow_le_zpow_right₀ (by norm_num) (by omega)
  have hB0 := two_zpow_pos (lastBit y)
  have hd' : |δ / 2 ^ lastBit y| ≤ 3 / 20 := by
    rw [abs_div, abs_of_pos hB0, div_le_iff₀ hB0]
    norm_num at hB hδ ⊢
    linarith
  have hδ' := abs_le.1 hδ
  have hyδ : (2 : ℝ) ^ (34 : ℤ) ≤ y + δ := by
    norm_num at hy hδ' ⊢
    linarith [hδ'.1]
  have hyδ0 : 0 < y + δ := (two_zpow_pos _).trans_le hyδ
  have hl2 : (34 : ℤ) ≤ Int.log 2 (y + δ) := le_log hyδ0 hyδ
  have hb2 : lastBit (y + δ) = Int.log 2 (y + δ) - 52 := by unfold lastBit; rw [_root_.max_eq_left (by omega)]
  have hup : y < 2 ^ (l + 1) := by
    have := Int.lt_zpow_succ_log_self (b := 2) (by norm_num) y
    simpa using this
  have hlow : (2 : ℝ) ^ l ≤ y := log_le hy0
  have hup2 : y + δ < 2 ^ (Int.log 2 (y + δ) + 1) := by
    have := Int.lt_zpow_succ_log_self (b := 2) (by norm_num) (y + δ)
    simpa using this
  have hlow2 : (2 : ℝ) ^ Int.log 2 (y + δ) ≤ y + δ := log_le hyδ0
  have hkd : (y + δ) / 2 ^ lastBit y - k = δ / 2 ^ lastBit y := by
    rw [add_div]
    nth_rw 1 [hk]
    rw [mul_div_assoc, div_self hB0.ne', mul_one]
    ring
  rcases lt_trichotomy (Int.log 2 (y + δ)) l with hlt | heq | hgt
  · -- one binade below
    have hge : l - 1 ≤ Int.log 2 (y + δ) := by
      apply le_log hyδ0
      have e : (2 : ℝ) ^ l = 2 * 2 ^ (l - 1) := by rw [← zpow_one_add₀ (by norm_num)]; congr 1; ring
      have h1 : (2 : ℝ) ^ (34 : ℤ) ≤ 2 ^ (l - 1) := zpow_le_zpow_right₀ (by norm_num) (by omega)
      rw [e] at hlow
      norm_num at h1 hδ'
      linarith [hδ'.1]
    have hb3 : lastBit (y + δ) = lastBit y - 1 := by rw [hb2, hb]; omega
    have e2 : (2 : ℝ) ^ (lastBit y - 1) = 2 ^ lastBit y / 2 := by rw [zpow_sub₀ (by norm_num), zpow_one]
    unfold roundAbs
    rw [hb3, nearest_unique (k := 2 * k) (div_nonneg hyδ0.le (two_zpow_pos _).le)]
    · rw [e2]; push_cast; rw [show (2 : ℝ) * k * (2 ^ lastBit y / 2) = k * 2 ^ lastBit y by ring]; exact hk.symm
    · rw [e2]
      have : (y + δ) / (2 ^ lastBit y / 2) - ((2 * k : ℕ) : ℝ) = 2 * (δ / 2 ^ lastBit y) := by
        rw [← hkd]; push_cast; field_simp
      rw [this, abs_mul, abs_of_pos (by norm_num : (0 : ℝ) < 2)]
      linarith
  · have hb3 : lastBit (y + δ) = lastBit y := by rw [hb2, hb, heq]
    unfold roundAbs
    rw [hb3, nearest_unique (k := k) (div_nonneg hyδ0.le (two_zpow_pos _).le)]
    · exact hk.symm
    · rw [hkd]; linarith
  · exfalso
    have h1 : (2 : ℝ) ^ (l + 1) ≤ y + δ := (zpow_le_zpow_right₀ (by norm_num) (by omega)).trans hlow2
    have e : (2 : ℝ) ^ (l + 1) = ((2 ^ 53 : ℕ) : ℝ) * 2 ^ lastBit y := by
      rw [hb, show ((2 ^ 53 : ℕ) : ℝ) = (2 : ℝ) ^ (53 : ℤ) by norm_num, ← zpow_add₀ (by norm_num)]; congr 1; ring
    rw [e] at hup h1
    have hkl : (k : ℝ) < ((2 ^ 53 : ℕ) : ℝ) := lt_of_mul_lt_mul_right (hk.symm.trans_lt hup) hB0.le
    have hkl' : k + 1 ≤ 2 ^ 53 := by
      have : k < 2 ^ 53 := by exact_mod_cast hkl
      omega
    have h2 : ((2 ^ 53 : ℕ) : ℝ) ≤ (y + δ) / 2 ^ lastBit y := by rw [le_div_iff₀ hB0]; exact h1
    have h3 : ((k + 1 : ℕ) : ℝ) ≤ ((2 ^ 53 : ℕ) : ℝ) := by exact_mod_cast hkl'
    have h4 := (abs_le.1 hd').2
    rw [← hkd] at h4
    push_cast at h3
    push_cast at h2
    linarith

/-- A number that is a double. -/
def Spec.Double (r : ℝ) : Prop := ∃ h, Flt.round r = num r h

theorem round_absorb {r δ : ℝ} (hr : Spec.Double r) (hbig : 2 ^ 35 ≤ |r|) (hδ : |δ| ≤ 11 / 10 ^ 7) : r + δ ≠ 0 ∧ Flt.round (r + δ) = Flt.round r := by
  obtain ⟨h0, h1⟩ := hr
  have hb : (2 : ℝ) ^ (35 : ℤ) ≤ |r| := by exact_mod_cast hbig
  have hra : roundAbs |r| = |r| := by
    unfold Flt.round at h1
    split at h1
    · cases h1
    · have := ofReal_num h1
      have h2 := congrArg (fun z => |z|) this
      simp only [abs_signed] at h2
      exact h2.symm
  have hδ' := abs_le.1 hδ
  rcases lt_or_gt_of_ne h0 with hn | hp
  · rw [abs_of_neg hn] at hb hra
    have hneg : r + δ < 0 := by norm_num at hb hδ'; linarith [hδ'.2]
    refine ⟨hneg.ne, ?_⟩
    have := roundAbs_absorb hb hra (δ := -δ) (by rwa [abs_neg])
    unfold Flt.round
    rw [abs_of_neg hneg, abs_of_neg hn, decide_eq_true hneg, decide_eq_true hn, show -(r + δ) = -r + -δ by ring, this, hra, if_pos hneg, if_pos hn]
  · rw [abs_of_pos hp] at hb hra
    have hpos : 0 < r + δ := by norm_num at hb hδ'; linarith [hδ'.1]
    refine ⟨hpos.ne', ?_⟩
    have := roundAbs_absorb hb hra hδ
    unfold Flt.round
    rw [abs_of_pos hpos, abs_of_pos hp, decide_eq_false (not_lt.2 hpos.le), decide_eq_false (not_lt.2 hp.le), this, hra, if_neg (not_lt.2 hpos.le),
      if_neg (not_lt.2 hp.le)]

theorem deltaHF_num : ∃ h hr, deltaHF = num h hr ∧ 0 < h ∧ |h| ≤ 11 / 10 ^ 7 := by
  obtain ⟨h, h1, h2⟩ := deltaHF_val
  rw [uro_eq] at h2
  have h3 := abs_le.1 h2
  have hp : 0 < h := by norm_num at h3; linarith [h3.1]
  rcases isVal_cases h1 with ⟨_, _, e⟩ | ⟨hr, e⟩
  · exact absurd e hp.ne'
  · refine ⟨h, hr, e, hp, ?_⟩
    rw [abs_of_pos hp]
    norm_num at h3 ⊢
    linarith [h3.2]

theorem absorb {r : ℝ} {h0 : r ≠ 0} (hr : Spec.Double r) (hbig : 2 ^ 35 ≤ |r|) : (num r h0).add deltaHF = num r h0 ∧ (num r h0).sub deltaHF = num r h0 := by
  obtain ⟨h, hh, e, hp, hb⟩ := deltaHF_num
  obtain ⟨h1, e1⟩ := hr
  rw [e]
  constructor
  · obtain ⟨a, b⟩ := round_absorb ⟨h1, e1⟩ hbig hb
    rw [Flt.add, if_neg a, b, e1]
  · obtain ⟨a, b⟩ := round_absorb ⟨h1, e1⟩ hbig (δ := -h) (by rwa [abs_neg])
    rw [Flt.sub, Flt.neg, Flt.add, if_neg a, b, e1]

theorem half_num : Flt.lit (1 / 2) = num (1 / 2) (by norm_num) := by
  rcases isVal_cases lit_half with ⟨_, _, e⟩ | ⟨hr, e⟩
  · norm_num at e
  · exact e

/-- C139 does not hold: where an argument is 2^35 or more in size, its entry of the result is zero, whatever the function is. For the function that returns its
argument, whose derivative is one, the result at 2^35 is zero. -/
theorem C139_violated :
    (∀ {S : Type} {n : ℕ} {fn : S → (Fin n → Flt) → Py (Flt × S)} {f : (Fin n → Flt) → Flt} {upd : S → (Fin n → Flt) → S},
      (∀ s y, fn s y = .ok (f y, upd s y)) → ∀ (x : Fin n → Flt), (∀ k, ∃ r h, x k = num r h) →
      ∀ i r h, x i = num r h → Spec.Double r → 2 ^ 35 ≤ |r| → ∀ q, IsVal (f x) q → ∀ s : S,
      ∃ g s', finiteDiffF fn s x = .ok (g, s') ∧ g i = zero false)
    ∧ ∃ g, finiteDiffF (fun (_ : Unit) (y : Fin 1 → Flt) => .ok (y 0, ())) () (fun _ => pow2 35) = .ok (g, ()) ∧ g 0 = zero false := by
  have gen : ∀ {S : Type} {n : ℕ} {fn : S → (Fin n → Flt) → Py (Flt × S)} {f : (Fin n → Flt) → Flt} {upd : S → (Fin n → Flt) → S},
      (∀ s y, fn s y = .ok (f y, upd s y)) → ∀ (x : Fin n → Flt), (∀ k, ∃ r h, x k = num r h) →
      ∀ i r h, x i = num r h → Spec.Double r → 2 ^ 35 ≤ |r| → ∀ q, IsVal (f x) q → ∀ s : S,
      ∃ g s', finiteDiffF fn s x = .ok (g, s') ∧ g i = zero false := by
    intro S n fn f upd hfn x hx i r h hi hr hbig q hq s
    obtain ⟨g, s', h1, h2⟩ := finiteDiffF_eq hfn x s
    refine ⟨g, s', h1, ?_⟩
    rw [h2 i]
    have ep : fdPlus x i = x := by
      funext k
      unfold fdPlus
      by_cases hk : k = i
      · subst hk; rw [if_pos rfl, hi]; exact (absorb hr hbig).1
      · rw [if_neg hk]
        obtain ⟨_, _, e⟩ := hx k
        rw [e]; rfl
    have em : fdMinus x i = x := by
      funext k
      unfold fdMinus
      by_cases hk : k = i
      · subst hk; rw [if_pos rfl, hi]; exact (absorb hr hbig).2
      · rw [if_neg hk]
        obtain ⟨_, _, e⟩ := hx k
        rw [e]; rfl
    have e0 : (f x).sub (f x) = zero false := by
      rcases isVal_cases hq with ⟨t, e, _⟩ | ⟨hq0, e⟩
      · rw [e]; cases t <;> rfl
      · rw [e, Flt.sub, Flt.neg, Flt.add, if_pos (by ring)]
    obtain ⟨d, hd, e, hp, _⟩ := deltaHF_num
    rw [ep, em, e0, half_num, e, Flt.mul, Flt.div]
    · simp [sgn, not_lt.2 hp.le]
    all_goals simp
  refine ⟨gen, ?_⟩
  have hD : Spec.Double ((2 : ℝ) ^ (35 : ℤ)) := ⟨_, round_zpow (by norm_num) (by norm_num)⟩
  obtain ⟨g, s', h1, h2⟩ := gen (fn := fun (_ : Unit) (y : Fin 1 → Flt) => .ok (y 0, ())) (f := fun y => y 0) (upd := fun _ _ => ()) (fun _ _ => rfl)
    (fun _ => pow2 35) (fun _ => ⟨_, _, rfl⟩) 0 _ _ rfl hD (by rw [abs_of_pos (two_zpow_pos _)]; norm_num) _ (isVal_num _ _) ()
  exact ⟨g, h1, h2⟩

/-- The hypotheses of `C139_error_partial` are met by the function that returns its argument, at one. -/
example : ∃ g s', finiteDiffF (fun (_ : Unit) (y : Fin 1 → Flt) => .ok (y 0, ())) () (fun _ => pow2 0) = .ok (g, s') ∧
    ∃ r, IsVal (g 0) r ∧ |r - 1| ≤ 1 / 10 ^ 8 := by
  have hx : IsVal (pow2 0) (1 : ℝ) := ⟨by simp [pow2], by simp [pow2, val]⟩
  obtain ⟨g, s', h1, r, h2, h3⟩ := C139_error_partial (fn := fun (_ : Unit) (y : Fin 1 → Flt) => .ok (y 0, ())) (f := fun y => y 0) (upd := fun _ _ => ())
    (fun _ _ => rfl) (fun _ => pow2 0) (fun _ => 1) (fun _ => hx) 0 (by norm_num) id (fun _ => 1) (fun _ => 0) (fun _ => 0) 1 0 0
    (fun t _ => hasDerivAt_id t) (fun t _ => hasDerivAt_const t _) (fun t _ => hasDerivAt_const t _) (by norm_num) (by norm_num)
    (fun y t ht hy => ⟨t, by simpa using hy 0, by simp, by
      have h4 := abs_le.1 ht
      have h5 : |t| ≤ 2 := by rw [abs_le]; norm_num at h4 ⊢; constructor <;> linarith [h4.1, h4.2]
      have h6 : (2 : ℝ) ^ 1 ≤ 2 ^ 900 := pow_le_pow_right₀ (by norm_num) (by norm_num)
      rw [pow_one] at h6
      exact h5.trans h6⟩) ()
  refine ⟨g, s', h1, r, h2, h3.trans ?_⟩
  have h7 : (1 : ℝ) / 2 ^ 1000 ≤ 1 / 2 ^ 40 := one_div_le_one_div_of_le (by norm_num) (pow_le_pow_right₀ (by norm_num) (by norm_num))
  generalize (1 : ℝ) / 2 ^ 1000 = w at *
  norm_num at h7 ⊢
  linarith

end VGPA
