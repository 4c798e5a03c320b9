import Verif.Model.IeeeParams
import Verif.Props.Floats

/-!
# C138: the checks on parameters, in double precision
-/

namespace VGPA

open Flt

/-- A number greater than zero, not infinite. -/
def Spec.PositiveNumber (a : Flt) : Prop := ∃ r h, a = num r h ∧ 0 < r

/-- One use of a setter; an exception is caught and the object is used further. -/
inductive SetOp
  | sigma (v : Flt)
  | theta (v : Flt)

noncomputable def SetOp.onDW (o : FProc) : SetOp → FProc
  | .sigma v => (o.setSigma v).2
  | .theta v => (o.setThetaDW v).2

noncomputable def SetOp.onOU (o : FProc) : SetOp → FProc
  | .sigma v => (o.setSigma v).2
  | .theta v => (o.setThetaOU v).2

/-- What the test `value <= 0.0` lets through. -/
theorem passes_iff (v : Flt) : v.le (zero false) = false ↔ Spec.PositiveNumber v ∨ v = nan ∨ v = inf false := by
  rw [← Bool.not_eq_true, Flt.le_iff]
  constructor
  · intro h
    cases v with
    | nan => exact .inr (.inl rfl)
    | inf s =>
      cases s
      · exact .inr (.inr rfl)
      · exact absurd ⟨by simp, by simp, by simp [val]⟩ h
    | zero s => exact absurd ⟨by simp, by simp, le_rfl⟩ h
    | num r hr =>
      refine .inl ⟨r, hr, rfl, ?_⟩
      by_contra hc
      exact h ⟨by simp, by simp, by simpa [val] using hc⟩
  · rintro (⟨r, hr, rfl, h⟩ | rfl | rfl) ⟨h1, _, h2⟩
    · simp only [val] at h2
      have : r ≤ 0 := by exact_mod_cast h2
      linarith
    · exact h1 rfl
    · simp [val] at h2

/-- C138, the part that holds: a constructor, a setter and a solver accept a value exactly when it is positive, infinite or NaN; what they reject
leaves the object as it was; and after the constructor and any sequence of assignments, accepted or not, the noise of a double well or an
Ornstein-Uhlenbeck process is of that kind, so is the drift of the latter, and the stored inverse is the rounded quotient of one and the noise.
Missing: that NaN and infinity are rejected. They are not, see `C138_violated`. -/
theorem C138_checks_partial (sigma theta v : Flt) (ops : List SetOp) :
    let Ok := fun a => Spec.PositiveNumber a ∨ a = nan ∨ a = inf false
    ((∃ o, FProc.initDW sigma theta = .ok o) ↔ Ok sigma) ∧ ((∃ o, FProc.initOU sigma theta = .ok o) ↔ Ok sigma ∧ Ok theta)
    ∧ (∀ o, FProc.initDW sigma theta = .ok o → o.sigma = sigma ∧ o.theta = theta) ∧ (∀ o, FProc.initOU sigma theta = .ok o → o.sigma = sigma ∧ o.theta = theta)
    ∧ (∀ o : FProc, ((o.setSigma v).1 = .ok () ↔ Ok v) ∧ (Ok v → (o.setSigma v).2.sigma = v) ∧ (¬ Ok v → (o.setSigma v).2 = o))
    ∧ (∀ o : FProc, ((o.setThetaOU v).1 = .ok () ↔ Ok v) ∧ (Ok v → (o.setThetaOU v).2.theta = v) ∧ (¬ Ok v → (o.setThetaOU v).2 = o))
    ∧ (∀ o : FProc, (o.setThetaDW v).1 = .ok () ∧ (o.setThetaDW v).2.theta = v)
    ∧ (odeStep v = .ok v ↔ Ok v)
    ∧ (∀ o, FProc.initDW sigma theta = .ok o → let q := ops.foldl SetOp.onDW o; Ok q.sigma ∧ q.sig_inv = (Flt.lit 1).div q.sigma)
    ∧ (∀ o, FProc.initOU sigma theta = .ok o → let q := ops.foldl SetOp.onOU o; Ok q.sigma ∧ Ok q.theta ∧ q.sig_inv = (Flt.lit 1).div q.sigma) := by
  intro Ok
  have neg_iff : ∀ v : Flt, v.le (zero false) = true ↔ ¬ Ok v := fun v => by
    rw [← Bool.not_eq_false, passes_iff]
  have setS : ∀ (o : FProc) (v : Flt), (o.setSigma v).2 = o ∨ (Ok v ∧ (o.setSigma v).2 = { o with sigma := v, sig_inv := (Flt.lit 1).div v }) := by
    intro o v
    unfold FProc.setSigma
    by_cases h : v.le (zero false) = true
    · rw [if_pos h]; exact .inl rfl
    · rw [if_neg h]; exact .inr ⟨(passes_iff v).1 (by simpa using h), rfl⟩
  have setT : ∀ (o : FProc) (v : Flt), (o.setThetaOU v).2 = o ∨ (Ok v ∧ (o.setThetaOU v).2 = { o with theta := v }) := by
    intro o v
    unfold FProc.setThetaOU
    by_cases h : v.le (zero false) = true
    · rw [if_pos h]; exact .inl rfl
    · rw [if_neg h]; exact .inr ⟨(passes_iff v).1 (by simpa using h), rfl⟩
  refine ⟨?_, ?_, ?_, ?_, ?_, ?_, ?_, ?_, ?_, ?_⟩
  · unfold FProc.initDW
    by_cases h : Ok sigma
    · rw [if_neg (by rw [neg_iff]; exact not_not.2 h)]; exact ⟨fun _ => h, fun _ => ⟨_, rfl⟩⟩
    · rw [if_pos ((neg_iff _).2 h)]; exact ⟨fun ⟨_, e⟩ => (by cases e), fun e => absurd e h⟩
  · unfold FProc.initOU
    by_cases h : Ok sigma
    · rw [if_neg (by rw [neg_iff]; exact not_not.2 h)]
      by_cases h' : Ok theta
      · rw [if_neg (by rw [neg_iff]; exact not_not.2 h')]; exact ⟨fun _ => ⟨h, h'⟩, fun _ => ⟨_, rfl⟩⟩
      · rw [if_pos ((neg_iff _).2 h')]; exact ⟨fun ⟨_, e⟩ => (by cases e), fun e => absurd e.2 h'⟩
    · rw [if_pos ((neg_iff _).2 h)]; exact ⟨fun ⟨_, e⟩ => (by cases e), fun e => absurd e.1 h⟩
  · intro o h
    unfold FProc.initDW at h
    split at h
    · cases h
    · cases h; exact ⟨rfl, rfl⟩
  · intro o h
    unfold FProc.initOU at h
    split at h
    · cases h
    · split at h
      · cases h
      · cases h; exact ⟨rfl, rfl⟩
  · intro o
    unfold FProc.setSigma
    by_cases h : Ok v
    · rw [if_neg (by rw [neg_iff]; exact not_not.2 h)]; exact ⟨⟨fun _ => h, fun _ => rfl⟩, fun _ => rfl, fun e => absurd h e⟩
    · rw [if_pos ((neg_iff _).2 h)]; exact ⟨⟨fun e => (by cases e), fun e => absurd e h⟩, fun e => absurd e h, fun _ => rfl⟩
  · intro o
    unfold FProc.setThetaOU
    by_cases h : Ok v
    · rw [if_neg (by rw [neg_iff]; exact not_not.2 h)]; exact ⟨⟨fun _ => h, fun _ => rfl⟩, fun _ => rfl, fun e => absurd h e⟩
    · rw [if_pos ((neg_iff _).2 h)]; exact ⟨⟨fun e => (by cases e), fun e => absurd e h⟩, fun e => absurd e h, fun _ => rfl⟩
  · exact fun o => ⟨rfl, rfl⟩
  · unfold odeStep
    by_cases h : Ok v
    · rw [if_neg (by rw [neg_iff]; exact not_not.2 h)]; exact ⟨fun _ => h, fun _ => rfl⟩
    · rw [if_pos ((neg_iff _).2 h)]; exact ⟨fun e => (by cases e), fun e => absurd e h⟩
  · intro o h
    have h0 : Ok o.sigma ∧ o.sig_inv = (Flt.lit 1).div o.sigma := by
      unfold FProc.initDW at h
      split at h
      · cases h
      · rename_i hc
        cases h
        exact ⟨(passes_iff _).1 (by simpa using hc), rfl⟩
    clear h
    induction ops generalizing o with
    | nil => exact h0
    | cons a l ih =>
      refine ih (a.onDW o) ?_
      cases a with
      | sigma u =>
        rcases setS o u with e | ⟨h1, e⟩
        · show Ok (o.setSigma u).2.sigma ∧ _ = (Flt.lit 1).div (o.setSigma u).2.sigma
          simp only [SetOp.onDW, e]; exact h0
        · show Ok (o.setSigma u).2.sigma ∧ _ = (Flt.lit 1).div (o.setSigma u).2.sigma
          simp only [SetOp.onDW, e]; exact ⟨h1, trivial⟩
      | theta u => exact h0
  · intro o h
    have h0 : Ok o.sigma ∧ Ok o.theta ∧ o.sig_inv = (Flt.lit 1).div o.sigma := by
      unfold FProc.initOU at h
      split at h
      · cases h
      · rename_i hc
        split at h
        · cases h
        · rename_i hc'
          cases h
          exact ⟨(passes_iff _).1 (by simpa using hc), (passes_iff _).1 (by simpa using hc'), rfl⟩
    clear h
    induction ops generalizing o with
    | nil => exact h0
    | cons a l ih =>
      refine ih (a.onOU o) ?_
      cases a with
      | sigma u =>
        rcases setS o u with e | ⟨h1, e⟩
        · simp only [SetOp.onOU, e]; exact h0
        · simp only [SetOp.onOU, e]; exact ⟨h1, h0.2.1, trivial⟩
      | theta u =>
        rcases setT o u with e | ⟨h1, e⟩
        · simp only [SetOp.onOU, e]; exact h0
        · simp only [SetOp.onOU, e]; exact ⟨h0.1, h1, h0.2.2⟩

theorem lit_one : Flt.lit 1 = pow2 0 := by
  have := round_zpow (k := 0) (by norm_num) (by norm_num)
  unfold Flt.lit pow2
  rw [if_neg (by norm_num)]
  push_cast
  simpa using this

/-- C138 does not hold: a double well process can be created with the noise NaN or infinity and any drift, and so can an Ornstein-Uhlenbeck process; the stored
inverse is then NaN or zero. Both can be assigned later, and both are accepted as a time step. The smallest positive noise has the inverse infinity. -/
theorem C138_violated (theta : Flt) (o : FProc) :
    (∃ q, FProc.initDW nan theta = .ok q ∧ q.sigma = nan ∧ q.sig_inv = nan)
    ∧ (∃ q, FProc.initDW (inf false) theta = .ok q ∧ q.sigma = inf false ∧ q.sig_inv = zero false)
    ∧ (∃ q, FProc.initOU nan nan = .ok q ∧ q.sigma = nan ∧ q.theta = nan ∧ q.sig_inv = nan)
    ∧ (o.setSigma nan).1 = .ok () ∧ (o.setSigma nan).2.sigma = nan
    ∧ odeStep nan = .ok nan ∧ odeStep (inf false) = .ok (inf false)
    ∧ (∃ q, FProc.initDW (pow2 (-1074)) theta = .ok q ∧ Spec.PositiveNumber q.sigma ∧ q.sig_inv = inf false) := by
  have hn : ¬ Flt.le nan (zero false) = true := by rw [le_nan_left]; decide
  have hi : ¬ Flt.le (inf false) (zero false) = true := by
    rw [Bool.not_eq_true, passes_iff]; exact .inr (.inr rfl)
  have hs : Spec.PositiveNumber (pow2 (-1074)) := ⟨_, _, rfl, two_zpow_pos _⟩
  have hp : ¬ Flt.le (pow2 (-1074)) (zero false) = true := by
    rw [Bool.not_eq_true, passes_iff]; exact .inl hs
  refine ⟨⟨_, if_neg hn, rfl, div_nan_right _⟩, ⟨_, if_neg hi, rfl, ?_⟩, ⟨_, (if_neg hn).trans (if_neg hn), rfl, rfl, div_nan_right _⟩, ?_, ?_, if_neg hn,
    if_neg hi, _, if_neg hp, hs, ?_⟩
  · show Flt.div (Flt.lit 1) (inf false) = zero false
    rw [lit_one]
    have : ¬ ((2 : ℝ) ^ (0 : ℤ) < 0) := by norm_num
    simp [pow2, Flt.div, sgn]
  · unfold FProc.setSigma; rw [if_neg hn]
  · unfold FProc.setSigma; rw [if_neg hn]
  · show Flt.div (Flt.lit 1) (pow2 (-1074)) = inf false
    rw [lit_one]
    unfold pow2
    rw [Flt.div, ← zpow_sub₀ (by norm_num)]
    unfold Flt.round
    have h2 : (2 : ℝ) ^ 1024 ≤ 2 ^ (0 - -1074 : ℤ) := by
      rw [← zpow_natCast]
      exact zpow_le_zpow_right₀ (by norm_num) (by norm_num)
    rw [abs_of_pos (two_zpow_pos _), roundAbs_zpow (by norm_num), if_pos h2, decide_eq_false (not_lt.2 (two_zpow_pos _).le)]

/-- The hypotheses are met: a process with noise and drift one, and an assignment that is rejected. -/
example : ∃ o, FProc.initOU (pow2 0) (pow2 0) = .ok o ∧ (o.setSigma (zero true)).1 = .error .valueError := by
  have hs : Spec.PositiveNumber (pow2 0) := ⟨_, _, rfl, two_zpow_pos _⟩
  obtain ⟨o, ho⟩ := (C138_checks_partial (pow2 0) (pow2 0) nan []).2.1.2 ⟨.inl hs, .inl hs⟩
  refine ⟨o, ho, ?_⟩
  have : Flt.le (zero true) (zero false) = true := Flt.le_iff.2 ⟨by simp, by simp, le_rfl⟩
  unfold FProc.setSigma
  rw [if_pos this]

end VGPA
