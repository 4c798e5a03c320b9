import Verif.Model.IeeeEnergy
import Verif.Lemmas.Sweep
import Verif.Lemmas.IeeeSpec
import Verif.Props.Floats
import Verif.Props.ScgGeneric

/-!
# C143: a number that is not finite is never hidden
-/

namespace VGPA

open Flt

/-! ## Specification -/

/-- Neither NaN nor infinite. -/
def Spec.Finite (a : Flt) : Prop := a ≠ nan ∧ ∀ s, a ≠ inf s

/-- `t` is the sum of the entries of a list, added up in some order and with some brackets. -/
inductive Spec.SumTree : List Flt → Flt → Prop
  | nil : Spec.SumTree [] (zero false)
  | one (v : Flt) : Spec.SumTree [v] v
  | add {l l' : List Flt} {s t : Flt} : Spec.SumTree l s → Spec.SumTree l' t → Spec.SumTree (l ++ l') (Flt.add s t)
  | perm {l l' : List Flt} {s : Flt} : Spec.SumTree l s → l.Perm l' → Spec.SumTree l' s

/-- What is asked of Python and its libraries: literals are rounded, `np.pi` is the nearest double, `np.sum` adds up, and the rules of C99 (annex F) for powers and logarithms of NaN and infinities. -/
structure Spec.Library (L : Libm Flt) : Prop where
  lit : ∀ q, L.lit q = Flt.lit q
  pi : L.pi = Flt.lit (884279719003555 / 281474976710656)
  sum : ∀ l, Spec.SumTree l (L.sum l)
  pow_nan : ∀ k, 0 < k → L.pow nan k = nan
  pow_inf : ∀ s k, 0 < k → ∃ t, L.pow (inf s) k = inf t
  log_nan : L.log nan = nan
  log_pinf : L.log (inf false) = inf false
  log_ninf : L.log (inf true) = nan

/-- All numbers that the free energy is computed from. The observation operator is not one of them: the one-dimensional likelihood does
not use it. -/
def Spec.inputs (o : VgpF Flt) (x : List Flt) : List Flt :=
  x ++ o.obs_v ++ [o.theta, o.sigma, o.time_step, o.dt, o.obs_n, o.mu0, o.tau0, o.m0, o.s0]

/-! ## Properties that go from the result of an operation to its operands -/

/-- `P` holds of the operands if it holds of the result. -/
structure Tracks (P : Flt → Prop) (L : Libm Flt) : Prop where
  add : ∀ {a b : Flt}, P (a + b) → P a ∧ P b
  mul : ∀ {a b : Flt}, P (a * b) → P a ∧ P b
  neg : ∀ {a : Flt}, P (-a) → P a
  div : ∀ {a b : Flt}, P (a / b) → P a
  pow : ∀ {a : Flt} {k : ℕ}, 0 < k → P (L.pow a k) → P a
  log : ∀ {a : Flt}, P (L.log a) → P a
  sum : ∀ {l : List Flt}, P (L.sum l) → ∀ v ∈ l, P v

variable {P : Flt → Prop} {L : Libm Flt}

theorem Tracks.sub (T : Tracks P L) {a b : Flt} (h : P (a - b)) : P a ∧ P b := by
  have h : P (a + -b) := h
  exact ⟨(T.add h).1, T.neg (T.add h).2⟩

theorem sumTree_tracks (hadd : ∀ {a b : Flt}, P (a.add b) → P a ∧ P b) {l : List Flt} {t : Flt} (h : Spec.SumTree l t) (ht : P t) :
    ∀ v ∈ l, P v := by
  induction h with
  | nil => simp
  | one v => simpa using ht
  | add _ _ h1 h2 =>
    intro v hv
    rcases List.mem_append.1 hv with hv | hv
    · exact h1 (hadd ht).1 v hv
    · exact h2 (hadd ht).2 v hv
  | perm _ hp h1 => exact fun v hv => h1 ht v (hp.mem_iff.2 hv)

theorem tracks_nan (hL : Spec.Library L) : Tracks (· ≠ nan) L where
  add h := add_ne_nan h
  mul h := mul_ne_nan h
  neg h e := h (neg_nan.2 e)
  div h := (div_ne_nan h).1
  pow hk h e := h (by rw [e]; exact hL.pow_nan _ hk)
  log h e := h (by rw [e]; exact hL.log_nan)
  sum {l} h := sumTree_tracks (P := (· ≠ nan)) (fun h => add_ne_nan h) (hL.sum l) h

theorem finite_add {a b : Flt} (h : Spec.Finite (a.add b)) : Spec.Finite a ∧ Spec.Finite b := by
  obtain ⟨h1, h2⟩ := h
  cases a with
  | nan => exact absurd rfl h1
  | inf s =>
    cases b with
    | nan => exact absurd rfl h1
    | inf t =>
      by_cases e : s = t
      · exact absurd (by simp [Flt.add, e]) (h2 t)
      · exact absurd (by simp [Flt.add, e]) h1
    | zero t => exact absurd rfl (h2 s)
    | num r hr => exact absurd rfl (h2 s)
  | zero s =>
    cases b with
    | nan => exact absurd rfl h1
    | inf t => exact absurd rfl (h2 t)
    | zero t => exact ⟨⟨by simp, by simp⟩, ⟨by simp, by simp⟩⟩
    | num r hr => exact ⟨⟨by simp, by simp⟩, ⟨by simp, by simp⟩⟩
  | num r hr =>
    cases b with
    | nan => exact absurd rfl h1
    | inf t => exact absurd rfl (h2 t)
    | zero t => exact ⟨⟨by simp, by simp⟩, ⟨by simp, by simp⟩⟩
    | num r hr => exact ⟨⟨by simp, by simp⟩, ⟨by simp, by simp⟩⟩

theorem finite_mul {a b : Flt} (h : Spec.Finite (a.mul b)) : Spec.Finite a ∧ Spec.Finite b := by
  obtain ⟨h1, h2⟩ := h
  cases a <;> cases b <;> simp_all [Flt.mul, Spec.Finite]

theorem finite_neg {a : Flt} (h : Spec.Finite a.neg) : Spec.Finite a := by
  obtain ⟨h1, h2⟩ := h
  cases a with
  | nan => exact absurd rfl h1
  | inf s => exact absurd rfl (h2 _)
  | zero s => exact ⟨by simp, by simp⟩
  | num r hr => exact ⟨by simp, by simp⟩

theorem finite_div {a b : Flt} (h : Spec.Finite (a.div b)) : Spec.Finite a := by
  obtain ⟨h1, h2⟩ := h
  cases a <;> cases b <;> simp_all [Flt.div, Spec.Finite]

theorem tracks_finite (hL : Spec.Library L) : Tracks Spec.Finite L where
  add h := finite_add h
  mul h := finite_mul h
  neg h := finite_neg h
  div h := finite_div h
  pow {a k} hk h := by
    refine ⟨fun e => h.1 (by rw [e]; exact hL.pow_nan _ hk), fun s e => ?_⟩
    obtain ⟨t, ht⟩ := hL.pow_inf s k hk
    exact h.2 t (by rw [e, ht])
  log {a} h := by
    refine ⟨fun e => h.1 (by rw [e]; exact hL.log_nan), fun s e => ?_⟩
    cases s
    · exact h.2 false (by rw [e, hL.log_pinf])
    · exact h.1 (by rw [e, hL.log_ninf])
  sum {l} h := sumTree_tracks (P := Spec.Finite) finite_add (hL.sum l) h

/-! ## The parts of the free energy -/

theorem prior_tracks (T : Tracks P L) {mu0 tau0 m0 s0 : Flt} (h : P (priorF L mu0 tau0 m0 s0)) : P mu0 ∧ P tau0 ∧ P m0 ∧ P s0 := by
  unfold priorF at h
  obtain ⟨h1, h2⟩ := T.add h
  obtain ⟨h3, h4⟩ := T.sub h1
  have h5 := T.sub (T.pow (by norm_num) (T.add (T.mul h2).2).1)
  exact ⟨h5.2, T.log (T.sub (T.mul h4).2).2, h5.1, (T.add (T.mul h2).2).2⟩

theorem bcast_eq {α β γ : Type} {f : α → β → γ} {xs : List α} {ys : List β} {r : List γ} (h : bcast f xs ys = .ok r)
    (hl : xs.length = ys.length) : r = List.zipWith f xs ys := by
  unfold bcast at h
  rw [if_pos hl] at h
  exact (Except.ok.inj h).symm

theorem fancy_length {α : Type} {l r : List α} {ks : List ℕ} (h : fancy l ks = .ok r) : r.length = ks.length := by
  unfold fancy at h
  induction ks generalizing r with
  | nil => cases h; rfl
  | cons k ks ih =>
    rw [List.mapM_cons] at h
    cases h1 : idx l k with
    | error e => rw [h1] at h; cases h
    | ok a =>
      rw [h1] at h
      cases h2 : ks.mapM (idx l) with
      | error e => rw [h2] at h; cases h
      | ok b =>
        rw [h2] at h
        cases h
        simp [ih h2]

theorem gauss_tracks (T : Tracks P L) {obs_v : List Flt} {obs_t : List ℕ} {noise : Flt} {m s : List Flt} {v : Flt}
    (hl : obs_v.length = obs_t.length) (h : gaussF L obs_v obs_t noise m s = .ok v) (hv : P v) :
    P noise ∧ ∀ y ∈ obs_v, P y := by
  unfold gaussF at h
  cases h1 : fancy m obs_t with
  | error e => rw [h1] at h; cases h
  | ok mo =>
  cases h2 : fancy s obs_t with
  | error e => rw [h1, h2] at h; cases h
  | ok so =>
  rw [h1, h2] at h
  simp only [py_ok_bind] at h
  have l1 := fancy_length h1
  have l2 := fancy_length h2
  cases h3 : bcast (fun y m => L.pow y 2 - L.lit 2 * y * m) obs_v mo with
  | error e => rw [h3] at h; cases h
  | ok q =>
  rw [h3] at h
  simp only [py_ok_bind] at h
  have hq := bcast_eq h3 (by omega)
  cases h4 : bcast (fun q e => q + e) q (List.zipWith (fun m s => L.pow m 2 + s) mo so) with
  | error e => rw [h4] at h; cases h
  | ok r =>
  rw [h4] at h
  simp only [py_ok_bind, py_pure, Except.ok.injEq] at h
  have hr := bcast_eq h4 (by simp [hq]; omega)
  rw [← h] at hv
  obtain ⟨a1, a2⟩ := T.add hv
  refine ⟨T.log (T.add (T.mul a2).2).2, fun y hy => ?_⟩
  have a3 := T.sum (T.mul (T.div a1)).2
  obtain ⟨i, hi, rfl⟩ := List.mem_iff_getElem.1 hy
  have a4 := a3 (r[i]'(by simp [hr, hq]; omega)) (List.getElem_mem _)
  simp only [hr, hq, List.getElem_zipWith] at a4
  exact T.pow (by norm_num) (T.sub (T.add a4).1).1

theorem trapezoid_tracks (T : Tracks P L) {dx : Flt} {y : List Flt} (h : P (trapezoidF L dx y)) {i : ℕ} (hi : i + 1 < y.length) :
    P (dx * (y[i + 1] + y[i]) / L.lit 2) := by
  have h := T.sum h ((List.zipWith (fun p q => dx * (q + p) / L.lit 2) y.dropLast y.tail)[i]'(by simp; omega)) (List.getElem_mem _)
  simpa using h

theorem trapz_fold_start (T : Tracks P L) {fx : List Flt} {dx : Flt} (obs : List ℕ) (acc : Flt × ℕ)
    (h : P (obs.foldl (trapzBodyF L fx dx) acc).1) : P acc.1 := by
  induction obs generalizing acc with
  | nil => exact h
  | cons l obs ih => exact (T.add (ih _ h)).1

theorem trapz_fold (T : Tracks P L) {fx : List Flt} {dx : Flt} {j : ℕ} (hj : j + 1 < fx.length) (obs : List ℕ) (acc : Flt × ℕ)
    (hacc : acc.2 ≤ j) (h : P (obs.foldl (trapzBodyF L fx dx) acc).1) :
    (obs.foldl (trapzBodyF L fx dx) acc).2 ≤ j ∨ P (dx * (fx[j + 1] + fx[j]) / L.lit 2) := by
  induction obs generalizing acc with
  | nil => exact .inl hacc
  | cons l obs ih =>
    by_cases hl : l ≤ j
    · exact ih _ hl h
    · right
      have h1 := trapz_fold_start T obs _ h
      have h2 := (T.add h1).2
      have hlen : j - acc.2 + 1 < (slice fx acc.2 (l + 1)).length := by simp [slice]; omega
      have h3 := trapezoid_tracks T h2 hlen
      have e1 : (slice fx acc.2 (l + 1))[j - acc.2] = fx[j] := by
        simp only [slice, List.getElem_take, List.getElem_drop]
        congr 1; omega
      have e2 : (slice fx acc.2 (l + 1))[j - acc.2 + 1] = fx[j + 1] := by
        simp only [slice, List.getElem_take, List.getElem_drop]
        congr 1; omega
      rwa [e1, e2] at h3

/-- Whatever the observation times are, no interval is left out. -/
theorem myTrapz_tracks (T : Tracks P L) {fx : List Flt} {dx : Flt} {obs : List ℕ} (h : P (myTrapzF L fx dx obs)) {j : ℕ}
    (hj : j + 1 < fx.length) : P (dx * (fx[j + 1] + fx[j]) / L.lit 2) := by
  unfold myTrapzF at h
  simp only at h
  set r := obs.foldl (trapzBodyF L fx dx) (0, 0) with hr
  have h1 : P r.1 := by
    split at h
    · exact (T.add h).1
    · exact h
  rcases trapz_fold T hj obs (0, 0) (Nat.zero_le _) h1 with h2 | h2
  · rw [← hr] at h2
    rw [if_pos (by omega)] at h
    have hlen : j - r.2 + 1 < (fx.drop r.2).length := by simp; omega
    have h3 := trapezoid_tracks T (T.add h).2 hlen
    simp only [List.getElem_drop] at h3
    have e1 : r.2 + (j - r.2) = j := by omega
    have e2 : r.2 + (j - r.2 + 1) = j + 1 := by omega
    simpa only [e1, e2] using h3
  · exact h2

theorem ouPoint_tracks (T : Tracks P L) {theta a b m s : Flt} (h : P (ouPointF L theta a b m s)) :
    P theta ∧ P a ∧ P b ∧ P m ∧ P s := by
  unfold ouPointF at h
  obtain ⟨h1, h2⟩ := T.add h
  obtain ⟨h3, h4⟩ := T.add h1
  obtain ⟨h5, h6⟩ := T.mul h3
  have h7 := T.sub (T.pow (by norm_num) h6)
  exact ⟨h7.1, h7.2, T.pow (by norm_num) h2, T.pow (by norm_num) (T.add h5).1, (T.add h5).2⟩

theorem dwPoint_tracks (T : Tracks P L) {theta a b m s : Flt} (h : P (dwPointF L theta a b m s)) :
    P theta ∧ P a ∧ P b ∧ P m ∧ P s := by
  unfold dwPointF at h
  obtain ⟨h1, h2⟩ := T.add h
  obtain ⟨h3, h4⟩ := T.sub h1
  obtain ⟨h5, h6⟩ := T.add h3
  obtain ⟨h7, h8⟩ := T.mul h6
  have h9 := T.add (T.pow (by norm_num) h7)
  exact ⟨(T.mul h9.1).2, h9.2, T.pow (by norm_num) h2, T.pow (by norm_num) (T.add h8).1, (T.add h8).2⟩

theorem point_tracks (T : Tracks P L) (p : Proc1) {theta a b m s : Flt} (h : P (p.pointF L theta a b m s)) :
    P theta ∧ P a ∧ P b ∧ P m ∧ P s := by
  cases p
  · exact ouPoint_tracks T h
  · exact dwPoint_tracks T h

theorem energy_tracks (T : Tracks P L) {p : Proc1} {theta sigma dt : Flt} {a b m s : List Flt} {obs_t : List ℕ} {v : Flt}
    (h : energyF L p theta sigma dt a b m s obs_t = .ok v) (hm : 2 ≤ m.length) (hv : P v) :
    P theta ∧ P dt ∧ ∀ w ∈ a ++ b ++ m ++ s, P w := by
  unfold energyF at h
  split at h
  case isFalse => cases h
  case isTrue hl =>
  obtain ⟨l1, l2, l3⟩ := hl
  rw [← Except.ok.inj h] at hv
  have h1 := (T.mul (T.div hv)).2
  have h2 := fun j (hj : j + 1 < m.length) => T.mul (T.div (myTrapz_tracks T h1 (j := j) (by simpa using hj)))
  have h3 : ∀ j (hj : j < m.length), P (p.pointF L theta (a.getD j 0) (b.getD j 0) (m.getD j 0) (s.getD j 0)) := by
    intro j hj
    rcases Nat.lt_or_ge (j + 1) m.length with h4 | h4
    · have := (T.add (h2 j h4).2).2
      simpa using this
    · obtain ⟨k, rfl⟩ : ∃ k, j = k + 1 := ⟨j - 1, by omega⟩
      have := (T.add (h2 k hj).2).1
      simpa using this
  refine ⟨(point_tracks T p (h3 0 (by omega))).1, (h2 0 (by omega)).1, fun w hw => ?_⟩
  have h4 := fun j hj => (point_tracks T p (h3 j hj)).2
  simp only [List.mem_append] at hw
  rcases hw with ((hw | hw) | hw) | hw <;> obtain ⟨i, hi, rfl⟩ := List.mem_iff_getElem.1 hw
  · have := (h4 i (by omega)).1
    simpa [List.getD, hi] using this
  · have := (h4 i (by omega)).2.1
    simpa [List.getD, hi] using this
  · have := (h4 i (by omega)).2.2.1
    simpa [List.getD, hi] using this
  · have := (h4 i (by omega)).2.2.2
    simpa [List.getD, hi] using this

theorem funSt_tracks (T : Tracks P L) {st at_ sn : Flt} (h : P (funStF L st at_ sn)) : P sn := (T.add h).2

theorem midpointsF_length (L : Libm Flt) (x : List Flt) : (midpointsF L x).length = x.length - 1 := by simp [midpointsF]

/-- The function that a turn of the loop computes when the arrays are long enough. -/
theorem stepF_ok (method : Method) (dt : Flt) {a b : List Flt} (sigma : Flt) (hl : a.length = b.length) {k : ℕ} (hk : k + 1 < b.length)
    (x : Flt × Flt) : ∃ y, stepF L method dt a b sigma k x = .ok y := by
  have h1 : idx a k = .ok _ := idx_ok (by omega : k < a.length)
  have h2 : idx b k = .ok _ := idx_ok (by omega : k < b.length)
  have h3 : idx a (k + 1) = .ok _ := idx_ok (by omega : k + 1 < a.length)
  have h4 : idx b (k + 1) = .ok _ := idx_ok hk
  have h5 : idx (midpointsF L a) k = .ok _ := idx_ok (by rw [midpointsF_length]; omega)
  have h6 : idx (midpointsF L b) k = .ok _ := idx_ok (by rw [midpointsF_length]; omega)
  unfold stepF
  cases method <;> simp only [h1, h2, h3, h4, h5, h6, py_ok_bind, py_pure] <;> exact ⟨_, rfl⟩

theorem stepF_tracks (T : Tracks P L) (method : Method) {dt : Flt} {a b : List Flt} {sigma : Flt} (hl : a.length = b.length) {k : ℕ}
    (hk : k + 1 < b.length) {x y : Flt × Flt} (h : stepF L method dt a b sigma k x = .ok y) (hy : P y.2) : P sigma ∧ P dt := by
  have h1 : idx a k = .ok _ := idx_ok (by omega : k < a.length)
  have h2 : idx b k = .ok _ := idx_ok (by omega : k < b.length)
  have h3 : idx a (k + 1) = .ok _ := idx_ok (by omega : k + 1 < a.length)
  have h4 : idx b (k + 1) = .ok _ := idx_ok hk
  have h5 : idx (midpointsF L a) k = .ok _ := idx_ok (by rw [midpointsF_length]; omega)
  have h6 : idx (midpointsF L b) k = .ok _ := idx_ok (by rw [midpointsF_length]; omega)
  unfold stepF at h
  cases method <;> simp only [h1, h2, h3, h4, h5, h6, py_ok_bind, py_pure, Except.ok.injEq] at h <;> rw [← h] at hy
  · have := T.mul (T.add hy).2
    exact ⟨funSt_tracks T this.1, this.2⟩
  · have := T.mul (T.add hy).2
    exact ⟨funSt_tracks T (T.add this.2).1, (T.mul this.1).2⟩
  · have := T.mul (T.add hy).2
    exact ⟨funSt_tracks T this.2, this.1⟩
  · have := T.mul (T.div (T.add hy).2)
    exact ⟨funSt_tracks T (T.add this.2).2, this.1⟩

theorem solveFwdF_tracks (T : Tracks P L) {method : Method} {dt : Flt} {a b : List Flt} {m0 s0 sigma : Flt} {m s : List Flt}
    (hl : a.length = b.length) (hn : 2 ≤ b.length) (h : solveFwdF L method dt a b m0 s0 sigma = .ok (m, s)) :
    m.length = b.length ∧ s.length = b.length ∧ ((∀ w ∈ s, P w) → P sigma ∧ P dt) := by
  choose! g hg using fun k => fun (hk : k + 1 < b.length) => fun x => stepF_ok method dt sigma hl hk x
  unfold solveFwdF at h
  rw [fwdSweep_ok _ _ _ g (by omega) (fun k hk x => hg k (by omega) x)] at h
  simp only [py_ok_bind, py_pure, Except.ok.injEq, Prod.mk.injEq] at h
  obtain ⟨rfl, rfl⟩ := h
  refine ⟨by simp, by simp, fun hs => ?_⟩
  refine stepF_tracks T method hl (k := 0) (by omega) (hg 0 (by omega) (m0, s0)) ?_
  refine hs _ ?_
  simp only [List.map_map, List.mem_map, List.mem_range]
  exact ⟨1, by omega, rfl⟩

/-- The whole free energy. -/
theorem freeEnergy_tracks (T : Tracks P L) {o : VgpF Flt} {x : List Flt} {v : Flt} {mt st : List Flt} (hn : 2 ≤ o.dim_n)
    (hx : x.length = 2 * o.dim_n) (hobs : o.obs_v.length = o.obs_t.length) (h : o.freeEnergy L x = .ok (v, mt, st)) (hv : P v) :
    ∀ w ∈ Spec.inputs o x ++ mt ++ st, P w := by
  unfold VgpF.freeEnergy at h
  simp only [mul_one] at h
  have la : (x.take o.dim_n).length = (x.drop o.dim_n).length := by simp; omega
  have lb : 2 ≤ (x.drop o.dim_n).length := by simp; omega
  cases h1 : solveFwdF L o.method o.dt (x.take o.dim_n) (x.drop o.dim_n) o.m0 o.s0 o.sigma with
  | error e => rw [h1] at h; cases h
  | ok ms =>
  obtain ⟨m, s⟩ := ms
  rw [h1] at h
  simp only [py_ok_bind] at h
  cases h2 : gaussF L o.obs_v o.obs_t o.obs_n m s with
  | error e => rw [h2] at h; cases h
  | ok Eobs =>
  rw [h2] at h
  simp only [py_ok_bind] at h
  cases h3 : energyF L o.proc o.theta o.sigma o.time_step (x.take o.dim_n) (x.drop o.dim_n) m s o.obs_t with
  | error e => rw [h3] at h; cases h
  | ok Esde =>
  rw [h3] at h
  simp only [py_ok_bind, py_pure, Except.ok.injEq, Prod.mk.injEq] at h
  obtain ⟨rfl, rfl, rfl⟩ := h
  obtain ⟨a1, a2⟩ := T.add hv
  obtain ⟨a3, a4⟩ := T.add a1
  obtain ⟨b1, b2, b3⟩ := solveFwdF_tracks T la lb h1
  obtain ⟨c1, c2, c3, c4⟩ := prior_tracks T a3
  obtain ⟨d1, d2⟩ := gauss_tracks T hobs h2 a2
  obtain ⟨e1, e2, e3⟩ := energy_tracks T h3 (by omega) a4
  rw [List.take_append_drop] at e3
  have e4 := b3 fun w hw => e3 w (by simp [hw])
  intro w hw
  simp only [Spec.inputs, List.mem_append, List.mem_cons, List.not_mem_nil, or_false] at hw
  rcases hw with (((hw | hw) | hw) | hw) | hw
  · exact e3 w (by simp [hw])
  · exact d2 w hw
  · rcases hw with rfl | rfl | rfl | rfl | rfl | rfl | rfl | rfl | rfl
    exacts [e1, e4.1, e2, e4.2, d1, c1, c2, c3, c4]
  · exact e3 w (by simp [hw])
  · exact e3 w (by simp [hw])

/-! ## C143 -/

/-- When `free_energy` returns a finite number, then everything that it was computed from is finite (the parameters, the observations and
their noise, the prior, the initial moments, the drift and the noise of the process, the time steps), and so are all means and variances
that it stores. -/
theorem C143_finite (hL : Spec.Library L) (o : VgpF Flt) (x : List Flt) (hn : 2 ≤ o.dim_n) (hx : x.length = 2 * o.dim_n)
    (hobs : o.obs_v.length = o.obs_t.length) (v : Flt) (mt st : List Flt) (h : o.freeEnergy L x = .ok (v, mt, st))
    (hv : Spec.Finite v) : ∀ w ∈ Spec.inputs o x ++ mt ++ st, Spec.Finite w :=
  freeEnergy_tracks (tracks_finite hL) hn hx hobs h hv

/-- When one of these numbers is NaN, `free_energy` returns NaN. -/
theorem C143_nan (hL : Spec.Library L) (o : VgpF Flt) (x : List Flt) (hn : 2 ≤ o.dim_n) (hx : x.length = 2 * o.dim_n)
    (hobs : o.obs_v.length = o.obs_t.length) (v : Flt) (mt st : List Flt) (h : o.freeEnergy L x = .ok (v, mt, st))
    (hw : nan ∈ Spec.inputs o x ++ mt ++ st) : v = nan := by
  by_contra hv
  exact freeEnergy_tracks (tracks_nan hL) hn hx hobs h hv nan hw rfl

/-- The optimizer, in double precision, on such a free energy: if the value that it reports is finite, then so are the parameters that it
reports and all the data. -/
theorem C143_optimizer {σ A : Type} {n : ℕ} (hL : Spec.Library L) (w : VgpF Flt) (hn : 2 ≤ w.dim_n) (hd : n = 2 * w.dim_n)
    (hobs : w.obs_v.length = w.obs_t.length) (dot : (Fin n → Flt) → (Fin n → Flt) → Flt) (o : Oracle σ A Flt (Fin n → Flt)) (args : A)
    (hF : ∀ x s v s', o.f x args s = (.ok v, s') → ∃ mt st, w.freeEnergy L (List.ofFn x) = .ok (v, mt, st))
    (p p' : Scg Flt) (x0 x : Fin n → Flt) (s s' : σ) (fx : Flt)
    (h : Scg.call (ieeeArith n dot) o args p x0 s = (.ok (x, fx), p', s')) (hfx : Spec.Finite fx) :
    ∀ a ∈ Spec.inputs w (List.ofFn x), Spec.Finite a := by
  let F : (Fin n → Flt) → Flt := fun y => match w.freeEnergy L (List.ofFn y) with
    | .ok r => r.1
    | .error _ => nan
  have h1 := C64_consistent_pair (ar := ieeeArith n dot) (o := o) (args := args) F (fun y t v t' hy => by
    obtain ⟨mt, st, e⟩ := hF y t v t' hy
    simp [F, e]) p p' x0 s s' x fx h
  cases h2 : w.freeEnergy L (List.ofFn x) with
  | error e =>
    rw [show F x = nan by simp [F, h2]] at h1
    exact absurd h1 hfx.1
  | ok r =>
    obtain ⟨v, mt, st⟩ := r
    rw [show F x = v by simp [F, h2]] at h1
    subst h1
    intro a ha
    exact C143_finite hL w _ hn (by simp [hd]) hobs fx mt st h2 hfx a (by simp [ha])

/-- If one of the data (an observation, say) is NaN, then a run of the optimizer that returns has changed nothing: it returns the start
point, with the value NaN. -/
theorem C143_nan_data {σ A : Type} {n : ℕ} (hL : Spec.Library L) (w : VgpF Flt) (hn : 2 ≤ w.dim_n) (hd : n = 2 * w.dim_n)
    (hobs : w.obs_v.length = w.obs_t.length) (hw : nan ∈ Spec.inputs w []) (dot : (Fin n → Flt) → (Fin n → Flt) → Flt)
    (o : Oracle σ A Flt (Fin n → Flt)) (args : A)
    (hF : ∀ x s v s', o.f x args s = (.ok v, s') → ∃ mt st, w.freeEnergy L (List.ofFn x) = .ok (v, mt, st))
    (p p' : Scg Flt) (hp : Spec.Arrays p) (x0 x : Fin n → Flt) (s s' : σ) (fx : Flt)
    (h : Scg.call (ieeeArith n dot) o args p x0 s = (.ok (x, fx), p', s')) : x = x0 ∧ fx = nan := by
  obtain ⟨h1, h2⟩ := C136_nan_result_partial (dot := dot) (o := o) (args := args) (fun _ => nan) (fun y t v t' hy => by
    obtain ⟨mt, st, e⟩ := hF y t v t' hy
    refine C143_nan hL w _ hn (by simp [hd]) hobs v mt st e ?_
    simp only [Spec.inputs, List.nil_append, List.mem_append] at hw ⊢
    tauto) p p' hp x0 x s s' fx h
  exact ⟨h2 (h1.2 rfl), h1.2 rfl⟩

/-! ## A concrete case -/

/-- `np.pi`. -/
noncomputable def piF : Flt := Flt.lit (884279719003555 / 281474976710656)

/-- A library that meets the specification (with a useless logarithm of finite numbers). -/
noncomputable def toyLibm : Libm Flt where
  lit := Flt.lit
  pi := piF
  pow a k := (List.replicate (k - 1) a).foldl Flt.mul a
  log a := match a with
    | nan => nan
    | inf false => inf false
    | inf true => nan
    | _ => zero false
  sum l := l.foldr Flt.add (zero false)

theorem toyLibm_library : Spec.Library toyLibm where
  lit _ := rfl
  pi := rfl
  sum l := by
    induction l with
    | nil => exact .nil
    | cons a l ih => exact .add (.one a) ih
  pow_nan k _ := by
    have : ∀ j, (List.replicate j nan).foldl Flt.mul nan = nan := by
      intro j
      induction j with
      | zero => rfl
      | succ j ih => simpa [List.replicate_succ, Flt.mul] using ih
    exact this _
  pow_inf s k _ := by
    have : ∀ j t, ∃ t', (List.replicate j (inf s)).foldl Flt.mul (inf t) = inf t' := by
      intro j
      induction j with
      | zero => exact fun t => ⟨t, rfl⟩
      | succ j ih => exact fun t => by simpa [List.replicate_succ, Flt.mul] using ih _
    exact this _ s
  log_nan := rfl
  log_pinf := rfl
  log_ninf := rfl

theorem lit_one' : Flt.lit 1 = num 1 (by norm_num) := by
  have := round_zpow (k := 0) (by norm_num) (by norm_num)
  unfold Flt.lit
  rw [if_neg (by norm_num)]
  push_cast
  simpa using this

theorem lit_half' : Flt.lit (1 / 2) = num (1 / 2) (by norm_num) := by
  have := round_zpow (k := -1) (by norm_num) (by norm_num)
  unfold Flt.lit
  rw [if_neg (by norm_num)]
  push_cast
  simpa [one_div] using this

/-- Two points, the process `dx = dw`, one observation. -/
noncomputable def toyVgp (obs : Flt) (method : Method) : VgpF Flt where
  proc := .ou
  theta := zero false
  sigma := Flt.lit 1
  time_step := Flt.lit 1
  method := method
  dt := Flt.lit 1
  obs_v := [obs]
  obs_t := [0]
  obs_n := Flt.lit 1
  mu0 := zero false
  tau0 := Flt.lit 1
  m0 := zero false
  s0 := Flt.lit 1
  dim_n := 2

theorem round_one : Flt.round 1 = num 1 (by norm_num) := by simpa using round_zpow (k := 0) (by norm_num) (by norm_num)
theorem round_two : Flt.round 2 = num 2 (by norm_num) := by simpa using round_zpow (k := 1) (by norm_num) (by norm_num)
theorem round_half : Flt.round (1 / 2) = num (1 / 2) (by norm_num) := by
  simpa [one_div] using round_zpow (k := -1) (by norm_num) (by norm_num)

theorem e_nn (a b : ℝ) (ha : a ≠ 0) (hb : b ≠ 0) : num a ha * num b hb = Flt.round (a * b) := rfl
theorem e_dd (a b : ℝ) (ha : a ≠ 0) (hb : b ≠ 0) : num a ha / num b hb = Flt.round (a / b) := rfl
theorem e_aa (a b : ℝ) (ha : a ≠ 0) (hb : b ≠ 0) : num a ha + num b hb = if a + b = 0 then zero false else Flt.round (a + b) := rfl
theorem e_ss (a b : Flt) : a - b = a + -b := rfl
theorem e_neg (a : ℝ) (ha : a ≠ 0) : -num a ha = num (-a) (neg_ne_zero.2 ha) := rfl
theorem e_negz (s : Bool) : -zero s = zero !s := rfl
theorem e_az (a : ℝ) (ha : a ≠ 0) (s : Bool) : num a ha + zero s = num a ha := rfl
theorem e_za (a : ℝ) (ha : a ≠ 0) (s : Bool) : zero s + num a ha = num a ha := rfl
theorem e_zz (s t : Bool) : zero s + zero t = zero (s && t) := rfl
theorem e_mz (a : ℝ) (ha : a ≠ 0) (s : Bool) : num a ha * zero s = zero (xor (decide (a < 0)) s) := rfl
theorem e_zm (a : ℝ) (ha : a ≠ 0) (s : Bool) : zero s * num a ha = zero (xor s (decide (a < 0))) := rfl
theorem e_zmz (s t : Bool) : zero s * zero t = zero (xor s t) := rfl
theorem e_zd (a : ℝ) (ha : a ≠ 0) (s : Bool) : zero s / num a ha = zero (xor s (decide (a < 0))) := rfl
theorem e_pow (a : Flt) : toyLibm.pow a 2 = a * a := rfl
theorem e_log (a : ℝ) (ha : a ≠ 0) : toyLibm.log (num a ha) = zero false := rfl
theorem e_sum1 (a : Flt) : toyLibm.sum [a] = a + zero false := rfl
theorem e_lit (q : ℚ) : toyLibm.lit q = Flt.lit q := rfl
theorem e_sum0 : toyLibm.sum [] = zero false := rfl

theorem two_pi_num : ∃ (r : ℝ) (h : r ≠ 0), Flt.lit 2 * piF = num r h := by
  have h1 : Spec.Binary64 ((884279719003555 / 281474976710656 : ℚ) : ℝ) :=
    ⟨884279719003555, -48, by norm_num, by norm_num, by norm_num, by norm_num⟩
  have h2 : Spec.Binary64 (2 * ((884279719003555 / 281474976710656 : ℚ) : ℝ)) :=
    ⟨884279719003555, -47, by norm_num, by norm_num, by norm_num, by norm_num⟩
  have e : piF = num ((884279719003555 / 281474976710656 : ℚ) : ℝ) (by norm_num) := by
    unfold piF Flt.lit
    rw [if_neg (by norm_num)]
    exact round_binary64 (by norm_num) h1
  rw [e, lit_two, e_nn]
  exact ⟨_, _, round_binary64 (by norm_num) h2⟩

/-- All is finite, with a finite free energy. -/
example : ∃ v mt st, (toyVgp (zero false) .euler).freeEnergy toyLibm (List.replicate 4 (zero false)) = .ok (v, mt, st) ∧
    Spec.Finite v := by
  have hp : priorF toyLibm (zero false) (Flt.lit 1) (zero false) (Flt.lit 1) = zero false := by
    simp only [priorF, e_lit, lit_one', lit_half', e_nn, e_dd, e_aa, e_ss, e_neg, e_negz, e_az, e_za, e_zz, e_mz, e_zm, e_zmz, e_pow, e_log]
    norm_num [e_nn, e_dd, e_aa, e_ss, e_neg, e_negz, e_az, e_za, e_zz, e_mz, e_zm, e_zmz, round_one, round_half]
  have hm : zero false + funMtF (zero false) (zero false) (zero false) * Flt.lit 1 = zero false := by
    simp only [funMtF, lit_one', e_zmz, e_negz, e_zz, e_zm]
    norm_num [e_zz]
  have hs : Flt.lit 1 + funStF toyLibm (Flt.lit 1) (zero false) (Flt.lit 1) * Flt.lit 1 = Flt.lit 2 := by
    simp only [funStF, e_lit, lit_one', lit_two, e_mz, e_zm, e_negz, e_za, e_nn]
    norm_num [e_aa, round_one, round_two]
  have h1 : solveFwdF toyLibm .euler (Flt.lit 1) [zero false, zero false] [zero false, zero false] (zero false) (Flt.lit 1) (Flt.lit 1) =
      .ok ([zero false, zero false], [Flt.lit 1, Flt.lit 2]) := by
    rw [show solveFwdF toyLibm .euler (Flt.lit 1) [zero false, zero false] [zero false, zero false] (zero false) (Flt.lit 1) (Flt.lit 1) =
      .ok ([zero false, zero false + funMtF (zero false) (zero false) (zero false) * Flt.lit 1],
        [Flt.lit 1, Flt.lit 1 + funStF toyLibm (Flt.lit 1) (zero false) (Flt.lit 1) * Flt.lit 1]) from rfl, hm, hs]
  have h2 : gaussF toyLibm [zero false] [0] (Flt.lit 1) [zero false, zero false] [Flt.lit 1, Flt.lit 2] = .ok (Flt.lit (1 / 2)) := by
    obtain ⟨r, hr, hr'⟩ := two_pi_num
    rw [show gaussF toyLibm [zero false] [0] (Flt.lit 1) [zero false, zero false] [Flt.lit 1, Flt.lit 2] = .ok (
        Flt.lit (1 / 2) * toyLibm.sum [toyLibm.pow (zero false) 2 - Flt.lit 2 * zero false * zero false +
        (toyLibm.pow (zero false) 2 + Flt.lit 1)] / Flt.lit 1 +
        Flt.lit (1 / 2) * Flt.lit ((1 : ℕ) : ℚ) * (toyLibm.log (Flt.lit 2 * piF) + toyLibm.log (Flt.lit 1))) from rfl, hr']
    simp only [Nat.cast_one, lit_one', lit_two, lit_half', e_sum1, e_nn, e_dd, e_aa, e_ss, e_neg, e_negz, e_az, e_za, e_zz, e_mz, e_zm, e_zmz,
      e_pow, e_log]
    norm_num [e_nn, e_dd, e_aa, e_ss, e_neg, e_negz, e_az, e_za, e_zz, e_mz, e_zm, e_zmz, round_one, round_half]
  have h3 : energyF toyLibm .ou (zero false) (Flt.lit 1) (Flt.lit 1) [zero false, zero false] [zero false, zero false]
      [zero false, zero false] [Flt.lit 1, Flt.lit 2] [0] = .ok (zero false) := by
    have p1 : ouPointF toyLibm (zero false) (zero false) (zero false) (zero false) (Flt.lit 1) = zero false := by
      simp [ouPointF, e_lit, lit_one', lit_two, e_pow, e_ss, e_negz, e_zmz, e_za, e_zz, e_zm, e_mz]
    have p2 : ouPointF toyLibm (zero false) (zero false) (zero false) (zero false) (Flt.lit 2) = zero false := by
      simp [ouPointF, e_lit, lit_two, e_pow, e_ss, e_negz, e_zmz, e_za, e_zz, e_zm, e_mz]
    have p3 : myTrapzF toyLibm [zero false, zero false] (Flt.lit 1) [0] = zero false := by
      rw [show myTrapzF toyLibm [zero false, zero false] (Flt.lit 1) [0] = zero false + toyLibm.sum [] +
        toyLibm.sum [Flt.lit 1 * (zero false + zero false) / Flt.lit 2] from rfl]
      simp [e_sum1, e_sum0, lit_one', lit_two, e_zz, e_mz, e_zd]
    rw [show energyF toyLibm .ou (zero false) (Flt.lit 1) (Flt.lit 1) [zero false, zero false] [zero false, zero false]
      [zero false, zero false] [Flt.lit 1, Flt.lit 2] [0] = .ok (Flt.lit (1 / 2) * myTrapzF toyLibm
        [ouPointF toyLibm (zero false) (zero false) (zero false) (zero false) (Flt.lit 1),
         ouPointF toyLibm (zero false) (zero false) (zero false) (zero false) (Flt.lit 2)] (Flt.lit 1) [0] / Flt.lit 1) from rfl, p1, p2, p3]
    rw [lit_half', lit_one', e_mz, e_zd]
    norm_num
  refine ⟨zero false + zero false + Flt.lit (1 / 2), [zero false, zero false], [Flt.lit 1, Flt.lit 2], ?_, ?_⟩
  · unfold VgpF.freeEnergy
    simp only [toyVgp, List.replicate, List.take, List.drop, h1, h2, h3, hp, py_ok_bind, py_pure]
  · rw [lit_half', e_zz, e_za]
    exact ⟨by simp, by simp⟩

/-- One of the observations is missing (NaN): the free energy is NaN with every integrator. -/
example (method : Method) : ∃ mt st, (toyVgp nan method).freeEnergy toyLibm (List.replicate 4 (zero false)) = .ok (nan, mt, st) := by
  have h : ∃ v mt st, (toyVgp nan method).freeEnergy toyLibm (List.replicate 4 (zero false)) = .ok (v, mt, st) := by
    unfold VgpF.freeEnergy
    cases method <;> exact ⟨_, _, _, rfl⟩
  obtain ⟨v, mt, st, h⟩ := h
  have := C143_nan toyLibm_library (toyVgp nan method) _ (by norm_num [toyVgp]) (by simp [toyVgp]) (by simp [toyVgp]) v mt st h
    (by simp [Spec.inputs, toyVgp])
  exact ⟨mt, st, by rw [h, this]⟩

end VGPA
