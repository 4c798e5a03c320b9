import Verif.Props.BadNumbers
import Verif.Props.FloatObs
import Verif.Props.GradError

/-!
# C150: numbers that are not finite, and the gradient
-/

namespace VGPA

open Flt Spec

variable {P : Flt → Prop} {L : Libm Flt}

/-- The numbers whose badness the gradient must show, apart from the observations: the parameters, the parameters and the noise of the process, the time steps and
the initial moments. -/
def Spec.gradInputs (o : VgpG Flt) (x : List Flt) : List Flt :=
  x ++ [o.theta, o.sigma, o.time_step, o.dt, o.dt_bwd, o.m0, o.s0]

/-! ## Assignment by a list of indices -/

theorem fancyPairs_get {α : Type} : ∀ (ks : List ℕ) (vs l r : List α), fancyPairs l ks vs = .ok r →
    r.length = l.length ∧ (∀ j, j ∉ ks → r[j]? = l[j]?) ∧ (ks.Nodup → ∀ i (h1 : i < ks.length) (h2 : i < vs.length), r[ks[i]]? = some vs[i])
  | [], vs, l, r, h => by
    simp [fancyPairs] at h
    cases h
    simp
  | k :: ks, [], l, r, h => by
    simp [fancyPairs] at h
    cases h
    simp
  | k :: ks, v :: vs, l, r, h => by
    unfold fancyPairs at h
    rw [List.zip_cons_cons, List.foldlM_cons] at h
    obtain ⟨l', h1, h2⟩ := py_bind_ok.1 h
    obtain ⟨e1, e2, e3⟩ := fancyPairs_get ks vs l' r h2
    unfold setIdx at h1
    split at h1
    case isFalse => cases h1
    case isTrue hk =>
    rw [← Except.ok.inj h1] at e1 e2
    refine ⟨by simpa using e1, fun j hj => ?_, fun hn i h3 h4 => ?_⟩
    · rw [List.mem_cons, not_or] at hj
      rw [e2 j hj.2, List.getElem?_set_ne (Ne.symm hj.1)]
    · rw [List.nodup_cons] at hn
      cases i with
      | zero => simpa [hk] using e2 k hn.1
      | succ i => simpa using e3 hn.2 i (by simpa using h3) (by simpa using h4)

theorem fancySet_get {α : Type} {ks : List ℕ} {vs l r : List α} (hl : vs.length = ks.length) (h : fancySet l ks vs = .ok r) :
    r.length = l.length ∧ (ks.Nodup → ∀ i (h1 : i < ks.length) (h2 : i < vs.length), r[ks[i]]? = some vs[i]) := by
  unfold fancySet at h
  rw [if_pos hl] at h
  obtain ⟨h1, -, h3⟩ := fancyPairs_get ks vs l r h
  exact ⟨h1, h3⟩

/-! ## The parts of the gradient -/

theorem gaussGrad_tracks (T : Tracks P L) {obs_v : List Flt} {obs_t : List ℕ} {noise obs_h : Flt} {m om os : List Flt} (hl : obs_v.length = obs_t.length)
    (hn : obs_t.Nodup) (h : gaussGradF L obs_v obs_t noise obs_h m = .ok (om, os)) :
    om.length = m.length ∧ os.length = m.length ∧ ∀ i (hi : i < obs_t.length), (∀ w, om[obs_t[i]]? = some w → P w) → (∀ w, os[obs_t[i]]? = some w → P w) →
      P (obs_v[i]'(by omega)) ∧ P obs_h ∧ P (L.lit (1 / 2) / noise) := by
  unfold gaussGradF at h
  obtain ⟨mo, h1, h⟩ := py_bind_ok.1 h
  obtain ⟨W, h2, h⟩ := py_bind_ok.1 h
  obtain ⟨om', h3, h⟩ := py_bind_ok.1 h
  obtain ⟨os', h4, h⟩ := py_bind_ok.1 h
  simp only [py_pure, Except.ok.injEq, Prod.mk.injEq] at h
  obtain ⟨rfl, rfl⟩ := h
  have l1 := fancy_length h1
  have hW := bcast_eq h2 (by omega)
  have lW : W.length = obs_t.length := by simp [hW]; omega
  obtain ⟨a1, a2⟩ := fancySet_get (by simpa using lW) h3
  obtain ⟨b1, b2⟩ := fancySet_get (by simp) h4
  refine ⟨by simpa using a1, by simpa using b1, fun i hi p1 p2 => ?_⟩
  have c1 := p1 _ (a2 hn i hi (by simp; omega))
  have c2 := p2 _ (b2 hn i hi (by simpa using hi))
  simp only [List.getElem_map] at c1 c2
  have c3 := T.neg (T.div c1)
  simp only [hW, List.getElem_zipWith] at c3
  have c4 := T.sub c3
  exact ⟨c4.1, (T.mul c4.2).1, c2⟩

theorem stepBwdF_get (method : Method) (dt : Flt) {a em es om os : List Flt} {n : ℕ} (ha : a.length = n) (h1 : em.length = n) (h2 : es.length = n)
    (h3 : om.length = n) (h4 : os.length = n) {t : ℕ} (ht : 0 < t) (htn : t < n) (x : Flt × Flt) :
    ∃ y, stepBwdF L method dt a em es om os t x = .ok y ∧
      (Tracks P L → P y.1 → P y.2 → P dt ∧ (∀ w, om[t - 1]? = some w → P w) ∧ ∀ w, os[t - 1]? = some w → P w) := by
  have a1 : idx a t = .ok _ := idx_ok (by omega : t < a.length)
  have a2 : idx a (t - 1) = .ok _ := idx_ok (by omega : t - 1 < a.length)
  have a3 : idx em t = .ok _ := idx_ok (by omega : t < em.length)
  have a4 : idx em (t - 1) = .ok _ := idx_ok (by omega : t - 1 < em.length)
  have a5 : idx es t = .ok _ := idx_ok (by omega : t < es.length)
  have a6 : idx es (t - 1) = .ok _ := idx_ok (by omega : t - 1 < es.length)
  have lo : t - 1 < om.length := by omega
  have lp : t - 1 < os.length := by omega
  have a7 : idx om (t - 1) = .ok _ := idx_ok lo
  have a8 : idx os (t - 1) = .ok _ := idx_ok lp
  have b1 : idx (midpointsF L a ++ [0]) (t - 1) = .ok _ := idx_ok (by rw [List.length_append, midpointsF_length, List.length_singleton]; omega)
  have b2 : idx (midpointsF L em ++ [0]) (t - 1) = .ok _ := idx_ok (by rw [List.length_append, midpointsF_length, List.length_singleton]; omega)
  have b3 : idx (midpointsF L es ++ [0]) (t - 1) = .ok _ := idx_ok (by rw [List.length_append, midpointsF_length, List.length_singleton]; omega)
  have e1 : ∀ w, om[t - 1]? = some w ↔ om[t - 1] = w := fun w => by rw [List.getElem?_eq_getElem lo, Option.some.injEq]
  have e2 : ∀ w, os[t - 1]? = some w ↔ os[t - 1] = w := fun w => by rw [List.getElem?_eq_getElem lp, Option.some.injEq]
  unfold stepBwdF
  cases method <;> simp only [a1, a2, a3, a4, a5, a6, a7, a8, b1, b2, b3, py_ok_bind, py_pure, e1, e2] <;>
    refine ⟨_, rfl, fun T h5 h6 => ⟨?_, fun w hw => hw ▸ (T.add h5).2, fun w hw => hw ▸ (T.add h6).2⟩⟩ <;> have h7 := (T.sub (T.add h5).1).2
  · exact (T.mul h7).2
  · exact (T.mul (T.mul h7).1).2
  · exact (T.mul h7).1
  · exact (T.mul (T.div h7)).1

theorem solveBwdF_tracks (T : Tracks P L) {method : Method} {dt : Flt} {a em es om os lam psi : List Flt} {n : ℕ} (hn : 2 ≤ n) (ha : a.length = n)
    (h1 : em.length = n) (h2 : es.length = n) (h3 : om.length = n) (h4 : os.length = n) (h : solveBwdF L method dt a em es om os = .ok (lam, psi)) :
    lam.length = n ∧ psi.length = n ∧ ((∀ w ∈ lam, P w) → (∀ w ∈ psi, P w) → P dt ∧ ∀ i, i + 1 < n →
      (∀ w, om[i]? = some w → P w) ∧ ∀ w, os[i]? = some w → P w) := by
  choose! g hg hP using fun t => fun (ht : 0 < t ∧ t < n) => fun x => stepBwdF_get (P := P) (L := L) method dt ha h1 h2 h3 h4 ht.1 ht.2 x
  unfold solveBwdF at h
  rw [h1, bwdSweep_ok n _ g (fun t h5 h6 x => hg t ⟨h5, h6⟩ x)] at h
  simp only [py_ok_bind, py_pure, Except.ok.injEq, Prod.mk.injEq, List.map_map] at h
  obtain ⟨rfl, rfl⟩ := h
  refine ⟨by simp, by simp, fun p1 p2 => ?_⟩
  have key : ∀ i, i + 1 < n → P dt ∧ (∀ w, om[i]? = some w → P w) ∧ ∀ w, os[i]? = some w → P w := by
    intro i hi
    have q1 := p1 _ (List.mem_map.2 ⟨i, List.mem_range.2 (by omega), rfl⟩)
    have q2 := p2 _ (List.mem_map.2 ⟨i, List.mem_range.2 (by omega), rfl⟩)
    simp only [Function.comp] at q1 q2
    rw [show n - 1 - i = (n - 1 - (i + 1)) + 1 by omega] at q1 q2
    simp only [traj] at q1 q2
    have := hP (n - 1 - (n - 1 - (i + 1))) ⟨by omega, by omega⟩ _ T q1 q2
    rwa [show n - 1 - (n - 1 - (i + 1)) - 1 = i by omega] at this
  exact ⟨(key 0 (by omega)).1, fun i hi => (key i hi).2⟩

theorem gradRow_tracks (T : Tracks P L) {inv dt a b m s lam psi : Flt} {p : PointG Flt} (h1 : P (gradRowF L inv dt a b m s lam psi p).1)
    (h2 : P (gradRowF L inv dt a b m s lam psi p).2) : P dt ∧ P a ∧ P b ∧ P m ∧ P s ∧ P lam ∧ P psi ∧ P p.Ef := by
  unfold gradRowF at h1 h2
  obtain ⟨a1, a2⟩ := T.mul h1
  obtain ⟨a3, a4⟩ := T.sub a2
  obtain ⟨a5, a6⟩ := T.sub a3
  obtain ⟨a7, a8⟩ := T.sub a5
  obtain ⟨b1, b2⟩ := T.mul (T.mul a7).1
  have c1 := T.add (T.mul (T.mul a8).1).2
  exact ⟨a1, (T.add b2).2, c1.2, (T.mul a8).2, (T.mul a4).2, (T.mul a6).1, (T.mul (T.mul a4).1).2, T.neg (T.sub c1.1).1⟩

theorem gradPoint_tracks (T : Tracks P L) (p : Proc1) {theta sigma a b m s : Flt} (h : P (p.gradF L theta sigma a b m s).Ef) : P theta := by
  cases p
  · exact T.neg (T.mul h).1
  · exact (T.mul (T.sub (T.mul h).2).1).1

/-- The whole gradient. -/
theorem gradient_tracks (T : Tracks P L) {o : VgpG Flt} {x g lam psi : List Flt} (hn : 2 ≤ o.dim_n) (hx : x.length = 2 * o.dim_n)
    (hobs : o.obs_v.length = o.obs_t.length) (hnd : o.obs_t.Nodup) (h : o.gradient L x = .ok (g, lam, psi)) (hg : ∀ w ∈ g, P w) :
    (∀ w ∈ Spec.gradInputs o x ++ lam ++ psi, P w) ∧
      ∀ i (hi : i < o.obs_t.length), o.obs_t[i] + 1 < o.dim_n → P (o.obs_v[i]'(by omega)) ∧ P o.obs_h ∧ P (L.lit (1 / 2) / o.obs_n) := by
  unfold VgpG.gradient at h
  simp only [mul_one] at h
  have la : (x.take o.dim_n).length = o.dim_n := by simp; omega
  have lb : (x.drop o.dim_n).length = o.dim_n := by simp; omega
  obtain ⟨⟨v, m, s⟩, h1, h⟩ := py_bind_ok.1 h
  obtain ⟨⟨om, os⟩, h2, h⟩ := py_bind_ok.1 h
  obtain ⟨⟨lam', psi'⟩, h3, h⟩ := py_bind_ok.1 h
  obtain ⟨rows, h4, h⟩ := py_bind_ok.1 h
  simp only [py_pure, Except.ok.injEq, Prod.mk.injEq] at h
  obtain ⟨rfl, rfl, rfl⟩ := h
  -- the forward sweep
  unfold VgpF.freeEnergy at h1
  simp only [mul_one] at h1
  obtain ⟨⟨m', s'⟩, f1, h1⟩ := py_bind_ok.1 h1
  obtain ⟨e1, j1, h1⟩ := py_bind_ok.1 h1
  obtain ⟨e2, j2, h1⟩ := py_bind_ok.1 h1
  simp only [py_pure, Except.ok.injEq, Prod.mk.injEq] at h1
  obtain ⟨-, rfl, rfl⟩ := h1
  obtain ⟨lm, ls, f2⟩ := solveFwdF_tracks T (by omega) (by omega) f1
  rw [lb] at lm ls
  have f3 : m'[0]? = some o.m0 ∧ s'[0]? = some o.s0 := by
    choose! q hq using fun k => fun (hk : k + 1 < (x.drop o.dim_n).length) => fun z => stepF_ok (L := L) o.method o.dt o.sigma (la.trans lb.symm) hk z
    unfold solveFwdF at f1
    rw [fwdSweep_ok _ _ _ q (by omega) (fun k hk z => hq k (by omega) z)] at f1
    simp only [py_ok_bind, py_pure, Except.ok.injEq, Prod.mk.injEq] at f1
    obtain ⟨rfl, rfl⟩ := f1
    rw [lb]
    constructor <;> simp [show 0 < o.dim_n by omega, traj]
  -- the backward sweep
  obtain ⟨lom, los, g1⟩ := gaussGrad_tracks T hobs hnd h2
  obtain ⟨ll, lp, b1⟩ := solveBwdF_tracks T hn la (by simp [lm]) (by simp [lm]) (lom.trans lm) (los.trans lm) h3
  -- the rows
  set pts := (List.range m'.length).map fun i => o.proc.gradF L o.theta o.sigma ((x.take o.dim_n).getD i 0) ((x.drop o.dim_n).getD i 0) (m'.getD i 0) (s'.getD i 0)
    with hpts
  have lpt : pts.length = o.dim_n := by simp [hpts, lm]
  have r1 : ∀ k (hk : k < o.dim_n), (do
      let ak ← idx (x.take o.dim_n) k
      let sk ← idx s' k
      let mk ← idx m' k
      let lamk ← idx lam' k
      let pk ← idx pts k
      let bk ← idx (x.drop o.dim_n) k
      let psik ← idx psi' k
      pure (gradRowF L (o.invSigma L) o.time_step ak bk mk sk lamk psik pk)) =
      (.ok (gradRowF L (o.invSigma L) o.time_step ((x.take o.dim_n)[k]'(by omega)) ((x.drop o.dim_n)[k]'(by omega)) (m'[k]'(by omega)) (s'[k]'(by omega))
        (lam'[k]'(by omega)) (psi'[k]'(by omega)) (pts[k]'(by omega))) : Py _) := by
    intro k hk
    rw [idx_ok (by omega : k < (x.take o.dim_n).length), idx_ok (by omega : k < s'.length), idx_ok (by omega : k < m'.length),
      idx_ok (by omega : k < lam'.length), idx_ok (by omega : k < pts.length), idx_ok (by omega : k < (x.drop o.dim_n).length),
      idx_ok (by omega : k < psi'.length)]
    rfl
  have r2 : ∀ k (hk : k < o.dim_n), gradRowF L (o.invSigma L) o.time_step ((x.take o.dim_n)[k]'(by omega)) ((x.drop o.dim_n)[k]'(by omega)) (m'[k]'(by omega))
      (s'[k]'(by omega)) (lam'[k]'(by omega)) (psi'[k]'(by omega)) (pts[k]'(by omega)) ∈ rows := by
    intro k hk
    obtain ⟨lr, hr⟩ := mapM_get h4 k (by simpa using hk)
    rw [List.getElem_range] at hr
    rw [Except.ok.inj ((r1 k hk).symm.trans hr)]
    exact List.getElem_mem lr
  have r3 := fun k (hk : k < o.dim_n) => gradRow_tracks T (hg _ (List.mem_append_left _ (List.mem_map_of_mem (r2 k hk))))
    (hg _ (List.mem_append_right _ (List.mem_map_of_mem (r2 k hk))))
  have all : ∀ l : List Flt, l.length = o.dim_n → (∀ k (hk : k < o.dim_n) (hl : k < l.length), P l[k]) → ∀ w ∈ l, P w := by
    intro l hl hp w hw
    obtain ⟨i, hi, rfl⟩ := List.mem_iff_getElem.1 hw
    exact hp i (by omega) hi
  have pa := all _ la fun k hk _ => (r3 k hk).2.1
  have pb := all _ lb fun k hk _ => (r3 k hk).2.2.1
  have pm := all _ lm fun k hk _ => (r3 k hk).2.2.2.1
  have ps := all _ ls fun k hk _ => (r3 k hk).2.2.2.2.1
  have pl := all _ ll fun k hk _ => (r3 k hk).2.2.2.2.2.1
  have pp := all _ lp fun k hk _ => (r3 k hk).2.2.2.2.2.2.1
  have pf := (r3 0 (by omega)).2.2.2.2.2.2.2
  simp only [hpts, List.getElem_map] at pf
  obtain ⟨s1, s2⟩ := f2 ps
  obtain ⟨b2, b3⟩ := b1 pl pp
  refine ⟨fun w hw => ?_, fun i hi ht => ?_⟩
  · simp only [Spec.gradInputs, List.mem_append, List.mem_cons, List.not_mem_nil, or_false] at hw
    rcases hw with ((hw | hw) | hw) | hw
    · rw [← List.take_append_drop o.dim_n x, List.mem_append] at hw
      exact hw.elim (pa w) (pb w)
    · rcases hw with rfl | rfl | rfl | rfl | rfl | rfl | rfl
      exacts [gradPoint_tracks T _ pf, s1, (r3 0 (by omega)).1, s2, b2, pm _ (List.mem_of_getElem? f3.1), ps _ (List.mem_of_getElem? f3.2)]
    · exact pl w hw
    · exact pp w hw
  · exact g1 i hi (b3 _ ht).1 (b3 _ ht).2

/-! ## C150 -/

/-- When all derivatives that `gradient` returns are finite, then so are the parameters, the drift and the noise of the process, the time steps, the initial moments,
all stored multipliers, and every observation, the last grid point excepted. -/
theorem C150_finite_partial (hL : Spec.Library L) (o : VgpG Flt) (x : List Flt) (hn : 2 ≤ o.dim_n) (hx : x.length = 2 * o.dim_n)
    (hobs : o.obs_v.length = o.obs_t.length) (hnd : o.obs_t.Nodup) (g lam psi : List Flt) (h : o.gradient L x = .ok (g, lam, psi))
    (hg : ∀ w ∈ g, Spec.Finite w) : (∀ w ∈ Spec.gradInputs o x ++ lam ++ psi, Spec.Finite w) ∧
      ∀ i (hi : i < o.obs_t.length), o.obs_t[i] + 1 < o.dim_n → Spec.Finite (o.obs_v[i]'(by omega)) ∧ Spec.Finite o.obs_h := by
  obtain ⟨h1, h2⟩ := gradient_tracks (tracks_finite hL) hn hx hobs hnd h hg
  exact ⟨h1, fun i hi ht => ⟨(h2 i hi ht).1, (h2 i hi ht).2.1⟩⟩

/-- When one of these numbers is NaN, or the noise of an observation before the last grid point, then one of the derivatives is NaN. -/
theorem C150_nan_partial (hL : Spec.Library L) (o : VgpG Flt) (x : List Flt) (hn : 2 ≤ o.dim_n) (hx : x.length = 2 * o.dim_n)
    (hobs : o.obs_v.length = o.obs_t.length) (hnd : o.obs_t.Nodup) (g lam psi : List Flt) (h : o.gradient L x = .ok (g, lam, psi))
    (hw : nan ∈ Spec.gradInputs o x ++ lam ++ psi ∨
      ∃ i, ∃ hi : i < o.obs_t.length, o.obs_t[i] + 1 < o.dim_n ∧ (o.obs_v[i]'(by omega) = nan ∨ o.obs_h = nan ∨ o.obs_n = nan)) : nan ∈ g := by
  by_contra hc
  obtain ⟨h1, h2⟩ := gradient_tracks (tracks_nan hL) hn hx hobs hnd h (fun w hw e => hc (e ▸ hw))
  rcases hw with hw | ⟨i, hi, ht, hw⟩
  · exact h1 nan hw rfl
  · obtain ⟨k1, k2, k3⟩ := h2 i hi ht
    rcases hw with hw | hw | hw
    · exact k1 hw
    · exact k2 hw
    · exact (div_ne_nan k3).2 hw

/-! ## The observation at the last grid point -/

/-- Two points, the process `dx = dw`, one observation, of the last point. -/
noncomputable def lastVgp (obs : Flt) (mb : Method) : VgpG Flt :=
  { toVgpF := { toyVgp obs .euler with obs_t := [1] }, obs_h := Flt.lit 1, method_bwd := mb, dt_bwd := Flt.lit 1 }

theorem z0 : (0 : Flt) = zero false := rfl

theorem lit_six : Flt.lit 6 = num 6 (by norm_num) := by
  rcases isVal_cases (lit_nat' 6 6 (by norm_num) (by norm_num)) with ⟨s, -, h⟩ | ⟨h, e⟩
  · norm_num at h
  · simpa using e

theorem lit_half_inv : Flt.lit 2⁻¹ = num (1 / 2) (by norm_num) := by rw [← lit_half', one_div]

theorem finite_zero (s : Bool) : Spec.Finite (zero s) := ⟨by simp, by simp⟩

/-- All the numbers of the example that matter are zero, one or two. -/
theorem last_point (mb : Method) : ∃ g lam psi, (lastVgp nan mb).gradient toyLibm (List.replicate 4 (zero false)) = .ok (g, lam, psi) ∧ ∀ w ∈ g, Spec.Finite w := by
  cases mb
  all_goals
    refine ⟨[_, _, _, _], _, _, rfl, ?_⟩
    simp only [List.forall_mem_cons, List.not_mem_nil, false_implies, implies_true, and_true]
    simp [lastVgp, toyVgp, gradRowF, VgpG.invSigma, funLamF, funPsiF, funMtF, funStF, Proc1.gradF, ouGradF, z0, e_lit, e_pow, e_ss, e_nn, e_dd, e_aa,
      e_negz, e_za, e_zz, e_mz, e_zm, e_zmz, e_zd, lit_one', lit_half_inv, lit_two, lit_six, round_one, round_half, finite_zero]
    norm_num [e_nn, e_dd, e_aa, e_neg,
      e_negz, e_az, e_za, e_zz, e_mz, e_zm, e_zmz, e_zd, round_one, round_two, round_half, finite_zero]

/-- An observation of the last grid point that is NaN: the free energy is NaN, but with every backward integrator all derivatives are finite (`solve_bwd` never reads the
derivative with respect to the last mean). -/
theorem C150_violated (mb : Method) : ∃ o : VgpG Flt, ∃ x g lam psi : List Flt, o.method_bwd = mb ∧ 2 ≤ o.dim_n ∧ x.length = 2 * o.dim_n ∧ o.obs_t = [o.dim_n - 1] ∧
    o.obs_v = [nan] ∧ o.gradient toyLibm x = .ok (g, lam, psi) ∧ (∀ w ∈ g, Spec.Finite w) ∧ ∃ mt st, o.freeEnergy toyLibm x = .ok (nan, mt, st) := by
  obtain ⟨g, lam, psi, h1, h2⟩ := last_point mb
  refine ⟨lastVgp nan mb, _, g, lam, psi, rfl, le_rfl, rfl, rfl, rfl, h1, h2, ?_⟩
  unfold VgpG.gradient at h1
  obtain ⟨⟨v, mt, st⟩, h3, -⟩ := py_bind_ok.1 h1
  have := C143_nan toyLibm_library (lastVgp nan mb).toVgpF _ le_rfl rfl rfl v mt st h3 (by simp [Spec.inputs, lastVgp, toyVgp])
  exact ⟨mt, st, this ▸ h3⟩

/-- The same observation at the first grid point. -/
noncomputable def firstVgp (mb : Method) : VgpG Flt :=
  { toVgpF := toyVgp nan .euler, obs_h := Flt.lit 1, method_bwd := mb, dt_bwd := Flt.lit 1 }

/-- There a derivative is NaN. -/
example (mb : Method) : ∃ g lam psi, (firstVgp mb).gradient toyLibm (List.replicate 4 (zero false)) = .ok (g, lam, psi) ∧ nan ∈ g := by
  have h : ∃ g lam psi, (firstVgp mb).gradient toyLibm (List.replicate 4 (zero false)) = .ok (g, lam, psi) := by
    cases mb <;> exact ⟨_, _, _, rfl⟩
  obtain ⟨g, lam, psi, h⟩ := h
  exact ⟨g, lam, psi, h, C150_nan_partial toyLibm_library (firstVgp mb) _ le_rfl rfl rfl (by simp [firstVgp, toyVgp]) g lam psi h
    (.inr ⟨0, by simp [firstVgp, toyVgp], by simp [firstVgp, toyVgp], .inl (by simp [firstVgp, toyVgp])⟩)⟩

/-- In the case above all derivatives are finite, and so is all that `C150_finite_partial` speaks of. -/
example (mb : Method) : ∃ lam psi, ∀ w ∈ Spec.gradInputs (lastVgp nan mb) (List.replicate 4 (zero false)) ++ lam ++ psi, Spec.Finite w := by
  obtain ⟨g, lam, psi, h1, h2⟩ := last_point mb
  exact ⟨lam, psi, (C150_finite_partial toyLibm_library (lastVgp nan mb) _ le_rfl rfl rfl (by simp [lastVgp]) g lam psi h1 h2).1⟩

end VGPA
