import Verif.Model.IeeeGrad
import Verif.Lemmas.Logical

/-!
# Two runs of the gradient in different arithmetics

As `Verif.Lemmas.Logical`, for `VgpG.gradient`.
-/

namespace VGPA

theorem append_rel {α β : Type} {R : α → β → Prop} {l u : List α} {l' u' : List β} (h : List.Forall₂ R l l') (hu : List.Forall₂ R u u') :
    List.Forall₂ R (l ++ u) (l' ++ u') := List.rel_append h hu

theorem map_rel {α β γ δ : Type} {R : α → β → Prop} {S : γ → δ → Prop} {f : α → γ} {g : β → δ} {l : List α} {l' : List β} (h : List.Forall₂ R l l')
    (hf : ∀ a b, R a b → S (f a) (g b)) : List.Forall₂ S (l.map f) (l'.map g) :=
  List.forall₂_map_left_iff.2 (List.forall₂_map_right_iff.2 (h.imp hf))

theorem fancyPairs_rel {α β : Type} {R : α → β → Prop} (ks : List ℕ) {l vs : List α} {l' vs' : List β} (h : List.Forall₂ R l l') (hv : List.Forall₂ R vs vs') :
    PyRel (List.Forall₂ R) (fancyPairs l ks vs) (fancyPairs l' ks vs') := by
  unfold fancyPairs
  induction ks generalizing l l' vs vs' with
  | nil => exact .ok h
  | cons k ks ih =>
    cases hv with
    | nil => exact .ok h
    | cons h1 h2 => exact (setIdx_rel h k h1).bind fun u v huv => ih huv h2

theorem fancySet_rel {α β : Type} {R : α → β → Prop} (ks : List ℕ) {l vs : List α} {l' vs' : List β} (h : List.Forall₂ R l l') (hv : List.Forall₂ R vs vs') :
    PyRel (List.Forall₂ R) (fancySet l ks vs) (fancySet l' ks vs') := by
  unfold fancySet
  rw [hv.length_eq]
  split
  · exact fancyPairs_rel ks h hv
  · cases hv with
    | nil => exact .error _
    | cons h1 h2 =>
      cases h2 with
      | nil => exact fancyPairs_rel ks h (List.forall₂_map_left_iff.2 (List.forall₂_map_right_iff.2 (List.forall₂_same.2 fun _ _ => h1)))
      | cons _ _ => exact .error _

theorem mapM_rel {α β : Type} {R : α → β → Prop} (ks : List ℕ) {f : ℕ → Py α} {g : ℕ → Py β} (h : ∀ k, PyRel R (f k) (g k)) :
    PyRel (List.Forall₂ R) (ks.mapM f) (ks.mapM g) := by
  induction ks with
  | nil => exact .ok .nil
  | cons k ks ih =>
    rw [List.mapM_cons, List.mapM_cons]
    exact (h k).bind fun _ _ hab => ih.bind fun _ _ huv => .ok (.cons hab huv)

/-- The loop of the backward sweep; every turn costs `c` levels. -/
theorem bwd_rel {α β : Type} [Zero α] [Zero β] {R : ℕ → α → β → Prop} (mono : ∀ {j k : ℕ} {a : α} {b : β}, j ≤ k → R j a b → R k a b)
    (B c n : ℕ) (zero : R B 0 0) {f : ℕ → α → Py α} {g : ℕ → β → Py β} (hf : ∀ t j a b, B ≤ j → R j a b → PyRel (R (j + c)) (f t a) (g t b)) :
    PyRel (List.Forall₂ (R (B + c * n))) (bwdSweep n f) (bwdSweep n g) := by
  unfold bwdSweep
  have key : ∀ (ts : List ℕ) (j : ℕ), B ≤ j → ∀ (l : List α) (l' : List β), List.Forall₂ (R j) l l' →
      PyRel (List.Forall₂ (R (j + c * ts.length)))
        (ts.foldlM (fun buf t => do let x ← idx buf t; let y ← f t x; setIdx buf (t - 1) y) l)
        (ts.foldlM (fun buf t => do let x ← idx buf t; let y ← g t x; setIdx buf (t - 1) y) l') := by
    intro ts
    induction ts with
    | nil => intro j _ l l' h; exact .ok h
    | cons t ts ih =>
      intro j hj l l' h
      simp only [List.foldlM_cons]
      refine PyRel.bind (R := List.Forall₂ (R (j + c))) ?_ fun u v huv => ?_
      · refine (idx_rel h t).bind fun x y hxy => (hf t j x y hj hxy).bind fun x' y' hxy' => ?_
        exact setIdx_rel (h.imp fun _ _ h => mono (by omega) h) _ hxy'
      · refine (ih (j + c) (by omega) u v huv).mono fun _ _ h => h.imp fun _ _ h => mono ?_ h
        rw [List.length_cons, Nat.mul_succ]
        omega
  refine (key _ B le_rfl _ _ (forall₂_of_get (by simp) fun k hk hk' => by simpa using zero)).mono fun _ _ h => h.imp fun _ _ h => mono ?_ h
  simp only [List.length_reverse, List.length_map, List.length_range]
  exact Nat.add_le_add_left (Nat.mul_le_mul_left _ (by omega)) _

variable {α β : Type} [Zero α] [Neg α] [Add α] [Sub α] [Mul α] [Div α] [Zero β] [Neg β] [Add β] [Sub β] [Mul β] [Div β]

/-- Related at a common level. -/
structure PtRel (R : ℕ → α → β → Prop) (k : ℕ) (p : PointG α) (q : PointG β) : Prop where
  Ef : R k p.Ef q.Ef
  Edf : R k p.Edf q.Edf
  dm : R k p.dm q.dm
  ds : R k p.ds q.ds

namespace Logical

variable {R : ℕ → α → β → Prop} {D : α → β → Prop} {L : Libm α} {L' : Libm β} (H : Logical R D L L')

include H

theorem funLam {B j p : ℕ} {e a l : α} {e' a' l' : β} (he : R B e e') (ha : R p a a') (hl : R j l l') :
    R (max B (j + p + 1) + 1) (funLamF e a l) (funLamF e' a' l') := H.add (H.neg he) (H.mul hl ha)

theorem funPsi {B j p : ℕ} {e a l : α} {e' a' l' : β} (he : R B e e') (ha : R p a a') (hl : R j l l') :
    R (max B (j + p + 3) + 1) (funPsiF L e a l) (funPsiF L' e' a' l') :=
  H.mono (by omega) (H.add (H.neg he) (H.mul (H.mul (H.lit 2) hl) ha))

theorem midpoints' {B : ℕ} {x : List α} {x' : List β} (h : List.Forall₂ (R B) x x') :
    List.Forall₂ (R (B + 3)) (midpointsF L x ++ [0]) (midpointsF L' x' ++ [0]) :=
  append_rel (zipWith_rel (dropLast_rel h) (tail_rel h) fun _ _ _ _ h1 h2 => H.mono (by omega) (H.mul (H.lit (1 / 2)) (H.add h1 h2)))
    (.cons (H.mono (by omega) H.zero) .nil)

/-- One turn of the backward sweep. -/
theorem stepBwd (method : Method) {B : ℕ} {dt : α} {dt' : β} (hdt : R 0 dt dt') {lin_a dm ds om os : List α} {lin_a' dm' ds' om' os' : List β}
    (ha : List.Forall₂ (R 0) lin_a lin_a') (hdm : List.Forall₂ (R B) dm dm') (hds : List.Forall₂ (R B) ds ds') (hom : List.Forall₂ (R B) om om')
    (hos : List.Forall₂ (R B) os os') (t j : ℕ) (x : α × α) (y : β × β) (hj : B ≤ j) (hxy : R j x.1 y.1 ∧ R j x.2 y.2) :
    PyRel (fun x y => R (j + 37) x.1 y.1 ∧ R (j + 37) x.2 y.2) (stepBwdF L method dt lin_a dm ds om os t x)
      (stepBwdF L' method dt' lin_a' dm' ds' om' os' t y) := by
  obtain ⟨h1, h2⟩ := hxy
  have hh := H.mul (H.lit (1 / 2)) hdt
  unfold stepBwdF
  refine (idx_rel ha t).bind fun at_ at' hat => ?_
  cases method with
  | euler =>
    refine (idx_rel hdm t).bind fun em em' hem => (idx_rel hom (t - 1)).bind fun o1 o1' ho1 => ?_
    refine (idx_rel hds t).bind fun es es' hes => (idx_rel hos (t - 1)).bind fun o2 o2' ho2 => ?_
    exact .ok ⟨H.mono (by omega) (H.add (H.sub h1 (H.mul (H.funLam hem hat h1) hdt)) ho1),
      H.mono (by omega) (H.add (H.sub h2 (H.mul (H.funPsi hes hat h2) hdt)) ho2)⟩
  | heun =>
    refine (idx_rel ha (t - 1)).bind fun ak ak' hak => ?_
    refine (idx_rel hdm t).bind fun em em' hem => (idx_rel hdm (t - 1)).bind fun em1 em1' hem1 => (idx_rel hom (t - 1)).bind fun o1 o1' ho1 => ?_
    refine (idx_rel hds t).bind fun es es' hes => (idx_rel hds (t - 1)).bind fun es1 es1' hes1 => (idx_rel hos (t - 1)).bind fun o2 o2' ho2 => ?_
    have e1 := H.funLam hem hat h1
    have e2 := H.funLam hem1 hak (H.sub h1 (H.mul e1 hdt))
    have f1 := H.funPsi hes hat h2
    have f2 := H.funPsi hes1 hak (H.sub h2 (H.mul f1 hdt))
    exact .ok ⟨H.mono (by omega) (H.add (H.sub h1 (H.mul hh (H.add e1 e2))) ho1), H.mono (by omega) (H.add (H.sub h2 (H.mul hh (H.add f1 f2))) ho2)⟩
  | rk2 =>
    refine (idx_rel (H.midpoints' ha) (t - 1)).bind fun ak ak' hak => (idx_rel (H.midpoints' hdm) (t - 1)).bind fun ek ek' hek => ?_
    refine (idx_rel (H.midpoints' hds) (t - 1)).bind fun gk gk' hgk => ?_
    refine (idx_rel hdm t).bind fun em em' hem => (idx_rel hom (t - 1)).bind fun o1 o1' ho1 => ?_
    refine (idx_rel hds t).bind fun es es' hes => (idx_rel hos (t - 1)).bind fun o2 o2' ho2 => ?_
    have e1 := H.funLam hem hat h1
    have e2 := H.funLam hek hak (H.sub h1 (H.mul hh e1))
    have f1 := H.funPsi hes hat h2
    have f2 := H.funPsi hgk hak (H.sub h2 (H.mul hh f1))
    exact .ok ⟨H.mono (by omega) (H.add (H.sub h1 (H.mul hdt e2)) ho1), H.mono (by omega) (H.add (H.sub h2 (H.mul hdt f2)) ho2)⟩
  | rk4 =>
    refine (idx_rel (H.midpoints' ha) (t - 1)).bind fun ak ak' hak => (idx_rel (H.midpoints' hdm) (t - 1)).bind fun ek ek' hek => ?_
    refine (idx_rel (H.midpoints' hds) (t - 1)).bind fun gk gk' hgk => ?_
    refine (idx_rel hdm t).bind fun em em' hem => (idx_rel hdm (t - 1)).bind fun em1 em1' hem1 => ?_
    refine (idx_rel ha (t - 1)).bind fun a1 a1' ha1 => (idx_rel hom (t - 1)).bind fun o1 o1' ho1 => ?_
    refine (idx_rel hds t).bind fun es es' hes => (idx_rel hds (t - 1)).bind fun es1 es1' hes1 => (idx_rel hos (t - 1)).bind fun o2 o2' ho2 => ?_
    have e1 := H.funLam hem hat h1
    have e2 := H.funLam hek hak (H.sub h1 (H.mul hh e1))
    have e3 := H.funLam hek hak (H.sub h1 (H.mul hh e2))
    have e4 := H.funLam hem1 ha1 (H.sub h1 (H.mul hdt e3))
    have f1 := H.funPsi hes hat h2
    have f2 := H.funPsi hgk hak (H.sub h2 (H.mul hh f1))
    have f3 := H.funPsi hgk hak (H.sub h2 (H.mul hh f2))
    have f4 := H.funPsi hes1 ha1 (H.sub h2 (H.mul hdt f3))
    exact .ok ⟨H.mono (by omega) (H.add (H.sub h1 (H.div (H.mul hdt (H.add (H.add e1 (H.mul (H.lit 2) (H.add e2 e3))) e4)) H.six)) ho1),
      H.mono (by omega) (H.add (H.sub h2 (H.div (H.mul hdt (H.add (H.add f1 (H.mul (H.lit 2) (H.add f2 f3))) f4)) H.six)) ho2)⟩

/-- The backward sweep. -/
theorem solveBwd (method : Method) {B : ℕ} {dt : α} {dt' : β} (hdt : R 0 dt dt') {lin_a dm ds om os : List α} {lin_a' dm' ds' om' os' : List β}
    (ha : List.Forall₂ (R 0) lin_a lin_a') (hdm : List.Forall₂ (R B) dm dm') (hds : List.Forall₂ (R B) ds ds') (hom : List.Forall₂ (R B) om om')
    (hos : List.Forall₂ (R B) os os') :
    PyRel (fun x y => List.Forall₂ (R (B + 37 * dm.length)) x.1 y.1 ∧ List.Forall₂ (R (B + 37 * dm.length)) x.2 y.2)
      (solveBwdF L method dt lin_a dm ds om os) (solveBwdF L' method dt' lin_a' dm' ds' om' os') := by
  unfold solveBwdF
  rw [← hdm.length_eq]
  refine PyRel.bind (R := List.Forall₂ fun x y => R (B + 37 * dm.length) x.1 y.1 ∧ R (B + 37 * dm.length) x.2 y.2)
    (bwd_rel (R := fun j (x : α × α) (y : β × β) => R j x.1 y.1 ∧ R j x.2 y.2) (fun hjk h => ⟨H.mono hjk h.1, H.mono hjk h.2⟩) B 37 dm.length
      ⟨H.mono (by omega) H.zero, H.mono (by omega) H.zero⟩ (fun t j x y => H.stepBwd method hdt ha hdm hds hom hos t j x y)) fun u v huv => ?_
  exact .ok ⟨map_rel huv fun _ _ h => h.1, map_rel huv fun _ _ h => h.2⟩

theorem gradPoint (p : Proc1) {j : ℕ} {theta sigma a b m s : α} {theta' sigma' a' b' m' s' : β} (ht : R 0 theta theta') (hsig : D sigma sigma') (ha : R 0 a a')
    (hb : R 0 b b') (hm : R j m m') (hs : R j s s') : PtRel R (5 * j + 24) (p.gradF L theta sigma a b m s) (p.gradF L' theta' sigma' a' b' m' s') := by
  have p2 : 0 < 2 := by norm_num
  cases p with
  | ou =>
    have h1 := H.sub ht ha
    exact ⟨H.mono (by omega) (H.mul (H.neg ht) hm), H.mono (by omega) (H.mul (H.neg ht) (H.lit 1)),
      H.mono (by omega) (H.div (H.sub (H.add (H.mul hm (H.pow (n := 2) p2 h1)) (H.mul ht hb)) (H.mul ha hb)) hsig),
      H.mono (by omega) (H.div (H.mul (H.lit (1 / 2)) (H.pow (n := 2) p2 h1)) hsig)⟩
  | dw =>
    have hc := H.mono (show _ ≤ 3 by omega) (H.add (H.mul (H.lit 4) ht) ha)
    have hc2 := H.mono (show _ ≤ 8 by omega) (H.pow (n := 2) p2 hc)
    have hm2 := H.pow (n := 2) p2 hm
    have hs2 := H.pow (n := 2) p2 hs
    have hm3 := H.pow (n := 3) (by norm_num) hm
    have hm4 := H.pow (n := 4) (by norm_num) hm
    have hm5 := H.pow (n := 5) (by norm_num) hm
    have x2 := H.mono (show _ ≤ 2 * j + 3 by omega) (H.add hm2 hs)
    have x3 := H.mono (show _ ≤ 3 * j + 4 by omega) (H.add hm3 (H.mul (H.mul (H.lit 3) hm) hs))
    have d2 := H.mul (H.lit 2) hm
    have d3 := H.mul (H.lit 3) x2
    have d4 := H.mul (H.lit 4) x3
    have d6 := H.mono (show _ ≤ 5 * j + 9 by omega) (H.mul (H.lit 6) (H.add (H.add hm5 (H.mul (H.mul (H.lit 10) hm3) hs)) (H.mul (H.mul (H.lit 15) hm) hs2)))
    have g3 := H.mul (H.lit 3) hm
    have g4 := H.mul (H.lit 6) x2
    have g6 := H.mono (show _ ≤ 4 * j + 9 by omega) (H.add (H.add (H.mul (H.lit 15) hm4) (H.mul (H.mul (H.lit 90) hm2) hs)) (H.mul (H.lit 45) hs2))
    exact ⟨H.mono (by omega) (H.mul (H.lit 4) (H.sub (H.mul ht hm) x3)), H.mono (by omega) (H.mul (H.lit 4) (H.sub ht (H.mul (H.lit 3) x2))),
      H.mono (by omega) (H.div (H.mul (H.lit (1 / 2)) (H.sub (H.add (H.add (H.sub (H.mul (H.lit 16) d6) (H.mul (H.mul (H.lit 8) hc) d4))
        (H.mul (H.mul (H.lit 8) hb) d3)) (H.mul hc2 d2)) (H.mul (H.mul (H.lit 2) hb) hc))) hsig),
      H.mono (by omega) (H.div (H.mul (H.lit (1 / 2)) (H.add (H.add (H.sub (H.mul (H.lit 16) g6) (H.mul (H.mul (H.lit 8) hc) g4))
        (H.mul (H.mul (H.lit 8) hb) g3)) (H.mul hc2 (H.lit 1)))) hsig)⟩

theorem gaussGrad {j : ℕ} {noise oh : α} {noise' oh' : β} (hr : D noise noise') (hh : R 0 oh oh') {v m : List α} {v' m' : List β} (hv : List.Forall₂ (R 0) v v')
    (hm : List.Forall₂ (R j) m m') (obs : List ℕ) :
    PyRel (fun x y => List.Forall₂ (R (j + 3)) x.1 y.1 ∧ List.Forall₂ (R (j + 3)) x.2 y.2) (gaussGradF L v obs noise oh m) (gaussGradF L' v' obs noise' oh' m') := by
  unfold gaussGradF
  have z : List.Forall₂ (R (j + 3)) (List.replicate m.length 0) (List.replicate m'.length 0) :=
    forall₂_of_get (by simp [hm.length_eq]) fun k hk hk' => by simpa using H.mono (by omega) H.zero
  refine (fancy_rel hm obs).bind fun mo mo' hmo => ?_
  refine (bcast_rel (T := R (j + 2)) hv hmo fun _ _ _ _ h1 h2 => H.mono (by omega) (H.sub h1 (H.mul hh h2))).bind fun w w' hw => ?_
  refine (fancySet_rel obs z (map_rel hw fun _ _ h => H.mono (by omega) (H.div (H.neg h) hr))).bind fun u u' hu => ?_
  refine (fancySet_rel obs z (List.forall₂_map_left_iff.2 (List.forall₂_map_right_iff.2 (List.forall₂_same.2 fun _ _ =>
    H.mono (by omega) (H.div (H.lit (1 / 2)) hr))))).bind fun w w' hw => ?_
  exact .ok ⟨hu, hw⟩

/-- The gradient and the multipliers. -/
theorem gradient (o : VgpG α) (o' : VgpG β) (x : List α) (x' : List β)
    (hx : List.Forall₂ (R 0) x x') (hdim : x.length = 2 * o.dim_n) (hdim' : o'.dim_n = o.dim_n)
    (hproc : o'.proc = o.proc) (hmeth : o'.method = o.method) (hm : o.method ≠ .rk2) (hobs : o'.obs_t = o.obs_t) (ht : R 0 o.theta o'.theta)
    (hs : D o.sigma o'.sigma) (hs0 : R 0 o.sigma o'.sigma) (hst : R 0 o.time_step o'.time_step) (hdt : R 0 o.dt o'.dt) (hv : List.Forall₂ (R 0) o.obs_v o'.obs_v)
    (hl : o.obs_v.length = o.obs_t.length) (hn : D o.obs_n o'.obs_n) (hmu : R 0 o.mu0 o'.mu0) (htau : D o.tau0 o'.tau0) (h0 : R 0 o.m0 o'.m0)
    (hv0 : D o.s0 o'.s0) (hv0' : R 0 o.s0 o'.s0) (hoh : R 0 o.obs_h o'.obs_h) (hmb : o'.method_bwd = o.method_bwd) (hdb : R 0 o.dt_bwd o'.dt_bwd) :
    PyRel (fun r r' => List.Forall₂ (R (253 * o.dim_n + 34)) r.1 r'.1 ∧ List.Forall₂ (R (217 * o.dim_n + 24)) r.2.1 r'.2.1 ∧
      List.Forall₂ (R (217 * o.dim_n + 24)) r.2.2 r'.2.2) (o.gradient L x) (o'.gradient L' x') := by
  have hfe := H.freeEnergy o.toVgpF o'.toVgpF x x' hx hdim hdim' hproc hmeth hm hobs ht hs hs0 hst hdt hv hl hn hmu htau h0 hv0 hv0'
  unfold VgpG.gradient
  rw [hdim', hproc, hmb, hobs]
  have ha := take_rel hx (o.dim_n * 1 * 1)
  have hb := drop_rel hx (o.dim_n * 1 * 1)
  have hlen : ∀ r, o.toVgpF.freeEnergy L x = .ok r → r.2.1.length = o.dim_n := by
    intro r hr
    unfold VgpF.freeEnergy solveFwdF at hr
    obtain ⟨ms, e1, hr⟩ := py_bind_ok.1 hr
    obtain ⟨w, e2, e3⟩ := py_bind_ok.1 e1
    obtain ⟨_, -, hr⟩ := py_bind_ok.1 hr
    obtain ⟨_, -, hr⟩ := py_bind_ok.1 hr
    have := fwdSweep_length e2
    cases e3
    cases hr
    rw [List.length_map, this, List.length_drop]
    omega
  refine (hfe.and hlen).bind fun r r' hr => ?_
  obtain ⟨⟨-, k1, k2⟩, k3⟩ := hr
  obtain ⟨F, m, s⟩ := r
  obtain ⟨F', m', s'⟩ := r'
  simp only at k1 k2 k3
  have hpts : List.Forall₂ (PtRel R (180 * o.dim_n + 24))
      ((List.range m.length).map fun i => o.proc.gradF L o.theta o.sigma ((x.take (o.dim_n * 1 * 1)).getD i 0) ((x.drop (o.dim_n * 1 * 1)).getD i 0)
        (m.getD i 0) (s.getD i 0))
      ((List.range m'.length).map fun i => o.proc.gradF L' o'.theta o'.sigma ((x'.take (o.dim_n * 1 * 1)).getD i 0) ((x'.drop (o.dim_n * 1 * 1)).getD i 0)
        (m'.getD i 0) (s'.getD i 0)) := by
    rw [← k1.length_eq]
    refine List.forall₂_map_left_iff.2 (List.forall₂_map_right_iff.2 (List.forall₂_same.2 fun i _ => ?_))
    have := H.gradPoint o.proc ht hs (getD_rel ha i H.zero) (getD_rel hb i H.zero) (getD_rel k1 i (H.mono (by omega) H.zero))
      (getD_rel k2 i (H.mono (by omega) H.zero))
    rw [show 5 * (36 * o.dim_n) + 24 = 180 * o.dim_n + 24 by ring] at this
    exact this
  simp only
  generalize hP : ((List.range m.length).map fun i => o.proc.gradF L o.theta o.sigma ((x.take (o.dim_n * 1 * 1)).getD i 0) ((x.drop (o.dim_n * 1 * 1)).getD i 0)
        (m.getD i 0) (s.getD i 0)) = P at hpts ⊢
  have hPl : (P.map PointG.dm).length = o.dim_n := by rw [← hP]; simp [k3]
  generalize ((List.range m'.length).map fun i => o.proc.gradF L' o'.theta o'.sigma ((x'.take (o.dim_n * 1 * 1)).getD i 0) ((x'.drop (o.dim_n * 1 * 1)).getD i 0)
        (m'.getD i 0) (s'.getD i 0)) = P' at hpts ⊢
  refine (H.gaussGrad hn hoh hv k1 o.obs_t).bind fun g g' hg => ?_
  obtain ⟨om, os⟩ := g
  obtain ⟨om', os'⟩ := g'
  have hsw := H.solveBwd o.method_bwd (B := 180 * o.dim_n + 24) hdb ha (map_rel hpts fun _ _ h => h.dm) (map_rel hpts fun _ _ h => h.ds)
    (hg.1.imp fun _ _ h => H.mono (by omega) h) (hg.2.imp fun _ _ h => H.mono (by omega) h)
  rw [hPl] at hsw
  refine hsw.bind fun lp lp' hlp => ?_
  obtain ⟨lam, psi⟩ := lp
  obtain ⟨lam', psi'⟩ := lp'
  obtain ⟨hlam, hpsi⟩ := hlp
  simp only at hlam hpsi
  have hrow := mapM_rel (R := fun (u : α × α) (v : β × β) => R (253 * o.dim_n + 34) u.1 v.1 ∧ R (253 * o.dim_n + 34) u.2 v.2) (List.range o.dim_n)
    (f := fun k => do
      let ak ← idx (x.take (o.dim_n * 1 * 1)) k
      let sk ← idx s k
      let mk ← idx m k
      let lamk ← idx lam k
      let pk ← idx P k
      let bk ← idx (x.drop (o.dim_n * 1 * 1)) k
      let psik ← idx psi k
      pure (gradRowF L (o.invSigma L) o.time_step ak bk mk sk lamk psik pk))
    (g := fun k => do
      let ak ← idx (x'.take (o.dim_n * 1 * 1)) k
      let sk ← idx s' k
      let mk ← idx m' k
      let lamk ← idx lam' k
      let pk ← idx P' k
      let bk ← idx (x'.drop (o.dim_n * 1 * 1)) k
      let psik ← idx psi' k
      pure (gradRowF L' (o'.invSigma L') o'.time_step ak bk mk sk lamk psik pk)) fun k => by
      refine (idx_rel ha k).bind fun ak ak' hak => (idx_rel k2 k).bind fun sk sk' hsk => (idx_rel k1 k).bind fun mk mk' hmk => ?_
      refine (idx_rel hlam k).bind fun lk lk' hlk => (idx_rel hpts k).bind fun pk pk' hpk => (idx_rel hb k).bind fun bk bk' hbk => ?_
      refine (idx_rel hpsi k).bind fun qk qk' hqk => ?_
      have hi : R 2 (o.invSigma L) (o'.invSigma L') := H.div (H.lit 1) hs
      have db := H.mul hi (H.add (H.sub (H.neg hpk.Ef) (H.mul hak hmk)) hbk)
      have da := H.sub (H.mul (H.mul hi (H.add hpk.Edf hak)) hsk) (H.mul db hmk)
      exact .ok ⟨H.mono (by omega) (H.mul hst (H.sub (H.sub da (H.mul hlk hmk)) (H.mul (H.mul (H.lit 2) hqk) hsk))),
        H.mono (by omega) (H.mul hst (H.add db hlk))⟩
  refine hrow.bind fun u v huv => ?_
  exact .ok ⟨append_rel (map_rel huv fun _ _ h => h.1) (map_rel huv fun _ _ h => h.2), hlam.imp fun _ _ h => H.mono (by omega) h,
    hpsi.imp fun _ _ h => H.mono (by omega) h⟩

end Logical

end VGPA
