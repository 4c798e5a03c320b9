import Verif.Lemmas.HeapBwd
import Verif.Model.HeapVgp

/-!
# The variational object on the heap
-/

set_option linter.unusedSectionVars false

namespace VGPA

noncomputable section

/-! ## Views of the parameter array -/

theorem flatMap_real (X : List ℝ) : X.flatMap Cells.enc = X := by
  induction X with
  | nil => rfl
  | cons x X ih =>
    rw [List.flatMap_cons, ih]
    rfl

theorem holds_head {h : Heap} {x : HArr} {X : List ℝ} (hx : Holds h x X) (k : ℕ) : Holds h (x.head k) (X.take k) := by
  obtain ⟨h1, h2, pre, post, h3, h4⟩ := hx
  rw [flatMap_real] at h3
  refine ⟨by simp [HArr.head, h1], h2, pre, X.drop k ++ post, ?_, h4⟩
  rw [flatMap_real]
  show h[x.loc]? = _
  rw [h3]
  congr 1
  conv_lhs => rw [← List.take_append_drop k X]
  simp only [List.append_assoc]

theorem holds_tail {h : Heap} {x : HArr} {X : List ℝ} (hx : Holds h x X) (k : ℕ) : Holds h (x.tail k) (X.drop k) := by
  obtain ⟨h1, h2, pre, post, h3, h4⟩ := hx
  rw [flatMap_real] at h3
  refine ⟨by simp [HArr.tail, h1], h2, pre ++ X.take k, post, ?_, ?_⟩
  · rw [flatMap_real]
    show h[x.loc]? = _
    rw [h3]
    congr 1
    conv_lhs => rw [← List.take_append_drop k X]
    simp only [List.append_assoc]
  · have h2' : x.w = 1 := h2
    simp [HArr.tail, h4, h1, h2']

theorem exec_reshape {V : Type} [Cells V] {h : Heap} {x : HArr} {X : List ℝ} (hx : Holds h x X) {n w : ℕ} (hw : w = Cells.width V) (l : List V)
    (hn : l.length = n) (hl : l.flatMap Cells.enc = X) (hlen : X.length = n * w) :
    exec (x.reshape n w) h = (.ok ⟨x.loc, x.off, n, w⟩, h) ∧ Holds h ⟨x.loc, x.off, n, w⟩ l := by
  obtain ⟨h1, h2, pre, post, h3, h4⟩ := hx
  rw [flatMap_real] at h3
  have h2' : x.w = 1 := h2
  refine ⟨?_, hn.symm, hw, pre, post, by rw [hl]; exact h3, h4⟩
  unfold HArr.reshape
  rw [if_pos (by rw [h1, h2', hlen]; ring)]
  rfl

theorem exec_reshape_error {h : Heap} {x : HArr} {X : List ℝ} (hx : Holds h x X) {n w : ℕ} (hlen : X.length ≠ n * w) :
    exec (x.reshape n w) h = (.error .valueError, h) := by
  have h2' : x.w = 1 := hx.2.1
  unfold HArr.reshape
  rw [if_neg (by rw [hx.1, h2', mul_one]; exact hlen)]
  rfl

/-- What unpacking must do. -/
def UnpackOk {V W : Type} [Cells V] [Cells W] (f : ℕ → List ℝ → Py (List W × List V)) (g : ℕ → HArr → HPy (HArr × HArr)) : Prop :=
  ∀ (h : Heap) (x : HArr) (X : List ℝ) (n : ℕ), Holds h x X →
    match f n X with
    | .error e => exec (g n x) h = (.error e, h)
    | .ok (A, B) => ∃ a b, exec (g n x) h = (.ok (a, b), h) ∧ Holds h a A ∧ Holds h b B

structure HShape.Lawful {V W : Type} [Cells V] [Cells W] (sh : HShape V W) : Prop where
  unpackF : UnpackOk sh.unpackF sh.hUnpackF
  unpackG : UnpackOk sh.unpackG sh.hUnpackG

theorem hshape1_lawful : hshape1.Lawful :=
  ⟨fun _ _ _ _ hx => ⟨_, _, rfl, holds_head hx _, holds_tail hx _⟩, fun _ _ _ _ hx => ⟨_, _, rfl, holds_head hx _, holds_tail hx _⟩⟩

theorem unpackN_ok (d : ℕ) : UnpackOk (shapeN d).unpackG (hshapeN d).hUnpackG := by
  intro h x X n hx
  have e1 : (shapeN d).unpackG n X = (do
      let a ← reshape3 n d (X.take (n * d * d))
      let b ← reshape2 n d (X.drop (n * d * d))
      pure (a, b)) := rfl
  have e2 : (hshapeN d).hUnpackG n x = (do
      let a ← (x.head (n * d * d)).reshape n (d * d)
      let b ← (x.tail (n * d * d)).reshape n d
      pure (a, b)) := rfl
  rw [e1, e2, exec_bind]
  by_cases h3 : (X.take (n * d * d)).length = n * d * d
  · obtain ⟨a, ha, hga⟩ := reshape3_ok h3
    obtain ⟨q1, q2⟩ := exec_reshape (V := Matrix (Fin d) (Fin d) ℝ) (holds_head hx (n * d * d)) (n := n) (w := d * d) rfl (List.ofFn a) (by simp)
      (ravel3_of_get h3 a hga) (by rw [h3]; ring)
    rw [q1, next_ok, ha, exec_bind]
    by_cases h2 : (X.drop (n * d * d)).length = n * d
    · obtain ⟨b, hb, hgb⟩ := reshape2_ok h2
      obtain ⟨q3, q4⟩ := exec_reshape (V := Fin d → ℝ) (holds_tail hx (n * d * d)) (n := n) (w := d) rfl (List.ofFn b) (by simp)
        (ravel2_of_get h2 b hgb) h2
      rw [q3, next_ok, hb]
      exact ⟨_, _, rfl, q2, q4⟩
    · rw [exec_reshape_error (holds_tail hx (n * d * d)) h2, next_error]
      have : reshape2 n d (X.drop (n * d * d)) = .error .valueError := by unfold reshape2; rw [if_neg h2]
      rw [this]
      rfl
  · rw [exec_reshape_error (holds_head hx (n * d * d)) (by rw [← mul_assoc]; exact h3), next_error]
    have : reshape3 n d (X.take (n * d * d)) = .error .valueError := by unfold reshape3; rw [if_neg h3]
    rw [this]
    rfl

theorem hshapeN_lawful (d : ℕ) : (hshapeN d).Lawful := by
  refine ⟨fun h x X n hx => ?_, unpackN_ok d⟩
  by_cases hd : d = 1
  · have e1 : (hshapeN d).toShape.unpackF n X = .error .valueError := if_pos hd
    have e2 : (hshapeN d).hUnpackF n x = throw .valueError := if_pos hd
    rw [e1, e2]
    rfl
  · have e1 : (hshapeN d).toShape.unpackF n X = (shapeN d).unpackG n X := if_neg hd
    have e2 : (hshapeN d).hUnpackF n x = (hshapeN d).hUnpackG n x := if_neg hd
    rw [e1, e2]
    exact unpackN_ok d h x X n hx

/-! ## The object -/

variable {V W : Type} [AddCommGroup V] [Module ℝ V] [AddCommGroup W] [Module ℝ W] [Cells V] [Cells W] [LawfulCells V] [LawfulCells W]

/-- The arrays of the dictionary have the contents `v`. -/
structure CacheIs (h : Heap) (c : HCache) (v : VgpCache V W) : Prop where
  mt : Holds h c.mt v.mt
  st : Holds h c.st v.st
  Efx : Holds h c.Efx v.Efx
  Edf : Holds h c.Edf v.Edf
  lamt : Holds h c.lamt v.lamt
  psit : Holds h c.psit v.psit

/-- The object on the heap is, with the present contents of its arrays, the object `v`. -/
structure HVarGP.Is (h : Heap) (o : HVarGP V W) (v : VarGP V W) : Prop where
  model : o.model.view h = v.model ∧ ∀ l ∈ o.model.locs, l < h.length
  sigma : Reads h o.sigma v.model.sigma ∧ o.sigma.loc < h.length
  inverse_sigma : Reads h o.inverse_sigma v.model.inverse_sigma ∧ o.inverse_sigma.loc < h.length
  fwd_ode : o.fwd_ode = v.fwd_ode
  bwd_ode : o.bwd_ode = v.bwd_ode
  likelihood : o.likelihood.view h = v.likelihood ∧ ∀ l ∈ o.likelihood.locs, l < h.length
  kl0 : o.kl0.view h = v.kl0 ∧ ∀ l ∈ o.kl0.locs, l < h.length
  obs_y : Holds h o.obs_y v.obs_y
  obs_t : o.obs_t = v.obs_t
  dt : o.dt = v.dt
  dim_n : o.dim_n = v.dim_n
  m0 : Reads h o.m0 v.m0 ∧ o.m0.loc < h.length
  s0 : Reads h o.s0 v.s0 ∧ o.s0.loc < h.length
  cache : match o.cache, v.cache with
    | none, none => True
    | some c, some c' => CacheIs h c c'
    | _, _ => False

theorem HObj.mono {T : Type} (o : HObj T) {h h' : Heap} {v : T} (hv : o.view h = v ∧ ∀ l ∈ o.locs, l < h.length) (hp : h <+: h') :
    o.view h' = v ∧ ∀ l ∈ o.locs, l < h'.length := by
  refine ⟨?_, fun l hl => lt_of_lt_of_le (hv.2 l hl) hp.length_le⟩
  rw [← hv.1]
  refine o.only h h' fun l hl => ?_
  obtain ⟨t, rfl⟩ := hp
  exact List.getElem?_append_left (hv.2 l hl)

theorem CacheIs.mono {h h' : Heap} {c : HCache} {v : VgpCache V W} (hc : CacheIs h c v) (hp : h <+: h') : CacheIs h' c v :=
  ⟨hc.mt.mono hp, hc.st.mono hp, hc.Efx.mono hp, hc.Edf.mono hp, hc.lamt.mono hp, hc.psit.mono hp⟩

theorem HVarGP.Is.mono {h h' : Heap} {o : HVarGP V W} {v : VarGP V W} (hi : o.Is h v) (hp : h <+: h') : o.Is h' v where
  model := o.model.mono hi.model hp
  sigma := Reads.mono hi.sigma hp
  inverse_sigma := Reads.mono hi.inverse_sigma hp
  fwd_ode := hi.fwd_ode
  bwd_ode := hi.bwd_ode
  likelihood := o.likelihood.mono hi.likelihood hp
  kl0 := o.kl0.mono hi.kl0 hp
  obs_y := hi.obs_y.mono hp
  obs_t := hi.obs_t
  dt := hi.dt
  dim_n := hi.dim_n
  m0 := Reads.mono hi.m0 hp
  s0 := Reads.mono hi.s0 hp
  cache := by
    have := hi.cache
    split at this
    · trivial
    · exact this.mono hp
    · exact this

theorem exec_peek {T : Type} (o : HObj T) {h : Heap} {v : T} (hv : o.view h = v ∧ ∀ l ∈ o.locs, l < h.length) : exec o.peek h = (.ok v, h) := by
  rw [← hv.1]
  rfl

/-- The locations of the arrays of the dictionary. -/
def HCache.locs (c : HCache) : List ℕ := [c.mt.loc, c.st.loc, c.Efx.loc, c.Edf.loc, c.lamt.loc, c.psit.loc]

theorem hEnergy_ok {h : Heap} {o : HVarGP V W} {v : VarGP V W} (hi : o.Is h v) {a b m s : HArr} {A : List W} {B M : List V} {S : List W}
    (ha : Holds h a A) (hb : Holds h b B) (hm : Holds h m M) (hs : Holds h s S) :
    match v.model.energy A B M S v.obs_t with
    | .error e => exec (o.hEnergy a b m s) h = (.error e, h)
    | .ok e => ∃ (h' : Heap) (Efx Edf dm ds : HArr), exec (o.hEnergy a b m s) h = (.ok (e.Esde, Efx, Edf, dm, ds), h') ∧ h <+: h' ∧ Holds h' Efx e.Efx
        ∧ Holds h' Edf e.Edf ∧ Holds h' dm e.dm ∧ Holds h' ds e.ds ∧ h.length ≤ Efx.loc ∧ h.length ≤ Edf.loc ∧ Efx.loc ≠ Edf.loc := by
  unfold HVarGP.hEnergy
  simp only [exec_bind, exec_peek o.model hi.model, exec_all ha, exec_all hb, exec_all hm, exec_all hs, next_ok, exec_lift, hi.obs_t]
  cases v.model.energy A B M S v.obs_t with
  | error e => rfl
  | ok e =>
    simp only [next_ok, exec_bind, exec_fresh, exec_pure]
    refine ⟨_, _, _, _, _, rfl, ?_, ?_, ?_, ?_, ?_, le_refl _, ?_, ?_⟩
    · simp only [List.append_assoc]; exact List.prefix_append _ _
    · exact (holds_fresh h e.Efx).mono (by simp only [List.append_assoc]; rw [← List.append_assoc h]; exact List.prefix_append _ _)
    · exact (holds_fresh _ e.Edf).mono (by rw [List.append_assoc _ _ [e.ds.flatMap Cells.enc]]; exact List.prefix_append _ _)
    · exact (holds_fresh _ e.dm).mono (List.prefix_append _ _)
    · exact holds_fresh _ e.ds
    · simp
    · simp

theorem hGradients_ok {h : Heap} {o : HVarGP V W} {v : VarGP V W} (hi : o.Is h v) {m s : HArr} {M : List V} {S : List W}
    (hm : Holds h m M) (hs : Holds h s S) :
    match v.likelihood.gradients M S with
    | .error e => exec (o.hGradients m s) h = (.error e, h)
    | .ok g => ∃ (h' : Heap) (dm ds : HArr), exec (o.hGradients m s) h = (.ok (dm, ds), h') ∧ h <+: h' ∧ Holds h' dm g.1 ∧ Holds h' ds g.2 := by
  unfold HVarGP.hGradients
  simp only [exec_bind, exec_peek o.likelihood hi.likelihood, exec_all hm, exec_all hs, next_ok, exec_lift]
  cases v.likelihood.gradients M S with
  | error e => rfl
  | ok g =>
    simp only [next_ok, exec_bind, exec_fresh, exec_pure]
    refine ⟨_, _, _, rfl, ?_, ?_, ?_⟩
    · simp only [List.append_assoc]; exact List.prefix_append _ _
    · exact (holds_fresh h g.1).mono (List.prefix_append _ _)
    · exact holds_fresh _ g.2

/-- What `free_energy` does to memory and object. -/
theorem hFreeEnergy_ok {sh : HShape V W} (hsh : sh.Lawful) {h : Heap} {o : HVarGP V W} {v : VarGP V W} (hi : o.Is h v) {x : HArr} {X : List ℝ}
    (hx : Holds h x X) :
    h <+: (exec (o.hFreeEnergy sh x) h).2 ∧ match v.eval sh.toShape X with
      | .error e => (exec (o.hFreeEnergy sh x) h).1 = .error e
      | .ok (F, c') => ∃ c : HCache, (exec (o.hFreeEnergy sh x) h).1 = .ok (F, { o with cache := some c })
          ∧ CacheIs (exec (o.hFreeEnergy sh x) h).2 c c' ∧ c.locs.Nodup ∧ ∀ l ∈ c.locs, h.length ≤ l := by
  unfold HVarGP.hFreeEnergy VarGP.eval
  rw [exec_bind, hi.dim_n]
  have hu := hsh.unpackF h x X v.dim_n hx
  cases hU : sh.unpackF v.dim_n X with
  | error e => rw [hU] at hu; simp only at hu; rw [hu]; exact ⟨List.prefix_refl _, rfl⟩
  | ok AB =>
  obtain ⟨A, B⟩ := AB
  rw [hU] at hu
  obtain ⟨a, b, hu, hA, hB⟩ := hu
  rw [hu, next_ok]
  simp only [hi.fwd_ode, hi.bwd_ode]
  rw [exec_bind]
  have hg := hSolveFwd_gives v.fwd_ode.solver sh.rhs v.fwd_ode.dt ⟨hA, hB, hi.m0, hi.s0, hi.sigma⟩
  rcases hE : exec (hSolveFwd v.fwd_ode.solver sh.rhs v.fwd_ode.dt a b o.m0 o.s0 o.sigma) h with ⟨r, h1⟩
  rw [hE] at hg
  obtain ⟨hp1, hg⟩ := hg
  simp only at hp1 hg
  rw [py_ok_bind]
  simp only
  cases hV : solveFwd v.fwd_ode.solver sh.rhs v.fwd_ode.dt A B v.m0 v.s0 v.model.sigma with
  | error e => rw [hV] at hg; simp only at hg; subst hg; exact ⟨hp1, rfl⟩
  | ok MS =>
  obtain ⟨M, S⟩ := MS
  rw [hV] at hg
  obtain ⟨m, s, rfl, hM, hS, lm, ls, lms⟩ := hg
  rw [next_ok]
  simp only [exec_bind, exec_peek _ (hi.mono hp1).likelihood, exec_all hM, exec_all hS, next_ok, exec_lift]
  rw [py_ok_bind]
  simp only
  cases v.likelihood.call M S with
  | error e => exact ⟨hp1, rfl⟩
  | ok Eobs =>
  rw [next_ok, exec_bind, py_ok_bind]
  have he := hEnergy_ok (hi.mono hp1) (hA.mono hp1) (hB.mono hp1) hM hS
  cases hV2 : v.model.energy A B M S v.obs_t with
  | error e => rw [hV2] at he; simp only at he; rw [he]; exact ⟨hp1, rfl⟩
  | ok e =>
  rw [hV2] at he
  obtain ⟨h2, Efx, Edf, dm, ds, he, hp2, hEfx, hEdf, hdm, hds, l1, l2, l3⟩ := he
  rw [he, next_ok, py_ok_bind]
  simp only
  rw [exec_bind]
  have hp12 := hp1.trans hp2
  have hgr := hGradients_ok (hi.mono hp12) (hM.mono hp2) (hS.mono hp2)
  cases hV3 : v.likelihood.gradients M S with
  | error e => rw [hV3] at hgr; simp only at hgr; rw [hgr]; exact ⟨hp12, rfl⟩
  | ok g =>
  rw [hV3] at hgr
  obtain ⟨h3, gm, gs, hgr, hp3, hgm, hgs⟩ := hgr
  rw [hgr, next_ok, py_ok_bind]
  simp only
  rw [exec_bind]
  have hp23 := hp2.trans hp3
  have hp13 := hp1.trans hp23
  have hb := hSolveBwd_gives v.bwd_ode.solver sh.rhs v.bwd_ode.dt (⟨hA.mono hp13, hdm.mono hp3, hds.mono hp3, hgm, hgs⟩ :
    BwdIn h3 a dm ds gm gs A e.dm e.ds g.1 g.2)
  rcases hE2 : exec (hSolveBwd v.bwd_ode.solver sh.rhs v.bwd_ode.dt a dm ds gm gs) h3 with ⟨r, h4⟩
  rw [hE2] at hb
  obtain ⟨hp4, hb⟩ := hb
  simp only at hp4 hb
  have hp14 := hp13.trans hp4
  cases hV4 : solveBwd v.bwd_ode.solver sh.rhs v.bwd_ode.dt A e.dm e.ds g.1 g.2 with
  | error e => rw [hV4] at hb; simp only at hb; subst hb; exact ⟨hp14, rfl⟩
  | ok LP =>
  obtain ⟨L, P⟩ := LP
  rw [hV4] at hb
  obtain ⟨lam, psi, rfl, hL, hP, ll, lp, llp⟩ := hb
  rw [next_ok, py_ok_bind]
  simp only
  have hi4 := hi.mono hp14
  simp only [exec_bind, exec_peek _ hi4.kl0, exec_get hi4.m0.1, exec_get hi4.s0.1, next_ok, exec_lift]
  cases v.kl0 v.m0 v.s0 with
  | error e => exact ⟨hp14, rfl⟩
  | ok E0 =>
  rw [next_ok, exec_pure]
  have hp24 := hp23.trans hp4
  have hp34 := hp3.trans hp4
  refine ⟨hp14, _, rfl, ⟨hM.mono hp24, hS.mono hp24, hEfx.mono hp34, hEdf.mono hp34, hL, hP⟩, ?_, ?_⟩
  · have b1 := hM.loc_lt
    have b2 := hS.loc_lt
    have b3 := hEfx.loc_lt
    have b4 := hEdf.loc_lt
    have b5 := hp3.length_le
    simp only [HCache.locs, List.nodup_cons, List.mem_cons, List.not_mem_nil, not_or, not_false_eq_true, List.nodup_nil, and_true, or_false]
    refine ⟨⟨?_, ?_, ?_, ?_, ?_⟩, ⟨?_, ?_, ?_, ?_⟩, ⟨?_, ?_, ?_⟩, ⟨?_, ?_⟩, ?_⟩ <;> omega
  · have c1 := hp1.length_le
    have c2 := hp13.length_le
    simp only [HCache.locs, List.mem_cons, List.not_mem_nil, or_false]
    rintro l (rfl | rfl | rfl | rfl | rfl | rfl) <;> omega

end

end VGPA
