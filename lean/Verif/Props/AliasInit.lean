import Verif.Model.HeapInit
import Verif.Props.AliasCheck
import Verif.Props.VarGPInit

/-!
# C153: the start of the optimisation and the arrays of others
-/

set_option linter.unusedSectionVars false

namespace VGPA

noncomputable section

/-- Filling the beginning of an array entry by entry. -/
theorem foldlM_fill_rest {Y : Type} (f : ℕ → Py Y) (z : Y) (n : ℕ) (rest : List Y) :
    (List.range n).foldlM (fun buf k => do
      let _ ← idx buf k
      let y ← f k
      setIdx buf k y) (List.replicate n z ++ rest) = (do
        let r ← (List.range n).mapM f
        pure (r ++ rest)) := by
  have key : ∀ (m j : ℕ) (done : List Y), done.length = j →
      (List.range' j m).foldlM (fun buf k => do
        let _ ← idx buf k
        let y ← f k
        setIdx buf k y) (done ++ (List.replicate m z ++ rest)) = (do
          let r ← (List.range' j m).mapM f
          pure (done ++ (r ++ rest))) := by
    intro m
    induction m with
    | zero => intro j done _; simp
    | succ m ih =>
      intro j done hd
      have h1 : idx (done ++ (List.replicate (m + 1) z ++ rest)) j = .ok z := by
        unfold idx
        rw [List.getElem?_append_right (by omega), hd, Nat.sub_self, List.replicate_succ, List.cons_append, List.getElem?_cons_zero]
      rw [List.range'_succ, List.foldlM_cons, List.mapM_cons, h1, py_ok_bind]
      cases hf : f j with
      | error e => rfl
      | ok y =>
        have h2 : setIdx (done ++ (List.replicate (m + 1) z ++ rest)) j y = .ok ((done ++ [y]) ++ (List.replicate m z ++ rest)) := by
          unfold setIdx
          rw [if_pos (by simp; omega), List.set_append_right _ _ (by omega), hd, Nat.sub_self, List.replicate_succ, List.cons_append, List.set_cons_zero,
            List.append_assoc]
          rfl
        rw [py_ok_bind, h2, py_ok_bind, ih (j + 1) (done ++ [y]) (by simp [hd]), py_ok_bind]
        cases (List.range' (j + 1) m).mapM f with
        | error e => rfl
        | ok r =>
          show Except.ok _ = Except.ok _
          rw [List.append_assoc]
          rfl
  have := key n 0 [] rfl
  rw [← List.range_eq_range'] at this
  simpa using this

section data

variable {V W : Type} [AddCommGroup V] [Module ℝ V] [AddCommGroup W] [Module ℝ W] [Cells V] [Cells W] [LawfulCells V] [LawfulCells W]

theorem hSplineData_ok {h : Heap} {o : HVarGP V W} {v : VarGP V W} (hi : o.Is h v) (tw : List ℝ) : exec (o.hSplineData tw) h = (v.splineData tw, h) := by
  unfold HVarGP.hSplineData VarGP.splineData
  rw [hi.obs_t]
  simp only [exec_bind, exec_lift]
  rcases idx tw 0 with _ | t0
  · rfl
  rcases fancy tw v.obs_t with _ | ts
  · rfl
  rcases lastIdx tw with _ | t1
  · rfl
  simp only [next_ok, exec_bind, exec_lift, exec_all hi.obs_y, py_ok_bind]
  rcases idx v.obs_y 0 with _ | y0
  · rfl
  rcases lastIdx v.obs_y with _ | y1
  · rfl
  rfl

end data

/-- What a call of `initialization` on the heap does. -/
def Spec.Starts (h : Heap) (r : Py HArr × Heap) (want : Py (List ℝ)) : Prop :=
  Spec.Unchanged h r.2 ∧ match want with
    | .error e => r.1 = .error e
    | .ok X => ∃ x, r.1 = .ok x ∧ Spec.NewArray h r.2 x X

/-- C153, `initialization()` in one dimension: it changes no array that existed, and raises or returns what it should, in a new array. -/
theorem C153_one_dimension (fit : List ℝ → List ℝ → ℝ → ℝ) {h : Heap} {o : HVarGP ℝ ℝ} {v : VarGP ℝ ℝ} (hi : o.Is h v) :
    Spec.Starts h (exec (o.hInitialization1 fit) h) (v.initialization1 fit) := by
  unfold HVarGP.hInitialization1 VarGP.initialization1
  have hrefl : Spec.Unchanged h h := fun _ _ => rfl
  rw [exec_bind, exec_peek o.model hi.model, next_ok, exec_bind, exec_lift]
  rcases v.model.time_window with e | tw
  · exact ⟨hrefl, rfl⟩
  rw [next_ok, exec_bind, hSplineData_ok hi, py_ok_bind]
  rcases v.splineData tw with e | ⟨time_x, obs_z⟩
  · exact ⟨hrefl, rfl⟩
  rw [next_ok, py_ok_bind]
  simp only
  rw [exec_bind, exec_get hi.sigma.1, next_ok, exec_bind, exec_fresh, next_ok, hi.dim_n, exec_bind, exec_lift]
  set l0 := List.replicate v.dim_n (0.5 * (v.model.sigma / 0.25) * 1) with hl0
  rcases cubicSpline fit time_x obs_z with e | fb0
  · exact ⟨unchanged_of_prefix (List.prefix_append _ _), rfl⟩
  rw [next_ok, py_ok_bind, exec_bind, exec_fresh, next_ok, exec_bind]
  rw [exec_all ((holds_fresh h l0).mono (List.prefix_append _ _)), next_ok, exec_bind, exec_all (holds_fresh _ (tw.map fb0)), next_ok, exec_fresh]
  refine ⟨unchanged_of_prefix ?_, _, rfl, ?_, holds_fresh _ _⟩
  · exact ((List.prefix_append _ _).trans (List.prefix_append _ _)).trans (List.prefix_append _ _)
  · simp only [List.length_append]
    omega

section turns

variable {d : ℕ}

/-- One turn of the loop. -/
theorem hInitTurn_ok {h1 h : Heap} {p q mt0 dmt0 : HArr} (D : Matrix (Fin d) (Fin d) ℝ) {ms dms : List (Fin d → ℝ)}
    {fs : List (Matrix (Fin d) (Fin d) ℝ × (Fin d → ℝ))} (hm : Safe h1 p q mt0 ms) (hd : Safe h1 p q dmt0 dms) (hf : Filling h1 h p q fs)
    {t : ℕ} (ht : t < fs.length) :
    TurnRes h p q t (exec (HVarGP.hInitTurn D mt0 dmt0 p q t) h) (do
      let dk ← idx dms t
      let mk ← idx ms t
      pure ((0.5 : ℝ) • D, dk + ((0.5 : ℝ) • D).diag * mk)) := by
  have hp : t < p.n := by rw [hf.fst.1]; simpa using ht
  have hq : t < q.n := by rw [hf.snd.1]; simpa using ht
  unfold HVarGP.hInitTurn
  refine turn_view (hf.other hd.holds hd.ne1 hd.ne2) _ _ fun dk e1 => ?_
  refine turn_view (hf.other hm.holds hm.ne1 hm.ne2) _ _ fun mk e2 => ?_
  have hr : Reads (wr h (p.piece t) ((0.5 : ℝ) • D)) (p.piece t) ((0.5 : ℝ) • D) :=
    Holds.reads (hf.fst.write (by simpa using ht) ((0.5 : ℝ) • D)) (List.getElem?_set_self (by simpa using ht))
  rw [exec_bind, exec_view_ok hp, next_ok, exec_bind, exec_set_ok hp, next_ok, exec_bind, hd.get' hf e1, next_ok, exec_bind, exec_get hr, next_ok, exec_bind,
    hm.get' hf e2, next_ok, exec_set_ok hq]
  rfl

/-- The last entries. -/
theorem hInitLast_ok {h1 h : Heap} {p q mt0 : HArr} (D : Matrix (Fin d) (Fin d) ℝ) {ms : List (Fin d → ℝ)}
    {fs : List (Matrix (Fin d) (Fin d) ℝ × (Fin d → ℝ))} (hm : Safe h1 p q mt0 ms) (hf : Filling h1 h p q fs)
    (h0 : fs.length ≠ 0) :
    TurnRes h p q (fs.length - 1) (exec (HVarGP.hInitLast D mt0 p q) h) (do
      let ml ← lastIdx ms
      pure ((0.5 : ℝ) • D, ((0.5 : ℝ) • D).diag * ml)) := by
  have hpn : p.n = fs.length := by rw [hf.fst.1]; simp
  have hqn : q.n = fs.length := by rw [hf.snd.1]; simp
  have hmn : mt0.n = ms.length := hm.holds.1
  have ht : fs.length - 1 < fs.length := by omega
  have hp : fs.length - 1 < p.n := by omega
  have hq : fs.length - 1 < q.n := by omega
  unfold HVarGP.hInitLast
  rw [hpn, hqn, hmn, if_neg h0]
  by_cases hl : ms.length = 0
  · rw [if_pos hl]
    have : ms = [] := List.length_eq_zero_iff.1 hl
    subst this
    rfl
  rw [if_neg hl]
  have hlast : lastIdx ms = idx ms (ms.length - 1) := by
    unfold lastIdx idx
    rw [List.getLast?_eq_getElem?]
    cases ms[ms.length - 1]? <;> rfl
  rw [hlast]
  show TurnRes h p q (fs.length - 1) (exec (mt0.view (ms.length - 1) >>= fun _ => _) h) _
  refine turn_view (hf.other hm.holds hm.ne1 hm.ne2) _ _ fun mk e2 => ?_
  have hr : Reads (wr h (p.piece (fs.length - 1)) ((0.5 : ℝ) • D)) (p.piece (fs.length - 1)) ((0.5 : ℝ) • D) :=
    Holds.reads (hf.fst.write (by simpa using ht) ((0.5 : ℝ) • D)) (List.getElem?_set_self (by simpa using ht))
  rw [exec_bind, exec_view_ok hp, next_ok, exec_bind, exec_set_ok hp, next_ok, exec_bind, exec_get hr, next_ok, exec_bind,
    hm.get' hf e2, next_ok, exec_set_ok hq]
  rfl

end turns

/-- C153, `initialization()` in `d` dimensions. -/
theorem C153_more_dimensions {d : ℕ} (fit : List ℝ → List (Fin d → ℝ) → ℝ → Fin d → ℝ) {h : Heap}
    {o : HVarGP (Fin d → ℝ) (Matrix (Fin d) (Fin d) ℝ)} {v : VarGP (Fin d → ℝ) (Matrix (Fin d) (Fin d) ℝ)} (hi : o.Is h v) :
    Spec.Starts h (exec (o.hInitializationN fit) h) (v.initializationN fit) := by
  unfold HVarGP.hInitializationN VarGP.initializationN
  have hrefl : Spec.Unchanged h h := fun _ _ => rfl
  rw [exec_bind, exec_peek o.model hi.model, next_ok, exec_bind, exec_lift]
  rcases v.model.time_window with e | tw
  · exact ⟨hrefl, rfl⟩
  rw [next_ok, exec_bind, hSplineData_ok hi, py_ok_bind]
  rcases v.splineData tw with e | ⟨time_x, obs_z⟩
  · exact ⟨hrefl, rfl⟩
  rw [next_ok, py_ok_bind]
  simp only
  rw [exec_bind, exec_lift]
  rcases cubicSpline fit time_x obs_z with e | fb0
  · exact ⟨hrefl, rfl⟩
  rw [next_ok, py_ok_bind, exec_bind, exec_fresh, next_ok, exec_bind, exec_all (holds_fresh h (tw.map fb0)), next_ok, exec_bind, exec_fresh, next_ok, hi.dt,
    hi.dim_n]
  set ms := tw.map fb0 with hms
  set dms := (List.zipWith (fun q p => q - p) ms.tail ms).map fun v' => v.dt⁻¹ • v' with hdms
  set hb := h ++ [ms.flatMap Cells.enc] with hhb
  have hM : Holds (hb ++ [dms.flatMap Cells.enc]) ⟨h.length, 0, ms.length, Cells.width (Fin d → ℝ)⟩ ms := (holds_fresh h ms).mono (List.prefix_append _ _)
  have hD : Holds (hb ++ [dms.flatMap Cells.enc]) ⟨hb.length, 0, dms.length, Cells.width (Fin d → ℝ)⟩ dms := holds_fresh hb dms
  have hpre : h <+: hb ++ [dms.flatMap Cells.enc] := (List.prefix_append _ _).trans (List.prefix_append _ _)
  generalize (⟨h.length, 0, ms.length, Cells.width (Fin d → ℝ)⟩ : HArr) = mt0 at hM ⊢
  generalize (⟨hb.length, 0, dms.length, Cells.width (Fin d → ℝ)⟩ : HArr) = dmt0 at hD ⊢
  generalize hb ++ [dms.flatMap Cells.enc] = h0 at hM hD hpre ⊢
  have hsig := Reads.mono hi.sigma hpre
  rw [exec_bind, exec_get hsig.1, next_ok]
  generalize (Matrix.diagonal fun i => v.model.sigma.diag i / ((0.25 : ℝ) • (1 : Matrix (Fin d) (Fin d) ℝ)).diag i : Matrix (Fin d) (Fin d) ℝ) = D
  have hf := filling_zeros (V := Matrix (Fin d) (Fin d) ℝ) (W := Fin d → ℝ) h0 v.dim_n
  rw [exec_bind, exec_zeros, next_ok, exec_bind, exec_zeros, next_ok]
  simp only at hf
  set h1 := h0 ++ [List.replicate (v.dim_n * Cells.width (Matrix (Fin d) (Fin d) ℝ)) 0] ++ [List.replicate (v.dim_n * Cells.width (Fin d → ℝ)) (0 : ℝ)] with hh1
  set p : HArr := ⟨h0.length, 0, v.dim_n, Cells.width (Matrix (Fin d) (Fin d) ℝ)⟩ with hhp
  set q : HArr := ⟨(h0 ++ [List.replicate (v.dim_n * Cells.width (Matrix (Fin d) (Fin d) ℝ)) (0 : ℝ)]).length, 0, v.dim_n, Cells.width (Fin d → ℝ)⟩ with hhq
  have h01 : h0 <+: h1 := by rw [hh1, List.append_assoc]; exact List.prefix_append _ _
  have hp : h0.length ≤ p.loc := le_refl _
  have hq : h0.length ≤ q.loc := by simp [hhq]
  have hpq : p.loc ≠ q.loc := by simp [hhp, hhq]
  have safe : ∀ {r : HArr} {l : List (Fin d → ℝ)}, Holds h0 r l → Safe h1 p q r l := fun hr =>
    ⟨hr.mono h01, by have := hr.loc_lt; omega, by have := hr.loc_lt; omega⟩
  have key := loop_turns hpq (fun k => k) (fun k => k) (HVarGP.hInitTurn D mt0 dmt0 p q) (fun k _ => (do
      let dk ← idx dms k
      let mk ← idx ms k
      pure ((0.5 : ℝ) • D, dk + ((0.5 : ℝ) • D).diag * mk) : Py (Matrix (Fin d) (Fin d) ℝ × (Fin d → ℝ)))) (List.range (v.dim_n - 1))
    (fun t htm => by
      have ht : t < v.dim_n := by have := List.mem_range.1 htm; omega
      refine ⟨ht, ht, ?_⟩
      rintro h fs y hf hn -
      exact hInitTurn_ok D (safe hM) (safe hD) hf (by omega)) h1 _ hf (by simp)
  rw [show List.replicate v.dim_n ((0 : Matrix (Fin d) (Fin d) ℝ), (0 : Fin d → ℝ)) = List.replicate (v.dim_n - 1) (0, 0) ++ List.replicate (v.dim_n - (v.dim_n - 1)) (0, 0) by
    rw [List.replicate_append_replicate]; congr 1; omega, foldlM_fill_rest] at key
  rw [exec_bind]
  cases hR : (List.range (v.dim_n - 1)).mapM (fun k => (do
      let dk ← idx dms k
      let mk ← idx ms k
      pure ((0.5 : ℝ) • D, dk + ((0.5 : ℝ) • D).diag * mk) : Py (Matrix (Fin d) (Fin d) ℝ × (Fin d → ℝ)))) with
  | error e =>
    rw [hR] at key
    obtain ⟨h2, ms', h3, h4⟩ := key
    rw [h3]
    exact ⟨unchanged_of_prefix (hpre.trans (h4.keeps h01 hp hq)), rfl⟩
  | ok rows =>
    rw [hR] at key
    obtain ⟨h2, h3, h4, h5⟩ := key
    rw [h3, next_ok, py_ok_bind, exec_bind]
    have h02 := h4.keeps h01 hp hq
    by_cases hz : v.dim_n = 0
    · rw [if_pos hz]
      have : exec (HVarGP.hInitLast D mt0 p q) h2 = (.error .indexError, h2) := by
        unfold HVarGP.hInitLast
        rw [if_pos (show p.n = 0 from hz)]
        rfl
      rw [this]
      exact ⟨unchanged_of_prefix (hpre.trans h02), rfl⟩
    rw [if_neg hz]
    have hlast := hInitLast_ok D (safe hM) h4 (by omega)
    rw [h5] at hlast
    cases hl : lastIdx ms with
    | error e =>
      rw [hl] at hlast
      have hlast : _ = (Except.error e, h2) := hlast
      rw [hlast]
      exact ⟨unchanged_of_prefix (hpre.trans h02), rfl⟩
    | ok ml =>
      rw [hl] at hlast
      have hlast : _ = (Except.ok (), _) := hlast
      have hrl : rows.length = v.dim_n - 1 := by
        have := h5
        rw [List.length_append, List.length_replicate] at this
        omega
      have h6 := h4.two hpq (k := v.dim_n - 1) (by omega) ((0.5 : ℝ) • D, ((0.5 : ℝ) • D).diag * ml)
      rw [show v.dim_n - (v.dim_n - 1) = 1 by omega, List.set_append_right _ _ (by omega), hrl, Nat.sub_self] at h6
      have h03 := h6.keeps h01 hp hq
      rw [hlast, next_ok, exec_bind, exec_all h6.fst, next_ok, exec_bind, exec_all h6.snd, next_ok, exec_fresh]
      refine ⟨unchanged_of_prefix ((hpre.trans h03).trans (List.prefix_append _ _)), _, rfl, (hpre.trans h03).length_le, holds_fresh _ _⟩

/-! ## The start and the optimizer, one after the other -/

/-- What `x0 = vgpa.initialization()` followed by `SCG(vgpa.free_energy, vgpa.gradient)(x0)` does to memory, when the start has the contents `X0`: `start` is the outcome of the first call, and the second begins in the memory it
leaves. -/
def Spec.RunKept {V W : Type} [AddCommGroup V] [Module ℝ V] [AddCommGroup W] [Module ℝ W] [Cells V] [Cells W] (sh : HShape V W) {n : ℕ} (ar : Arith ℝ (Fin n → ℝ)) (p : Scg ℝ) (h : Heap)
    (o : HVarGP V W) (v : VarGP V W) (start : Py HArr × Heap) (X0 : Fin n → ℝ) : Prop :=
  ∃ x0 h1, start = (.ok x0, h1) ∧ ∃ r p' o' h', HScg.call ar (hOracle sh n) () p x0 o h1 = (r, p', o', h')
    ∧ Spec.Unchanged h h' ∧ Spec.NewArray h h' x0 (List.ofFn X0)
    ∧ match (Scg.call ar (vOracle sh.toShape n) () p X0 v).1 with
      | .error e => r = .error e
      | .ok (X, F) => ∃ x, r = .ok (x, F) ∧ x.loc ≠ x0.loc ∧ Spec.NewArray h h' x (List.ofFn X)

theorem run_kept {V W : Type} [AddCommGroup V] [Module ℝ V] [AddCommGroup W] [Module ℝ W] [Cells V] [Cells W] [LawfulCells V] [LawfulCells W] {sh : HShape V W} (hsh : sh.Lawful) {n : ℕ}
    (ar : Arith ℝ (Fin n → ℝ)) (p : Scg ℝ) {h : Heap} {o : HVarGP V W} {v : VarGP V W} (hi : o.Is h v) {start : Py HArr × Heap} {want : Py (List ℝ)} (hs : Spec.Starts h start want)
    {X0 : Fin n → ℝ} (hX : want = .ok (List.ofFn X0)) : Spec.RunKept sh ar p h o v start X0 := by
  obtain ⟨r0, h1⟩ := start
  subst hX
  obtain ⟨hu, x0, hx0, hnew⟩ := hs
  simp only at hu hx0 hnew
  subst hx0
  have hgrow : h.length ≤ h1.length := by
    by_contra hlt
    have := hu h1.length (by omega)
    rw [List.getElem?_eq_none (le_refl _), List.getElem?_eq_getElem (by omega)] at this
    cases this
  have hheld : ∀ l ∈ Spec.held o, h1[l]? = h[l]? := fun l hl => hu l (held_exist hi hl)
  obtain ⟨r, p', o', h', hc, hu', -, -, hr⟩ := C131_variational hsh ar p (is_of_held hi hheld) hnew.2
  refine ⟨x0, h1, rfl, r, p', o', h', hc, fun l hl => ?_, ⟨hnew.1, ?_⟩, ?_⟩
  · rw [hu' l (by omega), hu l hl]
  · exact hnew.2.congr (hu' _ hnew.2.loc_lt)
  · generalize (Scg.call ar (vOracle sh.toShape n) () p X0 v).1 = R at hr ⊢
    rcases R with e | ⟨X, F⟩
    · exact hr
    · obtain ⟨x, h2, h3⟩ := hr
      have := hnew.2.loc_lt
      have h4 := h3.1
      exact ⟨x, h2, by omega, by omega, h3.2⟩

/-- C153, the run in one dimension: the start of the optimisation is still in its array when the optimizer has finished, the result is in another one, and every array that existed before both calls is as it was. -/
theorem C153_run_one_dimension (fit : List ℝ → List ℝ → ℝ → ℝ) {n : ℕ} (ar : Arith ℝ (Fin n → ℝ)) (p : Scg ℝ) {h : Heap} {o : HVarGP ℝ ℝ} {v : VarGP ℝ ℝ} (hi : o.Is h v) {X0 : Fin n → ℝ}
    (hX : v.initialization1 fit = .ok (List.ofFn X0)) : Spec.RunKept hshape1 ar p h o v (exec (o.hInitialization1 fit) h) X0 :=
  run_kept hshape1_lawful ar p hi (C153_one_dimension fit hi) hX

/-- C153, the run in `d` dimensions. -/
theorem C153_run_more_dimensions {d : ℕ} (fit : List ℝ → List (Fin d → ℝ) → ℝ → Fin d → ℝ) {n : ℕ} (ar : Arith ℝ (Fin n → ℝ)) (p : Scg ℝ) {h : Heap}
    {o : HVarGP (Fin d → ℝ) (Matrix (Fin d) (Fin d) ℝ)} {v : VarGP (Fin d → ℝ) (Matrix (Fin d) (Fin d) ℝ)} (hi : o.Is h v) {X0 : Fin n → ℝ}
    (hX : v.initializationN fit = .ok (List.ofFn X0)) : Spec.RunKept (hshapeN d) ar p h o v (exec (o.hInitializationN fit) h) X0 :=
  run_kept (hshapeN_lawful d) ar p hi (C153_more_dimensions fit hi) hX

/-! ## Non-vacuity -/

theorem wVal_data (y : Fin 2 → ℝ) : Spec.HasData (N := 3) (k := 1) (wVal y) (fun i => (i : ℕ) / 2) ![1, 2] y where
  window := by
    show Proc.timeWindow vgpDW.base = _
    norm_num [vgpDW, Proc.timeWindow, List.ofFn_succ]
  dim := rfl
  mono := fun i j hij => by
    have : ((i : ℕ) : ℝ) < (j : ℕ) := by exact_mod_cast hij
    simpa using by linarith
  obs_t := rfl
  obs_y := rfl
  increasing := by decide

/-- An object with two observations, both inside the window: the start is computed, and the run finds it unchanged. -/
example (y : Fin 2 → ℝ) (a b : Fin 4 → ℝ) (p : Scg ℝ) : ∃ X0 : Fin (4 + 4) → ℝ, (wVal y).initialization1 lookupFit = .ok (List.ofFn X0)
    ∧ Spec.RunKept hshape1 (realArith (4 + 4)) p (wHeap y a b) wObj (wVal y) (exec (wObj.hInitialization1 lookupFit) (wHeap y a b)) X0 := by
  have h := (init1_eq (wVal_data y) lookupFit).1 (by decide)
  rw [← List.ofFn_fin_append] at h
  exact ⟨_, h, C153_run_one_dimension lookupFit _ p (wObj_is y a b) h⟩

/-- An object in two dimensions, somewhere in memory: the start is computed. -/
example : ∃ (h : Heap) (o : HVarGP (Fin 2 → ℝ) (Matrix (Fin 2) (Fin 2) ℝ)) (X : List ℝ), o.Is h initObjN ∧ initObjN.initializationN lookupFit = .ok X
    ∧ Spec.Starts h (exec (o.hInitializationN lookupFit) h) (.ok X) := by
  obtain ⟨h, o, x, hi, -⟩ := C123_placed initObjN rfl []
  obtain ⟨b, hb, -⟩ := (initN_eq (o := initObjN) (tw := fun i : Fin (2 + 1) => ((i : ℕ) : ℝ)) (t := ![1]) (y := ![![3, 4]])
    ⟨rfl, rfl, fun i j h => by exact_mod_cast h, by simp [initObjN], by simp [initObjN], fun i j h => by omega⟩ lookupFit).1 (by decide)
  refine ⟨h, o, _, hi, hb, ?_⟩
  rw [← hb]
  exact C153_more_dimensions lookupFit hi

end

end VGPA
