import Verif.Lemmas.HeapFwd

/-!
# The backward integrators on the heap
-/

set_option linter.unusedSectionVars false
set_option linter.unusedSimpArgs false

namespace VGPA

noncomputable section

variable {V W : Type} [AddCommGroup V] [Module ℝ V] [AddCommGroup W] [Module ℝ W] [Cells V] [Cells W] [LawfulCells V] [LawfulCells W]

/-- A backward loop. -/
theorem bwd_loop {h0 h1 h' : Heap} {a b : HArr} {n : ℕ} (h01 : h0 <+: h1) (ha : h0.length ≤ a.loc) (hb : h0.length ≤ b.loc)
    (hab : a.loc ≠ b.loc) (hf : Filling h1 h' a b (List.replicate n ((0 : V), (0 : W)))) (body : ℕ → HPy Unit)
    (step : ℕ → V × W → Py (V × W)) (ht : ∀ t, 1 ≤ t → t < n → Turn h1 a b n t (t - 1) (body t) (step t)) :
    Gives2 h0 (exec (do
      ((List.range (n - 1)).map (· + 1)).reverse.forM body
      pure (a, b)) h') (do
      let ms ← bwdSweep n step
      pure (ms.map Prod.fst, ms.map Prod.snd)) := by
  have key := loop_turns hab (fun t => t) (fun t => t - 1) body step ((List.range (n - 1)).map (· + 1)).reverse
    (fun t htm => by
      have : 1 ≤ t ∧ t < n := by
        simp only [List.mem_reverse, List.mem_map, List.mem_range] at htm
        obtain ⟨u, hu, rfl⟩ := htm
        omega
      exact ⟨by omega, by omega, ht t (by omega) (by omega)⟩) h' _ hf (by simp)
  have hs : bwdSweep n step = ((List.range (n - 1)).map (· + 1)).reverse.foldlM (fun buf k => do
      let x ← idx buf k
      let y ← step k x
      setIdx buf (k - 1) y) (List.replicate n ((0 : V), (0 : W))) := rfl
  rw [hs, exec_bind]
  split at key
  · rename_i e he
    obtain ⟨h2, ms', h3, h4⟩ := key
    rw [h3, next_error, he]
    exact ⟨h4.keeps h01 ha hb, rfl⟩
  · rename_i ms' he
    obtain ⟨h2, h3, h4, h5⟩ := key
    rw [h3, next_ok, exec_pure, he]
    exact ⟨h4.keeps h01 ha hb, a, b, rfl, h4.fst, h4.snd, ha, hb, hab⟩

/-- The input of a backward integrator. -/
structure BwdIn (h : Heap) (lin_a dEsde_dm dEsde_ds dEobs_dm dEobs_ds : HArr) (A : List W) (EM : List V) (ES : List W) (OM : List V)
    (OS : List W) : Prop where
  a : Holds h lin_a A
  em : Holds h dEsde_dm EM
  es : Holds h dEsde_ds ES
  om : Holds h dEobs_dm OM
  os : Holds h dEobs_ds OS

/-- `Euler.solve_bwd`. -/
theorem hEulerBwd_gives (F : Rhs V W) (dt : ℝ) {h : Heap} {lin_a dEsde_dm dEsde_ds dEobs_dm dEobs_ds : HArr} {A : List W} {EM : List V}
    {ES : List W} {OM : List V} {OS : List W} (hin : BwdIn h lin_a dEsde_dm dEsde_ds dEobs_dm dEobs_ds A EM ES OM OS) :
    Gives2 h (exec (hEulerBwd F dt lin_a dEsde_dm dEsde_ds dEobs_dm dEobs_ds) h) (Euler.solveBwd F dt A EM ES OM OS) := by
  unfold hEulerBwd Euler.solveBwd
  rw [hin.em.1]
  have hf := filling_zeros (V := V) (W := W) h EM.length
  rw [exec_bind, exec_zeros, next_ok, exec_bind, exec_zeros, next_ok]
  simp only at hf
  set h1 := h ++ [List.replicate (EM.length * Cells.width V) 0] ++ [List.replicate (EM.length * Cells.width W) (0 : ℝ)] with hh1
  set a : HArr := ⟨h.length, 0, EM.length, Cells.width V⟩ with hha
  set b : HArr := ⟨(h ++ [List.replicate (EM.length * Cells.width V) (0 : ℝ)]).length, 0, EM.length, Cells.width W⟩ with hhb
  have h01 : h <+: h1 := by rw [hh1, List.append_assoc]; exact List.prefix_append _ _
  have ha : h.length ≤ a.loc := le_refl _
  have hb : h.length ≤ b.loc := by simp [hhb]
  have hab : a.loc ≠ b.loc := by simp [hha, hhb]
  have l1 := hin.a.loc_lt
  have l2 := hin.em.loc_lt
  have l3 := hin.es.loc_lt
  have l4 := hin.om.loc_lt
  have l5 := hin.os.loc_lt
  have hA : Safe h1 a b lin_a A := ⟨hin.a.mono h01, by omega, by omega⟩
  have hEM : Safe h1 a b dEsde_dm EM := ⟨hin.em.mono h01, by omega, by omega⟩
  have hES : Safe h1 a b dEsde_ds ES := ⟨hin.es.mono h01, by omega, by omega⟩
  have hOM : Safe h1 a b dEobs_dm OM := ⟨hin.om.mono h01, by omega, by omega⟩
  have hOS : Safe h1 a b dEobs_ds OS := ⟨hin.os.mono h01, by omega, by omega⟩
  refine bwd_loop h01 ha hb hab hf _ _ fun t ht hk => ?_
  rintro h ms ⟨mk, sk⟩ hf hn hx
  obtain ⟨ea, eb, hm, hs⟩ := turn_start (j := t - 1) hab hf hn hx
  rw [exec_bind, exec_view_ok (by omega), next_ok, exec_bind, exec_view_ok (by omega), next_ok]
  refine turn_view (hf.other hA.holds hA.ne1 hA.ne2) _ _ fun v0 e0 => ?_
  refine turn_view (hf.other hEM.holds hEM.ne1 hEM.ne2) _ _ fun v1 e1 => ?_
  refine turn_view (hf.other hOM.holds hOM.ne1 hOM.ne2) _ _ fun v2 e2 => ?_
  refine turn_view (hf.other hES.holds hES.ne1 hES.ne2) _ _ fun v3 e3 => ?_
  refine turn_view (hf.other hOS.holds hOS.ne1 hOS.ne2) _ _ fun v4 e4 => ?_
  simp only [exec_bind, next_ok, hm, hs, hA.get hf e0, hA.get' hf e0, hEM.get hf e1, hEM.get' hf e1, hOM.get hf e2, hOM.get' hf e2, hES.get hf e3, hES.get' hf e3, hOS.get hf e4, hOS.get' hf e4,
    exec_set_ok (show t - 1 < a.n by omega), exec_set_ok (show t - 1 < b.n by omega)]
  rfl

/-- `Heun.solve_bwd`. -/
theorem hHeunBwd_gives (F : Rhs V W) (dt : ℝ) {h : Heap} {lin_a dEsde_dm dEsde_ds dEobs_dm dEobs_ds : HArr} {A : List W} {EM : List V}
    {ES : List W} {OM : List V} {OS : List W} (hin : BwdIn h lin_a dEsde_dm dEsde_ds dEobs_dm dEobs_ds A EM ES OM OS) :
    Gives2 h (exec (hHeunBwd F dt lin_a dEsde_dm dEsde_ds dEobs_dm dEobs_ds) h) (Heun.solveBwd F dt A EM ES OM OS) := by
  unfold hHeunBwd Heun.solveBwd
  rw [hin.em.1]
  have hf := filling_zeros (V := V) (W := W) h EM.length
  rw [exec_bind, exec_zeros, next_ok, exec_bind, exec_zeros, next_ok]
  simp only at hf
  set h1 := h ++ [List.replicate (EM.length * Cells.width V) 0] ++ [List.replicate (EM.length * Cells.width W) (0 : ℝ)] with hh1
  set a : HArr := ⟨h.length, 0, EM.length, Cells.width V⟩ with hha
  set b : HArr := ⟨(h ++ [List.replicate (EM.length * Cells.width V) (0 : ℝ)]).length, 0, EM.length, Cells.width W⟩ with hhb
  have h01 : h <+: h1 := by rw [hh1, List.append_assoc]; exact List.prefix_append _ _
  have ha : h.length ≤ a.loc := le_refl _
  have hb : h.length ≤ b.loc := by simp [hhb]
  have hab : a.loc ≠ b.loc := by simp [hha, hhb]
  have l1 := hin.a.loc_lt
  have l2 := hin.em.loc_lt
  have l3 := hin.es.loc_lt
  have l4 := hin.om.loc_lt
  have l5 := hin.os.loc_lt
  have hA : Safe h1 a b lin_a A := ⟨hin.a.mono h01, by omega, by omega⟩
  have hEM : Safe h1 a b dEsde_dm EM := ⟨hin.em.mono h01, by omega, by omega⟩
  have hES : Safe h1 a b dEsde_ds ES := ⟨hin.es.mono h01, by omega, by omega⟩
  have hOM : Safe h1 a b dEobs_dm OM := ⟨hin.om.mono h01, by omega, by omega⟩
  have hOS : Safe h1 a b dEobs_ds OS := ⟨hin.os.mono h01, by omega, by omega⟩
  refine bwd_loop h01 ha hb hab hf _ _ fun t ht hk => ?_
  rintro h ms ⟨mk, sk⟩ hf hn hx
  obtain ⟨ea, eb, hm, hs⟩ := turn_start (j := t - 1) hab hf hn hx
  rw [exec_bind, exec_view_ok (by omega), next_ok, exec_bind, exec_view_ok (by omega), next_ok]
  refine turn_view (hf.other hA.holds hA.ne1 hA.ne2) _ _ fun v0 e0 => ?_
  refine turn_view (hf.other hA.holds hA.ne1 hA.ne2) _ _ fun v1 e1 => ?_
  refine turn_view (hf.other hEM.holds hEM.ne1 hEM.ne2) _ _ fun v2 e2 => ?_
  refine turn_view (hf.other hEM.holds hEM.ne1 hEM.ne2) _ _ fun v3 e3 => ?_
  refine turn_view (hf.other hOM.holds hOM.ne1 hOM.ne2) _ _ fun v4 e4 => ?_
  refine turn_view (hf.other hES.holds hES.ne1 hES.ne2) _ _ fun v5 e5 => ?_
  refine turn_view (hf.other hES.holds hES.ne1 hES.ne2) _ _ fun v6 e6 => ?_
  refine turn_view (hf.other hOS.holds hOS.ne1 hOS.ne2) _ _ fun v7 e7 => ?_
  simp only [exec_bind, next_ok, hm, hs, hA.get hf e0, hA.get' hf e0, hA.get hf e1, hA.get' hf e1, hEM.get hf e2, hEM.get' hf e2, hEM.get hf e3, hEM.get' hf e3, hOM.get hf e4, hOM.get' hf e4, hES.get hf e5, hES.get' hf e5, hES.get hf e6, hES.get' hf e6, hOS.get hf e7, hOS.get' hf e7,
    exec_set_ok (show t - 1 < a.n by omega), exec_set_ok (show t - 1 < b.n by omega)]
  rfl

/-- `RungeKutta2.solve_bwd`. -/
theorem hRK2Bwd_gives (F : Rhs V W) (dt : ℝ) {h : Heap} {lin_a dEsde_dm dEsde_ds dEobs_dm dEobs_ds : HArr} {A : List W} {EM : List V}
    {ES : List W} {OM : List V} {OS : List W} (hin : BwdIn h lin_a dEsde_dm dEsde_ds dEobs_dm dEobs_ds A EM ES OM OS) :
    Gives2 h (exec (hRK2Bwd F dt lin_a dEsde_dm dEsde_ds dEobs_dm dEobs_ds) h) (RK2.solveBwd F dt A EM ES OM OS) := by
  unfold hRK2Bwd RK2.solveBwd
  rw [hin.em.1]
  have hf := filling_zeros (V := V) (W := W) h EM.length
  rw [exec_bind, exec_zeros, next_ok, exec_bind, exec_zeros, next_ok]
  simp only at hf
  set h1 := h ++ [List.replicate (EM.length * Cells.width V) 0] ++ [List.replicate (EM.length * Cells.width W) (0 : ℝ)] with hh1
  set a : HArr := ⟨h.length, 0, EM.length, Cells.width V⟩ with hha
  set b : HArr := ⟨(h ++ [List.replicate (EM.length * Cells.width V) (0 : ℝ)]).length, 0, EM.length, Cells.width W⟩ with hhb
  have h01 : h <+: h1 := by rw [hh1, List.append_assoc]; exact List.prefix_append _ _
  have ha : h.length ≤ a.loc := le_refl _
  have hb : h.length ≤ b.loc := by simp [hhb]
  have hab : a.loc ≠ b.loc := by simp [hha, hhb]
  have l1 := hin.a.loc_lt
  have l2 := hin.em.loc_lt
  have l3 := hin.es.loc_lt
  have l4 := hin.om.loc_lt
  have l5 := hin.os.loc_lt
  have hA : Safe h1 a b lin_a A := ⟨hin.a.mono h01, by omega, by omega⟩
  have hEM : Safe h1 a b dEsde_dm EM := ⟨hin.em.mono h01, by omega, by omega⟩
  have hES : Safe h1 a b dEsde_ds ES := ⟨hin.es.mono h01, by omega, by omega⟩
  have hOM : Safe h1 a b dEobs_dm OM := ⟨hin.om.mono h01, by omega, by omega⟩
  have hOS : Safe h1 a b dEobs_ds OS := ⟨hin.os.mono h01, by omega, by omega⟩
  have la := hf.fst.loc_lt
  have lb := hf.snd.loc_lt
  rw [exec_bind, exec_all hA.holds, next_ok, exec_bind, exec_fresh, next_ok, exec_bind,
    exec_all (hEM.holds.mono (List.prefix_append _ _)), next_ok, exec_bind, exec_fresh, next_ok, exec_bind,
    exec_all (hES.holds.mono (by rw [List.append_assoc]; exact List.prefix_append _ _)), next_ok, exec_bind, exec_fresh, next_ok]
  have hf2 := ((hf.extend ((midpoints A ++ [0]).flatMap Cells.enc)).extend ((midpoints EM ++ [0]).flatMap Cells.enc)).extend
    ((midpoints ES ++ [0]).flatMap Cells.enc)
  set h2 := h1 ++ [(midpoints A ++ [0]).flatMap Cells.enc] ++ [(midpoints EM ++ [0]).flatMap Cells.enc] with hh2
  set h3 := h2 ++ [(midpoints ES ++ [0]).flatMap Cells.enc] with hh3
  have h23 : h2 <+: h3 := List.prefix_append _ _
  have h12 : h1 <+: h2 := by rw [hh2, List.append_assoc]; exact List.prefix_append _ _
  have h13 := h12.trans h23
  have hA2 : Safe h3 a b lin_a A := ⟨hA.holds.mono h13, hA.ne1, hA.ne2⟩
  have hEM2 : Safe h3 a b dEsde_dm EM := ⟨hEM.holds.mono h13, hEM.ne1, hEM.ne2⟩
  have hES2 : Safe h3 a b dEsde_ds ES := ⟨hES.holds.mono h13, hES.ne1, hES.ne2⟩
  have hOM2 : Safe h3 a b dEobs_dm OM := ⟨hOM.holds.mono h13, hOM.ne1, hOM.ne2⟩
  have hOS2 : Safe h3 a b dEobs_ds OS := ⟨hOS.holds.mono h13, hOS.ne1, hOS.ne2⟩
  have hX : Safe h3 a b ⟨h1.length, 0, (midpoints A ++ [0]).length, Cells.width W⟩ (midpoints A ++ [0]) :=
    ⟨((holds_fresh h1 (midpoints A ++ [0])).mono (List.prefix_append _ _)).mono h23, by simp only; omega, by simp only; omega⟩
  have hY : Safe h3 a b ⟨(h1 ++ [(midpoints A ++ [0]).flatMap Cells.enc]).length, 0, (midpoints EM ++ [0]).length, Cells.width V⟩
      (midpoints EM ++ [0]) :=
    ⟨(holds_fresh _ (midpoints EM ++ [0])).mono h23, by simp only [List.length_append]; omega, by simp only [List.length_append]; omega⟩
  have hl2 : h1.length ≤ h2.length := h12.length_le
  have hZ : Safe h3 a b ⟨h2.length, 0, (midpoints ES ++ [0]).length, Cells.width W⟩ (midpoints ES ++ [0]) :=
    ⟨holds_fresh _ (midpoints ES ++ [0]), by simp only; omega, by simp only; omega⟩
  refine bwd_loop (h01.trans h13) ha hb hab hf2 _ _ fun t ht hk => ?_
  rintro h ms ⟨mk, sk⟩ hf hn hx
  obtain ⟨ea, eb, hm, hs⟩ := turn_start (j := t - 1) hab hf hn hx
  rw [exec_bind, exec_view_ok (by omega), next_ok, exec_bind, exec_view_ok (by omega), next_ok]
  refine turn_view (hf.other hA2.holds hA2.ne1 hA2.ne2) _ _ fun v0 e0 => ?_
  refine turn_view (hf.other hX.holds hX.ne1 hX.ne2) _ _ fun v1 e1 => ?_
  refine turn_view (hf.other hY.holds hY.ne1 hY.ne2) _ _ fun v2 e2 => ?_
  refine turn_view (hf.other hZ.holds hZ.ne1 hZ.ne2) _ _ fun v3 e3 => ?_
  refine turn_view (hf.other hEM2.holds hEM2.ne1 hEM2.ne2) _ _ fun v4 e4 => ?_
  refine turn_view (hf.other hOM2.holds hOM2.ne1 hOM2.ne2) _ _ fun v5 e5 => ?_
  refine turn_view (hf.other hES2.holds hES2.ne1 hES2.ne2) _ _ fun v6 e6 => ?_
  refine turn_view (hf.other hOS2.holds hOS2.ne1 hOS2.ne2) _ _ fun v7 e7 => ?_
  simp only [exec_bind, next_ok, hm, hs, hA2.get hf e0, hA2.get' hf e0, hX.get hf e1, hX.get' hf e1, hY.get hf e2, hY.get' hf e2, hZ.get hf e3, hZ.get' hf e3, hEM2.get hf e4, hEM2.get' hf e4, hOM2.get hf e5, hOM2.get' hf e5, hES2.get hf e6, hES2.get' hf e6, hOS2.get hf e7, hOS2.get' hf e7,
    exec_set_ok (show t - 1 < a.n by omega), exec_set_ok (show t - 1 < b.n by omega)]
  rfl

/-- `RungeKutta4.solve_bwd`. -/
theorem hRK4Bwd_gives (F : Rhs V W) (dt : ℝ) {h : Heap} {lin_a dEsde_dm dEsde_ds dEobs_dm dEobs_ds : HArr} {A : List W} {EM : List V}
    {ES : List W} {OM : List V} {OS : List W} (hin : BwdIn h lin_a dEsde_dm dEsde_ds dEobs_dm dEobs_ds A EM ES OM OS) :
    Gives2 h (exec (hRK4Bwd F dt lin_a dEsde_dm dEsde_ds dEobs_dm dEobs_ds) h) (RK4.solveBwd F dt A EM ES OM OS) := by
  unfold hRK4Bwd RK4.solveBwd
  rw [hin.em.1]
  have hf := filling_zeros (V := V) (W := W) h EM.length
  rw [exec_bind, exec_zeros, next_ok, exec_bind, exec_zeros, next_ok]
  simp only at hf
  set h1 := h ++ [List.replicate (EM.length * Cells.width V) 0] ++ [List.replicate (EM.length * Cells.width W) (0 : ℝ)] with hh1
  set a : HArr := ⟨h.length, 0, EM.length, Cells.width V⟩ with hha
  set b : HArr := ⟨(h ++ [List.replicate (EM.length * Cells.width V) (0 : ℝ)]).length, 0, EM.length, Cells.width W⟩ with hhb
  have h01 : h <+: h1 := by rw [hh1, List.append_assoc]; exact List.prefix_append _ _
  have ha : h.length ≤ a.loc := le_refl _
  have hb : h.length ≤ b.loc := by simp [hhb]
  have hab : a.loc ≠ b.loc := by simp [hha, hhb]
  have l1 := hin.a.loc_lt
  have l2 := hin.em.loc_lt
  have l3 := hin.es.loc_lt
  have l4 := hin.om.loc_lt
  have l5 := hin.os.loc_lt
  have hA : Safe h1 a b lin_a A := ⟨hin.a.mono h01, by omega, by omega⟩
  have hEM : Safe h1 a b dEsde_dm EM := ⟨hin.em.mono h01, by omega, by omega⟩
  have hES : Safe h1 a b dEsde_ds ES := ⟨hin.es.mono h01, by omega, by omega⟩
  have hOM : Safe h1 a b dEobs_dm OM := ⟨hin.om.mono h01, by omega, by omega⟩
  have hOS : Safe h1 a b dEobs_ds OS := ⟨hin.os.mono h01, by omega, by omega⟩
  have la := hf.fst.loc_lt
  have lb := hf.snd.loc_lt
  rw [exec_bind, exec_all hA.holds, next_ok, exec_bind, exec_fresh, next_ok, exec_bind,
    exec_all (hEM.holds.mono (List.prefix_append _ _)), next_ok, exec_bind, exec_fresh, next_ok, exec_bind,
    exec_all (hES.holds.mono (by rw [List.append_assoc]; exact List.prefix_append _ _)), next_ok, exec_bind, exec_fresh, next_ok]
  have hf2 := ((hf.extend ((midpoints A ++ [0]).flatMap Cells.enc)).extend ((midpoints EM ++ [0]).flatMap Cells.enc)).extend
    ((midpoints ES ++ [0]).flatMap Cells.enc)
  set h2 := h1 ++ [(midpoints A ++ [0]).flatMap Cells.enc] ++ [(midpoints EM ++ [0]).flatMap Cells.enc] with hh2
  set h3 := h2 ++ [(midpoints ES ++ [0]).flatMap Cells.enc] with hh3
  have h23 : h2 <+: h3 := List.prefix_append _ _
  have h12 : h1 <+: h2 := by rw [hh2, List.append_assoc]; exact List.prefix_append _ _
  have h13 := h12.trans h23
  have hA2 : Safe h3 a b lin_a A := ⟨hA.holds.mono h13, hA.ne1, hA.ne2⟩
  have hEM2 : Safe h3 a b dEsde_dm EM := ⟨hEM.holds.mono h13, hEM.ne1, hEM.ne2⟩
  have hES2 : Safe h3 a b dEsde_ds ES := ⟨hES.holds.mono h13, hES.ne1, hES.ne2⟩
  have hOM2 : Safe h3 a b dEobs_dm OM := ⟨hOM.holds.mono h13, hOM.ne1, hOM.ne2⟩
  have hOS2 : Safe h3 a b dEobs_ds OS := ⟨hOS.holds.mono h13, hOS.ne1, hOS.ne2⟩
  have hX : Safe h3 a b ⟨h1.length, 0, (midpoints A ++ [0]).length, Cells.width W⟩ (midpoints A ++ [0]) :=
    ⟨((holds_fresh h1 (midpoints A ++ [0])).mono (List.prefix_append _ _)).mono h23, by simp only; omega, by simp only; omega⟩
  have hY : Safe h3 a b ⟨(h1 ++ [(midpoints A ++ [0]).flatMap Cells.enc]).length, 0, (midpoints EM ++ [0]).length, Cells.width V⟩
      (midpoints EM ++ [0]) :=
    ⟨(holds_fresh _ (midpoints EM ++ [0])).mono h23, by simp only [List.length_append]; omega, by simp only [List.length_append]; omega⟩
  have hl2 : h1.length ≤ h2.length := h12.length_le
  have hZ : Safe h3 a b ⟨h2.length, 0, (midpoints ES ++ [0]).length, Cells.width W⟩ (midpoints ES ++ [0]) :=
    ⟨holds_fresh _ (midpoints ES ++ [0]), by simp only; omega, by simp only; omega⟩
  refine bwd_loop (h01.trans h13) ha hb hab hf2 _ _ fun t ht hk => ?_
  rintro h ms ⟨mk, sk⟩ hf hn hx
  obtain ⟨ea, eb, hm, hs⟩ := turn_start (j := t - 1) hab hf hn hx
  rw [exec_bind, exec_view_ok (by omega), next_ok, exec_bind, exec_view_ok (by omega), next_ok]
  refine turn_view (hf.other hA2.holds hA2.ne1 hA2.ne2) _ _ fun v0 e0 => ?_
  refine turn_view (hf.other hX.holds hX.ne1 hX.ne2) _ _ fun v1 e1 => ?_
  refine turn_view (hf.other hY.holds hY.ne1 hY.ne2) _ _ fun v2 e2 => ?_
  refine turn_view (hf.other hZ.holds hZ.ne1 hZ.ne2) _ _ fun v3 e3 => ?_
  refine turn_view (hf.other hEM2.holds hEM2.ne1 hEM2.ne2) _ _ fun v4 e4 => ?_
  refine turn_view (hf.other hEM2.holds hEM2.ne1 hEM2.ne2) _ _ fun v5 e5 => ?_
  refine turn_view (hf.other hA2.holds hA2.ne1 hA2.ne2) _ _ fun v6 e6 => ?_
  refine turn_view (hf.other hOM2.holds hOM2.ne1 hOM2.ne2) _ _ fun v7 e7 => ?_
  refine turn_view (hf.other hES2.holds hES2.ne1 hES2.ne2) _ _ fun v8 e8 => ?_
  refine turn_view (hf.other hES2.holds hES2.ne1 hES2.ne2) _ _ fun v9 e9 => ?_
  refine turn_view (hf.other hOS2.holds hOS2.ne1 hOS2.ne2) _ _ fun v10 e10 => ?_
  simp only [exec_bind, next_ok, hm, hs, hA2.get hf e0, hA2.get' hf e0, hX.get hf e1, hX.get' hf e1, hY.get hf e2, hY.get' hf e2, hZ.get hf e3, hZ.get' hf e3, hEM2.get hf e4, hEM2.get' hf e4, hEM2.get hf e5, hEM2.get' hf e5, hA2.get hf e6, hA2.get' hf e6, hOM2.get hf e7, hOM2.get' hf e7, hES2.get hf e8, hES2.get' hf e8, hES2.get hf e9, hES2.get' hf e9, hOS2.get hf e10, hOS2.get' hf e10,
    exec_set_ok (show t - 1 < a.n by omega), exec_set_ok (show t - 1 < b.n by omega)]
  rfl

/-- All four. -/
theorem hSolveBwd_gives (meth : Method) (F : Rhs V W) (dt : ℝ) {h : Heap} {lin_a dEsde_dm dEsde_ds dEobs_dm dEobs_ds : HArr} {A : List W}
    {EM : List V} {ES : List W} {OM : List V} {OS : List W} (hin : BwdIn h lin_a dEsde_dm dEsde_ds dEobs_dm dEobs_ds A EM ES OM OS) :
    Gives2 h (exec (hSolveBwd meth F dt lin_a dEsde_dm dEsde_ds dEobs_dm dEobs_ds) h) (solveBwd meth F dt A EM ES OM OS) := by
  cases meth
  · exact hEulerBwd_gives F dt hin
  · exact hHeunBwd_gives F dt hin
  · exact hRK2Bwd_gives F dt hin
  · exact hRK4Bwd_gives F dt hin

end

end VGPA
