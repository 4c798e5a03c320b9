import Verif.Lemmas.HeapVgp

/-!
# The gradient on the heap
-/

set_option linter.unusedSectionVars false
set_option linter.unusedSimpArgs false

namespace VGPA

noncomputable section

/-- Filling an array entry by entry. -/
theorem foldlM_fill {Y : Type} (f : ℕ → Py Y) (z : Y) (n : ℕ) :
    (List.range n).foldlM (fun buf k => do
      let _ ← idx buf k
      let y ← f k
      setIdx buf k y) (List.replicate n z) = (List.range n).mapM f := by
  have key : ∀ (m j : ℕ) (done : List Y), done.length = j →
      (List.range' j m).foldlM (fun buf k => do
        let _ ← idx buf k
        let y ← f k
        setIdx buf k y) (done ++ List.replicate m z) = (do
          let r ← (List.range' j m).mapM f
          pure (done ++ r)) := by
    intro m
    induction m with
    | zero => intro j done _; simp
    | succ m ih =>
      intro j done hd
      have h1 : idx (done ++ List.replicate (m + 1) z) j = .ok z := by
        unfold idx
        rw [List.getElem?_append_right (by omega), hd, Nat.sub_self, List.replicate_succ, List.getElem?_cons_zero]
      rw [List.range'_succ, List.foldlM_cons, List.mapM_cons, h1, py_ok_bind]
      cases hf : f j with
      | error e => rfl
      | ok y =>
        have h2 : setIdx (done ++ List.replicate (m + 1) z) j y = .ok ((done ++ [y]) ++ List.replicate m z) := by
          unfold setIdx
          rw [if_pos (by simp; omega), List.set_append_right _ _ (by omega), hd, Nat.sub_self, List.replicate_succ, List.set_cons_zero,
            List.append_assoc]
          rfl
        rw [py_ok_bind, h2, py_ok_bind, ih (j + 1) (done ++ [y]) (by simp [hd]), py_ok_bind]
        cases (List.range' (j + 1) m).mapM f with
        | error e => rfl
        | ok r =>
          show Except.ok _ = Except.ok _
          rw [List.append_assoc]
          rfl
  have := key n 0 [] rfl
  rw [← List.range_eq_range'] at this
  rw [List.nil_append] at this
  rw [this]
  cases (List.range n).mapM f <;> rfl

variable {V W : Type} [AddCommGroup V] [Module ℝ V] [AddCommGroup W] [Module ℝ W] [Cells V] [Cells W] [LawfulCells V] [LawfulCells W]

/-- What `gradient` does to memory, after the optional evaluation. -/
theorem hGradBody_ok {sh : HShape V W} (hsh : sh.Lawful) {h : Heap} {o : HVarGP V W} {v : VarGP V W} (hi : o.Is h v) {x : HArr} {X : List ℝ}
    (hx : Holds h x X) :
    h <+: (exec (o.hGradBody sh x) h).2 ∧ match v.gradBody sh.toShape X with
      | .error e => (exec (o.hGradBody sh x) h).1 = .error e
      | .ok G => ∃ g : HArr, (exec (o.hGradBody sh x) h).1 = .ok g ∧ Holds (exec (o.hGradBody sh x) h).2 g G ∧ h.length ≤ g.loc := by
  unfold HVarGP.hGradBody VarGP.gradBody
  rw [exec_bind, hi.dim_n, hi.dt]
  have hu := hsh.unpackG h x X v.dim_n hx
  cases hU : sh.unpackG v.dim_n X with
  | error e => rw [hU] at hu; simp only at hu; rw [hu]; exact ⟨List.prefix_refl _, rfl⟩
  | ok AB =>
  obtain ⟨A, B⟩ := AB
  rw [hU] at hu
  obtain ⟨a, b, hu, hA, hB⟩ := hu
  rw [hu, next_ok, py_ok_bind]
  have hc := hi.cache
  simp only
  rcases hoc : o.cache with _ | c <;> rcases hvc : v.cache with _ | c' <;> rw [hoc, hvc] at hc <;> simp only at hc ⊢
  · exact ⟨List.prefix_refl _, rfl⟩
  have hf := filling_zeros (V := W) (W := V) h v.dim_n
  rw [exec_bind, exec_zeros, next_ok, exec_bind, exec_zeros, next_ok]
  simp only at hf
  set h1 := h ++ [List.replicate (v.dim_n * Cells.width W) 0] ++ [List.replicate (v.dim_n * Cells.width V) (0 : ℝ)] with hh1
  set p : HArr := ⟨h.length, 0, v.dim_n, Cells.width W⟩ with hhp
  set q : HArr := ⟨(h ++ [List.replicate (v.dim_n * Cells.width W) (0 : ℝ)]).length, 0, v.dim_n, Cells.width V⟩ with hhq
  have h01 : h <+: h1 := by rw [hh1, List.append_assoc]; exact List.prefix_append _ _
  have hp : h.length ≤ p.loc := le_refl _
  have hq : h.length ≤ q.loc := by simp [hhq]
  have hpq : p.loc ≠ q.loc := by simp [hhp, hhq]
  have safe : ∀ {T : Type} [Cells T] {r : HArr} {l : List T}, Holds h r l → Safe h1 p q r l := fun hr =>
    ⟨hr.mono h01, by have := hr.loc_lt; omega, by have := hr.loc_lt; omega⟩
  have hI : SafePiece h1 p q o.inverse_sigma v.model.inverse_sigma :=
    ⟨(Reads.mono hi.inverse_sigma h01).1, by have := hi.inverse_sigma.2; omega, by have := hi.inverse_sigma.2; omega⟩
  have key := loop_turns hpq (fun k => k) (fun k => k) (o.hGradTurn sh c a b p q) (fun k _ => v.gradRow sh.toShape c' A B k) (List.range v.dim_n)
    (fun t htm => by
      have ht : t < v.dim_n := by simpa using htm
      refine ⟨ht, ht, ?_⟩
      rintro h ms y hf hn hx
      have hfp : p.n = v.dim_n := rfl
      have hfq : q.n = v.dim_n := rfl
      have s1 := safe hA
      have s2 := safe hc.st
      have s3 := safe hc.mt
      have s4 := safe hc.lamt
      have s5 := safe hc.Efx
      have s6 := safe hB
      have s7 := safe hc.Edf
      have s8 := safe hc.psit
      unfold HVarGP.hGradTurn VarGP.gradRow
      refine turn_view (hf.other s1.holds s1.ne1 s1.ne2) _ _ fun v1 e1 => ?_
      refine turn_view (hf.other s2.holds s2.ne1 s2.ne2) _ _ fun v2 e2 => ?_
      refine turn_view (hf.other s3.holds s3.ne1 s3.ne2) _ _ fun v3 e3 => ?_
      refine turn_view (hf.other s4.holds s4.ne1 s4.ne2) _ _ fun v4 e4 => ?_
      refine turn_view (hf.other s5.holds s5.ne1 s5.ne2) _ _ fun v5 e5 => ?_
      refine turn_view (hf.other s6.holds s6.ne1 s6.ne2) _ _ fun v6 e6 => ?_
      refine turn_view (hf.other s7.holds s7.ne1 s7.ne2) _ _ fun v7 e7 => ?_
      refine turn_view (hf.other s8.holds s8.ne1 s8.ne2) _ _ fun v8 e8 => ?_
      simp only [exec_bind, next_ok, exec_get (hI.get hf), s1.get hf e1, s2.get hf e2, s3.get hf e3, s4.get hf e4, s5.get hf e5, s6.get hf e6,
        s7.get hf e7, s8.get hf e8, s4.get' hf e4, exec_set_ok (show t < p.n from ht), exec_set_ok (show t < q.n from ht)]
      rfl) h1 _ hf (by simp)
  rw [foldlM_fill] at key
  rw [exec_bind]
  cases hR : (List.range v.dim_n).mapM (v.gradRow sh.toShape c' A B) with
  | error e =>
    rw [hR] at key
    obtain ⟨h2, ms', h3, h4⟩ := key
    rw [h3]
    exact ⟨h4.keeps h01 hp hq, rfl⟩
  | ok rows =>
    rw [hR] at key
    obtain ⟨h2, h3, h4, h5⟩ := key
    have h02 := h4.keeps h01 hp hq
    rw [h3, next_ok, exec_bind, exec_all h4.fst, next_ok, exec_bind, exec_all h4.snd, next_ok]
    simp only [exec_fresh, py_ok_bind]
    have hG : sh.ravelA ((rows.map Prod.fst).map (v.dt • ·)) ++ sh.ravelB ((rows.map Prod.snd).map (v.dt • ·))
        = sh.ravelA (rows.map fun r => v.dt • r.1) ++ sh.ravelB (rows.map fun r => v.dt • r.2) := by
      rw [List.map_map, List.map_map]
      rfl
    rw [hG]
    exact ⟨h02.trans (List.prefix_append _ _), _, rfl, holds_fresh _ _, h02.length_le⟩

end

end VGPA
