import Verif.Props.LikeN

/-!
# C133: observation values and times of different number
-/

namespace VGPA

noncomputable section

open Matrix

variable {d n k l : ℕ}

theorem bcast_one_left {α β γ : Type} (f : α → β → γ) (x : α) (ys : List β) : bcast f [x] ys = .ok (ys.map (f x)) := by
  unfold bcast
  match ys with
  | [] => rfl
  | [y] => rfl
  | _ :: _ :: _ => rfl

theorem bcast_one_right {α β γ : Type} (f : α → β → γ) (xs : List α) (y : β) : bcast f xs [y] = .ok (xs.map (f · y)) := by
  unfold bcast
  match xs with
  | [] => rfl
  | [x] => rfl
  | _ :: _ :: _ => rfl

theorem bcast_error {α β γ : Type} (f : α → β → γ) (xs : List α) (ys : List β) (h : xs.length ≠ ys.length) (h1 : xs.length ≠ 1) (h2 : ys.length ≠ 1) :
    bcast f xs ys = .error .valueError := by
  unfold bcast
  rw [if_neg h]
  match xs, ys, h1, h2 with
  | [], [], _, _ => exact absurd rfl h
  | [], _ :: _ :: _, _, _ => rfl
  | _ :: _ :: _, [], _, _ => rfl
  | _ :: _ :: _, _ :: _ :: _, _, _ => rfl

/-- C133, what holds in one dimension: if there are two or more values (or none), two or more times (or none), and not equally many of both, then both the energy and its gradients raise `ValueError`. Missing: a
single value or a single time, see the theorems below. -/
theorem C133_rejected_1d_partial (H R : ℝ) (values : List ℝ) (t : Fin l → Fin n) (m s : Fin n → ℝ) (h : values.length ≠ l) (h1 : values.length ≠ 1) (h2 : l ≠ 1) :
    ∃ o, Like1.init values (List.ofFn fun j => (t j : ℕ)) R (some H) = .ok o ∧ o.gauss (List.ofFn m) (List.ofFn s) = .error .valueError
      ∧ o.gradients (List.ofFn m) (List.ofFn s) = .error .valueError := by
  refine ⟨_, rfl, ?_, ?_⟩
  · unfold Like1.gauss
    simp only [fancy_ofFn, py_ok_bind]
    rw [bcast_error _ _ _ (by simpa using h) h1 (by simpa using h2)]
    rfl
  · unfold Like1.gradients
    simp only [fancy_ofFn, py_ok_bind]
    rw [bcast_error _ _ _ (by simpa using h) h1 (by simpa using h2)]
    rfl

/-- C133, what holds in `d` dimensions: the same. -/
theorem C133_rejected_nd_partial (H R : Matrix (Fin d) (Fin d) ℝ) (values : List (Fin d → ℝ)) (t : Fin l → Fin n) (m : Fin n → Fin d → ℝ) (s : Fin n → Matrix (Fin d) (Fin d) ℝ)
    (h : values.length ≠ l) (h1 : values.length ≠ 1) (h2 : l ≠ 1) :
    ∃ o, LikeN.init values (List.ofFn fun j => (t j : ℕ)) R (some H) = .ok o ∧ o.gauss (List.ofFn m) (List.ofFn s) = .error .valueError
      ∧ o.gradients (List.ofFn m) = .error .valueError := by
  refine ⟨_, rfl, ?_, ?_⟩
  · unfold LikeN.gauss
    simp only [fancy_ofFn, py_ok_bind]
    rw [bcast_error _ _ _ (by simpa using h) h1 (by simpa using h2)]
    rfl
  · unfold LikeN.gradients
    simp only [fancy_ofFn, py_ok_bind]
    rw [bcast_error _ _ _ (by simpa using h) h1 (by simpa using h2)]
    rfl

/-- C133 fails in one dimension for a single value: it is taken as observed at all times, in the energy and in the gradients. -/
theorem C133_one_value_1d_violated (H R y : ℝ) (t : Fin l → Fin n) (m s : Fin n → ℝ) :
    ∃ o o', Like1.init [y] (List.ofFn fun j => (t j : ℕ)) R (some H) = .ok o ∧ Like1.init (List.replicate l y) (List.ofFn fun j => (t j : ℕ)) R (some H) = .ok o'
      ∧ (∃ E, o.gauss (List.ofFn m) (List.ofFn s) = .ok E) ∧ o.gauss (List.ofFn m) (List.ofFn s) = o'.gauss (List.ofFn m) (List.ofFn s)
      ∧ o.gradients (List.ofFn m) (List.ofFn s) = o'.gradients (List.ofFn m) (List.ofFn s) := by
  have hb : ∀ (f : ℝ → ℝ → ℝ) (x : Fin l → ℝ), bcast f [y] (List.ofFn x) = bcast f (List.replicate l y) (List.ofFn x) := by
    intro f x
    rw [bcast_one_left, ← List.ofFn_const, bcast_ofFn, List.map_ofFn]
    rfl
  refine ⟨_, _, rfl, rfl, ?_, ?_, ?_⟩
  · unfold Like1.gauss
    simp only [fancy_ofFn, py_ok_bind, zipWith_ofFn, bcast_one_left, List.map_ofFn, bcast_ofFn]
    exact ⟨_, rfl⟩
  · unfold Like1.gauss
    simp only [fancy_ofFn, py_ok_bind, hb]
  · unfold Like1.gradients
    simp only [fancy_ofFn, py_ok_bind, hb]

/-- C133 fails in `d` dimensions for a single value: it is taken as observed at all times, but the normalising constant of the density is counted only once. -/
theorem C133_one_value_nd_violated {R : Matrix (Fin d) (Fin d) ℝ} (hR : R.PosDef) (y : Fin d → ℝ) (t : Fin l → Fin n) (hk : l ≤ n) (m : Fin n → Fin d → ℝ) (s : Fin n → Matrix (Fin d) (Fin d) ℝ) :
    ∃ o o' E, LikeN.init [y] (List.ofFn fun j => (t j : ℕ)) R (some 1) = .ok o ∧ LikeN.init (List.replicate l y) (List.ofFn fun j => (t j : ℕ)) R (some 1) = .ok o'
      ∧ o'.gauss (List.ofFn m) (List.ofFn s) = .ok E ∧ o.gauss (List.ofFn m) (List.ofFn s) = .ok (E - (l - 1) / 2 * (d * Real.log (2 * Real.pi) + Real.log R.det))
      ∧ o.gradients (List.ofFn m) = o'.gradients (List.ofFn m) := by
  have hb : ∀ (f : (Fin d → ℝ) → (Fin d → ℝ) → Fin d → ℝ) (x : Fin l → Fin d → ℝ), bcast f [y] (List.ofFn x) = bcast f (List.replicate l y) (List.ofFn x) := by
    intro f x
    rw [bcast_one_left, ← List.ofFn_const, bcast_ofFn, List.map_ofFn]
    rfl
  have hE := likeN_gauss_eq hR (fun _ : Fin l => y) t hk m s
  rw [List.ofFn_const] at hE
  refine ⟨_, _, _, rfl, rfl, hE, ?_, ?_⟩
  · rw [LikeN.gauss] at hE ⊢
    simp only [fancy_ofFn, py_ok_bind, hb] at hE ⊢
    revert hE
    rcases bcast (fun y m : Fin d → ℝ => y - m) (List.replicate l y) (List.ofFn fun j => m (t j)) with e | D
    · intro h
      cases h
    simp only [py_ok_bind]
    rcases cholInv R with e | ⟨P, C⟩
    · intro h
      cases h
    simp only [py_ok_bind]
    generalize hF : List.foldlM (m := Py) (fun (E : ℝ) n => do
      let z ← idx (List.map (fun w => w ᵥ* Cᵀ) (List.map (fun x => x ᵥ* 1) D)) n
      let zn_sq := z ⬝ᵥ z
      let sd ← idx (List.map Matrix.diag (List.ofFn s)) n
      pure (E + (zn_sq + P.diag ⬝ᵥ sd))) 0.0 (List.range (List.ofFn fun j => (t j : ℕ)).length) = F
    rcases F with e | F
    · intro h
      cases h
    simp only [py_ok_bind, C09_matrix R hR]
    intro h
    injection h with h
    show Except.ok _ = Except.ok _
    congr 1
    rw [← h]
    have h2 : (2.0 : ℝ) = 2 := by norm_num
    have h5 : (0.5 : ℝ) = 1 / 2 := by norm_num
    simp only [List.length_replicate, List.length_singleton, log2pi, h2, h5]
    push_cast
    ring
  · unfold LikeN.gradients
    simp only [fancy_ofFn, py_ok_bind, hb]

/-- C133 fails in one dimension for a single time and two or more values: the energy is that of all values observed at this time, but the normalising constant of the density is counted only once; the gradients
raise `ValueError`. -/
theorem C133_one_time_1d_violated (H R : ℝ) (y : Fin k → ℝ) (hk : 2 ≤ k) (t : Fin n) (m s : Fin n → ℝ) :
    ∃ o o' E, Like1.init (List.ofFn y) [(t : ℕ)] R (some H) = .ok o ∧ Like1.init (List.ofFn y) (List.replicate k (t : ℕ)) R (some H) = .ok o'
      ∧ o'.gauss (List.ofFn m) (List.ofFn s) = .ok E ∧ o.gauss (List.ofFn m) (List.ofFn s) = .ok (E - (k - 1) / 2 * (Real.log (2 * Real.pi) + Real.log R))
      ∧ o.gradients (List.ofFn m) (List.ofFn s) = .error .valueError := by
  have f1 : ∀ x : Fin n → ℝ, fancy (List.ofFn x) [(t : ℕ)] = .ok [x t] := fun x => by
    have := fancy_ofFn x (fun _ : Fin 1 => t)
    simpa using this
  have fk : ∀ x : Fin n → ℝ, fancy (List.ofFn x) (List.replicate k (t : ℕ)) = .ok (List.ofFn fun _ : Fin k => x t) := fun x => by
    have := fancy_ofFn x (fun _ : Fin k => t)
    rwa [List.ofFn_const] at this
  have h2 : (2.0 : ℝ) = 2 := by norm_num
  have h5 : (0.5 : ℝ) = 1 / 2 := by norm_num
  have hE : ∃ E, (⟨List.ofFn y, List.replicate k (t : ℕ), R, H⟩ : Like1).gauss (List.ofFn m) (List.ofFn s) = .ok E := by
    unfold Like1.gauss
    simp only [fk, py_ok_bind, zipWith_ofFn, bcast_ofFn]
    exact ⟨_, rfl⟩
  obtain ⟨E, hE⟩ := hE
  refine ⟨_, _, E, rfl, rfl, hE, ?_, ?_⟩
  · unfold Like1.gauss at hE ⊢
    simp only [fk, py_ok_bind, zipWith_ofFn, bcast_ofFn] at hE
    injection hE with hE
    rw [← hE]
    simp only [f1, py_ok_bind, List.zipWith_cons_cons, List.zipWith_nil_left, bcast_one_right, List.map_ofFn]
    show Except.ok _ = Except.ok _
    congr 1
    simp only [List.length_replicate, List.length_singleton, log2pi, h2, h5, Function.comp_def]
    push_cast
    ring
  · unfold Like1.gradients
    simp only [f1, py_ok_bind, bcast_one_right, List.map_ofFn, Function.comp_def]
    have : ∀ (l : List ℝ) (v : Fin k → ℝ), fancySet l [(t : ℕ)] (List.ofFn v) = .error .valueError := by
      intro l v
      obtain ⟨q, rfl⟩ : ∃ q, k = q + 2 := ⟨k - 2, by omega⟩
      unfold fancySet
      rw [if_neg (by simp)]
      simp only [List.ofFn_succ]
    rw [this]
    rfl

/-- C133 fails in `d` dimensions for a single time and two or more values: only the first value counts, in the energy and in the gradients; the normalising constant is counted once per value. -/
theorem C133_one_time_nd_violated {R : Matrix (Fin d) (Fin d) ℝ} (hR : R.PosDef) (y : Fin (k + 1) → Fin d → ℝ) (t : Fin n) (m : Fin n → Fin d → ℝ) (s : Fin n → Matrix (Fin d) (Fin d) ℝ) :
    ∃ o o' E, LikeN.init (List.ofFn y) [(t : ℕ)] R (some 1) = .ok o ∧ LikeN.init [y 0] [(t : ℕ)] R (some 1) = .ok o'
      ∧ o'.gauss (List.ofFn m) (List.ofFn s) = .ok E ∧ o.gauss (List.ofFn m) (List.ofFn s) = .ok (E + k / 2 * (d * Real.log (2 * Real.pi) + Real.log R.det))
      ∧ o.gradients (List.ofFn m) = o'.gradients (List.ofFn m) := by
  have f1 : fancy (List.ofFn m) [(t : ℕ)] = .ok [m t] := by
    have := fancy_ofFn m (fun _ : Fin 1 => t)
    simpa using this
  have hn : 0 < n := lt_of_le_of_lt (Nat.zero_le _) t.2
  have hE := likeN_gauss_eq hR (fun _ : Fin 1 => y 0) (fun _ => t) hn m s
  obtain ⟨P, C, h1, -⟩ := C10_inverse R hR
  have h2 : (2.0 : ℝ) = 2 := by norm_num
  have h5 : (0.5 : ℝ) = 1 / 2 := by norm_num
  have ht : (List.ofFn fun _ : Fin 1 => (t : ℕ)) = [(t : ℕ)] := by simp
  have hy : (List.ofFn fun _ : Fin 1 => y 0) = [y 0] := by simp
  rw [ht, hy] at hE
  have s0 : ∀ i, idx (List.map Matrix.diag (List.ofFn s)) 0 = .ok i ↔ (s ⟨0, hn⟩).diag = i := by
    intro i
    obtain ⟨q, rfl⟩ : ∃ q, n = q + 1 := ⟨n - 1, by omega⟩
    rw [List.ofFn_succ]
    simp only [List.map_cons, idx, List.getElem?_cons_zero]
    constructor
    · intro h
      injection h
    · rintro rfl
      rfl
  refine ⟨_, _, _, rfl, rfl, hE, ?_, ?_⟩
  · rw [LikeN.gauss] at hE ⊢
    have x0 : ∀ (v : Fin d → ℝ) (vs : List (Fin d → ℝ)), idx (v :: vs) 0 = .ok v := fun _ _ => rfl
    have r1 : List.range 1 = [0] := rfl
    rw [List.ofFn_succ]
    simp only [f1, py_ok_bind, bcast_one_right, h1, C09_matrix R hR, List.length_cons, List.length_nil, Nat.zero_add, r1, List.foldlM_cons, List.foldlM_nil, List.map_cons, List.map_nil, List.length_ofFn, x0,
      (s0 _).2 rfl, py_pure] at hE ⊢
    injection hE with hE
    congr 1
    rw [← hE]
    have e1 : ((1 : ℕ) : ℝ) = 1 := Nat.cast_one
    have ek : ((k + 1 : ℕ) : ℝ) = (k : ℝ) + 1 := Nat.cast_succ k
    rw [e1, ek]
    have h0 : (0.0 : ℝ) = 0 := by norm_num
    simp only [log2pi, h0, h2, h5]
    generalize Real.log R.det = q
    generalize Real.log (2 * Real.pi) = p
    ring
  · unfold LikeN.gradients
    simp only [f1, py_ok_bind, bcast_one_right, h1, List.map_cons, List.map_nil, List.ofFn_succ, idx]
    rfl

/-! ## The hypotheses can be met -/

example := C133_rejected_1d_partial (1 : ℝ) 2 [1, 2, 3] ![(3 : Fin 9), 5] (fun _ => 0) (fun _ => 1) (by decide) (by decide) (by decide)

example := C133_rejected_nd_partial (1 : Matrix (Fin 3) (Fin 3) ℝ) 1 [![1, 2, 3], ![4, 5, 6], 0] ![(3 : Fin 9), 5] (fun _ => 0) (fun _ => 1) (by decide) (by decide) (by decide)

example := C133_one_value_1d_violated 1 2 3 ![(3 : Fin 9), 5] (fun _ => 0) (fun _ => 1)

example := C133_one_value_nd_violated (d := 3) Matrix.PosDef.one ![1, 2, 3] ![(3 : Fin 9), 5] (by norm_num) (fun _ => 0) (fun _ => 1)

example := C133_one_time_1d_violated 1 2 ![3, 4] le_rfl (5 : Fin 9) (fun _ => 0) (fun _ => 1)

example := C133_one_time_nd_violated (d := 3) Matrix.PosDef.one ![![1, 2, 3], ![4, 5, 6]] (5 : Fin 9) (fun _ => 0) (fun _ => 1)

end

end VGPA
