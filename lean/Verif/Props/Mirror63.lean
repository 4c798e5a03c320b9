import Verif.Props.Mirror
import Verif.Props.LinAlg

/-!
# C127 for Lorenz-63: changing the signs of the first two components
-/

namespace VGPA

noncomputable section

open Matrix Spec

/-! ## Changes of sign of the components -/

section
variable {d : ℕ} (e : ℕ → ℝ)

/-- The vector with component `i` multiplied by `e i`. -/
def sgV : (Fin d → ℝ) →ₗ[ℝ] (Fin d → ℝ) where
  toFun v := fun i => e i * v i
  map_add' v w := by funext i; simp [mul_add]
  map_smul' c v := by funext i; simp; ring

/-- The matrix with entry `i, j` multiplied by `e i` and `e j`. -/
def sgM : Matrix (Fin d) (Fin d) ℝ →ₗ[ℝ] Matrix (Fin d) (Fin d) ℝ where
  toFun M := Matrix.of fun i j => e i * M i j * e j
  map_add' v w := by ext i j; simp; ring
  map_smul' c v := by ext i j; simp; ring

theorem sgV_apply (v : Fin d → ℝ) (i : Fin d) : sgV e v i = e i * v i := rfl
theorem sgM_apply (M : Matrix (Fin d) (Fin d) ℝ) (i j : Fin d) : sgM e M i j = e i * M i j * e j := rfl

variable {e} (he : ∀ i, e i = 1 ∨ e i = -1)
include he

theorem sg_sq (i : ℕ) : e i * e i = 1 := by rcases he i with h | h <;> rw [h] <;> norm_num

theorem sgM_mulVec (A : Matrix (Fin d) (Fin d) ℝ) (v : Fin d → ℝ) : sgM e A *ᵥ sgV e v = sgV e (A *ᵥ v) := by
  funext i
  simp only [Matrix.mulVec, dotProduct, sgV_apply, sgM_apply, Finset.mul_sum]
  refine Finset.sum_congr rfl fun j _ => ?_
  linear_combination (e i * A i j * v j) * sg_sq he j

theorem sgV_vecMul (A : Matrix (Fin d) (Fin d) ℝ) (v : Fin d → ℝ) : sgV e v ᵥ* sgM e A = sgV e (v ᵥ* A) := by
  funext i
  simp only [Matrix.vecMul, dotProduct, sgV_apply, sgM_apply, Finset.mul_sum]
  refine Finset.sum_congr rfl fun j _ => ?_
  linear_combination (v j * A j i * e i) * sg_sq he j

theorem sgM_mul (A B : Matrix (Fin d) (Fin d) ℝ) : sgM e A * sgM e B = sgM e (A * B) := by
  ext i j
  simp only [Matrix.mul_apply, sgM_apply, Finset.mul_sum, Finset.sum_mul]
  refine Finset.sum_congr rfl fun k _ => ?_
  linear_combination (e i * A i k * B k j * e j) * sg_sq he k

omit he in
theorem sgM_transpose (A : Matrix (Fin d) (Fin d) ℝ) : (sgM e A)ᵀ = sgM e Aᵀ := by
  ext i j
  simp only [Matrix.transpose_apply, sgM_apply]
  ring

omit he in
theorem sgM_vecMulVec (u v : Fin d → ℝ) : vecMulVec (sgV e u) (sgV e v) = sgM e (vecMulVec u v) := by
  ext i j
  simp only [Matrix.vecMulVec_apply, sgV_apply, sgM_apply]
  ring

theorem sgV_dot (u v : Fin d → ℝ) : sgV e u ⬝ᵥ sgV e v = u ⬝ᵥ v := by
  simp only [dotProduct, sgV_apply]
  refine Finset.sum_congr rfl fun j _ => ?_
  linear_combination (u j * v j) * sg_sq he j

theorem sgM_one : sgM e (1 : Matrix (Fin d) (Fin d) ℝ) = 1 := by
  ext i j
  rw [sgM_apply]
  by_cases h : i = j
  · subst h; simp [sg_sq he]
  · simp [h]

theorem sgM_diag (A : Matrix (Fin d) (Fin d) ℝ) : (sgM e A).diag = A.diag := by
  funext i
  simp only [Matrix.diag_apply, sgM_apply]
  linear_combination (A i i) * sg_sq he i

omit he in
theorem sgM_symLower (A : Matrix (Fin d) (Fin d) ℝ) : sgM e (symLower A) = symLower (sgM e A) := by
  ext i j
  simp only [sgM_apply, symLower, Matrix.of_apply]
  split
  · rfl
  · ring

/-- The inverse of a matrix that does not change with the signs does not change either. -/
theorem cholInv_sg {R X Y : Matrix (Fin d) (Fin d) ℝ} (hR : sgM e R = R) (h : cholInv R = .ok (X, Y)) : sgM e X = X ∧ X = Yᵀ * Y := by
  rcases hc : chol d R with - | L
  · simp [cholInv, cholInvFast, npCholesky, hc, bind, Except.bind] at h
  · rw [cholInv_eq hc] at h
    injection h with h
    injection h with h1 h2
    subst h1 h2
    obtain ⟨hL, -⟩ := chol_spec d R L hc
    refine ⟨?_, rfl⟩
    have hinv : (L⁻¹)ᵀ * L⁻¹ = (symLower R)⁻¹ := by rw [← hL, Matrix.mul_inv_rev, Matrix.transpose_nonsing_inv]
    have hS : sgM e (symLower R) = symLower R := by rw [sgM_symLower, hR]
    have hu : IsUnit (symLower R).det := by
      obtain ⟨-, -, -, hp⟩ := chol_spec d R L hc
      exact hp.isUnit.map Matrix.detMonoidHom
    rw [hinv]
    have : symLower R * sgM e (symLower R)⁻¹ = 1 := by
      calc symLower R * sgM e (symLower R)⁻¹ = sgM e (symLower R) * sgM e (symLower R)⁻¹ := by rw [hS]
        _ = 1 := by rw [sgM_mul he, Matrix.mul_nonsing_inv _ hu, sgM_one he]
    exact (Matrix.inv_eq_right_inv this).symm

/-! ### Packed parameters -/

omit he in
/-- The sign of entry `i` of the packed parameters for `n` grid points and `d` components: first the matrices, row after row, then the vectors. -/
def packSign (e : ℕ → ℝ) (d n i : ℕ) : ℝ := if i < n * d * d then e (i % (d * d) / d) * e (i % d) else e ((i - n * d * d) % d)

theorem packSign_pm (d n i : ℕ) : packSign e d n i = 1 ∨ packSign e d n i = -1 := by
  unfold packSign
  split
  · rcases he (i % (d * d) / d) with h | h <;> rcases he (i % d) with h' | h' <;> rw [h, h'] <;> norm_num
  · exact he _

omit he in
theorem reshape3_signs (n : ℕ) (x : List ℝ) : reshape3 n d ((signs (packSign e d n) x).take (n * d * d))
    = (reshape3 n d (x.take (n * d * d))).map (List.map (sgM e)) := by
  unfold reshape3
  simp only [List.length_take, signs_length]
  split
  · simp only [Except.map, List.map_map]
    congr 1
    refine List.map_congr_left fun k hk => ?_
    ext i j
    have hk := List.mem_range.1 hk
    have h1 : (i : ℕ) * d + j < d * d := by nlinarith [i.2, j.2]
    have h2 : k * (d * d) + (i * d + j) < n * d * d := by
      have : (k + 1) * (d * d) ≤ n * (d * d) := Nat.mul_le_mul_right _ hk
      rw [Nat.mul_assoc]; linarith
    have hd : 0 < d := i.pos
    have e1 : (k * (d * d) + (i * d + j)) % (d * d) = i * d + j := by
      rw [Nat.mul_comm, Nat.mul_add_mod]; exact Nat.mod_eq_of_lt h1
    have e2 : ((i : ℕ) * d + j) / d = i := by
      rw [Nat.mul_comm, Nat.mul_add_div hd, Nat.div_eq_of_lt j.2, Nat.add_zero]
    have e3 : (k * (d * d) + (i * d + j)) % d = j := by
      have : k * (d * d) + ((i : ℕ) * d + j) = d * (k * d + i) + j := by ring
      rw [this, Nat.mul_add_mod]; exact Nat.mod_eq_of_lt j.2
    have hg : ∀ l : List ℝ, (l.take (n * d * d)).getD (k * (d * d) + (i * d + j)) 0 = l.getD (k * (d * d) + (i * d + j)) 0 := fun l => by
      rw [List.getD_eq_getElem?_getD, List.getD_eq_getElem?_getD, List.getElem?_take_of_lt h2]
    simp only [Matrix.of_apply, Function.comp, sgM_apply, hg, signs_getD, packSign, if_pos h2, e1, e2, e3]
    ring
  · rfl

omit he in
theorem reshape2_signs (n : ℕ) (x : List ℝ) : reshape2 n d ((signs (packSign e d n) x).drop (n * d * d))
    = (reshape2 n d (x.drop (n * d * d))).map (List.map (sgV e)) := by
  unfold reshape2
  simp only [List.length_drop, signs_length]
  split
  · simp only [Except.map, List.map_map]
    congr 1
    refine List.map_congr_left fun k hk => ?_
    funext i
    have hg : ∀ l : List ℝ, (l.drop (n * d * d)).getD (k * d + i) 0 = l.getD (n * d * d + (k * d + i)) 0 := fun l => by
      rw [List.getD_eq_getElem?_getD, List.getD_eq_getElem?_getD, List.getElem?_drop]
    have e3 : (k * d + (i : ℕ)) % d = i := by
      rw [Nat.mul_comm, Nat.mul_add_mod]; exact Nat.mod_eq_of_lt i.2
    simp only [Function.comp, sgV_apply, hg, signs_getD, packSign]
    rw [if_neg (by omega), Nat.add_sub_cancel_left, e3]
  · rfl

theorem shapeSymN (hd : d ≠ 1) : ShapeSym (shapeN d) (sgV e) (sgM e) fun n => signs (packSign e d n) := by
  have hG : ∀ n x, (shapeN d).unpackG n (signs (packSign e d n) x) = ((shapeN d).unpackG n x).map fun r => (r.1.map (sgM e), r.2.map (sgV e)) := by
    intro n x
    simp only [shapeN, reshape3_signs, reshape2_signs]
    rcases reshape3 n d (x.take (n * d * d)) with er | a
    · rfl
    rcases reshape2 n d (x.drop (n * d * d)) with er | b
    · rfl
    rfl
  constructor
  · intro m a b
    simp only [shapeN, rhsN, sgM_mulVec he, ← map_neg, ← map_add]
  · intro s a n
    simp only [shapeN, rhsN, sgM_transpose, sgM_mul he, ← map_neg, ← map_add, ← map_sub]
  · intro v a l
    simp only [shapeN, rhsN, sgM_transpose, sgV_vecMul he, ← map_neg, ← map_add]
  · intro v a l
    simp only [shapeN, rhsN, sgM_transpose, sgM_mul he, ← map_neg, ← map_add]
  · intro i v m a b
    simp only [shapeN, sgM_mulVec he, ← map_neg, ← map_add, ← map_sub]
  · intro i a m s f b
    simp only [shapeN, sgM_mul he, sgM_vecMulVec, ← map_add, ← map_sub]
  · intro v l m p s
    simp only [shapeN, sgM_mul he, sgM_vecMulVec, ← map_smul, ← map_sub]
  · intro n x
    have := hG n x
    simp only [shapeN] at this ⊢
    rw [if_neg hd, if_neg hd]
    exact this
  · exact hG
  · intro n a b ha hb
    obtain ⟨a, rfl⟩ : ∃ f : Fin n → Matrix (Fin d) (Fin d) ℝ, a = List.ofFn f := ⟨fun i => a[i], by subst ha; simp⟩
    obtain ⟨b, rfl⟩ : ∃ f : Fin n → Fin d → ℝ, b = List.ofFn f := ⟨fun i => b[i], by subst hb; simp⟩
    obtain ⟨hl, -, h1⟩ := C58_pack_unpack_nd (n := n) hd a b
    have h2 := hG n (ravel3 (List.ofFn a) ++ ravel2 (List.ofFn b))
    rw [h1] at h2
    obtain ⟨a', b', -, h3, -, -, h4⟩ := (C58_unpack_pack_nd (n := n) hd (signs (packSign e d n) (ravel3 (List.ofFn a) ++ ravel2 (List.ofFn b)))).1
      (by rw [signs_length, hl])
    rw [h3] at h2
    simp only [Except.map, Except.ok.injEq, Prod.mk.injEq] at h2
    rw [h2.1, h2.2] at h4
    exact h4

end

/-! ## The energy of Lorenz-63 -/

namespace Spec

/-- The signs of the change `(x, y, z) ↦ (-x, -y, z)`. -/
def turnSign (i : ℕ) : ℝ := if i < 2 then -1 else 1

/-- The vector `v` after the change `(x, y, z) ↦ (-x, -y, z)`. -/
def turnV (v : Fin 3 → ℝ) : Fin 3 → ℝ := ![-v 0, -v 1, v 2]

/-- The matrix `M` after the change `(x, y, z) ↦ (-x, -y, z)`: the covariance matrix of the changed vector if `M` is that of the vector. -/
def turnM (M : Matrix (Fin 3) (Fin 3) ℝ) : Matrix (Fin 3) (Fin 3) ℝ := !![M 0 0, M 0 1, -M 0 2; M 1 0, M 1 1, -M 1 2; -M 2 0, -M 2 1, M 2 2]

end Spec

theorem turnSign_pm (i : ℕ) : turnSign i = 1 ∨ turnSign i = -1 := by
  unfold turnSign; split <;> simp

theorem turnV_eq : turnV = sgV turnSign := by
  funext v i
  rw [sgV_apply]
  fin_cases i <;> simp [turnV, turnSign]

theorem turnM_eq : turnM = sgM turnSign := by
  funext M
  ext i j
  rw [sgM_apply]
  fin_cases i <;> fin_cases j <;> simp [turnM, turnSign]

theorem energyDmDs_turn (th : Fin 3 → ℝ) (A : Matrix (Fin 3) (Fin 3) ℝ) (b m : Fin 3 → ℝ) (S : Matrix (Fin 3) (Fin 3) ℝ) (g : Fin 3 → ℝ) :
    L63.energyDmDs th (turnM A) (turnV b) (turnV m) (turnM S) g
      = ((L63.energyDmDs th A b m S g).1, turnV (L63.energyDmDs th A b m S g).2.1, turnM (L63.energyDmDs th A b m S g).2.2) := by
  have z : ∀ v : Fin 3 → ℝ, turnV v 0 = -v 0 ∧ turnV v 1 = -v 1 ∧ turnV v 2 = v 2 := fun v => ⟨rfl, rfl, rfl⟩
  have w : ∀ M : Matrix (Fin 3) (Fin 3) ℝ, turnM M 0 0 = M 0 0 ∧ turnM M 0 1 = M 0 1 ∧ turnM M 0 2 = -M 0 2 ∧ turnM M 1 0 = M 1 0 ∧ turnM M 1 1 = M 1 1
      ∧ turnM M 1 2 = -M 1 2 ∧ turnM M 2 0 = -M 2 0 ∧ turnM M 2 1 = -M 2 1 ∧ turnM M 2 2 = M 2 2 := fun M => ⟨rfl, rfl, rfl, rfl, rfl, rfl, rfl, rfl, rfl⟩
  simp only [L63.energyDmDs, show (2.0 : ℝ) = 2 by norm_num, show (4.0 : ℝ) = 4 by norm_num, show (0.5 : ℝ) = 1 / 2 by norm_num,
    (z b).1, (z b).2.1, (z b).2.2, (z m).1, (z m).2.1, (z m).2.2, (w A).1, (w A).2.1, (w A).2.2.1, (w A).2.2.2.1, (w A).2.2.2.2.1, (w A).2.2.2.2.2.1,
    (w A).2.2.2.2.2.2.1, (w A).2.2.2.2.2.2.2.1, (w A).2.2.2.2.2.2.2.2, (w S).1, (w S).2.1, (w S).2.2.1, (w S).2.2.2.2.1, (w S).2.2.2.2.2.1, (w S).2.2.2.2.2.2.2.2]
  refine Prod.ext ?_ (Prod.ext ?_ ?_)
  · funext i
    fin_cases i
    · simp; ring
    · simp; ring
    · simp; ring
  · funext i
    fin_cases i <;> simp [turnV, Matrix.vecHead, Matrix.vecTail] <;> ring
  · ext i j
    fin_cases i <;> fin_cases j <;> simp [turnM] <;> ring

theorem avgDrift_turn (th m : Fin 3 → ℝ) (S : Matrix (Fin 3) (Fin 3) ℝ) : L63.avgDrift th (turnV m) (turnM S) = turnV (L63.avgDrift th m S) := by
  funext i
  fin_cases i <;> simp [L63.avgDrift, turnV, turnM] <;> ring

theorem avgJac_turn (th m : Fin 3 → ℝ) : L63.avgJac th (turnV m) = turnM (L63.avgJac th m) := by
  ext i j
  fin_cases i <;> fin_cases j <;> simp [L63.avgJac, turnV, turnM]

theorem efgDriftTheta_turn (th : Fin 3 → ℝ) (A : Matrix (Fin 3) (Fin 3) ℝ) (b m : Fin 3 → ℝ) (S : Matrix (Fin 3) (Fin 3) ℝ) :
    L63.efgDriftTheta th (turnM A) (turnV b) (turnV m) (turnM S) = L63.efgDriftTheta th A b m S := by
  funext i
  fin_cases i <;> simp [L63.efgDriftTheta, turnV, turnM] <;> ring

/-- What turn `t` of the loop of `energy` stores, changed. -/
def turnRow (r : L63.Row) : L63.Row := ⟨r.Esde, r.Efg, turnV r.Ef, turnM r.Edf, turnV r.dm, turnM r.ds, r.dth⟩

theorem energyRow_turn (th g : Fin 3 → ℝ) (a s : List (Matrix (Fin 3) (Fin 3) ℝ)) (b m : List (Fin 3 → ℝ)) (k : ℕ) :
    L63.energyRow th g (a.map turnM) (b.map turnV) (m.map turnV) (s.map turnM) k = (L63.energyRow th g a b m s k).map turnRow := by
  unfold L63.energyRow
  simp only [idx_map]
  rcases idx a k with e | ak
  · rfl
  simp only [Except.map, py_ok_bind]
  rcases idx b k with e | bk
  · rfl
  simp only [py_ok_bind]
  rcases idx m k with e | mk
  · rfl
  simp only [py_ok_bind]
  rcases idx s k with e | sk
  · rfl
  simp only [py_ok_bind, py_pure, energyDmDs_turn, avgDrift_turn, avgJac_turn, efgDriftTheta_turn, turnRow]

/-- The energy of the changed moments and parameters: the same value, changed gradients. -/
theorem l63_energy_turn {G : Type} (p : L63 G) (a s : List (Matrix (Fin 3) (Fin 3) ℝ)) (b m : List (Fin 3 → ℝ)) (t : List ℕ) :
    p.sde.energy (a.map (sgM turnSign)) (b.map (sgV turnSign)) (m.map (sgV turnSign)) (s.map (sgM turnSign)) t
      = (p.sde.energy a b m s t).map (SdeTerms.mapBy (sgV turnSign) (sgM turnSign)) := by
  rw [← turnM_eq, ← turnV_eq]
  simp only [L63.sde, L63.energy]
  rcases p.base.timeWindow with e | tw
  · rfl
  simp only [py_ok_bind]
  rcases p.base.timeStep with e | dt
  · rfl
  simp only [py_ok_bind, funext (energyRow_turn p.theta p.sig_inv.diag a s b m), mapM_map_py]
  rcases (List.range tw.length).mapM (L63.energyRow p.theta p.sig_inv.diag a b m s) with e | rows
  · rfl
  simp only [Except.map, py_ok_bind, py_pure, SdeTerms.mapBy, List.map_map]
  rfl

/-! ## Likelihood and prior -/

theorem foldlM_map_py {α β : Type} {F F' : α → β → Py α} (g : α → α) (h : ∀ acc n, F' (g acc) n = (F acc n).map g) :
    ∀ (ns : List β) (acc : α), ns.foldlM F' (g acc) = (ns.foldlM F acc).map g
  | [], acc => rfl
  | n :: ns, acc => by
    rw [List.foldlM_cons, List.foldlM_cons, h]
    rcases F acc n with e | acc'
    · rfl
    exact foldlM_map_py g h ns acc'

section
variable {d : ℕ} {e : ℕ → ℝ} (he : ∀ i, e i = 1 ∨ e i = -1)
include he

theorem likeN_call_sg (L : LikeN d) (hn : sgM e L.obs_n = L.obs_n) (hh : sgM e L.obs_h = L.obs_h) (m : List (Fin d → ℝ)) (s : List (Matrix (Fin d) (Fin d) ℝ)) :
    ({ L with obs_v := L.obs_v.map (sgV e) } : LikeN d).gauss (m.map (sgV e)) (s.map (sgM e)) = L.gauss m s := by
  unfold LikeN.gauss
  simp only [fancy_map, List.length_map]
  rcases fancy m L.obs_t with er | mo
  · rfl
  simp only [Except.map, py_ok_bind]
  rw [bcast_map (f := fun y m : Fin d → ℝ => y - m) (f' := fun y m : Fin d → ℝ => y - m) (u := sgV e) (fun x y => by rw [map_sub])]
  rcases bcast (fun y m : Fin d → ℝ => y - m) L.obs_v mo with er | D
  · rfl
  simp only [Except.map, py_ok_bind]
  rcases hc : cholInv L.obs_n with er | ⟨Xi, Y⟩
  · rfl
  obtain ⟨hX, hY⟩ := cholInv_sg he hn hc
  simp only [py_ok_bind]
  congr 1
  · congr 1
    funext E n
    simp only [idx_map, List.map_map]
    rcases idx D n with er | x
    · rfl
    simp only [Except.map, py_ok_bind]
    rcases idx s n with er | S
    · rfl
    have q : ∀ w : Fin d → ℝ, (w ᵥ* Yᵀ) ⬝ᵥ (w ᵥ* Yᵀ) = w ⬝ᵥ (Xi *ᵥ w) := by
      intro w
      rw [hY, Matrix.vecMul_transpose, ← Matrix.mulVec_mulVec, Matrix.dotProduct_mulVec w, Matrix.vecMul_transpose]
    simp only [py_ok_bind, Function.comp, sgM_diag he, q]
    have hw : sgV e x ᵥ* L.obs_h = sgV e (x ᵥ* L.obs_h) := by
      rw [← sgV_vecMul he, hh]
    have hz : Xi *ᵥ sgV e (x ᵥ* L.obs_h) = sgV e (Xi *ᵥ (x ᵥ* L.obs_h)) := by
      rw [← sgM_mulVec he, hX]
    rw [hw, hz, sgV_dot he]

theorem likeN_grad_sg (L : LikeN d) (hn : sgM e L.obs_n = L.obs_n) (hh : sgM e L.obs_h = L.obs_h) (m : List (Fin d → ℝ)) :
    ({ L with obs_v := L.obs_v.map (sgV e) } : LikeN d).gradients (m.map (sgV e))
      = (L.gradients m).map fun r => (r.1.map (sgV e), r.2.1.map (sgM e), r.2.2) := by
  unfold LikeN.gradients
  simp only [fancy_map, List.length_map]
  rcases fancy m L.obs_t with er | mo
  · rfl
  simp only [Except.map, py_ok_bind]
  rw [bcast_map (f := fun y m : Fin d → ℝ => y - m) (f' := fun y m : Fin d → ℝ => y - m) (u := sgV e) (fun x y => by rw [map_sub])]
  rcases bcast (fun y m : Fin d → ℝ => y - m) L.obs_v mo with er | D
  · rfl
  simp only [Except.map, py_ok_bind]
  rcases hc : cholInv L.obs_n with er | ⟨Xi, Y⟩
  · rfl
  obtain ⟨hX, -⟩ := cholInv_sg he hn hc
  simp only [py_ok_bind]
  have e0 : (List.replicate m.length (0 : Fin d → ℝ), List.replicate m.length (0 : Matrix (Fin d) (Fin d) ℝ))
      = (fun r : List (Fin d → ℝ) × List (Matrix (Fin d) (Fin d) ℝ) => (r.1.map (sgV e), r.2.map (sgM e)))
        (List.replicate m.length (0 : Fin d → ℝ), List.replicate m.length (0 : Matrix (Fin d) (Fin d) ℝ)) := by simp
  conv_lhs => rw [e0]
  rw [foldlM_map_py (fun r : List (Fin d → ℝ) × List (Matrix (Fin d) (Fin d) ℝ) => (r.1.map (sgV e), r.2.map (sgM e)))
      (F := fun (acc : List (Fin d → ℝ) × List (Matrix (Fin d) (Fin d) ℝ)) n => do
        let tn ← idx L.obs_t n
        let w ← idx (D.map fun x => x ᵥ* L.obs_h) n
        let dm ← setIdx acc.1 tn ((-(L.obs_hᵀ) * Xi) *ᵥ w)
        let ds ← setIdx acc.2 tn ((0.5 : ℝ) • (L.obs_hᵀ * Xi * L.obs_h))
        pure (dm, ds))]
  · generalize List.foldlM (m := Py) _ _ (List.range L.obs_t.length) = r
    rcases r with er | r
    · rfl
    simp [Except.map, py_ok_bind, py_pure]
  · intro acc n
    rcases idx L.obs_t n with er | tn
    · rfl
    simp only [py_ok_bind, idx_map, List.map_map]
    rcases idx D n with er | x
    · rfl
    simp only [Except.map, py_ok_bind, Function.comp]
    have hw : sgV e x ᵥ* L.obs_h = sgV e (x ᵥ* L.obs_h) := by
      rw [← sgV_vecMul he, hh]
    have hz : (-(L.obs_hᵀ) * Xi) *ᵥ sgV e (x ᵥ* L.obs_h) = sgV e ((-(L.obs_hᵀ) * Xi) *ᵥ (x ᵥ* L.obs_h)) := by
      rw [← sgM_mulVec he, ← sgM_mul he, map_neg, ← sgM_transpose, hh, hX]
    have hs : ((0.5 : ℝ) • (L.obs_hᵀ * Xi * L.obs_h)) = sgM e ((0.5 : ℝ) • (L.obs_hᵀ * Xi * L.obs_h)) := by
      rw [map_smul, ← sgM_mul he, ← sgM_mul he, ← sgM_transpose, hh, hX]
    rw [hw, hz, setIdx_map]
    rcases setIdx acc.1 tn ((-(L.obs_hᵀ) * Xi) *ᵥ (x ᵥ* L.obs_h)) with er | dm
    · rfl
    simp only [Except.map, py_ok_bind]
    conv_lhs => rw [hs]
    rw [setIdx_map]
    rcases setIdx acc.2 tn ((0.5 : ℝ) • (L.obs_hᵀ * Xi * L.obs_h)) with er | ds
    · rfl
    rfl

end

/-! ## C127 for Lorenz-63 -/

namespace Spec

/-- Packed parameters after the change `(x, y, z) ↦ (-x, -y, z)`: `n` matrices, row after row, then `n` vectors. Entries `0, 2` and `1, 2` and `2, 0` and `2, 1` of
each matrix, and the first two components of each vector, have the opposite sign. -/
def turnParams (n : ℕ) (x : List ℝ) : List ℝ :=
  x.mapIdx fun i v => if i < 9 * n then (if i % 9 ∈ [2, 5, 6, 7] then -v else v) else if (i - 9 * n) % 3 = 2 then v else -v

/-- `o'` is the problem `o` for the Lorenz-63 model after the change `(x, y, z) ↦ (-x, -y, z)`. The process is the same (its stored path, of which `VarGP`
takes the length, is arbitrary in the second), and so are the integrators, the time step and the observation times; observations, initial mean and prior
mean are changed. The noise of the process, the initial variance, the observation noise and the observation operator do not couple the first two components
with the third, so that the change does not affect them; this holds of diagonal matrices, and `setup` makes no others. -/
structure Turned (G : Type) (o o' : VarGP (Fin 3 → ℝ) (Matrix (Fin 3) (Fin 3) ℝ)) : Prop where
  process : ∃ p : L63 G, o.model = p.sde ∧ turnM p.sigma = p.sigma ∧ turnM p.sig_inv = p.sig_inv
  same : ∃ q, o'.model = { o.model with sample_path := q }
  like : ∃ L : LikeN 3, o.likelihood = L.toIf ∧ o'.likelihood = LikeN.toIf { L with obs_v := L.obs_v.map turnV } ∧ turnM L.obs_n = L.obs_n ∧ turnM L.obs_h = L.obs_h
  prior : ∃ K : PriorN 3, o.kl0 = K.gauss ∧ o'.kl0 = PriorN.gauss { K with mu0 := turnV K.mu0 }
  m0 : o'.m0 = turnV o.m0
  s0 : o'.s0 = o.s0 ∧ turnM o.s0 = o.s0
  obs_y : o'.obs_y = o.obs_y.map turnV
  obs_t : o'.obs_t = o.obs_t
  grid : o'.dim_n = o.dim_n ∧ o'.dt = o.dt
  solvers : o'.fwd_ode = o.fwd_ode ∧ o'.bwd_ode = o.bwd_ode
  stored : o'.cache = o.cache.map fun c =>
    ⟨c.mt.map turnV, c.st.map turnM, c.Efx.map turnV, c.Edf.map turnM, c.lamt.map turnV, c.psit.map turnM⟩

end Spec

theorem turnParams_eq (n : ℕ) : turnParams n = signs (packSign turnSign 3 n) := by
  funext x
  unfold turnParams signs
  congr 1
  funext i v
  unfold packSign
  rw [show n * 3 * 3 = 9 * n by ring, show 3 * 3 = 9 from rfl]
  split
  · have h9 : i % 9 < 9 := Nat.mod_lt _ (by norm_num)
    have h3 : i % 3 = i % 9 % 3 := (Nat.mod_mod_of_dvd i (by norm_num)).symm
    rw [h3]
    generalize i % 9 = r at h9
    interval_cases r <;> simp [turnSign]
  · have h3 : (i - 9 * n) % 3 < 3 := Nat.mod_lt _ (by norm_num)
    generalize (i - 9 * n) % 3 = r at h3
    interval_cases r <;> simp [turnSign]

/-- Packing and changing commute. -/
theorem turnParams_pack (n : ℕ) (a : Fin n → Matrix (Fin 3) (Fin 3) ℝ) (b : Fin n → Fin 3 → ℝ) :
    turnParams n (ravel3 (List.ofFn a) ++ ravel2 (List.ofFn b)) = ravel3 (List.ofFn fun k => turnM (a k)) ++ ravel2 (List.ofFn fun k => turnV (b k)) := by
  have := (shapeSymN (d := 3) turnSign_pm (by norm_num)).rav n (List.ofFn a) (List.ofFn b) (by simp) (by simp)
  simp only [← turnParams_eq, ← turnM_eq, ← turnV_eq, List.map_ofFn] at this
  exact this.symm

theorem Spec.Turned.pair {G : Type} {o o' : VarGP (Fin 3 → ℝ) (Matrix (Fin 3) (Fin 3) ℝ)} (h : Turned G o o') :
    SymPair (sgV turnSign) (sgM turnSign) o o' := by
  obtain ⟨q, hq⟩ := h.same
  obtain ⟨L, hL, hL', hn, hh⟩ := h.like
  obtain ⟨K, hK, hK'⟩ := h.prior
  obtain ⟨p, hp, hs, hi⟩ := h.process
  rw [turnM_eq] at hn hh hs hi
  rw [turnV_eq] at hL'
  refine ⟨h.grid.1, h.grid.2, h.solvers.1, h.solvers.2, h.obs_t, ?_, ?_, ?_, ?_, ?_, ?_, ?_, ?_, ?_⟩
  · rw [h.m0, turnV_eq]
  · rw [h.s0.1, ← turnM_eq, h.s0.2]
  · rw [hq, hp]; exact hs.symm
  · rw [hq, hp]; exact hi.symm
  · rw [h.stored, turnV_eq, turnM_eq]; rfl
  · rw [hK, hK', h.m0, h.s0.1, turnV_eq]
    unfold PriorN.gauss
    simp only [← map_sub, sgV_dot turnSign_pm]
  · intro a b m s
    rw [hq, hp]
    exact l63_energy_turn p a s b m o.obs_t
  · intro m s
    rw [hL, hL']
    exact likeN_call_sg turnSign_pm L hn hh m s
  · intro m s
    rw [hL, hL']
    simp only [LikeN.toIf]
    rw [likeN_grad_sg turnSign_pm L hn hh m]
    rcases L.gradients m with e | r
    · rfl
    rfl

theorem Spec.Turned.after {G : Type} {o o' q q' : VarGP (Fin 3 → ℝ) (Matrix (Fin 3) (Fin 3) ℝ)} (h : Turned G o o')
    (hq : SymPair (sgV turnSign) (sgM turnSign) q q')
    (e : ∃ c, q = { o with cache := c }) (e' : ∃ c, q' = { o' with cache := c }) : Turned G q q' := by
  obtain ⟨c, rfl⟩ := e
  obtain ⟨c', rfl⟩ := e'
  refine { h with stored := ?_ }
  rw [hq.cache, turnV_eq, turnM_eq]
  rfl

/-- C127 for Lorenz-63: at changed parameters the changed problem has the same free energy, or raises the same exception; its gradient is the changed
gradient; and the objects left behind are again related in this way. -/
theorem C127_free_energy_63 {G : Type} {o o' : VarGP (Fin 3 → ℝ) (Matrix (Fin 3) (Fin 3) ℝ)} (h : Turned G o o') (x : List ℝ) :
    (o'.freeEnergy (shapeN 3) (turnParams o.dim_n x)).1 = (o.freeEnergy (shapeN 3) x).1
      ∧ Turned G (o.freeEnergy (shapeN 3) x).2 (o'.freeEnergy (shapeN 3) (turnParams o.dim_n x)).2
      ∧ ∀ ev, (o'.gradient (shapeN 3) (turnParams o.dim_n x) ev).1 = (o.gradient (shapeN 3) x ev).1.map (turnParams o.dim_n)
        ∧ Turned G (o.gradient (shapeN 3) x ev).2 (o'.gradient (shapeN 3) (turnParams o.dim_n x) ev).2 := by
  have hS := shapeSymN (d := 3) turnSign_pm (by norm_num)
  rw [turnParams_eq]
  obtain ⟨h1, h2⟩ := freeEnergy_sym hS h.pair x
  refine ⟨h1, h.after h2 (freeEnergy_cache _ _ _) (freeEnergy_cache _ _ _), fun ev => ?_⟩
  obtain ⟨h3, h4⟩ := gradient_sym hS h.pair x ev
  exact ⟨h3, h.after h4 (gradient_cache _ _ _ _) (gradient_cache _ _ _ _)⟩

theorem initializationN_turn {fit : List ℝ → List (Fin 3 → ℝ) → ℝ → Fin 3 → ℝ} (hfit : ∀ xs ys t, fit xs (ys.map turnV) t = turnV (fit xs ys t))
    {G : Type} {o o' : VarGP (Fin 3 → ℝ) (Matrix (Fin 3) (Fin 3) ℝ)} (h : Turned G o o') :
    o'.initializationN fit = (o.initializationN fit).map (turnParams o.dim_n) := by
  obtain ⟨q, hq⟩ := h.same
  unfold VarGP.initializationN
  rw [hq]
  simp only [h.grid.1, h.grid.2]
  rcases o.model.time_window with e | tw
  · rfl
  simp only [py_ok_bind]
  rw [splineData_map turnV h.obs_t h.obs_y]
  rcases o.splineData tw with e | ⟨xs, ys⟩
  · rfl
  simp only [Except.map, py_ok_bind]
  rw [cubicSpline_map turnV hfit]
  rcases cubicSpline fit xs ys with e | g
  · rfl
  simp only [Except.map, py_ok_bind]
  generalize hA : (0.5 : ℝ) • Matrix.diagonal (fun i => o.model.sigma.diag i / ((0.25 : ℝ) • (1 : Matrix (Fin 3) (Fin 3) ℝ)).diag i) = A
  have hAt : sgM turnSign A = A := by
    subst hA
    ext i j
    rw [sgM_apply]
    by_cases hij : i = j
    · subst hij; linear_combination (((0.5 : ℝ) • Matrix.diagonal (fun i => o.model.sigma.diag i / ((0.25 : ℝ) • (1 : Matrix (Fin 3) (Fin 3) ℝ)).diag i)) i i) * sg_sq turnSign_pm i
    · simp [hij]
  have hm : tw.map (fun t => turnV (g t)) = (tw.map g).map (sgV turnSign) := by rw [List.map_map, turnV_eq]; rfl
  rw [hm]
  generalize tw.map g = mt
  have hd : (List.zipWith (fun q p : Fin 3 → ℝ => q - p) (mt.map (sgV turnSign)).tail (mt.map (sgV turnSign))).map (fun v => o.dt⁻¹ • v)
      = ((List.zipWith (fun q p : Fin 3 → ℝ => q - p) mt.tail mt).map fun v => o.dt⁻¹ • v).map (sgV turnSign) := by
    rw [← List.map_tail, List.zipWith_map, List.map_map, List.map_zipWith, List.map_zipWith]
    congr 1
    funext u v
    simp
  rw [hd]
  generalize (List.zipWith (fun q p : Fin 3 → ℝ => q - p) mt.tail mt).map (fun v => o.dt⁻¹ • v) = dm
  have hmul : ∀ v : Fin 3 → ℝ, A.diag * sgV turnSign v = sgV turnSign (A.diag * v) := by
    intro v; funext i; simp only [Pi.mul_apply, sgV_apply]; ring
  have hrow : ∀ k, (do
      let dk ← idx (dm.map (sgV turnSign)) k
      let mk ← idx (mt.map (sgV turnSign)) k
      pure (A, dk + A.diag * mk) : Py _) = (do
      let dk ← idx dm k
      let mk ← idx mt k
      pure (A, dk + A.diag * mk) : Py _).map fun r : Matrix (Fin 3) (Fin 3) ℝ × (Fin 3 → ℝ) => (sgM turnSign r.1, sgV turnSign r.2) := by
    intro k
    simp only [idx_map]
    rcases idx dm k with e | dk
    · rfl
    simp only [Except.map, py_ok_bind]
    rcases idx mt k with e | mk
    · rfl
    simp only [py_ok_bind, py_pure, hmul, hAt, map_add]
  rw [funext hrow, mapM_map_py]
  rcases hr : (List.range (o.dim_n - 1)).mapM (fun k => (do
      let dk ← idx dm k
      let mk ← idx mt k
      pure (A, dk + A.diag * mk) : Py _)) with e | rows
  · rfl
  have hl : rows.length = o.dim_n - 1 := by rw [mapM_length hr, List.length_range]
  simp only [Except.map, py_ok_bind]
  split
  · rfl
  rename_i h0
  rw [lastIdx_map]
  rcases lastIdx mt with e | ml
  · rfl
  simp only [Except.map, py_ok_bind, py_pure, hmul]
  have := (shapeSymN (d := 3) turnSign_pm (by norm_num)).rav o.dim_n ((rows ++ [(A, A.diag * ml)]).map Prod.fst) ((rows ++ [(A, A.diag * ml)]).map Prod.snd)
    (by simp [hl]; omega) (by simp [hl]; omega)
  rw [turnParams_eq, ← show (shapeN 3).ravelA = ravel3 from rfl, ← show (shapeN 3).ravelB = ravel2 from rfl, ← this]
  simp [List.map_map, Function.comp_def, hAt]

/-- C127 for a whole estimation with Lorenz-63: if the interpolation of the changed data is the changed interpolation, the changed problem starts at the
changed parameters, and from changed starting points the optimizer returns changed parameters with the same free energy, and leaves changed moments
behind. Exceptions are the same, too. -/
theorem C127_estimate_63 {G : Type} (E : Env G) (hfit : ∀ xs ys t, E.fitN 3 xs (ys.map turnV) t = turnV (E.fitN 3 xs ys t))
    {o o' : VarGP (Fin 3 → ℝ) (Matrix (Fin 3) (Fin 3) ℝ)} (h : Turned G o o') :
    AnyVgp.initialization E (.many 3 o') = (AnyVgp.initialization E (.many 3 o)).map (turnParams o.dim_n)
      ∧ ∀ x0, Alike (fun r r' => r' = (turnParams o.dim_n r.1, r.2)) (AnyVgp.optimize (.many 3 o) x0).1
          (AnyVgp.optimize (.many 3 o') (turnParams o.dim_n x0)).1
        ∧ ∃ q q', (AnyVgp.optimize (.many 3 o) x0).2 = .many 3 q ∧ (AnyVgp.optimize (.many 3 o') (turnParams o.dim_n x0)).2 = .many 3 q' ∧ Turned G q q' := by
  refine ⟨initializationN_turn hfit h, fun x0 => ?_⟩
  rw [turnParams_eq]
  obtain ⟨h1, q, q', e, e', -, h2⟩ := optimize_sym (shapeSymN (d := 3) turnSign_pm (by norm_num)) (R := Turned G) ⟨fun h => h.pair, fun h => h.after⟩
    (seenN 3) o.dim_n _ (packSign_pm turnSign_pm 3 o.dim_n) rfl ⟨o, o', rfl, rfl, rfl, h⟩ x0
  exact ⟨h1, q, q', e, e', h2⟩

/-! ### The objects that `run` builds -/

theorem turnM_diagonal (v : Fin 3 → ℝ) : turnM (Matrix.diagonal v) = Matrix.diagonal v := by
  ext i j
  fin_cases i <;> fin_cases j <;> simp [turnM]

theorem turnM_one : turnM 1 = 1 := by rw [turnM_eq]; exact sgM_one turnSign_pm

theorem vgpOf3_turned {G : Type} (p : L63 G) (hs : turnM p.sigma = p.sigma) (hi : turnM p.sig_inv = p.sig_inv) (f b : OdeFrontEnd) (m : Fin 3 → ℝ)
    {s : Matrix (Fin 3) (Fin 3) ℝ} (hs0 : turnM s = s) (dt : ℝ) {r : Matrix (Fin 3) (Fin 3) ℝ} (hr : turnM r = r) (K : PriorN 3) (N M : ℕ) (y : Fin M → Fin 3 → ℝ) :
    Turned G (vgpOf3 p f b m s dt r K N M y) (vgpOf3 p f b (turnV m) s dt r ⟨turnV K.mu0, K.tau0⟩ N M fun i => turnV (y i)) where
  process := ⟨p, rfl, hs, hi⟩
  same := ⟨_, rfl⟩
  like := ⟨_, rfl, by simp only [List.map_ofFn]; rfl, hr, turnM_one⟩
  prior := ⟨K, rfl, rfl⟩
  m0 := rfl
  s0 := ⟨rfl, hs0⟩
  obs_y := by simp only [vgpOf3, List.map_ofFn]; rfl
  obs_t := rfl
  grid := ⟨rfl, rfl⟩
  solvers := ⟨rfl, rfl⟩
  stored := rfl

/-- A Lorenz-63 model on the grid `0, 0.01, …, 0.1`. -/
def turn63 {G : Type} (g : G) : L63 G :=
  ⟨⟨some (List.ofFn fun i : Fin 11 => fun _ => (i : ℝ)), some (Spec.grid 0 0.01 10), g, false⟩, Matrix.diagonal ![10, 10, 10], ![10, 28, 8 / 3],
    Matrix.diagonal ![1 / 10, 1 / 10, 1 / 10]⟩

/-- A pair for which the hypotheses hold, and for which the free energy and the optimizer return. -/
example {G : Type} (g : G) (f b : OdeFrontEnd) :
    ∃ o o', Turned G o o' ∧ o'.m0 ≠ o.m0 ∧ ∀ x0 : List ℝ, x0.length = (10 + 1) * 3 * (3 + 1) →
      ∃ r v, (AnyVgp.many 3 o).optimize x0 = (.ok r, v) := by
  refine ⟨_, _, vgpOf3_turned (turn63 g) (turnM_diagonal _) (turnM_diagonal _) f b ![1, 2, 3] (s := (0.2 : ℝ) • 1) ?_ 0.01 (r := Matrix.diagonal ![2, 2, 2]) (turnM_diagonal _)
    ⟨![0, 1, 25], Matrix.diagonal ![1, 1, 1]⟩ 10 3 ![![1, 1, 20], ![2, 3, 22], ![3, 5, 25]], ?_, fun x0 hx0 => ?_⟩
  · rw [turnM_eq, map_smul, ← turnM_eq, turnM_one]
  · intro h
    have := congrFun h 0
    norm_num [vgpOf3, turnV] at this
  · have hstep : (turn63 g).base.timeStep = .ok 0.01 := timeStep_grid _ 0 0.01 10 (by norm_num) (by norm_num) rfl
    have hok := vgpOf3_ok (turn63 g) f b ![1, 2, 3] 0.01 (r := ![2, 2, 2]) (mu0 := ![0, 1, 25]) (tau0 := ![1, 1, 1])
      (by intro i; fin_cases i <;> norm_num) (by intro i; fin_cases i <;> norm_num) (N := 10) (M := 3) (by norm_num) ![![1, 1, 20], ![2, 3, 22], ![3, 5, 25]]
    obtain ⟨z, fx, v', hz, -⟩ := optimize_totalN x0 hx0
      (vgp63_total (turn63 g) _ _ _ _ hok rfl 0.01 ⟨_, rfl, by simp [Spec.grid], hstep⟩ (obsIdx_mono (by norm_num)))
    exact ⟨_, _, hz⟩

end

end VGPA
