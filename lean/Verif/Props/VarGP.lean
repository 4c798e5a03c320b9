import Verif.Model.VarGP
import Verif.Props.Traj

/-!
# C58, C59, C60: packing of the parameters, purity of `free_energy`, history independence of `gradient`
-/

namespace VGPA

open Matrix

/-! ## C58 packing -/

theorem getElem?_flatMap_const {α β : Type} (f : α → List β) (c : ℕ) (hf : ∀ x, (f x).length = c) :
    ∀ (l : List α) (k r : ℕ), r < c → (l.flatMap f)[k * c + r]? = l[k]?.bind fun x => (f x)[r]?
  | [], k, r, _ => by simp
  | x :: l, 0, r, h => by
    simp only [List.flatMap_cons, Nat.zero_mul, Nat.zero_add, List.getElem?_cons_zero, Option.bind_some]
    rw [List.getElem?_append_left (by rw [hf]; exact h)]
  | x :: l, k + 1, r, h => by
    simp only [List.flatMap_cons, List.getElem?_cons_succ]
    rw [List.getElem?_append_right (by rw [hf]; nlinarith), hf,
      show (k + 1) * c + r - c = k * c + r from by rw [Nat.succ_mul]; omega]
    exact getElem?_flatMap_const f c hf l k r h

theorem length_flatMap_const {α β : Type} (f : α → List β) (c : ℕ) (hf : ∀ x, (f x).length = c) (l : List α) :
    (l.flatMap f).length = l.length * c := by
  induction l with
  | nil => simp
  | cons x l ih => simp [hf, ih]; ring

variable {d n : ℕ}

theorem matRow_length (M : Matrix (Fin d) (Fin d) ℝ) :
    (List.ofFn fun i : Fin d => List.ofFn fun j : Fin d => M i j).flatten.length = d * d := by
  rw [List.ofFn_eq_map, ← List.flatMap_def, length_flatMap_const _ d (by simp)]
  simp

theorem matRow_get (M : Matrix (Fin d) (Fin d) ℝ) (i j : Fin d) :
    (List.ofFn fun i : Fin d => List.ofFn fun j : Fin d => M i j).flatten[(i : ℕ) * d + j]? = some (M i j) := by
  rw [List.ofFn_eq_map, ← List.flatMap_def, getElem?_flatMap_const _ d (by simp) _ _ _ j.2]
  simp

theorem ravel2_length (l : List (Fin d → ℝ)) : (ravel2 l).length = l.length * d :=
  length_flatMap_const _ d (by simp) l

theorem ravel3_length (l : List (Matrix (Fin d) (Fin d) ℝ)) : (ravel3 l).length = l.length * (d * d) :=
  length_flatMap_const _ (d * d) matRow_length l

theorem ravel2_get (l : List (Fin d → ℝ)) (k : ℕ) (i : Fin d) :
    (ravel2 l)[k * d + i]? = l[k]?.map fun v => v i := by
  unfold ravel2
  rw [getElem?_flatMap_const _ d (by simp) _ _ _ i.2]
  cases l[k]? <;> simp

theorem ravel3_get (l : List (Matrix (Fin d) (Fin d) ℝ)) (k : ℕ) (i j : Fin d) :
    (ravel3 l)[k * (d * d) + (i * d + j)]? = l[k]?.map fun M => M i j := by
  unfold ravel3
  rw [getElem?_flatMap_const _ (d * d) matRow_length _ _ _ (by nlinarith [i.2, j.2])]
  cases l[k]? <;> simp [matRow_get]

theorem reshape2_ok {x : List ℝ} (h : x.length = n * d) : ∃ b : Fin n → Fin d → ℝ, reshape2 n d x = .ok (List.ofFn b)
    ∧ ∀ (k : Fin n) (i : Fin d), x[(k : ℕ) * d + i]? = some (b k i) := by
  refine ⟨fun k i => x.getD (k * d + i) 0, ?_, fun k i => ?_⟩
  · unfold reshape2
    rw [if_pos h, map_range_ofFn]
  · have : (k : ℕ) * d + i < x.length := by rw [h]; nlinarith [k.2, i.2]
    simp [this]

theorem reshape3_ok {x : List ℝ} (h : x.length = n * d * d) :
    ∃ a : Fin n → Matrix (Fin d) (Fin d) ℝ, reshape3 n d x = .ok (List.ofFn a)
      ∧ ∀ (k : Fin n) (i j : Fin d), x[(k : ℕ) * (d * d) + (i * d + j)]? = some (a k i j) := by
  refine ⟨fun k => Matrix.of fun i j => x.getD (k * (d * d) + (i * d + j)) 0, ?_, fun k i j => ?_⟩
  · unfold reshape3
    rw [if_pos h, map_range_ofFn]
  · have : (k : ℕ) * (d * d) + (i * d + j) < x.length := by
      rw [h]
      have h1 : (i : ℕ) * d + j < d * d := by nlinarith [i.2, j.2]
      have h2 : ((k : ℕ) + 1) * (d * d) ≤ n * (d * d) := Nat.mul_le_mul_right _ k.2
      nlinarith
    simp [this]

theorem ravel2_of_get {x : List ℝ} (h : x.length = n * d) (b : Fin n → Fin d → ℝ)
    (hb : ∀ (k : Fin n) (i : Fin d), x[(k : ℕ) * d + i]? = some (b k i)) : ravel2 (List.ofFn b) = x := by
  have hl : (ravel2 (List.ofFn b)).length = x.length := by rw [ravel2_length, h]; simp
  apply List.ext_getElem?
  intro p
  by_cases hp : p < n * d
  · have hd : 0 < d := by rcases Nat.eq_zero_or_pos d with h0 | h0 <;> [(subst h0; simp at hp); exact h0]
    obtain ⟨k, i, rfl⟩ : ∃ (k : Fin n) (i : Fin d), p = k * d + i :=
      ⟨⟨p / d, (Nat.div_lt_iff_lt_mul hd).2 hp⟩, ⟨p % d, Nat.mod_lt _ hd⟩, by
        show p = p / d * d + p % d
        rw [mul_comm]; exact (Nat.div_add_mod p d).symm⟩
    rw [ravel2_get, hb]
    simp
  · rw [List.getElem?_eq_none (by rw [hl, h]; omega), List.getElem?_eq_none (by rw [h]; omega)]

theorem ravel3_of_get {x : List ℝ} (h : x.length = n * d * d) (a : Fin n → Matrix (Fin d) (Fin d) ℝ)
    (ha : ∀ (k : Fin n) (i j : Fin d), x[(k : ℕ) * (d * d) + (i * d + j)]? = some (a k i j)) :
    ravel3 (List.ofFn a) = x := by
  have hl : (ravel3 (List.ofFn a)).length = x.length := by rw [ravel3_length, h]; simp [mul_assoc]
  apply List.ext_getElem?
  intro p
  by_cases hp : p < n * (d * d)
  · have hd : 0 < d := by rcases Nat.eq_zero_or_pos d with h0 | h0 <;> [(subst h0; simp at hp); exact h0]
    have hdd : 0 < d * d := Nat.mul_pos hd hd
    have hq : p % (d * d) < d * d := Nat.mod_lt _ hdd
    obtain ⟨k, i, j, rfl⟩ : ∃ (k : Fin n) (i j : Fin d), p = k * (d * d) + (i * d + j) :=
      ⟨⟨p / (d * d), (Nat.div_lt_iff_lt_mul hdd).2 hp⟩, ⟨p % (d * d) / d, (Nat.div_lt_iff_lt_mul hd).2 hq⟩,
        ⟨p % (d * d) % d, Nat.mod_lt _ hd⟩, by
        show p = p / (d * d) * (d * d) + (p % (d * d) / d * d + p % (d * d) % d)
        rw [Nat.div_add_mod', Nat.div_add_mod']⟩
    rw [ravel3_get, ha]
    simp
  · rw [List.getElem?_eq_none (by rw [hl, h, mul_assoc]; omega), List.getElem?_eq_none (by rw [h, mul_assoc]; omega)]

/-- C58, several dimensions. A vector of length `n * d * (d + 1)` unpacks, in `free_energy` and in `gradient` alike, into
`n` matrices and `n` vectors in C order: entry `(i, j)` of matrix `k` is `x[k d² + i d + j]`, entry `i` of vector `k` is
`x[n d² + k d + i]`. Packing these arrays again gives `x`. Any other length raises `ValueError`. -/
theorem C58_unpack_pack_nd (hd : d ≠ 1) (x : List ℝ) :
    (x.length = n * d * (d + 1) →
      ∃ (a : Fin n → Matrix (Fin d) (Fin d) ℝ) (b : Fin n → Fin d → ℝ),
        (shapeN d).unpackF n x = .ok (List.ofFn a, List.ofFn b)
        ∧ (shapeN d).unpackG n x = .ok (List.ofFn a, List.ofFn b)
        ∧ (∀ (k : Fin n) (i j : Fin d), x[(k : ℕ) * d ^ 2 + i * d + j]? = some (a k i j))
        ∧ (∀ (k : Fin n) (i : Fin d), x[n * d ^ 2 + (k : ℕ) * d + i]? = some (b k i))
        ∧ ravel3 (List.ofFn a) ++ ravel2 (List.ofFn b) = x)
    ∧ (x.length ≠ n * d * (d + 1) → (shapeN d).unpackF n x = .error .valueError
        ∧ (shapeN d).unpackG n x = .error .valueError) := by
  have hsum : n * d * (d + 1) = n * d * d + n * d := by ring
  constructor
  · intro h
    obtain ⟨a, ha, ha'⟩ := reshape3_ok (n := n) (d := d) (x := x.take (n * d * d)) (by simp [h, hsum])
    obtain ⟨b, hb, hb'⟩ := reshape2_ok (n := n) (d := d) (x := x.drop (n * d * d)) (by simp [h, hsum])
    refine ⟨a, b, ?_, ?_, fun k i j => ?_, fun k i => ?_, ?_⟩
    · simp only [shapeN, if_neg hd, ha, hb]; rfl
    · simp only [shapeN, ha, hb]; rfl
    · have hlt : (k : ℕ) * (d * d) + (i * d + j) < n * d * d := by
        have h1 : (i : ℕ) * d + j < d * d := by nlinarith [i.2, j.2]
        have h2 : ((k : ℕ) + 1) * (d * d) ≤ n * (d * d) := Nat.mul_le_mul_right _ k.2
        nlinarith
      rw [← ha' k i j, List.getElem?_take_of_lt hlt]
      congr 1; ring
    · rw [← hb' k i, List.getElem?_drop]
      congr 1; ring
    · rw [ravel3_of_get (by simp [h, hsum]) a ha', ravel2_of_get (by simp [h, hsum]) b hb', List.take_append_drop]
  · intro h
    have key : (do
        let a ← reshape3 n d (x.take (n * d * d))
        let b ← reshape2 n d (x.drop (n * d * d))
        pure (a, b) : Py _) = .error .valueError := by
      by_cases h1 : (x.take (n * d * d)).length = n * d * d
      · have h2 : (x.drop (n * d * d)).length ≠ n * d := by
          simp only [List.length_take] at h1
          simp only [List.length_drop]
          omega
        simp only [reshape3, reshape2, if_pos h1, if_neg h2]; rfl
      · simp only [reshape3, if_neg h1]; rfl
    exact ⟨by simp only [shapeN, if_neg hd]; exact key, key⟩

/-- C58, several dimensions, the other direction: packing `n` matrices and `n` vectors gives a vector of length
`n * d * (d + 1)`, and unpacking it returns them. -/
theorem C58_pack_unpack_nd (hd : d ≠ 1) (a : Fin n → Matrix (Fin d) (Fin d) ℝ) (b : Fin n → Fin d → ℝ) :
    (ravel3 (List.ofFn a) ++ ravel2 (List.ofFn b)).length = n * d * (d + 1)
    ∧ (shapeN d).unpackF n (ravel3 (List.ofFn a) ++ ravel2 (List.ofFn b)) = .ok (List.ofFn a, List.ofFn b)
    ∧ (shapeN d).unpackG n (ravel3 (List.ofFn a) ++ ravel2 (List.ofFn b)) = .ok (List.ofFn a, List.ofFn b) := by
  have hl : (ravel3 (List.ofFn a) ++ ravel2 (List.ofFn b)).length = n * d * (d + 1) := by
    rw [List.length_append, ravel3_length, ravel2_length]; simp; ring
  obtain ⟨a', b', h1, h2, h3, h4, h5⟩ := (C58_unpack_pack_nd (n := n) hd (ravel3 (List.ofFn a) ++ ravel2 (List.ofFn b))).1 hl
  have ha : a' = a := by
    funext k; ext i j
    have := h3 k i j
    rw [List.getElem?_append_left (by
      rw [ravel3_length]
      have h1 : (i : ℕ) * d + j < d * d := by nlinarith [i.2, j.2]
      have h2 : ((k : ℕ) + 1) * (d * d) ≤ n * (d * d) := Nat.mul_le_mul_right _ k.2
      simp only [List.length_ofFn]
      nlinarith),
      show (k : ℕ) * d ^ 2 + i * d + j = k * (d * d) + (i * d + j) by ring, ravel3_get] at this
    simpa using this.symm
  have hb : b' = b := by
    funext k i
    have := h4 k i
    rw [List.getElem?_append_right (by rw [ravel3_length]; simp; nlinarith), ravel3_length, List.length_ofFn,
      show n * d ^ 2 + (k : ℕ) * d + i - n * (d * d) = k * d + i by
        rw [show n * d ^ 2 = n * (d * d) by ring]; omega, ravel2_get] at this
    simpa using this.symm
  subst ha hb
  exact ⟨hl, h1, h2⟩

/-- C58, one dimension: a vector of length `2 n` unpacks into its two halves, and packing (concatenation) is the
inverse. -/
theorem C58_unpack_pack_1d (x : List ℝ) (h : x.length = n * 1 * (1 + 1)) :
    ∃ a b : Fin n → ℝ, shape1.unpackF n x = .ok (List.ofFn a, List.ofFn b)
      ∧ shape1.unpackG n x = .ok (List.ofFn a, List.ofFn b)
      ∧ (∀ k : Fin n, x[(k : ℕ)]? = some (a k)) ∧ (∀ k : Fin n, x[n + (k : ℕ)]? = some (b k))
      ∧ shape1.ravelA (List.ofFn a) ++ shape1.ravelB (List.ofFn b) = x := by
  have h1 : (x.take (n * 1 * 1)).length = n := by simp [h]; omega
  have h2 : (x.drop (n * 1 * 1)).length = n := by simp [h]; omega
  refine ⟨fun k => (x.take (n * 1 * 1))[k], fun k => (x.drop (n * 1 * 1))[k], ?_, ?_, ?_, ?_, ?_⟩
  · simp only [shape1]
    congr 2 <;> apply List.ext_getElem <;> simp [h] <;> omega
  · simp only [shape1]
    congr 2 <;> apply List.ext_getElem <;> simp [h] <;> omega
  · intro k
    have : (k : ℕ) < x.length := by omega
    simp [this]
  · intro k
    have : n + (k : ℕ) < x.length := by omega
    simp [this]
  · simp only [shape1, id]
    conv_rhs => rw [← List.take_append_drop (n * 1 * 1) x]
    congr 1 <;> apply List.ext_getElem <;> simp [h] <;> omega

theorem C58_pack_unpack_1d (a b : Fin n → ℝ) :
    (shape1.ravelA (List.ofFn a) ++ shape1.ravelB (List.ofFn b)).length = n * 1 * (1 + 1)
    ∧ shape1.unpackF n (shape1.ravelA (List.ofFn a) ++ shape1.ravelB (List.ofFn b)) = .ok (List.ofFn a, List.ofFn b)
    ∧ shape1.unpackG n (shape1.ravelA (List.ofFn a) ++ shape1.ravelB (List.ofFn b)) = .ok (List.ofFn a, List.ofFn b) := by
  have e1 : (List.ofFn a ++ List.ofFn b).take (n * 1 * 1) = List.ofFn a := by
    simp
  have e2 : (List.ofFn a ++ List.ofFn b).drop (n * 1 * 1) = List.ofFn b := by
    simp
  refine ⟨by simp [shape1]; omega, ?_, ?_⟩ <;> simp only [shape1, id, e1, e2]

/-- Non-vacuity: for three time points of a three dimensional system the vector has 36 entries. -/
example : (List.replicate 36 (1 : ℝ)).length = 3 * 3 * (3 + 1) ∧ (3 : ℕ) ≠ 1 := by simp

/-! ## C59, C60 call histories -/

/-- A call on a `VarGP` object. `initialization` and `arg_out` do not write anything. -/
inductive VgpCall
  | freeEnergy (x : List ℝ)
  | gradient (x : List ℝ) (eval_fun : Bool)
  | initialization
  | argOut

variable {V W : Type} [AddCommGroup V] [Module ℝ V] [AddCommGroup W] [Module ℝ W]

/-- The object after a call. -/
noncomputable def VgpCall.after (sh : Shape V W) (o : VarGP V W) : VgpCall → VarGP V W
  | .freeEnergy x => (o.freeEnergy sh x).2
  | .gradient x e => (o.gradient sh x e).2
  | .initialization => o
  | .argOut => o

/-- Does the call evaluate the free energy? -/
def VgpCall.evaluates : VgpCall → Bool
  | .freeEnergy _ => true
  | .gradient _ e => e
  | _ => false

/-- The object after a sequence of calls. -/
noncomputable def runCalls (sh : Shape V W) (o : VarGP V W) (h : List VgpCall) : VarGP V W :=
  h.foldl (VgpCall.after sh) o

theorem freeEnergy_obj (sh : Shape V W) (o : VarGP V W) (x : List ℝ) :
    ∃ c, (o.freeEnergy sh x).2 = { o with cache := c } := by
  unfold VarGP.freeEnergy
  cases h : o.eval sh x with
  | error e => exact ⟨o.cache, rfl⟩
  | ok r => exact ⟨some r.2, rfl⟩

theorem gradient_obj (sh : Shape V W) (o : VarGP V W) (x : List ℝ) (e : Bool) :
    ∃ c, (o.gradient sh x e).2 = { o with cache := c } := by
  unfold VarGP.gradient
  cases e with
  | false => exact ⟨o.cache, rfl⟩
  | true =>
    obtain ⟨c, hc⟩ := freeEnergy_obj sh o x
    refine ⟨c, ?_⟩
    simp only [if_true]
    cases h : o.freeEnergy sh x with
    | mk r o' =>
      rw [h] at hc
      cases r <;> exact hc

/-- Calls never change anything but the cached results. -/
theorem runCalls_obj (sh : Shape V W) (o : VarGP V W) (h : List VgpCall) :
    ∃ c, runCalls sh o h = { o with cache := c } := by
  induction h using List.reverseRecOn with
  | nil => exact ⟨o.cache, rfl⟩
  | append_singleton h call ih =>
    obtain ⟨c, hc⟩ := ih
    rw [runCalls, List.foldl_append, List.foldl_cons, List.foldl_nil]
    change ∃ c, VgpCall.after sh (runCalls sh o h) call = _
    rw [hc]
    cases call with
    | freeEnergy x => obtain ⟨c', h'⟩ := freeEnergy_obj sh { o with cache := c } x; exact ⟨c', h'⟩
    | gradient x e => obtain ⟨c', h'⟩ := gradient_obj sh { o with cache := c } x e; exact ⟨c', h'⟩
    | initialization => exact ⟨c, rfl⟩
    | argOut => exact ⟨c, rfl⟩

theorem eval_cache (sh : Shape V W) (o : VarGP V W) (c : Option (VgpCache V W)) (x : List ℝ) :
    VarGP.eval sh { o with cache := c } x = o.eval sh x := rfl

/-- C59, purity: whatever calls were made before, and whether they succeeded or raised, `free_energy(x)` returns the
same value (or raises the same exception) as on a fresh object. -/
theorem C59_history_independent (sh : Shape V W) (o : VarGP V W) (h : List VgpCall) (x : List ℝ) :
    ((runCalls sh o h).freeEnergy sh x).1 = (o.freeEnergy sh x).1 := by
  obtain ⟨c, hc⟩ := runCalls_obj sh o h
  rw [hc]
  unfold VarGP.freeEnergy
  rw [eval_cache]
  cases o.eval sh x <;> rfl

/-- What a successful evaluation computed. -/
theorem eval_ok (sh : Shape V W) (o : VarGP V W) (x : List ℝ) (F : ℝ) (c : VgpCache V W)
    (he : o.eval sh x = .ok (F, c)) :
    ∃ (a : List W) (b : List V) (e : SdeTerms V W) (dE : List V × List W) (E0 Eobs : ℝ),
      sh.unpackF o.dim_n x = .ok (a, b)
      ∧ solveFwd o.fwd_ode.solver sh.rhs o.fwd_ode.dt a b o.m0 o.s0 o.model.sigma = .ok (c.mt, c.st)
      ∧ o.kl0 o.m0 o.s0 = .ok E0
      ∧ o.model.energy a b c.mt c.st o.obs_t = .ok e
      ∧ o.likelihood.call c.mt c.st = .ok Eobs
      ∧ o.likelihood.gradients c.mt c.st = .ok dE
      ∧ solveBwd o.bwd_ode.solver sh.rhs o.bwd_ode.dt a e.dm e.ds dE.1 dE.2 = .ok (c.lamt, c.psit)
      ∧ c.Efx = e.Efx ∧ c.Edf = e.Edf
      ∧ F = E0 + e.Esde + Eobs := by
  unfold VarGP.eval at he
  cases h1 : sh.unpackF o.dim_n x with
  | error e => rw [h1] at he; cases he
  | ok ab =>
    rw [h1] at he
    obtain ⟨a, b⟩ := ab
    simp only [bind, Except.bind] at he
    cases h2 : solveFwd o.fwd_ode.solver sh.rhs o.fwd_ode.dt a b o.m0 o.s0 o.model.sigma with
    | error e => rw [h2] at he; cases he
    | ok ms =>
      rw [h2] at he
      obtain ⟨mt, st⟩ := ms
      simp only at he
      cases h3 : o.likelihood.call mt st with
      | error e => rw [h3] at he; cases he
      | ok Eobs =>
        rw [h3] at he
        simp only at he
        cases h4 : o.model.energy a b mt st o.obs_t with
        | error e => rw [h4] at he; cases he
        | ok e =>
          rw [h4] at he
          simp only at he
          cases h5 : o.likelihood.gradients mt st with
          | error e => rw [h5] at he; cases he
          | ok dE =>
            rw [h5] at he
            simp only at he
            cases h6 : solveBwd o.bwd_ode.solver sh.rhs o.bwd_ode.dt a e.dm e.ds dE.1 dE.2 with
            | error e => rw [h6] at he; cases he
            | ok lp =>
              rw [h6] at he
              simp only at he
              cases h7 : o.kl0 o.m0 o.s0 with
              | error e => rw [h7] at he; cases he
              | ok E0 =>
                rw [h7] at he
                injection he with he
                injection he with hF hc
                subst hc
                exact ⟨a, b, e, dE, E0, Eobs, rfl, h2, rfl, h4, h3, h5, h6, rfl, rfl, hF.symm⟩

/-- C59, value: a returned free energy is the sum of the prior energy of the initial moments, the energy of the process
and the energy of the observations, both taken at the moments that the forward sweep produces from the unpacked
parameters; these moments are the ones that `arg_out` shows afterwards. -/
theorem C59_sum_of_energies (sh : Shape V W) (o : VarGP V W) (x : List ℝ) (F : ℝ) (o' : VarGP V W)
    (h : o.freeEnergy sh x = (.ok F, o')) :
    ∃ (a : List W) (b : List V) (mt : List V) (st : List W) (e : SdeTerms V W) (E0 Eobs : ℝ),
      sh.unpackF o.dim_n x = .ok (a, b)
      ∧ solveFwd o.fwd_ode.solver sh.rhs o.fwd_ode.dt a b o.m0 o.s0 o.model.sigma = .ok (mt, st)
      ∧ o.kl0 o.m0 o.s0 = .ok E0
      ∧ o.model.energy a b mt st o.obs_t = .ok e
      ∧ o.likelihood.call mt st = .ok Eobs
      ∧ F = E0 + e.Esde + Eobs
      ∧ ∃ c, o'.argOut = (o.m0, o.s0, some c) ∧ c.mt = mt ∧ c.st = st := by
  unfold VarGP.freeEnergy at h
  cases he : o.eval sh x with
  | error e => rw [he] at h; simp at h
  | ok r =>
    rw [he] at h
    simp only [Prod.mk.injEq, Except.ok.injEq] at h
    obtain ⟨hF, ho⟩ := h
    obtain ⟨a, b, e, dE, E0, Eobs, h1, h2, h3, h4, h5, _, _, _, _, h6⟩ := eval_ok sh o x r.1 r.2 he
    refine ⟨a, b, r.2.mt, r.2.st, e, E0, Eobs, h1, h2, h3, h4, h5, hF ▸ h6, r.2, ?_, rfl, rfl⟩
    rw [← ho]
    rfl

/-- The value of `gradient(x, eval_fun=True)` in terms of the evaluation. -/
theorem gradient_true_eq (sh : Shape V W) (o : VarGP V W) (x : List ℝ) :
    (o.gradient sh x true).1 = match o.eval sh x with
      | .ok r => VarGP.gradBody sh { o with cache := some r.2 } x
      | .error e => .error e := by
  unfold VarGP.gradient VarGP.freeEnergy
  cases o.eval sh x <;> rfl

/-- C60: whatever calls were made before, `gradient(x, eval_fun=True)` returns the same value (or raises the same
exception) as on a fresh object. -/
theorem C60_history_independent (sh : Shape V W) (o : VarGP V W) (h : List VgpCall) (x : List ℝ) :
    ((runCalls sh o h).gradient sh x true).1 = (o.gradient sh x true).1 := by
  obtain ⟨c, hc⟩ := runCalls_obj sh o h
  rw [hc, gradient_true_eq, gradient_true_eq, eval_cache]

theorem after_not_evaluating (sh : Shape V W) (o : VarGP V W) (call : VgpCall) (h : call.evaluates = false) :
    call.after sh o = o := by
  cases call with
  | freeEnergy x => simp [VgpCall.evaluates] at h
  | gradient x e => simp only [VgpCall.evaluates] at h; subst h; rfl
  | initialization => rfl
  | argOut => rfl

/-- C60: `gradient(x)` returns that same value whenever the latest evaluation of the free energy was at `x` (by
`free_energy(x)` or by `gradient(x, eval_fun=True)`) and did not raise, however many non-evaluating calls, at whatever
points, came in between. -/
theorem C60_cached (sh : Shape V W) (o : VarGP V W) (before after : List VgpCall) (x : List ℝ) (call : VgpCall)
    (hcall : call = .freeEnergy x ∨ call = .gradient x true) (hafter : ∀ k ∈ after, k.evaluates = false)
    (hok : ∃ F, (o.freeEnergy sh x).1 = .ok F) :
    ((runCalls sh o (before ++ call :: after)).gradient sh x false).1 = (o.gradient sh x true).1 := by
  obtain ⟨c, hc⟩ := runCalls_obj sh o before
  have hrest : ∀ (l : List VgpCall) (p : VarGP V W), (∀ k ∈ l, k.evaluates = false) → runCalls sh p l = p := by
    intro l
    induction l with
    | nil => intro p _; rfl
    | cons k l ih =>
      intro p hk
      rw [runCalls, List.foldl_cons, after_not_evaluating sh p k (hk k (by simp))]
      exact ih p fun k' hk' => hk k' (by simp [hk'])
  have hsplit : runCalls sh o (before ++ call :: after) = call.after sh (runCalls sh o before) := by
    rw [runCalls, List.foldl_append, List.foldl_cons]
    exact hrest after _ hafter
  obtain ⟨F, hF⟩ := hok
  have hev : ∃ r, o.eval sh x = .ok r := by
    unfold VarGP.freeEnergy at hF
    cases he : o.eval sh x with
    | error e => rw [he] at hF; simp at hF
    | ok r => exact ⟨r, rfl⟩
  obtain ⟨r, hr⟩ := hev
  rw [hsplit, gradient_true_eq, hr, hc]
  have hstate : call.after sh { o with cache := c } = { o with cache := some r.2 } := by
    have h1 : VarGP.freeEnergy sh { o with cache := c } x = (.ok r.1, { o with cache := some r.2 }) := by
      unfold VarGP.freeEnergy
      rw [eval_cache, hr]
    rcases hcall with rfl | rfl
    · simp only [VgpCall.after, h1]
    · simp only [VgpCall.after, VarGP.gradient, if_true, h1]
  rw [hstate]
  rfl

/-- C60: on an object whose free energy was never evaluated, `gradient(x)` raises `KeyError` for every `x` that can be
unpacked. -/
theorem C60_fresh (sh : Shape V W) (model : SdeModel V W) (m0 : V) (s0 : W) (fwd bwd : OdeFrontEnd) (like : LikeIf V W)
    (kl0 : V → W → Py ℝ) (obs_y : List V) (obs_t : List ℕ) (o : VarGP V W)
    (ho : VarGP.init model m0 s0 fwd bwd like kl0 obs_y obs_t = .ok o) (calls : List VgpCall)
    (hcalls : ∀ k ∈ calls, k.evaluates = false) (x : List ℝ) (ab : List W × List V)
    (hx : sh.unpackG o.dim_n x = .ok ab) : ((runCalls sh o calls).gradient sh x false).1 = .error .keyError := by
  have hc : o.cache = none := by
    unfold VarGP.init at ho
    cases h1 : model.time_step with
    | error e => rw [h1] at ho; cases ho
    | ok dt =>
      cases h2 : model.sample_path with
      | error e => rw [h1, h2] at ho; cases ho
      | ok p =>
        rw [h1, h2] at ho
        injection ho with ho
        rw [← ho]
  have hrun : ∀ (l : List VgpCall), (∀ k ∈ l, k.evaluates = false) → runCalls sh o l = o := by
    intro l
    induction l with
    | nil => intro _; rfl
    | cons k l ih =>
      intro hk
      rw [runCalls, List.foldl_cons, after_not_evaluating sh o k (hk k (by simp))]
      exact ih fun k' hk' => hk k' (by simp [hk'])
  rw [hrun calls hcalls]
  simp only [VarGP.gradient, VarGP.gradBody, hx, Bool.false_eq_true, if_false, bind, Except.bind, hc]

end VGPA
