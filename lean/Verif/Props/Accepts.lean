import Verif.Lemmas.Accepts
import Verif.Props.LorenzNoise

/-!
# C124: which configurations `setup()` accepts

`C124_setup_iff` decides for every JSON value whether `setup(params)` returns or raises. A list with one entry in the place of a single
number is outside of its scope: see `Model/Pipeline`.
-/

namespace VGPA

open Matrix

variable {G : Type}

namespace Spec

/-- The JSON value is the number `x`; `true` and `false` count as `1` and `0`. -/
inductive IsNumber : Json → ℝ → Prop
  | num (x : ℝ) : IsNumber (.num x) x
  | yes : IsNumber (.bool true) 1
  | no : IsNumber (.bool false) 0

/-- The JSON value is a list of numbers. -/
def IsVector (j : Json) (l : List ℝ) : Prop := ∃ js, j = .arr js ∧ List.Forall₂ IsNumber js l

/-- The JSON value is a list of lists of numbers. -/
def IsTable (j : Json) (rows : List (List ℝ)) : Prop := ∃ js, j = .arr js ∧ List.Forall₂ IsVector js rows

/-- The JSON value is a table with `r` rows and `c` columns. -/
def TableShape (j : Json) (r c : ℕ) : Prop := ∃ rows, IsTable j rows ∧ rows.length = r ∧ ∀ l ∈ rows, l.length = c

/-- The JSON value is the matrix `M`. -/
def IsMatrix {d : ℕ} (j : Json) (M : Matrix (Fin d) (Fin d) ℝ) : Prop :=
  IsTable j (List.ofFn fun i => List.ofFn (M i))

/-- Shapes that stand for a mean of `d` components: a number, a list of `d` numbers or of one, or a table whose rows have `d` entries or
one. -/
def MeanShape (d : ℕ) (j : Json) : Prop :=
  (∃ x, IsNumber j x) ∨ (∃ l, IsVector j l ∧ (l.length = d ∨ l.length = 1))
    ∨ ∃ r c, 0 < r ∧ TableShape j r c ∧ (c = d ∨ c = 1)

/-- Shapes that stand for a `d` by `d` diagonal matrix: a number, a list of `d` numbers or of one, or a table with `d` rows or one, and `d`
columns or one. -/
def VarShape (d : ℕ) (j : Json) : Prop :=
  (∃ x, IsNumber j x) ∨ (∃ l, IsVector j l ∧ (l.length = d ∨ l.length = 1))
    ∨ ∃ r c, 0 < r ∧ TableShape j r c ∧ (r = d ∨ r = 1) ∧ (c = d ∨ c = 1)

/-- Shapes of the observation noise for `k` observed components of a multivariate process, at `M` times. With one observed component the code
only works for a single observation. -/
def NoiseShape (k M : ℕ) (j : Json) : Prop :=
  if k = 1 then M = 1 ∧ ((∃ x, IsNumber j x) ∨ (∃ l, IsVector j l ∧ l.length = 1) ∨ TableShape j 1 1)
  else (∃ x, IsNumber j x) ∨ (∃ l, IsVector j l ∧ l.length = k)
    ∨ ∃ r c, 0 < r ∧ TableShape j r c ∧ (r = k ∨ r = 1) ∧ (c = k ∨ c = 1)

/-- Shapes of the observation noise of a one dimensional process with `M` observations: a number, or a list with one entry for all or one for each
of them. -/
def NoiseShape1 (M : ℕ) (j : Json) : Prop := (∃ x, IsNumber j x) ∨ ∃ l, IsVector j l ∧ (l.length = M ∨ l.length = 1)

/-- The operator selects nothing: `null`, `false`, `0` or the empty list. -/
def NoOperator (j : Json) : Prop := j = .null ∨ IsNumber j 0 ∨ j = .arr []

/-- The operator of a process with `d` components leaves `k` of them: all of them, or those with `true` in a list of `d` truth values. -/
def Operator (d : ℕ) (j : Json) (k : ℕ) : Prop :=
  NoOperator j ∧ k = d ∨ ∃ bs : List Bool, bs ≠ [] ∧ j = .arr (bs.map Json.bool) ∧ bs.length = d ∧ bs.count true = k

/-- A `d` by `d` matrix that the Lorenz constructors take as system noise: every eigenvalue is positive (in numpy's order of the
complex numbers), and the symmetric matrix with the same lower triangle is positive definite. -/
def NoiseMatrixOk {d : ℕ} (M : Matrix (Fin d) (Fin d) ℝ) : Prop :=
  (∀ z ∈ (M.map Complex.ofReal).charpoly.roots, 0 < z.re ∨ z.re = 0 ∧ 0 < z.im)
    ∧ (Matrix.of fun i j => if j ≤ i then M i j else M j i).PosDef

/-- System noise of a process with `d` components: `d` positive numbers, or an admissible matrix. A single number is not. -/
def SysOk (d : ℕ) (j : Json) : Prop :=
  (∃ l, IsVector j l ∧ l.length = d ∧ ∀ x ∈ l, 0 < x) ∨ ∃ M : Matrix (Fin d) (Fin d) ℝ, IsMatrix j M ∧ NoiseMatrixOk M

/-- The values found in a parameter dictionary. -/
structure Entries where
  model : Json
  theta : Json
  sys : Json
  obs : Json
  t0 : Json
  tf : Json
  dt : Json
  method : Json
  seed : Json
  density : Json
  operator : Json
  mu0 : Json
  tau0 : Json

/-- The dictionary has these entries (and possibly others). -/
def Entries.In (e : Entries) (params : Json) : Prop :=
  params.item "Model" = .ok e.model
  ∧ (∃ j, params.item "Drift" = .ok j ∧ j.item "theta" = .ok e.theta)
  ∧ (∃ j, params.item "Noise" = .ok j ∧ j.item "sys" = .ok e.sys ∧ j.item "obs" = .ok e.obs)
  ∧ (∃ j, params.item "Time-window" = .ok j ∧ j.item "t0" = .ok e.t0 ∧ j.item "tf" = .ok e.tf ∧ j.item "dt" = .ok e.dt)
  ∧ params.item "Ode-method" = .ok e.method
  ∧ params.item "Random-Seed" = .ok e.seed
  ∧ (∃ j, params.item "Observations" = .ok j ∧ j.item "density" = .ok e.density ∧ j.item "operator" = .ok e.operator)
  ∧ ∃ j, params.item "Prior" = .ok j ∧ j.item "mu0" = .ok e.mu0 ∧ j.item "tau0" = .ok e.tau0

/-- The window `[t0, tf]` in steps of `dt`, and a density that gives `M` observations, at least one and not more than one per step. The
window is extended to a whole number of steps. -/
def WindowOk (e : Entries) (M : ℕ) : Prop :=
  ∃ t0 tf dt n : ℝ, IsNumber e.t0 t0 ∧ IsNumber e.tf tf ∧ IsNumber e.dt dt ∧ IsNumber e.density n
    ∧ 0 < dt ∧ t0 ≤ tf ∧ n ≤ ⌊1 / dt⌋ ∧ ⌊⌈(tf - t0) / dt⌉ * dt * n⌋ = (M : ℤ) ∧ 0 < M

/-- The entries that belong to the model. -/
def ModelOk (e : Entries) (M : ℕ) : Prop :=
  ∃ name, e.model = .str name ∧
    (SameUpToCase name "DW" ∧ (∃ x, IsNumber e.sys x ∧ 0 < x) ∧ (∃ x, IsNumber e.theta x)
        ∧ NoOperator e.operator ∧ NoiseShape1 M e.obs
      ∨ SameUpToCase name "OU" ∧ (∃ x, IsNumber e.sys x ∧ 0 < x) ∧ (∃ x, IsNumber e.theta x ∧ 0 < x)
        ∧ NoOperator e.operator ∧ NoiseShape1 M e.obs
      ∨ SameUpToCase name "L63" ∧ SysOk 3 e.sys ∧ (∃ l, IsVector e.theta l ∧ l.length = 3)
        ∧ (∃ k, Operator 3 e.operator k ∧ NoiseShape k M e.obs) ∧ MeanShape 3 e.mu0 ∧ VarShape 3 e.tau0
      ∨ SameUpToCase name "L96" ∧ SysOk 40 e.sys ∧ (∃ x, IsNumber e.theta x)
        ∧ (∃ k, Operator 40 e.operator k ∧ NoiseShape k M e.obs) ∧ MeanShape 40 e.mu0 ∧ VarShape 40 e.tau0)

/-- The entries that `setup()` accepts. -/
def Accepted (e : Entries) : Prop :=
  (e.seed = .null ∨ ∃ n : ℕ, IsNumber e.seed n) ∧ ∃ M, WindowOk e M ∧ ModelOk e M

end Spec

/-! ## JSON values -/

theorem real_ok {j : Json} {x : ℝ} : j.real = .ok x ↔ Spec.IsNumber j x := by
  constructor
  · intro h
    cases j with
    | num y => simp only [Json.real, Except.ok.injEq] at h; subst h; exact .num y
    | bool b => cases b <;> simp [Json.real] at h <;> subst h <;> constructor
    | _ => simp [Json.real] at h
  · rintro (_ | _ | _) <;> simp [Json.real]

theorem mapM_forall2 {α β : Type} {f : α → Py β} {l : List α} {ys : List β} :
    l.mapM f = .ok ys ↔ List.Forall₂ (fun a b => f a = .ok b) l ys := by
  induction l generalizing ys with
  | nil =>
    simp only [List.mapM_nil, py_pure, Except.ok.injEq, List.forall₂_nil_left_iff]
    exact eq_comm
  | cons a l ih =>
    rw [List.mapM_cons]
    simp only [py_bind_ok, py_pure, Except.ok.injEq]
    constructor
    · rintro ⟨b, hb, bs, hbs, rfl⟩
      exact .cons hb (ih.1 hbs)
    · intro h
      cases h with
      | cons h1 h2 => exact ⟨_, h1, _, ih.2 h2, rfl⟩

theorem reals_ok {l : List Json} {xs : List ℝ} : l.mapM Json.real = .ok xs ↔ List.Forall₂ Spec.IsNumber l xs := by
  rw [mapM_forall2]; simp only [real_ok]

theorem int_ok {j : Json} {n : ℤ} : j.int = .ok n ↔ Spec.IsNumber j n := by
  unfold Json.int
  simp only [py_bind_ok, real_ok]
  constructor
  · rintro ⟨x, hx, h⟩
    split_ifs at h with hf
    simp only [Except.ok.injEq] at h
    rw [h] at hf; rwa [hf] at hx
  · intro h
    exact ⟨n, h, by simp⟩

theorem isNumber_inj {j : Json} {x y : ℝ} (h1 : Spec.IsNumber j x) (h2 : Spec.IsNumber j y) : x = y := by
  have := (real_ok.2 h1).symm.trans (real_ok.2 h2); exact Except.ok.inj this

theorem seed_iff {j : Json} : (∃ s, j.seed = .ok s ∧ Spec.SeedOk s) ↔ j = .null ∨ ∃ n : ℕ, Spec.IsNumber j n := by
  by_cases hj : j = .null
  · subst hj
    simp only [Json.seed, Except.ok.injEq, exists_eq_left', true_or, iff_true]
    intro s hs; cases hs
  · have e : j.seed = (do pure (some (← j.int))) := by cases j <;> simp_all [Json.seed]
    rw [e]
    simp only [py_bind_ok, int_ok, py_pure, Except.ok.injEq, hj, false_or]
    constructor
    · rintro ⟨s, ⟨n, hn, rfl⟩, h⟩
      obtain ⟨m, rfl⟩ := Int.eq_ofNat_of_zero_le (h n rfl)
      exact ⟨m, by simpa using hn⟩
    · rintro ⟨n, hn⟩
      refine ⟨some n, ⟨n, by simpa using hn, rfl⟩, fun s hs => ?_⟩
      cases hs; omega

theorem vec_ok {j : Json} {n : ℕ} : (∃ v, j.vec n = .ok v) ↔ ∃ l, Spec.IsVector j l ∧ l.length = n := by
  cases j with
  | arr l =>
    simp only [Json.vec, py_bind_ok, Spec.IsVector, reals_ok]
    constructor
    · rintro ⟨v, xs, h1, h2⟩
      split_ifs at h2 with h
      exact ⟨xs, ⟨l, rfl, h1⟩, h⟩
    · rintro ⟨xs, ⟨l', h0, h1⟩, h⟩
      cases h0
      exact ⟨_, xs, h1, by rw [if_pos h]⟩
  | _ => simp [Json.vec, Spec.IsVector]

theorem forall₂_det {α β : Type} {R : α → β → Prop} (h : ∀ a b c, R a b → R a c → b = c) {l : List α} {xs ys : List β}
    (h1 : List.Forall₂ R l xs) (h2 : List.Forall₂ R l ys) : xs = ys := by
  induction h1 generalizing ys with
  | nil => cases h2; rfl
  | cons a _ ih => cases h2 with | cons b h2 => rw [h _ _ _ a b, ih h2]

theorem isVector_inj {j : Json} {xs ys : List ℝ} (h1 : Spec.IsVector j xs) (h2 : Spec.IsVector j ys) : xs = ys := by
  obtain ⟨l, rfl, h1⟩ := h1
  obtain ⟨l', h, h2⟩ := h2
  cases h
  exact forall₂_det (R := Spec.IsNumber) (fun _ _ _ h h' => isNumber_inj h h') h1 h2

/-- What `np.asarray` makes of a JSON value. -/
theorem ndArr_cases (j : Json) (a : NdArr) : j.ndArr = .ok a ↔
    (∃ x, Spec.IsNumber j x ∧ a = .scalar x)
    ∨ (∃ l, Spec.IsVector j l ∧ a = .vec l.length fun i => l.getD i 0)
    ∨ ∃ rows c, Spec.IsTable j rows ∧ rows ≠ [] ∧ (∀ l ∈ rows, l.length = c)
      ∧ a = .mat rows.length c (Matrix.of fun i k => (rows.getD i []).getD k 0) := by
  have nonarr : (∀ l, j ≠ .arr l) → (j.ndArr = .ok a ↔ ∃ x, Spec.IsNumber j x ∧ a = .scalar x) := by
    intro hj
    have e : j.ndArr = (do pure (.scalar (← j.real))) := by cases j <;> first | rfl | exact absurd rfl (hj _)
    rw [e]
    simp only [py_bind_ok, real_ok, py_pure, Except.ok.injEq]
    exact exists_congr fun x => and_congr_right fun _ => eq_comm
  by_cases hj : ∃ l, j = .arr l
  · obtain ⟨l, rfl⟩ := hj
    have h0 : ¬ ∃ x, Spec.IsNumber (.arr l) x ∧ a = .scalar x := by rintro ⟨x, h, -⟩; cases h
    rw [or_iff_right h0]
    unfold Json.ndArr
    simp only []
    cases hm : l.mapM Json.real with
    | ok xs =>
      have hv : Spec.IsVector (.arr l) xs := ⟨l, rfl, reals_ok.1 hm⟩
      simp only [Except.ok.injEq]
      constructor
      · rintro rfl; exact .inl ⟨xs, hv, rfl⟩
      · rintro (⟨ys, hy, rfl⟩ | ⟨rows, c, ⟨js, hjs, hr⟩, hne, -⟩)
        · rw [isVector_inj hv hy]
        · cases hjs
          exfalso
          cases hr with
          | nil => exact hne rfl
          | cons h1 _ =>
            obtain ⟨_, rfl, _⟩ := h1
            rw [reals_ok] at hm
            cases hm with | cons h _ => cases h
    | error e =>
      have hv : ¬ ∃ xs, Spec.IsVector (.arr l) xs ∧ a = .vec xs.length fun i => xs.getD i 0 := by
        rintro ⟨xs, ⟨l', h, hx⟩, -⟩
        cases h
        rw [reals_ok.2 hx] at hm; cases hm
      rw [or_iff_right hv]
      simp only [py_bind_ok]
      have hrow : ∀ (j : Json) (ys : List ℝ), (match j with
          | .arr r => r.mapM Json.real
          | _ => .error .valueError) = .ok ys ↔ Spec.IsVector j ys := by
        intro j ys
        cases j <;> simp [Spec.IsVector, reals_ok]
      have hrows : ∀ rows, l.mapM (fun j => match j with
          | .arr r => r.mapM Json.real
          | _ => .error .valueError) = .ok rows ↔ Spec.IsTable (.arr l) rows := by
        intro rows
        rw [mapM_forall2]
        simp only [hrow, Spec.IsTable, Json.arr.injEq, exists_eq_left']
      constructor
      · rintro ⟨rows, h1, h2⟩
        replace h1 := (hrows rows).1 h1
        split_ifs at h2 with hall
        simp only [Except.ok.injEq] at h2
        refine ⟨rows, _, h1, ?_, ?_, h2.symm⟩
        · rintro rfl
          obtain ⟨js, hjs, hr⟩ := h1
          cases hjs
          cases hr
          simp at hm
        · intro r hr
          simpa using (List.all_eq_true.1 hall) r hr
      · rintro ⟨rows, c, h1, hne, hall, rfl⟩
        refine ⟨rows, (hrows rows).2 h1, ?_⟩
        have hc : (rows.headD []).length = c := by
          cases rows with
          | nil => exact absurd rfl hne
          | cons r _ => exact hall r (by simp)
        rw [hc, if_pos (by simpa using hall)]
  · push Not at hj
    rw [nonarr hj]
    constructor
    · exact .inl
    · rintro (h | ⟨l, ⟨js, h, -⟩, -⟩ | ⟨r, c, ⟨js, h, -⟩, -⟩)
      · exact h
      · exact absurd h (hj _)
      · exact absurd h (hj _)

theorem bools_ok {l : List Json} {bs : List Bool} : l.mapM (fun j => match j with
    | .bool b => .ok b
    | _ => .error .indexError : Json → Py Bool) = .ok bs ↔ l = bs.map Json.bool := by
  rw [mapM_forall2]
  constructor
  · intro h
    induction h with
    | nil => rfl
    | @cons a b l l' h1 _ ih =>
      rw [List.map_cons, ← ih]
      cases a <;> simp_all
  · rintro rfl
    induction bs with
    | nil => exact .nil
    | cons b bs ih => exact .cons rfl ih

theorem mask_list {l : List Json} {m : Option (List Bool)} :
    (Json.arr l).mask = .ok m ↔ ∃ bs : List Bool, l = bs.map Json.bool ∧ m = some bs := by
  unfold Json.mask
  simp only [py_bind_ok, py_pure, Except.ok.injEq]
  constructor
  · rintro ⟨bs, h, rfl⟩; exact ⟨bs, bools_ok.1 h, rfl⟩
  · rintro ⟨bs, h, rfl⟩; exact ⟨bs, bools_ok.2 h, rfl⟩

theorem mask_none {j : Json} : (∃ m, j.mask = .ok m ∧ m.getD [] = []) ↔ Spec.NoOperator j := by
  unfold Spec.NoOperator
  cases j with
  | arr l =>
    simp only [mask_list, reduceCtorEq, false_or, Json.arr.injEq]
    constructor
    · rintro ⟨_, ⟨bs, rfl, rfl⟩, h⟩
      simp only [Option.getD_some] at h
      subst h; exact .inr rfl
    · rintro (h | rfl)
      · cases h
      · exact ⟨some [], ⟨[], rfl, rfl⟩, rfl⟩
  | null => simp [Json.mask]
  | bool b =>
    cases b
    · simp only [Json.mask, Except.ok.injEq, exists_eq_left', Option.getD_none, true_iff]
      exact .inr (.inl .no)
    · simp only [Json.mask, reduceCtorEq, false_and, exists_const, false_or, or_false, false_iff]
      intro h
      have := isNumber_inj h .yes
      norm_num at this
  | num x =>
    simp only [Json.mask, reduceCtorEq, false_or, or_false]
    constructor
    · rintro ⟨m, h, -⟩
      split_ifs at h with hx
      subst hx; exact .num 0
    · intro h
      have := isNumber_inj h (.num x)
      exact ⟨none, by rw [if_pos this.symm], rfl⟩
  | str _ => simp only [Json.mask, reduceCtorEq, false_and, exists_const, false_or, or_false, false_iff]; rintro ⟨⟩
  | obj _ => simp only [Json.mask, reduceCtorEq, false_and, exists_const, false_or, or_false, false_iff]; rintro ⟨⟩

theorem mask_some {j : Json} {bs : List Bool} (hb : bs ≠ []) :
    (∃ m, j.mask = .ok m ∧ m.getD [] = bs) ↔ j = .arr (bs.map Json.bool) := by
  cases j with
  | arr l =>
    simp only [mask_list, Json.arr.injEq]
    constructor
    · rintro ⟨_, ⟨bs', rfl, rfl⟩, rfl⟩; rfl
    · rintro rfl; exact ⟨some bs, ⟨bs, rfl, rfl⟩, rfl⟩
  | null => simpa [Json.mask] using hb.symm
  | bool b => cases b <;> simp [Json.mask, hb.symm]
  | num x =>
    simp only [Json.mask, reduceCtorEq, iff_false]
    rintro ⟨m, h, h2⟩
    split_ifs at h
    simp only [Except.ok.injEq] at h; subst h; exact hb h2.symm
  | str _ => simp [Json.mask]
  | obj _ => simp [Json.mask]

/-! ## Observations -/

theorem obsIndices_ok (t0 dt : ℝ) (N : ℕ) (hdt : dt ≠ 0) (n : ℝ) :
    (∃ r, obsIndices (Spec.grid t0 dt N) n = .ok r) ↔ 0 < dt ∧ n ≤ ⌊1 / dt⌋ ∧ 0 < Spec.numObs N dt n := by
  rcases Nat.eq_zero_or_pos N with rfl | hN
  · constructor
    · rintro ⟨r, h⟩
      simp [obsIndices, Spec.grid, idx] at h
    · rintro ⟨_, _, h⟩; simp [Spec.numObs] at h
  rcases lt_or_gt_of_ne hdt with hneg | hpos
  · constructor
    · rintro ⟨r, h⟩
      exfalso
      have hl : (Spec.grid t0 dt N).length = N + 1 := by simp [Spec.grid]
      have h1 : idx (Spec.grid t0 dt N) 1 = .ok (t0 + dt) := by
        rw [idx_ok (by rw [hl]; omega)]; simp [Spec.grid]
      have h0 : idx (Spec.grid t0 dt N) 0 = .ok t0 := by
        rw [idx_ok (by rw [hl]; omega)]; simp [Spec.grid]
      unfold obsIndices at h
      rw [h1, h0] at h
      simp only [py_ok_bind, add_sub_cancel_left, if_neg hdt] at h
      have hi : pyInt (1.0 / dt) ≤ 0 := by
        have : (1.0 : ℝ) / dt < 0 := div_neg_of_pos_of_neg (by norm_num) hneg
        unfold pyInt
        rw [if_neg (not_le.2 this)]
        exact Int.ceil_le.2 (by simpa using this.le)
      split_ifs at h with c1 c2 c3
      apply c3
      have hn : n ≤ 0 := (not_lt.1 c1).trans (by exact_mod_cast hi)
      have : |t0 - (Spec.grid t0 dt N).getLastD 0| * n ≤ 0 := mul_nonpos_of_nonneg_of_nonpos (abs_nonneg _) hn
      exact Int.floor_le_iff.2 (by push_cast; linarith)
    · rintro ⟨h, _⟩; exact absurd h (not_lt.2 hneg.le)
  · obtain ⟨h1, h2, h3, h4⟩ := obsIndices_grid t0 dt N hN hpos n
    constructor
    · rintro ⟨r, h⟩
      refine ⟨hpos, ?_, ?_⟩
      · by_contra hc
        rw [h1 (not_le.1 hc)] at h; cases h
      · by_contra hc
        have hn : n ≤ ⌊1 / dt⌋ := by
          by_contra hc
          rw [h1 (not_le.1 hc)] at h; cases h
        by_cases hm : Spec.numObs N dt n + 2 < 0
        · rw [h2 hn hm] at h; cases h
        · rw [h3 hn (by omega) (by omega)] at h; cases h
    · rintro ⟨_, hn, hM⟩
      obtain ⟨M, hM'⟩ := Int.eq_ofNat_of_zero_le hM.le
      exact ⟨_, h4 hn M hM' (by omega)⟩

theorem numObs_pos_N {N : ℕ} {dt n : ℝ} (h : 0 < Spec.numObs N dt n) : 0 < N := by
  rcases Nat.eq_zero_or_pos N with rfl | h'
  · simp [Spec.numObs] at h
  · exact h'

theorem collectObs1_ok (R : Rng G) (p : Proc G ℝ) {t0 dt : ℝ} {N : ℕ} {x : ℕ → ℝ} (hdt : dt ≠ 0)
    (htk : p.tk = some (Spec.grid t0 dt N)) (hxt : p.xt = some (List.ofFn fun i : Fin (N + 1) => x i)) (n : ℝ)
    (a : NdArr) (m : Option (List Bool)) :
    (∃ r, (p.collectObs1 R n a m).1 = .ok r) ↔ 0 < dt ∧ n ≤ ⌊1 / dt⌋ ∧ ∃ M : ℕ, Spec.numObs N dt n = M ∧ 0 < M
      ∧ m.getD [] = [] ∧ ((∃ x, a = .scalar x) ∨ ∃ k v, a = .vec k v ∧ (k = M ∨ k = 1)) := by
  by_cases hc : 0 < dt ∧ n ≤ ⌊1 / dt⌋ ∧ 0 < Spec.numObs N dt n
  · obtain ⟨hpos, hn, hM⟩ := hc
    obtain ⟨M, hM'⟩ := Int.eq_ofNat_of_zero_le hM.le
    have hN := numObs_pos_N hM
    have hM0 : 0 < M := by omega
    have hMN : M ≤ N := by have := numObs_le (N := N) hpos hn; omega
    have hs := eqIdx_spec N M hMN
    have hr : (0 < dt ∧ n ≤ ⌊1 / dt⌋ ∧ ∃ M : ℕ, Spec.numObs N dt n = M ∧ 0 < M
        ∧ m.getD [] = [] ∧ ((∃ x, a = .scalar x) ∨ ∃ k v, a = .vec k v ∧ (k = M ∨ k = 1)))
        ↔ (m.getD [] = [] ∧ ((∃ x, a = .scalar x) ∨ ∃ k v, a = .vec k v ∧ (k = M ∨ k = 1))) := by
      constructor
      · rintro ⟨_, _, M', e, _, h⟩
        obtain rfl : M = M' := by rw [hM'] at e; exact_mod_cast e
        exact h
      · intro h; exact ⟨hpos, hn, M, hM', hM0, h⟩
    rw [hr]
    unfold Proc.collectObs1
    rw [htk, hxt]
    simp only [(obsIndices_grid t0 dt N hN hpos n).2.2.2 hn M hM' hM0]
    rw [npTake_ofFn N x _ (fun i => (hs.2.1 i).2)]
    simp only []
    by_cases hm : m.getD [] = []
    · simp only [hm, ne_eq, not_true, if_false, true_and]
      have hz : (R.normals M p.rng).1.length = M := by rw [normals_eq]; simp
      generalize (R.normals M p.rng).1 = z at hz
      cases a with
      | scalar r =>
        simp [sqrtScale, addInPlace, hz]
      | vec k v =>
        simp only [sqrtScale, hz]
        by_cases hk : k = M
        · subst hk
          simp [addInPlace, hz]
        · by_cases hk1 : k = 1
          · subst hk1
            simp [addInPlace, hz, hk]
          · by_cases hM1 : M = 1
            · subst hM1
              have hk' : ¬ 1 = k := fun h => hk h.symm
              simp [addInPlace, hk, hk']
            · simp [hk, hk1, hM1]
      | mat r c A => simp [sqrtScale]
      | high l => simp [sqrtScale]
    · simp [hm]
  · constructor
    · rintro ⟨r, h⟩
      exfalso
      apply hc
      rw [← obsIndices_ok t0 dt N hdt n]
      unfold Proc.collectObs1 at h
      rw [htk, hxt] at h
      cases e : obsIndices (Spec.grid t0 dt N) n with
      | ok r => exact ⟨r, rfl⟩
      | error e' => simp only [e] at h; cases h
    · rintro ⟨h1, h2, M, h3, h4, -⟩
      exact absurd ⟨h1, h2, by omega⟩ hc

theorem maskCols_length {d : ℕ} {bs : List Bool} (h : bs.length = d) : (maskCols bs : List (Fin d)).length = bs.count true := by
  subst h
  unfold maskCols
  have e : (List.finRange bs.length).map (fun j : Fin bs.length => bs.getD j false) = bs := by
    apply List.ext_getElem
    · simp
    · intro i h1 h2; simp
  have e2 := congrArg (List.count true) e
  rw [List.count_eq_countP, List.countP_map, List.countP_eq_length_filter] at e2
  rw [← e2]
  congr 1
  apply List.filter_congr
  intro j _
  simp

theorem obsNoise_ok {k : ℕ} {a : NdArr} : (∃ N, obsNoise k a = .ok N) ↔
    (∃ x, a = .scalar x) ∨ (∃ v, a = .vec k v) ∨ ∃ r c A, a = .mat r c A ∧ (r = k ∨ r = 1) ∧ (c = k ∨ c = 1) := by
  cases a with
  | scalar x => simp [obsNoise]
  | vec c v =>
    by_cases h : c = k
    · subst h; simp [obsNoise]
    · simp [obsNoise, h]
  | mat r c A =>
    simp only [obsNoise]
    have hr : (∃ r' c' A', NdArr.mat r c A = .mat r' c' A' ∧ (r' = k ∨ r' = 1) ∧ (c' = k ∨ c' = 1))
        ↔ (r = k ∨ r = 1) ∧ (c = k ∨ c = 1) := by
      constructor
      · rintro ⟨r', c', A', h, h2⟩; cases h; exact h2
      · intro h; exact ⟨r, c, A, rfl, h⟩
    rw [hr]
    simp only [reduceCtorEq, exists_const, false_or]
    by_cases h : r = k ∧ c = k
    · simp [h]
    · rw [dif_neg h]
      by_cases h' : (r = k ∨ r = 1) ∧ (c = k ∨ c = 1)
      · simp [h']
      · simp [h']
  | high l => simp [obsNoise]

theorem collectObsN_ok {d : ℕ} (R : Rng G) (p : Proc G (Fin d → ℝ)) {t0 dt : ℝ} {N : ℕ} {x : ℕ → Fin d → ℝ} (hdt : dt ≠ 0)
    (htk : p.tk = some (Spec.grid t0 dt N)) (hxt : p.xt = some (List.ofFn fun i : Fin (N + 1) => x i)) (n : ℝ)
    (a : NdArr) (m : Option (List Bool)) :
    (∃ r, (p.collectObsN R n a m).1 = .ok r) ↔ 0 < dt ∧ n ≤ ⌊1 / dt⌋ ∧ ∃ M : ℕ, Spec.numObs N dt n = M ∧ 0 < M
      ∧ ∃ k, (m.getD [] = [] ∧ k = d ∨ m.getD [] ≠ [] ∧ (m.getD []).length = d ∧ (m.getD []).count true = k)
        ∧ if k = 1 then M = 1 ∧ ((∃ x, a = .scalar x) ∨ (∃ v, a = .vec 1 v) ∨ ∃ A, a = .mat 1 1 A)
          else (∃ x, a = .scalar x) ∨ (∃ v, a = .vec k v) ∨ ∃ r c A, a = .mat r c A ∧ (r = k ∨ r = 1) ∧ (c = k ∨ c = 1) := by
  by_cases hc : 0 < dt ∧ n ≤ ⌊1 / dt⌋ ∧ 0 < Spec.numObs N dt n
  · obtain ⟨hpos, hn, hM⟩ := hc
    obtain ⟨M, hM'⟩ := Int.eq_ofNat_of_zero_le hM.le
    have hN := numObs_pos_N hM
    have hM0 : 0 < M := by omega
    have hMN : M ≤ N := by have := numObs_le (N := N) hpos hn; omega
    have hs := eqIdx_spec N M hMN
    have hr : ∀ Q : ℕ → Prop, (0 < dt ∧ n ≤ ⌊1 / dt⌋ ∧ ∃ M : ℕ, Spec.numObs N dt n = M ∧ 0 < M ∧ Q M) ↔ Q M := by
      intro Q
      constructor
      · rintro ⟨_, _, M', e, _, h⟩
        obtain rfl : M = M' := by rw [hM'] at e; exact_mod_cast e
        exact h
      · intro h; exact ⟨hpos, hn, M, hM', hM0, h⟩
    rw [hr]
    unfold Proc.collectObsN
    rw [htk, hxt]
    simp only [(obsIndices_grid t0 dt N hN hpos n).2.2.2 hn M hM' hM0]
    rw [npTake_ofFn N x _ (fun i => (hs.2.1 i).2)]
    simp only []
    by_cases hm : m.getD [] ≠ [] ∧ (m.getD []).length ≠ d
    · rw [if_pos hm]
      constructor
      · rintro ⟨r, h⟩; cases h
      · rintro ⟨k, (⟨h, -⟩ | ⟨-, h, -⟩), -⟩
        · exact absurd h hm.1
        · exact absurd h hm.2
    · rw [if_neg hm]
      have hlen : (if m.getD [] ≠ [] then (maskCols (m.getD []) : List (Fin d)) else List.finRange d).length
          = if m.getD [] ≠ [] then (m.getD []).count true else d := by
        split_ifs with h
        · exact maskCols_length (by by_contra hc; exact hm ⟨h, hc⟩)
        · simp
      have hk : ∀ Q : ℕ → Prop, (∃ k, (m.getD [] = [] ∧ k = d ∨ m.getD [] ≠ [] ∧ (m.getD []).length = d
          ∧ (m.getD []).count true = k) ∧ Q k) ↔ Q (if m.getD [] ≠ [] then (m.getD []).count true else d) := by
        intro Q
        by_cases h : m.getD [] = []
        · simp [h]
        · have : (m.getD []).length = d := by by_contra hc; exact hm ⟨h, hc⟩
          simp [h, this]
      rw [hk, ← hlen]
      generalize (if m.getD [] ≠ [] then (maskCols (m.getD []) : List (Fin d)) else List.finRange d) = cols
      by_cases h1 : cols.length = 1
      · rw [if_pos h1, if_pos h1]
        by_cases hM1 : M = 1
        · subst hM1
          simp only [if_true, true_and]
          cases a with
          | scalar r => simp [sqrtOne]
          | vec k v =>
            by_cases hk1 : k = 1
            · subst hk1; simp [sqrtOne]
            · have : ∀ z, sqrtOne (.vec k v) z = .error .valueError := by
                intro z; unfold sqrtOne; split <;> simp_all
              simp [this, hk1]
          | mat r c A =>
            by_cases hk1 : r = 1 ∧ c = 1
            · obtain ⟨rfl, rfl⟩ := hk1; simp [sqrtOne]
            · have : ∀ z, sqrtOne (.mat r c A) z = .error .valueError := by
                intro z; unfold sqrtOne; split <;> simp_all
              simp only [this, reduceCtorEq, exists_const, false_or, NdArr.mat.injEq]
              constructor
              · rintro ⟨_, h⟩; exact h.elim
              · rintro ⟨A', h, h', -⟩; exact absurd ⟨h, h'⟩ hk1
          | high l => simp [sqrtOne]
        · simp [hM1]
      · rw [if_neg h1, if_neg h1]
        rw [← obsNoise_ok]
        cases obsNoise cols.length a with
        | error e => simp
        | ok N' =>
          simp only []
          rw [if_neg (by simp)]
          simp
  · constructor
    · rintro ⟨r, h⟩
      exfalso
      apply hc
      rw [← obsIndices_ok t0 dt N hdt n]
      unfold Proc.collectObsN at h
      rw [htk, hxt] at h
      cases e : obsIndices (Spec.grid t0 dt N) n with
      | ok r => exact ⟨r, rfl⟩
      | error e' => simp only [e] at h; cases h
    · rintro ⟨h1, h2, M, h3, h4, -⟩
      exact absurd ⟨h1, h2, by omega⟩ hc

/-! ## Shapes -/

theorem noise1_iff {j : Json} {M : ℕ} :
    (∃ a, j.ndArr = .ok a ∧ ((∃ x, a = .scalar x) ∨ ∃ k v, a = .vec k v ∧ (k = M ∨ k = 1))) ↔ Spec.NoiseShape1 M j := by
  simp only [ndArr_cases]
  constructor
  · rintro ⟨a, (⟨x, hx, rfl⟩ | ⟨l, hl, rfl⟩ | ⟨r, c, hr, _, _, rfl⟩), h⟩
    · exact .inl ⟨x, hx⟩
    · rcases h with ⟨x, h⟩ | ⟨k, v, h, hk⟩
      · cases h
      · simp only [NdArr.vec.injEq] at h
        exact .inr ⟨l, hl, by rw [h.1]; exact hk⟩
    · rcases h with ⟨x, h⟩ | ⟨k, v, h, hk⟩ <;> cases h
  · rintro (⟨x, hx⟩ | ⟨l, hl, h⟩)
    · exact ⟨_, .inl ⟨x, hx, rfl⟩, .inl ⟨x, rfl⟩⟩
    · exact ⟨_, .inr (.inl ⟨l, hl, rfl⟩), .inr ⟨_, _, rfl, h⟩⟩

/-- The three forms of an array, by shape. -/
theorem shape_iff {j : Json} (S : Prop) (V : ℕ → Prop) (T : ℕ → ℕ → Prop) :
    (∃ a, j.ndArr = .ok a ∧ ((∃ x, a = .scalar x) ∧ S ∨ (∃ k v, a = .vec k v ∧ V k) ∨ ∃ r c A, a = .mat r c A ∧ T r c))
      ↔ (∃ x, Spec.IsNumber j x) ∧ S ∨ (∃ l, Spec.IsVector j l ∧ V l.length) ∨ ∃ r c, 0 < r ∧ Spec.TableShape j r c ∧ T r c := by
  simp only [ndArr_cases]
  constructor
  · rintro ⟨a, (⟨x, hx, rfl⟩ | ⟨l, hl, rfl⟩ | ⟨rows, c, hr, hne, hall, rfl⟩), (⟨⟨y, e⟩, h⟩ | ⟨k, v, e, h⟩ | ⟨r', c', A, e, h⟩)⟩
    all_goals try (cases e; done)
    · exact .inl ⟨⟨x, hx⟩, h⟩
    · simp only [NdArr.vec.injEq] at e
      exact .inr (.inl ⟨l, hl, by rw [e.1]; exact h⟩)
    · simp only [NdArr.mat.injEq] at e
      refine .inr (.inr ⟨rows.length, c, List.length_pos_iff.2 hne, ⟨rows, hr, rfl, hall⟩, ?_⟩)
      rw [e.1, e.2.1]; exact h
  · rintro (⟨⟨x, hx⟩, h⟩ | ⟨l, hl, h⟩ | ⟨r, c, hr0, ⟨rows, hrows, hlen, hall⟩, h⟩)
    · exact ⟨_, .inl ⟨x, hx, rfl⟩, .inl ⟨⟨x, rfl⟩, h⟩⟩
    · exact ⟨_, .inr (.inl ⟨l, hl, rfl⟩), .inr (.inl ⟨_, _, rfl, h⟩)⟩
    · subst hlen
      exact ⟨_, .inr (.inr ⟨rows, c, hrows, List.length_pos_iff.1 hr0, hall, rfl⟩), .inr (.inr ⟨_, _, _, rfl, h⟩)⟩

theorem noise_iff {j : Json} {k M : ℕ} :
    (∃ a, j.ndArr = .ok a ∧ (if k = 1 then M = 1 ∧ ((∃ x, a = .scalar x) ∨ (∃ v, a = .vec 1 v) ∨ ∃ A, a = .mat 1 1 A)
          else (∃ x, a = .scalar x) ∨ (∃ v, a = .vec k v) ∨ ∃ r c A, a = .mat r c A ∧ (r = k ∨ r = 1) ∧ (c = k ∨ c = 1)))
      ↔ Spec.NoiseShape k M j := by
  unfold Spec.NoiseShape
  by_cases hk : k = 1
  · simp only [if_pos hk]
    have h := shape_iff (j := j) True (fun n => n = 1) (fun r c => r = 1 ∧ c = 1)
    constructor
    · rintro ⟨a, ha, hM, h'⟩
      refine ⟨hM, ?_⟩
      rcases h.1 ⟨a, ha, by
        rcases h' with h' | ⟨v, rfl⟩ | ⟨A, rfl⟩
        · exact .inl ⟨h', trivial⟩
        · exact .inr (.inl ⟨1, v, rfl, rfl⟩)
        · exact .inr (.inr ⟨1, 1, A, rfl, rfl, rfl⟩)⟩ with h | h | ⟨r, c, _, hs, rfl, rfl⟩
      · exact .inl h.1
      · exact .inr (.inl h)
      · exact .inr (.inr hs)
    · rintro ⟨hM, h'⟩
      obtain ⟨a, ha, h'⟩ := h.2 (by
        rcases h' with h' | h' | h'
        · exact .inl ⟨h', trivial⟩
        · exact .inr (.inl h')
        · exact .inr (.inr ⟨1, 1, one_pos, h', rfl, rfl⟩))
      refine ⟨a, ha, hM, ?_⟩
      rcases h' with h' | ⟨k, v, rfl, rfl⟩ | ⟨r, c, A, rfl, rfl, rfl⟩
      · exact .inl h'.1
      · exact .inr (.inl ⟨v, rfl⟩)
      · exact .inr (.inr ⟨A, rfl⟩)
  · simp only [if_neg hk]
    have h := shape_iff (j := j) True (fun n => n = k) (fun r c => (r = k ∨ r = 1) ∧ (c = k ∨ c = 1))
    simp only [and_true] at h
    rw [← h]
    refine exists_congr fun a => and_congr_right fun _ => or_congr_right (or_congr_left ?_)
    constructor
    · rintro ⟨v, rfl⟩; exact ⟨k, v, rfl, rfl⟩
    · rintro ⟨_, v, rfl, rfl⟩; exact ⟨v, rfl⟩

theorem vec_form {n : ℕ} {v : Fin n → ℝ} {V : ℕ → Prop} : (∃ k v', NdArr.vec n v = .vec k v' ∧ V k) ↔ V n := by
  constructor
  · rintro ⟨k, v', e, h⟩; cases e; exact h
  · intro h; exact ⟨n, v, rfl, h⟩

theorem mat_form {r c : ℕ} {A : Matrix (Fin r) (Fin c) ℝ} {T : ℕ → ℕ → Prop} :
    (∃ r' c' A', NdArr.mat r c A = .mat r' c' A' ∧ T r' c') ↔ T r c := by
  constructor
  · rintro ⟨r', c', A', e, h⟩; cases e; exact h
  · intro h; exact ⟨r, c, A, rfl, h⟩

theorem mean_iff {p : AnyProc G} {j : Json} : (∃ a, AnyProc.timesOnes p (.given j) = .ok a) ↔ Spec.MeanShape p.dim j := by
  have h := shape_iff (j := j) True (fun n => n = p.dim ∨ n = 1) (fun r c => c = p.dim ∨ c = 1)
  simp only [and_true] at h
  unfold Spec.MeanShape
  rw [← h]
  unfold AnyProc.timesOnes AnyProc.priorArr
  simp only [py_bind_ok]
  rw [exists_comm]
  refine exists_congr fun a => ?_
  rw [exists_and_left]
  refine and_congr_right fun _ => ?_
  cases a with
  | scalar x => simp
  | vec n v =>
    rw [vec_form (V := fun n => n = p.dim ∨ n = 1)]
    by_cases h1 : n = p.dim
    · simp [h1]
    · by_cases h2 : n = 1
      · simp [h2]
        split_ifs <;> simp
      · simp [h1, h2]
  | mat r c A =>
    rw [mat_form (T := fun r c => c = p.dim ∨ c = 1)]
    by_cases h1 : c = p.dim ∨ c = 1
    · simp [h1]
    · simp [h1]
  | high l => simp

theorem var_iff {p : AnyProc G} {j : Json} : (∃ a, AnyProc.timesEye p (.given j) = .ok a) ↔ Spec.VarShape p.dim j := by
  have h := shape_iff (j := j) True (fun n => n = p.dim ∨ n = 1) (fun r c => (r = p.dim ∨ r = 1) ∧ (c = p.dim ∨ c = 1))
  simp only [and_true] at h
  unfold Spec.VarShape
  rw [← h]
  unfold AnyProc.timesEye AnyProc.priorArr
  simp only [py_bind_ok]
  rw [exists_comm]
  refine exists_congr fun a => ?_
  rw [exists_and_left]
  refine and_congr_right fun _ => ?_
  cases a with
  | scalar x => simp
  | vec n v =>
    rw [vec_form (V := fun n => n = p.dim ∨ n = 1)]
    by_cases h1 : n = p.dim
    · simp [h1]
    · by_cases h2 : n = 1
      · simp [h2]
        split_ifs <;> simp
      · simp [h1, h2]
  | mat r c A =>
    rw [mat_form (T := fun r c => (r = p.dim ∨ r = 1) ∧ (c = p.dim ∨ c = 1))]
    by_cases h0 : r = p.dim ∧ c = p.dim
    · simp [h0]
    · by_cases h1 : (r = p.dim ∨ r = 1) ∧ (c = p.dim ∨ c = 1)
      · simp [h1, h0]
      · simp [h1, h0]
  | high l => simp

theorem toArr_ofFn {n : ℕ} {l : List ℝ} (h : l.length = n) : List.ofFn (fun i : Fin n => l.getD i 0) = l := by
  subst h
  apply List.ext_getElem <;> simp

/-- The system noise of the Lorenz models. -/
theorem sys_iff {d : ℕ} (hd : 0 < d) {j : Json} : (∃ a S, j.ndArr = .ok a ∧ sigmaMatrix d a = .ok S
      ∧ (∀ z ∈ npEigvals S, npGtZero z) ∧ ∃ c, cholInv S = .ok c) ↔ Spec.SysOk d j := by
  have hchol : ∀ S : Matrix (Fin d) (Fin d) ℝ, (∃ c, cholInv S = .ok c)
      ↔ (Matrix.of fun i j => if j ≤ i then S i j else S j i).PosDef := by
    intro S
    have h := C11_result_of_symmetrised S (Matrix.of fun i j => if j ≤ i then S i j else S j i) (by
      ext i j
      simp only [Matrix.transpose_apply, Matrix.of_apply]
      rcases lt_trichotomy i j with h | h | h
      · simp [h.le, not_le.2 h]
      · subst h; rfl
      · simp [h.le, not_le.2 h]) (by intro i j h; simp [h])
    constructor
    · rintro ⟨c, hc⟩
      by_contra hn
      rw [(h.2 hn).1] at hc; cases hc
    · intro hp
      obtain ⟨c, hc, -⟩ := h.1 hp
      exact ⟨_, hc⟩
  have hok : ∀ S : Matrix (Fin d) (Fin d) ℝ, ((∀ z ∈ npEigvals S, npGtZero z) ∧ ∃ c, cholInv S = .ok c) ↔ Spec.NoiseMatrixOk S :=
    fun S => and_congr Iff.rfl (hchol S)
  have hdiag : ∀ v : Fin d → ℝ, Spec.NoiseMatrixOk (Matrix.diagonal v) ↔ ∀ i, 0 < v i := by
    intro v
    rw [← hok, (eig_pos_iff (Matrix.isSymm_diagonal v)).1, diag_posDef_iff, hchol]
    have : (Matrix.of fun i j => if j ≤ i then Matrix.diagonal v i j else Matrix.diagonal v j i) = Matrix.diagonal v := by
      ext i j
      simp only [Matrix.of_apply]
      split_ifs
      · rfl
      · simp only [Matrix.diagonal_apply]
        split_ifs with h1 h2 h2
        · rw [h1]
        · exact absurd h1.symm h2
        · exact absurd h2.symm h1
        · rfl
    rw [this, diag_posDef_iff]
    simp
  simp only [hok]
  unfold Spec.SysOk
  constructor
  · rintro ⟨a, S, ha, hS, h⟩
    rw [ndArr_cases] at ha
    rcases ha with ⟨x, hx, rfl⟩ | ⟨l, hl, rfl⟩ | ⟨rows, c, hr, hne, hall, rfl⟩
    · simp [sigmaMatrix] at hS
    · simp only [sigmaMatrix] at hS
      split_ifs at hS with hd
      simp only [Except.ok.injEq] at hS
      subst hS
      rw [hdiag] at h
      refine .inl ⟨l, hl, hd, fun x hx => ?_⟩
      obtain ⟨i, hi, rfl⟩ := List.getElem_of_mem hx
      have := h ⟨i, by omega⟩
      simpa [hi] using this
    · simp only [sigmaMatrix] at hS
      split_ifs at hS with hrc
      simp only [Except.ok.injEq] at hS
      subst hS
      refine .inr ⟨_, ?_, h⟩
      unfold Spec.IsMatrix
      convert hr
      apply List.ext_getElem
      · simp [hrc.1]
      · intro i h1 h2
        have e : rows.getD i [] = rows[i] := by simp [h2]
        rw [List.getElem_ofFn]
        show List.ofFn (fun k : Fin d => (rows.getD i []).getD k 0) = rows[i]
        rw [e]
        exact toArr_ofFn ((hall _ (List.getElem_mem h2)).trans hrc.2)
  · rintro (⟨l, hl, hd', h⟩ | ⟨M, hM, h⟩)
    · subst hd'
      refine ⟨.vec l.length fun i => l.getD i 0, Matrix.diagonal fun i => l.getD i 0, ?_, ?_, ?_⟩
      · rw [ndArr_cases]; exact .inr (.inl ⟨l, hl, rfl⟩)
      · simp [sigmaMatrix]
      · rw [hdiag]
        intro i
        apply h
        simp
    · refine ⟨.mat d d M, M, ?_, ?_, h⟩
      · rw [ndArr_cases]
        refine .inr (.inr ⟨_, d, hM, ?_, ?_, ?_⟩)
        · intro h0
          have := congrArg List.length h0
          simp at this; omega
        · intro l hl
          rw [List.mem_ofFn] at hl
          obtain ⟨i, rfl⟩ := hl
          simp
        · have key : ∀ (rows : List (List ℝ)) (r : ℕ) (A : Matrix (Fin r) (Fin d) ℝ), rows = List.ofFn (fun i => List.ofFn (A i)) →
              NdArr.mat r d A = .mat rows.length d (Matrix.of fun i k => (rows.getD i []).getD k 0) := by
            intro rows r A e
            have hl : rows.length = r := by rw [e]; simp
            subst hl
            congr 1
            ext i k
            simp only [Matrix.of_apply]
            have : rows.getD i [] = List.ofFn (A i) := by
              have h2 : i.1 < (List.ofFn fun i => List.ofFn (A i)).length := by rw [← e]; exact i.2
              have e2 : rows[i.1]? = (List.ofFn fun i => List.ofFn (A i))[i.1]? := congrArg (fun l => l[i.1]?) e
              rw [List.getD_eq_getElem?_getD, e2, List.getElem?_eq_getElem h2]
              simp
            rw [this]
            simp
          exact key _ d M rfl
      · simp only [sigmaMatrix, and_self, dite_true]
        rfl

/-! ## Constructors -/

/-- The class of a process. -/
def AnyProc.kind : AnyProc G → SysName
  | .dw _ => .DW
  | .ou _ => .OU
  | .l63 _ => .L63
  | .l96 _ => .L96

theorem proc_init_iff {X : Type} (R : Rng G) (g : G) (seed : Option ℤ) (b : Bool) :
    (∃ p, (Proc.init R g seed b : Py (Proc G X)) = .ok p) ↔ Spec.SeedOk seed := by
  refine ⟨?_, proc_init_ok R g seed b⟩
  rintro ⟨p, h⟩ s rfl
  simp only [Proc.init] at h
  split_ifs at h <;> omega

theorem proc_init_single {X : Type} {R : Rng G} {g : G} {seed : Option ℤ} {b : Bool} {p : Proc G X}
    (h : Proc.init R g seed b = .ok p) : p.single_dimension = b := by
  unfold Proc.init at h
  split at h
  · cases h; rfl
  · split_ifs at h <;> cases h <;> rfl

/-- The entries each constructor needs. -/
def CreateOk (k : SysName) (sys theta : Json) : Prop :=
  match k with
  | .DW => (∃ x, Spec.IsNumber sys x ∧ 0 < x) ∧ ∃ x, Spec.IsNumber theta x
  | .OU => (∃ x, Spec.IsNumber sys x ∧ 0 < x) ∧ ∃ x, Spec.IsNumber theta x ∧ 0 < x
  | .L63 => Spec.SysOk 3 sys ∧ ∃ l, Spec.IsVector theta l ∧ l.length = 3
  | .L96 => Spec.SysOk 40 sys ∧ ∃ x, Spec.IsNumber theta x

theorem notLe_gt (z : ℂ) : ¬ npLeZero z ↔ npGtZero z := by
  unfold npLeZero npGtZero
  constructor
  · intro h
    push Not at h
    rcases h.1.lt_or_eq with h' | h'
    · exact .inl h'
    · exact .inr ⟨h'.symm, h.2 h'.symm⟩
  · rintro (h | ⟨h1, h2⟩) (h' | ⟨h3, h4⟩) <;> linarith

theorem create_iff (E : Env G) (k : SysName) (sys theta seed : Json) :
    (∃ p, AnyProc.create E k sys theta seed = .ok p)
      ↔ (seed = .null ∨ ∃ n : ℕ, Spec.IsNumber seed n) ∧ CreateOk k sys theta := by
  rw [← seed_iff]
  cases k with
  | DW =>
    simp only [AnyProc.create, py_bind_ok, real_ok, DW.init, CreateOk, py_pure, Except.ok.injEq]
    constructor
    · rintro ⟨p, x, hx, y, hy, s, hs, o, ⟨b, hb, h⟩, rfl⟩
      split_ifs at h with h0
      exact ⟨⟨s, hs, (proc_init_iff ..).1 ⟨b, hb⟩⟩, ⟨x, hx, by norm_num at h0; exact h0⟩, y, hy⟩
    · rintro ⟨⟨s, hs, hok⟩, ⟨x, hx, h0⟩, y, hy⟩
      obtain ⟨b, hb⟩ := (proc_init_iff (X := ℝ) E.R E.entropy s true).2 hok
      exact ⟨_, x, hx, y, hy, s, hs, _, ⟨b, hb, by rw [if_neg (by norm_num; exact h0)]⟩, rfl⟩
  | OU =>
    simp only [AnyProc.create, py_bind_ok, real_ok, OU.init, CreateOk, py_pure, Except.ok.injEq]
    constructor
    · rintro ⟨p, x, hx, y, hy, s, hs, o, ⟨b, hb, h⟩, rfl⟩
      split_ifs at h with h0 h1
      exact ⟨⟨s, hs, (proc_init_iff ..).1 ⟨b, hb⟩⟩, ⟨x, hx, by norm_num at h0; exact h0⟩, y, hy, by norm_num at h1; exact h1⟩
    · rintro ⟨⟨s, hs, hok⟩, ⟨x, hx, h0⟩, y, hy, h1⟩
      obtain ⟨b, hb⟩ := (proc_init_iff (X := ℝ) E.R E.entropy s true).2 hok
      exact ⟨_, x, hx, y, hy, s, hs, _, ⟨b, hb, by
        rw [if_neg (by norm_num; exact h0), if_neg (by norm_num; exact h1)]⟩, rfl⟩
  | L63 =>
    simp only [AnyProc.create, py_bind_ok, L63.init, CreateOk, py_pure, Except.ok.injEq, ← vec_ok, ← sys_iff (d := 3) (by norm_num)]
    constructor
    · rintro ⟨p, a, ha, v, hv, s, hs, o, ⟨b, hb, S, hS, h⟩, rfl⟩
      split_ifs at h with h0
      obtain ⟨c, hc, -⟩ := py_bind_ok.1 h
      refine ⟨⟨s, hs, (proc_init_iff ..).1 ⟨b, hb⟩⟩, ⟨a, S, ha, hS, fun z hz => ?_, c, hc⟩, v, hv⟩
      rw [← notLe_gt]; exact fun h => h0 ⟨z, hz, h⟩
    · rintro ⟨⟨s, hs, hok⟩, ⟨a, S, ha, hS, hz, c, hc⟩, v, hv⟩
      obtain ⟨b, hb⟩ := (proc_init_iff (X := Fin 3 → ℝ) E.R E.entropy s false).2 hok
      refine ⟨.l63 ⟨b, S, v, c.1⟩, a, ha, v, hv, s, hs, ⟨b, S, v, c.1⟩, ⟨b, hb, S, hS, ?_⟩, rfl⟩
      rw [if_neg (by rintro ⟨z, h1, h2⟩; exact (notLe_gt z).2 (hz z h1) h2), hc]
      rfl
  | L96 =>
    simp only [AnyProc.create, py_bind_ok, real_ok, L96.init, CreateOk, py_pure, Except.ok.injEq, ← sys_iff (d := 40) (by norm_num)]
    constructor
    · rintro ⟨p, a, ha, v, hv, s, hs, o, ⟨b, hb, h⟩, rfl⟩
      rw [if_neg (by norm_num)] at h
      obtain ⟨S, hS, h⟩ := py_bind_ok.1 h
      split_ifs at h with h0
      obtain ⟨c, hc, -⟩ := py_bind_ok.1 h
      exact ⟨⟨s, hs, (proc_init_iff ..).1 ⟨b, hb⟩⟩, ⟨a, S, ha, hS, h0, c, hc⟩, v, hv⟩
    · rintro ⟨⟨s, hs, hok⟩, ⟨a, S, ha, hS, hz, c, hc⟩, v, hv⟩
      obtain ⟨b, hb⟩ := (proc_init_iff (X := Fin 40 → ℝ) E.R E.entropy s false).2 hok
      refine ⟨.l96 ⟨b, S, v, c.1⟩, a, ha, v, hv, s, hs, ⟨b, S, v, c.1⟩, ⟨b, hb, ?_⟩, rfl⟩
      rw [if_neg (by norm_num), hS, py_ok_bind, if_pos hz, hc]
      rfl

theorem create_kind {E : Env G} {k : SysName} {sys theta seed : Json} {p : AnyProc G}
    (h : AnyProc.create E k sys theta seed = .ok p) :
    p.kind = k ∧ p.singleDim = (k == .DW || k == .OU) := by
  cases k with
  | DW =>
    simp only [AnyProc.create, py_bind_ok, DW.init, py_pure, Except.ok.injEq] at h
    obtain ⟨x, _, y, _, s, _, o, ⟨b, hb, h⟩, rfl⟩ := h
    split_ifs at h; cases h
    exact ⟨rfl, proc_init_single hb⟩
  | OU =>
    simp only [AnyProc.create, py_bind_ok, OU.init, py_pure, Except.ok.injEq] at h
    obtain ⟨x, _, y, _, s, _, o, ⟨b, hb, h⟩, rfl⟩ := h
    split_ifs at h; cases h
    exact ⟨rfl, proc_init_single hb⟩
  | L63 =>
    simp only [AnyProc.create, py_bind_ok, L63.init, py_pure, Except.ok.injEq] at h
    obtain ⟨x, _, y, _, s, _, o, ⟨b, hb, S, hS, h⟩, rfl⟩ := h
    split_ifs at h
    obtain ⟨c, hc, h⟩ := py_bind_ok.1 h
    cases h
    exact ⟨rfl, proc_init_single hb⟩
  | L96 =>
    simp only [AnyProc.create, py_bind_ok, L96.init, py_pure, Except.ok.injEq] at h
    obtain ⟨x, _, y, _, s, _, o, ⟨b, hb, h⟩, rfl⟩ := h
    rw [if_neg (by norm_num)] at h
    obtain ⟨S, hS, h⟩ := py_bind_ok.1 h
    split_ifs at h
    obtain ⟨c, hc, h⟩ := py_bind_ok.1 h
    cases h
    exact ⟨rfl, proc_init_single hb⟩

/-! ## Paths -/

/-- The time points of a process. -/
def AnyProc.tk : AnyProc G → Option (List ℝ)
  | .dw o => o.base.tk
  | .ou o => o.base.tk
  | .l63 o => o.base.tk
  | .l96 o => o.base.tk

/-- The process has a path on a grid of `N` steps. -/
def HasPath (p : AnyProc G) (t0 dt : ℝ) (N : ℕ) : Prop :=
  match p with
  | .dw o => o.base.tk = some (Spec.grid t0 dt N) ∧ ∃ x : ℕ → ℝ, o.base.xt = some (List.ofFn fun i : Fin (N + 1) => x i)
  | .ou o => o.base.tk = some (Spec.grid t0 dt N) ∧ ∃ x : ℕ → ℝ, o.base.xt = some (List.ofFn fun i : Fin (N + 1) => x i)
  | .l63 o => o.base.tk = some (Spec.grid t0 dt N) ∧ ∃ x : ℕ → Fin 3 → ℝ, o.base.xt = some (List.ofFn fun i : Fin (N + 1) => x i)
  | .l96 o => o.base.tk = some (Spec.grid t0 dt N) ∧ ∃ x : ℕ → Fin 40 → ℝ, o.base.xt = some (List.ofFn fun i : Fin (N + 1) => x i)

theorem traj_tk {E : Env G} {p : AnyProc G} {a b c : Json} (h : (AnyProc.makeTrajectory E p a b c).1 = .ok ()) :
    ∃ t0 tf dt tk, Spec.IsNumber a t0 ∧ Spec.IsNumber b tf ∧ Spec.IsNumber c dt ∧ arange t0 (tf + dt) dt = .ok tk
      ∧ (AnyProc.makeTrajectory E p a b c).2.tk = some tk := by
  unfold AnyProc.makeTrajectory at h ⊢
  split at h
  · cases h
  · rename_i t0 tf dt he
    simp only [py_bind_ok, real_ok, py_pure, Except.ok.injEq, Prod.mk.injEq] at he
    obtain ⟨u0, h1, uf, h2, ud, h3, rfl, rfl, rfl⟩ := he
    refine ⟨u0, uf, ud, ?_⟩
    cases p with
    | dw o =>
      unfold DW.makeTrajectory at h ⊢
      dsimp only at h ⊢
      cases ha : arange u0 (uf + ud) ud with
      | error e => simp only [ha] at h; cases h
      | ok tk =>
        refine ⟨tk, h1, h2, h3, rfl, ?_⟩
        simp only [ha] at h ⊢
        by_cases hl : tk.length = 0
        · simp only [hl, if_true] at h; cases h
        simp only [hl, if_false] at h ⊢
        generalize fwdSweep _ (_ : ℝ) _ = f at h ⊢
        cases f with
        | error e => cases h
        | ok x => rfl
    | ou o =>
      simp only [OU.makeTrajectory] at h ⊢
      cases ha : arange u0 (uf + ud) ud with
      | error e => simp only [ha] at h; cases h
      | ok tk =>
        refine ⟨tk, h1, h2, h3, rfl, ?_⟩
        simp only [ha] at h ⊢
        by_cases hl : tk.length = 0
        · simp only [hl, if_true] at h; cases h
        simp only [hl, if_false] at h ⊢
        generalize fwdSweep _ (_ : ℝ) _ = f at h ⊢
        cases f with
        | error e => cases h
        | ok x => rfl
    | l63 o =>
      simp only [L63.makeTrajectory, LorenzObj.makeTrajectory] at h ⊢
      cases ha : arange u0 (uf + ud) ud with
      | error e => simp only [ha] at h; cases h
      | ok tk =>
        refine ⟨tk, h1, h2, h3, rfl, ?_⟩
        simp only [ha] at h ⊢
        by_cases hl : tk.length = 0
        · simp only [hl, if_true] at h; cases h
        simp only [hl, if_false] at h ⊢
        generalize fwdSweep _ (_ : Fin 3 → ℝ) _ = f at h ⊢
        cases f with
        | error e => cases h
        | ok x => rfl
    | l96 o =>
      simp only [L96.makeTrajectory, LorenzObj.makeTrajectory] at h ⊢
      cases ha : arange u0 (uf + ud) ud with
      | error e => simp only [ha] at h; cases h
      | ok tk =>
        refine ⟨tk, h1, h2, h3, rfl, ?_⟩
        simp only [ha] at h ⊢
        by_cases hl : tk.length = 0
        · simp only [hl, if_true] at h; cases h
        simp only [hl, if_false] at h ⊢
        generalize fwdSweep _ (_ : Fin 40 → ℝ) _ = f at h ⊢
        cases f with
        | error e => cases h
        | ok x => rfl

theorem traj_path (E : Env G) (p : AnyProc G) {a b c : Json} {t0 tf dt : ℝ} (h1 : Spec.IsNumber a t0) (h2 : Spec.IsNumber b tf)
    (h3 : Spec.IsNumber c dt) (hdt : 0 < dt) (h : t0 ≤ tf) :
    (AnyProc.makeTrajectory E p a b c).1 = .ok () ∧ HasPath (AnyProc.makeTrajectory E p a b c).2 t0 dt (gridN t0 tf dt)
      ∧ (AnyProc.makeTrajectory E p a b c).2.kind = p.kind := by
  unfold AnyProc.makeTrajectory
  simp only [real_ok.2 h1, real_ok.2 h2, real_ok.2 h3, py_ok_bind, py_pure]
  cases p with
  | dw o =>
    obtain ⟨x, e, -⟩ := dw_traj E.R o h hdt
    simp only [e]; exact ⟨trivial, ⟨rfl, x, rfl⟩, rfl⟩
  | ou o =>
    obtain ⟨x, e, -⟩ := ou_traj E.R o 0.0 h hdt
    simp only [e]; exact ⟨trivial, ⟨rfl, x, rfl⟩, rfl⟩
  | l63 o =>
    obtain ⟨x, g', e, -⟩ := lorenz_traj E.R o (fun x => l63 x o.theta) (fun _ => 1) h hdt
    simp only [L63.makeTrajectory, e]; exact ⟨trivial, ⟨rfl, x, rfl⟩, rfl⟩
  | l96 o =>
    obtain ⟨x, g', e, -⟩ := lorenz_traj E.R o (fun x => l96 x o.theta) (L96.start o.theta) h hdt
    simp only [L96.makeTrajectory, e]; exact ⟨trivial, ⟨rfl, x, rfl⟩, rfl⟩

theorem collect1_idx {R : Rng G} {p : Proc G ℝ} {tk : List ℝ} (htk : p.tk = some tk) {n : ℝ} {rn : NdArr} {m : Option (List Bool)}
    {r : Obs1} (h : (p.collectObs1 R n rn m).1 = .ok r) : ∃ q, obsIndices tk n = .ok q := by
  unfold Proc.collectObs1 at h
  split at h
  · rename_i tk' xt htk' hxt
    obtain rfl : tk' = tk := Option.some.inj (htk'.symm.trans htk)
    split at h
    · cases h
    · exact ⟨_, ‹_›⟩
  · cases h

theorem collectN_idx {d : ℕ} {R : Rng G} {p : Proc G (Fin d → ℝ)} {tk : List ℝ} (htk : p.tk = some tk) {n : ℝ} {rn : NdArr}
    {m : Option (List Bool)} {r : ObsN} (h : (p.collectObsN R n rn m).1 = .ok r) : ∃ q, obsIndices tk n = .ok q := by
  unfold Proc.collectObsN at h
  split at h
  · rename_i tk' xt htk' hxt
    obtain rfl : tk' = tk := Option.some.inj (htk'.symm.trans htk)
    split at h
    · cases h
    · exact ⟨_, ‹_›⟩
  · cases h

theorem map_ok {A B : Type} {f : A → B} {x : Py A} {b : B} : x.map f = .ok b ↔ ∃ a, x = .ok a ∧ f a = b := by
  cases x <;> simp [Except.map]

theorem collect_idx {E : Env G} {p : AnyProc G} {tk : List ℝ} (htk : p.tk = some tk) {density rn op : Json} {r : Arr × Arr × Arr}
    (h : (AnyProc.collectObs E p density rn op).1 = .ok r) : ∃ n q, obsIndices tk n = .ok q := by
  unfold AnyProc.collectObs at h
  split at h
  · cases h
  · rename_i n rn' m _
    cases p with
    | dw o => obtain ⟨r', h, _⟩ := map_ok.1 h; exact ⟨n, collect1_idx htk h⟩
    | ou o => obtain ⟨r', h, _⟩ := map_ok.1 h; exact ⟨n, collect1_idx htk h⟩
    | l63 o => obtain ⟨r', h, _⟩ := map_ok.1 h; exact ⟨n, collectN_idx htk h⟩
    | l96 o => obtain ⟨r', h, _⟩ := map_ok.1 h; exact ⟨n, collectN_idx htk h⟩

/-- Windows on which no density is accepted. -/
theorem bad_window {t0 tf dt : ℝ} {tk : List ℝ} (h : arange t0 (tf + dt) dt = .ok tk) {n : ℝ} {q : ℕ × List ℕ}
    (hq : obsIndices tk n = .ok q) : 0 < dt ∧ t0 ≤ tf := by
  unfold arange at h
  split_ifs at h with hdt
  cases h
  set L := ⌈(tf + dt - t0) / dt⌉.toNat with hL
  rcases Nat.lt_or_ge L 2 with h2 | h2
  · simp only [obsIndices, py_bind_ok] at hq
    obtain ⟨t1, h1, -⟩ := hq
    have : ¬ 1 < L := by omega
    simp [idx, this] at h1
  · obtain ⟨N, hN⟩ : ∃ N, L = N + 1 := ⟨L - 1, by omega⟩
    have e : (List.range L).map (fun i : ℕ => t0 + i * dt) = Spec.grid t0 dt N := by
      rw [hN, Spec.grid, List.ofFn_eq_map]
      apply List.ext_getElem <;> simp
    rw [e] at hq
    have hpos := ((obsIndices_ok t0 dt N hdt n).1 ⟨_, hq⟩).1
    refine ⟨hpos, ?_⟩
    by_contra hc
    push Not at hc
    have : (tf + dt - t0) / dt ≤ (1 : ℤ) := by
      rw [div_le_iff₀ hpos]; push_cast; linarith
    have := Int.ceil_le.2 this
    omega

/-- The entries that `collect_obs` needs when `M` observations are taken. -/
def ObsOk (k : SysName) (M : ℕ) (rn op : Json) : Prop :=
  match k with
  | .DW => Spec.NoOperator op ∧ Spec.NoiseShape1 M rn
  | .OU => Spec.NoOperator op ∧ Spec.NoiseShape1 M rn
  | .L63 => ∃ k, Spec.Operator 3 op k ∧ Spec.NoiseShape k M rn
  | .L96 => ∃ k, Spec.Operator 40 op k ∧ Spec.NoiseShape k M rn

theorem collect_iff (E : Env G) {p : AnyProc G} {t0 dt : ℝ} {N : ℕ} (hp : HasPath p t0 dt N) (hdt : dt ≠ 0) (density rn op : Json) :
    (∃ r, (AnyProc.collectObs E p density rn op).1 = .ok r) ↔ ∃ n : ℝ, Spec.IsNumber density n ∧ 0 < dt ∧ n ≤ ⌊1 / dt⌋
      ∧ ∃ M : ℕ, Spec.numObs N dt n = M ∧ 0 < M ∧ ObsOk p.kind M rn op := by
  have key : (∃ r, (AnyProc.collectObs E p density rn op).1 = .ok r) ↔ ∃ (n : ℝ) (a : NdArr) (m : Option (List Bool)),
      Spec.IsNumber density n ∧ rn.ndArr = .ok a ∧ op.mask = .ok m ∧ ∃ r, (match p with
        | .dw o => (o.base.collectObs1 E.R n a m).1.map AnyProc.obs1
        | .ou o => (o.base.collectObs1 E.R n a m).1.map AnyProc.obs1
        | .l63 o => (o.base.collectObsN E.R n a m).1.map AnyProc.obsN
        | .l96 o => (o.base.collectObsN E.R n a m).1.map AnyProc.obsN) = .ok r := by
    unfold AnyProc.collectObs
    constructor
    · rintro ⟨r, h⟩
      split at h
      · cases h
      · rename_i n a m he
        simp only [py_bind_ok, real_ok, py_pure, Except.ok.injEq, Prod.mk.injEq] at he
        obtain ⟨_, h1, _, h2, _, h3, rfl, rfl, rfl⟩ := he
        refine ⟨_, _, _, h1, h2, h3, r, ?_⟩
        cases p <;> exact h
    · rintro ⟨n, a, m, h1, h2, h3, r, h⟩
      refine ⟨r, ?_⟩
      simp only [real_ok.2 h1, h2, h3, py_ok_bind, py_pure]
      cases p <;> exact h
  rw [key]
  have one : ∀ (b : Proc G ℝ), b.tk = some (Spec.grid t0 dt N) → (∃ x : ℕ → ℝ, b.xt = some (List.ofFn fun i : Fin (N + 1) => x i)) →
      ((∃ (n : ℝ) (a : NdArr) (m : Option (List Bool)), Spec.IsNumber density n ∧ rn.ndArr = .ok a ∧ op.mask = .ok m
        ∧ ∃ r, (b.collectObs1 E.R n a m).1.map AnyProc.obs1 = .ok r)
      ↔ ∃ n : ℝ, Spec.IsNumber density n ∧ 0 < dt ∧ n ≤ ⌊1 / dt⌋
        ∧ ∃ M : ℕ, Spec.numObs N dt n = M ∧ 0 < M ∧ Spec.NoOperator op ∧ Spec.NoiseShape1 M rn) := by
    rintro b hb ⟨x, hx⟩
    constructor
    · rintro ⟨n, a, m, h1, h2, h3, r, h⟩
      obtain ⟨r', h, _⟩ := map_ok.1 h
      obtain ⟨h4, h5, M, h6, h7, h8, h9⟩ := (collectObs1_ok E.R b hdt hb hx n a m).1 ⟨r', h⟩
      exact ⟨n, h1, h4, h5, M, h6, h7, mask_none.1 ⟨m, h3, h8⟩, noise1_iff.1 ⟨a, h2, h9⟩⟩
    · rintro ⟨n, h1, h4, h5, M, h6, h7, h8, h9⟩
      obtain ⟨m, h3, h8⟩ := mask_none.2 h8
      obtain ⟨a, h2, h9⟩ := noise1_iff.2 h9
      obtain ⟨r', h⟩ := (collectObs1_ok E.R b hdt hb hx n a m).2 ⟨h4, h5, M, h6, h7, h8, h9⟩
      exact ⟨n, a, m, h1, h2, h3, _, map_ok.2 ⟨r', h, rfl⟩⟩
  have many : ∀ (d : ℕ) (_ : 0 < d) (b : Proc G (Fin d → ℝ)), b.tk = some (Spec.grid t0 dt N) →
      (∃ x : ℕ → Fin d → ℝ, b.xt = some (List.ofFn fun i : Fin (N + 1) => x i)) →
      ((∃ (n : ℝ) (a : NdArr) (m : Option (List Bool)), Spec.IsNumber density n ∧ rn.ndArr = .ok a ∧ op.mask = .ok m
        ∧ ∃ r, (b.collectObsN E.R n a m).1.map AnyProc.obsN = .ok r)
      ↔ ∃ n : ℝ, Spec.IsNumber density n ∧ 0 < dt ∧ n ≤ ⌊1 / dt⌋
        ∧ ∃ M : ℕ, Spec.numObs N dt n = M ∧ 0 < M ∧ ∃ k, Spec.Operator d op k ∧ Spec.NoiseShape k M rn) := by
    rintro d hd b hb ⟨x, hx⟩
    constructor
    · rintro ⟨n, a, m, h1, h2, h3, r, h⟩
      obtain ⟨r', h, _⟩ := map_ok.1 h
      obtain ⟨h4, h5, M, h6, h7, k, h8, h9⟩ := (collectObsN_ok E.R b hdt hb hx n a m).1 ⟨r', h⟩
      refine ⟨n, h1, h4, h5, M, h6, h7, k, ?_, noise_iff.1 ⟨a, h2, h9⟩⟩
      rcases h8 with ⟨h8, hk⟩ | ⟨h8, hl, hk⟩
      · exact .inl ⟨mask_none.1 ⟨m, h3, h8⟩, hk⟩
      · exact .inr ⟨_, h8, (mask_some h8).1 ⟨m, h3, rfl⟩, hl, hk⟩
    · rintro ⟨n, h1, h4, h5, M, h6, h7, k, h8, h9⟩
      obtain ⟨a, h2, h9⟩ := noise_iff.2 h9
      obtain ⟨m, h3, h8⟩ : ∃ m, op.mask = .ok m
          ∧ (m.getD [] = [] ∧ k = d ∨ m.getD [] ≠ [] ∧ (m.getD []).length = d ∧ (m.getD []).count true = k) := by
        rcases h8 with ⟨h8, hk⟩ | ⟨bs, h8, h8', hl, hk⟩
        · obtain ⟨m, h3, h8⟩ := mask_none.2 h8
          exact ⟨m, h3, .inl ⟨h8, hk⟩⟩
        · obtain ⟨m, h3, rfl⟩ := (mask_some h8).2 h8'
          exact ⟨m, h3, .inr ⟨h8, hl, hk⟩⟩
      obtain ⟨r', h⟩ := (collectObsN_ok E.R b hdt hb hx n a m).2 ⟨h4, h5, M, h6, h7, k, h8, h9⟩
      exact ⟨n, a, m, h1, h2, h3, _, map_ok.2 ⟨r', h, rfl⟩⟩
  cases p with
  | dw o => exact one o.base hp.1 hp.2
  | ou o => exact one o.base hp.1 hp.2
  | l63 o => exact many 3 (by norm_num) o.base hp.1 hp.2
  | l96 o => exact many 40 (by norm_num) o.base hp.1 hp.2

theorem collect_keeps (E : Env G) {p : AnyProc G} {t0 dt : ℝ} {N : ℕ} (hp : HasPath p t0 dt N) (density rn op : Json) :
    HasPath (AnyProc.collectObs E p density rn op).2 t0 dt N ∧ (AnyProc.collectObs E p density rn op).2.kind = p.kind := by
  unfold AnyProc.collectObs
  split
  · exact ⟨hp, rfl⟩
  · rename_i n a m _
    cases p with
    | dw o =>
      refine ⟨?_, rfl⟩
      obtain ⟨h1, h2, -⟩ := collectObs1_law E.R o.base n a m
      simp only [HasPath, h1, h2]; exact hp
    | ou o =>
      refine ⟨?_, rfl⟩
      obtain ⟨h1, h2, -⟩ := collectObs1_law E.R o.base n a m
      simp only [HasPath, h1, h2]; exact hp
    | l63 o =>
      refine ⟨?_, rfl⟩
      obtain ⟨h1, h2, -⟩ := collectObsN_law E.R o.base n a m
      simp only [HasPath, h1, h2]; exact hp
    | l96 o =>
      refine ⟨?_, rfl⟩
      obtain ⟨h1, h2, -⟩ := collectObsN_law E.R o.base n a m
      simp only [HasPath, h1, h2]; exact hp

theorem mean_ok (E : Env G) {p : AnyProc G} {t0 dt : ℝ} {N : ℕ} (hp : HasPath p t0 dt N) :
    (∃ a, (AnyProc.firstMean E p).1 = .ok a) ∧ (AnyProc.firstMean E p).2.kind = p.kind := by
  cases p with
  | dw o =>
    obtain ⟨_, x, hx⟩ := hp
    refine ⟨?_, rfl⟩
    simp only [AnyProc.firstMean, AnyProc.firstMean1, Proc.samplePath, hx, py_ok_bind, List.ofFn_succ, idx, List.getElem?_cons_zero]
    exact ⟨_, rfl⟩
  | ou o =>
    obtain ⟨_, x, hx⟩ := hp
    refine ⟨?_, rfl⟩
    simp only [AnyProc.firstMean, AnyProc.firstMean1, Proc.samplePath, hx, py_ok_bind, List.ofFn_succ, idx, List.getElem?_cons_zero]
    exact ⟨_, rfl⟩
  | l63 o =>
    obtain ⟨_, x, hx⟩ := hp
    refine ⟨?_, rfl⟩
    simp only [AnyProc.firstMean, AnyProc.firstMeanN, Proc.samplePath, hx, py_ok_bind, List.ofFn_succ, idx, List.getElem?_cons_zero]
    exact ⟨_, rfl⟩
  | l96 o =>
    obtain ⟨_, x, hx⟩ := hp
    refine ⟨?_, rfl⟩
    simp only [AnyProc.firstMean, AnyProc.firstMeanN, Proc.samplePath, hx, py_ok_bind, List.ofFn_succ, idx, List.getElem?_cons_zero]
    exact ⟨_, rfl⟩

theorem dim_kind (p : AnyProc G) : p.dim = match p.kind with | .DW => 1 | .OU => 1 | .L63 => 3 | .L96 => 40 := by
  cases p <;> rfl

/-- Only strings that equal one of the four names up to case select a class. -/
theorem findSystem_iff (j : Json) (k : SysName) :
    Sim.findSystem j = some k ↔ ∃ name t, j = .str name ∧ (t, k) ∈ Spec.modelNames ∧ Spec.SameUpToCase name t := by
  cases j with
  | str s =>
    constructor
    · intro h
      obtain ⟨l₁, l₂, h, -⟩ := List.lookup_eq_some_iff.1 (show dynamicalSystems.lookup (pyUpper s) = some k from h)
      have hm : (pyUpper s, k) ∈ Spec.modelNames := by
        change _ ∈ dynamicalSystems
        rw [h]; simp
      exact ⟨s, pyUpper s, rfl, hm, (pyUpper_eq_iff (names_upper hm)).1 rfl⟩
    · rintro ⟨_, t, h, hk, hs⟩
      cases h
      show dynamicalSystems.lookup (pyUpper s) = some k
      rw [(pyUpper_eq_iff (names_upper hk)).2 hs]
      simp only [Spec.modelNames, List.mem_cons, Prod.mk.injEq, List.not_mem_nil, or_false] at hk
      rcases hk with ⟨rfl, rfl⟩ | ⟨rfl, rfl⟩ | ⟨rfl, rfl⟩ | ⟨rfl, rfl⟩ <;> decide
  | _ => simp [Sim.findSystem]

theorem stochasticModel_ok (E : Env G) (name sys theta seed : Json) (p : AnyProc G) :
    Sim.stochasticModel (pyClasses E) name sys theta seed = .ok p ↔
      ∃ k, Sim.findSystem name = some k ∧ AnyProc.create E k sys theta seed = .ok p := by
  unfold Sim.stochasticModel
  cases Sim.findSystem name with
  | none => simp
  | some k =>
    simp only [Option.some.injEq, exists_eq_left']
    have e : (pyClasses E).create k sys theta seed = AnyProc.create E k sys theta seed := rfl
    cases h : AnyProc.create E k sys theta seed with
    | ok q => simp only [e, h]
    | error x => cases x <;> simp [e, h]

/-- C124: `setup(params)` returns exactly for the dictionaries described by `Spec.Accepted`; for every other dictionary it raises an exception. -/
theorem C124_setup_iff (E : Env G) (s : Sim (AnyProc G) Arr) (params : Json) :
    (s.setup (pyClasses E) params none).1 = .ok () ↔ ∃ e : Spec.Entries, e.In params ∧ Spec.Accepted e := by
  rw [setup_ok_iff]
  constructor
  · rintro ⟨drift, noise, tw, ode, seed, obs, prior, mu0, tau0, sys, theta, name, t0, tf, dt, density, rn, op, h1, h2, h3, h4, h5,
      h6, h7, h8, h9, h10, h11, h12, h14, h15, h16, e1, e2, e3, p, hp, ht, hc, q, hq, hm, hd⟩
    refine ⟨⟨name, theta, sys, rn, t0, tf, dt, ode, seed, density, op, mu0, tau0⟩, ⟨h12, ⟨_, h1, h11⟩, ⟨_, h2, h10, e2⟩,
      ⟨_, h3, h14, h15, h16⟩, h4, h5, ⟨_, h6, e1, e3⟩, ⟨_, h7, h8, h9⟩⟩, ?_⟩
    obtain ⟨k, hk, hcr⟩ := (stochasticModel_ok E name sys theta seed p).1 hp
    obtain ⟨hseed, hcreate⟩ := (create_iff E k sys theta seed).1 ⟨p, hcr⟩
    obtain ⟨hkind, hsingle⟩ := create_kind hcr
    refine ⟨hseed, ?_⟩
    change (AnyProc.makeTrajectory E p t0 tf dt).1 = .ok () at ht
    change ∃ r, (AnyProc.collectObs E (AnyProc.makeTrajectory E p t0 tf dt).2 density rn op).1 = .ok r at hc
    change q = (AnyProc.collectObs E (AnyProc.makeTrajectory E p t0 tf dt).2 density rn op).2 at hq
    obtain ⟨x0, xf, xd, tk, n0, nf, nd, har, htk⟩ := traj_tk ht
    obtain ⟨r, hr⟩ := hc
    obtain ⟨n, q', hq'⟩ := collect_idx htk hr
    obtain ⟨hpos, hle⟩ := bad_window har hq'
    obtain ⟨-, hpath, hk1⟩ := traj_path E p n0 nf nd hpos hle
    obtain ⟨n, hn, -, hden, M, hM, hM0, hobs⟩ := (collect_iff E hpath hpos.ne' density rn op).1 ⟨r, hr⟩
    obtain ⟨hpath2, hk2⟩ := collect_keeps E hpath density rn op
    rw [← hq] at hpath2 hk2
    obtain ⟨-, hk3⟩ := mean_ok E hpath2
    rw [hk1, hkind] at hobs
    rw [hk2, hk1, hkind] at hk3
    refine ⟨M, ⟨x0, xf, xd, n, n0, nf, nd, hn, hpos, hle, hden, ?_, hM0⟩, ?_⟩
    · rw [← hM, Spec.numObs, gridN, ← Int.natCast_ceil_eq_ceil (div_nonneg (by linarith) hpos.le)]
      push_cast; rfl
    · obtain ⟨nm, t, rfl, htk', hcase⟩ := (findSystem_iff name k).1 hk
      refine ⟨nm, rfl, ?_⟩
      have hdim := dim_kind (AnyProc.firstMean E q).2
      have hd' : p.singleDim = false → (∃ a, AnyProc.timesOnes (AnyProc.firstMean E q).2 (.given mu0) = .ok a)
                ∧ ∃ a, AnyProc.timesEye (AnyProc.firstMean E q).2 (.given tau0) = .ok a := hd
      rw [mean_iff, var_iff, hdim, hk3] at hd'
      rw [hsingle] at hd'
      simp only [Spec.modelNames, List.mem_cons, Prod.mk.injEq, List.not_mem_nil, or_false] at htk'
      rcases htk' with ⟨rfl, rfl⟩ | ⟨rfl, rfl⟩ | ⟨rfl, rfl⟩ | ⟨rfl, rfl⟩
      · exact .inl ⟨hcase, hcreate.1, hcreate.2, hobs.1, hobs.2⟩
      · exact .inr (.inl ⟨hcase, hcreate.1, hcreate.2, hobs.1, hobs.2⟩)
      · exact .inr (.inr (.inl ⟨hcase, hcreate.1, hcreate.2, hobs, hd' rfl⟩))
      · exact .inr (.inr (.inr ⟨hcase, hcreate.1, hcreate.2, hobs, hd' rfl⟩))
  · rintro ⟨⟨name, theta, sys, rn, t0, tf, dt, ode, seed, density, op, mu0, tau0⟩, ⟨h12, ⟨drift, h1, h11⟩, ⟨noise, h2, h10, e2⟩,
      ⟨tw, h3, h14, h15, h16⟩, h4, h5, ⟨obs, h6, e1, e3⟩, ⟨prior, h7, h8, h9⟩⟩, hseed, M,
      ⟨x0, xf, xd, n, n0, nf, nd, hn, hpos, hle, hden, hM, hM0⟩, nm, hname, hmodel⟩
    dsimp only at *
    refine ⟨drift, noise, tw, ode, seed, obs, prior, mu0, tau0, sys, theta, name, t0, tf, dt, density, rn, op, h1, h2, h3, h4, h5,
      h6, h7, h8, h9, h10, h11, h12, h14, h15, h16, e1, e2, e3, ?_⟩
    obtain ⟨k, t, hmem, hcase, hcreate, hobs, hpri⟩ : ∃ k t, (t, k) ∈ Spec.modelNames ∧ Spec.SameUpToCase nm t ∧ CreateOk k sys theta
        ∧ ObsOk k M rn op ∧ ((k == .DW || k == .OU) = false →
          Spec.MeanShape (match k with | .DW => 1 | .OU => 1 | .L63 => 3 | .L96 => 40) mu0
          ∧ Spec.VarShape (match k with | .DW => 1 | .OU => 1 | .L63 => 3 | .L96 => 40) tau0) := by
      rcases hmodel with ⟨a, b, c, d, e⟩ | ⟨a, b, c, d, e⟩ | ⟨a, b, c, d, e⟩ | ⟨a, b, c, d, e⟩
      · exact ⟨.DW, _, by simp [Spec.modelNames], a, ⟨b, c⟩, ⟨d, e⟩, fun h => by cases h⟩
      · exact ⟨.OU, _, by simp [Spec.modelNames], a, ⟨b, c⟩, ⟨d, e⟩, fun h => by cases h⟩
      · exact ⟨.L63, _, by simp [Spec.modelNames], a, ⟨b, c⟩, d, fun _ => e⟩
      · exact ⟨.L96, _, by simp [Spec.modelNames], a, ⟨b, c⟩, d, fun _ => e⟩
    obtain ⟨p, hcr⟩ := (create_iff E k sys theta seed).2 ⟨hseed, hcreate⟩
    obtain ⟨hkind, hsingle⟩ := create_kind hcr
    obtain ⟨ht, hpath, hk1⟩ := traj_path E p n0 nf nd hpos hle
    have hc := (collect_iff E hpath hpos.ne' density rn op).2 ⟨n, hn, hpos, hden, M, by
      rw [← hM, Spec.numObs, gridN, ← Int.natCast_ceil_eq_ceil (div_nonneg (by linarith) hpos.le)]
      push_cast; rfl, hM0, by rw [hk1, hkind]; exact hobs⟩
    obtain ⟨hpath2, hk2⟩ := collect_keeps E hpath density rn op
    obtain ⟨hm, hk3⟩ := mean_ok E hpath2
    refine ⟨p, (stochasticModel_ok E name sys theta seed p).2 ⟨k, (findSystem_iff name k).2 ⟨nm, t, hname, hmem, hcase⟩, hcr⟩, ht, hc, _, rfl, hm, ?_⟩
    have hkk : (AnyProc.firstMean E (AnyProc.collectObs E (AnyProc.makeTrajectory E p t0 tf dt).2 density rn op).2).2.kind = k := by
      rw [hk3, hk2, hk1, hkind]
    intro hsd
    change p.singleDim = false at hsd
    rw [hsingle] at hsd
    have h' := hpri hsd
    rw [← hkk, ← dim_kind] at h'
    exact ⟨mean_iff.2 h'.1, var_iff.2 h'.2⟩

theorem entries_inj {e e' : Spec.Entries} {params : Json} (h : e.In params) (h' : e'.In params) : e = e' := by
  obtain ⟨a1, ⟨_, b1, c1⟩, ⟨_, d1, f1, g1⟩, ⟨_, i1, j1, k1, l1⟩, m1, n1, ⟨_, o1, p1, q1⟩, ⟨_, r1, s1, t1⟩⟩ := h
  obtain ⟨a2, ⟨_, b2, c2⟩, ⟨_, d2, f2, g2⟩, ⟨_, i2, j2, k2, l2⟩, m2, n2, ⟨_, o2, p2, q2⟩, ⟨_, r2, s2, t2⟩⟩ := h'
  obtain rfl := Except.ok.inj (b1.symm.trans b2)
  obtain rfl := Except.ok.inj (d1.symm.trans d2)
  obtain rfl := Except.ok.inj (i1.symm.trans i2)
  obtain rfl := Except.ok.inj (o1.symm.trans o2)
  obtain rfl := Except.ok.inj (r1.symm.trans r2)
  cases e; cases e'
  simp only [Spec.Entries.mk.injEq]
  exact ⟨Except.ok.inj (a1.symm.trans a2), Except.ok.inj (c1.symm.trans c2), Except.ok.inj (f1.symm.trans f2),
    Except.ok.inj (g1.symm.trans g2), Except.ok.inj (j1.symm.trans j2), Except.ok.inj (k1.symm.trans k2),
    Except.ok.inj (l1.symm.trans l2), Except.ok.inj (m1.symm.trans m2), Except.ok.inj (n1.symm.trans n2),
    Except.ok.inj (p1.symm.trans p2), Except.ok.inj (q1.symm.trans q2), Except.ok.inj (s1.symm.trans s2),
    Except.ok.inj (t1.symm.trans t2)⟩

namespace Spec

/-- The model entry names one of the Lorenz systems. -/
def Entries.Lorenz (e : Entries) : Prop := ∃ name, e.model = .str name ∧ (SameUpToCase name "L63" ∨ SameUpToCase name "L96")

/-- The dictionary with these entries. -/
def Entries.dict (e : Entries) : Json :=
  .obj [("Model", e.model), ("Ode-method", e.method), ("Random-Seed", e.seed),
    ("Time-window", .obj [("t0", e.t0), ("tf", e.tf), ("dt", e.dt)]), ("Noise", .obj [("sys", e.sys), ("obs", e.obs)]),
    ("Observations", .obj [("density", e.density), ("operator", e.operator)]), ("Drift", .obj [("theta", e.theta)]),
    ("Prior", .obj [("mu0", e.mu0), ("tau0", e.tau0)])]

end Spec

theorem dict_in (e : Spec.Entries) : e.In e.dict := by
  unfold Spec.Entries.In Spec.Entries.dict
  refine ⟨rfl, ⟨_, rfl, rfl⟩, ⟨_, rfl, rfl, rfl⟩, ⟨_, rfl, rfl, rfl, rfl⟩, rfl, rfl, ⟨_, rfl, rfl, rfl⟩, ⟨_, rfl, rfl, rfl⟩⟩

/-- A name is not the same, up to case, as two different names of models. -/
theorem sameUpToCase_det {s t t' : String} {k k' : SysName} (hk : (t, k) ∈ Spec.modelNames) (hk' : (t', k') ∈ Spec.modelNames)
    (h : Spec.SameUpToCase s t) (h' : Spec.SameUpToCase s t') : t = t' :=
  ((pyUpper_eq_iff (names_upper hk)).2 h).symm.trans ((pyUpper_eq_iff (names_upper hk')).2 h')

theorem lorenz_accepted {e : Spec.Entries} (hl : e.Lorenz) (h : Spec.Accepted e) :
    ∃ M d, Spec.WindowOk e M ∧ 1 < d ∧ Spec.SysOk d e.sys ∧ ∃ k, Spec.Operator d e.operator k ∧ Spec.NoiseShape k M e.obs := by
  obtain ⟨name, hn, hs⟩ := hl
  obtain ⟨-, M, hw, nm, hnm, hm⟩ := h
  rw [hn, Json.str.injEq] at hnm; subst hnm
  have h1 : ∀ t k t' k', (t, k) ∈ Spec.modelNames → (t', k') ∈ Spec.modelNames → Spec.SameUpToCase name t →
      Spec.SameUpToCase name t' → t = t' := fun t k t' k' a b c d => sameUpToCase_det a b c d
  rcases hm with ⟨a, -⟩ | ⟨a, -⟩ | ⟨-, b, -, c, -⟩ | ⟨-, b, -, c, -⟩
  · rcases hs with h | h
    · exact absurd (h1 "DW" .DW "L63" .L63 (by simp [Spec.modelNames]) (by simp [Spec.modelNames]) a h) (by decide)
    · exact absurd (h1 "DW" .DW "L96" .L96 (by simp [Spec.modelNames]) (by simp [Spec.modelNames]) a h) (by decide)
  · rcases hs with h | h
    · exact absurd (h1 "OU" .OU "L63" .L63 (by simp [Spec.modelNames]) (by simp [Spec.modelNames]) a h) (by decide)
    · exact absurd (h1 "OU" .OU "L96" .L96 (by simp [Spec.modelNames]) (by simp [Spec.modelNames]) a h) (by decide)
  · exact ⟨M, 3, hw, by norm_num, b, c⟩
  · exact ⟨M, 40, hw, by norm_num, b, c⟩

/-- C124: two kinds of sensible dictionaries that `setup` never accepts: a Lorenz system whose system noise is a single number, and a Lorenz system of
which one component is observed at more than one time. -/
theorem C124_rejects_violated (E : Env G) (s : Sim (AnyProc G) Arr) (e : Spec.Entries) (params : Json) (he : e.In params) (hl : e.Lorenz)
    (h : (∃ x, Spec.IsNumber e.sys x) ∨ ∃ bs : List Bool, e.operator = .arr (bs.map Json.bool) ∧ bs.count true = 1
      ∧ ∃ M, Spec.WindowOk e M ∧ M ≠ 1) :
    (s.setup (pyClasses E) params none).1 ≠ .ok () := by
  intro hok
  obtain ⟨e', he', hacc⟩ := (C124_setup_iff E s params).1 hok
  obtain rfl := entries_inj he he'
  obtain ⟨M, d, hw, hd, hsys, k, hop, hno⟩ := lorenz_accepted hl hacc
  rcases h with ⟨x, hx⟩ | ⟨bs, hbs, hc, M', hw', hM'⟩
  · rcases hsys with ⟨l, hv, -⟩ | ⟨A, hA, -⟩
    · obtain ⟨js, hj, -⟩ := hv
      rw [hj] at hx; cases hx
    · obtain ⟨js, hj, -⟩ := hA
      rw [hj] at hx; cases hx
  · have hk : k = 1 := by
      rcases hop with ⟨hnone, -⟩ | ⟨bs', -, h1, -, h2⟩
      · rcases hnone with h | h | h
        · rw [hbs] at h; cases h
        · rw [hbs] at h; cases h
        · rw [hbs] at h
          simp only [Json.arr.injEq, List.map_eq_nil_iff] at h
          rw [h] at hc; simp at hc
      · rw [hbs] at h1
        have : bs = bs' := by
          simp only [Json.arr.injEq] at h1
          exact (List.map_injective_iff.2 fun a b h => by cases h; rfl) h1
        rw [← h2, ← this]; exact hc
    obtain ⟨t0, tf, dt, n, a1, a2, a3, a4, -, -, -, a5, -⟩ := hw
    obtain ⟨t0', tf', dt', n', b1, b2, b3, b4, -, -, -, b5, -⟩ := hw'
    obtain rfl := isNumber_inj a1 b1
    obtain rfl := isNumber_inj a2 b2
    obtain rfl := isNumber_inj a3 b3
    have hnn := isNumber_inj a4 b4
    rw [← hnn, a5] at b5
    rw [Spec.NoiseShape, if_pos hk] at hno
    have := hno.1
    omega

/-- C124: `setup` accepts meaningless configurations: an integrator that does not exist, negative observation and prior variances. -/
theorem C124_accepts_violated : ∃ e : Spec.Entries, e.method = .str "banana" ∧ e.obs = .num (-1) ∧ e.tau0 = .num (-1)
    ∧ ∀ (G : Type) (E : Env G) (s : Sim (AnyProc G) Arr), (s.setup (pyClasses E) e.dict none).1 = .ok () := by
  refine ⟨⟨.str "DW", .num 1, .num 0.8, .num (-1), .num 0, .num 10, .num 0.01, .str "banana", .null, .num 2, .null, .num 1,
    .num (-1)⟩, rfl, rfl, rfl, fun G E s => ?_⟩
  refine (C124_setup_iff E s _).2 ⟨_, dict_in _, .inl rfl, 20, ⟨0, 10, 0.01, 2, .num _, .num _, .num _, .num _, by norm_num, by norm_num, ?_,
    ?_, by norm_num⟩, "DW", rfl, .inl ⟨?_, ⟨0.8, .num _, by norm_num⟩, ⟨1, .num _⟩, .inl rfl, .inl ⟨_, .num _⟩⟩⟩
  · norm_num
  · have : ⌈((10 : ℝ) - 0) / 0.01⌉ = 1000 := by norm_num
    rw [this]; norm_num
  · rw [← pyUpper_eq_iff (names_upper (k := .DW) (by simp [Spec.modelNames]))]; decide

theorem replicate_numbers (x : ℝ) : ∀ n, List.Forall₂ Spec.IsNumber (List.replicate n (.num x)) (List.replicate n x)
  | 0 => .nil
  | n + 1 => .cons (.num x) (replicate_numbers x n)

/-- The hypotheses of `C124_setup_iff`: a Lorenz 96 configuration in which components 0 to 19 are observed eight times in ten
time units is accepted. -/
example (E : Env G) (s : Sim (AnyProc G) Arr) : (s.setup (pyClasses E) (Spec.Entries.dict ⟨.str "l96", .num 8,
    .arr (List.replicate 40 (.num 4)), .num 1, .num 0, .num 4, .num 0.01, .str "Heun", .num 7, .num 0.8,
    .arr ((List.replicate 20 true ++ List.replicate 20 false).map Json.bool), .num 8, .num 0.5⟩) none).1 = .ok () := by
  refine (C124_setup_iff E s _).2 ⟨_, dict_in _, .inr ⟨7, by norm_num; exact .num _⟩, 3, ⟨0, 4, 0.01, 0.8, .num _, .num _, .num _, .num _, by norm_num, by norm_num, ?_,
    ?_, by norm_num⟩, "l96", rfl, .inr (.inr (.inr ⟨?_, .inl ⟨List.replicate 40 4, ?_, by simp, ?_⟩, ⟨8, .num _⟩, ⟨20, .inr ⟨_, ?_, rfl, by simp, ?_⟩,
      ?_⟩, .inl ⟨_, .num _⟩, .inl ⟨_, .num _⟩⟩))⟩
  · norm_num
  · have : ⌈((4 : ℝ) - 0) / 0.01⌉ = 400 := by norm_num
    rw [this]; norm_num
  · rw [← pyUpper_eq_iff (names_upper (k := .L96) (by simp [Spec.modelNames]))]; decide
  · refine ⟨_, rfl, ?_⟩
    exact replicate_numbers 4 40
  · intro x hx; rw [List.mem_replicate] at hx; rw [hx.2]; norm_num
  · simp
  · simp
  · rw [Spec.NoiseShape, if_neg (by norm_num)]; exact .inl ⟨_, .num _⟩

end VGPA
