import Verif.Model.IeeeEnergy
import Verif.Lemmas.Sweep
import Verif.Props.Shapes
import Mathlib.Data.List.Forall2

/-!
# Two runs of the free energy in different arithmetics

If the operations of two arithmetics respect a relation with levels, the two runs of `VgpF.freeEnergy` are related, at a level that grows linearly with the number of
points and of observations.
-/

namespace VGPA

/-- Both raise the same error, or both return related values. -/
inductive PyRel {α β : Type} (R : α → β → Prop) : Py α → Py β → Prop
  | ok {a : α} {b : β} : R a b → PyRel R (.ok a) (.ok b)
  | error (e : PyErr) : PyRel R (.error e) (.error e)

theorem PyRel.bind {α β γ δ : Type} {R : α → β → Prop} {S : γ → δ → Prop} {p : Py α} {q : Py β} {f : α → Py γ} {g : β → Py δ} (h : PyRel R p q)
    (hf : ∀ a b, R a b → PyRel S (f a) (g b)) : PyRel S (p >>= f) (q >>= g) := by
  cases h with
  | ok h => exact hf _ _ h
  | error e => exact .error e

theorem PyRel.mono {α β : Type} {R S : α → β → Prop} {p : Py α} {q : Py β} (h : PyRel R p q) (hf : ∀ a b, R a b → S a b) : PyRel S p q := by
  cases h with
  | ok h => exact .ok (hf _ _ h)
  | error e => exact .error e

theorem PyRel.and {α β : Type} {R : α → β → Prop} {P : α → Prop} {p : Py α} {q : Py β} (h : PyRel R p q) (hp : ∀ a, p = .ok a → P a) :
    PyRel (fun a b => R a b ∧ P a) p q := by
  cases h with
  | ok h => exact .ok ⟨h, hp _ rfl⟩
  | error e => exact .error e

section lists

variable {α β γ δ : Type} {R : α → β → Prop} {S : γ → δ → Prop}

theorem forall₂_get {l : List α} {l' : List β} (h : List.Forall₂ R l l') {k : ℕ} (hk : k < l.length) (hk' : k < l'.length) : R l[k] l'[k] :=
  (List.forall₂_iff_get.1 h).2 k hk hk'

theorem forall₂_of_get {l : List α} {l' : List β} (hl : l.length = l'.length) (h : ∀ k (hk : k < l.length) (hk' : k < l'.length), R l[k] l'[k]) :
    List.Forall₂ R l l' := List.forall₂_iff_get.2 ⟨hl, h⟩

theorem idx_rel {l : List α} {l' : List β} (h : List.Forall₂ R l l') (k : ℕ) : PyRel R (idx l k) (idx l' k) := by
  have hl := h.length_eq
  by_cases hk : k < l.length
  · rw [idx_ok hk, idx_ok (hl ▸ hk)]
    exact .ok (forall₂_get h hk _)
  · rw [idx_err (by omega), idx_err (by omega)]
    exact .error _

theorem setIdx_rel {l : List α} {l' : List β} (h : List.Forall₂ R l l') (k : ℕ) {a : α} {b : β} (hab : R a b) :
    PyRel (List.Forall₂ R) (setIdx l k a) (setIdx l' k b) := by
  have hl := h.length_eq
  by_cases hk : k < l.length
  · rw [setIdx_ok hk, setIdx_ok (hl ▸ hk)]
    refine .ok (forall₂_of_get (by simp [hl]) fun i hi hi' => ?_)
    rw [List.getElem_set, List.getElem_set]
    split
    · exact hab
    · exact forall₂_get h _ _
  · rw [setIdx_err (by omega), setIdx_err (by omega)]
    exact .error _

theorem fancy_rel {l : List α} {l' : List β} (h : List.Forall₂ R l l') (ks : List ℕ) : PyRel (List.Forall₂ R) (fancy l ks) (fancy l' ks) := by
  unfold fancy
  induction ks with
  | nil => exact .ok .nil
  | cons k ks ih =>
    rw [List.mapM_cons, List.mapM_cons]
    exact (idx_rel h k).bind fun a b hab => ih.bind fun u v huv => .ok (.cons hab huv)

theorem zipWith_rel {ε ζ : Type} {T : ε → ζ → Prop} {f : α → γ → ε} {g : β → δ → ζ} {l : List α} {l' : List β} {u : List γ} {u' : List δ}
    (h : List.Forall₂ R l l') (hu : List.Forall₂ S u u') (hf : ∀ a b c d, R a b → S c d → T (f a c) (g b d)) :
    List.Forall₂ T (List.zipWith f l u) (List.zipWith g l' u') := by
  have h1 := h.length_eq
  have h2 := hu.length_eq
  refine forall₂_of_get (by simp [h1, h2]) fun k hk hk' => ?_
  simp only [List.getElem_zipWith]
  exact hf _ _ _ _ (forall₂_get h _ _) (forall₂_get hu _ _)

theorem bcast_rel {ε ζ : Type} {T : ε → ζ → Prop} {f : α → γ → ε} {g : β → δ → ζ} {l : List α} {l' : List β} {u : List γ} {u' : List δ}
    (h : List.Forall₂ R l l') (hu : List.Forall₂ S u u') (hf : ∀ a b c d, R a b → S c d → T (f a c) (g b d)) :
    PyRel (List.Forall₂ T) (bcast f l u) (bcast g l' u') := by
  have h1 := h.length_eq
  have h2 := hu.length_eq
  unfold bcast
  by_cases hl : l.length = u.length
  · rw [if_pos hl, if_pos (by omega)]
    exact .ok (zipWith_rel h hu hf)
  · rw [if_neg hl, if_neg (by omega)]
    cases h with
    | nil =>
      cases hu with
      | nil => exact .error _
      | cons hc hu =>
        cases hu with
        | nil => exact .ok .nil
        | cons _ _ => exact .error _
    | cons ha h =>
      cases h with
      | nil => exact .ok (List.forall₂_map_left_iff.2 (List.forall₂_map_right_iff.2 (hu.imp fun _ _ hc => hf _ _ _ _ ha hc)))
      | cons ha' h =>
        cases hu with
        | nil => exact .error _
        | cons hc hu =>
          cases hu with
          | nil => exact .ok (List.forall₂_map_left_iff.2 (List.forall₂_map_right_iff.2
              ((List.Forall₂.cons ha (.cons ha' h)).imp fun _ _ hc' => hf _ _ _ _ hc' hc)))
          | cons _ _ => exact .error _

theorem take_rel {l : List α} {l' : List β} (h : List.Forall₂ R l l') (k : ℕ) : List.Forall₂ R (l.take k) (l'.take k) := by
  have h1 := h.length_eq
  refine forall₂_of_get (by simp [h1]) fun i hi hi' => ?_
  simp only [List.getElem_take]
  exact forall₂_get h _ _

theorem drop_rel {l : List α} {l' : List β} (h : List.Forall₂ R l l') (k : ℕ) : List.Forall₂ R (l.drop k) (l'.drop k) := by
  have h1 := h.length_eq
  refine forall₂_of_get (by simp [h1]) fun i hi hi' => ?_
  simp only [List.getElem_drop]
  exact forall₂_get h _ _

theorem dropLast_rel {l : List α} {l' : List β} (h : List.Forall₂ R l l') : List.Forall₂ R l.dropLast l'.dropLast := by
  have h1 := h.length_eq
  rw [List.dropLast_eq_take, List.dropLast_eq_take, h1]
  exact take_rel h _

theorem tail_rel {l : List α} {l' : List β} (h : List.Forall₂ R l l') : List.Forall₂ R l.tail l'.tail := by
  rw [← List.drop_one, ← List.drop_one]
  exact drop_rel h 1

theorem getD_rel {l : List α} {l' : List β} (h : List.Forall₂ R l l') (k : ℕ) {a : α} {b : β} (hab : R a b) : R (l.getD k a) (l'.getD k b) := by
  have h1 := h.length_eq
  by_cases hk : k < l.length
  · rw [List.getD_eq_getElem?_getD, List.getD_eq_getElem?_getD, List.getElem?_eq_getElem hk, List.getElem?_eq_getElem (h1 ▸ hk)]
    exact forall₂_get h _ _
  · rw [List.getD_eq_getElem?_getD, List.getD_eq_getElem?_getD, List.getElem?_eq_none (by omega), List.getElem?_eq_none (by omega)]
    exact hab

end lists

/-- The loop of the forward sweep; every turn costs `c` levels. -/
theorem sweep_rel {α β : Type} [Zero α] [Zero β] {R : ℕ → α → β → Prop} (mono : ∀ {j k : ℕ} {a : α} {b : β}, j ≤ k → R j a b → R k a b)
    (zero : R 0 0 0) (c n : ℕ) {a : α} {b : β} (hab : R 0 a b) {f : ℕ → α → Py α} {g : ℕ → β → Py β}
    (hf : ∀ k j a b, R j a b → PyRel (R (j + c)) (f k a) (g k b)) :
    PyRel (List.Forall₂ (R (c * n))) (fwdSweep n a f) (fwdSweep n b g) := by
  unfold fwdSweep
  have key : ∀ j : ℕ, ∀ (l : List α) (l' : List β), List.Forall₂ (R 0) l l' →
      PyRel (List.Forall₂ (R (c * j)))
        ((List.range j).foldlM (fun buf k => do let x ← idx buf k; let y ← f k x; setIdx buf (k + 1) y) l)
        ((List.range j).foldlM (fun buf k => do let x ← idx buf k; let y ← g k x; setIdx buf (k + 1) y) l') := by
    intro j l l' hl
    induction j with
    | zero => exact .ok (by simpa using hl)
    | succ j ih =>
      rw [List.range_succ, List.foldlM_append, List.foldlM_append]
      refine ih.bind fun u v huv => ?_
      simp only [List.foldlM_cons, List.foldlM_nil]
      refine PyRel.bind (R := List.Forall₂ (R (c * (j + 1)))) ?_ fun _ _ h => .ok h
      refine (idx_rel huv j).bind fun x y hxy => (hf j _ x y hxy).bind fun x' y' hxy' => ?_
      exact setIdx_rel (huv.imp fun _ _ h => mono (by rw [Nat.mul_succ]; omega) h) _ (by rw [Nat.mul_succ]; exact hxy')
  refine PyRel.bind (R := List.Forall₂ (R 0)) (setIdx_rel ?_ _ hab) fun u v huv => ?_
  · exact forall₂_of_get (by simp) fun k hk hk' => by simpa using zero
  · exact (key (n - 1) u v huv).mono fun _ _ h => h.imp fun _ _ h => mono (Nat.mul_le_mul_left _ (by omega)) h

variable {α β : Type} [Zero α] [Neg α] [Add α] [Sub α] [Mul α] [Div α] [Zero β] [Neg β] [Add β] [Sub β] [Mul β] [Div β]

/-- The operations respect the relation `R`, at the cost of some levels. `D` relates numbers that may be divisors and arguments of the logarithm. -/
structure Logical (R : ℕ → α → β → Prop) (D : α → β → Prop) (L : Libm α) (L' : Libm β) : Prop where
  mono : ∀ {j k : ℕ} {a : α} {b : β}, j ≤ k → R j a b → R k a b
  zero : R 0 0 0
  neg : ∀ {k : ℕ} {a : α} {b : β}, R k a b → R k (-a) (-b)
  add : ∀ {j k : ℕ} {a c : α} {b d : β}, R j a b → R k c d → R (max j k + 1) (a + c) (b + d)
  sub : ∀ {j k : ℕ} {a c : α} {b d : β}, R j a b → R k c d → R (max j k + 1) (a - c) (b - d)
  mul : ∀ {j k : ℕ} {a c : α} {b d : β}, R j a b → R k c d → R (j + k + 1) (a * c) (b * d)
  div : ∀ {k : ℕ} {a c : α} {b d : β}, R k a b → D c d → R (k + 1) (a / c) (b / d)
  pow : ∀ {k n : ℕ} {a : α} {b : β}, 0 < n → R k a b → R (n * k + 2) (L.pow a n) (L'.pow b n)
  log : ∀ {a : α} {b : β}, D a b → R 2 (L.log a) (L'.log b)
  log2pi : R 6 (L.log (L.lit 2 * L.pi)) (L'.log (L'.lit 2 * L'.pi))
  lit : ∀ q, R 1 (L.lit q) (L'.lit q)
  two : D (L.lit 2) (L'.lit 2)
  six : D (L.lit 6) (L'.lit 6)
  sum : ∀ {k : ℕ} {l : List α} {l' : List β}, List.Forall₂ (R k) l l' → R (k + l.length) (L.sum l) (L'.sum l')

namespace Logical

variable {R : ℕ → α → β → Prop} {D : α → β → Prop} {L : Libm α} {L' : Libm β} (H : Logical R D L L')

include H

theorem funMt {j p q : ℕ} {m a b : α} {m' a' b' : β} (hm : R j m m') (ha : R p a a') (hb : R q b b') :
    R (j + p + q + 2) (funMtF m a b) (funMtF m' a' b') :=
  H.mono (by omega) (H.add (H.neg (H.mul ha hm)) hb)

theorem funSt {j p : ℕ} {s a n : α} {s' a' n' : β} (hs : R j s s') (ha : R p a a') (hn : R 0 n n') :
    R (j + p + 4) (funStF L s a n) (funStF L' s' a' n') :=
  H.mono (by omega) (H.add (H.neg (H.mul (H.mul (H.lit 2) ha) hs)) hn)

theorem midpoints {x : List α} {x' : List β} (h : List.Forall₂ (R 0) x x') : List.Forall₂ (R 3) (midpointsF L x) (midpointsF L' x') :=
  zipWith_rel (dropLast_rel h) (tail_rel h) fun _ _ _ _ h1 h2 => H.mono (by omega) (H.mul (H.lit (1 / 2)) (H.add h1 h2))

/-- One turn of the sweep. -/
theorem step {method : Method} (hm : method ≠ .rk2) {dt sigma : α} {dt' sigma' : β} (hdt : R 0 dt dt') (hs : R 0 sigma sigma') {lin_a off_b : List α}
    {lin_a' off_b' : List β} (ha : List.Forall₂ (R 0) lin_a lin_a') (hb : List.Forall₂ (R 0) off_b off_b') (k j : ℕ) (x : α × α) (y : β × β)
    (hxy : R j x.1 y.1 ∧ R j x.2 y.2) :
    PyRel (fun x y => R (j + 36) x.1 y.1 ∧ R (j + 36) x.2 y.2) (stepF L method dt lin_a off_b sigma k x) (stepF L' method dt' lin_a' off_b' sigma' k y) := by
  obtain ⟨h1, h2⟩ := hxy
  have hh := H.mul (H.lit (1 / 2)) hdt
  unfold stepF
  refine (idx_rel ha k).bind fun ak ak' hak => (idx_rel hb k).bind fun bk bk' hbk => ?_
  cases method with
  | euler =>
    exact .ok ⟨H.mono (by omega) (H.add h1 (H.mul (H.funMt h1 hak hbk) hdt)), H.mono (by omega) (H.add h2 (H.mul (H.funSt h2 hak hs) hdt))⟩
  | heun =>
    refine (idx_rel ha (k + 1)).bind fun ap ap' hap => (idx_rel hb (k + 1)).bind fun bp bp' hbp => ?_
    have e1 := H.funMt h1 hak hbk
    have e2 := H.funMt (H.add h1 (H.mul e1 hdt)) hap hbp
    have f1 := H.funSt h2 hak hs
    have f2 := H.funSt (H.add h2 (H.mul f1 hdt)) hap hs
    exact .ok ⟨H.mono (by omega) (H.add h1 (H.mul hh (H.add e1 e2))), H.mono (by omega) (H.add h2 (H.mul hh (H.add f1 f2)))⟩
  | rk2 => exact absurd rfl hm
  | rk4 =>
    refine (idx_rel (H.midpoints ha) k).bind fun am am' ham => (idx_rel (H.midpoints hb) k).bind fun bm bm' hbm => ?_
    refine (idx_rel ha (k + 1)).bind fun ap ap' hap => (idx_rel hb (k + 1)).bind fun bp bp' hbp => ?_
    have e1 := H.funMt h1 hak hbk
    have e2 := H.funMt (H.add h1 (H.mul hh e1)) ham hbm
    have e3 := H.funMt (H.add h1 (H.mul hh e2)) ham hbm
    have e4 := H.funMt (H.add h1 (H.mul hdt e3)) hap hbp
    have f1 := H.funSt h2 hak hs
    have f2 := H.funSt (H.add h2 (H.mul hh f1)) ham hs
    have f3 := H.funSt (H.add h2 (H.mul hh f2)) ham hs
    have f4 := H.funSt (H.add h2 (H.mul hdt f3)) hap hs
    exact .ok ⟨H.mono (by omega) (H.add h1 (H.div (H.mul hdt (H.add (H.add e1 (H.mul (H.lit 2) (H.add e2 e3))) e4)) H.six)),
      H.mono (by omega) (H.add h2 (H.div (H.mul hdt (H.add (H.add f1 (H.mul (H.lit 2) (H.add f2 f3))) f4)) H.six))⟩

/-- The sweep. -/
theorem solveFwd {method : Method} (hm : method ≠ .rk2) {dt m0 s0 sigma : α} {dt' m0' s0' sigma' : β} (hdt : R 0 dt dt') (h0 : R 0 m0 m0') (h0' : R 0 s0 s0')
    (hs : R 0 sigma sigma') {lin_a off_b : List α} {lin_a' off_b' : List β} (ha : List.Forall₂ (R 0) lin_a lin_a')
    (hb : List.Forall₂ (R 0) off_b off_b') :
    PyRel (fun x y => List.Forall₂ (R (36 * off_b.length)) x.1 y.1 ∧ List.Forall₂ (R (36 * off_b.length)) x.2 y.2)
      (solveFwdF L method dt lin_a off_b m0 s0 sigma) (solveFwdF L' method dt' lin_a' off_b' m0' s0' sigma') := by
  unfold solveFwdF
  rw [← hb.length_eq]
  refine PyRel.bind (R := List.Forall₂ fun x y => R (36 * off_b.length) x.1 y.1 ∧ R (36 * off_b.length) x.2 y.2)
    (sweep_rel (R := fun j (x : α × α) (y : β × β) => R j x.1 y.1 ∧ R j x.2 y.2) (fun hjk h => ⟨H.mono hjk h.1, H.mono hjk h.2⟩) ⟨H.zero, H.zero⟩ 36 off_b.length
      (a := (m0, s0)) (b := (m0', s0')) ⟨h0, h0'⟩ (H.step hm hdt hs ha hb)) fun u v huv => ?_
  refine .ok ⟨?_, ?_⟩
  · exact List.forall₂_map_left_iff.2 (List.forall₂_map_right_iff.2 (huv.imp fun _ _ h => h.1))
  · exact List.forall₂_map_left_iff.2 (List.forall₂_map_right_iff.2 (huv.imp fun _ _ h => h.2))

theorem ouPoint {j : ℕ} {theta a b m s : α} {theta' a' b' m' s' : β} (ht : R 0 theta theta') (ha : R 0 a a') (hb : R 0 b b') (hm : R j m m') (hs : R j s s') :
    R (6 * j + 18) (ouPointF L theta a b m s) (ouPointF L' theta' a' b' m' s') := by
  have h1 := H.sub ht ha
  exact H.mono (by omega) (H.add (H.add (H.mul (H.add (H.pow (n := 2) (by norm_num) hm) hs) (H.pow (n := 2) (by norm_num) h1))
    (H.mul (H.mul (H.mul (H.lit 2) hm) h1) hb)) (H.pow (n := 2) (by norm_num) hb))

theorem dwPoint {j : ℕ} {theta a b m s : α} {theta' a' b' m' s' : β} (ht : R 0 theta theta') (ha : R 0 a a') (hb : R 0 b b') (hm : R j m m') (hs : R j s s') :
    R (6 * j + 18) (dwPointF L theta a b m s) (dwPointF L' theta' a' b' m' s') := by
  have hc := H.mono (show _ ≤ 3 by omega) (H.add (H.mul (H.lit 4) ht) ha)
  have hc2 := H.mono (show _ ≤ 8 by omega) (H.pow (n := 2) (by norm_num) hc)
  have hm2 := H.pow (n := 2) (by norm_num) hm
  have hs2 := H.pow (n := 2) (by norm_num) hs
  have hm4 := H.pow (n := 4) (by norm_num) hm
  have h2 := H.mono (show _ ≤ 2 * j + 3 by omega) (H.add hm2 hs)
  have h3 := H.mono (show _ ≤ 3 * j + 4 by omega) (H.add (H.pow (n := 3) (by norm_num) hm) (H.mul (H.mul (H.lit 3) hm) hs))
  have h4 := H.mono (show _ ≤ 4 * j + 7 by omega) (H.add (H.add hm4 (H.mul (H.mul (H.lit 6) hm2) hs)) (H.mul (H.lit 3) hs2))
  have h6 := H.mono (show _ ≤ 6 * j + 10 by omega) (H.add (H.add (H.add (H.pow (n := 6) (by norm_num) hm) (H.mul (H.mul (H.lit 15) hm4) hs))
    (H.mul (H.mul (H.lit 45) hm2) hs2)) (H.mul (H.lit 15) (H.pow (n := 3) (by norm_num) hs)))
  exact H.mono (by omega) (H.add (H.sub (H.add (H.mul (H.lit 8) (H.add (H.sub h6 (H.mul hc h4)) (H.mul hb h3))) (H.mul hc2 h2))
    (H.mul (H.mul (H.mul (H.lit 2) hb) hc) hm)) (H.pow (n := 2) (by norm_num) hb))

theorem point (p : Proc1) {j : ℕ} {theta a b m s : α} {theta' a' b' m' s' : β} (ht : R 0 theta theta') (ha : R 0 a a') (hb : R 0 b b') (hm : R j m m')
    (hs : R j s s') : R (6 * j + 18) (p.pointF L theta a b m s) (p.pointF L' theta' a' b' m' s') := by
  cases p with
  | ou => exact H.ouPoint ht ha hb hm hs
  | dw => exact H.dwPoint ht ha hb hm hs

theorem trapezoid {j n : ℕ} {dx : α} {dx' : β} (hd : R 0 dx dx') {y : List α} {y' : List β} (h : List.Forall₂ (R j) y y') (hn : y.length ≤ n + 1) :
    R (j + 3 + n) (trapezoidF L dx y) (trapezoidF L' dx' y') := by
  have h1 : List.Forall₂ (R (j + 3)) (List.zipWith (fun p q => dx * (q + p) / L.lit 2) y.dropLast y.tail)
      (List.zipWith (fun p q => dx' * (q + p) / L'.lit 2) y'.dropLast y'.tail) :=
    zipWith_rel (dropLast_rel h) (tail_rel h) fun _ _ _ _ h1 h2 => H.mono (by omega) (H.div (H.mul hd (H.add h2 h1)) H.two)
  exact H.mono (by simp; omega) (H.sum h1)

theorem trapz_fold {j n : ℕ} {dx : α} {dx' : β} (hd : R 0 dx dx') {y : List α} {y' : List β} (h : List.Forall₂ (R j) y y') (hn : y.length ≤ n + 1)
    (obs : List ℕ) {p : ℕ} {x : α} {x' : β} (hp : j + 3 + n ≤ p) (hx : R p x x') (f : ℕ) :
    R (p + obs.length) (obs.foldl (trapzBodyF L y dx) (x, f)).1 (obs.foldl (trapzBodyF L' y' dx') (x', f)).1 ∧
      (obs.foldl (trapzBodyF L y dx) (x, f)).2 = (obs.foldl (trapzBodyF L' y' dx') (x', f)).2 := by
  induction obs generalizing p x x' f with
  | nil => exact ⟨by simpa using hx, rfl⟩
  | cons l obs ih =>
    have h1 : List.Forall₂ (R j) (slice y f (l + 1)) (slice y' f (l + 1)) := take_rel (drop_rel h _) _
    have h2 := H.trapezoid (n := n) hd h1 (by unfold slice; simp; omega)
    have h3 := H.mono (show _ ≤ p + 1 by omega) (H.add hx h2)
    have := ih (p := p + 1) (by omega) h3 l
    simp only [List.foldl_cons, List.length_cons]
    exact ⟨H.mono (by omega) this.1, this.2⟩

theorem myTrapz {j n : ℕ} {dx : α} {dx' : β} (hd : R 0 dx dx') {y : List α} {y' : List β} (h : List.Forall₂ (R j) y y') (hn : y.length ≤ n + 1) (obs : List ℕ) :
    R (j + 4 + n + obs.length) (myTrapzF L y dx obs) (myTrapzF L' y' dx' obs) := by
  unfold myTrapzF
  obtain ⟨h1, h2⟩ := H.trapz_fold hd h hn obs (p := j + 3 + n) le_rfl (H.mono (by omega) H.zero) 0
  simp only
  rw [h2, h.length_eq] at *
  split
  · exact H.mono (by omega) (H.add h1 (H.trapezoid (n := n) hd (drop_rel h _) (by rw [List.length_drop]; have := h.length_eq; omega)))
  · exact H.mono (by omega) h1

theorem energy (p : Proc1) {j n : ℕ} {theta sigma dt : α} {theta' sigma' dt' : β} (ht : R 0 theta theta') (hs : D sigma sigma') (hd : R 0 dt dt')
    {a b m s : List α} {a' b' m' s' : List β} (ha : List.Forall₂ (R 0) a a') (hb : List.Forall₂ (R 0) b b') (hm : List.Forall₂ (R j) m m')
    (hs' : List.Forall₂ (R j) s s') (hn : m.length ≤ n + 1) (obs : List ℕ) :
    PyRel (R (6 * j + 25 + n + obs.length)) (energyF L p theta sigma dt a b m s obs) (energyF L' p theta' sigma' dt' a' b' m' s' obs) := by
  unfold energyF
  rw [ha.length_eq, hb.length_eq, hm.length_eq, hs'.length_eq]
  split
  · refine .ok (H.mono ?_ (H.div (H.mul (H.lit (1 / 2)) (H.myTrapz (j := 6 * j + 18) (n := n) hd ?_ ?_ obs)) hs))
    · omega
    · exact List.forall₂_map_left_iff.2 (List.forall₂_map_right_iff.2 (List.forall₂_same.2 fun i _ =>
        H.point p ht (getD_rel ha i H.zero) (getD_rel hb i H.zero) (getD_rel hm i (H.mono (by omega) H.zero)) (getD_rel hs' i (H.mono (by omega) H.zero))))
    · have := hm.length_eq
      simp; omega
  · exact .error _

theorem gauss {j : ℕ} {noise : α} {noise' : β} (hr : D noise noise') {v m s : List α} {v' m' s' : List β} (hv : List.Forall₂ (R 0) v v')
    (hm : List.Forall₂ (R j) m m') (hs : List.Forall₂ (R j) s s') (obs : List ℕ) :
    PyRel (R (2 * j + 12 + max v.length obs.length)) (gaussF L v obs noise m s) (gaussF L' v' obs noise' m' s') := by
  unfold gaussF
  have key : ∀ ks : List ℕ, ∀ r, fancy m ks = .ok r → r.length = ks.length := by
    intro ks
    induction ks with
    | nil => intro r h; cases h; rfl
    | cons k ks ih =>
      intro r h
      unfold fancy at h ih
      rw [List.mapM_cons] at h
      cases h1 : idx m k with
      | error e => rw [h1] at h; cases h
      | ok a =>
        rw [h1] at h
        cases h2 : ks.mapM (idx m) with
        | error e => rw [h2] at h; cases h
        | ok w => rw [h2] at h; cases h; simp [ih w h2]
  have hle : ∀ {γ δ ε : Type} (f : γ → δ → ε) (x : List γ) (y : List δ) (r : List ε), bcast f x y = .ok r → r.length ≤ max x.length y.length := by
    intro γ δ ε f x y r h
    unfold bcast at h
    split at h
    · cases h; rw [List.length_zipWith]; omega
    · split at h <;> cases h <;> simp
  refine ((fancy_rel hm obs).and (key obs)).bind fun mo mo' hmo => ?_
  obtain ⟨hmo, hlen⟩ := hmo
  refine (fancy_rel hs obs).bind fun so so' hso => ?_
  refine ((bcast_rel (T := R (j + 4)) hv hmo fun _ _ _ _ h1 h2 =>
    H.mono (by omega) (H.sub (H.pow (n := 2) (by norm_num) h1) (H.mul (H.mul (H.lit 2) h1) h2))).and (hle _ _ _)).bind fun q q' hq => ?_
  obtain ⟨hq, hqlen⟩ := hq
  have hE : List.Forall₂ (R (2 * j + 3)) (List.zipWith (fun m s => L.pow m 2 + s) mo so) (List.zipWith (fun m s => L'.pow m 2 + s) mo' so') :=
    zipWith_rel hmo hso fun _ _ _ _ h1 h2 => H.mono (by omega) (H.add (H.pow (n := 2) (by norm_num) h1) h2)
  refine ((bcast_rel (T := R (2 * j + 5)) hq hE fun _ _ _ _ h1 h2 => H.mono (by omega) (H.add h1 h2)).and (hle _ _ _)).bind fun r r' hr' => ?_
  obtain ⟨hr', hrl⟩ := hr'
  rw [List.length_zipWith] at hrl
  refine .ok (H.mono ?_ (H.add (H.div (H.mul (H.lit (1 / 2)) (H.sum hr')) hr)
    (H.mul (H.mul (H.lit (1 / 2)) (H.lit (obs.length : ℚ))) (H.add H.log2pi (H.log hr)))))
  omega

theorem prior {mu0 tau0 m0 s0 : α} {mu0' tau0' m0' s0' : β} (hmu : R 0 mu0 mu0') (htau : D tau0 tau0') (hm : R 0 m0 m0') (hs : D s0 s0') (hs' : R 0 s0 s0') :
    R 12 (priorF L mu0 tau0 m0 s0) (priorF L' mu0' tau0' m0' s0') := by
  unfold priorF
  exact H.mono (by omega) (H.add (H.sub (H.neg (H.log hs)) (H.mul (H.lit (1 / 2)) (H.sub (H.lit 1) (H.log htau))))
    (H.mul (H.div (H.lit (1 / 2)) htau) (H.add (H.pow (n := 2) (by norm_num) (H.sub hm hmu)) hs')))

/-- The free energy and the moments. -/
theorem freeEnergy (o : VgpF α) (o' : VgpF β) (x : List α) (x' : List β) (hx : List.Forall₂ (R 0) x x') (hdim : x.length = 2 * o.dim_n) (hdim' : o'.dim_n = o.dim_n)
    (hproc : o'.proc = o.proc) (hmeth : o'.method = o.method) (hm : o.method ≠ .rk2) (hobs : o'.obs_t = o.obs_t) (ht : R 0 o.theta o'.theta)
    (hs : D o.sigma o'.sigma) (hs0 : R 0 o.sigma o'.sigma) (hst : R 0 o.time_step o'.time_step) (hdt : R 0 o.dt o'.dt) (hv : List.Forall₂ (R 0) o.obs_v o'.obs_v)
    (hl : o.obs_v.length = o.obs_t.length) (hn : D o.obs_n o'.obs_n) (hmu : R 0 o.mu0 o'.mu0) (htau : D o.tau0 o'.tau0) (h0 : R 0 o.m0 o'.m0)
    (hv0 : D o.s0 o'.s0) (hv0' : R 0 o.s0 o'.s0) :
    PyRel (fun r r' => R (217 * o.dim_n + o.obs_t.length + 30) r.1 r'.1 ∧ List.Forall₂ (R (36 * o.dim_n)) r.2.1 r'.2.1 ∧
      List.Forall₂ (R (36 * o.dim_n)) r.2.2 r'.2.2) (o.freeEnergy L x) (o'.freeEnergy L' x') := by
  unfold VgpF.freeEnergy
  rw [hdim', hproc, hmeth, hobs]
  have ha := take_rel hx (o.dim_n * 1 * 1)
  have hb := drop_rel hx (o.dim_n * 1 * 1)
  have hbl : (x.drop (o.dim_n * 1 * 1)).length = o.dim_n := by rw [List.length_drop]; omega
  have hsw := H.solveFwd hm hdt h0 hv0' hs0 ha hb
  rw [hbl] at hsw
  have hlen : ∀ r, solveFwdF L o.method o.dt (x.take (o.dim_n * 1 * 1)) (x.drop (o.dim_n * 1 * 1)) o.m0 o.s0 o.sigma = .ok r → r.1.length = o.dim_n := by
    intro r hr
    unfold solveFwdF at hr
    cases h1 : fwdSweep (x.drop (o.dim_n * 1 * 1)).length (o.m0, o.s0)
        (stepF L o.method o.dt (x.take (o.dim_n * 1 * 1)) (x.drop (o.dim_n * 1 * 1)) o.sigma) with
    | error e => rw [h1] at hr; cases hr
    | ok ms =>
      have := fwdSweep_length h1
      rw [h1] at hr
      cases hr
      rw [List.length_map, this, hbl]
  refine (hsw.and hlen).bind fun ms ms' h => ?_
  obtain ⟨h, hml⟩ := h
  refine (H.gauss hn hv h.1 h.2 o.obs_t).bind fun g g' hg => ?_
  refine (H.energy o.proc (n := o.dim_n) ht hs hst ha hb h.1 h.2 (by omega) o.obs_t).bind fun e e' he => ?_
  rw [hl, max_self] at hg
  exact .ok ⟨H.mono (by omega) (H.add (H.add (H.prior hmu htau h0 hv0 hv0') he) hg), h.1, h.2⟩

end Logical

end VGPA
