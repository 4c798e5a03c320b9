import Verif.Model.Pipeline
import Verif.Props.ScgMap

/-!
# Optimizing a variational object

The state of the optimizer is the object; only its stored results change. Here the optimizer is run with these
stored results as the state, and the statements about the optimizer are carried over.
-/

namespace VGPA

noncomputable section

section
variable {V W : Type} [AddCommGroup V] [Module ℝ V] [AddCommGroup W] [Module ℝ W]

/-- The two methods of an object `o`, with the stored results as the state. -/
def cacheOracle (sh : Shape V W) (o : VarGP V W) (n : ℕ) : Oracle (Option (VgpCache V W)) Unit ℝ (Fin n → ℝ) where
  f x _ c := match o.eval sh (List.ofFn x) with
    | .ok (F, c') => (.ok F, some c')
    | .error e => (.error e, c)
  df x _ c := ((VarGP.gradBody sh { o with cache := c } (List.ofFn x)).bind (AnyVgp.asVec n), c)
  dfEval x c := match o.eval sh (List.ofFn x) with
    | .ok (_, c') => ((VarGP.gradBody sh { o with cache := some c' } (List.ofFn x)).bind (AnyVgp.asVec n), some c')
    | .error e => (.error e, c)

variable {sh : Shape V W} {o : VarGP V W} {n : ℕ}

/-- A call of the optimizer on an object: the value belongs to the point, does not exceed the value at the start, and
the stored results belong to the point or to a worse one. -/
theorem cacheRun {p p' : Scg ℝ} (hp : Spec.Arrays p) {x0 x : Fin n → ℝ} {c c' : Option (VgpCache V W)} {fx : ℝ}
    (h : Scg.call (realArith n) (cacheOracle sh o n) () p x0 c = (.ok (x, fx), p', c')) :
    ∃ cx, o.eval sh (List.ofFn x) = .ok (fx, cx) ∧ (∃ F0 c0, o.eval sh (List.ofFn x0) = .ok (F0, c0) ∧ fx ≤ F0)
      ∧ (c' = some cx ∨ (∃ L w, Reach (realArith n) (cacheOracle sh o n) () p x0 c p.nit L w)
          ∧ ∃ (y : Fin n → ℝ) (Fy : ℝ) (cy : VgpCache V W), o.eval sh (List.ofFn y) = .ok (Fy, cy) ∧ c' = some cy ∧ fx < Fy) := by
  let F : (Fin n → ℝ) → ℝ := fun x => match o.eval sh (List.ofFn x) with
    | .ok (F, _) => F
    | .error _ => 0
  have fok : ∀ x s v s', (cacheOracle sh o n).f x () s = (.ok v, s') → ∃ cx, o.eval sh (List.ofFn x) = .ok (v, cx)
      ∧ s' = some cx := by
    intro x s v s' hf
    simp only [cacheOracle] at hf
    rcases he : o.eval sh (List.ofFn x) with e | ⟨Fv, cv⟩
    · rw [he] at hf; cases hf
    · rw [he] at hf; cases hf; exact ⟨cv, rfl, rfl⟩
  have Fok : ∀ x v cx, o.eval sh (List.ofFn x) = .ok (v, cx) → v = F x := by
    intro x v cx he
    simp only [F, he]
  have hF : ∀ x s v s', (cacheOracle sh o n).f x () s = (.ok v, s') → v = F x := by
    intro x s v s' hf
    obtain ⟨cx, he, _⟩ := fok x s v s' hf
    exact Fok x v cx he
  obtain ⟨t, t', ht⟩ := C64_evaluated p p' x0 c c' x fx h
  obtain ⟨cx, hx, _⟩ := fok _ _ _ _ ht
  refine ⟨cx, hx, ?_, ?_⟩
  · obtain ⟨f0, g0, s1, s2, t, h1, _⟩ := (call_ok _ _ _).1 h
    obtain ⟨c0, h0, _⟩ := fok _ _ _ _ h1
    refine ⟨f0, c0, h0, ?_⟩
    rw [Fok _ _ _ h0]
    exact (C65_descent F hF p p' hp x0 x c c' fx h).1
  · have hA : Spec.Remembers (cacheOracle sh o n) () (fun y s => ∃ Fy cy, o.eval sh (List.ofFn y) = .ok (Fy, cy)
        ∧ s = some cy) := by
      refine ⟨fun x s v s' hf => ?_, fun x s v s' hA hg => ?_, fun x s v s' hg => ?_⟩
      · obtain ⟨cx, he, hs⟩ := fok _ _ _ _ hf
        exact ⟨v, cx, he, hs⟩
      · simp only [cacheOracle] at hg
        injection hg with _ hs
        rw [← hs]
        exact hA
      · simp only [cacheOracle] at hg
        rcases he : o.eval sh (List.ofFn x) with e | ⟨Fv, cv⟩
        · rw [he] at hg; cases hg
        · rw [he] at hg
          injection hg with _ hs
          exact ⟨Fv, cv, rfl, hs.symm⟩
    rcases C69_state_partial F hF _ hA p p' x0 x c c' fx h with ⟨Fy, cy, he, hs⟩ | ⟨hL, y, ⟨Fy, cy, he, hs⟩, hlt⟩
    · rw [he] at hx
      cases hx
      exact .inl hs
    · refine .inr ⟨hL, y, Fy, cy, he, hs, ?_⟩
      rw [Fok _ _ _ he]
      exact hlt

/-- Functions that never raise: the optimizer returns. -/
theorem cacheRun_total (htot : ∀ x : Fin n → ℝ, ∃ F c, o.eval sh (List.ofFn x) = .ok (F, c)
      ∧ ∃ g, VarGP.gradBody sh { o with cache := some c } (List.ofFn x) = .ok g ∧ g.length = n)
    {p : Scg ℝ} (hp : Spec.Arrays p) (x0 : Fin n → ℝ) (c : Option (VgpCache V W)) :
    ∃ q p' c', Scg.call (realArith n) (cacheOracle sh o n) () p x0 c = (.ok q, p', c') := by
  let o2 : Oracle (Option (VgpCache V W)) Unit ℝ (Fin n → ℝ) :=
    { cacheOracle sh o n with df := fun x _ c => (cacheOracle sh o n).dfEval x c }
  have heq : Scg.call (realArith n) (cacheOracle sh o n) () p x0 c = Scg.call (realArith n) o2 () p x0 c := by
    refine call_congr (o₁ := cacheOracle sh o n) (o₂ := o2) rfl rfl (fun x s v s' hf => ?_) p x0 c
    obtain ⟨F, cx, he, g, hg, hl⟩ := htot x
    simp only [cacheOracle, he] at hf
    injection hf with _ hs
    subst hs
    simp only [o2, cacheOracle, he]
  have hgrad : ∀ x s, ∃ v s', (cacheOracle sh o n).dfEval x s = (.ok v, s') := by
    intro x s
    obtain ⟨F, cx, he, g, hg, hl⟩ := htot x
    refine ⟨fun i => g.getD i 0, some cx, ?_⟩
    simp only [cacheOracle, he, hg, Except.bind, AnyVgp.asVec, hl, if_true]
  have ho : Spec.NeverRaises o2 () := by
    refine ⟨fun x s => ?_, fun x s => hgrad x s, fun x s => hgrad x s⟩
    obtain ⟨F, cx, he, _⟩ := htot x
    exact ⟨F, some cx, by simp only [o2, cacheOracle, he]⟩
  obtain ⟨x, fx, p', s', hc, _⟩ := C66_never_raises (o := o2) (args := ()) p hp ho x0 c
  exact ⟨_, _, _, heq.trans hc⟩

end

/-! ## The two kinds of variational objects -/

theorem follows_one (o : VarGP ℝ ℝ) (n : ℕ) :
    Follows (fun c => AnyVgp.one { o with cache := c }) (cacheOracle shape1 o n) (AnyVgp.oracle n) () := by
  refine ⟨fun x c => ?_, fun x c => rfl, fun x c => ?_⟩
  · simp only [AnyVgp.oracle, AnyVgp.freeEnergy, VarGP.freeEnergy, cacheOracle]
    rw [show VarGP.eval shape1 { o with cache := c } (List.ofFn x) = o.eval shape1 (List.ofFn x) from rfl]
    rcases o.eval shape1 (List.ofFn x) with e | ⟨F, c'⟩ <;> rfl
  · simp only [AnyVgp.oracle, AnyVgp.gradient, VarGP.gradient, VarGP.freeEnergy, cacheOracle, if_true]
    rw [show VarGP.eval shape1 { o with cache := c } (List.ofFn x) = o.eval shape1 (List.ofFn x) from rfl]
    rcases o.eval shape1 (List.ofFn x) with e | ⟨F, c'⟩ <;> rfl

theorem follows_many (d : ℕ) (o : VarGP (Fin d → ℝ) (Matrix (Fin d) (Fin d) ℝ)) (n : ℕ) :
    Follows (fun c => AnyVgp.many d { o with cache := c }) (cacheOracle (shapeN d) o n) (AnyVgp.oracle n) () := by
  refine ⟨fun x c => ?_, fun x c => rfl, fun x c => ?_⟩
  · simp only [AnyVgp.oracle, AnyVgp.freeEnergy, VarGP.freeEnergy, cacheOracle]
    rw [show VarGP.eval (shapeN d) { o with cache := c } (List.ofFn x) = o.eval (shapeN d) (List.ofFn x) from rfl]
    rcases o.eval (shapeN d) (List.ofFn x) with e | ⟨F, c'⟩ <;> rfl
  · simp only [AnyVgp.oracle, AnyVgp.gradient, VarGP.gradient, VarGP.freeEnergy, cacheOracle, if_true]
    rw [show VarGP.eval (shapeN d) { o with cache := c } (List.ofFn x) = o.eval (shapeN d) (List.ofFn x) from rfl]
    rcases o.eval (shapeN d) (List.ofFn x) with e | ⟨F, c'⟩ <;> rfl

/-- The optimizer of `run()` used up its 500 iterations. -/
def Spec.UsesAllIterations (v : AnyVgp) (x0 : List ℝ) : Prop :=
  ∃ L w, Reach (realArith x0.length) (AnyVgp.oracle x0.length) ()
    (Scg.init (realArith x0.length) (some 500) (some 1.0e-6) (some 1.0e-8)) (fun i => x0.getD i 0) v 500 L w

theorem scgInit_arrays {S V : Type} (ar : Arith S V) (m : Option ℕ) (a b : Option S) : Spec.Arrays (Scg.init ar m a b) :=
  ⟨by simp [Scg.init], by simp [Scg.init], by simp [Scg.init]⟩

theorem ofFn_getD (x : List ℝ) : (List.ofFn fun i : Fin x.length => x.getD i 0) = x := by
  apply List.ext_getElem
  · simp
  · intro i h1 h2
    simp only [List.getElem_ofFn]
    rw [List.getD_eq_getElem?_getD, List.getElem?_eq_getElem h2, Option.getD_some]

/-- What `optimize` returns. -/
theorem optimize_ok {v v' : AnyVgp} {x0 x : List ℝ} {fx : ℝ} (h : v.optimize x0 = (.ok (x, fx), v')) :
    x.length = x0.length ∧ (v.freeEnergy x).1 = .ok fx ∧ (∃ F0, (v.freeEnergy x0).1 = .ok F0 ∧ fx ≤ F0)
      ∧ (v' = (v.freeEnergy x).2 ∨ Spec.UsesAllIterations v x0
          ∧ ∃ y Fy, v.freeEnergy y = (.ok Fy, v') ∧ fx < Fy) := by
  have core : ∀ {V W : Type} [AddCommGroup V] [Module ℝ V] [AddCommGroup W] [Module ℝ W] (sh : Shape V W) (o : VarGP V W)
      (ι : Option (VgpCache V W) → AnyVgp) (hι : ∀ n, Follows ι (cacheOracle sh o n) (AnyVgp.oracle n) ())
      (hv : v = ι o.cache) (hfe : ∀ y F c, o.eval sh y = .ok (F, c) → v.freeEnergy y = (.ok F, ι (some c))),
      x.length = x0.length ∧ (v.freeEnergy x).1 = .ok fx ∧ (∃ F0, (v.freeEnergy x0).1 = .ok F0 ∧ fx ≤ F0)
        ∧ (v' = (v.freeEnergy x).2 ∨ Spec.UsesAllIterations v x0
            ∧ ∃ y Fy, v.freeEnergy y = (.ok Fy, v') ∧ fx < Fy) := by
    intro V W _ _ _ _ sh o ι hι hv hfe
    unfold AnyVgp.optimize at h
    simp only at h
    rw [hv, call_map (hι _)] at h
    generalize hr : Scg.call (realArith x0.length) (cacheOracle sh o x0.length) ()
      (Scg.init (realArith x0.length) (some 500) (some 1.0e-6) (some 1.0e-8)) (fun i => x0.getD i 0) o.cache = r at h
    obtain ⟨q, p', c'⟩ := r
    rcases q with e | ⟨z, fz⟩
    · simp [Except.map] at h
    · simp only [Except.map, Prod.mk.injEq, Except.ok.injEq] at h
      obtain ⟨⟨rfl, rfl⟩, rfl⟩ := h
      obtain ⟨cx, e1, ⟨F0, c0, e2, e3⟩, e4⟩ := cacheRun (scgInit_arrays _ _ _ _) hr
      rw [ofFn_getD] at e2
      refine ⟨by simp, by rw [hfe _ _ _ e1], ⟨F0, by rw [hfe _ _ _ e2], e3⟩, ?_⟩
      rcases e4 with rfl | ⟨⟨L, w, hL⟩, y, Fy, cy, e5, rfl, e6⟩
      · exact .inl (by rw [hfe _ _ _ e1])
      · refine .inr ⟨⟨L, w.map ι, ?_⟩, List.ofFn y, Fy, hfe _ _ _ e5, e6⟩
        have := reach_map (hι _) hL
        rw [← hv] at this
        exact this
  cases v with
  | one o =>
    refine core shape1 o (fun c => AnyVgp.one { o with cache := c }) (follows_one o) rfl fun y F c he => ?_
    simp only [AnyVgp.freeEnergy, VarGP.freeEnergy, he]
  | many d o =>
    refine core (shapeN d) o (fun c => AnyVgp.many d { o with cache := c }) (follows_many d o) rfl fun y F c he => ?_
    simp only [AnyVgp.freeEnergy, VarGP.freeEnergy, he]

end

end VGPA
