import Verif.Props.ScgQuad

/-!
# Runs on a cubic: C69 and C73 fail
-/

namespace VGPA

/-- The objective `x - 16/3 x^3` with its exact gradient. -/
noncomputable def cubic : Oracle ((Fin 1 → ℝ) × ℕ × ℕ) Unit ℝ (Fin 1 → ℝ) :=
  tracing (fun x => x 0 - 16 / 3 * x 0 ^ 3) (fun x _ => 1 - 16 * x 0 ^ 2)

/-- The locals after the first, rejected, iteration from `0`. -/
noncomputable def cubicL1 : ScgLoc ℝ (Fin 1 → ℝ) :=
  { x := fun _ => 0, f_now := 0, f_old := 0, grad_new := fun _ => 1, grad_old := fun _ => 1, d := fun _ => -1, success := false
    count_success := 0, beta := 4, kappa := 1, theta := 2 / 125, mu := -1 }

theorem cubic_first (p : Scg ℝ) (t : ScgStats ℝ) (u v : ℕ) (ht : 0 < t.fx.length ∧ 0 < t.beta.length ∧ 0 < t.dfx.length) :
    ∃ t', Scg.turn (realArith 1) cubic () p 1 0 (ScgLoc.start (realArith 1) (fun _ => 0) 0 (fun _ => 1)) ⟨(fun _ => 0, u, v), t⟩
      = (.ok (.inl cubicL1), ⟨(fun _ => -(125 / 127), u + 2, v + 1), t'⟩) ∧ t'.MaxIt = t.MaxIt
        ∧ t'.fx.length = t.fx.length ∧ t'.beta.length = t.beta.length ∧ t'.dfx.length = t.dfx.length := by
  have hdir : dirOf (realArith 1) (ScgLoc.start (realArith 1) (fun _ => (0 : ℝ)) 0 (fun _ => 1)) = (fun _ => -1, -1) := by
    refine (ite_self _).trans (Prod.ext ?_ ?_)
    · funext i; simp [realArith, ScgLoc.start]
    · simp [realArith, dotProduct, ScgLoc.start]
  refine ⟨_, (turn_ok _ cubic ()).2 (.inr ⟨_, _, 1, 125 / 127, DirPath.curv rfl ?_ (1 / 1000) (2 / 125) (fun _ => 1 - 16 * (-(1 / 1000)) ^ 2)
    (fun _ => -(1 / 1000), u + 1, v + 1) ?_ ?_ ?_, ?_, MovePath.reject (L' := cubicL1) (-(125 / 127) + 16 / 3 * (125 / 127) ^ 3)
      (2 * (-(125 / 127) + 16 / 3 * (125 / 127) ^ 3) / (125 / 127 * (-1))) (fun _ => -(125 / 127), u + 2, v + 1) ?_ ?_ ?_ ?_ ?_⟩), rfl, ?_⟩
  · rw [hdir]; simp [realArith, dotProduct]; norm_num
  · rw [hdir]; simp [realArith, dotProduct]
  · rw [hdir]
    simp only [cubic, tracing, realArith, ScgLoc.start, Prod.mk.injEq, and_true, Except.ok.injEq]
    constructor
    · funext i; simp
    · funext i; simp
  · rw [hdir]
    simp only [realArith, ScgLoc.start, dotProduct]
    norm_num
  · rw [hdir]
    simp only [Scg.stepSize, realArith, ScgLoc.start, dotProduct, bind, Except.bind, pure, Except.pure]
    norm_num
  · simp only [hdir]
    simp only [cubic, tracing, realArith, ScgLoc.start, Prod.mk.injEq, and_true, Except.ok.injEq]
    refine ⟨?_, ?_⟩
    · simp; ring
    · funext i; simp
  · simp only [hdir]
    simp only [realArith, ScgLoc.start]
    norm_num
  · simp only [realArith]
    norm_num
  · exact ht
  · simp only [hdir]
    simp only [Scg.finish, realArith, ScgLoc.start, cubicL1, pure, Except.pure, dotProduct]
    norm_num
  · simp [ScgStats.recorded, ScgStats.bumped]

/-- C69 fails: one iteration on the cubic from `0`. The step is rejected, the call returns `0`, and the shared state is that
of the rejected point `-125/127`. -/
theorem C69_violated : ∃ p' s', Scg.call (realArith 1) cubic () (Scg.init (realArith 1) (some 1) none none) (fun _ => 0) (fun _ => 0, 0, 0)
    = (.ok (fun _ => 0, 0), p', s') ∧ s'.1 = (fun _ => -(125 / 127)) := by
  obtain ⟨t', h, _⟩ := cubic_first (Scg.init (realArith 1) (some 1) none none)
    ((Scg.init (realArith 1) (some 1) none none).stats.bumped 1 1) 1 1 (by simp [Scg.init, ScgStats.bumped])
  refine ⟨_, (fun _ => -(125 / 127), 3, 2), (call_ok _ cubic ()).2 ⟨0, fun _ => 1, (fun _ => 0, 1, 0), (fun _ => 0, 1, 1), t',
    ?_, ?_, ?_, rfl⟩, rfl⟩
  · simp [cubic, tracing]
  · simp [cubic, tracing]
  · simp only [Scg.init, Option.getD_some, List.range_succ_eq_map, List.range_zero, List.map_nil, Scg.loop, ScgM.bind_ok]
    exact ⟨_, _, h, rfl⟩

theorem cubic_second (p : Scg ℝ) (hx : p.x_tol = 1 / 10 ^ 6) (t : ScgStats ℝ) (s : (Fin 1 → ℝ) × ℕ × ℕ)
    (ht : 1 < t.fx.length ∧ 1 < t.beta.length ∧ 1 < t.dfx.length) :
    ∃ L' s' t', Scg.turn (realArith 1) cubic () p 1 1 cubicL1 ⟨s, t⟩ = (.ok (.inl L'), ⟨s', t'⟩) ∧ t'.MaxIt = t.MaxIt := by
  obtain ⟨L', hL', _⟩ := finish_accept (n := 1)
    (delta := 2 * (-(125 / 502) + 16 / 3 * (125 / 502) ^ 3) / (125 / 502 * (-1)))
    (L := { x := (realArith 1).vadd (fun _ => 0) ((realArith 1).smul (125 / 502) (fun _ => -1))
            f_now := -(125 / 502) + 16 / 3 * (125 / 502) ^ 3, f_old := -(125 / 502) + 16 / 3 * (125 / 502) ^ 3
            grad_new := fun _ => 1 - 16 * (-(125 / 502)) ^ 2
            grad_old := fun _ => 1, d := fun _ => -1, success := true, count_success := 0 + 1, beta := 4, kappa := 1
            theta := 2 / 125, mu := -1 })
    (by norm_num) (by norm_num) (by norm_num) rfl (by norm_num)
  refine ⟨L', (fun _ => -(125 / 502), s.2.1 + 2, s.2.2 + 1), _, (turn_ok _ cubic ()).2 (.inr ⟨cubicL1, _, 4, 125 / 502, .keep rfl, ?_,
    MovePath.accept (-(125 / 502) + 16 / 3 * (125 / 502) ^ 3) (2 * (-(125 / 502) + 16 / 3 * (125 / 502) ^ 3) / (125 / 502 * (-1)))
      (125 / 502) (-(125 / 502) + 16 / 3 * (125 / 502) ^ 3) (fun _ => 1 - 16 * (-(125 / 502)) ^ 2)
      (fun _ => -(125 / 502), s.2.1 + 1, s.2.2) (fun _ => -(125 / 502), s.2.1 + 2, s.2.2) (fun _ => -(125 / 502), s.2.1 + 2, s.2.2 + 1)
      ?_ ?_ ?_ ht ?_ ?_ ?_ ?_ ?_ L' ?_⟩), rfl⟩
  · simp only [Scg.stepSize, realArith, cubicL1, bind, Except.bind, pure, Except.pure]
    norm_num
  · simp only [cubic, tracing, realArith, cubicL1, Prod.mk.injEq, and_true, Except.ok.injEq]
    refine ⟨?_, ?_⟩
    · simp; ring
    · funext i; simp
  · simp only [realArith, cubicL1]
    norm_num
  · simp only [realArith]
    norm_num
  · simp only [realArith, cubicL1]
    norm_num [abs_of_nonneg]
  · rw [hx]
    simp only [realArith]
    norm_num
  · simp only [cubic, tracing, realArith, cubicL1, Prod.mk.injEq, and_true, Except.ok.injEq]
    refine ⟨?_, ?_⟩
    · simp; ring
    · funext i; simp
  · simp only [cubic, tracing, realArith, cubicL1, Prod.mk.injEq, and_true, Except.ok.injEq]
    funext i; simp
  · simp only [realArith, dotProduct]
    norm_num [abs_of_nonneg]
  · exact hL'

/-- C73 fails: with `max_it = 2`, a first call from the stationary point `1/4` stops in its first iteration; a second call,
from `0`, uses both iterations, and `MaxIt` still says `1`. -/
theorem C73_violated : ∃ p1 p2 s1 s2 q1 q2 L w,
    Scg.call (realArith 1) cubic () (Scg.init (realArith 1) (some 2) none none) (fun _ => 1 / 4) (fun _ => 0, 0, 0) = (.ok q1, p1, s1)
    ∧ Scg.call (realArith 1) cubic () p1 (fun _ => 0) s1 = (.ok q2, p2, s2)
    ∧ Reach (realArith 1) cubic () p1 (fun _ => 0) s1 2 L w ∧ p2.nit = 2 ∧ p2.stats.MaxIt = 1 := by
  obtain ⟨p0, hp0⟩ : ∃ p0, p0 = Scg.init (realArith 1) (some 2) none none := ⟨_, rfl⟩
  have hstats : p0.stats.fx.length = 2 ∧ p0.stats.beta.length = 2 ∧ p0.stats.dfx.length = 2 := by simp [hp0, Scg.init]
  have hx : p0.x_tol = 1 / 10 ^ 6 := by simp [hp0, Scg.init, realArith]
  have hnit : p0.nit = 2 := by simp [hp0, Scg.init]
  have hr2 : List.range 2 = [0, 1] := rfl
  -- first call
  have hdir : dirOf (realArith 1) (ScgLoc.start (realArith 1) (fun _ => (1 / 4 : ℝ)) (1 / 6) (fun _ => 0)) = (fun _ => 0, 0) := by
    refine (ite_self _).trans (Prod.ext ?_ ?_)
    · funext i; simp [realArith, ScgLoc.start]
    · simp [realArith, dotProduct, ScgLoc.start]
  have hfirst : Scg.turn (realArith 1) cubic () p0 1 0 (ScgLoc.start (realArith 1) (fun _ => (1 / 4 : ℝ)) (1 / 6) (fun _ => 0))
      ⟨(fun _ => 1 / 4, 1, 1), p0.stats.bumped 1 1⟩ = (.ok (.inr (fun _ => 1 / 4, 1 / 6)),
        ⟨(fun _ => 1 / 4, 1, 1), { p0.stats.bumped 1 1 with MaxIt := 1 }⟩) := by
    refine (turn_ok _ cubic ()).2 (.inl ⟨_, rfl, DirPath.zero rfl ?_⟩)
    rw [hdir]
    simp [realArith, dotProduct]
  have call1 : Scg.call (realArith 1) cubic () p0 (fun _ => 1 / 4) (fun _ => 0, 0, 0)
      = (.ok (fun _ => 1 / 4, 1 / 6), { p0 with stats := { p0.stats.bumped 1 1 with MaxIt := 1 } }, (fun _ => 1 / 4, 1, 1)) := by
    refine (call_ok _ cubic ()).2 ⟨1 / 6, fun _ => 0, (fun _ => 1 / 4, 1, 0), (fun _ => 1 / 4, 1, 1), _, ?_, ?_, ?_, rfl⟩
    · simp [cubic, tracing]; norm_num
    · simp only [cubic, tracing, Prod.mk.injEq, Except.ok.injEq, and_true]
      funext i; norm_num
    · rw [hnit, hr2]
      simp only [Scg.loop, ScgM.bind_ok]
      exact ⟨_, _, hfirst, rfl⟩
  -- second call
  obtain ⟨p1, hp1⟩ : ∃ p1, p1 = ({ p0 with stats := { p0.stats.bumped 1 1 with MaxIt := 1 } } : Scg ℝ) := ⟨_, rfl⟩
  have hl1 : p1.stats.fx.length = 2 ∧ p1.stats.beta.length = 2 ∧ p1.stats.dfx.length = 2 := by rw [hp1]; exact hstats
  have hnit1 : p1.nit = 2 := by rw [hp1]; exact hnit
  have hx1 : p1.x_tol = 1 / 10 ^ 6 := by rw [hp1]; exact hx
  have hM1 : p1.stats.MaxIt = 1 := by rw [hp1]
  obtain ⟨t1, h1, m1, l1, l2, l3⟩ := cubic_first p1 (p1.stats.bumped 1 1) 2 2 (by
    simp only [ScgStats.bumped]; omega)
  obtain ⟨L2, s2, t2, h2, m2⟩ := cubic_second p1 hx1 t1 (fun _ => -(125 / 127), 2 + 2, 2 + 1) (by
    simp only [ScgStats.bumped] at l1 l2 l3; omega)
  have hf : cubic.f (fun _ => 0) () (fun _ => 1 / 4, 1, 1) = (.ok 0, (fun _ => 0, 2, 1)) := by simp [cubic, tracing]
  have hg : cubic.df (fun _ => 0) () (fun _ => 0, 2, 1) = (.ok (fun _ => 1), (fun _ => 0, 2, 2)) := by simp [cubic, tracing]
  refine ⟨p1, { p1 with stats := t2 }, _, s2, _, (L2.x, L2.f_old), L2, ⟨s2, t2⟩, by rw [hp1, ← hp0]; exact call1, ?_, ?_, hnit1, ?_⟩
  · refine (call_ok _ cubic ()).2 ⟨0, fun _ => 1, _, _, t2, hf, hg, ?_, rfl⟩
    rw [hnit1, hr2]
    simp only [Scg.loop, ScgM.bind_ok]
    exact ⟨_, _, h1, ScgM.bind_ok.2 ⟨_, _, h2, rfl⟩⟩
  · exact .step (.step (.start 0 (fun _ => 1) _ _ hf hg) (by omega) h1) (by omega) h2
  · show t2.MaxIt = 1
    rw [m2, m1]
    exact hM1

end VGPA
