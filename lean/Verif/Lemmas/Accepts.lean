import Verif.Props.Simulation
import Verif.Props.Obs
import Verif.Props.History
import Verif.Model.Pipeline

/-!
# When the steps of `setup()` succeed

Each lemma turns the success of one step into a condition on its arguments.
-/

set_option linter.unusedSectionVars false

namespace VGPA

open Matrix

variable {M A F B L K Vg X : Type}

/-! ## The monad -/

theorem sbind_ok {w α β : Type} {f : ScgM w α} {k : α → ScgM w β} {s : w} {b : β} :
    ((f >>= k) s).1 = .ok b ↔ ∃ a, (f s).1 = .ok a ∧ (k a (f s).2).1 = .ok b := by
  show (match f s with
    | (.ok a, s') => k a s'
    | (.error e, s') => (.error e, s')).1 = .ok b ↔ _
  rcases f s with ⟨e | a, s'⟩
  · simp
  · simp

theorem lift_fst {w α : Type} (p : Py α) (s : w) : ((ScgM.lift p : ScgM w α) s).1 = p := rfl
theorem lift_snd {w α : Type} (p : Py α) (s : w) : ((ScgM.lift p : ScgM w α) s).2 = s := rfl
theorem view_fst {α : Type} (g : MData M A → Py α) (s : MData M A) : (Sim.view g s).1 = g s := rfl
theorem view_snd {α : Type} (g : MData M A → Py α) (s : MData M A) : (Sim.view g s).2 = s := rfl
theorem write_fst (g : MData M A → MData M A) (s : MData M A) : (Sim.write g s).1 = .ok () := rfl
theorem write_snd (g : MData M A → MData M A) (s : MData M A) : (Sim.write g s).2 = g s := rfl
theorem onModel_fst {α : Type} (meth : M → Py α × M) {s : MData M A} {p : M} (h : s.model = some p) :
    (Sim.onModel meth s).1 = (meth p).1 := by simp only [Sim.onModel, h]
theorem onModel_snd {α : Type} (meth : M → Py α × M) {s : MData M A} {p : M} (h : s.model = some p) :
    (Sim.onModel meth s).2 = { s with model := some (meth p).2 } := by simp only [Sim.onModel, h]
theorem spure_fst {w α : Type} (a : α) (s : w) : ((pure a : ScgM w α) s).1 = .ok a := rfl
theorem spure_snd {w α : Type} (a : α) (s : w) : ((pure a : ScgM w α) s).2 = s := rfl

theorem moments_ok (C : Classes M A F B L K Vg X) (m : MData M A) {p : M} {one : Bool} {u v : PriorVal A}
    (hp : m.model = some p) (h1 : m.single_dim = some one) (hu : m.mu0 = some u) (hv : m.tau0 = some v) :
    (Sim.setupMoments C m).1 = .ok () ↔
      (∃ a, (C.first_mean p).1 = .ok a) ∧ (one = false →
        (∃ a, C.times_ones (C.first_mean p).2 u = .ok a) ∧ ∃ a, C.times_eye (C.first_mean p).2 v = .ok a) := by
  unfold Sim.setupMoments
  simp only [sbind_ok, view_fst, view_snd, write_fst, write_snd, need_ok, h1, Option.some.injEq, exists_eq_left',
    onModel_fst _ hp, onModel_snd _ hp, true_and, exists_const, py_bind_ok, py_pure, Except.ok.injEq]
  constructor
  · rintro ⟨a, ha, h⟩
    refine ⟨⟨a, ha⟩, fun h0 => ?_⟩
    subst h0
    simpa [sbind_ok, view_fst, view_snd, write_fst, write_snd, need_ok, py_bind_ok, hu, hv] using h
  · rintro ⟨⟨a, ha⟩, h⟩
    refine ⟨a, ha, ?_⟩
    cases one with
    | true => rfl
    | false =>
      obtain ⟨⟨b, hb⟩, c, hc⟩ := h rfl
      simp [sbind_ok, view_fst, view_snd, write_fst, write_snd, need_ok, py_bind_ok, hu, hv, hb, hc]

theorem obs_ok (C : Classes M A F B L K Vg X) (m : MData M A) {p : M} {obs noise : Json}
    (hp : m.model = some p) (ho : m.obs_setup = some obs) (hn : m.noise = some noise) :
    (Sim.setupObs C none m).1 = .ok () ↔ ∃ density rn op r, obs.item "density" = .ok density ∧ noise.item "obs" = .ok rn
      ∧ obs.item "operator" = .ok op ∧ (C.collect_obs p density rn op).1 = .ok r := by
  unfold Sim.setupObs
  simp only [sbind_ok, view_fst, view_snd, write_fst, need_ok, py_bind_ok, ho, hn, onModel_fst _ hp,
    Option.some.injEq, exists_eq_left', exists_const, and_true]
  constructor
  · rintro ⟨d, hd, r, hr, o, ho, a, ha⟩; exact ⟨d, r, o, a, hd, hr, ho, ha⟩
  · rintro ⟨d, r, o, a, hd, hr, ho, ha⟩; exact ⟨d, hd, r, hr, o, ho, a, ha⟩

theorem sbind_run {w α β : Type} {f : ScgM w α} {k : α → ScgM w β} {s s' : w} {a : α} (h : f s = (.ok a, s')) :
    (f >>= k) s = k a s' := by
  show (match f s with
    | (.ok a, s') => k a s'
    | (.error e, s') => (.error e, s')) = _
  rw [h]

theorem obs_after (C : Classes M A F B L K Vg X) (m : MData M A) {p : M} {obs noise density rn op : Json} {r : A × A × A}
    (hp : m.model = some p) (ho : m.obs_setup = some obs) (hn : m.noise = some noise)
    (h1 : obs.item "density" = .ok density) (h2 : noise.item "obs" = .ok rn) (h3 : obs.item "operator" = .ok op)
    (hr : (C.collect_obs p density rn op).1 = .ok r) :
    ((Sim.setupObs C none m).2).model = some (C.collect_obs p density rn op).2
      ∧ ((Sim.setupObs C none m).2).mu0 = m.mu0 ∧ ((Sim.setupObs C none m).2).tau0 = m.tau0
      ∧ ((Sim.setupObs C none m).2).single_dim = m.single_dim := by
  obtain ⟨t, y, z⟩ := r
  unfold Sim.setupObs
  simp only []
  rw [sbind_run (a := density) (s' := m) (by simp [Sim.view, need, ho, h1]),
    sbind_run (a := rn) (s' := m) (by simp [Sim.view, need, hn, h2]),
    sbind_run (a := op) (s' := m) (by simp [Sim.view, need, ho, h3]),
    sbind_run (a := (t, y, z)) (s' := { m with model := some (C.collect_obs p density rn op).2 })
      (by simp [Sim.onModel, hp, hr])]
  exact ⟨rfl, rfl, rfl, rfl⟩

theorem tail_ok (C : Classes M A F B L K Vg X) (m : MData M A) (p : M) (obs noise mu0 tau0 t0 tf dt : Json)
    (hp : m.model = some p) (ho : m.obs_setup = some obs) (hn : m.noise = some noise)
    (hu : m.mu0 = some (.given mu0)) (ht : m.tau0 = some (.given tau0)) (h1 : m.single_dim = some (C.single_dim p)) :
      (((Sim.onModel fun p => C.make_trajectory p t0 tf dt) >>= fun _ => Sim.setupObs C none >>= fun _ =>
        Sim.setupMoments C : Sim.Step M A Unit) m).1 = .ok () ↔
      ∃ density rn op, obs.item "density" = .ok density ∧ noise.item "obs" = .ok rn ∧ obs.item "operator" = .ok op
        ∧ (C.make_trajectory p t0 tf dt).1 = .ok ()
          ∧ (∃ r, (C.collect_obs (C.make_trajectory p t0 tf dt).2 density rn op).1 = .ok r)
          ∧ ∃ q, q = (C.collect_obs (C.make_trajectory p t0 tf dt).2 density rn op).2
            ∧ (∃ a, (C.first_mean q).1 = .ok a) ∧ (C.single_dim p = false →
              (∃ a, C.times_ones (C.first_mean q).2 (.given mu0) = .ok a)
                ∧ ∃ a, C.times_eye (C.first_mean q).2 (.given tau0) = .ok a) := by
  rw [sbind_ok]
  simp only [sbind_ok, onModel_fst _ hp, onModel_snd _ hp]
  set m' : MData M A := { m with model := some (C.make_trajectory p t0 tf dt).2 } with hm'
  constructor
  · rintro ⟨_, h2, _, h3, h4⟩
    obtain ⟨density, rn, op, r, e1, e2, e3, e4⟩ := (obs_ok C m' (p := (C.make_trajectory p t0 tf dt).2) rfl ho hn).1 h3
    obtain ⟨a1, a2, a3, a4⟩ := obs_after C m' (p := (C.make_trajectory p t0 tf dt).2) rfl ho hn e1 e2 e3 e4
    have := (moments_ok C _ a1 (a4.trans h1) (a2.trans hu) (a3.trans ht)).1 h4
    exact ⟨density, rn, op, e1, e2, e3, h2, ⟨r, e4⟩, _, rfl, this⟩
  · rintro ⟨density, rn, op, e1, e2, e3, h2, ⟨r, e4⟩, _, rfl, h5⟩
    have h3 := (obs_ok C m' (p := (C.make_trajectory p t0 tf dt).2) rfl ho hn).2 ⟨density, rn, op, r, e1, e2, e3, e4⟩
    obtain ⟨a1, a2, a3, a4⟩ := obs_after C m' (p := (C.make_trajectory p t0 tf dt).2) rfl ho hn e1 e2 e3 e4
    exact ⟨(), h2, (), h3, (moments_ok C _ a1 (a4.trans h1) (a2.trans hu) (a3.trans ht)).2 h5⟩

/-- What a configuration must contain for `setup(params)` to return. -/
theorem setup_ok_iff (C : Classes M A F B L K Vg X) (s : Sim M A) (params : Json) :
    (s.setup C params none).1 = .ok () ↔
      ∃ drift noise tw ode seed obs prior mu0 tau0 sys theta name t0 tf dt density rn op,
        params.item "Drift" = .ok drift ∧ params.item "Noise" = .ok noise ∧ params.item "Time-window" = .ok tw
        ∧ params.item "Ode-method" = .ok ode ∧ params.item "Random-Seed" = .ok seed ∧ params.item "Observations" = .ok obs
        ∧ params.item "Prior" = .ok prior ∧ prior.item "mu0" = .ok mu0 ∧ prior.item "tau0" = .ok tau0
        ∧ noise.item "sys" = .ok sys ∧ drift.item "theta" = .ok theta ∧ params.item "Model" = .ok name
        ∧ tw.item "t0" = .ok t0 ∧ tw.item "tf" = .ok tf ∧ tw.item "dt" = .ok dt
        ∧ obs.item "density" = .ok density ∧ noise.item "obs" = .ok rn ∧ obs.item "operator" = .ok op
        ∧ ∃ p, Sim.stochasticModel C name sys theta seed = .ok p
          ∧ (C.make_trajectory p t0 tf dt).1 = .ok ()
          ∧ (∃ r, (C.collect_obs (C.make_trajectory p t0 tf dt).2 density rn op).1 = .ok r)
          ∧ ∃ q, q = (C.collect_obs (C.make_trajectory p t0 tf dt).2 density rn op).2
            ∧ (∃ a, (C.first_mean q).1 = .ok a) ∧ (C.single_dim p = false →
              (∃ a, C.times_ones (C.first_mean q).2 (.given mu0) = .ok a)
                ∧ ∃ a, C.times_eye (C.first_mean q).2 (.given tau0) = .ok a) := by
  unfold Sim.setup Sim.setupBody
  dsimp only
  simp only [sbind_ok (f := ScgM.lift _), sbind_ok (f := Sim.view _), sbind_ok (f := Sim.write _), lift_fst, lift_snd,
    view_fst, view_snd, write_fst, write_snd, need_ok, py_bind_ok,
    Option.some.injEq, exists_eq_left', exists_eq_left, true_and, exists_const]
  constructor
  · rintro ⟨drift, h1, noise, h2, tw, h3, ode, h4, seed, h5, obs, h6, mu0, ⟨prior, h7, h8⟩, tau0, ⟨prior', h7', h9⟩, sys, h10,
      theta, h11, name, h12, p, h13, t0, h14, tf, h15, dt, h16, h⟩
    obtain rfl : prior = prior' := by rw [h7] at h7'; exact Except.ok.inj h7'
    obtain ⟨density, rn, op, e1, e2, e3, h⟩ := (tail_ok C _ p obs noise mu0 tau0 t0 tf dt rfl rfl rfl rfl rfl rfl).1 h
    exact ⟨drift, noise, tw, ode, seed, obs, prior, mu0, tau0, sys, theta, name, t0, tf, dt, density, rn, op, h1, h2, h3, h4, h5,
      h6, h7, h8, h9, h10, h11, h12, h14, h15, h16, e1, e2, e3, p, h13, by simpa only [exists_eq_left] using h⟩
  · rintro ⟨drift, noise, tw, ode, seed, obs, prior, mu0, tau0, sys, theta, name, t0, tf, dt, density, rn, op, h1, h2, h3, h4, h5,
      h6, h7, h8, h9, h10, h11, h12, h14, h15, h16, e1, e2, e3, p, h13, h⟩
    exact ⟨drift, h1, noise, h2, tw, h3, ode, h4, seed, h5, obs, h6, mu0, ⟨prior, h7, h8⟩, tau0, ⟨prior, h7, h9⟩, sys, h10,
      theta, h11, name, h12, p, h13, t0, h14, tf, h15, dt, h16,
      (tail_ok C _ p obs noise mu0 tau0 t0 tf dt rfl rfl rfl rfl rfl rfl).2 ⟨density, rn, op, e1, e2, e3, by
        simpa only [exists_eq_left] using h⟩⟩

end VGPA
