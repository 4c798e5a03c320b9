import Verif.Props.Pipeline
import Verif.Lemmas.Arrays

/-!
# C86: the arrays in the output
-/

namespace VGPA

noncomputable section

variable {G : Type}

/-! ## Process objects in a history -/

/-- Flag `one`, and a path that has as many points as the window, when there is one. -/
def Spec.PathFits {X : Type} (one : Bool) (p : Proc G X) : Prop :=
  p.single_dimension = one
  ∧ ((p.xt = none ∧ p.tk = none) ∨ ∃ x t, p.xt = some x ∧ p.tk = some t ∧ x.length = t.length)

/-- The object of the process in a simulation. -/
def Spec.ProcFits : AnyProc G → Prop
  | .dw o => Spec.PathFits true o.base
  | .ou o => Spec.PathFits true o.base
  | .l63 o => Spec.PathFits false o.base
  | .l96 o => Spec.PathFits false o.base

theorem flag_of_fits {p : AnyProc G} (h : Spec.ProcFits p) : Spec.FlagFits p := by
  cases p <;> simp only [Spec.ProcFits, Spec.PathFits] at h <;>
    simp [Spec.FlagFits, AnyProc.singleDim, AnyProc.dim, h.1]

theorem procInit_fits {X : Type} {R : Rng G} {g : G} {s : Option ℤ} {one : Bool} {p : Proc G X}
    (h : Proc.init R g s one = .ok p) : Spec.PathFits one p := by
  unfold Proc.init at h
  repeat' split at h
  all_goals cases h
  all_goals exact ⟨rfl, .inl ⟨rfl, rfl⟩⟩

theorem create_fits {E : Env G} {k : SysName} {sys theta seed : Json} {p : AnyProc G}
    (h : AnyProc.create E k sys theta seed = .ok p) : Spec.ProcFits p := by
  cases k
  · simp only [AnyProc.create, py_bind_ok] at h
    obtain ⟨s, _, th, _, sd, _, o, h, h'⟩ := h
    cases h'
    unfold DW.init at h
    simp only [py_bind_ok] at h
    obtain ⟨b, hb, h⟩ := h
    split at h
    · cases h
    · cases h; exact procInit_fits hb
  · simp only [AnyProc.create, py_bind_ok] at h
    obtain ⟨s, _, th, _, sd, _, o, h, h'⟩ := h
    cases h'
    unfold OU.init at h
    simp only [py_bind_ok] at h
    obtain ⟨b, hb, h⟩ := h
    repeat' split at h
    · cases h
    · cases h
    · cases h; exact procInit_fits hb
  · simp only [AnyProc.create, py_bind_ok] at h
    obtain ⟨s, _, th, _, sd, _, o, h, h'⟩ := h
    cases h'
    unfold L63.init at h
    simp only [py_bind_ok] at h
    obtain ⟨b, hb, sig, _, h⟩ := h
    split at h
    · cases h
    · simp only [py_bind_ok] at h
      obtain ⟨inv, _, h⟩ := h
      cases h; exact procInit_fits hb
  · simp only [AnyProc.create, py_bind_ok] at h
    obtain ⟨s, _, th, _, sd, _, o, h, h'⟩ := h
    cases h'
    unfold L96.init at h
    simp only [py_bind_ok] at h
    obtain ⟨b, hb, h⟩ := h
    split at h
    · cases h
    · simp only [py_bind_ok] at h
      obtain ⟨sig, _, h⟩ := h
      split at h
      · simp only [py_bind_ok] at h
        obtain ⟨inv, _, h⟩ := h
        cases h; exact procInit_fits hb
      · cases h

theorem setIdx_length {X : Type} {l l' : List X} {k : ℕ} {v : X} (h : setIdx l k v = .ok l') : l'.length = l.length := by
  by_cases hk : k < l.length
  · rw [setIdx_ok hk] at h
    cases h
    simp
  · rw [setIdx_err (by omega)] at h
    cases h

theorem fwdSweep_length {X : Type} [Zero X] {n : ℕ} {x0 : X} {step : ℕ → X → Py X} {x : List X}
    (h : fwdSweep n x0 step = .ok x) : x.length = n := by
  unfold fwdSweep at h
  rw [py_bind_ok] at h
  obtain ⟨buf, hb, h⟩ := h
  have hl : buf.length = n := by rw [setIdx_length hb]; simp
  rw [← hl]
  clear hb hl
  generalize List.range (n - 1) = ks at h
  induction ks generalizing buf with
  | nil => cases h; rfl
  | cons k ks ih =>
    rw [List.foldlM_cons, py_bind_ok] at h
    obtain ⟨buf', h1, h2⟩ := h
    simp only [py_bind_ok] at h1
    obtain ⟨_, _, _, _, h1⟩ := h1
    rw [ih _ h2, setIdx_length h1]

theorem lorenz_traj_fits {d : ℕ} {T : Type} (R : Rng G) (o : LorenzObj G d T) (f : (Fin d → ℝ) → Fin d → ℝ) (x0 : Fin d → ℝ)
    (t0 tf dt : ℝ) {one : Bool} (h : Spec.PathFits one o.base) :
    Spec.PathFits one (LorenzObj.makeTrajectory R o f x0 t0 tf dt).2.base := by
  unfold LorenzObj.makeTrajectory
  split
  · exact h
  · simp only
    split
    · exact h
    · split
      · exact h
      · rename_i hx
        exact ⟨h.1, .inr ⟨_, _, rfl, rfl, fwdSweep_length hx⟩⟩

theorem makeTrajectory_fits (E : Env G) (p : AnyProc G) (t0 tf dt : Json) (h : Spec.ProcFits p) :
    Spec.ProcFits (AnyProc.makeTrajectory E p t0 tf dt).2 := by
  unfold AnyProc.makeTrajectory
  split
  · exact h
  · cases p with
    | dw o =>
      simp only [Spec.ProcFits] at h ⊢
      unfold DW.makeTrajectory
      split
      · exact h
      · simp only
        split
        · exact h
        · split
          · exact h
          · rename_i hx
            exact ⟨h.1, .inr ⟨_, _, rfl, rfl, fwdSweep_length hx⟩⟩
    | ou o =>
      simp only [Spec.ProcFits] at h ⊢
      unfold OU.makeTrajectory
      split
      · exact h
      · simp only
        split
        · exact h
        · split
          · exact h
          · rename_i hx
            exact ⟨h.1, .inr ⟨_, _, rfl, rfl, fwdSweep_length hx⟩⟩
    | l63 o => exact lorenz_traj_fits _ _ _ _ _ _ _ h
    | l96 o => exact lorenz_traj_fits _ _ _ _ _ _ _ h

theorem collectObs1_base (R : Rng G) (p : Proc G ℝ) (n : ℝ) (rn : NdArr) (k : Option (List Bool)) :
    ∃ g, (p.collectObs1 R n rn k).2 = { p with rng := g } := by
  unfold Proc.collectObs1
  repeat' split
  all_goals first | exact ⟨p.rng, rfl⟩ | (simp only; split <;> exact ⟨_, rfl⟩)

theorem collectObsN_base {d : ℕ} (R : Rng G) (p : Proc G (Fin d → ℝ)) (n : ℝ) (rn : NdArr) (k : Option (List Bool)) :
    ∃ g, (p.collectObsN R n rn k).2 = { p with rng := g } := by
  unfold Proc.collectObsN
  repeat' (first | split | dsimp only)
  all_goals first | exact ⟨p.rng, rfl⟩ | exact ⟨_, rfl⟩ | exact ⟨_, by rw [apply_ite Prod.snd, ite_self]⟩

theorem collectObs_fits (E : Env G) (p : AnyProc G) (n rn op : Json) (h : Spec.ProcFits p) :
    Spec.ProcFits (AnyProc.collectObs E p n rn op).2 := by
  unfold AnyProc.collectObs
  split
  · exact h
  · cases p with
    | dw o =>
      simp only [Spec.ProcFits] at h ⊢
      obtain ⟨g, hg⟩ := collectObs1_base E.R o.base _ _ _
      rw [hg]; exact h
    | ou o =>
      simp only [Spec.ProcFits] at h ⊢
      obtain ⟨g, hg⟩ := collectObs1_base E.R o.base _ _ _
      rw [hg]; exact h
    | l63 o =>
      simp only [Spec.ProcFits] at h ⊢
      obtain ⟨g, hg⟩ := collectObsN_base E.R o.base _ _ _
      rw [hg]; exact h
    | l96 o =>
      simp only [Spec.ProcFits] at h ⊢
      obtain ⟨g, hg⟩ := collectObsN_base E.R o.base _ _ _
      rw [hg]; exact h

theorem firstMean_fits (E : Env G) (p : AnyProc G) (h : Spec.ProcFits p) : Spec.ProcFits (AnyProc.firstMean E p).2 := by
  cases p with
  | dw o => simp only [Spec.ProcFits, AnyProc.firstMean, AnyProc.firstMean1] at h ⊢; split <;> exact h
  | ou o => simp only [Spec.ProcFits, AnyProc.firstMean, AnyProc.firstMean1] at h ⊢; split <;> exact h
  | l63 o => simp only [Spec.ProcFits, AnyProc.firstMean, AnyProc.firstMeanN] at h ⊢; split <;> exact h
  | l96 o => simp only [Spec.ProcFits, AnyProc.firstMean, AnyProc.firstMeanN] at h ⊢; split <;> exact h

section
variable {M A F B L K Vg X : Type}

/-- An invariant of the process object that every method keeps. -/
theorem setup_model_inv (C : Classes M A F B L K Vg X) (I : M → Prop) (hc : ∀ k sys theta seed p, C.create k sys theta seed = .ok p → I p)
    (ht : ∀ p t0 tf dt, I p → I (C.make_trajectory p t0 tf dt).2) (ho : ∀ p n rn op, I p → I (C.collect_obs p n rn op).2)
    (hm : ∀ p, I p → I (C.first_mean p).2) (params : Json) (data : Option (Data A)) (m : MData M A)
    (h : ∀ p, m.model = some p → I p) : ∀ p, (Sim.setupBody C params data m).2.model = some p → I p := by
  let P : MData M A → Prop := fun w => ∀ p, w.model = some p → I p
  have onM : ∀ {α : Type} (meth : M → Py α × M), (∀ p, I p → I (meth p).2) → Trip P (Sim.onModel meth) (fun _ => P) P := by
    intro α meth hI s hs
    unfold Sim.onModel
    rcases hmm : s.model with _ | p
    · refine ⟨fun a s' h' => (by cases h'), fun e s' h' => ?_⟩
      cases h'
      exact hs
    · refine ⟨fun a s' h' => ?_, fun e s' h' => ?_⟩ <;>
      · obtain ⟨_, rfl⟩ := Prod.mk.inj h'
        intro q hq
        cases hq
        exact hI _ (hs _ hmm)
  have hE : ∀ s, P s → P s := fun _ h => h
  have lift : ∀ {α : Type} (p : Py α), Trip P (ScgM.lift p) (fun a s => p = .ok a ∧ P s) P := fun p => Trip.lift hE
  have view : ∀ {α : Type} (g : MData M A → Py α), Trip P (Sim.view g) (fun _ => P) P := fun g =>
    (Trip.view hE).weaken (fun _ h => h) (fun _ _ h => h.2) (fun _ h => h)
  have lift' : ∀ {α : Type} (p : Py α), Trip P (ScgM.lift p) (fun _ => P) P := fun p =>
    (lift p).weaken (fun _ h => h) (fun _ _ h => h.2) (fun _ h => h)
  have write : ∀ (g : MData M A → MData M A), (∀ s, (g s).model = s.model) → Trip P (Sim.write g) (fun _ => P) P := by
    intro g hg
    refine Trip.write fun s hs p hp => hs p ?_
    rw [← hg]
    exact hp
  have key : Trip P (Sim.setupBody C params data) (fun _ => P) P := by
    unfold Sim.setupBody
    iterate 8
      refine (lift' _).bind fun _ => ?_
      refine Trip.bind (Q := fun _ => P) (by exact write _ fun _ => rfl) fun _ => ?_
    iterate 3
      refine (view _).bind fun _ => ?_
    refine (lift' _).bind fun _ => ?_
    refine (lift _).bind fun p => ?_
    refine (Trip.write (Q := P) ?_).bind fun _ => ?_
    · rintro s ⟨hp, hs⟩ q hq
      cases hq
      unfold Sim.stochasticModel at hp
      split at hp
      · cases hp
      · split at hp
        · cases hp
        · exact hc _ _ _ _ _ hp
    refine Trip.bind (Q := fun _ => P) (by exact write _ fun _ => rfl) fun _ => ?_
    iterate 3
      refine (view _).bind fun _ => ?_
    refine (onM _ fun p hp => ht _ _ _ _ hp).bind fun _ => ?_
    refine Trip.bind (Q := fun _ => P) ?_ fun _ => ?_
    · unfold Sim.setupObs
      split
      · refine (lift' _).bind fun _ => ?_
        refine Trip.bind (Q := fun _ => P) (by exact write _ fun _ => rfl) fun _ => ?_
        refine (lift' _).bind fun _ => ?_
        exact write _ fun _ => rfl
      · iterate 3
          refine (view _).bind fun _ => ?_
        refine (onM _ fun p hp => ho _ _ _ _ hp).bind fun r => ?_
        obtain ⟨t, y, z⟩ := r
        refine Trip.bind (Q := fun _ => P) (by exact write _ fun _ => rfl) fun _ => ?_
        refine Trip.bind (Q := fun _ => P) (by exact write _ fun _ => rfl) fun _ => ?_
        exact write _ fun _ => rfl
    · unfold Sim.setupMoments
      refine (view _).bind fun _ => ?_
      refine (onM _ hm).bind fun _ => ?_
      refine Trip.bind (Q := fun _ => P) (by exact write _ fun _ => rfl) fun _ => ?_
      refine (view _).bind fun _ => ?_
      refine Trip.bind (Q := fun _ => P) (by exact write _ fun _ => rfl) fun _ => ?_
      split
      · exact Trip.pure fun _ h => h
      · refine (view _).bind fun _ => ?_
        refine Trip.bind (Q := fun _ => P) (by exact write _ fun _ => rfl) fun _ => ?_
        refine (view _).bind fun _ => ?_
        exact write _ fun _ => rfl
  obtain ⟨k1, k2⟩ := key m h
  rcases hr : Sim.setupBody C params data m with ⟨e | u, m'⟩
  · exact k2 _ _ hr
  · exact k1 _ _ hr

end

/-- The same classes with another state from the operating system. -/
def Env.withEntropy (E : Env G) (g : G) : Env G := { E with entropy := g }

/-- A history of calls on one simulation: like `Spec.History`, but in every call the operating system provides
another state for generators without a seed. -/
inductive Spec.PyHistory (E : Env G) (canOpen : String → Py Unit) (name : Option String) (files : Files) :
    List (Spec.Op Arr × Py Unit) → Sim (AnyProc G) Arr × Files → Prop
  | new : Spec.PyHistory E canOpen name files [] (Sim.init name, files)
  | call {h s} (hist : Spec.PyHistory E canOpen name files h s) (op : Spec.Op Arr) (g : G) :
      Spec.PyHistory E canOpen name files ((op, (Spec.exec (pyClasses (E.withEntropy g)) canOpen op s).1) :: h)
        (Spec.exec (pyClasses (E.withEntropy g)) canOpen op s).2

/-- In every history the process object has the flag of its class, and path and window of equal length. -/
theorem history_fits {E : Env G} {canOpen : String → Py Unit} {name : Option String} {files : Files}
    {h : List (Spec.Op Arr × Py Unit)} {s : Sim (AnyProc G) Arr × Files} (hist : Spec.PyHistory E canOpen name files h s) :
    ∀ p, s.1.m_data.model = some p → Spec.ProcFits p := by
  induction hist with
  | new => intro p hp; cases hp
  | @call h s hist op g ih =>
    generalize E.withEntropy g = E'
    cases op with
    | setup params data =>
      exact setup_model_inv (pyClasses E') Spec.ProcFits (fun k sys theta seed p hp => create_fits hp)
        (fun p t0 tf dt hp => makeTrajectory_fits E' p _ _ _ hp) (fun p n rn op hp => collectObs_fits E' p _ _ _ hp)
        (fun p hp => firstMean_fits E' p hp) params data _ ih
    | run =>
      have : (Spec.exec (pyClasses E') canOpen .run s).2.1.m_data = s.1.m_data := by
        simp only [Spec.exec, Sim.run]
        repeat' split
        all_goals rfl
      rw [this]; exact ih
    | save =>
      have : (Spec.exec (pyClasses E') canOpen .save s).2.1.m_data = s.1.m_data := by
        simp only [Spec.exec, Sim.save]
        repeat' split
        all_goals rfl
      rw [this]; exact ih

/-! ## Sizes of the stored results -/

theorem solveBwd_sizes {V W : Type} [AddCommGroup V] [Module ℝ V] [AddCommGroup W] [Module ℝ W] {meth : Method} {F : Rhs V W}
    {dt : ℝ} {A : List W} {em : List V} {es : List W} {om : List V} {os : List W} {lam : List V} {psi : List W}
    (h : solveBwd meth F dt A em es om os = .ok (lam, psi)) : lam.length = em.length ∧ psi.length = em.length := by
  obtain ⟨h1, h2⟩ := C16_backward_shapes meth F dt A em es om os
  by_cases hc : em.length ≤ 1 ∨ (em.length ≤ A.length ∧ em.length ≤ es.length ∧ em.length ≤ om.length + 1 ∧
        em.length ≤ os.length + 1)
  · obtain ⟨lam', psi', h', hl, hp, _⟩ := h1 hc
    rw [h] at h'
    cases h'
    exact ⟨hl, hp⟩
  · have := h2 hc
    rw [h] at this
    cases this

theorem solveFwd_sizes2 {V W : Type} [AddCommGroup V] [Module ℝ V] [AddCommGroup W] [Module ℝ W] {meth : Method} {F : Rhs V W}
    {dt : ℝ} {A : List W} {b : List V} {m0 : V} {s0 sigma : W} {mt : List V} {st : List W}
    (h : solveFwd meth F dt A b m0 s0 sigma = .ok (mt, st)) : st.length = b.length := by
  obtain ⟨h1, h2⟩ := C16_forward_shapes meth F dt A b m0 s0 sigma
  by_cases hc : 0 < b.length ∧ (b.length ≤ A.length ∨ (meth = .euler ∧ b.length ≤ A.length + 1) ∨ b.length = 1)
  · obtain ⟨mt', st', h', _, hl, _⟩ := h1 hc
    rw [h] at h'
    cases h'
    exact hl
  · have := h2 hc
    rw [h] at this
    simp at this

/-- All six stored arrays have `n` entries. -/
def Spec.CacheSize {V W : Type} (n : ℕ) (c : VgpCache V W) : Prop :=
  c.mt.length = n ∧ c.st.length = n ∧ c.Efx.length = n ∧ c.Edf.length = n ∧ c.lamt.length = n ∧ c.psit.length = n

theorem eval_sizes {V W : Type} [AddCommGroup V] [Module ℝ V] [AddCommGroup W] [Module ℝ W] {sh : Shape V W} {o : VarGP V W}
    {x : List ℝ} {F : ℝ} {c : VgpCache V W} {n : ℕ} (h : o.eval sh x = .ok (F, c))
    (hb : ∀ a b, sh.unpackF o.dim_n x = .ok (a, b) → b.length = n)
    (he : ∀ a b m s t e, o.model.energy a b m s t = .ok e → m.length = n →
      e.Efx.length = n ∧ e.Edf.length = n ∧ e.dm.length = n) : Spec.CacheSize n c := by
  obtain ⟨a, b, e, dE, E0, Eobs, h1, h2, _, h4, _, _, h7, h8, h9, _⟩ := eval_ok sh o x F c h
  have hbn := hb _ _ h1
  have hm : c.mt.length = n := by rw [(solveFwd_sizes h2).2, hbn]
  obtain ⟨e1, e2, e3⟩ := he _ _ _ _ _ _ h4 hm
  refine ⟨hm, by rw [solveFwd_sizes2 h2, hbn], by rw [h8, e1], by rw [h9, e2], ?_, ?_⟩
  · rw [(solveBwd_sizes h7).1, e3]
  · rw [(solveBwd_sizes h7).2, e3]

theorem dw_sde_sizes {o : DW G} {n : ℕ} {a b m s : List ℝ} {t : List ℕ} {e : SdeTerms ℝ ℝ} (h : o.sde.energy a b m s t = .ok e)
    (hm : m.length = n) : e.Efx.length = n ∧ e.Edf.length = n ∧ e.dm.length = n := by
  simp only [DW.sde, py_bind_ok] at h
  obtain ⟨e', h, h'⟩ := h
  cases h'
  have hsz := dw_energy_sizes h
  unfold DW.energy at h
  simp only [py_bind_ok] at h
  obtain ⟨_, _, _, _, _, _, _, _, _, _, _, _, h⟩ := h
  rw [if_neg (by simp [hsz.1, hsz.2])] at h
  simp only [py_bind_ok] at h
  obtain ⟨_, _, _, _, _, _, _, _, _, _, _, _, _, _, _, _, h⟩ := h
  cases h
  simp [tab, hm]

theorem ou_sde_sizes {o : OU G} {n : ℕ} {a b m s : List ℝ} {t : List ℕ} {e : SdeTerms ℝ ℝ} (h : o.sde.energy a b m s t = .ok e)
    (hm : m.length = n) : e.Efx.length = n ∧ e.Edf.length = n ∧ e.dm.length = n := by
  simp only [OU.sde, py_bind_ok] at h
  obtain ⟨e', h, h'⟩ := h
  cases h'
  have hsz := ou_energy_sizes h
  unfold OU.energy at h
  simp only [py_bind_ok] at h
  obtain ⟨_, _, _, _, _, _, h⟩ := h
  rw [if_neg (by simp [hsz.1, hsz.2])] at h
  cases h
  simp [tab, hm]

theorem mapM_length {α β : Type} {f : α → Py β} {l : List α} {r : List β} (h : l.mapM f = .ok r) : r.length = l.length := by
  induction l generalizing r with
  | nil => cases h; rfl
  | cons a l ih =>
    rw [List.mapM_cons, py_bind_ok] at h
    obtain ⟨b, _, h⟩ := h
    rw [py_bind_ok] at h
    obtain ⟨bs, h1, h⟩ := h
    cases h
    simp [ih h1]

theorem l63_sde_sizes {o : L63 G} {n : ℕ} {tw : List ℝ} (htw : o.base.timeWindow = .ok tw) (hn : tw.length = n) {a b m s t e}
    (h : o.sde.energy a b m s t = .ok e) : e.Efx.length = n ∧ e.Edf.length = n ∧ e.dm.length = n := by
  simp only [L63.sde, py_bind_ok] at h
  obtain ⟨e', h, h'⟩ := h
  cases h'
  unfold L63.energy at h
  simp only [py_bind_ok] at h
  obtain ⟨tw', h1, dt, _, rows, h2, h⟩ := h
  rw [htw] at h1
  cases h1
  cases h
  have := mapM_length h2
  simp only [List.length_range] at this
  simp [this, hn]

theorem l96_sde_sizes {d : ℕ} {o : L96 G d} {n : ℕ} {tw : List ℝ} (htw : o.base.timeWindow = .ok tw) (hn : tw.length = n) {a b m s t e}
    (h : o.sde.energy a b m s t = .ok e) : e.Efx.length = n ∧ e.Edf.length = n ∧ e.dm.length = n := by
  simp only [L96.sde, py_bind_ok] at h
  obtain ⟨e', h, h'⟩ := h
  cases h'
  unfold L96.energy at h
  simp only [py_bind_ok] at h
  obtain ⟨tw', h1, dt, _, rows, h2, h⟩ := h
  rw [htw] at h1
  cases h1
  cases h
  have := mapM_length h2
  simp only [List.length_range] at this
  simp [this, hn]

/-- `v` is a number, or an array of this shape with as many entries as the shape says. -/
def Spec.HasShape (shape : Option (List ℕ)) (v : Val) : Prop :=
  match shape, v with
  | none, .scalar _ => True
  | some sh, .array a => a.shape = sh ∧ a.data.length = sh.prod
  | _, _ => False

/-- The eleven entries of the output, with the shapes that the documentation gives for a path of `n` points in `d`
dimensions. `none` is a number. -/
def Spec.outputShapes (d n : ℕ) : List (String × Option (List ℕ)) :=
  if d = 1 then
    [("at", some [n]), ("bt", some [n]), ("fx", none), ("m0", none), ("s0", none), ("mt", some [n]), ("st", some [n]),
      ("Efx", some [n]), ("Edf", some [n]), ("lamt", some [n]), ("psit", some [n])]
  else
    [("at", some [n, d, d]), ("bt", some [n, d]), ("fx", none), ("m0", some [d]), ("s0", some [d, d]), ("mt", some [n, d]),
      ("st", some [n, d, d]), ("Efx", some [n, d]), ("Edf", some [n, d, d]), ("lamt", some [n, d]), ("psit", some [n, d, d])]

theorem argOut_one_shapes {o : VarGP ℝ ℝ} {c : VgpCache ℝ ℝ} {n : ℕ} (hc : Spec.CacheSize n c) :
    ∀ e ∈ Spec.outputShapes 1 n, e.1 ∈ Spec.momentNames →
      ∃ z, (AnyVgp.one { o with cache := some c }).argOut.lookup e.1 = some z ∧ Spec.HasShape e.2 z := by
  obtain ⟨h1, h2, h3, h4, h5, h6⟩ := hc
  intro e he hm
  simp only [Spec.outputShapes, if_true, List.mem_cons, List.not_mem_nil, or_false] at he
  rcases he with rfl | rfl | rfl | rfl | rfl | rfl | rfl | rfl | rfl | rfl | rfl
  iterate 3 exact absurd hm (by simp [Spec.momentNames])
  all_goals refine ⟨_, rfl, ?_⟩
  all_goals simp [Spec.HasShape, AnyVgp.arr1, h1, h2, h3, h4, h5, h6]

theorem argOut_many_shapes {d : ℕ} (hd : d ≠ 1) {o : VarGP (Fin d → ℝ) (Matrix (Fin d) (Fin d) ℝ)}
    {c : VgpCache (Fin d → ℝ) (Matrix (Fin d) (Fin d) ℝ)} {n : ℕ} (hc : Spec.CacheSize n c) :
    ∀ e ∈ Spec.outputShapes d n, e.1 ∈ Spec.momentNames →
      ∃ z, (AnyVgp.many d { o with cache := some c }).argOut.lookup e.1 = some z ∧ Spec.HasShape e.2 z := by
  obtain ⟨h1, h2, h3, h4, h5, h6⟩ := hc
  intro e he hm
  simp only [Spec.outputShapes, hd, if_false, List.mem_cons, List.not_mem_nil, or_false] at he
  rcases he with rfl | rfl | rfl | rfl | rfl | rfl | rfl | rfl | rfl | rfl | rfl
  iterate 3 exact absurd hm (by simp [Spec.momentNames])
  all_goals refine ⟨_, rfl, ?_⟩
  all_goals simp [Spec.HasShape, AnyVgp.arr2, AnyVgp.arr3, AnyVgp.nd, h1, h2, h3, h4, h5, h6, ravel2_length, ravel3_length,
    List.length_flatten, List.map_ofFn, Function.comp_def]

theorem window_of_path {X : Type} {p : Proc G X} {path : List X}
    (h : (p.xt = none ∧ p.tk = none) ∨ ∃ x t, p.xt = some x ∧ p.tk = some t ∧ x.length = t.length)
    (hp : p.samplePath = .ok path) : ∃ tw, p.timeWindow = .ok tw ∧ path.length = tw.length := by
  unfold Proc.samplePath at hp
  unfold Proc.timeWindow
  rcases h with ⟨h1, _⟩ | ⟨x, t, h1, h2, h3⟩
  · rw [h1] at hp; cases hp
  · rw [h1] at hp; cases hp
    rw [h2]
    exact ⟨t, rfl, h3⟩

theorem unpackN_length {d n : ℕ} {x : List ℝ} {a : List (Matrix (Fin d) (Fin d) ℝ)} {b : List (Fin d → ℝ)}
    (h : (shapeN d).unpackF n x = .ok (a, b)) : b.length = n := by
  simp only [shapeN] at h
  split at h
  · cases h
  · simp only [py_bind_ok] at h
    obtain ⟨_, _, b', h3, h4⟩ := h
    cases h4
    unfold reshape2 at h3
    split at h3
    · cases h3; simp
    · cases h3

/-- The free energy of a built object leaves arrays of the right shapes. -/
theorem create_shapes {p : AnyProc G} (hp : Spec.ProcFits p) {m0 s0 : Arr} {f b : OdeFrontEnd} {l : AnyLike} {k : AnyPrior} {y t : Arr}
    {v v' : AnyVgp} (h : AnyVgp.create p m0 s0 f b l k y t = .ok v) {x : List ℝ} {F : ℝ} (hF : v.freeEnergy x = (.ok F, v'))
    {n : ℕ} (hn : p.pathLength = .ok n) :
    ∀ e ∈ Spec.outputShapes p.dim n, e.1 ∈ Spec.momentNames → ∃ z, v'.argOut.lookup e.1 = some z ∧ Spec.HasShape e.2 z := by
  have hF1 : (v.freeEnergy x).1 = .ok F := by rw [hF]
  cases p with
  | dw o =>
    obtain ⟨w, path, rfl, hm, hpa, hd⟩ := mk1_ok h
    have hnp : path.length = n := by
      have : o.base.samplePath = .ok path := hpa
      simp only [AnyProc.pathLength, this] at hn
      cases hn; rfl
    have hsz := one_sizes (w := w) (fun a b m s t e he => by
      rw [hm] at he
      simp only [DW.sde, py_bind_ok] at he
      obtain ⟨e', he, _⟩ := he
      exact dw_energy_sizes he) hF1
    simp only [AnyVgp.freeEnergy, VarGP.freeEnergy] at hF
    rcases he : w.eval shape1 x with e | ⟨F', c⟩
    · rw [he] at hF; cases hF
    · rw [he] at hF; cases hF
      refine argOut_one_shapes (eval_sizes he ?_ ?_)
      · intro a b hab
        simp only [shape1, Nat.mul_one, Except.ok.injEq, Prod.mk.injEq] at hab
        rw [← hab.2, hsz.2.2, hd, hnp]
      · intro a b m s t e he
        rw [hm] at he
        exact dw_sde_sizes he
  | ou o =>
    obtain ⟨w, path, rfl, hm, hpa, hd⟩ := mk1_ok h
    have hnp : path.length = n := by
      have : o.base.samplePath = .ok path := hpa
      simp only [AnyProc.pathLength, this] at hn
      cases hn; rfl
    have hsz := one_sizes (w := w) (fun a b m s t e he => by
      rw [hm] at he
      simp only [OU.sde, py_bind_ok] at he
      obtain ⟨e', he, _⟩ := he
      exact ou_energy_sizes he) hF1
    simp only [AnyVgp.freeEnergy, VarGP.freeEnergy] at hF
    rcases he : w.eval shape1 x with e | ⟨F', c⟩
    · rw [he] at hF; cases hF
    · rw [he] at hF; cases hF
      refine argOut_one_shapes (eval_sizes he ?_ ?_)
      · intro a b hab
        simp only [shape1, Nat.mul_one, Except.ok.injEq, Prod.mk.injEq] at hab
        rw [← hab.2, hsz.2.2, hd, hnp]
      · intro a b m s t e he
        rw [hm] at he
        exact ou_sde_sizes he
  | l63 o =>
    obtain ⟨w, path, rfl, hm, hpa, hd⟩ := mkN_ok h
    have hpa' : o.base.samplePath = .ok path := hpa
    have hnp : path.length = n := by
      simp only [AnyProc.pathLength, hpa'] at hn
      cases hn; rfl
    obtain ⟨tw, htw, hl⟩ := window_of_path hp.2 hpa'
    simp only [AnyVgp.freeEnergy, VarGP.freeEnergy] at hF
    rcases he : w.eval (shapeN 3) x with e | ⟨F', c⟩
    · rw [he] at hF; cases hF
    · rw [he] at hF; cases hF
      refine argOut_many_shapes (d := 3) (by decide) (eval_sizes he ?_ ?_)
      · intro a b hab
        rw [unpackN_length hab, hd, hnp]
      · intro a b m s t e he _
        rw [hm] at he
        exact l63_sde_sizes htw (by omega) he
  | l96 o =>
    obtain ⟨w, path, rfl, hm, hpa, hd⟩ := mkN_ok h
    have hpa' : o.base.samplePath = .ok path := hpa
    have hnp : path.length = n := by
      simp only [AnyProc.pathLength, hpa'] at hn
      cases hn; rfl
    obtain ⟨tw, htw, hl⟩ := window_of_path hp.2 hpa'
    simp only [AnyVgp.freeEnergy, VarGP.freeEnergy] at hF
    rcases he : w.eval (shapeN 40) x with e | ⟨F', c⟩
    · rw [he] at hF; cases hF
    · rw [he] at hF; cases hF
      refine argOut_many_shapes (d := 40) (by decide) (eval_sizes he ?_ ?_)
      · intro a b hab
        rw [unpackN_length hab, hd, hnp]
      · intro a b m s t e he _
        rw [hm] at he
        exact l96_sde_sizes htw (by omega) he

theorem lookup_ne_none {α : Type} {d : Dict α} {k : String} : d.lookup k ≠ none ↔ k ∈ d.map Prod.fst := by
  rw [Ne, lookup_none_iff_keys, not_not]

/-- In every history only the eleven names are in use. -/
theorem history_keys {E : Env G} {canOpen : String → Py Unit} {name : Option String} {files : Files}
    {h : List (Spec.Op Arr × Py Unit)} {s : Sim (AnyProc G) Arr × Files} (hist : Spec.PyHistory E canOpen name files h s) :
    ∀ k, s.1.output.lookup k ≠ none → k ∈ "at" :: "bt" :: "fx" :: Spec.momentNames := by
  have keys_save : ∀ l done f, ((Sim.saveLoop l done f).2.1).map Prod.fst = done.map Prod.fst ++ l.map Prod.fst := by
    intro l
    induction l with
    | nil => intro done f; simp [Sim.saveLoop]
    | cons p l ih =>
      intro done f
      obtain ⟨k, v⟩ := p
      unfold Sim.saveLoop
      simp only
      split
      · simp
      · rw [ih]; simp
  induction hist with
  | new => intro k hk; exact absurd rfl hk
  | @call h s hist op g ih =>
    generalize E.withEntropy g = E'
    cases op with
    | setup params data => exact ih
    | run =>
      intro k hk
      simp only [Spec.exec] at hk
      rcases hr : s.1.run (pyClasses E') with ⟨e | u, s'⟩
      · rw [C76_failed_run_keeps_output_py E' s.1 e (by rw [hr])] at hk
        exact ih k hk
      · obtain ⟨p, x, fx, g, a, b, hrb, ha, hb, hout⟩ := run_ok_output (pyClasses E') s.1 (by rw [hr])
        obtain ⟨v, x0, hbu, ho⟩ := runBody_builds.1 hrb
        obtain ⟨_, h1, _, h4⟩ := optimize_ok ho
        obtain ⟨x', F', hx'⟩ : ∃ x' F', v.freeEnergy x' = (.ok F', g) := by
          rcases h4 with rfl | ⟨_, y, Fy, hy, _⟩
          · exact ⟨x, fx, Prod.ext h1 rfl⟩
          · exact ⟨y, Fy, hy⟩
        rw [hout] at hk
        have hk' : ((((s.1.output.put "at" (.array a)).put "bt" (.array b)).put "fx" (.scalar fx)).update g.argOut).lookup k
          ≠ none := hk
        rw [lookup_update _ _ (argOut_distinct g)] at hk'
        rcases hg : g.argOut.lookup k with _ | z'
        · rw [hg, Option.none_or, lookup_put, lookup_put, lookup_put] at hk'
          split at hk'
          · rename_i h; simp [h]
          split at hk'
          · rename_i h; simp [h]
          split at hk'
          · rename_i h; simp [h]
          · exact ih k hk'
        · have : k ∈ g.argOut.map Prod.fst := lookup_ne_none.1 (by rw [hg]; simp)
          rw [argOut_fe hx'] at this
          simp only [List.mem_cons]
          exact .inr (.inr (.inr this))
    | save =>
      intro k hk
      refine ih k ?_
      rw [lookup_ne_none] at hk ⊢
      have : (Spec.exec (pyClasses E') canOpen .save s).2.1.output.map Prod.fst = s.1.output.map Prod.fst := by
        simp only [Spec.exec, Sim.save]
        repeat' split
        · rfl
        · rfl
        · simpa using keys_save s.1.output [] []
      rw [this] at hk
      exact hk

/-- C86: in every history, a successful `run()` leaves exactly eleven names in the output; each is a number or an array of the
documented shape, where `n` is the number of points of the path and of the time window. -/
theorem C86_output_shapes (E : Env G) (canOpen : String → Py Unit) (name : Option String) (files : Files)
    (h : List (Spec.Op Arr × Py Unit)) (s : Sim (AnyProc G) Arr × Files) (hist : Spec.PyHistory E canOpen name files h s)
    (hrun : (s.1.run (pyClasses E)).1 = .ok ()) :
    ∃ p n, s.1.m_data.model = some p ∧ p.pathLength = .ok n ∧ 0 < n
      ∧ (∀ e ∈ Spec.outputShapes p.dim n, ∃ z, (s.1.run (pyClasses E)).2.output.lookup e.1 = some z ∧ Spec.HasShape e.2 z)
      ∧ ∀ k z, (s.1.run (pyClasses E)).2.output.lookup k = some z → k ∈ (Spec.outputShapes p.dim n).map Prod.fst := by
  have hfits := history_fits hist
  have hkeys := history_keys hist
  obtain ⟨p, x, fx, g, a, b, hr, ha, hb, hout⟩ := run_ok_output _ s.1 hrun
  replace hout : (s.1.run (pyClasses E)).2.output
      = (((s.1.output.put "at" (.array a)).put "bt" (.array b)).put "fx" (.scalar fx)).update g.argOut := by rw [hout]; rfl
  obtain ⟨v, x0, hbu, ho⟩ := runBody_builds.1 hr
  obtain ⟨hmod, m0, s0, f, b', l, k, y, t, hc⟩ := builds_create hbu
  have hp := hfits p hmod
  obtain ⟨_, h1, _, h4⟩ := optimize_ok ho
  obtain ⟨x', F', hx'⟩ : ∃ x' F', v.freeEnergy x' = (.ok F', g) := by
    rcases h4 with rfl | ⟨_, y, Fy, hy, _⟩
    · exact ⟨x, fx, Prod.ext h1 rfl⟩
    · exact ⟨y, Fy, hy⟩
  obtain ⟨n, hpos, hn, hblocks⟩ := (create_splits hc h1).2.2 a b (flag_of_fits hp) ha hb
  have hmom := create_shapes hp hc hx' hn
  have hnames : (Spec.outputShapes p.dim n).map Prod.fst = "at" :: "bt" :: "fx" :: Spec.momentNames := by
    unfold Spec.outputShapes Spec.momentNames
    split <;> rfl
  refine ⟨p, n, hmod, hn, hpos, fun e he => ?_, fun k z hz => ?_⟩
  · by_cases hk : e.1 ∈ Spec.momentNames
    · obtain ⟨z, hz, hs⟩ := hmom e he hk
      refine ⟨z, ?_, hs⟩
      rw [hout, lookup_update _ _ (argOut_distinct g), hz]
      rfl
    · have h3 : e.1 = "at" ∨ e.1 = "bt" ∨ e.1 = "fx" := by
        have : e.1 ∈ (Spec.outputShapes p.dim n).map Prod.fst := List.mem_map_of_mem he
        rw [hnames] at this
        simp only [List.mem_cons] at this
        rcases this with h | h | h | h
        · exact .inl h
        · exact .inr (.inl h)
        · exact .inr (.inr h)
        · exact absurd (by simpa [Spec.momentNames] using h) hk
      rw [hout, lookup_update _ _ (argOut_distinct g), argOut_none g _ h3]
      obtain ⟨hsh, ha', hb'⟩ := hblocks
      unfold Spec.outputShapes at he
      split at he
      · rename_i hd
        rw [hd] at ha' hb'
        simp only [hd, if_true] at hsh
        simp only [List.mem_cons, List.not_mem_nil, or_false] at he
        rcases he with rfl | rfl | rfl | rfl | rfl | rfl | rfl | rfl | rfl | rfl | rfl
        · exact ⟨.array a, by simp [lookup_put], hsh.1, by simpa using ha'⟩
        · exact ⟨.array b, by simp [lookup_put], hsh.2, by simpa using hb'⟩
        · exact ⟨.scalar fx, by simp [lookup_put], trivial⟩
        all_goals exact absurd h3 (by simp)
      · rename_i hd
        simp only [hd, if_false] at hsh
        simp only [List.mem_cons, List.not_mem_nil, or_false] at he
        rcases he with rfl | rfl | rfl | rfl | rfl | rfl | rfl | rfl | rfl | rfl | rfl
        · exact ⟨.array a, by simp [lookup_put], hsh.1, by simpa [Nat.mul_assoc] using ha'⟩
        · exact ⟨.array b, by simp [lookup_put], hsh.2, by simpa using hb'⟩
        · exact ⟨.scalar fx, by simp [lookup_put], trivial⟩
        all_goals exact absurd h3 (by simp)
  · rw [hnames]
    rw [hout, lookup_update _ _ (argOut_distinct g)] at hz
    rcases hg : g.argOut.lookup k with _ | z'
    · rw [hg, Option.none_or, lookup_put, lookup_put, lookup_put] at hz
      split at hz
      · rename_i h; simp [h]
      split at hz
      · rename_i h; simp [h]
      split at hz
      · rename_i h; simp [h]
      · refine hkeys k fun hnone => ?_
        rw [hnone] at hz; cases hz
    · have : k ∈ g.argOut.map Prod.fst := by
        by_contra hno
        rw [lookup_none_iff_keys.2 hno] at hg
        cases hg
      rw [argOut_fe hx'] at this
      simp only [List.mem_cons]
      exact .inr (.inr (.inr this))

end

end VGPA
