import Verif.Model.SharedParams
import Verif.Props.RunTotal

/-!
# C155: `run()` uses the parameters that `setup()` was given

The caller keeps the dictionary `params` and may change it before calling `run`. `setup` stores references, so a change inside `params["Time-window"]` or `params["Observations"]` reaches the run.
-/

namespace VGPA

noncomputable section

variable {M A F B L K Vg X : Type}

/-- What an object shows at `key` is what the object `d[key]` shows. -/
def Spec.Faithful (ob : Objects) : Prop := ∀ r key, (ob.val r).item key = (ob.item r key).map ob.val

theorem step_bind_eq {w α β : Type} (m : ScgM w α) (k : α → ScgM w β) (s : w) :
    (m >>= k) s = match m s with
      | (.ok a, s') => k a s'
      | (.error e, s') => (.error e, s') := rfl

/-- The program `P` on references does what `Q` does on values. -/
def Sees {α β : Type} (val : Ref → Json) (g : α → β) (P : RSim.Step M A α) (Q : Sim.Step M A β) : Prop :=
  ∀ m, (P m).1.map g = (Q (m.look val)).1 ∧ (P m).2.look val = (Q (m.look val)).2

theorem sees_bind {α β γ δ : Type} {val : Ref → Json} {g : α → β} {h : γ → δ} {P : RSim.Step M A α} {Q : Sim.Step M A β}
    {k : α → RSim.Step M A γ} {l : β → Sim.Step M A δ} (hP : Sees val g P Q) (hk : ∀ a, Sees val h (k a) (l (g a))) : Sees val h (P >>= k) (Q >>= l) := by
  intro m
  obtain ⟨h1, h2⟩ := hP m
  rw [step_bind_eq P k m, step_bind_eq Q l (m.look val)]
  rcases eP : P m with ⟨e | a, w⟩ <;> rcases eQ : Q (m.look val) with ⟨e' | a', s'⟩ <;> rw [eP, eQ] at h1 h2 <;> simp only [Except.map] at h1 h2
  · simp only [Except.error.injEq] at h1; subst h1 h2; exact ⟨rfl, rfl⟩
  · cases h1
  · cases h1
  · simp only [Except.ok.injEq] at h1; subst h1 h2; exact hk a w

theorem sees_lift {α β : Type} {val : Ref → Json} {g : α → β} {p : Py α} {q : Py β} (h : p.map g = q) : Sees (M := M) (A := A) val g (ScgM.lift p) (ScgM.lift q) :=
  fun _ => ⟨h, rfl⟩

theorem sees_write {val : Ref → Json} {u : RData M A → RData M A} {v : MData M A → MData M A} (h : ∀ m, (u m).look val = v (m.look val)) :
    Sees val id (RSim.write u) (Sim.write v) := fun m => ⟨rfl, h m⟩

theorem py_map_id {α : Type} (p : Py α) : p.map id = p := by cases p <;> rfl

theorem sees_view {α : Type} {val : Ref → Json} {u : RData M A → Py α} {v : MData M A → Py α} (h : ∀ m, u m = v (m.look val)) :
    Sees val id (RSim.view u) (Sim.view v) := fun m => ⟨(py_map_id _).trans (h m), rfl⟩

theorem sees_model {α : Type} {val : Ref → Json} (meth : M → Py α × M) : Sees (A := A) val id (RSim.onModel meth) (Sim.onModel meth) := by
  intro m
  unfold RSim.onModel Sim.onModel
  have e : (m.look val).model = m.model := rfl
  rw [e]
  rcases m.model with _ | p <;> exact ⟨py_map_id _, rfl⟩

theorem sees_pure {val : Ref → Json} : Sees (M := M) (A := A) val id (pure ()) (pure ()) := fun _ => ⟨rfl, rfl⟩

theorem need_look {α β γ : Type} (f : α → β) (k : β → Py γ) (v : Option α) : (need v >>= fun a => k (f a)) = (need (v.map f) >>= k) := by
  cases v <;> rfl

theorem sees_obs (C : Classes M A F B L K Vg X) (ob : Objects) (data : Option (Data A)) : Sees ob.val id (RSim.setupObs C ob data) (Sim.setupObs C data) := by
  unfold RSim.setupObs Sim.setupObs
  rcases data with _ | d
  · refine sees_bind (sees_view fun m => need_look ob.val (fun j => j.item "density") m.obs_setup) fun density => ?_
    refine sees_bind (sees_view fun m => need_look ob.val (fun j => j.item "obs") m.noise) fun rn => ?_
    refine sees_bind (sees_view fun m => need_look ob.val (fun j => j.item "operator") m.obs_setup) fun operator => ?_
    refine sees_bind (sees_model _) fun r => ?_
    exact sees_bind (sees_write fun _ => rfl) fun _ => sees_bind (sees_write fun _ => rfl) fun _ => sees_write fun _ => rfl
  · refine sees_bind (sees_lift (py_map_id _)) fun t => sees_bind (sees_write fun _ => rfl) fun _ => ?_
    exact sees_bind (sees_lift (py_map_id _)) fun y => sees_write fun _ => rfl

theorem sees_moments (C : Classes M A F B L K Vg X) (ob : Objects) : Sees ob.val id (RSim.setupMoments C ob) (Sim.setupMoments C) := by
  unfold RSim.setupMoments Sim.setupMoments
  refine sees_bind (sees_view fun m => rfl) fun one => ?_
  refine sees_bind (sees_model _) fun m0 => sees_bind (sees_write fun _ => rfl) fun _ => ?_
  refine sees_bind (sees_view fun m => rfl) fun s0 => sees_bind (sees_write fun _ => rfl) fun _ => ?_
  rcases one with _ | _
  · refine sees_bind (sees_view fun m => ?_) fun mu0 => sees_bind (sees_write fun _ => rfl) fun _ => ?_
    · exact bind_congr fun p => need_look (priorNow ob.val) _ m.mu0
    refine sees_bind (sees_view fun m => ?_) fun tau0 => sees_write fun _ => rfl
    exact bind_congr fun p => need_look (priorNow ob.val) _ m.tau0
  · exact sees_pure

theorem faithful_two {ob : Objects} (hob : Spec.Faithful ob) (r : Ref) (a b : String) :
    (do ob.item (← ob.item r a) b : Py Ref).map ob.val = (do (← (ob.val r).item a).item b) := by
  rw [hob r a]
  rcases ob.item r a with e | v
  · rfl
  · exact (hob v b).symm

theorem sees_body (C : Classes M A F B L K Vg X) {ob : Objects} (hob : Spec.Faithful ob) (params : Ref) (data : Option (Data A)) :
    Sees ob.val id (RSim.setupBody C ob params data) (Sim.setupBody C (ob.val params) data) := by
  unfold RSim.setupBody Sim.setupBody
  refine sees_bind (sees_lift (hob _ _).symm) fun v => sees_bind (sees_write fun _ => rfl) fun _ => ?_
  refine sees_bind (sees_lift (hob _ _).symm) fun v => sees_bind (sees_write fun _ => rfl) fun _ => ?_
  refine sees_bind (sees_lift (hob _ _).symm) fun v => sees_bind (sees_write fun _ => rfl) fun _ => ?_
  refine sees_bind (sees_lift (hob _ _).symm) fun v => sees_bind (sees_write fun _ => rfl) fun _ => ?_
  refine sees_bind (sees_lift (hob _ _).symm) fun v => sees_bind (sees_write fun _ => rfl) fun _ => ?_
  refine sees_bind (sees_lift (hob _ _).symm) fun v => sees_bind (sees_write fun _ => rfl) fun _ => ?_
  refine sees_bind (sees_lift (faithful_two hob _ _ _)) fun v => sees_bind (sees_write fun _ => rfl) fun _ => ?_
  refine sees_bind (sees_lift (faithful_two hob _ _ _)) fun v => sees_bind (sees_write fun _ => rfl) fun _ => ?_
  refine sees_bind (sees_view fun m => need_look ob.val (fun j => j.item "sys") m.noise) fun sys => ?_
  refine sees_bind (sees_view fun m => need_look ob.val (fun j => j.item "theta") m.drift) fun theta => ?_
  refine sees_bind (sees_view fun m => ?_) fun seed => ?_
  · simp only [RData.look]; cases m.random_seed <;> rfl
  refine sees_bind (g := id) (sees_lift ?_) fun name => ?_
  · rw [hob, py_map_id]; rcases ob.item params "Model" with e | r <;> rfl
  refine sees_bind (sees_lift (py_map_id _)) fun p => sees_bind (sees_write fun _ => rfl) fun _ => sees_bind (sees_write fun _ => rfl) fun _ => ?_
  refine sees_bind (sees_view fun m => need_look ob.val (fun j => j.item "t0") m.time_window) fun t0 => ?_
  refine sees_bind (sees_view fun m => need_look ob.val (fun j => j.item "tf") m.time_window) fun tf => ?_
  refine sees_bind (sees_view fun m => need_look ob.val (fun j => j.item "dt") m.time_window) fun dt => ?_
  exact sees_bind (sees_model _) fun _ => sees_bind (sees_obs C ob data) fun _ => sees_moments C ob

/-- While the caller does not change `params`, `setup` does what it does with values. -/
theorem setup_sees (C : Classes M A F B L K Vg X) {ob : Objects} (hob : Spec.Faithful ob) (params : Ref) (data : Option (Data A)) (s : RSim M A) :
    (s.setup C ob params data).1 = ((s.look ob.val).setup C (ob.val params) data).1
    ∧ (s.setup C ob params data).2.look ob.val = ((s.look ob.val).setup C (ob.val params) data).2 := by
  obtain ⟨h1, h2⟩ := sees_body C hob params data s.m_data
  rw [py_map_id] at h1
  exact ⟨h1, by unfold RSim.setup Sim.setup RSim.look; simp only [h2]⟩

/-- C155, the model: while the caller does not change `params`, `setup` and `run` report and compute what they do when `params` is a value. -/
theorem C155_unchanged (C : Classes M A F B L K Vg X) {ob : Objects} (hob : Spec.Faithful ob) (params : Ref) (data : Option (Data A)) (s : RSim M A) :
    (s.setup C ob params data).1 = ((s.look ob.val).setup C (ob.val params) data).1
    ∧ ((s.setup C ob params data).2.run C ob).1 = ((((s.look ob.val).setup C (ob.val params) data).2).run C).1
    ∧ ((s.setup C ob params data).2.run C ob).2.output = ((((s.look ob.val).setup C (ob.val params) data).2).run C).2.output := by
  obtain ⟨h1, h2⟩ := setup_sees C hob params data s
  exact ⟨h1, by unfold RSim.run; rw [h2], by unfold RSim.run; rw [h2]⟩

/-! ## Which objects a run looks at -/

/-- A prior parameter is the object `r`, or an array of the simulation. -/
def PriorIs (r : Ref) (v : Option (Ref ⊕ PriorVal A)) : Prop := v = some (.inl r) ∨ ∃ a, v = some (.inr a)

/-- `m_data` refers to these objects. -/
def Refers (w o b mu tau : Ref) (m : RData M A) : Prop :=
  m.time_window = some w ∧ m.ode_solver = some o ∧ m.obs_setup = some b ∧ PriorIs mu m.mu0 ∧ PriorIs tau m.tau0

/-- A program that keeps an invariant, also when it raises. -/
def KeepsInv {α : Type} (I : RData M A → Prop) (P : RSim.Step M A α) : Prop := ∀ m, I m → I (P m).2

theorem keepsInv_bind {α β : Type} {I : RData M A → Prop} {P : RSim.Step M A α} {k : α → RSim.Step M A β} (hP : KeepsInv I P) (hk : ∀ a, KeepsInv I (k a)) :
    KeepsInv I (P >>= k) := by
  intro m hm
  have h := hP m hm
  rw [step_bind_eq P k m]
  rcases eP : P m with ⟨e | a, w⟩ <;> rw [eP] at h
  · exact h
  · exact hk a w h

theorem keepsInv_lift {α : Type} {I : RData M A → Prop} (p : Py α) : KeepsInv I (ScgM.lift p) := fun _ h => h
theorem keepsInv_view {α : Type} {I : RData M A → Prop} (g : RData M A → Py α) : KeepsInv I (RSim.view g) := fun _ h => h
theorem keepsInv_pure {I : RData M A → Prop} : KeepsInv I (pure () : RSim.Step M A Unit) := fun _ h => h
theorem keepsInv_write {I : RData M A → Prop} {g : RData M A → RData M A} (h : ∀ m, I m → I (g m)) : KeepsInv I (RSim.write g) := h

section
variable {w o b mu tau : Ref}

theorem keeps_model {α : Type} (meth : M → Py α × M) : KeepsInv (A := A) (Refers w o b mu tau) (RSim.onModel meth) := by
  intro m hm
  unfold RSim.onModel
  rcases m.model with _ | p <;> exact hm

theorem keeps_obs (C : Classes M A F B L K Vg X) (ob : Objects) (data : Option (Data A)) : KeepsInv (Refers w o b mu tau) (RSim.setupObs C ob data) := by
  unfold RSim.setupObs
  rcases data with _ | d
  · exact keepsInv_bind (keepsInv_view _) fun _ => keepsInv_bind (keepsInv_view _) fun _ => keepsInv_bind (keepsInv_view _) fun _ =>
      keepsInv_bind (keeps_model _) fun _ => keepsInv_bind (keepsInv_write fun _ h => h) fun _ => keepsInv_bind (keepsInv_write fun _ h => h) fun _ =>
      keepsInv_write fun _ h => h
  · exact keepsInv_bind (keepsInv_lift _) fun _ => keepsInv_bind (keepsInv_write fun _ h => h) fun _ => keepsInv_bind (keepsInv_lift _) fun _ =>
      keepsInv_write fun _ h => h

theorem keeps_moments (C : Classes M A F B L K Vg X) (ob : Objects) : KeepsInv (Refers w o b mu tau) (RSim.setupMoments C ob) := by
  unfold RSim.setupMoments
  refine keepsInv_bind (keepsInv_view _) fun one => keepsInv_bind (keeps_model _) fun _ => keepsInv_bind (keepsInv_write fun _ h => h) fun _ =>
    keepsInv_bind (keepsInv_view _) fun _ => keepsInv_bind (keepsInv_write fun _ h => h) fun _ => ?_
  rcases one with _ | _
  · refine keepsInv_bind (keepsInv_view _) fun v => keepsInv_bind (keepsInv_write fun _ h => ?_) fun _ => keepsInv_bind (keepsInv_view _) fun v' => keepsInv_write fun _ h => ?_
    · exact ⟨h.1, h.2.1, h.2.2.1, .inr ⟨v, rfl⟩, h.2.2.2.2⟩
    · exact ⟨h.1, h.2.1, h.2.2.1, h.2.2.2.1, .inr ⟨v', rfl⟩⟩
  · exact keepsInv_pure

end

theorem ok_bind {w α β : Type} {P : ScgM w α} {k : α → ScgM w β} {m : w} {b : β} (h : ((P >>= k) m).1 = .ok b) :
    ∃ a, (P m).1 = .ok a ∧ (P >>= k) m = k a (P m).2 := by
  rw [step_bind_eq P k m] at h ⊢
  rcases eP : P m with ⟨e | a, w⟩ <;> rw [eP] at h
  · cases h
  · exact ⟨a, rfl, rfl⟩

/-- After a successful `setup` the simulation refers to the objects in `params`. -/
theorem setup_refers (C : Classes M A F B L K Vg X) {ob : Objects} {params : Ref} {data : Option (Data A)} {m : RData M A}
    (h : (RSim.setupBody C ob params data m).1 = .ok ()) :
    ∃ w o b p mu tau, ob.item params "Time-window" = .ok w ∧ ob.item params "Ode-method" = .ok o ∧ ob.item params "Observations" = .ok b
      ∧ ob.item params "Prior" = .ok p ∧ ob.item p "mu0" = .ok mu ∧ ob.item p "tau0" = .ok tau
      ∧ Refers w o b mu tau (RSim.setupBody C ob params data m).2 := by
  unfold RSim.setupBody at h ⊢
  obtain ⟨d, -, e⟩ := ok_bind h; rw [e] at h ⊢
  obtain ⟨-, -, e⟩ := ok_bind h; rw [e] at h ⊢
  obtain ⟨n, -, e⟩ := ok_bind h; rw [e] at h ⊢
  obtain ⟨-, -, e⟩ := ok_bind h; rw [e] at h ⊢
  obtain ⟨w, hw, e⟩ := ok_bind h; rw [e] at h ⊢
  obtain ⟨-, -, e⟩ := ok_bind h; rw [e] at h ⊢
  obtain ⟨o, ho, e⟩ := ok_bind h; rw [e] at h ⊢
  obtain ⟨-, -, e⟩ := ok_bind h; rw [e] at h ⊢
  obtain ⟨sd, -, e⟩ := ok_bind h; rw [e] at h ⊢
  obtain ⟨-, -, e⟩ := ok_bind h; rw [e] at h ⊢
  obtain ⟨b, hb, e⟩ := ok_bind h; rw [e] at h ⊢
  obtain ⟨-, -, e⟩ := ok_bind h; rw [e] at h ⊢
  obtain ⟨mu, hmu, e⟩ := ok_bind h; rw [e] at h ⊢
  obtain ⟨-, -, e⟩ := ok_bind h; rw [e] at h ⊢
  obtain ⟨tau, htau, e⟩ := ok_bind h; rw [e] at h ⊢
  obtain ⟨-, -, e⟩ := ok_bind h; rw [e] at h ⊢
  have hmu : (do ob.item (← ob.item params "Prior") "mu0" : Py Ref) = .ok mu := hmu
  have htau : (do ob.item (← ob.item params "Prior") "tau0" : Py Ref) = .ok tau := htau
  rcases hp : ob.item params "Prior" with er | p
  · rw [hp] at hmu; cases hmu
  rw [hp] at hmu htau
  refine ⟨w, o, b, p, mu, tau, hw, ho, hb, rfl, hmu, htau, ?_⟩
  refine keepsInv_bind (I := Refers w o b mu tau) (keepsInv_view _) ?_ _ ?_
  swap
  · exact ⟨rfl, rfl, rfl, .inl rfl, .inl rfl⟩
  exact (fun _ => keepsInv_bind (keepsInv_view _) fun _ => keepsInv_bind (keepsInv_view _) fun _ =>
    keepsInv_bind (keepsInv_lift _) fun _ => keepsInv_bind (keepsInv_lift _) fun _ => keepsInv_bind (keepsInv_write fun _ h => h) fun _ =>
    keepsInv_bind (keepsInv_write fun _ h => h) fun _ => keepsInv_bind (keepsInv_view _) fun _ => keepsInv_bind (keepsInv_view _) fun _ =>
    keepsInv_bind (keepsInv_view _) fun _ => keepsInv_bind (keeps_model _) fun _ => keepsInv_bind (keeps_obs C ob data) fun _ => keeps_moments C ob)

namespace Spec

/-- Between `setup` and `run`, the caller has not changed the objects that were `params["Ode-method"]`, `params["Prior"]["mu0"]` and `params["Prior"]["tau0"]` (a string and two numbers cannot be changed, a list can), nor the entry
`"dt"` of the dictionary that was `params["Time-window"]`, nor the entry `"operator"` of the one that was `params["Observations"]`. Everything else may have changed, and `params` itself may have got new entries. -/
structure ParamsKept (before after : Objects) (params : Ref) : Prop where
  method : ∀ r, before.item params "Ode-method" = .ok r → after.val r = before.val r
  dt : ∀ r, before.item params "Time-window" = .ok r → (after.val r).item "dt" = (before.val r).item "dt"
  operator : ∀ r, before.item params "Observations" = .ok r → (after.val r).item "operator" = (before.val r).item "operator"
  mu0 : ∀ p r, before.item params "Prior" = .ok p → before.item p "mu0" = .ok r → after.val r = before.val r
  tau0 : ∀ p r, before.item params "Prior" = .ok p → before.item p "tau0" = .ok r → after.val r = before.val r

end Spec

theorem prior_look {val val' : Ref → Json} {r : Ref} {v : Option (Ref ⊕ PriorVal A)} (hv : PriorIs r v) (h : val' r = val r) : v.map (priorNow val') = v.map (priorNow val) := by
  rcases hv with rfl | ⟨a, rfl⟩
  · simp only [Option.map_some, priorNow, h]
  · rfl

theorem need_some {α : Type} (a : α) : need (some a) = .ok a := rfl

/-- C155, the part that holds: after a successful `setup`, whatever the simulation did before, `run` reports and computes what it would have with the parameters at the time of `setup`, if the caller has left alone the step size and the
operator inside the dictionaries they passed, and the objects for the method and the prior. Missing: the caller may change these too, see `C155_violated`. -/
theorem C155_partial (C : Classes M A F B L K Vg X) (before after : Objects) (params : Ref) (data : Option (Data A)) (s : RSim M A)
    (hok : (s.setup C before params data).1 = .ok ()) (h : Spec.ParamsKept before after params) :
    (s.setup C before params data).2.run C after = (s.setup C before params data).2.run C before := by
  obtain ⟨w, o, b, p, mu, tau, hw, ho, hb, hp, hmu, htau, r1, r2, r3, r4, r5⟩ := setup_refers C hok
  have key : Sim.runBody C ((RSim.setupBody C before params data s.m_data).2.look after.val) = Sim.runBody C ((RSim.setupBody C before params data s.m_data).2.look before.val) := by
    unfold Sim.runBody
    simp only [RData.look, r1, r2, r3, prior_look r4 (h.mu0 p mu hp hmu), prior_look r5 (h.tau0 p tau hp htau), Option.map_some, need_some, py_ok_bind,
      h.method o ho, h.dt w hw, h.operator b hb]
  unfold RSim.run RSim.setup RSim.look Sim.run
  simp only [key]
  rcases Sim.runBody C ((RSim.setupBody C before params data s.m_data).2.look before.val) with e | ⟨model, x, fx, v⟩
  · rfl
  · simp only
    rcases C.unpack_a model x with e | a
    · rfl
    · simp only
      rcases C.unpack_b model x with e | b <;> rfl

/-- C155 does not hold: for every valid one dimensional configuration, `setup` succeeds, and `run` does when it is called at once; if the caller first sets the step size in the dictionary `params["Time-window"]` to a number that is not positive,
`run` of the simulation that has been set up raises a `ValueError`, and its output stays what it was. -/
theorem C155_violated {G : Type} (E : Env G) (c : Spec.Config1) (before : Objects) (hb : Spec.Faithful before) (params : Ref) (hin : c.In (before.val params))
    (N : ℕ) (hv : c.Valid N) (s : RSim (AnyProc G) Arr) (after : Objects) (w : Ref) (hw : before.item params "Time-window" = .ok w)
    (x : ℝ) (hx : x ≤ 0) (hdt : (after.val w).item "dt" = .ok (.num x)) :
    (s.setup (pyClasses E) before params none).1 = .ok ()
    ∧ ((s.setup (pyClasses E) before params none).2.run (pyClasses E) before).1 = .ok ()
    ∧ ((s.setup (pyClasses E) before params none).2.run (pyClasses E) after).1 = .error .valueError
    ∧ ((s.setup (pyClasses E) before params none).2.run (pyClasses E) after).2.output = s.output := by
  obtain ⟨h1, h2, -⟩ := C155_unchanged (pyClasses E) hb params none s
  obtain ⟨t1, t2⟩ := C87_setup_and_run E c (before.val params) hin N hv (s.look before.val)
  have hok := h1.trans t1
  obtain ⟨w', o, b, p, mu, tau, hw', ho, -, -, -, -, r1, r2, -⟩ := setup_refers (pyClasses E) hok
  obtain rfl : w' = w := by rw [hw] at hw'; exact (Except.ok.inj hw').symm
  obtain ⟨M, hM⟩ := Int.eq_ofNat_of_zero_le hv.some_obs.le
  obtain ⟨m', x', g, k, q1, q2, -⟩ := setup_total E hin hv M hM (s.m_data.look before.val)
  have q3 : (RSim.setupBody (pyClasses E) before params none s.m_data).2.look before.val = m' := by
    rw [(sees_body (pyClasses E) hb params none s.m_data).2, q1]
  have hsd : (RSim.setupBody (pyClasses E) before params none s.m_data).2.single_dim = some true := (congrArg MData.single_dim q3).trans q2.one
  have key : Sim.runBody (pyClasses E) ((RSim.setupBody (pyClasses E) before params none s.m_data).2.look after.val) = .error .valueError := by
    have hf : (pyClasses E).fwd_ode (.num x) (after.val o) true = .error .valueError := by
      show mkFwd (.num x) (after.val o) = _
      unfold mkFwd FwdOde.init
      simp only [Json.real, py_ok_bind, if_pos hx]
    unfold Sim.runBody
    simp only [RData.look, r1, r2, hsd, Option.map_some, need_some, py_ok_bind, hdt, hf]
    rfl
  refine ⟨hok, h2.trans t2, ?_, ?_⟩
  · unfold RSim.run RSim.setup RSim.look Sim.run
    simp only [key]
  · unfold RSim.run RSim.setup RSim.look Sim.run
    simp only [key]

/-! ## An example: the file for the double well, and the same dictionaries with another step size -/

/-- The numbers, strings and `None`. -/
def shLeaf (dt : ℝ) : Ref → Json
  | 10 => .num 0 | 11 => .num 10 | 12 => .num dt | 13 => .num 0.8 | 14 => .num 0.04 | 15 => .num 2 | 17 => .num 1 | 18 => .num 0.5 | 19 => .num 1
  | 20 => .str "DW" | 21 => .str "Euler" | 22 => .num 31415926535 | _ => .null

/-- The inner dictionaries. -/
def shInner : Ref → Option (List (String × Ref))
  | 1 => some [("t0", 10), ("tf", 11), ("dt", 12)] | 2 => some [("sys", 13), ("obs", 14)] | 3 => some [("density", 15), ("operator", 16)]
  | 4 => some [("theta", 17)] | 5 => some [("tau0", 18), ("mu0", 19)] | _ => none

/-- The dictionary `params`. -/
def shTop : List (String × Ref) :=
  [("Model", 20), ("Ode-method", 21), ("Random-Seed", 22), ("Time-window", 1), ("Noise", 2), ("Observations", 3), ("Drift", 4), ("Prior", 5)]

def shDict (f : Ref → Json) (l : List (String × Ref)) : Json := .obj (l.map fun kr => (kr.1, f kr.2))

def shValInner (dt : ℝ) (r : Ref) : Json :=
  match shInner r with
  | some l => shDict (shLeaf dt) l
  | none => shLeaf dt r

def shItemOf (l : Option (List (String × Ref))) (key : String) : Py Ref :=
  match l with
  | some l => match l.lookup key with
    | some r => .ok r
    | none => .error .keyError
  | none => .error .typeError

/-- Object 0 is `params`, object 1 is `params["Time-window"]`. -/
def shObjects (dt : ℝ) : Objects where
  val r := if r = 0 then shDict (shValInner dt) shTop else shValInner dt r
  item r key := shItemOf (if r = 0 then some shTop else shInner r) key

theorem sh_lookup (f : Ref → Json) (key : String) (l : List (String × Ref)) : (l.map fun kr => (kr.1, f kr.2)).lookup key = (l.lookup key).map f := by
  induction l with
  | nil => rfl
  | cons kr l ih =>
    obtain ⟨k, r⟩ := kr
    simp only [List.map_cons, List.lookup_cons]
    cases key == k
    · exact ih
    · rfl

theorem sh_dict {f g : Ref → Json} (key : String) {l : List (String × Ref)} (h : ∀ kr ∈ l, g kr.2 = f kr.2) :
    (shDict f l).item key = (shItemOf (some l) key).map g := by
  unfold shDict shItemOf Json.item
  simp only [sh_lookup]
  rcases e : l.lookup key with _ | r
  · rfl
  · obtain ⟨l1, l2, rfl, -⟩ := List.lookup_eq_some_iff.1 e
    exact congrArg Except.ok (h (key, r) (by simp)).symm

theorem sh_faithful (dt : ℝ) : Spec.Faithful (shObjects dt) := by
  intro r key
  by_cases hr : r = 0
  · subst hr
    refine sh_dict key fun kr hk => ?_
    simp only [shTop, List.mem_cons, List.not_mem_nil, or_false] at hk
    rcases hk with rfl | rfl | rfl | rfl | rfl | rfl | rfl | rfl <;> rfl
  · have e1 : (shObjects dt).val r = shValInner dt r := if_neg hr
    have e2 : (shObjects dt).item r key = shItemOf (shInner r) key := by show shItemOf _ _ = _; rw [if_neg hr]
    rw [e1, e2]
    unfold shValInner
    rcases e : shInner r with _ | l
    · show (shLeaf dt r).item key = .error .typeError
      unfold shLeaf
      split <;> rfl
    · refine sh_dict key fun kr hk => ?_
      unfold shInner at e
      split at e <;> cases e
      all_goals
        simp only [List.mem_cons, List.not_mem_nil, or_false] at hk
        rcases hk with rfl | rfl | rfl <;> rfl

-- The step size is set to zero between the calls: all hypotheses of C155_violated hold.
example {G : Type} (E : Env G) (s : RSim (AnyProc G) Arr) :
    (s.setup (pyClasses E) (shObjects 0.01) 0 none).1 = .ok ()
    ∧ ((s.setup (pyClasses E) (shObjects 0.01) 0 none).2.run (pyClasses E) (shObjects 0.01)).1 = .ok ()
    ∧ ((s.setup (pyClasses E) (shObjects 0.01) 0 none).2.run (pyClasses E) (shObjects 0)).1 = .error .valueError :=
  let h := C155_violated E (Spec.exampleConfig "DW") (shObjects 0.01) (sh_faithful _) 0
    ⟨rfl, ⟨_, rfl, rfl⟩, ⟨_, rfl, rfl, rfl⟩, ⟨_, rfl, rfl, rfl, rfl⟩, rfl, rfl, ⟨_, rfl, rfl, rfl⟩, _, rfl, rfl, rfl⟩ 1000 (example_valid "DW" (.inl rfl)) s (shObjects 0) 1 rfl 0 le_rfl rfl
  ⟨h.1, h.2.1, h.2.2.1⟩

/-- The same objects after `params["Time-window"] = other` and a change of the noise: `params` shows something else. -/
def shOther : Objects where
  val r := if r = 0 ∨ r = 2 then .obj [] else (shObjects 0.01).val r
  item r key := if r = 0 ∨ r = 2 then .error .keyError else (shObjects 0.01).item r key

-- A caller who replaces the entries of `params` and changes the noise leaves alone what the run looks at (C155_partial), and the run succeeds.
example {G : Type} (E : Env G) (s : RSim (AnyProc G) Arr) :
    ((s.setup (pyClasses E) (shObjects 0.01) 0 none).2.run (pyClasses E) shOther).1 = .ok () := by
  have h := C155_violated E (Spec.exampleConfig "DW") (shObjects 0.01) (sh_faithful _) 0
    ⟨rfl, ⟨_, rfl, rfl⟩, ⟨_, rfl, rfl, rfl⟩, ⟨_, rfl, rfl, rfl, rfl⟩, rfl, rfl, ⟨_, rfl, rfl, rfl⟩, _, rfl, rfl, rfl⟩ 1000 (example_valid "DW" (.inl rfl)) s (shObjects 0) 1 rfl 0 le_rfl rfl
  rw [C155_partial (pyClasses E) (shObjects 0.01) shOther 0 none s h.1 ?_]
  · exact h.2.1
  · refine ⟨?_, ?_, ?_, ?_, ?_⟩
    · intro r hr; cases hr; rfl
    · intro r hr; cases hr; rfl
    · intro r hr; cases hr; rfl
    · intro p r hp hr; cases hp; cases hr; rfl
    · intro p r hp hr; cases hp; cases hr; rfl

end

end VGPA
