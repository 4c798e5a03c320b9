import Verif.Props.ScgSym
import Verif.Props.RunTotal63

/-!
# C114: the prior only shifts the reported number

The free energy contains the divergence of the initial moments from the prior. The initial moments are not optimized, so the
divergence is a constant in the objective, and it does not occur in the gradient at all.
-/

namespace VGPA

noncomputable section

variable {G : Type}

section
variable {V W : Type} [AddCommGroup V] [Module ℝ V] [AddCommGroup W] [Module ℝ W]

theorem eval_prior (sh : Shape V W) (o : VarGP V W) (q : V → W → Py ℝ) {K K' : ℝ} (h : o.kl0 o.m0 o.s0 = .ok K) (h' : q o.m0 o.s0 = .ok K')
    (x : List ℝ) : Spec.Alike (fun a b => b = (a.1 + (K' - K), a.2)) (o.eval sh x) (VarGP.eval sh { o with kl0 := q } x) := by
  unfold VarGP.eval
  simp only
  rcases sh.unpackF o.dim_n x with e | ⟨a, b⟩
  · exact .error e
  simp only [py_ok_bind]
  rcases solveFwd o.fwd_ode.solver sh.rhs o.fwd_ode.dt a b o.m0 o.s0 o.model.sigma with e | ⟨mt, st⟩
  · exact .error e
  simp only [py_ok_bind]
  rcases o.likelihood.call mt st with e | Eobs
  · exact .error e
  simp only [py_ok_bind]
  rcases o.model.energy a b mt st o.obs_t with e | en
  · exact .error e
  simp only [py_ok_bind]
  rcases o.likelihood.gradients mt st with e | ⟨gm, gs⟩
  · exact .error e
  simp only [py_ok_bind]
  rcases solveBwd o.bwd_ode.solver sh.rhs o.bwd_ode.dt a en.dm en.ds gm gs with e | ⟨lam, psi⟩
  · exact .error e
  simp only [py_ok_bind, h, h', pure, Except.pure]
  exact .ok (by rw [Prod.mk.injEq]; exact ⟨by ring, rfl⟩)

end

/-- Two variational objects that differ only in the prior; the divergences of their initial moments differ by `k`. -/
inductive OnlyPrior (k : ℝ) : AnyVgp → AnyVgp → Prop
  | one (o : VarGP ℝ ℝ) (q : ℝ → ℝ → Py ℝ) {K K' : ℝ} (h : o.kl0 o.m0 o.s0 = .ok K) (h' : q o.m0 o.s0 = .ok K') (hk : k = K' - K) :
      OnlyPrior k (.one o) (.one { o with kl0 := q })
  | many (d : ℕ) (o : VarGP (Fin d → ℝ) (Matrix (Fin d) (Fin d) ℝ)) (q : (Fin d → ℝ) → Matrix (Fin d) (Fin d) ℝ → Py ℝ) {K K' : ℝ}
      (h : o.kl0 o.m0 o.s0 = .ok K) (h' : q o.m0 o.s0 = .ok K') (hk : k = K' - K) : OnlyPrior k (.many d o) (.many d { o with kl0 := q })

theorem onlyPrior_fe {k : ℝ} {v v' : AnyVgp} (h : OnlyPrior k v v') (x : List ℝ) :
    Spec.Alike (fun a b => b = a + k) (v.freeEnergy x).1 (v'.freeEnergy x).1 ∧ OnlyPrior k (v.freeEnergy x).2 (v'.freeEnergy x).2 := by
  cases h with
  | one o q h h' hk =>
    have := eval_prior shape1 o q h h' x
    simp only [AnyVgp.freeEnergy, VarGP.freeEnergy]
    generalize o.eval shape1 x = r at this
    generalize VarGP.eval shape1 { o with kl0 := q } x = r' at this
    cases this with
    | ok h1 => subst h1; exact ⟨.ok (by rw [hk]), .one { o with cache := _ } q h h' hk⟩
    | error e => exact ⟨.error e, .one o q h h' hk⟩
  | many d o q h h' hk =>
    have := eval_prior (shapeN d) o q h h' x
    simp only [AnyVgp.freeEnergy, VarGP.freeEnergy]
    generalize o.eval (shapeN d) x = r at this
    generalize VarGP.eval (shapeN d) { o with kl0 := q } x = r' at this
    cases this with
    | ok h1 => subst h1; exact ⟨.ok (by rw [hk]), .many d { o with cache := _ } q h h' hk⟩
    | error e => exact ⟨.error e, .many d o q h h' hk⟩

theorem onlyPrior_grad {k : ℝ} {v v' : AnyVgp} (h : OnlyPrior k v v') (x : List ℝ) (ev : Bool) :
    (v'.gradient x ev).1 = (v.gradient x ev).1 ∧ OnlyPrior k (v.gradient x ev).2 (v'.gradient x ev).2 := by
  cases h with
  | one o q h h' hk =>
    cases ev with
    | false => exact ⟨rfl, .one o q h h' hk⟩
    | true =>
      have := eval_prior shape1 o q h h' x
      simp only [AnyVgp.gradient, VarGP.gradient, VarGP.freeEnergy, if_true]
      generalize o.eval shape1 x = r at this
      generalize VarGP.eval shape1 { o with kl0 := q } x = r' at this
      cases this with
      | ok h1 => subst h1; exact ⟨rfl, .one { o with cache := _ } q h h' hk⟩
      | error e => exact ⟨rfl, .one o q h h' hk⟩
  | many d o q h h' hk =>
    cases ev with
    | false => exact ⟨rfl, .many d o q h h' hk⟩
    | true =>
      have := eval_prior (shapeN d) o q h h' x
      simp only [AnyVgp.gradient, VarGP.gradient, VarGP.freeEnergy, if_true]
      generalize o.eval (shapeN d) x = r at this
      generalize VarGP.eval (shapeN d) { o with kl0 := q } x = r' at this
      cases this with
      | ok h1 => subst h1; exact ⟨rfl, .many d { o with cache := _ } q h h' hk⟩
      | error e => exact ⟨rfl, .many d o q h h' hk⟩

theorem onlyPrior_argOut {k : ℝ} {v v' : AnyVgp} (h : OnlyPrior k v v') : v'.argOut = v.argOut := by
  cases h <;> rfl

theorem onlyPrior_init {k : ℝ} (E : Env G) {v v' : AnyVgp} (h : OnlyPrior k v v') : v'.initialization E = v.initialization E := by
  cases h <;> rfl

theorem relabel_id {n : ℕ} (x : Fin n → ℝ) : Spec.relabel (Equiv.refl _) (fun _ => 1) x + 0 = x := by
  funext i
  simp [Spec.relabel]

theorem onlyPrior_problem (k : ℝ) (n : ℕ) :
    Spec.SameProblem (Equiv.refl _) (fun _ => 1) 0 k (OnlyPrior k) (AnyVgp.oracle n) () (AnyVgp.oracle n) () := by
  have hid : ∀ g : Fin n → ℝ, Spec.relabel (Equiv.refl _) (fun _ => 1) g = g := fun g => by funext i; simp [Spec.relabel]
  refine ⟨fun x s t h => ?_, fun x s t h => ?_, fun x s t h => ?_⟩ <;> rw [relabel_id]
  · exact onlyPrior_fe h _
  · obtain ⟨h1, h2⟩ := onlyPrior_grad h (List.ofFn x) false
    refine ⟨?_, h2⟩
    simp only [AnyVgp.oracle, h1, hid]
    exact .refl _
  · obtain ⟨h1, h2⟩ := onlyPrior_grad h (List.ofFn x) true
    refine ⟨?_, h2⟩
    simp only [AnyVgp.oracle, h1, hid]
    exact .refl _

theorem onlyPrior_optimize {k : ℝ} {v v' : AnyVgp} (h : OnlyPrior k v v') (x0 : List ℝ) :
    Spec.Alike (fun a b => b = (a.1, a.2 + k)) (v.optimize x0).1 (v'.optimize x0).1
      ∧ OnlyPrior k (v.optimize x0).2 (v'.optimize x0).2 := by
  have := C113_coordinates (Equiv.refl _) (fun _ => 1) (fun _ => .inl rfl) 0 k (OnlyPrior k) (AnyVgp.oracle x0.length) ()
    (AnyVgp.oracle x0.length) () (onlyPrior_problem k _) (Scg.init (realArith x0.length) (some 500) (some 1.0e-6) (some 1.0e-8))
    (fun i => x0.getD i 0) v v' h
  rw [relabel_id] at this
  obtain ⟨h1, h2, -⟩ := this
  refine ⟨?_, h2⟩
  unfold AnyVgp.optimize
  dsimp only
  generalize (Scg.call (realArith x0.length) (AnyVgp.oracle x0.length) () _ (fun i => x0.getD i 0) v).1 = r at h1 ⊢
  generalize (Scg.call (realArith x0.length) (AnyVgp.oracle x0.length) () _ (fun i => x0.getD i 0) v').1 = r' at h1 ⊢
  cases h1 with
  | ok h =>
    simp only [relabel_id] at h
    exact .ok (by dsimp only; rw [h.1, h.2])
  | error e => exact .error e

/-! ## What `run` builds from two priors -/

/-- Two variational objects that differ at most in the prior. -/
inductive ButPrior : AnyVgp → AnyVgp → Prop
  | one (o : VarGP ℝ ℝ) (q : ℝ → ℝ → Py ℝ) : ButPrior (.one o) (.one { o with kl0 := q })
  | many (d : ℕ) (o : VarGP (Fin d → ℝ) (Matrix (Fin d) (Fin d) ℝ)) (q : (Fin d → ℝ) → Matrix (Fin d) (Fin d) ℝ → Py ℝ) :
      ButPrior (.many d o) (.many d { o with kl0 := q })

theorem mk1_inv {sde : SdeModel ℝ ℝ} {m0 s0 : Arr} {fwd bwd : OdeFrontEnd} {like : AnyLike} {k : AnyPrior} {y t : Arr} {v : AnyVgp}
    (h : AnyVgp.mk1 sde m0 s0 fwd bwd like k y t = .ok v) :
    ∃ m s L q y' t' o, m0 = .nd (.scalar m) ∧ s0 = .nd (.scalar s) ∧ like = .one L ∧ y = .series y' ∧ t = .times t'
      ∧ VarGP.init sde m s fwd bwd L.toIf q y' t' = .ok o ∧ v = .one o := by
  unfold AnyVgp.mk1 at h
  split at h
  · obtain ⟨o, ho, hv⟩ := py_bind_ok.1 h
    cases hv
    exact ⟨_, _, _, _, _, _, o, rfl, rfl, rfl, rfl, rfl, ho, rfl⟩
  · cases h

theorem init_prior {V W : Type} {sde : SdeModel V W} {m : V} {s : W} {fwd bwd : OdeFrontEnd} {L : LikeIf V W} {q q' : V → W → Py ℝ} {y : List V}
    {t : List ℕ} {o o' : VarGP V W} (h : VarGP.init sde m s fwd bwd L q y t = .ok o) (h' : VarGP.init sde m s fwd bwd L q' y t = .ok o') :
    o' = { o with kl0 := q' } := by
  unfold VarGP.init at h h'
  obtain ⟨dt, h1, h⟩ := py_bind_ok.1 h
  obtain ⟨p, h2, h⟩ := py_bind_ok.1 h
  obtain ⟨dt', h1', h'⟩ := py_bind_ok.1 h'
  obtain ⟨p', h2', h'⟩ := py_bind_ok.1 h'
  rw [h1] at h1'
  rw [h2] at h2'
  cases h1'
  cases h2'
  cases h
  cases h'
  rfl

theorem mk1_prior {sde : SdeModel ℝ ℝ} {m0 s0 : Arr} {fwd bwd : OdeFrontEnd} {like : AnyLike} {k k' : AnyPrior} {y t : Arr} {v v' : AnyVgp}
    (h : AnyVgp.mk1 sde m0 s0 fwd bwd like k y t = .ok v) (h' : AnyVgp.mk1 sde m0 s0 fwd bwd like k' y t = .ok v') : ButPrior v v' := by
  obtain ⟨m, s, L, q, y1, t1, o, rfl, rfl, rfl, rfl, rfl, ho, rfl⟩ := mk1_inv h
  obtain ⟨m, s, L, q', y1, t1, o', e1, e2, e3, e4, e5, ho', rfl⟩ := mk1_inv h'
  cases e1; cases e2; cases e3; cases e4; cases e5
  rw [init_prior ho ho']
  exact .one _ _

theorem mkN_inv {d : ℕ} {sde : SdeModel (Fin d → ℝ) (Matrix (Fin d) (Fin d) ℝ)} {m0 s0 : Arr} {fwd bwd : OdeFrontEnd} {like : AnyLike}
    {k : AnyPrior} {y t : Arr} {v : AnyVgp} (h : AnyVgp.mkN sde m0 s0 fwd bwd like k y t = .ok v) :
    ∃ m s L q y' t' o, m0 = .nd (.vec d m) ∧ s0 = .nd (.mat d d s) ∧ AnyVgp.likeIf d like = .ok L ∧ y = .path d y' ∧ t = .times t'
      ∧ VarGP.init sde m s fwd bwd L q y' t' = .ok o ∧ v = .many d o := by
  unfold AnyVgp.mkN at h
  split at h
  · split at h
    · rename_i hd
      obtain ⟨rfl, ⟨rfl, rfl⟩, rfl, h4⟩ := hd
      subst h4
      obtain ⟨L, hL, h⟩ := py_bind_ok.1 h
      obtain ⟨o, ho, hv⟩ := py_bind_ok.1 h
      cases hv
      exact ⟨_, _, L, _, _, _, o, rfl, rfl, hL, rfl, rfl, by simp at ho; exact ho, rfl⟩
    · cases h
  · cases h

theorem mkN_prior {d : ℕ} {sde : SdeModel (Fin d → ℝ) (Matrix (Fin d) (Fin d) ℝ)} {m0 s0 : Arr} {fwd bwd : OdeFrontEnd} {like : AnyLike}
    {k k' : AnyPrior} {y t : Arr} {v v' : AnyVgp}
    (h : AnyVgp.mkN sde m0 s0 fwd bwd like k y t = .ok v) (h' : AnyVgp.mkN sde m0 s0 fwd bwd like k' y t = .ok v') : ButPrior v v' := by
  obtain ⟨m, s, L, q, y1, t1, o, rfl, rfl, hL, rfl, rfl, ho, rfl⟩ := mkN_inv h
  obtain ⟨m, s, L', q', y1, t1, o', e1, e2, hL', e4, e5, ho', rfl⟩ := mkN_inv h'
  rw [hL] at hL'
  cases e1; cases e2; cases hL'; cases e4; cases e5
  rw [init_prior ho ho']
  exact .many _ _ _

theorem create_prior {p : AnyProc G} {m0 s0 : Arr} {fwd bwd : OdeFrontEnd} {like : AnyLike} {k k' : AnyPrior} {y t : Arr} {v v' : AnyVgp}
    (h : AnyVgp.create p m0 s0 fwd bwd like k y t = .ok v) (h' : AnyVgp.create p m0 s0 fwd bwd like k' y t = .ok v') : ButPrior v v' := by
  cases p with
  | dw o => exact mk1_prior h h'
  | ou o => exact mk1_prior h h'
  | l63 o => exact mkN_prior h h'
  | l96 o => exact mkN_prior h h'

theorem eval_kl0 {V W : Type} [AddCommGroup V] [Module ℝ V] [AddCommGroup W] [Module ℝ W] {sh : Shape V W} {o : VarGP V W} {x : List ℝ}
    {r : ℝ × VgpCache V W} (h : o.eval sh x = .ok r) : ∃ K, o.kl0 o.m0 o.s0 = .ok K := by
  obtain ⟨F, c⟩ := r
  obtain ⟨_, _, _, _, E0, _, _, _, h3, _⟩ := eval_ok sh o _ _ _ h
  exact ⟨E0, h3⟩

theorem butPrior_only {v v' : AnyVgp} (h : ButPrior v v') {x x' : List ℝ} {F F' : ℝ} (hf : (v.freeEnergy x).1 = .ok F)
    (hf' : (v'.freeEnergy x').1 = .ok F') : ∃ k, OnlyPrior k v v' := by
  cases h with
  | one o q =>
    simp only [AnyVgp.freeEnergy, VarGP.freeEnergy] at hf hf'
    rcases h1 : o.eval shape1 x with e | r
    · rw [h1] at hf; cases hf
    rcases h2 : VarGP.eval shape1 { o with kl0 := q } x' with e | r'
    · rw [h2] at hf'; cases hf'
    obtain ⟨K, hK⟩ := eval_kl0 h1
    obtain ⟨K', hK'⟩ := eval_kl0 h2
    exact ⟨_, .one o q hK hK' rfl⟩
  | many d o q =>
    simp only [AnyVgp.freeEnergy, VarGP.freeEnergy] at hf hf'
    rcases h1 : o.eval (shapeN d) x with e | r
    · rw [h1] at hf; cases hf
    rcases h2 : VarGP.eval (shapeN d) { o with kl0 := q } x' with e | r'
    · rw [h2] at hf'; cases hf'
    obtain ⟨K, hK⟩ := eval_kl0 h1
    obtain ⟨K', hK'⟩ := eval_kl0 h2
    exact ⟨_, .many d o q hK hK' rfl⟩

theorem builds_prior {E : Env G} {m m' : MData (AnyProc G) Arr} (hm : ∃ a b, m' = { m with mu0 := a, tau0 := b }) {p p' : AnyProc G} {v v' : AnyVgp}
    {x0 x0' : List ℝ} (h : Spec.Builds (pyClasses E) m p v x0) (h' : Spec.Builds (pyClasses E) m' p' v' x0') : p' = p ∧ ButPrior v v' ∧ x0' = x0 := by
  obtain ⟨a, b, rfl⟩ := hm
  obtain ⟨tw, dt, ode, one, f, b, y, t, r, os, op, lik, mu0, tau0, k, m0, s0, h1, h2, h3, h4, h5, h8, h9, h10, h11, h12,
        h13, h15, h16, h17, h19, h20, h21, h22, h23, h24⟩ := h
  obtain ⟨tw', dt', ode', one', f', b', y', t', r', os', op', lik', mu0', tau0', k', m0', s0', i1, i2, i3, i4, i5, i8, i9, i10, i11, i12,
        i13, i15, i16, i17, i19, i20, i21, i22, i23, i24⟩ := h'
  dsimp only at i1 i3 i4 i9 i10 i11 i12 i20 i21 i22
  rw [h1] at i1; cases i1
  rw [h2] at i2; cases i2
  rw [h3] at i3; cases i3
  rw [h4] at i4; cases i4
  rw [h5] at i5; cases i5
  rw [h8] at i8; cases i8
  rw [h9] at i9; cases i9
  rw [h10] at i10; cases i10
  rw [h11] at i11; cases i11
  rw [h12] at i12; cases i12
  rw [h13] at i13; cases i13
  rw [h15] at i15; cases i15
  rw [h20] at i20; cases i20
  rw [h21] at i21; cases i21
  rw [h22] at i22; cases i22
  have hb := create_prior h23 i23
  refine ⟨rfl, hb, ?_⟩
  have e : (pyClasses E).initialization v' = (pyClasses E).initialization v := by cases hb <;> rfl
  rw [e, h24] at i24
  cases i24
  rfl

/-! ## What `setup` makes of two priors -/

/-- When both computations succeed from worlds related by `W`, values and worlds are related by `P`. -/
def BothOk {w w' α β : Type} (W : w → w' → Prop) (P : α → β → w → w' → Prop) (m : ScgM w α) (m' : ScgM w' β) : Prop :=
  ∀ s s' a u b u', W s s' → m s = (.ok a, u) → m' s' = (.ok b, u') → P a b u u'

theorem BothOk.bind {w w' α β γ δ : Type} {W : w → w' → Prop} {P : α → β → w → w' → Prop} {Q : γ → δ → w → w' → Prop} {m : ScgM w α}
    {m' : ScgM w' β} {k : α → ScgM w γ} {k' : β → ScgM w' δ} (h : BothOk W P m m') (hk : ∀ a b, BothOk (P a b) Q (k a) (k' b)) :
    BothOk W Q (m >>= k) (m' >>= k') := by
  intro s s' c u d u' hs h1 h2
  obtain ⟨a, u1, h3, h4⟩ := ScgM.bind_ok.1 h1
  obtain ⟨b, u2, h5, h6⟩ := ScgM.bind_ok.1 h2
  exact hk a b _ _ _ _ _ _ (h _ _ _ _ _ _ hs h3 h5) h4 h6

theorem BothOk.step {w w' α β γ δ : Type} {W W1 : w → w' → Prop} {R : α → β → Prop} {Q : γ → δ → w → w' → Prop} {m : ScgM w α}
    {m' : ScgM w' β} {k : α → ScgM w γ} {k' : β → ScgM w' δ} (h : BothOk W (fun a b s s' => R a b ∧ W1 s s') m m')
    (hk : ∀ a b, R a b → BothOk W1 Q (k a) (k' b)) : BothOk W Q (m >>= k) (m' >>= k') :=
  h.bind fun a b s s' c u d u' hs => hk a b hs.1 s s' c u d u' hs.2

/-- Two dictionaries that differ at most in the two entries of the prior. -/
def ButMu (m m' : MData (AnyProc G) Arr) : Prop := ∃ a b, m' = { m with mu0 := a, tau0 := b }

section
variable {α : Type}

theorem both_lift {p p' : Py α} (h : p' = p) :
    BothOk (ButMu (G := G)) (fun a b s s' => b = a ∧ ButMu s s') (ScgM.lift p) (ScgM.lift p') := by
  rintro s s' a u b u' hs h1 h2
  subst h
  unfold ScgM.lift at h1 h2
  injection h1 with e1 e2
  injection h2 with e3 e4
  rw [e1] at e3
  injection e3 with e3
  subst e2 e4
  exact ⟨e3.symm, hs⟩

theorem both_any {p p' : Py α} : BothOk (ButMu (G := G)) (fun _ _ s s' => True ∧ ButMu s s') (ScgM.lift p) (ScgM.lift p') := by
  rintro s s' a u b u' hs h1 h2
  injection h1 with e1 e2
  injection h2 with e3 e4
  subst e2 e4
  exact ⟨trivial, hs⟩

theorem both_write {g g' : MData (AnyProc G) Arr → MData (AnyProc G) Arr} (h : ∀ m a b, ButMu (g m) (g' { m with mu0 := a, tau0 := b })) :
    BothOk (ButMu (G := G)) (fun _ _ s s' => True ∧ ButMu s s') (Sim.write g) (Sim.write g') := by
  rintro s s' a u b u' ⟨x, y, rfl⟩ h1 h2
  injection h1 with e1 e2
  injection h2 with e3 e4
  subst e2 e4
  exact ⟨trivial, h s x y⟩

theorem both_view {g g' : MData (AnyProc G) Arr → Py α} (h : ∀ m a b, g' { m with mu0 := a, tau0 := b } = g m) :
    BothOk (ButMu (G := G)) (fun a b s s' => b = a ∧ ButMu s s') (Sim.view g) (Sim.view g') := by
  rintro s s' a u b u' ⟨x, y, rfl⟩ h1 h2
  unfold Sim.view at h1 h2
  injection h1 with e1 e2
  injection h2 with e3 e4
  subst e2 e4
  rw [h, e1] at e3
  injection e3 with e3
  exact ⟨e3.symm, x, y, rfl⟩

theorem both_peek {g g' : MData (AnyProc G) Arr → Py α} :
    BothOk (ButMu (G := G)) (fun _ _ s s' => True ∧ ButMu s s') (Sim.view g) (Sim.view g') := by
  rintro s s' a u b u' hs h1 h2
  injection h1 with e1 e2
  injection h2 with e3 e4
  subst e2 e4
  exact ⟨trivial, hs⟩

theorem both_onModel (meth : AnyProc G → Py α × AnyProc G) :
    BothOk (ButMu (G := G)) (fun a b s s' => b = a ∧ ButMu s s') (Sim.onModel meth) (Sim.onModel meth) := by
  rintro s s' a u b u' ⟨x, y, rfl⟩ h1 h2
  unfold Sim.onModel at h1 h2
  dsimp only at h1 h2
  rcases hm : s.model with - | p
  · rw [hm] at h1; cases h1
  rw [hm] at h1 h2
  dsimp only at h1 h2
  injection h1 with e1 e2
  injection h2 with e3 e4
  subst e2 e4
  rw [e1] at e3
  injection e3 with e3
  exact ⟨e3.symm, x, y, rfl⟩

end

theorem both_setup (E : Env G) {params params' : Json}
    (hsame : ∀ key ∈ ["Drift", "Noise", "Time-window", "Ode-method", "Random-Seed", "Observations", "Model"], params'.item key = params.item key)
    (data : Option (Data Arr)) :
    BothOk (ButMu (G := G)) (fun _ _ s s' => ButMu s s') (Sim.setupBody (pyClasses E) params data) (Sim.setupBody (pyClasses E) params' data) := by
  unfold Sim.setupBody
  refine (both_lift (hsame _ (by simp))).step fun v _ e => ?_
  subst e
  refine (both_write fun m a b => ⟨a, b, rfl⟩).step fun _ _ _ => (both_lift (hsame _ (by simp))).step fun v _ e => ?_
  subst e
  refine (both_write fun m a b => ⟨a, b, rfl⟩).step fun _ _ _ => (both_lift (hsame _ (by simp))).step fun v _ e => ?_
  subst e
  refine (both_write fun m a b => ⟨a, b, rfl⟩).step fun _ _ _ => (both_lift (hsame _ (by simp))).step fun v _ e => ?_
  subst e
  refine (both_write fun m a b => ⟨a, b, rfl⟩).step fun _ _ _ => (both_lift (hsame _ (by simp))).step fun v _ e => ?_
  subst e
  refine (both_write fun m a b => ⟨a, b, rfl⟩).step fun _ _ _ => (both_lift (hsame _ (by simp))).step fun v _ e => ?_
  subst e
  refine (both_write fun m a b => ⟨a, b, rfl⟩).step fun _ _ _ => both_any.step fun mu mu' _ => ?_
  refine (both_write fun m a b => ⟨some (.given mu'), b, rfl⟩).step fun _ _ _ => both_any.step fun ta ta' _ => ?_
  refine (both_write fun m a b => ⟨a, some (.given ta'), rfl⟩).step fun _ _ _ => ?_
  refine (both_view fun m a b => rfl).step fun sn _ e => ?_
  subst e
  refine (both_view fun m a b => rfl).step fun dv _ e => ?_
  subst e
  refine (both_view fun m a b => rfl).step fun rs _ e => (both_lift (hsame _ (by simp))).step fun nm _ e' => ?_
  subst e e'
  refine (both_lift rfl).step fun p _ e => ?_
  subst e
  refine (both_write fun m a b => ⟨a, b, rfl⟩).step fun _ _ _ => (both_write fun m a b => ⟨a, b, rfl⟩).step fun _ _ _ => ?_
  refine (both_view fun m a b => rfl).step fun t0 _ e => ?_
  subst e
  refine (both_view fun m a b => rfl).step fun t1 _ e => ?_
  subst e
  refine (both_view fun m a b => rfl).step fun dt _ e => ?_
  subst e
  refine (both_onModel _).step fun _ _ _ => ?_
  have hobs : BothOk (ButMu (G := G)) (fun _ _ s s' => True ∧ ButMu s s') (Sim.setupObs (pyClasses E) data) (Sim.setupObs (pyClasses E) data) := by
    unfold Sim.setupObs
    cases data with
    | some d =>
      refine (both_lift rfl).step fun t _ e => ?_
      subst e
      refine (both_write fun m a b => ⟨a, b, rfl⟩).step fun _ _ _ => (both_lift rfl).step fun y _ e => ?_
      subst e
      exact both_write fun m a b => ⟨a, b, rfl⟩
    | none =>
      refine (both_view fun m a b => rfl).step fun t _ e => ?_
      subst e
      refine (both_view fun m a b => rfl).step fun t _ e => ?_
      subst e
      refine (both_view fun m a b => rfl).step fun t _ e => ?_
      subst e
      refine (both_onModel _).step fun r _ e => ?_
      subst e
      exact (both_write fun m a b => ⟨a, b, rfl⟩).step fun _ _ _ => (both_write fun m a b => ⟨a, b, rfl⟩).step fun _ _ _ =>
        both_write fun m a b => ⟨a, b, rfl⟩
  refine hobs.step fun _ _ _ => ?_
  unfold Sim.setupMoments
  refine (both_view fun m a b => rfl).step fun one _ e => (both_onModel _).step fun m0 _ e' => ?_
  subst e e'
  refine (both_write fun m a b => ⟨a, b, rfl⟩).step fun _ _ _ => (both_view fun m a b => rfl).step fun s0 _ e => ?_
  subst e
  refine (both_write fun m a b => ⟨a, b, rfl⟩).step fun _ _ _ => ?_
  split
  · rintro s s' a u b u' hs h1 h2
    cases h1
    cases h2
    exact hs
  · refine both_peek.step fun a a' _ => (both_write fun m x y => ⟨some a', y, rfl⟩).step fun _ _ _ => both_peek.step fun b b' _ => ?_
    intro s s' c u d u' hs h1 h2
    exact (both_write (fun m x y => ⟨x, some b', rfl⟩) s s' c u d u' hs h1 h2).2

theorem setup_but (E : Env G) (s : Sim (AnyProc G) Arr) (params params' : Json) (data : Option (Data Arr))
    (hsame : ∀ key ∈ ["Drift", "Noise", "Time-window", "Ode-method", "Random-Seed", "Observations", "Model"], params'.item key = params.item key)
    (h1 : (s.setup (pyClasses E) params data).1 = .ok ()) (h1' : (s.setup (pyClasses E) params' data).1 = .ok ()) :
    ButMu (s.setup (pyClasses E) params data).2.m_data (s.setup (pyClasses E) params' data).2.m_data := by
  unfold Sim.setup at h1 h1' ⊢
  dsimp only at h1 h1' ⊢
  rcases e1 : Sim.setupBody (pyClasses E) params data s.m_data with ⟨r, u⟩
  rcases e2 : Sim.setupBody (pyClasses E) params' data s.m_data with ⟨r', u'⟩
  rw [e1] at h1
  rw [e2] at h1'
  dsimp only at h1 h1'
  subst h1 h1'
  exact both_setup E hsame data _ _ _ _ _ _ ⟨_, _, rfl⟩ e1 e2

/-! ## C114 -/

/-- C114: take two parameter dictionaries that agree in every entry except `Prior`, and a simulation with any history. If `setup` and `run`
succeed with both, then every entry of the output except `fx` is the same for both. The two numbers `fx` differ by a constant `k`, and so do
the free energies of the two problems at every parameter vector: both raise the same exception, or the values differ by `k`. -/
theorem C114_prior (E : Env G) (s : Sim (AnyProc G) Arr) (params params' : Json) (data : Option (Data Arr))
    (hsame : ∀ key ∈ ["Drift", "Noise", "Time-window", "Ode-method", "Random-Seed", "Observations", "Model"], params'.item key = params.item key)
    (h1 : (s.setup (pyClasses E) params data).1 = .ok ()) (h2 : ((s.setup (pyClasses E) params data).2.run (pyClasses E)).1 = .ok ())
    (h1' : (s.setup (pyClasses E) params' data).1 = .ok ()) (h2' : ((s.setup (pyClasses E) params' data).2.run (pyClasses E)).1 = .ok ()) :
    (∀ name, name ≠ "fx" → ((s.setup (pyClasses E) params' data).2.run (pyClasses E)).2.output.lookup name
      = ((s.setup (pyClasses E) params data).2.run (pyClasses E)).2.output.lookup name)
    ∧ ∃ fx k, ((s.setup (pyClasses E) params data).2.run (pyClasses E)).2.output.lookup "fx" = some (.scalar fx)
      ∧ ((s.setup (pyClasses E) params' data).2.run (pyClasses E)).2.output.lookup "fx" = some (.scalar (fx + k))
      ∧ ∃ p v v' x0, Spec.Builds (pyClasses E) (s.setup (pyClasses E) params data).2.m_data p v x0
        ∧ Spec.Builds (pyClasses E) (s.setup (pyClasses E) params' data).2.m_data p v' x0
        ∧ ∀ x, Spec.Alike (fun a b => b = a + k) (v.freeEnergy x).1 (v'.freeEnergy x).1 := by
  have hbut := setup_but E s params params' data hsame h1 h1'
  have hout : (s.setup (pyClasses E) params' data).2.output = (s.setup (pyClasses E) params data).2.output := rfl
  generalize (s.setup (pyClasses E) params data).2 = t at h2 hbut hout ⊢
  generalize (s.setup (pyClasses E) params' data).2 = t' at h2' hbut hout ⊢
  obtain ⟨p, x, fx, g, a, b, hr, ha, hb, ho⟩ := run_ok_output _ t h2
  obtain ⟨p', x', fx', g', a', b', hr', ha', hb', ho'⟩ := run_ok_output _ t' h2'
  obtain ⟨v, x0, hB, hopt⟩ := runBody_builds.1 hr
  obtain ⟨v', x0', hB', hopt'⟩ := runBody_builds.1 hr'
  obtain ⟨rfl, hv, rfl⟩ := builds_prior hbut hB hB'
  obtain ⟨-, hf, -⟩ := optimize_ok hopt
  obtain ⟨-, hf', -⟩ := optimize_ok hopt'
  obtain ⟨k, hk⟩ := butPrior_only hv hf hf'
  obtain ⟨hal, hst⟩ := onlyPrior_optimize hk x0'
  have hopt1 : v.optimize x0' = (.ok (x, fx), g) := hopt
  have hopt1' : v'.optimize x0' = (.ok (x', fx'), g') := hopt'
  rw [hopt1, hopt1'] at hal hst
  cases hal with
  | ok h =>
    injection h with hx hfx
    dsimp only at hx hfx
    subst hx hfx
    rw [ha] at ha'
    rw [hb] at hb'
    cases ha'
    cases hb'
    have harg : (pyClasses E).arg_out g' = (pyClasses E).arg_out g := onlyPrior_argOut hst
    have hd : Spec.DistinctKeys ((pyClasses E).arg_out g) := argOut_distinct g
    have hno : ((pyClasses E).arg_out g).lookup "fx" = none := argOut_none g "fx" (by simp)
    refine ⟨fun name hn => ?_, fx, k, ?_, ?_, p', v, v', x0', hB, hB', fun x => (onlyPrior_fe hk x).1⟩
    · rw [ho, ho', harg, hout]
      dsimp only
      rw [lookup_update _ _ hd, lookup_update _ _ hd]
      simp only [lookup_put, if_neg hn]
    · rw [ho]
      dsimp only
      rw [lookup_update _ _ hd, hno, lookup_put, if_pos rfl, Option.none_or]
    · rw [ho', harg]
      dsimp only
      rw [lookup_update _ _ hd, hno, lookup_put, if_pos rfl, Option.none_or]

/-! ## The hypotheses can be met -/

/-- `/repo/sim_params_L3D.json`, with the system noise as a list of three variances and another prior mean. -/
def Spec.exampleParams3Prior (mu : ℝ) : Json :=
  .obj [("Info", .str "Input parameters file for the VGPA simulation"), ("Author", .str "Michail Vrettas, PhD"),
    ("Contact", .str "michail.vrettas@gmail.com"), ("Date", .str "2022-05-09"), ("Output_Name", .str "Sim_L3D"), ("Model", .str "L63"),
    ("Ode-method", .str "Heun"), ("Random-Seed", .num 31415926535),
    ("Time-window", .obj [("t0", .num 0), ("tf", .num 20), ("dt", .num 0.01)]),
    ("Noise", .obj [("sys", .arr [.num 10, .num 10, .num 10]), ("obs", .num 2)]),
    ("Observations", .obj [("density", .num ((5 : ℤ) : ℝ)), ("operator", .null)]),
    ("Drift", .obj [("theta", .arr [.num 10, .num 28, .num 2.667])]),
    ("Prior", .obj [("tau0", .num 0.5), ("mu0", .num mu)])]

theorem example_in3Prior (mu : ℝ) : Spec.Config3.In { Spec.exampleConfig3 with mu0 := fun _ => mu } (Spec.exampleParams3Prior mu) :=
  ⟨rfl, ⟨_, rfl, rfl⟩, ⟨_, _, _, rfl, rfl, rfl, .variances ![10, 10, 10], .number _⟩, ⟨_, rfl, rfl, rfl, rfl⟩, rfl, rfl, ⟨_, rfl, rfl, rfl⟩, _, _, _,
    rfl, rfl, rfl, .number _, .number _⟩

theorem example_valid3Prior (mu : ℝ) : Spec.Config3.Valid { Spec.exampleConfig3 with mu0 := fun _ => mu } 2000 :=
  have hv := example_valid3
  ⟨hv.name, hv.sys, hv.obs, hv.tau0, hv.dt, hv.tf, hv.method, hv.seed, hv.density, hv.some_obs, hv.not_all⟩

theorem example_same3Prior (mu mu' : ℝ) : ∀ key ∈ ["Drift", "Noise", "Time-window", "Ode-method", "Random-Seed", "Observations", "Model"],
    (Spec.exampleParams3Prior mu').item key = (Spec.exampleParams3Prior mu).item key := by
  intro key hk
  simp only [List.mem_cons, List.not_mem_nil, or_false] at hk
  rcases hk with rfl | rfl | rfl | rfl | rfl | rfl | rfl <;> rfl

/-- Non-vacuity of C114: the shipped Lorenz-63 configuration with two prior means. -/
example (E : Env G) (s : Sim (AnyProc G) Arr) :=
  have h := C97_setup_and_run E _ _ (example_in3Prior 1) 2000 (example_valid3Prior 1) s
  have h' := C97_setup_and_run E _ _ (example_in3Prior 7) 2000 (example_valid3Prior 7) s
  C114_prior E s _ _ none (example_same3Prior 1 7) h.1 h.2 h'.1 h'.2

end

end VGPA
