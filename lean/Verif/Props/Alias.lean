import Verif.Lemmas.HeapGrad
import Verif.Props.VarGPGrad1

/-!
# C123: who owns which array
-/

set_option linter.unusedSectionVars false
set_option linter.constructorNameAsVariable false

namespace VGPA

noncomputable section

variable {V W : Type} [AddCommGroup V] [Module ℝ V] [AddCommGroup W] [Module ℝ W] [Cells V] [Cells W] [LawfulCells V] [LawfulCells W]

/-! ## Specification -/

/-- All arrays that existed in memory `h` have in `h'` the contents they had. -/
def Spec.Unchanged (h h' : Heap) : Prop := ∀ l < h.length, h'[l]? = h[l]?

/-- Array `a` did not exist in memory `h`, exists in `h'`, and has the entries `l`. -/
def Spec.NewArray {T : Type} [Cells T] (h h' : Heap) (a : HArr) (l : List T) : Prop := h.length ≤ a.loc ∧ Holds h' a l

/-- What a function does that returns two arrays: it changes no array that existed, it raises what it should, and the arrays it returns are new, share no memory and have the contents they should. -/
def Spec.ReturnsNew (h : Heap) (r : Py (HArr × HArr) × Heap) (want : Py (List V × List W)) : Prop :=
  Spec.Unchanged h r.2 ∧ match want with
    | .error e => r.1 = .error e
    | .ok (vs, ws) => ∃ a b, r.1 = .ok (a, b) ∧ a.loc ≠ b.loc ∧ Spec.NewArray h r.2 a vs ∧ Spec.NewArray h r.2 b ws

/-- What happens to a variational object in a session: it is called, or the caller overwrites arrays (`caller h'`: the memory becomes `h'`). -/
inductive Spec.Act
  | free (x : HArr)
  | grad (x : HArr) (eval_fun : Bool)
  | caller (h' : Heap)

/-- A call, with the numbers that are in `x` at the time of the call. -/
inductive Spec.Call
  | free (x : List ℝ)
  | grad (x : List ℝ) (eval_fun : Bool)

/-- What a call returns: a number, or the numbers in the returned array. -/
inductive Spec.Ret
  | energy (r : Py ℝ)
  | gradient (r : Py (List ℝ))

/-- A session: the calls with what they returned, the object and the memory at the end. -/
def Spec.session (sh : HShape V W) : HVarGP V W → Heap → List Spec.Act → List (Spec.Call × Spec.Ret) × HVarGP V W × Heap
  | o, h, [] => ([], o, h)
  | o, _, .caller h' :: as => Spec.session sh o h' as
  | o, h, .free x :: as =>
    let r := o.free sh x h
    let rest := Spec.session sh r.2.1 r.2.2 as
    ((.free (x.contents ℝ h), .energy r.1) :: rest.1, rest.2)
  | o, h, .grad x e :: as =>
    let r := o.grad sh x e h
    let rest := Spec.session sh r.2.1 r.2.2 as
    ((.grad (x.contents ℝ h) e, .gradient (r.1.map fun g => g.contents ℝ r.2.2)) :: rest.1, rest.2)

/-- The same calls on an object whose arrays nobody else can reach. -/
def Spec.replay (sh : Shape V W) : VarGP V W → List Spec.Call → List Spec.Ret
  | _, [] => []
  | v, .free x :: cs => let r := v.freeEnergy sh x; .energy r.1 :: Spec.replay sh r.2 cs
  | v, .grad x e :: cs => let r := v.gradient sh x e; .gradient r.1 :: Spec.replay sh r.2 cs

/-- The arrays the object holds. -/
def Spec.held (o : HVarGP V W) : List ℕ :=
  o.model.locs ++ o.likelihood.locs ++ o.kl0.locs ++ [o.sigma.loc, o.inverse_sigma.loc, o.obs_y.loc, o.m0.loc, o.s0.loc]
    ++ (match o.cache with
      | none => []
      | some c => [c.mt.loc, c.st.loc, c.Efx.loc, c.Edf.loc, c.lamt.loc, c.psit.loc])

/-- The caller never overwrites an array that the object holds at that time, and passes arrays of numbers. Everything else may be overwritten: the arrays passed as `x`, returned gradients, arrays that
were in the output dictionary before the last evaluation. -/
def Spec.Fair (sh : HShape V W) : HVarGP V W → Heap → List Spec.Act → Prop
  | _, _, [] => True
  | o, h, .caller h' :: as => (∀ l ∈ Spec.held o, h'[l]? = h[l]?) ∧ Spec.Fair sh o h' as
  | o, h, .free x :: as => (∃ X : List ℝ, Holds h x X) ∧ Spec.Fair sh (o.free sh x h).2.1 (o.free sh x h).2.2 as
  | o, h, .grad x e :: as => (∃ X : List ℝ, Holds h x X) ∧ Spec.Fair sh (o.grad sh x e h).2.1 (o.grad sh x e h).2.2 as

/-- The caller does not overwrite the array at `l`. -/
def Spec.LeftAlone (sh : HShape V W) (l : ℕ) : HVarGP V W → Heap → List Spec.Act → Prop
  | _, _, [] => True
  | o, h, .caller h' :: as => h'[l]? = h[l]? ∧ Spec.LeftAlone sh l o h' as
  | o, h, .free x :: as => Spec.LeftAlone sh l (o.free sh x h).2.1 (o.free sh x h).2.2 as
  | o, h, .grad x e :: as => Spec.LeftAlone sh l (o.grad sh x e h).2.1 (o.grad sh x e h).2.2 as

/-! ## Lemmas -/

theorem unchanged_of_prefix {h h' : Heap} (hp : h <+: h') : Spec.Unchanged h h' := by
  intro l hl
  obtain ⟨t, rfl⟩ := hp
  exact List.getElem?_append_left hl

theorem returnsNew_of_gives {h : Heap} {r : Py (HArr × HArr) × Heap} {q : Py (List V × List W)} (hg : Gives2 h r q) : Spec.ReturnsNew h r q := by
  refine ⟨unchanged_of_prefix hg.1, ?_⟩
  have := hg.2
  split at this
  · exact this
  · obtain ⟨a, b, h1, h2, h3, h4, h5, h6⟩ := this
    exact ⟨a, b, h1, h6, ⟨h4, h2⟩, h5, h3⟩

theorem contents_of_holds {h : Heap} {x : HArr} {X : List ℝ} (hx : Holds h x X) : x.contents ℝ h = X := by
  unfold HArr.contents
  rw [hx.1]
  apply List.ext_getElem (by simp)
  intro i h1 h2
  rw [List.getElem_map, List.getElem_range]
  exact hx.reads (List.getElem?_eq_getElem h2)

theorem reads_of_eq {T : Type} [Cells T] {h h' : Heap} {p : Piece} {t : T} (hr : Reads h p t ∧ p.loc < h.length) (he : h'[p.loc]? = h[p.loc]?) :
    Reads h' p t ∧ p.loc < h'.length := by
  refine ⟨?_, ?_⟩
  · have := hr.1
    unfold Reads at *
    rw [List.getD_eq_getElem?_getD, he, ← List.getD_eq_getElem?_getD]
    exact this
  · rw [List.getElem?_eq_getElem hr.2] at he
    exact (List.getElem?_eq_some_iff.1 he).1

theorem hobj_of_eq {T : Type} (o : HObj T) {h h' : Heap} {v : T} (hv : o.view h = v ∧ ∀ l ∈ o.locs, l < h.length)
    (he : ∀ l ∈ o.locs, h'[l]? = h[l]?) : o.view h' = v ∧ ∀ l ∈ o.locs, l < h'.length := by
  refine ⟨by rw [o.only h h' he]; exact hv.1, fun l hl => ?_⟩
  have := he l hl
  rw [List.getElem?_eq_getElem (hv.2 l hl)] at this
  exact (List.getElem?_eq_some_iff.1 this).1

/-- An object whose arrays are left alone stays what it is. -/
theorem is_of_held {h h' : Heap} {o : HVarGP V W} {v : VarGP V W} (hi : o.Is h v) (he : ∀ l ∈ Spec.held o, h'[l]? = h[l]?) : o.Is h' v where
  model := hobj_of_eq _ hi.model fun l hl => he l (by simp [Spec.held, hl])
  sigma := reads_of_eq hi.sigma (he _ (by simp [Spec.held]))
  inverse_sigma := reads_of_eq hi.inverse_sigma (he _ (by simp [Spec.held]))
  fwd_ode := hi.fwd_ode
  bwd_ode := hi.bwd_ode
  likelihood := hobj_of_eq _ hi.likelihood fun l hl => he l (by simp [Spec.held, hl])
  kl0 := hobj_of_eq _ hi.kl0 fun l hl => he l (by simp [Spec.held, hl])
  obs_y := hi.obs_y.congr (he _ (by simp [Spec.held]))
  obs_t := hi.obs_t
  dt := hi.dt
  dim_n := hi.dim_n
  m0 := reads_of_eq hi.m0 (he _ (by simp [Spec.held]))
  s0 := reads_of_eq hi.s0 (he _ (by simp [Spec.held]))
  cache := by
    have hc := hi.cache
    rcases hoc : o.cache with _ | c <;> rcases hvc : v.cache with _ | c' <;> rw [hoc, hvc] at hc <;> simp only at hc ⊢
    have hh : ∀ l ∈ [c.mt.loc, c.st.loc, c.Efx.loc, c.Edf.loc, c.lamt.loc, c.psit.loc], h'[l]? = h[l]? := fun l hl =>
      he l (by unfold Spec.held; rw [hoc]; exact List.mem_append_right _ hl)
    exact ⟨hc.mt.congr (hh _ (by simp)), hc.st.congr (hh _ (by simp)), hc.Efx.congr (hh _ (by simp)), hc.Edf.congr (hh _ (by simp)),
      hc.lamt.congr (hh _ (by simp)), hc.psit.congr (hh _ (by simp))⟩

theorem free_eq {sh : HShape V W} (o : HVarGP V W) (x : HArr) (h : Heap) : o.free sh x h = match exec (o.hFreeEnergy sh x) h with
  | (.ok (F, o'), h') => (.ok F, o', h')
  | (.error e, h') => (.error e, o, h') := rfl

/-- The call `free_energy`, and the object afterwards. -/
theorem free_ok {sh : HShape V W} (hsh : sh.Lawful) {h : Heap} {o : HVarGP V W} {v : VarGP V W} (hi : o.Is h v) {x : HArr} {X : List ℝ}
    (hx : Holds h x X) : h <+: (o.free sh x h).2.2 ∧ (o.free sh x h).1 = (v.freeEnergy sh.toShape X).1
      ∧ (o.free sh x h).2.1.Is (o.free sh x h).2.2 (v.freeEnergy sh.toShape X).2 := by
  obtain ⟨hp, hr⟩ := hFreeEnergy_ok hsh hi hx
  rw [free_eq]
  unfold VarGP.freeEnergy
  rcases hE : exec (o.hFreeEnergy sh x) h with ⟨r, h'⟩
  rw [hE] at hp hr
  cases hV : v.eval sh.toShape X with
  | error e =>
    rw [hV] at hr
    simp only at hr
    subst hr
    exact ⟨hp, rfl, hi.mono hp⟩
  | ok Fc =>
    obtain ⟨F, c'⟩ := Fc
    rw [hV] at hr
    obtain ⟨c, hr, hc, -, -⟩ := hr
    simp only at hr hc hp
    subst hr
    have hm := hi.mono hp
    exact ⟨hp, rfl, hm.model, hm.sigma, hm.inverse_sigma, hm.fwd_ode, hm.bwd_ode, hm.likelihood, hm.kl0, hm.obs_y, hm.obs_t, hm.dt, hm.dim_n, hm.m0,
      hm.s0, hc⟩

/-- The call `gradient`, and the object afterwards. -/
theorem grad_ok {sh : HShape V W} (hsh : sh.Lawful) {h : Heap} {o : HVarGP V W} {v : VarGP V W} (hi : o.Is h v) {x : HArr} {X : List ℝ}
    (hx : Holds h x X) (e : Bool) : h <+: (o.grad sh x e h).2.2
      ∧ (match (v.gradient sh.toShape X e).1 with
        | .error er => (o.grad sh x e h).1 = .error er
        | .ok G => ∃ g, (o.grad sh x e h).1 = .ok g ∧ Spec.NewArray h (o.grad sh x e h).2.2 g G)
      ∧ (o.grad sh x e h).2.1.Is (o.grad sh x e h).2.2 (v.gradient sh.toShape X e).2 := by
  cases e with
  | false =>
    obtain ⟨hp, hr⟩ := hGradBody_ok hsh hi hx
    have e1 : o.grad sh x false h = ((exec (o.hGradBody sh x) h).1, o, (exec (o.hGradBody sh x) h).2) := rfl
    have e2 : v.gradient sh.toShape X false = (v.gradBody sh.toShape X, v) := rfl
    rw [e1, e2]
    refine ⟨hp, ?_, hi.mono hp⟩
    simp only
    cases hV : v.gradBody sh.toShape X with
    | error er => rw [hV] at hr; exact hr
    | ok G =>
      rw [hV] at hr
      obtain ⟨g, h1, h2, h3⟩ := hr
      exact ⟨g, h1, h3, h2⟩
  | true =>
    obtain ⟨hp, hr, hi'⟩ := free_ok hsh hi hx
    rcases hF : o.free sh x h with ⟨r, o', h'⟩
    rcases hFv : v.freeEnergy sh.toShape X with ⟨r', v'⟩
    rw [hF] at hp hr hi'
    rw [hFv] at hr hi'
    simp only at hp hr hi'
    subst hr
    cases r with
    | error er =>
      have e1 : o.grad sh x true h = (.error er, o', h') := by
        unfold HVarGP.grad
        rw [if_pos rfl, hF]
      have e2 : v.gradient sh.toShape X true = (.error er, v') := by
        unfold VarGP.gradient
        rw [if_pos rfl, hFv]
      rw [e1, e2]
      exact ⟨hp, rfl, hi'⟩
    | ok F =>
      have e1 : o.grad sh x true h = ((exec (o'.hGradBody sh x) h').1, o', (exec (o'.hGradBody sh x) h').2) := by
        unfold HVarGP.grad
        rw [if_pos rfl, hF]
        rfl
      have e2 : v.gradient sh.toShape X true = (v'.gradBody sh.toShape X, v') := by
        unfold VarGP.gradient
        rw [if_pos rfl, hFv]
      rw [e1, e2]
      obtain ⟨hp2, hr2⟩ := hGradBody_ok hsh hi' (hx.mono hp)
      refine ⟨hp.trans hp2, ?_, hi'.mono hp2⟩
      simp only
      cases hV : v'.gradBody sh.toShape X with
      | error er => rw [hV] at hr2; exact hr2
      | ok G =>
        rw [hV] at hr2
        obtain ⟨g, h1, h2, h3⟩ := hr2
        exact ⟨g, h1, le_trans hp.length_le h3, h2⟩

/-! ## Theorems -/

/-- C123, the integrators. In whatever memory they are called, and however the arrays they are given overlap, the four methods change no array that existed before; they raise, or return two new arrays that
share no memory, exactly as the integrators on array values do. -/
theorem C123_integrators (meth : Method) (F : Rhs V W) (dt : ℝ) (h : Heap) :
    (∀ (lin_a off_b : HArr) (m0 s0 sigma : Piece) (A : List W) (B : List V) (M0 : V) (S0 sig : W), FwdIn h lin_a off_b m0 s0 sigma A B M0 S0 sig →
      Spec.ReturnsNew h (exec (hSolveFwd meth F dt lin_a off_b m0 s0 sigma) h) (solveFwd meth F dt A B M0 S0 sig))
    ∧ ∀ (lin_a dEsde_dm dEsde_ds dEobs_dm dEobs_ds : HArr) (A : List W) (EM : List V) (ES : List W) (OM : List V) (OS : List W),
      BwdIn h lin_a dEsde_dm dEsde_ds dEobs_dm dEobs_ds A EM ES OM OS →
      Spec.ReturnsNew h (exec (hSolveBwd meth F dt lin_a dEsde_dm dEsde_ds dEobs_dm dEobs_ds) h) (solveBwd meth F dt A EM ES OM OS) :=
  ⟨fun _ _ _ _ _ _ _ _ _ _ hin => returnsNew_of_gives (hSolveFwd_gives meth F dt hin),
    fun _ _ _ _ _ _ _ _ _ _ hin => returnsNew_of_gives (hSolveBwd_gives meth F dt hin)⟩

/-- C123, `free_energy`. It changes no array that existed before the call, in particular not `x` and no array of an earlier output dictionary; when it raises, the object is what it was; when it returns,
it returns what it should and the six arrays in the output dictionary are new, share no memory with each other or with anything else, and have the contents they should. -/
theorem C123_free_energy {sh : HShape V W} (hsh : sh.Lawful) {h : Heap} {o : HVarGP V W} {v : VarGP V W} (hi : o.Is h v) {x : HArr} {X : List ℝ}
    (hx : Holds h x X) : Spec.Unchanged h (o.free sh x h).2.2
      ∧ match v.eval sh.toShape X with
        | .error e => (o.free sh x h).1 = .error e ∧ (o.free sh x h).2.1 = o
        | .ok (F, c') => ∃ c : HCache, (o.free sh x h).1 = .ok F ∧ (o.free sh x h).2.1 = { o with cache := some c }
            ∧ [c.mt.loc, c.st.loc, c.Efx.loc, c.Edf.loc, c.lamt.loc, c.psit.loc].Nodup
            ∧ Spec.NewArray h (o.free sh x h).2.2 c.mt c'.mt ∧ Spec.NewArray h (o.free sh x h).2.2 c.st c'.st
            ∧ Spec.NewArray h (o.free sh x h).2.2 c.Efx c'.Efx ∧ Spec.NewArray h (o.free sh x h).2.2 c.Edf c'.Edf
            ∧ Spec.NewArray h (o.free sh x h).2.2 c.lamt c'.lamt ∧ Spec.NewArray h (o.free sh x h).2.2 c.psit c'.psit := by
  obtain ⟨hp, hr⟩ := hFreeEnergy_ok hsh hi hx
  rw [free_eq]
  rcases hE : exec (o.hFreeEnergy sh x) h with ⟨r, h'⟩
  rw [hE] at hp hr
  cases hV : v.eval sh.toShape X with
  | error e =>
    rw [hV] at hr
    simp only at hr
    subst hr
    exact ⟨unchanged_of_prefix hp, rfl, rfl⟩
  | ok Fc =>
    obtain ⟨F, c'⟩ := Fc
    rw [hV] at hr
    obtain ⟨c, hr, hc, hn, hl⟩ := hr
    simp only at hr hc hp
    subst hr
    have hl' : ∀ l ∈ [c.mt.loc, c.st.loc, c.Efx.loc, c.Edf.loc, c.lamt.loc, c.psit.loc], h.length ≤ l := hl
    exact ⟨unchanged_of_prefix hp, c, rfl, rfl, hn, ⟨hl' _ (by simp), hc.mt⟩, ⟨hl' _ (by simp), hc.st⟩, ⟨hl' _ (by simp), hc.Efx⟩,
      ⟨hl' _ (by simp), hc.Edf⟩, ⟨hl' _ (by simp), hc.lamt⟩, ⟨hl' _ (by simp), hc.psit⟩⟩

/-- C123, `gradient`. It changes no array that existed before the call; it raises what it should or returns a new array with the contents it should have. -/
theorem C123_gradient {sh : HShape V W} (hsh : sh.Lawful) {h : Heap} {o : HVarGP V W} {v : VarGP V W} (hi : o.Is h v) {x : HArr} {X : List ℝ}
    (hx : Holds h x X) (eval_fun : Bool) : Spec.Unchanged h (o.grad sh x eval_fun h).2.2
      ∧ match (v.gradient sh.toShape X eval_fun).1 with
        | .error e => (o.grad sh x eval_fun h).1 = .error e
        | .ok G => ∃ g, (o.grad sh x eval_fun h).1 = .ok g ∧ Spec.NewArray h (o.grad sh x eval_fun h).2.2 g G :=
  ⟨unchanged_of_prefix (grad_ok hsh hi hx eval_fun).1, (grad_ok hsh hi hx eval_fun).2.1⟩

/-- C123, sessions. In any sequence of calls, between which the caller may overwrite everything that the object does not hold at that time (the arrays passed as `x`, returned gradients, replaced
arrays of the output dictionary), each call returns what the same calls return on an object whose arrays nobody else can reach, with the numbers that are in `x` at the time of the call. -/
theorem C123_session {sh : HShape V W} (hsh : sh.Lawful) (acts : List Spec.Act) {h : Heap} {o : HVarGP V W} {v : VarGP V W} (hi : o.Is h v)
    (hf : Spec.Fair sh o h acts) : (Spec.session sh o h acts).1.map Prod.snd = Spec.replay sh.toShape v ((Spec.session sh o h acts).1.map Prod.fst) := by
  induction acts generalizing h o v with
  | nil => rfl
  | cons act acts ih =>
    cases act with
    | caller h' => exact ih (is_of_held hi hf.1) hf.2
    | free x =>
      obtain ⟨⟨X, hx⟩, hf⟩ := hf
      obtain ⟨-, h1, h2⟩ := free_ok hsh hi hx
      have := ih h2 hf
      simp only [Spec.session, List.map_cons, Spec.replay, contents_of_holds hx, this, h1]
    | grad x e =>
      obtain ⟨⟨X, hx⟩, hf⟩ := hf
      obtain ⟨-, h1, h2⟩ := grad_ok hsh hi hx e
      have := ih h2 hf
      have h3 : (o.grad sh x e h).1.map (fun g => g.contents ℝ (o.grad sh x e h).2.2) = (v.gradient sh.toShape X e).1 := by
        cases hV : (v.gradient sh.toShape X e).1 with
        | error er => rw [hV] at h1; rw [h1]; rfl
        | ok G =>
          rw [hV] at h1
          obtain ⟨g, h4, h5⟩ := h1
          rw [h4]
          exact congrArg Except.ok (contents_of_holds h5.2)
      simp only [Spec.session, List.map_cons, Spec.replay, contents_of_holds hx, this, h3]

/-- C123, kept arrays. An array that the caller does not overwrite has after any session the contents it had before: a gradient or an output dictionary that was kept is not changed by later calls. -/
theorem C123_kept {sh : HShape V W} (hsh : sh.Lawful) (acts : List Spec.Act) {h : Heap} {o : HVarGP V W} {v : VarGP V W} (hi : o.Is h v)
    (hf : Spec.Fair sh o h acts) {l : ℕ} (hl : l < h.length) (ha : Spec.LeftAlone sh l o h acts) : (Spec.session sh o h acts).2.2[l]? = h[l]? := by
  induction acts generalizing h o v with
  | nil => rfl
  | cons act acts ih =>
    cases act with
    | caller h' =>
      have hl' : l < List.length h' := by
        have := ha.1
        rw [List.getElem?_eq_getElem hl] at this
        exact (List.getElem?_eq_some_iff.1 this).1
      exact (ih (is_of_held hi hf.1) hf.2 hl' ha.2).trans ha.1
    | free x =>
      obtain ⟨⟨X, hx⟩, hf⟩ := hf
      obtain ⟨h0, h1, h2⟩ := free_ok hsh hi hx
      exact (ih h2 hf (lt_of_lt_of_le hl h0.length_le) ha).trans (unchanged_of_prefix h0 l hl)
    | grad x e =>
      obtain ⟨⟨X, hx⟩, hf⟩ := hf
      obtain ⟨h0, h1, h2⟩ := grad_ok hsh hi hx e
      exact (ih h2 hf (lt_of_lt_of_le hl h0.length_le) ha).trans (unchanged_of_prefix h0 l hl)

/-- C123, the initial mean. The object does not copy it: when the caller overwrites the array it was given as `m0`, and no other array of the object lies in the same memory, then the object is from then on the
object with the new initial mean. -/
theorem C123_initial_mean {h : Heap} {o : HVarGP V W} {v : VarGP V W} (hi : o.Is h v) (M1 : V) (hw : o.m0.w = Cells.width V)
    (hfit : o.m0.off + o.m0.w ≤ (h.getD o.m0.loc []).length)
    (hpriv : ∀ l ∈ Spec.held { o with m0 := o.s0 }, l ≠ o.m0.loc) : o.Is (wr h o.m0 M1) { v with m0 := M1 } := by
  have hk : ∀ l ∈ Spec.held { o with m0 := o.s0 }, (wr h o.m0 M1)[l]? = h[l]? := fun l hl => wr_other _ _ _ (hpriv l hl)
  have hi' : ({ o with m0 := o.s0 } : HVarGP V W).Is (wr h o.m0 M1)
      { v with m0 := (({ loc := o.s0.loc, off := o.s0.off, w := o.s0.w } : Piece).content V h) } :=
    is_of_held ⟨hi.model, hi.sigma, hi.inverse_sigma, hi.fwd_ode, hi.bwd_ode, hi.likelihood, hi.kl0, hi.obs_y, hi.obs_t, hi.dt, hi.dim_n,
      ⟨rfl, hi.s0.2⟩, hi.s0, hi.cache⟩ hk
  have hm : Reads (wr h o.m0 M1) o.m0 M1 ∧ o.m0.loc < (wr h o.m0 M1).length := by
    refine ⟨?_, by rw [wr_length]; exact hi.m0.2⟩
    have hlt := hi.m0.2
    unfold Reads wr
    rw [List.getD_eq_getElem?_getD, List.getElem?_set_self hlt, Option.getD_some]
    unfold splice
    have h1 : (List.take o.m0.off (h.getD o.m0.loc [])).length = o.m0.off := by
      rw [List.length_take]
      omega
    rw [List.append_assoc]
    conv_lhs => rw [← h1]
    rw [show (List.take (List.length (List.take o.m0.off (h.getD o.m0.loc []))) (h.getD o.m0.loc [])) = List.take o.m0.off (h.getD o.m0.loc []) by rw [h1],
      List.drop_left, hw, ← LawfulCells.len M1, List.take_left, LawfulCells.dec_enc]
  exact ⟨hi'.model, hi'.sigma, hi'.inverse_sigma, hi'.fwd_ode, hi'.bwd_ode, hi'.likelihood, hi'.kl0, hi'.obs_y, hi'.obs_t, hi'.dt, hi'.dim_n,
    hm, hi'.s0, hi'.cache⟩

/-- An object that holds no array. -/
def constObj {T : Type} (t : T) : HObj T := ⟨[], fun _ => t, fun _ _ _ => rfl⟩

/-- Every object that has not been evaluated can be placed in memory, together with any parameter array. -/
theorem C123_placed (v : VarGP V W) (hc : v.cache = none) (X : List ℝ) : ∃ (h : Heap) (o : HVarGP V W) (x : HArr), o.Is h v ∧ Holds h x X := by
  refine ⟨[Cells.enc v.m0, Cells.enc v.s0, Cells.enc v.model.sigma, Cells.enc v.model.inverse_sigma, v.obs_y.flatMap Cells.enc, X],
    ⟨constObj v.model, ⟨2, 0, Cells.width W⟩, ⟨3, 0, Cells.width W⟩, v.fwd_ode, v.bwd_ode, constObj v.likelihood, constObj v.kl0,
      ⟨4, 0, v.obs_y.length, Cells.width V⟩, v.obs_t, v.dt, v.dim_n, ⟨0, 0, Cells.width V⟩, ⟨1, 0, Cells.width W⟩, none⟩, ⟨5, 0, X.length, 1⟩, ?_, ?_⟩
  · have rd : ∀ {T : Type} [Cells T] [Zero T] [LawfulCells T] (h : Heap) (l : ℕ) (t : T), h[l]? = some (Cells.enc t) →
        Reads h ⟨l, 0, Cells.width T⟩ t ∧ l < h.length := by
      intro T _ _ _ h l t hl
      refine ⟨?_, (List.getElem?_eq_some_iff.1 hl).1⟩
      unfold Reads
      rw [List.getD_eq_getElem?_getD, hl, Option.getD_some, List.drop_zero, ← LawfulCells.len t, List.take_length, LawfulCells.dec_enc]
    exact ⟨⟨rfl, by simp [constObj]⟩, rd _ _ _ rfl, rd _ _ _ rfl, rfl, rfl, ⟨rfl, by simp [constObj]⟩, ⟨rfl, by simp [constObj]⟩,
      ⟨rfl, rfl, [], [], by simp, rfl⟩, rfl, rfl, rfl, rd _ _ _ rfl, rd _ _ _ rfl, by rw [hc]; trivial⟩
  · exact ⟨rfl, rfl, [], [], by simp [flatMap_real], rfl⟩

/-- C123, the observations that `collect_obs` returns. The noise is added to a copy: the path keeps its contents, and the returned array is new and has the values of the path at the observation times plus
the noise. -/
theorem C123_observe {h : Heap} {xt : HArr} {path : List V} (hx : Holds h xt path) (obs_t : List ℕ) (noise ys : List V)
    (hy : fancy path obs_t = .ok ys) (hn : noise.length = ys.length) : Spec.Unchanged h (exec (hObserve xt obs_t noise) h).2
      ∧ ∃ y, (exec (hObserve xt obs_t noise) h).1 = .ok y ∧ Spec.NewArray h (exec (hObserve xt obs_t noise) h).2 y (List.zipWith (· + ·) ys noise) := by
  have key : ∀ (m j : ℕ) (h' : Heap) (y : HArr) (cur : List V), h.length ≤ y.loc → Spec.Unchanged h h' → Holds h' y cur → cur.length = j + m →
      noise.length = j + m → ∃ h'', exec ((List.range' j m).forM fun k => do
          let yk ← y.view k
          let ek ← lift (idx noise k)
          y.set k ((← yk.get V) + ek)) h' = (.ok (), h'') ∧ Spec.Unchanged h h''
        ∧ Holds h'' y (cur.take j ++ List.zipWith (· + ·) (cur.drop j) (noise.drop j)) := by
    intro m
    induction m with
    | zero =>
      intro j h' y cur _ hu hh hl hnl
      refine ⟨h', rfl, hu, ?_⟩
      rw [List.drop_eq_nil_of_le (by omega), List.zipWith_nil_left, List.append_nil, List.take_of_length_le (by omega)]
      exact hh
    | succ m ih =>
      intro j h' y cur hloc hu hh hl hnl
      have hj : j < cur.length := by omega
      have hjn : j < noise.length := by omega
      have hyn : j < y.n := by rw [hh.1]; exact hj
      have hid : idx noise j = .ok noise[j] := by
        unfold idx
        rw [List.getElem?_eq_getElem hjn]
      have hu' : Spec.Unchanged h (wr h' (y.piece j) (cur[j] + noise[j])) := by
        intro l hl2
        rw [wr_other _ _ _ (show l ≠ (y.piece j).loc from by show l ≠ y.loc; omega)]
        exact hu l hl2
      obtain ⟨h'', h1, h2, h3⟩ := ih (j + 1) _ y (cur.set j (cur[j] + noise[j])) hloc hu' (hh.write hj _) (by rw [List.length_set]; omega) (by omega)
      refine ⟨h'', ?_, h2, ?_⟩
      · rw [List.range'_succ, List.forM_eq_forM, List.forM_cons, exec_bind, exec_bind, exec_view_ok hyn, next_ok, exec_bind, hid, exec_lift, next_ok, exec_bind,
          exec_get (hh.reads (List.getElem?_eq_getElem hj)), next_ok, exec_set_ok hyn, next_ok]
        exact h1
      · rw [List.take_set, List.drop_set_of_lt (by omega)] at h3
        rw [List.drop_eq_getElem_cons hj, List.drop_eq_getElem_cons hjn, List.zipWith_cons_cons]
        rw [List.take_succ_eq_append_getElem hj, List.set_append_right _ _ (by rw [List.length_take]; omega), List.length_take, min_eq_left hj.le, Nat.sub_self,
          List.set_cons_zero, List.append_assoc] at h3
        exact h3
  unfold hObserve
  simp only [exec_bind, exec_all hx, next_ok, hy, exec_lift, exec_fresh]
  obtain ⟨h'', h1, h2, h3⟩ := key ys.length 0 (h ++ [ys.flatMap Cells.enc]) ⟨h.length, 0, ys.length, Cells.width V⟩ ys le_rfl
    (unchanged_of_prefix (List.prefix_append _ _)) (holds_fresh h ys) (by omega) (by omega)
  rw [List.range_eq_range']
  rw [h1]
  rw [List.take_zero, List.nil_append, List.drop_zero, List.drop_zero] at h3
  exact ⟨h2, _, rfl, le_rfl, h3⟩

/-- C123: in more than one dimension `setup` overwrites the array that the caller has in the parameters as `tau0`: everything off the diagonal becomes zero. Nothing else changes. -/
theorem C123_prior_violated (d : ℕ) (h : Heap) (l : ℕ) (T : Matrix (Fin d) (Fin d) ℝ) (hT : h[l]? = some (Cells.enc T)) :
    (exec (hScalePrior d ⟨l, 0, d * d⟩) h).1 = .ok ()
    ∧ (exec (hScalePrior d ⟨l, 0, d * d⟩) h).2[l]? = some (Cells.enc (Matrix.diagonal fun i => T i i))
    ∧ ∀ k ≠ l, (exec (hScalePrior d ⟨l, 0, d * d⟩) h).2[k]? = h[k]? := by
  have hlt := (List.getElem?_eq_some_iff.1 hT).1
  have hr : Reads h ⟨l, 0, d * d⟩ T := by
    unfold Reads
    rw [List.getD_eq_getElem?_getD, hT, Option.getD_some, List.drop_zero,
      show d * d = (Cells.enc T).length from (LawfulCells.len T).symm, List.take_length, LawfulCells.dec_enc]
  have e : exec (hScalePrior d ⟨l, 0, d * d⟩) h = (.ok (), wr h ⟨l, 0, d * d⟩ (Matrix.diagonal fun i => T i i)) := by
    unfold hScalePrior
    rw [exec_bind, exec_get hr, next_ok, exec_put]
    congr 2
    ext i j
    by_cases hij : i = j
    · subst hij; simp
    · simp [hij]
  rw [e]
  refine ⟨rfl, ?_, fun k hk => wr_other _ _ _ hk⟩
  unfold wr splice
  simp only [List.take_zero, List.nil_append, Nat.zero_add]
  rw [List.getElem?_set_self hlt, List.getD_eq_getElem?_getD, hT, Option.getD_some, LawfulCells.len,
    show Cells.width (Matrix (Fin d) (Fin d) ℝ) = (Cells.enc T).length from (LawfulCells.len T).symm, List.drop_length, List.append_nil]

/-! ## A double well in memory -/

/-- Four numbers, two observations, path, window and a parameter array. -/
def wHeap (y : Fin 2 → ℝ) (a b : Fin 4 → ℝ) : Heap :=
  [[1], [1], [2], [1 / 2], List.ofFn y, [1, 1, 1, 1], [0, 1 / 2, 1, 3 / 2], List.ofFn a ++ List.ofFn b]

/-- The object of `vgpObj vgpDW.sde`, with the arrays it would be given: `obs_y` and the likelihood share one. -/
def wObj : HVarGP ℝ ℝ where
  model := hDW vgpDW ⟨5, 0, 4, 1⟩ ⟨6, 0, 4, 1⟩
  sigma := ⟨2, 0, 1⟩
  inverse_sigma := ⟨3, 0, 1⟩
  fwd_ode := ⟨1 / 2, "", .euler⟩
  bwd_ode := ⟨1 / 2, "", .euler⟩
  likelihood := hLike1 ⟨4, 0, 2, 1⟩ (List.ofFn fun j : Fin 2 => ((![1, 2] : Fin 2 → Fin 4) j : ℕ)) 1 1
  kl0 := constObj fun m s => .ok ((⟨0, 1⟩ : Prior1).gauss m s)
  obs_y := ⟨4, 0, 2, 1⟩
  obs_t := List.ofFn fun j : Fin 2 => ((![1, 2] : Fin 2 → Fin 4) j : ℕ)
  dt := 1 / 2
  dim_n := 4
  m0 := ⟨0, 0, 1⟩
  s0 := ⟨1, 0, 1⟩
  cache := none

/-- The same object with arrays as values. -/
def wVal (y : Fin 2 → ℝ) : VarGP ℝ ℝ :=
  { vgpObj vgpDW.sde .euler with
    likelihood := (⟨List.ofFn y, List.ofFn fun j : Fin 2 => ((![1, 2] : Fin 2 → Fin 4) j : ℕ), 1, 1⟩ : Like1).toIf
    obs_y := List.ofFn y }

theorem wVal_ok (y : Fin 2 → ℝ) : Vgp1Ok (wVal y) 4 2 y ![1, 2] 1 1 ⟨0, 1⟩ := ⟨by norm_num, rfl, rfl, by decide, rfl, rfl⟩

theorem wObj_is (y : Fin 2 → ℝ) (a b : Fin 4 → ℝ) : wObj.Is (wHeap y a b) (wVal y) := by
  have hy : ∀ (y : Fin 2 → ℝ), HArr.contents ℝ ⟨4, 0, 2, 1⟩ (wHeap y a b) = List.ofFn y := fun y =>
    contents_of_holds ⟨rfl, rfl, [], [], by simp [wHeap]; rfl, rfl⟩
  refine ⟨⟨?_, by simp [wObj, hDW, wHeap]⟩, ⟨rfl, by simp [wObj, wHeap]⟩, ⟨rfl, by simp [wObj, wHeap]⟩, rfl, rfl, ⟨?_, by simp [wObj, hLike1, wHeap]⟩,
    ⟨rfl, by simp [wObj, constObj]⟩, ⟨rfl, rfl, [], [], by simp [wObj, wHeap, wVal]; rfl, rfl⟩, rfl, rfl, rfl, ⟨rfl, by simp [wObj, wHeap]⟩,
    ⟨rfl, by simp [wObj, wHeap]⟩, trivial⟩
  · show DW.sde _ = DW.sde vgpDW
    congr 1
  · show Like1.toIf _ = Like1.toIf _
    rw [hy]

theorem wX (y : Fin 2 → ℝ) (a b : Fin 4 → ℝ) : Holds (wHeap y a b) ⟨7, 0, 8, 1⟩ (List.ofFn a ++ List.ofFn b) :=
  ⟨by simp, rfl, [], [], by simp [wHeap]; rfl, rfl⟩

/-- The energy of the observations. -/
def wLik (m s : Fin 4 → ℝ) (y : Fin 2 → ℝ) : ℝ := ∑ j : Fin 2, (0.5 * (y j ^ 2 - 2 * y j * m ((![1, 2] : Fin 2 → Fin 4) j)
  + (m ((![1, 2] : Fin 2 → Fin 4) j) ^ 2 + s ((![1, 2] : Fin 2 → Fin 4) j))) / 1 + 0.5 * (log2pi + Real.log 1))

theorem wVal_energy (a b : Fin 4 → ℝ) : ∃ (C : ℝ) (m s : Fin 4 → ℝ), ∀ y : Fin 2 → ℝ, ((wVal y).freeEnergy shape1 (List.ofFn a ++ List.ofFn b)).1
    = .ok (C + wLik m s y) := by
  obtain ⟨mt, st, h1, hm, hs, -⟩ := (C16_forward_shapes .euler rhs1 (1 / 2) (List.ofFn a) (List.ofFn b) (1 : ℝ) (1 : ℝ) (2 : ℝ)).1
    ⟨by simp, Or.inl (by simp)⟩
  obtain ⟨m, rfl⟩ := list_eq_ofFn (hm.trans (List.length_ofFn))
  obtain ⟨s, rfl⟩ := list_eq_ofFn (hs.trans (List.length_ofFn))
  have he := dw_energyOk vgpDW 4 (List.ofFn fun j : Fin 2 => ((![1, 2] : Fin 2 → Fin 4) j : ℕ)) _ vgpDW_step (by decide)
  obtain ⟨E, dm, ds, h2⟩ := he a b m s
  refine ⟨(⟨0, 1⟩ : Prior1).gauss 1 1 + E, m, s, fun y => ?_⟩
  obtain ⟨om, os, or_, h3, -⟩ := like1_gradients_eq 1 1 y ![1, 2] (by decide) m s
  obtain ⟨lt, pt, h4, -⟩ := (C16_backward_shapes .euler rhs1 (1 / 2) (List.ofFn a) (List.ofFn dm) (List.ofFn ds) (List.ofFn om) (List.ofFn os)).1
    (Or.inr (by simp))
  have hu := (C58_pack_unpack_1d a b).2.1
  simp only [shape1, id] at hu
  have h5 := like1_gauss_eq 1 1 y ![1, 2] m s
  have hev : ∃ c, (wVal y).eval shape1 (List.ofFn a ++ List.ofFn b) = .ok ((⟨0, 1⟩ : Prior1).gauss 1 1 + E + wLik m s y, c) := by
    refine ⟨⟨List.ofFn m, List.ofFn s, List.ofFn fun i => 4 * (vgpDW.theta * m i - momPoly 3 (m i) (s i)),
      List.ofFn fun i => 4 * (vgpDW.theta - 3 * momPoly 2 (m i) (s i)), lt, pt⟩, ?_⟩
    unfold VarGP.eval
    simp only [wVal, vgpObj]
    rw [show (DW.sde vgpDW).sigma = 2 from rfl]
    simp only [shape1, hu, bind, Except.bind, h1, Like1.toIf, h5, h2, h3, pure, Except.pure, h4]
    rfl
  obtain ⟨c, hev⟩ := hev
  unfold VarGP.freeEnergy
  rw [hev]

/-- C123: the object does not copy the observations. When the caller overwrites the array they were given in, `free_energy` at the same parameters returns another number, although nothing was assigned to the
object. -/
theorem C123_observations_violated : ∃ (o : HVarGP ℝ ℝ) (v : VarGP ℝ ℝ) (h h' : Heap) (x : HArr) (F F' : ℝ), o.Is h v ∧ (∃ X : List ℝ, Holds h x X)
    ∧ h'.length = h.length ∧ (∀ l ≠ o.obs_y.loc, h'[l]? = h[l]?)
    ∧ (Spec.session hshape1 o h [.free x]).1.map Prod.snd = [.energy (.ok F)]
    ∧ (Spec.session hshape1 o h [.caller h', .free x]).1.map Prod.snd = [.energy (.ok F')] ∧ F ≠ F' := by
  obtain ⟨C, m, s, hE⟩ := wVal_energy 0 0
  have e1 : ∀ y, (wObj.free hshape1 ⟨7, 0, 8, 1⟩ (wHeap y 0 0)).1 = .ok (C + wLik m s y) := fun y =>
    ((free_ok hshape1_lawful (wObj_is y 0 0) (wX y 0 0)).2.1).trans (hE y)
  let y' : Fin 2 → ℝ := ![m 1 + 1, m 2]
  let y : Fin 2 → ℝ := ![m 1, m 2]
  refine ⟨wObj, wVal y, wHeap y 0 0, wHeap y' 0 0, ⟨7, 0, 8, 1⟩, C + wLik m s y, C + wLik m s y', wObj_is y 0 0, ⟨_, wX y 0 0⟩, rfl, ?_, ?_, ?_, ?_⟩
  rotate_left
  · simp only [Spec.session, List.map_cons, List.map_nil, e1 y]
  · simp only [Spec.session, List.map_cons, List.map_nil, e1 y']
  · simp only [wLik, Fin.sum_univ_two, y, y', Matrix.cons_val_zero, Matrix.cons_val_one]
    norm_num
    intro h
    nlinarith
  · intro l hl
    have hl : l ≠ 4 := hl
    rcases l with _ | _ | _ | _ | _ | l
    · rfl
    · rfl
    · rfl
    · rfl
    · exact absurd rfl hl
    · rfl

/-- What is stored, with another mean. -/
def wStored (m' m s lam psi : Fin 4 → ℝ) : VgpCache ℝ ℝ :=
  ⟨List.ofFn m', List.ofFn s, List.ofFn fun i => 4 * (vgpDW.theta * m i - momPoly 3 (m i) (s i)),
    List.ofFn fun i => 4 * (vgpDW.theta - 3 * momPoly 2 (m i) (s i)), List.ofFn lam, List.ofFn psi⟩

/-- The offset block of the gradient. -/
def wBlock (m' m s lam a b : Fin 4 → ℝ) (i : Fin 4) : ℝ :=
  1 / 2 * (1 / 2 * (-(4 * (vgpDW.theta * m i - momPoly 3 (m i) (s i))) - a i * m' i + b i) + lam i)

theorem wGrad (o : VarGP ℝ ℝ) (hdt : o.dt = 1 / 2) (hinv : o.model.inverse_sigma = 1 / 2) (hn : o.dim_n = 4) (m s lam psi a b : Fin 4 → ℝ) (m' : Fin 4 → ℝ)
    (hc : o.cache = some (wStored m' m s lam psi)) : ∃ gA : Fin 4 → ℝ, o.gradBody shape1 (List.ofFn a ++ List.ofFn b)
      = .ok (List.ofFn gA ++ List.ofFn (wBlock m' m s lam a b)) := by
  have h := gradBody_ofFn shape1 o (List.ofFn a ++ List.ofFn b) a b m' _ lam s _ psi hn hc (C58_pack_unpack_1d a b).2.2
  rw [hdt, hinv] at h
  refine ⟨fun i => (1 / 2 : ℝ) • shape1.grad_at (shape1.dEsde_da (1 / 2) (a i) (m' i) (s i) (4 * (vgpDW.theta - 3 * momPoly 2 (m i) (s i)))
      (shape1.dEsde_db (1 / 2) (4 * (vgpDW.theta * m i - momPoly 3 (m i) (s i))) (m' i) (a i) (b i))) (lam i) (m' i) (psi i) (s i), h.trans ?_⟩
  rfl

/-- The evaluated object in memory. -/
theorem wEval (y : Fin 2 → ℝ) (a b : Fin 4 → ℝ) : ∃ (m s lam psi : Fin 4 → ℝ) (c : HCache) (h1 : Heap) (F : ℝ),
    wObj.free hshape1 ⟨7, 0, 8, 1⟩ (wHeap y a b) = (.ok F, { wObj with cache := some c }, h1) ∧ m 0 = 1 ∧ 8 ≤ c.mt.loc ∧ Holds h1 c.mt (List.ofFn m)
    ∧ ∀ (h' : Heap) (m' : Fin 4 → ℝ), Holds h' c.mt (List.ofFn m') → (∀ l, l ≠ c.mt.loc → h'[l]? = h1[l]?) →
      ({ wObj with cache := some c } : HVarGP ℝ ℝ).Is h' { wVal y with cache := some (wStored m' m s lam psi) }
      ∧ Holds h' ⟨7, 0, 8, 1⟩ (List.ofFn a ++ List.ofFn b) := by
  have hi := wObj_is y a b
  have hx := wX y a b
  have he := dw_energyOk vgpDW 4 (List.ofFn fun j : Fin 2 => ((![1, 2] : Fin 2 → Fin 4) j : ℕ)) _ vgpDW_step (by decide)
  obtain ⟨F, m, s, lam, psi, hev, hfwd⟩ := vgp1_eval (wVal_ok y) he a b
  have hm0 : m 0 = 1 := by
    obtain ⟨mt, st, h1, -, -, h2, -⟩ := (C16_forward_shapes .euler rhs1 (1 / 2) (List.ofFn a) (List.ofFn b) (1 : ℝ) (1 : ℝ) (2 : ℝ)).1
      ⟨by simp, Or.inl (by simp)⟩
    have h3 : Except.ok (mt, st) = Except.ok (List.ofFn m, List.ofFn s) := h1.symm.trans hfwd
    simp only [Except.ok.injEq, Prod.mk.injEq] at h3
    rw [h3.1] at h2
    simpa using h2
  have hfree := C123_free_energy hshape1_lawful hi hx
  rcases hF : wObj.free hshape1 ⟨7, 0, 8, 1⟩ (wHeap y a b) with ⟨r, o1, h1⟩
  rw [hF] at hfree
  obtain ⟨hun, hfree⟩ := hfree
  rw [show (wVal y).eval hshape1.toShape (List.ofFn a ++ List.ofFn b) = _ from hev] at hfree
  obtain ⟨c, hr, ho1, hnd, hmt, hst, hef, hedf, hlam, hpsi⟩ := hfree
  simp only at ho1 hr
  subst ho1 hr
  have hmloc : 8 ≤ c.mt.loc := hmt.1
  refine ⟨m, s, lam, psi, c, h1, F, rfl, hm0, hmloc, hmt.2, fun h' m' hm' hoth => ?_⟩
  have hh : ∀ l < 8, h'[l]? = (wHeap y a b)[l]? := fun l hl => (hoth l (by omega)).trans (hun l hl)
  have hb : wObj.Is h' (wVal y) := is_of_held hi fun l hl => hh l (by
    simp [Spec.held, wObj, hDW, hLike1, constObj] at hl
    omega)
  simp only [List.nodup_cons, List.mem_cons, not_or] at hnd
  exact ⟨⟨hb.model, hb.sigma, hb.inverse_sigma, hb.fwd_ode, hb.bwd_ode, hb.likelihood, hb.kl0, hb.obs_y, hb.obs_t, hb.dt, hb.dim_n, hb.m0, hb.s0,
      ⟨hm', hst.2.congr (hoth _ (Ne.symm hnd.1.1)), hef.2.congr (hoth _ (Ne.symm hnd.1.2.1)), hedf.2.congr (hoth _ (Ne.symm hnd.1.2.2.1)),
        hlam.2.congr (hoth _ (Ne.symm hnd.1.2.2.2.1)), hpsi.2.congr (hoth _ (Ne.symm hnd.1.2.2.2.2.1))⟩⟩, hx.congr (hh 7 (by norm_num))⟩

/-- One call of `gradient` without evaluation. -/
theorem session_grad {o : HVarGP ℝ ℝ} {v : VarGP ℝ ℝ} {h : Heap} {x : HArr} {X G : List ℝ} (hi : o.Is h v) (hx : Holds h x X)
    (hg : v.gradBody shape1 X = .ok G) : (Spec.session hshape1 o h [.grad x false]).1.map Prod.snd = [.gradient (.ok G)] := by
  rw [C123_session hshape1_lawful [.grad x false] hi ⟨⟨X, hx⟩, trivial⟩]
  simp only [Spec.session, List.map_cons, List.map_nil, Spec.replay, contents_of_holds hx]
  rw [← hg]
  rfl

/-- C123: the arrays in the output dictionary are the object's own. Writing into the stored mean changes what `gradient(x, eval_fun=False)` returns afterwards at the same parameters. -/
theorem C123_output_violated : ∃ (o o1 : HVarGP ℝ ℝ) (v : VarGP ℝ ℝ) (h h1 : Heap) (x : HArr) (F : ℝ) (c : HCache) (g g' : List ℝ),
    o.Is h v ∧ (∃ X : List ℝ, Holds h x X) ∧ o.free hshape1 x h = (.ok F, o1, h1) ∧ o1.cache = some c
    ∧ (Spec.session hshape1 o1 h1 [.grad x false]).1.map Prod.snd = [.gradient (.ok g)]
    ∧ (Spec.session hshape1 o1 h1 [.caller (wr h1 (c.mt.piece 0) (0 : ℝ)), .grad x false]).1.map Prod.snd = [.gradient (.ok g')] ∧ g ≠ g' := by
  obtain ⟨m, s, lam, psi, c, h1, F, hF, hm0, hmloc, hmt, hall⟩ := wEval 0 1 0
  obtain ⟨gA, hg⟩ := wGrad { wVal 0 with cache := some (wStored m m s lam psi) } rfl rfl rfl m s lam psi 1 0 m rfl
  obtain ⟨gA', hg'⟩ := wGrad { wVal 0 with cache := some (wStored (Function.update m 0 0) m s lam psi) } rfl rfl rfl m s lam psi 1 0 _ rfl
  obtain ⟨i1, x1⟩ := hall h1 m hmt fun _ _ => rfl
  have hmt' : Holds (wr h1 (c.mt.piece 0) (0 : ℝ)) c.mt (List.ofFn (Function.update m 0 0)) := by
    have := hmt.write (k := 0) (by simp) (0 : ℝ)
    convert this using 1
    apply List.ext_getElem (by simp)
    intro i h2 h3
    rw [List.getElem_ofFn, List.getElem_set]
    rcases i with _ | i
    · simp
    · rw [if_neg (by omega), List.getElem_ofFn, Function.update_of_ne (by simp [Fin.ext_iff])]
  obtain ⟨i2, x2⟩ := hall _ _ hmt' fun l hl => wr_other _ _ _ hl
  refine ⟨wObj, _, wVal 0, wHeap 0 1 0, h1, ⟨7, 0, 8, 1⟩, F, c, _, _, wObj_is 0 1 0, ⟨_, wX 0 1 0⟩, hF, rfl, session_grad i1 x1 hg,
    session_grad i2 x2 hg', fun h => ?_⟩
  have h4 := congrArg (fun l : List ℝ => l[4]?) h
  simp [hm0, wBlock] at h4
  linarith

/-- Non-vacuity: a fair session in which the caller overwrites the parameters and then evaluates and differentiates. -/
example (y : Fin 2 → ℝ) (a b a' b' : Fin 4 → ℝ) : wObj.Is (wHeap y a b) (wVal y)
    ∧ Spec.Fair hshape1 wObj (wHeap y a b) [.free ⟨7, 0, 8, 1⟩, .grad ⟨7, 0, 8, 1⟩ false]
    ∧ Spec.Fair hshape1 wObj (wHeap y a b) [.caller (wHeap y a' b'), .free ⟨7, 0, 8, 1⟩, .grad ⟨7, 0, 8, 1⟩ true] := by
  have hf : ∀ a b e, Spec.Fair hshape1 wObj (wHeap y a b) [.free ⟨7, 0, 8, 1⟩, .grad ⟨7, 0, 8, 1⟩ e] := fun a b e =>
    ⟨⟨_, wX y a b⟩, ⟨_, (wX y a b).mono (free_ok hshape1_lawful (wObj_is y a b) (wX y a b)).1⟩, trivial⟩
  refine ⟨wObj_is y a b, hf a b false, ?_, hf a' b' true⟩
  intro l hl
  simp [Spec.held, wObj, hDW, hLike1, constObj] at hl
  rcases hl with rfl | rfl | rfl | rfl | rfl | rfl | rfl | rfl <;> rfl

/-- Non-vacuity: the two parts of one parameter array as inputs of the forward integrator. -/
example (y : Fin 2 → ℝ) (a b : Fin 4 → ℝ) :
    FwdIn (wHeap y a b) ⟨7, 0, 4, 1⟩ ⟨7, 4, 4, 1⟩ ⟨0, 0, 1⟩ ⟨1, 0, 1⟩ ⟨2, 0, 1⟩ (List.ofFn a) (List.ofFn b) (1 : ℝ) (1 : ℝ) (2 : ℝ) where
  a := ⟨by simp, rfl, [], List.ofFn b, by simp [wHeap]; rfl, rfl⟩
  b := ⟨by simp, rfl, List.ofFn a, [], by simp [wHeap]; rfl, by simp⟩
  m := ⟨rfl, by simp [wHeap]⟩
  s := ⟨rfl, by simp [wHeap]⟩
  sigma := ⟨rfl, by simp [wHeap]⟩

end

end VGPA
