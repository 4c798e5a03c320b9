import Verif.Lemmas.HeapOde

/-!
# The forward integrators on the heap
-/

set_option linter.unusedSectionVars false
set_option linter.unusedSimpArgs false

namespace VGPA

noncomputable section

variable {V W : Type} [AddCommGroup V] [Module ℝ V] [AddCommGroup W] [Module ℝ W] [Cells V] [Cells W] [LawfulCells V] [LawfulCells W]

/-- An array the loop does not write. -/
structure Safe {X : Type} [Cells X] (h1 : Heap) (a b c : HArr) (l : List X) : Prop where
  holds : Holds h1 c l
  ne1 : c.loc ≠ a.loc
  ne2 : c.loc ≠ b.loc

section
variable {X : Type} [AddCommGroup X] [Cells X] [LawfulCells X]

theorem Safe.get {h1 h : Heap} {a b c : HArr} {l : List X} (hc : Safe h1 a b c l) {ms : List (V × W)} (hf : Filling h1 h a b ms)
    {k : ℕ} {x : X} (hk : l[k]? = some x) : exec (Piece.get X (c.piece k)) h = (.ok x, h) :=
  exec_get ((hf.other hc.holds hc.ne1 hc.ne2).reads hk)

theorem Safe.get' {h1 h : Heap} {a b c : HArr} {l : List X} (hc : Safe h1 a b c l) {ms : List (V × W)} (hf : Filling h1 h a b ms)
    {k : ℕ} {x : X} (hk : l[k]? = some x) (j : ℕ) (v : V) :
    exec (Piece.get X (c.piece k)) (wr h (a.piece j) v) = (.ok x, wr h (a.piece j) v) :=
  exec_get (reads_after (hf.other hc.holds hc.ne1 hc.ne2) hc.ne1 hk v)

end

/-- A piece the loop does not write. -/
structure SafePiece {X : Type} [Cells X] (h1 : Heap) (a b : HArr) (p : Piece) (x : X) : Prop where
  reads : Reads h1 p x
  ne1 : p.loc ≠ a.loc
  ne2 : p.loc ≠ b.loc

theorem SafePiece.get {X : Type} [Cells X] {h1 h : Heap} {a b : HArr} {p : Piece} {x : X} (hp : SafePiece h1 a b p x) {ms : List (V × W)}
    (hf : Filling h1 h a b ms) : Reads h p x := by
  have := hp.reads
  unfold Reads at *
  rw [List.getD_eq_getElem?_getD, hf.rest.2 _ hp.ne1 hp.ne2, ← List.getD_eq_getElem?_getD]
  exact this

theorem SafePiece.get' {X : Type} [Cells X] {h1 h : Heap} {a b : HArr} {p : Piece} {x : X} (hp : SafePiece h1 a b p x) {ms : List (V × W)}
    (hf : Filling h1 h a b ms) (j : ℕ) (v : V) : exec (Piece.get X p) (wr h (a.piece j) v) = (.ok x, wr h (a.piece j) v) :=
  exec_get (piece_after (hp.get hf) hp.ne1 v)

/-- What a turn of a forward loop can use. -/
theorem turn_start {h1 h : Heap} {a b : HArr} (hab : a.loc ≠ b.loc) {ms : List (V × W)} {n k j : ℕ} {x : V × W} (hf : Filling h1 h a b ms)
    (hn : ms.length = n) (hx : ms[k]? = some x) : a.n = n ∧ b.n = n ∧ exec (Piece.get V (a.piece k)) h = (.ok x.1, h)
      ∧ (∀ v : V, exec (Piece.get W (b.piece k)) (wr h (a.piece j) v) = (.ok x.2, wr h (a.piece j) v)) := by
  have hxm : (ms.map Prod.fst)[k]? = some x.1 := by simp [hx]
  have hxs : (ms.map Prod.snd)[k]? = some x.2 := by simp [hx]
  exact ⟨by rw [hf.fst.1]; simpa using hn, by rw [hf.snd.1]; simpa using hn, exec_get (hf.fst.reads hxm),
    fun v => exec_get (reads_after (a := a) (j := j) hf.snd (Ne.symm hab) hxs v)⟩

/-- A forward loop. -/
theorem fwd_loop {h0 h1 h' : Heap} {a b : HArr} {n : ℕ} {M0 : V} {S0 : W} (h01 : h0 <+: h1) (ha : h0.length ≤ a.loc) (hb : h0.length ≤ b.loc)
    (hab : a.loc ≠ b.loc) (hn : 0 < n) (hf : Filling h1 h' a b ((List.replicate n ((0 : V), (0 : W))).set 0 (M0, S0))) (body : ℕ → HPy Unit)
    (step : ℕ → V × W → Py (V × W)) (ht : ∀ k, k + 1 < n → Turn h1 a b n k (k + 1) (body k) (step k)) :
    Gives2 h0 (exec (do
      (List.range (n - 1)).forM body
      pure (a, b)) h') (do
      let ms ← fwdSweep n (M0, S0) step
      pure (ms.map Prod.fst, ms.map Prod.snd)) := by
  have key := loop_turns hab (fun k => k) (fun k => k + 1) body step (List.range (n - 1))
    (fun t htm => by
      have : t < n - 1 := by simpa using htm
      exact ⟨by omega, by omega, ht t (by omega)⟩) h' _ hf (by simp)
  have hs : fwdSweep n (M0, S0) step = (List.range (n - 1)).foldlM (fun buf k => do
      let x ← idx buf k
      let y ← step k x
      setIdx buf (k + 1) y) ((List.replicate n ((0 : V), (0 : W))).set 0 (M0, S0)) := by
    unfold fwdSweep
    have : setIdx (List.replicate n ((0 : V × W))) 0 (M0, S0) = .ok ((List.replicate n ((0 : V), (0 : W))).set 0 (M0, S0)) := by
      unfold setIdx
      rw [if_pos (by simpa using hn)]
      rfl
    rw [this]
    rfl
  rw [hs, exec_bind]
  split at key
  · rename_i e he
    obtain ⟨h2, ms', h3, h4⟩ := key
    rw [h3, next_error, he]
    exact ⟨h4.keeps h01 ha hb, rfl⟩
  · rename_i ms' he
    obtain ⟨h2, h3, h4, h5⟩ := key
    rw [h3, next_ok, exec_pure, he]
    exact ⟨h4.keeps h01 ha hb, a, b, rfl, h4.fst, h4.snd, ha, hb, hab⟩

/-- With no grid points all integrators raise `IndexError`. -/
theorem fwd_none {h : Heap} {m0 s0 : Piece} {M0 : V} {S0 : W} (hm : Reads h m0 M0 ∧ m0.loc < h.length) (f : HArr × HArr → HPy (HArr × HArr))
    (step : ℕ → V × W → Py (V × W)) : Gives2 h (exec (hBegin V W 0 m0 s0 >>= f) h) (do
      let ms ← fwdSweep 0 (M0, S0) step
      pure (ms.map Prod.fst, ms.map Prod.snd)) := by
  obtain ⟨h1, h2⟩ := begin_error (V := V) (W := W) (s0 := s0) hm
  rw [exec_bind]
  rcases he : exec (hBegin V W 0 m0 s0) h with ⟨r, h'⟩
  rw [he] at h1 h2
  simp only at h1 h2
  subst h1
  rw [next_error]
  exact ⟨h2, rfl⟩

/-- `Euler.solve_fwd`. -/
theorem hEulerFwd_gives (F : Rhs V W) (dt : ℝ) {h : Heap} {lin_a off_b : HArr} {m0 s0 sigma : Piece} {A : List W} {B : List V} {M0 : V}
    {S0 sig : W} (hin : FwdIn h lin_a off_b m0 s0 sigma A B M0 S0 sig) :
    Gives2 h (exec (hEulerFwd F dt lin_a off_b m0 s0 sigma) h) (Euler.solveFwd F dt A B M0 S0 sig) := by
  unfold hEulerFwd Euler.solveFwd
  rw [hin.b.1]
  rcases Nat.eq_zero_or_pos B.length with hz | hpos
  · rw [hz]
    exact fwd_none hin.m _ _
  obtain ⟨h1, h', a, b, hx, h01, ha, hb, hab, hna, hnb, hf⟩ := begin_ok (V := V) (W := W) hin.m hin.s hpos
  rw [exec_bind, hx, next_ok]
  have l1 := hin.a.loc_lt
  have l2 := hin.b.loc_lt
  have l3 := hin.sigma.2
  have hA : Safe h1 a b lin_a A := ⟨hin.a.mono h01, by omega, by omega⟩
  have hB : Safe h1 a b off_b B := ⟨hin.b.mono h01, by omega, by omega⟩
  have hS : SafePiece h1 a b sigma sig := ⟨(Reads.mono hin.sigma h01).1, by omega, by omega⟩
  refine fwd_loop h01 ha hb hab hpos hf _ _ fun k hk => ?_
  rintro h ms ⟨mk, sk⟩ hf hn hx
  obtain ⟨ea, eb, hm, hs⟩ := turn_start (j := k + 1) hab hf hn hx
  rw [exec_bind, exec_view_ok (by omega), next_ok, exec_bind, exec_view_ok (by omega), next_ok]
  refine turn_view (hf.other hA.holds hA.ne1 hA.ne2) _ _ fun v0 e0 => ?_
  refine turn_view (hf.other hB.holds hB.ne1 hB.ne2) _ _ fun v1 e1 => ?_
  simp only [exec_bind, next_ok, hm, hs, hA.get hf e0, hA.get' hf e0, hB.get hf e1, hB.get' hf e1, hS.get' hf,
    exec_set_ok (show k + 1 < a.n by omega), exec_set_ok (show k + 1 < b.n by omega)]
  rfl

/-- `Heun.solve_fwd`. -/
theorem hHeunFwd_gives (F : Rhs V W) (dt : ℝ) {h : Heap} {lin_a off_b : HArr} {m0 s0 sigma : Piece} {A : List W} {B : List V} {M0 : V}
    {S0 sig : W} (hin : FwdIn h lin_a off_b m0 s0 sigma A B M0 S0 sig) :
    Gives2 h (exec (hHeunFwd F dt lin_a off_b m0 s0 sigma) h) (Heun.solveFwd F dt A B M0 S0 sig) := by
  unfold hHeunFwd Heun.solveFwd
  rw [hin.b.1]
  rcases Nat.eq_zero_or_pos B.length with hz | hpos
  · rw [hz]
    exact fwd_none hin.m _ _
  obtain ⟨h1, h', a, b, hx, h01, ha, hb, hab, hna, hnb, hf⟩ := begin_ok (V := V) (W := W) hin.m hin.s hpos
  rw [exec_bind, hx, next_ok]
  have l1 := hin.a.loc_lt
  have l2 := hin.b.loc_lt
  have l3 := hin.sigma.2
  have hA : Safe h1 a b lin_a A := ⟨hin.a.mono h01, by omega, by omega⟩
  have hB : Safe h1 a b off_b B := ⟨hin.b.mono h01, by omega, by omega⟩
  have hS : SafePiece h1 a b sigma sig := ⟨(Reads.mono hin.sigma h01).1, by omega, by omega⟩
  refine fwd_loop h01 ha hb hab hpos hf _ _ fun k hk => ?_
  rintro h ms ⟨mk, sk⟩ hf hn hx
  obtain ⟨ea, eb, hm, hs⟩ := turn_start (j := k + 1) hab hf hn hx
  rw [exec_bind, exec_view_ok (by omega), next_ok, exec_bind, exec_view_ok (by omega), next_ok]
  refine turn_view (hf.other hA.holds hA.ne1 hA.ne2) _ _ fun v0 e0 => ?_
  refine turn_view (hf.other hB.holds hB.ne1 hB.ne2) _ _ fun v1 e1 => ?_
  refine turn_view (hf.other hA.holds hA.ne1 hA.ne2) _ _ fun v2 e2 => ?_
  refine turn_view (hf.other hB.holds hB.ne1 hB.ne2) _ _ fun v3 e3 => ?_
  simp only [exec_bind, next_ok, hm, hs, hA.get hf e0, hA.get' hf e0, hB.get hf e1, hB.get' hf e1, hA.get hf e2, hA.get' hf e2, hB.get hf e3, hB.get' hf e3, hS.get' hf,
    exec_set_ok (show k + 1 < a.n by omega), exec_set_ok (show k + 1 < b.n by omega)]
  rfl

/-- `RungeKutta2.solve_fwd`. -/
theorem hRK2Fwd_gives (F : Rhs V W) (dt : ℝ) {h : Heap} {lin_a off_b : HArr} {m0 s0 sigma : Piece} {A : List W} {B : List V} {M0 : V}
    {S0 sig : W} (hin : FwdIn h lin_a off_b m0 s0 sigma A B M0 S0 sig) :
    Gives2 h (exec (hRK2Fwd F dt lin_a off_b m0 s0 sigma) h) (RK2.solveFwd F dt A B M0 S0 sig) := by
  unfold hRK2Fwd RK2.solveFwd
  rw [hin.b.1]
  rcases Nat.eq_zero_or_pos B.length with hz | hpos
  · rw [hz]
    exact fwd_none hin.m _ _
  obtain ⟨h1, h', a, b, hx, h01, ha, hb, hab, hna, hnb, hf⟩ := begin_ok (V := V) (W := W) hin.m hin.s hpos
  rw [exec_bind, hx, next_ok]
  have l1 := hin.a.loc_lt
  have l2 := hin.b.loc_lt
  have l3 := hin.sigma.2
  have hA : Safe h1 a b lin_a A := ⟨hin.a.mono h01, by omega, by omega⟩
  have hB : Safe h1 a b off_b B := ⟨hin.b.mono h01, by omega, by omega⟩
  have hS : SafePiece h1 a b sigma sig := ⟨(Reads.mono hin.sigma h01).1, by omega, by omega⟩
  have la := hf.fst.loc_lt
  have lb := hf.snd.loc_lt
  have hlen := hf.rest.1
  simp only
  rw [exec_bind, exec_all (hf.other hA.holds hA.ne1 hA.ne2), next_ok, exec_bind, exec_fresh, next_ok, exec_bind,
    exec_all (Holds.mono (hf.other hB.holds hB.ne1 hB.ne2) (List.prefix_append _ _)), next_ok, exec_bind, exec_fresh, next_ok]
  have hf2 := (hf.extend ((midpoints A).flatMap Cells.enc)).extend ((midpoints B).flatMap Cells.enc)
  set h2 := h1 ++ [(midpoints A).flatMap Cells.enc] ++ [(midpoints B).flatMap Cells.enc] with hh2
  have h12 : h1 <+: h2 := by rw [hh2, List.append_assoc]; exact List.prefix_append _ _
  have hA2 : Safe h2 a b lin_a A := ⟨hA.holds.mono h12, hA.ne1, hA.ne2⟩
  have hB2 : Safe h2 a b off_b B := ⟨hB.holds.mono h12, hB.ne1, hB.ne2⟩
  have hS2 : SafePiece h2 a b sigma sig := ⟨(Reads.mono (Reads.mono hin.sigma h01) h12).1, hS.ne1, hS.ne2⟩
  have hC2 : Safe h2 a b ⟨h'.length, 0, (midpoints A).length, Cells.width W⟩ (midpoints A) :=
    ⟨by rw [hlen]; exact (holds_fresh h1 (midpoints A)).mono (List.prefix_append _ _), by simp only; omega, by simp only; omega⟩
  have hD2 : Safe h2 a b ⟨(h' ++ [(midpoints A).flatMap Cells.enc]).length, 0, (midpoints B).length, Cells.width V⟩ (midpoints B) :=
    ⟨by rw [List.length_append, hlen, ← List.length_append]; exact holds_fresh _ (midpoints B),
      by simp only [List.length_append]; omega, by simp only [List.length_append]; omega⟩
  refine fwd_loop (h01.trans h12) ha hb hab hpos hf2 _ _ fun k hk => ?_
  rintro h ms ⟨mk, sk⟩ hf hn hx
  obtain ⟨ea, eb, hm, hs⟩ := turn_start (j := k + 1) hab hf hn hx
  rw [exec_bind, exec_view_ok (by omega), next_ok, exec_bind, exec_view_ok (by omega), next_ok]
  refine turn_view (hf.other hA2.holds hA2.ne1 hA2.ne2) _ _ fun v0 e0 => ?_
  refine turn_view (hf.other hB2.holds hB2.ne1 hB2.ne2) _ _ fun v1 e1 => ?_
  refine turn_view (hf.other hC2.holds hC2.ne1 hC2.ne2) _ _ fun v2 e2 => ?_
  refine turn_view (hf.other hD2.holds hD2.ne1 hD2.ne2) _ _ fun v3 e3 => ?_
  simp only [exec_bind, next_ok, hm, hs, hA2.get hf e0, hA2.get' hf e0, hB2.get hf e1, hB2.get' hf e1, hC2.get hf e2, hC2.get' hf e2, hD2.get hf e3, hD2.get' hf e3, hS2.get' hf,
    exec_set_ok (show k + 1 < a.n by omega), exec_set_ok (show k + 1 < b.n by omega)]
  rfl

/-- `RungeKutta4.solve_fwd`. -/
theorem hRK4Fwd_gives (F : Rhs V W) (dt : ℝ) {h : Heap} {lin_a off_b : HArr} {m0 s0 sigma : Piece} {A : List W} {B : List V} {M0 : V}
    {S0 sig : W} (hin : FwdIn h lin_a off_b m0 s0 sigma A B M0 S0 sig) :
    Gives2 h (exec (hRK4Fwd F dt lin_a off_b m0 s0 sigma) h) (RK4.solveFwd F dt A B M0 S0 sig) := by
  unfold hRK4Fwd RK4.solveFwd
  rw [hin.b.1]
  rcases Nat.eq_zero_or_pos B.length with hz | hpos
  · rw [hz]
    exact fwd_none hin.m _ _
  obtain ⟨h1, h', a, b, hx, h01, ha, hb, hab, hna, hnb, hf⟩ := begin_ok (V := V) (W := W) hin.m hin.s hpos
  rw [exec_bind, hx, next_ok]
  have l1 := hin.a.loc_lt
  have l2 := hin.b.loc_lt
  have l3 := hin.sigma.2
  have hA : Safe h1 a b lin_a A := ⟨hin.a.mono h01, by omega, by omega⟩
  have hB : Safe h1 a b off_b B := ⟨hin.b.mono h01, by omega, by omega⟩
  have hS : SafePiece h1 a b sigma sig := ⟨(Reads.mono hin.sigma h01).1, by omega, by omega⟩
  have la := hf.fst.loc_lt
  have lb := hf.snd.loc_lt
  have hlen := hf.rest.1
  simp only
  rw [exec_bind, exec_all (hf.other hA.holds hA.ne1 hA.ne2), next_ok, exec_bind, exec_fresh, next_ok, exec_bind,
    exec_all (Holds.mono (hf.other hB.holds hB.ne1 hB.ne2) (List.prefix_append _ _)), next_ok, exec_bind, exec_fresh, next_ok]
  have hf2 := (hf.extend ((midpoints A).flatMap Cells.enc)).extend ((midpoints B).flatMap Cells.enc)
  set h2 := h1 ++ [(midpoints A).flatMap Cells.enc] ++ [(midpoints B).flatMap Cells.enc] with hh2
  have h12 : h1 <+: h2 := by rw [hh2, List.append_assoc]; exact List.prefix_append _ _
  have hA2 : Safe h2 a b lin_a A := ⟨hA.holds.mono h12, hA.ne1, hA.ne2⟩
  have hB2 : Safe h2 a b off_b B := ⟨hB.holds.mono h12, hB.ne1, hB.ne2⟩
  have hS2 : SafePiece h2 a b sigma sig := ⟨(Reads.mono (Reads.mono hin.sigma h01) h12).1, hS.ne1, hS.ne2⟩
  have hC2 : Safe h2 a b ⟨h'.length, 0, (midpoints A).length, Cells.width W⟩ (midpoints A) :=
    ⟨by rw [hlen]; exact (holds_fresh h1 (midpoints A)).mono (List.prefix_append _ _), by simp only; omega, by simp only; omega⟩
  have hD2 : Safe h2 a b ⟨(h' ++ [(midpoints A).flatMap Cells.enc]).length, 0, (midpoints B).length, Cells.width V⟩ (midpoints B) :=
    ⟨by rw [List.length_append, hlen, ← List.length_append]; exact holds_fresh _ (midpoints B),
      by simp only [List.length_append]; omega, by simp only [List.length_append]; omega⟩
  refine fwd_loop (h01.trans h12) ha hb hab hpos hf2 _ _ fun k hk => ?_
  rintro h ms ⟨mk, sk⟩ hf hn hx
  obtain ⟨ea, eb, hm, hs⟩ := turn_start (j := k + 1) hab hf hn hx
  rw [exec_bind, exec_view_ok (by omega), next_ok, exec_bind, exec_view_ok (by omega), next_ok]
  refine turn_view (hf.other hA2.holds hA2.ne1 hA2.ne2) _ _ fun v0 e0 => ?_
  refine turn_view (hf.other hB2.holds hB2.ne1 hB2.ne2) _ _ fun v1 e1 => ?_
  refine turn_view (hf.other hC2.holds hC2.ne1 hC2.ne2) _ _ fun v2 e2 => ?_
  refine turn_view (hf.other hD2.holds hD2.ne1 hD2.ne2) _ _ fun v3 e3 => ?_
  refine turn_view (hf.other hA2.holds hA2.ne1 hA2.ne2) _ _ fun v4 e4 => ?_
  refine turn_view (hf.other hB2.holds hB2.ne1 hB2.ne2) _ _ fun v5 e5 => ?_
  simp only [exec_bind, next_ok, hm, hs, hA2.get hf e0, hA2.get' hf e0, hB2.get hf e1, hB2.get' hf e1, hC2.get hf e2, hC2.get' hf e2, hD2.get hf e3, hD2.get' hf e3, hA2.get hf e4, hA2.get' hf e4, hB2.get hf e5, hB2.get' hf e5, hS2.get' hf,
    exec_set_ok (show k + 1 < a.n by omega), exec_set_ok (show k + 1 < b.n by omega)]
  rfl

/-- All four. -/
theorem hSolveFwd_gives (meth : Method) (F : Rhs V W) (dt : ℝ) {h : Heap} {lin_a off_b : HArr} {m0 s0 sigma : Piece} {A : List W} {B : List V} {M0 : V}
    {S0 sig : W} (hin : FwdIn h lin_a off_b m0 s0 sigma A B M0 S0 sig) :
    Gives2 h (exec (hSolveFwd meth F dt lin_a off_b m0 s0 sigma) h) (solveFwd meth F dt A B M0 S0 sig) := by
  cases meth
  · exact hEulerFwd_gives F dt hin
  · exact hHeunFwd_gives F dt hin
  · exact hRK2Fwd_gives F dt hin
  · exact hRK4Fwd_gives F dt hin

end

end VGPA
