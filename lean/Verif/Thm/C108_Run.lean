import Verif.Thm.C108_Path

/-!
# C108: buckling beam: runs of the continuation
-/

namespace JaxFem.Beams

open scoped BigOperators

variable {nq nfq : Nat}

attribute [local irreducible] makeMesh

/-! ### Helper lemmas -/

section

variable (fes : List FE) (bcs : List (List (BCEntry ℝ))) (h : WFBC fes bcs)
  (res : (Fin (totalDofs fes) → ℝ) → Fin (totalDofs fes) → ℝ)
  (tan : (Fin (totalDofs fes) → ℝ) → Matrix (Fin (totalDofs fes)) (Fin (totalDofs fes)) ℝ)
  (spsolve : Matrix (Fin (totalDofs fes)) (Fin (totalDofs fes)) ℝ → (Fin (totalDofs fes) → ℝ) →
    Fin (totalDofs fes) → ℝ)
  (norm : (Fin (totalDofs fes) → ℝ) → ℝ) (hs : RespectsIdentityRows spsolve)
include h

include hs in
theorem solve_row (A : Matrix (Fin (totalDofs fes)) (Fin (totalDofs fes)) ℝ) (b : Fin (totalDofs fes) → ℝ)
    (k : Fin (totalDofs fes)) (v : ℝ) (hk : Prescribed fes bcs k (some v)) : spsolve (elimRows fes bcs A) b k = b k :=
  hs _ b k fun j => (elimRows_spec fes bcs h A k j).2 v hk

omit h in
theorem dispSolve_arc (psi deltaL : ℝ) (fuel : Nat) (s0 t : ArcState (totalDofs fes))
    (ht : arcDispSolve fes bcs res tan spsolve norm psi deltaL fuel s0 = some (.ok t)) :
    OnArc psi (assignBcV fes bcs 0) deltaL (t.u - s0.u) (t.lam - s0.lam) := by
  rw [arcDispSolve] at ht
  obtain ⟨m, s, r, h1, h2, h3⟩ := arcLoop_last _ _ s0 fuel 0 s0 1 .zero t (by norm_num) ht
  exact (C29_constraint_disp fes bcs res tan spsolve norm psi deltaL s0 t m (.succ m s t r h1 h2)).1

omit h in
theorem forceSolve_arc (q : Fin (totalDofs fes) → ℝ) (psi deltaL : ℝ) (fuel : Nat) (s0 t : ArcState (totalDofs fes))
    (ht : arcForceSolve fes bcs res tan spsolve norm q psi deltaL fuel s0 = some (.ok t)) :
    OnArc psi (assignZerosBcV fes bcs q) deltaL (t.u - s0.u) (t.lam - s0.lam) := by
  rw [arcForceSolve] at ht
  obtain ⟨m, s, r, h1, h2, h3⟩ := arcLoop_last _ _ s0 fuel 0 s0 1 .zero t (by norm_num) ht
  exact (C29_constraint_force fes bcs res tan spsolve norm q psi deltaL s0 t m (.succ m s t r h1 h2)).1

include hs in
/-- The corrector of displacement control: arc length and constrained degrees of freedom. -/
theorem dispSolve_end (psi deltaL : ℝ) (fuel : Nat) (s0 t : ArcState (totalDofs fes))
    (ht : arcDispSolve fes bcs res tan spsolve norm psi deltaL fuel s0 = some (.ok t)) :
    OnArc psi (assignBcV fes bcs 0) deltaL (t.u - s0.u) (t.lam - s0.lam) ∧
    ∀ (k : Fin (totalDofs fes)) (v : ℝ), Prescribed fes bcs k (some v) → t.u k = t.lam * v := by
  rw [arcDispSolve] at ht
  obtain ⟨m, s, r, h1, h2, h3⟩ := arcLoop_last _ _ s0 fuel 0 s0 1 .zero t (by norm_num) ht
  refine ⟨(C29_constraint_disp fes bcs res tan spsolve norm psi deltaL s0 t m (.succ m s t r h1 h2)).1, fun k v hk => ?_⟩
  obtain ⟨t', h5, h6⟩ := map_ok h2
  obtain ⟨rfl, -⟩ := Prod.mk.inj h6
  obtain ⟨d, e, hu, hl, -⟩ := arcCorrect_spec h5
  rw [hu, hl, Pi.add_apply, Pi.add_apply, Pi.smul_apply, smul_eq_mul, solve_row fes bcs h spsolve hs _ _ k v hk,
    solve_row fes bcs h spsolve hs _ _ k v hk, Pi.neg_apply, (applyBcV_spec fes bcs h _ _ _ k).2 v hk,
    (assignBcV_spec fes bcs h _ k).2 v hk]
  ring

include hs in
/-- The corrector of force control. -/
theorem forceSolve_end (q : Fin (totalDofs fes) → ℝ) (psi deltaL : ℝ) (fuel : Nat) (s0 t : ArcState (totalDofs fes))
    (ht : arcForceSolve fes bcs res tan spsolve norm q psi deltaL fuel s0 = some (.ok t)) : SatisfiesBC fes bcs t.u := by
  rw [arcForceSolve] at ht
  obtain ⟨m, s, r, h1, h2, h3⟩ := arcLoop_last _ _ s0 fuel 0 s0 1 .zero t (by norm_num) ht
  intro k v hk
  obtain ⟨t', h5, h6⟩ := map_ok h2
  obtain ⟨rfl, -⟩ := Prod.mk.inj h6
  obtain ⟨d, e, hu, hl, -⟩ := arcCorrect_spec h5
  rw [hu, Pi.add_apply, Pi.add_apply, Pi.smul_apply, smul_eq_mul, solve_row fes bcs h spsolve hs _ _ k v hk,
    solve_row fes bcs h spsolve hs _ _ k v hk, Pi.neg_apply, Pi.add_apply, Pi.smul_apply, smul_eq_mul,
    (applyBcV_spec fes bcs h _ _ _ k).2 v hk, (assignZerosBcV_spec fes bcs h _ k).2 v hk]
  ring

end

/-- A callback that accepts every state the corrector returns does not change the run. -/
theorem contLoop_callback {S U : Type} [DecidableLE ℝ] (correct : Nat → S → Except Err S) (get : S → U × ℝ)
    (f g : Nat → U → ℝ → Except Err Unit)
    (hf : ∀ step s t, correct step s = .ok t → f step (get t).1 (get t).2 = g step (get t).1 (get t).2) :
    ∀ n step s h c, contLoop correct get (some f) n step s h c = contLoop correct get (some g) n step s h c := by
  intro n
  induction n with
  | zero => intros; rfl
  | succ n ih =>
    intro step s h c
    rw [contLoop, contLoop]
    rcases hc : correct step s with e | t
    · rfl
    · dsimp only
      rw [hf step s t hc]
      simp only [ih]

theorem calls_mem {S : Type} {correct : Nat → S → Except Err S} {s0 : S} {l : List S} (h : Calls correct s0 l) :
    ∀ t ∈ l, ∃ i s, correct i s = .ok t := by
  induction h with
  | nil => simp
  | snoc l t hl hc ih =>
    intro t' ht'
    rw [List.mem_append, List.mem_singleton] at ht'
    rcases ht' with ht' | rfl
    · exact ih t' ht'
    · exact ⟨_, _, hc⟩

/-- Every record of a run belongs to a state that a corrector call returned. -/
theorem run_record {S U : Type} {correct : Nat → S → Except Err S} {get : S → U × ℝ} {polish : U → Except Err U}
    {max : Nat} {cb : Bool} {s0 : S} {r : ArcResult U ℝ} {l : List S} (h : ContinuationRun correct get polish max cb s0 r l) :
    ∀ rec ∈ r.history, ∃ i s t, correct i s = .ok t ∧ rec.u = (get t).1 ∧ rec.lam = (get t).2 := by
  intro rec hrec
  obtain ⟨i, hi, rfl⟩ := List.mem_iff_getElem.1 hrec
  have hl : i < l.length := h.history.1 ▸ hi
  have e := h.history.2 i l[i] (List.getElem?_eq_getElem hl)
  rw [List.getElem?_eq_getElem hi] at e
  obtain ⟨j, s, hc⟩ := calls_mem h.steps l[i] (List.getElem_mem hl)
  exact ⟨j, s, l[i], hc, by rw [Option.some.inj e], by rw [Option.some.inj e]⟩

/-- The state that corrector call `i` started from. -/
theorem calls_prev {S : Type} {correct : Nat → S → Except Err S} {s0 : S} {l : List S} (h : Calls correct s0 l) :
    ∀ i t, l[i]? = some t → ∃ s, correct i s = .ok t ∧ (i = 0 → s = s0) ∧ ∀ j, i = j + 1 → l[j]? = some s := by
  induction h with
  | nil => intro i t h; simp at h
  | snoc l t hl hc ih =>
    intro i t' ht'
    by_cases hi : i < l.length
    · rw [List.getElem?_append_left hi] at ht'
      obtain ⟨s, a, b, c⟩ := ih i t' ht'
      refine ⟨s, a, b, fun j hj => ?_⟩
      rw [List.getElem?_append_left (by omega)]
      exact c j hj
    · have hlt := (List.getElem?_eq_some_iff.1 ht').1
      rw [List.length_append, List.length_singleton] at hlt
      have he : i = l.length := by omega
      subst he
      rw [List.getElem?_concat_length] at ht'
      cases ht'
      refine ⟨_, hc, fun h0 => ?_, fun j hj => ?_⟩
      · rw [List.length_eq_zero_iff.1 h0]; rfl
      · rw [List.getElem?_append_left (by omega), List.getLastD_eq_getLast?, List.getLast?_eq_getElem?]
        have : l.length - 1 = j := by omega
        rw [this, List.getElem?_eq_getElem (by omega)]
        rfl

/-- Consecutive records of a run that starts from rest. -/
theorem run_consecutive {N : Nat} {correct : Nat → ArcState N → Except Err (ArcState N)}
    {polish : (Fin N → ℝ) → Except Err (Fin N → ℝ)} {max : Nat} {cb : Bool} {r : ArcResult (Fin N → ℝ) ℝ} {l : List (ArcState N)}
    (h : ContinuationRun correct (fun s => (s.u, s.lam)) polish max cb ⟨0, 0, 0, 0⟩ r l) (i : Nat) (x y : ArcRecord (Fin N → ℝ) ℝ)
    (hy : r.history[i]? = some y) (hx : Before r.history i x) :
    ∃ s t, correct i s = .ok t ∧ s.u = x.u ∧ s.lam = x.lam ∧ t.u = y.u ∧ t.lam = y.lam := by
  have hl : i < l.length := h.history.1 ▸ (List.getElem?_eq_some_iff.1 hy).1
  have e := h.history.2 i l[i] (List.getElem?_eq_getElem hl)
  rw [hy] at e
  cases e
  obtain ⟨s, hc, h0, hj⟩ := calls_prev h.steps i l[i] (List.getElem?_eq_getElem hl)
  refine ⟨s, _, hc, ?_⟩
  rcases hx with ⟨hi, hu, hlam⟩ | ⟨j, hi, hx⟩
  · rw [h0 hi]
    exact ⟨hu.symm, hlam.symm, rfl, rfl⟩
  · have := h.history.2 j s (hj j hi)
    rw [hx] at this
    cases this
    exact ⟨rfl, rfl, rfl, rfl⟩

/-- Squares of the boundary values of the displacement example. -/
theorem disp_boundary_sq (el : RefElement ℝ nq 4 2) (fc : RefFaces ℝ nfq 4 2) (bcs : List (List (BCEntry ℝ)))
    (hb : UserBC.problemBCs (.single makeMesh.1 compression) = .ok bcs) :
    ∑ k : Fin (totalDofs (dispBeam el fc).fes), assignBcV (dispBeam el fc).fes bcs 0 k ^ 2 = 75 / 4 := by
  obtain ⟨wf, hpr⟩ := beam_prescribed el fc (Hyper.firstPK energy) [(imperfection, midFaces)] _ compression_comps bcs hb
  have hdof := beam_dof el fc (Hyper.firstPK energy) [(imperfection, midFaces)]
  have hdl := beam_dofs el fc (Hyper.firstPK energy) [(imperfection, midFaces)]
  have key : ∀ k : Fin (totalDofs (dispBeam el fc).fes), assignBcV (dispBeam el fc).fes bcs 0 k ^ 2
      = (fun m : Nat => (if m = 300 then (25 / 4 : ℝ) else 0) + (if m = 302 then 25 / 4 else 0)
        + (if m = 304 then 25 / 4 else 0)) k := by
    intro k
    obtain ⟨n, c, hn, hc, hkn⟩ := hdof k
    have hd := (hpr n c hn hc _).2 (compression_demands n c hn hc)
    rw [← hkn] at hd
    show _ = (if (k : Nat) = 300 then (25 / 4 : ℝ) else 0) + (if (k : Nat) = 302 then 25 / 4 else 0)
        + (if (k : Nat) = 304 then 25 / 4 else 0)
    by_cases h3 : n < 3
    · rw [if_pos h3] at hd
      rw [(assignBcV_spec _ bcs wf 0 k).2 _ hd, if_neg (by omega), if_neg (by omega), if_neg (by omega)]
      norm_num
    · rw [if_neg h3] at hd
      by_cases h4 : 150 ≤ n
      · rw [if_pos h4] at hd
        rw [(assignBcV_spec _ bcs wf 0 k).2 _ hd]
        by_cases h5 : c = 0
        · rw [if_pos h5]
          have : n = 150 ∨ n = 151 ∨ n = 152 := by omega
          rcases this with rfl | rfl | rfl
          · rw [if_pos (by omega), if_neg (by omega), if_neg (by omega)]; norm_num
          · rw [if_neg (by omega), if_pos (by omega), if_neg (by omega)]; norm_num
          · rw [if_neg (by omega), if_neg (by omega), if_pos (by omega)]; norm_num
        · rw [if_neg h5, if_neg (by omega), if_neg (by omega), if_neg (by omega)]
          norm_num
      · rw [if_neg h4] at hd
        rw [(assignBcV_spec _ bcs wf 0 k).1 hd, if_neg (by omega), if_neg (by omega), if_neg (by omega)]
        norm_num
  rw [Finset.sum_congr rfl fun k _ => key k]
  refine (Fin.sum_univ_eq_sum_range (fun m : Nat => (if m = 300 then (25 / 4 : ℝ) else 0) + (if m = 302 then 25 / 4 else 0)
    + (if m = 304 then 25 / 4 else 0)) (totalDofs (dispBeam el fc).fes)).trans ?_
  rw [show totalDofs (dispBeam el fc).fes = 306 from hdl, Finset.sum_add_distrib, Finset.sum_add_distrib,
    Finset.sum_ite_eq', Finset.sum_ite_eq', Finset.sum_ite_eq']
  norm_num

/-! ### Property theorems -/

section

variable (el : RefElement ℝ nq 4 2) (fc : RefFaces ℝ nfq 4 2) (P : Problem1 Unit nq nfq 4 2 2) (bcs : List (List (BCEntry ℝ)))
  (tan : (Fin (totalDofs P.fes) → ℝ) → Matrix (Fin (totalDofs P.fes)) (Fin (totalDofs P.fes)) ℝ)
  (spsolve : Matrix (Fin (totalDofs P.fes)) (Fin (totalDofs P.fes)) ℝ → (Fin (totalDofs P.fes) → ℝ) →
    Fin (totalDofs P.fes) → ℝ)
  (norm : (Fin (totalDofs P.fes) → ℝ) → ℝ) (hs : RespectsIdentityRows spsolve)
  (disp : ℝ → ℝ → ArcState (totalDofs P.fes) → Except Err (ArcState (totalDofs P.fes)))
  (force : (Fin (totalDofs P.fes) → ℝ) → ℝ → ℝ → ArcState (totalDofs P.fes) → Except Err (ArcState (totalDofs P.fes)))
  (polish : (Fin (totalDofs P.fes) → ℝ) → Except Err (Fin (totalDofs P.fes) → ℝ))

include hs

/-- **C108 (states, displacement control).** In every recorded state the left end is at rest and the right end has moved by
`-2.5 λ` along the beam and not across it. -/
theorem C108_states_disp (hP : dispProblem el fc = .ok P)
    (hb : UserBC.problemBCs (.single makeMesh.1 compression) = .ok bcs)
    (hd : ∀ psi dl s t, disp psi dl s = .ok t →
      ∃ fuel, arcDispSolve P.fes bcs P.flat tan spsolve norm psi dl fuel s = some (.ok t))
    (r : ArcResult (Fin (totalDofs P.fes) → ℝ) ℝ) (hr : continuation disp force polish dispCfg = .ok r) :
    ∀ rec ∈ r.history, (∀ n i, AtX P.points 0 n → P.vecField rec.u n i = 0) ∧
      ∀ n, AtX P.points 50 n → P.vecField rec.u n 0 = -5 / 2 * rec.lam ∧ P.vecField rec.u n 1 = 0 := by
  obtain ⟨-, -, -, hbd⟩ := C108_boundary el fc
  obtain ⟨wf, hpr⟩ := hbd P bcs hP hb
  clear hbd
  rw [(C108_faces el fc).2.2.1] at hP
  cases hP
  have hvf := beam_vecField el fc (Hyper.firstPK energy) [(imperfection, midFaces)]
  have hdl := beam_dofs el fc (Hyper.firstPK energy) [(imperfection, midFaces)]
  have hnum : (dispBeam el fc).numTotalNodes = 153 := mesh_length
  obtain ⟨-, l, hrun⟩ := C32_displacement _ _ _ _ _ _ _ _ r rfl hr
  intro rec hrec
  obtain ⟨i, s, t, hc, e1, e2⟩ := run_record hrun rec hrec
  obtain ⟨fuel, hf⟩ := hd _ _ _ _ hc
  have hbc := (dispSolve_end _ bcs wf _ tan spsolve norm hs _ _ fuel s t hf).2
  have e1 : rec.u = t.u := e1
  have e2 : rec.lam = t.lam := e2
  rw [e1, e2]
  refine ⟨fun n i hn => ?_, fun n hn => ?_⟩
  · have h3 : n < 3 := (atX_left n).1 hn
    have hi := i.2
    have hlt : n * 2 + (i : Nat) < totalDofs (dispBeam el fc).fes := lt_of_lt_of_eq (by omega) hdl.symm
    rw [hvf t.u n i ⟨_, hlt⟩ rfl, hbc ⟨_, hlt⟩ 0 ((hpr n i (lt_of_lt_of_eq (by omega) hnum.symm) hi).1 hn), mul_zero]
  · have h3 : 150 ≤ n ∧ n < 153 := (atX_right n).1 hn
    have hlt0 : n * 2 + 0 < totalDofs (dispBeam el fc).fes := lt_of_lt_of_eq (by omega) hdl.symm
    have hlt1 : n * 2 + 1 < totalDofs (dispBeam el fc).fes := lt_of_lt_of_eq (by omega) hdl.symm
    have hn' : n < (dispBeam el fc).numTotalNodes := lt_of_lt_of_eq h3.2 hnum.symm
    have a := hbc ⟨_, hlt0⟩ _ ((hpr n 0 hn' (by omega)).2.1 hn)
    have b := hbc ⟨_, hlt1⟩ _ ((hpr n 1 hn' (by omega)).2.1 hn)
    rw [if_pos rfl] at a
    rw [if_neg one_ne_zero, mul_zero] at b
    rw [hvf t.u n 0 ⟨_, hlt0⟩ rfl, hvf t.u n 1 ⟨_, hlt1⟩ rfl, a, b]
    exact ⟨by ring, rfl⟩

/-- **C108 (assertion).** The assertion in `on_step` never fails: the run is the one with a callback that accepts everything. -/
theorem C108_assertion (hP : dispProblem el fc = .ok P)
    (hb : UserBC.problemBCs (.single makeMesh.1 compression) = .ok bcs)
    (hd : ∀ psi dl s t, disp psi dl s = .ok t →
      ∃ fuel, arcDispSolve P.fes bcs P.flat tan spsolve norm psi dl fuel s = some (.ok t)) :
    continuation disp force polish dispCfg
      = continuation disp force polish { dispCfg with callback := some fun _ _ _ => .ok () } := by
  classical
  obtain ⟨-, -, -, hbd⟩ := C108_boundary el fc
  obtain ⟨wf, hpr⟩ := hbd P bcs hP hb
  clear hbd
  rw [(C108_faces el fc).2.2.1] at hP
  cases hP
  have hnum : (dispBeam el fc).numTotalNodes = 153 := mesh_length
  have key := contLoop_callback (fun _ => disp 1 (1 / 10)) (fun s : ArcState (totalDofs (dispBeam el fc).fes) => (s.u, s.lam))
    onStep (fun _ _ _ => .ok ()) (fun step s t hc => by
      obtain ⟨fuel, hf⟩ := hd _ _ _ _ hc
      have hbc := (dispSolve_end _ bcs wf _ tan spsolve norm hs _ _ fuel s t hf).2
      show onStep step t.u t.lam = .ok ()
      rw [onStep]
      split
      · rw [if_pos]
        intro n p hp hx k hk
        have hx' : OnDirichlet makeMesh.1 locationRight n := ⟨p, hp, right_holds.2 hx⟩
        have h3 := (onRight_iff n).1 hx'
        have hn' : n < (dispBeam el fc).numTotalNodes := lt_of_lt_of_eq h3.2 hnum.symm
        have b := hbc k _ (hk ▸ (hpr n 1 hn' (by omega)).2.1 ((atX_right n).2 h3))
        rw [if_neg one_ne_zero, mul_zero] at b
        rw [b]
        norm_num
      · rfl)
  rw [continuation, continuation, solveArcLength, solveArcLength]
  simp only [dispCfg, Option.getD_some, if_true]
  rw [key]

/-- **C108 (number of steps).** A run in displacement control performs at most 600 steps, and exactly 600 if it does not reach
`λ = 1`. It needs at least 44 steps to reach `λ = 1`: the arc length 0.1 allows at most `0.1 / √18.75` per step. -/
theorem C108_steps (hP : dispProblem el fc = .ok P)
    (hb : UserBC.problemBCs (.single makeMesh.1 compression) = .ok bcs)
    (hd : ∀ psi dl s t, disp psi dl s = .ok t →
      ∃ fuel, arcDispSolve P.fes bcs P.flat tan spsolve norm psi dl fuel s = some (.ok t))
    (r : ArcResult (Fin (totalDofs P.fes) → ℝ) ℝ) (hr : continuation disp force polish dispCfg = .ok r) :
    r.history.length ≤ 600 ∧ (r.polished = false → r.history.length = 600) ∧
      (r.polished = true → 1 ≤ r.lam ∧ 44 ≤ r.history.length) := by
  obtain ⟨-, -, -, hbd⟩ := C108_boundary el fc
  obtain ⟨wf, -⟩ := hbd P bcs hP hb
  clear hbd
  rw [(C108_faces el fc).2.2.1] at hP
  cases hP
  have hsq := disp_boundary_sq el fc bcs hb
  obtain ⟨-, l, hrun⟩ := C32_displacement _ _ _ _ _ _ _ _ r rfl hr
  have hlen := hrun.history.1
  have hbound : l.length ≤ 600 := hrun.bound
  have hlam : r.lam = (l.getLastD ⟨0, 0, 0, 0⟩).lam := hrun.lam
  have hgrow : ∀ l' : List (ArcState (totalDofs (dispBeam el fc).fes)),
      Calls (fun _ => disp 1 (1 / 10)) ⟨0, 0, 0, 0⟩ l' →
      (l'.getLastD ⟨0, 0, 0, 0⟩).lam ≤ l'.length * (10 / 433) := by
    intro l' hl'
    induction hl' with
    | nil => simp
    | snoc l' t hl' hc ih =>
      obtain ⟨fuel, hf⟩ := hd _ _ _ _ hc
      have ha := (dispSolve_end _ bcs wf _ tan spsolve norm hs _ _ fuel _ t hf).1
      rw [OnArc, hsq] at ha
      have h0 : 0 ≤ ∑ i, (t.u - (l'.getLastD ⟨0, 0, 0, 0⟩).u) i ^ 2 := Finset.sum_nonneg fun i _ => sq_nonneg _
      have h1 : (t.lam - (l'.getLastD ⟨0, 0, 0, 0⟩).lam) ^ 2 ≤ (10 / 433) ^ 2 := by nlinarith
      have h2 := abs_le_of_sq_le_sq h1 (by norm_num)
      have e : ((l' ++ [t]).getLastD ⟨0, 0, 0, 0⟩) = t := by simp
      rw [e, List.length_append, List.length_singleton]
      push_cast
      linarith [le_of_abs_le h2]
  have hg := hgrow l hrun.steps
  rw [← hlam] at hg
  rw [hlen]
  refine ⟨hbound, fun hp => ?_, fun hp => ?_⟩
  · by_contra hne
    obtain ⟨s, hs', h1⟩ := hrun.stop (show l.length < 600 by omega)
    have : 1 ≤ r.lam := by
      rw [hlam, List.getLastD_eq_getLast?, hs']
      exact h1
    rw [hrun.polished.2 this] at hp
    cases hp
  · have h1 := hrun.polished.1 hp
    refine ⟨h1, ?_⟩
    by_contra hlt
    have : (l.length : ℝ) ≤ 43 := by exact_mod_cast (by omega : l.length ≤ 43)
    nlinarith

/-- **C108 (states, force control).** In every recorded state the left end is at rest. -/
theorem C108_states_force (hP : forceProblem el fc = .ok P)
    (hb : UserBC.problemBCs (.single makeMesh.1 clampedLeft) = .ok bcs) (q : Fin (totalDofs P.fes) → ℝ)
    (hf : ∀ q psi dl s t, force q psi dl s = .ok t →
      ∃ fuel, arcForceSolve P.fes bcs P.flat tan spsolve norm q psi dl fuel s = some (.ok t))
    (r : ArcResult (Fin (totalDofs P.fes) → ℝ) ℝ) (hr : continuation disp force polish (forceCfg q) = .ok r) :
    r.history.length ≤ 600 ∧ ∀ rec ∈ r.history, ∀ n i, AtX P.points 0 n → P.vecField rec.u n i = 0 := by
  obtain ⟨-, -, hbd, -⟩ := C108_boundary el fc
  obtain ⟨wf, hpr⟩ := hbd P bcs hP hb
  clear hbd
  rw [(C108_faces el fc).1] at hP
  cases hP
  have hvf := beam_vecField el fc (Hyper.firstPK energy) [(imperfection, midFaces), (endTractionMap, rightFaces)]
  have hdl := beam_dofs el fc (Hyper.firstPK energy) [(imperfection, midFaces), (endTractionMap, rightFaces)]
  have hnum : (forceBeam el fc).numTotalNodes = 153 := mesh_length
  obtain ⟨q', -, -, correct, l, hrun, hc1, hc2⟩ := C32_force _ _ _ _ _ _ _ _ r rfl hr
  refine ⟨hrun.history.1 ▸ hrun.bound, fun rec hrec n i hn => ?_⟩
  obtain ⟨j, s, t, hc, e1, -⟩ := run_record hrun rec hrec
  have hex : ∃ psi dl, force q' psi dl s = .ok t := by
    by_cases hj : j < 200
    · rw [hc1 j hj] at hc; exact ⟨_, _, hc⟩
    · rw [hc2 j (not_lt.1 hj)] at hc; exact ⟨_, _, hc⟩
  obtain ⟨psi, dl, hc'⟩ := hex
  obtain ⟨fuel, hf'⟩ := hf _ _ _ _ _ hc'
  have hbc := forceSolve_end _ bcs wf _ tan spsolve norm hs q' _ _ fuel s t hf'
  have h3 : n < 3 := (atX_left n).1 hn
  have hi := i.2
  have hlt : n * 2 + (i : Nat) < totalDofs (forceBeam el fc).fes := lt_of_lt_of_eq (by omega) hdl.symm
  have e1 : rec.u = t.u := e1
  rw [e1, hvf t.u n i ⟨_, hlt⟩ rfl]
  exact hbc ⟨_, hlt⟩ 0 ((hpr n i (lt_of_lt_of_eq (by omega) hnum.symm) hi).1 hn)

omit hs in
/-- **C108 (result).** If a run reaches the target, its result comes from Newton's method for the problem itself, that is at full
load: the out-of-balance vector at `λ = 1` is below the absolute tolerance, or below the relative one with respect to the last
recorded state. Otherwise the result is the last recorded state. -/
theorem C108_result (nu : (Fin (totalDofs P.fes) → ℝ) → ℝ) (hnu : ∀ v, 0 ≤ nu v) (q : Fin (totalDofs P.fes) → ℝ)
    (cfg : ArcCfg (Fin (totalDofs P.fes) → ℝ) ℝ)
    (hP : (dispProblem el fc = .ok P ∧ UserBC.problemBCs (.single makeMesh.1 compression) = .ok bcs ∧ cfg = dispCfg) ∨
      (forceProblem el fc = .ok P ∧ UserBC.problemBCs (.single makeMesh.1 clampedLeft) = .ok bcs ∧ cfg = forceCfg q))
    (hpol : ∀ u v, polish u = .ok v → ∃ step finite fuel n, newtonSolve (newtonUpdate P.fes bcs P.flat tan)
      (fun r => .fin (nu r.1)) step finite (1 / 10 ^ 6) (1 / 10 ^ 8) u fuel = some (.ok (v, n)))
    (r : ArcResult (Fin (totalDofs P.fes) → ℝ) ℝ) (hr : continuation disp force polish cfg = .ok r) :
    ∃ last, r.history.getLast? = some last ∧ last.lam = r.lam ∧ (r.polished = false → r.lam < 1 ∧ r.sol = last.u) ∧
      (r.polished = true → 1 ≤ r.lam ∧ ∃ v v0, IsDispResidual P.fes bcs P.flat r.sol 1 v ∧
        IsDispResidual P.fes bcs P.flat last.u 1 v0 ∧ (nu v ≤ 1 / 10 ^ 6 ∨ nu v ≤ 1 / 10 ^ 8 * nu v0)) := by
  have wf : WFBC P.fes bcs := by
    obtain ⟨-, -, h1, h2⟩ := C108_boundary el fc
    rcases hP with ⟨a, b, -⟩ | ⟨a, b, -⟩
    · exact (h2 P bcs a b).1
    · exact (h1 P bcs a b).1
  have hrun : ∃ correct cb l, ContinuationRun correct (fun s : ArcState (totalDofs P.fes) => (s.u, s.lam)) polish 600 cb
      ⟨0, 0, 0, 0⟩ r l := by
    rcases hP with ⟨-, -, rfl⟩ | ⟨-, -, rfl⟩
    · obtain ⟨-, l, h⟩ := C32_displacement _ _ _ _ _ _ _ _ r rfl hr
      exact ⟨_, _, l, h⟩
    · obtain ⟨_, -, -, c, l, h, -, -⟩ := C32_force _ _ _ _ _ _ _ _ r rfl hr
      exact ⟨_, _, l, h⟩
  obtain ⟨correct, cb, l, hrun⟩ := hrun
  have hne : l ≠ [] := by
    rintro rfl
    obtain ⟨s, h, -⟩ := hrun.stop (by simp)
    cases h
  have hpos : 0 < l.length := List.length_pos_iff.2 hne
  have hlast : l[l.length - 1]? = some (l.getLastD ⟨0, 0, 0, 0⟩) := by
    rw [← List.getLast?_eq_getElem?, List.getLastD_eq_getLast?, List.getLast?_eq_some_getLast hne]
    rfl
  have hh := hrun.history.2 _ _ hlast
  rw [← hrun.history.1, ← List.getLast?_eq_getElem?] at hh
  have hres : ∀ u, IsDispResidual P.fes bcs P.flat u 1 (applyBcV P.fes bcs 1 (P.flat u) u) := by
    intro u k
    refine ⟨fun hk => (applyBcV_spec P.fes bcs wf _ _ _ k).1 hk, fun v hk => ?_⟩
    rw [(applyBcV_spec P.fes bcs wf _ _ _ k).2 v hk, mul_comm]
  refine ⟨_, hh, hrun.lam.symm, fun hp => ⟨?_, hrun.plain hp⟩, fun hp => ⟨hrun.polished.1 hp, ?_⟩⟩
  · by_contra hlt
    rw [hrun.polished.2 (not_lt.1 hlt)] at hp
    cases hp
  · obtain ⟨step, finite, fuel, n, hN⟩ := hpol _ _ (hrun.newton hp)
    obtain ⟨r0, r1, x, h0, -, h1, hx, -, ht⟩ := C20_converged _ _ _ _ _ _ (fun v x h => by
      cases h; exact hnu _) _ _ n fuel hN
    cases h0
    cases h1
    cases hx
    refine ⟨_, _, hres _, hres _, ?_⟩
    rcases ht with ht | ⟨x0, hx0, ht⟩
    · exact .inl ht
    · cases hx0
      exact .inr ht

omit hs in
/-- **C108 (increments, displacement control).** From rest or any recorded state to the next one the arc length is 0.1, where
increments of `λ` count with the squares of the prescribed values. -/
theorem C108_increments_disp (hP : dispProblem el fc = .ok P)
    (hb : UserBC.problemBCs (.single makeMesh.1 compression) = .ok bcs)
    (hd : ∀ psi dl s t, disp psi dl s = .ok t →
      ∃ fuel, arcDispSolve P.fes bcs P.flat tan spsolve norm psi dl fuel s = some (.ok t))
    (r : ArcResult (Fin (totalDofs P.fes) → ℝ) ℝ) (hr : continuation disp force polish dispCfg = .ok r)
    (i : Nat) (x y : ArcRecord (Fin (totalDofs P.fes) → ℝ) ℝ) (hy : r.history[i]? = some y) (hx : Before r.history i x) :
    ∑ k, (y.u k - x.u k) ^ 2 + 75 / 4 * (y.lam - x.lam) ^ 2 = 1 / 100 := by
  rw [(C108_faces el fc).2.2.1] at hP
  cases hP
  obtain ⟨-, l, hrun⟩ := C32_displacement _ _ _ _ _ _ _ _ r rfl hr
  obtain ⟨s, t, hc, e1, e2, e3, e4⟩ := run_consecutive hrun i x y hy hx
  obtain ⟨fuel, hf⟩ := hd _ _ _ _ hc
  have ha := dispSolve_arc _ bcs _ tan spsolve norm _ _ fuel s t hf
  have hsq := disp_boundary_sq el fc bcs hb
  rw [OnArc, hsq, e1, e2, e3, e4] at ha
  have ha' : ∑ k, (y.u k - x.u k) ^ 2 + (1 : ℝ) ^ 2 * (y.lam - x.lam) ^ 2 * (75 / 4) = (1 / 10) ^ 2 := ha
  linarith

omit hs in
/-- **C108 (increments, force control).** The arc length is 0.1 in the first 200 steps and 1 afterwards; increments of `λ`
count with a quarter of the squares of the free entries of the load vector. -/
theorem C108_increments_force (hP : forceProblem el fc = .ok P)
    (hb : UserBC.problemBCs (.single makeMesh.1 clampedLeft) = .ok bcs) (q w : Fin (totalDofs P.fes) → ℝ)
    (hw : IsFreePart P.fes bcs q w)
    (hf : ∀ q psi dl s t, force q psi dl s = .ok t →
      ∃ fuel, arcForceSolve P.fes bcs P.flat tan spsolve norm q psi dl fuel s = some (.ok t))
    (r : ArcResult (Fin (totalDofs P.fes) → ℝ) ℝ) (hr : continuation disp force polish (forceCfg q) = .ok r)
    (i : Nat) (x y : ArcRecord (Fin (totalDofs P.fes) → ℝ) ℝ) (hy : r.history[i]? = some y) (hx : Before r.history i x) :
    ∑ k, (y.u k - x.u k) ^ 2 + 1 / 4 * (y.lam - x.lam) ^ 2 * ∑ k, w k ^ 2 = if i < 200 then 1 / 100 else 1 := by
  obtain ⟨-, -, hbd, -⟩ := C108_boundary el fc
  have wf := (hbd P bcs hP hb).1
  obtain ⟨q', hq, -, correct, l, hrun, hc1, hc2⟩ := C32_force _ _ _ _ _ _ _ _ r rfl hr
  cases hq
  obtain ⟨s, t, hc, e1, e2, e3, e4⟩ := run_consecutive hrun i x y hy hx
  have key : ∀ dl, force q (1 / 2) dl s = .ok t →
      ∑ k, (y.u k - x.u k) ^ 2 + (1 / 2) ^ 2 * (y.lam - x.lam) ^ 2 * ∑ k, w k ^ 2 = dl ^ 2 := by
    intro dl h
    obtain ⟨fuel, hf'⟩ := hf _ _ _ _ _ h
    have ha := forceSolve_arc _ bcs _ tan spsolve norm q _ _ fuel s t hf'
    rw [freePart_eq P.fes bcs wf hw, OnArc, e1, e2, e3, e4] at ha
    exact ha
  split
  · rename_i hi
    rw [hc1 i hi] at hc
    linarith [key (1 / 10) hc]
  · rename_i hi
    rw [hc2 i (not_lt.1 hi)] at hc
    linarith [key 1 hc]

end

/-! ### Concrete cases -/

open Classical in
/-- A linear solver that respects identity rows: inverse matrix if there is one, else the right-hand side. -/
noncomputable def exSolve {N : Nat} (A : Matrix (Fin N) (Fin N) ℝ) (b : Fin N → ℝ) : Fin N → ℝ :=
  if IsUnit A.det then A⁻¹.mulVec b else b

theorem exSolve_rows {N : Nat} : RespectsIdentityRows (exSolve (N := N)) := by
  intro A b k hk
  rw [exSolve]
  split
  · rename_i hA
    have e := congrFun (show A.mulVec (A⁻¹.mulVec b) = b by
      rw [Matrix.mulVec_mulVec, Matrix.mul_nonsing_inv A hA, Matrix.one_mulVec]) k
    rw [Matrix.mulVec, dotProduct] at e
    simp only [hk, ite_mul, one_mul, zero_mul, Finset.sum_ite_eq, Finset.mem_univ, if_true] at e
    exact e
  · rfl

/-- A vertical displacement of the right end is rejected at step 20 and passes unnoticed at step 21. -/
example : onStep 20 (fun _ : Fin 306 => 1) 0 = .error .assertion ∧ onStep 21 (fun _ : Fin 306 => 1) 0 = .ok () := by
  constructor
  · rw [onStep, if_pos (by norm_num), if_neg]
    intro h
    have h3 : OnDirichlet makeMesh.1 locationRight 150 := (onRight_iff 150).2 (by omega)
    obtain ⟨p, hp, hx⟩ := h3
    have := h 150 p hp (right_holds.1 hx) ⟨301, by omega⟩ rfl
    norm_num at this
  · rw [onStep, if_neg (by norm_num)]

/-- Tables of the two sides for the quadrature points `θ` with weights `w`. -/
noncomputable def exFaces (θ w : Fin nfq → ℝ) : RefFaces ℝ nfq 4 2 where
  shapeVals f q := quad4N (if f = 0 then onSegment (quad4V 0) (quad4V 1) (θ q) else onSegment (quad4V 1) (quad4V 2) (θ q))
  shapeGradsRef f q := quad4G (if f = 0 then onSegment (quad4V 0) (quad4V 1) (θ q) else onSegment (quad4V 1) (quad4V 2) (θ q))
  quadWeights f q := if f = 0 then faceWeight2 (w q) (quad4V 1 - quad4V 0) else faceWeight2 (w q) (quad4V 2 - quad4V 1)
  normals f := if f = 0 then ![0, -1] else ![1, 0]

example (θ : Fin 2 → ℝ) : SideTables (exFaces θ fun _ => 1 / 2) θ fun _ => 1 / 2 where
  sum := by norm_num [Fin.sum_univ_two]
  vals := by
    intro f a b h q
    simp only [List.mem_cons, Prod.mk.injEq, List.not_mem_nil, or_false] at h
    rcases h with ⟨rfl, rfl, rfl⟩ | ⟨rfl, rfl, rfl⟩ <;> rfl
  grads := by
    intro f a b h q
    simp only [List.mem_cons, Prod.mk.injEq, List.not_mem_nil, or_false] at h
    rcases h with ⟨rfl, rfl, rfl⟩ | ⟨rfl, rfl, rfl⟩ <;> rfl
  weights := by
    intro f a b h q
    simp only [List.mem_cons, Prod.mk.injEq, List.not_mem_nil, or_false] at h
    rcases h with ⟨rfl, rfl, rfl⟩ | ⟨rfl, rfl, rfl⟩ <;> rfl
  normal := by
    intro f a b h
    simp only [List.mem_cons, Prod.mk.injEq, List.not_mem_nil, or_false] at h
    rcases h with ⟨rfl, rfl, rfl⟩ | ⟨rfl, rfl, rfl⟩ <;> simp [exFaces, quad4V, dotProduct, Fin.sum_univ_two]

/-- The undeformed beam is admissible. -/
example (P : Problem1 Unit nq nfq 4 2 2) : Invertible P 0 := by
  intro cell _ q
  have h0 : restrict 4 (0 : Nat → Fin 2 → ℝ) cell.nodes = 0 := rfl
  have : P.defGrad 0 cell.nodes q = 1 := by
    ext i j
    simp [Problem1.defGrad, Problem1.gradient, h0, physGrad]
  rw [this, Matrix.det_one]
  exact one_ne_zero

end JaxFem.Beams
