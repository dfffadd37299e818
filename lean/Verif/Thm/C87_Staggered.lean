import Verif.Thm.C87_Stress
import Verif.Thm.C72_WeakForm
import Verif.Thm.C73_WellPosed

/-!
# C87: phase-field fracture — history field and staggered loop
-/

namespace JaxFem.Fracture

open Eigen (IsEigh eigenF)

variable {nq nfq nn dim : Nat}

/-! ### Helper lemmas -/

theorem arrNorm_eq (a : List (List ℝ)) : arrNorm a = Real.sqrt (arrSq a) := by
  rw [arrNorm, arrSq, List.map_flatten, List.sum_flatten, List.map_map]
  rfl

theorem arrNorm_sub (a b : List (List ℝ)) : arrNorm (arrSub a b) = Real.sqrt (diffSq a b) := by
  rw [arrNorm, arrSub, diffSq]
  congr 2
  have h1 : ∀ r s : List ℝ, (List.map (fun x => x ^ 2) (List.zipWith (fun x y => x - y) r s))
      = (r.zip s).map fun x => (x.1 - x.2) ^ 2 := by
    intro r s
    rw [List.zip, List.map_zipWith, List.map_zipWith]
  have h2 : ∀ a b : List (List ℝ), List.map (fun r => (List.map (fun x => x ^ 2) r).sum)
      (List.zipWith (List.zipWith fun x y => x - y) a b)
      = (a.zip b).map fun r => (List.map (fun x => x ^ 2) (List.zipWith (fun x y => x - y) r.1 r.2)).sum := by
    intro a b
    rw [List.zip, List.map_zipWith, List.map_zipWith]
  refine (h2 a b).trans (List.map_congr_left fun r _ => ?_)
  rw [h1]

theorem relChange_cases (tol : ℝ) (a b : List (List ℝ)) :
    (relChange a b = .nan ∧ arrSq a = 0 ∧ diffSq a b = 0) ∨ relChange a b = .inf false ∨
    ∃ x, relChange a b = .fin x ∧ (x ≤ tol → Settled tol a b) := by
  have hA : 0 ≤ arrSq a := by
    rw [arrSq]
    refine List.sum_nonneg fun x hx => ?_
    obtain ⟨y, -, rfl⟩ := List.mem_map.1 hx
    exact sq_nonneg y
  have hD : 0 ≤ diffSq a b := by
    rw [diffSq]
    refine List.sum_nonneg fun x hx => ?_
    obtain ⟨y, -, rfl⟩ := List.mem_map.1 hx
    refine List.sum_nonneg fun x hx => ?_
    obtain ⟨y, -, rfl⟩ := List.mem_map.1 hx
    exact sq_nonneg _
  rw [relChange, arrNorm_sub, arrNorm_eq, Flt.div]
  split_ifs with h1 h2
  · exact .inl ⟨rfl, (Real.sqrt_eq_zero hA).1 h1, (Real.sqrt_eq_zero hD).1 h2⟩
  · refine .inr (.inl ?_)
    have : ¬ Real.sqrt (diffSq a b) < 0 := not_lt.2 (Real.sqrt_nonneg _)
    simp [this]
  · refine .inr (.inr ⟨_, rfl, fun h => ?_⟩)
    have hp : 0 < Real.sqrt (arrSq a) := lt_of_le_of_ne (Real.sqrt_nonneg _) (Ne.symm h1)
    exact (div_le_iff₀ hp).1 h

/-- What leaving the inner loop means. -/
theorem not_gt_cases {tol : ℝ} {u u0 d d0 : List (List ℝ)}
    (h : (fmax (relChange u u0) (relChange d d0)).gt (.fin tol) = false) :
    (Settled tol u u0 ∧ Settled tol d d0) ∨ (arrSq u = 0 ∧ diffSq u u0 = 0) ∨ (arrSq d = 0 ∧ diffSq d d0 = 0) := by
  rcases relChange_cases tol u u0 with ⟨h1, h2⟩ | h1 | ⟨x, h1, h2⟩
  · exact .inr (.inl h2)
  · rcases relChange_cases tol d d0 with ⟨k1, k2⟩ | k1 | ⟨y, k1, k2⟩
    · exact .inr (.inr k2)
    · rw [h1, k1] at h; simp [fmax, Flt.isNaN, Flt.gt] at h
    · rw [h1, k1] at h; simp [fmax, Flt.isNaN, Flt.gt] at h
  · rcases relChange_cases tol d d0 with ⟨k1, k2⟩ | k1 | ⟨y, k1, k2⟩
    · exact .inr (.inr k2)
    · rw [h1, k1] at h; simp [fmax, Flt.isNaN, Flt.gt] at h
    · rw [h1, k1] at h
      refine .inl ?_
      simp only [fmax, Flt.isNaN, Flt.gt, Bool.or_self, Bool.false_eq_true, if_false] at h
      by_cases hxy : x < y
      · simp [hxy] at h
        exact ⟨h2 (hxy.le.trans h), k2 h⟩
      · simp [hxy] at h
        exact ⟨h2 h, k2 ((not_lt.1 hxy).trans h)⟩

/-- What one pass does. -/
theorem pass_spec {m : Material} {eigh : Eigh dim} {M : MeshData nq nfq nn dim} {sv : Solvers nq} {disp : ℝ}
    {s s' : State nq} {err : Flt ℝ} (h : pass m eigh M sv disp s = .ok (s', err)) :
    sv.u s.solD disp = .ok s'.solU ∧ s'.history = computeHistory m eigh M s'.solU s.historyOld ∧
    sv.d s'.history = .ok s'.solD ∧ s'.historyOld = s.historyOld ∧ s'.solUOld = s'.solU ∧ s'.solDOld = s'.solD ∧
    err = fmax (relChange s'.solU s.solUOld) (relChange s'.solD s.solDOld) := by
  simp only [pass, bind, Except.bind, pure, Except.pure] at h
  split at h
  · cases h
  · rename_i u hu
    split at h
    · cases h
    · rename_i d hd
      cases h
      exact ⟨hu, rfl, hd, rfl, rfl, rfl, rfl⟩

/-- State before the last pass of the inner loop. -/
theorem inner_spec {m : Material} {eigh : Eigh dim} {M : MeshData nq nfq nn dim} {sv : Solvers nq} {tol disp : ℝ}
    (fuel : Nat) (s s' : State nq) (err : Flt ℝ) (h : inner m eigh M sv tol disp fuel s err = some (.ok s'))
    (hs : s.solUOld = s.solU ∧ s.solDOld = s.solD) (hgt : err.gt (.fin tol) = true) :
    ∃ p : State nq, ∃ err', pass m eigh M sv disp p = .ok (s', err') ∧ err'.gt (.fin tol) = false ∧
      p.historyOld = s.historyOld ∧ p.solUOld = p.solU ∧ p.solDOld = p.solD := by
  induction fuel generalizing s err with
  | zero => simp [inner] at h
  | succ fuel ih =>
    rw [inner, if_pos hgt] at h
    split at h
    · cases h
    · rename_i s1 err1 hp
      obtain ⟨-, -, -, h4, h5, h6, -⟩ := pass_spec hp
      by_cases hg : err1.gt (.fin tol) = true
      · obtain ⟨p, e, q1, q2, q3, q4⟩ := ih s1 err1 h ⟨h5, h6⟩ hg
        exact ⟨p, e, q1, q2, q3.trans h4, q4⟩
      · cases fuel with
        | zero => simp [inner] at h
        | succ fuel =>
          rw [inner, if_neg hg] at h
          cases h
          exact ⟨s, err1, hp, by simpa using hg, rfl, hs⟩

theorem computeHistory_getD (m : Material) (eigh : Eigh dim) (M : MeshData nq nfq nn dim) (solU : List (List ℝ))
    (H : List (Fin nq → ℝ)) (hH : H.length = M.cells.length) (c : Nat) (hc : c < M.cells.length) (q : Fin nq) :
    (computeHistory m eigh M solU H).getD c 0 q
      = max (psiPlus m eigh (strainAt M.el M.points (fieldOf dim solU) M.cells[c] q)) (H.getD c 0 q) := by
  have hc' : c < H.length := hH ▸ hc
  have hl : c < (computeHistory m eigh M solU H).length := by
    simp [computeHistory, hc, hc']
  rw [List.getD_eq_getElem _ _ hl, List.getD_eq_getElem _ _ hc']
  have hz : (computeHistory m eigh M solU H)[c] = fun q =>
      max (psiPlusFn m eigh (solToGrad M.el dim M.points solU M.cells[c] q)) (H[c] q) := by
    simp only [computeHistory, List.getElem_zipWith]
  rw [hz]
  dsimp only [psiPlusFn]
  congr 2
  funext i j
  have e : ∀ i j, solToGrad M.el dim M.points solU M.cells[c] q i j
      = physGrad (coords nn M.points M.cells[c]) (Matrix.of (M.el.shapeGradsRef q))
        (restrict nn (fieldOf dim solU) M.cells[c]) i j := by
    intro i j
    rw [← physicalCoos_eq]
    exact (physGrad_eq _ _ (fun a c' => fieldOf dim solU (M.cells[c].getD a 0) c') i j).symm
  have e2 : ∀ i j, strainAt M.el M.points (fieldOf dim solU) M.cells[c] q i j
      = (solToGrad M.el dim M.points solU M.cells[c] q i j + solToGrad M.el dim M.points solU M.cells[c] q j i) / 2 := by
    intro i j
    rw [e, e]
    rfl
  rw [strain, e2]
  ring

theorem computeHistory_length (m : Material) (eigh : Eigh dim) (M : MeshData nq nfq nn dim) (solU : List (List ℝ))
    (H : List (Fin nq → ℝ)) (hH : H.length = M.cells.length) :
    (computeHistory m eigh M solU H).length = M.cells.length := by
  simp [computeHistory, hH]

/-- First load step and the rest. -/
theorem loads_cons {m : Material} {eigh : Eigh dim} {M : MeshData nq nfq nn dim} {sv : Solvers nq} {tol : ℝ}
    {fuel : Nat} {disp : ℝ} {rest : List ℝ} {s : State nq} {outs : List (State nq)}
    (h : loads m eigh M sv tol fuel (disp :: rest) s = some (.ok outs)) :
    ∃ s' outs', inner m eigh M sv tol disp fuel s (.fin 1) = some (.ok s') ∧
      loads m eigh M sv tol fuel rest { s' with historyOld := s'.history } = some (.ok outs') ∧
      outs = { s' with historyOld := s'.history } :: outs' := by
  rw [loads] at h
  split at h
  · cases h
  · cases h
  · rename_i s' hs'
    refine ⟨s', ?_⟩
    dsimp only at h
    split at h
    · cases h
    · cases h
    · rename_i outs' ho
      cases h
      exact ⟨outs', hs', ho, rfl⟩

/-! ### Property theorems -/

/-- **C87 (irreversibility).** Whatever the two solvers return, the history field saved after load step `k` is, at every
quadrature point, the largest tensile energy of the displacements accepted in the load steps up to `k` (and of the
initial history): displacements of passes that were not accepted leave no trace. In particular it never decreases. -/
theorem C87_history (m : Material) (eigh : Eigh dim) (M : MeshData nq nfq nn dim) (sv : Solvers nq) (tol : ℝ)
    (htol : tol < 1) (fuel : Nat) (disps : List ℝ) (s : State nq) (outs : List (State nq))
    (hlen : s.historyOld.length = M.cells.length) (hs : s.solUOld = s.solU ∧ s.solDOld = s.solD)
    (h : loads m eigh M sv tol fuel disps s = some (.ok outs)) :
    outs.length = disps.length ∧
    ∀ (k : Nat) (o : State nq), outs[k]? = some o → ∀ (c : Nat) (hc : c < M.cells.length) (q : Fin nq),
      IsGreatest ({s.historyOld.getD c 0 q} ∪ {x | ∃ j ≤ k, ∃ o', outs[j]? = some o' ∧
        x = psiPlus m eigh (strainAt M.el M.points (fieldOf dim o'.solU) M.cells[c] q)}) (o.history.getD c 0 q) := by
  induction disps generalizing s outs with
  | nil =>
    rw [loads] at h
    cases h
    exact ⟨rfl, fun k o hk => by simp at hk⟩
  | cons disp rest ih =>
    obtain ⟨s', outs', h1, h2, rfl⟩ := loads_cons h
    have hgt : Flt.gt (.fin 1) (.fin tol) = true := by simp [Flt.gt, htol]
    obtain ⟨p, err', p1, p2, p3, p4⟩ := inner_spec fuel s s' (.fin 1) h1 hs hgt
    obtain ⟨a1, a2, a3, a4, a5, a6, -⟩ := pass_spec p1
    rw [p3] at a2
    have hl' : s'.history.length = M.cells.length := by
      rw [a2]; exact computeHistory_length m eigh M s'.solU _ hlen
    obtain ⟨i1, i2⟩ := ih { s' with historyOld := s'.history } outs' hl' ⟨a5, a6⟩ h2
    refine ⟨by simp [i1], ?_⟩
    intro k o hk c hc q
    have hfirst : s'.history.getD c 0 q
        = max (psiPlus m eigh (strainAt M.el M.points (fieldOf dim s'.solU) M.cells[c] q)) (s.historyOld.getD c 0 q) := by
      have e := congrArg (fun l : List (Fin nq → ℝ) => (l.getD c 0) q) a2
      rw [e]
      exact computeHistory_getD m eigh M s'.solU s.historyOld hlen c hc q
    cases k with
    | zero =>
      simp only [List.getElem?_cons_zero, Option.some.injEq] at hk
      subst hk
      dsimp only
      rw [hfirst]
      constructor
      · rcases max_choice (psiPlus m eigh (strainAt M.el M.points (fieldOf dim s'.solU) M.cells[c] q))
          (s.historyOld.getD c 0 q) with hm | hm
        · rw [hm]
          exact .inr ⟨0, le_refl 0, _, rfl, rfl⟩
        · rw [hm]
          exact .inl rfl
      · rintro x (hx | ⟨j, hj, o', ho', rfl⟩)
        · rw [Set.mem_singleton_iff.1 hx]
          exact le_max_right _ _
        · obtain rfl : j = 0 := by omega
          simp only [List.getElem?_cons_zero, Option.some.injEq] at ho'
          subst ho'
          exact le_max_left _ _
    | succ k =>
      simp only [List.getElem?_cons_succ] at hk
      obtain ⟨g1, g2⟩ := i2 k o hk c hc q
      dsimp only at g1 g2
      have hge : s'.history.getD c 0 q ≤ o.history.getD c 0 q := g2 (.inl rfl)
      constructor
      · rcases g1 with g1 | ⟨j, hj, o', ho', e⟩
        · rw [Set.mem_singleton_iff.1 g1, hfirst]
          rcases max_choice (psiPlus m eigh (strainAt M.el M.points (fieldOf dim s'.solU) M.cells[c] q))
            (s.historyOld.getD c 0 q) with hm | hm
          · rw [hm]
            exact .inr ⟨0, Nat.zero_le _, _, rfl, rfl⟩
          · rw [hm]
            exact .inl rfl
        · rw [e]
          exact .inr ⟨j + 1, by omega, o', ho', rfl⟩
      · rintro x (hx | ⟨j, hj, o', ho', rfl⟩)
        · rw [Set.mem_singleton_iff.1 hx]
          refine le_trans ?_ hge
          rw [hfirst]
          exact le_max_right _ _
        · cases j with
          | zero =>
            simp only [List.getElem?_cons_zero, Option.some.injEq] at ho'
            subst ho'
            refine le_trans ?_ hge
            rw [hfirst]
            exact le_max_left _ _
          | succ j =>
            exact g2 (.inr ⟨j, by omega, o', ho', rfl⟩)

/-- **C87 (accepted states).** The state saved after load step `k` consists of results of the two solvers: the
displacement for the load of that step and a phase field `d₀`, the phase field for the saved history. It was accepted
because neither field changed by more than the tolerance in the last pass — or because one of them vanished in the
last two passes, when the test `nan > tol` fails whatever the other one did. -/
theorem C87_accept (m : Material) (eigh : Eigh dim) (M : MeshData nq nfq nn dim) (sv : Solvers nq) (tol : ℝ)
    (htol : tol < 1) (fuel : Nat) (disps : List ℝ) (s : State nq) (outs : List (State nq))
    (hs : s.solUOld = s.solU ∧ s.solDOld = s.solD) (h : loads m eigh M sv tol fuel disps s = some (.ok outs)) :
    ∀ (k : Nat) (o : State nq) (disp : ℝ), outs[k]? = some o → disps[k]? = some disp →
      ∃ u0 d0, sv.u d0 disp = .ok o.solU ∧ sv.d o.history = .ok o.solD ∧ o.historyOld = o.history ∧
        ((Settled tol o.solU u0 ∧ Settled tol o.solD d0) ∨ (arrSq o.solU = 0 ∧ diffSq o.solU u0 = 0) ∨
          (arrSq o.solD = 0 ∧ diffSq o.solD d0 = 0)) := by
  induction disps generalizing s outs with
  | nil =>
    intro k o disp _ hk
    simp at hk
  | cons disp0 rest ih =>
    obtain ⟨s', outs', h1, h2, rfl⟩ := loads_cons h
    have hgt : Flt.gt (.fin 1) (.fin tol) = true := by simp [Flt.gt, htol]
    obtain ⟨p, err', p1, p2, p3, p4, p5⟩ := inner_spec fuel s s' (.fin 1) h1 hs hgt
    obtain ⟨a1, a2, a3, a4, a5, a6, a7⟩ := pass_spec p1
    intro k o disp hk hd
    cases k with
    | zero =>
      simp only [List.getElem?_cons_zero, Option.some.injEq] at hk hd
      subst hk
      subst hd
      rw [a7] at p2
      rw [p4, p5] at p2
      exact ⟨p.solU, p.solD, a1, a3, rfl, not_gt_cases p2⟩
    | succ k =>
      simp only [List.getElem?_cons_succ] at hk hd
      exact ih { s' with historyOld := s'.history } outs' ⟨a5, a6⟩ h2 k o disp hk hd

end JaxFem.Fracture
