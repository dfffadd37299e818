import Verif.Model.SplitVars
import Verif.Spec.SplitVars
import Verif.Thm.CoupledFields
import Verif.Thm.C76_Stokes
import Verif.Thm.C14_Boundary

/-!
# C85: one vector variable and its components as two variables
-/

namespace JaxFem.SplitVars

/-! ### Helper lemmas -/

theorem physics_eq (E nu : ℝ) (g : Nat → Nat → Fin 3 → ℝ) (q c : Nat) (hc : c < 3) (j : Fin 3) :
    physics E nu g q c j = (E * nu / ((1 + nu) * (1 - 2 * nu)) * (∑ k : Fin 3, g q k k) *
      (if (⟨c, hc⟩ : Fin 3) = j then 1 else 0))
      + E / (1 + nu) * ((g q c j + g q j ⟨c, hc⟩) / 2) := by
  have h2 : 2 * Elastic.mu E nu = E / (1 + nu) := by
    rw [Elastic.mu, mul_div_assoc', mul_div_mul_left _ _ two_ne_zero]
  have h3 : ∀ k : Fin 3, (0.5 : ℝ) * (g q k k + g q k k) = g q k k := fun k => by norm_num; ring
  rw [physics, dif_pos hc, Elastic.stress]
  simp only [h2, h3, Elastic.lmbda]
  congr 2
  norm_num
  ring

/-- The stress of the specification as a function of the component number. -/
noncomputable def sig (E nu : ℝ) (v : CVar 3) (u : Nat → Nat → ℝ) (e q c : Nat) (j : Fin 3) : ℝ :=
  physics E nu (fun q c j => v.gradAt u e q c j) q c j

theorem work_eq (E nu : ℝ) (v : CVar 3) (u w : Nat → Nat → ℝ) :
    work E nu v u w = v.integral fun e q => ∑ c ∈ Finset.range 3, ∑ j,
      sig E nu v u e q c j * v.gradAt w e q c j := by
  refine v.integral_congr fun e _ q _ => ?_
  rw [Finset.sum_range]
  refine Finset.sum_congr rfl fun i _ => Finset.sum_congr rfl fun j _ => ?_
  rw [sig, physics_eq E nu _ q i i.2 j]

/-- Weak form of the first formulation. -/
theorem weak1 (E nu : ℝ) (v : CVar 3) (hw : WFVars [v]) (hv : v.vec = 3)
    (sols : List (List (List ℝ))) (hs : HasShapes (solShapes ([v].map CVar.fe)) sols) :
    ∃ R, residual1 E nu v sols = .ok R ∧ HasShapes (solShapes ([v].map CVar.fe)) R ∧
      ∀ w : Nat → Nat → Nat → ℝ, tested [v] R w = work E nu v (fieldAt sols 0) (w 0) := by
  obtain ⟨R, r1, r2, r3⟩ := coupled_weak_form [v] hw (by simp) (kernel1 E nu v)
    (List.replicate v.cells.length ()) (by simp) sols hs
    (fun _ e q c j => sig E nu v (fieldAt sols 0) e q c j) (fun _ _ _ _ => 0)
    (fun x d iv => ravelSol_length (hasShapes_one v _)) (by
    intro e he
    have hec : e < v.cells.length := by simpa using he
    have wfv := hw.wf v (by simp)
    have hu := coupled_local [v] hw sols hs e hec 0 (by simp)
    simp only [List.getElem_cons_zero] at hu
    refine ⟨_, hasShapes_one v _, rfl, fun i hi => ?_⟩
    obtain rfl : i = 0 := by simpa using hi
    intro (a : Fin v.nn) c (hc : c < v.vec)
    have hg : ∀ q, ((packedCell [v] v.nq (v.quadPoint e) e).shapeGrads q).take v.nn = v.shapeGrads e q := by
      intro q
      simp only [packedCell, List.flatMap_cons, List.flatMap_nil, List.append_nil]
      exact List.take_of_length_le (by simp [CVar.shapeGrads])
    have hvg : ∀ q, ((packedCell [v] v.nq (v.quadPoint e) e).vGradsJxW q).take v.nn = v.vGradsJxW e q := by
      intro q
      simp only [packedCell, List.flatMap_cons, List.flatMap_nil, List.append_nil]
      exact List.take_of_length_le (by simp [CVar.vGradsJxW, CVar.shapeGrads])
    have hG : ∀ q (c : Nat) (j : Fin 3), gradOp v.nn (gatherVar (sols.getD 0 []) (v.cells.getD e []))
        (fun q => ((packedCell [v] v.nq (v.quadPoint e) e).shapeGrads q).take v.nn) q c j
        = v.gradAt (fieldAt sols 0) e q c j := fun q c j =>
      gradOp_gather v wfv _ e hec _ q c (hg q) j
    have hcs : cellShapes [v.fe] = cellShapes ([v].map CVar.fe) := rfl
    change at2 (mk2 v.nn v.vec _) a c = _
    rw [at2_mk2 _ _ _ _ _ a.2 hc]
    simp only [List.getElem_cons_zero, hcs, hu]
    rw [fluxOp_eq v e _ _ _ hvg a c]
    change ∑ q ∈ Finset.range v.nq, _ = ∑ q ∈ Finset.range v.nq, _
    refine Finset.sum_congr rfl fun q _ => ?_
    have hG' : gradOp v.nn (gatherVar (sols.getD 0 []) (v.cells.getD e []))
        (fun q => ((packedCell [v] v.nq (v.quadPoint e) e).shapeGrads q).take v.nn)
        = fun q c j => v.gradAt (fieldAt sols 0) e q c j := by
      funext q c j; exact hG q c j
    rw [hG']
    simp [sig])
  refine ⟨R, r1, r2, fun w => ?_⟩
  rw [r3 w, work_eq]
  change ∑ i : Fin 1, _ = _
  rw [Fin.sum_univ_one]
  refine Finset.sum_congr rfl fun e _ => Finset.sum_congr rfl fun q _ => ?_
  change (∑ c ∈ Finset.range v.vec, _) * v.measure e q = _
  rw [hv]
  simp

theorem getD_map_rows (l : List (List ℝ)) (f : List ℝ → List ℝ) (hf : f [] = []) (a : Nat) :
    (l.map f).getD a [] = f (l.getD a []) := by
  by_cases ha : a < l.length
  · rw [List.getD_eq_getElem (l.map f) [] (by simpa using ha), List.getD_eq_getElem l [] ha, List.getElem_map]
  · rw [List.getD_eq_default (l.map f) [] (by simpa using ha), List.getD_eq_default l [] (by simpa using ha), hf]

theorem at2_take (l : List (List ℝ)) (a c : Nat) (hc : c < 1) :
    at2 (l.map fun r => r.take 1) a c = at2 l a c := by
  obtain rfl : c = 0 := by omega
  rw [at2, at2, getD_map_rows l _ rfl]
  cases l.getD a [] <;> simp

theorem at2_drop (l : List (List ℝ)) (a c : Nat) :
    at2 (l.map fun r => r.drop 1) a c = at2 l a (c + 1) := by
  rw [at2, at2, getD_map_rows l _ rfl]
  cases l.getD a [] <;> simp

theorem at2_concat (A B : List (List ℝ)) (hl : A.length = B.length) (hA : ∀ r ∈ A, r.length = 1) (a c : Nat) :
    at2 (List.zipWith (· ++ ·) A B) a c = if c = 0 then at2 A a 0 else at2 B a (c - 1) := by
  simp only [at2]
  by_cases ha : a < A.length
  · have hb : a < B.length := by omega
    rw [List.getD_eq_getElem (List.zipWith (· ++ ·) A B) [] (by simp; omega), List.getD_eq_getElem A [] ha,
      List.getD_eq_getElem B [] hb, List.getElem_zipWith]
    have h1 := hA _ (List.getElem_mem ha)
    obtain ⟨x, hx⟩ := List.length_eq_one_iff.1 h1
    rw [hx]
    cases c <;> simp
  · rw [List.getD_eq_default (List.zipWith (· ++ ·) A B) [] (by simp; omega), List.getD_eq_default A [] (by omega),
      List.getD_eq_default B [] (by omega)]
    simp

/-- Weak form of the second formulation. -/
theorem weak2 (E nu : ℝ) (v : CVar 3) (hw : WFVars [v])
    (sols : List (List (List ℝ)))
    (hs : HasShapes (solShapes ([{ v with vec := 1 }, { v with vec := 2 }].map CVar.fe)) sols) :
    ∃ R, residual2 E nu { v with vec := 1 } { v with vec := 2 } sols = .ok R ∧
      HasShapes (solShapes ([{ v with vec := 1 }, { v with vec := 2 }].map CVar.fe)) R ∧
      ∀ w : Nat → Nat → Nat → ℝ, tested [{ v with vec := 1 }, { v with vec := 2 }] R w
        = work E nu v (joined (fieldAt sols 0) (fieldAt sols 1)) (joined (w 0) (w 1)) := by
  set v1 : CVar 3 := { v with vec := 1 } with hv1
  set v2 : CVar 3 := { v with vec := 2 } with hv2
  have wfv := hw.wf v (by simp)
  have hw2 : WFVars [v1, v2] := by
    refine ⟨by simp, ?_, ?_, ?_, ?_⟩
    · intro x hx; simp only [List.mem_cons, List.not_mem_nil, or_false] at hx
      rcases hx with rfl | rfl <;> exact wfv
    · intro x hx y hy; simp only [List.mem_cons, List.not_mem_nil, or_false] at hx hy
      rcases hx with rfl | rfl <;> rcases hy with rfl | rfl <;> rfl
    · intro x hx y hy; simp only [List.mem_cons, List.not_mem_nil, or_false] at hx hy
      rcases hx with rfl | rfl <;> rcases hy with rfl | rfl <;> rfl
    · intro x hx; simp only [List.mem_cons, List.not_mem_nil, or_false] at hx
      have := hw.pos v (by simp)
      rcases hx with rfl | rfl <;> exact this
  set u := joined (fieldAt sols 0) (fieldAt sols 1) with hu
  have shp : ∀ f : Nat → Nat → ℝ, HasShapes (cellShapes ([v1, v2].map CVar.fe))
      [(mk2 v1.nn (v1.vec + v2.vec) f).map fun r => r.take 1,
        (mk2 v1.nn (v1.vec + v2.vec) f).map fun r => r.drop 1] := by
    intro f
    refine ⟨_, _, rfl, ?_, ?_, _, _, rfl, ?_, ?_, rfl⟩
    · rw [List.length_map, mk2_length]; rfl
    · intro r hr
      obtain ⟨r', h1, rfl⟩ := List.mem_map.1 hr
      rw [List.length_take, mk2_row _ _ _ r' h1]; rfl
    · rw [List.length_map, mk2_length]; rfl
    · intro r hr
      obtain ⟨r', h1, rfl⟩ := List.mem_map.1 hr
      rw [List.length_drop, mk2_row _ _ _ r' h1]; rfl
  obtain ⟨R, r1, r2, r3⟩ := coupled_weak_form [v1, v2] hw2 (by simp) (kernel2 E nu v1 v2)
    (List.replicate v1.cells.length ()) (by simp) sols hs
    (fun i e q c j => sig E nu v u e q (i + c) j) (fun _ _ _ _ => 0)
    (fun x d iv => ravelSol_length (shp _)) (by
    intro e he
    have hec : e < v.cells.length := by simpa using he
    have l1 := coupled_local [v1, v2] hw2 sols hs e hec 0 (by simp)
    have l2 := coupled_local [v1, v2] hw2 sols hs e hec 1 (by simp)
    simp only [List.getElem_cons_zero, List.getElem_cons_succ] at l1 l2
    refine ⟨_, shp _, rfl, fun i hi => ?_⟩
    have hvg : ∀ q, sliceVar (numNodesCumsum [v1, v2]) 0
        ((packedCell [v1, v2] v1.nq (v1.quadPoint e) e).vGradsJxW q) = v1.vGradsJxW e q := fun q =>
      packedCell_vgrads [v1, v2] _ _ e q 0 (by simp)
    have hg : ∀ q, sliceVar (numNodesCumsum [v1, v2]) 0
        ((packedCell [v1, v2] v1.nq (v1.quadPoint e) e).shapeGrads q) = v1.shapeGrads e q := fun q =>
      packedCell_grads [v1, v2] _ _ e q 0 (by simp)
    have hcl : (v.cells.getD e []).length = v.nn := by
      rw [List.getD_eq_getElem _ _ hec]; exact (wfv _ (List.getElem_mem hec)).1
    have hnode : ∀ n ∈ v.cells.getD e [], n < v.numTotalNodes := by
      rw [List.getD_eq_getElem _ _ hec]; exact (wfv _ (List.getElem_mem hec)).2
    obtain ⟨A, t, rfl, hA1, hA2, B, t', rfl, hB1, hB2, rfl⟩ := hs
    have hA1 : A.length = v.numTotalNodes := hA1
    have hA2 : ∀ r ∈ A, r.length = 1 := hA2
    have hrow : ∀ r ∈ gatherVar A (v.cells.getD e []), r.length = 1 := by
      intro r hr
      obtain ⟨n, hn, rfl⟩ := List.mem_map.1 hr
      have hn' : n < A.length := by rw [hA1]; exact hnode n hn
      rw [List.getD_eq_getElem _ _ hn']
      exact hA2 _ (List.getElem_mem hn')
    have hG : (fun q c j => gradOp v1.nn (List.zipWith (· ++ ·) (gatherVar A (v.cells.getD e []))
          (gatherVar B (v.cells.getD e [])))
        (fun q => sliceVar (numNodesCumsum [v1, v2]) 0
          ((packedCell [v1, v2] v1.nq (v1.quadPoint e) e).shapeGrads q)) q c j)
        = fun q c (j : Fin 3) => v.gradAt u e q c j := by
      funext q c j
      rw [gradOp, v.gradAt_eq, Finset.sum_range]
      refine Finset.sum_congr rfl fun a _ => ?_
      rw [at2_concat _ _ (by simp [gatherVar]) hrow, hg, v1.shapeGrads_getD]
      congr 1
      rw [hu, joined]
      split
      · exact gather_at2 v wfv A e hec a a.2 0
      · exact gather_at2 v wfv B e hec a a.2 (c - 1)
    have hcs : cellShapes [v1.fe, v2.fe] = cellShapes ([v1, v2].map CVar.fe) := rfl
    have l1' : (unravelSol (cellShapes ([v1, v2].map CVar.fe)) (cellSolFlat ([v1, v2].map CVar.fe) [A, B] e)).getD 0 []
      = gatherVar A (v.cells.getD e []) := l1
    have l2' : (unravelSol (cellShapes ([v1, v2].map CVar.fe)) (cellSolFlat ([v1, v2].map CVar.fe) [A, B] e)).getD 1 []
      = gatherVar B (v.cells.getD e []) := l2
    have key : ∀ (a : Fin v.nn) (c : Nat), c < 3 →
        at2 (mk2 v1.nn (v1.vec + v2.vec) (fluxOp (packedCell [v1, v2] v1.nq (v1.quadPoint e) e).numQuads
          (physics E nu (gradOp v1.nn (List.zipWith (· ++ ·) (gatherVar A (v.cells.getD e []))
            (gatherVar B (v.cells.getD e []))) (fun q => sliceVar (numNodesCumsum [v1, v2]) 0
          ((packedCell [v1, v2] v1.nq (v1.quadPoint e) e).shapeGrads q))))
          (fun q => sliceVar (numNodesCumsum [v1, v2]) 0
            ((packedCell [v1, v2] v1.nq (v1.quadPoint e) e).vGradsJxW q)))) a c
        = ∑ q ∈ Finset.range v.nq, ((∑ j, sig E nu v u e q c j *
          shapeGradsPhysical (v.coos e) (v.gref q) a j) + 0) * v.measure e q := by
      intro a c hc
      rw [at2_mk2 v1.nn (v1.vec + v2.vec) _ _ _ (show (a : Nat) < v1.nn from a.2)
        (show c < v1.vec + v2.vec from hc), fluxOp_eq v1 e _ _ _ hvg a c]
      change ∑ q ∈ Finset.range v.nq, _ = _
      refine Finset.sum_congr rfl fun q _ => ?_
      have hG' : gradOp v1.nn (List.zipWith (· ++ ·) (gatherVar A (v.cells.getD e []))
          (gatherVar B (v.cells.getD e [])))
        (fun q => sliceVar (numNodesCumsum [v1, v2]) 0
          ((packedCell [v1, v2] v1.nq (v1.quadPoint e) e).shapeGrads q))
        = fun q c (j : Fin 3) => v.gradAt u e q c j := hG
      rw [hG', add_zero]
      rfl
    match i, hi with
    | 0, _ =>
      intro (a : Fin v.nn) c (hc : c < 1)
      change at2 (List.map (fun r => r.take 1) (mk2 _ _ _)) a c = _
      rw [at2_take _ _ _ hc]
      simp only [List.getElem_cons_zero, hcs, l1', l2']
      rw [key a c (by omega)]
      simp only [zero_mul, Nat.zero_add]
      rfl
    | 1, _ =>
      intro (a : Fin v.nn) c (hc : c < 2)
      change at2 (List.map (fun r => r.drop 1) (mk2 _ _ _)) a c = _
      rw [at2_drop]
      simp only [List.getElem_cons_zero, hcs, l1', l2']
      rw [key a (c + 1) (by omega)]
      simp only [zero_mul, Nat.add_comm 1 c]
      rfl)
  refine ⟨R, r1, r2, fun w => ?_⟩
  rw [r3 w, work_eq]
  change ∑ i : Fin 2, _ = _
  rw [Fin.sum_univ_two, CVar.integral, ← Finset.sum_add_distrib]
  refine Finset.sum_congr rfl fun e _ => ?_
  rw [← Finset.sum_add_distrib]
  refine Finset.sum_congr rfl fun q _ => ?_
  change (∑ c ∈ Finset.range 1, _) * v.measure e q + (∑ c ∈ Finset.range 2, _) * v.measure e q = _
  rw [← add_mul]
  congr 1
  have g0 : v.gradAt (joined (w 0) (w 1)) e q 0 = v1.gradAt (w 0) e q 0 := rfl
  have g1 : v.gradAt (joined (w 0) (w 1)) e q 1 = v2.gradAt (w 1) e q 0 := rfl
  have g2 : v.gradAt (joined (w 0) (w 1)) e q 2 = v2.gradAt (w 1) e q 1 := rfl
  simp only [Finset.sum_range_succ, Finset.sum_range_zero, zero_add, zero_mul, add_zero, g0, g1, g2]
  change (∑ j, sig E nu v u e q (0 + 0) j * v1.gradAt (w 0) e q 0 j) +
    ((∑ j, sig E nu v u e q (1 + 0) j * v2.gradAt (w 1) e q 0 j) +
      ∑ j, sig E nu v u e q (1 + 1) j * v2.gradAt (w 1) e q 1 j) = _
  simp only [Nat.add_zero, Nat.reduceAdd]
  ring

/-- An entry of a residual is the residual tested with an indicator field. -/
theorem tested_single (vars : List (CVar 3)) (R : List (List (List ℝ))) (i : Nat) (hi : i < vars.length) (n : Nat)
    (hn : n < vars[i].numTotalNodes) (c : Nat) (hc : c < vars[i].vec) :
    tested vars R (fun i' n' c' => if i' = i ∧ n' = n ∧ c' = c then 1 else 0) = at3 R i n c := by
  rw [tested, Finset.sum_eq_single ⟨i, hi⟩, Finset.sum_eq_single n, Finset.sum_eq_single c]
  · simp
  · intro c' _ h'
    simp [h']
  · intro h'
    exact absurd (Finset.mem_range.2 hc) h'
  · intro n' _ h'
    exact Finset.sum_eq_zero fun c' _ => by simp [h']
  · intro h'
    exact absurd (Finset.mem_range.2 hn) h'
  · intro i' _ h'
    have : (i' : Nat) ≠ i := fun e => h' (Fin.ext e)
    exact Finset.sum_eq_zero fun n' _ => Finset.sum_eq_zero fun c' _ => by simp [this]
  · intro h'
    exact absurd (Finset.mem_univ _) h'

theorem freeDof_cons (e : BCEntry ℝ) (es : List (BCEntry ℝ)) (n c : Nat) :
    FreeDof (e :: es) n c ↔ (∀ x, ¬ e.Prescribes n c x) ∧ FreeDof es n c := by
  simp [FreeDof]

theorem last_cons (e : BCEntry ℝ) (es : List (BCEntry ℝ)) (n c : Nat) (x : ℝ) :
    LastPrescribes (e :: es) n c x ↔ LastPrescribes es n c x ∨ (FreeDof es n c ∧ e.Prescribes n c x) := by
  constructor
  · rintro ⟨bef, a, aft, h, h1, h2⟩
    cases bef with
    | nil =>
      simp only [List.nil_append, List.cons.injEq] at h
      obtain ⟨rfl, rfl⟩ := h
      exact Or.inr ⟨h2, h1⟩
    | cons b bef =>
      simp only [List.cons_append, List.cons.injEq] at h
      exact Or.inl ⟨bef, a, aft, h.2, h1, h2⟩
  · rintro (⟨bef, a, aft, h, h1, h2⟩ | ⟨h1, h2⟩)
    · exact ⟨e :: bef, a, aft, by rw [h]; rfl, h1, h2⟩
    · exact ⟨[], e, es, rfl, h2, h1⟩

theorem split_first (e : BCEntry ℝ) (es es1 es2 : List (BCEntry ℝ)) (h : SplitBC es es1 es2)
    (he : ∀ n c x, ¬ e.Prescribes n (c + 1) x) : SplitBC (e :: es) (e :: es1) es2 := by
  refine ⟨fun n => ⟨?_, fun x => ?_⟩, fun n c => ⟨?_, fun x => ?_⟩⟩
  · rw [freeDof_cons, freeDof_cons, (h.1 n).1]
  · rw [last_cons, last_cons, (h.1 n).1, (h.1 n).2]
  · rw [freeDof_cons, (h.2 n c).1]
    exact and_iff_right (he n c)
  · rw [last_cons, (h.2 n c).2]
    simp [he n c x]

theorem split_second (e e' : BCEntry ℝ) (es es1 es2 : List (BCEntry ℝ)) (h : SplitBC es es1 es2)
    (he : ∀ n x, ¬ e.Prescribes n 0 x) (hs : ∀ n c x, e.Prescribes n (c + 1) x ↔ e'.Prescribes n c x) :
    SplitBC (e :: es) es1 (e' :: es2) := by
  refine ⟨fun n => ⟨?_, fun x => ?_⟩, fun n c => ⟨?_, fun x => ?_⟩⟩
  · rw [freeDof_cons, (h.1 n).1]
    exact and_iff_right (he n)
  · rw [last_cons, (h.1 n).2]
    simp [he n x]
  · rw [freeDof_cons, freeDof_cons, (h.2 n c).1]
    simp only [hs]
  · rw [last_cons, last_cons, (h.2 n c).1, (h.2 n c).2, hs]

theorem bc_lists {P : Type} (points : List P) (ts : List (LocFn P × Nat × (P → ℝ))) :
    dirichletBC points (some (lists ts))
      = dirichletLoop points (ts.map fun t => t.1) (ts.map fun t => t.2.1) (ts.map fun t => t.2.2) := by
  simp [dirichletBC, lists]

/-- The entry of one condition. -/
def entryOf {P : Type} (points : List P) (f : P → Nat → Bool) (vec : Nat) (val : P → ℝ) : BCEntry ℝ :=
  ⟨argwhere (points.mapIdx fun i p => f p i), (argwhere (points.mapIdx fun i p => f p i)).map fun _ => 1 * vec,
    ((argwhere (points.mapIdx fun i p => f p i)).filterMap fun n => points[n]?).map val⟩

theorem loop_cons {P : Type} (points : List P) (t : LocFn P × Nat × (P → ℝ)) (ts : List (LocFn P × Nat × (P → ℝ)))
    (f : P → Nat → Bool) (hf : t.1.resolve = .ok f) (b : List (List Nat) × List (List Nat) × List (List ℝ))
    (h : dirichletBC points (some (lists ts)) = .ok b) :
    ∃ b', dirichletBC points (some (lists (t :: ts))) = .ok b' ∧
      entries b' = entryOf points f t.2.1 t.2.2 :: entries b := by
  rw [bc_lists] at h
  refine ⟨((entryOf points f t.2.1 t.2.2).nodes :: b.1, (entryOf points f t.2.1 t.2.2).comps :: b.2.1,
    (entryOf points f t.2.1 t.2.2).vals :: b.2.2), ?_, rfl⟩
  rw [bc_lists]
  simp only [List.map_cons, dirichletLoop, dirichletEntry, hf, h, bind, Except.bind, pure, Except.pure]
  rfl

theorem entryOf_comp {P : Type} (points : List P) (f : P → Nat → Bool) (vec : Nat) (val : P → ℝ) (n c : Nat) (x : ℝ)
    (h : (entryOf points f vec val).Prescribes n c x) : c = vec := by
  obtain ⟨k, -, h2, -⟩ := h
  simp only [entryOf, List.getElem?_map, Option.map_eq_some_iff, one_mul] at h2
  obtain ⟨_, -, h⟩ := h2
  exact h.symm

theorem entryOf_shift {P : Type} (points : List P) (f : P → Nat → Bool) (vec : Nat) (val : P → ℝ) (hv : vec ≠ 0)
    (n c : Nat) (x : ℝ) : (entryOf points f vec val).Prescribes n (c + 1) x ↔
      (entryOf points f (vec - 1) val).Prescribes n c x := by
  refine exists_congr fun k => and_congr Iff.rfl (and_congr ?_ Iff.rfl)
  simp only [entryOf, List.getElem?_map, Option.map_eq_some_iff, one_mul]
  refine exists_congr fun _ => and_congr Iff.rfl ?_
  omega

theorem loop_split {P : Type} (points : List P) (ts : List (LocFn P × Nat × (P → ℝ)))
    (hs : ∀ t ∈ ts, t.1.supported) :
    ∃ b b1 b2, dirichletBC points (some (lists ts)) = .ok b ∧
      dirichletBC points (some (lists (ts.filter fun t => t.2.1 = 0))) = .ok b1 ∧
      dirichletBC points (some (lists ((ts.filter fun t => t.2.1 ≠ 0).map fun t => (t.1, t.2.1 - 1, t.2.2)))) = .ok b2 ∧
      SplitBC (entries b) (entries b1) (entries b2) := by
  induction ts with
  | nil =>
    refine ⟨([], [], []), ([], [], []), ([], [], []), rfl, rfl, rfl, ?_⟩
    have : ∀ n c x, ¬ LastPrescribes (K := ℝ) [] n c x := by
      rintro n c x ⟨bef, a, aft, h, -, -⟩
      simp at h
    refine ⟨fun n => ⟨by simp [entries], fun x => by simp [entries, this]⟩,
      fun n c => ⟨by simp [entries, FreeDof], fun x => by simp [entries, this]⟩⟩
  | cons t ts ih =>
    obtain ⟨b, b1, b2, h, h1, h2, h3⟩ := ih fun t ht => hs t (List.mem_cons_of_mem _ ht)
    obtain ⟨f, hf⟩ : ∃ f, t.1.resolve = .ok f := by
      rcases resolve_cases t.1 with h | h
      · exact h.2
      · exact absurd (hs t (by simp)) h.1
    obtain ⟨b', c1, c2⟩ := loop_cons points t ts f hf b h
    by_cases hv : t.2.1 = 0
    · obtain ⟨b1', d1, d2⟩ := loop_cons points t _ f hf b1 h1
      refine ⟨b', b1', b2, c1, ?_, ?_, ?_⟩
      · rwa [List.filter_cons_of_pos (by simpa using hv)]
      · rwa [List.filter_cons_of_neg (by simpa using hv)]
      · rw [c2, d2]
        exact split_first _ _ _ _ h3 fun n c x hp => by
          have := entryOf_comp _ _ _ _ _ _ _ hp
          omega
    · obtain ⟨b2', d1, d2⟩ := loop_cons points (t.1, t.2.1 - 1, t.2.2) _ f hf b2 h2
      refine ⟨b', b1, b2', c1, ?_, ?_, ?_⟩
      · rwa [List.filter_cons_of_neg (by simpa using hv)]
      · rwa [List.filter_cons_of_pos (by simpa using hv)]
      · rw [c2, d2]
        exact split_second _ _ _ _ _ h3 (fun n x hp => hv (entryOf_comp _ _ _ _ _ _ _ hp).symm)
          fun n c x => entryOf_shift _ _ _ _ hv n c x

/-! ### Property theorems -/

/-- **C85 (weak form).** Both formulations assemble the work of the stress of the three-component field: the
residual tested with `w` is `∫ σ(∇u) : ∇w`. -/
theorem C85_weak_form (E nu : ℝ) (v : CVar 3) (hw : WFVars [v]) (hv : v.vec = 3) :
    (∀ sols, HasShapes (solShapes ([v].map CVar.fe)) sols →
      ∃ R, residual1 E nu v sols = .ok R ∧ HasShapes (solShapes ([v].map CVar.fe)) R ∧
        ∀ w : Nat → Nat → Nat → ℝ, tested [v] R w = work E nu v (fieldAt sols 0) (w 0)) ∧
    ∀ sols, HasShapes (solShapes ([{ v with vec := 1 }, { v with vec := 2 }].map CVar.fe)) sols →
      ∃ R, residual2 E nu { v with vec := 1 } { v with vec := 2 } sols = .ok R ∧
        HasShapes (solShapes ([{ v with vec := 1 }, { v with vec := 2 }].map CVar.fe)) R ∧
        ∀ w : Nat → Nat → Nat → ℝ, tested [{ v with vec := 1 }, { v with vec := 2 }] R w
          = work E nu v (joined (fieldAt sols 0) (fieldAt sols 1)) (joined (w 0) (w 1)) :=
  ⟨fun sols hs => weak1 E nu v hw hv sols hs, fun sols hs => weak2 E nu v hw sols hs⟩

/-- **C85 (residual).** For two nodal arrays `A` (one column) and `B` (two columns) the residual of the
one-variable formulation at `np.concatenate((A, B), axis=1)` has, entry by entry, the two residuals of the
two-variable formulation side by side. -/
theorem C85_residual (E nu : ℝ) (v : CVar 3) (hw : WFVars [v]) (hv : v.vec = 3) (A B : List (List ℝ))
    (hs : HasShapes (solShapes ([{ v with vec := 1 }, { v with vec := 2 }].map CVar.fe)) [A, B]) :
    ∃ R1 R2, residual1 E nu v [List.zipWith (· ++ ·) A B] = .ok R1 ∧
      residual2 E nu { v with vec := 1 } { v with vec := 2 } [A, B] = .ok R2 ∧
      HasShapes (solShapes ([v].map CVar.fe)) R1 ∧
      HasShapes (solShapes ([{ v with vec := 1 }, { v with vec := 2 }].map CVar.fe)) R2 ∧
      ∀ n < v.numTotalNodes, at3 R2 0 n 0 = at3 R1 0 n 0 ∧ ∀ c < 2, at3 R2 1 n c = at3 R1 0 n (c + 1) := by
  have hs' := hs
  obtain ⟨A', t, hA, hA1, hA2, B', t', rfl, hB1, hB2, rfl⟩ := hs'
  simp only [List.cons.injEq, and_true] at hA
  obtain ⟨rfl, rfl⟩ := hA
  have hA1 : A.length = v.numTotalNodes := hA1
  have hA2 : ∀ r ∈ A, r.length = 1 := hA2
  have hB1 : B.length = v.numTotalNodes := hB1
  have hB2 : ∀ r ∈ B, r.length = 2 := hB2
  obtain ⟨R1, a1, a2, a3⟩ := (C85_weak_form E nu v hw hv).1 [List.zipWith (· ++ ·) A B] (by
    refine ⟨_, _, rfl, ?_, ?_, rfl⟩
    · rw [List.length_zipWith, hA1, hB1, Nat.min_self]; rfl
    · intro r hr
      obtain ⟨i, hi, rfl⟩ := List.mem_iff_getElem.1 hr
      rw [List.length_zipWith] at hi
      rw [List.getElem_zipWith, List.length_append, hA2 _ (List.getElem_mem (by omega)),
        hB2 _ (List.getElem_mem (by omega))]
      exact hv.symm)
  obtain ⟨R2, b1, b2, b3⟩ := (C85_weak_form E nu v hw hv).2 [A, B] hs
  have hu : fieldAt [List.zipWith (· ++ ·) A B] 0 = joined (fieldAt [A, B] 0) (fieldAt [A, B] 1) := by
    funext n c
    change at2 (List.zipWith (· ++ ·) A B) n c = _
    rw [at2_concat A B (by omega) hA2]
    rfl
  refine ⟨R1, R2, a1, b1, a2, b2, fun n hn => ⟨?_, fun c hc => ?_⟩⟩
  · rw [← tested_single [v] R1 0 (by simp) n hn 0 (by simp [hv]), a3,
      ← tested_single [{ v with vec := 1 }, { v with vec := 2 }] R2 0 (by simp) n hn 0 (by simp), b3, hu]
    congr 1
    funext n' c'
    cases c' <;> simp [joined]
  · rw [← tested_single [v] R1 0 (by simp) n hn (c + 1) (by simp [hv]; omega), a3,
      ← tested_single [{ v with vec := 1 }, { v with vec := 2 }] R2 1 (by simp) n hn c (by simpa using hc), b3, hu]
    congr 1
    funext n' c'
    cases c' <;> simp [joined]

/-- **C85 (conditions).** Splitting a list of Dirichlet conditions into those on component 0 and, with the component
lowered by one, the others, splits what is prescribed at every node, later entries overriding earlier ones as before. -/
theorem C85_dirichlet {P : Type} (points : List P) (ts : List (LocFn P × Nat × (P → ℝ)))
    (hs : ∀ t ∈ ts, t.1.supported) :
    ∃ b b1 b2, dirichletBC points (some (lists ts)) = .ok b ∧
      dirichletBC points (some (lists (ts.filter fun t => t.2.1 = 0))) = .ok b1 ∧
      dirichletBC points (some (lists ((ts.filter fun t => t.2.1 ≠ 0).map fun t => (t.1, t.2.1 - 1, t.2.2)))) = .ok b2 ∧
      SplitBC (entries b) (entries b1) (entries b2) :=
  loop_split points ts hs

/-- **C85 (scripts).** The lists `dirichlet_bc_info1`, `dirichlet_bc_info2` of `example_2vars.py` are the split of
`dirichlet_bc_info` of `example_1var.py`, on every mesh. -/
theorem C85_scripts (points : List (Fin 3 → ℝ)) :
    ∃ b b1 b2, dirichletBC points (some info) = .ok b ∧
      dirichletBC points (some info1) = .ok b1 ∧ dirichletBC points (some info2) = .ok b2 ∧
      SplitBC (entries b) (entries b1) (entries b2) :=
  C85_dirichlet points [(left, 0, zeroVal), (left, 1, zeroVal), (left, 2, zeroVal), (right, 0, dirichletVal),
    (right, 1, zeroVal), (right, 2, zeroVal)] (by simp [left, right, LocFn.supported])

/-- **C85 (solutions).** With split conditions, `A` and `B` solve the two-variable problem exactly when their
concatenation solves the one-variable problem. -/
theorem C85_solutions (E nu : ℝ) (v : CVar 3) (hw : WFVars [v]) (hv : v.vec = 3) (A B : List (List ℝ))
    (hs : HasShapes (solShapes ([{ v with vec := 1 }, { v with vec := 2 }].map CVar.fe)) [A, B])
    (es es1 es2 : List (BCEntry ℝ)) (hb : SplitBC es es1 es2) :
    ∃ R1 R2, residual1 E nu v [List.zipWith (· ++ ·) A B] = .ok R1 ∧
      residual2 E nu { v with vec := 1 } { v with vec := 2 } [A, B] = .ok R2 ∧
      (Solves [v] [es] [List.zipWith (· ++ ·) A B] R1 ↔
        Solves [{ v with vec := 1 }, { v with vec := 2 }] [es1, es2] [A, B] R2) := by
  obtain ⟨R1, R2, h1, h2, -, -, h3⟩ := C85_residual E nu v hw hv A B hs
  refine ⟨R1, R2, h1, h2, ?_⟩
  obtain ⟨A', t, hA, hA1, hA2, B', t', rfl, hB1, hB2, rfl⟩ := hs
  simp only [List.cons.injEq, and_true] at hA
  obtain ⟨rfl, rfl⟩ := hA
  have hA1 : A.length = v.numTotalNodes := hA1
  have hA2 : ∀ r ∈ A, r.length = 1 := hA2
  have hB1 : B.length = v.numTotalNodes := hB1
  have hu : ∀ n c, at3 [List.zipWith (· ++ ·) A B] 0 n c = if c = 0 then at2 A n 0 else at2 B n (c - 1) := fun n c =>
    at2_concat A B (by omega) hA2 n c
  constructor
  · intro h i hi n hn c hc
    match i, hi, hn, hc with
    | 0, _, hn, hc =>
      obtain rfl : c = 0 := by
        have hc : c < 1 := hc
        omega
      obtain ⟨k1, k2⟩ := h 0 (by simp) n hn 0 (by simp [hv])
      refine ⟨fun hf => ?_, fun x hx => ?_⟩
      · rw [(h3 n hn).1]
        exact k1 (((hb.1 n).1).2 hf)
      · rw [← k2 x (((hb.1 n).2 x).2 hx), hu]
        rfl
    | 1, _, hn, hc =>
      have hc : c < 2 := hc
      obtain ⟨k1, k2⟩ := h 0 (by simp) n hn (c + 1) (by simp [hv]; omega)
      refine ⟨fun hf => ?_, fun x hx => ?_⟩
      · rw [(h3 n hn).2 c hc]
        exact k1 (((hb.2 n c).1).2 hf)
      · rw [← k2 x (((hb.2 n c).2 x).2 hx), hu]
        rfl
  · intro h i hi n hn c hc
    obtain rfl : i = 0 := by simpa using hi
    have hn : n < v.numTotalNodes := hn
    have hc : c < v.vec := hc
    rw [hv] at hc
    match c, hc with
    | 0, _ =>
      obtain ⟨k1, k2⟩ := h 0 (by simp) n hn 0 (by simp)
      refine ⟨fun hf => ?_, fun x hx => ?_⟩
      · rw [← (h3 n hn).1]
        exact k1 (((hb.1 n).1).1 hf)
      · rw [← k2 x (((hb.1 n).2 x).1 hx), hu]
        rfl
    | c + 1, hc =>
      obtain ⟨k1, k2⟩ := h 1 (by simp) n hn c (by simp; omega)
      refine ⟨fun hf => ?_, fun x hx => ?_⟩
      · rw [← (h3 n hn).2 c (by omega)]
        exact k1 (((hb.2 n c).1).1 hf)
      · rw [← k2 x (((hb.2 n c).2 x).1 hx), hu]
        rfl

/-! ### A concrete case -/

/-- A linear tetrahedron with one quadrature point. -/
noncomputable def tetVar (vec : Nat) : CVar 3 :=
  { numTotalNodes := 4, vec := vec, nn := 4, nq := 1, nfq := 0,
    points := [![0, 0, 0], ![1, 0, 0], ![0, 1, 0], ![0, 0, 1]], cells := [[0, 1, 2, 3]],
    shapeVals := fun _ _ => 1 / 4,
    shapeGradsRef := fun _ a => ([![-1, -1, -1], ![1, 0, 0], ![0, 1, 0], ![0, 0, 1]] : List (Fin 3 → ℝ)).getD a 0,
    quadWeights := fun _ => 1 / 6,
    faceShapeVals := fun _ _ _ => 0, faceShapeGradsRef := fun _ _ _ _ => 0,
    faceQuadWeights := fun _ _ => 0, faceNormals := fun _ _ => 0 }

theorem tetVar_vars (k : Nat) : WFVars [tetVar k] := by
  refine ⟨by simp, ?_, ?_, ?_, ?_⟩
  · intro v hv
    obtain rfl : v = tetVar k := by simpa using hv
    intro cell hc
    simp only [tetVar, List.mem_cons, List.not_mem_nil, or_false] at hc
    subst hc
    exact ⟨rfl, by simp [tetVar]⟩
  all_goals
    intro v hv
    obtain rfl : v = tetVar k := by simpa using hv
  · intro w hw
    obtain rfl : w = tetVar k := by simpa using hw
    rfl
  · intro w hw
    obtain rfl : w = tetVar k := by simpa using hw
    rfl
  · simp [tetVar]

theorem tetVar_jac (k : Nat) : ((tetVar k).X 0).transpose * (tetVar k).G 0 = 1 := by
  ext i j
  rw [Matrix.mul_apply]
  change ∑ a : Fin 4, (tetVar k).X 0 a i * (tetVar k).G 0 a j = _
  rw [Fin.sum_univ_four]
  change (![0, 0, 0] : Fin 3 → ℝ) i * (![-1, -1, -1] : Fin 3 → ℝ) j
    + (![1, 0, 0] : Fin 3 → ℝ) i * (![1, 0, 0] : Fin 3 → ℝ) j
    + (![0, 1, 0] : Fin 3 → ℝ) i * (![0, 1, 0] : Fin 3 → ℝ) j
    + (![0, 0, 1] : Fin 3 → ℝ) i * (![0, 0, 1] : Fin 3 → ℝ) j = _
  fin_cases i <;> fin_cases j <;> simp

theorem tetVar_measure (k : Nat) : (tetVar k).measure 0 0 = 1 / 6 := by
  rw [CVar.measure, tetVar_jac, Matrix.det_one, one_mul]
  rfl

theorem tetVar_grad (k : Nat) (u : Nat → Nat → ℝ) (c : Nat) :
    (tetVar k).gradAt u 0 0 c = ![u 1 c - u 0 c, u 2 c - u 0 c, u 3 c - u 0 c] := by
  rw [CVar.gradAt, tetVar_jac, inv_one, Matrix.mul_one]
  funext j
  rw [Matrix.vecMul, dotProduct]
  change ∑ a : Fin 4, u ((tetVar k).node 0 a) c * (tetVar k).G 0 a j = _
  rw [Fin.sum_univ_four]
  change u 0 c * (![-1, -1, -1] : Fin 3 → ℝ) j + u 1 c * (![1, 0, 0] : Fin 3 → ℝ) j
    + u 2 c * (![0, 1, 0] : Fin 3 → ℝ) j + u 3 c * (![0, 0, 1] : Fin 3 → ℝ) j = _
  fin_cases j <;> simp <;> ring

/-- The hypotheses hold for a tetrahedron stretched by one tenth along the first axis; with `λ = 1`, `μ = 1` the
force at the pulled node is `3 · 0.1 / 6 = 1/20`, in both formulations. -/
example : ∃ R1 R2, residual1 (5 / 2) (1 / 4) (tetVar 3) [[[0, 0, 0], [1 / 10, 0, 0], [0, 0, 0], [0, 0, 0]]] = .ok R1 ∧
    residual2 (5 / 2) (1 / 4) (tetVar 1) (tetVar 2) [[[0], [1 / 10], [0], [0]], [[0, 0], [0, 0], [0, 0], [0, 0]]]
      = .ok R2 ∧ at3 R2 0 1 0 = 1 / 20 ∧ at3 R1 0 1 0 = 1 / 20 := by
  have hs : HasShapes (solShapes ([{ tetVar 3 with vec := 1 }, { tetVar 3 with vec := 2 }].map CVar.fe))
      [[[0], [1 / 10], [0], [0]], [[0, 0], [0, 0], [0, 0], [(0 : ℝ), 0]]] := by
    simp [HasShapes, solShapes, tetVar, CVar.fe]
  obtain ⟨R1, R2, h1, h2, -, -, h3⟩ := C85_residual (5 / 2) (1 / 4) (tetVar 3) (tetVar_vars 3) rfl _ _ hs
  obtain ⟨R2', k1, -, k3⟩ := (C85_weak_form (5 / 2) (1 / 4) (tetVar 3) (tetVar_vars 3) rfl).2 _ hs
  rw [h2] at k1
  obtain rfl : R2 = R2' := by simpa using k1
  have key : at3 R2 0 1 0 = 1 / 20 := by
    rw [← tested_single [{ tetVar 3 with vec := 1 }, { tetVar 3 with vec := 2 }] R2 0 (by simp) 1 (by simp [tetVar]) 0
      (by simp), k3, work, CVar.integral]
    have e1 : (tetVar 3).cells.length = 1 := rfl
    have e2 : (tetVar 3).nq = 1 := rfl
    simp only [e1, e2, Finset.sum_range_succ, Finset.sum_range_zero, Fin.sum_univ_three, tetVar_grad, tetVar_measure]
    simp [joined, fieldAt, at3]
    norm_num
  exact ⟨R1, R2, h1, h2, key, by rw [← (h3 1 (by simp [tetVar])).1, key]⟩

end JaxFem.SplitVars
