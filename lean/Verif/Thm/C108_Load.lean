import Verif.Thm.C108_Mesh
import Verif.Thm.C74_LinearSolve
import Verif.Thm.C88_Problem
import Verif.Thm.C12_Nanson

/-!
# C108: buckling beam: loads
-/

namespace JaxFem.Beams

open scoped BigOperators

variable {nq nfq : Nat}

attribute [local irreducible] makeMesh

/-! ### Helper lemmas -/

section

variable (el : RefElement ℝ nq 4 2) (fc : RefFaces ℝ nfq 4 2) (T : (Fin 2 → Fin 2 → ℝ) → Fin 2 → Fin 2 → ℝ)
  (S : List (((Fin 2 → ℝ) → (Fin 2 → ℝ) → Fin 2 → ℝ) × List (Nat × Nat)))

theorem beam_conn : (beam el fc T S).conn = makeMesh.2 := by
  simp [Problem1.conn, beam, Function.comp_def]

theorem beam_cells : (beam el fc T S).cells = makeMesh.2.map fun c => ⟨c, fun _ => ()⟩ := rfl

theorem beam_WF (h : ∀ s ∈ S, ∀ f ∈ s.2, f.1 < 100) : (beam el fc T S).WF := by
  refine ⟨?_, rfl, ?_, ?_, ?_⟩
  · intro h0
    have : (beam el fc T S).cells.length = 100 := by simp [beam, mesh_cells]
    rw [h0] at this
    simp at this
  · intro c hc
    rw [beam_cells] at hc
    obtain ⟨cell, hm, rfl⟩ := List.mem_map.1 hc
    exact (mesh_cell_ok cell hm).1
  · intro c hc n hn
    rw [beam_cells] at hc
    obtain ⟨cell, hm, rfl⟩ := List.mem_map.1 hc
    exact (mesh_cell_ok cell hm).2 n hn
  · intro s hs f hf
    obtain ⟨s', hm, rfl⟩ := List.mem_map.1 hs
    obtain ⟨f', hf', rfl⟩ := List.mem_map.1 hf
    have := h s' hm f' hf'
    simpa [beam, mesh_cells] using this

/-- A surface map with a constant value. -/
theorem beam_surfaceWork (a : List ((Fin 2 → ℝ) × List (Nat × Nat)))
    (hS : S = a.map fun s => (fun _ _ => s.1, s.2)) (u w : Nat → Fin 2 → ℝ) :
    (beam el fc T S).surfaceWork u w
      = (a.map fun s => s.1 0 * edgeIntegral (beam el fc T S) s.2 0 w + s.1 1 * edgeIntegral (beam el fc T S) s.2 1 w).sum := by
  subst hS
  rw [Problem1.surfaceWork]
  have e : (beam el fc T (a.map fun s => (fun _ _ => s.1, s.2))).surfaces
      = a.map fun s => ⟨fun _ _ _ => s.1, s.2.map fun f => ⟨f.1, f.2, fun _ => ()⟩⟩ := by
    simp [beam, Function.comp_def]
  rw [e, List.map_map]
  congr 1
  refine List.map_congr_left fun s _ => ?_
  simp only [Function.comp_apply, List.map_map, edgeIntegral]
  rw [← List.sum_map_mul_left, ← List.sum_map_mul_left, ← List.sum_map_add]
  congr 1
  refine List.map_congr_left fun f _ => ?_
  simp only [Function.comp_apply, Finset.mul_sum]
  rw [← Finset.sum_add_distrib]
  refine Finset.sum_congr rfl fun q _ => ?_
  rw [Fin.sum_univ_two]
  ring

theorem beam_virtualWork (u w : Nat → Fin 2 → ℝ) :
    (beam el fc T S).virtualWork u w = (beam el fc T S).tensorWork u w + (beam el fc T S).surfaceWork u w := by
  rw [Problem1.virtualWork]
  show _ + 0 + _ = _
  rw [add_zero]

theorem beam_stress (u w : Nat → Fin 2 → ℝ) (h : Invertible (beam el fc (Hyper.firstPK energy) S) u) :
    (beam el fc (Hyper.firstPK energy) S).tensorWork u w = stressWork (beam el fc (Hyper.firstPK energy) S) u w := by
  rw [Problem1.tensorWork, stressWork]
  congr 1
  refine List.map_congr_left fun cell hc => ?_
  congr 1
  funext q
  have h1 := (Hyper.C88_stress 2 (Hyper.muOf 1000 (3 / 10)) (Hyper.kappaOf 1000 (3 / 10))
    ((beam el fc (Hyper.firstPK energy) S).gradient u cell.nodes q) (.inr ⟨rfl, h cell hc q⟩)).2.1
  show contract (Hyper.firstPK energy ((beam el fc (Hyper.firstPK energy) S).gradient u cell.nodes q)) _ = _
  have h2 : Hyper.firstPK energy ((beam el fc (Hyper.firstPK energy) S).gradient u cell.nodes q)
      = piola2 ((beam el fc (Hyper.firstPK energy) S).gradient u cell.nodes q) := h1
  rw [h2]

end

/-- The problem of the force example. -/
noncomputable abbrev forceBeam (el : RefElement ℝ nq 4 2) (fc : RefFaces ℝ nfq 4 2) : Problem1 Unit nq nfq 4 2 2 :=
  beam el fc (Hyper.firstPK energy) [(imperfection, midFaces), (endTractionMap, rightFaces)]

/-- The problem of the counter load. -/
noncomputable abbrev counterBeam (el : RefElement ℝ nq 4 2) (fc : RefFaces ℝ nfq 4 2) : Problem1 Unit nq nfq 4 2 2 :=
  beam el fc (fun _ => 0) [(counterMap, rightFaces)]

/-- The problem of the displacement example. -/
noncomputable abbrev dispBeam (el : RefElement ℝ nq 4 2) (fc : RefFaces ℝ nfq 4 2) : Problem1 Unit nq nfq 4 2 2 :=
  beam el fc (Hyper.firstPK energy) [(imperfection, midFaces)]

theorem forceBeam_WF (el : RefElement ℝ nq 4 2) (fc : RefFaces ℝ nfq 4 2) : (forceBeam el fc).WF :=
  beam_WF el fc _ _ (by simp [midFaces, rightFaces]; constructor <;> intro a b h <;> omega)

theorem counterBeam_WF (el : RefElement ℝ nq 4 2) (fc : RefFaces ℝ nfq 4 2) : (counterBeam el fc).WF :=
  beam_WF el fc _ _ (by simp [rightFaces]; omega)

theorem dispBeam_WF (el : RefElement ℝ nq 4 2) (fc : RefFaces ℝ nfq 4 2) : (dispBeam el fc).WF :=
  beam_WF el fc _ _ (by simp [midFaces]; omega)

theorem force_work (el : RefElement ℝ nq 4 2) (fc : RefFaces ℝ nfq 4 2) (u w : Fin (totalDofs (forceBeam el fc).fes) → ℝ)
    (h : Invertible (forceBeam el fc) ((forceBeam el fc).vecField u)) :
    ∑ k, w k * (forceBeam el fc).flat u k = stressWork (forceBeam el fc) ((forceBeam el fc).vecField u) ((forceBeam el fc).vecField w)
      + 5 * edgeIntegral (forceBeam el fc) rightFaces 0 ((forceBeam el fc).vecField w)
      + 1 / 100000 * edgeIntegral (forceBeam el fc) midFaces 1 ((forceBeam el fc).vecField w) := by
  rw [flat_virtualWork _ (forceBeam_WF el fc), beam_virtualWork, beam_stress _ _ _ _ _ h,
    beam_surfaceWork el fc _ [(imperfection, midFaces), (endTractionMap, rightFaces)]
      [(![0, 1 / 10 ^ 5], midFaces), (![endTraction, 0], rightFaces)] rfl]
  simp [endTraction]
  ring

theorem counter_work (el : RefElement ℝ nq 4 2) (fc : RefFaces ℝ nfq 4 2) (u w : Fin (totalDofs (counterBeam el fc).fes) → ℝ) :
    ∑ k, w k * (counterBeam el fc).flat u k = -(5 * edgeIntegral (counterBeam el fc) rightFaces 0 ((counterBeam el fc).vecField w)) := by
  rw [flat_virtualWork _ (counterBeam_WF el fc), beam_virtualWork,
    beam_surfaceWork el fc _ [(counterMap, rightFaces)] [(![-endTraction, 0], rightFaces)] rfl]
  have h0 : (counterBeam el fc).tensorWork ((counterBeam el fc).vecField u) ((counterBeam el fc).vecField w) = 0 := by
    rw [Problem1.tensorWork]
    refine List.sum_eq_zero fun r hr => ?_
    obtain ⟨c, -, rfl⟩ := List.mem_map.1 hr
    simp [cellIntegral, contract, beam]
  rw [h0]
  simp [endTraction]

theorem disp_work (el : RefElement ℝ nq 4 2) (fc : RefFaces ℝ nfq 4 2) (u w : Fin (totalDofs (dispBeam el fc).fes) → ℝ)
    (h : Invertible (dispBeam el fc) ((dispBeam el fc).vecField u)) :
    ∑ k, w k * (dispBeam el fc).flat u k = stressWork (dispBeam el fc) ((dispBeam el fc).vecField u) ((dispBeam el fc).vecField w)
      + 1 / 100000 * edgeIntegral (dispBeam el fc) midFaces 1 ((dispBeam el fc).vecField w) := by
  rw [flat_virtualWork _ (dispBeam_WF el fc), beam_virtualWork, beam_stress _ _ _ _ _ h,
    beam_surfaceWork el fc _ [(imperfection, midFaces)] [(![0, 1 / 10 ^ 5], midFaces)] rfl]
  simp
  norm_num

/-! ### Property theorems -/

/-- **C108 (load).** In force control the vector `R(u) + (1 - λ) q` of the solver is the residual of the beam with the full
imperfection load and `λ` times the end load, for every state and load factor: its work on a field `w` is the work of the
stress plus `5 λ` times the integral of the horizontal component over the right end plus `1e-5` times the integral of the
vertical component over the loaded sides at midspan. In particular, `q` removes exactly the end load at `λ = 0`. -/
theorem C108_load (el : RefElement ℝ nq 4 2) (fc : RefFaces ℝ nfq 4 2) (P Q : Problem1 Unit nq nfq 4 2 2)
    (hP : forceProblem el fc = .ok P) (hQ : counterProblem el fc = .ok Q) :
    ∃ h : totalDofs P.fes = totalDofs Q.fes, ∀ (lam : ℝ) (u w : Fin (totalDofs P.fes) → ℝ), Invertible P (P.vecField u) →
      ∑ k, w k * (P.flat u k + (1 - lam) * getQVec Q.flat (Fin.cast h k))
        = stressWork P (P.vecField u) (P.vecField w) + lam * 5 * edgeIntegral P rightFaces 0 (P.vecField w)
          + 1 / 100000 * edgeIntegral P midFaces 1 (P.vecField w) := by
  obtain ⟨h1, h2, -⟩ := C108_faces el fc
  rw [h1] at hP
  rw [h2] at hQ
  cases hP
  cases hQ
  refine ⟨rfl, fun lam u w hu => ?_⟩
  have a := force_work el fc u w hu
  have b := counter_work el fc 0 w
  have e : ∑ k, w k * ((forceBeam el fc).flat u k + (1 - lam) * getQVec (counterBeam el fc).flat k)
      = ∑ k, w k * (forceBeam el fc).flat u k + (1 - lam) * ∑ k, w k * (counterBeam el fc).flat 0 k := by
    rw [Finset.mul_sum, ← Finset.sum_add_distrib]
    refine Finset.sum_congr rfl fun k _ => ?_
    rw [getQVec]
    ring
  refine e.trans ((congrArg₂ (fun x y : ℝ => x + (1 - lam) * y) a b).trans ?_)
  have e2 : edgeIntegral (counterBeam el fc) rightFaces 0 ((counterBeam el fc).vecField w)
      = edgeIntegral (forceBeam el fc) rightFaces 0 ((forceBeam el fc).vecField w) := rfl
  rw [e2]
  ring

/-- **C108 (resultants).** With the side tables of the bilinear element the loads have the sizes one expects from the
lengths of the loaded sides: for a translation of the beam the integral over the right end is twice the translation, and so
is the integral at midspan. The end load in the residual is `10 λ` altogether, and the imperfection `2e-5`. -/
theorem C108_resultant (el : RefElement ℝ nq 4 2) (fc : RefFaces ℝ nfq 4 2) (θ wt : Fin nfq → ℝ) (ht : SideTables fc θ wt)
    (P : Problem1 Unit nq nfq 4 2 2) (hP : forceProblem el fc = .ok P ∨ dispProblem el fc = .ok P) (a : Fin 2 → ℝ) (i : Fin 2) :
    edgeIntegral P rightFaces i (fun _ => a) = 2 * a i ∧ edgeIntegral P midFaces i (fun _ => a) = 2 * a i := by
  obtain ⟨T, S, rfl⟩ : ∃ T S, P = beam el fc T S := by
    obtain ⟨h1, -, h3, -⟩ := C108_faces el fc
    rcases hP with hP | hP
    · rw [h1] at hP; cases hP; exact ⟨_, _, rfl⟩
    · rw [h3] at hP; cases hP; exact ⟨_, _, rfl⟩
  have hcell : ∀ c, c < 100 → (beam el fc T S).conn.getD c [] = [c / 2 * 3 + c % 2, (c / 2 + 1) * 3 + c % 2,
      (c / 2 + 1) * 3 + (c % 2 + 1), c / 2 * 3 + (c % 2 + 1)] := by
    intro c hc
    rw [beam_conn, List.getD_eq_getElem?_getD, mesh_cell hc]
    rfl
  have hX : ∀ c, c < 100 → (coords 4 (beam el fc T S).points ((beam el fc T S).conn.getD c []) : Matrix (Fin 4) (Fin 2) ℝ)
      = Matrix.of ![![((c / 2 : Nat) : ℝ), ((c % 2 : Nat) : ℝ)], ![((c / 2 : Nat) : ℝ) + 1, ((c % 2 : Nat) : ℝ)],
        ![((c / 2 : Nat) : ℝ) + 1, ((c % 2 : Nat) : ℝ) + 1], ![((c / 2 : Nat) : ℝ), ((c % 2 : Nat) : ℝ) + 1]] := by
    intro c hc
    rw [hcell c hc]
    have key : ∀ x y : Nat, x ≤ 50 → y < 3 → (beam el fc T S).points.getD (x * 3 + y) 0 = ![(x : ℝ), (y : ℝ)] := by
      intro x y hx hy
      have h1 : (beam el fc T S).points = makeMesh.1 := rfl
      rw [h1, List.getD_eq_getElem?_getD, mesh_point (by omega)]
      have e1 : (x * 3 + y) / 3 = x := by omega
      have e2 : (x * 3 + y) % 3 = y := by omega
      rw [e1, e2]
      rfl
    ext b j
    fin_cases b
    · show ((beam el fc T S).points.getD (c / 2 * 3 + c % 2) 0) j = _
      rw [key _ _ (by omega) (by omega)]
      rfl
    · show ((beam el fc T S).points.getD ((c / 2 + 1) * 3 + c % 2) 0) j = _
      rw [key _ _ (by omega) (by omega)]
      fin_cases j <;> simp
    · show ((beam el fc T S).points.getD ((c / 2 + 1) * 3 + (c % 2 + 1)) 0) j = _
      rw [key _ _ (by omega) (by omega)]
      fin_cases j <;> simp
    · show ((beam el fc T S).points.getD (c / 2 * 3 + (c % 2 + 1)) 0) j = _
      rw [key _ _ (by omega) (by omega)]
      fin_cases j <;> simp
  have hone : ∀ (f : Nat) (r s : Fin 4), (f, r, s) ∈ [(0, 0, 1), (2, 1, 2)] → ∀ c, c < 100 →
      ∑ q, interp (fc.shapeVals f q) (restrict 4 (fun _ => a) ((beam el fc T S).conn.getD c [])) i
        * nansonScale (coords 4 (beam el fc T S).points ((beam el fc T S).conn.getD c [])) (fc.shapeGradsRef f q) (fc.normals f)
          (fc.quadWeights f q) = a i := by
    intro f r s hf c hc
    have hrs : s = r + 1 ∨ r = s + 1 := by
      simp only [List.mem_cons, Prod.mk.injEq, List.not_mem_nil, or_false] at hf
      rcases hf with ⟨-, rfl, rfl⟩ | ⟨-, rfl, rfl⟩ <;> exact .inl rfl
    rw [hX c hc]
    have e1 : ∀ q, interp (fc.shapeVals f q) (restrict 4 (fun _ => a) ((beam el fc T S).conn.getD c [])) i = a i := by
      intro q
      rw [ht.vals f r s hf]
      simp only [interp, restrict, Matrix.of_apply, ← Finset.sum_mul]
      rw [Fin.sum_univ_four]
      simp only [quad4N, Matrix.cons_val_zero, Matrix.cons_val_one, Matrix.cons_val]
      ring
    have e2 := C12_quad4_edge_length r s hrs ![![((c / 2 : Nat) : ℝ), ((c % 2 : Nat) : ℝ)], ![((c / 2 : Nat) : ℝ) + 1, ((c % 2 : Nat) : ℝ)],
        ![((c / 2 : Nat) : ℝ) + 1, ((c % 2 : Nat) : ℝ) + 1], ![((c / 2 : Nat) : ℝ), ((c % 2 : Nat) : ℝ) + 1]] θ wt ht.sum
        (fc.normals f) (ht.normal f r s hf).1 (ht.normal f r s hf).2 (by
          intro q
          have : (jacobianDxDeta ![![((c / 2 : Nat) : ℝ), ((c % 2 : Nat) : ℝ)], ![((c / 2 : Nat) : ℝ) + 1, ((c % 2 : Nat) : ℝ)],
              ![((c / 2 : Nat) : ℝ) + 1, ((c % 2 : Nat) : ℝ) + 1], ![((c / 2 : Nat) : ℝ), ((c % 2 : Nat) : ℝ) + 1]]
              (quad4G (onSegment (quad4V r) (quad4V s) (θ q)))).det = 1 := by
            generalize onSegment (quad4V r) (quad4V s) (θ q) = p
            simp only [jacobianDxDeta, Matrix.det_fin_two, Matrix.of_apply, Fin.sum_univ_four, quad4G, Matrix.cons_val_zero,
              Matrix.cons_val_one, Matrix.cons_val]
            ring
          rw [this]
          exact one_pos)
    have e3 : euclid ((![![((c / 2 : Nat) : ℝ), ((c % 2 : Nat) : ℝ)], ![((c / 2 : Nat) : ℝ) + 1, ((c % 2 : Nat) : ℝ)],
        ![((c / 2 : Nat) : ℝ) + 1, ((c % 2 : Nat) : ℝ) + 1], ![((c / 2 : Nat) : ℝ), ((c % 2 : Nat) : ℝ) + 1]] : Fin 4 → Fin 2 → ℝ) s
        - (![![((c / 2 : Nat) : ℝ), ((c % 2 : Nat) : ℝ)], ![((c / 2 : Nat) : ℝ) + 1, ((c % 2 : Nat) : ℝ)],
        ![((c / 2 : Nat) : ℝ) + 1, ((c % 2 : Nat) : ℝ) + 1], ![((c / 2 : Nat) : ℝ), ((c % 2 : Nat) : ℝ) + 1]] : Fin 4 → Fin 2 → ℝ) r) = 1 := by
      simp only [List.mem_cons, Prod.mk.injEq, List.not_mem_nil, or_false] at hf
      rcases hf with ⟨-, rfl, rfl⟩ | ⟨-, rfl, rfl⟩ <;> simp [euclid, Fin.sum_univ_two]
    rw [e3] at e2
    simp only [e1, ← Finset.mul_sum]
    have e4 : ∀ q, nansonScale (Matrix.of ![![((c / 2 : Nat) : ℝ), ((c % 2 : Nat) : ℝ)], ![((c / 2 : Nat) : ℝ) + 1, ((c % 2 : Nat) : ℝ)],
        ![((c / 2 : Nat) : ℝ) + 1, ((c % 2 : Nat) : ℝ) + 1], ![((c / 2 : Nat) : ℝ), ((c % 2 : Nat) : ℝ) + 1]]) (fc.shapeGradsRef f q) (fc.normals f)
          (fc.quadWeights f q) = nansonScale ![![((c / 2 : Nat) : ℝ), ((c % 2 : Nat) : ℝ)], ![((c / 2 : Nat) : ℝ) + 1, ((c % 2 : Nat) : ℝ)],
        ![((c / 2 : Nat) : ℝ) + 1, ((c % 2 : Nat) : ℝ) + 1], ![((c / 2 : Nat) : ℝ), ((c % 2 : Nat) : ℝ) + 1]]
          (quad4G (onSegment (quad4V r) (quad4V s) (θ q))) (fc.normals f) (faceWeight2 (wt q) (quad4V s - quad4V r)) := by
      intro q
      rw [ht.grads f r s hf, ht.weights f r s hf]
      rfl
    rw [Finset.sum_congr rfl fun q _ => e4 q, e2, mul_one]
  have hfc : (beam el fc T S).fc = fc := rfl
  constructor
  · rw [edgeIntegral, hfc]
    simp only [rightFaces, List.map_cons, List.map_nil, List.sum_cons, List.sum_nil]
    rw [hone 2 1 2 (by simp) 98 (by omega), hone 2 1 2 (by simp) 99 (by omega)]
    ring
  · rw [edgeIntegral, hfc]
    simp only [midFaces, List.map_cons, List.map_nil, List.sum_cons, List.sum_nil]
    rw [hone 0 0 1 (by simp) 48 (by omega), hone 0 0 1 (by simp) 50 (by omega)]
    ring

end JaxFem.Beams
