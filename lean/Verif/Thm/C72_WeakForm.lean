import Verif.Thm.C08_Balance
import Verif.Thm.C09_Translation
import Verif.Spec.Variational
import Verif.Spec.RefShapes

/-!
# C72: the assembled residual is the weak form
-/

namespace JaxFem

variable {IV : Type} {nq nfq nn vec dim : Nat}

/-! ### Helper lemmas -/

theorem physGrad_eq (X G : Fin nn → Fin dim → ℝ) (U : Fin nn → Fin vec → ℝ) (i : Fin vec) (j : Fin dim) :
    physGrad (Matrix.of X) (Matrix.of G) (Matrix.of U) i j
      = ∑ a, U a i * shapeGradsPhysical X G a j := by
  rw [physGrad, Matrix.mul_apply]
  simp only [Matrix.mul_apply, Matrix.transpose_apply, Matrix.of_apply, shapeGradsPhysical,
    ← jacobian_eq, Finset.sum_mul, Finset.mul_sum]
  rw [Finset.sum_comm]
  exact Finset.sum_congr rfl fun a _ => Finset.sum_congr rfl fun k _ => by ring

theorem restrict_fieldOf (sol : List (List ℝ)) (cell : List Nat) :
    restrict nn (fieldOf vec sol) cell = Matrix.of (nodalValues nn vec sol cell) := rfl

theorem gradient_eq (P : Problem1 IV nq nfq nn vec dim) (v : Nat → Fin vec → ℝ) (cell : List Nat)
    (q : Fin nq) (i : Fin vec) (j : Fin dim) :
    P.gradient v cell q i j = ∑ a : Fin nn, v (cell.getD a 0) i *
      shapeGradsPhysical (physicalCoos nn P.points cell) (P.el.shapeGradsRef q) a j := by
  rw [Problem1.gradient, ← physicalCoos_eq]
  exact physGrad_eq _ _ (fun a c => v (cell.getD a 0) c) i j

theorem cellJxW_eq (el : RefElement ℝ nq nn dim) (points : List (Fin dim → ℝ)) (cell : List Nat)
    (q : Fin nq) :
    cellJxW (physicalCoos nn points cell) (el.shapeGradsRef q) (el.quadWeights q)
      = (mapJacobian (coords nn points cell) (Matrix.of (el.shapeGradsRef q))).det
        * el.quadWeights q := by
  rw [cellJxW, jacobian_eq, physicalCoos_eq]

theorem mass_entry {P : Problem1 IV nq nfq nn vec dim} (h : P.WF) (sols : List (List (List ℝ)))
    (hs : HasShapes [(P.numTotalNodes, vec)] sols) (e : Nat) (he : e < P.cells.length)
    (m : IV → (Fin vec → ℝ) → (Fin dim → ℝ) → Fin vec → ℝ) (a : Fin nn) (c : Fin vec) :
    (massKernel P.el m (cellSolFlat P.fes sols e)
        (cellData P.el P.points P.cells[e].nodes P.cells[e].iv)).getD (localPos P.fes 0 a c) 0
      = ∑ q, m (P.cells[e].iv q)
          (interp (P.el.shapeVals q) (nodalValues nn vec (sols.getD 0 []) P.cells[e].nodes))
          (positionIn (P.el.shapeVals q) (coords nn P.points P.cells[e].nodes)) c
          * P.el.shapeVals q a * cellJxW (physicalCoos nn P.points P.cells[e].nodes)
            (P.el.shapeGradsRef q) (P.el.quadWeights q) := by
  have hf := fold_cellSolFlat h sols hs e he
  rw [Problem1.fes] at hf ⊢
  rw [massKernel, ravel2_getD]
  simp only [hf, cellData, conn_getD P e he, interp_comm, physicalPoint_eq]

theorem surface_entry {P : Problem1 IV nq nfq nn vec dim} (h : P.WF) (sols : List (List (List ℝ)))
    (hs : HasShapes [(P.numTotalNodes, vec)] sols) (s : Surface ℝ IV nfq vec dim) (f : FaceSpec IV nfq)
    (hf : f.cell < P.cells.length) (a : Fin nn) (c : Fin vec) :
    (surfaceKernel s.map (cellSolFlat P.fes sols f.cell)
        (faceData P.fc P.points P.conn (f.cell, f.face) f.iv)).getD (localPos P.fes 0 a c) 0
      = ∑ q, s.map (f.iv q) (interp (P.fc.shapeVals f.face q)
            (nodalValues nn vec (sols.getD 0 []) (P.conn.getD f.cell [])))
          (positionIn (P.fc.shapeVals f.face q) (coords nn P.points (P.conn.getD f.cell []))) c
          * P.fc.shapeVals f.face q a * nansonScale (coords nn P.points (P.conn.getD f.cell []))
            (P.fc.shapeGradsRef f.face q) (P.fc.normals f.face) (P.fc.quadWeights f.face q) := by
  have hfold := fold_cellSolFlat h sols hs f.cell hf
  rw [Problem1.fes] at hfold ⊢
  rw [surfaceKernel, ravel2_getD]
  simp only [hfold, faceData, interp_comm, physicalPoint_eq, ← physicalCoos_eq]
  rfl

/-! ### Property theorems -/

/-- **C72.** For a problem with a tensor map, optionally a mass map, and surface maps: the residual
tested with any nodal field `v` is the virtual work
`∫ σ(∇u) : ∇v + ∫ m(u, x) · v + ∫_Γ s(u, x) · v`, where gradients, values, positions and integrals are
those of the isoparametric elements. -/
theorem C72_weak_form (P : Problem1 IV nq nfq nn vec dim) (h : P.WF) (sol : List (List ℝ))
    (hs : HasShapes [(P.numTotalNodes, vec)] [sol]) :
    ∃ R, P.residual [sol] = .ok R ∧ HasShapes [(P.numTotalNodes, vec)] R ∧
      ∀ v : Nat → Fin vec → ℝ,
        ∑ n ∈ Finset.range P.numTotalNodes, ∑ c : Fin vec, v n c * at3 R 0 n c
          = P.virtualWork (fieldOf vec sol) v := by
  obtain ⟨R, r1, rs, -, r2⟩ := Problem1.weighted_residual h [sol] hs
  refine ⟨R, r1, rs, fun v => ?_⟩
  rw [Finset.sum_comm]
  have hnode : ∀ e (he : e < P.cells.length) (a : Fin nn), nodeOf P.fes 0 e a
      = P.cells[e].nodes.getD a 0 := by
    intro e he a
    rw [nodeOf_eq P.fes 0 e a (by simp [Problem1.fes])]
    have : P.fes[0]'(by simp [Problem1.fes]) = ⟨P.numTotalNodes, vec, nn, P.conn⟩ := rfl
    rw [this, conn_getD P e he]
  have hstep : ∀ c : Fin vec, ∑ n ∈ Finset.range P.numTotalNodes, v n c * at3 R 0 n c
      = (P.cells.map fun cell => ∑ q, (
          ∑ j, P.tensorMap (cell.iv q) (P.gradient (fieldOf vec sol) cell.nodes q) c j
              * P.gradient v cell.nodes q c j
          + (match P.massMap with
            | none => 0
            | some m => m (cell.iv q)
                (interp (P.el.shapeVals q) (restrict nn (fieldOf vec sol) cell.nodes))
                (positionIn (P.el.shapeVals q) (coords nn P.points cell.nodes)) c
                * interp (P.el.shapeVals q) (restrict nn v cell.nodes) c))
          * ((mapJacobian (coords nn P.points cell.nodes) (Matrix.of (P.el.shapeGradsRef q))).det
            * P.el.quadWeights q)).sum
        + (P.surfaces.map fun s => (s.faces.map fun f => ∑ q,
            s.map (f.iv q) (interp (P.fc.shapeVals f.face q)
              (restrict nn (fieldOf vec sol) (P.conn.getD f.cell [])))
            (positionIn (P.fc.shapeVals f.face q) (coords nn P.points (P.conn.getD f.cell []))) c
            * interp (P.fc.shapeVals f.face q) (restrict nn v (P.conn.getD f.cell [])) c
            * nansonScale (coords nn P.points (P.conn.getD f.cell [])) (P.fc.shapeGradsRef f.face q)
              (P.fc.normals f.face) (P.fc.quadWeights f.face q)).sum).sum := by
    intro c
    rw [r2 (fun n => v n c) c c.2]
    rw [terms_sum P (fun e k => ∑ a ∈ Finset.range nn, v (nodeOf P.fes 0 e a) c *
      (k (cellSolFlat P.fes [sol] e)).getD (localPos P.fes 0 a c) 0)]
    · intro e he
      have hlap : ∑ a ∈ Finset.range nn, v (nodeOf P.fes 0 e a) c *
          (laplaceKernel P.tensorMap (cellSolFlat P.fes [sol] e)
            (cellData P.el P.points P.cells[e].nodes P.cells[e].iv)).getD (localPos P.fes 0 a c) 0
          = ∑ q, (∑ j, P.tensorMap (P.cells[e].iv q)
              (P.gradient (fieldOf vec sol) P.cells[e].nodes q) c j
              * P.gradient v P.cells[e].nodes q c j)
          * ((mapJacobian (coords nn P.points P.cells[e].nodes)
              (Matrix.of (P.el.shapeGradsRef q))).det * P.el.quadWeights q) := by
        rw [sum_range_fin nn _ _ fun a => by rw [laplace_entry h [sol] hs e he a c, hnode e he a]]
        simp only [Finset.mul_sum, Finset.sum_mul]
        rw [Finset.sum_comm]
        refine Finset.sum_congr rfl fun q _ => ?_
        rw [Finset.sum_comm]
        refine Finset.sum_congr rfl fun j _ => ?_
        have e1 : (fun i j => ∑ b, nodalValues nn vec (([sol] : List (List (List ℝ))).getD 0 [])
              P.cells[e].nodes b i * shapeGradsPhysical (physicalCoos nn P.points P.cells[e].nodes)
              (P.el.shapeGradsRef q) b j)
            = P.gradient (fieldOf vec sol) P.cells[e].nodes q := by
          funext i j
          rw [gradient_eq]
          rfl
        rw [e1, gradient_eq P v, Finset.mul_sum, Finset.sum_mul, ← cellJxW_eq]
        exact Finset.sum_congr rfl fun a _ => by ring
      cases hm : P.massMap with
      | none =>
        simp only [cellKernel]
        rw [hlap]
        simp only [add_zero]
      | some m =>
        simp only [cellKernel]
        have hadd : ∀ a ∈ Finset.range nn, v (nodeOf P.fes 0 e a) c * (vadd
          (laplaceKernel P.tensorMap (cellSolFlat P.fes [sol] e)
            (cellData P.el P.points P.cells[e].nodes P.cells[e].iv))
          (massKernel P.el m (cellSolFlat P.fes [sol] e)
            (cellData P.el P.points P.cells[e].nodes P.cells[e].iv))).getD (localPos P.fes 0 a c) 0
          = v (nodeOf P.fes 0 e a) c * (laplaceKernel P.tensorMap (cellSolFlat P.fes [sol] e)
            (cellData P.el P.points P.cells[e].nodes P.cells[e].iv)).getD (localPos P.fes 0 a c) 0
          + v (nodeOf P.fes 0 e a) c * (massKernel P.el m (cellSolFlat P.fes [sol] e)
            (cellData P.el P.points P.cells[e].nodes P.cells[e].iv)).getD (localPos P.fes 0 a c) 0 :=
          fun a _ => by
            rw [vadd_getD _ _ (by simp [laplaceKernel, massKernel, ravel2_length]), mul_add]
        rw [Finset.sum_congr rfl hadd, Finset.sum_add_distrib, hlap]
        simp only [add_mul, Finset.sum_add_distrib]
        congr 1
        rw [sum_range_fin nn _ _ fun a => by rw [mass_entry h [sol] hs e he m a c, hnode e he a]]
        simp only [Finset.mul_sum]
        rw [Finset.sum_comm]
        refine Finset.sum_congr rfl fun q _ => ?_
        have hI : interp (P.el.shapeVals q) (restrict nn v P.cells[e].nodes) c
          = ∑ a, P.el.shapeVals q a * restrict nn v P.cells[e].nodes a c := rfl
        rw [← cellJxW_eq, hI, Finset.mul_sum, Finset.sum_mul]
        refine Finset.sum_congr rfl fun a _ => ?_
        have e2 : restrict nn v P.cells[e].nodes a c = v (P.cells[e].nodes.getD a 0) c := rfl
        have e3 : restrict nn (fieldOf vec sol) P.cells[e].nodes
          = nodalValues nn vec (([sol] : List (List (List ℝ))).getD 0 []) P.cells[e].nodes := rfl
        rw [e2, e3]
        ring
    · intro s hsf f hf
      have hlt := h.face_lt s hsf f hf
      rw [sum_range_fin nn _ _ fun a => by
        rw [surface_entry h [sol] hs s f hlt a c, hnode f.cell hlt a]]
      simp only [Finset.mul_sum]
      rw [Finset.sum_comm]
      refine Finset.sum_congr rfl fun q _ => ?_
      have hI : interp (P.fc.shapeVals f.face q) (restrict nn v P.cells[f.cell].nodes) c
        = ∑ a, P.fc.shapeVals f.face q a * restrict nn v P.cells[f.cell].nodes a c := rfl
      rw [conn_getD P f.cell hlt, hI, Finset.mul_sum, Finset.sum_mul]
      refine Finset.sum_congr rfl fun a _ => ?_
      have e2 : restrict nn v P.cells[f.cell].nodes a c = v (P.cells[f.cell].nodes.getD a 0) c := rfl
      have e3 : restrict nn (fieldOf vec sol) P.cells[f.cell].nodes
        = nodalValues nn vec (([sol] : List (List (List ℝ))).getD 0 []) P.cells[f.cell].nodes := rfl
      rw [e2, e3]
      ring
  rw [Finset.sum_congr rfl fun c _ => hstep c, Finset.sum_add_distrib]
  have swap : ∀ {α : Type} (l : List α) (F : α → Fin vec → ℝ),
      ∑ c, (l.map fun a => F a c).sum = (l.map fun a => ∑ c, F a c).sum := by
    intro α l F
    induction l with
    | nil => simp
    | cons a l ih => simp [Finset.sum_add_distrib, ih]
  have addmap : ∀ {α : Type} (l : List α) (F G : α → ℝ),
      (l.map fun a => F a + G a).sum = (l.map F).sum + (l.map G).sum := by
    intro α l F G
    induction l with
    | nil => simp
    | cons a l ih => simp only [List.map_cons, List.sum_cons, ih]; ring
  rw [Problem1.virtualWork]
  congr 1
  · rw [swap, Problem1.tensorWork]
    cases hm : P.massMap with
    | none =>
      simp only [add_zero]
      congr 1
      refine List.map_congr_left fun cell _ => ?_
      rw [Finset.sum_comm, cellIntegral]
      refine Finset.sum_congr rfl fun q _ => ?_
      simp only [contract]
      rw [Finset.sum_mul]
    | some m =>
      dsimp only
      rw [Problem1.massWork, ← addmap]
      congr 1
      refine List.map_congr_left fun cell _ => ?_
      rw [Finset.sum_comm, cellIntegral, cellIntegral, ← Finset.sum_add_distrib]
      refine Finset.sum_congr rfl fun q _ => ?_
      simp only [contract]
      rw [Finset.sum_mul, Finset.sum_mul, ← Finset.sum_add_distrib]
      exact Finset.sum_congr rfl fun c _ => add_mul _ _ _
  · rw [swap, Problem1.surfaceWork]
    congr 1
    refine List.map_congr_left fun s _ => ?_
    rw [swap]
    congr 1
    refine List.map_congr_left fun f _ => ?_
    rw [Finset.sum_comm]
    exact Finset.sum_congr rfl fun q _ => (Finset.sum_mul _ _ _).symm

/-- **C72 (Galerkin).** The residual vanishes at the free degrees of freedom if and only if the virtual
work vanishes for every nodal test field that is zero at the other ones. -/
theorem C72_galerkin (P : Problem1 IV nq nfq nn vec dim) (h : P.WF) (sol : List (List ℝ))
    (hs : HasShapes [(P.numTotalNodes, vec)] [sol]) (free : Nat → Fin vec → Prop) :
    IsSolution P free sol ↔
      ∀ v : Nat → Fin vec → ℝ, (∀ n c, ¬ free n c → v n c = 0) →
        P.virtualWork (fieldOf vec sol) v = 0 := by
  obtain ⟨R, r1, -, r2⟩ := C72_weak_form P h sol hs
  constructor
  · rintro ⟨R', r1', hz⟩ v hv
    rw [r1] at r1'
    cases r1'
    rw [← r2 v]
    refine Finset.sum_eq_zero fun n hn => Finset.sum_eq_zero fun c _ => ?_
    by_cases hf : free n c
    · rw [hz n (Finset.mem_range.1 hn) c hf, mul_zero]
    · rw [hv n c hf, zero_mul]
  · intro hv
    refine ⟨R, r1, fun n hn c hf => ?_⟩
    have := hv (fun m d => if m = n ∧ d = c then 1 else 0) (fun m d hmd => by
      rw [if_neg]
      rintro ⟨rfl, rfl⟩
      exact hmd hf)
    rw [← r2, Finset.sum_eq_single n, Finset.sum_eq_single c] at this
    · simpa using this
    · intro d _ hd; simp [hd]
    · simp
    · intro m _ hm; simp [hm]
    · intro hn'; exact absurd (Finset.mem_range.2 hn) hn'

/-! Non-vacuity: two triangles, a nonlinear stress, a reaction term and a traction on one edge. -/

/-- Example problem with all three kinds of maps. -/
noncomputable def exProblem3 : Problem1 Unit 1 1 3 2 2 where
  numTotalNodes := 4
  points := [![0, 0], ![2, 0], ![2, 2], ![0, 2]]
  cells := [⟨[0, 1, 2], fun _ => ()⟩, ⟨[0, 2, 3], fun _ => ()⟩]
  el := tabulate tri3N tri3G (fun _ => ![1/3, 1/3]) (fun _ => 1/2)
  fc := ⟨fun _ _ => tri3N ![1/2, 1/2], fun _ _ => tri3G ![1/2, 1/2], fun _ _ => 1, fun _ => ![1, 1]⟩
  tensorMap := fun _ G i j => (G i j + G j i) ^ 3
  massMap := some fun _ u x c => u c * x 0
  surfaces := [⟨fun _ u _ c => u c + 1, [⟨1, 2, fun _ => ()⟩]⟩]

example : exProblem3.WF where
  nonempty := by simp [exProblem3]
  points := by simp [exProblem3]
  cell_length := by intro c hc; simp [exProblem3] at hc; rcases hc with rfl | rfl <;> rfl
  cell_lt := by
    intro c hc n hn; simp [exProblem3] at hc ⊢; rcases hc with rfl | rfl <;> simp at hn <;> omega
  face_lt := by intro s hs f hf; simp [exProblem3] at hs; subst hs; simp at hf; subst hf; decide

example : HasShapes [(exProblem3.numTotalNodes, 2)] [[[(1:ℝ), 2], [3, 4], [5, 6], [7, 9]]] :=
  ⟨_, _, rfl, rfl, by simp, rfl⟩

end JaxFem
