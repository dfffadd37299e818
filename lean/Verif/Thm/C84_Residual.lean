import Verif.Thm.C84_Refresh
import Verif.Thm.Coupled

/-!
# C84: residual and gradients after a history, in terms of the points
-/

namespace JaxFem.Refresh

open scoped BigOperators

variable {dim : Nat}

theorem book_geo (n : Nat) : ∀ (ops : List (Op dim)) (k k' : Book dim), k.held = k'.held → k.geo = k'.geo →
    (k.after n ops).geo = (k'.after n ops).geo := by
  intro ops
  induction ops with
  | nil => intro k k' _ hg; exact hg
  | cons op ops ih =>
    intro k k' hh hg
    refine ih _ _ ?_ ?_
    · cases op with
      | refresh pts => cases pts <;> exact hh
      | updateBC i info =>
        simp only [Book.next, hh]
        split
        · split <;> simp [hh]
        · exact hh
      | assignPoints i y =>
        simp only [Book.next, hh]
        split <;> simp [hh]
    · cases op with
      | refresh pts => cases pts <;> simp [Book.next, hh]
      | updateBC i info =>
        simp only [Book.next, hh]
        split
        · split <;> simp [hg]
        · exact hg
      | assignPoints i y =>
        simp only [Book.next]
        split <;> simp [hg]

theorem placed_fe (vars : List (CVar dim)) (x : Nat → Points dim) : (placed vars x).map CVar.fe = vars.map CVar.fe := by
  refine List.ext_getElem? fun i => ?_
  rw [List.getElem?_map, List.getElem?_map, placed_getElem?]
  cases vars[i]? <;> rfl

/-- **C84 (residual).** After any history of a problem without boundary subsets, the residual is that of the variables at the points
of the last refresh: the cells in the order of the mesh, each with its own internal variables. -/
theorem C84_residual (vars : List (CVar dim)) (infos : List (Info dim)) (faceInds : List (List Nat))
    (o : Obj dim) (hn : infos.length = vars.length) (h : construct vars infos faceInds none = .ok o)
    (ops : List (Op dim)) (hc : Complete vars.length ops) (bc0 : Nat → BCLists) {IV : Type}
    (kernel : List ℝ → PackedCell dim → IV → List ℝ) (ivs : List IV) (sols : List (List (List ℝ))) :
    let x := fun i => (vars[i]?.map CVar.points).getD []
    let geo := (Book.after vars.length ⟨x, x, bc0⟩ ops).geo
    (run o ops).residual (fun y d => kernel y d.1 d.2) ivs [] [] sols = coupledResidual (placed vars geo) kernel ivs sols := by
  intro x geo
  obtain ⟨bs, bc, hb, -, hP, h3⟩ := construct_agrees vars infos faceInds none o hn h
  have hr := run_agrees vars bs hP ops hc o _ h3
  have hg := hr.geo
  rw [book_geo vars.length ops ⟨startPoints vars, startPoints vars, bc⟩ ⟨x, x, bc0⟩ rfl rfl] at hg
  obtain ⟨pk, hpk, hcell, -, -, -⟩ := hg
  have hbs : bs = [] := by
    cases vars with
    | nil => simp [placed, pack] at hpk
    | cons v0 vs =>
      have := hb v0 rfl
      simpa [boundaryInds] using this.symm
  subst hbs
  have hfe : (run o ops).fes.map (fun f => f.var.fe) = (placed vars geo).map CVar.fe := by
    rw [placed_fe]
    refine List.ext_getElem (by simp [hr.len]) fun i i1 i2 => ?_
    simp only [List.getElem_map]
    simp only [List.length_map] at i1 i2
    rw [(hr.el i _ _ (List.getElem?_eq_getElem i2) (List.getElem?_eq_getElem i1)).1]
    rfl
  have hpk' : pack (placed vars geo) [] = .ok pk := hpk
  rw [coupledResidual, hpk', Obj.residual, hcell, hr.sel, hfe]
  show _ = computeResidual (F := Unit) _ _ _ _ _ _ _
  simp [computeResidual, computeFace]

/-- **C84 (gradients and quadrature points).** `sol_to_grad` gives the gradients with respect to the points of the last refresh, in every
cell, while `get_physical_quad_points()` without argument uses the points the element holds. -/
theorem C84_gradient (vars : List (CVar dim)) (infos : List (Info dim)) (faceInds : List (List Nat))
    (locs : Option (List (LocFn (Fin dim → ℝ)))) (o : Obj dim) (hn : infos.length = vars.length)
    (h : construct vars infos faceInds locs = .ok o) :
    ∃ bc : Nat → BCLists, ∀ (ops : List (Op dim)), Complete vars.length ops →
      let x := fun i => (vars[i]?.map CVar.points).getD []
      let k := Book.after vars.length ⟨x, x, bc⟩ ops
      ∀ (i : Nat) v f, vars[i]? = some v → (run o ops).fes[i]? = some f → v.WF → ∀ sol, ∀ e < v.cells.length, ∀ q,
        (∀ c, f.solToGrad sol e q c = ({ v with points := k.geo i } : CVar dim).gradAt (fun n c => (sol.getD n []).getD c 0) e q c) ∧
        f.physicalQuadPoints e q = ({ v with points := k.held i } : CVar dim).posAt e q := by
  obtain ⟨bs, bc, -, -, hP, h3⟩ := construct_agrees vars infos faceInds locs o hn h
  refine ⟨bc, fun ops hc => ?_⟩
  intro x k i v f hv hf hw sol e he q
  have hr := run_agrees vars bs hP ops hc o _ h3
  obtain ⟨pk, -, -, -, -, hgeo⟩ := hr.geo
  have hel := (hr.el i v f hv hf).1
  have hsg := (hgeo i _ f (by rw [placed_getElem?, hv]; rfl) hf).1
  refine ⟨fun c => ?_, ?_⟩
  · funext j
    have hw' : ({ v with points := k.geo i } : CVar dim).WF := hw
    have := gradOp_gather ({ v with points := k.geo i } : CVar dim) hw' sol e he (f.shapeGrads e) q c (by rw [hsg]; rfl) j
    rw [← this, FEObj.solToGrad, hel]
    rfl
  · rw [FEObj.physicalQuadPoints, hel]
    funext j
    simp only [CVar.quadPoint, physicalPoint, CVar.posAt]
    rfl

/-- After a refresh with moved points and no change of the held points, the gradients belong to the moved points and the quadrature
points to the old ones. -/
example : Complete 1 [Op.refresh (some [[![0, 0], ![2, 0], ![0, 2]]])] ∧
    (Book.after 1 ⟨fun _ => (exVar 1).points, fun _ => (exVar 1).points, fun _ => ([], [], [])⟩
      [Op.refresh (some [[![0, 0], ![2, 0], ![0, 2]]])]).geo 0 = [![0, 0], ![2, 0], ![0, 2]] ∧
    (Book.after 1 ⟨fun _ => (exVar 1).points, fun _ => (exVar 1).points, fun _ => ([], [], [])⟩
      [Op.refresh (some [[![0, 0], ![2, 0], ![0, 2]]])]).held 0 = (exVar 1).points ∧
    ∃ o, construct [exVar 1] [none] [[1, 2], [0, 2], [0, 1]] none = .ok o := by
  refine ⟨?_, rfl, rfl, _, rfl⟩
  intro op hop l hl
  subst hl
  simp only [List.mem_cons, Op.refresh.injEq, Option.some.injEq, List.not_mem_nil, or_false] at hop
  subst hop
  decide

end JaxFem.Refresh
