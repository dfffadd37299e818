import Verif.Thm.C76_Stokes
import Verif.Model.Dendrite

/-!
# Weak forms of the dendrite kernels
-/

namespace JaxFem

/-- What a two-variable kernel sees in cell `e`. -/
theorem two_local {dim : Nat} (v w : CVar dim) (hw : WFVars [v, w]) (sols : List (List (List ℝ)))
    (hs : HasShapes (solShapes ([v, w].map CVar.fe)) sols) (e : Nat) (he : e < v.cells.length) :
    let x := cellSolFlat ([v, w].map CVar.fe) sols e
    let d := packedCell [v, w] v.nq (v.quadPoint e) e
    let cum := numNodesCumsum [v, w]
    let sol := unravelSol (cellShapes [v.fe, w.fe]) x
    (∀ q c, gradOp v.nn (sol.getD 0 []) (fun q => sliceVar cum 0 (d.shapeGrads q)) q c
      = v.gradAt (fieldAt sols 0) e q c) ∧
    (∀ q c, gradOp w.nn (sol.getD 1 []) (fun q => sliceVar cum 1 (d.shapeGrads q)) q c
      = w.gradAt (fieldAt sols 1) e q c) ∧
    (∀ q c, valOp v.nn (sol.getD 0 []) v.shapeVals q c = v.valueAt (fieldAt sols 0) e q c) ∧
    (∀ q c, valOp w.nn (sol.getD 1 []) w.shapeVals q c = w.valueAt (fieldAt sols 1) e q c) ∧
    (∀ q, sliceVar cum 0 (d.vGradsJxW q) = v.vGradsJxW e q) ∧
    (∀ q, sliceVar cum 1 (d.vGradsJxW q) = w.vGradsJxW e q) ∧
    (∀ q, d.JxW.getD 0 0 q = v.measure e q) ∧ (∀ q, d.JxW.getD 1 0 q = w.measure e q) := by
  intro x d cum sol
  have hew : e < w.cells.length := by
    rw [← hw.cells v (by simp) w (by simp)]; exact he
  have wfv := hw.wf v (by simp)
  have wfw := hw.wf w (by simp)
  have hv : sol.getD 0 [] = gatherVar (sols.getD 0 []) (v.cells.getD e []) :=
    coupled_local [v, w] hw sols hs e he 0 (by simp)
  have hw' : sol.getD 1 [] = gatherVar (sols.getD 1 []) (w.cells.getD e []) :=
    coupled_local [v, w] hw sols hs e he 1 (by simp)
  refine ⟨fun q c => ?_, fun q c => ?_, fun q c => ?_, fun q c => ?_, fun q => ?_, fun q => ?_,
    fun q => ?_, fun q => ?_⟩
  · rw [hv]
    funext j
    exact gradOp_gather v wfv _ e he _ q c (packedCell_grads [v, w] _ _ e q 0 (by simp)) j
  · rw [hw']
    funext j
    exact gradOp_gather w wfw _ e hew _ q c (packedCell_grads [v, w] _ _ e q 1 (by simp)) j
  · rw [hv]
    exact valOp_gather v wfv _ e he q c
  · rw [hw']
    exact valOp_gather w wfw _ e hew q c
  · exact packedCell_vgrads [v, w] _ _ e q 0 (by simp)
  · exact packedCell_vgrads [v, w] _ _ e q 1 (by simp)
  · rw [packedCell_jxw [v, w] _ _ e 0 (by simp)]
    exact v.jxw_eq e q
  · rw [packedCell_jxw [v, w] _ _ e 1 (by simp)]
    exact w.jxw_eq e q

/-- `coupled_weak_form` for two scalar variables with an integrand per variable. -/
theorem two_weak_form {dim : Nat} {IV : Type} (v w : CVar dim) (hw : WFVars [v, w]) (hv1 : v.vec = 1)
    (hw1 : w.vec = 1) (kernel : List ℝ → PackedCell dim → IV → List ℝ) (ivs : List IV)
    (hiv : ivs.length = v.cells.length) (sols : List (List (List ℝ)))
    (hs : HasShapes (solShapes ([v, w].map CVar.fe)) sols)
    (fv fw : Nat → Nat → Fin dim → ℝ) (sv sw : Nat → Nat → ℝ)
    (hlen : ∀ x d iv, (kernel x d iv).length = localSize ([v, w].map CVar.fe))
    (hker : ∀ e (he : e < ivs.length), ∃ F G : Nat → Nat → ℝ,
      kernel (cellSolFlat ([v, w].map CVar.fe) sols e) (packedCell [v, w] v.nq (v.quadPoint e) e) ivs[e]
        = ravelSol [mk2 v.nn v.vec F, mk2 w.nn w.vec G] ∧
      (∀ a : Fin v.nn, F a 0 = ∑ q ∈ Finset.range v.nq,
        ((∑ j, fv e q j * shapeGradsPhysical (v.coos e) (v.gref q) a j) + sv e q * v.shapeVals q a)
          * v.measure e q) ∧
      (∀ a : Fin w.nn, G a 0 = ∑ q ∈ Finset.range v.nq,
        ((∑ j, fw e q j * shapeGradsPhysical (w.coos e) (w.gref q) a j) + sw e q * w.shapeVals q a)
          * w.measure e q)) :
    ∃ R, coupledResidual [v, w] kernel ivs sols = .ok R ∧ HasShapes (solShapes ([v, w].map CVar.fe)) R ∧
      ∀ t : Nat → Nat → Nat → ℝ, tested [v, w] R t
        = v.integral (fun e q => (∑ j, fv e q j * v.gradAt (t 0) e q 0 j) + sv e q * v.valueAt (t 0) e q 0)
        + w.integral (fun e q => (∑ j, fw e q j * w.gradAt (t 1) e q 0 j)
            + sw e q * w.valueAt (t 1) e q 0) := by
  have hq := hw.quads v (by simp) w (by simp)
  have hc := hw.cells v (by simp) w (by simp)
  obtain ⟨R, r1, r2, r3⟩ := coupled_weak_form [v, w] hw (by simp) kernel ivs hiv sols hs
    (fun i e q _ => if i = 0 then fv e q else fw e q) (fun i e q _ => if i = 0 then sv e q else sw e q)
    hlen (by
      intro e he
      obtain ⟨F, G, h1, h2, h3⟩ := hker e he
      refine ⟨[mk2 v.nn v.vec F, mk2 w.nn w.vec G], hasShapes_two v w F G, h1, fun i hi => ?_⟩
      match i, hi with
      | 0, _ =>
        intro (a : Fin v.nn) c (hc' : c < v.vec)
        obtain rfl : c = 0 := by omega
        change at2 (mk2 v.nn v.vec _) a 0 = _
        rw [at2_mk2 _ _ _ _ _ a.2 hc', h2 a]
        rfl
      | 1, _ =>
        intro (a : Fin w.nn) c (hc' : c < w.vec)
        obtain rfl : c = 0 := by omega
        change at2 (mk2 w.nn w.vec _) a 0 = _
        rw [at2_mk2 _ _ _ _ _ a.2 hc', h3 a]
        rfl)
  refine ⟨R, r1, r2, fun t => ?_⟩
  rw [r3 t]
  change ∑ i : Fin 2, _ = _
  rw [Fin.sum_univ_two]
  congr 1
  · refine Finset.sum_congr rfl fun e _ => Finset.sum_congr rfl fun q _ => ?_
    change (∑ c ∈ Finset.range v.vec, _) * v.measure e q = _
    congr 1
    rw [hv1, Finset.sum_range_one]
    rfl
  · rw [CVar.integral, ← hc, ← hq]
    refine Finset.sum_congr rfl fun e _ => Finset.sum_congr rfl fun q _ => ?_
    change (∑ c ∈ Finset.range w.vec, _) * w.measure e q = _
    congr 1
    rw [hw1, Finset.sum_range_one]
    rfl

namespace Dendrite

variable (m : Params) (vp vT : CVar 2)

theorem implicit_weak_form (hw : WFVars [vp, vT]) (hp1 : vp.vec = 1) (hT1 : vT.vec = 1)
    (pOld TOld : List (List ℝ)) (noise : List ℝ) (sols : List (List (List ℝ)))
    (hs : HasShapes (solShapes ([vp, vT].map CVar.fe)) sols) :
    ∃ R, implicitResidual m vp vT pOld TOld noise sols = .ok R ∧
      HasShapes (solShapes ([vp, vT].map CVar.fe)) R ∧
      ∀ t : Nat → Nat → Nat → ℝ, tested [vp, vT] R t
        = vp.integral (fun e q =>
            (∑ j, flux m (vp.gradAt (fieldAt [pOld] 0) e q 0) (vp.gradAt (fieldAt sols 0) e q 0) j
              * vp.gradAt (t 0) e q 0 j)
            + (reaction m (vp.valueAt (fieldAt [pOld] 0) e q 0) (vT.valueAt (fieldAt [TOld] 0) e q 0)
              + m.tau * (vp.valueAt (fieldAt sols 0) e q 0 - vp.valueAt (fieldAt [pOld] 0) e q 0) / m.dt
              + noiseTerm m (vp.valueAt (fieldAt [pOld] 0) e q 0) (noise.getD e 0))
              * vp.valueAt (t 0) e q 0)
        + vT.integral (fun e q => (∑ j, vT.gradAt (fieldAt sols 1) e q 0 j * vT.gradAt (t 1) e q 0 j)
            + ((vT.valueAt (fieldAt sols 1) e q 0 - vT.valueAt (fieldAt [TOld] 0) e q 0) / m.dt
              + - m.K * (vp.valueAt (fieldAt sols 0) e q 0 - vp.valueAt (fieldAt [pOld] 0) e q 0) / m.dt)
              * vT.valueAt (t 1) e q 0) := by
  have wfp := hw.wf vp (by simp)
  have wfT := hw.wf vT (by simp)
  refine two_weak_form vp vT hw hp1 hT1 (implicitKernel m vp vT) _ (by simp) sols hs _ _ _ _
    (fun x d iv => ravelSol_length (hasShapes_two vp vT _ _)) fun e he => ?_
  have hec : e < vp.cells.length := by simpa using he
  have heT : e < vT.cells.length := by
    rw [← hw.cells vp (by simp) vT (by simp)]; exact hec
  obtain ⟨h1, h2, h3, h4, h5, h6, h7, h8⟩ := two_local vp vT hw sols hs e hec
  refine ⟨_, _, rfl, fun a => ?_, fun a => ?_⟩
  · have ho : ∀ q, gradOp vp.nn (gatherVar pOld (vp.cells.getD e []))
        (fun q => sliceVar (numNodesCumsum [vp, vT]) 0
          ((packedCell [vp, vT] vp.nq (vp.quadPoint e) e).shapeGrads q)) q 0
        = vp.gradAt (fieldAt [pOld] 0) e q 0 := by
      intro q
      funext j
      exact gradOp_gather vp wfp pOld e hec _ q 0 (packedCell_grads [vp, vT] _ _ e q 0 (by simp)) j
    have hp : ∀ q, dofToQuad vp pOld e q 0 = vp.valueAt (fieldAt [pOld] 0) e q 0 := fun q =>
      valOp_gather vp wfp pOld e hec q 0
    have hT : ∀ q, dofToQuad vT TOld e q 0 = vT.valueAt (fieldAt [TOld] 0) e q 0 := fun q =>
      valOp_gather vT wfT TOld e heT q 0
    simp only [List.getElem_map, List.getElem_range]
    rw [fluxOp_eq vp e _ _ _ h5 a 0]
    simp only [srcOp]
    rw [show (packedCell [vp, vT] vp.nq (vp.quadPoint e) e).numQuads = vp.nq from rfl,
      ← Finset.sum_add_distrib, ← Finset.sum_add_distrib, ← Finset.sum_add_distrib]
    refine Finset.sum_congr rfl fun q _ => ?_
    rw [h1, h3, h7, ho, hp, hT]
    ring
  · have hp : ∀ q, dofToQuad vp pOld e q 0 = vp.valueAt (fieldAt [pOld] 0) e q 0 := fun q =>
      valOp_gather vp wfp pOld e hec q 0
    have hT : ∀ q, dofToQuad vT TOld e q 0 = vT.valueAt (fieldAt [TOld] 0) e q 0 := fun q =>
      valOp_gather vT wfT TOld e heT q 0
    simp only [List.getElem_map, List.getElem_range]
    rw [fluxOp_eq vT e _ _ _ h6 a 0]
    simp only [srcOp]
    rw [show (packedCell [vp, vT] vp.nq (vp.quadPoint e) e).numQuads = vp.nq from rfl,
      ← Finset.sum_add_distrib, ← Finset.sum_add_distrib]
    refine Finset.sum_congr rfl fun q _ => ?_
    rw [h2, h3, h4, h8, hp, hT]
    ring

theorem force_weak_form (hw : WFVars [vp, vT]) (hp1 : vp.vec = 1) (hT1 : vT.vec = 1)
    (noise : List ℝ) (sols : List (List (List ℝ)))
    (hs : HasShapes (solShapes ([vp, vT].map CVar.fe)) sols) :
    ∃ R, coupledResidual [vp, vT] (forceKernel m vp vT)
        ((List.range vp.cells.length).map fun e => fun _ => noise.getD e 0) sols = .ok R ∧
      HasShapes (solShapes ([vp, vT].map CVar.fe)) R ∧
      ∀ t : Nat → Nat → Nat → ℝ, tested [vp, vT] R t
        = vp.integral (fun e q =>
            (∑ j, flux m (vp.gradAt (fieldAt sols 0) e q 0) (vp.gradAt (fieldAt sols 0) e q 0) j
              * vp.gradAt (t 0) e q 0 j)
            + (reaction m (vp.valueAt (fieldAt sols 0) e q 0) (vT.valueAt (fieldAt sols 1) e q 0)
              + noiseTerm m (vp.valueAt (fieldAt sols 0) e q 0) (noise.getD e 0))
              * vp.valueAt (t 0) e q 0)
        + vT.integral (fun e q => (∑ j, (vT.gradAt (fieldAt sols 1) e q 0 j
              + m.K / m.tau * flux m (vp.gradAt (fieldAt sols 0) e q 0) (vp.gradAt (fieldAt sols 0) e q 0) j)
              * vT.gradAt (t 1) e q 0 j)
            + (m.K / m.tau
              * reaction m (vp.valueAt (fieldAt sols 0) e q 0) (vT.valueAt (fieldAt sols 1) e q 0))
              * vT.valueAt (t 1) e q 0) := by
  refine two_weak_form vp vT hw hp1 hT1 (forceKernel m vp vT) _ (by simp) sols hs _ _ _ _
    (fun x d iv => ravelSol_length (hasShapes_two vp vT _ _)) fun e he => ?_
  have hec : e < vp.cells.length := by simpa using he
  obtain ⟨h1, h2, h3, h4, h5, h6, h7, h8⟩ := two_local vp vT hw sols hs e hec
  refine ⟨_, _, rfl, fun a => ?_, fun a => ?_⟩
  · simp only [List.getElem_map, List.getElem_range]
    rw [fluxOp_eq vp e _ _ _ h5 a 0]
    simp only [srcOp]
    rw [show (packedCell [vp, vT] vp.nq (vp.quadPoint e) e).numQuads = vp.nq from rfl,
      ← Finset.sum_add_distrib, ← Finset.sum_add_distrib]
    refine Finset.sum_congr rfl fun q _ => ?_
    rw [h1, h3, h4, h7]
    ring
  · simp only [List.getElem_map, List.getElem_range]
    rw [fluxOp_eq vT e _ _ _ h6 a 0, fluxOp_eq vT e _ _ _ h6 a 0]
    simp only [srcOp]
    rw [show (packedCell [vp, vT] vp.nq (vp.quadPoint e) e).numQuads = vp.nq from rfl,
      ← Finset.sum_add_distrib, Finset.mul_sum, ← Finset.sum_add_distrib]
    refine Finset.sum_congr rfl fun q _ => ?_
    rw [h1, h2, h3, h4, h8, Fin.sum_univ_two, Fin.sum_univ_two, Fin.sum_univ_two]
    ring

theorem mass_weak_form (hw : WFVars [vp, vT]) (hp1 : vp.vec = 1) (hT1 : vT.vec = 1)
    (sols : List (List (List ℝ))) (hs : HasShapes (solShapes ([vp, vT].map CVar.fe)) sols) :
    ∃ R, coupledResidual [vp, vT] (fun x d (_ : Unit) => massKernel m vp vT x d)
        (List.replicate vp.cells.length ()) sols = .ok R ∧
      HasShapes (solShapes ([vp, vT].map CVar.fe)) R ∧
      ∀ t : Nat → Nat → Nat → ℝ, tested [vp, vT] R t
        = vp.integral (fun e q => m.tau * vp.valueAt (fieldAt sols 0) e q 0 / m.dt * vp.valueAt (t 0) e q 0)
        + vT.integral (fun e q => vT.valueAt (fieldAt sols 1) e q 0 / m.dt * vT.valueAt (t 1) e q 0) := by
  obtain ⟨R, r1, r2, r3⟩ := two_weak_form vp vT hw hp1 hT1
    (fun x d (_ : Unit) => massKernel m vp vT x d) (List.replicate vp.cells.length ()) (by simp) sols hs
    (fun _ _ _ => 0) (fun _ _ _ => 0) (fun e q => m.tau * vp.valueAt (fieldAt sols 0) e q 0 / m.dt)
    (fun e q => vT.valueAt (fieldAt sols 1) e q 0 / m.dt)
    (fun x d iv => ravelSol_length (hasShapes_two vp vT _ _)) (by
      intro e he
      have hec : e < vp.cells.length := by simpa using he
      obtain ⟨h1, h2, h3, h4, h5, h6, h7, h8⟩ := two_local vp vT hw sols hs e hec
      refine ⟨_, _, rfl, fun a => ?_, fun a => ?_⟩
      · simp only [srcOp]
        rw [show (packedCell [vp, vT] vp.nq (vp.quadPoint e) e).numQuads = vp.nq from rfl]
        refine Finset.sum_congr rfl fun q _ => ?_
        rw [h3, h7]
        simp
      · simp only [srcOp]
        rw [show (packedCell [vp, vT] vp.nq (vp.quadPoint e) e).numQuads = vp.nq from rfl]
        refine Finset.sum_congr rfl fun q _ => ?_
        rw [h4, h8]
        simp)
  refine ⟨R, r1, r2, fun t => ?_⟩
  rw [r3]
  congr 1
  · exact vp.integral_congr fun e _ q _ => by simp
  · exact vT.integral_congr fun e _ q _ => by simp

end Dendrite

end JaxFem
