import Verif.Thm.C90_Local
import Verif.Thm.C88_Problem
import Verif.Thm.C82_Elasticity

/-!
# C90: solids under small loads
-/

namespace JaxFem

open scoped Topology
open Hyper (gradL gradL_apply hasFDerivAt_list contDiffAt_sumlist)
open Fracture (grd)

variable {IV : Type} {nq nfq nn n : Nat}

/-- The flattened residual with the surface maps `S`. -/
noncomputable def Problem1.loadedFlat (P : Problem1 IV nq nfq nn n n) (S : List (Surface ℝ IV nfq n n)) :
    (Fin (totalDofs P.fes) → ℝ) → Fin (totalDofs P.fes) → ℝ := (P.withSurfaces S).flat

/-- The problem linearised at rest, without loads. -/
noncomputable def linearised (P : Problem1 IV nq nfq nn n n) : Problem1 IV nq nfq nn n n :=
  { P with tensorMap := fun iv G => fderiv ℝ (P.tensorMap iv) 0 G, massMap := none, surfaces := [] }

theorem flat_single (P : Problem1 IV nq nfq nn n n) (h : P.WF) (z : Fin (totalDofs P.fes) → ℝ) (k : Fin (totalDofs P.fes)) :
    P.flat z k = P.virtualWork (P.vecField z) (P.vecField (Pi.single k 1)) := by
  rw [← flat_virtualWork P h, Finset.sum_eq_single k]
  · simp
  · intro b _ hb; simp [hb]
  · simp

/-- Work of the stresses on the field of one unknown, as a function of the unknowns. -/
noncomputable def stressWork (P : Problem1 IV nq nfq nn n n) (k : Fin (totalDofs P.fes)) (y : Fin (totalDofs P.fes) → ℝ) : ℝ :=
  (P.cells.map fun c => cellIntegral P.el P.points c.nodes fun q =>
    contract (P.tensorMap (c.iv q) (gradL P c q y)) (grd P (P.vecField (Pi.single k 1)) c q)).sum

theorem flat_noLoad (P : Problem1 IV nq nfq nn n n) (h : P.WF) (hmass : P.massMap = none) (hsurf : P.surfaces = [])
    (y : Fin (totalDofs P.fes) → ℝ) (k : Fin (totalDofs P.fes)) : P.flat y k = stressWork P k y := by
  rw [flat_single P h, Problem1.virtualWork, hmass, Problem1.surfaceWork, hsurf]
  show P.tensorWork _ _ + 0 + 0 = _
  rw [add_zero, add_zero]
  rfl

/-- A contraction with a fixed tensor. -/
noncomputable def conR (B : Fin n → Fin n → ℝ) : (Fin n → Fin n → ℝ) →L[ℝ] ℝ :=
  LinearMap.toContinuousLinearMap
    { toFun := fun A => contract A B
      map_add' := fun A A' => by simp [contract, add_mul, Finset.sum_add_distrib]
      map_smul' := fun a A => by simp [contract, Finset.mul_sum, mul_assoc] }

theorem conR_apply (A B : Fin n → Fin n → ℝ) : conR B A = contract A B := rfl

theorem grad_zero (P : Problem1 IV nq nfq nn n n) (c : CellSpec IV nq) (q : Fin nq) : gradL P c q 0 = 0 := map_zero _

theorem flat_contDiff (P : Problem1 IV nq nfq nn n n) (h : P.WF) (hmass : P.massMap = none) (hsurf : P.surfaces = [])
    (hC : ∀ iv, ContDiffAt ℝ 1 (P.tensorMap iv) 0) : ContDiffAt ℝ 1 P.flat 0 := by
  refine contDiffAt_pi.2 fun k => ?_
  have e : (fun y => P.flat y k) = stressWork P k := funext fun y => flat_noLoad P h hmass hsurf y k
  rw [e]
  refine contDiffAt_sumlist P.cells (fun c y => cellIntegral P.el P.points c.nodes fun q =>
    contract (P.tensorMap (c.iv q) (gradL P c q y)) (grd P (P.vecField (Pi.single k 1)) c q)) 0 fun c _ => ?_
  simp only [cellIntegral]
  refine ContDiffAt.sum fun q _ => ContDiffAt.mul ?_ contDiffAt_const
  have h1 : ContDiffAt ℝ 1 (fun y => P.tensorMap (c.iv q) (gradL P c q y)) 0 :=
    ContDiffAt.comp (0 : Fin (totalDofs P.fes) → ℝ) (by rw [grad_zero]; exact hC _) (gradL P c q).contDiff.contDiffAt
  exact (conR (grd P (P.vecField (Pi.single k 1)) c q)).contDiff.contDiffAt.comp _ h1

theorem flat_deriv (P : Problem1 IV nq nfq nn n n) (h : P.WF) (hmass : P.massMap = none) (hsurf : P.surfaces = [])
    (hC : ∀ iv, ContDiffAt ℝ 1 (P.tensorMap iv) 0) (T : Matrix (Fin (totalDofs P.fes)) (Fin (totalDofs P.fes)) ℝ)
    (hT : ∀ y, (linearised P).flat y = T.mulVec y) : HasFDerivAt P.flat (matCLM T) 0 := by
  have hw : (linearised P).WF := ⟨h.nonempty, h.points, h.cell_length, h.cell_lt, by simp [linearised]⟩
  refine hasFDerivAt_pi'.2 fun k => ?_
  have e : (fun y => P.flat y k) = stressWork P k := funext fun y => flat_noLoad P h hmass hsurf y k
  rw [e]
  have h1 : HasFDerivAt (stressWork P k) ((P.cells.map fun c => ∑ q,
      ((mapJacobian (coords nn P.points c.nodes) (Matrix.of (P.el.shapeGradsRef q))).det * P.el.quadWeights q) •
        ((conR (grd P (P.vecField (Pi.single k 1)) c q)).comp
          ((fderiv ℝ (P.tensorMap (c.iv q)) 0).comp (gradL P c q)))).sum) 0 := by
    refine hasFDerivAt_list P.cells (fun c y => cellIntegral P.el P.points c.nodes fun q =>
      contract (P.tensorMap (c.iv q) (gradL P c q y)) (grd P (P.vecField (Pi.single k 1)) c q)) _ 0 fun c _ => ?_
    simp only [cellIntegral]
    refine HasFDerivAt.fun_sum fun q _ => ?_
    have h2 : HasFDerivAt (P.tensorMap (c.iv q)) (fderiv ℝ (P.tensorMap (c.iv q)) 0) (gradL P c q 0) := by
      rw [grad_zero]
      exact ((hC (c.iv q)).differentiableAt (by norm_num)).hasFDerivAt
    have h3 := h2.comp (0 : Fin (totalDofs P.fes) → ℝ) (gradL P c q).hasFDerivAt
    exact ((conR (grd P (P.vecField (Pi.single k 1)) c q)).hasFDerivAt.comp _ h3).mul_const _
  refine h1.congr_fderiv ?_
  ext1 v
  have h4 : (ContinuousLinearMap.proj (R := ℝ) (φ := fun _ : Fin (totalDofs P.fes) => ℝ) k).comp (matCLM T) v
      = stressWork (linearised P) k v := by
    show T.mulVec v k = _
    rw [← hT v]
    exact flat_noLoad (linearised P) hw rfl rfl v k
  rw [h4]
  have hl2 : ∀ (L : List ((Fin (totalDofs P.fes) → ℝ) →L[ℝ] ℝ)), L.sum v = (L.map fun f => f v).sum := by
    intro L
    induction L with
    | nil => simp
    | cons a t ih => simp [ih]
  rw [hl2, List.map_map]
  unfold stressWork
  show _ = (P.cells.map _).sum
  congr 1
  refine List.map_congr_left fun c _ => ?_
  simp only [Function.comp_apply, cellIntegral]
  rw [ContinuousLinearMap.sum_apply]
  refine Finset.sum_congr rfl fun q _ => ?_
  rw [ContinuousLinearMap.smul_apply, smul_eq_mul, mul_comm]
  rfl

/-- With dead loads the residual changes by a constant. -/
theorem flat_loads (P : Problem1 IV nq nfq nn n n) (h : P.WF) (hmass : P.massMap = none) (hsurf : P.surfaces = [])
    (h0 : ∀ iv, P.tensorMap iv 0 = 0) (S : List (Surface ℝ IV nfq n n)) (hS : (P.withSurfaces S).WF)
    (hd : (P.withSurfaces S).DeadLoads) (y : Fin (totalDofs P.fes) → ℝ) :
    P.loadedFlat S y = P.flat y + P.loadedFlat S 0 := by
  funext k
  set Q : Problem1 IV nq nfq nn n n := P.withSurfaces S with hQ
  have hm : Q.massMap = none := hmass
  have key : ∀ z : Fin (totalDofs P.fes) → ℝ, Q.flat z k = stressWork P k z + Q.surfaceWork 0 (Q.vecField (Pi.single k 1)) := by
    intro z
    rw [flat_single Q hS z k, Problem1.virtualWork, hm]
    have hs : Q.surfaceWork (Q.vecField z) (Q.vecField (Pi.single k 1)) = Q.surfaceWork 0 (Q.vecField (Pi.single k 1)) := by
      rw [Problem1.surfaceWork, Problem1.surfaceWork]
      congr 1
      refine List.map_congr_left fun s hs => ?_
      congr 1
      refine List.map_congr_left fun f _ => ?_
      refine Finset.sum_congr rfl fun q _ => ?_
      congr 1
      refine Finset.sum_congr rfl fun c _ => ?_
      rw [hd s hs (f.iv q) _ (interp (Q.fc.shapeVals f.face q) (restrict nn 0 (Q.conn.getD f.cell [])))]
    rw [hs]
    show P.tensorWork _ _ + 0 + _ = _
    rw [add_zero]
    rfl
  have hz : stressWork P k 0 = 0 := by
    rw [stressWork]
    refine List.sum_eq_zero fun r hr => ?_
    obtain ⟨c, -, rfl⟩ := List.mem_map.1 hr
    simp only [cellIntegral, grad_zero, h0]
    simp [contract]
  show Q.flat y k = P.flat y k + Q.flat 0 k
  have k0 := key 0
  rw [hz, zero_add] at k0
  exact (key y).trans (congrArg₂ (· + ·) (flat_noLoad P h hmass hsurf y k).symm k0.symm)

/-- **C90 (solids under small loads).** Let the stress vanish for zero displacement gradient, be continuously differentiable there, and
let its derivative be positive on nonzero strains. On a mesh with positive measures and no zero-strain displacements besides rigid
motions, all of whose nodes are held by boundary conditions with value zero, the following holds for all small enough dead loads and
all small enough prescribed values at the same degrees of freedom. There is exactly one solution near zero, and `solver` returns from
the default initial guess zero, with and without line search, for every positive tolerance and every linear solver that reaches a certain
relative residual. The result is within a fixed factor per step of that solution. -/
theorem C90_solid (P : Problem1 IV nq nfq nn n n) (h : P.WF) (hpos : P.PositiveMeasure) (hmass : P.massMap = none)
    (hsurf : P.surfaces = []) (h0 : ∀ iv, P.tensorMap iv 0 = 0) (hC : ∀ iv, ContDiffAt ℝ 1 (P.tensorMap iv) 0)
    (hmono : ∀ iv H, 0 ≤ contract (fderiv ℝ (P.tensorMap iv) 0 H) H
      ∧ (symPart H ≠ 0 → 0 < contract (fderiv ℝ (P.tensorMap iv) 0 H) H))
    (hdet : ∀ cell ∈ P.cells, P.el.StrainDetermines (coords nn P.points cell.nodes))
    (bcs : List (List (BCEntry ℝ))) (hb : WFBC P.fes bcs) (hz : ∀ k v, Prescribed P.fes bcs k (some v) → v = 0)
    (hheld : ∀ m < P.numTotalNodes, P.Held (fun m c => FreeDof (bcs.getD 0 []) m c) m)
    (tan : (Fin (totalDofs P.fes) → ℝ) → Matrix (Fin (totalDofs P.fes)) (Fin (totalDofs P.fes)) ℝ)
    (htan : ∀ᶠ x in 𝓝 0, HasJacobianAt P.flat (tan x) x) :
    ∃ eta > 0, ∃ r > 0, ∃ d > 0, ∀ (S : List (Surface ℝ IV nfq n n)) (bcs' : List (List (BCEntry ℝ))),
      (P.withSurfaces S).WF → (P.withSurfaces S).DeadLoads →
      ‖P.loadedFlat S 0‖ < d → WFBC P.fes bcs' → NearbyBC P.fes bcs bcs' d →
      ∃ u, ‖u‖ < r ∧ SolvesBVP P.fes bcs' (P.loadedFlat S) u
        ∧ (∀ w, ‖w‖ < r → SolvesBVP P.fes bcs' (P.loadedFlat S) w → w = u)
        ∧ ∀ solve, InexactSolver eta solve → ∀ nu : (Fin (totalDofs P.fes) → ℝ) → ℝ, nu 0 = 0 → ContinuousAt nu 0 →
          ∀ (ls : Bool) (tol relTol : ℝ), 0 < tol → ∃ m w fuel0, ‖w - u‖ ≤ (15 / 16) ^ m * ‖u‖ ∧ ∀ fuel ≥ fuel0,
            newtonSolve (newtonUpdate P.fes bcs' (P.loadedFlat S) tan) (fun rA => .fin (nu rA.1))
              (newtonStep P.fes bcs' (fun r => .fin (nu r)) (P.loadedFlat S) solve ls) (fun _ => true)
              tol relTol 0 fuel = some (.ok (w, m)) := by
  have hw : (linearised P).WF := ⟨h.nonempty, h.points, h.cell_length, h.cell_lt, by simp [linearised]⟩
  -- the linearised problem
  have haff : (linearised P).Affine := by
    refine ⟨fun iv => ⟨(fderiv ℝ (P.tensorMap iv) 0 : (Fin n → Fin n → ℝ) →ₗ[ℝ] _), fun G => ?_⟩, fun m hm => ?_, fun s hs => ?_⟩
    · show fderiv ℝ (P.tensorMap iv) 0 G = fderiv ℝ (P.tensorMap iv) 0 G + fderiv ℝ (P.tensorMap iv) 0 0
      rw [map_zero, add_zero]
    · exact absurd (show (none : Option _) = some m from hm) (by simp)
    · exact absurd (show s ∈ [] from hs) (by simp)
  obtain ⟨T, f, hTf⟩ := C74_affine (linearised P) hw haff
  have hf : f = 0 := by
    have h1 : (linearised P).flat 0 = 0 := by
      funext k
      rw [flat_noLoad (linearised P) hw rfl rfl, stressWork]
      refine List.sum_eq_zero fun r hr => ?_
      obtain ⟨c, -, rfl⟩ := List.mem_map.1 hr
      simp only [cellIntegral, grad_zero]
      have : (linearised P).tensorMap = fun iv G => fderiv ℝ (P.tensorMap iv) 0 G := rfl
      simp [this, contract]
    have h2 := hTf 0
    rw [h1, Matrix.mulVec_zero, zero_sub] at h2
    exact neg_eq_zero.1 h2.symm
  have hT : ∀ y, (linearised P).flat y = T.mulVec y := fun y => by rw [hTf y, hf, sub_zero]
  have hmono' : (linearised P).StrainMonotone := by
    intro iv G H
    have e : (fun i j => (linearised P).tensorMap iv G i j - (linearised P).tensorMap iv H i j)
        = fderiv ℝ (P.tensorMap iv) 0 (G - H) := by
      rw [map_sub]; rfl
    rw [e]
    refine ⟨(hmono iv (G - H)).1, fun hne => (hmono iv (G - H)).2 fun hzero => hne ?_⟩
    funext i j
    have := congrFun (congrFun hzero i) j
    simp only [symPart, Pi.sub_apply, Pi.zero_apply] at this ⊢
    linarith
  have huniq : (linearised P).UniqueField fun m c => FreeDof (bcs.getD 0 []) m c :=
    uniqueField_of_strain (linearised P) hw hpos hmono' (fun m hm => absurd (show (none : Option _) = some m from hm) (by simp))
      (fun s hs => absurd (show s ∈ [] from hs) (by simp)) hdet _ (fun m hm => by
        have := hheld m hm
        clear * - this
        induction this with
        | fixed m h => exact .fixed m h
        | cell cell hc S hS _ hf m hm ih => exact Problem1.Held.cell (P := linearised P) cell hc S hS ih hf m hm)
  have hreg : (elimRows P.fes bcs T).det ≠ 0 := regular_of_unique (linearised P) hw bcs hb huniq T f hTf
  have hder := flat_deriv P h hmass hsurf hC T hT
  have hcd := flat_contDiff P h hmass hsurf hC
  have htan0 : tan 0 = T := by
    have := htan.self_of_nhds.unique hder
    ext i j
    have := congrFun (congrArg (fun L => L (Pi.single j 1)) this) i
    have e : ∀ A : Matrix (Fin (totalDofs P.fes)) (Fin (totalDofs P.fes)) ℝ, matCLM A (Pi.single j 1) i = A i j := fun A => by
      simp [matCLM]
    rw [← e (tan 0), ← e T]
    exact this
  have hstrict : HasStrictJacobianAt P.flat (tan 0) 0 := by
    rw [htan0]
    exact hcd.hasStrictFDerivAt' hder (by norm_num)
  have hcont : ContinuousAt tan 0 := by
    have h1 : ContinuousAt (fderiv ℝ P.flat) 0 := (hcd.fderiv_right (m := 0) (by norm_num)).continuousAt
    refine continuousAt_pi.2 fun i => continuousAt_pi.2 fun j => ?_
    have h2 : ContinuousAt (fun x => fderiv ℝ P.flat x (Pi.single j 1) i) 0 :=
      (continuous_apply i).continuousAt.comp (h1.clm_apply continuousAt_const)
    refine h2.congr ?_
    filter_upwards [htan] with x hx
    rw [hx.fderiv]
    simp [matCLM]
  have hsol : SolvesBVP P.fes bcs P.flat 0 := by
    refine ⟨fun k v hk => (hz k v hk).symm, fun k _ => ?_⟩
    rw [flat_noLoad P h hmass hsurf, stressWork]
    refine List.sum_eq_zero fun r hr => ?_
    obtain ⟨c, -, rfl⟩ := List.mem_map.1 hr
    simp only [cellIntegral, grad_zero, h0]
    simp [contract]
  obtain ⟨eta, het, r, hr, d, hd, hall⟩ := C90_small_loads P.fes bcs hb P.flat tan 0 hsol hstrict hcont (by rw [htan0]; exact hreg)
  refine ⟨eta, het, r, hr, d, hd, fun S bcs' hS hdead hg hb' hn => ?_⟩
  obtain ⟨u, hu, hs, hun, hnew⟩ := hall bcs' (P.loadedFlat S 0) hb' hn hg
  have e : (fun x => P.flat x + P.loadedFlat S 0) = P.loadedFlat S :=
    funext fun y => (flat_loads P h hmass hsurf h0 S hS hdead y).symm
  rw [e] at hs hun hnew
  rw [sub_zero] at hu
  refine ⟨u, hu, hs, fun w hw => hun w (by rwa [sub_zero]), fun solve hsv nu hnu0 hnuc ls tol relTol htol => ?_⟩
  obtain ⟨m, w, fuel0, h1, h2⟩ := hnew solve hsv nu hnu0 hnuc ls tol relTol htol 0 (by rw [sub_zero, norm_zero]; exact hr)
  rw [zero_sub, norm_neg] at h1
  exact ⟨m, w, fuel0, h1, h2⟩

/-! ### The neo-Hookean box -/

theorem firstPK_contDiff (W : (Fin n → Fin n → ℝ) → ℝ) (hW : ContDiffAt ℝ 2 W fun i j => if i = j then 1 else 0) :
    ContDiffAt ℝ 1 (Hyper.firstPK W) 0 := by
  refine contDiffAt_pi.2 fun i => contDiffAt_pi.2 fun j => ?_
  have h1 : ContDiffAt ℝ 1 (fun G : Fin n → Fin n → ℝ => fun i j => G i j + if i = j then (1 : ℝ) else 0) 0 :=
    contDiffAt_id.add (contDiffAt_const (c := fun i j : Fin n => if i = j then (1 : ℝ) else 0))
  have h2 : ContDiffAt ℝ 1 (fderiv ℝ W) ((fun G : Fin n → Fin n → ℝ => fun i j => G i j + if i = j then (1 : ℝ) else 0) 0) := by
    have : (fun G : Fin n → Fin n → ℝ => fun i j => G i j + if i = j then (1 : ℝ) else 0) 0 = fun i j => if i = j then 1 else 0 := by
      funext i j; simp
    rw [this]
    exact hW.fderiv_right (by norm_num)
  exact (ContDiffAt.comp (0 : Fin n → Fin n → ℝ) h2 h1).clm_apply contDiffAt_const

theorem psi_identity_smooth (mu kappa : ℝ) : ContDiffAt ℝ 2 (Hyper.psi (n := 3) 3 mu kappa) fun i j => if i = j then 1 else 0 := by
  refine Hyper.psi_smooth 3 mu kappa _ (.inl ?_)
  have : (Matrix.of fun i j : Fin 3 => if i = j then (1 : ℝ) else 0) = 1 := by ext i j; simp [Matrix.one_apply]
  rw [this, Matrix.det_one]
  norm_num

theorem firstPK_zero (mu kappa : ℝ) : Hyper.firstPK (Hyper.psi (n := 3) 3 mu kappa) 0 = 0 := by
  have e : (1 + Matrix.of (0 : Fin 3 → Fin 3 → ℝ)) = 1 := by ext i j; simp
  rw [Hyper.firstPK_psi 3 mu kappa 0 (.inl (by rw [e, Matrix.det_one]; norm_num)), e]
  have h3 : (∑ i : Fin 3, ∑ j : Fin 3, (1 : Matrix (Fin 3) (Fin 3) ℝ) i j ^ 2) = 3 := by
    simp [Matrix.one_apply]
  funext i j
  rw [neoHookePiola, h3]
  simp

theorem firstPK_fderiv (E nu : ℝ) (h1 : nu ≠ -1) (h2 : nu ≠ 1 / 2) (H : Fin 3 → Fin 3 → ℝ) :
    fderiv ℝ (Hyper.firstPK (Hyper.psi 3 (Hyper.muOf E nu) (Hyper.kappaOf E nu))) 0 H = Elastic.stress E nu H := by
  set f := Hyper.firstPK (Hyper.psi (n := 3) 3 (Hyper.muOf E nu) (Hyper.kappaOf E nu)) with hf
  have hd : HasFDerivAt f (fderiv ℝ f 0) ((fun t : ℝ => t • H) 0) := by
    rw [show (fun t : ℝ => t • H) 0 = 0 from zero_smul ℝ H]
    exact ((firstPK_contDiff _ (psi_identity_smooth _ _)).differentiableAt (by norm_num)).hasFDerivAt
  have hl : HasDerivAt (fun t : ℝ => t • H) H 0 := by
    have := (hasDerivAt_id (0 : ℝ)).smul_const H
    rwa [one_smul] at this
  have hc := hd.comp_hasDerivAt (0 : ℝ) hl
  funext i j
  have h3 : HasDerivAt (fun t : ℝ => f (t • H) i j) (fderiv ℝ f 0 H i j) 0 := hasDerivAt_pi.1 (hasDerivAt_pi.1 hc i) j
  exact h3.unique ((Hyper.C88_linear E nu h1 h2).1 H i j)

/-- **C90 (neo-Hookean box).** The box of `test_hyper_elasticity.py` and `hyperelastic3d_common.py` with first-order bricks, a
quadrature rule with two points per direction among its points, positive weights, `E > 0` and `-1 < nu < 1/2`, whose face `x = 0` is
held at zero: for all small enough dead loads and prescribed values there is exactly one solution near zero and `solver` finds it
from the default initial guess. -/
theorem C90_box {P : Problem1 IV nq nfq 8 3 3} {Nx Ny Nz : Nat} {Lx Ly Lz : ℝ} {p : Fin nq → Fin 3 → ℝ} {w : Fin nq → ℝ}
    (h : OnBox P Nx Ny Nz Lx Ly Lz p w) (hw : ∀ q, 0 < w q)
    (t : Fin 2 → Fin 2 → Fin 2 → Fin nq) (x y z : Fin 2 → ℝ) (hx : x 0 ≠ x 1) (hy : y 0 ≠ y 1) (hz : z 0 ≠ z 1)
    (ht : ∀ i j k, p (t i j k) = ![x i, y j, z k]) (E nuP : ℝ) (hE : 0 < E) (h1 : -1 < nuP) (h2 : nuP < 1 / 2)
    (htensor : P.tensorMap = fun _ => Hyper.firstPK (Hyper.psi 3 (Hyper.muOf E nuP) (Hyper.kappaOf E nuP)))
    (hmass : P.massMap = none) (hsurf : P.surfaces = [])
    (bcs : List (List (BCEntry ℝ))) (hb : WFBC P.fes bcs) (hzero : ∀ k v, Prescribed P.fes bcs k (some v) → v = 0)
    (hfix : ∀ j ≤ Ny, ∀ k ≤ Nz, ∀ c : Fin 3, ¬ FreeDof (bcs.getD 0 []) (boxNode Ny Nz 0 j k) c) :
    (∃ tan : (Fin (totalDofs P.fes) → ℝ) → Matrix (Fin (totalDofs P.fes)) (Fin (totalDofs P.fes)) ℝ,
      ∀ᶠ x in 𝓝 0, HasJacobianAt P.flat (tan x) x) ∧
    ∀ tan : (Fin (totalDofs P.fes) → ℝ) → Matrix (Fin (totalDofs P.fes)) (Fin (totalDofs P.fes)) ℝ,
      (∀ᶠ x in 𝓝 0, HasJacobianAt P.flat (tan x) x) →
    ∃ eta > 0, ∃ r > 0, ∃ d > 0, ∀ (S : List (Surface ℝ IV nfq 3 3)) (bcs' : List (List (BCEntry ℝ))),
      (P.withSurfaces S).WF → (P.withSurfaces S).DeadLoads → ‖P.loadedFlat S 0‖ < d → WFBC P.fes bcs' → NearbyBC P.fes bcs bcs' d →
      ∃ u, ‖u‖ < r ∧ SolvesBVP P.fes bcs' (P.loadedFlat S) u
        ∧ (∀ w, ‖w‖ < r → SolvesBVP P.fes bcs' (P.loadedFlat S) w → w = u)
        ∧ ∀ solve, InexactSolver eta solve → ∀ nu : (Fin (totalDofs P.fes) → ℝ) → ℝ, nu 0 = 0 → ContinuousAt nu 0 →
          ∀ (ls : Bool) (tol relTol : ℝ), 0 < tol → ∃ m w fuel0, ‖w - u‖ ≤ (15 / 16) ^ m * ‖u‖ ∧ ∀ fuel ≥ fuel0,
            newtonSolve (newtonUpdate P.fes bcs' (P.loadedFlat S) tan) (fun rA => .fin (nu rA.1))
              (newtonStep P.fes bcs' (fun r => .fin (nu r)) (P.loadedFlat S) solve ls) (fun _ => true)
              tol relTol 0 fuel = some (.ok (w, m)) := by
  have hJ : (!![Lx / Nx, 0, 0; 0, Ly / Ny, 0; 0, 0, Lz / Nz] : Matrix (Fin 3) (Fin 3) ℝ).det
      = Lx / Nx * (Ly / Ny) * (Lz / Nz) := by
    rw [Matrix.det_fin_three]; simp
  have hJpos := mul_pos (mul_pos h.hpos.1 h.hpos.2.1) h.hpos.2.2
  have hC : ∀ iv, ContDiffAt ℝ 1 (P.tensorMap iv) 0 := by
    intro iv
    rw [htensor]
    exact firstPK_contDiff _ (psi_identity_smooth _ _)
  refine ⟨⟨fun x i j => fderiv ℝ P.flat x (Pi.single j 1) i, ?_⟩, fun tan htan => ?_⟩
  · have hcd := flat_contDiff P h.wf hmass hsurf hC
    filter_upwards [hcd.eventually (by simp)] with y hy
    have := (hy.differentiableAt (by norm_num)).hasFDerivAt
    refine this.congr_fderiv ?_
    ext1 v
    have e : v = ∑ l, v l • (Pi.single l (1 : ℝ) : Fin (totalDofs P.fes) → ℝ) := by
      funext b
      rw [Finset.sum_apply, Finset.sum_eq_single b]
      · simp
      · intro a _ ha
        simp [ha.symm]
      · simp
    funext i
    conv_lhs => rw [e]
    rw [map_sum, Finset.sum_apply]
    refine Eq.trans ?_ (matCLM_apply _ v i).symm
    refine Finset.sum_congr rfl fun l _ => ?_
    rw [map_smul, Pi.smul_apply, smul_eq_mul, mul_comm]
  · refine C90_solid P h.wf ?_ hmass hsurf (fun iv => by rw [htensor]; exact firstPK_zero _ _) hC ?_ ?_ bcs hb hzero
      (h.held _ hfix) tan htan
    · intro cell hc q
      rw [h.jac _ (List.mem_map_of_mem hc), hJ, h.el]
      exact mul_pos hJpos (hw q)
    · intro iv H
      rw [htensor]
      dsimp only
      rw [firstPK_fderiv E nuP (by linarith) (by linarith)]
      have := C82_monotone E nuP hE h1 h2 le_rfl H 0
      have e1 : (fun i j => Elastic.stress E nuP H i j - Elastic.stress E nuP (0 : Fin 3 → Fin 3 → ℝ) i j) = Elastic.stress E nuP H := by
        funext i j
        simp [Elastic.stress]
      have e2 : (fun i j => H i j - (0 : Fin 3 → Fin 3 → ℝ) i j) = H := by
        funext i j
        simp
      have e3 : symPart (0 : Fin 3 → Fin 3 → ℝ) = 0 := by
        funext i j
        simp [symPart]
      rwa [e1, e2, e3] at this
    · intro cell hc
      have hmem : cell.nodes ∈ (boxMesh Nx Ny Nz Lx Ly Lz).2 := by rw [← h.conn]; exact List.mem_map_of_mem hc
      obtain ⟨i, j, k, hi, hj, hk, e⟩ := box_cell_mem Nx Ny Nz Lx Ly Lz cell.nodes hmem
      have := (C82_rigid w (fun _ _ => 0) p).2.2.2 t x y z hx hy hz ht
        !![Lx / Nx, 0, 0; 0, Ly / Ny, 0; 0, 0, Lz / Nz]
        ![(i : ℝ) * (Lx / Nx), (j : ℝ) * (Ly / Ny), (k : ℝ) * (Lz / Nz)] (by rw [hJ]; exact hJpos.ne')
      rw [h.el, e]
      have ee : coords 8 P.points (boxCorners Ny Nz i j k)
          = fun a c => ∑ l, !![Lx / Nx, 0, 0; 0, Ly / Ny, 0; 0, 0, Lz / Nz] c l * hex8V a l
            + ![(i : ℝ) * (Lx / Nx), (j : ℝ) * (Ly / Ny), (k : ℝ) * (Lz / Nz)] c := by
        funext a c
        exact h.coords i j k hi hj hk a c
      rw [ee]
      exact this

/-- The neo-Hookean version of the cube of C82, without its loads; mesh and quadrature rule meet the hypotheses of `C90_box` (the
examples of C82 cover quadrature points and boundary conditions). -/
example : ∃ P : Problem1 Unit 8 1 8 3 3, OnBox P 1 1 1 1 1 1 exBoxPts (fun _ => 1 / 8) ∧ P.massMap = none ∧ P.surfaces = []
    ∧ P.tensorMap = (fun _ => Hyper.firstPK (Hyper.psi 3 (Hyper.muOf 70000 (3 / 10)) (Hyper.kappaOf 70000 (3 / 10))))
    ∧ (P.withSurfaces exElastic.surfaces).WF ∧ (P.withSurfaces exElastic.surfaces).DeadLoads := by
  have hb : OnBox { exElastic with
      surfaces := []
      tensorMap := fun _ => Hyper.firstPK (Hyper.psi 3 (Hyper.muOf 70000 (3 / 10)) (Hyper.kappaOf 70000 (3 / 10))) } 1 1 1 1 1 1 exBoxPts (fun _ => 1 / 8) :=
    { exElastic_box with faces := fun s hs => absurd hs (by simp) }
  refine ⟨_, hb, rfl, rfl, rfl, ⟨hb.wf.nonempty, hb.wf.points, hb.wf.cell_length, hb.wf.cell_lt, exElastic_box.wf.face_lt⟩, ?_⟩
  intro s hs iv u v x
  simp only [Problem1.withSurfaces, exElastic, List.mem_singleton] at hs
  subst hs
  rfl

end JaxFem
