import Verif.Thm.C92_TopOpt

/-!
# C92: the solver and the differentiable solver in topology optimisation
-/

namespace JaxFem

open scoped BigOperators Topology

variable {IV : Type} {nq nfq nn dim : Nat}

/-! ### Helper lemmas -/

theorem uniqueField_scaled (P : Problem1 IV nq nfq nn dim dim) (h : P.WF) (hpos : P.PositiveMeasure)
    (hl : P.DeadLoad) (e : IV → ℝ) (C : (Fin dim → Fin dim → ℝ) →ₗ[ℝ] (Fin dim → Fin dim → ℝ)) (hC : P.Scaled e C)
    (hdef : ∀ G, contract (C G) G = 0 → symPart G = 0)
    (hdet : ∀ cell ∈ P.cells, P.el.StrainDetermines (coords nn P.points cell.nodes))
    (free : Nat → Fin dim → Prop) (hheld : ∀ n < P.numTotalNodes, P.Held free n) (iv : Nat → Fin nq → IV)
    (he : ∀ c < P.cells.length, ∀ q, 0 < e (iv c q)) : (P.atIv iv).UniqueField free := by
  intro u w hvw hbc n hn
  have hB := pointForm_psd P hpos e C hC
  rw [atIv_virtualWork P hl e C hC, atIv_virtualWork P hl e C hC] at hvw
  have hd : (fun n c => u n c - w n c) = u - w := rfl
  rw [hd] at hvw
  have hsum : ∑ i : Fin P.cells.length × Fin nq, e (iv i.1 i.2) * P.pointForm C i (u - w) (u - w) = 0 := by
    have : ∀ i, e (iv i.1 i.2) * P.pointForm C i (u - w) (u - w)
        = e (iv i.1 i.2) * P.pointForm C i u (u - w) - e (iv i.1 i.2) * P.pointForm C i w (u - w) := by
      intro i
      rw [(hB i).sub]; ring
    simp only [this, Finset.sum_sub_distrib]
    linarith
  have hzero := (Finset.sum_eq_zero_iff_of_nonneg fun i _ =>
    mul_nonneg (he _ i.1.2 _).le ((hB i).nonneg _)).1 hsum
  refine held_unique P h hdet free u w ?_ hbc n (hheld n hn)
  intro cell hc q
  obtain ⟨k, hk, rfl⟩ := List.getElem_of_mem hc
  have h1 := hzero (⟨k, hk⟩, q) (Finset.mem_univ _)
  have h2 : P.pointForm C (⟨k, hk⟩, q) (u - w) (u - w) = 0 :=
    (mul_eq_zero.1 h1).resolve_left (he k hk q).ne'
  have h3 : contract (C (P.gradAt (u - w) ⟨k, hk⟩ q)) (P.gradAt (u - w) ⟨k, hk⟩ q) = 0 :=
    (mul_eq_zero.1 h2).resolve_right (hpos _ (List.getElem_mem hk) q).ne'
  have h4 := hdef _ h3
  have h5 : P.gradAt (u - w) ⟨k, hk⟩ q = fun i j => P.gradAt u ⟨k, hk⟩ q i j - P.gradAt w ⟨k, hk⟩ q i j := by
    have := gradient_lin P (-1) w u (P.cells[k]).nodes q
    have e1 : (fun n c => -1 * w n c + u n c) = u - w := by
      funext n c; simp only [Pi.sub_apply]; ring
    rw [e1] at this
    funext i j
    have := congrFun (congrFun this i) j
    refine this.trans ?_
    simp only [Problem1.gradAt]
    show -1 * P.gradient w (P.cells[k]).nodes q i j + P.gradient u (P.cells[k]).nodes q i j
      = P.gradient u (P.cells[k]).nodes q i j - P.gradient w (P.cells[k]).nodes q i j
    ring
  rw [h5] at h4
  funext i j
  have := congrFun (congrFun h4 i) j
  simp only [symPart, Pi.zero_apply, Problem1.gradAt] at this ⊢
  show (P.gradient u (P.cells[k]).nodes q i j + P.gradient u (P.cells[k]).nodes q j i) / 2
    = (P.gradient w (P.cells[k]).nodes q i j + P.gradient w (P.cells[k]).nodes q j i) / 2
  have t : (P.gradient u (P.cells[k]).nodes q i j - P.gradient w (P.cells[k]).nodes q i j
    + (P.gradient u (P.cells[k]).nodes q j i - P.gradient w (P.cells[k]).nodes q j i)) / 2 = 0 := this
  linarith

theorem scaled_affine (P : Problem1 IV nq nfq nn dim dim) (hl : P.DeadLoad) (e : IV → ℝ)
    (C : (Fin dim → Fin dim → ℝ) →ₗ[ℝ] (Fin dim → Fin dim → ℝ)) (hC : P.Scaled e C) (iv : Nat → Fin nq → IV) :
    (P.atIv iv).Affine where
  tensor := fun t => ⟨e t • C, fun G => by
    funext i j
    have h1 : (P.atIv iv).tensorMap t G i j = e t * C G i j := hC.map t G i j
    have h0 : (P.atIv iv).tensorMap t 0 i j = e t * C 0 i j := hC.map t 0 i j
    rw [Pi.add_apply, Pi.add_apply, h1, h0, C.map_zero]
    simp⟩
  mass := fun m hm => absurd (hl.mass.symm.trans hm) (by simp)
  surface := by
    intro s hs t x
    obtain ⟨s', hs', hm⟩ := hl.surface
    have : s = s' := by
      have : s ∈ P.surfaces := hs
      rw [hs'] at this
      simpa using this
    subst this
    exact ⟨0, fun u => by rw [hm t u 0 x]; simp⟩

theorem loadWork_lin (P : Problem1 IV nq nfq nn dim dim) (a : ℝ) (x y : Fin (totalDofs P.fes) → ℝ) (h : P.WF)
    (hl : P.DeadLoad) (e : IV → ℝ) (C : (Fin dim → Fin dim → ℝ) →ₗ[ℝ] (Fin dim → Fin dim → ℝ)) (hC : P.Scaled e C)
    (hpos : P.PositiveMeasure) (iv : Nat → Fin nq → IV) :
    P.loadWork (P.vecField (a • x + y)) = a * P.loadWork (P.vecField x) + P.loadWork (P.vecField y) := by
  have hB := dofForm_psd P hpos e C hC
  -- the virtual work at the zero field is minus the work of the load
  have key : ∀ z : Fin (totalDofs P.fes) → ℝ,
      P.loadWork (P.vecField z) = -∑ k, z k * P.flatIv iv 0 k := by
    intro z
    have h1 := flat_virtualWork (P.atIv iv) (atIv_WF P h iv) 0 z
    have h2 : (P.atIv iv).virtualWork (P.vecField 0) (P.vecField z) = _ := atIv_virtualWork P hl e C hC iv _ _
    have h3 : ∑ i : Fin P.cells.length × Fin nq, e (iv i.1 i.2) * P.pointForm C i (P.vecField 0) (P.vecField z)
        = 0 := by
      refine Finset.sum_eq_zero fun i _ => ?_
      have := (hB i).smul 0 0 z
      rw [zero_smul, zero_mul] at this
      show e (iv i.1 i.2) * P.dofForm C i 0 z = 0
      rw [this, mul_zero]
    rw [h3, zero_sub] at h2
    have h4 : ∑ k, z k * P.flatIv iv 0 k = -P.loadWork (P.vecField z) := h1.trans h2
    rw [h4, neg_neg]
  simp only [key, Pi.add_apply, Pi.smul_apply, smul_eq_mul, add_mul, Finset.sum_add_distrib, mul_assoc,
    ← Finset.mul_sum]
  ring

section

variable (P : Problem1 IV nq nfq nn dim dim) (h : P.WF) (hpos : P.PositiveMeasure) (hl : P.DeadLoad) (e : IV → ℝ)
  (C : (Fin dim → Fin dim → ℝ) →ₗ[ℝ] (Fin dim → Fin dim → ℝ)) (hC : P.Scaled e C)
  (hdef : ∀ G, contract (C G) G = 0 → symPart G = 0)
  (hdet : ∀ cell ∈ P.cells, P.el.StrainDetermines (coords nn P.points cell.nodes))
  (bcs : List (List (BCEntry ℝ))) (hb : WFBC P.fes bcs)
  (hheld : ∀ n < P.numTotalNodes, P.Held (fun n c => FreeDof (bcs.getD 0 []) n c) n)

include h hpos hl hC hdef hdet hb hheld

/-- The eliminated tangent of a supported structure is regular. -/
theorem regular_scaled (iv : Nat → Fin nq → IV) (he : ∀ c < P.cells.length, ∀ q, 0 < e (iv c q))
    (u : Fin (totalDofs P.fes) → ℝ) (T : Matrix (Fin (totalDofs P.fes)) (Fin (totalDofs P.fes)) ℝ)
    (hT : HasJacobianAt (P.flatIv iv) T u) : (elimRows P.fes bcs T).det ≠ 0 := by
  have hb' : WFBC (P.atIv iv).fes bcs := by rw [atIv_fes]; exact hb
  obtain ⟨T', f, hT'⟩ : ∃ (T' : Matrix (Fin (totalDofs P.fes)) (Fin (totalDofs P.fes)) ℝ)
      (f : Fin (totalDofs P.fes) → ℝ), ∀ x, P.flatIv iv x = T'.mulVec x - f :=
    C74_affine (P.atIv iv) (atIv_WF P h iv) (scaled_affine P hl e C hC iv)
  have hreg : (elimRows (N := totalDofs P.fes) (P.atIv iv).fes bcs T').det ≠ 0 :=
    regular_of_unique (P.atIv iv) (atIv_WF P h iv) bcs hb'
      (uniqueField_scaled P h hpos hl e C hC hdef hdet _ hheld iv he) T' f hT'
  rw [atIv_fes] at hreg
  have hflat : P.flatIv iv = fun x => matCLM T' x - f := by
    funext x
    exact hT' x
  have h1 : HasFDerivAt (P.flatIv iv) (matCLM T') u := by
    rw [hflat]
    exact (matCLM T').hasFDerivAt.sub_const f
  have : T = T' := matCLM_inj (HasFDerivAt.unique hT h1)
  rw [this]
  exact hreg

/-- **C92 (solver).** A structure with positive stiffness at all quadrature points, without spurious zero-strain
modes and with all nodes held has exactly one equilibrium, and `solver` returns it. -/
theorem C92_solver (iv : Nat → Fin nq → IV) (he : ∀ c < P.cells.length, ∀ q, 0 < e (iv c q))
    (A : (Fin (totalDofs P.fes) → ℝ) → Matrix (Fin (totalDofs P.fes)) (Fin (totalDofs P.fes)) ℝ)
    (hA : ∀ x, HasJacobianAt (P.flatIv iv) (A x) x) (nu : (Fin (totalDofs P.fes) → ℝ) → ℝ)
    (hnu0 : ∀ r, 0 ≤ nu r) (hnu : ∀ r, nu r = 0 ↔ r = 0)
    (solve : Matrix (Fin (totalDofs P.fes)) (Fin (totalDofs P.fes)) ℝ → (Fin (totalDofs P.fes) → ℝ) →
      (Fin (totalDofs P.fes) → ℝ) → Except Err (Fin (totalDofs P.fes) → ℝ)) (hs : ExactSolver solve)
    (hs' : ∀ A b x0, A.det ≠ 0 → ∃ x, solve A b x0 = .ok x) (ls : Bool) (relTol : ℝ)
    (hrel : relTol < 1) :
    ∃ u, SolvesBVP P.fes bcs (P.flatIv iv) u ∧ (∀ w, SolvesBVP P.fes bcs (P.flatIv iv) w → w = u) ∧
      ∀ (u0 : Fin (totalDofs P.fes) → ℝ) (fuel : Nat), ∃ n ≤ 1,
        newtonSolve (newtonUpdate P.fes bcs (P.flatIv iv) A) (fun rA => .fin (nu rA.1))
          (newtonStep P.fes bcs (fun r => .fin (nu r)) (P.flatIv iv) solve ls) (fun _ => true) 0 relTol u0
          (fuel + 2) = some (.ok (u, n)) := by
  have hb' : WFBC (P.atIv iv).fes bcs := by rw [atIv_fes]; exact hb
  have key : ∃ u, SolvesBVP (N := totalDofs P.fes) (P.atIv iv).fes bcs (P.flatIv iv) u ∧
      (∀ w, SolvesBVP (N := totalDofs P.fes) (P.atIv iv).fes bcs (P.flatIv iv) w → w = u) ∧
      ∀ (u0 : Fin (totalDofs P.fes) → ℝ) (fuel : Nat), ∃ n ≤ 1,
        newtonSolve (newtonUpdate (N := totalDofs P.fes) (P.atIv iv).fes bcs (P.flatIv iv) A)
          (fun rA => .fin (nu rA.1))
          (newtonStep (N := totalDofs P.fes) (P.atIv iv).fes bcs (fun r => .fin (nu r)) (P.flatIv iv) solve ls)
          (fun _ => true) 0 relTol u0 (fuel + 2) = some (.ok (u, n)) :=
    solver_of_unique (P.atIv iv) (atIv_WF P h iv) (scaled_affine P hl e C hC iv) bcs hb'
      (uniqueField_scaled P h hpos hl e C hC hdef hdet _ hheld iv he) A hA nu hnu0 hnu solve hs hs' ls relTol hrel
  rw [atIv_fes] at key
  exact key

/-- **C92 (gradient).** What the backward pass of `ad_wrapper` returns for the compliance is the sensitivity: with the
cotangent of `compute_compliance` at the solution and an exact adjoint solver, the result is minus energy times
derivative of the stiffness, summed over the quadrature points. -/
theorem C92_gradient (hz : ZeroValues bcs) {X : Type} [NormedAddCommGroup X] [NormedSpace ℝ X] [CompleteSpace X]
    (iv : X → Nat → Fin nq → IV) (x0 : X)
    (hsm : ∀ c < P.cells.length, ∀ q, ContDiffAt ℝ 1 (fun x => e (iv x c q)) x0)
    (he : ∀ c < P.cells.length, ∀ q, 0 < e (iv x0 c q))
    (tan : X → (Fin (totalDofs P.fes) → ℝ) → Matrix (Fin (totalDofs P.fes)) (Fin (totalDofs P.fes)) ℝ)
    (solve : (n : Nat) → Matrix (Fin n) (Fin n) ℝ → (Fin n → ℝ) → Except Err (Fin n → ℝ))
    (hs : ExactAdjointSolver solve) (hs' : ∀ n A b, A.det ≠ 0 → ∃ x, solve n A b = .ok x)
    (u0 : Fin (totalDofs P.fes) → ℝ) (ht : HasJacobianAt (P.flatIv (iv x0)) (tan x0 u0) u0)
    (hu0 : SolvesBVP P.fes bcs (P.flatIv (iv x0)) u0) (J : (Fin (totalDofs P.fes) → ℝ) → ℝ)
    (hJ : ∀ u, TopOpt.computeCompliance (P.atIv (iv x0)) (P.solArray u) = .ok (J u))
    (v : Fin (totalDofs P.fes) → ℝ) (hv : HasFDerivAt J (dotCLM v) u0) :
    implicitVjp P.fes (fun _ => bcs) (fun x => P.flatIv (iv x)) tan none solve u0 x0 v
      = .ok (-∑ c : Fin P.cells.length, ∑ q,
          P.energyAt C (P.vecField u0) c q • fderiv ℝ (fun x => e (iv x c q)) x0) := by
  have hreg := regular_scaled P h hpos hl e C hC hdef hdet bcs hb hheld (iv x0) he u0 _ ht
  obtain ⟨g, hg⟩ : ∃ g, implicitVjp P.fes (fun _ => bcs) (fun x => P.flatIv (iv x)) tan none solve u0 x0 v
      = .ok g := by
    obtain ⟨x, hx⟩ := hs' (totalDofs P.fes) (elimRows P.fes bcs (tan x0 u0)).transpose v
      (by rw [Matrix.det_transpose]; exact hreg)
    exact ⟨_, by simp only [implicitVjp, hx]; rfl⟩
  rw [hg]
  congr 1
  -- the residual is smooth in the solution and the parameter
  have hres : ContDiffAt ℝ 1 (fun z : (Fin (totalDofs P.fes) → ℝ) × X => P.flatIv (iv z.2) z.1) (u0, x0) := by
    refine contDiffAt_pi.2 fun k => ?_
    have ee : (fun z : (Fin (totalDofs P.fes) → ℝ) × X => P.flatIv (iv z.2) z.1 k) = fun z =>
        ∑ i : Fin P.cells.length × Fin nq, e (iv z.2 i.1 i.2) * P.dofForm C i z.1 (Pi.single k 1)
          - P.loadWork (P.vecField (Pi.single k 1)) := by
      funext z
      exact (flat_entry (P.atIv (iv z.2)) (atIv_WF P h _) z.1 k).trans (atIv_virtualWork P hl e C hC _ _ _)
    rw [ee]
    refine ContDiffAt.sub (ContDiffAt.sum fun i _ => ?_) contDiffAt_const
    refine ContDiffAt.mul ?_ ?_
    · exact ContDiffAt.comp (g := fun x => e (iv x i.1 i.2)) (f := Prod.snd) (u0, x0) (hsm _ i.1.2 _) contDiffAt_snd
    · have hB := dofForm_psd P hpos e C hC i
      let L : (Fin (totalDofs P.fes) → ℝ) →ₗ[ℝ] ℝ :=
        { toFun := fun x => P.dofForm C i x (Pi.single k 1)
          map_add' := fun x y => hB.add x y _
          map_smul' := fun a x => hB.smul a x _ }
      exact (LinearMap.toContinuousLinearMap L).contDiff.contDiffAt.comp (u0, x0) contDiffAt_fst
  obtain ⟨u, hu, -, hsol, hder⟩ := C38_branch P.fes (fun _ => bcs) (fun x => P.flatIv (iv x)) tan solve hs x0 u0
    (fun _ => hb) ht (constraint_smooth P.fes bcs hb (fun x => P.flatIv (iv x)) (u0, x0) hres) hreg hu0 v g hg
  -- the cotangent is the load vector
  have hJ' : J = fun u => P.loadWork (P.vecField u) := funext fun u => (compliance_value P hl _ _ _).1 (hJ u)
  have hlin : ∀ a x y, P.loadWork (P.vecField (a • x + y))
      = a * P.loadWork (P.vecField x) + P.loadWork (P.vecField y) :=
    fun a x y => loadWork_lin P a x y h hl e C hC hpos (iv x0)
  let Ll : (Fin (totalDofs P.fes) → ℝ) →ₗ[ℝ] ℝ :=
    { toFun := fun x => P.loadWork (P.vecField x)
      map_add' := fun x y => by have := hlin 1 x y; rwa [one_smul, one_mul] at this
      map_smul' := fun a x => by
        have := hlin a x 0
        have z0 := hlin 1 0 0
        rw [one_smul, one_mul, add_zero] at z0
        rw [add_zero] at this
        show _ = a * _
        linarith }
  have hv' : dotCLM v = LinearMap.toContinuousLinearMap Ll := by
    have : HasFDerivAt J (LinearMap.toContinuousLinearMap Ll) u0 := by
      rw [hJ']
      exact (LinearMap.toContinuousLinearMap Ll).hasFDerivAt
    exact hv.unique this
  have hdot : ∀ y, dotProduct v y = P.loadWork (P.vecField y) := fun y => by
    have := congrArg (fun L : (Fin (totalDofs P.fes) → ℝ) →L[ℝ] ℝ => L y) hv'
    exact this
  simp only [hdot] at hder
  have hsens := C92_sensitivity P h hpos hl e C hC bcs hb hz iv x0 (fun c q => fderiv ℝ (fun x => e (iv x c q)) x0)
    (fun c q => ((hsm _ c.2 q).differentiableAt one_ne_zero).hasFDerivAt) (fun c q => he _ c.2 q) u hsol
    (fun x => P.loadWork (P.vecField (u x))) (fun x => computeCompliance_eq P hl _ _)
  rw [hu] at hsens
  exact hder.unique hsens

end

end JaxFem
