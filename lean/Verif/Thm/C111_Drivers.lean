import Verif.Thm.C111_Steps

/-!
# C111: properties of the load steps of the finite-plasticity drivers
-/

namespace JaxFem
namespace FinitePlasticity

open scoped BigOperators

variable {nq nfq nn : Nat}

section

variable (m : Mat) (numTotalNodes : Nat) (points : List (Fin 3 → ℝ)) (cells : List (List Nat)) (el : RefElement ℝ nq nn 3)
  (fc : RefFaces ℝ nfq nn 3)

local notation "𝒫" => problem m numTotalNodes points cells el fc

/-! ### Helper lemmas -/

theorem cauchy_stored (hm : m.Ok) (s : FState) (hs : Good s) (g : M3) (hd : 0 < (g + 1).det) :
    cauchy m s g = storedStress m (updateVars m s g) := by
  have h2 := (update_inside m hm s hs g hd).2
  have hu : IsUnit (g + 1).det := isUnit_iff_ne_zero.2 hd.ne'
  have hF : (updateVars m s g).F = g + 1 := rfl
  have hk : ((g + 1)⁻¹).transpose * (g + 1).transpose = 1 := by
    rw [← Matrix.transpose_mul, Matrix.mul_nonsing_inv _ hu, Matrix.transpose_one]
  unfold cauchy firstPK storedStress
  rw [h2, hF, Matrix.smul_mul, Matrix.mul_assoc, hk, Matrix.mul_one, getTau, deviatoric]
  congr 3
  · congr 1; ring
  · congr 2; ring

theorem firstPK_init (hm : m.Ok) : firstPK m fInit 0 = 0 := by
  have ht : beTrial fInit 0 = 1 := by
    rw [beTrial_stored fInit 0 (by simp [fInit]) (by simp)]
    rfl
  have hdv : deviatoric (1 : M3) = 0 := by
    simp [deviatoric, Matrix.trace_one]
  have hy : yieldTrial m fInit 0 < 0 := by
    have h1 : 0 < Real.sqrt (2 / 3) := Real.sqrt_pos.2 (by norm_num)
    have h2 : fInit.alpha = 0 := rfl
    have h3 : frob (m.G • (0 : M3)) = 0 := by simp [frob]
    unfold yieldTrial
    rw [ht, hdv, h3, h2, mul_zero, add_zero, zero_sub]
    have := mul_pos h1 hm.sig0
    linarith
  unfold firstPK returnMap
  dsimp only
  rw [if_pos hy]
  simp [getTau, ht, hdv]

theorem update_init (hm : m.Ok) : updateVars m fInit 0 = fInit := by
  have hr := returnMap_stored m hm fInit ⟨by simp [fInit], by simpa [fInit] using Matrix.PosDef.one, le_refl _⟩ 0
    (by simp [fInit]) (by
      have h1 : 0 < Real.sqrt (2 / 3) := Real.sqrt_pos.2 (by norm_num)
      have hdv : deviatoric (fInit.be) = 0 := by simp [deviatoric, fInit, Matrix.trace_one]
      have h2 : fInit.alpha = 0 := rfl
      have h3 : frob (m.G • (0 : M3)) = 0 := by simp [frob]
      rw [hdv, h3, radius, h2, mul_zero, add_zero]
      exact (mul_pos h1 hm.sig0).le)
  have hu : updateVars m fInit 0 = ⟨0 + 1, (returnMap m fInit 0).1, (returnMap m fInit 0).2.1⟩ := rfl
  rw [hu, hr, zero_add]
  rfl

theorem misfit_zero_iters (h : (𝒫).WF) (info : ℝ → UserBC.Info (Fin 3 → ℝ) ℝ) (scale : ℝ) (hi : Proper (info scale))
    (num : Numerics (𝒫).cells.length nq (totalDofs (𝒫).fes)) (fuel : Nat) (u d : Fin (totalDofs (𝒫).fes) → ℝ)
    (vars : Vars (𝒫).cells.length nq)
    (hd : Misfit 𝒫 (info scale) (piolaAt m numTotalNodes points cells el fc vars u) u d) (ht : euclid d ≤ num.tol) :
    loadStep m 𝒫 info num (fuel + 1) u vars scale = some (.ok ⟨u, 0,
      fun c q => updateVars m (vars c q) (Matrix.of ((𝒫).gradAt ((𝒫).vecField u) c q)),
      meanAxis1 fun c q => cauchy m (vars c q) (Matrix.of ((𝒫).gradAt ((𝒫).vecField u) c q))⟩) := by
  obtain ⟨b, hb, -, -⟩ := bc_builds m numTotalNodes points cells el fc h (info scale) hi
  have hd' := (misfit_iff m numTotalNodes points cells el fc h (info scale) hi b hb _ u d).1 hd
  have hz := newton_zero (newtonUpdate (𝒫).fes [UserBC.entries b] (residualVec 𝒫 vars) (num.tan vars))
    (fun rA => norm2 rA.1) (newtonStep (𝒫).fes [UserBC.entries b] (fun r => .fin (norm2 r)) (residualVec 𝒫 vars) num.solve
      num.lineSearch) num.tol num.relTol u _ rfl fuel (by
      dsimp only
      rw [residualVec_eq m numTotalNodes points cells el fc h vars u, ← hd']
      exact ht)
  rw [loadStep, hb]
  dsimp only
  rw [hz, ← gp_eq, ← stress_eq]
  rfl

/-! ### Property theorems -/

/-- **C111 (one load step).** A finished step stores the deformation of its solution; the variables stay good and the plastic
strain does not decrease; the internal forces of the solution are the same for the variables before and after the update;
and the stresses, computed from the copy of the old variables, are the Cauchy stresses of the new state. -/
theorem C111_step (hm : m.Ok) (info : ℝ → UserBC.Info (Fin 3 → ℝ) ℝ)
    (num : Numerics (𝒫).cells.length nq (totalDofs (𝒫).fes)) (fuel : Nat) (u : Fin (totalDofs (𝒫).fes) → ℝ)
    (vars : Vars (𝒫).cells.length nq) (scale : ℝ) (st : Step (𝒫).cells.length nq (totalDofs (𝒫).fes))
    (hst : loadStep m 𝒫 info num fuel u vars scale = some (.ok st)) (hg : ∀ c q, Good (vars c q)) (hu : Upright 𝒫 st.sol) :
    (∀ c q, Good (st.vars c q) ∧ (st.vars c q).F = defAt 𝒫 st.sol c q ∧ (vars c q).alpha ≤ (st.vars c q).alpha) ∧
    piolaAt m numTotalNodes points cells el fc st.vars st.sol = piolaAt m numTotalNodes points cells el fc vars st.sol ∧
    (∀ c, st.sigmas c = (1 / (nq : ℝ)) • ∑ q, storedStress m (st.vars c q)) := by
  obtain ⟨b, -, -, hv, hs⟩ := loadStep_cases m numTotalNodes points cells el fc info num fuel u vars scale st hst
  refine ⟨fun c q => ?_, ?_, fun c => ?_⟩
  · have h := C55_step m hm (vars c q) (hg c q) (Matrix.of ((𝒫).gradAt ((𝒫).vecField st.sol) c q)) (hu c q)
    rw [hv]
    exact ⟨h.1, rfl, h.2.1⟩
  · funext c q
    rw [piolaAt, hv]
    exact (C111_reevaluate m hm (vars c q) (hg c q) _ (hu c q)).2.1
  · rw [hs, meanAxis1, hv]
    congr 1
    exact Finset.sum_congr rfl fun q _ => cauchy_stored m hm (vars c q) (hg c q) _ (hu c q)

/-- **C111 (iterations).** With `0 ≤ tol` and `rel_tol < 1` a finished step has made no Newton iteration exactly if the
misfit of the previous solution, for the new boundary values, is not above `tol`; then the solution is the previous one. -/
theorem C111_iterations (h : (𝒫).WF) (info : ℝ → UserBC.Info (Fin 3 → ℝ) ℝ) (scale : ℝ) (hi : Proper (info scale))
    (num : Numerics (𝒫).cells.length nq (totalDofs (𝒫).fes)) (h0 : 0 ≤ num.tol) (h1 : num.relTol < 1) (fuel : Nat)
    (u d : Fin (totalDofs (𝒫).fes) → ℝ) (vars : Vars (𝒫).cells.length nq)
    (st : Step (𝒫).cells.length nq (totalDofs (𝒫).fes))
    (hst : loadStep m 𝒫 info num fuel u vars scale = some (.ok st))
    (hd : Misfit 𝒫 (info scale) (piolaAt m numTotalNodes points cells el fc vars u) u d) :
    (st.iters = 0 ↔ euclid d ≤ num.tol) ∧ (st.iters = 0 → st.sol = u) := by
  obtain ⟨b, hb, hn, -, -⟩ := loadStep_cases m numTotalNodes points cells el fc info num fuel u vars scale st hst
  have hd' := (misfit_iff m numTotalNodes points cells el fc h (info scale) hi b hb _ u d).1 hd
  have := newton_start (newtonUpdate (𝒫).fes [UserBC.entries b] (residualVec 𝒫 vars) (num.tan vars))
    (fun rA => norm2 rA.1) (newtonStep (𝒫).fes [UserBC.entries b] (fun r => .fin (norm2 r)) (residualVec 𝒫 vars) num.solve
      num.lineSearch) num.tol num.relTol u _ rfl fuel st.sol st.iters h0 h1 hn
  dsimp only at this
  rw [residualVec_eq m numTotalNodes points cells el fc h vars u, ← hd'] at this
  exact this

/-- **C111 (repeated load).** If a step ends with a misfit not above `tol`, a further step with the same load makes no
iteration and leaves solution, internal variables and stresses as they are. -/
theorem C111_repeat (h : (𝒫).WF) (hm : m.Ok) (info : ℝ → UserBC.Info (Fin 3 → ℝ) ℝ) (scale : ℝ) (hi : Proper (info scale))
    (num : Numerics (𝒫).cells.length nq (totalDofs (𝒫).fes)) (fuel fuel' : Nat) (u d : Fin (totalDofs (𝒫).fes) → ℝ)
    (vars : Vars (𝒫).cells.length nq) (st : Step (𝒫).cells.length nq (totalDofs (𝒫).fes))
    (hst : loadStep m 𝒫 info num fuel u vars scale = some (.ok st)) (hg : ∀ c q, Good (vars c q)) (hu : Upright 𝒫 st.sol)
    (hd : Misfit 𝒫 (info scale) (piolaAt m numTotalNodes points cells el fc vars st.sol) st.sol d)
    (ht : euclid d ≤ num.tol) :
    loadStep m 𝒫 info num (fuel' + 1) st.sol st.vars scale = some (.ok { st with iters := 0 }) := by
  obtain ⟨b, -, -, hv, hs⟩ := loadStep_cases m numTotalNodes points cells el fc info num fuel u vars scale st hst
  have hp := (C111_step m numTotalNodes points cells el fc hm info num fuel u vars scale st hst hg hu).2.1
  rw [← hp] at hd
  rw [misfit_zero_iters m numTotalNodes points cells el fc h info scale hi num fuel' st.sol d st.vars hd ht]
  have hr := fun c q => C111_reevaluate m hm (vars c q) (hg c q) (Matrix.of ((𝒫).gradAt ((𝒫).vecField st.sol) c q)) (hu c q)
  have e1 : (fun c q => updateVars m (st.vars c q) (Matrix.of ((𝒫).gradAt ((𝒫).vecField st.sol) c q))) = st.vars := by
    funext c q
    rw [hv]
    exact (hr c q).1
  have e2 : (fun c q => cauchy m (st.vars c q) (Matrix.of ((𝒫).gradAt ((𝒫).vecField st.sol) c q)))
      = fun c q => cauchy m (vars c q) (Matrix.of ((𝒫).gradAt ((𝒫).vecField st.sol) c q)) := by
    funext c q
    rw [hv]
    exact (hr c q).2.2
  rw [e1, e2, ← hs]

/-- **C111 (start).** From the initial state, a step whose conditions demand only zeros returns the zero solution without
iteration, unchanged internal variables and zero stresses. -/
theorem C111_start (h : (𝒫).WF) (hm : m.Ok) (info : ℝ → UserBC.Info (Fin 3 → ℝ) ℝ) (scale : ℝ) (hi : Proper (info scale))
    (hz : ∀ it ∈ UserBC.conds (info scale), ∀ p, it.2.2 p = 0)
    (num : Numerics (𝒫).cells.length nq (totalDofs (𝒫).fes)) (h0 : 0 ≤ num.tol) (fuel : Nat) :
    loadStep m 𝒫 info num (fuel + 1) 0 (initVars (𝒫).cells.length) scale
      = some (.ok ⟨0, 0, initVars (𝒫).cells.length, 0⟩) := by
  have hgr : ∀ c q, Matrix.of ((𝒫).gradAt ((𝒫).vecField 0) c q) = 0 := by
    intro c q
    have hv : (𝒫).vecField 0 = fun _ _ => 0 := by
      funext n k
      simp [Problem1.vecField]
    ext i j
    show (𝒫).gradient ((𝒫).vecField 0) ((𝒫).cells[c]).nodes q i j = 0
    rw [hv, gradient_eq]
    simp
  have hst : piolaAt m numTotalNodes points cells el fc (initVars (𝒫).cells.length) 0 = fun _ _ => 0 := by
    funext c q
    rw [piolaAt, hgr]
    exact firstPK_init m hm
  have hd : Misfit 𝒫 (info scale) (piolaAt m numTotalNodes points cells el fc (initVars (𝒫).cells.length) 0) 0 0 := by
    intro n hn c hc k hk
    refine ⟨fun v hv => ?_, fun _ => ?_⟩
    · obtain _ | ⟨pre, it, post, p, e, h1, h2, h3, -⟩ := hv
      rw [hz it (by simp [e]) p]
      simp
    · rw [hst]
      simp [internalForce]
  have ht : euclid (0 : Fin (totalDofs (𝒫).fes) → ℝ) ≤ num.tol := by simpa [euclid] using h0
  rw [misfit_zero_iters m numTotalNodes points cells el fc h info scale hi num fuel 0 0 _ hd ht]
  have e1 : (fun (c : Fin (𝒫).cells.length) (q : Fin nq) => updateVars m (initVars (𝒫).cells.length c q)
      (Matrix.of ((𝒫).gradAt ((𝒫).vecField 0) c q))) = initVars (𝒫).cells.length := by
    funext c q
    rw [hgr]
    exact update_init m hm
  have e2 : (meanAxis1 fun (c : Fin (𝒫).cells.length) (q : Fin nq) => cauchy m (initVars (𝒫).cells.length c q)
      (Matrix.of ((𝒫).gradAt ((𝒫).vecField 0) c q))) = 0 := by
    funext c
    rw [meanAxis1]
    have : ∀ q : Fin nq, cauchy m (initVars (𝒫).cells.length c q) (Matrix.of ((𝒫).gradAt ((𝒫).vecField 0) c q)) = 0 := by
      intro q
      rw [hgr]
      show cauchy m fInit 0 = 0
      rw [cauchy, firstPK_init m hm]
      simp
    simp [this]
  rw [e1, e2]

end

end FinitePlasticity
end JaxFem
