import Verif.Model.PlasticDrivers
import Verif.Thm.C109_ElasticVolume

/-!
# C111: the load steps of the finite-plasticity drivers (material point)
-/

namespace JaxFem
namespace FinitePlasticity

/-! ### Helper lemmas -/

/-- At the stored deformation the trial state is the stored one. -/
theorem beTrial_stored (s : FState) (g : M3) (hF : s.F = g + 1) (hd : 0 < (g + 1).det) : beTrial s g = s.be := by
  have h1 : (g + 1) * s.F⁻¹ = 1 := by
    rw [hF]
    exact Matrix.mul_nonsing_inv _ (isUnit_iff_ne_zero.2 hd.ne')
  unfold beTrial
  dsimp only
  rw [h1, Matrix.det_one, Real.one_rpow, one_smul, Matrix.transpose_one, Matrix.mul_one, Matrix.one_mul]

/-- A state at its own deformation that is inside or on the yield surface is reproduced. -/
theorem returnMap_stored (m : Mat) (hm : m.Ok) (s : FState) (hs : Good s) (g : M3) (hF : s.F = g + 1)
    (hy : frob (m.G • deviatoric s.be) ≤ radius m s.alpha) :
    returnMap m s g = (s.be, s.alpha, getTau m (g + 1) s.be) := by
  have hd : 0 < (g + 1).det := hF ▸ hs.det
  have ht := beTrial_stored s g hF hd
  have hyd : yieldTrial m s g = frob (m.G • deviatoric s.be) - radius m s.alpha := by
    unfold yieldTrial radius; rw [ht]
  by_cases h0 : yieldTrial m s g < 0
  · unfold returnMap; dsimp only; rw [if_pos h0, ht]
  · have hy0 : yieldTrial m s g = 0 := le_antisymm (by rw [hyd]; linarith) (not_lt.1 h0)
    unfold returnMap
    dsimp only
    rw [if_neg h0, hy0, ht]
    have hz : ∀ a b : ℝ, (0 : ℝ) / a / b = 0 := fun a b => by rw [zero_div, zero_div]
    have hG : m.G ≠ 0 := hm.G.ne'
    have hbe : (1 / m.G) • (m.G • deviatoric s.be) + (1 / 3 * s.be.trace) • (1 : M3) = s.be := by
      rw [smul_smul, one_div, inv_mul_cancel₀ hG, one_smul, deviatoric, one_div, sub_add_cancel]
    simp only [hz, mul_zero, zero_smul, sub_zero, add_zero, hbe]

theorem update_inside (m : Mat) (hm : m.Ok) (s : FState) (hs : Good s) (g : M3) (hd : 0 < (g + 1).det) :
    frob (m.G • deviatoric (updateVars m s g).be) ≤ radius m (updateVars m s g).alpha ∧
      (returnMap m s g).2.2 = getTau m (g + 1) (updateVars m s g).be := by
  have ht : (returnMap m s g).2.2 = getTau m (g + 1) (updateVars m s g).be := by
    unfold updateVars returnMap
    dsimp only
    split <;> rfl
  have h := (C55_step m hm s hs g hd).2.2.1
  rw [inside_iff, ht, dev_getTau] at h
  exact ⟨h, ht⟩

/-! ### Property theorems -/

/-- **C111 (material point).** Evaluating the material law once more at the deformation that has been stored changes
nothing: the stored variables are reproduced (no further plastic flow), and both stresses computed from the stored
variables are those computed from the variables before the step. -/
theorem C111_reevaluate (m : Mat) (hm : m.Ok) (s : FState) (hs : Good s) (g : M3) (hd : 0 < (g + 1).det) :
    updateVars m (updateVars m s g) g = updateVars m s g ∧
    firstPK m (updateVars m s g) g = firstPK m s g ∧ cauchy m (updateVars m s g) g = cauchy m s g := by
  obtain ⟨h1, h2⟩ := update_inside m hm s hs g hd
  have hg := (C55_step m hm s hs g hd).1
  have hr := returnMap_stored m hm (updateVars m s g) hg g rfl h1
  have hp : firstPK m (updateVars m s g) g = firstPK m s g := by
    unfold firstPK; rw [hr, h2]
  refine ⟨?_, hp, by unfold cauchy; rw [hp]⟩
  have hu : ∀ s', updateVars m s' g = ⟨g + 1, (returnMap m s' g).1, (returnMap m s' g).2.1⟩ := fun _ => rfl
  rw [hu (updateVars m s g), hr]
  rfl

/-- Plastic flow has occurred in the example: shear by `1/50` of the material of the repository (C109). -/
example : 0 < (updateVars repoMat fInit shear).alpha ∧
    updateVars repoMat (updateVars repoMat fInit shear) shear = updateVars repoMat fInit shear := by
  have hd : 0 < (shear + 1).det := by
    simp [shear, Matrix.det_fin_three]
  exact ⟨C109_shear.2, (C111_reevaluate repoMat repoMat_ok fInit
    ⟨by simp [fInit], by simpa [fInit] using Matrix.PosDef.one, le_refl _⟩ shear hd).1⟩

end FinitePlasticity
end JaxFem
