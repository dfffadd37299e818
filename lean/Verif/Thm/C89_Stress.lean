import Verif.Thm.C89_Step

/-!
C89: stresses; rotations of the body and of the crystal.
-/

namespace JaxFem.Crystal

open Matrix

variable {ns : Nat}

/-! ## Stresses -/

theorem stressS_spec (solve : (M3 →L[ℝ] M3) → M3 → M3) (fuel : Nat) (m : Material ns) (dt : ℝ) (iv : Internal ns) (G S : M3)
    (h : stressS solve fuel m dt iv G = some S) : frob (implicitResidual m dt iv G S) ≤ 1 / 10 ^ 8 := by
  unfold stressS at h
  obtain ⟨⟨c, v, y⟩, hs, rfl⟩ := Option.map_eq_some_iff.1 h
  rcases (C89_newton _ _ _ _ _ _ hs).2.2.1 with h' | ⟨x, hx, h'⟩ | h'
  · exact absurd h' (by simp [ops])
  · have : frob (implicitResidual m dt iv G y) = x := by simpa [ops] using h'
    rw [this]
    exact hx
  · exact absurd h' (by simp [ops])

theorem entry_le_frob (A : M3) (i j : Fin 3) : |A i j| ≤ frob A := by
  unfold frob
  refine Real.abs_le_sqrt ?_
  refine le_trans ?_ (Finset.single_le_sum (f := fun i => ∑ j, A i j ^ 2) (fun i _ => Finset.sum_nonneg fun j _ => sq_nonneg _)
    (Finset.mem_univ i))
  exact Finset.single_le_sum (f := fun j => A i j ^ 2) (fun j _ => sq_nonneg _) (Finset.mem_univ j)

theorem stress_part_symm (m : Material ns) (C11 C12 C44 dt : ℝ) (hC : m.C = elasticTensor C11 C12 C44) (iv : Internal ns) (G S : M3)
    (i j : Fin 3) : S i j - S j i = implicitResidual m dt iv G S i j - implicitResidual m dt iv G S j i := by
  have cs : ∀ E : Matrix (Fin 3) (Fin 3) ℝ, E.transpose = E →
      (cubicStress C11 C12 C44 E).transpose = cubicStress C11 C12 C44 E := by
    intro E hE
    ext i j
    rw [Matrix.transpose_apply]
    unfold cubicStress
    by_cases h : i = j
    · rw [h]
    · rw [if_neg h, if_neg (Ne.symm h)]
      congr 1
      exact congrFun (congrFun hE i) j
  have e : ∀ i j, ∑ k, ∑ l, rotate4 iv.rot m.C i j k l * green (elasticF m dt iv G S) k l
      = ∑ k, ∑ l, rotate4 iv.rot m.C j i k l * green (elasticF m dt iv G S) k l := by
    intro i j
    rw [hC, rotate_cubic _ _ _ _ _ (green_symm _), rotate_cubic _ _ _ _ _ (green_symm _)]
    have t : (Matrix.of iv.rot * cubicStress C11 C12 C44 ((Matrix.of iv.rot).transpose * green (elasticF m dt iv G S) * Matrix.of iv.rot)
        * (Matrix.of iv.rot).transpose).transpose
        = Matrix.of iv.rot * cubicStress C11 C12 C44 ((Matrix.of iv.rot).transpose * green (elasticF m dt iv G S) * Matrix.of iv.rot)
          * (Matrix.of iv.rot).transpose := by
      rw [Matrix.transpose_mul, Matrix.transpose_mul, Matrix.transpose_transpose,
        cs _ (conj_symm iv.rot _ (green_symm _)), ← Matrix.mul_assoc]
    exact (congrFun (congrFun t i) j).symm
  rw [residual_eq, residual_eq, e i j]
  ring

theorem cauchy_eq (m : Material ns) (dt : ℝ) (iv : Internal ns) (G S : M3) (hF : (defGrad G).det ≠ 0) :
    pToSigma (piola m dt iv G S) (defGrad G)
      = (1 / (elasticF m dt iv G S).det) • (elasticF m dt iv G S * Matrix.of S * (elasticF m dt iv G S).transpose) := by
  unfold pToSigma piola
  have e : (defGrad G)⁻¹.transpose * (defGrad G).transpose = 1 := by
    rw [← Matrix.transpose_mul, Matrix.mul_nonsing_inv _ (isUnit_iff_ne_zero.2 hF), Matrix.transpose_one]
  simp only [Matrix.smul_mul, Matrix.mul_assoc, e, Matrix.mul_one, smul_smul]
  rw [← mul_assoc, one_div_mul_cancel hF, one_mul]

theorem residual_rest (m : Material ns) (dt : ℝ) (iv : Internal ns) (G : M3)
    (h : (defGrad G * Matrix.of iv.FpInv).transpose * (defGrad G * Matrix.of iv.FpInv) = 1) :
    implicitResidual m dt iv G 0 = 0 ∧ gammaInc m dt iv 0 = 0 ∧ fpInvNew m dt iv 0 = Matrix.of iv.FpInv := by
  have ht : ∀ a, tau m iv.rot 0 a = 0 := by
    intro a
    unfold tau
    simp
  have hg : gammaInc m dt iv 0 = 0 := by
    funext a
    simp only [gammaInc, ht, sgn_zero, mul_zero]
    rfl
  have hf : fpInvNew m dt iv 0 = Matrix.of iv.FpInv := by
    unfold fpInvNew
    rw [plasticInc_eq, hg]
    simp
  refine ⟨?_, hg, hf⟩
  funext i j
  rw [residual_eq]
  have : green (elasticF m dt iv G 0) = 0 := by
    unfold green elasticF
    rw [hf, h, sub_self, smul_zero]
  rw [this]
  simp

/-- **C89 (stress).** If the local iteration ends with `S`, then `S` satisfies the equation up to `1e-8` and is symmetric up to `2e-8`,
exactly symmetric if the equation holds exactly. The stress returned is the first Piola–Kirchhoff stress of `S`: `compute_avg_stress`
recovers the Cauchy stress `Fe S Feᵀ / det Fe` from it, which is symmetric together with `S`. The average over a cell of a constant
stress is this stress. Without elastic strain the iteration stops at once with zero stress and the internal variables do not change. -/
theorem C89_stress (solve : (M3 →L[ℝ] M3) → M3 → M3) (fuel : Nat) (m : Material ns) (C11 C12 C44 dt : ℝ)
    (hC : m.C = elasticTensor C11 C12 C44) (iv : Internal ns) (G : M3) :
    (∀ S, stressS solve fuel m dt iv G = some S → frob (implicitResidual m dt iv G S) ≤ 1 / 10 ^ 8
      ∧ (∀ i j, |S i j - S j i| ≤ 2 / 10 ^ 8) ∧ firstPK solve fuel m dt iv G = some (piola m dt iv G S)
      ∧ updateIntVars solve fuel m dt iv G = some (update m dt iv S))
    ∧ (∀ S, implicitResidual m dt iv G S = 0 → (Matrix.of S).transpose = Matrix.of S)
    ∧ (∀ S, (defGrad G).det ≠ 0 → pToSigma (piola m dt iv G S) (defGrad G)
        = (1 / (elasticF m dt iv G S).det) • (elasticF m dt iv G S * Matrix.of S * (elasticF m dt iv G S).transpose))
    ∧ (∀ S, (defGrad G).det ≠ 0 → (Matrix.of S).transpose = Matrix.of S →
      (pToSigma (piola m dt iv G S) (defGrad G)).transpose = pToSigma (piola m dt iv G S) (defGrad G)
      ∧ (piola m dt iv G S * (defGrad G).transpose).transpose = piola m dt iv G S * (defGrad G).transpose)
    ∧ (∀ (nq : Nat) (JxW : Fin nq → ℝ) (X : Matrix (Fin 3) (Fin 3) ℝ), ∑ q, JxW q ≠ 0 → cellAverage JxW (fun _ => X) = X)
    ∧ ((defGrad G * Matrix.of iv.FpInv).transpose * (defGrad G * Matrix.of iv.FpInv) = 1 → 0 < fuel →
      stressS solve fuel m dt iv G = some 0 ∧ firstPK solve fuel m dt iv G = some 0
      ∧ ∃ iv', updateIntVars solve fuel m dt iv G = some iv' ∧ iv'.FpInv = iv.FpInv ∧ iv'.slip = iv.slip
        ∧ iv'.resistance = iv.resistance ∧ iv'.rot = iv.rot) := by
  have hsym : ∀ S, (defGrad G).det ≠ 0 → (Matrix.of S).transpose = Matrix.of S →
      (pToSigma (piola m dt iv G S) (defGrad G)).transpose = pToSigma (piola m dt iv G S) (defGrad G) := by
    intro S hF hS
    rw [cauchy_eq m dt iv G S hF, Matrix.transpose_smul, Matrix.transpose_mul, Matrix.transpose_mul, Matrix.transpose_transpose, hS,
      Matrix.mul_assoc]
  refine ⟨fun S hS => ?_, fun S hS => ?_, fun S hF => cauchy_eq m dt iv G S hF, fun S hF hS => ⟨hsym S hF hS, ?_⟩, ?_, fun hr hf => ?_⟩
  · have h1 := stressS_spec solve fuel m dt iv G S hS
    refine ⟨h1, fun i j => ?_, ?_, ?_⟩
    · rw [stress_part_symm m C11 C12 C44 dt hC iv G S i j]
      have a := (entry_le_frob (implicitResidual m dt iv G S) i j).trans h1
      have b := (entry_le_frob (implicitResidual m dt iv G S) j i).trans h1
      rw [abs_le] at a b ⊢
      constructor <;> linarith [a.1, a.2, b.1, b.2]
    · unfold firstPK
      rw [hS]
      rfl
    · unfold updateIntVars
      rw [hS]
      rfl
  · ext i j
    have := stress_part_symm m C11 C12 C44 dt hC iv G S i j
    rw [hS] at this
    simp only [Pi.zero_apply, sub_self] at this
    show S j i = S i j
    linarith
  · have := hsym S hF hS
    unfold pToSigma at this
    rw [Matrix.transpose_smul] at this
    exact smul_right_injective _ (one_div_ne_zero hF) this
  · intro nq JxW X h
    ext i j
    unfold cellAverage
    rw [← Finset.mul_sum, mul_div_assoc, div_self h, mul_one]
  · obtain ⟨h1, h2, h3⟩ := residual_rest m dt iv G hr
    have hz : stressS solve fuel m dt iv G = some 0 := by
      obtain ⟨f, rfl⟩ : ∃ f, fuel = f + 1 := ⟨fuel - 1, by omega⟩
      unfold stressS newtonSolver
      have hc : ((ops solve (implicitResidual m dt iv G)).norm ((ops solve (implicitResidual m dt iv G)).res 0)).gt
          (.fin (1 / 10 ^ 8)) = false := by
        show (Flt.fin (frob (implicitResidual m dt iv G 0))).gt (.fin (1 / 10 ^ 8)) = false
        rw [h1]
        simp [frob, Flt.gt]
      rw [newtonLoop, hc, if_neg (by simp)]
      rfl
    refine ⟨hz, ?_, update m dt iv 0, ?_, ?_, ?_, ?_, rfl⟩
    · unfold firstPK
      rw [hz]
      simp only [Option.map_some, piola]
      congr 1
      have : Matrix.of (0 : M3) = 0 := rfl
      rw [this]
      simp
    · unfold updateIntVars
      rw [hz]
      rfl
    · show (fun i j => fpInvNew m dt iv 0 i j) = _
      rw [h3]
      rfl
    · funext a
      show iv.slip a + gammaInc m dt iv 0 a = _
      rw [h2]
      simp
    · funext a
      show iv.resistance a + gInc m dt iv 0 a = _
      unfold gInc
      rw [h2]
      simp

/-- The initial state of the scripts without displacement. -/
example (solve : (M3 →L[ℝ] M3) → M3 → M3) (dt : ℝ) (R : M3) : firstPK solve 1 fcc dt (initial 12 R) 0 = some 0 := by
  refine ((C89_stress solve 1 fcc 168400 121400 75400 dt rfl (initial 12 R) 0).2.2.2.2.2 ?_ Nat.one_pos).2.1
  have h1 : Matrix.of (initial 12 R).FpInv = 1 := by ext i j; simp [initial, Matrix.one_apply]
  have h2 : defGrad 0 = 1 := by
    unfold defGrad
    have : Matrix.of (0 : M3) = 0 := rfl
    rw [this, zero_add]
  rw [h1, h2]
  simp

/-! ## Rotation of the body -/

theorem elasticF_left (m : Material ns) (dt : ℝ) (iv : Internal ns) (G G' S : M3) (Q : Matrix (Fin 3) (Fin 3) ℝ)
    (h : defGrad G' = Q * defGrad G) : elasticF m dt iv G' S = Q * elasticF m dt iv G S := by
  unfold elasticF
  rw [h, Matrix.mul_assoc]

theorem residual_left (m : Material ns) (dt : ℝ) (iv : Internal ns) (G G' : M3) (Q : Matrix (Fin 3) (Fin 3) ℝ) (hQ : IsRotation Q)
    (h : defGrad G' = Q * defGrad G) : implicitResidual m dt iv G' = implicitResidual m dt iv G := by
  funext S i j
  rw [residual_eq, residual_eq]
  have : green (elasticF m dt iv G' S) = green (elasticF m dt iv G S) := by
    unfold green
    rw [elasticF_left m dt iv G G' S Q h, Matrix.transpose_mul, Matrix.mul_assoc, ← Matrix.mul_assoc Q.transpose, hQ.1,
      Matrix.one_mul]
  rw [this]

theorem piola_left (m : Material ns) (dt : ℝ) (iv : Internal ns) (G G' S : M3) (Q : Matrix (Fin 3) (Fin 3) ℝ) (hQ : IsRotation Q)
    (h : defGrad G' = Q * defGrad G) : piola m dt iv G' S = Q * piola m dt iv G S := by
  unfold piola
  have e : (Q * defGrad G)⁻¹.transpose = Q * (defGrad G)⁻¹.transpose := by
    rw [Matrix.mul_inv_rev, Matrix.transpose_mul, (Hyper.rotation_inv hQ).1, Matrix.transpose_transpose]
  simp only [elasticF_left m dt iv G G' S Q h, h, e, Matrix.det_mul, hQ.2, one_mul, Matrix.transpose_mul, Matrix.mul_smul,
    Matrix.smul_mul]
  congr 2
  simp only [Matrix.mul_assoc]
  rw [← Matrix.mul_assoc Q.transpose Q, hQ.1, Matrix.one_mul]

/-- The same displacement history seen by an observer who turns the body by `Q` in each step: `1 + G' = Q (1 + G)`. -/
noncomputable def turned (l : List (ℝ × M3 × Matrix (Fin 3) (Fin 3) ℝ)) : List (ℝ × M3) :=
  l.map fun s => (s.1, fun i j => (s.2.2 * (1 + Matrix.of s.2.1) - 1) i j)

/-- **C89 (objectivity).** Rotations superposed on the deformation in every step of a history, different ones in different steps,
change neither the internal variables nor the number of iterations, and turn the stresses along. This holds for the values computed
by the iteration, with whatever linear solver, not only for exact solutions. -/
theorem C89_objective (solve : (M3 →L[ℝ] M3) → M3 → M3) (fuel : Nat) (m : Material ns)
    (l : List (ℝ × M3 × Matrix (Fin 3) (Fin 3) ℝ)) (hQ : ∀ s ∈ l, IsRotation s.2.2) (iv : Internal ns) :
    history solve fuel m iv (turned l)
      = (history solve fuel m iv (l.map fun s => (s.1, s.2.1))).map
          fun r => (List.zipWith (fun Q P => Q * P) (l.map fun s => s.2.2) r.1, r.2) := by
  induction l generalizing iv with
  | nil => rfl
  | cons s l ih =>
    obtain ⟨dt, G, Q⟩ := s
    have hq : IsRotation Q := hQ _ List.mem_cons_self
    set G' : M3 := fun i j => (Q * (1 + Matrix.of G) - 1) i j with hG'
    have hd : defGrad G' = Q * defGrad G := by
      unfold defGrad
      have : Matrix.of G' = Q * (1 + Matrix.of G) - 1 := rfl
      rw [this, sub_add_cancel, add_comm]
    have hS : stressS solve fuel m dt iv G' = stressS solve fuel m dt iv G := by
      unfold stressS
      rw [residual_left m dt iv G G' Q hq hd]
    have hP : firstPK solve fuel m dt iv G' = (firstPK solve fuel m dt iv G).map fun P => Q * P := by
      unfold firstPK
      rw [hS]
      cases stressS solve fuel m dt iv G with
      | none => rfl
      | some S =>
        simp only [Option.map_some]
        rw [piola_left m dt iv G G' S Q hq hd]
    have hU : updateIntVars solve fuel m dt iv G' = updateIntVars solve fuel m dt iv G := by
      unfold updateIntVars
      rw [hS]
    show history solve fuel m iv ((dt, G') :: turned l) = _
    simp only [history, List.map_cons]
    rw [hP, hU]
    cases firstPK solve fuel m dt iv G with
    | none => rfl
    | some P =>
      cases updateIntVars solve fuel m dt iv G with
      | none => rfl
      | some iv' =>
        simp only [Option.map_some, Option.bind_eq_bind, Option.bind_some]
        rw [ih (fun s hs => hQ s (List.mem_cons_of_mem _ hs)) iv']
        cases history solve fuel m iv' (l.map fun s => (s.1, s.2.1)) with
        | none => rfl
        | some r => rfl

end JaxFem.Crystal
