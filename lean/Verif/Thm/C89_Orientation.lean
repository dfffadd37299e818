import Verif.Thm.C89_Stress

/-!
C89: rotations of the crystal.
-/

namespace JaxFem.Crystal

open Matrix

variable {ns : Nat}

/-! ## Rotation of the reference configuration -/

/-- The crystal turned by `Q` together with its plastic deformation. -/
noncomputable def turnCrystal (Q : Matrix (Fin 3) (Fin 3) ℝ) (iv : Internal ns) : Internal ns where
  FpInv := fun i j => (Q * Matrix.of iv.FpInv * Q.transpose) i j
  resistance := iv.resistance
  slip := iv.slip
  rot := fun i j => (Q * Matrix.of iv.rot) i j

/-- A tensor turned by `Q`. -/
noncomputable def turnTensor (Q : Matrix (Fin 3) (Fin 3) ℝ) (S : M3) : M3 := fun i j => (Q * Matrix.of S * Q.transpose) i j

theorem turn_gamma (m : Material ns) (dt : ℝ) (iv : Internal ns) (S : M3) (Q : Matrix (Fin 3) (Fin 3) ℝ) (hQ : IsRotation Q) :
    gammaInc m dt (turnCrystal Q iv) (turnTensor Q S) = gammaInc m dt iv S := by
  have ht : ∀ a, tau m (turnCrystal Q iv).rot (turnTensor Q S) a = tau m iv.rot S a := by
    intro a
    rw [tau_eq, tau_eq]
    have e : Matrix.of (turnCrystal Q iv).rot * Matrix.of (m.schmid a) * (Matrix.of (turnCrystal Q iv).rot).transpose
        = Q * (Matrix.of iv.rot * Matrix.of (m.schmid a) * (Matrix.of iv.rot).transpose) * Q.transpose := by
      have : Matrix.of (turnCrystal Q iv).rot = Q * Matrix.of iv.rot := rfl
      rw [this, Matrix.transpose_mul]
      simp only [Matrix.mul_assoc]
    rw [e]
    exact inner_conj hQ.1 (Matrix.of S) _
  funext a
  unfold gammaInc
  rw [ht]
  rfl

theorem turn_fp (m : Material ns) (dt : ℝ) (iv : Internal ns) (S : M3) (Q : Matrix (Fin 3) (Fin 3) ℝ) (hQ : IsRotation Q) :
    fpInvNew m dt (turnCrystal Q iv) (turnTensor Q S) = Q * fpInvNew m dt iv S * Q.transpose := by
  have hL : Matrix.of (plasticInc m dt (turnCrystal Q iv) (turnTensor Q S))
      = Q * Matrix.of (plasticInc m dt iv S) * Q.transpose := by
    rw [plasticInc_eq, plasticInc_eq, turn_gamma m dt iv S Q hQ, Matrix.mul_sum, Matrix.sum_mul]
    refine Finset.sum_congr rfl fun a _ => ?_
    have : Matrix.of (turnCrystal Q iv).rot = Q * Matrix.of iv.rot := rfl
    rw [this, Matrix.transpose_mul, Matrix.mul_smul, Matrix.smul_mul]
    simp only [Matrix.mul_assoc]
  unfold fpInvNew
  rw [hL]
  have : Matrix.of (turnCrystal Q iv).FpInv = Q * Matrix.of iv.FpInv * Q.transpose := rfl
  rw [this, Matrix.mul_sub, Matrix.mul_one, Matrix.mul_sub, Matrix.mul_one, Matrix.mul_sub, Matrix.sub_mul]
  congr 1
  simp only [Matrix.mul_assoc]
  rw [← Matrix.mul_assoc Q.transpose Q, hQ.1, Matrix.one_mul]

theorem turn_fe (m : Material ns) (dt : ℝ) (iv : Internal ns) (G G' S : M3) (Q : Matrix (Fin 3) (Fin 3) ℝ) (hQ : IsRotation Q)
    (h : defGrad G' = defGrad G * Q.transpose) :
    elasticF m dt (turnCrystal Q iv) G' (turnTensor Q S) = elasticF m dt iv G S * Q.transpose := by
  unfold elasticF
  rw [turn_fp m dt iv S Q hQ, h]
  simp only [Matrix.mul_assoc]
  rw [← Matrix.mul_assoc Q.transpose Q, hQ.1, Matrix.one_mul]

/-- **C89 (choice of the reference configuration).** Turn the reference configuration by `Q`: orientation `Q R`, plastic deformation
`Q Fp Qᵀ`, deformation gradient `F Qᵀ`. Then the stress `Q S Qᵀ` has the residual turned along (so solutions correspond to
solutions), the slips and resistances are the same, the plastic deformation is turned along, and the first Piola–Kirchhoff stress is
`P Qᵀ`. -/
theorem C89_reference (m : Material ns) (dt : ℝ) (iv : Internal ns) (G G' : M3) (Q : Matrix (Fin 3) (Fin 3) ℝ) (hQ : IsRotation Q)
    (h : defGrad G' = defGrad G * Q.transpose) (S : M3) :
    implicitResidual m dt (turnCrystal Q iv) G' (turnTensor Q S) = turnTensor Q (implicitResidual m dt iv G S)
    ∧ (implicitResidual m dt (turnCrystal Q iv) G' (turnTensor Q S) = 0 ↔ implicitResidual m dt iv G S = 0)
    ∧ frob (implicitResidual m dt (turnCrystal Q iv) G' (turnTensor Q S)) = frob (implicitResidual m dt iv G S)
    ∧ update m dt (turnCrystal Q iv) (turnTensor Q S) = turnCrystal Q (update m dt iv S)
    ∧ piola m dt (turnCrystal Q iv) G' (turnTensor Q S) = piola m dt iv G S * Q.transpose := by
  have hres : implicitResidual m dt (turnCrystal Q iv) G' (turnTensor Q S) = turnTensor Q (implicitResidual m dt iv G S) := by
    have hg : green (elasticF m dt (turnCrystal Q iv) G' (turnTensor Q S)) = Q * green (elasticF m dt iv G S) * Q.transpose := by
      rw [turn_fe m dt iv G G' S Q hQ h]
      unfold green
      rw [Matrix.transpose_mul, Matrix.transpose_transpose, Matrix.mul_smul, Matrix.smul_mul, Matrix.mul_sub, Matrix.mul_one,
        Matrix.sub_mul, (Hyper.rotation_inv hQ).2]
      simp only [Matrix.mul_assoc]
    funext i j
    have hr : Matrix.of (turnCrystal Q iv).rot = Q * Matrix.of iv.rot := rfl
    have hE : (Q * Matrix.of iv.rot).transpose * (Q * green (elasticF m dt iv G S) * Q.transpose) * (Q * Matrix.of iv.rot)
        = (Matrix.of iv.rot).transpose * green (elasticF m dt iv G S) * Matrix.of iv.rot := by
      rw [Matrix.transpose_mul]
      simp only [Matrix.mul_assoc]
      rw [← Matrix.mul_assoc Q.transpose Q, hQ.1, Matrix.one_mul, ← Matrix.mul_assoc Q.transpose Q, hQ.1, Matrix.one_mul]
    rw [residual_eq, hg, rotate4_eq, hr, hE]
    show (Q * Matrix.of S * Q.transpose) i j - _ = (Q * Matrix.of (implicitResidual m dt iv G S) * Q.transpose) i j
    have e : Matrix.of (implicitResidual m dt iv G S)
        = Matrix.of S - Matrix.of iv.rot * (Matrix.of fun a b => ∑ c, ∑ d, m.C a b c d
            * ((Matrix.of iv.rot).transpose * green (elasticF m dt iv G S) * Matrix.of iv.rot) c d) * (Matrix.of iv.rot).transpose := by
      ext i j
      rw [Matrix.of_apply, residual_eq, rotate4_eq]
      rfl
    rw [e, Matrix.mul_sub, Matrix.sub_mul, Matrix.sub_apply, Matrix.transpose_mul]
    simp only [Matrix.mul_assoc]
  have hfrob : ∀ A : M3, frob (turnTensor Q A) = frob A := by
    intro A
    unfold frob
    congr 1
    have := inner_conj hQ.1 (Matrix.of A) (Matrix.of A)
    simp only [← sq] at this
    exact this
  refine ⟨hres, ?_, ?_, ?_, ?_⟩
  · rw [hres]
    constructor
    · intro h0
      have h1 : Q * Matrix.of (implicitResidual m dt iv G S) * Q.transpose = 0 := h0
      have h2 := congrArg (fun X => Q.transpose * X * Q) h1
      simp only [Matrix.mul_assoc, hQ.1, Matrix.mul_one, Matrix.zero_mul, Matrix.mul_zero] at h2
      rw [← Matrix.mul_assoc, hQ.1, Matrix.one_mul] at h2
      exact h2
    · intro h0
      rw [h0]
      funext i j
      show (Q * (0 : Matrix (Fin 3) (Fin 3) ℝ) * Q.transpose) i j = 0
      simp
  · rw [hres, hfrob]
  · unfold update
    have hg : gInc m dt (turnCrystal Q iv) (turnTensor Q S) = gInc m dt iv S := by
      funext a
      unfold gInc
      rw [turn_gamma m dt iv S Q hQ]
      rfl
    rw [turn_gamma m dt iv S Q hQ, hg, turn_fp m dt iv S Q hQ]
    rfl
  · unfold piola
    have e : (defGrad G * Q.transpose)⁻¹.transpose = (defGrad G)⁻¹.transpose * Q.transpose := by
      have hi : Q.transpose⁻¹ = Q := by
        rw [← (Hyper.rotation_inv hQ).1, Matrix.nonsing_inv_nonsing_inv _ (by rw [hQ.2]; exact isUnit_one)]
      rw [Matrix.mul_inv_rev, hi, Matrix.transpose_mul]
    have hS : Matrix.of (turnTensor Q S) = Q * Matrix.of S * Q.transpose := rfl
    simp only [turn_fe m dt iv G G' S Q hQ h, h, e, Matrix.det_mul, Matrix.det_transpose, hQ.2, mul_one, Matrix.transpose_mul,
      Matrix.transpose_transpose, Matrix.smul_mul, hS]
    congr 2
    simp only [Matrix.mul_assoc]
    rw [← Matrix.mul_assoc Q.transpose Q, hQ.1, Matrix.one_mul, ← Matrix.mul_assoc Q.transpose Q, hQ.1, Matrix.one_mul]

/-- A quarter turn of the reference configuration of a sheared crystal. -/
example : ∃ (Q : Matrix (Fin 3) (Fin 3) ℝ) (G G' : M3), IsRotation Q ∧ Q ≠ 1 ∧ defGrad G ≠ 1 ∧ defGrad G' = defGrad G * Q.transpose := by
  let G : M3 := fun i j => if i = 0 ∧ j = 1 then 1 else 0
  let Q : Matrix (Fin 3) (Fin 3) ℝ := !![0, -1, 0; 1, 0, 0; 0, 0, 1]
  refine ⟨Q, G, fun i j => (defGrad G * Q.transpose - 1) i j, ⟨?_, ?_⟩, ?_, ?_, ?_⟩
  · ext i j
    fin_cases i <;> fin_cases j <;> simp [Q, Matrix.mul_apply, Fin.sum_univ_three]
  · rw [Matrix.det_fin_three]
    simp [Q]
  · intro h
    have := congrFun (congrFun h 0) 0
    simp [Q] at this
  · intro h
    have := congrFun (congrFun h 0) 1
    simp [defGrad, G] at this
  · show Matrix.of (fun i j => (defGrad G * Q.transpose - 1) i j) + 1 = _
    have : Matrix.of (fun i j => (defGrad G * Q.transpose - 1) i j) = defGrad G * Q.transpose - 1 := rfl
    rw [this, sub_add_cancel]

/-! ## Crystal symmetry -/

theorem cubic_apply (p : Equiv.Perm (Fin 3)) (s : Fin 3 → Bool) (X : Matrix (Fin 3) (Fin 3) ℝ) (i j : Fin 3) :
    (cubicOp p s * X * (cubicOp p s).transpose) i j
      = (if s i then -1 else 1) * (if s j then -1 else 1) * X (p i) (p j) := by
  simp only [Matrix.mul_apply, Matrix.transpose_apply, cubicOp, ite_mul, zero_mul, mul_ite, mul_zero, Finset.sum_ite_eq',
    Finset.mem_univ, if_true]
  ring_nf

theorem cubic_orth (p : Equiv.Perm (Fin 3)) (s : Fin 3 → Bool) : cubicOp p s * (cubicOp p s).transpose = 1 := by
  have := cubic_apply p s 1
  rw [Matrix.mul_one] at this
  ext i j
  rw [this, Matrix.one_apply, Matrix.one_apply]
  by_cases h : i = j
  · rw [h]
    cases s j <;> simp
  · rw [if_neg h, if_neg (fun e => h (p.injective e)), mul_zero]

theorem cubicStress_invariant (C11 C12 C44 : ℝ) (p : Equiv.Perm (Fin 3)) (s : Fin 3 → Bool) (X : Matrix (Fin 3) (Fin 3) ℝ) :
    cubicStress C11 C12 C44 (cubicOp p s * X * (cubicOp p s).transpose)
      = cubicOp p s * cubicStress C11 C12 C44 X * (cubicOp p s).transpose := by
  have sq1 : ∀ i, (if s i then (-1 : ℝ) else 1) * (if s i then -1 else 1) = 1 := by
    intro i
    cases s i <;> simp
  have ht : X (p 0) (p 0) + X (p 1) (p 1) + X (p 2) (p 2) = X 0 0 + X 1 1 + X 2 2 := by
    have := Equiv.sum_comp p fun i => X i i
    simpa [Fin.sum_univ_three] using this
  ext i j
  rw [cubic_apply]
  simp only [cubicStress, cubic_apply, sq1, one_mul]
  by_cases h : i = j
  · subst h
    rw [if_pos rfl, ht, sq1, if_pos rfl, one_mul]
  · rw [if_neg h, if_neg (fun e => h (p.injective e))]
    ring

theorem table_cubic : ∀ (p : Equiv.Perm (Fin 3)) (s : Fin 3 → Bool) (a : Fin 12), ∃ b : Fin 12, ∃ e : Bool, ∀ i j : Fin 3,
    (if s i then (-1 : ℤ) else 1) * (if s j then -1 else 1) * (rawDirection slipTable a (p i) * rawNormal slipTable a (p j))
      = (if e then -1 else 1) * (rawDirection slipTable b i * rawNormal slipTable b j) := by
  decide +kernel

theorem table_distinct : ∀ (a b : Fin 12) (e : Bool), (∀ i j : Fin 3,
    rawDirection slipTable a i * rawNormal slipTable a j
      = (if e then (-1 : ℤ) else 1) * (rawDirection slipTable b i * rawNormal slipTable b j)) → a = b := by
  decide +kernel

/-- Symmetry operations of the crystal permute the slip systems, up to the sense of slip. -/
theorem schmid_cubic (p : Equiv.Perm (Fin 3)) (s : Fin 3 → Bool) :
    ∃ (π : Equiv.Perm (Fin 12)) (e : Fin 12 → ℝ), (∀ a, e a = 1 ∨ e a = -1)
      ∧ ∀ a, cubicOp p s * Matrix.of (schmid slipTable a) * (cubicOp p s).transpose = e a • Matrix.of (schmid slipTable (π a)) := by
  choose f e hfe using table_cubic p s
  have hinj : Function.Injective f := by
    intro a b hab
    refine table_distinct a b (e a != e b) fun i j => ?_
    have h1 := hfe a (p.symm i) (p.symm j)
    have h2 := hfe b (p.symm i) (p.symm j)
    rw [← hab] at h2
    simp only [Equiv.apply_symm_apply] at h1 h2
    generalize rawDirection slipTable (f a) (p.symm i) * rawNormal slipTable (f a) (p.symm j) = x at h1 h2
    generalize rawDirection slipTable a i * rawNormal slipTable a j = y at h1 ⊢
    generalize rawDirection slipTable b i * rawNormal slipTable b j = z at h2 ⊢
    have sg : ∀ b : Bool, (if b then (-1 : ℤ) else 1) = 1 ∨ (if b then (-1 : ℤ) else 1) = -1 := by
      intro b
      cases b <;> simp
    generalize e a = ea at h1 ⊢
    generalize e b = eb at h2 ⊢
    rcases sg (s (p.symm i)) with h3 | h3 <;> rcases sg (s (p.symm j)) with h4 | h4 <;> rw [h3, h4] at h1 h2 <;>
      cases ea <;> cases eb <;> simp at h1 h2 ⊢ <;> omega
  refine ⟨Equiv.ofBijective f (Finite.injective_iff_bijective.1 hinj), fun a => if e a then -1 else 1, fun a => ?_, fun a => ?_⟩
  · show (if e a then (-1 : ℝ) else 1) = 1 ∨ (if e a then (-1 : ℝ) else 1) = -1
    generalize e a = x
    cases x <;> simp
  · ext i j
    rw [cubic_apply, Matrix.smul_apply, smul_eq_mul, Matrix.of_apply, Matrix.of_apply, schmid_fcc, schmid_fcc, ← mul_assoc, ← mul_assoc]
    congr 1
    have := hfe a i j
    have h := congrArg (fun z : ℤ => (z : ℝ)) this
    simp only [Equiv.ofBijective_apply]
    push_cast at h ⊢
    exact h

/-- Two crystals that look alike: orientations that differ by a symmetry operation, equal plastic deformation, equal resistances. -/
structure Equivalent (p : Equiv.Perm (Fin 3)) (s : Fin 3 → Bool) (iv iv' : Internal 12) : Prop where
  rot : Matrix.of iv'.rot = Matrix.of iv.rot * cubicOp p s
  fp : iv'.FpInv = iv.FpInv
  resistance : ∃ g, ∀ a, iv.resistance a = g ∧ iv'.resistance a = g

theorem equivalent_gamma (p : Equiv.Perm (Fin 3)) (s : Fin 3 → Bool) (iv iv' : Internal 12) (h : Equivalent p s iv iv') (dt : ℝ) (S : M3) :
    (∑ a, |gammaInc fcc dt iv' S a| = ∑ a, |gammaInc fcc dt iv S a|)
    ∧ Matrix.of (plasticInc fcc dt iv' S) = Matrix.of (plasticInc fcc dt iv S) := by
  obtain ⟨π, e, he, hs⟩ := schmid_cubic p s
  obtain ⟨g, hg⟩ := h.resistance
  have hm : ∀ a, Matrix.of iv'.rot * Matrix.of (fcc.schmid a) * (Matrix.of iv'.rot).transpose
      = e a • (Matrix.of iv.rot * Matrix.of (fcc.schmid (π a)) * (Matrix.of iv.rot).transpose) := by
    intro a
    have : Matrix.of iv'.rot * Matrix.of (fcc.schmid a) * (Matrix.of iv'.rot).transpose
        = Matrix.of iv.rot * (cubicOp p s * Matrix.of (schmid slipTable a) * (cubicOp p s).transpose) * (Matrix.of iv.rot).transpose := by
      rw [h.rot, Matrix.transpose_mul]
      simp only [Matrix.mul_assoc]
      rfl
    rw [this, hs, Matrix.mul_smul, Matrix.smul_mul]
    rfl
  have ht : ∀ a, tau fcc iv'.rot S a = e a * tau fcc iv.rot S (π a) := by
    intro a
    rw [tau_eq, tau_eq, hm]
    simp only [Matrix.smul_apply, smul_eq_mul, Finset.mul_sum]
    refine Finset.sum_congr rfl fun i _ => Finset.sum_congr rfl fun j _ => ?_
    ring
  have hgam : ∀ a, gammaInc fcc dt iv' S a = e a * gammaInc fcc dt iv S (π a) := by
    intro a
    unfold gammaInc
    rw [ht, (hg a).2, (hg (π a)).1]
    rcases he a with h1 | h1
    · rw [h1, one_mul, one_mul]
    · rw [h1, neg_one_mul, neg_one_mul, sgn_neg, neg_div, abs_neg]
      ring
  have hab : ∀ a, |e a| = 1 := by
    intro a
    rcases he a with h1 | h1 <;> rw [h1] <;> simp
  constructor
  · simp only [hgam, abs_mul, hab, one_mul]
    exact Equiv.sum_comp π fun a => |gammaInc fcc dt iv S a|
  · rw [plasticInc_eq, plasticInc_eq]
    rw [← Equiv.sum_comp π fun a => gammaInc fcc dt iv S a
      • (Matrix.of iv.rot * Matrix.of (fcc.schmid a) * (Matrix.of iv.rot).transpose)]
    refine Finset.sum_congr rfl fun a _ => ?_
    rw [hgam, hm, smul_smul]
    congr 1
    rcases he a with h1 | h1 <;> rw [h1] <;> ring

theorem equivalent_step (p : Equiv.Perm (Fin 3)) (s : Fin 3 → Bool) (iv iv' : Internal 12) (h : Equivalent p s iv iv') (dt : ℝ) (G S : M3) :
    implicitResidual fcc dt iv' G S = implicitResidual fcc dt iv G S ∧ piola fcc dt iv' G S = piola fcc dt iv G S
    ∧ Equivalent p s (update fcc dt iv S) (update fcc dt iv' S) := by
  obtain ⟨h1, h2⟩ := equivalent_gamma p s iv iv' h dt S
  have hf : fpInvNew fcc dt iv' S = fpInvNew fcc dt iv S := by
    unfold fpInvNew
    rw [h2, h.fp]
  have hfe : elasticF fcc dt iv' G S = elasticF fcc dt iv G S := by
    unfold elasticF
    rw [hf]
  refine ⟨?_, ?_, ?_, ?_, ?_⟩
  · funext i j
    have hC : fcc.C = elasticTensor 168400 121400 75400 := rfl
    rw [residual_eq, residual_eq, hfe, hC, rotate_cubic _ _ _ _ _ (green_symm _), rotate_cubic _ _ _ _ _ (green_symm _), h.rot]
    congr 1
    set X := green (elasticF fcc dt iv G S)
    set R := Matrix.of iv.rot
    have e1 : (R * cubicOp p s).transpose * X * (R * cubicOp p s)
        = (cubicOp p s).transpose * (R.transpose * X * R) * cubicOp p s := by
      rw [Matrix.transpose_mul]
      simp only [Matrix.mul_assoc]
    have e2 : cubicOp p s * cubicStress 168400 121400 75400 ((cubicOp p s).transpose * (R.transpose * X * R) * cubicOp p s)
        * (cubicOp p s).transpose = cubicStress 168400 121400 75400 (R.transpose * X * R) := by
      rw [← cubicStress_invariant]
      congr 1
      simp only [Matrix.mul_assoc, cubic_orth, Matrix.mul_one]
      rw [← Matrix.mul_assoc, cubic_orth, Matrix.one_mul]
    rw [e1, ← e2, Matrix.transpose_mul]
    simp only [Matrix.mul_assoc]
  · unfold piola
    rw [hfe]
  · exact h.rot
  · show (fun i j => fpInvNew fcc dt iv' S i j) = fun i j => fpInvNew fcc dt iv S i j
    rw [hf]
  · obtain ⟨g, hg⟩ := h.resistance
    refine ⟨g + fcc.h * |1 - g / fcc.tSat| ^ fcc.gssA * sgn (1 - g / fcc.tSat) * ∑ b, |gammaInc fcc dt iv S b|, fun a => ⟨?_, ?_⟩⟩
    · show iv.resistance a + gInc fcc dt iv S a = _
      unfold gInc
      rw [(hg a).1, Finset.mul_sum]
      congr 1
      refine Finset.sum_congr rfl fun b _ => ?_
      rw [fcc_q, (hg b).1]
      ring
    · show iv'.resistance a + gInc fcc dt iv' S a = _
      rw [← h1]
      unfold gInc
      rw [(hg a).2, Finset.mul_sum]
      congr 1
      refine Finset.sum_congr rfl fun b _ => ?_
      rw [fcc_q, (hg b).2]
      ring

theorem history_cons (solve : (M3 →L[ℝ] M3) → M3 → M3) (fuel : Nat) (m : Material ns) (iv : Internal ns) (x : ℝ × M3)
    (l : List (ℝ × M3)) :
    history solve fuel m iv (x :: l) = (stressS solve fuel m x.1 iv x.2).bind fun S =>
      (history solve fuel m (update m x.1 iv S) l).map fun r => (piola m x.1 iv x.2 S :: r.1, r.2) := by
  rw [history, firstPK, updateIntVars]
  generalize stressS solve fuel m x.1 iv x.2 = o
  cases o with
  | none => rfl
  | some S =>
    simp only [Option.map_some, Option.bind_eq_bind, Option.bind_some]
    generalize history solve fuel m (update m x.1 iv S) l = o'
    cases o' <;> rfl

/-- Histories from states that are related by a relation kept by the steps. -/
theorem history_related (solve : (M3 →L[ℝ] M3) → M3 → M3) (fuel : Nat) (m : Material ns) (Rel : Internal ns → Internal ns → Prop)
    (hfp : ∀ iv iv', Rel iv iv' → iv'.FpInv = iv.FpInv)
    (hstep : ∀ iv iv', Rel iv iv' → ∀ dt G S, implicitResidual m dt iv' G S = implicitResidual m dt iv G S
      ∧ piola m dt iv' G S = piola m dt iv G S ∧ Rel (update m dt iv S) (update m dt iv' S))
    (l : List (ℝ × M3)) (iv iv' : Internal ns) (h : Rel iv iv') :
    ((history solve fuel m iv' l).map fun r => (r.1, r.2.FpInv)) = ((history solve fuel m iv l).map fun r => (r.1, r.2.FpInv))
    ∧ ∀ r r', history solve fuel m iv l = some r → history solve fuel m iv' l = some r' → Rel r.2 r'.2 := by
  induction l generalizing iv iv' with
  | nil =>
    have e : ∀ iv, history solve fuel m iv [] = some ([], iv) := fun _ => rfl
    rw [e, e]
    refine ⟨?_, ?_⟩
    · rw [Option.map_some, Option.map_some, hfp _ _ h]
    · intro r r' h1 h2
      rw [← Option.some.inj h1, ← Option.some.inj h2]
      exact h
  | cons x l ih =>
    have hS : stressS solve fuel m x.1 iv' x.2 = stressS solve fuel m x.1 iv x.2 := by
      unfold stressS
      rw [show implicitResidual m x.1 iv' x.2 = implicitResidual m x.1 iv x.2 from
        funext fun S => (hstep iv iv' h x.1 x.2 S).1]
    rw [history_cons, history_cons, hS]
    generalize stressS solve fuel m x.1 iv x.2 = o
    cases o with
    | none =>
      rw [Option.bind_none, Option.bind_none]
      exact ⟨rfl, fun r r' h1 => by simp at h1⟩
    | some S =>
      obtain ⟨-, h2, h3⟩ := hstep iv iv' h x.1 x.2 S
      obtain ⟨i1, i2⟩ := ih _ _ h3
      simp only [Option.bind_some, h2]
      generalize piola m x.1 iv x.2 S = P
      generalize history solve fuel m (update m x.1 iv S) l = o at i1 i2
      generalize history solve fuel m (update m x.1 iv' S) l = o' at i1 i2
      cases o with
      | none =>
        cases o' with
        | none => exact ⟨rfl, fun r r' h1 => by simp at h1⟩
        | some r' => simp at i1
      | some r =>
        cases o' with
        | none => simp at i1
        | some r' =>
          simp only [Option.map_some, Option.some.injEq, Prod.mk.injEq] at i1
          refine ⟨?_, ?_⟩
          · simp only [Option.map_some, i1.1, i1.2]
          · intro q q' h1 h2
            simp only [Option.map_some, Option.some.injEq] at h1 h2
            rw [← h1, ← h2]
            exact i2 r r' rfl rfl

/-- **C89 (crystal symmetry).** Orientations that differ by one of the 48 symmetry operations of the cube describe the same crystal:
in every history the stresses and the plastic deformations are the same, whatever the linear solver; and the resistances of all twelve
systems are equal throughout. -/
theorem C89_symmetry (solve : (M3 →L[ℝ] M3) → M3 → M3) (fuel : Nat) (p : Equiv.Perm (Fin 3)) (s : Fin 3 → Bool) (l : List (ℝ × M3))
    (iv iv' : Internal 12) (h : Equivalent p s iv iv') :
    ((history solve fuel fcc iv' l).map fun r => (r.1, r.2.FpInv)) = ((history solve fuel fcc iv l).map fun r => (r.1, r.2.FpInv))
    ∧ ∀ r r', history solve fuel fcc iv l = some r → history solve fuel fcc iv' l = some r' → Equivalent p s r.2 r'.2 :=
  history_related solve fuel fcc (Equivalent p s) (fun _ _ h => h.fp) (fun iv iv' h dt G S => equivalent_step p s iv iv' h dt G S)
    l iv iv' h

/-- The initial states of two grains whose orientations differ by a symmetry operation. -/
example (R : Matrix (Fin 3) (Fin 3) ℝ) (p : Equiv.Perm (Fin 3)) (s : Fin 3 → Bool) :
    Equivalent p s (initial 12 fun i j => R i j) (initial 12 fun i j => (R * cubicOp p s) i j) :=
  ⟨rfl, rfl, gssInitial, fun _ => ⟨rfl, rfl⟩⟩

end JaxFem.Crystal
