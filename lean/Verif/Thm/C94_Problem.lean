import Verif.Thm.C94_Contact
import Verif.Thm.C14_Boundary
import Verif.Thm.C41_Rectangle

/-!
# C94: third medium contact — old rotations, reference state, discrete problem
-/

namespace JaxFem.Contact

open Matrix JaxFem.Eigen JaxFem.Hyper

variable {nq nfq nn : Nat}

/-! ### Helper lemmas -/

theorem mean_unit {n : Nat} (hn : 0 < n) (c s : Fin n → ℝ) (h : ∀ q, c q ^ 2 + s q ^ 2 = 1) :
    let a := 1 / (n : ℝ) * ∑ q, c q
    let b := 1 / (n : ℝ) * ∑ q, s q
    a ^ 2 + b ^ 2 ≤ 1 ∧ (a ^ 2 + b ^ 2 = 1 ↔ ∀ q, c q = a ∧ s q = b) := by
  intro a b
  have hn' : (0 : ℝ) < n := by exact_mod_cast hn
  have ha : ∑ q, c q = n * a := by simp only [a]; field_simp
  have hb : ∑ q, s q = n * b := by simp only [b]; field_simp
  have key : ∑ q, ((c q - a) ^ 2 + (s q - b) ^ 2) = n * (1 - (a ^ 2 + b ^ 2)) := by
    have e : ∀ q, (c q - a) ^ 2 + (s q - b) ^ 2 = 1 + (a ^ 2 + b ^ 2) - 2 * a * c q - 2 * b * s q := fun q => by
      linear_combination h q
    rw [Finset.sum_congr rfl fun q _ => e q, Finset.sum_sub_distrib, Finset.sum_sub_distrib, ← Finset.mul_sum,
      ← Finset.mul_sum, ha, hb, Finset.sum_const, Finset.card_univ, Fintype.card_fin, nsmul_eq_mul]
    ring
  have h0 : ∀ q ∈ Finset.univ, 0 ≤ (c q - a) ^ 2 + (s q - b) ^ 2 := fun q _ => by positivity
  have hs := Finset.sum_nonneg h0
  rw [key] at hs
  have h1 : 0 ≤ 1 - (a ^ 2 + b ^ 2) := nonneg_of_mul_nonneg_right hs hn'
  refine ⟨by linarith, fun h2 q => ?_, fun h2 => ?_⟩
  · rw [h2, sub_self, mul_zero] at key
    have h3 := (Finset.sum_eq_zero_iff_of_nonneg h0).1 key q (Finset.mem_univ _)
    have k1 : (c q - a) ^ 2 = 0 := by nlinarith [sq_nonneg (c q - a), sq_nonneg (s q - b)]
    have k2 : (s q - b) ^ 2 = 0 := by nlinarith [sq_nonneg (c q - a), sq_nonneg (s q - b)]
    exact ⟨by linarith [pow_eq_zero_iff two_ne_zero |>.1 k1], by linarith [pow_eq_zero_iff two_ne_zero |>.1 k2]⟩
  · have := h ⟨0, hn⟩
    rwa [(h2 _).1, (h2 _).2] at this

theorem mean_planeRotation {n : Nat} (hn : 0 < n) (c s : Fin n → ℝ) :
    (1 / (n : ℝ)) • ∑ q, planeRotation (c q) (s q)
      = planeRotation (1 / (n : ℝ) * ∑ q, c q) (1 / (n : ℝ) * ∑ q, s q) := by
  have hn' : (n : ℝ) ≠ 0 := by exact_mod_cast hn.ne'
  ext i j
  rw [Matrix.smul_apply, Matrix.sum_apply, smul_eq_mul]
  fin_cases i <;> fin_cases j <;> simp [planeRotation, hn']

theorem piola_diag {K G x y : ℝ} (hK : 0 < K) (hG : 0 < G) (hx : 0 < x) (hy : 0 < y) :
    planePiola K G (diagonal ![x, y]) = 0 ↔ x = 1 ∧ y = 1 := by
  have hdet : (diagonal ![x, y] : Matrix (Fin 2) (Fin 2) ℝ).det = x * y := by simp [det_diagonal]
  have hinv : (diagonal ![x, y] : Matrix (Fin 2) (Fin 2) ℝ)⁻¹ = diagonal ![x⁻¹, y⁻¹] := by
    apply inv_eq_left_inv
    rw [diagonal_mul_diagonal, ← diagonal_one]
    congr 1
    funext i
    fin_cases i <;> simp [hx.ne', hy.ne']
  have hsum : ∑ i, ∑ j, (diagonal ![x, y] : Matrix (Fin 2) (Fin 2) ℝ) i j ^ 2 = x ^ 2 + y ^ 2 := by
    simp [Fin.sum_univ_two, diagonal_apply]
  have hj : 0 < (x * y) ^ (-2 / 3 : ℝ) := by positivity
  constructor
  · intro h0
    have e0 := congrFun (congrFun h0 0) 0
    have e1 := congrFun (congrFun h0 1) 1
    simp only [planePiola, hdet, hinv, hsum, Matrix.add_apply, Matrix.smul_apply, Matrix.sub_apply, transpose_apply,
      diagonal_apply_eq, smul_eq_mul, cons_val_zero, cons_val_one, Matrix.zero_apply] at e0 e1
    set j := (x * y) ^ (-2 / 3 : ℝ)
    set L := Real.log (x * y) with hL
    field_simp at e0 e1
    have hxy : x = y := by
      have h1 : j * G * ((x - y) * (x + y)) = 0 := by linarith
      rcases mul_eq_zero.1 h1 with h2 | h2
      · exact absurd h2 (mul_pos hj hG).ne'
      · rcases mul_eq_zero.1 h2 with h3 | h3
        · linarith
        · linarith
    subst hxy
    have hx1 : x = 1 := by
      rcases lt_trichotomy x 1 with h1 | h1 | h1
      · have l1 : L < 0 := Real.log_neg (by positivity) (by nlinarith)
        have l2 : K * L < 0 := mul_neg_of_pos_of_neg hK l1
        have l3 : j * G * (x ^ 2 - 1) < 0 := mul_neg_of_pos_of_neg (mul_pos hj hG) (by nlinarith)
        nlinarith
      · exact h1
      · have l1 : 0 < L := Real.log_pos (by nlinarith)
        have l2 : 0 < K * L := mul_pos hK l1
        have l3 : 0 < j * G * (x ^ 2 - 1) := mul_pos (mul_pos hj hG) (by nlinarith)
        nlinarith
    exact ⟨hx1, hx1⟩
  · rintro ⟨rfl, rfl⟩
    ext i j
    simp only [planePiola, hdet, hinv, hsum]
    fin_cases i <;> fin_cases j <;> simp <;> norm_num

theorem planeGrad_zero (noise : Fin 2 → Fin 2 → ℝ) :
    of (planeGrad noise fun _ _ => 0) = diagonal ![1 + noise 0 0, 1 + noise 1 1] := by
  ext i j
  fin_cases i <;> fin_cases j <;> simp [planeGrad, diagNoise, add_comm]

theorem turning_diag {x y : ℝ} (hx : 0 < x) (hy : 0 < y) :
    turningLength (diagonal ![x, y]) = x + y ∧ turning (diagonal ![x, y]) = (x + y, 0) := by
  have h : turning (diagonal ![x, y]) = (x + y, 0) := by simp [turning]
  refine ⟨?_, h⟩
  rw [turningLength, h]
  simp only [ne_eq, OfNat.ofNat_ne_zero, not_false_eq_true, zero_pow, add_zero]
  exact Real.sqrt_sq (by positivity)

/-- The energy as a function of the deformation gradient without the noise. -/
noncomputable def noisyEnergy (eigh : Eigh) (m : Mat) (noise : Fin 2 → Fin 2 → ℝ) (iv : ℝ × M3) (F : Fin 2 → Fin 2 → ℝ) : ℝ :=
  psi eigh m iv.1 iv.2 (F + diagNoise noise)

theorem contactStress_eq (eigh : Eigh) (m : Mat) (noise : Fin 2 → Fin 2 → ℝ) :
    (fun (iv : ℝ × M3) (G : Fin 2 → Fin 2 → ℝ) => firstPKStress eigh m noise G iv.1 iv.2)
      = fun iv G => firstPK (noisyEnergy eigh m noise iv) G := by
  funext iv G i j
  have e : fderiv ℝ (noisyEnergy eigh m noise iv) (fun i j => G i j + if i = j then 1 else 0)
      = fderiv ℝ (psi eigh m iv.1 iv.2) ((fun i j => G i j + if i = j then 1 else 0) + diagNoise noise) :=
    fderiv_comp_add_right (diagNoise noise)
  have e2 : ((fun i j => G i j + if i = j then 1 else 0) + diagNoise noise) = planeGrad noise G := by
    funext i j
    simp only [planeGrad, Pi.add_apply]
    ring
  rw [firstPKStress, firstPK, Hyper.grad, Hyper.grad, e, e2]

/-- The assembled residual as a function of the vector of unknowns. -/
noncomputable def contactResidual (P : Problem1 (ℝ × M3) nq nfq nn 2 2) (eigh : Eigh) (m : Mat) (noise : Fin 2 → Fin 2 → ℝ) :
    (Fin (totalDofs P.fes) → ℝ) → Fin (totalDofs P.fes) → ℝ := (withContact P eigh m noise).flat

theorem flat_congr (P : Problem1 (ℝ × M3) nq nfq nn 2 2) (f g : ℝ × M3 → (Fin 2 → Fin 2 → ℝ) → Fin 2 → Fin 2 → ℝ)
    (h : f = g) (x : Fin (totalDofs P.fes) → ℝ) :
    ({ P with tensorMap := f, massMap := none } : Problem1 (ℝ × M3) nq nfq nn 2 2).flat x
      = ({ P with tensorMap := g, massMap := none } : Problem1 (ℝ × M3) nq nfq nn 2 2).flat x := by
  subst h
  rfl

theorem contactResidual_eq (P : Problem1 (ℝ × M3) nq nfq nn 2 2) (eigh : Eigh) (m : Mat) (noise : Fin 2 → Fin 2 → ℝ) :
    contactResidual P eigh m noise = res P (noisyEnergy eigh m noise) :=
  funext fun x => flat_congr P _ _ (contactStress_eq eigh m noise) x

theorem entry_const (points : List (Fin 2 → ℝ)) (loc : LocFn (Fin 2 → ℝ)) (f : (Fin 2 → ℝ) → Bool) (hf : loc = .one f)
    (vec : Nat) (val : (Fin 2 → ℝ) → ℝ) (c : ℝ) (hval : val = fun _ => c) (L : List Nat) (hL : L.Pairwise (· < ·)) (hm : ∀ n, n ∈ L ↔ ∃ p, points[n]? = some p ∧ f p = true) :
    dirichletEntry points loc vec val = .ok (L, List.replicate L.length vec, List.replicate L.length c) := by
  subst hf hval
  have e : argwhere (points.mapIdx fun i p => f p) = L := by
    have h1 := argwhere_pairwise (points.mapIdx fun i p => f p)
    have h2 : ∀ n, n ∈ argwhere (points.mapIdx fun i p => f p) ↔ n ∈ L := by
      intro n
      rw [mem_argwhere, List.getElem?_mapIdx, hm, Option.map_eq_some_iff]
    exact List.Perm.eq_of_pairwise (le := (· < ·)) (fun a b _ _ h h' => absurd (lt_trans h h') (lt_irrefl _)) h1 hL
      ((List.perm_ext_iff_of_nodup (h1.imp fun h => ne_of_lt h) (hL.imp fun h => ne_of_lt h)).2 h2)
  have h3 := (filterMap_getElem?_of_all L (fun n => points[n]?) fun n hn => by
    obtain ⟨p, hp, -⟩ := (hm n).1 hn
    rw [hp]; rfl).1
  simp only [dirichletEntry, LocFn.resolve, bind, Except.bind, pure, Except.pure, e, one_mul, List.map_const', h3]

theorem contact_points (n : Nat) (hn : 0 < n) (k : Nat) (p : Fin 2 → ℝ) :
    (contactMesh n).1[k]? = some p ↔ ∃ i j, i ≤ 2 * n + 1 ∧ j ≤ n ∧ k = i * (n + 1) + j ∧
      p = ![(i : ℝ) * (500 / n), (j : ℝ) * (500 / n)] := by
  have hn' : (n : ℝ) ≠ 0 := by exact_mod_cast hn.ne'
  have hx : ((1000 : ℝ) + 500 / n) / ((2 * n + 1 : ℕ) : ℝ) = 500 / n := by
    push_cast
    have : (2 * (n : ℝ) + 1) ≠ 0 := by positivity
    field_simp
    ring
  obtain ⟨hlen, hpt⟩ := C41_points (2 * n + 1) n ((1000 : ℝ) + 500 / n) 500
  rw [hx] at hpt
  constructor
  · intro h
    have hk : k < (2 * n + 1 + 1) * (n + 1) := by
      rw [← hlen]
      exact (List.getElem?_eq_some_iff.1 h).1
    have d1 : k / (n + 1) ≤ 2 * n + 1 := by
      have := Nat.div_lt_of_lt_mul (m := k) (n := n + 1) (k := 2 * n + 1 + 1) (by rw [mul_comm]; exact hk)
      omega
    have d2 : k % (n + 1) ≤ n := by
      have := Nat.mod_lt k (y := n + 1) (by omega)
      omega
    have d3 : k = k / (n + 1) * (n + 1) + k % (n + 1) := by
      rw [mul_comm]; exact (Nat.div_add_mod k (n + 1)).symm
    refine ⟨k / (n + 1), k % (n + 1), d1, d2, d3, ?_⟩
    have h2 := hpt _ _ d1 d2
    rw [← d3] at h2
    exact Option.some.inj (h.symm.trans h2)
  · rintro ⟨i, j, hi, hj, rfl, rfl⟩
    exact hpt i j hi hj

theorem grid_close {n : Nat} (hn : 0 < n) (hn2 : n ≤ 20000) (i k : Nat) (b : ℝ) (hb : b = k * (500 / n)) (hb2 : b ≤ 1000) :
    isclose ((i : ℝ) * (500 / n)) b ↔ i = k := by
  have hn' : (0 : ℝ) < n := by exact_mod_cast hn
  have hh : (1 / 40 : ℝ) ≤ 500 / n := by
    rw [le_div_iff₀ hn']
    have : (n : ℝ) ≤ 20000 := by exact_mod_cast hn2
    linarith
  have hb0 : 0 ≤ b := by rw [hb]; positivity
  rw [isclose, abs_of_nonneg hb0]
  constructor
  · intro h
    by_contra hne
    have h1 : (1 : ℝ) ≤ |(i : ℝ) - k| := by
      have : (1 : ℤ) ≤ |(i : ℤ) - k| := Int.one_le_abs (by omega)
      exact_mod_cast this
    have h2 : |(i : ℝ) * (500 / n) - b| = |(i : ℝ) - k| * (500 / n) := by
      rw [hb, ← sub_mul, abs_mul, abs_of_pos (a := (500 : ℝ) / n) (by positivity)]
    rw [h2] at h
    have h3 : (1 / 40 : ℝ) ≤ |(i : ℝ) - k| * (500 / n) := by nlinarith
    norm_num at h
    linarith
  · rintro rfl
    rw [hb, sub_self, abs_zero]
    positivity

/-! ### Property theorems -/

/-- **C94 (old rotations).** If all deformation gradients of a cell have positive determinant, the matrix which
`post_processing` assigns to the quadrature points of the cell is `[[a, -b, 0], [b, a, 0], [0, 0, 1]]` with the means of the
cosines and sines. It is a rotation only if all quadrature points are turned by the same angle; otherwise `a² + b² < 1`. -/
theorem C94_mean (hq : 0 < nq) (eigh : Eigh) (he : ∀ x, IsEigh x (eigh x).1 (eigh x).2) (noise : Fin 2 → Fin 2 → ℝ)
    (el : RefElement ℝ nq nn 2) (points : List (Fin 2 → ℝ)) (sol : List (List ℝ)) (cell : List Nat)
    (hdet : ∀ q, 0 < (of (planeGrad noise (solToGrad el 2 points sol cell q))).det) :
    ∃ a b : ℝ, (∀ q, meanRotation eigh noise el points sol cell q = planeRotation a b) ∧ a ^ 2 + b ^ 2 ≤ 1 ∧
      (IsRotation (planeRotation a b) ↔
        ∀ q, rotation eigh (deformGrad noise (solToGrad el 2 points sol cell q)) = planeRotation a b) := by
  set t : Fin nq → ℝ × ℝ := fun q => turning (of (planeGrad noise (solToGrad el 2 points sol cell q))) with ht
  set l : Fin nq → ℝ := fun q => turningLength (of (planeGrad noise (solToGrad el 2 points sol cell q))) with hl
  have hR : ∀ q, rotation eigh (deformGrad noise (solToGrad el 2 points sol cell q)) =
      planeRotation ((t q).1 / l q) ((t q).2 / l q) := fun q => rotation_plane he (hdet q)
  obtain ⟨h1, h2⟩ := mean_unit hq (fun q => (t q).1 / l q) (fun q => (t q).2 / l q) fun q => unit_turning (hdet q)
  refine ⟨_, _, fun q => ?_, h1, ?_⟩
  · rw [meanRotation, Finset.sum_congr rfl fun q _ => hR q]
    exact mean_planeRotation hq _ _
  · set a := 1 / (nq : ℝ) * ∑ q, (t q).1 / l q
    set b := 1 / (nq : ℝ) * ∑ q, (t q).2 / l q
    have e1 : IsRotation (planeRotation a b) ↔ a ^ 2 + b ^ 2 = 1 := by
      constructor
      · intro h
        have := h.2
        rw [planeRotation, det_fin_three] at this
        simp at this
        linarith
      · intro h
        refine ⟨?_, ?_⟩
        · ext i j
          fin_cases i <;> fin_cases j <;> simp [planeRotation, mul_apply, Fin.sum_univ_three] <;> nlinarith [h]
        · rw [planeRotation, det_fin_three]
          simp
          linarith
    rw [e1, h2]
    refine forall_congr' fun q => ?_
    rw [hR q]
    constructor
    · rintro ⟨h3, h4⟩
      rw [h3, h4]
    · intro h3
      exact ⟨congrFun (congrFun h3 0) 0, congrFun (congrFun h3 1) 0⟩

/-- **C94 (reference state).** For noise above `-1` the rotation of the undeformed body is the identity. Then the stress of
the solid at zero displacement gradient vanishes exactly when the diagonal of the noise is zero: the random noise of
the script prestresses the body. -/
theorem C94_reference (eigh : Eigh) (he : ∀ x, IsEigh x (eigh x).1 (eigh x).2) (m : Mat)
    (hE : 0 < m.E) (h1 : -1 < m.nu) (h2 : m.nu < 1 / 2) (noise : Fin 2 → Fin 2 → ℝ)
    (hn : ∀ i, -1 < noise i i) :
    rotation eigh (deformGrad noise fun _ _ => 0) = 1 ∧
    (∀ theta, 1 / 2 < theta →
      (firstPKStress eigh m noise (fun _ _ => 0) theta 1 = 0 ↔ ∀ i, noise i i = 0)) ∧
    (∀ theta, (∀ i, noise i i = 0) → firstPKStress eigh m noise (fun _ _ => 0) theta 1 = 0) := by
  have hx : 0 < 1 + noise 0 0 := by linarith [hn 0]
  have hy : 0 < 1 + noise 1 1 := by linarith [hn 1]
  have hK : 0 < m.K := div_pos hE (by linarith)
  have hG : 0 < m.G := div_pos hE (by linarith)
  have hd : 0 < (of (planeGrad noise fun _ _ => 0)).det := by
    rw [planeGrad_zero, det_diagonal]
    simp only [Fin.prod_univ_two, cons_val_zero, cons_val_one]
    positivity
  have one_eq : (1 : M3) = planeRotation 1 0 := by
    ext i j
    fin_cases i <;> fin_cases j <;> simp [planeRotation]
  obtain ⟨t1, t2⟩ := turning_diag hx hy
  have solid : ∀ theta, 1 / 2 < theta →
      (firstPKStress eigh m noise (fun _ _ => 0) theta 1 = 0 ↔ ∀ i, noise i i = 0) := by
    intro theta ht
    have hP := ((C94_stress eigh he m noise (fun _ _ => 0) theta 1 0 hd).2.1 ht).1
    rw [← one_eq, planeGrad_zero] at hP
    have hz := piola_diag hK hG hx hy
    rw [Mat.K, Mat.G, ← hP] at hz
    have e : of (firstPKStress eigh m noise (fun _ _ => 0) theta 1) = 0 ↔
        firstPKStress eigh m noise (fun _ _ => 0) theta 1 = 0 := Iff.rfl
    rw [← e, hz]
    constructor
    · rintro ⟨a, b⟩ i
      fin_cases i
      · show noise 0 0 = 0
        linarith
      · show noise 1 1 = 0
        linarith
    · intro h
      rw [h 0, h 1]
      simp
  refine ⟨?_, solid, fun theta h => ?_⟩
  · have := rotation_plane he hd
    rw [show (fun i j => of (planeGrad noise fun _ _ => 0) i j) = planeGrad noise fun _ _ => 0 from rfl,
      planeGrad_zero, t1, t2] at this
    simp only [zero_div] at this
    rw [div_self (by positivity)] at this
    rw [one_eq, ← this]
    rfl
  · rcases lt_or_ge (1 / 2) theta with ht | ht
    · exact (solid theta ht).2 h
    · have hP := ((C94_stress eigh he m noise (fun _ _ => 0) theta 1 0 hd).2.2 ht).1
      rw [← one_eq, planeGrad_zero] at hP
      have e1 : (diagonal ![1 + noise 0 0, 1 + noise 1 1] : Matrix (Fin 2) (Fin 2) ℝ) = 1 := by
        rw [h 0, h 1, add_zero, ← diagonal_one]
        congr 1
        funext i
        fin_cases i <;> rfl
      rw [e1] at hP
      have e2 : planePiola 0 (m.soft * (m.E / (2 * (1 + m.nu)))) (1 : Matrix (Fin 2) (Fin 2) ℝ) + couplePiola m.kR 1 0 1 = 0 := by
        ext i j
        fin_cases i <;> fin_cases j <;> simp [planePiola, couplePiola, turning, one_apply] <;> norm_num
      rw [e2] at hP
      exact hP

/-- **C94 (discrete problem).** With the old rotations of a previous step and dead loads, wherever the deformation
gradients including the noise have positive determinant, the assembled residual is the gradient of the total energy and the
tangent matrix exists and is symmetric. -/
theorem C94_discrete (P : Problem1 (ℝ × M3) nq nfq nn 2 2) (h : P.WF) (hl : P.DeadLoads) (eigh : Eigh)
    (he : ∀ x, IsEigh x (eigh x).1 (eigh x).2) (m : Mat) (noise : Fin 2 → Fin 2 → ℝ) (x : Fin (totalDofs P.fes) → ℝ)
    (hR : ∀ c ∈ P.cells, ∀ q, ∃ a b : ℝ, (c.iv q).2 = planeRotation a b)
    (hdet : ∀ c ∈ P.cells, ∀ q, 0 < (P.defGrad (P.vecField x) c.nodes q + of (diagNoise noise)).det) :
    HasFDerivAt (fun y => P.potential (fun iv F => psi eigh m iv.1 iv.2 (F + diagNoise noise)) (P.vecField y))
      (∑ k, contactResidual P eigh m noise x k •
        ContinuousLinearMap.proj (R := ℝ) (φ := fun _ : Fin (totalDofs P.fes) => ℝ) k) x ∧
    (∃ K, HasJacobianAt (contactResidual P eigh m noise) K x) ∧
    (∀ K, HasJacobianAt (contactResidual P eigh m noise) K x → K.transpose = K) := by
  rw [contactResidual_eq]
  refine C88_potential P h (noisyEnergy eigh m noise) hl x fun c hc q => ?_
  obtain ⟨a, b, hab⟩ := hR c hc q
  have h1 : ContDiffAt ℝ 2 (psi eigh m (c.iv q).1 (planeRotation a b))
      ((fun i j => P.defGrad (P.vecField x) c.nodes q i j) + diagNoise noise) := psi_contDiff he m _ a b (hdet c hc q)
  have h2 : ContDiffAt ℝ 2 (fun F : Fin 2 → Fin 2 → ℝ => F + diagNoise noise)
      (fun i j => P.defGrad (P.vecField x) c.nodes q i j) := contDiffAt_id.add contDiffAt_const
  have h3 := ContDiffAt.comp (fun i j => P.defGrad (P.vecField x) c.nodes q i j) h1 h2
  rw [show noisyEnergy eigh m noise (c.iv q) = psi eigh m (c.iv q).1 (planeRotation a b) ∘ fun F => F + diagNoise noise from
    funext fun F => by rw [noisyEnergy, hab]; rfl]
  exact h3

/-- **C94 (supports).** For mesh sizes `500 / n` with `n ≤ 20000`: whatever scale was used before, the Dirichlet conditions
after `set_params` clamp the `n + 1` nodes of the left edge and prescribe the vertical displacement `-500 scale` at
exactly one node, the upper corner of the specimen, which is not a corner of the mesh. -/
theorem C94_supports (n : Nat) (hn : 0 < n) (hn2 : n ≤ 20000) (scale : ℝ) (scales : List ℝ) :
    dirichletBC (contactMesh n).1 (some (setParams (scales.foldl setParams contactInfo) scale)) = .ok
      ([List.range (n + 1), List.range (n + 1), [2 * n * (n + 1) + n]],
       [List.replicate (n + 1) 0, List.replicate (n + 1) 1, [1]],
       [List.replicate (n + 1) 0, List.replicate (n + 1) 0, [-scale * 500]]) ∧
    (contactMesh n).1[2 * n * (n + 1) + n]? = some ![1000, 500] := by
  have hn' : (n : ℝ) ≠ 0 := by exact_mod_cast hn.ne'
  have e1000 : ((2 * n : ℕ) : ℝ) * (500 / n) = 1000 := by
    push_cast
    field_simp
    norm_num
  have e500 : (n : ℝ) * (500 / n) = 500 := by field_simp
  have hinfo : ∀ (l : List ℝ) (d : ℝ), ∃ d', l.foldl setParams (setParams contactInfo d) =
      ([left, left, rightmostNode], [0, 1, 1], [fun _ => 0, fun _ => 0, dirichletTopright d']) := by
    intro l
    induction l with
    | nil => exact fun d => ⟨d, rfl⟩
    | cons a l ih => exact fun d => ih a
  have hinfo2 : setParams (scales.foldl setParams contactInfo) scale =
      ([left, left, rightmostNode], [0, 1, 1], [fun _ => 0, fun _ => 0, dirichletTopright scale]) := by
    cases scales with
    | nil => rfl
    | cons a l =>
      obtain ⟨d', h⟩ := hinfo l a
      rw [List.foldl_cons, h]
      rfl
  have hleft : ∀ vec, dirichletEntry (contactMesh n).1 left vec (fun _ => (0 : ℝ))
      = .ok (List.range (n + 1), List.replicate (n + 1) vec, List.replicate (n + 1) 0) := by
    intro vec
    have := entry_const (contactMesh n).1 left _ rfl vec (fun _ => 0) 0 rfl
      (List.range (n + 1)) List.pairwise_lt_range (by
        intro k
        simp only [decide_eq_true_eq, List.mem_range]
        constructor
        · intro hk
          refine ⟨_, (contact_points n hn k _).2 ⟨0, k, by omega, by omega, by simp, rfl⟩, ?_⟩
          exact (grid_close hn hn2 0 0 0 (by simp) (by norm_num)).2 rfl
        · rintro ⟨p, hp, hc⟩
          obtain ⟨i, j, hi, hj, rfl, rfl⟩ := (contact_points n hn k p).1 hp
          have := (grid_close hn hn2 i 0 0 (by simp) (by norm_num)).1 hc
          subst this
          omega)
    rwa [List.length_range] at this
  have hright : dirichletEntry (contactMesh n).1 rightmostNode 1 (dirichletTopright scale)
      = .ok ([2 * n * (n + 1) + n], [1], [-scale * 500]) := by
    refine entry_const (contactMesh n).1 rightmostNode _ rfl 1 (dirichletTopright scale) (-scale * 500) rfl
      [2 * n * (n + 1) + n] (List.pairwise_singleton _ _) (fun k => ?_)
    simp only [decide_eq_true_eq, List.mem_singleton]
    constructor
    · rintro rfl
      refine ⟨_, (contact_points n hn _ _).2 ⟨2 * n, n, by omega, le_rfl, rfl, rfl⟩, ?_, ?_⟩
      · exact (grid_close hn hn2 (2 * n) (2 * n) 1000 e1000.symm (by norm_num)).2 rfl
      · exact (grid_close hn hn2 n n 500 e500.symm (by norm_num)).2 rfl
    · rintro ⟨p, hp, hc1, hc2⟩
      obtain ⟨i, j, hi, hj, rfl, rfl⟩ := (contact_points n hn k p).1 hp
      have h1 := (grid_close hn hn2 i (2 * n) 1000 e1000.symm (by norm_num)).1 hc1
      have h2 := (grid_close hn hn2 j n 500 e500.symm (by norm_num)).1 hc2
      rw [h1, h2]
  constructor
  · rw [hinfo2]
    simp only [dirichletBC, List.length_cons, List.length_nil, and_self, if_true, dirichletLoop, hleft, hright, bind,
      Except.bind, pure, Except.pure]
  · exact (contact_points n hn _ _).2 ⟨2 * n, n, by omega, le_rfl, rfl, by rw [e1000, e500]⟩

/-- **C94 (sequence).** Every step of the sequence is solved with the old rotations of the solution of the previous step,
which is also its initial guess; the result is the solution for the last scale. If a step raises, so does the sequence. -/
theorem C94_sequence {S Rs : Type} (forward : S → ℝ → Rs → Except Err S) (post : S → Except Err Rs) (ds : List ℝ)
    (sol0 sol : S) :
    fwdPredSeq forward post ds sol0 = .ok sol ↔
      ∃ hist : List S, hist.length = ds.length + 1 ∧ hist[0]? = some sol0 ∧ hist[ds.length]? = some sol ∧
        ∀ (k : Nat) (d : ℝ) (s s' : S), ds[k]? = some d → hist[k]? = some s → hist[k + 1]? = some s' →
          ∃ old, post s = .ok old ∧ forward s d old = .ok s' := by
  induction ds generalizing sol0 with
  | nil =>
    simp only [fwdPredSeq, Except.ok.injEq, List.length_nil, zero_add]
    constructor
    · rintro rfl
      exact ⟨[sol0], rfl, rfl, rfl, by simp⟩
    · rintro ⟨hist, -, h1, h2, -⟩
      exact Option.some.inj (h1.symm.trans h2)
  | cons d ds ih =>
    rw [fwdPredSeq]
    constructor
    · intro h
      rcases hp : post sol0 with x | old
      · rw [hp] at h; cases h
      · rw [hp] at h
        simp only [bind, Except.bind] at h
        rcases hf : forward sol0 d old with x | s1
        · rw [hf] at h; cases h
        · rw [hf] at h
          obtain ⟨hist, h1, h2, h3, h4⟩ := (ih s1).1 h
          refine ⟨sol0 :: hist, by simp [h1], rfl, by simpa using h3, ?_⟩
          intro k d' s s' e1 e2 e3
          cases k with
          | zero =>
            simp only [List.getElem?_cons_zero, Option.some.injEq, List.getElem?_cons_succ, zero_add] at e1 e2 e3
            subst e1 e2
            rw [h2] at e3
            obtain rfl := Option.some.inj e3
            exact ⟨old, hp, hf⟩
          | succ k => exact h4 k d' s s' (by simpa using e1) (by simpa using e2) (by simpa using e3)
    · rintro ⟨hist, h1, h2, h3, h4⟩
      cases hist with
      | nil => simp at h1
      | cons a hist =>
        obtain rfl : a = sol0 := by simpa using h2
        cases hist with
        | nil => simp at h1
        | cons s1 hist =>
          obtain ⟨old, hp, hf⟩ := h4 0 d a s1 rfl rfl rfl
          rw [hp]
          simp only [bind, Except.bind]
          rw [hf]
          refine (ih s1).2 ⟨s1 :: hist, by simpa using h1, rfl, by simpa using h3, fun k d' s s' e1 e2 e3 => ?_⟩
          exact h4 (k + 1) d' s s' (by simpa using e1) (by simpa using e2) (by simpa using e3)

/-! ### Non-vacuity -/

/-- An `eigh`. -/
noncomputable def exEigh : Eigh := fun x => (Classical.choose (exists_eigh x), Classical.choose (Classical.choose_spec (exists_eigh x)))

theorem exEigh_spec (x : Fin 3 → Fin 3 → ℝ) : IsEigh x (exEigh x).1 (exEigh x).2 :=
  Classical.choose_spec (Classical.choose_spec (exists_eigh x))

/-- The rotation of a simple shear. -/
example : rotation exEigh (setBlock ![![1, -3 / 2], ![0, 1]]) = planeRotation (4 / 5) (3 / 5) := by
  have hd : 0 < (of (![![1, -3 / 2], ![0, 1]] : Fin 2 → Fin 2 → ℝ)).det := by simp [det_fin_two]
  have h := (C94_plane exEigh exEigh_spec (of ![![1, -3 / 2], ![0, 1]]) hd).2
  have ht : turning (of ![![1, -3 / 2], ![0, 1]]) = (2, 3 / 2) := by
    simp [turning]
    norm_num
  have hl : turningLength (of ![![1, -3 / 2], ![0, 1]]) = 5 / 2 := by
    rw [turningLength, ht]
    rw [show ((2 : ℝ), (3 / 2 : ℝ)).1 ^ 2 + ((2 : ℝ), (3 / 2 : ℝ)).2 ^ 2 = (5 / 2) ^ 2 by norm_num]
    exact Real.sqrt_sq (by norm_num)
  rw [ht, hl, show (2 : ℝ) / (5 / 2) = 4 / 5 by norm_num, show (3 / 2 : ℝ) / (5 / 2) = 3 / 5 by norm_num] at h
  exact h

/-- The numbers of the script meet the hypotheses of `C94_energy` and `C94_reference`. -/
example : 0 < script.E ∧ -1 < script.nu ∧ script.nu < 1 / 2 ∧ 0 < script.kR ∧ 0 < script.soft := by
  simp only [script]
  norm_num

/-- The mesh of the script, `h = 50`: node 230 is moved. -/
example : dirichletBC (contactMesh 10).1 (some (setParams contactInfo (6 / 5))) = .ok
    ([List.range 11, List.range 11, [230]], [List.replicate 11 0, List.replicate 11 1, [1]],
      [List.replicate 11 0, List.replicate 11 0, [-(6 / 5) * 500]]) :=
  (C94_supports 10 (by norm_num) (by norm_num) (6 / 5) []).1

/-- The stretched rectangle of `C88_Problem.lean` as a medium with old rotation 1 meets the hypotheses of `C94_discrete`. -/
noncomputable def exMedium : Problem1 (ℝ × M3) 4 1 4 2 2 :=
  { exSolid with cells := exSolid.cells.map fun c => ⟨c.nodes, fun _ => (0, 1)⟩, tensorMap := fun _ G => G, massMap := none, surfaces := [] }

theorem exMedium_rect : OnRectangle exMedium 2 2 4 6 exPts (fun _ => 1/4) where
  el := rfl
  points := rfl
  conn := by
    have := exSolid_rect.conn
    rw [← this]
    simp [Problem1.conn, exMedium, List.map_map, Function.comp_def]
  nodes := rfl
  Nx_pos := by decide
  Ny_pos := by decide
  Lx_pos := by norm_num
  Ly_pos := by norm_num
  faces := by intro s hs; simp [exMedium] at hs

/-- The undeformed medium with noise 1/100 meets the hypotheses. -/
example : ∃ K, HasJacobianAt (contactResidual exMedium exEigh script fun _ _ => 1 / 100) K 0 ∧ K.transpose = K := by
  have h0 : ∀ c q, exMedium.defGrad (exMedium.vecField 0) c q = 1 := by
    intro c q
    rw [Problem1.defGrad]
    have hv : exMedium.vecField 0 = fun _ => (0 : Fin 2 → ℝ) := by
      funext n i
      simp only [Problem1.vecField]
      split <;> rfl
    have : exMedium.gradient (exMedium.vecField 0) c q = 0 := by
      rw [hv]
      exact gradient_const exMedium exSolid_unity 0 c q
    exact (congrArg (1 + ·) this).trans (add_zero _)
  obtain ⟨-, ⟨K, hK⟩, hs⟩ := C94_discrete exMedium exMedium_rect.wf (fun s hs => by simp [exMedium] at hs) exEigh exEigh_spec
    script (fun _ _ => 1 / 100) 0 (fun c hc q => ⟨1, 0, by
      obtain ⟨c', -, rfl⟩ := List.mem_map.1 hc
      ext i j
      fin_cases i <;> fin_cases j <;> simp [planeRotation]⟩) (fun c hc q => by
      rw [h0, det_fin_two]
      simp [diagNoise]
      norm_num)
  exact ⟨K, hK, hs K hK⟩

/-- The mean rotation of the undeformed medium. -/
example : ∃ a b : ℝ, (∀ q, meanRotation exEigh (fun _ _ => 0) exMedium.el exMedium.points [] [0, 3, 4, 1] q = planeRotation a b) ∧
    a ^ 2 + b ^ 2 ≤ 1 := by
  obtain ⟨a, b, h1, h2, -⟩ := C94_mean (by norm_num) exEigh exEigh_spec (fun _ _ => 0) exMedium.el exMedium.points [] [0, 3, 4, 1]
    (fun q => by
      have : solToGrad exMedium.el 2 exMedium.points [] [0, 3, 4, 1] q = fun _ _ => 0 := by
        funext i j
        simp [solToGrad]
      rw [this, det_fin_two]
      simp [planeGrad, diagNoise])
  exact ⟨a, b, h1, h2⟩

/-- Two steps of a sequence, with numbers in place of fields. -/
example : fwdPredSeq (fun s d o : ℝ => .ok (s + d + o)) (fun s => .ok (2 * s)) [1, 2] 1 = .ok (14 : ℝ) := by
  simp only [fwdPredSeq, bind, Except.bind]
  norm_num

end JaxFem.Contact
