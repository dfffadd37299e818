import Verif.Thm.C92_Design

/-!
# C92: the materials and the design variables of topology optimisation
-/

namespace JaxFem

open scoped BigOperators

variable {IV : Type} {nq nfq nn dim : Nat}

/-- **C92 (plane stress).** The two-dimensional law is the three-dimensional Hooke law of `Elastic.stress` for a
plate: among the gradients that extend the in-plane gradient there is one with a stress-free thickness direction,
and for every such one the in-plane stresses are those of `planeStress`. -/
theorem C92_plane_stress (E nu : ℝ) (hE : E ≠ 0) (h1 : -1 < nu) (h2 : nu < 1 / 2) (G : Fin 2 → Fin 2 → ℝ) :
    (∃ H, Extends H G ∧ FreeOfNormalStress (Elastic.stress E nu H)) ∧
    ∀ H, Extends H G → FreeOfNormalStress (Elastic.stress E nu H) →
      ∀ i j : Fin 2, Elastic.stress E nu H i.castSucc j.castSucc = TopOpt.planeStress E nu G i j := by
  have a1 : 1 + nu ≠ 0 := by linarith
  have a2 : 1 - 2 * nu ≠ 0 := by linarith
  have a2' : 1 - nu * 2 ≠ 0 := by linarith
  have a3 : 1 - nu ≠ 0 := by linarith
  constructor
  · refine ⟨![![G 0 0, G 0 1, 0], ![G 1 0, G 1 1, 0], ![0, 0, -(nu / (1 - nu)) * (G 0 0 + G 1 1)]], ⟨?_, ?_⟩, ?_⟩
    · intro i j
      fin_cases i <;> fin_cases j <;> rfl
    · intro i
      fin_cases i <;> simp
    · intro i
      fin_cases i
      · simp [Elastic.stress]
      · simp [Elastic.stress]
      · simp only [Elastic.stress, Elastic.mu, Elastic.lmbda, Fin.sum_univ_three]
        simp
        field_simp
        ring
  · rintro H ⟨hH, hs⟩ hf i j
    have h22 := (hf 2).1
    have e00 := hH 0 0
    have e01 := hH 0 1
    have e10 := hH 1 0
    have e11 := hH 1 1
    simp only [Fin.castSucc_zero, Fin.castSucc_one] at e00 e01 e10 e11
    simp only [Elastic.stress, Elastic.mu, Elastic.lmbda, Fin.sum_univ_three, if_true] at h22
    have hH22 : H 2 2 = -(nu / (1 - nu)) * (G 0 0 + G 1 1) := by
      rw [e00, e11] at h22
      field_simp at h22 ⊢
      have hne : E * (1 - 2 * nu) ≠ 0 := mul_ne_zero hE a2
      have : E * (H 2 2 * (1 - nu) + nu * (G 0 0 + G 1 1)) = 0 := by linear_combination h22
      rcases mul_eq_zero.1 this with h | h
      · exact absurd h hE
      · linarith
    fin_cases i <;> fin_cases j <;>
      simp [Elastic.stress, Elastic.mu, Elastic.lmbda, Fin.sum_univ_three, TopOpt.planeStress, hH22, e00, e01, e10, e11] <;>
      field_simp <;> ring_nf <;> simp

/-- The plane-stress law for Young's modulus one. -/
noncomputable def planeLaw (nu : ℝ) : (Fin 2 → Fin 2 → ℝ) →ₗ[ℝ] (Fin 2 → Fin 2 → ℝ) where
  toFun := TopOpt.planeStress 1 nu
  map_add' := fun G H => by
    funext i j
    fin_cases i <;> fin_cases j <;> simp [TopOpt.planeStress] <;> ring
  map_smul' := fun a G => by
    funext i j
    fin_cases i <;> fin_cases j <;> simp [TopOpt.planeStress] <;> ring

/-- Hooke's law for Young's modulus one. -/
noncomputable def solidLaw (nu : ℝ) : (Fin 3 → Fin 3 → ℝ) →ₗ[ℝ] (Fin 3 → Fin 3 → ℝ) where
  toFun := Elastic.stress 1 nu
  map_add' := fun G H => by
    funext i j
    simp only [Elastic.stress, Pi.add_apply, Fin.sum_univ_three]
    ring
  map_smul' := fun a G => by
    funext i j
    simp only [Elastic.stress, Pi.smul_apply, smul_eq_mul, RingHom.id_apply, Fin.sum_univ_three]
    ring

theorem planeLaw_energy (nu : ℝ) (h1 : -1 < nu) (h2 : nu < 1) (G H : Fin 2 → Fin 2 → ℝ) :
    contract (planeLaw nu G) H = ((G 0 0 + nu * G 1 1) * H 0 0 + (nu * G 0 0 + G 1 1) * H 1 1) / (1 - nu ^ 2)
      + (G 0 1 + G 1 0) * (H 0 1 + H 1 0) / (2 * (1 + nu)) := by
  have a1 : 1 + nu ≠ 0 := by linarith
  have a3 : 1 - nu ≠ 0 := by linarith
  have a4 : 1 - nu ^ 2 ≠ 0 := by
    have : 1 - nu ^ 2 = (1 + nu) * (1 - nu) := by ring
    rw [this]; exact mul_ne_zero a1 a3
  simp only [contract, planeLaw, LinearMap.coe_mk, AddHom.coe_mk, TopOpt.planeStress, Fin.sum_univ_two]
  simp
  have e : 1 / (1 + nu) / (1 - nu) = 1 / (1 - nu ^ 2) := by
    rw [div_div, show (1 + nu) * (1 - nu) = 1 - nu ^ 2 by ring]
  have e' : (1 + nu)⁻¹ / (1 - nu) = 1 / (1 - nu ^ 2) := by rw [← e, one_div]
  rw [e']
  field_simp
  ring

theorem planeLaw_pos (nu : ℝ) (h1 : -1 < nu) (h2 : nu < 1) (G : Fin 2 → Fin 2 → ℝ) :
    0 ≤ contract (planeLaw nu G) G ∧ (symPart G ≠ 0 → 0 < contract (planeLaw nu G) G) := by
  have a1 : 0 < 1 + nu := by linarith
  have a3 : 0 < 1 - nu := by linarith
  have a4 : 0 < 1 - nu ^ 2 := by nlinarith
  have hq : (G 0 0 + nu * G 1 1) * G 0 0 + (nu * G 0 0 + G 1 1) * G 1 1
      = (1 + nu) / 2 * (G 0 0 + G 1 1) ^ 2 + (1 - nu) / 2 * (G 0 0 - G 1 1) ^ 2 := by ring
  rw [planeLaw_energy nu h1 h2, hq]
  have q0 : 0 ≤ (1 + nu) / 2 * (G 0 0 + G 1 1) ^ 2 + (1 - nu) / 2 * (G 0 0 - G 1 1) ^ 2 := by positivity
  have s0 : 0 ≤ (G 0 1 + G 1 0) * (G 0 1 + G 1 0) / (2 * (1 + nu)) :=
    div_nonneg (mul_self_nonneg _) (by linarith)
  refine ⟨add_nonneg (div_nonneg q0 a4.le) s0, fun hne => ?_⟩
  by_contra hcon
  apply hne
  have hz : ((1 + nu) / 2 * (G 0 0 + G 1 1) ^ 2 + (1 - nu) / 2 * (G 0 0 - G 1 1) ^ 2) / (1 - nu ^ 2) = 0 ∧
      (G 0 1 + G 1 0) * (G 0 1 + G 1 0) / (2 * (1 + nu)) = 0 := by
    have := div_nonneg q0 a4.le
    constructor <;> linarith
  have z1 : (1 + nu) / 2 * (G 0 0 + G 1 1) ^ 2 + (1 - nu) / 2 * (G 0 0 - G 1 1) ^ 2 = 0 := by
    rcases div_eq_zero_iff.1 hz.1 with h | h
    · exact h
    · exact absurd h a4.ne'
  have z2 : G 0 1 + G 1 0 = 0 := by
    rcases div_eq_zero_iff.1 hz.2 with h | h
    · exact mul_self_eq_zero.1 h
    · linarith
  have p1 : 0 ≤ (1 + nu) / 2 * (G 0 0 + G 1 1) ^ 2 := by positivity
  have p2 : 0 ≤ (1 - nu) / 2 * (G 0 0 - G 1 1) ^ 2 := by positivity
  have z3 : (G 0 0 + G 1 1) ^ 2 = 0 := by
    rcases mul_eq_zero.1 (by linarith : (1 + nu) / 2 * (G 0 0 + G 1 1) ^ 2 = 0) with h | h
    · linarith
    · exact h
  have z4 : (G 0 0 - G 1 1) ^ 2 = 0 := by
    rcases mul_eq_zero.1 (by linarith : (1 - nu) / 2 * (G 0 0 - G 1 1) ^ 2 = 0) with h | h
    · linarith
    · exact h
  have z3 := pow_eq_zero_iff (two_ne_zero) |>.1 z3
  have z4 := pow_eq_zero_iff (two_ne_zero) |>.1 z4
  funext i j
  fin_cases i <;> fin_cases j <;> simp [symPart] <;> linarith

/-- **C92 (materials).** The three families of laws are fixed symmetric positive semidefinite linear laws, scaled by
Young's modulus of the design variables; the modulus is positive, between its values for void and full material, and
does not decrease when a density grows. -/
theorem C92_materials :
    (∀ P : Problem1 (List ℝ) nq nfq nn 2 2, P.tensorMap = TopOpt.stress →
      P.Scaled (TopOpt.young 70000 70 3) (planeLaw 0.3)) ∧
    (∀ (P : Problem1 (List ℝ) nq nfq nn 3 3) (Emax : ℝ), P.tensorMap = TopOpt.solidStress Emax →
      P.Scaled (TopOpt.young Emax 70 3) (solidLaw 0.3)) ∧
    (∀ P : Problem1 (List ℝ) nq nfq nn 3 3, P.tensorMap = TopOpt.multiMaterialStress →
      P.Scaled (TopOpt.young2 70 70000 14000 3) (solidLaw 0.3)) ∧
    (∀ (Emax Emin : ℝ) (penal : Nat) (a b : ℝ), 0 < Emin → Emin ≤ Emax → 0 ≤ a → a ≤ b →
      Emin ≤ TopOpt.young Emax Emin penal [a] ∧ TopOpt.young Emax Emin penal [a] ≤ TopOpt.young Emax Emin penal [b] ∧
      (b ≤ 1 → TopOpt.young Emax Emin penal [b] ≤ Emax)) ∧
    (∀ (Emin E1 E2 : ℝ) (penal : Nat) (a b c d : ℝ), 0 < Emin → 0 ≤ E2 → E2 ≤ E1 → 0 ≤ a → a ≤ b → 0 ≤ c → c ≤ d →
      d ≤ 1 → Emin ≤ TopOpt.young2 Emin E1 E2 penal [a, c] ∧
      TopOpt.young2 Emin E1 E2 penal [a, c] ≤ TopOpt.young2 Emin E1 E2 penal [b, d] ∧
      (b ≤ 1 → TopOpt.young2 Emin E1 E2 penal [b, d] ≤ Emin + E1)) := by
  have solid : ∀ (P : Problem1 (List ℝ) nq nfq nn 3 3) (e : List ℝ → ℝ),
      P.tensorMap = (fun t G => Elastic.stress (e t) 0.3 G) → P.Scaled e (solidLaw 0.3) := by
    intro P e hP
    refine ⟨fun iv G i j => ?_, fun G H => ?_, fun G => ?_⟩
    · rw [hP]
      simp only [solidLaw, LinearMap.coe_mk, AddHom.coe_mk, Elastic.stress, Elastic.mu, Elastic.lmbda]
      ring
    · simp only [contract, solidLaw, LinearMap.coe_mk, AddHom.coe_mk, Elastic.stress, Fin.sum_univ_three]
      simp
      ring
    · have := (C82_monotone 1 0.3 one_pos (by norm_num) (by norm_num) le_rfl G 0).1
      have z : ∀ i j, Elastic.stress 1 0.3 (0 : Fin 3 → Fin 3 → ℝ) i j = 0 := by
        intro i j; simp [Elastic.stress]
      simp only [z, sub_zero, Pi.zero_apply] at this
      exact this
  refine ⟨fun P hP => ⟨fun iv G i j => ?_, fun G H => ?_, fun G => ?_⟩, fun P Emax hP => solid P _ hP,
    fun P hP => solid P _ (hP.trans ?_), ?_, ?_⟩
  · rw [hP]
    simp only [TopOpt.stress, planeLaw, LinearMap.coe_mk, AddHom.coe_mk]
    rw [show (0.001 : ℝ) * 70000 = 70 by norm_num]
    fin_cases i <;> fin_cases j <;> simp [TopOpt.planeStress] <;> ring
  · rw [planeLaw_energy _ (by norm_num) (by norm_num), planeLaw_energy _ (by norm_num) (by norm_num)]
    ring
  · exact (planeLaw_pos _ (by norm_num) (by norm_num) G).1
  · funext t G
    simp only [TopOpt.multiMaterialStress]
    norm_num
  · intro Emax Emin penal a b h0 h1 ha hab
    simp only [TopOpt.young, List.getD_cons_zero]
    have hd : 0 ≤ Emax - Emin := by linarith
    have hp : a ^ penal ≤ b ^ penal := pow_le_pow_left₀ ha hab penal
    have ha' : 0 ≤ a ^ penal := pow_nonneg ha _
    refine ⟨by nlinarith, by nlinarith, fun hb => ?_⟩
    have hb' : b ^ penal ≤ 1 := pow_le_one₀ (ha.trans hab) hb
    nlinarith
  · intro Emin E1 E2 penal a b c d h0 h2 h12 ha hab hc hcd hd
    simp only [TopOpt.young2, List.getD_cons_zero, List.getD_cons_succ]
    have pa : 0 ≤ a ^ penal := pow_nonneg ha _
    have pc : 0 ≤ c ^ penal := pow_nonneg hc _
    have pab : a ^ penal ≤ b ^ penal := pow_le_pow_left₀ ha hab penal
    have pcd : c ^ penal ≤ d ^ penal := pow_le_pow_left₀ hc hcd penal
    have pd : d ^ penal ≤ 1 := pow_le_one₀ (hc.trans hcd) hd
    have m1 : 0 ≤ c ^ penal * E1 + (1 - c ^ penal) * E2 := by nlinarith
    have m2 : c ^ penal * E1 + (1 - c ^ penal) * E2 ≤ d ^ penal * E1 + (1 - d ^ penal) * E2 := by nlinarith
    have m3 : d ^ penal * E1 + (1 - d ^ penal) * E2 ≤ E1 := by nlinarith
    refine ⟨?_, ?_, fun hb => ?_⟩
    · have := mul_nonneg pa m1
      linarith
    · have := mul_le_mul pab m2 m1 (pa.trans pab)
      linarith
    · have hb' : b ^ penal ≤ 1 := pow_le_one₀ (ha.trans hab) hb
      have := mul_le_mul hb' m3 (m1.trans m2) zero_le_one
      linarith

/-! ### Design variables -/

theorem foldl_setRow_length (l : List (Nat × List ℝ)) (full : List (List ℝ)) :
    (l.foldl (fun full p => full.set p.1 p.2) full).length = full.length := by
  induction l generalizing full with
  | nil => rfl
  | cons p l ih => rw [List.foldl_cons, ih, List.length_set]

theorem foldl_setRow_other (l : List (Nat × List ℝ)) (full : List (List ℝ)) (c : Nat) (h : c ∉ l.map Prod.fst) :
    (l.foldl (fun full p => full.set p.1 p.2) full).getD c [] = full.getD c [] := by
  induction l generalizing full with
  | nil => rfl
  | cons p l ih =>
    simp only [List.map_cons, List.mem_cons, not_or] at h
    rw [List.foldl_cons, ih _ h.2, List.getD_eq_getElem?_getD, List.getD_eq_getElem?_getD,
      List.getElem?_set_ne (Ne.symm h.1)]

theorem foldl_setRow_at (l : List (Nat × List ℝ)) (full : List (List ℝ)) (hn : (l.map Prod.fst).Nodup) (c : Nat)
    (row : List ℝ) (h : (c, row) ∈ l) (hc : c < full.length) :
    (l.foldl (fun full p => full.set p.1 p.2) full).getD c [] = row := by
  induction l generalizing full with
  | nil => cases h
  | cons p l ih =>
    rw [List.foldl_cons]
    rw [List.map_cons, List.nodup_cons] at hn
    rcases List.mem_cons.1 h with rfl | h
    · rw [foldl_setRow_other _ _ _ hn.1, List.getD_eq_getElem?_getD, List.getElem?_set_self hc]
      rfl
    · exact ih _ hn.2 h (by rw [List.length_set]; exact hc)

/-- **C92 (design variables).** After `set_params` the quadrature points of the `i`-th design cell carry row `i` of
the parameters, those of all other cells carry ones; without selection (`flex_inds = arange(num_cells)`) cell `c`
carries row `c`. -/
theorem C92_set_params (numCells : Nat) (flexInds : List Nat) (params : List (List ℝ)) (hn : flexInds.Nodup)
    (hl : flexInds.length = params.length) (hr : ∀ c ∈ flexInds, c < numCells) (q : Fin nq) :
    (∀ i (h : i < flexInds.length), TopOpt.thetas numCells flexInds params flexInds[i] q
      = params[i]'(hl ▸ h)) ∧
    (∀ c < numCells, c ∉ flexInds → TopOpt.thetas numCells flexInds params c q
      = List.replicate (params.getD 0 []).length 1) ∧
    (flexInds = List.range numCells → ∀ c (h : c < params.length),
      TopOpt.thetas numCells flexInds params c q = params[c]) := by
  have hfst : (flexInds.zip params).map Prod.fst = flexInds := List.map_fst_zip (le_of_eq hl)
  have h1 : ∀ i (h : i < flexInds.length), TopOpt.thetas numCells flexInds params flexInds[i] q
      = params[i]'(hl ▸ h) := by
    intro i h
    refine foldl_setRow_at _ _ (by rw [hfst]; exact hn) _ _ ?_ (by simpa using hr _ (List.getElem_mem h))
    rw [← List.getElem_zip (h := by simp; omega)]
    exact List.getElem_mem _
  refine ⟨h1, fun c hc hf => ?_, fun hf c h => ?_⟩
  · rw [TopOpt.thetas, TopOpt.fullParams, foldl_setRow_other _ _ _ (by rw [hfst]; exact hf),
      List.getD_eq_getElem?_getD, List.getElem?_replicate_of_lt hc]
    rfl
  · have := h1 c (by omega)
    have e : flexInds[c]'(by omega) = c := by simp [hf]
    rw [e] at this
    exact this

end JaxFem
