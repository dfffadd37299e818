import Mathlib.Analysis.Calculus.FDeriv.Basic
import Mathlib.Analysis.Asymptotics.Lemmas
import Mathlib.Topology.Algebra.Module.FiniteDimension
import Mathlib.Analysis.Normed.Module.FiniteDimension
import Mathlib.Tactic.Linarith
import Mathlib.Tactic.Ring
import Mathlib.Tactic.NormNum
import Mathlib.Tactic.Positivity
import Verif.Model.Fracture
import Verif.Spec.Fracture
import Verif.Thm.C86_Eigen

/-!
# C87: phase-field fracture — the energy split and the stress
-/

namespace JaxFem.Fracture

open Eigen (IsEigh eigenF)

variable {n : Nat}

/-! ### Helper lemmas -/

section contract
variable {v d : Nat}

theorem con_add (A B C : Fin v → Fin d → ℝ) : contract (A + B) C = contract A C + contract B C := by
  simp only [contract, Pi.add_apply, add_mul, Finset.sum_add_distrib]

theorem con_sub (A B C : Fin v → Fin d → ℝ) : contract (A - B) C = contract A C - contract B C := by
  simp only [contract, Pi.sub_apply, sub_mul, Finset.sum_sub_distrib]

theorem con_smul (c : ℝ) (A C : Fin v → Fin d → ℝ) : contract (c • A) C = c * contract A C := by
  simp only [contract, Pi.smul_apply, smul_eq_mul, mul_assoc, Finset.mul_sum]

theorem con_comm (A B : Fin v → Fin d → ℝ) : contract A B = contract B A := by
  simp only [contract, mul_comm]

theorem con_add' (A B C : Fin v → Fin d → ℝ) : contract C (A + B) = contract C A + contract C B := by
  rw [con_comm, con_add, con_comm A, con_comm B]

theorem con_sub' (A B C : Fin v → Fin d → ℝ) : contract C (A - B) = contract C A - contract C B := by
  rw [con_comm, con_sub, con_comm A, con_comm B]

theorem con_smul' (c : ℝ) (A C : Fin v → Fin d → ℝ) : contract C (c • A) = c * contract C A := by
  rw [con_comm, con_smul, con_comm A]

theorem normSq_nonneg (A : Fin v → Fin d → ℝ) : 0 ≤ normSq A := by
  rw [normSq, contract]
  exact Finset.sum_nonneg fun _ _ => Finset.sum_nonneg fun _ _ => mul_self_nonneg _

theorem normSq_eq_zero {A : Fin v → Fin d → ℝ} (h : normSq A = 0) : A = 0 := by
  rw [normSq, contract] at h
  funext i j
  have h1 := (Finset.sum_eq_zero_iff_of_nonneg (fun i _ => Finset.sum_nonneg fun j _ => mul_self_nonneg (A i j))).1 h i
    (Finset.mem_univ i)
  have h2 := (Finset.sum_eq_zero_iff_of_nonneg (fun j _ => mul_self_nonneg (A i j))).1 h1 j (Finset.mem_univ j)
  exact mul_self_eq_zero.1 h2

theorem normSq_sub (A B : Fin v → Fin d → ℝ) : normSq (A - B) = normSq A - 2 * contract A B + normSq B := by
  simp only [normSq, con_sub, con_sub']
  rw [con_comm B A]
  ring

theorem normSq_add (A B : Fin v → Fin d → ℝ) : normSq (A + B) = normSq A + 2 * contract A B + normSq B := by
  simp only [normSq, con_add, con_add']
  rw [con_comm B A]
  ring

end contract

/-- Symmetric part. -/
noncomputable def sy (x : Fin n → Fin n → ℝ) : Fin n → Fin n → ℝ := fun i j => (x i j + x j i) / 2

theorem sy_sub (x y : Fin n → Fin n → ℝ) : sy (x - y) = sy x - sy y := by
  funext i j
  simp only [sy, Pi.sub_apply]
  ring

/-- Contraction of a symmetric matrix only sees the symmetric part. -/
theorem con_sy (A x : Fin n → Fin n → ℝ) (h : ∀ i j, A i j = A j i) : contract A (sy x) = contract A x := by
  have e : contract A x = ∑ i, ∑ j, A i j * x j i := by
    rw [contract, Finset.sum_comm]
    exact Finset.sum_congr rfl fun i _ => Finset.sum_congr rfl fun j _ => by rw [h]
  have : contract A (sy x) = (contract A x + ∑ i, ∑ j, A i j * x j i) / 2 := by
    simp only [contract]
    rw [← Finset.sum_add_distrib, Finset.sum_div]
    refine Finset.sum_congr rfl fun i _ => ?_
    rw [← Finset.sum_add_distrib, Finset.sum_div]
    exact Finset.sum_congr rfl fun j _ => by simp only [sy]; ring
  rw [this, ← e]
  ring

theorem eigenF_symm (f : ℝ → ℝ) (e : (Fin n → ℝ) × (Fin n → Fin n → ℝ)) (i j : Fin n) :
    eigenF f e i j = eigenF f e j i := by
  simp only [eigenF, Eigen.proj]
  exact Finset.sum_congr rfl fun b _ => by ring

theorem con_eigenF (A : Fin n → Fin n → ℝ) (f : ℝ → ℝ) (e : (Fin n → ℝ) × (Fin n → Fin n → ℝ)) :
    contract A (eigenF f e) = ∑ b, f (e.1 b) * ∑ i, ∑ j, e.2 i b * A i j * e.2 j b := by
  simp only [contract, eigenF, Eigen.proj, Finset.mul_sum]
  have : ∀ i : Fin n, ∑ j, ∑ b, A i j * (e.2 i b * e.2 j b * f (e.1 b))
      = ∑ b, ∑ j, f (e.1 b) * (e.2 i b * A i j * e.2 j b) := by
    intro i
    rw [Finset.sum_comm]
    exact Finset.sum_congr rfl fun b _ => Finset.sum_congr rfl fun j _ => by ring
  rw [Finset.sum_congr rfl fun i _ => this i, Finset.sum_comm]

theorem form_eigenF (w w' : Fin n → ℝ) (f : ℝ → ℝ) (e : (Fin n → ℝ) × (Fin n → Fin n → ℝ)) :
    ∑ i, ∑ j, w i * eigenF f e i j * w' j
      = ∑ b, f (e.1 b) * ((∑ i, w i * e.2 i b) * ∑ j, w' j * e.2 j b) := by
  simp only [eigenF, Eigen.proj, Finset.mul_sum, Finset.sum_mul]
  have : ∀ i : Fin n, ∑ j, ∑ b, w i * (e.2 i b * e.2 j b * f (e.1 b)) * w' j
      = ∑ b, ∑ j, f (e.1 b) * (w i * e.2 i b * (w' j * e.2 j b)) := by
    intro i
    rw [Finset.sum_comm]
    exact Finset.sum_congr rfl fun b _ => Finset.sum_congr rfl fun j _ => by ring
  rw [Finset.sum_congr rfl fun i _ => this i, Finset.sum_comm]
  refine Finset.sum_congr rfl fun b _ => ?_
  rw [Finset.sum_comm]

theorem con_eigenF_same {x : Fin n → Fin n → ℝ} {e : (Fin n → ℝ) × (Fin n → Fin n → ℝ)} (h : IsEigh x e.1 e.2)
    (f g : ℝ → ℝ) : contract (eigenF f e) (eigenF g e) = ∑ b, f (e.1 b) * g (e.1 b) := by
  rw [con_eigenF]
  refine Finset.sum_congr rfl fun b _ => ?_
  have := form_eigenF (fun i => e.2 i b) (fun i => e.2 i b) f e
  simp only [h.orth] at this
  rw [this, Finset.sum_eq_single b]
  · simp only [if_pos]; ring
  · intro c _ hc; rw [if_neg (Ne.symm hc)]; ring
  · simp

theorem safe_sum (x : ℝ) : safePlus x + safeMinus x = x := by
  simp only [safePlus, safeMinus]; ring

theorem safe_mul (x : ℝ) : safePlus x * safeMinus x = 0 := by
  simp only [safePlus, safeMinus]
  have := abs_mul_abs_self x
  linear_combination (-0.25 : ℝ) * this

theorem safePlus_nonneg (x : ℝ) : 0 ≤ safePlus x := by
  simp only [safePlus]
  have := neg_abs_le x
  linarith

theorem safeMinus_nonpos (x : ℝ) : safeMinus x ≤ 0 := by
  simp only [safeMinus]
  have := le_abs_self x
  linarith

/-- Tensile part. -/
noncomputable def pl (eigh : Eigh n) (x : Fin n → Fin n → ℝ) : Fin n → Fin n → ℝ := eigenF safePlus (eigh x)

/-- Compressive part. -/
noncomputable def mi (eigh : Eigh n) (x : Fin n → Fin n → ℝ) : Fin n → Fin n → ℝ := eigenF safeMinus (eigh x)

variable {eigh : Eigh n} (he : ∀ x, IsEigh x (eigh x).1 (eigh x).2)
include he

theorem pl_add_mi (x : Fin n → Fin n → ℝ) : pl eigh x + mi eigh x = sy x := by
  funext i j
  have := (Eigen.C86_calculus x (eigh x) (he x)).2.1 i j
  simp only [sy]
  rw [← this]
  simp only [pl, mi, Pi.add_apply, eigenF, ← Finset.sum_add_distrib, ← mul_add, safe_sum]

theorem split_eigh (x : Fin n → Fin n → ℝ) : TensileSplit x (pl eigh x) (mi eigh x) where
  sum := fun i j => congrFun (congrFun (pl_add_mi he x) i) j
  pos := fun v => by
    rw [pl, form_eigenF]
    exact Finset.sum_nonneg fun b _ => mul_nonneg (safePlus_nonneg _) (mul_self_nonneg _)
  neg := fun v => by
    rw [mi, form_eigenF]
    exact Finset.sum_nonpos fun b _ => mul_nonpos_of_nonpos_of_nonneg (safeMinus_nonpos _) (mul_self_nonneg _)
  orth := by
    rw [pl, mi, con_eigenF_same (he x)]
    exact Finset.sum_eq_zero fun b _ => safe_mul _

omit he in
theorem cross_mi {y x A B : Fin n → Fin n → ℝ} (h : TensileSplit x A B) : contract A (mi eigh y) ≤ 0 := by
  rw [mi, con_eigenF]
  exact Finset.sum_nonpos fun b _ => mul_nonpos_of_nonpos_of_nonneg (safeMinus_nonpos _) (h.pos _)

omit he in
theorem cross_pl {y x A B : Fin n → Fin n → ℝ} (h : TensileSplit x A B) : contract B (pl eigh y) ≤ 0 := by
  rw [pl, con_eigenF]
  exact Finset.sum_nonpos fun b _ => mul_nonpos_of_nonneg_of_nonpos (safePlus_nonneg _) (h.neg _)

theorem split_unique {x A B : Fin n → Fin n → ℝ} (h : TensileSplit x A B) : A = pl eigh x ∧ B = mi eigh x := by
  have h' := split_eigh he x
  have e : (A - pl eigh x) + (B - mi eigh x) = 0 := by
    funext i j
    have := h.sum i j
    have := h'.sum i j
    simp only [Pi.add_apply, Pi.sub_apply, Pi.zero_apply]
    linarith
  have e2 : B - mi eigh x = -(A - pl eigh x) := by
    rw [eq_neg_iff_add_eq_zero, add_comm]; exact e
  have hn : normSq (A - pl eigh x) = - contract (A - pl eigh x) (B - mi eigh x) := by
    rw [e2, ← neg_one_smul ℝ (A - pl eigh x), con_smul']
    simp only [normSq]
    ring
  have hc : 0 ≤ contract (A - pl eigh x) (B - mi eigh x) := by
    rw [con_sub, con_sub', con_sub', h.orth, h'.orth, con_comm (pl eigh x) B]
    have := cross_mi (eigh := eigh) (y := x) h
    have := cross_pl (eigh := eigh) (y := x) h
    linarith
  have h0 : A - pl eigh x = 0 := normSq_eq_zero (le_antisymm (by linarith) (normSq_nonneg _))
  refine ⟨sub_eq_zero.1 h0, ?_⟩
  rw [h0, neg_zero] at e2
  exact sub_eq_zero.1 e2

theorem normSq_pl (x : Fin n → Fin n → ℝ) : normSq (pl eigh x) = ∑ b, safePlus ((eigh x).1 b) ^ 2 := by
  rw [normSq, pl, con_eigenF_same (he x)]
  exact Finset.sum_congr rfl fun b _ => (sq _).symm

theorem normSq_mi (x : Fin n → Fin n → ℝ) : normSq (mi eigh x) = ∑ b, safeMinus ((eigh x).1 b) ^ 2 := by
  rw [normSq, mi, con_eigenF_same (he x)]
  exact Finset.sum_congr rfl fun b _ => (sq _).symm

/-- Second-order bounds for the squared norms of the two parts. -/
theorem part_bounds (x y : Fin n → Fin n → ℝ) :
    (0 ≤ normSq (pl eigh y) - normSq (pl eigh x) - 2 * contract (pl eigh x) (y - x) ∧
      normSq (pl eigh y) - normSq (pl eigh x) - 2 * contract (pl eigh x) (y - x) ≤ normSq (sy (y - x))) ∧
    (0 ≤ normSq (mi eigh y) - normSq (mi eigh x) - 2 * contract (mi eigh x) (y - x) ∧
      normSq (mi eigh y) - normSq (mi eigh x) - 2 * contract (mi eigh x) (y - x) ≤ normSq (sy (y - x))) := by
  have hx := split_eigh he x
  have hy := split_eigh he y
  rw [← con_sy (pl eigh x) (y - x) (eigenF_symm _ _), ← con_sy (mi eigh x) (y - x) (eigenF_symm _ _), sy_sub,
    ← pl_add_mi he, ← pl_add_mi he]
  have c1 := cross_mi (eigh := eigh) (y := y) hx
  have c2 := cross_pl (eigh := eigh) (y := y) hx
  have o1 := hx.orth
  have o2 := hy.orth
  have p1 := normSq_sub (pl eigh y) (pl eigh x)
  have p2 := normSq_sub (mi eigh y) (mi eigh x)
  have n1 := normSq_nonneg (pl eigh y - pl eigh x)
  have n2 := normSq_nonneg (mi eigh y - mi eigh x)
  have e : normSq (pl eigh y + mi eigh y - (pl eigh x + mi eigh x))
      = normSq (pl eigh y - pl eigh x) + normSq (mi eigh y - mi eigh x)
        - 2 * contract (pl eigh x) (mi eigh y) - 2 * contract (mi eigh x) (pl eigh y) := by
    have : pl eigh y + mi eigh y - (pl eigh x + mi eigh x) = (pl eigh y - pl eigh x) + (mi eigh y - mi eigh x) := by
      abel
    rw [this, normSq_add, con_sub, con_sub', con_sub', o1, o2, con_comm (pl eigh y) (mi eigh x)]
    ring
  rw [e]
  simp only [con_add', con_sub', con_comm (mi eigh x) (pl eigh x), o1]
  rw [con_comm (pl eigh y) (pl eigh x)] at p1
  rw [con_comm (mi eigh y) (mi eigh x)] at p2
  simp only [normSq] at *
  refine ⟨⟨by linarith, by linarith⟩, by linarith, by linarith⟩

omit he in
theorem scalar_bounds (s t : ℝ) :
    (0 ≤ safePlus s ^ 2 - safePlus t ^ 2 - 2 * safePlus t * (s - t) ∧
      safePlus s ^ 2 - safePlus t ^ 2 - 2 * safePlus t * (s - t) ≤ (s - t) ^ 2) ∧
    (0 ≤ safeMinus s ^ 2 - safeMinus t ^ 2 - 2 * safeMinus t * (s - t) ∧
      safeMinus s ^ 2 - safeMinus t ^ 2 - 2 * safeMinus t * (s - t) ≤ (s - t) ^ 2) := by
  have a1 := safe_sum s
  have a2 := safe_sum t
  have b1 := safe_mul s
  have b2 := safe_mul t
  have c1 := mul_nonneg (safePlus_nonneg t) (neg_nonneg.2 (safeMinus_nonpos s))
  have c2 := mul_nonneg (safePlus_nonneg s) (neg_nonneg.2 (safeMinus_nonpos t))
  generalize safePlus s = ps at *
  generalize safePlus t = pt at *
  generalize safeMinus s = ms at *
  generalize safeMinus t = mt at *
  subst a1
  subst a2
  refine ⟨⟨?_, ?_⟩, ?_, ?_⟩ <;> nlinarith [sq_nonneg (ps - pt), sq_nonneg (ms - mt)]

/-- Gradient of `psi_plus`. -/
noncomputable def sigmaPlus (m : Material) (eigh : Eigh n) (x : Fin n → Fin n → ℝ) : Fin n → Fin n → ℝ :=
  fun i j => m.lam * safePlus (tr x) * (if i = j then 1 else 0) + 2 * m.mu * pl eigh x i j

/-- Gradient of `psi_minus`. -/
noncomputable def sigmaMinus (m : Material) (eigh : Eigh n) (x : Fin n → Fin n → ℝ) : Fin n → Fin n → ℝ :=
  fun i j => m.lam * safeMinus (tr x) * (if i = j then 1 else 0) + 2 * m.mu * mi eigh x i j

omit he in
theorem con_iso (c k : ℝ) (A v : Fin n → Fin n → ℝ) :
    contract (fun i j => c * (if i = j then 1 else 0) + k * A i j) v = c * tr v + k * contract A v := by
  simp only [contract, tr, add_mul, Finset.sum_add_distrib, mul_ite, mul_one, mul_zero, ite_mul, zero_mul,
    Finset.sum_ite_eq, Finset.mem_univ, if_true, Finset.mul_sum, mul_assoc]

omit he in
theorem con_sigma (m : Material) (x v : Fin n → Fin n → ℝ) :
    contract (sigmaPlus m eigh x) v = m.lam * safePlus (tr x) * tr v + 2 * m.mu * contract (pl eigh x) v ∧
    contract (sigmaMinus m eigh x) v = m.lam * safeMinus (tr x) * tr v + 2 * m.mu * contract (mi eigh x) v :=
  ⟨con_iso _ _ _ _, con_iso _ _ _ _⟩

theorem psiPlus_eq (m : Material) (x : Fin n → Fin n → ℝ) :
    psiPlus m eigh x = m.lam / 2 * safePlus (tr x) ^ 2 + m.mu * normSq (pl eigh x) := by
  rw [normSq_pl he]; rfl

theorem psiMinus_eq (m : Material) (x : Fin n → Fin n → ℝ) :
    psiMinus m eigh x = m.lam / 2 * safeMinus (tr x) ^ 2 + m.mu * normSq (mi eigh x) := by
  rw [normSq_mi he]; rfl

omit he in
theorem tr_sub (x y : Fin n → Fin n → ℝ) : tr (y - x) = tr y - tr x := by
  simp only [tr, Pi.sub_apply, Finset.sum_sub_distrib]

theorem psiPlus_bounds (m : Material) (hl : 0 ≤ m.lam) (hm : 0 ≤ m.mu) (x y : Fin n → Fin n → ℝ) :
    psiPlus m eigh x + contract (sigmaPlus m eigh x) (y - x) ≤ psiPlus m eigh y ∧
    psiPlus m eigh y ≤ psiPlus m eigh x + contract (sigmaPlus m eigh x) (y - x)
      + (m.lam / 2 * tr (y - x) ^ 2 + m.mu * normSq (sy (y - x))) := by
  obtain ⟨⟨h1, h2⟩, -⟩ := part_bounds he x y
  obtain ⟨⟨h3, h4⟩, -⟩ := scalar_bounds (tr y) (tr x)
  rw [(con_sigma m x _).1, psiPlus_eq he, psiPlus_eq he, tr_sub]
  have g1 := mul_nonneg hm h1
  have g2 := mul_le_mul_of_nonneg_left h2 hm
  have g3 := mul_nonneg hl h3
  have g4 := mul_le_mul_of_nonneg_left h4 hl
  constructor <;> nlinarith

theorem psiMinus_bounds (m : Material) (hl : 0 ≤ m.lam) (hm : 0 ≤ m.mu) (x y : Fin n → Fin n → ℝ) :
    psiMinus m eigh x + contract (sigmaMinus m eigh x) (y - x) ≤ psiMinus m eigh y ∧
    psiMinus m eigh y ≤ psiMinus m eigh x + contract (sigmaMinus m eigh x) (y - x)
      + (m.lam / 2 * tr (y - x) ^ 2 + m.mu * normSq (sy (y - x))) := by
  obtain ⟨-, h1, h2⟩ := part_bounds he x y
  obtain ⟨-, h3, h4⟩ := scalar_bounds (tr y) (tr x)
  rw [(con_sigma m x _).2, psiMinus_eq he, psiMinus_eq he, tr_sub]
  have g1 := mul_nonneg hm h1
  have g2 := mul_le_mul_of_nonneg_left h2 hm
  have g3 := mul_nonneg hl h3
  have g4 := mul_le_mul_of_nonneg_left h4 hl
  constructor <;> nlinarith

/-! Derivatives. -/

omit he in
/-- Contraction with a matrix as a continuous linear map. -/
noncomputable def conL (A : Fin n → Fin n → ℝ) : (Fin n → Fin n → ℝ) →L[ℝ] ℝ :=
  LinearMap.toContinuousLinearMap
    { toFun := contract A
      map_add' := fun v w => con_add' v w A
      map_smul' := fun c v => con_smul' c v A }

omit he in
theorem entry_le_norm (v : Fin n → Fin n → ℝ) (i j : Fin n) : |v i j| ≤ ‖v‖ :=
  (norm_le_pi_norm (v i) j).trans (norm_le_pi_norm v i)

omit he in
theorem tr_sq_le (v : Fin n → Fin n → ℝ) : tr v ^ 2 ≤ (n * ‖v‖) ^ 2 := by
  refine sq_le_sq' ?_ ?_
  · have := Finset.sum_le_sum (s := Finset.univ) fun (i : Fin n) _ => (neg_le_neg (entry_le_norm v i i)).trans (neg_abs_le _)
    simpa [tr] using this
  · have := Finset.sum_le_sum (s := Finset.univ) fun (i : Fin n) _ => (le_abs_self _).trans (entry_le_norm v i i)
    simpa [tr] using this

omit he in
theorem normSq_sy_le (v : Fin n → Fin n → ℝ) : normSq (sy v) ≤ (n * ‖v‖) ^ 2 := by
  have h1 : ∀ i j, sy v i j * sy v i j ≤ ‖v‖ ^ 2 := by
    intro i j
    have := Eigen.symm_le v i j
    have e : sy v i j = Eigen.symm v i j := rfl
    rw [e, ← abs_mul_abs_self, ← sq]
    exact pow_le_pow_left₀ (abs_nonneg _) this 2
  calc normSq (sy v) = ∑ i : Fin n, ∑ j : Fin n, sy v i j * sy v i j := rfl
    _ ≤ ∑ _i : Fin n, ∑ _j : Fin n, ‖v‖ ^ 2 :=
        Finset.sum_le_sum fun i _ => Finset.sum_le_sum fun j _ => h1 i j
    _ = (n * ‖v‖) ^ 2 := by simp; ring

omit he in
theorem hasFDeriv_of_quad (F : (Fin n → Fin n → ℝ) → ℝ) (A x : Fin n → Fin n → ℝ) (C : ℝ)
    (h : ∀ y, |F y - F x - contract A (y - x)| ≤ C * ‖y - x‖ ^ 2) : HasFDerivAt F (conL A) x := by
  refine HasFDerivAt.of_isLittleO ?_
  have h1 : (fun y => F y - F x - conL A (y - x)) =O[nhds x] fun y => ‖y - x‖ ^ 2 := by
    refine Asymptotics.IsBigO.of_bound C (Filter.Eventually.of_forall fun y => ?_)
    rw [Real.norm_eq_abs, Real.norm_eq_abs, abs_of_nonneg (sq_nonneg ‖y - x‖)]
    exact h y
  exact h1.trans_isLittleO (Asymptotics.isLittleO_pow_sub_sub x one_lt_two)

theorem psi_deriv (m : Material) (x : Fin n → Fin n → ℝ) :
    HasFDerivAt (psiPlus m eigh) (conL (sigmaPlus m eigh x)) x ∧
    HasFDerivAt (psiMinus m eigh) (conL (sigmaMinus m eigh x)) x := by
  have key : ∀ (l mu a b s t : ℝ) (v : Fin n → Fin n → ℝ), 0 ≤ a → a ≤ tr v ^ 2 → 0 ≤ b → b ≤ normSq (sy v) →
      |l / 2 * a + mu * b| ≤ (|l| / 2 + |mu|) * n ^ 2 * ‖v‖ ^ 2 := by
    intro l mu a b s t v a0 a1 b0 b1
    have e1 := a1.trans (tr_sq_le v)
    have e2 := b1.trans (normSq_sy_le v)
    rw [mul_pow] at e1 e2
    calc |l / 2 * a + mu * b| ≤ |l / 2 * a| + |mu * b| := abs_add_le _ _
      _ = |l| / 2 * a + |mu| * b := by
        rw [abs_mul, abs_mul, abs_of_nonneg a0, abs_of_nonneg b0, abs_div, abs_two]
      _ ≤ |l| / 2 * (n ^ 2 * ‖v‖ ^ 2) + |mu| * (n ^ 2 * ‖v‖ ^ 2) := by gcongr
      _ = _ := by ring
  constructor
  · refine hasFDeriv_of_quad _ _ _ ((|m.lam| / 2 + |m.mu|) * n ^ 2) fun y => ?_
    obtain ⟨⟨h1, h2⟩, -⟩ := part_bounds he x y
    obtain ⟨⟨h3, h4⟩, -⟩ := scalar_bounds (tr y) (tr x)
    rw [← tr_sub] at h3 h4
    refine le_trans (le_of_eq ?_) (key m.lam m.mu _ _ 0 0 (y - x) h3 h4 h1 h2)
    rw [(con_sigma m x _).1, psiPlus_eq he, psiPlus_eq he]
    congr 1
    ring
  · refine hasFDeriv_of_quad _ _ _ ((|m.lam| / 2 + |m.mu|) * n ^ 2) fun y => ?_
    obtain ⟨-, h1, h2⟩ := part_bounds he x y
    obtain ⟨-, h3, h4⟩ := scalar_bounds (tr y) (tr x)
    rw [← tr_sub] at h3 h4
    refine le_trans (le_of_eq ?_) (key m.lam m.mu _ _ 0 0 (y - x) h3 h4 h1 h2)
    rw [(con_sigma m x _).2, psiMinus_eq he, psiMinus_eq he]
    congr 1
    ring

omit he in
theorem con_single (A : Fin n → Fin n → ℝ) (i j : Fin n) : contract A (Pi.single i (Pi.single j 1)) = A i j := by
  rw [contract, Finset.sum_eq_single i, Finset.sum_eq_single j]
  · simp
  · intro b _ hb; simp [hb]
  · simp
  · intro b _ hb; simp [hb]
  · simp

theorem gradM_psi (m : Material) (x : Fin n → Fin n → ℝ) (i j : Fin n) :
    gradM (psiPlus m eigh) x i j = sigmaPlus m eigh x i j ∧
    gradM (psiMinus m eigh) x i j = sigmaMinus m eigh x i j := by
  rw [gradM, gradM, (psi_deriv he m x).1.fderiv, (psi_deriv he m x).2.fderiv]
  exact ⟨con_single _ i j, con_single _ i j⟩

/-! ### Property theorems -/

/-- **C87 (energy split).** Every strain has exactly one split into a tensile and a compressive part; `psi_plus` and
`psi_minus` are the energies of the two parts, whatever eigenvectors `eigh` returns. They are nonnegative and add up to
the energy of linear elasticity. -/
theorem C87_split (m : Material) (x : Fin n → Fin n → ℝ) :
    (∃ A B, TensileSplit x A B) ∧
    (∀ A B, TensileSplit x A B →
      psiPlus m eigh x = m.lam / 2 * max (tr x) 0 ^ 2 + m.mu * normSq A ∧
      psiMinus m eigh x = m.lam / 2 * min (tr x) 0 ^ 2 + m.mu * normSq B ∧
      ∀ A' B', TensileSplit x A' B' → A' = A ∧ B' = B) ∧
    (psiPlus m eigh x + psiMinus m eigh x = m.lam / 2 * tr x ^ 2 + m.mu * normSq fun i j => (x i j + x j i) / 2) ∧
    (0 ≤ m.lam → 0 ≤ m.mu → 0 ≤ psiPlus m eigh x ∧ 0 ≤ psiMinus m eigh x) := by
  have hp : ∀ t : ℝ, safePlus t = max t 0 := by
    intro t
    rw [safePlus]
    rcases le_total 0 t with h | h
    · rw [abs_of_nonneg h, max_eq_left h]; ring
    · rw [abs_of_nonpos h, max_eq_right h]; ring
  have hmn : ∀ t : ℝ, safeMinus t = min t 0 := by
    intro t
    rw [safeMinus]
    rcases le_total 0 t with h | h
    · rw [abs_of_nonneg h, min_eq_right h]; ring
    · rw [abs_of_nonpos h, min_eq_left h]; ring
  refine ⟨⟨_, _, split_eigh he x⟩, ?_, ?_, ?_⟩
  · intro A B h
    obtain ⟨rfl, rfl⟩ := split_unique he h
    refine ⟨?_, ?_, fun A' B' h' => split_unique he h'⟩
    · rw [psiPlus_eq he, hp]
    · rw [psiMinus_eq he, hmn]
  · rw [psiPlus_eq he, psiMinus_eq he]
    have e1 : tr x ^ 2 = safePlus (tr x) ^ 2 + safeMinus (tr x) ^ 2 := by
      have h1 := safe_sum (tr x)
      have h2 := safe_mul (tr x)
      linear_combination (-(tr x + safePlus (tr x) + safeMinus (tr x))) * h1 + 2 * h2
    have e2 : normSq (sy x) = normSq (pl eigh x) + normSq (mi eigh x) := by
      rw [← pl_add_mi he, normSq_add, (split_eigh he x).orth]; ring
    have e3 : (fun i j => (x i j + x j i) / 2) = sy x := rfl
    rw [e3, e1, e2]
    ring
  · intro hl hm
    rw [psiPlus_eq he, psiMinus_eq he]
    have := normSq_nonneg (pl eigh x)
    have := normSq_nonneg (mi eigh x)
    constructor <;> positivity

/-- **C87 (stress).** Both energies are differentiable at every matrix, also where eigenvalues coincide or vanish, and
the stress in use is `λ (g tr⁺ + tr⁻) I + 2 μ (g ε⁺ + ε⁻)` with `g = (1 - d)²` at the strain plus noise; the second
option of the script is the same stress at the strain itself. Both are symmetric. -/
theorem C87_stress (m : Material) (noise : Fin n → ℝ) (d : Fin 1 → ℝ) (G : Fin n → Fin n → ℝ) :
    (∀ x, DifferentiableAt ℝ (psiPlus m eigh) x ∧ DifferentiableAt ℝ (psiMinus m eigh) x) ∧
    (∀ x A B, (∀ i j, x i j = (G i j + G j i) / 2 + if i = j then noise i else 0) → TensileSplit x A B → ∀ i j,
      stressOpt1 m eigh noise d G i j
        = m.lam * ((1 - d 0) ^ 2 * max (tr x) 0 + min (tr x) 0) * (if i = j then 1 else 0)
          + 2 * m.mu * ((1 - d 0) ^ 2 * A i j + B i j)) ∧
    (stressOpt2 m eigh d G = stressOpt1 m eigh 0 d G) ∧
    ∀ i j, stressOpt1 m eigh noise d G i j = stressOpt1 m eigh noise d G j i := by
  have hp : ∀ t : ℝ, safePlus t = max t 0 := by
    intro t
    rw [safePlus]
    rcases le_total 0 t with h | h
    · rw [abs_of_nonneg h, max_eq_left h]; ring
    · rw [abs_of_nonpos h, max_eq_right h]; ring
  have hmn : ∀ t : ℝ, safeMinus t = min t 0 := by
    intro t
    rw [safeMinus]
    rcases le_total 0 t with h | h
    · rw [abs_of_nonneg h, min_eq_right h]; ring
    · rw [abs_of_nonpos h, min_eq_left h]; ring
  have e1 : ∀ nz i j, stressOpt1 m eigh nz d G i j
      = degrade d * sigmaPlus m eigh (addNoise nz (strain G)) i j + sigmaMinus m eigh (addNoise nz (strain G)) i j := by
    intro nz i j
    simp only [stressOpt1, gradM_psi he]
  refine ⟨fun x => ⟨(psi_deriv he m x).1.differentiableAt, (psi_deriv he m x).2.differentiableAt⟩, ?_, ?_, ?_⟩
  · intro x A B hx hs i j
    obtain ⟨rfl, rfl⟩ := split_unique he hs
    have ex : addNoise noise (strain G) = x := by
      funext i j
      rw [hx, addNoise, strain]
      ring
    rw [e1, ex, sigmaPlus, sigmaMinus, hp, hmn, degrade]
    ring
  · funext i j
    have ex : addNoise 0 (strain G) = strain G := by
      funext i j
      simp [addNoise]
    rw [e1, ex]
    simp only [stressOpt2, sigmaPlus, sigmaMinus, pl, mi, eigenF, tr, Finset.mul_sum]
    have : ∑ b, Eigen.proj (eigh (strain G)).2 b i j
          * (2 * m.mu * (degrade d * safePlus ((eigh (strain G)).1 b) + safeMinus ((eigh (strain G)).1 b)))
        = degrade d * ∑ b, 2 * m.mu * (Eigen.proj (eigh (strain G)).2 b i j * safePlus ((eigh (strain G)).1 b))
          + ∑ b, 2 * m.mu * (Eigen.proj (eigh (strain G)).2 b i j * safeMinus ((eigh (strain G)).1 b)) := by
      rw [Finset.mul_sum, ← Finset.sum_add_distrib]
      exact Finset.sum_congr rfl fun b _ => by ring
    rw [this]
    ring
  · intro i j
    rw [e1, e1]
    simp only [sigmaPlus, sigmaMinus, pl, mi, eigenF_symm _ _ i j, eq_comm (a := i) (b := j)]

/-- **C87 (convexity).** For nonnegative Lamé parameters the stress is monotone, and uniformly so with the modulus
`2 μ min(g, 1)` of the degraded material. -/
theorem C87_monotone (m : Material) (hl : 0 ≤ m.lam) (hm : 0 ≤ m.mu) (noise : Fin n → ℝ) (d : Fin 1 → ℝ)
    (G H : Fin n → Fin n → ℝ) :
    2 * m.mu * min ((1 - d 0) ^ 2) 1 * normSq (fun i j => ((G i j - H i j) + (G j i - H j i)) / 2)
      ≤ contract (fun i j => stressOpt1 m eigh noise d G i j - stressOpt1 m eigh noise d H i j)
          (fun i j => G i j - H i j) := by
  set a := addNoise noise (strain G) with ha
  set b := addNoise noise (strain H) with hb
  set g := degrade d with hg
  have g0 : 0 ≤ g := sq_nonneg _
  set Dp := pl eigh a - pl eigh b with hDp
  set Dm := mi eigh a - mi eigh b with hDm
  have hsum : Dp + Dm = sy (G - H) := by
    have h1 := pl_add_mi he a
    have h2 := pl_add_mi he b
    have : Dp + Dm = (pl eigh a + mi eigh a) - (pl eigh b + mi eigh b) := by rw [hDp, hDm]; abel
    rw [this, h1, h2]
    funext i j
    simp only [ha, hb, sy, addNoise, strain, Pi.sub_apply, eq_comm (a := j) (b := i)]
    by_cases hij : i = j
    · subst hij; simp; ring
    · simp only [if_neg hij]; ring
  have hc : 0 ≤ contract Dp Dm := by
    rw [hDp, hDm, con_sub, con_sub', con_sub', (split_eigh he a).orth, (split_eigh he b).orth]
    have := cross_mi (eigh := eigh) (y := b) (split_eigh he a)
    have := cross_mi (eigh := eigh) (y := a) (split_eigh he b)
    linarith
  have htr : tr a - tr b = tr (G - H) := by
    simp only [ha, hb, tr, addNoise, strain, ← Finset.sum_sub_distrib, Pi.sub_apply]
    exact Finset.sum_congr rfl fun i _ => by ring
  -- the stress difference
  have hσ : (fun i j => stressOpt1 m eigh noise d G i j - stressOpt1 m eigh noise d H i j)
      = fun i j => m.lam * (g * (safePlus (tr a) - safePlus (tr b)) + (safeMinus (tr a) - safeMinus (tr b)))
          * (if i = j then 1 else 0) + 2 * m.mu * (g • Dp + Dm) i j := by
    funext i j
    simp only [stressOpt1, gradM_psi he, sigmaPlus, sigmaMinus, hDp, hDm, Pi.add_apply, Pi.smul_apply, Pi.sub_apply,
      smul_eq_mul, ← ha, ← hb, ← hg]
    ring
  rw [hσ, con_iso]
  have hGH : (fun i j => G i j - H i j) = G - H := rfl
  have hsy : ∀ i j, (g • Dp + Dm) i j = (g • Dp + Dm) j i := by
    intro i j
    simp only [hDp, hDm, pl, mi, Pi.add_apply, Pi.smul_apply, Pi.sub_apply, eigenF_symm _ _ i j]
  have hns : (fun i j => ((G i j - H i j) + (G j i - H j i)) / 2) = sy (G - H) := rfl
  rw [hGH, ← con_sy _ _ hsy, hns, ← hsum, ← htr, con_add, con_smul, con_add', con_add', normSq_add,
    con_comm Dm Dp]
  have hdt : 0 ≤ (g * (safePlus (tr a) - safePlus (tr b)) + (safeMinus (tr a) - safeMinus (tr b))) * (tr a - tr b) := by
    have a1 := safe_sum (tr a)
    have a2 := safe_sum (tr b)
    have b1 := safe_mul (tr a)
    have b2 := safe_mul (tr b)
    have c1 := mul_nonneg (safePlus_nonneg (tr b)) (neg_nonneg.2 (safeMinus_nonpos (tr a)))
    have c2 := mul_nonneg (safePlus_nonneg (tr a)) (neg_nonneg.2 (safeMinus_nonpos (tr b)))
    generalize safePlus (tr a) = ps at *
    generalize safePlus (tr b) = pt at *
    generalize safeMinus (tr a) = ms at *
    generalize safeMinus (tr b) = mt at *
    rw [← a1, ← a2]
    have hx : 0 ≤ (ps - pt) * (ms - mt) := by nlinarith
    have : (g * (ps - pt) + (ms - mt)) * (ps + ms - (pt + mt))
        = g * (ps - pt) ^ 2 + (ms - mt) ^ 2 + (g + 1) * ((ps - pt) * (ms - mt)) := by ring
    rw [this]
    positivity
  have n1 := normSq_nonneg Dp
  have n2 := normSq_nonneg Dm
  have hmin1 : min ((1 - d 0) ^ 2) 1 ≤ g := min_le_left _ _
  have hmin2 : min ((1 - d 0) ^ 2) 1 ≤ 1 := min_le_right _ _
  set k := min ((1 - d 0) ^ 2) 1 with hk
  have hfin : k * (normSq Dp + 2 * contract Dp Dm + normSq Dm)
      ≤ g * (contract Dp Dp + contract Dp Dm) + (contract Dp Dm + contract Dm Dm) := by
    have h1 := mul_le_mul_of_nonneg_right hmin1 n1
    have h2 := mul_le_mul_of_nonneg_right hmin2 n2
    have h3 := mul_le_mul_of_nonneg_right hmin1 hc
    have h4 := mul_le_mul_of_nonneg_right hmin2 hc
    simp only [normSq] at *
    linarith
  have := mul_le_mul_of_nonneg_left hfin hm
  have := mul_nonneg hl hdt
  nlinarith

end JaxFem.Fracture
