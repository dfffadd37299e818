import Verif.Thm.C105_Traction
import Mathlib.LinearAlgebra.Dimension.Constructions
import Mathlib.LinearAlgebra.FiniteDimensional.Lemmas

/-!
# C105: traction force identification: what the data determine, and the finite-difference check
-/

namespace JaxFem.Traction

open scoped BigOperators Topology
open Inverse (l2Error Setup fdQuotient getAt)

variable {nq nfq nn : Nat}

section

variable (faces : List (Nat × Nat))

/-! ### Helper lemmas -/

/-- Share of node `n` in the traction at quadrature point `q` of face `f`. -/
noncomputable def share (P : Problem1 ℝ nq nfq nn 3 3) (n : Nat) (f : Nat × Nat) (q : Fin nfq) : ℝ :=
  ∑ a : Fin nn, if (P.conn.getD f.1 []).getD a 0 = n then P.fc.shapeVals f.2 q a else 0

/-- Nodal loads of the tractions. -/
noncomputable def nodal (P : Problem1 ℝ nq nfq nn 3 3) (T : Finset Nat) :
    (Fin faces.length → Fin nfq → ℝ) →ₗ[ℝ] (T → ℝ) :=
  IsLinearMap.mk' (fun θ n => ∑ i : Fin faces.length, ∑ q, θ i q * share P n.1 faces[i] q * area P faces[i] q) (by
    refine ⟨fun x y => ?_, fun a x => ?_⟩
    · funext n
      simp only [Pi.add_apply, ← Finset.sum_add_distrib]
      refine Finset.sum_congr rfl fun i _ => Finset.sum_congr rfl fun q _ => ?_
      ring
    · funext n
      simp only [Pi.smul_apply, smul_eq_mul, Finset.mul_sum]
      refine Finset.sum_congr rfl fun i _ => Finset.sum_congr rfl fun q _ => ?_
      ring)

theorem nodal_apply (P : Problem1 ℝ nq nfq nn 3 3) (T : Finset Nat) (θ : Fin faces.length → Fin nfq → ℝ) (n : T) :
    nodal faces P T θ n = ∑ i : Fin faces.length, ∑ q, θ i q * share P n.1 faces[i] q * area P faces[i] q := rfl

theorem vertical_share (P : Problem1 ℝ nq nfq nn 3 3) (T : Finset Nat) (f : Nat × Nat) (q : Fin nfq)
    (hT : ∀ a, P.fc.shapeVals f.2 q a ≠ 0 → (P.conn.getD f.1 []).getD a 0 ∈ T) (v : Nat → Fin 3 → ℝ) :
    vertical P f q v = ∑ n : T, v n.1 1 * share P n.1 f q := by
  simp only [share, Finset.mul_sum]
  rw [Finset.sum_comm]
  unfold vertical interp
  refine Finset.sum_congr rfl fun a _ => ?_
  by_cases h0 : P.fc.shapeVals f.2 q a = 0
  · simp [h0]
  · rw [Finset.sum_eq_single (⟨_, hT a h0⟩ : T)]
    · rw [if_pos rfl]
      exact mul_comm _ _
    · intro n _ hn
      rw [if_neg (fun h => hn (Subtype.ext h.symm)), mul_zero]
    · simp

theorem work_nodal (P : Problem1 ℝ nq nfq nn 3 3) (T : Finset Nat) (hT : SupportedOn P faces T)
    (θ : Fin faces.length → Fin nfq → ℝ) (v : Nat → Fin 3 → ℝ) :
    tractionWork P faces θ v = ∑ n : T, v n.1 1 * nodal faces P T θ n := by
  have hv : ∀ (i : Fin faces.length) q, vertical P faces[i] q v = ∑ n : T, v n.1 1 * share P n.1 faces[i] q :=
    fun i q => vertical_share P T _ q (hT _ (List.getElem_mem i.2) q) v
  simp only [tractionWork, hv, nodal_apply, Finset.mul_sum, Finset.sum_mul]
  rw [Finset.sum_comm]
  conv_rhs => rw [Finset.sum_comm]
  rw [Finset.sum_comm]
  refine Finset.sum_congr rfl fun i _ => ?_
  rw [Finset.sum_comm]
  refine Finset.sum_congr rfl fun n _ => Finset.sum_congr rfl fun q _ => ?_
  ring

theorem getAt_fin {C Q : Nat} (θ : Fin C → Fin Q → ℝ) (c : Fin C) (q : Fin Q) : getAt θ c q = .ok (θ c q) := by
  have hc := c.2
  have hq := q.2
  rw [getAt, dif_pos ⟨by omega, by omega⟩]
  congr 2 <;> exact Fin.ext (by simp; omega)

theorem setAt_fin {C Q : Nat} (θ : Fin C → Fin Q → ℝ) (c : Fin C) (q : Fin Q) (v : ℝ) :
    Inverse.setAt θ c q v = θ + (v - θ c q) • (Pi.single c (Pi.single q 1) : Fin C → Fin Q → ℝ) := by
  funext i j
  by_cases hi : i = c
  · subst hi
    by_cases hj : j = q
    · subst hj
      simp [Inverse.setAt]
    · have : ¬ ((j : Nat) = q) := fun h => hj (Fin.ext h)
      simp [Inverse.setAt, this, Pi.single_eq_of_ne hj]
  · have : ¬ ((i : Nat) = c) := fun h => hi (Fin.ext h)
    simp [Inverse.setAt, this, Pi.single_eq_of_ne hi]

end

section

variable (numTotalNodes : Nat) (points : List (Fin 3 → ℝ)) (cells : List (List Nat)) (el : RefElement ℝ nq nn 3)
  (fc : RefFaces ℝ nfq nn 3) (faces : List (Nat × Nat))

local notation "𝒫" => problem numTotalNodes points cells el fc faces
local notation "Θ" => Fin faces.length → Fin nfq → ℝ
set_option quotPrecheck false in
local notation "U" => Fin (totalDofs (𝒫).fes) → ℝ

/-! ### Property theorems -/

/-- **C105 (ambiguous).** When the loaded faces have more quadrature points than nodes (in the tutorial 80 points and 42
nodes), no data determine the traction: there is a nonzero `δ` that can be added to every traction, with any factor, without
changing the equilibria or the objective, and every gradient that `jax.grad(J)` returns vanishes along `δ`. -/
theorem C105_ambiguous (h : (𝒫).WF) (T : Finset Nat) (hT : SupportedOn 𝒫 faces T) (hcard : T.card < faces.length * nfq) :
    ∃ δ : Θ, δ ≠ 0 ∧
      (∀ (θ : Θ) (t : ℝ) (u : U), (setParams 𝒫 (θ + t • δ)).flat u = (setParams 𝒫 θ).flat u) ∧
      ∀ (bcs : List (List (BCEntry ℝ))) (S : Setup Θ (𝒫).fes (totalDofs (𝒫).fes)), WFBC (𝒫).fes bcs → OfProblem 𝒫 bcs S →
        (∀ (θ : Θ) (t : ℝ) fuel f, S.tan (θ + t • δ) = S.tan θ → S.objective fuel f (θ + t • δ) = S.objective fuel f θ) ∧
        (ExactAdjointSolver S.adjointSolve → ∀ (θ : Θ) (u : U) fuel, (𝒫).Admissible ((𝒫).vecField u) →
          S.fwdPred fuel θ = some (.ok u) → ∀ (obs : U) g, S.grad fuel (misfit 𝒫 obs) θ = some (.ok g) → g δ = 0) := by
  have hker : ¬ Function.Injective (nodal faces 𝒫 T) := by
    intro hinj
    have h1 := LinearMap.finrank_le_finrank_of_injective hinj
    simp only [Module.finrank_fintype_fun_eq_card, Module.finrank_pi_fintype, Fintype.card_coe, Fintype.card_fin,
      Finset.sum_const, Finset.card_univ, smul_eq_mul] at h1
    omega
  obtain ⟨δ, hδ0, hδ⟩ : ∃ δ : Θ, δ ≠ 0 ∧ nodal faces 𝒫 T δ = 0 := by
    by_contra hno
    refine hker ((injective_iff_map_eq_zero _).2 fun a ha => ?_)
    by_contra hne
    exact hno ⟨a, hne, ha⟩
  have hwork : ∀ v, tractionWork 𝒫 faces δ v = 0 := by
    intro v
    rw [work_nodal faces 𝒫 T hT, hδ]
    simp
  have hres : ∀ (θ : Θ) (t : ℝ) (u : U), (setParams 𝒫 (θ + t • δ)).flat u = (setParams 𝒫 θ).flat u := by
    intro θ t u
    funext k
    refine (res_entry numTotalNodes points cells el fc faces h _ u k).trans
      (Eq.trans ?_ (res_entry numTotalNodes points cells el fc faces h θ u k).symm)
    rw [add_comm θ, tractionWork_lin, hwork, mul_zero, zero_add]
  refine ⟨δ, hδ0, hres, fun bcs S hw hS => ⟨fun θ t fuel f htan => ?_, fun hs θ u fuel hadm hf obs g hg => ?_⟩⟩
  · have hr : S.res (θ + t • δ) = S.res θ := by
      rw [hS.res, hS.res]
      exact funext fun u => hres θ t u
    have hb : S.bcs (θ + t • δ) = S.bcs θ := by rw [hS.bcs, hS.bcs]
    rw [Inverse.Setup.objective, Inverse.Setup.objective, Inverse.Setup.fwdPred, Inverse.Setup.fwdPred, hr, hb, htan]
  · obtain ⟨-, w, -, -, h3, -⟩ := C105_formula numTotalNodes points cells el fc faces h bcs hw S hS hs θ u hadm fuel hf obs g hg
    rw [h3, hwork]

/-- **C105 (finite-difference check).** Up to an error `η` that can be made small by the step, and `ε / (|h| |θ₀|)` from
evaluations of the objective that are only accurate to `ε`, the central difference quotient of the tutorial is the component
of the returned gradient. -/
theorem C105_difference (h : (𝒫).WF) (bcs : List (List (BCEntry ℝ))) (hw : WFBC (𝒫).fes bcs)
    (S : Setup Θ (𝒫).fes (totalDofs (𝒫).fes)) (hS : OfProblem 𝒫 bcs S) (hs : ExactAdjointSolver S.adjointSolve)
    (htot : ∀ n (A : Matrix (Fin n) (Fin n) ℝ) b, A.det ≠ 0 → ∃ x, S.adjointSolve n A b = .ok x)
    (θ0 : Θ) (u0 : U) (hadm : (𝒫).Admissible ((𝒫).vecField u0)) (hdet : (elimRows (𝒫).fes bcs (S.tan θ0 u0)).det ≠ 0)
    (hz : SolvesBVP (𝒫).fes bcs ((setParams 𝒫 θ0).flat) u0) (fuel : Nat) (hf : S.fwdPred fuel θ0 = some (.ok u0))
    (obs : U) (i : Fin faces.length) (q : Fin nfq) (hθ : θ0 i q ≠ 0) :
    ∃ (u : Θ → U) (g : Θ →L[ℝ] ℝ), u θ0 = u0 ∧ (∀ᶠ θ in 𝓝 θ0, SolvesBVP (𝒫).fes bcs ((setParams 𝒫 θ).flat) (u θ)) ∧
      S.grad fuel (misfit 𝒫 obs) θ0 = some (.ok g) ∧
      ∀ η > 0, ∃ h0 > 0, ∀ s : ℝ, s ≠ 0 → |s| < h0 → ∀ ε a b,
        S.objective fuel (misfit 𝒫 obs) (θ0 + (s * θ0 i q) • (Pi.single i (Pi.single q 1) : Θ)) = some (.ok a) →
        S.objective fuel (misfit 𝒫 obs) (θ0 - (s * θ0 i q) • (Pi.single i (Pi.single q 1) : Θ)) = some (.ok b) →
        |a - misfit 𝒫 obs (u (θ0 + (s * θ0 i q) • (Pi.single i (Pi.single q 1) : Θ)))| ≤ ε →
        |b - misfit 𝒫 obs (u (θ0 - (s * θ0 i q) • (Pi.single i (Pi.single q 1) : Θ)))| ≤ ε →
        ∃ d, fdQuotient (S.objective fuel (misfit 𝒫 obs)) θ0 i q s = some (.ok d) ∧
          |d - g (Pi.single i (Pi.single q 1))| ≤ η + ε / (|s| * |θ0 i q|) := by
  obtain ⟨u, h1, -, h3, h4⟩ := C105_gradient numTotalNodes points cells el fc faces h bcs hw S hS hs htot θ0 u0 hadm hdet hz fuel hf
  obtain ⟨g, hg, hd⟩ := h4 obs
  refine ⟨u, g, h1, h3, hg, fun η hη => ?_⟩
  set e : Θ := Pi.single i (Pi.single q 1) with he
  set t := θ0 i q with ht
  have hline : HasDerivAt (fun x : ℝ => misfit 𝒫 obs (u (θ0 + x • e))) (g e) 0 := by
    have hl : HasDerivAt (fun x : ℝ => θ0 + x • e) e 0 := by
      simpa using ((hasDerivAt_id (0 : ℝ)).smul_const e).const_add θ0
    have hd' : HasFDerivAt (fun θ => misfit 𝒫 obs (u θ)) g (θ0 + (0 : ℝ) • e) := by simpa using hd
    exact HasFDerivAt.comp_hasDerivAt (l := fun θ => misfit 𝒫 obs (u θ)) (0 : ℝ) hd' hl
  have ho := (hasDerivAt_iff_isLittleO.1 hline).def hη
  obtain ⟨r, hr, hball⟩ := Metric.eventually_nhds_iff.1 ho
  have hta : 0 < |t| := abs_pos.2 hθ
  refine ⟨r / |t|, div_pos hr hta, fun s hs0 hsl ε a b ha hb hae hbe => ?_⟩
  have hsa : 0 < |s| := abs_pos.2 hs0
  have hst : |s * t| < r := by
    rw [abs_mul]
    exact (lt_div_iff₀ hta).1 hsl
  have hp := hball (y := s * t) (by rwa [Real.dist_eq, sub_zero])
  have hm := hball (y := -(s * t)) (by rwa [Real.dist_eq, sub_zero, abs_neg])
  simp only [zero_smul, add_zero, sub_zero, smul_eq_mul, Real.norm_eq_abs, neg_smul, ← sub_eq_add_neg, abs_neg] at hp hm
  refine ⟨(a - b) / (2 * s * t), ?_, ?_⟩
  · rw [fdQuotient, getAt_fin]
    dsimp only
    rw [setAt_fin, setAt_fin, show (1 + s) * θ0 i q - θ0 i q = s * t by rw [ht]; ring,
      show (1 - s) * θ0 i q - θ0 i q = -(s * t) by rw [ht]; ring, neg_smul, ← sub_eq_add_neg, ← he, ha, hb]
  · generalize misfit 𝒫 obs (u (θ0 + (s * t) • e)) = A at hp hae
    generalize misfit 𝒫 obs (u (θ0 - (s * t) • e)) = B at hm hbe
    generalize misfit 𝒫 obs (u θ0) = C at hp hm
    generalize g e = γ at hp hm ⊢
    have hpos : 0 < 2 * (|s| * |t|) := by positivity
    have e1 : (a - b) / (2 * s * t) - γ = (a - b - 2 * (s * t) * γ) / (2 * (s * t)) := by
      field_simp
    have e2 : |2 * (s * t)| = 2 * (|s| * |t|) := by rw [abs_mul, abs_mul, abs_two]
    rw [e1, abs_div, e2, div_le_iff₀ hpos]
    have e3 : (η + ε / (|s| * |t|)) * (2 * (|s| * |t|)) = 2 * (η * (|s| * |t|)) + 2 * ε := by
      field_simp
    rw [e3]
    rw [abs_mul] at hp hm
    rw [abs_le] at hp hm hae hbe ⊢
    constructor <;> linarith [hp.1, hp.2, hm.1, hm.2, hae.1, hae.2, hbe.1, hbe.2]

end

end JaxFem.Traction
