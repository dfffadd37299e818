import Verif.Thm.C103_Structure

/-!
# C103: material, history, inspection and constraints of the co-design problem
-/

namespace JaxFem.CoDesign

open scoped BigOperators
open Plasticity (hooke IsDev Admissible IsReturn sDev sNorm)

variable {nq nfq nn : Nat}

/-! ### Helper lemmas -/

theorem yield_eq (t : ℝ) : yieldStress t = 250 + 100 * t := by rw [yieldStress]; ring

theorem fYield_eq (G : Tensor) (b : Body) :
    (updatePoint G b).2.2.1 = sNorm (sDev (predictor (Matrix.of G) b)) - (250 + 100 * b.2.2.2.2) := by
  rw [← predictor_eq, ← yield_eq]
  rfl

theorem updatePoint_stress (G : Tensor) (b : Body) :
    (updatePoint G b).1 = Plasticity.radialReturn (250 + 100 * b.2.2.2.2) (predictor (Matrix.of G) b) := by
  rw [← predictor_eq, ← yield_eq]
  rfl

/-! ### Property theorems: the material -/

/-- **C103 (step at a quadrature point).** The new stress is the closest admissible stress to the predictor, the new
strain is the symmetric part of the displacement gradient, the design variables stay; the stored yield function is positive
exactly if the predictor violates the yield condition (the step is plastic). -/
theorem C103_step (G : Tensor) (b : Body) (h : 0 ≤ 250 + 100 * b.2.2.2.2) :
    IsReturn (250 + 100 * b.2.2.2.2) (predictor (Matrix.of G) b) (Matrix.of (updatePoint G b).1) ∧
    Matrix.of (updatePoint G b).2.1 = Plasticity.symPart (Matrix.of G) ∧ (updatePoint G b).2.2.2 = b.2.2.2 ∧
    (0 < (updatePoint G b).2.2.1 ↔ ¬ Admissible (250 + 100 * b.2.2.2.2) (predictor (Matrix.of G) b)) ∧
    (Admissible (250 + 100 * b.2.2.2.2) (predictor (Matrix.of G) b) →
      Matrix.of (updatePoint G b).1 = predictor (Matrix.of G) b) := by
  have hs : Matrix.of (updatePoint G b).1
      = Plasticity.radialReturn (250 + 100 * b.2.2.2.2) (predictor (Matrix.of G) b) := updatePoint_stress G b
  refine ⟨?_, Plasticity.strain_eq _, rfl, ?_, fun ha => ?_⟩
  · rw [hs]
    exact ⟨Plasticity.C54_admissible _ h _, fun tau ht => Plasticity.C54_projection _ h _ tau ht⟩
  · rw [fYield_eq, Plasticity.admissible_iff, ← Plasticity.sNorm_sq, not_le, sub_pos]
    exact (pow_lt_pow_iff_left₀ h (Plasticity.sNorm_nonneg _) two_ne_zero).symm
  · rw [hs]
    exact Plasticity.C54_elastic _ h _ ha

/-- **C103 (ranges of the material).** Densities and yield variables between 0 and 1: Young's modulus between 70 and 70000
and growing with the density, yield stress between 250 and 350. -/
theorem C103_material (t s : ℝ) (h0 : 0 ≤ t) (h1 : t ≤ 1) :
    70 ≤ young t ∧ young t ≤ 70000 ∧ (t < s → young t < young s) ∧ 250 ≤ yieldStress t ∧ yieldStress t ≤ 350 ∧
    (young t = 70 ↔ t = 0) ∧ (young t = 70000 ↔ t = 1) := by
  have e : ∀ x, young x = 70 + 69930 * x ^ 3 := fun x => by rw [young]; norm_num
  have p0 : 0 ≤ t ^ 3 := pow_nonneg h0 3
  have p1 : t ^ 3 ≤ 1 := pow_le_one₀ h0 h1
  rw [e, yield_eq]
  refine ⟨by linarith, by linarith, fun hts => ?_, by linarith, by linarith, ⟨fun h => ?_, fun h => ?_⟩, ⟨fun h => ?_, fun h => ?_⟩⟩
  · rw [e]
    have := pow_lt_pow_left₀ hts h0 (n := 3) (by norm_num)
    linarith
  · have : t ^ 3 = 0 := by linarith
    exact pow_eq_zero_iff (by norm_num) |>.1 this
  · rw [h]; norm_num
  · have : t ^ 3 = 1 := by linarith
    exact (pow_eq_one_iff_of_nonneg h0 (by norm_num)).1 this
  · rw [h]; norm_num

section

variable (numTotalNodes : Nat) (points : List (Fin 3 → ℝ)) (cells : List (List Nat)) (el : RefElement ℝ nq nn 3)
  (fc : RefFaces ℝ nfq nn 3) (faces : List (Nat × Nat))

local notation "𝒫" => problem numTotalNodes points cells el fc faces

/-- **C103 (history).** After any sequence of solutions: admissible symmetric stresses, strain of the last solution, trace
of the stress as in elasticity, unchanged design variables. -/
theorem C103_history (θ : Fin (𝒫).cells.length → Fin 2 → ℝ) (hθ : ∀ c, 0 ≤ 250 + 100 * θ c 1)
    (us : List (Fin (totalDofs (𝒫).fes) → ℝ)) (c : Fin (𝒫).cells.length) (q : Fin nq) :
    let b := bodyAfter (fun u b => updateStressStrain 𝒫 ((𝒫).solArray u) b) us (initParams θ) c q
    Admissible (250 + 100 * θ c 1) (Matrix.of b.1) ∧ (Matrix.of b.1).IsSymm ∧
    Matrix.of b.2.1 = (us.getLast?.map fun u => Plasticity.symPart (Matrix.of ((𝒫).gradAt ((𝒫).vecField u) c q))).getD 0 ∧
    b.2.2.2 = (θ c 0, θ c 1) ∧
    (1 - 2 * 0.3) * (Matrix.of b.1).trace = (70 + 69930 * θ c 0 ^ 3) * (Matrix.of b.2.1).trace := by
  intro b
  have key : ∀ us : List (Fin (totalDofs (𝒫).fes) → ℝ),
      let b := bodyAfter (fun u b => updateStressStrain 𝒫 ((𝒫).solArray u) b) us (initParams θ) c q
      let p := Plasticity.pHistory (young (θ c 0)) 0.3 (yieldStress (θ c 1))
        (us.map fun u => Matrix.of ((𝒫).gradAt ((𝒫).vecField u) c q))
      Matrix.of b.1 = p.sig ∧ Matrix.of b.2.1 = p.eps ∧ b.2.2.2 = (θ c 0, θ c 1) := by
    intro us
    induction us using List.reverseRecOn with
    | nil => exact ⟨rfl, rfl, rfl⟩
    | append_singleton us u ih =>
      obtain ⟨i1, i2, i3⟩ := ih
      have e1 : bodyAfter (fun u b => updateStressStrain 𝒫 ((𝒫).solArray u) b) (us ++ [u]) (initParams θ) c q
          = updatePoint ((𝒫).gradAt ((𝒫).vecField u) c q)
            (bodyAfter (fun u b => updateStressStrain 𝒫 ((𝒫).solArray u) b) us (initParams θ) c q) := by
        rw [bodyAfter, List.foldl_append]
        exact congrFun (congrFun (update_eq numTotalNodes points cells el fc faces u _) c) q
      have e2 : Plasticity.pHistory (young (θ c 0)) 0.3 (yieldStress (θ c 1))
          ((us ++ [u]).map fun u => Matrix.of ((𝒫).gradAt ((𝒫).vecField u) c q))
          = Plasticity.pUpdate (young (θ c 0)) 0.3 (yieldStress (θ c 1))
            (Plasticity.pHistory (young (θ c 0)) 0.3 (yieldStress (θ c 1))
              (us.map fun u => Matrix.of ((𝒫).gradAt ((𝒫).vecField u) c q)))
            (Matrix.of ((𝒫).gradAt ((𝒫).vecField u) c q)) := by
        rw [Plasticity.pHistory, List.map_append, List.foldl_append]
        rfl
      dsimp only
      rw [e1, e2]
      generalize bodyAfter (fun u b => updateStressStrain 𝒫 ((𝒫).solArray u) b) us (initParams θ) c q = b at *
      refine ⟨?_, rfl, i3⟩
      have h3 : b.2.2.2.1 = θ c 0 := congrArg Prod.fst i3
      have h4 : b.2.2.2.2 = θ c 1 := congrArg Prod.snd i3
      rw [Plasticity.pUpdate, ← i1, ← i2, ← h3, ← h4]
      rfl
  obtain ⟨k1, k2, k3⟩ := key us
  have hy : 0 ≤ yieldStress (θ c 1) := by rw [yield_eq]; exact hθ c
  obtain ⟨h1, h2, h3, h4⟩ := Plasticity.C54_history (young (θ c 0)) 0.3 (yieldStress (θ c 1)) hy
    (us.map fun u => Matrix.of ((𝒫).gradAt ((𝒫).vecField u) c q))
  refine ⟨?_, ?_, ?_, k3, ?_⟩
  · rw [← yield_eq, k1]
    exact h1
  · rw [k1]
    exact h2
  · rw [k2, h3, List.getLast?_map, Option.map_map]
    rfl
  · rw [k1, k2, h4, Plasticity.lmbdaOf, Plasticity.muOf, young]
    norm_num
    ring

/-- **C103 (inspection).** What `inspect` shows after the loop is the mean yield function of the step before the last
one (zero after a single step): it does not depend on the last solution. -/
theorem C103_inspect (θ : Fin (𝒫).cells.length → Fin 2 → ℝ) (us : List (Fin (totalDofs (𝒫).fes) → ℝ))
    (u w : Fin (totalDofs (𝒫).fes) → ℝ) (c : Fin (𝒫).cells.length) :
    inspect (internalVarsAfter (fun u b => updateStressStrain 𝒫 ((𝒫).solArray u) b) [w] (initParams θ)) c = 0 ∧
    inspect (internalVarsAfter (fun u b => updateStressStrain 𝒫 ((𝒫).solArray u) b) (us ++ [u, w]) (initParams θ)) c
      = (∑ q, (updatePoint ((𝒫).gradAt ((𝒫).vecField u) c q)
          (bodyAfter (fun u b => updateStressStrain 𝒫 ((𝒫).solArray u) b) us (initParams θ) c q)).2.2.1) / nq := by
  constructor
  · simp [inspect, internalVarsAfter, bodyAfter, initParams]
  · have e : (us ++ [u, w]).dropLast = us ++ [u] := by
      rw [show us ++ [u, w] = (us ++ [u]) ++ [w] by simp, List.dropLast_concat]
    rw [internalVarsAfter, e, inspect]
    congr 1
    refine Finset.sum_congr rfl fun q _ => ?_
    rw [bodyAfter, List.foldl_append]
    exact congrArg (fun b : Body => b.2.2.1) (congrFun (congrFun (update_eq numTotalNodes points cells el fc faces u _) c) q)

end

/-! ### Property theorems: constraints and loads -/

/-- **C103 (constraints).** The constraints bound the mean density and the mean yield variable, and their derivatives are
constant. -/
theorem C103_constraints {C : Nat} (hC : 0 < C) (vf vy : ℝ) (hf : 0 < vf) (hy : 0 < vy) (rho : Fin C → Fin 2 → ℝ) :
    (constraints vf vy rho 0 ≤ 0 ↔ ∑ c, rho c 0 ≤ C * vf) ∧ (constraints vf vy rho 1 ≤ 0 ↔ ∑ c, rho c 1 ≤ C * vy) ∧
    ∀ d : Fin C → Fin 2 → ℝ,
      constraints vf vy (rho + d) 0 = constraints vf vy rho 0 + (∑ c, 1 / (C * vf) * d c 0) ∧
      constraints vf vy (rho + d) 1 = constraints vf vy rho 1 + (∑ c, 1 / (C * vy) * d c 1) := by
  have hC' : (0 : ℝ) < C := by exact_mod_cast hC
  have key : ∀ (v : ℝ) (_ : 0 < v) (S : ℝ), (S / C / v - 1 ≤ 0 ↔ S ≤ C * v) := by
    intro v hv S
    rw [sub_nonpos, div_div, div_le_one (mul_pos hC' hv)]
  refine ⟨key vf hf _, key vy hy _, fun d => ⟨?_, ?_⟩⟩
  · show (∑ c, (rho c 0 + d c 0)) / C / vf - 1 = (∑ c, rho c 0) / C / vf - 1 + _
    rw [Finset.sum_add_distrib, ← Finset.mul_sum]
    field_simp
    ring
  · show (∑ c, (rho c 1 + d c 1)) / C / vy - 1 = (∑ c, rho c 1) / C / vy - 1 + _
    rw [Finset.sum_add_distrib, ← Finset.mul_sum]
    field_simp
    ring

/-- **C103 (loads).** Five equal increments up to 400. -/
theorem C103_loads : loads = [80, 160, 240, 320, 400] := by
  simp only [loads, List.range, List.range.loop, List.map_cons, List.map_nil]
  norm_num

end JaxFem.CoDesign
