import Verif.Thm.C98_Energy
import Verif.Thm.C96_Multi

/-!
# C98: homogenisation — property theorems of the representative volume
-/

namespace JaxFem.Rve

open Fracture (conL con_single con_add con_add' con_smul con_smul' con_sub quad quad_add quad_smul quad_congr)
open Hyper (grad grad_of_deriv gradient_mul sumsq_left piola_left)
open Matrix Topology

variable {nq nfq nn : Nat} (P : Problem1 (ℝ × ℝ) nq nfq nn 3 3) (pairs : List (Nat × Nat)) (pins : List Nat)

/-- **C98 (energy).** `compute_energy` of the representative volume is a differentiable function of the nodal fluctuations
and of `H_bar`; its derivative in the fluctuations is the assembled residual, its derivative in `H_bar` is the integral of
the first Piola–Kirchhoff stress. -/
theorem C98_energy (h : P.WF) (H : Tensor) (u : Fin P.numTotalNodes → Fin 3 → ℝ) (hadm : Admissible P H (extend u)) :
    ∃ R, (problem (.rve H) P).residual [solOf u] = .ok R ∧
      ∃ L : ((Fin P.numTotalNodes → Fin 3 → ℝ) × Tensor) →L[ℝ] ℝ,
        HasFDerivAt (fun z : (Fin P.numTotalNodes → Fin 3 → ℝ) × Tensor => computeEnergy (.rve z.2) P (solOf z.1)) L (u, H) ∧
        ∀ du dH, L (du, dH) = (∑ n : Fin P.numTotalNodes, ∑ c : Fin 3, du n c * at3 R 0 n c)
          + contract (totalStress P H (extend u)) dH := by
  have hf := fieldOf_solOf u
  obtain ⟨R, r1, -, r2⟩ := work_rve P h H (solOf u) (solOf_shapes u) (by rw [hf]; exact hadm)
  obtain ⟨L, l1, l2⟩ := energy_deriv P u H hadm
  refine ⟨R, r1, L, l1, fun du dH => ?_⟩
  rw [l2, total_eq]
  have h1 := r2 (extend du)
  rw [hf] at h1
  have h2 : ∑ n ∈ Finset.range P.numTotalNodes, ∑ c : Fin 3, extend du n c * at3 R 0 n c
      = ∑ n : Fin P.numTotalNodes, ∑ c : Fin 3, du n c * at3 R 0 n c := by
    rw [Finset.sum_range]
    refine Finset.sum_congr rfl fun n _ => Finset.sum_congr rfl fun c _ => ?_
    rw [extend, dif_pos n.2]
  rw [← h2, h1, ← quad_add]
  exact quad_congr P fun c _ q => con_add' _ _ _

/-- **C98 (displacement).** The fluctuation problem is the problem of the displacement `H_bar x + v` that `fluc_to_disp`
returns: energy and nodal forces agree with those of the mode `dns` there. -/
theorem C98_displacement (h : P.WF) (hreg : P.el.Regular P.points P.conn) (H : Tensor) (sol : List (List ℝ))
    (hs : HasShapes [(P.numTotalNodes, 3)] [sol]) :
    HasShapes [(P.numTotalNodes, 3)] [flucToDisp H P.points sol] ∧
    (∀ n < P.numTotalNodes, ∀ i : Fin 3, fieldOf 3 (flucToDisp H P.points sol) n i
      = (∑ k, H i k * P.points.getD n 0 k) + fieldOf 3 sol n i) ∧
    computeEnergy (.rve H) P sol = computeEnergy .dns P (flucToDisp H P.points sol) ∧
    ∃ R R', (problem (.rve H) P).residual [sol] = .ok R ∧
      (problem .dns P).residual [flucToDisp H P.points sol] = .ok R' ∧
      ∀ n < P.numTotalNodes, ∀ c : Fin 3, at3 R 0 n c = at3 R' 0 n c := by
  obtain ⟨a, t, e, hl, hr, ht⟩ := hs
  obtain rfl : sol = a := (List.cons.inj e).1
  have hlen : P.points.length = sol.length := by rw [h.points, hl]
  have hs : HasShapes [(P.numTotalNodes, 3)] [sol] := ⟨sol, [], rfl, hl, hr, rfl⟩
  have hs' : HasShapes [(P.numTotalNodes, 3)] [flucToDisp H P.points sol] := by
    refine ⟨_, [], rfl, by rw [flucToDisp, List.length_zipWith, hlen, min_self, hl], ?_, rfl⟩
    intro r hr
    rw [flucToDisp] at hr
    obtain ⟨n, hn, rfl⟩ := List.getElem_of_mem hr
    simp
  have hdisp : ∀ n < P.numTotalNodes, ∀ i : Fin 3, fieldOf 3 (flucToDisp H P.points sol) n i
      = (∑ k, H i k * P.points.getD n 0 k) + fieldOf 3 sol n i :=
    fun n hn i => fieldOf_disp P H sol hlen n (hl ▸ hn) i
  have hg : ∀ c ∈ P.cells, ∀ q, P.gradient (fieldOf 3 (flucToDisp H P.points sol)) c.nodes q
      = (fun i j => H i j + P.gradient (fieldOf 3 sol) c.nodes q i j : Tensor) := by
    intro c hc q
    refine Eq.trans ?_ (gradient_affine P c.nodes q H (fieldOf 3 sol) (hreg c.nodes (List.mem_map_of_mem hc) q))
    exact field_congr P c.nodes (h.cell_length c hc) q _ _ fun n hn => funext fun i => hdisp n (h.cell_lt c hc n hn) i
  refine ⟨hs', hdisp, ?_, ?_⟩
  · rw [energy_rve, energy_dns]
    refine quad_congr P fun c hc q => ?_
    congr 1
    funext i j
    rw [dfm_apply, dfm_apply, hg c hc q]
    show _ = _ + (0 : ℝ) + (H i j + _)
    ring
  · obtain ⟨R, r1, -, r2⟩ := C72_weak_form (problem (.rve H) P) (problem_WF P _ h) sol hs
    obtain ⟨R', r1', -, r2'⟩ := C72_weak_form (problem .dns P) (problem_WF P _ h) _ hs'
    refine ⟨R, R', r1, r1', fun n hn c => ?_⟩
    have key : ∀ w : Nat → Fin 3 → ℝ, (problem (.rve H) P).virtualWork (fieldOf 3 sol) w
        = (problem .dns P).virtualWork (fieldOf 3 (flucToDisp H P.points sol)) w := by
      intro w
      have t1 : (problem (.rve H) P).tensorWork (fieldOf 3 sol) w = quad P fun c q =>
        contract (stress (.rve H) (c.iv q) (P.gradient (fieldOf 3 sol) c.nodes q)) (P.gradient w c.nodes q) := rfl
      have t2 : (problem .dns P).tensorWork (fieldOf 3 (flucToDisp H P.points sol)) w = quad P fun c q =>
        contract (stress .dns (c.iv q) (P.gradient (fieldOf 3 (flucToDisp H P.points sol)) c.nodes q))
          (P.gradient w c.nodes q) := rfl
      have t3 : (problem (.rve H) P).tensorWork (fieldOf 3 sol) w
          = (problem .dns P).tensorWork (fieldOf 3 (flucToDisp H P.points sol)) w := by
        rw [t1, t2]
        refine quad_congr P fun c hc q => ?_
        rw [hg c hc q]
        have : (fun i j => P.gradient (fieldOf 3 sol) c.nodes q i j + (if i = j then (1 : ℝ) else 0) + H i j)
            = fun i j => (H i j + P.gradient (fieldOf 3 sol) c.nodes q i j) + if i = j then (1 : ℝ) else 0 := by
          funext i j
          ring
        have e : stress (.rve H) (c.iv q) (P.gradient (fieldOf 3 sol) c.nodes q)
            = stress .dns (c.iv q) (fun i j => H i j + P.gradient (fieldOf 3 sol) c.nodes q i j) :=
          congrArg (grad (psi (c.iv q))) this
        rw [e]
      rw [Problem1.virtualWork, Problem1.virtualWork, t3]
      rfl
    have h1 := (r2 fun m d => if m = n ∧ d = c then 1 else 0).trans
      ((key _).trans (r2' fun m d => if m = n ∧ d = c then 1 else 0).symm)
    have pick : ∀ f : Nat → Fin 3 → ℝ, ∑ m ∈ Finset.range P.numTotalNodes, ∑ d : Fin 3,
        (if m = n ∧ d = c then (1 : ℝ) else 0) * f m d = f n c := by
      intro f
      rw [Finset.sum_eq_single_of_mem n (Finset.mem_range.2 hn) fun m _ hm => by simp [hm]]
      simp
    have e1 := pick fun m d => at3 R 0 m d
    have e2 := pick fun m d => at3 R' 0 m d
    exact e1.symm.trans (h1.trans e2)

/-- **C98 (Hill–Mandel).** At an equilibrium the power of the nodal forces on any displacement `δH x + w` with a fluctuation
`w` is the power of the stresses on its gradients and equals that of the volume-averaged stress on `δH`. -/
theorem C98_hill (h : P.WF) (hreg : P.el.Regular P.points P.conn) (H : Tensor) (v : Fin P.numTotalNodes → Fin 3 → ℝ)
    (hadm : Admissible P H (extend v)) (heq : IsEquilibrium P pairs pins H v) (dH : Tensor) (w : Nat → Fin 3 → ℝ)
    (hw : Fluctuation pairs pins w) :
    ∃ R, (problem (.rve H) P).residual [solOf v] = .ok R ∧
      ∑ n ∈ Finset.range P.numTotalNodes, ∑ c : Fin 3, ((∑ k, dH c k * P.points.getD n 0 k) + w n c) * at3 R 0 n c
        = contract (totalStress P H (extend v)) dH ∧
      stressPower P H (extend v) dH w = contract (totalStress P H (extend v)) dH := by
  obtain ⟨R, r1, -, r2⟩ := work_rve P h H (solOf v) (solOf_shapes v) (by rw [fieldOf_solOf]; exact hadm)
  obtain ⟨-, R', r1', r3⟩ := heq
  obtain rfl : R = R' := by rw [r1] at r1'; exact Except.ok.inj r1'
  rw [fieldOf_solOf] at r2
  have hp : stressPower P H (extend v) dH w = contract (totalStress P H (extend v)) dH := by
    have h0 := (r2 w).symm.trans (r3 w hw)
    rw [total_eq]
    have e : stressPower P H (extend v) dH w = quad P fun c q => contract (fun i j => piola P H (extend v) c q i j) dH
        + contract (fun i j => piola P H (extend v) c q i j) (P.gradient w c.nodes q) := by
      show quad P (fun c q => contract (piola P H (extend v) c q) fun i j => dH i j + P.gradient w c.nodes q i j) = _
      exact quad_congr P fun c _ q => con_add' dH (P.gradient w c.nodes q) (fun i j => piola P H (extend v) c q i j)
    rw [e, quad_add, h0, add_zero]
  refine ⟨R, r1, ?_, hp⟩
  rw [← hp, r2 fun n c => (∑ k, dH c k * P.points.getD n 0 k) + w n c]
  show _ = quad P (fun c q => contract (piola P H (extend v) c q) fun i j => dH i j + P.gradient w c.nodes q i j)
  refine quad_congr P fun c hc q => ?_
  rw [gradient_affine P c.nodes q dH w (hreg c.nodes (List.mem_map_of_mem hc) q)]
  rfl

end JaxFem.Rve
