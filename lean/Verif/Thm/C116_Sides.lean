import Mathlib.Data.List.Cycle
import Mathlib.Tactic.LinearCombination
import Verif.Spec.Conforming
import Verif.Spec.Variational
import Verif.Thm.C73_WellPosed

/-!
C116, first part: the integral of the gradient of a nodal field is a sum over the sides of the cells, in which the two
orientations of a side cancel.
-/

namespace JaxFem.Patch

open Matrix

/-- Opposite terms cancel. -/
theorem sum_cancel {β : Type} [DecidableEq β] (ρ : β → β) (hρ : ∀ x, ρ (ρ x) = x) (H : β → ℝ) (hH : ∀ x, H (ρ x) = -H x)
    (L : List β) (hL : ∀ x, H x ≠ 0 → L.countP (fun y => decide (y = x)) = L.countP fun y => decide (y = ρ x)) :
    (L.map H).sum = 0 := by
  have hc : ∀ x, (L : Multiset β).count x = L.countP fun y => decide (y = x) := by
    intro x
    rw [Multiset.coe_count, List.count]
    refine List.countP_congr fun y _ => ?_
    simp
  have hM : ∀ x, H x ≠ 0 → (L : Multiset β).count x = (L : Multiset β).count (ρ x) := fun x hx => by
    rw [hc, hc]; exact hL x hx
  have hsum : (L.map H).sum = ((L : Multiset β).map H).sum := by simp
  rw [hsum]
  generalize (L : Multiset β) = M at hM
  clear hc hsum hL
  classical
  have hsplit : (M.map H).sum = ((M.filter fun x => H x ≠ 0).map H).sum := by
    induction M using Multiset.induction_on with
    | empty => simp
    | cons a s ih =>
      clear hM ih
      induction (a ::ₘ s) using Multiset.induction_on with
      | empty => simp
      | cons b t ih =>
        by_cases hb : H b = 0
        · rw [Multiset.map_cons, Multiset.sum_cons, hb, zero_add, ih, Multiset.filter_cons_of_neg _ (by simpa using hb)]
        · rw [Multiset.map_cons, Multiset.sum_cons, ih, Multiset.filter_cons_of_pos (p := fun x => H x ≠ 0) t hb, Multiset.map_cons, Multiset.sum_cons]
  set F := M.filter fun x => H x ≠ 0 with hF
  have hinj : Function.Injective ρ := fun x y h => by rw [← hρ x, h, hρ]
  have hrev : F.map ρ = F := by
    ext x
    have h1 : (F.map ρ).count x = F.count (ρ x) := by
      conv_lhs => rw [← hρ x]
      exact Multiset.count_map_eq_count' ρ F hinj (ρ x)
    rw [h1, hF, Multiset.count_filter, Multiset.count_filter]
    by_cases hx : H x = 0
    · rw [if_neg (by rw [hH, hx]; simp), if_neg (by simpa using hx)]
    · rw [if_pos (by rw [hH]; simpa using hx), if_pos hx, hM x hx]
  have h2 : ((F.map ρ).map H).sum = -(F.map H).sum := by
    rw [Multiset.map_map, ← Multiset.sum_map_neg]
    congr 1
    exact Multiset.map_congr rfl fun x _ => hH x
  rw [hrev] at h2
  rw [hsplit]
  linarith

/-- Gradient times measure, without division. -/
theorem grad_measure {nn dim : Nat} (X G : Matrix (Fin nn) (Fin dim) ℝ) (U : Matrix (Fin nn) (Fin vec) ℝ)
    (hdet : (mapJacobian X G).det ≠ 0) (c : Fin vec) (j : Fin dim) :
    physGrad X G U c j * (mapJacobian X G).det = ∑ a, U a c * (G * (mapJacobian X G).adjugate) a j := by
  have h : physGrad X G U * (mapJacobian X G).det • (1 : Matrix (Fin dim) (Fin dim) ℝ)
      = Uᵀ * (G * (mapJacobian X G).adjugate) := by
    rw [physGrad, Matrix.inv_def, Ring.inverse_eq_inv', Matrix.mul_smul, Matrix.mul_smul, Matrix.mul_one, smul_smul,
      mul_inv_cancel₀ hdet, one_smul, Matrix.mul_assoc]
  have h2 := congrFun (congrFun h c) j
  rw [Matrix.mul_smul, Matrix.mul_one, Matrix.smul_apply, smul_eq_mul] at h2
  rw [mul_comm, h2, Matrix.mul_apply]
  rfl

/-- Contribution of a directed edge. -/
def edgeTerm (v : Nat → ℝ) (x : Nat → Fin 2 → ℝ) (e : Nat × Nat) (j : Fin 2) : ℝ :=
  if j = 0 then v e.2 * x e.1 1 * -1 + v e.1 * x e.2 1 else v e.2 * x e.1 0 - v e.1 * x e.2 0

/-- Contributions over closed edges cancel. -/
theorem edges_cancel (conn : List (List Nat)) (v : Nat → ℝ) (hv : ∀ n, ¬ClosedEdges conn n → v n = 0)
    (x : Nat → Fin 2 → ℝ) (j : Fin 2) : ((conn.flatMap polyEdges).map fun e => edgeTerm v x e j).sum = 0 := by
  have := sum_cancel (β := Nat × Nat) Prod.swap (fun x => Prod.swap_swap x) (fun e => edgeTerm v x e j)
    (fun e => by simp only [edgeTerm, Prod.fst_swap, Prod.snd_swap]; split <;> ring)
    (conn.flatMap polyEdges) (fun e he => by
      by_cases h1 : v e.1 = 0
      · by_cases h2 : v e.2 = 0
        · exact absurd (by simp [edgeTerm, h1, h2]) he
        · have := (not_imp_comm.1 (hv e.2)) h2
          exact (this e.1).symm
      · exact (not_imp_comm.1 (hv e.1)) h1 e.2)
  exact this

/-- A function of oriented faces. -/
theorem faces_cancel (faces : List Nat → List (List Nat)) (conn : List (List Nat)) (H : List Nat → ℝ)
    (hrot : ∀ f g : List Nat, f ~r g → H f = H g) (hrev : ∀ f, H f.reverse = -H f)
    (hzero : ∀ f, H f ≠ 0 → ∃ n ∈ f, ClosedFaces faces conn n) : ((conn.flatMap faces).map H).sum = 0 := by
  let HC : Cycle Nat → ℝ := Quotient.lift H fun f g h => hrot f g h
  have key : ∀ g : List Nat, ((conn.flatMap faces).map fun f => Cycle.ofList f).countP (fun y => decide (y = Cycle.ofList g))
      = (conn.flatMap faces).countP fun f => decide (f ~r g) := by
    intro g
    rw [List.countP_map]
    refine List.countP_congr fun f _ => ?_
    simp only [Function.comp_apply, decide_eq_true_eq]
    exact Cycle.coe_eq_coe
  have := sum_cancel (β := Cycle Nat) Cycle.reverse (fun x => Cycle.reverse_reverse x) HC
    (fun x => by induction x using Quotient.inductionOn with | _ f => exact hrev f)
    ((conn.flatMap faces).map fun f => Cycle.ofList f) (fun x hx => by
      induction x using Quotient.inductionOn with | _ f => ?_
      obtain ⟨n, hn, hc⟩ := hzero f hx
      exact (key f).trans ((hc f hn).trans (key f.reverse).symm))
  rw [List.map_map] at this
  exact this

end JaxFem.Patch
