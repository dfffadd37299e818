import Verif.Thm.C95_Newton
import Mathlib.Tactic.Positivity

/-!
# C95: definiteness, uniqueness and independence of the distribution
-/

namespace JaxFem
namespace Mpi

open Parallel (IsShapeGrads signedArea2 triArea)

variable {coords : Nat → Fin 2 → ℝ} {N : Nat} {cells : List (Fin 3 → Nat)}

theorem sum_pick (l : List (Fin 3 → Nat)) (hl : ∀ c ∈ l, ∀ a, c a < N) (T : (Fin 3 → Nat) → Fin 3 → ℝ) (e : Nat → ℝ) :
    ∑ v ∈ Finset.range N, e v * (l.map fun c => ∑ a, if c a = v then T c a else 0).sum = (l.map fun c => ∑ a, e (c a) * T c a).sum := by
  simp only [← List.sum_map_mul_left]
  rw [sum_list_swap]
  refine congrArg List.sum (List.map_congr_left fun c hc => ?_)
  simp only [Finset.mul_sum]
  rw [Finset.sum_comm]
  refine Finset.sum_congr rfl fun a _ => ?_
  rw [Finset.sum_eq_single (c a)]
  · rw [if_pos rfl]
  · intro v _ hv
    rw [if_neg (Ne.symm hv), mul_zero]
  · intro hn
    exact absurd (Finset.mem_range.2 (hl c hc a)) hn

/-- The form belonging to the tangent. -/
theorem tangent_form (hl : ∀ c ∈ cells, ∀ a, c a < N) (g : (Fin 3 → Nat) → Fin 3 → Fin 2 → ℝ) (u e z : Nat → ℝ) :
    ∑ v ∈ Finset.range N, e v * ∑ w ∈ Finset.range N, serialTangent coords cells g u v w * z w
      = (cells.map fun c => triArea (fun a => coords (c a)) * (∑ d, gradIn (g c) z c d * gradIn (g c) e c d +
          3 * atCentroid u c ^ 2 * atCentroid z c * atCentroid e c)).sum := by
  have h1 : ∀ v, ∑ w ∈ Finset.range N, serialTangent coords cells g u v w * z w = (cells.map fun c => ∑ a, if c a = v then
      ∑ b, z (c b) * (triArea (fun a => coords (c a)) * (∑ d, g c b d * g c a d + 3 * atCentroid u c ^ 2 * (1 / 3) * (1 / 3)))
      else 0).sum := by
    intro v
    have e1 : ∀ w, serialTangent coords cells g u v w = (cells.map fun c => ∑ b, if c b = w then (∑ a, if c a = v then
        triArea (fun a => coords (c a)) * (∑ d, g c b d * g c a d + 3 * atCentroid u c ^ 2 * (1 / 3) * (1 / 3)) else 0) else 0).sum := by
      intro w
      unfold serialTangent
      refine congrArg List.sum (List.map_congr_left fun c _ => ?_)
      rw [Finset.sum_comm]
      refine Finset.sum_congr rfl fun b _ => ?_
      by_cases hb : c b = w
      · rw [if_pos hb]
        refine Finset.sum_congr rfl fun a _ => ?_
        simp only [hb, and_true]
      · simp [hb]
    simp only [e1]
    rw [Finset.sum_congr rfl fun w _ => mul_comm _ (z w), sum_pick cells hl (fun c b => ∑ a, if c a = v then
        triArea (fun a => coords (c a)) * (∑ d, g c b d * g c a d + 3 * atCentroid u c ^ 2 * (1 / 3) * (1 / 3)) else 0) z]
    refine congrArg List.sum (List.map_congr_left fun c _ => ?_)
    simp only [Finset.mul_sum]
    rw [Finset.sum_comm]
    refine Finset.sum_congr rfl fun a _ => ?_
    by_cases ha : c a = v
    · simp only [if_pos ha]
    · simp only [if_neg ha, mul_zero, Finset.sum_const_zero]
  simp only [h1]
  rw [sum_pick cells hl]
  refine congrArg List.sum (List.map_congr_left fun c _ => ?_)
  simp only [gradIn, atCentroid, Fin.sum_univ_three, Fin.sum_univ_two]
  ring

theorem residual_form (hl : ∀ c ∈ cells, ∀ a, c a < N) (g : (Fin 3 → Nat) → Fin 3 → Fin 2 → ℝ) (f : ℝ → ℝ → ℝ) (u e : Nat → ℝ) :
    ∑ v ∈ Finset.range N, e v * serialResidual coords cells g f u v
      = (cells.map fun c => triArea (fun a => coords (c a)) * (∑ d, gradIn (g c) u c d * gradIn (g c) e c d +
          (atCentroid u c ^ 3 - f (atCentroid (fun w => coords w 0) c) (atCentroid (fun w => coords w 1) c)) * atCentroid e c)).sum := by
  unfold serialResidual
  rw [sum_pick cells hl]
  refine congrArg List.sum (List.map_congr_left fun c _ => ?_)
  generalize f _ _ = q
  simp only [gradIn, atCentroid, Fin.sum_univ_three, Fin.sum_univ_two]
  ring

theorem grad_zero (X g : Fin 3 → Fin 2 → ℝ) (hg : IsShapeGrads X g) (e : Fin 3 → ℝ) (h : ∀ d, ∑ a, e a * g a d = 0) (a b : Fin 3) :
    e a = e b := by
  obtain ⟨c, hc⟩ := hg
  have key : ∀ b, e b = ∑ a, e a * c a := by
    intro b
    have e1 : ∑ a, e a * (c a + ∑ d, g a d * X b d) = e b := by
      simp only [hc, mul_ite, mul_one, mul_zero, Finset.sum_ite_eq', Finset.mem_univ, if_true]
    have h0 := h 0
    have h1 := h 1
    rw [← e1]
    simp only [Fin.sum_univ_three, Fin.sum_univ_two] at h0 h1 ⊢
    linear_combination X b 0 * h0 + X b 1 * h1
  rw [key a, key b]

theorem list_sum_nonneg {α : Type} (l : List α) (F : α → ℝ) (h : ∀ a ∈ l, 0 ≤ F a) : 0 ≤ (l.map F).sum :=
  List.sum_nonneg fun x hx => by
    obtain ⟨a, ha, rfl⟩ := List.mem_map.1 hx
    exact h a ha

theorem list_sum_zero {α : Type} (l : List α) (F : α → ℝ) (h : ∀ a ∈ l, 0 ≤ F a) (hz : (l.map F).sum ≤ 0) : ∀ a ∈ l, F a = 0 := by
  induction l with
  | nil => intro a ha; cases ha
  | cons b l ih =>
    have h1 := list_sum_nonneg l F fun a ha => h a (List.mem_cons_of_mem _ ha)
    have h2 := h b List.mem_cons_self
    rw [List.map_cons, List.sum_cons] at hz
    intro a ha
    rcases List.mem_cons.1 ha with rfl | ha
    · linarith
    · exact ih (fun a ha => h a (List.mem_cons_of_mem _ ha)) (by linarith) a ha

theorem list_sum_sub {α : Type} (l : List α) (F G : α → ℝ) : (l.map F).sum - (l.map G).sum = (l.map fun c => F c - G c).sum := by
  induction l with
  | nil => simp
  | cons c l ih =>
    simp only [List.map_cons, List.sum_cons]
    rw [← ih]
    ring

/-- A function vanishing at the sides with zero gradients vanishes. -/
theorem vanish (g : (Fin 3 → Nat) → Fin 3 → Fin 2 → ℝ)
    (hg : ∀ c ∈ cells, IsShapeGrads (fun a => coords (c a)) (g c)) (hreach : ReachesSide coords N cells) (e : Nat → ℝ)
    (hside : ∀ v < N, AtSide coords v → e v = 0) (hz : ∀ c ∈ cells, ∀ d, gradIn (g c) e c d = 0) : ∀ v < N, e v = 0 := by
  have hlink : ∀ v w, Relation.ReflTransGen (Linked cells) v w → e v = e w := by
    intro v w hvw
    induction hvw with
    | refl => rfl
    | tail _ hstep ih =>
      obtain ⟨cl, hcl, ⟨a, ha⟩, b, hb⟩ := hstep
      rw [ih, ← ha, ← hb]
      exact grad_zero _ _ (hg cl hcl) (fun a => e (cl a)) (hz cl hcl) a b
  intro v hv
  obtain ⟨w, hw, hs, hvw⟩ := hreach v hv
  rw [hlink v w hvw, hside w hw hs]

/-- **C95 (definiteness).** The tangent is symmetric, and positive definite on vectors vanishing at the sides if every vertex is connected
with a side. The matrix itself is not symmetric (rows at sides are replaced, columns are not), but the iterates of a Krylov method
started at zero vanish at the sides. -/
theorem C95_definite (hl : ∀ c ∈ cells, ∀ a, c a < N) (hpos : ∀ c ∈ cells, 0 < signedArea2 fun a => coords (c a))
    (g : (Fin 3 → Nat) → Fin 3 → Fin 2 → ℝ) (hg : ∀ c ∈ cells, IsShapeGrads (fun a => coords (c a)) (g c)) (u : Nat → ℝ) :
    (∀ v w, serialTangent coords cells g u v w = serialTangent coords cells g u w v) ∧
    ∀ e : Nat → ℝ, 0 ≤ ∑ v ∈ Finset.range N, e v * ∑ w ∈ Finset.range N, serialTangent coords cells g u v w * e w ∧
      (ReachesSide coords N cells → (∀ v < N, AtSide coords v → e v = 0) →
        ∑ v ∈ Finset.range N, e v * ∑ w ∈ Finset.range N, serialTangent coords cells g u v w * e w ≤ 0 → ∀ v < N, e v = 0) := by
  have hA : ∀ c ∈ cells, 0 < triArea fun a => coords (c a) := fun c hc => by
    rw [area_pos _ (hpos c hc)]
    exact half_pos (hpos c hc)
  constructor
  · intro v w
    unfold serialTangent
    refine congrArg List.sum (List.map_congr_left fun c _ => ?_)
    rw [Finset.sum_comm]
    refine Finset.sum_congr rfl fun a _ => Finset.sum_congr rfl fun b _ => ?_
    refine if_congr and_comm ?_ rfl
    congr 2
    exact Finset.sum_congr rfl fun d _ => mul_comm _ _
  · intro e
    rw [tangent_form hl]
    have hterm : ∀ c ∈ cells, 0 ≤ triArea (fun a => coords (c a)) * (∑ d, gradIn (g c) e c d * gradIn (g c) e c d +
          3 * atCentroid u c ^ 2 * atCentroid e c * atCentroid e c) := by
      intro c hc
      refine mul_nonneg (hA c hc).le (add_nonneg (Finset.sum_nonneg fun d _ => mul_self_nonneg _) ?_)
      rw [mul_assoc]
      exact mul_nonneg (by positivity) (mul_self_nonneg _)
    refine ⟨list_sum_nonneg _ _ hterm, fun hreach hside hz => vanish g hg hreach e hside ?_⟩
    intro c hc d
    have h0 := list_sum_zero _ _ hterm hz c hc
    rcases mul_eq_zero.1 h0 with h0 | h0
    · exact absurd h0 (hA c hc).ne'
    · have h1 : 0 ≤ 3 * atCentroid u c ^ 2 * atCentroid e c * atCentroid e c := by
        rw [mul_assoc]
        exact mul_nonneg (by positivity) (mul_self_nonneg _)
      rw [Fin.sum_univ_two] at h0
      have q0 := mul_self_nonneg (gradIn (g c) e c 0)
      have q1 := mul_self_nonneg (gradIn (g c) e c 1)
      have z0 : gradIn (g c) e c 0 = 0 := mul_self_eq_zero.1 (by linarith)
      have z1 : gradIn (g c) e c 1 = 0 := mul_self_eq_zero.1 (by linarith)
      fin_cases d
      · exact z0
      · exact z1

/-- **C95 (uniqueness).** The discrete problem has at most one solution. -/
theorem C95_discrete_unique (hl : ∀ c ∈ cells, ∀ a, c a < N) (hpos : ∀ c ∈ cells, 0 < signedArea2 fun a => coords (c a))
    (g : (Fin 3 → Nat) → Fin 3 → Fin 2 → ℝ) (hg : ∀ c ∈ cells, IsShapeGrads (fun a => coords (c a)) (g c))
    (hreach : ReachesSide coords N cells) (f : ℝ → ℝ → ℝ) (u u' : Nat → ℝ)
    (hu : ∀ v < N, AtSide coords v → u v = 0) (hu' : ∀ v < N, AtSide coords v → u' v = 0)
    (hr : ∀ v < N, ¬AtSide coords v → serialResidual coords cells g f u v = 0)
    (hr' : ∀ v < N, ¬AtSide coords v → serialResidual coords cells g f u' v = 0) : ∀ v < N, u v = u' v := by
  have hA : ∀ c ∈ cells, 0 < triArea fun a => coords (c a) := fun c hc => by
    rw [area_pos _ (hpos c hc)]
    exact half_pos (hpos c hc)
  have hside : ∀ v < N, AtSide coords v → u v - u' v = 0 := fun v hv hs => by rw [hu v hv hs, hu' v hv hs, sub_zero]
  have hzero : ∀ w : Nat → ℝ, (∀ v < N, ¬AtSide coords v → serialResidual coords cells g f w v = 0) →
      ∑ v ∈ Finset.range N, (u v - u' v) * serialResidual coords cells g f w v = 0 := by
    intro w hw
    refine Finset.sum_eq_zero fun v hv => ?_
    rw [Finset.mem_range] at hv
    by_cases hs : AtSide coords v
    · rw [hside v hv hs, zero_mul]
    · rw [hw v hv hs, mul_zero]
  have h1 := hzero u hr
  have h2 := hzero u' hr'
  rw [residual_form hl g f _ fun v => u v - u' v] at h1 h2
  have hdiff : (cells.map fun c => triArea (fun a => coords (c a)) *
      (∑ d, gradIn (g c) (fun v => u v - u' v) c d * gradIn (g c) (fun v => u v - u' v) c d +
        (atCentroid u c ^ 3 - atCentroid u' c ^ 3) * (atCentroid u c - atCentroid u' c))).sum = 0 := by
    rw [← sub_eq_zero.2 (h1.trans h2.symm), list_sum_sub]
    refine congrArg List.sum (List.map_congr_left fun c _ => ?_)
    generalize f _ _ = q
    simp only [gradIn, atCentroid, Fin.sum_univ_three, Fin.sum_univ_two]
    ring
  have hcube : ∀ x y : ℝ, 0 ≤ (x ^ 3 - y ^ 3) * (x - y) := by
    intro x y
    have : (x ^ 3 - y ^ 3) * (x - y) = (x - y) ^ 2 * ((x + y / 2) ^ 2 + 3 / 4 * y ^ 2) := by ring
    rw [this]
    positivity
  have hterm : ∀ c ∈ cells, 0 ≤ triArea (fun a => coords (c a)) *
      (∑ d, gradIn (g c) (fun v => u v - u' v) c d * gradIn (g c) (fun v => u v - u' v) c d +
        (atCentroid u c ^ 3 - atCentroid u' c ^ 3) * (atCentroid u c - atCentroid u' c)) := fun c hc =>
    mul_nonneg (hA c hc).le (add_nonneg (Finset.sum_nonneg fun d _ => mul_self_nonneg _) (hcube _ _))
  have hz := vanish g hg hreach (fun v => u v - u' v) hside (fun c hc d => by
    have h0 := list_sum_zero _ _ hterm hdiff.le c hc
    rcases mul_eq_zero.1 h0 with h0 | h0
    · exact absurd h0 (hA c hc).ne'
    · have h1 := hcube (atCentroid u c) (atCentroid u' c)
      rw [Fin.sum_univ_two] at h0
      have q0 := mul_self_nonneg (gradIn (g c) (fun v => u v - u' v) c 0)
      have q1 := mul_self_nonneg (gradIn (g c) (fun v => u v - u' v) c 1)
      have z0 : gradIn (g c) (fun v => u v - u' v) c 0 = 0 := mul_self_eq_zero.1 (by linarith)
      have z1 : gradIn (g c) (fun v => u v - u' v) c 1 = 0 := mul_self_eq_zero.1 (by linarith)
      fin_cases d
      · exact z0
      · exact z1)
  intro v hv
  exact sub_eq_zero.1 (hz v hv)

theorem residual_congr (hl : ∀ c ∈ cells, ∀ a, c a < N) (g : (Fin 3 → Nat) → Fin 3 → Fin 2 → ℝ) (f : ℝ → ℝ → ℝ) (u u' : Nat → ℝ)
    (h : ∀ v < N, u v = u' v) (v : Nat) : serialResidual coords cells g f u v = serialResidual coords cells g f u' v := by
  unfold serialResidual
  refine congrArg List.sum (List.map_congr_left fun c hc => ?_)
  have e : ∀ a, u (c a) = u' (c a) := fun a => h _ (hl c hc a)
  simp only [gradIn, atCentroid, e]

theorem tangent_congr (hl : ∀ c ∈ cells, ∀ a, c a < N) (g : (Fin 3 → Nat) → Fin 3 → Fin 2 → ℝ) (u u' : Nat → ℝ)
    (h : ∀ v < N, u v = u' v) (v w : Nat) : serialTangent coords cells g u v w = serialTangent coords cells g u' v w := by
  unfold serialTangent
  refine congrArg List.sum (List.map_congr_left fun c hc => ?_)
  have e : ∀ a, u (c a) = u' (c a) := fun a => h _ (hl c hc a)
  simp only [atCentroid, e]

/-- **C95 (uniqueness).** Newton iterates are determined by the mesh and the source. -/
theorem C95_newton_unique (hl : ∀ c ∈ cells, ∀ a, c a < N) (hpos : ∀ c ∈ cells, 0 < signedArea2 fun a => coords (c a))
    (g : (Fin 3 → Nat) → Fin 3 → Fin 2 → ℝ) (hg : ∀ c ∈ cells, IsShapeGrads (fun a => coords (c a)) (g c))
    (hreach : ReachesSide coords N cells) (f : ℝ → ℝ → ℝ) (u u' : Nat → Nat → ℝ) (K K' : Nat)
    (h : IsNewton coords N cells g f u K) (h' : IsNewton coords N cells g f u' K') :
    ∀ k ≤ K, k ≤ K' → ∀ v < N, u k v = u' k v := by
  intro k
  induction k with
  | zero => intro _ _ v hv; rw [h.start v hv, h'.start v hv]
  | succ k ih =>
    intro hk hk'
    have hprev := ih (by omega) (by omega)
    have hz := ((C95_definite hl hpos g hg (u k)).2 fun v => u (k + 1) v - u' (k + 1) v).2 hreach
      (fun v hv hs => by rw [h.sides (k + 1) hk v hv hs, h'.sides (k + 1) hk' v hv hs, sub_zero]) (le_of_eq (by
        refine Finset.sum_eq_zero fun v hv => ?_
        rw [Finset.mem_range] at hv
        by_cases hs : AtSide coords v
        · rw [h.sides (k + 1) hk v hv hs, h'.sides (k + 1) hk' v hv hs, sub_zero, zero_mul]
        · have e1 := h.step k (by omega) v hv hs
          have e2 := h'.step k (by omega) v hv hs
          rw [← residual_congr hl g f _ _ hprev] at e2
          have e3 := e1.trans e2.symm
          have : ∑ w ∈ Finset.range N, serialTangent coords cells g (u k) v w * (u (k + 1) w - u' (k + 1) w) = 0 := by
            rw [← sub_eq_zero.2 e3, ← Finset.sum_sub_distrib]
            refine Finset.sum_congr rfl fun w hw => ?_
            rw [← tangent_congr hl g _ _ hprev, hprev w (Finset.mem_range.1 hw)]
            ring
          rw [this, mul_zero]))
    intro v hv
    exact sub_eq_zero.1 (hz v hv)

theorem norm_congr (hl : ∀ c ∈ cells, ∀ a, c a < N) (g : (Fin 3 → Nat) → Fin 3 → Fin 2 → ℝ) (f : ℝ → ℝ → ℝ) (u u' : Nat → ℝ)
    (h : ∀ v < N, u v = u' v) : residualNorm coords N cells g f u = residualNorm coords N cells g f u' := by
  unfold residualNorm
  congr 1
  refine Finset.sum_congr rfl fun v _ => ?_
  rw [residual_congr hl g f u u' h]

/-- **C95 (independence).** Two runs on the same mesh with different distributions, numberings, numbers of ranks, orders of arrival and
(exact) linear solvers end with the same values at the vertices. -/
theorem C95_independent {info : ElementInfo} (h : getElements "TRI3" = .ok info) {num num' : Nat → Nat} {glob glob' : Part → Nat → Nat}
    {parts parts' : List Part} (hD : IsPartition coords N cells num glob parts) (hD' : IsPartition coords N cells num' glob' parts')
    (htol : TolerancesAgree coords N) (hreach : ReachesSide coords N cells) (hne : ∀ p ∈ parts, p.cells ≠ [] ∧ p.rstart < p.rend)
    (hne' : ∀ p ∈ parts', p.cells ≠ [] ∧ p.rstart < p.rend) (f : ℝ → ℝ → ℝ)
    (o o' : Nat → Orders) (hov : ∀ k l, ((o k).vec l).Perm l) (hom : ∀ k l, ((o k).mat l).Perm l)
    (hov' : ∀ k l, ((o' k).vec l).Perm l) (hom' : ∀ k l, ((o' k).mat l).Perm l)
    (solve solve' : Matrix (Fin N) (Fin N) ℝ → (Fin N → ℝ) → Except Err (Fin N → ℝ))
    (hsolve : ∀ A b y, solve A b = .ok y → A.mulVec y = b) (hsolve' : ∀ A b y, solve' A b = .ok y → A.mulVec y = b)
    (tol relTol : ℝ) (hrel : 0 ≤ relTol) (maxIt : Nat) (x x' : Fin N → ℝ)
    (hx : solution f (tri3 info) parts o solve tol relTol maxIt = .ok x)
    (hx' : solution f (tri3 info) parts' o' solve' tol relTol maxIt = .ok x') :
    ∀ v (hv : v < N), x ⟨num v, hD.num_lt v hv⟩ = x' ⟨num' v, hD'.num_lt v hv⟩ := by
  have hg : ∀ c ∈ cells, IsShapeGrads (fun a => coords (c a)) (someGrads coords c) := by
    intro c hc
    obtain ⟨g, hg⟩ := Parallel.C57_shape_exists (fun a => coords (c a)) (by
      rw [area_pos _ (hD.positive c hc)]
      exact (half_pos (hD.positive c hc)).ne')
    rw [someGrads_eq c g hg]
    exact hg
  obtain ⟨u, K, hK, n1, n2, n3, n4⟩ := C95_newton h hD htol hne _ hg f o hov hom solve hsolve tol relTol hrel maxIt x hx
  obtain ⟨u', K', hK', m1, m2, m3, m4⟩ := C95_newton h hD' htol hne' _ hg f o' hov' hom' solve' hsolve' tol relTol hrel maxIt x' hx'
  have huu := C95_newton_unique hD.cells_lt hD.positive _ hg hreach f u u' K K' n1 m1
  have hnn : ∀ k ≤ K, k ≤ K' → residualNorm coords N cells (someGrads coords) f (u k)
      = residualNorm coords N cells (someGrads coords) f (u' k) := fun k h1 h2 => norm_congr hD.cells_lt _ f _ _ (huu k h1 h2)
  have hKK : K = K' := by
    rcases lt_trichotomy K K' with hlt | heq | hlt
    · have a1 := m3 K hlt
      rw [← hnn K le_rfl hlt.le, ← hnn 0 (Nat.zero_le _) (Nat.zero_le _)] at a1
      rcases n4 (by omega) with a2 | a2
      · exact absurd a1.1 (not_lt.2 a2)
      · exact absurd a1.2 (not_lt.2 a2)
    · exact heq
    · have a1 := n3 K' hlt
      rw [hnn K' hlt.le le_rfl, hnn 0 (Nat.zero_le _) (Nat.zero_le _)] at a1
      rcases m4 (by omega) with a2 | a2
      · exact absurd a1.1 (not_lt.2 a2)
      · exact absurd a1.2 (not_lt.2 a2)
  subst hKK
  intro v hv
  rw [n2 v hv, m2 v hv]
  exact huu K le_rfl le_rfl v hv

end Mpi
end JaxFem
