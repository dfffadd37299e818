import Verif.Spec.Parallel
import Verif.Thm.C37_Periodic
import Mathlib.Data.List.GetD
import Mathlib.Tactic.FieldSimp
import Mathlib.Tactic.LinearCombination
import Mathlib.Tactic.FinCases
import Mathlib.Tactic.IntervalCases
import Mathlib.Data.Rat.Defs
import Mathlib.Algebra.Order.Ring.Rat
import Mathlib.LinearAlgebra.Matrix.Determinant.Basic

/-!
# C57: partitioned assembly equals serial assembly
-/

namespace JaxFem
namespace Parallel

variable {K : Type} [Field K] [LinearOrder K] [IsStrictOrderedRing K]

theorem area_eq (v : Fin 3 → Fin 2 → K) : area v = triArea v := by
  unfold area triArea cross2
  rw [one_div, mul_comm, ← div_eq_mul_inv]
  congr 2
  ring

theorem cross2_ne_of_shape (v g : Fin 3 → Fin 2 → K) (h : IsShapeGrads v g) : cross2 v ≠ 0 := by
  obtain ⟨c, hc⟩ := h
  have h00 := hc 1 0
  have h01 := hc 1 1
  have h02 := hc 1 2
  have k00 := hc 2 0
  have k01 := hc 2 1
  have k02 := hc 2 2
  simp [Fin.sum_univ_two] at h00 h01 h02 k00 k01 k02
  intro hz
  unfold cross2 at hz
  have e1 : g 1 0 * (v 1 0 - v 0 0) + g 1 1 * (v 1 1 - v 0 1) = 1 := by linear_combination h01 - h00
  have e2 : g 1 0 * (v 2 0 - v 0 0) + g 1 1 * (v 2 1 - v 0 1) = 0 := by linear_combination h02 - h00
  have e3 : g 2 0 * (v 1 0 - v 0 0) + g 2 1 * (v 1 1 - v 0 1) = 0 := by linear_combination k01 - k00
  have e4 : g 2 0 * (v 2 0 - v 0 0) + g 2 1 * (v 2 1 - v 0 1) = 1 := by linear_combination k02 - k00
  have : (1 : K) = (g 1 0 * g 2 1 - g 1 1 * g 2 0) *
      ((v 1 0 - v 0 0) * (v 2 1 - v 0 1) - (v 1 1 - v 0 1) * (v 2 0 - v 0 0)) := by
    calc (1 : K) = (g 1 0 * (v 1 0 - v 0 0) + g 1 1 * (v 1 1 - v 0 1)) *
          (g 2 0 * (v 2 0 - v 0 0) + g 2 1 * (v 2 1 - v 0 1)) -
          (g 1 0 * (v 2 0 - v 0 0) + g 1 1 * (v 2 1 - v 0 1)) *
          (g 2 0 * (v 1 0 - v 0 0) + g 2 1 * (v 1 1 - v 0 1)) := by rw [e1, e2, e3, e4]; ring
      _ = _ := by ring
  rw [hz, mul_zero] at this
  exact one_ne_zero this

/-- The rows of `grads` are the gradients of the shape functions. -/
theorem grads_eq (v g : Fin 3 → Fin 2 → K) (h : IsShapeGrads v g) (a : Fin 3) (d : Fin 2) :
    (refGrads K * (jac v)⁻¹) a d = g a d := by
  have hne := cross2_ne_of_shape v g h
  have hdet : (jac v).det = cross2 v := by
    unfold jac cross2
    rw [Matrix.det_fin_two_of]
    ring
  have hu : IsUnit (jac v).det := by rw [hdet]; exact isUnit_iff_ne_zero.mpr hne
  have key : (Matrix.of g : Matrix (Fin 3) (Fin 2) K) * jac v = refGrads K := by
    obtain ⟨c, hc⟩ := h
    ext a d
    have h0 := hc a 0
    have h1 := hc a 1
    have h2 := hc a 2
    rw [Fin.sum_univ_two] at h0 h1 h2
    rw [Matrix.mul_apply, Fin.sum_univ_two]
    fin_cases a <;> fin_cases d <;> simp [jac, refGrads] at h0 h1 h2 ⊢
    · linear_combination h1 - h0
    · linear_combination h2 - h0
    · linear_combination h1 - h0
    · linear_combination h2 - h0
    · linear_combination h1 - h0
    · linear_combination h2 - h0
  rw [← key, Matrix.mul_nonsing_inv_cancel_right _ _ hu]
  rfl

/-- **C57.** The element stiffness is the exact Galerkin stiffness of the linear triangle, whatever the
orientation and the order of the vertices. -/
theorem C57_element (v g : Fin 3 → Fin 2 → K) (h : IsShapeGrads v g) (a b : Fin 3) :
    elementStiffness v a b = triArea v * ∑ d, g a d * g b d := by
  have e : elementStiffness v a b =
      area v * ∑ d, (refGrads K * (jac v)⁻¹) a d * (refGrads K * (jac v)⁻¹) b d := by
    unfold elementStiffness
    rw [Matrix.smul_apply, smul_eq_mul, Matrix.mul_apply]
    rfl
  rw [e, area_eq]
  congr 1
  exact Finset.sum_congr rfl fun d _ => by rw [grads_eq v g h, grads_eq v g h]

/-- Non-degenerate triangles have shape functions. -/
theorem C57_shape_exists (v : Fin 3 → Fin 2 → K) (h : triArea v ≠ 0) : ∃ g, IsShapeGrads v g := by
  have hne : cross2 v ≠ 0 := by
    intro hz
    rw [← area_eq] at h
    exact h (by unfold area; rw [hz, abs_zero, mul_zero])
  have hdef : cross2 v = (v 1 0 - v 0 0) * (v 2 1 - v 0 1) - (v 1 1 - v 0 1) * (v 2 0 - v 0 0) := rfl
  set D := cross2 v with hD
  refine ⟨![![(v 1 1 - v 2 1) / D, (v 2 0 - v 1 0) / D], ![(v 2 1 - v 0 1) / D, (v 0 0 - v 2 0) / D],
    ![(v 0 1 - v 1 1) / D, (v 1 0 - v 0 0) / D]],
    ![(v 1 0 * v 2 1 - v 2 0 * v 1 1) / D, (v 2 0 * v 0 1 - v 0 0 * v 2 1) / D,
      (v 0 0 * v 1 1 - v 1 0 * v 0 1) / D], ?_⟩
  intro a b
  rw [Fin.sum_univ_two]
  fin_cases a <;> fin_cases b <;> simp <;> field_simp <;> first | ring1 | (rw [hdef]; ring1)

theorem triArea_perm (v : Fin 3 → Fin 2 → K) (σ : Equiv.Perm (Fin 3)) :
    triArea (fun a => v (σ a)) = triArea v := by
  have h01 : σ 0 ≠ σ 1 := fun h => by have := σ.injective h; simp at this
  have h02 : σ 0 ≠ σ 2 := fun h => by have := σ.injective h; simp at this
  have h12 : σ 1 ≠ σ 2 := fun h => by have := σ.injective h; simp at this
  unfold triArea
  simp only []
  congr 1
  generalize σ 0 = x at *
  generalize σ 1 = y at *
  generalize σ 2 = z at *
  fin_cases x <;> fin_cases y <;> fin_cases z <;>
    first
    | exact absurd rfl h01
    | exact absurd rfl h02
    | exact absurd rfl h12
    | rfl
    | (congr 1; simp; ring1)
    | (rw [← abs_neg]; congr 1; simp; ring)

theorem shape_perm (v g : Fin 3 → Fin 2 → K) (h : IsShapeGrads v g) (σ : Equiv.Perm (Fin 3)) :
    IsShapeGrads (fun a => v (σ a)) fun a => g (σ a) := by
  obtain ⟨c, hc⟩ := h
  refine ⟨fun a => c (σ a), fun a b => ?_⟩
  rw [hc (σ a) (σ b)]
  by_cases hab : a = b
  · subst hab; simp
  · rw [if_neg hab, if_neg fun hh => hab (σ.injective hh)]

/-- The load is the one point rule for the area of the triangle. -/
theorem elementLoad_eq (v : Fin 3 → Fin 2 → K) (f : K → K → K) (a : Fin 3) :
    elementLoad v f a = triArea v / 3 * f ((∑ b, v b 0) / 3) ((∑ b, v b 1) / 3) := by
  unfold elementLoad
  rw [area_eq, Fin.sum_univ_three, Fin.sum_univ_three]

/-- **C57.** Owned offsets and ghost offsets decode to the same number. -/
theorem C57_global_dof (g : Int) (h : 0 ≤ g) : globalDof g = g ∧ globalDof (-(g + 1)) = g := by
  unfold globalDof
  constructor
  · rw [if_neg (by omega)]
  · rw [if_pos (by omega)]; omega

theorem assembled_from (f : K → K → K) (l : List (Contribution K)) (s : Sys K) :
    (l.foldl (addContribution f) s).mat = (fun i j => s.mat i j + (l.map fun c =>
      ∑ a, ∑ b, if c.dofs a = i ∧ c.dofs b = j then elementStiffness c.xy a b else 0).sum) ∧
    (l.foldl (addContribution f) s).rhs = (fun i => s.rhs i + (l.map fun c =>
      ∑ a, if c.dofs a = i then elementLoad c.xy f a else 0).sum) := by
  induction l generalizing s with
  | nil => constructor <;> funext <;> simp
  | cons c l ih =>
    rw [List.foldl_cons]
    obtain ⟨h1, h2⟩ := ih (addContribution f s c)
    rw [h1, h2]
    constructor
    · funext i j
      rw [List.map_cons, List.sum_cons, ← add_assoc]
      rfl
    · funext i
      rw [List.map_cons, List.sum_cons, ← add_assoc]
      rfl

theorem forall2_sum {α β : Type} (R : α → β → Prop) (p : α → K) (q : β → K) {l : List α} {m : List β}
    (h : List.Forall₂ R l m) (hpq : ∀ a ∈ l, ∀ b ∈ m, R a b → p a = q b) : (l.map p).sum = (m.map q).sum := by
  induction h with
  | nil => rfl
  | cons hab _ ih =>
    rw [List.map_cons, List.map_cons, List.sum_cons, List.sum_cons,
      hpq _ (List.mem_cons_self ..) _ (List.mem_cons_self ..) hab,
      ih fun a ha b hb => hpq a (List.mem_cons_of_mem _ ha) b (List.mem_cons_of_mem _ hb)]

variable {coords : Nat → Fin 2 → K} {N : Nat} {cells : List (Fin 3 → Nat)} {num : Nat → Int}
  {glob : Rank K → Nat → Nat} {ranks : List (Rank K)}

/-- The contribution of a triangle given by serial vertex numbers. -/
def triContribution (coords : Nat → Fin 2 → K) (num : Nat → Int) (tri : Fin 3 → Nat) : Contribution K :=
  ⟨fun a => num (tri a), fun a => coords (tri a)⟩

theorem vertex_dof (hD : IsDistribution coords N cells num glob ranks) (r : Rank K) (hr : r ∈ ranks) (l : Nat)
    (lv : LVertex K) (h : r.verts[l]? = some lv) : globalDof lv.off = num (glob r l) := by
  obtain ⟨hN, _, ho⟩ := hD.verts r hr l lv h
  rw [ho]
  split
  · exact (C57_global_dof _ (hD.num_nonneg _ hN)).1
  · exact (C57_global_dof _ (hD.num_nonneg _ hN)).2

theorem contribution_eq (hD : IsDistribution coords N cells num glob ranks) (r : Rank K) (hr : r ∈ ranks)
    (cell : List Nat) (hc : cell ∈ r.cells) :
    contribution r cell = .ok (triContribution coords num fun a => glob r (cell.getD a.val 0)) := by
  obtain ⟨h3, hlt⟩ := hD.triangles r hr cell hc
  have hget : ∀ k < 3, ∃ lv, r.verts[cell.getD k 0]? = some lv := by
    intro k hk
    have hk' : k < cell.length := by omega
    have : cell.getD k 0 < r.verts.length := by
      rw [List.getD_eq_getElem _ _ hk']
      exact hlt _ (List.getElem_mem hk')
    exact ⟨_, List.getElem?_eq_getElem this⟩
  obtain ⟨a, ha⟩ := hget 0 (by omega)
  obtain ⟨b, hb⟩ := hget 1 (by omega)
  obtain ⟨c, hcc⟩ := hget 2 (by omega)
  unfold contribution
  rw [if_pos h3, ha, hb, hcc]
  dsimp only
  unfold triContribution
  congr 2
  · funext k
    fin_cases k
    · exact vertex_dof hD r hr _ a ha
    · exact vertex_dof hD r hr _ b hb
    · exact vertex_dof hD r hr _ c hcc
  · funext k
    fin_cases k
    · exact (hD.verts r hr _ a ha).2.1
    · exact (hD.verts r hr _ b hb).2.1
    · exact (hD.verts r hr _ c hcc).2.1

theorem contributions_eq (hD : IsDistribution coords N cells num glob ranks) :
    ranks.mapM contributions = .ok (ranks.map fun r => r.cells.map fun cell =>
      triContribution coords num fun a => glob r (cell.getD a.val 0)) :=
  mapM_ok_of_forall _ _ _ fun r hr => mapM_ok_of_forall _ _ _ fun cell hc => contribution_eq hD r hr cell hc

theorem forall2_mem_left {α β : Type} (R : α → β → Prop) {l : List α} {m : List β} (h : List.Forall₂ R l m) :
    ∀ a ∈ l, ∃ b ∈ m, R a b := by
  induction h with
  | nil => intro a ha; cases ha
  | cons hab _ ih =>
    intro a ha
    rcases List.mem_cons.mp ha with rfl | ha
    · exact ⟨_, List.mem_cons_self .., hab⟩
    · obtain ⟨b, hb, h⟩ := ih a ha
      exact ⟨b, List.mem_cons_of_mem _ hb, h⟩

/-- **C57.** The assembled matrix and vector do not depend on the partition, on the order of the vertices in
the local cells or on the order in which the contributions arrive: they are the serial ones. -/
theorem C57_assembly (hD : IsDistribution coords N cells num glob ranks)
    (g : (Fin 3 → Nat) → Fin 3 → Fin 2 → K) (hg : ∀ c ∈ cells, IsShapeGrads (fun a => coords (c a)) (g c))
    (f : K → K → K) :
    ∃ css, ranks.mapM contributions = .ok css ∧ ∀ sched : List (Contribution K), sched.Perm css.flatten →
      (∀ v < N, ∀ w < N, (assembled f sched).mat (num v) (num w) = serialMat coords cells g v w) ∧
      ∀ v < N, (assembled f sched).rhs (num v) = serialRhs coords cells f v := by
  refine ⟨_, contributions_eq hD, fun sched hs => ?_⟩
  obtain ⟨M, hM, hF⟩ := hD.cover
  have hlist : (ranks.map fun r => r.cells.map fun cell =>
      triContribution coords num fun a => glob r (cell.getD a.val 0)).flatten =
      (ranks.flatMap fun r => r.cells.map fun cell a => glob r (cell.getD (a : Fin 3).val 0)).map
        (triContribution coords num) := by
    rw [List.map_flatMap, ← List.flatMap_def]
    simp only [List.map_map]
    rfl
  rw [hlist] at hs
  have hlt : ∀ tri ∈ M, ∀ a, tri a < N := fun tri ht => hD.cells_lt tri (hM.mem_iff.mp ht)
  have hsame : ∀ tri tri' : Fin 3 → Nat, SameTriangle tri tri' → (∀ a, tri' a < N) → ∀ a, tri a < N := by
    rintro tri tri' ⟨σ, hσ⟩ h a
    rw [hσ a]; exact h _
  have hiff : ∀ v < N, ∀ w < N, (num v = num w ↔ v = w) := fun v hv w hw =>
    ⟨hD.num_inj v hv w hw, fun h => by rw [h]⟩
  have hasm := assembled_from f sched ⟨fun _ _ => 0, fun _ => 0⟩
  constructor
  · intro v hv w hw
    have e : (assembled f sched).mat (num v) (num w) = 0 + (sched.map fun c =>
      ∑ a, ∑ b, if c.dofs a = num v ∧ c.dofs b = num w then elementStiffness c.xy a b else 0).sum :=
      congrFun (congrFun hasm.1 (num v)) (num w)
    rw [e, zero_add, (hs.map _).sum_eq, List.map_map]
    unfold serialMat
    rw [← (hM.map _).sum_eq]
    refine forall2_sum SameTriangle _ _ hF ?_
    rintro tri - tri' ht' hst
    have h' := hlt tri' ht'
    have h := hsame _ _ hst h'
    obtain ⟨σ, hσ⟩ := hst
    have htri : tri = fun a => tri' (σ a) := funext hσ
    have hgs := hg tri' (hM.mem_iff.mp ht')
    subst htri
    refine Eq.trans ?_ (Equiv.sum_comp σ _)
    refine Finset.sum_congr rfl fun a _ => ?_
    refine Eq.trans ?_ (Equiv.sum_comp σ _)
    refine Finset.sum_congr rfl fun b _ => ?_
    refine if_congr (and_congr (hiff _ (h a) v hv) (hiff _ (h b) w hw)) ?_ rfl
    have hsp := shape_perm _ _ hgs σ
    exact (C57_element _ _ hsp a b).trans (by rw [triArea_perm (fun a => coords (tri' a)) σ])
  · intro v hv
    have e : (assembled f sched).rhs (num v) = 0 + (sched.map fun c =>
      ∑ a, if c.dofs a = num v then elementLoad c.xy f a else 0).sum := congrFun hasm.2 (num v)
    rw [e, zero_add, (hs.map _).sum_eq, List.map_map]
    unfold serialRhs
    rw [← (hM.map _).sum_eq]
    refine forall2_sum SameTriangle _ _ hF ?_
    rintro tri - tri' ht' hst
    have h' := hlt tri' ht'
    have h := hsame _ _ hst h'
    obtain ⟨σ, hσ⟩ := hst
    have htri : tri = fun a => tri' (σ a) := funext hσ
    subst htri
    refine Eq.trans ?_ (Equiv.sum_comp σ _)
    refine Finset.sum_congr rfl fun a _ => ?_
    refine if_congr (hiff _ (h a) v hv) ?_ rfl
    refine (elementLoad_eq _ f a).trans ?_
    have e0 := Equiv.sum_comp σ (fun b => coords (tri' b) 0)
    have e1 := Equiv.sum_comp σ (fun b => coords (tri' b) 1)
    rw [← e0, ← e1, ← triArea_perm (fun a => coords (tri' a)) σ]
    rfl

theorem mem_boundaryDofs (hD : IsDistribution coords N cells num glob ranks) (tol : K) (v : Nat) (hv : v < N) :
    num v ∈ (ranks.map (boundaryDofs tol)).flatten ↔ onBoundary tol (coords v) = true := by
  rw [List.mem_flatten]
  constructor
  · rintro ⟨l, hl, hm⟩
    obtain ⟨r, hr, rfl⟩ := List.mem_map.mp hl
    unfold boundaryDofs at hm
    obtain ⟨lv, hlv, he⟩ := List.mem_map.mp hm
    obtain ⟨hmem, hp⟩ := List.mem_filter.mp hlv
    obtain ⟨k, hk, hkk⟩ := List.getElem_of_mem hmem
    have hs : r.verts[k]? = some lv := by rw [List.getElem?_eq_getElem hk, hkk]
    have h1 := hD.verts r hr k lv hs
    rw [vertex_dof hD r hr k lv hs] at he
    have := hD.num_inj _ h1.1 v hv he
    rw [Bool.and_eq_true, Bool.and_eq_true] at hp
    rw [← this, ← h1.2.1]
    exact hp.1.1
  · intro hb
    obtain ⟨r, hr, h1, h2, l, hl, rfl⟩ := hD.owner v hv
    refine ⟨_, List.mem_map_of_mem hr, ?_⟩
    have hs := List.getElem?_eq_getElem hl
    have h3 := hD.verts r hr l _ hs
    have h4 := vertex_dof hD r hr l _ hs
    unfold boundaryDofs
    refine List.mem_map.mpr ⟨r.verts[l], List.mem_filter.mpr ⟨List.getElem_mem hl, ?_⟩, h4⟩
    rw [h4, h3.2.1]
    simp [hb, h1, h2]

/-- When the system is built, boundary rows are identity rows with zero right-hand side, all other
rows are the serial ones, for every partition, numbering and order of arrival. -/
theorem system_rows (hD : IsDistribution coords N cells num glob ranks)
    (g : (Fin 3 → Nat) → Fin 3 → Fin 2 → K) (hg : ∀ c ∈ cells, IsShapeGrads (fun a => coords (c a)) (g c))
    (f : K → K → K) (tol : K) :
    ∃ css, ranks.mapM contributions = .ok css ∧ ∀ sched : List (Contribution K), sched.Perm css.flatten →
      ∀ s, buildSystem f tol ranks sched = .ok s → ∀ v < N,
        (∀ w < N, s.mat (num v) (num w) =
          if onBoundary tol (coords v) then (if v = w then 1 else 0) else serialMat coords cells g v w) ∧
        s.rhs (num v) = if onBoundary tol (coords v) then 0 else serialRhs coords cells f v := by
  obtain ⟨css, hcss, h⟩ := C57_assembly hD g hg f
  refine ⟨css, hcss, fun sched hs s hb v hv => ?_⟩
  obtain ⟨hm, hr⟩ := h sched hs
  unfold buildSystem at hb
  dsimp only at hb
  split at hb
  · cases hb
  · cases hb
    unfold applyBC
    simp only [mem_boundaryDofs hD tol v hv]
    constructor
    · intro w hw
      split
      · by_cases hvw : v = w
        · subst hvw; simp
        · rw [if_neg fun hh => hvw (hD.num_inj v hv w hw hh), if_neg hvw]
      · exact hm v hv w hw
    · split
      · rfl
      · exact hr v hv

/-- `zeroRows` is collective but is called only by ranks owning a boundary vertex: the system
is built exactly if all ranks own one or none does. -/
theorem system_collective (hD : IsDistribution coords N cells num glob ranks) (f : K → K → K) (tol : K)
    (sched : List (Contribution K)) :
    (∃ s, buildSystem f tol ranks sched = .ok s) ↔
    ((∀ r ∈ ranks, ∃ l < r.verts.length, onBoundary tol (coords (glob r l)) = true ∧
        r.rstart ≤ num (glob r l) ∧ num (glob r l) < r.rend) ∨
      ∀ v < N, onBoundary tol (coords v) = false) := by
  have hne : ∀ r ∈ ranks, boundaryDofs tol r ≠ [] ↔ ∃ l < r.verts.length,
      onBoundary tol (coords (glob r l)) = true ∧ r.rstart ≤ num (glob r l) ∧ num (glob r l) < r.rend := by
    intro r hr
    constructor
    · intro h
      obtain ⟨x, hx⟩ := List.exists_mem_of_ne_nil _ h
      unfold boundaryDofs at hx
      obtain ⟨lv, hlv, he⟩ := List.mem_map.mp hx
      obtain ⟨hmem, hp⟩ := List.mem_filter.mp hlv
      obtain ⟨k, hk, hkk⟩ := List.getElem_of_mem hmem
      have hs : r.verts[k]? = some lv := by rw [List.getElem?_eq_getElem hk, hkk]
      rw [vertex_dof hD r hr k lv hs, (hD.verts r hr k lv hs).2.1] at hp
      simp only [Bool.and_eq_true, decide_eq_true_eq] at hp
      exact ⟨k, hk, hp.1.1, hp.1.2, hp.2⟩
    · rintro ⟨l, hl, hb, h1, h2⟩ he
      have hs := List.getElem?_eq_getElem hl
      have h3 := hD.verts r hr l _ hs
      have h4 := vertex_dof hD r hr l _ hs
      have : globalDof r.verts[l].off ∈ boundaryDofs tol r := by
        unfold boundaryDofs
        refine List.mem_map.mpr ⟨r.verts[l], List.mem_filter.mpr ⟨List.getElem_mem hl, ?_⟩, rfl⟩
        rw [h4, h3.2.1]
        simp [hb, h1, h2]
      rw [he] at this
      cases this
  have hnone : (∀ v < N, onBoundary tol (coords v) = false) ↔ ∀ r ∈ ranks, boundaryDofs tol r = [] := by
    constructor
    · intro h r hr
      by_contra hc
      obtain ⟨l, hl, hb, -⟩ := (hne r hr).mp hc
      rw [h _ (hD.verts r hr l _ (List.getElem?_eq_getElem hl)).1] at hb
      cases hb
    · intro h v hv
      by_contra hc
      rw [Bool.not_eq_false] at hc
      obtain ⟨l, hl, hm⟩ := List.mem_flatten.mp ((mem_boundaryDofs hD tol v hv).mpr hc)
      obtain ⟨r, hr, rfl⟩ := List.mem_map.mp hl
      rw [h r hr] at hm
      cases hm
  have hall : (∀ r ∈ ranks, ∃ l < r.verts.length, onBoundary tol (coords (glob r l)) = true ∧
        r.rstart ≤ num (glob r l) ∧ num (glob r l) < r.rend) ↔ ∀ r ∈ ranks, boundaryDofs tol r ≠ [] :=
    ⟨fun h r hr => (hne r hr).mpr (h r hr), fun h r hr => (hne r hr).mp (h r hr)⟩
  rw [hnone, hall]
  unfold buildSystem
  dsimp only
  constructor
  · rintro ⟨s, hs⟩
    split at hs
    · cases hs
    · rename_i hc
      by_cases hx : ∃ l ∈ ranks.map (boundaryDofs tol), l = []
      · right
        intro r hr
        by_contra hn
        exact hc ⟨hx, _, List.mem_map_of_mem hr, hn⟩
      · left
        intro r hr hn
        exact hx ⟨_, List.mem_map_of_mem hr, hn⟩
  · intro h
    rw [if_neg]
    · exact ⟨_, rfl⟩
    · rintro ⟨⟨l, hl, hle⟩, l', hl', hle'⟩
      obtain ⟨r, hr, rfl⟩ := List.mem_map.mp hl
      obtain ⟨r', hr', rfl⟩ := List.mem_map.mp hl'
      rcases h with h | h
      · exact h r hr hle
      · exact hle' (h r' hr')

theorem onBoundary_iff (tol : K) (xy : Fin 2 → K) : onBoundary tol xy = true ↔ NearSide tol xy := by
  unfold onBoundary NearSide
  rw [Fin.exists_fin_two]
  simp only [Bool.or_eq_true, decide_eq_true_eq]
  tauto

/-- **C57.** When the system is built, the rows of vertices at the sides of the unit square are identity rows with
zero right-hand side, all other rows are the serial ones, for every partition, numbering and order of arrival. -/
theorem C57_system (hD : IsDistribution coords N cells num glob ranks)
    (g : (Fin 3 → Nat) → Fin 3 → Fin 2 → K) (hg : ∀ c ∈ cells, IsShapeGrads (fun a => coords (c a)) (g c))
    (f : K → K → K) (tol : K) :
    ∃ css, ranks.mapM contributions = .ok css ∧ ∀ sched : List (Contribution K), sched.Perm css.flatten →
      ∀ s, buildSystem f tol ranks sched = .ok s → ∀ v < N,
        (NearSide tol (coords v) → s.rhs (num v) = 0 ∧ ∀ w < N, s.mat (num v) (num w) = if v = w then 1 else 0) ∧
        (¬NearSide tol (coords v) → s.rhs (num v) = serialRhs coords cells f v ∧
          ∀ w < N, s.mat (num v) (num w) = serialMat coords cells g v w) := by
  obtain ⟨css, hcss, h⟩ := system_rows hD g hg f tol
  refine ⟨css, hcss, fun sched hs s hb v hv => ?_⟩
  obtain ⟨h1, h2⟩ := h sched hs s hb v hv
  constructor
  · intro hn
    have hn' := (onBoundary_iff tol _).2 hn
    refine ⟨by rw [h2, if_pos hn'], fun w hw => by rw [h1 w hw, if_pos hn']⟩
  · intro hn
    have hn' : ¬onBoundary tol (coords v) = true := fun h => hn ((onBoundary_iff tol _).1 h)
    refine ⟨by rw [h2, if_neg hn'], fun w hw => by rw [h1 w hw, if_neg hn']⟩

/-- **C57 (finding).** `zeroRows` is collective but is called only by ranks owning a boundary vertex: the system
is built exactly if all ranks own one or none does. -/
theorem C57_collective (hD : IsDistribution coords N cells num glob ranks) (f : K → K → K) (tol : K)
    (sched : List (Contribution K)) :
    (∃ s, buildSystem f tol ranks sched = .ok s) ↔
    ((∀ r ∈ ranks, ∃ l < r.verts.length, NearSide tol (coords (glob r l)) ∧
        r.rstart ≤ num (glob r l) ∧ num (glob r l) < r.rend) ∨
      ∀ v < N, ¬NearSide tol (coords v)) := by
  rw [system_collective hD]
  simp only [← onBoundary_iff, Bool.not_eq_true]

/-! ### Two triangles of the unit square on two ranks -/

def exCoords : Nat → Fin 2 → ℚ := fun v => [![0, 0], ![0, 1], ![1, 0], ![1, 1]].getD v ![0, 0]

def exRanks : List (Rank ℚ) :=
  [⟨[⟨1, ![1, 0]⟩, ⟨0, ![0, 0]⟩, ⟨2, ![1, 1]⟩], [[2, 1, 0]], 0, 3⟩,
   ⟨[⟨-1, ![0, 0]⟩, ⟨-3, ![1, 1]⟩, ⟨3, ![0, 1]⟩], [[0, 1, 2]], 3, 4⟩]

def exNum : Nat → Int := fun v => [0, 3, 1, 2].getD v 4

def exGlob : Rank ℚ → Nat → Nat := fun r l => if r.rstart = 0 then [2, 0, 3].getD l 0 else [0, 3, 1].getD l 0

theorem ex_distribution :
    IsDistribution exCoords 4 [![0, 2, 3], ![0, 3, 1]] exNum exGlob exRanks where
  cells_lt := by decide
  num_nonneg := by decide
  num_inj := by decide
  verts := by
    intro r hr l lv h
    simp only [exRanks, List.mem_cons, List.not_mem_nil, or_false] at hr
    rcases hr with rfl | rfl <;> rcases l with _ | _ | _ | l <;> simp at h <;> subst h <;>
      simp [exGlob, exNum, exCoords]
  triangles := by
    intro r hr cell hc
    simp only [exRanks, List.mem_cons, List.not_mem_nil, or_false] at hr
    rcases hr with rfl | rfl <;> simp at hc <;> subst hc <;> simp
  cover := by
    refine ⟨[![0, 2, 3], ![0, 3, 1]], List.Perm.refl _, ?_⟩
    refine List.Forall₂.cons ⟨Equiv.swap 0 1 * Equiv.swap 0 2, ?_⟩ (List.Forall₂.cons ⟨1, ?_⟩ List.Forall₂.nil) <;>
      intro a <;> fin_cases a <;> simp [exGlob] <;> decide
  owner := by
    intro v hv
    have h0 : exRanks[0] ∈ exRanks := List.getElem_mem _
    have h1 : exRanks[1] ∈ exRanks := List.getElem_mem _
    interval_cases v
    · exact ⟨_, h0, by decide, by decide, 1, by decide, by decide⟩
    · exact ⟨_, h1, by decide, by decide, 2, by decide, by decide⟩
    · exact ⟨_, h0, by decide, by decide, 0, by decide, by decide⟩
    · exact ⟨_, h0, by decide, by decide, 2, by decide, by decide⟩

example : triArea (fun a => exCoords ((![0, 2, 3] : Fin 3 → Nat) a)) = 1 / 2 := by
  simp [triArea, exCoords]

end Parallel
end JaxFem
