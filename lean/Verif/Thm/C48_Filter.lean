import Verif.Model.Filter
import Verif.Spec.Filter
import Mathlib.Tactic.Linarith
import Mathlib.Tactic.Positivity
import Mathlib.Algebra.BigOperators.Field
import Mathlib.Algebra.Order.BigOperators.Group.Finset
import Mathlib.Algebra.Order.BigOperators.Ring.Finset
import Mathlib.Data.Fintype.Card
import Mathlib.Data.List.Perm.Subperm
import Mathlib.Analysis.Calculus.FDeriv.Add
import Mathlib.Analysis.Calculus.FDeriv.Mul
import Mathlib.Analysis.Calculus.FDeriv.Pi
import Verif.Thm.C38_Adjoint

/-!
# C48, C49: density and sensitivity filters
-/

namespace JaxFem
namespace MMA

open scoped BigOperators

variable {n dim : Nat}

/-! ### Helper lemmas -/

theorem filterWeight_nonneg (r d : ℝ) : 0 ≤ filterWeight r d := by
  unfold filterWeight
  split_ifs with h
  · exact h.le
  · exact le_refl _

theorem filterWeight_eq (r d : ℝ) : filterWeight r d = max (r - d) 0 := by
  unfold filterWeight
  split_ifs with h
  · exact (max_eq_left h.le).symm
  · exact (max_eq_right (not_lt.1 h)).symm

theorem sum_ite_nodup (l : List (Nat × ℝ)) (f : ℝ → ℝ) (j : Nat) (d : ℝ)
    (hnd : (l.map Prod.fst).Nodup) (hd : ∀ p ∈ l, p.1 = j → p.2 = d) :
    (l.map fun p => if p.1 = j then f p.2 else 0).sum = if j ∈ l.map Prod.fst then f d else 0 := by
  induction l with
  | nil => simp
  | cons p l ih =>
    rw [List.map_cons, List.nodup_cons] at hnd
    rw [List.map_cons, List.sum_cons, ih hnd.2 fun q hq => hd q (List.mem_cons_of_mem _ hq), List.map_cons]
    simp only [List.mem_cons (a := j)]
    by_cases h : p.1 = j
    · have hj : j ∉ l.map Prod.fst := h ▸ hnd.1
      rw [if_pos h, if_neg hj, if_pos (Or.inl h.symm), hd p (List.mem_cons_self ..) h, add_zero]
    · rw [if_neg h, zero_add]
      by_cases hj : j ∈ l.map Prod.fst
      · rw [if_pos hj, if_pos (Or.inr hj)]
      · rw [if_neg hj, if_neg]
        rintro (h' | h')
        · exact h h'.symm
        · exact hj h'

/-- With at least `k` points no neighbour is missing. -/
theorem kd_no_missing {d : Fin n → ℝ} {k : Nat} {res : List (Nat × ℝ)} (h : KdAnswer d k res) (hk : k ≤ n) :
    ∀ p ∈ res, p.1 < n := by
  by_contra hc
  push Not at hc
  obtain ⟨p, hp, hpn⟩ := hc
  have hall : ∀ j : Fin n, j.1 ∈ res.map Prod.fst := by
    intro j
    by_contra hj
    exact absurd (h.nearest j hj p hp).1 (by omega)
  set real := (res.map Prod.fst).filter fun a => decide (a < n) with hreal
  have h1 : (List.range n).Subperm real := by
    apply List.subperm_of_subset List.nodup_range
    intro a ha
    rw [List.mem_range] at ha
    exact List.mem_filter.2 ⟨hall ⟨a, ha⟩, by simpa using ha⟩
  have h2 : n ≤ real.length := by simpa using h1.length_le
  have h3 : real.length < (res.map Prod.fst).length := by
    rw [hreal]
    apply List.length_filter_lt_length_iff_exists.2
    exact ⟨p.1, List.mem_map_of_mem hp, by simpa using hpn⟩
  rw [List.length_map, h.length] at h3
  omega

/-- With fewer than `k` points some neighbour is missing. -/
theorem kd_missing {d : Fin n → ℝ} {k : Nat} {res : List (Nat × ℝ)} (h : KdAnswer d k res) (hk : n < k) :
    ∃ p ∈ res, p.1 = n := by
  by_contra hc
  push Not at hc
  have hlt : ∀ p ∈ res, p.1 < n := fun p hp => lt_of_le_of_ne (h.index p hp) (hc p hp)
  have hf : ((res.map Prod.fst).filter fun a => decide (a < n)) = res.map Prod.fst := by
    rw [List.filter_eq_self]
    intro a ha
    obtain ⟨p, hp, rfl⟩ := List.mem_map.1 ha
    simpa using hlt p hp
  have hnd := h.nodup
  rw [hf] at hnd
  have : (res.map Prod.fst).Subperm (List.range n) := by
    apply List.subperm_of_subset hnd
    intro a ha
    obtain ⟨p, hp, rfl⟩ := List.mem_map.1 ha
    exact List.mem_range.2 (hlt p hp)
  have := this.length_le
  rw [List.length_map, h.length, List.length_range] at this
  omega

/-! ### C48 -/

/-- Entries of the filter matrix when at least 20 design cells exist. -/
theorem computeFilter_entries (d : Fin n → Fin n → ℝ) (query : Fin n → List (Nat × ℝ)) (rmin : ℝ)
    (hq : ∀ i, KdAnswer (d i) numNbs (query i)) (hn : numNbs ≤ n) :
    ∃ H, computeFilter query rmin = .ok (H, fun i => ∑ j, H i j) ∧
      ∀ i j, H i j = if j.1 ∈ (query i).map Prod.fst then max (rmin - d i j) 0 else 0 := by
  have hall : ((List.finRange n).all fun i => (query i).all fun p => decide (p.1 < n)) = true := by
    rw [List.all_eq_true]
    intro i _
    rw [List.all_eq_true]
    intro p hp
    simpa using kd_no_missing (hq i) hn p hp
  refine ⟨_, by rw [computeFilter, if_pos hall], ?_⟩
  intro i j
  have hnd : ((query i).map Prod.fst).Nodup := by
    have := (hq i).nodup
    rwa [List.filter_eq_self.2] at this
    intro a ha
    obtain ⟨p, hp, rfl⟩ := List.mem_map.1 ha
    simpa using kd_no_missing (hq i) hn p hp
  have := sum_ite_nodup (query i) (filterWeight rmin) j.1 (d i j) hnd (by
    intro p hp e
    have h := (hq i).dist p hp (e ▸ j.2)
    rw [h]
    congr 1
    exact Fin.ext e)
  rw [← filterWeight_eq]
  exact this

/-- **C48 (too few cells).** With fewer than 20 design cells the filter cannot be built: the missing
neighbours have index `n`, and `np.take` raises. -/
theorem C48_too_few (d : Fin n → Fin n → ℝ) (query : Fin n → List (Nat × ℝ)) (rmin : ℝ)
    (hq : ∀ i, KdAnswer (d i) 20 (query i)) (h0 : 0 < n) (hn : n < 20) :
    computeFilter query rmin = .error .index := by
  have hall : ¬((List.finRange n).all fun i => (query i).all fun p => decide (p.1 < n)) = true := by
    rw [List.all_eq_true]
    intro h
    obtain ⟨p, hp, e⟩ := kd_missing (hq ⟨0, h0⟩) hn
    have := List.all_eq_true.1 (h ⟨0, h0⟩ (List.mem_finRange _)) p hp
    rw [e] at this
    simp at this
  rw [computeFilter, if_neg hall]

/-- **C48 (weights).** With at least 20 design cells the filter is built; its entries are nonnegative, the
row sums positive, and an entry is either the cone weight `max(rmin - distance, 0)` or 0. If around every
cell at most 20 cells are closer than `rmin`, every entry is the cone weight, so the matrix is symmetric. -/
theorem C48_weights (c : Fin n → Fin dim → ℝ) (query : Fin n → List (Nat × ℝ)) (rmin : ℝ) (hr : 0 < rmin)
    (hq : ∀ i, KdAnswer (centroidDist c i) 20 (query i)) (hn : 20 ≤ n) :
    ∃ H Hs, computeFilter query rmin = .ok (H, Hs) ∧ (∀ i j, 0 ≤ H i j) ∧ (∀ i, 0 < Hs i) ∧
      (∀ i, Hs i = ∑ j, H i j) ∧ (∀ i j, H i j = max (rmin - centroidDist c i j) 0 ∨ H i j = 0) ∧
      ((∀ i, (Finset.univ.filter fun j => centroidDist c i j < rmin).card ≤ 20) →
        (∀ i j, H i j = max (rmin - centroidDist c i j) 0) ∧ ∀ i j, H i j = H j i) := by
  obtain ⟨H, h1, h2⟩ := computeFilter_entries (centroidDist c) query rmin hq hn
  have hnn : ∀ i j, 0 ≤ H i j := by
    intro i j
    rw [h2]
    split_ifs
    · exact le_max_right _ _
    · exact le_refl _
  have hself : ∀ i, centroidDist c i i = 0 := fun i => by simp [centroidDist]
  have hdnn : ∀ i j, 0 ≤ centroidDist c i j := fun i j => Real.sqrt_nonneg _
  refine ⟨H, _, h1, hnn, ?_, fun _ => rfl, ?_, ?_⟩
  · intro i
    have hex : ∃ j, 0 < H i j := by
      by_cases hi : i.1 ∈ (query i).map Prod.fst
      · refine ⟨i, ?_⟩
        rw [h2, if_pos hi, hself]
        exact lt_max_of_lt_left (by linarith)
      · have hne : query i ≠ [] := by
          intro he
          have := (hq i).length
          rw [he] at this
          cases this
        obtain ⟨p, hp⟩ := List.exists_mem_of_ne_nil _ hne
        obtain ⟨hpn, hpd⟩ := (hq i).nearest i hi p hp
        refine ⟨⟨p.1, hpn⟩, ?_⟩
        rw [h2, if_pos (List.mem_map_of_mem hp)]
        have := (hq i).dist p hp hpn
        rw [hself] at hpd
        exact lt_max_of_lt_left (by linarith)
    obtain ⟨j, hj⟩ := hex
    exact Finset.sum_pos' (fun j _ => hnn i j) ⟨j, Finset.mem_univ _, hj⟩
  · intro i j
    rw [h2]
    split_ifs
    · exact Or.inl rfl
    · exact Or.inr rfl
  · intro hcard
    have hfull : ∀ i j, H i j = max (rmin - centroidDist c i j) 0 := by
      intro i j
      rw [h2]
      split_ifs with hj
      · rfl
      · by_contra hne
        have hlt : centroidDist c i j < rmin := by
          by_contra hge
          exact hne (max_eq_right (by linarith)).symm
        have hnd : ((query i).map Prod.fst).Nodup := by
          have := (hq i).nodup
          rwa [List.filter_eq_self.2] at this
          intro a ha
          obtain ⟨p, hp, rfl⟩ := List.mem_map.1 ha
          simpa using kd_no_missing (hq i) hn p hp
        have hall : ∀ p ∈ query i, ∃ h : p.1 < n, centroidDist c i ⟨p.1, h⟩ < rmin := by
          intro p hp
          obtain ⟨h, hd⟩ := (hq i).nearest j hj p hp
          exact ⟨h, by rw [← (hq i).dist p hp h]; linarith⟩
        have hsub : (insert j.1 ((query i).map Prod.fst).toFinset) ⊆
            (Finset.univ.filter fun j => centroidDist c i j < rmin).map Fin.valEmbedding := by
          intro a ha
          rcases Finset.mem_insert.1 ha with rfl | ha
          · exact Finset.mem_map.2 ⟨j, Finset.mem_filter.2 ⟨Finset.mem_univ _, hlt⟩, rfl⟩
          · obtain ⟨p, hp, rfl⟩ := List.mem_map.1 (List.mem_toFinset.1 ha)
            obtain ⟨h, hd⟩ := hall p hp
            exact Finset.mem_map.2 ⟨⟨p.1, h⟩, Finset.mem_filter.2 ⟨Finset.mem_univ _, hd⟩, rfl⟩
        have := Finset.card_le_card hsub
        rw [Finset.card_map, Finset.card_insert_of_notMem (by simpa using hj), List.toFinset_card_of_nodup hnd,
          List.length_map, (hq i).length] at this
        have := hcard i
        omega
    refine ⟨hfull, fun i j => ?_⟩
    rw [hfull, hfull]
    have : centroidDist c i j = centroidDist c j i := by
      unfold centroidDist
      congr 1
      refine Finset.sum_congr rfl fun k _ => ?_
      ring
    rw [this]

/-- **C48 (radius).** The radius is positive for a mesh with positive volume. -/
theorem C48_radius (V : ℝ) (numCells dim : Nat) (hV : 0 < V) (hc : 0 < numCells) :
    0 < filterRadius V numCells dim := by
  unfold filterRadius
  have : (0 : ℝ) < numCells := by exact_mod_cast hc
  positivity

/-- **C48 (averaging).** For nonnegative weights whose row sums `Hs` are positive (as produced by
`compute_filter_kd_tree`, `C48_weights`), the density filter keeps constants and stays between any bounds
of the input. -/
theorem C48_average (H : Fin n → Fin n → ℝ) (Hs : Fin n → ℝ) (hH : ∀ i j, 0 ≤ H i j) (hs : ∀ i, Hs i = ∑ j, H i j)
    (hpos : ∀ i, 0 < Hs i) :
    (∀ a : ℝ, applyDensityFilter H Hs (fun _ => a) = fun _ => a) ∧
    ∀ (rho : Fin n → ℝ) (lo hi : ℝ), (∀ j, lo ≤ rho j ∧ rho j ≤ hi) →
      ∀ i, lo ≤ applyDensityFilter H Hs rho i ∧ applyDensityFilter H Hs rho i ≤ hi := by
  constructor
  · intro a
    funext i
    unfold applyDensityFilter
    rw [← Finset.sum_mul, ← hs, mul_div_assoc, mul_comm, div_mul_cancel₀ _ (hpos i).ne']
  · intro rho lo hi hb i
    unfold applyDensityFilter
    rw [le_div_iff₀ (hpos i), div_le_iff₀ (hpos i), hs i, Finset.mul_sum, Finset.mul_sum]
    constructor
    · refine Finset.sum_le_sum fun j _ => ?_
      nlinarith [hH i j, (hb j).1]
    · refine Finset.sum_le_sum fun j _ => ?_
      nlinarith [hH i j, (hb j).2]

/-! ### C49 -/

/-- **C49 (adjoint).** For a symmetric weight matrix and densities at least `1e-3`, the sensitivity filter
is the transpose of the density filter: `⟨S dJ, v⟩ = ⟨dJ, D v⟩` for all vectors. -/
theorem C49_adjoint (H : Fin n → Fin n → ℝ) (Hs : Fin n → ℝ) (hsym : ∀ i j, H i j = H j i) (rho : Fin n → ℝ)
    (hrho : ∀ j, 0.001 ≤ rho j) (dJ v : Fin n → ℝ) :
    ∑ i, applySensitivityFilter H Hs rho dJ i * v i = ∑ j, dJ j * applyDensityFilter H Hs v j := by
  unfold applySensitivityFilter applyDensityFilter
  simp only [Finset.sum_mul, Finset.mul_sum, Finset.sum_div]
  rw [Finset.sum_comm]
  refine Finset.sum_congr rfl fun j _ => Finset.sum_congr rfl fun i _ => ?_
  have h0 : rho j ≠ 0 := by have := hrho j; intro h; norm_num [h] at this
  rw [max_eq_right (hrho j), mul_div_cancel_left₀ _ h0, hsym i j]
  ring

/-- **C49 (gradient).** Hence it is the gradient of `J` composed with the density filter, for every `J`
that is differentiable at the filtered density with partial derivatives `dJ`. -/
theorem C49_gradient (H : Fin n → Fin n → ℝ) (Hs : Fin n → ℝ) (hsym : ∀ i j, H i j = H j i) (rho : Fin n → ℝ)
    (hrho : ∀ j, 0.001 ≤ rho j) (J : (Fin n → ℝ) → ℝ) (dJ : Fin n → ℝ)
    (hJ : HasFDerivAt J (dotCLM dJ) (applyDensityFilter H Hs rho)) :
    HasFDerivAt (fun r => J (applyDensityFilter H Hs r)) (dotCLM (applySensitivityFilter H Hs rho dJ)) rho := by
  let L : (Fin n → ℝ) →L[ℝ] (Fin n → ℝ) := ContinuousLinearMap.pi fun i => dotCLM fun j => H i j / Hs i
  have hL : ∀ r, applyDensityFilter H Hs r = L r := by
    intro r
    funext i
    simp only [applyDensityFilter, L, ContinuousLinearMap.coe_pi', dotCLM_apply, dotProduct, Finset.sum_div]
    refine Finset.sum_congr rfl fun j _ => ?_
    ring
  have h1 : HasFDerivAt (applyDensityFilter H Hs) L rho := by
    have : applyDensityFilter H Hs = L := funext hL
    rw [this]
    exact L.hasFDerivAt
  refine (hJ.comp rho h1).congr_fderiv ?_
  ext1 v
  rw [ContinuousLinearMap.comp_apply, dotCLM_apply, dotCLM_apply, ← hL]
  exact (C49_adjoint H Hs hsym rho hrho dJ v).symm

/-- **C49 (small densities).** In general the sensitivity of a cell with density in `[0, 1e-3)` enters scaled
by `1000 · rho`, so it is that of the transposed filter applied to the scaled derivative. -/
theorem C49_small (H : Fin n → Fin n → ℝ) (Hs : Fin n → ℝ) (hsym : ∀ i j, H i j = H j i) (rho dJ v : Fin n → ℝ) :
    ∑ i, applySensitivityFilter H Hs rho dJ i * v i =
      ∑ j, (if rho j < 0.001 then 1000 * rho j else 1) * dJ j * applyDensityFilter H Hs v j := by
  unfold applySensitivityFilter applyDensityFilter
  simp only [Finset.sum_mul, Finset.mul_sum, Finset.sum_div]
  rw [Finset.sum_comm]
  refine Finset.sum_congr rfl fun j _ => Finset.sum_congr rfl fun i _ => ?_
  rw [hsym i j]
  split_ifs with h
  · rw [max_eq_left h.le]; ring
  · have h' : (0.001 : ℝ) ≤ rho j := not_lt.1 h
    have h0 : rho j ≠ 0 := by intro h; norm_num [h] at h'
    rw [max_eq_right h', mul_div_cancel_left₀ _ h0]
    ring

/-- Twenty cells: a valid answer of the query exists, so the hypotheses of `C48_weights` can be met. -/
example (i : Fin 20) : KdAnswer (centroidDist (fun _ : Fin 20 => (fun _ => 0 : Fin 2 → ℝ)) i) 20
    ((List.range 20).map fun a => (a, 0)) := by
  have hm : (((List.range 20).map fun a => (a, (0 : ℝ))).map Prod.fst) = List.range 20 := by
    rw [List.map_map]; exact List.map_id _
  constructor
  · simp
  · intro p hp
    obtain ⟨a, ha, rfl⟩ := List.mem_map.1 hp
    exact (List.mem_range.1 ha).le
  · rw [hm]; exact List.nodup_range.filter _
  · intro p hp _
    obtain ⟨a, ha, rfl⟩ := List.mem_map.1 hp
    simp [centroidDist]
  · intro j hj
    rw [hm] at hj
    exact absurd (List.mem_range.2 j.2) hj

/-- Two cells with equal weights. -/
example : applyDensityFilter (fun _ _ : Fin 2 => (1 : ℝ)) (fun _ => 2) ![0, 1] = fun _ => 0.5 := by
  funext i
  norm_num [applyDensityFilter, Fin.sum_univ_two]

end MMA
end JaxFem
