import Verif.Model.Shape
import Verif.Spec.Shape
import Mathlib.Analysis.SpecialFunctions.Trigonometric.Deriv
import Mathlib.Analysis.SpecialFunctions.ExpDeriv
import Mathlib.Analysis.SpecialFunctions.Log.Deriv
import Mathlib.Analysis.Calculus.Deriv.Abs
import Mathlib.Analysis.Calculus.LocalExtr.Basic

/-!
# C104: rotated pores — angles, holes and densities
-/

namespace JaxFem.Shape

open scoped BigOperators Topology

variable {nq : Nat}

/-! ### Helper lemmas -/

/-- The angle that belongs to a design variable. -/
noncomputable abbrev angle (b : ℝ) : ℝ := scaledSigmoid b (-Real.pi / 4) (Real.pi / 4) (1 / 10)

theorem sigmoid_mem (x lo hi p : ℝ) (h : lo < hi) : scaledSigmoid x lo hi p ∈ Set.Ioo lo hi := by
  have e := Real.exp_pos (-x * p)
  have hd : 0 < hi - lo := by linarith
  constructor
  · have : 0 < (hi - lo) / (1 + Real.exp (-x * p)) := by positivity
    simp only [scaledSigmoid]; linarith
  · have : (hi - lo) / (1 + Real.exp (-x * p)) < hi - lo := div_lt_self hd (by linarith)
    simp only [scaledSigmoid]; linarith

theorem sigmoid_mono (lo hi p : ℝ) (h : lo < hi) (hp : 0 < p) : StrictMono fun x => scaledSigmoid x lo hi p := by
  intro x y hxy
  have hd : 0 < hi - lo := by linarith
  have e : Real.exp (-y * p) < Real.exp (-x * p) := Real.exp_lt_exp.2 (by nlinarith)
  have := div_lt_div_of_pos_left hd (by positivity : (0 : ℝ) < 1 + Real.exp (-y * p)) (by linarith :
    1 + Real.exp (-y * p) < 1 + Real.exp (-x * p))
  simp only [scaledSigmoid]; linarith

theorem polar (x c : Fin 2 → ℝ) (β : ℝ) :
    let r := Real.sqrt (∑ i, (x i - c i) ^ 2)
    let θ := Complex.arg ⟨x 0 - c 0, x 1 - c 1⟩
    r * Real.cos (θ - β) = Real.cos β * (x 0 - c 0) + Real.sin β * (x 1 - c 1) ∧
    r * Real.sin (θ - β) = Real.cos β * (x 1 - c 1) - Real.sin β * (x 0 - c 0) := by
  intro r θ
  have hr : ‖(⟨x 0 - c 0, x 1 - c 1⟩ : ℂ)‖ = r := by
    rw [Complex.norm_eq_sqrt_sq_add_sq]
    simp only [r, Fin.sum_univ_two]
  have h1 := Complex.norm_mul_cos_arg ⟨x 0 - c 0, x 1 - c 1⟩
  have h2 := Complex.norm_mul_sin_arg ⟨x 0 - c 0, x 1 - c 1⟩
  rw [hr] at h1 h2
  constructor
  · rw [Real.cos_sub]
    linear_combination Real.cos β * h1 + Real.sin β * h2
  · rw [Real.sin_sub]
    linear_combination Real.cos β * h2 - Real.sin β * h1

theorem poreFn_eq (x c : Fin 2 → ℝ) (L b : ℝ) : poreFn x c L b = smoothHole (angle b) (9 / 20 * L) c x := by
  obtain ⟨h1, h2⟩ := polar x c (angle b)
  simp only [poreFn, smoothHole, turnedNorm]
  rw [h1, h2]
  congr 3
  ring

theorem smoothHole_pos (β a : ℝ) (c x : Fin 2 → ℝ) : 0 < smoothHole β a c x ∧ smoothHole β a c x < 1 := by
  have e := Real.exp_pos (-(200 * (turnedNorm β c x - a)))
  exact ⟨by rw [smoothHole]; positivity, by rw [smoothHole, div_lt_one (by linarith)]; linarith⟩

theorem smoothHole_half (β a : ℝ) (c x : Fin 2 → ℝ) : smoothHole β a c x < 1 / 2 ↔ x ∈ SquareHole β a c := by
  rw [smoothHole, one_div_lt_one_div (by positivity) two_pos]
  show _ ↔ turnedNorm β c x < a
  constructor
  · intro h
    have : 0 < -(200 * (turnedNorm β c x - a)) := Real.one_lt_exp_iff.1 (by linarith)
    linarith
  · intro h
    have := Real.one_lt_exp_iff.2 (by linarith : 0 < -(200 * (turnedNorm β c x - a)))
    linarith

theorem sq_turned (β u v : ℝ) :
    u = Real.cos β * (Real.cos β * u + Real.sin β * v) - Real.sin β * (Real.cos β * v - Real.sin β * u) ∧
    v = Real.sin β * (Real.cos β * u + Real.sin β * v) + Real.cos β * (Real.cos β * v - Real.sin β * u) := by
  have := Real.sin_sq_add_cos_sq β
  constructor
  · linear_combination -u * this
  · linear_combination -v * this

theorem abs_comb (s t a b : ℝ) (hs : |s| ≤ 1) (ht : |t| ≤ 1) : |s * a + t * b| ≤ |a| + |b| := by
  refine (abs_add_le _ _).trans ?_
  rw [abs_mul, abs_mul]
  have := mul_le_of_le_one_left (abs_nonneg a) hs
  have := mul_le_of_le_one_left (abs_nonneg b) ht
  linarith

theorem turned_ge (β : ℝ) (c x : Fin 2 → ℝ) (i : Fin 2) : |x i - c i| ≤ turnedNorm β c x := by
  obtain ⟨h0, h1⟩ := sq_turned β (x 0 - c 0) (x 1 - c 1)
  match i with
  | 0 =>
    rw [h0, sub_eq_add_neg, ← neg_mul]
    exact abs_comb _ _ _ _ (Real.abs_cos_le_one β) (by rw [abs_neg]; exact Real.abs_sin_le_one β)
  | 1 =>
    rw [h1]
    exact abs_comb _ _ _ _ (Real.abs_sin_le_one β) (Real.abs_cos_le_one β)

theorem cos_add_sin_gt (δ : ℝ) (h0 : δ ≠ 0) (h1 : -(Real.pi / 2) < δ) (h2 : δ < Real.pi / 2) :
    1 < |Real.cos δ| + |Real.sin δ| := by
  have hc : 0 < Real.cos δ := Real.cos_pos_of_mem_Ioo ⟨h1, h2⟩
  have hs : Real.sin δ ≠ 0 := by
    intro h
    exact h0 ((Real.sin_eq_zero_iff_of_lt_of_lt (by linarith [Real.pi_pos]) (by linarith [Real.pi_pos])).1 h)
  have hs' := abs_pos.2 hs
  have hc' := abs_pos.2 hc.ne'
  have h := Real.sin_sq_add_cos_sq δ
  rw [← sq_abs (Real.sin δ), ← sq_abs (Real.cos δ)] at h
  nlinarith [mul_pos hs' hc']

theorem hole_not_subset (β β' a : ℝ) (c : Fin 2 → ℝ) (ha : 0 < a) (hβ : β ∈ Set.Ioo (-Real.pi / 4) (Real.pi / 4))
    (hβ' : β' ∈ Set.Ioo (-Real.pi / 4) (Real.pi / 4)) (h : β ≠ β') : ¬SquareHole β a c ⊆ SquareHole β' a c := by
  intro hsub
  set m := |Real.cos (β - β')| + |Real.sin (β - β')| with hm
  have hm1 : 1 < m := cos_add_sin_gt (β - β') (sub_ne_zero.2 h) (by linarith [hβ.1, hβ'.2]) (by linarith [hβ.2, hβ'.1])
  set t := a / m with ht
  have htp : 0 < t := by positivity
  have hta : t < a := div_lt_self ha hm1
  have htm : t * m = a := div_mul_cancel₀ _ (by positivity)
  have h1 : ![c 0 + t * Real.cos β, c 1 + t * Real.sin β] ∈ SquareHole β a c := by
    show turnedNorm _ _ _ < a
    simp only [turnedNorm, Matrix.cons_val_zero, Matrix.cons_val_one, add_sub_cancel_left]
    have e := Real.sin_sq_add_cos_sq β
    have e1 : Real.cos β * (t * Real.cos β) + Real.sin β * (t * Real.sin β) = t := by linear_combination t * e
    have e2 : Real.cos β * (t * Real.sin β) - Real.sin β * (t * Real.cos β) = 0 := by ring
    rw [e1, e2, abs_zero, add_zero, abs_of_pos htp]
    exact hta
  have h2 : turnedNorm _ _ _ < a := hsub h1
  simp only [turnedNorm, Matrix.cons_val_zero, Matrix.cons_val_one, add_sub_cancel_left] at h2
  have e1 : Real.cos β' * (t * Real.cos β) + Real.sin β' * (t * Real.sin β) = t * Real.cos (β - β') := by
    rw [Real.cos_sub]; ring
  have e2 : Real.cos β' * (t * Real.sin β) - Real.sin β' * (t * Real.cos β) = t * Real.sin (β - β') := by
    rw [Real.sin_sub]; ring
  rw [e1, e2, abs_mul, abs_mul, abs_of_pos htp, ← mul_add, ← hm, htm] at h2
  exact lt_irrefl _ h2

/-! ### The loops over the pores -/

theorem poreGrid_eq (nx ny : Nat) : poreGrid nx ny = (List.range (nx * ny)).map fun k => (k / ny, k % ny) := by
  induction nx with
  | zero => simp [poreGrid]
  | succ nx ih =>
    have h1 : poreGrid (nx + 1) ny = poreGrid nx ny ++ (List.range ny).map fun j => (nx, j) := by
      simp [poreGrid, List.range_succ, List.flatMap_append]
    rw [h1, ih, Nat.succ_mul, List.range_add, List.map_append, List.map_map]
    congr 1
    refine List.map_congr_left fun j hj => ?_
    have hj' := List.mem_range.1 hj
    simp only [Function.comp_apply]
    rw [Nat.mul_comm nx ny, Nat.mul_add_div (by omega), Nat.mul_add_mod, Nat.div_eq_of_lt hj', Nat.mod_eq_of_lt hj']
    simp

theorem mem_zip (nx ny : Nat) (ij : Nat × Nat) (k : Nat) :
    (ij, k) ∈ (poreGrid nx ny).zipIdx ↔ ij.1 < nx ∧ ij.2 < ny ∧ k = ij.1 * ny + ij.2 := by
  rw [List.mk_mem_zipIdx_iff_getElem?, poreGrid_eq, List.getElem?_map]
  constructor
  · intro h
    rcases hk : (List.range (nx * ny))[k]? with _ | v
    · rw [hk] at h; cases h
    · rw [hk] at h
      obtain ⟨hlt, hv⟩ := List.getElem?_eq_some_iff.1 hk
      rw [List.getElem_range] at hv
      rw [List.length_range] at hlt
      subst hv
      have h' : (k / ny, k % ny) = ij := Option.some.inj h
      subst h'
      have hny : 0 < ny := by
        rcases Nat.eq_zero_or_pos ny with h | h
        · rw [h, Nat.mul_zero] at hlt; omega
        · exact h
      refine ⟨Nat.div_lt_of_lt_mul (by rwa [Nat.mul_comm]), Nat.mod_lt _ hny, ?_⟩
      have := Nat.div_add_mod k ny
      show k = k / ny * ny + k % ny
      rw [Nat.mul_comm]; exact this.symm
  · rintro ⟨h1, h2, rfl⟩
    have hlt : ij.1 * ny + ij.2 < nx * ny := by
      calc ij.1 * ny + ij.2 < ij.1 * ny + ny := by omega
        _ = (ij.1 + 1) * ny := by ring
        _ ≤ nx * ny := Nat.mul_le_mul_right _ h1
    rw [List.getElem?_range hlt, Option.map_some, Nat.mul_comm, Nat.mul_add_div (by omega), Nat.mul_add_mod,
      Nat.div_eq_of_lt h2, Nat.mod_eq_of_lt h2, Nat.add_zero]

theorem mem_quadInds {C : Nat} (pts : Fin C → Fin nq → Fin 2 → ℝ) (L : ℝ) (ij : Nat × Nat) (c : Fin C) (q : Fin nq) :
    (c, q) ∈ quadInds pts L ij ↔ InCell L ij.1 ij.2 (pts c q) := by
  simp only [quadInds, List.mem_filter, List.mem_flatMap, List.mem_map, List.mem_finRange, true_and, decide_eq_true_eq,
    InCell, ge_iff_le, and_assoc]
  constructor
  · exact fun h => h.2
  · exact fun h => ⟨⟨c, q, rfl⟩, h⟩

theorem fold_scatter {C : Nat} {ι : Type} (inds : ι → List (Fin C × Fin nq)) (val : ι → Fin C × Fin nq → ℝ) (c : Fin C)
    (q : Fin nq) (v : ℝ) (l : List ι) : ∀ init : Fin C → Fin nq → ℝ,
    (∀ e ∈ l, (c, q) ∈ inds e → val e (c, q) = v) → (init c q = v ∨ ∃ e ∈ l, (c, q) ∈ inds e) →
    l.foldl (fun rho e => scatter rho (inds e) (val e)) init c q = v := by
  induction l with
  | nil =>
    intro init _ h
    simpa using h
  | cons e l ih =>
    intro init h1 h2
    rw [List.foldl_cons]
    refine ih _ (fun e' he' => h1 e' (List.mem_cons_of_mem _ he')) ?_
    by_cases hm : (c, q) ∈ inds e
    · left
      rw [scatter, if_pos hm]
      exact h1 e (by simp) hm
    · rcases h2 with h2 | ⟨e', he', hm'⟩
      · left
        rw [scatter, if_neg hm, h2]
      · rcases List.mem_cons.1 he' with rfl | he'
        · exact absurd hm' hm
        · exact .inr ⟨e', he', hm'⟩

theorem cell_index_unique (L : ℝ) (hL : 0 < L) (i i' : Nat) (t : ℝ) (h1 : i * L ≤ t) (h2 : t < (i + 1) * L)
    (h1' : i' * L ≤ t) (h2' : t < (i' + 1) * L) : i = i' := by
  have a : (i : ℝ) < i' + 1 := lt_of_mul_lt_mul_right (h1.trans_lt h2') hL.le
  have b : (i' : ℝ) < i + 1 := lt_of_mul_lt_mul_right (h1'.trans_lt h2) hL.le
  have a' : i < i' + 1 := by exact_mod_cast a
  have b' : i' < i + 1 := by exact_mod_cast b
  omega

theorem inCell_unique (L : ℝ) (hL : 0 < L) (i j i' j' : Nat) (x : Fin 2 → ℝ) (h : InCell L i j x) (h' : InCell L i' j' x) :
    i = i' ∧ j = j' :=
  ⟨cell_index_unique L hL i i' (x 0) h.1.1 h.1.2 h'.1.1 h'.1.2, cell_index_unique L hL j j' (x 1) h.2.1 h.2.2 h'.2.1 h'.2.2⟩

theorem cell_index_exists (L : ℝ) (hL : 0 < L) (n : Nat) (t : ℝ) :
    (0 ≤ t ∧ t < n * L) ↔ ∃ i < n, i * L ≤ t ∧ t < (i + 1) * L := by
  constructor
  · rintro ⟨h0, h1⟩
    have hn : 0 ≤ t / L := by positivity
    refine ⟨⌊t / L⌋₊, (Nat.floor_lt hn).2 ((div_lt_iff₀ hL).2 h1), (le_div_iff₀ hL).1 (Nat.floor_le hn),
      (div_lt_iff₀ hL).1 (Nat.lt_floor_add_one _)⟩
  · rintro ⟨i, hi, h1, h2⟩
    refine ⟨le_trans (by positivity) h1, h2.trans_le ?_⟩
    have : ((i : ℝ) + 1) ≤ n := by exact_mod_cast hi
    exact mul_le_mul_of_nonneg_right this hL.le

/-! ### Smoothness in the design variable -/

theorem angle_deriv (b : ℝ) :
    HasDerivAt angle ((angle b + Real.pi / 4) * (Real.pi / 4 - angle b) / (5 * Real.pi)) b := by
  have e := Real.exp_pos (-b * (1 / 10))
  have hne : 1 + Real.exp (-b * (1 / 10)) ≠ 0 := by positivity
  have h1 : HasDerivAt (fun b : ℝ => 1 + Real.exp (-b * (1 / 10))) (Real.exp (-b * (1 / 10)) * (-1 * (1 / 10))) b :=
    ((((hasDerivAt_id b).neg).mul_const (1 / 10 : ℝ)).exp).const_add 1
  have h2 := ((hasDerivAt_const b (Real.pi / 4 - -Real.pi / 4)).div h1 hne).const_add (-Real.pi / 4)
  refine h2.congr_deriv ?_
  have hp := Real.pi_ne_zero
  simp only [angle, scaledSigmoid]
  field_simp
  ring

theorem turned_deriv (c x : Fin 2 → ℝ) (β : ℝ) :
    HasDerivAt (fun β => Real.cos β * (x 0 - c 0) + Real.sin β * (x 1 - c 1))
      (Real.cos β * (x 1 - c 1) - Real.sin β * (x 0 - c 0)) β ∧
    HasDerivAt (fun β => Real.cos β * (x 1 - c 1) - Real.sin β * (x 0 - c 0))
      (-(Real.cos β * (x 0 - c 0) + Real.sin β * (x 1 - c 1))) β := by
  constructor
  · exact (((Real.hasDerivAt_cos β).mul_const _).add ((Real.hasDerivAt_sin β).mul_const _)).congr_deriv (by ring)
  · exact (((Real.hasDerivAt_cos β).mul_const _).sub ((Real.hasDerivAt_sin β).mul_const _)).congr_deriv (by ring)

theorem smoothHole_deriv (β a : ℝ) (c x : Fin 2 → ℝ) (T : ℝ) (h : HasDerivAt (fun β => turnedNorm β c x) T β) :
    HasDerivAt (fun β => smoothHole β a c x) (200 * smoothHole β a c x * (1 - smoothHole β a c x) * T) β := by
  have e := Real.exp_pos (-(200 * (turnedNorm β c x - a)))
  have hne : 1 + Real.exp (-(200 * (turnedNorm β c x - a))) ≠ 0 := by positivity
  have h1 : HasDerivAt (fun β => 1 + Real.exp (-(200 * (turnedNorm β c x - a))))
      (Real.exp (-(200 * (turnedNorm β c x - a))) * -(200 * T)) β :=
    ((((h.sub_const a).const_mul 200).neg).exp).const_add 1
  refine ((hasDerivAt_const β (1 : ℝ)).div h1 hne).congr_deriv ?_
  simp only [smoothHole]
  field_simp
  ring

theorem abs_contDiff {E : Type} [NormedAddCommGroup E] [NormedSpace ℝ E] (f : E → ℝ) (x : E) (hf : ContDiffAt ℝ 1 f x)
    (h : f x ≠ 0) : ContDiffAt ℝ 1 (fun y => |f y|) x := hf.abs h

end JaxFem.Shape
