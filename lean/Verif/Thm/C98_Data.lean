import Verif.Thm.C98_Macro
import Verif.Thm.C97_Constrained

/-!
# C98: homogenisation — material, boundary conditions, collection of data
-/

namespace JaxFem.Rve

open Matrix

/-! ### Helper lemmas -/

theorem foldl_or {α : Type} (l : List α) (f : α → Bool) (s : Bool) : l.foldl (fun s a => s || f a) s = (s || l.any f) := by
  induction l generalizing s with
  | nil => simp
  | cons a t ih => rw [List.foldl_cons, ih, List.any_cons, Bool.or_assoc]

theorem inclusion_iff (a : Args) (x : Fin 3 → ℝ) : inclusion a x = true ↔ InInclusion a x := by
  simp only [inclusion, foldl_or, Bool.false_or, List.any_eq_true, List.mem_range, decide_eq_true_eq, max_lt_iff, InInclusion]
  have h : (0.5 : ℝ) = 1 / 2 := by norm_num
  have e0 : ∀ p q r : ℝ, (![p, q, r] : Fin 3 → ℝ) 0 = p := fun _ _ _ => rfl
  have e1 : ∀ p q r : ℝ, (![p, q, r] : Fin 3 → ℝ) 1 = q := fun _ _ _ => rfl
  have e2 : ∀ p q r : ℝ, (![p, q, r] : Fin 3 → ℝ) 2 = r := fun _ _ _ => rfl
  simp only [e0, e1, e2, h, mul_comm a.ratio]
  constructor
  · rintro ⟨i, hi, j, hj, k, hk, ⟨p, q⟩, r⟩
    exact ⟨i, j, k, hi, hj, hk, p, q, r⟩
  · rintro ⟨i, j, k, hi, hj, hk, p, q, r⟩
    exact ⟨i, hi, j, hj, k, hk, ⟨p, q⟩, r⟩

theorem moduli_eq (a : Args) (x : Fin 3 → ℝ) [Decidable (InInclusion a x)] :
    moduliMap a x = if InInclusion a x then (a.Ein, a.nuIn) else (a.Eout, a.nuOut) := by
  rw [moduliMap]
  by_cases h : InInclusion a x
  · rw [(inclusion_iff a x).2 h, if_pos h]
    rfl
  · have : inclusion a x = false := by
      rw [Bool.eq_false_iff]
      exact fun hc => h ((inclusion_iff a x).1 hc)
    rw [this, if_neg h]
    rfl

/-- Along one axis: a point of unit `i` can only be in an inclusion of unit `i`. -/
theorem axis {L r y : ℝ} (hL : 0 < L) (hr : r ≤ 1 / 2) (h0 : 0 ≤ y) (h1 : y ≤ L) (i n : Nat) (hi : i < n) :
    (∃ k : Nat, k < n ∧ |i * L + y - (k + 1 / 2) * L| < r * L) ↔ |y - (0 + 1 / 2) * L| < r * L := by
  constructor
  · rintro ⟨k, -, hk⟩
    have hk' := hk
    rw [abs_lt] at hk
    have hrl : r * L ≤ 1 / 2 * L := mul_le_mul_of_nonneg_right hr hL.le
    have h3 : ((k : ℝ) - i) * L < 1 * L := by nlinarith
    have h4 : ((i : ℝ) - k) * L < 1 * L := by nlinarith
    have h5 := lt_of_mul_lt_mul_right h3 hL.le
    have h6 := lt_of_mul_lt_mul_right h4 hL.le
    have h7 : k < i + 1 := by exact_mod_cast (by linarith : (k : ℝ) < i + 1)
    have h8 : i < k + 1 := by exact_mod_cast (by linarith : (i : ℝ) < k + 1)
    obtain rfl : k = i := by omega
    have e : (k : ℝ) * L + y - (k + 1 / 2) * L = y - (0 + 1 / 2) * L := by ring
    rwa [e] at hk'
  · intro h
    refine ⟨i, hi, ?_⟩
    have e : (i : ℝ) * L + y - (i + 1 / 2) * L = y - (0 + 1 / 2) * L := by ring
    rwa [e]

theorem inInclusion_axes (a : Args) (x : Fin 3 → ℝ) : InInclusion a x ↔
    (∃ i : Nat, i < a.unitsX ∧ |x 0 - (i + 1 / 2) * a.L| < a.ratio * a.L) ∧
    (∃ i : Nat, i < a.unitsY ∧ |x 1 - (i + 1 / 2) * a.L| < a.ratio * a.L) ∧
    ∃ i : Nat, i < a.unitsZ ∧ |x 2 - (i + 1 / 2) * a.L| < a.ratio * a.L := by
  constructor
  · rintro ⟨i, j, k, hi, hj, hk, p, q, r⟩
    exact ⟨⟨i, hi, p⟩, ⟨j, hj, q⟩, k, hk, r⟩
  · rintro ⟨⟨i, hi, p⟩, ⟨j, hj, q⟩, k, hk, r⟩
    exact ⟨i, j, k, hi, hj, hk, p, q, r⟩

theorem not_top (a : Args) (hL : 0 < a.L) (hr : a.ratio ≤ 1 / 2) (x : Fin 3 → ℝ) (hx : x 2 = a.unitsZ * a.L) :
    ¬InInclusion a x := by
  rintro ⟨-, -, k, -, -, hk, -, -, h⟩
  rw [hx, abs_lt] at h
  have h1 : ((k : ℝ) + 1) * a.L ≤ a.unitsZ * a.L := mul_le_mul_of_nonneg_right (by exact_mod_cast hk) hL.le
  have h2 : a.ratio * a.L ≤ 1 / 2 * a.L := mul_le_mul_of_nonneg_right hr hL.le
  nlinarith [h.2]

theorem index_name (root : List Char) (i : Nat) (hi : i < 100000) : fileIndex (fileName root i) = i := by
  have hl : (Nat.toDigits 10 i).length ≤ 5 := (Nat.length_toDigits_le_iff (by decide) (by decide)).2 hi
  have hf : (format05 i).length = 5 := by
    rw [format05, List.length_append, List.length_replicate]
    omega
  have h1 : fileName root i = (root ++ ['/']) ++ (format05 i ++ ['.', 'n', 'p', 'y']) := by simp [fileName]
  have h2 : (fileName root i).length - 9 = (root ++ ['/']).length := by
    rw [h1, List.length_append, List.length_append (as := format05 i), hf]
    simp
  rw [fileIndex, h2, h1, List.drop_left, ← hf, List.take_left, format05, Nat.ofDigitChars_append, Nat.ofDigitChars_replicate_zero]
  simp [Nat.ofDigitChars_ten_toDigits]

section
variable {root : List Char} {solve : (Fin 6 → ℝ) → (Fin 6 → ℝ) × Flt ℝ} {samples : List (Fin 6 → ℝ)}

theorem mem_todo {n : Nat} {f : Folder} {i : Nat} : i ∈ todoOf n f ↔ i < n ∧ i ∉ doneOf f := by
  rw [todoOf, List.mem_filter, List.mem_range, decide_eq_true_eq]

theorem record_nan {i : Nat} {f : Folder} (h : (solve (samples.getD i 0)).2 = .nan) :
    (record root solve samples i f).npy = f.npy := by
  rw [record]
  simp only [h]

theorem record_ok {i : Nat} {f : Folder} (h : (solve (samples.getD i 0)).2 ≠ .nan) :
    (record root solve samples i f).npy = f.npy ++ [(fileName root i, solve (samples.getD i 0))] := by
  rw [record]
  generalize hd : solve (samples.getD i 0) = d at h ⊢
  obtain ⟨d1, d2⟩ := d
  cases d2 with
  | nan => exact absurd rfl h
  | inf s => rfl
  | fin x => rfl

theorem record_valid {i : Nat} {f : Folder} (hi : i < samples.length) (hv : Valid root solve samples f) :
    Valid root solve samples (record root solve samples i f) := by
  have hg : samples.getD i 0 = samples[i] := by simp [hi]
  by_cases h : (solve (samples.getD i 0)).2 = .nan
  · intro r hr
    rw [record_nan h] at hr
    exact hv r hr
  · intro r hr
    rw [record_ok h] at hr
    rcases List.mem_append.1 hr with hr | hr
    · exact hv r hr
    · rw [List.mem_singleton] at hr
      subst hr
      exact ⟨i, hi, by rw [hg], h⟩

/-- A successful round removes the chosen index from `todo`. -/
theorem todo_record {i : Nat} {f : Folder} (hn : samples.length ≤ 100000) (hi : i ∈ todoOf samples.length f)
    (h : (solve (samples.getD i 0)).2 ≠ .nan) :
    todoOf samples.length (record root solve samples i f) = (todoOf samples.length f).erase i := by
  have hlt : i < samples.length := (mem_todo.1 hi).1
  have hd : doneOf (record root solve samples i f) = doneOf f ++ [i] := by
    rw [doneOf, record_ok h, List.map_append, List.map_singleton]
    rw [index_name root i (lt_of_lt_of_le hlt hn)]
    rfl
  have hnd : (todoOf samples.length f).Nodup := List.nodup_range.filter _
  rw [hnd.erase_eq_filter, todoOf, todoOf, List.filter_filter, hd]
  refine List.filter_congr fun j _ => ?_
  by_cases h1 : j = i <;> simp [h1]

end

theorem box_pos (x : Fin 6 → ℝ) (hx : ∀ k, |x k| ≤ 0.2) (d : Fin 3 → ℝ) (hd : d ≠ 0) :
    0 < d ⬝ᵥ (Surrogate.flatToTensor x + 1).mulVec d := by
  have hb : ∀ k, -(1 / 5) ≤ x k ∧ x k ≤ 1 / 5 := fun k => by
    have := abs_le.1 (hx k)
    norm_num at this
    exact this
  have e : d ⬝ᵥ (Surrogate.flatToTensor x + 1).mulVec d
      = (x 0 + 1) * d 0 ^ 2 + (x 1 + 1) * d 1 ^ 2 + (x 2 + 1) * d 2 ^ 2
        + 2 * (x 3 * (d 0 * d 1)) + 2 * (x 4 * (d 0 * d 2)) + 2 * (x 5 * (d 1 * d 2)) := by
    simp [dotProduct, mulVec, Surrogate.flatToTensor, Fin.sum_univ_three, Matrix.add_apply, Matrix.one_apply]
    ring
  have hprod : ∀ c p q : ℝ, -(1 / 5) ≤ c → c ≤ 1 / 5 → -(1 / 5) * (p ^ 2 + q ^ 2) ≤ 2 * (c * (p * q)) := by
    intro c p q h1 h2
    nlinarith [mul_nonneg (by linarith : (0 : ℝ) ≤ 1 / 5 + c) (sq_nonneg (p + q)),
      mul_nonneg (by linarith : (0 : ℝ) ≤ 1 / 5 - c) (sq_nonneg (p - q))]
  have hsq : ∀ c p : ℝ, -(1 / 5) ≤ c → 4 / 5 * p ^ 2 ≤ (c + 1) * p ^ 2 := by
    intro c p h1
    nlinarith [mul_nonneg (by linarith : (0 : ℝ) ≤ c + 1 / 5) (sq_nonneg p)]
  have hpos : 0 < d 0 ^ 2 + d 1 ^ 2 + d 2 ^ 2 := by
    by_contra hc
    have h0 : d 0 = 0 := by nlinarith [sq_nonneg (d 0), sq_nonneg (d 1), sq_nonneg (d 2)]
    have h1 : d 1 = 0 := by nlinarith [sq_nonneg (d 0), sq_nonneg (d 1), sq_nonneg (d 2)]
    have h2 : d 2 = 0 := by nlinarith [sq_nonneg (d 0), sq_nonneg (d 1), sq_nonneg (d 2)]
    apply hd
    funext k
    fin_cases k <;> assumption
  rw [e]
  linarith [hsq (x 0) (d 0) (hb 0).1, hsq (x 1) (d 1) (hb 1).1, hsq (x 2) (d 2) (hb 2).1,
    hprod (x 3) (d 0) (d 1) (hb 3).1 (hb 3).2, hprod (x 4) (d 0) (d 2) (hb 4).1 (hb 4).2,
    hprod (x 5) (d 1) (d 2) (hb 5).1 (hb 5).2]

/-! ### Property theorems -/

/-- **C98 (material).** The loops over the units select the union of the cubic inclusions; if inclusions do not reach over
their unit (`ratio ≤ 1/2`) the composite of many units has the moduli of the representative volume, shifted. -/
theorem C98_moduli (a : Args) (x : Fin 3 → ℝ) [Decidable (InInclusion a x)] :
    computeModuli a .mixed x = (if InInclusion a x then (a.Ein, a.nuIn) else (a.Eout, a.nuOut)) ∧
    computeModuli a .inner x = (a.Ein, a.nuIn) ∧ computeModuli a .outer x = (a.Eout, a.nuOut) ∧
    ∀ (i j k : Nat) (y : Fin 3 → ℝ), 0 < a.L → a.ratio ≤ 1 / 2 → i < a.unitsX → j < a.unitsY → k < a.unitsZ →
      (∀ m, 0 ≤ y m ∧ y m ≤ a.L) → (∀ m, x m = (![(i : ℝ), j, k] m) * a.L + y m) →
      computeModuli a .mixed x = computeModuli { a with unitsX := 1, unitsY := 1, unitsZ := 1 } .mixed y := by
  classical
  refine ⟨moduli_eq a x, rfl, rfl, fun i j k y hL hr hi hj hk hy hx => ?_⟩
  show moduliMap a x = moduliMap _ y
  rw [moduli_eq, moduli_eq]
  have h0 : x 0 = i * a.L + y 0 := hx 0
  have h1 : x 1 = j * a.L + y 1 := hx 1
  have h2 : x 2 = k * a.L + y 2 := hx 2
  have one : ∀ t : ℝ, (∃ k : Nat, k < 1 ∧ |t - (k + 1 / 2) * a.L| < a.ratio * a.L) ↔ |t - (0 + 1 / 2) * a.L| < a.ratio * a.L := by
    intro t
    constructor
    · rintro ⟨k, hk, h⟩
      obtain rfl : k = 0 := by omega
      simpa using h
    · intro h
      exact ⟨0, by omega, by simpa using h⟩
  have key : InInclusion a x ↔ InInclusion { a with unitsX := 1, unitsY := 1, unitsZ := 1 } y := by
    rw [inInclusion_axes, inInclusion_axes, h0, h1, h2]
    simp only [one]
    rw [axis hL hr (hy 0).1 (hy 0).2 i _ hi, axis hL hr (hy 1).1 (hy 1).2 j _ hj, axis hL hr (hy 2).1 (hy 2).2 k _ hk]
  by_cases h : InInclusion a x
  · rw [if_pos h, if_pos (key.1 h)]
  · rw [if_neg h, if_neg fun hc => h (key.2 hc)]

/-- **C98 (internal variables).** The mesh stays the same, and each quadrature point gets the moduli of the material at its
position. -/
theorem C98_internal {nq nfq nn : Nat} (P : Problem1 (ℝ × ℝ) nq nfq nn 3 3) (h : P.WF) (a : Args) (info : Info) :
    (withModuli a info P).WF ∧ (withModuli a info P).conn = P.conn ∧
    ∀ c ∈ (withModuli a info P).cells, ∀ q, ∀ x : Fin 3 → ℝ,
      (∀ i, x i = ∑ b, P.el.shapeVals q b * coords nn P.points c.nodes b i) →
      (info = .mixed → (InInclusion a x → c.iv q = (a.Ein, a.nuIn)) ∧ (¬InInclusion a x → c.iv q = (a.Eout, a.nuOut))) ∧
      (info = .inner → c.iv q = (a.Ein, a.nuIn)) ∧ (info = .outer → c.iv q = (a.Eout, a.nuOut)) := by
  classical
  have hmem : ∀ c ∈ (withModuli a info P).cells, ∃ c' ∈ P.cells, c.nodes = c'.nodes ∧ ∀ q, c.iv q
      = computeModuli a info fun i => ∑ b, P.el.shapeVals q b * coords nn P.points c.nodes b i := by
    intro c hc
    obtain ⟨c', h1, rfl⟩ := List.mem_map.1 hc
    exact ⟨c', h1, rfl, fun q => rfl⟩
  have hconn : (withModuli a info P).conn = P.conn := by
    simp [withModuli, Problem1.conn, Function.comp_def]
  refine ⟨⟨?_, h.points, fun c hc => ?_, fun c hc => ?_, ?_⟩, hconn, fun c hc q x hx => ?_⟩
  · intro he
    exact h.nonempty (List.map_eq_nil_iff.1 he)
  · obtain ⟨c', h1, h2, -⟩ := hmem c hc
    rw [h2]
    exact h.cell_length c' h1
  · obtain ⟨c', h1, h2, -⟩ := hmem c hc
    rw [h2]
    exact h.cell_lt c' h1
  · intro s hs f hf
    have := h.face_lt s hs f hf
    simpa [withModuli] using this
  · obtain ⟨c', -, -, h3⟩ := hmem c hc
    have ex : (fun i => ∑ b, P.el.shapeVals q b * coords nn P.points c.nodes b i) = x := funext fun i => (hx i).symm
    rw [h3, ex]
    refine ⟨fun e => ?_, fun e => ?_, fun e => ?_⟩
    · subst e
      rw [(C98_moduli a x).1]
      exact ⟨fun hi => if_pos hi, fun hi => if_neg hi⟩
    · subst e
      rfl
    · subst e
      rfl

/-- **C98 (traction).** On the top face the traction has the moduli of the material there, although the composite is given the
moduli of the matrix without looking: inclusions do not touch the face. There is no traction of a representative volume. -/
theorem C98_traction (a : Args) (hL : 0 < a.L) (hr : a.ratio ≤ 1 / 2) (info : Info) (uGrad : Tensor) (x : Fin 3 → ℝ)
    (hx : x 2 = a.unitsZ * a.L) (net : (Fin 6 → ℝ) → ℝ) (H : Tensor) :
    traction a info .dns uGrad = .ok (fun i => stress .dns (computeModuli a info x) uGrad i 2) ∧
    traction a info (.nn net) uGrad = .ok (fun i => Surrogate.stressNN net uGrad i 2) ∧
    traction a info (.rve H) uGrad = .error .notImplemented := by
  classical
  have e : ∀ s : Tensor, (fun i => ∑ j, s i j * (![0, 0, 1] : Fin 3 → ℝ) j) = fun i => s i 2 := by
    intro s
    funext i
    simp [Fin.sum_univ_three]
  have hm : computeModuli a .mixed x = (a.Eout, a.nuOut) := by
    rw [(C98_moduli a x).1, if_neg (not_top a hL hr x hx)]
  refine ⟨?_, ?_, rfl⟩
  · cases info with
    | mixed =>
      rw [hm]
      exact congrArg Except.ok (e _)
    | inner => exact congrArg Except.ok (e _)
    | outer => exact congrArg Except.ok (e _)
  · exact congrArg Except.ok (e _)

/-- **C98 (load steps).** The load steps after a failed solution change nothing: the solver does not get the solution of the
step before, and the last step is the whole load. -/
theorem C98_fallback {Sol : Type} (solver : Tensor → Sol) (energyOf : Tensor → Sol → Flt ℝ) (zeros : Sol) (x : Fin 6 → ℝ) :
    solveRve solver energyOf zeros x
      = (solver (Surrogate.flatToTensor x), x, energyOf (Surrogate.flatToTensor x) (solver (Surrogate.flatToTensor x))) := by
  rw [solveRve]
  have e : ((1 : ℝ) • (Surrogate.flatToTensor x : Tensor)) = Surrogate.flatToTensor x := by
    funext i j
    simp
  simp only [List.foldl_cons, List.foldl_nil]
  split
  · exact congrArg (fun B : Tensor => (solver B, x, energyOf B (solver B))) e
  · rfl

/-- **C98 (samples).** All sampled gradients `|h| ≤ 0.2` are admissible: `I + H` is symmetric positive definite, its
determinant is positive, and different samples have different invariants. -/
theorem C98_samples (x : Fin 6 → ℝ) (hx : ∀ k, |x k| ≤ 0.2) :
    (∀ d : Fin 3 → ℝ, d ≠ 0 → 0 < d ⬝ᵥ (Surrogate.flatToTensor x + 1).mulVec d) ∧
    0 < (Surrogate.flatToTensor x + 1).det ∧
    ∀ y : Fin 6 → ℝ, (∀ k, |y k| ≤ 0.2) → (Surrogate.hToC y).1 = (Surrogate.hToC x).1 → y = x := by
  have det_ne : ∀ x : Fin 6 → ℝ, (∀ k, |x k| ≤ 0.2) → (Surrogate.flatToTensor x + 1).det ≠ 0 := by
    intro x hx hc
    obtain ⟨d, hd, h0⟩ := Matrix.exists_mulVec_eq_zero_iff.2 hc
    have := box_pos x hx d hd
    rw [h0, dotProduct_zero] at this
    exact lt_irrefl _ this
  refine ⟨fun d hd => box_pos x hx d hd, ?_, fun y hy h => ?_⟩
  · -- the determinant does not vanish on the segment from the identity
    by_contra hc
    have hneg : (Surrogate.flatToTensor x + 1).det ≤ 0 := not_lt.1 hc
    have hcont : Continuous fun t : ℝ => (Surrogate.flatToTensor (t • x) + 1).det := by
      have : (fun t : ℝ => (Surrogate.flatToTensor (t • x) + 1).det)
          = fun t : ℝ => (t * x 0 + 1) * ((t * x 1 + 1) * (t * x 2 + 1)) - (t * x 0 + 1) * ((t * x 5) * (t * x 5))
            - (t * x 3) * ((t * x 3) * (t * x 2 + 1)) + (t * x 3) * ((t * x 5) * (t * x 4))
            + (t * x 4) * ((t * x 3) * (t * x 5)) - (t * x 4) * ((t * x 1 + 1) * (t * x 4)) := by
        funext t
        rw [det_fin_three]
        simp [Surrogate.flatToTensor, Matrix.add_apply, Matrix.one_apply]
        ring
      rw [this]
      fun_prop
    have h0 : (Surrogate.flatToTensor ((0 : ℝ) • x) + 1).det = 1 := by
      have : Surrogate.flatToTensor ((0 : ℝ) • x) = 0 := by
        ext i j
        fin_cases i <;> fin_cases j <;> simp [Surrogate.flatToTensor]
      rw [this, zero_add, det_one]
    have h1 : (Surrogate.flatToTensor ((1 : ℝ) • x) + 1).det ≤ 0 := by rwa [one_smul]
    obtain ⟨t, ht, h2⟩ := intermediate_value_Icc' (zero_le_one (α := ℝ)) hcont.continuousOn
      (show (0 : ℝ) ∈ Set.Icc _ _ from ⟨h1, by rw [h0]; exact zero_le_one⟩)
    refine det_ne (t • x) (fun k => ?_) h2
    rw [Pi.smul_apply, smul_eq_mul, abs_mul, abs_of_nonneg ht.1]
    nlinarith [hx k, abs_nonneg (x k), ht.2]
  · obtain ⟨z, -, hz⟩ := Surrogate.C96_samples (Surrogate.flatToTensor x + 1) (det_ne x hx)
    have h2 : (Surrogate.hToC x).2 = (Surrogate.flatToTensor x + 1).transpose * (Surrogate.flatToTensor x + 1) := rfl
    have hC : (Surrogate.hToC y).2 = (Surrogate.hToC x).2 := by
      have sy : ((Surrogate.hToC y).2).transpose = (Surrogate.hToC y).2 := by
        show (_ * _ : Matrix (Fin 3) (Fin 3) ℝ).transpose = _ * _
        rw [transpose_mul, transpose_transpose]
      have sx : ((Surrogate.hToC x).2).transpose = (Surrogate.hToC x).2 := by
        show (_ * _ : Matrix (Fin 3) (Fin 3) ℝ).transpose = _ * _
        rw [transpose_mul, transpose_transpose]
      rw [← (Surrogate.C96_flat 0 (Surrogate.hToC y).2).2.2.2 sy, ← (Surrogate.C96_flat 0 (Surrogate.hToC x).2).2.2.2 sx]
      exact congrArg Surrogate.flatToTensor h
    rw [hz y ⟨hC, h, fun d hd => box_pos y hy d hd⟩, hz x ⟨rfl, rfl, fun d hd => box_pos x hx d hd⟩]

/-- **C98 (collection of data).** Files in the folder of an earlier run are kept. If the loop ends, exactly one file per sample
and only numbers are stored. It ends after as many rounds as samples are missing if all of these can be solved, whatever
is drawn; if one of them fails it never ends. -/
theorem C98_collect (root : List Char) (solve : (Fin 6 → ℝ) → (Fin 6 → ℝ) × Flt ℝ) (samples : List (Fin 6 → ℝ))
    (hn : samples.length ≤ 100000) (choose : Nat → List Nat → Nat) (hc : ∀ t l, l ≠ [] → choose t l ∈ l) (t : Nat)
    (f : Folder) (hv : Valid root solve samples f) :
    (∀ fuel f', collect root solve samples choose fuel t f = some f' → Valid root solve samples f' ∧
      (∃ new, f'.npy = f.npy ++ new ∧ new.length = (todoOf samples.length f).length) ∧
      ∀ i, (hi : i < samples.length) → (fileName root i, solve samples[i]) ∈ f'.npy) ∧
    ((∀ i, (hi : i < samples.length) → (∀ r ∈ f.npy, r.1 ≠ fileName root i) → (solve samples[i]).2 ≠ .nan) →
      (∃ f', collect root solve samples choose (todoOf samples.length f).length t f = some f') ∧
      ∀ fuel < (todoOf samples.length f).length, collect root solve samples choose fuel t f = none) ∧
    ((∃ i, ∃ hi : i < samples.length, (∀ r ∈ f.npy, r.1 ≠ fileName root i) ∧ (solve samples[i]).2 = .nan) →
      ∀ fuel, collect root solve samples choose fuel t f = none) := by
  have hdone : ∀ f : Folder, Valid root solve samples f → ∀ i < samples.length,
      (i ∈ doneOf f ↔ ∃ r ∈ f.npy, r.1 = fileName root i) := by
    intro f hv i hi
    constructor
    · intro h
      obtain ⟨r, hr, rfl⟩ := List.mem_map.1 h
      obtain ⟨j, hj, h1, -⟩ := hv r hr
      refine ⟨r, hr, ?_⟩
      rw [h1, index_name root j (lt_of_lt_of_le hj hn)]
    · rintro ⟨r, hr, h1⟩
      exact List.mem_map.2 ⟨r, hr, by rw [h1, index_name root i (lt_of_lt_of_le hi hn)]⟩
  have hget : ∀ i, (hi : i < samples.length) → samples.getD i 0 = samples[i] := fun i hi => by simp [hi]
  have hstop : ∀ f : Folder, (todoOf samples.length f).length = 0 → Valid root solve samples f →
      ∀ i, (hi : i < samples.length) → (fileName root i, solve samples[i]) ∈ f.npy := by
    intro f h0 hv i hi
    have hmem : i ∈ doneOf f := by
      by_contra hc
      have : i ∈ todoOf samples.length f := mem_todo.2 ⟨hi, hc⟩
      rw [List.length_eq_zero_iff.1 h0] at this
      exact absurd this List.not_mem_nil
    obtain ⟨r, hr, h1⟩ := (hdone f hv i hi).1 hmem
    obtain ⟨j, hj, h2, -⟩ := hv r hr
    have : j = i := by
      rw [h2] at h1
      have h3 := congrArg fileIndex h1
      rwa [index_name root j (lt_of_lt_of_le hj hn), index_name root i (lt_of_lt_of_le hi hn)] at h3
    subst this
    rw [← h2]
    exact hr
  refine ⟨fun fuel => ?_, fun hok => ?_, fun hbad fuel => ?_⟩
  · induction fuel generalizing t f with
    | zero =>
      intro f' h
      rw [collect] at h
      split_ifs at h with h0
      cases h
      exact ⟨hv, ⟨[], by simp, by rw [h0]; rfl⟩, hstop _ h0 hv⟩
    | succ fuel ih =>
      intro f' h
      rw [collect] at h
      split_ifs at h with h0
      · cases h
        exact ⟨hv, ⟨[], by simp, by rw [h0]; rfl⟩, hstop _ h0 hv⟩
      · have hne : todoOf samples.length f ≠ [] := fun hc => h0 (by rw [hc]; rfl)
        have hmem := hc t _ hne
        set i := choose t (todoOf samples.length f)
        have hi := (mem_todo.1 hmem).1
        obtain ⟨h1, ⟨new, h2, h3⟩, h4⟩ := ih (t + 1) _ (record_valid hi hv) f' h
        refine ⟨h1, ?_, h4⟩
        by_cases hnan : (solve (samples.getD i 0)).2 = .nan
        · have hnpy := record_nan (root := root) (f := f) hnan
          refine ⟨new, by rw [h2, hnpy], ?_⟩
          rw [h3, todoOf, doneOf, hnpy]
          rfl
        · rw [record_ok hnan] at h2
          refine ⟨(fileName root i, solve (samples.getD i 0)) :: new, by rw [h2]; simp, ?_⟩
          rw [List.length_cons, h3, todo_record hn hmem hnan, List.length_erase_of_mem hmem]
          have := List.length_pos_of_mem hmem
          omega
  · generalize hm : (todoOf samples.length f).length = m
    induction m generalizing t f with
    | zero =>
      refine ⟨⟨f, ?_⟩, fun fuel h => absurd h (Nat.not_lt_zero _)⟩
      rw [collect, if_pos hm]
    | succ m ih =>
      have h0 : (todoOf samples.length f).length ≠ 0 := by omega
      have hne : todoOf samples.length f ≠ [] := fun hc => h0 (by rw [hc]; rfl)
      have hmem := hc t _ hne
      set i := choose t (todoOf samples.length f) with hi'
      have hi := (mem_todo.1 hmem).1
      have hnan : (solve (samples.getD i 0)).2 ≠ .nan := by
        rw [hget i hi]
        refine hok i hi fun r hr hc => (mem_todo.1 hmem).2 ((hdone f hv i hi).2 ⟨r, hr, hc⟩)
      obtain ⟨⟨f', hf'⟩, hlt⟩ := ih (t + 1) (record root solve samples i f) (record_valid hi hv)
        (fun j hj hr => hok j hj fun r hrm => hr r (by rw [record_ok hnan]; exact List.mem_append_left _ hrm))
        (by rw [todo_record hn hmem hnan, List.length_erase_of_mem hmem, hm]; rfl)
      refine ⟨⟨f', ?_⟩, fun fuel hfuel => ?_⟩
      · rw [collect]
        rw [if_neg h0]
        exact hf'
      · cases fuel with
        | zero => rw [collect, if_neg h0]
        | succ k =>
          rw [collect]
          rw [if_neg h0]
          exact hlt k (by omega)
  · obtain ⟨b, hb, hr, hnan⟩ := hbad
    induction fuel generalizing t f with
    | zero =>
      have hmem : b ∈ todoOf samples.length f := mem_todo.2 ⟨hb, fun h => by
        obtain ⟨r, h1, h2⟩ := (hdone f hv b hb).1 h
        exact hr r h1 h2⟩
      rw [collect, if_neg (List.length_pos_of_mem hmem).ne']
    | succ fuel ih =>
      have hmem : b ∈ todoOf samples.length f := mem_todo.2 ⟨hb, fun h => by
        obtain ⟨r, h1, h2⟩ := (hdone f hv b hb).1 h
        exact hr r h1 h2⟩
      rw [collect]
      rw [if_neg (List.length_pos_of_mem hmem).ne']
      have hmem' := hc t _ (List.ne_nil_of_mem hmem)
      set i := choose t (todoOf samples.length f)
      have hi := (mem_todo.1 hmem').1
      refine ih (t + 1) _ (record_valid hi hv) fun r hrm hc' => ?_
      by_cases hn' : (solve (samples.getD i 0)).2 = .nan
      · rw [record_nan hn'] at hrm
        exact hr r hrm hc'
      · rw [record_ok hn'] at hrm
        rcases List.mem_append.1 hrm with h1 | h1
        · exact hr r h1 hc'
        · rw [List.mem_singleton] at h1
          subst h1
          have h3 := congrArg fileIndex hc'
          rw [index_name root i (lt_of_lt_of_le hi hn), index_name root b (lt_of_lt_of_le hb hn)] at h3
          rw [h3, hget b hb] at hn'
          exact hn' hnan

/-- **C98 (splitting of data).** Training, validation and test set are a partition of the data: 80, 10 and 10 percent up to
rounding. -/
theorem C98_split (n : Nat) (perm : List Nat) (hp : perm.Perm (List.range n)) :
    let s := splitInds perm
    s.1 ++ s.2.1 ++ s.2.2 = perm ∧ s.1.length = 8 * n / 10 ∧ s.2.1.length = 9 * n / 10 - 8 * n / 10 ∧
    s.2.2.length = n - 9 * n / 10 ∧
    ∀ i < n, (i ∈ s.1 ∧ i ∉ s.2.1 ∧ i ∉ s.2.2) ∨ (i ∉ s.1 ∧ i ∈ s.2.1 ∧ i ∉ s.2.2) ∨ (i ∉ s.1 ∧ i ∉ s.2.1 ∧ i ∈ s.2.2) := by
  intro s
  have hl : perm.length = n := by rw [hp.length_eq, List.length_range]
  have hcat : s.1 ++ s.2.1 ++ s.2.2 = perm := by
    simp only [s, splitInds, slice, hl]
    have h2 : perm.take (8 * n / 10) ++ (perm.take (9 * n / 10)).drop (8 * n / 10) = perm.take (9 * n / 10) := by
      have : perm.take (8 * n / 10) = (perm.take (9 * n / 10)).take (8 * n / 10) := by
        rw [List.take_take]
        congr 1
        omega
      rw [this, List.take_append_drop]
    rw [List.drop_zero, h2, ← hl, List.take_length, List.take_append_drop]
  refine ⟨hcat, ?_, ?_, ?_, fun i hi => ?_⟩
  · simp [s, splitInds, slice, hl]; omega
  · simp [s, splitInds, slice, hl]; omega
  · simp [s, splitInds, slice, hl]
  · have hm : i ∈ perm := hp.mem_iff.2 (List.mem_range.2 hi)
    have hd : perm.Nodup := hp.nodup_iff.2 List.nodup_range
    rw [← hcat] at hm hd
    rw [List.nodup_append, List.nodup_append] at hd
    obtain ⟨⟨-, -, h12⟩, -, h3⟩ := hd
    rcases List.mem_append.1 hm with hm | hm
    · rcases List.mem_append.1 hm with hm' | hm'
      · exact .inl ⟨hm', fun h => h12 i hm' i h rfl, fun h => h3 i hm i h rfl⟩
      · exact .inr (.inl ⟨fun h => h12 i h i hm' rfl, hm', fun h => h3 i hm i h rfl⟩)
    · exact .inr (.inr ⟨fun h => h3 i (List.mem_append_left _ h) i hm rfl,
        fun h => h3 i (List.mem_append_right _ h) i hm rfl, hm⟩)

end JaxFem.Rve
