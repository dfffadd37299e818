import Verif.Thm.C97_Rows
import Verif.Spec.Deriv
import Mathlib.Analysis.Calculus.FDeriv.Mul
import Mathlib.Analysis.Calculus.FDeriv.Add
import Mathlib.Analysis.Calculus.FDeriv.Pi
import Mathlib.Analysis.Calculus.FDeriv.Prod
import Mathlib.Analysis.Calculus.FDeriv.Linear
import Mathlib.Analysis.Calculus.FDeriv.Comp
import Mathlib.LinearAlgebra.Dual.Lemmas
import Mathlib.LinearAlgebra.Matrix.ToLin
import Mathlib.Tactic.FieldSimp
import Mathlib.Tactic.Linarith
import Mathlib.Tactic.FinCases
import Mathlib.Tactic.NormNum

/-!
# C97: the saddle point system of the multiplier solver
-/

namespace JaxFem
namespace LM

variable (P : Prob ℝ)

/-! ### Rows as a matrix -/

theorem rows_get (h : WF P) (q : Fin (augSize P)) : ∃ row ∈ rows P, (rows P)[(q : Nat)]? = some row :=
  have hq : (q : Nat) < (rows P).length := by rw [rows_length P h]; exact q.2
  ⟨(rows P)[(q : Nat)], List.getElem_mem _, List.getElem?_eq_getElem hq⟩

theorem rows_valid (h : WF P) (row : Row ℝ) (hr : row ∈ rows P) :
    match row with
    | .fixed k _ => k < nDofs P
    | .tie a b => a < nDofs P ∧ b < nDofs P := by
  rw [rows, List.mem_append, List.mem_flatMap, List.mem_flatMap] at hr
  rcases hr with ⟨e, he, hr⟩ | ⟨g, hg, hr⟩
  · obtain ⟨⟨⟨n, c⟩, v⟩, hq, rfl⟩ := List.mem_map.1 hr
    have h2 := List.of_mem_zip (List.of_mem_zip hq).1
    have := index_lt P.fe n c ((h.valid e he).1 n h2.1) ((h.valid e he).2 c h2.2)
    rw [Nat.mul_comm] at this
    exact this
  · obtain ⟨⟨⟨a, b⟩, c⟩, hq, rfl⟩ := List.mem_map.1 hr
    have h1 := List.of_mem_zip hq
    have h2 := List.of_mem_zip h1.1
    have ha := index_lt P.fe a c ((h.pvalid g hg).1 a h2.1) ((h.pvalid g hg).2.2 c h1.2)
    have hb := index_lt P.fe b c ((h.pvalid g hg).2.1 b h2.2) ((h.pvalid g hg).2.2 c h1.2)
    rw [Nat.mul_comm] at ha hb
    exact ⟨ha, hb⟩

theorem getD_ofFn {n : Nat} (u : Fin n → ℝ) (k : Nat) (hk : k < n) : (List.ofFn u).getD k 0 = u ⟨k, hk⟩ := by
  simp [List.getD_eq_getElem?_getD, hk]

theorem sum_single {n : Nat} (u : Fin n → ℝ) (k : Nat) (hk : k < n) :
    ∑ j : Fin n, (if (j : Nat) = k then (1 : ℝ) else 0) * u j = u ⟨k, hk⟩ := by
  rw [Finset.sum_eq_single ⟨k, hk⟩]
  · simp
  · intro j _ hj
    rw [if_neg (fun e => hj (Fin.ext e)), zero_mul]
  · intro hc; exact absurd (Finset.mem_univ _) hc

theorem eval_eq (h : WF P) (u : Fin (nDofs P) → ℝ) (row : Row ℝ) (hr : row ∈ rows P) :
    Row.eval (List.ofFn u) row = ∑ j : Fin (nDofs P), row.coeff j * u j - row.rhs := by
  have hv := rows_valid P h row hr
  cases row with
  | fixed k v =>
    simp only [Row.eval, Row.coeff, Row.rhs]
    rw [getD_ofFn u k hv, sum_single u k hv]
  | tie a b =>
    simp only [Row.eval, Row.coeff, Row.rhs, sub_mul, Finset.sum_sub_distrib]
    rw [getD_ofFn u a hv.1, getD_ofFn u b hv.2, sum_single u a hv.1, sum_single u b hv.2, sub_zero]

theorem take_ofFn (x : Vec P) : (List.ofFn x).take (nDofs P) = List.ofFn (dofsOf P x) := by
  refine List.ext_getElem (by simp) fun i h1 h2 => ?_
  simp [dofsOf]

theorem drop_ofFn (x : Vec P) : (List.ofFn x).drop (nDofs P) = List.ofFn (lamOf P x) := by
  refine List.ext_getElem (by simp) fun i h1 h2 => ?_
  simp [lamOf]

theorem zipWith_sum_ofFn {m : Nat} (l : Fin m → ℝ) (ys : List ℝ) (hy : ys.length = m) :
    (List.zipWith (fun a b => a * b) (List.ofFn l) ys).sum = ∑ q : Fin m, l q * ys.getD q 0 := by
  have : List.zipWith (fun a b => a * b) (List.ofFn l) ys = List.ofFn fun q : Fin m => l q * ys.getD q 0 := by
    refine List.ext_getElem (by simp [hy]) fun i h1 h2 => ?_
    have hi : i < ys.length := by simp at h1; omega
    simp [hi]
  rw [this, List.sum_ofFn]

/-- The Lagrangian of the constraints. -/
theorem lagrangian_sum (h : WF P) (eps : ℝ) (x : Vec P) :
    lagrangian P eps (List.ofFn x) =
      eps * ∑ q, lamOf P x q * (∑ j, bMat P q j * dofsOf P x j - gVec P q) := by
  rw [lagrangian_eq P h, take_ofFn, drop_ofFn, zipWith_sum_ofFn _ _ (by rw [List.length_map, rows_length P h])]
  congr 1
  refine Finset.sum_congr rfl fun q _ => ?_
  obtain ⟨row, hr, hq⟩ := rows_get P h q
  congr 1
  rw [List.getD_eq_getElem?_getD, List.getElem?_map, hq]
  simp only [Option.map_some, Option.getD_some]
  rw [eval_eq P h _ row hr]
  simp only [bMat, gVec, Matrix.of_apply, hq, Option.map_some, Option.getD_some]

theorem lagrangian_deriv (h : WF P) (eps : ℝ) (x v : Vec P) :
    DifferentiableAt ℝ (fun y : Vec P => lagrangian P eps (List.ofFn y)) x ∧
    fderiv ℝ (fun y : Vec P => lagrangian P eps (List.ofFn y)) x v =
      eps * ∑ q, (lamOf P x q * ∑ j, bMat P q j * dofsOf P v j +
        (∑ j, bMat P q j * dofsOf P x j - gVec P q) * lamOf P v q) := by
  have e : (fun y : Vec P => lagrangian P eps (List.ofFn y)) = fun y : Vec P =>
      eps * ∑ q, y (Fin.natAdd _ q) * (∑ j, bMat P q j * y (Fin.castAdd _ j) - gVec P q) := by
    funext y
    exact lagrangian_sum P h eps y
  have hx : ∀ k, HasFDerivAt (fun y : Vec P => y k) (ContinuousLinearMap.proj (R := ℝ) (φ := fun _ => ℝ) k) x :=
    fun k => hasFDerivAt_apply k x
  have hd := (HasFDerivAt.fun_sum (u := Finset.univ) fun (q : Fin (augSize P)) _ =>
    (hx (Fin.natAdd _ q)).mul ((HasFDerivAt.fun_sum (u := Finset.univ) fun (j : Fin (nDofs P)) _ =>
      (hx (Fin.castAdd _ j)).const_mul (bMat P q j)).sub_const (gVec P q))).const_mul eps
  rw [e]
  refine ⟨hd.differentiableAt, ?_⟩
  have hf := hd.fderiv
  refine (congrArg (fun L : Vec P →L[ℝ] ℝ => L v) hf).trans ?_
  simp only [_root_.smul_apply, _root_.sum_apply, _root_.add_apply,
    ContinuousLinearMap.proj_apply, smul_eq_mul]
  rfl

/-- **C97 (residual).** The augmented residual: the residual plus the constraint forces, and the
violation of the constraints, both scaled by `p_num_eps`. -/
theorem C97_residual (h : WF P) (eps : ℝ) (r : Fin (nDofs P) → ℝ) (x : Vec P) :
    (∀ j, residual P eps r x (Fin.castAdd _ j) = r j + eps * ∑ q, lamOf P x q * bMat P q j) ∧
    ∀ q, residual P eps r x (Fin.natAdd _ q) = eps * (∑ j, bMat P q j * dofsOf P x j - gVec P q) := by
  have hz : ∀ k : Fin (nDofs P + augSize P), ofList P (augZero P (List.ofFn r)) k =
      (List.ofFn r ++ List.replicate (augSize P) 0).getD k 0 := fun k => rfl
  constructor
  · intro j
    rw [residual, Pi.add_apply, (lagrangian_deriv P h eps x _).2, hz, add_comm]
    congr 1
    · rw [List.getD_eq_getElem?_getD, List.getElem?_append_left (by simp)]
      simp
    · congr 1
      refine Finset.sum_congr rfl fun q _ => ?_
      have h1 : lamOf P (Pi.single (Fin.castAdd _ j) 1) q = 0 := by
        simp only [lamOf]
        rw [Pi.single_eq_of_ne]
        intro hc
        have := congrArg Fin.val hc
        simp only [Fin.val_natAdd, Fin.val_castAdd] at this
        have := j.2
        omega
      have h2 : ∀ i, dofsOf P (Pi.single (Fin.castAdd _ j) 1) i = if i = j then 1 else 0 := by
        intro i
        simp only [dofsOf, Pi.single_apply, Fin.castAdd_inj]
      rw [h1, mul_zero, add_zero]
      simp only [h2]
      simp
  · intro q
    rw [residual, Pi.add_apply, (lagrangian_deriv P h eps x _).2, hz]
    rw [List.getD_eq_getElem?_getD, List.getElem?_append_right (by simp)]
    have h0 : ((List.replicate (augSize P) (0 : ℝ))[(Fin.natAdd (nDofs P) q : Nat) - (List.ofFn r).length]?).getD 0 = 0 := by
      rw [List.getElem?_replicate]
      split <;> rfl
    rw [h0, add_zero]
    congr 1
    have h1 : ∀ i, lamOf P (Pi.single (Fin.natAdd _ q) 1) i = if i = q then 1 else 0 := by
      intro i
      simp only [lamOf, Pi.single_apply, Fin.natAdd_inj]
    have h2 : ∀ i, dofsOf P (Pi.single (Fin.natAdd _ q) 1) i = 0 := by
      intro i
      simp only [dofsOf]
      rw [Pi.single_eq_of_ne]
      intro hc
      have := congrArg Fin.val hc
      simp only [Fin.val_natAdd, Fin.val_castAdd] at this
      have := i.2
      omega
    simp only [h1, h2]
    simp

/-- **C97 (Lagrangian).** If the residual is the gradient of an energy, the augmented residual is the
gradient of `E(u) + p_num_eps * lmbda * (B u - g)`. -/
theorem C97_lagrangian (h : WF P) (eps : ℝ) (E : (Fin (nDofs P) → ℝ) → ℝ) (r : Fin (nDofs P) → ℝ) (x : Vec P)
    (E' : (Fin (nDofs P) → ℝ) →L[ℝ] ℝ) (hE : HasFDerivAt E E' (dofsOf P x)) (hr : ∀ v, E' v = ∑ j, r j * v j) :
    ∃ L' : Vec P →L[ℝ] ℝ, HasFDerivAt (fun y : Vec P => E (dofsOf P y) +
        eps * ∑ q, lamOf P y q * (∑ j, bMat P q j * dofsOf P y j - gVec P q)) L' x ∧
      ∀ v, L' v = ∑ k, residual P eps r x k * v k := by
  have e : (fun y : Vec P => lagrangian P eps (List.ofFn y)) = fun y : Vec P =>
      eps * ∑ q, lamOf P y q * (∑ j, bMat P q j * dofsOf P y j - gVec P q) := by
    funext y
    exact lagrangian_sum P h eps y
  have h1 := (lagrangian_deriv P h eps x 0).1.hasFDerivAt
  let D : Vec P →L[ℝ] (Fin (nDofs P) → ℝ) :=
    ContinuousLinearMap.pi fun j => ContinuousLinearMap.proj (R := ℝ) (φ := fun _ => ℝ) (Fin.castAdd (augSize P) j)
  have hD : HasFDerivAt (fun y : Vec P => dofsOf P y) D x := D.hasFDerivAt
  have h2 : HasFDerivAt (fun y : Vec P => E (dofsOf P y)) (E'.comp D) x := HasFDerivAt.comp x hE hD
  refine ⟨_, h2.add (e ▸ h1), fun v => ?_⟩
  have hf := (lagrangian_deriv P h eps x v).2
  rw [e] at hf
  rw [_root_.add_apply, hf, ContinuousLinearMap.comp_apply, hr, Fin.sum_univ_add]
  have hc := C97_residual P h eps r x
  simp only [hc.1, hc.2]
  have hDv : ∀ j, D v j = v (Fin.castAdd _ j) := fun j => rfl
  simp only [hDv, add_mul, Finset.sum_add_distrib, mul_add, add_assoc]
  congr 1
  have s1 : eps * ∑ q, lamOf P x q * ∑ j, bMat P q j * dofsOf P v j =
      ∑ j, (eps * ∑ q, lamOf P x q * bMat P q j) * v (Fin.castAdd _ j) := by
    simp only [Finset.mul_sum, Finset.sum_mul]
    rw [Finset.sum_comm]
    refine Finset.sum_congr rfl fun j _ => Finset.sum_congr rfl fun q _ => ?_
    simp only [dofsOf]; ring
  rw [s1]
  congr 1
  rw [Finset.mul_sum]
  refine Finset.sum_congr rfl fun q _ => ?_
  simp only [lamOf]; ring

/-! ### The matrix -/

theorem rc_rows (q : Fin (augSize P)) (j : Nat) :
    rc (rows P) (nDofs P) j (nDofs P + q) = (((rows P)[(q : Nat)]?).map fun row => row.coeff j).getD 0 := by
  rw [rc, if_pos (by omega), Nat.add_sub_cancel_left]

/-- **C97 (blocks).** The augmented matrix has the blocks `A`, `p_num_eps * B`, its transpose and
zero; its size is that of the augmented vector. -/
theorem C97_blocks (h : WF P) (eps : ℝ) (T : List Nat × List Nat × List ℝ) (hT : WFT P T.1 T.2.1 T.2.2) :
    (augTriplets P eps T).2 = nDofs P + augSize P ∧
    (∀ i j, matrix P eps T (Fin.castAdd _ i) (Fin.castAdd _ j) = kMat P T i j) ∧
    (∀ i q, matrix P eps T (Fin.castAdd _ i) (Fin.natAdd _ q) = eps * bMat P q i) ∧
    (∀ q j, matrix P eps T (Fin.natAdd _ q) (Fin.castAdd _ j) = eps * bMat P q j) ∧
    ∀ q q', matrix P eps T (Fin.natAdd _ q) (Fin.natAdd _ q') = 0 := by
  have hr0 : ∀ (r c : Nat), c < nDofs P → rc (rows P) (nDofs P) r c = (0 : ℝ) := by
    intro r c hc
    rw [rc, if_neg (by omega)]
  have hval : ∀ (q q' : Fin (augSize P)), rc (rows P) (nDofs P) (nDofs P + q) (nDofs P + q') = (0 : ℝ) := by
    intro q q'
    rw [rc_rows]
    obtain ⟨row, hrow, hq⟩ := rows_get P h q'
    rw [hq]
    have hv := rows_valid P h row hrow
    cases row with
    | fixed k v => simp only [Option.map_some, Option.getD_some, Row.coeff]; rw [if_neg]; dsimp only at hv; omega
    | tie a b =>
      simp only [Option.map_some, Option.getD_some, Row.coeff]
      dsimp only at hv
      rw [if_neg (by omega), if_neg (by omega), sub_zero]
  have hT1 : ∀ r c : Nat, nDofs P ≤ r → cooEntry T.1 T.2.1 T.2.2 r c = 0 := fun r c hr =>
    cooEntry_zero _ _ _ _ _ (.inl fun i hi => by have := hT.ltI i hi; omega)
  have hT2 : ∀ r c : Nat, nDofs P ≤ c → cooEntry T.1 T.2.1 T.2.2 r c = 0 := fun r c hr =>
    cooEntry_zero _ _ _ _ _ (.inr fun i hi => by have := hT.ltJ i hi; omega)
  refine ⟨augTriplets_size P h eps T, fun i j => ?_, fun i q => ?_, fun q j => ?_, fun q q' => ?_⟩ <;>
    simp only [matrix, Matrix.of_apply, Fin.val_castAdd, Fin.val_natAdd, kMat, bMat] <;>
    rw [augTriplets_entry P h eps T hT]
  · rw [hr0 _ _ j.2, hr0 _ _ i.2]; ring
  · rw [hT2 _ _ (by omega), hr0 _ _ i.2, rc_rows]; ring
  · rw [hT1 _ _ (by omega), hr0 _ _ j.2, rc_rows]; ring
  · rw [hT1 _ _ (by omega), hval, hval]; ring

theorem matrix_mulVec (h : WF P) (eps : ℝ) (T : List Nat × List Nat × List ℝ) (hT : WFT P T.1 T.2.1 T.2.2)
    (y : Vec P) :
    (∀ j, (matrix P eps T).mulVec y (Fin.castAdd _ j) =
      (kMat P T).mulVec (dofsOf P y) j + eps * ∑ q, lamOf P y q * bMat P q j) ∧
    ∀ q, (matrix P eps T).mulVec y (Fin.natAdd _ q) = eps * ∑ j, bMat P q j * dofsOf P y j := by
  obtain ⟨-, b1, b2, b3, b4⟩ := C97_blocks P h eps T hT
  constructor
  · intro j
    simp only [Matrix.mulVec, dotProduct, Fin.sum_univ_add, b1, b2, Finset.mul_sum]
    congr 1
    refine Finset.sum_congr rfl fun q _ => ?_
    simp only [lamOf]; ring
  · intro q
    simp only [Matrix.mulVec, dotProduct, Fin.sum_univ_add, b3, b4, Finset.mul_sum, zero_mul, Finset.sum_const_zero,
      add_zero]
    refine Finset.sum_congr rfl fun q _ => ?_
    simp only [dofsOf]; ring

/-- **C97 (symmetry).** The augmented matrix is symmetric exactly if the unconstrained one is. -/
theorem C97_symmetric (h : WF P) (eps : ℝ) (T : List Nat × List Nat × List ℝ) (hT : WFT P T.1 T.2.1 T.2.2) :
    (∀ k l, matrix P eps T k l = matrix P eps T l k) ↔ ∀ i j, kMat P T i j = kMat P T j i := by
  obtain ⟨-, b1, b2, b3, b4⟩ := C97_blocks P h eps T hT
  constructor
  · intro hs i j
    rw [← b1, ← b1, hs]
  · intro hs k l
    refine Fin.addCases (fun i => ?_) (fun q => ?_) k <;> refine Fin.addCases (fun j => ?_) (fun q' => ?_) l
    · rw [b1, b1, hs]
    · rw [b2, b3]
    · rw [b3, b2]
    · rw [b4, b4]

/-- **C97 (tangent).** If the triplets are the derivative of the residual, the augmented matrix is the
derivative of the augmented residual. -/
theorem C97_tangent (h : WF P) (eps : ℝ) (T : List Nat × List Nat × List ℝ) (hT : WFT P T.1 T.2.1 T.2.2)
    (res : (Fin (nDofs P) → ℝ) → Fin (nDofs P) → ℝ) (x : Vec P) (hK : HasJacobianAt res (kMat P T) (dofsOf P x)) :
    HasJacobianAt (fun y : Vec P => residual P eps (res (dofsOf P y)) y) (matrix P eps T) x := by
  let D : Vec P →L[ℝ] (Fin (nDofs P) → ℝ) :=
    ContinuousLinearMap.pi fun j => ContinuousLinearMap.proj (R := ℝ) (φ := fun _ => ℝ) (Fin.castAdd (augSize P) j)
  have hD : HasFDerivAt (fun y : Vec P => dofsOf P y) D x := D.hasFDerivAt
  have hres : HasFDerivAt (fun y : Vec P => res (dofsOf P y)) ((matCLM (kMat P T)).comp D) x :=
    HasFDerivAt.comp x hK hD
  have hx : ∀ k, HasFDerivAt (fun y : Vec P => y k) (ContinuousLinearMap.proj (R := ℝ) (φ := fun _ => ℝ) k) x :=
    fun k => hasFDerivAt_apply k x
  have hm := fun v => matrix_mulVec P h eps T hT v
  unfold HasJacobianAt
  rw [hasFDerivAt_pi']
  intro k
  refine Fin.addCases (fun j => ?_) (fun q => ?_) k
  · have e : (fun y : Vec P => residual P eps (res (dofsOf P y)) y (Fin.castAdd _ j)) = fun y : Vec P =>
        res (dofsOf P y) j + eps * ∑ q, y (Fin.natAdd _ q) * bMat P q j := by
      funext y
      exact (C97_residual P h eps _ y).1 j
    rw [e]
    have h1 := (hasFDerivAt_pi'.1 hres j).add ((HasFDerivAt.fun_sum (u := Finset.univ)
      fun (q : Fin (augSize P)) _ => (hx (Fin.natAdd _ q)).mul_const (bMat P q j)).const_mul eps)
    refine h1.congr_fderiv ?_
    ext1 v
    refine Eq.trans ?_ ((hm v).1 j).symm
    simp only [_root_.add_apply, _root_.smul_apply, _root_.sum_apply, ContinuousLinearMap.comp_apply,
      ContinuousLinearMap.proj_apply, smul_eq_mul]
    congr 2
    refine Finset.sum_congr rfl fun q _ => ?_
    simp only [lamOf]; ring
  · have e : (fun y : Vec P => residual P eps (res (dofsOf P y)) y (Fin.natAdd _ q)) = fun y : Vec P =>
        eps * (∑ j, bMat P q j * y (Fin.castAdd _ j) - gVec P q) := by
      funext y
      exact (C97_residual P h eps _ y).2 q
    rw [e]
    have h1 := ((HasFDerivAt.fun_sum (u := Finset.univ)
      fun (j : Fin (nDofs P)) _ => (hx (Fin.castAdd _ j)).const_mul (bMat P q j)).sub_const (gVec P q)).const_mul eps
    refine h1.congr_fderiv ?_
    ext1 v
    refine Eq.trans ?_ ((hm v).2 q).symm
    simp only [_root_.smul_apply, _root_.sum_apply, ContinuousLinearMap.proj_apply, smul_eq_mul]
    rfl

end LM
end JaxFem
