import Verif.Spec.DynRelax
import Verif.Thm.Flt
import Verif.Thm.C17_Tangent
import Verif.Thm.C04_Coo
import Mathlib.Analysis.SpecialFunctions.Pow.Real

/-!
# C33-C35, C59: dynamic relaxation
-/

namespace JaxFem

universe u

open Flt

section
variable {K : Type u} [Field K] [LinearOrder K] [IsStrictOrderedRing K]

/-! ### Helper lemmas -/

omit [IsStrictOrderedRing K] in
/-- The two clipping lines of `calC`. -/
theorem clip_spec (c : Flt K) (cmin cmax : K) (h : cmin ≤ cmax) (hc : c.isNaN = false) :
    ∃ x, (if (if c.lt (fin cmin) then fin cmin else c).gt (fin cmax) then fin cmax
      else (if c.lt (fin cmin) then fin cmin else c)) = fin x ∧ cmin ≤ x ∧ x ≤ cmax := by
  cases c with
  | nan => cases hc
  | inf n =>
    cases n with
    | true =>
      have : (inf true : Flt K).lt (fin cmin) = true := rfl
      simp only [this, if_true, gt_fin, decide_eq_true_eq, if_neg (not_lt.2 h)]
      exact ⟨cmin, rfl, le_rfl, h⟩
    | false =>
      have : (inf false : Flt K).lt (fin cmin) = false := rfl
      have h2 : (inf false : Flt K).gt (fin cmax) = true := rfl
      simp only [this, Bool.false_eq_true, if_false, h2, if_true]
      exact ⟨cmax, rfl, h, le_rfl⟩
  | fin x =>
    by_cases h1 : x < cmin
    · simp only [lt_fin, h1, decide_true, if_true, gt_fin, decide_eq_true_eq, if_neg (not_lt.2 h)]
      exact ⟨cmin, rfl, le_rfl, h⟩
    · by_cases h2 : cmax < x
      · simp only [lt_fin, h1, decide_false, Bool.false_eq_true, if_false, gt_fin, h2, decide_true,
          if_true]
        exact ⟨cmax, rfl, h, le_rfl⟩
      · simp only [lt_fin, h1, decide_false, Bool.false_eq_true, if_false, gt_fin, h2]
        exact ⟨x, rfl, not_lt.1 h1, not_lt.1 h2⟩

/-- The damping coefficient is in range. -/
theorem calC_range (root : K → K) (t : Flt K) (ht : t.isNaN = false) (cmin cmax : K)
    (h : cmin ≤ cmax) :
    ∃ x, calC root t (fin cmin) (fin cmax) = fin x ∧ cmin ≤ x ∧ x ≤ cmax := by
  rw [calC]
  apply clip_spec _ _ _ h
  cases t with
  | nan => cases ht
  | inf n =>
    cases n with
    | true =>
      have : (inf true : Flt K).lt 0 = true := rfl
      rw [if_pos this, zero_def, Flt.sqrt, if_neg (lt_irrefl _), fin_mul]
      rfl
    | false =>
      have : (inf false : Flt K).lt 0 = false := rfl
      rw [if_neg (by rw [this]; simp), Flt.sqrt, if_neg (by simp)]
      show (if (2 : K) = 0 then _ else _ : Flt K).isNaN = false
      rw [if_neg (by norm_num)]
      rfl
  | fin x =>
    by_cases hx : x < 0
    · rw [zero_def, if_pos (by rw [lt_fin]; simpa using hx), Flt.sqrt, if_neg (lt_irrefl _), fin_mul]
      rfl
    · rw [zero_def, if_neg (by rw [lt_fin]; simpa using hx), Flt.sqrt, if_neg hx, fin_mul]
      rfl

omit [IsStrictOrderedRing K] in
/-- Velocity at an entry with zero residual. -/
theorem drVelocity_zero_residual {N : Nat} (c : K) (hc : 2 + c ≠ 0) (qd R M : Fin N → Flt K)
    (i : Fin N) (v m : K) (hq : qd i = fin v) (hR : R i = fin 0) (hM : M i = fin m) (hm : m ≠ 0) :
    drVelocity (fin c) qd R M i = fin ((2 - c) / (2 + c) * v) := by
  rw [drVelocity, hq, hR, hM, one_def, fin_mul, mul_one, fin_sub, fin_add, fin_div _ hc, fin_mul,
    fin_mul, fin_div _ hc, fin_mul, fin_div _ hm, fin_sub]
  simp

variable (root : K → K) (fes : List FE) (bcs : List (List (BCEntry (Flt K)))) (h : WFBC fes bcs)
  (res : (Fin (totalDofs fes) → Flt K) → Fin (totalDofs fes) → Flt K)
  (kmat : (Fin (totalDofs fes) → Flt K) → Matrix (Fin (totalDofs fes)) (Fin (totalDofs fes)) (Flt K))
  (nKMat : Nat)

include h in
/-- The mass of a constrained degree of freedom. -/
theorem drMass_fixed (u : Fin (totalDofs fes) → Flt K) (k : Fin (totalDofs fes)) (v : Flt K)
    (hk : Prescribed fes bcs k (some v)) : drMass fes bcs kmat u k = fin (121 / 400) := by
  have e : (fun j => (elimRows fes bcs (kmat u) k j).abs) =
      fun j => (fin (if k = j then 1 else 0) : Flt K) := by
    funext j
    rw [(elimRows_spec fes bcs h (kmat u) k j).2 v hk]
    split
    · rw [one_def, Flt.abs, if_neg (by simp)]
    · rw [zero_def, Flt.abs, if_neg (by simp)]
  rw [drMass]
  simp only [e]
  rw [sum_fin, Finset.sum_ite_eq, if_pos (Finset.mem_univ k), fin_mul, fin_div _ (by norm_num), fin_mul]
  norm_num

include h in
theorem drResidual_fixed (u : Fin (totalDofs fes) → Flt K) (k : Fin (totalDofs fes)) (v : Flt K)
    (hk : Prescribed fes bcs k (some v)) : drResidual fes bcs res u k = fin 0 :=
  (assignZerosBcV_spec fes bcs h _ k).2 v hk

/-- What stays true at a constrained degree of freedom. -/
def FixedInv (k : Fin (totalDofs fes)) (v : K) (s : DRState K (totalDofs fes)) : Prop :=
  s.q k = fin v ∧ s.qdot k = fin 0 ∧ s.M k = fin (121 / 400)

include h in
theorem drBody_q (k : Fin (totalDofs fes)) (v : K) (s : DRState K (totalDofs fes))
    (hs : FixedInv fes k v s) : (drBody root fes bcs res kmat nKMat s).q k = fin v := by
  show s.q k + 1 * s.qdot k = _
  rw [hs.1, hs.2.1, one_def, fin_mul, fin_add]
  simp

include h in
theorem drBody_inv (k : Fin (totalDofs fes)) (v : K) (w : Flt K) (hk : Prescribed fes bcs k (some w))
    (s : DRState K (totalDofs fes)) (hs : FixedInv fes k v s)
    (ht : (drT (drBody root fes bcs res kmat nKMat s).R s.R s.qdot s.M).isNaN = false) :
    FixedInv fes k v (drBody root fes bcs res kmat nKMat s) := by
  have hM : (drBody root fes bcs res kmat nKMat s).M k = fin (121 / 400) := by
    show (if _ then _ else _ : Fin _ → Flt K) k = _
    split
    · exact drMass_fixed fes bcs h kmat _ k w hk
    · exact hs.2.2
  refine ⟨drBody_q root fes bcs h res kmat nKMat k v s hs, ?_, hM⟩
  have hR : (drBody root fes bcs res kmat nKMat s).R k = fin 0 :=
    drResidual_fixed fes bcs h res _ k w hk
  obtain ⟨c, hc, h1, h2⟩ := calC_range root _ ht (1 / 1000) (39 / 10) (by norm_num)
  show drVelocity (calC root (drT (drBody root fes bcs res kmat nKMat s).R s.R s.qdot s.M)
    (fin (1 / 1000)) (fin (39 / 10))) s.qdot (drBody root fes bcs res kmat nKMat s).R
    (drBody root fes bcs res kmat nKMat s).M k = _
  have hc2 : 2 + c ≠ 0 := by
    have : (0 : K) < 1 / 1000 := by norm_num
    intro hz; linarith
  rw [hc, drVelocity_zero_residual c hc2 _ _ _ k 0 _ hs.2.1 hR hM (by norm_num), mul_zero]

include h in
theorem drInit_inv (u : Fin (totalDofs fes) → Flt K) (k : Fin (totalDofs fes)) (v : K) (w : Flt K)
    (hk : Prescribed fes bcs k (some w)) (hu : u k = fin v) :
    FixedInv fes k v (drInit fes bcs res kmat u) := by
  refine ⟨hu, ?_, drMass_fixed fes bcs h kmat u k w hk⟩
  show fin (-1) / fin 2 * drResidual fes bcs res u k / drMass fes bcs kmat u k = _
  rw [drResidual_fixed fes bcs h res u k w hk, drMass_fixed fes bcs h kmat u k w hk,
    fin_div _ (by norm_num), fin_mul, fin_div _ (by norm_num)]
  simp

omit [IsStrictOrderedRing K] in
theorem mul_notFinite (c : K) (hc : c ≠ 0) (x : Flt K) (hx : x.isFinite = false) :
    (fin c * x).isFinite = false := by
  cases x with
  | nan => rfl
  | inf n =>
    show (if c = 0 then (nan : Flt K) else _).isFinite = false
    rw [if_neg hc]
    rfl
  | fin x => cases hx

omit [IsStrictOrderedRing K] in
theorem div_notFinite (x y : Flt K) (hx : x.isFinite = false) : (x / y).isFinite = false := by
  cases x with
  | nan => cases y <;> rfl
  | inf n => cases y <;> rfl
  | fin x => cases hx

omit [IsStrictOrderedRing K] in
theorem add_isFinite (x y : Flt K) : (x + y).isFinite = (x.isFinite && y.isFinite) := by
  cases x <;> cases y <;> try rfl
  rename_i a b
  show (if a = b then (inf a : Flt K) else nan).isFinite = _
  split <;> rfl

omit [IsStrictOrderedRing K] in
theorem sum_notFinite {N : Nat} (f : Fin N → Flt K) (j : Fin N) (hj : (f j).isFinite = false) :
    (Flt.sum f).isFinite = false := by
  have key : ∀ (l : List (Flt K)) (a : Flt K), (a.isFinite = false ∨ ∃ x ∈ l, x.isFinite = false) →
      (l.foldl (fun a x => a + x) a).isFinite = false := by
    intro l
    induction l with
    | nil => intro a ha; simpa using ha
    | cons x l ih =>
      intro a ha
      rw [List.foldl_cons]
      apply ih
      rw [add_isFinite]
      rcases ha with ha | ⟨y, hy, hf⟩
      · left; rw [ha]; rfl
      · rcases List.mem_cons.1 hy with rfl | hy
        · left; rw [hf, Bool.and_false]
        · exact Or.inr ⟨y, hy, hf⟩
  exact key _ _ (Or.inr ⟨f j, List.mem_ofFn.2 ⟨j, rfl⟩, hj⟩)

omit [IsStrictOrderedRing K] in
theorem drLoop_iterate {N : Nat} (body : DRState K N → DRState K N) (tol : Flt K) (fuel : Nat)
    (s t : DRState K N) (ht : drLoop body tol fuel s = some t) :
    ∃ n, t = body^[n] s ∧ t.error.gt tol = false ∧ ∀ i < n, (body^[i] s).error.gt tol = true := by
  induction fuel generalizing s with
  | zero => cases ht
  | succ fuel ih =>
    rw [drLoop] at ht
    by_cases hg : s.error.gt tol = true
    · rw [if_pos hg] at ht
      obtain ⟨n, h1, h2, h3⟩ := ih (body s) ht
      refine ⟨n + 1, by rw [h1, Function.iterate_succ_apply], h2, fun i hi => ?_⟩
      cases i with
      | zero => exact hg
      | succ i => rw [Function.iterate_succ_apply]; exact h3 i (by omega)
    · rw [if_neg hg] at ht
      cases ht
      exact ⟨0, rfl, Bool.eq_false_iff.2 hg, fun i hi => by omega⟩

/-! ### Property theorems -/

include h in
/-- **C33 (iterations, partial).** As long as the damping estimate is a number, a constrained degree
of freedom has velocity zero and keeps its initial value, for every residual function, tangent and
refresh schedule; the value is kept also by the iteration after the last defined estimate. The
missing part, the case of a NaN estimate, is refuted by `C33_nan_violated`. -/
theorem C33_fixed_partial (u : Fin (totalDofs fes) → Flt K) (k : Fin (totalDofs fes)) (v : K)
    (w : Flt K) (hk : Prescribed fes bcs k (some w)) (hu : u k = fin v) (n : Nat)
    (hd : DampingDefined (drBody root fes bcs res kmat nKMat) (drInit fes bcs res kmat u) n) :
    ((drBody root fes bcs res kmat nKMat)^[n] (drInit fes bcs res kmat u)).qdot k = fin 0 ∧
    ((drBody root fes bcs res kmat nKMat)^[n] (drInit fes bcs res kmat u)).q k = fin v ∧
    ((drBody root fes bcs res kmat nKMat)^[n + 1] (drInit fes bcs res kmat u)).q k = fin v := by
  have key : FixedInv fes k v
      ((drBody root fes bcs res kmat nKMat)^[n] (drInit fes bcs res kmat u)) := by
    induction n with
    | zero => exact drInit_inv fes bcs h res kmat u k v w hk hu
    | succ n ih =>
      have h1 := ih fun i hi => hd i (by omega)
      have h2 := hd n (by omega)
      rw [Function.iterate_succ_apply'] at h2 ⊢
      exact drBody_inv root fes bcs h res kmat nKMat k v w hk _ h1 h2
  refine ⟨key.2.1, key.1, ?_⟩
  rw [Function.iterate_succ_apply']
  exact drBody_q root fes bcs h res kmat nKMat k v _ key

include h in
/-- **C33 (result, partial).** The returned solution has the prescribed value at every constrained
degree of freedom, if the start vector has (always the case with an initial guess) and the damping
estimates are numbers up to the last but one iteration. -/
theorem C33_result_partial (newton : Except Err (Fin (totalDofs fes) → Flt K))
    (guess : Option (Fin (totalDofs fes) → Flt K)) (tol : Flt K) (fuel : Nat)
    (r : Fin (totalDofs fes) → Flt K) (k : Fin (totalDofs fes)) (v : K)
    (hk : Prescribed fes bcs k (some (fin v)))
    (hnewton : guess = none → ∀ d, newton = .ok d → d k = fin v)
    (hd : ∀ d n, drStart fes bcs newton guess = .ok d →
      (∀ i ≤ n, ((drBody root fes bcs res kmat nKMat)^[i] (drInit fes bcs res kmat d)).error.gt tol = true) →
      DampingDefined (drBody root fes bcs res kmat nKMat) (drInit fes bcs res kmat d) n)
    (hr : dynamicRelax root fes bcs res kmat newton guess tol nKMat fuel = some (.ok r)) :
    r k = fin v := by
  rw [dynamicRelax] at hr
  rcases hs : drStart fes bcs newton guess with e | d
  · rw [hs] at hr; cases hr
  rw [hs] at hr
  dsimp only at hr
  have hd0 : d k = fin v := by
    rw [drStart] at hs
    rcases hn : newton with e | d'
    · rw [hn] at hs; cases hs
    rw [hn] at hs
    cases hg : guess with
    | none =>
      rw [hg] at hs
      cases hs
      exact hnewton hg d hn
    | some g =>
      rw [hg] at hs
      cases hs
      exact (assignBcV_spec fes bcs h g k).2 _ hk
  split at hr
  · rcases hl : drLoop (drBody root fes bcs res kmat nKMat) tol fuel (drInit fes bcs res kmat d) with
      _ | t
    · rw [hl] at hr; cases hr
    rw [hl] at hr
    obtain rfl : t.q = r := by
      have := Option.some.inj hr
      exact Except.ok.inj this
    obtain ⟨n, rfl, -, h2⟩ := drLoop_iterate _ _ _ _ _ hl
    cases n with
    | zero => exact (drInit_inv fes bcs h res kmat d k v _ hk hd0).1
    | succ n =>
      exact (C33_fixed_partial root fes bcs h res kmat nKMat d k v _ hk hd0 n
        (hd d n hs fun i hi => h2 i (by omega))).2.2
  · cases hr

omit [IsStrictOrderedRing K] in
/-- **C33 (when the estimate is defined).** With finite residuals, velocities and masses, the damping
estimate is a number unless the kinetic energy `sum qdot M qdot` is zero. -/
theorem C33_estimate_defined {N : Nat} (R Rold qdot M : Fin N → K)
    (hE : ∑ i, qdot i * M i * qdot i ≠ 0) :
    (drT (fun i => fin (R i)) (fun i => fin (Rold i)) (fun i => fin (qdot i))
      fun i => fin (M i)).isNaN = false := by
  rw [drT]
  have e1 : (fun i => ((fin (R i) : Flt K) - fin (Rold i)) / 1 * fin (qdot i)) =
      fun i => fin ((R i - Rold i) * qdot i) := by
    funext i
    rw [fin_sub, one_def, fin_div _ one_ne_zero, fin_mul, div_one]
  have e2 : (fun i => (fin (qdot i) : Flt K) * fin (M i) * fin (qdot i)) =
      fun i => fin (qdot i * M i * qdot i) := rfl
  rw [e1, e2, sum_fin, sum_fin, fin_div _ hE]
  rfl

/-- **C34 (range).** For every estimate that is a number (negative, huge, infinite) the damping
coefficient lies in `[1e-3, 3.9]` and the velocity factor strictly between -1 and 1. -/
theorem C34_range (t : Flt K) (ht : t.isNaN = false) :
    ∃ c, calC root t (fin (1 / 1000)) (fin (39 / 10)) = fin c ∧ 1 / 1000 ≤ c ∧ c ≤ 39 / 10 ∧
      -1 < (2 - c) / (2 + c) ∧ (2 - c) / (2 + c) < 1 := by
  obtain ⟨c, h1, h2, h3⟩ := calC_range root t ht (1 / 1000) (39 / 10) (by norm_num)
  have h0 : (0 : K) < 1 / 1000 := by norm_num
  have hp : 0 < 2 + c := by linarith
  refine ⟨c, h1, h2, h3, ?_, ?_⟩
  · rw [lt_div_iff₀ hp]; linarith
  · rw [div_lt_iff₀ hp]; linarith

omit [IsStrictOrderedRing K] in
/-- **C34 (NaN).** A NaN estimate gives a NaN coefficient: clipping does not catch it. -/
theorem C34_nan (cmin cmax : K) : calC root nan (fin cmin) (fin cmax) = nan := rfl

/-- **C34 (decay).** If the residual is zero at an entry, the velocity there shrinks by the factor
1999/2001 at least. -/
theorem C34_decay {N : Nat} (t : Flt K) (ht : t.isNaN = false) (qd R M : Fin N → Flt K) (i : Fin N)
    (v m : K) (hq : qd i = fin v) (hR : R i = fin 0) (hM : M i = fin m) (hm : m ≠ 0) :
    ∃ v', drVelocity (calC root t (fin (1 / 1000)) (fin (39 / 10))) qd R M i = fin v' ∧
      |v'| ≤ 1999 / 2001 * |v| := by
  obtain ⟨c, h1, h2, h3, -⟩ := C34_range root t ht
  have h0 : (0 : K) < 1 / 1000 := by norm_num
  have hp : 0 < 2 + c := by linarith
  rw [h1]
  refine ⟨_, drVelocity_zero_residual c hp.ne' qd R M i v m hq hR hM hm, ?_⟩
  rw [abs_mul]
  refine mul_le_mul_of_nonneg_right ?_ (abs_nonneg v)
  rw [abs_le]
  constructor
  · rw [le_div_iff₀ hp]; linarith
  · rw [div_le_iff₀ hp]; linarith

/-- **C34 (no clipping inside the range).** Over the reals, `c = 2 sqrt t` whenever that lies in
`[1e-3, 3.9]`. -/
theorem C34_exact (t : ℝ) (ht : 0 ≤ t) (h1 : 1 / 1000 ≤ 2 * √t) (h2 : 2 * √t ≤ 39 / 10) :
    calC Real.sqrt (fin t) (fin (1 / 1000)) (fin (39 / 10)) = fin (2 * √t) := by
  rw [calC, zero_def, lt_fin]
  simp only [not_lt.2 ht, decide_false, Bool.false_eq_true, if_false, Flt.sqrt, fin_mul, lt_fin,
    not_lt.2 h1, gt_fin, not_lt.2 h2]

theorem dr_converged (newton : Except Err (Fin (totalDofs fes) → Flt K))
    (guess : Option (Fin (totalDofs fes) → Flt K)) (tol : K) (fuel : Nat)
    (r : Fin (totalDofs fes) → Flt K)
    (hr : dynamicRelax root fes bcs res kmat newton guess (fin tol) nKMat fuel = some (.ok r)) :
    (∃ k, (drResidual fes bcs res r k).isNaN = true) ∨
      ∀ k, ∃ x, drResidual fes bcs res r k = fin x ∧ |x| ≤ tol := by
  rw [dynamicRelax] at hr
  rcases hs : drStart fes bcs newton guess with e | d
  · rw [hs] at hr; cases hr
  rw [hs] at hr
  dsimp only at hr
  split at hr
  · rcases hl : drLoop (drBody root fes bcs res kmat nKMat) (fin tol) fuel
      (drInit fes bcs res kmat d) with _ | t
    · rw [hl] at hr; cases hr
    rw [hl] at hr
    obtain rfl : t.q = r := Except.ok.inj (Option.some.inj hr)
    obtain ⟨n, hn, h1, -⟩ := drLoop_iterate _ _ _ _ _ hl
    have hR : t.R = drResidual fes bcs res t.q := by
      rw [hn]
      cases n with
      | zero => rfl
      | succ n => rw [Function.iterate_succ_apply']; rfl
    rw [DRState.error, hR] at h1
    obtain ⟨m1, m2⟩ := maxAbs_spec (drResidual fes bcs res t.q)
    by_cases hnan : (maxAbs (drResidual fes bcs res t.q)).isNaN = true
    · exact Or.inl (m1.1 hnan)
    · right
      intro k
      have hk : (drResidual fes bcs res t.q k).isNaN = false := by
        rw [Bool.eq_false_iff]
        exact fun hc => hnan (m1.2 ⟨k, hc⟩)
      exact bounded_of_not_gt _ _ _ hk (Bool.eq_false_iff.2 hnan)
        (m2 (Bool.eq_false_iff.2 hnan) k) h1
  · cases hr

include h in
/-- **C35 (partial).** If dynamic relaxation returns, then either the residual at the returned solution contains a
NaN at a free degree of freedom, or at no free degree of freedom it exceeds the tolerance in absolute value. The
NaN case is a violation, see `C35_violated`. -/
theorem C35_converged_partial (newton : Except Err (Fin (totalDofs fes) → Flt K))
    (guess : Option (Fin (totalDofs fes) → Flt K)) (tol : K) (fuel : Nat)
    (r : Fin (totalDofs fes) → Flt K)
    (hr : dynamicRelax root fes bcs res kmat newton guess (fin tol) nKMat fuel = some (.ok r)) :
    (∃ k : Fin (totalDofs fes), Prescribed fes bcs k none ∧ (res r k).isNaN = true) ∨
      ∀ k : Fin (totalDofs fes), Prescribed fes bcs k none → ∃ x, res r k = fin x ∧ |x| ≤ tol := by
  rcases dr_converged root fes bcs res kmat nKMat newton guess tol fuel r hr with ⟨k, hk⟩ | hall
  · left
    obtain ⟨o, ho⟩ := prescribed_exists fes bcs h k k.2
    cases o with
    | none => exact ⟨k, ho, by rwa [drResidual, (assignZerosBcV_spec fes bcs h _ k).1 ho] at hk⟩
    | some v => rw [drResidual_fixed fes bcs h res r k v ho] at hk; cases hk
  · right
    intro k hk
    have := hall k
    rwa [drResidual, (assignZerosBcV_spec fes bcs h _ k).1 hk] at this

include h in
/-- **C35 (invalid start).** A start that is not finite is rejected: a value of the start vector, an entry of a free
row of the tangent or a free entry of the residual that is NaN or infinite raises an assertion error. -/
theorem C35_invalid_start (newton : Except Err (Fin (totalDofs fes) → Flt K))
    (guess : Option (Fin (totalDofs fes) → Flt K)) (tol : Flt K) (fuel : Nat) (d : Fin (totalDofs fes) → Flt K)
    (hd : drStart fes bcs newton guess = .ok d) (k : Fin (totalDofs fes))
    (hk : (d k).isFinite = false ∨ Prescribed fes bcs k none ∧
      ((res d k).isFinite = false ∨ ∃ j, (kmat d k j).isFinite = false)) :
    dynamicRelax root fes bcs res kmat newton guess tol nKMat fuel = some (.error .assertion) := by
  have key : ((List.ofFn (drInit fes bcs res kmat d).M).all Flt.isFinite &&
      (List.ofFn (drInit fes bcs res kmat d).q).all Flt.isFinite &&
        (List.ofFn (drInit fes bcs res kmat d).qdot).all Flt.isFinite) = false := by
    rw [Bool.eq_false_iff]
    intro hc
    simp only [Bool.and_eq_true, List.all_eq_true, List.mem_ofFn, forall_exists_index,
      forall_apply_eq_imp_iff] at hc
    obtain ⟨⟨h1, h2⟩, h3⟩ := hc
    rcases hk with hk | ⟨ho, hk | ⟨j, hk⟩⟩
    · have := h2 k
      rw [show (drInit fes bcs res kmat d).q k = d k from rfl, hk] at this
      cases this
    · have := h3 k
      rw [show (drInit fes bcs res kmat d).qdot k = fin (-1) / fin 2 * drResidual fes bcs res d k /
        drMass fes bcs kmat d k from rfl, drResidual, (assignZerosBcV_spec fes bcs h _ k).1 ho,
        fin_div _ (by norm_num)] at this
      rw [div_notFinite _ _ (mul_notFinite _ (by norm_num) _ hk)] at this
      cases this
    · have := h1 k
      rw [show (drInit fes bcs res kmat d).M k = drMass fes bcs kmat d k from rfl, drMass, fin_mul,
        fin_div _ (by norm_num)] at this
      rw [mul_notFinite _ (by norm_num) _ (sum_notFinite _ j ?_)] at this
      · cases this
      · rw [(elimRows_spec fes bcs h _ k j).1 ho]
        cases hj : kmat d k j with
        | nan => rfl
        | inf n => rfl
        | fin x => rw [hj] at hk; cases hk
  rw [dynamicRelax, hd]
  dsimp only
  rw [key]
  rfl

end

/-! ### Violations and concrete cases

Two nodes, one component, node 0 prescribed to 5. -/

/-- Example problem. -/
def drExFes : List FE := [⟨2, 1, 2, [[0, 1]]⟩]

/-- Example boundary data. -/
def drExBcs : List (List (BCEntry (Flt ℚ))) := [[⟨[0], [0], [fin 5]⟩]]

/-- A residual that jumps to `inf` away from the start and is NaN for NaN arguments. -/
def drExRes1 (u : Fin 2 → Flt ℚ) : Fin 2 → Flt ℚ := fun _ =>
  match u 1 with
  | .nan => .nan
  | .inf _ => .inf false
  | .fin x => if x = 0 then .fin (-1) else .inf false

/-- A residual that is NaN away from the start (for example a logarithm of a negative number). -/
def drExRes2 (u : Fin 2 → Flt ℚ) : Fin 2 → Flt ℚ := fun _ => if u 1 = 0 then .fin (-1) else .nan

/-- A linear residual, `u1 - 3` for two unknowns. -/
def drExRes3 (u : Fin 2 → Flt ℚ) : Fin 2 → Flt ℚ := fun _ => u 1 - .fin 3

/-- Example tangent. -/
def drExK (_ : Fin 2 → Flt ℚ) : Matrix (Fin 2) (Fin 2) (Flt ℚ) := fun _ _ => .fin 1

/-- Example start. -/
def drExGuess : Fin 2 → Flt ℚ := fun _ => .fin 0

/-- What the example returns. -/
def drExRun (res : (Fin 2 → Flt ℚ) → Fin 2 → Flt ℚ) (tol : ℚ) (fuel : Nat) :
    Option (Except Err (List (Flt ℚ))) :=
  (dynamicRelax (fun x => x) drExFes drExBcs res drExK (.ok drExGuess) (some drExGuess) (.fin tol) 1000
    fuel).map fun r => r.map List.ofFn

/-- **C33 (violated with NaN damping).** A residual that becomes infinite once makes the damping
estimate NaN; the velocity of the constrained degree of freedom becomes NaN too, and the returned
solution has NaN instead of the prescribed value 5. -/
theorem C33_nan_violated :
    WFBC drExFes drExBcs ∧ Prescribed drExFes drExBcs 0 (some (fin 5)) ∧
    drExRun drExRes1 (1 / 10) 10 = some (.ok [.nan, .nan]) := by
  refine ⟨⟨rfl, by decide +kernel, by decide +kernel, by decide +kernel, ?_⟩, ?_, by decide +kernel⟩
  · intro i fe es h1 h2
    cases i with
    | zero =>
      cases h1; cases h2
      decide +kernel
    | succ i => cases h1
  · exact .fixed 0 0 0 ⟨2, 1, 2, [[0, 1]]⟩ [⟨[0], [0], [fin 5]⟩] _ rfl rfl (by decide) (by decide)
      (by decide) ⟨[], _, [], rfl, ⟨0, rfl, rfl, rfl⟩, fun e he => by cases he⟩

/-- **C35 (violated).** With a residual that becomes NaN the loop guard is false and the solver
returns the current, unconverged state without raising. -/
theorem C35_violated :
    drExRun drExRes2 (1 / 10) 10 = some (.ok [.fin 5, .fin (100 / 121)]) ∧
      drResidual drExFes drExBcs drExRes2 ![.fin 5, .fin (100 / 121)] 1 = .nan := by
  constructor <;> decide +kernel

/-- A run that stops with a residual below the tolerance. -/
example : drExRun drExRes3 2 10 = some (.ok [.fin 5, .fin (300 / 121)]) := by decide +kernel

/-! ### C59 -/

/-- **C59 (violated).** Whenever a second variable has a cell with a degree of freedom, `assembleCSR`
raises: the shape is that of the first variable. -/
theorem C59_violated (fe0 fe1 : FE) (fes : List FE) (bs : List BoundaryInds)
    (hm : WFMesh (fe0 :: fe1 :: fes)) (hc : 0 < fe0.cells.length) (hn : 0 < fe1.numNodes)
    (hv : 0 < fe1.vec) :
    csrShape (fe0 :: fe1 :: fes) (cooI (fe0 :: fe1 :: fes) bs) (cooJ (fe0 :: fe1 :: fes) bs) =
      .error .value := by
  have hc' : 0 < numCells (fe0 :: fe1 :: fes) := hc
  have h := cellInds_localPos hm (e := 0) (i := 1) (a := 0) (c := 0) hc' (by simp) hn hv
  have hp : localPos (fe0 :: fe1 :: fes) 1 0 0 < (cellInds (fe0 :: fe1 :: fes) 0).length := by
    rw [cellInds_length hm 0 hc', ← localSize_eq]
    exact localPos_lt _ (by simp) hn hv
  rw [List.getD_eq_getElem _ _ hp] at h
  have hmem : dofNum (fe0 :: fe1 :: fes) 1 (nodeOf (fe0 :: fe1 :: fes) 1 0 0) 0 ∈
      cooI (fe0 :: fe1 :: fes) bs := by
    rw [cooI, List.mem_append]
    left
    rw [List.mem_flatMap]
    refine ⟨cellInds (fe0 :: fe1 :: fes) 0, ?_, ?_⟩
    · rw [allInds, List.mem_map]
      exact ⟨0, List.mem_range.2 hc', rfl⟩
    · rw [rowI, List.mem_flatMap]
      have := List.getElem_mem hp
      rw [h] at this
      exact ⟨_, this, List.mem_map.2 ⟨_, this, rfl⟩⟩
  rw [csrShape, if_neg]
  rw [Bool.and_eq_true, not_and_or]
  left
  rw [List.all_eq_true]
  intro hall
  have := of_decide_eq_true (hall _ hmem)
  simp [dofNum, FE.numTotalDofs] at this

/-- **C59 (partial).** With a single variable the matrix has one row and column per degree of
freedom. -/
theorem C59_single_partial (fe : FE) (bs : List BoundaryInds) (hm : WFMesh [fe])
    (hb : WFBoundary [fe] bs) :
    csrShape [fe] (cooI [fe] bs) (cooJ [fe] bs) = .ok (totalDofs [fe], totalDofs [fe]) := by
  have ht : fe.numTotalDofs = totalDofs [fe] := by simp [totalDofs, FE.numTotalDofs]
  have hinds : ∀ e < numCells [fe], ∀ k ∈ cellInds [fe] e, k < totalDofs [fe] := by
    intro e he k hk
    obtain ⟨p, hp, rfl⟩ := List.mem_iff_getElem.1 hk
    have hp' : p < localSize [fe] := by rw [localSize_eq, ← cellInds_length hm e he]; exact hp
    have := (isGlobal_cellInds [fe] hm).lt hm he hp'
    rw [List.getD_eq_getElem _ _ hp] at this
    rwa [numDofs_eq, ← totalDofs_eq] at this
  have hrows : ∀ row, row ∈ allInds [fe] ∨ (∃ b ∈ bs, row ∈ faceInds [fe] b) →
      ∀ k ∈ row, k < totalDofs [fe] := by
    rintro row (hrow | ⟨b, hb', hrow⟩) k hk
    · obtain ⟨e, he, rfl⟩ := List.mem_map.1 hrow
      exact hinds e (List.mem_range.1 he) k hk
    · obtain ⟨p, hp, rfl⟩ := List.mem_map.1 hrow
      exact hinds p.1 (hb b hb' p hp) k hk
  have hI : ∀ k ∈ cooI [fe] bs, k < totalDofs [fe] := by
    intro k hk
    simp only [cooI, rowI, List.mem_append, List.mem_flatMap, List.mem_map] at hk
    rcases hk with ⟨row, h1, r, h2, -, -, rfl⟩ | ⟨b, hb', row, h1, r, h2, -, -, rfl⟩
    · exact hrows row (Or.inl h1) _ h2
    · exact hrows row (Or.inr ⟨b, hb', h1⟩) _ h2
  have hJ : ∀ k ∈ cooJ [fe] bs, k < totalDofs [fe] := by
    intro k hk
    simp only [cooJ, rowJ, List.mem_append, List.mem_flatMap] at hk
    rcases hk with ⟨row, h1, r, h2, h3⟩ | ⟨b, hb', row, h1, r, h2, h3⟩
    · exact hrows row (Or.inl h1) _ h3
    · exact hrows row (Or.inr ⟨b, hb', h1⟩) _ h3
  rw [csrShape]
  simp only [ht]
  rw [if_pos]
  rw [Bool.and_eq_true, List.all_eq_true, List.all_eq_true]
  exact ⟨fun k hk => decide_eq_true (hI k hk), fun k hk => decide_eq_true (hJ k hk)⟩

/-- Concrete two-variable mesh (one triangle, 2 and 1 components). -/
example : csrShape [⟨3, 2, 3, [[0, 1, 2]]⟩, ⟨3, 1, 3, [[0, 1, 2]]⟩]
    (cooI [⟨3, 2, 3, [[0, 1, 2]]⟩, ⟨3, 1, 3, [[0, 1, 2]]⟩] [])
    (cooJ [⟨3, 2, 3, [[0, 1, 2]]⟩, ⟨3, 1, 3, [[0, 1, 2]]⟩] []) = .error .value := by decide +kernel

end JaxFem
