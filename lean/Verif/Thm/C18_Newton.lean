import Verif.Thm.C17_Tangent
import Verif.Spec.Newton
import Mathlib.Tactic.Ring
import Mathlib.Tactic.NormNum
import Mathlib.Tactic.Linarith
import Mathlib.Tactic.FieldSimp

/-!
# C18 and C22: Newton steps and line search
-/

namespace JaxFem

universe u
variable {K : Type u}

/-! ### Helper lemmas -/

section
variable [Field K] [LinearOrder K] [IsStrictOrderedRing K]

theorem Flt.gt_fin_fin (x y : K) : (Flt.fin x).gt (.fin y) = decide (y < x) := rfl

/-- The value chosen by `line_search`, written out. -/
theorem lineSearchAlpha_eq (f : K → Flt K) : lineSearchAlpha f =
    if (f (1 / 2)).gt (f 1) then 1
    else if (f (1 / 4)).gt (f (1 / 2)) then 1 / 2
    else if (f (1 / 8)).gt (f (1 / 4)) then 1 / 4 else 1 / 8 := by
  have e1 : (1 : K) * (1 / 2) = 1 / 2 := by norm_num
  have e2 : (1 / 2 : K) * (1 / 2) = 1 / 4 := by norm_num
  have e3 : (1 / 4 : K) * (1 / 2) = 1 / 8 := by norm_num
  have e4 : (1 / 2 : K) * 2 = 1 := by norm_num
  have e5 : (1 / 4 : K) * 2 = 1 / 2 := by norm_num
  have e6 : (1 / 8 : K) * 2 = 1 / 4 := by norm_num
  simp only [lineSearchAlpha, lineSearchLoop, e1, e2, e3, e4, e5, e6]

theorem lineSearchAlpha_mem (f : K → Flt K) :
    lineSearchAlpha f = 1 ∨ lineSearchAlpha f = 1 / 2 ∨ lineSearchAlpha f = 1 / 4 ∨
      lineSearchAlpha f = 1 / 8 := by
  rw [lineSearchAlpha_eq]
  split_ifs <;> simp

end

theorem mulVec_elim [CommRing K] (fes : List FE) (bcs : List (List (BCEntry K))) (h : WFBC fes bcs)
    (A : Matrix (Fin (totalDofs fes)) (Fin (totalDofs fes)) K) (x : Fin (totalDofs fes) → K)
    (k : Fin (totalDofs fes)) :
    (Prescribed fes bcs k none → (elimRows fes bcs A).mulVec x k = A.mulVec x k) ∧
    (∀ v, Prescribed fes bcs k (some v) → (elimRows fes bcs A).mulVec x k = x k) := by
  constructor
  · intro hp
    simp only [Matrix.mulVec, dotProduct]
    exact Finset.sum_congr rfl fun j _ => by rw [(elimRows_spec fes bcs h A k j).1 hp]
  · intro v hp
    simp only [Matrix.mulVec, dotProduct]
    rw [Finset.sum_eq_single k]
    · rw [(elimRows_spec fes bcs h A k k).2 v hp, if_pos rfl, one_mul]
    · intro j _ hj
      rw [(elimRows_spec fes bcs h A k j).2 v hp, if_neg (Ne.symm hj), zero_mul]
    · intro hk; exact absurd (Finset.mem_univ _) hk

/-- The relation between a state and the next one at constrained degrees of freedom. -/
theorem newtonStep_constrained [Field K] [LinearOrder K] [IsStrictOrderedRing K] (fes : List FE)
    (bcs : List (List (BCEntry K))) (h : WFBC fes bcs) (norm : (Fin (totalDofs fes) → K) → Flt K)
    (res : (Fin (totalDofs fes) → K) → Fin (totalDofs fes) → K)
    (tan : (Fin (totalDofs fes) → K) → Matrix (Fin (totalDofs fes)) (Fin (totalDofs fes)) K)
    (solve : Matrix (Fin (totalDofs fes)) (Fin (totalDofs fes)) K → (Fin (totalDofs fes) → K) →
      (Fin (totalDofs fes) → K) → Except Err (Fin (totalDofs fes) → K)) (hs : ExactSolver solve)
    (ls : Bool) (u u' : Fin (totalDofs fes) → K) (rA)
    (hrA : newtonUpdate fes bcs res tan u = .ok rA)
    (hu : newtonStep fes bcs norm res solve ls rA u = .ok u') :
    ∃ alpha : K, (alpha = 1 ∨ ls = true ∧ (alpha = 1 / 2 ∨ alpha = 1 / 4 ∨ alpha = 1 / 8)) ∧
      ∀ k v, Prescribed fes bcs k (some v) → ∀ hk : k < totalDofs fes,
        u' ⟨k, hk⟩ - v = (1 - alpha) * (u ⟨k, hk⟩ - v) := by
  simp only [newtonUpdate, Except.ok.injEq] at hrA
  subst hrA
  simp only [newtonStep] at hu
  cases hx : solve (elimRows fes bcs (tan u)) (-applyBcV fes bcs 1 (res u) u) (newtonX0 fes bcs u) with
  | error e => rw [hx] at hu; cases hu
  | ok inc =>
    rw [hx] at hu
    have hinc : ∀ (k : Nat) v, Prescribed fes bcs k (some v) → ∀ hk : k < totalDofs fes,
        inc ⟨k, hk⟩ = v - u ⟨k, hk⟩ := by
      intro k v hp hk
      have h1 := congrFun (hs _ _ _ _ hx) ⟨k, hk⟩
      rw [(mulVec_elim fes bcs h (tan u) inc ⟨k, hk⟩).2 v hp, Pi.neg_apply,
        (applyBcV_spec fes bcs h 1 (res u) u ⟨k, hk⟩).2 v hp] at h1
      rw [h1]; ring
    cases ls with
    | false =>
      refine ⟨1, Or.inl rfl, ?_⟩
      intro k v hp hk
      have : u' = u + inc := by
        simp only [bind, Except.bind, pure, Except.pure, Bool.false_eq_true, if_false] at hu
        exact (Except.ok.inj hu).symm
      rw [this, Pi.add_apply, hinc k v hp hk]; ring
    | true =>
      have : ∃ f : K → Flt K, u' = u + lineSearchAlpha f • inc := by
        simp only [bind, Except.bind, pure, Except.pure, if_true, lineSearch] at hu
        exact ⟨_, (Except.ok.inj hu).symm⟩
      obtain ⟨f, rfl⟩ := this
      refine ⟨lineSearchAlpha f, ?_, ?_⟩
      · rcases lineSearchAlpha_mem f with h1 | h1 | h1 | h1 <;> simp [h1]
      · intro k v hp hk
        rw [Pi.add_apply, Pi.smul_apply, smul_eq_mul, hinc k v hp hk]; ring

/-! ### Property theorems -/

/-- **C18 (initial guess).** The vector `x0` handed to the linear solver satisfies the constrained
rows of `A x = -R`, and vanishes at free degrees of freedom. -/
theorem C18_initial_guess [Field K] (fes : List FE) (bcs : List (List (BCEntry K))) (h : WFBC fes bcs)
    (res : (Fin (totalDofs fes) → K) → Fin (totalDofs fes) → K)
    (tan : (Fin (totalDofs fes) → K) → Matrix (Fin (totalDofs fes)) (Fin (totalDofs fes)) K)
    (u : Fin (totalDofs fes) → K) (rA) (hrA : newtonUpdate fes bcs res tan u = .ok rA)
    (k : Fin (totalDofs fes)) :
    (Prescribed fes bcs k none → newtonX0 fes bcs u k = 0) ∧
    (∀ v, Prescribed fes bcs k (some v) →
      rA.2.mulVec (newtonX0 fes bcs u) k = (-rA.1) k ∧ u k + newtonX0 fes bcs u k = v) := by
  simp only [newtonUpdate, Except.ok.injEq] at hrA
  subst hrA
  constructor
  · intro hp
    rw [newtonX0, Pi.sub_apply, (assignBcV_spec fes bcs h _ k).1 hp,
      (copyBcV_spec fes bcs h _ k).1 hp, Pi.zero_apply, sub_zero]
  · intro v hp
    have h0 : newtonX0 fes bcs u k = v - u k := by
      rw [newtonX0, Pi.sub_apply, (assignBcV_spec fes bcs h _ k).2 v hp,
        (copyBcV_spec fes bcs h _ k).2 v hp]
    refine ⟨?_, by rw [h0]; ring⟩
    show (elimRows fes bcs (tan u)).mulVec _ k = (-applyBcV fes bcs 1 (res u) u) k
    rw [(mulVec_elim fes bcs h (tan u) _ k).2 v hp, Pi.neg_apply,
      (applyBcV_spec fes bcs h 1 (res u) u k).2 v hp, h0]
    ring

section
variable [Field K] [LinearOrder K] [IsStrictOrderedRing K]

/-- **C18 (full steps).** After one or more full Newton steps with exact linear solves every
constrained degree of freedom has its prescribed value, whatever the starting vector. -/
theorem C18_full_steps (fes : List FE) (bcs : List (List (BCEntry K))) (h : WFBC fes bcs)
    (norm : (Fin (totalDofs fes) → K) → Flt K)
    (res : (Fin (totalDofs fes) → K) → Fin (totalDofs fes) → K)
    (tan : (Fin (totalDofs fes) → K) → Matrix (Fin (totalDofs fes)) (Fin (totalDofs fes)) K)
    (solve : Matrix (Fin (totalDofs fes)) (Fin (totalDofs fes)) K → (Fin (totalDofs fes) → K) →
      (Fin (totalDofs fes) → K) → Except Err (Fin (totalDofs fes) → K)) (hs : ExactSolver solve)
    (u0 u : Fin (totalDofs fes) → K) (n : Nat) (rA)
    (hp : NewtonPath (newtonUpdate fes bcs res tan) (newtonStep fes bcs norm res solve false) u0
      (n + 1) u rA) : SatisfiesBC fes bcs u := by
  cases hp with
  | next _ d _ r _ hp hstep hup =>
    have hr : newtonUpdate fes bcs res tan d = .ok r := by
      cases hp with
      | start _ h => exact h
      | next _ _ _ _ _ _ _ h => exact h
    obtain ⟨alpha, ha, hc⟩ := newtonStep_constrained fes bcs h norm res tan solve hs false d u r hr hstep
    intro k v hk
    have ha : alpha = 1 := by simpa using ha
    have := hc k v hk k.2
    rw [ha, sub_self, zero_mul, sub_eq_zero] at this
    exact this

/-- **C18 (kept).** Prescribed values, once attained, are kept by any number of full or damped exact
steps. -/
theorem C18_kept (fes : List FE) (bcs : List (List (BCEntry K))) (h : WFBC fes bcs)
    (norm : (Fin (totalDofs fes) → K) → Flt K)
    (res : (Fin (totalDofs fes) → K) → Fin (totalDofs fes) → K)
    (tan : (Fin (totalDofs fes) → K) → Matrix (Fin (totalDofs fes)) (Fin (totalDofs fes)) K)
    (solve : Matrix (Fin (totalDofs fes)) (Fin (totalDofs fes)) K → (Fin (totalDofs fes) → K) →
      (Fin (totalDofs fes) → K) → Except Err (Fin (totalDofs fes) → K)) (hs : ExactSolver solve)
    (ls : Bool) (u0 u : Fin (totalDofs fes) → K) (n : Nat) (rA)
    (hp : NewtonPath (newtonUpdate fes bcs res tan) (newtonStep fes bcs norm res solve ls) u0 n u rA)
    (h0 : SatisfiesBC fes bcs u0) : SatisfiesBC fes bcs u := by
  have : newtonUpdate fes bcs res tan u = .ok rA ∧ SatisfiesBC fes bcs u := by
    induction hp with
    | start r hr => exact ⟨hr, h0⟩
    | next n d d' r r' _ hstep hup ih =>
      refine ⟨hup, ?_⟩
      obtain ⟨alpha, -, hc⟩ :=
        newtonStep_constrained fes bcs h norm res tan solve hs ls d d' r ih.1 hstep
      intro k v hk
      have := hc k v hk k.2
      rw [ih.2 k v hk, sub_self, mul_zero, sub_eq_zero] at this
      exact this
  exact this.2

/-- **C18 (damped steps).** With line search the distance to the prescribed value shrinks by one and
the same factor `0`, `1/2`, `3/4` or `7/8` at all constrained degrees of freedom in every step; after
`n` steps it is at most `(7/8)^n` times the initial one. -/
theorem C18_damped (fes : List FE) (bcs : List (List (BCEntry K))) (h : WFBC fes bcs)
    (norm : (Fin (totalDofs fes) → K) → Flt K)
    (res : (Fin (totalDofs fes) → K) → Fin (totalDofs fes) → K)
    (tan : (Fin (totalDofs fes) → K) → Matrix (Fin (totalDofs fes)) (Fin (totalDofs fes)) K)
    (solve : Matrix (Fin (totalDofs fes)) (Fin (totalDofs fes)) K → (Fin (totalDofs fes) → K) →
      (Fin (totalDofs fes) → K) → Except Err (Fin (totalDofs fes) → K)) (hs : ExactSolver solve)
    (ls : Bool) (u0 u : Fin (totalDofs fes) → K) (n : Nat) (rA)
    (hp : NewtonPath (newtonUpdate fes bcs res tan) (newtonStep fes bcs norm res solve ls) u0 n u rA) :
    ∃ c : K, 0 ≤ c ∧ c ≤ (7 / 8) ^ n ∧
      ∀ k v, Prescribed fes bcs k (some v) → ∀ hk : k < totalDofs fes,
        u ⟨k, hk⟩ - v = c * (u0 ⟨k, hk⟩ - v) := by
  have : newtonUpdate fes bcs res tan u = .ok rA ∧ ∃ c : K, 0 ≤ c ∧ c ≤ (7 / 8) ^ n ∧
      ∀ k v, Prescribed fes bcs k (some v) → ∀ hk : k < totalDofs fes,
        u ⟨k, hk⟩ - v = c * (u0 ⟨k, hk⟩ - v) := by
    induction hp with
    | start r hr => exact ⟨hr, 1, zero_le_one, by simp, fun k v _ hk => by ring⟩
    | next n d d' r r' _ hstep hup ih =>
      refine ⟨hup, ?_⟩
      obtain ⟨h1, c, hc0, hc1, hc⟩ := ih
      obtain ⟨alpha, ha, hd⟩ :=
        newtonStep_constrained fes bcs h norm res tan solve hs ls d d' r h1 hstep
      have ha' : 0 ≤ 1 - alpha ∧ 1 - alpha ≤ 7 / 8 := by
        rcases ha with rfl | ⟨-, rfl | rfl | rfl⟩ <;> constructor <;> norm_num
      refine ⟨(1 - alpha) * c, mul_nonneg ha'.1 hc0, ?_, ?_⟩
      · rw [pow_succ, mul_comm]
        exact mul_le_mul hc1 ha'.2 ha'.1 (pow_nonneg (by norm_num) n)
      · intro k v hk hlt
        rw [hd k v hk hlt, hc k v hk hlt]; ring
  exact this.2

/-- **C22 (steps).** For every norm function, NaN or not, the chosen step is one of four, and it is
the first one whose half is worse (`1/8` if there is none). -/
theorem C22_steps (f : K → Flt K) : ∃ j : Nat, j ≤ 3 ∧ lineSearchAlpha f = (1 / 2) ^ j ∧
    (∀ i < j, (f ((1 / 2) ^ (i + 1))).gt (f ((1 / 2) ^ i)) = false) ∧
    (j < 3 → (f ((1 / 2) ^ (j + 1))).gt (f ((1 / 2) ^ j)) = true) := by
  have e0 : ((1 : K) / 2) ^ 0 = 1 := by norm_num
  have e1 : ((1 : K) / 2) ^ 1 = 1 / 2 := by norm_num
  have e2 : ((1 : K) / 2) ^ 2 = 1 / 4 := by norm_num
  have e3 : ((1 : K) / 2) ^ 3 = 1 / 8 := by norm_num
  rw [lineSearchAlpha_eq]
  by_cases h1 : (f (1 / 2)).gt (f 1) = true
  · exact ⟨0, by omega, by rw [if_pos h1, e0], by simp, by rw [e0, e1]; simpa using h1⟩
  by_cases h2 : (f (1 / 4)).gt (f (1 / 2)) = true
  · refine ⟨1, by omega, by rw [if_neg h1, if_pos h2, e1], ?_, by rw [e1, e2]; simpa using h2⟩
    intro i hi
    obtain rfl : i = 0 := by omega
    rw [e0, e1]; simpa using h1
  by_cases h3 : (f (1 / 8)).gt (f (1 / 4)) = true
  · refine ⟨2, by omega, by rw [if_neg h1, if_neg h2, if_pos h3, e2], ?_,
      by rw [e2, e3]; simpa using h3⟩
    intro i hi
    obtain rfl | rfl : i = 0 ∨ i = 1 := by omega
    · rw [e0, e1]; simpa using h1
    · rw [e1, e2]; simpa using h2
  · refine ⟨3, by omega, by rw [if_neg h1, if_neg h2, if_neg h3, e3], ?_, by omega⟩
    intro i hi
    obtain rfl | rfl | rfl : i = 0 ∨ i = 1 ∨ i = 2 := by omega
    · rw [e0, e1]; simpa using h1
    · rw [e1, e2]; simpa using h2
    · rw [e2, e3]; simpa using h3

omit [Field K] [IsStrictOrderedRing K] in
theorem Flt.not_gt_trans {a b c : Flt K} (hb : b ≠ .nan) (h1 : a.gt b = false) (h2 : b.gt c = false) :
    a.gt c = false := by
  cases a <;> cases b <;> cases c <;> simp_all [Flt.gt]
  · rename_i x y z; exact h1.trans h2

/-- **C22 (partial: no NaN).** If no tried norm is NaN, no larger tried step has a smaller norm than
the chosen one; in particular the chosen step is not worse than the full step. The full property
quantifies over all norm functions; it fails with NaN (`C22_nan_counterexample`). -/
theorem C22_not_worse_partial (f : K → Flt K) (hf : ∀ i ≤ 3, f ((1 / 2) ^ i) ≠ .nan) :
    ∃ j : Nat, j ≤ 3 ∧ lineSearchAlpha f = (1 / 2) ^ j ∧
      ∀ i ≤ j, (f (lineSearchAlpha f)).gt (f ((1 / 2) ^ i)) = false := by
  obtain ⟨j, hj, ha, hb, -⟩ := C22_steps f
  refine ⟨j, hj, ha, ?_⟩
  rw [ha]
  have : ∀ d i, i + d = j → (f ((1 / 2) ^ j)).gt (f ((1 / 2) ^ i)) = false := by
    intro d
    induction d with
    | zero =>
      intro i hi
      obtain rfl : i = j := by omega
      cases h : f ((1 / 2) ^ i) with
      | nan => rfl
      | inf b => cases b <;> rfl
      | fin x => simp [Flt.gt]
    | succ d ih =>
      intro i hi
      exact Flt.not_gt_trans (hf (i + 1) (by omega)) (ih (i + 1) (by omega)) (hb i (by omega))
  intro i hi
  exact this (j - i) i (by omega)

/-- **C22 (the function).** `line_search` moves along the increment by one of the four steps; the tried steps are
compared by the norm of the residual with boundary conditions (`R`: the unconstrained residual at free degrees of
freedom, the deviation from the prescribed value at the others), and the first step whose half is worse is
taken. -/
theorem C22_line_search {fes : List FE} {bcs : List (List (BCEntry K))} (h : WFBC fes bcs)
    (norm : (Fin (totalDofs fes) → K) → Flt K) (res R : (Fin (totalDofs fes) → K) → Fin (totalDofs fes) → K)
    (hR : ∀ u (k : Fin (totalDofs fes)), (Prescribed fes bcs k none → R u k = res u k) ∧
      ∀ v, Prescribed fes bcs k (some v) → R u k = u k - v)
    (dofs inc : Fin (totalDofs fes) → K) :
    ∃ j : Nat, j ≤ 3 ∧ lineSearch fes bcs norm res dofs inc = dofs + ((1 / 2 : K) ^ j) • inc ∧
      (∀ i < j, (norm (R (dofs + ((1 / 2 : K) ^ (i + 1)) • inc))).gt (norm (R (dofs + ((1 / 2 : K) ^ i) • inc))) = false) ∧
      (j < 3 → (norm (R (dofs + ((1 / 2 : K) ^ (j + 1)) • inc))).gt (norm (R (dofs + ((1 / 2 : K) ^ j) • inc))) = true) ∧
      ((∀ i ≤ 3, norm (R (dofs + ((1 / 2 : K) ^ i) • inc)) ≠ .nan) →
        ∀ i ≤ j, (norm (R (lineSearch fes bcs norm res dofs inc))).gt (norm (R (dofs + ((1 / 2 : K) ^ i) • inc))) = false) := by
  have e : ∀ u, applyBcV fes bcs 1 (res u) u = R u := by
    intro u
    funext k
    obtain ⟨o, ho, -⟩ := C16_prescribed_unique fes bcs h k k.2
    cases o with
    | none => rw [(applyBcV_spec fes bcs h 1 (res u) u k).1 ho, (hR u k).1 ho]
    | some v => rw [(applyBcV_spec fes bcs h 1 (res u) u k).2 v ho, (hR u k).2 v ho, mul_one]
  let f := fun alpha : K => norm (R (dofs + alpha • inc))
  have e2 : lineSearch fes bcs norm res dofs inc = dofs + lineSearchAlpha f • inc := by
    unfold lineSearch
    dsimp only
    simp only [e]
    rfl
  obtain ⟨j, h1, h2, h3, h4⟩ := C22_steps f
  refine ⟨j, h1, by rw [e2, h2], h3, h4, ?_⟩
  intro hn
  obtain ⟨j', -, h2', h5⟩ := C22_not_worse_partial f hn
  have hj : j' = j := by
    have : ((1 : K) / 2) ^ j' = (1 / 2) ^ j := h2'.symm.trans h2
    exact (pow_right_injective₀ (by norm_num) (by norm_num)) this
  subst hj
  intro i hi
  rw [e2]
  exact h5 i hi

end

/-- **C22 (NaN).** With NaN among the tried norms the chosen step can be worse than the full one: the
norms 1, NaN, 5, 4 at the steps 1, 1/2, 1/4, 1/8 select 1/8. -/
theorem C22_nan_counterexample : ∃ f : ℚ → Flt ℚ, (f (lineSearchAlpha f)).gt (f 1) = true := by
  refine ⟨fun a => if a = 1 then .fin 1 else if a = 1 / 2 then .nan else if a = 1 / 4 then .fin 5
    else .fin 4, ?_⟩
  rw [lineSearchAlpha_eq]
  norm_num [Flt.gt]

/-- **C22 (no decrease).** The chosen step need not decrease the current residual: with norm 1 at the
current point and 2 or more at all tried steps a step is still taken. -/
theorem C22_may_increase : ∃ f : ℚ → Flt ℚ, (∀ a, f a ≠ .nan) ∧
    (f (lineSearchAlpha f)).gt (f 0) = true := by
  refine ⟨fun a => if a = 0 then .fin 1 else .fin 2, ?_, ?_⟩
  · intro a; dsimp only; split <;> simp
  · rw [lineSearchAlpha_eq]
    norm_num [Flt.gt]

/-! Concrete case for `C22_not_worse_partial`: norms 8, 4, 2, 3 select the step 1/4. -/

example : lineSearchAlpha (K := ℚ) (fun a => if a = 1 then .fin 8 else if a = 1 / 2 then .fin 4
    else if a = 1 / 4 then .fin 2 else .fin 3) = 1 / 4 := by
  rw [lineSearchAlpha_eq]
  norm_num [Flt.gt]

end JaxFem
