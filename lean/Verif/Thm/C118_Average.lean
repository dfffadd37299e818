import Verif.Thm.C118_Steps

/-!
# C118: the reported average stress
-/

namespace JaxFem.Benchmarks

open scoped BigOperators

open Plasticity (PState)

variable {IV : Type} {nq nfq nn : Nat}

/-! ### Helper lemmas -/

/-- Mean of stresses, entry by entry. -/
noncomputable def meanOf {ι : Type} [Fintype ι] (w : ι → ℝ) (S : ι → Matrix (Fin 3) (Fin 3) ℝ) : Matrix (Fin 3) (Fin 3) ℝ :=
  Matrix.of fun i j => (∑ k, S k i j * w k) / ∑ k, w k

theorem sDev_mean {ι : Type} [Fintype ι] (w : ι → ℝ) (S : ι → Matrix (Fin 3) (Fin 3) ℝ) (i j : Fin 3) :
    Plasticity.sDev (meanOf w S) i j = (∑ k, Plasticity.sDev (S k) i j * w k) / ∑ k, w k := by
  have ht : (meanOf w S).trace = (∑ k, (S k).trace * w k) / ∑ k, w k := by
    simp only [Matrix.trace, Matrix.diag, meanOf, Matrix.of_apply]
    rw [← Finset.sum_div]
    congr 1
    rw [Finset.sum_comm]
    exact Finset.sum_congr rfl fun k _ => by rw [Finset.sum_mul]
  simp only [Plasticity.sDev]
  rw [ht]
  simp only [meanOf, Matrix.of_apply, sub_mul, Finset.sum_sub_distrib, sub_div]
  congr 1
  rw [mul_div_assoc', div_mul_eq_mul_div, Finset.mul_sum, Finset.sum_mul]
  congr 1
  exact Finset.sum_congr rfl fun k _ => by ring

theorem inner_amgm (a b : Matrix (Fin 3) (Fin 3) ℝ) :
    Plasticity.inner a b ≤ (Plasticity.inner a a + Plasticity.inner b b) / 2 := by
  simp only [Plasticity.inner]
  rw [← Finset.sum_add_distrib, Finset.sum_div]
  refine Finset.sum_le_sum fun i _ => ?_
  rw [← Finset.sum_add_distrib, Finset.sum_div]
  refine Finset.sum_le_sum fun j _ => ?_
  nlinarith [sq_nonneg (a i j - b i j)]

theorem mean_admissible {ι : Type} [Fintype ι] (w : ι → ℝ) (hw : ∀ k, 0 ≤ w k) (hV : 0 < ∑ k, w k)
    (S : ι → Matrix (Fin 3) (Fin 3) ℝ) (s0 : ℝ) (hS : ∀ k, Plasticity.Admissible s0 (S k)) :
    Plasticity.Admissible s0 (meanOf w S) := by
  rw [Plasticity.admissible_iff]
  set D := Plasticity.sDev (meanOf w S) with hD
  set V := ∑ k, w k with hVd
  have hk : ∀ k, Plasticity.inner (Plasticity.sDev (S k)) D * w k ≤ (2 / 3 * s0 ^ 2 + Plasticity.inner D D) / 2 * w k := by
    intro k
    refine mul_le_mul_of_nonneg_right ?_ (hw k)
    have h1 := (Plasticity.admissible_iff _ _).1 (hS k)
    have h2 := inner_amgm (Plasticity.sDev (S k)) D
    linarith
  have hsum := Finset.sum_le_sum fun k (_ : k ∈ Finset.univ) => hk k
  rw [← Finset.mul_sum, ← hVd] at hsum
  have he : ∑ k, Plasticity.inner (Plasticity.sDev (S k)) D * w k = V * Plasticity.inner D D := by
    simp only [Plasticity.inner, Finset.sum_mul, Finset.mul_sum]
    rw [Finset.sum_comm]
    refine Finset.sum_congr rfl fun i _ => ?_
    rw [Finset.sum_comm]
    refine Finset.sum_congr rfl fun j _ => ?_
    have h3 : D i j * V = ∑ k, Plasticity.sDev (S k) i j * w k := by
      rw [hD, sDev_mean, ← hVd, div_mul_cancel₀ _ hV.ne']
    calc ∑ k, Plasticity.sDev (S k) i j * D i j * w k = (∑ k, Plasticity.sDev (S k) i j * w k) * D i j := by
          rw [Finset.sum_mul]
          exact Finset.sum_congr rfl fun k _ => by ring
      _ = V * (D i j * D i j) := by rw [← h3]; ring
  rw [he] at hsum
  have : V * Plasticity.inner D D ≤ V * ((2 / 3 * s0 ^ 2 + Plasticity.inner D D) / 2) := by linarith
  have := le_of_mul_le_mul_left this hV
  linarith

theorem yield_of (P : Problem1 IV nq nfq nn 3 3) (S : PointField P) (A : Matrix (Fin 3) (Fin 3) ℝ)
    (hA : ∀ i j, A i j = (∑ c, ∑ q, S c q i j * P.measureAt c q) / volume P) (hm : ∀ c q, 0 ≤ P.measureAt c q)
    (hV : 0 < volume P) (s0 : ℝ) (hS : ∀ c q, Plasticity.Admissible s0 (S c q)) : Plasticity.Admissible s0 A := by
  have e : A = meanOf (fun k : Fin P.cells.length × Fin nq => P.measureAt k.1 k.2) (fun k => S k.1 k.2) := by
    ext i j
    rw [hA i j, meanOf, Matrix.of_apply, Fintype.sum_prod_type, Fintype.sum_prod_type, volume]
  have hp : 0 < ∑ k : Fin P.cells.length × Fin nq, P.measureAt k.1 k.2 := by
    rw [Fintype.sum_prod_type]
    exact hV
  have hw : ∀ k : Fin P.cells.length × Fin nq, 0 ≤ P.measureAt k.1 k.2 := fun k => hm k.1 k.2
  have hk : ∀ k : Fin P.cells.length × Fin nq, Plasticity.Admissible s0 (S k.1 k.2) := fun k => hS k.1 k.2
  have key := mean_admissible (fun k : Fin P.cells.length × Fin nq => P.measureAt k.1 k.2) hw hp (fun k => S k.1 k.2) s0 hk
  rwa [← e] at key

theorem size_entry (N : Nat) (d : Nat → Fin 3 → ℝ) (n : Nat) (hn : n < N) (c : Fin 3) : |d n c| ≤ size N d := by
  refine Real.abs_le_sqrt ?_
  refine le_trans ?_ (Finset.single_le_sum (f := fun n => ∑ c, d n c ^ 2) (fun m _ => Finset.sum_nonneg fun c _ => sq_nonneg _)
    (Finset.mem_range.2 hn))
  exact Finset.single_le_sum (f := fun c => d n c ^ 2) (fun c _ => sq_nonneg _) (Finset.mem_univ c)

theorem barLaw_symm (e : Matrix (Fin 3) (Fin 3) ℝ) (h : e.IsSymm) : (barLaw e).IsSymm := by
  refine Matrix.IsSymm.ext fun i j => ?_
  simp only [barLaw, Plasticity.hooke, Matrix.add_apply, Matrix.smul_apply, smul_eq_mul, h.apply i j]
  rw [Matrix.one_apply, Matrix.one_apply]
  simp only [eq_comm]

theorem symPart_symm (g : Matrix (Fin 3) (Fin 3) ℝ) : (Plasticity.symPart g).IsSymm := by
  refine Matrix.IsSymm.ext fun i j => ?_
  simp only [Plasticity.symPart, Matrix.smul_apply, Matrix.add_apply, Matrix.transpose_apply, smul_eq_mul]
  ring

/-! ### Property theorems -/

/-- Whatever the displacements and stresses are: if the end faces are plane, ten times the total force on the top and volume
times the mean stress differ by no more than the misfit allows. -/
theorem C118_average (P : Problem1 IV nq nfq nn 3 3) (h : P.WF) (hu : Unfolded P) (S : PointField P) (disp : ℝ)
    (u : Nat → Fin 3 → ℝ) (ht : ∀ n, OnTop P.points n → P.points.getD n 0 2 = 10)
    (hb : ∀ n, OnBottom P.points n → P.points.getD n 0 2 = 0) (i : Fin 3) :
    haveI := Classical.decPred (OnTop P.points)
    |(∑ c, ∑ q, S c q i 2 * P.measureAt c q) - 10 * ∑ n ∈ (Finset.range P.numTotalNodes).filter (OnTop P.points),
        nodalForce P S n i| ≤
      size P.numTotalNodes (misfit P.points disp u (nodalForce P S)) * ∑ n ∈ Finset.range P.numTotalNodes, |P.points.getD n 0 2| := by
  classical
  rw [← C118_virial P h hu S i 2]
  have e : ∑ n ∈ Finset.range P.numTotalNodes, P.points.getD n 0 2 * nodalForce P S n i
      - 10 * ∑ n ∈ (Finset.range P.numTotalNodes).filter (OnTop P.points), nodalForce P S n i
      = ∑ n ∈ Finset.range P.numTotalNodes, (if OnTop P.points n then 0 else P.points.getD n 0 2 * nodalForce P S n i) := by
    rw [Finset.mul_sum, Finset.sum_filter, ← Finset.sum_sub_distrib]
    refine Finset.sum_congr rfl fun n _ => ?_
    split_ifs with hn
    · rw [ht n hn, sub_self]
    · rw [sub_zero]
  have hdec : (Classical.decPred (OnTop P.points)) = fun n => Classical.propDecidable (OnTop P.points n) := Subsingleton.elim _ _
  rw [Finset.filter_congr_decidable] at *
  rw [e, Finset.mul_sum]
  refine (Finset.abs_sum_le_sum_abs _ _).trans (Finset.sum_le_sum fun n hn => ?_)
  have hs := size_entry P.numTotalNodes (misfit P.points disp u (nodalForce P S)) n (Finset.mem_range.1 hn) i
  have h0 : 0 ≤ size P.numTotalNodes (misfit P.points disp u (nodalForce P S)) := Real.sqrt_nonneg _
  split_ifs with h1
  · rw [abs_zero]; positivity
  · by_cases h2 : OnBottom P.points n
    · rw [hb n h2, zero_mul, abs_zero, mul_zero]
    · rw [misfit, if_neg h1, if_neg h2] at hs
      rw [abs_mul, mul_comm]
      exact mul_le_mul_of_nonneg_right hs (abs_nonneg _)

section

variable (numTotalNodes : Nat) (points : List (Fin 3 → ℝ)) (cells : List (List Nat)) (el : RefElement ℝ nq nn 3)
  (fc : RefFaces ℝ nfq nn 3)

local notation "𝒫" => plastic numTotalNodes points cells el fc

/-- The reported average obeys the yield condition itself, whatever was stored before. -/
theorem C118_yield (h : (𝒫).WF) (hm : ∀ c q, 0 ≤ (𝒫).measureAt c q) (hV : 0 < volume 𝒫)
    (num : Numerics (𝒫).cells.length nq (totalDofs (𝒫).fes)) (fuel : Nat) (vars : Vars (𝒫).cells.length nq) (disp : ℝ)
    (st : Step (𝒫).cells.length nq (totalDofs (𝒫).fes)) (hst : loadStep 𝒫 num fuel vars disp = some (.ok st)) :
    Plasticity.Admissible 250 st.avg := by
  obtain ⟨hs, ha⟩ := C118_step numTotalNodes points cells el fc h num fuel vars disp st hst
  exact yield_of 𝒫 _ st.avg ha hm hV 250 fun c q => (hs.ret c q).1

/-- Symmetric stored stresses and strains stay symmetric, and the average is symmetric. -/
theorem C118_symmetric (h : (𝒫).WF) (num : Numerics (𝒫).cells.length nq (totalDofs (𝒫).fes)) (fuel : Nat)
    (vars : Vars (𝒫).cells.length nq) (disp : ℝ) (st : Step (𝒫).cells.length nq (totalDofs (𝒫).fes))
    (hst : loadStep 𝒫 num fuel vars disp = some (.ok st))
    (hv : ∀ c q, (vars c q).sig.IsSymm ∧ (vars c q).eps.IsSymm) :
    (∀ c q, (st.vars c q).sig.IsSymm ∧ (st.vars c q).eps.IsSymm) ∧ st.avg.IsSymm := by
  obtain ⟨hs, ha⟩ := C118_step numTotalNodes points cells el fc h num fuel vars disp st hst
  obtain ⟨b, n, -, -, hvars, -⟩ := loadStep_cases numTotalNodes points cells el fc num fuel vars disp st hst
  have key : ∀ c q, (st.vars c q).sig.IsSymm ∧ (st.vars c q).eps.IsSymm := by
    intro c q
    constructor
    · rw [hvars]
      refine Plasticity.C54_symmetric 250 (by norm_num) _ ?_
      rw [Plasticity.sigmaTrial_eq]
      refine Matrix.IsSymm.add ?_ (hv c q).1
      have := barLaw_symm _ (Matrix.IsSymm.sub (symPart_symm (Matrix.of ((𝒫).gradAt ((𝒫).vecField st.sol) c q))) (hv c q).2)
      rw [← law_eq, Plasticity.stress_eq] at this
      exact this
    · rw [hs.strain c q]
      exact symPart_symm _
  refine ⟨key, Matrix.IsSymm.ext fun i j => ?_⟩
  rw [ha, ha]
  congr 1
  exact Finset.sum_congr rfl fun c _ => Finset.sum_congr rfl fun q _ => by rw [(key c q).1.apply]

/-- The stored stresses and strains before step `k` of a run. -/
def before (vars : Vars (𝒫).cells.length nq) (l : List (Step (𝒫).cells.length nq (totalDofs (𝒫).fes))) (k : Nat) :
    Vars (𝒫).cells.length nq := if k = 0 then vars else ((l[k - 1]?).map fun st => st.vars).getD vars

theorem run_steps (num : Numerics (𝒫).cells.length nq (totalDofs (𝒫).fes)) (fuel : Nat) :
    ∀ (disps : List ℝ) (vars : Vars (𝒫).cells.length nq) (l : List (Step (𝒫).cells.length nq (totalDofs (𝒫).fes))),
      run 𝒫 num fuel disps vars = some (.ok l) → l.length = disps.length ∧
        ∀ (k : Nat) (hk : k < l.length) (hd : k < disps.length),
          loadStep 𝒫 num fuel (before numTotalNodes points cells el fc vars l k) disps[k] = some (.ok l[k]) := by
  intro disps
  induction disps with
  | nil =>
    intro vars l hl
    cases hl
    exact ⟨rfl, fun k hk => absurd hk (Nat.not_lt_zero k)⟩
  | cons disp rest ih =>
    intro vars l hl
    rw [run] at hl
    generalize hr : loadStep 𝒫 num fuel vars disp = r at hl
    match r, hr, hl with
    | none, _, h => cases h
    | some (.error e), _, h => cases h
    | some (.ok st), hr, h =>
      dsimp only at h
      generalize hr2 : run 𝒫 num fuel rest st.vars = r2 at h
      match r2, hr2, h with
      | none, _, h => cases h
      | some (.error e), _, h => cases h
      | some (.ok l'), hr2, h =>
        cases h
        obtain ⟨h1, h2⟩ := ih st.vars l' hr2
        refine ⟨by simp [h1], ?_⟩
        intro k hk hd
        cases k with
        | zero => exact hr
        | succ k =>
          have hk' : k < l'.length := by simpa using hk
          have hd' : k < rest.length := by simpa using hd
          have := h2 k hk' hd'
          rw [List.getElem_cons_succ, List.getElem_cons_succ, ← this]
          congr 1
          cases k with
          | zero => rfl
          | succ m =>
            have hm : m < l'.length := by omega
            simp [before, List.getElem?_eq_getElem hm]

/-- A run that finishes reports one average per displacement; the steps follow one another from the unstressed state, each is a
load step of the bar, its average is the mean of its stresses and symmetric. -/
theorem C118_run (h : (𝒫).WF) (num : Numerics (𝒫).cells.length nq (totalDofs (𝒫).fes)) (fuel : Nat) (disps : List ℝ)
    (l : List (Step (𝒫).cells.length nq (totalDofs (𝒫).fes)))
    (hl : run 𝒫 num fuel disps (initVars (𝒫).cells.length) = some (.ok l)) :
    l.length = disps.length ∧ ∀ (k : Nat) (hk : k < l.length) (hd : k < disps.length),
      ∃ sig eps : PointField 𝒫,
        (k = 0 → ∀ c q, sig c q = 0 ∧ eps c q = 0) ∧
        (∀ m (hm : m < l.length), m + 1 = k → ∀ c q, sig c q = (l[m].vars c q).sig ∧ eps c q = (l[m].vars c q).eps) ∧
        BarStep 𝒫 disps[k] sig eps ((𝒫).vecField l[k].sol) (fun c q => (l[k].vars c q).sig) (fun c q => (l[k].vars c q).eps) ∧
        (∀ i j, l[k].avg i j = (∑ c, ∑ q, (l[k].vars c q).sig i j * (𝒫).measureAt c q) / volume 𝒫) ∧ l[k].avg.IsSymm := by
  obtain ⟨h1, h2⟩ := run_steps numTotalNodes points cells el fc num fuel disps _ l hl
  refine ⟨h1, ?_⟩
  have hsym : ∀ k, ∀ (hk : k < l.length), ∀ c q, (before numTotalNodes points cells el fc (initVars _) l k c q).sig.IsSymm ∧
      (before numTotalNodes points cells el fc (initVars _) l k c q).eps.IsSymm := by
    intro k
    induction k with
    | zero =>
      intro _ c q
      exact ⟨Matrix.isSymm_zero, Matrix.isSymm_zero⟩
    | succ k ih =>
      intro hk c q
      have hk' : k < l.length := by omega
      have := (C118_symmetric numTotalNodes points cells el fc h num fuel _ _ _ (h2 k hk' (h1 ▸ hk')) (ih hk')).1 c q
      simpa [before, List.getElem?_eq_getElem hk'] using this
  intro k hk hd
  obtain ⟨hs, ha⟩ := C118_step numTotalNodes points cells el fc h num fuel _ _ _ (h2 k hk hd)
  refine ⟨_, _, ?_, ?_, hs, ha, (C118_symmetric numTotalNodes points cells el fc h num fuel _ _ _ (h2 k hk hd) (hsym k hk)).2⟩
  · rintro rfl c q
    exact ⟨rfl, rfl⟩
  · rintro m hm rfl c q
    simp [before, List.getElem?_eq_getElem hm]

end

end JaxFem.Benchmarks
