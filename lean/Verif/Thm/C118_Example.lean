import Verif.Thm.C118_Average
import Verif.Thm.C118_Surface
import Verif.Thm.C103_Example

/-!
# C118: a concrete case

One tetrahedron of height 10 standing on its base; a linear solver that solves identity systems, which is what remains when
every node is at an end of the bar.
-/

namespace JaxFem.Benchmarks

open scoped BigOperators

open CoDesign (tetG tetEl tetFc)

variable {nq nfq nn : Nat}

/-- Corners of the tetrahedron. -/
noncomputable def barPts : List (Fin 3 → ℝ) := [![0, 0, 0], ![1, 0, 0], ![0, 1, 0], ![0, 0, 10]]

/-- The tetrahedron. -/
noncomputable abbrev bar : Problem1 (Plasticity.PState 3) 1 1 4 3 3 := plastic 4 barPts [[0, 1, 2, 3]] tetEl tetFc

/-- Solver of identity systems. -/
def idNum (C nq N : Nat) : Numerics C nq N := ⟨fun _ _ => 1, fun _ b _ => .ok b⟩

theorem bar_wf : bar.WF where
  nonempty := by simp [plastic]
  points := rfl
  cell_length := by simp [plastic]
  cell_lt := by simp [plastic]
  face_lt := by simp [plastic]

theorem bar_jac (g : Matrix (Fin 4) (Fin 3) ℝ) (hg : g = Matrix.of tetG) :
    mapJacobian (coords 4 barPts [0, 1, 2, 3]) g = Matrix.diagonal ![1, 1, 10] := by
  subst hg
  ext i j
  fin_cases i <;> fin_cases j <;>
    simp [mapJacobian, coords, Matrix.mul_apply, Fin.sum_univ_four, barPts, tetG, Matrix.diagonal]

theorem bar_unfolded : Unfolded bar := by
  intro cell hc q
  have hc' : cell.nodes = [0, 1, 2, 3] := by
    have : cell ∈ [(⟨[0, 1, 2, 3], fun _ => Plasticity.pInit 3⟩ : CellSpec (Plasticity.PState 3) 1)] := hc
    rw [List.mem_singleton] at this
    rw [this]
  rw [hc']
  show (mapJacobian (coords 4 barPts [0, 1, 2, 3]) (Matrix.of tetG)).det ≠ 0
  rw [bar_jac _ rfl, Matrix.det_diagonal]
  simp [Fin.prod_univ_three]

theorem bar_measure (c : Fin bar.cells.length) (q : Fin 1) : bar.measureAt c q = 10 / 6 := by
  have hc : c = ⟨0, by simp [plastic]⟩ := Fin.ext (by have := c.2; simp [plastic] at this; omega)
  subst hc
  show (mapJacobian (coords 4 barPts [0, 1, 2, 3]) (Matrix.of tetG)).det * (1 / 6) = 10 / 6
  rw [bar_jac _ rfl, Matrix.det_diagonal]
  simp [Fin.prod_univ_three]
  norm_num

theorem bar_volume : volume bar = 10 / 6 := by
  have hl : bar.cells.length = 1 := by simp [plastic]
  simp only [volume, bar_measure]
  simp [hl]

theorem bar_top (n : Nat) : OnTop barPts n ↔ n = 3 := by
  constructor
  · rintro ⟨p, hp, h⟩
    match n, hp with
    | 0, hp => cases hp; change |(0 : ℝ) - 10| ≤ _ at h; norm_num at h
    | 1, hp => cases hp; change |(0 : ℝ) - 10| ≤ _ at h; norm_num at h
    | 2, hp => cases hp; change |(0 : ℝ) - 10| ≤ _ at h; norm_num at h
    | 3, _ => rfl
    | n + 4, hp => simp [barPts] at hp
  · rintro rfl
    exact ⟨_, rfl, by change |(10 : ℝ) - 10| ≤ _; norm_num⟩

theorem bar_bottom (n : Nat) : OnBottom barPts n ↔ n < 3 := by
  constructor
  · rintro ⟨p, hp, h⟩
    match n, hp with
    | 0, _ => omega
    | 1, _ => omega
    | 2, _ => omega
    | 3, hp => cases hp; change |(10 : ℝ) - 0| ≤ _ at h; norm_num at h
    | n + 4, hp => simp [barPts] at hp
  · intro h
    interval_cases n <;> exact ⟨_, rfl, by change |(0 : ℝ) - 0| ≤ _; norm_num⟩

/-- Two passes of the loop. -/
theorem newton_two {D R : Type} (update : D → Except Err R) (norm : R → Flt ℝ) (step : R → D → Except Err D) (tol relTol : ℝ)
    (d0 d1 : D) (r0 r1 : R) (ht : 0 ≤ tol) (h0 : update d0 = .ok r0) (hn : ∃ x, norm r0 = .fin x) (hs : step r0 d0 = .ok d1)
    (h1 : update d1 = .ok r1) (hz : norm r1 = .fin 0) :
    ∃ d n, newtonSolve update norm step (fun _ => true) tol relTol d0 2 = some (.ok (d, n)) := by
  obtain ⟨x, hx⟩ := hn
  rw [newtonSolve, h0]
  dsimp only
  rw [newtonLoop]
  by_cases hg : (((norm r0).div (norm r0)).gt (.fin relTol) && (norm r0).gt (.fin tol)) = true
  · rw [if_pos hg, hs]
    dsimp only
    rw [h1]
    dsimp only
    rw [newtonLoop, if_neg]
    · refine ⟨d1, 1, ?_⟩
      dsimp only
      rw [hz]
      rfl
    · have : (norm r1).gt (.fin tol) = false := by rw [hz]; simp [Flt.gt, ht]
      rw [this]
      simp
  · rw [if_neg hg]
    refine ⟨d0, 0, ?_⟩
    dsimp only
    rw [hx]
    rfl

section

variable (numTotalNodes : Nat) (points : List (Fin 3 → ℝ)) (cells : List (List Nat)) (el : RefElement ℝ nq nn 3)
  (fc : RefFaces ℝ nfq nn 3)

local notation "𝒫" => plastic numTotalNodes points cells el fc

/-- When every node is at an end, the solver of identity systems finishes every load step. -/
theorem clamped_finishes (h : (𝒫).WF) (hn : ∀ n, n < numTotalNodes → OnTop points n ∨ OnBottom points n)
    (vars : Vars (𝒫).cells.length nq) (disp : ℝ) :
    ∃ st, loadStep 𝒫 (idNum _ _ _) 2 vars disp = some (.ok st) := by
  obtain ⟨b, hb, -, -⟩ := bc_builds numTotalNodes points cells el fc h disp
  set r0 := applyBcV (𝒫).fes [UserBC.entries b] 1 (residualVec 𝒫 vars 0) 0 with hr0
  have h1 : applyBcV (𝒫).fes [UserBC.entries b] 1 (residualVec 𝒫 vars (0 + -r0)) (0 + -r0) = 0 := by
    funext k
    have hk3 : (k : Nat) / 3 < numTotalNodes := by
      have : (k : Nat) < numTotalNodes * 3 := lt_of_lt_of_eq k.2 (totalDofs_single 𝒫)
      exact Nat.div_lt_of_lt_mul (by rw [mul_comm]; exact this)
    have hk : (k : Nat) = (k : Nat) / 3 * 3 + (⟨(k : Nat) % 3, Nat.mod_lt _ (by norm_num)⟩ : Fin 3) := by
      show (k : Nat) = (k : Nat) / 3 * 3 + (k : Nat) % 3
      omega
    have hv : ∀ u : Fin (totalDofs (𝒫).fes) → ℝ, (𝒫).vecField u ((k : Nat) / 3) ⟨(k : Nat) % 3, Nat.mod_lt _ (by norm_num)⟩ = u k := by
      intro u
      rw [Problem1.vecField, dif_pos (hk ▸ k.2)]
      congr 1
      exact Fin.ext hk.symm
    have e0 := misfit_eq numTotalNodes points cells el fc h disp b hb vars 0 k _ _ hk3 hk
    rw [← hr0] at e0
    rw [misfit_eq numTotalNodes points cells el fc h disp b hb vars _ k _ _ hk3 hk]
    rw [misfit, hv] at e0
    rw [misfit, hv]
    rcases hn _ hk3 with ht | hbm
    · rw [if_pos ht] at e0 ⊢
      simp only [Pi.add_apply, Pi.zero_apply, Pi.neg_apply, e0]
      ring
    · by_cases ht : OnTop points ((k : Nat) / 3)
      · rw [if_pos ht] at e0 ⊢
        simp only [Pi.add_apply, Pi.zero_apply, Pi.neg_apply, e0]
        ring
      · rw [if_neg ht, if_pos hbm] at e0 ⊢
        simp only [Pi.add_apply, Pi.zero_apply, Pi.neg_apply, e0]
        ring
  have hz : FinitePlasticity.norm2 (0 : Fin (totalDofs (𝒫).fes) → ℝ) = 0 := by simp [FinitePlasticity.norm2]
  rw [loadStep, hb]
  dsimp only
  have key : ∃ d n, newtonSolve (newtonUpdate (𝒫).fes [UserBC.entries b] (residualVec 𝒫 vars) ((idNum _ _ _).tan vars))
      (fun rA => .fin (FinitePlasticity.norm2 rA.1)) (newtonStep (𝒫).fes [UserBC.entries b]
        (fun r => .fin (FinitePlasticity.norm2 r)) (residualVec 𝒫 vars) (idNum (𝒫).cells.length nq _).solve false) (fun _ => true)
        (1 / 10 ^ 6 : ℝ) (1 / 10 ^ 8) 0 2 = some (.ok (d, n)) := by
    refine newton_two _ _ _ _ _ 0 (0 + -r0) _ _ (by norm_num) rfl ⟨_, rfl⟩ rfl rfl ?_
    show Flt.fin (FinitePlasticity.norm2 (applyBcV (𝒫).fes [UserBC.entries b] 1 (residualVec 𝒫 vars (0 + -r0)) (0 + -r0))) = _
    rw [h1, hz]
  obtain ⟨d, n, hd⟩ := key
  rw [hd]
  exact ⟨_, rfl⟩

end

/-- Every list of displacements is run through. -/
theorem bar_runs (disps : List ℝ) : ∀ vars, ∃ l, run bar (idNum _ _ _) 2 disps vars = some (.ok l) := by
  induction disps with
  | nil => exact fun _ => ⟨[], rfl⟩
  | cons disp rest ih =>
    intro vars
    obtain ⟨st, hst⟩ := clamped_finishes 4 barPts [[0, 1, 2, 3]] tetEl tetFc bar_wf (fun n hn => by
      rw [bar_top, bar_bottom]; omega) vars disp
    obtain ⟨l, hl⟩ := ih st.vars
    refine ⟨st :: l, ?_⟩
    rw [run, hst]
    dsimp only
    rw [hl]

/-- The theorems apply to it: three steps up and back, three averages within the yield condition. -/
example : ∃ l, run bar (idNum _ _ _) 2 [1 / 20, 1 / 10, 0] (initVars _) = some (.ok l) ∧ l.length = 3 := by
  obtain ⟨l, hl⟩ := bar_runs [1 / 20, 1 / 10, 0] (initVars _)
  exact ⟨l, hl, (C118_run 4 barPts [[0, 1, 2, 3]] tetEl tetFc bar_wf _ 2 _ l hl).1⟩

example (vars) (disp : ℝ) : ∃ st, loadStep bar (idNum _ _ _) 2 vars disp = some (.ok st) ∧ Plasticity.Admissible 250 st.avg := by
  obtain ⟨st, hst⟩ := clamped_finishes 4 barPts [[0, 1, 2, 3]] tetEl tetFc bar_wf (fun n hn => by
    rw [bar_top, bar_bottom]; omega) vars disp
  refine ⟨st, hst, C118_yield 4 barPts [[0, 1, 2, 3]] tetEl tetFc bar_wf (fun c q => ?_) ?_ _ 2 vars disp st hst⟩
  · rw [bar_measure]; norm_num
  · rw [bar_volume]; norm_num

/-- Ends of the tetrahedron are plane. -/
example : (∀ n, OnTop bar.points n → bar.points.getD n 0 2 = 10) ∧ ∀ n, OnBottom bar.points n → bar.points.getD n 0 2 = 0 := by
  constructor
  · intro n hn
    cases (bar_top n).1 hn
    rfl
  · intro n hn
    have := (bar_bottom n).1 hn
    interval_cases n <;> rfl

/-- The table of the face `x = 0` of the reference tetrahedron, and its Jacobian in the bar. -/
example : Tabulated bar.fc (fun _ _ => 1 / 2) (fun _ => ![0, 1, 0]) (fun _ => ![0, 0, 1]) ∧
    (∀ c f q, 0 < (faceJac bar c f q).det) ∧ ValidFaces bar.points bar.conn [[0, 2, 3]] ∧ bar.fc.Unity := by
  refine ⟨?_, ?_, ?_, ?_⟩
  · intro f q
    refine ⟨?_, ?_, ?_, ?_⟩
    · simp [plastic, tetFc, dotProduct, Fin.sum_univ_three]
    · simp [plastic, tetFc, dotProduct, Fin.sum_univ_three]
    · simp [plastic, tetFc, dotProduct, Fin.sum_univ_three]
    · simp [plastic, tetFc, euclid, cross_apply, dotProduct, Fin.sum_univ_three]
  · intro c f q
    have hc : c = ⟨0, by simp [plastic]⟩ := Fin.ext (by have := c.2; simp [plastic] at this; omega)
    subst hc
    show 0 < (mapJacobian (coords 4 barPts [0, 1, 2, 3]) (Matrix.of tetG)).det
    rw [bar_jac _ rfl, Matrix.det_diagonal]
    simp [Fin.prod_univ_three]
  · intro cell hcell face hface a ha
    have h1 : cell = [0, 1, 2, 3] := by simpa [plastic, Problem1.conn] using hcell
    have h2 : face = [0, 2, 3] := by simpa using hface
    subst h1 h2
    simp only [List.mem_cons, List.not_mem_nil, or_false] at ha
    rcases ha with rfl | rfl | rfl <;> exact ⟨_, _, rfl, rfl⟩
  · intro f q
    refine ⟨?_, ?_⟩
    · show ∑ a : Fin 4, (![1/3, 0, 1/3, 1/3] : Fin 4 → ℝ) a = 1
      rw [Fin.sum_univ_four]
      show (1 / 3 : ℝ) + 0 + 1 / 3 + 1 / 3 = 1
      norm_num
    · intro j
      show ∑ a : Fin 4, tetG a j = 0
      rw [Fin.sum_univ_four]
      fin_cases j <;> simp [tetG]

end JaxFem.Benchmarks
