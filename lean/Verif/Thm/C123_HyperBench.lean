import Verif.Model.HyperBench
import Verif.Spec.HyperBench
import Verif.Thm.C20_NewtonLoop
import Verif.Thm.C88_Problem
import Verif.Thm.C121_Box

/-!
# C123: the hyperelasticity benchmark
-/

namespace JaxFem.HyperBench

open ElasticBench (Body residualVec Numerics)
open Hyper (muOf kappaOf psi firstPK)

variable {nq nfq nn : Nat}

/-! ### Helper lemmas: boundary conditions -/

theorem bottom_holds (p : Fin 3 → ℝ) (n : Nat) : bottom.holds p n ↔ |p 2| ≤ 1 / 100000 := by
  simp only [bottom, LocFn.holds, FinitePlasticity.isclose]
  norm_num

theorem top_holds (p : Fin 3 → ℝ) (n : Nat) : top.holds p n ↔ |p 2 - 10| ≤ 11 / 100000 := by
  simp only [top, LocFn.holds, FinitePlasticity.isclose]
  norm_num

/-- What the conditions demand at a node. -/
theorem demands (points : List (Fin 3 → ℝ)) (n : Nat) (x : Fin 3 → ℝ) (hp : points[n]? = some x) (c : Fin 3) :
    (|x 2| ≤ 1 / 100000 → ¬ |x 2 - 10| ≤ 11 / 100000 → UserBC.Demands points (UserBC.conds info) n c (some 0)) ∧
    (|x 2 - 10| ≤ 11 / 100000 → UserBC.Demands points (UserBC.conds info) n c (some (if c = 2 then 1 else 0))) ∧
    (¬ |x 2| ≤ 1 / 100000 → ¬ |x 2 - 10| ≤ 11 / 100000 → UserBC.Demands points (UserBC.conds info) n c none) := by
  have hr : ∀ p, points[n]? = some p → top.holds p n → |x 2 - 10| ≤ 11 / 100000 := by
    intro p hp' h
    rw [hp] at hp'
    rw [Option.some.inj hp']
    exact (top_holds _ _).1 h
  have hl : ∀ p, points[n]? = some p → bottom.holds p n → |x 2| ≤ 1 / 100000 := by
    intro p hp' h
    rw [hp] at hp'
    rw [Option.some.inj hp']
    exact (bottom_holds _ _).1 h
  refine ⟨fun h1 h2 => ?_, fun h1 => ?_, fun h1 h2 => ?_⟩
  · have hh : bottom.holds x n := (bottom_holds _ _).2 h1
    fin_cases c
    · refine .value [] (bottom, 0, fun _ => 0) [(bottom, 1, fun _ => 0), (bottom, 2, fun _ => 0), (top, 0, fun _ => 0),
        (top, 1, fun _ => 0), (top, 2, fun _ => 1)] x rfl rfl hp hh ?_
      rintro it hit ⟨hc, p, hp', hh'⟩
      simp only [List.mem_cons, List.not_mem_nil, or_false] at hit
      rcases hit with rfl | rfl | rfl | rfl | rfl
      · exact absurd hc (by norm_num)
      · exact absurd hc (by norm_num)
      · exact h2 (hr p hp' hh')
      · exact absurd hc (by norm_num)
      · exact absurd hc (by norm_num)
    · refine .value [(bottom, 0, fun _ => 0)] (bottom, 1, fun _ => 0) [(bottom, 2, fun _ => 0), (top, 0, fun _ => 0),
        (top, 1, fun _ => 0), (top, 2, fun _ => 1)] x rfl rfl hp hh ?_
      rintro it hit ⟨hc, p, hp', hh'⟩
      simp only [List.mem_cons, List.not_mem_nil, or_false] at hit
      rcases hit with rfl | rfl | rfl | rfl
      · exact absurd hc (by norm_num)
      · exact absurd hc (by norm_num)
      · exact h2 (hr p hp' hh')
      · exact absurd hc (by norm_num)
    · refine .value [(bottom, 0, fun _ => 0), (bottom, 1, fun _ => 0)] (bottom, 2, fun _ => 0) [(top, 0, fun _ => 0),
        (top, 1, fun _ => 0), (top, 2, fun _ => 1)] x rfl rfl hp hh ?_
      rintro it hit ⟨hc, p, hp', hh'⟩
      simp only [List.mem_cons, List.not_mem_nil, or_false] at hit
      rcases hit with rfl | rfl | rfl
      · exact absurd hc (by norm_num)
      · exact absurd hc (by norm_num)
      · exact h2 (hr p hp' hh')
  · have hh : top.holds x n := (top_holds _ _).2 h1
    fin_cases c
    · refine .value [(bottom, 0, fun _ => 0), (bottom, 1, fun _ => 0), (bottom, 2, fun _ => 0)] (top, 0, fun _ => 0)
        [(top, 1, fun _ => 0), (top, 2, fun _ => 1)] x rfl rfl hp hh ?_
      rintro it hit ⟨hc, -⟩
      simp only [List.mem_cons, List.not_mem_nil, or_false] at hit
      rcases hit with rfl | rfl <;> exact absurd hc (by norm_num)
    · refine .value [(bottom, 0, fun _ => 0), (bottom, 1, fun _ => 0), (bottom, 2, fun _ => 0), (top, 0, fun _ => 0)]
        (top, 1, fun _ => 0) [(top, 2, fun _ => 1)] x rfl rfl hp hh ?_
      rintro it hit ⟨hc, -⟩
      simp only [List.mem_cons, List.not_mem_nil, or_false] at hit
      rcases hit with rfl
      exact absurd hc (by norm_num)
    · exact .value [(bottom, 0, fun _ => 0), (bottom, 1, fun _ => 0), (bottom, 2, fun _ => 0), (top, 0, fun _ => 0),
        (top, 1, fun _ => 0)] (top, 2, fun _ => 1) [] x rfl rfl hp hh (by simp)
  · refine .free ?_
    rintro it hit ⟨-, p, hp', hh'⟩
    simp only [UserBC.conds, info, List.zip_cons_cons, List.zip_nil_right, List.mem_cons, List.not_mem_nil, or_false] at hit
    rcases hit with rfl | rfl | rfl | rfl | rfl | rfl
    · exact h1 (hl p hp' hh')
    · exact h1 (hl p hp' hh')
    · exact h1 (hl p hp' hh')
    · exact h2 (hr p hp' hh')
    · exact h2 (hr p hp' hh')
    · exact h2 (hr p hp' hh')

theorem info_readable : UserBC.Readable info ∧ ∀ it ∈ UserBC.conds info, it.2.1 < 3 := by
  constructor
  · refine ⟨rfl, rfl, ?_⟩
    intro loc hl
    simp only [List.mem_cons, List.not_mem_nil, or_false] at hl
    rcases hl with rfl | rfl | rfl | rfl | rfl | rfl <;> trivial
  · intro it hit
    simp only [UserBC.conds, info, List.zip_cons_cons, List.zip_nil_right, List.mem_cons, List.not_mem_nil, or_false] at hit
    rcases hit with rfl | rfl | rfl | rfl | rfl | rfl <;> norm_num

theorem bc_builds (M : Body nq nfq nn) : ∃ b, dirichletBC M.points info = .ok b ∧
      UserBC.problemBCs (.single M.points info) = .ok [UserBC.entries b] ∧
      UserBC.Suits (problem M.points M.cells M.el M.fc).fes (.single M.points info) := by
  obtain ⟨bcs, hb⟩ := (UserBC.C107_builds (.single M.points info)).2 (by
    intro i hi'
    have : i = 0 := by simpa [UserBC.Args.meshes] using hi'
    subst this
    exact ⟨info, rfl, info_readable.1⟩)
  cases hd : dirichletBC M.points info with
  | error e =>
    have : UserBC.problemBCs (.single M.points info) = .error e := by
      show (dirichletBC M.points info >>= fun b => Except.ok [UserBC.entries b]) = _
      rw [hd]
      rfl
    rw [this] at hb
    cases hb
  | ok b =>
    refine ⟨b, rfl, ?_, ?_, ?_, ?_⟩
    · show (dirichletBC M.points info >>= fun b => Except.ok [UserBC.entries b]) = _
      rw [hd]
      rfl
    · rfl
    · intro i fe pts h1 h2
      have h0 : i = 0 := by
        have := (List.getElem?_eq_some_iff.1 h1).1
        simpa [Problem1.fes] using this
      subst h0
      have e1 : fe = ⟨(problem M.points M.cells M.el M.fc).numTotalNodes, 3, nn, (problem M.points M.cells M.el M.fc).conn⟩ := by
        simpa [Problem1.fes] using h1.symm
      have e2 : pts = M.points := by simpa [UserBC.Args.meshes] using h2.symm
      rw [e1, e2]
      rfl
    · intro i fe info' h1 h2 it hit
      have h0 : i = 0 := by
        have := (List.getElem?_eq_some_iff.1 h1).1
        simpa [Problem1.fes] using this
      subst h0
      have e1 : fe = ⟨(problem M.points M.cells M.el M.fc).numTotalNodes, 3, nn, (problem M.points M.cells M.el M.fc).conn⟩ := by
        simpa [Problem1.fes] using h1.symm
      have e2 : info' = info := by simpa [UserBC.Args.given] using h2.symm
      rw [e2] at hit
      rw [e1]
      exact info_readable.2 it hit

/-! ### Helper lemmas: residual -/

section

variable (M : Body nq nfq nn)

local notation "𝒫" => problem M.points M.cells M.el M.fc

theorem wf (hM : M.Sound) : (𝒫).WF where
  nonempty := by simpa [problem] using hM.nonempty
  points := rfl
  cell_length := by
    intro c hc
    obtain ⟨c', hc', rfl⟩ := List.mem_map.1 hc
    exact hM.length c' hc'
  cell_lt := by
    intro c hc
    obtain ⟨c', hc', rfl⟩ := List.mem_map.1 hc
    exact fun n hn => (hM.valid c' hc' n hn).trans_eq hM.points.symm
  face_lt := by
    intro s hs
    simp [problem] at hs

theorem work (u v : Nat → Fin 3 → ℝ) (hu : ∀ c ∈ M.cells, ∀ q, 0 < (deformation M u c q).det) :
    (𝒫).virtualWork u v = internalPower M u v := by
  have e1 : (𝒫).tensorWork u v = internalPower M u v := by
    rw [Problem1.tensorWork, internalPower]
    simp only [problem, List.map_map]
    refine congrArg List.sum (List.map_congr_left fun c hc => ?_)
    show cellIntegral M.el M.points c _ = cellIntegral M.el M.points c _
    congr 1
    funext q
    show contract (firstPK (psi 3 (muOf 1000 0.3) (kappaOf 1000 0.3)) (M.grad u c q)) (M.grad v c q) = _
    rw [Hyper.firstPK_psi 3 _ _ _ (.inl (hu c hc q)), deformation]
    norm_num [muOf, kappaOf]
  rw [Problem1.virtualWork, e1]
  show _ + 0 + 0 = _
  ring

/-- Entries of the residual vector. -/
theorem residual_at (hM : M.Sound) (x : Fin (totalDofs (𝒫).fes) → ℝ) : ∃ R : Nat → Fin 3 → ℝ,
    (∀ n < M.numNodes, ∀ c, (𝒫).vecField (residualVec 𝒫 x) n c = R n c) ∧
    ∀ v, ∑ n ∈ Finset.range M.numNodes, ∑ c, v n c * R n c = (𝒫).virtualWork ((𝒫).vecField x) v := by
  obtain ⟨sol, e1, e2, e3⟩ := unravel_single 𝒫 x
  obtain ⟨R, r1, r2, r3⟩ := C72_weak_form 𝒫 (wf M hM) sol e2
  have hR : HasShapes (solShapes (𝒫).fes) R := by rw [solShapes_single]; exact r2
  refine ⟨fun n c => at3 R 0 n c, fun n hn c => ?_, fun v => ?_⟩
  · have hn' : n < (𝒫).numTotalNodes := hn.trans_eq hM.points.symm
    have hlt : n * 3 + (c : Nat) < totalDofs (𝒫).fes := by
      rw [totalDofs_single]; exact gridNode_lt hn' c.2
    rw [Problem1.vecField, dif_pos hlt]
    have hres : residualVec 𝒫 x ⟨_, hlt⟩ = (ravelSol R).getD (n * 3 + c) 0 := by
      simp only [residualVec, e1, r1]
    rw [hres]
    have := ravelSol_dofNum (𝒫).fes R hR (i := 0) (n := n) (c := c) (by simp [Problem1.fes])
      (by simpa [Problem1.fes] using hn') (by simpa [Problem1.fes] using c.2)
    rw [dofNum_single] at this
    exact this
  · rw [← e3, ← r3 v]
    rw [show (𝒫).numTotalNodes = M.numNodes from hM.points]

theorem norm2_eq (hM : M.Sound) (d : Fin (totalDofs (𝒫).fes) → ℝ) : FinitePlasticity.norm2 d = length M ((𝒫).vecField d) := by
  rw [FinitePlasticity.norm2, length]
  congr 1
  have hy : ∀ k : Fin (totalDofs (𝒫).fes), d k ^ 2 = (fun k : Nat => (List.ofFn d).getD k 0 ^ 2) k := by
    intro k
    dsimp only
    rw [ofFn_getD]
  rw [Finset.sum_congr rfl fun k _ => hy k, ← Finset.sum_range (f := fun k : Nat => (List.ofFn d).getD k 0 ^ 2)]
  have hgrid := sum_range_grid (𝒫).numTotalNodes 3 (fun k : Nat => (List.ofFn d).getD k 0 ^ 2)
  rw [← totalDofs_single] at hgrid
  rw [hgrid, show (𝒫).numTotalNodes = M.numNodes from hM.points]
  refine Finset.sum_congr rfl fun n hn => Finset.sum_congr rfl fun c _ => ?_
  have hn := Finset.mem_range.1 hn
  have hlt : n * 3 + (c : Nat) < totalDofs (𝒫).fes := by
    rw [totalDofs_single, show (𝒫).numTotalNodes = M.numNodes from hM.points]; exact gridNode_lt hn c.2
  rw [Problem1.vecField, dif_pos hlt]
  congr 1
  exact ofFn_getD d ⟨_, hlt⟩

/-- Rows of the residual with boundary conditions. -/
theorem rows (hM : M.Sound) (b : List (List Nat) × List (List Nat) × List (List ℝ)) (hb : dirichletBC M.points info = .ok b)
    (r u : Fin (totalDofs (𝒫).fes) → ℝ) (n : Nat) (hn : n < M.numNodes) (c : Fin 3) :
    (AtTop M n → (𝒫).vecField (applyBcV (𝒫).fes [UserBC.entries b] 1 r u) n c = (𝒫).vecField u n c - if c = 2 then 1 else 0) ∧
    (AtBottom M n → (𝒫).vecField (applyBcV (𝒫).fes [UserBC.entries b] 1 r u) n c = (𝒫).vecField u n c) ∧
    (¬ AtTop M n → ¬ AtBottom M n → (𝒫).vecField (applyBcV (𝒫).fes [UserBC.entries b] 1 r u) n c = (𝒫).vecField r n c) := by
  obtain ⟨b', hb', hp, hs⟩ := bc_builds M
  rw [hb] at hb'
  cases hb'
  have hn' : n < (𝒫).numTotalNodes := hn.trans_eq hM.points.symm
  have hlt : n * 3 + (c : Nat) < totalDofs (𝒫).fes := by
    rw [totalDofs_single]; exact gridNode_lt hn' c.2
  have key := UserBC.C107_rows (𝒫).fes (.single M.points info) hs _ hp 0 n c ⟨(𝒫).numTotalNodes, 3, nn, (𝒫).conn⟩
    M.points info rfl rfl rfl hn' c.2 ⟨_, hlt⟩ (by rw [dofNum_single]) 1 r u 0
  have hpx : M.points[n]? = some (M.pos n) := by
    have hl : n < M.points.length := hn'
    rw [List.getElem?_eq_getElem hl, Body.pos, List.getD_eq_getElem _ _ hl]
  obtain ⟨d1, d2, d3⟩ := demands M.points n (M.pos n) hpx c
  have hv : ∀ y, (𝒫).vecField y n c = y ⟨_, hlt⟩ := fun y => by rw [Problem1.vecField, dif_pos hlt]
  simp only [hv]
  refine ⟨fun h => ?_, fun h => ?_, fun h h' => ?_⟩
  · rw [(key.1 _ (d2 h.2)).1, mul_one]
  · have hne : ¬ |M.pos n 2 - 10| ≤ 11 / 100000 := by
      intro h'
      have a := abs_le.1 h.2
      have b := abs_le.1 h'
      linarith
    rw [(key.1 _ (d1 h.2 hne)).1]
    ring
  · exact (key.2 (d3 (fun a => h' ⟨hn, a⟩) fun a => h ⟨hn, a⟩)).1

/-- At rest the residual consists of the prescribed displacement. -/
theorem start (hM : M.Sound) (b : List (List Nat) × List (List Nat) × List (List ℝ)) (hb : dirichletBC M.points info = .ok b) :
    FinitePlasticity.norm2 (applyBcV (𝒫).fes [UserBC.entries b] 1 (residualVec 𝒫 0) 0) = by
      classical exact √((Finset.range M.numNodes).filter (AtTop M)).card := by
  classical
  rw [norm2_eq M hM, length]
  congr 1
  obtain ⟨R, h1, h2⟩ := residual_at M hM 0
  have hv0 : (𝒫).vecField 0 = fun _ _ => 0 := by
    funext m c
    simp [Problem1.vecField]
  have hg : ∀ c q, M.grad (fun _ _ => 0) c q = 0 := fun c q => by
    funext i j
    show (𝒫).gradient (fun _ _ => 0) c q i j = 0
    rw [gradient_eq]
    simp
  have hd : ∀ c q, deformation M (fun _ _ => 0) c q = 1 := fun c q => by
    rw [deformation, hg]
    exact add_zero _
  have hR : ∀ n < M.numNodes, ∀ c, R n c = 0 := by
    intro n hn c
    have := h2 fun m i => if m = n ∧ i = c then 1 else 0
    rw [hv0, work M _ _ (fun c _ q => by rw [hd, Matrix.det_one]; exact one_pos), internalPower] at this
    rw [List.sum_eq_zero (by
      intro x hx
      obtain ⟨cell, -, rfl⟩ := List.mem_map.1 hx
      rw [cellIntegral]
      refine Finset.sum_eq_zero fun q _ => ?_
      have hz : neoHookePiola 3 (5000 / 13) (2500 / 3) (1 : Matrix (Fin 3) (Fin 3) ℝ) = 0 := by
        ext i j
        simp only [neoHookePiola, Matrix.det_one]
        fin_cases i <;> fin_cases j <;> simp [Fin.sum_univ_three, Matrix.one_apply] <;> norm_num
      rw [hd, hz]
      simp [contract])] at this
    rw [Finset.sum_eq_single n (fun m _ hm => by simp [hm]) (fun h => absurd (Finset.mem_range.2 hn) h),
      Finset.sum_eq_single c (fun i _ hi => by simp [hi]) (by simp)] at this
    simpa using this
  rw [Finset.card_filter, Nat.cast_sum]
  refine Finset.sum_congr rfl fun n hn => ?_
  have hn := Finset.mem_range.1 hn
  have hr := fun c => rows M hM b hb (residualVec 𝒫 0) 0 n hn c
  simp only [hv0] at hr
  by_cases ht : AtTop M n
  · rw [if_pos ht, Fin.sum_univ_three, (hr 0).1 ht, (hr 1).1 ht, (hr 2).1 ht]
    norm_num
    simp
  · rw [if_neg ht]
    by_cases hbt : AtBottom M n
    · simp [fun c => (hr c).2.1 hbt]
    · simp [fun c => (hr c).2.2 ht hbt, fun c => h1 n hn c, fun c => hR n hn c]

end

/-! ### Property theorems -/

theorem le_length (M : Body nq nfq nn) (v : Nat → Fin 3 → ℝ) (n : Nat) (hn : n < M.numNodes) (i : Fin 3) : |v n i| ≤ length M v := by
  rw [length]
  refine Real.abs_le_sqrt ?_
  refine le_trans ?_ (Finset.single_le_sum (f := fun n => ∑ i, v n i ^ 2) (fun _ _ => Finset.sum_nonneg fun _ _ => sq_nonneg _)
    (Finset.mem_range.2 hn))
  exact Finset.single_le_sum (f := fun i => v n i ^ 2) (fun _ _ => sq_nonneg _) (Finset.mem_univ i)

theorem cauchy (M : Body nq nfq nn) (v e : Nat → Fin 3 → ℝ) :
    |∑ n ∈ Finset.range M.numNodes, ∑ i, v n i * e n i| ≤ length M e * length M v := by
  have h := Finset.sum_mul_sq_le_sq_mul_sq (Finset.range M.numNodes ×ˢ (Finset.univ : Finset (Fin 3))) (fun x => v x.1 x.2)
    fun x => e x.1 x.2
  rw [Finset.sum_product, Finset.sum_product, Finset.sum_product] at h
  rw [length, length, ← Real.sqrt_mul (Finset.sum_nonneg fun _ _ => Finset.sum_nonneg fun _ _ => sq_nonneg _)]
  refine Real.abs_le_sqrt ?_
  rw [mul_comm (∑ n ∈ Finset.range M.numNodes, ∑ i, e n i ^ 2)]
  exact h

/-- **C123 (returned displacements).** Whatever tangents and linear solver are used: if the test's `solver(problem)` returns, the
displacements at the plates are the prescribed ones up to the tolerance, and (unless a cell is turned inside out) the stresses
do no more power than the tolerance in any motion of unit length with resting plates. -/
theorem C123_returned (M : Body nq nfq nn) (hM : M.Sound)
    (num : (P : Problem1 Unit nq nfq nn 3 3) → Numerics (totalDofs P.fes)) (fuel : Nat) (sol : List (List ℝ)) (k : Nat)
    (hrun : run M.points M.cells M.el M.fc num fuel = some (.ok (sol, k))) :
    HasShapes [(M.numNodes, 3)] [sol] ∧
    (∀ n, AtTop M n → ∀ i, |fieldOf 3 sol n i - if i = 2 then 1 else 0| ≤ tolerance M) ∧
    (∀ n, AtBottom M n → ∀ i, |fieldOf 3 sol n i| ≤ tolerance M) ∧
    ((∀ c ∈ M.cells, ∀ q, 0 < (deformation M (fieldOf 3 sol) c q).det) →
      ∀ v, (∀ n, AtTop M n ∨ AtBottom M n → ∀ i, v n i = 0) →
        |internalPower M (fieldOf 3 sol) v| ≤ tolerance M * length M v) := by
  obtain ⟨b, hb, -, -⟩ := bc_builds M
  rw [run, hb] at hrun
  dsimp only at hrun
  set P := problem M.points M.cells M.el M.fc with hP
  obtain ⟨res, hn, hres⟩ := Option.map_eq_some_iff.1 hrun
  obtain ⟨d, m, rfl⟩ : ∃ d m, res = .ok (d, m) := by
    match res, hres with
    | .ok (d, m), _ => exact ⟨d, m, rfl⟩
  have hsol : (unravelSol (solShapes P.fes) (List.ofFn d)).getD 0 [] = sol := by
    have := congrArg (fun x : Except Err (List (List ℝ) × Nat) => match x with | .ok y => y.1 | .error _ => []) hres
    exact this
  obtain ⟨sol', e1, e2, e3⟩ := unravel_single P d
  rw [e1] at hsol
  have hsol' : sol' = sol := hsol
  subst hsol'
  obtain ⟨r0, r, x, h0, -, hr, hx, -, hc⟩ := C20_converged _ _ _ _ _ _ (fun r x hx => by
    cases hx
    exact Real.sqrt_nonneg _) _ _ _ _ hn
  cases h0
  cases hr
  cases hx
  set e := applyBcV P.fes [UserBC.entries b] 1 (residualVec P d) d with he
  have hle : length M (P.vecField e) ≤ tolerance M := by
    rw [← norm2_eq M hM, tolerance]
    rcases hc with hc | ⟨x0, hx0, hc⟩
    · exact le_max_of_le_left hc
    · cases hx0
      refine le_max_of_le_right (hc.trans_eq ?_)
      rw [start M hM b hb]
  have hrow := fun n hn c => rows M hM b hb (residualVec P d) d n hn c
  rw [e3]
  refine ⟨by rw [← hM.points]; exact e2, fun n hn i => ?_, fun n hn i => ?_, fun hu v hv => ?_⟩
  · rw [← (hrow n hn.1 i).1 hn]
    exact (le_length M _ n hn.1 i).trans hle
  · rw [← (hrow n hn.1 i).2.1 hn]
    exact (le_length M _ n hn.1 i).trans hle
  · obtain ⟨R, h1, h2⟩ := residual_at M hM d
    rw [← work M _ v hu, ← h2 v]
    have : ∑ n ∈ Finset.range M.numNodes, ∑ c, v n c * R n c
        = ∑ n ∈ Finset.range M.numNodes, ∑ c, v n c * P.vecField e n c := by
      refine Finset.sum_congr rfl fun n hn => Finset.sum_congr rfl fun c _ => ?_
      have hn := Finset.mem_range.1 hn
      by_cases hp : AtTop M n ∨ AtBottom M n
      · rw [hv n hp c, zero_mul, zero_mul]
      · rw [not_or] at hp
        rw [(hrow n hn c).2.2 hp.1 hp.2, h1 n hn c]
    rw [this]
    exact (cauchy M v _).trans (mul_le_mul_of_nonneg_right hle (Real.sqrt_nonneg _))

theorem internalPower_sub (M : Body nq nfq nn) (u v v' : Nat → Fin 3 → ℝ) :
    internalPower M u (fun n i => v n i - v' n i) = internalPower M u v - internalPower M u v' := by
  rw [internalPower, internalPower, internalPower, ← ElasticBench.sum_map_sub']
  refine congrArg List.sum (List.map_congr_left fun c _ => ?_)
  rw [cellIntegral, cellIntegral, cellIntegral, ← Finset.sum_sub_distrib]
  refine Finset.sum_congr rfl fun q _ => ?_
  rw [← sub_mul]
  congr 1
  simp only [contract, ElasticBench.grad_sub, mul_sub, Finset.sum_sub_distrib]

/-- **C123 (forces at the plates).** The forces that the two plates exert are opposite up to the tolerance times the square root of
the number of nodes. -/
theorem C123_forces (M : Body nq nfq nn) (hM : M.Sound) (hel : M.el.Unity)
    (num : (P : Problem1 Unit nq nfq nn 3 3) → Numerics (totalDofs P.fes)) (fuel : Nat) (sol : List (List ℝ)) (k : Nat)
    (hrun : run M.points M.cells M.el M.fc num fuel = some (.ok (sol, k)))
    (hu : ∀ c ∈ M.cells, ∀ q, 0 < (deformation M (fieldOf 3 sol) c q).det) (w : Fin 3 → ℝ) :
    |plateForce M (fieldOf 3 sol) w| ≤ tolerance M * √(M.numNodes * ∑ i, w i ^ 2) := by
  classical
  obtain ⟨-, -, -, h⟩ := C123_returned M hM num fuel sol k hrun
  set u := fieldOf 3 sol
  set v' : Nat → Fin 3 → ℝ := fun n i => if AtTop M n ∨ AtBottom M n then w i else 0 with hv'
  have hd := h hu (fun n i => w i - v' n i) fun n ho i => by
    simp only [hv']
    rw [if_pos ho, sub_self]
  have hz : internalPower M u (fun _ i => w i) = 0 := by
    rw [internalPower]
    refine List.sum_eq_zero fun x hx => ?_
    obtain ⟨c, -, rfl⟩ := List.mem_map.1 hx
    rw [cellIntegral]
    refine Finset.sum_eq_zero fun q _ => ?_
    have : M.grad (fun _ i => w i) c q = 0 := Hyper.gradient_const (problem M.points M.cells M.el M.fc) hel w c q
    rw [this]
    simp [contract]
  rw [internalPower_sub, hz, zero_sub, abs_neg] at hd
  have e : plateForce M u w = internalPower M u v' := by
    rw [plateForce, hv']
  rw [e]
  refine hd.trans (mul_le_mul_of_nonneg_left ?_ (le_max_of_le_left (by norm_num)))
  rw [length]
  refine Real.sqrt_le_sqrt ?_
  calc ∑ n ∈ Finset.range M.numNodes, ∑ i, (w i - v' n i) ^ 2 ≤ ∑ _n ∈ Finset.range M.numNodes, ∑ i, w i ^ 2 := by
        refine Finset.sum_le_sum fun n _ => Finset.sum_le_sum fun i _ => ?_
        simp only [hv']
        split_ifs
        · rw [sub_self]
          nlinarith [sq_nonneg (w i)]
        · rw [sub_zero]
    _ = M.numNodes * ∑ i, w i ^ 2 := by rw [Finset.sum_const, Finset.card_range, nsmul_eq_mul]

/-- **C123 (constrained bodies).** If every node belongs to a plate and the linear solver is exact, `solver(problem)` returns the
prescribed displacements after one step, whatever the tangents. -/
theorem C123_plates (M : Body nq nfq nn) (hM : M.Sound) (hall : ∀ n < M.numNodes, AtTop M n ∨ AtBottom M n)
    (htop : ∃ n, AtTop M n) (num : (P : Problem1 Unit nq nfq nn 3 3) → Numerics (totalDofs P.fes))
    (hs : ∀ P, ExactSolver (num P).solve)
    (hs' : ∀ P A b x0, A.det ≠ 0 → ∃ x, (num P).solve A b x0 = .ok x) (fuel : Nat) :
    ∃ sol, run M.points M.cells M.el M.fc num (fuel + 2) = some (.ok (sol, 1)) ∧
      ∀ n < M.numNodes, ∀ i, (AtTop M n → fieldOf 3 sol n i = if i = 2 then 1 else 0) ∧ (AtBottom M n → fieldOf 3 sol n i = 0) := by
  classical
  obtain ⟨b, hb, hbcs, hsuits⟩ := bc_builds M
  obtain ⟨hwf, hiff⟩ := UserBC.C107_conditions _ _ hsuits _ hbcs
  set P := problem M.points M.cells M.el M.fc with hP
  have hpre : ∀ n < M.numNodes, ∀ c : Fin 3,
      (AtTop M n → Prescribed P.fes [UserBC.entries b] (n * 3 + c) (some (if c = 2 then 1 else 0))) ∧
      (AtBottom M n → Prescribed P.fes [UserBC.entries b] (n * 3 + c) (some 0)) := by
    intro n hn c
    have hn' : n < P.numTotalNodes := hn.trans_eq hM.points.symm
    have hpx : M.points[n]? = some (M.pos n) := by
      have hl : n < M.points.length := hn'
      rw [List.getElem?_eq_getElem hl, Body.pos, List.getD_eq_getElem _ _ hl]
    obtain ⟨d1, d2, -⟩ := demands M.points n (M.pos n) hpx c
    have h := hiff 0 n c ⟨P.numTotalNodes, 3, nn, P.conn⟩ M.points info rfl rfl rfl hn' c.2
    rw [dofNum_single] at h
    refine ⟨fun ht => (h _).2 (d2 ht.2), fun hbt => (h _).2 (d1 hbt.2 ?_)⟩
    intro h'
    have a := abs_le.1 hbt.2
    have b := abs_le.1 h'
    linarith
  have hval : ∀ k : Fin (totalDofs P.fes), ∃ v, Prescribed P.fes [UserBC.entries b] k (some v) := by
    intro k
    have hk : (k : Nat) < M.numNodes * 3 := by
      exact k.2.trans_eq ((totalDofs_single P).trans (by rw [← hM.points]; rfl))
    have hn : (k : Nat) / 3 < M.numNodes := Nat.div_lt_of_lt_mul (by omega)
    have e : (k : Nat) = (k : Nat) / 3 * 3 + ((⟨(k : Nat) % 3, Nat.mod_lt _ (by norm_num)⟩ : Fin 3) : Nat) := by
      show (k : Nat) = (k : Nat) / 3 * 3 + (k : Nat) % 3
      omega
    obtain ⟨p1, p2⟩ := hpre _ hn ⟨(k : Nat) % 3, Nat.mod_lt _ (by norm_num)⟩
    rw [← e] at p1 p2
    rcases hall _ hn with h | h
    · exact ⟨_, p1 h⟩
    · exact ⟨_, p2 h⟩
  have hind : ∀ r r' u : Fin (totalDofs P.fes) → ℝ,
      applyBcV P.fes [UserBC.entries b] 1 r u = applyBcV P.fes [UserBC.entries b] 1 r' u := by
    intro r r' u
    funext k
    obtain ⟨v, hv⟩ := hval k
    rw [(applyBcV_spec P.fes _ hwf 1 r u k).2 v hv, (applyBcV_spec P.fes _ hwf 1 r' u k).2 v hv]
  have hel : ∀ A : Matrix (Fin (totalDofs P.fes)) (Fin (totalDofs P.fes)) ℝ, elimRows P.fes [UserBC.entries b] A = 1 := by
    intro A
    ext k l
    obtain ⟨v, hv⟩ := hval k
    rw [(elimRows_spec P.fes _ hwf A k l).2 v hv, Matrix.one_apply]
  obtain ⟨u, n, hnewton, hcase⟩ := C21_linear P.fes [UserBC.entries b] hwf 0 0 (by rw [hel, Matrix.det_one]; exact one_ne_zero)
    FinitePlasticity.norm2 (fun _ => Real.sqrt_nonneg _) (fun r => by
      rw [FinitePlasticity.norm2, Real.sqrt_eq_zero (Finset.sum_nonneg fun _ _ => sq_nonneg _),
        Finset.sum_eq_zero_iff_of_nonneg fun _ _ => sq_nonneg _]
      exact ⟨fun h => funext fun k => by simpa using h k (Finset.mem_univ k), fun h k _ => by simp [h]⟩)
    (num P).solve (hs P) (hs' P) false (1 / 10 ^ 6) (1 / 10 ^ 8) (by norm_num) 0 fuel
  have eu : newtonUpdate P.fes [UserBC.entries b] (residualVec P) (num P).tan
      = newtonUpdate P.fes [UserBC.entries b] (fun u => (0 : Matrix (Fin (totalDofs P.fes)) (Fin (totalDofs P.fes)) ℝ).mulVec u - 0)
        fun _ => 0 := by
    funext d
    rw [newtonUpdate, newtonUpdate, hel, hel, hind]
  have hrun : run M.points M.cells M.el M.fc num (fuel + 2)
      = some (.ok ((unravelSol (solShapes P.fes) (List.ofFn u)).getD 0 [], n)) := by
    rw [run, hb]
    dsimp only
    rw [← hP, eu]
    have : newtonStep P.fes [UserBC.entries b] (fun r => .fin (FinitePlasticity.norm2 r)) (residualVec P) (num P).solve false
        = newtonStep P.fes [UserBC.entries b] (fun r => .fin (FinitePlasticity.norm2 r))
          (fun u => (0 : Matrix (Fin (totalDofs P.fes)) (Fin (totalDofs P.fes)) ℝ).mulVec u - 0) (num P).solve false := rfl
    rw [this, hnewton]
    rfl
  rcases hcase with ⟨-, -, h⟩ | ⟨rfl, h, -⟩
  · exfalso
    rcases h with h | h
    · rw [hind _ (residualVec P 0), start M hM b hb] at h
      obtain ⟨m, hm⟩ := htop
      have hc : 0 < ((Finset.range M.numNodes).filter (AtTop M)).card :=
        Finset.card_pos.2 ⟨m, Finset.mem_filter.2 ⟨Finset.mem_range.2 hm.1, hm⟩⟩
      have : (1 : ℝ) ≤ √((Finset.range M.numNodes).filter (AtTop M)).card := by
        rw [Real.one_le_sqrt]
        exact_mod_cast hc
      have h' := this.trans h
      norm_num at h'
    · norm_num at h
  · obtain ⟨sol, e1, -, e3⟩ := unravel_single P u
    rw [e1] at hrun
    refine ⟨sol, hrun, fun m hm i => ?_⟩
    have hlt : m * 3 + (i : Nat) < totalDofs P.fes := by
      rw [totalDofs_single, show P.numTotalNodes = M.numNodes from hM.points]; exact gridNode_lt hm i.2
    have hv : fieldOf 3 sol m i = u ⟨_, hlt⟩ := by rw [e3, Problem1.vecField, dif_pos hlt]
    rw [hv]
    exact ⟨fun ht => h.1 _ _ ((hpre m hm i).1 ht), fun hbt => h.1 _ _ ((hpre m hm i).2 hbt)⟩

/-- The hypotheses are met: one cell of height 10 between the plates, solved with the inverse matrix. -/
example (fc : RefFaces ℝ 1 8 3) : let M := ElasticBench.boxBody 1 1 1 1 10 PoissonBench.gauss8 (fun _ => 1 / 8) fc
    ∃ sol, run M.points M.cells M.el M.fc (fun _ => ⟨fun _ => 0, fun A b _ => if A.det = 0 then .error .runtime else .ok (A⁻¹.mulVec b)⟩) 2
        = some (.ok (sol, 1)) ∧
      fieldOf 3 sol 1 2 = 1 ∧ fieldOf 3 sol 0 2 = 0 ∧ |plateForce M (fieldOf 3 sol) ![0, 0, 1]| ≤ tolerance M * √8 := by
  intro M
  have hne : PoissonBench.gauss2 0 ≠ PoissonBench.gauss2 1 := by
    have h3 : (0 : ℝ) < √3 := Real.sqrt_pos.2 (by norm_num)
    intro h
    simp only [PoissonBench.gauss2, if_true, one_ne_zero, if_false] at h
    have : (0 : ℝ) < 1 / √3 := one_div_pos.2 h3
    linarith
  have ht : ∀ a b c : Fin 2, PoissonBench.gauss8 ⟨4 * a + 2 * b + c, by omega⟩
      = ![![PoissonBench.gauss2 0, PoissonBench.gauss2 1] a, ![PoissonBench.gauss2 0, PoissonBench.gauss2 1] b,
        ![PoissonBench.gauss2 0, PoissonBench.gauss2 1] c] := fun a b c => by
    fin_cases a <;> fin_cases b <;> fin_cases c <;> rfl
  have hM : M.Sound := ElasticBench.boxBody_sound (by norm_num) (by norm_num) (by norm_num) one_pos (by norm_num)
    (fun _ => by norm_num) (fun a b c => ⟨4 * a + 2 * b + c, by omega⟩) ![PoissonBench.gauss2 0, PoissonBench.gauss2 1]
    ![PoissonBench.gauss2 0, PoissonBench.gauss2 1] ![PoissonBench.gauss2 0, PoissonBench.gauss2 1] hne hne hne ht
  have hpos : ∀ i j k, i ≤ 1 → j ≤ 1 → k ≤ 1 → M.pos (boxNode 1 1 i j k) 2 = (k : ℝ) * 10 := by
    intro i j k hi hj hk
    have e : M.pos (boxNode 1 1 i j k) = ![(i : ℝ) * (1 / (1 : Nat)), (j : ℝ) * (1 / (1 : Nat)), (k : ℝ) * (10 / (1 : Nat))] :=
      ElasticBench.boxBody_pos i j k hi hj hk
    rw [e]
    simp
  have hnode : ∀ i j k, i ≤ 1 → j ≤ 1 → k ≤ 1 → boxNode 1 1 i j k < M.numNodes := fun i j k hi hj hk => boxNode_lt hi hj hk
  have hplate : ∀ i j k, i ≤ 1 → j ≤ 1 → k ≤ 1 →
      (k = 1 → AtTop M (boxNode 1 1 i j k)) ∧ (k = 0 → AtBottom M (boxNode 1 1 i j k)) := by
    intro i j k hi hj hk
    refine ⟨fun h => ⟨hnode i j k hi hj hk, ?_⟩, fun h => ⟨hnode i j k hi hj hk, ?_⟩⟩
    · rw [hpos i j k hi hj hk, h]
      norm_num
    · rw [hpos i j k hi hj hk, h]
      norm_num
  have h1 : AtTop M 1 := (hplate 0 0 1 (by norm_num) (by norm_num) le_rfl).1 rfl
  have h0 : AtBottom M 0 := (hplate 0 0 0 (by norm_num) (by norm_num) (by norm_num)).2 rfl
  obtain ⟨sol, hrun, hval⟩ := C123_plates M hM (fun n hn => by
      obtain ⟨i, j, k, hi, hj, hk, rfl⟩ := exists_boxNode hn
      rcases (show k = 0 ∨ k = 1 by omega) with h | h
      · exact .inr ((hplate i j k hi hj hk).2 h)
      · exact .inl ((hplate i j k hi hj hk).1 h)) ⟨1, h1⟩
    (fun _ => ⟨fun _ => 0, fun A b _ => if A.det = 0 then .error .runtime else .ok (A⁻¹.mulVec b)⟩)
    (fun P A b x0 x h => by
      by_cases hA : A.det = 0
      · simp [hA] at h
      · simp only [if_neg hA, Except.ok.injEq] at h
        rw [← h, Matrix.mulVec_mulVec, Matrix.mul_nonsing_inv _ (isUnit_iff_ne_zero.2 hA), Matrix.one_mulVec])
    (fun P A b x0 hA => ⟨_, if_neg hA⟩) 0
  have hfield : ∀ n < M.numNodes, ∀ i, fieldOf 3 sol n i
      = ∑ j, (!![0, 0, 0; 0, 0, 0; 0, 0, 1 / 10] : Matrix (Fin 3) (Fin 3) ℝ) i j * M.points.getD n 0 j + (0 : Fin 3 → ℝ) i := by
    intro n hn i
    obtain ⟨i', j, k, hi, hj, hk, rfl⟩ := exists_boxNode hn
    have hz : M.points.getD (boxNode 1 1 i' j k) 0 2 = (k : ℝ) * 10 := hpos i' j k hi hj hk
    obtain ⟨v1, v2⟩ := hval _ hn i
    generalize M.points.getD (boxNode 1 1 i' j k) 0 = p at hz ⊢
    rcases (show k = 0 ∨ k = 1 by omega) with h | h
    · rw [v2 ((hplate i' j k hi hj hk).2 h)]
      fin_cases i <;> simp [Fin.sum_univ_three, hz, h]
    · rw [v1 ((hplate i' j k hi hj hk).1 h)]
      fin_cases i <;> simp [Fin.sum_univ_three, hz, h]
  have hdet : ∀ c ∈ M.cells, ∀ q, 0 < (deformation M (fieldOf 3 sol) c q).det := by
    intro c hc q
    have hg : M.grad (fieldOf 3 sol) c q = !![0, 0, 0; 0, 0, 0; 0, 0, 1 / 10] :=
      affine_gradient (problem M.points M.cells M.el M.fc) (C10_first_order_unity _ (fun _ _ => 0) _).2.2.2 c (hM.length c hc) _
        !![0, 0, 0; 0, 0, 0; 0, 0, 1 / 10] 0 (fun n hn i => hfield n (hM.valid c hc n hn) i) q
        (left_ne_zero_of_mul (hM.positive c hc q).ne')
    have e : (1 + Matrix.of (!![0, 0, 0; 0, 0, 0; 0, 0, 1 / 10] : Matrix (Fin 3) (Fin 3) ℝ)) = !![1, 0, 0; 0, 1, 0; 0, 0, 11 / 10] := by
      ext i j
      rw [Matrix.add_apply]
      show _ + (!![0, 0, 0; 0, 0, 0; 0, 0, 1 / 10] : Matrix (Fin 3) (Fin 3) ℝ) i j = _
      fin_cases i <;> fin_cases j <;> norm_num
    rw [deformation, hg, e, Matrix.det_fin_three]
    simp
  refine ⟨sol, hrun, ((hval 1 h1.1 2).1 h1).trans (if_pos rfl), (hval 0 h0.1 2).2 h0, ?_⟩
  have := C123_forces M hM (C10_first_order_unity _ (fun _ _ => 0) _).2.2.2 _ _ sol 1 hrun hdet ![0, 0, 1]
  have e8 : ((M.numNodes : Nat) : ℝ) * ∑ i, (![0, 0, 1] : Fin 3 → ℝ) i ^ 2 = 8 := by
    rw [show M.numNodes = 8 from rfl]
    simp [Fin.sum_univ_three]
  rwa [e8] at this

end JaxFem.HyperBench
