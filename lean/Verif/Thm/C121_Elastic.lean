import Verif.Model.ElasticBench
import Verif.Spec.ElasticBench
import Verif.Thm.C107_Rows
import Verif.Thm.C82_Elasticity

/-!
# C121: the linear elasticity benchmarks
-/

namespace JaxFem.ElasticBench

variable {nq nfq nn : Nat}

/-- The material of the benchmarks. -/
theorem hooke_iff (sig G : Fin 3 → Fin 3 → ℝ) : Hooke sig (symPart G) ↔ sig = Elastic.stress 70000 0.3 G := by
  constructor
  · intro h
    have h0 := h 0 0
    have h1 := h 1 1
    have h2 := h 2 2
    funext i j
    have hij := h i j
    simp only [Fin.sum_univ_three, symPart, if_true] at h0 h1 h2 hij
    simp only [Elastic.stress, Elastic.lmbda, Elastic.mu, Fin.sum_univ_three]
    split_ifs at hij ⊢ with e
    · subst e
      norm_num
      linarith
    · norm_num
      linarith
  · rintro rfl i j
    simp only [Elastic.stress, Elastic.lmbda, Elastic.mu, Fin.sum_univ_three, symPart, if_true]
    split_ifs with e
    · subst e
      norm_num
      ring
    · norm_num
      ring

theorem sum_map_neg' {α : Type} (l : List α) (f : α → ℝ) : (l.map fun x => -f x).sum = -(l.map f).sum := by
  induction l with
  | nil => simp
  | cons a l ih => simp only [List.map_cons, List.sum_cons, ih]; ring

section

variable (B : Bench) (M : Body nq nfq nn) (inds : List (Nat × Nat))

local notation "𝒫" => problem B M.numNodes M.points M.cells M.el M.fc inds

theorem conn_eq : (𝒫).conn = M.cells := by
  simp [problem, Problem1.conn, Function.comp_def]

theorem gradient_eq' (u : Nat → Fin 3 → ℝ) (c : List Nat) (q : Fin nq) : (𝒫).gradient u c q = M.grad u c q := rfl

/-- The virtual work of the model in terms of the specification. -/
theorem power_eq (u v : Nat → Fin 3 → ℝ) (S : List Nat → Fin nq → Fin 3 → Fin 3 → ℝ)
    (hS : ∀ c ∈ M.cells, ∀ q, Hooke (S c q) (symPart (M.grad u c q))) :
    (𝒫).virtualWork u v = M.stressPower S v - (M.bodyPower (fun x i => -B.massMap x i) v
      + M.facePower inds (fun x i => -B.surfaceMap x i) v) := by
  have e1 : (𝒫).tensorWork u v = M.stressPower S v := by
    rw [Problem1.tensorWork, Body.stressPower]
    simp only [problem, List.map_map]
    refine congrArg List.sum (List.map_congr_left fun c hc => ?_)
    show cellIntegral M.el M.points c _ = cellIntegral M.el M.points c _
    congr 1
    funext q
    rw [(hooke_iff _ _).1 (hS c hc q)]
    rfl
  have e2 : (𝒫).massWork (fun _ _ x => B.massMap x) u v = -M.bodyPower (fun x i => -B.massMap x i) v := by
    rw [Problem1.massWork, Body.bodyPower]
    simp only [problem, List.map_map]
    rw [← sum_map_neg']
    refine congrArg List.sum (List.map_congr_left fun c hc => ?_)
    show cellIntegral M.el M.points c _ = -cellIntegral M.el M.points c _
    rw [cellIntegral, cellIntegral, ← Finset.sum_neg_distrib]
    refine Finset.sum_congr rfl fun q _ => ?_
    rw [← neg_mul, ← Finset.sum_neg_distrib]
    congr 1
    exact Finset.sum_congr rfl fun i _ => by ring
  have e3 : (𝒫).surfaceWork u v = -M.facePower inds (fun x i => -B.surfaceMap x i) v := by
    rw [Problem1.surfaceWork, Body.facePower, conn_eq]
    simp only [problem, List.map_cons, List.map_nil, List.sum_cons, List.sum_nil, add_zero, List.map_map]
    rw [← sum_map_neg']
    refine congrArg List.sum (List.map_congr_left fun a _ => ?_)
    simp only [Function.comp_apply]
    rw [← Finset.sum_neg_distrib]
    refine Finset.sum_congr rfl fun q _ => ?_
    rw [← neg_mul, ← Finset.sum_neg_distrib]
    congr 1
    exact Finset.sum_congr rfl fun i _ => by ring
  rw [Problem1.virtualWork, e1, e3]
  show M.stressPower S v + (𝒫).massWork (fun _ _ x => B.massMap x) u v + _ = _
  rw [e2]
  ring

theorem strainMono : (𝒫).StrainMonotone := fun _ G H => C82_monotone 70000 0.3 (by norm_num) (by norm_num) (by norm_num) le_rfl G H

theorem massMono : (𝒫).MassMonotone := by
  intro m hm iv u w x
  obtain rfl : (fun _ _ x => B.massMap x) = m := by simpa [problem] using hm
  simp

theorem surfaceMono : (𝒫).SurfaceMonotone := by
  intro s hs f _ q u w x
  obtain rfl : s = _ := by simpa [problem] using hs
  simp

theorem affine : (𝒫).Affine := by
  refine ⟨fun iv => ?_, fun m hm iv x => ⟨0, fun u => ?_⟩, fun s hs iv x => ⟨0, fun u => ?_⟩⟩
  · refine ⟨⟨⟨Elastic.stress 70000 0.3, fun G H => ?_⟩, fun a G => ?_⟩, fun G => ?_⟩
    · funext i j
      have := stress_sub 70000 0.3 (fun i j => G i j + H i j) H i j
      simp only [add_sub_cancel_right] at this
      have e : Elastic.stress 70000 0.3 (G + H) i j = Elastic.stress 70000 0.3 (fun i j => G i j + H i j) i j := rfl
      rw [e, Pi.add_apply, Pi.add_apply]
      linarith
    · funext i j
      simp only [Elastic.stress, Pi.smul_apply, smul_eq_mul, RingHom.id_apply, Fin.sum_univ_three]
      ring
    · funext i j
      simp [problem, Elastic.stress]
  · obtain rfl : (fun _ _ x => B.massMap x) = m := by simpa [problem] using hm
    simp
  · obtain rfl : s = _ := by simpa [problem] using hs
    simp

theorem wf (hM : M.Sound) (hinds : ∀ a ∈ inds, a.1 < M.cells.length) : (𝒫).WF where
  nonempty := by simpa [problem] using hM.nonempty
  points := hM.points
  cell_length := by
    intro c hc
    obtain ⟨c', hc', rfl⟩ := List.mem_map.1 hc
    exact hM.length c' hc'
  cell_lt := by
    intro c hc
    obtain ⟨c', hc', rfl⟩ := List.mem_map.1 hc
    exact hM.valid c' hc'
  face_lt := by
    intro s hs f hf
    obtain rfl : s = _ := by simpa [problem] using hs
    obtain ⟨a, ha, rfl⟩ := List.mem_map.1 hf
    simpa [problem] using hinds a ha

theorem readable (hfs : B.fixed.supported) : UserBC.Readable (info B) ∧ ∀ it ∈ UserBC.conds (info B), it.2.1 < 3 := by
  constructor
  · refine ⟨rfl, rfl, ?_⟩
    intro loc hl
    simp only [List.mem_cons, List.not_mem_nil, or_false, or_self] at hl
    exact hl ▸ hfs
  · intro it hit
    simp only [UserBC.conds, info, List.zip_cons_cons, List.zip_nil_right, List.mem_cons, List.not_mem_nil, or_false] at hit
    rcases hit with rfl | rfl | rfl <;> norm_num

theorem bc_builds (hfs : B.fixed.supported) (hM : M.Sound) : ∃ b, dirichletBC M.points (info B) = .ok b ∧
      UserBC.problemBCs (.single M.points (info B)) = .ok [UserBC.entries b] ∧
      UserBC.Suits (𝒫).fes (.single M.points (info B)) := by
  obtain ⟨bcs, hb⟩ := (UserBC.C107_builds (.single M.points (info B))).2 (by
    intro i hi'
    have : i = 0 := by simpa [UserBC.Args.meshes] using hi'
    subst this
    exact ⟨info B, rfl, (readable B hfs).1⟩)
  cases hd : dirichletBC M.points (info B) with
  | error e =>
    have : UserBC.problemBCs (.single M.points (info B)) = .error e := by
      show (dirichletBC M.points (info B) >>= fun b => Except.ok [UserBC.entries b]) = _
      rw [hd]
      rfl
    rw [this] at hb
    cases hb
  | ok b =>
    refine ⟨b, rfl, ?_, ?_, ?_, ?_⟩
    · show (dirichletBC M.points (info B) >>= fun b => Except.ok [UserBC.entries b]) = _
      rw [hd]
      rfl
    · rfl
    · intro i fe pts h1 h2
      have h0 : i = 0 := by
        have := (List.getElem?_eq_some_iff.1 h1).1
        simpa [Problem1.fes] using this
      subst h0
      have e1 : fe = ⟨(𝒫).numTotalNodes, 3, nn, (𝒫).conn⟩ := by simpa [Problem1.fes] using h1.symm
      have e2 : pts = M.points := by simpa [UserBC.Args.meshes] using h2.symm
      rw [e1, e2]
      exact hM.points
    · intro i fe info' h1 h2 it hit
      have h0 : i = 0 := by
        have := (List.getElem?_eq_some_iff.1 h1).1
        simpa [Problem1.fes] using this
      subst h0
      have e1 : fe = ⟨(𝒫).numTotalNodes, 3, nn, (𝒫).conn⟩ := by simpa [Problem1.fes] using h1.symm
      have e2 : info' = info B := by simpa [UserBC.Args.given] using h2.symm
      rw [e2] at hit
      rw [e1]
      exact (readable B hfs).2 it hit

/-- What the conditions demand at a node. -/
theorem demands (on : (Fin 3 → ℝ) → Prop) (hon : ∀ p n, B.fixed.holds p n ↔ on p) (hM : M.Sound) (n : Nat) (hn : n < M.numNodes)
    (c : Fin 3) :
    (on (M.pos n) → UserBC.Demands M.points (UserBC.conds (info B)) n c (some B.dirichletVal)) ∧
    (¬ on (M.pos n) → UserBC.Demands M.points (UserBC.conds (info B)) n c none) := by
  have hlt : n < M.points.length := by rw [hM.points]; exact hn
  have hp := List.getElem?_eq_getElem hlt
  have hpos : M.pos n = M.points[n] := by rw [Body.pos, List.getD_eq_getElem _ _ hlt]
  constructor
  · intro h
    have hh : B.fixed.holds M.points[n] n := (hon _ _).2 (hpos ▸ h)
    fin_cases c
    · refine .value [] (B.fixed, 0, fun _ => B.dirichletVal) [(B.fixed, 1, fun _ => B.dirichletVal),
        (B.fixed, 2, fun _ => B.dirichletVal)] M.points[n] rfl rfl hp hh ?_
      intro it hit hc
      simp only [List.mem_cons, List.not_mem_nil, or_false] at hit
      rcases hit with rfl | rfl <;> exact absurd hc.1 (by norm_num)
    · refine .value [(B.fixed, 0, fun _ => B.dirichletVal)] (B.fixed, 1, fun _ => B.dirichletVal)
        [(B.fixed, 2, fun _ => B.dirichletVal)] M.points[n] rfl rfl hp hh ?_
      intro it hit hc
      simp only [List.mem_cons, List.not_mem_nil, or_false] at hit
      rcases hit with rfl
      exact absurd hc.1 (by norm_num)
    · exact .value [(B.fixed, 0, fun _ => B.dirichletVal), (B.fixed, 1, fun _ => B.dirichletVal)]
        (B.fixed, 2, fun _ => B.dirichletVal) [] M.points[n] rfl rfl hp hh (by simp)
  · intro h
    refine .free fun it hit hc => h ?_
    obtain ⟨-, p, hp', hh⟩ := hc
    have e : it.1 = B.fixed := by
      simp only [UserBC.conds, info, List.zip_cons_cons, List.zip_nil_right, List.mem_cons, List.not_mem_nil, or_false] at hit
      rcases hit with rfl | rfl | rfl <;> rfl
    rw [hp] at hp'
    rw [hpos, Option.some.inj hp']
    exact (hon _ _).1 (e ▸ hh)

theorem held (on : (Fin 3 → ℝ) → Prop) (free : Nat → Fin 3 → Prop) (hfree : ∀ n < M.numNodes, on (M.pos n) → ∀ c, ¬ free n c)
    (n : Nat) (h : Held M on n) : (𝒫).Held free n := by
  induction h with
  | support n hn h => exact .fixed n (hfree n hn h)
  | cell c hc l hl hh hf m hm ih => exact .cell c (by rw [conn_eq]; exact hc) l hl ih hf m hm

end

/-- Both benchmarks at once. -/
theorem bench (B : Bench) (M : Body nq nfq nn) (hM : M.Sound) (on loadedOn : (Fin 3 → ℝ) → Prop)
    (hfs : B.fixed.supported) (hls : B.loaded.supported) (hon : ∀ p n, B.fixed.holds p n ↔ on p)
    (hld : ∀ p n, B.loaded.holds p n ↔ loadedOn p)
    (hheld : ∀ n < M.numNodes, Held M on n) (faceInds : List (List Nat)) (hv : ValidFaces M.points M.cells faceInds)
    (num : (P : Problem1 Unit nq nfq nn 3 3) → Numerics (totalDofs P.fes))
    (htan : ∀ faces, M.FacesOn faceInds loadedOn faces → ∀ x,
      HasJacobianAt (residualVec (problem B M.numNodes M.points M.cells M.el M.fc faces))
        ((num (problem B M.numNodes M.points M.cells M.el M.fc faces)).tan x) x)
    (hs : ∀ P, ExactSolver (num P).solve) (hs' : ∀ P A b x0, A.det ≠ 0 → ∃ x, (num P).solve A b x0 = .ok x) (fuel : Nat) :
    ∃ sol steps faces, run B M.numNodes M.points M.cells faceInds M.el M.fc num (fuel + 2) = some (.ok (sol, steps, faces)) ∧
      M.FacesOn faceInds loadedOn faces ∧ HasShapes [(M.numNodes, 3)] [sol] ∧
      (steps = 0 ∧ (∀ n i, fieldOf 3 sol n i = 0) ∧ (∀ n < M.numNodes, on (M.pos n) → |B.dirichletVal| ≤ 1 / 10 ^ 6) ∧
        (∀ n < M.numNodes, ¬ on (M.pos n) → ∀ i, |M.bodyPower (fun x i => -B.massMap x i) (unitField n i)
          + M.facePower faces (fun x i => -B.surfaceMap x i) (unitField n i)| ≤ 1 / 10 ^ 6) ∨
      steps = 1 ∧ ∃ S, M.Equilibrium on B.dirichletVal (fun x i => -B.massMap x i) (fun x i => -B.surfaceMap x i) faces
          (fieldOf 3 sol) S ∧
        ∀ u S', M.Equilibrium on B.dirichletVal (fun x i => -B.massMap x i) (fun x i => -B.surfaceMap x i) faces u S' →
          ∀ n < M.numNodes, ∀ i, u n i = fieldOf 3 sol n i) := by
  obtain ⟨bs, hbs, hlen, hk⟩ := C15_faces M.points M.cells faceInds [B.loaded] hv (by simpa using hls)
  obtain ⟨faces, rfl⟩ : ∃ faces, bs = [faces] := by
    match bs, hlen with
    | [f], _ => exact ⟨f, rfl⟩
  obtain ⟨hsort, hmem⟩ := hk 0 B.loaded faces rfl rfl
  have hfaces : M.FacesOn faceInds loadedOn faces := by
    refine ⟨hsort.imp fun {x y} h => ?_, fun c f => ?_⟩
    · rintro rfl
      omega
    · rw [hmem, FaceOn]
      simp only [hld]
  have hinds : ∀ a ∈ faces, a.1 < M.cells.length := by
    rintro ⟨c, f⟩ ha
    obtain ⟨cell, face, hc, -, -⟩ := (hmem c f).1 ha
    exact (List.getElem?_eq_some_iff.1 hc).1
  set P := problem B M.numNodes M.points M.cells M.el M.fc faces with hP
  have h : P.WF := wf B M faces hM hinds
  obtain ⟨b, hb, hbcs, hsuits⟩ := bc_builds B M faces hfs hM
  rw [← hP] at hsuits
  obtain ⟨hwfbc, hiff⟩ := UserBC.C107_conditions P.fes _ hsuits _ hbcs
  have hpre : ∀ n < M.numNodes, ∀ (c : Fin 3) o, Prescribed P.fes [UserBC.entries b] (dofNum P.fes 0 n c) o ↔
      UserBC.Demands M.points (UserBC.conds (info B)) n c o := fun n hn c =>
    hiff 0 n c ⟨P.numTotalNodes, 3, nn, P.conn⟩ P.points (info B) rfl rfl rfl hn c.2
  have hdem := demands B M on hon hM
  set free : Nat → Fin 3 → Prop := fun n c => FreeDof ([UserBC.entries b].getD 0 []) n c with hfreedef
  have hfree1 : ∀ n < M.numNodes, on (M.pos n) → ∀ c, LastPrescribes (UserBC.entries b) n (c : Fin 3) B.dirichletVal := by
    intro n hn ho c
    have hp := (hpre n hn c _).2 ((hdem n hn c).1 ho)
    rcases free_or_last (UserBC.entries b) n c with hf | ⟨v, hv⟩
    · have hp' : Prescribed P.fes [UserBC.entries b] (dofNum P.fes 0 n c) none :=
        .free 0 n c _ (UserBC.entries b) rfl rfl hn c.2 rfl hf
      cases prescribed_unique P.fes [UserBC.entries b] hwfbc _ _ _ hp hp'
    · have hp' : Prescribed P.fes [UserBC.entries b] (dofNum P.fes 0 n c) (some v) :=
        .fixed 0 n c _ (UserBC.entries b) v rfl rfl hn c.2 rfl hv
      cases prescribed_unique P.fes [UserBC.entries b] hwfbc _ _ _ hp hp'
      exact hv
  have hfree2 : ∀ n, ¬ (n < M.numNodes ∧ on (M.pos n)) → ∀ c : Fin 3, free n c := by
    intro n hno c
    by_cases hn : n < M.numNodes
    · have hp := (hpre n hn c _).2 ((hdem n hn c).2 fun ho => hno ⟨hn, ho⟩)
      rcases free_or_last (UserBC.entries b) n c with hf | ⟨v, hv⟩
      · exact hf
      · have hp' : Prescribed P.fes [UserBC.entries b] (dofNum P.fes 0 n c) (some v) :=
          .fixed 0 n c _ (UserBC.entries b) v rfl rfl hn c.2 rfl hv
        cases prescribed_unique P.fes [UserBC.entries b] hwfbc _ _ _ hp hp'
    · intro e he v hpr
      have := (hwfbc.valid 0 _ (UserBC.entries b) rfl rfl e he).1
      obtain ⟨k, hk1, -, -⟩ := hpr
      exact hn (this n (List.mem_of_getElem? hk1))
  have hfixed : ∀ n < M.numNodes, on (M.pos n) → ∀ c : Fin 3, ¬ free n c := by
    intro n hn ho c hf
    obtain ⟨before, e, after, he, hp, -⟩ := hfree1 n hn ho c
    exact hf e (by show e ∈ UserBC.entries b; rw [he]; simp) _ hp
  have hpos : P.PositiveMeasure := by
    intro cell hc q
    obtain ⟨c', hc', rfl⟩ := List.mem_map.1 hc
    exact hM.positive c' hc' q
  have hdet : ∀ cell ∈ P.cells, P.el.StrainDetermines (coords nn P.points cell.nodes) := by
    intro cell hc
    obtain ⟨c', hc', rfl⟩ := List.mem_map.1 hc
    exact hM.rigid c' hc'
  have huniq : P.UniqueField free := uniqueField_of_strain P h hpos (strainMono B M faces) (massMono B M faces)
    (surfaceMono B M faces) hdet free fun n hn => held B M faces on free hfixed n (hheld n hn)
  obtain ⟨T, f, hT⟩ := C74_affine P h (affine B M faces)
  have hregT := regular_of_unique P h [UserBC.entries b] hwfbc huniq T f hT
  have hflat : residualVec P = fun u => T.mulVec u - f := funext hT
  have hAT : (num P).tan = fun _ => T := by
    funext x
    have h1 : HasFDerivAt (residualVec P) (matCLM T) x := by
      rw [hflat]
      have : (fun u : Fin (totalDofs P.fes) → ℝ => T.mulVec u - f) = fun u => matCLM T u - f := by
        funext u; rfl
      rw [this]
      exact (matCLM T).hasFDerivAt.sub_const f
    exact matCLM_inj ((htan faces hfaces x).unique h1)
  have hnu0 : ∀ r : Fin (totalDofs P.fes) → ℝ, 0 ≤ FinitePlasticity.norm2 r := fun r => Real.sqrt_nonneg _
  have hle : ∀ (r : Fin (totalDofs P.fes) → ℝ) k, |r k| ≤ FinitePlasticity.norm2 r := by
    intro r k
    rw [FinitePlasticity.norm2, ← Real.sqrt_sq_eq_abs]
    exact Real.sqrt_le_sqrt (Finset.single_le_sum (f := fun k => r k ^ 2) (fun k _ => sq_nonneg (r k)) (Finset.mem_univ k))
  have hnu : ∀ r : Fin (totalDofs P.fes) → ℝ, FinitePlasticity.norm2 r = 0 ↔ r = 0 := by
    intro r
    constructor
    · intro h0
      funext k
      have := hle r k
      rw [h0] at this
      exact abs_nonpos_iff.1 this
    · rintro rfl
      simp [FinitePlasticity.norm2]
  obtain ⟨u, n, h1, h2⟩ := C21_linear P.fes [UserBC.entries b] hwfbc T f hregT FinitePlasticity.norm2 hnu0 hnu (num P).solve (hs P)
    (hs' P) false (1 / 10 ^ 6) (1 / 10 ^ 8) (by positivity) 0 fuel
  obtain ⟨sol, e1, e2, e3⟩ := unravel_single P u
  have hlt : ∀ m < M.numNodes, ∀ c : Fin 3, m * 3 + c < totalDofs P.fes := by
    intro m hm c
    rw [totalDofs_single]
    exact gridNode_lt hm c.2
  refine ⟨sol, n, faces, ?_, hfaces, e2, ?_⟩
  · rw [run, hb]
    dsimp only
    rw [hbs]
    show Option.map _ (newtonSolve (newtonUpdate P.fes [UserBC.entries b] (residualVec P) (num P).tan)
      (fun rA => .fin (FinitePlasticity.norm2 rA.1)) (newtonStep P.fes [UserBC.entries b] (fun r => .fin (FinitePlasticity.norm2 r))
        (residualVec P) (num P).solve false) (fun _ => true) (1 / 10 ^ 6) (1 / 10 ^ 8) 0 (fuel + 2)) = _
    rw [hflat, hAT, h1]
    show some (Except.ok ((unravelSol (solShapes P.fes) (List.ofFn u)).getD 0 [], n, faces)) = _
    rw [e1]
    rfl
  rcases h2 with ⟨rfl, rfl, h2⟩ | ⟨rfl, h2, -⟩
  · have h2 : FinitePlasticity.norm2 (applyBcV P.fes [UserBC.entries b] 1 (T.mulVec 0 - f) 0) ≤ 1 / 10 ^ 6 := by
      rcases h2 with h2 | h2
      · exact h2
      · norm_num at h2
    refine .inl ⟨rfl, fun n i => ?_, fun m hm ho => ?_, fun m hm ho i => ?_⟩
    · rw [e3, Problem1.vecField]
      split_ifs <;> rfl
    · have hk : ((⟨m * 3 + (0 : Fin 3), hlt m hm 0⟩ : Fin (totalDofs P.fes)) : Nat) = dofNum P.fes 0 m (0 : Fin 3) :=
        (dofNum_single P m _).symm
      have hp : Prescribed P.fes [UserBC.entries b] ((⟨m * 3 + (0 : Fin 3), hlt m hm 0⟩ : Fin (totalDofs P.fes)) : Nat)
          (some B.dirichletVal) := by
        rw [hk]
        exact (hpre m hm 0 _).2 ((hdem m hm 0).1 ho)
      have h3 := (hle (applyBcV P.fes [UserBC.entries b] 1 (T.mulVec 0 - f) 0) ⟨m * 3 + (0 : Fin 3), hlt m hm 0⟩).trans h2
      rw [(applyBcV_spec P.fes [UserBC.entries b] hwfbc 1 _ _ _).2 _ hp, Pi.zero_apply, mul_one, zero_sub, abs_neg] at h3
      exact h3
    · have hk : ((⟨m * 3 + i, hlt m hm i⟩ : Fin (totalDofs P.fes)) : Nat) = dofNum P.fes 0 m i := (dofNum_single P m _).symm
      have hp : Prescribed P.fes [UserBC.entries b] ((⟨m * 3 + i, hlt m hm i⟩ : Fin (totalDofs P.fes)) : Nat) none := by
        rw [hk]
        exact (hpre m hm i _).2 ((hdem m hm i).2 ho)
      have h3 := (hle (applyBcV P.fes [UserBC.entries b] 1 (T.mulVec 0 - f) 0) ⟨m * 3 + i, hlt m hm i⟩).trans h2
      rw [(applyBcV_spec P.fes [UserBC.entries b] hwfbc 1 _ _ _).1 hp, ← hT] at h3
      have h4 := flat_virtualWork P h 0 (Pi.single ⟨m * 3 + i, hlt m hm i⟩ 1)
      rw [Finset.sum_eq_single ⟨m * 3 + i, hlt m hm i⟩ (fun k _ hk => by rw [Pi.single_eq_of_ne hk, zero_mul])
        (fun hk => absurd (Finset.mem_univ _) hk), Pi.single_eq_same, one_mul] at h4
      have h5 : P.vecField (Pi.single ⟨m * 3 + i, hlt m hm i⟩ 1) = unitField m i := by
        funext m' j
        rw [Problem1.vecField, unitField]
        split_ifs with hx hy hy
        · obtain ⟨rfl, rfl⟩ := hy
          exact Pi.single_eq_same _ _
        · refine Pi.single_eq_of_ne (fun he => hy ?_) _
          have := Fin.mk.inj_iff.1 he
          have hi := i.2
          have hj := j.2
          exact ⟨by omega, Fin.ext (by omega)⟩
        · exact absurd (hlt m hm i) (by rw [← hy.1, ← hy.2]; exact hx)
        · rfl
      have h6 := power_eq B M faces (P.vecField 0) (unitField m i)
        (fun c q => Elastic.stress 70000 0.3 (M.grad (P.vecField 0) c q)) fun c _ q => (hooke_iff _ _).2 rfl
      have h7 : M.stressPower (fun c q => Elastic.stress 70000 0.3 (M.grad (P.vecField 0) c q)) (unitField m i) = 0 := by
        rw [Body.stressPower]
        refine List.sum_eq_zero fun x hx => ?_
        obtain ⟨c, -, rfl⟩ := List.mem_map.1 hx
        refine Finset.sum_eq_zero fun q _ => ?_
        have e : M.grad (P.vecField 0) c q = fun _ _ => 0 := by
          have : restrict nn (P.vecField 0) c = 0 := by
            ext a d
            show P.vecField 0 _ d = 0
            rw [Problem1.vecField]
            split_ifs <;> rfl
          rw [Body.grad, this, physGrad, Matrix.transpose_zero, Matrix.zero_mul, Matrix.zero_mul]
          rfl
        dsimp only
        rw [e]
        simp [contract, Elastic.stress]
      rw [h7, zero_sub] at h6
      rw [h4, h5, h6, abs_neg] at h3
      exact h3
  · rw [← hflat] at h2
    obtain ⟨h5, h6⟩ := (solvesBVP_iff P h [UserBC.entries b] hwfbc u sol e1 e2 e3).1 h2
    have heq : M.Equilibrium on B.dirichletVal (fun x i => -B.massMap x i) (fun x i => -B.surfaceMap x i) faces
        (fieldOf 3 sol) (fun c q => Elastic.stress 70000 0.3 (M.grad (fieldOf 3 sol) c q)) := by
      refine ⟨fun c _ q => (hooke_iff _ _).2 rfl, fun n hn ho i => h6 n hn i _ (hfree1 n hn ho i), fun v hv => ?_⟩
      have h7 := (C72_galerkin P h sol e2 free).1 h5 v fun n c hnf => by
        by_contra hne
        exact hnf (hfree2 n (fun hh => hne (hv n hh.1 hh.2 c)) c)
      rw [power_eq B M faces _ v _ fun c _ q => (hooke_iff _ _).2 rfl] at h7
      exact sub_eq_zero.1 h7
    refine .inr ⟨rfl, _, heq, fun w S' hw n hn i => ?_⟩
    refine huniq w (fieldOf 3 sol) ?_ ?_ n hn i
    · have hd : ∀ n < M.numNodes, on (M.pos n) → ∀ i, (fun n c => w n c - fieldOf 3 sol n c) n i = 0 := by
        intro n hn ho i
        show w n i - fieldOf 3 sol n i = 0
        rw [hw.supports n hn ho i, heq.supports n hn ho i, sub_self]
      rw [power_eq B M faces w _ S' hw.law, power_eq B M faces (fieldOf 3 sol) _ _ heq.law, hw.balance _ hd, heq.balance _ hd,
        sub_self]
    · intro n c hnf
      have hh : n < M.numNodes ∧ on (M.pos n) := by
        by_contra hno
        exact hnf (hfree2 n hno c)
      rw [hw.supports n hh.1 hh.2 c, heq.supports n hh.1 hh.2 c]

theorem cube_fixed (p : Fin 3 → ℝ) (n : Nat) : cube.fixed.holds p n ↔ |p 0| ≤ 1 / 100000 := by
  simp only [cube, LocFn.holds, FinitePlasticity.isclose]
  norm_num

theorem cube_loaded (p : Fin 3 → ℝ) (n : Nat) : cube.loaded.holds p n ↔ |p 0 - 1| ≤ 2 / 100000 := by
  simp only [cube, LocFn.holds, FinitePlasticity.isclose]
  norm_num

theorem cylinder_fixed (p : Fin 3 → ℝ) (n : Nat) : cylinder.fixed.holds p n ↔ |p 2| ≤ 1 / 100000 := by
  simp only [cylinder, LocFn.holds, FinitePlasticity.isclose]
  norm_num

theorem cylinder_loaded (p : Fin 3 → ℝ) (n : Nat) : cylinder.loaded.holds p n ↔ |p 2 - 10| ≤ 11 / 100000 := by
  simp only [cylinder, LocFn.holds, FinitePlasticity.isclose]
  norm_num

/-- **C121 (cube).** On every sound mesh all of whose nodes are held by those at `x = 0`, `solver` with its default options returns
after exactly one Newton step the displacements of the only equilibrium with body force `(0, 10, 10)` and traction `(10, 0, 0)` on
the faces at `x = 1` in which the nodes at `x = 0` are displaced by `(1, 1, 1)`. -/
theorem C121_cube (M : Body nq nfq nn) (hM : M.Sound) (hheld : ∀ n < M.numNodes, Held M (fun p => |p 0| ≤ 1 / 100000) n)
    (hsup : ∃ n < M.numNodes, |M.pos n 0| ≤ 1 / 100000) (faceInds : List (List Nat)) (hv : ValidFaces M.points M.cells faceInds)
    (num : (P : Problem1 Unit nq nfq nn 3 3) → Numerics (totalDofs P.fes))
    (htan : ∀ faces, M.FacesOn faceInds (fun p => |p 0 - 1| ≤ 2 / 100000) faces → ∀ x,
      HasJacobianAt (residualVec (problem cube M.numNodes M.points M.cells M.el M.fc faces))
        ((num (problem cube M.numNodes M.points M.cells M.el M.fc faces)).tan x) x)
    (hs : ∀ P, ExactSolver (num P).solve) (hs' : ∀ P A b x0, A.det ≠ 0 → ∃ x, (num P).solve A b x0 = .ok x) (fuel : Nat) :
    ∃ sol faces S, run cube M.numNodes M.points M.cells faceInds M.el M.fc num (fuel + 2) = some (.ok (sol, 1, faces)) ∧
      M.FacesOn faceInds (fun p => |p 0 - 1| ≤ 2 / 100000) faces ∧ HasShapes [(M.numNodes, 3)] [sol] ∧
      M.Equilibrium (fun p => |p 0| ≤ 1 / 100000) 1 (fun _ => ![0, 10, 10]) (fun _ => ![10, 0, 0]) faces (fieldOf 3 sol) S ∧
      ∀ u S', M.Equilibrium (fun p => |p 0| ≤ 1 / 100000) 1 (fun _ => ![0, 10, 10]) (fun _ => ![10, 0, 0]) faces u S' →
        ∀ n < M.numNodes, ∀ i, u n i = fieldOf 3 sol n i := by
  obtain ⟨sol, steps, faces, h1, h2, h3, h4⟩ := bench cube M hM _ _ trivial trivial cube_fixed cube_loaded hheld faceInds hv num htan
    hs hs' fuel
  have eb : (fun x i => -cube.massMap x i) = fun _ => ![0, 10, 10] := by
    funext x i
    exact neg_neg _
  have et : (fun x i => -cube.surfaceMap x i) = fun _ => ![10, 0, 0] := by
    funext x i
    exact neg_neg _
  rw [eb, et] at h4
  rcases h4 with ⟨-, -, h5, -⟩ | ⟨rfl, S, h5, h6⟩
  · obtain ⟨n, hn, ho⟩ := hsup
    have := h5 n hn ho
    simp only [cube] at this
    norm_num at this
  · exact ⟨sol, faces, S, h1, h2, h3, h5, h6⟩

/-- **C121 (cylinder).** The same with the nodes at `z = 0` fixed, the body force `(1000 x, 2000 y, 3000 z)` and the traction
`(1000 (x² + y²), 0, 0)` on the faces at `z = 10`. Here the initial guess zero satisfies the boundary conditions, so if no load at a
free node exceeds the tolerance of the solver, it is returned as it is. -/
theorem C121_cylinder (M : Body nq nfq nn) (hM : M.Sound) (hheld : ∀ n < M.numNodes, Held M (fun p => |p 2| ≤ 1 / 100000) n)
    (faceInds : List (List Nat)) (hv : ValidFaces M.points M.cells faceInds)
    (num : (P : Problem1 Unit nq nfq nn 3 3) → Numerics (totalDofs P.fes))
    (htan : ∀ faces, M.FacesOn faceInds (fun p => |p 2 - 10| ≤ 11 / 100000) faces → ∀ x,
      HasJacobianAt (residualVec (problem cylinder M.numNodes M.points M.cells M.el M.fc faces))
        ((num (problem cylinder M.numNodes M.points M.cells M.el M.fc faces)).tan x) x)
    (hs : ∀ P, ExactSolver (num P).solve) (hs' : ∀ P A b x0, A.det ≠ 0 → ∃ x, (num P).solve A b x0 = .ok x) (fuel : Nat) :
    let b : (Fin 3 → ℝ) → Fin 3 → ℝ := fun x => ![1000 * x 0, 2000 * x 1, 3000 * x 2]
    let t : (Fin 3 → ℝ) → Fin 3 → ℝ := fun x => ![1000 * (x 0 ^ 2 + x 1 ^ 2), 0, 0]
    ∃ sol steps faces, run cylinder M.numNodes M.points M.cells faceInds M.el M.fc num (fuel + 2)
        = some (.ok (sol, steps, faces)) ∧
      M.FacesOn faceInds (fun p => |p 2 - 10| ≤ 11 / 100000) faces ∧ HasShapes [(M.numNodes, 3)] [sol] ∧
      (steps = 0 ∧ (∀ n i, fieldOf 3 sol n i = 0) ∧ (∀ n < M.numNodes, ¬ |M.pos n 2| ≤ 1 / 100000 → ∀ i,
        |M.bodyPower b (unitField n i) + M.facePower faces t (unitField n i)| ≤ 1 / 1000000) ∨
      steps = 1 ∧ ∃ S, M.Equilibrium (fun p => |p 2| ≤ 1 / 100000) 0 b t faces (fieldOf 3 sol) S ∧
        ∀ u S', M.Equilibrium (fun p => |p 2| ≤ 1 / 100000) 0 b t faces u S' → ∀ n < M.numNodes, ∀ i, u n i = fieldOf 3 sol n i) := by
  intro b t
  obtain ⟨sol, steps, faces, h1, h2, h3, h4⟩ := bench cylinder M hM _ _ trivial trivial cylinder_fixed cylinder_loaded hheld faceInds
    hv num htan hs hs' fuel
  have eb : (fun x i => -cylinder.massMap x i) = b := by
    funext x i
    exact neg_neg _
  have et : (fun x i => -cylinder.surfaceMap x i) = t := by
    funext x i
    refine (neg_neg _).trans ?_
    rw [← mul_add]
  rw [eb, et] at h4
  refine ⟨sol, steps, faces, h1, h2, h3, ?_⟩
  rcases h4 with ⟨h5, h6, -, h7⟩ | h5
  · refine .inl ⟨h5, h6, fun n hn ho i => (h7 n hn ho i).trans (by norm_num)⟩
  · exact .inr h5

/-- The tangent that the theorems ask for exists. -/
theorem tangent_exists (B : Bench) (M : Body nq nfq nn) (hM : M.Sound) (faces : List (Nat × Nat))
    (hf : ∀ a ∈ faces, a.1 < M.cells.length) :
    ∃ T, ∀ x, HasJacobianAt (residualVec (problem B M.numNodes M.points M.cells M.el M.fc faces)) T x := by
  obtain ⟨T, f, hT⟩ := C74_affine _ (wf B M faces hM hf) (affine B M faces)
  refine ⟨T, fun x => ?_⟩
  have hflat : residualVec (problem B M.numNodes M.points M.cells M.el M.fc faces) = fun u => matCLM T u - f := funext hT
  change HasFDerivAt (residualVec _) (matCLM T) x
  rw [hflat]
  exact (matCLM T).hasFDerivAt.sub_const f

theorem grad_sub (M : Body nq nfq nn) (v v' : Nat → Fin 3 → ℝ) (c : List Nat) (q : Fin nq) (i j : Fin 3) :
    M.grad (fun n i => v n i - v' n i) c q i j = M.grad v c q i j - M.grad v' c q i j := by
  have e : restrict nn (fun n i => v n i - v' n i) c = restrict nn v c - restrict nn v' c := rfl
  simp only [Body.grad]
  rw [e, physGrad, physGrad, physGrad, Matrix.transpose_sub, Matrix.sub_mul, Matrix.sub_mul]
  rfl

theorem interp_sub (N : Fin nn → ℝ) (v v' : Nat → Fin 3 → ℝ) (c : List Nat) (i : Fin 3) :
    interp N (restrict nn (fun n i => v n i - v' n i) c) i = interp N (restrict nn v c) i - interp N (restrict nn v' c) i := by
  simp only [interp]
  rw [← Finset.sum_sub_distrib]
  exact Finset.sum_congr rfl fun a _ => mul_sub _ _ _

theorem sum_map_sub' {α : Type} (l : List α) (f g : α → ℝ) : (l.map fun x => f x - g x).sum = (l.map f).sum - (l.map g).sum := by
  induction l with
  | nil => simp
  | cons a l ih => simp only [List.map_cons, List.sum_cons, ih]; ring

theorem stressPower_sub (M : Body nq nfq nn) (S : List Nat → Fin nq → Fin 3 → Fin 3 → ℝ) (v v' : Nat → Fin 3 → ℝ) :
    M.stressPower S (fun n i => v n i - v' n i) = M.stressPower S v - M.stressPower S v' := by
  rw [Body.stressPower, Body.stressPower, Body.stressPower, ← sum_map_sub']
  refine congrArg List.sum (List.map_congr_left fun c _ => ?_)
  rw [cellIntegral, cellIntegral, cellIntegral, ← Finset.sum_sub_distrib]
  refine Finset.sum_congr rfl fun q _ => ?_
  rw [← sub_mul]
  congr 1
  simp only [contract, grad_sub, mul_sub, Finset.sum_sub_distrib]

theorem bodyPower_sub (M : Body nq nfq nn) (b : (Fin 3 → ℝ) → Fin 3 → ℝ) (v v' : Nat → Fin 3 → ℝ) :
    M.bodyPower b (fun n i => v n i - v' n i) = M.bodyPower b v - M.bodyPower b v' := by
  rw [Body.bodyPower, Body.bodyPower, Body.bodyPower, ← sum_map_sub']
  refine congrArg List.sum (List.map_congr_left fun c _ => ?_)
  rw [cellIntegral, cellIntegral, cellIntegral, ← Finset.sum_sub_distrib]
  refine Finset.sum_congr rfl fun q _ => ?_
  rw [← sub_mul]
  congr 1
  simp only [interp_sub, mul_sub, Finset.sum_sub_distrib]

theorem facePower_sub (M : Body nq nfq nn) (faces : List (Nat × Nat)) (t : (Fin 3 → ℝ) → Fin 3 → ℝ) (v v' : Nat → Fin 3 → ℝ) :
    M.facePower faces t (fun n i => v n i - v' n i) = M.facePower faces t v - M.facePower faces t v' := by
  rw [Body.facePower, Body.facePower, Body.facePower, ← sum_map_sub']
  refine congrArg List.sum (List.map_congr_left fun a _ => ?_)
  rw [← Finset.sum_sub_distrib]
  refine Finset.sum_congr rfl fun q _ => ?_
  rw [← sub_mul]
  congr 1
  simp only [interp_sub, mul_sub, Finset.sum_sub_distrib]

/-- Stresses of the material do no work on rigid motions. -/
theorem stressPower_rigid (M : Body nq nfq nn) (hM : M.Sound) (hu : M.el.Unity) (u : Nat → Fin 3 → ℝ)
    (S : List Nat → Fin nq → Fin 3 → Fin 3 → ℝ) (hS : ∀ c ∈ M.cells, ∀ q, Hooke (S c q) (symPart (M.grad u c q)))
    (W : Matrix (Fin 3) (Fin 3) ℝ) (w : Fin 3 → ℝ) (hW : Skew W) : M.stressPower S (M.rigidField W w) = 0 := by
  rw [Body.stressPower]
  refine List.sum_eq_zero fun x hx => ?_
  obtain ⟨c, hc, rfl⟩ := List.mem_map.1 hx
  refine Finset.sum_eq_zero fun q _ => ?_
  have hg : M.grad (M.rigidField W w) c q = W :=
    affine_gradient (problem cube M.numNodes M.points M.cells M.el M.fc []) hu c (hM.length c hc) (M.rigidField W w) W w
      (fun n _ i => rfl) q (left_ne_zero_of_mul (hM.positive c hc q).ne')
  have hsym : ∀ i j, S c q i j = S c q j i := by
    intro i j
    have h1 := hS c hc q i j
    have h2 := hS c hc q j i
    have e : symPart (M.grad u c q) i j = symPart (M.grad u c q) j i := by
      simp only [symPart]; ring
    by_cases hij : i = j
    · rw [hij]
    · rw [if_neg hij] at h1
      rw [if_neg (Ne.symm hij)] at h2
      rw [e] at h1
      linarith
  dsimp only
  rw [hg]
  have : contract (S c q) W = 0 := by
    have e : contract (S c q) W = -contract (S c q) W := by
      have hc : contract (S c q) W = ∑ i, ∑ j, S c q j i * W j i := Finset.sum_comm
      refine hc.trans ?_
      show _ = -∑ i, ∑ j, S c q i j * W i j
      rw [← Finset.sum_neg_distrib]
      refine Finset.sum_congr rfl fun i _ => ?_
      rw [← Finset.sum_neg_distrib]
      refine Finset.sum_congr rfl fun j _ => ?_
      rw [hsym j i, hW j i]
      ring
    linarith
  rw [this, zero_mul]

/-- **C121 (reactions).** The reactions of the supports are in equilibrium with the loads, forces and moments: on a rigid motion
they have the opposite power. -/
theorem C121_reactions (M : Body nq nfq nn) (hM : M.Sound) (hu : M.el.Unity) (on : (Fin 3 → ℝ) → Prop) (val : ℝ)
    (b t : (Fin 3 → ℝ) → Fin 3 → ℝ) (faces : List (Nat × Nat)) (u : Nat → Fin 3 → ℝ) (S : List Nat → Fin nq → Fin 3 → Fin 3 → ℝ)
    (h : M.Equilibrium on val b t faces u S) (W : Matrix (Fin 3) (Fin 3) ℝ) (w : Fin 3 → ℝ) (hW : Skew W) :
    M.reaction on b t faces S (M.rigidField W w) = -(M.bodyPower b (M.rigidField W w) + M.facePower faces t (M.rigidField W w)) := by
  classical
  rw [Body.reaction]
  set r := M.rigidField W w
  set v' : Nat → Fin 3 → ℝ := fun n i => if n < M.numNodes ∧ on (M.pos n) then r n i else 0 with hv'
  have hd := h.balance (fun n i => r n i - v' n i) fun n hn ho i => by
    simp only [hv']
    rw [if_pos ⟨hn, ho⟩, sub_self]
  rw [stressPower_sub, bodyPower_sub, facePower_sub, stressPower_rigid M hM hu u S h.law W w hW] at hd
  linarith

end JaxFem.ElasticBench
