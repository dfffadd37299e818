import Verif.Thm.C120_Gradient
import Mathlib.Analysis.SpecialFunctions.Trigonometric.Deriv
import Mathlib.Analysis.Calculus.Deriv.Mul

/-!
# C120: the boundary value problem that the script states, and the check of the face counts
-/

namespace JaxFem.MeshCheck

variable {nq nfq nn : Nat}

/-! ### Helper lemmas -/

theorem pderiv_x (F : ℝ → ℝ) (G : ℝ → ℝ) (F' : ℝ) (p : Fin 2 → ℝ) (h : HasDerivAt F F' (p 0)) :
    pderiv (fun q => F (q 0) * G (q 1)) 0 p = F' * G (p 1) := by
  have e : (fun s => (fun q : Fin 2 → ℝ => F (q 0) * G (q 1)) (Function.update p 0 s)) = fun s => F s * G (p 1) := by
    funext s
    simp
  rw [pderiv, e]
  exact (h.mul_const _).deriv

theorem pderiv_y (F : ℝ → ℝ) (G : ℝ → ℝ) (G' : ℝ) (p : Fin 2 → ℝ) (h : HasDerivAt G G' (p 1)) :
    pderiv (fun q => F (q 0) * G (q 1)) 1 p = F (p 0) * G' := by
  have e : (fun s => (fun q : Fin 2 → ℝ => F (q 0) * G (q 1)) (Function.update p 1 s)) = fun s => F (p 0) * G s := by
    funext s
    simp
  rw [pderiv, e]
  exact (h.const_mul _).deriv

theorem exact_x (p : Fin 2 → ℝ) : pderiv exactSol 0 p = Real.cos (Real.pi * p 0) * Real.pi * (1 + p 1) := by
  have h : HasDerivAt (fun s : ℝ => Real.sin (Real.pi * s)) (Real.cos (Real.pi * p 0) * Real.pi) (p 0) := by
    have := (hasDerivAt_id (p 0)).const_mul Real.pi
    simp only [mul_one, id] at this
    exact this.sin
  exact pderiv_x (fun s => Real.sin (Real.pi * s)) (fun y => 1 + y) _ p h

theorem exact_y (p : Fin 2 → ℝ) : pderiv exactSol 1 p = Real.sin (Real.pi * p 0) := by
  have h : HasDerivAt (fun s : ℝ => 1 + s) 1 (p 1) := (hasDerivAt_id (p 1)).const_add 1
  have := pderiv_y (fun s => Real.sin (Real.pi * s)) (fun y => 1 + y) _ p h
  rw [mul_one] at this
  exact this

theorem exact_xx (p : Fin 2 → ℝ) :
    pderiv (pderiv exactSol 0) 0 p = -(Real.pi ^ 2 * Real.sin (Real.pi * p 0) * (1 + p 1)) := by
  have e : pderiv exactSol 0 = fun p => (fun s => Real.cos (Real.pi * s) * Real.pi) (p 0) * (fun y => 1 + y) (p 1) := funext exact_x
  have h : HasDerivAt (fun s : ℝ => Real.cos (Real.pi * s) * Real.pi) (-Real.sin (Real.pi * p 0) * Real.pi * Real.pi) (p 0) := by
    have := (hasDerivAt_id (p 0)).const_mul Real.pi
    simp only [mul_one, id] at this
    exact this.cos.mul_const _
  rw [e, pderiv_x _ _ _ p h]
  ring

theorem exact_yy (p : Fin 2 → ℝ) : pderiv (pderiv exactSol 1) 1 p = 0 := by
  have e : pderiv exactSol 1 = fun p => (fun s => Real.sin (Real.pi * s)) (p 0) * (fun _ => 1) (p 1) := by
    funext p
    rw [exact_y]
    ring
  rw [e]
  refine (pderiv_y (fun s => Real.sin (Real.pi * s)) (fun _ => 1) 0 p (hasDerivAt_const _ _)).trans ?_
  rw [mul_zero]

theorem left_holds (p : Fin 2 → ℝ) (n : Nat) : left.holds p n ↔ |p 0| ≤ 1 / 100000 := by
  show decide _ = true ↔ _
  rw [decide_eq_true_iff, close, sub_zero, abs_zero]
  norm_num

theorem right_holds (p : Fin 2 → ℝ) (n : Nat) : right.holds p n ↔ |p 0 - 1| ≤ 2 / 100000 := by
  show decide _ = true ↔ _
  rw [decide_eq_true_iff, close, abs_one]
  norm_num

theorem top_holds (p : Fin 2 → ℝ) (n : Nat) : top.holds p n ↔ OnTop p := by
  show decide _ = true ↔ _
  rw [decide_eq_true_iff]
  exact top_iff p

theorem gold_ok (D : Disc nq nfq nn) (solver : Solver D) (x xm xp : D.Points) (node axis : Nat) (eps : ℝ)
    (bm bp : List (List (BCEntry ℝ))) (fm fp : List (Nat × Nat)) (um up : D.Vec) (h1 : D.shift x node axis (-eps) = .ok xm)
    (h2 : D.shift x node axis eps = .ok xp) (h3 : D.build xm = .ok (bm, fm)) (h4 : D.build xp = .ok (bp, fp))
    (h5 : solver bm fm xm = .ok um) (h6 : solver bp fp xp = .ok up) :
    D.gold solver x node axis eps = .ok (central (objective up) (objective um) eps, objective um, objective up, fm.length,
      fp.length) := by
  have sm : D.solve solver xm = .ok (um, fm.length) := by
    rw [Disc.solve, h3]
    show (solver bm fm xm).bind _ = _
    rw [h5]
    rfl
  have sp : D.solve solver xp = .ok (up, fp.length) := by
    rw [Disc.solve, h4]
    show (solver bp fp xp).bind _ = _
    rw [h6]
    rfl
  rw [Disc.gold, h1]
  show (D.shift x node axis eps).bind _ = _
  rw [h2]
  show (D.solve solver xm).bind _ = _
  rw [sm]
  show (D.solve solver xp).bind _ = _
  rw [sp]
  rfl

/-! ### Property theorems -/

section

variable (D : Disc nq nfq nn)

/-- **C120 (manufactured solution).** The maps of `NonlinearPoisson` state the equation whose solution is `sin(π x) (1 + y)`: the
mass map balances the divergence of the tensor map, there is one surface map, it acts on the selected faces and equals minus the
flux through an edge with outward normal `(0, -1)`, and the prescribed functions agree with the solution on the other three edges. -/
theorem C120_manufactured (faces : List (Nat × Nat)) (x : D.Points) :
    (∃ m, (D.problem faces x).massMap = some m ∧ ∀ iv p, m iv (fun _ => exactSol p) p 0 =
      ∑ j, pderiv (fun r => (D.problem faces x).tensorMap iv (fun _ k => pderiv exactSol k r) 0 j) j p) ∧
    (∃ s, (D.problem faces x).surfaces = [s] ∧ s.faces.map (fun f => (f.cell, f.face)) = faces ∧
      ∀ iv p, s.map iv (fun _ => exactSol p) p 0 =
        -∑ j, (D.problem faces x).tensorMap iv (fun _ k => pderiv exactSol k p) 0 j * ![0, -1] j) ∧
    (∀ p, p 0 = 0 ∨ p 0 = 1 → u0 p = exactSol p) ∧ ∀ p, p 1 = 1 → u0Top p = exactSol p := by
  refine ⟨⟨_, rfl, fun iv p => ?_⟩, ⟨_, rfl, ?_, fun iv p => ?_⟩, ?_, ?_⟩
  · rw [Fin.sum_univ_two]
    show _ = pderiv (pderiv exactSol 0) 0 p + pderiv (pderiv exactSol 1) 1 p
    rw [exact_xx, exact_yy]
    simp only [massMap, exactSol]
    ring
  · simp [List.map_map, Function.comp_def]
  · rw [Fin.sum_univ_two]
    show neumannFlux (fun _ => exactSol p) p 0 = -(pderiv exactSol 0 p * 0 + pderiv exactSol 1 p * -1)
    rw [exact_y, neumannFlux]
    ring
  · rintro p (hp | hp)
    · simp [u0, exactSol, hp]
    · simp [u0, exactSol, hp]
  · intro p hp
    rw [u0Top, exactSol, hp]
    norm_num

/-- **C120 (what is selected).** The constructor never raises. It selects the faces all of whose vertices lie within `1e-3` of
the bottom; it prescribes `2 sin(π x)` at the nodes of the top, zero at the other nodes of the left and right edge, and nothing at
the other nodes. -/
theorem C120_conditions (x : D.Points) : ∃ bcs faces, D.build x = .ok (bcs, faces) ∧ WFBC D.fes bcs ∧
    (∀ c f, (c, f) ∈ faces ↔ ∃ cell face, D.cells[c]? = some cell ∧ D.faceInds[f]? = some face ∧
      ∀ a ∈ face, ∀ n, cell[a]? = some n → ∀ hn : n < D.numNodes, |x ⟨n, hn⟩ 1| ≤ 1 / 1000) ∧
    ∀ (n : Fin D.numNodes), (OnTop (x n) → Prescribed D.fes bcs (dofNum D.fes 0 n 0) (some (2 * Real.sin (Real.pi * x n 0)))) ∧
      (¬ OnTop (x n) → OnSide (x n) → Prescribed D.fes bcs (dofNum D.fes 0 n 0) (some 0)) ∧
      (¬ OnTop (x n) → ¬ OnSide (x n) → Prescribed D.fes bcs (dofNum D.fes 0 n 0) none) := by
  obtain ⟨bcs, h1, h2, h3⟩ := build_ok D x
  refine ⟨bcs, _, h2, h3, fun c f => ?_, fun n => ?_⟩
  · rw [mem_argwhere2]
    have hpt : ∀ n, (List.ofFn x)[n]? = if hn : n < D.numNodes then some (x ⟨n, hn⟩) else none := fun n => by
      rw [List.getElem?_ofFn]
    have hall : ∀ cell face, ((facePoints (List.ofFn x) cell face).all fun y => decide (close (y.1 1) 0 (1 / 10 ^ 3))) = true ↔
        ∀ a ∈ face, ∀ n, cell[a]? = some n → ∀ hn : n < D.numNodes, |x ⟨n, hn⟩ 1| ≤ 1 / 1000 := by
      intro cell face
      rw [List.all_eq_true]
      constructor
      · intro h a ha n hn hlt
        refine (bottom_iff _).1 (decide_eq_true_iff.1 (h (x ⟨n, hlt⟩, n) ?_))
        rw [facePoints, List.mem_filterMap]
        refine ⟨a, ha, ?_⟩
        rw [hn, Option.bind_some, hpt, dif_pos hlt]
        rfl
      · intro h y hy
        rw [facePoints, List.mem_filterMap] at hy
        obtain ⟨a, ha, hy⟩ := hy
        rw [Option.bind_eq_some_iff] at hy
        obtain ⟨n, hn, hy⟩ := hy
        rw [hpt] at hy
        by_cases hlt : n < D.numNodes
        · rw [dif_pos hlt] at hy
          rw [← Option.some.inj hy]
          exact decide_eq_true_iff.2 ((bottom_iff _).2 (h a ha n hn hlt))
        · rw [dif_neg hlt] at hy
          cases hy
    constructor
    · rintro ⟨row, h4, h5⟩
      rw [boundaryFlags, List.getElem?_map, Option.map_eq_some_iff] at h4
      obtain ⟨cell, hc, rfl⟩ := h4
      rw [List.getElem?_map, Option.map_eq_some_iff] at h5
      obtain ⟨face, hf, h5⟩ := h5
      exact ⟨cell, face, hc, hf, (hall cell face).1 h5⟩
    · rintro ⟨cell, face, hc, hf, h5⟩
      refine ⟨_, by rw [boundaryFlags, List.getElem?_map, hc]; rfl, ?_⟩
      rw [List.getElem?_map, hf, Option.map_some, (hall cell face).2 h5]
  · have hiff := (UserBC.C107_conditions D.fes _ (suits D x) bcs h1).2 0 n 0 ⟨D.numNodes, 1, nn, (D.problem [] 0).conn⟩
      (List.ofFn x) info rfl rfl rfl n.2 Nat.one_pos
    have hp : (List.ofFn x)[(n : Nat)]? = some (x n) := by
      rw [List.getElem?_ofFn, dif_pos n.2]
    have hno : ∀ (loc : LocFn (Fin 2 → ℝ)) (val : (Fin 2 → ℝ) → ℝ), ¬ loc.holds (x n) n → ¬ UserBC.Concerns (List.ofFn x) (loc, 0, val) n 0 := by
      rintro loc val h ⟨-, p, hp', h'⟩
      rw [hp] at hp'
      rw [← Option.some.inj hp'] at h'
      exact h h'
    refine ⟨fun ht => (hiff _).2 ?_, fun ht hs => (hiff _).2 ?_, fun ht hs => (hiff _).2 (.free ?_)⟩
    · rw [mul_comm]
      exact .value [(left, 0, u0), (right, 0, u0)] (top, 0, u0Top) [] (x n) rfl rfl hp ((top_holds _ _).2 ht) (by simp)
    · by_cases hr : right.holds (x n) n
      · refine .value [(left, 0, u0)] (right, 0, u0) [(top, 0, u0Top)] (x n) rfl rfl hp hr fun it hit => ?_
        rw [List.mem_singleton.1 hit]
        exact hno _ _ fun h => ht ((top_holds _ _).1 h)
      · have hl : left.holds (x n) n := by
          rcases hs with hs | hs
          · exact (left_holds _ _).2 hs
          · exact absurd ((right_holds _ _).2 hs) hr
        refine .value [] (left, 0, u0) [(right, 0, u0), (top, 0, u0Top)] (x n) rfl rfl hp hl fun it hit => ?_
        simp only [List.mem_cons, List.not_mem_nil, or_false] at hit
        rcases hit with rfl | rfl
        · exact hno _ _ hr
        · exact hno _ _ fun h => ht ((top_holds _ _).1 h)
    · intro it hit
      simp only [UserBC.conds, info, List.zip_cons_cons, List.zip_nil_right, List.mem_cons, List.not_mem_nil, or_false] at hit
      rcases hit with rfl | rfl | rfl
      · exact hno _ _ fun h => hs (.inl ((left_holds _ _).1 h))
      · exact hno _ _ fun h => hs (.inr ((right_holds _ _).1 h))
      · exact hno _ _ fun h => ht ((top_holds _ _).1 h)

/-- **C120 (refusal).** If the construction, the choice and the solves succeed, `main` succeeds if and only if both perturbed
problems have as many faces as the original one; otherwise it raises the `RuntimeError`. -/
theorem C120_refuses (solver : Solver D)
    (tan : List (Nat × Nat) → D.Points → D.Vec → Matrix (Fin (totalDofs D.fes)) (Fin (totalDofs D.fes)) ℝ)
    (adjointSolve : (n : Nat) → Matrix (Fin n) (Fin n) ℝ → (Fin n → ℝ) → Except Err (Fin n → ℝ)) (x : D.Points) (axis : Nat)
    (eps : ℝ) (b : List (List (BCEntry ℝ)) × List (Nat × Nat)) (node : Nat) (vg : ℝ × (D.Points →L[ℝ] ℝ))
    (q Jm Jp : ℝ) (nm np : Nat)
    (h1 : D.build x = .ok b) (h2 : pick (List.ofFn x) = .ok node) (h3 : D.valueAndGrad solver tan adjointSolve b x = .ok vg)
    (h4 : D.gold solver x node axis eps = .ok (q, Jm, Jp, nm, np)) :
    (nm = b.2.length ∧ np = b.2.length → D.main solver tan adjointSolve x axis eps = .ok (node, vg.2, q)) ∧
    (nm ≠ b.2.length ∨ np ≠ b.2.length → D.main solver tan adjointSolve x axis eps = .error .runtime) := by
  have key : D.main solver tan adjointSolve x axis eps =
      if nm ≠ b.2.length ∨ np ≠ b.2.length then .error .runtime else .ok (node, vg.2, q) := by
    rw [Disc.main, h1]
    show (pick (List.ofFn x)).bind _ = _
    rw [h2]
    show (D.valueAndGrad solver tan adjointSolve b x).bind _ = _
    rw [h3]
    show (D.gold solver x node axis eps).bind _ = _
    rw [h4]
    rfl
  rw [key]
  constructor
  · rintro ⟨e1, e2⟩
    rw [if_neg (by simp [e1, e2])]
  · intro h
    rw [if_pos h]

end

/-! ### A mesh for which the check refuses -/

/-- One line of two nodes, the first at the edge of the strip. -/
noncomputable def edgeDisc : Disc 1 1 2 := ⟨2, [[0, 1]], [[0, 1]], ⟨fun _ _ => 0, fun _ _ _ => 0, fun _ => 1⟩,
  ⟨fun _ _ _ => 0, fun _ _ _ _ => 0, fun _ _ => 1, fun _ _ => 1⟩⟩

noncomputable def edgePoints : edgeDisc.Points := ![![7 / 20, 1 / 1000], ![3 / 5, 0]]

theorem edge_faces (x : edgeDisc.Points) (bcs : List (List (BCEntry ℝ))) (faces : List (Nat × Nat))
    (h : edgeDisc.build x = .ok (bcs, faces)) : (∃ f, f ∈ faces) ↔ ∀ n, |x n 1| ≤ 1 / 1000 := by
  obtain ⟨bcs', faces', h1, -, h2, -⟩ := C120_conditions edgeDisc x
  rw [h] at h1
  have e : faces = faces' := congrArg Prod.snd (Except.ok.inj h1)
  rw [e]
  constructor
  · rintro ⟨⟨c, f⟩, hf⟩ n
    obtain ⟨cell, face, hc, hf, hall⟩ := (h2 c f).1 hf
    have hcell : cell = [0, 1] := by
      have := List.mem_of_getElem? hc
      exact List.mem_singleton.1 this
    have hface : face = [0, 1] := by
      have := List.mem_of_getElem? hf
      exact List.mem_singleton.1 this
    subst hcell hface
    obtain ⟨n, hn⟩ := n
    have hn' : n < 2 := hn
    interval_cases n
    · exact hall 0 (by simp) 0 rfl hn
    · exact hall 1 (by simp) 1 rfl hn
  · intro hall
    exact ⟨(0, 0), (h2 0 0).2 ⟨[0, 1], [0, 1], rfl, rfl, fun a _ n _ hn => hall ⟨n, hn⟩⟩⟩

/-- The first node is picked; raising it by the step takes its face out of the strip, and the script raises. -/
example (eps : ℝ) (he : 0 < eps) :
    edgeDisc.main (fun _ _ _ => .ok 0) (fun _ _ _ => 1) (fun _ _ b => .ok b) edgePoints 1 eps = .error .runtime := by
  have hpick : pick (List.ofFn edgePoints) = .ok 0 := by
    have hl : List.ofFn edgePoints = [![7 / 20, 1 / 1000], ![3 / 5, 0]] := rfl
    have i0 : InsideEdge ![7 / 20, 1 / 1000] := by
      refine ⟨?_, ?_, ?_⟩ <;> simp <;> norm_num
    have i1 : InsideEdge ![3 / 5, 0] := by
      refine ⟨?_, ?_, ?_⟩ <;> simp <;> norm_num
    rw [hl, pick, List.map_cons, List.map_cons, List.map_nil, maskedDist_in i0, maskedDist_in i1, argmin, argminFrom, if_neg,
      argminFrom]
    rw [not_lt, WithTop.coe_le_coe]
    simp [distSq]
    norm_num
  obtain ⟨bcs, faces, h1, -, -⟩ := C120_conditions edgeDisc edgePoints
  have hbase : ∃ f, f ∈ faces := (edge_faces _ _ _ h1).2 fun n => by
    obtain ⟨n, hn⟩ := n
    have hn' : n < 2 := hn
    interval_cases n
    · show |(1 / 1000 : ℝ)| ≤ _
      rw [abs_of_pos] <;> norm_num
    · show |(0 : ℝ)| ≤ _
      rw [abs_zero]
      norm_num
  have hlen : faces.length ≠ 0 := by
    obtain ⟨f, hf⟩ := hbase
    intro h
    rw [List.length_eq_zero_iff.1 h] at hf
    cases hf
  obtain ⟨xm, m1, -, -⟩ := shift_moved edgeDisc edgePoints 0 (by decide) (-eps)
  obtain ⟨xp, p1, p2, -⟩ := shift_moved edgeDisc edgePoints 0 (by decide) eps
  obtain ⟨bm, fm, hm, -⟩ := C120_conditions edgeDisc xm
  obtain ⟨bp, fp, hp, -⟩ := C120_conditions edgeDisc xp
  have hzero : fp.length = 0 := by
    by_contra hne
    obtain ⟨f, hf⟩ := List.exists_mem_of_length_pos (Nat.pos_of_ne_zero hne)
    have h2 := (edge_faces _ _ _ hp).1 ⟨f, hf⟩ ⟨0, by decide⟩
    rw [(p2 ⟨0, by decide⟩).2.2 rfl] at h2
    have h3 : |(1 / 1000 : ℝ) + eps| ≤ 1 / 1000 := h2
    rw [abs_of_pos (by positivity)] at h3
    linarith
  have hgold : ∃ q Jm Jp, edgeDisc.gold (fun _ _ _ => .ok 0) edgePoints 0 1 eps = .ok (q, Jm, Jp, fm.length, fp.length) := by
    refine ⟨central (objective (0 : edgeDisc.Vec)) (objective (0 : edgeDisc.Vec)) eps, objective (0 : edgeDisc.Vec),
      objective (0 : edgeDisc.Vec), ?_⟩
    exact gold_ok edgeDisc (fun _ _ _ => .ok 0) edgePoints xm xp 0 1 eps _ _ _ _ 0 0 m1 p1 hm hp rfl rfl
  obtain ⟨q, Jm, Jp, hgold⟩ := hgold
  refine (C120_refuses edgeDisc _ _ _ edgePoints 1 eps (bcs, faces) 0 _ q Jm Jp _ _ h1 hpick rfl hgold).2 (.inr ?_)
  rw [hzero]
  exact fun h => hlen h.symm

end JaxFem.MeshCheck
