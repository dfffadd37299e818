import Verif.Thm.C95_LocalMesh
import Verif.Thm.C95_Scatter
import Verif.Thm.C95_Kernel
import Verif.Thm.FlatAssembly
import Verif.Thm.C04_Coo
import Verif.Thm.C14_Boundary
import Verif.Thm.C16_BC

/-!
# C95: assembly on one rank
-/

namespace JaxFem
namespace Mpi

open Parallel (IsShapeGrads signedArea2 triArea globalDof NearSide)

/-! ### Assembly of a scalar problem on triangles -/

theorem sum_list_swap {α ι : Type} (s : Finset ι) (l : List α) (F : ι → α → ℝ) :
    ∑ i ∈ s, (l.map (F i)).sum = (l.map fun a => ∑ i ∈ s, F i a).sum := by
  induction l with
  | nil => simp
  | cons a l ih => simp only [List.map_cons, List.sum_cons, Finset.sum_add_distrib, ih]

theorem fes_pos (m : LocalMesh) (a : Nat) : localPos m.fes 0 a 0 = a := by
  simp [localPos, LocalMesh.fes]

theorem fes_dof (m : LocalMesh) (n : Nat) : dofNum m.fes 0 n 0 = n := by
  simp [dofNum, LocalMesh.fes]

theorem fes_size (m : LocalMesh) : localSize m.fes = 3 := by
  simp [localSize, LocalMesh.fes]

theorem fes_total (m : LocalMesh) : totalDofs m.fes = m.points.length := by
  simp [totalDofs, LocalMesh.fes]

theorem fes_cells (m : LocalMesh) : numCells m.fes = m.cells.length := by
  simp [numCells, LocalMesh.fes]

theorem fes_node (m : LocalMesh) (e a : Nat) : nodeOf m.fes 0 e a = (m.cells.getD e []).getD a 0 := by
  simp [nodeOf, LocalMesh.fes]

theorem terms_sum {D β γ : Type} (P : β → γ) (cells : List (List Nat)) (cd : List Nat → D) (k : List ℝ → D → β) (loc : Nat → List ℝ)
    (locc : List Nat → List ℝ) (hloc : ∀ e (h : e < cells.length), loc e = locc cells[e]) (F : Nat → γ → ℝ) (Fc : List Nat → γ → ℝ)
    (hF : ∀ e (h : e < cells.length), ∀ b, F e b = Fc cells[e] b) :
    (((cellTerms k (cells.map cd)).map fun t => (t.1, P (t.2 (loc t.1)))).map fun t => F t.1 t.2).sum
      = (cells.map fun c => Fc c (P (k (locc c) (cd c)))).sum := by
  congr 1
  refine List.ext_getElem (by simp [cellTerms]) fun e h1 h2 => ?_
  have he : e < cells.length := by simpa using h2
  simp [cellTerms, hloc e he, hF e he]

/-- Values at the corners of a cell. -/
def cornerValues (u : List ℝ) (cell : List Nat) : Fin 3 → ℝ := fun a => u.getD (cell.getD a 0) 0

theorem local_newton (f : ℝ → ℝ → ℝ) (el : RefElement ℝ 1 3 2) (m : LocalMesh) (hm : WFMesh m.fes) (hc : m.cells ≠ []) (u : List ℝ)
    (hu : u.length = m.points.length) :
    ∃ R V, newtonUpdate f el m u = .ok (R, V) ∧ (ravelSol R).length = m.points.length ∧
      (∀ k < m.points.length, (ravelSol R).getD k 0 = (m.cells.map fun c => ∑ a : Fin 3, if c.getD a 0 = k then
        (universalKernel f el (List.ofFn (cornerValues u c)) (cellData el m.points c fun _ => ())).getD a 0 else 0).sum) ∧
      (cooI m.fes []).length = V.length ∧ (cooJ m.fes []).length = V.length ∧
      (∀ k ∈ cooI m.fes [], k < m.points.length) ∧ (∀ k ∈ cooJ m.fes [], k < m.points.length) ∧
      ∀ r c, cooEntry (cooI m.fes []) (cooJ m.fes []) V r c = (m.cells.map fun cl => ∑ a : Fin 3, ∑ b : Fin 3,
        if cl.getD a 0 = r ∧ cl.getD b 0 = c then
          ((Dendrite.jacfwd (fun y => universalKernel f el y (cellData el m.points cl fun _ => ()))
            (List.ofFn (cornerValues u cl))).getD a []).getD b 0 else 0).sum := by
  let kJ : List ℝ → CellData ℝ Unit 1 3 2 → List ℝ × List (List ℝ) :=
    fun x d => (universalKernel f el x d, Dendrite.jacfwd (fun y => universalKernel f el y d) x)
  let cd : List Nat → CellData ℝ Unit 1 3 2 := fun c => cellData el m.points c fun _ => ()
  have wf : WFArgs (K := ℝ) (F := Unit) (β := List ℝ × List (List ℝ)) m.fes [] (m.cells.map cd) [] [] :=
    ⟨hm, by rw [fes_cells]; exact List.length_pos_of_ne_nil hc, fun b hb => absurd hb List.not_mem_nil, by simp [fes_cells], rfl, rfl,
      fun j hj => absurd hj (by simp)⟩
  have wf' : WFArgs (K := ℝ) (F := Unit) (β := List ℝ) m.fes [] (m.cells.map cd) [] [] :=
    ⟨hm, by rw [fes_cells]; exact List.length_pos_of_ne_nil hc, fun b hb => absurd hb List.not_mem_nil, by simp [fes_cells], rfl, rfl,
      fun j hj => absurd hj (by simp)⟩
  have hjl : ∀ (d : CellData ℝ Unit 1 3 2) (s : List ℝ), s.length = 3 →
      (Dendrite.jacfwd (fun y => universalKernel f el y d) s).length = 3 ∧
        ∀ r ∈ Dendrite.jacfwd (fun y => universalKernel f el y d) s, r.length = 3 := by
    intro d s hs
    unfold Dendrite.jacfwd
    constructor
    · simp [kernel_length]
    · intro r hr
      simp only [List.mem_map] at hr
      obtain ⟨_, _, rfl⟩ := hr
      simp [hs]
  have hk : JacOk m.fes (cellTerms kJ (m.cells.map cd) ++ faceTerms (K := ℝ) (F := Unit) [] [] []) := by
    intro t ht s hs
    rw [fes_size] at hs ⊢
    simp only [faceTerms, List.append_nil, cellTerms, List.mem_mapIdx] at ht
    obtain ⟨i, _, rfl⟩ := ht
    exact ⟨kernel_length f el s _, hjl _ s hs⟩
  have hk' : KernelOk m.fes (cellTerms (universalKernel f el) (m.cells.map cd) ++ faceTerms (K := ℝ) (F := Unit) [] [] []) := by
    intro t ht s hs
    rw [fes_size] at hs ⊢
    simp only [faceTerms, List.append_nil, cellTerms, List.mem_mapIdx] at ht
    obtain ⟨i, _, rfl⟩ := ht
    exact kernel_length f el s _
  have hs : HasShapes (solShapes m.fes) [u.map fun v => [v]] := by
    refine ⟨_, [], rfl, by simp [hu], ?_, rfl⟩
    intro r hr
    obtain ⟨v, _, rfl⟩ := List.mem_map.1 hr
    rfl
  let loc : Nat → List ℝ := fun e => List.ofFn (cornerValues u (m.cells.getD e []))
  have hnode : ∀ e < m.cells.length, ∀ a < 3, (m.cells.getD e []).getD a 0 < m.points.length := by
    intro e he a ha
    obtain ⟨-, hcell⟩ := hm _ (List.mem_singleton.2 rfl)
    obtain ⟨h3, hn⟩ := hcell m.cells[e] (List.getElem_mem he)
    rw [List.getD_eq_getElem _ _ he, List.getD_eq_getElem _ _ (by simpa [h3] using ha)]
    exact hn _ (List.getElem_mem _)
  have hloc : ∀ e < numCells m.fes, IsLocal m.fes [u.map fun v => [v]] e (loc e) := by
    intro e he
    rw [fes_cells] at he
    refine ⟨by simp [loc, fes_size], ?_⟩
    intro i hi a ha c hcc
    have hi0 : i = 0 := by simpa [LocalMesh.fes] using hi
    subst hi0
    have ha3 : a < 3 := ha
    have hc0 : c = 0 := Nat.lt_one_iff.1 hcc
    subst hc0
    rw [fes_pos, fes_node]
    have h1 : (loc e).getD a 0 = u.getD ((m.cells.getD e []).getD a 0) 0 := ofFn_getD (cornerValues u (m.cells.getD e [])) ⟨a, ha3⟩
    rw [h1]
    have h2 := hnode e he a ha3
    have h2u : (m.cells.getD e []).getD a 0 < u.length := by rw [hu]; exact h2
    unfold at3
    rw [List.getD_cons_zero, List.getD_eq_getElem _ _ h2u, List.getD_eq_getElem (u.map fun v => [v]) _ (by simpa using h2u)]
    simp
  let g : Nat → Nat → Nat := fun e p => (m.cells.getD e []).getD p 0
  have hg : IsGlobal m.fes g := by
    intro e he i hi a ha c hcc
    have hi0 : i = 0 := by simpa [LocalMesh.fes] using hi
    subst hi0
    have hc0 : c = 0 := Nat.lt_one_iff.1 hcc
    subst hc0
    rw [fes_pos, fes_dof, fes_node]
  obtain ⟨R, V, h1, h2, h3, h4, h5, h6, h7⟩ := C04_triplets (F := Unit) m.fes [] kJ (m.cells.map cd) [] [] wf hk _ hs loc hloc g hg
  obtain ⟨R', r1, r2, r3⟩ := residual_flat (F := Unit) m.fes [] (universalKernel f el) (m.cells.map cd) [] [] wf' hk' _ hs loc hloc g hg
  have hRR : R' = R := by
    have : (Except.ok R' : Except Err _) = .ok R := r1.symm.trans h2
    simpa using this
  subst hRR
  refine ⟨R', V, h1, ?_, ?_, h3, h4, fun k hk => by rw [← fes_total]; exact h5 k hk, fun k hk => by rw [← fes_total]; exact h6 k hk, ?_⟩
  · rw [ravelSol_length r2, ← totalDofs_eq, fes_total]
  · intro k hk
    rw [r3 k (by rw [fes_total]; exact hk), vecSum, fes_size]
    simp only [faceTerms, List.append_nil]
    refine (terms_sum id m.cells cd (universalKernel f el) loc (fun c => List.ofFn (cornerValues u c))
      (fun e he => by simp only [loc]; rw [List.getD_eq_getElem _ _ he])
      (fun e b => ∑ p ∈ Finset.range 3, if g e p = k then b.getD p 0 else 0)
      (fun c b => ∑ p ∈ Finset.range 3, if c.getD p 0 = k then b.getD p 0 else 0)
      (fun e he b => by
        have hge : ∀ p, g e p = m.cells[e].getD p 0 := fun p => by simp only [g]; rw [List.getD_eq_getElem _ _ he]
        simp only [hge])).trans ?_
    refine congrArg List.sum (List.map_congr_left fun c _ => ?_)
    rw [Finset.sum_range]
    rfl
  · intro r c
    rw [h7, matSum, fes_size]
    simp only [faceTerms, List.append_nil]
    refine (terms_sum Prod.snd m.cells cd kJ loc (fun c => List.ofFn (cornerValues u c))
      (fun e he => by simp only [loc]; rw [List.getD_eq_getElem _ _ he])
      (fun e b => ∑ p ∈ Finset.range 3, ∑ q ∈ Finset.range 3, if g e p = r ∧ g e q = c then (b.getD p []).getD q 0 else 0)
      (fun cl b => ∑ p ∈ Finset.range 3, ∑ q ∈ Finset.range 3, if cl.getD p 0 = r ∧ cl.getD q 0 = c then (b.getD p []).getD q 0 else 0)
      (fun e he b => by
        have hge : ∀ p, g e p = m.cells[e].getD p 0 := fun p => by simp only [g]; rw [List.getD_eq_getElem _ _ he]
        simp only [hge])).trans ?_
    refine congrArg List.sum (List.map_congr_left fun c _ => ?_)
    rw [Finset.sum_range]
    refine Finset.sum_congr rfl fun a _ => ?_
    rw [Finset.sum_range]

/-! ### From local to global numbers -/

theorem scatter_vec (n : Nat) (gd : List Int) (res : List ℝ) (hg : gd.length = n) (hr : res.length = n) (i : Int) :
    ((gd.zip res).map fun e => if e.1 = i then e.2 else 0).sum
      = ∑ k ∈ Finset.range n, if gd.getD k 0 = i then res.getD k 0 else 0 := by
  induction gd generalizing n res with
  | nil => simp at hg; subst hg; simp
  | cons a gd ih =>
    obtain _ | ⟨b, res⟩ := res
    · simp at hr; subst hr; simp at hg
    · obtain _ | n := n
      · simp at hg
      · rw [List.zip_cons_cons, List.map_cons, List.sum_cons, ih n res (by simpa using hg) (by simpa using hr), Finset.sum_range_succ']
        simp only [List.getD_cons_succ, List.getD_cons_zero]
        ring

theorem scatter_mat (n : Nat) (gd : List Int) (IJ : List (Nat × Nat)) (V : List ℝ) (h : ∀ e ∈ IJ, e.1 < n ∧ e.2 < n) (i j : Int) :
    (((IJ.map fun e => (gd.getD e.1 0, gd.getD e.2 0)).zip V).map fun e => if e.1 = (i, j) then e.2 else 0).sum
      = ∑ r ∈ Finset.range n, ∑ c ∈ Finset.range n, if gd.getD r 0 = i ∧ gd.getD c 0 = j then
          ((IJ.zip V).map fun e => if e.1.1 = r ∧ e.1.2 = c then e.2 else 0).sum else 0 := by
  induction IJ generalizing V with
  | nil => simp
  | cons a IJ ih =>
    obtain _ | ⟨b, V⟩ := V
    · simp
    · obtain ⟨h1, h2⟩ := h a List.mem_cons_self
      rw [List.map_cons, List.zip_cons_cons, List.map_cons, List.sum_cons, ih V fun e he => h e (List.mem_cons_of_mem _ he)]
      simp only [List.zip_cons_cons, List.map_cons, List.sum_cons]
      have e1 : (if (gd.getD a.1 0, gd.getD a.2 0) = (i, j) then b else 0)
          = ∑ r ∈ Finset.range n, ∑ c ∈ Finset.range n, if gd.getD r 0 = i ∧ gd.getD c 0 = j then
            (if a.1 = r ∧ a.2 = c then b else 0) else 0 := by
        rw [Finset.sum_eq_single a.1, Finset.sum_eq_single a.2]
        · simp only [and_self, if_true, Prod.mk.injEq]
        · intro c _ hc
          simp [Ne.symm hc]
        · intro h'
          exact absurd (Finset.mem_range.2 h2) h'
        · intro r _ hr
          refine Finset.sum_eq_zero fun c _ => ?_
          simp [Ne.symm hr]
        · intro h'
          exact absurd (Finset.mem_range.2 h1) h'
      rw [e1, ← Finset.sum_add_distrib]
      refine Finset.sum_congr rfl fun r _ => ?_
      rw [← Finset.sum_add_distrib]
      refine Finset.sum_congr rfl fun c _ => ?_
      split <;> simp

variable {coords : Nat → Fin 2 → ℝ} {N : Nat} {cells : List (Fin 3 → Nat)} {num : Nat → Nat} {glob : Part → Nat → Nat}
  {parts : List Part}

/-- The triangle of a rank in serial vertices. -/
def triOf (glob : Part → Nat → Nat) (p : Part) (cell : List Nat) : Fin 3 → Nat := fun a => glob p (cell.getD a.val 0)

/-- The local mesh in terms of the serial one. -/
theorem local_structure (hD : IsPartition coords N cells num glob parts) {p : Part} (hp : p ∈ parts) :
    WFMesh (buildLocalMesh p).fes ∧ (buildLocalMesh p).gdofs.length = (buildLocalMesh p).points.length ∧
    ∃ gv : Nat → Nat, (∀ k < (buildLocalMesh p).points.length, gv k < N ∧
        (buildLocalMesh p).points.getD k 0 = coords (gv k) ∧ (buildLocalMesh p).gdofs.getD k 0 = (num (gv k) : Int)) ∧
      ((buildLocalMesh p).cells.map fun lid (a : Fin 3) => gv (lid.getD a 0)) = p.cells.map (triOf glob p) := by
  obtain ⟨pt, -, hmem, hpts, hgd, hlen, hcell⟩ := C95_local_mesh p
  have hrange : ∀ v ∈ pt, p.vStart ≤ v ∧ v < p.vEnd := by
    intro v hv
    obtain ⟨cell, hc, hvc⟩ := (hmem v).1 hv
    exact (hD.triangles p hp cell hc).2 v hvc
  have hwf : ∀ i (hi : i < (buildLocalMesh p).cells.length), ∃ cell, p.cells[i]? = some cell ∧
      ((buildLocalMesh p).cells[i]).map (fun k => pt[k]?) = cell.map some ∧ cell.length = 3 := by
    intro i hi
    have hi' : i < p.cells.length := by rw [← hlen]; exact hi
    obtain ⟨lid, h1, h2⟩ := hcell i _ (List.getElem?_eq_getElem hi')
    rw [List.getElem?_eq_getElem hi] at h1
    obtain rfl := Option.some.inj h1
    exact ⟨_, List.getElem?_eq_getElem hi', h2, (hD.triangles p hp _ (List.getElem_mem hi')).1⟩
  have hlid : ∀ (lid cell : List Nat), lid.map (fun k => pt[k]?) = cell.map some → cell.length = 3 →
      lid.length = 3 ∧ (∀ n ∈ lid, n < pt.length) ∧ ∀ a < 3, pt.getD (lid.getD a 0) 0 = cell.getD a 0 := by
    intro lid cell h h3
    have hl : lid.length = 3 := by
      have := congrArg List.length h
      simpa [h3] using this
    have hget : ∀ a (ha : a < 3), pt[lid[a]'(by omega)]? = some (cell[a]'(by omega)) := by
      intro a ha
      have := congrArg (fun l => l[a]?) h
      simp only [List.getElem?_map] at this
      rw [List.getElem?_eq_getElem (by omega : a < lid.length), List.getElem?_eq_getElem (by omega : a < cell.length)] at this
      simpa using this
    refine ⟨hl, ?_, ?_⟩
    · intro n hn
      obtain ⟨a, ha, rfl⟩ := List.getElem_of_mem hn
      exact (List.getElem?_eq_some_iff.1 (hget a (by omega))).1
    · intro a ha
      rw [List.getD_eq_getElem _ _ (by omega : a < lid.length), List.getD_eq_getElem _ _ (by omega : a < cell.length), List.getD_eq_getElem?_getD, hget a ha]
      rfl
  refine ⟨?_, by rw [hpts, hgd]; simp, fun k => glob p (pt.getD k 0), ?_, ?_⟩
  · intro fe hfe
    rw [LocalMesh.fes, List.mem_singleton] at hfe
    subst hfe
    refine ⟨by simp [fes_cells], fun lid hl => ?_⟩
    obtain ⟨i, hi, rfl⟩ := List.getElem_of_mem hl
    obtain ⟨cell, -, h, h3⟩ := hwf i hi
    obtain ⟨e1, e2, -⟩ := hlid _ _ h h3
    refine ⟨e1, fun n hn => ?_⟩
    have := e2 n hn
    simpa [hpts] using this
  · intro k hk
    have hk' : k < pt.length := by simpa [hpts] using hk
    have hv := hrange _ (List.getElem_mem hk')
    obtain ⟨b1, b2, -⟩ := hD.verts p hp _ hv.1 hv.2
    have hd := point_dof hD hp hv.1 hv.2
    have e : pt.getD k 0 = pt[k] := List.getD_eq_getElem _ _ hk'
    simp only [e]
    refine ⟨b1, ?_, ?_⟩
    · rw [hpts, List.getD_eq_getElem _ _ (by simpa using hk'), List.getElem_map, b2]
    · rw [hgd, List.getD_eq_getElem _ _ (by simpa using hk'), List.getElem_map, hd]
  · refine List.ext_getElem (by simp [hlen]) fun i h1 h2 => ?_
    have hi : i < (buildLocalMesh p).cells.length := by simpa using h1
    obtain ⟨cell, hc, h, h3⟩ := hwf i hi
    have hi' : i < p.cells.length := by simpa using h2
    rw [List.getElem?_eq_getElem hi'] at hc
    rw [List.getElem_map, List.getElem_map, Option.some.inj hc]
    funext a
    simp only [triOf, (hlid _ _ h h3).2.2 a a.2]

/-! ### Dirichlet conditions of a rank's problem -/

theorem dirichlet_free (points : List (Fin 2 → ℝ)) (fe : FE) (hfe : fe.numTotalNodes = points.length) (hv : fe.vec = 1) :
    ∃ bc, dirichletBC points (some dirichletInfo) = .ok bc ∧ WFBC [fe] [entries bc] ∧
      ∀ k < points.length, (∀ d, ¬isclose (1 / 10 ^ 9) (points.getD k 0 d) 0 ∧ ¬isclose (1 / 10 ^ 9) (points.getD k 0 d) 1) →
        FreeDof (entries bc) k 0 := by
  obtain ⟨ns, vs, us, h, hn, hvv, huu, hE⟩ := C14_selection (K := ℝ) points dirichletInfo.1 dirichletInfo.2.1 dirichletInfo.2.2 rfl rfl
    (by
      intro loc hl
      simp only [dirichletInfo, List.mem_cons, List.not_mem_nil, or_false] at hl
      rcases hl with rfl | rfl | rfl | rfl <;> trivial)
  refine ⟨(ns, vs, us), h, ?_⟩
  have hl4 : dirichletInfo.1.length = 4 := rfl
  rw [hl4] at hn hvv huu
  have hent : ∀ e ∈ entries (ns, vs, us), ∃ d b val, (b = 0 ∨ b = 1) ∧ EntrySpec points (side d b) 0 val e.nodes e.comps e.vals := by
    intro e he
    obtain ⟨k, hk, rfl⟩ := List.getElem_of_mem he
    simp only [entries, List.length_zipWith, List.length_zip, hn, hvv, huu, min_self] at hk
    have hs := fun loc vec val h1 h2 h3 => hE k loc vec val _ _ _ h1 h2 h3
      (List.getElem?_eq_getElem (by omega : k < ns.length)) (List.getElem?_eq_getElem (by omega : k < vs.length))
      (List.getElem?_eq_getElem (by omega : k < us.length))
    simp only [entries, List.getElem_zipWith, List.getElem_zip]
    have hk4 : k = 0 ∨ k = 1 ∨ k = 2 ∨ k = 3 := by omega
    rcases hk4 with rfl | rfl | rfl | rfl
    · exact ⟨0, 0, _, .inl rfl, hs _ _ _ rfl rfl rfl⟩
    · exact ⟨0, 1, _, .inr rfl, hs _ _ _ rfl rfl rfl⟩
    · exact ⟨1, 0, _, .inl rfl, hs _ _ _ rfl rfl rfl⟩
    · exact ⟨1, 1, _, .inr rfl, hs _ _ _ rfl rfl rfl⟩
  refine ⟨⟨rfl, ?_, ?_, ?_, ?_⟩, ?_⟩
  · intro es hes e he
    rw [List.mem_singleton] at hes
    subst hes
    obtain ⟨d, b, val, -, -, -, hc, -, -⟩ := hent e he
    rw [hc]; simp
  · intro es hes e he
    rw [List.mem_singleton] at hes
    subst hes
    obtain ⟨d, b, val, -, -, -, -, hl, -⟩ := hent e he
    exact hl
  · intro es hes e he
    rw [List.mem_singleton] at hes
    subst hes
    obtain ⟨d, b, val, -, hp, -, hc, -, -⟩ := hent e he
    refine List.Nodup.of_map Prod.fst ?_
    rw [List.map_fst_zip (by rw [hc]; simp)]
    exact hp.imp fun h => ne_of_lt h
  · intro i fe' es h1 h2 e he
    obtain ⟨rfl, rfl⟩ : i = 0 ∧ fe' = fe := by
      obtain _ | i := i
      · exact ⟨rfl, (Option.some.inj h1).symm⟩
      · simp at h1
    obtain rfl := Option.some.inj h2
    obtain ⟨d, b, val, -, -, hm, hc, -, -⟩ := hent e he
    constructor
    · intro n hnn
      obtain ⟨p, hp, -⟩ := (hm n).1 hnn
      rw [hfe]
      exact (List.getElem?_eq_some_iff.1 hp).1
    · intro c hcc
      rw [hc] at hcc
      rw [List.eq_of_mem_replicate hcc, hv]
      exact one_pos
  · intro k hk hfree e he v hpre
    obtain ⟨d, b, val, hb, -, hm, -, -, -⟩ := hent e he
    obtain ⟨j, hj, -, -⟩ := hpre
    obtain ⟨p, hp, hh⟩ := (hm k).1 (List.mem_of_getElem? hj)
    have hp' : points.getD k 0 = p := by rw [List.getD_eq_getElem?_getD, hp]; rfl
    have hcl : isclose (1 / 10 ^ 9) (p d) b := by simpa [side, LocFn.holds] using hh
    obtain ⟨f0, f1⟩ := hfree d
    rw [hp'] at f0 f1
    rcases hb with rfl | rfl
    · exact f0 hcl
    · exact f1 hcl

/-! ### The contributions of a rank -/

theorem rank_system {info : ElementInfo} (h : getElements "TRI3" = .ok info) (hD : IsPartition coords N cells num glob parts)
    (htol : TolerancesAgree coords N) (f : ℝ → ℝ → ℝ) {p : Part} (hp : p ∈ parts) (hc : p.cells ≠ []) (hr : p.rstart < p.rend)
    (u : Nat → ℝ) (uFull : List ℝ) (hu : ∀ v < N, uFull.getD (num v) 0 = u v) (G : (Fin 3 → Nat) → Fin 3 → Fin 2 → ℝ)
    (hG : ∀ t ∈ p.cells.map (triOf glob p), IsShapeGrads (fun a => coords (t a)) (G t)) :
    ∃ vec mat, rankSystem f (tri3 info) p uFull = .ok (vec, mat) ∧
      (∀ v < N, ¬AtSide coords v → (vec.map fun e => if e.1 = (num v : Int) then e.2 else 0).sum
        = ((p.cells.map (triOf glob p)).map fun t => ∑ a, if t a = v then
            elementResidual f (fun a => coords (t a)) (G t) (fun a => u (t a)) a else 0).sum) ∧
      ∀ v < N, ∀ w < N, (mat.map fun e => if e.1 = ((num v : Int), (num w : Int)) then e.2 else 0).sum
        = ((p.cells.map (triOf glob p)).map fun t => ∑ a, ∑ b, if t a = v ∧ t b = w then
            elementTangent (fun a => coords (t a)) (G t) (fun a => u (t a)) a b else 0).sum := by
  obtain ⟨hwf, hgl, gv, hgv, htri⟩ := local_structure hD hp
  generalize hm : buildLocalMesh p = m at *
  have hiff : ∀ v < N, ∀ w < N, ((num v : Int) = num w ↔ v = w) := fun v hv w hw =>
    ⟨fun e => hD.num_inj v hv w hw (by exact_mod_cast e), fun e => by rw [e]⟩
  have hcells : m.cells ≠ [] := by
    intro e
    rw [e] at htri
    exact hc (by simpa using htri.symm)
  set uLoc := m.gdofs.map fun g => uFull.getD g.toNat 0 with huLoc
  have hul : uLoc.length = m.points.length := by simp [huLoc, hgl]
  have hun : ∀ k < m.points.length, uLoc.getD k 0 = u (gv k) := by
    intro k hk
    obtain ⟨b1, -, b3⟩ := hgv k hk
    have hk' : k < m.gdofs.length := by rw [hgl]; exact hk
    rw [List.getD_eq_getElem _ _ hk'] at b3
    rw [huLoc, List.getD_eq_getElem _ _ (by simpa using hk'), List.getElem_map, b3, Int.toNat_natCast, hu _ b1]
  obtain ⟨R, V, n1, n2, n3, n4, n5, n6, n7, n8⟩ := local_newton f (tri3 info) m hwf hcells uLoc hul
  obtain ⟨bc, b1, b2, b3⟩ := dirichlet_free m.points ⟨m.points.length, 1, 3, m.cells⟩ rfl rfl
  have hlidlt : ∀ lid ∈ m.cells, ∀ a : Fin 3, lid.getD a 0 < m.points.length := by
    intro lid hl a
    obtain ⟨-, hcell⟩ := hwf _ (List.mem_singleton.2 rfl)
    obtain ⟨h3, hn⟩ := hcell lid hl
    rw [List.getD_eq_getElem _ _ (by rw [h3]; exact a.2)]
    exact hn _ (List.getElem_mem _)
  have hcorner : ∀ lid ∈ m.cells, corners m.points lid = fun a : Fin 3 => coords (gv (lid.getD a 0)) := by
    intro lid hl
    funext a
    exact (hgv _ (hlidlt lid hl a)).2.1
  have hval : ∀ lid ∈ m.cells, cornerValues uLoc lid = fun a : Fin 3 => u (gv (lid.getD a 0)) := by
    intro lid hl
    funext a
    exact hun _ (hlidlt lid hl a)
  have hshape : ∀ lid ∈ m.cells, IsShapeGrads (corners m.points lid) (G fun a => gv (lid.getD a 0)) := by
    intro lid hl
    rw [hcorner lid hl]
    refine hG _ ?_
    rw [← htri]
    exact List.mem_map.2 ⟨lid, hl, rfl⟩
  obtain ⟨c1, c2⟩ := C16_residual (K := ℝ) m.fes [entries bc] b2 1 (ravelSol R) uLoc (by rw [n2, fes_total]) (by rw [hul, fes_total])
  set res := applyBcVec m.fes [entries bc] 1 (ravelSol R) uLoc with hres
  set rows := (cooI m.fes []).map fun i => m.gdofs.getD i 0 with hrows
  set cols := (cooJ m.fes []).map fun i => m.gdofs.getD i 0 with hcols
  refine ⟨m.gdofs.zip res, scatterGlobalCoo p.rstart p.rend ((rows.zip cols).zip V), ?_, ?_, ?_⟩
  · unfold rankSystem
    simp only [hm, n1, b1, bind, Except.bind, ← huLoc]
    rfl
  · intro v hv hside
    rw [scatter_vec m.points.length _ _ hgl (by rw [c1, fes_total])]
    have e1 : ∀ k ∈ Finset.range m.points.length, (if m.gdofs.getD k 0 = (num v : Int) then res.getD k 0 else 0)
        = (m.cells.map fun c => ∑ a : Fin 3, if c.getD a 0 = k then (if gv k = v then
          elementResidual f (corners m.points c) (G fun a => gv (c.getD a 0)) (cornerValues uLoc c) a else 0) else 0).sum := by
      intro k hk
      rw [Finset.mem_range] at hk
      obtain ⟨g1, g2, g3⟩ := hgv k hk
      by_cases hkv : gv k = v
      · have hfree : Prescribed m.fes [entries bc] k none := by
          refine .free 0 k 0 _ _ rfl rfl hk one_pos (fes_dof m k).symm (b3 k hk fun d => ?_)
          rw [g2]
          constructor
          · intro hcl
            exact hside (hkv ▸ htol _ g1 d (.inl hcl))
          · intro hcl
            exact hside (hkv ▸ htol _ g1 d (.inr hcl))
        rw [if_pos (by rw [g3, hkv]), (c2 k (by rw [fes_total]; exact hk)).1 hfree, n3 k hk]
        refine congrArg List.sum (List.map_congr_left fun lid hl => Finset.sum_congr rfl fun a _ => ?_)
        rw [if_pos hkv, (kernel_entries h f m.points lid (fun _ => ()) _ (hshape lid hl) _).1 a]
      · rw [if_neg (by rw [g3]; exact fun e => hkv ((hiff _ g1 _ hv).1 e))]
        simp [if_neg hkv]
    rw [Finset.sum_congr rfl e1, sum_list_swap, ← htri, List.map_map]
    refine congrArg List.sum (List.map_congr_left fun lid hl => ?_)
    rw [Finset.sum_comm]
    refine Finset.sum_congr rfl fun a _ => ?_
    rw [Finset.sum_ite_eq, if_pos (Finset.mem_range.2 (hlidlt lid hl a)), hcorner lid hl, hval lid hl]
  · intro v hv w hw
    rw [C95_scatter _ _ hr]
    have hz : rows.zip cols = ((cooI m.fes []).zip (cooJ m.fes [])).map fun e => (m.gdofs.getD e.1 0, m.gdofs.getD e.2 0) := by
      rw [hrows, hcols, List.zip_map]
      rfl
    rw [hz, scatter_mat m.points.length _ _ _ fun e he => ⟨n6 _ (List.of_mem_zip he).1, n7 _ (List.of_mem_zip he).2⟩]
    have e1 : ∀ r ∈ Finset.range m.points.length, ∀ c ∈ Finset.range m.points.length,
        (if m.gdofs.getD r 0 = (num v : Int) ∧ m.gdofs.getD c 0 = (num w : Int) then
          ((((cooI m.fes []).zip (cooJ m.fes [])).zip V).map fun e => if e.1.1 = r ∧ e.1.2 = c then e.2 else 0).sum else 0)
        = (m.cells.map fun cl => ∑ a : Fin 3, ∑ b : Fin 3, if cl.getD a 0 = r then (if cl.getD b 0 = c then
            (if gv r = v ∧ gv c = w then
              elementTangent (corners m.points cl) (G fun a => gv (cl.getD a 0)) (cornerValues uLoc cl) a b else 0) else 0)
            else 0).sum := by
      intro r hr' c hc'
      rw [Finset.mem_range] at hr' hc'
      obtain ⟨g1, -, g3⟩ := hgv r hr'
      obtain ⟨g1', -, g3'⟩ := hgv c hc'
      rw [g3, g3']
      by_cases hrc : gv r = v ∧ gv c = w
      · rw [if_pos ⟨(hiff _ g1 _ hv).2 hrc.1, (hiff _ g1' _ hw).2 hrc.2⟩]
        refine (n8 r c).trans ?_
        refine congrArg List.sum (List.map_congr_left fun lid hl => Finset.sum_congr rfl fun a _ => Finset.sum_congr rfl fun b _ => ?_)
        rw [if_pos hrc, (kernel_entries h f m.points lid (fun _ => ()) _ (hshape lid hl) _).2 a b]
        by_cases q1 : lid.getD a 0 = r <;> by_cases q2 : lid.getD b 0 = c <;> simp only [q1, q2, and_self, and_true, true_and, false_and, and_false, if_true, if_false]
      · rw [if_neg fun e => hrc ⟨(hiff _ g1 _ hv).1 e.1, (hiff _ g1' _ hw).1 e.2⟩]
        simp [if_neg hrc]
    rw [Finset.sum_congr rfl fun r hr' => Finset.sum_congr rfl (e1 r hr')]
    rw [Finset.sum_congr rfl fun r _ => sum_list_swap _ m.cells _, sum_list_swap, ← htri, List.map_map]
    refine congrArg List.sum (List.map_congr_left fun lid hl => ?_)
    have e2 : ∀ X : Nat → Nat → Fin 3 → Fin 3 → ℝ, (∑ r ∈ Finset.range m.points.length, ∑ c ∈ Finset.range m.points.length,
        ∑ a : Fin 3, ∑ b : Fin 3, if lid.getD a 0 = r then (if lid.getD b 0 = c then X r c a b else 0) else 0)
        = ∑ a : Fin 3, ∑ b : Fin 3, X (lid.getD a 0) (lid.getD b 0) a b := by
      intro X
      have s1 : ∀ r ∈ Finset.range m.points.length, (∑ c ∈ Finset.range m.points.length,
          ∑ a : Fin 3, ∑ b : Fin 3, if lid.getD a 0 = r then (if lid.getD b 0 = c then X r c a b else 0) else 0)
          = ∑ a : Fin 3, if lid.getD a 0 = r then ∑ b : Fin 3, X r (lid.getD b 0) a b else 0 := by
        intro r _
        rw [Finset.sum_comm]
        refine Finset.sum_congr rfl fun a _ => ?_
        rw [Finset.sum_comm]
        by_cases q : lid.getD a 0 = r
        · simp only [if_pos q]
          refine Finset.sum_congr rfl fun b _ => ?_
          rw [Finset.sum_ite_eq, if_pos (Finset.mem_range.2 (hlidlt lid hl b))]
        · simp only [if_neg q, Finset.sum_const_zero]
      rw [Finset.sum_congr rfl s1, Finset.sum_comm]
      refine Finset.sum_congr rfl fun a _ => ?_
      rw [Finset.sum_ite_eq, if_pos (Finset.mem_range.2 (hlidlt lid hl a))]
    rw [e2, hcorner lid hl, hval lid hl]
    rfl

end Mpi
end JaxFem
