import Verif.Thm.C01_Dofs
import Verif.Thm.C02_Batch
import Verif.Spec.Assembly

/-! Helper lemmas about scatter-add assembly. -/

namespace JaxFem

universe u v w
variable {K : Type u} {D : Type v} {F : Type v} {β : Type w}

section scatter
variable [AddCommMonoid K]

theorem zipWith_add_getD (a b : List K) (h : a.length = b.length) (c : Nat) :
    (List.zipWith (· + ·) a b).getD c 0 = a.getD c 0 + b.getD c 0 := by
  induction a generalizing b c with
  | nil =>
    cases b with
    | nil => simp
    | cons y b => simp at h
  | cons x a ih =>
    cases b with
    | nil => simp at h
    | cons y b =>
      cases c with
      | zero => simp
      | succ c =>
        simp only [List.zipWith_cons_cons, List.getD_cons_succ]
        exact ih b (by simpa using h) c

theorem getD_modify {α : Type u} (l : List α) (k n : Nat) (f : α → α) (d : α) (hk : k < l.length) :
    (l.modify k f).getD n d = if k = n then f (l.getD n d) else l.getD n d := by
  simp only [List.getD_eq_getElem?_getD, List.getElem?_modify]
  by_cases h : k = n
  · subst h; simp [List.getElem?_eq_getElem hk]
  · simp [h]

theorem scatterAddRows_shape (v : Nat) (ops : List (Nat × List K)) (res : List (List K))
    (hr : ∀ r ∈ res, r.length = v) (ho : ∀ p ∈ ops, p.2.length = v) :
    (scatterAddRows res ops).length = res.length ∧
      ∀ r ∈ scatterAddRows res ops, r.length = v := by
  induction ops generalizing res with
  | nil => exact ⟨rfl, hr⟩
  | cons p ops ih =>
    have hp := ho p (by simp)
    have hr' : ∀ r ∈ res.modify p.1 (fun old => List.zipWith (· + ·) old p.2), r.length = v := by
      intro r hm
      obtain ⟨k, hk, rfl⟩ := List.mem_iff_getElem.1 hm
      rw [List.length_modify] at hk
      rw [List.getElem_modify]
      split
      · simp [hr _ (List.getElem_mem hk), hp]
      · exact hr _ (List.getElem_mem hk)
    have := ih _ hr' (fun q hq => ho q (by simp [hq]))
    simpa [scatterAddRows] using this

theorem scatterAddRows_entry (v : Nat) (ops : List (Nat × List K)) (res : List (List K))
    (hr : ∀ r ∈ res, r.length = v) (ho : ∀ p ∈ ops, p.2.length = v ∧ p.1 < res.length)
    (n c : Nat) :
    ((scatterAddRows res ops).getD n []).getD c 0
      = (res.getD n []).getD c 0
        + (ops.map fun p => if p.1 = n then p.2.getD c 0 else 0).sum := by
  induction ops generalizing res with
  | nil => simp [scatterAddRows]
  | cons p ops ih =>
    have hp := ho p (by simp)
    have sh := scatterAddRows_shape v [p] res hr (by simpa using hp.1)
    have step := ih (scatterAddRows res [p]) sh.2
      (fun q hq => ⟨(ho q (by simp [hq])).1, by rw [sh.1]; exact (ho q (by simp [hq])).2⟩)
    have e : scatterAddRows res (p :: ops) = scatterAddRows (scatterAddRows res [p]) ops := rfl
    rw [e, step, List.map_cons, List.sum_cons, ← add_assoc]
    congr 1
    simp only [scatterAddRows, List.foldl_cons, List.foldl_nil]
    rw [getD_modify _ _ _ _ _ hp.2]
    by_cases h : p.1 = n
    · rw [if_pos h, if_pos h, zipWith_add_getD]
      rw [hp.1, List.getD_eq_getElem _ _ (h ▸ hp.2)]
      exact hr _ (List.getElem_mem _)
    · rw [if_neg h, if_neg h, add_zero]

theorem flatMap_zip_flatMap {α β γ δ : Type*} (f : α → List γ) (g : β → List δ) (xs : List α)
    (ys : List β) (hl : xs.length = ys.length)
    (h : ∀ p ∈ xs.zip ys, (f p.1).length = (g p.2).length) :
    (xs.flatMap f).zip (ys.flatMap g) = (xs.zip ys).flatMap fun p => (f p.1).zip (g p.2) := by
  induction xs generalizing ys with
  | nil => simp
  | cons x xs ih =>
    cases ys with
    | nil => simp at hl
    | cons y ys =>
      simp only [List.flatMap_cons, List.zip_cons_cons]
      rw [List.zip_append (h (x, y) (by simp)), ih ys (by simpa using hl)
        fun p hp => h p (by simp [hp])]

theorem sum_map_flatMap {α γ : Type*} (l : List α) (f : α → List γ) (g : γ → K) :
    ((l.flatMap f).map g).sum = (l.map fun x => ((f x).map g).sum).sum := by
  induction l with
  | nil => simp
  | cons x l ih => simp [ih]

theorem sum_zip_getD {γ δ : Type*} (xs : List γ) (ys : List δ) (dx : γ) (dy : δ)
    (h : xs.length = ys.length) (g : γ × δ → K) :
    ((xs.zip ys).map g).sum = ∑ a ∈ Finset.range xs.length, g (xs.getD a dx, ys.getD a dy) := by
  rw [← list_sum_range]
  congr 1
  refine List.ext_getElem (by simp [h]) fun k h1 h2 => ?_
  simp only [List.length_map, List.length_zip, h, min_self] at h1
  simp [h1, h]

theorem localPos_eq (fes : List FE) (i a c : Nat) (hi : i < fes.length) :
    localPos fes i a c = blockStart (cellShapes fes) i + (fes[i].vec * a + c) := by
  have : (fes.map FE.vec).getD i 0 = fes[i].vec := by
    simp [List.getD_eq_getElem?_getD, List.getElem?_eq_getElem hi]
  rw [localPos, this]
  simp only [blockStart, totalSize, cellShapes, ← List.map_take, List.map_map]
  have e : ((fun p : Nat × Nat => p.1 * p.2) ∘ fun fe : FE => (fe.numNodes, fe.vec))
      = fun fe => fe.numNodes * fe.vec := rfl
  rw [e]; ring

theorem localSize_eq (fes : List FE) : localSize fes = totalSize (cellShapes fes) := by
  simp [localSize, totalSize, cellShapes, Function.comp_def]

theorem nodeOf_eq (fes : List FE) (i e a : Nat) (hi : i < fes.length) :
    nodeOf fes i e a = (fes[i].cells.getD e []).getD a 0 := by
  simp [nodeOf, List.getD_eq_getElem?_getD, List.getElem?_eq_getElem hi]

theorem numNodes_getD (fes : List FE) (i : Nat) (hi : i < fes.length) :
    (fes.map FE.numNodes).getD i 0 = fes[i].numNodes := by
  simp [List.getD_eq_getElem?_getD, List.getElem?_eq_getElem hi]

/-- Scatter of variable `i` for a list of cells `es` with weak-form values `weak`. -/
theorem scatterVar_spec (fes : List FE) (hm : WFMesh fes) (i : Nat) (hi : i < fes.length)
    (res : List (List K)) (hl : res.length = fes[i].numTotalNodes)
    (hr : ∀ r ∈ res, r.length = fes[i].vec) (es : List Nat) (hes : ∀ e ∈ es, e < numCells fes)
    (weak : List (List K)) (hlen : es.length = weak.length)
    (hw : ∀ w ∈ weak, w.length = localSize fes) :
    let out := scatterVar fes i res (es.map (cellNodes fes)) weak
    out.length = fes[i].numTotalNodes ∧ (∀ r ∈ out, r.length = fes[i].vec) ∧
      ∀ n c, c < fes[i].vec → (out.getD n []).getD c 0
        = (res.getD n []).getD c 0 + nodalSum fes (es.zip weak) i n c := by
  have hi' : i < (cellShapes fes).length := by simpa [cellShapes] using hi
  have hsh := cellShapes_getD fes i hi
  have hrows : ∀ w ∈ weak, ((unravelSol (cellShapes fes) w).getD i []).length = fes[i].numNodes ∧
      ∀ r ∈ (unravelSol (cellShapes fes) w).getD i [], r.length = fes[i].vec := by
    intro w hw'
    have := ((hasShapes_iff _ _).1 (unravelSol_hasShapes (cellShapes fes) w
      (by rw [hw w hw', localSize_eq]))).2 i hi'
    rw [hsh] at this
    exact this
  have hnodes : ∀ e ∈ es, ((cellNodes fes e).getD i []).length = fes[i].numNodes := by
    intro e he
    rw [cellNodes_getD fes e i hi, cell_length hm hi (hes e he)]
  set ops := ((es.map (cellNodes fes)).flatMap fun x => x.getD i []).zip
      (weak.flatMap fun w => (unravelSol (cellShapes fes) w).getD i []) with hops
  have hops' : ops = (es.zip weak).flatMap fun p =>
      ((cellNodes fes p.1).getD i []).zip ((unravelSol (cellShapes fes) p.2).getD i []) := by
    rw [hops, List.flatMap_map]
    refine flatMap_zip_flatMap _ _ es weak hlen fun p hp => ?_
    obtain ⟨h1, h2⟩ := List.of_mem_zip hp
    rw [hnodes _ h1, (hrows _ h2).1]
  have ho : ∀ p ∈ ops, p.2.length = fes[i].vec ∧ p.1 < res.length := by
    intro p hp
    rw [hops', List.mem_flatMap] at hp
    obtain ⟨⟨e, w⟩, hew, hp⟩ := hp
    obtain ⟨h1, h2⟩ := List.of_mem_zip hew
    obtain ⟨h3, h4⟩ := List.of_mem_zip hp
    refine ⟨(hrows _ h2).2 _ h4, ?_⟩
    rw [hl]
    rw [cellNodes_getD fes e i hi] at h3
    exact ((hm _ (List.getElem_mem hi)).2 _ (cell_mem hm hi (hes e h1))).2 _ h3
  have s1 := scatterAddRows_shape fes[i].vec ops res hr (fun p hp => (ho p hp).1)
  refine ⟨s1.1.trans hl, s1.2, fun n c hc => ?_⟩
  have s2 := scatterAddRows_entry fes[i].vec ops res hr ho n c
  have e0 : scatterVar fes i res (es.map (cellNodes fes)) weak = scatterAddRows res ops := rfl
  rw [e0, s2, hops', sum_map_flatMap, nodalSum]
  congr 2
  refine List.map_congr_left fun p hp => ?_
  obtain ⟨h1, h2⟩ := List.of_mem_zip hp
  rw [sum_zip_getD _ _ 0 [] (by rw [hnodes _ h1, (hrows _ h2).1]), hnodes _ h1,
    numNodes_getD fes i hi]
  refine Finset.sum_congr rfl fun a ha => ?_
  have ha' := Finset.mem_range.1 ha
  simp only
  rw [cellNodes_getD fes p.1 i hi, ← nodeOf_eq fes i p.1 a hi,
    unravelSol_getD (cellShapes fes) p.2 (by rw [hw _ h2, localSize_eq]) i a c 0 hi'
      (by rw [hsh]; exact ha') (by rw [hsh]; exact hc), hsh, localPos_eq fes i a c hi]

theorem nodalSum_append (fes : List FE) (l1 l2 : List (Nat × List K)) (i n c : Nat) :
    nodalSum fes (l1 ++ l2) i n c = nodalSum fes l1 i n c + nodalSum fes l2 i n c := by
  simp [nodalSum]

theorem nodalSum_nil (fes : List FE) (i n c : Nat) :
    nodalSum fes ([] : List (Nat × List K)) i n c = 0 := by simp [nodalSum]

/-- The terms of a residual: one per cell, then one per face. -/
def resTerms (fes : List FE) (bs : List BoundaryInds) (weak : List (List K))
    (weakFaces : List (List (List K))) : List (Nat × List K) :=
  (List.range (numCells fes)).zip weak ++
    (bs.zip weakFaces).flatMap fun bw => (bw.1.map Prod.fst).zip bw.2

theorem getD_mapIdx {α γ : Type*} (f : Nat → α → γ) (l : List α) (i : Nat) (d : α) (d' : γ)
    (hi : i < l.length) : (l.mapIdx f).getD i d' = f i (l.getD i d) := by
  simp [List.getD_eq_getElem?_getD, List.getElem?_eq_getElem hi]

/-- Shape and entries of the assembled residual. -/
theorem residualHelper_spec (fes : List FE) (hm : WFMesh fes) (bs : List BoundaryInds)
    (hb : WFBoundary fes bs) (weak : List (List K)) (hwl : weak.length = numCells fes)
    (hw : ∀ w ∈ weak, w.length = localSize fes) (weakFaces : List (List (List K)))
    (hf : ∀ bw ∈ bs.zip weakFaces, bw.2.length = bw.1.length ∧
      ∀ w ∈ bw.2, w.length = localSize fes) :
    HasShapes (solShapes fes) (residualHelper fes bs weak weakFaces) ∧
      ∀ i (hi : i < fes.length), ∀ n c, c < fes[i].vec →
        at3 (residualHelper fes bs weak weakFaces) i n c
          = nodalSum fes (resTerms fes bs weak weakFaces) i n c := by
  set res0 : List (List (List K)) :=
    fes.map fun fe => List.replicate fe.numTotalNodes (List.replicate fe.vec (0 : K)) with hres0
  set res1 := res0.mapIdx fun i r =>
    scatterVar fes i r ((List.range (numCells fes)).map (cellNodes fes)) weak with hres1
  have hlen1 : res1.length = fes.length := by simp [res1, res0]
  have inv1 : ∀ i (hi : i < fes.length),
      (res1.getD i []).length = fes[i].numTotalNodes ∧ (∀ r ∈ res1.getD i [], r.length = fes[i].vec) ∧
      ∀ n c, c < fes[i].vec → ((res1.getD i []).getD n []).getD c 0
        = nodalSum fes ((List.range (numCells fes)).zip weak) i n c := by
    intro i hi
    have e0 : res0.getD i [] = List.replicate fes[i].numTotalNodes (List.replicate fes[i].vec 0) := by
      simp [res0, List.getD_eq_getElem?_getD, List.getElem?_eq_getElem hi]
    have e1 : res1.getD i [] = scatterVar fes i (res0.getD i [])
        ((List.range (numCells fes)).map (cellNodes fes)) weak := by
      rw [hres1, getD_mapIdx _ _ _ [] _ (by simpa [res0] using hi)]
    have := scatterVar_spec fes hm i hi (res0.getD i []) (by rw [e0, List.length_replicate])
      (fun r hr => by rw [e0] at hr; rw [List.eq_of_mem_replicate hr]; simp)
      (List.range (numCells fes)) (fun e he => List.mem_range.1 he) weak (by simp [hwl]) hw
    rw [← e1] at this
    refine ⟨this.1, this.2.1, fun n c hc => ?_⟩
    rw [this.2.2 n c hc, e0]
    have : ((List.replicate fes[i].numTotalNodes (List.replicate fes[i].vec (0 : K))).getD n []).getD c 0
        = 0 := by
      simp only [List.getD_eq_getElem?_getD, List.getElem?_replicate]
      split <;> simp [List.getElem?_replicate]
      split <;> simp
    rw [this, zero_add]
  -- fold over the boundary subsets
  have fold : ∀ (L : List (BoundaryInds × List (List K)))
      (_ : ∀ bw ∈ L, (∀ p ∈ bw.1, p.1 < numCells fes) ∧ bw.2.length = bw.1.length ∧
        ∀ w ∈ bw.2, w.length = localSize fes)
      (T : List (Nat × List K)) (res : List (List (List K))) (_ : res.length = fes.length)
      (_ : ∀ i (hi : i < fes.length),
        (res.getD i []).length = fes[i].numTotalNodes ∧ (∀ r ∈ res.getD i [], r.length = fes[i].vec) ∧
        ∀ n c, c < fes[i].vec → ((res.getD i []).getD n []).getD c 0 = nodalSum fes T i n c),
      let out := L.foldl (fun res bw =>
        res.mapIdx fun i r => scatterVar fes i r (bw.1.map fun p => cellNodes fes p.1) bw.2) res
      out.length = fes.length ∧ ∀ i (hi : i < fes.length),
        (out.getD i []).length = fes[i].numTotalNodes ∧ (∀ r ∈ out.getD i [], r.length = fes[i].vec) ∧
        ∀ n c, c < fes[i].vec → ((out.getD i []).getD n []).getD c 0
          = nodalSum fes (T ++ L.flatMap fun bw => (bw.1.map Prod.fst).zip bw.2) i n c := by
    intro L
    induction L with
    | nil => intro _ T res h1 h2; simpa using ⟨h1, h2⟩
    | cons bw L ih =>
      intro hL T res h1 h2
      have hbw := hL bw (by simp)
      have := ih (fun q hq => hL q (by simp [hq])) (T ++ (bw.1.map Prod.fst).zip bw.2)
        (res.mapIdx fun i r => scatterVar fes i r (bw.1.map fun p => cellNodes fes p.1) bw.2)
        (by simpa using h1) (by
          intro i hi
          rw [getD_mapIdx _ _ _ [] _ (by omega)]
          obtain ⟨g1, g2, g3⟩ := h2 i hi
          have e : (bw.1.map fun p => cellNodes fes p.1)
              = (bw.1.map Prod.fst).map (cellNodes fes) := by simp
          rw [e]
          have s := scatterVar_spec fes hm i hi (res.getD i []) g1 g2 (bw.1.map Prod.fst)
            (fun e he => by
              obtain ⟨p, hp, rfl⟩ := List.mem_map.1 he
              exact hbw.1 p hp) bw.2 (by simp [hbw.2.1]) hbw.2.2
          refine ⟨s.1, s.2.1, fun n c hc => ?_⟩
          rw [s.2.2 n c hc, g3 n c hc, nodalSum_append])
      simpa [List.append_assoc] using this
  have hL : ∀ bw ∈ bs.zip weakFaces, (∀ p ∈ bw.1, p.1 < numCells fes) ∧
      bw.2.length = bw.1.length ∧ ∀ w ∈ bw.2, w.length = localSize fes := by
    intro bw hbw
    exact ⟨fun p hp => hb _ (List.of_mem_zip hbw).1 p hp, hf bw hbw⟩
  obtain ⟨o1, o2⟩ := fold (bs.zip weakFaces) hL _ res1 hlen1 inv1
  have eout : residualHelper fes bs weak weakFaces = (bs.zip weakFaces).foldl (fun res bw =>
        res.mapIdx fun i r => scatterVar fes i r (bw.1.map fun p => cellNodes fes p.1) bw.2) res1 :=
    rfl
  rw [eout]
  refine ⟨(hasShapes_iff _ _).2 ⟨by rw [o1]; simp [solShapes], fun i hi => ?_⟩, fun i hi n c hc => ?_⟩
  · have hi' : i < fes.length := by simpa [solShapes] using hi
    rw [solShapes_getD fes i hi']
    exact ⟨(o2 i hi').1, (o2 i hi').2.1⟩
  · exact (o2 i hi).2.2 n c hc

end scatter

end JaxFem
