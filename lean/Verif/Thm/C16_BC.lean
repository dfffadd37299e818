import Verif.Thm.BC

/-!
# C16, C19: row elimination of vectors
-/

namespace JaxFem

universe u
variable {K : Type u} [Ring K]

/-! ### Property theorems -/

/-- **C16 (who wins).** Every degree of freedom is either free or has exactly one prescribed value,
the one of the last entry that mentions it. -/
theorem C16_prescribed_unique (fes : List FE) (bcs : List (List (BCEntry K))) (h : WFBC fes bcs)
    (k : Nat) (hk : k < totalDofs fes) : ∃! o, Prescribed fes bcs k o := by
  obtain ⟨o, ho⟩ := prescribed_exists fes bcs h k hk
  exact ⟨o, ho, fun o' ho' => prescribed_unique fes bcs h k o' o ho' ho⟩

/-- **C16 (residual).** The residual with boundary conditions has the same length, equals the
unconstrained residual at free degrees of freedom and `u - scale * u_b` at constrained ones. -/
theorem C16_residual (fes : List FE) (bcs : List (List (BCEntry K))) (h : WFBC fes bcs) (scale : K)
    (res dofs : List K) (hr : res.length = totalDofs fes) (hd : dofs.length = totalDofs fes) :
    (applyBcVec fes bcs scale res dofs).length = totalDofs fes ∧
    ∀ k, k < totalDofs fes →
      (Prescribed fes bcs k none → (applyBcVec fes bcs scale res dofs).getD k 0 = res.getD k 0) ∧
      (∀ v, Prescribed fes bcs k (some v) →
        (applyBcVec fes bcs scale res dofs).getD k 0 = dofs.getD k 0 - v * scale) := by
  rw [← totalSize_solShapes] at hr hd
  have sR := unravelSol_hasShapes _ _ hr
  have sD := unravelSol_hasShapes _ _ hd
  have lR : (unravelSol (solShapes fes) res).length = fes.length := by
    rw [sR.length_eq]; simp [solShapes]
  have lD : (unravelSol (solShapes fes) dofs).length = fes.length := by
    rw [sD.length_eq]; simp [solShapes]
  have := flat_entries fes bcs h (unravelSol (solShapes fes) res) (hA := sR)
    (fun i res e => at2Add (at2Set res e.nodes e.comps
      (at2Get ((unravelSol (solShapes fes) dofs).getD i []) e.nodes e.comps))
        e.nodes e.comps (e.vals.map fun v => -v * scale))
    (R := List.zipWith (fun (rs : List (List K) × List (List K)) (es : List (BCEntry K)) =>
      es.foldl (fun res e =>
        at2Add (at2Set res e.nodes e.comps (at2Get rs.2 e.nodes e.comps)) e.nodes e.comps
        (e.vals.map fun v => -v * scale)) rs.1)
      ((unravelSol (solShapes fes) res).zip (unravelSol (solShapes fes) dofs)) bcs)
    (by simp [lR, lD, h.len])
    (fun i hi => by
      rw [getD_zipWith _ _ _ i ([], []) [] [] (by simp [lR, lD, hi]) (by rw [h.len]; exact hi),
        List.zip, getD_zipWith _ _ _ i [] [] ([], []) (by rw [lR]; exact hi) (by rw [lD]; exact hi)])
    (fun k v => dofs.getD k 0 - v * scale)
    (fun i fe es hfe hes e he => by
      have st := step_residual fe.numTotalNodes fe.vec scale
        ((unravelSol (solShapes fes) dofs).getD i []) e (h.entry hes e he)
      refine ⟨st.shape, fun a ha n c hn hc v hv => ?_, st.miss⟩
      rw [st.hit a ha n c hn hc v hv, ← ravel_at fes _ sD hfe hn hc, ravelSol_unravelSol _ _ hd])
  rw [ravelSol_unravelSol _ _ hr] at this
  exact this

omit [Ring K] in
/-- **C16 (assign_bc).** Constrained entries get their prescribed value, the others are kept. -/
theorem C16_assign [Zero K] (fes : List FE) (bcs : List (List (BCEntry K))) (h : WFBC fes bcs)
    (dofs : List K) (hd : dofs.length = totalDofs fes) :
    (assignBc fes bcs dofs).length = totalDofs fes ∧
    ∀ k, k < totalDofs fes →
      (Prescribed fes bcs k none → (assignBc fes bcs dofs).getD k 0 = dofs.getD k 0) ∧
      (∀ v, Prescribed fes bcs k (some v) → (assignBc fes bcs dofs).getD k 0 = v) := by
  rw [← totalSize_solShapes] at hd
  have sD := unravelSol_hasShapes _ _ hd
  have lD : (unravelSol (solShapes fes) dofs).length = fes.length := by
    rw [sD.length_eq]; simp [solShapes]
  have := flat_entries fes bcs h (unravelSol (solShapes fes) dofs) (hA := sD)
    (fun _ sol e => at2Set sol e.nodes e.comps e.vals)
    (R := forEntries (fun sol e => at2Set sol e.nodes e.comps e.vals)
      (unravelSol (solShapes fes) dofs) bcs)
    (by simp [forEntries, lD, h.len])
    (fun i hi => by
      rw [forEntries, getD_zipWith _ _ _ i [] [] [] (by rw [lD]; exact hi) (by rw [h.len]; exact hi)])
    (fun _ v => v)
    (fun i fe es hfe hes e he => step_assign _ _ e (h.entry hes e he))
  rw [ravelSol_unravelSol _ _ hd] at this
  exact this

omit [Ring K] in
theorem assignConst_spec [Zero K] (z : K) (fes : List FE) (bcs : List (List (BCEntry K))) (h : WFBC fes bcs)
    (dofs : List K) (hd : dofs.length = totalDofs fes) (R : List K)
    (hR : R = ravelSol (forEntries (fun sol e => at2Set sol e.nodes e.comps (e.nodes.map fun _ => z))
      (unravelSol (solShapes fes) dofs) bcs)) :
    R.length = totalDofs fes ∧
    ∀ k, k < totalDofs fes →
      (Prescribed fes bcs k none → R.getD k 0 = dofs.getD k 0) ∧
      (∀ v, Prescribed fes bcs k (some v) → R.getD k 0 = z) := by
  subst hR
  rw [← totalSize_solShapes] at hd
  have sD := unravelSol_hasShapes _ _ hd
  have lD : (unravelSol (solShapes fes) dofs).length = fes.length := by
    rw [sD.length_eq]; simp [solShapes]
  have := flat_entries fes bcs h (unravelSol (solShapes fes) dofs) (hA := sD)
    (fun _ sol e => at2Set sol e.nodes e.comps (e.nodes.map fun _ => z))
    (R := forEntries (fun sol e => at2Set sol e.nodes e.comps (e.nodes.map fun _ => z))
      (unravelSol (solShapes fes) dofs) bcs)
    (by simp [forEntries, lD, h.len])
    (fun i hi => by
      rw [forEntries, getD_zipWith _ _ _ i [] [] [] (by rw [lD]; exact hi) (by rw [h.len]; exact hi)])
    (fun _ _ => z)
    (fun i fe es hfe hes e he => step_const _ _ z e (h.entry hes e he))
  rw [ravelSol_unravelSol _ _ hd] at this
  exact this

/-- **C16 (assign_zeros_bc, assign_ones_bc).** -/
theorem C16_assign_constants (fes : List FE) (bcs : List (List (BCEntry K))) (h : WFBC fes bcs)
    (dofs : List K) (hd : dofs.length = totalDofs fes) :
    ((assignZerosBc fes bcs dofs).length = totalDofs fes ∧ ∀ k, k < totalDofs fes →
      (Prescribed fes bcs k none → (assignZerosBc fes bcs dofs).getD k 0 = dofs.getD k 0) ∧
      (∀ v, Prescribed fes bcs k (some v) → (assignZerosBc fes bcs dofs).getD k 0 = 0)) ∧
    ((assignOnesBc fes bcs dofs).length = totalDofs fes ∧ ∀ k, k < totalDofs fes →
      (Prescribed fes bcs k none → (assignOnesBc fes bcs dofs).getD k 0 = dofs.getD k 0) ∧
      (∀ v, Prescribed fes bcs k (some v) → (assignOnesBc fes bcs dofs).getD k 0 = 1)) :=
  ⟨assignConst_spec 0 fes bcs h dofs hd _ rfl, assignConst_spec 1 fes bcs h dofs hd _ rfl⟩

/-- **C16 (copy_bc).** Constrained entries are copied, the others are zero. -/
theorem C16_copy (fes : List FE) (bcs : List (List (BCEntry K))) (h : WFBC fes bcs)
    (dofs : List K) (hd : dofs.length = totalDofs fes) :
    (copyBc fes bcs dofs).length = totalDofs fes ∧
    ∀ k, k < totalDofs fes →
      (Prescribed fes bcs k none → (copyBc fes bcs dofs).getD k 0 = 0) ∧
      (∀ v, Prescribed fes bcs k (some v) → (copyBc fes bcs dofs).getD k 0 = dofs.getD k 0) := by
  rw [← totalSize_solShapes] at hd
  have hd0 : (dofs.map fun _ => (0 : K)).length = totalSize (solShapes fes) := by simpa using hd
  have sD := unravelSol_hasShapes _ _ hd
  have s0 := unravelSol_hasShapes _ _ hd0
  have lD : (unravelSol (solShapes fes) dofs).length = fes.length := by
    rw [sD.length_eq]; simp [solShapes]
  have l0 : (unravelSol (solShapes fes) (dofs.map fun _ => (0 : K))).length = fes.length := by
    rw [s0.length_eq]; simp [solShapes]
  obtain ⟨h1, h2⟩ := flat_entries fes bcs h (unravelSol (solShapes fes) (dofs.map fun _ => (0 : K))) (hA := s0)
    (fun i new e => at2Set new e.nodes e.comps
      (at2Get ((unravelSol (solShapes fes) dofs).getD i []) e.nodes e.comps))
    (R := List.zipWith (fun (ns : List (List K) × List (List K)) (es : List (BCEntry K)) =>
      es.foldl (fun new e => at2Set new e.nodes e.comps (at2Get ns.2 e.nodes e.comps)) ns.1)
      ((unravelSol (solShapes fes) (dofs.map fun _ => (0 : K))).zip
        (unravelSol (solShapes fes) dofs)) bcs)
    (by simp only [List.length_zipWith, List.length_zip, l0, lD, h.len]; omega)
    (fun i hi => by
      rw [getD_zipWith _ _ _ i ([], []) [] [] (by simp only [List.length_zip, l0, lD]; omega)
        (by rw [h.len]; exact hi),
        List.zip, getD_zipWith _ _ _ i [] [] ([], []) (by rw [l0]; exact hi) (by rw [lD]; exact hi)])
    (fun k _ => dofs.getD k 0)
    (fun i fe es hfe hes e he => by
      have st := step_copy fe.numTotalNodes fe.vec
        ((unravelSol (solShapes fes) dofs).getD i []) e (h.entry hes e he)
      refine ⟨st.shape, fun a ha n c hn hc v hv => ?_, st.miss⟩
      rw [st.hit a ha n c hn hc v hv, ← ravel_at fes _ sD hfe hn hc, ravelSol_unravelSol _ _ hd])
  refine ⟨h1, fun k hk => ⟨fun hp => ?_, (h2 k hk).2⟩⟩
  have := (h2 k hk).1 hp
  rw [ravelSol_unravelSol _ _ hd0] at this
  refine Eq.trans this ?_
  rw [List.map_const', List.getD_eq_getElem?_getD]
  by_cases hlt : k < dofs.length
  · rw [List.getElem?_replicate_of_lt hlt]; rfl
  · rw [List.getElem?_eq_none (by simpa using hlt)]; rfl

/-! ### C19 -/

/-- Two vectors of full length agree if they agree at free and at constrained entries. -/
theorem ext_prescribed (fes : List FE) (bcs : List (List (BCEntry K))) (h : WFBC fes bcs)
    (x y : List K) (hx : x.length = totalDofs fes) (hy : y.length = totalDofs fes)
    (hf : ∀ k, k < totalDofs fes → Prescribed fes bcs k none → x.getD k 0 = y.getD k 0)
    (hc : ∀ k, k < totalDofs fes → ∀ v, Prescribed fes bcs k (some v) → x.getD k 0 = y.getD k 0) :
    x = y := by
  refine List.ext_getElem (by rw [hx, hy]) fun k h1 h2 => ?_
  have hk : k < totalDofs fes := by rw [← hx]; exact h1
  have : x.getD k 0 = y.getD k 0 := by
    obtain ⟨o, ho⟩ := prescribed_exists fes bcs h k hk
    cases o with
    | none => exact hf k hk ho
    | some v => exact hc k hk v ho
  rwa [List.getD_eq_getElem _ _ h1, List.getD_eq_getElem _ _ h2] at this

/-- **C19 (idempotence).** Applying any of the four functions twice is the same as once. -/
theorem C19_idempotent (fes : List FE) (bcs : List (List (BCEntry K))) (h : WFBC fes bcs)
    (x : List K) (hx : x.length = totalDofs fes) :
    assignBc fes bcs (assignBc fes bcs x) = assignBc fes bcs x ∧
    assignZerosBc fes bcs (assignZerosBc fes bcs x) = assignZerosBc fes bcs x ∧
    assignOnesBc fes bcs (assignOnesBc fes bcs x) = assignOnesBc fes bcs x ∧
    copyBc fes bcs (copyBc fes bcs x) = copyBc fes bcs x := by
  obtain ⟨a1, a2⟩ := C16_assign fes bcs h x hx
  obtain ⟨b1, b2⟩ := C16_assign fes bcs h _ a1
  obtain ⟨⟨z1, z2⟩, o1, o2⟩ := C16_assign_constants fes bcs h x hx
  obtain ⟨⟨y1, y2⟩, -⟩ := C16_assign_constants fes bcs h _ z1
  obtain ⟨-, p1, p2⟩ := C16_assign_constants fes bcs h _ o1
  obtain ⟨c1, c2⟩ := C16_copy fes bcs h x hx
  obtain ⟨d1, d2⟩ := C16_copy fes bcs h _ c1
  refine ⟨ext_prescribed fes bcs h _ _ b1 a1 (fun k hk hp => (b2 k hk).1 hp) fun k hk v hp => ?_,
    ext_prescribed fes bcs h _ _ y1 z1 (fun k hk hp => (y2 k hk).1 hp) fun k hk v hp => ?_,
    ext_prescribed fes bcs h _ _ p1 o1 (fun k hk hp => (p2 k hk).1 hp) fun k hk v hp => ?_,
    ext_prescribed fes bcs h _ _ d1 c1 (fun k hk hp => ?_) fun k hk v hp => (d2 k hk).2 v hp⟩
  · rw [(b2 k hk).2 v hp, (a2 k hk).2 v hp]
  · rw [(y2 k hk).2 v hp, (z2 k hk).2 v hp]
  · rw [(p2 k hk).2 v hp, (o2 k hk).2 v hp]
  · rw [(d2 k hk).1 hp, (c2 k hk).1 hp]

/-- **C19 (compositions).** The last assignment wins whatever was assigned before; copying an
assigned vector is assigning into zero; a vector is the sum of its copied part and of its zeroed
part. -/
theorem C19_compose (fes : List FE) (bcs : List (List (BCEntry K))) (h : WFBC fes bcs)
    (x : List K) (hx : x.length = totalDofs fes) :
    assignBc fes bcs (assignZerosBc fes bcs x) = assignBc fes bcs x ∧
    assignBc fes bcs (assignOnesBc fes bcs x) = assignBc fes bcs x ∧
    assignZerosBc fes bcs (assignBc fes bcs x) = assignZerosBc fes bcs x ∧
    copyBc fes bcs (assignBc fes bcs x)
      = assignBc fes bcs (List.replicate (totalDofs fes) 0) ∧
    List.zipWith (· + ·) (copyBc fes bcs x) (assignZerosBc fes bcs x) = x := by
  obtain ⟨a1, a2⟩ := C16_assign fes bcs h x hx
  obtain ⟨⟨z1, z2⟩, o1, o2⟩ := C16_assign_constants fes bcs h x hx
  obtain ⟨c1, c2⟩ := C16_copy fes bcs h x hx
  obtain ⟨az1, az2⟩ := C16_assign fes bcs h _ z1
  obtain ⟨ao1, ao2⟩ := C16_assign fes bcs h _ o1
  obtain ⟨⟨za1, za2⟩, -⟩ := C16_assign_constants fes bcs h _ a1
  obtain ⟨ca1, ca2⟩ := C16_copy fes bcs h _ a1
  obtain ⟨r1, r2⟩ := C16_assign fes bcs h (List.replicate (totalDofs fes) 0) (by simp)
  have hrep : ∀ k < totalDofs fes, (List.replicate (totalDofs fes) (0 : K)).getD k 0 = 0 := by
    intro k hk
    rw [List.getD_eq_getElem _ _ (by simpa using hk), List.getElem_replicate]
  have hzip : ∀ k < totalDofs fes,
      (List.zipWith (· + ·) (copyBc fes bcs x) (assignZerosBc fes bcs x)).getD k 0
        = (copyBc fes bcs x).getD k 0 + (assignZerosBc fes bcs x).getD k 0 := fun k hk =>
    getD_zipWith _ _ _ k 0 0 0 (by rw [c1]; exact hk) (by rw [z1]; exact hk)
  refine ⟨ext_prescribed fes bcs h _ _ az1 a1 (fun k hk hp => ?_) fun k hk v hp => ?_,
    ext_prescribed fes bcs h _ _ ao1 a1 (fun k hk hp => ?_) fun k hk v hp => ?_,
    ext_prescribed fes bcs h _ _ za1 z1 (fun k hk hp => ?_) fun k hk v hp => ?_,
    ext_prescribed fes bcs h _ _ ca1 r1 (fun k hk hp => ?_) fun k hk v hp => ?_,
    ext_prescribed fes bcs h _ _ (by simp [c1, z1]) hx (fun k hk hp => ?_) fun k hk v hp => ?_⟩
  · rw [(az2 k hk).1 hp, (z2 k hk).1 hp, (a2 k hk).1 hp]
  · rw [(az2 k hk).2 v hp, (a2 k hk).2 v hp]
  · rw [(ao2 k hk).1 hp, (o2 k hk).1 hp, (a2 k hk).1 hp]
  · rw [(ao2 k hk).2 v hp, (a2 k hk).2 v hp]
  · rw [(za2 k hk).1 hp, (z2 k hk).1 hp, (a2 k hk).1 hp]
  · rw [(za2 k hk).2 v hp, (z2 k hk).2 v hp]
  · rw [(ca2 k hk).1 hp, (r2 k hk).1 hp, hrep k hk]
  · rw [(ca2 k hk).2 v hp, (a2 k hk).2 v hp, (r2 k hk).2 v hp]
  · rw [hzip k hk, (c2 k hk).1 hp, (z2 k hk).1 hp, zero_add]
  · rw [hzip k hk, (c2 k hk).2 v hp, (z2 k hk).2 v hp, add_zero]

/-- **C19 (frame and effect).** `assign_*` change only constrained entries and keep the length;
`copy_bc` changes only the free ones (to zero). -/
theorem C19_frame (fes : List FE) (bcs : List (List (BCEntry K))) (h : WFBC fes bcs)
    (x : List K) (hx : x.length = totalDofs fes) :
    (∀ y ∈ [assignBc fes bcs x, assignZerosBc fes bcs x, assignOnesBc fes bcs x],
      y.length = x.length ∧
      ∀ k, k < totalDofs fes → Prescribed fes bcs k none → y.getD k 0 = x.getD k 0) ∧
    (copyBc fes bcs x).length = x.length ∧
    ∀ k, k < totalDofs fes → (∃ v, Prescribed fes bcs k (some v)) →
      (copyBc fes bcs x).getD k 0 = x.getD k 0 := by
  obtain ⟨a1, a2⟩ := C16_assign fes bcs h x hx
  obtain ⟨⟨z1, z2⟩, o1, o2⟩ := C16_assign_constants fes bcs h x hx
  obtain ⟨c1, c2⟩ := C16_copy fes bcs h x hx
  refine ⟨fun y hy => ?_, by rw [c1, hx], fun k hk ⟨v, hv⟩ => (c2 k hk).2 v hv⟩
  simp only [List.mem_cons, List.not_mem_nil, or_false] at hy
  rcases hy with rfl | rfl | rfl
  · exact ⟨by rw [a1, hx], fun k hk hp => (a2 k hk).1 hp⟩
  · exact ⟨by rw [z1, hx], fun k hk hp => (z2 k hk).1 hp⟩
  · exact ⟨by rw [o1, hx], fun k hk hp => (o2 k hk).1 hp⟩

/-! Concrete case: two variables (3 nodes × 2 components, 2 nodes × 1 component); the first has two
overlapping entries. -/

/-- Example variables. -/
def exBcFes : List FE := [⟨3, 2, 2, [[0, 1], [1, 2]]⟩, ⟨2, 1, 2, [[0, 1], [1, 0]]⟩]

/-- Example boundary data: component 0 of node 1 is prescribed twice. -/
def exBcs : List (List (BCEntry Int)) :=
  [[⟨[0, 1], [0, 0], [5, 6]⟩, ⟨[1, 2], [0, 0], [7, 8]⟩], [⟨[1], [0], [9]⟩]]

example : WFBC exBcFes exBcs := by
  constructor
  · decide
  · decide
  · decide
  · decide
  · intro i fe es h1 h2
    match i with
    | 0 =>
      simp only [exBcFes, exBcs, List.getElem?_cons_zero, Option.some.injEq] at h1 h2
      subst h1 h2; decide
    | 1 =>
      simp only [exBcFes, exBcs, List.getElem?_cons_succ, List.getElem?_cons_zero,
        Option.some.injEq] at h1 h2
      subst h1 h2; decide
    | i + 2 => simp [exBcFes] at h1

example : applyBcVec exBcFes exBcs 2 [10, 11, 12, 13, 14, 15, 16, 17] [1, 2, 3, 4, 5, 6, 7, 8]
    = [1 - 10, 11, 3 - 14, 13, 5 - 16, 15, 16, 8 - 18] := by decide

example : assignBc exBcFes exBcs [1, 2, 3, 4, 5, 6, 7, 8] = [5, 2, 7, 4, 8, 6, 7, 9] ∧
    copyBc exBcFes exBcs [1, 2, 3, 4, 5, 6, 7, 8] = [1, 0, 3, 0, 5, 0, 0, 8] := by decide

end JaxFem
