import Verif.Thm.LumpedMass

/-!
# C79: the explicit dendrite step
-/

namespace JaxFem

namespace Dendrite

theorem zipWith_at2 (f : ℝ → ℝ → ℝ) (A B : List (List ℝ)) (n k : Nat) (hA : A.length = n)
    (hA' : ∀ r ∈ A, r.length = k) (hB : B.length = n) (hB' : ∀ r ∈ B, r.length = k) (a c : Nat)
    (ha : a < n) (hc : c < k) :
    ((List.zipWith (List.zipWith f) A B).getD a []).getD c 0
      = f ((A.getD a []).getD c 0) ((B.getD a []).getD c 0) := by
  have h1 : a < A.length := by omega
  have h2 : a < B.length := by omega
  rw [List.getD_eq_getElem (n := a) _ _ (by simp; omega), List.getElem_zipWith,
    List.getD_eq_getElem (n := a) A _ h1, List.getD_eq_getElem (n := a) B _ h2]
  have h3 := hA' _ (List.getElem_mem h1)
  have h4 := hB' _ (List.getElem_mem h2)
  rw [List.getD_eq_getElem _ _ (by simp; omega), List.getElem_zipWith,
    List.getD_eq_getElem _ _ (by omega), List.getD_eq_getElem _ _ (by omega)]

theorem zipWith_row (f : ℝ → ℝ → ℝ) (A B : List (List ℝ)) (n k : Nat) (hA : A.length = n)
    (hA' : ∀ r ∈ A, r.length = k) (hB : B.length = n) (hB' : ∀ r ∈ B, r.length = k) :
    (List.zipWith (List.zipWith f) A B).length = n ∧
      ∀ r ∈ List.zipWith (List.zipWith f) A B, r.length = k := by
  refine ⟨by simp [hA, hB], fun r hr => ?_⟩
  obtain ⟨i, hi, rfl⟩ := List.mem_iff_getElem.1 hr
  simp only [List.length_zipWith] at hi
  rw [List.getElem_zipWith, List.length_zipWith, hA' _ (List.getElem_mem _), hB' _ (List.getElem_mem _),
    Nat.min_self]

theorem treeMap2_shapes (f : ℝ → ℝ → ℝ) : ∀ (sh : List (Nat × Nat)) (A B : List (List (List ℝ))),
    HasShapes sh A → HasShapes sh B → HasShapes sh (treeMap2 f A B)
  | [], A, B, hA, hB => by
    have h1 := hA.length_eq
    have h2 := hB.length_eq
    simp only [List.length_nil, List.length_eq_zero_iff] at h1 h2
    subst h1 h2
    exact hA
  | (n, k) :: sh, A, B, hA, hB => by
    obtain ⟨a, A, rfl, a1, a2, a3⟩ := hA
    obtain ⟨b, B, rfl, b1, b2, b3⟩ := hB
    obtain ⟨z1, z2⟩ := zipWith_row f a b n k a1 a2 b1 b2
    exact ⟨_, _, rfl, z1, z2, treeMap2_shapes f sh A B a3 b3⟩

theorem treeMap2_at3 (f : ℝ → ℝ → ℝ) : ∀ (sh : List (Nat × Nat)) (A B : List (List (List ℝ))),
    HasShapes sh A → HasShapes sh B → ∀ (i n c : Nat), i < sh.length → n < (sh.getD i (0, 0)).1 →
      c < (sh.getD i (0, 0)).2 → at3 (treeMap2 f A B) i n c = f (at3 A i n c) (at3 B i n c)
  | [], A, B, hA, hB, i, n, c, hi, _, _ => by simp at hi
  | (n', k) :: sh, A, B, hA, hB, i, n, c, hi, hn, hc => by
    obtain ⟨a, A, rfl, a1, a2, a3⟩ := hA
    obtain ⟨b, B, rfl, b1, b2, b3⟩ := hB
    cases i with
    | zero => exact zipWith_at2 f a b n' k a1 a2 b1 b2 n c hn hc
    | succ i => exact treeMap2_at3 f sh A B a3 b3 i n c (by simpa using hi) hn hc

/-- A field's integral is the sum of its nodal values weighted with the areas of the nodes. -/
theorem total_nodal {dim : Nat} (v : CVar dim) (hv : v.WF) (u : Nat → Nat → ℝ) :
    v.total u = ∑ n ∈ Finset.range v.numTotalNodes, v.nodeArea n * u n 0 := by
  have key : ∀ e < v.cells.length, ∀ q, v.valueAt u e q 0
      = ∑ n ∈ Finset.range v.numTotalNodes,
        v.valueAt (fun n' _ => if n' = n then 1 else 0) e q 0 * u n 0 := by
    intro e he q
    simp only [CVar.valueAt, Finset.sum_mul]
    rw [Finset.sum_comm]
    refine Finset.sum_congr rfl fun a _ => ?_
    have hc := hv (v.cells.getD e []) (by rw [List.getD_eq_getElem _ _ he]; exact List.getElem_mem he)
    have hlt : v.node e a < v.numTotalNodes := by
      refine hc.2 _ ?_
      rw [CVar.node, List.getD_eq_getElem (n := (a : Nat)) _ _ (by rw [hc.1]; exact a.2)]
      exact List.getElem_mem _
    rw [Finset.sum_eq_single (v.node e a)]
    · simp
    · intro b _ hb
      simp [Ne.symm hb]
    · intro hb
      exact absurd (Finset.mem_range.2 hlt) hb
  simp only [CVar.nodeArea, CVar.total, CVar.integral]
  have : ∀ e ∈ Finset.range v.cells.length, ∑ q ∈ Finset.range v.nq, v.valueAt u e q 0 * v.measure e q
      = ∑ n ∈ Finset.range v.numTotalNodes, ∑ q ∈ Finset.range v.nq,
        v.valueAt (fun n' _ => if n' = n then 1 else 0) e q 0 * v.measure e q * u n 0 := by
    intro e he
    rw [Finset.sum_comm]
    refine Finset.sum_congr rfl fun q _ => ?_
    rw [key e (Finset.mem_range.1 he) q, Finset.sum_mul]
    exact Finset.sum_congr rfl fun n _ => by ring
  rw [Finset.sum_congr rfl this, Finset.sum_comm]
  refine Finset.sum_congr rfl fun n _ => ?_
  rw [Finset.sum_mul]
  exact Finset.sum_congr rfl fun e _ => by rw [Finset.sum_mul]

variable (m : Params) (vp vT : CVar 2)

/-- Entries of the explicit step. -/
theorem explicit_entries (hw : WFVars [vp, vT]) (hp1 : vp.vec = 1) (hT1 : vT.vec = 1)
    (hup : vp.Unity) (huT : vT.Unity) (noise : List ℝ) (sols R : List (List (List ℝ)))
    (hs : HasShapes (solShapes ([vp, vT].map CVar.fe)) sols)
    (hR : coupledResidual [vp, vT] (forceKernel m vp vT)
        ((List.range vp.cells.length).map fun e => fun _ => noise.getD e 0) sols = .ok R)
    (hRs : HasShapes (solShapes ([vp, vT].map CVar.fe)) R) :
    ∃ S, explicitEuler m vp vT noise sols = .ok S ∧ HasShapes (solShapes ([vp, vT].map CVar.fe)) S ∧
      (∀ n < vp.numTotalNodes, at3 S 0 n 0
        = at3 sols 0 n 0 - (m.tau / m.dt * vp.nodeArea n)⁻¹ * at3 R 0 n 0) ∧
      (∀ n < vT.numTotalNodes, at3 S 1 n 0
        = at3 sols 1 n 0 - (1 / m.dt * vT.nodeArea n)⁻¹ * at3 R 1 n 0) := by
  obtain ⟨M, m1, m2, m3, m4⟩ := C79_lumped_mass m vp vT hw hp1 hT1 hup huT
  set fes := [vp, vT].map CVar.fe with hfes
  have hl : (M.map fun x => 1 / x).length = totalSize (solShapes fes) := by
    rw [List.length_map, m2, totalDofs_eq]
  have hI := unravelSol_hasShapes (solShapes fes) _ hl
  have hinv : ∀ i (hi : i < fes.length) n, n < fes[i].numTotalNodes → 0 < fes[i].vec →
      at3 (unravelSol (solShapes fes) (M.map fun x => 1 / x)) i n 0 = (M.getD (dofNum fes i n 0) 0)⁻¹ := by
    intro i hi n hn hc
    have hlt : dofNum fes i n 0 < M.length := by
      have := C01_in_range fes hi hn hc
      rw [(C01_row_number fes i n 0 hi).1, numDofs_eq, ← totalDofs_eq] at this
      omega
    rw [← ravelSol_dofNum fes _ hI hi hn hc, ravelSol_unravelSol _ _ hl,
      List.getD_eq_getElem _ _ (by simpa using hlt), List.getD_eq_getElem _ _ hlt, List.getElem_map,
      one_div]
  have hrhs := treeMap2_shapes (fun x y => - x * y) _ _ _ hI hRs
  refine ⟨_, ?_, treeMap2_shapes (fun x y => x + y) _ _ _ hs hrhs, fun n hn => ?_, fun n hn => ?_⟩
  · rw [explicitEuler, m1]
    simp only [bind, Except.bind, hR]
    rfl
  · have hn' : n < ((solShapes fes).getD 0 (0, 0)).1 := hn
    have hc' : 0 < ((solShapes fes).getD 0 (0, 0)).2 := by change 0 < vp.vec; omega
    rw [treeMap2_at3 _ _ _ _ hs hrhs 0 n 0 (by simp [hfes, solShapes]) hn' hc',
      treeMap2_at3 _ _ _ _ hI hRs 0 n 0 (by simp [hfes, solShapes]) hn' hc',
      hinv 0 (by simp [hfes]) n hn hc', m3 n hn]
    ring
  · have hn' : n < ((solShapes fes).getD 1 (0, 0)).1 := hn
    have hc' : 0 < ((solShapes fes).getD 1 (0, 0)).2 := by change 0 < vT.vec; omega
    rw [treeMap2_at3 _ _ _ _ hs hrhs 1 n 0 (by simp [hfes, solShapes]) hn' hc',
      treeMap2_at3 _ _ _ _ hI hRs 1 n 0 (by simp [hfes, solShapes]) hn' hc',
      hinv 1 (by simp [hfes]) n hn hc', m4 n hn]
    ring

/-- **C79 (explicit step).** Without Dirichlet conditions, and with a positive area at every node, one
explicit step changes the integrals of phase and temperature by the integrals of the sources; gradients do
not contribute. -/
theorem C79_explicit_step (hw : WFVars [vp, vT]) (hp1 : vp.vec = 1) (hT1 : vT.vec = 1)
    (hup : vp.Unity) (huT : vT.Unity) (hdt : m.dt ≠ 0) (hτ : m.tau ≠ 0)
    (hap : ∀ n < vp.numTotalNodes, vp.nodeArea n ≠ 0) (haT : ∀ n < vT.numTotalNodes, vT.nodeArea n ≠ 0)
    (noise : List ℝ) (sols : List (List (List ℝ)))
    (hs : HasShapes (solShapes ([vp, vT].map CVar.fe)) sols) :
    ∃ S, explicitEuler m vp vT noise sols = .ok S ∧ HasShapes (solShapes ([vp, vT].map CVar.fe)) S ∧
      m.tau * (vp.total (fieldAt S 0) - vp.total (fieldAt sols 0))
        = - m.dt * vp.integral (fun e q =>
          reaction m (vp.valueAt (fieldAt sols 0) e q 0) (vT.valueAt (fieldAt sols 1) e q 0)
          + noiseTerm m (vp.valueAt (fieldAt sols 0) e q 0) (noise.getD e 0)) ∧
      m.tau * (vT.total (fieldAt S 1) - vT.total (fieldAt sols 1))
        = - m.dt * m.K * vT.integral (fun e q =>
          reaction m (vp.valueAt (fieldAt sols 0) e q 0) (vT.valueAt (fieldAt sols 1) e q 0)) := by
  obtain ⟨R, r1, r2, r3⟩ := force_weak_form m vp vT hw hp1 hT1 noise sols hs
  obtain ⟨S, s1, s2, s3, s4⟩ := explicit_entries m vp vT hw hp1 hT1 hup huT noise sols R hs r1 r2
  refine ⟨S, s1, s2, ?_, ?_⟩
  · rw [total_nodal vp (hw.wf vp (by simp)), total_nodal vp (hw.wf vp (by simp)),
      ← Finset.sum_sub_distrib, Finset.mul_sum]
    have h1 : ∑ n ∈ Finset.range vp.numTotalNodes,
        m.tau * (vp.nodeArea n * fieldAt S 0 n 0 - vp.nodeArea n * fieldAt sols 0 n 0)
        = - m.dt * tested [vp, vT] R (fun i _ _ => if i = 0 then 1 else 0) := by
      have : tested [vp, vT] R (fun i _ _ => if i = 0 then 1 else 0)
          = ∑ n ∈ Finset.range vp.numTotalNodes, at3 R 0 n 0 := by
        rw [tested]
        change ∑ i : Fin 2, _ = _
        rw [Fin.sum_univ_two]
        change ∑ n ∈ Finset.range vp.numTotalNodes, ∑ c ∈ Finset.range vp.vec, (1 : ℝ) * at3 R 0 n c
          + ∑ n ∈ Finset.range vT.numTotalNodes, ∑ c ∈ Finset.range vT.vec, (0 : ℝ) * at3 R 1 n c = _
        rw [hp1]
        simp
      rw [this, Finset.mul_sum]
      refine Finset.sum_congr rfl fun n hn => ?_
      have hn' := Finset.mem_range.1 hn
      have := hap n hn'
      rw [fieldAt, fieldAt, s3 n hn']
      field_simp
      ring
    rw [h1, r3]
    congr 1
    have e1 : vT.integral (fun e q => (∑ j, (vT.gradAt (fieldAt sols 1) e q 0 j
        + m.K / m.tau * flux m (vp.gradAt (fieldAt sols 0) e q 0) (vp.gradAt (fieldAt sols 0) e q 0) j)
        * vT.gradAt (fun _ _ => 0) e q 0 j)
      + (m.K / m.tau
        * reaction m (vp.valueAt (fieldAt sols 0) e q 0) (vT.valueAt (fieldAt sols 1) e q 0))
        * vT.valueAt (fun _ _ => 0) e q 0) = 0 := by
      refine Finset.sum_eq_zero fun e _ => Finset.sum_eq_zero fun q hq => ?_
      dsimp only
      rw [huT.valueAt_const vT 0 e q 0 (Finset.mem_range.1 hq),
        huT.gradAt_const vT 0 e q 0 (Finset.mem_range.1 hq)]
      simp
    refine (congrArg (_ + ·) e1).trans ((add_zero _).trans ?_)
    refine vp.integral_congr fun e _ q hq => ?_
    change _ + _ * vp.valueAt (fun _ _ => 1) e q 0 = _
    rw [hup.valueAt_const vp 1 e q 0 hq]
    change ∑ j, _ * vp.gradAt (fun _ _ => 1) e q 0 j + _ = _
    rw [hup.gradAt_const vp 1 e q 0 hq]
    simp
  · rw [total_nodal vT (hw.wf vT (by simp)), total_nodal vT (hw.wf vT (by simp)),
      ← Finset.sum_sub_distrib, Finset.mul_sum]
    have h1 : ∑ n ∈ Finset.range vT.numTotalNodes,
        m.tau * (vT.nodeArea n * fieldAt S 1 n 0 - vT.nodeArea n * fieldAt sols 1 n 0)
        = - m.dt * m.tau * tested [vp, vT] R (fun i _ _ => if i = 0 then 0 else 1) := by
      have : tested [vp, vT] R (fun i _ _ => if i = 0 then 0 else 1)
          = ∑ n ∈ Finset.range vT.numTotalNodes, at3 R 1 n 0 := by
        rw [tested]
        change ∑ i : Fin 2, _ = _
        rw [Fin.sum_univ_two]
        change ∑ n ∈ Finset.range vp.numTotalNodes, ∑ c ∈ Finset.range vp.vec, (0 : ℝ) * at3 R 0 n c
          + ∑ n ∈ Finset.range vT.numTotalNodes, ∑ c ∈ Finset.range vT.vec, (1 : ℝ) * at3 R 1 n c = _
        rw [hT1]
        simp
      rw [this, Finset.mul_sum]
      refine Finset.sum_congr rfl fun n hn => ?_
      have hn' := Finset.mem_range.1 hn
      have := haT n hn'
      rw [fieldAt, fieldAt, s4 n hn']
      field_simp
      ring
    rw [h1, r3]
    have e1 : vp.integral (fun e q =>
        (∑ j, flux m (vp.gradAt (fieldAt sols 0) e q 0) (vp.gradAt (fieldAt sols 0) e q 0) j
          * vp.gradAt (fun _ _ => 0) e q 0 j)
        + (reaction m (vp.valueAt (fieldAt sols 0) e q 0) (vT.valueAt (fieldAt sols 1) e q 0)
          + noiseTerm m (vp.valueAt (fieldAt sols 0) e q 0) (noise.getD e 0))
          * vp.valueAt (fun _ _ => 0) e q 0) = 0 := by
      refine Finset.sum_eq_zero fun e _ => Finset.sum_eq_zero fun q hq => ?_
      dsimp only
      rw [hup.valueAt_const vp 0 e q 0 (Finset.mem_range.1 hq),
        hup.gradAt_const vp 0 e q 0 (Finset.mem_range.1 hq)]
      simp
    have e2 : vT.integral (fun e q => (∑ j, (vT.gradAt (fieldAt sols 1) e q 0 j
        + m.K / m.tau * flux m (vp.gradAt (fieldAt sols 0) e q 0) (vp.gradAt (fieldAt sols 0) e q 0) j)
        * vT.gradAt (fun _ _ => 1) e q 0 j)
      + (m.K / m.tau
        * reaction m (vp.valueAt (fieldAt sols 0) e q 0) (vT.valueAt (fieldAt sols 1) e q 0))
        * vT.valueAt (fun _ _ => 1) e q 0) = m.K / m.tau * vT.integral (fun e q =>
          reaction m (vp.valueAt (fieldAt sols 0) e q 0) (vT.valueAt (fieldAt sols 1) e q 0)) := by
      rw [← vT.integral_smul]
      refine vT.integral_congr fun e _ q hq => ?_
      rw [huT.valueAt_const vT 1 e q 0 hq, huT.gradAt_const vT 1 e q 0 hq]
      simp
    refine (congrArg (fun z => - m.dt * m.tau * z) ((congrArg₂ (· + ·) e1 e2).trans (zero_add _))).trans ?_
    field_simp

/-- **C79 (defect of the explicit step).** On one geometry the total enthalpy changes in an explicit step by
`-(K a dt / τ) ∫ p (1 - p) χ`: the noise term of the phase equation has no counterpart in the temperature
equation. Without noise (`a = 0`) the enthalpy is conserved. -/
theorem C79_explicit_defect (hw : WFVars [vp, vT]) (hp1 : vp.vec = 1) (hT1 : vT.vec = 1)
    (hup : vp.Unity) (huT : vT.Unity) (hdt : m.dt ≠ 0) (hτ : m.tau ≠ 0)
    (hap : ∀ n < vp.numTotalNodes, vp.nodeArea n ≠ 0) (haT : ∀ n < vT.numTotalNodes, vT.nodeArea n ≠ 0)
    (hm : SameMeasure vp vT) (noise : List ℝ) (sols : List (List (List ℝ)))
    (hs : HasShapes (solShapes ([vp, vT].map CVar.fe)) sols) :
    ∃ S, explicitEuler m vp vT noise sols = .ok S ∧
      enthalpy m.K vp vT (fieldAt S 0) (fieldAt S 1)
        - enthalpy m.K vp vT (fieldAt sols 0) (fieldAt sols 1)
        = - (m.K * m.a * m.dt / m.tau) * vp.integral (fun e q =>
          vp.valueAt (fieldAt sols 0) e q 0 * (1 - vp.valueAt (fieldAt sols 0) e q 0) * noise.getD e 0) := by
  obtain ⟨S, s1, -, s3, s4⟩ := C79_explicit_step m vp vT hw hp1 hT1 hup huT hdt hτ hap haT noise sols hs
  refine ⟨S, s1, ?_⟩
  have hc := hw.cells vp (by simp) vT (by simp)
  have hq := hw.quads vp (by simp) vT (by simp)
  have hE : ∀ p T, enthalpy m.K vp vT p T = vT.total T - m.K * vp.total p := by
    intro p T
    rw [enthalpy, vT.integral_sub, CVar.total, CVar.total, vT.integral_smul,
      vp.integral_same vT hc hq hm (fun e q => vp.valueAt p e q 0)]
  rw [hE, hE]
  rw [vp.integral_same vT hc hq hm] at s4
  rw [vp.integral_add] at s3
  have e1 : vp.integral (fun e q => noiseTerm m (vp.valueAt (fieldAt sols 0) e q 0) (noise.getD e 0))
      = - m.a * vp.integral (fun e q =>
          vp.valueAt (fieldAt sols 0) e q 0 * (1 - vp.valueAt (fieldAt sols 0) e q 0) * noise.getD e 0) := by
    rw [← vp.integral_smul]
    exact vp.integral_congr fun e _ q _ => by rw [noiseTerm]; ring
  rw [e1] at s3
  refine mul_left_cancel₀ hτ ?_
  have h2 : m.tau * (-(m.K * m.a * m.dt / m.tau) * vp.integral (fun e q =>
          vp.valueAt (fieldAt sols 0) e q 0 * (1 - vp.valueAt (fieldAt sols 0) e q 0) * noise.getD e 0))
      = -(m.K * m.a * m.dt) * vp.integral (fun e q =>
          vp.valueAt (fieldAt sols 0) e q 0 * (1 - vp.valueAt (fieldAt sols 0) e q 0) * noise.getD e 0) := by
    field_simp
  rw [h2]
  linear_combination s4 - m.K * s3

/-! ### A concrete case -/

theorem triVar_unity (k : Nat) : (triVar k).Unity := by
  intro q _
  refine ⟨?_, fun j => ?_⟩
  · change ∑ a : Fin 3, (1 / 3 : ℝ) = 1
    simp
  · change ∑ a : Fin 3, ([![-1, -1], ![1, 0], ![0, 1]] : List (Fin 2 → ℝ)).getD a 0 j = 0
    rw [Fin.sum_univ_three]
    change (![-1, -1] : Fin 2 → ℝ) j + (![1, 0] : Fin 2 → ℝ) j + (![0, 1] : Fin 2 → ℝ) j = 0
    fin_cases j <;> simp

theorem triVar_value (k : Nat) (u : Nat → Nat → ℝ) (c : Nat) :
    (triVar k).valueAt u 0 0 c = (u 0 c + u 1 c + u 2 c) / 3 := by
  rw [CVar.valueAt]
  change ∑ a : Fin 3, _ = _
  rw [Fin.sum_univ_three]
  simp [CVar.node, triVar]
  ring

theorem triVar_integral (k : Nat) (f : Nat → Nat → ℝ) : (triVar k).integral f = f 0 0 * (1 / 2) := by
  have h1 : (triVar k).cells.length = 1 := rfl
  have h2 : (triVar k).nq = 1 := rfl
  rw [CVar.integral, h1, h2, Finset.sum_range_one, Finset.sum_range_one, triVar_measure]

theorem triVar_area (k n : Nat) (hn : n < (triVar k).numTotalNodes) : (triVar k).nodeArea n ≠ 0 := by
  have hn' : n < 3 := hn
  rw [CVar.nodeArea, CVar.total, triVar_integral, triVar_value]
  interval_cases n <;> norm_num

/-- A semi-implicit step that changes both fields: the uniform phase `1/2` at temperature 0 moves to
`1/2 - dt/τ (reaction + noise)`, and the temperature rises by `K` times the change of the phase. The residual
vanishes and the enthalpy keeps its value `-K/4`. -/
example (χ : ℝ) : let r := reaction m (1 / 2) 0 + noiseTerm m (1 / 2) χ
    m.tau ≠ 0 → m.dt ≠ 0 → ∃ R,
    implicitResidual m (triVar 1) (triVar 1) [[1 / 2], [1 / 2], [1 / 2]] [[0], [0], [0]] [χ]
      [List.replicate 3 [1 / 2 - m.dt / m.tau * r], List.replicate 3 [- m.K * (m.dt / m.tau * r)]] = .ok R ∧
    FreeZero [triVar 1, triVar 1] (fun _ _ _ => False) R ∧
    enthalpy m.K (triVar 1) (triVar 1) (fieldAt [[[1 / 2], [1 / 2], [1 / 2]]] 0) (fieldAt [[[0], [0], [0]]] 0)
      = - m.K / 4 := by
  intro r hτ hdt
  obtain ⟨R, r1, r2, r3⟩ := implicit_weak_form m (triVar 1) (triVar 1) (triVar_vars 1 1) rfl rfl
    [[1 / 2], [1 / 2], [1 / 2]] [[0], [0], [0]] [χ]
    [List.replicate 3 [1 / 2 - m.dt / m.tau * r], List.replicate 3 [- m.K * (m.dt / m.tau * r)]]
    (by simp [HasShapes, solShapes, triVar, CVar.fe])
  refine ⟨R, r1, freeZero_of_tested _ R fun w => ?_, ?_⟩
  · rw [r3]
    simp only [triVar_integral, triVar_value, triVar_grad]
    simp only [fieldAt, at3, flux]
    have e : ((1 : ℝ) / 2 + 1 / 2 + 1 / 2) / 3 = 1 / 2 := by norm_num
    have hr : r = reaction m (1 / 2) 0 + noiseTerm m (1 / 2) χ := rfl
    simp [Fin.sum_univ_two]
    norm_num at hr ⊢
    field_simp
    rw [hr]
    ring
  · rw [enthalpy, triVar_integral]
    simp only [triVar_value]
    simp [fieldAt, at3]
    ring

/-- With noise the explicit step changes the enthalpy: for the uniform phase `1/2` and `χ = 1` by
`-K a dt / (8 τ)`. -/
example (T : ℝ) (hK : m.K ≠ 0) (ha : m.a ≠ 0) (hτ : m.tau ≠ 0) (hdt : m.dt ≠ 0) : ∃ S,
    explicitEuler m (triVar 1) (triVar 1) [1] [[[1 / 2], [1 / 2], [1 / 2]], [[T], [T], [T]]] = .ok S ∧
    enthalpy m.K (triVar 1) (triVar 1) (fieldAt S 0) (fieldAt S 1)
      ≠ enthalpy m.K (triVar 1) (triVar 1) (fieldAt [[[1 / 2], [1 / 2], [1 / 2]], [[T], [T], [T]]] 0)
        (fieldAt [[[1 / 2], [1 / 2], [1 / 2]], [[T], [T], [T]]] 1) := by
  obtain ⟨S, s1, s2⟩ := C79_explicit_defect m (triVar 1) (triVar 1) (triVar_vars 1 1) rfl rfl
    (triVar_unity 1) (triVar_unity 1) hdt hτ (triVar_area 1) (triVar_area 1) (triVar_same 1 1) [1]
    [[[1 / 2], [1 / 2], [1 / 2]], [[T], [T], [T]]] (by simp [HasShapes, solShapes, triVar, CVar.fe])
  refine ⟨S, s1, fun h => ?_⟩
  rw [h, sub_self, triVar_integral, triVar_value] at s2
  simp [fieldAt, at3] at s2
  rcases s2 with ((h | h) | h) | h
  · rcases h with h | h
    · exact hK h
    · exact ha h
  · exact hdt h
  · exact hτ h
  · norm_num at h

end Dendrite

end JaxFem
