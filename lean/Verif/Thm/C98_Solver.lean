import Verif.Thm.C98_Data

/-!
# C98: homogenisation — periodic conditions in the solver
-/

namespace JaxFem.Rve

open Matrix

variable {nq nfq nn : Nat}

/-! ### Helper lemmas -/

theorem cond_WF (fe : FE) (corner : List Nat) (faces : List (List Nat × List Nat)) (hv : fe.vec = 3)
    (hc : ∀ n ∈ corner, n < fe.numTotalNodes)
    (hf : ∀ f ∈ faces, f.2.length = f.1.length ∧ (∀ n ∈ f.1, n < fe.numTotalNodes) ∧ ∀ n ∈ f.2, n < fe.numTotalNodes) :
    LM.WF (conditions fe corner faces) := by
  have hd : ∀ e ∈ (conditions fe corner faces).d, ∃ c ∈ [0, 1, 2],
      e = ⟨corner, List.replicate corner.length c, List.replicate corner.length 0⟩ := by
    intro e he
    obtain ⟨c, h1, h2⟩ := List.mem_map.1 he
    exact ⟨c, h1, h2.symm⟩
  have hp : ∀ g ∈ (conditions fe corner faces).p, ∃ f ∈ faces, ∃ c ∈ [0, 1, 2],
      g = ⟨f.1, f.2, List.replicate f.1.length c⟩ := by
    intro g hg
    obtain ⟨f, h1, h2⟩ := List.mem_flatMap.1 hg
    obtain ⟨c, h3, h4⟩ := List.mem_map.1 h2
    exact ⟨f, h1, c, h3, h4.symm⟩
  have hlt : ∀ c ∈ [0, 1, 2], c < fe.vec := by
    rw [hv]
    decide
  constructor
  · intro e he
    obtain ⟨c, -, rfl⟩ := hd e he
    simp
  · intro e he
    obtain ⟨c, -, rfl⟩ := hd e he
    simp
  · intro e he
    obtain ⟨c, h1, rfl⟩ := hd e he
    refine ⟨hc, fun c' h => ?_⟩
    rw [List.eq_of_mem_replicate h]
    exact hlt c h1
  · intro g hg
    obtain ⟨f, h1, c, -, rfl⟩ := hp g hg
    exact (hf f h1).1
  · intro g hg
    obtain ⟨f, h1, c, -, rfl⟩ := hp g hg
    simp
  · intro g hg
    obtain ⟨f, h1, c, h2, rfl⟩ := hp g hg
    refine ⟨(hf f h1).2.1, (hf f h1).2.2, fun c' h => ?_⟩
    rw [List.eq_of_mem_replicate h]
    exact hlt c h2

theorem flatten_extend {N : Nat} (v : Fin N → Fin 3 → ℝ) (n : Nat) (hn : n < N) (c : Fin 3) (k : Fin (N * 3))
    (hk : (k : Nat) = n * 3 + c) : flatten v k = extend v n c := by
  rw [extend, dif_pos hn, flatten]
  have h1 : k.divNat = ⟨n, hn⟩ := by
    apply Fin.ext
    show (k : Nat) / 3 = n
    rw [hk]
    have := c.2
    omega
  have h2 : k.modNat = c := by
    apply Fin.ext
    show (k : Nat) % 3 = c
    rw [hk]
    have := c.2
    omega
  rw [h1, h2]

variable (N nnc : Nat) (cells : List (List Nat)) (corner : List Nat) (faces : List (List Nat × List Nat))

/-- The two descriptions of the homogeneous conditions. -/
theorem variation_iff (hc : ∀ n ∈ corner, n < N)
    (hf : ∀ f ∈ faces, f.2.length = f.1.length ∧ (∀ n ∈ f.1, n < N) ∧ ∀ n ∈ f.2, n < N) (v : Fin N → Fin 3 → ℝ) :
    LM.Variation (conditions ⟨N, 3, nnc, cells⟩ corner faces) (flatten v)
      ↔ Fluctuation (faces.flatMap fun f => f.1.zip f.2) corner (extend v) := by
  have key : ∀ n, n < N → ∀ c : Fin 3, n * 3 + c < N * 3 := fun n hn c => by
    have := c.2
    omega
  constructor
  · rintro ⟨h1, h2⟩
    refine ⟨fun p hp => funext fun c => ?_, fun n hn => funext fun c => ?_⟩
    · obtain ⟨f, hfm, hz⟩ := List.mem_flatMap.1 hp
      obtain ⟨i, hi, hz'⟩ := List.getElem_of_mem hz
      have hi' : i < f.1.length ∧ i < f.2.length := by
        rw [List.length_zip] at hi
        omega
      have e1 : f.1[i] = p.1 := by rw [← hz']; simp
      have e2 : f.2[i] = p.2 := by rw [← hz']; simp
      have hA : p.1 < N := by rw [← e1]; exact (hf f hfm).2.1 _ (List.getElem_mem _)
      have hB : p.2 < N := by rw [← e2]; exact (hf f hfm).2.2 _ (List.getElem_mem _)
      have := h2 ⟨f.1, f.2, List.replicate f.1.length c⟩
        (List.mem_flatMap.2 ⟨f, hfm, List.mem_map.2 ⟨c, by fin_cases c <;> simp, rfl⟩⟩) i p.1 p.2 c
        (by simp [hi'.1, e1]) (by simp [hi'.2, e2]) (by simp [hi'.1])
        ⟨p.1 * 3 + c, key _ hA c⟩ ⟨p.2 * 3 + c, key _ hB c⟩ rfl rfl
      exact (flatten_extend v p.1 hA c ⟨p.1 * 3 + c, key _ hA c⟩ rfl).symm.trans
        (this.trans (flatten_extend v p.2 hB c ⟨p.2 * 3 + c, key _ hB c⟩ rfl))
    · obtain ⟨i, hi, e⟩ := List.getElem_of_mem hn
      have := h1 ⟨corner, List.replicate corner.length c, List.replicate corner.length 0⟩
        (List.mem_map.2 ⟨c, by fin_cases c <;> simp, rfl⟩) n c 0
        ⟨i, by simp [hi, e], by simp [hi], by simp [hi]⟩ ⟨n * 3 + c, key _ (hc n hn) c⟩ rfl
      exact (flatten_extend v n (hc n hn) c ⟨n * 3 + c, key _ (hc n hn) c⟩ rfl).symm.trans this
  · rintro ⟨h1, h2⟩
    refine ⟨fun e he n c x hx k hk => ?_, fun g hg i a b c ha hb hcc k l hk hl => ?_⟩
    · obtain ⟨c', hc', rfl⟩ := List.mem_map.1 he
      obtain ⟨i, hn, hcomp, -⟩ := hx
      have hn' : n ∈ corner := List.mem_of_getElem? hn
      have hcc : c = c' := List.eq_of_mem_replicate (List.mem_of_getElem? hcomp)
      subst hcc
      have hlt : c < 3 := by
        simp at hc'
        omega
      exact (flatten_extend v n (hc n hn') ⟨c, hlt⟩ k hk).trans (congrFun (h2 n hn') ⟨c, hlt⟩)
    · obtain ⟨f, hfm, hg'⟩ := List.mem_flatMap.1 hg
      obtain ⟨c', hc', rfl⟩ := List.mem_map.1 hg'
      have hcc' : c = c' := List.eq_of_mem_replicate (List.mem_of_getElem? hcc)
      subst hcc'
      have hlt : c < 3 := by
        simp at hc'
        omega
      have hmA : a ∈ f.1 := List.mem_of_getElem? ha
      have hmB : b ∈ f.2 := List.mem_of_getElem? hb
      have hz : (a, b) ∈ f.1.zip f.2 := by
        refine List.mem_of_getElem? (i := i) ?_
        rw [List.getElem?_zip_eq_some]
        exact ⟨ha, hb⟩
      exact (flatten_extend v a ((hf f hfm).2.1 a hmA) ⟨c, hlt⟩ k hk).trans
        ((congrFun (h1 (a, b) (List.mem_flatMap.2 ⟨f, hfm, hz⟩)) ⟨c, hlt⟩).trans
          (flatten_extend v b ((hf f hfm).2.2 b hmB) ⟨c, hlt⟩ l hl).symm)

theorem meets_iff (u : Fin (N * 3) → ℝ) :
    LM.Meets (conditions ⟨N, 3, nnc, cells⟩ corner faces) u ↔ LM.Variation (conditions ⟨N, 3, nnc, cells⟩ corner faces) u := by
  have h0 : ∀ e ∈ (conditions ⟨N, 3, nnc, cells⟩ corner faces).d, ∀ n c v, e.Prescribes n c v → v = (0 : ℝ) := by
    intro e he n c v hv
    obtain ⟨c', -, rfl⟩ := List.mem_map.1 he
    obtain ⟨i, -, -, hi⟩ := hv
    exact List.eq_of_mem_replicate (List.mem_of_getElem? hi)
  constructor
  · rintro ⟨h1, h2⟩
    exact ⟨fun e he n c v hv k hk => (h1 e he n c v hv k hk).trans (h0 e he n c v hv), h2⟩
  · rintro ⟨h1, h2⟩
    exact ⟨fun e he n c v hv k hk => (h1 e he n c v hv k hk).trans (h0 e he n c v hv).symm, h2⟩

theorem flatten_surj (w : Fin (N * 3) → ℝ) : ∃ v : Fin N → Fin 3 → ℝ, flatten v = w := by
  refine ⟨fun n c => w (finProdFinEquiv (n, c)), funext fun k => ?_⟩
  rw [flatten]
  exact congrArg w (finProdFinEquiv.apply_symm_apply k)

theorem sum_flat (f : Fin N → Fin 3 → ℝ) : ∑ k, flatten f k = ∑ n, ∑ c, f n c := by
  rw [← Finset.sum_product', Finset.univ_product_univ]
  refine (Fintype.sum_equiv finProdFinEquiv (fun p : Fin N × Fin 3 => f p.1 p.2) (flatten f) fun p => ?_).symm
  rw [flatten]
  have h := finProdFinEquiv.symm_apply_apply p
  have h1 : (finProdFinEquiv p).divNat = p.1 := congrArg Prod.fst h
  have h2 : (finProdFinEquiv p).modNat = p.2 := congrArg Prod.snd h
  rw [h1, h2]

/-! ### Property theorem -/

/-- **C98 (solver).** With the conditions of `rve_problem` the multiplier equations have a solution with the nodal values `v`
exactly if `v` is an equilibrium: periodic on the pairs of faces, zero at the corner, and without work on such fields. -/
theorem C98_solver (P : Problem1 (ℝ × ℝ) nq nfq nn 3 3) (corner : List Nat) (faces : List (List Nat × List Nat))
    (hc : ∀ n ∈ corner, n < P.numTotalNodes)
    (hf : ∀ f ∈ faces, f.2.length = f.1.length ∧ (∀ n ∈ f.1, n < P.numTotalNodes) ∧ ∀ n ∈ f.2, n < P.numTotalNodes)
    (eps : ℝ) (he : eps ≠ 0) (H : Tensor) (v : Fin P.numTotalNodes → Fin 3 → ℝ) (R : List (List (List ℝ)))
    (hR : (problem (.rve H) P).residual [solOf v] = .ok R) :
    let C := conditions ⟨P.numTotalNodes, 3, nn, P.cells.map fun c => c.nodes⟩ corner faces
    (∃ x : LM.Vec C, LM.dofsOf C x = flatten v ∧
      LM.residual C eps (flatten fun (n : Fin P.numTotalNodes) (c : Fin 3) => at3 R 0 n c) x = 0) ↔
      IsEquilibrium P (faces.flatMap fun f => f.1.zip f.2) corner H v := by
  intro C
  refine (LM.C97_equilibrium C (cond_WF _ corner faces rfl hc hf) eps he
    (flatten fun (n : Fin P.numTotalNodes) (c : Fin 3) => at3 R 0 n c) (flatten v)).trans ?_
  refine Iff.trans (and_congr_left fun _ => (meets_iff _ _ _ _ _ _).trans (variation_iff _ _ _ _ _ hc hf v)) ?_
  have hsum : ∀ w : Fin P.numTotalNodes → Fin 3 → ℝ,
      ∑ i, flatten (fun (n : Fin P.numTotalNodes) (c : Fin 3) => at3 R 0 n c) i * flatten w i
        = ∑ n ∈ Finset.range P.numTotalNodes, ∑ c : Fin 3, extend w n c * at3 R 0 n c := by
    intro w
    rw [← range_sum w fun n c => at3 R 0 n c]
    refine Eq.trans ?_ (sum_flat _ fun (n : Fin P.numTotalNodes) (c : Fin 3) => w n c * at3 R 0 n c)
    exact Finset.sum_congr rfl fun i _ => mul_comm _ _
  refine and_congr_right fun _ => ⟨fun h => ⟨R, hR, fun w hw => ?_⟩, ?_⟩
  · have hp : ∀ p ∈ faces.flatMap fun f => f.1.zip f.2, p.1 < P.numTotalNodes ∧ p.2 < P.numTotalNodes := by
      intro p hp
      obtain ⟨f, hfm, hz⟩ := List.mem_flatMap.1 hp
      exact ⟨(hf f hfm).2.1 _ (List.of_mem_zip hz).1, (hf f hfm).2.2 _ (List.of_mem_zip hz).2⟩
    have hcut := fluctuation_cut _ _ hp hw
    have h1 := h _ ((variation_iff _ _ _ _ _ hc hf fun n : Fin P.numTotalNodes => w n).2 hcut)
    have h2 := (hsum fun n : Fin P.numTotalNodes => w n).symm.trans h1
    rw [← range_sum] at h2
    rw [Finset.sum_range]
    exact h2
  · rintro ⟨R', hR', h⟩ w hw
    obtain rfl : R = R' := by rw [hR] at hR'; exact Except.ok.inj hR'
    obtain ⟨w, rfl⟩ := flatten_surj _ w
    exact (hsum w).trans (h _ ((variation_iff _ _ _ _ _ hc hf w).1 hw))

/-- **C98 (redundant conditions).** If the edges of the box are in the paired faces of two directions -- as `left`, `right`,
`front`, `back` of `rve_problem` are, which select whole faces -- the matrix of the multiplier solver is singular for every
material, every `H_bar` and every scaling. -/
theorem C98_singular (corner : List Nat) (faces : List (List Nat × List Nat)) (N nnc : Nat) (cells : List (List Nat))
    (hc : ∀ n ∈ corner, n < N)
    (hf : ∀ f ∈ faces, f.2.length = f.1.length ∧ (∀ n ∈ f.1, n < N) ∧ ∀ n ∈ f.2, n < N)
    (a b c d : Nat) (hab : a ≠ b) (hac : a ≠ c) (hbc : b ≠ c)
    (h1 : ∃ f ∈ faces, (a, b) ∈ f.1.zip f.2) (h2 : ∃ f ∈ faces, (c, d) ∈ f.1.zip f.2)
    (h3 : ∃ f ∈ faces, (a, c) ∈ f.1.zip f.2) (h4 : ∃ f ∈ faces, (b, d) ∈ f.1.zip f.2)
    (eps : ℝ) (he : eps ≠ 0) (T : List Nat × List Nat × List ℝ)
    (hT : LM.WFT (conditions ⟨N, 3, nnc, cells⟩ corner faces) T.1 T.2.1 T.2.2) :
    ∃ y, y ≠ 0 ∧ (LM.matrix (conditions ⟨N, 3, nnc, cells⟩ corner faces) eps T).mulVec y = 0 := by
  have hrow : ∀ x y, (∃ f ∈ faces, (x, y) ∈ f.1.zip f.2) →
      LM.Row.tie (x * 3) (y * 3) ∈ LM.rows (conditions ⟨N, 3, nnc, cells⟩ corner faces) := by
    rintro x y ⟨f, hfm, hz⟩
    refine List.mem_append_right _ (List.mem_flatMap.2 ⟨⟨f.1, f.2, List.replicate f.1.length 0⟩, ?_, ?_⟩)
    · exact List.mem_flatMap.2 ⟨f, hfm, List.mem_map.2 ⟨0, by simp, rfl⟩⟩
    · refine List.mem_map.2 ⟨((x, y), 0), ?_, rfl⟩
      obtain ⟨i, hi, e⟩ := List.getElem_of_mem hz
      refine List.mem_of_getElem? (i := i) ?_
      rw [List.getElem?_zip_eq_some]
      have hi' : i < f.1.length := by
        rw [List.length_zip] at hi
        omega
      exact ⟨by rw [List.getElem?_eq_getElem hi, e], by simp [hi']⟩
  obtain ⟨q₁, e1⟩ := List.mem_iff_getElem?.1 (hrow a b h1)
  obtain ⟨q₄, e4⟩ := List.mem_iff_getElem?.1 (hrow c d h2)
  obtain ⟨q₃, e3⟩ := List.mem_iff_getElem?.1 (hrow a c h3)
  obtain ⟨q₂, e2⟩ := List.mem_iff_getElem?.1 (hrow b d h4)
  refine LM.C97_singular _ (cond_WF ⟨N, 3, nnc, cells⟩ corner faces rfl hc hf) eps he T hT
    (.inr ⟨a * 3, b * 3, c * 3, d * 3, q₁, q₂, q₃, q₄, ?_, e1, e2, e3, e4⟩)
  have ne : ∀ {q q' : Nat} {r r' : LM.Row ℝ}, (LM.rows (conditions ⟨N, 3, nnc, cells⟩ corner faces))[q]? = some r →
      (LM.rows (conditions ⟨N, 3, nnc, cells⟩ corner faces))[q']? = some r' → r ≠ r' → q ≠ q' := by
    intro q q' r r' hq hq' hne hc
    subst hc
    rw [hq] at hq'
    exact hne (Option.some.inj hq')
  have tie : ∀ x y x' y' : Nat, (x ≠ x' ∨ y ≠ y') → LM.Row.tie (K := ℝ) (x * 3) (y * 3) ≠ .tie (x' * 3) (y' * 3) := by
    intro x y x' y' h hc
    injection hc with e1 e2
    omega
  simp only [List.nodup_cons, List.mem_cons, List.not_mem_nil, or_false, not_or, not_false_eq_true, List.nodup_nil, and_true]
  exact ⟨⟨ne e1 e2 (tie _ _ _ _ (.inl hab)), ne e1 e3 (tie _ _ _ _ (.inr hbc)), ne e1 e4 (tie _ _ _ _ (.inl hac))⟩,
    ⟨ne e2 e3 (tie _ _ _ _ (.inl hab.symm)), ne e2 e4 (tie _ _ _ _ (.inl hbc))⟩, ne e3 e4 (tie _ _ _ _ (.inl hac))⟩

end JaxFem.Rve
