import Verif.Thm.C97_Saddle
import Verif.Thm.C36_Mpc
import Verif.Thm.C37_Periodic
import Verif.Spec.Newton
import Mathlib.LinearAlgebra.FiniteDimensional.Lemmas

/-!
# C97: what the multiplier system means
-/

namespace JaxFem
namespace LM

variable (P : Prob ℝ)

/-! ### Constraints -/

theorem mem_d_rows {P : Prob ℝ} {e : BCEntry ℝ} (he : e ∈ P.d) {n c : Nat} {v : ℝ} (hp : e.Prescribes n c v) :
    Row.fixed (n * P.fe.vec + c) v ∈ rows P := by
  obtain ⟨k, h1, h2, h3⟩ := hp
  refine List.mem_append_left _ (List.mem_flatMap.2 ⟨e, he, List.mem_map.2 ⟨((n, c), v), ?_, rfl⟩⟩)
  refine List.mem_of_getElem? (i := k) ?_
  rw [List.getElem?_zip_eq_some]
  refine ⟨?_, h3⟩
  rw [List.getElem?_zip_eq_some]
  exact ⟨h1, h2⟩

theorem mem_p_rows {P : Prob ℝ} {g : PEntry} (hg : g ∈ P.p) {i a b c : Nat} (h1 : g.nodesA[i]? = some a)
    (h2 : g.nodesB[i]? = some b) (h3 : g.comps[i]? = some c) :
    Row.tie (a * P.fe.vec + c) (b * P.fe.vec + c) ∈ rows P := by
  refine List.mem_append_right _ (List.mem_flatMap.2 ⟨g, hg, List.mem_map.2 ⟨((a, b), c), ?_, rfl⟩⟩)
  refine List.mem_of_getElem? (i := i) ?_
  rw [List.getElem?_zip_eq_some]
  refine ⟨?_, h3⟩
  rw [List.getElem?_zip_eq_some]
  exact ⟨h1, h2⟩

/-- The constraints hold with right-hand sides scaled by `s`. -/
theorem rows_iff (h : WF P) (s : ℝ) (u : Fin (nDofs P) → ℝ) :
    (∀ q, ∑ j, bMat P q j * u j = s * gVec P q) ↔
    (∀ e ∈ P.d, ∀ n c v, e.Prescribes n c v → ∀ k : Fin (nDofs P), (k : Nat) = n * P.fe.vec + c → u k = s * v) ∧
    ∀ g ∈ P.p, ∀ (i a b c : Nat), g.nodesA[i]? = some a → g.nodesB[i]? = some b → g.comps[i]? = some c →
      ∀ k l : Fin (nDofs P), (k : Nat) = a * P.fe.vec + c → (l : Nat) = b * P.fe.vec + c → u k = u l := by
  have key : (∀ q, ∑ j, bMat P q j * u j = s * gVec P q) ↔
      ∀ row ∈ rows P, ∑ j : Fin (nDofs P), row.coeff j * u j = s * row.rhs := by
    constructor
    · intro hq row hr
      obtain ⟨k, hk, rfl⟩ := List.mem_iff_getElem.1 hr
      have := hq ⟨k, by rw [← rows_length P h]; exact hk⟩
      simpa [bMat, gVec, List.getElem?_eq_getElem hk] using this
    · intro hr q
      obtain ⟨row, hrow, hq⟩ := rows_get P h q
      have := hr row hrow
      simpa [bMat, gVec, hq] using this
  rw [key]
  constructor
  · intro hr
    refine ⟨fun e he n c v hp k hk => ?_, fun g hg i a b c h1 h2 h3 k l hk hl => ?_⟩
    · have := hr _ (mem_d_rows he hp)
      simp only [Row.coeff, Row.rhs] at this
      rw [sum_single u _ (hk ▸ k.2)] at this
      rw [← this]
      exact congrArg u (Fin.ext hk)
    · have := hr _ (mem_p_rows hg h1 h2 h3)
      simp only [Row.coeff, Row.rhs, sub_mul, Finset.sum_sub_distrib] at this
      rw [sum_single u _ (hk ▸ k.2), sum_single u _ (hl ▸ l.2), mul_zero, sub_eq_zero] at this
      have e1 : u k = u ⟨a * P.fe.vec + c, hk ▸ k.2⟩ := congrArg u (Fin.ext hk)
      have e2 : u l = u ⟨b * P.fe.vec + c, hl ▸ l.2⟩ := congrArg u (Fin.ext hl)
      rw [e1, e2, this]
  · rintro ⟨hd, hp⟩ row hr
    have hv := rows_valid P h row hr
    rw [rows, List.mem_append, List.mem_flatMap, List.mem_flatMap] at hr
    rcases hr with ⟨e, he, hr⟩ | ⟨g, hg, hr⟩
    · obtain ⟨⟨⟨n, c⟩, v⟩, hq, rfl⟩ := List.mem_map.1 hr
      obtain ⟨k, hk⟩ := List.mem_iff_getElem?.1 hq
      rw [List.getElem?_zip_eq_some] at hk
      obtain ⟨hk1, hk3⟩ := hk
      rw [List.getElem?_zip_eq_some] at hk1
      simp only [Row.coeff, Row.rhs]
      rw [sum_single u _ hv]
      exact hd e he n c v ⟨k, hk1.1, hk1.2, hk3⟩ _ rfl
    · obtain ⟨⟨⟨a, b⟩, c⟩, hq, rfl⟩ := List.mem_map.1 hr
      obtain ⟨k, hk⟩ := List.mem_iff_getElem?.1 hq
      rw [List.getElem?_zip_eq_some] at hk
      obtain ⟨hk1, hk3⟩ := hk
      rw [List.getElem?_zip_eq_some] at hk1
      simp only [Row.coeff, Row.rhs, sub_mul, Finset.sum_sub_distrib]
      rw [sum_single u _ hv.1, sum_single u _ hv.2, mul_zero, sub_eq_zero]
      exact hp g hg k a b c hk1.1 hk1.2 hk3 _ _ rfl rfl

theorem meets_iff (h : WF P) (u : Fin (nDofs P) → ℝ) :
    Meets P u ↔ ∀ q, ∑ j, bMat P q j * u j = gVec P q := by
  have := rows_iff P h 1 u
  simp only [one_mul] at this
  exact this.symm

theorem variation_iff (h : WF P) (w : Fin (nDofs P) → ℝ) :
    Variation P w ↔ ∀ q, ∑ j, bMat P q j * w j = 0 := by
  have := rows_iff P h 0 w
  simp only [zero_mul] at this
  exact this.symm

/-- Constraint forces are the vectors doing no work on admissible variations. -/
theorem range_iff (h : WF P) (r : Fin (nDofs P) → ℝ) :
    (∃ mu : Fin (augSize P) → ℝ, ∀ j, r j = ∑ q, mu q * bMat P q j) ↔
      ∀ w, Variation P w → ∑ j, r j * w j = 0 := by
  simp only [variation_iff P h]
  constructor
  · rintro ⟨mu, hmu⟩ w hw
    simp only [hmu, Finset.sum_mul]
    rw [Finset.sum_comm]
    refine Finset.sum_eq_zero fun q _ => ?_
    simp only [mul_assoc]
    rw [← Finset.mul_sum, hw q, mul_zero]
  · intro hw
    let form : (Fin (nDofs P) → ℝ) → Module.Dual ℝ (Fin (nDofs P) → ℝ) := fun a =>
      ∑ j, a j • LinearMap.proj j
    have hform : ∀ a v, form a v = ∑ j, a j * v j := by
      intro a v
      simp [form, LinearMap.sum_apply]
    have hmem : form r ∈ Submodule.span ℝ (Set.range fun q => form (bMat P q)) := by
      refine mem_span_of_iInf_ker_le_ker fun v hv => ?_
      rw [LinearMap.mem_ker, hform]
      refine hw v fun q => ?_
      have := (Submodule.mem_iInf _).1 hv q
      rw [LinearMap.mem_ker, hform] at this
      exact this
    obtain ⟨mu, hmu⟩ := (Submodule.mem_span_range_iff_exists_fun ℝ).1 hmem
    refine ⟨mu, fun j => ?_⟩
    have := congrArg (fun L : Module.Dual ℝ (Fin (nDofs P) → ℝ) => L (Pi.single j 1)) hmu
    simp only [LinearMap.sum_apply, LinearMap.smul_apply, hform, smul_eq_mul] at this
    simpa [Pi.single_apply] using this.symm

/-- An augmented vector from its parts. -/
def join (u : Fin (nDofs P) → ℝ) (mu : Fin (augSize P) → ℝ) : Vec P := Fin.append u mu

theorem dofsOf_join (u mu) : dofsOf P (join P u mu) = u := by
  funext i; simp [dofsOf, join]

theorem lamOf_join (u mu) : lamOf P (join P u mu) = mu := by
  funext i; simp [lamOf, join]

theorem join_parts (x : Vec P) : join P (dofsOf P x) (lamOf P x) = x := by
  funext k
  refine Fin.addCases (fun i => ?_) (fun q => ?_) k <;> simp [join, dofsOf, lamOf]

theorem residual_zero_iff (h : WF P) (eps : ℝ) (he : eps ≠ 0) (r : Fin (nDofs P) → ℝ) (x : Vec P) :
    residual P eps r x = 0 ↔ (∀ j, r j = ∑ q, (-(eps * lamOf P x q)) * bMat P q j) ∧ Meets P (dofsOf P x) := by
  have hc := C97_residual P h eps r x
  rw [meets_iff P h]
  constructor
  · intro h0
    constructor
    · intro j
      have := hc.1 j
      rw [h0, Pi.zero_apply] at this
      rw [eq_neg_of_add_eq_zero_left this.symm, Finset.mul_sum, ← Finset.sum_neg_distrib]
      refine Finset.sum_congr rfl fun q _ => by ring
    · intro q
      have := hc.2 q
      rw [h0, Pi.zero_apply] at this
      rcases mul_eq_zero.1 this.symm with h1 | h1
      · exact absurd h1 he
      · exact sub_eq_zero.1 h1
  · rintro ⟨h1, h2⟩
    funext k
    refine Fin.addCases (fun j => ?_) (fun q => ?_) k
    · rw [hc.1, h1, Finset.mul_sum, ← Finset.sum_add_distrib, Pi.zero_apply]
      refine Finset.sum_eq_zero fun q _ => by ring
    · rw [hc.2, h2, sub_self, mul_zero, Pi.zero_apply]

/-- **C97 (equilibrium).** The augmented residual vanishes for some multipliers exactly if `u` meets
all conditions and the residual does no work on admissible variations, whatever `p_num_eps ≠ 0`. -/
theorem C97_equilibrium (h : WF P) (eps : ℝ) (he : eps ≠ 0) (r u : Fin (nDofs P) → ℝ) :
    (∃ x : Vec P, dofsOf P x = u ∧ residual P eps r x = 0) ↔ Equilibrium P r u := by
  rw [Equilibrium, ← range_iff P h]
  constructor
  · rintro ⟨x, rfl, hx⟩
    obtain ⟨h1, h2⟩ := (residual_zero_iff P h eps he r x).1 hx
    exact ⟨h2, _, h1⟩
  · rintro ⟨h2, mu, h1⟩
    refine ⟨join P u fun q => -(mu q / eps), dofsOf_join P _ _, ?_⟩
    rw [residual_zero_iff P h eps he, dofsOf_join, lamOf_join]
    refine ⟨fun j => (h1 j).trans (Finset.sum_congr rfl fun q _ => ?_), h2⟩
    field_simp

/-! ### Regularity -/

/-- **C97 (regularity).** The augmented matrix is regular exactly if the constraints are independent
and the unconstrained matrix is regular on the admissible variations. -/
theorem C97_regular (h : WF P) (eps : ℝ) (he : eps ≠ 0) (T : List Nat × List Nat × List ℝ)
    (hT : WFT P T.1 T.2.1 T.2.2) :
    (∀ y, (matrix P eps T).mulVec y = 0 → y = 0) ↔
      (∀ mu : Fin (augSize P) → ℝ, (∀ j, ∑ q, mu q * bMat P q j = 0) → mu = 0) ∧
      ∀ w, Variation P w → (∀ w', Variation P w' → ∑ i, (kMat P T).mulVec w i * w' i = 0) → w = 0 := by
  have hm := matrix_mulVec P h eps T hT
  constructor
  · intro hinj
    constructor
    · intro mu hmu
      have := hinj (join P 0 mu) (by
        funext k
        refine Fin.addCases (fun j => ?_) (fun q => ?_) k
        · rw [(hm _).1, dofsOf_join, lamOf_join, hmu, Matrix.mulVec_zero]; simp
        · rw [(hm _).2, dofsOf_join]; simp)
      rw [← lamOf_join P 0 mu, this]; rfl
    · intro w hw hK
      obtain ⟨mu, hmu⟩ := (range_iff P h _).2 hK
      have := hinj (join P w fun q => -(mu q / eps)) (by
        funext k
        refine Fin.addCases (fun j => ?_) (fun q => ?_) k
        · rw [(hm _).1, dofsOf_join, lamOf_join, hmu, Finset.mul_sum, ← Finset.sum_add_distrib, Pi.zero_apply]
          refine Finset.sum_eq_zero fun q _ => ?_
          field_simp; ring
        · rw [(hm _).2, dofsOf_join, (variation_iff P h w).1 hw, mul_zero, Pi.zero_apply])
      rw [← dofsOf_join P w fun q => -(mu q / eps), this]; rfl
  · rintro ⟨hB, hK⟩ y hy
    have h1 : ∀ j, (kMat P T).mulVec (dofsOf P y) j + eps * ∑ q, lamOf P y q * bMat P q j = 0 := fun j => by
      rw [← (hm y).1, hy, Pi.zero_apply]
    have h2 : Variation P (dofsOf P y) := (variation_iff P h _).2 fun q => by
      have := (hm y).2 q
      rw [hy, Pi.zero_apply] at this
      exact (mul_eq_zero.1 this.symm).resolve_left he
    have h3 : dofsOf P y = 0 := by
      refine hK _ h2 ((range_iff P h _).1 ⟨fun q => -(eps * lamOf P y q), fun j => ?_⟩)
      rw [eq_neg_of_add_eq_zero_left (h1 j), Finset.mul_sum, ← Finset.sum_neg_distrib]
      refine Finset.sum_congr rfl fun q _ => by ring
    have h4 : lamOf P y = 0 := hB _ fun j => by
      have := h1 j
      rw [h3, Matrix.mulVec_zero, Pi.zero_apply, zero_add] at this
      exact (mul_eq_zero.1 this).resolve_left he
    rw [← join_parts P y, h3, h4]
    funext k
    refine Fin.addCases (fun j => ?_) (fun q => ?_) k <;> simp [join]

/-- **C97 (unique solution).** With independent constraints and `w · A w ≠ 0` on nonzero admissible
variations the system has exactly one solution for every right-hand side. -/
theorem C97_unique (h : WF P) (eps : ℝ) (he : eps ≠ 0) (T : List Nat × List Nat × List ℝ)
    (hT : WFT P T.1 T.2.1 T.2.2) (hB : ∀ mu : Fin (augSize P) → ℝ, (∀ j, ∑ q, mu q * bMat P q j = 0) → mu = 0)
    (hK : ∀ w, Variation P w → w ≠ 0 → ∑ i, (kMat P T).mulVec w i * w i ≠ 0) (b : Vec P) :
    ∃! x, (matrix P eps T).mulVec x = b := by
  have hinj : ∀ y, (matrix P eps T).mulVec y = 0 → y = 0 := (C97_regular P h eps he T hT).2
    ⟨hB, fun w hw hz => by
      by_contra hc
      exact hK w hw hc (hz w hw)⟩
  have hi : Function.Injective (Matrix.mulVecLin (matrix P eps T)) := by
    rw [← LinearMap.ker_eq_bot, LinearMap.ker_eq_bot']
    exact hinj
  obtain ⟨x, hx⟩ := (LinearMap.injective_iff_surjective.1 hi) b
  exact ⟨x, hx, fun y hy => hi (hy.trans hx.symm)⟩

/-- **C97 (dependent constraints).** Two pairs of degrees of freedom tied both ways round -- the four
corners when opposite sides are paired in two directions -- or a constraint stated twice make the
matrix singular, whatever the unconstrained matrix. -/
theorem C97_singular (h : WF P) (eps : ℝ) (he : eps ≠ 0) (T : List Nat × List Nat × List ℝ)
    (hT : WFT P T.1 T.2.1 T.2.2)
    (hr : (∃ (q q' : Nat) (row row' : Row ℝ), q ≠ q' ∧ (rows P)[q]? = some row ∧ (rows P)[q']? = some row' ∧
        ∀ j, row.coeff j = row'.coeff j) ∨
      ∃ a b c d q₁ q₂ q₃ q₄ : Nat, [q₁, q₂, q₃, q₄].Nodup ∧ (rows P)[q₁]? = some (.tie a b) ∧
        (rows P)[q₂]? = some (.tie b d) ∧ (rows P)[q₃]? = some (.tie a c) ∧ (rows P)[q₄]? = some (.tie c d)) :
    ∃ y, y ≠ 0 ∧ (matrix P eps T).mulVec y = 0 := by
  by_contra hc
  push Not at hc
  have hreg := (C97_regular P h eps he T hT).1 fun y hy => by
    by_contra hne
    exact hc y hne hy
  have hlt : ∀ (q : Nat) (row : Row ℝ), (rows P)[q]? = some row → q < augSize P := fun q row hq => by
    rw [← rows_length P h]
    exact (List.getElem?_eq_some_iff.1 hq).1
  have hb : ∀ (q : Nat) (row : Row ℝ) (hq : (rows P)[q]? = some row) j,
      bMat P ⟨q, hlt q row hq⟩ j = row.coeff j := by
    intro q row hq j
    simp [bMat, hq]
  rcases hr with ⟨q, q', row, row', hne, hq, hq', hcoef⟩ | ⟨a, b, c, d, q₁, q₂, q₃, q₄, hnd, h1, h2, h3, h4⟩
  · have := hreg.1 (Pi.single ⟨q, hlt q row hq⟩ 1 - Pi.single ⟨q', hlt q' row' hq'⟩ 1) fun j => by
      simp only [Pi.sub_apply, sub_mul, Finset.sum_sub_distrib, Pi.single_apply, ite_mul, one_mul, zero_mul,
        Finset.sum_ite_eq', Finset.mem_univ, if_true]
      rw [hb q row hq, hb q' row' hq', hcoef, sub_self]
    have e := congrFun this ⟨q, hlt q row hq⟩
    simp [hne] at e
  · have := hreg.1 (Pi.single ⟨q₁, hlt _ _ h1⟩ 1 + Pi.single ⟨q₂, hlt _ _ h2⟩ 1 - Pi.single ⟨q₃, hlt _ _ h3⟩ 1 -
        Pi.single ⟨q₄, hlt _ _ h4⟩ 1) fun j => by
      simp only [Pi.sub_apply, Pi.add_apply, sub_mul, add_mul, Finset.sum_sub_distrib, Finset.sum_add_distrib,
        Pi.single_apply, ite_mul, one_mul, zero_mul, Finset.sum_ite_eq', Finset.mem_univ, if_true]
      rw [hb _ _ h1, hb _ _ h2, hb _ _ h3, hb _ _ h4]
      simp only [Row.coeff]
      ring
    have e := congrFun this ⟨q₁, hlt _ _ h1⟩
    simp only [List.nodup_cons, List.mem_cons, List.not_mem_nil, or_false, not_or] at hnd
    obtain ⟨⟨n1, n2, n3⟩, -⟩ := hnd
    simp [Pi.single_apply, n1, n2, n3] at e

theorem index_inj {v n n' c c' : Nat} (hc : c < v) (hc' : c' < v) (h : n * v + c = n' * v + c') :
    n = n' ∧ c = c' := by
  have h1 : (n * v + c) / v = n := by
    rw [Nat.mul_comm, Nat.mul_add_div (by omega), Nat.div_eq_of_lt hc, Nat.add_zero]
  have h2 : (n' * v + c') / v = n' := by
    rw [Nat.mul_comm, Nat.mul_add_div (by omega), Nat.div_eq_of_lt hc', Nat.add_zero]
  have h3 : n = n' := by rw [← h1, h, h2]
  subst h3
  exact ⟨rfl, by omega⟩

/-! ### Comparison with the other treatments of constraints -/

/-- **C97 (Dirichlet conditions).** Without periodic conditions and with non-contradicting entries the
multiplier system has the solutions of the problem solved by row elimination (C18, C20). -/
theorem C97_dirichlet (h : WF P) (hp : P.p = []) (hw : WFBC [P.fe] [P.d])
    (hcon : ∀ e ∈ P.d, ∀ e' ∈ P.d, ∀ n c v v', e.Prescribes n c v → e'.Prescribes n c v' → v = v')
    (eps : ℝ) (he : eps ≠ 0) (res : (Fin (nDofs P) → ℝ) → Fin (nDofs P) → ℝ) (u : Fin (nDofs P) → ℝ) :
    (∃ x : Vec P, dofsOf P x = u ∧ residual P eps (res u) x = 0) ↔ SolvesBVP [P.fe] [P.d] res u := by
  rw [C97_equilibrium P h eps he, Equilibrium, SolvesBVP]
  have hdof : ∀ n c, dofNum [P.fe] 0 n c = n * P.fe.vec + c := by
    intro n c
    simp [dofNum]
  have hone : ∀ {i : Nat} {fe : FE}, [P.fe][i]? = some fe → i = 0 ∧ fe = P.fe := by
    intro i fe hi
    cases i with
    | zero => exact ⟨rfl, by simpa using hi.symm⟩
    | succ i => simp at hi
  have htot : totalDofs [P.fe] = nDofs P := by simp [totalDofs, FE.numTotalDofs]
  have hfix : ∀ (k : Fin (nDofs P)) v, Prescribed [P.fe] [P.d] k (some v) →
      ∃ e ∈ P.d, ∃ n c, e.Prescribes n c v ∧ (k : Nat) = n * P.fe.vec + c := by
    intro k v hk
    cases hk with
    | fixed i n c fe es v h1 h2 h3 h4 h5 h6 =>
      obtain ⟨rfl, rfl⟩ := hone h1
      have hes : es = P.d := by simpa using h2.symm
      subst hes
      obtain ⟨bef, e, aft, h7, h8, -⟩ := h6
      exact ⟨e, h7 ▸ (by simp), n, c, h8, h5.trans (hdof n c)⟩
  have hfree : ∀ (k : Fin (nDofs P)), Prescribed [P.fe] [P.d] k none →
      ∀ e ∈ P.d, ∀ n c v, e.Prescribes n c v → (k : Nat) ≠ n * P.fe.vec + c := by
    intro k hk e hed n c v hpr hkn
    cases hk with
    | free i n' c' fe es h1 h2 h3 h4 h5 h6 =>
      obtain ⟨rfl, rfl⟩ := hone h1
      have hes : es = P.d := by simpa using h2.symm
      subst hes
      have hcv : c < P.fe.vec := by
        obtain ⟨m, -, hm, -⟩ := hpr
        exact (h.valid e hed).2 c (List.mem_of_getElem? hm)
      obtain ⟨rfl, rfl⟩ := index_inj hcv h4 ((hkn.symm.trans h5).trans (hdof _ _))
      exact h6 e hed v hpr
  have hex : ∀ k : Fin (nDofs P), ∃ o, Prescribed [P.fe] [P.d] k o :=
    fun k => prescribed_exists [P.fe] [P.d] hw k (by rw [htot]; exact k.2)
  have hsat : Meets P u ↔ SatisfiesBC [P.fe] [P.d] u := by
    rw [Meets, hp]
    constructor
    · rintro ⟨hm, -⟩ k v hk
      obtain ⟨e, hed, n, c, hpr, hkn⟩ := hfix k v hk
      exact hm e hed n c v hpr k hkn
    · intro hs
      refine ⟨fun e hed n c v hpr k hkn => ?_, fun g hg => by cases hg⟩
      obtain ⟨o, ho⟩ := hex k
      cases o with
      | none => exact absurd hkn (hfree k ho e hed n c v hpr)
      | some v' =>
        obtain ⟨e', hed', n', c', hpr', hkn'⟩ := hfix k v' ho
        have hc1 : c < P.fe.vec := by
          obtain ⟨m, -, hm, -⟩ := hpr
          exact (h.valid e hed).2 c (List.mem_of_getElem? hm)
        have hc2 : c' < P.fe.vec := by
          obtain ⟨m, -, hm, -⟩ := hpr'
          exact (h.valid e' hed').2 c' (List.mem_of_getElem? hm)
        obtain ⟨rfl, rfl⟩ := index_inj hc1 hc2 (hkn.symm.trans hkn')
        rw [hs k v' ho, hcon e hed e' hed' n c v v' hpr hpr']
  rw [hsat]
  refine and_congr_right fun hs => ?_
  constructor
  · intro hv k hk
    have := hv (Pi.single k 1) ⟨fun e hed n c v hpr l hl => ?_, fun g hg => by rw [hp] at hg; cases hg⟩
    · simpa [Pi.single_apply] using this
    · rw [Pi.single_eq_of_ne]
      rintro rfl
      exact hfree l hk e hed n c v hpr hl
  · intro hk w hvar
    refine Finset.sum_eq_zero fun k _ => ?_
    obtain ⟨o, ho⟩ := hex k
    cases o with
    | none => rw [hk k ho, zero_mul]
    | some v =>
      obtain ⟨e, hed, n, c, hpr, hkn⟩ := hfix k v ho
      rw [hvar.1 e hed n c v hpr k hkn, mul_zero]

/-- **C97 (contradicting entries).** If two entries prescribe different values for the same degree of
freedom the multiplier system has no solution (row elimination takes the last one, C16). -/
theorem C97_conflict (h : WF P) (eps : ℝ) (he : eps ≠ 0) (e e' : BCEntry ℝ) (hed : e ∈ P.d) (hed' : e' ∈ P.d)
    (n c : Nat) (v v' : ℝ) (hv : e.Prescribes n c v) (hv' : e'.Prescribes n c v') (hne : v ≠ v')
    (r : Fin (nDofs P) → ℝ) (x : Vec P) : residual P eps r x ≠ 0 := by
  intro h0
  have hm := ((residual_zero_iff P h eps he r x).1 h0).2
  have hlt : n * P.fe.vec + c < nDofs P := by
    obtain ⟨m, h1, h2, -⟩ := hv
    have := index_lt P.fe n c ((h.valid e hed).1 n (List.mem_of_getElem? h1)) ((h.valid e hed).2 c (List.mem_of_getElem? h2))
    rwa [Nat.mul_comm] at this
  exact hne ((hm.1 e hed n c v hv ⟨_, hlt⟩ rfl).symm.trans (hm.1 e' hed' n c v' hv' ⟨_, hlt⟩ rfl))

/-- The paired degrees of freedom in the form of `periodic_bc/example.py:82-90`. -/
def tieA (P : Prob ℝ) : List Nat :=
  P.p.flatMap fun g => (g.nodesA.zip g.comps).map fun q => q.1 * P.fe.vec + q.2

/-- The second halves of the pairs. -/
def tieB (P : Prob ℝ) : List Nat :=
  P.p.flatMap fun g => (g.nodesB.zip g.comps).map fun q => q.1 * P.fe.vec + q.2

theorem tie_lists (h : WF P) : (tieA P).length = (tieB P).length ∧ (tieA P).zip (tieB P) =
    P.p.flatMap fun g => ((g.nodesA.zip g.nodesB).zip g.comps).map fun q =>
      (q.1.1 * P.fe.vec + q.2, q.1.2 * P.fe.vec + q.2) := by
  have key : ∀ l : List PEntry, (∀ g ∈ l, g ∈ P.p) →
      (l.flatMap fun g => (g.nodesA.zip g.comps).map fun q => q.1 * P.fe.vec + q.2).length =
        (l.flatMap fun g => (g.nodesB.zip g.comps).map fun q => q.1 * P.fe.vec + q.2).length ∧
      (l.flatMap fun g => (g.nodesA.zip g.comps).map fun q => q.1 * P.fe.vec + q.2).zip
        (l.flatMap fun g => (g.nodesB.zip g.comps).map fun q => q.1 * P.fe.vec + q.2) =
      l.flatMap fun g => ((g.nodesA.zip g.nodesB).zip g.comps).map fun q =>
        (q.1.1 * P.fe.vec + q.2, q.1.2 * P.fe.vec + q.2) := by
    intro l
    induction l with
    | nil => intro _; exact ⟨rfl, rfl⟩
    | cons g l ih =>
      intro hl
      obtain ⟨i1, i2⟩ := ih fun g' hg' => hl g' (List.mem_cons_of_mem _ hg')
      have hg := hl g List.mem_cons_self
      have l1 := h.pB g hg
      have l2 := h.pcomps g hg
      simp only [List.flatMap_cons]
      constructor
      · rw [List.length_append, List.length_append, i1]; simp [l1, l2]
      · rw [List.zip_append (by simp [l1, l2]), i2]
        congr 1
        refine List.ext_getElem (by simp [l1, l2]) fun i h1 h2 => ?_
        simp
  exact key P.p fun g hg => hg

/-- **C97 (periodic conditions).** Without Dirichlet entries, and if the elimination matrix of
`periodic_bc/example.py` exists (C37), the multiplier system has the solutions of the reduced problem
(C36). -/
theorem C97_periodic (h : WF P) (hd : P.d = []) (hnd : (tieB P).Nodup) (hdis : ∀ a ∈ tieA P, a ∉ tieB P)
    (eps : ℝ) (he : eps ≠ 0) (res : (Fin (nDofs P) → ℝ) → Fin (nDofs P) → ℝ) :
    ∃ (cols : List Nat) (sel : Fin (nDofs P) → Fin (nDofs P - (tieB P).length)),
      periodicMatrix (nDofs P) (tieA P) (tieB P) = .ok (cols, nDofs P, nDofs P - (tieB P).length) ∧
      (∀ i : Fin (nDofs P), cols[(i : Nat)]? = some (sel i : Nat)) ∧
      ∀ u, (∃ x : Vec P, dofsOf P x = u ∧ residual P eps (res u) x = 0) ↔
        ∃ y, u = (selMat sel).mulVec y ∧ mpcResidual (selMat sel) [P.fe] [[]] res y = 0 := by
  obtain ⟨hlen, hzip⟩ := tie_lists P h
  have hlt : ∀ a b, (a, b) ∈ (tieA P).zip (tieB P) → a < nDofs P ∧ b < nDofs P := by
    intro a b hab
    rw [hzip, List.mem_flatMap] at hab
    obtain ⟨g, hg, hab⟩ := hab
    obtain ⟨⟨⟨n, m⟩, c⟩, hq, hqe⟩ := List.mem_map.1 hab
    obtain ⟨rfl, rfl⟩ := Prod.mk.inj hqe
    exact rows_valid P h (.tie _ _) (List.mem_append_right _ (List.mem_flatMap.2 ⟨g, hg, List.mem_map.2 ⟨_, hq, rfl⟩⟩))
  have hA : ∀ a ∈ tieA P, a < nDofs P := by
    intro a ha
    obtain ⟨i, hi⟩ := List.mem_iff_getElem?.1 ha
    have hiB : i < (tieB P).length := by rw [← hlen]; exact (List.getElem?_eq_some_iff.1 hi).1
    exact (hlt a (tieB P)[i] (List.mem_of_getElem? (i := i)
      (List.getElem?_zip_eq_some.2 ⟨hi, List.getElem?_eq_getElem hiB⟩))).1
  have hB : ∀ b ∈ tieB P, b < nDofs P := by
    intro b hb
    obtain ⟨i, hi⟩ := List.mem_iff_getElem?.1 hb
    have hiA : i < (tieA P).length := by rw [hlen]; exact (List.getElem?_eq_some_iff.1 hi).1
    exact (hlt (tieA P)[i] b (List.mem_of_getElem? (i := i)
      (List.getElem?_zip_eq_some.2 ⟨List.getElem?_eq_getElem hiA, hi⟩))).2
  obtain ⟨cols, hper, -, hcl, hcm, hpair, hinj, hsur⟩ := C37_matrix (nDofs P) (tieA P) (tieB P) hlen hA hB hnd hdis
  have hi' : ∀ i : Fin (nDofs P), (i : Nat) < cols.length := fun i => by rw [hcl]; exact i.2
  let sel : Fin (nDofs P) → Fin (nDofs P - (tieB P).length) :=
    fun i => ⟨cols[(i : Nat)]'(hi' i), hcm _ (List.getElem_mem _)⟩
  have hsel : ∀ i : Fin (nDofs P), cols[(i : Nat)]? = some (sel i : Nat) := fun i => List.getElem?_eq_getElem (hi' i)
  have hvar : ∀ w, Variation P w ↔ ∃ y, w = (selMat sel).mulVec y := by
    intro w
    have hv1 : Variation P w ↔ ∀ a b : Fin (nDofs P), ((a : Nat), (b : Nat)) ∈ (tieA P).zip (tieB P) → w a = w b := by
      rw [hzip]
      constructor
      · rintro ⟨-, hv⟩ a b hab
        obtain ⟨g, hg, hab⟩ := List.mem_flatMap.1 hab
        obtain ⟨⟨⟨n, m⟩, c⟩, hq, hqe⟩ := List.mem_map.1 hab
        obtain ⟨e1, e2⟩ := Prod.mk.inj hqe
        obtain ⟨i, hi⟩ := List.mem_iff_getElem?.1 hq
        rw [List.getElem?_zip_eq_some] at hi
        obtain ⟨hi1, hi2⟩ := hi
        rw [List.getElem?_zip_eq_some] at hi1
        exact hv g hg i n m c hi1.1 hi1.2 hi2 a b e1.symm e2.symm
      · intro hv
        refine ⟨fun e hed => (by rw [hd] at hed; cases hed), fun g hg i a b c h1 h2 h3 k l hk hl => ?_⟩
        refine hv k l (List.mem_flatMap.2 ⟨g, hg, List.mem_map.2 ⟨((a, b), c), ?_, by rw [hk, hl]⟩⟩)
        refine List.mem_of_getElem? (i := i) ?_
        rw [List.getElem?_zip_eq_some]
        refine ⟨?_, h3⟩
        rw [List.getElem?_zip_eq_some]
        exact ⟨h1, h2⟩
    rw [hv1]
    constructor
    · intro hw
      have hrep : ∀ c : Fin (nDofs P - (tieB P).length), ∃ i : Fin (nDofs P), (i : Nat) ∉ tieB P ∧ sel i = c := by
        intro c
        obtain ⟨i, h1, h2, h3⟩ := hsur c c.2
        refine ⟨⟨i, h1⟩, h2, Fin.ext ?_⟩
        have := hsel ⟨i, h1⟩
        exact (Option.some.inj (h3.symm.trans this)).symm
      choose rep hr1 hr2 using hrep
      have hfree : ∀ i : Fin (nDofs P), (i : Nat) ∉ tieB P → w i = w (rep (sel i)) := by
        intro i hiB
        congr 1
        refine Fin.ext (hinj i (rep (sel i)) i.2 (rep (sel i)).2 hiB (hr1 _) ?_)
        rw [hsel i, hsel (rep (sel i)), hr2]
      refine ⟨fun c => w (rep c), funext fun i => ?_⟩
      rw [selMat_mulVec]
      by_cases hiB : (i : Nat) ∈ tieB P
      · obtain ⟨k, hk⟩ := List.mem_iff_getElem?.1 hiB
        have hkA : k < (tieA P).length := by rw [hlen]; exact (List.getElem?_eq_some_iff.1 hk).1
        have ha := List.getElem?_eq_getElem hkA
        have hmem : (tieA P)[k] ∈ tieA P := List.getElem_mem _
        have hw1 := hw ⟨(tieA P)[k], hA _ hmem⟩ i (List.mem_of_getElem? (i := k) (List.getElem?_zip_eq_some.2 ⟨ha, hk⟩))
        have hs : sel ⟨(tieA P)[k], hA _ hmem⟩ = sel i := by
          refine Fin.ext ?_
          have h1 := hpair k _ _ ha hk
          rw [hsel i] at h1
          have h2 := hsel ⟨(tieA P)[k], hA _ hmem⟩
          exact (Option.some.inj (h1.trans h2)).symm
        rw [← hw1, hfree _ (hdis _ hmem), hs]
      · exact hfree i hiB
    · rintro ⟨y, rfl⟩ a b hab
      obtain ⟨k, hk⟩ := List.mem_iff_getElem?.1 hab
      rw [List.getElem?_zip_eq_some] at hk
      rw [selMat_mulVec, selMat_mulVec]
      congr 1
      refine Fin.ext ?_
      have h1 := hpair k _ _ hk.1 hk.2
      rw [hsel a, hsel b] at h1
      exact (Option.some.inj h1).symm
  have hmeet : ∀ w, Meets P w ↔ Variation P w := by
    intro w
    rw [Meets, Variation, hd]
    exact and_congr ⟨fun _ e hx => (by cases hx), fun _ e hx => (by cases hx)⟩ Iff.rfl
  have htot : totalDofs [P.fe] = nDofs P := by simp [totalDofs, FE.numTotalDofs]
  have happ : ∀ r u : Fin (nDofs P) → ℝ, applyBcV [P.fe] [[]] 1 r u = r := by
    intro r u
    have hw : WFBC (K := ℝ) [P.fe] [[]] := by
      refine ⟨rfl, ?_, ?_, ?_, ?_⟩
      · intro es hes e he; simp at hes; subst hes; cases he
      · intro es hes e he; simp at hes; subst hes; cases he
      · intro es hes e he; simp at hes; subst hes; cases he
      · intro i fe es _ hes e he
        cases i with
        | zero => simp at hes; subst hes; cases he
        | succ i => simp at hes
    funext k
    have hspec := C16_residual [P.fe] [[]] hw 1 (List.ofFn r) (List.ofFn u) (by simp [htot]) (by simp [htot])
    have hk : (k : Nat) < totalDofs [P.fe] := by rw [htot]; exact k.2
    obtain ⟨o, ho⟩ := prescribed_exists (K := ℝ) [P.fe] [[]] hw k hk
    cases o with
    | none =>
      rw [applyBcV, (hspec.2 k hk).1 ho, getD_ofFn r k k.2]
    | some v =>
      cases ho with
      | fixed i n c fe es v h1 h2 h3 h4 h5 h6 =>
        obtain ⟨bef, e, aft, h7, -⟩ := h6
        cases i with
        | zero =>
          have hes : es = [] := by simpa using h2.symm
          rw [hes] at h7; simp at h7
        | succ i => simp at h2
  refine ⟨cols, sel, hper, hsel, fun u => ?_⟩
  rw [C97_equilibrium P h eps he, Equilibrium, hmeet, hvar]
  have hwork : ∀ r : Fin (nDofs P) → ℝ, (∀ w, Variation P w → ∑ i, r i * w i = 0) ↔ (selMat sel).transpose.mulVec r = 0 := by
    intro r
    have hsum : ∀ y : Fin (nDofs P - (tieB P).length) → ℝ,
        ∑ i, r i * (selMat sel).mulVec y i = ∑ j, (selMat sel).transpose.mulVec r j * y j := by
      intro y
      simp only [selMat_mulVec, selMat_transpose_mulVec, Finset.sum_mul, ite_mul, zero_mul]
      rw [Finset.sum_comm]
      refine Finset.sum_congr rfl fun i _ => ?_
      rw [Finset.sum_ite_eq]
      simp
    constructor
    · intro hw
      funext j
      have := hw _ ((hvar _).2 ⟨Pi.single j 1, rfl⟩)
      rw [hsum] at this
      simpa [Pi.single_apply] using this
    · intro h0 w hw
      obtain ⟨y, rfl⟩ := (hvar w).1 hw
      rw [hsum, h0]
      simp
  rw [hwork]
  constructor
  · rintro ⟨⟨y, hy⟩, h0⟩
    refine ⟨y, hy, ?_⟩
    rw [mpcResidual, happ, ← hy, h0]
  · rintro ⟨y, hy, h0⟩
    rw [mpcResidual, happ, ← hy] at h0
    exact ⟨⟨y, hy⟩, h0⟩

end LM
end JaxFem
