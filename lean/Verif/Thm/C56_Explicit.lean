import Verif.Model.Explicit
import Verif.Thm.Assembly
import Mathlib.Tactic.FieldSimp
import Mathlib.Tactic.LinearCombination
import Mathlib.Algebra.BigOperators.Ring.Finset
import Mathlib.Algebra.BigOperators.Field

/-!
# C56, C67: explicit dynamics
-/

namespace JaxFem
namespace Explicit

variable {K : Type} [Field K] {N vec : Nat}

/-! ### Helper lemmas -/

theorem scatterAdd_length (m : List K) (ops : List (Nat × K)) : (scatterAdd m ops).length = m.length := by
  unfold scatterAdd
  induction ops generalizing m with
  | nil => rfl
  | cons p ops ih => rw [List.foldl_cons, ih, List.length_modify]

theorem scatterAdd_entry (m : List K) (ops : List (Nat × K)) (h : ∀ p ∈ ops, p.1 < m.length) (n : Nat)
    (hn : n < m.length) :
    (scatterAdd m ops).getD n 0 = m.getD n 0 + (ops.map fun p => if p.1 = n then p.2 else 0).sum := by
  unfold scatterAdd
  induction ops generalizing m with
  | nil => simp
  | cons p ops ih =>
    rw [List.foldl_cons, ih _ (fun q hq => by rw [List.length_modify]; exact h q (List.mem_cons_of_mem _ hq))
      (by rw [List.length_modify]; exact hn), List.map_cons, List.sum_cons,
      getD_modify _ _ _ _ _ (h p (List.mem_cons_self ..))]
    by_cases hp : p.1 = n
    · subst hp
      simp only [if_true]
      ring
    · have hp' : ¬n = p.1 := fun e => hp e.symm
      simp only [if_neg hp, if_neg hp', zero_add]

theorem history_succ (fixed : Fin N → Fin vec → Bool) (mass : Fin N → K) (force : Field3 K N vec → Field3 K N vec)
    (dt : K) (u0 v0 : Field3 K N vec) (k : Nat) :
    carry fixed mass force dt u0 v0 (k + 1) = step fixed mass force dt (carry fixed mass force dt u0 v0 k) :=
  Function.iterate_succ_apply' _ _ _

/-! ### Property theorems -/

/-- **C56 (mass).** The lumped mass of a node is its row sum of the consistent mass matrix
`∑ over cells, quadrature points and local nodes of rho N_a N_b JxW`, when the shape functions sum to one. -/
theorem C56_row_sum {nq nn : Nat} (rho : K) (shapeVals : Fin nq → Fin nn → K) (numNodes : Nat)
    (cells : List ((Fin nn → Nat) × (Fin nq → K))) (hv : ∀ c ∈ cells, ∀ a, c.1 a < numNodes)
    (hpu : ∀ q, ∑ b, shapeVals q b = 1) (n : Nat) (hn : n < numNodes) :
    (nodalMass rho shapeVals numNodes cells).getD n 0 =
      (cells.map fun c => ∑ a, ∑ b, if c.1 a = n then ∑ q, rho * shapeVals q a * shapeVals q b * c.2 q else 0).sum := by
  unfold nodalMass
  rw [scatterAdd_entry _ _ (by
    intro p hp
    obtain ⟨c, hc, hp⟩ := List.mem_flatMap.1 hp
    obtain ⟨i, _, rfl⟩ := List.mem_map.1 hp
    simpa using hv c hc i) n (by simpa using hn)]
  have h0 : (List.replicate numNodes (0 : K)).getD n 0 = 0 := by
    rw [List.getD_eq_getElem _ _ (by simpa using hn), List.getElem_replicate]
  rw [h0, zero_add, sum_map_flatMap]
  congr 1
  refine List.map_congr_left fun c _ => ?_
  rw [List.map_map, ← List.ofFn_eq_map, List.sum_ofFn]
  refine Finset.sum_congr rfl fun a _ => ?_
  simp only [Function.comp]
  by_cases ha : c.1 a = n
  · simp only [ha, if_true, elementMass]
    rw [Finset.sum_comm, Finset.mul_sum]
    refine Finset.sum_congr rfl fun q _ => ?_
    have : ∑ b, rho * shapeVals q a * shapeVals q b * c.2 q = rho * shapeVals q a * c.2 q * ∑ b, shapeVals q b := by
      rw [Finset.mul_sum]
      exact Finset.sum_congr rfl fun b _ => by ring
    rw [this, hpu]
    ring
  · simp [ha]

/-- **C56 (total mass).** The lumped masses add up to density times the sum of all `JxW`. -/
theorem C56_total_mass {nq nn : Nat} (rho : K) (shapeVals : Fin nq → Fin nn → K) (numNodes : Nat)
    (cells : List ((Fin nn → Nat) × (Fin nq → K))) (hv : ∀ c ∈ cells, ∀ a, c.1 a < numNodes)
    (hpu : ∀ q, ∑ b, shapeVals q b = 1) :
    (nodalMass rho shapeVals numNodes cells).length = numNodes ∧
    (nodalMass rho shapeVals numNodes cells).sum = rho * (cells.map fun c => ∑ q, c.2 q).sum := by
  have hl : (nodalMass rho shapeVals numNodes cells).length = numNodes := by
    unfold nodalMass; rw [scatterAdd_length, List.length_replicate]
  refine ⟨hl, ?_⟩
  have hsum : ∀ (ops : List (Nat × K)) (m : List K), (∀ p ∈ ops, p.1 < m.length) →
      (scatterAdd m ops).sum = m.sum + (ops.map Prod.snd).sum := by
    intro ops
    induction ops with
    | nil => intro m _; simp [scatterAdd]
    | cons p ops ih =>
      intro m h
      have hmod : ∀ (l : List K) (k : Nat) (v : K), k < l.length → (l.modify k (· + v)).sum = l.sum + v := by
        intro l
        induction l with
        | nil => intro k v hk; simp at hk
        | cons x l ih' =>
          intro k v hk
          cases k with
          | zero => simp; ring
          | succ k =>
            rw [List.modify_succ_cons, List.sum_cons, List.sum_cons, ih' k v (by simpa using hk)]
            ring
      have e : scatterAdd m (p :: ops) = scatterAdd (m.modify p.1 (· + p.2)) ops := rfl
      rw [e, ih _ (fun q hq => by rw [List.length_modify]; exact h q (List.mem_cons_of_mem _ hq)),
        hmod m p.1 p.2 (h p (List.mem_cons_self ..)), List.map_cons, List.sum_cons]
      ring
  unfold nodalMass
  rw [hsum _ _ (by
    intro p hp
    obtain ⟨c, hc, hp⟩ := List.mem_flatMap.1 hp
    obtain ⟨i, _, rfl⟩ := List.mem_map.1 hp
    simpa using hv c hc i), sum_map_flatMap]
  rw [List.sum_replicate, smul_zero, zero_add, ← List.sum_map_mul_left]
  congr 1
  refine List.map_congr_left fun c _ => ?_
  rw [List.map_map, ← List.ofFn_eq_map, List.sum_ofFn]
  simp only [Function.comp, elementMass]
  rw [← Finset.mul_sum, Finset.sum_comm]
  congr 1
  refine Finset.sum_congr rfl fun q _ => ?_
  rw [← Finset.sum_mul, hpu, one_mul]

/-- **C56 (fixed entries).** The mask is true exactly for the node/component pairs of the Dirichlet lists. -/
theorem C56_mask (bcs : List (List Nat × List Nat)) (n c : Nat) :
    fixedMask bcs n c = true ↔ ∃ p ∈ bcs, ∃ k : Nat, p.1[k]? = some n ∧ p.2[k]? = some c := by
  unfold fixedMask
  rw [List.any_eq_true]
  refine exists_congr fun p => and_congr_right fun _ => ?_
  rw [List.contains_iff_mem, List.mem_iff_getElem?]
  refine exists_congr fun k => ?_
  rw [List.getElem?_zip_eq_some]

/-- **C56 (fixed degrees of freedom).** They are zero in every state after the first step, for every force; and
also initially if the initial field is. -/
theorem C56_fixed (fixed : Fin N → Fin vec → Bool) (mass : Fin N → K) (force : Field3 K N vec → Field3 K N vec)
    (dt : K) (u0 v0 : Field3 K N vec) (n : Fin N) (c : Fin vec) (hf : fixed n c = true) (k : Nat) :
    history fixed mass force dt u0 v0 (k + 1) n c = 0 ∧
    (u0 n c = 0 → history fixed mass force dt u0 v0 k n c = 0) := by
  have h1 : ∀ k, history fixed mass force dt u0 v0 (k + 1) n c = 0 := by
    intro k
    unfold history
    rw [history_succ]
    simp only [step, hf, if_true]
  refine ⟨h1 k, fun h0 => ?_⟩
  cases k with
  | zero => exact h0
  | succ k => exact h1 k

/-- **C56 (scheme).** At free degrees of freedom the history satisfies the central difference equations
`m (u_{k+1} - 2 u_k + u_{k-1}) / dt² = -f(u_k)` and starts with the second-order Taylor step. -/
theorem C56_scheme [CharZero K] (fixed : Fin N → Fin vec → Bool) (mass : Fin N → K)
    (force : Field3 K N vec → Field3 K N vec) (dt : K) (u0 v0 : Field3 K N vec) (hdt : dt ≠ 0) (n : Fin N)
    (c : Fin vec) (hm : mass n ≠ 0) (hf : fixed n c = false) :
    (∀ k, mass n * ((history fixed mass force dt u0 v0 (k + 2) n c - 2 * history fixed mass force dt u0 v0 (k + 1) n c +
      history fixed mass force dt u0 v0 k n c) / dt ^ 2) = -force (history fixed mass force dt u0 v0 (k + 1)) n c) ∧
    history fixed mass force dt u0 v0 0 = u0 ∧
    history fixed mass force dt u0 v0 1 n c = u0 n c + dt * v0 n c + dt ^ 2 / 2 * (-force u0 n c / mass n) := by
  refine ⟨fun k => ?_, rfl, ?_⟩
  · unfold history
    rw [history_succ, history_succ]
    simp only [step, hf, acceleration, Bool.false_eq_true, if_false]
    field_simp
    ring
  · unfold history
    rw [history_succ]
    simp only [carry, Function.iterate_zero, id, step, uPrevious, hf, acceleration, Bool.false_eq_true, if_false]
    field_simp
    ring

/-- **C56 (reversible).** Exchanging the last two states and continuing with the same step runs the history
backwards, for every force and number of steps, if the initial field respects the fixed degrees of freedom. -/
theorem C56_reversible (fixed : Fin N → Fin vec → Bool) (mass : Fin N → K)
    (force : Field3 K N vec → Field3 K N vec) (dt : K) (u0 v0 : Field3 K N vec)
    (h0 : ∀ n c, fixed n c = true → u0 n c = 0) (k : Nat) :
    (step fixed mass force dt)^[k] ((carry fixed mass force dt u0 v0 k).2, (carry fixed mass force dt u0 v0 k).1) =
      (u0, uPrevious fixed mass force dt u0 v0) := by
  induction k with
  | zero => rfl
  | succ k ih =>
    rw [Function.iterate_succ_apply]
    have hz : ∀ k n c, fixed n c = true → (carry fixed mass force dt u0 v0 k).1 n c = 0 := by
      intro k n c hf
      cases k with
      | zero => simp [carry, uPrevious, hf]
      | succ k =>
        rw [history_succ]
        exact (C56_fixed fixed mass force dt u0 v0 n c hf k).2 (h0 n c hf)
    have hs : step fixed mass force dt ((carry fixed mass force dt u0 v0 (k + 1)).2,
        (carry fixed mass force dt u0 v0 (k + 1)).1) =
        ((carry fixed mass force dt u0 v0 k).2, (carry fixed mass force dt u0 v0 k).1) := by
      rw [history_succ]
      unfold step
      dsimp only
      congr 1
      funext n c
      by_cases hf : fixed n c = true
      · rw [if_pos hf, hz k n c hf]
      · rw [if_neg hf, if_neg hf]
        ring
    rw [hs]
    exact ih

/-- Discrete energy of two consecutive states for a linear force. -/
noncomputable def energy (mass : Fin N → K) (stiff : Field3 K N vec → Field3 K N vec) (dt : K)
    (u u' : Field3 K N vec) : K :=
  1 / 2 * (∑ n, ∑ c, mass n * ((u' n c - u n c) / dt) ^ 2) + 1 / 2 * ∑ n, ∑ c, u n c * stiff u' n c

/-- **C67.** For a symmetric internal force (linear elasticity) the discrete energy is the same at all times:
the scheme neither creates nor dissipates energy. -/
theorem C67_energy [CharZero K] (fixed : Fin N → Fin vec → Bool) (mass : Fin N → K)
    (force : Field3 K N vec → Field3 K N vec) (dt : K) (u0 v0 : Field3 K N vec) (hdt : dt ≠ 0)
    (hm : ∀ n, mass n ≠ 0) (h0 : ∀ n c, fixed n c = true → u0 n c = 0)
    (hsym : ∀ u w : Field3 K N vec, ∑ n, ∑ c, u n c * force w n c = ∑ n, ∑ c, w n c * force u n c) (k : Nat) :
    energy mass force dt (history fixed mass force dt u0 v0 k) (history fixed mass force dt u0 v0 (k + 1)) =
    energy mass force dt (history fixed mass force dt u0 v0 0) (history fixed mass force dt u0 v0 1) := by
  induction k with
  | zero => rfl
  | succ k ih =>
    rw [← ih]
    set a := history fixed mass force dt u0 v0 k with ha
    set b := history fixed mass force dt u0 v0 (k + 1) with hb
    set d := history fixed mass force dt u0 v0 (k + 2) with hd
    have hpt : ∀ n c, mass n * ((d n c - b n c) / dt) ^ 2 - mass n * ((b n c - a n c) / dt) ^ 2 =
        a n c * force b n c - d n c * force b n c := by
      intro n c
      by_cases hf : fixed n c = true
      · have ea := (C56_fixed fixed mass force dt u0 v0 n c hf k).2 (h0 n c hf)
        have eb := (C56_fixed fixed mass force dt u0 v0 n c hf (k + 1)).2 (h0 n c hf)
        have ed := (C56_fixed fixed mass force dt u0 v0 n c hf (k + 2)).2 (h0 n c hf)
        rw [← ha] at ea
        rw [← hb] at eb
        rw [← hd] at ed
        rw [ea, eb, ed]
        simp
      · have hf' : fixed n c = false := by simpa using hf
        have he := (C56_scheme fixed mass force dt u0 v0 hdt n c (hm n) hf').1 k
        rw [← ha, ← hb, ← hd] at he
        have hfb : force b n c = -(mass n * ((d n c - 2 * b n c + a n c) / dt ^ 2)) := by rw [he, neg_neg]
        rw [hfb]
        field_simp
        ring
    have hsum : ∑ n, ∑ c, mass n * ((d n c - b n c) / dt) ^ 2 - ∑ n, ∑ c, mass n * ((b n c - a n c) / dt) ^ 2 =
        ∑ n, ∑ c, a n c * force b n c - ∑ n, ∑ c, d n c * force b n c := by
      simp only [← Finset.sum_sub_distrib]
      exact Finset.sum_congr rfl fun n _ => Finset.sum_congr rfl fun c _ => hpt n c
    have hs := hsym b d
    unfold energy
    linear_combination (1 / 2) * hsum + (1 / 2) * hs

/-- One free and one fixed degree of freedom, a linear spring: values and conserved energy of two steps. -/
example : let fixed : Fin 2 → Fin 1 → Bool := fun n _ => n == 0
    let mass : Fin 2 → ℚ := fun _ => 1
    let force : Field3 ℚ 2 1 → Field3 ℚ 2 1 := fun u n c => if n = 0 then u 0 c - u 1 c else u 1 c - u 0 c
    let h := history fixed mass force (1 / 2) (fun n _ => if n = 0 then 0 else 1) (fun _ _ => 0)
    (h 1 1 0 = 7 / 8 ∧ h 2 1 0 = 17 / 32 ∧ h 2 0 0 = 0) := by
  decide +kernel

end Explicit
end JaxFem
