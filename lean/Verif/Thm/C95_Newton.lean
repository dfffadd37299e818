import Verif.Thm.C95_System
import Mathlib.Logic.Equiv.Fintype

/-!
# C95: the distributed Newton iteration
-/

namespace JaxFem
namespace Mpi

open Parallel (IsShapeGrads signedArea2 triArea globalDof NearSide)

variable {coords : Nat → Fin 2 → ℝ} {N : Nat} {cells : List (Fin 3 → Nat)} {num : Nat → Nat} {glob : Part → Nat → Nat}
  {parts : List Part}

/-- `b.norm()`. -/
noncomputable def sysNorm (n : Nat) (s : Parallel.Sys ℝ) : ℝ := Real.sqrt (∑ i : Fin n, s.rhs i ^ 2)

/-- The loop goes on (with `rnorm0 = R0`). -/
def GoesOn (tol relTol R0 r : ℝ) : Prop := (if R0 ≠ 0 then r / R0 else 0) > relTol ∧ r > tol

theorem loop_spec {n : Nat} (system : Nat → (Fin n → ℝ) → Except Err (Parallel.Sys ℝ))
    (solve : Matrix (Fin n) (Fin n) ℝ → (Fin n → ℝ) → Except Err (Fin n → ℝ)) (tol relTol : ℝ)
    (hsolve : ∀ A b y, solve A b = .ok y → A.mulVec y = b) (R0 : ℝ) (fuel it : Nat) (r0 : Option ℝ) (x y : Fin n → ℝ)
    (h0 : ∀ s, system it x = .ok s → r0.getD (sysNorm n s) = R0)
    (h : newtonLoop system solve tol relTol fuel it r0 x = .ok y) :
    ∃ K ≤ fuel, ∃ xs : Nat → Fin n → ℝ, xs 0 = x ∧ xs K = y ∧
      (∀ k < K, ∃ s, system (it + k) (xs k) = .ok s ∧
        (∀ i : Fin n, ∑ j : Fin n, s.mat i j * (xs (k + 1) j - xs k j) = -s.rhs i) ∧ GoesOn tol relTol R0 (sysNorm n s)) ∧
      (K < fuel → ∃ s, system (it + K) (xs K) = .ok s ∧ ¬GoesOn tol relTol R0 (sysNorm n s)) := by
  induction fuel generalizing it r0 x with
  | zero =>
    rw [newtonLoop] at h
    cases h
    exact ⟨0, le_refl _, fun _ => y, rfl, rfl, by simp, by simp⟩
  | succ fuel ih =>
    rw [newtonLoop] at h
    cases hs : system it x with
    | error e => simp [hs, bind, Except.bind] at h
    | ok s =>
      have hr := h0 s hs
      simp only [hs, bind, Except.bind] at h
      have hnorm : Real.sqrt (∑ i : Fin n, s.rhs i ^ 2) = sysNorm n s := rfl
      rw [hnorm, hr] at h
      by_cases hgo : GoesOn tol relTol R0 (sysNorm n s)
      · have hgo' := hgo
        unfold GoesOn at hgo'
        rw [if_neg (not_not.2 hgo')] at h
        cases hd : solve (Matrix.of fun i j => s.mat i j) fun i => -1 * s.rhs i with
        | error e =>
          rw [hd] at h
          cases h
        | ok du =>
          simp only [hd] at h
          obtain ⟨K, hK, xs, x0, xK, hstep, hend⟩ := ih (it + 1) (some R0) _ (fun _ _ => rfl) h
          refine ⟨K + 1, by omega, fun k => if k = 0 then x else xs (k - 1), rfl, ?_, ?_, ?_⟩
          · simp only [if_neg (Nat.succ_ne_zero K), Nat.add_sub_cancel, xK]
          · intro k hk
            obtain _ | k := k
            · refine ⟨s, by simpa using hs, fun i => ?_, hgo⟩
              have := congrFun (hsolve _ _ _ hd) i
              rw [Matrix.mulVec, dotProduct] at this
              simp only [Matrix.of_apply] at this
              rw [neg_one_mul] at this
              rw [← this]
              refine Finset.sum_congr rfl fun j _ => ?_
              simp [x0]
            · obtain ⟨s', e1, e2, e3⟩ := hstep k (by omega)
              refine ⟨s', ?_, ?_, e3⟩
              · simp only [if_neg (Nat.succ_ne_zero k), Nat.add_sub_cancel]
                rw [← e1]
                congr 1
                omega
              · simpa using e2
          · intro hlt
            obtain ⟨s', e1, e2⟩ := hend (by omega)
            refine ⟨s', ?_, e2⟩
            simp only [if_neg (Nat.succ_ne_zero K), Nat.add_sub_cancel]
            rw [← e1]
            congr 1
            omega
      · have hgo' := hgo
        unfold GoesOn at hgo'
        rw [if_pos hgo'] at h
        cases h
        exact ⟨0, Nat.zero_le _, fun _ => y, rfl, rfl, by simp, fun _ => ⟨s, by simpa using hs, hgo⟩⟩

theorem sum_num (hD : IsPartition coords N cells num glob parts) (F : Int → ℝ) :
    ∑ i : Fin N, F (i : Nat) = ∑ v ∈ Finset.range N, F (num v) := by
  rw [Finset.sum_range]
  have hinj : Function.Injective fun v : Fin N => (⟨num v, hD.num_lt v v.2⟩ : Fin N) := by
    intro v w h
    exact Fin.ext (hD.num_inj v v.2 w w.2 (by simpa using h))
  exact (Function.Bijective.sum_comp (Finite.injective_iff_bijective.1 hinj) fun i : Fin N => F (i : Nat)).symm

/-- Values at the vertices. -/
noncomputable def nodal (num : Nat → Nat) {n : Nat} (x : Fin n → ℝ) (v : Nat) : ℝ := if h : num v < n then x ⟨num v, h⟩ else 0

theorem norm_eq {info : ElementInfo} (h : getElements "TRI3" = .ok info) (hD : IsPartition coords N cells num glob parts)
    (htol : TolerancesAgree coords N) (hne : ∀ p ∈ parts, p.cells ≠ [] ∧ p.rstart < p.rend)
    (g : (Fin 3 → Nat) → Fin 3 → Fin 2 → ℝ) (hg : ∀ c ∈ cells, IsShapeGrads (fun a => coords (c a)) (g c)) (f : ℝ → ℝ → ℝ)
    (o : Orders) (hov : ∀ l, (o.vec l).Perm l) (hom : ∀ l, (o.mat l).Perm l) (x : Fin N → ℝ)
    (s : Parallel.Sys ℝ) (hs : buildSystem f (tri3 info) parts o x = .ok s) :
    sysNorm N s = residualNorm coords N cells g f (nodal num x) := by
  classical
  have hsys := C95_system h hD htol hne g hg f o hov hom x (nodal num x) (fun v hv => by rw [nodal, dif_pos (hD.num_lt v hv)]) s hs
  unfold sysNorm residualNorm
  congr 1
  rw [sum_num hD fun i => s.rhs i ^ 2]
  refine Finset.sum_congr rfl fun v hv => ?_
  rw [(hsys v (Finset.mem_range.1 hv)).2]
  by_cases hb : AtSide coords v
  · rw [if_pos hb, if_pos hb]; simp
  · rw [if_neg hb, if_neg hb]

theorem goesOn_iff (tol relTol R0 r : ℝ) (hrel : 0 ≤ relTol) (hR : 0 ≤ R0) (h0 : R0 = 0 → r = 0) :
    GoesOn tol relTol R0 r ↔ relTol * R0 < r ∧ tol < r := by
  unfold GoesOn
  by_cases hz : R0 = 0
  · rw [if_neg (not_not.2 hz), hz, mul_zero, h0 hz]
    constructor
    · rintro ⟨h1, -⟩; exact absurd h1 (not_lt.2 hrel)
    · rintro ⟨h1, -⟩; exact absurd h1 (lt_irrefl _)
  · rw [if_pos hz, gt_iff_lt, lt_div_iff₀ (lt_of_le_of_ne hR (Ne.symm hz))]

/-- **C95 (iteration).** If linear systems are solved, what the ranks compute is a Newton iterate of the serial discrete problem with zero
values at the sides: the first one whose residual meets the absolute or the relative tolerance, or the last one allowed. -/
theorem C95_newton {info : ElementInfo} (h : getElements "TRI3" = .ok info) (hD : IsPartition coords N cells num glob parts)
    (htol : TolerancesAgree coords N) (hne : ∀ p ∈ parts, p.cells ≠ [] ∧ p.rstart < p.rend)
    (g : (Fin 3 → Nat) → Fin 3 → Fin 2 → ℝ) (hg : ∀ c ∈ cells, IsShapeGrads (fun a => coords (c a)) (g c)) (f : ℝ → ℝ → ℝ)
    (o : Nat → Orders) (hov : ∀ k l, ((o k).vec l).Perm l) (hom : ∀ k l, ((o k).mat l).Perm l)
    (solve : Matrix (Fin N) (Fin N) ℝ → (Fin N → ℝ) → Except Err (Fin N → ℝ))
    (hsolve : ∀ A b y, solve A b = .ok y → A.mulVec y = b) (tol relTol : ℝ) (hrel : 0 ≤ relTol) (maxIt : Nat)
    (x : Fin N → ℝ) (hx : solution f (tri3 info) parts o solve tol relTol maxIt = .ok x) :
    ∃ u : Nat → Nat → ℝ, ∃ K ≤ maxIt, IsNewton coords N cells g f u K ∧
      (∀ v (hv : v < N), x ⟨num v, hD.num_lt v hv⟩ = u K v) ∧
      (∀ k < K, relTol * residualNorm coords N cells g f (u 0) < residualNorm coords N cells g f (u k) ∧
        tol < residualNorm coords N cells g f (u k)) ∧
      (K < maxIt → residualNorm coords N cells g f (u K) ≤ relTol * residualNorm coords N cells g f (u 0) ∨
        residualNorm coords N cells g f (u K) ≤ tol) := by
  classical
  set R0 := residualNorm coords N cells g f (nodal num fun _ : Fin N => 0) with hR0
  obtain ⟨K, hK, xs, x0, xK, hstep, hend⟩ := loop_spec _ solve tol relTol hsolve R0 maxIt 0 none _ x
    (fun s hs => norm_eq h hD htol hne g hg f (o 0) (hov 0) (hom 0) _ s hs) hx
  simp only [Nat.zero_add] at hstep hend
  have hR0n : 0 ≤ R0 := Real.sqrt_nonneg _
  have hnod : ∀ k v, v < N → ∀ h' : num v < N, nodal num (xs k) v = xs k ⟨num v, h'⟩ := fun k v _ h' => by rw [nodal, dif_pos h']
  have hrow : ∀ k < K, ∀ v < N, if AtSide coords v then nodal num (xs (k + 1)) v - nodal num (xs k) v = 0 else
      ∑ w ∈ Finset.range N, serialTangent coords cells g (nodal num (xs k)) v w * (nodal num (xs (k + 1)) w - nodal num (xs k) w)
        = -serialResidual coords cells g f (nodal num (xs k)) v := by
    intro k hk v hv
    obtain ⟨s, hs, hsol, -⟩ := hstep k hk
    have hsys := C95_system h hD htol hne g hg f (o k) (hov k) (hom k) (xs k) (nodal num (xs k))
      (fun v hv => hnod k v hv _) s hs
    have hv' := hD.num_lt v hv
    have e := hsol ⟨num v, hv'⟩
    have e1 : ∑ j : Fin N, s.mat (num v : Int) (j : Nat) * (xs (k + 1) j - xs k j)
        = ∑ w ∈ Finset.range N, s.mat (num v) (num w) * (nodal num (xs (k + 1)) w - nodal num (xs k) w) := by
      have := sum_num hD fun i => s.mat (num v) i * (if hi : i.toNat < N then xs (k + 1) ⟨i.toNat, hi⟩ - xs k ⟨i.toNat, hi⟩ else 0)
      refine Eq.trans ?_ (this.trans ?_)
      · refine Finset.sum_congr rfl fun j _ => ?_
        congr 1
        rw [dif_pos (by simp)]
        rfl
      · refine Finset.sum_congr rfl fun w hw => ?_
        have hw' := hD.num_lt w (Finset.mem_range.1 hw)
        rw [dif_pos (by simpa using hw'), hnod (k + 1) w (Finset.mem_range.1 hw) hw', hnod k w (Finset.mem_range.1 hw) hw']
        rfl
    rw [e1, (hsys v hv).2] at e
    by_cases hb : AtSide coords v
    · rw [if_pos hb]
      rw [if_pos hb, neg_zero, Finset.sum_eq_single v] at e
      · rw [(hsys v hv).1 v hv, if_pos hb, if_pos rfl, one_mul] at e
        exact e
      · intro w hw hwv
        rw [(hsys v hv).1 w (Finset.mem_range.1 hw), if_pos hb, if_neg (Ne.symm hwv), zero_mul]
      · intro hn
        exact absurd (Finset.mem_range.2 hv) hn
    · rw [if_neg hb]
      rw [if_neg hb] at e
      rw [← e]
      refine Finset.sum_congr rfl fun w hw => ?_
      rw [(hsys v hv).1 w (Finset.mem_range.1 hw), if_neg hb]
  have hu0 : nodal num (xs 0) = nodal num fun _ : Fin N => 0 := by rw [x0]
  have hcrit : ∀ k ≤ K, ∀ s, buildSystem f (tri3 info) parts (o k) (xs k) = .ok s → (GoesOn tol relTol R0 (sysNorm N s) ↔
      relTol * residualNorm coords N cells g f (nodal num (xs 0)) < residualNorm coords N cells g f (nodal num (xs k)) ∧
        tol < residualNorm coords N cells g f (nodal num (xs k))) := by
    intro k hk s hs
    have e := norm_eq h hD htol hne g hg f (o k) (hov k) (hom k) (xs k) s hs
    rw [hu0, ← e, ← hR0]
    refine goesOn_iff tol relTol R0 _ hrel hR0n fun hz => ?_
    obtain _ | k := k
    · rw [e, hu0, ← hR0, hz]
    · obtain ⟨s0, hs0, -, hgo, -⟩ := hstep 0 (by omega)
      rw [if_neg (not_not.2 hz)] at hgo
      exact absurd hgo (not_lt.2 hrel)
  refine ⟨fun k => nodal num (xs k), K, hK, ⟨?_, ?_, ?_⟩, ?_, ?_, ?_⟩
  · intro v hv
    have e : nodal num (xs 0) v = nodal num (fun _ : Fin N => 0) v := by rw [hu0]
    refine e.trans ?_
    unfold nodal
    split <;> rfl
  · intro k hk v hv hb
    induction k with
    | zero =>
      have e : nodal num (xs 0) v = nodal num (fun _ : Fin N => 0) v := by rw [hu0]
      refine e.trans ?_
      unfold nodal
      split <;> rfl
    | succ k ih =>
      have := hrow k (by omega) v hv
      rw [if_pos hb, sub_eq_zero] at this
      exact this.trans (ih (by omega))
  · intro k hk v hv hb
    have := hrow k hk v hv
    rwa [if_neg hb] at this
  · intro v hv
    exact ((hnod K v hv (hD.num_lt v hv)).trans (by rw [xK])).symm
  · intro k hk
    obtain ⟨s, hs, -, hgo⟩ := hstep k hk
    exact (hcrit k hk.le s hs).1 hgo
  · intro hlt
    obtain ⟨s, hs, hgo⟩ := hend hlt
    have := mt (hcrit K (le_refl _) s hs).2 hgo
    rw [not_and_or, not_lt, not_lt] at this
    exact this

end Mpi
end JaxFem
