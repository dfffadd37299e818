import Verif.Model.ArcLength
import Verif.Spec.BC

/-!
# Specification of arc-length continuation
-/

namespace JaxFem

universe u

/-- Inner product of two increments `(Delta u, Delta lambda)` with load vector `w`. -/
def arcInner {N : Nat} (psi : ℝ) (w : Fin N → ℝ) (a b : (Fin N → ℝ) × ℝ) : ℝ :=
  ∑ i, a.1 i * b.1 i + psi ^ 2 * a.2 * b.2 * ∑ i, w i ^ 2

/-- The increment `(du, dl)` has arc length `l`. -/
def OnArc {N : Nat} (psi : ℝ) (w : Fin N → ℝ) (l : ℝ) (du : Fin N → ℝ) (dl : ℝ) : Prop :=
  ∑ i, du i ^ 2 + psi ^ 2 * dl ^ 2 * ∑ i, w i ^ 2 = l ^ 2

/-- `n` executions of the loop body. -/
inductive ArcIters {N : Nat} (iter : ArcState N → Except Err (ArcState N × ℝ)) (s : ArcState N) :
    Nat → ArcState N → Prop
  | zero : ArcIters iter s 0 s
  | succ (n : Nat) (t t' : ArcState N) (r : ℝ) : ArcIters iter s n t → iter t = .ok (t', r) →
      ArcIters iter s (n + 1) t'

/-- Sequence of states produced by `n` corrector calls, the `i`-th with argument `i`, starting from
`s`; `l` lists the states after each call. -/
inductive Calls {S : Type*} (correct : Nat → S → Except Err S) (s : S) : List S → Prop
  | nil : Calls correct s []
  | snoc (l : List S) (t : S) : Calls correct s l → correct l.length (l.getLastD s) = .ok t →
      Calls correct s (l ++ [t])

/-- What a run of the continuation must look like: `correct i` is the `i`-th corrector call, `max` the
maximal number of steps, `s0` the initial state. -/
structure ContinuationRun {S U K : Type u} [One K] [LE K] (correct : Nat → S → Except Err S)
    (get : S → U × K) (polish : U → Except Err U) (max : Nat) (hasCallback : Bool) (s0 : S)
    (r : ArcResult U K) (l : List S) : Prop where
  /-- `l` are the states after each performed step -/
  steps : Calls correct s0 l
  bound : l.length ≤ max
  /-- one record per step, numbered from zero -/
  history : r.history.length = l.length ∧
    ∀ (i : Nat) (s : S), l[i]? = some s → r.history[i]? = some ⟨i, (get s).2, (get s).1⟩
  /-- the callback sees exactly the records -/
  calls : r.calls = if hasCallback then r.history else []
  /-- no step before the last one reached the target -/
  early : ∀ (i : Nat) (s : S), l[i]? = some s → i + 1 < l.length → ¬ 1 ≤ (get s).2
  /-- it stops early only because the target was reached -/
  stop : l.length < max → ∃ s, l.getLast? = some s ∧ 1 ≤ (get s).2
  lam : r.lam = (get (l.getLastD s0)).2
  polished : r.polished = true ↔ 1 ≤ r.lam
  newton : r.polished = true → polish (get (l.getLastD s0)).1 = .ok r.sol
  plain : r.polished = false → r.sol = (get (l.getLastD s0)).1

end JaxFem
