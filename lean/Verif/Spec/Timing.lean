import Verif.Model.Timing
import Mathlib.Algebra.BigOperators.Group.List.Basic

/-!
# What the log of a Newton run should look like
-/

namespace JaxFem.Timing.Spec

open JaxFem

universe u
variable {K : Type u}

/-- The numbers reported for one iteration. -/
structure Round (K : Type u) where
  localS : K
  globalS : K
  res : Flt K
  rel : Flt K
  linear : Option K

/-- The journal of consecutive iterations, numbered from `k`: each has a start line and a summary. -/
def journal : Nat → List (Round K) → List (LogLine K)
  | _, [] => []
  | k, r :: rs => .start k :: .summary k r.localS r.globalS r.res r.rel r.linear :: journal (k + 1) rs

/-- Time of all rounds in assembly, in the global matrix and in the linear solver. -/
def totalLocal [AddMonoid K] (rs : List (Round K)) : K := (rs.map (·.localS)).sum
def totalGlobal [AddMonoid K] (rs : List (Round K)) : K := (rs.map (·.globalS)).sum
def totalLinear [AddMonoid K] (rs : List (Round K)) : K := (rs.map fun r => r.linear.getD 0).sum

/-- Whether a residual still requires an iteration. -/
def Unfinished [Field K] [LinearOrder K] (tol relTol : K) (first res : Flt K) : Prop :=
  (res.div first).gt (.fin relTol) = true ∧ res.gt (.fin tol) = true

/-- The last residual of consecutive rounds after the residual `x`. -/
def lastRes : Flt K → List (Round K) → Flt K
  | x, [] => x
  | _, r :: rs => lastRes r.res rs

/-- All residuals but the last require an iteration. -/
def Chain (go : Flt K → Prop) : Flt K → List (Round K) → Prop
  | _, [] => True
  | x, r :: rs => go x ∧ Chain go r.res rs

/-- The line is one of the final table. -/
def InTable : LogLine K → Prop
  | .start _ => False
  | .summary .. => False
  | _ => True

/-- Seconds and percentage shown in a row of the table (zero for other lines). -/
def shownTime [Zero K] : LogLine K → K
  | .row _ dt _ => dt
  | .other dt _ => dt
  | _ => 0
def shownPercent [Zero K] : LogLine K → K
  | .row _ _ pct => pct
  | .other _ pct => pct
  | _ => 0

/-- All times and percentages of the line are at least zero. -/
def Plausible [Zero K] [LE K] : LogLine K → Prop
  | .start _ => True
  | .summary _ l g _ _ s => 0 ≤ l ∧ 0 ≤ g ∧ ∀ x ∈ s, 0 ≤ x
  | .table _ w => 0 ≤ w
  | .row _ dt pct => 0 ≤ dt ∧ 0 ≤ pct
  | .other dt pct => 0 ≤ dt ∧ 0 ≤ pct

end JaxFem.Timing.Spec
