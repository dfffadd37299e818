import Mathlib.Analysis.SpecialFunctions.Pow.Real

/-!
# Demonstration of the arc-length method

`applications/arc_length/demo_analytical.py`: one unknown, internal force `x - x²`, arc-length steps of a fixed radius. Numbers
are real. Where the code gets NaN (square root of a negative number, division by the slope zero) the pair of unknown and load
factor is `none`; a NaN stays NaN, its comparison with the tolerance is false, and the loop ends by its counter.
-/

namespace JaxFem.ArcDemo

/-- `internal_force` (`demo_analytical.py:13-14`). -/
def internalForce (x : ℝ) : ℝ := -x ^ 2 + x

/-- `slope` (`demo_analytical.py:16-17`). -/
def slope (x : ℝ) : ℝ := 1 - 2 * x

/-- Unknown and load factor, `none` for NaN. -/
abbrev Point := Option (ℝ × ℝ)

/-- One pass of the loop (`demo_analytical.py:34-59`) for the values `u`, `lamda` at its beginning; `psi = 1`. -/
noncomputable def correct (prevU prevLamda q Dl u lamda : ℝ) : Point :=
  let res := internalForce u
  let A := slope u
  let uBar := -(res + lamda * q) / A
  let uT := -q / A
  let Du := u - prevU
  let Dlamda := lamda - prevLamda
  let a1 := uT ^ 2 + q ^ 2
  let a2 := 2 * (Du + uBar) * uT + 2 * Dlamda * q ^ 2
  let a3 := (Du + uBar) ^ 2 + Dlamda ^ 2 * q ^ 2 - Dl ^ 2
  if A = 0 then none
  else if a2 ^ 2 - 4 * a1 * a3 < 0 then none
  else
    let dl1 := (-a2 + Real.sqrt (a2 ^ 2 - 4 * a1 * a3)) / (2 * a1)
    let dl2 := (-a2 - Real.sqrt (a2 ^ 2 - 4 * a1 * a3)) / (2 * a1)
    let dl := max dl1 dl2
    some (u + (uBar + dl * uT), lamda + dl)

/-- `tol` (`demo_analytical.py:30`). -/
noncomputable def tol : ℝ := 1e-6

/-- `(res_val > tol) or (step <= 1)` (`demo_analytical.py:33`); `none` is NaN. -/
def goesOn (res : Option ℝ) (step : Nat) : Prop := (∃ r, res = some r ∧ tol < r) ∨ step ≤ 1

open Classical in
/-- The loop (`demo_analytical.py:33-60`) with `res_val`, `step` and the current point; `none` if it is still running after `fuel`
tests. -/
noncomputable def loop (prevU prevLamda q Dl : ℝ) : Nat → Option ℝ → Nat → Point → Option Point
  | 0, _, _, _ => none
  | fuel + 1, res, step, p =>
    if goesOn res step then
      match p with
      | none => loop prevU prevLamda q Dl fuel none (step + 1) none
      | some (u, lamda) =>
        loop prevU prevLamda q Dl fuel (some |internalForce u + lamda * q|) (step + 1) (correct prevU prevLamda q Dl u lamda)
    else some p

/-- `arc_length_solver` (`demo_analytical.py:19-62`); from NaN it returns NaN. -/
noncomputable def arcLengthSolver (q Dl : ℝ) (fuel : Nat) : Point → Option Point
  | none => some none
  | some (u, lamda) => loop u lamda q Dl fuel (some 1) 0 (some (u, lamda))

/-- The loop over the arc-length steps (`demo_analytical.py:72-77`): what is appended to `u_vecs`, `lamdas`. -/
noncomputable def trace (q Dl : ℝ) (fuel : Nat) : Nat → Point → Option (List Point)
  | 0, _ => some []
  | n + 1, p =>
    match arcLengthSolver q Dl fuel p with
    | none => none
    | some p' => (trace q Dl fuel n p').map (p' :: ·)

/-- `example` (`demo_analytical.py:12-80`): `q_vec = -1`, two steps of length `0.2` from the origin. -/
noncomputable def demo (fuel : Nat) : Option (List Point) := (trace (-1) 0.2 fuel 2 (some (0, 0))).map (some (0, 0) :: ·)

end JaxFem.ArcDemo
