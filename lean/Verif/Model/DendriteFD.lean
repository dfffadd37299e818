import Mathlib.Analysis.SpecialFunctions.Trigonometric.Arctan
import Verif.Model.Dendrite

/-!
# Dendrite growth: explicit finite differences

`applications/dendrite/explicit_fd/example.py`. Arrays of shape `(nx, ny)` are lists of rows. The noise
`chi` is an argument (drawn with the same key in every step). Plots are left out.
-/

namespace JaxFem

namespace DendriteFD

open Dendrite (Params)

/-- `np.concatenate((m[:1], m[:-1]))` along the first axis (`example.py:45-48`). -/
def shiftNeg {α : Type} (m : List α) : List α := m.take 1 ++ m.dropLast

/-- `np.concatenate((m[1:], m[-1:]))` along the first axis (`example.py:45-48`). -/
def shiftPos {α : Type} (m : List α) : List α := m.drop 1 ++ m.drop (m.length - 1)

/-- Number of columns. -/
def cols (m : List (List ℝ)) : Nat := (m.headD []).length

/-- `grad` (`example.py:43-52`). -/
noncomputable def grad (m : List (List ℝ)) (dx dy : ℝ) : List (List ℝ) × List (List ℝ) :=
  let negY := m.map shiftNeg
  let posY := m.map shiftPos
  let negX := shiftNeg m
  let posX := shiftPos m
  (mk2 m.length (cols m) fun i j => (at2 posX i j - at2 negX i j) / 2 / dx,
    mk2 m.length (cols m) fun i j => (at2 posY i j - at2 negY i j) / 2 / dy)

/-- `laplace` (`example.py:54-60`). -/
noncomputable def laplace (m : List (List ℝ)) (hx hy : ℝ) : List (List ℝ) :=
  let negY := m.map shiftNeg
  let posY := m.map shiftPos
  let negX := shiftNeg m
  let posX := shiftPos m
  mk2 m.length (cols m) fun i j => (at2 negX i j + at2 posX i j - 2 * at2 m i j) / hx ^ 2
    + (at2 negY i j + at2 posY i j - 2 * at2 m i j) / hy ^ 2

/-- `get_theta` at one point (`example.py:62-75`): later masks override earlier ones. -/
noncomputable def getTheta (fx fy : ℝ) : ℝ :=
  let θ := (0 : ℝ)
  let θ := if fx = 0 ∧ fy > 0 then 0.5 * Real.pi else θ
  let θ := if fx = 0 ∧ fy < 0 then 1.5 * Real.pi else θ
  let θ := if fx > 0 ∧ fy < 0 then 2 * Real.pi + Real.arctan (fy / fx) else θ
  let θ := if fx > 0 ∧ fy > 0 then Real.arctan (fy / fx) else θ
  let θ := if fx < 0 then Real.pi + Real.arctan (fy / fx) else θ
  θ

/-- `get_eps` at one point (`example.py:77-79`). -/
noncomputable def getEps (m : Params) (θ : ℝ) : ℝ × ℝ :=
  (m.epsBar * (1 + m.delta * Real.cos (m.J * θ)), -m.epsBar * m.J * m.delta * Real.sin (m.J * θ))

/-- `T_field` (`example.py:81-83`). -/
noncomputable def tField (m : Params) (hx hy : ℝ) (T dEta : List (List ℝ)) : List (List ℝ) :=
  mk2 T.length (cols T) fun i j => at2 T i j + m.dt * at2 (laplace T hx hy) i j + m.K * at2 dEta i j

/-- `arr.at[i, :].set(arr[k, :])`. -/
def setRow (i k : Nat) (arr : List (List ℝ)) : List (List ℝ) := arr.set i (arr.getD k [])

/-- `arr.at[:, i].set(arr[:, k])`. -/
def setCol (i k : Nat) (arr : List (List ℝ)) : List (List ℝ) := arr.map fun r => r.set i (r.getD k 0)

/-- `zero_flux_BC` (`example.py:85-91`); `-1` and `-2` count from the end. -/
def zeroFlux (arr : List (List ℝ)) : List (List ℝ) :=
  let nx := arr.length
  let ny := cols arr
  setCol (ny - 1) (ny - 2) (setRow (nx - 1) (nx - 2) (setCol 0 1 (setRow 0 1 arr)))

/-- `phase_field` (`example.py:93-110`). `eps2` is the pair `(eps2_x, eps2_y)`, which the function does not
receive as an argument but reads from the enclosing function. -/
noncomputable def phaseField (m : Params) (chi : List (List ℝ)) (eps2 : List (List ℝ) × List (List ℝ))
    (dx dy : ℝ) (eps epsP px py p T : List (List ℝ)) : List (List ℝ) :=
  let part1 := (grad (mk2 p.length (cols p) fun i j => at2 eps i j * at2 epsP i j * at2 py i j) dx dy).1
  let part2 := (grad (mk2 p.length (cols p) fun i j => at2 eps i j * at2 epsP i j * at2 px i j) dx dy).2
  let lap := laplace p dx dy
  mk2 p.length (cols p) fun i j =>
    let part3 := at2 eps2.1 i j * at2 px i j + at2 eps2.2 i j * at2 py i j
    let part4 := at2 eps i j ^ 2 * at2 lap i j
    let mm := m.alpha / Real.pi * Real.arctan (m.gamma * (m.Teq - at2 T i j))
    let term1 := - at2 part1 i j + at2 part2 i j + part3 + part4
    let term2 := at2 p i j * (1 - at2 p i j) * (at2 p i j - 0.5 + mm)
    let noise := m.a * at2 p i j * (1 - at2 p i j) * at2 chi i j
    at2 p i j + m.dt / m.tau * (term1 + term2 + noise)

/-- State of the loop: phase, temperature, and the constants compiled into the jitted `phase_field`
(`none` before its first call). -/
structure State where
  p : List (List ℝ)
  T : List (List ℝ)
  compiled : Option (List (List ℝ) × List (List ℝ))

/-- `get_theta` and `get_eps` of the arrays `p_x, p_y` (`example.py:149-150`). -/
noncomputable def epsArrays (m : Params) (g : List (List ℝ) × List (List ℝ)) (nx ny : Nat) :
    List (List ℝ) × List (List ℝ) :=
  (mk2 nx ny fun i j => (getEps m (getTheta (at2 g.1 i j) (at2 g.2 i j))).1,
    mk2 nx ny fun i j => (getEps m (getTheta (at2 g.1 i j) (at2 g.2 i j))).2)

/-- `eps2_x, eps2_y = grad(eps**2, hx, hy)` of a phase (`example.py:148-151`). -/
noncomputable def eps2 (m : Params) (hx hy : ℝ) (p : List (List ℝ)) : List (List ℝ) × List (List ℝ) :=
  let e := epsArrays m (grad p hx hy) p.length (cols p)
  grad (mk2 p.length (cols p) fun i j => at2 e.1 i j ^ 2) hx hy

/-- One pass of the loop (`example.py:147-161`). `phase_field` is traced in its first call: the arrays it reads
from the enclosing function become constants of the compiled function. -/
noncomputable def step (m : Params) (hx hy : ℝ) (chi : List (List ℝ)) (s : State) : State :=
  let g := grad s.p hx hy
  let e := epsArrays m g s.p.length (cols s.p)
  let c := s.compiled.getD (eps2 m hx hy s.p)
  let pNew := zeroFlux (phaseField m chi c hx hy e.1 e.2 g.1 g.2 s.p s.T)
  let dp := mk2 s.p.length (cols s.p) fun i j => at2 pNew i j - at2 s.p i j
  { p := pNew, T := zeroFlux (tField m hx hy s.T dp), compiled := some c }

/-- The state after `n` passes, starting before the first compilation. -/
noncomputable def run (m : Params) (hx hy : ℝ) (chi : List (List ℝ)) (p T : List (List ℝ)) : Nat → State
  | 0 => ⟨p, T, none⟩
  | n + 1 => step m hx hy chi (run m hx hy chi p T n)

end DendriteFD

end JaxFem
