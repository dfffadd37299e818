import Mathlib.Analysis.Calculus.FDeriv.Basic
import Verif.Model.Kernel
import Verif.Model.Flt
import Verif.Model.Eigen

/-!
# Phase-field fracture

`applications/phase_field_fracture/example.py`: the two problems (phase field `d`, displacement `u`), the history
field and the staggered loop over the load steps. `np.linalg.eigh` is a function `eigh` with `Eigen.IsEigh`;
`jax.grad` is the derivative. Plots, VTK output, `compute_traction` and the console are left out.
-/

namespace JaxFem.Fracture

variable {nq nfq nn dim n : Nat}

/-- `safe_plus` (`example.py:40`). -/
noncomputable def safePlus (x : ℝ) : ℝ := 0.5 * (x + |x|)

/-- `safe_minus` (`example.py:41`). -/
noncomputable def safeMinus (x : ℝ) : ℝ := 0.5 * (x - |x|)

/-- Material parameters (`example.py:180-185`). -/
structure Material where
  Gc : ℝ
  l : ℝ
  lam : ℝ
  mu : ℝ

/-- `mu` and `lmbda` from Young's modulus and Poisson's ratio (`example.py:184-185`). -/
noncomputable def material (Gc E nu l : ℝ) : Material :=
  { Gc := Gc, l := l, mu := E / (2 * (1 + nu)), lam := E * nu / ((1 + nu) * (1 - 2 * nu)) }

/-- `PhaseField.get_tensor_map` (`example.py:49-52`). -/
def phaseTensor (m : Material) (_history : ℝ) (dGrad : Fin 1 → Fin dim → ℝ) : Fin 1 → Fin dim → ℝ :=
  fun i j => m.Gc * m.l * dGrad i j

/-- `PhaseField.get_mass_map` (`example.py:54-57`). -/
noncomputable def phaseMass (m : Material) (history : ℝ) (d : Fin 1 → ℝ) (_x : Fin dim → ℝ) : Fin 1 → ℝ :=
  fun c => m.Gc / m.l * d c - 2 * (1 - d c) * history

/-- `strain` (`example.py:76-78`). -/
noncomputable def strain (uGrad : Fin n → Fin n → ℝ) : Fin n → Fin n → ℝ := fun i j => 0.5 * (uGrad i j + uGrad j i)

/-- `np.linalg.eigh`: eigenvalues and eigenvectors. -/
abbrev Eigh (n : Nat) := (Fin n → Fin n → ℝ) → (Fin n → ℝ) × (Fin n → Fin n → ℝ)

/-- `psi_plus` (`example.py:80-83`). -/
noncomputable def psiPlus (m : Material) (eigh : Eigh n) (eps : Fin n → Fin n → ℝ) : ℝ :=
  let eigenVals := (eigh eps).1
  let tr := safePlus (∑ i, eps i i)
  m.lam / 2 * tr ^ 2 + m.mu * ∑ b, safePlus (eigenVals b) ^ 2

/-- `psi_minus` (`example.py:85-88`). -/
noncomputable def psiMinus (m : Material) (eigh : Eigh n) (eps : Fin n → Fin n → ℝ) : ℝ :=
  let eigenVals := (eigh eps).1
  let tr := safeMinus (∑ i, eps i i)
  m.lam / 2 * tr ^ 2 + m.mu * ∑ b, safeMinus (eigenVals b) ^ 2

/-- `g` (`example.py:90-91`). -/
def degrade (d : Fin 1 → ℝ) : ℝ := (1 - d 0) ^ 2

/-- `jax.grad` of a function of a matrix. -/
noncomputable def gradM (F : (Fin n → Fin n → ℝ) → ℝ) (x : Fin n → Fin n → ℝ) (i j : Fin n) : ℝ :=
  fderiv ℝ F x (Pi.single i (Pi.single j 1))

/-- `epsilon += noise` with the diagonal matrix of `noise` (`example.py:93-95,98-99`). -/
noncomputable def addNoise (noise : Fin n → ℝ) (eps : Fin n → Fin n → ℝ) : Fin n → Fin n → ℝ :=
  fun i j => eps i j + if i = j then noise i else 0

/-- `stress_fn_opt1` (`example.py:97-101`), the one in use (`example.py:120`). The arguments are ordered as those of
a `Problem1.tensorMap`. -/
noncomputable def stressOpt1 (m : Material) (eigh : Eigh n) (noise : Fin n → ℝ) (d : Fin 1 → ℝ)
    (uGrad : Fin n → Fin n → ℝ) : Fin n → Fin n → ℝ :=
  let eps := addNoise noise (strain uGrad)
  fun i j => degrade d * gradM (psiPlus m eigh) eps i j + gradM (psiMinus m eigh) eps i j

/-- `stress_fn_opt2` (`example.py:103-117`). -/
noncomputable def stressOpt2 (m : Material) (eigh : Eigh n) (d : Fin 1 → ℝ) (uGrad : Fin n → Fin n → ℝ) :
    Fin n → Fin n → ℝ :=
  let eps := strain uGrad
  let fn := fun x => 2 * m.mu * (degrade d * safePlus x + safeMinus x)
  let trPlus := safePlus (∑ i, eps i i)
  let trMinus := safeMinus (∑ i, eps i i)
  let sigma1 := fun i j => m.lam * (degrade d * trPlus + trMinus) * if i = j then 1 else 0
  let sigma2 := Eigen.eigenF fn (eigh eps)
  fun i j => sigma1 i j + sigma2 i j

/-- `psi_plus_fn` (`example.py:122-124`): no noise here. -/
noncomputable def psiPlusFn (m : Material) (eigh : Eigh n) (uGrad : Fin n → Fin n → ℝ) : ℝ :=
  psiPlus m eigh (strain uGrad)

/-- The mesh shared by the two problems (`example.py:189-194`). -/
structure MeshData (nq nfq nn dim : Nat) where
  numTotalNodes : Nat
  points : List (Fin dim → ℝ)
  cells : List (List Nat)
  el : RefElement ℝ nq nn dim
  fc : RefFaces ℝ nfq nn dim

/-- `problem_d` after `set_params(history)` (`example.py:45-61,221`): no boundary conditions. -/
noncomputable def phaseProblem (m : Material) (M : MeshData nq nfq nn dim) (history : List (Fin nq → ℝ)) :
    Problem1 ℝ nq nfq nn 1 dim :=
  { numTotalNodes := M.numTotalNodes
    points := M.points
    cells := List.zipWith CellSpec.mk M.cells history
    el := M.el
    fc := M.fc
    tensorMap := phaseTensor m
    massMap := some (phaseMass m)
    surfaces := [] }

/-- `problem_u` after `set_params([sol_d, disp])` (`example.py:65-126,138-144,227`): the phase field is evaluated at
the quadrature points. The displacement `disp` is in the boundary conditions. -/
noncomputable def elasticProblem (m : Material) (eigh : Eigh dim) (noise : Fin dim → ℝ) (M : MeshData nq nfq nn dim)
    (solD : List (List ℝ)) : Problem1 (Fin 1 → ℝ) nq nfq nn dim dim :=
  { numTotalNodes := M.numTotalNodes
    points := M.points
    cells := M.cells.map fun c => ⟨c, convertFromDofToQuad M.el 1 solD c⟩
    el := M.el
    fc := M.fc
    tensorMap := stressOpt1 m eigh noise
    massMap := none
    surfaces := [] }

/-- `compute_history` (`example.py:128-136`). -/
noncomputable def computeHistory (m : Material) (eigh : Eigh dim) (M : MeshData nq nfq nn dim)
    (solU : List (List ℝ)) (historyOld : List (Fin nq → ℝ)) : List (Fin nq → ℝ) :=
  List.zipWith (fun c h q => max (psiPlusFn m eigh (solToGrad M.el dim M.points solU c q)) (h q)) M.cells historyOld

/-- `onp.linalg.norm` of a two-dimensional array: the Frobenius norm. -/
noncomputable def arrNorm (a : List (List ℝ)) : ℝ := Real.sqrt (a.map fun r => (r.map fun x => x ^ 2).sum).sum

/-- Difference of two arrays of equal shape. -/
def arrSub (a b : List (List ℝ)) : List (List ℝ) := List.zipWith (List.zipWith (· - ·)) a b

/-- `onp.maximum`: NaN if one of the arguments is NaN. -/
def fmax [LT K] [DecidableLT K] (a b : Flt K) : Flt K :=
  if a.isNaN || b.isNaN then .nan else if b.gt a then b else a

/-- `onp.linalg.norm(sol - sol_old)/onp.linalg.norm(sol)` (`example.py:271-272`). -/
noncomputable def relChange (sol solOld : List (List ℝ)) : Flt ℝ :=
  (Flt.fin (arrNorm (arrSub sol solOld))).div (.fin (arrNorm sol))

/-- What changes in the loops (`example.py:222-231`). -/
structure State (nq : Nat) where
  solU : List (List ℝ)
  solD : List (List ℝ)
  solUOld : List (List ℝ)
  solDOld : List (List ℝ)
  history : List (Fin nq → ℝ)
  historyOld : List (Fin nq → ℝ)

/-- The two calls of `solver`: the displacement for a phase field and a load, the phase field for a history. -/
structure Solvers (nq : Nat) where
  u : List (List ℝ) → ℝ → Except Err (List (List ℝ))
  d : List (Fin nq → ℝ) → Except Err (List (List ℝ))

/-- One pass of the inner loop (`example.py:262-276`); the second component is `err`. -/
noncomputable def pass (m : Material) (eigh : Eigh dim) (M : MeshData nq nfq nn dim) (sv : Solvers nq) (disp : ℝ)
    (s : State nq) : Except Err (State nq × Flt ℝ) := do
  let solU ← sv.u s.solD disp
  let history := computeHistory m eigh M solU s.historyOld
  let solD ← sv.d history
  let err := fmax (relChange solU s.solUOld) (relChange solD s.solDOld)
  pure ({ s with solU := solU, solD := solD, history := history, solUOld := solU, solDOld := solD }, err)

/-- `while err > tol` (`example.py:260`); `none` if the loop is still running after `fuel` tests. -/
noncomputable def inner (m : Material) (eigh : Eigh dim) (M : MeshData nq nfq nn dim) (sv : Solvers nq) (tol disp : ℝ) :
    Nat → State nq → Flt ℝ → Option (Except Err (State nq))
  | 0, _, _ => none
  | fuel + 1, s, err =>
    if err.gt (.fin tol) then
      match pass m eigh M sv disp s with
      | .error e => some (.error e)
      | .ok (s', err') => inner m eigh M sv tol disp fuel s' err'
    else some (.ok s)

/-- The loop over the load steps (`example.py:256-284`). Returns the final state and, for every load step, the state
after `history_old = history` (`example.py:279`), which is the one that is saved. -/
noncomputable def loads (m : Material) (eigh : Eigh dim) (M : MeshData nq nfq nn dim) (sv : Solvers nq) (tol : ℝ)
    (fuel : Nat) : List ℝ → State nq → Option (Except Err (List (State nq)))
  | [], _ => some (.ok [])
  | disp :: rest, s =>
    match inner m eigh M sv tol disp fuel s (.fin 1) with
    | none => none
    | some (.error e) => some (.error e)
    | some (.ok s') =>
      let s'' := { s' with historyOld := s'.history }
      match loads m eigh M sv tol fuel rest s'' with
      | none => none
      | some (.error e) => some (.error e)
      | some (.ok outs) => some (.ok (s'' :: outs))

/-- The initial state (`example.py:222-231`). -/
def initial (M : MeshData nq nfq nn dim) : State nq :=
  { solU := List.replicate M.points.length (List.replicate dim 0)
    solD := List.replicate M.points.length [0]
    solUOld := List.replicate M.points.length (List.replicate dim 0)
    solDOld := List.replicate M.points.length [0]
    history := List.replicate M.cells.length fun _ => 0
    historyOld := List.replicate M.cells.length fun _ => 0 }

end JaxFem.Fracture
