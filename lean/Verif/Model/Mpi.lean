import Verif.Model.Parallel
import Verif.Model.Dendrite
import Verif.Model.Tabulate
import Verif.Model.BC
import Verif.Model.Boundary
import Mathlib.Analysis.SpecialFunctions.Trigonometric.Basic

/-!
# Distributed Newton iteration for the nonlinear Poisson problem

Model of `applications/parallel/poisson_gold.py` (84-167) and `applications/parallel/poisson_mpi.py` (85-211, 256-369).

As in `Model/Parallel.lean`, what `DMPlex.distribute` and the PETSc sections hand to a rank is input of the model (`Part`). A
distributed vector of length `n` is a function on `Fin n`; the rank's array is its piece from `rstart` to `rend`. `ADD_VALUES` from
all ranks accumulates in an order chosen by the environment. Not modelled: preallocation, options of the linear solver, timers and
printing.
-/

namespace JaxFem
namespace Mpi

/-! ### The problem (`poisson_gold.py`) -/

/-- `u_exact` (`poisson_gold.py:84-86`). -/
noncomputable def uExact (x y : ℝ) : ℝ := Real.sin (Real.pi * x) * Real.sin (Real.pi * y)

/-- `source_f` (`poisson_gold.py:89-93`). -/
noncomputable def sourceF (x y : ℝ) : ℝ :=
  let u := uExact x y
  let lap := -2 * Real.pi ^ 2 * u;
  -lap + u ^ 3

/-- `unit_square_triangle_mesh` (`poisson_gold.py:96-106`): coordinates. -/
noncomputable def squarePoints (nx ny : Nat) : List (Fin 2 → ℝ) :=
  (List.range (nx + 1)).flatMap fun i : Nat => (List.range (ny + 1)).map fun j : Nat => ![(i : ℝ) / nx, (j : ℝ) / ny]

/-- `unit_square_triangle_mesh` (`poisson_gold.py:107-117`): cells. -/
def squareTriangles (nx ny : Nat) : List (List Nat) :=
  (List.range nx).flatMap fun i => (List.range ny).flatMap fun j =>
    let nvy := ny + 1
    let v00 := i * nvy + j
    let v10 := (i + 1) * nvy + j
    let v11 := (i + 1) * nvy + (j + 1)
    let v01 := i * nvy + (j + 1)
    [[v00, v10, v11], [v00, v11, v01]]

/-- `universal_kernel` (`poisson_gold.py:125-154`) for a source `f`, as written: `uq[:, 0]` has shape `(num_quads, 1)`, so that
`nl[:, None, None]` has four axes and `val_nl` the shape `(num_quads, num_nodes, 1)`; the sum over axis 0 is over the points of `nl`
only. `val` and `val_body` of shape `(num_nodes, 1)` are broadcast. -/
noncomputable def universalKernel {nq nn : Nat} (f : ℝ → ℝ → ℝ) (el : RefElement ℝ nq nn 2) (x : List ℝ)
    (d : CellData ℝ Unit nq nn 2) : List ℝ :=
  let sol := cellSol nn 1 x
  let uGrads : Fin nq → Fin 2 → ℝ := fun q j => ∑ a, sol a 0 * d.shapeGrads q a j
  let val : Fin nn → ℝ := fun a => ∑ q, ∑ j, uGrads q j * d.vGradsJxW q a j
  let uq : Fin nq → ℝ := fun q => ∑ a, sol a 0 * el.shapeVals q a
  let nl := fun q => uq q ^ 3
  let valNl : Fin nq → Fin nn → ℝ := fun p a => ∑ q, nl q * el.shapeVals p a * d.JxW p
  let valBody : Fin nn → ℝ := fun a => ∑ q, f (d.quadPoints q 0) (d.quadPoints q 1) * el.shapeVals q a * d.JxW q
  (List.ofFn fun p : Fin nq => List.ofFn fun a : Fin nn => val a + valNl p a - valBody a).flatten

/-- `get_shape_vals_and_grads("TRI3")` (`basis.py:85-90`, `141-175`): order 0, the rule with one point at the centroid. -/
noncomputable def tri3 (info : ElementInfo) : RefElement ℝ 1 3 2 := tabulateInfo info (fun _ _ => 1 / 3) fun _ => 1 / 2

/-- `jnp.isclose(a, b, atol=atol)` with the default `rtol`. -/
def isclose (atol a b : ℝ) : Prop := |a - b| ≤ atol + 1 / 10 ^ 5 * |b|

open Classical in
/-- One of the location functions (`poisson_gold.py:161-166`). -/
noncomputable def side (d : Fin 2) (b : ℝ) : LocFn (Fin 2 → ℝ) := .one fun p => decide (isclose (1 / 10 ^ 9) (p d) b)

/-- `dirichlet_bc_unit_square()` (`poisson_gold.py:159-167`). -/
noncomputable def dirichletInfo : List (LocFn (Fin 2 → ℝ)) × List Nat × List ((Fin 2 → ℝ) → ℝ) :=
  ([side 0 0, side 0 1, side 1 0, side 1 1], List.replicate 4 0, List.replicate 4 fun p => 0 * p 0)

/-! ### The mesh of a rank -/

/-- What a rank sees: the vertices (points of depth 0) in the closure of every cell, and for vertices their coordinates and the offset
of the global section; the range of the vertices and the ownership range of rows. -/
structure Part where
  cells : List (List Nat)
  coord : Nat → Fin 2 → ℝ
  off : Nat → Int
  vStart : Nat
  vEnd : Nat
  rstart : Nat
  rend : Nat

/-- State of the loop (`poisson_mpi.py:98-99`): `point_to_local` in order of insertion, `pts`. -/
structure Build where
  dict : List (Nat × Nat)
  pts : List (Fin 2 → ℝ)

/-- `poisson_mpi.py:106-110`. -/
def addVertex (coord : Nat → Fin 2 → ℝ) (s : Build) (v : Nat) : Build :=
  if (s.dict.lookup v).isNone then ⟨s.dict ++ [(v, s.pts.length)], s.pts ++ [coord v]⟩ else s

/-- One cell (`poisson_mpi.py:102-112`): the new state and `lid`. -/
def addCell (coord : Nat → Fin 2 → ℝ) (s : Build) (verts : List Nat) : Build × List Nat :=
  verts.foldl (fun st v =>
    let s' := addVertex coord st.1 v
    (s', st.2 ++ [(s'.dict.lookup v).getD 0])) (s, [])

/-- The result of `build_local_mesh_from_dm`. -/
structure LocalMesh where
  points : List (Fin 2 → ℝ)
  cells : List (List Nat)
  gdofs : List Int

/-- `build_local_mesh_from_dm` (`poisson_mpi.py:96-120`); `global_dof` is `Parallel.globalDof`. -/
def buildLocalMesh (p : Part) : LocalMesh :=
  let st := p.cells.foldl (fun st verts =>
    let r := addCell p.coord st.1 verts
    (r.1, st.2 ++ [r.2])) ((⟨[], []⟩ : Build), ([] : List (List Nat)))
  let nln := st.1.pts.length
  let plexPt := st.1.dict.foldl (fun a e => a.set e.2 e.1) (List.replicate nln 0)
  ⟨st.1.pts, st.2, (List.range nln).map fun i => Parallel.globalDof (p.off (plexPt.getD i 0))⟩

/-! ### Vectors and matrices -/

/-- `uv` of `gather_owned_nodal_values` (`poisson_mpi.py:124-129`) for the rank's piece `xloc`. -/
noncomputable def ownedValues (p : Part) (xloc : List ℝ) (n : Nat) : List ℝ :=
  (List.range' p.vStart (p.vEnd - p.vStart)).foldl (fun uv v =>
    let gd := Parallel.globalDof (p.off v)
    if (p.rstart : Int) ≤ gd ∧ gd < p.rend then uv.set gd.toNat (xloc.getD (gd.toNat - p.rstart) 0) else uv)
    (List.replicate n 0)

/-- The rank's piece `x.array_r` of a distributed vector. -/
def localArray {n : Nat} (p : Part) (x : Fin n → ℝ) : List ℝ := slice (List.ofFn x) p.rstart p.rend

/-- `gather_owned_nodal_values` (`poisson_mpi.py:123-132`): the sum over the ranks (`Allreduce`), on every rank. -/
noncomputable def gather {n : Nat} (parts : List Part) (x : Fin n → ℝ) : List ℝ :=
  (List.range n).map fun k => (parts.map fun p => (ownedValues p (localArray p x) n).getD k 0).sum

/-- An entry of a matrix in coordinate format. -/
abbrev Entry := (Int × Int) × ℝ

/-- `coo_matrix.sum_duplicates` (`poisson_mpi.py:158`, `173`). -/
noncomputable def sumDuplicates (l : List Entry) : List Entry :=
  (l.map Prod.fst).dedup.map fun k => (k, ((l.filter fun e => e.1 = k).map Prod.snd).sum)

open Classical in
/-- `eliminate_zeros` (`poisson_mpi.py:159`, `174`). -/
noncomputable def eliminateZeros (l : List Entry) : List Entry := l.filter fun e => e.2 ≠ 0

/-- `tocsr` (`poisson_mpi.py:175`): columns and values of every row. -/
def toCsr (nlocal : Nat) (l : List Entry) : List (List (Int × ℝ)) :=
  (List.range nlocal).map fun i : Nat => (l.filter fun e => e.1.1 = (i : Int)).map fun e => (e.1.2, e.2)

/-- Entries added by `setValuesCSR` (`poisson_mpi.py:178-181`): row `i` is the row `rstart + i` of the matrix. -/
def csrEntries (rstart : Nat) (rows : List (List (Int × ℝ))) : List Entry :=
  (rows.mapIdx fun i r => r.map fun e => (((rstart : Int) + i, e.1), e.2)).flatten

/-- `scatter_global_coo` (`poisson_mpi.py:135-184`): the entries which the rank adds to the distributed matrix. -/
noncomputable def scatterGlobalCoo (rstart rend : Nat) (l : List Entry) : List Entry :=
  if l.length = 0 then []
  else
    let nlocal := rend - rstart
    if nlocal = 0 then []
    else
      let own := fun e : Entry => decide ((rstart : Int) ≤ e.1.1) && decide (e.1.1 < rend)
      let off := if (l.any fun e => !own e) then eliminateZeros (sumDuplicates (l.filter fun e => !own e)) else []
      let inner := if l.any own then
          csrEntries rstart (toCsr nlocal (eliminateZeros (sumDuplicates
            ((l.filter own).map fun e => ((e.1.1 - rstart, e.1.2), e.2)))))
        else []
      off ++ inner

/-- `boundary_owned` (`poisson_mpi.py:258-271`). -/
noncomputable def boundaryOwned (p : Part) : List Int :=
  (((List.range' p.vStart (p.vEnd - p.vStart)).filter fun v => Parallel.onBoundary (1 / 10 ^ 9 : ℝ) (p.coord v) &&
    (decide ((p.rstart : Int) ≤ Parallel.globalDof (p.off v)) && decide (Parallel.globalDof (p.off v) < p.rend))).map
      fun v => Parallel.globalDof (p.off v)).dedup.mergeSort fun a b => decide (a ≤ b)

/-! ### The linear system of a Newton step -/

/-- The local problem's `fes` (`poisson_mpi.py:239-246`). -/
def LocalMesh.fes (m : LocalMesh) : List FE := [⟨m.points.length, 1, 3, m.cells⟩]

/-- Entries from the arrays of `Dirichlet_boundary_conditions`. -/
def entries (b : List (List Nat) × List (List Nat) × List (List ℝ)) : List (BCEntry ℝ) :=
  List.zipWith (fun n cv => ⟨n, cv.1, cv.2⟩) b.1 (b.2.1.zip b.2.2)

/-- `problem.newton_update(sol_list)` (`poisson_mpi.py:302`) with `value_and_jacfwd` (`problem.py:262-266`) of the universal kernel. -/
noncomputable def newtonUpdate (f : ℝ → ℝ → ℝ) (el : RefElement ℝ 1 3 2) (m : LocalMesh) (u : List ℝ) :
    Except Err (List (List (List ℝ)) × List ℝ) :=
  computeNewton (F := Unit) m.fes []
    (fun x d => (universalKernel f el x d, Dendrite.jacfwd (fun y => universalKernel f el y d) x))
    (m.cells.map fun c => cellData el m.points c fun _ => ()) [] [] [u.map fun v => [v]]

/-- What a rank adds to the vector `b` and to the matrix (`poisson_mpi.py:297-321`). -/
noncomputable def rankSystem (f : ℝ → ℝ → ℝ) (el : RefElement ℝ 1 3 2) (p : Part) (uFull : List ℝ) :
    Except Err (List (Int × ℝ) × List Entry) := do
  let m := buildLocalMesh p
  let uLoc := m.gdofs.map fun g => uFull.getD g.toNat 0
  let RV ← newtonUpdate f el m uLoc
  let bc ← dirichletBC m.points (some dirichletInfo)
  let res := applyBcVec m.fes [entries bc] 1 (ravelSol RV.1) uLoc
  let rows := (cooI m.fes []).map fun i => m.gdofs.getD i 0
  let cols := (cooJ m.fes []).map fun i => m.gdofs.getD i 0
  .ok (m.gdofs.zip res, scatterGlobalCoo p.rstart p.rend ((rows.zip cols).zip RV.2))

/-- Orders in which contributions to the vector and to the matrix arrive. -/
structure Orders where
  vec : List (Int × ℝ) → List (Int × ℝ)
  mat : List Entry → List Entry

/-- The system of one Newton step (`poisson_mpi.py:292-333`). `zeroRows` and the insertion into `b` are done by ranks owning a boundary
vertex; `zeroRows` is collective. -/
noncomputable def buildSystem {n : Nat} (f : ℝ → ℝ → ℝ) (el : RefElement ℝ 1 3 2) (parts : List Part) (o : Orders) (x : Fin n → ℝ) :
    Except Err (Parallel.Sys ℝ) := do
  let uFull := gather parts x
  let cs ← parts.mapM fun p => rankSystem f el p uFull
  let b := o.vec (cs.flatMap Prod.fst)
  let A := o.mat (cs.flatMap Prod.snd)
  let s : Parallel.Sys ℝ := ⟨fun i j => (A.map fun e => if e.1 = (i, j) then e.2 else 0).sum,
    fun i => (b.map fun e => if e.1 = i then e.2 else 0).sum⟩
  let dofs := parts.map boundaryOwned
  if (∃ l ∈ dofs, l = []) ∧ ∃ l ∈ dofs, l ≠ [] then .error .runtime
  else .ok (Parallel.applyBC s dofs.flatten)

/-! ### The Newton iteration -/

open Classical in
/-- The loop (`poisson_mpi.py:288-369`): `fuel` iterations are left, `it` have been done, `r0` is `rnorm0`. The linear solver raises if it
does not converge (`ksp_error_if_not_converged`). -/
noncomputable def newtonLoop {n : Nat} (system : Nat → (Fin n → ℝ) → Except Err (Parallel.Sys ℝ))
    (solve : Matrix (Fin n) (Fin n) ℝ → (Fin n → ℝ) → Except Err (Fin n → ℝ)) (tol relTol : ℝ) :
    Nat → Nat → Option ℝ → (Fin n → ℝ) → Except Err (Fin n → ℝ)
  | 0, _, _, x => .ok x
  | fuel + 1, it, r0, x => do
    let s ← system it x
    let b : Fin n → ℝ := fun i => s.rhs i
    let normR := Real.sqrt (∑ i, b i ^ 2)
    let rnorm0 := r0.getD normR
    let relR := if rnorm0 ≠ 0 then normR / rnorm0 else 0
    if ¬(relR > relTol ∧ normR > tol) then .ok x
    else
      let du ← solve (Matrix.of fun i j => s.mat i j) fun i => -1 * b i
      newtonLoop system solve tol relTol fuel (it + 1) (some rnorm0) fun i => x i + 1 * du i

/-- The computed nodal values (`poisson_mpi.py:281-369`): start with zero. -/
noncomputable def solution {n : Nat} (f : ℝ → ℝ → ℝ) (el : RefElement ℝ 1 3 2) (parts : List Part) (o : Nat → Orders)
    (solve : Matrix (Fin n) (Fin n) ℝ → (Fin n → ℝ) → Except Err (Fin n → ℝ)) (tol relTol : ℝ) (maxIt : Nat) :
    Except Err (Fin n → ℝ) :=
  newtonLoop (fun it x => buildSystem f el parts (o it) x) solve tol relTol maxIt 0 none fun _ => 0

/-- `rms_versus_u_exact_on_owned_vertices` (`poisson_mpi.py:196-211`): pairs of coordinates and value of the owned vertices of a rank. -/
noncomputable def ownedPairs {n : Nat} (p : Part) (x : Fin n → ℝ) : List ((Fin 2 → ℝ) × ℝ) :=
  ((List.range' p.vStart (p.vEnd - p.vStart)).filter fun v => decide ((p.rstart : Int) ≤ Parallel.globalDof (p.off v)) &&
    decide (Parallel.globalDof (p.off v) < p.rend)).map fun v =>
      (p.coord v, (localArray p x).getD ((Parallel.globalDof (p.off v)).toNat - p.rstart) 0)

/-- The root mean square over all ranks. -/
noncomputable def rms {n : Nat} (parts : List Part) (x : Fin n → ℝ) : ℝ :=
  let sq := (parts.map fun p => ((ownedPairs p x).map fun e => (e.2 - uExact (e.1 0) (e.1 1)) ^ 2).sum).sum
  let cnt := (parts.map fun p => (ownedPairs p x).length).sum
  if cnt ≠ 0 then Real.sqrt (sq / cnt) else 0

end Mpi
end JaxFem
