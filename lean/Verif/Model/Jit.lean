import Verif.Model.Assembly

/-!
# Compiled kernels and surface definitions (`jax_fem/problem.py:261-424`)

`jax.jit` as a cache: the Python function is traced on the first call with arguments of given shapes (and
types); values it reads from outside its arguments (attributes of `self`) become constants of the compiled
program, which is reused for every later call with the same shapes. `pre_jit_fns` creates new function objects
and thereby starts with empty caches.

* `A`: values of the attributes which the user's kernels read; `C`: arguments of a kernel for one cell or face
  (solution, geometry, internal variables); `S`: what the cache distinguishes (`key`, shapes of a batch).
* Function number 0 is the cell kernel, number `i + 1` the kernel of boundary subset `i`.
-/

namespace JaxFem
namespace Jit

variable {A C S Y Z V Sol : Type} [DecidableEq S]

/-- Compiled programs: function number and shapes, with the attribute values in effect when traced. -/
abbrev Cache (A S : Type) := List ((Nat × S) × A)

/-- Call of a jitted, vectorised kernel (`vmap_fn(*input_col)`, `problem.py:378, 393, 410, 422`). -/
def callJit (kern : A → Nat → C → Y) (key : List C → S) (attr : A) (cache : Cache A S) (fn : Nat)
    (batch : List C) : List Y × Cache A S :=
  match cache.lookup (fn, key batch) with
  | some a => (batch.map (kern a fn), cache)
  | none => (batch.map (kern attr fn), ((fn, key batch), attr) :: cache)

/-- A sequence of calls, results in order. -/
def callAll (kern : A → Nat → C → Y) (key : List C → S) (attr : A) (cache : Cache A S) :
    List (Nat × List C) → List (List Y) × Cache A S
  | [] => ([], cache)
  | (fn, batch) :: rest =>
    let r := callJit kern key attr cache fn batch
    let t := callAll kern key attr r.2 rest
    (r.1 :: t.1, t.2)

/-- The calls of one evaluation: the batches of the cells (`split_and_compute_cell`, 359-396), then one call
per boundary subset (`compute_face`, 398-424). -/
def evalCalls (cellArgs : List C) (faceArgs : List (List C)) : List (Nat × List C) :=
  let cuts := numCuts cellArgs.length
  ((List.range cuts).map fun i => (0, batchSlice cuts (cellArgs.length / cuts) i cellArgs)) ++
    faceArgs.mapIdx fun i b => (i + 1, b)

/-- A problem object: attributes read by kernels, internal variables, caches of `kernel`/`kernel_face` and of
`kernel_jac`/`kernel_jac_face`. -/
structure Prob (A S V : Type) where
  attr : A
  vars : V
  cacheRes : Cache A S
  cacheJac : Cache A S

/-- Operations of a user: `set_params` (493), assignment to an attribute, `compute_residual` (461),
`newton_update` (476), `pre_jit_fns` (261). -/
inductive Op (A V Sol : Type) where
  | setParams (v : V)
  | setAttr (a : A)
  | residual (s : Sol)
  | newton (s : Sol)
  | preJit

/-- How a class turns solution and internal variables into kernel arguments, and its kernels. -/
structure Code (A C S Y Z V Sol : Type) where
  kern : A → Nat → C → Y
  kernJac : A → Nat → C → Z
  key : List C → S
  cellArgs : Sol → V → List C
  faceArgs : Sol → V → List (List C)

/-- Effect of an operation on the object. -/
def step (cd : Code A C S Y Z V Sol) (p : Prob A S V) : Op A V Sol → Prob A S V
  | .setParams v => { p with vars := v }
  | .setAttr a => { p with attr := a }
  | .residual s => { p with cacheRes :=
      (callAll cd.kern cd.key p.attr p.cacheRes (evalCalls (cd.cellArgs s p.vars) (cd.faceArgs s p.vars))).2 }
  | .newton s => { p with cacheJac :=
      (callAll cd.kernJac cd.key p.attr p.cacheJac (evalCalls (cd.cellArgs s p.vars) (cd.faceArgs s p.vars))).2 }
  | .preJit => { p with cacheRes := [], cacheJac := [] }

/-- A newly constructed object (`__post_init__`, 53-127) after the operations `h`. -/
def run (cd : Code A C S Y Z V Sol) (a0 : A) (v0 : V) (h : List (Op A V Sol)) : Prob A S V :=
  h.foldl (step cd) ⟨a0, v0, [], []⟩

/-- Cell values (`vstack` of the batches) and face values of an evaluation. -/
def splitResult (n : Nat) (r : List (List Y)) : List Y × List (List Y) := ((r.take n).flatten, r.drop n)

/-- Kernel values used by `compute_residual`. -/
def residualVals (cd : Code A C S Y Z V Sol) (p : Prob A S V) (s : Sol) : List Y × List (List Y) :=
  splitResult (numCuts (cd.cellArgs s p.vars).length)
    (callAll cd.kern cd.key p.attr p.cacheRes (evalCalls (cd.cellArgs s p.vars) (cd.faceArgs s p.vars))).1

/-- Kernel values used by `newton_update`. -/
def newtonVals (cd : Code A C S Y Z V Sol) (p : Prob A S V) (s : Sol) : List Z × List (List Z) :=
  splitResult (numCuts (cd.cellArgs s p.vars).length)
    (callAll cd.kernJac cd.key p.attr p.cacheJac (evalCalls (cd.cellArgs s p.vars) (cd.faceArgs s p.vars))).1

/-! ### Surface definitions -/

/-- What a class defines for surface integrals: the lists returned by `get_surface_maps` and
`get_universal_kernels_surface` when the methods exist. -/
structure SurfaceDefs (F : Type) where
  surfaceMaps : Option (List F)
  universal : Option (List F)

/-- The checks in `pre_jit_fns` (340-346). -/
def checkSurfaces {F : Type} (d : SurfaceDefs F) (numSurfaces : Nat) : Except Err Unit :=
  match d.surfaceMaps with
  | some l => if numSurfaces = l.length then .ok () else .error .assertion
  | none =>
    match d.universal with
    | some l => if numSurfaces = l.length then .ok () else .error .assertion
    | none => if numSurfaces = 0 then .ok () else .error .assertion

/-- `[ind]` of a Python list. -/
def pyGet {F : Type} (l : List F) (ind : Nat) : Except Err F :=
  match l[ind]? with
  | some x => .ok x
  | none => .error .index

/-- The face kernel of boundary subset `ind` when it is traced (306-325): the kernels whose values are added
(an absent definition contributes zero). -/
def faceKernel {F : Type} (d : SurfaceDefs F) (ind : Nat) : Except Err (List F) := do
  let a ← match d.surfaceMaps with
    | some l => (pyGet l ind).map fun x => [x]
    | none => .ok []
  let b ← match d.universal with
    | some l => (pyGet l ind).map fun x => [x]
    | none => .ok []
  .ok (a ++ b)

end Jit
end JaxFem
