import Mathlib.Algebra.BigOperators.Group.Finset.Basic
import Mathlib.Algebra.BigOperators.Group.List.Basic
import Verif.Spec.Mesh
import Verif.Spec.Dofs

/-!
Independent description of "the sum of the element contributions".

A *term* is a cell number together with a function of that cell's local solution vector: one term
per cell (volume contribution) and one term per selected face (surface contribution, attached to
the cell the face belongs to).
-/

namespace JaxFem

universe u v w
variable {K : Type u} {D : Type v} {F : Type v} {β : Type w}

/-- Volume terms: cell number `c` with its own data. -/
def cellTerms (kernel : List K → D → β) (data : List D) : List (Nat × (List K → β)) :=
  data.mapIdx fun c d => (c, fun s => kernel s d)

/-- Surface terms: one per face of every boundary subset. -/
def faceTerms : List BoundaryInds → List (List K → F → β) → List (List F) →
    List (Nat × (List K → β))
  | b :: bs, k :: ks, ds :: dss =>
    List.zipWith (fun (p : Nat × Nat) d => (p.1, fun s => k s d)) b ds ++ faceTerms bs ks dss
  | _, _, _ => []

/-- Position of component `c` at local node `a` of variable `i` in a cell's local vector: variables
one after the other, nodes in order, components fastest. -/
def localPos (fes : List FE) (i a c : Nat) : Nat :=
  ((fes.take i).map fun fe => fe.numNodes * fe.vec).sum + a * ((fes.map FE.vec).getD i 0) + c

/-- Length of a cell's local vector. -/
def localSize (fes : List FE) : Nat := (fes.map fun fe => fe.numNodes * fe.vec).sum

/-- Node number `a` of cell `e` of variable `i`. -/
def nodeOf (fes : List FE) (i e a : Nat) : Nat :=
  ((fes.map FE.cells).getD i [] |>.getD e []).getD a 0

/-- Entry (variable, node, component) of a solution list. -/
def at3 [Zero K] (s : List (List (List K))) (i n c : Nat) : K := ((s.getD i []).getD n []).getD c 0

/-- `x` is the local vector of cell `e`: at the position of local node `a` it holds the nodal value
of the cell's node number `a`. -/
def IsLocal [Zero K] (fes : List FE) (sols : List (List (List K))) (e : Nat) (x : List K) : Prop :=
  x.length = localSize fes ∧
    ∀ i (hi : i < fes.length), ∀ a < fes[i].numNodes, ∀ c < fes[i].vec,
      x.getD (localPos fes i a c) 0 = at3 sols i (nodeOf fes i e a) c

/-- What a list of terms adds to component `c` at node `n` of variable `i`: every term adds its
local entries at the local nodes that are node `n`. -/
def nodalSum [AddCommMonoid K] (fes : List FE) (terms : List (Nat × List K)) (i n c : Nat) : K :=
  (terms.map fun t => ∑ a ∈ Finset.range ((fes.map FE.numNodes).getD i 0),
    if nodeOf fes i t.1 a = n then t.2.getD (localPos fes i a c) 0 else 0).sum

/-- `g e p` is the global number of local unknown `p` of cell `e`. -/
def IsGlobal (fes : List FE) (g : Nat → Nat → Nat) : Prop :=
  ∀ e < numCells fes, ∀ i (hi : i < fes.length), ∀ a < fes[i].numNodes, ∀ c < fes[i].vec,
    g e (localPos fes i a c) = dofNum fes i (nodeOf fes i e a) c

/-- Sum of local matrices: local row `p` goes to global row `g e p`, local column `q` to global
column `g e q`. -/
def matSum [AddCommMonoid K] (m : Nat) (g : Nat → Nat → Nat) (terms : List (Nat × List (List K)))
    (r c : Nat) : K :=
  (terms.map fun t => ∑ p ∈ Finset.range m, ∑ q ∈ Finset.range m,
    if g t.1 p = r ∧ g t.1 q = c then (t.2.getD p []).getD q 0 else 0).sum

/-- Sum of local vectors in the flat numbering. -/
def vecSum [AddCommMonoid K] (m : Nat) (g : Nat → Nat → Nat) (terms : List (Nat × List K))
    (r : Nat) : K :=
  (terms.map fun t => ∑ p ∈ Finset.range m, if g t.1 p = r then t.2.getD p 0 else 0).sum

/-- Shapes of the arguments handed to the assembly: one datum per cell, one face kernel per
boundary subset, one datum per face. -/
structure WFArgs (fes : List FE) (bs : List BoundaryInds) (data : List D)
    (kernelsFace : List (List K → F → β)) (dataFace : List (List F)) : Prop where
  mesh : WFMesh fes
  cells : 0 < numCells fes
  boundary : WFBoundary fes bs
  data : data.length = numCells fes
  kernels : kernelsFace.length = bs.length
  faces : dataFace.length = bs.length
  face : ∀ j (h : j < bs.length), (dataFace.getD j []).length = bs[j].length

end JaxFem
