import Verif.Model.Parallel
import Mathlib.Logic.Equiv.Defs

/-!
# Specification: linear triangles, distributed meshes and the serial system
-/

namespace JaxFem
namespace Parallel

variable {K : Type} [Field K]

/-- `g` are the gradients of the linear shape functions of the triangle `v`: for suitable constants the
affine functions `c a + g a · x` are one at vertex `a` and zero at the other vertices. -/
def IsShapeGrads (v : Fin 3 → Fin 2 → K) (g : Fin 3 → Fin 2 → K) : Prop :=
  ∃ c : Fin 3 → K, ∀ a b, c a + ∑ d, g a d * v b d = if a = b then 1 else 0

/-- Shoelace formula. -/
def triArea [LinearOrder K] (v : Fin 3 → Fin 2 → K) : K :=
  |v 0 0 * (v 1 1 - v 2 1) + v 1 0 * (v 2 1 - v 0 1) + v 2 0 * (v 0 1 - v 1 1)| / 2

/-- `tri` describes the triangle with the vertices of `tri'` in some order. -/
def SameTriangle (tri tri' : Fin 3 → Nat) : Prop := ∃ σ : Equiv.Perm (Fin 3), ∀ a, tri a = tri' (σ a)

/-- Stiffness entry of the serial problem between the vertices `v` and `w`: the sum over the triangles of
area times product of the shape function gradients (`g` of each triangle). -/
def serialMat [LinearOrder K] (coords : Nat → Fin 2 → K) (cells : List (Fin 3 → Nat))
    (g : (Fin 3 → Nat) → Fin 3 → Fin 2 → K) (v w : Nat) : K :=
  (cells.map fun c => ∑ a, ∑ b, if c a = v ∧ c b = w then
    triArea (fun a => coords (c a)) * ∑ d, g c a d * g c b d else 0).sum

/-- Load entry of the serial problem (one point quadrature at the centroid). -/
def serialRhs [LinearOrder K] (coords : Nat → Fin 2 → K) (cells : List (Fin 3 → Nat)) (f : K → K → K) (v : Nat) :
    K :=
  (cells.map fun c => ∑ a, if c a = v then
    triArea (fun a => coords (c a)) / 3 * f ((∑ a, coords (c a) 0) / 3) ((∑ a, coords (c a) 1) / 3) else 0).sum

/-- What a correct distribution of the mesh with `N` vertices over `ranks` provides. `num` is the global
numbering of the degrees of freedom, `glob r l` the serial vertex behind the local vertex `l` of rank `r`. A
section offset is the global number for owned vertices and `-(number + 1)` for ghosts. Every triangle is on
exactly one rank (no overlap) with its vertices in any order; every vertex is owned by a rank which holds it. -/
structure IsDistribution (coords : Nat → Fin 2 → K) (N : Nat) (cells : List (Fin 3 → Nat)) (num : Nat → Int)
    (glob : Rank K → Nat → Nat) (ranks : List (Rank K)) : Prop where
  cells_lt : ∀ c ∈ cells, ∀ a, c a < N
  num_nonneg : ∀ v < N, 0 ≤ num v
  num_inj : ∀ v < N, ∀ w < N, num v = num w → v = w
  verts : ∀ r ∈ ranks, ∀ (l : Nat) (lv : LVertex K), r.verts[l]? = some lv → glob r l < N ∧
    lv.xy = coords (glob r l) ∧
    lv.off = if r.rstart ≤ num (glob r l) ∧ num (glob r l) < r.rend then num (glob r l) else -(num (glob r l) + 1)
  triangles : ∀ r ∈ ranks, ∀ cell ∈ r.cells, cell.length = 3 ∧ ∀ l ∈ cell, l < r.verts.length
  cover : ∃ M : List (Fin 3 → Nat), M.Perm cells ∧ List.Forall₂ SameTriangle
    (ranks.flatMap fun r => r.cells.map fun cell a => glob r (cell.getD a.val 0)) M
  owner : ∀ v < N, ∃ r ∈ ranks, r.rstart ≤ num v ∧ num v < r.rend ∧ ∃ l < r.verts.length, glob r l = v

/-- The point is within `tol` of a line carrying a side of the unit square. -/
def NearSide [LinearOrder K] (tol : K) (xy : Fin 2 → K) : Prop := ∃ d, |xy d| < tol ∨ |xy d - 1| < tol

/-- Closed triangle. -/
def InTriangle [LinearOrder K] (v : Fin 3 → Fin 2 → K) (p : Fin 2 → K) : Prop :=
  ∃ w : Fin 3 → K, (∀ a, 0 ≤ w a) ∧ ∑ a, w a = 1 ∧ ∀ d, ∑ a, w a * v a d = p d

/-- Open triangle. -/
def InsideTriangle [LinearOrder K] (v : Fin 3 → Fin 2 → K) (p : Fin 2 → K) : Prop :=
  ∃ w : Fin 3 → K, (∀ a, 0 < w a) ∧ ∑ a, w a = 1 ∧ ∀ d, ∑ a, w a * v a d = p d

/-- Coordinates of the three vertices of a cell. -/
def cellPts (pts : List (Fin 2 → K)) (cell : List Nat) : Fin 3 → Fin 2 → K :=
  fun a => pts.getD (cell.getD a.val 0) 0

/-- `a → b` is an edge of the triangle in its orientation. -/
def DirEdge (cell : List Nat) (a b : Nat) : Prop := ∃ c, cell = [a, b, c] ∨ cell = [c, a, b] ∨ cell = [b, c, a]

/-- Twice the signed area (positive if counterclockwise). -/
def signedArea2 (v : Fin 3 → Fin 2 → K) : K :=
  v 0 0 * (v 1 1 - v 2 1) + v 1 0 * (v 2 1 - v 0 1) + v 2 0 * (v 0 1 - v 1 1)

end Parallel
end JaxFem
