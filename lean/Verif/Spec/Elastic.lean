import Verif.Spec.Variational

/-!
Independent notions for linear elasticity: strain, rigid motions, nodes that are held by the boundary conditions.
-/

namespace JaxFem

variable {IV : Type} {nq nfq nn dim : Nat}

/-- Symmetric part of a displacement gradient. -/
noncomputable def symPart (G : Fin dim → Fin dim → ℝ) : Fin dim → Fin dim → ℝ := fun i j => (G i j + G j i) / 2

/-- Skew-symmetric matrices: infinitesimal rotations. -/
def Skew (W : Matrix (Fin dim) (Fin dim) ℝ) : Prop := ∀ i j, W i j = - W j i

/-- Displacements `U` of points `X` that are those of an infinitesimal rigid motion. -/
def RigidMotion (X U : Fin nn → Fin dim → ℝ) : Prop :=
  ∃ (W : Matrix (Fin dim) (Fin dim) ℝ) (b : Fin dim → ℝ), Skew W ∧ ∀ a i, U a i = ∑ j, W i j * X a j + b i

/-- Points at which only the trivial rigid motion vanishes. -/
def Holds (S : List (Fin dim → ℝ)) : Prop :=
  ∀ (W : Matrix (Fin dim) (Fin dim) ℝ) (b : Fin dim → ℝ), Skew W →
    (∀ x ∈ S, ∀ i, ∑ j, W i j * x j + b i = 0) → W = 0 ∧ b = 0

/-- Displacements of a cell with zero strain at all quadrature points are rigid motions: no zero-energy modes
besides the rigid ones. -/
def RefElement.StrainDetermines (el : RefElement ℝ nq nn dim) (X : Fin nn → Fin dim → ℝ) : Prop :=
  ∀ U : Fin nn → Fin dim → ℝ,
    (∀ q, symPart (physGrad (Matrix.of X) (Matrix.of (el.shapeGradsRef q)) (Matrix.of U)) = 0) → RigidMotion X U

/-- The tensor map is monotone, and strictly so for gradients with different strains. -/
def Problem1.StrainMonotone (P : Problem1 IV nq nfq nn dim dim) : Prop :=
  ∀ iv G H, 0 ≤ contract (fun i j => P.tensorMap iv G i j - P.tensorMap iv H i j) (fun i j => G i j - H i j) ∧
    (symPart G ≠ symPart H →
      0 < contract (fun i j => P.tensorMap iv G i j - P.tensorMap iv H i j) fun i j => G i j - H i j)

/-- Nodes which the boundary conditions hold: nodes with all components prescribed, and all nodes of a cell in
which enough nodes are held to exclude rigid motions. -/
inductive Problem1.Held (P : Problem1 IV nq nfq nn dim dim) (free : Nat → Fin dim → Prop) : Nat → Prop
  | fixed (n : Nat) (h : ∀ c, ¬ free n c) : P.Held free n
  | cell (cell : List Nat) (hc : cell ∈ P.conn) (S : List Nat) (hS : ∀ n ∈ S, n ∈ cell)
      (hh : ∀ n ∈ S, P.Held free n) (hf : Holds (S.map fun n => P.points.getD n 0)) (m : Nat) (hm : m ∈ cell) :
      P.Held free m

end JaxFem
