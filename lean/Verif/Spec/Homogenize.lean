import Verif.Model.Homogenize
import Verif.Spec.Hyper
import Verif.Spec.Multiplier

/-!
# Specification of homogenisation
-/

namespace JaxFem.Rve

open Matrix

variable {nq nfq nn : Nat}

/-- A fluctuation: equal values at paired nodes, zero at the pinned nodes. -/
def Fluctuation (pairs : List (Nat × Nat)) (pins : List Nat) (w : Nat → Fin 3 → ℝ) : Prop :=
  (∀ p ∈ pairs, w p.1 = w p.2) ∧ ∀ n ∈ pins, w n = 0

/-- Deformation gradient under the macroscopic gradient `H` and the fluctuation `w`. -/
noncomputable def deformation (P : Problem1 (ℝ × ℝ) nq nfq nn 3 3) (H : Matrix (Fin 3) (Fin 3) ℝ) (w : Nat → Fin 3 → ℝ)
    (cell : List Nat) (q : Fin nq) : Matrix (Fin 3) (Fin 3) ℝ := 1 + H + P.gradient w cell q

/-- No quadrature point is turned inside out. -/
def Admissible (P : Problem1 (ℝ × ℝ) nq nfq nn 3 3) (H : Matrix (Fin 3) (Fin 3) ℝ) (w : Nat → Fin 3 → ℝ) : Prop :=
  ∀ c ∈ P.cells, ∀ q, 0 < (deformation P H w c.nodes q).det

/-- First Piola–Kirchhoff stress at a quadrature point, in closed form. -/
noncomputable def piola (P : Problem1 (ℝ × ℝ) nq nfq nn 3 3) (H : Matrix (Fin 3) (Fin 3) ℝ) (w : Nat → Fin 3 → ℝ)
    (c : CellSpec (ℝ × ℝ) nq) (q : Fin nq) : Matrix (Fin 3) (Fin 3) ℝ :=
  neoHookePiola 3 ((c.iv q).1 / (2 * (1 + (c.iv q).2))) ((c.iv q).1 / (3 * (1 - 2 * (c.iv q).2)))
    (deformation P H w c.nodes q)

/-- Integral of the stress over the volume. -/
noncomputable def totalStress (P : Problem1 (ℝ × ℝ) nq nfq nn 3 3) (H : Matrix (Fin 3) (Fin 3) ℝ) (w : Nat → Fin 3 → ℝ) :
    Matrix (Fin 3) (Fin 3) ℝ :=
  Matrix.of fun i j => (P.cells.map fun c => cellIntegral P.el P.points c.nodes fun q => piola P H w c q i j).sum

/-- Power of the stress on the gradients of `δH x + w`. -/
noncomputable def stressPower (P : Problem1 (ℝ × ℝ) nq nfq nn 3 3) (H : Matrix (Fin 3) (Fin 3) ℝ) (v : Nat → Fin 3 → ℝ)
    (dH : Matrix (Fin 3) (Fin 3) ℝ) (w : Nat → Fin 3 → ℝ) : ℝ :=
  (P.cells.map fun c => cellIntegral P.el P.points c.nodes fun q =>
    contract (piola P H v c q) fun i j => dH i j + P.gradient w c.nodes q i j).sum

/-- Volume of the mesh. -/
noncomputable def volume (P : Problem1 (ℝ × ℝ) nq nfq nn 3 3) : ℝ :=
  (P.cells.map fun c => cellIntegral P.el P.points c.nodes fun _ => 1).sum

/-- Nodal field of finitely many values. -/
def extend {N : Nat} (u : Fin N → Fin 3 → ℝ) : Nat → Fin 3 → ℝ := fun n => if h : n < N then u ⟨n, h⟩ else 0

/-- The array of nodal values. -/
def solOf {N : Nat} (u : Fin N → Fin 3 → ℝ) : List (List ℝ) := List.ofFn fun n => List.ofFn (u n)

/-- `v` is an equilibrium under `H`: a fluctuation for which the assembled nodal forces do no work on fluctuations. -/
def IsEquilibrium (P : Problem1 (ℝ × ℝ) nq nfq nn 3 3) (pairs : List (Nat × Nat)) (pins : List Nat) (H : Tensor)
    (v : Fin P.numTotalNodes → Fin 3 → ℝ) : Prop :=
  Fluctuation pairs pins (extend v) ∧ ∃ R, (problem (.rve H) P).residual [solOf v] = .ok R ∧
    ∀ w, Fluctuation pairs pins w → ∑ n ∈ Finset.range P.numTotalNodes, ∑ c : Fin 3, w n c * at3 R 0 n c = 0

/-- `e` is the least energy that `compute_energy` gives for admissible fluctuations under `H`, reached at `v`. -/
def IsMinimum (P : Problem1 (ℝ × ℝ) nq nfq nn 3 3) (pairs : List (Nat × Nat)) (pins : List Nat) (H : Matrix (Fin 3) (Fin 3) ℝ)
    (v : Fin P.numTotalNodes → Fin 3 → ℝ) (e : ℝ) : Prop :=
  Fluctuation pairs pins (extend v) ∧ Admissible P H (extend v) ∧ computeEnergy (.rve H) P (solOf v) = e ∧
    ∀ w : Fin P.numTotalNodes → Fin 3 → ℝ, Fluctuation pairs pins (extend w) → Admissible P H (extend w) →
      e ≤ computeEnergy (.rve H) P (solOf w)

/-- The point lies in one of the cubic inclusions. -/
def InInclusion (a : Args) (x : Fin 3 → ℝ) : Prop :=
  ∃ i j k : Nat, i < a.unitsX ∧ j < a.unitsY ∧ k < a.unitsZ ∧
    |x 0 - (i + 1 / 2) * a.L| < a.ratio * a.L ∧ |x 1 - (j + 1 / 2) * a.L| < a.ratio * a.L ∧
    |x 2 - (k + 1 / 2) * a.L| < a.ratio * a.L

/-- The folder holds only results of the program: the file of sample `i` has its number in the name, the energy is no NaN. -/
def Valid (root : List Char) (solve : (Fin 6 → ℝ) → (Fin 6 → ℝ) × Flt ℝ) (samples : List (Fin 6 → ℝ)) (f : Folder) : Prop :=
  ∀ r ∈ f.npy, ∃ i, ∃ hi : i < samples.length, r = (fileName root i, solve samples[i]) ∧ r.2.2 ≠ .nan

/-- The nodal values in the order of the degrees of freedom. -/
def flatten {N : Nat} (v : Fin N → Fin 3 → ℝ) : Fin (N * 3) → ℝ := fun k => v k.divNat k.modNat

end JaxFem.Rve
