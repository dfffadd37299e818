import Verif.Model.Multiplier
import Verif.Spec.BC

/-!
# Specification of constraints by Lagrange multipliers
-/

namespace JaxFem
namespace LM

universe u

/-- One scalar constraint: a prescribed value or two equal degrees of freedom. -/
inductive Row (K : Type u)
  | fixed (k : Nat) (v : K)
  | tie (a b : Nat)

/-- The constraints of a problem in the order of the multipliers. -/
def rows {K : Type u} (P : Prob K) : List (Row K) :=
  (P.d.flatMap fun e => ((e.nodes.zip e.comps).zip e.vals).map fun q =>
    .fixed (q.1.1 * P.fe.vec + q.1.2) q.2) ++
  (P.p.flatMap fun g => ((g.nodesA.zip g.nodesB).zip g.comps).map fun q =>
    .tie (q.1.1 * P.fe.vec + q.2) (q.1.2 * P.fe.vec + q.2))

/-- Coefficient of degree of freedom `j` in a constraint. -/
def Row.coeff {K : Type u} [Ring K] : Row K → Nat → K
  | .fixed k _, j => if j = k then 1 else 0
  | .tie a b, j => (if j = a then 1 else 0) - if j = b then 1 else 0

/-- Right-hand side of a constraint. -/
def Row.rhs {K : Type u} [Ring K] : Row K → K
  | .fixed _ v => v
  | .tie _ _ => 0

/-- The matrix of the constraints, one row per multiplier. -/
def bMat (P : Prob ℝ) : Matrix (Fin (augSize P)) (Fin (nDofs P)) ℝ :=
  Matrix.of fun q j => (((rows P)[(q : Nat)]?).map fun row => row.coeff j).getD 0

/-- The right-hand sides of the constraints. -/
def gVec (P : Prob ℝ) : Fin (augSize P) → ℝ := fun q => (((rows P)[(q : Nat)]?).map Row.rhs).getD 0

/-- The multipliers in an augmented vector. -/
def lamOf (P : Prob ℝ) (x : Vec P) : Fin (augSize P) → ℝ := fun q => x (Fin.natAdd _ q)

/-- The unconstrained matrix: duplicate triplets are summed. -/
def kMat (P : Prob ℝ) (T : List Nat × List Nat × List ℝ) : Matrix (Fin (nDofs P)) (Fin (nDofs P)) ℝ :=
  Matrix.of fun r c => cooEntry T.1 T.2.1 T.2.2 r c

/-- `u` meets all conditions: prescribed values of all entries, equal values at paired nodes. -/
def Meets (P : Prob ℝ) (u : Fin (nDofs P) → ℝ) : Prop :=
  (∀ e ∈ P.d, ∀ n c v, e.Prescribes n c v → ∀ k : Fin (nDofs P), (k : Nat) = n * P.fe.vec + c → u k = v) ∧
  ∀ g ∈ P.p, ∀ (i a b c : Nat), g.nodesA[i]? = some a → g.nodesB[i]? = some b → g.comps[i]? = some c →
    ∀ k l : Fin (nDofs P), (k : Nat) = a * P.fe.vec + c → (l : Nat) = b * P.fe.vec + c → u k = u l

/-- `w` is an admissible variation: zero where a value is prescribed, equal at paired nodes. -/
def Variation (P : Prob ℝ) (w : Fin (nDofs P) → ℝ) : Prop :=
  (∀ e ∈ P.d, ∀ n c v, e.Prescribes n c v → ∀ k : Fin (nDofs P), (k : Nat) = n * P.fe.vec + c → w k = 0) ∧
  ∀ g ∈ P.p, ∀ (i a b c : Nat), g.nodesA[i]? = some a → g.nodesB[i]? = some b → g.comps[i]? = some c →
    ∀ k l : Fin (nDofs P), (k : Nat) = a * P.fe.vec + c → (l : Nat) = b * P.fe.vec + c → w k = w l

/-- `u` is a constrained equilibrium: it meets the conditions and the residual does no work on
admissible variations. -/
def Equilibrium (P : Prob ℝ) (r : Fin (nDofs P) → ℝ) (u : Fin (nDofs P) → ℝ) : Prop :=
  Meets P u ∧ ∀ w, Variation P w → ∑ i, r i * w i = 0

/-- Array shapes fit and indices are valid. -/
structure WF {K : Type u} (P : Prob K) : Prop where
  comps : ∀ e ∈ P.d, e.comps.length = e.nodes.length
  vals : ∀ e ∈ P.d, e.vals.length = e.nodes.length
  valid : ∀ e ∈ P.d, (∀ n ∈ e.nodes, n < P.fe.numTotalNodes) ∧ ∀ c ∈ e.comps, c < P.fe.vec
  pB : ∀ g ∈ P.p, g.nodesB.length = g.nodesA.length
  pcomps : ∀ g ∈ P.p, g.comps.length = g.nodesA.length
  pvalid : ∀ g ∈ P.p, (∀ n ∈ g.nodesA, n < P.fe.numTotalNodes) ∧ (∀ n ∈ g.nodesB, n < P.fe.numTotalNodes) ∧
    ∀ c ∈ g.comps, c < P.fe.vec

/-- The triplets of the unconstrained matrix fit together and stay within its size. -/
structure WFT {K : Type u} (P : Prob K) (I J : List Nat) (V : List K) : Prop where
  lenJ : J.length = I.length
  lenV : V.length = I.length
  ltI : ∀ i ∈ I, i < nDofs P
  ltJ : ∀ j ∈ J, j < nDofs P

/-- The linear solver returns solutions whenever it returns. -/
def ExactLin {P : Prob ℝ} (solve : LinSolve P) : Prop :=
  ∀ A b x0 x, solve A b x0 = .ok x → A.mulVec x = b

end LM
end JaxFem
