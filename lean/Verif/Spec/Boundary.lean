import Verif.Model.Boundary

/-!
# Specification of boundary selections
-/

namespace JaxFem

/-- What a location function says about node `n` at point `p`; `none` for an unsupported number of
arguments. -/
def LocFn.holds {P : Type} (loc : LocFn P) (p : P) (n : Nat) : Prop :=
  match loc with
  | .one f => f p = true
  | .two f => f p n = true
  | .other _ => False

/-- Supported number of arguments. -/
def LocFn.supported {P : Type} : LocFn P → Prop
  | .other _ => False
  | _ => True

/-- Node `n` exists and satisfies the location function. -/
def OnDirichlet {P : Type} (points : List P) (loc : LocFn P) (n : Nat) : Prop :=
  ∃ p, points[n]? = some p ∧ loc.holds p n

/-- What one boundary-condition entry must contain: strictly increasing node numbers, exactly those
on which the location function is true, the component repeated, and the value function at exactly
those points in the same order. -/
def EntrySpec {P K : Type} (points : List P) (loc : LocFn P) (vec : Nat) (val : P → K)
    (nodes vecs : List Nat) (vals : List K) : Prop :=
  nodes.Pairwise (· < ·) ∧ (∀ n, n ∈ nodes ↔ OnDirichlet points loc n) ∧
  vecs = List.replicate nodes.length vec ∧ vals.length = nodes.length ∧
  ∀ (k n : Nat) (p : P), nodes[k]? = some n → points[n]? = some p → vals[k]? = some (val p)

/-- All vertices of local face `f` of cell `c` satisfy the location function. -/
def FaceOn {P : Type} (points : List P) (cells faceInds : List (List Nat)) (loc : LocFn P)
    (c f : Nat) : Prop :=
  ∃ cell face, cells[c]? = some cell ∧ faceInds[f]? = some face ∧
    ∀ a ∈ face, ∃ n p, cell[a]? = some n ∧ points[n]? = some p ∧ loc.holds p n

/-- Every face vertex of every cell is an existing point. -/
def ValidFaces {P : Type} (points : List P) (cells faceInds : List (List Nat)) : Prop :=
  ∀ cell ∈ cells, ∀ face ∈ faceInds, ∀ a ∈ face, ∃ n p, cell[a]? = some n ∧ points[n]? = some p

end JaxFem
