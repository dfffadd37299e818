import Mathlib.Data.List.Perm.Basic

/-!
# Specification of active faces and quiet points
-/

namespace JaxFem
namespace Quiet

/-- Node numbers of local face `f` of cell `c`. -/
def FaceNodes (cells faceInds : List (List Nat)) (c f : Nat) : List Nat :=
  (faceInds.getD f []).map ((cells.getD c []).getD · 0)

/-- A face of an active cell. -/
def ActiveFace (cells faceInds : List (List Nat)) (active : List Bool) (x : Nat × Nat) : Prop :=
  x.1 < cells.length ∧ x.2 < faceInds.length ∧ active[x.1]? = some true

/-- A face of the boundary of the active region: it belongs to an active cell, and no other face of an
active cell has the same nodes. -/
def External (cells faceInds : List (List Nat)) (active : List Bool) (x : Nat × Nat) : Prop :=
  ActiveFace cells faceInds active x ∧
  ∀ y, ActiveFace cells faceInds active y →
    (FaceNodes cells faceInds y.1 y.2).Perm (FaceNodes cells faceInds x.1 x.2) → y = x

/-- Cells activated by a history of flags: cell `c` is active iff it was active at the start or is flagged
at some step. -/
def ActivatedBy (active0 : List Bool) (flags : List (List Bool)) (c : Nat) : Prop :=
  active0[c]? = some true ∨ ∃ fl ∈ flags, fl[c]? = some true

end Quiet
end JaxFem
