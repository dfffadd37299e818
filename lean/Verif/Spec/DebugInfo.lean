import Verif.Model.DebugInfo
import Verif.Spec.UserBC

/-!
# Specification of the debugging report
-/

namespace JaxFem.Debug

open UserBC

variable {P K : Type}

/-- What a table of a Dirichlet condition must show: three columns, strictly increasing nodes, and a row "node, component,
value" for exactly the nodes the condition selects. -/
def Shows [NatCast K] (points : List P) (it : Cond P K) (rows : List (List K)) : Prop :=
  ∃ nodes : List Nat, nodes.Pairwise (· < ·) ∧ (∀ n, n ∈ nodes ↔ OnDirichlet points it.1 n) ∧
    rows.length = nodes.length ∧
    ∀ (k n : Nat) p, nodes[k]? = some n → points[n]? = some p → rows[k]? = some [(n : K), (it.2.1 : K), it.2.2 p]

/-- What the report must say about one variable; `name` is its number, if there are several variables. -/
def Describes [NatCast K] (points : List P) (its : List (Cond P K)) (name : Option Nat) (block : List (Line K)) : Prop :=
  (its = [] → block = [.noDirichlet name]) ∧
  (its ≠ [] → ∃ tables : List (List (List K)),
    block = .dirichlet name :: tables.mapIdx (fun k rows => .part (k + 1) rows (rows.length, 3)) ∧
    List.Forall₂ (Shows points) its tables)

/-- What the report must say about the surface integrals. -/
def DescribesSurfaces (points : List P) (cells faceInds : List (List Nat)) (locs : List (LocFn P))
    (block : List (Line K)) : Prop :=
  (locs = [] → block = [.noSurfaces]) ∧
  (locs ≠ [] → ∃ tables : List (List (Nat × Nat)),
    block = .surfaces :: tables.mapIdx (fun k rows => .surfaceSet (k + 1) rows (rows.length, 2)) ∧
    List.Forall₂ (fun loc rows => rows.Pairwise (fun x y => x.1 < y.1 ∨ (x.1 = y.1 ∧ x.2 < y.2)) ∧
      ∀ c f, (c, f) ∈ rows ↔ FaceOn points cells faceInds loc c f) locs tables)

/-- The rows of all tables of Dirichlet conditions in a piece of the report, from top to bottom. -/
def tableRows (block : List (Line K)) : List (List K) :=
  block.flatMap fun l => match l with
    | .part _ rows _ => rows
    | _ => []

/-- The reader looks for the last row that begins with `n, c` and takes its third entry. -/
def ReadsOff [NatCast K] (rows : List (List K)) (n c : Nat) : Option K → Prop
  | some v => ∃ pre post, rows = pre ++ [(n : K), (c : K), v] :: post ∧ ∀ w, [(n : K), (c : K), w] ∉ post
  | none => ∀ w, [(n : K), (c : K), w] ∉ rows

end JaxFem.Debug
