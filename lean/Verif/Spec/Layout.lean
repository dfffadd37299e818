/-!
# Specification of array layouts and assembly sums

Independent of the model in `Verif/Model`.
-/

namespace JaxFem

universe u
variable {K : Type u}

/-- `HasShapes [(n₀, v₀), (n₁, v₁), …] s`: `s` is a list of 2-D arrays, the `i`-th one with `nᵢ`
rows of length `vᵢ`. -/
def HasShapes : List (Nat × Nat) → List (List (List K)) → Prop
  | [], s => s = []
  | (n, v) :: sh, s => ∃ a t, s = a :: t ∧ a.length = n ∧ (∀ r ∈ a, r.length = v) ∧ HasShapes sh t

end JaxFem
