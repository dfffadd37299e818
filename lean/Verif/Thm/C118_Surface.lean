import Verif.Model.Benchmarks
import Verif.Spec.Benchmarks
import Verif.Thm.C12_Nanson
import Verif.Thm.C14_Boundary
import Verif.Thm.C72_WeakForm

/-!
# C118: integrals over selected faces
-/

namespace JaxFem.Benchmarks

open scoped BigOperators

variable {IV : Type} {nq nfq nn vec : Nat}

/-! ### Helper lemmas -/

theorem euclid_cross (t s : Fin 3 → ℝ) (w : ℝ) : w * euclid (crossProduct t s) = faceWeight3 w t s := by
  rw [faceWeight3, euclid]
  congr 2
  rw [cross_apply]
  simp [dotProduct, Fin.sum_univ_three]
  ring

theorem faceJac_eq (P : Problem1 IV nq nfq nn vec 3) (c : Fin P.cells.length) (f : Nat) (q : Fin nfq) :
    jacobianDxDeta (physicalCoos nn P.points (P.cells[c]).nodes) (P.fc.shapeGradsRef f q) = faceJac P c f q := by
  rw [faceJac, jacobian_eq, physicalCoos_eq]

theorem conn_getD (P : Problem1 IV nq nfq nn vec 3) (c : Fin P.cells.length) : P.conn.getD c [] = (P.cells[c]).nodes := by
  simp [Problem1.conn, List.getD]

theorem faceGrad_eq (P : Problem1 IV nq nfq nn vec 3) (sol : List (List ℝ)) (c : Fin P.cells.length) (f : Nat) (q : Fin nfq) :
    faceGrad P sol (c, f) q = gradOnFace P (fun n i => (sol.getD n []).getD i 0) c f q := by
  funext i j
  rw [gradOnFace, ← physicalCoos_eq]
  refine Eq.trans ?_ (physGrad_eq _ _ (fun a c' => (sol.getD ((P.cells[c]).nodes.getD a 0) []).getD c' 0) i j).symm
  rw [faceGrad, conn_getD]

/-! ### Property theorems -/

/-- `surface_integral` integrates over the selected faces, each once, with the area of the mapped face and the gradient of the
displacement, whatever the integrand. -/
theorem C118_surface (P : Problem1 IV nq nfq nn vec 3) (faceInds : List (List Nat)) (loc : LocFn (Fin 3 → ℝ))
    (hl : loc.supported) (hv : ValidFaces P.points P.conn faceInds) (w : Nat → Fin nfq → ℝ) (t s : Nat → Fin 3 → ℝ)
    (ht : Tabulated P.fc w t s) (hdet : ∀ c f q, 0 < (faceJac P c f q).det)
    (g : (Fin vec → Fin 3 → ℝ) → Fin vec → ℝ) (sol : List (List ℝ)) :
    ∃ faces, Selects P faceInds loc faces ∧ surfaceIntegral P faceInds loc g sol
      = .ok fun i => faceIntegral P w t s faces fun c f q => g (gradOnFace P (fun n i => (sol.getD n []).getD i 0) c f q) i := by
  obtain ⟨bs, hb, hlen, hk⟩ := C15_faces P.points P.conn faceInds [loc] hv (by simpa using hl)
  match bs, hlen with
  | [b], _ =>
    obtain ⟨hp, hm⟩ := hk 0 loc b rfl rfl
    have hlt : ∀ x ∈ b, x.1 < P.cells.length := by
      rintro ⟨c, f⟩ hx
      obtain ⟨cell, face, hc, -, -⟩ := (hm c f).1 hx
      have := (List.getElem?_eq_some_iff.1 hc).1
      simpa [Problem1.conn] using this
    obtain ⟨faces, hf⟩ : ∃ faces : List (Fin P.cells.length × Nat), faces.map (fun a => ((a.1 : Nat), a.2)) = b :=
      ⟨b.attach.map fun x => (⟨x.1.1, hlt x.1 x.2⟩, x.1.2), by
        rw [List.map_map]
        exact (List.map_congr_left fun x _ => rfl).trans b.attach_map_subtype_val⟩
    have hnd : b.Nodup := hp.imp fun {x y} hxy he => by subst he; omega
    refine ⟨faces, ⟨?_, ?_⟩, ?_⟩
    · rw [← hf] at hnd
      exact hnd.of_map
    · intro c f
      have := hm c f
      rw [← hf, List.mem_map] at this
      refine Iff.trans ?_ this
      constructor
      · intro h
        exact ⟨_, h, rfl⟩
      · rintro ⟨⟨c', f'⟩, h, he⟩
        obtain ⟨h1, h2⟩ := Prod.mk.inj he
        cases Fin.ext h1
        cases h2
        exact h
    · rw [surfaceIntegral, hb]
      show Except.ok _ = _
      congr 1
      funext i
      rw [← hf, List.map_map, faceIntegral]
      congr 1
      refine List.map_congr_left fun a _ => ?_
      refine Finset.sum_congr rfl fun q _ => ?_
      obtain ⟨h1, h2, h3, h4⟩ := ht a.2 q
      have h5 := (C12_face (physicalCoos nn P.points (P.cells[a.1]).nodes) (P.fc.shapeGradsRef a.2 q) (P.fc.normals a.2) (t a.2)
        (s a.2) (w a.2 q) h1 h2 h3).1 (by rw [faceJac_eq]; exact hdet _ _ _)
      rw [faceJac_eq] at h5
      rw [← faceGrad_eq, ← h5, ← euclid_cross, ← h4, ← conn_getD]

/-- `compute_surface_area`: the area of the selected faces in every component, whatever the solution. -/
theorem C118_area (P : Problem1 IV nq nfq nn vec 3) (faceInds : List (List Nat)) (loc : LocFn (Fin 3 → ℝ))
    (hl : loc.supported) (hv : ValidFaces P.points P.conn faceInds) (w : Nat → Fin nfq → ℝ) (t s : Nat → Fin 3 → ℝ)
    (ht : Tabulated P.fc w t s) (hdet : ∀ c f q, 0 < (faceJac P c f q).det) :
    ∃ faces, Selects P faceInds loc faces ∧
      ∀ sol, computeSurfaceArea P faceInds loc sol = .ok fun _ => faceIntegral P w t s faces fun _ _ _ => 1 := by
  obtain ⟨faces, hf, -⟩ := C118_surface P faceInds loc hl hv w t s ht hdet (fun _ _ => 1) []
  refine ⟨faces, hf, fun sol => ?_⟩
  obtain ⟨faces', hf', h⟩ := C118_surface P faceInds loc hl hv w t s ht hdet (fun _ _ => 1) sol
  rw [computeSurfaceArea, h]
  congr 1
  funext i
  have hperm : faces'.Perm faces := (List.perm_ext_iff_of_nodup hf'.1 hf.1).2 fun ⟨c, f⟩ => (hf'.2 c f).trans (hf.2 c f).symm
  exact (hperm.map _).sum_eq

/-- `compute_traction` of a displacement with the constant gradient `G`: third column of the stress times the area of the
selected faces, on whatever side of the body they lie. -/
theorem C118_traction (P : Problem1 IV nq nfq nn vec 3) (faceInds : List (List Nat)) (loc : LocFn (Fin 3 → ℝ))
    (hl : loc.supported) (hv : ValidFaces P.points P.conn faceInds) (w : Nat → Fin nfq → ℝ) (t s : Nat → Fin 3 → ℝ)
    (ht : Tabulated P.fc w t s) (hdet : ∀ c f q, 0 < (faceJac P c f q).det) (hun : P.fc.Unity)
    (stress : (Fin vec → Fin 3 → ℝ) → Fin vec → Fin 3 → ℝ) (G : Fin vec → Fin 3 → ℝ) (u0 : Fin vec → ℝ) (sol : List (List ℝ))
    (hsol : ∀ c : Fin P.cells.length, ∀ (a : Fin nn) (i : Fin vec), (sol.getD ((P.cells[c]).nodes.getD a 0) []).getD i 0
      = u0 i + ∑ j, G i j * P.points.getD ((P.cells[c]).nodes.getD a 0) 0 j) :
    ∃ faces, Selects P faceInds loc faces ∧ computeTraction P faceInds stress loc sol
      = .ok fun i => stress G i 2 * faceIntegral P w t s faces fun _ _ _ => 1 := by
  obtain ⟨faces, hf, h⟩ := C118_surface P faceInds loc hl hv w t s ht hdet
    (fun uGrad i => ∑ j, stress uGrad i j * (![0, 0, 1] : Fin 3 → ℝ) j) sol
  refine ⟨faces, hf, ?_⟩
  rw [computeTraction, h]
  congr 1
  funext i
  rw [faceIntegral, faceIntegral, ← List.sum_map_mul_left]
  congr 1
  refine List.map_congr_left fun a _ => ?_
  rw [Finset.mul_sum]
  refine Finset.sum_congr rfl fun q _ => ?_
  have hg : (gradOnFace P (fun n i => (sol.getD n []).getD i 0) a.1 a.2 q : Fin vec → Fin 3 → ℝ) = G := by
    rw [← faceGrad_eq]
    funext i j
    rw [faceGrad]
    dsimp only
    rw [conn_getD]
    have hd : (jacobianDxDeta (physicalCoos nn P.points (P.cells[a.1]).nodes) (P.fc.shapeGradsRef a.2 q)).det ≠ 0 := by
      rw [faceJac_eq]; exact (hdet _ _ _).ne'
    simp only [hsol, add_mul, Finset.sum_add_distrib, ← Finset.mul_sum]
    rw [grads_sum_zero _ _ (hun a.2 q).2, mul_zero, zero_add]
    simp only [Finset.sum_mul]
    rw [Finset.sum_comm]
    have e : ∀ k, ∑ b : Fin nn, P.points.getD ((P.cells[a.1]).nodes.getD b 0) 0 k *
        shapeGradsPhysical (physicalCoos nn P.points (P.cells[a.1]).nodes) (P.fc.shapeGradsRef a.2 q) b j
        = if k = j then 1 else 0 := fun k => coords_grads _ _ hd k j
    simp only [mul_assoc, ← Finset.mul_sum, e]
    simp
  rw [hg]
  simp [Fin.sum_univ_three]

/-- A location function with neither one nor two arguments is refused. -/
theorem C118_refuses (P : Problem1 IV nq nfq nn vec 3) (faceInds : List (List Nat)) (loc : LocFn (Fin 3 → ℝ))
    (hl : ¬loc.supported) (g : (Fin vec → Fin 3 → ℝ) → Fin vec → ℝ) (sol : List (List ℝ)) :
    surfaceIntegral P faceInds loc g sol = .error .value := by
  rw [surfaceIntegral, (C15_errors P.points P.conn faceInds [loc] ⟨loc, by simp, hl⟩).1]
  rfl

end JaxFem.Benchmarks
