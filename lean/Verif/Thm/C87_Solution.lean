import Verif.Thm.C87_Stress
import Verif.Thm.C82_Elasticity

/-!
# C87: phase-field fracture — solutions of the two problems, history field, staggered loop
-/

namespace JaxFem.Fracture

open Eigen (IsEigh eigenF)

variable {IV : Type} {nq nfq nn vec dim : Nat}

/-! ### Helper lemmas -/

/-- Quadrature over the mesh. -/
noncomputable def quad (P : Problem1 IV nq nfq nn vec dim) (f : CellSpec IV nq → Fin nq → ℝ) : ℝ :=
  (P.cells.map fun cell => cellIntegral P.el P.points cell.nodes (f cell)).sum

theorem quad_add (P : Problem1 IV nq nfq nn vec dim) (f g : CellSpec IV nq → Fin nq → ℝ) :
    quad P (fun c q => f c q + g c q) = quad P f + quad P g := by
  rw [quad, quad, quad, ← List.sum_map_add]
  congr 1
  refine List.map_congr_left fun c _ => ?_
  simp only [cellIntegral, add_mul, Finset.sum_add_distrib]

theorem quad_smul (P : Problem1 IV nq nfq nn vec dim) (a : ℝ) (f : CellSpec IV nq → Fin nq → ℝ) :
    quad P (fun c q => a * f c q) = a * quad P f := by
  rw [quad, quad, ← List.sum_map_mul_left]
  congr 1
  refine List.map_congr_left fun c _ => ?_
  simp only [cellIntegral, mul_assoc, Finset.mul_sum]

theorem quad_congr (P : Problem1 IV nq nfq nn vec dim) {f g : CellSpec IV nq → Fin nq → ℝ}
    (h : ∀ c ∈ P.cells, ∀ q, f c q = g c q) : quad P f = quad P g := by
  rw [quad, quad]
  congr 1
  refine List.map_congr_left fun c hc => ?_
  simp only [cellIntegral, h c hc]

theorem quad_mono (P : Problem1 IV nq nfq nn vec dim) (hpos : P.PositiveMeasure) {f g : CellSpec IV nq → Fin nq → ℝ}
    (h : ∀ c ∈ P.cells, ∀ q, f c q ≤ g c q) : quad P f ≤ quad P g := by
  rw [quad, quad]
  refine List.sum_le_sum fun c hc => ?_
  exact Finset.sum_le_sum fun q _ => mul_le_mul_of_nonneg_right (h c hc q) (hpos c hc q).le

theorem quad_zero (P : Problem1 IV nq nfq nn vec dim) (hpos : P.PositiveMeasure) {f : CellSpec IV nq → Fin nq → ℝ}
    (h : ∀ c ∈ P.cells, ∀ q, 0 ≤ f c q) (h0 : quad P f = 0) : ∀ c ∈ P.cells, ∀ q, f c q = 0 := by
  intro c hc q
  have h1 := list_sum_nonneg_zero P.cells (fun cell => cellIntegral P.el P.points cell.nodes (f cell))
    (fun a ha => Finset.sum_nonneg fun q _ => mul_nonneg (h a ha q) (hpos a ha q).le) h0 c hc
  have h2 := (Finset.sum_eq_zero_iff_of_nonneg (fun q _ => mul_nonneg (h c hc q) (hpos c hc q).le)).1 h1 q (Finset.mem_univ q)
  exact (mul_eq_zero.1 h2).resolve_right (hpos c hc q).ne'

/-- Values of a field at a quadrature point. -/
noncomputable def val (P : Problem1 IV nq nfq nn vec dim) (u : Nat → Fin vec → ℝ) (c : CellSpec IV nq) (q : Fin nq) :
    Fin vec → ℝ := interp (P.el.shapeVals q) (restrict nn u c.nodes)

/-- Gradients of a field at a quadrature point. -/
noncomputable def grd (P : Problem1 IV nq nfq nn vec dim) (u : Nat → Fin vec → ℝ) (c : CellSpec IV nq) (q : Fin nq) :
    Fin vec → Fin dim → ℝ := P.gradient u c.nodes q

theorem grd_sub (P : Problem1 IV nq nfq nn vec dim) (u w : Nat → Fin vec → ℝ) (c : CellSpec IV nq) (q : Fin nq) :
    grd P (fun n c => u n c - w n c) c q = grd P u c q - grd P w c q := by
  funext i j
  exact gradient_sub P u w c.nodes q i j

theorem val_sub (P : Problem1 IV nq nfq nn vec dim) (u w : Nat → Fin vec → ℝ) (c : CellSpec IV nq) (q : Fin nq) :
    val P (fun n c => u n c - w n c) c q = val P u c q - val P w c q := by
  funext k
  exact interp_sub _ u w c.nodes k

theorem grd_lin (P : Problem1 IV nq nfq nn vec dim) (t : ℝ) (v u : Nat → Fin vec → ℝ) (c : CellSpec IV nq) (q : Fin nq) :
    grd P (fun n c => t * v n c + u n c) c q - grd P u c q = t • grd P v c q := by
  have := gradient_lin P t v u c.nodes q
  funext i j
  have h2 : grd P (fun n c => t * v n c + u n c) c q i j = t * grd P v c q i j + grd P u c q i j :=
    congrFun (congrFun this i) j
  simp only [Pi.sub_apply, Pi.smul_apply, smul_eq_mul]
  rw [h2]
  ring

theorem val_lin (P : Problem1 IV nq nfq nn vec dim) (t : ℝ) (v u : Nat → Fin vec → ℝ) (c : CellSpec IV nq) (q : Fin nq) :
    val P (fun n c => t * v n c + u n c) c q - val P u c q = t • val P v c q := by
  rw [val, interp_lin]
  exact add_sub_cancel_right _ _

theorem work_eq (P : Problem1 IV nq nfq nn vec dim) (hs : P.surfaces = [])
    (mm : IV → (Fin vec → ℝ) → Fin vec → ℝ)
    (hm : (P.massMap = none ∧ ∀ iv u c, mm iv u c = 0) ∨ P.massMap = some fun iv u _ => mm iv u)
    (u v : Nat → Fin vec → ℝ) :
    P.virtualWork u v = quad P fun c q => contract (P.tensorMap (c.iv q) (grd P u c q)) (grd P v c q)
      + ∑ k, mm (c.iv q) (val P u c q) k * val P v c q k := by
  rw [quad_add, Problem1.virtualWork, Problem1.surfaceWork, hs]
  simp only [List.map_nil, List.sum_nil, add_zero]
  rcases hm with ⟨h1, h2⟩ | h1
  · have : quad P (fun c q => ∑ k, mm (c.iv q) (val P u c q) k * val P v c q k) = 0 := by
      have e : quad P (fun c q => ∑ k, mm (c.iv q) (val P u c q) k * val P v c q k) = quad P fun _ _ => 0 * 0 :=
        quad_congr P fun c _ q => by simp [h2]
      rw [e, quad_smul, zero_mul]
    rw [this, h1]
    rfl
  · rw [h1]
    rfl

/-- A field has zero virtual work for all admissible test fields exactly if it minimises the integral of a density with
a supporting affine function and a quadratic upper bound. -/
theorem minimiser_iff (P : Problem1 IV nq nfq nn vec dim) (hpos : P.PositiveMeasure) (hs : P.surfaces = [])
    (mm : IV → (Fin vec → ℝ) → Fin vec → ℝ)
    (hm : (P.massMap = none ∧ ∀ iv u c, mm iv u c = 0) ∨ P.massMap = some fun iv u _ => mm iv u)
    (e : IV → (Fin vec → ℝ) → (Fin vec → Fin dim → ℝ) → ℝ) (r : IV → (Fin vec → ℝ) → (Fin vec → Fin dim → ℝ) → ℝ)
    (hr : ∀ iv (t : ℝ) a B, r iv (t • a) (t • B) = t ^ 2 * r iv a B)
    (hlow : ∀ c ∈ P.cells, ∀ q a b A B, e (c.iv q) a A + (contract (P.tensorMap (c.iv q) A) (B - A)
      + ∑ k, mm (c.iv q) a k * (b - a) k) ≤ e (c.iv q) b B)
    (hup : ∀ c ∈ P.cells, ∀ q a b A B, e (c.iv q) b B ≤ e (c.iv q) a A + (contract (P.tensorMap (c.iv q) A) (B - A)
      + ∑ k, mm (c.iv q) a k * (b - a) k) + r (c.iv q) (b - a) (B - A))
    (free : Nat → Fin vec → Prop) (u : Nat → Fin vec → ℝ) :
    (∀ v : Nat → Fin vec → ℝ, (∀ n c, ¬ free n c → v n c = 0) → P.virtualWork u v = 0) ↔
    ∀ w : Nat → Fin vec → ℝ, (∀ n c, ¬ free n c → w n c = u n c) → P.integral e u ≤ P.integral e w := by
  have hI : ∀ w, P.integral e w = quad P fun c q => e (c.iv q) (val P w c q) (grd P w c q) := fun w => rfl
  constructor
  · intro h w hw
    have h0 := h (fun n c => w n c - u n c) (fun n c hf => sub_eq_zero.2 (hw n c hf))
    rw [work_eq P hs mm hm] at h0
    rw [hI, hI]
    have := quad_mono P hpos (f := fun c q => e (c.iv q) (val P u c q) (grd P u c q)
        + (contract (P.tensorMap (c.iv q) (grd P u c q)) (grd P (fun n c => w n c - u n c) c q)
          + ∑ k, mm (c.iv q) (val P u c q) k * val P (fun n c => w n c - u n c) c q k))
      (g := fun c q => e (c.iv q) (val P w c q) (grd P w c q)) (fun c hc q => by
        have h1 := hlow c hc q (val P u c q) (val P w c q) (grd P u c q) (grd P w c q)
        rw [grd_sub, val_sub]
        exact h1)
    rw [quad_add, h0, add_zero] at this
    exact this
  · intro h v hv
    set W := P.virtualWork u v with hW
    set R := quad P fun c q => r (c.iv q) (val P v c q) (grd P v c q) with hR
    have key : ∀ t : ℝ, 0 ≤ t * W + t ^ 2 * R := by
      intro t
      have h1 := h (fun n c => t * v n c + u n c) (fun n c hf => by rw [hv n c hf]; ring)
      have h2 : P.integral e (fun n c => t * v n c + u n c) ≤ P.integral e u + (t * W + t ^ 2 * R) := by
        rw [hW, hR, work_eq P hs mm hm, ← quad_smul, ← quad_smul, hI, hI, ← quad_add, ← quad_add]
        refine quad_mono P hpos fun c hc q => ?_
        have h3 := hup c hc q (val P u c q) (val P (fun n c => t * v n c + u n c) c q) (grd P u c q)
          (grd P (fun n c => t * v n c + u n c) c q)
        rw [grd_lin, val_lin, hr, con_smul'] at h3
        refine h3.trans (le_of_eq ?_)
        simp only [Pi.smul_apply, smul_eq_mul, mul_add, Finset.mul_sum]
        rw [add_assoc, add_assoc, add_assoc]
        congr 3
        exact Finset.sum_congr rfl fun k _ => by ring
      linarith
    by_contra hne
    -- a small step against the sign of the work
    rcases le_or_gt R 0 with hR0 | hR0
    · rcases lt_or_gt_of_ne hne with hn | hp
      · have := key 1; nlinarith
      · have := key (-1); nlinarith
    · have := key (-(W / (2 * R)))
      have hW2 : 0 < W ^ 2 := by positivity
      have e1 : -(W / (2 * R)) * W + (-(W / (2 * R))) ^ 2 * R = - (W ^ 2 / (4 * R)) := by
        field_simp
        ring
      rw [e1] at this
      have : 0 < W ^ 2 / (4 * R) := by positivity
      linarith

/-! The phase field. -/

theorem phase_iv (m : Material) (M : MeshData nq nfq nn dim) (H : List (Fin nq → ℝ)) (hH : ∀ h ∈ H, ∀ q, 0 ≤ h q) :
    ∀ c ∈ (phaseProblem m M H).cells, ∀ q, 0 ≤ c.iv q := by
  intro c hc q
  obtain ⟨i, hi, rfl⟩ := List.mem_iff_getElem.1 hc
  simp only [phaseProblem, List.getElem_zipWith]
  exact hH _ (List.getElem_mem _) q

theorem crack_bounds (m : Material) (H : ℝ) (a b : Fin 1 → ℝ) (A B : Fin 1 → Fin dim → ℝ) :
    crackDensity m.Gc m.l H b B = crackDensity m.Gc m.l H a A + (contract (phaseTensor m H A) (B - A)
      + ∑ k, phaseMass m H a (0 : Fin dim → ℝ) k * (b - a) k)
      + ((m.Gc / m.l / 2 + H) * (b - a) 0 ^ 2 + m.Gc * m.l / 2 * normSq (B - A)) := by
  have e1 : phaseTensor m H A = (m.Gc * m.l) • A := rfl
  rw [e1, con_smul, con_sub', normSq_sub]
  simp only [crackDensity, phaseMass, Fin.sum_univ_one, normSq, Pi.sub_apply]
  rw [con_comm B A]
  ring

/-- Uniqueness for the phase field: the mass map is strictly monotone, so no boundary conditions are needed. -/
theorem phase_unique (m : Material) (hG : 0 < m.Gc) (hl : 0 < m.l) (M : MeshData nq nfq nn dim)
    (H : List (Fin nq → ℝ)) (hH : ∀ h ∈ H, ∀ q, 0 ≤ h q) (h : (phaseProblem m M H).WF)
    (hpos : (phaseProblem m M H).PositiveMeasure) (hdet : M.el.Determines) (hun : M.el.Unity) (hq : 0 < nq)
    (hcov : ∀ n < M.numTotalNodes, ∃ c ∈ (phaseProblem m M H).cells, n ∈ c.nodes) (free : Nat → Fin 1 → Prop) :
    (phaseProblem m M H).UniqueField free := by
  intro u w hvw _ n hn k
  set P := phaseProblem m M H with hP
  set d : Nat → Fin 1 → ℝ := fun n c => u n c - w n c with hd
  have hmm : P.massMap = some fun iv u _ => phaseMass m iv u (0 : Fin dim → ℝ) := rfl
  rw [work_eq P rfl _ (.inr hmm), work_eq P rfl _ (.inr hmm)] at hvw
  have hz : quad P (fun c q => m.Gc * m.l * normSq (grd P d c q)
      + (m.Gc / m.l + 2 * c.iv q) * val P d c q 0 ^ 2) = 0 := by
    have e : ∀ c q, (contract (P.tensorMap (c.iv q) (grd P u c q)) (grd P d c q)
          + ∑ k, phaseMass m (c.iv q) (val P u c q) (0 : Fin dim → ℝ) k * val P d c q k)
        = (m.Gc * m.l * normSq (grd P d c q) + (m.Gc / m.l + 2 * c.iv q) * val P d c q 0 ^ 2)
          + (contract (P.tensorMap (c.iv q) (grd P w c q)) (grd P d c q)
          + ∑ k, phaseMass m (c.iv q) (val P w c q) (0 : Fin dim → ℝ) k * val P d c q k) := by
      intro c q
      have e1 : ∀ G, P.tensorMap (c.iv q) G = (m.Gc * m.l) • G := fun G => rfl
      have e2 : grd P u c q = grd P d c q + grd P w c q := by
        rw [hd, grd_sub, sub_add_cancel]
      have e3 : val P d c q 0 = val P u c q 0 - val P w c q 0 := congrFun (val_sub P u w c q) 0
      rw [e1, e1, con_smul, con_smul, e2, con_add]
      simp only [phaseMass, Fin.sum_univ_one, normSq, e3]
      ring
    have := (quad_congr P fun c _ q => e c q).symm.trans hvw
    rw [quad_add] at this
    linarith
  have hiv := phase_iv m M H hH
  have h0 := quad_zero P hpos (fun c hc q => by
    have := hiv c hc q
    have := normSq_nonneg (grd P d c q)
    positivity) hz
  obtain ⟨c, hc, hnc⟩ := hcov n hn
  have hlen := h.cell_length c hc
  obtain ⟨a, ha, rfl⟩ := List.mem_iff_getElem.1 hnc
  have hgz : ∀ q, grd P d c q = 0 ∧ val P d c q 0 = 0 := by
    intro q
    have h1 := h0 c hc q
    have h2 := hiv c hc q
    have h3 := normSq_nonneg (grd P d c q)
    have h4 : 0 ≤ (m.Gc / m.l + 2 * c.iv q) * val P d c q 0 ^ 2 := by positivity
    have h5 : 0 ≤ m.Gc * m.l * normSq (grd P d c q) := by positivity
    have h6 : m.Gc * m.l * normSq (grd P d c q) = 0 := by linarith
    have h7 : (m.Gc / m.l + 2 * c.iv q) * val P d c q 0 ^ 2 = 0 := by linarith
    refine ⟨normSq_eq_zero ((mul_eq_zero.1 h6).resolve_left (by positivity)), ?_⟩
    exact pow_eq_zero_iff (two_ne_zero) |>.1 ((mul_eq_zero.1 h7).resolve_left (by positivity))
  have hconst := hdet (fun b => d (c.nodes.getD b 0) 0) (fun q j => by
    have hr := ref_of_physGrad (X := coords nn P.points c.nodes) (G := Matrix.of (P.el.shapeGradsRef q))
      (U := restrict nn d c.nodes) (left_ne_zero_of_mul (hpos c hc q).ne') (hgz q).1
    have := congrFun (congrFun hr 0) j
    have h2 : ∑ a : Fin nn, d (c.nodes.getD a 0) 0 * P.el.shapeGradsRef q a j = 0 := by
      simpa only [Matrix.mul_apply, restrict, Matrix.transpose_apply, Matrix.of_apply, Matrix.zero_apply] using this
    exact h2)
  have hv := (hgz ⟨0, hq⟩).2
  have hsum := (hun ⟨0, hq⟩).1
  have hv : ∑ b, M.el.shapeVals ⟨0, hq⟩ b * d (c.nodes.getD b 0) 0 = 0 := hv
  have e : ∑ b, M.el.shapeVals ⟨0, hq⟩ b * d (c.nodes.getD b 0) 0 = d (c.nodes.getD a 0) 0 := by
    have : ∀ b : Fin nn, M.el.shapeVals ⟨0, hq⟩ b * d (c.nodes.getD b 0) 0
        = M.el.shapeVals ⟨0, hq⟩ b * d (c.nodes.getD a 0) 0 := by
      intro b
      have := hconst b ⟨a, hlen ▸ ha⟩
      rw [this]
    rw [Finset.sum_congr rfl fun b _ => this b, ← Finset.sum_mul]
    have hs1 : ∑ b, M.el.shapeVals ⟨0, hq⟩ b = 1 := hsum
    rw [hs1, one_mul]
  have hz0 : d (c.nodes.getD a 0) 0 = 0 := e.symm.trans hv
  rw [List.getD_eq_getElem _ _ ha] at hz0
  obtain rfl : k = 0 := Subsingleton.elim _ _
  exact sub_eq_zero.1 hz0

/-! ### Property theorems -/

/-- **C87 (phase field).** For positive `G_c`, `l` and a nonnegative history, on a mesh of cells with positive measure
that contain all nodes: a phase field has zero residual exactly if it minimises the crack energy
`∫ G_c/2 (d²/l + l |∇d|²) + (1 - d)² H`; there is exactly one, although no boundary conditions are prescribed; the
solver returns it after at most one Newton step; and without driving force it is zero. -/
theorem C87_phase_field (m : Material) (hG : 0 < m.Gc) (hl : 0 < m.l) (M : MeshData nq nfq nn dim)
    (H : List (Fin nq → ℝ)) (hH : ∀ h ∈ H, ∀ q, 0 ≤ h q) (h : (phaseProblem m M H).WF)
    (hpos : (phaseProblem m M H).PositiveMeasure) (hdet : M.el.Determines) (hun : M.el.Unity) (hq : 0 < nq)
    (hcov : ∀ n < M.numTotalNodes, ∃ c ∈ (phaseProblem m M H).cells, n ∈ c.nodes) :
    let P := phaseProblem m M H
    (∀ sol, HasShapes [(P.numTotalNodes, 1)] [sol] →
      (IsSolution P (fun _ _ => True) sol ↔
        ∀ w, P.integral (crackDensity m.Gc m.l) (fieldOf 1 sol) ≤ P.integral (crackDensity m.Gc m.l) w)) ∧
    (∀ (A : (Fin (totalDofs P.fes) → ℝ) → Matrix (Fin (totalDofs P.fes)) (Fin (totalDofs P.fes)) ℝ),
      (∀ x, HasJacobianAt P.flat (A x) x) → ∀ (nu : (Fin (totalDofs P.fes) → ℝ) → ℝ), (∀ r, 0 ≤ nu r) →
      (∀ r, nu r = 0 ↔ r = 0) →
      ∀ (solve : Matrix (Fin (totalDofs P.fes)) (Fin (totalDofs P.fes)) ℝ → (Fin (totalDofs P.fes) → ℝ) →
        (Fin (totalDofs P.fes) → ℝ) → Except Err (Fin (totalDofs P.fes) → ℝ)), ExactSolver solve →
      (∀ A b x0, A.det ≠ 0 → ∃ x, solve A b x0 = .ok x) → ∀ (ls : Bool) (relTol : ℝ), relTol < 1 →
      ∃ d, SolvesBVP P.fes [[]] P.flat d ∧ (∀ w, SolvesBVP P.fes [[]] P.flat w → w = d) ∧
        ∀ (d0 : Fin (totalDofs P.fes) → ℝ) (fuel : Nat), ∃ n ≤ 1,
          newtonSolve (newtonUpdate P.fes [[]] P.flat A) (fun rA => .fin (nu rA.1))
            (newtonStep P.fes [[]] (fun r => .fin (nu r)) P.flat solve ls) (fun _ => true) 0 relTol d0
            (fuel + 2) = some (.ok (d, n))) ∧
    ((∀ h ∈ H, ∀ q, h q = 0) → ∀ sol, HasShapes [(P.numTotalNodes, 1)] [sol] → IsSolution P (fun _ _ => True) sol →
      ∀ n < P.numTotalNodes, fieldOf 1 sol n 0 = 0) := by
  intro P
  have hiv := phase_iv m M H hH
  have hmm : P.massMap = some fun iv u _ => phaseMass m iv u (0 : Fin dim → ℝ) := rfl
  have hmin := fun sol => minimiser_iff P hpos rfl _ (.inr hmm) (crackDensity m.Gc m.l)
    (fun iv a B => (m.Gc / m.l / 2 + iv) * a 0 ^ 2 + m.Gc * m.l / 2 * normSq B)
    (fun iv t a B => by
      have : normSq (t • B) = t ^ 2 * normSq B := by
        simp only [normSq, con_smul, con_smul']; ring
      simp only [this, Pi.smul_apply, smul_eq_mul]
      ring)
    (fun c hc q a b A B => by
      have h1 := crack_bounds m (c.iv q) a b A B
      have h2 := hiv c hc q
      have h3 := normSq_nonneg (B - A)
      have h4 : 0 ≤ (m.Gc / m.l / 2 + c.iv q) * (b - a) 0 ^ 2 + m.Gc * m.l / 2 * normSq (B - A) := by positivity
      have e1 : P.tensorMap = phaseTensor m := rfl
      rw [e1, h1]
      linarith)
    (fun c hc q a b A B => (crack_bounds m (c.iv q) a b A B).le) (fun _ _ => True) (fieldOf 1 sol)
  have hsol : ∀ sol, HasShapes [(P.numTotalNodes, 1)] [sol] →
      (IsSolution P (fun _ _ => True) sol ↔
        ∀ w, P.integral (crackDensity m.Gc m.l) (fieldOf 1 sol) ≤ P.integral (crackDensity m.Gc m.l) w) := by
    intro sol hs
    rw [C72_galerkin P h sol hs, hmin]
    exact ⟨fun h w => h w fun n c hf => absurd trivial hf, fun h w _ => h w⟩
  refine ⟨hsol, ?_, ?_⟩
  · intro A hA nu hnu0 hnu solve hs hs' ls relTol hrel
    refine solver_of_unique P h ⟨?_, ?_, ?_⟩ [[]] ⟨rfl, ?_, ?_, ?_, ?_⟩
      (phase_unique m hG hl M H hH h hpos hdet hun hq hcov _) A hA nu hnu0 hnu solve hs hs' ls relTol hrel
    · intro iv
      refine ⟨(m.Gc * m.l) • LinearMap.id, fun G => ?_⟩
      funext i j
      simp [P, phaseProblem, phaseTensor]
    · intro mm hmm' iv x
      rw [hmm] at hmm'
      cases hmm'
      refine ⟨(m.Gc / m.l + 2 * iv) • LinearMap.id, fun u => ?_⟩
      funext c
      simp only [phaseMass, LinearMap.smul_apply, LinearMap.id_apply, Pi.add_apply, Pi.smul_apply, smul_eq_mul,
        Pi.zero_apply]
      ring
    · intro s hs; cases hs
    · intro es hes e he; simp at hes; subst hes; cases he
    · intro es hes e he; simp at hes; subst hes; cases he
    · intro es hes e he; simp at hes; subst hes; cases he
    · intro i fe es h1 h2 e he
      rcases i with _ | i
      · simp at h2; subst h2; cases he
      · simp at h2
  · intro hH0 sol hs hsl n hn
    have hw0 := (C72_galerkin P h sol hs _).1 hsl (fun n c => fieldOf 1 sol n c - 0) (fun n c hf => absurd trivial hf)
    refine phase_unique m hG hl M H hH h hpos hdet hun hq hcov (fun _ _ => True) (fieldOf 1 sol) (fun _ _ => 0) ?_
      (fun n c hf => absurd trivial hf) n hn 0
    rw [hw0, work_eq P rfl _ (.inr hmm)]
    have : ∀ c ∈ P.cells, ∀ q, (contract (P.tensorMap (c.iv q) (grd P (fun _ _ => 0) c q))
        (grd P (fun n c => fieldOf 1 sol n c - 0) c q)
        + ∑ k, phaseMass m (c.iv q) (val P (fun _ _ => 0) c q) (0 : Fin dim → ℝ) k
          * val P (fun n c => fieldOf 1 sol n c - 0) c q k) = 0 * 0 := by
      intro c hc q
      have e1 : grd P (fun _ _ => 0) c q = 0 := by
        funext i j
        simp [grd, gradient_eq]
      have e2 : val P (fun _ _ => 0) c q 0 = 0 := by simp [val, interp, restrict]
      have e3 : c.iv q = 0 := by
        obtain ⟨i, hi, rfl⟩ := List.mem_iff_getElem.1 hc
        simp only [P, phaseProblem, List.getElem_zipWith]
        exact hH0 _ (List.getElem_mem _) q
      have e4 : P.tensorMap (c.iv q) 0 = 0 := by
        funext i j
        simp [P, phaseProblem, phaseTensor]
      rw [e1, e4, Fin.sum_univ_one, phaseMass, e2, e3]
      simp [contract]
    rw [quad_congr P this, quad_smul, zero_mul]

/-- **C87 (displacement).** For nonnegative Lamé parameters, a displacement has zero residual at the free degrees of
freedom exactly if it minimises the degraded energy `∫ (1 - d)² ψ⁺ + ψ⁻` (at the strain plus noise) among all fields
with the same prescribed values. Two solutions have the same strain, whatever the supports, at all quadrature points
where the material is not completely broken. -/
theorem C87_displacement (m : Material) (hl : 0 ≤ m.lam) (hm : 0 ≤ m.mu) (eigh : Eigh dim)
    (he : ∀ x, IsEigh x (eigh x).1 (eigh x).2) (noise : Fin dim → ℝ) (M : MeshData nq nfq nn dim)
    (solD : List (List ℝ)) (h : (elasticProblem m eigh noise M solD).WF)
    (hpos : (elasticProblem m eigh noise M solD).PositiveMeasure) (free : Nat → Fin dim → Prop) :
    let P := elasticProblem m eigh noise M solD
    (∀ sol, HasShapes [(P.numTotalNodes, dim)] [sol] →
      (IsSolution P free sol ↔ ∀ w, (∀ n c, ¬ free n c → w n c = fieldOf dim sol n c) →
        P.integral (fun d _ G => (1 - d 0) ^ 2 * psiPlus m eigh (addNoise noise (symPart G))
          + psiMinus m eigh (addNoise noise (symPart G))) (fieldOf dim sol)
        ≤ P.integral (fun d _ G => (1 - d 0) ^ 2 * psiPlus m eigh (addNoise noise (symPart G))
          + psiMinus m eigh (addNoise noise (symPart G))) w)) ∧
    (0 < m.mu → ∀ sol sol', HasShapes [(P.numTotalNodes, dim)] [sol] → HasShapes [(P.numTotalNodes, dim)] [sol'] →
      IsSolution P free sol → IsSolution P free sol' →
      (∀ n c, ¬ free n c → fieldOf dim sol n c = fieldOf dim sol' n c) →
      ∀ cell ∈ M.cells, ∀ q, interp (M.el.shapeVals q) (restrict nn (fieldOf 1 solD) cell) 0 ≠ 1 →
        strainAt M.el M.points (fieldOf dim sol) cell q = strainAt M.el M.points (fieldOf dim sol') cell q) := by
  intro P
  have hmm : P.massMap = none ∧ ∀ (iv : Fin 1 → ℝ) (u : Fin dim → ℝ) (c : Fin dim), (fun _ _ _ => (0 : ℝ)) iv u c = 0 :=
    ⟨rfl, fun _ _ _ => rfl⟩
  have hst : ∀ G : Fin dim → Fin dim → ℝ, symPart G = strain G := by
    intro G; funext i j; rw [symPart, strain]; ring
  have hT : ∀ d G, P.tensorMap d G = degrade d • sigmaPlus m eigh (addNoise noise (symPart G))
      + sigmaMinus m eigh (addNoise noise (symPart G)) := by
    intro d G
    funext i j
    simp only [P, elasticProblem, stressOpt1, gradM_psi he, hst, Pi.add_apply, Pi.smul_apply, smul_eq_mul]
  have hsub : ∀ A B : Fin dim → Fin dim → ℝ, addNoise noise (symPart B) - addNoise noise (symPart A) = sy (B - A) := by
    intro A B
    funext i j
    simp only [addNoise, symPart, sy, Pi.sub_apply]
    ring
  have hsym : ∀ x, (∀ i j, sigmaPlus m eigh x i j = sigmaPlus m eigh x j i) ∧
      ∀ i j, sigmaMinus m eigh x i j = sigmaMinus m eigh x j i := by
    intro x
    constructor <;> intro i j <;>
    simp only [sigmaPlus, sigmaMinus, pl, mi, eigenF_symm _ _ i j, eq_comm (a := i) (b := j)]
  have htr : ∀ x : Fin dim → Fin dim → ℝ, tr (sy x) = tr x := by
    intro x; simp only [tr, sy]; exact Finset.sum_congr rfl fun i _ => by ring
  have hsysy : ∀ x : Fin dim → Fin dim → ℝ, sy (sy x) = sy x := by
    intro x; funext i j; simp only [sy]; ring
  refine ⟨?_, ?_⟩
  · intro sol hs
    rw [C72_galerkin P h sol hs]
    refine minimiser_iff P hpos rfl _ (.inl hmm) _
      (fun d _ B => (degrade d + 1) * (m.lam / 2 * tr B ^ 2 + m.mu * normSq (sy B))) ?_ ?_ ?_ free (fieldOf dim sol)
    · intro d t _ B
      have e1 : tr (t • B) = t * tr B := by simp [tr, Finset.mul_sum]
      have e2 : sy (t • B) = t • sy B := by
        funext i j; simp only [sy, Pi.smul_apply, smul_eq_mul]; ring
      have e3 : normSq (t • sy B) = t ^ 2 * normSq (sy B) := by
        simp only [normSq, con_smul, con_smul']; ring
      rw [e1, e2, e3]
      ring
    · intro c hc q a b A B
      have h1 := (psiPlus_bounds he m hl hm (addNoise noise (symPart A)) (addNoise noise (symPart B))).1
      have h2 := (psiMinus_bounds he m hl hm (addNoise noise (symPart A)) (addNoise noise (symPart B))).1
      have g0 : 0 ≤ degrade (c.iv q) := sq_nonneg _
      rw [hsub, con_sy _ _ (hsym _).1] at h1
      rw [hsub, con_sy _ _ (hsym _).2] at h2
      rw [hT, con_add, con_smul]
      have := mul_le_mul_of_nonneg_left h1 g0
      have eg : (1 - c.iv q 0) ^ 2 = degrade (c.iv q) := rfl
      simp only [eg, zero_mul, Finset.sum_const_zero]
      linarith
    · intro c hc q a b A B
      have h1 := (psiPlus_bounds he m hl hm (addNoise noise (symPart A)) (addNoise noise (symPart B))).2
      have h2 := (psiMinus_bounds he m hl hm (addNoise noise (symPart A)) (addNoise noise (symPart B))).2
      have g0 : 0 ≤ degrade (c.iv q) := sq_nonneg _
      rw [hsub, con_sy _ _ (hsym _).1, hsysy, htr] at h1
      rw [hsub, con_sy _ _ (hsym _).2, hsysy, htr] at h2
      rw [hT, con_add, con_smul]
      have := mul_le_mul_of_nonneg_left h1 g0
      have eg : (1 - c.iv q 0) ^ 2 = degrade (c.iv q) := rfl
      simp only [eg, zero_mul, Finset.sum_const_zero]
      linarith
  · intro hmu sol sol' hs hs' h1 h2 hbc cell hcell q hd
    have hv : ∀ n c, ¬ free n c → (fun n c => fieldOf dim sol n c - fieldOf dim sol' n c) n c = 0 :=
      fun n c hf => sub_eq_zero.2 (hbc n c hf)
    have w1 := (C72_galerkin P h sol hs free).1 h1 _ hv
    have w2 := (C72_galerkin P h sol' hs' free).1 h2 _ hv
    rw [work_eq P rfl _ (.inl hmm)] at w1 w2
    have hz : quad P (fun c q => contract
        (fun i j => stressOpt1 m eigh noise (c.iv q) (grd P (fieldOf dim sol) c q) i j
          - stressOpt1 m eigh noise (c.iv q) (grd P (fieldOf dim sol') c q) i j)
        (fun i j => grd P (fieldOf dim sol) c q i j - grd P (fieldOf dim sol') c q i j)) = 0 := by
      have e := quad_add P (fun c q => contract
        (fun i j => stressOpt1 m eigh noise (c.iv q) (grd P (fieldOf dim sol) c q) i j
          - stressOpt1 m eigh noise (c.iv q) (grd P (fieldOf dim sol') c q) i j)
        (fun i j => grd P (fieldOf dim sol) c q i j - grd P (fieldOf dim sol') c q i j))
        (fun c q => contract (P.tensorMap (c.iv q) (grd P (fieldOf dim sol') c q))
            (grd P (fun n c => fieldOf dim sol n c - fieldOf dim sol' n c) c q) + ∑ k : Fin dim, 0 *
            val P (fun n c => fieldOf dim sol n c - fieldOf dim sol' n c) c q k)
      rw [w2, add_zero] at e
      refine e.symm.trans ((quad_congr P fun c _ q => ?_).trans w1)
      have eg : grd P (fun n c => fieldOf dim sol n c - fieldOf dim sol' n c) c q
          = fun i j => grd P (fieldOf dim sol) c q i j - grd P (fieldOf dim sol') c q i j := grd_sub P _ _ c q
      have es : (fun i j => stressOpt1 m eigh noise (c.iv q) (grd P (fieldOf dim sol) c q) i j
          - stressOpt1 m eigh noise (c.iv q) (grd P (fieldOf dim sol') c q) i j)
          + P.tensorMap (c.iv q) (grd P (fieldOf dim sol') c q) = P.tensorMap (c.iv q) (grd P (fieldOf dim sol) c q) := by
        funext i j
        simp only [Pi.add_apply, P, elasticProblem]
        ring
      rw [eg, ← add_assoc, ← con_add, es]
    have hk := quad_zero P hpos (fun c hc q => le_trans (by
      have := normSq_nonneg (fun i j => ((grd P (fieldOf dim sol) c q i j
        - grd P (fieldOf dim sol') c q i j)
        + (grd P (fieldOf dim sol) c q j i - grd P (fieldOf dim sol') c q j i)) / 2)
      have : 0 ≤ min ((1 - c.iv q 0) ^ 2) 1 := le_min (sq_nonneg _) zero_le_one
      positivity) (C87_monotone he m hl hm noise (c.iv q) (grd P (fieldOf dim sol) c q)
        (grd P (fieldOf dim sol') c q))) hz
      ⟨cell, convertFromDofToQuad M.el 1 solD cell⟩ (List.mem_map.2 ⟨cell, hcell, rfl⟩) q
    set c : CellSpec (Fin 1 → ℝ) nq := ⟨cell, convertFromDofToQuad M.el 1 solD cell⟩ with hc
    have hmn := C87_monotone he m hl hm noise (c.iv q) (grd P (fieldOf dim sol) c q) (grd P (fieldOf dim sol') c q)
    rw [hk] at hmn
    have hdv : c.iv q 0 ≠ 1 := by
      intro h1
      apply hd
      rw [← h1]
      exact Finset.sum_congr rfl fun a _ => mul_comm _ _
    have hmin : 0 < min ((1 - c.iv q 0) ^ 2) 1 := by
      refine lt_min ?_ one_pos
      have : 1 - c.iv q 0 ≠ 0 := sub_ne_zero.2 hdv.symm
      positivity
    have hn0 : normSq (fun i j => ((grd P (fieldOf dim sol) c q i j - grd P (fieldOf dim sol') c q i j)
        + (grd P (fieldOf dim sol) c q j i - grd P (fieldOf dim sol') c q j i)) / 2) = 0 := by
      refine le_antisymm ?_ (normSq_nonneg _)
      by_contra hcon
      have : 0 < 2 * m.mu * min ((1 - c.iv q 0) ^ 2) 1 *
        normSq (fun i j => ((grd P (fieldOf dim sol) c q i j - grd P (fieldOf dim sol') c q i j)
        + (grd P (fieldOf dim sol) c q j i - grd P (fieldOf dim sol') c q j i)) / 2) :=
        mul_pos (mul_pos (by linarith) hmin) (not_le.1 hcon)
      linarith
    have hzz := normSq_eq_zero hn0
    funext i j
    have := congrFun (congrFun hzz i) j
    simp only [Pi.zero_apply] at this
    have e1 : ∀ u, strainAt M.el M.points u cell q i j = (grd P u c q i j + grd P u c q j i) / 2 :=
      fun u => rfl
    rw [e1, e1]
    linarith

end JaxFem.Fracture
