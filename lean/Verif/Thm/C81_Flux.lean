import Mathlib.Analysis.SpecialFunctions.Trigonometric.ArctanDeriv
import Mathlib.Analysis.SpecialFunctions.Trigonometric.Angle
import Mathlib.Analysis.SpecialFunctions.Complex.Arg
import Verif.Thm.C81_DendriteFD

/-!
# C81: the update of the phase
-/

namespace JaxFem

namespace DendriteFD

open Dendrite (Params)

/-! ### Helper lemmas -/

/-- Angles with equal cosine and sine have equal cosines of integer multiples. -/
theorem cos_mul_congr {α β : ℝ} (hc : Real.cos α = Real.cos β) (hs : Real.sin α = Real.sin β) (k : ℤ) :
    Real.cos (k * α) = Real.cos (k * β) ∧ Real.sin (k * α) = Real.sin (k * β) := by
  obtain ⟨n, hn⟩ := Real.Angle.angle_eq_iff_two_pi_dvd_sub.1 (Real.Angle.cos_sin_inj hc hs)
  have : (k : ℝ) * α = k * β + ((k * n : ℤ) : ℝ) * (2 * Real.pi) := by
    push_cast
    linear_combination (k : ℝ) * hn
  rw [this, Real.cos_add_int_mul_two_pi, Real.sin_add_int_mul_two_pi]
  exact ⟨rfl, rfl⟩

/-- `θ` is an angle of `(x, y)`. -/
def IsAngle (θ x y : ℝ) : Prop :=
  Real.sqrt (x ^ 2 + y ^ 2) * Real.cos θ = x ∧ Real.sqrt (x ^ 2 + y ^ 2) * Real.sin θ = y

theorem isAngle_arg (x y : ℝ) : IsAngle (Complex.arg ⟨x, y⟩) x y := by
  have h : ‖(⟨x, y⟩ : ℂ)‖ = Real.sqrt (x ^ 2 + y ^ 2) := by
    rw [Complex.norm_def, Complex.normSq_mk]
    congr 1
    ring
  rw [IsAngle, ← h]
  exact ⟨Complex.norm_mul_cos_arg _, Complex.norm_mul_sin_arg _⟩

theorem isAngle_unique {α β x y : ℝ} (h : 0 < x ^ 2 + y ^ 2) (ha : IsAngle α x y) (hb : IsAngle β x y) (k : ℤ) :
    Real.cos (k * α) = Real.cos (k * β) ∧ Real.sin (k * α) = Real.sin (k * β) := by
  have hr := (Real.sqrt_pos.2 h).ne'
  exact cos_mul_congr (mul_left_cancel₀ hr (ha.1.trans hb.1.symm)) (mul_left_cancel₀ hr (ha.2.trans hb.2.symm)) k

/-- The angle of `q + s v` for small `s`, continued smoothly from the angle of `q`. -/
noncomputable def angleAlong (θ qx qy vx vy s : ℝ) : ℝ :=
  θ + Real.arctan (s * (qx * vy - qy * vx) / (qx ^ 2 + qy ^ 2 + s * (qx * vx + qy * vy)))

theorem isAngle_along {θ qx qy vx vy s : ℝ} (h : 0 < qx ^ 2 + qy ^ 2) (hθ : IsAngle θ qx qy)
    (hc : 0 < qx ^ 2 + qy ^ 2 + s * (qx * vx + qy * vy)) :
    IsAngle (angleAlong θ qx qy vx vy s) (qx + s * vx) (qy + s * vy) := by
  set c := qx ^ 2 + qy ^ 2 + s * (qx * vx + qy * vy) with hcd
  set d := s * (qx * vy - qy * vx) with hd
  set r0 := Real.sqrt (qx ^ 2 + qy ^ 2) with hr0
  set r := Real.sqrt ((qx + s * vx) ^ 2 + (qy + s * vy) ^ 2) with hr
  have h0 : 0 < r0 := Real.sqrt_pos.2 h
  have e0 : r0 ^ 2 = qx ^ 2 + qy ^ 2 := Real.sq_sqrt h.le
  have key : c ^ 2 + d ^ 2 = (qx ^ 2 + qy ^ 2) * ((qx + s * vx) ^ 2 + (qy + s * vy) ^ 2) := by
    rw [hcd, hd]; ring
  have hsq : Real.sqrt (c ^ 2 + d ^ 2) = r0 * r := by
    rw [key, Real.sqrt_mul h.le]
  have hpos : 0 < r0 * r := by
    rw [← hsq]
    exact Real.sqrt_pos.2 (by positivity)
  have hrp : 0 < r := (mul_pos_iff_of_pos_left h0).1 hpos
  have hs : Real.sqrt (1 + (d / c) ^ 2) = r0 * r / c := by
    rw [← hsq, eq_div_iff hc.ne', ← Real.sqrt_sq hc.le, ← Real.sqrt_mul (by positivity), Real.sqrt_sq hc.le]
    congr 1
    field_simp
  have hcos : Real.cos (Real.arctan (d / c)) = c / (r0 * r) := by
    rw [Real.cos_arctan, hs, one_div_div]
  have hsin : Real.sin (Real.arctan (d / c)) = d / (r0 * r) := by
    rw [Real.sin_arctan, hs]
    field_simp
  obtain ⟨a1, a2⟩ := hθ
  rw [← hr0] at a1 a2
  rw [IsAngle, ← hr, angleAlong, Real.cos_add, Real.sin_add, hcos, hsin]
  have b1 : Real.cos θ = qx / r0 := by rw [eq_div_iff h0.ne']; linarith
  have b2 : Real.sin θ = qy / r0 := by rw [eq_div_iff h0.ne']; linarith
  rw [b1, b2]
  constructor
  · have : r * (qx / r0 * (c / (r0 * r)) - qy / r0 * (d / (r0 * r))) = (qx * c - qy * d) / r0 ^ 2 := by
      field_simp
    rw [this, e0, div_eq_iff h.ne', hcd, hd]
    ring
  · have : r * (qy / r0 * (c / (r0 * r)) + qx / r0 * (d / (r0 * r))) = (qy * c + qx * d) / r0 ^ 2 := by
      field_simp
    rw [this, e0, div_eq_iff h.ne', hcd, hd]
    ring

/-! ### Property theorems -/

/-- **C81 (flux).** For an integer number of arms the derivative of the anisotropic energy at a non-zero phase
gradient `q` is `ε² q + ε ε' (-q_y, q_x)`, with the values returned by `get_theta` and `get_eps`. -/
theorem C81_flux (m : Params) (k : ℤ) (hk : m.J = k) (qx qy : ℝ) (h : ¬ (qx = 0 ∧ qy = 0)) (vx vy : ℝ) :
    let e := getEps m (getTheta qx qy)
    HasDerivAt (fun s => energy m (qx + s * vx) (qy + s * vy))
      ((e.1 ^ 2 * qx - e.1 * e.2 * qy) * vx + (e.1 ^ 2 * qy + e.1 * e.2 * qx) * vy) 0 := by
  intro e
  have hq : 0 < qx ^ 2 + qy ^ 2 := by
    rcases not_and_or.1 h with h | h
    · have := sq_pos_of_ne_zero h; positivity
    · have := sq_pos_of_ne_zero h; positivity
  set θ := getTheta qx qy with hθ
  have hang : IsAngle θ qx qy := ⟨(C81_theta qx qy h).2.2.1, (C81_theta qx qy h).2.2.2⟩
  have hcont : ∀ᶠ s in nhds (0 : ℝ), 0 < qx ^ 2 + qy ^ 2 + s * (qx * vx + qy * vy) := by
    have : ContinuousAt (fun s : ℝ => qx ^ 2 + qy ^ 2 + s * (qx * vx + qy * vy)) 0 := by fun_prop
    exact this.eventually (lt_mem_nhds (by simpa using hq))
  have heq : (fun s => energy m (qx + s * vx) (qy + s * vy)) =ᶠ[nhds 0] fun s =>
      (m.epsBar * (1 + m.delta * Real.cos (m.J * angleAlong θ qx qy vx vy s))) ^ 2
        * ((qx + s * vx) ^ 2 + (qy + s * vy) ^ 2) / 2 := by
    filter_upwards [hcont] with s hs
    have hpos : 0 < (qx + s * vx) ^ 2 + (qy + s * vy) ^ 2 := by
      by_contra hn
      have h1 : qx + s * vx = 0 := by nlinarith [sq_nonneg (qx + s * vx), sq_nonneg (qy + s * vy)]
      have h2 : qy + s * vy = 0 := by nlinarith [sq_nonneg (qx + s * vx), sq_nonneg (qy + s * vy)]
      have : qx ^ 2 + qy ^ 2 + s * (qx * vx + qy * vy) = 0 := by linear_combination qx * h1 + qy * h2
      linarith
    rw [energy, hk, (isAngle_unique hpos (isAngle_arg _ _) (isAngle_along hq hang hs) k).1]
  have hφ : HasDerivAt (fun s => angleAlong θ qx qy vx vy s) ((qx * vy - qy * vx) / (qx ^ 2 + qy ^ 2)) 0 := by
    have n1 : HasDerivAt (fun s : ℝ => s * (qx * vy - qy * vx)) (qx * vy - qy * vx) 0 := by
      simpa using (hasDerivAt_id (0 : ℝ)).mul_const (qx * vy - qy * vx)
    have n2 : HasDerivAt (fun s : ℝ => qx ^ 2 + qy ^ 2 + s * (qx * vx + qy * vy)) (qx * vx + qy * vy) 0 := by
      simpa using ((hasDerivAt_id (0 : ℝ)).mul_const (qx * vx + qy * vy)).const_add (qx ^ 2 + qy ^ 2)
    have n3 := ((n1.fun_div n2 (by simpa using hq.ne')).arctan).const_add θ
    refine n3.congr_deriv ?_
    have := hq.ne'
    simp
    field_simp
  have hx : HasDerivAt (fun s : ℝ => qx + s * vx) vx 0 := by
    simpa using ((hasDerivAt_id (0 : ℝ)).mul_const vx).const_add qx
  have hy : HasDerivAt (fun s : ℝ => qy + s * vy) vy 0 := by
    simpa using ((hasDerivAt_id (0 : ℝ)).mul_const vy).const_add qy
  have hε := (((((hφ.const_mul m.J).cos).const_mul m.delta).const_add 1).const_mul m.epsBar).fun_pow 2
  have hr := (hx.fun_pow 2).fun_add (hy.fun_pow 2)
  refine (((hε.fun_mul hr).div_const 2).congr_of_eventuallyEq heq).congr_deriv ?_
  have e1 : angleAlong θ qx qy vx vy 0 = θ := by simp [angleAlong]
  have := hq.ne'
  simp only [e1, e, getEps]
  field_simp
  ring

/-- **C81 (update).** At every entry `phase_field` adds `dt/τ` times: the central-difference divergence of
`ε ε' (-p_y, p_x)`, plus `∇(ε²)·∇p + ε² Δp` with the gradient of `ε²` it was given, plus reaction and noise. All
differences mirror the edges. -/
theorem C81_update (m : Params) (nx ny : Nat) (hx hy : ℝ) (chi p T ex ey : List (List ℝ)) (h : Rect nx ny p)
    (i j : Nat) (hi : i < nx) (hj : j < ny) :
    let g := grad p hx hy
    let e := epsArrays m g p.length (cols p)
    let px := cdx nx hx (at2 p)
    let py := cdy ny hy (at2 p)
    let ε := fun i j => (getEps m (getTheta (px i j) (py i j))).1
    let ε' := fun i j => (getEps m (getTheta (px i j) (py i j))).2
    let P := at2 p i j
    at2 (phaseField m chi (ex, ey) hx hy e.1 e.2 g.1 g.2 p T) i j
      = P + m.dt / m.tau * (cdx nx hx (fun i j => ε i j * ε' i j * - py i j) i j
        + cdy ny hy (fun i j => ε i j * ε' i j * px i j) i j
        + (at2 ex i j * px i j + at2 ey i j * py i j + ε i j ^ 2 * lap5 nx ny hx hy (at2 p) i j)
        + P * (1 - P) * (P - 1 / 2 + m.alpha / Real.pi * Real.arctan (m.gamma * (m.Teq - at2 T i j)))
        + m.a * P * (1 - P) * at2 chi i j) := by
  intro g e px py ε ε' P
  have gx : ∀ i < nx, ∀ j < ny, at2 g.1 i j = px i j := fun i hi j hj => by
    rw [at2_gradX h hi hj, div_div]; rfl
  have gy : ∀ i < nx, ∀ j < ny, at2 g.2 i j = py i j := fun i hi j hj => by
    rw [at2_gradY h hi hj, div_div]; rfl
  have e1 : ∀ i < nx, ∀ j < ny, at2 e.1 i j = ε i j := fun i hi j hj => by
    change at2 (epsArrays m g p.length (cols p)).1 i j = _
    rw [epsArrays, h.1, cols_eq h (by omega)]
    rw [at2_mk2 _ _ _ _ _ hi hj, gx i hi j hj, gy i hi j hj]
  have e2 : ∀ i < nx, ∀ j < ny, at2 e.2 i j = ε' i j := fun i hi j hj => by
    change at2 (epsArrays m g p.length (cols p)).2 i j = _
    rw [epsArrays, h.1, cols_eq h (by omega)]
    rw [at2_mk2 _ _ _ _ _ hi hj, gx i hi j hj, gy i hi j hj]
  have hai : after nx i < nx := by rw [after]; split <;> omega
  have hbi : before i < nx := by rw [before]; omega
  have haj : after ny j < ny := by rw [after]; split <;> omega
  have hbj : before j < ny := by rw [before]; omega
  rw [phaseField, h.1, cols_eq h (by omega), at2_mk2 _ _ _ _ _ hi hj, at2_gradX (rect_mk2 nx ny _) hi hj,
    at2_gradY (rect_mk2 nx ny _) hi hj, at2_mk2 _ _ _ _ _ hai hj, at2_mk2 _ _ _ _ _ hbi hj,
    at2_mk2 _ _ _ _ _ hi haj, at2_mk2 _ _ _ _ _ hi hbj, at2_laplace h hi hj,
    gx i hi j hj, gy i hi j hj, e1 i hi j hj, gx i hi _ haj, gx i hi _ hbj, gy _ hai j hj, gy _ hbi j hj,
    e1 i hi _ haj, e1 i hi _ hbj, e1 _ hai j hj, e1 _ hbi j hj, e2 i hi _ haj, e2 i hi _ hbj, e2 _ hai j hj,
    e2 _ hbi j hj]
  have hcx : ∀ f : Nat → Nat → ℝ, cdx nx hx f i j = (f (after nx i) j - f (before i) j) / 2 / hx := fun f => by
    rw [cdx, div_div]
  have hcy : ∀ f : Nat → Nat → ℝ, cdy ny hy f i j = (f i (after ny j) - f i (before j)) / 2 / hy := fun f => by
    rw [cdy, div_div]
  rw [hcx, hcy, lap5]
  norm_num
  ring

/-- **C81 (frozen arrays).** The arrays that the compiled update keeps are the central differences of the squared interface
parameter of the phase they were computed from. -/
theorem C81_frozen_arrays (m : Params) (nx ny : Nat) (hx hy : ℝ) (p : List (List ℝ)) (h : Rect nx ny p)
    (i j : Nat) (hi : i < nx) (hj : j < ny) :
    let ε := fun i j => (getEps m (getTheta (cdx nx hx (at2 p) i j) (cdy ny hy (at2 p) i j))).1
    at2 (eps2 m hx hy p).1 i j = cdx nx hx (fun i j => ε i j ^ 2) i j ∧
    at2 (eps2 m hx hy p).2 i j = cdy ny hy (fun i j => ε i j ^ 2) i j := by
  intro ε
  have e1 : ∀ i < nx, ∀ j < ny, at2 (epsArrays m (grad p hx hy) nx ny).1 i j = ε i j := fun i hi j hj => by
    rw [epsArrays, at2_mk2 _ _ _ _ _ hi hj, at2_gradX h hi hj, at2_gradY h hi hj, div_div, div_div]
    rfl
  have hai : after nx i < nx := by rw [after]; split <;> omega
  have hbi : before i < nx := by rw [before]; omega
  have haj : after ny j < ny := by rw [after]; split <;> omega
  have hbj : before j < ny := by rw [before]; omega
  rw [eps2, h.1, cols_eq h (by omega)]
  constructor
  · rw [at2_gradX (rect_mk2 nx ny _) hi hj, at2_mk2 _ _ _ _ _ hai hj, at2_mk2 _ _ _ _ _ hbi hj, e1 _ hai j hj,
      e1 _ hbi j hj, cdx, div_div]
  · rw [at2_gradY (rect_mk2 nx ny _) hi hj, at2_mk2 _ _ _ _ _ hi haj, at2_mk2 _ _ _ _ _ hi hbj, e1 i hi _ haj,
      e1 i hi _ hbj, cdy, div_div]

/-- Three arms, gradient `(1, 0)`: the angle is 0, `ε = 11/10`, `ε' = 0`; the energy changes at the rate `1.21` along
the first axis. -/
example : HasDerivAt (fun s => energy { exParams with J := 3, delta := 1 / 10, epsBar := 1 } (1 + s * 1) (0 + s * 0))
    (1.21 : ℝ) 0 := by
  refine (C81_flux { exParams with J := 3, delta := 1 / 10, epsBar := 1 } 3 (by norm_num) 1 0 (by simp) 1 0).congr_deriv ?_
  norm_num [getEps, getTheta]

end DendriteFD

end JaxFem
