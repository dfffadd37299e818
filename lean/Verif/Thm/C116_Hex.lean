import Verif.Thm.C116_Cells

/-!
C116, third part: the integral of the gradient over a hexahedron as a sum over its six bilinear faces.
-/

namespace JaxFem.Patch

open Matrix

variable {nq : Nat}

/-- Position of a node of the reference cube. -/
def bit : Fin 8 → Fin 3 → Bool := ![![false, false, false], ![true, false, false], ![true, true, false], ![false, true, false],
  ![false, false, true], ![true, false, true], ![true, true, true], ![false, true, true]]

/-- Linear function of one variable. -/
def lin (b : Bool) (t : ℝ) : ℝ := if b then t else 1 - t
/-- Its derivative. -/
def sgn (b : Bool) : Int := if b then 1 else -1
/-- Six times the integral of a product of two of them. -/
def mom (b c : Bool) : Int := if b = c then 2 else 1

theorem hex8G_eq (p : Fin 3 → ℝ) (a : Fin 8) :
    hex8G p a 0 = sgn (bit a 0) * (lin (bit a 1) (p 1) * lin (bit a 2) (p 2)) ∧
    hex8G p a 1 = sgn (bit a 1) * (lin (bit a 0) (p 0) * lin (bit a 2) (p 2)) ∧
    hex8G p a 2 = sgn (bit a 2) * (lin (bit a 0) (p 0) * lin (bit a 1) (p 1)) := by
  fin_cases a <;> simp [hex8G, bit, lin, sgn, Matrix.vecHead, Matrix.vecTail]

/-- Coefficients of the product of two linear functions. -/
def quadCoeff (b c : Bool) : Fin 3 → ℝ :=
  match b, c with
  | true, true => ![0, 0, 1]
  | false, false => ![1, -2, 1]
  | _, _ => ![0, 1, -1]

theorem lin_mul (b c : Bool) (t : ℝ) : lin b t * lin c t = ∑ i : Fin 3, quadCoeff b c i * t ^ (i : Nat) := by
  cases b <;> cases c <;> simp [lin, quadCoeff, Fin.sum_univ_three] <;> ring

theorem quadCoeff_mom (b c : Bool) : ∑ i : Fin 3, quadCoeff b c i / ((i : Nat) + 1) = (mom b c : ℝ) / 6 := by
  cases b <;> cases c <;> simp [mom, quadCoeff, Fin.sum_univ_three] <;> norm_num

theorem triple_moment (p : Fin nq → Fin 3 → ℝ) (w : Fin nq → ℝ)
    (h : ∀ i j k : Fin 3, ∑ q, w q * (p q 0 ^ (i : Nat) * p q 1 ^ (j : Nat) * p q 2 ^ (k : Nat))
        = 1 / (((i : Nat) + 1) * ((j : Nat) + 1) * ((k : Nat) + 1))) (b c b' c' b'' c'' : Bool) :
    ∑ q, w q * ((lin b (p q 0) * lin c (p q 0)) * (lin b' (p q 1) * lin c' (p q 1)) * (lin b'' (p q 2) * lin c'' (p q 2)))
      = (mom b c * mom b' c' * mom b'' c'' : ℝ) / 216 := by
  have e : ∀ q, w q * ((lin b (p q 0) * lin c (p q 0)) * (lin b' (p q 1) * lin c' (p q 1)) * (lin b'' (p q 2) * lin c'' (p q 2)))
      = ∑ i : Fin 3, ∑ j : Fin 3, ∑ k : Fin 3, (quadCoeff b c i * quadCoeff b' c' j * quadCoeff b'' c'' k)
        * (w q * (p q 0 ^ (i : Nat) * p q 1 ^ (j : Nat) * p q 2 ^ (k : Nat))) := by
    intro q
    rw [lin_mul, lin_mul, lin_mul, Finset.sum_mul_sum, Finset.sum_mul, Finset.mul_sum]
    refine Finset.sum_congr rfl fun i _ => ?_
    rw [Finset.sum_mul, Finset.mul_sum]
    refine Finset.sum_congr rfl fun j _ => ?_
    rw [Finset.mul_sum, Finset.mul_sum]
    exact Finset.sum_congr rfl fun k _ => by ring
  rw [Finset.sum_congr rfl fun q _ => e q, Finset.sum_comm]
  have e2 : ∀ i : Fin 3, ∑ q, ∑ j : Fin 3, ∑ k : Fin 3, (quadCoeff b c i * quadCoeff b' c' j * quadCoeff b'' c'' k)
        * (w q * (p q 0 ^ (i : Nat) * p q 1 ^ (j : Nat) * p q 2 ^ (k : Nat)))
      = ∑ j : Fin 3, ∑ k : Fin 3, (quadCoeff b c i / ((i : Nat) + 1)) * (quadCoeff b' c' j / ((j : Nat) + 1))
        * (quadCoeff b'' c'' k / ((k : Nat) + 1)) := by
    intro i
    rw [Finset.sum_comm]
    refine Finset.sum_congr rfl fun j _ => ?_
    rw [Finset.sum_comm]
    refine Finset.sum_congr rfl fun k _ => ?_
    rw [← Finset.mul_sum, h i j k]
    field_simp
  rw [Finset.sum_congr rfl fun i _ => e2 i]
  have e3 : (mom b c * mom b' c' * mom b'' c'' : ℝ) / 216 = (mom b c / 6) * (mom b' c' / 6) * (mom b'' c'' / 6) := by ring
  rw [e3, ← quadCoeff_mom, ← quadCoeff_mom, ← quadCoeff_mom, Finset.sum_mul_sum, Finset.sum_mul]
  refine Finset.sum_congr rfl fun i _ => ?_
  rw [Finset.sum_mul]
  refine Finset.sum_congr rfl fun j _ => ?_
  rw [Finset.mul_sum]

/-- Integral of the product of a derivative in each direction, times 216. -/
def prodInt (a b c : Fin 8) : Int :=
  sgn (bit a 0) * sgn (bit b 1) * sgn (bit c 2) * (mom (bit b 0) (bit c 0) * mom (bit a 1) (bit c 1) * mom (bit a 2) (bit b 2))

theorem prod_int (p : Fin nq → Fin 3 → ℝ) (w : Fin nq → ℝ)
    (h : ∀ i j k : Fin 3, ∑ q, w q * (p q 0 ^ (i : Nat) * p q 1 ^ (j : Nat) * p q 2 ^ (k : Nat))
        = 1 / (((i : Nat) + 1) * ((j : Nat) + 1) * ((k : Nat) + 1))) (a b c : Fin 8) :
    ∑ q, hex8G (p q) a 0 * hex8G (p q) b 1 * hex8G (p q) c 2 * w q = (prodInt a b c : ℝ) / 216 := by
  have e : ∀ q, hex8G (p q) a 0 * hex8G (p q) b 1 * hex8G (p q) c 2 * w q
      = ((sgn (bit a 0) * sgn (bit b 1) * sgn (bit c 2) : Int) : ℝ) * (w q * ((lin (bit b 0) (p q 0) * lin (bit c 0) (p q 0))
        * (lin (bit a 1) (p q 1) * lin (bit c 1) (p q 1)) * (lin (bit a 2) (p q 2) * lin (bit b 2) (p q 2)))) := by
    intro q
    rw [(hex8G_eq (p q) a).1, (hex8G_eq (p q) b).2.1, (hex8G_eq (p q) c).2.2]
    push_cast
    ring
  rw [Finset.sum_congr rfl fun q _ => e q, ← Finset.mul_sum, triple_moment p w h, prodInt]
  push_cast
  ring

/-- Integral of the determinant of three gradients, times 216. -/
def detInt (a b c : Fin 8) : Int :=
  prodInt a b c + prodInt b c a + prodInt c a b - prodInt a c b - prodInt b a c - prodInt c b a

/-- Determinant of three gradients. -/
def det3 (f g k : Fin 3 → ℝ) : ℝ :=
  f 0 * g 1 * k 2 + g 0 * k 1 * f 2 + k 0 * f 1 * g 2 - f 0 * k 1 * g 2 - g 0 * f 1 * k 2 - k 0 * g 1 * f 2

theorem det_int (p : Fin nq → Fin 3 → ℝ) (w : Fin nq → ℝ)
    (h : ∀ i j k : Fin 3, ∑ q, w q * (p q 0 ^ (i : Nat) * p q 1 ^ (j : Nat) * p q 2 ^ (k : Nat))
        = 1 / (((i : Nat) + 1) * ((j : Nat) + 1) * ((k : Nat) + 1))) (a b c : Fin 8) :
    ∑ q, det3 (hex8G (p q) a) (hex8G (p q) b) (hex8G (p q) c) * w q = (detInt a b c : ℝ) / 216 := by
  have := prod_int p w h
  simp only [det3, sub_mul, add_mul, Finset.sum_sub_distrib, Finset.sum_add_distrib, this, detInt]
  push_cast
  ring

/-- A row of the cofactor product as a trilinear expression. -/
theorem cof_row (G X : Matrix (Fin 8) (Fin 3) ℝ) (a : Fin 8) (j : Fin 3) :
    (G * (mapJacobian X G).adjugate) a j = ∑ b, ∑ c, X b (j + 1) * X c (j + 2) * det3 (G a) (G b) (G c) := by
  have hs : ∀ (i i' k k' : Fin 3), (mapJacobian X G) i k * (mapJacobian X G) i' k'
      = ∑ b, ∑ c, X b i * X c i' * (G b k * G c k') := by
    intro i i' k k'
    rw [mapJacobian, Matrix.mul_apply, Matrix.mul_apply, Finset.sum_mul_sum]
    refine Finset.sum_congr rfl fun b _ => Finset.sum_congr rfl fun c _ => ?_
    rw [Matrix.transpose_apply, Matrix.transpose_apply]
    ring
  have hj : (G * (mapJacobian X G).adjugate) a j
      = G a 0 * ((mapJacobian X G) (j + 1) 1 * (mapJacobian X G) (j + 2) 2 - (mapJacobian X G) (j + 1) 2 * (mapJacobian X G) (j + 2) 1)
        + G a 1 * ((mapJacobian X G) (j + 1) 2 * (mapJacobian X G) (j + 2) 0 - (mapJacobian X G) (j + 1) 0 * (mapJacobian X G) (j + 2) 2)
        + G a 2 * ((mapJacobian X G) (j + 1) 0 * (mapJacobian X G) (j + 2) 1 - (mapJacobian X G) (j + 1) 1 * (mapJacobian X G) (j + 2) 0) := by
    generalize mapJacobian X G = J
    rw [Matrix.mul_apply, Fin.sum_univ_three, Matrix.adjugate_fin_three]
    fin_cases j <;> simp <;> first | (left; ring) | ring
  rw [hj]
  simp only [hs, ← Finset.sum_sub_distrib, Finset.mul_sum, ← Finset.sum_add_distrib]
  refine Finset.sum_congr rfl fun b _ => Finset.sum_congr rfl fun c _ => ?_
  rw [det3]
  ring

/-- Corners of the six faces: corner, next, opposite, previous corner. -/
def corners : List (Fin 8 × Fin 8 × Fin 8 × Fin 8) :=
  ([(0, 3, 2, 1), (4, 5, 6, 7), (0, 1, 5, 4), (1, 2, 6, 5), (2, 3, 7, 6), (3, 0, 4, 7)] :
    List (Fin 8 × Fin 8 × Fin 8 × Fin 8)).flatMap fun f => [(f.1, f.2.1, f.2.2.1, f.2.2.2), (f.2.1, f.2.2.1, f.2.2.2, f.1),
      (f.2.2.1, f.2.2.2, f.1, f.2.1), (f.2.2.2, f.1, f.2.1, f.2.2.1)]

/-- Unit vector. -/
def one (i b : Fin 8) : Int := if b = i then 1 else 0
/-- Tangent towards the next corner, weighted. -/
def tanNext (k : Fin 8 × Fin 8 × Fin 8 × Fin 8) (b : Fin 8) : Int :=
  2 * (one k.2.1 b - one k.1 b) + (one k.2.2.1 b - one k.2.2.2 b)
/-- Tangent towards the previous corner, weighted. -/
def tanPrev (k : Fin 8 × Fin 8 × Fin 8 × Fin 8) (b : Fin 8) : Int :=
  2 * (one k.2.2.2 b - one k.1 b) + (one k.2.2.1 b - one k.2.1 b)
/-- Term of a corner. -/
def cornerInt (k : Fin 8 × Fin 8 × Fin 8 × Fin 8) (a b c : Fin 8) : Int :=
  one k.1 a * (tanNext k b * tanPrev k c - tanPrev k b * tanNext k c)

/-- The two tables agree. -/
theorem table : ∀ a b c : Fin 8, detInt a b c = 6 * (corners.map fun k => cornerInt k a b c).sum := by
  decide +kernel

theorem sum_one (i : Fin 8) (f : Fin 8 → ℝ) : ∑ b, (one i b : ℝ) * f b = f i := by
  simp [one]

theorem sum_tanNext (k : Fin 8 × Fin 8 × Fin 8 × Fin 8) (f : Fin 8 → ℝ) :
    ∑ b, (tanNext k b : ℝ) * f b = 2 * (f k.2.1 - f k.1) + (f k.2.2.1 - f k.2.2.2) := by
  rw [← sum_one k.2.1 f, ← sum_one k.1 f, ← sum_one k.2.2.1 f, ← sum_one k.2.2.2 f, ← Finset.sum_sub_distrib,
    ← Finset.sum_sub_distrib, Finset.mul_sum, ← Finset.sum_add_distrib]
  refine Finset.sum_congr rfl fun b _ => ?_
  rw [tanNext]
  push_cast
  ring

theorem sum_tanPrev (k : Fin 8 × Fin 8 × Fin 8 × Fin 8) (f : Fin 8 → ℝ) :
    ∑ b, (tanPrev k b : ℝ) * f b = 2 * (f k.2.2.2 - f k.1) + (f k.2.2.1 - f k.2.1) :=
  sum_tanNext (k.1, k.2.2.2, k.2.2.1, k.2.1) f

/-- Contribution of a corner of a face. -/
def cornerVal (v x y : Fin 8 → ℝ) (k : Fin 8 × Fin 8 × Fin 8 × Fin 8) : ℝ :=
  v k.1 * ((2 * (x k.2.1 - x k.1) + (x k.2.2.1 - x k.2.2.2)) * (2 * (y k.2.2.2 - y k.1) + (y k.2.2.1 - y k.2.1))
    - (2 * (x k.2.2.2 - x k.1) + (x k.2.2.1 - x k.2.1)) * (2 * (y k.2.1 - y k.1) + (y k.2.2.1 - y k.2.2.2)))

theorem sum_corner (v x y : Fin 8 → ℝ) (k : Fin 8 × Fin 8 × Fin 8 × Fin 8) :
    ∑ a, v a * ∑ b, ∑ c, x b * y c * (cornerInt k a b c : ℝ) = cornerVal v x y k := by
  have inner : ∀ a, v a * ∑ b, ∑ c, x b * y c * (cornerInt k a b c : ℝ)
      = (one k.1 a : ℝ) * v a * ((∑ b, (tanNext k b : ℝ) * x b) * (∑ c, (tanPrev k c : ℝ) * y c)
        - (∑ b, (tanPrev k b : ℝ) * x b) * (∑ c, (tanNext k c : ℝ) * y c)) := by
    intro a
    rw [Finset.sum_mul_sum, Finset.sum_mul_sum, ← Finset.sum_sub_distrib, Finset.mul_sum, Finset.mul_sum]
    refine Finset.sum_congr rfl fun b _ => ?_
    rw [← Finset.sum_sub_distrib, Finset.mul_sum, Finset.mul_sum]
    refine Finset.sum_congr rfl fun c _ => ?_
    rw [cornerInt]
    push_cast
    ring
  rw [Finset.sum_congr rfl fun a _ => inner a, ← Finset.sum_mul, sum_one, sum_tanNext, sum_tanNext, sum_tanPrev, sum_tanPrev]
  rfl

theorem sum_corners (v x y : Fin 8 → ℝ) (l : List (Fin 8 × Fin 8 × Fin 8 × Fin 8)) :
    ∑ a, v a * ∑ b, ∑ c, x b * y c * (((l.map fun k => cornerInt k a b c).sum : Int) : ℝ)
      = (l.map (cornerVal v x y)).sum := by
  induction l with
  | nil => simp
  | cons k l ih =>
    rw [List.map_cons, List.sum_cons, ← ih, ← sum_corner, ← Finset.sum_add_distrib]
    refine Finset.sum_congr rfl fun a _ => ?_
    rw [← mul_add, ← Finset.sum_add_distrib]
    congr 1
    refine Finset.sum_congr rfl fun b _ => ?_
    rw [← Finset.sum_add_distrib]
    refine Finset.sum_congr rfl fun c _ => ?_
    rw [List.map_cons, List.sum_cons]
    push_cast
    ring

/-- Contribution of a corner of a bilinear face. -/
def patchCorner (v : Nat → ℝ) (x : Nat → Fin 3 → ℝ) (j : Fin 3) (p q r s : Nat) : ℝ :=
  v p * ((2 * (x q (j + 1) - x p (j + 1)) + (x r (j + 1) - x s (j + 1)))
      * (2 * (x s (j + 2) - x p (j + 2)) + (x r (j + 2) - x q (j + 2)))
    - (2 * (x s (j + 1) - x p (j + 1)) + (x r (j + 1) - x q (j + 1)))
      * (2 * (x q (j + 2) - x p (j + 2)) + (x r (j + 2) - x s (j + 2))))

/-- Contribution of an oriented bilinear face. -/
def patchTerm (v : Nat → ℝ) (x : Nat → Fin 3 → ℝ) (j : Fin 3) : List Nat → ℝ
  | [p, q, r, s] => patchCorner v x j p q r s + patchCorner v x j q r s p + patchCorner v x j r s p q + patchCorner v x j s p q r
  | _ => 0

theorem hex8_cell (p : Fin nq → Fin 3 → ℝ) (w : Fin nq → ℝ)
    (h : ∀ i j k : Fin 3, ∑ q, w q * (p q 0 ^ (i : Nat) * p q 1 ^ (j : Nat) * p q 2 ^ (k : Nat))
        = 1 / (((i : Nat) + 1) * ((j : Nat) + 1) * ((k : Nat) + 1))) (points : List (Fin 3 → ℝ)) (cell : List Nat)
    (v : Nat → ℝ) (j : Fin 3) :
    cofSum (tabulate hex8N hex8G p w) points cell v j
      = (1 / 36) * ((hexFaces cell).map (patchTerm v (pos points) j)).sum := by
  have e1 : cofSum (tabulate hex8N hex8G p w) points cell v j
      = ∑ a : Fin 8, v (cell.getD a 0) * ∑ b : Fin 8, ∑ c : Fin 8, coords 8 points cell b (j + 1) * coords 8 points cell c (j + 2)
        * ∑ q, det3 (hex8G (p q) a) (hex8G (p q) b) (hex8G (p q) c) * w q := by
    rw [cofSum]
    have : ∀ q, (∑ a : Fin 8, v (cell.getD a 0) * (Matrix.of ((tabulate hex8N hex8G p w).shapeGradsRef q)
        * (mapJacobian (coords 8 points cell) (Matrix.of ((tabulate hex8N hex8G p w).shapeGradsRef q))).adjugate) a j)
          * (tabulate hex8N hex8G p w).quadWeights q
        = ∑ a : Fin 8, ∑ b : Fin 8, ∑ c : Fin 8, v (cell.getD a 0) * (coords 8 points cell b (j + 1) * coords 8 points cell c (j + 2)
          * (det3 (hex8G (p q) a) (hex8G (p q) b) (hex8G (p q) c) * w q)) := by
      intro q
      rw [Finset.sum_mul]
      refine Finset.sum_congr rfl fun a _ => ?_
      rw [cof_row, Finset.mul_sum, Finset.sum_mul]
      refine Finset.sum_congr rfl fun b _ => ?_
      rw [Finset.mul_sum, Finset.sum_mul]
      refine Finset.sum_congr rfl fun c _ => ?_
      change v _ * (_ * det3 (hex8G (p q) a) (hex8G (p q) b) (hex8G (p q) c)) * w q = _
      ring
    rw [Finset.sum_congr rfl fun q _ => this q, Finset.sum_comm]
    refine Finset.sum_congr rfl fun a _ => ?_
    rw [Finset.sum_comm, Finset.mul_sum]
    refine Finset.sum_congr rfl fun b _ => ?_
    rw [Finset.sum_comm, Finset.mul_sum]
    refine Finset.sum_congr rfl fun c _ => ?_
    simp only [Finset.mul_sum]
  have e2 : cofSum (tabulate hex8N hex8G p w) points cell v j
      = (1 / 36) * ∑ a : Fin 8, v (cell.getD a 0) * ∑ b : Fin 8, ∑ c : Fin 8, coords 8 points cell b (j + 1) * coords 8 points cell c (j + 2)
        * (((corners.map fun k => cornerInt k a b c).sum : Int) : ℝ) := by
    rw [e1]
    simp only [det_int p w h, table, Finset.mul_sum]
    refine Finset.sum_congr rfl fun a _ => Finset.sum_congr rfl fun b _ => Finset.sum_congr rfl fun c _ => ?_
    push_cast
    ring
  rw [e2, sum_corners (fun a => v (cell.getD a 0)) (fun b => coords 8 points cell b (j + 1)) fun c => coords 8 points cell c (j + 2)]
  congr 1
  simp only [hexFaces, corners, List.flatMap_cons, List.flatMap_nil, List.map_cons, List.map_nil, List.cons_append, List.nil_append,
    List.sum_cons, List.sum_nil, patchTerm, patchCorner, cornerVal, coords, Matrix.of_apply, pos]
  norm_num [Fin.val_ofNat]
  try ring

end JaxFem.Patch
