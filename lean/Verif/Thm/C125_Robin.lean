import Verif.Model.Robin
import Verif.Spec.Robin
import Verif.Thm.C73_WellPosed
import Verif.Thm.C107_Rows
import Verif.Thm.C14_Boundary

/-!
# C125: Poisson's equation with a nonlinear Robin condition
-/

namespace JaxFem.Robin

open FinitePlasticity (isclose)

variable {nq nfq nn : Nat}

/-! ### Helper lemmas -/

theorem vadd_ravel2 {vec : Nat} (f g : Fin nn → Fin vec → ℝ) : vadd (ravel2 f) (ravel2 g) = ravel2 fun a i => f a i + g a i := by
  have key : ∀ l : List (Fin nn), vadd (l.map fun a => List.ofFn fun c => f a c).flatten (l.map fun a => List.ofFn fun c => g a c).flatten
      = (l.map fun a => List.ofFn fun c => f a c + g a c).flatten := by
    intro l
    induction l with
    | nil => rfl
    | cons a l ih =>
      simp only [List.map_cons, List.flatten_cons]
      rw [vadd, List.zipWith_append (by simp), ← ih]
      congr 1
      refine List.ext_getElem (by simp) fun k h1 h2 => ?_
      simp
  have h := key (List.ofFn fun a => a)
  simp only [List.map_ofFn, Function.comp_def] at h
  simpa [ravel2, ravelSol] using h

theorem sum_map_neg {α : Type} (l : List α) (f : α → ℝ) : (l.map fun a => -f a).sum = -(l.map f).sum := by
  induction l with
  | nil => simp
  | cons a l ih => rw [List.map_cons, List.map_cons, List.sum_cons, List.sum_cons, ih, neg_add]

theorem bodyVal_eq (x : Fin 2 → ℝ) : bodyVal x = source (x 0) (x 1) := by
  simp only [bodyVal, source]
  norm_num
  ring_nf

variable {points : List (Fin 2 → ℝ)} {cells : List (List Nat)} {el : RefElement ℝ nq nn 2} {fc : RefFaces ℝ nfq nn 2}

theorem faces_lt {faceInds : List (List Nat)} {b1 b2 : List (Nat × Nat)} (hb : faces points cells faceInds = .ok [b1, b2]) :
    ∀ f ∈ b1 ++ b2, f.1 < cells.length := by
  have e : faces points cells faceInds = .ok [argwhere2 (boundaryFlags points cells faceInds fun p _ => decide (isclose (p 0) 0)),
      argwhere2 (boundaryFlags points cells faceInds fun p _ => decide (isclose (p 0) 1))] := rfl
  rw [e, Except.ok.injEq, List.cons.injEq, List.cons.injEq] at hb
  obtain ⟨rfl, rfl, -⟩ := hb
  have key : ∀ (F : (Fin 2 → ℝ) → Nat → Bool) (f : Nat × Nat), f ∈ argwhere2 (boundaryFlags points cells faceInds F) → f.1 < cells.length := by
    rintro F ⟨c, f⟩ h
    rw [mem_argwhere2] at h
    obtain ⟨row, h1, -⟩ := h
    have h3 := (List.getElem?_eq_some_iff.1 h1).1
    rwa [boundaryFlags, List.length_map] at h3
  intro f hf
  rcases List.mem_append.1 hf with h | h
  · exact key _ f h
  · exact key _ f h

theorem wf (h : Sound points cells el) {b1 b2 : List (Nat × Nat)} (hf : ∀ f ∈ b1 ++ b2, f.1 < cells.length) :
    (alternative points cells el fc [b1, b2]).WF where
  nonempty := by simpa [alternative] using h.nonempty
  points := rfl
  cell_length := by
    intro c hc
    obtain ⟨d, hd, rfl⟩ := List.mem_map.1 hc
    exact h.length d hd
  cell_lt := by
    intro c hc
    obtain ⟨d, hd, rfl⟩ := List.mem_map.1 hc
    exact h.valid d hd
  face_lt := by
    intro s hs f hfs
    simp only [alternative, List.map_cons, List.map_nil, List.mem_cons, List.not_mem_nil, or_false] at hs
    have e : (alternative points cells el fc [b1, b2]).cells.length = cells.length := List.length_map ..
    rw [e]
    rcases hs with rfl | rfl
    all_goals
      obtain ⟨g, hg, rfl⟩ := List.mem_map.1 hfs
      exact hf g (by simp [hg])

theorem conn_eq (bs : List (List (Nat × Nat))) : (alternative points cells el fc bs).conn = cells := by
  simp [alternative, Problem1.conn, Function.comp_def]

theorem work_eq (b1 b2 : List (Nat × Nat)) (u v : Nat → Fin 1 → ℝ) :
    (alternative points cells el fc [b1, b2]).virtualWork u v = form points cells el fc (b1 ++ b2) u v := by
  have e1 : (alternative points cells el fc [b1, b2]).tensorWork u v = (cells.map fun c => cellIntegral el points c fun q =>
      grad points el u c q 0 0 * grad points el v c q 0 0 + grad points el u c q 0 1 * grad points el v c q 0 1).sum := by
    rw [Problem1.tensorWork]
    simp only [alternative, List.map_map, Function.comp_def]
    refine congrArg List.sum (List.map_congr_left fun c _ => congrArg _ (funext fun q => ?_))
    simp only [contract, Fin.sum_univ_two, Finset.univ_unique, Fin.default_eq_zero, Finset.sum_singleton]
    rfl
  have e2 : (alternative points cells el fc [b1, b2]).massWork (fun _ _ x _ => -bodyVal x) u v
      = -(cells.map fun c => cellIntegral el points c fun q =>
      source (positionIn (el.shapeVals q) (coords nn points c) 0) (positionIn (el.shapeVals q) (coords nn points c) 1)
        * interp (el.shapeVals q) (restrict nn v c) 0).sum := by
    rw [Problem1.massWork, ← sum_map_neg]
    simp only [alternative, List.map_map, Function.comp_def]
    refine congrArg List.sum (List.map_congr_left fun c _ => ?_)
    rw [cellIntegral, cellIntegral, ← Finset.sum_neg_distrib]
    refine Finset.sum_congr rfl fun q _ => ?_
    simp only [Finset.univ_unique, Fin.default_eq_zero, Finset.sum_singleton, bodyVal_eq]
    ring
  have e3 : (alternative points cells el fc [b1, b2]).surfaceWork u v = ((b1 ++ b2).map fun f => ∑ q,
      5 * faceValue cells fc u f q ^ 2 * faceValue cells fc v f q * faceMeasure points cells fc f q).sum := by
    rw [Problem1.surfaceWork, conn_eq]
    simp only [alternative, List.map_cons, List.map_nil, List.map_map, Function.comp_def, List.sum_cons, List.sum_nil, add_zero,
      List.map_append, List.sum_append]
    congr 1
    all_goals
      refine congrArg List.sum (List.map_congr_left fun f _ => Finset.sum_congr rfl fun q _ => ?_)
      simp only [Finset.univ_unique, Fin.default_eq_zero, Finset.sum_singleton]
      rfl
  rw [Problem1.virtualWork, e1, e3, form]
  show _ + (alternative points cells el fc [b1, b2]).massWork (fun _ _ x _ => -bodyVal x) u v + _ = _
  rw [e2]
  ring

theorem holds_iff (n : Nat) (hn : n < points.length) :
    (OnDirichlet points bottom n ∨ OnDirichlet points top n) ↔ AtEnds points n := by
  have hp : points[n]? = some (points.getD n 0) := by rw [List.getElem?_eq_getElem hn, List.getD_eq_getElem _ _ hn]
  have e : ∀ loc : LocFn (Fin 2 → ℝ), OnDirichlet points loc n ↔ loc.holds (points.getD n 0) n := by
    intro loc
    constructor
    · rintro ⟨p, h1, h2⟩
      rw [hp, Option.some.injEq] at h1
      exact h1 ▸ h2
    · exact fun h => ⟨_, hp, h⟩
  rw [e, e]
  show (decide _ = true ∨ decide _ = true) ↔ _
  rw [decide_eq_true_iff, decide_eq_true_iff, isclose, isclose, AtEnds]
  norm_num
  exact fun _ => hn

/-! ### Property theorems -/

/-- **C125 (kernels).** The hand-written kernels are those that the library makes of the gradient, the negative source and the map
`5 u²`: the class and the alternative in its comment have the same residual. -/
theorem C125_kernels (b1 b2 : List (Nat × Nat)) (sols : List (List (List ℝ))) :
    residual points cells el fc [b1, b2] sols = (alternative points cells el fc [b1, b2]).residual sols := by
  have h : universalKernel el = cellKernel (IV := Unit) el (fun _ (g : Fin 1 → Fin 2 → ℝ) => g) (some fun _ _ x _ => -bodyVal x) := by
    funext x d
    simp only [cellKernel, laplaceKernel, massKernel, vadd_ravel2, universalKernel]
    congr 1
    funext a i
    rw [sub_eq_add_neg, ← Finset.sum_neg_distrib]
    congr 1
    exact Finset.sum_congr rfl fun q _ => by ring
  rw [residual, Problem1.residual, h]
  have ec := conn_eq (points := points) (cells := cells) (el := el) (fc := fc) [b1, b2]
  rw [Problem1.fes, ec]
  simp only [alternative, Problem1.bs, List.map_cons, List.map_nil, List.map_map, Function.comp_def, List.map_id']
  rfl

/-- **C125 (equations).** For every field: the residual rows off the lower and upper edge vanish iff
`∫ ∇u·∇v - ∫ f v + ∫_sides 5 u² v = 0` for all `v` that are zero there: the sides radiate the flux `5 u²`. -/
theorem C125_weak (h : Sound points cells el) {faceInds : List (List Nat)} {b1 b2 : List (Nat × Nat)}
    (hb : faces points cells faceInds = .ok [b1, b2]) (sol : List (List ℝ)) (hs : HasShapes [(points.length, 1)] [sol]) :
    ∃ R, residual points cells el fc [b1, b2] [sol] = .ok R ∧
      ((∀ n < points.length, ¬ AtEnds points n → at3 R 0 n 0 = 0) ↔
        ∀ v, (∀ n, AtEnds points n → v n 0 = 0) → form points cells el fc (b1 ++ b2) (fieldOf 1 sol) v = 0) := by
  have hw := wf (fc := fc) h (faces_lt hb)
  obtain ⟨R, r1, -, r2⟩ := C72_weak_form _ hw sol hs
  refine ⟨R, (C125_kernels b1 b2 [sol]).trans r1, ?_⟩
  have hg := C72_galerkin _ hw sol hs fun n _ => ¬ AtEnds points n
  have e : IsSolution (alternative points cells el fc [b1, b2]) (fun n _ => ¬ AtEnds points n) sol ↔
      ∀ n < points.length, ¬ AtEnds points n → at3 R 0 n 0 = 0 := by
    constructor
    · rintro ⟨R', h1, h2⟩ n hn ha
      rw [r1] at h1
      cases h1
      exact h2 n hn 0 ha
    · intro h2
      refine ⟨R, r1, fun n hn c ha => ?_⟩
      rw [Subsingleton.elim c 0]
      exact h2 n hn ha
  rw [← e, hg]
  constructor
  · intro h1 v hv
    rw [← work_eq]
    exact h1 v fun n c ha => by rw [Subsingleton.elim c 0]; exact hv n (not_not.1 ha)
  · intro h1 v hv
    rw [work_eq]
    exact h1 v fun n ha => hv n 0 (not_not.2 ha)

/-- **C125 (prescribed rows).** The construction does not raise; exactly the nodes of the lower and upper edge are prescribed, with the
value 1. -/
theorem C125_rows (points : List (Fin 2 → ℝ)) :
    (∃ bcs, UserBC.problemBCs (.single points info) = .ok bcs) ∧
    ∀ n < points.length, (AtEnds points n → UserBC.Demands points (UserBC.conds info) n 0 (some 1)) ∧
      (¬ AtEnds points n → UserBC.Demands points (UserBC.conds info) n 0 none) := by
  refine ⟨(UserBC.C107_builds _).2 fun i hi => ?_, fun n hn => ?_⟩
  · have : i = 0 := by simpa [UserBC.Args.meshes] using hi
    subst this
    exact ⟨info, rfl, rfl, rfl, by simp [bottom, top, LocFn.supported]⟩
  · have hc : UserBC.conds info = [(bottom, 0, fun _ => 1), (top, 0, fun _ => 1)] := rfl
    have hcomp : UserBC.Compatible points (UserBC.conds info) := by
      intro it h1 it' h2 n c p _ _ _
      rw [hc] at h1 h2
      simp only [List.mem_cons, List.not_mem_nil, or_false] at h1 h2
      rcases h1 with rfl | rfl <;> rcases h2 with rfl | rfl <;> rfl
    have hp : points[n]? = some (points.getD n 0) := by rw [List.getElem?_eq_getElem hn, List.getD_eq_getElem _ _ hn]
    constructor
    · intro ha
      rw [UserBC.demands_some_iff _ _ hcomp, hc]
      rcases (holds_iff n hn).2 ha with h | h
      · exact ⟨_, List.mem_cons_self .., _, hp, ⟨rfl, h⟩, rfl⟩
      · exact ⟨_, List.mem_cons_of_mem _ (List.mem_cons_self ..), _, hp, ⟨rfl, h⟩, rfl⟩
    · intro ha
      rw [UserBC.demands_none_iff, hc]
      intro it hit hcon
      simp only [List.mem_cons, List.not_mem_nil, or_false] at hit
      rcases hit with rfl | rfl
      · exact ha ((holds_iff n hn).1 (.inl hcon.2))
      · exact ha ((holds_iff n hn).1 (.inr hcon.2))

/-- **C125 (sides).** If the nodes of the faces exist, the script's selection succeeds and gives two lists without repetition: the faces
with all nodes at `x = 0`, then those with all nodes at `x = 1` (up to the tolerance). These are the `b1`, `b2` of `C125_weak` and
`C125_unique`. -/
theorem C125_sides {faceInds : List (List Nat)} (hv : ValidFaces points cells faceInds) :
    ∃ b1 b2, faces points cells faceInds = .ok [b1, b2] ∧ b1.Nodup ∧ b2.Nodup ∧
      (∀ c f, (c, f) ∈ b1 ↔ SideFace points cells faceInds 0 (1 / 100000) c f) ∧
      ∀ c f, (c, f) ∈ b2 ↔ SideFace points cells faceInds 1 (2 / 100000) c f := by
  obtain ⟨bs, h1, h2, h3⟩ := C15_faces points cells faceInds [left, right] hv (by simp [left, right, LocFn.supported])
  match bs, h2 with
  | [b1, b2], _ =>
    obtain ⟨p1, m1⟩ := h3 0 left b1 rfl rfl
    obtain ⟨p2, m2⟩ := h3 1 right b2 rfl rfl
    have hl : ∀ (p : Fin 2 → ℝ) n, left.holds p n ↔ |p 0 - 0| ≤ 1 / 100000 := by
      intro p n
      show decide _ = true ↔ _
      rw [decide_eq_true_iff, isclose]
      norm_num
    have hr : ∀ (p : Fin 2 → ℝ) n, right.holds p n ↔ |p 0 - 1| ≤ 2 / 100000 := by
      intro p n
      show decide _ = true ↔ _
      rw [decide_eq_true_iff, isclose]
      norm_num
    have nd : ∀ b : List (Nat × Nat), b.Pairwise (fun x y => x.1 < y.1 ∨ (x.1 = y.1 ∧ x.2 < y.2)) → b.Nodup :=
      fun b hb => hb.imp fun {x y} h e => by subst e; omega
    refine ⟨b1, b2, h1, nd _ p1, nd _ p2, fun c f => (m1 c f).trans ?_, fun c f => (m2 c f).trans ?_⟩
    · simp only [FaceOn, SideFace, hl]
    · simp only [FaceOn, SideFace, hr]

/-- The problem with the monotone flux `5 max(u, 0)²`. -/
noncomputable def clipped (points : List (Fin 2 → ℝ)) (cells : List (List Nat)) (el : RefElement ℝ nq nn 2)
    (fc : RefFaces ℝ nfq nn 2) (b1 b2 : List (Nat × Nat)) : Problem1 Unit nq nfq nn 1 2 :=
  { alternative points cells el fc [b1, b2] with
    surfaces := [b1, b2].map fun b => ⟨fun _ u _ i => 5 * max (u i) 0 ^ 2, b.map fun f => ⟨f.1, f.2, fun _ => ()⟩⟩ }

theorem clipped_work (b1 b2 : List (Nat × Nat)) (u v : Nat → Fin 1 → ℝ) (hu : ∀ f ∈ b1 ++ b2, ∀ q, 0 ≤ faceValue cells fc u f q) :
    (clipped points cells el fc b1 b2).virtualWork u v = form points cells el fc (b1 ++ b2) u v := by
  rw [← work_eq]
  have e : (clipped points cells el fc b1 b2).surfaceWork u v = (alternative points cells el fc [b1, b2]).surfaceWork u v := by
    have ec : (clipped points cells el fc b1 b2).conn = cells :=
      conn_eq (points := points) (cells := cells) (el := el) (fc := fc) [b1, b2]
    rw [Problem1.surfaceWork, Problem1.surfaceWork, conn_eq, ec]
    simp only [clipped, alternative, List.map_cons, List.map_nil, List.map_map, Function.comp_def, List.sum_cons, List.sum_nil, add_zero]
    congr 1
    · refine congrArg List.sum (List.map_congr_left fun f hf => Finset.sum_congr rfl fun q _ => ?_)
      have := hu f (by simp [hf]) q
      simp only [Finset.univ_unique, Fin.default_eq_zero, Finset.sum_singleton]
      rw [max_eq_left (show 0 ≤ interp (fc.shapeVals f.2 q) (restrict nn u (cells.getD f.1 [])) 0 from this)]
    · refine congrArg List.sum (List.map_congr_left fun f hf => Finset.sum_congr rfl fun q _ => ?_)
      have := hu f (by simp [hf]) q
      simp only [Finset.univ_unique, Fin.default_eq_zero, Finset.sum_singleton]
      rw [max_eq_left (show 0 ≤ interp (fc.shapeVals f.2 q) (restrict nn u (cells.getD f.1 [])) 0 from this)]
  rw [Problem1.virtualWork, Problem1.virtualWork, e]
  rfl

/-- **C125 (uniqueness).** There is at most one solution that is not negative at the quadrature points of the sides (where the flux
increases with `u`), if the nodes are connected with the lower or upper edge. -/
theorem C125_unique (h : Sound points cells el) (hdet : el.Determines) {faceInds : List (List Nat)} {b1 b2 : List (Nat × Nat)}
    (hb : faces points cells faceInds = .ok [b1, b2]) (hm : ∀ f ∈ b1 ++ b2, ∀ q, 0 ≤ faceMeasure points cells fc f q)
    (hanch : ∀ n < points.length, ∃ m, AtEnds points m ∧ Relation.ReflTransGen (Linked cells) m n)
    (sol sol' : List (List ℝ)) (hs : HasShapes [(points.length, 1)] [sol]) (hs' : HasShapes [(points.length, 1)] [sol'])
    (R R' : List (List (List ℝ))) (hR : residual points cells el fc [b1, b2] [sol] = .ok R)
    (hR' : residual points cells el fc [b1, b2] [sol'] = .ok R')
    (h0 : ∀ n < points.length, ¬ AtEnds points n → at3 R 0 n 0 = 0 ∧ at3 R' 0 n 0 = 0)
    (hbc : ∀ n, AtEnds points n → fieldOf 1 sol n 0 = 1 ∧ fieldOf 1 sol' n 0 = 1)
    (hpos : ∀ f ∈ b1 ++ b2, ∀ q, 0 ≤ faceValue cells fc (fieldOf 1 sol) f q ∧ 0 ≤ faceValue cells fc (fieldOf 1 sol') f q) :
    sol = sol' := by
  obtain ⟨Q, q1, q2⟩ := C125_weak (fc := fc) h hb sol hs
  obtain ⟨Q', q1', q2'⟩ := C125_weak (fc := fc) h hb sol' hs'
  rw [hR] at q1
  rw [hR'] at q1'
  cases q1
  cases q1'
  have w1 := q2.1 fun n hn ha => (h0 n hn ha).1
  have w2 := q2'.1 fun n hn ha => (h0 n hn ha).2
  have hwa := wf (fc := fc) h (faces_lt hb)
  have ec : (clipped points cells el fc b1 b2).conn = cells :=
      conn_eq (points := points) (cells := cells) (el := el) (fc := fc) [b1, b2]
  have hw : (clipped points cells el fc b1 b2).WF :=
    ⟨hwa.nonempty, hwa.points, hwa.cell_length, hwa.cell_lt, by
      intro s hs f hfs
      simp only [clipped, List.map_cons, List.map_nil, List.mem_cons, List.not_mem_nil, or_false] at hs
      have e : (clipped points cells el fc b1 b2).cells.length = cells.length := List.length_map ..
      rw [e]
      rcases hs with rfl | rfl
      all_goals
        obtain ⟨g, hg, rfl⟩ := List.mem_map.1 hfs
        exact faces_lt hb g (by simp [hg])⟩
  refine C73_unique (clipped points cells el fc b1 b2) hw ?_ hdet ?_ ?_ ?_ (fun n _ => ¬ AtEnds points n) ?_ sol sol' hs hs' ?_ ?_ ?_
  · intro c hc q
    obtain ⟨d, hd, rfl⟩ := List.mem_map.1 hc
    exact h.positive d hd q
  · intro iv G H hne
    show 0 < contract (fun i j => G i j - H i j) fun i j => G i j - H i j
    have hnn : ∀ i j, 0 ≤ (G i j - H i j) * (G i j - H i j) := fun i j => mul_self_nonneg _
    refine lt_of_le_of_ne (Finset.sum_nonneg fun i _ => Finset.sum_nonneg fun j _ => hnn i j) fun h0 => hne ?_
    funext i j
    have h1 := (Finset.sum_eq_zero_iff_of_nonneg fun i _ => Finset.sum_nonneg fun j _ => hnn i j).1 h0.symm i (Finset.mem_univ i)
    have h2 := (Finset.sum_eq_zero_iff_of_nonneg fun j _ => hnn i j).1 h1 j (Finset.mem_univ j)
    exact sub_eq_zero.1 (mul_self_eq_zero.1 h2)
  · intro m hm' iv u w x
    have : m = fun _ _ x _ => -bodyVal x := (Option.some.inj hm').symm
    subst this
    simp
  · intro s hs f hfs q u w x
    rw [ec]
    simp only [clipped, List.map_cons, List.map_nil, List.mem_cons, List.not_mem_nil, or_false] at hs
    have hmono : ∀ a b : ℝ, 0 ≤ (5 * max a 0 ^ 2 - 5 * max b 0 ^ 2) * (a - b) := by
      intro a b
      rcases le_total a b with hab | hab
      · have h1 : max a 0 ≤ max b 0 := max_le_max_right 0 hab
        have h2 : max a 0 ^ 2 ≤ max b 0 ^ 2 := pow_le_pow_left₀ (le_max_right _ _) h1 2
        exact mul_nonneg_of_nonpos_of_nonpos (by linarith) (by linarith)
      · have h1 : max b 0 ≤ max a 0 := max_le_max_right 0 hab
        have h2 : max b 0 ^ 2 ≤ max a 0 ^ 2 := pow_le_pow_left₀ (le_max_right _ _) h1 2
        exact mul_nonneg (by linarith) (by linarith)
    rcases hs with rfl | rfl
    all_goals
      obtain ⟨g, hg, rfl⟩ := List.mem_map.1 hfs
      refine mul_nonneg ?_ (hm g (by simp [hg]) q)
      simp only [Finset.univ_unique, Fin.default_eq_zero, Finset.sum_singleton]
      exact hmono _ _
  · intro n hn c
    obtain ⟨m, ha, hr⟩ := hanch n hn
    exact ⟨m, not_not.2 ha, ha.1, by rw [ec]; exact hr⟩
  · rw [C72_galerkin _ hw sol hs]
    intro v hv
    rw [clipped_work _ _ _ _ fun f hf q => (hpos f hf q).1]
    exact w1 v fun n ha => hv n 0 (not_not.2 ha)
  · rw [C72_galerkin _ hw sol' hs']
    intro v hv
    rw [clipped_work _ _ _ _ fun f hf q => (hpos f hf q).2]
    exact w2 v fun n ha => hv n 0 (not_not.2 ha)
  · intro n c ha
    rw [Subsingleton.elim c 0, (hbc n (not_not.1 ha)).1, (hbc n (not_not.1 ha)).2]

/-- The unit square of two triangles. -/
def squarePoints : List (Fin 2 → ℝ) := [![0, 0], ![1, 0], ![1, 1], ![0, 1]]

/-- On this square the left side is face 2 of the second triangle and the right side face 1 of the first. -/
example : ∃ b1 b2, faces squarePoints [[0, 1, 2], [0, 2, 3]] [[0, 1], [1, 2], [2, 0]] = .ok [b1, b2] ∧ (1, 2) ∈ b1 ∧ (0, 1) ∈ b2 ∧
    (0, 1) ∉ b1 ∧ (1, 2) ∉ b2 := by
  obtain ⟨b1, b2, h, -, -, m1, m2⟩ := C125_sides (points := squarePoints) (cells := [[0, 1, 2], [0, 2, 3]])
    (faceInds := [[0, 1], [1, 2], [2, 0]]) (by simp [ValidFaces, squarePoints])
  refine ⟨b1, b2, h, (m1 _ _).2 ?_, (m2 _ _).2 ?_, fun h => ?_, fun h => ?_⟩
  · simp [SideFace, squarePoints]
  · norm_num [SideFace, squarePoints]
  · have := (m1 _ _).1 h
    norm_num [SideFace, squarePoints] at this
  · have := (m2 _ _).1 h
    norm_num [SideFace, squarePoints] at this

/-- The hypotheses are met: on the unit square of two triangles (one point per cell and face) the constant 1 is a solution, and the only
one. All four nodes are prescribed here, so this case has no free rows; the sides do carry faces (example above). -/
example (faceInds : List (List Nat)) : let cells := [[0, 1, 2], [0, 2, 3]]
    let el : RefElement ℝ 1 3 2 := tabulate tri3N tri3G (fun _ _ => 1 / 3) fun _ => 1 / 2
    let fc : RefFaces ℝ 1 3 2 := ⟨fun _ _ => ![1 / 2, 1 / 2, 0], fun _ _ => tri3G 0, fun _ _ => 1, fun _ => ![0, -1]⟩
    ∃ b1 b2 R, faces squarePoints cells faceInds = .ok [b1, b2] ∧
      residual squarePoints cells el fc [b1, b2] [[[1], [1], [1], [1]]] = .ok R ∧
      ∀ sol, HasShapes [(4, 1)] [sol] → (∀ n, AtEnds squarePoints n → fieldOf 1 sol n 0 = 1) →
        (∀ f ∈ b1 ++ b2, ∀ q, 0 ≤ faceValue cells fc (fieldOf 1 sol) f q) → sol = [[1], [1], [1], [1]] := by
  intro cells el fc
  have hS : Sound squarePoints cells el := by
    refine ⟨by simp [cells], by simp [cells], by simp [cells, squarePoints], ?_⟩
    intro c hc q
    simp only [cells, List.mem_cons, List.not_mem_nil, or_false] at hc
    rcases hc with rfl | rfl <;>
      simp [el, tabulate, mapJacobian, coords, tri3G, squarePoints, Matrix.det_fin_two, Matrix.mul_apply, Fin.sum_univ_three]
  have hends : ∀ n < squarePoints.length, AtEnds squarePoints n := by
    intro n hn
    refine ⟨hn, ?_⟩
    have hn' : n < 4 := hn
    interval_cases n <;> simp [squarePoints] <;> norm_num
  have hs1 : HasShapes [(squarePoints.length, 1)] [([[1], [1], [1], [1]] : List (List ℝ))] := by
    simp [HasShapes, squarePoints]
  obtain ⟨R, hR, -⟩ := C125_weak (fc := fc) hS (faceInds := faceInds) (b1 := _) (b2 := _) rfl _ hs1
  refine ⟨_, _, R, rfl, hR, fun sol hs hbc hp => ?_⟩
  obtain ⟨R', hR', -⟩ := C125_weak (fc := fc) hS (faceInds := faceInds) (b1 := _) (b2 := _) rfl sol hs
  have hones : ∀ n, AtEnds squarePoints n → fieldOf 1 [[1], [1], [1], [1]] n 0 = 1 := by
    intro n hn
    have hn' : n < 4 := hn.1
    interval_cases n <;> rfl
  refine C125_unique hS ((C73_determines (fun _ => 1 / 2) (fun _ _ => 1 / 3) (fun _ _ => 0)).1 Nat.one_pos) rfl ?_ ?_ _ _ hs hs1 R' R hR' hR
    (fun n hn ha => absurd (hends n hn) ha) (fun n hn => ⟨hbc n hn, hones n hn⟩) ?_
  · intro f hf q
    have hlt : f.1 < 2 := faces_lt (points := squarePoints) (cells := cells) (faceInds := faceInds) rfl f hf
    refine mul_nonneg (mul_nonneg (Real.sqrt_nonneg _) ?_) zero_le_one
    rcases f with ⟨c, f⟩
    have hlt : c < 2 := hlt
    interval_cases c <;>
      simp [cells, fc, jacobianDxDeta, coords, tri3G, squarePoints, Matrix.det_fin_two, Fin.sum_univ_three]
  · exact fun n hn => ⟨n, hends n hn, .refl⟩
  · intro f hf q
    refine ⟨hp f hf q, ?_⟩
    have hlt : f.1 < 2 := faces_lt (points := squarePoints) (cells := cells) (faceInds := faceInds) rfl f hf
    rcases f with ⟨c, f⟩
    have hlt : c < 2 := hlt
    interval_cases c <;> simp [faceValue, interp, restrict, cells, fc, fieldOf, Fin.sum_univ_three] <;> norm_num

/-- The unit square with a node in the middle. -/
noncomputable def crossPoints : List (Fin 2 → ℝ) := [![0, 0], ![1, 0], ![1, 1], ![0, 1], ![1 / 2, 1 / 2]]

/-- Its four triangles. -/
def crossCells : List (List Nat) := [[0, 1, 4], [1, 2, 4], [2, 3, 4], [3, 0, 4]]

/-- Linear triangle with one point. -/
noncomputable def crossEl : RefElement ℝ 1 3 2 := tabulate tri3N tri3G (fun _ _ => 1 / 3) fun _ => 1 / 2

/-- One point in the middle of the first face. -/
noncomputable def crossFc : RefFaces ℝ 1 3 2 := ⟨fun _ _ => ![1 / 2, 1 / 2, 0], fun _ _ => tri3G 0, fun _ _ => 1, fun _ => ![0, -1]⟩

/-- The value in the middle. -/
noncomputable def crossMid : ℝ :=
  1 + (source (1 / 2) (1 / 6) + source (5 / 6) (1 / 2) + source (1 / 2) (5 / 6) + source (1 / 6) (1 / 2)) / 48

theorem cross_grad (v : Nat → Fin 1 → ℝ) (a b : Nat) (x y z : Fin 2 → ℝ) (h1 : crossPoints.getD a 0 = x) (h2 : crossPoints.getD b 0 = y)
    (h3 : crossPoints.getD 4 0 = z) (D : ℝ) (hD : (y 0 - x 0) * (z 1 - x 1) - (z 0 - x 0) * (y 1 - x 1) = D) (hD0 : D ≠ 0) :
    (mapJacobian (coords 3 crossPoints [a, b, 4]) (Matrix.of (crossEl.shapeGradsRef 0))).det = D ∧
    grad crossPoints crossEl v [a, b, 4] 0 0 0 = ((v b 0 - v a 0) * (z 1 - x 1) - (v 4 0 - v a 0) * (y 1 - x 1)) / D ∧
    grad crossPoints crossEl v [a, b, 4] 0 0 1 = ((v 4 0 - v a 0) * (y 0 - x 0) - (v b 0 - v a 0) * (z 0 - x 0)) / D := by
  have hJ : mapJacobian (coords 3 crossPoints [a, b, 4]) (Matrix.of (crossEl.shapeGradsRef 0))
      = !![y 0 - x 0, z 0 - x 0; y 1 - x 1, z 1 - x 1] := by
    ext i j
    fin_cases i <;> fin_cases j <;>
      simp [mapJacobian, coords, crossEl, tabulate, tri3G, Matrix.mul_apply, Fin.sum_univ_three, ← h1, ← h2, ← h3] <;> ring
  have hd : (mapJacobian (coords 3 crossPoints [a, b, 4]) (Matrix.of (crossEl.shapeGradsRef 0))).det = D := by
    rw [hJ, Matrix.det_fin_two_of, hD]
  have hU : (restrict 3 v [a, b, 4]).transpose * Matrix.of (crossEl.shapeGradsRef 0) = !![v b 0 - v a 0, v 4 0 - v a 0] := by
    ext i j
    fin_cases i
    fin_cases j <;> simp [restrict, crossEl, tabulate, tri3G, Matrix.mul_apply, Fin.sum_univ_three] <;> ring
  have hdi : (!![y 0 - x 0, z 0 - x 0; y 1 - x 1, z 1 - x 1] : Matrix (Fin 2) (Fin 2) ℝ).det = D := by rw [← hJ, hd]
  refine ⟨hd, ?_, ?_⟩
  all_goals
    rw [grad, physGrad, hU, hJ, Matrix.inv_def, hdi, Ring.inverse_eq_inv', Matrix.adjugate_fin_two_of]
    simp [Matrix.mul_apply, Fin.sum_univ_two]
    field_simp
    ring

theorem cross_cell (v u : Nat → Fin 1 → ℝ) (a b : Nat) (x y z : Fin 2 → ℝ) (h1 : crossPoints.getD a 0 = x)
    (h2 : crossPoints.getD b 0 = y) (h3 : crossPoints.getD 4 0 = z)
    (hD : (y 0 - x 0) * (z 1 - x 1) - (z 0 - x 0) * (y 1 - x 1) = 1 / 2) (hl : (y 0 - x 0) ^ 2 + (y 1 - x 1) ^ 2 = 1)
    (ha : u a 0 = 1) (hb : u b 0 = 1) (va : v a 0 = 0) (vb : v b 0 = 0) :
    cellIntegral crossEl crossPoints [a, b, 4] (fun q => grad crossPoints crossEl u [a, b, 4] q 0 0 * grad crossPoints crossEl v [a, b, 4] q 0 0
      + grad crossPoints crossEl u [a, b, 4] q 0 1 * grad crossPoints crossEl v [a, b, 4] q 0 1) = (u 4 0 - 1) * v 4 0 ∧
    cellIntegral crossEl crossPoints [a, b, 4] (fun q =>
      source (positionIn (crossEl.shapeVals q) (coords 3 crossPoints [a, b, 4]) 0)
        (positionIn (crossEl.shapeVals q) (coords 3 crossPoints [a, b, 4]) 1)
        * interp (crossEl.shapeVals q) (restrict 3 v [a, b, 4]) 0)
      = source ((x 0 + y 0 + z 0) / 3) ((x 1 + y 1 + z 1) / 3) * v 4 0 / 12 := by
  obtain ⟨d, u0, u1⟩ := cross_grad u a b x y z h1 h2 h3 _ hD (by norm_num)
  obtain ⟨-, v0, v1⟩ := cross_grad v a b x y z h1 h2 h3 _ hD (by norm_num)
  have hw : crossEl.quadWeights 0 = 1 / 2 := rfl
  have hp : ∀ k, positionIn (crossEl.shapeVals 0) (coords 3 crossPoints [a, b, 4]) k = (x k + y k + z k) / 3 := by
    intro k
    subst h1 h2 h3
    simp [positionIn, Matrix.vecMul, dotProduct, crossEl, tabulate, tri3N, coords, Fin.sum_univ_three]
    ring
  have hi : interp (crossEl.shapeVals 0) (restrict 3 v [a, b, 4]) 0 = v 4 0 / 3 := by
    simp [interp, crossEl, tabulate, tri3N, restrict, Fin.sum_univ_three, va, vb]
    ring
  constructor
  · rw [cellIntegral, Fin.sum_univ_one, d, hw, u0, u1, v0, v1, ha, hb, va, vb]
    linear_combination (u 4 0 - 1) * v 4 0 * hl
  · rw [cellIntegral, Fin.sum_univ_one, d, hw, hp, hp, hi]
    ring

theorem cross_form (b : List (Nat × Nat)) (hb : ∀ f ∈ b, f.1 < 4) (u v : Nat → Fin 1 → ℝ) (hu : ∀ n < 4, u n 0 = 1)
    (hv : ∀ n < 4, v n 0 = 0) : form crossPoints crossCells crossEl crossFc b u v = 4 * (u 4 0 - crossMid) * v 4 0 := by
  have hz : (b.map fun f => ∑ q, 5 * faceValue crossCells crossFc u f q ^ 2 * faceValue crossCells crossFc v f q
      * faceMeasure crossPoints crossCells crossFc f q).sum = 0 := by
    refine List.sum_eq_zero fun t ht => ?_
    obtain ⟨⟨c, f⟩, hf, rfl⟩ := List.mem_map.1 ht
    refine Finset.sum_eq_zero fun q _ => ?_
    have e : faceValue crossCells crossFc v (c, f) q = 0 := by
      have hc : c < 4 := hb _ hf
      interval_cases c <;> simp [faceValue, interp, restrict, crossCells, crossFc, Fin.sum_univ_three, hv]
    rw [e, mul_zero, zero_mul]
  have k1 := cross_cell v u 0 1 ![0, 0] ![1, 0] ![1 / 2, 1 / 2] rfl rfl rfl (by norm_num) (by norm_num) (hu _ (by norm_num))
    (hu _ (by norm_num)) (hv _ (by norm_num)) (hv _ (by norm_num))
  have k2 := cross_cell v u 1 2 ![1, 0] ![1, 1] ![1 / 2, 1 / 2] rfl rfl rfl (by norm_num) (by norm_num) (hu _ (by norm_num))
    (hu _ (by norm_num)) (hv _ (by norm_num)) (hv _ (by norm_num))
  have k3 := cross_cell v u 2 3 ![1, 1] ![0, 1] ![1 / 2, 1 / 2] rfl rfl rfl (by norm_num) (by norm_num) (hu _ (by norm_num))
    (hu _ (by norm_num)) (hv _ (by norm_num)) (hv _ (by norm_num))
  have k4 := cross_cell v u 3 0 ![0, 1] ![0, 0] ![1 / 2, 1 / 2] rfl rfl rfl (by norm_num) (by norm_num) (hu _ (by norm_num))
    (hu _ (by norm_num)) (hv _ (by norm_num)) (hv _ (by norm_num))
  rw [form, hz, crossCells, List.map_cons, List.map_cons, List.map_cons, List.map_cons, List.map_nil, List.map_cons, List.map_cons,
    List.map_cons, List.map_cons, List.map_nil, k1.1, k2.1, k3.1, k4.1, k1.2, k2.2, k3.2, k4.2, crossMid]
  simp only [List.sum_cons, List.sum_nil]
  norm_num
  ring

/-- The hypotheses are met with a free row: on the square with a node in the middle and faces at both sides, the field that is `1` at the
corners and `crossMid` in the middle is a solution, and the only one. -/
example : ∃ b1 b2 R, faces crossPoints crossCells [[0, 1], [1, 2], [2, 0]] = .ok [b1, b2] ∧ (3, 0) ∈ b1 ∧ (1, 0) ∈ b2 ∧
    ¬ AtEnds crossPoints 4 ∧
    residual crossPoints crossCells crossEl crossFc [b1, b2] [[[1], [1], [1], [1], [crossMid]]] = .ok R ∧ at3 R 0 4 0 = 0 ∧
    ∀ c R', residual crossPoints crossCells crossEl crossFc [b1, b2] [[[1], [1], [1], [1], [c]]] = .ok R' → at3 R' 0 4 0 = 0 →
      c = crossMid := by
  have hS : Sound crossPoints crossCells crossEl := by
    refine ⟨by simp [crossCells], by simp [crossCells], by simp [crossCells, crossPoints], ?_⟩
    intro c hc q
    simp only [crossCells, List.mem_cons, List.not_mem_nil, or_false] at hc
    rcases hc with rfl | rfl | rfl | rfl <;>
      simp [crossEl, tabulate, mapJacobian, coords, tri3G, crossPoints, Matrix.det_fin_two, Matrix.mul_apply, Fin.sum_univ_three] <;> norm_num
  have h4 : ¬ AtEnds crossPoints 4 := by
    rintro ⟨-, h⟩
    norm_num [crossPoints, abs_of_nonneg, abs_of_neg] at h
  have hends : ∀ n < 4, AtEnds crossPoints n := by
    intro n hn
    refine ⟨hn.trans (by simp [crossPoints]), ?_⟩
    interval_cases n <;> norm_num [crossPoints]
  have hlt : ∀ n, AtEnds crossPoints n → n < 4 := by
    intro n hn
    have h5 : n < 5 := hn.1
    rcases Nat.lt_succ_iff_lt_or_eq.1 h5 with h | rfl
    · exact h
    · exact absurd hn h4
  obtain ⟨b1, b2, hb, -, -, m1, m2⟩ := C125_sides (points := crossPoints) (cells := crossCells)
    (faceInds := [[0, 1], [1, 2], [2, 0]]) (by simp [ValidFaces, crossPoints, crossCells])
  have hf : ∀ f ∈ b1 ++ b2, f.1 < 4 := faces_lt hb
  have hs : ∀ c : ℝ, HasShapes [(crossPoints.length, 1)] [[[1], [1], [1], [1], [c]]] := by simp [HasShapes, crossPoints]
  have hone : ∀ c : ℝ, ∀ n < 4, fieldOf 1 [[1], [1], [1], [1], [c]] n 0 = 1 := by
    intro c n hn
    interval_cases n <;> rfl
  have hform : ∀ (c : ℝ) v, (∀ n, AtEnds crossPoints n → v n 0 = 0) →
      form crossPoints crossCells crossEl crossFc (b1 ++ b2) (fieldOf 1 [[1], [1], [1], [1], [c]]) v = 4 * (c - crossMid) * v 4 0 :=
    fun c v hv => cross_form _ hf _ v (hone c) fun n hn => hv n (hends n hn)
  obtain ⟨R, hR, h1⟩ := C125_weak (fc := crossFc) hS hb _ (hs crossMid)
  have hrow : at3 R 0 4 0 = 0 := h1.2 (fun v hv => by rw [hform _ v hv]; ring) 4 (by simp [crossPoints]) h4
  refine ⟨b1, b2, R, hb, (m1 _ _).2 ?_, (m2 _ _).2 ?_, h4, hR, hrow, fun c R' hR' h0 => ?_⟩
  · simp [SideFace, crossPoints, crossCells]
  · norm_num [SideFace, crossPoints, crossCells]
  have free : ∀ n < crossPoints.length, ¬ AtEnds crossPoints n → n = 4 := by
    intro n hn ha
    have h5 : n < 5 := hn
    by_contra hne
    exact ha (hends n (by omega))
  have e := C125_unique hS ((C73_determines (fun _ => 1 / 2) (fun _ _ => 1 / 3) (fun _ _ => 0)).1 Nat.one_pos) hb ?_ ?_ _ _ (hs c)
    (hs crossMid) R' R hR' hR (fun n hn ha => by rw [free n hn ha]; exact ⟨h0, hrow⟩)
    (fun n hn => ⟨hone c n (hlt n hn), hone _ n (hlt n hn)⟩) ?_
  · simpa using e
  · rintro ⟨k, f⟩ hk q
    have hk : k < 4 := hf _ hk
    refine mul_nonneg (mul_nonneg (Real.sqrt_nonneg _) ?_) zero_le_one
    interval_cases k <;>
      simp [crossCells, crossFc, jacobianDxDeta, coords, tri3G, crossPoints, Matrix.det_fin_two, Fin.sum_univ_three] <;> norm_num
  · intro n hn
    have h5 : n < 5 := hn
    rcases Nat.lt_succ_iff_lt_or_eq.1 h5 with h | rfl
    · exact ⟨n, hends n h, .refl⟩
    · exact ⟨0, hends 0 (by norm_num), .single ⟨[0, 1, 4], by simp [crossCells], by simp, by simp⟩⟩
  · rintro ⟨k, f⟩ hk q
    have hk : k < 4 := hf _ hk
    interval_cases k <;> simp [faceValue, interp, restrict, crossCells, crossFc, fieldOf, Fin.sum_univ_three] <;> norm_num

end JaxFem.Robin
