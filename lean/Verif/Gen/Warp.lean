import Verif.Gen.Rect
import Verif.Mesh.Rotate
import Mathlib.Analysis.SpecialFunctions.Trigonometric.Bounds
import Mathlib.Analysis.SpecialFunctions.Trigonometric.Deriv
import Mathlib.Analysis.SpecialFunctions.Complex.Arg

/-!
# Warped boxes and slices of annular cylinders (C75)

The maps of `generate_warped_rect_mesh` and `generate_annular_cylinder_slice_mesh`,
meshmode/mesh/generation.py:1723-1835, which are applied to the points of regular meshes (C74) by `map_mesh`
(C53).  Real numbers.
-/
namespace Meshmode

/-! ## Model -/

/-- Exceptions of `generate_warped_rect_mesh`, meshmode/mesh/generation.py:1738-1752, and of
`generate_regular_rect_mesh` that it calls. -/
inductive WarpErr
  | bothElementsAndN
  | bothPointsAndN
  | both
  | dimension
  | rect (e : RectErr)
  deriving DecidableEq

/-- The number of points of each axis, meshmode/mesh/generation.py:1731-1757. -/
def warpPoints (dim : Nat) (nelements npoints n : Option Int) : Except WarpErr (List Int) :=
  let pts : Except WarpErr (Option Int) :=
    match n with
    | some n =>
      if nelements.isSome then .error .bothElementsAndN
      else if npoints.isSome then .error .bothPointsAndN
      else .ok (some n)
    | none =>
      match npoints, nelements with
      | some _, some _ => .error .both
      | some p, none => .ok (some p)
      | none, some e => .ok (some (e + 1))
      | none, none => .ok none
  match pts with
  | .error e => .error e
  | .ok p =>
    if dim ≠ 2 ∧ dim ≠ 3 then .error .dimension
    else match rectPoints dim none (p.map (List.replicate dim)) none with
      | .error e => .error (.rect e)
      | .ok l => .ok l

/-- The map `m` in two dimensions, meshmode/mesh/generation.py:1759-1773. -/
noncomputable def warpMap2 (x : Fin 2 → ℝ) : Fin 2 → ℝ :=
  ![1.5 * x 0 + Real.cos (x 0) + 0.1 * Real.sin (10 * x 1),
    0.05 * Real.cos (10 * x 0) + 1.3 * x 1 + Real.sin (x 1)]

/-- The map `m` in three dimensions, meshmode/mesh/generation.py:1759-1773. -/
noncomputable def warpMap3 (x : Fin 3 → ℝ) : Fin 3 → ℝ :=
  ![1.5 * x 0 + Real.cos (x 0) + 0.1 * Real.sin (10 * x 1),
    0.05 * Real.cos (10 * x 0) + 1.3 * x 1 + Real.sin (x 1),
    x 2 + Real.sin (x 0 / 2) / 2]

/-- `transform`, meshmode/mesh/generation.py:1808-1817. -/
noncomputable def sliceMap (center : Fin 3 → ℝ) (inner outer : ℝ) (x : Fin 3 → ℝ) : Fin 3 → ℝ :=
  let r := inner * (1 - x 0) + outer * x 0
  let theta := -Real.pi / 4 * (1 - x 1) + Real.pi / 4 * x 1
  let z := -0.5 * (1 - x 2) + 0.5 * x 2
  ![center 0 + r * Real.cos theta, center 1 + r * Real.sin theta, center 2 + z]

/-- The map that takes one of the glued sides to the other, meshmode/mesh/generation.py:1822-1827. -/
noncomputable def sliceGlueMap (center : Fin 3 → ℝ) : AffMap 3 ℝ :=
  let matrix := rotMatrix (Real.pi / 2) ![0, 0, 1]
  ⟨some matrix, some (center - matrix.mulVec center)⟩

/-! ## Specification -/

/-- The matrix of partial derivatives of a map at a point. (Specification or proof vocabulary, no code.) -/
def IsJacobian {d : Nat} (f : (Fin d → ℝ) → Fin d → ℝ) (p : Fin d → ℝ) (J : Matrix (Fin d) (Fin d) ℝ) : Prop :=
  ∀ i j, HasDerivAt (fun t => f (Function.update p j t) i) (J i j) (p j)

/-- The points of the cube with the given bounds. (Specification or proof vocabulary, no code.) -/
def InCube {d : Nat} (lo hi : ℝ) (x : Fin d → ℝ) : Prop := ∀ i, lo ≤ x i ∧ x i ≤ hi

/-! ## Properties -/

theorem warp_monotone {x0 x1 y0 y1 : ℝ} (hx1 : -(1 / 2) ≤ x1 ∧ x1 ≤ 1 / 2) (hy1 : -(1 / 2) ≤ y1 ∧ y1 ≤ 1 / 2)
    (h0 : 1.5 * x0 + Real.cos x0 + 0.1 * Real.sin (10 * x1) =
      1.5 * y0 + Real.cos y0 + 0.1 * Real.sin (10 * y1))
    (h1 : 0.05 * Real.cos (10 * x0) + 1.3 * x1 + Real.sin x1 =
      0.05 * Real.cos (10 * y0) + 1.3 * y1 + Real.sin y1) : x0 = y0 ∧ x1 = y1 := by
  have c1 := abs_le.1 (Real.abs_cos_sub_cos_le x0 y0)
  have c2 := abs_le.1 (Real.abs_cos_sub_cos_le (10 * x0) (10 * y0))
  have s1 := abs_le.1 (Real.abs_sin_sub_sin_le (10 * x1) (10 * y1))
  have a0 : |10 * x0 - 10 * y0| = 10 * |x0 - y0| := by
    rw [← mul_sub, abs_mul, abs_of_pos (by norm_num : (0 : ℝ) < 10)]
  have a1 : |10 * x1 - 10 * y1| = 10 * |x1 - y1| := by
    rw [← mul_sub, abs_mul, abs_of_pos (by norm_num : (0 : ℝ) < 10)]
  rw [a0] at c2
  rw [a1] at s1
  have hpi : (1 : ℝ) ≤ Real.pi / 2 := Real.one_le_pi_div_two
  -- the difference of the second coordinates
  have hs : 0 ≤ (Real.sin x1 - Real.sin y1) * (x1 - y1) := by
    have hm : ∀ u v : ℝ, -(1 / 2) ≤ u → v ≤ 1 / 2 → u ≤ v → Real.sin u ≤ Real.sin v := by
      intro u v hu hv huv
      exact Real.sin_le_sin_of_le_of_le_pi_div_two (by linarith) (by linarith) huv
    rcases le_total x1 y1 with h | h
    · have := hm x1 y1 hx1.1 hy1.2 h
      nlinarith
    · have := hm y1 x1 hy1.1 hx1.2 h
      nlinarith
  -- |d0| is at most 2 |d1| and 1.3 |d1| is at most 0.5 |d0|
  have k0 : 0.5 * |x0 - y0| ≤ |x1 - y1| := by
    have e : 1.5 * (x0 - y0) = -(Real.cos x0 - Real.cos y0) - 0.1 * (Real.sin (10 * x1) - Real.sin (10 * y1)) := by
      linarith
    rcases abs_cases (x0 - y0) with ⟨h, _⟩ | ⟨h, _⟩ <;> rw [h] at c1 ⊢ <;> norm_num at * <;> nlinarith [c1.1, c1.2, s1.1, s1.2]
  have k1 : 1.3 * |x1 - y1| ≤ 0.5 * |x0 - y0| := by
    have e : 1.3 * (x1 - y1) = -(Real.sin x1 - Real.sin y1) - 0.05 * (Real.cos (10 * x0) - Real.cos (10 * y0)) := by
      linarith
    rcases abs_cases (x1 - y1) with ⟨h, h'⟩ | ⟨h, h'⟩ <;> rw [h] <;> norm_num at *
    · rcases eq_or_lt_of_le h' with h'' | h''
      · rw [show x1 - y1 = 0 by linarith]; have := abs_nonneg (x0 - y0); linarith
      · have : 0 ≤ Real.sin x1 - Real.sin y1 := by
          by_contra hc
          have : (Real.sin x1 - Real.sin y1) * (x1 - y1) < 0 := mul_neg_of_neg_of_pos (by linarith) (by linarith)
          linarith
        linarith [c2.1]
    · have : Real.sin x1 - Real.sin y1 ≤ 0 := by
        by_contra hc
        have : (Real.sin x1 - Real.sin y1) * (x1 - y1) < 0 := mul_neg_of_pos_of_neg (by linarith) (by linarith)
        linarith
      linarith [c2.2]
  have z1 : |x1 - y1| = 0 := by
    have := abs_nonneg (x1 - y1)
    norm_num only at k0 k1
    linarith
  have z0 : |x0 - y0| = 0 := by
    have := abs_nonneg (x0 - y0)
    rw [z1] at k0
    norm_num only at k0
    linarith
  exact ⟨sub_eq_zero.1 (abs_eq_zero.1 z0), sub_eq_zero.1 (abs_eq_zero.1 z1)⟩

/-- C75: different points of the square or cube have different images, so that elements do not overlap. -/
theorem C75_warp_injective :
    (∀ x y : Fin 2 → ℝ, InCube (-(1 / 2)) (1 / 2) x → InCube (-(1 / 2)) (1 / 2) y →
      warpMap2 x = warpMap2 y → x = y) ∧
    ∀ x y : Fin 3 → ℝ, InCube (-(1 / 2)) (1 / 2) x → InCube (-(1 / 2)) (1 / 2) y →
      warpMap3 x = warpMap3 y → x = y := by
  constructor
  · intro x y hx hy h
    have h0 := congrFun h 0
    have h1 := congrFun h 1
    obtain ⟨e0, e1⟩ := warp_monotone (hx 1) (hy 1) (by simpa [warpMap2] using h0) (by simpa [warpMap2] using h1)
    ext i
    fin_cases i
    · exact e0
    · exact e1
  · intro x y hx hy h
    have h0 := congrFun h 0
    have h1 := congrFun h 1
    have h2 := congrFun h 2
    obtain ⟨e0, e1⟩ := warp_monotone (hx 1) (hy 1) (by simpa [warpMap3] using h0) (by simpa [warpMap3] using h1)
    simp only [warpMap3, Fin.isValue, Matrix.cons_val] at h2
    rw [e0] at h2
    ext i
    fin_cases i
    · exact e0
    · exact e1
    · simpa using h2

theorem warp_det {x y : ℝ} (hx : -(1 / 2) ≤ x ∧ x ≤ 1 / 2) (hy : -(1 / 2) ≤ y ∧ y ≤ 1 / 2) :
    0 < (1.5 - Real.sin x) * (1.3 + Real.cos y) - Real.cos (10 * y) * (-0.5 * Real.sin (10 * x)) := by
  have h1 : Real.sin x ≤ 1 / 2 := by
    have := (abs_le.1 (Real.abs_sin_le_abs (x := x))).2
    have h2 : |x| ≤ 1 / 2 := abs_le.2 hx
    linarith
  have h2 : 1 - y ^ 2 / 2 ≤ Real.cos y := Real.one_sub_sq_div_two_le_cos
  have h3 : y ^ 2 ≤ 1 / 4 := by nlinarith
  have h4 : -1 ≤ Real.cos (10 * y) * Real.sin (10 * x) := by
    have a := Real.abs_cos_le_one (10 * y)
    have b := Real.abs_sin_le_one (10 * x)
    have : |Real.cos (10 * y) * Real.sin (10 * x)| ≤ 1 := by
      rw [abs_mul]
      exact mul_le_one₀ a (abs_nonneg _) b
    exact (abs_le.1 this).1
  have h5 : (1 : ℝ) * 2 ≤ (1.5 - Real.sin x) * (1.3 + Real.cos y) :=
    mul_le_mul (by norm_num; linarith) (by norm_num; linarith) (by norm_num) (by norm_num; linarith)
  have h6 : Real.cos (10 * y) * (-0.5 * Real.sin (10 * x)) =
      -0.5 * (Real.cos (10 * y) * Real.sin (10 * x)) := by ring
  rw [h6]
  norm_num at h5 ⊢
  linarith [(abs_le.1 (show |Real.cos (10 * y) * Real.sin (10 * x)| ≤ 1 by
    rw [abs_mul]; exact mul_le_one₀ (Real.abs_cos_le_one _) (abs_nonneg _) (Real.abs_sin_le_one _))).1]

theorem hasDerivAt_cos_mul (c x : ℝ) : HasDerivAt (fun t => Real.cos (c * t)) (-(c * Real.sin (c * x))) x := by
  have := (Real.hasDerivAt_cos (c * x)).comp x ((hasDerivAt_id x).const_mul c)
  refine this.congr_deriv ?_
  ring

theorem hasDerivAt_sin_mul (c x : ℝ) : HasDerivAt (fun t => Real.sin (c * t)) (c * Real.cos (c * x)) x := by
  have := (Real.hasDerivAt_sin (c * x)).comp x ((hasDerivAt_id x).const_mul c)
  refine this.congr_deriv ?_
  ring

/-- C75: the warped mesh keeps the orientation: the map has positive Jacobian determinant. -/
theorem C75_warp_oriented :
    (∀ p : Fin 2 → ℝ, InCube (-(1 / 2)) (1 / 2) p → ∃ J, IsJacobian warpMap2 p J ∧ 0 < J.det) ∧
    ∀ p : Fin 3 → ℝ, InCube (-(1 / 2)) (1 / 2) p → ∃ J, IsJacobian warpMap3 p J ∧ 0 < J.det := by
  have d00 : ∀ x c : ℝ, HasDerivAt (fun t => 1.5 * t + Real.cos t + c) (1.5 - Real.sin x) x := by
    intro x c
    have := (((hasDerivAt_id x).const_mul 1.5).add (Real.hasDerivAt_cos x)).add_const c
    refine this.congr_deriv ?_
    ring
  have d01 : ∀ y c : ℝ, HasDerivAt (fun t => c + 0.1 * Real.sin (10 * t)) (Real.cos (10 * y)) y := by
    intro y c
    have := ((hasDerivAt_sin_mul 10 y).const_mul 0.1).const_add c
    refine this.congr_deriv ?_
    norm_num
    ring
  have d10 : ∀ x c d : ℝ, HasDerivAt (fun t => 0.05 * Real.cos (10 * t) + c + d) (-0.5 * Real.sin (10 * x)) x := by
    intro x c d
    have := (((hasDerivAt_cos_mul 10 x).const_mul 0.05).add_const c).add_const d
    refine this.congr_deriv ?_
    norm_num
    ring
  have d11 : ∀ y c : ℝ, HasDerivAt (fun t => c + 1.3 * t + Real.sin t) (1.3 + Real.cos y) y := by
    intro y c
    have := (((hasDerivAt_id y).const_mul 1.3).const_add c).add (Real.hasDerivAt_sin y)
    refine this.congr_deriv ?_
    ring
  constructor
  · intro p hp
    refine ⟨!![1.5 - Real.sin (p 0), Real.cos (10 * p 1);
      -0.5 * Real.sin (10 * p 0), 1.3 + Real.cos (p 1)], ?_, ?_⟩
    · intro i j
      fin_cases i <;> fin_cases j
      · simpa [warpMap2] using d00 (p 0) (0.1 * Real.sin (10 * p 1))
      · simpa [warpMap2] using d01 (p 1) (1.5 * p 0 + Real.cos (p 0))
      · simpa [warpMap2] using d10 (p 0) (1.3 * p 1) (Real.sin (p 1))
      · simpa [warpMap2] using d11 (p 1) (0.05 * Real.cos (10 * p 0))
    · rw [Matrix.det_fin_two_of]
      exact warp_det (hp 0) (hp 1)
  · intro p hp
    refine ⟨!![1.5 - Real.sin (p 0), Real.cos (10 * p 1), 0;
      -0.5 * Real.sin (10 * p 0), 1.3 + Real.cos (p 1), 0;
      Real.cos (p 0 / 2) / 4, 0, 1], ?_, ?_⟩
    · have d20 : ∀ x c : ℝ, HasDerivAt (fun t => c + Real.sin (t / 2) / 2) (Real.cos (x / 2) / 4) x := by
        intro x c
        have := ((((Real.hasDerivAt_sin (x / 2)).comp x ((hasDerivAt_id x).div_const 2)).div_const 2).const_add c)
        refine this.congr_deriv ?_
        ring
      have d22 : ∀ z c : ℝ, HasDerivAt (fun t => t + c) 1 z := fun z c => (hasDerivAt_id z).add_const c
      intro i j
      fin_cases i <;> fin_cases j
      · simpa [warpMap3] using d00 (p 0) (0.1 * Real.sin (10 * p 1))
      · simpa [warpMap3] using d01 (p 1) (1.5 * p 0 + Real.cos (p 0))
      · simpa [warpMap3] using hasDerivAt_const (p 2) _
      · simpa [warpMap3] using d10 (p 0) (1.3 * p 1) (Real.sin (p 1))
      · simpa [warpMap3] using d11 (p 1) (0.05 * Real.cos (10 * p 0))
      · simpa [warpMap3] using hasDerivAt_const (p 2) _
      · simpa [warpMap3] using d20 (p 0) (p 2)
      · simpa [warpMap3] using hasDerivAt_const (p 1) _
      · simpa [warpMap3] using d22 (p 2) (Real.sin (p 0 / 2) / 2)
    · have := warp_det (hp 0) (hp 1)
      rw [Matrix.det_fin_three]
      simp only [Matrix.of_apply, Matrix.cons_val', Matrix.cons_val_zero, Matrix.cons_val_one, Matrix.cons_val]
      linarith

/-- C75: when the arguments of `generate_warped_rect_mesh` are accepted: two or three dimensions, one of the
three ways to say how many points there are, and not one point; the points are the same along all axes. -/
theorem C75_warp_arguments (dim : Nat) (nel npt n : Option Int) (l : List Int) :
    warpPoints dim nel npt n = .ok l ↔ (dim = 2 ∨ dim = 3) ∧ ∃ k, k ≠ 1 ∧ l = List.replicate dim k ∧
      ((nel = some (k - 1) ∧ npt = none ∧ n = none) ∨ (nel = none ∧ npt = some k ∧ n = none) ∨
       (nel = none ∧ npt = none ∧ n = some k)) := by
  have key : ∀ k : Int, (match rectPoints dim none ((some k).map (List.replicate dim)) none with
      | .error e => (.error (.rect e) : Except WarpErr (List Int))
      | .ok l => .ok l) = .ok l ↔ 1 ∉ List.replicate dim k ∧ l = List.replicate dim k := by
    intro k
    cases hp : rectPoints dim none ((some k).map (List.replicate dim)) none with
    | error e =>
      simp only [reduceCtorEq, false_iff, not_and]
      intro h1
      have := (rectPoints_ok (dimA := dim) (nel := none) (n := none)).2 ⟨.points (List.replicate dim k), h1⟩
      rw [Option.map_some] at hp
      rw [hp] at this
      cases this
    | ok q =>
      obtain ⟨h1, h2⟩ := rectPoints_ok.1 hp
      cases h1
      simp only [Except.ok.injEq]
      constructor
      · rintro rfl; exact ⟨h2, rfl⟩
      · rintro ⟨_, rfl⟩; rfl
  have hone : dim = 2 ∨ dim = 3 → ∀ k : Int, 1 ∉ List.replicate dim k ↔ k ≠ 1 := by
    rintro (rfl | rfl) k <;> simp [eq_comm]
  by_cases hd : dim = 2 ∨ dim = 3
  · have hif : ¬ (dim ≠ 2 ∧ dim ≠ 3) := by omega
    rcases n with _ | n <;> rcases npt with _ | q <;> rcases nel with _ | e <;>
      simp only [warpPoints, Option.isSome_none, Option.isSome_some, if_neg hif, Bool.false_eq_true, if_false,
        if_true, key, hone hd, hd, true_and, reduceCtorEq, false_and, and_false, or_false, false_or, exists_false,
        Option.some.injEq, and_true]
    · simp [rectPoints]
    · constructor
      · rintro ⟨h1, rfl⟩; exact ⟨e + 1, h1, rfl, by omega⟩
      · rintro ⟨k, h1, rfl, h2⟩
        rw [show e + 1 = k by omega]; exact ⟨h1, rfl⟩
    · constructor
      · rintro ⟨h1, rfl⟩; exact ⟨q, h1, rfl, rfl⟩
      · rintro ⟨k, h1, rfl, rfl⟩; exact ⟨h1, rfl⟩
    · constructor
      · rintro ⟨h1, rfl⟩; exact ⟨n, h1, rfl, rfl⟩
      · rintro ⟨k, h1, rfl, rfl⟩; exact ⟨h1, rfl⟩
  · have hif : dim ≠ 2 ∧ dim ≠ 3 := by omega
    rcases n with _ | n <;> rcases npt with _ | q <;> rcases nel with _ | e <;>
      simp [warpPoints, hif.1, hif.2]

/-! ### The slice of an annular cylinder -/

section
variable {center : Fin 3 → ℝ} {inner outer : ℝ}

/-- C75: a slice of an annular cylinder: different points of the unit cube have different images. -/
theorem C75_slice_injective (hi : 0 < inner) (ho : inner < outer) {x y : Fin 3 → ℝ} (hx : InCube 0 1 x)
    (hy : InCube 0 1 y) (h : sliceMap center inner outer x = sliceMap center inner outer y) : x = y := by
  have h0 := congrFun h 0
  have h1 := congrFun h 1
  have h2 := congrFun h 2
  simp only [sliceMap, Fin.isValue, Matrix.cons_val] at h0 h1 h2
  have hr : ∀ u : ℝ, 0 ≤ u ∧ u ≤ 1 → 0 < inner * (1 - u) + outer * u := by
    intro u hu; nlinarith
  have rx := hr _ (hx 0)
  have ry := hr _ (hy 0)
  have ht : ∀ u : ℝ, 0 ≤ u ∧ u ≤ 1 → -(Real.pi / 2) ≤ -Real.pi / 4 * (1 - u) + Real.pi / 4 * u ∧
      -Real.pi / 4 * (1 - u) + Real.pi / 4 * u ≤ Real.pi / 2 := by
    intro u hu
    have := Real.pi_pos
    constructor <;> nlinarith
  have tx := ht _ (hx 1)
  have ty := ht _ (hy 1)
  have e0 : inner * (1 - x 0) + outer * x 0 = inner * (1 - y 0) + outer * y 0 := by
    have c1 := Real.cos_sq_add_sin_sq (-Real.pi / 4 * (1 - x 1) + Real.pi / 4 * x 1)
    have c2 := Real.cos_sq_add_sin_sq (-Real.pi / 4 * (1 - y 1) + Real.pi / 4 * y 1)
    generalize Real.cos (-Real.pi / 4 * (1 - x 1) + Real.pi / 4 * x 1) = cx at *
    generalize Real.cos (-Real.pi / 4 * (1 - y 1) + Real.pi / 4 * y 1) = cy at *
    generalize Real.sin (-Real.pi / 4 * (1 - x 1) + Real.pi / 4 * x 1) = sx at *
    generalize Real.sin (-Real.pi / 4 * (1 - y 1) + Real.pi / 4 * y 1) = sy at *
    generalize inner * (1 - x 0) + outer * x 0 = a at *
    generalize inner * (1 - y 0) + outer * y 0 = b at *
    have hc : a * cx = b * cy := by linarith
    have hs : a * sx = b * sy := by linarith
    have : a ^ 2 = b ^ 2 := by
      calc a ^ 2 = (a * cx) ^ 2 + (a * sx) ^ 2 := by linear_combination (-a ^ 2) * c1
        _ = b ^ 2 := by rw [hc, hs]; linear_combination b ^ 2 * c2
    nlinarith
  have e1 : x 1 = y 1 := by
    rw [e0] at h1
    have hs := mul_left_cancel₀ ry.ne' (add_left_cancel h1)
    have := Real.injOn_sin ⟨tx.1, tx.2⟩ ⟨ty.1, ty.2⟩ hs
    have hp := Real.pi_pos
    have : Real.pi / 2 * (x 1 - y 1) = 0 := by linarith
    rcases mul_eq_zero.1 this with h | h
    · linarith
    · linarith
  have e0' : x 0 = y 0 := by
    have : (outer - inner) * (x 0 - y 0) = 0 := by linarith
    rcases mul_eq_zero.1 this with h | h
    · linarith
    · linarith
  have e2 : x 2 = y 2 := by
    norm_num at h2
    linarith
  ext i
  fin_cases i
  · exact e0'
  · exact e1
  · exact e2

theorem abs_sin_le_cos {t : ℝ} (h1 : -(Real.pi / 4) ≤ t) (h2 : t ≤ Real.pi / 4) : |Real.sin t| ≤ Real.cos t := by
  have hp := Real.pi_pos
  have hc : Real.cos (Real.pi / 4) ≤ Real.cos t := by
    rw [← Real.cos_abs t]
    exact Real.cos_le_cos_of_nonneg_of_le_pi (abs_nonneg t) (by linarith) (abs_le.2 ⟨h1, h2⟩)
  have hs : Real.sin t ≤ Real.sin (Real.pi / 4) :=
    Real.sin_le_sin_of_le_of_le_pi_div_two (by linarith) (by linarith) h2
  have hs' : Real.sin (-(Real.pi / 4)) ≤ Real.sin t :=
    Real.sin_le_sin_of_le_of_le_pi_div_two (by linarith) (by linarith) h1
  rw [Real.sin_neg] at hs'
  have : Real.sin (Real.pi / 4) = Real.cos (Real.pi / 4) := by
    rw [Real.sin_pi_div_four, Real.cos_pi_div_four]
  exact abs_le.2 ⟨by linarith, by linarith⟩

theorem angle_of_abs_sin_le_cos {t : ℝ} (h1 : -Real.pi < t) (h2 : t ≤ Real.pi) (h : |Real.sin t| ≤ Real.cos t)
    (h0 : Real.cos t ≠ 0) : -(Real.pi / 4) ≤ t ∧ t ≤ Real.pi / 4 := by
  have hp := Real.pi_pos
  have hcp : 0 < Real.cos t := lt_of_le_of_ne (le_trans (abs_nonneg _) h) (Ne.symm h0)
  have ht : |t| < Real.pi / 2 := by
    by_contra hc
    rw [not_lt] at hc
    have := Real.cos_nonpos_of_pi_div_two_le_of_le hc (by
      have : |t| ≤ Real.pi := abs_le.2 ⟨by linarith, h2⟩
      linarith)
    rw [Real.cos_abs] at this
    linarith
  have hs : |Real.sin t| = Real.sin |t| := by
    rcases abs_cases t with ⟨e, e'⟩ | ⟨e, e'⟩
    · rw [e, abs_of_nonneg]
      exact Real.sin_nonneg_of_nonneg_of_le_pi e' h2
    · rw [e, Real.sin_neg, abs_of_nonpos]
      exact Real.sin_nonpos_of_nonpos_of_neg_pi_le e'.le (by linarith)
  have : |t| ≤ Real.pi / 4 := by
    by_contra hc
    rw [not_le] at hc
    have a1 : Real.sin (Real.pi / 4) < Real.sin |t| :=
      Real.sin_lt_sin_of_lt_of_le_pi_div_two (by linarith) (by linarith) hc
    have a2 : Real.cos |t| < Real.cos (Real.pi / 4) :=
      Real.cos_lt_cos_of_nonneg_of_le_pi_div_two (by linarith) (by linarith) hc
    rw [Real.cos_abs] at a2
    rw [hs] at h
    rw [Real.sin_pi_div_four] at a1
    rw [Real.cos_pi_div_four] at a2
    linarith
  exact ⟨(abs_le.1 this).1, (abs_le.1 this).2⟩

/-- C75: the image of the unit cube is the slice: the points with distance between the radii from the axis,
with an angle of at most 45 degrees to the first axis, and at height at most one half from the center. -/
theorem C75_slice_image (hi : 0 < inner) (ho : inner < outer) (q : Fin 3 → ℝ) :
    (∃ x, InCube 0 1 x ∧ sliceMap center inner outer x = q) ↔
      inner ^ 2 ≤ (q 0 - center 0) ^ 2 + (q 1 - center 1) ^ 2 ∧
      (q 0 - center 0) ^ 2 + (q 1 - center 1) ^ 2 ≤ outer ^ 2 ∧
      |q 1 - center 1| ≤ q 0 - center 0 ∧ |q 2 - center 2| ≤ 1 / 2 := by
  have hp := Real.pi_pos
  constructor
  · rintro ⟨x, hx, rfl⟩
    simp only [sliceMap, Fin.isValue, Matrix.cons_val, add_sub_cancel_left]
    obtain ⟨x0, x0'⟩ := hx 0
    obtain ⟨x1, x1'⟩ := hx 1
    obtain ⟨x2, x2'⟩ := hx 2
    have r1 : inner ≤ inner * (1 - x 0) + outer * x 0 := by nlinarith
    have r2 : inner * (1 - x 0) + outer * x 0 ≤ outer := by nlinarith
    have hr : 0 < inner * (1 - x 0) + outer * x 0 := by linarith
    have t1 : -(Real.pi / 4) ≤ -Real.pi / 4 * (1 - x 1) + Real.pi / 4 * x 1 := by nlinarith
    have t2 : -Real.pi / 4 * (1 - x 1) + Real.pi / 4 * x 1 ≤ Real.pi / 4 := by nlinarith
    have hcs := Real.cos_sq_add_sin_sq (-Real.pi / 4 * (1 - x 1) + Real.pi / 4 * x 1)
    have hsc := abs_sin_le_cos t1 t2
    generalize -Real.pi / 4 * (1 - x 1) + Real.pi / 4 * x 1 = t at *
    generalize inner * (1 - x 0) + outer * x 0 = r at *
    have e : (r * Real.cos t) ^ 2 + (r * Real.sin t) ^ 2 = r ^ 2 := by linear_combination r ^ 2 * hcs
    rw [e]
    refine ⟨by nlinarith, by nlinarith, ?_, ?_⟩
    · rw [abs_mul, abs_of_pos hr]
      exact mul_le_mul_of_nonneg_left hsc hr.le
    · rw [abs_le]
      constructor <;> norm_num <;> linarith
  · rintro ⟨h1, h2, h3, h4⟩
    have hpos : 0 < (q 0 - center 0) ^ 2 + (q 1 - center 1) ^ 2 := by
      have : 0 < inner ^ 2 := by positivity
      linarith
    set u := q 0 - center 0 with hu
    set v := q 1 - center 1 with hv
    have hne : (⟨u, v⟩ : ℂ) ≠ 0 := by
      intro h0
      have a1 := congrArg Complex.re h0
      have a2 := congrArg Complex.im h0
      simp only [Complex.zero_re, Complex.zero_im] at a1 a2
      rw [a1, a2] at hpos
      norm_num at hpos
    have hn : ‖(⟨u, v⟩ : ℂ)‖ = Real.sqrt (u ^ 2 + v ^ 2) := by
      rw [Complex.norm_def, Complex.normSq_mk]
      congr 1
      ring
    have hs : 0 < Real.sqrt (u ^ 2 + v ^ 2) := Real.sqrt_pos.2 hpos
    have hc1 : Real.sqrt (u ^ 2 + v ^ 2) * Real.cos (Complex.arg ⟨u, v⟩) = u := by
      rw [Complex.cos_arg hne, hn]; field_simp
    have hs1 : Real.sqrt (u ^ 2 + v ^ 2) * Real.sin (Complex.arg ⟨u, v⟩) = v := by
      rw [Complex.sin_arg, hn]; field_simp
    have hr1 : inner ≤ Real.sqrt (u ^ 2 + v ^ 2) := Real.le_sqrt_of_sq_le h1
    have hr2 : Real.sqrt (u ^ 2 + v ^ 2) ≤ outer := by
      rw [Real.sqrt_le_left (by linarith)]
      exact h2
    have hang : -(Real.pi / 4) ≤ Complex.arg ⟨u, v⟩ ∧ Complex.arg ⟨u, v⟩ ≤ Real.pi / 4 := by
      refine angle_of_abs_sin_le_cos (Complex.neg_pi_lt_arg _) (Complex.arg_le_pi _) ?_ ?_
      · have h3' : |Real.sqrt (u ^ 2 + v ^ 2) * Real.sin (Complex.arg ⟨u, v⟩)| ≤
            Real.sqrt (u ^ 2 + v ^ 2) * Real.cos (Complex.arg ⟨u, v⟩) := by rw [hc1, hs1]; exact h3
        rw [abs_mul, abs_of_pos hs] at h3'
        exact le_of_mul_le_mul_left h3' hs
      · intro h0
        rw [h0, mul_zero] at hc1
        have hv0 : v = 0 := by
          rw [← hc1] at h3
          exact abs_eq_zero.1 (le_antisymm h3 (abs_nonneg _))
        rw [← hc1, hv0] at hpos
        norm_num at hpos
    generalize Complex.arg ⟨u, v⟩ = t at *
    generalize Real.sqrt (u ^ 2 + v ^ 2) = r at *
    have hoi : 0 < outer - inner := by linarith
    obtain ⟨h4a, h4b⟩ := abs_le.1 h4
    refine ⟨![(r - inner) / (outer - inner), (t + Real.pi / 4) / (Real.pi / 2), q 2 - center 2 + 1 / 2], ?_, ?_⟩
    · intro i
      fin_cases i
      · exact ⟨div_nonneg (by linarith) hoi.le, (div_le_one hoi).2 (by linarith)⟩
      · exact ⟨div_nonneg (by linarith) (by linarith), (div_le_one (by linarith)).2 (by linarith)⟩
      · constructor
        · show 0 ≤ q 2 - center 2 + 1 / 2
          linarith
        · show q 2 - center 2 + 1 / 2 ≤ 1
          linarith
    · have er : inner * (1 - (r - inner) / (outer - inner)) + outer * ((r - inner) / (outer - inner)) = r := by
        field_simp
        ring
      have et : -Real.pi / 4 * (1 - (t + Real.pi / 4) / (Real.pi / 2)) +
          Real.pi / 4 * ((t + Real.pi / 4) / (Real.pi / 2)) = t := by
        field_simp
        ring
      ext i
      fin_cases i
      · simp only [sliceMap, Fin.isValue, Matrix.cons_val, Fin.zero_eta]
        rw [er, et, hc1, hu]
        ring
      · simp only [sliceMap, Fin.isValue, Matrix.cons_val, Fin.mk_one]
        rw [er, et, hs1, hv]
        ring
      · simp only [sliceMap, Fin.isValue, Matrix.cons_val, Fin.reduceFinMk]
        norm_num
        ring

/-- C75: the map that glues the sides takes each point of the side at -45 degrees to the point of the side
at 45 degrees with the same radius and height. -/
theorem C75_slice_glue (x z : ℝ) :
    (sliceGlueMap center).apply (sliceMap center inner outer ![x, 0, z]) =
      sliceMap center inner outer ![x, 1, z] := by
  have hm : ∀ v : Fin 3 → ℝ, (rotMatrix (Real.pi / 2) ![0, 0, 1]).mulVec v = ![-v 1, v 0, v 2] := by
    intro v
    have hn : norm2 ![0, 0, 1] = 1 := by simp [norm2]
    ext i
    fin_cases i <;> simp [rotMatrix, rotEntries, hn, Matrix.mulVec, dotProduct, Fin.sum_univ_three]
  have e1 : -Real.pi / 4 * (1 - 0) + Real.pi / 4 * 0 = -(Real.pi / 4) := by ring
  have e2 : -Real.pi / 4 * (1 - 1) + Real.pi / 4 * 1 = Real.pi / 4 := by ring
  simp only [sliceGlueMap, AffMap.apply, hm]
  ext i
  fin_cases i <;>
    simp only [sliceMap, Fin.isValue, Matrix.cons_val, Pi.add_apply, Pi.sub_apply, Fin.zero_eta, Fin.mk_one,
      Fin.reduceFinMk, e1, e2, Real.cos_neg, Real.sin_neg, Real.sin_pi_div_four, Real.cos_pi_div_four] <;> ring

/-- C75: the sides of the unit cube become the sides of the slice with the right tags: the side tagged `-r`
has the inner radius, `+r` the outer radius. -/
theorem C75_slice_sides (x : Fin 3 → ℝ) :
    (x 0 = 0 → (sliceMap center inner outer x 0 - center 0) ^ 2 + (sliceMap center inner outer x 1 - center 1) ^ 2 =
      inner ^ 2) ∧
    (x 0 = 1 → (sliceMap center inner outer x 0 - center 0) ^ 2 + (sliceMap center inner outer x 1 - center 1) ^ 2 =
      outer ^ 2) ∧
    (x 1 = 0 → sliceMap center inner outer x 1 - center 1 = -(sliceMap center inner outer x 0 - center 0)) ∧
    (x 1 = 1 → sliceMap center inner outer x 1 - center 1 = sliceMap center inner outer x 0 - center 0) ∧
    (x 2 = 0 → sliceMap center inner outer x 2 = center 2 - 1 / 2) ∧
    (x 2 = 1 → sliceMap center inner outer x 2 = center 2 + 1 / 2) := by
  simp only [sliceMap, Fin.isValue, Matrix.cons_val, add_sub_cancel_left]
  have hcs := Real.cos_sq_add_sin_sq (-Real.pi / 4 * (1 - x 1) + Real.pi / 4 * x 1)
  refine ⟨fun h => ?_, fun h => ?_, fun h => ?_, fun h => ?_, fun h => ?_, fun h => ?_⟩
  · rw [h]; linear_combination inner ^ 2 * hcs
  · rw [h]; linear_combination outer ^ 2 * hcs
  · rw [h, show -Real.pi / 4 * (1 - 0) + Real.pi / 4 * 0 = -(Real.pi / 4) by ring, Real.cos_neg, Real.sin_neg,
      Real.sin_pi_div_four, Real.cos_pi_div_four]
    ring
  · rw [h, show -Real.pi / 4 * (1 - 1) + Real.pi / 4 * 1 = Real.pi / 4 by ring,
      Real.sin_pi_div_four, Real.cos_pi_div_four]
  · rw [h]; norm_num; ring
  · rw [h]; norm_num

/-- C75: the slice keeps the orientation. -/
theorem C75_slice_oriented (hi : 0 < inner) (ho : inner < outer) (p : Fin 3 → ℝ) (hp : InCube 0 1 p) :
    ∃ J, IsJacobian (sliceMap center inner outer) p J ∧ 0 < J.det := by
  have hpi := Real.pi_pos
  have hr : 0 < inner * (1 - p 0) + outer * p 0 := by
    obtain ⟨h0, h1⟩ := hp 0
    nlinarith
  have dr : ∀ x : ℝ, HasDerivAt (fun t => inner * (1 - t) + outer * t) (outer - inner) x := by
    intro x
    have := (((hasDerivAt_id x).const_sub 1).const_mul inner).add ((hasDerivAt_id x).const_mul outer)
    refine this.congr_deriv ?_
    ring
  have dt : ∀ x : ℝ, HasDerivAt (fun t => -Real.pi / 4 * (1 - t) + Real.pi / 4 * t) (Real.pi / 2) x := by
    intro x
    have := (((hasDerivAt_id x).const_sub 1).const_mul (-Real.pi / 4)).add
      ((hasDerivAt_id x).const_mul (Real.pi / 4))
    refine this.congr_deriv ?_
    ring
  have dz : ∀ x c : ℝ, HasDerivAt (fun t => c + (-0.5 * (1 - t) + 0.5 * t)) 1 x := by
    intro x c
    have := ((((hasDerivAt_id x).const_sub 1).const_mul (-0.5)).add
      ((hasDerivAt_id x).const_mul 0.5)).const_add c
    refine this.congr_deriv ?_
    norm_num
  set th := -Real.pi / 4 * (1 - p 1) + Real.pi / 4 * p 1 with hth
  set r := inner * (1 - p 0) + outer * p 0 with hrr
  refine ⟨!![(outer - inner) * Real.cos th, -(r * Real.sin th * (Real.pi / 2)), 0;
    (outer - inner) * Real.sin th, r * Real.cos th * (Real.pi / 2), 0;
    0, 0, 1], ?_, ?_⟩
  · have d00 := ((dr (p 0)).mul_const (Real.cos th)).const_add (center 0)
    have d10 := ((dr (p 0)).mul_const (Real.sin th)).const_add (center 1)
    have d01 : HasDerivAt (fun t => center 0 + r * Real.cos (-Real.pi / 4 * (1 - t) + Real.pi / 4 * t))
        (-(r * Real.sin th * (Real.pi / 2))) (p 1) := by
      have := (((Real.hasDerivAt_cos th).comp (p 1) (dt (p 1))).const_mul r).const_add (center 0)
      refine this.congr_deriv ?_
      ring
    have d11 : HasDerivAt (fun t => center 1 + r * Real.sin (-Real.pi / 4 * (1 - t) + Real.pi / 4 * t))
        (r * Real.cos th * (Real.pi / 2)) (p 1) := by
      have := (((Real.hasDerivAt_sin th).comp (p 1) (dt (p 1))).const_mul r).const_add (center 1)
      refine this.congr_deriv ?_
      ring
    intro i j
    fin_cases i <;> fin_cases j
    · simpa [sliceMap] using d00
    · simpa [sliceMap] using d01
    · simpa [sliceMap] using hasDerivAt_const (p 2) _
    · simpa [sliceMap] using d10
    · simpa [sliceMap] using d11
    · simpa [sliceMap] using hasDerivAt_const (p 2) _
    · simpa [sliceMap] using hasDerivAt_const (p 0) _
    · simpa [sliceMap] using hasDerivAt_const (p 1) _
    · simpa [sliceMap] using dz (p 2) (center 2)
  · rw [Matrix.det_fin_three]
    simp only [Matrix.of_apply, Matrix.cons_val', Matrix.cons_val_zero, Matrix.cons_val_one, Matrix.cons_val]
    have hcs := Real.cos_sq_add_sin_sq th
    have : 0 < (outer - inner) * (r * (Real.pi / 2)) := by
      have : 0 < outer - inner := by linarith
      positivity
    nlinarith

end

/-! ## Concrete cases -/

-- The hypotheses of the theorems: a point of the cube, and accepted arguments.
example : InCube (-(1 / 2)) (1 / 2) (![1 / 4, -(1 / 2), 0] : Fin 3 → ℝ) := by
  intro i
  fin_cases i <;> norm_num

example : warpPoints 2 (some 3) none none = .ok [4, 4] ∧ warpPoints 3 none none (some 2) = .ok [2, 2, 2] ∧
    warpPoints 2 none none none = .error (.rect .neither) ∧ warpPoints 1 (some 3) none none = .error .dimension ∧
    warpPoints 2 (some 0) none none = .error (.rect .single) := by decide

example : InCube 0 1 (![1 / 4, 0, 1] : Fin 3 → ℝ) := by
  intro i
  fin_cases i <;> norm_num

end Meshmode
