import Verif.Mesh.Affine
import Mathlib.Analysis.SpecialFunctions.Trigonometric.Basic
import Mathlib.LinearAlgebra.CrossProduct
import Mathlib.LinearAlgebra.Matrix.Determinant.Basic
import Mathlib.LinearAlgebra.Matrix.Trace
import Mathlib.Tactic.LinearCombination

/-!
# Rotating meshes (C58)

`rotate_mesh_around_axis`, `_get_rotation_matrix_from_angle_and_axis`
(meshmode/mesh/processing.py:1471-1517), with real numbers for floating point numbers.
-/
namespace Meshmode

open Matrix

/-! ## Model -/

/-- The matrix written out in `_get_rotation_matrix_from_angle_and_axis`,
meshmode/mesh/processing.py:1479-1491, with `c = cos_t`, `s = sin_t`, `u = (ux, uy, uz)`. -/
def rotEntries {K : Type} [CommRing K] (c s : K) (u : Fin 3 → K) : Matrix (Fin 3) (Fin 3) K :=
  !![c + u 0 ^ 2 * (1 - c), u 0 * u 1 * (1 - c) - u 2 * s, u 0 * u 2 * (1 - c) + u 1 * s;
     u 1 * u 0 * (1 - c) + u 2 * s, c + u 1 ^ 2 * (1 - c), u 1 * u 2 * (1 - c) - u 0 * s;
     u 2 * u 0 * (1 - c) - u 1 * s, u 2 * u 1 * (1 - c) + u 0 * s, c + u 2 ^ 2 * (1 - c)]

/-- `np.linalg.norm(axis, ord=2)`, meshmode/mesh/processing.py:1477. -/
noncomputable def norm2 (x : Fin 3 → ℝ) : ℝ := Real.sqrt (x 0 ^ 2 + x 1 ^ 2 + x 2 ^ 2)

/-- `_get_rotation_matrix_from_angle_and_axis`, meshmode/mesh/processing.py:1471-1491. -/
noncomputable def rotMatrix (theta : ℝ) (axis : Fin 3 → ℝ) : Matrix (Fin 3) (Fin 3) ℝ :=
  rotEntries (Real.cos theta) (Real.sin theta) fun i => axis i / norm2 axis

/-- Exceptions of `rotate_mesh_around_axis`. Code: meshmode/mesh/processing.py:1504-1511, 1440. -/
inductive RotErr where
  /-- `ValueError("unsupported mesh dimension: …")` -/
  | unsupported
  /-- `DataUnavailableError` of `affine_map` -/
  | unavailable
  deriving DecidableEq, Repr

/-- The axis used: the argument `axis` in three dimensions if given, otherwise the `z` axis,
meshmode/mesh/processing.py:1506-1514. -/
def rotAxis (d : Nat) (axis : Option (Fin 3 → ℝ)) : Fin 3 → ℝ :=
  if d = 2 then ![0, 0, 1] else axis.getD ![0, 0, 1]

/-- `rotate_mesh_around_axis`, meshmode/mesh/processing.py:1494-1517; `mat[:d, :d]` is the submatrix
of the first `d` rows and columns. -/
noncomputable def rotateMesh {d : Nat} (theta : ℝ) (axis : Option (Fin 3 → ℝ)) (m : PMesh d ℝ) :
    Except RotErr (PMesh d ℝ) :=
  if d = 1 then .ok m
  else if h : (d = 2 ∨ d = 3) then
    match affineMapMesh ⟨some ((rotMatrix theta (rotAxis d axis)).submatrix
        (Fin.castLE (by omega)) (Fin.castLE (by omega))), none⟩ m with
    | some m' => .ok m'
    | none => .error .unavailable
  else .error .unsupported

/-! ## The matrix -/

section
variable {K : Type} [CommRing K] {c s : K} {u : Fin 3 → K}

theorem rotEntries_rodrigues (v : Fin 3 → K) :
    rotEntries c s u *ᵥ v = c • v + s • (u ⨯₃ v) + ((1 - c) * (u ⬝ᵥ v)) • u := by
  ext i
  fin_cases i <;>
    simp [rotEntries, mulVec, dotProduct, Fin.sum_univ_three, cross_apply, vecHead, vecTail] <;> ring

theorem rotEntries_mul (hu : u 0 ^ 2 + u 1 ^ 2 + u 2 ^ 2 = 1) (c s c' s' : K) :
    rotEntries c s u * rotEntries c' s' u = rotEntries (c * c' - s * s') (s * c' + c * s') u := by
  ext i j
  fin_cases i <;> fin_cases j <;>
    simp [rotEntries, Matrix.mul_apply, Fin.sum_univ_three]
  · linear_combination ((1 - c) * (1 - c') * u 0 * u 0 - s * s') * hu
  · linear_combination ((1 - c) * (1 - c') * u 0 * u 1) * hu
  · linear_combination ((1 - c) * (1 - c') * u 0 * u 2) * hu
  · linear_combination ((1 - c) * (1 - c') * u 1 * u 0) * hu
  · linear_combination ((1 - c) * (1 - c') * u 1 * u 1 - s * s') * hu
  · linear_combination ((1 - c) * (1 - c') * u 1 * u 2) * hu
  · linear_combination ((1 - c) * (1 - c') * u 2 * u 0) * hu
  · linear_combination ((1 - c) * (1 - c') * u 2 * u 1) * hu
  · linear_combination ((1 - c) * (1 - c') * u 2 * u 2 - s * s') * hu

theorem rotEntries_one : rotEntries (1 : K) 0 u = 1 := by
  ext i j
  fin_cases i <;> fin_cases j <;> simp [rotEntries]

theorem rotEntries_transpose : (rotEntries c s u)ᵀ = rotEntries c (-s) u := by
  ext i j
  fin_cases i <;> fin_cases j <;> simp [rotEntries] <;> ring

theorem rotEntries_orthogonal (hc : c ^ 2 + s ^ 2 = 1) (hu : u 0 ^ 2 + u 1 ^ 2 + u 2 ^ 2 = 1) :
    (rotEntries c s u)ᵀ * rotEntries c s u = 1 := by
  rw [rotEntries_transpose, rotEntries_mul hu, ← rotEntries_one (u := u)]
  congr 1
  · linear_combination hc
  · ring

theorem rotEntries_det (hc : c ^ 2 + s ^ 2 = 1) (hu : u 0 ^ 2 + u 1 ^ 2 + u 2 ^ 2 = 1) :
    (rotEntries c s u).det = 1 := by
  rw [Matrix.det_fin_three]
  simp [rotEntries]
  linear_combination ((c + (1 - c) * (u 0 ^ 2 + u 1 ^ 2 + u 2 ^ 2)) * s ^ 2 +
    (1 - c) * (c ^ 2 + s ^ 2)) * hu + hc

theorem rotEntries_axis (hu : u 0 ^ 2 + u 1 ^ 2 + u 2 ^ 2 = 1) : rotEntries c s u *ᵥ u = u := by
  have : u ⬝ᵥ u = 1 := by simp [dotProduct, Fin.sum_univ_three]; linear_combination hu
  rw [rotEntries_rodrigues, this, cross_self]
  ext i
  simp; ring

theorem rotEntries_trace (hu : u 0 ^ 2 + u 1 ^ 2 + u 2 ^ 2 = 1) :
    (rotEntries c s u).trace = 1 + 2 * c := by
  simp [rotEntries, Matrix.trace, Fin.sum_univ_three]
  linear_combination (1 - c) * hu

end

/-! ## Specification -/

/-- Square of the Euclidean distance. (Specification or proof vocabulary, no code.) -/
def sqDistance {d : Nat} (x y : Fin d → ℝ) : ℝ := ∑ i, (x i - y i) ^ 2

/-- The map that takes the points of the mesh `m` to those of `m'`, element by element and vertex by
vertex, all connectivity being the same. (Specification or proof vocabulary, no code.) -/
def MovedBy {d : Nat} (f : (Fin d → ℝ) → (Fin d → ℝ)) (m m' : PMesh d ℝ) : Prop :=
  m'.vertices = m.vertices.map (·.map f) ∧ m'.groups.length = m.groups.length ∧
  ∀ (i : Nat) g, m.groups[i]? = some g → ∃ g', m'.groups[i]? = some g' ∧ g'.kind = g.kind ∧
    g'.fvi = g.fvi ∧ g'.vertexIndices = g.vertexIndices ∧ g'.nodes = g.nodes.map (·.map f)

/-! ## The rotation -/

theorem norm2_sq (x : Fin 3 → ℝ) : norm2 x ^ 2 = x 0 ^ 2 + x 1 ^ 2 + x 2 ^ 2 :=
  Real.sq_sqrt (by positivity)

theorem norm2_ne {x : Fin 3 → ℝ} (hx : x ≠ 0) : norm2 x ≠ 0 := by
  intro h
  have h2 := norm2_sq x
  rw [h] at h2
  have h0 : x 0 = 0 := by nlinarith [sq_nonneg (x 0), sq_nonneg (x 1), sq_nonneg (x 2)]
  have h1 : x 1 = 0 := by nlinarith [sq_nonneg (x 0), sq_nonneg (x 1), sq_nonneg (x 2)]
  have h3 : x 2 = 0 := by nlinarith [sq_nonneg (x 0), sq_nonneg (x 1), sq_nonneg (x 2)]
  exact hx (funext fun i => by fin_cases i <;> assumption)

theorem unit_axis {x : Fin 3 → ℝ} (hx : x ≠ 0) :
    (x 0 / norm2 x) ^ 2 + (x 1 / norm2 x) ^ 2 + (x 2 / norm2 x) ^ 2 = 1 := by
  have h := norm2_ne hx
  have h2 := norm2_sq x
  field_simp
  linarith

/-- C58: the matrix for an angle and an axis other than zero is a rotation (orthogonal, determinant
one) that fixes the axis, turns by the angle (trace) and in the positive sense (Rodrigues' formula
with the unit vector along the axis). -/
theorem C58_rotation_matrix (theta : ℝ) {axis : Fin 3 → ℝ} (h : axis ≠ 0) :
    (rotMatrix theta axis)ᵀ * rotMatrix theta axis = 1 ∧ (rotMatrix theta axis).det = 1 ∧
    rotMatrix theta axis *ᵥ axis = axis ∧
    (rotMatrix theta axis).trace = 1 + 2 * Real.cos theta ∧
    ∀ u, axis = norm2 axis • u → ∀ v, rotMatrix theta axis *ᵥ v =
      Real.cos theta • v + Real.sin theta • (u ⨯₃ v) + ((1 - Real.cos theta) * (u ⬝ᵥ v)) • u := by
  have hu := unit_axis h
  have hc := Real.cos_sq_add_sin_sq theta
  refine ⟨rotEntries_orthogonal hc hu, rotEntries_det hc hu, ?_, rotEntries_trace hu, ?_⟩
  · have hax : axis = norm2 axis • fun i => axis i / norm2 axis := by
      ext i
      simp only [Pi.smul_apply, smul_eq_mul]
      rw [mul_div_cancel₀ _ (norm2_ne h)]
    have e : rotMatrix theta axis *ᵥ axis =
        rotMatrix theta axis *ᵥ (norm2 axis • fun i => axis i / norm2 axis) := by rw [← hax]
    rw [e, Matrix.mulVec_smul, rotMatrix, rotEntries_axis hu, ← hax]
  · intro u hax v
    have : u = fun i => axis i / norm2 axis := by
      ext i
      have hi := congrFun hax i
      simp only [Pi.smul_apply, smul_eq_mul] at hi
      rw [eq_div_iff (norm2_ne h), mul_comm]
      exact hi.symm
    rw [rotMatrix, rotEntries_rodrigues, this]

/-- C58: rotations about the same axis add up, and angle zero does nothing. -/
theorem C58_composition (theta phi : ℝ) {axis : Fin 3 → ℝ} (h : axis ≠ 0) :
    rotMatrix theta axis * rotMatrix phi axis = rotMatrix (theta + phi) axis ∧
    rotMatrix 0 axis = 1 := by
  constructor
  · rw [rotMatrix, rotMatrix, rotMatrix, rotEntries_mul (unit_axis h), Real.cos_add, Real.sin_add]
  · rw [rotMatrix, Real.cos_zero, Real.sin_zero, rotEntries_one]

theorem sqDistance_mulVec {d : Nat} {R : Matrix (Fin d) (Fin d) ℝ} (h : Rᵀ * R = 1) (x y : Fin d → ℝ) :
    sqDistance (R *ᵥ x) (R *ᵥ y) = sqDistance x y := by
  have key : ∀ z w : Fin d → ℝ, sqDistance z w = (z - w) ⬝ᵥ (z - w) := by
    intro z w
    simp only [sqDistance, dotProduct, Pi.sub_apply]
    exact Finset.sum_congr rfl fun i _ => by ring
  rw [key, key, ← Matrix.mulVec_sub, Matrix.dotProduct_mulVec, Matrix.vecMul_mulVec, h,
    Matrix.vecMul_one]

/-- The matrix used for plane meshes. -/
theorem rotMatrix_plane (theta : ℝ) : (rotMatrix theta ![0, 0, 1]).submatrix
      (Fin.castLE (by omega : 2 ≤ 3)) (Fin.castLE (by omega : 2 ≤ 3)) =
    !![Real.cos theta, -Real.sin theta; Real.sin theta, Real.cos theta] := by
  have hn : norm2 ![0, 0, 1] = 1 := by simp [norm2]
  ext i j
  fin_cases i <;> fin_cases j <;> simp [rotMatrix, rotEntries, hn]

/-- C58: rotating a mesh in the plane moves every vertex and node `(x, y)` to
`(x cos θ - y sin θ, x sin θ + y cos θ)`, whatever axis is given, and keeps the connectivity. -/
theorem C58_rotate_plane (theta : ℝ) (axis : Option (Fin 3 → ℝ)) {m m' : PMesh 2 ℝ}
    (h : rotateMesh theta axis m = .ok m') :
    MovedBy (fun x => ![x 0 * Real.cos theta - x 1 * Real.sin theta,
      x 0 * Real.sin theta + x 1 * Real.cos theta]) m m' := by
  unfold rotateMesh at h
  rw [if_neg (by omega), dif_pos (.inl rfl), rotAxis, if_pos rfl, rotMatrix_plane] at h
  split at h
  · rename_i m'' hm
    rw [Except.ok.injEq] at h
    subst h
    obtain ⟨h1, h2, h3, _⟩ := C17_affine_map_mesh_partial hm
    have hf : (AffMap.apply ⟨some !![Real.cos theta, -Real.sin theta; Real.sin theta, Real.cos theta],
        none⟩ : (Fin 2 → ℝ) → Fin 2 → ℝ) = fun x => ![x 0 * Real.cos theta - x 1 * Real.sin theta,
          x 0 * Real.sin theta + x 1 * Real.cos theta] := by
      funext x
      ext i
      fin_cases i <;> simp [AffMap.apply, dotProduct, Fin.sum_univ_two] <;>
        ring
    rw [hf] at h1 h3
    exact ⟨h1, h2, h3⟩
  · simp at h

/-- C58: rotating a mesh in space about an axis other than zero moves every vertex and node by the
rotation matrix of the theorems above (about the `z` axis if none is given); connectivity stays. -/
theorem C58_rotate_space (theta : ℝ) (axis : Option (Fin 3 → ℝ)) {m m' : PMesh 3 ℝ}
    (h : rotateMesh theta axis m = .ok m') :
    MovedBy (fun x => rotMatrix theta (axis.getD ![0, 0, 1]) *ᵥ x) m m' := by
  unfold rotateMesh at h
  rw [if_neg (by omega), dif_pos (.inr rfl), rotAxis, if_neg (by omega)] at h
  split at h
  · rename_i m'' hm
    rw [Except.ok.injEq] at h
    subst h
    obtain ⟨h1, h2, h3, _⟩ := C17_affine_map_mesh_partial hm
    exact ⟨h1, h2, h3⟩
  · simp at h

/-- C58: all distances between points of the mesh stay the same, in the plane and in space. -/
theorem C58_isometry (theta : ℝ) {axis : Fin 3 → ℝ} (h : axis ≠ 0) :
    (∀ x y : Fin 3 → ℝ, sqDistance (rotMatrix theta axis *ᵥ x) (rotMatrix theta axis *ᵥ y) = sqDistance x y) ∧
    ∀ x y : Fin 2 → ℝ, sqDistance
      ![x 0 * Real.cos theta - x 1 * Real.sin theta, x 0 * Real.sin theta + x 1 * Real.cos theta]
      ![y 0 * Real.cos theta - y 1 * Real.sin theta, y 0 * Real.sin theta + y 1 * Real.cos theta] =
      sqDistance x y := by
  refine ⟨sqDistance_mulVec (C58_rotation_matrix theta h).1, fun x y => ?_⟩
  simp only [sqDistance, Fin.sum_univ_two, Matrix.cons_val_zero, Matrix.cons_val_one]
  linear_combination ((x 0 - y 0) ^ 2 + (x 1 - y 1) ^ 2) * Real.cos_sq_add_sin_sq theta

/-- C58: periodicity by translations is transported: if the neighbour of a point `x` is at `x + t`
then the map stored after rotation takes the rotated point to the rotated neighbour. -/
theorem C58_periodic {d : Nat} {R : Matrix (Fin d) (Fin d) ℝ} (t : Option (Fin d → ℝ))
    (x : Fin d → ℝ) : (computeNewMap ⟨some R, none⟩ ⟨none, t⟩).apply (R *ᵥ x) =
      R *ᵥ (AffMap.apply ⟨none, t⟩ x) := by
  have := C17_translations_transported_partial ⟨some R, none⟩ t x
  simpa [AffMap.apply] using this

/-- C58: when the call succeeds: dimension one (nothing is done), or dimension two or three unless
facial adjacency is disabled. -/
theorem C58_defined {d : Nat} (theta : ℝ) (axis : Option (Fin 3 → ℝ)) (m : PMesh d ℝ) :
    (d = 1 → rotateMesh theta axis m = .ok m) ∧
    (d = 0 ∨ 4 ≤ d → rotateMesh theta axis m = .error .unsupported) ∧
    (d = 2 ∨ d = 3 → ((∃ m', rotateMesh theta axis m = .ok m') ↔ m.lazy.facial ≠ .disabled) ∧
      (rotateMesh theta axis m = .error .unavailable ↔ m.lazy.facial = .disabled)) := by
  refine ⟨fun h => by rw [rotateMesh, if_pos h], fun h => by
    rw [rotateMesh, if_neg (by omega), dif_neg (by omega)], fun h => ?_⟩
  unfold rotateMesh
  rw [if_neg (by omega), dif_pos h]
  cases hf : m.lazy.facial <;> simp [affineMapMesh, hf]

/-! ### Examples -/

/-- A segment in space. -/
def exSegment3 : PMesh 3 ℝ where
  ambientDim := 3
  vertices := some [![1, 0, 0], ![1, 2, 3]]
  groups := [⟨0, [[0], [1]], [[0, 1]], [[![1, 0, 0], ![1, 2, 3]]]⟩]
  lazy := ⟨some true, .missing, .missing⟩

/-- The hypothesis of `C58_rotate_space` holds for a concrete mesh. -/
example (theta : ℝ) (axis : Fin 3 → ℝ) : ∃ m', rotateMesh theta (some axis) exSegment3 = .ok m' :=
  (((C58_defined theta (some axis) exSegment3).2.2 (.inr rfl)).1).2 (by simp [exSegment3])

/-- An axis as in the hypothesis of `C58_rotation_matrix`. -/
example : (![0, 3, 4] : Fin 3 → ℝ) ≠ 0 := by
  intro h; have := congrFun h 1; norm_num at this

end Meshmode
