import Mathlib.Algebra.BigOperators.Fin
import Mathlib.LinearAlgebra.Matrix.NonsingularInverse
import Mathlib.LinearAlgebra.Matrix.Notation
import Mathlib.MeasureTheory.Integral.Pi
import Mathlib.Analysis.SpecialFunctions.Integrals.Basic
import Mathlib.Tactic.LinearCombination
import Verif.Discr.Arrays

/-!
# Quadrature rules and nodes of element groups (C97)

The rules of interpolatory element groups are made from a mass matrix: `quadrature_rule` of
`_MassMatrixQuadratureElementGroup` (meshmode/discretization/poly_element.py:247-268) and of
`TensorProductElementGroupBase` (560-591), with the checks of the constructor (511-554).  The nodes of
`PolynomialWarpAndBlend2DRestrictingElementGroup`, `PolynomialWarpAndBlend3DRestrictingElementGroup` (302-359)
and `PolynomialGivenNodesElementGroup` (428-458).

From modepy: `mass_matrix` is the inverse of `V Vᵀ` with the Vandermonde matrix `V` of an orthonormal basis, and
raises an exception if there is none; `tensor_product_nodes` lets the first axis vary fastest, as
`reshape_array_for_tensor_product_space` does; the nodes and weights of `TensorProductQuadrature` are the tensor
products of those of the rules.  Real numbers instead of floating point numbers.
-/
namespace Meshmode

open MeasureTheory

/-! ## Model -/

/-- A `modepy.Quadrature` rule. Code: meshmode/discretization/poly_element.py:255, 581. -/
structure Rule (X : Type) (n : Nat) where
  nodes : Fin n → X
  weights : Fin n → ℝ
  exactTo : Nat

section
variable {X : Type} {n m : Nat}

/-- The Vandermonde matrix of basis functions and nodes (`modepy.vandermonde`).
Code: meshmode/discretization/poly_element.py:252, 578. -/
def quadVdm (φ : Fin m → X → ℝ) (x : Fin n → X) : Matrix (Fin n) (Fin m) ℝ := fun i j => φ j (x i)

open Classical in
/-- `mp.mass_matrix(basis, nodes)`, meshmode/discretization/poly_element.py:252, 578. -/
noncomputable def massMatrix (φ : Fin m → X → ℝ) (x : Fin n → X) : Option (Matrix (Fin n) (Fin n) ℝ) :=
  if (quadVdm φ x * (quadVdm φ x).transpose).det = 0 then none
  else some (quadVdm φ x * (quadVdm φ x).transpose)⁻¹

/-- `np.dot(mass_matrix, np.ones(len(basis.functions)))`,
meshmode/discretization/poly_element.py:253-254, 579: the number of functions has to be the number of nodes. -/
noncomputable def massWeights (φ : Fin m → X → ℝ) (x : Fin n → X) : Option (Fin n → ℝ) :=
  match massMatrix φ x with
  | none => none
  | some M => if n = m then some (M.mulVec fun _ => 1) else none

/-- `_MassMatrixQuadratureElementGroup.quadrature_rule`,
meshmode/discretization/poly_element.py:248-255; its nodes are also `unit_nodes`, 257-260. -/
noncomputable def massRule (order : Nat) (φ : Fin m → X → ℝ) (x : Fin n → X) : Option (Rule X n) :=
  (massWeights φ x).map fun w => ⟨x, w, order⟩

end

section
variable {d : Nat}

/-- The index of node `k` along axis `a`, first axis fastest, with `N + 1` nodes along each axis.
Code: meshmode/discretization/poly_element.py:567, 583, external. -/
def axisIndex (N : Nat) (a k : Nat) : Fin (N + 1) := ⟨k / (N + 1) ^ a % (N + 1), Nat.mod_lt _ (Nat.succ_pos N)⟩

/-- `mp.tensor_product_nodes`.  Code: meshmode/discretization/poly_element.py:583, 655, 678, external. -/
def tensorNodes {N : Nat} (x : Fin d → Fin (N + 1) → ℝ) (k : Fin ((N + 1) ^ d)) : Fin d → ℝ :=
  fun a => x a (axisIndex N a k)

/-- The weights of `mp.TensorProductQuadrature`.
Code: meshmode/discretization/poly_element.py:583, external. -/
def tensorWeights {N : Nat} (w : Fin d → Fin (N + 1) → ℝ) (k : Fin ((N + 1) ^ d)) : ℝ :=
  ∏ a, w a (axisIndex N a k)

theorem axis_bound (N : Nat) (a : Fin d) (i : Fin (N + 1)) : (i : Nat) * (N + 1) ^ (a : Nat) < (N + 1) ^ d := by
  calc (i : Nat) * (N + 1) ^ (a : Nat) < (N + 1) * (N + 1) ^ (a : Nat) :=
        Nat.mul_lt_mul_of_pos_right i.2 (Nat.pos_of_ne_zero (by positivity))
    _ = (N + 1) ^ ((a : Nat) + 1) := by rw [pow_succ']
    _ ≤ (N + 1) ^ d := Nat.pow_le_pow_right (Nat.succ_pos N) a.2

/-- The nodes of one axis: all other indices are 0,
meshmode/discretization/poly_element.py:564-577. -/
def axisNodes {N : Nat} (x : Fin ((N + 1) ^ d) → Fin d → ℝ) (a : Fin d) (i : Fin (N + 1)) : ℝ :=
  x ⟨i * (N + 1) ^ (a : Nat), axis_bound N a i⟩ a

/-- The weights of all axes, meshmode/discretization/poly_element.py:571-581. -/
noncomputable def axisWeights {N : Nat} (φ : Fin d → Fin (N + 1) → ℝ → ℝ)
    (x : Fin ((N + 1) ^ d) → Fin d → ℝ) (a : Fin d) : Option (Fin (N + 1) → ℝ) :=
  massWeights (φ a) (axisNodes x a)

open Classical in
/-- `TensorProductElementGroupBase.quadrature_rule`, meshmode/discretization/poly_element.py:560-586, for
`(order + 1)^dim` nodes and one-dimensional bases with `order + 1` functions (for other numbers, `reshape` or
`np.dot` raises an exception); `close`: `np.allclose` for two numbers. -/
noncomputable def tensorRule {N : Nat} (close : ℝ → ℝ → Prop) (φ : Fin d → Fin (N + 1) → ℝ → ℝ)
    (x : Fin ((N + 1) ^ d) → Fin d → ℝ) : Option (Rule (Fin d → ℝ) ((N + 1) ^ d)) :=
  if ∀ a, (axisWeights φ x a).isSome then
    if ∀ k a, close (tensorNodes (axisNodes x) k a) (x k a) then
      some ⟨tensorNodes (axisNodes x), tensorWeights fun a => (axisWeights φ x a).getD 0, N⟩
    else none
  else none

/-- `unit_nodes_1d`, meshmode/discretization/poly_element.py:588-591; for at least one axis. -/
def unitNodes1d {N : Nat} (x : Fin ((N + 1) ^ (d + 1)) → Fin (d + 1) → ℝ) (i : Fin (N + 1)) : ℝ :=
  x ⟨i, i.2.trans_le (Nat.le_self_pow (by omega) _)⟩ 0

end

/-- A basis as far as the constructor looks: its dimension and, for a `TensorProductBasis`, those of its
components. Code: meshmode/discretization/poly_element.py:523-551. -/
structure BasisDims where
  dim : Nat
  components : Option (List Nat)
  deriving DecidableEq, Repr

/-- Exceptions. Code: meshmode/discretization/poly_element.py:321-323, 448-456, 524-551. -/
inductive QuadErr where
  | valueError
  | notImplemented
  deriving DecidableEq, Repr

/-- The checks of `TensorProductElementGroupBase.__init__`, meshmode/discretization/poly_element.py:523-554;
`nodesDim`: the number of rows of `unit_nodes`. -/
def tensorInit (dim : Nat) (basis : BasisDims) (nodesDim : Nat) : Except QuadErr BasisDims :=
  if basis.dim ≠ dim then .error .valueError
  else if basis.components.any fun l => l.any (· ≠ 1) then .error .notImplemented
  else if nodesDim ≠ dim then .error .valueError
  else if basis.components.isNone then
    if basis.dim = 1 ∧ nodesDim = 1 then .ok ⟨basis.dim, some [basis.dim]⟩ else .error .valueError
  else .ok basis

section
variable {K : Type} [Field K] [LinearOrder K]

/-- `np.mean(result, axis=1).reshape(-1, 1)`, meshmode/discretization/poly_element.py:319, 349; nodes are
lists of coordinates. -/
def meanNode (dim : Nat) (nodes : List (List K)) : List (List K) :=
  [(List.range dim).map fun a => (nodes.map fun x => x.getD a 0).sum / nodes.length]

/-- `np.abs(result[d] - (-1)) < tol` for one node, meshmode/discretization/poly_element.py:354. -/
def nearMinusOne (tol : K) (a : Nat) (x : List K) : Bool := decide (|x.getD a 0 - (-1)| < tol)

/-- `_interp_nodes` of `PolynomialWarpAndBlend3DRestrictingElementGroup`,
meshmode/discretization/poly_element.py:343-359; `wb dim order`: `mp.warp_and_blend_nodes`. -/
def nodes3dRestricting (wb : Nat → Nat → List (List K)) (tol : K) (dim order : Nat) : List (List K) :=
  if order = 0 then meanNode dim (wb dim 1)
  else (((List.range 3).drop dim).foldl (fun r a => r.filter (nearMinusOne tol a)) (wb 3 order)).map
    (List.take dim)

/-- `_interp_nodes` of `PolynomialWarpAndBlend2DRestrictingElementGroup`,
meshmode/discretization/poly_element.py:313-329. -/
def nodes2dRestricting (wb : Nat → Nat → List (List K)) (dim order : Nat) : Except QuadErr (List (List K)) :=
  if order = 0 then .ok (meanNode dim (wb dim 1))
  else if dim ≥ 3 then .error .valueError
  else .ok (wb dim order)

/-- `_interp_nodes` of `PolynomialGivenNodesElementGroup`,
meshmode/discretization/poly_element.py:443-458; `rows`: number of rows of the array of nodes. -/
def givenNodes (dim nfunctions rows : Nat) (nodes : List (List K)) : Except QuadErr (List (List K)) :=
  if rows ≠ dim then .error .valueError
  else if nodes.length ≠ nfunctions then .error .valueError
  else .ok nodes

end

/-! ## Specification -/

section
variable {X : Type} {n : Nat}

/-- The functions are orthonormal in `L²(μ)`. (Specification or proof vocabulary, no code.) -/
structure OrthoBasis [MeasurableSpace X] (μ : Measure X) (φ : Fin n → X → ℝ) : Prop where
  integrable : ∀ i j, Integrable (fun x => φ i x * φ j x) μ
  orthonormal : ∀ i j, ∫ x, φ i x * φ j x ∂μ = if i = j then 1 else 0

/-- The constant function 1 is a combination of the functions.
(Specification or proof vocabulary, no code.) -/
def HasOne (φ : Fin n → X → ℝ) : Prop := ∃ e : Fin n → ℝ, ∀ x, ∑ j, e j * φ j x = 1

/-- The sum of weights times values at the nodes. (Specification or proof vocabulary, no code.) -/
def Rule.apply (r : Rule X n) (f : X → ℝ) : ℝ := ∑ i, r.weights i * f (r.nodes i)

/-! ## Proofs -/

theorem massWeights_eq {φ : Fin n → X → ℝ} {x : Fin n → X} {w : Fin n → ℝ} :
    massWeights φ x = some w ↔ (quadVdm φ x).det ≠ 0 ∧
      w = ((quadVdm φ x * (quadVdm φ x).transpose)⁻¹).mulVec fun _ => 1 := by
  have hd : (quadVdm φ x * (quadVdm φ x).transpose).det = 0 ↔ (quadVdm φ x).det = 0 := by
    rw [Matrix.det_mul, Matrix.det_transpose, mul_self_eq_zero]
  rw [massWeights, massMatrix]
  by_cases h : (quadVdm φ x).det = 0
  · rw [if_pos (hd.2 h)]
    simp [h]
  · rw [if_neg (mt hd.1 h)]
    simp [h, eq_comm]

/-- The moments of the weights of a mass matrix. -/
theorem massWeights_moment [MeasurableSpace X] {μ : Measure X} {φ : Fin n → X → ℝ}
    (hφ : OrthoBasis μ φ) (h1 : HasOne φ) {x : Fin n → X} {w : Fin n → ℝ}
    (h : massWeights φ x = some w) (j : Fin n) : ∑ i, w i * φ j (x i) = ∫ y, φ j y ∂μ := by
  obtain ⟨hdet, rfl⟩ := massWeights_eq.1 h
  obtain ⟨e, he⟩ := h1
  set V := quadVdm φ x with hV
  have hunit : IsUnit V.det := isUnit_iff_ne_zero.2 hdet
  have hunitT : IsUnit V.transpose.det := by rwa [Matrix.det_transpose]
  have hone : (fun _ : Fin n => (1 : ℝ)) = V.mulVec e := by
    funext i
    rw [← he (x i)]
    simp [Matrix.mulVec, dotProduct, hV, quadVdm, mul_comm]
  have hint : ∫ y, φ j y ∂μ = e j := by
    have : ∀ y, φ j y = ∑ k, e k * (φ k y * φ j y) := by
      intro y
      simp only [← mul_assoc, ← Finset.sum_mul, he, one_mul]
    refine (integral_congr_ae (Filter.Eventually.of_forall this)).trans ?_
    rw [integral_finsetSum _ fun k _ => (hφ.integrable k j).const_mul _]
    simp [integral_const_mul, hφ.orthonormal]
  rw [hint]
  have hs : ∑ i, (((V * V.transpose)⁻¹).mulVec fun _ => 1) i * φ j (x i) =
      (V.transpose.mulVec (((V * V.transpose)⁻¹).mulVec fun _ => 1)) j := by
    simp [Matrix.mulVec, dotProduct, hV, quadVdm, Matrix.transpose, mul_comm]
  rw [hs, hone, Matrix.mulVec_mulVec, Matrix.mulVec_mulVec, Matrix.mul_inv_rev,
    ← Matrix.mul_assoc, Matrix.mul_nonsing_inv _ hunitT, Matrix.one_mul, Matrix.nonsing_inv_mul _ hunit,
    Matrix.one_mulVec]

theorem apply_comb (r : Rule X n) {m : Nat} (φ : Fin m → X → ℝ) (c : Fin m → ℝ) :
    r.apply (fun y => ∑ j, c j * φ j y) = ∑ j, c j * ∑ i, r.weights i * φ j (r.nodes i) := by
  simp only [Rule.apply, Finset.mul_sum]
  rw [Finset.sum_comm]
  exact Finset.sum_congr rfl fun _ _ => Finset.sum_congr rfl fun _ _ => by ring

theorem basis_integrable [MeasurableSpace X] {μ : Measure X} {φ : Fin n → X → ℝ}
    (hφ : OrthoBasis μ φ) (h1 : HasOne φ) (j : Fin n) : Integrable (φ j) μ := by
  obtain ⟨e, he⟩ := h1
  have : φ j = fun y => ∑ k, e k * (φ k y * φ j y) := by
    funext y
    simp only [← mul_assoc, ← Finset.sum_mul, he, one_mul]
  rw [this]
  exact integrable_finsetSum _ fun k _ => (hφ.integrable k j).const_mul _

theorem integral_comb [MeasurableSpace X] {μ : Measure X} {φ : Fin n → X → ℝ}
    (hφ : OrthoBasis μ φ) (h1 : HasOne φ) (c : Fin n → ℝ) :
    ∫ y, ∑ j, c j * φ j y ∂μ = ∑ j, c j * ∫ y, φ j y ∂μ := by
  rw [integral_finsetSum _ fun j _ => (basis_integrable hφ h1 j).const_mul _]
  simp [integral_const_mul]

/-- C97: the rule of an interpolatory simplex group integrates exactly all functions of its space. -/
theorem C97_exact [MeasurableSpace X] {μ : Measure X} {φ : Fin n → X → ℝ}
    (hφ : OrthoBasis μ φ) (h1 : HasOne φ) {order : Nat} {x : Fin n → X} {r : Rule X n}
    (h : massRule order φ x = some r) (c : Fin n → ℝ) :
    r.apply (fun y => ∑ j, c j * φ j y) = ∫ y, ∑ j, c j * φ j y ∂μ := by
  obtain ⟨w, hw, rfl⟩ := Option.map_eq_some_iff.1 h
  rw [apply_comb, integral_comb hφ h1]
  exact Finset.sum_congr rfl fun j _ => by rw [massWeights_moment hφ h1 hw j]

/-- C97: no other weights at these nodes do so. -/
theorem C97_unique [MeasurableSpace X] {μ : Measure X} {φ : Fin n → X → ℝ}
    (hφ : OrthoBasis μ φ) (h1 : HasOne φ) {order : Nat} {x : Fin n → X} {r : Rule X n}
    (h : massRule order φ x = some r) (s : Rule X n) (hs : s.nodes = x)
    (hex : ∀ j, s.apply (φ j) = ∫ y, φ j y ∂μ) : s.weights = r.weights := by
  obtain ⟨w, hw, rfl⟩ := Option.map_eq_some_iff.1 h
  have hdet := (massWeights_eq.1 hw).1
  have hunitT : IsUnit (quadVdm φ x).transpose.det := by
    rw [Matrix.det_transpose]
    exact isUnit_iff_ne_zero.2 hdet
  have : (quadVdm φ x).transpose.mulVec s.weights = (quadVdm φ x).transpose.mulVec w := by
    funext j
    have e1 := hex j
    have e2 := massWeights_moment hφ h1 hw j
    rw [← e2, Rule.apply, hs] at e1
    simpa [Matrix.mulVec, dotProduct, quadVdm, Matrix.transpose, mul_comm] using e1
  have h2 := congrArg ((quadVdm φ x).transpose⁻¹.mulVec) this
  simpa [Matrix.mulVec_mulVec, Matrix.nonsing_inv_mul _ hunitT] using h2

/-- C97: the rule exists exactly if the nodes are unisolvent; it has the nodes of the group, and claims
exactness to its order. -/
theorem C97_defined (order : Nat) (φ : Fin n → X → ℝ) (x : Fin n → X) :
    ((∃ r, massRule order φ x = some r) ↔
      ∀ v : Fin n → ℝ, ∃! c : Fin n → ℝ, ∀ i, ∑ j, c j * φ j (x i) = v i) ∧
    ∀ r, massRule order φ x = some r → r.nodes = x ∧ r.exactTo = order := by
  constructor
  · have hsum : ∀ c : Fin n → ℝ, ∀ i, ∑ j, c j * φ j (x i) = (quadVdm φ x).mulVec c i := by
      intro c i
      simp [Matrix.mulVec, dotProduct, quadVdm, mul_comm]
    simp only [hsum, ← funext_iff]
    constructor
    · rintro ⟨r, hr⟩ v
      obtain ⟨w, hw, -⟩ := Option.map_eq_some_iff.1 hr
      have hunit : IsUnit (quadVdm φ x).det := isUnit_iff_ne_zero.2 (massWeights_eq.1 hw).1
      refine ⟨(quadVdm φ x)⁻¹.mulVec v, ?_, ?_⟩
      · simp only [Matrix.mulVec_mulVec, Matrix.mul_nonsing_inv _ hunit, Matrix.one_mulVec]
      · intro c hc
        rw [← hc, Matrix.mulVec_mulVec, Matrix.nonsing_inv_mul _ hunit, Matrix.one_mulVec]
    · intro h
      have hinj : Function.Injective (quadVdm φ x).mulVec := by
        intro c c' hcc
        exact (h _).unique hcc rfl
      have hu : IsUnit (quadVdm φ x) := Matrix.mulVec_injective_iff_isUnit.1 hinj
      have hdet : (quadVdm φ x).det ≠ 0 := ((Matrix.isUnit_iff_isUnit_det _).1 hu).ne_zero
      exact ⟨_, Option.map_eq_some_iff.2 ⟨_, massWeights_eq.2 ⟨hdet, rfl⟩, rfl⟩⟩
  · intro r hr
    obtain ⟨w, -, rfl⟩ := Option.map_eq_some_iff.1 hr
    exact ⟨rfl, rfl⟩

/-- C97: there is no rule if the number of nodes is not the number of functions. -/
theorem C97_count {m : Nat} (order : Nat) (φ : Fin m → X → ℝ) (x : Fin n → X) {r : Rule X n}
    (h : massRule order φ x = some r) : n = m := by
  obtain ⟨w, hw, -⟩ := Option.map_eq_some_iff.1 h
  rw [massWeights] at hw
  split at hw
  · simp at hw
  · split at hw
    · assumption
    · simp at hw

end

/-! ### Tensor products -/

section
variable {d N : Nat}

theorem axisIndex_equiv (f : Fin d → Fin (N + 1)) (a : Fin d) :
    axisIndex N a (finFunctionFinEquiv f : Fin ((N + 1) ^ d)) = f a := by
  have := congrFun (finFunctionFinEquiv.symm_apply_apply f) a
  exact this

theorem axisIndex_axis (a b : Fin d) (i : Fin (N + 1)) :
    axisIndex N b (i * (N + 1) ^ (a : Nat)) = if b = a then i else 0 := by
  have he : (⟨i * (N + 1) ^ (a : Nat), axis_bound N a i⟩ : Fin ((N + 1) ^ d)) =
      finFunctionFinEquiv (fun b => if b = a then i else (0 : Fin (N + 1))) := by
    apply Fin.ext
    rw [finFunctionFinEquiv_apply]
    simp only
    rw [Finset.sum_eq_single a]
    · simp
    · intro b _ hb
      simp [hb]
    · simp
  have := axisIndex_equiv (fun b => if b = a then i else (0 : Fin (N + 1))) b
  rw [← he] at this
  exact this

theorem axisNodes_tensor (x : Fin d → Fin (N + 1) → ℝ) : axisNodes (tensorNodes x) = x := by
  funext a i
  simp only [axisNodes, tensorNodes, axisIndex_axis, if_pos]

/-- Sums over all nodes are sums over all tuples of indices. -/
theorem sum_tensor (f : (Fin d → Fin (N + 1)) → ℝ) :
    ∑ k : Fin ((N + 1) ^ d), f (fun a => axisIndex N a k) = ∑ j : Fin d → Fin (N + 1), f j := by
  rw [← finFunctionFinEquiv.sum_comp]
  exact Finset.sum_congr rfl fun j _ => by congr 1; funext a; exact axisIndex_equiv j a

theorem tensorRule_eq {close : ℝ → ℝ → Prop} {φ : Fin d → Fin (N + 1) → ℝ → ℝ}
    {x : Fin ((N + 1) ^ d) → Fin d → ℝ} {r : Rule (Fin d → ℝ) ((N + 1) ^ d)} :
    tensorRule close φ x = some r ↔ ∃ w : Fin d → Fin (N + 1) → ℝ,
      (∀ a, massWeights (φ a) (axisNodes x a) = some (w a)) ∧
      (∀ k a, close (tensorNodes (axisNodes x) k a) (x k a)) ∧
      r = ⟨tensorNodes (axisNodes x), tensorWeights w, N⟩ := by
  rw [tensorRule]
  constructor
  · intro h
    split at h
    · rename_i h1
      split at h
      · rename_i h2
        simp only [Option.some.injEq] at h
        refine ⟨fun a => (axisWeights φ x a).getD 0, ?_, h2, h.symm⟩
        intro a
        obtain ⟨w, hw⟩ := Option.isSome_iff_exists.1 (h1 a)
        rw [axisWeights] at hw
        simp [axisWeights, hw]
      · simp at h
    · simp at h
  · rintro ⟨w, h1, h2, rfl⟩
    have hw : (fun a => (axisWeights φ x a).getD 0) = w := by
      funext a
      simp [axisWeights, h1 a]
    rw [if_pos fun a => by simp [axisWeights, h1 a], if_pos h2, hw]

/-- C97: the rule of a tensor product group integrates exactly all functions of the tensor product space. -/
theorem C97_tensor_exact {close : ℝ → ℝ → Prop} {μ : Fin d → Measure ℝ} [∀ a, SigmaFinite (μ a)]
    {φ : Fin d → Fin (N + 1) → ℝ → ℝ} (hφ : ∀ a, OrthoBasis (μ a) (φ a)) (h1 : ∀ a, HasOne (φ a))
    {x : Fin ((N + 1) ^ d) → Fin d → ℝ} {r : Rule (Fin d → ℝ) ((N + 1) ^ d)}
    (h : tensorRule close φ x = some r) (c : (Fin d → Fin (N + 1)) → ℝ) :
    r.apply (fun y => ∑ j, c j * ∏ a, φ a (j a) (y a)) =
      ∫ y, ∑ j, c j * ∏ a, φ a (j a) (y a) ∂Measure.pi μ := by
  obtain ⟨w, hw, -, rfl⟩ := tensorRule_eq.1 h
  have hint : ∀ j : Fin d → Fin (N + 1),
      Integrable (fun y : Fin d → ℝ => ∏ a, φ a (j a) (y a)) (Measure.pi μ) := fun j =>
    Integrable.fintype_prod fun a => basis_integrable (hφ a) (h1 a) (j a)
  rw [integral_finsetSum _ fun j _ => (hint j).const_mul _]
  simp only [integral_const_mul, integral_fintype_prod_eq_prod]
  simp only [Rule.apply, Finset.mul_sum]
  rw [Finset.sum_comm]
  apply Finset.sum_congr rfl
  intro j _
  have hmom : ∀ a, ∫ y, φ a (j a) y ∂μ a = ∑ i, w a i * φ a (j a) (axisNodes x a i) := fun a =>
    (massWeights_moment (hφ a) (h1 a) (hw a) (j a)).symm
  simp only [hmom, Finset.prod_univ_sum, Fintype.piFinset_univ, Finset.mul_sum]
  rw [← sum_tensor fun p => c j * ∏ a, w a (p a) * φ a (j a) (axisNodes x a (p a))]
  apply Finset.sum_congr rfl
  intro k _
  simp only [tensorWeights, tensorNodes, Finset.prod_mul_distrib]
  ring

/-- C97: if the nodes are the tensor product of unisolvent one-dimensional nodes, there is a rule, and its nodes
are those of the group. -/
theorem C97_tensor_defined {close : ℝ → ℝ → Prop} (hc : ∀ t, close t t) {φ : Fin d → Fin (N + 1) → ℝ → ℝ}
    (x : Fin d → Fin (N + 1) → ℝ) (hx : ∀ a, (quadVdm (φ a) (x a)).det ≠ 0) :
    ∃ r, tensorRule close φ (tensorNodes x) = some r ∧ r.nodes = tensorNodes x ∧ r.exactTo = N := by
  refine ⟨_, tensorRule_eq.2 ⟨fun a => _, fun a => massWeights_eq.2 ⟨?_, rfl⟩, ?_, rfl⟩, ?_, rfl⟩
  · rw [axisNodes_tensor]
    exact hx a
  · intro k a
    rw [axisNodes_tensor]
    exact hc _
  · simp only [axisNodes_tensor]

/-- C97: nodes that are not close to a tensor product are rejected. -/
theorem C97_tensor_rejects {close : ℝ → ℝ → Prop} {φ : Fin d → Fin (N + 1) → ℝ → ℝ}
    {x : Fin ((N + 1) ^ d) → Fin d → ℝ} {r : Rule (Fin d → ℝ) ((N + 1) ^ d)}
    (h : tensorRule close φ x = some r) :
    (∀ k a, close (r.nodes k a) (x k a)) ∧ ∃ y : Fin d → Fin (N + 1) → ℝ, r.nodes = tensorNodes y := by
  obtain ⟨w, -, h2, rfl⟩ := tensorRule_eq.1 h
  exact ⟨h2, axisNodes x, rfl⟩

/-- C97: `unit_nodes_1d` gives the one-dimensional nodes whose tensor product the nodes are. -/
theorem C97_nodes_1d (x : Fin (d + 1) → Fin (N + 1) → ℝ) (i : Fin (N + 1)) :
    unitNodes1d (tensorNodes x) i = x 0 i := by
  simp [unitNodes1d, tensorNodes, axisIndex, Nat.mod_eq_of_lt i.2]

/-- C97: the constructor accepts exactly tensor product bases of one-dimensional bases, of the dimension of the
group and of the nodes, and bases of dimension one, which it wraps. -/
theorem C97_tensor_init (dim : Nat) (basis b : BasisDims) (nodesDim : Nat) :
    tensorInit dim basis nodesDim = .ok b ↔ basis.dim = dim ∧ nodesDim = dim ∧
      ((∃ l, basis.components = some l ∧ (∀ k ∈ l, k = 1) ∧ b = basis) ∨
        (basis.components = none ∧ dim = 1 ∧ b = ⟨1, some [1]⟩)) := by
  obtain ⟨bd, comps⟩ := basis
  rw [tensorInit]
  by_cases h1 : bd = dim
  · subst h1
    rw [if_neg (by simp)]
    cases comps with
    | none =>
      rw [if_neg (by simp)]
      by_cases h2 : nodesDim = bd
      · subst h2
        rw [if_neg (by simp), if_pos (by simp)]
        by_cases h3 : nodesDim = 1
        · subst h3
          simp [eq_comm]
        · rw [if_neg (by simp [h3])]
          simp [h3]
      · rw [if_pos (by simpa using h2)]
        simp [h2]
    | some l =>
      by_cases h4 : ∀ k ∈ l, k = 1
      · rw [if_neg (by simpa using h4)]
        by_cases h2 : nodesDim = bd
        · subst h2
          rw [if_neg (by simp), if_neg (by simp)]
          simp only [reduceCtorEq, Except.ok.injEq, Option.some.injEq, exists_eq_left', true_and, false_and, or_false]
          exact ⟨fun h => ⟨h4, h.symm⟩, fun h => h.2.symm⟩
        · rw [if_pos (by simpa using h2)]
          simp [h2]
      · rw [if_pos (by simpa using h4)]
        simp [h4]
  · rw [if_pos (by simpa using h1)]
    simp [h1]

end

/-! ### Nodes -/

section
variable {K : Type} [Field K] [LinearOrder K]

theorem foldl_filter (tol : K) (l : List Nat) (nodes : List (List K)) :
    l.foldl (fun r a => r.filter (nearMinusOne tol a)) nodes =
      nodes.filter fun x => l.all fun a => nearMinusOne tol a x := by
  induction l generalizing nodes with
  | nil => simp
  | cons a l ih =>
    rw [List.foldl_cons, ih, List.filter_filter]
    congr 1
    funext x
    simp [Bool.and_comm]

/-- C97: from order 1 on, the nodes in `e` dimensions are the nodes of the restriction of the ones in `dim`
dimensions to the face on which the further coordinates are -1, in their order, for all dimensions up
to 3. -/
theorem C97_restriction (wb : Nat → Nat → List (List K)) (tol : K) {e dim order : Nat} (he : e ≤ dim)
    (hd : dim ≤ 3) (ho : order ≠ 0) :
    nodes3dRestricting wb tol e order =
      ((nodes3dRestricting wb tol dim order).filter fun x =>
        decide (∀ a, e ≤ a → a < dim → |x.getD a 0 + 1| < tol)).map (List.take e) := by
  rw [nodes3dRestricting, nodes3dRestricting, if_neg ho, if_neg ho, foldl_filter, foldl_filter,
    List.filter_map, List.map_map, List.filter_filter]
  have htake : (List.take e ∘ List.take dim : List K → List K) = List.take e := by
    funext x
    simp [List.take_take, he]
  rw [htake]
  congr 1
  apply List.filter_congr
  intro x _
  have hmem : ∀ (l a : Nat), a ∈ (List.range 3).drop l ↔ l ≤ a ∧ a < 3 := by
    intro l a
    rw [List.mem_drop_iff_getElem]
    constructor
    · rintro ⟨i, hi, rfl⟩
      simp at hi ⊢
      omega
    · rintro ⟨h1, h2⟩
      exact ⟨a - l, by simp; omega, by simp; omega⟩
  rw [Bool.eq_iff_iff]
  simp only [List.all_eq_true, hmem, nearMinusOne, decide_eq_true_eq, sub_neg_eq_add, Function.comp_apply,
    Bool.and_eq_true]
  have hget : ∀ a, a < dim → (List.take dim x).getD a 0 = x.getD a 0 := by
    intro a ha
    simp [List.getD_eq_getElem?_getD, ha]
  constructor
  · intro h
    refine ⟨fun a h1 h2 => ?_, fun a h1 => h a ⟨by omega, by omega⟩⟩
    rw [hget a h2]
    exact h a ⟨h1, by omega⟩
  · rintro ⟨h1, h2⟩ a ⟨h3, h4⟩
    by_cases h5 : a < dim
    · rw [← hget a h5]
      exact h1 a h3 h5
    · exact h2 a ⟨by omega, h4⟩

/-- C97: in 3 dimensions, the nodes of order at least 1 are the warp and blend nodes. -/
theorem C97_restriction_3d (wb : Nat → Nat → List (List K)) (tol : K) {order : Nat} (ho : order ≠ 0)
    (hw : ∀ x ∈ wb 3 order, x.length = 3) : nodes3dRestricting wb tol 3 order = wb 3 order := by
  rw [nodes3dRestricting, if_neg ho]
  simp only [List.drop_eq_nil_of_le (as := List.range 3) (i := 3) (by simp), List.foldl_nil]
  conv_rhs => rw [← List.map_id (wb 3 order)]
  apply List.map_congr_left
  intro x hx
  simp [List.take_of_length_le (hw x hx).le]

/-- C97: groups of order 0 have one node, the mean of the nodes of order 1. -/
theorem C97_order_zero (wb : Nat → Nat → List (List K)) (tol : K) (dim : Nat) :
    ∃ p : List K, nodes3dRestricting wb tol dim 0 = [p] ∧ nodes2dRestricting wb dim 0 = .ok [p] ∧
      p.length = dim ∧ ∀ a, a < dim → p.getD a 0 = ((wb dim 1).map fun x => x.getD a 0).sum / (wb dim 1).length := by
  refine ⟨_, rfl, rfl, by simp, ?_⟩
  intro a ha
  simp [List.getD_eq_getElem?_getD, ha]

omit [LinearOrder K] in
/-- C97: the two-dimensional variant gives the warp and blend nodes of the dimension, and an error for order at
least 1 in three dimensions and more. -/
theorem C97_two_dim (wb : Nat → Nat → List (List K)) {dim order : Nat} (ho : order ≠ 0) :
    (dim < 3 → nodes2dRestricting wb dim order = .ok (wb dim order)) ∧
    (3 ≤ dim → nodes2dRestricting wb dim order = .error .valueError) := by
  refine ⟨fun h => ?_, fun h => ?_⟩
  · rw [nodes2dRestricting, if_neg ho, if_neg (by omega)]
  · rw [nodes2dRestricting, if_neg ho, if_pos h]

omit [Field K] [LinearOrder K] in
/-- C97: given nodes are used as they are, if their number and dimension fit; else there is an error. -/
theorem C97_given (dim nf rows : Nat) (nodes r : List (List K)) :
    (givenNodes dim nf rows nodes = .ok r ↔ rows = dim ∧ nodes.length = nf ∧ r = nodes) ∧
    ∀ e, givenNodes dim nf rows nodes = .error e → e = .valueError := by
  rw [givenNodes]
  by_cases h1 : rows = dim
  · by_cases h2 : nodes.length = nf
    · rw [if_neg (by simpa using h1), if_neg (by simpa using h2)]
      simp [h1, h2, eq_comm]
    · rw [if_neg (by simpa using h1), if_pos (by simpa using h2)]
      simp [h1, h2, eq_comm]
  · rw [if_pos (by simpa using h1)]
    simp [h1, eq_comm]

end

/-! ### Integrals over a discretization -/

theorem ofFn_zipIdx_sum {n : Nat} (w : Fin n → ℝ) (f : Nat → ℝ) :
    (((List.ofFn w).zipIdx.map fun p => p.1 * f p.2).sum) = ∑ i : Fin n, w i * f i := by
  rw [← List.sum_ofFn]
  congr 1
  apply List.ext_getElem
  · simp
  · intro i h1 h2
    simp

/-- C97: if all groups have exact rules, the sum of `quad_weights()` times the values at the nodes of functions
in the space of each element is the sum of their integrals over the reference elements. -/
theorem C97_discretization {M : Type} {X : Type} [MeasurableSpace X] {d : ArrDiscr M ℝ}
    {q : DofObj (GroupArr ℝ)} (hq : d.quadWeights = .ok q)
    (n : Nat → Nat) (rule : ∀ k, Rule X (n k)) (hr : ∀ k g, d.groups[k]? = some g →
      g.weights = List.ofFn (rule k).weights)
    (μ : Nat → Measure X) (F : Nat → Nat → X → ℝ)
    (hF : ∀ k iel, (rule k).apply (F k iel) = ∫ y, F k iel y ∂μ k)
    (f : Nat → Nat → Nat → ℝ) (hf : ∀ k iel (i : Fin (n k)), f k iel i = F k iel ((rule k).nodes i)) :
    (q.data.zipIdx.map fun p => ((List.range p.1.nrows).flatMap fun iel =>
        (List.range p.1.ncols).map fun idof => p.1.entry iel idof * f p.2 iel idof).sum).sum =
      (d.groups.zipIdx.map fun p => ((List.range p.1.nelements).map fun iel =>
        ∫ y, F p.2 iel y ∂μ p.2).sum).sum := by
  rw [C96_quadrature hq]
  congr 1
  apply List.map_congr_left
  rintro ⟨g, k⟩ hp
  have hg : d.groups[k]? = some g := List.mem_zipIdx_iff_getElem?.1 hp
  congr 1
  apply List.map_congr_left
  intro iel _
  simp only
  rw [hr k g hg, ofFn_zipIdx_sum, ← hF k iel, Rule.apply]
  exact Finset.sum_congr rfl fun i _ => by rw [hf k iel i]

/-! ## Examples -/

/-- The orthonormal basis of the linear functions on the interval from -1 to 1. (Example, no code.) -/
noncomputable def exLegendre : Fin 2 → ℝ → ℝ := ![fun _ => √(1 / 2), fun x => √(3 / 2) * x]

/-- The length measure of the interval from -1 to 1. (Example, no code.) -/
noncomputable def exLineMeasure : Measure ℝ := volume.restrict (Set.Icc (-1) 1)

theorem exLine_integral (f : ℝ → ℝ) : ∫ x, f x ∂exLineMeasure = ∫ x in (-1 : ℝ)..1, f x := by
  rw [exLineMeasure, integral_Icc_eq_integral_Ioc, intervalIntegral.integral_of_le (by norm_num)]

theorem exLine_ortho : OrthoBasis exLineMeasure exLegendre := by
  have hs : √(1 / 2 : ℝ) * √(1 / 2) = 1 / 2 := Real.mul_self_sqrt (by norm_num)
  have ht : √(3 / 2 : ℝ) * √(3 / 2) = 3 / 2 := Real.mul_self_sqrt (by norm_num)
  refine ⟨?_, ?_⟩
  · intro i j
    have hc : ∀ i : Fin 2, Continuous (exLegendre i) := by
      intro i
      fin_cases i
      · exact continuous_const
      · exact continuous_const.mul continuous_id
    exact ((hc i).mul (hc j)).continuousOn.integrableOn_Icc
  · intro i j
    rw [exLine_integral]
    fin_cases i <;> fin_cases j
    · simp only [exLegendre, Fin.zero_eta, Matrix.cons_val_zero, hs]
      norm_num
    · have : ∀ x : ℝ, exLegendre 0 x * exLegendre 1 x = (√(1 / 2) * √(3 / 2)) * x := fun x => by
        simp [exLegendre]; ring
      simp only [Fin.zero_eta, Fin.mk_one, this]
      rw [intervalIntegral.integral_const_mul, integral_id]
      norm_num
    · have : ∀ x : ℝ, exLegendre 1 x * exLegendre 0 x = (√(1 / 2) * √(3 / 2)) * x := fun x => by
        simp [exLegendre]; ring
      simp only [Fin.zero_eta, Fin.mk_one, this]
      rw [intervalIntegral.integral_const_mul, integral_id]
      norm_num
    · have : ∀ x : ℝ, exLegendre 1 x * exLegendre 1 x = (3 / 2) * x ^ 2 := fun x => by
        simp only [exLegendre, Matrix.cons_val_one, Matrix.cons_val_fin_one]
        linear_combination (x ^ 2) * ht
      simp only [Fin.mk_one, this]
      rw [intervalIntegral.integral_const_mul, integral_pow]
      norm_num

theorem exLine_one : HasOne exLegendre := by
  refine ⟨![√2, 0], fun x => ?_⟩
  have : √2 * √(1 / 2 : ℝ) = 1 := by
    rw [← Real.sqrt_mul (by norm_num)]
    norm_num
  simp [exLegendre, Fin.sum_univ_two]

theorem exLine_det : (quadVdm exLegendre ![-1, 1]).det ≠ 0 := by
  rw [Matrix.det_fin_two]
  simp only [quadVdm, exLegendre, Matrix.cons_val_zero, Matrix.cons_val_one, Matrix.cons_val_fin_one]
  have h1 : (0 : ℝ) < √(1 / 2) := Real.sqrt_pos.2 (by norm_num)
  have h2 : (0 : ℝ) < √(3 / 2) := Real.sqrt_pos.2 (by norm_num)
  nlinarith [mul_pos h1 h2]

/-- The rule at the ends of an interval is the trapezoidal rule: the weights are 1. -/
theorem exLine_rule : ∃ r, massRule 1 exLegendre ![-1, 1] = some r ∧ r.weights = fun _ => 1 := by
  refine ⟨_, Option.map_eq_some_iff.2 ⟨_, massWeights_eq.2 ⟨exLine_det, rfl⟩, rfl⟩, ?_⟩
  symm
  refine C97_unique exLine_ortho exLine_one (order := 1) (x := ![-1, 1])
    (Option.map_eq_some_iff.2 ⟨_, massWeights_eq.2 ⟨exLine_det, rfl⟩, rfl⟩) ⟨![-1, 1], fun _ => 1, 1⟩ rfl ?_
  intro j
  rw [exLine_integral]
  fin_cases j
  · simp [Rule.apply, exLegendre]
    norm_num
  · simp only [Rule.apply, exLegendre, Fin.sum_univ_two, Fin.mk_one, Matrix.cons_val_one, Matrix.cons_val_zero,
      Matrix.cons_val_fin_one]
    rw [intervalIntegral.integral_const_mul, integral_id]
    norm_num

example : ∃ r, massRule 1 exLegendre ![-1, 1] = some r ∧ ∀ c : Fin 2 → ℝ,
    r.apply (fun y => ∑ j, c j * exLegendre j y) = ∫ y, ∑ j, c j * exLegendre j y ∂exLineMeasure := by
  obtain ⟨r, hr, -⟩ := exLine_rule
  exact ⟨r, hr, C97_exact exLine_ortho exLine_one hr⟩

/-- The corners of a square as a tensor product: there is a rule, exact for bilinear functions. -/
example : ∃ r : Rule (Fin 2 → ℝ) 4,
    tensorRule (N := 1) (d := 2) (· = ·) (fun _ => exLegendre) (tensorNodes fun _ => ![-1, 1]) = some r ∧
    r.nodes 1 = ![1, -1] ∧ ∀ c : (Fin 2 → Fin 2) → ℝ,
      r.apply (fun y => ∑ j, c j * ∏ a, exLegendre (j a) (y a)) =
        ∫ y, ∑ j, c j * ∏ a, exLegendre (j a) (y a) ∂Measure.pi fun _ => exLineMeasure := by
  obtain ⟨r, hr, hn, -⟩ := C97_tensor_defined (N := 1) (d := 2) (close := (· = ·)) (fun _ => rfl)
    (φ := fun _ => exLegendre) (fun _ => ![-1, 1]) fun _ => exLine_det
  have : SigmaFinite exLineMeasure := by unfold exLineMeasure; infer_instance
  refine ⟨r, hr, ?_, C97_tensor_exact (fun _ => exLine_ortho) (fun _ => exLine_one) hr⟩
  rw [hn]
  funext a
  fin_cases a <;> simp [tensorNodes, axisIndex]

/-- The nodes of order 1 of the tetrahedron; only three dimensions matter. (Example, no code.) -/
def exTet : Nat → Nat → List (List ℚ) := fun _ _ => [[-1, -1, -1], [1, -1, -1], [-1, 1, -1], [-1, -1, 1]]

example : nodes3dRestricting exTet (1/1000) 2 1 = [[-1, -1], [1, -1], [-1, 1]] ∧
    nodes3dRestricting exTet (1/1000) 1 1 = [[-1], [1]] ∧ nodes3dRestricting exTet (1/1000) 0 1 = [[]] ∧
    nodes3dRestricting exTet (1/1000) 3 0 = [[-1/2, -1/2, -1/2]] := by decide +kernel

example : tensorInit 2 ⟨2, some [1, 1]⟩ 2 = .ok ⟨2, some [1, 1]⟩ ∧ tensorInit 1 ⟨1, none⟩ 1 = .ok ⟨1, some [1]⟩ ∧
    tensorInit 3 ⟨3, some [2, 1]⟩ 3 = .error .notImplemented ∧ tensorInit 2 ⟨2, none⟩ 2 = .error .valueError := by
  decide

example : givenNodes (K := ℚ) 1 2 1 [[-1], [1]] = .ok [[-1], [1]] := by decide +kernel

end Meshmode
