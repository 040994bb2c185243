import Verif.Connection.PartConn
import Verif.Connection.RefineConn
import Verif.Connection.SameMesh
import Mathlib.Analysis.Real.Sqrt
import Mathlib.Analysis.Calculus.Deriv.Basic
import Mathlib.Analysis.Calculus.Deriv.Add
import Mathlib.Analysis.Calculus.Deriv.Mul
import Mathlib.Analysis.Calculus.Deriv.Pow
import Mathlib.LinearAlgebra.Matrix.NonsingularInverse
import Mathlib.LinearAlgebra.Vandermonde
import Mathlib.Analysis.InnerProductSpace.PiL2
import Mathlib.LinearAlgebra.LinearIndependent.Lemmas
import Mathlib.Tactic.LinearCombination
import Mathlib.Tactic.FieldSimp
import Mathlib.Tactic.FinCases
import Mathlib.Tactic.IntervalCases
import Mathlib.Topology.Order.IntermediateValue

/-!
# Reference nodes on the other side of a face (C95)

The numerical part of `_make_cross_face_batches`: `_find_src_unit_nodes_by_matching`,
`_find_src_unit_nodes_via_gauss_newton` and the comparison in `_find_src_unit_nodes_batches`
(meshmode/discretization/connection/opposite_face.py:48-348), over the reals.  A number that is not finite is
`none`.  The code assumes at least one element and one target node (the maximum of an empty array is an error);
there are as many basis functions as nodes (else the matrix has no inverse).
-/
namespace Meshmode

open Finset Matrix

/-! ## Model -/

/-- An element group of a boundary discretization: number of elements, number of unit nodes, unit nodes, basis
functions, their gradients, and the mean of the vertex unit coordinates.
Code: meshmode/discretization/connection/opposite_face.py:148-158, 189. -/
structure FaceGroup (d : Nat) where
  nel : Nat
  n : Nat
  nodes : Nat → Fin d → ℝ
  basis : Nat → (Fin d → ℝ) → ℝ
  grads : Nat → (Fin d → ℝ) → Fin d → ℝ
  guess : Fin d → ℝ

/-- Exceptions. Code: meshmode/discretization/connection/opposite_face.py:157, 176, 308-310. -/
inductive CrossErr where
  /-- `LinAlgError` of `la.inv` -/
  | singular
  /-- the interpolant of one is not one -/
  | assertion
  /-- `RuntimeError`: no convergence -/
  | notConverged
  deriving DecidableEq, Repr

section
variable {a d : Nat}

/-- `vdm`, meshmode/discretization/connection/opposite_face.py:156. -/
def FaceGroup.vdm (g : FaceGroup d) : Matrix (Fin g.n) (Fin g.n) ℝ :=
  Matrix.of fun i j => g.basis j (g.nodes i)

/-- `intp_coeffs` and `dintp_coeffs` from the values at a point of the basis functions or of their derivatives,
meshmode/discretization/connection/opposite_face.py:157, 171, 195-196. -/
noncomputable def FaceGroup.coeffs (g : FaceGroup d) (y : Fin g.n → ℝ) : Fin g.n → ℝ := (g.vdmᵀ)⁻¹ *ᵥ y

/-- `apply_map` at one point of one element with the nodes `src`,
meshmode/discretization/connection/opposite_face.py:161-180. -/
noncomputable def applyMap (g : FaceGroup d) (src : Nat → Fin a → ℝ) (u : Fin d → ℝ) (k : Fin a) : ℝ :=
  ∑ f : Fin g.n, g.coeffs (fun j => g.basis j u) f * src f k

/-- The sum compared with one, meshmode/discretization/connection/opposite_face.py:174. -/
noncomputable def coeffSum (g : FaceGroup d) (u : Fin d → ℝ) : ℝ :=
  ∑ f : Fin g.n, g.coeffs (fun j => g.basis j u) f

/-- `get_map_jacobian` at one point of one element,
meshmode/discretization/connection/opposite_face.py:182-198. -/
noncomputable def mapJac (g : FaceGroup d) (src : Nat → Fin a → ℝ) (u : Fin d → ℝ) (r : Fin d) (k : Fin a) : ℝ :=
  ∑ f : Fin g.n, g.coeffs (fun j => g.grads j u r) f * src f k

/-- `ata`, meshmode/discretization/connection/opposite_face.py:258, 265. -/
def ata (J : Fin d → Fin a → ℝ) (i j : Fin d) : ℝ := ∑ k, J i k * J j k

/-- `atb`, meshmode/discretization/connection/opposite_face.py:259, 266. -/
def atb (J : Fin d → Fin a → ℝ) (r : Fin a → ℝ) (i : Fin d) : ℝ := ∑ k, J i k * r k

/-- `df_inv_resid` at one point, meshmode/discretization/connection/opposite_face.py:255-284.  `none` for a
division by zero; `lstsq` is `la.lstsq(df.T, resid)[0]`. -/
noncomputable def gnStep (lstsq : ∀ d, (Fin d → Fin a → ℝ) → (Fin a → ℝ) → Fin d → ℝ) :
    (d : Nat) → (Fin d → Fin a → ℝ) → (Fin a → ℝ) → Option (Fin d → ℝ)
  | 1, J, r => if ata J 0 0 = 0 then none else some fun _ => atb J r 0 / ata J 0 0
  | 2, J, r =>
    let det := ata J 0 0 * ata J 1 1 - ata J 0 1 * ata J 1 0
    if det = 0 then none
    else some ![1 / det * (ata J 1 1 * atb J r 0 - ata J 1 0 * atb J r 1),
      1 / det * (-ata J 0 1 * atb J r 0 + ata J 0 0 * atb J r 1)]
  | d, J, r => some (lstsq d J r)

/-- One round: `resid` at one point, meshmode/discretization/connection/opposite_face.py:246. -/
noncomputable def residAt (g : FaceGroup d) (src : Nat → Fin a → ℝ) (tgt : Fin a → ℝ) (u : Fin d → ℝ) :
    Fin a → ℝ := fun k => applyMap g src u k - tgt k

/-- The `while` loop, meshmode/discretization/connection/opposite_face.py:244-310, with `fuel` rounds left;
`u e q` are the unit nodes for element `e` and target node `q`. -/
noncomputable def newtonLoop (lstsq : ∀ d, (Fin d → Fin a → ℝ) → (Fin a → ℝ) → Fin d → ℝ) (g : FaceGroup d)
    (tol : ℝ) (ne nt : Nat) (tgt : Nat → Nat → Fin a → ℝ) (src : Nat → Nat → Fin a → ℝ) :
    Nat → (Nat → Nat → Option (Fin d → ℝ)) → Except CrossErr (Nat → Nat → Option (Fin d → ℝ))
  | 0, _ => .error .notConverged
  | fuel + 1, u =>
    open Classical in
    if ∀ e < ne, ∀ q < nt, ∃ v, u e q = some v ∧ |coeffSum g v - 1| < tol then
      let new := fun e q => (u e q).bind fun v =>
        (gnStep lstsq d (mapJac g (src e) v) (residAt g (src e) (tgt e q) v)).map fun δ => v - δ
      if ∀ e < ne, ∀ q < nt, ∀ k, |residAt g (src e) (tgt e q) ((u e q).getD 0) k| < tol then .ok new
      else newtonLoop lstsq g tol ne nt tgt src fuel new
    else .error .assertion

/-- `_find_src_unit_nodes_via_gauss_newton`, meshmode/discretization/connection/opposite_face.py:142-312: at most
eleven rounds. -/
noncomputable def gaussNewton (lstsq : ∀ d, (Fin d → Fin a → ℝ) → (Fin a → ℝ) → Fin d → ℝ) (g : FaceGroup d)
    (tol : ℝ) (ne nt : Nat) (tgt : Nat → Nat → Fin a → ℝ) (src : Nat → Nat → Fin a → ℝ) :
    Except CrossErr (Nat → Nat → Option (Fin d → ℝ)) :=
  open Classical in
  if g.vdm.det = 0 then .error .singular
  else newtonLoop lstsq g tol ne nt tgt src 11 fun _ _ => some g.guess

/-- `is_close`, meshmode/discretization/connection/opposite_face.py:115-119. -/
noncomputable def nearNodes (tol : ℝ) (x y : Fin a → ℝ) : Bool :=
  open Classical in decide (Real.sqrt (∑ k, (x k - y k) ^ 2) < tol)

/-- Matching and Gauss-Newton, meshmode/discretization/connection/opposite_face.py:81-93, 109-135. -/
noncomputable def findUnitNodes (lstsq : ∀ d, (Fin d → Fin a → ℝ) → (Fin a → ℝ) → Fin d → ℝ) (g : FaceGroup d)
    (tol : ℝ) (ne nt : Nat) (tgt : Nat → Nat → Fin a → ℝ) (src : Nat → Nat → Fin a → ℝ) :
    Except CrossErr (Nat → Nat → Option (Fin d → ℝ)) :=
  match (List.range ne).mapM fun e => matchNodes nt g.n fun q f => nearNodes tol (tgt e q) (src e f) with
  | some p => .ok fun e q => some (g.nodes ((p.getD e []).getD q 0))
  | none => gaussNewton lstsq g tol ne nt tgt src

/-- The unit nodes and `unit_node_dist < tol`, meshmode/discretization/connection/opposite_face.py:54-60, 81-100,
326-339: `none` for an exception.  For points there is nothing to find. -/
noncomputable def crossNodes (lstsq : ∀ d, (Fin d → Fin a → ℝ) → (Fin a → ℝ) → Fin d → ℝ) (g : FaceGroup d)
    (tol : ℝ) (ne nt : Nat) (tgt : Nat → Nat → Fin a → ℝ) (src : Nat → Nat → Fin a → ℝ) :
    Option (CrossNodes (List (Fin d → ℝ))) :=
  if d = 0 then some { unit := fun _ => (List.range g.n).map g.nodes, close := fun _ _ => true }
  else match findUnitNodes lstsq g tol ne nt tgt src with
    | .error _ => none
    | .ok U => some {
        unit := fun e => (List.range nt).map fun q => (U e q).getD 0
        close := fun t e => open Classical in
          decide (∀ q < nt, ∃ x y, U t q = some x ∧ U e q = some y ∧ ∀ k, |y k - x k| < tol) }

/-- A boundary discretization: its groups, and the position of unit node `q` of element `e` of group `i`.
Code: meshmode/discretization/connection/opposite_face.py:69-77. -/
structure BdryDiscr (a d : Nat) where
  groups : List (FaceGroup d)
  pos : Nat → Nat → Nat → Fin a → ℝ

/-- The call in `make_opposite_face_connection`: the affine map of the adjacency group moves the target nodes,
meshmode/discretization/connection/opposite_face.py:69-77, 509-515. -/
noncomputable def crossOpposite {A : Type} (lstsq : ∀ d, (Fin d → Fin a → ℝ) → (Fin a → ℝ) → Fin d → ℝ) (tol : ℝ)
    (move : A → (Fin a → ℝ) → Fin a → ℝ) (D : BdryDiscr a d) (iSrc iTgt : Nat) (aff : A)
    (pairs : List (Nat × Nat)) : Option (CrossNodes (List (Fin d → ℝ))) := do
  let g ← D.groups[iSrc]?
  let tg ← D.groups[iTgt]?
  crossNodes lstsq g tol pairs.length tg.n (fun e q => move aff (D.pos iTgt (pairs.getD e (0, 0)).1 q))
    fun e f => D.pos iSrc (pairs.getD e (0, 0)).2 f

/-- The call in `make_partition_connection`: the affine map of the remote adjacency group moves the source nodes,
meshmode/discretization/connection/opposite_face.py:69-77, 623-628. -/
noncomputable def crossPart {A : Type} (lstsq : ∀ d, (Fin d → Fin a → ℝ) → (Fin a → ℝ) → Fin d → ℝ) (tol : ℝ)
    (move : A → (Fin a → ℝ) → Fin a → ℝ) (T S : BdryDiscr a d) (iSrc iTgt : Nat) (aff : A)
    (pairs : List (Nat × Nat)) : Option (CrossNodes (List (Fin d → ℝ))) := do
  let g ← S.groups[iSrc]?
  let tg ← T.groups[iTgt]?
  crossNodes lstsq g tol pairs.length tg.n (fun e q => T.pos iTgt (pairs.getD e (0, 0)).1 q)
    fun e f => move aff (S.pos iSrc (pairs.getD e (0, 0)).2 f)

/-- A group as the connection sees it. Code: meshmode/discretization/connection/opposite_face.py:519-525. -/
def FaceGroup.toS (g : FaceGroup d) : SGroup ℝ (Fin d → ℝ) :=
  ⟨true, g.nel, (List.range g.n).map g.nodes, (List.range g.n).map g.basis⟩

/-! ## Specification -/

/-- The coordinates of `X` are combinations of the basis functions.
(Specification or proof vocabulary, no code.) -/
def Spans (g : FaceGroup d) (X : (Fin d → ℝ) → Fin a → ℝ) : Prop :=
  ∃ c : Fin a → Fin g.n → ℝ, ∀ u k, X u k = ∑ j : Fin g.n, c k j * g.basis j u

/-- `J r k` is the derivative of coordinate `k` of `X` along axis `r`.
(Specification or proof vocabulary, no code.) -/
def HasJacobian (X : (Fin d → ℝ) → Fin a → ℝ) (u : Fin d → ℝ) (J : Fin d → Fin a → ℝ) : Prop :=
  ∀ r k, HasDerivAt (fun s : ℝ => X (Function.update u r (u r + s)) k) (J r k) 0

/-- `grads` are the derivatives of the basis functions. (Specification or proof vocabulary, no code.) -/
def GradsOK (g : FaceGroup d) : Prop :=
  ∀ (j : Nat) (u : Fin d → ℝ) r, HasDerivAt (fun s : ℝ => g.basis j (Function.update u r (u r + s))) (g.grads j u r) 0

/-- `δ` minimizes `|Σ δ_j J_j - r|`, in the form of the normal equations.
(Specification or proof vocabulary, no code.) -/
def NormalEq (J : Fin d → Fin a → ℝ) (r : Fin a → ℝ) (δ : Fin d → ℝ) : Prop :=
  ∀ i, ∑ k, J i k * (∑ j, δ j * J j k - r k) = 0

/-- What is asked of `la.lstsq`. (Specification or proof vocabulary, no code.) -/
def LstsqSound (lstsq : ∀ d, (Fin d → Fin a → ℝ) → (Fin a → ℝ) → Fin d → ℝ) : Prop :=
  ∀ d J r, NormalEq J r (lstsq d J r)

/-- How a reference point `w` on a face with parametrization `X` is found for the point `x`: a unit node at
distance less than `tol`, or a point `v` that maps to within `tol` of `x` in each coordinate, moved by the
least-squares correction for what remains. (Specification or proof vocabulary, no code.) -/
def LocatedAt (g : FaceGroup d) (X : (Fin d → ℝ) → Fin a → ℝ) (tol : ℝ) (x : Fin a → ℝ) (w : Fin d → ℝ) : Prop :=
  (∃ f < g.n, w = g.nodes f ∧ Real.sqrt (∑ k, (x k - X w k) ^ 2) < tol) ∨
  ∃ v δ J, HasJacobian X v J ∧ (∀ k, |X v k - x k| < tol) ∧ NormalEq J (fun k => X v k - x k) δ ∧ w = v - δ

/-- A point that is found is the same up to `τ` in each coordinate. (Specification or proof vocabulary, no code.) -/
def FindNear (τ : ℝ) (find : List (Fin d → ℝ) → List (Fin d → ℝ) → List (Option Nat)) : Prop :=
  ∀ src tgt, List.Forall₂ (fun x r => ∀ j, r = some j → ∃ y, tgt[j]? = some y ∧ ∀ k, |y k - x k| ≤ τ)
    src (find src tgt)

/-! ## Lemmas -/

theorem coeffs_dot (g : FaceGroup d) (hV : g.vdm.det ≠ 0) (y c : Fin g.n → ℝ) :
    ∑ f : Fin g.n, g.coeffs y f * (∑ j : Fin g.n, c j * g.basis j (g.nodes f)) = ∑ j, c j * y j := by
  have h1 : (fun f : Fin g.n => ∑ j : Fin g.n, c j * g.basis j (g.nodes f)) = g.vdm *ᵥ c := by
    funext f
    simp [FaceGroup.vdm, Matrix.mulVec, dotProduct, mul_comm]
  have h2 : ∑ f : Fin g.n, g.coeffs y f * (∑ j : Fin g.n, c j * g.basis j (g.nodes f)) =
      g.coeffs y ⬝ᵥ (g.vdm *ᵥ c) := by
    rw [← h1]
    rfl
  have hu : IsUnit (g.vdmᵀ).det := by
    rw [Matrix.det_transpose]
    exact isUnit_iff_ne_zero.2 hV
  rw [h2, Matrix.dotProduct_mulVec, ← Matrix.mulVec_transpose, FaceGroup.coeffs, Matrix.mulVec_mulVec,
    Matrix.mul_nonsing_inv _ hu, Matrix.one_mulVec]
  simp [dotProduct, mul_comm]

theorem applyMap_span {g : FaceGroup d} (hV : g.vdm.det ≠ 0) {X : (Fin d → ℝ) → Fin a → ℝ}
    {c : Fin a → Fin g.n → ℝ} (hX : ∀ u k, X u k = ∑ j : Fin g.n, c k j * g.basis j u)
    {src : Nat → Fin a → ℝ} (hs : ∀ f < g.n, X (g.nodes f) = src f) (u : Fin d → ℝ) (k : Fin a) :
    applyMap g src u k = X u k := by
  have := coeffs_dot g hV (fun j => g.basis j u) (c k)
  rw [hX, ← this]
  unfold applyMap
  refine Finset.sum_congr rfl fun f _ => ?_
  rw [← hX, hs f f.2]

theorem mapJac_span {g : FaceGroup d} (hV : g.vdm.det ≠ 0) {X : (Fin d → ℝ) → Fin a → ℝ}
    {c : Fin a → Fin g.n → ℝ} (hX : ∀ u k, X u k = ∑ j : Fin g.n, c k j * g.basis j u)
    {src : Nat → Fin a → ℝ} (hs : ∀ f < g.n, X (g.nodes f) = src f) (u : Fin d → ℝ) (r : Fin d) (k : Fin a) :
    mapJac g src u r k = ∑ j : Fin g.n, c k j * g.grads j u r := by
  have := coeffs_dot g hV (fun j => g.grads j u r) (c k)
  rw [← this]
  unfold mapJac
  refine Finset.sum_congr rfl fun f _ => ?_
  rw [← hX, hs f f.2]

theorem sum_swap (δ : Fin d → ℝ) (J : Fin d → Fin a → ℝ) (z : Fin a → ℝ) :
    ∑ k, (∑ i, δ i * J i k) * z k = ∑ i, δ i * ∑ k, J i k * z k := by
  simp only [Finset.sum_mul, Finset.mul_sum]
  rw [Finset.sum_comm]
  refine Finset.sum_congr rfl fun _ _ => Finset.sum_congr rfl fun _ _ => ?_
  ring

theorem ata_comm (J : Fin d → Fin a → ℝ) (i j : Fin d) : ata J i j = ata J j i :=
  Finset.sum_congr rfl fun _ _ => mul_comm _ _

theorem normalEq_iff {J : Fin d → Fin a → ℝ} {r : Fin a → ℝ} {δ : Fin d → ℝ} :
    NormalEq J r δ ↔ ∀ i, ∑ j, δ j * ata J i j = atb J r i := by
  unfold NormalEq
  refine forall_congr' fun i => ?_
  have : ∑ k, J i k * (∑ j, δ j * J j k - r k) = ∑ j, δ j * ata J i j - atb J r i := by
    simp only [mul_sub, Finset.sum_sub_distrib, ata, atb, Finset.mul_sum]
    rw [Finset.sum_comm]
    congr 1
    refine Finset.sum_congr rfl fun _ _ => Finset.sum_congr rfl fun _ _ => ?_
    ring
  rw [this, sub_eq_zero]

theorem gnStep_normal {lstsq : ∀ d, (Fin d → Fin a → ℝ) → (Fin a → ℝ) → Fin d → ℝ} (hl : LstsqSound lstsq)
    {J : Fin d → Fin a → ℝ} {r : Fin a → ℝ} {δ : Fin d → ℝ} (h : gnStep lstsq d J r = some δ) :
    NormalEq J r δ := by
  match d, J, δ, h with
  | 0, J, δ, h => intro i; exact i.elim0
  | 1, J, δ, h =>
    rw [normalEq_iff]
    simp only [gnStep] at h
    split at h
    · simp at h
    · rename_i hne
      obtain rfl := Option.some.inj h
      intro i
      have : i = 0 := Subsingleton.elim _ _
      subst this
      simp only [Fin.sum_univ_one]
      field_simp
  | 2, J, δ, h =>
    rw [normalEq_iff]
    simp only [gnStep] at h
    split at h
    · simp at h
    · rename_i hne
      obtain rfl := Option.some.inj h
      have hs := ata_comm J 0 1
      intro i
      rw [hs] at hne
      rw [hs]
      obtain ⟨D, hD⟩ : ∃ D, D = ata J 0 0 * ata J 1 1 - ata J 1 0 * ata J 1 0 := ⟨_, rfl⟩
      rw [← hD] at hne ⊢
      have hinv : 1 / D * D = 1 := one_div_mul_cancel hne
      fin_cases i
      · simp only [Fin.sum_univ_two, Fin.zero_eta, Fin.isValue, cons_val_zero, cons_val_one, hs]
        linear_combination atb J r 0 * hinv - 1 / D * atb J r 0 * hD
      · simp only [Fin.sum_univ_two, Fin.mk_one, Fin.isValue, cons_val_zero, cons_val_one]
        linear_combination atb J r 1 * hinv - 1 / D * atb J r 1 * hD
  | d + 3, J, δ, h =>
    simp only [gnStep] at h
    obtain rfl := Option.some.inj h
    exact hl _ _ _

/-- The normal equations have one solution if the rows are independent. -/
theorem normalEq_unique {J : Fin d → Fin a → ℝ} (hi : LinearIndependent ℝ J) {r : Fin a → ℝ} {δ δ' : Fin d → ℝ}
    (h : NormalEq J r δ) (h' : NormalEq J r δ') : δ = δ' := by
  have h1 : ∀ i, ∑ k, J i k * (∑ j, (δ j - δ' j) * J j k) = 0 := by
    intro i
    have := congrArg₂ (· - ·) (h i) (h' i)
    simp only [sub_zero, ← Finset.sum_sub_distrib] at this
    rw [← this]
    refine Finset.sum_congr rfl fun k _ => ?_
    simp only [sub_mul, Finset.sum_sub_distrib]
    ring
  have h2 : ∑ k, (∑ j, (δ j - δ' j) * J j k) ^ 2 = 0 := by
    have := sum_swap (fun j => δ j - δ' j) J fun k => ∑ j, (δ j - δ' j) * J j k
    simp only [pow_two]
    rw [this]
    exact Finset.sum_eq_zero fun i _ => by rw [h1 i, mul_zero]
  have h3 : ∑ j, (δ j - δ' j) • J j = 0 := by
    funext k
    have := (Finset.sum_eq_zero_iff_of_nonneg fun k _ => sq_nonneg _).1 h2 k (Finset.mem_univ _)
    simpa using this
  have h4 := Fintype.linearIndependent_iff.1 hi _ h3
  funext j
  linarith [h4 j]

theorem gnStep_defined {lstsq : ∀ d, (Fin d → Fin a → ℝ) → (Fin a → ℝ) → Fin d → ℝ}
    {J : Fin d → Fin a → ℝ} (hi : LinearIndependent ℝ J) (r : Fin a → ℝ) : ∃ δ, gnStep lstsq d J r = some δ := by
  match d, J, hi with
  | 0, J, hi => exact ⟨_, rfl⟩
  | 1, J, hi =>
    simp only [gnStep]
    rw [if_neg]
    · exact ⟨_, rfl⟩
    · intro h0
      have h1 : ∀ k, J 0 k = 0 := by
        intro k
        have := (Finset.sum_eq_zero_iff_of_nonneg fun k _ => mul_self_nonneg (J 0 k)).1 h0 k (Finset.mem_univ _)
        simpa using this
      exact hi.ne_zero 0 (funext h1)
  | 2, J, hi =>
    simp only [gnStep]
    rw [if_neg]
    · exact ⟨_, rfl⟩
    · intro h0
      have hsq : ∑ k, (ata J 1 1 * J 0 k - ata J 0 1 * J 1 k) ^ 2 = 0 := by
        have : ∑ k, (ata J 1 1 * J 0 k - ata J 0 1 * J 1 k) ^ 2 =
            ata J 1 1 ^ 2 * ata J 0 0 - 2 * (ata J 1 1 * ata J 0 1) * ata J 0 1 + ata J 0 1 ^ 2 * ata J 1 1 := by
          have hAB : ∀ A B : ℝ, ∑ k, (A * J 0 k - B * J 1 k) ^ 2 =
              A ^ 2 * ata J 0 0 - 2 * (A * B) * ata J 0 1 + B ^ 2 * ata J 1 1 := by
            intro A B
            simp only [ata, Finset.mul_sum, ← Finset.sum_sub_distrib, ← Finset.sum_add_distrib]
            refine Finset.sum_congr rfl fun k _ => ?_
            ring
          exact hAB _ _
        rw [this]
        have hs := ata_comm J 1 0
        rw [hs] at h0
        linear_combination ata J 1 1 * h0
      have h2 : ata J 1 1 • J 0 + (-ata J 0 1) • J 1 = 0 := by
        funext k
        have := (Finset.sum_eq_zero_iff_of_nonneg fun k _ => sq_nonneg _).1 hsq k (Finset.mem_univ _)
        have h3 : ata J 1 1 * J 0 k - ata J 0 1 * J 1 k = 0 := by simpa using this
        simp only [Pi.add_apply, Pi.smul_apply, smul_eq_mul, Pi.zero_apply]
        linarith
      have h4 := Fintype.linearIndependent_iff.1 hi ![ata J 1 1, -ata J 0 1] (by simpa [Fin.sum_univ_two] using h2) 0
      have h5 : ata J 1 1 = 0 := by simpa using h4
      have h1 : ∀ k, J 1 k = 0 := by
        intro k
        have := (Finset.sum_eq_zero_iff_of_nonneg fun k _ => mul_self_nonneg (J 1 k)).1 h5 k (Finset.mem_univ _)
        simpa using this
      exact hi.ne_zero 1 (funext h1)
  | d + 3, J, hi => exact ⟨_, rfl⟩

/-- A least-squares correction does not make a residual larger. -/
theorem normalEq_contracts {J : Fin d → Fin a → ℝ} {r : Fin a → ℝ} {δ : Fin d → ℝ} (h : NormalEq J r δ) :
    ∑ k, (r k - ∑ j, δ j * J j k) ^ 2 ≤ ∑ k, r k ^ 2 := by
  have h1 : ∑ k, (∑ j, δ j * J j k) * (∑ j, δ j * J j k - r k) = 0 := by
    have := sum_swap δ J fun k => ∑ j, δ j * J j k - r k
    rw [this]
    exact Finset.sum_eq_zero fun i _ => by rw [h i, mul_zero]
  have h2 : ∑ k, r k ^ 2 = ∑ k, (r k - ∑ j, δ j * J j k) ^ 2 + ∑ k, (∑ j, δ j * J j k) ^ 2 -
      2 * ∑ k, (∑ j, δ j * J j k) * (∑ j, δ j * J j k - r k) := by
    rw [Finset.mul_sum, ← Finset.sum_add_distrib, ← Finset.sum_sub_distrib]
    refine Finset.sum_congr rfl fun k _ => ?_
    ring
  rw [h2, h1]
  have := Finset.sum_nonneg fun k (_ : k ∈ Finset.univ) => sq_nonneg (∑ j, δ j * J j k)
  linarith


theorem newtonLoop_ok {lstsq : ∀ d, (Fin d → Fin a → ℝ) → (Fin a → ℝ) → Fin d → ℝ} {g : FaceGroup d} {tol : ℝ}
    {ne nt : Nat} {tgt src : Nat → Nat → Fin a → ℝ} {fuel : Nat} {u U : Nat → Nat → Option (Fin d → ℝ)}
    (h : newtonLoop lstsq g tol ne nt tgt src fuel u = .ok U) {e q : Nat} (he : e < ne) (hq : q < nt) :
    ∃ v, |coeffSum g v - 1| < tol ∧ (∀ k, |applyMap g (src e) v k - tgt e q k| < tol) ∧
      U e q = (gnStep lstsq d (mapJac g (src e) v) (residAt g (src e) (tgt e q) v)).map fun δ => v - δ := by
  induction fuel generalizing u with
  | zero => simp [newtonLoop] at h
  | succ fuel ih =>
    rw [newtonLoop] at h
    split at h
    · rename_i h1
      simp only at h
      split at h
      · rename_i h2
        obtain ⟨v, h3, h4⟩ := h1 e he q hq
        have h5 := h2 e he q hq
        rw [h3] at h5
        refine ⟨v, h4, h5, ?_⟩
        injection h with h
        rw [← h]
        simp only [h3, Option.bind_some]
      · exact ih h
    · simp at h

theorem gaussNewton_det {lstsq : ∀ d, (Fin d → Fin a → ℝ) → (Fin a → ℝ) → Fin d → ℝ} {g : FaceGroup d} {tol : ℝ}
    {ne nt : Nat} {tgt src : Nat → Nat → Fin a → ℝ} {U : Nat → Nat → Option (Fin d → ℝ)}
    (h : gaussNewton lstsq g tol ne nt tgt src = .ok U) : g.vdm.det ≠ 0 ∧
      newtonLoop lstsq g tol ne nt tgt src 11 (fun _ _ => some g.guess) = .ok U := by
  unfold gaussNewton at h
  split at h
  · simp at h
  · rename_i hne
    exact ⟨hne, h⟩

/-! ## Properties -/

/-- C95: `apply_map` is the parametrization of the face: the only combination of the basis functions with the given
nodes. -/
theorem C95_map {g : FaceGroup d} (hV : g.vdm.det ≠ 0) {X : (Fin d → ℝ) → Fin a → ℝ} (hX : Spans g X)
    {src : Nat → Fin a → ℝ} (hs : ∀ f < g.n, X (g.nodes f) = src f) (u : Fin d → ℝ) :
    applyMap g src u = X u := by
  obtain ⟨c, hc⟩ := hX
  funext k
  exact applyMap_span hV hc hs u k

/-- C95: `get_map_jacobian` gives its derivatives. -/
theorem C95_jacobian {g : FaceGroup d} (hV : g.vdm.det ≠ 0) (hg : GradsOK g) {X : (Fin d → ℝ) → Fin a → ℝ}
    (hX : Spans g X) {src : Nat → Fin a → ℝ} (hs : ∀ f < g.n, X (g.nodes f) = src f) (u : Fin d → ℝ) :
    HasJacobian X u (mapJac g src u) := by
  obtain ⟨c, hc⟩ := hX
  intro r k
  rw [mapJac_span hV hc hs]
  simp only [hc]
  exact HasDerivAt.fun_sum fun j _ => (hg j u r).const_mul (c k j)

/-- C95: where the reference nodes are, for source faces with parametrizations `X e`: every node that is a number is
a unit node near the target node, or a point that maps to it up to the tolerance followed by one more correction. -/
theorem C95_found {lstsq : ∀ d, (Fin d → Fin a → ℝ) → (Fin a → ℝ) → Fin d → ℝ} (hl : LstsqSound lstsq)
    {g : FaceGroup d} (hg : GradsOK g) {tol : ℝ} {ne nt : Nat} {tgt src : Nat → Nat → Fin a → ℝ}
    {U : Nat → Nat → Option (Fin d → ℝ)} (h : findUnitNodes lstsq g tol ne nt tgt src = .ok U)
    {e q : Nat} (he : e < ne) (hq : q < nt) {X : (Fin d → ℝ) → Fin a → ℝ} (hX : Spans g X)
    (hs : ∀ f < g.n, X (g.nodes f) = src e f) {w : Fin d → ℝ} (hw : U e q = some w) :
    LocatedAt g X tol (tgt e q) w := by
  unfold findUnitNodes at h
  split at h
  · rename_i p hp
    left
    injection h with h
    rw [← h] at hw
    simp only [Option.some.injEq] at hw
    obtain ⟨_, h2⟩ := mapM_getElem?_some hp
    obtain ⟨pe, h3, h4⟩ := h2 e e (List.getElem?_range he)
    obtain ⟨h5, h6⟩ := C30_matching h4
    have h7 : pe[q]? = some (pe[q]'(by omega)) := List.getElem?_eq_getElem (by omega)
    obtain ⟨h8, h9, _⟩ := h6 q _ h7
    rw [List.getD_eq_getElem?_getD (l := p), h3, Option.getD_some, List.getD_eq_getElem?_getD, h7,
      Option.getD_some] at hw
    refine ⟨_, h8, hw.symm, ?_⟩
    rw [← hw, hs _ h8]
    simpa [nearNodes] using h9
  · right
    obtain ⟨hV, hN⟩ := gaussNewton_det h
    obtain ⟨v, _, h2, h3⟩ := newtonLoop_ok hN he hq
    rw [hw] at h3
    obtain ⟨δ, h4, h5⟩ := Option.map_eq_some_iff.1 h3.symm
    have hmap := C95_map hV hX hs v
    have hres : residAt g (src e) (tgt e q) v = fun k => X v k - tgt e q k := by
      funext k
      simp only [residAt, hmap]
    refine ⟨v, δ, _, C95_jacobian hV hg hX hs v, ?_, ?_, h5.symm⟩
    · intro k
      rw [← hmap]
      exact h2 k
    · rw [← hres]
      exact gnStep_normal hl h4

/-- C95: how far the point found may be from the target, in the Euclidean norm: the tolerance, times the root of the
number of coordinates, and the error of the linear approximation in the last correction. -/
theorem C95_correction {X : (Fin d → ℝ) → Fin a → ℝ} {v δ : Fin d → ℝ} {J : Fin d → Fin a → ℝ} {tol : ℝ}
    {x : Fin a → ℝ} (h0 : 0 ≤ tol) (hr : ∀ k, |X v k - x k| < tol) (hn : NormalEq J (fun k => X v k - x k) δ) :
    Real.sqrt (∑ k, (X (v - δ) k - x k) ^ 2) ≤ Real.sqrt a * tol +
      Real.sqrt (∑ k, (X (v - δ) k - (X v k - ∑ j, δ j * J j k)) ^ 2) := by
  have hc := normalEq_contracts hn
  have h1 : ∑ k, (X v k - x k) ^ 2 ≤ a * tol ^ 2 := by
    have : ∑ _k : Fin a, tol ^ 2 = a * tol ^ 2 := by simp
    rw [← this]
    refine Finset.sum_le_sum fun k _ => ?_
    rw [← sq_abs]
    exact pow_le_pow_left₀ (abs_nonneg _) (hr k).le 2
  have h2 : Real.sqrt (∑ k, (X v k - x k - ∑ j, δ j * J j k) ^ 2) ≤ Real.sqrt a * tol := by
    refine (Real.sqrt_le_sqrt (hc.trans h1)).trans ?_
    rw [Real.sqrt_mul (by positivity), Real.sqrt_sq h0]
  have h3 := norm_add_le (WithLp.toLp 2 fun k => X v k - x k - ∑ j, δ j * J j k : EuclideanSpace ℝ (Fin a))
    (WithLp.toLp 2 fun k => X (v - δ) k - (X v k - ∑ j, δ j * J j k))
  simp only [EuclideanSpace.norm_eq, Real.norm_eq_abs, sq_abs, PiLp.add_apply] at h3
  have h4 : ∀ k, X v k - x k - ∑ j, δ j * J j k + (X (v - δ) k - (X v k - ∑ j, δ j * J j k)) =
      X (v - δ) k - x k := fun k => by ring
  simp only [h4] at h3
  linarith

/-- A face is straight: its parametrization is affine, with independent directions.
(Specification or proof vocabulary, no code.) -/
structure StraightFace (X : (Fin d → ℝ) → Fin a → ℝ) (b : Fin a → ℝ) (E : Fin d → Fin a → ℝ) : Prop where
  affine : ∀ u k, X u k = b k + ∑ j, u j * E j k
  indep : LinearIndependent ℝ E

theorem StraightFace.jacobian {X : (Fin d → ℝ) → Fin a → ℝ} {b : Fin a → ℝ} {E : Fin d → Fin a → ℝ}
    (h : StraightFace X b E) {u : Fin d → ℝ} {J : Fin d → Fin a → ℝ} (hJ : HasJacobian X u J) : J = E := by
  funext r k
  have h1 : HasDerivAt (fun s : ℝ => X (Function.update u r (u r + s)) k) (E r k) 0 := by
    have h2 : (fun s : ℝ => X (Function.update u r (u r + s)) k) = fun s => X u k + s * E r k := by
      funext s
      rw [h.affine, h.affine]
      have : ∀ j, Function.update u r (u r + s) j * E j k = u j * E j k + if j = r then s * E j k else 0 := by
        intro j
        by_cases hj : j = r
        · subst hj
          simp
          ring
        · simp [hj]
      simp only [this, Finset.sum_add_distrib, Finset.sum_ite_eq', Finset.mem_univ, if_true]
      ring
    rw [h2]
    simpa using ((hasDerivAt_id (0 : ℝ)).mul_const (E r k)).const_add (X u k)
  exact (hJ r k).unique h1

/-- C95: on a straight face, the point found maps to the target up to the tolerance, times the root of the number of
coordinates. -/
theorem C95_straight_error_partial {g : FaceGroup d} {X : (Fin d → ℝ) → Fin a → ℝ} {b : Fin a → ℝ} {E : Fin d → Fin a → ℝ}
    (hX : StraightFace X b E) (ha : 0 < a) {tol : ℝ} (h0 : 0 ≤ tol) {x : Fin a → ℝ} {w : Fin d → ℝ}
    (h : LocatedAt g X tol x w) : Real.sqrt (∑ k, (X w k - x k) ^ 2) ≤ Real.sqrt a * tol := by
  rcases h with ⟨f, _, rfl, h⟩ | ⟨v, δ, J, hJ, h1, h2, rfl⟩
  · have h1 : ∑ k, (X (g.nodes f) k - x k) ^ 2 = ∑ k, (x k - X (g.nodes f) k) ^ 2 :=
      Finset.sum_congr rfl fun k _ => by ring
    rw [h1]
    refine h.le.trans ?_
    have : (1 : ℝ) ≤ Real.sqrt a := by
      rw [Real.one_le_sqrt]
      exact_mod_cast ha
    nlinarith
  · have := hX.jacobian hJ
    subst this
    have h3 := C95_correction h0 h1 h2
    have h4 : ∀ k, X (v - δ) k - (X v k - ∑ j, δ j * J j k) = 0 := by
      intro k
      rw [hX.affine, hX.affine]
      simp only [Pi.sub_apply, sub_mul, Finset.sum_sub_distrib]
      ring
    simp only [h4] at h3
    simpa using h3

/-- C95: on straight faces, for target nodes on them, the Gauss-Newton iteration ends, after at most two rounds, with
the reference points of the target nodes exactly. -/
theorem C95_straight {lstsq : ∀ d, (Fin d → Fin a → ℝ) → (Fin a → ℝ) → Fin d → ℝ} (hl : LstsqSound lstsq)
    {g : FaceGroup d} (hV : g.vdm.det ≠ 0) (hg : GradsOK g) {tol : ℝ} (htol : 0 < tol) {ne nt : Nat}
    {tgt src : Nat → Nat → Fin a → ℝ} (hone : Spans (a := 1) g fun _ _ => 1)
    {X : Nat → (Fin d → ℝ) → Fin a → ℝ} {b : Nat → Fin a → ℝ} {E : Nat → Fin d → Fin a → ℝ}
    (hX : ∀ e < ne, Spans g (X e) ∧ StraightFace (X e) (b e) (E e) ∧ ∀ f < g.n, X e (g.nodes f) = src e f)
    {w : Nat → Nat → Fin d → ℝ} (hw : ∀ e < ne, ∀ q < nt, tgt e q = X e (w e q)) :
    ∃ U, gaussNewton lstsq g tol ne nt tgt src = .ok U ∧ ∀ e < ne, ∀ q < nt, U e q = some (w e q) := by
  have hsum : ∀ u, coeffSum g u = 1 := by
    intro u
    have := C95_map hV hone (src := fun _ _ => 1) (fun _ _ => rfl) u
    have h1 := congrFun this 0
    simpa [applyMap, coeffSum] using h1
  have hstep : ∀ e < ne, ∀ q < nt, ∀ v, (gnStep lstsq d (mapJac g (src e) v)
      (residAt g (src e) (tgt e q) v)).map (fun δ => v - δ) = some (w e q) := by
    intro e he q hq v
    obtain ⟨h1, h2, h3⟩ := hX e he
    have hJ : mapJac g (src e) v = E e := h2.jacobian (C95_jacobian hV hg h1 h3 v)
    obtain ⟨δ, hδ⟩ := gnStep_defined (lstsq := lstsq) h2.indep (residAt g (src e) (tgt e q) v)
    rw [hJ, hδ]
    have hn := gnStep_normal hl hδ
    have hn' : NormalEq (E e) (residAt g (src e) (tgt e q) v) (v - w e q) := by
      intro i
      refine Finset.sum_eq_zero fun k _ => ?_
      simp only [residAt, C95_map hV h1 h3, hw e he q hq, h2.affine, Pi.sub_apply, sub_mul,
        Finset.sum_sub_distrib]
      ring
    rw [normalEq_unique h2.indep hn hn']
    simp
  have hlast : ∀ fuel (u : Nat → Nat → Option (Fin d → ℝ)), (∀ e < ne, ∀ q < nt, u e q = some (w e q)) →
      ∃ U, newtonLoop lstsq g tol ne nt tgt src (fuel + 1) u = .ok U ∧
        ∀ e < ne, ∀ q < nt, U e q = some (w e q) := by
    intro fuel u hu
    rw [newtonLoop, if_pos, if_pos]
    · refine ⟨_, rfl, ?_⟩
      intro e he q hq
      simp only [hu e he q hq, Option.bind_some]
      exact hstep e he q hq _
    · intro e he q hq k
      obtain ⟨h1, h2, h3⟩ := hX e he
      rw [hu e he q hq]
      simp [residAt, C95_map hV h1 h3, hw e he q hq, htol]
    · intro e he q hq
      exact ⟨_, hu e he q hq, by simp [hsum, htol]⟩
  unfold gaussNewton
  rw [if_neg hV, newtonLoop, if_pos]
  · simp only
    split
    · refine ⟨_, rfl, ?_⟩
      intro e he q hq
      simp only [Option.bind_some]
      exact hstep e he q hq _
    · refine hlast 9 _ ?_
      intro e he q hq
      simp only [Option.bind_some]
      exact hstep e he q hq _
  · intro e he q hq
    exact ⟨_, rfl, by simp [hsum, htol]⟩

/-- Picking gives a unit node near the point. -/
theorem pickIndices_near {find : List (Fin d → ℝ) → List (Fin d → ℝ) → List (Option Nat)} {τ : ℝ} (hf : FindNear τ find)
    {g : SGroup ℝ (Fin d → ℝ)} {nodes : List (Fin d → ℝ)} {I : List Nat} (h : pickIndices find g nodes = some I)
    {i : Nat} {x : Fin d → ℝ} (hx : nodes[i]? = some x) :
    ∃ y, g.nodes[I.getD i 0]? = some y ∧ ∀ k, |y k - x k| ≤ τ := by
  have hF := hf nodes g.nodes
  unfold pickIndices at h
  obtain ⟨hl, h2⟩ := mapM_getElem?_some h
  have hlen := hF.length_eq
  have hi := (List.getElem?_eq_some_iff.1 hx).1
  have hr : (find nodes g.nodes)[i]? = some ((find nodes g.nodes)[i]'(by omega)) :=
    List.getElem?_eq_getElem (by omega)
  obtain ⟨j, hj, hj'⟩ := h2 i _ hr
  have := (List.forall₂_iff_get.1 hF).2 i hi (by omega)
  simp only [List.get_eq_getElem] at this
  have hx' : nodes[i] = x := (List.getElem?_eq_some_iff.1 hx).2
  rw [hx'] at this
  rw [List.getD_eq_getElem?_getD, hj, Option.getD_some]
  exact this j hj'

/-- The value a connection gives on an element of one batch. -/
theorem exchange_value {find : List (Fin d → ℝ) → List (Fin d → ℝ) → List (Option Nat)}
    {resample : List ((Fin d → ℝ) → ℝ) → List (Fin d → ℝ) → List (Fin d → ℝ) → Option (Mat ℝ)} {τ : ℝ}
    (h0 : 0 ≤ τ) (hf : FindNear τ find) (hr : ResampleSound resample) {F T : List (SGroup ℝ (Fin d → ℝ))}
    {gs : List (List (Batch (List (Fin d → ℝ))))} {sj merge : Bool} {ary u : DofArr ℝ}
    (hc : (SameConn.direct F T gs sj).call find resample merge ary = .ok u) {i : Nat}
    {bs : List (Batch (List (Fin d → ℝ)))} (hbs : gs[i]? = some bs)
    (hval : ∀ b ∈ bs, b.toEls.length = b.fromEls.length ∧ ∃ g, F[b.fromGroup]? = some g ∧
      (∀ f ∈ b.fromEls, f < g.nel) ∧ g.nodes.length ≠ 0)
    (hnd : (bs.flatMap Batch.toEls).Nodup) {b : Batch (List (Fin d → ℝ))} (hb : b ∈ bs) {t s : Nat}
    (hts : (t, s) ∈ b.toEls.zip b.fromEls) {q : Nat} {v : Fin d → ℝ} (hv : b.nodes[q]? = some v)
    {g : SGroup ℝ (Fin d → ℝ)} (hg : F[b.fromGroup]? = some g) :
    ∃ x, (∀ k, |x k - v k| ≤ τ) ∧ ∀ c, HasValues g c (ary b.fromGroup s) → u i t q = evalAt g.basis c x := by
  obtain ⟨herr, hcall⟩ := same_noerr hc
  have hgc := call_getElem hcall hbs
  have hsrc : b.source t = some s := by
    unfold Batch.source
    apply lookup_of_nodup
    · rw [List.map_reverse, List.nodup_reverse, List.map_fst_zip (by rw [(hval b hb).1])]
      exact (List.nodup_flatMap.1 hnd).1 b hb
    · simpa using hts
  have hval' : u i t q = batchEval (F.map (SGroup.toDGroup find resample)) ary b t q := by
    rw [groupCall_batchSum _ hgc t q, sum_one_batch hnd hb (List.of_mem_zip hts).1]
    intro b' hb'
    obtain ⟨_, g', h1, h2, h3⟩ := hval b' hb'
    exact ⟨g'.toDGroup find resample, by simp [h1], h2, fun _ => h3⟩
  have hberr := herr bs (List.mem_of_getElem? hbs) b hb
  have hemp : b.fromEls.isEmpty = false := by
    have := (List.of_mem_zip hts).2
    cases hbe : b.fromEls with
    | nil => simp [hbe] at this
    | cons => rfl
  have hgD : (F.map (SGroup.toDGroup find resample))[b.fromGroup]? = some (g.toDGroup find resample) := by
    rw [List.getElem?_map, hg]
    rfl
  unfold batchErr at hberr
  simp only [hemp, hg] at hberr
  rw [hval']
  unfold batchEval
  simp only [hsrc, hgD]
  simp only [SGroup.toDGroup]
  cases hp : pickIndices find g b.nodes with
  | some I =>
    obtain ⟨y, h1, h2⟩ := pickIndices_near hf hp hv
    exact ⟨y, h2, fun c hc => hc.2 _ _ h1⟩
  | none =>
    rw [hp] at hberr
    cases hM : resampleMatrix resample g b.nodes with
    | error e => simp [hM] at hberr
    | ok M => exact ⟨v, fun k => by simpa using h0, fun c hc => resample_exact hr hM hc hv⟩

/-- What the unit nodes of a batch are, from the comparison with the template. -/
theorem crossNodes_close {lstsq : ∀ d, (Fin d → Fin a → ℝ) → (Fin a → ℝ) → Fin d → ℝ} (hl : LstsqSound lstsq)
    (hd : 0 < d) {g : FaceGroup d} (hg : GradsOK g) {tol : ℝ} {ne nt : Nat} {tgt src : Nat → Nat → Fin a → ℝ}
    {cn : CrossNodes (List (Fin d → ℝ))} (h : crossNodes lstsq g tol ne nt tgt src = some cn) {tmpl e : Nat}
    (hc : cn.close tmpl e = true) (he : e < ne) {q : Nat} (hq : q < nt) {X : (Fin d → ℝ) → Fin a → ℝ}
    (hX : Spans g X) (hs : ∀ f < g.n, X (g.nodes f) = src e f) :
    ∃ v w, (cn.unit tmpl)[q]? = some v ∧ LocatedAt g X tol (tgt e q) w ∧ ∀ k, |v k - w k| < tol := by
  unfold crossNodes at h
  rw [if_neg (by omega)] at h
  split at h
  · simp at h
  · rename_i U hU
    obtain rfl := Option.some.inj h
    simp only [decide_eq_true_eq] at hc
    obtain ⟨x, y, h1, h2, h3⟩ := hc q hq
    refine ⟨x, y, ?_, C95_found hl hg hU he hq hX hs h2, ?_⟩
    · simp [List.getElem?_map, List.getElem?_range hq, h1]
    · intro k
      rw [abs_sub_comm]
      exact h3 k

/-- Point `f` of `n` points is the only one at distance less than `tol` from `x`.
(Specification or proof vocabulary, no code.) -/
def OneNear (n : Nat) (tol : ℝ) (x : Fin a → ℝ) (pts : Nat → Fin a → ℝ) (f : Nat) : Prop :=
  f < n ∧ Real.sqrt (∑ k, (x k - pts f k) ^ 2) < tol ∧
    ∀ f' < n, Real.sqrt (∑ k, (x k - pts f' k) ^ 2) < tol → f' = f

theorem range_filter_one {n : Nat} {P : Nat → Bool} {s : Nat} (hs : s < n) (h1 : P s = true)
    (h2 : ∀ s' < n, P s' = true → s' = s) : (List.range n).filter P = [s] := by
  have hnd : ((List.range n).filter P).Nodup := List.nodup_range.filter _
  have hp : ((List.range n).filter P).Perm [s] := by
    rw [List.perm_ext_iff_of_nodup hnd (by simp)]
    intro s'
    simp only [List.mem_filter, List.mem_range, List.mem_singleton]
    exact ⟨fun h => h2 _ h.1 h.2, fun h => by subst h; exact ⟨hs, h1⟩⟩
  exact List.perm_singleton.1 hp

/-- When all target nodes are near one source node, matching succeeds. -/
theorem findUnitNodes_matched {lstsq : ∀ d, (Fin d → Fin a → ℝ) → (Fin a → ℝ) → Fin d → ℝ} {g : FaceGroup d}
    {tol : ℝ} {ne nt : Nat} {tgt src : Nat → Nat → Fin a → ℝ}
    (h : ∀ e < ne, ∀ q < nt, ∃ f, OneNear g.n tol (tgt e q) (src e) f) :
    ∃ U, findUnitNodes lstsq g tol ne nt tgt src = .ok U ∧
      ∀ e < ne, ∀ q < nt, ∃ f, OneNear g.n tol (tgt e q) (src e) f ∧ U e q = some (g.nodes f) := by
  have hm : ∀ e ∈ List.range ne, ∃ p, matchNodes nt g.n (fun q f => nearNodes tol (tgt e q) (src e f)) = some p := by
    intro e he
    have hone : ∀ q ∈ List.range nt, ∃ f, (match (List.range g.n).filter fun f => nearNodes tol (tgt e q) (src e f) with
        | [s] => some s
        | _ => none) = some f := by
      intro q hq
      obtain ⟨f, h1, h2, h3⟩ := h e (List.mem_range.1 he) q (List.mem_range.1 hq)
      rw [range_filter_one h1 (by simpa [nearNodes] using h2) (by
        intro s' hs' h4
        exact h3 s' hs' (by simpa [nearNodes] using h4))]
      exact ⟨f, rfl⟩
    choose! F hF using hone
    exact ⟨_, mapM_some_eq_map hF⟩
  choose! Pm hPm using hm
  have hp := mapM_some_eq_map hPm
  refine ⟨_, by rw [findUnitNodes, hp], ?_⟩
  intro e he q hq
  have h1 := hPm e (List.mem_range.2 he)
  obtain ⟨h2, h3⟩ := C30_matching h1
  have h4 : (Pm e)[q]? = some ((Pm e)[q]'(by omega)) := List.getElem?_eq_getElem (by omega)
  obtain ⟨h5, h6, h7⟩ := h3 q _ h4
  refine ⟨(Pm e)[q]'(by omega), ⟨h5, by simpa [nearNodes] using h6, ?_⟩, ?_⟩
  · intro f' hf' hn
    exact h7 f' hf' (by simpa [nearNodes] using hn)
  · simp only [List.getD_eq_getElem?_getD, List.getElem?_map, List.getElem?_range he, Option.map_some,
      Option.getD_some, h4]

theorem crossNodes_matched_defined {lstsq : ∀ d, (Fin d → Fin a → ℝ) → (Fin a → ℝ) → Fin d → ℝ} {g : FaceGroup d}
    {tol : ℝ} (htol : 0 < tol) {ne nt : Nat} {tgt src : Nat → Nat → Fin a → ℝ}
    (h : ∀ e < ne, ∀ q < nt, ∃ f, OneNear g.n tol (tgt e q) (src e) f) :
    ∃ cn, crossNodes lstsq g tol ne nt tgt src = some cn ∧ ∀ e < ne, cn.close e e = true := by
  unfold crossNodes
  by_cases hd : d = 0
  · rw [if_pos hd]
    exact ⟨_, rfl, fun _ _ => rfl⟩
  · rw [if_neg hd]
    obtain ⟨U, h1, h2⟩ := findUnitNodes_matched (lstsq := lstsq) h
    rw [h1]
    refine ⟨_, rfl, ?_⟩
    intro e he
    simp only [decide_eq_true_eq]
    intro q hq
    obtain ⟨f, _, h3⟩ := h2 e he q hq
    exact ⟨_, _, h3, h3, fun k => by simpa using htol⟩

theorem crossNodes_matched {lstsq : ∀ d, (Fin d → Fin a → ℝ) → (Fin a → ℝ) → Fin d → ℝ}
    (hd : 0 < d) {g : FaceGroup d} {tol : ℝ}
    (hsep : ∀ f < g.n, ∀ f' < g.n, (∀ k, |g.nodes f k - g.nodes f' k| < tol) → f = f')
    {ne nt : Nat} {tgt src : Nat → Nat → Fin a → ℝ}
    {cn : CrossNodes (List (Fin d → ℝ))} (hcn : crossNodes lstsq g tol ne nt tgt src = some cn)
    (h : ∀ e < ne, ∀ q < nt, ∃ f, OneNear g.n tol (tgt e q) (src e) f) {tmpl e : Nat}
    (hc : cn.close tmpl e = true) (he : e < ne) (ht : tmpl < ne) {q : Nat} (hq : q < nt) :
    ∃ f, OneNear g.n tol (tgt e q) (src e) f ∧ (cn.unit tmpl)[q]? = some (g.nodes f) := by
  unfold crossNodes at hcn
  rw [if_neg (by omega)] at hcn
  obtain ⟨U, h1, h2⟩ := findUnitNodes_matched (lstsq := lstsq) h
  rw [h1] at hcn
  obtain rfl := Option.some.inj hcn
  simp only [decide_eq_true_eq] at hc
  obtain ⟨x, y, h3, h4, h5⟩ := hc q hq
  obtain ⟨f, hf1, hf2⟩ := h2 e he q hq
  obtain ⟨f', hf1', hf2'⟩ := h2 tmpl ht q hq
  rw [hf2'] at h3
  rw [hf2] at h4
  obtain rfl := Option.some.inj h3
  obtain rfl := Option.some.inj h4
  have := hsep f hf1.1 f' hf1'.1 h5
  subst this
  exact ⟨f, hf1, by simp [List.getElem?_map, List.getElem?_range hq, hf2']⟩

/-- Then the unit nodes of a batch are found among those of the source group. -/
theorem pick_matched {lstsq : ∀ d, (Fin d → Fin a → ℝ) → (Fin a → ℝ) → Fin d → ℝ}
    (hd : 0 < d) {g : FaceGroup d} {tol : ℝ}
    (hsep : ∀ f < g.n, ∀ f' < g.n, (∀ k, |g.nodes f k - g.nodes f' k| < tol) → f = f')
    {ne nt : Nat} {tgt src : Nat → Nat → Fin a → ℝ}
    {cn : CrossNodes (List (Fin d → ℝ))} (hcn : crossNodes lstsq g tol ne nt tgt src = some cn)
    (h : ∀ e < ne, ∀ q < nt, ∃ f, OneNear g.n tol (tgt e q) (src e) f) {tmpl e : Nat}
    (hc : cn.close tmpl e = true) (he : e < ne) (ht : tmpl < ne)
    {find : List (Fin d → ℝ) → List (Fin d → ℝ) → List (Option Nat)}
    (hf : ∀ src tgt, (∀ x ∈ src, x ∈ tgt) → none ∉ find src tgt) :
    ∃ I, pickIndices find g.toS (cn.unit tmpl) = some I := by
  have hul : (cn.unit tmpl).length = nt := by
    have hcn' := hcn
    unfold crossNodes at hcn'
    rw [if_neg (by omega)] at hcn'
    split at hcn'
    · simp at hcn'
    · obtain rfl := Option.some.inj hcn'
      simp
  have hin : ∀ x ∈ cn.unit tmpl, x ∈ g.toS.nodes := by
    intro x hx
    obtain ⟨q, hq⟩ := List.mem_iff_getElem?.1 hx
    have hql := (List.getElem?_eq_some_iff.1 hq).1
    obtain ⟨q', hq1, hq2⟩ := crossNodes_matched hd hsep hcn h hc he ht (q := q) (by omega)
    rw [hq] at hq2
    obtain rfl := Option.some.inj hq2
    exact List.mem_map.2 ⟨q', List.mem_range.2 hq1.1, rfl⟩
  have hsome := hf _ _ hin
  have : ∀ r ∈ find (cn.unit tmpl) g.toS.nodes, ∃ k : Nat, id r = some k := by
    intro r hr
    cases r with
    | none => exact absurd hr hsome
    | some k => exact ⟨k, rfl⟩
  choose! F hF using this
  exact ⟨_, mapM_some_eq_map hF⟩

/-- A connection with few batches evaluates if no batch needs a matrix that does not exist. -/
theorem direct_call_defined {F T : List (SGroup ℝ (Fin d → ℝ))} {gs : List (List (Batch (List (Fin d → ℝ))))}
    {find : List (Fin d → ℝ) → List (Fin d → ℝ) → List (Option Nat)}
    {resample : List ((Fin d → ℝ) → ℝ) → List (Fin d → ℝ) → List (Fin d → ℝ) → Option (Mat ℝ)}
    (h : ∀ (i : Nat) bs, gs[i]? = some bs → ∀ b ∈ bs, batchErr find resample F b = none)
    (hfew : ∀ bs ∈ gs, bs.length ≤ 128) (sj merge : Bool) (ary : DofArr ℝ) :
    ∃ u, (SameConn.direct F T gs sj).call find resample merge ary = .ok u := by
  have hnone : (gs.findSome? fun bs => bs.findSome? (batchErr find resample F)) = none := by
    rw [List.findSome?_eq_none_iff]
    intro bs hbs
    rw [List.findSome?_eq_none_iff]
    intro b hb
    obtain ⟨i, hi⟩ := List.mem_iff_getElem?.1 hbs
    exact h i bs hi b hb
  obtain ⟨u, hu⟩ := C23_evaluates_few (c := ⟨F.map (SGroup.toDGroup find resample),
    T.map (SGroup.toDGroup find resample), gs, sj⟩) merge ary hfew
  refine ⟨u, ?_⟩
  simp only [SameConn.call, hnone, hu]

section opp
variable {N M A : Type}

theorem opposite_core {lstsq : ∀ d, (Fin d → Fin a → ℝ) → (Fin a → ℝ) → Fin d → ℝ}
    {un : Nat → Nat → List (Fin d → ℝ)} {res : Nat → Nat → N → M}
    {nv : Nat} {groups : List (ElGroup N)} {fags : List (List (Fag A))}
    {r : FaceRestr M (List (Fin d → ℝ))} (h : makeFaceRestriction false un res .interior nv groups fags = some r)
    (hnf : ∀ g ∈ groups, 0 < g.nfaces) (ok : InteriorOK groups fags) {tol : ℝ}
    {move : A → (Fin a → ℝ) → Fin a → ℝ} {D : BdryDiscr a d} {opp : List (List (Batch (List (Fin d → ℝ))))}
    (hopp : makeOpposite (crossOpposite lstsq tol move D) (groups.map ElGroup.nfaces) fags r.batches = some opp)
    (hD : ∀ (j : Nat) g, D.groups[j]? = some g → g.nel = (interiorOrigins groups fags j).length ∧ 0 < g.n)
    {find : List (Fin d → ℝ) → List (Fin d → ℝ) → List (Option Nat)}
    {resample : List ((Fin d → ℝ) → ℝ) → List (Fin d → ℝ) → List (Fin d → ℝ) → Option (Mat ℝ)} {τ : ℝ}
    (h0 : 0 ≤ τ) (hf : FindNear τ find) (hr : ResampleSound resample) {sj merge : Bool} {ary u : DofArr ℝ}
    (hc : (SameConn.direct (D.groups.map FaceGroup.toS) (D.groups.map FaceGroup.toS) opp sj).call find resample merge
      ary = .ok u)
    {i t el f : Nat} (ht : (interiorOrigins groups fags i)[t]? = some ⟨el, f⟩) {q : Nat}
    {Loc : FaceGroup d → Nat → Nat → A → (Fin d → ℝ) → Prop}
    (hloc : ∀ (j : Nat) g aff pairs cn tmpl (e : Nat) s, D.groups[j]? = some g →
      crossOpposite lstsq tol move D j i aff pairs = some cn → (∀ p ∈ pairs, AdjPair groups fags i j aff p) →
      pairs[e]? = some (t, s) → cn.close tmpl e = true → tmpl < pairs.length →
      ∃ v, (cn.unit tmpl)[q]? = some v ∧ Loc g j s aff v) :
    ∃ fg ig j rows aff el' f' s g, fags[i]? = some fg ∧ Fag.interior ig j rows aff ∈ fg ∧ ⟨el, f, el', f'⟩ ∈ rows ∧
      (interiorOrigins groups fags j)[s]? = some ⟨el', f'⟩ ∧ D.groups[j]? = some g ∧
      ∃ v x, Loc g j s aff v ∧ (∀ k, |x k - v k| ≤ τ) ∧
        ∀ c, HasValues g.toS c (ary j s) → u i t q = evalAt g.toS.basis c x := by
  obtain ⟨hol, hmv⟩ := C29_moves h hnf ok hopp
  obtain ⟨hol2, hone⟩ := makeOpposite_groups hopp
  obtain ⟨hc1, hc2⟩ := C27_group_count h ok.len (fun _ => hnf)
  have hbl : r.batches.length = groups.length := by rw [hc2, hc1]; simp
  obtain ⟨j0, el0, f0, hac⟩ := ((interiorOrigins_props ok i).2 el f).2 (List.mem_of_getElem? ht)
  have hi' : i < groups.length := by
    obtain ⟨grp, h1, _⟩ := ok.valid _ _ _ _ _ _ hac
    exact (List.getElem?_eq_some_iff.1 h1).1
  have hbs : opp[i]? = some (opp[i]'(by omega)) := List.getElem?_eq_getElem (by omega)
  generalize (opp[i]'(by omega)) = bs at hbs
  obtain ⟨⟨els, _, hperm⟩, hiff⟩ := hmv i bs hbs
  have hg := List.getElem?_eq_getElem hi'
  have hfg := List.getElem?_eq_getElem (ok.len ▸ hi' : i < fags.length)
  have hFD : fags.getD i [] = fags[i]'(ok.len ▸ hi') := by rw [List.getD_eq_getElem?_getD, hfg]; rfl
  have hN : (groups.map ElGroup.nfaces).getD i 0 = groups[i].nfaces := by
    rw [List.getD_eq_getElem?_getD, List.getElem?_map, hg]; rfl
  have hog := hone i bs hbs
  rw [hFD, hN] at hog
  obtain ⟨_, hQ⟩ := oppGroup_moves h hnf ok hg hfg hog
  -- the batch
  have hm0 := getElem?_idxOf' (((interiorOrigins_props ok j0).2 _ _).1 ⟨_, _, _, ok.symm _ _ _ _ _ _ hac⟩)
  obtain ⟨b, hb, hbm⟩ := List.mem_flatMap.1 ((hiff t j0 _).2 ⟨el, f, el0, f0, hac, ht, hm0⟩)
  obtain ⟨⟨t', s⟩, hz, hzeq⟩ := List.mem_map.1 hbm
  simp only [Prod.mk.injEq] at hzeq
  obtain ⟨rfl, _, _⟩ := hzeq
  -- all batches are valid
  have hsrc : ∀ b' ∈ bs, ∃ g, D.groups[b'.fromGroup]? = some g := by
    intro b' hb'
    obtain ⟨_, _, cn, tmpl, aff, pairs, h2, _⟩ := hQ b' hb'
    unfold crossOpposite at h2
    cases hgg : D.groups[b'.fromGroup]? with
    | none => simp [hgg] at h2
    | some g => exact ⟨g, rfl⟩
  have hval : ∀ b' ∈ bs, b'.toEls.length = b'.fromEls.length ∧
      ∃ g, (D.groups.map FaceGroup.toS)[b'.fromGroup]? = some g ∧ (∀ f ∈ b'.fromEls, f < g.nel) ∧
        g.nodes.length ≠ 0 := by
    intro b' hb'
    have hlen := (hQ b' hb').1
    obtain ⟨g, hgg⟩ := hsrc b' hb'
    obtain ⟨h1, h2⟩ := hD _ _ hgg
    refine ⟨hlen, g.toS, by simp [hgg], ?_, ?_⟩
    · intro s' hs'
      obtain ⟨k, hk⟩ := List.mem_iff_getElem?.1 hs'
      have hkl := (List.getElem?_eq_some_iff.1 hk).1
      have hzz : (b'.toEls[k]'(by omega), s') ∈ b'.toEls.zip b'.fromEls :=
        List.mem_of_getElem? (i := k) (List.getElem?_zip_eq_some.2 ⟨List.getElem?_eq_getElem (by omega), hk⟩)
      obtain ⟨_, _, _, _, _, _, h5⟩ := (hiff _ _ _).1 (List.mem_flatMap.2 ⟨b', hb', List.mem_map.2 ⟨_, hzz, rfl⟩⟩)
      have := (List.getElem?_eq_some_iff.1 h5).1
      simp only [FaceGroup.toS]
      omega
    · simp only [FaceGroup.toS, List.length_map, List.length_range]
      omega
  have hnd : (bs.flatMap Batch.toEls).Nodup := hperm.nodup_iff.2 List.nodup_range
  -- the nodes
  obtain ⟨_, _, cn, tmpl, aff, pairs, hcross, htm, hun, hprow, hpairs⟩ := hQ b hb
  obtain ⟨g, hgg⟩ := hsrc b hb
  obtain ⟨e, he1, he2⟩ := hpairs _ hz
  obtain ⟨fg, ig, rows, row, hfg', hfag, hrow, ht2, hs2⟩ := hprow _ (List.mem_of_getElem? he1)
  rw [ht] at ht2
  simp only [Option.some.injEq, ElFace.mk.injEq] at ht2
  obtain ⟨rfl, rfl⟩ := ht2
  obtain ⟨v, hv, hw⟩ := hloc _ g aff pairs cn tmpl e s hgg hcross hprow he1 he2 htm
  rw [← hun] at hv
  obtain ⟨x, hx1, hx2⟩ := exchange_value h0 hf hr hc hbs hval hnd hb hz hv (g := g.toS) (by simp [hgg])
  exact ⟨_, ig, b.fromGroup, rows, aff, row.nel, row.nface, s, g, hfg', hfag, hrow, hs2, hgg, v, x, hw, hx1, hx2⟩

/-- C95: exchange across the interior faces of a mesh, end to end.  For each node of each boundary element, there is
the element on the other side, with its adjacency group and affine map; a reference point `w` found for the moved
node; and a reference point `x` near it, such that for data that are the values of a function of the space on the
source element, the result is the value of this function at `x`. -/
theorem C95_opposite {lstsq : ∀ d, (Fin d → Fin a → ℝ) → (Fin a → ℝ) → Fin d → ℝ} (hl : LstsqSound lstsq)
    (hd : 0 < d) {un : Nat → Nat → List (Fin d → ℝ)} {res : Nat → Nat → N → M}
    {nv : Nat} {groups : List (ElGroup N)} {fags : List (List (Fag A))}
    {r : FaceRestr M (List (Fin d → ℝ))} (h : makeFaceRestriction false un res .interior nv groups fags = some r)
    (hnf : ∀ g ∈ groups, 0 < g.nfaces) (ok : InteriorOK groups fags) {tol : ℝ}
    {move : A → (Fin a → ℝ) → Fin a → ℝ} {D : BdryDiscr a d} {opp : List (List (Batch (List (Fin d → ℝ))))}
    (hopp : makeOpposite (crossOpposite lstsq tol move D) (groups.map ElGroup.nfaces) fags r.batches = some opp)
    (hD : ∀ (j : Nat) g, D.groups[j]? = some g → g.nel = (interiorOrigins groups fags j).length ∧ 0 < g.n ∧ GradsOK g)
    {X : Nat → Nat → (Fin d → ℝ) → Fin a → ℝ}
    (hX : ∀ (j : Nat) g s, D.groups[j]? = some g → s < g.nel →
      Spans g (X j s) ∧ ∀ f < g.n, X j s (g.nodes f) = D.pos j s f)
    {find : List (Fin d → ℝ) → List (Fin d → ℝ) → List (Option Nat)}
    {resample : List ((Fin d → ℝ) → ℝ) → List (Fin d → ℝ) → List (Fin d → ℝ) → Option (Mat ℝ)} {τ : ℝ}
    (h0 : 0 ≤ τ) (hf : FindNear τ find) (hr : ResampleSound resample) {sj merge : Bool} {ary u : DofArr ℝ}
    (hc : (SameConn.direct (D.groups.map FaceGroup.toS) (D.groups.map FaceGroup.toS) opp sj).call find resample merge
      ary = .ok u)
    {i t el f : Nat} (ht : (interiorOrigins groups fags i)[t]? = some ⟨el, f⟩) {tg : FaceGroup d}
    (htg : D.groups[i]? = some tg) {q : Nat} (hq : q < tg.n) :
    ∃ fg ig j rows aff el' f' s g, fags[i]? = some fg ∧ Fag.interior ig j rows aff ∈ fg ∧ ⟨el, f, el', f'⟩ ∈ rows ∧
      (interiorOrigins groups fags j)[s]? = some ⟨el', f'⟩ ∧ D.groups[j]? = some g ∧
      ∃ w x, LocatedAt g (X j s) tol (move aff (D.pos i t q)) w ∧ (∀ k, |x k - w k| < tol + τ) ∧
        ∀ c, HasValues g.toS c (ary j s) → u i t q = evalAt g.toS.basis c x := by
  obtain ⟨fg, ig, j, rows, aff, el', f', s, g, h1, h2, h3, h4, h5, v, x, ⟨w, h6, h7⟩, h8, h9⟩ :=
    opposite_core h hnf ok hopp (fun j g hg => ⟨(hD j g hg).1, (hD j g hg).2.1⟩) h0 hf hr hc ht (q := q)
      (Loc := fun g j s aff v => ∃ w, LocatedAt g (X j s) tol (move aff (D.pos i t q)) w ∧ ∀ k, |v k - w k| < tol) (by
        intro j g aff pairs cn tmpl e s hgg hcross hpr he hcl _
        have hel : e < pairs.length := (List.getElem?_eq_some_iff.1 he).1
        have heD : pairs.getD e (0, 0) = (t, s) := by rw [List.getD_eq_getElem?_getD, he]; rfl
        obtain ⟨_, _, _, _, _, _, _, _, hs2⟩ := hpr _ (List.mem_of_getElem? he)
        obtain ⟨hgn, _, hgr⟩ := hD _ _ hgg
        have hsn : s < g.nel := by rw [hgn]; exact (List.getElem?_eq_some_iff.1 hs2).1
        obtain ⟨hX1, hX2⟩ := hX _ _ s hgg hsn
        unfold crossOpposite at hcross
        simp only [hgg, htg, Option.bind_eq_bind, Option.bind_some] at hcross
        obtain ⟨v, w, hv, hw, hvw⟩ := crossNodes_close hl hd hgr hcross hcl hel hq hX1 (by
          intro f hf
          rw [heD]
          exact hX2 f hf)
        simp only [heD] at hw
        exact ⟨v, hv, w, hw, hvw⟩)
  refine ⟨fg, ig, j, rows, aff, el', f', s, g, h1, h2, h3, h4, h5, w, x, h6, ?_, h9⟩
  intro k
  have := abs_sub_le (x k) (v k) (w k)
  linarith [h7 k, h8 k]

/-- On each pair of adjacent faces, each moved node of one is near exactly one node of the other.
(Specification or proof vocabulary, no code.) -/
def ConformingNodes (groups : List (ElGroup N)) (fags : List (List (Fag A))) (tol : ℝ)
    (move : A → (Fin a → ℝ) → Fin a → ℝ) (D : BdryDiscr a d) : Prop :=
  ∀ (i j : Nat) aff p tg g, AdjPair groups fags i j aff p → D.groups[i]? = some tg → D.groups[j]? = some g →
    ∀ q < tg.n, ∃ f, OneNear g.n tol (move aff (D.pos i p.1 q)) (D.pos j p.2) f

/-- C95: for faces with coinciding nodes the connection is made. -/
theorem C95_conforming_defined {lstsq : ∀ d, (Fin d → Fin a → ℝ) → (Fin a → ℝ) → Fin d → ℝ}
    {un : Nat → Nat → List (Fin d → ℝ)} {res : Nat → Nat → N → M}
    {nv : Nat} {groups : List (ElGroup N)} {fags : List (List (Fag A))}
    {r : FaceRestr M (List (Fin d → ℝ))} (h : makeFaceRestriction false un res .interior nv groups fags = some r)
    (hnf : ∀ g ∈ groups, 0 < g.nfaces) (ok : InteriorOK groups fags) {tol : ℝ}
    {move : A → (Fin a → ℝ) → Fin a → ℝ} {D : BdryDiscr a d} (htol : 0 < tol)
    (hD : ∀ i < groups.length, ∃ g, D.groups[i]? = some g) (hconf : ConformingNodes groups fags tol move D) :
    ∃ opp, makeOpposite (crossOpposite lstsq tol move D) (groups.map ElGroup.nfaces) fags r.batches = some opp := by
  obtain ⟨opp, h1, _⟩ := C29_opposite h hnf ok (crossOpposite lstsq tol move D) (by
    intro i j aff pairs hne hp
    obtain ⟨p0, rest, rfl⟩ := List.exists_cons_of_ne_nil hne
    have hlt : i < groups.length ∧ j < groups.length := by
      obtain ⟨_, _, _, _, _, _, _, h1, h2⟩ := hp p0 (by simp)
      refine ⟨?_, ?_⟩
      · by_contra hn
        simp [interiorOrigins, List.getElem?_eq_none (show groups.length ≤ i by omega)] at h1
      · by_contra hn
        simp [interiorOrigins, List.getElem?_eq_none (show groups.length ≤ j by omega)] at h2
    obtain ⟨tg, htg⟩ := hD i hlt.1
    obtain ⟨g, hg⟩ := hD j hlt.2
    unfold crossOpposite
    simp only [htg, hg, Option.bind_eq_bind, Option.bind_some]
    apply crossNodes_matched_defined htol
    intro e he q hq
    have : (p0 :: rest)[e]? = some (p0 :: rest)[e] := List.getElem?_eq_getElem he
    have hpe := hp _ (List.mem_of_getElem? this)
    rw [List.getD_eq_getElem?_getD, this, Option.getD_some]
    exact hconf i j aff _ tg g hpe htg hg q hq)
  exact ⟨opp, h1⟩

/-- C95: for faces with coinciding nodes, and unit nodes at distance at least the tolerance, the result at a node of
a boundary element is the value at the node at the same place on the other side. -/
theorem C95_conforming {lstsq : ∀ d, (Fin d → Fin a → ℝ) → (Fin a → ℝ) → Fin d → ℝ}
    (hd : 0 < d) {un : Nat → Nat → List (Fin d → ℝ)} {res : Nat → Nat → N → M}
    {nv : Nat} {groups : List (ElGroup N)} {fags : List (List (Fag A))}
    {r : FaceRestr M (List (Fin d → ℝ))} (h : makeFaceRestriction false un res .interior nv groups fags = some r)
    (hnf : ∀ g ∈ groups, 0 < g.nfaces) (ok : InteriorOK groups fags) {tol : ℝ}
    {move : A → (Fin a → ℝ) → Fin a → ℝ} {D : BdryDiscr a d} {opp : List (List (Batch (List (Fin d → ℝ))))}
    (hopp : makeOpposite (crossOpposite lstsq tol move D) (groups.map ElGroup.nfaces) fags r.batches = some opp)
    (hD : ∀ (j : Nat) g, D.groups[j]? = some g → g.nel = (interiorOrigins groups fags j).length ∧ 0 < g.n ∧
      ∀ f < g.n, ∀ f' < g.n, (∀ k, |g.nodes f k - g.nodes f' k| < tol) → f = f')
    (hconf : ConformingNodes groups fags tol move D)
    {find : List (Fin d → ℝ) → List (Fin d → ℝ) → List (Option Nat)}
    {resample : List ((Fin d → ℝ) → ℝ) → List (Fin d → ℝ) → List (Fin d → ℝ) → Option (Mat ℝ)}
    (hf : FindNear 0 find) (hr : ResampleSound resample) {sj merge : Bool} {ary u : DofArr ℝ}
    (hc : (SameConn.direct (D.groups.map FaceGroup.toS) (D.groups.map FaceGroup.toS) opp sj).call find resample merge
      ary = .ok u)
    {i t el f : Nat} (ht : (interiorOrigins groups fags i)[t]? = some ⟨el, f⟩) {tg : FaceGroup d}
    (htg : D.groups[i]? = some tg) {q : Nat} (hq : q < tg.n) :
    ∃ fg ig j rows aff el' f' s g q', fags[i]? = some fg ∧ Fag.interior ig j rows aff ∈ fg ∧
      ⟨el, f, el', f'⟩ ∈ rows ∧ (interiorOrigins groups fags j)[s]? = some ⟨el', f'⟩ ∧ D.groups[j]? = some g ∧
      OneNear g.n tol (move aff (D.pos i t q)) (D.pos j s) q' ∧
      ((∃ c, HasValues g.toS c (ary j s)) → u i t q = ary j s q') := by
  obtain ⟨fg, ig, j, rows, aff, el', f', s, g, h1, h2, h3, h4, h5, v, x, ⟨q', h6, h7⟩, h8, h9⟩ :=
    opposite_core h hnf ok hopp (fun j g hg => ⟨(hD j g hg).1, (hD j g hg).2.1⟩) le_rfl hf hr hc ht (q := q)
      (Loc := fun g j s aff v => ∃ q', OneNear g.n tol (move aff (D.pos i t q)) (D.pos j s) q' ∧ v = g.nodes q') (by
        intro j g aff pairs cn tmpl e s hgg hcross hpr he hcl htm
        have hel : e < pairs.length := (List.getElem?_eq_some_iff.1 he).1
        have heD : pairs.getD e (0, 0) = (t, s) := by rw [List.getD_eq_getElem?_getD, he]; rfl
        unfold crossOpposite at hcross
        simp only [hgg, htg, Option.bind_eq_bind, Option.bind_some] at hcross
        obtain ⟨q', hq1, hq2⟩ := crossNodes_matched hd (hD j g hgg).2.2 hcross (by
          intro e he q hq
          have hge : pairs[e]? = some pairs[e] := List.getElem?_eq_getElem he
          rw [List.getD_eq_getElem?_getD, hge, Option.getD_some]
          exact hconf i j aff _ tg g (hpr _ (List.mem_of_getElem? hge)) htg hgg q hq) hcl hel htm hq
        simp only [heD] at hq1
        exact ⟨_, hq2, q', hq1, rfl⟩)
  refine ⟨fg, ig, j, rows, aff, el', f', s, g, q', h1, h2, h3, h4, h5, h6, ?_⟩
  rintro ⟨c, hcv⟩
  have hxv : x = g.nodes q' := by
    funext k
    have := h8 k
    rw [h7] at this
    linarith [abs_nonpos_iff.1 this]
  rw [h9 c hcv, hxv]
  refine (hcv.2 q' _ ?_).symm
  simp [FaceGroup.toS, List.getElem?_map, List.getElem?_range h6.1]

/-- C95: if moreover the source face is straight and the value is a function with Lipschitz constant `L` in each
coordinate, the result is within `L (tol + τ)` of the value at a point whose image is the moved target node up to the
tolerance, times the root of the number of coordinates. -/
theorem C95_accuracy {g : FaceGroup d} {X : (Fin d → ℝ) → Fin a → ℝ} {b : Fin a → ℝ} {E : Fin d → Fin a → ℝ}
    (hX : StraightFace X b E) (ha : 0 < a) {tol τ : ℝ} (h0 : 0 ≤ tol) {y : Fin a → ℝ} {w x : Fin d → ℝ}
    (h : LocatedAt g X tol y w) (hx : ∀ k, |x k - w k| < tol + τ) {F : (Fin d → ℝ) → ℝ} {L : ℝ}
    (hF : ∀ ε x w, (∀ k, |x k - w k| ≤ ε) → |F x - F w| ≤ L * ε) :
    Real.sqrt (∑ k, (X w k - y k) ^ 2) ≤ Real.sqrt a * tol ∧ |F x - F w| ≤ L * (tol + τ) :=
  ⟨C95_straight_error_partial hX ha h0 h, hF _ _ _ fun k => (hx k).le⟩

/-- C95: for faces with coinciding nodes, at most 128 batches per group, and a search that finds the points that are
there, the connection evaluates. -/
theorem C95_conforming_call {lstsq : ∀ d, (Fin d → Fin a → ℝ) → (Fin a → ℝ) → Fin d → ℝ}
    (hd : 0 < d) {un : Nat → Nat → List (Fin d → ℝ)} {res : Nat → Nat → N → M}
    {nv : Nat} {groups : List (ElGroup N)} {fags : List (List (Fag A))}
    {r : FaceRestr M (List (Fin d → ℝ))} (h : makeFaceRestriction false un res .interior nv groups fags = some r)
    (hnf : ∀ g ∈ groups, 0 < g.nfaces) (ok : InteriorOK groups fags) {tol : ℝ}
    {move : A → (Fin a → ℝ) → Fin a → ℝ} {D : BdryDiscr a d} {opp : List (List (Batch (List (Fin d → ℝ))))}
    (hopp : makeOpposite (crossOpposite lstsq tol move D) (groups.map ElGroup.nfaces) fags r.batches = some opp)
    (hD : ∀ (j : Nat) g, D.groups[j]? = some g →
      ∀ f < g.n, ∀ f' < g.n, (∀ k, |g.nodes f k - g.nodes f' k| < tol) → f = f')
    (hconf : ConformingNodes groups fags tol move D)
    {find : List (Fin d → ℝ) → List (Fin d → ℝ) → List (Option Nat)}
    (resample : List ((Fin d → ℝ) → ℝ) → List (Fin d → ℝ) → List (Fin d → ℝ) → Option (Mat ℝ))
    (hf : ∀ src tgt, (∀ x ∈ src, x ∈ tgt) → none ∉ find src tgt) (hfew : ∀ bs ∈ opp, bs.length ≤ 128)
    (sj merge : Bool) (ary : DofArr ℝ) :
    ∃ u, (SameConn.direct (D.groups.map FaceGroup.toS) (D.groups.map FaceGroup.toS) opp sj).call find resample merge
      ary = .ok u := by
  obtain ⟨hol, _⟩ := C29_moves h hnf ok hopp
  obtain ⟨_, hone⟩ := makeOpposite_groups hopp
  obtain ⟨hc1, hc2⟩ := C27_group_count h ok.len (fun _ => hnf)
  refine direct_call_defined ?_ hfew sj merge ary
  intro i bs hi b hb
  have hil := (List.getElem?_eq_some_iff.1 hi).1
  have hi' : i < groups.length := by
    simp at hc1
    omega
  have hg := List.getElem?_eq_getElem hi'
  have hfg := List.getElem?_eq_getElem (ok.len ▸ hi' : i < fags.length)
  have hFD : fags.getD i [] = fags[i]'(ok.len ▸ hi') := by rw [List.getD_eq_getElem?_getD, hfg]; rfl
  have hN : (groups.map ElGroup.nfaces).getD i 0 = groups[i].nfaces := by
    rw [List.getD_eq_getElem?_getD, List.getElem?_map, hg]; rfl
  have hog := hone i bs hi
  rw [hFD, hN] at hog
  obtain ⟨_, hQ⟩ := oppGroup_moves h hnf ok hg hfg hog
  obtain ⟨hlen, hne, cn, tmpl, aff, pairs, hcross, htm, hun, hprow, hpairs⟩ := hQ b hb
  obtain ⟨t0, trest, htE⟩ := List.exists_cons_of_ne_nil hne
  obtain ⟨s0, srest, hsE⟩ := List.exists_cons_of_ne_nil (l := b.fromEls) (by
    intro h0
    rw [h0, htE] at hlen
    simp at hlen)
  obtain ⟨e, he1, he2⟩ := hpairs (t0, s0) (by rw [htE, hsE]; simp)
  have hel : e < pairs.length := (List.getElem?_eq_some_iff.1 he1).1
  unfold crossOpposite at hcross
  cases hgg : D.groups[b.fromGroup]? with
  | none => simp [hgg] at hcross
  | some g =>
    cases htg : D.groups[i]? with
    | none => simp [hgg, htg] at hcross
    | some tg =>
      simp only [hgg, htg, Option.bind_eq_bind, Option.bind_some] at hcross
      obtain ⟨I, hI⟩ := pick_matched hd (hD _ g hgg) hcross (by
        intro e he q hq
        have hge : pairs[e]? = some pairs[e] := List.getElem?_eq_getElem he
        rw [List.getD_eq_getElem?_getD, hge, Option.getD_some]
        exact hconf i _ aff _ tg g (hprow _ (List.mem_of_getElem? hge)) htg hgg q hq) he2 hel htm hf
      unfold batchErr
      rw [List.getElem?_map, hgg, hun]
      simp [hI]

theorem batches_le {U : Type} (l : List (Batch U)) (hl : ∀ b ∈ l, b.toEls ≠ []) :
    l.length ≤ (l.flatMap Batch.toEls).length := by
  induction l with
  | nil => simp
  | cons b l ih =>
    have h1 := List.length_pos_iff.2 (hl b (by simp))
    have h2 := ih fun b' hb' => hl b' (by simp [hb'])
    simp only [List.length_cons, List.flatMap_cons, List.length_append]
    omega

/-- The number of batches is at most the number of boundary elements. -/
theorem opposite_batch_count {U : Type} {un : Nat → Nat → U} {res : Nat → Nat → N → M}
    {nv : Nat} {groups : List (ElGroup N)} {fags : List (List (Fag A))}
    {r : FaceRestr M U} (h : makeFaceRestriction false un res .interior nv groups fags = some r)
    (hnf : ∀ g ∈ groups, 0 < g.nfaces) (ok : InteriorOK groups fags)
    {cross : Nat → Nat → A → List (Nat × Nat) → Option (CrossNodes U)} {opp : List (List (Batch U))}
    (hopp : makeOpposite cross (groups.map ElGroup.nfaces) fags r.batches = some opp) {i : Nat} {bs : List (Batch U)}
    (hbs : opp[i]? = some bs) : ∃ els, r.groups[i]? = some els ∧ bs.length ≤ els.length := by
  obtain ⟨hol, hmv⟩ := C29_moves h hnf ok hopp
  obtain ⟨_, hone⟩ := makeOpposite_groups hopp
  obtain ⟨hc1, hc2⟩ := C27_group_count h ok.len (fun _ => hnf)
  have hil := (List.getElem?_eq_some_iff.1 hbs).1
  have hi' : i < groups.length := by
    simp at hc1
    omega
  obtain ⟨⟨els, he, hperm⟩, _⟩ := hmv i bs hbs
  have hg := List.getElem?_eq_getElem hi'
  have hfg := List.getElem?_eq_getElem (ok.len ▸ hi' : i < fags.length)
  have hFD : fags.getD i [] = fags[i]'(ok.len ▸ hi') := by rw [List.getD_eq_getElem?_getD, hfg]; rfl
  have hN : (groups.map ElGroup.nfaces).getD i 0 = groups[i].nfaces := by
    rw [List.getD_eq_getElem?_getD, List.getElem?_map, hg]; rfl
  have hog := hone i bs hbs
  rw [hFD, hN] at hog
  obtain ⟨_, hQ⟩ := oppGroup_moves h hnf ok hg hfg hog
  refine ⟨els, he, ?_⟩
  have hl : (bs.flatMap Batch.toEls).length = els.length := by rw [hperm.length_eq, List.length_range]
  rw [← hl]
  exact batches_le bs fun b hb => (hQ b hb).2.1

theorem partition_core {lstsq : ∀ d, (Fin d → Fin a → ℝ) → (Fin a → ℝ) → Fin d → ℝ}
    [DecidableEq A] {un un' : Nat → Nat → List (Fin d → ℝ)} {res res' : Nat → Nat → N → M} {nv nv' : Nat}
    {gP gQ : List (ElGroup N)} {fP fQ : List (List (Fag A))} {tP tQ : BTag} {p q : Nat}
    {rP rQ : FaceRestr M (List (Fin d → ℝ))}
    (hP : makeFaceRestriction false un res (.tag tQ) nv gP fP = some rP)
    (hQ : makeFaceRestriction false un' res' (.tag tP) nv' gQ fQ = some rQ)
    (hnfP : ∀ g ∈ gP, 0 < g.nfaces) (hnfQ : ∀ g ∈ gQ, 0 < g.nfaces)
    (sP : PartSide gP fP tQ q (gQ.map ElGroup.nelements))
    (sQ : PartSide gQ fQ tP p (gP.map ElGroup.nelements))
    (symm : ∀ i el f j el' f', AcrossParts fP q (gQ.map ElGroup.nelements) i el f j el' f' ↔
      AcrossParts fQ p (gP.map ElGroup.nelements) j el' f' i el f) {tol : ℝ}
    {move : A → (Fin a → ℝ) → Fin a → ℝ} {T S : BdryDiscr a d} {conn : List (List (Batch (List (Fin d → ℝ))))}
    (hconn : makePartConn (crossPart lstsq tol move T S) (gP.map ElGroup.nelements) rP.batches
      (makeRemoteInfos p fQ rQ.batches) = some conn)
    (hS : ∀ (j : Nat) g, S.groups[j]? = some g → g.nel = (tagOrigins tP gQ fQ j).length ∧ 0 < g.n)
    {find : List (Fin d → ℝ) → List (Fin d → ℝ) → List (Option Nat)}
    {resample : List ((Fin d → ℝ) → ℝ) → List (Fin d → ℝ) → List (Fin d → ℝ) → Option (Mat ℝ)} {τ : ℝ}
    (h0 : 0 ≤ τ) (hf : FindNear τ find) (hr : ResampleSound resample) {sj merge : Bool} {ary u : DofArr ℝ}
    (hc : (SameConn.direct (S.groups.map FaceGroup.toS) (T.groups.map FaceGroup.toS) conn sj).call find resample merge
      ary = .ok u)
    {i t el f : Nat} (ht : (tagOrigins tQ gP fP i)[t]? = some ⟨el, f⟩) {k : Nat} {Loc : FaceGroup d → Nat → Nat → A → (Fin d → ℝ) → Prop}
    (hloc : ∀ (j : Nat) g aff pairs cn tmpl (e : Nat) s, S.groups[j]? = some g →
      crossPart lstsq tol move T S j i aff pairs = some cn →
      (∀ x ∈ pairs, AdjPartPair tP tQ gP gQ fP fQ p i j aff x) →
      pairs[e]? = some (t, s) → cn.close tmpl e = true → tmpl < pairs.length →
      ∃ v, (cn.unit tmpl)[k]? = some v ∧ Loc g j s aff v) :
    ∃ j fg t' rows aff row s g, fQ[j]? = some fg ∧ Fag.interPart j t' p rows aff ∈ fg ∧ row ∈ rows ∧
      IsGlobalNr (gP.map ElGroup.nelements) i el row.nel ∧ row.nface = f ∧
      (tagOrigins tP gQ fQ j)[s]? = some ⟨row.el, row.face⟩ ∧ S.groups[j]? = some g ∧
      ∃ v x, Loc g j s aff v ∧ (∀ m, |x m - v m| ≤ τ) ∧
        ∀ c, HasValues g.toS c (ary j s) → u i t k = evalAt g.toS.basis c x := by
  obtain ⟨⟨hcl, hmv⟩, hall⟩ := (partConn_all hP hQ hnfP hnfQ sP sQ symm (crossPart lstsq tol move T S)).2 conn hconn
  obtain ⟨hc1, hc2⟩ := C27_group_count hP sP.len (fun _ => hnfP)
  obtain ⟨j0, el0, f0, hac⟩ := ((tagOrigins_props sP i).2 el f).1 (List.mem_of_getElem? ht)
  have hi' : i < gP.length := by
    by_contra hn
    simp [tagOrigins, List.getElem?_eq_none (show gP.length ≤ i by omega)] at ht
  have hil : i < conn.length := by
    simp at hc1
    omega
  have hbs : conn[i]? = some conn[i] := List.getElem?_eq_getElem hil
  generalize conn[i] = bs at hbs
  obtain ⟨⟨els, _, hperm⟩, hiff⟩ := hmv i bs hbs
  have hB := hall i bs hbs
  have hm0 := getElem?_idxOf' (((tagOrigins_props sQ j0).2 el0 f0).2 ⟨_, _, _, (symm _ _ _ _ _ _).1 hac⟩)
  obtain ⟨b, hb, hbm⟩ := List.mem_flatMap.1 ((hiff t j0 _).2 ⟨el, f, el0, f0, hac, ht, hm0⟩)
  obtain ⟨⟨t', s⟩, hz, hzeq⟩ := List.mem_map.1 hbm
  simp only [Prod.mk.injEq] at hzeq
  obtain ⟨rfl, _, _⟩ := hzeq
  have hsrc : ∀ b' ∈ bs, ∃ g, S.groups[b'.fromGroup]? = some g := by
    intro b' hb'
    obtain ⟨_, _, cn, tmpl, aff, pairs, h2, _⟩ := hB b' hb'
    unfold crossPart at h2
    cases hgg : S.groups[b'.fromGroup]? with
    | none => simp [hgg] at h2
    | some g => exact ⟨g, rfl⟩
  have hval : ∀ b' ∈ bs, b'.toEls.length = b'.fromEls.length ∧
      ∃ g, (S.groups.map FaceGroup.toS)[b'.fromGroup]? = some g ∧ (∀ f ∈ b'.fromEls, f < g.nel) ∧
        g.nodes.length ≠ 0 := by
    intro b' hb'
    have hlen := (hB b' hb').1
    obtain ⟨g, hgg⟩ := hsrc b' hb'
    obtain ⟨h1, h2⟩ := hS _ _ hgg
    refine ⟨hlen, g.toS, by simp [hgg], ?_, ?_⟩
    · intro s' hs'
      obtain ⟨k, hk⟩ := List.mem_iff_getElem?.1 hs'
      have hkl := (List.getElem?_eq_some_iff.1 hk).1
      have hzz : (b'.toEls[k]'(by omega), s') ∈ b'.toEls.zip b'.fromEls :=
        List.mem_of_getElem? (i := k) (List.getElem?_zip_eq_some.2 ⟨List.getElem?_eq_getElem (by omega), hk⟩)
      obtain ⟨_, _, _, _, _, _, h5⟩ := (hiff _ _ _).1 (List.mem_flatMap.2 ⟨b', hb', List.mem_map.2 ⟨_, hzz, rfl⟩⟩)
      have := (List.getElem?_eq_some_iff.1 h5).1
      simp only [FaceGroup.toS]
      omega
    · simp only [FaceGroup.toS, List.length_map, List.length_range]
      omega
  have hnd : (bs.flatMap Batch.toEls).Nodup := hperm.nodup_iff.2 List.nodup_range
  obtain ⟨_, _, cn, tmpl, aff, pairs, hcross, htm, hun, hprow, hpairs⟩ := hB b hb
  obtain ⟨g, hgg⟩ := hsrc b hb
  obtain ⟨e, he1, he2⟩ := hpairs _ hz
  obtain ⟨fg, t'', rows, row, el', hfg', hfag, hrow, hgl, ht2, hs2⟩ := hprow _ (List.mem_of_getElem? he1)
  rw [ht] at ht2
  simp only [Option.some.injEq, ElFace.mk.injEq] at ht2
  obtain ⟨rfl, hnf⟩ := ht2
  obtain ⟨v, hv, hw⟩ := hloc _ g aff pairs cn tmpl e s hgg hcross hprow he1 he2 htm
  rw [← hun] at hv
  obtain ⟨x, hx1, hx2⟩ := exchange_value h0 hf hr hc hbs hval hnd hb hz hv (g := g.toS) (by simp [hgg])
  exact ⟨b.fromGroup, fg, t'', rows, aff, row, s, g, hfg', hfag, hrow, hgl, hnf.symm, hs2, hgg, v, x, hw, hx1, hx2⟩

theorem partition_batch_count {U : Type}
    [DecidableEq A] {un un' : Nat → Nat → U} {res res' : Nat → Nat → N → M} {nv nv' : Nat}
    {gP gQ : List (ElGroup N)} {fP fQ : List (List (Fag A))} {tP tQ : BTag} {p q : Nat} {rP rQ : FaceRestr M U}
    (hP : makeFaceRestriction false un res (.tag tQ) nv gP fP = some rP)
    (hQ : makeFaceRestriction false un' res' (.tag tP) nv' gQ fQ = some rQ)
    (hnfP : ∀ g ∈ gP, 0 < g.nfaces) (hnfQ : ∀ g ∈ gQ, 0 < g.nfaces)
    (sP : PartSide gP fP tQ q (gQ.map ElGroup.nelements))
    (sQ : PartSide gQ fQ tP p (gP.map ElGroup.nelements))
    (symm : ∀ i el f j el' f', AcrossParts fP q (gQ.map ElGroup.nelements) i el f j el' f' ↔
      AcrossParts fQ p (gP.map ElGroup.nelements) j el' f' i el f)
    {cross : Nat → Nat → A → List (Nat × Nat) → Option (CrossNodes U)} {conn : List (List (Batch U))}
    (hconn : makePartConn cross (gP.map ElGroup.nelements) rP.batches (makeRemoteInfos p fQ rQ.batches) = some conn)
    {i : Nat} {bs : List (Batch U)} (hbs : conn[i]? = some bs) : ∃ els, rP.groups[i]? = some els ∧ bs.length ≤ els.length := by
  obtain ⟨⟨_, hmv⟩, hall⟩ := (partConn_all hP hQ hnfP hnfQ sP sQ symm cross).2 conn hconn
  obtain ⟨⟨els, he, hperm⟩, _⟩ := hmv i bs hbs
  refine ⟨els, he, ?_⟩
  have hl : (bs.flatMap Batch.toEls).length = els.length := by rw [hperm.length_eq, List.length_range]
  rw [← hl]
  exact batches_le bs fun b hb => (hall i bs hbs b hb).2.1

/-- C95: exchange between two parts, end to end: as C95_opposite, where the affine map of the remote adjacency group
moves the source face. -/
theorem C95_partition {lstsq : ∀ d, (Fin d → Fin a → ℝ) → (Fin a → ℝ) → Fin d → ℝ} (hl : LstsqSound lstsq)
    (hd : 0 < d)
    [DecidableEq A] {un un' : Nat → Nat → List (Fin d → ℝ)} {res res' : Nat → Nat → N → M} {nv nv' : Nat}
    {gP gQ : List (ElGroup N)} {fP fQ : List (List (Fag A))} {tP tQ : BTag} {p q : Nat}
    {rP rQ : FaceRestr M (List (Fin d → ℝ))}
    (hP : makeFaceRestriction false un res (.tag tQ) nv gP fP = some rP)
    (hQ : makeFaceRestriction false un' res' (.tag tP) nv' gQ fQ = some rQ)
    (hnfP : ∀ g ∈ gP, 0 < g.nfaces) (hnfQ : ∀ g ∈ gQ, 0 < g.nfaces)
    (sP : PartSide gP fP tQ q (gQ.map ElGroup.nelements))
    (sQ : PartSide gQ fQ tP p (gP.map ElGroup.nelements))
    (symm : ∀ i el f j el' f', AcrossParts fP q (gQ.map ElGroup.nelements) i el f j el' f' ↔
      AcrossParts fQ p (gP.map ElGroup.nelements) j el' f' i el f) {tol : ℝ}
    {move : A → (Fin a → ℝ) → Fin a → ℝ} {T S : BdryDiscr a d} {conn : List (List (Batch (List (Fin d → ℝ))))}
    (hconn : makePartConn (crossPart lstsq tol move T S) (gP.map ElGroup.nelements) rP.batches
      (makeRemoteInfos p fQ rQ.batches) = some conn)
    (hS : ∀ (j : Nat) g, S.groups[j]? = some g → g.nel = (tagOrigins tP gQ fQ j).length ∧ 0 < g.n ∧ GradsOK g)
    {X : Nat → Nat → (Fin d → ℝ) → Fin a → ℝ}
    (hX : ∀ (j : Nat) g s aff, S.groups[j]? = some g → s < g.nel →
      Spans g (fun v => move aff (X j s v)) ∧ ∀ f < g.n, X j s (g.nodes f) = S.pos j s f)
    {find : List (Fin d → ℝ) → List (Fin d → ℝ) → List (Option Nat)}
    {resample : List ((Fin d → ℝ) → ℝ) → List (Fin d → ℝ) → List (Fin d → ℝ) → Option (Mat ℝ)} {τ : ℝ}
    (h0 : 0 ≤ τ) (hf : FindNear τ find) (hr : ResampleSound resample) {sj merge : Bool} {ary u : DofArr ℝ}
    (hc : (SameConn.direct (S.groups.map FaceGroup.toS) (T.groups.map FaceGroup.toS) conn sj).call find resample merge
      ary = .ok u)
    {i t el f : Nat} (ht : (tagOrigins tQ gP fP i)[t]? = some ⟨el, f⟩) {tg : FaceGroup d} (htg : T.groups[i]? = some tg) {k : Nat} (hk : k < tg.n) :
    ∃ j fg t' rows aff row s g, fQ[j]? = some fg ∧ Fag.interPart j t' p rows aff ∈ fg ∧ row ∈ rows ∧
      IsGlobalNr (gP.map ElGroup.nelements) i el row.nel ∧ row.nface = f ∧
      (tagOrigins tP gQ fQ j)[s]? = some ⟨row.el, row.face⟩ ∧ S.groups[j]? = some g ∧
      ∃ w x, LocatedAt g (fun v => move aff (X j s v)) tol (T.pos i t k) w ∧ (∀ m, |x m - w m| < tol + τ) ∧
        ∀ c, HasValues g.toS c (ary j s) → u i t k = evalAt g.toS.basis c x := by
  obtain ⟨j, fg, t', rows, aff, row, s, g, h1, h2, h3, h4, h4', h4'', h5, v, x, ⟨w, h6, h7⟩, h8, h9⟩ :=
    partition_core hP hQ hnfP hnfQ sP sQ symm hconn (fun j g hg => ⟨(hS j g hg).1, (hS j g hg).2.1⟩) h0 hf hr hc ht
      (k := k) (Loc := fun g j s aff v => ∃ w, LocatedAt g (fun v => move aff (X j s v)) tol (T.pos i t k) w ∧
        ∀ k, |v k - w k| < tol) (by
        intro j g aff pairs cn tmpl e s hgg hcross hpr he hcl _
        have hel : e < pairs.length := (List.getElem?_eq_some_iff.1 he).1
        have heD : pairs.getD e (0, 0) = (t, s) := by rw [List.getD_eq_getElem?_getD, he]; rfl
        obtain ⟨_, _, _, _, _, _, _, _, _, _, hs2⟩ := hpr _ (List.mem_of_getElem? he)
        obtain ⟨hgn, _, hgr⟩ := hS _ _ hgg
        have hsn : s < g.nel := by rw [hgn]; exact (List.getElem?_eq_some_iff.1 hs2).1
        obtain ⟨hX1, hX2⟩ := hX _ _ s aff hgg hsn
        unfold crossPart at hcross
        simp only [hgg, htg, Option.bind_eq_bind, Option.bind_some] at hcross
        obtain ⟨v, w, hv, hw, hvw⟩ := crossNodes_close hl hd hgr hcross hcl hel hk hX1 (by
          intro f hf
          simp only [heD, hX2 f hf])
        simp only [heD] at hw
        exact ⟨v, hv, w, hw, hvw⟩)
  refine ⟨j, fg, t', rows, aff, row, s, g, h1, h2, h3, h4, h4', h4'', h5, w, x, h6, ?_, h9⟩
  intro m
  have := abs_sub_le (x m) (v m) (w m)
  linarith [h7 m, h8 m]

/-- The same for two parts: on each pair of faces, each node of one is near exactly one moved node of the other.
(Specification or proof vocabulary, no code.) -/
def ConformingParts (tP tQ : BTag) (gP gQ : List (ElGroup N)) (fP fQ : List (List (Fag A))) (p : Nat) (tol : ℝ)
    (move : A → (Fin a → ℝ) → Fin a → ℝ) (T S : BdryDiscr a d) : Prop :=
  ∀ (i j : Nat) aff x tg g, AdjPartPair tP tQ gP gQ fP fQ p i j aff x → T.groups[i]? = some tg →
    S.groups[j]? = some g →
    ∀ k < tg.n, ∃ f, OneNear g.n tol (T.pos i x.1 k) (fun f => move aff (S.pos j x.2 f)) f

/-- C95: for two parts with coinciding nodes the connection is made. -/
theorem C95_partition_defined {lstsq : ∀ d, (Fin d → Fin a → ℝ) → (Fin a → ℝ) → Fin d → ℝ}
    [DecidableEq A] {un un' : Nat → Nat → List (Fin d → ℝ)} {res res' : Nat → Nat → N → M} {nv nv' : Nat}
    {gP gQ : List (ElGroup N)} {fP fQ : List (List (Fag A))} {tP tQ : BTag} {p q : Nat}
    {rP rQ : FaceRestr M (List (Fin d → ℝ))}
    (hP : makeFaceRestriction false un res (.tag tQ) nv gP fP = some rP)
    (hQ : makeFaceRestriction false un' res' (.tag tP) nv' gQ fQ = some rQ)
    (hnfP : ∀ g ∈ gP, 0 < g.nfaces) (hnfQ : ∀ g ∈ gQ, 0 < g.nfaces)
    (sP : PartSide gP fP tQ q (gQ.map ElGroup.nelements))
    (sQ : PartSide gQ fQ tP p (gP.map ElGroup.nelements))
    (symm : ∀ i el f j el' f', AcrossParts fP q (gQ.map ElGroup.nelements) i el f j el' f' ↔
      AcrossParts fQ p (gP.map ElGroup.nelements) j el' f' i el f) {tol : ℝ}
    {move : A → (Fin a → ℝ) → Fin a → ℝ} {T S : BdryDiscr a d} (htol : 0 < tol)
    (hT : ∀ i < gP.length, ∃ g, T.groups[i]? = some g) (hS : ∀ j < gQ.length, ∃ g, S.groups[j]? = some g)
    (hconf : ConformingParts tP tQ gP gQ fP fQ p tol move T S) :
    ∃ conn, makePartConn (crossPart lstsq tol move T S) (gP.map ElGroup.nelements) rP.batches
      (makeRemoteInfos p fQ rQ.batches) = some conn := by
  refine (partConn_all hP hQ hnfP hnfQ sP sQ symm (crossPart lstsq tol move T S)).1 ?_
  intro i j aff pairs hne hp
  obtain ⟨p0, rest, rfl⟩ := List.exists_cons_of_ne_nil hne
  have hlt : i < gP.length ∧ j < gQ.length := by
    obtain ⟨_, _, _, _, _, _, _, _, _, h1, h2⟩ := hp p0 (by simp)
    refine ⟨?_, ?_⟩
    · by_contra hn
      simp [tagOrigins, List.getElem?_eq_none (show gP.length ≤ i by omega)] at h1
    · by_contra hn
      simp [tagOrigins, List.getElem?_eq_none (show gQ.length ≤ j by omega)] at h2
  obtain ⟨tg, htg⟩ := hT i hlt.1
  obtain ⟨g, hg⟩ := hS j hlt.2
  unfold crossPart
  simp only [htg, hg, Option.bind_eq_bind, Option.bind_some]
  apply crossNodes_matched_defined htol
  intro e he q hq
  have : (p0 :: rest)[e]? = some (p0 :: rest)[e] := List.getElem?_eq_getElem he
  have hpe := hp _ (List.mem_of_getElem? this)
  rw [List.getD_eq_getElem?_getD, this, Option.getD_some]
  exact hconf i j aff _ tg g hpe htg hg q hq

/-- C95: it evaluates, under the conditions of C95_conforming_call. -/
theorem C95_partition_call {lstsq : ∀ d, (Fin d → Fin a → ℝ) → (Fin a → ℝ) → Fin d → ℝ} (hd : 0 < d)
    [DecidableEq A] {un un' : Nat → Nat → List (Fin d → ℝ)} {res res' : Nat → Nat → N → M} {nv nv' : Nat}
    {gP gQ : List (ElGroup N)} {fP fQ : List (List (Fag A))} {tP tQ : BTag} {p q : Nat}
    {rP rQ : FaceRestr M (List (Fin d → ℝ))}
    (hP : makeFaceRestriction false un res (.tag tQ) nv gP fP = some rP)
    (hQ : makeFaceRestriction false un' res' (.tag tP) nv' gQ fQ = some rQ)
    (hnfP : ∀ g ∈ gP, 0 < g.nfaces) (hnfQ : ∀ g ∈ gQ, 0 < g.nfaces)
    (sP : PartSide gP fP tQ q (gQ.map ElGroup.nelements))
    (sQ : PartSide gQ fQ tP p (gP.map ElGroup.nelements))
    (symm : ∀ i el f j el' f', AcrossParts fP q (gQ.map ElGroup.nelements) i el f j el' f' ↔
      AcrossParts fQ p (gP.map ElGroup.nelements) j el' f' i el f) {tol : ℝ}
    {move : A → (Fin a → ℝ) → Fin a → ℝ} {T S : BdryDiscr a d} {conn : List (List (Batch (List (Fin d → ℝ))))}
    (hconn : makePartConn (crossPart lstsq tol move T S) (gP.map ElGroup.nelements) rP.batches
      (makeRemoteInfos p fQ rQ.batches) = some conn)
    (hS : ∀ (j : Nat) g, S.groups[j]? = some g →
      ∀ f < g.n, ∀ f' < g.n, (∀ k, |g.nodes f k - g.nodes f' k| < tol) → f = f')
    (hconf : ConformingParts tP tQ gP gQ fP fQ p tol move T S)
    {find : List (Fin d → ℝ) → List (Fin d → ℝ) → List (Option Nat)}
    (resample : List ((Fin d → ℝ) → ℝ) → List (Fin d → ℝ) → List (Fin d → ℝ) → Option (Mat ℝ))
    (hf : ∀ src tgt, (∀ x ∈ src, x ∈ tgt) → none ∉ find src tgt) (hfew : ∀ bs ∈ conn, bs.length ≤ 128)
    (sj merge : Bool) (ary : DofArr ℝ) :
    ∃ u, (SameConn.direct (S.groups.map FaceGroup.toS) (T.groups.map FaceGroup.toS) conn sj).call find resample merge
      ary = .ok u := by
  obtain ⟨_, hall⟩ := (partConn_all hP hQ hnfP hnfQ sP sQ symm (crossPart lstsq tol move T S)).2 conn hconn
  refine direct_call_defined ?_ hfew sj merge ary
  intro i bs hi b hb
  obtain ⟨hlen, hne, cn, tmpl, aff, pairs, hcross, htm, hun, hprow, hpairs⟩ := hall i bs hi b hb
  obtain ⟨t0, trest, htE⟩ := List.exists_cons_of_ne_nil hne
  obtain ⟨s0, srest, hsE⟩ := List.exists_cons_of_ne_nil (l := b.fromEls) (by
    intro h0
    rw [h0, htE] at hlen
    simp at hlen)
  obtain ⟨e, he1, he2⟩ := hpairs (t0, s0) (by rw [htE, hsE]; simp)
  have hel : e < pairs.length := (List.getElem?_eq_some_iff.1 he1).1
  unfold crossPart at hcross
  cases hgg : S.groups[b.fromGroup]? with
  | none => simp [hgg] at hcross
  | some g =>
    cases htg : T.groups[i]? with
    | none => simp [hgg, htg] at hcross
    | some tg =>
      simp only [hgg, htg, Option.bind_eq_bind, Option.bind_some] at hcross
      obtain ⟨I, hI⟩ := pick_matched hd (hS _ g hgg) hcross (by
        intro e he q hq
        have hge : pairs[e]? = some pairs[e] := List.getElem?_eq_getElem he
        rw [List.getD_eq_getElem?_getD, hge, Option.getD_some]
        exact hconf i _ aff _ tg g (hprow _ (List.mem_of_getElem? hge)) htg hgg q hq) he2 hel htm hf
      unfold batchErr
      rw [List.getElem?_map, hgg, hun]
      simp [hI]

/-- C95: for two parts with coinciding nodes, the result at a node is the value at the node of the other part at the
same place. -/
theorem C95_partition_conforming {lstsq : ∀ d, (Fin d → Fin a → ℝ) → (Fin a → ℝ) → Fin d → ℝ} (hd : 0 < d)
    [DecidableEq A] {un un' : Nat → Nat → List (Fin d → ℝ)} {res res' : Nat → Nat → N → M} {nv nv' : Nat}
    {gP gQ : List (ElGroup N)} {fP fQ : List (List (Fag A))} {tP tQ : BTag} {p q : Nat}
    {rP rQ : FaceRestr M (List (Fin d → ℝ))}
    (hP : makeFaceRestriction false un res (.tag tQ) nv gP fP = some rP)
    (hQ : makeFaceRestriction false un' res' (.tag tP) nv' gQ fQ = some rQ)
    (hnfP : ∀ g ∈ gP, 0 < g.nfaces) (hnfQ : ∀ g ∈ gQ, 0 < g.nfaces)
    (sP : PartSide gP fP tQ q (gQ.map ElGroup.nelements))
    (sQ : PartSide gQ fQ tP p (gP.map ElGroup.nelements))
    (symm : ∀ i el f j el' f', AcrossParts fP q (gQ.map ElGroup.nelements) i el f j el' f' ↔
      AcrossParts fQ p (gP.map ElGroup.nelements) j el' f' i el f) {tol : ℝ}
    {move : A → (Fin a → ℝ) → Fin a → ℝ} {T S : BdryDiscr a d} {conn : List (List (Batch (List (Fin d → ℝ))))}
    (hconn : makePartConn (crossPart lstsq tol move T S) (gP.map ElGroup.nelements) rP.batches
      (makeRemoteInfos p fQ rQ.batches) = some conn)
    (hS : ∀ (j : Nat) g, S.groups[j]? = some g → g.nel = (tagOrigins tP gQ fQ j).length ∧ 0 < g.n ∧
      ∀ f < g.n, ∀ f' < g.n, (∀ k, |g.nodes f k - g.nodes f' k| < tol) → f = f')
    (hconf : ConformingParts tP tQ gP gQ fP fQ p tol move T S)
    {find : List (Fin d → ℝ) → List (Fin d → ℝ) → List (Option Nat)}
    {resample : List ((Fin d → ℝ) → ℝ) → List (Fin d → ℝ) → List (Fin d → ℝ) → Option (Mat ℝ)}
    (hf : FindNear 0 find) (hr : ResampleSound resample) {sj merge : Bool} {ary u : DofArr ℝ}
    (hc : (SameConn.direct (S.groups.map FaceGroup.toS) (T.groups.map FaceGroup.toS) conn sj).call find resample merge
      ary = .ok u)
    {i t el f : Nat} (ht : (tagOrigins tQ gP fP i)[t]? = some ⟨el, f⟩) {tg : FaceGroup d} (htg : T.groups[i]? = some tg) {k : Nat} (hk : k < tg.n) :
    ∃ j fg t' rows aff row s g, fQ[j]? = some fg ∧ Fag.interPart j t' p rows aff ∈ fg ∧ row ∈ rows ∧
      IsGlobalNr (gP.map ElGroup.nelements) i el row.nel ∧ row.nface = f ∧
      (tagOrigins tP gQ fQ j)[s]? = some ⟨row.el, row.face⟩ ∧ S.groups[j]? = some g ∧
      ∃ k', OneNear g.n tol (T.pos i t k) (fun f => move aff (S.pos j s f)) k' ∧
        ((∃ c, HasValues g.toS c (ary j s)) → u i t k = ary j s k') := by
  obtain ⟨j, fg, t', rows, aff, row, s, g, h1, h2, h3, h4, h4', h4'', h5, v, x, ⟨k', h6, h7⟩, h8, h9⟩ :=
    partition_core hP hQ hnfP hnfQ sP sQ symm hconn (fun j g hg => ⟨(hS j g hg).1, (hS j g hg).2.1⟩) le_rfl hf hr hc ht
      (k := k) (Loc := fun g j s aff v => ∃ k', OneNear g.n tol (T.pos i t k) (fun f => move aff (S.pos j s f)) k' ∧
        v = g.nodes k') (by
        intro j g aff pairs cn tmpl e s hgg hcross hpr he hcl htm
        have hel : e < pairs.length := (List.getElem?_eq_some_iff.1 he).1
        have heD : pairs.getD e (0, 0) = (t, s) := by rw [List.getD_eq_getElem?_getD, he]; rfl
        unfold crossPart at hcross
        simp only [hgg, htg, Option.bind_eq_bind, Option.bind_some] at hcross
        obtain ⟨k', hq1, hq2⟩ := crossNodes_matched hd (hS j g hgg).2.2 hcross (by
          intro e he q hq
          have hge : pairs[e]? = some pairs[e] := List.getElem?_eq_getElem he
          rw [List.getD_eq_getElem?_getD, hge, Option.getD_some]
          exact hconf i j aff _ tg g (hpr _ (List.mem_of_getElem? hge)) htg hgg q hq) hcl hel htm hk
        simp only [heD] at hq1
        exact ⟨_, hq2, k', hq1, rfl⟩)
  refine ⟨j, fg, t', rows, aff, row, s, g, h1, h2, h3, h4, h4', h4'', h5, k', h6, ?_⟩
  rintro ⟨c, hcv⟩
  have hxv : x = g.nodes k' := by
    funext m
    have := h8 m
    rw [h7] at this
    linarith [abs_nonpos_iff.1 this]
  rw [h9 c hcv, hxv]
  refine (hcv.2 k' _ ?_).symm
  simp [FaceGroup.toS, List.getElem?_map, List.getElem?_range h6.1]

end opp

/-- C95: for boundaries that are points, the reference nodes are those of the source group. -/
theorem C95_points (lstsq : ∀ d, (Fin d → Fin a → ℝ) → (Fin a → ℝ) → Fin d → ℝ) (g : FaceGroup 0) (tol : ℝ)
    (ne nt : Nat) (tgt src : Nat → Nat → Fin a → ℝ) :
    ∃ cn, crossNodes lstsq g tol ne nt tgt src = some cn ∧ (∀ e, cn.unit e = (List.range g.n).map g.nodes) ∧
      ∀ t e, cn.close t e = true :=
  ⟨_, rfl, fun _ => rfl, fun _ _ => rfl⟩

end

/-- Four nodes on a segment, with monomials. (Example, no code.) -/
noncomputable def exCubic : FaceGroup 1 where
  nel := 1
  n := 4
  nodes := fun i _ => -1 + 2 / 3 * i
  basis := fun j u => u 0 ^ j
  grads := fun j u _ => j * u 0 ^ (j - 1)
  guess := 0

theorem exCubic_det : exCubic.vdm.det ≠ 0 := by
  have h : exCubic.vdm = Matrix.vandermonde fun i : Fin 4 => -1 + 2 / 3 * ((i : Nat) : ℝ) := by
    ext i j
    rfl
  rw [h]
  refine (Matrix.det_vandermonde_ne_zero_iff).2 ?_
  intro i j hij
  have : ((i : Nat) : ℝ) = ((j : Nat) : ℝ) := by linarith
  exact Fin.ext (by exact_mod_cast this)

theorem exCubic_grads : GradsOK exCubic := by
  intro j u r
  have hr : r = 0 := Subsingleton.elim _ _
  subst hr
  simp only [exCubic, Function.update_self]
  have h := ((hasDerivAt_id (0 : ℝ)).const_add (u 0)).fun_pow j
  simpa using h

/-- C95, what fails: the loop looks at the residual before the last correction, and not after it.  For each tolerance
up to 1/100 there is a curved face through the target point on which the point found maps to a point at distance 1. -/
theorem C95_newton_counterexample {tol : ℝ} (h0 : 0 < tol) (h1 : tol ≤ 1 / 100)
    (lstsq : ∀ d, (Fin d → Fin 2 → ℝ) → (Fin 2 → ℝ) → Fin d → ℝ) :
    ∃ X : (Fin 1 → ℝ) → Fin 2 → ℝ, Spans exCubic X ∧ (∃ s : ℝ, -1 < s ∧ s < 1 ∧ X (fun _ => s) = 0) ∧
      ∃ U w, findUnitNodes lstsq exCubic tol 1 1 (fun _ _ => 0) (fun _ f => X (exCubic.nodes f)) = .ok U ∧
        U 0 0 = some w ∧ X w = ![-1, 0] := by
  obtain ⟨X, hXd⟩ : ∃ X : (Fin 1 → ℝ) → Fin 2 → ℝ, X = fun u => ![tol / 2 + tol / 2 * u 0 + u 0 ^ 3, 0] := ⟨_, rfl⟩
  have hc : ∀ u k, X u k = ∑ j : Fin exCubic.n,
      (![![tol / 2, tol / 2, 0, 1], ![0, 0, 0, 0]] k : Fin 4 → ℝ) j * exCubic.basis j u := by
    intro u k
    rw [hXd]
    change _ = ∑ j : Fin 4, _
    fin_cases k <;> simp [Fin.sum_univ_four, exCubic]
  have hsp : Spans exCubic X := ⟨_, hc⟩
  have hone : Spans (a := 1) exCubic fun _ _ => 1 := by
    refine ⟨fun _ => (![1, 0, 0, 0] : Fin 4 → ℝ), ?_⟩
    intro u k
    change _ = ∑ j : Fin 4, _
    simp [Fin.sum_univ_four, exCubic]
  refine ⟨X, hsp, ?_, ?_⟩
  · have hcont : ContinuousOn (fun s : ℝ => tol / 2 + tol / 2 * s + s ^ 3) (Set.Icc (-1) 0) := by fun_prop
    have := intermediate_value_Ioo (by norm_num : (-1 : ℝ) ≤ 0) hcont
    obtain ⟨s, ⟨hs1, hs2⟩, hs3⟩ := this (show (0 : ℝ) ∈ _ from ⟨by norm_num, by norm_num; linarith⟩)
    refine ⟨s, hs1, by linarith, ?_⟩
    rw [hXd]
    simp only at hs3 ⊢
    rw [hs3]
    funext k
    fin_cases k <;> rfl
  · have hnear : ∀ f < 4, nearNodes tol (0 : Fin 2 → ℝ) (X (exCubic.nodes f)) = false := by
      intro f hf
      have hX0 : X (exCubic.nodes f) = ![X (exCubic.nodes f) 0, 0] := by
        rw [hXd]
        rfl
      rw [hX0]
      simp only [nearNodes, Fin.sum_univ_two, decide_eq_false_iff_not, not_lt]
      simp only [Pi.zero_apply, zero_sub, Matrix.cons_val_zero, Matrix.cons_val_one, neg_sq, sub_self, add_zero,
        ne_eq, OfNat.ofNat_ne_zero, not_false_eq_true, zero_pow, Real.sqrt_sq_eq_abs]
      rw [hXd]
      simp only [Matrix.cons_val_zero, exCubic]
      rw [le_abs]
      interval_cases f
      · right
        norm_num
        linarith
      · right
        norm_num
        linarith
      · left
        norm_num
        linarith
      · left
        norm_num
    have hmatch : ((List.range 1).mapM fun e => matchNodes 1 exCubic.n fun q f =>
        nearNodes tol ((fun _ _ => 0 : Nat → Nat → Fin 2 → ℝ) e q) (X (exCubic.nodes f))) = none := by
      have : (List.range exCubic.n).filter (fun f => nearNodes tol (0 : Fin 2 → ℝ) (X (exCubic.nodes f))) = [] := by
        rw [List.filter_eq_nil_iff]
        intro f hf
        rw [hnear f (List.mem_range.1 hf)]
        simp
      have hm : matchNodes 1 exCubic.n (fun _ f => nearNodes tol (0 : Fin 2 → ℝ) (X (exCubic.nodes f))) = none := by
        simp only [matchNodes, List.range_one, List.mapM_cons, this]
        rfl
      simp only [List.range_one, List.mapM_cons]
      change (matchNodes 1 exCubic.n fun _ f => nearNodes tol (0 : Fin 2 → ℝ) (X (exCubic.nodes f))) >>= _ = _
      rw [hm]
      rfl
    have hsum : coeffSum exCubic 0 = 1 := by
      have := congrFun (C95_map exCubic_det hone (src := fun _ _ => 1) (fun _ _ => rfl) 0) 0
      simpa [applyMap, coeffSum] using this
    have hX0 : X 0 = ![tol / 2, 0] := by
      rw [hXd]
      simp
    have hres : residAt exCubic (fun f => X (exCubic.nodes f)) 0 0 = ![tol / 2, 0] := by
      funext k
      rw [residAt, C95_map exCubic_det hsp (fun _ _ => rfl), hX0]
      simp
    have hjac : mapJac exCubic (fun f => X (exCubic.nodes f)) 0 = fun _ => ![tol / 2, 0] := by
      funext r k
      rw [mapJac_span exCubic_det hc (fun _ _ => rfl)]
      change ∑ j : Fin 4, _ = _
      fin_cases k <;> simp [Fin.sum_univ_four, exCubic]
    have hstep : gnStep lstsq 1 (fun _ => ![tol / 2, 0]) ![tol / 2, 0] = some fun _ => 1 := by
      have hne : tol ≠ 0 := h0.ne'
      have hata : ata (d := 1) (fun _ => ![tol / 2, 0]) 0 0 = tol / 2 * (tol / 2) := by
        simp [ata, Fin.sum_univ_two]
      have hatb : atb (d := 1) (fun _ => ![tol / 2, 0]) ![tol / 2, 0] 0 = tol / 2 * (tol / 2) := by
        simp [atb, Fin.sum_univ_two]
      have hnz : tol / 2 * (tol / 2) ≠ 0 := by positivity
      simp only [gnStep, hata, hatb, if_neg hnz, div_self hnz]
    have hU : ∃ U, findUnitNodes lstsq exCubic tol 1 1 (fun _ _ => 0) (fun _ f => X (exCubic.nodes f)) = .ok U ∧
        U 0 0 = some fun _ => -1 := by
      unfold findUnitNodes
      rw [hmatch]
      simp only
      unfold gaussNewton
      rw [if_neg exCubic_det, newtonLoop, if_pos, if_pos]
      · refine ⟨_, rfl, ?_⟩
        simp only [Option.bind_some]
        change (gnStep lstsq 1 (mapJac exCubic (fun f => X (exCubic.nodes f)) 0)
          (residAt exCubic (fun f => X (exCubic.nodes f)) 0 0)).map (fun δ => (0 : Fin 1 → ℝ) - δ) = _
        rw [hjac, hres, hstep, Option.map_some]
        congr 1
        funext k
        simp
      · intro e _ q _ k
        change |residAt exCubic (fun f => X (exCubic.nodes f)) 0 0 k| < tol
        rw [hres]
        fin_cases k
        · simp only [Fin.zero_eta, Matrix.cons_val_zero]
          rw [abs_of_pos (by linarith)]
          linarith
        · simpa using h0
      · intro e _ q _
        exact ⟨_, rfl, by change |coeffSum exCubic 0 - 1| < tol; rw [hsum]; simpa using h0⟩
    obtain ⟨U, hU1, hU2⟩ := hU
    refine ⟨U, _, hU1, hU2, ?_⟩
    rw [hXd]
    norm_num


/-- There is such a solver: orthogonal projection. -/
theorem lstsq_exists (a : Nat) : ∃ lstsq : ∀ d, (Fin d → Fin a → ℝ) → (Fin a → ℝ) → Fin d → ℝ, LstsqSound lstsq := by
  have key : ∀ d (J : Fin d → Fin a → ℝ) (r : Fin a → ℝ), ∃ δ, NormalEq J r δ := by
    intro d J r
    obtain ⟨V, hV⟩ : ∃ V : Fin d → EuclideanSpace ℝ (Fin a), V = fun j => WithLp.toLp 2 (J j) := ⟨_, rfl⟩
    obtain ⟨R, hR⟩ : ∃ R : EuclideanSpace ℝ (Fin a), R = WithLp.toLp 2 r := ⟨_, rfl⟩
    obtain ⟨c, hc⟩ := (Submodule.mem_span_range_iff_exists_fun ℝ).1
      ((Submodule.span ℝ (Set.range V)).starProjection_apply_mem R)
    refine ⟨c, ?_⟩
    intro i
    have h1 := Submodule.sub_starProjection_mem_orthogonal (K := Submodule.span ℝ (Set.range V)) R
    have h2 := (Submodule.mem_orthogonal _ _).1 h1 (V i) (Submodule.subset_span ⟨i, rfl⟩)
    rw [← hc] at h2
    have h3 : inner ℝ (V i) (R - ∑ j, c j • V j) = -∑ k, J i k * (∑ j, c j * J j k - r k) := by
      rw [PiLp.inner_apply, ← Finset.sum_neg_distrib]
      refine Finset.sum_congr rfl fun k _ => ?_
      simp [hV, hR]
      ring
    linarith
  choose f hf using key
  exact ⟨f, hf⟩

example (lstsq : ∀ d, (Fin d → Fin 2 → ℝ) → (Fin 2 → ℝ) → Fin d → ℝ) (hl : LstsqSound lstsq) :
    ∃ U, gaussNewton lstsq exCubic (1 / 100) 1 1 (fun _ _ => ![1 / 2, 0]) (fun _ f => ![exCubic.nodes f 0, 0]) = .ok U ∧
      ∀ e < 1, ∀ q < 1, U e q = some fun _ => 1 / 2 :=
  C95_straight hl exCubic_det exCubic_grads (by norm_num)
    ⟨fun _ => (![1, 0, 0, 0] : Fin 4 → ℝ), by
      intro u k
      change _ = ∑ j : Fin 4, _
      simp [Fin.sum_univ_four, exCubic]⟩
    (X := fun _ u => ![u 0, 0]) (b := fun _ => 0) (E := fun _ _ => ![1, 0])
    (fun _ _ => ⟨⟨(![![0, 1, 0, 0], ![0, 0, 0, 0]] : Fin 2 → Fin 4 → ℝ), by
      intro u k
      change _ = ∑ j : Fin 4, _
      fin_cases k <;> simp [Fin.sum_univ_four, exCubic]⟩,
      ⟨by intro u k; fin_cases k <;> simp, by
        rw [Fintype.linearIndependent_iff]
        intro c hc i
        have := congrFun hc 0
        simpa [Subsingleton.elim i 0] using this⟩, fun _ _ => rfl⟩)
    (w := fun _ _ _ => 1 / 2) (fun _ _ _ _ => rfl)

/-- Two nodes on a segment. (Example, no code.) -/
noncomputable def exTwoNode : FaceGroup 1 where
  nel := 2
  n := 2
  nodes := fun i _ => if i = 0 then -1 else 1
  basis := fun j u => u 0 ^ j
  grads := fun j u _ => j * u 0 ^ (j - 1)
  guess := 0

/-- The two sides of the edge between two triangles, in opposite directions. (Example, no code.) -/
noncomputable def exEdgeDiscr : BdryDiscr 2 1 := ⟨[exTwoNode], fun _ e q => if (e + q) % 2 = 0 then ![0, 0] else ![1, 0]⟩

theorem exEdge_origins : interiorOrigins exFaceMesh exFaceFags 0 = [⟨1, 0⟩, ⟨0, 1⟩] := by decide +kernel

theorem exEdge_pair {i j : Nat} {aff : Unit} {p : Nat × Nat} (h : AdjPair exFaceMesh exFaceFags i j aff p) :
    i = 0 ∧ j = 0 ∧ (p = (0, 1) ∨ p = (1, 0)) := by
  obtain ⟨fg, ig, rows, row, h1, h2, h3, h4, h5⟩ := h
  match i with
  | 0 =>
    simp only [exFaceFags, List.getElem?_cons_zero, Option.some.injEq] at h1
    subst h1
    simp only [List.mem_cons, Fag.interior.injEq, reduceCtorEq, List.not_mem_nil, or_false] at h2
    obtain ⟨rfl, rfl, rfl, _⟩ := h2
    rw [exEdge_origins] at h4 h5
    refine ⟨rfl, rfl, ?_⟩
    obtain ⟨x, y⟩ := p
    simp only [List.mem_cons, List.not_mem_nil, or_false] at h3
    rcases h3 with rfl | rfl
    · match x, y with
      | 0, _ => simp at h4
      | x + 2, _ => simp at h4
      | 1, 0 => simp
      | 1, 1 => simp at h5
      | 1, y + 2 => simp at h5
    · match x, y with
      | 1, _ => simp at h4
      | x + 2, _ => simp at h4
      | 0, 1 => simp
      | 0, 0 => simp at h5
      | 0, y + 2 => simp at h5
  | i + 1 => simp [exFaceFags] at h1

theorem exEdge_conforming : ConformingNodes exFaceMesh exFaceFags (1 / 2) (fun _ x => x) exEdgeDiscr := by
  intro i j aff p tg g hp htg hg q hq
  obtain ⟨rfl, rfl, hpp⟩ := exEdge_pair hp
  clear hp
  have e1 : exTwoNode = tg := by simpa [exEdgeDiscr] using htg
  have e2 : exTwoNode = g := by simpa [exEdgeDiscr] using hg
  subst e1
  subst e2
  have hq2 : q < 2 := hq
  refine ⟨1 - q, show 1 - q < 2 by omega, ?_, ?_⟩
  · have : exEdgeDiscr.pos 0 p.1 q = exEdgeDiscr.pos 0 p.2 (1 - q) := by
      rcases hpp with rfl | rfl <;> interval_cases q <;> rfl
    simp [this]
  · intro f' hf' hn
    have hf2 : f' < 2 := hf'
    by_contra hne
    have : exEdgeDiscr.pos 0 p.1 q 1 = 0 ∧ exEdgeDiscr.pos 0 p.2 f' 1 = 0 ∧
        (exEdgeDiscr.pos 0 p.1 q 0 - exEdgeDiscr.pos 0 p.2 f' 0) ^ 2 = 1 := by
      rcases hpp with rfl | rfl <;> interval_cases q <;> interval_cases f' <;> simp_all [exEdgeDiscr]
    simp only [Fin.sum_univ_two] at hn
    rw [this.1, this.2.1, this.2.2] at hn
    norm_num at hn

theorem exTwoNode_sep : ∀ (j : Nat) g, exEdgeDiscr.groups[j]? = some g →
      ∀ f < g.n, ∀ f' < g.n, (∀ k, |g.nodes f k - g.nodes f' k| < 1 / 2) → f = f' := by
  intro j g hg f hf f' hf' h
  match j with
  | 0 =>
    have e2 : exTwoNode = g := by simpa [exEdgeDiscr] using hg
    subst e2
    have := h 0
    have hf2 : f < 2 := hf
    have hf2' : f' < 2 := hf'
    interval_cases f <;> interval_cases f' <;> simp [exTwoNode] at this ⊢ <;> norm_num at this
  | j + 1 => simp [exEdgeDiscr] at hg

/-- The interior faces. (Example, no code.) -/
noncomputable def exEdgeRestr : Option (FaceRestr (Nat × Nat) (List (Fin 1 → ℝ))) :=
  makeFaceRestriction false (fun _ _ => []) (fun _ f n => (f, n)) .interior 4 exFaceMesh exFaceFags

open Classical in
/-- Exact search. (Example, no code.) -/
noncomputable def exSearch (src tgt : List (Fin 1 → ℝ)) : List (Option Nat) :=
  src.map fun x => if x ∈ tgt then some (tgt.idxOf x) else none

/-- Sources and targets with the same two nodes. -/
theorem exTwoNode_values (v : Nat → ℝ) : ∃ c, HasValues exTwoNode.toS c v := by
  refine ⟨[(v 0 + v 1) / 2, (v 1 - v 0) / 2], rfl, ?_⟩
  intro i x hx
  have hi : i < 2 := (List.getElem?_eq_some_iff.1 hx).1
  have hxe : exTwoNode.nodes i = x := by
    simpa [FaceGroup.toS, List.getElem?_map, List.getElem?_range (show i < exTwoNode.n from hi)] using hx
  subst hxe
  have hb : exTwoNode.toS.basis = [exTwoNode.basis 0, exTwoNode.basis 1] := rfl
  rw [hb]
  interval_cases i
  · simp [evalAt, exTwoNode]
    ring
  · simp [evalAt, exTwoNode]
    ring

theorem exSearch_near : FindNear 0 exSearch := by
  intro src tgt
  unfold exSearch
  rw [List.forall₂_map_right_iff]
  refine List.forall₂_same.2 ?_
  intro x _ j hj
  split at hj
  · rename_i hm
    obtain rfl := Option.some.inj hj
    exact ⟨x, getElem?_idxOf' hm, by simp⟩
  · simp at hj

theorem exSearch_complete (src tgt : List (Fin 1 → ℝ)) (hin : ∀ x ∈ src, x ∈ tgt) : none ∉ exSearch src tgt := by
  intro hm
  obtain ⟨x, hx, hx'⟩ := List.mem_map.1 hm
  simp [hin x hx] at hx'

theorem exTwoNode_grads : GradsOK exTwoNode := exCubic_grads

/-- The hypotheses of C95_conforming_defined, C95_conforming_call and C95_conforming hold together; the data of the
two sides are exchanged, in the opposite order. -/
example (lstsq : ∀ d, (Fin d → Fin 2 → ℝ) → (Fin 2 → ℝ) → Fin d → ℝ) (ary : DofArr ℝ) :
    ∃ r opp u, exEdgeRestr = some r ∧
      makeOpposite (crossOpposite lstsq (1 / 2) (fun _ x => x) exEdgeDiscr) (exFaceMesh.map ElGroup.nfaces) exFaceFags
        r.batches = some opp ∧
      (SameConn.direct (exEdgeDiscr.groups.map FaceGroup.toS) (exEdgeDiscr.groups.map FaceGroup.toS) opp true).call
        exSearch (fun _ _ _ => none) true ary = .ok u ∧
      ∀ t < 2, ∀ q < 2, u 0 t q = ary 0 (1 - t) (1 - q) := by
  have hlen : (exEdgeRestr.map fun r => r.groups.map List.length) = some [2] := by decide +kernel
  obtain ⟨r, hr, hgl⟩ := Option.map_eq_some_iff.1 hlen
  have hnf : ∀ g ∈ exFaceMesh, 0 < g.nfaces := by decide
  obtain ⟨opp, hopp⟩ := C95_conforming_defined (lstsq := lstsq) hr hnf exFaceFags_ok (by norm_num : (0 : ℝ) < 1 / 2)
    (D := exEdgeDiscr) (by
      intro i hi
      have : i = 0 := by simpa [exFaceMesh] using hi
      subst this
      exact ⟨_, rfl⟩) exEdge_conforming
  obtain ⟨u, hu⟩ := C95_conforming_call (by norm_num) hr hnf exFaceFags_ok hopp exTwoNode_sep exEdge_conforming
    (find := exSearch) (fun _ _ _ => none) exSearch_complete (by
      intro bs hbs
      obtain ⟨i, hi⟩ := List.mem_iff_getElem?.1 hbs
      obtain ⟨els, h1, h2⟩ := opposite_batch_count hr hnf exFaceFags_ok hopp hi
      have h3 : (r.groups.map List.length)[i]? = some els.length := by rw [List.getElem?_map, h1]; rfl
      rw [hgl] at h3
      have := List.mem_of_getElem? h3
      simp at this
      omega) true true ary
  refine ⟨r, opp, u, hr, hopp, hu, ?_⟩
  intro t ht q hq
  have hor : ∃ ef : ElFace, (interiorOrigins exFaceMesh exFaceFags 0)[t]? = some ef := by
    rw [exEdge_origins]
    exact ⟨_, List.getElem?_eq_getElem (by simpa using ht)⟩
  obtain ⟨⟨el, f⟩, hef⟩ := hor
  obtain ⟨fg, ig, j, rows, aff, el', f', s, g, q', h1, h2, h3, h4, h5, h6, h7⟩ :=
    C95_conforming (by norm_num) hr hnf exFaceFags_ok hopp (by
      intro j g hg
      match j with
      | 0 =>
        have e2 : exTwoNode = g := by simpa [exEdgeDiscr] using hg
        refine ⟨?_, ?_, exTwoNode_sep 0 g hg⟩
        · subst e2
          rw [exEdge_origins]
          rfl
        · subst e2
          decide
      | j + 1 => simp [exEdgeDiscr] at hg) exEdge_conforming (find := exSearch) exSearch_near
      (by intro basis new old M _ h; simp at h) hu hef rfl (show q < 2 from hq)
  have hp : AdjPair exFaceMesh exFaceFags 0 j aff (t, s) := ⟨fg, ig, rows, _, h1, h2, h3, hef, h4⟩
  obtain ⟨_, rfl, hp2⟩ := exEdge_pair hp
  have hs : s = 1 - t := by rcases hp2 with h | h <;> simp at h <;> omega
  subst hs
  have e2 : exTwoNode = g := by simpa [exEdgeDiscr] using h5
  subst e2
  have hq' : 1 - q = q' := by
    refine h6.2.2 _ (show 1 - q < 2 by omega) ?_
    have : exEdgeDiscr.pos 0 t q = exEdgeDiscr.pos 0 (1 - t) (1 - q) := by
      interval_cases t <;> interval_cases q <;> rfl
    simp [this]
  rw [hq']
  exact h7 (exTwoNode_values _)

/-- The faces of C95_opposite in the example: the parametrizations of the two sides. -/
example : (∀ (j : Nat) g, exEdgeDiscr.groups[j]? = some g →
      g.nel = (interiorOrigins exFaceMesh exFaceFags j).length ∧ 0 < g.n ∧ GradsOK g) ∧
    ∀ (j : Nat) g s, exEdgeDiscr.groups[j]? = some g → s < g.nel →
      Spans g (fun u => ![(1 + (-1) ^ s * u 0) / 2, 0]) ∧
        ∀ f < g.n, (fun u : Fin 1 → ℝ => ![(1 + (-1) ^ s * u 0) / 2, 0]) (g.nodes f) = exEdgeDiscr.pos j s f := by
  refine ⟨?_, ?_⟩
  · intro j g hg
    match j with
    | 0 =>
      have e2 : exTwoNode = g := by simpa [exEdgeDiscr] using hg
      subst e2
      exact ⟨by rw [exEdge_origins]; rfl, by decide, exTwoNode_grads⟩
    | j + 1 => simp [exEdgeDiscr] at hg
  · intro j g s hg hs
    match j with
    | 0 =>
      have e2 : exTwoNode = g := by simpa [exEdgeDiscr] using hg
      subst e2
      have hs2 : s < 2 := hs
      refine ⟨⟨(![![1 / 2, (-1) ^ s / 2], ![0, 0]] : Fin 2 → Fin 2 → ℝ), ?_⟩, ?_⟩
      · intro u k
        change _ = ∑ j : Fin 2, _
        fin_cases k <;> simp [Fin.sum_univ_two, exTwoNode]
        ring
      · intro f hf
        have hf2 : f < 2 := hf
        interval_cases s <;> interval_cases f <;> simp [exTwoNode, exEdgeDiscr]
    | j + 1 => simp [exEdgeDiscr] at hg

/-- Two groups of one face each on one part. (Example, no code.) -/
noncomputable def exPartT : BdryDiscr 2 1 :=
  ⟨[{ exTwoNode with nel := 1 }, { exTwoNode with nel := 1 }], fun i _ k => if k = 0 then ![0, i] else ![1, i]⟩

/-- One group of two faces on the other part, with the nodes in the opposite order. (Example, no code.) -/
noncomputable def exPartS : BdryDiscr 2 1 := ⟨[exTwoNode], fun _ s f => if f = 0 then ![1, s] else ![0, s]⟩

theorem exPart_originsP (i : Nat) (hi : i < 2) : ∃ ef, tagOrigins (.partition 1) exPartP exPartFP i = [ef] := by
  interval_cases i
  · exact ⟨⟨0, 2⟩, by decide +kernel⟩
  · exact ⟨⟨0, 1⟩, by decide +kernel⟩

theorem exPart_originsQ : tagOrigins (.partition 0) exPartQ exPartFQ 0 = [⟨1, 0⟩, ⟨0, 2⟩] := by decide +kernel

theorem exPart_pair {i j : Nat} {aff : Unit} {x : Nat × Nat}
    (h : AdjPartPair (.partition 0) (.partition 1) exPartP exPartQ exPartFP exPartFQ 0 i j aff x) :
    i < 2 ∧ j = 0 ∧ x = (0, i) := by
  obtain ⟨fg, t', rows, row, el, h1, h2, h3, h4, h5, h6⟩ := h
  have hi : i < 2 := by
    by_contra hn
    simp [tagOrigins, exPartP, show ¬ i < 2 by omega] at h5
  match j with
  | 0 =>
    cases h1
    simp at h2
    obtain ⟨_, rfl⟩ := h2
    obtain ⟨ef, he⟩ := exPart_originsP i hi
    rw [he] at h5
    rw [exPart_originsQ] at h6
    obtain ⟨a, b⟩ := x
    have ha : a = 0 := by
      match a with
      | 0 => rfl
      | a + 1 => simp at h5
    subst ha
    refine ⟨hi, rfl, ?_⟩
    obtain ⟨n, k1, k2, k3⟩ := h4
    simp at h3
    rcases h3 with rfl | rfl
    · have : b = 0 := by
        match b with
        | 0 => rfl
        | 1 => simp at h6
        | b + 2 => simp at h6
      subst this
      interval_cases i
      · rfl
      · simp [exPartP, ElGroup.nelements] at k3
        omega
    · have : b = 1 := by
        match b with
        | 0 => simp at h6
        | 1 => rfl
        | b + 2 => simp at h6
      subst this
      interval_cases i
      · simp [exPartP, ElGroup.nelements] at k1 k3
        omega
      · rfl
  | j + 1 => simp [exPartFQ] at h1

theorem exPart_conforming : ConformingParts (.partition 0) (.partition 1) exPartP exPartQ exPartFP exPartFQ 0 (1 / 2)
    (fun _ x => x) exPartT exPartS := by
  intro i j aff x tg g hp htg hg k hk
  obtain ⟨hi, rfl, rfl⟩ := exPart_pair hp
  clear hp
  have e2 : exTwoNode = g := by simpa [exPartS] using hg
  subst e2
  have hk2 : k < 2 := by
    interval_cases i
    · obtain rfl := Option.some.inj htg
      exact hk
    · obtain rfl := Option.some.inj htg
      exact hk
  refine ⟨1 - k, show 1 - k < 2 by omega, ?_, ?_⟩
  · have : exPartT.pos i 0 k = exPartS.pos 0 i (1 - k) := by
      interval_cases k <;> rfl
    simp [this]
  · intro f' hf' hn
    have hf2 : f' < 2 := hf'
    by_contra hne
    have : exPartT.pos i 0 k 1 = i ∧ exPartS.pos 0 i f' 1 = i ∧
        (exPartT.pos i 0 k 0 - exPartS.pos 0 i f' 0) ^ 2 = 1 := by
      interval_cases k <;> interval_cases f' <;> simp_all [exPartT, exPartS]
    simp only [Fin.sum_univ_two] at hn
    rw [this.1, this.2.1, this.2.2] at hn
    norm_num at hn

theorem exPartS_sep : ∀ (j : Nat) g, exPartS.groups[j]? = some g →
      ∀ f < g.n, ∀ f' < g.n, (∀ k, |g.nodes f k - g.nodes f' k| < 1 / 2) → f = f' := exTwoNode_sep

/-- The faces between the parts. (Example, no code.) -/
def exPartRP : Option (FaceRestr (Nat × Nat) (List (Fin 1 → ℝ))) :=
  makeFaceRestriction false (fun _ _ => []) (fun _ f n => (f, n)) (.tag (.partition 1)) 4 exPartP exPartFP

/-- The same of the other part. (Example, no code.) -/
def exPartRQ : Option (FaceRestr (Nat × Nat) (List (Fin 1 → ℝ))) :=
  makeFaceRestriction false (fun _ _ => []) (fun _ f n => (f, n)) (.tag (.partition 0)) 4 exPartQ exPartFQ

/-- The hypotheses of C95_partition_defined, C95_partition_call and C95_partition_conforming hold together. -/
example (lstsq : ∀ d, (Fin d → Fin 2 → ℝ) → (Fin 2 → ℝ) → Fin d → ℝ) (ary : DofArr ℝ) :
    ∃ rP rQ conn u, exPartRP = some rP ∧ exPartRQ = some rQ ∧
      makePartConn (crossPart lstsq (1 / 2) (fun _ x => x) exPartT exPartS) (exPartP.map ElGroup.nelements) rP.batches
        (makeRemoteInfos 0 exPartFQ rQ.batches) = some conn ∧
      (SameConn.direct (exPartS.groups.map FaceGroup.toS) (exPartT.groups.map FaceGroup.toS) conn true).call
        exSearch (fun _ _ _ => none) true ary = .ok u ∧
      ∀ i < 2, ∀ k < 2, u i 0 k = ary 0 i (1 - k) := by
  have hlen : (exPartRP.map fun r => r.groups.map List.length) = some [1, 1] := by decide +kernel
  have hlen' : (exPartRQ.map fun r => r.groups.map List.length) = some [2] := by decide +kernel
  obtain ⟨rP, hrP, hgl⟩ := Option.map_eq_some_iff.1 hlen
  obtain ⟨rQ, hrQ, _⟩ := Option.map_eq_some_iff.1 hlen'
  have hnfP : ∀ g ∈ exPartP, 0 < g.nfaces := by decide
  have hnfQ : ∀ g ∈ exPartQ, 0 < g.nfaces := by decide
  obtain ⟨conn, hconn⟩ := C95_partition_defined (lstsq := lstsq) hrP hrQ hnfP hnfQ exPartP_side exPartQ_side exPart_symm
    (by norm_num : (0 : ℝ) < 1 / 2) (T := exPartT) (S := exPartS) (by
      intro i hi
      have hi : i < 2 := hi
      interval_cases i <;> exact ⟨_, rfl⟩) (by
      intro i hi
      have hi : i < 1 := hi
      interval_cases i
      exact ⟨_, rfl⟩) exPart_conforming
  obtain ⟨u, hu⟩ := C95_partition_call (by norm_num) hrP hrQ hnfP hnfQ exPartP_side exPartQ_side exPart_symm hconn
    exPartS_sep exPart_conforming (find := exSearch) (fun _ _ _ => none) exSearch_complete (by
      intro bs hbs
      obtain ⟨i, hi⟩ := List.mem_iff_getElem?.1 hbs
      obtain ⟨els, h1, h2⟩ := partition_batch_count hrP hrQ hnfP hnfQ exPartP_side exPartQ_side exPart_symm hconn hi
      have h3 : (rP.groups.map List.length)[i]? = some els.length := by rw [List.getElem?_map, h1]; rfl
      rw [hgl] at h3
      have := List.mem_of_getElem? h3
      simp at this
      omega) true true ary
  refine ⟨rP, rQ, conn, u, hrP, hrQ, hconn, hu, ?_⟩
  intro i hi k hk
  obtain ⟨ef, hef⟩ := exPart_originsP i hi
  have htg : ∃ tg, exPartT.groups[i]? = some tg ∧ tg.n = 2 := by interval_cases i <;> exact ⟨_, rfl, rfl⟩
  obtain ⟨tg, htg, hn⟩ := htg
  obtain ⟨j, fg, t', rows, aff, row, s, g, h1, h2, h3, h4, h4', h4'', h5, k', h6, h7⟩ :=
    C95_partition_conforming (by norm_num) hrP hrQ hnfP hnfQ exPartP_side exPartQ_side exPart_symm hconn (by
      intro j g hg
      match j with
      | 0 =>
        have e2 : exTwoNode = g := by simpa [exPartS] using hg
        refine ⟨?_, ?_, exPartS_sep 0 g hg⟩
        · subst e2
          rw [exPart_originsQ]
          rfl
        · subst e2
          decide
      | j + 1 => simp [exPartS] at hg) exPart_conforming (find := exSearch) exSearch_near
      (by intro basis new old M _ h; simp at h) hu (i := i) (t := 0) (el := ef.el) (f := ef.face) (by rw [hef]; rfl)
      htg (k := k) (by omega)
  have hp : AdjPartPair (.partition 0) (.partition 1) exPartP exPartQ exPartFP exPartFQ 0 i j aff (0, s) :=
    ⟨fg, t', rows, row, ef.el, h1, h2, h3, h4, by rw [hef, h4']; rfl, h4''⟩
  obtain ⟨_, rfl, hp2⟩ := exPart_pair hp
  obtain ⟨_, rfl⟩ := Prod.mk.inj hp2
  have e2 : exTwoNode = g := by simpa [exPartS] using h5
  subst e2
  have hk' : 1 - k = k' := by
    refine h6.2.2 _ (show 1 - k < 2 by omega) ?_
    have : exPartT.pos s 0 k = exPartS.pos 0 s (1 - k) := by
      interval_cases k <;> rfl
    simp [this]
  rw [hk']
  exact h7 (exTwoNode_values _)

end Meshmode
