import Verif.Mesh.Consistency
import Mathlib.Algebra.MvPolynomial.PDeriv
import Mathlib.Algebra.MvPolynomial.Degrees
import Mathlib.LinearAlgebra.Matrix.NonsingularInverse
import Mathlib.LinearAlgebra.Finsupp.LinearCombination
import Mathlib.Tactic.FinCases
import Mathlib.Tactic.NormNum

/-!
# Which element groups are affine (C67)

`is_affine_simplex_group` and the property `is_affine`: meshmode/mesh/__init__.py:432-449, 2238-2280.
Arithmetic is exact; the inverse Vandermonde matrix and the differentiation matrices (modepy, scipy) are
parameters.
-/
namespace Meshmode

open MvPolynomial Matrix

/-! ## Model -/

section
variable {K : Type} [Field K] [LinearOrder K]
variable {dim amb n : Nat}

/-- The matrices of second derivatives, one for each pair `i ≤ j`, meshmode/mesh/__init__.py:2261-2268. -/
def secondMats (vinv : Matrix (Fin n) (Fin n) K) (diff : Fin dim → Matrix (Fin n) (Fin n) K) :
    List (Matrix (Fin n) (Fin n) K) :=
  (((List.finRange dim).flatMap fun i => (List.finRange dim).map fun j => (i, j)).filter
    fun p => !(decide (p.1 > p.2))).map fun p => vinv * (diff p.1 * diff p.2)

/-- The entries of `np.abs(np.einsum("aij,bcj->abci", mats, nodes))`, meshmode/mesh/__init__.py:2271,
2277; the nodes are given element by element, then by coordinate. -/
def ddxCoeffs (mats : List (Matrix (Fin n) (Fin n) K)) (els : List (Fin amb → Fin n → K)) : List K :=
  mats.flatMap fun M => (List.finRange amb).flatMap fun b => els.flatMap fun e =>
    (List.finRange n).map fun i => |(M *ᵥ e b) i|

/-- `is_affine_simplex_group` for a group of simplices, meshmode/mesh/__init__.py:2238-2280.  `none`:
an exception, since `np.max` gets no entries. -/
def isAffineSimplexGroup (absTol : K) (vinv : Matrix (Fin n) (Fin n) K)
    (diff : Fin dim → Matrix (Fin n) (Fin n) K) (els : List (Fin amb → Fin n → K)) : Option Bool :=
  match els with
  | [] => some true
  | e :: _ =>
    (npMax (ddxCoeffs (secondMats vinv diff) [e])).bind fun m =>
      if m > absTol then some false
      else (npMax (ddxCoeffs (secondMats vinv diff) els)).map fun m => decide (m < absTol)

/-- The property `is_affine` of the element groups, meshmode/mesh/__init__.py:432-449: `simplex` says
whether it is a group of simplices, otherwise it is one of tensor product elements. -/
def groupIsAffine (simplex : Bool) (absTol : K) (vinv : Matrix (Fin n) (Fin n) K)
    (diff : Fin dim → Matrix (Fin n) (Fin n) K) (els : List (Fin amb → Fin n → K)) : Option Bool :=
  if simplex then isAffineSimplexGroup absTol vinv diff els else some false

end

/-! ## Specification -/

section
variable {K : Type} [Field K]
variable {dim amb n : Nat}

/-- The values of a polynomial at the unit nodes. (Specification or proof vocabulary, no code.) -/
noncomputable def nodeVals (x : Fin n → Fin dim → K) (p : MvPolynomial (Fin dim) K) : Fin n → K :=
  fun j => eval (x j) p

/-- What the matrices are: the inverse of the Vandermonde matrix, and the matrices taking values of the
basis polynomials to values of their derivatives, which are again in the space.
(Specification or proof vocabulary, no code.) -/
structure DiffOk (basis : Fin n → MvPolynomial (Fin dim) K) (x : Fin n → Fin dim → K)
    (vinv : Matrix (Fin n) (Fin n) K) (diff : Fin dim → Matrix (Fin n) (Fin n) K) : Prop where
  inv : vinv * Matrix.of (fun j k => eval (x j) (basis k)) = 1
  diff : ∀ i, diff i * Matrix.of (fun j k => eval (x j) (basis k)) =
    Matrix.of fun j k => eval (x j) (pderiv i (basis k))
  closed : ∀ i k, pderiv i (basis k) ∈ Submodule.span K (Set.range basis)

/-- The elements whose coordinates are the given polynomials of the space, evaluated at the unit nodes.
(Specification or proof vocabulary, no code.) -/
noncomputable def elementsOf (x : Fin n → Fin dim → K) (Ps : List (Fin amb → MvPolynomial (Fin dim) K)) :
    List (Fin amb → Fin n → K) :=
  Ps.map fun P b => nodeVals x (P b)

end

/-! ## Proofs -/

section
variable {K : Type} [Field K]
variable {dim amb n : Nat} {basis : Fin n → MvPolynomial (Fin dim) K} {x : Fin n → Fin dim → K}
variable {vinv : Matrix (Fin n) (Fin n) K} {diff : Fin dim → Matrix (Fin n) (Fin n) K}

theorem nodeVals_sum (c : Fin n → K) (q : Fin n → MvPolynomial (Fin dim) K) :
    nodeVals x (∑ k, c k • q k) = (Matrix.of fun j k => eval (x j) (q k)) *ᵥ c := by
  funext j
  simp only [nodeVals, map_sum, smul_eval, mulVec, dotProduct, Matrix.of_apply]
  exact Finset.sum_congr rfl fun k _ => mul_comm _ _

theorem DiffOk.coeffs (h : DiffOk basis x vinv diff) (c : Fin n → K) :
    vinv *ᵥ nodeVals x (∑ k, c k • basis k) = c := by
  rw [nodeVals_sum, Matrix.mulVec_mulVec, h.inv, Matrix.one_mulVec]

theorem DiffOk.pderiv_vals (h : DiffOk basis x vinv diff) {p : MvPolynomial (Fin dim) K}
    (hp : p ∈ Submodule.span K (Set.range basis)) (i : Fin dim) :
    diff i *ᵥ nodeVals x p = nodeVals x (pderiv i p) ∧
      pderiv i p ∈ Submodule.span K (Set.range basis) := by
  obtain ⟨c, rfl⟩ := (Submodule.mem_span_range_iff_exists_fun K).1 hp
  have hd : pderiv i (∑ k, c k • basis k) = ∑ k, c k • pderiv i (basis k) := by
    simp only [map_sum, Derivation.map_smul]
  rw [hd]
  constructor
  · rw [nodeVals_sum, nodeVals_sum, Matrix.mulVec_mulVec, h.diff]
  · exact Submodule.sum_mem _ fun k _ => Submodule.smul_mem _ _ (h.closed i k)

/-- The matrices give the coefficients of the second derivatives. -/
theorem DiffOk.second (h : DiffOk basis x vinv diff) {p : MvPolynomial (Fin dim) K}
    (hp : p ∈ Submodule.span K (Set.range basis)) (i j : Fin dim) :
    ∃ c : Fin n → K, pderiv i (pderiv j p) = ∑ k, c k • basis k ∧
      (vinv * (diff i * diff j)) *ᵥ nodeVals x p = c := by
  obtain ⟨h1, h2⟩ := h.pderiv_vals hp j
  obtain ⟨h3, h4⟩ := h.pderiv_vals h2 i
  obtain ⟨c, hc⟩ := (Submodule.mem_span_range_iff_exists_fun K).1 h4
  refine ⟨c, hc.symm, ?_⟩
  rw [← Matrix.mulVec_mulVec, ← Matrix.mulVec_mulVec, h1, h3, ← hc, h.coeffs]

/-- All second derivatives vanish exactly for polynomials of degree at most one. -/
theorem second_derivs_zero_iff [CharZero K] {p : MvPolynomial (Fin dim) K} :
    (∀ i j, pderiv i (pderiv j p) = 0) ↔ p.totalDegree ≤ 1 := by
  constructor
  · intro h
    rw [totalDegree, Finset.sup_le_iff]
    intro m hm
    by_contra hlt
    have hdeg : 2 ≤ m.sum fun _ e => e := by omega
    have h1 : ∃ i, 0 < m i := by
      by_contra hne
      push Not at hne
      have : m = 0 := by ext i; have := hne i; simpa using this
      rw [this] at hdeg; simp at hdeg
    obtain ⟨i, hi⟩ := h1
    have hsum : m = (m - Finsupp.single i 1) + Finsupp.single i 1 := by
      ext k
      by_cases hk : k = i
      · subst hk; simp; omega
      · simp [Finsupp.single_eq_of_ne hk]
    have h2 : ∃ j, 0 < (m - Finsupp.single i 1 : Fin dim →₀ ℕ) j := by
      by_contra hne
      push Not at hne
      have : m - Finsupp.single i 1 = 0 := by ext j; have := hne j; simpa using this
      rw [this, zero_add] at hsum
      rw [hsum, Finsupp.sum_single_index rfl] at hdeg
      omega
    obtain ⟨j, hj⟩ := h2
    generalize hm' : m - Finsupp.single i 1 = m' at hsum hj
    have hsum2 : m' = (m' - Finsupp.single j 1) + Finsupp.single j 1 := by
      ext k
      by_cases hk : k = j
      · subst hk; simp; omega
      · simp [Finsupp.single_eq_of_ne hk]
    have := congrArg (coeff (m' - Finsupp.single j 1)) (h j i)
    rw [coeff_pderiv, ← hsum2, coeff_pderiv, ← hsum, coeff_zero] at this
    have hne : coeff m p ≠ 0 := mem_support_iff.1 hm
    exact mul_ne_zero (mul_ne_zero hne (Nat.cast_add_one_ne_zero _)) (Nat.cast_add_one_ne_zero _) this
  · intro h i j
    ext m
    rw [coeff_pderiv, coeff_pderiv, coeff_zero, coeff_eq_zero_of_totalDegree_lt, zero_mul, zero_mul]
    refine lt_of_le_of_lt h ?_
    have hs : (m + Finsupp.single i 1 + Finsupp.single j 1).sum (fun _ e => e) =
        m.sum (fun _ e => e) + 1 + 1 := by
      rw [Finsupp.sum_add_index' (fun _ => rfl) (fun _ _ _ => rfl),
        Finsupp.sum_add_index' (fun _ => rfl) (fun _ _ _ => rfl), Finsupp.sum_single_index rfl,
        Finsupp.sum_single_index rfl]
    exact lt_of_lt_of_eq (by omega) hs.symm

theorem pderiv_comm' (i j : Fin dim) (p : MvPolynomial (Fin dim) K) :
    pderiv i (pderiv j p) = pderiv j (pderiv i p) := by
  by_cases hij : i = j
  · rw [hij]
  ext m
  rw [coeff_pderiv, coeff_pderiv, coeff_pderiv, coeff_pderiv, add_right_comm]
  simp only [Finsupp.add_apply, Finsupp.single_eq_of_ne hij, Finsupp.single_eq_of_ne (Ne.symm hij),
    add_zero]
  ring

/-- C67: every array of node coordinates belongs to exactly one polynomial of the space, which is the
map the element stands for. -/
theorem C67_element_map (h : DiffOk basis x vinv diff) (v : Fin n → K) :
    ∃! p, p ∈ Submodule.span K (Set.range basis) ∧ nodeVals x p = v := by
  refine ⟨∑ k, (vinv *ᵥ v) k • basis k, ⟨(Submodule.mem_span_range_iff_exists_fun K).2 ⟨_, rfl⟩, ?_⟩, ?_⟩
  · rw [nodeVals_sum, Matrix.mulVec_mulVec, mul_eq_one_comm.1 h.inv, Matrix.one_mulVec]
  · rintro q ⟨hq, rfl⟩
    obtain ⟨c, rfl⟩ := (Submodule.mem_span_range_iff_exists_fun K).1 hq
    rw [h.coeffs]

end

section
variable {K : Type} [Field K] [LinearOrder K] [IsStrictOrderedRing K]
variable {dim amb n : Nat} {basis : Fin n → MvPolynomial (Fin dim) K} {x : Fin n → Fin dim → K}
variable {vinv : Matrix (Fin n) (Fin n) K} {diff : Fin dim → Matrix (Fin n) (Fin n) K}

omit [LinearOrder K] [IsStrictOrderedRing K] in
theorem mem_secondMats {M : Matrix (Fin n) (Fin n) K} :
    M ∈ secondMats vinv diff ↔ ∃ i j, i ≤ j ∧ M = vinv * (diff i * diff j) := by
  simp only [secondMats, List.mem_map, List.mem_filter, List.mem_flatMap, List.mem_finRange, true_and,
    Bool.not_eq_true', decide_eq_false_iff_not, not_lt, gt_iff_lt]
  constructor
  · rintro ⟨⟨i, j⟩, ⟨_, hij⟩, rfl⟩; exact ⟨i, j, hij, rfl⟩
  · rintro ⟨i, j, hij, rfl⟩; exact ⟨(i, j), ⟨⟨i, j, rfl⟩, hij⟩, rfl⟩

omit [IsStrictOrderedRing K] in
theorem mem_ddxCoeffs {mats : List (Matrix (Fin n) (Fin n) K)} {els : List (Fin amb → Fin n → K)} {y : K} :
    y ∈ ddxCoeffs mats els ↔ ∃ M ∈ mats, ∃ b, ∃ e ∈ els, ∃ i, |(M *ᵥ e b) i| = y := by
  simp [ddxCoeffs]

omit [IsStrictOrderedRing K] in
/-- The answer in terms of the coefficients. -/
theorem isAffine_true_iff {tol : K} (hdim : 0 < dim) (hamb : 0 < amb) (hn : 0 < n)
    {els : List (Fin amb → Fin n → K)} :
    ∃ r, isAffineSimplexGroup tol vinv diff els = some r ∧
      (r = true ↔ ∀ y ∈ ddxCoeffs (secondMats vinv diff) els, y < tol) := by
  cases els with
  | nil => exact ⟨true, rfl, by simp [ddxCoeffs]⟩
  | cons e els =>
    have hne : ∀ l : List (Fin amb → Fin n → K), e ∈ l →
        ddxCoeffs (secondMats vinv diff) l ≠ [] := by
      intro l hl
      refine List.ne_nil_of_mem (mem_ddxCoeffs.2 ⟨vinv * (diff ⟨0, hdim⟩ * diff ⟨0, hdim⟩),
        mem_secondMats.2 ⟨_, _, le_refl _, rfl⟩, ⟨0, hamb⟩, e, hl, ⟨0, hn⟩, rfl⟩)
    obtain ⟨m1, h1, h1m, h1le⟩ := npMax_spec (hne [e] (by simp))
    obtain ⟨m2, h2, h2m, h2le⟩ := npMax_spec (hne (e :: els) (by simp))
    have hsub : m1 ∈ ddxCoeffs (secondMats vinv diff) (e :: els) := by
      obtain ⟨M, hM, b, e', he', i, hy⟩ := mem_ddxCoeffs.1 h1m
      simp only [List.mem_singleton] at he'
      subst he'
      exact mem_ddxCoeffs.2 ⟨M, hM, b, e', by simp, i, hy⟩
    simp only [isAffineSimplexGroup, h1, h2, Option.bind_some, Option.map_some]
    by_cases hgt : m1 > tol
    · refine ⟨false, by rw [if_pos hgt], ?_⟩
      simp only [Bool.false_eq_true, false_iff, not_forall]
      exact ⟨m1, hsub, not_lt.2 hgt.le⟩
    · refine ⟨decide (m2 < tol), by rw [if_neg hgt], ?_⟩
      rw [decide_eq_true_eq]
      exact ⟨fun h y hy => lt_of_le_of_lt (h2le y hy) h, fun h => h m2 h2m⟩

omit [IsStrictOrderedRing K] in
/-- C67: the answer for elements of dimension at least one is `True` exactly if in all elements all
coefficients of all second derivatives of the coordinates, in the basis of the space, are smaller than
the tolerance in absolute value. -/
theorem C67_true_iff (h : DiffOk basis x vinv diff) {tol : K} (hdim : 0 < dim) (hamb : 0 < amb)
    (hn : 0 < n) {Ps : List (Fin amb → MvPolynomial (Fin dim) K)}
    (hPs : ∀ P ∈ Ps, ∀ b, P b ∈ Submodule.span K (Set.range basis)) :
    ∃ r, isAffineSimplexGroup tol vinv diff (elementsOf x Ps) = some r ∧
      (r = true ↔ ∀ P ∈ Ps, ∀ b i j, ∀ c : Fin n → K,
        pderiv i (pderiv j (P b)) = ∑ k, c k • basis k → ∀ k, |c k| < tol) := by
  obtain ⟨r, hr, hiff⟩ := isAffine_true_iff (vinv := vinv) (diff := diff) (tol := tol) hdim hamb hn
    (els := elementsOf x Ps)
  refine ⟨r, hr, hiff.trans ?_⟩
  constructor
  · intro hall
    have key : ∀ P ∈ Ps, ∀ b, ∀ i j, i ≤ j → ∀ c : Fin n → K,
        pderiv i (pderiv j (P b)) = ∑ k, c k • basis k → ∀ k, |c k| < tol := by
      intro P hP b i j hij c hc k
      obtain ⟨c', hc', he⟩ := h.second (hPs P hP b) i j
      have : c = c' := by
        rw [← h.coeffs c, ← h.coeffs c', ← hc, hc']
      subst this
      refine hall _ (mem_ddxCoeffs.2 ⟨_, mem_secondMats.2 ⟨i, j, hij, rfl⟩, b, _,
        List.mem_map.2 ⟨P, hP, rfl⟩, k, ?_⟩)
      rw [he]
    intro P hP b i j c hc
    rcases le_total i j with hij | hij
    · exact key P hP b i j hij c hc
    · refine key P hP b j i hij c ?_
      rw [← hc]
      exact pderiv_comm' j i (P b)
  · intro hall y hy
    obtain ⟨M, hM, b, e, he, k, rfl⟩ := mem_ddxCoeffs.1 hy
    obtain ⟨i, j, _, rfl⟩ := mem_secondMats.1 hM
    obtain ⟨P, hP, rfl⟩ := List.mem_map.1 he
    obtain ⟨c, hc, hv⟩ := h.second (hPs P hP b) i j
    rw [hv]
    exact hall P hP b i j c hc k

/-- C67: if the map of every element has degree at most one, the answer is `True`, whatever the
(positive) tolerance. -/
theorem C67_affine (h : DiffOk basis x vinv diff) {tol : K} (htol : 0 < tol) (hdim : 0 < dim)
    (hamb : 0 < amb) (hn : 0 < n) {Ps : List (Fin amb → MvPolynomial (Fin dim) K)}
    (hPs : ∀ P ∈ Ps, ∀ b, P b ∈ Submodule.span K (Set.range basis))
    (hd : ∀ P ∈ Ps, ∀ b, (P b).totalDegree ≤ 1) :
    isAffineSimplexGroup tol vinv diff (elementsOf x Ps) = some true := by
  obtain ⟨r, hr, hiff⟩ := C67_true_iff h (tol := tol) hdim hamb hn hPs
  rw [hr, hiff.2]
  intro P hP b i j c hc k
  rw [second_derivs_zero_iff.2 (hd P hP b) i j] at hc
  have : c = 0 := by
    rw [← h.coeffs c, ← hc]
    funext l
    simp [nodeVals, mulVec, dotProduct]
  rw [this]
  simpa using htol

/-- C67: an element whose map has degree two or more is recognized for all tolerances that are small
enough: the answer is `False` whenever the tolerance is at most some positive number. -/
theorem C67_not_affine (h : DiffOk basis x vinv diff) (hdim : 0 < dim)
    (hamb : 0 < amb) (hn : 0 < n) {Ps : List (Fin amb → MvPolynomial (Fin dim) K)}
    (hPs : ∀ P ∈ Ps, ∀ b, P b ∈ Submodule.span K (Set.range basis))
    {P : Fin amb → MvPolynomial (Fin dim) K} (hP : P ∈ Ps) {b : Fin amb}
    (hd : 2 ≤ (P b).totalDegree) :
    ∃ eps > 0, ∀ tol, tol ≤ eps →
      isAffineSimplexGroup tol vinv diff (elementsOf x Ps) = some false := by
  have hne : ¬ ∀ i j, pderiv i (pderiv j (P b)) = 0 := by
    rw [second_derivs_zero_iff]; omega
  push Not at hne
  obtain ⟨i, j, hij⟩ := hne
  obtain ⟨c, hc, _⟩ := h.second (hPs P hP b) i j
  have hck : ∃ k, c k ≠ 0 := by
    by_contra hall
    push Not at hall
    apply hij
    rw [hc]
    exact Finset.sum_eq_zero fun k _ => by rw [hall k, zero_smul]
  obtain ⟨k, hk⟩ := hck
  refine ⟨|c k|, abs_pos.2 hk, fun tol htol => ?_⟩
  obtain ⟨r, hr, hiff⟩ := C67_true_iff h (tol := tol) hdim hamb hn hPs
  cases r with
  | false => exact hr
  | true => exact absurd (hiff.1 rfl P hP b i j c hc k) (not_lt.2 htol)

/-- C67: the answer is `True` for all tolerances exactly if all elements have degree at most one. -/
theorem C67_exact (h : DiffOk basis x vinv diff) (hdim : 0 < dim)
    (hamb : 0 < amb) (hn : 0 < n) {Ps : List (Fin amb → MvPolynomial (Fin dim) K)}
    (hPs : ∀ P ∈ Ps, ∀ b, P b ∈ Submodule.span K (Set.range basis)) :
    (∀ tol > 0, isAffineSimplexGroup tol vinv diff (elementsOf x Ps) = some true) ↔
      ∀ P ∈ Ps, ∀ b, (P b).totalDegree ≤ 1 := by
  constructor
  · intro hall P hP b
    by_contra hlt
    obtain ⟨eps, heps, he⟩ := C67_not_affine h hdim hamb hn hPs hP (b := b) (by omega)
    have := hall eps heps
    rw [he eps (le_refl _)] at this
    simp at this
  · intro hd tol htol
    exact C67_affine h htol hdim hamb hn hPs hd

omit [IsStrictOrderedRing K] in
/-- C67: groups without elements are affine. -/
theorem C67_empty (tol : K) : isAffineSimplexGroup (amb := amb) tol vinv diff [] = some true := rfl

omit [IsStrictOrderedRing K] in
/-- C67: groups of points (dimension zero) have no second derivatives, and asking whether they are
affine raises an exception as soon as there is an element. -/
theorem C67_points_counterexample (tol : K) (vinv : Matrix (Fin n) (Fin n) K)
    (diff : Fin 0 → Matrix (Fin n) (Fin n) K) (e : Fin amb → Fin n → K)
    (els : List (Fin amb → Fin n → K)) :
    isAffineSimplexGroup tol vinv diff (e :: els) = none := rfl

omit [IsStrictOrderedRing K] in
/-- C67: groups of tensor product elements are never reported as affine, even if they are. -/
theorem C67_tensor_counterexample (tol : K) (els : List (Fin amb → Fin n → K)) :
    groupIsAffine false tol vinv diff els = some false := rfl

/-! ### Examples -/

/-- The monomials `1, r, r²`. (Example, no code.) -/
noncomputable def exQuadBasis (k : Fin 3) : MvPolynomial (Fin 1) ℚ := X 0 ^ (k : ℕ)

/-- The nodes `-1, 0, 1`. (Example, no code.) -/
def exQuadNodes : Fin 3 → Fin 1 → ℚ := ![![-1], ![0], ![1]]

/-- The matrices for quadratic elements of dimension one. -/
theorem exQuadOk : DiffOk exQuadBasis exQuadNodes
    !![0, 1, 0; -1/2, 0, 1/2; 1/2, -1, 1/2]
    (fun _ => !![-3/2, 2, -1/2; -1/2, 0, 1/2; 1/2, -2, 3/2]) := by
  refine ⟨?_, fun i => ?_, fun i k => ?_⟩
  · ext i j
    fin_cases i <;> fin_cases j <;>
      simp [Matrix.mul_apply, Fin.sum_univ_three, exQuadBasis, exQuadNodes] <;> norm_num
  · obtain rfl : i = 0 := Subsingleton.elim _ _
    ext i j
    fin_cases i <;> fin_cases j <;>
      simp [Matrix.mul_apply, Fin.sum_univ_three, exQuadBasis, exQuadNodes] <;> norm_num
  · obtain rfl : i = 0 := Subsingleton.elim _ _
    rw [Submodule.mem_span_range_iff_exists_fun]
    fin_cases k
    · exact ⟨0, by simp [exQuadBasis]⟩
    · exact ⟨![1, 0, 0], by simp [exQuadBasis, Fin.sum_univ_three]⟩
    · exact ⟨![0, 2, 0], by
        simp [exQuadBasis, Fin.sum_univ_three, MvPolynomial.smul_eq_C_mul]
        rfl⟩

/-- A straight and a curved element in the plane. (Example, no code.) -/
noncomputable def exCurved : List (Fin 2 → MvPolynomial (Fin 1) ℚ) :=
  [![X 0, 1], ![X 0, X 0 ^ 2]]

/-- The hypothesis of `C67_true_iff` for the two elements. -/
example : ∀ P ∈ exCurved, ∀ b, P b ∈ Submodule.span ℚ (Set.range exQuadBasis) := by
  have h : ∀ k : Fin 3, X 0 ^ (k : ℕ) ∈ Submodule.span ℚ (Set.range exQuadBasis) := fun k =>
    Submodule.subset_span ⟨k, rfl⟩
  have h0 := h 0
  have h1 := h 1
  have h2 := h 2
  simp only [Fin.isValue, Fin.val_zero, pow_zero, Fin.val_one, pow_one, Fin.val_two] at h0 h1 h2
  intro P hP b
  simp only [exCurved, List.mem_cons, List.not_mem_nil, or_false] at hP
  rcases hP with rfl | rfl <;> fin_cases b <;> simpa

end

end Meshmode
