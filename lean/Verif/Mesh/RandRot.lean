import Mathlib.Analysis.SpecialFunctions.Trigonometric.Basic
import Mathlib.Analysis.SpecialFunctions.Complex.Arg
import Mathlib.LinearAlgebra.Matrix.Determinant.Basic
import Mathlib.LinearAlgebra.Matrix.NonsingularInverse
import Mathlib.Tactic.LinearCombination

/-!
# Random rotations (C66)

`rand_rotation_matrix`, meshmode/mesh/tools.py:85-131, with real numbers for floating point numbers.
The random numbers are an argument, as in the code.
-/
namespace Meshmode

open Matrix

/-! ## Model -/

/-- The vector `V`, meshmode/mesh/tools.py:117-122. -/
noncomputable def randV (phi z : ℝ) : Fin 3 → ℝ :=
  ![Real.sin phi * Real.sqrt z, Real.cos phi * Real.sqrt z, Real.sqrt (2 - z)]

/-- The matrix `R`, meshmode/mesh/tools.py:124-127. -/
noncomputable def randR (theta : ℝ) : Matrix (Fin 3) (Fin 3) ℝ :=
  !![Real.cos theta, Real.sin theta, 0; -Real.sin theta, Real.cos theta, 0; 0, 0, 1]

/-- `rand_rotation_matrix` in three dimensions with given `randnums`, meshmode/mesh/tools.py:105-131. -/
noncomputable def randRotation (deflection : ℝ) (randnums : Fin 3 → ℝ) : Matrix (Fin 3) (Fin 3) ℝ :=
  let theta := randnums 0 * (2 * deflection * Real.pi)
  let phi := randnums 1 * (2 * Real.pi)
  let z := randnums 2 * (2 * deflection)
  (vecMulVec (randV phi z) (randV phi z) - 1) * randR theta

/-- `rand_rotation_matrix`, meshmode/mesh/tools.py:85-131: `none` for the `NotImplementedError` in
dimensions other than three. -/
noncomputable def randRotationMatrix (ambientDim : Nat) (deflection : ℝ) (randnums : Fin 3 → ℝ) :
    Option (Matrix (Fin 3) (Fin 3) ℝ) :=
  if ambientDim ≠ 3 then none else some (randRotation deflection randnums)

/-! ## Specification -/

/-- A rotation. (Specification or proof vocabulary, no code.) -/
def IsRotation (M : Matrix (Fin 3) (Fin 3) ℝ) : Prop := Mᵀ * M = 1 ∧ M.det = 1

/-- Numbers as a random number generator returns them. (Specification or proof vocabulary, no code.) -/
def UnitCube (r : Fin 3 → ℝ) : Prop := ∀ i, 0 ≤ r i ∧ r i ≤ 1

/-! ## Proofs -/

theorem randV_dot {phi z : ℝ} (h0 : 0 ≤ z) (h2 : z ≤ 2) :
    randV phi z 0 ^ 2 + randV phi z 1 ^ 2 + randV phi z 2 ^ 2 = 2 := by
  have h1 := Real.sq_sqrt h0
  have h3 := Real.sq_sqrt (sub_nonneg.2 h2)
  have h4 := Real.sin_sq_add_cos_sq phi
  simp only [randV, cons_val_zero, cons_val_one, cons_val_two, vecHead, vecTail, Function.comp,
    Fin.succ_zero_eq_one]
  linear_combination (Real.sin phi ^ 2 + Real.cos phi ^ 2) * h1 + h3 + z * h4

theorem reflect_rotation {V : Fin 3 → ℝ} (h : V 0 ^ 2 + V 1 ^ 2 + V 2 ^ 2 = 2) :
    IsRotation (vecMulVec V V - 1) := by
  constructor
  · ext i j
    fin_cases i <;> fin_cases j <;>
      simp [Matrix.mul_apply, Fin.sum_univ_three, vecMulVec_apply, Matrix.one_apply, Matrix.sub_apply]
    · linear_combination (V 0 * V 0) * h
    · linear_combination (V 0 * V 1) * h
    · linear_combination (V 0 * V 2) * h
    · linear_combination (V 1 * V 0) * h
    · linear_combination (V 1 * V 1) * h
    · linear_combination (V 1 * V 2) * h
    · linear_combination (V 2 * V 0) * h
    · linear_combination (V 2 * V 1) * h
    · linear_combination (V 2 * V 2) * h
  · rw [Matrix.det_fin_three]
    simp [vecMulVec_apply, Matrix.sub_apply]
    linear_combination h

theorem randR_rotation (theta : ℝ) : IsRotation (randR theta) := by
  have h := Real.sin_sq_add_cos_sq theta
  constructor
  · ext i j
    fin_cases i <;> fin_cases j <;>
      simp [randR, Matrix.mul_apply, Fin.sum_univ_three]
    · linear_combination h
    · ring
    · ring
    · linear_combination h
  · rw [Matrix.det_fin_three]
    simp [randR]
    linear_combination h

theorem IsRotation.mul {A B : Matrix (Fin 3) (Fin 3) ℝ} (hA : IsRotation A) (hB : IsRotation B) :
    IsRotation (A * B) := by
  constructor
  · rw [Matrix.transpose_mul, Matrix.mul_assoc, ← Matrix.mul_assoc Aᵀ, hA.1, Matrix.one_mul, hB.1]
  · rw [Matrix.det_mul, hA.2, hB.2, one_mul]

theorem IsRotation.transpose {A : Matrix (Fin 3) (Fin 3) ℝ} (hA : IsRotation A) :
    IsRotation Aᵀ := by
  constructor
  · rw [Matrix.transpose_transpose]
    exact mul_eq_one_comm.1 hA.1
  · rw [Matrix.det_transpose, hA.2]

theorem scaled_z {d z : ℝ} (hd : 0 ≤ d ∧ d ≤ 1) (hz : 0 ≤ z ∧ z ≤ 1) :
    0 ≤ z * (2 * d) ∧ z * (2 * d) ≤ 2 := by
  constructor
  · exact mul_nonneg hz.1 (by linarith [hd.1])
  · nlinarith [hd.1, hd.2, hz.1, hz.2]

/-- C66: with a deflection between zero and one the matrix is a rotation (orthogonal, determinant one),
whatever the random numbers. -/
theorem C66_rotation {d : ℝ} (hd : 0 ≤ d ∧ d ≤ 1) {r : Fin 3 → ℝ} (hr : UnitCube r) :
    ∃ M, randRotationMatrix 3 d r = some M ∧ IsRotation M := by
  refine ⟨randRotation d r, by simp [randRotationMatrix], ?_⟩
  obtain ⟨h0, h2⟩ := scaled_z hd (hr 2)
  exact (reflect_rotation (randV_dot h0 h2)).mul (randR_rotation _)

/-- C66: the axis `(0, 0, 1)` is turned by an angle whose cosine is `1 - 2 d z` for the third random
number `z`, so that it moves the less, the smaller the deflection is. -/
theorem C66_pole {d : ℝ} (hd : 0 ≤ d ∧ d ≤ 1) {r : Fin 3 → ℝ} (hr : UnitCube r) :
    (randRotation d r *ᵥ ![0, 0, 1]) 2 = 1 - 2 * d * r 2 := by
  obtain ⟨h0, h2⟩ := scaled_z hd (hr 2)
  have h3 := Real.sq_sqrt (sub_nonneg.2 h2)
  simp [randRotation, randR, randV, mulVec, dotProduct, Fin.sum_univ_three, Matrix.mul_apply,
    Matrix.one_apply, Matrix.sub_apply]
  linear_combination h3

/-- C66: in other dimensions there is no matrix. -/
theorem C66_dimension (n : Nat) (d : ℝ) (r : Fin 3 → ℝ) :
    randRotationMatrix n d r = none ↔ n ≠ 3 := by
  rw [randRotationMatrix]
  split <;> simp_all

/-- Every point of the unit circle has an angle `2 π t` with `t` between zero and one. -/
theorem exists_angle {a b : ℝ} (h : a ^ 2 + b ^ 2 = 1) :
    ∃ t : ℝ, 0 ≤ t ∧ t ≤ 1 ∧ a = Real.cos (t * (2 * Real.pi)) ∧ b = Real.sin (t * (2 * Real.pi)) := by
  have hn : ‖(⟨a, b⟩ : ℂ)‖ = 1 := by
    rw [Complex.norm_def, Complex.normSq_mk]
    rw [show a * a + b * b = 1 by linear_combination h, Real.sqrt_one]
  have h0 : (⟨a, b⟩ : ℂ) ≠ 0 := by
    intro h; rw [h] at hn; simp at hn
  have hc := Complex.cos_arg h0
  have hs := Complex.sin_arg (⟨a, b⟩ : ℂ)
  rw [hn, div_one] at hc hs
  simp only at hc hs
  have hpi := Real.pi_pos
  have hlt := Complex.neg_pi_lt_arg (⟨a, b⟩ : ℂ)
  have hle := Complex.arg_le_pi (⟨a, b⟩ : ℂ)
  by_cases hneg : 0 ≤ Complex.arg (⟨a, b⟩ : ℂ)
  · refine ⟨Complex.arg (⟨a, b⟩ : ℂ) / (2 * Real.pi), by positivity, ?_, ?_, ?_⟩
    · rw [div_le_one (by positivity)]; linarith
    · rw [div_mul_cancel₀ _ (by positivity), hc]
    · rw [div_mul_cancel₀ _ (by positivity), hs]
  · refine ⟨(Complex.arg (⟨a, b⟩ : ℂ) + 2 * Real.pi) / (2 * Real.pi), ?_, ?_, ?_, ?_⟩
    · apply div_nonneg <;> linarith
    · rw [div_le_one (by positivity)]; linarith
    · rw [div_mul_cancel₀ _ (by positivity), Real.cos_add_two_pi, hc]
    · rw [div_mul_cancel₀ _ (by positivity), Real.sin_add_two_pi, hs]

/-- A rotation that keeps the third axis is of the form `R`. -/
theorem rotation_pole {M : Matrix (Fin 3) (Fin 3) ℝ} (h : IsRotation M)
    (h3 : ∀ i, M i 2 = if i = 2 then 1 else 0) :
    ∃ t : ℝ, 0 ≤ t ∧ t ≤ 1 ∧ M = randR (t * (2 * Real.pi)) := by
  have ho := h.1
  have hd := h.2
  have h02 := h3 0
  have h12 := h3 1
  have h22 := h3 2
  simp only [Fin.isValue, reduceIte, show (0 : Fin 3) ≠ 2 by decide, show (1 : Fin 3) ≠ 2 by decide] at h02 h12 h22
  have e : ∀ i j, M 0 i * M 0 j + M 1 i * M 1 j + M 2 i * M 2 j = if i = j then 1 else 0 := by
    intro i j
    have := congrFun (congrFun ho i) j
    simpa [Matrix.mul_apply, Fin.sum_univ_three, Matrix.one_apply] using this
  have h20 : M 2 0 = 0 := by
    have := e 0 2
    simpa [h02, h12, h22] using this
  have h21 : M 2 1 = 0 := by
    have := e 1 2
    simpa [h02, h12, h22] using this
  have e00 : M 0 0 ^ 2 + M 1 0 ^ 2 = 1 := by
    have := e 0 0; simp only [h20, if_true] at this; linear_combination this
  have e11 : M 0 1 ^ 2 + M 1 1 ^ 2 = 1 := by
    have := e 1 1; simp only [h21, if_true] at this; linear_combination this
  have e01 : M 0 0 * M 0 1 + M 1 0 * M 1 1 = 0 := by
    have := e 0 1; simp [h20, h21] at this; linear_combination this
  have hdet : M 0 0 * M 1 1 - M 0 1 * M 1 0 = 1 := by
    rw [Matrix.det_fin_three, h02, h12, h22, h20, h21] at hd
    linear_combination hd
  have a1 : M 1 1 = M 0 0 := by
    linear_combination (-(M 1 1)) * e00 + (M 1 0) * e01 + (M 0 0) * hdet
  have a2 : M 1 0 = -M 0 1 := by
    linear_combination (-(M 1 0)) * e11 + (M 1 1) * e01 - (M 0 1) * hdet
  obtain ⟨t, t0, t1, hc, hs⟩ := exists_angle (a := M 0 0) (b := M 0 1) (by rw [a2] at e00; linear_combination e00)
  refine ⟨t, t0, t1, ?_⟩
  ext i j
  fin_cases i <;> fin_cases j <;> simp [randR, ← hc, ← hs, h02, h12, h22, h20, h21, a1, a2]

/-- C66: with full deflection every rotation can come out. -/
theorem C66_every_rotation {Q : Matrix (Fin 3) (Fin 3) ℝ} (hQ : IsRotation Q) :
    ∃ r, UnitCube r ∧ randRotationMatrix 3 1 r = some Q := by
  -- The image of the third axis determines `V`.
  have hw : Q 0 2 ^ 2 + Q 1 2 ^ 2 + Q 2 2 ^ 2 = 1 := by
    have := congrFun (congrFun hQ.1 2) 2
    simp [Matrix.mul_apply, Fin.sum_univ_three] at this
    linear_combination this
  have hlo : -1 ≤ Q 2 2 := by nlinarith [sq_nonneg (Q 0 2), sq_nonneg (Q 1 2), sq_nonneg (Q 2 2 - 1)]
  have hhi : Q 2 2 ≤ 1 := by nlinarith [sq_nonneg (Q 0 2), sq_nonneg (Q 1 2), sq_nonneg (Q 2 2 + 1)]
  have hV : ∃ p : ℝ, 0 ≤ p ∧ p ≤ 1 ∧ ∀ i, randV (p * (2 * Real.pi)) (1 - Q 2 2) i *
      randV (p * (2 * Real.pi)) (1 - Q 2 2) 2 - (if i = 2 then 1 else 0) = Q i 2 := by
    have hs : Real.sqrt (2 - (1 - Q 2 2)) ^ 2 = 1 + Q 2 2 := by
      rw [Real.sq_sqrt (by linarith)]; ring
    have hz : Real.sqrt (1 - Q 2 2) ^ 2 = 1 - Q 2 2 := Real.sq_sqrt (by linarith)
    by_cases hx : Q 0 2 = 0 ∧ Q 1 2 = 0
    · refine ⟨0, le_refl _, zero_le_one, fun i => ?_⟩
      have hsq : Q 2 2 ^ 2 = 1 := by rw [hx.1, hx.2] at hw; linear_combination hw
      have h0 : Real.sqrt (1 - Q 2 2) * Real.sqrt (2 - (1 - Q 2 2)) = 0 := by
        have : (Real.sqrt (1 - Q 2 2) * Real.sqrt (2 - (1 - Q 2 2))) ^ 2 = 0 := by
          rw [mul_pow, hs, hz]; linear_combination -hsq
        exact pow_eq_zero_iff (two_ne_zero) |>.1 this
      fin_cases i
      · simp [randV, hx.1]
      · simp [randV, hx.2, h0]
      · simp only [randV, Fin.reduceFinMk, Fin.isValue, cons_val, reduceIte]
        linear_combination hs
    · have hr : 0 < 1 - Q 2 2 ^ 2 := by
        rcases not_and_or.1 hx with h | h
        · have := pow_pos (abs_pos.2 h) 2; rw [sq_abs] at this; nlinarith [sq_nonneg (Q 1 2)]
        · have := pow_pos (abs_pos.2 h) 2; rw [sq_abs] at this; nlinarith [sq_nonneg (Q 0 2)]
      have hp1 : 0 < Real.sqrt (1 - Q 2 2) := Real.sqrt_pos.2 (by nlinarith)
      have hp2 : 0 < Real.sqrt (2 - (1 - Q 2 2)) := Real.sqrt_pos.2 (by nlinarith)
      obtain ⟨p, p0, p1, hc, hsn⟩ := exists_angle
        (a := Q 1 2 / (Real.sqrt (1 - Q 2 2) * Real.sqrt (2 - (1 - Q 2 2))))
        (b := Q 0 2 / (Real.sqrt (1 - Q 2 2) * Real.sqrt (2 - (1 - Q 2 2)))) (by
          rw [div_pow, div_pow, ← add_div, mul_pow, hs, hz,
            div_eq_one_iff_eq (by nlinarith)]
          linear_combination hw)
      refine ⟨p, p0, p1, fun i => ?_⟩
      fin_cases i
      · simp [randV, ← hsn]
        field_simp
      · simp [randV, ← hc]
        field_simp
      · simp only [randV, Fin.reduceFinMk, Fin.isValue, cons_val, reduceIte]
        linear_combination hs
  obtain ⟨p, p0, p1, hp⟩ := hV
  have hdot := randV_dot (phi := p * (2 * Real.pi)) (z := 1 - Q 2 2) (by linarith) (by linarith)
  have hH := reflect_rotation hdot
  generalize hVd : randV (p * (2 * Real.pi)) (1 - Q 2 2) = V at hp hdot hH
  -- What remains keeps the third axis.
  have hR : IsRotation ((vecMulVec V V - 1)ᵀ * Q) := hH.transpose.mul hQ
  have hcol : ∀ i, ((vecMulVec V V - 1)ᵀ * Q : Matrix (Fin 3) (Fin 3) ℝ) i 2 = if i = 2 then 1 else 0 := by
    intro i
    have h0 := hp 0
    have h1 := hp 1
    have h2 := hp 2
    simp only [Fin.isValue, reduceIte, show (0 : Fin 3) ≠ 2 by decide, show (1 : Fin 3) ≠ 2 by decide] at h0 h1 h2
    have hc : ∀ k, Q k 2 = (vecMulVec V V - 1) k 2 := by
      intro k
      rw [← hp k]
      simp [vecMulVec_apply, Matrix.one_apply]
    rw [Matrix.mul_apply, Finset.sum_congr rfl fun k _ => by rw [hc k]]
    have := congrFun (congrFun hH.1 i) 2
    rw [Matrix.mul_apply] at this
    rw [this, Matrix.one_apply]
  obtain ⟨t, t0, t1, ht⟩ := rotation_pole hR hcol
  refine ⟨![t, p, (1 - Q 2 2) / 2], ?_, ?_⟩
  · intro i
    fin_cases i
    · exact ⟨t0, t1⟩
    · exact ⟨p0, p1⟩
    · simp only [Fin.reduceFinMk, cons_val]
      constructor <;> linarith
  · simp only [randRotationMatrix, randRotation, ne_eq, not_true_eq_false, if_false, Option.some.injEq,
      cons_val_zero, cons_val_one, cons_val, mul_one]
    rw [show (1 - Q 2 2) / 2 * 2 = 1 - Q 2 2 by ring, hVd, ← ht, ← Matrix.mul_assoc,
      mul_eq_one_comm.1 hH.1, Matrix.one_mul]

/-- C66: the documentation says that there is no rotation for deflection zero, but the matrix is then
a half turn about the third axis, whatever the random numbers. -/
theorem C66_deflection_zero_counterexample (r : Fin 3 → ℝ) :
    randRotation 0 r = !![-1, 0, 0; 0, -1, 0; 0, 0, 1] ∧ randRotation 0 r ≠ 1 := by
  have h : randRotation 0 r = !![-1, 0, 0; 0, -1, 0; 0, 0, 1] := by
    ext i j
    fin_cases i <;> fin_cases j <;>
      simp [randRotation, randR, randV, Matrix.mul_apply, Fin.sum_univ_three,
        Matrix.one_apply, Matrix.sub_apply]
    norm_num
  refine ⟨h, fun h' => ?_⟩
  have := congrFun (congrFun (h.symm.trans h') 0) 0
  norm_num at this

/-! ### Examples -/

/-- Arguments as in the hypotheses of `C66_rotation` and `C66_pole`. -/
example : (0 ≤ (1 / 2 : ℝ) ∧ (1 / 2 : ℝ) ≤ 1) ∧ UnitCube ![1 / 3, 1 / 5, 1] := by
  refine ⟨by norm_num, fun i => ?_⟩
  fin_cases i <;> norm_num

/-- A rotation as in the hypothesis of `C66_every_rotation`, which is a cyclic exchange of the axes. -/
example : IsRotation !![0, 0, 1; 1, 0, 0; 0, 1, 0] := by
  constructor
  · ext i j
    fin_cases i <;> fin_cases j <;> simp [Matrix.mul_apply, Fin.sum_univ_three]
  · rw [Matrix.det_fin_three]; simp

end Meshmode
