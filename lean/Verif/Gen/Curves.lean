import Mathlib.Analysis.SpecialFunctions.Trigonometric.Angle
import Mathlib.Analysis.SpecialFunctions.Trigonometric.Bounds
import Mathlib.Analysis.SpecialFunctions.Pow.Continuity
import Mathlib.Tactic.FieldSimp
import Mathlib.Tactic.Linarith
import Mathlib.Tactic.LinearCombination

/-!
# Curve parametrizations (C84)

The curves of meshmode/mesh/generation.py:104-376, one parameter at a time and with real numbers for floating
point numbers.  A numpy array of parameters is handled entry by entry, except in `n_gon`, whose fancy
indexing is modelled by array shapes.
-/
namespace Meshmode

/-! ## Model -/

/-- `ellipse`, meshmode/mesh/generation.py:112-123. -/
noncomputable def ellipseCurve (aspectRatio t : ℝ) : ℝ × ℝ :=
  let s := t * (2 * Real.pi)
  (Real.cos s, Real.sin s / aspectRatio)

/-- `circle`, meshmode/mesh/generation.py:104-109. -/
noncomputable def circleCurve (t : ℝ) : ℝ × ℝ := ellipseCurve 1 t

/-- `cloverleaf`, meshmode/mesh/generation.py:126-141. -/
noncomputable def cloverleafCurve (t : ℝ) : ℝ × ℝ :=
  let s := t * (2 * Real.pi)
  (Real.cos s + 0.3 * Real.sin (3 * s), Real.sin s - 0.3 * Real.cos (3 * s))

/-- `drop`, meshmode/mesh/generation.py:144-156. -/
noncomputable def dropCurve (t : ℝ) : ℝ × ℝ :=
  let s := t * Real.pi
  (1.7 * (Real.sin s - 0.5), 1.7 * (0.5 * (Real.cos s * (s - Real.pi) * s)))

/-- `qbx_peanut`, meshmode/mesh/generation.py:187-198. -/
noncomputable def qbxPeanutCurve (t : ℝ) : ℝ × ℝ :=
  let s := 2 * Real.pi * t
  let r := 1 + 0.3 * Real.sin (2 * s)
  (3 / 4 * r * Real.cos (s - Real.pi / 4), r * Real.sin (s - Real.pi / 4))

/-- The height factor of `wobbly_dumbbell`, meshmode/mesh/generation.py:218-220. -/
noncomputable def dumbbellRadius (gamma beta : ℝ) (p wavenumber : Nat) (s : ℝ) : ℝ :=
  gamma * (1 + beta / (1 - beta) * Real.cos s ^ 2) ^ (1 / (p : ℝ)) + 0.02 * Real.sin (wavenumber * s) ^ 2

/-- `wobbly_dumbbell`, meshmode/mesh/generation.py:210-225. -/
noncomputable def wobblyDumbbellCurve (gamma beta : ℝ) (p wavenumber : Nat) (t : ℝ) : ℝ × ℝ :=
  let s := 2 * Real.pi * t
  (Real.cos s, dumbbellRadius gamma beta p wavenumber s * Real.sin s)

/-- `dumbbell`, meshmode/mesh/generation.py:201-207. -/
noncomputable def dumbbellCurve (gamma beta t : ℝ) : ℝ × ℝ := wobblyDumbbellCurve gamma beta 1 0 t

/-- `apple`, meshmode/mesh/generation.py:228-241. -/
noncomputable def appleCurve (a t : ℝ) : ℝ × ℝ :=
  let s := t * (2 * Real.pi)
  (Real.cos s + a * Real.cos (2 * s), Real.sin s + a * Real.sin (2 * s))

/-- `r_cap`, meshmode/mesh/generation.py:261. -/
noncomputable def clampCap (rMajor rMinor : ℝ) : ℝ := (rMajor - rMinor) / 2

/-- `inv_gap`, meshmode/mesh/generation.py:262. -/
noncomputable def clampInv (gap : ℝ) : ℝ := 2 * Real.pi - 2 * gap

/-- `L`, meshmode/mesh/generation.py:267-270. -/
noncomputable def clampLength (rMajor rMinor gap : ℝ) : ℝ :=
  clampInv gap * rMajor + clampInv gap * rMinor + 2 * Real.pi * clampCap rMajor rMinor

/-- `t1`, meshmode/mesh/generation.py:272. -/
noncomputable def clampT1 (rMajor rMinor gap : ℝ) : ℝ :=
  clampInv gap * rMajor / clampLength rMajor rMinor gap

/-- `t2`, meshmode/mesh/generation.py:273. -/
noncomputable def clampT2 (rMajor rMinor gap : ℝ) : ℝ :=
  clampT1 rMajor rMinor gap + Real.pi * clampCap rMajor rMinor / clampLength rMajor rMinor gap

/-- `t3`, meshmode/mesh/generation.py:274. -/
noncomputable def clampT3 (rMajor rMinor gap : ℝ) : ℝ :=
  clampT2 rMajor rMinor gap + clampInv gap * rMinor / clampLength rMajor rMinor gap

/-- `t4`, meshmode/mesh/generation.py:275. -/
noncomputable def clampT4 (rMajor rMinor gap : ℝ) : ℝ :=
  clampT3 rMajor rMinor gap + Real.pi * clampCap rMajor rMinor / clampLength rMajor rMinor gap

/-- A Boolean as a number, `astype`, meshmode/mesh/generation.py:278, 283, 291, 296. -/
noncomputable def maskOf (p : Prop) [Decidable p] : ℝ := if p then 1 else 0

/-- `rotation_matrix(angle) @ v`, meshmode/mesh/generation.py:254-257. -/
noncomputable def rotate2 (angle : ℝ) (v : ℝ × ℝ) : ℝ × ℝ :=
  (Real.cos angle * v.1 - Real.sin angle * v.2, Real.sin angle * v.1 + Real.cos angle * v.2)

/-- `f_outer`, meshmode/mesh/generation.py:280, and `f_inner`, line 293. -/
noncomputable def arcPoint (r theta : ℝ) : ℝ × ℝ := (r * Real.cos theta, r * Real.sin theta)

/-- `f_caps0`, meshmode/mesh/generation.py:285-288. -/
noncomputable def capPoint0 (rMajor rMinor gap theta : ℝ) : ℝ × ℝ :=
  clampCap rMajor rMinor • rotate2 (-gap) (Real.cos theta - 1, Real.sin theta)
    + rMajor • (Real.cos (-gap), Real.sin (-gap))

/-- `f_caps1`, meshmode/mesh/generation.py:298-301. -/
noncomputable def capPoint1 (rMajor rMinor gap theta : ℝ) : ℝ × ℝ :=
  clampCap rMajor rMinor • rotate2 (Real.pi + gap) (Real.cos theta + 1, Real.sin theta)
    + rMajor • (Real.cos gap, Real.sin gap)

/-- The angle of the outer shell before masking, meshmode/mesh/generation.py:279. -/
noncomputable def thetaOuter (rMajor rMinor gap t : ℝ) : ℝ :=
  let t1 := clampT1 rMajor rMinor gap
  Real.pi + clampInv gap * (t - (t1 + 0) / 2) / (t1 - 0)

/-- The angle of the first cap before masking, meshmode/mesh/generation.py:284. -/
noncomputable def thetaCap0 (rMajor rMinor gap t : ℝ) : ℝ :=
  let t1 := clampT1 rMajor rMinor gap
  let t2 := clampT2 rMajor rMinor gap
  Real.pi / 2 + Real.pi * (t - (t2 + t1) / 2) / (t2 - t1)

/-- The angle of the inner shell before masking and negation, meshmode/mesh/generation.py:292. -/
noncomputable def thetaInner (rMajor rMinor gap t : ℝ) : ℝ :=
  let t2 := clampT2 rMajor rMinor gap
  let t3 := clampT3 rMajor rMinor gap
  Real.pi + clampInv gap * (t - (t2 + t3) / 2) / (t3 - t2)

/-- The angle of the second cap before masking, meshmode/mesh/generation.py:297. -/
noncomputable def thetaCap1 (rMajor rMinor gap t : ℝ) : ℝ :=
  let t3 := clampT3 rMajor rMinor gap
  let t4 := clampT4 rMajor rMinor gap
  Real.pi / 2 + Real.pi * (t - (t3 + t4) / 2) / (t4 - t3)

/-- The assertions of `clamp_piecewise`, meshmode/mesh/generation.py:259-260. -/
def ClampArgs (rMajor rMinor gap : ℝ) : Prop :=
  (0 < rMajor ∧ 0 < rMinor ∧ rMinor < rMajor) ∧ 0 < gap ∧ gap < 2 * Real.pi

open Classical in
/-- `clamp_piecewise`, meshmode/mesh/generation.py:244-307, when the assertions hold. -/
noncomputable def clampCurve (rMajor rMinor gap t : ℝ) : ℝ × ℝ :=
  let t1 := clampT1 rMajor rMinor gap
  let t2 := clampT2 rMajor rMinor gap
  let t3 := clampT3 rMajor rMinor gap
  let mOuter := maskOf (t < t1)
  let mCaps0 := maskOf (t ≥ t1 ∧ t < t2)
  let mInner := maskOf (t ≥ t2 ∧ t < t3)
  let mCaps1 := maskOf (t ≥ t3)
  mOuter • arcPoint rMajor (mOuter * thetaOuter rMajor rMinor gap t)
    + mCaps0 • capPoint0 rMajor rMinor gap (mCaps0 * thetaCap0 rMajor rMinor gap t)
    + mInner • arcPoint rMinor (-mInner * thetaInner rMajor rMinor gap t)
    + mCaps1 • capPoint1 rMajor rMinor gap (mCaps1 * thetaCap1 rMajor rMinor gap t)

/-- The loop over the coefficients, meshmode/mesh/generation.py:341-343. -/
noncomputable def wobblyWave (coeffs : List ℝ) (phase s : ℝ) : ℝ :=
  coeffs.zipIdx.foldl (fun wave ci => wave + ci.1 * Real.sin (((ci.2 : ℝ) + 1) * s + phase)) 1

/-- `WobblyCircle.__call__`, meshmode/mesh/generation.py:332-348. -/
noncomputable def wobblyCurve (coeffs : List ℝ) (phase t : ℝ) : ℝ × ℝ :=
  let s := t * (2 * Real.pi)
  (Real.cos s * wobblyWave coeffs phase s, Real.sin s * wobblyWave coeffs phase s)

/-- The coefficients of `WobblyCircle.random`, meshmode/mesh/generation.py:324-330, from the random numbers. -/
noncomputable def randomCoeffs (rnd : List ℝ) : List ℝ :=
  rnd.map fun c => 0.95 * c / (rnd.map fun d => |d|).sum

/-- The coefficients of `NArmedStarfish`, meshmode/mesh/generation.py:356-359; without arms, `coeffs[-1]`
raises an `IndexError`. -/
noncomputable def starfishCoeffs (nArms : Nat) (amplitude : ℝ) : Option (List ℝ) :=
  if nArms = 0 then none else some ((List.replicate nArms 0).set (nArms - 1) amplitude)

/-- The number of arms and the amplitude drawn by `NArmedStarfish.random`,
meshmode/mesh/generation.py:363-370, from an integer below 30 and a number in `[0, 1)`. -/
noncomputable def starfishRandom (k : Nat) (u : ℝ) : Nat × ℝ := (3 + k, 0.25 + 0.75 * u)

/-- Whether numpy lets an array of the first shape be assigned to a target of the second shape; both shapes
are given last axis first.  Used for meshmode/mesh/generation.py:182. -/
def assignable : List Nat → List Nat → Bool
  | [], _ => true
  | v :: vs, [] => v = 1 && assignable vs []
  | v :: vs, t :: ts => (v = t || v = 1) && assignable vs ts

open Classical in
/-- The number of parameters on one side of the polygon, meshmode/mesh/generation.py:165, 170. -/
noncomputable def sideCount (nCorners side : Nat) (t : List ℝ) : Nat :=
  t.countP fun x => decide ((side : ℝ) ≤ x * nCorners ∧ x * nCorners < (side : ℝ) + 1)

/-- The shape of the value assigned for one side, last axis first, meshmode/mesh/generation.py:172-182: two
rows and one column for each parameter on the side. -/
noncomputable def sideValueShape (nCorners side : Nat) (t : List ℝ) : List Nat :=
  [sideCount nCorners side t, 2]

/-- The shape of `result[:, indices]`, last axis first, meshmode/mesh/generation.py:170, 182: `indices` is a
tuple with one array, so as an index for the second axis it is an array with one row. -/
noncomputable def sideTargetShape (nCorners side : Nat) (t : List ℝ) : List Nat :=
  [sideCount nCorners side t, 1, 2]

/-- `n_gon` for a vector of parameters, meshmode/mesh/generation.py:159-184: the shape of the result, or
`none` if one of the assignments raises an exception. -/
noncomputable def nGonShape (nCorners : Nat) (t : List ℝ) : Option (List Nat) :=
  if (List.range nCorners).all fun side =>
      assignable (sideValueShape nCorners side t) (sideTargetShape nCorners side t) then
    some [2, t.length]
  else none

/-! ## Specification -/

/-- A closed curve without jumps, parametrized by `[0, 1]`.  (Specification or proof vocabulary, no code.) -/
def ClosedCurve (f : ℝ → ℝ × ℝ) : Prop := Continuous f ∧ f 0 = f 1

/-- A curve which does not cross itself.  (Specification or proof vocabulary, no code.) -/
def SimpleCurve (f : ℝ → ℝ × ℝ) : Prop :=
  ∀ s t, 0 ≤ s → s < 1 → 0 ≤ t → t < 1 → f s = f t → s = t

/-! ## Lemmas -/

theorem angle_unique {a b : ℝ} (ha : 0 ≤ a) (ha' : a < 2 * Real.pi) (hb : 0 ≤ b) (hb' : b < 2 * Real.pi)
    (hc : Real.cos a = Real.cos b) (hs : Real.sin a = Real.sin b) : a = b := by
  obtain ⟨k, hk⟩ := Real.Angle.angle_eq_iff_two_pi_dvd_sub.1 (Real.Angle.cos_sin_inj hc hs)
  have hpi := Real.pi_pos
  have h1 : k < 1 := by
    by_contra h
    have : (1 : ℝ) ≤ k := by exact_mod_cast not_lt.1 h
    nlinarith
  have h2 : -1 < k := by
    by_contra h
    have : (k : ℝ) ≤ -1 := by exact_mod_cast not_lt.1 h
    nlinarith
  have h0 : k = 0 := by omega
  rw [h0] at hk
  simp at hk
  linarith

theorem param_unique {s t : ℝ} (hs : 0 ≤ s) (hs1 : s < 1) (ht : 0 ≤ t) (ht1 : t < 1)
    (hc : Real.cos (s * (2 * Real.pi)) = Real.cos (t * (2 * Real.pi)))
    (hn : Real.sin (s * (2 * Real.pi)) = Real.sin (t * (2 * Real.pi))) : s = t := by
  have hpi := Real.pi_pos
  have := angle_unique (by positivity) (by nlinarith) (by positivity) (by nlinarith) hc hn
  exact mul_right_cancel₀ (by positivity) this

theorem star_unique {a b w v : ℝ} (hw : 0 < w) (hv : 0 < v)
    (hc : Real.cos a * w = Real.cos b * v) (hs : Real.sin a * w = Real.sin b * v) :
    Real.cos a = Real.cos b ∧ Real.sin a = Real.sin b := by
  have h1 := Real.sin_sq_add_cos_sq a
  have h2 := Real.sin_sq_add_cos_sq b
  have hwv : w ^ 2 = v ^ 2 := by
    calc w ^ 2 = (Real.cos a * w) ^ 2 + (Real.sin a * w) ^ 2 := by linear_combination (-w ^ 2) * h1
      _ = (Real.cos b * v) ^ 2 + (Real.sin b * v) ^ 2 := by rw [hc, hs]
      _ = v ^ 2 := by linear_combination (v ^ 2) * h2
  have e : w = v := by
    rcases sq_eq_sq_iff_eq_or_eq_neg.1 hwv with h | h
    · exact h
    · linarith
  subst e
  exact ⟨mul_right_cancel₀ hw.ne' hc, mul_right_cancel₀ hw.ne' hs⟩

theorem foldl_wave (l : List (ℝ × Nat)) (phase s w : ℝ) :
    l.foldl (fun wave ci => wave + ci.1 * Real.sin (((ci.2 : ℝ) + 1) * s + phase)) w =
      w + (l.map fun ci => ci.1 * Real.sin (((ci.2 : ℝ) + 1) * s + phase)).sum := by
  induction l generalizing w with
  | nil => simp
  | cons x l ih => rw [List.foldl_cons, ih, List.map_cons, List.sum_cons, add_assoc]

theorem wobblyWave_eq (coeffs : List ℝ) (phase s : ℝ) :
    wobblyWave coeffs phase s =
      1 + (coeffs.zipIdx.map fun ci => ci.1 * Real.sin (((ci.2 : ℝ) + 1) * s + phase)).sum :=
  foldl_wave _ _ _ _

theorem abs_wave_sum (l : List (ℝ × Nat)) (phase s : ℝ) :
    |(l.map fun ci => ci.1 * Real.sin (((ci.2 : ℝ) + 1) * s + phase)).sum| ≤
      (l.map fun ci => |ci.1|).sum := by
  induction l with
  | nil => simp
  | cons x l ih =>
    rw [List.map_cons, List.sum_cons, List.map_cons, List.sum_cons]
    refine (abs_add_le _ _).trans (add_le_add ?_ ih)
    rw [abs_mul]
    exact mul_le_of_le_one_right (abs_nonneg _) (Real.abs_sin_le_one _)

theorem wave_bound (coeffs : List ℝ) (phase s : ℝ) :
    |wobblyWave coeffs phase s - 1| ≤ (coeffs.map fun c => |c|).sum := by
  have h := abs_wave_sum coeffs.zipIdx phase s
  have e : (coeffs.zipIdx.map fun ci => |ci.1|) = coeffs.map fun c => |c| := by
    rw [show (fun ci : ℝ × Nat => |ci.1|) = (fun c => |c|) ∘ Prod.fst from rfl, ← List.map_map,
      List.zipIdx_map_fst]
  rw [e] at h
  rw [wobblyWave_eq]
  simpa using h

theorem wave_periodic (coeffs : List ℝ) (phase s : ℝ) :
    wobblyWave coeffs phase (s + 2 * Real.pi) = wobblyWave coeffs phase s := by
  rw [wobblyWave_eq, wobblyWave_eq]
  congr 2
  refine List.map_congr_left fun ci _ => ?_
  congr 1
  rw [show ((ci.2 : ℝ) + 1) * (s + 2 * Real.pi) + phase
    = (((ci.2 : ℝ) + 1) * s + phase) + ((ci.2 + 1 : Nat) : ℝ) * (2 * Real.pi) by push_cast; ring]
  exact Real.sin_add_nat_mul_two_pi _ _

theorem wave_continuous (coeffs : List ℝ) (phase : ℝ) : Continuous (wobblyWave coeffs phase) := by
  have : ∀ l : List (ℝ × Nat), Continuous fun s : ℝ =>
      (l.map fun ci => ci.1 * Real.sin (((ci.2 : ℝ) + 1) * s + phase)).sum := by
    intro l
    induction l with
    | nil => simpa using continuous_const
    | cons x l ih =>
      simp only [List.map_cons, List.sum_cons]
      exact Continuous.add (by fun_prop) ih
  have e : wobblyWave coeffs phase = fun s => 1 +
      (coeffs.zipIdx.map fun ci => ci.1 * Real.sin (((ci.2 : ℝ) + 1) * s + phase)).sum := by
    funext s
    exact wobblyWave_eq _ _ _
  rw [e]
  exact continuous_const.add (this _)

theorem sum_map_div (l : List ℝ) (d : ℝ) : (l.map fun c => |0.95 * c / d|).sum
    = 0.95 * (l.map fun c => |c|).sum / |d| := by
  induction l with
  | nil => simp
  | cons x l ih =>
    rw [List.map_cons, List.sum_cons, ih, List.map_cons, List.sum_cons, abs_div, abs_mul,
      abs_of_pos (by norm_num : (0 : ℝ) < 0.95)]
    ring

theorem exists_param {x y : ℝ} (h : x ^ 2 + y ^ 2 = 1) :
    ∃ t, 0 ≤ t ∧ t < 1 ∧ Real.cos (t * (2 * Real.pi)) = x ∧ Real.sin (t * (2 * Real.pi)) = y := by
  have hpi := Real.pi_pos
  have hz : (⟨x, y⟩ : ℂ) ≠ 0 := by
    intro h0
    have h1 : x = 0 := congrArg Complex.re h0
    have h2 : y = 0 := congrArg Complex.im h0
    rw [h1, h2] at h
    norm_num at h
  have hn : ‖(⟨x, y⟩ : ℂ)‖ = 1 := by
    rw [Complex.norm_def, Complex.normSq_mk, ← sq, ← sq, h, Real.sqrt_one]
  have hc : Real.cos (Complex.arg ⟨x, y⟩) = x := by rw [Complex.cos_arg hz, hn, div_one]
  have hs : Real.sin (Complex.arg ⟨x, y⟩) = y := by rw [Complex.sin_arg, hn, div_one]
  have h1 := Complex.neg_pi_lt_arg ⟨x, y⟩
  have h2 := Complex.arg_le_pi ⟨x, y⟩
  have hp : 0 < 2 * Real.pi := by positivity
  rcases le_or_gt 0 (Complex.arg ⟨x, y⟩) with h0 | h0
  · refine ⟨Complex.arg ⟨x, y⟩ / (2 * Real.pi), by positivity, ?_, ?_, ?_⟩
    · rw [div_lt_one hp]
      linarith
    · rw [div_mul_cancel₀ _ hp.ne', hc]
    · rw [div_mul_cancel₀ _ hp.ne', hs]
  · refine ⟨(Complex.arg ⟨x, y⟩ + 2 * Real.pi) / (2 * Real.pi), ?_, ?_, ?_, ?_⟩
    · exact div_nonneg (by linarith) hp.le
    · rw [div_lt_one hp]
      linarith
    · rw [div_mul_cancel₀ _ hp.ne', Real.cos_add_two_pi, hc]
    · rw [div_mul_cancel₀ _ hp.ne', Real.sin_add_two_pi, hs]

theorem clamp_facts {R r g : ℝ} (h : 0 < R ∧ 0 < r ∧ r < R) (hg' : g < Real.pi) :
    0 < clampInv g ∧ 0 < clampCap R r ∧ 0 < clampLength R r g ∧ 0 < clampT1 R r g ∧
      clampT1 R r g < clampT2 R r g ∧ clampT2 R r g < clampT3 R r g ∧
      clampT3 R r g < clampT4 R r g ∧ clampT4 R r g = 1 := by
  obtain ⟨hR, hr, hrR⟩ := h
  have hpi := Real.pi_pos
  have h1 : 0 < clampInv g := by
    unfold clampInv
    linarith
  have h2 : 0 < clampCap R r := by
    unfold clampCap
    linarith
  have h3 : 0 < clampLength R r g := by
    unfold clampLength
    positivity
  have h4 : 0 < Real.pi * clampCap R r / clampLength R r g := by positivity
  refine ⟨h1, h2, h3, ?_, ?_, ?_, ?_, ?_⟩
  · unfold clampT1
    positivity
  · unfold clampT2
    linarith
  · unfold clampT3
    have : 0 < clampInv g * r / clampLength R r g := by positivity
    linarith
  · unfold clampT4
    linarith
  · unfold clampT4 clampT3 clampT2 clampT1
    rw [← add_div, ← add_div, ← add_div, div_eq_one_iff_eq h3.ne']
    unfold clampLength
    ring

theorem clampCurve_outer {R r g t : ℝ} (h12 : clampT1 R r g < clampT2 R r g)
    (h23 : clampT2 R r g < clampT3 R r g) (ht : t < clampT1 R r g) :
    clampCurve R r g t = arcPoint R (thetaOuter R r g t) := by
  unfold clampCurve maskOf
  simp only
  rw [if_pos ht, if_neg (fun h => absurd h.1 (not_le.2 ht)),
    if_neg (fun h => absurd h.1 (not_le.2 (ht.trans h12))),
    if_neg (fun h => absurd h (not_le.2 (ht.trans (h12.trans h23))))]
  simp

theorem clampCurve_cap0 {R r g t : ℝ} (h23 : clampT2 R r g < clampT3 R r g) (ht : clampT1 R r g ≤ t)
    (ht' : t < clampT2 R r g) :
    clampCurve R r g t = capPoint0 R r g (thetaCap0 R r g t) := by
  unfold clampCurve maskOf
  simp only
  rw [if_neg (not_lt.2 ht), if_pos ⟨ht, ht'⟩, if_neg (fun h => absurd h.1 (not_le.2 ht')),
    if_neg (fun h => absurd h (not_le.2 (ht'.trans h23)))]
  simp

theorem clampCurve_inner {R r g t : ℝ} (h12 : clampT1 R r g < clampT2 R r g) (ht : clampT2 R r g ≤ t)
    (ht' : t < clampT3 R r g) :
    clampCurve R r g t = arcPoint r (-thetaInner R r g t) := by
  unfold clampCurve maskOf
  simp only
  rw [if_neg (not_lt.2 (h12.le.trans ht)), if_neg (fun h => absurd h.2 (not_lt.2 ht)), if_pos ⟨ht, ht'⟩,
    if_neg (fun h => absurd h (not_le.2 ht'))]
  simp

theorem clampCurve_cap1 {R r g t : ℝ} (h12 : clampT1 R r g < clampT2 R r g)
    (h23 : clampT2 R r g < clampT3 R r g) (ht : clampT3 R r g ≤ t) :
    clampCurve R r g t = capPoint1 R r g (thetaCap1 R r g t) := by
  unfold clampCurve maskOf
  simp only
  rw [if_neg (not_lt.2 ((h12.trans h23).le.trans ht)), if_neg (fun h => absurd h.2 (not_lt.2 (h23.le.trans ht))),
    if_neg (fun h => absurd h.2 (not_lt.2 ht)), if_pos ht]
  simp

theorem theta_ends {R r g : ℝ} (h : 0 < R ∧ 0 < r ∧ r < R) (hg' : g < Real.pi) :
    thetaOuter R r g 0 = g ∧ thetaOuter R r g (clampT1 R r g) = 2 * Real.pi - g ∧
    thetaCap0 R r g (clampT1 R r g) = 0 ∧ thetaCap0 R r g (clampT2 R r g) = Real.pi ∧
    thetaInner R r g (clampT2 R r g) = g ∧ thetaInner R r g (clampT3 R r g) = 2 * Real.pi - g ∧
    thetaCap1 R r g (clampT3 R r g) = 0 ∧ thetaCap1 R r g 1 = Real.pi := by
  obtain ⟨h1, h2, h3, h4, h12, h23, h34, h5⟩ := clamp_facts h hg'
  have e1 : clampT1 R r g - 0 ≠ 0 := by
    rw [sub_zero]
    exact h4.ne'
  have e2 : clampT2 R r g - clampT1 R r g ≠ 0 := (sub_pos.2 h12).ne'
  have e3 : clampT3 R r g - clampT2 R r g ≠ 0 := (sub_pos.2 h23).ne'
  have e4 : clampT4 R r g - clampT3 R r g ≠ 0 := (sub_pos.2 h34).ne'
  refine ⟨?_, ?_, ?_, ?_, ?_, ?_, ?_, ?_⟩
  · unfold thetaOuter
    simp only
    rw [show clampInv g * (0 - (clampT1 R r g + 0) / 2) = -(clampInv g / 2) * (clampT1 R r g - 0) by ring,
      mul_div_assoc, div_self e1]
    unfold clampInv
    ring
  · unfold thetaOuter
    simp only
    rw [show clampInv g * (clampT1 R r g - (clampT1 R r g + 0) / 2)
      = (clampInv g / 2) * (clampT1 R r g - 0) by ring, mul_div_assoc, div_self e1]
    unfold clampInv
    ring
  · unfold thetaCap0
    simp only
    rw [show Real.pi * (clampT1 R r g - (clampT2 R r g + clampT1 R r g) / 2)
      = -(Real.pi / 2) * (clampT2 R r g - clampT1 R r g) by ring, mul_div_assoc, div_self e2]
    ring
  · unfold thetaCap0
    simp only
    rw [show Real.pi * (clampT2 R r g - (clampT2 R r g + clampT1 R r g) / 2)
      = (Real.pi / 2) * (clampT2 R r g - clampT1 R r g) by ring, mul_div_assoc, div_self e2]
    ring
  · unfold thetaInner
    simp only
    rw [show clampInv g * (clampT2 R r g - (clampT2 R r g + clampT3 R r g) / 2)
      = -(clampInv g / 2) * (clampT3 R r g - clampT2 R r g) by ring, mul_div_assoc, div_self e3]
    unfold clampInv
    ring
  · unfold thetaInner
    simp only
    rw [show clampInv g * (clampT3 R r g - (clampT2 R r g + clampT3 R r g) / 2)
      = (clampInv g / 2) * (clampT3 R r g - clampT2 R r g) by ring, mul_div_assoc, div_self e3]
    unfold clampInv
    ring
  · unfold thetaCap1
    simp only
    rw [show Real.pi * (clampT3 R r g - (clampT3 R r g + clampT4 R r g) / 2)
      = -(Real.pi / 2) * (clampT4 R r g - clampT3 R r g) by ring, mul_div_assoc, div_self e4]
    ring
  · unfold thetaCap1
    simp only
    rw [show Real.pi * (1 - (clampT3 R r g + clampT4 R r g) / 2)
      = (Real.pi / 2) * (clampT4 R r g - clampT3 R r g) by rw [h5]; ring, mul_div_assoc, div_self e4]
    ring

theorem cap0_ends (R r g : ℝ) : capPoint0 R r g 0 = arcPoint R (2 * Real.pi - g) ∧
    capPoint0 R r g Real.pi = arcPoint r (-g) := by
  constructor
  · ext <;> simp [capPoint0, arcPoint, rotate2, Real.cos_two_pi_sub, Real.sin_two_pi_sub]
  · ext <;> simp [capPoint0, arcPoint, rotate2, clampCap] <;> ring

theorem cap1_ends (R r g : ℝ) : capPoint1 R r g 0 = arcPoint r (-(2 * Real.pi - g)) ∧
    capPoint1 R r g Real.pi = arcPoint R g := by
  have hc : Real.cos (Real.pi + g) = -Real.cos g := by rw [add_comm]; exact Real.cos_add_pi g
  have hs : Real.sin (Real.pi + g) = -Real.sin g := by rw [add_comm]; exact Real.sin_add_pi g
  have hc' : Real.cos (-(2 * Real.pi - g)) = Real.cos g := by rw [Real.cos_neg, Real.cos_two_pi_sub]
  have hs' : Real.sin (-(2 * Real.pi - g)) = Real.sin g := by rw [Real.sin_neg, Real.sin_two_pi_sub, neg_neg]
  constructor
  · ext
    · simp only [capPoint1, arcPoint, rotate2, hc, hs, hc', Real.cos_zero, Real.sin_zero, clampCap,
        Prod.fst_add, Prod.smul_fst, smul_eq_mul]
      ring
    · simp only [capPoint1, arcPoint, rotate2, hc, hs, hs', Real.cos_zero, Real.sin_zero, clampCap,
        Prod.snd_add, Prod.smul_snd, smul_eq_mul]
      ring
  · ext <;> simp [capPoint1, arcPoint, rotate2]

/-! ## Properties -/

/-- **C84**: the ellipse is the set of points satisfying the equation of the ellipse with half axes `1` and
`1 / aspect_ratio`, each one attained for exactly one parameter in `[0, 1)`, and the curve is closed. -/
theorem C84_ellipse {a : ℝ} (ha : a ≠ 0) :
    (∀ x y : ℝ, x ^ 2 + (a * y) ^ 2 = 1 ↔ ∃ t, 0 ≤ t ∧ t < 1 ∧ ellipseCurve a t = (x, y)) ∧
      ClosedCurve (ellipseCurve a) ∧ SimpleCurve (ellipseCurve a) := by
  refine ⟨fun x y => ⟨fun h => ?_, ?_⟩, ⟨?_, ?_⟩, ?_⟩
  · obtain ⟨t, h0, h1, hc, hs⟩ := exists_param h
    refine ⟨t, h0, h1, ?_⟩
    simp only [ellipseCurve, hc, hs]
    rw [mul_div_cancel_left₀ _ ha]
  · rintro ⟨t, _, _, h⟩
    simp only [ellipseCurve, Prod.mk.injEq] at h
    rw [← h.1, ← h.2, mul_div_cancel₀ _ ha]
    exact Real.cos_sq_add_sin_sq _
  · unfold ellipseCurve
    fun_prop
  · simp [ellipseCurve]
  · intro s t hs hs1 ht ht1 h
    simp only [ellipseCurve, Prod.mk.injEq] at h
    exact param_unique hs hs1 ht ht1 h.1 ((div_left_inj' ha).1 h.2)

/-- **C84**: the circle is the unit circle, run through once counterclockwise from `(1, 0)`. -/
theorem C84_circle :
    (∀ x y : ℝ, x ^ 2 + y ^ 2 = 1 ↔ ∃ t, 0 ≤ t ∧ t < 1 ∧ circleCurve t = (x, y)) ∧
      circleCurve 0 = (1, 0) ∧ circleCurve (1 / 4) = (0, 1) ∧ ClosedCurve circleCurve ∧
      SimpleCurve circleCurve := by
  obtain ⟨h1, h2, h3⟩ := C84_ellipse (one_ne_zero (α := ℝ))
  refine ⟨fun x y => ?_, ?_, ?_, h2, h3⟩
  · have := h1 x y
    rwa [one_mul] at this
  · simp [circleCurve, ellipseCurve]
  · have e : (1 / 4 : ℝ) * (2 * Real.pi) = Real.pi / 2 := by ring
    simp only [circleCurve, ellipseCurve, e, Real.cos_pi_div_two, Real.sin_pi_div_two, div_one]

example : (2 : ℝ) ≠ 0 ∧ ellipseCurve 2 (1 / 4) = (0, 1 / 2) := by
  have e : (1 / 4 : ℝ) * (2 * Real.pi) = Real.pi / 2 := by ring
  refine ⟨by norm_num, ?_⟩
  simp only [ellipseCurve, e, Real.cos_pi_div_two, Real.sin_pi_div_two]

/-- **C84**: the cloverleaf, the drop, the peanut and the apples are closed curves without jumps. -/
theorem C84_closed (a : ℝ) : ClosedCurve cloverleafCurve ∧ ClosedCurve dropCurve ∧
    ClosedCurve qbxPeanutCurve ∧ ClosedCurve (appleCurve a) := by
  refine ⟨⟨?_, ?_⟩, ⟨?_, ?_⟩, ⟨?_, ?_⟩, ⟨?_, ?_⟩⟩
  · unfold cloverleafCurve
    fun_prop
  · have e : (3 : ℝ) * (1 * (2 * Real.pi)) = ((3 : Nat) : ℝ) * (2 * Real.pi) := by push_cast; ring
    have hs : Real.sin (((3 : Nat) : ℝ) * (2 * Real.pi)) = 0 := by
      have := Real.sin_add_nat_mul_two_pi 0 3
      rwa [zero_add, Real.sin_zero] at this
    simp only [cloverleafCurve, e, hs, Real.cos_nat_mul_two_pi]
    simp
  · unfold dropCurve
    fun_prop
  · simp [dropCurve]
  · unfold qbxPeanutCurve
    fun_prop
  · have e : (2 : ℝ) * (2 * Real.pi * 1) = ((2 : Nat) : ℝ) * (2 * Real.pi) := by push_cast; ring
    have hs : Real.sin (((2 : Nat) : ℝ) * (2 * Real.pi)) = 0 := by
      have := Real.sin_add_nat_mul_two_pi 0 2
      rwa [zero_add, Real.sin_zero] at this
    have e' : (2 : ℝ) * Real.pi * 1 - Real.pi / 4 = -(Real.pi / 4) + 2 * Real.pi := by ring
    simp only [qbxPeanutCurve, e, hs, e', Real.cos_add_two_pi, Real.sin_add_two_pi]
    simp
  · unfold appleCurve
    fun_prop
  · have e : (2 : ℝ) * (1 * (2 * Real.pi)) = ((2 : Nat) : ℝ) * (2 * Real.pi) := by push_cast; ring
    have hs : Real.sin (((2 : Nat) : ℝ) * (2 * Real.pi)) = 0 := by
      have := Real.sin_add_nat_mul_two_pi 0 2
      rwa [zero_add, Real.sin_zero] at this
    simp only [appleCurve, e, hs, Real.cos_nat_mul_two_pi]
    simp

example : dropCurve 0 = (-0.85, 0) ∧ dropCurve (1 / 2) = (0.85, 0) := by
  have e : (1 / 2 : ℝ) * Real.pi = Real.pi / 2 := by ring
  constructor
  · simp only [dropCurve, zero_mul, Real.sin_zero, Real.cos_zero]
    norm_num
  · simp only [dropCurve, e, Real.sin_pi_div_two, Real.cos_pi_div_two]
    norm_num

/-- **C84**: with roundness zero the apple is the unit circle; with one half it is the cardioid with
polar equation `r = 1 + cos φ` about its cusp `(-1/2, 0)`. -/
theorem C84_apple (t : ℝ) : appleCurve 0 t = circleCurve t ∧
    appleCurve (1 / 2) t = ((1 + Real.cos (t * (2 * Real.pi))) * Real.cos (t * (2 * Real.pi)) - 1 / 2,
      (1 + Real.cos (t * (2 * Real.pi))) * Real.sin (t * (2 * Real.pi))) := by
  constructor
  · simp [appleCurve, circleCurve, ellipseCurve]
  · simp only [appleCurve, Prod.mk.injEq]
    rw [Real.cos_two_mul, Real.sin_two_mul]
    constructor <;> ring

/-- **C84**: the cloverleaf, the drop and the peanut do not cross themselves, and neither does an apple, unless
its roundness is above one half (in absolute value): then it does. -/
theorem C84_simple (a : ℝ) : SimpleCurve cloverleafCurve ∧ SimpleCurve dropCurve ∧
    SimpleCurve qbxPeanutCurve ∧ (SimpleCurve (appleCurve a) ↔ |a| ≤ 1 / 2) := by
  have hpi := Real.pi_pos
  have hclose : ∀ x y : ℝ, (Real.cos x - Real.cos y) ^ 2 + (Real.sin x - Real.sin y) ^ 2 = 0 →
      Real.cos x = Real.cos y ∧ Real.sin x = Real.sin y := by
    intro x y h
    have h1 := sq_nonneg (Real.cos x - Real.cos y)
    have h2 := sq_nonneg (Real.sin x - Real.sin y)
    have h3 : Real.cos x - Real.cos y = 0 := pow_eq_zero_iff (two_ne_zero) |>.1 (by linarith)
    have h4 : Real.sin x - Real.sin y = 0 := pow_eq_zero_iff (two_ne_zero) |>.1 (by linarith)
    exact ⟨by linarith, by linarith⟩
  have hdist : ∀ x y : ℝ, (Real.cos x - Real.cos y) ^ 2 + (Real.sin x - Real.sin y) ^ 2 =
      2 - 2 * Real.cos (x - y) := by
    intro x y
    rw [Real.cos_sub]
    linear_combination Real.sin_sq_add_cos_sq x + Real.sin_sq_add_cos_sq y
  refine ⟨?_, ?_, ?_, ?_, ?_⟩
  · intro s t hs hs1 ht ht1 h
    simp only [cloverleafCurve, Prod.mk.injEq] at h
    obtain ⟨h1, h2⟩ := h
    set x := s * (2 * Real.pi)
    set y := t * (2 * Real.pi)
    have hd := hdist x y
    have hd3 := hdist (3 * x) (3 * y)
    rw [show 3 * x - 3 * y = 3 * (x - y) by ring, Real.cos_three_mul (x - y)] at hd3
    set k := Real.cos (x - y)
    have hk1 : k ≤ 1 := Real.cos_le_one _
    have hk2 : -1 ≤ k := Real.neg_one_le_cos _
    have e1 : Real.cos x - Real.cos y = -(3 / 10) * (Real.sin (3 * x) - Real.sin (3 * y)) := by
      norm_num at h1
      linarith
    have e2 : Real.sin x - Real.sin y = 3 / 10 * (Real.cos (3 * x) - Real.cos (3 * y)) := by
      norm_num at h2
      linarith
    have e3 : (Real.cos x - Real.cos y) ^ 2 + (Real.sin x - Real.sin y) ^ 2 =
        9 / 100 * ((Real.cos (3 * x) - Real.cos (3 * y)) ^ 2 + (Real.sin (3 * x) - Real.sin (3 * y)) ^ 2) := by
      rw [e1, e2]
      ring
    rw [hd, hd3] at e3
    have e4 : (1 - k) * (1 - 9 / 100 * (1 + 2 * k) ^ 2) = 0 := by linear_combination e3 / 2
    rcases mul_eq_zero.1 e4 with e | e
    · obtain ⟨hc, hn⟩ := hclose x y (by rw [hd]; linarith)
      exact param_unique hs hs1 ht ht1 hc hn
    · nlinarith
  · intro s t hs hs1 ht ht1 h
    simp only [dropCurve, Prod.mk.injEq] at h
    obtain ⟨h1, h2⟩ := h
    have hx0 : 0 ≤ s * Real.pi := by positivity
    have hx1 : s * Real.pi < Real.pi := by nlinarith
    have hy0 : 0 ≤ t * Real.pi := by positivity
    have hy1 : t * Real.pi < Real.pi := by nlinarith
    set x := s * Real.pi
    set y := t * Real.pi
    have hsin : Real.sin x = Real.sin y := by
      norm_num at h1
      linarith
    have hy : Real.cos x * (x - Real.pi) * x = Real.cos y * (y - Real.pi) * y := by
      norm_num at h2
      linarith
    suffices x = y from mul_right_cancel₀ hpi.ne' this
    have hcos : Real.cos x ^ 2 = Real.cos y ^ 2 := by
      have h3 := Real.sin_sq_add_cos_sq x
      have h4 := Real.sin_sq_add_cos_sq y
      rw [hsin] at h3
      linarith
    rcases sq_eq_sq_iff_eq_or_eq_neg.1 hcos with hc | hc
    · exact angle_unique hx0 (by linarith) hy0 (by linarith) hc hsin
    · have hxy : x = Real.pi - y := by
        by_cases h0 : y = 0
        · have : Real.cos x = Real.cos Real.pi := by rw [hc, h0]; simp
          have hinj := Real.injOn_cos ⟨hx0, hx1.le⟩ ⟨hpi.le, le_refl _⟩ this
          linarith
        · refine Real.injOn_cos ⟨hx0, hx1.le⟩ ⟨by linarith, by linarith⟩ ?_
          rw [hc, Real.cos_pi_sub]
      have h3 : Real.cos y * ((Real.pi - y) * y) = 0 := by
        rw [hc] at hy
        rw [hxy] at hy
        linear_combination (1 / 2) * hy
      rcases mul_eq_zero.1 h3 with h4 | h4
      · have hyh : y = Real.pi / 2 := by
          refine Real.injOn_cos ⟨hy0, hy1.le⟩ ⟨by linarith, by linarith⟩ ?_
          rw [h4, Real.cos_pi_div_two]
        rw [hxy, hyh]
        ring
      · rcases mul_eq_zero.1 h4 with h5 | h5
        · linarith
        · rw [h5] at hxy
          linarith
  · intro s t hs hs1 ht ht1 h
    simp only [qbxPeanutCurve, Prod.mk.injEq] at h
    obtain ⟨h1, h2⟩ := h
    have hpos : ∀ z : ℝ, (0 : ℝ) < 1 + 0.3 * Real.sin z := by
      intro z
      have := Real.neg_one_le_sin z
      norm_num
      linarith
    have := star_unique (a := 2 * Real.pi * s - Real.pi / 4) (b := 2 * Real.pi * t - Real.pi / 4)
      (hpos (2 * (2 * Real.pi * s))) (hpos (2 * (2 * Real.pi * t)))
      (by linear_combination (4 / 3) * h1) (by linear_combination h2)
    obtain ⟨hc, hn⟩ := this
    have e : ∀ z : ℝ, z * (2 * Real.pi) = (2 * Real.pi * z - Real.pi / 4) + Real.pi / 4 := by
      intro z
      ring
    refine param_unique hs hs1 ht ht1 ?_ ?_
    · rw [e s, e t, Real.cos_add, Real.cos_add, hc, hn]
    · rw [e s, e t, Real.sin_add, Real.sin_add, hc, hn]
  · intro hsim
    by_contra hlt
    rw [not_le] at hlt
    have ha0 : a ≠ 0 := by
      rintro rfl
      simp at hlt
      linarith
    have h1 : 1 / (4 * a ^ 2) < 1 := by
      rw [div_lt_one (by positivity)]
      have : (1 / 2 : ℝ) ^ 2 < |a| ^ 2 := by gcongr
      rw [sq_abs] at this
      linarith
    set q := Real.sqrt (1 - 1 / (4 * a ^ 2)) with hq
    have hq2 : q ^ 2 = 1 - 1 / (4 * a ^ 2) := Real.sq_sqrt (by linarith)
    have hqpos : 0 < q := Real.sqrt_pos.2 (by linarith)
    have hp : ∀ e : ℝ, e ^ 2 = q ^ 2 → (-(1 / (2 * a))) ^ 2 + e ^ 2 = 1 := by
      intro e he
      rw [he, hq2]
      field_simp
      ring
    obtain ⟨s, hs0, hs1, hsc, hss⟩ := exists_param (hp q rfl)
    obtain ⟨t, ht0, ht1, htc, hts⟩ := exists_param (hp (-q) (by ring))
    have := hsim s t hs0 hs1 ht0 ht1 (by
      simp only [appleCurve, Prod.mk.injEq]
      rw [Real.cos_two_mul, Real.sin_two_mul, Real.cos_two_mul, Real.sin_two_mul, hsc, hss, htc, hts]
      refine ⟨rfl, ?_⟩
      field_simp
      ring)
    rw [this, hts] at hss
    linarith
  · intro ha s t hs hs1 ht ht1 h
    simp only [appleCurve, Prod.mk.injEq] at h
    obtain ⟨h1, h2⟩ := h
    set x := s * (2 * Real.pi)
    set y := t * (2 * Real.pi)
    have hd := hdist x y
    have hd2 := hdist (2 * x) (2 * y)
    rw [show 2 * x - 2 * y = 2 * (x - y) by ring, Real.cos_two_mul (x - y)] at hd2
    set k := Real.cos (x - y)
    have hk1 : k ≤ 1 := Real.cos_le_one _
    have e1 : Real.cos x - Real.cos y = -a * (Real.cos (2 * x) - Real.cos (2 * y)) := by linarith
    have e2 : Real.sin x - Real.sin y = -a * (Real.sin (2 * x) - Real.sin (2 * y)) := by linarith
    have e3 : (Real.cos x - Real.cos y) ^ 2 + (Real.sin x - Real.sin y) ^ 2 =
        a ^ 2 * ((Real.cos (2 * x) - Real.cos (2 * y)) ^ 2 + (Real.sin (2 * x) - Real.sin (2 * y)) ^ 2) := by
      rw [e1, e2]
      ring
    rw [hd, hd2] at e3
    have e4 : (1 - k) * (1 - 2 * a ^ 2 * (1 + k)) = 0 := by linear_combination e3 / 2
    have ha2 : a ^ 2 ≤ 1 / 4 := by
      have : |a| ^ 2 ≤ (1 / 2 : ℝ) ^ 2 := by gcongr
      rw [sq_abs] at this
      linarith
    have hk : 1 - k = 0 := by
      rcases mul_eq_zero.1 e4 with e | e
      · exact e
      · nlinarith
    obtain ⟨hc, hn⟩ := hclose x y (by rw [hd]; linarith)
    exact param_unique hs hs1 ht ht1 hc hn

example : |(-1 / 4 : ℝ)| ≤ 1 / 2 ∧ ¬ SimpleCurve (appleCurve 1) := by
  refine ⟨by norm_num [abs_div], fun h => ?_⟩
  have := (C84_simple 1).2.2.2.1 h
  norm_num at this

/-- **C84**: half a turn maps the cloverleaf and the peanut to themselves, and the drop and the apples are
symmetric about the first axis. -/
theorem C84_symmetric (a t : ℝ) : cloverleafCurve (t + 1 / 2) = -cloverleafCurve t ∧
    qbxPeanutCurve (t + 1 / 2) = -qbxPeanutCurve t ∧
    dropCurve (1 - t) = ((dropCurve t).1, -(dropCurve t).2) ∧
    appleCurve a (1 - t) = ((appleCurve a t).1, -(appleCurve a t).2) := by
  refine ⟨?_, ?_, ?_, ?_⟩
  · simp only [cloverleafCurve, Prod.neg_mk, Prod.mk.injEq]
    rw [show (t + 1 / 2) * (2 * Real.pi) = t * (2 * Real.pi) + Real.pi by ring,
      show 3 * (t * (2 * Real.pi) + Real.pi) = 3 * (t * (2 * Real.pi)) + Real.pi + 2 * Real.pi by ring,
      Real.sin_add_two_pi, Real.cos_add_two_pi, Real.cos_add_pi, Real.sin_add_pi, Real.cos_add_pi, Real.sin_add_pi]
    constructor <;> ring
  · simp only [qbxPeanutCurve, Prod.neg_mk, Prod.mk.injEq]
    rw [show 2 * (2 * Real.pi * (t + 1 / 2)) = 2 * (2 * Real.pi * t) + 2 * Real.pi by ring,
      show 2 * Real.pi * (t + 1 / 2) - Real.pi / 4 = 2 * Real.pi * t - Real.pi / 4 + Real.pi by ring,
      Real.sin_add_two_pi, Real.cos_add_pi, Real.sin_add_pi]
    constructor <;> ring
  · simp only [dropCurve, Prod.mk.injEq]
    rw [show (1 - t) * Real.pi = Real.pi - t * Real.pi by ring, Real.sin_pi_sub, Real.cos_pi_sub]
    refine ⟨rfl, ?_⟩
    ring
  · simp only [appleCurve, Prod.mk.injEq]
    rw [show (1 - t) * (2 * Real.pi) = 2 * Real.pi - t * (2 * Real.pi) by ring,
      show 2 * (2 * Real.pi - t * (2 * Real.pi)) = -(2 * (t * (2 * Real.pi))) + 2 * Real.pi + 2 * Real.pi by ring,
      Real.cos_add_two_pi, Real.cos_add_two_pi, Real.sin_add_two_pi, Real.sin_add_two_pi, Real.cos_two_pi_sub,
      Real.sin_two_pi_sub, Real.cos_neg, Real.sin_neg]
    refine ⟨rfl, ?_⟩
    ring

/-- **C84**: the dumbbells are closed curves without jumps for shape parameters below one and positive
exponent parameters, and do not cross themselves if `gamma` is positive. -/
theorem C84_dumbbell {gamma beta : ℝ} {p w : Nat} (hb0 : 0 ≤ beta) (hb : beta < 1) (hg : 0 < gamma)
    (_hp : 0 < p) :
    ClosedCurve (wobblyDumbbellCurve gamma beta p w) ∧ SimpleCurve (wobblyDumbbellCurve gamma beta p w) ∧
      (∀ s, gamma ≤ dumbbellRadius gamma beta p w s) := by
  have hq : ∀ s, (1 : ℝ) ≤ 1 + beta / (1 - beta) * Real.cos s ^ 2 := by
    intro s
    have h1 : 0 ≤ beta / (1 - beta) := div_nonneg hb0 (by linarith)
    nlinarith [sq_nonneg (Real.cos s)]
  have hr : ∀ s, gamma ≤ dumbbellRadius gamma beta p w s := by
    intro s
    unfold dumbbellRadius
    have h1 : (1 : ℝ) ≤ (1 + beta / (1 - beta) * Real.cos s ^ 2) ^ (1 / (p : ℝ)) :=
      Real.one_le_rpow (hq s) (by positivity)
    nlinarith [sq_nonneg (Real.sin (w * s))]
  have hper : ∀ s, dumbbellRadius gamma beta p w (s + 2 * Real.pi) = dumbbellRadius gamma beta p w s := by
    intro s
    unfold dumbbellRadius
    rw [Real.cos_add_two_pi, mul_add, Real.sin_add_nat_mul_two_pi]
  refine ⟨⟨?_, ?_⟩, ?_, hr⟩
  · have hc : Continuous (dumbbellRadius gamma beta p w) := by
      unfold dumbbellRadius
      refine Continuous.add (Continuous.mul continuous_const ?_) (by fun_prop)
      exact Continuous.rpow_const (by fun_prop) fun s => Or.inr (by positivity)
    unfold wobblyDumbbellCurve
    have h2 : Continuous fun t : ℝ => dumbbellRadius gamma beta p w (2 * Real.pi * t) :=
      hc.comp (by fun_prop)
    exact Continuous.prodMk (by fun_prop) (h2.mul (by fun_prop))
  · simp [wobblyDumbbellCurve]
  · intro s t hs hs1 ht ht1 h
    simp only [wobblyDumbbellCurve, Prod.mk.injEq] at h
    rw [mul_comm (2 * Real.pi) s, mul_comm (2 * Real.pi) t] at h
    obtain ⟨hc, hy⟩ := h
    set a := s * (2 * Real.pi)
    set b := t * (2 * Real.pi)
    refine param_unique hs hs1 ht ht1 hc ?_
    have hra : 0 < dumbbellRadius gamma beta p w a := hg.trans_le (hr a)
    have hrb : 0 < dumbbellRadius gamma beta p w b := hg.trans_le (hr b)
    have h2 : Real.sin a ^ 2 = Real.sin b ^ 2 := by rw [Real.sin_sq, Real.sin_sq, hc]
    rcases sq_eq_sq_iff_eq_or_eq_neg.1 h2 with h3 | h3
    · exact h3
    · rw [h3] at hy
      have h4 : (dumbbellRadius gamma beta p w a + dumbbellRadius gamma beta p w b) * Real.sin b = 0 := by
        linear_combination -hy
      rcases mul_eq_zero.1 h4 with h5 | h5
      · linarith
      · rw [h3, h5, neg_zero]

example : (0 : ℝ) ≤ 1 / 2 ∧ (1 / 2 : ℝ) < 1 ∧ (0 : ℝ) < 3 ∧ dumbbellCurve 3 (1 / 2) (1 / 4) = (0, 3) := by
  have e : 2 * Real.pi * (1 / 4 : ℝ) = Real.pi / 2 := by ring
  refine ⟨by norm_num, by norm_num, by norm_num, ?_⟩
  simp only [dumbbellCurve, wobblyDumbbellCurve, dumbbellRadius, e, Real.cos_pi_div_two, Real.sin_pi_div_two]
  norm_num

/-- **C84**: the plain dumbbell has no waves and no root: its half-width at angle `s` is
`gamma (1 + beta / (1 - beta) cos² s)`. -/
theorem C84_dumbbell_plain (gamma beta t : ℝ) :
    dumbbellCurve gamma beta t = (Real.cos (2 * Real.pi * t),
      gamma * (1 + beta / (1 - beta) * Real.cos (2 * Real.pi * t) ^ 2) * Real.sin (2 * Real.pi * t)) := by
  simp [dumbbellCurve, wobblyDumbbellCurve, dumbbellRadius]

example : dumbbellCurve 3 (1 / 2) 0 = (1, 0) ∧ (dumbbellCurve 3 (1 / 2) (1 / 4)).2 = 3 := by
  have e : 2 * Real.pi * (1 / 4 : ℝ) = Real.pi / 2 := by ring
  constructor
  · rw [C84_dumbbell_plain]; simp
  · rw [C84_dumbbell_plain, e]; simp

/-- **C84**: a wobbly circle is a closed curve without jumps, at distance `wave` from the origin, and if the
absolute values of the coefficients sum to less than one it does not cross itself and stays away from the
origin. -/
theorem C84_wobbly (coeffs : List ℝ) (phase : ℝ) :
    ClosedCurve (wobblyCurve coeffs phase) ∧
      (∀ t, 1 - (coeffs.map fun c => |c|).sum ≤ wobblyWave coeffs phase (t * (2 * Real.pi)) ∧
        (wobblyCurve coeffs phase t).1 ^ 2 + (wobblyCurve coeffs phase t).2 ^ 2 =
          wobblyWave coeffs phase (t * (2 * Real.pi)) ^ 2) ∧
      ((coeffs.map fun c => |c|).sum < 1 → SimpleCurve (wobblyCurve coeffs phase) ∧
        ∀ t, wobblyCurve coeffs phase t ≠ (0, 0)) := by
  have hlow : ∀ s, 1 - (coeffs.map fun c => |c|).sum ≤ wobblyWave coeffs phase s := by
    intro s
    have := abs_le.1 (wave_bound coeffs phase s)
    linarith [this.1]
  refine ⟨⟨?_, ?_⟩, fun t => ⟨hlow _, ?_⟩, fun hsum => ⟨?_, ?_⟩⟩
  · have := wave_continuous coeffs phase
    unfold wobblyCurve
    have h2 : Continuous fun t : ℝ => wobblyWave coeffs phase (t * (2 * Real.pi)) :=
      this.comp (by fun_prop)
    exact Continuous.prodMk (Continuous.mul (by fun_prop) h2) (Continuous.mul (by fun_prop) h2)
  · have h := wave_periodic coeffs phase 0
    rw [zero_add] at h
    simp only [wobblyCurve, zero_mul, one_mul, h, Real.cos_two_pi, Real.sin_two_pi, Real.cos_zero,
      Real.sin_zero]
  · simp only [wobblyCurve]
    have := Real.sin_sq_add_cos_sq (t * (2 * Real.pi))
    linear_combination (wobblyWave coeffs phase (t * (2 * Real.pi))) ^ 2 * this
  · intro s t hs hs1 ht ht1 h
    simp only [wobblyCurve, Prod.mk.injEq] at h
    have hp : ∀ s, 0 < wobblyWave coeffs phase s := fun s => by linarith [hlow s]
    obtain ⟨hc, hn⟩ := star_unique (hp _) (hp _) h.1 h.2
    exact param_unique hs hs1 ht ht1 hc hn
  · intro t h
    simp only [wobblyCurve, Prod.mk.injEq] at h
    have hp : 0 < wobblyWave coeffs phase (t * (2 * Real.pi)) := by linarith [hlow (t * (2 * Real.pi))]
    have h1 := (mul_eq_zero.1 h.1).resolve_right hp.ne'
    have h2 := (mul_eq_zero.1 h.2).resolve_right hp.ne'
    have := Real.sin_sq_add_cos_sq (t * (2 * Real.pi))
    rw [h1, h2] at this
    norm_num at this

/-- **C84**: random wobbly circles keep the distance `0.05` from the origin and do not cross themselves. -/
theorem C84_random {rnd : List ℝ} (h0 : (rnd.map fun d => |d|).sum ≠ 0) :
    ((randomCoeffs rnd).map fun c => |c|).sum = 0.95 ∧ SimpleCurve (wobblyCurve (randomCoeffs rnd) 0) ∧
      ∀ t, (0.05 : ℝ) ^ 2 ≤ (wobblyCurve (randomCoeffs rnd) 0 t).1 ^ 2
        + (wobblyCurve (randomCoeffs rnd) 0 t).2 ^ 2 := by
  have hnn : 0 ≤ (rnd.map fun d => |d|).sum := by
    refine List.sum_nonneg fun x hx => ?_
    obtain ⟨y, _, rfl⟩ := List.mem_map.1 hx
    exact abs_nonneg y
  have hs : ((randomCoeffs rnd).map fun c => |c|).sum = 0.95 := by
    unfold randomCoeffs
    rw [List.map_map]
    have := sum_map_div rnd (rnd.map fun d => |d|).sum
    rw [abs_of_nonneg hnn, mul_div_assoc, div_self h0, mul_one] at this
    exact this
  obtain ⟨_, h2, h3⟩ := C84_wobbly (randomCoeffs rnd) 0
  refine ⟨hs, (h3 (by rw [hs]; norm_num)).1, fun t => ?_⟩
  obtain ⟨h4, h5⟩ := h2 t
  rw [h5]
  rw [hs] at h4
  exact pow_le_pow_left₀ (by norm_num) (by linarith) 2

example : ((([1, 3] : List ℝ).map fun d => |d|).sum ≠ 0) := by norm_num

/-- **C84**: a starfish with at least one arm and amplitude below one in absolute value is a closed curve which
does not cross itself; its distance from the origin is `1 + amplitude * sin(n_arms * s + phase)`.  Without
arms, the constructor raises an exception. -/
theorem C84_starfish (nArms : Nat) (amplitude phase : ℝ) :
    (starfishCoeffs nArms amplitude = none ↔ nArms = 0) ∧
      ∀ coeffs, starfishCoeffs nArms amplitude = some coeffs →
        coeffs.length = nArms ∧ ClosedCurve (wobblyCurve coeffs phase) ∧
        (∀ s, wobblyWave coeffs phase s = 1 + amplitude * Real.sin (nArms * s + phase)) ∧
        (|amplitude| < 1 → SimpleCurve (wobblyCurve coeffs phase)) := by
  have key : ∀ (n k : Nat) (s : ℝ), (((List.replicate n (0 : ℝ) ++ [amplitude]).zipIdx k).map fun ci =>
      ci.1 * Real.sin (((ci.2 : ℝ) + 1) * s + phase)).sum =
        amplitude * Real.sin (((n + k : Nat) + 1 : ℝ) * s + phase) := by
    intro n
    induction n with
    | zero => intro k s; simp
    | succ n ih =>
      intro k s
      rw [List.replicate_succ, List.cons_append, List.zipIdx_cons, List.map_cons, List.sum_cons, ih]
      simp only [zero_mul, zero_add]
      rw [show n + (k + 1) = n + 1 + k by omega]
  have hset : ∀ n : Nat, (List.replicate (n + 1) (0 : ℝ)).set n amplitude =
      List.replicate n 0 ++ [amplitude] := by
    intro n
    induction n with
    | zero => rfl
    | succ n ih => rw [List.replicate_succ, List.set_cons_succ, ih, List.replicate_succ, List.cons_append]
  have habs : ∀ n : Nat, ((List.replicate n (0 : ℝ) ++ [amplitude]).map fun c => |c|).sum = |amplitude| := by
    intro n
    induction n with
    | zero => simp
    | succ n ih => rw [List.replicate_succ, List.cons_append, List.map_cons, List.sum_cons, ih]; simp
  constructor
  · unfold starfishCoeffs
    split <;> simp_all
  · intro coeffs h
    unfold starfishCoeffs at h
    rcases nArms with _ | n
    · simp at h
    · rw [if_neg (by omega), Option.some_inj, show n + 1 - 1 = n by omega, hset] at h
      subst h
      obtain ⟨h1, _, h3⟩ := C84_wobbly (List.replicate n 0 ++ [amplitude]) phase
      refine ⟨by simp, h1, fun s => ?_, fun ha => (h3 (by rwa [habs])).1⟩
      rw [wobblyWave_eq, key n 0 s]
      push_cast
      simp

/-- **C84**: the starfish drawn at random have between 3 and 32 arms and do not cross themselves. -/
theorem C84_starfish_random {k : Nat} {u : ℝ} (hk : k < 30) (hu : 0 ≤ u) (hu1 : u < 1) (phase : ℝ) :
    3 ≤ (starfishRandom k u).1 ∧ (starfishRandom k u).1 ≤ 32 ∧
      ∃ coeffs, starfishCoeffs (starfishRandom k u).1 (starfishRandom k u).2 = some coeffs ∧
        SimpleCurve (wobblyCurve coeffs phase) := by
  have h1 : 3 ≤ (starfishRandom k u).1 := by unfold starfishRandom; simp only; omega
  refine ⟨h1, by unfold starfishRandom; simp only; omega, ?_⟩
  obtain ⟨h2, h3⟩ := C84_starfish (starfishRandom k u).1 (starfishRandom k u).2 phase
  obtain ⟨c, hc⟩ := Option.ne_none_iff_exists'.1 (fun h => by have := h2.1 h; omega)
  refine ⟨c, hc, (h3 c hc).2.2.2 ?_⟩
  unfold starfishRandom
  simp only
  rw [abs_of_nonneg (by positivity)]
  linarith

example : (2 : Nat) < 30 ∧ (0 : ℝ) ≤ 1 / 2 ∧ (1 / 2 : ℝ) < 1 := by norm_num

/-- **C84** (partial: half angles of at least `π` are accepted by the assertions, but excluded here): the clamp
is a closed curve without jumps, made of an arc of the outer circle, an arc of the inner circle and two half
circles of diameter `r_major - r_minor`, the four parts having lengths of parameter in proportion to their
arc lengths. -/
theorem C84_clamp_partial {R r g : ℝ} (h : ClampArgs R r g) (hg : g < Real.pi) :
    ClosedCurve (clampCurve R r g) ∧
      (∃ t1 t2 t3, 0 < t1 ∧ t1 < t2 ∧ t2 < t3 ∧ t3 < 1 ∧
        (∀ t, t < t1 → (clampCurve R r g t).1 ^ 2 + (clampCurve R r g t).2 ^ 2 = R ^ 2) ∧
        (∀ t, t1 ≤ t → t < t2 →
          ((clampCurve R r g t).1 - (R + r) / 2 * Real.cos (-g)) ^ 2
            + ((clampCurve R r g t).2 - (R + r) / 2 * Real.sin (-g)) ^ 2 = ((R - r) / 2) ^ 2) ∧
        (∀ t, t2 ≤ t → t < t3 → (clampCurve R r g t).1 ^ 2 + (clampCurve R r g t).2 ^ 2 = r ^ 2) ∧
        (∀ t, t3 ≤ t →
          ((clampCurve R r g t).1 - (R + r) / 2 * Real.cos g) ^ 2
            + ((clampCurve R r g t).2 - (R + r) / 2 * Real.sin g) ^ 2 = ((R - r) / 2) ^ 2) ∧
        ∃ c, c * t1 = R * (2 * Real.pi - 2 * g) ∧ c * (t2 - t1) = (R - r) / 2 * Real.pi ∧
          c * (t3 - t2) = r * (2 * Real.pi - 2 * g) ∧ c * (1 - t3) = (R - r) / 2 * Real.pi) := by
  obtain ⟨hR, hg0, _⟩ := h
  obtain ⟨h1, h2, h3, h4, h12, h23, h34, h5⟩ := clamp_facts hR hg
  obtain ⟨e1, e2, e3, e4, e5, e6, e7, e8⟩ := theta_ends hR hg
  obtain ⟨c1, c2⟩ := cap0_ends R r g
  obtain ⟨c3, c4⟩ := cap1_ends R r g
  refine ⟨⟨?_, ?_⟩, clampT1 R r g, clampT2 R r g, clampT3 R r g, h4, h12, h23, h5 ▸ h34, ?_, ?_, ?_, ?_, ?_⟩
  · have e : clampCurve R r g = fun t => if clampT1 R r g ≤ t then
        (if clampT2 R r g ≤ t then
          (if clampT3 R r g ≤ t then capPoint1 R r g (thetaCap1 R r g t)
            else arcPoint r (-thetaInner R r g t))
          else capPoint0 R r g (thetaCap0 R r g t))
        else arcPoint R (thetaOuter R r g t) := by
      funext t
      by_cases a1 : clampT1 R r g ≤ t
      · rw [if_pos a1]
        by_cases a2 : clampT2 R r g ≤ t
        · rw [if_pos a2]
          by_cases a3 : clampT3 R r g ≤ t
          · rw [if_pos a3, clampCurve_cap1 h12 h23 a3]
          · rw [if_neg a3, clampCurve_inner h12 a2 (not_le.1 a3)]
        · rw [if_neg a2, clampCurve_cap0 h23 a1 (not_le.1 a2)]
      · rw [if_neg a1, clampCurve_outer h12 h23 (not_le.1 a1)]
    rw [e]
    have k0 : Continuous fun t => arcPoint R (thetaOuter R r g t) := by
      unfold arcPoint thetaOuter; fun_prop
    have k1 : Continuous fun t => capPoint0 R r g (thetaCap0 R r g t) := by
      unfold capPoint0 thetaCap0 rotate2; fun_prop
    have k2 : Continuous fun t => arcPoint r (-thetaInner R r g t) := by
      unfold arcPoint thetaInner; fun_prop
    have k3 : Continuous fun t => capPoint1 R r g (thetaCap1 R r g t) := by
      unfold capPoint1 thetaCap1 rotate2; fun_prop
    refine Continuous.if_le (Continuous.if_le (Continuous.if_le k3 k2 continuous_const continuous_id ?_) k1
      continuous_const continuous_id ?_) k0 continuous_const continuous_id ?_
    · rintro t rfl
      rw [e6, e7, c3]
    · rintro t rfl
      rw [if_neg (not_le.2 h23), e5, e4, c2]
    · rintro t rfl
      rw [if_neg (not_le.2 h12), e3, e2, c1]
  · rw [clampCurve_outer h12 h23 h4, clampCurve_cap1 h12 h23 (h5 ▸ h34.le), e1, e8, c4]
  · intro t ht
    rw [clampCurve_outer h12 h23 ht]
    simp only [arcPoint]
    linear_combination R ^ 2 * Real.sin_sq_add_cos_sq (thetaOuter R r g t)
  · intro t ht ht'
    rw [clampCurve_cap0 h23 ht ht']
    simp only [capPoint0, rotate2, clampCap, Prod.fst_add, Prod.smul_fst, smul_eq_mul, Prod.snd_add,
      Prod.smul_snd]
    set th := thetaCap0 R r g t
    have k1 := Real.sin_sq_add_cos_sq th
    have k2 := Real.sin_sq_add_cos_sq (-g)
    linear_combination ((R - r) / 2) ^ 2 * (Real.sin (-g) ^ 2 + Real.cos (-g) ^ 2) * k1
      + ((R - r) / 2) ^ 2 * k2
  · intro t ht ht'
    rw [clampCurve_inner h12 ht ht']
    simp only [arcPoint]
    linear_combination r ^ 2 * Real.sin_sq_add_cos_sq (-thetaInner R r g t)
  · intro t ht
    rw [clampCurve_cap1 h12 h23 ht]
    simp only [capPoint1, rotate2, clampCap, Prod.fst_add, Prod.smul_fst, smul_eq_mul, Prod.snd_add,
      Prod.smul_snd]
    rw [add_comm Real.pi g, Real.cos_add_pi, Real.sin_add_pi]
    set th := thetaCap1 R r g t
    have k1 := Real.sin_sq_add_cos_sq th
    have k2 := Real.sin_sq_add_cos_sq g
    linear_combination ((R - r) / 2) ^ 2 * (Real.sin g ^ 2 + Real.cos g ^ 2) * k1
      + ((R - r) / 2) ^ 2 * k2
  · refine ⟨clampLength R r g, ?_, ?_, ?_, ?_⟩
    · unfold clampT1
      rw [mul_div_cancel₀ _ h3.ne']
      unfold clampInv
      ring
    · unfold clampT2
      rw [add_sub_cancel_left, mul_div_cancel₀ _ h3.ne']
      unfold clampCap
      ring
    · unfold clampT3
      rw [add_sub_cancel_left, mul_div_cancel₀ _ h3.ne']
      unfold clampInv
      ring
    · rw [← h5]
      unfold clampT4
      rw [add_sub_cancel_left, mul_div_cancel₀ _ h3.ne']
      unfold clampCap
      ring

example : ClampArgs 2 1 1 ∧ (1 : ℝ) < Real.pi := by
  have := Real.two_le_pi
  refine ⟨⟨by norm_num, by norm_num, by linarith⟩, by linarith⟩

/-- **C84**, what fails: the half angle `π` passes the assertions, but then the outer shell occupies no
parameters and the angle on it is computed by a division by zero; slightly beyond it, the first breakpoint is
negative, so no parameter in `[0, 1]` is on the outer shell. -/
theorem C84_clamp_counterexample : ClampArgs 2 1 Real.pi ∧ clampT1 2 1 Real.pi - 0 = 0 ∧
    ClampArgs 2 1 (Real.pi + Real.pi / 12) ∧ clampT1 2 1 (Real.pi + Real.pi / 12) < 0 := by
  have hp := Real.pi_pos
  refine ⟨⟨by norm_num, by linarith, by linarith⟩, ?_, ⟨by norm_num, by linarith, by linarith⟩, ?_⟩
  · simp [clampT1, clampInv]
  · unfold clampT1 clampLength clampInv clampCap
    refine div_neg_of_neg_of_pos ?_ ?_ <;> nlinarith

/-- **C84**, what fails: `n_gon` raises an exception for every vector of parameters and every positive number
of corners. -/
theorem C84_ngon_counterexample {nCorners : Nat} (h : 0 < nCorners) (t : List ℝ) :
    nGonShape nCorners t = none := by
  unfold nGonShape
  rw [if_neg]
  intro hall
  have := List.all_eq_true.1 hall 0 (List.mem_range.2 h)
  simp [sideValueShape, sideTargetShape, assignable] at this

example : 0 < 5 ∧ assignable [3, 2] [3, 2] = true ∧ assignable [1, 2] [3, 2] = true ∧
    assignable [3] [3, 2] = true ∧ assignable [3, 2] [3, 1, 2] = false := by decide

end Meshmode
