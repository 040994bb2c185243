import Verif.Gen.Torus
import Verif.Gen.Curves

/-!
# Tori and crullers as surfaces (C85)

The points computed by `generate_torus_and_cycle_vertices` for `generate_torus` and `generate_cruller`
(meshmode/mesh/generation.py:896-925, 945-1072), with real numbers for floating point numbers.
-/
namespace Meshmode

/-! ## Model -/

/-- A point of the surface for parameters `u` and `v`, meshmode/mesh/generation.py:911-916 for vertices and
919-925 for nodes; `H` is `r_minor_func`. -/
noncomputable def torusPoint (H : ℝ → ℝ → ℝ) (rMajor rMinor u v : ℝ) : ℝ × ℝ × ℝ :=
  let bhat := rMinor * H u v
  (Real.cos u * (rMajor + bhat * Real.cos v), Real.sin u * (rMajor + bhat * Real.cos v), bhat * Real.sin v)

/-- `r_minor_func` of `generate_torus`, the default, meshmode/mesh/generation.py:833-843. -/
noncomputable def torusH (_u _v : ℝ) : ℝ := 1

/-- `r_minor_func` of `generate_cruller`, meshmode/mesh/generation.py:1067. -/
noncomputable def crullerH (u v : ℝ) : ℝ := 1 + 0.25 * Real.cos (5 * u + 3 * v)

/-- A vertex, with the parameters as fractions of a full turn: `np.linspace(0, 2*np.pi, n, endpoint=False)`,
meshmode/mesh/generation.py:901-903. -/
noncomputable def torusPointQ (H : ℝ → ℝ → ℝ) (rMajor rMinor : ℝ) (u v : ℚ) : ℝ × ℝ × ℝ :=
  torusPoint H rMajor rMinor (u * (2 * Real.pi)) (v * (2 * Real.pi))

/-- `generate_torus`, meshmode/mesh/generation.py:945-1023: vertices and vertex numbers of the elements. -/
noncomputable def torusMesh (rMajor rMinor : ℝ) (simplex : Bool) (nMajor nMinor : Nat) :
    List (ℝ × ℝ × ℝ) × List (List Nat) :=
  let t := generateTorus (torusPointQ torusH rMajor rMinor) simplex nMajor nMinor
  (t.1, t.2.1)

/-- `generate_cruller`, meshmode/mesh/generation.py:1031-1072: vertices and vertex numbers of the elements. -/
noncomputable def crullerMesh (rMajor rMinor : ℝ) (simplex : Bool) (nMajor nMinor : Nat) :
    List (ℝ × ℝ × ℝ) × List (List Nat) :=
  let t := generateTorus (torusPointQ crullerH rMajor rMinor) simplex nMajor nMinor
  (t.1, t.2.1)

/-! ## Specification -/

/-- The torus as a set: points at distance `r` from the circle of radius `R` in the plane.
(Specification or proof vocabulary, no code.) -/
def OnTorus (R r : ℝ) (p : ℝ × ℝ × ℝ) : Prop :=
  (Real.sqrt (p.1 ^ 2 + p.2.1 ^ 2) - R) ^ 2 + p.2.2 ^ 2 = r ^ 2

/-- The documented map, from the docstring at meshmode/mesh/generation.py:986-992 and 1044-1052. -/
noncomputable def documentedTorus (H : ℝ → ℝ → ℝ) (R r u v : ℝ) : ℝ × ℝ × ℝ :=
  (Real.cos u * (R + r * H u v * Real.cos v), Real.sin u * (R + r * H u v * Real.sin v),
    r * H u v * Real.sin v)

/-! ## Lemmas -/

theorem crullerH_bounds (u v : ℝ) : 0.75 ≤ crullerH u v ∧ crullerH u v ≤ 1.25 := by
  have h1 := Real.neg_one_le_cos (5 * u + 3 * v)
  have h2 := Real.cos_le_one (5 * u + 3 * v)
  unfold crullerH
  constructor <;> linarith

theorem crullerH_periodic (u v : ℝ) : crullerH (u + 2 * Real.pi) v = crullerH u v ∧
    crullerH u (v + 2 * Real.pi) = crullerH u v := by
  unfold crullerH
  constructor
  · rw [show (5 : ℝ) * (u + 2 * Real.pi) + 3 * v = (5 * u + 3 * v) + ((5 : Nat) : ℝ) * (2 * Real.pi) by
      push_cast; ring, Real.cos_add_nat_mul_two_pi]
  · rw [show (5 : ℝ) * u + 3 * (v + 2 * Real.pi) = (5 * u + 3 * v) + ((3 : Nat) : ℝ) * (2 * Real.pi) by
      push_cast; ring, Real.cos_add_nat_mul_two_pi]

theorem tube_pos {R b v : ℝ} (hb : 0 ≤ b) (h : b < R) : 0 < R + b * Real.cos v := by
  nlinarith [Real.neg_one_le_cos v]

/-- Points with equal coordinates have equal parameters, if the tube is thin. -/
theorem torusPoint_unique {H : ℝ → ℝ → ℝ} {R r : ℝ} (hH : ∀ u v, 0 < r * H u v ∧ r * H u v < R)
    {u v u' v' : ℝ} (h : torusPoint H R r u v = torusPoint H R r u' v') :
    (Real.cos u = Real.cos u' ∧ Real.sin u = Real.sin u') ∧ (Real.cos v = Real.cos v' ∧ Real.sin v = Real.sin v') := by
  simp only [torusPoint, Prod.mk.injEq] at h
  obtain ⟨hx, hy, hz⟩ := h
  have p1 := tube_pos (v := v) (hH u v).1.le (hH u v).2
  have p2 := tube_pos (v := v') (hH u' v').1.le (hH u' v').2
  obtain ⟨hc, hs⟩ := star_unique p1 p2 hx hy
  have e : R + r * H u v * Real.cos v = R + r * H u' v' * Real.cos v' := by
    have k := Real.sin_sq_add_cos_sq u'
    rw [hc] at hx
    rw [hs] at hy
    linear_combination -(R + r * H u v * Real.cos v) * k + (R + r * H u' v' * Real.cos v') * k
      + Real.cos u' * hx + Real.sin u' * hy
  refine ⟨⟨hc, hs⟩, star_unique (hH u v).1 (hH u' v').1 ?_ ?_⟩
  · linear_combination e
  · linear_combination hz

theorem torusPoint_periodic {H : ℝ → ℝ → ℝ} (hu : ∀ u v, H (u + 2 * Real.pi) v = H u v)
    (hv : ∀ u v, H u (v + 2 * Real.pi) = H u v) (R r u v : ℝ) :
    torusPoint H R r (u + 2 * Real.pi) v = torusPoint H R r u v ∧
      torusPoint H R r u (v + 2 * Real.pi) = torusPoint H R r u v := by
  simp only [torusPoint, hu, hv, Real.cos_add_two_pi, Real.sin_add_two_pi, and_self]

theorem torusPointQ_periodic {H : ℝ → ℝ → ℝ} (hu : ∀ u v, H (u + 2 * Real.pi) v = H u v)
    (hv : ∀ u v, H u (v + 2 * Real.pi) = H u v) (R r : ℝ) (u v : ℚ) :
    torusPointQ H R r (u + 1) v = torusPointQ H R r u v ∧
      torusPointQ H R r u (v + 1) = torusPointQ H R r u v := by
  unfold torusPointQ
  have e : ∀ x : ℚ, ((x + 1 : ℚ) : ℝ) * (2 * Real.pi) = (x : ℝ) * (2 * Real.pi) + 2 * Real.pi := by
    intro x
    push_cast
    ring
  rw [e, e]
  exact torusPoint_periodic hu hv _ _ _ _

theorem fraction_unique {n i j : Nat} (hi : i < n) (hj : j < n)
    (hc : Real.cos (((i : ℚ) / n : ℚ) * (2 * Real.pi)) = Real.cos (((j : ℚ) / n : ℚ) * (2 * Real.pi)))
    (hs : Real.sin (((i : ℚ) / n : ℚ) * (2 * Real.pi)) = Real.sin (((j : ℚ) / n : ℚ) * (2 * Real.pi))) :
    i = j := by
  have hn : (0 : ℝ) < n := by
    have : 0 < n := by omega
    exact_mod_cast this
  have b : ∀ k : Nat, k < n → 0 ≤ (((k : ℚ) / n : ℚ) : ℝ) ∧ (((k : ℚ) / n : ℚ) : ℝ) < 1 := by
    intro k hk
    push_cast
    refine ⟨by positivity, ?_⟩
    rw [div_lt_one hn]
    exact_mod_cast hk
  have := param_unique (b i hi).1 (b i hi).2 (b j hj).1 (b j hj).2 hc hs
  push_cast at this
  rw [div_left_inj' hn.ne'] at this
  exact_mod_cast this

theorem torusVertices_nodup {H : ℝ → ℝ → ℝ} {R r : ℝ} (hH : ∀ u v, 0 < r * H u v ∧ r * H u v < R)
    (nMajor nMinor : Nat) : (torusVertices (torusPointQ H R r) nMajor nMinor).Nodup := by
  unfold torusVertices
  rw [List.nodup_flatMap]
  constructor
  · intro j _
    refine List.Nodup.map_on ?_ List.nodup_range
    intro i hi i' hi' h
    have := (torusPoint_unique hH h).1
    exact fraction_unique (List.mem_range.1 hi) (List.mem_range.1 hi') this.1 this.2
  · refine List.Nodup.pairwise_of_forall_ne List.nodup_range ?_
    intro j hj j' hj' hne
    rw [Function.onFun, List.disjoint_left]
    intro p hp hp'
    obtain ⟨i, _, rfl⟩ := List.mem_map.1 hp
    obtain ⟨i', _, h⟩ := List.mem_map.1 hp'
    have := (torusPoint_unique hH h).2
    exact hne (fraction_unique (List.mem_range.1 hj) (List.mem_range.1 hj') this.1.symm this.2.symm)

/-! ## Properties -/

/-- **C85**: the vertices and nodes of a torus mesh are on the torus with the given radii. -/
theorem C85_torus_equation {R r : ℝ} (hr : 0 ≤ r) (hR : r ≤ R) (u v : ℝ) :
    OnTorus R r (torusPoint torusH R r u v) := by
  have hp : 0 ≤ R + r * Real.cos v := by nlinarith [Real.neg_one_le_cos v]
  unfold OnTorus
  simp only [torusPoint, torusH, mul_one]
  rw [show (Real.cos u * (R + r * Real.cos v)) ^ 2 + (Real.sin u * (R + r * Real.cos v)) ^ 2
      = (R + r * Real.cos v) ^ 2 by
        linear_combination (R + r * Real.cos v) ^ 2 * Real.sin_sq_add_cos_sq u, Real.sqrt_sq hp]
  linear_combination r ^ 2 * Real.sin_sq_add_cos_sq v

example : (0 : ℝ) ≤ 1 / 2 ∧ (1 / 2 : ℝ) ≤ 3 / 2 ∧ torusPoint torusH (3 / 2) (1 / 2) 0 0 = (2, 0, 0) := by
  refine ⟨by norm_num, by norm_num, ?_⟩
  simp only [torusPoint, torusH, Real.cos_zero, Real.sin_zero]
  norm_num

/-- **C85**: conversely, every point of the torus is the image of exactly one pair of parameters in
`[0, 2π) × [0, 2π)`. -/
theorem C85_torus_onto {R r : ℝ} (hr : 0 < r) (hR : r < R) {p : ℝ × ℝ × ℝ} (hp : OnTorus R r p) :
    ∃ u v, (0 ≤ u ∧ u < 2 * Real.pi ∧ 0 ≤ v ∧ v < 2 * Real.pi ∧ torusPoint torusH R r u v = p) ∧
      ∀ u' v', 0 ≤ u' → u' < 2 * Real.pi → 0 ≤ v' → v' < 2 * Real.pi → torusPoint torusH R r u' v' = p →
        u' = u ∧ v' = v := by
  obtain ⟨x, y, z⟩ := p
  unfold OnTorus at hp
  simp only at hp
  set d := Real.sqrt (x ^ 2 + y ^ 2) with hd
  have hd2 : d ^ 2 = x ^ 2 + y ^ 2 := Real.sq_sqrt (by positivity)
  have hd0 : 0 < d := by
    have h1 : (d - R) ^ 2 ≤ r ^ 2 := by nlinarith [sq_nonneg z]
    have h2 := abs_le_of_sq_le_sq' h1 hr.le
    linarith [h2.1]
  have h1 : (x / d) ^ 2 + (y / d) ^ 2 = 1 := by
    rw [div_pow, div_pow, ← add_div, ← hd2, div_self (by positivity)]
  have h2 : ((d - R) / r) ^ 2 + (z / r) ^ 2 = 1 := by
    rw [div_pow, div_pow, ← add_div, hp, div_self (by positivity)]
  obtain ⟨a, ha0, ha1, hac, has⟩ := exists_param h1
  obtain ⟨b, hb0, hb1, hbc, hbs⟩ := exists_param h2
  have hpi := Real.pi_pos
  have e : torusPoint torusH R r (a * (2 * Real.pi)) (b * (2 * Real.pi)) = (x, y, z) := by
    simp only [torusPoint, torusH, hac, has, hbc, hbs, mul_one, Prod.mk.injEq]
    rw [mul_div_cancel₀ _ hr.ne', mul_div_cancel₀ _ hr.ne', add_sub_cancel, div_mul_cancel₀ _ hd0.ne',
      div_mul_cancel₀ _ hd0.ne']
    exact ⟨rfl, rfl, rfl⟩
  have q1 : 0 ≤ a * (2 * Real.pi) := by positivity
  have q2 : a * (2 * Real.pi) < 2 * Real.pi := by nlinarith
  have q3 : 0 ≤ b * (2 * Real.pi) := by positivity
  have q4 : b * (2 * Real.pi) < 2 * Real.pi := by nlinarith
  refine ⟨a * (2 * Real.pi), b * (2 * Real.pi), ⟨q1, q2, q3, q4, e⟩, ?_⟩
  intro u' v' hu0 hu1 hv0 hv1 h
  obtain ⟨⟨k1, k2⟩, k3, k4⟩ := torusPoint_unique (H := torusH) (R := R) (r := r)
    (fun _ _ => by simp only [torusH, mul_one]; exact ⟨hr, hR⟩) (h.trans e.symm)
  exact ⟨angle_unique hu0 hu1 q1 q2 k1 k2, angle_unique hv0 hv1 q3 q4 k3 k4⟩

example : OnTorus (3 / 2) (1 / 2) (2, 0, 0) := by
  unfold OnTorus
  simp only
  rw [show (2 : ℝ) ^ 2 + 0 ^ 2 = 2 ^ 2 by norm_num, Real.sqrt_sq (by norm_num)]
  norm_num

/-- **C85**: no two vertices of a torus mesh coincide, and the vertices of an element have the parameters of the
corners of its cell, also in the last row and column of cells, where the numbers wrap around. -/
theorem C85_torus_mesh {R r : ℝ} (hr : 0 < r) (hR : r < R) (simplex : Bool) {nMajor nMinor : Nat}
    (hM : 0 < nMajor) (hm : 0 < nMinor) :
    (torusMesh R r simplex nMajor nMinor).1.Nodup ∧
      ∀ i j : Nat, (torusMesh R r simplex nMajor nMinor).1[torusVertexNr nMajor nMinor i j]? =
        some (torusPoint torusH R r ((i : ℝ) / nMajor * (2 * Real.pi)) ((j : ℝ) / nMinor * (2 * Real.pi))) := by
  constructor
  · exact torusVertices_nodup (fun _ _ => by simp only [torusH, mul_one]; exact ⟨hr, hR⟩) _ _
  · intro i j
    have hp := torusPointQ_periodic (H := torusH) (fun _ _ => rfl) (fun _ _ => rfl) R r
    have := (C51_torus_vertices (torusPointQ torusH R r) simplex hM hm (fun u v => (hp u v).1)
      (fun u v => (hp u v).2) i j).2
    unfold torusMesh
    rw [this]
    unfold torusPointQ
    push_cast
    rfl

/-- **C85**: the same for crullers, whose tube has a radius between 3/4 and 5/4 of the minor radius. -/
theorem C85_cruller_mesh {R r : ℝ} (hr : 0 < r) (hR : 1.25 * r < R) (simplex : Bool) {nMajor nMinor : Nat}
    (hM : 0 < nMajor) (hm : 0 < nMinor) :
    (crullerMesh R r simplex nMajor nMinor).1.Nodup ∧
      (∀ i j : Nat, (crullerMesh R r simplex nMajor nMinor).1[torusVertexNr nMajor nMinor i j]? =
        some (torusPoint crullerH R r ((i : ℝ) / nMajor * (2 * Real.pi)) ((j : ℝ) / nMinor * (2 * Real.pi)))) ∧
      ∀ u v, OnTorus R (r * crullerH u v) (torusPoint crullerH R r u v) ∧
        0.75 * r ≤ r * crullerH u v ∧ r * crullerH u v ≤ 1.25 * r := by
  have hH : ∀ u v, 0 < r * crullerH u v ∧ r * crullerH u v < R := by
    intro u v
    obtain ⟨h1, h2⟩ := crullerH_bounds u v
    constructor
    · exact mul_pos hr (by linarith)
    · nlinarith
  refine ⟨torusVertices_nodup hH _ _, ?_, ?_⟩
  · intro i j
    have hp := torusPointQ_periodic (H := crullerH) (fun u v => (crullerH_periodic u v).1)
      (fun u v => (crullerH_periodic u v).2) R r
    have := (C51_torus_vertices (torusPointQ crullerH R r) simplex hM hm (fun u v => (hp u v).1)
      (fun u v => (hp u v).2) i j).2
    unfold crullerMesh
    rw [this]
    unfold torusPointQ
    push_cast
    rfl
  · intro u v
    obtain ⟨h1, h2⟩ := crullerH_bounds u v
    refine ⟨?_, by nlinarith, by nlinarith⟩
    have := C85_torus_equation (hH u v).1.le (hH u v).2.le u v
    simpa only [torusPoint, torusH, mul_one] using this

example : (0 : ℝ) < 1 ∧ (1.25 : ℝ) * 1 < 5 := by norm_num

/-- **C85** (partial: only two coordinates, or all where `sin u = 0` or `cos v = sin v`): the computed points
have the documented first and third coordinate, and the documented second one exactly in the stated cases. -/
theorem C85_documented_partial {H : ℝ → ℝ → ℝ} {R r u v : ℝ} (hr : r * H u v ≠ 0) :
    (torusPoint H R r u v).1 = (documentedTorus H R r u v).1 ∧
      (torusPoint H R r u v).2.2 = (documentedTorus H R r u v).2.2 ∧
      (torusPoint H R r u v = documentedTorus H R r u v ↔ Real.sin u = 0 ∨ Real.cos v = Real.sin v) := by
  refine ⟨rfl, rfl, ?_⟩
  simp only [torusPoint, documentedTorus, Prod.mk.injEq, true_and, and_true]
  constructor
  · intro h
    have h1 : Real.sin u * (r * H u v) * (Real.cos v - Real.sin v) = 0 := by linear_combination h
    rcases mul_eq_zero.1 h1 with h2 | h2
    · rcases mul_eq_zero.1 h2 with h3 | h3
      · exact Or.inl h3
      · exact absurd h3 hr
    · exact Or.inr (sub_eq_zero.1 h2)
  · rintro (h | h)
    · rw [h, zero_mul, zero_mul]
    · rw [h]

/-- **C85**, what fails: the documented map differs from the computed one, and its points are not on the torus:
for `u = π/2` and `v = 0` the documentation has the point `(0, R, 0)`. -/
theorem C85_documented_counterexample :
    torusPoint torusH 2 1 (Real.pi / 2) 0 = (0, 3, 0) ∧ documentedTorus torusH 2 1 (Real.pi / 2) 0 = (0, 2, 0) ∧
      ¬ OnTorus 2 1 (documentedTorus torusH 2 1 (Real.pi / 2) 0) := by
  have e : documentedTorus torusH 2 1 (Real.pi / 2) 0 = (0, 2, 0) := by
    simp only [documentedTorus, torusH, Real.cos_pi_div_two, Real.sin_pi_div_two, Real.cos_zero, Real.sin_zero]
    norm_num
  refine ⟨?_, e, ?_⟩
  · simp only [torusPoint, torusH, Real.cos_pi_div_two, Real.sin_pi_div_two, Real.cos_zero, Real.sin_zero]
    norm_num
  · rw [e]
    unfold OnTorus
    simp only
    rw [show (0 : ℝ) ^ 2 + 2 ^ 2 = 2 ^ 2 by norm_num, Real.sqrt_sq (by norm_num)]
    norm_num

end Meshmode
