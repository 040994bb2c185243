import Verif.Gen.Sphere
import Mathlib.Analysis.SpecialFunctions.Complex.Arg
import Mathlib.Analysis.Complex.Trigonometric
import Mathlib.Analysis.SpecialFunctions.Trigonometric.Basic

/-!
# Surfaces of revolution (C73)

`generate_surface_of_revolution`, meshmode/mesh/generation.py:735-804, with real numbers for floating point
numbers.  `get_radius` is an arbitrary function of height and angle, applied entry by entry.
-/
namespace Meshmode

/-! ## Model -/

/-- The vertices, meshmode/mesh/generation.py:758-769: heights vary slowest. -/
noncomputable def sorVertices (getRadius : ℝ → ℝ → ℝ) (heights angles : List ℝ) : List (List ℝ) :=
  heights.flatMap fun h => angles.map fun th =>
    [Real.cos th * getRadius h th, Real.sin th * getRadius h th, h]

/-- The triangles of one cell, meshmode/mesh/generation.py:774-775. -/
def sorCell (n i j : Nat) : List (List Nat) :=
  [[i * n + j, (i + 1) * n + j, (i + 1) * n + (j + 1) % n],
   [i * n + j, i * n + (j + 1) % n, (i + 1) * n + (j + 1) % n]]

/-- The triangles, meshmode/mesh/generation.py:771-777; `m` heights and `n` angles. -/
def sorTris (m n : Nat) : List (List Nat) :=
  (List.range (m - 1)).flatMap fun i => (List.range n).flatMap fun j => sorCell n i j

/-- `np.arctan2`, meshmode/mesh/generation.py:791. -/
noncomputable def arctan2 (y x : ℝ) : ℝ := Complex.arg ⟨x, y⟩

/-- `ensure_radius` for one point, meshmode/mesh/generation.py:788-794. -/
noncomputable def ensureRadius (getRadius : ℝ → ℝ → ℝ) : List ℝ → List ℝ
  | [x, y, h] =>
    let f := getRadius h (arctan2 y x) / (x ^ 2 + y ^ 2)
    [x * f, y * f, h]
  | p => p

/-- `generate_surface_of_revolution`, meshmode/mesh/generation.py:735-804. -/
noncomputable def genRevolution (solve : Mat ℝ → List ℝ → Option (List ℝ)) (tuples : Nat → List (List Nat))
    (getRadius : ℝ → ℝ → ℝ) (heights angles : List ℝ) (order : Int) (unit : List (List ℝ)) :
    Except MgfvErr SurfMesh :=
  let vertices := sorVertices getRadius heights angles
  let tris := sorTris heights.length angles.length
  (groupFromVertices solve tuples .simplex 3 3 vertices tris order unit).map fun nodes =>
    ⟨vertices.map (ensureRadius getRadius), tris, nodes.map fun el => el.map (ensureRadius getRadius)⟩

/-! ## Specification -/

/-- The point of the surface at a height and an angle. (Specification or proof vocabulary, no code.) -/
noncomputable def surfacePoint (getRadius : ℝ → ℝ → ℝ) (h th : ℝ) : List ℝ :=
  [Real.cos th * getRadius h th, Real.sin th * getRadius h th, h]

/-- The point is on the surface of revolution. (Specification or proof vocabulary, no code.) -/
def OnSurface (getRadius : ℝ → ℝ → ℝ) (p : List ℝ) : Prop := ∃ h th, p = surfacePoint getRadius h th

/-- Positive radii that depend on the direction only. (Specification or proof vocabulary, no code.) -/
structure RadiusOk (getRadius : ℝ → ℝ → ℝ) : Prop where
  pos : ∀ h th, 0 < getRadius h th
  periodic : ∀ h th, getRadius h (th + 2 * Real.pi) = getRadius h th

/-! ## Lemmas -/

theorem RadiusOk.int {g : ℝ → ℝ → ℝ} (hg : RadiusOk g) (h th : ℝ) (k : ℤ) :
    g h (th + k * (2 * Real.pi)) = g h th :=
  Function.Periodic.int_mul (f := g h) (fun t => hg.periodic h t) k th

/-- Angles of the same direction have the same radius. -/
theorem RadiusOk.dir {g : ℝ → ℝ → ℝ} (hg : RadiusOk g) (h : ℝ) {a b : ℝ} (hc : Real.cos a = Real.cos b)
    (hs : Real.sin a = Real.sin b) : g h a = g h b := by
  have : ((a : Real.Angle)) = b := Real.Angle.cos_sin_inj hc hs
  obtain ⟨k, hk⟩ := Real.Angle.angle_eq_iff_two_pi_dvd_sub.1 this
  rw [show a = b + k * (2 * Real.pi) by linarith]
  exact hg.int h b k

theorem arctan2_spec {x y : ℝ} (h : 0 < x ^ 2 + y ^ 2) :
    Real.cos (arctan2 y x) * Real.sqrt (x ^ 2 + y ^ 2) = x ∧
    Real.sin (arctan2 y x) * Real.sqrt (x ^ 2 + y ^ 2) = y := by
  have hne : (⟨x, y⟩ : ℂ) ≠ 0 := by
    intro h0
    have h1 := congrArg Complex.re h0
    have h2 := congrArg Complex.im h0
    simp only [Complex.zero_re, Complex.zero_im] at h1 h2
    rw [h1, h2] at h
    norm_num at h
  have hn : ‖(⟨x, y⟩ : ℂ)‖ = Real.sqrt (x ^ 2 + y ^ 2) := by
    rw [Complex.norm_def, Complex.normSq_mk]
    congr 1
    ring
  have hs : 0 < Real.sqrt (x ^ 2 + y ^ 2) := Real.sqrt_pos.2 h
  unfold arctan2
  rw [Complex.cos_arg hne, Complex.sin_arg, hn]
  constructor <;> field_simp

theorem sor_inj {n i j i' j' : Nat} (hj : j < n) (hj' : j' < n) (h : i * n + j = i' * n + j') :
    i = i' ∧ j = j' := by
  have h1 : (i * n + j) / n = i := by
    rw [Nat.mul_comm, Nat.mul_add_div (by omega), Nat.div_eq_of_lt hj, Nat.add_zero]
  have h2 : (i' * n + j') / n = i' := by
    rw [Nat.mul_comm, Nat.mul_add_div (by omega), Nat.div_eq_of_lt hj', Nat.add_zero]
  have : i = i' := by rw [← h1, ← h2, h]
  subst this
  exact ⟨rfl, by omega⟩

theorem mem_sorTris {m n : Nat} {t : List Nat} : t ∈ sorTris m n ↔ ∃ i j, i + 1 < m ∧ j < n ∧
    (t = [i * n + j, (i + 1) * n + j, (i + 1) * n + (j + 1) % n] ∨
     t = [i * n + j, i * n + (j + 1) % n, (i + 1) * n + (j + 1) % n]) := by
  simp only [sorTris, List.mem_flatMap, List.mem_range, sorCell, List.mem_cons, List.not_mem_nil, or_false]
  constructor
  · rintro ⟨i, hi, j, hj, h⟩
    exact ⟨i, j, by omega, hj, h⟩
  · rintro ⟨i, j, hi, hj, h⟩
    exact ⟨i, by omega, j, hj, h⟩

theorem sorVertices_getElem? {g : ℝ → ℝ → ℝ} {heights angles : List ℝ} {i j : Nat} {h th : ℝ}
    (hi : heights[i]? = some h) (hj : angles[j]? = some th) :
    (sorVertices g heights angles)[i * angles.length + j]? = some (surfacePoint g h th) := by
  induction heights generalizing i with
  | nil => simp at hi
  | cons h0 heights ih =>
    have hjl : j < angles.length := (List.getElem?_eq_some_iff.1 hj).1
    rw [sorVertices, List.flatMap_cons]
    cases i with
    | zero =>
      simp only [List.getElem?_cons_zero, Option.some.injEq] at hi
      subst hi
      rw [Nat.zero_mul, Nat.zero_add, List.getElem?_append_left (by simpa using hjl), List.getElem?_map, hj]
      rfl
    | succ i =>
      rw [List.getElem?_append_right (by simp only [List.length_map]; nlinarith), List.length_map,
        show (i + 1) * angles.length + j - angles.length = i * angles.length + j by
          rw [Nat.add_mul]; omega]
      exact ih (by simpa using hi)

theorem sorVertices_length (g : ℝ → ℝ → ℝ) (heights angles : List ℝ) :
    (sorVertices g heights angles).length = heights.length * angles.length := by
  induction heights with
  | nil => simp [sorVertices]
  | cons h0 heights ih =>
    rw [sorVertices, List.flatMap_cons, List.length_append, List.length_map, List.length_cons, Nat.add_mul]
    rw [sorVertices] at ih
    omega

/-! ## Properties -/

/-- C73: the vertex numbered `i * n + j` is made from height `i` and angle `j`; before the adjustment of
the radius it is the point of the surface there. -/
theorem C73_vertex {g : ℝ → ℝ → ℝ} {heights angles : List ℝ} :
    (sorVertices g heights angles).length = heights.length * angles.length ∧
    ∀ (i j : Nat) h th, heights[i]? = some h → angles[j]? = some th →
      (sorVertices g heights angles)[i * angles.length + j]? = some (surfacePoint g h th) :=
  ⟨sorVertices_length g heights angles, fun _ _ _ _ hi hj => sorVertices_getElem? hi hj⟩

/-- C73: there are two triangles for each height but the last and each angle, with three vertices that
exist. -/
theorem C73_tris (m n : Nat) : (sorTris m n).length = 2 * ((m - 1) * n) ∧
    ∀ t ∈ sorTris m n, t.length = 3 ∧ ∀ v ∈ t, v < m * n := by
  constructor
  · simp only [sorTris, List.length_flatMap, sorCell, List.length_cons, List.length_nil]
    simp
    ring
  · intro t ht
    obtain ⟨i, j, hi, hj, h⟩ := mem_sorTris.1 ht
    have hm : (j + 1) % n < n := Nat.mod_lt _ (by omega)
    have h1 : (i + 1) * n + n ≤ m * n := by
      rw [← Nat.succ_mul]; exact Nat.mul_le_mul_right n (by omega)
    have h2 : i * n + n = (i + 1) * n := by rw [Nat.add_mul]; omega
    rcases h with rfl | rfl <;> refine ⟨rfl, ?_⟩ <;>
      simp only [List.mem_cons, List.not_mem_nil, or_false] <;> rintro v (rfl | rfl | rfl) <;> omega

/-- Numbers of neighbouring angles. (Specification or proof vocabulary, no code.) -/
theorem succ_mod_cases {j n : Nat} (hj : j < n) :
    (j + 1 = n ∧ (j + 1) % n = 0) ∨ (j + 1 < n ∧ (j + 1) % n = j + 1) := by
  rcases Nat.lt_or_ge (j + 1) n with h | h
  · exact .inr ⟨h, Nat.mod_eq_of_lt h⟩
  · have : j + 1 = n := by omega
    exact .inl ⟨this, by rw [this, Nat.mod_self]⟩

theorem sor_eq {n a b c d : Nat} (hb : b < n) (hd : d < n) : a * n + b = c * n + d ↔ a = c ∧ b = d :=
  ⟨sor_inj hb hd, fun ⟨h1, h2⟩ => by rw [h1, h2]⟩

/-- C73: with at least three angles the triangles fit together: the diagonal of a cell belongs to its two
triangles only, an upright edge to one triangle of each of the cells beside it, around the axis, and an
edge along a circle to one triangle of each of the cells above and below. -/
theorem C73_conforming {m n : Nat} (hn : 3 ≤ n) {i j : Nat} (hj : j < n) {t : List Nat}
    (ht : t ∈ sorTris m n) :
    ((i * n + j ∈ t ∧ (i + 1) * n + (j + 1) % n ∈ t) ↔ t ∈ sorCell n i j) ∧
    ((i * n + (j + 1) % n ∈ t ∧ (i + 1) * n + (j + 1) % n ∈ t) ↔
      (sorCell n i j)[1]? = some t ∨ (sorCell n i ((j + 1) % n))[0]? = some t) ∧
    ((i * n + j ∈ t ∧ i * n + (j + 1) % n ∈ t) ↔
      (sorCell n i j)[1]? = some t ∨ ∃ k, i = k + 1 ∧ (sorCell n k j)[0]? = some t) := by
  obtain ⟨i0, j0, hi0, hj0, h⟩ := mem_sorTris.1 ht
  have hs := succ_mod_cases hj
  have hs0 := succ_mod_cases hj0
  have hjm : (j + 1) % n < n := Nat.mod_lt _ (by omega)
  have hjm0 : (j0 + 1) % n < n := Nat.mod_lt _ (by omega)
  have hss := succ_mod_cases hjm
  have hjmm : ((j + 1) % n + 1) % n < n := Nat.mod_lt _ (by omega)
  simp only [sorCell, List.mem_cons, List.not_mem_nil, or_false, List.getElem?_cons_succ,
    List.getElem?_cons_zero, Option.some.injEq]
  generalize hq : ((j + 1) % n + 1) % n = j2 at *
  generalize (j + 1) % n = j1 at *
  generalize (j0 + 1) % n = k1 at *
  rcases h with rfl | rfl <;>
    simp only [List.mem_cons, List.not_mem_nil, or_false, List.cons.injEq, and_true,
      sor_eq, hj, hj0, hjm, hjm0, hjmm] <;>
    refine ⟨?_, ?_, ?_⟩
  all_goals first
    | omega
    | (constructor
       · intro h
         first
          | omega
          | exact .inl (by omega)
          | exact .inr ⟨i0, by omega⟩
       · rintro (h | ⟨k, h⟩) <;> omega)

/-- C73 fails for orientation: the two triangles of a cell run along their common edge in the same
direction, so the triangles are never oriented consistently. -/
theorem C73_orientation_counterexample {m n : Nat} (hm : 2 ≤ m) (hn : 1 ≤ n) :
    ¬ (triEdges (sorTris m n)).Nodup := by
  intro h
  have hsub : (triEdges (sorCell n 0 0)).Sublist (triEdges (sorTris m n)) := by
    obtain ⟨m', rfl⟩ : ∃ m', m = m' + 2 := ⟨m - 2, by omega⟩
    obtain ⟨n', rfl⟩ : ∃ n', n = n' + 1 := ⟨n - 1, by omega⟩
    unfold triEdges sorTris
    refine List.Sublist.flatMap ?_ _
    rw [show m' + 2 - 1 = m' + 1 from rfl, List.range_succ_eq_map (n := m'), List.flatMap_cons,
      List.range_succ_eq_map (n := n'), List.flatMap_cons]
    exact (List.sublist_append_left _ _).trans (List.sublist_append_left _ _)
  have h2 := h.sublist hsub
  simp only [sorCell, triEdges, List.flatMap_cons, List.flatMap_nil, List.append_nil] at h2
  have := (List.nodup_append.1 h2).2.2
  exact this ((0 + 1) * n + (0 + 1) % n, 0 * n + 0) (by simp) _ (by simp) rfl

/-- C73: `ensure_radius` keeps the height and the direction, and moves a point at distance `rho` from the
axis to the distance of the surface divided by `rho`. -/
theorem C73_ensure_radius {g : ℝ → ℝ → ℝ} {x y h : ℝ} (hxy : 0 < x ^ 2 + y ^ 2) :
    ∃ th, x = Real.cos th * Real.sqrt (x ^ 2 + y ^ 2) ∧ y = Real.sin th * Real.sqrt (x ^ 2 + y ^ 2) ∧
      ensureRadius g [x, y, h] = [Real.cos th * (g h th / Real.sqrt (x ^ 2 + y ^ 2)),
        Real.sin th * (g h th / Real.sqrt (x ^ 2 + y ^ 2)), h] := by
  obtain ⟨hc, hs⟩ := arctan2_spec hxy
  refine ⟨arctan2 y x, hc.symm, hs.symm, ?_⟩
  have hpos : 0 < Real.sqrt (x ^ 2 + y ^ 2) := Real.sqrt_pos.2 hxy
  have hsq : Real.sqrt (x ^ 2 + y ^ 2) ^ 2 = x ^ 2 + y ^ 2 := Real.sq_sqrt hxy.le
  simp only [ensureRadius]
  have key : ∀ v c : ℝ, c * Real.sqrt (x ^ 2 + y ^ 2) = v →
      v * (g h (arctan2 y x) / (x ^ 2 + y ^ 2)) = c * (g h (arctan2 y x) / Real.sqrt (x ^ 2 + y ^ 2)) := by
    intro v c hv
    rw [← hv, ← hsq, Real.sqrt_sq hpos.le]
    field_simp
  rw [key x _ hc, key y _ hs]

/-- C73: so a point ends up on the surface exactly if its distance from the axis was one. -/
theorem C73_on_surface_iff {g : ℝ → ℝ → ℝ} (hg : RadiusOk g) {x y h : ℝ} (hxy : 0 < x ^ 2 + y ^ 2) :
    OnSurface g (ensureRadius g [x, y, h]) ↔ x ^ 2 + y ^ 2 = 1 := by
  obtain ⟨th, -, -, he⟩ := C73_ensure_radius (g := g) (h := h) hxy
  have hpos : 0 < Real.sqrt (x ^ 2 + y ^ 2) := Real.sqrt_pos.2 hxy
  have hgp := hg.pos h th
  rw [he]
  constructor
  · rintro ⟨h', th', hp⟩
    simp only [surfacePoint, List.cons.injEq, and_true] at hp
    obtain ⟨h1, h2, rfl⟩ := hp
    have hgp' := hg.pos h th'
    have e1 : (g h th / Real.sqrt (x ^ 2 + y ^ 2)) ^ 2 = g h th' ^ 2 := by
      have := Real.cos_sq_add_sin_sq th
      have := Real.cos_sq_add_sin_sq th'
      calc (g h th / Real.sqrt (x ^ 2 + y ^ 2)) ^ 2
          = (Real.cos th * (g h th / Real.sqrt (x ^ 2 + y ^ 2))) ^ 2 +
            (Real.sin th * (g h th / Real.sqrt (x ^ 2 + y ^ 2))) ^ 2 := by
              linear_combination (-(g h th / Real.sqrt (x ^ 2 + y ^ 2)) ^ 2) *
                (Real.cos_sq_add_sin_sq th)
        _ = g h th' ^ 2 := by
              rw [h1, h2]
              linear_combination (g h th' ^ 2) * (Real.cos_sq_add_sin_sq th')
    have e2 : g h th / Real.sqrt (x ^ 2 + y ^ 2) = g h th' := by
      have hq : 0 < g h th / Real.sqrt (x ^ 2 + y ^ 2) := div_pos hgp hpos
      nlinarith
    rw [e2] at h1 h2
    have e3 : g h th = g h th' :=
      hg.dir h (mul_right_cancel₀ hgp'.ne' h1) (mul_right_cancel₀ hgp'.ne' h2)
    have e4 : Real.sqrt (x ^ 2 + y ^ 2) = 1 := by
      rw [e3, div_eq_iff hpos.ne'] at e2
      have : g h th' * (Real.sqrt (x ^ 2 + y ^ 2) - 1) = 0 := by linarith
      rcases mul_eq_zero.1 this with h | h
      · exact absurd h hgp'.ne'
      · linarith
    have := Real.sq_sqrt hxy.le
    rw [e4] at this
    linarith
  · intro h1
    refine ⟨h, th, ?_⟩
    rw [h1, Real.sqrt_one, div_one]
    rfl

/-- C73, partial: the mesh has the heights, directions and triangles that it should have, but all vertices
are at distance one from the axis, so that they are on the surface exactly where its radius is one. -/
theorem C73_vertices_partial {solve : Mat ℝ → List ℝ → Option (List ℝ)} {tuples : Nat → List (List Nat)}
    {g : ℝ → ℝ → ℝ} (hg : RadiusOk g) {heights angles : List ℝ} {order : Int} {unit : List (List ℝ)}
    {m : SurfMesh} (hm : genRevolution solve tuples g heights angles order unit = .ok m) :
    m.elements = sorTris heights.length angles.length ∧
    m.vertices.length = heights.length * angles.length ∧
    ∀ (i j : Nat) h th, heights[i]? = some h → angles[j]? = some th →
      m.vertices[i * angles.length + j]? = some [Real.cos th, Real.sin th, h] ∧
      (OnSurface g [Real.cos th, Real.sin th, h] ↔ g h th = 1) := by
  simp only [genRevolution] at hm
  cases hn : groupFromVertices solve tuples .simplex 3 3 (sorVertices g heights angles)
      (sorTris heights.length angles.length) order unit with
  | error e => rw [hn] at hm; cases hm
  | ok nodes =>
    rw [hn] at hm
    cases hm
    refine ⟨rfl, by simp [sorVertices_length], ?_⟩
    intro i j h th hi hj
    have hgp := hg.pos h th
    have hcs := Real.cos_sq_add_sin_sq th
    constructor
    · simp only [List.getElem?_map, sorVertices_getElem? hi hj, Option.map_some, Option.some.injEq]
      have hsum : (Real.cos th * g h th) ^ 2 + (Real.sin th * g h th) ^ 2 = g h th ^ 2 := by
        linear_combination (g h th ^ 2) * hcs
      have hsum0 : 0 < (Real.cos th * g h th) ^ 2 + (Real.sin th * g h th) ^ 2 := by rw [hsum]; positivity
      obtain ⟨th', h1, h2, h3⟩ := C73_ensure_radius (g := g) (h := h) hsum0
      rw [surfacePoint, h3]
      rw [hsum, Real.sqrt_sq hgp.le] at h1 h2 ⊢
      have c1 := mul_right_cancel₀ hgp.ne' h1
      have c2 := mul_right_cancel₀ hgp.ne' h2
      rw [hg.dir h (a := th') (b := th) c1.symm c2.symm, div_self hgp.ne', mul_one, mul_one, c1, c2]
    · constructor
      · rintro ⟨h', th', hp⟩
        simp only [surfacePoint, List.cons.injEq, and_true] at hp
        obtain ⟨h1, h2, rfl⟩ := hp
        have hgp' := hg.pos h th'
        have e1 : g h th' ^ 2 = 1 := by
          have hcs' := Real.cos_sq_add_sin_sq th'
          rw [h1, h2] at hcs
          linear_combination hcs - (g h th' ^ 2) * hcs'
        have e2 : g h th' = 1 := by nlinarith
        rw [e2, mul_one] at h1 h2
        rw [hg.dir h h1 h2, e2]
      · intro h1
        exact ⟨h, th, by rw [surfacePoint, h1, mul_one, mul_one]⟩

/-- C73 fails: on a cylinder of radius two, the vertices end up at distance one from the axis. -/
theorem C73_vertex_counterexample : RadiusOk (fun _ _ => 2) ∧
    ¬ OnSurface (fun _ _ => 2) (ensureRadius (fun _ _ => 2) (surfacePoint (fun _ _ => 2) 0 0)) := by
  have hg : RadiusOk (fun _ _ => (2 : ℝ)) := ⟨fun _ _ => by norm_num, fun _ _ => rfl⟩
  refine ⟨hg, ?_⟩
  simp only [surfacePoint, Real.cos_zero, Real.sin_zero]
  rw [C73_on_surface_iff hg (by norm_num)]
  norm_num

/-- C73 fails: on a cylinder of radius one, the node in the middle between the angles `0` and `pi / 2`,
inside the cylinder, ends up outside, at distance `sqrt 2`. -/
theorem C73_node_counterexample : RadiusOk (fun _ _ => 1) ∧
    (simplexPoint 3 [surfacePoint (fun _ _ => 1) 0 0, surfacePoint (fun _ _ => 1) 0 (Real.pi / 2),
      surfacePoint (fun _ _ => 1) 1 (Real.pi / 2)] [0, -1]) = [1 / 2, 1 / 2, 0] ∧
    ¬ OnSurface (fun _ _ => 1) (ensureRadius (fun _ _ => 1) [1 / 2, 1 / 2, 0]) ∧
    ensureRadius (fun _ _ => 1) [1 / 2, 1 / 2, 0] = [1, 1, 0] := by
  have hg : RadiusOk (fun _ _ => (1 : ℝ)) := ⟨fun _ _ => by norm_num, fun _ _ => rfl⟩
  refine ⟨hg, ?_, ?_, ?_⟩
  · simp only [surfacePoint, Real.cos_zero, Real.sin_zero, Real.cos_pi_div_two, Real.sin_pi_div_two,
      simplexPoint]
    simp [List.range_succ]
    norm_num
  · rw [C73_on_surface_iff hg (by norm_num)]
    norm_num
  · simp only [ensureRadius, List.cons.injEq, and_true]
    norm_num

/-! ## Concrete cases -/

-- The hypotheses of `C73_vertices_partial`: a surface whose radius depends on the angle.
example : RadiusOk fun _ th => 2 + Real.cos th :=
  ⟨fun _ th => by have := Real.neg_one_le_cos th; show 0 < 2 + Real.cos th; linarith,
   fun _ th => by simp⟩

example : ∃ m, genRevolution exSolveR cubeTuples (fun _ th => 2 + Real.cos th) [0, 1]
    [0, Real.pi / 2, Real.pi] 1 [[-1, -1], [0, 0]] = .ok m := by
  obtain ⟨nodes, hn⟩ := (C71_succeeds (unit := [[-1, -1], [0, 0]]) (amb := 3)
    (vertices := sorVertices (fun _ th => 2 + Real.cos th) [0, 1] [0, Real.pi / 2, Real.pi])
    (order := 1) (vi := sorTris 2 3) (nv := 3) exSolveR_complete (fun d => .refl _)
    (fun t ht => ((C73_tris 2 3).2 t ht).1) .simplex).2
    ⟨fun t ht v hv => by
      rw [sorVertices_length]; exact ((C73_tris 2 3).2 t ht).2 v hv,
     .inl ⟨rfl, by omega, by omega, by simp⟩⟩
  exact ⟨_, by
    simp only [genRevolution]
    rw [show ([0, 1] : List ℝ).length = 2 from rfl,
      show ([0, Real.pi / 2, Real.pi] : List ℝ).length = 3 from rfl, hn]
    rfl⟩

-- The hypotheses of `C73_conforming`.
example : [1, 2, 5] ∈ sorTris 2 3 := by decide

end Meshmode
