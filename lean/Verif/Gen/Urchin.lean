import Verif.Gen.Revolution

/-!
# Urchins (C87)

`refine_mesh_and_get_urchin_warper` and `generate_urchin`, meshmode/mesh/generation.py:1079-1184, with real
numbers for floating point numbers.  The real part of the spherical harmonic of scipy is a given function `Y` of
the two angles, and the refined mesh is any mesh.
-/
namespace Meshmode

/-! ## Model -/

/-- `sph_harm(m, n, pts).real` for one point, meshmode/mesh/generation.py:1104-1115, 1120: the angles are the
arc cosine of `z/r` and the `arctan2` of `y` and `x`. -/
noncomputable def harmonicAt (Y : ℝ → ℝ → ℝ) : List ℝ → ℝ
  | [x, y, z] => Y (Real.arccos (z / ptNorm [x, y, z])) (arctan2 y x)
  | _ => 0

/-- `scaled`, meshmode/mesh/generation.py:1120-1122. -/
noncomputable def urchinRadius (Y : ℝ → ℝ → ℝ) (lo hi minRad : ℝ) (p : List ℝ) : ℝ :=
  minRad + (harmonicAt Y p - lo) / (hi - lo)

/-- `map_coords` for one point, meshmode/mesh/generation.py:1117-1124. -/
noncomputable def urchinMap (Y : ℝ → ℝ → ℝ) (lo hi minRad : ℝ) (p : List ℝ) : List ℝ :=
  p.map fun x => x * urchinRadius Y lo hi minRad p / ptNorm p

/-- `warp_mesh`, meshmode/mesh/generation.py:1126-1137. -/
noncomputable def urchinWarp (Y : ℝ → ℝ → ℝ) (lo hi minRad : ℝ) (m : SurfMesh) : SurfMesh :=
  ⟨m.vertices.map (urchinMap Y lo hi minRad), m.elements,
    m.nodes.map fun el => el.map (urchinMap Y lo hi minRad)⟩

/-- `lo` and `hi`, meshmode/mesh/generation.py:1148-1151: the extreme values at the nodes of the sphere before
any refinement; `none` is the `ValueError` for no nodes. -/
noncomputable def urchinRange (Y : ℝ → ℝ → ℝ) (nodes : List (List ℝ)) : Option (ℝ × ℝ) :=
  match (nodes.map (harmonicAt Y)).min?, (nodes.map (harmonicAt Y)).max? with
  | some lo, some hi => some (lo, hi)
  | _, _ => none

/-- `generate_urchin`, meshmode/mesh/generation.py:1161-1184, from the sphere before and after refinement. -/
noncomputable def generateUrchin (Y : ℝ → ℝ → ℝ) (minRad : ℝ) (sphere refined : SurfMesh) : Option SurfMesh :=
  (urchinRange Y sphere.nodes.flatten).map fun r => urchinWarp Y r.1 r.2 minRad refined

/-! ## Lemmas -/

theorem ptNorm_scale {c : ℝ} (hc : 0 ≤ c) (p : List ℝ) : ptNorm (p.map (c * ·)) = c * ptNorm p := by
  unfold ptNorm
  rw [List.map_map]
  have e : (p.map ((fun x => x ^ 2) ∘ fun x => c * x)) = p.map fun x => c ^ 2 * x ^ 2 := by
    refine List.map_congr_left fun x _ => ?_
    simp only [Function.comp]
    ring
  rw [e, List.sum_map_mul_left, Real.sqrt_mul (by positivity), Real.sqrt_sq hc]

theorem arctan2_scale {c : ℝ} (hc : 0 < c) (y x : ℝ) : arctan2 (c * y) (c * x) = arctan2 y x := by
  unfold arctan2
  have : (⟨c * x, c * y⟩ : ℂ) = (c : ℂ) * ⟨x, y⟩ := by
    apply Complex.ext <;> simp
  rw [this, Complex.arg_real_mul _ hc]

theorem harmonicAt_scale (Y : ℝ → ℝ → ℝ) {c : ℝ} (hc : 0 < c) (p : List ℝ) :
    harmonicAt Y (p.map (c * ·)) = harmonicAt Y p := by
  rcases p with _ | ⟨x, _ | ⟨y, _ | ⟨z, _ | ⟨w, l⟩⟩⟩⟩
  · rfl
  · rfl
  · rfl
  · have h := ptNorm_scale hc.le [x, y, z]
    simp only [List.map_cons, List.map_nil] at h ⊢
    simp only [harmonicAt, h]
    rw [mul_div_mul_left _ _ hc.ne', arctan2_scale hc]
  · rfl

theorem urchinRange_spec {Y : ℝ → ℝ → ℝ} {nodes : List (List ℝ)} {lo hi : ℝ} :
    urchinRange Y nodes = some (lo, hi) ↔
      ((∃ p ∈ nodes, harmonicAt Y p = lo) ∧ ∀ p ∈ nodes, lo ≤ harmonicAt Y p) ∧
      ((∃ p ∈ nodes, harmonicAt Y p = hi) ∧ ∀ p ∈ nodes, harmonicAt Y p ≤ hi) := by
  have h1 : ∀ a, (nodes.map (harmonicAt Y)).min? = some a ↔
      ((∃ p ∈ nodes, harmonicAt Y p = a) ∧ ∀ p ∈ nodes, a ≤ harmonicAt Y p) := by
    intro a
    rw [List.min?_eq_some_iff]
    simp [List.mem_map]
  have h2 : ∀ a, (nodes.map (harmonicAt Y)).max? = some a ↔
      ((∃ p ∈ nodes, harmonicAt Y p = a) ∧ ∀ p ∈ nodes, harmonicAt Y p ≤ a) := by
    intro a
    rw [List.max?_eq_some_iff]
    simp [List.mem_map]
  rw [← h1, ← h2]
  unfold urchinRange
  split
  · rename_i a b ha hb
    simp [ha, hb]
  · rename_i hn
    constructor
    · intro h
      simp at h
    · rintro ⟨k1, k2⟩
      exact absurd k2 (hn lo hi k1)

/-! ## Properties -/

/-- **C87**: a point is moved along its ray from the origin, to the distance given by the scaled spherical
harmonic (if that is positive). -/
theorem C87_radius {Y : ℝ → ℝ → ℝ} {lo hi minRad : ℝ} {p : List ℝ} (hp : ptNorm p ≠ 0)
    (hr : 0 < urchinRadius Y lo hi minRad p) :
    ptNorm (urchinMap Y lo hi minRad p) = urchinRadius Y lo hi minRad p ∧
      ∃ c > 0, urchinMap Y lo hi minRad p = p.map (c * ·) := by
  have hpos : 0 < ptNorm p := lt_of_le_of_ne (Real.sqrt_nonneg _) (Ne.symm hp)
  have e : urchinMap Y lo hi minRad p = p.map ((urchinRadius Y lo hi minRad p / ptNorm p) * ·) := by
    unfold urchinMap
    refine List.map_congr_left fun x _ => ?_
    ring
  have hc : 0 < urchinRadius Y lo hi minRad p / ptNorm p := div_pos hr hpos
  refine ⟨?_, _, hc, e⟩
  rw [e, ptNorm_scale hc.le, div_mul_cancel₀ _ hp]

/-- **C87**: the image depends only on the direction of a point, so nodes of a refined mesh are on the same
surface, even where refinement has left them off the sphere, and warping a warped mesh again changes nothing. -/
theorem C87_direction {Y : ℝ → ℝ → ℝ} {lo hi minRad : ℝ} {p : List ℝ} (hp : ptNorm p ≠ 0) :
    (∀ c : ℝ, 0 < c → urchinMap Y lo hi minRad (p.map (c * ·)) = urchinMap Y lo hi minRad p) ∧
      (0 < urchinRadius Y lo hi minRad p →
        urchinMap Y lo hi minRad (urchinMap Y lo hi minRad p) = urchinMap Y lo hi minRad p) := by
  have key : ∀ c : ℝ, 0 < c → urchinMap Y lo hi minRad (p.map (c * ·)) = urchinMap Y lo hi minRad p := by
    intro c hc
    unfold urchinMap urchinRadius
    rw [harmonicAt_scale Y hc, ptNorm_scale hc.le, List.map_map]
    refine List.map_congr_left fun x _ => ?_
    simp only [Function.comp]
    rw [mul_assoc, mul_div_mul_left _ _ hc.ne']
  refine ⟨key, fun hr => ?_⟩
  obtain ⟨_, c, hc, e⟩ := C87_radius hp hr
  conv_lhs => rw [e]
  exact key c hc

/-- **C87** (partial: only for the nodes of the mesh before refinement, and harmonics which are not constant on
them): the distances from the origin are between `min_rad` and `min_rad + 1`, and both are attained. -/
theorem C87_range_partial {Y : ℝ → ℝ → ℝ} {lo hi minRad : ℝ} {nodes : List (List ℝ)}
    (h : urchinRange Y nodes = some (lo, hi)) (hne : lo ≠ hi) :
    (∀ p ∈ nodes, minRad ≤ urchinRadius Y lo hi minRad p ∧ urchinRadius Y lo hi minRad p ≤ minRad + 1) ∧
      (∃ p ∈ nodes, urchinRadius Y lo hi minRad p = minRad) ∧
      (∃ p ∈ nodes, urchinRadius Y lo hi minRad p = minRad + 1) := by
  obtain ⟨⟨⟨a, ha, hal⟩, h1⟩, ⟨b, hb, hbh⟩, h2⟩ := urchinRange_spec.1 h
  have hlt : 0 < hi - lo := by
    have := h1 b hb
    rw [hbh] at this
    have := lt_of_le_of_ne this hne
    linarith
  refine ⟨fun p hp => ⟨?_, ?_⟩, ⟨a, ha, ?_⟩, ⟨b, hb, ?_⟩⟩
  · unfold urchinRadius
    have : 0 ≤ (harmonicAt Y p - lo) / (hi - lo) := div_nonneg (by linarith [h1 p hp]) hlt.le
    linarith
  · unfold urchinRadius
    have : (harmonicAt Y p - lo) / (hi - lo) ≤ 1 := by
      rw [div_le_one hlt]
      linarith [h2 p hp]
    linarith
  · unfold urchinRadius
    rw [hal]
    simp
  · unfold urchinRadius
    rw [hbh, div_self hlt.ne']

/-- **C87**: the urchin has the elements of the refined sphere, and each of its vertices and nodes is the image
of the corresponding point of the refined sphere; it is defined if the sphere has a node. -/
theorem C87_mesh {Y : ℝ → ℝ → ℝ} {minRad : ℝ} {sphere refined : SurfMesh} :
    (sphere.nodes.flatten ≠ [] ↔ (generateUrchin Y minRad sphere refined).isSome) ∧
      ∀ u, generateUrchin Y minRad sphere refined = some u → ∃ lo hi,
        urchinRange Y sphere.nodes.flatten = some (lo, hi) ∧ u.elements = refined.elements ∧
        u.vertices.length = refined.vertices.length ∧ u.nodes.length = refined.nodes.length ∧
        (∀ (i : Nat) p, refined.vertices[i]? = some p → u.vertices[i]? = some (urchinMap Y lo hi minRad p)) ∧
        ∀ (e j : Nat) el p, refined.nodes[e]? = some el → el[j]? = some p →
          ∃ el', u.nodes[e]? = some el' ∧ el'[j]? = some (urchinMap Y lo hi minRad p) := by
  constructor
  · unfold generateUrchin urchinRange
    rw [Option.isSome_map]
    constructor
    · intro h
      have h' : sphere.nodes.flatten.map (harmonicAt Y) ≠ [] := by simpa using h
      obtain ⟨lo, h1⟩ := Option.isSome_iff_exists.1 (List.isSome_min?_of_ne_nil h')
      obtain ⟨hi, h2⟩ := Option.isSome_iff_exists.1 (List.isSome_max?_of_ne_nil h')
      rw [h1, h2]
      rfl
    · intro h h'
      rw [h'] at h
      simp at h
  · intro u hu
    unfold generateUrchin at hu
    obtain ⟨⟨lo, hi⟩, h1, rfl⟩ := Option.map_eq_some_iff.1 hu
    refine ⟨lo, hi, h1, rfl, by simp [urchinWarp], by simp [urchinWarp], ?_, ?_⟩
    · intro i p hp
      simp [urchinWarp, hp]
    · intro e j el p he hj
      exact ⟨el.map (urchinMap Y lo hi minRad), by simp [urchinWarp, he], by simp [hj]⟩

theorem harmonic_cos {x y z : ℝ} (h : ptNorm [x, y, z] = 1) : harmonicAt (fun th _ => Real.cos th) [x, y, z] = z := by
  simp only [harmonicAt, h, div_one]
  have h2 : x ^ 2 + (y ^ 2 + z ^ 2) = 1 := by
    have := Real.sq_sqrt (show 0 ≤ x ^ 2 + (y ^ 2 + z ^ 2) by positivity)
    unfold ptNorm at h
    simp only [List.map_cons, List.map_nil, List.sum_cons, List.sum_nil, add_zero] at h
    rw [h] at this
    linarith
  exact Real.cos_arccos (by nlinarith [sq_nonneg x, sq_nonneg y]) (by nlinarith [sq_nonneg x, sq_nonneg y])

/-- **C87**, what fails: for the harmonic with `m = 0` and `n = 1`, which is a positive multiple of the cosine,
and the vertices of the icosahedron as nodes, the pole, which is the image of the midpoint of an edge and so a
vertex of the refined mesh, gets a distance below `min_rad`; and for small `min_rad` it is moved to the
opposite side of the origin. -/
theorem C87_range_counterexample (minRad : ℝ) : ∃ lo hi,
    urchinRange (fun th _ => Real.cos th) (icoVertices 1) = some (lo, hi) ∧ lo < hi ∧
      (∃ p q, p ∈ icoVertices 1 ∧ q ∈ icoVertices 1 ∧ ∃ c > 0,
        List.zipWith (fun a b => (a + b) / 2) p q = [0, 0, -c]) ∧
      (∀ c > 0, urchinRadius (fun th _ => Real.cos th) lo hi minRad [0, 0, -c] < minRad) ∧
      (minRad < 1 / 20 → ∃ d > 0, urchinMap (fun th _ => Real.cos th) lo hi minRad [0, 0, -1] = [0, 0, d]) := by
  have hphi := one_lt_icoPhi
  have hsq := icoPhi_sq
  set s := (1 : ℝ) / Real.sqrt (icoPhi ^ 2 + 1) with hs
  have hs0 : 0 < s := icoScale_pos (r := 1) one_pos
  have hs2 : s ^ 2 * (icoPhi ^ 2 + 1) = 1 := by
    rw [hs, div_pow, Real.sq_sqrt (by positivity)]
    field_simp
  have hh : ∀ p ∈ icoVertices 1, ∃ x y z, p = [x, y, z] ∧ harmonicAt (fun th _ => Real.cos th) p = z ∧
      -(icoPhi * s) ≤ z ∧ z ≤ icoPhi * s := by
    intro p hp
    have hn := ((C72_vertices (r := 1) one_pos).2.2 p hp).2
    rw [icoVertices_eq] at hp
    obtain ⟨q, hq, rfl⟩ := List.mem_map.1 hp
    have hq' : ∃ a b c, q = [a, b, c] ∧ (c = (0, -1) ∨ c = (-1, 0) ∨ c = (0, 0) ∨ c = (1, 0) ∨ c = (0, 1)) := by
      rw [icoSorted_eq] at hq
      simp only [List.mem_cons, List.not_mem_nil, or_false] at hq
      rcases hq with rfl | rfl | rfl | rfl | rfl | rfl | rfl | rfl | rfl | rfl | rfl | rfl <;>
        exact ⟨_, _, _, rfl, by simp⟩
    obtain ⟨a, b, c, rfl, hc⟩ := hq'
    refine ⟨_, _, _, rfl, harmonic_cos hn, ?_⟩
    rw [← hs]
    have h1 : s < icoPhi * s := by nlinarith
    rcases hc with rfl | rfl | rfl | rfl | rfl <;> simp only [zVal] <;> push_cast <;> constructor <;> nlinarith
  have hmem : ∀ q ∈ icoSorted, (q.map fun x => zVal x * s) ∈ icoVertices 1 := by
    intro q hq
    rw [icoVertices_eq]
    exact List.mem_map.2 ⟨q, hq, rfl⟩
  have m1 : [0, -s, -(icoPhi * s)] ∈ icoVertices 1 := by
    have := hmem [(0, 0), (-1, 0), (0, -1)] (by rw [icoSorted_eq]; simp)
    simpa [zVal] using this
  have m2 : [0, s, -(icoPhi * s)] ∈ icoVertices 1 := by
    have := hmem [(0, 0), (1, 0), (0, -1)] (by rw [icoSorted_eq]; simp)
    simpa [zVal] using this
  have m3 : [0, s, icoPhi * s] ∈ icoVertices 1 := by
    have := hmem [(0, 0), (1, 0), (0, 1)] (by rw [icoSorted_eq]; simp)
    simpa [zVal] using this
  have hv : ∀ x y z, [x, y, z] ∈ icoVertices 1 → harmonicAt (fun th _ => Real.cos th) [x, y, z] = z :=
    fun x y z h => harmonic_cos ((C72_vertices (r := 1) one_pos).2.2 _ h).2
  have hps : 0 < icoPhi * s := by nlinarith
  have hlt1 : icoPhi * s < 1 := by
    have : (icoPhi * s) ^ 2 < 1 := by nlinarith
    nlinarith
  have hpole : ∀ c > 0, harmonicAt (fun th _ => Real.cos th) [0, 0, -c] = -1 := by
    intro c hc
    have e : ([0, 0, -c] : List ℝ) = [0, 0, -1].map (c * ·) := by simp
    rw [e, harmonicAt_scale _ hc]
    exact harmonic_cos (by simp [ptNorm])
  refine ⟨-(icoPhi * s), icoPhi * s, ?_, by linarith, ⟨_, _, m1, m2, icoPhi * s, hps, ?_⟩, ?_, ?_⟩
  · refine urchinRange_spec.2 ⟨⟨⟨_, m1, hv _ _ _ m1⟩, fun p hp => ?_⟩, ⟨_, m3, hv _ _ _ m3⟩, fun p hp => ?_⟩
    · obtain ⟨x, y, z, _, h2, h3, _⟩ := hh p hp
      rw [h2]
      exact h3
    · obtain ⟨x, y, z, _, h2, _, h3⟩ := hh p hp
      rw [h2]
      exact h3
  · simp
  · intro c hc
    unfold urchinRadius
    rw [hpole c hc]
    have : (-1 - -(icoPhi * s)) / (icoPhi * s - -(icoPhi * s)) < 0 :=
      div_neg_of_neg_of_pos (by linarith) (by linarith)
    linarith
  · intro hm
    have hn : ptNorm [0, 0, -1] = 1 := by simp [ptNorm]
    have hneg : urchinRadius (fun th _ => Real.cos th) (-(icoPhi * s)) (icoPhi * s) minRad [0, 0, -1] < 0 := by
      unfold urchinRadius
      rw [hpole 1 one_pos]
      have h5 : icoPhi < 1.62 := by
        have : Real.sqrt 5 < 2.24 := by
          rw [Real.sqrt_lt' (by norm_num)]
          norm_num
        unfold icoPhi
        linarith
      have h6 : icoPhi * s ≤ 0.9 := by
        have : (icoPhi * s) ^ 2 ≤ 0.81 := by
          have h7 : (icoPhi * s) ^ 2 = icoPhi ^ 2 * s ^ 2 := by ring
          have h8 : s ^ 2 * (icoPhi + 2) = 1 := by
            rw [← hs2, hsq]
            ring
          nlinarith
        nlinarith
      have : (-1 - -(icoPhi * s)) / (icoPhi * s - -(icoPhi * s)) ≤ -(1 / 20) := by
        rw [div_le_iff₀ (by linarith)]
        linarith
      linarith
    refine ⟨-urchinRadius (fun th _ => Real.cos th) (-(icoPhi * s)) (icoPhi * s) minRad [0, 0, -1], by linarith, ?_⟩
    unfold urchinMap
    rw [hn]
    simp

example : urchinRange (fun th _ => Real.cos th) [[0, 0, 1], [0, 0, -1]] = some (-1, 1) ∧ (-1 : ℝ) ≠ 1 := by
  have h1 : harmonicAt (fun th _ => Real.cos th) [0, 0, 1] = 1 := harmonic_cos (by simp [ptNorm])
  have h2 : harmonicAt (fun th _ => Real.cos th) [0, 0, -1] = -1 := harmonic_cos (by simp [ptNorm])
  refine ⟨urchinRange_spec.2 ⟨⟨⟨_, by simp, h2⟩, ?_⟩, ⟨_, by simp, h1⟩, ?_⟩, by norm_num⟩
  · intro p hp
    simp only [List.mem_cons, List.not_mem_nil, or_false] at hp
    rcases hp with rfl | rfl
    · rw [h1]; norm_num
    · rw [h2]
  · intro p hp
    simp only [List.mem_cons, List.not_mem_nil, or_false] at hp
    rcases hp with rfl | rfl
    · rw [h1]
    · rw [h2]; norm_num

example : ptNorm [0, 0, 2] ≠ 0 ∧ 0 < urchinRadius (fun th _ => Real.cos th) (-1) 1 0.2 [0, 0, 2] := by
  have e : ([0, 0, 2] : List ℝ) = [0, 0, 1].map (2 * ·) := by simp
  have h1 : harmonicAt (fun th _ => Real.cos th) [0, 0, 1] = 1 := harmonic_cos (by simp [ptNorm])
  constructor
  · rw [e, ptNorm_scale (by norm_num)]
    simp [ptNorm]
  · unfold urchinRadius
    rw [e, harmonicAt_scale _ (by norm_num), h1]
    norm_num

end Meshmode
