import Verif.Gen.FromVertices
import Verif.Np
import Mathlib.Analysis.SpecialFunctions.Pow.Real
import Mathlib.Tactic.LinearCombination
import Mathlib.Tactic.Positivity

/-!
# Icosahedra and spheres (C72)

`generate_icosahedron`, `generate_cube_surface` and `generate_sphere`,
meshmode/mesh/generation.py:581-728, with real numbers for floating point numbers.  The vertices and faces
of the cube come from modepy and are parameters, as is uniform refinement.
-/
namespace Meshmode

/-! ## Model -/

/-- `(1+5**(1/2))/2`, meshmode/mesh/generation.py:590. -/
noncomputable def icoPhi : ℝ := (1 + Real.sqrt 5) / 2

/-- The number `a + b*phi`: coordinates are kept in this form until they are multiplied by the radius, so
that they can be compared. Code: meshmode/mesh/generation.py:591-596. -/
noncomputable def zVal (p : Int × Int) : ℝ := (p.1 : ℝ) + (p.2 : ℝ) * icoPhi

/-- The vertices before sorting, meshmode/mesh/generation.py:591-596. -/
def icoRaw : List (List (Int × Int)) :=
  [-1, 1].flatMap fun pm1 => [-1, 1].flatMap fun pm2 =>
    [[(0, 0), (pm1, 0), (0, pm2)], [(pm1, 0), (0, pm2), (0, 0)], [(0, pm1), (0, 0), (pm2, 0)]]

/-- Comparison of the coordinates that occur, `-phi < -1 < 0 < 1 < phi`, and of tuples of them
(`sorted`, meshmode/mesh/generation.py:591). -/
def icoLe : List (Int × Int) → List (Int × Int) → Bool
  | [], _ => true
  | _ :: _, [] => false
  | p :: ps, q :: qs =>
    if p.1 + 2 * p.2 < q.1 + 2 * q.2 then true
    else if q.1 + 2 * q.2 < p.1 + 2 * p.2 then false else icoLe ps qs

/-- The sorted vertices, meshmode/mesh/generation.py:591-596. -/
def icoSorted : List (List (Int × Int)) := stableSort icoLe icoRaw

/-- `top_ring`, meshmode/mesh/generation.py:598. -/
def icoTop : List Nat := [11, 7, 1, 2, 8]

/-- `bottom_ring`, meshmode/mesh/generation.py:599. -/
def icoBottom : List Nat := [10, 9, 3, 0, 4]

/-- The triangles, meshmode/mesh/generation.py:600-609. -/
def icoTris : List (List Nat) :=
  (List.range icoTop.length).flatMap fun i =>
    let j := (i + 1) % icoTop.length
    [[icoTop.getD i 0, icoTop.getD j 0, 5], [icoBottom.getD i 0, 6, icoBottom.getD j 0],
     [icoBottom.getD i 0, icoBottom.getD j 0, icoTop.getD i 0],
     [icoTop.getD i 0, icoBottom.getD j 0, icoTop.getD j 0]]

/-- `la.norm` and `np.sqrt(np.sum(x**2))`, meshmode/mesh/generation.py:611, 631, 716, 722. -/
noncomputable def ptNorm (p : List ℝ) : ℝ := Real.sqrt (p.map fun x => x ^ 2).sum

/-- The vertices of the icosahedron, meshmode/mesh/generation.py:591-596, 611. -/
noncomputable def icoVertices (r : ℝ) : List (List ℝ) :=
  let vs := icoSorted.map fun p => p.map zVal
  vs.map fun p => p.map fun x => x * (r / ptNorm (vs.headD []))

/-- The vertices and nodes of a mesh with one group, meshmode/mesh/generation.py:618-621. -/
structure SurfMesh where
  vertices : List (List ℝ)
  elements : List (List Nat)
  nodes : List (List (List ℝ))

/-- `generate_icosahedron`, meshmode/mesh/generation.py:581-621. -/
noncomputable def genIcosahedron (solve : Mat ℝ → List ℝ → Option (List ℝ))
    (tuples : Nat → List (List Nat)) (r : ℝ) (order : Int) (unit : List (List ℝ)) :
    Except MgfvErr SurfMesh :=
  (groupFromVertices solve tuples .simplex 3 3 (icoVertices r) icoTris order unit).map
    fun nodes => ⟨icoVertices r, icoTris, nodes⟩

/-- `generate_cube_surface`, meshmode/mesh/generation.py:624-646; `corners` and `faces` are those of
modepy. -/
noncomputable def genCubeSurface (solve : Mat ℝ → List ℝ → Option (List ℝ))
    (tuples : Nat → List (List Nat)) (corners : List (List ℝ)) (faces : List (List Nat)) (r : ℝ)
    (order : Int) (unit : List (List ℝ)) : Except MgfvErr SurfMesh :=
  let vertices := corners.map fun p => p.map fun x => x * (r / ptNorm p)
  (groupFromVertices solve tuples .tensor 3 4 vertices faces order unit).map
    fun nodes => ⟨vertices, faces, nodes⟩

/-- `v * r / np.sqrt(np.sum(v**2))`, meshmode/mesh/generation.py:716, 722. -/
noncomputable def toSphere (r : ℝ) (p : List ℝ) : List ℝ := p.map fun x => x * r / ptNorm p

/-- The last part of `generate_sphere`, meshmode/mesh/generation.py:709-728; `refine` is uniform
refinement, or nothing for zero rounds. -/
noncomputable def sphereOf (refine : SurfMesh → SurfMesh) (r : ℝ) (m : SurfMesh) : SurfMesh :=
  ⟨(refine m).vertices.map (toSphere r), (refine m).elements,
    (refine m).nodes.map fun el => el.map (toSphere r)⟩

/-- `generate_sphere`, meshmode/mesh/generation.py:671-728; `none` for the `TypeError`. -/
noncomputable def genSphere (solve : Mat ℝ → List ℝ → Option (List ℝ)) (tuples : Nat → List (List Nat))
    (corners : List (List ℝ)) (faces : List (List Nat)) (refine : SurfMesh → SurfMesh) (cls : MgfvCls)
    (r : ℝ) (order : Int) (unit : List (List ℝ)) : Option (Except MgfvErr SurfMesh) :=
  match cls with
  | .simplex => some ((genIcosahedron solve tuples r order unit).map (sphereOf refine r))
  | .tensor => some ((genCubeSurface solve tuples corners faces r order unit).map (sphereOf refine r))
  | .other => none

/-! ## Specification -/

/-- Directed edges of the triangles. (Specification or proof vocabulary, no code.) -/
def triEdges (tris : List (List Nat)) : List (Nat × Nat) :=
  tris.flatMap fun
    | [a, b, c] => [(a, b), (b, c), (c, a)]
    | _ => []

/-- The determinant of three points: six times the volume of the tetrahedron with the origin, positive if
the triangle is seen counterclockwise from outside. (Specification or proof vocabulary, no code.) -/
def det3 {K : Type} [CommRing K] (a b c : List K) : K :=
  a.getD 0 0 * (b.getD 1 0 * c.getD 2 0 - b.getD 2 0 * c.getD 1 0) -
  a.getD 1 0 * (b.getD 0 0 * c.getD 2 0 - b.getD 2 0 * c.getD 0 0) +
  a.getD 2 0 * (b.getD 0 0 * c.getD 1 0 - b.getD 1 0 * c.getD 0 0)

/-- The point lies in the plane of a triangle: it is a combination of the corners with coefficients that
add up to one. (Specification or proof vocabulary, no code.) -/
def InPlane (a b c p : List ℝ) : Prop :=
  p.length = 3 ∧ ∃ u v w : ℝ, u + v + w = 1 ∧
    ∀ i < 3, p.getD i 0 = u * a.getD i 0 + v * b.getD i 0 + w * c.getD i 0

/-- At distance `r` from the origin. (Specification or proof vocabulary, no code.) -/
def OnSphere (r : ℝ) (p : List ℝ) : Prop := p.length = 3 ∧ ptNorm p = r

/-! ## Lemmas -/

theorem icoPhi_sq : icoPhi ^ 2 = icoPhi + 1 := by
  have h : Real.sqrt 5 ^ 2 = 5 := Real.sq_sqrt (by norm_num)
  unfold icoPhi
  linear_combination h / 4

theorem one_lt_icoPhi : 1 < icoPhi := by
  have : (1 : ℝ) < Real.sqrt 5 := by
    rw [Real.lt_sqrt (by norm_num)]; norm_num
  unfold icoPhi
  linarith

/-- The sorted list. -/
theorem icoSorted_eq : icoSorted =
    [[(0, -1), (0, 0), (-1, 0)], [(0, -1), (0, 0), (1, 0)], [(-1, 0), (0, -1), (0, 0)],
     [(-1, 0), (0, 1), (0, 0)], [(0, 0), (-1, 0), (0, -1)], [(0, 0), (-1, 0), (0, 1)],
     [(0, 0), (1, 0), (0, -1)], [(0, 0), (1, 0), (0, 1)], [(1, 0), (0, -1), (0, 0)],
     [(1, 0), (0, 1), (0, 0)], [(0, 1), (0, 0), (-1, 0)], [(0, 1), (0, 0), (1, 0)]] := by
  decide +kernel

/-- The scaled radius of the unscaled icosahedron. -/
theorem icoNorm_head : ptNorm ((icoSorted.map fun p => p.map zVal).headD []) = Real.sqrt (icoPhi ^ 2 + 1) := by
  rw [icoSorted_eq]
  simp only [List.map_cons, List.headD_cons, List.map_nil, ptNorm, zVal, List.sum_cons, List.sum_nil]
  congr 1
  push_cast
  ring

theorem icoScale_pos {r : ℝ} (hr : 0 < r) : 0 < r / Real.sqrt (icoPhi ^ 2 + 1) :=
  div_pos hr (Real.sqrt_pos.2 (by positivity))

theorem icoVertices_eq (r : ℝ) : icoVertices r = icoSorted.map fun p => p.map fun q =>
    zVal q * (r / Real.sqrt (icoPhi ^ 2 + 1)) := by
  unfold icoVertices
  simp only [icoNorm_head, List.map_map]
  apply List.map_congr_left
  intro p _
  simp [Function.comp_def]

theorem toSphere_norm {r : ℝ} (hr : 0 ≤ r) {p : List ℝ} (hl : p.length = 3) (h : ∃ x ∈ p, x ≠ 0) :
    OnSphere r (toSphere r p) := by
  have hs : 0 < (p.map fun x => x ^ 2).sum := by
    obtain ⟨x, hx, hne⟩ := h
    have h1 : x ^ 2 ≤ (p.map fun x => x ^ 2).sum :=
      List.single_le_sum (by
        intro y hy
        obtain ⟨z, _, rfl⟩ := List.mem_map.1 hy
        positivity) _ (List.mem_map.2 ⟨x, hx, rfl⟩)
    have h2 : 0 < x ^ 2 := by positivity
    linarith
  refine ⟨by simp [toSphere, hl], ?_⟩
  have hp : 0 < ptNorm p := Real.sqrt_pos.2 hs
  have hsq : ptNorm p ^ 2 = (p.map fun x => x ^ 2).sum := Real.sq_sqrt hs.le
  have : ((toSphere r p).map fun x => x ^ 2).sum = r ^ 2 := by
    have e : (toSphere r p).map (fun x => x ^ 2) = p.map fun x => (r ^ 2 / ptNorm p ^ 2) * x ^ 2 := by
      rw [toSphere, List.map_map]
      apply List.map_congr_left
      intro x _
      simp only [Function.comp]
      field_simp
    rw [e, List.sum_map_mul_left, ← hsq]
    field_simp
  rw [ptNorm, this, Real.sqrt_sq hr]

/-- A plane that does not contain the origin. -/
theorem InPlane.ne_zero {a b c p : List ℝ} (hd : det3 a b c ≠ 0) (h : InPlane a b c p) :
    ∃ x ∈ p, x ≠ 0 := by
  obtain ⟨hl, u, v, w, hs, hp⟩ := h
  by_contra hne
  push Not at hne
  have hz : ∀ i < 3, p.getD i 0 = 0 := by
    intro i hi
    have hi' : i < p.length := by omega
    simp [List.getElem?_eq_getElem hi', hne _ (List.getElem_mem hi')]
  have e0 := hp 0 (by omega)
  have e1 := hp 1 (by omega)
  have e2 := hp 2 (by omega)
  rw [hz 0 (by omega)] at e0
  rw [hz 1 (by omega)] at e1
  rw [hz 2 (by omega)] at e2
  apply hd
  unfold det3
  generalize a.getD 0 0 = a0 at *
  generalize a.getD 1 0 = a1 at *
  generalize a.getD 2 0 = a2 at *
  generalize b.getD 0 0 = b0 at *
  generalize b.getD 1 0 = b1 at *
  generalize b.getD 2 0 = b2 at *
  generalize c.getD 0 0 = c0 at *
  generalize c.getD 1 0 = c1 at *
  generalize c.getD 2 0 = c2 at *
  linear_combination
    -(a0 * (b1 * c2 - b2 * c1) - a1 * (b0 * c2 - b2 * c0) + a2 * (b0 * c1 - b1 * c0)) * hs
    - ((b1 * c2 - b2 * c1) + (c1 * a2 - c2 * a1) + (a1 * b2 - a2 * b1)) * e0
    - ((b2 * c0 - b0 * c2) + (c2 * a0 - c0 * a2) + (a2 * b0 - a0 * b2)) * e1
    - ((b0 * c1 - b1 * c0) + (c0 * a1 - c1 * a0) + (a0 * b1 - a1 * b0)) * e2

/-- Multiplication of numbers `a + b*phi`. (Specification or proof vocabulary, no code.) -/
def zMul (p q : Int × Int) : Int × Int := (p.1 * q.1 + p.2 * q.2, p.1 * q.2 + p.2 * q.1 + p.2 * q.2)

theorem zVal_mul (p q : Int × Int) : zVal (zMul p q) = zVal p * zVal q := by
  simp only [zVal, zMul]
  push_cast
  linear_combination (-(p.2 : ℝ) * q.2) * icoPhi_sq

theorem zVal_add (p q : Int × Int) : zVal (p + q) = zVal p + zVal q := by
  simp only [zVal, Prod.fst_add, Prod.snd_add]; push_cast; ring

theorem zVal_sub (p q : Int × Int) : zVal (p - q) = zVal p - zVal q := by
  simp only [zVal, Prod.fst_sub, Prod.snd_sub]; push_cast; ring

/-- The determinant in numbers `a + b*phi`. (Specification or proof vocabulary, no code.) -/
def zDet (a b c : List (Int × Int)) : Int × Int :=
  zMul (a.getD 0 0) (zMul (b.getD 1 0) (c.getD 2 0) - zMul (b.getD 2 0) (c.getD 1 0)) -
  zMul (a.getD 1 0) (zMul (b.getD 0 0) (c.getD 2 0) - zMul (b.getD 2 0) (c.getD 0 0)) +
  zMul (a.getD 2 0) (zMul (b.getD 0 0) (c.getD 1 0) - zMul (b.getD 1 0) (c.getD 0 0))

theorem zGetD (s : ℝ) (a : List (Int × Int)) (i : Nat) :
    (a.map fun q => zVal q * s).getD i 0 = zVal (a.getD i 0) * s := by
  simp only [List.getD_eq_getElem?_getD, List.getElem?_map]
  cases a[i]? with
  | none => simp [zVal]
  | some q => rfl

theorem det3_zVal (s : ℝ) (a b c : List (Int × Int)) :
    det3 (a.map fun q => zVal q * s) (b.map fun q => zVal q * s) (c.map fun q => zVal q * s) =
      s ^ 3 * zVal (zDet a b c) := by
  simp only [det3, zGetD, zDet, zVal_add, zVal_sub, zVal_mul]
  ring

/-- The squared distance in numbers `a + b*phi`. (Specification or proof vocabulary, no code.) -/
def zDist2 (a b : List (Int × Int)) : Int × Int :=
  zMul (a.getD 0 0 - b.getD 0 0) (a.getD 0 0 - b.getD 0 0) +
  zMul (a.getD 1 0 - b.getD 1 0) (a.getD 1 0 - b.getD 1 0) +
  zMul (a.getD 2 0 - b.getD 2 0) (a.getD 2 0 - b.getD 2 0)

/-- The squared distance of two points. (Specification or proof vocabulary, no code.) -/
def ptDist2 (a b : List ℝ) : ℝ :=
  (a.getD 0 0 - b.getD 0 0) ^ 2 + (a.getD 1 0 - b.getD 1 0) ^ 2 + (a.getD 2 0 - b.getD 2 0) ^ 2

theorem ptDist2_zVal (s : ℝ) (a b : List (Int × Int)) :
    ptDist2 (a.map fun q => zVal q * s) (b.map fun q => zVal q * s) = s ^ 2 * zVal (zDist2 a b) := by
  simp only [ptDist2, zGetD, zDist2, zVal_add, zVal_mul, zVal_sub]
  ring

theorem getElem?_icoVertices (r : ℝ) (i : Nat) : (icoVertices r)[i]? =
    icoSorted[i]?.map fun p => p.map fun q => zVal q * (r / Real.sqrt (icoPhi ^ 2 + 1)) := by
  rw [icoVertices_eq, List.getElem?_map]

/-! ## Properties -/

/-- C72: the numbers used for sorting compare like the coordinates, so that the vertices are sorted by
their coordinates. -/
theorem C72_order {p q : Int × Int} (hp : p ∈ icoRaw.flatten) (hq : q ∈ icoRaw.flatten) :
    zVal p < zVal q ↔ p.1 + 2 * p.2 < q.1 + 2 * q.2 := by
  have hall : ∀ p ∈ icoRaw.flatten, p = (0, -1) ∨ p = (-1, 0) ∨ p = (0, 0) ∨ p = (1, 0) ∨ p = (0, 1) := by
    decide
  have h := one_lt_icoPhi
  rcases hall p hp with rfl | rfl | rfl | rfl | rfl <;>
    rcases hall q hq with rfl | rfl | rfl | rfl | rfl <;>
    simp only [zVal] <;> norm_num <;> linarith

/-- C72: the icosahedron has twelve different vertices, all at distance `r` from the origin. -/
theorem C72_vertices {r : ℝ} (hr : 0 < r) : (icoVertices r).length = 12 ∧ (icoVertices r).Nodup ∧
    ∀ p ∈ icoVertices r, OnSphere r p := by
  have hs := icoScale_pos hr
  refine ⟨by rw [icoVertices_eq, List.length_map, icoSorted_eq]; rfl, ?_, ?_⟩
  · rw [icoVertices_eq]
    have hnd : icoSorted.Nodup := by rw [icoSorted_eq]; decide
    refine List.Nodup.map_on ?_ hnd
    intro a ha b hb h
    have hz : zDist2 a b ≠ 0 ∨ a = b := by
      have : ∀ a ∈ icoSorted, ∀ b ∈ icoSorted, zDist2 a b ≠ 0 ∨ a = b := by
        rw [icoSorted_eq]; decide +kernel
      exact this a ha b hb
    rcases hz with hz | hz
    · exfalso
      have h0 := ptDist2_zVal (r / Real.sqrt (icoPhi ^ 2 + 1)) a b
      rw [h] at h0
      have h1 : zVal (zDist2 a b) = 0 := by
        have : (r / Real.sqrt (icoPhi ^ 2 + 1)) ^ 2 * zVal (zDist2 a b) = 0 := by
          rw [← h0]; simp [ptDist2]
        rcases mul_eq_zero.1 this with h | h
        · exact absurd h (by positivity)
        · exact h
      have hpos : ∀ a ∈ icoSorted, ∀ b ∈ icoSorted, 0 ≤ (zDist2 a b).1 ∧ 0 ≤ (zDist2 a b).2 := by
        rw [icoSorted_eq]; decide +kernel
      obtain ⟨p1, p2⟩ := hpos a ha b hb
      have q1 : (0 : ℝ) ≤ ((zDist2 a b).1 : ℝ) := by exact_mod_cast p1
      have q2 : (0 : ℝ) ≤ ((zDist2 a b).2 : ℝ) := by exact_mod_cast p2
      have hphi := one_lt_icoPhi
      simp only [zVal] at h1
      have r2 : ((zDist2 a b).2 : ℝ) = 0 := by nlinarith
      have r1 : ((zDist2 a b).1 : ℝ) = 0 := by rw [r2] at h1; linarith
      apply hz
      ext
      · exact_mod_cast r1
      · exact_mod_cast r2
    · exact hz
  · intro p hp
    rw [icoVertices_eq] at hp
    obtain ⟨c, hc, rfl⟩ := List.mem_map.1 hp
    have hn : ∀ c ∈ icoSorted, c.length = 3 ∧ zDist2 c [] = (2, 1) := by
      rw [icoSorted_eq]; decide +kernel
    obtain ⟨hl, h2⟩ := hn c hc
    refine ⟨by simp [hl], ?_⟩
    have h0 := ptDist2_zVal (r / Real.sqrt (icoPhi ^ 2 + 1)) c []
    rw [h2] at h0
    have h3 : ((c.map fun q => zVal q * (r / Real.sqrt (icoPhi ^ 2 + 1))).map fun x => x ^ 2).sum = r ^ 2 := by
      match c, hl with
      | [x, y, z], _ =>
        simp only [ptDist2, List.map_cons, List.map_nil, List.getD_cons_zero, List.getD_cons_succ,
          List.getD_nil, sub_zero] at h0
        simp only [List.map_cons, List.map_nil, List.sum_cons, List.sum_nil, add_zero]
        rw [← add_assoc, h0]
        have hpos : (0 : ℝ) < icoPhi ^ 2 + 1 := by positivity
        have hsq : Real.sqrt (icoPhi ^ 2 + 1) ^ 2 = icoPhi ^ 2 + 1 := Real.sq_sqrt hpos.le
        rw [div_pow, hsq]
        have : zVal (2, 1) = icoPhi ^ 2 + 1 := by
          rw [icoPhi_sq]; simp only [zVal]; push_cast; ring
        rw [this]
        field_simp
    rw [ptNorm, h3, Real.sqrt_sq hr.le]

/-- C72: the surface is closed and consistently oriented: there are twenty triangles with vertices that
exist, no directed edge belongs to two triangles, and with each edge there is the reverse one. -/
theorem C72_closed : icoTris.length = 20 ∧ (∀ t ∈ icoTris, t.length = 3 ∧ t.Nodup ∧ ∀ v ∈ t, v < 12) ∧
    (triEdges icoTris).Nodup ∧ (∀ e ∈ triEdges icoTris, (e.2, e.1) ∈ triEdges icoTris) ∧
    ∀ v < 12, ∃ t ∈ icoTris, v ∈ t := by
  refine ⟨by decide, by decide, by decide, by decide, by decide⟩

/-- C72: all triangles are equilateral, of the same size, and oriented outwards. -/
theorem C72_regular {r : ℝ} (hr : 0 < r) : ∃ l : ℝ, 0 < l ∧ ∀ t ∈ icoTris, ∃ a b c,
    ElementVertices (icoVertices r) t [a, b, c] ∧ ptDist2 a b = l ∧ ptDist2 b c = l ∧ ptDist2 c a = l ∧
    0 < det3 a b c := by
  have hs := icoScale_pos hr
  refine ⟨(r / Real.sqrt (icoPhi ^ 2 + 1)) ^ 2 * 4, by positivity, ?_⟩
  have key : ∀ t ∈ icoTris, ∃ i ∈ List.range 12, ∃ j ∈ List.range 12, ∃ k ∈ List.range 12, t = [i, j, k] ∧
      zDist2 (icoSorted.getD i []) (icoSorted.getD j []) = (4, 0) ∧
      zDist2 (icoSorted.getD j []) (icoSorted.getD k []) = (4, 0) ∧
      zDist2 (icoSorted.getD k []) (icoSorted.getD i []) = (4, 0) ∧
      zDet (icoSorted.getD i []) (icoSorted.getD j []) (icoSorted.getD k []) = (2, 2) := by
    have : ∀ t ∈ icoTris, t = [t.getD 0 0, t.getD 1 0, t.getD 2 0] ∧ t.getD 0 0 ∈ List.range 12 ∧
        t.getD 1 0 ∈ List.range 12 ∧ t.getD 2 0 ∈ List.range 12 ∧
        zDist2 (icoSorted.getD (t.getD 0 0) []) (icoSorted.getD (t.getD 1 0) []) = (4, 0) ∧
        zDist2 (icoSorted.getD (t.getD 1 0) []) (icoSorted.getD (t.getD 2 0) []) = (4, 0) ∧
        zDist2 (icoSorted.getD (t.getD 2 0) []) (icoSorted.getD (t.getD 0 0) []) = (4, 0) ∧
        zDet (icoSorted.getD (t.getD 0 0) []) (icoSorted.getD (t.getD 1 0) [])
          (icoSorted.getD (t.getD 2 0) []) = (2, 2) := by
      rw [icoSorted_eq]; decide +kernel
    intro t ht
    obtain ⟨h1, h2, h3, h4, h5⟩ := this t ht
    exact ⟨_, h2, _, h3, _, h4, h1, h5⟩
  intro t ht
  obtain ⟨i, hi, j, hj, k, hk, rfl, h1, h2, h3, h4⟩ := key t ht
  have hlen : icoSorted.length = 12 := by rw [icoSorted_eq]; rfl
  have hv : ∀ n ∈ List.range 12, (icoVertices r)[n]? = some ((icoSorted.getD n []).map fun q =>
      zVal q * (r / Real.sqrt (icoPhi ^ 2 + 1))) := by
    intro n hn
    have hn' : n < icoSorted.length := by rw [hlen]; exact List.mem_range.1 hn
    rw [getElem?_icoVertices, List.getElem?_eq_getElem hn', Option.map_some]
    simp [hn']
  have h40 : zVal (4, 0) = 4 := by simp [zVal]
  refine ⟨(icoSorted.getD i []).map fun q => zVal q * (r / Real.sqrt (icoPhi ^ 2 + 1)),
    (icoSorted.getD j []).map fun q => zVal q * (r / Real.sqrt (icoPhi ^ 2 + 1)),
    (icoSorted.getD k []).map fun q => zVal q * (r / Real.sqrt (icoPhi ^ 2 + 1)),
    ⟨rfl, ?_⟩, ?_, ?_, ?_, ?_⟩
  rotate_left
  · rw [ptDist2_zVal, h1, h40]
  · rw [ptDist2_zVal, h2, h40]
  · rw [ptDist2_zVal, h3, h40]
  · rw [det3_zVal, h4]
    have : (0 : ℝ) < zVal (2, 2) := by
      have := one_lt_icoPhi
      simp only [zVal]; push_cast; linarith
    positivity
  · intro n v hn
    rcases n with _ | _ | _ | n
    · simp only [List.getElem?_cons_zero, Option.some.injEq] at hn ⊢
      subst hn; exact hv _ hi
    · simp only [zero_add, List.getElem?_cons_succ, List.getElem?_cons_zero, Option.some.injEq] at hn ⊢
      subst hn; exact hv _ hj
    · simp only [List.getElem?_cons_succ, List.getElem?_cons_zero, Option.some.injEq] at hn ⊢
      subst hn; exact hv _ hk
    · simp at hn

theorem inPlane_corner {a b c p : List ℝ} (hp : p = a ∨ p = b ∨ p = c) (hl : p.length = 3) :
    InPlane a b c p := by
  rcases hp with rfl | rfl | rfl
  · exact ⟨hl, 1, 0, 0, by norm_num, fun i _ => by ring⟩
  · exact ⟨hl, 0, 1, 0, by norm_num, fun i _ => by ring⟩
  · exact ⟨hl, 0, 0, 1, by norm_num, fun i _ => by ring⟩

theorem inPlane_simplexPoint (a b c : List ℝ) (x y : ℝ) :
    InPlane a b c (simplexPoint 3 [a, b, c] [x, y]) := by
  refine ⟨by simp [simplexPoint], 1 - (1 / 2 + 1 / 2 * x) - (1 / 2 + 1 / 2 * y), 1 / 2 + 1 / 2 * x,
    1 / 2 + 1 / 2 * y, by ring, ?_⟩
  intro i hi
  simp only [simplexPoint, List.tail_cons, List.zip_cons_cons, List.zip_nil_right, List.map_cons,
    List.map_nil, List.sum_cons, List.sum_nil, List.headD_cons]
  rw [List.getD_eq_getElem?_getD, List.getElem?_map, List.getElem?_range hi]
  simp only [Option.map_some, Option.getD_some]
  ring

section
variable {solve : Mat ℝ → List ℝ → Option (List ℝ)} {tuples : Nat → List (List Nat)}
  {corners : List (List ℝ)} {faces : List (List Nat)} {order : Int} {unit : List (List ℝ)} {r : ℝ}

/-- C72: every vertex and every node of the icosahedron lies in the plane of one of its triangles, the
nodes of an element in that of the element. -/
theorem C72_planes (hr : 0 < r) {m : SurfMesh} (h : genIcosahedron solve tuples r order unit = .ok m) :
    m.elements = icoTris ∧ m.vertices = icoVertices r ∧ m.nodes.length = m.elements.length ∧
    (∀ p ∈ m.vertices, ∃ t ∈ m.elements, ∃ a b c, ElementVertices m.vertices t [a, b, c] ∧ InPlane a b c p) ∧
    ∀ (e : Nat) t el, m.elements[e]? = some t → m.nodes[e]? = some el →
      ∃ a b c, ElementVertices m.vertices t [a, b, c] ∧ ∀ p ∈ el, InPlane a b c p := by
  unfold genIcosahedron at h
  cases hg : groupFromVertices solve tuples .simplex 3 3 (icoVertices r) icoTris order unit with
  | error e => rw [hg] at h; cases h
  | ok nodes =>
    rw [hg] at h
    cases h
    obtain ⟨_, _, hvs⟩ := C72_vertices hr
    obtain ⟨_, _, hreg⟩ := C72_regular hr
    refine ⟨rfl, rfl, ?_, ?_, ?_⟩
    · exact (C71_simplex (fun p hp => (hvs p hp).1) (fun t ht => (C72_closed.2.1 t ht).1) hg).1
    · intro p hp
      obtain ⟨v, hv⟩ := List.mem_iff_getElem?.1 hp
      have hv12 : v < 12 := by
        rw [← (C72_vertices hr).1]; exact (List.getElem?_eq_some_iff.1 hv).1
      obtain ⟨t, ht, hvt⟩ := C72_closed.2.2.2.2 v hv12
      obtain ⟨a, b, c, hel, _⟩ := hreg t ht
      refine ⟨t, ht, a, b, c, hel, inPlane_corner ?_ (hvs p hp).1⟩
      obtain ⟨i, hi⟩ := List.mem_iff_getElem?.1 hvt
      have := hel.2 i v hi
      rw [hv] at this
      have := List.mem_of_getElem? this.symm
      simpa using this
    · intro e t el ht hel
      have hmem := List.mem_of_getElem? ht
      obtain ⟨a, b, c, hev, _⟩ := hreg t hmem
      refine ⟨a, b, c, hev, ?_⟩
      unfold groupFromVertices at hg
      split at hg
      · cases hg
      · rename_i evs hevs
        simp only at hg
        split at hg
        · cases hg
        · split at hg
          · cases hg
          · split at hg
            · rename_i hall
              cases hg
              simp only [List.getElem?_map] at hel
              obtain ⟨ev, hev', rfl⟩ := Option.map_eq_some_iff.1 hel
              obtain ⟨ev2, h1, h2⟩ := (mapM_element hevs).2 e t ht
              rw [hev'] at h1
              cases h1
              have heq : ev = [a, b, c] := by
                apply List.ext_getElem?
                intro i
                by_cases hi : i < t.length
                · rw [← h2.2 i _ (List.getElem?_eq_getElem hi), ← hev.2 i _ (List.getElem?_eq_getElem hi)]
                · rw [List.getElem?_eq_none (by rw [h2.1]; omega),
                    List.getElem?_eq_none (by rw [hev.1]; omega)]
              intro p hp
              obtain ⟨x, hx, rfl⟩ := List.mem_map.1 hp
              have hxl : x.length = 2 := by
                have := List.all_eq_true.1 hall x hx
                simpa using this
              match x, hxl with
              | [x0, x1], _ => rw [heq]; exact inPlane_simplexPoint a b c x0 x1
            · cases hg

/-- C72: all vertices and nodes of the sphere made from an icosahedron are at distance `r` from the
origin, for any refinement that puts vertices and nodes into the planes of the triangles. -/
theorem C72_sphere (hr : 0 < r) {refine : SurfMesh → SurfMesh} {m : SurfMesh}
    (h : genSphere solve tuples corners faces refine .simplex r order unit = some (.ok m))
    (href : ∀ m0, genIcosahedron solve tuples r order unit = .ok m0 →
      ∀ p, p ∈ (refine m0).vertices ∨ (∃ el ∈ (refine m0).nodes, p ∈ el) →
        ∃ t ∈ m0.elements, ∃ a b c, ElementVertices m0.vertices t [a, b, c] ∧ InPlane a b c p) :
    (∀ p ∈ m.vertices, OnSphere r p) ∧ ∀ el ∈ m.nodes, ∀ p ∈ el, OnSphere r p := by
  simp only [genSphere, Option.some.injEq] at h
  cases hg : genIcosahedron solve tuples r order unit with
  | error e => rw [hg] at h; cases h
  | ok m0 =>
    rw [hg] at h
    cases h
    obtain ⟨_, _, hreg⟩ := C72_regular hr
    obtain ⟨e1, e2, _⟩ := C72_planes hr hg
    have key : ∀ p, p ∈ (refine m0).vertices ∨ (∃ el ∈ (refine m0).nodes, p ∈ el) →
        OnSphere r (toSphere r p) := by
      intro p hp
      obtain ⟨t, ht, a, b, c, hel, hpl⟩ := href m0 hg p hp
      rw [e1] at ht
      rw [e2] at hel
      obtain ⟨a', b', c', hel', _, _, _, hd⟩ := hreg t ht
      have heq : [a, b, c] = [a', b', c'] := by
        apply List.ext_getElem?
        intro i
        by_cases hi : i < t.length
        · rw [← hel.2 i _ (List.getElem?_eq_getElem hi), ← hel'.2 i _ (List.getElem?_eq_getElem hi)]
        · rw [List.getElem?_eq_none (by rw [hel.1]; omega), List.getElem?_eq_none (by rw [hel'.1]; omega)]
      simp only [List.cons.injEq, and_true] at heq
      obtain ⟨rfl, rfl, rfl⟩ := heq
      exact toSphere_norm hr.le hpl.1 (hpl.ne_zero hd.ne')
    refine ⟨fun p hp => ?_, fun el hel p hp => ?_⟩
    · obtain ⟨q, hq, rfl⟩ := List.mem_map.1 hp
      exact key q (.inl hq)
    · obtain ⟨el0, hel0, rfl⟩ := List.mem_map.1 hel
      obtain ⟨q, hq, rfl⟩ := List.mem_map.1 hp
      exact key q (.inr ⟨el0, hel0, hq⟩)

/-- C72: without refinement nothing has to be assumed. -/
theorem C72_sphere_unrefined (hr : 0 < r) {m : SurfMesh}
    (h : genSphere solve tuples corners faces id .simplex r order unit = some (.ok m)) :
    (∀ p ∈ m.vertices, OnSphere r p) ∧ ∀ el ∈ m.nodes, ∀ p ∈ el, OnSphere r p := by
  refine C72_sphere hr h ?_
  intro m0 hm0 p hp
  obtain ⟨_, _, hl, h1, h2⟩ := C72_planes hr hm0
  rcases hp with hp | ⟨el, hel, hp⟩
  · exact h1 p hp
  · obtain ⟨e, he⟩ := List.mem_iff_getElem?.1 hel
    have hlt : e < m0.elements.length := by
      rw [← hl]; exact (List.getElem?_eq_some_iff.1 he).1
    obtain ⟨a, b, c, h3, h4⟩ := h2 e _ el (List.getElem?_eq_getElem hlt) he
    exact ⟨_, List.getElem_mem hlt, a, b, c, h3, h4 p hp⟩

/-- The corners of the cube `[-1, 1]^3`, and its faces: the corners of a face have a coordinate in common.
(Specification or proof vocabulary, no code.) -/
structure CubeShape (corners : List (List ℝ)) (faces : List (List Nat)) : Prop where
  corner : ∀ p ∈ corners, p.length = 3 ∧ ∀ x ∈ p, x = 1 ∨ x = -1
  face : ∀ f ∈ faces, f.length = 4 ∧ ∃ i < 3, ∃ s : ℝ, (s = 1 ∨ s = -1) ∧
    ∀ v ∈ f, ∀ p, corners[v]? = some p → p.getD i 0 = s

/-- On one of the six planes of the faces of the cube with corners at distance `r`. (Specification or
proof vocabulary, no code.) -/
def OnCubePlane (r : ℝ) (p : List ℝ) : Prop :=
  p.length = 3 ∧ ∃ i < 3, p.getD i 0 = r / Real.sqrt 3 ∨ p.getD i 0 = -(r / Real.sqrt 3)

theorem corner_norm {p : List ℝ} (hl : p.length = 3) (hp : ∀ x ∈ p, x = 1 ∨ x = -1) :
    ptNorm p = Real.sqrt 3 := by
  match p, hl with
  | [x, y, z], _ =>
    have hsq : ∀ v ∈ [x, y, z], v ^ 2 = 1 := by
      intro v hv
      rcases hp v hv with rfl | rfl <;> norm_num
    simp only [ptNorm, List.map_cons, List.map_nil, List.sum_cons, List.sum_nil,
      hsq x (by simp), hsq y (by simp), hsq z (by simp)]
    norm_num

theorem tensorMap_closed {tup : List (List Nat)} (ht : tup.Perm (cubeTuples 2)) {ev : List (List ℝ)}
    (hl : ev.length = tup.length) {T : List ℝ → List ℝ} (hT : TensorMap 2 tup ev T) {Q : List ℝ → Prop}
    (hQ : ∀ s p q, Q p → Q q → Q (linePoint s p q)) (hev : ∀ p ∈ ev, Q p) {x : List ℝ}
    (hx : x.length = 2) : Q (T x) := by
  have hc : ∀ a b : Nat, (a = 0 ∨ a = 1) → (b = 0 ∨ b = 1) → Q (T [2 * (a : ℝ) - 1, 2 * (b : ℝ) - 1]) := by
    intro a b ha hb
    have hm : [a, b] ∈ tup := by
      rw [ht.mem_iff, mem_cubeTuples]
      refine ⟨rfl, ?_⟩
      intro n hn
      simp only [List.mem_cons, List.not_mem_nil, or_false] at hn
      rcases hn with rfl | rfl
      · exact ha
      · exact hb
    obtain ⟨i, hi⟩ := List.mem_iff_getElem?.1 hm
    have hlt : i < ev.length := by rw [hl]; exact (List.getElem?_eq_some_iff.1 hi).1
    have := hT.corner i _ _ hi (List.getElem?_eq_getElem hlt)
    simp only [List.map_cons, List.map_nil] at this
    rw [this]
    exact hev _ (List.getElem_mem hlt)
  have h1 : ∀ (y : ℝ) (b : Nat), (b = 0 ∨ b = 1) → Q (T [y, 2 * (b : ℝ) - 1]) := by
    intro y b hb
    have := hT.affine ((1 + y) / 2) (-1) 1 [y, 2 * (b : ℝ) - 1] 0 rfl (by omega)
    simp only [List.set_cons_zero] at this
    rw [show (1 - (1 + y) / 2) * -1 + (1 + y) / 2 * 1 = y by ring] at this
    rw [this]
    apply hQ
    · have := hc 0 b (.inl rfl) hb; norm_num at this ⊢; exact this
    · have := hc 1 b (.inr rfl) hb; norm_num at this ⊢; exact this
  match x, hx with
  | [y, z], _ =>
    have := hT.affine ((1 + z) / 2) (-1) 1 [y, z] 1 rfl (by omega)
    simp only [List.set_cons_succ, List.set_cons_zero] at this
    rw [show (1 - (1 + z) / 2) * -1 + (1 + z) / 2 * 1 = z by ring] at this
    rw [this]
    apply hQ
    · have := h1 y 0 (.inl rfl); norm_num at this; exact this
    · have := h1 y 1 (.inr rfl); norm_num at this; exact this

/-- C72: the vertices of the cube are at distance `r` from the origin, and all vertices and nodes lie on
the planes of its faces. -/
theorem C72_cube (hr : 0 < r) (hs : SolveSound solve) (ht : ∀ d, (tuples d).Perm (cubeTuples d))
    (hcube : CubeShape corners faces) {m : SurfMesh}
    (h : genCubeSurface solve tuples corners faces r order unit = .ok m) :
    m.elements = faces ∧ m.nodes.length = faces.length ∧ m.vertices.length = corners.length ∧
    (∀ p ∈ m.vertices, OnSphere r p ∧ OnCubePlane r p) ∧ ∀ el ∈ m.nodes, ∀ p ∈ el, OnCubePlane r p := by
  have h3 : (0 : ℝ) < Real.sqrt 3 := Real.sqrt_pos.2 (by norm_num)
  have hv : ∀ p ∈ corners, p.map (fun x => x * (r / ptNorm p)) = p.map fun x => x * (r / Real.sqrt 3) := by
    intro p hp
    rw [corner_norm (hcube.corner p hp).1 (hcube.corner p hp).2]
  simp only [genCubeSurface] at h
  rw [List.map_congr_left hv] at h
  cases hg : groupFromVertices solve tuples .tensor 3 4
      (corners.map fun p => p.map fun x => x * (r / Real.sqrt 3)) faces order unit with
  | error e => rw [hg] at h; cases h
  | ok nodes =>
    rw [hg] at h
    cases h
    have hlen : ∀ p ∈ corners.map (fun p => p.map fun x => x * (r / Real.sqrt 3)), p.length = 3 := by
      intro p hp
      obtain ⟨c, hc, rfl⟩ := List.mem_map.1 hp
      simpa using (hcube.corner c hc).1
    obtain ⟨dim, hd, hu, hnl, hn⟩ := C71_tensor hs ht hlen (fun f hf => (hcube.face f hf).1) hg
    have hdim : dim = 2 := by
      have : (2 : Nat) ^ 2 = 2 ^ dim := hd
      exact (Nat.pow_right_injective (le_refl 2) this).symm
    subst hdim
    refine ⟨rfl, hnl, by simp, ?_, ?_⟩
    · intro p hp
      obtain ⟨c, hc, rfl⟩ := List.mem_map.1 hp
      obtain ⟨hcl, hcx⟩ := hcube.corner c hc
      have hn := corner_norm hcl hcx
      refine ⟨?_, by simpa using hcl, 0, by omega, ?_⟩
      · have hto : (c.map fun x => x * (r / Real.sqrt 3)) = toSphere r c := by
          unfold toSphere
          rw [hn]
          apply List.map_congr_left
          intro x _
          ring
        rw [hto]
        refine toSphere_norm hr.le hcl ?_
        match c, hcl with
        | [x, y, z], _ =>
          refine ⟨x, by simp, ?_⟩
          rcases hcx x (by simp) with h | h <;> rw [h] <;> norm_num
      · match c, hcl with
        | [x, y, z], _ =>
          simp only [List.map_cons, List.getD_cons_zero]
          rcases hcx x (by simp) with h | h <;> rw [h]
          · left; ring
          · right; ring
    · intro el hel p hp
      obtain ⟨e, he⟩ := List.mem_iff_getElem?.1 hel
      have hlt : e < faces.length := by rw [← hnl]; exact (List.getElem?_eq_some_iff.1 he).1
      obtain ⟨ev, T, h1, h2, h4, h5⟩ := hn e _ (List.getElem?_eq_getElem hlt)
      rw [he] at h5
      cases h5
      obtain ⟨x, hx, rfl⟩ := List.mem_map.1 hp
      obtain ⟨hfl, i, hi, s, hs1, hface⟩ := hcube.face _ (List.getElem_mem hlt)
      have hQ := tensorMap_closed (ht 2) h2 h4
        (Q := fun p => p.length = 3 ∧ p.getD i 0 = s * (r / Real.sqrt 3)) ?_ ?_ (hu x hx)
      · refine ⟨hQ.1, i, hi, ?_⟩
        rw [hQ.2]
        rcases hs1 with rfl | rfl
        · left; ring
        · right; ring
      · rintro t p q ⟨hp1, hp2⟩ ⟨hq1, hq2⟩
        refine ⟨by simp [linePoint, hp1, hq1], ?_⟩
        rw [List.getD_eq_getElem?_getD] at hp2 hq2 ⊢
        rw [List.getElem?_eq_getElem (by omega), Option.getD_some] at hp2 hq2
        rw [linePoint, List.getElem?_eq_getElem (by simp; omega), Option.getD_some, List.getElem_zipWith,
          hp2, hq2]
        ring
      · intro p hp
        obtain ⟨n, hn'⟩ := List.mem_iff_getElem?.1 hp
        have hnlt : n < (faces[e]).length := by rw [← h1.1]; exact (List.getElem?_eq_some_iff.1 hn').1
        have hvn := h1.2 n _ (List.getElem?_eq_getElem hnlt)
        rw [hn', List.getElem?_map] at hvn
        obtain ⟨c, hc, rfl⟩ := Option.map_eq_some_iff.1 hvn
        have hcl := (hcube.corner c (List.mem_of_getElem? hc)).1
        refine ⟨by simpa using hcl, ?_⟩
        have hci := hface _ (List.getElem_mem hnlt) c hc
        rw [List.getD_eq_getElem?_getD, List.getElem?_eq_getElem (by omega), Option.getD_some] at hci
        rw [List.getD_eq_getElem?_getD, List.getElem?_eq_getElem (by simp; omega), Option.getD_some,
          List.getElem_map, hci]

/-- C72: all vertices and nodes of the sphere made from a cube are at distance `r` from the origin, for
any refinement that puts vertices and nodes into the planes of the faces, in particular without one. -/
theorem C72_cube_sphere (hr : 0 < r) {refine : SurfMesh → SurfMesh} {m : SurfMesh}
    (h : genSphere solve tuples corners faces refine .tensor r order unit = some (.ok m))
    (href : ∀ m0, genCubeSurface solve tuples corners faces r order unit = .ok m0 →
      ∀ p, p ∈ (refine m0).vertices ∨ (∃ el ∈ (refine m0).nodes, p ∈ el) → OnCubePlane r p) :
    (∀ p ∈ m.vertices, OnSphere r p) ∧ ∀ el ∈ m.nodes, ∀ p ∈ el, OnSphere r p := by
  simp only [genSphere, Option.some.injEq] at h
  cases hg : genCubeSurface solve tuples corners faces r order unit with
  | error e => rw [hg] at h; cases h
  | ok m0 =>
    rw [hg] at h
    cases h
    have h3 : (0 : ℝ) < Real.sqrt 3 := Real.sqrt_pos.2 (by norm_num)
    have key : ∀ p, p ∈ (refine m0).vertices ∨ (∃ el ∈ (refine m0).nodes, p ∈ el) →
        OnSphere r (toSphere r p) := by
      intro p hp
      obtain ⟨hl, i, hi, hpi⟩ := href m0 hg p hp
      refine toSphere_norm hr.le hl ⟨p[i]'(by omega), List.getElem_mem _, ?_⟩
      rw [List.getD_eq_getElem?_getD, List.getElem?_eq_getElem (by omega), Option.getD_some] at hpi
      have : (0 : ℝ) < r / Real.sqrt 3 := by positivity
      rcases hpi with h | h <;> rw [h] <;> intro h0 <;> linarith
    refine ⟨fun p hp => ?_, fun el hel p hp => ?_⟩
    · obtain ⟨q, hq, rfl⟩ := List.mem_map.1 hp
      exact key q (.inl hq)
    · obtain ⟨el0, hel0, rfl⟩ := List.mem_map.1 hel
      obtain ⟨q, hq, rfl⟩ := List.mem_map.1 hp
      exact key q (.inr ⟨el0, hel0, hq⟩)

/-- C72: the number and the vertices of the elements are those of the refined surface; other classes of
groups are refused. -/
theorem C72_elements {refine : SurfMesh → SurfMesh} {cls : MgfvCls} :
    (cls = .other ↔ genSphere solve tuples corners faces refine cls r order unit = none) ∧
    ∀ m, genSphere solve tuples corners faces refine cls r order unit = some (.ok m) →
      ∃ m0, (cls = .simplex ∧ genIcosahedron solve tuples r order unit = .ok m0 ∨
        cls = .tensor ∧ genCubeSurface solve tuples corners faces r order unit = .ok m0) ∧
        m.elements = (refine m0).elements ∧ m.vertices.length = (refine m0).vertices.length ∧
        m.nodes.map List.length = (refine m0).nodes.map List.length := by
  refine ⟨by cases cls <;> simp [genSphere], ?_⟩
  intro m h
  cases cls with
  | other => simp [genSphere] at h
  | simplex =>
    simp only [genSphere, Option.some.injEq] at h
    cases hg : genIcosahedron solve tuples r order unit with
    | error e => rw [hg] at h; cases h
    | ok m0 =>
      rw [hg] at h
      cases h
      exact ⟨m0, .inl ⟨rfl, rfl⟩, rfl, by simp [sphereOf], by simp [sphereOf, Function.comp_def]⟩
  | tensor =>
    simp only [genSphere, Option.some.injEq] at h
    cases hg : genCubeSurface solve tuples corners faces r order unit with
    | error e => rw [hg] at h; cases h
    | ok m0 =>
      rw [hg] at h
      cases h
      exact ⟨m0, .inr ⟨rfl, rfl⟩, rfl, by simp [sphereOf], by simp [sphereOf, Function.comp_def]⟩

end

/-! ## Concrete cases -/

open Classical in
/-- A solver that finds a solution whenever there is one. (Example, no code.) -/
noncomputable def exSolveR (M : Mat ℝ) (b : List ℝ) : Option (List ℝ) :=
  if h : ∃ x : List ℝ, x.length = M.length ∧ matVec M x = b then some h.choose else none

theorem exSolveR_sound : SolveSound exSolveR := by
  intro M b x h
  unfold exSolveR at h
  split at h
  · rename_i hx
    cases h
    exact hx.choose_spec
  · cases h

theorem exSolveR_complete (M : Mat ℝ) (b : List ℝ) (hb : b.length = M.length)
    (h : ∀ b' : List ℝ, b'.length = M.length → ∃ x : List ℝ, x.length = M.length ∧ matVec M x = b') :
    (exSolveR M b).isSome = true := by
  unfold exSolveR
  rw [dif_pos (h b hb)]
  rfl

/-- The corners of the cube, in the order of modepy. (Example, no code.) -/
def exCorners : List (List ℝ) :=
  [[-1, -1, -1], [1, -1, -1], [-1, 1, -1], [1, 1, -1], [-1, -1, 1], [1, -1, 1], [-1, 1, 1], [1, 1, 1]]

/-- The faces of the cube. (Example, no code.) -/
def exCubeFaces : List (List Nat) :=
  [[0, 2, 1, 3], [4, 5, 6, 7], [0, 4, 2, 6], [1, 3, 5, 7], [0, 1, 4, 5], [2, 6, 3, 7]]

theorem exCubeShape : CubeShape exCorners exCubeFaces := by
  constructor
  · intro p hp
    simp only [exCorners, List.mem_cons, List.not_mem_nil, or_false] at hp
    rcases hp with rfl | rfl | rfl | rfl | rfl | rfl | rfl | rfl <;> simp
  · intro f hf
    simp only [exCubeFaces, List.mem_cons, List.not_mem_nil, or_false] at hf
    rcases hf with rfl | rfl | rfl | rfl | rfl | rfl
    · exact ⟨rfl, 2, by omega, -1, by simp, by simp [exCorners]⟩
    · exact ⟨rfl, 2, by omega, 1, by simp, by simp [exCorners]⟩
    · exact ⟨rfl, 0, by omega, -1, by simp, by simp [exCorners]⟩
    · exact ⟨rfl, 0, by omega, 1, by simp, by simp [exCorners]⟩
    · exact ⟨rfl, 1, by omega, -1, by simp, by simp [exCorners]⟩
    · exact ⟨rfl, 1, by omega, 1, by simp, by simp [exCorners]⟩

-- The hypotheses of `C72_sphere_unrefined`: the sphere of radius two exists.
example : ∃ m, genSphere exSolveR cubeTuples exCorners exCubeFaces id .simplex 2 1 [[-1, -1], [0, 0]] =
    some (.ok m) := by
  obtain ⟨nodes, hn⟩ := (C71_succeeds (unit := [[-1, -1], [0, 0]]) (vertices := icoVertices 2) (amb := 3)
    (order := 1) (vi := icoTris) (nv := 3) exSolveR_complete (fun d => .refl _)
    (fun t ht => (C72_closed.2.1 t ht).1) .simplex).2
    ⟨fun t ht v hv => by
      rw [(C72_vertices (by norm_num : (0 : ℝ) < 2)).1]; exact (C72_closed.2.1 t ht).2.2 v hv,
     .inl ⟨rfl, by omega, by omega, by simp⟩⟩
  exact ⟨_, by rw [genSphere, genIcosahedron, hn]; rfl⟩

-- The hypotheses of `C72_cube` and `C72_cube_sphere`.
example : ∃ m, genCubeSurface exSolveR cubeTuples exCorners exCubeFaces 2 1 [[-1, -1], [0, 0]] = .ok m := by
  obtain ⟨nodes, hn⟩ := (C71_succeeds (unit := [[-1, -1], [0, 0]]) (order := 1) (amb := 3)
    (vertices := exCorners.map fun p => p.map fun x => x * (2 / ptNorm p))
    (vi := exCubeFaces) (nv := 4) exSolveR_complete (fun d => .refl _)
    (fun t ht => (exCubeShape.face t ht).1) .tensor).2
    ⟨by rw [List.length_map]; decide, .inr ⟨rfl, 2, rfl, by simp⟩⟩
  exact ⟨_, by simp only [genCubeSurface]; rw [hn]; rfl⟩

end Meshmode
