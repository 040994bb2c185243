import Verif.Mesh.Flip
import Verif.Connection.Face
import Mathlib.LinearAlgebra.Matrix.Block
import Mathlib.Algebra.Order.Field.Basic
import Mathlib.Tactic.NormNum
import Mathlib.Tactic.Linarith
import Mathlib.Tactic.LinearCombination
import Mathlib.Tactic.IntervalCases
import Mathlib.Tactic.FieldSimp
import Mathlib.Tactic.Positivity
import Mathlib.Tactic.FinCases
import Mathlib.Algebra.Order.Ring.Rat
import Mathlib.Data.Fin.VecNotation
import Mathlib.LinearAlgebra.Matrix.Notation

/-!
# Element orientation and `force_positive_orientation` (C55)

`find_volume_mesh_element_group_orientation`, `find_volume_mesh_element_orientations`
(meshmode/mesh/processing.py:576-680) and the branch `force_positive_orientation` of `make_mesh`
(meshmode/mesh/__init__.py:1110-1117).  Coordinates are elements of an ordered field: rounding is not
modelled.
-/
namespace Meshmode

/-! ## Model -/

/-- Errors of the functions of this file.
Code: meshmode/mesh/processing.py:587-680, meshmode/mesh/__init__.py:1110-1129. -/
inductive OrientErr where
  /-- `ValueError("Mesh must have vertices to check orientation")` -/
  | noVertices
  /-- `zip(strict=True)` of `base_element_nrs`, which is `[0]`, with no groups -/
  | noGroups
  /-- `NotImplementedError`: not a modepy group -/
  | notImplemented
  /-- `ValueError("can only find orientation of volume meshes")` -/
  | notVolume
  /-- `TypeError` of `reduce` for an empty sequence (dimension zero) -/
  | dimZero
  /-- `IndexError` -/
  | index
  /-- an error of `perform_flips` -/
  | flip (e : FlipErr)
  /-- `InconsistentMeshError("Mesh has negatively oriented elements. …")` -/
  | inconsistent
  deriving DecidableEq, Repr

/-- `grp.vertex_unit_coordinates()` (modepy: the first vertex of a simplex is `(-1, …, -1)`, vertex
`i + 1` has coordinate `i` equal to one), used in meshmode/mesh/processing.py:606-613. -/
def unitVerts : GShape → List (List Int)
  | .simplex n => List.replicate n (-1) :: (List.range n).map fun i => (List.replicate n (-1)).set i 1
  | .tensor uv => uv
  | .other => []

/-- `grp.dim`, meshmode/mesh/__init__.py:247-252. -/
def GShape.dim : GShape → Nat
  | .simplex n => n
  | .tensor uv => (uv.headD []).length
  | .other => 0

/-- `unpack_single(find_point_to_point_mapping(…))` as an index,
meshmode/mesh/processing.py:601-613: the number of the unit vertex; a missing one gives -1, which
means the last.  The point lookup is exact here. -/
def findVertex (uv : List (List Int)) (x : List Int) : Nat := (uv.idxOf? x).getD (uv.length - 1)

section
variable {K : Type} [Field K] {d : Nat}

/-- The sign in front of the determinant, meshmode/mesh/processing.py:638-646: `outer_prod` is the
negative outer product (not in dimension one), which is the determinant times the unit pseudoscalar
`I`, and `I | I` is `(-1)**(d*(d-1)/2)`. -/
def orientSign (d : Nat) : K := (if d = 1 then 1 else -1) * (-1) ^ (d * (d - 1) / 2)

/-- One entry of `my_vertices`, meshmode/mesh/processing.py:594. -/
def rowPoint (vs : List (Fin d → K)) (row : List Nat) (k : Nat) : Option (Fin d → K) :=
  row[k]?.bind fun v => vs[v]?

/-- The orientation of one element, meshmode/mesh/processing.py:594-646. -/
def elemOrient (vs : List (Fin d → K)) (uv : List (List Int)) (row : List Nat) : Option K :=
  (rowPoint vs row (findVertex uv (List.replicate d (-1)))).bind fun p0 =>
    ((List.range d).mapM fun i =>
        rowPoint vs row (findVertex uv ((List.replicate d (-1)).set i 1))).map fun ps =>
      orientSign d * Matrix.det (Matrix.of fun i j : Fin d => (ps.getD i 0) j - p0 j)

/-- `find_volume_mesh_element_group_orientation`, meshmode/mesh/processing.py:576-646.  (The code
looks up all vertices of the elements, the model those it uses.) -/
def groupOrient {N : Type} (shape : Nat → GShape) (vs : List (Fin d → K)) (g : ElGroup N) :
    Except OrientErr (List K) :=
  match shape g.kind with
  | .other => .error .notImplemented
  | s =>
    if s.dim ≠ d then .error .notVolume
    else if d = 0 then .error .dimZero
    else match g.vertexIndices.mapM (elemOrient vs (unitVerts s)) with
      | none => .error .index
      | some l => .ok l

/-- The loop of `find_volume_mesh_element_orientations`, meshmode/mesh/processing.py:661-678; `none`
is NaN, `tol` is `tolerate_unimplemented_checks`. -/
def orientLoop {N : Type} (shape : Nat → GShape) (vs : List (Fin d → K)) (tol : Bool) :
    List (ElGroup N) → Except OrientErr (List (Option K))
  | [] => .ok []
  | g :: rest =>
    match groupOrient shape vs g with
    | .ok l =>
      match orientLoop shape vs tol rest with
      | .ok r => .ok (l.map some ++ r)
      | .error e => .error e
    | .error e =>
      if e = .notImplemented ∧ tol then
        match orientLoop shape vs tol rest with
        | .ok r => .ok (List.replicate g.nelements none ++ r)
        | .error e => .error e
      else .error e

/-- `find_volume_mesh_element_orientations`, meshmode/mesh/processing.py:648-678. -/
def meshOrient {N A : Type} (shape : Nat → GShape) (tol : Bool) (m : FMesh N (Fin d → K) A) :
    Except OrientErr (List (Option K)) :=
  match m.vertices with
  | none => .error .noVertices
  | some vs => if m.groups.isEmpty then .error .noGroups else orientLoop shape vs tol m.groups

variable [LinearOrder K]

/-- `orientations < 0` for one element; comparison with NaN is false,
meshmode/mesh/__init__.py:1114. -/
def negative : Option K → Bool
  | some x => decide (x < 0)
  | none => false

/-- Not rejected by `np.all(area_elements[valid] > 0)`, meshmode/mesh/__init__.py:951-957. -/
def notBad : Option K → Bool
  | some x => decide (0 < x)
  | none => true

/-- `make_mesh` with `force_positive_orientation`, meshmode/mesh/__init__.py:1110-1117, for volume
meshes: `m` is the mesh made from the other arguments.  `perform_flips` makes its result with
`make_mesh`, whose orientation check is included here (meshmode/mesh/__init__.py:946-957); its other
checks are not. -/
def forcePositive {N A : Type} (shape : Nat → GShape) (nodeFlip : Nat → N → N)
    (m : FMesh N (Fin d → K) A) : Except OrientErr (FMesh N (Fin d → K) A) :=
  match meshOrient shape false m with
  | .error e => .error e
  | .ok os =>
    match performFlips shape nodeFlip (os.map negative) m with
    | .error e => .error (.flip e)
    | .ok M =>
      match meshOrient shape true M with
      | .error e => .error e
      | .ok os' => if os'.all notBad then .ok M else .error .inconsistent

end

/-! ## Specification -/

section spec
variable {K : Type} [Field K] {d : Nat}

/-- Unit coordinates as a vector. (Specification or proof vocabulary, no code.) -/
def unitPoint (K : Type) [Field K] (d : Nat) (x : List Int) : Fin d → K := fun i => ((x.getD i 0 : Int) : K)

/-- The vertices `row` of an element are the images of the unit vertices under `x ↦ A x + b`.
(Specification or proof vocabulary, no code.) -/
def AffineElement (vs : List (Fin d → K)) (uv : List (List Int)) (row : List Nat)
    (A : Matrix (Fin d) (Fin d) K) (b : Fin d → K) : Prop :=
  row.length = uv.length ∧ ∀ (k : Nat) x, uv[k]? = some x → ∃ v p, row[k]? = some v ∧
    vs[v]? = some p ∧ p = A.mulVec (unitPoint K d x) + b

/-- A shape of dimension `d` whose unit vertices are distinct, have `d` coordinates and include
those that the code looks for. (Specification or proof vocabulary, no code.) -/
structure GShape.Corners (s : GShape) (d : Nat) : Prop where
  dim : s.dim = d
  nodup : (unitVerts s).Nodup
  base : List.replicate d (-1) ∈ unitVerts s
  span : ∀ i < d, (List.replicate d (-1)).set i 1 ∈ unitVerts s
  len : ∀ x ∈ unitVerts s, x.length = d

end spec

/-! ## Unit vertices of simplices -/

theorem replicate_set_inj {n i j : Nat} (hi : i < n)
    (h : (List.replicate n (-1 : Int)).set i 1 = (List.replicate n (-1)).set j 1) : i = j := by
  have := congrArg (fun l : List Int => l[i]?) h
  simp only [List.getElem?_set, List.length_replicate, List.getElem?_replicate, hi, if_true] at this
  by_contra hne
  rw [if_neg (Ne.symm hne)] at this
  simp at this

theorem simplex_corners (n : Nat) : (GShape.simplex n).Corners n where
  dim := rfl
  nodup := by
    simp only [unitVerts, List.nodup_cons, List.mem_map, List.mem_range, not_exists, not_and]
    constructor
    · intro i hi h
      have := congrArg (fun l : List Int => l[i]?) h
      simp [hi] at this
    · rw [List.nodup_map_iff_inj_on List.nodup_range]
      intro i hi j _ h
      exact replicate_set_inj (List.mem_range.1 hi) h
  base := by simp [unitVerts]
  span := fun i hi => by simp only [unitVerts, List.mem_cons, List.mem_map, List.mem_range]; exact .inr ⟨i, hi, rfl⟩
  len := by
    intro x hx
    simp only [unitVerts, List.mem_cons, List.mem_map, List.mem_range] at hx
    rcases hx with rfl | ⟨i, _, rfl⟩ <;> simp

theorem findVertex_of_mem {uv : List (List Int)} (hn : uv.Nodup) {x : List Int} (h : x ∈ uv) :
    uv[findVertex uv x]? = some x := by
  obtain ⟨i, hi⟩ := List.mem_iff_getElem?.1 h
  have h2 : uv.idxOf? x = some i := by
    obtain ⟨hil, hx⟩ := List.getElem?_eq_some_iff.1 hi
    rw [List.idxOf?_eq_some_iff]
    refine ⟨hil, by simpa using hx, fun k hk hkx => ?_⟩
    have : uv[k] = x := by simpa using hkx
    rw [← hx] at this
    have := (List.Nodup.getElem_inj_iff hn).1 this
    omega
  rw [findVertex, h2]
  exact hi

/-! ## The orientation of an element -/

section
open Matrix
variable {K : Type} [Field K] {d : Nat}

theorem AffineElement.rowPoint {vs : List (Fin d → K)} {uv : List (List Int)} {row : List Nat}
    {A : Matrix (Fin d) (Fin d) K} {b : Fin d → K} (h : AffineElement vs uv row A b)
    (hn : uv.Nodup) {x : List Int} (hx : x ∈ uv) :
    rowPoint vs row (findVertex uv x) = some (A.mulVec (unitPoint K d x) + b) := by
  obtain ⟨v, p, h1, h2, rfl⟩ := h.2 _ _ (findVertex_of_mem hn hx)
  simp [Meshmode.rowPoint, h1, h2]

theorem unitPoint_sub {i j : Fin d} :
    unitPoint K d ((List.replicate d (-1)).set i 1) j - unitPoint K d (List.replicate d (-1)) j =
      if i = j then 2 else 0 := by
  simp only [unitPoint, List.getD_eq_getElem?_getD, List.getElem?_set, List.getElem?_replicate,
    List.length_replicate, j.2, i.2, if_true]
  by_cases h : i = j
  · subst h; norm_num
  · rw [if_neg (fun h' => h (Fin.ext h')), if_neg h]; simp

/-- The number computed for an element that is an affine image of the reference element. -/
theorem elemOrient_affine {s : GShape} (hs : s.Corners d) {vs : List (Fin d → K)} {row : List Nat}
    {A : Matrix (Fin d) (Fin d) K} {b : Fin d → K} (h : AffineElement vs (unitVerts s) row A b) :
    elemOrient vs (unitVerts s) row = some (orientSign d * (2 ^ d * A.det)) := by
  have hps : ((List.range d).mapM fun i =>
      rowPoint vs row (findVertex (unitVerts s) ((List.replicate d (-1)).set i 1))) =
      some ((List.range d).map fun i =>
        A.mulVec (unitPoint K d ((List.replicate d (-1)).set i 1)) + b) :=
    mapM_some_eq_map fun i hi => h.rowPoint hs.nodup (hs.span i (List.mem_range.1 hi))
  rw [elemOrient, h.rowPoint hs.nodup hs.base, Option.bind_some, hps, Option.map_some]
  congr 2
  have hM : (Matrix.of fun i j : Fin d =>
      (((List.range d).map fun i =>
        A.mulVec (unitPoint K d ((List.replicate d (-1)).set i 1)) + b).getD i 0) j -
      (A.mulVec (unitPoint K d (List.replicate d (-1))) + b) j) = (2 : K) • Aᵀ := by
    ext i j
    simp only [Matrix.of_apply, List.getD_eq_getElem?_getD, List.getElem?_map,
      List.getElem?_range i.2, Option.map_some, Option.getD_some, Pi.add_apply, Matrix.smul_apply,
      Matrix.transpose_apply, smul_eq_mul]
    rw [add_sub_add_right_eq_sub]
    simp only [Matrix.mulVec, dotProduct]
    rw [← Finset.sum_sub_distrib]
    simp only [← mul_sub, unitPoint_sub]
    simp [mul_comm]
  rw [hM, Matrix.det_smul, Matrix.det_transpose, Fintype.card_fin]

/-! ## Flipping -/

theorem tensor_perm {uv : List (List Int)} {perm : List Nat}
    (h : flipPermutation (.tensor uv) = .ok perm) : perm.length = uv.length ∧
    ∀ (i j : Nat) x y, perm[i]? = some j → uv[i]? = some x → uv[j]? = some y →
      flipFirst x = some y := by
  simp only [flipPermutation] at h
  split at h
  · simp at h
  · rename_i perm' hp
    simp only [Except.ok.injEq] at h
    subst h
    refine ⟨(mapM_getElem?_some hp).1, fun i j x y hi hx hy => ?_⟩
    rw [mapM_getElem?_bind hp, hx, Option.bind_some] at hi
    obtain ⟨y', hy', hi⟩ := Option.bind_eq_some_iff.1 hi
    rw [List.idxOf?_eq_some_iff] at hi
    obtain ⟨hj, hi, _⟩ := hi
    rw [List.getElem?_eq_getElem hj, Option.some.injEq] at hy
    have : uv[j] = y' := by simpa using hi
    rw [hy', ← this, hy]

/-- The vertex permutation comes from an affine map of the reference element that reverses
orientation. -/
theorem flip_affine {s : GShape} (hs : s.Corners d) {perm : List Nat}
    (hp : flipPermutation s = .ok perm) :
    perm.length = (unitVerts s).length ∧ ∃ (L : Matrix (Fin d) (Fin d) K) (t : Fin d → K),
      L.det = -1 ∧ ∀ (i j : Nat) x y, perm[i]? = some j → (unitVerts s)[i]? = some x →
        (unitVerts s)[j]? = some y → unitPoint K d x = L.mulVec (unitPoint K d y) + t := by
  match s, hs, hp with
  | .simplex (n + 1), hs, hp =>
    obtain rfl : n + 1 = d := hs.dim
    simp only [flipPermutation, Except.ok.injEq] at hp
    subst hp
    refine ⟨by simp [unitVerts], Matrix.updateRow 1 0 fun _ => -1, fun i => if i = 0 then 1 - (n + 1) else 0, ?_, ?_⟩
    · rw [Matrix.det_of_isUpperTriangular]
      · rw [Fin.prod_univ_succ]
        simp [Matrix.updateRow_ne, Fin.succ_ne_zero]
      · intro i j hij
        have hij : j < i := hij
        have hi : i ≠ 0 := by rintro rfl; exact absurd hij (by simp)
        rw [Matrix.updateRow_ne hi]
        exact Matrix.one_apply_ne (ne_of_gt hij)
    · intro i j x y hi hx hy
      have hrep : ∀ k : Fin (n + 1), unitPoint K (n + 1) (List.replicate (n + 1) (-1)) k = -1 := by
        intro k
        have := k.2
        simp only [unitPoint, List.getD_eq_getElem?_getD, List.getElem?_replicate, this, if_true]
        simp
      have hset : ∀ i k : Fin (n + 1),
          unitPoint K (n + 1) ((List.replicate (n + 1) (-1)).set i 1) k =
            -1 + if i = k then 2 else 0 := by
        intro i k
        rw [← unitPoint_sub, hrep]
        ring
      have hL : ∀ u : Fin (n + 1) → K, ∀ k,
          (Matrix.updateRow (1 : Matrix (Fin (n + 1)) (Fin (n + 1)) K) 0 (fun _ => -1)).mulVec u k =
            if k = 0 then -∑ l, u l else u k := by
        intro u k
        by_cases hk : k = 0
        · subst hk
          simp [Matrix.mulVec, dotProduct]
        · simp only [Matrix.mulVec, dotProduct, Matrix.updateRow_ne hk, if_neg hk]
          simp [Matrix.one_apply]
      ext k
      rw [Pi.add_apply, hL]
      have hs1 : ∀ i : Nat, (h : i < n + 1) → (unitVerts (.simplex (n + 1)))[i + 1]? =
          some ((List.replicate (n + 1) (-1)).set i 1) := by
        intro i h
        simp [unitVerts, h]
      match i with
      | 0 =>
        simp only [List.getElem?_cons_zero, Option.some.injEq] at hi
        subst hi
        rw [hs1 0 (by omega)] at hy
        obtain rfl := Option.some.inj hy
        obtain rfl : List.replicate (n + 1) (-1) = x := Option.some.inj hx
        have h0 := hset 0
        simp only [Fin.val_zero] at h0
        simp only [hrep, h0, Finset.sum_add_distrib]
        by_cases hk : k = 0
        · simp [hk]; ring
        · simp [hk, Ne.symm hk]
      | 1 =>
        simp only [List.getElem?_cons_succ, List.getElem?_cons_zero, Option.some.injEq] at hi
        subst hi
        rw [hs1 0 (by omega)] at hx
        obtain rfl := Option.some.inj hx
        obtain rfl : List.replicate (n + 1) (-1) = y := Option.some.inj hy
        have h0 := hset 0
        simp only [Fin.val_zero] at h0
        simp only [hrep, h0]
        by_cases hk : k = 0
        · simp [hk]; ring
        · simp [hk, Ne.symm hk]
      | i + 2 =>
        simp only [List.getElem?_cons_succ] at hi
        obtain ⟨hlt, hj⟩ := List.getElem?_eq_some_iff.1 hi
        rw [List.getElem_range'] at hj
        rw [List.length_range'] at hlt
        obtain rfl : j = i + 2 := by omega
        rw [hs1 (i + 1) (by omega)] at hx hy
        obtain rfl := Option.some.inj hx
        obtain rfl := Option.some.inj hy
        have h0 := hset ⟨i + 1, by omega⟩
        simp only at h0
        simp only [h0, Finset.sum_add_distrib]
        by_cases hk : k = 0
        · subst hk
          simp
          ring
        · simp [hk]
  | .tensor uv, hs, hp =>
    obtain ⟨hlen, hperm⟩ := tensor_perm hp
    refine ⟨hlen, ?_⟩
    cases d with
    | zero =>
      have hb : [] ∈ uv := hs.base
      obtain ⟨i, hi⟩ := List.mem_iff_getElem?.1 hb
      exfalso
      simp only [flipPermutation] at hp
      split at hp
      · simp at hp
      · rename_i perm' hp'
        have := mapM_getElem?_bind hp' i
        have hlt : i < perm'.length := by
          rw [(mapM_getElem?_some hp').1]; exact (List.getElem?_eq_some_iff.1 hi).1
        rw [hi, Option.bind_some, List.getElem?_eq_getElem hlt] at this
        simp [flipFirst] at this
    | succ n =>
      refine ⟨Matrix.diagonal fun i => if i = 0 then -1 else 1, 0, ?_, ?_⟩
      · rw [Matrix.det_diagonal, Fin.prod_univ_succ]
        simp [Fin.succ_ne_zero]
      · intro i j x y hi hx hy
        have hf := hperm i j x y hi hx hy
        match x, hf with
        | a :: xs, hf =>
          simp only [flipFirst, Option.some.injEq] at hf
          subst hf
          ext k
          rw [Pi.add_apply, Matrix.mulVec_diagonal]
          rcases Fin.eq_zero_or_eq_succ k with rfl | ⟨k, rfl⟩
          · simp [unitPoint]
          · simp [unitPoint, Fin.succ_ne_zero]

theorem GShape.Corners.ok {s : GShape} (hs : s.Corners d) : s.OK := by
  cases s with
  | tensor uv => exact hs.nodup
  | _ => trivial

/-- A flipped affine element is affine, and its determinant has the opposite sign. -/
theorem AffineElement.flip {s : GShape} (hs : s.Corners d) {perm : List Nat}
    (hp : flipPermutation s = .ok perm) {vs : List (Fin d → K)} {row : List Nat}
    {A : Matrix (Fin d) (Fin d) K} {b : Fin d → K} (h : AffineElement vs (unitVerts s) row A b) :
    ∃ A' b', AffineElement vs (unitVerts s) (flipRow perm row) A' b' ∧ A'.det = - A.det := by
  obtain ⟨hlen, L, t, hL, hu⟩ := flip_affine (K := K) hs hp
  have hi := flipPermutation_invol hs.ok hp
  refine ⟨A * L, A.mulVec t + b, ⟨by rw [length_flipRow, h.1], fun j y hy => ?_⟩,
    by rw [Matrix.det_mul, hL]; ring⟩
  have hj : j < perm.length := hlen ▸ (List.getElem?_eq_some_iff.1 hy).1
  obtain ⟨i, hij⟩ := hi.total hj
  have hil : i < (unitVerts s).length := hlen ▸ (List.getElem?_eq_some_iff.1 hij).1
  obtain ⟨v, p, h1, h2, h3⟩ := h.2 i _ (List.getElem?_eq_getElem hil)
  refine ⟨v, p, ?_, h2, ?_⟩
  · rw [flipRow_getElem? hi (by rw [h.1, hlen]) hij, h1]
  · rw [h3, hu i j _ y hij (List.getElem?_eq_getElem hil) hy, Matrix.mulVec_add,
      Matrix.mulVec_mulVec, add_assoc]

/-- Every simplex with vertices in the mesh is an affine image of the reference simplex. -/
theorem simplex_affine (h2 : (2 : K) ≠ 0) {vs : List (Fin d → K)} {row : List Nat}
    (hl : row.length = d + 1) (hv : ∀ v ∈ row, v < vs.length) :
    ∃ A b, AffineElement vs (unitVerts (.simplex d)) row A b := by
  let p : Nat → Fin d → K := fun k => (rowPoint vs row k).getD 0
  have hrp : ∀ k, k < row.length → ∃ v, row[k]? = some v ∧ vs[v]? = some (p k) := by
    intro k hk
    have hvk := hv _ (List.getElem_mem hk)
    refine ⟨row[k], List.getElem?_eq_getElem hk, ?_⟩
    simp [p, rowPoint, List.getElem?_eq_getElem hk, List.getElem?_eq_getElem hvk]
  let A : Matrix (Fin d) (Fin d) K := Matrix.of fun j i => (p (i + 1) j - p 0 j) / 2
  let b : Fin d → K := p 0 - A.mulVec fun _ => -1
  have hrep : unitPoint K d (List.replicate d (-1)) = fun _ => -1 := by
    ext k
    have := k.2
    simp only [unitPoint, List.getD_eq_getElem?_getD, List.getElem?_replicate, this, if_true]
    simp
  refine ⟨A, b, by simp [unitVerts, hl], fun k x hx => ?_⟩
  have hk : k < d + 1 := by
    have := (List.getElem?_eq_some_iff.1 hx).1
    simpa [unitVerts] using this
  obtain ⟨v, h1, h3⟩ := hrp k (by omega)
  refine ⟨v, p k, h1, h3, ?_⟩
  cases k with
  | zero =>
    obtain rfl : List.replicate d (-1) = x := Option.some.inj hx
    rw [hrep]
    simp [b]
  | succ k =>
    have hkd : k < d := by omega
    have hx' : (unitVerts (.simplex d))[k + 1]? = some ((List.replicate d (-1)).set k 1) := by
      simp [unitVerts, hkd]
    rw [hx'] at hx
    obtain rfl := Option.some.inj hx
    have hset : unitPoint K d ((List.replicate d (-1)).set k 1) =
        (fun _ => -1) + Pi.single (⟨k, hkd⟩ : Fin d) 2 := by
      ext j
      have := unitPoint_sub (K := K) (i := (⟨k, hkd⟩ : Fin d)) (j := j)
      rw [hrep] at this
      simp only [Pi.add_apply, Pi.single_apply]
      simp only [eq_comm (a := (⟨k, hkd⟩ : Fin d)) (b := j)] at this
      linear_combination this
    rw [hset, Matrix.mulVec_add, Matrix.mulVec_single]
    ext j
    simp only [b, A, Pi.add_apply, Pi.sub_apply]
    simp
    field_simp
    ring

/-- C55: a flip reverses the reported orientation of an affine element. -/
theorem C55_flip_reverses {s : GShape} (hs : s.Corners d) {perm : List Nat}
    (hp : flipPermutation s = .ok perm) {vs : List (Fin d → K)} {row : List Nat}
    {A : Matrix (Fin d) (Fin d) K} {b : Fin d → K} (h : AffineElement vs (unitVerts s) row A b) :
    ∃ o, elemOrient vs (unitVerts s) row = some o ∧
      elemOrient vs (unitVerts s) (flipRow perm row) = some (-o) := by
  obtain ⟨A', b', h', hdet⟩ := h.flip hs hp
  refine ⟨_, elemOrient_affine hs h, ?_⟩
  rw [elemOrient_affine hs h', hdet]
  congr 1
  ring

variable [LinearOrder K] [IsStrictOrderedRing K]

/-- C55: in dimensions one to three the number reported for an element is positive exactly when the
element is a positively oriented image of the reference element, and negative exactly when the
image is negatively oriented. -/
theorem C55_orientation_exact (hd : 1 ≤ d) (hd3 : d ≤ 3) {s : GShape} (hs : s.Corners d)
    {vs : List (Fin d → K)} {row : List Nat} {A : Matrix (Fin d) (Fin d) K} {b : Fin d → K}
    (h : AffineElement vs (unitVerts s) row A b) :
    ∃ o, elemOrient vs (unitVerts s) row = some o ∧ (0 < o ↔ 0 < A.det) ∧ (o < 0 ↔ A.det < 0) := by
  refine ⟨_, elemOrient_affine hs h, ?_⟩
  have hsign : orientSign (K := K) d = 1 := by
    interval_cases d <;> norm_num [orientSign]
  rw [hsign, one_mul]
  have h2 : (0 : K) < 2 ^ d := by positivity
  exact ⟨by rw [mul_pos_iff_of_pos_left h2], by
    rw [← not_le, ← not_le, mul_nonneg_iff_of_pos_left h2]⟩

/-! ## The whole mesh -/

omit [LinearOrder K] [IsStrictOrderedRing K] in
theorem orientLoop_iff {N : Type} (shape : Nat → GShape) (vs : List (Fin d → K)) (tol : Bool)
    (groups : List (ElGroup N)) (os : List (Option K)) :
    orientLoop shape vs tol groups = .ok os ↔ ∃ parts : List (List (Option K)), os = parts.flatten ∧
      List.Forall₂ (fun g part =>
        (shape g.kind ≠ .other ∧ (shape g.kind).dim = d ∧ d ≠ 0 ∧ part.length = g.vertexIndices.length ∧
          ∀ (e : Nat) row, g.vertexIndices[e]? = some row → ∃ o,
            elemOrient vs (unitVerts (shape g.kind)) row = some o ∧ part[e]? = some (some o)) ∨
        (tol = true ∧ shape g.kind = .other ∧ part = List.replicate g.nelements none)) groups parts := by
  have hgrp : ∀ (g : ElGroup N) l, groupOrient shape vs g = .ok l ↔
      (shape g.kind ≠ .other ∧ (shape g.kind).dim = d ∧ d ≠ 0 ∧
        (l.map some).length = g.vertexIndices.length ∧ ∀ (e : Nat) row, g.vertexIndices[e]? = some row →
        ∃ o, elemOrient vs (unitVerts (shape g.kind)) row = some o ∧ (l.map some)[e]? = some (some o)) := by
    intro g l
    have hm : ∀ s : GShape, s ≠ .other → (groupOrient shape vs g = .ok l ↔ s.dim = d ∧ d ≠ 0 ∧
        g.vertexIndices.mapM (elemOrient vs (unitVerts s)) = some l) ∨ shape g.kind ≠ s := by
      intro s hs
      by_cases hsk : shape g.kind = s
      · left
        unfold groupOrient
        rw [hsk]
        cases s with
        | other => exact absurd rfl hs
        | simplex k =>
          simp only
          split
          · rename_i h
            simp [h]
          · rename_i h
            split
            · rename_i h0
              simp [h0]
            · rename_i h0
              cases g.vertexIndices.mapM (elemOrient vs (unitVerts (.simplex k))) with
              | none => simp
              | some l' => simp [h0, not_not.1 h]
        | tensor k =>
          simp only
          split
          · rename_i h
            simp [h]
          · rename_i h
            split
            · rename_i h0
              simp [h0]
            · rename_i h0
              cases g.vertexIndices.mapM (elemOrient vs (unitVerts (.tensor k))) with
              | none => simp
              | some l' => simp [h0, not_not.1 h]
      · exact .inr hsk
    by_cases ho : shape g.kind = .other
    · simp [groupOrient, ho]
    · rw [(hm _ ho).resolve_right (by simp)]
      simp only [ne_eq, ho, not_false_eq_true, true_and, List.length_map, List.getElem?_map,
        Option.map_eq_some_iff, Option.some.injEq, exists_eq_right]
      constructor
      · rintro ⟨h1, h2, h3⟩
        obtain ⟨h4, h5⟩ := mapM_getElem?_some h3
        exact ⟨h1, h2, h4, fun e row hrow => by
          obtain ⟨o, h6, h7⟩ := h5 e row hrow
          exact ⟨o, h7, h6⟩⟩
      · rintro ⟨h1, h2, h3, h4⟩
        refine ⟨h1, h2, ?_⟩
        have hex : ∃ l', g.vertexIndices.mapM (elemOrient vs (unitVerts (shape g.kind))) = some l' :=
          mapM_isSome_of fun row hrow => by
            obtain ⟨e, he⟩ := List.mem_iff_getElem?.1 hrow
            obtain ⟨o, h5, _⟩ := h4 e row he
            exact ⟨o, h5⟩
        obtain ⟨l', hl'⟩ := hex
        rw [hl', Option.some.injEq]
        obtain ⟨h5, h6⟩ := mapM_getElem?_some hl'
        apply List.ext_getElem?
        intro e
        by_cases he : e < g.vertexIndices.length
        · obtain ⟨o, h7, h8⟩ := h4 e _ (List.getElem?_eq_getElem he)
          obtain ⟨o', h9, h10⟩ := h6 e _ (List.getElem?_eq_getElem he)
          rw [h7, Option.some.injEq] at h10
          rw [h8, h9, h10]
        · rw [List.getElem?_eq_none (by omega), List.getElem?_eq_none (by omega)]
  have hni : ∀ (g : ElGroup N), groupOrient shape vs g = .error .notImplemented ↔ shape g.kind = .other := by
    intro g
    unfold groupOrient
    cases shape g.kind with
    | other => simp
    | simplex k =>
      simp only [reduceCtorEq, iff_false]
      split
      · simp
      · split
        · simp
        · split <;> simp
    | tensor k =>
      simp only [reduceCtorEq, iff_false]
      split
      · simp
      · split
        · simp
        · split <;> simp
  induction groups generalizing os with
  | nil =>
    simp only [orientLoop, Except.ok.injEq, List.forall₂_nil_left_iff]
    constructor
    · rintro rfl
      exact ⟨[], rfl, rfl⟩
    · rintro ⟨parts, rfl, rfl⟩
      rfl
  | cons g rest ih =>
    simp only [List.forall₂_cons_left_iff]
    cases hg : groupOrient shape vs g with
    | ok l =>
      have hl := (hgrp g l).1 hg
      rw [orientLoop, hg]
      simp only
      constructor
      · intro h
        cases hr : orientLoop shape vs tol rest with
        | error e => simp [hr] at h
        | ok r =>
          simp only [hr, Except.ok.injEq] at h
          obtain ⟨parts, hp, hF⟩ := (ih r).1 hr
          exact ⟨l.map some :: parts, by rw [← h, hp]; rfl, l.map some, parts, .inl hl, hF, rfl⟩
      · rintro ⟨_, rfl, part, parts, hpart, hF, rfl⟩
        have hpl : part = l.map some := by
          rcases hpart with ⟨_, _, _, h4, h5⟩ | ⟨_, h2, _⟩
          · apply List.ext_getElem?
            intro e
            by_cases he : e < g.vertexIndices.length
            · obtain ⟨o, h7, h8⟩ := h5 e _ (List.getElem?_eq_getElem he)
              obtain ⟨o', h9, h10⟩ := hl.2.2.2.2 e _ (List.getElem?_eq_getElem he)
              rw [h7, Option.some.injEq] at h9
              rw [h8, h10, h9]
            · have := hl.2.2.2.1
              rw [List.getElem?_eq_none (by omega), List.getElem?_eq_none (by omega)]
          · exact absurd h2 hl.1
        rw [(ih parts.flatten).2 ⟨parts, rfl, hF⟩, hpl]
        rfl
    | error e =>
      rw [orientLoop, hg]
      simp only
      constructor
      · intro h
        split at h
        · rename_i hc
          rw [hc.1] at hg
          cases hr : orientLoop shape vs tol rest with
          | error e => simp [hr] at h
          | ok r =>
            simp only [hr, Except.ok.injEq] at h
            obtain ⟨parts, hp, hF⟩ := (ih r).1 hr
            exact ⟨List.replicate g.nelements none :: parts, by rw [← h, hp]; rfl, _, parts,
              .inr ⟨hc.2, (hni g).1 hg, rfl⟩, hF, rfl⟩
        · simp at h
      · rintro ⟨_, rfl, part, parts, hpart, hF, rfl⟩
        rcases hpart with h1 | ⟨h1, h2, h3⟩
        · exfalso
          obtain ⟨q1, q2, q3, q4, q5⟩ := h1
          have hex : ∃ l', g.vertexIndices.mapM (elemOrient vs (unitVerts (shape g.kind))) = some l' :=
            mapM_isSome_of fun row hrow => by
              obtain ⟨e, he⟩ := List.mem_iff_getElem?.1 hrow
              obtain ⟨o, h5, _⟩ := q5 e row he
              exact ⟨o, h5⟩
          obtain ⟨l', hl'⟩ := hex
          obtain ⟨h5, h6⟩ := mapM_getElem?_some hl'
          have := (hgrp g l').2 ⟨q1, q2, q3, by simpa using h5, fun e row hrow => by
            obtain ⟨o, h7, h8⟩ := h6 e row hrow
            exact ⟨o, h8, by simp [h7]⟩⟩
          rw [hg] at this
          simp at this
        · have he : e = .notImplemented := by
            have := (hni g).2 h2
            rw [hg] at this
            simpa using this
          rw [if_pos ⟨he, h1⟩, (ih parts.flatten).2 ⟨parts, rfl, hF⟩, h3]
          rfl

omit [LinearOrder K] [IsStrictOrderedRing K] in
/-- C55: `find_volume_mesh_element_orientations` returns one number for each element, group by group;
groups of unknown element types give NaN, and only if that is asked for, otherwise they raise. -/
theorem C55_orientations {N A : Type} (shape : Nat → GShape) (tol : Bool) (m : FMesh N (Fin d → K) A)
    (os : List (Option K)) :
    meshOrient shape tol m = .ok os ↔ m.groups ≠ [] ∧ ∃ vs, m.vertices = some vs ∧
      ∃ parts : List (List (Option K)), os = parts.flatten ∧ List.Forall₂ (fun g part =>
        (shape g.kind ≠ .other ∧ (shape g.kind).dim = d ∧ d ≠ 0 ∧ part.length = g.vertexIndices.length ∧
          ∀ (e : Nat) row, g.vertexIndices[e]? = some row → ∃ o,
            elemOrient vs (unitVerts (shape g.kind)) row = some o ∧ part[e]? = some (some o)) ∨
        (tol = true ∧ shape g.kind = .other ∧ part = List.replicate g.nelements none)) m.groups parts := by
  unfold meshOrient
  cases m.vertices with
  | none => simp
  | some vs =>
    simp only [Option.some.injEq, exists_eq_left']
    by_cases h : m.groups = []
    · simp [h]
    · rw [if_neg (by simpa using h), orientLoop_iff]
      simp [h]

omit [LinearOrder K] [IsStrictOrderedRing K] in
theorem GShape.Corners.not_other {s : GShape} (hs : s.Corners d) : s ≠ .other := by
  rintro rfl
  exact absurd hs.base (by simp [unitVerts])

omit [LinearOrder K] [IsStrictOrderedRing K] in
theorem groupOrient_ok {N : Type} {shape : Nat → GShape} {vs : List (Fin d → K)} {g : ElGroup N}
    (hd : d ≠ 0) (hs : (shape g.kind).Corners d)
    (h : ∀ row ∈ g.vertexIndices, ∃ o, elemOrient vs (unitVerts (shape g.kind)) row = some o) :
    ∃ l, groupOrient shape vs g = .ok l ∧
      l.map some = g.vertexIndices.map (elemOrient vs (unitVerts (shape g.kind))) := by
  have hm := mapM_some_eq_map (f := elemOrient vs (unitVerts (shape g.kind)))
    (g := fun row => (elemOrient vs (unitVerts (shape g.kind)) row).getD 0)
    (l := g.vertexIndices) fun row hrow => by
      obtain ⟨o, ho⟩ := h row hrow
      rw [ho]; rfl
  refine ⟨g.vertexIndices.map fun row => (elemOrient vs (unitVerts (shape g.kind)) row).getD 0,
    ?_, ?_⟩
  · unfold groupOrient
    split
    · rename_i heq; exact absurd heq hs.not_other
    · rw [if_neg (by simp [hs.dim]), if_neg hd, hm]
  · rw [List.map_map]
    exact List.map_congr_left fun row hrow => by
      obtain ⟨o, ho⟩ := h row hrow
      simp only [Function.comp, ho]; rfl

omit [LinearOrder K] [IsStrictOrderedRing K] in
theorem orientLoop_ok {N : Type} {shape : Nat → GShape} {vs : List (Fin d → K)} (tol : Bool)
    {groups : List (ElGroup N)} (hd : d ≠ 0) (hs : ∀ g ∈ groups, (shape g.kind).Corners d)
    (h : ∀ g ∈ groups, ∀ row ∈ g.vertexIndices,
      ∃ o, elemOrient vs (unitVerts (shape g.kind)) row = some o) :
    orientLoop shape vs tol groups = .ok (groups.flatMap fun g =>
      g.vertexIndices.map (elemOrient vs (unitVerts (shape g.kind)))) := by
  induction groups with
  | nil => rfl
  | cons g rest ih =>
    obtain ⟨l, h1, h2⟩ := groupOrient_ok hd (hs g List.mem_cons_self) (h g List.mem_cons_self)
    rw [orientLoop, h1, ih (fun x hx => hs x (List.mem_cons_of_mem _ hx))
      fun x hx => h x (List.mem_cons_of_mem _ hx)]
    simp only [List.flatMap_cons, h2]

/-- `perform_flips` succeeds when the mesh has vertices and groups, there is one flag per element
and every group can be flipped. -/
theorem C45_defined {N P A : Type} {shape : Nat → GShape} {nodeFlip : Nat → N → N}
    {flags : List Bool} {m : FMesh N P A} {vs : List P} (hv : m.vertices = some vs)
    (hne : m.groups ≠ []) (hf : flags.length = (m.groups.map ElGroup.nelements).sum)
    (hp : ∀ g ∈ m.groups, ∃ perm, flipPermutation (shape g.kind) = .ok perm) :
    ∃ M, performFlips shape nodeFlip flags m = .ok M := by
  obtain ⟨gs, hgs⟩ : ∃ gs, flipLoop shape nodeFlip flags
      ((baseElementNrs (m.groups.map ElGroup.nelements)).zip m.groups) = .ok gs := by
    refine flipLoop_defined fun p hpz => ?_
    obtain ⟨i, hi⟩ := List.mem_iff_getElem?.1 hpz
    obtain ⟨b, g⟩ := p
    rw [List.getElem?_zip_eq_some (z := (b, g))] at hi
    have hil : i < m.groups.length := (List.getElem?_eq_some_iff.1 hi.2).1
    rw [baseElementNrs_getElem? _ _ (by simpa using hil), Option.some.injEq] at hi
    obtain ⟨perm, hperm⟩ := hp g (List.mem_of_getElem? hi.2)
    have hsum : ((m.groups.map ElGroup.nelements).take i).sum + g.nelements ≤ flags.length := by
      rw [hf]
      conv_rhs => rw [← List.take_append_drop i (m.groups.map ElGroup.nelements), List.sum_append]
      refine Nat.add_le_add_left (List.le_sum_of_mem ?_) _
      rw [← List.map_drop]
      exact List.mem_map_of_mem (List.mem_of_getElem? (i := 0) (by simpa using hi.2))
    unfold flipStep
    simp only [hperm]
    split
    · rw [if_neg]
      · exact ⟨_, rfl⟩
      · simp only [List.length_take, List.length_drop]
        have := hi.1
        simp only at this
        omega
    · exact ⟨_, rfl⟩
  refine ⟨⟨m.ambientDim, some vs, gs,
    LazyMesh.make completeFacial true m.lazy.conforming .missing .missing⟩, ?_⟩
  unfold performFlips
  rw [hv]
  simp only
  rw [if_neg (by simpa using hne), hgs]

/-- A mesh of affine elements that are not degenerate, on which the orientation can be computed.
(Specification or proof vocabulary, no code.) -/
structure AffineMesh {N A : Type} (shape : Nat → GShape) (vs : List (Fin d → K))
    (m : FMesh N (Fin d → K) A) : Prop where
  vertices : m.vertices = some vs
  groups : m.groups ≠ []
  rows : ∀ g ∈ m.groups, g.vertexIndices.length = g.nodes.length
  corners : ∀ g ∈ m.groups, (shape g.kind).Corners d
  flips : ∀ g ∈ m.groups, ∃ perm, flipPermutation (shape g.kind) = .ok perm
  affine : ∀ g ∈ m.groups, ∀ row ∈ g.vertexIndices, ∃ A b,
    AffineElement vs (unitVerts (shape g.kind)) row A b ∧ A.det ≠ 0

/-- C55: on a volume mesh of affine elements (all simplices are), dimension one to three, without
degenerate elements, `make_mesh` with `force_positive_orientation` succeeds.  It keeps vertices and
groups; elements with positive orientation are unchanged; the others are flipped, which keeps their
set of vertices; afterwards every element has positive orientation.

Missing: elements that are not affine images of the reference element, see
`C55_not_affine_counterexample`; the checks of nodes and data types. -/
theorem C55_force_positive_partial {N A : Type} {shape : Nat → GShape} {nodeFlip : Nat → N → N}
    {vs : List (Fin d → K)} {m : FMesh N (Fin d → K) A} (hd : 1 ≤ d) (hd3 : d ≤ 3)
    (hm : AffineMesh shape vs m) :
    ∃ M, forcePositive shape nodeFlip m = .ok M ∧ M.vertices = some vs ∧
      M.ambientDim = m.ambientDim ∧ M.groups.length = m.groups.length ∧
      ∀ (g : Nat) grp, m.groups[g]? = some grp → ∃ grp', M.groups[g]? = some grp' ∧
        grp'.kind = grp.kind ∧ grp'.fvi = grp.fvi ∧ grp'.nodes.length = grp.nodes.length ∧
        grp'.vertexIndices.length = grp.vertexIndices.length ∧
        ∀ (e : Nat) row nd A b, grp.vertexIndices[e]? = some row → grp.nodes[e]? = some nd →
          AffineElement vs (unitVerts (shape grp.kind)) row A b →
          ∃ row' nd' A' b', grp'.vertexIndices[e]? = some row' ∧ grp'.nodes[e]? = some nd' ∧
            AffineElement vs (unitVerts (shape grp.kind)) row' A' b' ∧ 0 < A'.det ∧
            row'.Perm row ∧ (0 < A.det → row' = row ∧ nd' = nd) ∧
            (A.det < 0 → nd' = nodeFlip grp.kind nd ∧
              ∃ perm, flipPermutation (shape grp.kind) = .ok perm ∧ row' = flipRow perm row) := by
  have hel : ∀ g ∈ m.groups, ∀ row ∈ g.vertexIndices,
      ∃ o, elemOrient vs (unitVerts (shape g.kind)) row = some o := fun g hg row hrow => by
    obtain ⟨A, b, h, _⟩ := hm.affine g hg row hrow
    exact ⟨_, elemOrient_affine (hm.corners g hg) h⟩
  have hos := orientLoop_ok (vs := vs) false (by omega) hm.corners hel
  have hos' : meshOrient shape false m = .ok (m.groups.flatMap fun g =>
      g.vertexIndices.map (elemOrient vs (unitVerts (shape g.kind)))) := by
    rw [meshOrient, hm.vertices]
    simp only
    rw [if_neg (by simpa using hm.groups), hos]
  generalize hOS : (m.groups.flatMap fun g =>
      g.vertexIndices.map (elemOrient vs (unitVerts (shape g.kind)))) = os at hos'
  have hflag : ∀ (g : Nat) grp, m.groups[g]? = some grp → ∀ (e : Nat) row,
      grp.vertexIndices[e]? = some row →
      (os.map negative)[firstElement m.groups g + e]? =
        some (negative (elemOrient vs (unitVerts (shape grp.kind)) row)) := by
    intro g grp hg e row hrow
    have he := (List.getElem?_eq_some_iff.1 hrow).1
    have := flatMap_getElem?_offset (fun g : ElGroup N =>
      g.vertexIndices.map (elemOrient vs (unitVerts (shape g.kind)))) m.groups g grp hg e
      (by simpa using he)
    rw [hOS] at this
    have hfe : firstElement m.groups g = ((m.groups.take g).map fun a : ElGroup N =>
        (a.vertexIndices.map (elemOrient vs (unitVerts (shape a.kind)))).length).sum := by
      unfold firstElement
      congr 1
      refine List.map_congr_left fun a ha => ?_
      rw [List.length_map, hm.rows a (List.mem_of_mem_take ha)]
    rw [List.getElem?_map, hfe, this, List.getElem?_map, hrow]
    rfl
  obtain ⟨M, hM⟩ := C45_defined (shape := shape) (nodeFlip := nodeFlip) (flags := os.map negative)
    hm.vertices hm.groups (by
      rw [List.length_map, ← hOS, List.length_flatMap]
      congr 1
      refine List.map_congr_left fun a ha => ?_
      rw [List.length_map, hm.rows a ha]; rfl) hm.flips
  obtain ⟨hv, hamb, hlen, hgr⟩ := C45_flags hm.rows hM
  have key : ∀ (g : Nat) grp, m.groups[g]? = some grp → ∃ grp', M.groups[g]? = some grp' ∧
        grp'.kind = grp.kind ∧ grp'.fvi = grp.fvi ∧ grp'.nodes.length = grp.nodes.length ∧
        grp'.vertexIndices.length = grp.vertexIndices.length ∧
        ∀ (e : Nat) row nd A b, grp.vertexIndices[e]? = some row → grp.nodes[e]? = some nd →
          AffineElement vs (unitVerts (shape grp.kind)) row A b →
          ∃ row' nd' A' b', grp'.vertexIndices[e]? = some row' ∧ grp'.nodes[e]? = some nd' ∧
            AffineElement vs (unitVerts (shape grp.kind)) row' A' b' ∧ 0 < A'.det ∧
            row'.Perm row ∧ (0 < A.det → row' = row ∧ nd' = nd) ∧
            (A.det < 0 → nd' = nodeFlip grp.kind nd ∧
              ∃ perm, flipPermutation (shape grp.kind) = .ok perm ∧ row' = flipRow perm row) := by
    intro g grp hg
    have hgm := List.mem_of_getElem? hg
    have hc := hm.corners grp hgm
    obtain ⟨grp', h1, h2, h3, h4, h5, h6⟩ := hgr g grp hg
    refine ⟨grp', h1, h2, h3, h4, h5, fun e row nd A b hrow hnd hA => ?_⟩
    obtain ⟨row', nd', h7, h8, h9⟩ := h6 e row nd hrow hnd
    obtain ⟨o, ho, hop, hon⟩ := C55_orientation_exact hd hd3 hc hA
    have hdet : A.det ≠ 0 := by
      obtain ⟨A2, b2, hA2, hdet⟩ := hm.affine grp hgm row (List.mem_of_getElem? hrow)
      obtain ⟨o2, ho2, hop2, hon2⟩ := C55_orientation_exact hd hd3 hc hA2
      rw [ho, Option.some.injEq] at ho2
      subst ho2
      intro h0
      rcases lt_or_gt_of_ne hdet with hlt | hgt
      · have := hon.1 (hon2.2 hlt)
        exact absurd this (by rw [h0]; exact lt_irrefl _)
      · have := hop.1 (hop2.2 hgt)
        exact absurd this (by rw [h0]; exact lt_irrefl _)
    rw [hflag g grp hg e row hrow, ho] at h9
    simp only [Option.getD_some, negative] at h9
    by_cases hneg : A.det < 0
    · rw [decide_eq_true (hon.2 hneg)] at h9
      simp only [ElemFlipped, if_true] at h9
      obtain ⟨perm, hp, rfl, rfl⟩ := h9
      obtain ⟨A', b', hA', hdet'⟩ := hA.flip hc hp
      have hpl := (flip_affine (K := K) hc hp).1
      refine ⟨_, _, A', b', h7, h8, hA', by rw [hdet']; linarith,
        flipRow_perm (flipPermutation_invol hc.ok hp) (by rw [hA.1, hpl]),
        fun hpos => absurd hpos (by linarith), fun _ => ⟨rfl, perm, hp, rfl⟩⟩
    · rw [decide_eq_false (fun h => hneg (hon.1 h))] at h9
      simp only [ElemFlipped, Bool.false_eq_true, if_false] at h9
      obtain ⟨rfl, rfl⟩ := h9
      refine ⟨_, _, A, b, h7, h8, hA, ?_, List.Perm.refl _, fun _ => ⟨rfl, rfl⟩,
        fun h => absurd h hneg⟩
      exact lt_of_le_of_ne (not_lt.1 hneg) (Ne.symm hdet)
  have hMrow : ∀ grp' ∈ M.groups, (shape grp'.kind).Corners d ∧ ∀ row' ∈ grp'.vertexIndices,
      ∃ o, elemOrient vs (unitVerts (shape grp'.kind)) row' = some o ∧ 0 < o := by
    intro grp' hgrp'
    obtain ⟨g, hg⟩ := List.mem_iff_getElem?.1 hgrp'
    have hgl : g < m.groups.length := hlen ▸ (List.getElem?_eq_some_iff.1 hg).1
    obtain ⟨grp2, k1, k2, _, k3, k4, k5⟩ := key g _ (List.getElem?_eq_getElem hgl)
    rw [hg, Option.some.injEq] at k1
    subst k1
    have hgm : m.groups[g] ∈ m.groups := List.getElem_mem hgl
    have hc := hm.corners _ hgm
    rw [k2]
    refine ⟨hc, fun row' hrow' => ?_⟩
    obtain ⟨e, he⟩ := List.mem_iff_getElem?.1 hrow'
    have hel : e < m.groups[g].vertexIndices.length := k4 ▸ (List.getElem?_eq_some_iff.1 he).1
    have hen : e < m.groups[g].nodes.length := hm.rows _ hgm ▸ hel
    obtain ⟨A, b, hA, _⟩ := hm.affine _ hgm _ (List.getElem_mem hel)
    obtain ⟨row2, nd2, A', b', l1, _, l2, l3, _⟩ := k5 e _ _ A b (List.getElem?_eq_getElem hel)
      (List.getElem?_eq_getElem hen) hA
    rw [he, Option.some.injEq] at l1
    subst l1
    obtain ⟨o, ho, hop, _⟩ := C55_orientation_exact hd hd3 hc l2
    exact ⟨o, ho, hop.2 l3⟩
  refine ⟨M, ?_, hv.trans hm.vertices, hamb, hlen, key⟩
  have hM2 : meshOrient shape true M = .ok (M.groups.flatMap fun g =>
      g.vertexIndices.map (elemOrient vs (unitVerts (shape g.kind)))) := by
    rw [meshOrient, hv, hm.vertices]
    simp only
    rw [if_neg (by
      have : m.groups.length ≠ 0 := by simpa using hm.groups
      simp only [List.isEmpty_iff, ← List.length_eq_zero_iff]
      omega), orientLoop_ok true (by omega) (fun g hg => (hMrow g hg).1)
        fun g hg row hrow => by
          obtain ⟨o, ho, _⟩ := (hMrow g hg).2 row hrow
          exact ⟨o, ho⟩]
  rw [forcePositive, hos']
  simp only [hM, hM2]
  rw [if_pos]
  rw [List.all_eq_true]
  intro o ho
  obtain ⟨g, hg, hog⟩ := List.mem_flatMap.1 ho
  obtain ⟨row, hrow, rfl⟩ := List.mem_map.1 hog
  obtain ⟨o, ho, hpos⟩ := (hMrow g hg).2 row hrow
  rw [ho]
  simpa [notBad] using hpos

/-- A mesh on which the orientation can be computed. (Specification or proof vocabulary, no code.) -/
structure OrientableMesh {N A : Type} (shape : Nat → GShape) (vs : List (Fin d → K))
    (m : FMesh N (Fin d → K) A) : Prop where
  vertices : m.vertices = some vs
  groups : m.groups ≠ []
  rows : ∀ g ∈ m.groups, g.vertexIndices.length = g.nodes.length
  corners : ∀ g ∈ m.groups, (shape g.kind).Corners d
  flips : ∀ g ∈ m.groups, ∃ perm, flipPermutation (shape g.kind) = .ok perm
  valid : ∀ g ∈ m.groups, ∀ row ∈ g.vertexIndices,
    row.length = (unitVerts (shape g.kind)).length ∧ ∀ v ∈ row, v < vs.length

omit [LinearOrder K] [IsStrictOrderedRing K] in
theorem elemOrient_defined {s : GShape} (hs : s.Corners d) {vs : List (Fin d → K)} {row : List Nat}
    (hl : row.length = (unitVerts s).length) (hv : ∀ v ∈ row, v < vs.length) :
    ∃ o, elemOrient vs (unitVerts s) row = some o := by
  have hr : ∀ x ∈ unitVerts s, ∃ p, rowPoint vs row (findVertex (unitVerts s) x) = some p := by
    intro x hx
    have hlt : findVertex (unitVerts s) x < row.length :=
      hl ▸ (List.getElem?_eq_some_iff.1 (findVertex_of_mem hs.nodup hx)).1
    have := hv _ (List.getElem_mem hlt)
    exact ⟨_, by rw [rowPoint, List.getElem?_eq_getElem hlt, Option.bind_some,
      List.getElem?_eq_getElem this]⟩
  obtain ⟨p0, h0⟩ := hr _ hs.base
  have hps := mapM_some_eq_map (l := List.range d)
    (f := fun i => rowPoint vs row (findVertex (unitVerts s) ((List.replicate d (-1)).set i 1)))
    (g := fun i => (rowPoint vs row
      (findVertex (unitVerts s) ((List.replicate d (-1)).set i 1))).getD 0) fun i hi => by
      obtain ⟨p, hp⟩ := hr _ (hs.span i (List.mem_range.1 hi))
      rw [hp]; rfl
  exact ⟨_, by rw [elemOrient, h0, Option.bind_some, hps, Option.map_some]⟩

omit [IsStrictOrderedRing K] in
/-- C55: the exact condition, for elements of any shape.  `make_mesh` with
`force_positive_orientation` succeeds if and only if every element is reported positive, or negative
and its flipped version positive. -/
theorem C55_force_positive_exact {N A : Type} {shape : Nat → GShape} {nodeFlip : Nat → N → N}
    {vs : List (Fin d → K)} {m : FMesh N (Fin d → K) A} (hd : 1 ≤ d)
    (hm : OrientableMesh shape vs m) :
    (∃ M, forcePositive shape nodeFlip m = .ok M) ↔
      ∀ g ∈ m.groups, ∀ row ∈ g.vertexIndices, ∀ perm, flipPermutation (shape g.kind) = .ok perm →
        ∃ o o', elemOrient vs (unitVerts (shape g.kind)) row = some o ∧
          elemOrient vs (unitVerts (shape g.kind)) (flipRow perm row) = some o' ∧
          (0 < o ∨ o < 0 ∧ 0 < o') := by
  have hel : ∀ g ∈ m.groups, ∀ row ∈ g.vertexIndices,
      ∃ o, elemOrient vs (unitVerts (shape g.kind)) row = some o := fun g hg row hrow =>
    elemOrient_defined (hm.corners g hg) (hm.valid g hg row hrow).1 (hm.valid g hg row hrow).2
  have hpl : ∀ g ∈ m.groups, ∀ row ∈ g.vertexIndices, ∀ perm,
      flipPermutation (shape g.kind) = .ok perm → (flipRow perm row).Perm row :=
    fun g hg row hrow perm hp => flipRow_perm (flipPermutation_invol (hm.corners g hg).ok hp) (by
      rw [(hm.valid g hg row hrow).1, (flip_affine (K := K) (hm.corners g hg) hp).1])
  have hel' : ∀ g ∈ m.groups, ∀ row ∈ g.vertexIndices, ∀ perm,
      flipPermutation (shape g.kind) = .ok perm →
      ∃ o, elemOrient vs (unitVerts (shape g.kind)) (flipRow perm row) = some o :=
    fun g hg row hrow perm hp => elemOrient_defined (hm.corners g hg)
      (by rw [length_flipRow, (hm.valid g hg row hrow).1])
      fun v hv => (hm.valid g hg row hrow).2 v ((hpl g hg row hrow perm hp).mem_iff.1 hv)
  have hos' : meshOrient shape false m = .ok (m.groups.flatMap fun g =>
      g.vertexIndices.map (elemOrient vs (unitVerts (shape g.kind)))) := by
    rw [meshOrient, hm.vertices]
    simp only
    rw [if_neg (by simpa using hm.groups), orientLoop_ok false (by omega) hm.corners hel]
  generalize hOS : (m.groups.flatMap fun g =>
      g.vertexIndices.map (elemOrient vs (unitVerts (shape g.kind)))) = os at hos'
  have hflag : ∀ (g : Nat) grp, m.groups[g]? = some grp → ∀ (e : Nat) row,
      grp.vertexIndices[e]? = some row →
      (os.map negative)[firstElement m.groups g + e]? =
        some (negative (elemOrient vs (unitVerts (shape grp.kind)) row)) := by
    intro g grp hg e row hrow
    have he := (List.getElem?_eq_some_iff.1 hrow).1
    have := flatMap_getElem?_offset (fun g : ElGroup N =>
      g.vertexIndices.map (elemOrient vs (unitVerts (shape g.kind)))) m.groups g grp hg e
      (by simpa using he)
    rw [hOS] at this
    have hfe : firstElement m.groups g = ((m.groups.take g).map fun a : ElGroup N =>
        (a.vertexIndices.map (elemOrient vs (unitVerts (shape a.kind)))).length).sum := by
      unfold firstElement
      congr 1
      refine List.map_congr_left fun a ha => ?_
      rw [List.length_map, hm.rows a (List.mem_of_mem_take ha)]
    rw [List.getElem?_map, hfe, this, List.getElem?_map, hrow]
    rfl
  obtain ⟨M, hM⟩ := C45_defined (shape := shape) (nodeFlip := nodeFlip) (flags := os.map negative)
    hm.vertices hm.groups (by
      rw [List.length_map, ← hOS, List.length_flatMap]
      congr 1
      refine List.map_congr_left fun a ha => ?_
      rw [List.length_map, hm.rows a ha]; rfl) hm.flips
  obtain ⟨hv, hamb, hlen, hgr⟩ := C45_flags hm.rows hM
  -- the rows of the result
  have hrows : ∀ (g : Nat) grp grp', m.groups[g]? = some grp → M.groups[g]? = some grp' →
      grp'.kind = grp.kind ∧ grp'.vertexIndices.length = grp.vertexIndices.length ∧
      ∀ (e : Nat) row row', grp.vertexIndices[e]? = some row → grp'.vertexIndices[e]? = some row' →
        ∀ perm, flipPermutation (shape grp.kind) = .ok perm →
        row' = if negative (elemOrient vs (unitVerts (shape grp.kind)) row) then flipRow perm row
          else row := by
    intro g grp grp' hg hg'
    obtain ⟨grp2, h1, h2, _, _, h5, h6⟩ := hgr g grp hg
    rw [hg', Option.some.injEq] at h1
    subst h1
    refine ⟨h2, h5, fun e row row' hrow hrow' perm hp => ?_⟩
    have hen : e < grp.nodes.length :=
      hm.rows grp (List.mem_of_getElem? hg) ▸ (List.getElem?_eq_some_iff.1 hrow).1
    obtain ⟨row2, nd2, h7, _, h9⟩ := h6 e row _ hrow (List.getElem?_eq_getElem hen)
    rw [hrow', Option.some.injEq] at h7
    subst h7
    rw [hflag g grp hg e row hrow, Option.getD_some] at h9
    unfold ElemFlipped at h9
    split at h9
    · rename_i hneg
      obtain ⟨p2, hp2, h9, _⟩ := h9
      rw [hp, Except.ok.injEq] at hp2
      subst hp2
      rw [if_pos hneg, h9]
    · rename_i hneg
      rw [if_neg hneg, h9.1]
  have hMrow : ∀ grp' ∈ M.groups, (shape grp'.kind).Corners d ∧ ∀ row' ∈ grp'.vertexIndices,
      ∃ o, elemOrient vs (unitVerts (shape grp'.kind)) row' = some o := by
    intro grp' hgrp'
    obtain ⟨g, hg⟩ := List.mem_iff_getElem?.1 hgrp'
    have hgl : g < m.groups.length := hlen ▸ (List.getElem?_eq_some_iff.1 hg).1
    obtain ⟨k2, k4, k5⟩ := hrows g _ grp' (List.getElem?_eq_getElem hgl) hg
    have hgm : m.groups[g] ∈ m.groups := List.getElem_mem hgl
    rw [k2]
    refine ⟨hm.corners _ hgm, fun row' hrow' => ?_⟩
    obtain ⟨e, he⟩ := List.mem_iff_getElem?.1 hrow'
    have hel1 : e < m.groups[g].vertexIndices.length := k4 ▸ (List.getElem?_eq_some_iff.1 he).1
    obtain ⟨perm, hp⟩ := hm.flips _ hgm
    rw [k5 e _ row' (List.getElem?_eq_getElem hel1) he perm hp]
    split
    · exact hel' _ hgm _ (List.getElem_mem hel1) perm hp
    · exact hel _ hgm _ (List.getElem_mem hel1)
  have hM2 : meshOrient shape true M = .ok (M.groups.flatMap fun g =>
      g.vertexIndices.map (elemOrient vs (unitVerts (shape g.kind)))) := by
    rw [meshOrient, hv, hm.vertices]
    simp only
    rw [if_neg (by
      have : m.groups.length ≠ 0 := by simpa using hm.groups
      simp only [List.isEmpty_iff, ← List.length_eq_zero_iff]
      omega), orientLoop_ok true (by omega) (fun g hg => (hMrow g hg).1)
        fun g hg row hrow => (hMrow g hg).2 row hrow]
  have hiff : (∃ M, forcePositive shape nodeFlip m = .ok M) ↔ ∀ g' ∈ M.groups,
      ∀ row' ∈ g'.vertexIndices,
        notBad (elemOrient vs (unitVerts (shape g'.kind)) row') = true := by
    rw [forcePositive, hos']
    simp only [hM, hM2]
    constructor
    · rintro ⟨M', h⟩ g' hg' row' hrow'
      split at h
      · rename_i hall
        exact List.all_eq_true.1 hall _ (List.mem_flatMap.2 ⟨g', hg', List.mem_map_of_mem hrow'⟩)
      · simp at h
    · intro h
      rw [if_pos]
      · exact ⟨M, rfl⟩
      · rw [List.all_eq_true]
        intro o ho
        obtain ⟨g, hg, hog⟩ := List.mem_flatMap.1 ho
        obtain ⟨row, hrow, rfl⟩ := List.mem_map.1 hog
        exact h g hg row hrow
  rw [hiff]
  constructor
  · intro h grp hgrp row hrow perm hp
    obtain ⟨g, hg⟩ := List.mem_iff_getElem?.1 hgrp
    obtain ⟨e, he⟩ := List.mem_iff_getElem?.1 hrow
    have hgl : g < M.groups.length := hlen ▸ (List.getElem?_eq_some_iff.1 hg).1
    obtain ⟨k2, k4, k5⟩ := hrows g grp _ hg (List.getElem?_eq_getElem hgl)
    have hel2 : e < M.groups[g].vertexIndices.length := k4 ▸ (List.getElem?_eq_some_iff.1 he).1
    have k6 := k5 e row _ he (List.getElem?_eq_getElem hel2) perm hp
    have k7 := h _ (List.getElem_mem hgl) _ (List.getElem_mem hel2)
    rw [k6, k2] at k7
    obtain ⟨o, ho⟩ := hel grp hgrp row hrow
    obtain ⟨o', ho'⟩ := hel' grp hgrp row hrow perm hp
    refine ⟨o, o', ho, ho', ?_⟩
    rw [ho] at k7
    simp only [negative] at k7
    by_cases hneg : o < 0
    · simp only [hneg, decide_true, if_true, ho'] at k7
      exact .inr ⟨hneg, by simpa [notBad] using k7⟩
    · simp only [hneg, decide_false, Bool.false_eq_true, if_false, ho] at k7
      exact .inl (by simpa [notBad] using k7)
  · intro h grp' hgrp' row' hrow'
    obtain ⟨g, hg⟩ := List.mem_iff_getElem?.1 hgrp'
    obtain ⟨e, he⟩ := List.mem_iff_getElem?.1 hrow'
    have hgl : g < m.groups.length := hlen ▸ (List.getElem?_eq_some_iff.1 hg).1
    have hgm : m.groups[g] ∈ m.groups := List.getElem_mem hgl
    obtain ⟨k2, k4, k5⟩ := hrows g _ grp' (List.getElem?_eq_getElem hgl) hg
    have hel1 : e < m.groups[g].vertexIndices.length := k4 ▸ (List.getElem?_eq_some_iff.1 he).1
    obtain ⟨perm, hp⟩ := hm.flips _ hgm
    obtain ⟨o, o', ho, ho', hoo⟩ := h _ hgm _ (List.getElem_mem hel1) perm hp
    rw [k5 e _ row' (List.getElem?_eq_getElem hel1) he perm hp, k2, ho]
    simp only [negative]
    by_cases hneg : o < 0
    · simp only [hneg, decide_true, if_true, ho']
      rcases hoo with hoo | hoo
      · exact absurd hoo (not_lt.2 hneg.le)
      · simpa [notBad] using hoo.2
    · simp only [hneg, decide_false, Bool.false_eq_true, if_false, ho]
      rcases hoo with hoo | hoo
      · simpa [notBad] using hoo
      · exact absurd hoo.1 hneg

omit [IsStrictOrderedRing K] in
/-- C55: adjacency given to `make_mesh` along with `force_positive_orientation` is dropped: the
result computes its adjacency anew if conforming, and has none otherwise. -/
theorem C55_adjacency {N A : Type} {shape : Nat → GShape} {nodeFlip : Nat → N → N}
    {m M : FMesh N (Fin d → K) A} (h : forcePositive shape nodeFlip m = .ok M) :
    M.lazy.conforming = m.lazy.conforming ∧
    (m.lazy.conforming = some true → M.lazy.facial = .missing ∧ M.lazy.nodal = .missing) ∧
    (m.lazy.conforming ≠ some true → M.lazy.facial = .disabled ∧ M.lazy.nodal = .disabled) := by
  unfold forcePositive at h
  split at h
  · simp at h
  · split at h
    · simp at h
    · rename_i M' hM'
      split at h
      · simp at h
      · split at h
        · rw [Except.ok.injEq] at h
          exact h ▸ C45_adjacency hM'
        · simp at h

/-- C55 fails in dimension four: the reported sign is the opposite of the orientation. -/
theorem C55_four_dimensions_counterexample {s : GShape} (hs : s.Corners 4)
    {vs : List (Fin 4 → K)} {row : List Nat} {A : Matrix (Fin 4) (Fin 4) K} {b : Fin 4 → K}
    (h : AffineElement vs (unitVerts s) row A b) :
    ∃ o, elemOrient vs (unitVerts s) row = some o ∧ (0 < o ↔ A.det < 0) ∧ (o < 0 ↔ 0 < A.det) := by
  refine ⟨_, elemOrient_affine hs h, ?_⟩
  have hsign : orientSign (K := K) 4 = -1 := by norm_num [orientSign]
  rw [hsign]
  constructor <;> constructor <;> intro h <;> linarith

end

/-! ### Examples -/

/-- Integer points as vectors. -/
def exPoint (x y : ℚ) : Fin 2 → ℚ := ![x, y]

/-- Shapes of the example: triangles and quadrilaterals. -/
def exOrientShape : Nat → GShape
  | 0 => .simplex 2
  | _ => .tensor [[-1, -1], [1, -1], [-1, 1], [1, 1]]

/-- Vertices of the example. -/
def exOrientVerts : List (Fin 2 → ℚ) :=
  [exPoint 0 0, exPoint 1 0, exPoint 0 1, exPoint 1 1, exPoint 2 0, exPoint 2 1]

/-- Two triangles, the second negatively oriented, and a negatively oriented square; facial
adjacency (empty here) is given. -/
def exOrient : FMesh Bool (Fin 2 → ℚ) Unit :=
  ⟨2, some exOrientVerts,
    [⟨0, [[0, 1], [1, 2], [2, 0]], [[0, 1, 2], [3, 1, 2]], [false, false]⟩,
     ⟨1, [[0, 1], [2, 3], [0, 2], [1, 3]], [[4, 1, 5, 3]], [false]⟩],
    ⟨some true, .missing, .data []⟩⟩

theorem affine_two {uv : List (List Int)} {vs : List (Fin 2 → ℚ)} {row : List Nat}
    {A : Matrix (Fin 2) (Fin 2) ℚ} {b : Fin 2 → ℚ} (hl : row.length = uv.length)
    (h : ∀ k < uv.length, ∃ v p x, row[k]? = some v ∧ vs[v]? = some p ∧ uv[k]? = some x ∧
      p = A.mulVec (unitPoint ℚ 2 x) + b) : AffineElement vs uv row A b := by
  refine ⟨hl, fun k x hx => ?_⟩
  obtain ⟨v, p, x', h1, h2, h3, h4⟩ := h k (List.getElem?_eq_some_iff.1 hx).1
  rw [hx, Option.some.injEq] at h3
  subst h3
  exact ⟨v, p, h1, h2, h4⟩

/-- Quadrilaterals with the vertex numbering of the code have the needed corners. -/
theorem quad_corners : (GShape.tensor [[-1, -1], [1, -1], [-1, 1], [1, 1]]).Corners 2 :=
  ⟨rfl, by decide, by decide, by
    intro i hi
    interval_cases i <;> decide, by decide⟩

/-- Hexahedra with the vertex numbering of the code have the needed corners. -/
theorem hex_corners : (GShape.tensor [[-1, -1, -1], [1, -1, -1], [-1, 1, -1], [1, 1, -1],
    [-1, -1, 1], [1, -1, 1], [-1, 1, 1], [1, 1, 1]]).Corners 3 :=
  ⟨rfl, by decide, by decide, by
    intro i hi
    interval_cases i <;> decide, by decide⟩

/-- The hypotheses of `C55_force_positive_partial` hold for the example. -/
theorem exOrient_affine : AffineMesh exOrientShape exOrientVerts exOrient where
  vertices := rfl
  groups := by simp [exOrient]
  rows := by
    intro g hg; simp only [exOrient, List.mem_cons, List.not_mem_nil, or_false] at hg
    rcases hg with rfl | rfl <;> rfl
  corners := by
    intro g hg; simp only [exOrient, List.mem_cons, List.not_mem_nil, or_false] at hg
    rcases hg with rfl | rfl
    · exact simplex_corners 2
    · exact quad_corners
  flips := by
    intro g hg; simp only [exOrient, List.mem_cons, List.not_mem_nil, or_false] at hg
    rcases hg with rfl | rfl
    · exact ⟨_, rfl⟩
    · exact ⟨[1, 0, 3, 2], rfl⟩
  affine := by
    intro g hg; simp only [exOrient, List.mem_cons, List.not_mem_nil, or_false] at hg
    rcases hg with rfl | rfl
    · intro row hrow
      simp only [List.mem_cons, List.not_mem_nil, or_false] at hrow
      rcases hrow with rfl | rfl
      · refine ⟨!![1/2, 0; 0, 1/2], ![1/2, 1/2], affine_two rfl fun k hk => ?_,
          by norm_num [Matrix.det_fin_two]⟩
        have hk : k < 3 := hk
        interval_cases k <;> refine ⟨_, _, _, rfl, rfl, rfl, ?_⟩ <;> ext i <;> fin_cases i <;>
          simp [exPoint, unitPoint, dotProduct, Fin.sum_univ_two] <;> norm_num
      · refine ⟨!![0, -1/2; -1/2, 0], ![1/2, 1/2], affine_two rfl fun k hk => ?_,
          by norm_num [Matrix.det_fin_two]⟩
        have hk : k < 3 := hk
        interval_cases k <;> refine ⟨_, _, _, rfl, rfl, rfl, ?_⟩ <;> ext i <;> fin_cases i <;>
          simp [exPoint, unitPoint, dotProduct, Fin.sum_univ_two] <;> norm_num
    · intro row hrow
      simp only [List.mem_cons, List.not_mem_nil, or_false] at hrow
      subst hrow
      refine ⟨!![-1/2, 0; 0, 1/2], ![3/2, 1/2], affine_two rfl fun k hk => ?_,
          by norm_num [Matrix.det_fin_two]⟩
      have hk : k < 4 := hk
      interval_cases k <;> refine ⟨_, _, _, rfl, rfl, rfl, ?_⟩ <;> ext i <;> fin_cases i <;>
        simp [exPoint, unitPoint, dotProduct, Fin.sum_univ_two] <;> norm_num

/-- Vertices of a dart: the first vertex is its reflex corner. -/
def exDartVerts : List (Fin 2 → ℚ) := [exPoint 3 3, exPoint 4 0, exPoint 0 4, exPoint 4 4]

/-- A mesh of one dart. -/
def exDart : FMesh Bool (Fin 2 → ℚ) Unit :=
  ⟨2, some exDartVerts,
    [⟨1, [[0, 1], [2, 3], [0, 2], [1, 3]], [[0, 1, 2, 3]], [false]⟩],
    ⟨some true, .missing, .missing⟩⟩

/-- The hypotheses of `C55_force_positive_exact` hold for the dart. -/
theorem exDart_orientable : OrientableMesh exOrientShape exDartVerts exDart where
  vertices := rfl
  groups := by simp [exDart]
  rows := by
    intro g hg; simp only [exDart, List.mem_cons, List.not_mem_nil, or_false] at hg
    subst hg; rfl
  corners := by
    intro g hg; simp only [exDart, List.mem_cons, List.not_mem_nil, or_false] at hg
    subst hg; exact quad_corners
  flips := by
    intro g hg; simp only [exDart, List.mem_cons, List.not_mem_nil, or_false] at hg
    subst hg; exact ⟨[1, 0, 3, 2], rfl⟩
  valid := by
    intro g hg; simp only [exDart, List.mem_cons, List.not_mem_nil, or_false] at hg
    subst hg
    intro row hrow
    simp only [List.mem_cons, List.not_mem_nil, or_false] at hrow
    subst hrow
    exact ⟨rfl, fun v hv => by
      simp only [List.mem_cons, List.not_mem_nil, or_false] at hv
      simp only [exDartVerts, List.length_cons, List.length_nil]
      omega⟩

theorem elemOrient_two {vs : List (Fin 2 → ℚ)} {uv : List (List Int)} {row : List Nat}
    {p0 p1 p2 : Fin 2 → ℚ} (h0 : rowPoint vs row (findVertex uv [-1, -1]) = some p0)
    (h1 : rowPoint vs row (findVertex uv [1, -1]) = some p1)
    (h2 : rowPoint vs row (findVertex uv [-1, 1]) = some p2) :
    elemOrient vs uv row =
      some ((p1 0 - p0 0) * (p2 1 - p0 1) - (p1 1 - p0 1) * (p2 0 - p0 0)) := by
  have hps : ((List.range 2).mapM fun i =>
      rowPoint vs row (findVertex uv ((List.replicate 2 (-1)).set i 1))) = some [p1, p2] := by
    simp [List.range_succ, h1, h2]
  rw [elemOrient, show List.replicate 2 (-1 : Int) = [-1, -1] from rfl, h0, Option.bind_some]
  rw [show ([-1, -1] : List Int) = List.replicate 2 (-1) from rfl, hps, Option.map_some]
  simp [orientSign, Matrix.det_fin_two]

/-- C55 fails for quadrilaterals that are not parallelograms: here the orientation is negative
before and after the flip, and `make_mesh` raises. -/
theorem C55_not_affine_counterexample :
    ¬ ∃ M, forcePositive exOrientShape (fun _ b => !b) exDart = .ok M := by
  rw [C55_force_positive_exact (by omega) exDart_orientable]
  intro h
  obtain ⟨o, o', h1, h2, h3⟩ := h _ (List.mem_singleton.2 rfl) [0, 1, 2, 3]
    (List.mem_singleton.2 rfl) [1, 0, 3, 2] rfl
  have e1 := elemOrient_two (vs := exDartVerts) (row := [0, 1, 2, 3])
    (uv := unitVerts (exOrientShape 1)) rfl rfl rfl
  have e2 := elemOrient_two (vs := exDartVerts) (row := flipRow [1, 0, 3, 2] [0, 1, 2, 3])
    (uv := unitVerts (exOrientShape 1)) rfl rfl rfl
  have h1 := Option.some.inj (e1.symm.trans h1)
  have h2 := Option.some.inj (e2.symm.trans h2)
  simp [exPoint] at h1 h2
  rw [← h1, ← h2] at h3
  norm_num at h3

-- unknown element types raise, or give NaN
example : meshOrient (fun _ => .other) false exOrient = .error .notImplemented ∧
    meshOrient (fun _ => .other) true exOrient = .ok [none, none, none] := ⟨rfl, rfl⟩

/-- C55: facial adjacency that is supplied does not survive. -/
theorem C55_adjacency_counterexample : ∃ M, exOrient.lazy.facial = .data [] ∧
    forcePositive exOrientShape (fun _ b => !b) exOrient = .ok M ∧ M.lazy.facial = .missing := by
  obtain ⟨M, hM, _⟩ := C55_force_positive_partial (nodeFlip := fun _ b => !b) (by omega) (by omega)
    exOrient_affine
  exact ⟨M, rfl, hM, ((C55_adjacency hM).2.1 rfl).1⟩

/-- The reference simplex of dimension four, itself. -/
example : AffineElement (K := ℚ) ((unitVerts (.simplex 4)).map (unitPoint ℚ 4))
    (unitVerts (.simplex 4)) [0, 1, 2, 3, 4] 1 0 := by
  refine ⟨rfl, fun k x hx => ?_⟩
  have hk := (List.getElem?_eq_some_iff.1 hx).1
  have hk : k < 5 := by simpa [unitVerts] using hk
  refine ⟨k, unitPoint ℚ 4 x, ?_, by rw [List.getElem?_map, hx]; rfl, by simp⟩
  interval_cases k <;> rfl

end Meshmode
