import Verif.Mesh.Orient
import Verif.Gen.FromVertices
import Verif.Connection.SameMesh

/-!
# Meshes from vertices and simplices (C90)

`from_vertices_and_simplices` and `from_meshpy` (meshmode/mesh/io.py:514-572).  Coordinates are elements of
an ordered field: rounding is not modelled.  Of the consistency checks in `make_mesh` that of the orientation
is modelled (meshmode/mesh/__init__.py:943-961), the others are not.
-/
namespace Meshmode

/-! ## Model -/

/-- Exceptions of `from_vertices_and_simplices`. Code: meshmode/mesh/io.py:556-572. -/
inductive FvsErr where
  /-- an error of `make_group_from_vertices` -/
  | group (e : MgfvErr)
  /-- `ValueError("can only fix orientation of volume meshes")` -/
  | notVolume
  /-- an error of `find_volume_mesh_element_group_orientation`, or of the check in `make_mesh`, which
  includes `InconsistentMeshError` -/
  | orient (e : OrientErr)
  /-- an error of `flip_element_group` -/
  | flip (e : FlipErr)
  /-- `LinAlgError`: the unit nodes do not determine polynomials -/
  | singular
  deriving DecidableEq, Repr

section
variable {K : Type} [Field K] {d : Nat}

/-- A unit node after the first two barycentric coordinates were exchanged,
meshmode/mesh/processing.py:710-726; `unit_to_barycentric` (modepy) gives `(1 + x) / 2` for the coordinates
after the first. -/
def flipUnit (x : List K) : List K :=
  match x.map fun v => (1 + v) / 2 with
  | [] => []
  | b :: bs => ((1 - (b + bs.sum)) :: bs).map fun v => 2 * v - 1

/-- `np.einsum("ij,dej->dei", flip_matrix, nodes)` for one element, meshmode/mesh/processing.py:810-813. -/
def flipNodes (F : Mat K) (amb : Nat) (nodes : List (List K)) : List (List K) :=
  F.map fun row => (List.range amb).map fun r => rowDot row (nodes.map (·.getD r 0))

variable [LinearOrder K]

/-- `flip_element_group(vertices, grp, orient < 0)` for a group of simplices,
meshmode/mesh/processing.py:781-815 and 710-744.  `basis`, `resample`: `mp.basis_for_space`,
`mp.resampling_matrix`.  The assertion that flipping twice is the identity (lines 738-742) is not part of the
model; see C45_matrix_involution. -/
def flipSimplices (basis : List (List K → K))
    (resample : List (List K → K) → List (List K) → List (List K) → Option (Mat K)) (amb dim : Nat)
    (unit : List (List K)) (flags : List Bool) (grp : ElGroup (List (List K))) :
    Except FvsErr (ElGroup (List (List K))) :=
  match flipPermutation (.simplex dim) with
  | .error e => .error (.flip e)
  | .ok perm =>
    match resample basis (unit.map flipUnit) unit with
    | none => .error .singular
    | some F => .ok (flipGroup perm (flipNodes F amb) flags grp)

/-- The part of `make_mesh` that `from_vertices_and_simplices` relies on: orientations are checked if the
dimension is the ambient dimension (meshmode/mesh/__init__.py:943-961), adjacency is computed when asked for.
Code: meshmode/mesh/io.py:570-572. -/
def simplexMesh {A : Type} (vs : List (Fin d → K)) (dim : Nat) (grp : ElGroup (List (List K))) :
    Except FvsErr (FMesh (List (List K)) (Fin d → K) A) :=
  let m : FMesh (List (List K)) (Fin d → K) A :=
    ⟨d, some vs, [grp], LazyMesh.make completeFacial true (some true) .missing .missing⟩
  if dim = d then
    match meshOrient (fun _ => .simplex dim) true m with
    | .error e => .error (.orient e)
    | .ok os => if os.all notBad then .ok m else .error (.orient .inconsistent)
  else .ok m

/-- `from_vertices_and_simplices`, meshmode/mesh/io.py:538-572; with `fix = false` also `from_meshpy`,
lines 514-531.  `nv`: `simplices.shape[1]`; `unit`: the unit nodes that `make_group_from_vertices` uses for
the order; `fvi`: the faces of the simplex; `solve` and `tuples` are for other elements. -/
def fromSimplices {A : Type} (solve : Mat K → List K → Option (List K)) (tuples : Nat → List (List Nat))
    (basis : List (List K → K))
    (resample : List (List K → K) → List (List K) → List (List K) → Option (Mat K)) (fvi : List (List Nat))
    (vs : List (Fin d → K)) (nv : Nat) (simplices : List (List Nat)) (order : Int) (unit : List (List K))
    (fix : Bool) : Except FvsErr (FMesh (List (List K)) (Fin d → K) A) :=
  match groupFromVertices solve tuples .simplex d nv (vs.map List.ofFn) simplices order unit with
  | .error e => .error (.group e)
  | .ok nodes =>
    let grp : ElGroup (List (List K)) := ⟨0, fvi, simplices, nodes⟩
    if fix then
      if nv - 1 ≠ d then .error .notVolume
      else
        match groupOrient (fun _ => .simplex (nv - 1)) vs grp with
        | .error e => .error (.orient e)
        | .ok os =>
          match flipSimplices basis resample d (nv - 1) unit (os.map fun o => decide (o < 0)) grp with
          | .error e => .error e
          | .ok grp' => simplexMesh vs (nv - 1) grp'
    else simplexMesh vs (nv - 1) grp

end

/-! ## Specification -/

section spec
variable {K : Type} [Field K] {d : Nat}

/-- The basis spans a space that contains the affine functions. (Specification or proof vocabulary, no code.) -/
def HasAffine (basis : List (List K → K)) (d : Nat) : Prop :=
  ∀ (c : K) (a : List K), a.length = d → ∃ co : List K, co.length = basis.length ∧
    ∀ x : List K, x.length = d → evalAt basis co x = c + rowDot a x

/-- The determinant of the affine map from the reference simplex to an element is `δ`.
(Specification or proof vocabulary, no code.) -/
def SimplexDet (vs : List (Fin d → K)) (row : List Nat) (δ : K) : Prop :=
  ∃ A b, AffineElement vs (unitVerts (.simplex d)) row A b ∧ A.det = δ

/-- An element with its nodes: the images of the unit nodes under the affine map from the reference simplex
to the vertices. (Specification or proof vocabulary, no code.) -/
def StraightSimplex (vs : List (Fin d → K)) (unit : List (List K)) (row : List Nat) (nodes : List (List K)) :
    Prop :=
  ∃ ev T, ElementVertices (vs.map List.ofFn) row ev ∧ SimplexMap ev T ∧ nodes = unit.map T

end spec

/-! ## Lemmas -/

section
variable {K : Type} [Field K]

theorem sum_half_sub (bs : List (List K)) (y : List K) (r : Nat) (p q : List K) :
    ((bs.zip y).map fun z => (1 / 2 + 1 / 2 * z.2) * (z.1.getD r 0 - p.getD r 0)).sum =
      ((bs.zip y).map fun z => (1 / 2 + 1 / 2 * z.2) * (z.1.getD r 0 - q.getD r 0)).sum +
        ((bs.zip y).map fun z => (1 / 2 + 1 / 2 * z.2)).sum * (q.getD r 0 - p.getD r 0) := by
  induction bs generalizing y with
  | nil => simp
  | cons b bs ih =>
    cases y with
    | nil => simp
    | cons a y =>
      simp only [List.zip_cons_cons, List.map_cons, List.sum_cons]
      rw [ih]
      ring

/-- The map of an element after the flip of the reference simplex is the map for the first two vertices
exchanged. -/
theorem simplexPoint_flip (h2 : (2 : K) ≠ 0) (amb : Nat) (p q : List K) (rest : List (List K)) {x : List K}
    (hx : x.length = rest.length + 1) :
    simplexPoint amb (p :: q :: rest) (flipUnit x) = simplexPoint amb (q :: p :: rest) x := by
  obtain ⟨a, y, rfl⟩ : ∃ a y, x = a :: y := by
    cases x with
    | nil => simp at hx
    | cons a y => exact ⟨a, y, rfl⟩
  have hy : y.length = rest.length := by simpa using hx
  have hback : (y.map fun v : K => (1 + v) / 2).map (fun v => 2 * v - 1) = y := by
    rw [List.map_map]
    conv_rhs => rw [← List.map_id y]
    apply List.map_congr_left
    intro v _
    simp only [Function.comp, id]
    field_simp
    ring
  have hflip : flipUnit (a :: y) = (2 * (1 - ((1 + a) / 2 + (y.map fun v : K => (1 + v) / 2).sum)) - 1) :: y := by
    simp only [flipUnit, List.map_cons]
    rw [hback]
  have hsum : ((rest.zip y).map fun z => (1 / 2 + 1 / 2 * z.2)).sum = (y.map fun v : K => (1 + v) / 2).sum := by
    have : y = (rest.zip y).map Prod.snd := by rw [List.map_snd_zip]; omega
    conv_rhs => rw [this]
    rw [List.map_map]
    congr 1
    apply List.map_congr_left
    intro z _
    simp only [Function.comp]
    field_simp
  rw [hflip]
  unfold simplexPoint
  apply List.map_congr_left
  intro r _
  simp only [List.tail_cons, List.zip_cons_cons, List.map_cons, List.sum_cons, List.headD_cons]
  rw [sum_half_sub rest y r p q, hsum]
  generalize (y.map fun v : K => (1 + v) / 2).sum = L
  generalize p.getD r 0 = P
  generalize q.getD r 0 = Q
  generalize ((rest.zip y).map fun z => (1 / 2 + 1 / 2 * z.2) * (z.1.getD r 0 - q.getD r 0)).sum = S
  field_simp
  ring

/-- A coordinate of the map of a simplex is an affine function. -/
theorem simplexPoint_coord {amb : Nat} (o : List K) (axs : List (List K)) {r : Nat} (hr : r < amb) :
    ∃ (c : K) (a : List K), a.length = axs.length ∧ ∀ x : List K, x.length = axs.length →
      (simplexPoint amb (o :: axs) x).getD r 0 = c + rowDot a x := by
  have key : ∀ axs : List (List K), ∃ (c : K) (a : List K), a.length = axs.length ∧ ∀ x : List K,
      x.length = axs.length → ((axs.zip x).map fun q => (1 / 2 + 1 / 2 * q.2) * (q.1.getD r 0 - o.getD r 0)).sum =
        c + rowDot a x := by
    intro axs
    induction axs with
    | nil => exact ⟨0, [], rfl, fun x _ => by simp [rowDot]⟩
    | cons b axs ih =>
      obtain ⟨c, a, h1, h2⟩ := ih
      refine ⟨c + 1 / 2 * (b.getD r 0 - o.getD r 0), 1 / 2 * (b.getD r 0 - o.getD r 0) :: a, by simp [h1],
        fun x hx => ?_⟩
      cases x with
      | nil => simp at hx
      | cons v x =>
        rw [List.zip_cons_cons, List.map_cons, List.sum_cons, h2 x (by simpa using hx)]
        simp only [rowDot, List.zipWith_cons_cons, List.sum_cons]
        ring
  obtain ⟨c, a, h1, h2⟩ := key axs
  refine ⟨c + o.getD r 0, a, h1, fun x hx => ?_⟩
  simp only [simplexPoint, List.getD_eq_getElem?_getD, List.getElem?_map, List.getElem?_range hr,
    Option.map_some, Option.getD_some, List.tail_cons, List.headD_cons]
  have := h2 x hx
  simp only [List.getD_eq_getElem?_getD] at this
  rw [this]
  ring

theorem length_flipUnit (x : List K) : (flipUnit x).length = x.length := by
  cases x <;> simp [flipUnit]

theorem length_simplexPoint (amb : Nat) (ev : List (List K)) (x : List K) :
    (simplexPoint amb ev x).length = amb := by simp [simplexPoint]

/-- The flip matrix takes the nodes of a straight simplex to those of the simplex with the first two vertices
exchanged. -/
theorem flipNodes_straight {resample : List (List K → K) → List (List K) → List (List K) → Option (Mat K)}
    (hr : ResampleSound resample) (h2 : (2 : K) ≠ 0) {basis : List (List K → K)} {unit : List (List K)} {F : Mat K}
    (hb : basis.length = unit.length) (hF : resample basis (unit.map flipUnit) unit = some F) {n : Nat}
    (hA : HasAffine basis (n + 1)) (hu : ∀ x ∈ unit, x.length = n + 1) (amb : Nat) {p q : List K}
    {rest : List (List K)} (hl : rest.length = n) :
    flipNodes F amb (unit.map (simplexPoint amb (p :: q :: rest))) =
      unit.map (simplexPoint amb (q :: p :: rest)) := by
  obtain ⟨h3, h4, h5, h6⟩ := hr _ _ _ _ hb hF
  have hval : ∀ r < amb, matVec F ((unit.map (simplexPoint amb (p :: q :: rest))).map (·.getD r 0)) =
      unit.map fun x => (simplexPoint amb (q :: p :: rest) x).getD r 0 := by
    intro r hra
    obtain ⟨c, a, ha, hc⟩ := simplexPoint_coord (amb := amb) p (q :: rest) hra
    obtain ⟨co, hco, hev⟩ := hA c a (by simpa [hl] using ha)
    have hold : unit.map (evalAt basis co) =
        (unit.map (simplexPoint amb (p :: q :: rest))).map (·.getD r 0) := by
      rw [List.map_map]
      apply List.map_congr_left
      intro x hx
      rw [hev x (hu x hx), Function.comp, hc x (by simp [hu x hx, hl])]
    obtain ⟨co', hco', h7, h8⟩ := h5 (unit.map (evalAt basis co)) (by simp)
    obtain rfl : co' = co := h6 _ _ hco' hco h7
    rw [← hold, h8, List.map_map]
    apply List.map_congr_left
    intro x hx
    rw [Function.comp, hev _ (by rw [length_flipUnit, hu x hx]), ← hc _ (by simp [length_flipUnit, hu x hx, hl]),
      simplexPoint_flip h2 amb p q rest (by rw [hu x hx, hl])]
  apply List.ext_getElem?
  intro i
  by_cases hi : i < unit.length
  · have hiF : i < F.length := by rw [h3]; simpa using hi
    simp only [flipNodes, List.getElem?_map, List.getElem?_eq_getElem hi, List.getElem?_eq_getElem hiF,
      Option.map_some, Option.some.injEq]
    apply List.ext_getElem?
    intro r
    by_cases hra : r < amb
    · have := congrArg (fun l : List K => l[i]?) (hval r hra)
      simp only [matVec, List.getElem?_map, List.getElem?_eq_getElem hi, List.getElem?_eq_getElem hiF,
        Option.map_some, Option.some.injEq] at this
      simp only [List.getElem?_map, List.getElem?_range hra, Option.map_some, this]
      rw [List.getD_eq_getElem?_getD,
        List.getElem?_eq_getElem (by rw [length_simplexPoint]; exact hra), Option.getD_some]
    · rw [List.getElem?_eq_none (by simpa using hra),
        List.getElem?_eq_none (by rw [length_simplexPoint]; omega)]
  · have hiF : ¬ i < F.length := by rw [h3]; simpa using hi
    rw [List.getElem?_eq_none (by simp [flipNodes]; omega), List.getElem?_eq_none (by simp; omega)]

end

section
variable {K : Type} [Field K]

theorem groupFromVertices_simplex {solve : Mat K → List K → Option (List K)} {tuples : Nat → List (List Nat)}
    {amb nv : Nat} {vertices : List (List K)} {vi : List (List Nat)} {order : Int} {unit : List (List K)}
    {nodes : List (List (List K))}
    (h : groupFromVertices solve tuples .simplex amb nv vertices vi order unit = .ok nodes) :
    1 ≤ order ∧ nv ≠ 0 ∧ (∀ x ∈ unit, x.length + 1 = nv) ∧ nodes.length = vi.length ∧
      ∀ (e : Nat) row, vi[e]? = some row → ∃ ev, ElementVertices vertices row ev ∧
        nodes[e]? = some (unit.map (simplexPoint amb ev)) := by
  unfold groupFromVertices at h
  split at h
  · cases h
  · rename_i evs hevs
    simp only at h
    split at h
    · cases h
    · rename_i hord
      split at h
      · cases h
      · rename_i hnv
        split at h
        · rename_i hall
          cases h
          obtain ⟨h1, h2⟩ := mapM_element hevs
          refine ⟨by omega, hnv, fun x hx => by simpa using List.all_eq_true.1 hall x hx, by simp [h1],
            fun e row he => ?_⟩
          obtain ⟨ev, a, b⟩ := h2 e row he
          exact ⟨ev, b, by rw [List.getElem?_map, a]; rfl⟩
        · cases h

theorem groupOrient_simplex {N : Type} {d : Nat} {vs : List (Fin d → K)} {g : ElGroup N} {n : Nat} {os : List K}
    (h : groupOrient (fun _ => .simplex n) vs g = .ok os) : n = d ∧ d ≠ 0 ∧ os.length = g.vertexIndices.length ∧
      ∀ (e : Nat) row, g.vertexIndices[e]? = some row → ∃ o, elemOrient vs (unitVerts (.simplex n)) row = some o ∧
        os[e]? = some o := by
  unfold groupOrient at h
  simp only at h
  split at h
  · cases h
  · rename_i hn
    split at h
    · cases h
    · rename_i hd
      split at h
      · cases h
      · rename_i l hl
        cases h
        obtain ⟨h1, h2⟩ := mapM_getElem?_some hl
        refine ⟨by simpa [GShape.dim] using hn, hd, h1, fun e row he => ?_⟩
        obtain ⟨o, a, b⟩ := h2 e row he
        exact ⟨o, b, a⟩

variable [LinearOrder K] {d : Nat} {A : Type}

theorem simplexMesh_ok {vs : List (Fin d → K)} {dim : Nat} {grp : ElGroup (List (List K))}
    {m : FMesh (List (List K)) (Fin d → K) A} (h : simplexMesh vs dim grp = .ok m) :
    m.vertices = some vs ∧ m.ambientDim = d ∧ m.lazy.conforming = some true ∧ m.lazy.facial = .missing ∧
      m.lazy.nodal = .missing ∧ m.groups = [grp] ∧
      (dim = d → d ≠ 0 ∧ ∀ row ∈ grp.vertexIndices, ∃ o, elemOrient vs (unitVerts (.simplex d)) row = some o ∧
        0 < o) := by
  unfold simplexMesh at h
  simp only at h
  split at h
  · rename_i hdim
    subst hdim
    split at h
    · cases h
    · rename_i os hos
      split at h
      · rename_i hall
        cases h
        refine ⟨rfl, rfl, rfl, rfl, rfl, rfl, fun _ => ?_⟩
        simp only [meshOrient, List.isEmpty_cons, Bool.false_eq_true, if_false, orientLoop] at hos
        split at hos
        · rename_i l hl
          cases hos
          obtain ⟨_, hd, _, h2⟩ := groupOrient_simplex hl
          refine ⟨hd, fun row hrow => ?_⟩
          obtain ⟨e, he⟩ := List.mem_iff_getElem?.1 hrow
          obtain ⟨o, ho, hle⟩ := h2 e row he
          refine ⟨o, ho, ?_⟩
          have := List.all_eq_true.1 hall (some o) (by
            simp only [List.append_nil, List.mem_map]
            exact ⟨o, List.mem_of_getElem? hle, rfl⟩)
          simpa [notBad] using this
        · rename_i e he
          split at hos
          · rename_i hc
            exfalso
            unfold groupOrient at he
            simp only at he
            split at he
            · cases he; exact absurd hc.1 (by simp)
            · split at he
              · cases he; exact absurd hc.1 (by simp)
              · split at he <;> cases he
                exact absurd hc.1 (by simp)
          · cases hos
      · cases h
  · rename_i hdim
    cases h
    exact ⟨rfl, rfl, rfl, rfl, rfl, rfl, fun h => absurd h hdim⟩

theorem simplexMesh_defined {vs : List (Fin d → K)} {grp : ElGroup (List (List K))} (hd : d ≠ 0)
    (h : ∀ row ∈ grp.vertexIndices, ∃ o, elemOrient vs (unitVerts (.simplex d)) row = some o ∧ 0 < o) :
    ∃ m : FMesh (List (List K)) (Fin d → K) A, simplexMesh vs d grp = .ok m := by
  obtain ⟨l, h1, h2⟩ := groupOrient_ok (shape := fun _ => .simplex d) (g := grp) hd (simplex_corners d)
    fun row hrow => (h row hrow).imp fun _ h => h.1
  unfold simplexMesh
  simp only [if_true, meshOrient, List.isEmpty_cons, Bool.false_eq_true, if_false, orientLoop, h1]
  rw [if_pos]
  · exact ⟨_, rfl⟩
  · rw [List.append_nil, h2, List.all_eq_true]
    intro x hx
    obtain ⟨row, hrow, rfl⟩ := List.mem_map.1 hx
    obtain ⟨o, h3, h4⟩ := h row hrow
    rw [h3]
    simpa [notBad] using h4

variable [IsStrictOrderedRing K]

/-- The orientation of a simplex with valid vertices. -/
theorem simplex_orient (hd : 1 ≤ d) (hd3 : d ≤ 3) {vs : List (Fin d → K)} {row : List Nat}
    (hl : row.length = d + 1) (hv : ∀ v ∈ row, v < vs.length) :
    ∃ o δ, elemOrient vs (unitVerts (.simplex d)) row = some o ∧ SimplexDet vs row δ ∧ (0 < o ↔ 0 < δ) ∧
      (o < 0 ↔ δ < 0) := by
  obtain ⟨M, b, h⟩ := simplex_affine (K := K) two_ne_zero hl hv
  obtain ⟨o, h1, h2, h3⟩ := C55_orientation_exact hd hd3 (simplex_corners d) h
  exact ⟨o, M.det, h1, ⟨M, b, h, rfl⟩, h2, h3⟩

theorem SimplexDet.orient (hd : 1 ≤ d) (hd3 : d ≤ 3) {vs : List (Fin d → K)} {row : List Nat} {δ : K}
    (h : SimplexDet vs row δ) : ∃ o, elemOrient vs (unitVerts (.simplex d)) row = some o ∧ (0 < o ↔ 0 < δ) ∧
      (o < 0 ↔ δ < 0) := by
  obtain ⟨M, b, h, rfl⟩ := h
  exact C55_orientation_exact hd hd3 (simplex_corners d) h

end

/-! ## Properties -/

section
variable {K : Type} [Field K] [LinearOrder K] [IsStrictOrderedRing K] {d : Nat} {A : Type}
  {solve : Mat K → List K → Option (List K)} {tuples : Nat → List (List Nat)} {basis : List (List K → K)}
  {resample : List (List K → K) → List (List K) → List (List K) → Option (Mat K)} {fvi : List (List Nat)}
  {vs : List (Fin d → K)} {nv : Nat} {simplices : List (List Nat)} {order : Int} {unit : List (List K)}
  {m : FMesh (List (List K)) (Fin d → K) A}

omit [Field K] [LinearOrder K] [IsStrictOrderedRing K] in
theorem ElementVertices.valid {vertices : List (List K)} {row : List Nat} {ev : List (List K)}
    (h : ElementVertices vertices row ev) : ∀ v ∈ row, v < vertices.length := by
  intro v hv
  obtain ⟨i, hi⟩ := List.mem_iff_getElem?.1 hv
  have hlt : i < ev.length := by rw [h.1]; exact (List.getElem?_eq_some_iff.1 hi).1
  have := h.2 i v hi
  rw [List.getElem?_eq_getElem hlt] at this
  exact (List.getElem?_eq_some_iff.1 this).1

omit [LinearOrder K] [IsStrictOrderedRing K] in
theorem ElementVertices.straight [CharZero K] {row : List Nat} {ev : List (List K)}
    (h : ElementVertices (vs.map List.ofFn) row ev) (hne : row ≠ []) :
    StraightSimplex vs unit row (unit.map (simplexPoint d ev)) := by
  refine ⟨ev, _, h, simplexPoint_spec ?_ fun p hp => ?_, rfl⟩
  · rintro rfl
    exact hne (List.length_eq_zero_iff.1 h.1.symm)
  · obtain ⟨f, _, rfl⟩ := List.mem_map.1 (h.mem hp)
    simp

/-- C90: without `fix_orientation` (and in `from_meshpy`) the mesh has the given vertices and elements, is
conforming, and the nodes of each element are the images of the unit nodes under the affine map from the
reference simplex to the element; if the elements fill the space, all are positively oriented. -/
theorem C90_plain (hvi : ∀ row ∈ simplices, row.length = nv)
    (h : fromSimplices solve tuples basis resample fvi vs nv simplices order unit false = .ok m) :
    m.vertices = some vs ∧ m.ambientDim = d ∧ m.lazy.conforming = some true ∧
      (∃ grp, m.groups = [grp] ∧ grp.vertexIndices = simplices ∧ grp.nodes.length = simplices.length ∧
        grp.fvi = fvi ∧ ∀ (e : Nat) row, simplices[e]? = some row →
          ∃ nd, grp.nodes[e]? = some nd ∧ StraightSimplex vs unit row nd) ∧
      (nv = d + 1 → 1 ≤ d ∧ (d ≤ 3 → ∀ row ∈ simplices, ∃ δ, SimplexDet vs row δ ∧ 0 < δ)) := by
  unfold fromSimplices at h
  split at h
  · cases h
  · rename_i nodes hn
    simp only [Bool.false_eq_true, if_false] at h
    obtain ⟨_, hnv, _, hlen, hel⟩ := groupFromVertices_simplex hn
    obtain ⟨h1, h2, h3, _, _, h4, h5⟩ := simplexMesh_ok h
    refine ⟨h1, h2, h3, ⟨_, h4, rfl, hlen, rfl, fun e row he => ?_⟩, fun hd => ?_⟩
    · obtain ⟨ev, a, b⟩ := hel e row he
      refine ⟨_, b, a.straight ?_⟩
      rintro rfl
      exact hnv (hvi [] (List.mem_of_getElem? he)).symm
    · obtain ⟨h6, h7⟩ := h5 (by omega)
      refine ⟨by omega, fun hd3 row hrow => ?_⟩
      obtain ⟨o, ho, hpos⟩ := h7 row hrow
      obtain ⟨e, he⟩ := List.mem_iff_getElem?.1 hrow
      obtain ⟨ev, a, _⟩ := hel e row he
      obtain ⟨o', δ, h8, h9, h10, _⟩ := simplex_orient (by omega) hd3 (by rw [hvi row hrow, hd])
        (fun v hv => by simpa using a.valid v hv)
      rw [ho] at h8
      cases h8
      exact ⟨δ, h9, h10.1 hpos⟩

/-- C90: with `fix_orientation` the elements of the mesh are those given, in the same order, with all
orientations positive: elements with negative orientation have their first two vertices exchanged, all others
are as given.  The nodes of each element are the images of the unit nodes under the affine map from the
reference simplex to the vertices in their new order. -/
theorem C90_fixed (hd3 : d ≤ 3) (hr : ResampleSound resample) (hb : basis.length = unit.length)
    (hA : HasAffine basis d) (hvi : ∀ row ∈ simplices, row.length = nv)
    (h : fromSimplices solve tuples basis resample fvi vs nv simplices order unit true = .ok m) :
    nv = d + 1 ∧ 1 ≤ d ∧ m.vertices = some vs ∧ m.ambientDim = d ∧ m.lazy.conforming = some true ∧
      ∃ grp, m.groups = [grp] ∧ grp.fvi = fvi ∧ grp.vertexIndices.length = simplices.length ∧
        grp.nodes.length = simplices.length ∧ ∀ (e : Nat) row, simplices[e]? = some row →
          ∃ row' nd δ, grp.vertexIndices[e]? = some row' ∧ grp.nodes[e]? = some nd ∧
            StraightSimplex vs unit row' nd ∧ SimplexDet vs row δ ∧ δ ≠ 0 ∧ SimplexDet vs row' |δ| ∧
            (0 < δ → row' = row) ∧
            (δ < 0 → ∃ a b rest, row = a :: b :: rest ∧ row' = b :: a :: rest) := by
  unfold fromSimplices at h
  split at h
  · cases h
  · rename_i nodes hn
    simp only [if_true] at h
    obtain ⟨_, hnv, hunit, hlen, hel⟩ := groupFromVertices_simplex hn
    split at h
    · cases h
    · rename_i hdim
      have hnvd : nv = d + 1 := by omega
      subst hnvd
      simp only [Nat.add_sub_cancel] at h
      split at h
      · cases h
      · rename_i os hos
        obtain ⟨_, hd0, hosl, hose⟩ := groupOrient_simplex hos
        obtain ⟨n, rfl⟩ : ∃ n, d = n + 1 := ⟨d - 1, by omega⟩
        split at h
        · cases h
        · rename_i grp' hgrp
          unfold flipSimplices at hgrp
          split at hgrp
          · cases hgrp
          · rename_i perm hperm
            split at hgrp
            · cases hgrp
            · rename_i F hF
              cases hgrp
              obtain ⟨h1, h2, h3, _, _, h4, h5⟩ := simplexMesh_ok h
              obtain ⟨_, h7⟩ := h5 rfl
              simp only at hosl hose
              refine ⟨rfl, by omega, h1, h2, h3, _, h4, rfl, by simp [flipGroup, hosl],
                by simp [flipGroup, hosl, hlen], fun e row he => ?_⟩
              obtain ⟨ev, hev, hnd⟩ := hel e row he
              obtain ⟨o, ho, hoe⟩ := hose e row he
              have hrl := hvi row (List.mem_of_getElem? he)
              obtain ⟨M, b, haff⟩ := simplex_affine (K := K) (d := n + 1) two_ne_zero hrl
                (fun v hv => by simpa using hev.valid v hv)
              obtain ⟨o', ho', hpos, hneg⟩ := C55_orientation_exact (by omega) hd3 (simplex_corners _) haff
              rw [ho] at ho'
              cases ho'
              have hrow' : (flipGroup perm (flipNodes F (n + 1)) (os.map fun o => decide (o < 0))
                  (⟨0, fvi, simplices, nodes⟩ : ElGroup (List (List K)))).vertexIndices[e]? =
                  some (if o < 0 then flipRow perm row else row) := by
                simp [flipGroup, List.getElem?_zipWith, hoe, he]
              have hnd' : (flipGroup perm (flipNodes F (n + 1)) (os.map fun o => decide (o < 0))
                  (⟨0, fvi, simplices, nodes⟩ : ElGroup (List (List K)))).nodes[e]? =
                  some (if o < 0 then flipNodes F (n + 1) (unit.map (simplexPoint (n + 1) ev))
                    else unit.map (simplexPoint (n + 1) ev)) := by
                simp [flipGroup, List.getElem?_zipWith, hoe, hnd]
              obtain ⟨o2, ho2, hpos2⟩ := h7 _ (List.mem_of_getElem? hrow')
              by_cases hlt : o < 0
              · rw [if_pos hlt] at hrow' hnd' ho2
                obtain ⟨v0, v1, rest, rfl⟩ : ∃ v0 v1 rest, row = v0 :: v1 :: rest := by
                  match row, hrl with
                  | v0 :: v1 :: rest, _ => exact ⟨v0, v1, rest, rfl⟩
                have hrest : rest.length = n := by simpa using hrl
                obtain ⟨perm', hp', hfl⟩ := C45_simplex_row n v0 v1 rest hrest
                rw [hperm] at hp'
                cases hp'
                obtain ⟨p, q, prest, rfl⟩ : ∃ p q prest, ev = p :: q :: prest := by
                  have := hev.1
                  match ev, this with
                  | p :: q :: prest, _ => exact ⟨p, q, prest, rfl⟩
                have hpl : prest.length = n := by have := hev.1; simp at this; omega
                have hnodes := flipNodes_straight hr two_ne_zero hb hF hA
                  (fun x hx => by have := hunit x hx; omega) (n + 1) (p := p) (q := q) hpl
                rw [hnodes] at hnd'
                obtain ⟨M', b', haff', hdet⟩ := haff.flip (simplex_corners _) hperm
                have hdneg := hneg.1 hlt
                refine ⟨_, _, M.det, hrow', hnd', ?_, ⟨M, b, haff, rfl⟩, hdneg.ne, ⟨M', b', haff', ?_⟩,
                  fun h => absurd h (not_lt.2 hdneg.le), fun _ => ⟨v0, v1, rest, rfl, hfl⟩⟩
                · rw [hfl]
                  refine ElementVertices.straight ⟨by simp [hrest, hpl], fun i v hi => ?_⟩ (by simp)
                  match i with
                  | 0 => exact hev.2 1 v hi
                  | 1 => exact hev.2 0 v hi
                  | i + 2 => exact hev.2 (i + 2) v hi
                · rw [hdet, abs_of_neg hdneg]
              · rw [if_neg hlt] at hrow' hnd' ho2
                rw [ho] at ho2
                cases ho2
                have hdpos := hpos.1 hpos2
                refine ⟨_, _, M.det, hrow', hnd', hev.straight (by rintro rfl; simp at hrl), ⟨M, b, haff, rfl⟩,
                  hdpos.ne', ⟨M, b, haff, (abs_of_pos hdpos).symm⟩, fun _ => rfl,
                  fun h => absurd h (not_lt.2 hdpos.le)⟩

omit [LinearOrder K] [IsStrictOrderedRing K] in
theorem groupFromVertices_simplex_defined {amb : Nat} {vertices : List (List K)} (ho : 1 ≤ order) (hnv : nv ≠ 0)
    (hu : ∀ x ∈ unit, x.length + 1 = nv) (hv : ∀ row ∈ simplices, ∀ v ∈ row, v < vertices.length) :
    ∃ nodes, groupFromVertices solve tuples .simplex amb nv vertices simplices order unit = .ok nodes := by
  have hm := mapM_some_eq_map (f := fun row : List Nat => row.mapM fun v => vertices[v]?)
    (g := fun row => row.map fun v => vertices.getD v []) (l := simplices) fun row hrow =>
      mapM_some_eq_map fun v hvr => by
        have := hv row hrow v hvr
        rw [List.getD_eq_getElem?_getD, List.getElem?_eq_getElem this, Option.getD_some]
  unfold groupFromVertices
  rw [hm]
  simp only
  rw [if_neg (by omega), if_neg hnv, if_pos]
  · exact ⟨_, rfl⟩
  · rw [List.all_eq_true]
    intro x hx
    simpa using hu x hx

/-- C90: with `fix_orientation` the call succeeds exactly if the order is at least one, the elements have one
vertex more than there are coordinates, vertex numbers are valid and no element is degenerate. -/
theorem C90_fixed_defined (hd : 1 ≤ d) (hd3 : d ≤ 3) (hr : ResampleSound resample)
    (hb : basis.length = unit.length) (hA : HasAffine basis d)
    (hF : ∃ F, resample basis (unit.map flipUnit) unit = some F) (hvi : ∀ row ∈ simplices, row.length = nv)
    (hu : ∀ x ∈ unit, x.length + 1 = nv) :
    (∃ m : FMesh (List (List K)) (Fin d → K) A,
      fromSimplices solve tuples basis resample fvi vs nv simplices order unit true = .ok m) ↔
      1 ≤ order ∧ nv = d + 1 ∧ ∀ row ∈ simplices, (∀ v ∈ row, v < vs.length) ∧
        ∃ δ, SimplexDet vs row δ ∧ δ ≠ 0 := by
  constructor
  · rintro ⟨m, h⟩
    obtain ⟨h1, _, _, _, _, grp, _, _, _, _, h2⟩ := C90_fixed hd3 hr hb hA hvi h
    unfold fromSimplices at h
    split at h
    · cases h
    · rename_i nodes hn
      obtain ⟨h3, _, _, _, hel⟩ := groupFromVertices_simplex hn
      refine ⟨h3, h1, fun row hrow => ?_⟩
      obtain ⟨e, he⟩ := List.mem_iff_getElem?.1 hrow
      obtain ⟨ev, hev, _⟩ := hel e row he
      obtain ⟨_, _, δ, _, _, _, h4, h5, _⟩ := h2 e row he
      exact ⟨fun v hv => by simpa using hev.valid v hv, δ, h4, h5⟩
  · rintro ⟨ho, rfl, hrows⟩
    obtain ⟨n, rfl⟩ : ∃ n, d = n + 1 := ⟨d - 1, by omega⟩
    obtain ⟨nodes, hn⟩ := groupFromVertices_simplex_defined (solve := solve) (tuples := tuples) (amb := n + 1)
      (vertices := vs.map List.ofFn) ho (Nat.succ_ne_zero (n + 1)) hu
      (fun row hrow v hv => by simpa using (hrows row hrow).1 v hv)
    obtain ⟨F, hF⟩ := hF
    have hor : ∀ row ∈ simplices, ∃ o, elemOrient vs (unitVerts (.simplex (n + 1))) row = some o := by
      intro row hrow
      obtain ⟨_, δ, h1, _⟩ := hrows row hrow
      obtain ⟨o, h2, _⟩ := h1.orient hd hd3
      exact ⟨o, h2⟩
    obtain ⟨os, hos, _⟩ := groupOrient_ok (shape := fun _ => .simplex (n + 1)) (vs := vs)
      (g := (⟨0, fvi, simplices, nodes⟩ : ElGroup (List (List K)))) (by omega) (simplex_corners (n + 1)) hor
    obtain ⟨_, _, hosl, hose⟩ := groupOrient_simplex hos
    unfold fromSimplices
    rw [hn]
    simp only [if_true, Nat.add_sub_cancel, ne_eq, not_true, if_false, hos]
    have hperm : flipPermutation (.simplex (n + 1)) = .ok (1 :: 0 :: List.range' 2 n) := rfl
    simp only [flipSimplices, hperm, hF]
    apply simplexMesh_defined (Nat.succ_ne_zero n)
    intro row' hrow'
    obtain ⟨e, he⟩ := List.mem_iff_getElem?.1 hrow'
    simp only [flipGroup] at he
    rw [List.getElem?_zipWith] at he
    split at he
    · rename_i f row hf hrow
      simp only [Option.some.injEq] at he
      obtain ⟨o, ho1, ho2⟩ := hose e row hrow
      rw [List.getElem?_map, ho2, Option.map_some, Option.some.injEq] at hf
      obtain ⟨_, δ, ⟨M, b, haff, rfl⟩, hne⟩ := hrows row (List.mem_of_getElem? hrow)
      obtain ⟨o', ho', hpos, hneg⟩ := C55_orientation_exact hd hd3 (simplex_corners _) haff
      rw [ho1] at ho'
      cases ho'
      by_cases hlt : o < 0
      · have hft : f = true := by rw [← hf]; simpa using hlt
        rw [hft, if_pos rfl] at he
        obtain ⟨o1, h5, h6⟩ := C55_flip_reverses (simplex_corners _) hperm haff
        rw [ho1] at h5
        cases h5
        rw [← he]
        exact ⟨-o, h6, by simpa using hlt⟩
      · have hff : f = false := by rw [← hf]; simpa using hlt
        rw [hff, if_neg (by simp)] at he
        rw [← he]
        refine ⟨o, ho1, hpos.2 ?_⟩
        rcases lt_trichotomy M.det 0 with h | h | h
        · exact absurd (hneg.2 h) hlt
        · exact absurd h hne
        · exact h
    · cases he

/-- C90: without `fix_orientation` elements that fill the space are accepted exactly if all of them are
positively oriented. -/
theorem C90_plain_defined (hd : 1 ≤ d) (hd3 : d ≤ 3) (hvi : ∀ row ∈ simplices, row.length = d + 1)
    (hu : ∀ x ∈ unit, x.length = d) :
    (∃ m : FMesh (List (List K)) (Fin d → K) A,
      fromSimplices solve tuples basis resample fvi vs (d + 1) simplices order unit false = .ok m) ↔
      1 ≤ order ∧ ∀ row ∈ simplices, (∀ v ∈ row, v < vs.length) ∧ ∃ δ, SimplexDet vs row δ ∧ 0 < δ := by
  constructor
  · rintro ⟨m, h⟩
    obtain ⟨_, _, _, _, h2⟩ := C90_plain hvi h
    unfold fromSimplices at h
    split at h
    · cases h
    · rename_i nodes hn
      obtain ⟨h3, _, _, _, hel⟩ := groupFromVertices_simplex hn
      refine ⟨h3, fun row hrow => ?_⟩
      obtain ⟨e, he⟩ := List.mem_iff_getElem?.1 hrow
      obtain ⟨ev, hev, _⟩ := hel e row he
      exact ⟨fun v hv => by simpa using hev.valid v hv, (h2 rfl).2 hd3 row hrow⟩
  · rintro ⟨ho, hrows⟩
    obtain ⟨nodes, hn⟩ := groupFromVertices_simplex_defined (solve := solve) (tuples := tuples) (amb := d)
      (vertices := vs.map List.ofFn) ho (Nat.succ_ne_zero d) (fun x hx => by rw [hu x hx])
      (fun row hrow v hv => by simpa using (hrows row hrow).1 v hv)
    unfold fromSimplices
    rw [hn]
    simp only [Bool.false_eq_true, if_false, Nat.add_sub_cancel]
    apply simplexMesh_defined (by omega)
    intro row hrow
    obtain ⟨_, δ, h1, h2⟩ := hrows row hrow
    obtain ⟨o, h3, h4, _⟩ := h1.orient hd hd3
    exact ⟨o, h3, h4.2 h2⟩

omit [IsStrictOrderedRing K] in
/-- C90: `fix_orientation` for elements that do not fill the space is an error, whatever the elements. -/
theorem C90_not_volume (hnv : nv ≠ d + 1) : ¬ ∃ m : FMesh (List (List K)) (Fin d → K) A,
    fromSimplices solve tuples basis resample fvi vs nv simplices order unit true = .ok m := by
  rintro ⟨m, h⟩
  unfold fromSimplices at h
  split at h
  · cases h
  · rename_i nodes hn
    obtain ⟨_, h2, _⟩ := groupFromVertices_simplex hn
    rw [if_pos rfl, if_pos (by omega)] at h
    cases h

end

/-! ## Examples -/

/-- Linear functions on the triangle. (Example, no code.) -/
def exTriBasis : List (List ℚ → ℚ) :=
  [fun x => -(x.getD 0 0 + x.getD 1 0) / 2, fun x => (1 + x.getD 0 0) / 2, fun x => (1 + x.getD 1 0) / 2]

/-- The vertices of the triangle as unit nodes. (Example, no code.) -/
def exTriUnit : List (List ℚ) := [[-1, -1], [1, -1], [-1, 1]]

theorem exTri_affine : HasAffine exTriBasis 2 := by
  intro c a ha
  match a, ha with
  | [a, b], _ =>
    refine ⟨[c - a - b, c + a - b, c - a + b], rfl, fun x hx => ?_⟩
    match x, hx with
    | [x, y], _ =>
      simp [evalAt, rowDot, exTriBasis]
      ring

-- the hypotheses of C90_fixed_defined for two triangles, the second of which is negatively oriented
example : ResampleSound (lagrangeResample (P := List ℚ)) ∧ exTriBasis.length = exTriUnit.length ∧
    HasAffine exTriBasis 2 ∧
    (∃ F, lagrangeResample exTriBasis (exTriUnit.map flipUnit) exTriUnit = some F) ∧
    (∀ row ∈ [[0, 1, 2], [3, 1, 2]], row.length = 2 + 1) ∧ (∀ x ∈ exTriUnit, x.length + 1 = 2 + 1) ∧
    ∀ row ∈ [[0, 1, 2], [3, 1, 2]], (∀ v ∈ row, v < exOrientVerts.length) ∧
      ∃ δ, SimplexDet exOrientVerts row δ ∧ δ ≠ 0 := by
  refine ⟨lagrangeResample_sound, rfl, exTri_affine, ⟨[[0, 1, 0], [1, 0, 0], [0, 0, 1]], by decide +kernel⟩,
    by decide, by decide, ?_⟩
  intro row hrow
  simp only [List.mem_cons, List.not_mem_nil, or_false] at hrow
  rcases hrow with rfl | rfl
  · refine ⟨by decide, 1 / 4, ⟨!![1/2, 0; 0, 1/2], ![1/2, 1/2], affine_two rfl fun k hk => ?_,
      by norm_num [Matrix.det_fin_two]⟩, by norm_num⟩
    have hk : k < 3 := hk
    interval_cases k <;> refine ⟨_, _, _, rfl, rfl, rfl, ?_⟩ <;> ext i <;> fin_cases i <;>
      simp [exPoint, unitPoint, dotProduct, Fin.sum_univ_two] <;> norm_num
  · refine ⟨by decide, -1 / 4, ⟨!![0, -1/2; -1/2, 0], ![1/2, 1/2], affine_two rfl fun k hk => ?_,
      by norm_num [Matrix.det_fin_two]⟩, by norm_num⟩
    have hk : k < 3 := hk
    interval_cases k <;> refine ⟨_, _, _, rfl, rfl, rfl, ?_⟩ <;> ext i <;> fin_cases i <;>
      simp [exPoint, unitPoint, dotProduct, Fin.sum_univ_two] <;> norm_num

-- the nodes of a triangle before and after the flip
example : flipNodes [[0, 1, 0], [1, 0, 0], [0, 0, 1]] 2
    (exTriUnit.map (simplexPoint 2 [[1, 1], [1, 0], [0, 1]])) = [[1, 0], [1, 1], [0, 1]] := by
  decide +kernel

-- a segment in the plane is accepted without `fix_orientation`
example : ∃ nodes, groupFromVertices (fun _ _ => none) (fun _ => []) .simplex 2 2
    (exOrientVerts.map List.ofFn) [[0, 1]] 1 ([[-1], [1]] : List (List ℚ)) = .ok nodes :=
  groupFromVertices_simplex_defined (by decide) (by decide) (by decide) (by decide)

end Meshmode
