import Verif.Partition.TwoSteps
import Verif.Connection.RefineIntegral
import Verif.Dof.Norm

/-!
# Data on the parts of a mesh: nodes, sums, integrals and norms (C123)

`partition_mesh` (meshmode/mesh/processing.py:101-570), the nodes of the discretizations of the parts
(meshmode/discretization/__init__.py:580-638) and `flat_norm` of the parts' arrays
(meshmode/dof_array.py:497-569).  Arrays are lists of groups, of elements and of values.  Arithmetic is exact.
-/
namespace Meshmode

variable {N P A E : Type}

/-! ## Model -/

/-- `resample_mesh_nodes` of `Discretization.nodes` for one group and one coordinate: the values at the group's
unit nodes on all elements, meshmode/discretization/__init__.py:602-631; `none` if the matrix of
`from_mesh_interp_matrix` (meshmode/discretization/poly_element.py:124-134) cannot be computed. -/
def discrGroupNodes {K : Type} [Field K] [DecidableEq K]
    (resample : List (List K → K) → List (List K) → List (List K) → Option (Mat K))
    (meg : SGroup K (List K)) (unit : List (List K)) (nodes : List (List K)) : Option (List (List K)) :=
  if unit = meg.nodes then some nodes
  else (resample meg.basis unit meg.nodes).map fun M => nodes.map (matVec M)

/-- One coordinate of `Discretization.nodes`, meshmode/discretization/__init__.py:632-635.  `coord` takes that
coordinate of the nodes of an element, `nodes[iaxis]`; `meg i` and `unit i` are reference element and unit nodes of
the `i`-th group, which the group factory chooses from the type, dimension and order of the mesh's group. -/
def discrCoordinate {K : Type} [Field K] [DecidableEq K]
    (resample : List (List K → K) → List (List K) → List (List K) → Option (Mat K))
    (meg : Nat → SGroup K (List K)) (unit : Nat → List (List K)) (coord : N → List K)
    (groups : List (ElGroup N)) : Option (List (List (List K))) :=
  groups.zipIdx.mapM fun gi =>
    discrGroupNodes resample (meg gi.2) (unit gi.2) (gi.1.nodes.map coord)

/-! ## Specification -/

/-- The array has one row for each element of each group. (Specification or proof vocabulary, no code.) -/
def FitsMesh (m : MMesh N P A) (v : List (List (List E))) : Prop := v.map List.length = m.sizes

/-- The array `w` on the part made of the elements `sel` has on each element what `v` has on the element it is a
copy of. (Specification or proof vocabulary, no code.) -/
structure PartRows (m pm : MMesh N P A) (sel : List Nat) (v w : List (List (List E))) : Prop where
  fits : FitsMesh pm w
  copies : ∀ (g i' i : Nat), SameElem m pm sel g i' i → ∀ rows rows', v[g]? = some rows → w[g]? = some rows' →
    rows'[i']? = rows[i]?

/-- All parts of a mesh have been made. (Specification or proof vocabulary, no code.) -/
structure AllParts (m : MMesh N P A) (parts : Parts) (Ms : Nat → MMesh N P A) : Prop where
  nonempty : parts ≠ []
  ids : (parts.map Prod.fst).Nodup
  sorted : ∀ p ∈ parts, p.2.Pairwise (· < ·)
  made : ∀ x ∈ parts, getMeshPart m parts x.1 = .ok (Ms x.1)

/-- An array made by treating each element. (Specification or proof vocabulary, no code.) -/
def mapRows {F : Type} (f : Nat → List E → List F) (v : List (List (List E))) : List (List (List F)) :=
  v.zipIdx.map fun rg => rg.1.map (f rg.2)

/-- An array made of two arrays, element by element. (Specification or proof vocabulary, no code.) -/
def zipRows {F G : Type} (f : Nat → List E → List F → List G) (v : List (List (List E))) (u : List (List (List F))) :
    List (List (List G)) :=
  (v.zip u).zipIdx.map fun rg => List.zipWith (f rg.2) rg.1.1 rg.1.2

/-- The array as the argument of `flat_norm`, in the array context `c`.
(Specification or proof vocabulary, no code.) -/
def rowsCont (c : Nat) (v : List (List (List E))) : Cont E := .dof (some c) (v.map List.flatten)

/-- The array as a function of group, element and node. (Specification or proof vocabulary, no code.) -/
def rowsArr (v : List (List (List ℝ))) : DofArr ℝ := fun g e i => ((v.getD g []).getD e []).getD i 0

/-- The integral of an array over a mesh: `dts`, `nn` are the data and numbers of nodes of the groups, `n` the
number of coordinates `X`. (Specification or proof vocabulary, no code.) -/
noncomputable def meshIntegral (dts : Nat → L2Data) (nn : Nat → Nat) (n : Nat) (X : Nat → List (List (List ℝ)))
    (u : List (List (List ℝ))) (sizes : List Nat) : ℝ :=
  ∑ g ∈ Finset.range sizes.length, ∑ e ∈ Finset.range (sizes.getD g 0),
    elIntegral (dts g) (nn g) n (fun c => rowsArr (X c)) (rowsArr u) g e

/-! ## The elements of the parts -/

section
variable {m : MMesh N P A} {parts : Parts} {Ms : Nat → MMesh N P A}

theorem AllParts.spec (H : AllParts m parts Ms) {x : Nat × List Nat} (hx : x ∈ parts) :
    ValidParts (nelements m.sizes) parts ∧ ∃ required, FilterSpec m x.2 (Ms x.1).groups required := by
  obtain ⟨pidx, sel, required, hs⟩ := getMeshPart_ok (H.made x hx)
  obtain ⟨i0, hi0⟩ := List.mem_iff_getElem?.1 hx
  obtain ⟨rfl, rfl⟩ := parts_index_unique H.ids hi0 hs.part
  have hv := hs.valid H.ids H.sorted
  exact ⟨hv, required, hs.filterSpec hv⟩

theorem AllParts.valid (H : AllParts m parts Ms) : ValidParts (nelements m.sizes) parts := by
  obtain ⟨x, hx⟩ := List.exists_mem_of_ne_nil _ H.nonempty
  exact (H.spec hx).1

theorem mem_filteredElements_iff {sizes sel : List Nat} (hs : sel.Pairwise (· < ·)) (h : ∀ e ∈ sel, e < sizes.sum)
    {g n : Nat} (hg : sizes[g]? = some n) (i : Nat) :
    i ∈ filteredElements sizes sel g ↔ i < n ∧ (sizes.take g).sum + i ∈ sel := by
  obtain ⟨hlt, hn⟩ := List.getElem?_eq_some_iff.1 hg
  obtain ⟨h1, h2⟩ := filteredElements_spec hs h hlt
  constructor
  · intro hi
    obtain ⟨j, hj⟩ := List.mem_iff_getElem?.1 hi
    obtain ⟨a, b, c⟩ := h2 j i hj
    exact ⟨hn ▸ c, List.mem_of_getElem? a⟩
  · rintro ⟨hi, he⟩
    obtain ⟨k, hk⟩ := List.mem_iff_getElem?.1 he
    have hb := (startOf_block (sizes := sizes) (g := g) hs hk).2 (by rw [take_succ_sum hg]; omega)
    have hj : k - startOf sizes sel g < (filteredElements sizes sel g).length := by omega
    have hji := List.getElem?_eq_getElem hj
    have h3 := (h2 _ _ hji).1
    rw [show startOf sizes sel g + (k - startOf sizes sel g) = k by omega, hk] at h3
    have h4 : (filteredElements sizes sel g)[k - startOf sizes sel g] = i := by
      simp only [Option.some.injEq] at h3
      omega
    exact h4 ▸ List.mem_of_getElem? hji

theorem filteredElements_nodup {sizes sel : List Nat} (hs : sel.Pairwise (· < ·)) (h : ∀ e ∈ sel, e < sizes.sum)
    {g : Nat} (hg : g < sizes.length) : (filteredElements sizes sel g).Nodup := by
  obtain ⟨h1, h2⟩ := filteredElements_spec hs h hg
  rw [List.nodup_iff_getElem?_ne_getElem?]
  intro a b hab hb heq
  obtain ⟨y, hy⟩ : ∃ y, (filteredElements sizes sel g)[b]? = some y := ⟨_, List.getElem?_eq_getElem hb⟩
  have ha := (h2 a y (heq.trans hy)).1
  have hb' := (h2 b y hy).1
  have := (List.getElem?_inj (List.getElem?_eq_some_iff.1 ha).1 (nodup_of_pairwise_lt hs)).1 (ha.trans hb'.symm)
  omega

/-- The elements that the parts take from a group are the elements of the group. -/
theorem parts_elements (hv : ValidParts (nelements m.sizes) parts) {g n : Nat} (hg : m.sizes[g]? = some n) :
    (parts.flatMap fun x => filteredElements m.sizes x.2 g).Perm (List.range n) := by
  have hlt := (List.getElem?_eq_some_iff.1 hg).1
  have hsum : ∀ x ∈ parts, ∀ e ∈ x.2, e < m.sizes.sum := hv.range
  rw [List.perm_ext_iff_of_nodup _ List.nodup_range]
  · intro i
    simp only [List.mem_flatMap, List.mem_range]
    constructor
    · rintro ⟨x, hx, hi⟩
      exact ((mem_filteredElements_iff (hv.sorted x hx) (hsum x hx) hg i).1 hi).1
    · intro hi
      have hlt' : (m.sizes.take g).sum + i < nelements m.sizes := by
        have h1 := take_sum_mono m.sizes (show g + 1 ≤ m.sizes.length from hlt)
        rw [take_succ_sum hg, List.take_length] at h1
        show _ < m.sizes.sum
        omega
      obtain ⟨x, hx, hxe⟩ := hv.covered _ hlt'
      exact ⟨x, hx, (mem_filteredElements_iff (hv.sorted x hx) (hsum x hx) hg i).2 ⟨hi, hxe⟩⟩
  · rw [List.nodup_flatMap]
    refine ⟨fun x hx => filteredElements_nodup (hv.sorted x hx) (hsum x hx) hlt, ?_⟩
    rw [List.pairwise_iff_getElem]
    intro a b ha hb hab i hi hi'
    have h1 := (mem_filteredElements_iff (hv.sorted _ (List.getElem_mem ha)) (hsum _ (List.getElem_mem ha)) hg i).1 hi
    have h2 := (mem_filteredElements_iff (hv.sorted _ (List.getElem_mem hb)) (hsum _ (List.getElem_mem hb)) hg i).1 hi'
    have := hv.disjoint a b _ _ _ (List.getElem?_eq_getElem ha) (List.getElem?_eq_getElem hb) h1.2 h2.2
    omega

theorem sameElem_iff {pm : MMesh N P A} {sel required : List Nat} (hso : sel.Pairwise (· < ·))
    (hra : ∀ e ∈ sel, e < m.sizes.sum) (hf : FilterSpec m sel pm.groups required) {g : Nat} (hg : g < m.sizes.length)
    (i' i : Nat) : SameElem m pm sel g i' i ↔ (filteredElements m.sizes sel g)[i']? = some i := by
  refine ⟨sameElem_filtered hso hra hf, fun h => ?_⟩
  obtain ⟨a, b, c⟩ := (filteredElements_spec hso hra hg).2 i' i h
  have hnr : IsGlobalNr m.sizes g i ((m.sizes.take g).sum + i) := ⟨_, List.getElem?_eq_getElem hg, c, rfl⟩
  exact ⟨_, _, a, (isGlobalNr_part hso hf a i').2 ⟨⟨i, hnr⟩, rfl⟩, hnr⟩

theorem part_size {pm : MMesh N P A} {sel required : List Nat} (hso : sel.Pairwise (· < ·))
    (hra : ∀ e ∈ sel, e < m.sizes.sum) (hf : FilterSpec m sel pm.groups required) {g : Nat}
    (hg : g < m.sizes.length) : pm.sizes[g]? = some (filteredElements m.sizes sel g).length := by
  have hl : pm.sizes.length = m.sizes.length := by simp [MMesh.sizes, hf.length]
  have h := List.getElem?_eq_getElem (l := pm.sizes) (i := g) (by omega)
  rw [h, (filteredElements_spec hso hra hg).1]
  exact congrArg some (hf.sizes g _ h)

theorem part_sizes_length {pm : MMesh N P A} {sel required : List Nat} (hf : FilterSpec m sel pm.groups required) :
    pm.sizes.length = m.sizes.length := by simp [MMesh.sizes, hf.length]

/-! ## Properties -/

/-- C123: the rows that the parts have for the elements of a group are, in another order, those of the whole mesh. -/
theorem C123_rearranged (H : AllParts m parts Ms) {v : List (List (List E))} (hv : FitsMesh m v)
    {w : Nat → List (List (List E))} (hw : ∀ x ∈ parts, PartRows m (Ms x.1) x.2 v (w x.1)) {g : Nat}
    {rows : List (List E)} (hg : v[g]? = some rows) :
    (parts.flatMap fun x => (w x.1).getD g []).Perm rows := by
  have hval := H.valid
  have hsz : m.sizes[g]? = some rows.length := by rw [← hv, List.getElem?_map, hg]; rfl
  have hlt := (List.getElem?_eq_some_iff.1 hsz).1
  have h1 : ∀ x ∈ parts, (w x.1).getD g [] = (filteredElements m.sizes x.2 g).map fun i => rows.getD i [] := by
    intro x hx
    obtain ⟨_, required, hf⟩ := H.spec hx
    have hso := hval.sorted x hx
    have hra : ∀ e ∈ x.2, e < m.sizes.sum := hval.range x hx
    have hps := part_size hso hra hf hlt
    rw [← (hw x hx).fits, List.getElem?_map, Option.map_eq_some_iff] at hps
    obtain ⟨rows', hr, hl⟩ := hps
    rw [List.getD_eq_getElem?_getD, hr, Option.getD_some]
    apply List.ext_getElem?
    intro i'
    rw [List.getElem?_map]
    by_cases hi : i' < rows'.length
    · have hfi := List.getElem?_eq_getElem (l := filteredElements m.sizes x.2 g) (i := i') (by omega)
      have hs := (sameElem_iff hso hra hf hlt i' _).2 hfi
      rw [(hw x hx).copies g i' _ hs rows rows' hg hr, hfi, Option.map_some]
      have hin := ((mem_filteredElements_iff hso hra hsz _).1 (List.mem_of_getElem? hfi)).1
      rw [List.getElem?_eq_getElem hin, List.getD_eq_getElem?_getD, List.getElem?_eq_getElem hin]
      rfl
    · rw [List.getElem?_eq_none (by omega), List.getElem?_eq_none (by omega)]
      rfl
  have h2 : (parts.flatMap fun x => (w x.1).getD g []) =
      (parts.flatMap fun x => filteredElements m.sizes x.2 g).map fun i => rows.getD i [] := by
    rw [List.map_flatMap]
    exact List.flatMap_congr h1
  rw [h2]
  refine ((parts_elements hval hsz).map _).trans (List.Perm.of_eq ?_)
  apply List.ext_getElem?
  intro i
  rw [List.getElem?_map]
  by_cases hi : i < rows.length
  · rw [List.getElem?_range hi, Option.map_some, List.getD_eq_getElem?_getD, List.getElem?_eq_getElem hi]
    rfl
  · rw [List.getElem?_eq_none (by simpa using hi), List.getElem?_eq_none (by omega)]
    rfl

/-- C123: sums over the elements: adding up what each part computes from its elements gives what the whole mesh
gives. -/
theorem C123_sum {β : Type} [AddCommMonoid β] (H : AllParts m parts Ms) {F : Nat → Nat → β}
    {F' : Nat → Nat → Nat → β}
    (hF : ∀ x ∈ parts, ∀ (g i' i : Nat), SameElem m (Ms x.1) x.2 g i' i → F' x.1 g i' = F g i) :
    (parts.map fun x => ∑ g ∈ Finset.range (Ms x.1).sizes.length, ∑ e ∈ Finset.range ((Ms x.1).sizes.getD g 0),
      F' x.1 g e).sum = ∑ g ∈ Finset.range m.sizes.length, ∑ e ∈ Finset.range (m.sizes.getD g 0), F g e := by
  have hval := H.valid
  have h1 : ∀ x ∈ parts, (∑ g ∈ Finset.range (Ms x.1).sizes.length,
      ∑ e ∈ Finset.range ((Ms x.1).sizes.getD g 0), F' x.1 g e) =
      ∑ g ∈ Finset.range m.sizes.length, ((filteredElements m.sizes x.2 g).map (F g)).sum := by
    intro x hx
    obtain ⟨_, required, hf⟩ := H.spec hx
    have hso := hval.sorted x hx
    have hra : ∀ e ∈ x.2, e < m.sizes.sum := hval.range x hx
    rw [part_sizes_length hf]
    refine Finset.sum_congr rfl fun g hg => ?_
    have hlt := Finset.mem_range.1 hg
    rw [List.getD_eq_getElem?_getD, part_size hso hra hf hlt, Option.getD_some, ← Fin.sum_univ_eq_sum_range
      (fun e => F' x.1 g e), ← Fin.sum_univ_getElem]
    simp only [List.getElem_map]
    refine Fintype.sum_equiv (finCongr (by simp)) _ _ fun i => ?_
    refine hF x hx g i _ ((sameElem_iff hso hra hf hlt _ _).2 ?_)
    simp
  rw [List.map_congr_left h1]
  have h2 : ∀ l : Parts, (l.map fun x => ∑ g ∈ Finset.range m.sizes.length,
      ((filteredElements m.sizes x.2 g).map (F g)).sum).sum = ∑ g ∈ Finset.range m.sizes.length,
        ((l.flatMap fun x => filteredElements m.sizes x.2 g).map (F g)).sum := by
    intro l
    induction l with
    | nil => simp
    | cons x l ih =>
      rw [List.map_cons, List.sum_cons, ih, ← Finset.sum_add_distrib]
      refine Finset.sum_congr rfl fun g _ => ?_
      rw [List.flatMap_cons, List.map_append, List.sum_append]
  rw [h2]
  refine Finset.sum_congr rfl fun g hg => ?_
  have hlt := Finset.mem_range.1 hg
  have hsz := List.getElem?_eq_getElem hlt
  rw [((parts_elements hval hsz).map (F g)).sum_eq, List.getD_eq_getElem?_getD, hsz, Option.getD_some,
    Finset.sum_range, ← Fin.sum_univ_getElem]
  refine Fintype.sum_equiv (finCongr (by simp)) _ _ fun i => by simp

/-- C123: the integral over the mesh is the sum of those over the parts, whatever the array. -/
theorem C123_integral (H : AllParts m parts Ms) (dts : Nat → L2Data) (nn : Nat → Nat) (n : Nat)
    {X : Nat → List (List (List ℝ))} {u : List (List (List ℝ))} (hX : ∀ c < n, FitsMesh m (X c)) (hu : FitsMesh m u)
    {X' : Nat → Nat → List (List (List ℝ))} {u' : Nat → List (List (List ℝ))}
    (hX' : ∀ x ∈ parts, ∀ c < n, PartRows m (Ms x.1) x.2 (X c) (X' x.1 c))
    (hu' : ∀ x ∈ parts, PartRows m (Ms x.1) x.2 u (u' x.1)) :
    (parts.map fun x => meshIntegral dts nn n (X' x.1) (u' x.1) (Ms x.1).sizes).sum =
      meshIntegral dts nn n X u m.sizes := by
  unfold meshIntegral
  refine C123_sum H (F := fun g e => elIntegral (dts g) (nn g) n (fun c => rowsArr (X c)) (rowsArr u) g e)
    (F' := fun k g e => elIntegral (dts g) (nn g) n (fun c => rowsArr (X' k c)) (rowsArr (u' k)) g e)
    fun x hx g i' i hs => ?_
  have hrow : ∀ {v w : List (List (List ℝ))}, FitsMesh m v → PartRows m (Ms x.1) x.2 v w → ∀ j,
      rowsArr w g i' j = rowsArr v g i j := by
    intro v w hv hw j
    have hs' := hs
    obtain ⟨k, e, _, ⟨n', hn', _⟩, n1, hn1, _⟩ := hs'
    rw [← hw.fits, List.getElem?_map, Option.map_eq_some_iff] at hn'
    obtain ⟨rows', hr', _⟩ := hn'
    rw [← hv, List.getElem?_map, Option.map_eq_some_iff] at hn1
    obtain ⟨rows, hr, _⟩ := hn1
    simp only [rowsArr, List.getD_eq_getElem?_getD, hr, hr', Option.getD_some]
    rw [hw.copies g i' i hs rows rows' hr hr']
  unfold elIntegral
  refine Finset.sum_congr rfl fun j _ => ?_
  rw [hrow hu (hu' x hx) j]
  congr 2
  unfold areaElement
  congr 2
  ext a b
  simp only [Matrix.of_apply]
  refine Finset.sum_congr rfl fun c hc => ?_
  have hc' := Finset.mem_range.1 hc
  have hd : ∀ a : Fin (dts g).dim, refDeriv (dts g) (nn g) (rowsArr (X' x.1 c)) g i' j a =
      refDeriv (dts g) (nn g) (rowsArr (X c)) g i j a := by
    intro a
    unfold refDeriv
    exact Finset.sum_congr rfl fun l _ => by rw [hrow (hX c hc') (hX' x hx c hc') l]
  rw [hd, hd]

theorem parts_entries (H : AllParts m parts Ms) {v : List (List (List E))} (hv : FitsMesh m v)
    {w : Nat → List (List (List E))} (hw : ∀ x ∈ parts, PartRows m (Ms x.1) x.2 v (w x.1)) :
    (parts.flatMap fun x => (w x.1).flatten).Perm v.flatten := by
  have hlen : ∀ x ∈ parts, (w x.1).length = v.length := by
    intro x hx
    obtain ⟨_, required, hf⟩ := H.spec hx
    have h1 := congrArg List.length (hw x hx).fits
    have h2 := congrArg List.length hv
    rw [List.length_map] at h1 h2
    rw [h1, h2, part_sizes_length hf]
  have hfl : ∀ (u : List (List (List E))), u.flatten = (List.range u.length).flatMap fun g => u.getD g [] := by
    intro u
    rw [List.flatMap_def]
    congr 1
    apply List.ext_getElem?
    intro i
    rw [List.getElem?_map]
    by_cases hi : i < u.length
    · rw [List.getElem?_range hi, Option.map_some, List.getD_eq_getElem?_getD, List.getElem?_eq_getElem hi]
      rfl
    · rw [List.getElem?_eq_none (by omega), List.getElem?_eq_none (by simpa using hi)]
      rfl
  have h1 : (parts.flatMap fun x => (w x.1).flatten) =
      parts.flatMap fun x => (List.range v.length).flatMap fun g => (w x.1).getD g [] :=
    List.flatMap_congr fun x hx => by rw [hfl, hlen x hx]
  rw [h1, hfl v]
  have h2 : ∀ (l : Parts) (gs : List Nat), (l.flatMap fun x => gs.flatMap fun g => (w x.1).getD g []).Perm
      (gs.flatMap fun g => l.flatMap fun x => (w x.1).getD g []) := by
    intro l gs
    induction l with
    | nil => simp
    | cons x l ih =>
      rw [List.flatMap_cons]
      simp only [List.flatMap_cons]
      exact (List.Perm.append_left _ ih).trans (List.flatMap_append_perm gs _ _)
  refine (h2 parts _).trans ?_
  refine List.Perm.flatMap_left _ fun g hg => ?_
  have hg' := List.getElem?_eq_getElem (List.mem_range.1 hg)
  rw [List.getD_eq_getElem?_getD, hg', Option.getD_some]
  exact C123_rearranged H hv hw hg'

/-- C123: any norm of the parts' arrays together is the norm of the whole array. -/
theorem C123_norm {E : Type} [SeminormedAddGroup E] (H : AllParts m parts Ms) {v : List (List (List E))}
    (hv : FitsMesh m v) {w : Nat → List (List (List E))} (hw : ∀ x ∈ parts, PartRows m (Ms x.1) x.2 v (w x.1))
    {o : NOrd} (ho : ∀ p, o = .fin p → 0 < p) (hno : o ≠ .other) (c c' : Nat) {r r' : ℝ}
    (h : flatNorm (some o) (rowsCont c v) = .ok r)
    (h' : flatNorm (some o) (.node (parts.map fun x => rowsCont c' (w x.1))) = .ok r') : r' = r := by
  refine C35_regroup ho hno ?_ h' h
  have h1 : ∀ l : Parts, Cont.entriesAll (l.map fun x => rowsCont c' (w x.1)) =
      (l.flatMap fun x => (w x.1).flatten).flatten := by
    intro l
    induction l with
    | nil => simp [Cont.entriesAll]
    | cons x l ih =>
      rw [List.map_cons, Cont.entriesAll, ih, List.flatMap_cons, List.flatten_append]
      congr 1
      simp [rowsCont, Cont.entries, List.flatten_flatten]
  have h2 : (rowsCont c v).entries = v.flatten.flatten := by simp [rowsCont, Cont.entries, List.flatten_flatten]
  rw [Cont.entries, h1, h2]
  exact (parts_entries H hv hw).flatten

/-- C123: the norms of finite order that the parts compute for themselves, raised to the order and added up, give the
norm of the whole array raised to the order. -/
theorem C123_powers {E : Type} [SeminormedAddGroup E] (H : AllParts m parts Ms) {v : List (List (List E))}
    (hv : FitsMesh m v) {w : Nat → List (List (List E))} (hw : ∀ x ∈ parts, PartRows m (Ms x.1) x.2 v (w x.1))
    {p : ℝ} (hp : 0 < p) (c c' : Nat) :
    ∃ (r : ℝ) (rs : Nat → ℝ), flatNorm (some (.fin p)) (rowsCont c v) = .ok r ∧
      (∀ x ∈ parts, flatNorm (some (.fin p)) (rowsCont c' (w x.1)) = .ok (rs x.1)) ∧
      (parts.map fun x => rs x.1 ^ p).sum = r ^ p := by
  have ho : ∀ q, NOrd.fin p = .fin q → 0 < q := fun q hq => by
    rw [NOrd.fin.injEq] at hq
    exact hq ▸ hp
  have hdef : ∀ (k : Nat) (u : List (List (List E))), ∃ r, flatNorm (some (.fin p)) (rowsCont k u) = .ok r := by
    intro k u
    exact C35_defined ho (by simp) (k := k) (by simp [rowsCont, Cont.InContext]) (Or.inl ⟨p, rfl⟩)
  have hval : ∀ (k : Nat) (u : List (List (List E))) (r : ℝ), flatNorm (some (.fin p)) (rowsCont k u) = .ok r →
      r ^ p = (u.flatten.flatten.map fun x => ‖x‖ ^ p).sum := by
    intro k u r hr
    have h1 := C35_flat ho (by simp) hr
    rw [h1.2, ← Real.rpow_mul (sum_rpow_nonneg _ p), one_div, inv_mul_cancel₀ hp.ne', Real.rpow_one]
    simp [rowsCont, Cont.entries, List.flatten_flatten]
  choose r hr using hdef
  refine ⟨r c v, fun k => r c' (w k), hr c v, fun x _ => hr c' (w x.1), ?_⟩
  rw [hval c v _ (hr c v), ← ((parts_entries H hv hw).flatten.map fun x => ‖x‖ ^ p).sum_eq]
  clear H hw
  induction parts with
  | nil => simp
  | cons x l ih =>
    rw [List.map_cons, List.sum_cons, ih, hval c' _ _ (hr c' (w x.1)), List.flatMap_cons, List.flatten_append,
      List.map_append, List.sum_append]

/-- C123: the largest of the parts' maximum norms is the maximum norm of the whole array, if the parts have values in
all groups (without which the norm raises an exception, `C123_empty_group_counterexample`). -/
theorem C123_maximum_partial {E : Type} [SeminormedAddGroup E] (H : AllParts m parts Ms) {v : List (List (List E))}
    (hv : FitsMesh m v) {w : Nat → List (List (List E))} (hw : ∀ x ∈ parts, PartRows m (Ms x.1) x.2 v (w x.1))
    (c c' : Nat) (hne : v ≠ []) (hrows : ∀ x ∈ parts, ∀ rows ∈ w x.1, ∃ row ∈ rows, row ≠ []) :
    ∃ (r : ℝ) (rs : Nat → ℝ), flatNorm (some .inf) (rowsCont c v) = .ok r ∧
      (∀ x ∈ parts, flatNorm (some .inf) (rowsCont c' (w x.1)) = .ok (rs x.1)) ∧
      (∃ x ∈ parts, rs x.1 = r) ∧ ∀ x ∈ parts, rs x.1 ≤ r := by
  have hlen : ∀ x ∈ parts, (w x.1).length = v.length := by
    intro x hx
    obtain ⟨_, required, hf⟩ := H.spec hx
    have h1 := congrArg List.length (hw x hx).fits
    have h2 := congrArg List.length hv
    rw [List.length_map] at h1 h2
    rw [h1, h2, part_sizes_length hf]
  have hdef : ∀ (k : Nat) (u : List (List (List E))), u ≠ [] → (∀ rows ∈ u, ∃ row ∈ rows, row ≠ []) →
      ∃ r, flatNorm (some .inf) (rowsCont k u) = .ok r := by
    intro k u hu hr
    refine C35_defined (by simp) (by simp) (k := k) (by simp [rowsCont, Cont.InContext]) (Or.inr ?_)
    rw [rowsCont, Cont.NoEmpty]
    refine ⟨by simpa using hu, fun g hg => ?_⟩
    obtain ⟨rows, hrow, rfl⟩ := List.mem_map.1 hg
    obtain ⟨row, h1, h2⟩ := hr rows hrow
    rw [Ne, List.flatten_eq_nil_iff]
    exact fun h => h2 (h row h1)
  have hval : ∀ (k : Nat) (u : List (List (List E))) (r : ℝ), flatNorm (some .inf) (rowsCont k u) = .ok r →
      (∃ x ∈ u.flatten.flatten, ‖x‖ = r) ∧ ∀ x ∈ u.flatten.flatten, ‖x‖ ≤ r := by
    intro k u r hr
    have h1 := C35_flat (by simp) (by simp) hr
    have h2 : (rowsCont k u).entries = u.flatten.flatten := by simp [rowsCont, Cont.entries, List.flatten_flatten]
    rw [h2] at h1
    exact h1
  obtain ⟨x0, hx0⟩ := List.exists_mem_of_ne_nil _ H.nonempty
  have hne' : ∀ x ∈ parts, w x.1 ≠ [] := fun x hx h0 => hne (by
    have := hlen x hx
    rw [h0] at this
    exact List.length_eq_zero_iff.1 this.symm)
  have hvrows : ∀ rows ∈ v, ∃ row ∈ rows, row ≠ [] := by
    intro rows hr
    obtain ⟨g, hg⟩ := List.mem_iff_getElem?.1 hr
    have hperm := C123_rearranged H hv hw hg
    have hlt : g < (w x0.1).length := by rw [hlen x0 hx0]; exact (List.getElem?_eq_some_iff.1 hg).1
    obtain ⟨row, h1, h2⟩ := hrows x0 hx0 _ (List.getElem_mem hlt)
    refine ⟨row, hperm.mem_iff.1 (List.mem_flatMap.2 ⟨x0, hx0, ?_⟩), h2⟩
    rw [List.getD_eq_getElem?_getD, List.getElem?_eq_getElem hlt]
    exact h1
  obtain ⟨r, hr⟩ := hdef c v hne hvrows
  have hrs : ∀ k, ∃ s, (∃ sel, (k, sel) ∈ parts) → flatNorm (some .inf) (rowsCont c' (w k)) = .ok s := by
    intro k
    by_cases hk : ∃ sel, (k, sel) ∈ parts
    · obtain ⟨sel, hk⟩ := hk
      obtain ⟨s, hs⟩ := hdef c' (w k) (hne' _ hk) (hrows _ hk)
      exact ⟨s, fun _ => hs⟩
    · exact ⟨0, fun h => absurd h hk⟩
  choose rs hrs using hrs
  have hrs' : ∀ x ∈ parts, flatNorm (some .inf) (rowsCont c' (w x.1)) = .ok (rs x.1) :=
    fun x hx => hrs x.1 ⟨x.2, hx⟩
  have hperm := (parts_entries H hv hw).flatten
  have hmem : ∀ y, y ∈ v.flatten.flatten ↔ ∃ x ∈ parts, y ∈ (w x.1).flatten.flatten := by
    intro y
    rw [← hperm.mem_iff]
    simp only [List.mem_flatten, List.mem_flatMap]
    constructor
    · rintro ⟨l, ⟨x, hx, hl⟩, hy⟩
      exact ⟨x, hx, l, hl, hy⟩
    · rintro ⟨x, hx, l, hl, hy⟩
      exact ⟨l, ⟨x, hx, hl⟩, hy⟩
  obtain ⟨⟨y, hy, hyr⟩, hle⟩ := hval c v r hr
  have hle' : ∀ x ∈ parts, rs x.1 ≤ r := by
    intro x hx
    obtain ⟨⟨z, hz, hzr⟩, _⟩ := hval c' _ _ (hrs' x hx)
    rw [← hzr]
    exact hle z ((hmem z).2 ⟨x, hx, hz⟩)
  refine ⟨r, rs, hr, hrs', ?_, hle'⟩
  obtain ⟨x, hx, hyx⟩ := (hmem y).1 hy
  exact ⟨x, hx, le_antisymm (hle' x hx) (hyr ▸ (hval c' _ _ (hrs' x hx)).2 y hyx)⟩

/-! ## Arrays on the parts -/

theorem mapRows_getElem? {F : Type} (f : Nat → List E → List F) (v : List (List (List E))) (g : Nat) :
    (mapRows f v)[g]? = v[g]?.map fun rows => rows.map (f g) := by
  simp only [mapRows, List.getElem?_map, List.getElem?_zipIdx, Option.map_map]
  cases v[g]? <;> simp

theorem zipRows_getElem? {F G : Type} (f : Nat → List E → List F → List G) (v : List (List (List E)))
    (u : List (List (List F))) (g : Nat) : (zipRows f v u)[g]? =
      v[g]?.bind fun a => u[g]?.map fun b => List.zipWith (f g) a b := by
  simp only [zipRows, List.getElem?_map, List.getElem?_zipIdx, Option.map_map, List.zip, List.getElem?_zipWith]
  cases v[g]? <;> cases u[g]? <;> simp

theorem fits_iff {v : List (List (List E))} : FitsMesh m v ↔ v.length = m.sizes.length ∧
    ∀ (g : Nat) rows, v[g]? = some rows → m.sizes[g]? = some rows.length := by
  unfold FitsMesh
  constructor
  · intro h
    refine ⟨by rw [← h, List.length_map], fun g rows hg => ?_⟩
    rw [← h, List.getElem?_map, hg]
    rfl
  · rintro ⟨h1, h2⟩
    apply List.ext_getElem?
    intro g
    rw [List.getElem?_map]
    by_cases hg : g < v.length
    · rw [List.getElem?_eq_getElem hg, h2 g _ (List.getElem?_eq_getElem hg)]
      rfl
    · rw [List.getElem?_eq_none (by omega), List.getElem?_eq_none (by omega)]
      rfl

/-- C123: what is computed element by element from corresponding arrays corresponds. -/
theorem C123_elementwise {pm : MMesh N P A} {sel : List Nat} {F : Type} (f : Nat → List E → List F)
    {v w : List (List (List E))} (hw : PartRows m pm sel v w) :
    PartRows m pm sel (mapRows f v) (mapRows f w) := by
  constructor
  · rw [fits_iff]
    obtain ⟨h1, h2⟩ := fits_iff.1 hw.fits
    refine ⟨by simpa [mapRows] using h1, fun g rows hg => ?_⟩
    rw [mapRows_getElem?, Option.map_eq_some_iff] at hg
    obtain ⟨rows0, hr, rfl⟩ := hg
    rw [List.length_map]
    exact h2 g rows0 hr
  · intro g i' i hs rows rows' hr hr'
    rw [mapRows_getElem?, Option.map_eq_some_iff] at hr hr'
    obtain ⟨r0, h0, rfl⟩ := hr
    obtain ⟨r1, h1, rfl⟩ := hr'
    rw [List.getElem?_map, List.getElem?_map, hw.copies g i' i hs r0 r1 h0 h1]

/-- C123: so does what is computed from two arrays. -/
theorem C123_combined {pm : MMesh N P A} {sel : List Nat} {F G : Type} (f : Nat → List E → List F → List G)
    {v w : List (List (List E))} {v' w' : List (List (List F))} (hw : PartRows m pm sel v w)
    (hw' : PartRows m pm sel v' w') : PartRows m pm sel (zipRows f v v') (zipRows f w w') := by
  constructor
  · rw [fits_iff]
    obtain ⟨h1, h2⟩ := fits_iff.1 hw.fits
    obtain ⟨h1', h2'⟩ := fits_iff.1 hw'.fits
    refine ⟨by simp [zipRows, h1, h1'], fun g rows hg => ?_⟩
    rw [zipRows_getElem?, Option.bind_eq_some_iff] at hg
    obtain ⟨a, ha, hz⟩ := hg
    obtain ⟨b, hb, rfl⟩ := Option.map_eq_some_iff.1 hz
    have e1 := h2 g a ha
    have e2 := h2' g b hb
    rw [e1] at e2
    rw [e1, List.length_zipWith, ← Option.some.inj e2, Nat.min_self]
  · intro g i' i hs rows rows' hr hr'
    rw [zipRows_getElem?, Option.bind_eq_some_iff] at hr hr'
    obtain ⟨a, ha, hz⟩ := hr
    obtain ⟨b, hb, rfl⟩ := Option.map_eq_some_iff.1 hz
    obtain ⟨a', ha', hz'⟩ := hr'
    obtain ⟨b', hb', rfl⟩ := Option.map_eq_some_iff.1 hz'
    rw [List.getElem?_zipWith, List.getElem?_zipWith, hw.copies g i' i hs a a' ha ha',
      hw'.copies g i' i hs b b' hb hb']

end

/-! ## Nodes -/

section
variable {K : Type} [Field K] [DecidableEq K] {m : MMesh N P A} {parts : Parts} {Ms : Nat → MMesh N P A}

theorem discrGroupNodes_some {resample : List (List K → K) → List (List K) → List (List K) → Option (Mat K)}
    {meg : SGroup K (List K)} {unit : List (List K)} {nodes r : List (List K)}
    (h : discrGroupNodes resample meg unit nodes = some r) :
    ∃ f : List K → List K, ∀ ns, discrGroupNodes resample meg unit ns = some (ns.map f) := by
  unfold discrGroupNodes at h ⊢
  split at h
  · rename_i hu
    exact ⟨id, fun ns => by rw [if_pos hu, List.map_id]⟩
  · rename_i hu
    obtain ⟨M, hM, _⟩ := Option.map_eq_some_iff.1 h
    exact ⟨matVec M, fun ns => by rw [if_neg hu, hM]; rfl⟩

/-- C123: the discretization of a part can be given nodes if that of the whole mesh can, and its nodes are those of
the whole mesh on the elements the part has. -/
theorem C123_nodes (H : AllParts m parts Ms) {x : Nat × List Nat} (hx : x ∈ parts)
    {resample : List (List K → K) → List (List K) → List (List K) → Option (Mat K)} {meg : Nat → SGroup K (List K)}
    {unit : Nat → List (List K)} {coord : N → List K} {v : List (List (List K))}
    (h : discrCoordinate resample meg unit coord m.groups = some v) :
    FitsMesh m v ∧ ∃ w, discrCoordinate resample meg unit coord (Ms x.1).groups = some w ∧
      PartRows m (Ms x.1) x.2 v w := by
  obtain ⟨hval, required, hf⟩ := H.spec hx
  have hso := hval.sorted x hx
  have hra : ∀ e ∈ x.2, e < m.sizes.sum := hval.range x hx
  obtain ⟨h1, h2⟩ := mapM_zipIdx_some h
  have hfits : FitsMesh m v := by
    rw [fits_iff]
    refine ⟨by simp [MMesh.sizes, h1], fun g rows hg => ?_⟩
    have hlt : g < m.groups.length := by rw [← h1]; exact (List.getElem?_eq_some_iff.1 hg).1
    obtain ⟨b, hb, hbe⟩ := h2 g _ (List.getElem?_eq_getElem hlt)
    rw [hg] at hb
    obtain rfl := Option.some.inj hb
    obtain ⟨f, hf'⟩ := discrGroupNodes_some hbe
    rw [hf'] at hbe
    obtain rfl := Option.some.inj hbe
    rw [sizes_getElem?, List.getElem?_eq_getElem hlt]
    simp [ElGroup.nelements]
  refine ⟨hfits, ?_⟩
  have hgrp : ∀ g < m.groups.length, ∃ f : List K → List K,
      ∀ ns, discrGroupNodes resample (meg g) (unit g) ns = some (ns.map f) := by
    intro g hg
    obtain ⟨b, _, hbe⟩ := h2 g _ (List.getElem?_eq_getElem hg)
    exact discrGroupNodes_some hbe
  have hdef : ∃ w, discrCoordinate resample meg unit coord (Ms x.1).groups = some w := by
    unfold discrCoordinate
    refine mapM_isSome_of fun gi hgi => ?_
    obtain ⟨a, i⟩ := gi
    have hi := (List.getElem?_eq_some_iff.1 (List.mem_zipIdx_iff_getElem?.1 hgi)).1
    obtain ⟨f, hf'⟩ := hgrp i (by rw [← hf.length]; exact hi)
    exact ⟨_, hf' _⟩
  obtain ⟨w, hw⟩ := hdef
  obtain ⟨w1, w2⟩ := mapM_zipIdx_some hw
  refine ⟨w, hw, ?_, ?_⟩
  · rw [fits_iff]
    refine ⟨by simp [MMesh.sizes, w1], fun g rows hg => ?_⟩
    have hlt : g < (Ms x.1).groups.length := by rw [← w1]; exact (List.getElem?_eq_some_iff.1 hg).1
    obtain ⟨b, hb, hbe⟩ := w2 g _ (List.getElem?_eq_getElem hlt)
    rw [hg] at hb
    obtain rfl := Option.some.inj hb
    obtain ⟨f, hf'⟩ := discrGroupNodes_some hbe
    rw [hf'] at hbe
    obtain rfl := Option.some.inj hbe
    rw [sizes_getElem?, List.getElem?_eq_getElem hlt]
    simp [ElGroup.nelements]
  · intro g i' i hs rows rows' hr hr'
    have hlt : g < m.groups.length := by rw [← h1]; exact (List.getElem?_eq_some_iff.1 hr).1
    obtain ⟨f, hf'⟩ := hgrp g hlt
    have hg := List.getElem?_eq_getElem hlt
    obtain ⟨grp', hg', _, _, _, hrow⟩ := hf.group g _ hg
    obtain ⟨b, hb, hbe⟩ := h2 g _ hg
    rw [hr] at hb
    obtain rfl := Option.some.inj hb
    obtain ⟨b', hb', hbe'⟩ := w2 g _ hg'
    rw [hr'] at hb'
    obtain rfl := Option.some.inj hb'
    rw [hf'] at hbe hbe'
    obtain rfl := Option.some.inj hbe
    obtain rfl := Option.some.inj hbe'
    obtain ⟨⟨y, y1, y2⟩, _⟩ := hrow i' i (sameElem_filtered hso hra hf hs)
    simp only [List.getElem?_map, y1, y2]

end

/-! ## Examples -/

/-- Three straight segments and a group of two more. (Example, no code.) -/
def exSums : MMesh (List (List ℚ)) Nat Unit where
  vertices := [0, 1, 2, 3, 4, 5]
  groups := [⟨0, [[0], [1]], [[0, 1], [1, 2], [2, 3]], [[[0, 1]], [[1, 2]], [[2, 3]]]⟩,
    ⟨1, [[0], [1]], [[3, 4], [4, 5]], [[[3, 4]], [[4, 5]]]⟩]
  fags := computeFacial () [⟨0, [[0], [1]], [[0, 1], [1, 2], [2, 3]], [[[0, 1]], [[1, 2]], [[2, 3]]]⟩,
    ⟨1, [[0], [1]], [[3, 4], [4, 5]], [[[3, 4]], [[4, 5]]]⟩] [] []

/-- The parts as `partition_mesh` makes them. (Example, no code.) -/
def exSumsPart (parts : Parts) (k : Nat) : MMesh (List (List ℚ)) Nat Unit :=
  match getMeshPart exSums parts k with
  | .ok pm => pm
  | .error _ => exSums

/-- The reference segment with the values at its ends. (Example, no code.) -/
def exSumsRef (_ : Nat) : SGroup ℚ (List ℚ) := ⟨true, 0, [[-1], [1]], [fun _ => 1, fun x => x.getD 0 0]⟩

/-- The resampling matrix of the one unit node in the middle. (Example, no code.) -/
def exSumsResample (_ : List (List ℚ → ℚ)) (new _ : List (List ℚ)) : Option (Mat ℚ) :=
  if new = [[0]] then some [[1 / 2, 1 / 2]] else none

theorem exSums_parts : AllParts exSums [(0, [0, 3]), (7, [1, 2, 4])] (exSumsPart [(0, [0, 3]), (7, [1, 2, 4])]) := by
  refine ⟨by decide, by decide, by decide, ?_⟩
  decide +kernel

theorem exSums_coordinate : discrCoordinate exSumsResample exSumsRef (fun _ => [[0]]) (fun x => x.getD 0 []) exSums.groups =
      some [[[1 / 2], [3 / 2], [5 / 2]], [[7 / 2], [9 / 2]]] ∧
    discrCoordinate exSumsResample exSumsRef (fun _ => [[0]]) (fun x => x.getD 0 [])
      (exSumsPart [(0, [0, 3]), (7, [1, 2, 4])] 0).groups = some [[[1 / 2]], [[7 / 2]]] ∧
    discrCoordinate exSumsResample exSumsRef (fun _ => [[0]]) (fun x => x.getD 0 [])
      (exSumsPart [(0, [0, 3]), (7, [1, 2, 4])] 7).groups = some [[[3 / 2], [5 / 2]], [[9 / 2]]] := by
  refine ⟨?_, ?_, ?_⟩ <;> decide +kernel

/-- The coordinates of the parts' nodes. (Example, no code.) -/
def exSumsNodes (k : Nat) : List (List (List ℚ)) :=
  if k = 0 then [[[1 / 2]], [[7 / 2]]] else [[[3 / 2], [5 / 2]], [[9 / 2]]]

theorem exSums_rows : ∀ x ∈ [(0, [0, 3]), (7, [1, 2, 4])],
    PartRows exSums (exSumsPart [(0, [0, 3]), (7, [1, 2, 4])] x.1) x.2
      [[[1 / 2], [3 / 2], [5 / 2]], [[7 / 2], [9 / 2]]] (exSumsNodes x.1) := by
  intro x hx
  obtain ⟨_, w, hw, hp⟩ := C123_nodes exSums_parts hx exSums_coordinate.1
  have hx' : x = (0, [0, 3]) ∨ x = (7, [1, 2, 4]) := by simpa using hx
  rcases hx' with rfl | rfl
  · rw [exSums_coordinate.2.1] at hw
    obtain rfl := Option.some.inj hw
    exact hp
  · rw [exSums_coordinate.2.2] at hw
    obtain rfl := Option.some.inj hw
    exact hp

/-- C123: the hypotheses of `C123_rearranged`, `C123_sum`, `C123_elementwise`, `C123_combined` and `C123_nodes`. -/
example : AllParts exSums [(0, [0, 3]), (7, [1, 2, 4])] (exSumsPart [(0, [0, 3]), (7, [1, 2, 4])]) ∧
    FitsMesh exSums ([[[1 / 2], [3 / 2], [5 / 2]], [[7 / 2], [9 / 2]]] : List (List (List ℚ))) ∧
    (∀ x ∈ [(0, [0, 3]), (7, [1, 2, 4])], PartRows exSums (exSumsPart [(0, [0, 3]), (7, [1, 2, 4])] x.1) x.2
      [[[1 / 2], [3 / 2], [5 / 2]], [[7 / 2], [9 / 2]]] (exSumsNodes x.1)) :=
  ⟨exSums_parts, by unfold FitsMesh; decide +kernel, exSums_rows⟩

/-- C123: the hypotheses of `C123_norm`, `C123_powers`, `C123_maximum_partial` and `C123_integral`: the coordinates as
real numbers. -/
example : FitsMesh exSums (mapRows (fun _ l => l.map fun q : ℚ => (q : ℝ))
      [[[1 / 2], [3 / 2], [5 / 2]], [[7 / 2], [9 / 2]]]) ∧
    (∀ x ∈ [(0, [0, 3]), (7, [1, 2, 4])], PartRows exSums (exSumsPart [(0, [0, 3]), (7, [1, 2, 4])] x.1) x.2
      (mapRows (fun _ l => l.map fun q : ℚ => (q : ℝ)) [[[1 / 2], [3 / 2], [5 / 2]], [[7 / 2], [9 / 2]]])
      (mapRows (fun _ l => l.map fun q : ℚ => (q : ℝ)) (exSumsNodes x.1))) ∧
    ∀ x ∈ [(0, [0, 3]), (7, [1, 2, 4])], ∀ rows ∈ mapRows (fun _ l => l.map fun q : ℚ => (q : ℝ)) (exSumsNodes x.1),
      ∃ row ∈ rows, row ≠ [] := by
  refine ⟨by simp [FitsMesh, mapRows, exSums, MMesh.sizes, ElGroup.nelements],
    fun x hx => C123_elementwise _ (exSums_rows x hx), ?_⟩
  intro x hx rows hr
  have hx' : x = (0, [0, 3]) ∨ x = (7, [1, 2, 4]) := by simpa using hx
  rcases hx' with rfl | rfl <;> simp [mapRows, exSumsNodes] at hr <;> rcases hr with rfl | rfl <;> simp

/-- C123, not so if a part has no elements in some group: the maximum norm of the whole array exists, that of the
part's array raises an exception. -/
theorem C123_empty_group_counterexample :
    AllParts exSums [(0, [0, 1, 2]), (7, [3, 4])] (exSumsPart [(0, [0, 1, 2]), (7, [3, 4])]) ∧
    PartRows exSums (exSumsPart [(0, [0, 1, 2]), (7, [3, 4])] 0) [0, 1, 2]
      (mapRows (fun _ l => l.map fun q : ℚ => (q : ℝ)) [[[1 / 2], [3 / 2], [5 / 2]], [[7 / 2], [9 / 2]]])
      (mapRows (fun _ l => l.map fun q : ℚ => (q : ℝ)) [[[1 / 2], [3 / 2], [5 / 2]], []]) ∧
    (∃ r, flatNorm (some .inf) (rowsCont 0 (mapRows (fun _ l => l.map fun q : ℚ => (q : ℝ))
      [[[1 / 2], [3 / 2], [5 / 2]], [[7 / 2], [9 / 2]]])) = .ok r) ∧
    flatNorm (some .inf) (rowsCont 0 (mapRows (fun _ l => l.map fun q : ℚ => (q : ℝ))
      [[[1 / 2], [3 / 2], [5 / 2]], []])) = .error .empty := by
  have hp : AllParts exSums [(0, [0, 1, 2]), (7, [3, 4])] (exSumsPart [(0, [0, 1, 2]), (7, [3, 4])]) :=
    ⟨by decide, by decide, by decide, by decide +kernel⟩
  refine ⟨hp, ?_, ?_, ?_⟩
  · obtain ⟨_, w, hw, h⟩ := C123_nodes hp (x := (0, [0, 1, 2])) (by simp) exSums_coordinate.1
    have hw' : discrCoordinate exSumsResample exSumsRef (fun _ => [[0]]) (fun x => x.getD 0 [])
        (exSumsPart [(0, [0, 1, 2]), (7, [3, 4])] 0).groups = some [[[1 / 2], [3 / 2], [5 / 2]], []] := by
      decide +kernel
    rw [hw'] at hw
    obtain rfl := Option.some.inj hw
    exact C123_elementwise _ h
  · refine C35_defined (by simp) (by simp) (k := 0) (by simp [rowsCont, Cont.InContext]) (Or.inr ?_)
    simp [rowsCont, Cont.NoEmpty, mapRows]
  · simp [rowsCont, mapRows, flatNorm, normRec, dofNorm, groupNorms, npLinalgNorm, reduce1]

end Meshmode
