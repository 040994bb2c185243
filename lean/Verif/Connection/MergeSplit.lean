import Verif.Mesh.Split
import Verif.Connection.PartSums

/-!
# Data on merged and on split meshes: nodes, sums, integrals and norms (C126)

`merge_disjoint_meshes` (meshmode/mesh/processing.py:874-963), `split_mesh_groups` (970-1027) and the nodes of the
discretizations of the meshes they make (meshmode/discretization/__init__.py:580-638).  Arrays are lists of groups, of
elements and of values.  Arithmetic is exact.
-/
namespace Meshmode

variable {N P A E : Type}

/-! ## Model -/

/-- The kind of a group by its number: type, dimension, order and unit nodes, from which the group factory chooses the
group of the discretization. Code: meshmode/discretization/__init__.py:409, meshmode/discretization/poly_element.py:691-765. -/
def kindAt (groups : List (ElGroup N)) (g : Nat) : Nat := (groups[g]?.map ElGroup.kind).getD 0

/-- One coordinate of the nodes of the discretization of a mesh with these groups, reference element `meg` and unit
nodes `unit` belonging to the kind, meshmode/discretization/__init__.py:409, 602-635. -/
def discrByKind {K : Type} [Field K] [DecidableEq K]
    (resample : List (List K → K) → List (List K) → List (List K) → Option (Mat K))
    (meg : Nat → SGroup K (List K)) (unit : Nat → List (List K)) (coord : N → List K)
    (groups : List (ElGroup N)) : Option (List (List (List K))) :=
  discrCoordinate resample (fun g => meg (kindAt groups g)) (fun g => unit (kindAt groups g)) coord groups

/-! ## Specification -/

/-- The array has one row for each element of each group. (Specification or proof vocabulary, no code.) -/
def FitsGroups (groups : List (ElGroup N)) (v : List (List (List E))) : Prop :=
  v.map List.length = groups.map ElGroup.nelements

/-- Element `I` of group `G` of the merged mesh is element `i` of group `g` of the `k`-th mesh: the elements are
numbered one mesh after the other. (Specification or proof vocabulary, no code.) -/
def MergedPos (ms : List (FMesh N P A)) (M : FMesh N P A) (k g i G I : Nat) : Prop :=
  ∃ m e E, ms[k]? = some m ∧ IsGlobalNr (m.groups.map ElGroup.nelements) g i e ∧ MergedElem ms k e E ∧
    IsGlobalNr (M.groups.map ElGroup.nelements) G I E

/-- The array `w` has on each element of the merged mesh what the `k`-th array has on the element of the `k`-th mesh.
(Specification or proof vocabulary, no code.) -/
structure MergedRows (ms : List (FMesh N P A)) (M : FMesh N P A) (v : Nat → List (List (List E)))
    (w : List (List (List E))) : Prop where
  fits : FitsGroups M.groups w
  copies : ∀ (k g i G I : Nat), MergedPos ms M k g i G I → ∀ rows rows', (v k)[g]? = some rows →
    w[G]? = some rows' → rows'[I]? = rows[i]?

/-- The array `w` has on each element of the split mesh what `v` has on the same element of the original mesh.
(Specification or proof vocabulary, no code.) -/
structure SplitRows (m M : FMesh N P A) (flags : List Int) (mp : List ((Nat × Int) × Nat))
    (v w : List (List (List E))) : Prop where
  fits : FitsGroups M.groups w
  copies : ∀ (g i G I : Nat), SplitElem m flags mp g i G I → ∀ rows rows', v[g]? = some rows →
    w[G]? = some rows' → rows'[I]? = rows[i]?

/-- The integral of an array over a mesh: `dts`, `nn` are the data and numbers of nodes of the kinds of groups, `n` the
number of coordinates `X`. (Specification or proof vocabulary, no code.) -/
noncomputable def kindIntegral (dts : Nat → L2Data) (nn : Nat → Nat) (n : Nat) (X : Nat → List (List (List ℝ)))
    (u : List (List (List ℝ))) (groups : List (ElGroup N)) : ℝ :=
  meshIntegral (fun g => dts (kindAt groups g)) (fun g => nn (kindAt groups g)) n X u (groups.map ElGroup.nelements)

/-- Element `i` of group `g` exists. (Specification or proof vocabulary, no code.) -/
def HasElem (sizes : List Nat) (g i : Nat) : Prop := ∃ n, sizes[g]? = some n ∧ i < n

/-- `R` pairs the elements of several meshes with those of one. (Specification or proof vocabulary, no code.) -/
structure ElemPairs (old : List (List Nat)) (new : List Nat) (R : Nat → Nat → Nat → Nat → Nat → Prop) : Prop where
  left : ∀ k g i G I, R k g i G I → ∃ szs, old[k]? = some szs ∧ HasElem szs g i
  right : ∀ k g i G I, R k g i G I → HasElem new G I
  total : ∀ (k : Nat) szs g i, old[k]? = some szs → HasElem szs g i → ∃ G I, R k g i G I
  onto : ∀ G I, HasElem new G I → ∃ k g i, R k g i G I
  inj : ∀ k g i k' g' i' G I, R k g i G I → R k' g' i' G I → k = k' ∧ g = g' ∧ i = i'
  func : ∀ k g i G I G' I', R k g i G I → R k g i G' I' → G = G' ∧ I = I'

/-! ## Sums over paired elements -/

theorem hasElem_iff {sizes : List Nat} {g i : Nat} : HasElem sizes g i ↔ g < sizes.length ∧ i < sizes.getD g 0 := by
  constructor
  · rintro ⟨n, hn, hi⟩
    refine ⟨(List.getElem?_eq_some_iff.1 hn).1, ?_⟩
    rw [List.getD_eq_getElem?_getD, hn]
    exact hi
  · rintro ⟨hg, hi⟩
    rw [List.getD_eq_getElem?_getD, List.getElem?_eq_getElem hg] at hi
    exact ⟨_, List.getElem?_eq_getElem hg, hi⟩

theorem hasElem_iff_nr {sizes : List Nat} {g i : Nat} : HasElem sizes g i ↔ ∃ e, IsGlobalNr sizes g i e :=
  ⟨fun ⟨n, hn, hi⟩ => ⟨_, n, hn, hi, rfl⟩, fun ⟨_, n, hn, hi, _⟩ => ⟨n, hn, hi⟩⟩

theorem ElemPairs.sum {old : List (List Nat)} {new : List Nat} {R : Nat → Nat → Nat → Nat → Nat → Prop}
    (H : ElemPairs old new R) {β : Type} [AddCommMonoid β] {F : Nat → Nat → Nat → β} {F' : Nat → Nat → β}
    (hF : ∀ k g i G I, R k g i G I → F' G I = F k g i) :
    ∑ G ∈ Finset.range new.length, ∑ I ∈ Finset.range (new.getD G 0), F' G I =
      ∑ k ∈ Finset.range old.length, ∑ g ∈ Finset.range (old.getD k []).length,
        ∑ i ∈ Finset.range ((old.getD k []).getD g 0), F k g i := by
  classical
  simp only [Finset.sum_sigma']
  have hmemN : ∀ a : (_ : Nat) × Nat, (a ∈ (Finset.range new.length).sigma fun G => Finset.range (new.getD G 0)) ↔
      HasElem new a.1 a.2 := by
    intro a
    rw [Finset.mem_sigma, Finset.mem_range, Finset.mem_range, hasElem_iff]
  have hmemO : ∀ a : (_ : Nat) × (_ : Nat) × Nat,
      (a ∈ (Finset.range old.length).sigma fun k => (Finset.range (old.getD k []).length).sigma fun g =>
        Finset.range ((old.getD k []).getD g 0)) ↔
      ∃ szs, old[a.1]? = some szs ∧ HasElem szs a.2.1 a.2.2 := by
    rintro ⟨k, g, i⟩
    simp only [Finset.mem_sigma, Finset.mem_range]
    constructor
    · rintro ⟨hk, hg, hi⟩
      rw [List.getD_eq_getElem?_getD (l := old), List.getElem?_eq_getElem hk] at hg hi
      exact ⟨_, List.getElem?_eq_getElem hk, hasElem_iff.2 ⟨hg, hi⟩⟩
    · rintro ⟨szs, hs, hel⟩
      rw [hasElem_iff] at hel
      rw [List.getD_eq_getElem?_getD (l := old), hs]
      exact ⟨(List.getElem?_eq_some_iff.1 hs).1, hel.1, hel.2⟩
  symm
  have htot : ∀ a : (_ : Nat) × (_ : Nat) × Nat, (∃ szs, old[a.1]? = some szs ∧ HasElem szs a.2.1 a.2.2) →
      ∃ b : (_ : Nat) × Nat, R a.1 a.2.1 a.2.2 b.1 b.2 := by
    rintro a ⟨szs, h1, h2⟩
    obtain ⟨G, I, h⟩ := H.total _ _ _ _ h1 h2
    exact ⟨⟨G, I⟩, h⟩
  refine Finset.sum_bij (fun a ha => (htot a ((hmemO a).1 ha)).choose) ?_ ?_ ?_ ?_
  · intro a ha
    rw [hmemN]
    exact H.right _ _ _ _ _ (htot a ((hmemO a).1 ha)).choose_spec
  · intro a ha b hb hab
    have h1 := (htot a ((hmemO a).1 ha)).choose_spec
    have h2 := (htot b ((hmemO b).1 hb)).choose_spec
    rw [hab] at h1
    obtain ⟨e1, e2, e3⟩ := H.inj _ _ _ _ _ _ _ _ h1 h2
    obtain ⟨k, g, i⟩ := a
    obtain ⟨k', g', i'⟩ := b
    simp only at e1 e2 e3
    subst e1 e2 e3
    rfl
  · intro b hb
    obtain ⟨k, g, i, h⟩ := H.onto _ _ ((hmemN b).1 hb)
    have ha := (hmemO ⟨k, g, i⟩).2 (H.left _ _ _ _ _ h)
    refine ⟨⟨k, g, i⟩, ha, ?_⟩
    obtain ⟨e1, e2⟩ := H.func _ _ _ _ _ _ _ (htot _ ((hmemO _).1 ha)).choose_spec h
    exact Sigma.ext e1 (heq_of_eq e2)
  · intro a ha
    exact (hF _ _ _ _ _ (htot a ((hmemO a).1 ha)).choose_spec).symm

theorem elIntegral_congr {dt : L2Data} {nn n : Nat} {X X' : Nat → DofArr ℝ} {u u' : DofArr ℝ} {t e t' e' : Nat}
    (hX : ∀ c < n, ∀ j, X' c t' e' j = X c t e j) (hu : ∀ j, u' t' e' j = u t e j) :
    elIntegral dt nn n X' u' t' e' = elIntegral dt nn n X u t e := by
  have hd : ∀ c < n, ∀ j a, refDeriv dt nn (X' c) t' e' j a = refDeriv dt nn (X c) t e j a := by
    intro c hc j a
    unfold refDeriv
    exact Finset.sum_congr rfl fun l _ => by rw [hX c hc]
  have ha : ∀ j, areaElement dt nn n X' t' e' j = areaElement dt nn n X t e j := by
    intro j
    unfold areaElement
    congr 2
    ext a b
    simp only [Matrix.of_apply]
    exact Finset.sum_congr rfl fun c hc => by rw [hd c (Finset.mem_range.1 hc), hd c (Finset.mem_range.1 hc)]
  unfold elIntegral
  exact Finset.sum_congr rfl fun j _ => by rw [hu, ha]

/-- The rows of an array as a sum over the elements. -/
theorem rows_sum (v : List (List (List E))) : (v.flatten : Multiset (List E)) =
    ∑ G ∈ Finset.range (v.map List.length).length, ∑ I ∈ Finset.range ((v.map List.length).getD G 0),
      ({(v.getD G []).getD I []} : Multiset (List E)) := by
  have hrow : ∀ rows : List (List E), (rows : Multiset (List E)) =
      ∑ I ∈ Finset.range rows.length, ({rows.getD I []} : Multiset (List E)) := by
    intro rows
    induction rows with
    | nil => simp
    | cons r rows ih =>
      rw [List.length_cons, Finset.sum_range_succ', ← Multiset.cons_coe, ih]
      simp [Multiset.singleton_add, add_comm]
  induction v with
  | nil => simp
  | cons r v ih =>
    rw [List.map_cons, List.length_cons, Finset.sum_range_succ', List.flatten_cons, ← Multiset.coe_add, ih, hrow r]
    simp [add_comm]

/-! ## Merged meshes -/

section
variable {ms : List (FMesh N P A)} {M : FMesh N P A} {single : Bool}

theorem merged_size (hok : ∀ m ∈ ms, ∃ vs, m.OK vs) (h : mergeDisjoint ms single = .ok M) {E : Nat} :
    (∃ G I, IsGlobalNr (M.groups.map ElGroup.nelements) G I E) ↔ ∃ k e, MergedElem ms k e E := by
  rw [← (C01_numbering_bijective _ _).1]
  exact (C14_merge_elements hok h).1 E

theorem merged_pairs (hok : ∀ m ∈ ms, ∃ vs, m.OK vs) (h : mergeDisjoint ms single = .ok M) :
    ElemPairs (ms.map fun m => m.groups.map ElGroup.nelements) (M.groups.map ElGroup.nelements) (MergedPos ms M) := by
  refine ⟨?_, ?_, ?_, ?_, ?_, ?_⟩
  · rintro k g i G I ⟨m, e, E, hm, he, _, _⟩
    exact ⟨_, by rw [List.getElem?_map, hm]; rfl, hasElem_iff_nr.2 ⟨e, he⟩⟩
  · rintro k g i G I ⟨m, e, E, _, _, _, hE⟩
    exact hasElem_iff_nr.2 ⟨E, hE⟩
  · intro k szs g i hk hel
    rw [List.getElem?_map, Option.map_eq_some_iff] at hk
    obtain ⟨m, hm, rfl⟩ := hk
    obtain ⟨e, he⟩ := hasElem_iff_nr.1 hel
    have hlt : e < m.size := (C01_numbering_bijective _ _).1.2 ⟨g, i, he⟩
    have hE : MergedElem ms k e (((ms.map FMesh.size).take k).sum + e) :=
      ⟨m.size, by rw [List.getElem?_map, hm]; rfl, hlt, rfl⟩
    obtain ⟨G, I, hGI⟩ := (merged_size hok h).2 ⟨k, e, hE⟩
    exact ⟨G, I, m, e, _, hm, he, hE, hGI⟩
  · intro G I hel
    obtain ⟨E, hE⟩ := hasElem_iff_nr.1 hel
    obtain ⟨k, e, hk⟩ := (merged_size hok h).1 ⟨G, I, hE⟩
    have hk' := hk
    obtain ⟨n, hn, he, _⟩ := hk'
    rw [List.getElem?_map, Option.map_eq_some_iff] at hn
    obtain ⟨m, hm, rfl⟩ := hn
    obtain ⟨g, i, hgi⟩ := (C01_numbering_bijective _ _).1.1 he
    exact ⟨k, g, i, m, e, E, hm, hgi, hk, hE⟩
  · rintro k g i k' g' i' G I ⟨m, e, E, hm, he, hk, hE⟩ ⟨m', e', E', hm', he', hk', hE'⟩
    obtain ⟨_, _, _, rfl⟩ := hE
    obtain ⟨_, _, _, rfl⟩ := hE'
    obtain ⟨rfl, rfl⟩ := (C01_numbering_bijective _ _).2 _ _ _ _ hk hk'
    rw [hm] at hm'
    obtain rfl := Option.some.inj hm'
    obtain ⟨rfl, rfl⟩ := (C01_numbering_bijective _ _).2 _ _ _ _ he he'
    exact ⟨rfl, rfl, rfl⟩
  · rintro k g i G I G' I' ⟨m, e, E, hm, he, hk, hE⟩ ⟨m', e', E', hm', he', hk', hE'⟩
    rw [hm] at hm'
    obtain rfl := Option.some.inj hm'
    obtain ⟨_, _, _, rfl⟩ := he
    obtain ⟨_, _, _, rfl⟩ := he'
    obtain ⟨_, _, _, rfl⟩ := hk
    obtain ⟨_, _, _, rfl⟩ := hk'
    exact (C01_numbering_bijective _ _).2 _ _ _ _ hE hE'

/-- What an element of the merged mesh is made of. -/
theorem merged_element (hok : ∀ m ∈ ms, ∃ vs, m.OK vs) (h : mergeDisjoint ms single = .ok M) {k g i G I : Nat}
    (hp : MergedPos ms M k g i G I) : ∃ m grp grp', ms[k]? = some m ∧ m.groups[g]? = some grp ∧
      M.groups[G]? = some grp' ∧ grp'.kind = grp.kind ∧ grp'.nodes[I]? = grp.nodes[i]? := by
  obtain ⟨m, e, E, hm, he, hk, hE⟩ := hp
  obtain ⟨vs, hvs⟩ := hok m (List.mem_of_getElem? hm)
  have he' := he
  obtain ⟨n, hn, _, _⟩ := he'
  rw [List.getElem?_map, Option.map_eq_some_iff] at hn
  obtain ⟨grp, hgrp, _⟩ := hn
  obtain ⟨G', I', grp', vs', h1, h2, _, h4, h5, _⟩ :=
    (C14_merge_elements hok h).2.2.2 k m g i e E grp vs hm hvs hgrp he hk
  obtain ⟨rfl, rfl⟩ := (C01_numbering_bijective _ _).2 _ _ _ _ h1 hE
  exact ⟨m, grp, grp', hm, hgrp, h2, h4, h5⟩

/-- C126: adding up, over the merged mesh, what is computed element by element gives the sum of what the meshes
give. -/
theorem C126_merge_sum (hok : ∀ m ∈ ms, ∃ vs, m.OK vs) (h : mergeDisjoint ms single = .ok M) {β : Type}
    [AddCommMonoid β] {F : Nat → Nat → Nat → β} {F' : Nat → Nat → β}
    (hF : ∀ k g i G I, MergedPos ms M k g i G I → F' G I = F k g i) :
    ∑ G ∈ Finset.range M.groups.length, ∑ I ∈ Finset.range ((M.groups.map ElGroup.nelements).getD G 0), F' G I =
      (ms.zipIdx.map fun mk => ∑ g ∈ Finset.range mk.1.groups.length,
        ∑ i ∈ Finset.range ((mk.1.groups.map ElGroup.nelements).getD g 0), F mk.2 g i).sum := by
  have h1 := (merged_pairs hok h).sum hF
  rw [List.length_map, List.length_map] at h1
  rw [h1, Finset.sum_range, ← Fin.sum_univ_getElem]
  refine Fintype.sum_equiv (finCongr (by simp)) _ _ fun k => ?_
  simp only [List.getElem_map, List.getElem_zipIdx, Nat.zero_add]
  have hk : (ms.map fun m => m.groups.map ElGroup.nelements).getD k [] = ms[k].groups.map ElGroup.nelements := by
    rw [List.getD_eq_getElem?_getD, List.getElem?_map, List.getElem?_eq_getElem k.2]
    rfl
  rw [hk, List.length_map]
  rfl

theorem rowsArr_eq {v w : List (List (List ℝ))} {g i G I : Nat} {rows rows' : List (List ℝ)} (hr : v[g]? = some rows)
    (hr' : w[G]? = some rows') (h : rows'[I]? = rows[i]?) (j : Nat) : rowsArr w G I j = rowsArr v g i j := by
  simp only [rowsArr, List.getD_eq_getElem?_getD, hr, hr', Option.getD_some, h]

theorem FitsGroups.get {groups : List (ElGroup N)} {v : List (List (List E))} (h : FitsGroups groups v) {g : Nat}
    {grp : ElGroup N} (hg : groups[g]? = some grp) : ∃ rows, v[g]? = some rows ∧ rows.length = grp.nelements := by
  have h1 := congrArg (·[g]?) h
  simp only [List.getElem?_map, hg, Option.map_some] at h1
  obtain ⟨rows, hr, hl⟩ := Option.map_eq_some_iff.1 h1
  exact ⟨rows, hr, hl⟩

theorem kindAt_eq {groups : List (ElGroup N)} {g : Nat} {grp : ElGroup N} (hg : groups[g]? = some grp) :
    kindAt groups g = grp.kind := by rw [kindAt, hg]; rfl

/-- C126: the integral over the merged mesh is the sum of the integrals over the meshes, whatever the arrays. -/
theorem C126_merge_integral (hok : ∀ m ∈ ms, ∃ vs, m.OK vs) (h : mergeDisjoint ms single = .ok M)
    (dts : Nat → L2Data) (nn : Nat → Nat) (n : Nat) {X : Nat → Nat → List (List (List ℝ))}
    {u : Nat → List (List (List ℝ))} {X' : Nat → List (List (List ℝ))} {u' : List (List (List ℝ))}
    (hX : ∀ (k : Nat) m, ms[k]? = some m → ∀ c < n, FitsGroups m.groups (X k c))
    (hu : ∀ (k : Nat) m, ms[k]? = some m → FitsGroups m.groups (u k))
    (hX' : ∀ c < n, MergedRows ms M (fun k => X k c) (X' c)) (hu' : MergedRows ms M u u') :
    kindIntegral dts nn n X' u' M.groups =
      (ms.zipIdx.map fun mk => kindIntegral dts nn n (X mk.2) (u mk.2) mk.1.groups).sum := by
  unfold kindIntegral meshIntegral
  simp only [List.length_map]
  have hmem : ∀ mk ∈ ms.zipIdx, (∑ g ∈ Finset.range mk.1.groups.length,
      ∑ e ∈ Finset.range ((mk.1.groups.map ElGroup.nelements).getD g 0),
        elIntegral (dts (kindAt mk.1.groups g)) (nn (kindAt mk.1.groups g)) n (fun c => rowsArr (X mk.2 c))
          (rowsArr (u mk.2)) g e) =
      ∑ g ∈ Finset.range mk.1.groups.length, ∑ e ∈ Finset.range ((mk.1.groups.map ElGroup.nelements).getD g 0),
        elIntegral (dts (kindAt ((ms[mk.2]?.map FMesh.groups).getD []) g))
          (nn (kindAt ((ms[mk.2]?.map FMesh.groups).getD []) g)) n (fun c => rowsArr (X mk.2 c))
          (rowsArr (u mk.2)) g e := by
    rintro ⟨m, k⟩ hmk
    have hm := List.mem_zipIdx_iff_getElem?.1 hmk
    simp only at hm ⊢
    rw [hm]
    rfl
  rw [List.map_congr_left hmem]
  refine C126_merge_sum hok h (F := fun k g i => elIntegral (dts (kindAt ((ms[k]?.map FMesh.groups).getD []) g))
    (nn (kindAt ((ms[k]?.map FMesh.groups).getD []) g)) n (fun c => rowsArr (X k c)) (rowsArr (u k)) g i)
    fun k g i G I hp => ?_
  obtain ⟨m, grp, grp', hm, hg, hG, hkind, _⟩ := merged_element hok h hp
  have hk : kindAt M.groups G = kindAt ((ms[k]?.map FMesh.groups).getD []) g := by
    rw [hm]
    exact (kindAt_eq hG).trans (hkind.trans (kindAt_eq hg).symm)
  rw [hk]
  refine elIntegral_congr (fun c hc j => ?_) fun j => ?_
  · obtain ⟨rows, hr, _⟩ := (hX k m hm c hc).get hg
    obtain ⟨rows', hr', _⟩ := (hX' c hc).fits.get hG
    exact rowsArr_eq hr hr' ((hX' c hc).copies k g i G I hp _ _ hr hr') j
  · obtain ⟨rows, hr, _⟩ := (hu k m hm).get hg
    obtain ⟨rows', hr', _⟩ := hu'.fits.get hG
    exact rowsArr_eq hr hr' (hu'.copies k g i G I hp _ _ hr hr') j

theorem FitsGroups.rows {groups : List (ElGroup N)} {v : List (List (List E))} (h : FitsGroups groups v) :
    (v.flatten : Multiset (List E)) = ∑ G ∈ Finset.range groups.length,
      ∑ I ∈ Finset.range ((groups.map ElGroup.nelements).getD G 0), ({(v.getD G []).getD I []} : Multiset (List E)) := by
  rw [rows_sum, h, List.length_map]

theorem row_eq {v w : List (List (List E))} {g i G I : Nat} {rows rows' : List (List E)} (hr : v[g]? = some rows)
    (hr' : w[G]? = some rows') (h : rows'[I]? = rows[i]?) : (w.getD G []).getD I [] = (v.getD g []).getD i [] := by
  simp only [List.getD_eq_getElem?_getD, hr, hr', Option.getD_some, h]

theorem multiset_sum_flatten {α : Type} (l : List α) (f : α → List E) :
    (l.map fun x => (f x : Multiset E)).sum = (l.flatMap f : Multiset E) := by
  induction l with
  | nil => rfl
  | cons a l ih => rw [List.map_cons, List.sum_cons, ih, List.flatMap_cons, Multiset.coe_add]

/-- C126: the rows of the array on the merged mesh are, up to their order, those of the arrays on the meshes. -/
theorem C126_merge_rows (hok : ∀ m ∈ ms, ∃ vs, m.OK vs) (h : mergeDisjoint ms single = .ok M)
    {v : Nat → List (List (List E))} {w : List (List (List E))}
    (hv : ∀ (k : Nat) m, ms[k]? = some m → FitsGroups m.groups (v k)) (hw : MergedRows ms M v w) :
    w.flatten.Perm ((List.range ms.length).flatMap fun k => (v k).flatten) := by
  rw [← Multiset.coe_eq_coe, hw.fits.rows, C126_merge_sum hok h
    (F := fun k g i => ({((v k).getD g []).getD i []} : Multiset (List E))), ← multiset_sum_flatten]
  · have h1 : ∀ mk ∈ ms.zipIdx, (∑ g ∈ Finset.range mk.1.groups.length,
        ∑ i ∈ Finset.range ((mk.1.groups.map ElGroup.nelements).getD g 0),
          ({((v mk.2).getD g []).getD i []} : Multiset (List E))) = ((v mk.2).flatten : Multiset (List E)) := by
      rintro ⟨m, k⟩ hmk
      exact (FitsGroups.rows (hv k m (List.mem_zipIdx_iff_getElem?.1 hmk))).symm
    rw [List.map_congr_left h1]
    congr 1
    apply List.ext_getElem
    · simp
    · intro i h1 h2
      simp
  · intro k g i G I hp
    obtain ⟨m, grp, grp', hm, hg, hG, _, _⟩ := merged_element hok h hp
    obtain ⟨rows, hr, _⟩ := (hv k m hm).get hg
    obtain ⟨rows', hr', _⟩ := hw.fits.get hG
    rw [row_eq hr hr' (hw.copies k g i G I hp _ _ hr hr')]

theorem entriesAll_rows (c : Nat) (v : Nat → List (List (List E))) (l : List Nat) :
    Cont.entriesAll (l.map fun k => rowsCont c (v k)) = (l.flatMap fun k => (v k).flatten).flatten := by
  induction l with
  | nil => simp [Cont.entriesAll]
  | cons x l ih =>
    rw [List.map_cons, Cont.entriesAll, ih, List.flatMap_cons, List.flatten_append]
    congr 1
    simp [rowsCont, Cont.entries, List.flatten_flatten]

/-- C126: a norm of the array on the merged mesh is that of the meshes' arrays together. -/
theorem C126_merge_norm {E : Type} [SeminormedAddGroup E] (hok : ∀ m ∈ ms, ∃ vs, m.OK vs)
    (h : mergeDisjoint ms single = .ok M) {v : Nat → List (List (List E))} {w : List (List (List E))}
    (hv : ∀ (k : Nat) m, ms[k]? = some m → FitsGroups m.groups (v k)) (hw : MergedRows ms M v w)
    {o : NOrd} (ho : ∀ p, o = .fin p → 0 < p) (hno : o ≠ .other) (c c' : Nat) {r r' : ℝ}
    (hr : flatNorm (some o) (rowsCont c w) = .ok r)
    (hr' : flatNorm (some o) (.node ((List.range ms.length).map fun k => rowsCont c' (v k))) = .ok r') : r = r' := by
  refine C35_regroup ho hno ?_ hr hr'
  have h2 : (rowsCont c w).entries = w.flatten.flatten := by simp [rowsCont, Cont.entries, List.flatten_flatten]
  rw [Cont.entries, entriesAll_rows, h2]
  exact (C126_merge_rows hok h hv hw).flatten

end

/-! ## Nodes -/

section
variable {K : Type} [Field K] [DecidableEq K]
  {resample : List (List K → K) → List (List K) → List (List K) → Option (Mat K)} {meg : Nat → SGroup K (List K)}
  {unit : Nat → List (List K)} {coord : N → List K}

theorem discrByKind_some {groups : List (ElGroup N)} {v : List (List (List K))}
    (h : discrByKind resample meg unit coord groups = some v) : FitsGroups groups v ∧
      ∀ (g : Nat) grp, groups[g]? = some grp → ∃ f : List K → List K,
        (∀ ns, discrGroupNodes resample (meg grp.kind) (unit grp.kind) ns = some (ns.map f)) ∧
        v[g]? = some ((grp.nodes.map coord).map f) := by
  obtain ⟨h1, h2⟩ := mapM_zipIdx_some h
  have h3 : ∀ (g : Nat) grp, groups[g]? = some grp → ∃ f : List K → List K,
      (∀ ns, discrGroupNodes resample (meg grp.kind) (unit grp.kind) ns = some (ns.map f)) ∧
      v[g]? = some ((grp.nodes.map coord).map f) := by
    intro g grp hg
    obtain ⟨b, hb, hbe⟩ := h2 g grp hg
    simp only [kindAt_eq hg] at hbe
    obtain ⟨f, hf⟩ := discrGroupNodes_some hbe
    refine ⟨f, hf, ?_⟩
    rw [hf] at hbe
    rw [hb, Option.some.inj hbe]
  refine ⟨?_, h3⟩
  unfold FitsGroups
  apply List.ext_getElem?
  intro g
  rw [List.getElem?_map, List.getElem?_map]
  by_cases hg : g < groups.length
  · obtain ⟨f, _, hv⟩ := h3 g _ (List.getElem?_eq_getElem hg)
    rw [hv, List.getElem?_eq_getElem hg]
    simp [ElGroup.nelements]
  · rw [List.getElem?_eq_none (by omega), List.getElem?_eq_none (by omega)]
    rfl

theorem discrByKind_defined {groups : List (ElGroup N)}
    (h : ∀ grp ∈ groups, ∃ ns r, discrGroupNodes resample (meg grp.kind) (unit grp.kind) ns = some r) :
    ∃ v, discrByKind resample meg unit coord groups = some v := by
  unfold discrByKind discrCoordinate
  refine mapM_isSome_of fun gi hgi => ?_
  obtain ⟨grp, g⟩ := gi
  have hg := List.mem_zipIdx_iff_getElem?.1 hgi
  simp only at hg
  obtain ⟨ns, r, hr⟩ := h grp (List.mem_of_getElem? hg)
  obtain ⟨f, hf⟩ := discrGroupNodes_some hr
  simp only [kindAt_eq hg]
  exact ⟨_, hf _⟩

theorem resampled_unique {sg : SGroup K (List K)} {un : List (List K)} {f f' : List K → List K}
    (h : ∀ ns, discrGroupNodes resample sg un ns = some (ns.map f))
    (h' : ∀ ns, discrGroupNodes resample sg un ns = some (ns.map f')) : f = f' := by
  funext x
  have := (h [x]).symm.trans (h' [x])
  simpa using this

variable {ms : List (FMesh N P A)} {M : FMesh N P A} {single : Bool}

theorem merged_kinds (h : mergeDisjoint ms single = .ok M) :
    ∀ grp' ∈ M.groups, ∃ m ∈ ms, ∃ grp ∈ m.groups, grp'.kind = grp.kind := by
  obtain ⟨vss, hv, _, _, hg, _⟩ := mergeDisjoint_ok h
  have hmulti : ∀ grp' ∈ mergeGroups (ms.map FMesh.groups) (vertBases 0 (vss.map List.length)),
      ∃ m ∈ ms, ∃ grp ∈ m.groups, grp'.kind = grp.kind := by
    intro grp' hgrp
    obtain ⟨⟨gs, b⟩, hgb, hgrp⟩ := List.mem_flatMap.1 hgrp
    obtain ⟨grp, hm, rfl⟩ := List.mem_map.1 hgrp
    obtain ⟨m, hmm, rfl⟩ := List.mem_map.1 (List.of_mem_zip hgb).1
    exact ⟨m, hmm, grp, hm, rfl⟩
  cases single with
  | false =>
    simp only [Bool.false_eq_true, if_false, Option.some.injEq] at hg
    rw [← hg]
    exact hmulti
  | true =>
    simp only [if_true] at hg
    unfold mergeSingle at hg
    split at hg
    · simp at hg
    · rename_i ref rest hfl
      split at hg
      · have hg' := Option.some.inj hg
        intro grp' hgrp
        rw [← hg', List.mem_singleton] at hgrp
        subst hgrp
        obtain ⟨gs, hgs, href⟩ := List.mem_flatten.1 (show ref ∈ (ms.map FMesh.groups).flatten by
          rw [hfl]; exact List.mem_cons_self)
        obtain ⟨m, hm, rfl⟩ := List.mem_map.1 hgs
        exact ⟨m, hm, ref, href, rfl⟩
      · simp at hg

/-- C126: the discretization of the merged mesh can be given nodes if those of the meshes can, and has, element by
element, their nodes. -/
theorem C126_merge_nodes (hok : ∀ m ∈ ms, ∃ vs, m.OK vs) (h : mergeDisjoint ms single = .ok M)
    {v : Nat → List (List (List K))}
    (hv : ∀ (k : Nat) m, ms[k]? = some m → discrByKind resample meg unit coord m.groups = some (v k)) :
    (∀ (k : Nat) m, ms[k]? = some m → FitsGroups m.groups (v k)) ∧
      ∃ w, discrByKind resample meg unit coord M.groups = some w ∧ MergedRows ms M v w := by
  refine ⟨fun k m hm => (discrByKind_some (hv k m hm)).1, ?_⟩
  obtain ⟨w, hw⟩ := discrByKind_defined (resample := resample) (meg := meg) (unit := unit) (coord := coord)
    (groups := M.groups) (by
      intro grp' hgrp'
      obtain ⟨m, hm, grp, hgrp, hk⟩ := merged_kinds h grp' hgrp'
      obtain ⟨k, hk'⟩ := List.mem_iff_getElem?.1 hm
      obtain ⟨g, hg⟩ := List.mem_iff_getElem?.1 hgrp
      obtain ⟨f, hf, _⟩ := (discrByKind_some (hv k m hk')).2 g grp hg
      exact ⟨[], _, by rw [hk]; exact hf []⟩)
  refine ⟨w, hw, (discrByKind_some hw).1, ?_⟩
  intro k g i G I hp rows rows' hr hr'
  obtain ⟨m, grp, grp', hm, hg, hG, hkind, hnodes⟩ := merged_element hok h hp
  obtain ⟨f, hf, hvr⟩ := (discrByKind_some (hv k m hm)).2 g grp hg
  obtain ⟨f', hf', hwr⟩ := (discrByKind_some hw).2 G grp' hG
  rw [hkind] at hf'
  obtain rfl := resampled_unique hf hf'
  rw [hr] at hvr
  rw [hr'] at hwr
  obtain rfl := Option.some.inj hvr
  obtain rfl := Option.some.inj hwr
  simp only [List.getElem?_map, hnodes]

end

/-! ## Split meshes -/

section
variable {m M : FMesh N P A} {flags : List Int} {mp : List ((Nat × Int) × Nat)}

/-- What an element of the split mesh is made of. -/
theorem split_element (hwf : ∀ g ∈ m.groups, g.WF) (h : splitMeshGroups m flags = some (M, mp)) {g i G I : Nat}
    (hp : SplitElem m flags mp g i G I) : ∃ grp grp', m.groups[g]? = some grp ∧ M.groups[G]? = some grp' ∧
      i < grp.nelements ∧ I < grp'.nelements ∧ grp'.kind = grp.kind ∧ grp'.nodes[I]? = grp.nodes[i]? := by
  obtain ⟨_, _, _, hdata⟩ := C15_split_map_exact hwf h
  obtain ⟨flag, idx, hm, hs, hi, hx⟩ := hp
  obtain ⟨grp, new, idx', h1, h2, h3, _, h5, h6, h7, _, h9⟩ := hdata _ _ _ hm
  obtain rfl : idx = idx' := sorted_ext hs h5 fun i => (hi i).trans (h6 i).symm
  refine ⟨grp, new, h1, h2, ?_, ?_, h3, (h9 _ _ hx).1⟩
  · obtain ⟨e, ⟨n, hn, hlt, _⟩, _⟩ := (h6 i).1 (List.mem_of_getElem? hx)
    rw [List.getElem?_map, h1] at hn
    obtain rfl := Option.some.inj hn
    exact hlt
  · show I < new.nodes.length
    rw [h7]
    exact (List.getElem?_eq_some_iff.1 hx).1

theorem split_pairs (hwf : ∀ g ∈ m.groups, g.WF) (h : splitMeshGroups m flags = some (M, mp)) :
    ElemPairs [m.groups.map ElGroup.nelements] (M.groups.map ElGroup.nelements)
      (fun k g i G I => k = 0 ∧ SplitElem m flags mp g i G I) := by
  obtain ⟨hfst, hsnd, hkey, hdata⟩ := C15_split_map_exact hwf h
  have hlen := (splitMeshGroups_some h).1
  have hsndN : (mp.map Prod.snd).Nodup := by rw [hsnd]; exact List.nodup_range
  refine ⟨?_, ?_, ?_, ?_, ?_, ?_⟩
  · rintro k g i G I ⟨rfl, hp⟩
    obtain ⟨grp, grp', h1, h2, h3, h4, _, _⟩ := split_element hwf h hp
    exact ⟨_, rfl, grp.nelements, by rw [List.getElem?_map, h1]; rfl, h3⟩
  · rintro k g i G I ⟨rfl, hp⟩
    obtain ⟨grp, grp', h1, h2, h3, h4, _, _⟩ := split_element hwf h hp
    exact ⟨grp'.nelements, by rw [List.getElem?_map, h2]; rfl, h4⟩
  · intro k szs g i hk hel
    obtain ⟨rfl, rfl⟩ : k = 0 ∧ szs = m.groups.map ElGroup.nelements := by
      cases k with
      | zero => simp at hk; exact ⟨rfl, hk.symm⟩
      | succ k => simp at hk
    obtain ⟨e, he⟩ := hasElem_iff_nr.1 hel
    have hlt := (C01_numbering_bijective _ _).1.2 ⟨_, _, he⟩
    rw [← hlen] at hlt
    have hfl : HasFlag m.groups flags g i _ := ⟨_, he, List.getElem?_eq_getElem hlt⟩
    obtain ⟨G, hG⟩ := (hkey _ _).2 ⟨_, hfl⟩
    obtain ⟨grp', new, idx, h1, h2, h3, h4, h5, h6, h7, h8, h9⟩ := hdata _ _ _ hG
    obtain ⟨j, hj⟩ := List.mem_iff_getElem?.1 ((h6 i).2 hfl)
    exact ⟨G, j, rfl, _, idx, hG, h5, h6, hj⟩
  · rintro G I ⟨n, hn, hI⟩
    rw [List.getElem?_map, Option.map_eq_some_iff] at hn
    obtain ⟨new', hG, rfl⟩ := hn
    have hGl : G ∈ mp.map Prod.snd := by
      rw [hsnd]
      exact List.mem_range.2 (List.getElem?_eq_some_iff.1 hG).1
    obtain ⟨⟨⟨g, flag⟩, G'⟩, hmem, rfl⟩ := List.mem_map.1 hGl
    obtain ⟨grp, new, idx, h1, h2, h3, h4, h5, h6, h7, h8, h9⟩ := hdata _ _ _ hmem
    simp only at hG
    rw [hG] at h2
    obtain rfl := Option.some.inj h2
    have hj : I < idx.length := by rw [← h7]; exact hI
    exact ⟨0, g, idx[I], rfl, flag, idx, hmem, h5, h6, List.getElem?_eq_getElem hj⟩
  · rintro k g i k' g' i' G I ⟨rfl, flag, idx, hm, hs, hi, hx⟩ ⟨rfl, flag', idx', hm', hs', hi', hx'⟩
    have := (List.nodup_map_iff_inj_on (List.Nodup.of_map _ hfst)).1 hsndN _ hm _ hm' rfl
    simp only [Prod.mk.injEq] at this
    obtain ⟨⟨rfl, rfl⟩, _⟩ := this
    obtain rfl : idx = idx' := sorted_ext hs hs' fun i => (hi i).trans (hi' i).symm
    rw [hx] at hx'
    exact ⟨rfl, rfl, Option.some.inj hx'⟩
  · rintro k g i G I G' I' ⟨rfl, flag, idx, hm, hs, hi, hx⟩ ⟨_, flag', idx', hm', hs', hi', hx'⟩
    obtain rfl : flag = flag' := hasFlag_unique ((hi i).1 (List.mem_of_getElem? hx))
      ((hi' i).1 (List.mem_of_getElem? hx'))
    have := (List.nodup_map_iff_inj_on (List.Nodup.of_map _ hfst)).1 hfst _ hm _ hm' rfl
    simp only [Prod.mk.injEq, true_and] at this
    subst this
    obtain rfl : idx = idx' := sorted_ext hs hs' fun i => (hi i).trans (hi' i).symm
    have hn : idx.Nodup := hs.imp fun h => Nat.ne_of_lt h
    exact ⟨rfl, (List.getElem?_inj (List.getElem?_eq_some_iff.1 hx).1 hn).1 (hx.trans hx'.symm)⟩

/-- C126: adding up, over the split mesh, what is computed element by element gives what the original mesh gives. -/
theorem C126_split_sum (hwf : ∀ g ∈ m.groups, g.WF) (h : splitMeshGroups m flags = some (M, mp)) {β : Type}
    [AddCommMonoid β] {F F' : Nat → Nat → β} (hF : ∀ g i G I, SplitElem m flags mp g i G I → F' G I = F g i) :
    ∑ G ∈ Finset.range M.groups.length, ∑ I ∈ Finset.range ((M.groups.map ElGroup.nelements).getD G 0), F' G I =
      ∑ g ∈ Finset.range m.groups.length, ∑ i ∈ Finset.range ((m.groups.map ElGroup.nelements).getD g 0), F g i := by
  have h1 := (split_pairs hwf h).sum (F := fun _ => F) (F' := F') fun k g i G I hp => hF g i G I hp.2
  simpa using h1

/-- C126: the integral over the split mesh is that over the original mesh, whatever the array. -/
theorem C126_split_integral (hwf : ∀ g ∈ m.groups, g.WF) (h : splitMeshGroups m flags = some (M, mp))
    (dts : Nat → L2Data) (nn : Nat → Nat) (n : Nat) {X X' : Nat → List (List (List ℝ))} {u u' : List (List (List ℝ))}
    (hX : ∀ c < n, FitsGroups m.groups (X c)) (hu : FitsGroups m.groups u)
    (hX' : ∀ c < n, SplitRows m M flags mp (X c) (X' c)) (hu' : SplitRows m M flags mp u u') :
    kindIntegral dts nn n X' u' M.groups = kindIntegral dts nn n X u m.groups := by
  unfold kindIntegral meshIntegral
  simp only [List.length_map]
  refine C126_split_sum hwf h (F := fun g i => elIntegral (dts (kindAt m.groups g)) (nn (kindAt m.groups g)) n
    (fun c => rowsArr (X c)) (rowsArr u) g i) fun g i G I hp => ?_
  obtain ⟨grp, grp', hg, hG, _, _, hkind, _⟩ := split_element hwf h hp
  rw [show kindAt M.groups G = kindAt m.groups g from (kindAt_eq hG).trans (hkind.trans (kindAt_eq hg).symm)]
  refine elIntegral_congr (fun c hc j => ?_) fun j => ?_
  · obtain ⟨rows, hr, _⟩ := (hX c hc).get hg
    obtain ⟨rows', hr', _⟩ := (hX' c hc).fits.get hG
    exact rowsArr_eq hr hr' ((hX' c hc).copies g i G I hp _ _ hr hr') j
  · obtain ⟨rows, hr, _⟩ := hu.get hg
    obtain ⟨rows', hr', _⟩ := hu'.fits.get hG
    exact rowsArr_eq hr hr' (hu'.copies g i G I hp _ _ hr hr') j

/-- C126: the rows of the array on the split mesh are, up to their order, those of the array on the original mesh. -/
theorem C126_split_rows (hwf : ∀ g ∈ m.groups, g.WF) (h : splitMeshGroups m flags = some (M, mp))
    {v w : List (List (List E))} (hv : FitsGroups m.groups v) (hw : SplitRows m M flags mp v w) :
    w.flatten.Perm v.flatten := by
  rw [← Multiset.coe_eq_coe, hw.fits.rows, hv.rows]
  refine C126_split_sum hwf h (F := fun g i => ({(v.getD g []).getD i []} : Multiset (List E))) fun g i G I hp => ?_
  obtain ⟨grp, grp', hg, hG, _⟩ := split_element hwf h hp
  obtain ⟨rows, hr, _⟩ := hv.get hg
  obtain ⟨rows', hr', _⟩ := hw.fits.get hG
  rw [row_eq hr hr' (hw.copies g i G I hp _ _ hr hr')]

/-- C126: a norm of the array on the split mesh is that of the array on the original mesh. -/
theorem C126_split_norm {E : Type} [SeminormedAddGroup E] (hwf : ∀ g ∈ m.groups, g.WF)
    (h : splitMeshGroups m flags = some (M, mp)) {v w : List (List (List E))} (hv : FitsGroups m.groups v)
    (hw : SplitRows m M flags mp v w) {o : NOrd} (ho : ∀ p, o = .fin p → 0 < p) (hno : o ≠ .other) (c c' : Nat)
    {r r' : ℝ} (hr : flatNorm (some o) (rowsCont c w) = .ok r) (hr' : flatNorm (some o) (rowsCont c' v) = .ok r') :
    r = r' := by
  refine C35_regroup ho hno ?_ hr hr'
  have h2 : ∀ (c : Nat) (w : List (List (List E))), (rowsCont c w).entries = w.flatten.flatten := fun c w => by
    simp [rowsCont, Cont.entries, List.flatten_flatten]
  rw [h2, h2]
  exact (C126_split_rows hwf h hv hw).flatten

/-- C126: the discretization of the split mesh can be given nodes if that of the original mesh can, and has, element by
element, its nodes. -/
theorem C126_split_nodes {K : Type} [Field K] [DecidableEq K]
    {resample : List (List K → K) → List (List K) → List (List K) → Option (Mat K)} {meg : Nat → SGroup K (List K)}
    {unit : Nat → List (List K)} {coord : N → List K} (hwf : ∀ g ∈ m.groups, g.WF)
    (h : splitMeshGroups m flags = some (M, mp)) {v : List (List (List K))}
    (hv : discrByKind resample meg unit coord m.groups = some v) :
    FitsGroups m.groups v ∧ ∃ w, discrByKind resample meg unit coord M.groups = some w ∧
      SplitRows m M flags mp v w := by
  obtain ⟨hfit, hv2⟩ := discrByKind_some hv
  refine ⟨hfit, ?_⟩
  obtain ⟨_, hsnd, _, hdata⟩ := C15_split_map_exact hwf h
  obtain ⟨w, hw⟩ := discrByKind_defined (resample := resample) (meg := meg) (unit := unit) (coord := coord)
    (groups := M.groups) (by
      intro grp' hgrp'
      obtain ⟨G, hG⟩ := List.mem_iff_getElem?.1 hgrp'
      have hGl : G ∈ mp.map Prod.snd := by
        rw [hsnd]
        exact List.mem_range.2 (List.getElem?_eq_some_iff.1 hG).1
      obtain ⟨⟨⟨g, flag⟩, G'⟩, hmem, rfl⟩ := List.mem_map.1 hGl
      obtain ⟨grp, new, _, h1, h2, h3, _⟩ := hdata _ _ _ hmem
      simp only at hG
      rw [hG] at h2
      obtain rfl := Option.some.inj h2
      obtain ⟨f, hf, _⟩ := hv2 g grp h1
      exact ⟨[], _, by rw [h3]; exact hf []⟩)
  refine ⟨w, hw, (discrByKind_some hw).1, ?_⟩
  intro g i G I hp rows rows' hr hr'
  obtain ⟨grp, grp', hg, hG, _, _, hkind, hnodes⟩ := split_element hwf h hp
  obtain ⟨f, hf, hvr⟩ := hv2 g grp hg
  obtain ⟨f', hf', hwr⟩ := (discrByKind_some hw).2 G grp' hG
  rw [hkind] at hf'
  obtain rfl := resampled_unique hf hf'
  rw [hr] at hvr
  rw [hr'] at hwr
  obtain rfl := Option.some.inj hvr
  obtain rfl := Option.some.inj hwr
  simp only [List.getElem?_map, hnodes]

end

/-! ## Arrays computed element by element -/

theorem FitsGroups.map {F : Type} {groups : List (ElGroup N)} {v : List (List (List E))} (h : FitsGroups groups v)
    (f : List E → List F) : FitsGroups groups (v.map fun rows => rows.map f) := by
  unfold FitsGroups at h ⊢
  rw [← h, List.map_map]
  exact List.map_congr_left fun rows _ => by simp

/-- C126: what is computed element by element from arrays on the meshes and on the merged mesh corresponds if the
arrays do. -/
theorem C126_merge_elementwise {F : Type} {ms : List (FMesh N P A)} {M : FMesh N P A} {v : Nat → List (List (List E))}
    {w : List (List (List E))} (h : MergedRows ms M v w) (f : List E → List F) :
    MergedRows ms M (fun k => (v k).map fun rows => rows.map f) (w.map fun rows => rows.map f) := by
  refine ⟨h.fits.map f, ?_⟩
  intro k g i G I hp rows rows' hr hr'
  rw [List.getElem?_map, Option.map_eq_some_iff] at hr hr'
  obtain ⟨r0, h0, rfl⟩ := hr
  obtain ⟨r1, h1, rfl⟩ := hr'
  rw [List.getElem?_map, List.getElem?_map, h.copies k g i G I hp r0 r1 h0 h1]

/-- C126: the same for the split mesh. -/
theorem C126_split_elementwise {F : Type} {m M : FMesh N P A} {flags : List Int} {mp : List ((Nat × Int) × Nat)}
    {v w : List (List (List E))} (h : SplitRows m M flags mp v w) (f : List E → List F) :
    SplitRows m M flags mp (v.map fun rows => rows.map f) (w.map fun rows => rows.map f) := by
  refine ⟨h.fits.map f, ?_⟩
  intro g i G I hp rows rows' hr hr'
  rw [List.getElem?_map, Option.map_eq_some_iff] at hr hr'
  obtain ⟨r0, h0, rfl⟩ := hr
  obtain ⟨r1, h1, rfl⟩ := hr'
  rw [List.getElem?_map, List.getElem?_map, h.copies g i G I hp r0 r1 h0 h1]

/-! ## Examples -/

/-- The resampling matrix of the one unit node in the middle of a triangle. (Example, no code.) -/
def exCentroid (_ : List (List ℚ → ℚ)) (new _ : List (List ℚ)) : Option (Mat ℚ) :=
  if new = [[-1 / 3, -1 / 3]] then some [[1 / 3, 1 / 3, 1 / 3]] else none

/-- The reference triangle with the values at its vertices. (Example, no code.) -/
def exCentroidRef (_ : Nat) : SGroup ℚ (List ℚ) :=
  ⟨true, 0, [[-1, -1], [1, -1], [-1, 1]], [fun _ => 1, fun x => x.getD 0 0, fun x => x.getD 1 0]⟩

/-- The first coordinates of an element's nodes. (Example, no code.) -/
def exFirst (x : List (Nat × Nat)) : List ℚ := x.map fun p => (p.1 : ℚ)

/-- The first coordinates of the nodes on the two meshes. (Example, no code.) -/
def exCentroids (k : Nat) : List (List (List ℚ)) :=
  if k = 0 then [[[1 / 3], [2 / 3]]] else [[[16 / 3]], [[17 / 3]]]

theorem exCentroids_nodes : ∀ (k : Nat) m, [exMergeA, exMergeB][k]? = some m →
    discrByKind exCentroid exCentroidRef (fun _ => [[-1 / 3, -1 / 3]]) exFirst m.groups = some (exCentroids k) := by
  intro k m hm
  match k with
  | 0 =>
    obtain rfl := Option.some.inj hm
    decide +kernel
  | 1 =>
    obtain rfl := Option.some.inj hm
    decide +kernel
  | k + 2 => simp at hm

/-- C126: the hypotheses of `C126_merge_nodes`, `C126_merge_sum` and `C126_merge_rows`, in both modes, and the nodes of
the merged mesh. -/
example : (∀ m ∈ [exMergeA, exMergeB], ∃ vs, m.OK vs) ∧
    (∀ (k : Nat) m, [exMergeA, exMergeB][k]? = some m → FitsGroups m.groups (exCentroids k)) ∧
    (∃ M, mergeDisjoint [exMergeA, exMergeB] false = .ok M ∧
      MergedRows [exMergeA, exMergeB] M exCentroids [[[1 / 3], [2 / 3]], [[16 / 3]], [[17 / 3]]]) ∧
    ∃ M, mergeDisjoint [exMergeA, exMergeB] true = .ok M ∧
      MergedRows [exMergeA, exMergeB] M exCentroids [[[1 / 3], [2 / 3], [16 / 3], [17 / 3]]] := by
  have key : ∀ (single : Bool) (M : FMesh _ _ _) w, mergeDisjoint [exMergeA, exMergeB] single = .ok M →
      discrByKind exCentroid exCentroidRef (fun _ => [[-1 / 3, -1 / 3]]) exFirst M.groups = some w →
      MergedRows [exMergeA, exMergeB] M exCentroids w := by
    intro single M w hM hw
    obtain ⟨_, w', hw', hr⟩ := C126_merge_nodes exMerge_ok hM exCentroids_nodes
    rw [hw] at hw'
    exact Option.some.inj hw' ▸ hr
  have hM : ∀ single : Bool, ∃ M, mergeDisjoint [exMergeA, exMergeB] single = .ok M := by
    intro single
    cases single <;> exact ⟨_, rfl⟩
  refine ⟨exMerge_ok, fun k m hm => (discrByKind_some (exCentroids_nodes k m hm)).1, ?_, ?_⟩
  · exact ⟨_, rfl, key false _ _ rfl (by decide +kernel)⟩
  · exact ⟨_, rfl, key true _ _ rfl (by decide +kernel)⟩

/-- C126: the hypotheses of `C126_split_nodes`, `C126_split_sum` and `C126_split_rows`, and the nodes of the split
mesh. -/
example : (∀ g ∈ exMergeA.groups, g.WF) ∧ FitsGroups exMergeA.groups (exCentroids 0) ∧
    ∃ M mp, splitMeshGroups exMergeA [42, -1] = some (M, mp) ∧
      SplitRows exMergeA M [42, -1] mp (exCentroids 0) [[[2 / 3]], [[1 / 3]]] := by
  obtain ⟨vs, hok⟩ := exMerge_ok exMergeA (by simp)
  refine ⟨hok.wf, (discrByKind_some (exCentroids_nodes 0 _ rfl)).1, ?_⟩
  obtain ⟨⟨M, mp⟩, h⟩ := C15_split_defined exMergeA [42, -1] (by simp [exMergeA]) (by decide)
  refine ⟨M, mp, h, ?_⟩
  obtain ⟨_, w, hw, hr⟩ := C126_split_nodes hok.wf h (exCentroids_nodes 0 _ rfl)
  have hw' : (splitMeshGroups exMergeA [42, -1]).bind (fun M =>
      discrByKind exCentroid exCentroidRef (fun _ => [[-1 / 3, -1 / 3]]) exFirst M.1.groups) =
        some [[[2 / 3]], [[1 / 3]]] := by decide +kernel
  rw [h, Option.bind_some, hw] at hw'
  exact Option.some.inj hw' ▸ hr

/-- C126: the hypotheses of `C126_merge_integral`, `C126_merge_norm` and `C126_merge_elementwise`: the coordinates as
real numbers. -/
example : ∃ (M : FMesh _ _ _) (v : Nat → List (List (List ℝ))) (w : List (List (List ℝ))),
    mergeDisjoint [exMergeA, exMergeB] true = .ok M ∧
    (∀ (k : Nat) m, [exMergeA, exMergeB][k]? = some m → FitsGroups m.groups (v k)) ∧ MergedRows [exMergeA, exMergeB] M v w ∧
    ∃ r r', flatNorm (some (.fin 2)) (rowsCont 0 w) = .ok r ∧
      flatNorm (some (.fin 2)) (.node ((List.range 2).map fun k => rowsCont 0 (v k))) = .ok r' := by
  obtain ⟨hfit, w, _, hr⟩ := C126_merge_nodes (M := _) (single := true) exMerge_ok rfl exCentroids_nodes
  refine ⟨_, _, _, rfl, fun k m hm => (hfit k m hm).map (fun l => l.map fun q : ℚ => (q : ℝ)),
    C126_merge_elementwise hr (fun l => l.map fun q : ℚ => (q : ℝ)), ?_⟩
  have ho : ∀ p : ℝ, NOrd.fin 2 = .fin p → 0 < p := by
    intro p hp
    rw [NOrd.fin.injEq] at hp
    rw [← hp]
    norm_num
  obtain ⟨r, h1⟩ := C35_defined ho (by simp) (k := 0) (c := rowsCont 0 (w.map fun rows => rows.map fun l =>
    l.map fun q : ℚ => (q : ℝ))) (by simp [rowsCont, Cont.InContext]) (Or.inl ⟨2, rfl⟩)
  obtain ⟨r', h2⟩ := C35_defined ho (by simp) (k := 0) (c := .node ((List.range 2).map fun k => rowsCont 0
    ((exCentroids k).map fun rows => rows.map fun l => l.map fun q : ℚ => (q : ℝ))))
    (by simp [rowsCont, Cont.InContext, Cont.InContextAll, List.range_succ]) (Or.inl ⟨2, rfl⟩)
  exact ⟨r, r', h1, h2⟩

/-- C126: the hypotheses of `C126_split_integral`, `C126_split_norm` and `C126_split_elementwise`. -/
example : ∃ (M : FMesh _ _ _) (mp : _) (v w : List (List (List ℝ))), splitMeshGroups exMergeA [42, -1] = some (M, mp) ∧
    FitsGroups exMergeA.groups v ∧ SplitRows exMergeA M [42, -1] mp v w ∧
    ∃ r r', flatNorm (some (.fin 2)) (rowsCont 0 w) = .ok r ∧ flatNorm (some (.fin 2)) (rowsCont 0 v) = .ok r' := by
  obtain ⟨vs, hok⟩ := exMerge_ok exMergeA (by simp)
  obtain ⟨⟨M, mp⟩, h⟩ := C15_split_defined exMergeA [42, -1] (by simp [exMergeA]) (by decide)
  obtain ⟨hfit, w, _, hr⟩ := C126_split_nodes hok.wf h (exCentroids_nodes 0 _ rfl)
  refine ⟨M, mp, _, _, h, hfit.map (fun l => l.map fun q : ℚ => (q : ℝ)),
    C126_split_elementwise hr (fun l => l.map fun q : ℚ => (q : ℝ)), ?_⟩
  have hd : ∀ u : List (List (List ℝ)), ∃ r, flatNorm (some (.fin 2)) (rowsCont 0 u) = .ok r := fun u =>
    C35_defined (fun p hp => by rw [NOrd.fin.injEq] at hp; rw [← hp]; norm_num) (by simp) (k := 0)
      (by simp [rowsCont, Cont.InContext]) (Or.inl ⟨2, rfl⟩)
  obtain ⟨r, h1⟩ := hd (w.map fun rows => rows.map fun l => l.map fun q : ℚ => (q : ℝ))
  obtain ⟨r', h2⟩ := hd ((exCentroids 0).map fun rows => rows.map fun l => l.map fun q : ℚ => (q : ℝ))
  exact ⟨r, r', h1, h2⟩

end Meshmode
