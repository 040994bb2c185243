import Verif.Partition.Props

/-!
# Which parts a part is connected to (C69)

`get_connected_parts`, meshmode/distributed.py:479-490, and what it says about the parts that
`partition_mesh` makes.
-/
namespace Meshmode

/-! ## Model -/

/-- The part that an inter-part group leads to (`isinstance` test and `part_id`),
meshmode/distributed.py:487-490. -/
def Fag.connPart {A : Type} : Fag A → Option Nat
  | .interPart _ _ q _ _ => some q
  | _ => none

/-- `get_connected_parts`, meshmode/distributed.py:479-490 (`pytools.unique` keeps first occurrences);
`none` for the failed assertion if facial adjacency is disabled. -/
def getConnectedParts {A : Type} (fags : Option (List (List (Fag A)))) : Option (List Nat) :=
  fags.map fun fs => firstOccs (fs.flatMap fun l => l.filterMap Fag.connPart)

/-! ## Proofs -/

variable {N P A : Type}

/-- C69: the parts to which there are inter-part groups, each once. -/
theorem C69_exact {fags : List (List (Fag A))} {ps : List Nat} (h : getConnectedParts (some fags) = some ps) :
    ps.Nodup ∧ ∀ q, q ∈ ps ↔ ∃ l ∈ fags, ∃ i t rows aff, Fag.interPart i t q rows aff ∈ l := by
  simp only [getConnectedParts, Option.map_some, Option.some.injEq] at h
  subst h
  refine ⟨nodup_firstOccs _, fun q => ?_⟩
  simp only [firstOccs_mem, List.mem_flatMap, List.mem_filterMap]
  constructor
  · rintro ⟨l, hl, fg, hfg, h⟩
    cases fg with
    | interPart i t q' rows aff =>
      simp only [Fag.connPart, Option.some.injEq] at h
      subst h
      exact ⟨l, hl, i, t, rows, aff, hfg⟩
    | interior => simp [Fag.connPart] at h
    | boundary => simp [Fag.connPart] at h
  · rintro ⟨l, hl, i, t, rows, aff, hfg⟩
    exact ⟨l, hl, _, hfg, rfl⟩

/-- C69: without facial adjacency there is an exception, and only then. -/
theorem C69_defined (fags : Option (List (List (Fag A)))) :
    getConnectedParts fags = none ↔ fags = none := by
  cases fags <;> simp [getConnectedParts]

/-- The parts that a part of a partitioned mesh is connected to are those which one of its faces
faces. -/
theorem mem_connected_facesPart {m : MMesh N P A} {parts : Parts} {pid : Nat} {pm : MMesh N P A}
    (h : getMeshPart m parts pid = .ok pm) {ps : List Nat}
    (hc : getConnectedParts (some pm.fags) = some ps) (q : Nat) :
    q ∈ ps ↔ ∃ aff f n nf, FacesPart pm.fags aff f q n nf := by
  rw [(C69_exact hc).2]
  obtain ⟨pidx, sel, required, hs⟩ := getMeshPart_ok h
  constructor
  · rintro ⟨l', hl', i, t, rows, aff, hfg⟩
    obtain ⟨g, hg⟩ := List.mem_iff_getElem?.1 hl'
    have hg' := hg
    rw [part_fags_getElem? hs] at hg'
    obtain ⟨l, hl, rfl⟩ := Option.map_eq_some_iff.1 hg'
    have hfg2 : Fag.interPart i t q rows aff ∈ selfToOther m
        (globalElemToPart (nelements m.sizes) parts) pidx (selfGroupBase pm.sizes)
        (connectedParts m parts (globalElemToPart (nelements m.sizes) parts) pidx) g l := by
      rcases mem_completeGroup.1 hfg with hfg | ⟨_, hfg⟩ | ⟨_, hfg⟩ | ⟨_, hfg⟩
      · rw [List.mem_append, List.mem_append] at hfg
        rcases hfg with (hfg | hfg) | hfg
        · exact absurd (not_interPart_selfToSelf hfg) (by simp [Fag.bdry?])
        · exact hfg
        · simp [partBoundaryGroups] at hfg
      all_goals simp at hfg
    obtain ⟨a, j, rows0, aff', q', h1, h2, h3, hne⟩ := mem_selfToOther.1 hfg2
    simp only [Fag.interPart.injEq] at h3
    obtain ⟨rfl, rfl, rfl, rfl, rfl⟩ := h3
    obtain ⟨r, hr⟩ := List.exists_mem_of_ne_nil _ hne
    exact ⟨aff, ⟨i, r.el, r.face⟩, r.nel, r.nface, _, _, hg, hfg, hr⟩
  · rintro ⟨aff, f, n, nf, l, rows, hl, hfg, _⟩
    exact ⟨l, List.mem_of_getElem? hl, _, _, _, _, hfg⟩

/-- C69: a part that `partition_mesh` made is connected to exactly the other parts with an element that
has a common face with one of its elements. -/
theorem C69_partition {m : MMesh N P A} (ha : AdjOK m) {parts : Parts}
    (hids : (parts.map Prod.fst).Nodup) (hsorted : ∀ p ∈ parts, p.2.Pairwise (· < ·))
    {pid : Nat} {pm : MMesh N P A} (h : getMeshPart m parts pid = .ok pm)
    {sel : List Nat} (hsel : (pid, sel) ∈ parts) {ps : List Nat}
    (hc : getConnectedParts (some pm.fags) = some ps) (q : Nat) :
    q ∈ ps ↔ q ≠ pid ∧ ∃ selq, (q, selq) ∈ parts ∧ ∃ aff f1 f2 e1 e2, IsNeighborVia m.fags aff f1 f2 ∧
      IsGlobalNr m.sizes f1.grp f1.el e1 ∧ e1 ∈ sel ∧ IsGlobalNr m.sizes f2.grp f2.el e2 ∧ e2 ∈ selq := by
  rw [mem_connected_facesPart h hc]
  constructor
  · rintro ⟨aff, f1', n, nf, hf⟩
    obtain ⟨hne, f1, f2, selq, e2, ⟨_, _, k, e1, hk, _, hg1⟩, hq, hn, hg2, _, hnb⟩ :=
      (C12_inter_part_exact ha hids hsorted h hsel aff f1' q n nf).1 hf
    exact ⟨hne, selq, hq, aff, f1, f2, e1, e2, hnb, hg1, List.mem_of_getElem? hk, hg2,
      List.mem_of_getElem? hn⟩
  · rintro ⟨hne, selq, hq, aff, f1, f2, e1, e2, hnb, hg1, he1, hg2, he2⟩
    obtain ⟨pidx, sel', required, hs⟩ := getMeshPart_ok h
    obtain ⟨i0, hi0⟩ := List.mem_iff_getElem?.1 hsel
    obtain ⟨rfl, rfl⟩ := parts_index_unique hids hi0 hs.part
    have hv := hs.valid hids hsorted
    obtain ⟨hso, _⟩ := hs.selSorted hv
    have hf := hs.filterSpec hv
    obtain ⟨k, hk⟩ := List.mem_iff_getElem?.1 he1
    obtain ⟨n, hn⟩ := List.mem_iff_getElem?.1 he2
    have hgl := (isGlobalNr_part hso hf hk (g := f1.grp) (k - startOf m.sizes sel f1.grp)).2
    obtain ⟨sz, hsz⟩ : ∃ sz, m.sizes[f1.grp]? = some sz := by obtain ⟨sz, h1, _⟩ := hg1; exact ⟨sz, h1⟩
    have hblock := (startOf_block (sizes := m.sizes) (g := f1.grp) hso hk).2 (by
      obtain ⟨sz', h1, h2, h3⟩ := hg1
      rw [hsz] at h1; cases h1
      rw [take_succ_sum hsz]; omega)
    have hgl := hgl ⟨⟨_, hg1⟩, by omega⟩
    refine ⟨aff, ⟨f1.grp, k - startOf m.sizes sel f1.grp, f1.face⟩, n, f2.face, ?_⟩
    rw [C12_inter_part_exact ha hids hsorted h hsel]
    exact ⟨hne, f1, f2, selq, e2, ⟨rfl, rfl, k, e1, hk, hgl, hg1⟩, hq, hn, hg2, rfl, hnb⟩

/-- C69: with symmetric facial adjacency (`inv` inverts affine maps), of two parts either each is
connected to the other or none is; no part is connected to itself. -/
theorem C69_symmetric {m : MMesh N P A} (ha : AdjOK m) {inv : A → A}
    (hsym : ∀ aff f f', IsNeighborVia m.fags aff f f' → IsNeighborVia m.fags (inv aff) f' f)
    {parts : Parts} (hids : (parts.map Prod.fst).Nodup) (hsorted : ∀ p ∈ parts, p.2.Pairwise (· < ·))
    {p q : Nat} {pm qm : MMesh N P A} (hp : getMeshPart m parts p = .ok pm)
    (hq : getMeshPart m parts q = .ok qm) {ps qs : List Nat}
    (hps : getConnectedParts (some pm.fags) = some ps) (hqs : getConnectedParts (some qm.fags) = some qs) :
    (q ∈ ps ↔ p ∈ qs) ∧ p ∉ ps := by
  have key : ∀ {p q : Nat} {pm qm : MMesh N P A} (_ : getMeshPart m parts p = .ok pm)
      (_ : getMeshPart m parts q = .ok qm) {ps qs : List Nat}
      (_ : getConnectedParts (some pm.fags) = some ps) (_ : getConnectedParts (some qm.fags) = some qs),
      q ∈ ps → p ∈ qs := by
    intro p q pm qm hp hq ps qs hps hqs h
    obtain ⟨aff, f, n, nf, hf⟩ := (mem_connected_facesPart hp hps q).1 h
    obtain ⟨_, f2, n', _, _, _, h2⟩ := C12_sides_agree ha hsym hids hsorted hp hq hf
    exact (mem_connected_facesPart hq hqs p).2 ⟨_, _, _, _, h2⟩
  refine ⟨⟨key hp hq hps hqs, key hq hp hqs hps⟩, fun h => ?_⟩
  obtain ⟨aff, f, n, nf, hf⟩ := (mem_connected_facesPart hp hps p).1 h
  exact (C12_sides_agree ha hsym hids hsorted hp hp hf).1 rfl

/-! ## Concrete cases -/

-- The hypotheses of `C69_partition` and `C69_symmetric`: two parts of three elements, connected to each
-- other.
example : AdjOK exPartMesh ∧ getMeshPart exPartMesh exParts 5 = .ok exPart5 ∧
    getMeshPart exPartMesh exParts 3 = .ok exPart3 ∧
    getConnectedParts (some exPart5.fags) = some [3] ∧ getConnectedParts (some exPart3.fags) = some [5] :=
  ⟨exPartMesh_adjOK, exParts_made.1, exParts_made.2, by decide +kernel, by decide +kernel⟩

-- Parts in the order of their first groups.
example : getConnectedParts (some [[Fag.interPart 0 (.partition 7) 7 [] (), .boundary 0 .all []],
    [.interPart 1 (.partition 2) 2 [] (), .interPart 1 (.partition 7) 7 [] ()]]) = some [7, 2] := by decide

end Meshmode
