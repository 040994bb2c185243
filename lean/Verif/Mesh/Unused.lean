import Verif.Mesh.Merge

/-!
# Removing unused vertices (C46)

`remove_unused_vertices`, meshmode/mesh/processing.py:1565-1591.
-/
namespace Meshmode

variable {N P A : Type}

/-- Errors of `remove_unused_vertices`. Code: meshmode/mesh/processing.py:1567-1573. -/
inductive RemErr where
  /-- `ValueError("mesh must have vertices")` -/
  | noVertices
  /-- `np.concatenate` of no arrays -/
  | noGroups
  /-- `IndexError` -/
  | index
  deriving DecidableEq, Repr

/-- `np.concatenate([grp.vertex_indices.reshape(-1) …])`,
meshmode/mesh/processing.py:1576-1579. -/
def allVertexNrs (groups : List (ElGroup N)) : List Nat :=
  groups.flatMap fun g => g.vertexIndices.flatten

/-- `used_flags`, meshmode/mesh/processing.py:1581-1582. -/
def usedFlags (n : Nat) (used : List Nat) : List Bool :=
  (List.range n).map fun v => decide (v ∈ used)

/-- `new_vertex_indices`, meshmode/mesh/processing.py:1583-1584: `cumsum(flags) - 1`, with `none`
for the `-1` of the unused vertices. -/
def newVertexIndices (flags : List Bool) : List (Option Nat) :=
  flags.zipIdx.map fun p => if p.1 then some ((flags.take (p.2 + 1)).count true - 1) else none

/-- `ary[mask]`. Code: meshmode/mesh/processing.py:1575-1596. -/
def maskSelect {α : Type} : List α → List Bool → List α
  | a :: as, b :: bs => if b then a :: maskSelect as bs else maskSelect as bs
  | _, _ => []

/-- `new_vertex_indices[grp.vertex_indices]`, meshmode/mesh/processing.py:1589. -/
def renumberRow (tbl : List (Option Nat)) (row : List Nat) : Option (List Nat) :=
  row.mapM fun v => (tbl[v]?).join

/-- `replace(grp, vertex_indices=…)`, meshmode/mesh/processing.py:1589. -/
def renumberGroup (tbl : List (Option Nat)) (g : ElGroup N) : Option (ElGroup N) :=
  (g.vertexIndices.mapM (renumberRow tbl)).map fun rows => { g with vertexIndices := rows }

/-- `remove_unused_vertices`, meshmode/mesh/processing.py:1565-1591.  `mesh.copy` keeps the
adjacency, which numbers elements and faces only.  Groups without `vertex_indices` are not
modelled. -/
def removeUnused (m : FMesh N P A) : Except RemErr (FMesh N P A) :=
  match m.vertices with
  | none => .error .noVertices
  | some vs =>
    if m.groups.isEmpty then .error .noGroups
    else
      let used := npUnique (sortNat (allVertexNrs m.groups))
      if used.any fun v => decide (vs.length ≤ v) then .error .index
      else
        let flags := usedFlags vs.length used
        match m.groups.mapM (renumberGroup (newVertexIndices flags)) with
        | none => .error .index
        | some groups => .ok { m with vertices := some (maskSelect vs flags), groups := groups }

/-! ### Specification -/

/-- Vertex number `v` belongs to some element. (Specification or proof vocabulary, no code.) -/
def VertexUsed (groups : List (ElGroup N)) (v : Nat) : Prop :=
  ∃ g ∈ groups, ∃ row ∈ g.vertexIndices, v ∈ row

/-- The groups with all vertex numbers mapped by `f`.
(Specification or proof vocabulary, no code.) -/
def mapVertexNrs (f : Nat → Nat) (groups : List (ElGroup N)) : List (ElGroup N) :=
  groups.map fun g => { g with vertexIndices := g.vertexIndices.map fun row => row.map f }

/-! ### Proofs -/

theorem mem_allVertexNrs {groups : List (ElGroup N)} {v : Nat} :
    v ∈ allVertexNrs groups ↔ VertexUsed groups v := by
  simp [allVertexNrs, VertexUsed]

theorem usedFlags_getElem? {n : Nat} {used : List Nat} {v : Nat} :
    (usedFlags n used)[v]? = some true ↔ v < n ∧ v ∈ used := by
  unfold usedFlags
  rw [List.getElem?_map]
  by_cases h : v < n
  · simp [h]
  · simp [h]

theorem maskSelect_sublist {α : Type} (l : List α) (b : List Bool) : (maskSelect l b).Sublist l := by
  induction l generalizing b with
  | nil => simp [maskSelect]
  | cons a l ih =>
    cases b with
    | nil => simp [maskSelect]
    | cons c b =>
      rw [maskSelect]
      split
      · exact (ih b).cons_cons a
      · exact (ih b).cons a

theorem maskSelect_getElem? {α : Type} {l : List α} {b : List Bool} {v : Nat}
    (h : b[v]? = some true) (hl : b.length = l.length) :
    (maskSelect l b)[(b.take v).count true]? = l[v]? := by
  induction l generalizing b v with
  | nil =>
    cases b with
    | nil => simp at h
    | cons c b => simp at hl
  | cons a l ih =>
    cases b with
    | nil => simp at h
    | cons c b =>
      cases v with
      | zero =>
        simp only [List.getElem?_cons_zero, Option.some.injEq] at h
        subst h
        simp [maskSelect]
      | succ v =>
        have := ih (b := b) (v := v) (by simpa using h) (by simpa using hl)
        cases c
        · simp [maskSelect, this]
        · simp [maskSelect, this]

theorem length_maskSelect {α : Type} {l : List α} {b : List Bool} (hl : b.length = l.length) :
    (maskSelect l b).length = b.count true := by
  induction l generalizing b with
  | nil =>
    cases b with
    | nil => rfl
    | cons c b => simp at hl
  | cons a l ih =>
    cases b with
    | nil => simp at hl
    | cons c b =>
      have := ih (b := b) (by simpa using hl)
      cases c <;> simp [maskSelect, this]

theorem exists_rank {b : List Bool} {w : Nat} (h : w < b.count true) :
    ∃ v, b[v]? = some true ∧ (b.take v).count true = w := by
  induction b generalizing w with
  | nil => simp at h
  | cons c b ih =>
    cases c with
    | false =>
      obtain ⟨v, h1, h2⟩ := ih (w := w) (by simpa using h)
      exact ⟨v + 1, by simpa using h1, by simpa using h2⟩
    | true =>
      cases w with
      | zero => exact ⟨0, rfl, rfl⟩
      | succ w =>
        obtain ⟨v, h1, h2⟩ := ih (w := w) (by simpa using h)
        exact ⟨v + 1, by simpa using h1, by simpa using h2⟩

theorem rank_lt {b : List Bool} {u v : Nat} (hu : b[u]? = some true) (h : u < v) :
    (b.take u).count true < (b.take v).count true := by
  induction b generalizing u v with
  | nil => simp at hu
  | cons c b ih =>
    obtain ⟨v, rfl⟩ : ∃ k, v = k + 1 := ⟨v - 1, by omega⟩
    cases u with
    | zero =>
      simp only [List.getElem?_cons_zero, Option.some.injEq] at hu
      subst hu
      simp
    | succ u =>
      have := ih (u := u) (v := v) (by simpa using hu) (by omega)
      cases c <;> simpa using this

theorem newVertexIndices_getElem? {b : List Bool} {v : Nat} (h : b[v]? = some true) :
    (newVertexIndices b)[v]? = some (some ((b.take v).count true)) := by
  unfold newVertexIndices
  rw [List.getElem?_map, List.getElem?_zipIdx, h]
  simp only [Option.map_some, Nat.zero_add, if_true, Option.some.injEq]
  rw [List.take_add_one, h]
  simp

theorem mapM_some_of_forall {α β : Type} {f : α → Option β} {g : α → β} {l : List α}
    (h : ∀ a ∈ l, f a = some (g a)) : l.mapM f = some (l.map g) := by
  induction l with
  | nil => rfl
  | cons a l ih =>
    rw [List.mapM_cons, h a List.mem_cons_self, ih fun b hb => h b (List.mem_cons_of_mem _ hb)]
    rfl

theorem renumber_groups {groups : List (ElGroup N)} {b : List Bool}
    (h : ∀ v, VertexUsed groups v → b[v]? = some true) :
    groups.mapM (renumberGroup (newVertexIndices b)) =
      some (mapVertexNrs (fun v => (b.take v).count true) groups) := by
  refine mapM_some_of_forall fun g hg => ?_
  unfold renumberGroup
  rw [mapM_some_of_forall (g := fun row => row.map fun v => (b.take v).count true)]
  · rfl
  · intro row hrow
    unfold renumberRow
    refine mapM_some_of_forall fun v hv => ?_
    rw [newVertexIndices_getElem? (h v ⟨g, hg, row, hrow, hv⟩)]
    rfl

/-- What `removeUnused` does, given valid input. -/
theorem removeUnused_eq {m : FMesh N P A} {vs : List P} (hv : m.vertices = some vs)
    (hg : m.groups ≠ []) (hval : ∀ v, VertexUsed m.groups v → v < vs.length) :
    removeUnused m =
      let flags := usedFlags vs.length (npUnique (sortNat (allVertexNrs m.groups)))
      .ok { m with
        vertices := some (maskSelect vs flags)
        groups := mapVertexNrs (fun v => (flags.take v).count true) m.groups } := by
  have hmem : ∀ v, v ∈ npUnique (sortNat (allVertexNrs m.groups)) ↔ VertexUsed m.groups v := by
    intro v
    rw [mem_npUnique, sortNat, mem_stableSort, mem_allVertexNrs]
  have hany : ((npUnique (sortNat (allVertexNrs m.groups))).any fun v =>
      decide (vs.length ≤ v)) = false := by
    rw [List.any_eq_false]
    intro v h
    have := hval v ((hmem v).1 h)
    simpa using this
  unfold removeUnused
  rw [hv]
  simp only
  rw [if_neg (by simp [hg]), hany, if_neg (by simp), renumber_groups]
  intro v h
  rw [usedFlags_getElem?]
  exact ⟨hval v h, (hmem v).2 h⟩

/-- C46: when `remove_unused_vertices` returns. -/
theorem C46_defined (m : FMesh N P A) :
    (∃ M, removeUnused m = .ok M) ↔
      ∃ vs, m.vertices = some vs ∧ m.groups ≠ [] ∧ ∀ v, VertexUsed m.groups v → v < vs.length := by
  constructor
  · rintro ⟨M, h⟩
    unfold removeUnused at h
    split at h
    · simp at h
    · rename_i vs hv
      split at h
      · simp at h
      · rename_i hg
        simp only at h
        split at h
        · simp at h
        · rename_i hany
          refine ⟨vs, hv, by simpa using hg, fun v hvu => ?_⟩
          have : v ∈ npUnique (sortNat (allVertexNrs m.groups)) := by
            rw [mem_npUnique, sortNat, mem_stableSort, mem_allVertexNrs]
            exact hvu
          simp only [List.any_eq_true, decide_eq_true_eq, not_exists, not_and, not_le] at hany
          exact hany v this
  · rintro ⟨vs, hv, hg, hval⟩
    exact ⟨_, removeUnused_eq hv hg hval⟩

/-- C46: vertex numbers are mapped by an order-preserving `f`; each keeps its point; no unused
vertex remains; the kept vertices stay in order; nothing else changes. -/
theorem C46_remove_unused {m M : FMesh N P A} (h : removeUnused m = .ok M) :
    ∃ vs vs' f, m.vertices = some vs ∧ M.vertices = some vs' ∧
      M.groups = mapVertexNrs f m.groups ∧
      (∀ u v, VertexUsed m.groups u → VertexUsed m.groups v → (u < v ↔ f u < f v)) ∧
      (∀ v, VertexUsed m.groups v → f v < vs'.length ∧ vs'[f v]? = vs[v]?) ∧
      (∀ w, w < vs'.length → VertexUsed M.groups w) ∧
      vs'.Sublist vs ∧ M.ambientDim = m.ambientDim ∧ M.lazy = m.lazy := by
  obtain ⟨vs, hv, hg, hval⟩ := (C46_defined m).1 ⟨M, h⟩
  rw [removeUnused_eq hv hg hval] at h
  simp only [Except.ok.injEq] at h
  have hfl : ∀ v, (usedFlags vs.length (npUnique (sortNat (allVertexNrs m.groups))))[v]? = some true
      ↔ VertexUsed m.groups v := by
    intro v
    rw [usedFlags_getElem?, mem_npUnique, sortNat, mem_stableSort, mem_allVertexNrs]
    exact ⟨fun h => h.2, fun h => ⟨hval v h, h⟩⟩
  have hlen : (usedFlags vs.length (npUnique (sortNat (allVertexNrs m.groups)))).length =
      vs.length := by simp [usedFlags]
  revert h hfl hlen
  generalize usedFlags vs.length (npUnique (sortNat (allVertexNrs m.groups))) = b
  intro h hfl hlen
  subst h
  refine ⟨vs, _, fun v => (b.take v).count true, hv, rfl, rfl, ?_, ?_, ?_,
    maskSelect_sublist _ _, rfl, rfl⟩
  · intro u v hu hv
    refine ⟨rank_lt ((hfl u).2 hu), fun h => ?_⟩
    by_contra hn
    rcases Nat.lt_or_eq_of_le (not_lt.1 hn) with h' | h'
    · exact absurd (rank_lt ((hfl v).2 hv) h') (not_lt.2 (Nat.le_of_lt h))
    · subst h'; exact lt_irrefl _ h
  · intro v hvu
    have h1 := maskSelect_getElem? ((hfl v).2 hvu) hlen
    refine ⟨?_, h1⟩
    rw [List.getElem?_eq_getElem (hval v hvu)] at h1
    exact (List.getElem?_eq_some_iff.1 h1).1
  · intro w hw
    rw [length_maskSelect hlen] at hw
    obtain ⟨v, h1, h2⟩ := exists_rank hw
    obtain ⟨g, hg, row, hrow, hvr⟩ := (hfl v).1 h1
    refine ⟨_, List.mem_map.2 ⟨g, hg, rfl⟩, _, List.mem_map.2 ⟨row, hrow, rfl⟩, ?_⟩
    exact List.mem_map.2 ⟨v, hvr, h2⟩

/-- C46: two entries of the vertex tables are equal after the removal exactly when they were equal
before, so the same faces and elements share vertices. -/
theorem C46_sharing {m M : FMesh N P A} (h : removeUnused m = .ok M) :
    ∃ f, M.groups = mapVertexNrs f m.groups ∧
      ∀ u v, VertexUsed m.groups u → VertexUsed m.groups v → (f u = f v ↔ u = v) := by
  obtain ⟨_, _, f, _, _, hf, hlt, _⟩ := C46_remove_unused h
  refine ⟨f, hf, fun u v hu hv => ⟨fun he => ?_, fun he => by rw [he]⟩⟩
  rcases Nat.lt_trichotomy u v with h | h | h
  · have := (hlt u v hu hv).1 h; omega
  · exact h
  · have := (hlt v u hv hu).1 h; omega

theorem count_take_replicate (n v : Nat) (h : v ≤ n) :
    ((List.replicate n true).take v).count true = v := by
  rw [List.take_replicate, List.count_replicate_self]
  omega

theorem maskSelect_replicate {α : Type} (l : List α) :
    maskSelect l (List.replicate l.length true) = l := by
  induction l with
  | nil => rfl
  | cons a l ih => simp [List.replicate_succ, maskSelect, ih]

/-- C46: nothing changes when all vertices are used. -/
theorem C46_all_used {m : FMesh N P A} {vs : List P} (hv : m.vertices = some vs)
    (hg : m.groups ≠ []) (hval : ∀ v, VertexUsed m.groups v ↔ v < vs.length) :
    removeUnused m = .ok m := by
  rw [removeUnused_eq hv hg fun v h => (hval v).1 h]
  have hfl : usedFlags vs.length (npUnique (sortNat (allVertexNrs m.groups))) =
      List.replicate vs.length true := by
    refine List.eq_replicate_iff.2 ⟨by simp [usedFlags], fun b hb => ?_⟩
    obtain ⟨v, hlt, rfl⟩ := List.mem_map.1 hb
    rw [decide_eq_true_eq, mem_npUnique, sortNat, mem_stableSort, mem_allVertexNrs, hval]
    exact List.mem_range.1 hlt
  simp only
  rw [hfl, maskSelect_replicate]
  have hgr : mapVertexNrs (fun v => ((List.replicate vs.length true).take v).count true) m.groups =
      m.groups := by
    unfold mapVertexNrs
    conv_rhs => rw [← List.map_id m.groups]
    refine List.map_congr_left fun g hgm => ?_
    have : (g.vertexIndices.map fun row => row.map fun v =>
        ((List.replicate vs.length true).take v).count true) = g.vertexIndices := by
      conv_rhs => rw [← List.map_id g.vertexIndices]
      refine List.map_congr_left fun row hrow => ?_
      conv_rhs => rw [id, ← List.map_id row]
      refine List.map_congr_left fun v hvr => ?_
      exact count_take_replicate _ _ (Nat.le_of_lt ((hval v).1 ⟨g, hgm, row, hrow, hvr⟩))
    rw [this]
    rfl
  rw [hgr, ← hv]

/-- C46: applying it twice is the same as applying it once. -/
theorem C46_idempotent {m M : FMesh N P A} (h : removeUnused m = .ok M) :
    removeUnused M = .ok M := by
  obtain ⟨vs, vs', f, hv, hv', hf, _, hpt, hall, _⟩ := C46_remove_unused h
  obtain ⟨_, _, hg, _⟩ := (C46_defined m).1 ⟨M, h⟩
  refine C46_all_used hv' (by rw [hf]; simpa [mapVertexNrs] using hg) fun v => ⟨?_, hall v⟩
  rintro ⟨g, hg, row, hrow, hvr⟩
  rw [hf] at hg
  obtain ⟨g0, hg0, rfl⟩ := List.mem_map.1 hg
  obtain ⟨row0, hrow0, rfl⟩ := List.mem_map.1 hrow
  obtain ⟨v0, hv0, rfl⟩ := List.mem_map.1 hvr
  exact (hpt v0 ⟨g0, hg0, row0, hrow0, hv0⟩).1

/-- Five vertices of which 0 and 3 are not used. -/
def exUnused : FMesh Unit Nat Unit :=
  ⟨1, some [10, 11, 12, 13, 14], [⟨0, [[0], [1]], [[4, 1], [1, 2]], [(), ()]⟩],
    ⟨some true, .missing, .missing⟩⟩

example : (match removeUnused exUnused with
    | .ok M => (M.vertices, M.groups.map ElGroup.vertexIndices)
    | .error _ => (none, [])) = (some [11, 12, 14], [[[2, 0], [0, 1]]]) := by decide +kernel

end Meshmode
