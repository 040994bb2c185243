import Verif.Interop.FiredrakeNodal
import Verif.Connection.Opposite

/-!
# Export of meshes to Firedrake: cells and permutations (C82)

`export_mesh_to_firedrake` (meshmode/interop/firedrake/mesh.py).
-/
namespace Meshmode

variable {P : Type}

/-! ## Model -/

/-- What the code reads from a group: whether it is a `SimplexElementGroup`, and `vertex_indices`.
Code: meshmode/interop/firedrake/mesh.py:856-859, 871-876. -/
structure ExGroup where
  simplex : Bool
  rows : List (List Nat)

/-- What the code reads from the mesh. `conforming` is `is_conforming`, which may be `None`.
Code: meshmode/interop/firedrake/mesh.py:845-867. -/
structure ExMesh (P : Type) where
  groups : List ExGroup
  vertices : Option (List P)
  conforming : Option Bool

/-- The argument `group_nr`: `None`, an integer, or something else.
Code: meshmode/interop/firedrake/mesh.py:845-855. -/
inductive ExGroupNr where
  | none
  | int (i : Int)
  | other

/-- Exceptions. Code: meshmode/interop/firedrake/mesh.py:845-867, 873-876, 923, 929, 940. -/
inductive ExErr where
  | value
  | type
  | index
  deriving DecidableEq, Repr

/-- The checks of the arguments; the number of the group used.
Code: meshmode/interop/firedrake/mesh.py:845-867. -/
def exportSelect (m : ExMesh P) (nr : ExGroupNr) : Except ExErr Nat :=
  let range (i : Int) : Except ExErr Nat :=
    if i < 0 ∨ (m.groups.length : Int) ≤ i then .error .value
    else match m.groups[i.toNat]? with
      | none => .error .index
      | some g =>
        if g.simplex = false then .error .type
        else if m.vertices.isNone then .error .value
        else if m.conforming ≠ some true then .error .value
        else .ok i.toNat
  match nr with
  | .none => if m.groups.length ≠ 1 then .error .value else range 0
  | .int i => range i
  | .other => .error .type

/-- `fd2mm_indices`, `coords` and `cells`. `np.vectorize` raises if there are no elements.
Code: meshmode/interop/firedrake/mesh.py:872-876. -/
def exportCells (vertices : List P) (rows : List (List Nat)) : Except ExErr (List P × List (List Nat)) :=
  let fd2mm := npUnique rows.flatten
  match fd2mm.mapM fun v => vertices[v]? with
  | none => .error .index
  | some coords =>
    if rows.flatten = [] then .error .value
    else .ok (coords, rows.map fun row => row.map fun v => fd2mm.idxOf v)

/-- `perm`, from the vertices of an element in the order of meshmode and of Firedrake.
Code: meshmode/interop/firedrake/mesh.py:940. -/
def fdPerm (mmOrder fdOrder : List Nat) : Option (List Nat) :=
  (npArgsort (npArgsort fdOrder)).mapM fun i => (npArgsort mmOrder)[i]?

/-- `perm2cells.setdefault(perm, [])`, `perm2cells[perm].append(mm_cell_id)`; the dictionary is a list of its
items. Code: meshmode/interop/firedrake/mesh.py:941-942. -/
def addPerm (d : List (List Nat × List Nat)) (p : List Nat) (c : Nat) : List (List Nat × List Nat) :=
  if d.any fun e => decide (e.1 = p) then d.map fun e => if e.1 = p then (e.1, e.2 ++ [c]) else e
  else d ++ [(p, [c])]

/-- `perm2cells` after the loop, from the permutations of the elements.
Code: meshmode/interop/firedrake/mesh.py:922-946. -/
def permDict (perms : List (List Nat)) : List (List Nat × List Nat) :=
  perms.zipIdx.foldl (fun d pc => addPerm d pc.1 pc.2) []

/-- The permutations of the elements. `vertex_indices[mm_cell_id]` may raise `IndexError`, and so may the
indexing by permutations. Code: meshmode/interop/firedrake/mesh.py:923-940. -/
def exportPerms (rows : List (List Nat)) (t : FdTopology) (numbering : List Nat) : Option (List (List Nat)) := do
  let cls ← numbering.mapM fun c => t.closures[c]?
  cls.zipIdx.mapM fun p => do
    let mm ← rows[p.2]?
    fdPerm mm ((t.dmpVerts p.1).map fun v => v - t.vStart)

/-- Everything but the coordinates of nodes. Code: meshmode/interop/firedrake/mesh.py:798-988. -/
structure FdExported (P : Type) where
  coords : List P
  cells : List (List Nat)
  top : FdTopology
  numbering : List Nat
  perm2cells : List (List Nat × List Nat)

/-- The whole function without the coordinates of nodes; `fd` is what Firedrake makes of the cells, with the
numbers of the cells there. Code: meshmode/interop/firedrake/mesh.py:798-946. -/
def exportFd (fd : List P → List (List Nat) → FdTopology × List Nat) (m : ExMesh P) (nr : ExGroupNr) :
    Except ExErr (FdExported P) :=
  match exportSelect m nr with
  | .error e => .error e
  | .ok g =>
    match m.groups[g]?, m.vertices with
    | some grp, some vertices =>
      match exportCells vertices grp.rows with
      | .error e => .error e
      | .ok (coords, cells) =>
        match exportPerms grp.rows (fd coords cells).1 (fd coords cells).2 with
        | none => .error .index
        | some perms => .ok ⟨coords, cells, (fd coords cells).1, (fd coords cells).2, permDict perms⟩
    | _, _ => .error .index

/-! ## Specification -/

/-- Firedrake has a cell for every cell given, with the same vertices, in any order.
(Specification or proof vocabulary, no code.) -/
structure PlexOK (cells : List (List Nat)) (t : FdTopology) (numbering : List Nat) : Prop where
  length : numbering.length = cells.length
  nodup : numbering.Nodup
  verts : ∀ (i : Nat) (cell : List Nat) (c : Nat), cells[i]? = some cell → numbering[i]? = some c →
    ∃ cl, t.closures[c]? = some cl ∧ ((t.dmpVerts cl).map fun v => v - t.vStart).Perm cell

/-- The Firedrake vertex at local vertex `j` of the Firedrake cell of element `i`.
(Specification or proof vocabulary, no code.) -/
def FdExported.fdVertex (r : FdExported P) (i j v : Nat) : Prop :=
  ∃ c cl, r.numbering[i]? = some c ∧ r.top.closures[c]? = some cl ∧
    (r.top.dmpVerts cl)[j]? = some (v + r.top.vStart)

/-- The elements of a simplex group with `n` vertices each, all different and in the mesh.
(Specification or proof vocabulary, no code.) -/
structure ExRowsOK (n nv : Nat) (rows : List (List Nat)) : Prop where
  length : ∀ row ∈ rows, row.length = n
  nodup : ∀ row ∈ rows, row.Nodup
  lt : ∀ row ∈ rows, ∀ v ∈ row, v < nv

/-! ## Lemmas -/

theorem length_npArgsort (l : List Nat) : (npArgsort l).length = l.length := by
  rw [(perm_npArgsort l).length_eq, List.length_range]

theorem npArgsort_lt {l : List Nat} {k i : Nat} (h : (npArgsort l)[k]? = some i) : i < l.length :=
  List.mem_range.1 ((perm_npArgsort l).mem_iff.1 (List.mem_of_getElem? h))

theorem eq_of_sorted_perm {l l' : List Nat} (h : l.Pairwise (· < ·)) (h' : l'.Pairwise (· < ·)) (hp : l.Perm l') :
    l = l' :=
  List.Perm.eq_of_pairwise (fun a b _ _ hab hba => by omega) h h' hp

theorem map_npArgsort_perm (l : List Nat) : ((npArgsort l).map fun i => l.getD i 0).Perm l := by
  refine ((perm_npArgsort l).map _).trans ?_
  have : ((List.range l.length).map fun i => l.getD i 0) = l := by
    apply List.ext_getElem?
    intro k
    rw [List.getElem?_map]
    by_cases hk : k < l.length
    · simp [List.getElem?_range hk, List.getD_eq_getElem?_getD, List.getElem?_eq_getElem hk]
    · rw [List.getElem?_eq_none (by simpa using hk), List.getElem?_eq_none (by omega)]
      rfl
  rw [this]

/-- `np.argsort` of a permutation is its inverse. -/
theorem npArgsort_inverse {p : List Nat} (hp : p.Perm (List.range p.length)) {k : Nat} (hk : k < p.length) :
    ∃ i, (npArgsort p)[k]? = some i ∧ p[i]? = some k := by
  have hn : p.Nodup := hp.nodup_iff.2 List.nodup_range
  have h := eq_of_sorted_perm (sorted_npArgsort hn) List.pairwise_lt_range ((map_npArgsort_perm p).trans hp)
  have hl : k < (npArgsort p).length := by rw [length_npArgsort]; exact hk
  have hi := List.getElem?_eq_getElem hl
  refine ⟨_, hi, ?_⟩
  have hlt := npArgsort_lt hi
  have : ((npArgsort p).map fun i => p.getD i 0)[k]? = some k := by rw [h, List.getElem?_range hk]
  rw [List.getElem?_map, hi, Option.map_some, List.getD_eq_getElem?_getD, List.getElem?_eq_getElem hlt] at this
  rw [List.getElem?_eq_getElem hlt]
  simpa using this

/-- The permutation of an element, if the vertices are the same up to an increasing renumbering. -/
theorem fdPerm_spec {mm fd : List Nat} {f : Nat → Nat} (hm : mm.Nodup)
    (hf : ∀ a ∈ mm, ∀ b ∈ mm, a < b → f a < f b) (hp : fd.Perm (mm.map f)) :
    ∃ p, fdPerm mm fd = some p ∧ p.Perm (List.range mm.length) ∧
      ∀ (j : Nat) (v : Nat), fd[j]? = some v ↔ ∃ i w, p[j]? = some i ∧ mm[i]? = some w ∧ f w = v := by
  have hlen : fd.length = mm.length := by rw [hp.length_eq, List.length_map]
  have hinj : (mm.map f).Nodup := by
    rw [List.nodup_map_iff_inj_on hm]
    intro a ha b hb hab
    rcases Nat.lt_trichotomy a b with h | h | h
    · have := hf a ha b hb h; omega
    · exact h
    · have := hf b hb a ha h; omega
  have hfd : fd.Nodup := hp.nodup_iff.2 hinj
  -- the sorted lists agree
  have hsm : (((npArgsort mm).map fun i => mm.getD i 0).map f).Pairwise (· < ·) := by
    rw [List.pairwise_map]
    refine (sorted_npArgsort hm).imp_of_mem fun ha hb hab => ?_
    exact hf _ ((map_npArgsort_perm mm).mem_iff.1 ha) _ ((map_npArgsort_perm mm).mem_iff.1 hb) hab
  have heq := eq_of_sorted_perm (sorted_npArgsort hfd) hsm
    ((map_npArgsort_perm fd).trans (hp.trans ((map_npArgsort_perm mm).map f).symm))
  have hpf := perm_npArgsort fd
  have hpf' : (npArgsort fd).Perm (List.range (npArgsort fd).length) := by rw [length_npArgsort]; exact hpf
  have hpp := perm_npArgsort (npArgsort fd)
  rw [length_npArgsort] at hpp
  obtain ⟨p, hpe⟩ := mapM_isSome_of (f := fun i => (npArgsort mm)[i]?) (l := npArgsort (npArgsort fd)) (by
    intro i hi
    have := List.mem_range.1 (hpp.mem_iff.1 hi)
    exact ⟨_, List.getElem?_eq_getElem (by rw [length_npArgsort]; omega)⟩)
  have hpl : p.length = mm.length := by
    rw [(mapM_getElem?_some hpe).1, length_npArgsort, length_npArgsort, hlen]
  have hval : ∀ j, j < mm.length → ∃ k i : Nat, (npArgsort fd)[k]? = some j ∧ (npArgsort mm)[k]? = some i ∧
      p[j]? = some i := by
    intro j hj
    obtain ⟨k, hk, hkj⟩ := npArgsort_inverse hpf' (k := j) (by rw [length_npArgsort]; omega)
    have hkl : k < (npArgsort mm).length := by
      have := (List.getElem?_eq_some_iff.1 hkj).1
      rw [length_npArgsort] at this ⊢
      omega
    refine ⟨k, _, hkj, List.getElem?_eq_getElem hkl, ?_⟩
    rw [mapM_getElem?_bind hpe, hk]
    exact List.getElem?_eq_getElem hkl
  have hpair : ∀ j, j < mm.length → ∃ i w : Nat, p[j]? = some i ∧ mm[i]? = some w ∧ fd[j]? = some (f w) := by
    intro j hj
    obtain ⟨k, i, hk, hi, hpj⟩ := hval j hj
    have hil := npArgsort_lt hi
    refine ⟨i, _, hpj, List.getElem?_eq_getElem hil, ?_⟩
    have h1 : ((npArgsort fd).map fun i => fd.getD i 0)[k]? = some (fd.getD j 0) := by
      rw [List.getElem?_map, hk]; rfl
    rw [heq, List.getElem?_map, List.getElem?_map, hi] at h1
    simp only [Option.map_some, Option.some.injEq, List.getD_eq_getElem?_getD,
      List.getElem?_eq_getElem hil, List.getElem?_eq_getElem (show j < fd.length by omega),
      Option.getD_some] at h1
    rw [List.getElem?_eq_getElem (show j < fd.length by omega), h1]
  have hnd : p.Nodup := by
    rw [List.nodup_iff_injective_getElem]
    intro ⟨a, ha⟩ ⟨b, hb⟩ hab
    simp only at hab
    obtain ⟨i, w, h1, h2, h3⟩ := hpair a (by omega)
    obtain ⟨i', w', h1', h2', h3'⟩ := hpair b (by omega)
    rw [List.getElem?_eq_getElem ha, Option.some.injEq] at h1
    rw [List.getElem?_eq_getElem hb, Option.some.injEq] at h1'
    have : i = i' := by rw [← h1, ← h1', hab]
    subst this
    rw [h2, Option.some.injEq] at h2'
    subst h2'
    have := (List.getElem?_inj (show a < fd.length by omega) hfd).1 (h3.trans h3'.symm)
    simpa using this
  refine ⟨p, hpe, ?_, ?_⟩
  · refine (List.perm_ext_iff_of_nodup hnd List.nodup_range).2 fun i => ?_
    have hsub : ∀ i ∈ p, i ∈ List.range mm.length := by
      intro i hi
      obtain ⟨j, hj⟩ := List.mem_iff_getElem?.1 hi
      have hjl := (List.getElem?_eq_some_iff.1 hj).1
      obtain ⟨i', w, h1, h2, -⟩ := hpair j (by omega)
      rw [hj, Option.some.injEq] at h1
      subst h1
      exact List.mem_range.2 (List.getElem?_eq_some_iff.1 h2).1
    refine ⟨hsub i, ?_⟩
    have hsp : p.Subperm (List.range mm.length) := hnd.subperm hsub
    exact fun h => (hsp.perm_of_length_le (by simp [hpl])).mem_iff.2 h
  · intro j v
    constructor
    · intro hj
      have hjl := (List.getElem?_eq_some_iff.1 hj).1
      obtain ⟨i, w, h1, h2, h3⟩ := hpair j (by omega)
      rw [hj, Option.some.injEq] at h3
      exact ⟨i, w, h1, h2, h3.symm⟩
    · rintro ⟨i, w, h1, h2, rfl⟩
      have hjl := (List.getElem?_eq_some_iff.1 h1).1
      obtain ⟨i', w', h1', h2', h3⟩ := hpair j (by omega)
      rw [h1, Option.some.injEq] at h1'
      subst h1'
      rw [h2, Option.some.injEq] at h2'
      subst h2'
      exact h3

theorem idxOf_lt_idxOf {l : List Nat} (h : l.Pairwise (· < ·)) {a b : Nat} (ha : a ∈ l) (hb : b ∈ l) (hab : a < b) :
    l.idxOf a < l.idxOf b := by
  have hal := List.idxOf_lt_length_of_mem ha
  have hbl := List.idxOf_lt_length_of_mem hb
  by_contra hc
  rw [List.pairwise_iff_getElem] at h
  rcases Nat.lt_or_ge (l.idxOf b) (l.idxOf a) with hlt | hge
  · have := h _ _ hbl hal hlt
    rw [List.getElem_idxOf, List.getElem_idxOf] at this
    omega
  · have heq : l.idxOf a = l.idxOf b := by omega
    have := (List.idxOf_inj ha).1 heq
    omega

/-! ## Selection of the group -/

/-- **C82.** Which arguments are accepted: `None` for a mesh with one group, or the number of a group; the group
has to be one of simplices, and the mesh conforming, with vertices. -/
theorem C82_select (m : ExMesh P) (nr : ExGroupNr) (g : Nat) : exportSelect m nr = .ok g ↔
    ((∃ i, nr = .int i ∧ i = g) ∨ (nr = .none ∧ m.groups.length = 1 ∧ g = 0)) ∧
    (∃ grp, m.groups[g]? = some grp ∧ grp.simplex = true) ∧ m.vertices ≠ none ∧ m.conforming = some true := by
  have key : ∀ i : Int, (if i < 0 ∨ (m.groups.length : Int) ≤ i then (.error .value : Except ExErr Nat)
    else match m.groups[i.toNat]? with
      | none => .error .index
      | some g =>
        if g.simplex = false then .error .type
        else if m.vertices.isNone then .error .value
        else if m.conforming ≠ some true then .error .value
        else .ok i.toNat) = .ok g ↔ i = g ∧
    (∃ grp, m.groups[g]? = some grp ∧ grp.simplex = true) ∧ m.vertices ≠ none ∧ m.conforming = some true := by
    intro i
    by_cases hi : i < 0 ∨ (m.groups.length : Int) ≤ i
    · rw [if_pos hi]
      constructor
      · intro h; cases h
      · rintro ⟨rfl, ⟨grp, hg, -⟩, -⟩
        have := (List.getElem?_eq_some_iff.1 hg).1
        omega
    · rw [if_neg hi]
      have hlt : i.toNat < m.groups.length := by omega
      rw [List.getElem?_eq_getElem hlt]
      simp only
      constructor
      · intro h
        split_ifs at h with h1 h2 h3
        simp only [Except.ok.injEq] at h
        subst h
        refine ⟨by omega, ⟨_, List.getElem?_eq_getElem hlt, by simpa using h1⟩, by simpa using h2, by simpa using h3⟩
      · rintro ⟨h0, ⟨grp, hg, hs⟩, hv, hc⟩
        have : i.toNat = g := by omega
        subst this
        rw [List.getElem?_eq_getElem hlt, Option.some.injEq] at hg
        rw [if_neg (by simp [hg, hs]), if_neg (by simpa using hv), if_neg (by simp [hc])]
  unfold exportSelect
  cases nr with
  | none =>
    simp only
    by_cases h1 : m.groups.length ≠ 1
    · rw [if_pos h1]
      constructor
      · intro h; cases h
      · rintro ⟨h | h, -⟩
        · obtain ⟨i, hi, -⟩ := h; cases hi
        · exact absurd h.2.1 h1
    · rw [if_neg h1, key]
      constructor
      · rintro ⟨h, r⟩
        exact ⟨.inr ⟨trivial, by simpa using h1, by omega⟩, r⟩
      · rintro ⟨h | h, r⟩
        · obtain ⟨i, hi, -⟩ := h; cases hi
        · exact ⟨by rw [h.2.2]; rfl, r⟩
  | int i =>
    simp only
    rw [key]
    constructor
    · rintro ⟨h, r⟩
      exact ⟨.inl ⟨i, rfl, h⟩, r⟩
    · rintro ⟨h | h, r⟩
      · obtain ⟨i', hi, h⟩ := h
        cases hi
        exact ⟨h, r⟩
      · cases h.1
  | other =>
    simp only
    constructor
    · intro h; cases h
    · rintro ⟨h | h, -⟩
      · obtain ⟨i, hi, -⟩ := h; cases hi
      · cases h.1

/-- **C82.** The exceptions: `TypeError` for numbers that are none and for groups not of simplices, in all other
cases `ValueError`. -/
theorem C82_select_errors (m : ExMesh P) (nr : ExGroupNr) (e : ExErr) (h : exportSelect m nr = .error e) :
    e ≠ .index ∧ (e = .type ↔ nr = .other ∨ ∃ g grp, (nr = .int (g : Nat) ∨ (nr = .none ∧ g = 0 ∧ m.groups.length = 1)) ∧
      m.groups[g]? = some grp ∧ grp.simplex = false) := by
  have key : ∀ i : Int, (if i < 0 ∨ (m.groups.length : Int) ≤ i then (.error .value : Except ExErr Nat)
    else match m.groups[i.toNat]? with
      | none => .error .index
      | some g =>
        if g.simplex = false then .error .type
        else if m.vertices.isNone then .error .value
        else if m.conforming ≠ some true then .error .value
        else .ok i.toNat) = .error e → e ≠ .index ∧ (e = .type ↔ ∃ (g : Nat) (grp : ExGroup), i = g ∧
      m.groups[g]? = some grp ∧ grp.simplex = false) := by
    intro i h
    by_cases hi : i < 0 ∨ (m.groups.length : Int) ≤ i
    · rw [if_pos hi] at h
      cases h
      refine ⟨by simp, by simp, ?_⟩
      rintro ⟨g, grp, rfl, hg, -⟩
      have := (List.getElem?_eq_some_iff.1 hg).1
      omega
    · rw [if_neg hi] at h
      have hlt : i.toNat < m.groups.length := by omega
      rw [List.getElem?_eq_getElem hlt] at h
      simp only at h
      have hiff : (∃ (g : Nat) (grp : ExGroup), i = g ∧ m.groups[g]? = some grp ∧ grp.simplex = false) ↔
          m.groups[i.toNat].simplex = false := by
        constructor
        · rintro ⟨g, grp, rfl, hg, hs⟩
          have hg' := (List.getElem?_eq_some_iff.1 hg).2
          simp only [Int.toNat_natCast]
          rw [hg', hs]
        · intro hs
          exact ⟨i.toNat, _, by omega, List.getElem?_eq_getElem hlt, hs⟩
      rw [hiff]
      split_ifs at h with h1 h2 h3
      all_goals cases h
      · simp [h1]
      · simp [h1]
      · simp [h1]
  unfold exportSelect at h
  cases nr with
  | none =>
    simp only at h
    by_cases h1 : m.groups.length ≠ 1
    · rw [if_pos h1] at h
      cases h
      refine ⟨by simp, by simp, ?_⟩
      rintro (h | ⟨g, grp, h | h, -⟩)
      · cases h
      · cases h
      · exact absurd h.2.2 h1
    · rw [if_neg h1] at h
      obtain ⟨h2, h3⟩ := key 0 h
      refine ⟨h2, h3.trans ?_⟩
      constructor
      · rintro ⟨g, grp, hg, r⟩
        exact .inr ⟨g, grp, .inr ⟨rfl, by omega, by simpa using h1⟩, r⟩
      · rintro (h | ⟨g, grp, h | h, r⟩)
        · cases h
        · cases h
        · exact ⟨g, grp, by omega, r⟩
  | int i =>
    simp only at h
    obtain ⟨h2, h3⟩ := key i h
    refine ⟨h2, h3.trans ?_⟩
    constructor
    · rintro ⟨g, grp, rfl, r⟩
      exact .inr ⟨g, grp, .inl rfl, r⟩
    · rintro (h | ⟨g, grp, h | h, r⟩)
      · cases h
      · cases h
        exact ⟨g, grp, rfl, r⟩
      · cases h.1
  | other =>
    simp only at h
    cases h
    simp

/-! ## Vertices and cells -/

theorem exportCells_ok {vertices : List P} {rows : List (List Nat)} {coords : List P} {cells : List (List Nat)}
    (h : exportCells vertices rows = .ok (coords, cells)) :
    (npUnique rows.flatten).mapM (fun v => vertices[v]?) = some coords ∧ rows.flatten ≠ [] ∧
      cells = rows.map fun row => row.map fun v => (npUnique rows.flatten).idxOf v := by
  unfold exportCells at h
  simp only at h
  split at h
  · cases h
  · rename_i cs hcs
    split_ifs at h with he
    simp only [Except.ok.injEq, Prod.mk.injEq] at h
    exact ⟨by rw [hcs, h.1], he, h.2.symm⟩

/-- **C82.** The cells given to Firedrake: those of the group, with vertices renumbered without gaps, in the same
order, and at the same places. -/
theorem C82_cells {vertices : List P} {rows : List (List Nat)} {coords : List P} {cells : List (List Nat)}
    (h : exportCells vertices rows = .ok (coords, cells)) : ∃ num : Nat → Nat,
    cells = rows.map (List.map num) ∧
    (∀ v, v ∈ rows.flatten → coords[num v]? = vertices[v]? ∧ v < vertices.length) ∧
    (∀ v w, v ∈ rows.flatten → w ∈ rows.flatten → v < w → num v < num w) ∧
    (∀ k, k < coords.length ↔ ∃ v ∈ rows.flatten, num v = k) := by
  obtain ⟨h1, -, h3⟩ := exportCells_ok h
  have hl := (mapM_getElem?_some h1).1
  refine ⟨fun v => (npUnique rows.flatten).idxOf v, h3, ?_, ?_, ?_⟩
  · intro v hv
    have hm := mem_npUnique.2 hv
    have hlt := List.idxOf_lt_length_of_mem hm
    have he : (npUnique rows.flatten)[(npUnique rows.flatten).idxOf v]? = some v := by
      rw [List.getElem?_eq_getElem hlt, List.getElem_idxOf]
    have hc : coords[(npUnique rows.flatten).idxOf v]? = vertices[v]? := by
      rw [mapM_getElem?_bind h1, he]; rfl
    refine ⟨hc, ?_⟩
    rw [List.getElem?_eq_getElem (by omega)] at hc
    exact (List.getElem?_eq_some_iff.1 hc.symm).1
  · intro v w hv hw hvw
    exact idxOf_lt_idxOf (pairwise_lt_npUnique _) (mem_npUnique.2 hv) (mem_npUnique.2 hw) hvw
  · intro k
    constructor
    · intro hk
      have hk' : k < (npUnique rows.flatten).length := by omega
      exact ⟨_, mem_npUnique.1 (List.getElem_mem hk'), (nodup_npUnique _).idxOf_getElem k hk'⟩
    · rintro ⟨v, hv, rfl⟩
      have := List.idxOf_lt_length_of_mem (mem_npUnique.2 hv)
      simp only
      omega

/-- **C82.** Cells and vertices can be given to Firedrake exactly if there is an element and all vertices exist. -/
theorem C82_cells_defined (vertices : List P) (rows : List (List Nat)) :
    (∃ r, exportCells vertices rows = .ok r) ↔ rows.flatten ≠ [] ∧ ∀ v ∈ rows.flatten, v < vertices.length := by
  constructor
  · rintro ⟨⟨coords, cells⟩, h⟩
    obtain ⟨num, -, h2, -⟩ := C82_cells h
    exact ⟨(exportCells_ok h).2.1, fun v hv => (h2 v hv).2⟩
  · rintro ⟨hne, hlt⟩
    obtain ⟨cs, hcs⟩ := mapM_isSome_of (f := fun v => vertices[v]?) (l := npUnique rows.flatten)
      fun v hv => ⟨_, List.getElem?_eq_getElem (hlt v (mem_npUnique.1 hv))⟩
    unfold exportCells
    simp only [hcs]
    rw [if_neg hne]
    exact ⟨_, rfl⟩

/-! ## The dictionary of permutations -/

theorem addPerm_keys (d : List (List Nat × List Nat)) (p : List Nat) (c : Nat) :
    (addPerm d p c).map (·.1) = if p ∈ d.map (·.1) then d.map (·.1) else d.map (·.1) ++ [p] := by
  unfold addPerm
  by_cases h : d.any fun e => decide (e.1 = p)
  · rw [if_pos h, if_pos]
    · rw [List.map_map]
      apply List.map_congr_left
      intro e _
      simp only [Function.comp]
      split_ifs <;> rfl
    · obtain ⟨e, he, hp⟩ := List.any_eq_true.1 h
      exact List.mem_map.2 ⟨e, he, by simpa using hp⟩
  · rw [if_neg h, if_neg]
    · simp
    · rintro hm
      obtain ⟨e, he, hp⟩ := List.mem_map.1 hm
      exact h (List.any_eq_true.2 ⟨e, he, by simpa using hp⟩)

theorem mem_addPerm {d : List (List Nat × List Nat)} {p : List Nat} {c : Nat} {q : List Nat} {l : List Nat} :
    (q, l) ∈ addPerm d p c ↔ (q ≠ p ∧ (q, l) ∈ d) ∨
      (q = p ∧ ((∃ l', (p, l') ∈ d ∧ l = l' ++ [c]) ∨ ((∀ l', (p, l') ∉ d) ∧ l = [c]))) := by
  unfold addPerm
  by_cases h : d.any fun e => decide (e.1 = p)
  · rw [if_pos h]
    obtain ⟨e0, he0, hp0⟩ := List.any_eq_true.1 h
    have hp0' : e0.1 = p := by simpa using hp0
    rw [List.mem_map]
    constructor
    · rintro ⟨e, he, heq⟩
      by_cases hep : e.1 = p
      · rw [if_pos hep, Prod.mk.injEq] at heq
        obtain ⟨rfl, rfl⟩ := heq
        exact .inr ⟨hep, .inl ⟨e.2, by rw [← hep]; exact he, rfl⟩⟩
      · rw [if_neg hep] at heq
        subst heq
        exact .inl ⟨hep, he⟩
    · rintro (⟨hq, hm⟩ | ⟨rfl, ⟨l', hm, rfl⟩ | ⟨hno, rfl⟩⟩)
      · exact ⟨_, hm, by rw [if_neg hq]⟩
      · exact ⟨_, hm, by rw [if_pos rfl]⟩
      · exact absurd (show (q, e0.2) ∈ d by rw [← hp0']; exact he0) (hno _)
  · rw [if_neg h]
    have hno : ∀ l', (p, l') ∉ d := fun l' hm => h (List.any_eq_true.2 ⟨_, hm, by simp⟩)
    rw [List.mem_append, List.mem_singleton, Prod.mk.injEq]
    constructor
    · rintro (hm | ⟨rfl, rfl⟩)
      · refine .inl ⟨?_, hm⟩
        rintro rfl
        exact hno _ hm
      · exact .inr ⟨rfl, .inr ⟨hno, rfl⟩⟩
    · rintro (⟨_, hm⟩ | ⟨rfl, ⟨l', hm, _⟩ | ⟨_, rfl⟩⟩)
      · exact .inl hm
      · exact absurd hm (hno _)
      · exact .inr ⟨rfl, rfl⟩

/-- The elements having a given permutation, in order. (Specification or proof vocabulary, no code.) -/
def elementsWith (perms : List (List Nat)) (q : List Nat) : List Nat :=
  (List.range perms.length).filter fun c => decide (perms[c]? = some q)

theorem elementsWith_append (perms : List (List Nat)) (p q : List Nat) :
    elementsWith (perms ++ [p]) q = elementsWith perms q ++ if p = q then [perms.length] else [] := by
  unfold elementsWith
  rw [List.length_append, List.length_singleton, List.range_succ, List.filter_append]
  congr 1
  · apply List.filter_congr
    intro c hc
    rw [List.getElem?_append_left (List.mem_range.1 hc)]
  · by_cases h : p = q
    · simp [h]
    · simp [h]

theorem permDict_spec (perms : List (List Nat)) : ((permDict perms).map (·.1)).Nodup ∧
    ∀ q l, (q, l) ∈ permDict perms ↔ l = elementsWith perms q ∧ l ≠ [] := by
  induction perms using List.reverseRecOn with
  | nil => simp [permDict, elementsWith]
  | append_singleton ps p ih =>
    obtain ⟨ih1, ih2⟩ := ih
    have hstep : permDict (ps ++ [p]) = addPerm (permDict ps) p ps.length := by
      unfold permDict
      rw [List.zipIdx_append, List.foldl_append]
      simp
    rw [hstep]
    constructor
    · rw [addPerm_keys]
      split_ifs with h
      · exact ih1
      · rw [List.nodup_append]
        exact ⟨ih1, List.nodup_singleton p, fun a ha b hb hab => h (by
          rw [List.mem_singleton] at hb; rw [← hb, ← hab]; exact ha)⟩
    · intro q l
      rw [mem_addPerm, elementsWith_append]
      by_cases hq : q = p
      · subst hq
        simp only [ne_eq, not_true_eq_false, false_and, true_and, false_or, if_true]
        by_cases he : elementsWith ps q = []
        · have hno : ∀ l', (q, l') ∉ permDict ps := fun l' hm => ((ih2 q l').1 hm).2 (((ih2 q l').1 hm).1.trans he)
          constructor
          · rintro (⟨l', hm, -⟩ | ⟨-, rfl⟩)
            · exact absurd hm (hno l')
            · simp [he]
          · rintro ⟨h, -⟩
            exact .inr ⟨hno, by simpa [he] using h⟩
        · have hm : (q, elementsWith ps q) ∈ permDict ps := (ih2 _ _).2 ⟨rfl, he⟩
          constructor
          · rintro (⟨l', hm', rfl⟩ | ⟨hno, -⟩)
            · rw [((ih2 _ _).1 hm').1]
              simp
            · exact absurd hm (hno _)
          · rintro ⟨h, -⟩
            exact .inl ⟨_, hm, h⟩
      · have hq' : ¬ p = q := fun h => hq h.symm
        simp only [ne_eq, hq, not_false_eq_true, true_and, false_and, or_false, if_neg hq', List.append_nil]
        exact ih2 q l

/-- **C82.** `perm2cells` has different keys, and under a key exactly the elements with that permutation, in
order and each once; a key has at least one element. -/
theorem C82_dictionary (perms : List (List Nat)) : ((permDict perms).map (·.1)).Nodup ∧
    (∀ q l, (q, l) ∈ permDict perms → l ≠ [] ∧ l.Pairwise (· < ·) ∧ ∀ c : Nat, c ∈ l ↔ perms[c]? = some q) ∧
    ∀ (c : Nat) (q : List Nat), perms[c]? = some q → ∃ l, (q, l) ∈ permDict perms := by
  obtain ⟨h1, h2⟩ := permDict_spec perms
  refine ⟨h1, ?_, ?_⟩
  · intro q l hm
    obtain ⟨rfl, hne⟩ := (h2 q l).1 hm
    refine ⟨hne, List.pairwise_lt_range.filter _, fun c => ?_⟩
    unfold elementsWith
    rw [List.mem_filter, List.mem_range, decide_eq_true_eq]
    exact ⟨fun h => h.2, fun h => ⟨(List.getElem?_eq_some_iff.1 h).1, h⟩⟩
  · intro c q hc
    refine ⟨_, (h2 q _).2 ⟨rfl, ?_⟩⟩
    intro he
    have : c ∈ elementsWith perms q := by
      unfold elementsWith
      rw [List.mem_filter, List.mem_range, decide_eq_true_eq]
      exact ⟨(List.getElem?_eq_some_iff.1 hc).1, hc⟩
    rw [he] at this
    simp at this

/-! ## The permutations -/

/-- **C82.** The permutations of an exported mesh: for every element there is exactly one key; it is a
permutation, and local vertex `j` of the Firedrake cell is local vertex `p[j]` of the element, at the same
place. -/
theorem C82_permutations {fd : List P → List (List Nat) → FdTopology × List Nat} {m : ExMesh P} {nr : ExGroupNr}
    {r : FdExported P} {n g : Nat} {grp : ExGroup} {vertices : List P} (hg : exportSelect m nr = .ok g)
    (hgrp : m.groups[g]? = some grp) (hv : m.vertices = some vertices) (hrows : ExRowsOK n vertices.length grp.rows)
    (h : exportFd fd m nr = .ok r) (hfd : PlexOK r.cells r.top r.numbering) {c : Nat} {row : List Nat} (hc : grp.rows[c]? = some row) :
    ∃ p cs, (p, cs) ∈ r.perm2cells ∧ c ∈ cs ∧ (∀ p' cs', (p', cs') ∈ r.perm2cells → c ∈ cs' → p' = p ∧ cs' = cs) ∧
      p.Perm (List.range n) ∧
      ∀ j, j < n → ∃ i v w, p[j]? = some i ∧ row[i]? = some w ∧ r.fdVertex c j v ∧ r.coords[v]? = vertices[w]? ∧
        w < vertices.length := by
  unfold exportFd at h
  simp only [hg, hgrp, hv] at h
  split at h
  · cases h
  · rename_i coords cells hcells
    split at h
    · cases h
    · rename_i perms hperms
      simp only [Except.ok.injEq] at h
      subst h
      obtain ⟨num, hnum1, hnum2, hnum3, -⟩ := C82_cells hcells
      have hpx : PlexOK cells (fd coords cells).1 (fd coords cells).2 := hfd
      generalize (fd coords cells).1 = t at *
      generalize (fd coords cells).2 = numbering at *
      have hcell : cells[c]? = some (row.map num) := by rw [hnum1, List.getElem?_map, hc]; rfl
      have hcl : c < cells.length := (List.getElem?_eq_some_iff.1 hcell).1
      obtain ⟨k, hk⟩ : ∃ k, numbering[c]? = some k :=
        ⟨_, List.getElem?_eq_getElem (by rw [hpx.length]; exact hcl)⟩
      obtain ⟨cl, hcl', hperm⟩ := hpx.verts c _ k hcell hk
      have hrm := List.mem_of_getElem? hc
      have hflat : ∀ v ∈ row, v ∈ grp.rows.flatten := fun v hv => List.mem_flatten.2 ⟨row, hrm, hv⟩
      obtain ⟨p, hp1, hp2, hp3⟩ := fdPerm_spec (f := num) (hrows.nodup row hrm)
        (fun a ha b hb => hnum3 a b (hflat a ha) (hflat b hb)) hperm
      have hpc : perms[c]? = some p := by
        unfold exportPerms at hperms
        obtain ⟨cls, h1, h2⟩ := Option.bind_eq_some_iff.1 hperms
        rw [mapM_getElem?_bind h2, List.getElem?_zipIdx, mapM_getElem?_bind h1, hk]
        simp only [Option.bind_some, hcl', Option.map_some, Nat.zero_add, hc, Option.bind_eq_bind]
        exact hp1
      obtain ⟨-, hd2, hd3⟩ := C82_dictionary perms
      obtain ⟨cs, hcs⟩ := hd3 c p hpc
      have hrl := hrows.length row hrm
      rw [hrl] at hp2
      refine ⟨p, cs, hcs, ((hd2 p cs hcs).2.2 c).2 hpc, ?_, hp2, ?_⟩
      · intro p' cs' hm hmem
        have := ((hd2 p' cs' hm).2.2 c).1 hmem
        rw [hpc, Option.some.injEq] at this
        subst this
        exact ⟨rfl, (((permDict_spec perms).2 _ _).1 hm).1.trans (((permDict_spec perms).2 _ _).1 hcs).1.symm⟩
      · intro j hj
        have hjl : j < p.length := by rw [hp2.length_eq, List.length_range]; exact hj
        have hi := List.getElem?_eq_getElem hjl
        have hil : p[j] < row.length := by
          have := List.mem_range.1 (hp2.mem_iff.1 (List.getElem_mem hjl)); omega
        have hw := List.getElem?_eq_getElem hil
        have hwm := List.getElem_mem hil
        have hfdv := (hp3 j (num row[p[j]])).2 ⟨_, _, hi, hw, rfl⟩
        rw [List.getElem?_map] at hfdv
        obtain ⟨d, hd, hdv⟩ := Option.map_eq_some_iff.1 hfdv
        have hrange := dmpVerts_range (List.mem_of_getElem? hd)
        refine ⟨p[j], num row[p[j]], row[p[j]], hi, hw, ⟨k, cl, hk, hcl', ?_⟩,
          (hnum2 _ (hflat _ hwm)).1, (hnum2 _ (hflat _ hwm)).2⟩
        simp only
        rw [hd]
        congr 1
        omega

/-- **C82.** With a group, rows and a Firedrake as above exporting succeeds. -/
theorem C82_defined {fd : List P → List (List Nat) → FdTopology × List Nat} {m : ExMesh P} {nr : ExGroupNr}
    {n g : Nat} {grp : ExGroup} {vertices : List P} (hg : exportSelect m nr = .ok g)
    (hgrp : m.groups[g]? = some grp) (hv : m.vertices = some vertices) (hrows : ExRowsOK n vertices.length grp.rows)
    (hfd : ∀ coords cells, exportCells vertices grp.rows = .ok (coords, cells) →
      PlexOK cells (fd coords cells).1 (fd coords cells).2) :
    (∃ r, exportFd fd m nr = .ok r) ↔ grp.rows.flatten ≠ [] := by
  constructor
  · rintro ⟨r, h⟩
    unfold exportFd at h
    simp only [hg, hgrp, hv] at h
    split at h
    · cases h
    · rename_i coords cells hcells
      exact (exportCells_ok hcells).2.1
  · intro hne
    obtain ⟨⟨coords, cells⟩, hcells⟩ := (C82_cells_defined vertices grp.rows).2 ⟨hne, fun v hv => by
      obtain ⟨row, hr, hvr⟩ := List.mem_flatten.1 hv
      exact hrows.lt row hr v hvr⟩
    obtain ⟨num, hnum1, -, hnum3, -⟩ := C82_cells hcells
    have hpx := hfd coords cells hcells
    unfold exportFd
    simp only [hg, hgrp, hv, hcells]
    generalize (fd coords cells).1 = t at *
    generalize (fd coords cells).2 = numbering at *
    have hlen : cells.length = grp.rows.length := by rw [hnum1, List.length_map]
    have hcls : ∃ cls, numbering.mapM (fun c => t.closures[c]?) = some cls := by
      apply mapM_isSome_of
      intro k hk
      obtain ⟨c, hc⟩ := List.mem_iff_getElem?.1 hk
      have hcl := (List.getElem?_eq_some_iff.1 hc).1
      obtain ⟨cl, h1, -⟩ := hpx.verts c _ k (List.getElem?_eq_getElem (by rw [← hpx.length]; exact hcl)) hc
      exact ⟨cl, h1⟩
    obtain ⟨cls, hcls⟩ := hcls
    have hperms : ∃ perms, exportPerms grp.rows t numbering = some perms := by
      unfold exportPerms
      rw [hcls]
      apply mapM_isSome_of
      rintro ⟨cl, c⟩ hm
      have hm' := List.mem_zipIdx_iff_getElem?.1 hm
      rw [mapM_getElem?_bind hcls] at hm'
      obtain ⟨k, hk, hkc⟩ := Option.bind_eq_some_iff.1 hm'
      have hcl := (List.getElem?_eq_some_iff.1 hk).1
      simp only at hk hkc hcl
      have hrl : c < grp.rows.length := by rw [← hlen, ← hpx.length]; exact hcl
      have hrow := List.getElem?_eq_getElem hrl
      obtain ⟨cl', h1, h2⟩ := hpx.verts c (grp.rows[c].map num) k (by rw [hnum1, List.getElem?_map, hrow]; rfl) hk
      rw [hkc, Option.some.injEq] at h1
      subst h1
      have hrm := List.getElem_mem hrl
      have hflat : ∀ v ∈ grp.rows[c], v ∈ grp.rows.flatten := fun v hv => List.mem_flatten.2 ⟨_, hrm, hv⟩
      obtain ⟨p, hp1, -⟩ := fdPerm_spec (f := num) (hrows.nodup _ hrm)
        (fun a ha b hb => hnum3 a b (hflat a ha) (hflat b hb)) h2
      exact ⟨p, by simp only [hrow, Option.bind_eq_bind, Option.bind_some]; exact hp1⟩
    obtain ⟨perms, hperms⟩ := hperms
    rw [hperms]
    exact ⟨_, rfl⟩

/-- **C82.** The documentation has it the other way round: local vertex `p[i]` of the Firedrake cell would be local
vertex `i` of the element. This is so exactly for permutations that are their own inverse. -/
theorem C82_documented_iff {mm fd p : List Nat} {f : Nat → Nat} (hm : mm.Nodup)
    (hf : ∀ a ∈ mm, ∀ b ∈ mm, a < b → f a < f b) (hp : fd.Perm (mm.map f)) (h : fdPerm mm fd = some p) :
    (∀ i j w : Nat, p[i]? = some j → mm[i]? = some w → fd[j]? = some (f w)) ↔
      ∀ i j : Nat, p[i]? = some j → p[j]? = some i := by
  obtain ⟨p', hp1, hp2, hp3⟩ := fdPerm_spec hm hf hp
  rw [h, Option.some.injEq] at hp1
  subst hp1
  have hinj : ∀ {a b i j : Nat}, mm[i]? = some a → mm[j]? = some b → f a = f b → i = j := by
    intro a b i j ha hb hab
    have ham := List.mem_of_getElem? ha
    have hbm := List.mem_of_getElem? hb
    have : a = b := by
      rcases Nat.lt_trichotomy a b with hlt | heq | hgt
      · have := hf a ham b hbm hlt; omega
      · exact heq
      · have := hf b hbm a ham hgt; omega
    subst this
    exact List.getElem?_inj (List.getElem?_eq_some_iff.1 ha).1 hm |>.1 (ha.trans hb.symm)
  have hpl : p.length = mm.length := by rw [hp2.length_eq, List.length_range]
  constructor
  · intro H i j hij
    have hil := (List.getElem?_eq_some_iff.1 hij).1
    have hw := List.getElem?_eq_getElem (show i < mm.length by omega)
    obtain ⟨i', w', h1, h2, h3⟩ := (hp3 j _).1 (H i j _ hij hw)
    rw [h1, hinj h2 hw h3]
  · intro H i j w hij hw
    exact (hp3 j _).2 ⟨i, w, H i j hij, hw, rfl⟩

/-- **C82.** A triangle whose permutation is not as documented. -/
theorem C82_documented_counterexample : ∃ mm fd p : List Nat, mm.Nodup ∧ fd.Perm mm ∧ fdPerm mm fd = some p ∧
    (∀ j i : Nat, p[j]? = some i → fd[j]? = mm[i]?) ∧ ∃ i j : Nat, p[i]? = some j ∧ fd[j]? ≠ mm[i]? := by
  refine ⟨[0, 1, 2], [1, 2, 0], [1, 2, 0], by decide, by decide, by decide, ?_, 0, 1, by decide, by decide⟩
  intro j i h
  match j, h with
  | 0, h => cases h; rfl
  | 1, h => cases h; rfl
  | 2, h => cases h; rfl

/-! ## Examples -/

/-- A mesh with five vertices and two triangles not using vertex 1. (Example, no code.) -/
def exExMesh : ExMesh Nat where
  groups := [⟨true, [[4, 0, 2], [2, 3, 4]]⟩]
  vertices := some [10, 11, 12, 13, 14]
  conforming := some true

/-- A Firedrake exchanging the two cells and turning their vertices. (Example, no code.) -/
def exPlex (_ : List Nat) (_ : List (List Nat)) : FdTopology × List Nat :=
  (⟨[[9, 3, 4, 5, 0], [2, 3, 5, 10, 1]], 2, 6, 3, fun d => (d : Int) - 2⟩, [1, 0])

example : (exportFd exPlex exExMesh .none).map (fun r => (r.coords, r.cells)) =
    .ok ([10, 12, 13, 14], [[3, 0, 1], [1, 2, 3]]) := by decide +kernel

example : (exportFd exPlex exExMesh .none).map (fun r => (r.numbering, r.perm2cells)) =
    .ok ([1, 0], [([1, 2, 0], [0]), ([0, 1, 2], [1])]) := by decide +kernel

example : exportSelect exExMesh (.int 0) = .ok 0 ∧ exportSelect exExMesh (.int 1) = .error .value ∧
    exportSelect exExMesh .other = .error .type := by decide

example : ExRowsOK 3 5 [[4, 0, 2], [2, 3, 4]] := ⟨by decide, by decide, by decide⟩

example : PlexOK [[3, 0, 1], [1, 2, 3]] (exPlex [] []).1 (exPlex [] []).2 where
  length := rfl
  nodup := by decide
  verts := by
    intro i cell c h1 h2
    match i, h1, h2 with
    | 0, h1, h2 => cases h1; cases h2; exact ⟨_, rfl, by decide⟩
    | 1, h1, h2 => cases h1; cases h2; exact ⟨_, rfl, by decide⟩

end Meshmode
