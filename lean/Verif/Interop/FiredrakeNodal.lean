import Verif.Mesh.Csr
import Verif.Mesh.Nodal
import Verif.Mesh.Flip
import Verif.Mesh.Unused
import Mathlib.Data.List.Nodup
import Mathlib.Data.List.Count
import Mathlib.Data.List.Induction

/-!
# Vertex indices and nodal adjacency of meshes imported from Firedrake (C80)

`_get_firedrake_nodal_info` (meshmode/interop/firedrake/mesh.py).
-/
namespace Meshmode

/-! ## Model -/

/-- What the code reads from a Firedrake mesh topology: `cell_closure` (for every cell the dmplex numbers of
everything belonging to it), the range of dmplex numbers of vertices, the number of vertices of a cell, and
`_vertex_numbering.getOffset`. Code: meshmode/interop/firedrake/mesh.py:90-113. -/
structure FdTopology where
  closures : List (List Nat)
  vStart : Nat
  vEnd : Nat
  cellVerts : Nat
  vertexNumber : Nat → Int

/-- `dmp_verts`, the vertices in a closure in the order found there.
Code: meshmode/interop/firedrake/mesh.py:134-135. -/
def FdTopology.dmpVerts (t : FdTopology) (closure : List Nat) : List Nat :=
  closure.filter fun d => decide (t.vStart ≤ d) && decide (d < t.vEnd)

/-- `cell_closure`, or `cell_closure[cells_to_use, :]`; `none` is an `IndexError`.
Code: meshmode/interop/firedrake/mesh.py:129-131. -/
def FdTopology.usedClosures (t : FdTopology) : Option (List Nat) → Option (List (List Nat))
  | none => some t.closures
  | some use => use.mapM fun c => t.closures[c]?

/-- `vertex_indices[fd_cell_ndx][:] = row`: an array of the right length is copied, one of length one is
repeated, any other is a `ValueError`. Code: meshmode/interop/firedrake/mesh.py:136-137. -/
def assignRow (n : Nat) (row : List Int) : Option (List Int) :=
  if row.length = n then some row
  else match row with
    | [x] => some (List.replicate n x)
    | _ => none

/-- The two dictionaries of the loop: `cell_to_nodal_neighbors` (its keys are `0, 1, …` in order) and
`vert_to_cells` (a missing key reads as the empty list, as `setdefault` makes it).
Code: meshmode/interop/firedrake/mesh.py:114-125. -/
structure NodalState where
  neighbors : List (List Nat)
  vertToCells : Nat → List Nat

/-- The body of the inner loop for one vertex of one cell: lines 151-155.
Code: meshmode/interop/firedrake/mesh.py:150-155. -/
def NodalState.touch (s : NodalState) (c v : Nat) : NodalState :=
  { neighbors := (s.vertToCells v).foldl
      (fun nb o => (nb.modify c (· ++ [o])).modify o (· ++ [c])) s.neighbors
    vertToCells := fun w => if w = v then s.vertToCells v ++ [c] else s.vertToCells w }

/-- The nodal part of the loop's body for one cell. Code: meshmode/interop/firedrake/mesh.py:146-155. -/
def NodalState.addCell (s : NodalState) (c : Nat) (verts : List Nat) : NodalState :=
  verts.foldl (fun s v => s.touch c v) { s with neighbors := s.neighbors ++ [[]] }

/-- The loop over the cells, on the vertices of each.
Code: meshmode/interop/firedrake/mesh.py:132-155. -/
def nodalLoop (rows : List (List Nat)) : NodalState :=
  rows.zipIdx.foldl (fun s p => s.addCell p.2 p.1) ⟨[], fun _ => []⟩

/-- What is returned: `vertex_indices` and the two arrays of the `NodalAdjacency`.
Code: meshmode/interop/firedrake/mesh.py:174-180. -/
structure FdNodal where
  vertexIndices : List (List Int)
  starts : List Nat
  neighbors : List Nat
  deriving DecidableEq, Repr

/-- `_get_firedrake_nodal_info`; `none` is an exception.  `facet_to_cells` is filled but not used, and is left
out. Code: meshmode/interop/firedrake/mesh.py:62-180. -/
def fdNodalInfo (t : FdTopology) (use : Option (List Nat)) : Option FdNodal := do
  let closures ← t.usedClosures use
  let vertexIndices ← closures.mapM fun cl =>
    assignRow t.cellVerts ((t.dmpVerts cl).map t.vertexNumber)
  if vertexIndices.all (fun row => row.all fun x => decide (0 ≤ x)) then
    let nb := (nodalLoop (closures.map t.dmpVerts)).neighbors
    pure ⟨vertexIndices, cumsum (0 :: nb.map List.length), nb.flatten⟩
  else none

/-! ## Specification -/

/-- The cell of Firedrake which is element `k`: number `k`, or the `k`-th of those to be used.
(Specification or proof vocabulary, no code.) -/
def usedCell (use : Option (List Nat)) (k : Nat) : Option Nat :=
  match use with
  | none => some k
  | some l => l[k]?

/-- A simplicial topology: every cell has the number of vertices of its shape, all different; the vertices
have different numbers, none negative. (Specification or proof vocabulary, no code.) -/
structure FdTopology.OK (t : FdTopology) : Prop where
  count : ∀ cl ∈ t.closures, (t.dmpVerts cl).length = t.cellVerts
  distinct : ∀ cl ∈ t.closures, (t.dmpVerts cl).Nodup
  inj : ∀ d d', t.vStart ≤ d → d < t.vEnd → t.vStart ≤ d' → d' < t.vEnd →
    t.vertexNumber d = t.vertexNumber d' → d = d'
  nonneg : ∀ d, t.vStart ≤ d → d < t.vEnd → 0 ≤ t.vertexNumber d

/-! ## Lemmas -/

theorem touch_foldl (c : Nat) (L : List Nat) (hc : c ∉ L) (nb : List (List Nat)) (e : Nat) :
    (L.foldl (fun nb o => (nb.modify c (· ++ [o])).modify o (· ++ [c])) nb)[e]? =
      nb[e]?.map fun l => l ++ if e = c then L else List.replicate (L.count e) c := by
  induction L generalizing nb with
  | nil =>
    rw [List.foldl_nil]
    cases nb[e]? <;> simp
  | cons o L ih =>
    simp only [List.mem_cons, not_or] at hc
    rw [List.foldl_cons, ih hc.2]
    rw [List.getElem?_modify, List.getElem?_modify]
    cases nb[e]? with
    | none => simp
    | some l =>
      by_cases hec : e = c
      · subst hec
        have : ¬ o = e := fun h => hc.1 h.symm
        simp [this]
      · have hce : ¬ c = e := fun h => hec h.symm
        by_cases hoe : o = e
        · subst hoe
          simp [hce, hec, List.replicate_succ]
        · simp [hce, hec, hoe]

/-- Which cells touch which vertex, one after the other. (Specification or proof vocabulary, no code.) -/
def touches (rows : List (List Nat)) : List (Nat × Nat) :=
  rows.zipIdx.flatMap fun p => p.1.map fun v => (p.2, v)

/-- What the dictionaries hold after the events `E`. (Specification or proof vocabulary, no code.) -/
structure NodalInv (E : List (Nat × Nat)) (s : NodalState) : Prop where
  cells : ∀ v, s.vertToCells v = (E.filter fun p => p.2 == v).map Prod.fst
  count : ∀ (e e' : Nat) (l : List Nat), s.neighbors[e]? = some l →
    l.count e' = if e = e' then 0 else E.countP fun p => decide (p.1 = e) && decide ((e', p.2) ∈ E)

theorem count_cells (E : List (Nat × Nat)) (e v : Nat) :
    ((E.filter fun p => p.2 == v).map Prod.fst).count e = E.count (e, v) := by
  induction E with
  | nil => rfl
  | cons p E ih =>
    obtain ⟨a, b⟩ := p
    by_cases hb : b = v
    · subst hb
      simp only [beq_self_eq_true, List.filter_cons_of_pos, List.map_cons, List.count_cons, ih, beq_iff_eq,
        Prod.mk.injEq, and_true]
    · simp only [List.filter_cons, beq_iff_eq, hb, if_false, ih, List.count_cons, Prod.mk.injEq, and_false,
        Nat.add_zero]

theorem countP_or_eq (E : List (Nat × Nat)) (e v : Nat) (P : Nat × Nat → Bool)
    (hP : ∀ p ∈ E, p = (e, v) → P p = false) :
    E.countP (fun p => P p || decide (p = (e, v))) = E.countP P + E.count (e, v) := by
  induction E with
  | nil => rfl
  | cons p E ih =>
    have ih := ih fun q hq => hP q (List.mem_cons_of_mem _ hq)
    by_cases hp : p = (e, v)
    · have := hP p List.mem_cons_self hp
      rw [List.countP_cons, List.countP_cons, List.count_cons, ih]
      simp [hp ▸ this, hp]
      omega
    · rw [List.countP_cons, List.countP_cons, List.count_cons, ih]
      simp [hp]
      omega

theorem nodalInv_touch {E : List (Nat × Nat)} {s : NodalState} (h : NodalInv E s) (hE : E.Nodup)
    {c v : Nat} (hn : (c, v) ∉ E) : NodalInv (E ++ [(c, v)]) (s.touch c v) := by
  have hc : c ∉ s.vertToCells v := by
    rw [h.cells]
    simp only [List.mem_map, List.mem_filter, beq_iff_eq, Prod.exists, exists_and_right, exists_eq_right]
    exact hn
  constructor
  · intro w
    rw [List.filter_append, List.map_append]
    show (if w = v then s.vertToCells v ++ [c] else s.vertToCells w) = _
    by_cases hw : w = v
    · subst hw; simp [h.cells]
    · have : ¬ v = w := fun x => hw x.symm
      simp [h.cells, hw, this]
  · intro e e' l hl
    simp only [NodalState.touch] at hl
    rw [touch_foldl c _ hc] at hl
    obtain ⟨l0, hl0, rfl⟩ := Option.map_eq_some_iff.1 hl
    have h0 := h.count e e' l0 hl0
    have hcnt : ∀ x, (s.vertToCells v).count x = E.count (x, v) := fun x => by
      rw [h.cells]; exact count_cells E x v
    have hone : ∀ x, E.count (x, v) = if (x, v) ∈ E then 1 else 0 := fun x => by
      split
      · exact List.count_eq_one_of_mem hE (by assumption)
      · exact List.count_eq_zero.2 (by assumption)
    rw [List.count_append, h0]
    by_cases hee : e = e'
    · subst hee
      simp only [if_true, Nat.zero_add]
      by_cases hec : e = c
      · subst hec; simpa [List.count_eq_zero] using hc
      · rw [if_neg hec, List.count_replicate]
        have : ¬ c = e := fun x => hec x.symm
        simp [this]
    · simp only [if_neg hee]
      rw [List.countP_append, List.countP_singleton]
      by_cases hec : e = c
      · subst hec
        have hne : ¬ e' = e := fun x => hee x.symm
        rw [if_pos rfl, hcnt, hone]
        congr 1
        · apply List.countP_congr
          intro p _
          simp [hne]
        · simp [hne]
      · have hce : ¬ c = e := fun x => hec x.symm
        rw [if_neg hec, hcnt, List.count_replicate]
        simp only [hce, decide_false, Bool.false_and, Bool.false_eq_true, if_false, Nat.add_zero]
        by_cases hc' : c = e'
        · subst hc'
          simp only [beq_self_eq_true, if_true]
          rw [← countP_or_eq E e v]
          · apply List.countP_congr
            rintro ⟨a, b⟩ _
            simp only [Bool.or_eq_true, Bool.and_eq_true, decide_eq_true_eq, Prod.mk.injEq, List.mem_append,
              List.mem_singleton, true_and]
            tauto
          · rintro p _ rfl
            simp [hn]
        · have he' : ¬ e' = c := fun x => hc' x.symm
          have : ¬ (c == e') = true := by simpa using hc'
          rw [if_neg this, Nat.add_zero]
          apply List.countP_congr
          rintro ⟨a, b⟩ _
          simp [he']

theorem nodalInv_touches {verts : List Nat} (c : Nat) (hv : verts.Nodup) {E : List (Nat × Nat)}
    {s : NodalState} (h : NodalInv E s) (hE : E.Nodup) (hn : ∀ v ∈ verts, (c, v) ∉ E) :
    NodalInv (E ++ verts.map fun v => (c, v)) (verts.foldl (fun s v => s.touch c v) s) := by
  induction verts generalizing E s with
  | nil => simpa using h
  | cons v verts ih =>
    rw [List.nodup_cons] at hv
    have h1 := nodalInv_touch h hE (hn v List.mem_cons_self)
    have := ih hv.2 h1 (by
      rw [List.nodup_append]
      refine ⟨hE, by simp, ?_⟩
      intro a ha b hb
      rw [List.mem_singleton] at hb
      subst hb
      exact fun x => hn v List.mem_cons_self (x ▸ ha)) (by
      intro w hw
      simp only [List.mem_append, List.mem_singleton, Prod.mk.injEq, true_and, not_or]
      exact ⟨hn w (List.mem_cons_of_mem _ hw), fun x => hv.1 (x ▸ hw)⟩)
    simpa using this

theorem length_touches (verts : List Nat) (c : Nat) (s : NodalState) :
    (verts.foldl (fun s v => s.touch c v) s).neighbors.length = s.neighbors.length := by
  induction verts generalizing s with
  | nil => rfl
  | cons v verts ih =>
    rw [List.foldl_cons, ih]
    unfold NodalState.touch
    generalize s.vertToCells v = L
    have : ∀ (L : List Nat) (nb : List (List Nat)),
        (L.foldl (fun nb o => (nb.modify c (· ++ [o])).modify o (· ++ [c])) nb).length = nb.length := by
      intro L
      induction L with
      | nil => intro nb; rfl
      | cons o L ih => intro nb; rw [List.foldl_cons, ih]; simp
    exact this L _

theorem touches_append (rows : List (List Nat)) (row : List Nat) :
    touches (rows ++ [row]) = touches rows ++ row.map fun v => (rows.length, v) := by
  unfold touches
  rw [List.zipIdx_append, List.flatMap_append]
  simp

theorem mem_touches {rows : List (List Nat)} {e v : Nat} :
    (e, v) ∈ touches rows ↔ ∃ row, rows[e]? = some row ∧ v ∈ row := by
  unfold touches
  simp only [List.mem_flatMap, List.mem_map, Prod.mk.injEq, Prod.exists, List.mem_zipIdx_iff_getElem?]
  constructor
  · rintro ⟨row, k, hk, w, hw, rfl, rfl⟩; exact ⟨row, hk, hw⟩
  · rintro ⟨row, hk, hw⟩; exact ⟨row, e, hk, v, hw, rfl, rfl⟩

theorem nodup_touches (rows : List (List Nat)) (h : ∀ row ∈ rows, row.Nodup) : (touches rows).Nodup := by
  induction rows using List.reverseRecOn with
  | nil => simp [touches]
  | append_singleton rows row ih =>
    rw [touches_append, List.nodup_append]
    refine ⟨ih fun r hr => h r (List.mem_append_left _ hr), ?_, ?_⟩
    · exact (h row (by simp)).map fun a b hab => by simpa using hab
    · rintro ⟨e, v⟩ ha ⟨e', v'⟩ hb
      simp only [List.mem_map, Prod.mk.injEq] at hb
      obtain ⟨w, _, hw, _⟩ := hb
      obtain ⟨r, hr, _⟩ := mem_touches.1 ha
      have := (List.getElem?_eq_some_iff.1 hr).1
      intro hc
      simp only [Prod.mk.injEq] at hc
      omega

theorem nodalLoop_append (rows : List (List Nat)) (row : List Nat) :
    nodalLoop (rows ++ [row]) = (nodalLoop rows).addCell rows.length row := by
  unfold nodalLoop
  rw [List.zipIdx_append, List.foldl_append]
  simp

theorem nodalLoop_inv (rows : List (List Nat)) (h : ∀ row ∈ rows, row.Nodup) :
    (nodalLoop rows).neighbors.length = rows.length ∧ NodalInv (touches rows) (nodalLoop rows) := by
  induction rows using List.reverseRecOn with
  | nil => exact ⟨rfl, ⟨fun _ => rfl, fun e e' l hl => by simp [nodalLoop] at hl⟩⟩
  | append_singleton rows row ih =>
    have hrows : ∀ r ∈ rows, r.Nodup := fun r hr => h r (List.mem_append_left _ hr)
    obtain ⟨hlen, hinv⟩ := ih hrows
    rw [nodalLoop_append, touches_append]
    have hnew : ∀ v, (rows.length, v) ∉ touches rows := by
      intro v hv
      obtain ⟨r, hr, _⟩ := mem_touches.1 hv
      have := (List.getElem?_eq_some_iff.1 hr).1
      omega
    constructor
    · unfold NodalState.addCell
      rw [length_touches]
      simp [hlen]
    · unfold NodalState.addCell
      apply nodalInv_touches rows.length (h row (by simp)) _ (nodup_touches rows hrows) (fun v _ => hnew v)
      refine ⟨hinv.cells, fun e e' l hl => ?_⟩
      simp only at hl
      rw [List.getElem?_append] at hl
      split at hl
      · exact hinv.count e e' l hl
      · rename_i hge
        have he : e = rows.length := by
          have := (List.getElem?_eq_some_iff.1 hl).1
          simp at this
          omega
        subst he
        rw [hlen, Nat.sub_self] at hl
        have : l = [] := by simpa using hl.symm
        subst this
        split
        · rfl
        · symm
          rw [List.count_nil, List.countP_eq_zero]
          rintro ⟨a, b⟩ hab
          simp only [Bool.and_eq_true, decide_eq_true_eq, not_and]
          rintro rfl
          exact absurd hab (hnew b)

theorem countP_touches (rows : List (List Nat)) {e : Nat} {row : List Nat} (he : rows[e]? = some row)
    (P : Nat → Bool) :
    (touches rows).countP (fun p => decide (p.1 = e) && P p.2) = row.countP P := by
  induction rows using List.reverseRecOn generalizing row with
  | nil => simp at he
  | append_singleton rows r ih =>
    rw [touches_append, List.countP_append, List.countP_map]
    rw [List.getElem?_append] at he
    split at he
    · rename_i hlt
      rw [ih he]
      have : (r.countP ((fun p : Nat × Nat => decide (p.1 = e) && P p.2) ∘ fun v => (rows.length, v))) = 0 := by
        rw [List.countP_eq_zero]
        intro v _
        have : ¬ rows.length = e := by omega
        simp [this]
      omega
    · rename_i hge
      have hlt := (List.getElem?_eq_some_iff.1 he).1
      simp at hlt
      have hee : e = rows.length := by omega
      subst hee
      rw [Nat.sub_self] at he
      have : r = row := by simpa using he
      subst this
      have h0 : (touches rows).countP (fun p => decide (p.1 = rows.length) && P p.2) = 0 := by
        rw [List.countP_eq_zero]
        rintro ⟨a, b⟩ hab
        obtain ⟨q, hq, _⟩ := mem_touches.1 hab
        have := (List.getElem?_eq_some_iff.1 hq).1
        have : ¬ a = rows.length := by omega
        simp [this]
      rw [h0, Nat.zero_add]
      apply List.countP_congr
      intro v _
      simp

/-- The neighbours the loop records, with their multiplicity. -/
theorem nodalLoop_count (rows : List (List Nat)) (h : ∀ row ∈ rows, row.Nodup) {e e' : Nat}
    {row row' l : List Nat} (hr : rows[e]? = some row) (hr' : rows[e']? = some row')
    (hl : (nodalLoop rows).neighbors[e]? = some l) :
    l.count e' = if e = e' then 0 else row.countP fun v => decide (v ∈ row') := by
  rw [(nodalLoop_inv rows h).2.count e e' l hl]
  split
  · rfl
  · rw [countP_touches rows hr fun v => decide ((e', v) ∈ touches rows)]
    apply List.countP_congr
    intro v _
    simp only [decide_eq_true_eq, mem_touches, hr', Option.some.injEq, exists_eq_left']

theorem fdNodalInfo_some {t : FdTopology} {use : Option (List Nat)} {r : FdNodal}
    (h : fdNodalInfo t use = some r) :
    ∃ cls : List (List Nat), t.usedClosures use = some cls ∧
      (cls.mapM fun cl => assignRow t.cellVerts ((t.dmpVerts cl).map t.vertexNumber)) =
        some r.vertexIndices ∧
      (∀ row ∈ r.vertexIndices, ∀ x ∈ row, 0 ≤ x) ∧
      r.starts = cumsum (0 :: (nodalLoop (cls.map t.dmpVerts)).neighbors.map List.length) ∧
      r.neighbors = (nodalLoop (cls.map t.dmpVerts)).neighbors.flatten := by
  unfold fdNodalInfo at h
  simp only [Option.bind_eq_bind, Option.bind_eq_some_iff] at h
  obtain ⟨cls, hcls, vi, hvi, h⟩ := h
  split at h
  · rename_i hall
    simp only [Option.pure_def, Option.some.injEq] at h
    subst h
    refine ⟨cls, hcls, hvi, ?_, rfl, rfl⟩
    simpa [List.all_eq_true] using hall
  · simp at h

theorem usedClosures_getElem? {t : FdTopology} {use : Option (List Nat)} {cls : List (List Nat)}
    (h : t.usedClosures use = some cls) (k : Nat) :
    cls[k]? = (usedCell use k).bind fun c => t.closures[c]? := by
  cases use with
  | none =>
    simp only [FdTopology.usedClosures, Option.some.injEq] at h
    subst h; rfl
  | some l =>
    simp only [FdTopology.usedClosures] at h
    rw [mapM_getElem?_bind h]
    rfl

theorem dmpVerts_range {t : FdTopology} {cl : List Nat} {d : Nat} (h : d ∈ t.dmpVerts cl) :
    t.vStart ≤ d ∧ d < t.vEnd := by
  unfold FdTopology.dmpVerts at h
  rw [List.mem_filter] at h
  simpa using h.2

/-! ## Theorems -/

/-- **C80.** Element `k` of the imported mesh is the `k`-th cell to be used, and its vertices are those of
this cell, in Firedrake's order and with Firedrake's numbers. -/
theorem C80_vertex_indices {t : FdTopology} (ht : t.OK) {use : Option (List Nat)} {r : FdNodal}
    (h : fdNodalInfo t use = some r) (k : Nat) :
    r.vertexIndices[k]? = (usedCell use k).bind fun c =>
      t.closures[c]?.map fun cl => (t.dmpVerts cl).map t.vertexNumber := by
  obtain ⟨cls, hcls, hvi, -⟩ := fdNodalInfo_some h
  rw [mapM_getElem?_bind hvi, usedClosures_getElem? hcls]
  cases usedCell use k with
  | none => rfl
  | some c =>
    simp only [Option.bind_some]
    cases hc : t.closures[c]? with
    | none => rfl
    | some cl =>
      have := ht.count cl (List.mem_of_getElem? hc)
      simp [assignRow, this]

theorem usedClosures_mem {t : FdTopology} {use : Option (List Nat)} {cls : List (List Nat)}
    (h : t.usedClosures use = some cls) {cl : List Nat} (hcl : cl ∈ cls) : cl ∈ t.closures := by
  obtain ⟨k, hk⟩ := List.mem_iff_getElem?.1 hcl
  rw [usedClosures_getElem? h] at hk
  obtain ⟨c, _, hc⟩ := Option.bind_eq_some_iff.1 hk
  exact List.mem_of_getElem? hc

theorem vertexIndices_row {t : FdTopology} (ht : t.OK) {use : Option (List Nat)} {r : FdNodal}
    {cls : List (List Nat)} (hcls : t.usedClosures use = some cls) (h : fdNodalInfo t use = some r)
    (k : Nat) : r.vertexIndices[k]? = cls[k]?.map fun cl => (t.dmpVerts cl).map t.vertexNumber := by
  rw [C80_vertex_indices ht h, usedClosures_getElem? hcls]
  cases usedCell use k <;> rfl

theorem mem_numbers {t : FdTopology} (ht : t.OK) {cl cl' : List Nat} {d : Nat} (hd : d ∈ t.dmpVerts cl) :
    t.vertexNumber d ∈ (t.dmpVerts cl').map t.vertexNumber ↔ d ∈ t.dmpVerts cl' := by
  constructor
  · intro h
    obtain ⟨d', hd', he⟩ := List.mem_map.1 h
    obtain ⟨h1, h2⟩ := dmpVerts_range hd
    obtain ⟨h3, h4⟩ := dmpVerts_range hd'
    rw [ht.inj d d' h1 h2 h3 h4 he.symm]
    exact hd'
  · exact fun h => List.mem_map_of_mem h

/-- **C80.** The neighbours of an element in the nodal adjacency, with their multiplicity: another element is
listed once for every vertex the two share, and no element is its own neighbour. -/
theorem C80_multiplicity {t : FdTopology} (ht : t.OK) {use : Option (List Nat)} {r : FdNodal}
    (h : fdNodalInfo t use = some r) {e e' : Nat} {nbrs : List Nat} {row row' : List Int}
    (hn : csrRow r.starts r.neighbors e = some nbrs) (hr : r.vertexIndices[e]? = some row)
    (hr' : r.vertexIndices[e']? = some row') :
    nbrs.count e' = if e = e' then 0 else row.countP fun x => decide (x ∈ row') := by
  obtain ⟨cls, hcls, -, -, hs, hnb⟩ := fdNodalInfo_some h
  rw [hs, hnb, csrRow_of_rows] at hn
  rw [vertexIndices_row ht hcls h] at hr hr'
  obtain ⟨cl, hcl, rfl⟩ := Option.map_eq_some_iff.1 hr
  obtain ⟨cl', hcl', rfl⟩ := Option.map_eq_some_iff.1 hr'
  rw [nodalLoop_count (cls.map t.dmpVerts) _ (row := t.dmpVerts cl) (row' := t.dmpVerts cl') _ _ hn]
  · split
    · rfl
    · rw [List.countP_map]
      apply List.countP_congr
      intro d hd
      simp only [Function.comp, decide_eq_true_eq]
      exact (mem_numbers ht hd).symm
  · intro row hrow
    obtain ⟨c, hc, rfl⟩ := List.mem_map.1 hrow
    exact ht.distinct c (usedClosures_mem hcls hc)
  · rw [List.getElem?_map, hcl]; rfl
  · rw [List.getElem?_map, hcl']; rfl

/-- **C80.** The neighbours of an element are exactly the other elements sharing a vertex with it. -/
theorem C80_neighbors {t : FdTopology} (ht : t.OK) {use : Option (List Nat)} {r : FdNodal}
    (h : fdNodalInfo t use = some r) {e : Nat} {nbrs : List Nat} {row : List Int}
    (hn : csrRow r.starts r.neighbors e = some nbrs) (hr : r.vertexIndices[e]? = some row) (e' : Nat) :
    e' ∈ nbrs ↔ e ≠ e' ∧ ∃ row' : List Int, r.vertexIndices[e']? = some row' ∧ ∃ x ∈ row, x ∈ row' := by
  cases hr' : r.vertexIndices[e']? with
  | some row' =>
    have := C80_multiplicity ht h hn hr hr'
    rw [← List.count_pos_iff, this]
    by_cases hee : e = e'
    · simp [hee]
    · rw [if_neg hee, List.countP_pos_iff]
      simp [hee]
  | none =>
    simp only [reduceCtorEq, false_and, exists_false, and_false, iff_false]
    obtain ⟨cls, hcls, -, -, hs, hnb⟩ := fdNodalInfo_some h
    rw [hs, hnb, csrRow_of_rows] at hn
    rw [vertexIndices_row ht hcls h] at hr'
    rw [Option.map_eq_none_iff] at hr'
    have hnd : ∀ row ∈ cls.map t.dmpVerts, row.Nodup := by
      intro row hrow
      obtain ⟨c, hc, rfl⟩ := List.mem_map.1 hrow
      exact ht.distinct c (usedClosures_mem hcls hc)
    have := (nodalLoop_inv _ hnd).2.count e e' nbrs hn
    rw [← List.count_pos_iff, this]
    split
    · simp
    · rw [List.countP_pos_iff]
      rintro ⟨⟨a, b⟩, _, hab⟩
      simp only [Bool.and_eq_true, decide_eq_true_eq, mem_touches, List.getElem?_map] at hab
      obtain ⟨_, q, hq, _⟩ := hab
      rw [hr'] at hq
      simp at hq

/-- **C80.** The two arrays are well-formed, with one row for every element. -/
theorem C80_rows {t : FdTopology} (ht : t.OK) {use : Option (List Nat)} {r : FdNodal}
    (h : fdNodalInfo t use = some r) : CsrValid r.starts r.neighbors r.vertexIndices.length := by
  obtain ⟨cls, hcls, hvi, -, hs, hnb⟩ := fdNodalInfo_some h
  have hnd : ∀ row ∈ cls.map t.dmpVerts, row.Nodup := by
    intro row hrow
    obtain ⟨c, hc, rfl⟩ := List.mem_map.1 hrow
    exact ht.distinct c (usedClosures_mem hcls hc)
  have hl := (nodalLoop_inv _ hnd).1
  rw [hs, hnb, (mapM_getElem?_some hvi).1, ← List.length_map (f := t.dmpVerts), ← hl]
  exact csrValid_of_rows _

/-- **C80.** Adjacency goes both ways. -/
theorem C80_symmetric {t : FdTopology} (ht : t.OK) {use : Option (List Nat)} {r : FdNodal}
    (h : fdNodalInfo t use = some r) {e e' : Nat} {nbrs nbrs' : List Nat}
    (hn : csrRow r.starts r.neighbors e = some nbrs) (hn' : csrRow r.starts r.neighbors e' = some nbrs') :
    e' ∈ nbrs ↔ e ∈ nbrs' := by
  have hrow : ∀ {k : Nat} {l : List Nat}, csrRow r.starts r.neighbors k = some l →
      ∃ row, r.vertexIndices[k]? = some row := by
    intro k l hk
    have hv := (C80_rows ht h).1
    unfold csrRow at hk
    simp only [Option.bind_eq_bind, Option.bind_eq_some_iff] at hk
    obtain ⟨_, _, _, hb, _⟩ := hk
    have := (List.getElem?_eq_some_iff.1 hb).1
    exact ⟨_, List.getElem?_eq_getElem (by omega)⟩
  obtain ⟨row, hr⟩ := hrow hn
  obtain ⟨row', hr'⟩ := hrow hn'
  rw [C80_neighbors ht h hn hr, C80_neighbors ht h hn' hr']
  simp only [hr, hr', Option.some.injEq, exists_eq_left']
  constructor
  · rintro ⟨hne, x, hx, hx'⟩; exact ⟨hne.symm, x, hx', hx⟩
  · rintro ⟨hne, x, hx, hx'⟩; exact ⟨hne.symm, x, hx', hx⟩

/-- **C80.** A topology of simplices is imported whenever all cells asked for exist. -/
theorem C80_defined {t : FdTopology} (ht : t.OK) (use : Option (List Nat)) :
    (∃ r, fdNodalInfo t use = some r) ↔ ∀ l, use = some l → ∀ c ∈ l, c < t.closures.length := by
  constructor
  · rintro ⟨r, h⟩ l rfl c hc
    obtain ⟨cls, hcls, -⟩ := fdNodalInfo_some h
    obtain ⟨k, hk⟩ := List.mem_iff_getElem?.1 hc
    simp only [FdTopology.usedClosures] at hcls
    obtain ⟨b, _, hb⟩ := (mapM_getElem?_some hcls).2 k c hk
    exact (List.getElem?_eq_some_iff.1 hb).1
  · intro hu
    have hcls : ∃ cls, t.usedClosures use = some cls := by
      cases use with
      | none => exact ⟨_, rfl⟩
      | some l =>
        exact mapM_isSome_of (f := fun c => t.closures[c]?) fun c hc =>
          ⟨_, List.getElem?_eq_getElem (hu l rfl c hc)⟩
    obtain ⟨cls, hcls⟩ := hcls
    have hvi : (cls.mapM fun cl => assignRow t.cellVerts ((t.dmpVerts cl).map t.vertexNumber)) =
        some (cls.map fun cl => (t.dmpVerts cl).map t.vertexNumber) := by
      apply mapM_some_of_forall
      intro cl hcl
      simp [assignRow, ht.count cl (usedClosures_mem hcls hcl)]
    unfold fdNodalInfo
    rw [hcls]
    simp only [Option.bind_eq_bind, Option.bind_some, hvi]
    rw [if_pos]
    · exact ⟨_, rfl⟩
    · simp only [List.all_eq_true, List.mem_map, forall_exists_index, and_imp, forall_apply_eq_imp_iff₂,
        decide_eq_true_eq]
      intro cl _ d hd
      obtain ⟨h1, h2⟩ := dmpVerts_range hd
      exact ht.nonneg d h1 h2

/-! ## Examples -/

/-- Two triangles with a common edge; the cells are 0 and 1, the vertices 2 to 5, the edges follow.
(Example, no code.) -/
def exFdTopology : FdTopology where
  closures := [[2, 3, 4, 6, 7, 8, 0], [5, 4, 3, 6, 9, 10, 1]]
  vStart := 2
  vEnd := 6
  cellVerts := 3
  vertexNumber d := if d = 2 then 3 else (d : Int) - 3

example : exFdTopology.OK := by
  constructor
  · decide
  · decide
  · intro d d' h1 h2 h3 h4 h
    simp only [exFdTopology] at *
    split at h <;> split at h <;> omega
  · intro d h1 h2
    simp only [exFdTopology] at *
    split <;> omega

example : fdNodalInfo exFdTopology none =
    some ⟨[[3, 0, 1], [2, 1, 0]], [0, 2, 4], [1, 1, 0, 0]⟩ := by decide +kernel

example : fdNodalInfo exFdTopology (some [1]) = some ⟨[[2, 1, 0]], [0, 0], []⟩ := by decide +kernel

/-- **C80.** A neighbour can be listed more than once: so the arrays are not those meshmode itself computes
(C04). -/
theorem C80_repeated : ∃ r nbrs, fdNodalInfo exFdTopology none = some r ∧
    csrRow r.starts r.neighbors 0 = some nbrs ∧ ¬ nbrs.Nodup :=
  ⟨⟨[[3, 0, 1], [2, 1, 0]], [0, 2, 4], [1, 1, 0, 0]⟩, [1, 1], by decide +kernel, by decide, by decide⟩

end Meshmode
