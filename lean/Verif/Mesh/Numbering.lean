/-!
# Element numbering (C01)

Model of `Mesh.nelements`, `Mesh.base_element_nrs`, `Mesh.base_node_nrs`
(meshmode/mesh/__init__.py) and `find_group_indices` (meshmode/mesh/processing.py).
-/
namespace Meshmode

/-- `np.cumsum` on a list of naturals.  Used at meshmode/mesh/__init__.py:1379,1387. -/
def cumsumFrom (acc : Nat) : List Nat → List Nat
  | [] => []
  | x :: xs => (acc + x) :: cumsumFrom (acc + x) xs

/-- `np.cumsum(l)`. Code: meshmode/mesh/__init__.py:1379-1387. -/
def cumsum (l : List Nat) : List Nat := cumsumFrom 0 l

/-- `Mesh.nelements`, meshmode/mesh/__init__.py:1368-1371, as a function of the group sizes. -/
def nelements (sizes : List Nat) : Nat := sizes.sum

/-- `Mesh.base_element_nrs` = `np.cumsum([0] + [grp.nelements for grp in groups[:-1]])`,
meshmode/mesh/__init__.py:1373-1379 (`base_node_nrs`, 1381-1387, is the same function of the
node counts).  As in the code, the list for a mesh without groups is `[0]`. -/
def baseElementNrs (sizes : List Nat) : List Nat := cumsum (0 :: sizes.dropLast)

/-- `find_group_indices` for one mesh-wide element number,
meshmode/mesh/processing.py:90-96: the loop adds one for every group whose end is `≤ e`.
(The code runs this loop on the whole array at once, entry by entry.) -/
def findGroupIndexFrom (boundary : Nat) (e : Nat) : List Nat → Nat → Nat
  | [], acc => acc
  | n :: rest, acc =>
      let boundary' := boundary + n
      findGroupIndexFrom boundary' e rest (acc + if e ≥ boundary' then 1 else 0)

/-- `find_group_indices`, meshmode/mesh/processing.py:79-96. -/
def findGroupIndices (sizes : List Nat) (elems : List Nat) : List Nat :=
  elems.map fun e => findGroupIndexFrom 0 e sizes 0

/-! ## Lemmas -/

theorem cumsumFrom_getElem? (acc : Nat) (l : List Nat) (i : Nat) :
    (cumsumFrom acc l)[i]? = if i < l.length then some (acc + (l.take (i+1)).sum) else none := by
  induction l generalizing acc i with
  | nil => simp [cumsumFrom]
  | cons x xs ih =>
    cases i with
    | zero => simp [cumsumFrom]
    | succ i =>
      simp only [cumsumFrom, List.getElem?_cons_succ, ih, List.length_cons, List.take_succ_cons,
        List.sum_cons]
      split <;> split <;> first | omega | (simp; try omega)

theorem length_cumsumFrom (acc : Nat) (l : List Nat) : (cumsumFrom acc l).length = l.length := by
  induction l generalizing acc with
  | nil => rfl
  | cons x xs ih => simp [cumsumFrom, ih]

/-- The base number of group `g` is the number of elements of the groups before it. -/
theorem baseElementNrs_getElem? (sizes : List Nat) (g : Nat) (hg : g < sizes.length) :
    (baseElementNrs sizes)[g]? = some (sizes.take g).sum := by
  unfold baseElementNrs cumsum
  rw [cumsumFrom_getElem?]
  have h1 : g < (0 :: sizes.dropLast).length := by
    simp only [List.length_cons, List.length_dropLast]; omega
  rw [if_pos h1]
  simp only [List.take_succ_cons, List.sum_cons, Nat.zero_add]
  congr 2
  rw [List.dropLast_eq_take, List.take_take]
  congr 1; omega

theorem findGroupIndexFrom_acc (b e : Nat) (l : List Nat) (acc : Nat) :
    findGroupIndexFrom b e l acc = acc + findGroupIndexFrom b e l 0 := by
  induction l generalizing b acc with
  | nil => simp [findGroupIndexFrom]
  | cons n rest ih =>
    simp only [findGroupIndexFrom]
    rw [ih, ih (b + n) (0 + _)]; omega

theorem findGroupIndexFrom_lt_eq_zero (b e : Nat) (l : List Nat) (h : e < b) :
    findGroupIndexFrom b e l 0 = 0 := by
  induction l generalizing b with
  | nil => rfl
  | cons n rest ih =>
    simp only [findGroupIndexFrom]
    have : ¬ e ≥ b + n := by omega
    simp only [this, if_false, Nat.add_zero]
    exact ih _ (by omega)

theorem findGroupIndexFrom_spec (b e : Nat) (l : List Nat) (g i : Nat) (hg : g < l.length)
    (hi : i < l[g]) (he : e = b + (l.take g).sum + i) :
    findGroupIndexFrom b e l 0 = g := by
  induction l generalizing b g with
  | nil => simp at hg
  | cons n rest ih =>
    simp only [findGroupIndexFrom]
    rw [findGroupIndexFrom_acc]
    cases g with
    | zero =>
      simp only [List.take_zero, List.sum_nil, Nat.add_zero, List.getElem_cons_zero] at *
      have : ¬ e ≥ b + n := by omega
      simp only [this, if_false]
      rw [findGroupIndexFrom_lt_eq_zero _ _ _ (by omega)]
    | succ g =>
      have hg' : g < rest.length := by simpa using hg
      simp only [List.take_succ_cons, List.sum_cons, List.getElem_cons_succ] at *
      have h1 : e ≥ b + n := by omega
      simp only [h1, if_true]
      rw [ih (b+n) g hg' hi (by omega)]; omega

theorem exists_group_of_lt (l : List Nat) (e : Nat) (h : e < l.sum) :
    ∃ g i, ∃ hg : g < l.length, i < l[g] ∧ e = (l.take g).sum + i := by
  induction l generalizing e with
  | nil => simp at h
  | cons n rest ih =>
    by_cases h1 : e < n
    · exact ⟨0, e, by simp, by simpa using h1, by simp⟩
    · simp only [List.sum_cons] at h
      obtain ⟨g, i, hg, hi, he⟩ := ih (e - n) (by omega)
      refine ⟨g+1, i, by simpa using hg, by simpa using hi, ?_⟩
      simp only [List.take_succ_cons, List.sum_cons]; omega

theorem take_sum_add_lt (l : List Nat) (g i : Nat) (hg : g < l.length) (hi : i < l[g]) :
    (l.take g).sum + i < l.sum := by
  induction l generalizing g with
  | nil => simp at hg
  | cons n rest ih =>
    cases g with
    | zero => simp at *; omega
    | succ g =>
      have hg' : g < rest.length := by simpa using hg
      simp only [List.take_succ_cons, List.sum_cons, List.getElem_cons_succ] at *
      have := ih g hg' hi; omega

theorem findGroupIndexFrom_ge (b e : Nat) (l : List Nat) (h : b + l.sum ≤ e) :
    findGroupIndexFrom b e l 0 = l.length := by
  induction l generalizing b with
  | nil => rfl
  | cons n rest ih =>
    simp only [List.sum_cons] at h
    simp only [findGroupIndexFrom]
    rw [findGroupIndexFrom_acc]
    have : e ≥ b + n := by omega
    simp only [this, if_true, List.length_cons]
    rw [ih _ (by omega)]; omega

/-! ## Specification and properties -/

/-- Specification: `e` is the mesh-wide number of element `i` of group `g`: the groups before
`g` and the elements before `i` come first. -/
def IsGlobalNr (sizes : List Nat) (g i e : Nat) : Prop :=
  ∃ n, sizes[g]? = some n ∧ i < n ∧ e = (sizes.take g).sum + i

/-- C01: `base_element_nrs[g] + i` is the mesh-wide number of element `i` of group `g`. -/
theorem C01_base_element_nrs (sizes : List Nat) (g i n : Nat) (hg : sizes[g]? = some n)
    (hi : i < n) :
    ∃ b, (baseElementNrs sizes)[g]? = some b ∧ IsGlobalNr sizes g i (b + i) := by
  have hlt : g < sizes.length := by
    rw [List.getElem?_eq_some_iff] at hg; exact hg.1
  exact ⟨_, baseElementNrs_getElem? sizes g hlt, n, hg, hi, rfl⟩

/-- C01: every number below `nelements` is the number of exactly one (group, element) pair, and
every pair's number is below `nelements`. -/
theorem C01_numbering_bijective (sizes : List Nat) (e : Nat) :
    (e < nelements sizes ↔ ∃ g i, IsGlobalNr sizes g i e) ∧
    (∀ g i g' i', IsGlobalNr sizes g i e → IsGlobalNr sizes g' i' e → g = g' ∧ i = i') := by
  refine ⟨⟨fun h => ?_, ?_⟩, ?_⟩
  · obtain ⟨g, i, hg, hi, he⟩ := exists_group_of_lt sizes e h
    exact ⟨g, i, sizes[g], List.getElem?_eq_getElem hg, hi, he⟩
  · rintro ⟨g, i, n, hg, hi, rfl⟩
    rw [List.getElem?_eq_some_iff] at hg
    obtain ⟨hlt, rfl⟩ := hg
    exact take_sum_add_lt sizes g i hlt hi
  · rintro g i g' i' ⟨n, hg, hi, he⟩ ⟨n', hg', hi', he'⟩
    rw [List.getElem?_eq_some_iff] at hg hg'
    obtain ⟨hlt, rfl⟩ := hg
    obtain ⟨hlt', rfl⟩ := hg'
    have h1 := findGroupIndexFrom_spec 0 e sizes g i hlt hi (by omega)
    have h2 := findGroupIndexFrom_spec 0 e sizes g' i' hlt' hi' (by omega)
    have h3 : g = g' := by omega
    subst h3
    exact ⟨rfl, by omega⟩

/-- C01: `find_group_indices` returns, entry by entry, the group of each element number
(and the number of groups for numbers that belong to no element). -/
theorem C01_find_group_indices (sizes elems : List Nat) :
    (findGroupIndices sizes elems).length = elems.length ∧
    ∀ k e : Nat, elems[k]? = some e →
      (∀ g i, IsGlobalNr sizes g i e → (findGroupIndices sizes elems)[k]? = some g) ∧
      (nelements sizes ≤ e → (findGroupIndices sizes elems)[k]? = some sizes.length) := by
  refine ⟨by simp [findGroupIndices], fun k e hk => ⟨?_, ?_⟩⟩
  · rintro g i ⟨n, hg, hi, he⟩
    rw [List.getElem?_eq_some_iff] at hg
    obtain ⟨hlt, rfl⟩ := hg
    simp only [findGroupIndices, List.getElem?_map, hk, Option.map_some]
    rw [findGroupIndexFrom_spec 0 e sizes g i hlt hi (by omega)]
  · intro h
    simp only [findGroupIndices, List.getElem?_map, hk, Option.map_some]
    rw [findGroupIndexFrom_ge 0 e sizes (by simpa [nelements] using h)]

/-- Non-vacuity: three groups, the middle one empty. -/
example : baseElementNrs [2, 0, 3] = [0, 2, 2] ∧ findGroupIndices [2, 0, 3] [0, 1, 2, 4, 5]
    = [0, 0, 2, 2, 3] ∧ IsGlobalNr [2, 0, 3] 2 1 3 := by
  refine ⟨by decide, by decide, 3, by decide, by decide, by decide⟩

end Meshmode
