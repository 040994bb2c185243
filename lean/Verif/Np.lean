import Mathlib.Data.List.Dedup
import Mathlib.Data.List.Sort
import Mathlib.Data.List.Nodup

/-!
# numpy operations used by several models

Each definition states the numpy function it stands for.  They are the trusted reading of
numpy's documentation; the lemmas below are proved.
-/
namespace Meshmode

/-- Insertion of `a` before the first entry that is not smaller.
Code: meshmode/mesh/processing.py:178. -/
def insertBy {α : Type} (le : α → α → Bool) (a : α) : List α → List α
  | [] => [a]
  | b :: l => if le a b then a :: b :: l else b :: insertBy le a l

/-- The stable sort of numpy (`np.sort`, `np.argsort`/`np.lexsort`, which are stable for the
calls modelled): written as insertion sort so that the kernel can evaluate it; the result of a
stable sort does not depend on the algorithm. Code: meshmode/mesh/processing.py:178. -/
def stableSort {α : Type} (le : α → α → Bool) : List α → List α
  | [] => []
  | a :: l => insertBy le a (stableSort le l)

section StableSort
variable {α : Type} {le : α → α → Bool}

theorem insertBy_perm (a : α) (l : List α) : (insertBy le a l).Perm (a :: l) := by
  induction l with
  | nil => exact List.Perm.refl _
  | cons b l ih =>
    simp only [insertBy]
    split
    · exact List.Perm.refl _
    · exact (List.Perm.cons b ih).trans (List.Perm.swap a b l)

theorem stableSort_perm (le : α → α → Bool) (l : List α) : (stableSort le l).Perm l := by
  induction l with
  | nil => exact List.Perm.refl _
  | cons a l ih => exact (insertBy_perm a _).trans (List.Perm.cons a ih)

@[simp] theorem mem_stableSort {a : α} {l : List α} : a ∈ stableSort le l ↔ a ∈ l :=
  (stableSort_perm le l).mem_iff

@[simp] theorem length_stableSort {l : List α} : (stableSort le l).length = l.length :=
  (stableSort_perm le l).length_eq

theorem pairwise_insertBy (htr : ∀ a b c, le a b = true → le b c = true → le a c = true)
    (htot : ∀ a b, (le a b || le b a) = true) (a : α) {l : List α}
    (h : l.Pairwise (fun a b => le a b = true)) :
    (insertBy le a l).Pairwise (fun a b => le a b = true) := by
  induction l with
  | nil => simp [insertBy]
  | cons b l ih =>
    obtain ⟨h1, h2⟩ := List.pairwise_cons.1 h
    simp only [insertBy]
    split
    · rename_i hab
      refine List.pairwise_cons.2 ⟨?_, h⟩
      intro c hc
      rcases List.mem_cons.1 hc with rfl | hc
      · exact hab
      · exact htr _ _ _ hab (h1 c hc)
    · rename_i hab
      refine List.pairwise_cons.2 ⟨?_, ih h2⟩
      intro c hc
      rcases List.mem_cons.1 ((insertBy_perm a l).mem_iff.1 hc) with rfl | hc
      · have := htot c b
        simpa [hab] using this
      · exact h1 c hc

theorem pairwise_stableSort (htr : ∀ a b c, le a b = true → le b c = true → le a c = true)
    (htot : ∀ a b, (le a b || le b a) = true) (l : List α) :
    (stableSort le l).Pairwise (fun a b => le a b = true) := by
  induction l with
  | nil => simp [stableSort]
  | cons a l ih => exact pairwise_insertBy htr htot a ih

theorem sublist_insertBy (a : α) (l : List α) : l.Sublist (insertBy le a l) := by
  induction l with
  | nil => simp [insertBy]
  | cons b l ih =>
    simp only [insertBy]
    split
    · exact List.sublist_cons_self _ _
    · exact ih.cons_cons b

theorem pair_sublist_insertBy {a c : α} {l : List α} (hac : le a c = true) (hc : c ∈ l) :
    [a, c].Sublist (insertBy le a l) := by
  induction l with
  | nil => simp at hc
  | cons b l ih =>
    simp only [insertBy]
    split
    · exact List.Sublist.cons_cons a (List.singleton_sublist.2 hc)
    · rename_i hab
      rcases List.mem_cons.1 hc with rfl | hc
      · exact absurd hac hab
      · exact (ih hc).cons b

/-- Stability: entries in the right order (or equal for `le`) keep their relative order. -/
theorem pair_sublist_stableSort {a b : α} {l : List α} (hab : le a b = true)
    (h : [a, b].Sublist l) : [a, b].Sublist (stableSort le l) := by
  induction l with
  | nil => simp at h
  | cons c l ih =>
    simp only [stableSort]
    cases h with
    | cons _ h' => exact (ih h').trans (sublist_insertBy c _)
    | cons_cons _ h' =>
      exact pair_sublist_insertBy hab (by simpa using h'.subset)

theorem stableSort_of_pairwise {l : List α} (h : l.Pairwise (fun a b => le a b = true)) :
    stableSort le l = l := by
  induction l with
  | nil => rfl
  | cons a l ih =>
    obtain ⟨h1, h2⟩ := List.pairwise_cons.1 h
    simp only [stableSort, ih h2]
    cases l with
    | nil => rfl
    | cons b l => simp [insertBy, h1 b (by simp)]

end StableSort

/-- `np.sort` on naturals. Code: meshmode/mesh/processing.py:178. -/
def sortNat (l : List Nat) : List Nat := stableSort (fun a b => decide (a ≤ b)) l

theorem pairwise_sortNat (l : List Nat) : (sortNat l).Pairwise (· ≤ ·) := by
  have := pairwise_stableSort (le := fun a b : Nat => decide (a ≤ b))
    (by intro a b c; simp only [decide_eq_true_eq]; omega)
    (by intro a b; simp only [Bool.or_eq_true, decide_eq_true_eq]; omega) l
  simpa [sortNat] using this

/-- `np.unique(l)` for naturals: the distinct entries in increasing order.
Code: meshmode/mesh/processing.py:178. -/
def npUnique (l : List Nat) : List Nat := sortNat l.dedup

theorem mem_npUnique {l : List Nat} {a : Nat} : a ∈ npUnique l ↔ a ∈ l := by
  simp [npUnique, sortNat]

theorem nodup_npUnique (l : List Nat) : (npUnique l).Nodup :=
  (stableSort_perm _ _).nodup_iff.2 (List.nodup_dedup l)

theorem pairwise_lt_npUnique (l : List Nat) : (npUnique l).Pairwise (· < ·) := by
  have h1 : (npUnique l).Pairwise (· ≤ ·) := pairwise_sortNat _
  have h2 : (npUnique l).Pairwise (· ≠ ·) := nodup_npUnique l
  exact (h1.and h2).imp fun ⟨a, b⟩ => by omega

/-- A strictly increasing list of naturals is determined by its members. -/
theorem eq_of_pairwise_lt_of_mem {l l' : List Nat} (h : l.Pairwise (· < ·))
    (h' : l'.Pairwise (· < ·)) (hm : ∀ a, a ∈ l ↔ a ∈ l') : l = l' := by
  have hn : l.Nodup := h.imp (by intros; omega)
  have hn' : l'.Nodup := h'.imp (by intros; omega)
  exact List.Perm.eq_of_pairwise (le := (· < ·)) (by intros; omega) h h'
    ((List.perm_ext_iff_of_nodup hn hn').2 hm)

/-- `np.searchsorted(l, x)` (side `left`) on a sorted array: the number of entries `< x`.
Code: meshmode/mesh/processing.py:154. -/
def npSearchsorted (l : List Nat) (x : Nat) : Nat := l.countP (fun a => decide (a < x))

/-- On a strictly increasing list, searching for a member returns its position. -/
theorem npSearchsorted_getElem {l : List Nat} (h : l.Pairwise (· < ·)) (i : Nat)
    (hi : i < l.length) : npSearchsorted l l[i] = i := by
  induction l generalizing i with
  | nil => simp at hi
  | cons a l ih =>
    obtain ⟨h1, h2⟩ := List.pairwise_cons.1 h
    cases i with
    | zero =>
      simp only [npSearchsorted, List.getElem_cons_zero]
      rw [List.countP_eq_zero]
      intro b hb
      rcases List.mem_cons.1 hb with rfl | hb
      · simp
      · have := h1 b hb; simp; omega
    | succ i =>
      simp only [npSearchsorted, List.getElem_cons_succ]
      have hi' : i < l.length := by simpa using hi
      have h3 := h1 l[i] (List.getElem_mem _)
      rw [List.countP_cons_of_pos (by simpa using h3)]
      have := ih h2 i hi'
      simp only [npSearchsorted] at this
      omega

theorem npSearchsorted_of_mem {l : List Nat} (h : l.Pairwise (· < ·)) {a : Nat} (ha : a ∈ l) :
    l[npSearchsorted l a]? = some a := by
  obtain ⟨i, hi, rfl⟩ := List.mem_iff_getElem.1 ha
  rw [npSearchsorted_getElem h i hi]; exact List.getElem?_eq_getElem hi

/-- `np.where(mask)` for a one-dimensional mask. Code: meshmode/mesh/tools.py:332. -/
def npWhere (mask : List Bool) : List Nat :=
  (List.range mask.length).filter fun i => mask[i]? == some true

theorem mem_npWhere {mask : List Bool} {i : Nat} : i ∈ npWhere mask ↔ mask[i]? = some true := by
  simp only [npWhere, List.mem_filter, List.mem_range, beq_iff_eq, and_iff_right_iff_imp]
  intro h
  by_contra hc
  rw [List.getElem?_eq_none (by omega)] at h
  simp at h

theorem pairwise_lt_npWhere (mask : List Bool) : (npWhere mask).Pairwise (· < ·) :=
  (List.pairwise_lt_range).filter _

theorem mapM_some_eq_map {α β : Type} {f : α → Option β} {g : α → β} {l : List α}
    (h : ∀ a ∈ l, f a = some (g a)) : l.mapM f = some (l.map g) := by
  induction l with
  | nil => rfl
  | cons b l ih =>
    rw [List.mapM_cons, h b (by simp), ih fun a ha => h a (by simp [ha])]
    rfl

/-- `pytools.unique` (used in meshmode/discretization/connection/direct.py:515-518), and the keys
of a dict in order of insertion: first occurrences, in order. -/
def firstOccs {α : Type} [DecidableEq α] : List α → List α
  | [] => []
  | a :: l => a :: (firstOccs l).filter (· ≠ a)

theorem firstOccs_mem {α : Type} [DecidableEq α] {l : List α} {a : α} : a ∈ firstOccs l ↔ a ∈ l := by
  induction l with
  | nil => simp [firstOccs]
  | cons b l ih =>
    simp only [firstOccs, List.mem_cons, List.mem_filter, ih]
    by_cases h : a = b <;> simp [h]

theorem nodup_firstOccs {α : Type} [DecidableEq α] (l : List α) : (firstOccs l).Nodup := by
  induction l with
  | nil => simp [firstOccs]
  | cons b l ih =>
    rw [firstOccs, List.nodup_cons]
    exact ⟨by simp [List.mem_filter], ih.filter _⟩

end Meshmode
