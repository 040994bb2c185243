import Verif.Mesh.Numbering
import Mathlib.Data.List.Basic

/-!
# Compressed row storage

Shared by nodal adjacency (C04) and the graph handed to the partitioner (C34).
-/
namespace Meshmode

/-- Entry range `starts[i]:starts[i+1]` of `data`; `none` if `starts` is too short.  This is how
the docstring of `NodalAdjacency` (meshmode/mesh/__init__.py:465-480) reads the two arrays. -/
def csrRow {α : Type} (starts : List Nat) (data : List α) (i : Nat) : Option (List α) := do
  let a ← starts[i]?
  let b ← starts[i+1]?
  pure ((data.drop a).take (b - a))

/-- A well-formed pair of arrays for `n` rows: `starts` has `n+1` nondecreasing entries from `0`
to `len(data)`. (Specification or proof vocabulary, no code.) -/
def CsrValid {α : Type} (starts : List Nat) (data : List α) (n : Nat) : Prop :=
  starts.length = n + 1 ∧ starts[0]? = some 0 ∧ starts[n]? = some data.length ∧
  ∀ i a b, starts[i]? = some a → starts[i+1]? = some b → a ≤ b

theorem csr_starts {α : Type} (L : List (List α)) (i : Nat) (hi : i ≤ L.length) :
    (cumsum (0 :: L.map List.length))[i]? = some ((L.take i).map List.length).sum := by
  unfold cumsum
  rw [cumsumFrom_getElem?, if_pos (by simp; omega)]
  simp [List.map_take]

theorem csrValid_of_rows {α : Type} (L : List (List α)) :
    CsrValid (cumsum (0 :: L.map List.length)) L.flatten L.length := by
  refine ⟨by simp [cumsum, length_cumsumFrom], by simpa using csr_starts L 0 (by omega), ?_, ?_⟩
  · rw [csr_starts L L.length (Nat.le_refl _)]; simp [List.length_flatten]
  · intro i a b ha hb
    have hi : i + 1 ≤ L.length := by
      by_contra hc
      rw [List.getElem?_eq_none (by simp [cumsum, length_cumsumFrom]; omega)] at hb
      simp at hb
    rw [csr_starts L i (by omega)] at ha
    rw [csr_starts L (i+1) hi] at hb
    cases ha; cases hb
    rw [List.take_succ_eq_append_getElem (by omega)]
    simp only [List.map_append, List.sum_append]; omega

theorem flatten_slice {α : Type} (L : List (List α)) (i : Nat) (hi : i < L.length) :
    (L.flatten.drop ((L.take i).map List.length).sum).take L[i].length = L[i] := by
  induction L generalizing i with
  | nil => simp at hi
  | cons a L ih =>
    cases i with
    | zero => simp
    | succ i =>
      have hi' : i < L.length := by simpa using hi
      simp only [List.flatten_cons, List.take_succ_cons, List.map_cons, List.sum_cons,
        List.getElem_cons_succ]
      rw [← List.drop_drop, List.drop_left]
      exact ih i hi'

/-- Reading row `i` gives back row `i`. -/
theorem csrRow_of_rows {α : Type} (L : List (List α)) (i : Nat) :
    csrRow (cumsum (0 :: L.map List.length)) L.flatten i = L[i]? := by
  by_cases hi : i < L.length
  · unfold csrRow
    rw [csr_starts L i (by omega), csr_starts L (i+1) hi, List.getElem?_eq_getElem hi]
    simp only [Option.bind_eq_bind, Option.bind_some, Option.pure_def, Option.some.injEq]
    rw [List.take_succ_eq_append_getElem hi]
    simp only [List.map_append, List.sum_append, List.map_cons, List.map_nil, List.sum_cons,
      List.sum_nil, Nat.add_zero, Nat.add_sub_cancel_left]
    exact flatten_slice L i hi
  · rw [List.getElem?_eq_none (by omega)]
    unfold csrRow
    have : (cumsum (0 :: L.map List.length))[i+1]? = none :=
      List.getElem?_eq_none (by simp [cumsum, length_cumsumFrom]; omega)
    rw [this]
    cases (cumsum (0 :: L.map List.length))[i]? <;> rfl

end Meshmode
