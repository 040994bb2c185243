import Verif.Interop.FiredrakeExport
import Verif.Mesh.Flip

/-!
# Export of meshes to Firedrake: coordinates of nodes and the connection (C82)

`export_mesh_to_firedrake` (meshmode/interop/firedrake/mesh.py) and `build_connection_to_firedrake`
(meshmode/interop/firedrake/connection.py).  Points of the reference simplex are given by barycentric coordinates,
arithmetic is exact.
-/
namespace Meshmode
open Matrix

variable {K : Type} [Field K] {d n : Nat}

/-! ## Model -/

/-- `flipped_bary_unit_nodes[permutation_ary, :] = bary_unit_nodes`, at one node.
Code: meshmode/mesh/processing.py:714-724. -/
def flipBary (σ : Equiv.Perm (Fin (d + 1))) (b : Fin (d + 1) → K) : Fin (d + 1) → K := fun i => b (σ.symm i)

/-- One axis of `resampled_group_nodes` in one element: the nodes of the element resampled to the unit nodes of
Firedrake. `φ` is the basis, `z` the unit nodes of the group, `x` those of Firedrake.
Code: meshmode/interop/firedrake/mesh.py:956-967. -/
noncomputable def resampledNodes (φ : Fin n → (Fin (d + 1) → K) → K) (z x : Fin n → Fin (d + 1) → K)
    (u : Fin n → K) : Fin n → K := (vandermonde φ x * (vandermonde φ z)⁻¹) *ᵥ u

/-- The same after the flip: `np.matmul(resampled_group_nodes[:, cells, :], flip_mat.T)` with the flip matrix
rounded to integers (`rint`). Code: meshmode/interop/firedrake/mesh.py:971-979. -/
noncomputable def exportedNodes (rint : K → K) (φ : Fin n → (Fin (d + 1) → K) → K)
    (z x : Fin n → Fin (d + 1) → K) (σ : Equiv.Perm (Fin (d + 1))) (u : Fin n → K) : Fin n → K :=
  (Matrix.of fun k l => rint (flipMatrix φ x (flipBary σ) k l)) *ᵥ resampledNodes φ z x u

/-- `coords.dat.data[reordered_cell_node_list, :] = …`: of several values for a node the last stays.  One pair of a
node number and a point for every node of every element, in order.
Code: meshmode/interop/firedrake/mesh.py:981-986. -/
def storeNodes {P : Type} (data : List P) (vals : List (Nat × P)) : List P :=
  vals.foldl (fun t p => t.set p.1 p.2) data

/-- One row of `mm2fd_node_mapping`: `np.matmul(fd_cell_node[…], flip_mat.T)` with the flip matrix of the inverse
permutation `np.argsort(perm)`, for the unit nodes `y` of the `DG` space; `nodes` is the row of `cell_node_list`.
Code: meshmode/interop/firedrake/connection.py:796-821. -/
noncomputable def connectionRow (rint : K → K) (φ : Fin n → (Fin (d + 1) → K) → K) (y : Fin n → Fin (d + 1) → K)
    (σ : Equiv.Perm (Fin (d + 1))) (nodes : Fin n → K) : Fin n → K :=
  (Matrix.of fun k l => rint (flipMatrix φ y (flipBary σ⁻¹) k l)) *ᵥ nodes

/-! ## Specification -/

/-- The unit nodes do not change, as a set, when barycentric coordinates are permuted.
(Specification or proof vocabulary, no code.) -/
def SymmetricNodes (x : Fin n → Fin (d + 1) → K) : Prop :=
  ∀ σ : Equiv.Perm (Fin (d + 1)), ∀ k, ∃ l, flipBary σ (x k) = x l

/-- Permuting barycentric coordinates does not lead out of the space of functions.
(Specification or proof vocabulary, no code.) -/
def SymmetricSpace (φ : Fin n → (Fin (d + 1) → K) → K) : Prop :=
  ∀ σ : Equiv.Perm (Fin (d + 1)), ∃ R : Matrix (Fin n) (Fin n) K, ∀ k y, φ k (flipBary σ y) = ∑ l, R k l * φ l y

/-! ## Lemmas -/

omit [Field K] in
theorem flipBary_inv (σ : Equiv.Perm (Fin (d + 1))) (b : Fin (d + 1) → K) : flipBary σ⁻¹ (flipBary σ b) = b := by
  funext i
  exact congrArg b (σ.symm_apply_apply i)

omit [Field K] in
theorem flipBary_inv' (σ : Equiv.Perm (Fin (d + 1))) (b : Fin (d + 1) → K) : flipBary σ (flipBary σ⁻¹ b) = b := by
  funext i
  simp [flipBary, ← Equiv.Perm.inv_def]

theorem resampledNodes_apply (φ : Fin n → (Fin (d + 1) → K) → K) (z x : Fin n → Fin (d + 1) → K) (u : Fin n → K)
    (k : Fin n) : resampledNodes φ z x u k = nodalInterp φ z u (x k) := by
  unfold resampledNodes nodalInterp
  rw [← Matrix.mulVec_mulVec]
  simp only [Matrix.mulVec, dotProduct, vandermonde]
  exact Finset.sum_congr rfl fun l _ => mul_comm _ _

theorem nodes_injective {X : Type} {φ : Fin n → X → K} {x : Fin n → X} (hV : IsUnit (vandermonde φ x).det) :
    Function.Injective x := by
  intro a b hab
  by_contra hne
  have : (vandermonde φ x).det = 0 := Matrix.det_zero_of_row_eq hne (by funext k; simp [vandermonde, hab])
  rw [this] at hV
  exact not_isUnit_zero hV

/-- The flip matrix of symmetric nodes is a permutation matrix. -/
theorem flipMatrix_perm {X : Type} {φ : Fin n → X → K} {x : Fin n → X} (hV : IsUnit (vandermonde φ x).det)
    {r : X → X} {τ : Fin n → Fin n} (hτ : ∀ k, r (x k) = x (τ k)) (k l : Fin n) :
    flipMatrix φ x r k l = if l = τ k then 1 else 0 := by
  have h : vandermonde φ (fun j => r (x j)) = (Matrix.of fun k l => if l = τ k then (1 : K) else 0) * vandermonde φ x := by
    ext a b
    simp [vandermonde, Matrix.mul_apply, hτ]
  unfold flipMatrix
  rw [h, Matrix.mul_assoc, Matrix.mul_nonsing_inv _ hV, Matrix.mul_one]
  rfl

theorem flip_apply {X : Type} {φ : Fin n → X → K} {x : Fin n → X} (hV : IsUnit (vandermonde φ x).det)
    {rint : K → K} (h0 : rint 0 = 0) (h1 : rint 1 = 1)
    {r : X → X} {τ : Fin n → Fin n} (hτ : ∀ k, r (x k) = x (τ k)) (u : Fin n → K) (k : Fin n) :
    ((Matrix.of fun k l => rint (flipMatrix φ x r k l)) *ᵥ u) k = u (τ k) := by
  simp only [Matrix.mulVec, dotProduct, Matrix.of_apply, flipMatrix_perm hV hτ]
  rw [Finset.sum_eq_single (τ k)]
  · simp [h1]
  · intro b _ hb
    simp [hb, h0]
  · simp

/-- Interpolation gives back functions of the space. -/
theorem nodalInterp_eq {X : Type} {φ : Fin n → X → K} {x : Fin n → X} (hV : IsUnit (vandermonde φ x).det)
    (c : Fin n → K) (y : X) : nodalInterp φ x (fun k => ∑ l, c l * φ l (x k)) y = ∑ l, c l * φ l y := by
  have : (fun k => ∑ l, c l * φ l (x k)) = vandermonde φ x *ᵥ c := by
    funext k
    simp only [Matrix.mulVec, dotProduct, vandermonde]
    exact Finset.sum_congr rfl fun l _ => mul_comm _ _
  unfold nodalInterp
  rw [this, Matrix.mulVec_mulVec, Matrix.nonsing_inv_mul _ hV, Matrix.one_mulVec]

theorem nodalInterp_node {X : Type} {φ : Fin n → X → K} {x : Fin n → X} (hV : IsUnit (vandermonde φ x).det)
    (u : Fin n → K) (k : Fin n) : nodalInterp φ x u (x k) = u k := by
  have h : nodalInterp φ x u (x k) = (vandermonde φ x *ᵥ ((vandermonde φ x)⁻¹ *ᵥ u)) k := by
    unfold nodalInterp
    simp only [Matrix.mulVec, dotProduct, vandermonde]
    exact Finset.sum_congr rfl fun l _ => mul_comm _ _
  rw [h, Matrix.mulVec_mulVec, Matrix.mul_nonsing_inv _ hV, Matrix.one_mulVec]

/-! ## Properties -/

/-- **C82.** The point stored at Firedrake's node `k` is the point of the element at the place with permuted
barycentric coordinates. -/
theorem C82_nodes {rint : K → K} (h0 : rint 0 = 0) (h1 : rint 1 = 1) {φ : Fin n → (Fin (d + 1) → K) → K}
    {z x : Fin n → Fin (d + 1) → K} (hx : IsUnit (vandermonde φ x).det) (hs : SymmetricNodes x)
    (σ : Equiv.Perm (Fin (d + 1))) (u : Fin n → K) (k : Fin n) :
    exportedNodes rint φ z x σ u k = nodalInterp φ z u (flipBary σ (x k)) := by
  choose τ hτ using hs σ
  unfold exportedNodes
  rw [flip_apply hx h0 h1 hτ, resampledNodes_apply, ← hτ]

/-- **C82.** The cell of Firedrake is the curved element: the coordinates at every point of Firedrake's reference
cell are those of the element at the point with permuted barycentric coordinates. -/
theorem C82_geometry {rint : K → K} (h0 : rint 0 = 0) (h1 : rint 1 = 1) {φ : Fin n → (Fin (d + 1) → K) → K}
    {z x : Fin n → Fin (d + 1) → K} (hx : IsUnit (vandermonde φ x).det) (hs : SymmetricNodes x)
    (hφ : SymmetricSpace φ) (σ : Equiv.Perm (Fin (d + 1))) (u : Fin n → K) (b : Fin (d + 1) → K) :
    nodalInterp φ x (exportedNodes rint φ z x σ u) b = nodalInterp φ z u (flipBary σ b) := by
  obtain ⟨R, hR⟩ := hφ σ
  have key : ∀ y, nodalInterp φ z u (flipBary σ y) =
      ∑ l, (∑ k, ((vandermonde φ z)⁻¹ *ᵥ u) k * R k l) * φ l y := by
    intro y
    unfold nodalInterp
    simp only [hR, Finset.mul_sum, Finset.sum_mul]
    rw [Finset.sum_comm]
    exact Finset.sum_congr rfl fun l _ => Finset.sum_congr rfl fun k _ => by ring
  have : exportedNodes rint φ z x σ u =
      fun k => ∑ l, (∑ k, ((vandermonde φ z)⁻¹ *ᵥ u) k * R k l) * φ l (x k) := by
    funext k
    rw [C82_nodes h0 h1 hx hs, key]
  rw [this, nodalInterp_eq hx, key]

/-- **C82.** In particular Firedrake's vertex `j` of the cell is at the place of vertex `σ j` of the element, as
the permutations say (`C82_permutations`). -/
theorem C82_vertices {rint : K → K} (h0 : rint 0 = 0) (h1 : rint 1 = 1) {φ : Fin n → (Fin (d + 1) → K) → K}
    {z x : Fin n → Fin (d + 1) → K} (hx : IsUnit (vandermonde φ x).det) (hs : SymmetricNodes x)
    (hφ : SymmetricSpace φ) (σ : Equiv.Perm (Fin (d + 1))) (u : Fin n → K) (j : Fin (d + 1)) :
    nodalInterp φ x (exportedNodes rint φ z x σ u) (Pi.single j 1) = nodalInterp φ z u (Pi.single (σ j) 1) := by
  rw [C82_geometry h0 h1 hx hs hφ]
  congr 1
  funext i
  by_cases h : i = σ j
  · subst h
    simp [flipBary]
  · have h' : σ.symm i ≠ j := fun e => h (by rw [← e, Equiv.apply_symm_apply])
    rw [Pi.single_eq_of_ne h]
    exact Pi.single_eq_of_ne h' 1

theorem length_storeNodes {P : Type} (data : List P) (vals : List (Nat × P)) :
    (storeNodes data vals).length = data.length := foldl_set_length vals data

/-- **C82.** All elements have their nodes in the Firedrake mesh exactly if elements sharing a node of Firedrake
have it at the same place. -/
theorem C82_stored_iff {P : Type} {data : List P} {vals : List (Nat × P)} (h : ∀ p ∈ vals, p.1 < data.length) :
    (∀ p ∈ vals, (storeNodes data vals)[p.1]? = some p.2) ↔ ∀ p ∈ vals, ∀ q ∈ vals, p.1 = q.1 → p.2 = q.2 := by
  constructor
  · intro H p hp q hq hpq
    have h1 := H p hp
    rw [hpq, H q hq, Option.some.injEq] at h1
    exact h1.symm
  · intro H p hp
    have key : ∀ (vs : List (Nat × P)) (t : List P), t.length = data.length → (∀ q ∈ vs, q ∈ vals) →
        (p ∈ vs ∨ t[p.1]? = some p.2) → (storeNodes t vs)[p.1]? = some p.2 := by
      intro vs
      induction vs with
      | nil =>
        intro t _ _ h'
        rcases h' with h' | h'
        · simp at h'
        · exact h'
      | cons q vs ih =>
        intro t ht hsub h'
        have hp1 := h p hp
        refine ih (t.set q.1 q.2) (by rw [List.length_set, ht]) (fun q' hq' => hsub q' (List.mem_cons_of_mem _ hq')) ?_
        by_cases hpq : p.1 = q.1
        · refine .inr ?_
          rw [H p hp q (hsub q List.mem_cons_self) hpq, hpq, List.getElem?_set_self (by omega)]
        · rcases h' with h' | h'
          · rcases List.mem_cons.1 h' with h' | h'
            · exact absurd (by rw [h']) hpq
            · exact .inl h'
          · refine .inr ?_
            rw [List.getElem?_set_ne (Ne.symm hpq)]
            exact h'
    exact key vals data rfl (fun _ h => h) (.inl hp)

/-- **C82.** The permutation computed from the order of vertices is one of the kind above, and `np.argsort` of it is its
inverse. -/
theorem C82_inverse {p : List Nat} (hp : p.Perm (List.range (d + 1))) : ∃ σ : Equiv.Perm (Fin (d + 1)),
    (∀ j : Fin (d + 1), p[j.val]? = some (σ j).val) ∧ ∀ i : Fin (d + 1), (npArgsort p)[i.val]? = some (σ⁻¹ i).val := by
  have hl : p.length = d + 1 := by rw [hp.length_eq, List.length_range]
  have hp' : p.Perm (List.range p.length) := by rw [hl]; exact hp
  have hinv : ∀ i : Fin (d + 1), ∃ j : Fin (d + 1), (npArgsort p)[i.val]? = some j.val ∧ p[j.val]? = some i.val := by
    intro i
    obtain ⟨j, h1, h2⟩ := npArgsort_inverse hp' (k := i.val) (by rw [hl]; exact i.isLt)
    have hj := (List.getElem?_eq_some_iff.1 h2).1
    exact ⟨⟨j, by omega⟩, h1, h2⟩
  have hfwd : ∀ j : Fin (d + 1), ∃ i : Fin (d + 1), p[j.val]? = some i.val := by
    intro j
    have hj : j.val < p.length := by rw [hl]; exact j.isLt
    have := List.mem_range.1 (hp.mem_iff.1 (List.getElem_mem hj))
    exact ⟨⟨p[j.val], this⟩, List.getElem?_eq_getElem hj⟩
  choose f hf using hfwd
  choose g hg1 hg2 using hinv
  have hn : p.Nodup := hp.nodup_iff.2 List.nodup_range
  have hfg : ∀ i, f (g i) = i := by
    intro i
    have := (hf (g i)).symm.trans (hg2 i)
    exact Fin.ext (by simpa using this)
  have hgf : ∀ j, g (f j) = j := by
    intro j
    have h1 := (hg2 (f j)).trans (hf j).symm
    exact Fin.ext ((List.getElem?_inj (by rw [hl]; exact (g (f j)).isLt) hn).1 h1)
  exact ⟨⟨f, g, hgf, hfg⟩, hf, hg1⟩

/-- **C82.** The connection to Firedrake: the row of an element names the nodes of its Firedrake cell, each once, and the
node named for node `m` of the element is where the element has that node.  `y` are the unit nodes of the `DG` space
and `ψ` its basis; the coordinates are as exported. -/
theorem C82_connection {rint : K → K} (h0 : rint 0 = 0) (h1 : rint 1 = 1) {n' : Nat}
    {φ : Fin n → (Fin (d + 1) → K) → K} {ψ : Fin n' → (Fin (d + 1) → K) → K}
    {z x : Fin n → Fin (d + 1) → K} {y : Fin n' → Fin (d + 1) → K} (hx : IsUnit (vandermonde φ x).det)
    (hy : IsUnit (vandermonde ψ y).det) (hs : SymmetricNodes x) (hs' : SymmetricNodes y) (hφ : SymmetricSpace φ)
    (σ : Equiv.Perm (Fin (d + 1))) (u : Fin n → K) :
    ∃ τ : Equiv.Perm (Fin n'), ∀ m, (∀ nodes : Fin n' → K, connectionRow rint ψ y σ nodes m = nodes (τ m)) ∧
      nodalInterp φ x (exportedNodes rint φ z x σ u) (y (τ m)) = nodalInterp φ z u (y m) := by
  choose τ hτ using hs' σ⁻¹
  choose ρ hρ using hs' σ
  have hinj := nodes_injective hy
  have h12 : ∀ m, ρ (τ m) = m := fun m => hinj (by rw [← hρ, ← hτ, flipBary_inv'])
  have h21 : ∀ m, τ (ρ m) = m := fun m => hinj (by rw [← hτ, ← hρ, flipBary_inv])
  refine ⟨⟨τ, ρ, h12, h21⟩, fun m => ⟨fun nodes => ?_, ?_⟩⟩
  · exact flip_apply hy h0 h1 hτ nodes m
  · rw [C82_geometry h0 h1 hx hs hφ]
    congr 1
    show flipBary σ (y (τ m)) = y m
    rw [hρ, h12]

/-! ## Examples -/

/-- The barycentric coordinates of the vertices. (Example, no code.) -/
def exVertexNodes : Fin 3 → Fin 3 → ℚ := fun k => Pi.single k 1

/-- Linear functions on a triangle. (Example, no code.) -/
def exLinear : Fin 3 → (Fin 3 → ℚ) → ℚ := fun k b => b k

example : IsUnit (vandermonde exLinear exVertexNodes).det := by
  have : vandermonde exLinear exVertexNodes = 1 := by
    ext i j
    simp only [vandermonde, exLinear, exVertexNodes, Matrix.one_apply, Pi.single_apply]
    simp only [eq_comm]
  rw [this]
  simp

example : SymmetricNodes (d := 2) exVertexNodes := by
  intro σ k
  refine ⟨σ k, ?_⟩
  funext i
  simp only [flipBary, exVertexNodes, Pi.single_apply, Equiv.symm_apply_eq]

example : SymmetricSpace (d := 2) exLinear := by
  intro σ
  refine ⟨Matrix.of fun k l => if l = σ.symm k then 1 else 0, fun k y => ?_⟩
  simp [exLinear, flipBary]

example : storeNodes [0, 0, 0] [(0, 5), (1, 6), (1, 6), (2, 7)] = [5, 6, 7] := by decide

/-- **C82.** If two elements do not agree at a common node, the one exported last wins. -/
theorem C82_discontinuous_counterexample : ∃ (data : List Nat) (vals : List (Nat × Nat)),
    (∀ p ∈ vals, p.1 < data.length) ∧ ∃ p ∈ vals, (storeNodes data vals)[p.1]? ≠ some p.2 :=
  ⟨[0, 0, 0], [(0, 5), (1, 6), (1, 8), (2, 7)], by decide, (1, 6), by decide, by decide⟩

end Meshmode
