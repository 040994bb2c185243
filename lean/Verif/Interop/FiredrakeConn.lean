import Verif.Np
import Mathlib.Data.Matrix.Mul
import Mathlib.Data.List.FinRange
import Mathlib.Data.Fin.VecNotation
import Mathlib.Algebra.BigOperators.Fin
import Mathlib.LinearAlgebra.Matrix.Notation
import Mathlib.Logic.Function.Basic
import Mathlib.Tactic.FinCases
import Mathlib.Tactic.NormNum
import Mathlib.Tactic.Ring
import Mathlib.Algebra.Order.Field.Rat

/-!
# Transfer to and from Firedrake (C49)

`FiredrakeConnection.from_firedrake`, `from_meshmode` and `_reorder_nodes`
(meshmode/interop/firedrake/connection.py).
-/
namespace Meshmode
open Matrix

variable {K : Type} [CommRing K]

/-! ## Model -/

/-- A `FiredrakeConnection`, meshmode/interop/firedrake/connection.py:139-238.  The discretization has `ng`
groups, group `g` having `nel g` elements of `nu g` nodes; the Firedrake space has `N` nodes (all entries of
the node mapping are valid). -/
structure FdConn (K : Type) (ng N : Nat) (nel nu : Fin ng → Nat) where
  group : Fin ng
  mapping : Fin (nel group) → Fin (nu group) → Fin N
  fd2mm : Matrix (Fin (nu group)) (Fin (nu group)) K
  mm2fd : Matrix (Fin (nu group)) (Fin (nu group)) K

/-- Values at the nodes of a discretization.
Code: meshmode/interop/firedrake/connection.py:440-580. -/
abbrev MmField (K : Type) {ng : Nat} (nel nu : Fin ng → Nat) := (g : Fin ng) → Fin (nel g) → Fin (nu g) → K

variable {ng N : Nat} {nel nu : Fin ng → Nat}

/-- The check of the constructor, meshmode/interop/firedrake/connection.py:209-211: the entries of the
mapping (flattened) are unique; `none` is the `ValueError`. -/
def FdConn.make (c : FdConn K ng N nel nu) : Option (FdConn K ng N nel nu) :=
  let flat := (List.finRange (nel c.group)).flatMap fun e =>
    (List.finRange (nu c.group)).map fun k => c.mapping e k
  if flat.dedup.length = flat.length then some c else none

/-- `reorder_and_resample`, meshmode/interop/firedrake/connection.py:452-459, and `from_firedrake`, 384-477,
for one component of the values: the group's values in `out` are replaced. -/
def FdConn.fromFiredrake (c : FdConn K ng N nel nu) (fd : Fin N → K) (out : MmField K nel nu) :
    MmField K nel nu :=
  Function.update out c.group fun e k => ∑ j, fd (c.mapping e j) * c.fd2mm k j

/-- Assignment `fd_data[mapping] = values`, in the order of the array.
Code: meshmode/interop/firedrake/connection.py:559-560. -/
def fdScatter {m n : Nat} (mapping : Fin m → Fin n → Fin N) (vals : Fin m → Fin n → K)
    (fd : Fin N → K) : Fin N → K :=
  ((List.finRange m).flatMap fun e => (List.finRange n).map fun k => (e, k)).foldl
    (fun fd p => Function.update fd (mapping p.1 p.2) (vals p.1 p.2)) fd

/-- `resample_and_reorder`, meshmode/interop/firedrake/connection.py:550-561, and `from_meshmode`, 479-577, for
one component; `out` is the data of the function supplied, or `none`, in which case zeros are used. -/
def FdConn.fromMeshmode (c : FdConn K ng N nel nu) (u : MmField K nel nu) (out : Option (Fin N → K)) :
    Fin N → K :=
  fdScatter c.mapping (fun e k => ∑ j, u c.group e j * c.mm2fd k j) (out.getD fun _ => 0)

/-- `_reorder_nodes` for one element, meshmode/interop/firedrake/connection.py:54-84, with `flip_mat` the
rounded matrix. -/
def reorderNodes {n : Nat} (orient : Int) (nodes : Fin n → Int) (flip : Matrix (Fin n) (Fin n) Int) :
    Option (Fin n → Int) :=
  if flip * flip = 1 then some (if orient < 0 then flip.mulVec nodes else nodes) else none

/-! ## Lemmas -/

omit [CommRing K] in
theorem foldl_update {ι : Type} [DecidableEq ι] {α : Type} (l : List α) (f : α → ι) (v : α → K)
    (fd : ι → K) (i : ι) :
    ((∀ a ∈ l, f a ≠ i) → l.foldl (fun fd a => Function.update fd (f a) (v a)) fd i = fd i) ∧
    (∀ a ∈ l, f a = i → (∀ b ∈ l, f b = i → v b = v a) →
      l.foldl (fun fd a => Function.update fd (f a) (v a)) fd i = v a) := by
  induction l generalizing fd with
  | nil => simp
  | cons x l ih =>
    constructor
    · intro h
      rw [List.foldl_cons, (ih _).1 fun a ha => h a (by simp [ha])]
      exact Function.update_of_ne (h x (by simp)).symm _ _
    · intro a ha hfa hall
      rw [List.foldl_cons]
      by_cases hex : ∃ b ∈ l, f b = i
      · obtain ⟨b, hb, hfb⟩ := hex
        rw [(ih _).2 b hb hfb, hall b (by simp [hb]) hfb]
        intro d hd hfd
        rw [hall d (by simp [hd]) hfd, hall b (by simp [hb]) hfb]
      · have hex' : ∀ b ∈ l, f b ≠ i := fun b hb h => hex ⟨b, hb, h⟩
        rw [(ih _).1 hex']
        rcases List.mem_cons.1 ha with rfl | ha
        · rw [hfa, Function.update_self]
        · exact absurd hfa (hex' a ha)

omit [CommRing K] in
theorem fdScatter_of_mem {m n : Nat} {mapping : Fin m → Fin n → Fin N}
    (hinj : ∀ e k e' k', mapping e k = mapping e' k' → e = e' ∧ k = k')
    (vals : Fin m → Fin n → K) (fd : Fin N → K) (e : Fin m) (k : Fin n) :
    fdScatter mapping vals fd (mapping e k) = vals e k := by
  unfold fdScatter
  refine (foldl_update _ (fun p : Fin m × Fin n => mapping p.1 p.2) (fun p => vals p.1 p.2) fd
    (mapping e k)).2 (e, k) ?_ rfl ?_
  · simp
  · rintro ⟨e', k'⟩ _ h
    obtain ⟨rfl, rfl⟩ := hinj _ _ _ _ h
    rfl

omit [CommRing K] in
theorem scatter_of_not_mem {m n : Nat} {mapping : Fin m → Fin n → Fin N}
    (vals : Fin m → Fin n → K) (fd : Fin N → K) (i : Fin N) (h : ∀ e k, mapping e k ≠ i) :
    fdScatter mapping vals fd i = fd i := by
  unfold fdScatter
  exact (foldl_update _ (fun p : Fin m × Fin n => mapping p.1 p.2) (fun p => vals p.1 p.2) fd i).1
    fun p _ => h p.1 p.2

omit [CommRing K] in
theorem FdConn.make_injective {c c' : FdConn K ng N nel nu} (h : c.make = some c') :
    c' = c ∧ ∀ e k e' k', c.mapping e k = c.mapping e' k' → e = e' ∧ k = k' := by
  unfold FdConn.make at h
  simp only at h
  split at h
  · rename_i hd
    simp only [Option.some.injEq] at h
    refine ⟨h.symm, ?_⟩
    have hnd : ((List.finRange (nel c.group)).flatMap fun e =>
        (List.finRange (nu c.group)).map fun k => c.mapping e k).Nodup := by
      rw [← List.dedup_eq_self]
      exact (List.dedup_sublist _).eq_of_length hd
    rw [List.nodup_flatMap] at hnd
    intro e k e' k' hk
    have he : e = e' := by
      by_contra hne
      have hp := hnd.2
      have : Std.Symm fun e e' : Fin (nel c.group) => e ≠ e' →
          List.Disjoint ((List.finRange (nu c.group)).map fun k => c.mapping e k)
            ((List.finRange (nu c.group)).map fun k => c.mapping e' k) :=
        ⟨fun a b h hab => (h (Ne.symm hab)).symm⟩
      have := List.Pairwise.forall_of_forall (l := List.finRange (nel c.group))
        (R := fun e e' => e ≠ e' → List.Disjoint ((List.finRange (nu c.group)).map fun k => c.mapping e k)
          ((List.finRange (nu c.group)).map fun k => c.mapping e' k))
        (fun a _ h => absurd rfl h)
        (by refine List.Pairwise.imp ?_ hp; intro a b h _; exact h) (List.mem_finRange e) (List.mem_finRange e') hne
      exact this (List.mem_map.2 ⟨k, by simp, rfl⟩) (List.mem_map.2 ⟨k', by simp, hk.symm⟩)
    subst he
    refine ⟨rfl, ?_⟩
    exact List.inj_on_of_nodup_map (hnd.1 e (by simp)) (by simp) (by simp) hk
  · simp at h

/-! ## Properties -/

/-- C49: to Firedrake and back gives the original values (the matrices being inverse), whatever the output
function held and the output array of the way back held for this group; other groups of the array given for
the way back keep their values. -/
theorem C49_round_trip {c c' : FdConn K ng N nel nu} (hc : c.make = some c')
    (hm : c.fd2mm * c.mm2fd = 1) (u out' : MmField K nel nu) (out : Option (Fin N → K)) :
    c'.fromFiredrake (c'.fromMeshmode u out) out' c.group = u c.group ∧
    ∀ g, g ≠ c.group → c'.fromFiredrake (c'.fromMeshmode u out) out' g = out' g := by
  obtain ⟨rfl, hinj⟩ := c.make_injective hc
  constructor
  · unfold FdConn.fromFiredrake
    rw [Function.update_self]
    funext e k
    unfold FdConn.fromMeshmode
    simp only [fdScatter_of_mem hinj]
    calc ∑ j, (∑ l, u c'.group e l * c'.mm2fd j l) * c'.fd2mm k j
        = ∑ l, u c'.group e l * ∑ j, c'.fd2mm k j * c'.mm2fd j l := by
          simp only [Finset.sum_mul, Finset.mul_sum]
          rw [Finset.sum_comm]
          exact Finset.sum_congr rfl fun l _ => Finset.sum_congr rfl fun j _ => by ring
      _ = ∑ l, u c'.group e l * (1 : Matrix (Fin (nu c'.group)) (Fin (nu c'.group)) K) k l := by
          refine Finset.sum_congr rfl fun l _ => ?_
          rw [← hm, Matrix.mul_apply]
      _ = u c'.group e k := by
          simp [Matrix.one_apply]
  · intro g hg
    unfold FdConn.fromFiredrake
    exact Function.update_of_ne hg _ _

/-- C49: to meshmode and back into the same function changes nothing. -/
theorem C49_reverse_round_trip {c c' : FdConn K ng N nel nu} (hc : c.make = some c')
    (hm : c.mm2fd * c.fd2mm = 1) (fd : Fin N → K) (out : MmField K nel nu) :
    c'.fromMeshmode (c'.fromFiredrake fd out) (some fd) = fd := by
  obtain ⟨rfl, hinj⟩ := c.make_injective hc
  funext i
  unfold FdConn.fromMeshmode
  by_cases h : ∃ e k, c'.mapping e k = i
  · obtain ⟨e, k, rfl⟩ := h
    rw [fdScatter_of_mem hinj]
    unfold FdConn.fromFiredrake
    rw [Function.update_self]
    calc ∑ j, (∑ l, fd (c'.mapping e l) * c'.fd2mm j l) * c'.mm2fd k j
        = ∑ l, fd (c'.mapping e l) * ∑ j, c'.mm2fd k j * c'.fd2mm j l := by
          simp only [Finset.sum_mul, Finset.mul_sum]
          rw [Finset.sum_comm]
          exact Finset.sum_congr rfl fun l _ => Finset.sum_congr rfl fun j _ => by ring
      _ = ∑ l, fd (c'.mapping e l) *
            (1 : Matrix (Fin (nu c'.group)) (Fin (nu c'.group)) K) k l := by
          refine Finset.sum_congr rfl fun l _ => ?_
          rw [← hm, Matrix.mul_apply]
      _ = fd (c'.mapping e k) := by
          simp [Matrix.one_apply]
  · have : ∀ e k, c'.mapping e k ≠ i := fun e k he => h ⟨e, k, he⟩
    rw [scatter_of_not_mem _ _ _ this]
    rfl

/-- C49: nodes outside the mapped cells keep the values of a supplied function, and are zero otherwise. -/
theorem C49_unmapped (c : FdConn K ng N nel nu) (u : MmField K nel nu) (i : Fin N)
    (h : ∀ e k, c.mapping e k ≠ i) :
    (∀ out, c.fromMeshmode u (some out) i = out i) ∧ c.fromMeshmode u none i = 0 := by
  unfold FdConn.fromMeshmode
  exact ⟨fun out => scatter_of_not_mem _ _ _ h, scatter_of_not_mem _ _ _ h⟩

/-- C49: what the values at mapped nodes are. -/
theorem C49_values {c c' : FdConn K ng N nel nu} (hc : c.make = some c') (u : MmField K nel nu)
    (out : Option (Fin N → K)) (e : Fin (nel c.group)) (k : Fin (nu c.group)) :
    c.fromMeshmode u out (c.mapping e k) = (c.mm2fd.mulVec (u c.group e)) k := by
  obtain ⟨_, hinj⟩ := c.make_injective hc
  unfold FdConn.fromMeshmode
  rw [fdScatter_of_mem hinj, Matrix.mulVec, dotProduct]
  exact Finset.sum_congr rfl fun j _ => mul_comm _ _

omit [CommRing K] in
/-- The constructor takes exactly the injective mappings. -/
theorem C49_constructor (c : FdConn K ng N nel nu) :
    c.make = some c ↔ ∀ e k e' k', c.mapping e k = c.mapping e' k' → e = e' ∧ k = k' := by
  constructor
  · exact fun h => (c.make_injective h).2
  · intro h
    unfold FdConn.make
    simp only
    rw [if_pos]
    congr 1
    rw [List.dedup_eq_self]
    rw [List.nodup_flatMap]
    constructor
    · intro e _
      exact (List.nodup_finRange _).map fun k k' hk => (h e k e k' hk).2
    · refine (List.nodup_finRange _).imp ?_
      intro e e' hne x hx hx'
      obtain ⟨k, _, rfl⟩ := List.mem_map.1 hx
      obtain ⟨k', _, hk⟩ := List.mem_map.1 hx'
      exact hne (h _ _ _ _ hk).1.symm

/-- Node reordering with a permutation matrix: the nodes of negatively oriented cells are permuted, those of
others are not; doing it twice gives the nodes back. -/
theorem C49_reorder {n : Nat} (σ : Fin n → Fin n) (nodes : Fin n → Int) (orient : Int)
    {r : Fin n → Int}
    (h : reorderNodes orient nodes (Matrix.of fun i j => if σ i = j then 1 else 0) = some r) :
    (orient < 0 → ∀ i, r i = nodes (σ i)) ∧ (¬ orient < 0 → r = nodes) ∧
    reorderNodes orient r (Matrix.of fun i j => if σ i = j then 1 else 0) = some nodes := by
  unfold reorderNodes at h ⊢
  split at h
  · rename_i h2
    simp only [Option.some.injEq] at h
    subst h
    refine ⟨?_, ?_, ?_⟩
    · intro ho i
      rw [if_pos ho]
      simp [Matrix.mulVec, dotProduct]
    · intro ho
      rw [if_neg ho]
    · rw [if_pos h2]
      split
      · rw [Matrix.mulVec_mulVec, h2, Matrix.one_mulVec]
      · rfl
  · simp at h

/-- One group of two elements of two nodes, in a space with five nodes. -/
def exFdConn : FdConn ℚ 1 5 (fun _ => 2) (fun _ => 2) where
  group := 0
  mapping := fun e k => ⟨(2 * e + k), by omega⟩
  fd2mm := !![1, 1; 0, 1]
  mm2fd := !![1, -1; 0, 1]

example : (exFdConn.make).isSome ∧ exFdConn.fd2mm * exFdConn.mm2fd = 1 ∧
    exFdConn.mm2fd * exFdConn.fd2mm = 1 ∧ ∀ e k, exFdConn.mapping e k ≠ 4 := by
  refine ⟨by decide +kernel, ?_, ?_, ?_⟩
  · ext i j
    fin_cases i <;> fin_cases j <;> norm_num [exFdConn, Matrix.mul_apply, Fin.sum_univ_two]
  · ext i j
    fin_cases i <;> fin_cases j <;> norm_num [exFdConn, Matrix.mul_apply, Fin.sum_univ_two]
  · decide

end Meshmode
