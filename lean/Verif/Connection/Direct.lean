import Verif.Np
import Verif.Mesh.Numbering
import Mathlib.Algebra.BigOperators.Group.Finset.Basic
import Mathlib.Algebra.BigOperators.Intervals
import Mathlib.Algebra.BigOperators.Ring.Finset
import Mathlib.Algebra.Ring.Defs
import Mathlib.Tactic.Ring

/-!
# Direct connections: model (C22, C23, C24)

meshmode/discretization/connection/direct.py.  A degree-of-freedom array is a function of group,
element and unit node; the sizes are those of the discretization.  Resampling matrices and pick
lists, which come from modepy and a point matching up to rounding, are functions of a source group
and the unit nodes of a batch.
-/
namespace Meshmode

open Finset

/-- An element group of a discretization: number of elements and unit nodes, the resampling matrix
to given unit nodes (`_resample_matrix`, meshmode/discretization/connection/direct.py:387-417) and,
if these are among the group's own unit nodes, the pick list (`_resample_point_pick_indices`,
meshmode/discretization/connection/direct.py:423-446). -/
structure DGroup (R U : Type) where
  nel : Nat
  ndof : Nat
  mat : U → Nat → Nat → R
  pick : U → Option (List Nat)

/-- `InterpolationBatch`, meshmode/discretization/connection/direct.py:78-149. -/
structure Batch (U : Type) where
  fromGroup : Nat
  fromEls : List Nat
  toEls : List Nat
  nodes : U
  face : Option Nat

/-- `DirectDiscretizationConnection`, meshmode/discretization/connection/direct.py:349-382. -/
structure DirectConn (R U : Type) where
  fromD : List (DGroup R U)
  toD : List (DGroup R U)
  groups : List (List (Batch U))
  surjective : Bool

/-- A degree-of-freedom array: group, element, unit node. Code: meshmode/dof_array.py:91-170. -/
abbrev DofArr (R : Type) := Nat → Nat → Nat → R

variable {R U : Type}

/-- `_global_from_element_indices`, meshmode/discretization/connection/direct.py:151-195: the
source element of target element `e`, if any.  Assignment through an index array: the last entry
stays. -/
def Batch.source (b : Batch U) (e : Nat) : Option Nat := (b.toEls.zip b.fromEls).reverse.lookup e

section
variable [CommRing R]

/-- Contribution of one batch, meshmode/discretization/connection/direct.py:793-853. -/
def batchEval (fromD : List (DGroup R U)) (ary : DofArr R) (b : Batch U) (e i : Nat) : R :=
  match b.source e with
  | none => 0
  | some f =>
    match fromD[b.fromGroup]? with
    | none => 0
    | some g =>
      match g.pick b.nodes with
      | some I => ary b.fromGroup f (I.getD i 0)
      | none => ∑ j ∈ range g.ndof, g.mat b.nodes i j * ary b.fromGroup f j

/-- A target group evaluated batch by batch, meshmode/discretization/connection/direct.py:788-863;
batches without elements are skipped. -/
def batchPath (fromD : List (DGroup R U)) (ary : DofArr R) (batches : List (Batch U))
    (e i : Nat) : R :=
  ((batches.filter fun b => !b.fromEls.isEmpty).map fun b => batchEval fromD ary b e i).sum

/-- `_FromGroupPickData`, meshmode/discretization/connection/direct.py:202-258: presence and source
element are kept in one optional value. -/
structure PickData where
  fromGroup : Nat
  lists : List (List Nat)
  idx : Nat → Nat
  src : Nat → Option Nat

/-- What `_per_target_group_pick_info` does: raise, return `None`, or return data.
Code: meshmode/discretization/connection/direct.py:482-569. -/
inductive PickOutcome
  | raises
  | unused
  | used (data : List PickData)

/-- The loop over the batches of one source group,
meshmode/discretization/connection/direct.py:526-549; `none` if a target element comes up again. -/
def pickFill (lists : List (List Nat)) : List (Batch U × List Nat) → (Nat → Nat) →
    (Nat → Option Nat) → Option ((Nat → Nat) × (Nat → Option Nat))
  | [], idx, src => some (idx, src)
  | (b, I) :: rest, idx, src =>
    if b.toEls.any fun e => (src e).isSome then none
    else
      pickFill lists rest
        (fun e => if e ∈ b.toEls then lists.idxOf I else idx e)
        (fun e => match b.source e with
          | some f => some f
          | none => src e)

/-- The loop over source groups, meshmode/discretization/connection/direct.py:508-569 (the index of
a pick list is an `int8`). -/
def pickSources (bs : List (Batch U × List Nat)) : List Nat → List PickData → PickOutcome
  | [], acc => .used acc
  | s :: rest, acc =>
    let mine := bs.filter fun p => p.1.fromGroup == s
    let lists := firstOccs (mine.map Prod.snd)
    if lists.length - 1 > 127 then .raises
    else
      match pickFill lists mine (fun _ => 0) (fun _ => none) with
      | none => .unused
      | some (idx, src) => pickSources bs rest (acc ++ [⟨s, lists, idx, src⟩])

/-- `_per_target_group_pick_info`, meshmode/discretization/connection/direct.py:482-569. -/
def pickInfo (fromD : List (DGroup R U)) (batches : List (Batch U)) : PickOutcome :=
  match batches.mapM fun b => (fromD[b.fromGroup]?.bind fun g => g.pick b.nodes).map (b, ·) with
  | none => .unused
  | some bs => if batches = [] then .unused
    else pickSources bs (npUnique (batches.map Batch.fromGroup)) []

/-- One merged pick, meshmode/discretization/connection/direct.py:689-725, 738-787. -/
def pickEval (ary : DofArr R) (d : PickData) (e i : Nat) : R :=
  match d.src e with
  | none => 0
  | some f => ary d.fromGroup f ((d.lists.getD (d.idx e) []).getD i 0)

/-- One target group of `__call__`, meshmode/discretization/connection/direct.py:729-867; `merge` is
`not _force_no_merged_batches`; `none` if the pick data raises.  A source group without data is
skipped. -/
def groupCall (merge : Bool) (fromD : List (DGroup R U)) (ary : DofArr R)
    (batches : List (Batch U)) : Option (Nat → Nat → R) :=
  match pickInfo fromD batches with
  | .raises => none
  | .unused => some (batchPath fromD ary batches)
  | .used data =>
    if merge then
      some fun e i => ((data.filter fun d => match fromD[d.fromGroup]? with
        | some g => g.nel * g.ndof != 0
        | none => false).map fun d => pickEval ary d e i).sum
    else some (batchPath fromD ary batches)

/-- `DirectDiscretizationConnection.__call__` on an array,
meshmode/discretization/connection/direct.py:587-867.  `none` if it raises. -/
def DirectConn.call (c : DirectConn R U) (merge : Bool) (ary : DofArr R) : Option (DofArr R) :=
  (c.groups.mapM (groupCall merge c.fromD ary)).map fun gs g e i =>
    match gs[g]? with
    | some f => f e i
    | none => 0

/-- Number of degrees of freedom, `sum(grp.nelements*grp.nunit_dofs …)`,
meshmode/discretization/connection/direct.py:935-938. -/
def dofCount (D : List (DGroup R U)) : Nat := (D.map fun g => g.nel * g.ndof).sum

/-- `from_group_starts`, `tgt_node_nr_base`, meshmode/discretization/connection/direct.py:940-945,
966. -/
def dofStart (D : List (DGroup R U)) (g : Nat) : Nat := dofCount (D.take g)

/-- `flatten` of a degree-of-freedom array: group by group, element by element.
Code: meshmode/discretization/connection/direct.py:876-940 (and meshmode/dof_array.py:415-417). -/
def flattenDof (D : List (DGroup R U)) (ary : DofArr R) : List R :=
  D.zipIdx.flatMap fun p => (List.range p.1.nel).flatMap fun e =>
    (List.range p.1.ndof).map fun i => ary p.2 e i

/-- The kernel `oversample_mat`, meshmode/discretization/connection/direct.py:899-933: each element
writes one block; the last block written stays. -/
def batchMatrix (tb sb ndt nds : Nat) (mat : Nat → Nat → R) (b : Batch U) (r j : Nat) : R :=
  ((b.toEls.zip b.fromEls).reverse.findSome? fun p =>
    if tb + p.1 * ndt ≤ r ∧ r < tb + p.1 * ndt + ndt ∧
      sb + p.2 * nds ≤ j ∧ j < sb + p.2 * nds + nds
    then some (mat (r - (tb + p.1 * ndt)) (j - (sb + p.2 * nds))) else none).getD 0

/-- The matrices of all batches with elements, meshmode/discretization/connection/direct.py:947-966.
-/
def DirectConn.mats (c : DirectConn R U) : List (Nat → Nat → R) :=
  (c.toD.zip c.groups).zipIdx.flatMap fun p =>
    (p.1.2.filter fun b => !b.fromEls.isEmpty).filterMap fun b =>
      c.fromD[b.fromGroup]?.map fun g =>
        batchMatrix (dofStart c.toD p.2) (dofStart c.fromD b.fromGroup) p.1.1.ndof g.ndof
          (g.mat b.nodes) b

/-- `make_direct_full_resample_matrix`, meshmode/discretization/connection/direct.py:876-968.
`none`: there is no matrix, the result is the integer 0 (`sum` of an empty list). -/
def DirectConn.matrix (c : DirectConn R U) : Option (Nat → Nat → R) :=
  if c.mats = [] then none else some fun r j => (c.mats.map fun m => m r j).sum

end

/-- Index arrays and unit nodes fit the discretizations, and each batch sets a target element at most once.
(Specification or proof vocabulary, no code.) -/
structure DirectConn.Valid (c : DirectConn R U) : Prop where
  ngroups : c.groups.length = c.toD.length
  batch : ∀ (t : Nat) bs tg, c.groups[t]? = some bs → c.toD[t]? = some tg → ∀ b ∈ bs,
    b.fromEls.length = b.toEls.length ∧ b.toEls.Nodup ∧ (∀ e ∈ b.toEls, e < tg.nel) ∧
    ∃ g, c.fromD[b.fromGroup]? = some g ∧ (∀ f ∈ b.fromEls, f < g.nel) ∧
      ∀ I, g.pick b.nodes = some I → I.length = tg.ndof

/-- A pick list says which columns of the resampling matrix are ones (this is what
`_resample_point_pick_indices` promises, up to rounding).
(Specification or proof vocabulary, no code.) -/
def PickSound [CommRing R] (g : DGroup R U) : Prop :=
  ∀ u I, g.pick u = some I → ∀ i < I.length, I.getD i 0 < g.ndof ∧
    ∀ j, g.mat u i j = if j = I.getD i 0 then 1 else 0

end Meshmode
