import Verif.Np
import Mathlib.Algebra.BigOperators.Group.List.Basic
import Mathlib.Algebra.BigOperators.Ring.List
import Mathlib.Algebra.Field.Defs
import Mathlib.Algebra.Field.Rat
import Mathlib.Data.List.Forall2
import Mathlib.Tactic.Ring
import Mathlib.Tactic.Linarith

/-!
# Modal and nodal data (C61)

`NodalToModalDiscretizationConnection` and `ModalToNodalDiscretizationConnection`
(meshmode/discretization/connection/modal.py).  Arithmetic is exact; `la.inv` is a parameter.  An array
of a group is a list of elements, each a list of values, so the shape of arrays without elements is not
checked.  Array containers other than `DOFArray` are not modelled.
-/
namespace Meshmode

/-! ## Model -/

/-- The three cases of the loop of `__call__`,
meshmode/discretization/connection/modal.py:217-239. -/
inductive NodalKind where
  /-- `QuadratureSimplexElementGroup` -/
  | quadrature
  /-- another interpolatory group -/
  | interpolatory
  /-- anything else -/
  | other
  deriving DecidableEq, Repr

/-- A nodal element group: unit nodes (of type `P`), basis functions, weights and exactness of its
quadrature rule, and `discretization_key()` (`none` if that raises `NotImplementedError`).
Code: meshmode/discretization/poly_element.py:190-690. -/
structure NodalGroup (K P A : Type) where
  kind : NodalKind
  nodes : List P
  basis : List (P → K)
  weights : List K
  exactTo : Nat
  key : Option A

/-- A modal element group: its orthonormal basis functions, order and key.
Code: meshmode/discretization/poly_element.py:157-180, 473-486. -/
structure ModalGroup (K P A : Type) where
  basis : List (P → K)
  order : Nat
  key : Option A

/-- An element group. Code: meshmode/discretization/__init__.py:468-482. -/
inductive AnyGroup (K P A : Type) where
  | nodal (g : NodalGroup K P A)
  | modal (g : ModalGroup K P A)

/-- A discretization: the identity of its mesh, and its groups.
Code: meshmode/discretization/__init__.py:380-440. -/
structure MDiscr (K P A : Type) where
  mesh : Nat
  groups : List (AnyGroup K P A)

/-- The nodal group, if it is one (`is_nodal`), meshmode/discretization/__init__.py:468-473. -/
def AnyGroup.nodal? {K P A : Type} : AnyGroup K P A → Option (NodalGroup K P A)
  | .nodal g => some g
  | .modal _ => none

/-- The modal group, if it is one (`is_modal`), meshmode/discretization/__init__.py:477-482. -/
def AnyGroup.modal? {K P A : Type} : AnyGroup K P A → Option (ModalGroup K P A)
  | .nodal _ => none
  | .modal g => some g

/-- Exceptions. Code: meshmode/discretization/connection/modal.py:118-128, 204-239, 296-339. -/
inductive ModalErr where
  /-- `ValueError`: not nodal -/
  | notNodal
  /-- `ValueError`: not modal -/
  | notModal
  /-- `ValueError`: different meshes -/
  | meshes
  /-- `ValueError`: number of groups of the argument -/
  | shape
  /-- `ValueError`: quadrature not exact -/
  | inexact
  /-- `NotImplementedError` from `discretization_key` -/
  | noKey
  /-- `NotImplementedError`: unknown group type -/
  | unknownGroup
  /-- `LinAlgError` of `la.inv` -/
  | singular
  /-- `einsum`: sizes do not match -/
  | einsum
  /-- `IndexError` -/
  | index
  deriving DecidableEq, Repr

/-- Matrices, by rows. Code: meshmode/discretization/connection/modal.py:147-151. -/
abbrev Mat (K : Type) := List (List K)

/-- The caches of the three `keyed_memoize_in`, which belong to the array context,
meshmode/discretization/connection/modal.py:141-146, 165-167, 343-347. -/
structure ModalCache (K A : Type) where
  quad : List ((A × A) × Mat K) := []
  inv : List (A × Mat K) := []
  eval : List ((A × A) × Mat K) := []

/-- `keyed_memoize_in`: the stored value, or the value computed now.
Code: meshmode/discretization/connection/modal.py:141-146. -/
def memo {κ α : Type} [BEq κ] (cache : List (κ × α)) (k : κ) (compute : Except ModalErr α) :
    Except ModalErr α × List (κ × α) :=
  match cache.lookup k with
  | some a => (.ok a, cache)
  | none =>
    match compute with
    | .ok a => (.ok a, (k, a) :: cache)
    | .error e => (.error e, cache)

section
variable {K P A : Type} [Field K] [DecidableEq A]

/-- `mp.vandermonde(functions, nodes)`: one row per node, one column per function.
Code: meshmode/discretization/connection/modal.py:148, 169, 349. -/
def vdmMatrix (basis : List (P → K)) (nodes : List P) : Mat K :=
  nodes.map fun x => basis.map fun φ => φ x

/-- One row times one vector. Code: meshmode/discretization/connection/modal.py:157-159. -/
def rowDot (row v : List K) : K := (List.zipWith (· * ·) row v).sum

/-- Matrix times vector. Code: meshmode/discretization/connection/modal.py:157-159. -/
def matVec (M : Mat K) (v : List K) : List K := M.map fun row => rowDot row v

/-- `actx.einsum("ij,ej->ei", mat, ary)`, meshmode/discretization/connection/modal.py:157-159, 177-179,
357-360. -/
def einsumRows (M : Mat K) (ary : List (List K)) : Except ModalErr (List (List K)) :=
  if ary.all fun v => M.all fun row => row.length == v.length then .ok (ary.map (matVec M))
  else .error .einsum

/-- The matrix of `_project_via_quadrature`: transposed Vandermonde matrix of the modal basis at the
nodes, times the diagonal matrix of the weights (of which there is one for each node),
meshmode/discretization/connection/modal.py:147-155. -/
def quadratureMatrix (grp : NodalGroup K P A) (mgrp : ModalGroup K P A) : Mat K :=
  mgrp.basis.map fun ψ => List.zipWith (fun x w => ψ x * w) grp.nodes grp.weights

/-- `_project_via_quadrature`, meshmode/discretization/connection/modal.py:137-159. -/
def projectViaQuadrature (cache : ModalCache K A) (ary : List (List K)) (grp : NodalGroup K P A)
    (mgrp : ModalGroup K P A) : Except ModalErr (List (List K)) × ModalCache K A :=
  match grp.key, mgrp.key with
  | some k, some k' =>
    let r := memo cache.quad (k, k') (.ok (quadratureMatrix grp mgrp))
    (r.1.bind fun M => einsumRows M ary, { cache with quad := r.2 })
  | _, _ => (.error .noKey, cache)

/-- `vandermonde_inverse`, meshmode/discretization/connection/modal.py:168-175; `inv` is `la.inv`. -/
def vandermondeInverse (inv : Mat K → Option (Mat K)) (grp : NodalGroup K P A) :
    Except ModalErr (Mat K) :=
  match inv (vdmMatrix grp.basis grp.nodes) with
  | some N => .ok N
  | none => .error .singular

/-- `_compute_coeffs_via_inv_vandermonde`, meshmode/discretization/connection/modal.py:161-179. -/
def coeffsViaInverse (inv : Mat K → Option (Mat K)) (cache : ModalCache K A) (ary : List (List K))
    (grp : NodalGroup K P A) : Except ModalErr (List (List K)) × ModalCache K A :=
  match grp.key with
  | some k =>
    let r := memo cache.inv k (vandermondeInverse inv grp)
    (r.1.bind fun M => einsumRows M ary, { cache with inv := r.2 })
  | none => (.error .noKey, cache)

/-- The body of the loop of `NodalToModalDiscretizationConnection.__call__`,
meshmode/discretization/connection/modal.py:213-239. -/
def toModalGroup (inv : Mat K → Option (Mat K)) (allow : Bool) (cache : ModalCache K A)
    (ary : List (List K)) (grp : NodalGroup K P A) (mgrp : ModalGroup K P A) :
    Except ModalErr (List (List K)) × ModalCache K A :=
  match grp.kind with
  | .quadrature =>
    if grp.exactTo < 2 * mgrp.order ∧ allow = false then (.error .inexact, cache)
    else projectViaQuadrature cache ary grp mgrp
  | .interpolatory => coeffsViaInverse inv cache ary grp
  | .other => (.error .unknownGroup, cache)

/-- The loops over the groups of the two `__call__` methods,
meshmode/discretization/connection/modal.py:211-243, 356-363: `f` treats one group.  What has been
cached stays so when a group raises. -/
def groupLoop (f : ModalCache K A → List (List K) → NodalGroup K P A → ModalGroup K P A →
      Except ModalErr (List (List K)) × ModalCache K A) :
    List (NodalGroup K P A) → List (ModalGroup K P A) → List (List (List K)) → ModalCache K A →
      Except ModalErr (List (List (List K))) × ModalCache K A
  | [], _, _, cache => (.ok [], cache)
  | grp :: grps, mgrp :: mgrps, ary :: arys, cache =>
    match f cache ary grp mgrp with
    | (.error e, cache) => (.error e, cache)
    | (.ok r, cache) =>
      match groupLoop f grps mgrps arys cache with
      | (.error e, cache) => (.error e, cache)
      | (.ok rs, cache) => (.ok (r :: rs), cache)
  | _ :: _, _, _, cache => (.error .index, cache)

/-- A connection between nodal and modal data.
Code: meshmode/discretization/connection/modal.py:104-135, 286-311. -/
structure ModalConn (K P A : Type) where
  nodal : List (NodalGroup K P A)
  modal : List (ModalGroup K P A)
  allow : Bool

/-- `NodalToModalDiscretizationConnection.__init__`,
meshmode/discretization/connection/modal.py:104-135. -/
def makeNodalToModal (fromD toD : MDiscr K P A) (allow : Bool) : Except ModalErr (ModalConn K P A) :=
  match fromD.groups.mapM AnyGroup.nodal? with
  | none => .error .notNodal
  | some ns =>
    match toD.groups.mapM AnyGroup.modal? with
    | none => .error .notModal
    | some ms => if toD.mesh ≠ fromD.mesh then .error .meshes else .ok ⟨ns, ms, allow⟩

/-- `NodalToModalDiscretizationConnection.__call__` on a `DOFArray`,
meshmode/discretization/connection/modal.py:204-243. -/
def ModalConn.toModal (inv : Mat K → Option (Mat K)) (c : ModalConn K P A)
    (ary : List (List (List K))) (cache : ModalCache K A) :
    Except ModalErr (List (List (List K))) × ModalCache K A :=
  if ary.length ≠ c.nodal.length then (.error .shape, cache)
  else groupLoop (toModalGroup inv c.allow) c.nodal c.modal ary cache

/-- One group of `ModalToNodalDiscretizationConnection.__call__`,
meshmode/discretization/connection/modal.py:341-363. -/
def toNodalGroup (cache : ModalCache K A) (ary : List (List K)) (grp : NodalGroup K P A)
    (mgrp : ModalGroup K P A) : Except ModalErr (List (List K)) × ModalCache K A :=
  match grp.key, mgrp.key with
  | some k, some k' =>
    let r := memo cache.eval (k, k') (.ok (vdmMatrix mgrp.basis grp.nodes))
    (r.1.bind fun M => einsumRows M ary, { cache with eval := r.2 })
  | _, _ => (.error .noKey, cache)

/-- `ModalToNodalDiscretizationConnection.__init__`,
meshmode/discretization/connection/modal.py:286-311. -/
def makeModalToNodal (fromD toD : MDiscr K P A) : Except ModalErr (ModalConn K P A) :=
  match fromD.groups.mapM AnyGroup.modal? with
  | none => .error .notModal
  | some ms =>
    match toD.groups.mapM AnyGroup.nodal? with
    | none => .error .notNodal
    | some ns => if toD.mesh ≠ fromD.mesh then .error .meshes else .ok ⟨ns, ms, false⟩

/-- `ModalToNodalDiscretizationConnection.__call__` on a `DOFArray`,
meshmode/discretization/connection/modal.py:335-363. -/
def ModalConn.toNodal (c : ModalConn K P A) (ary : List (List (List K))) (cache : ModalCache K A) :
    Except ModalErr (List (List (List K))) × ModalCache K A :=
  if ary.length ≠ c.modal.length then (.error .shape, cache)
  else groupLoop toNodalGroup c.nodal c.modal ary cache

/-! ## Specification -/

/-- The function with coefficients `c` in a basis, at a point.
(Specification or proof vocabulary, no code.) -/
def evalAt (basis : List (P → K)) (c : List K) (x : P) : K :=
  (List.zipWith (fun φ a => a * φ x) basis c).sum

/-- `N` is the inverse of the `n` by `n` matrix `M`. (Specification or proof vocabulary, no code.) -/
structure InverseOf (n : Nat) (M N : Mat K) : Prop where
  rows : N.length = n
  cols : ∀ row ∈ N, row.length = n
  left : ∀ v : List K, v.length = n → matVec N (matVec M v) = v
  right : ∀ v : List K, v.length = n → matVec M (matVec N v) = v

/-- `la.inv` returns inverses. (Specification or proof vocabulary, no code.) -/
def InvSound (inv : Mat K → Option (Mat K)) : Prop :=
  ∀ M N, inv M = some N → InverseOf M.length M N

/-- Groups with the same key have the same nodes, basis and quadrature weights, and modal groups with the
same key the same basis. (Specification or proof vocabulary, no code.) -/
structure ModalKeysSound (G : NodalGroup K P A → Prop) (H : ModalGroup K P A → Prop) : Prop where
  nodal : ∀ g g', G g → G g' → g.key ≠ none → g.key = g'.key →
    g.nodes = g'.nodes ∧ g.basis = g'.basis ∧ g.weights = g'.weights
  modal : ∀ m m', H m → H m' → m.key ≠ none → m.key = m'.key → m.basis = m'.basis

/-- What is stored is what would be computed. (Specification or proof vocabulary, no code.) -/
structure CacheSound (inv : Mat K → Option (Mat K)) (G : NodalGroup K P A → Prop)
    (H : ModalGroup K P A → Prop) (cache : ModalCache K A) : Prop where
  quad : ∀ k k' M, cache.quad.lookup (k, k') = some M → ∀ g m, G g → H m → g.key = some k →
    m.key = some k' → M = quadratureMatrix g m
  inv : ∀ k M, cache.inv.lookup k = some M → ∀ g, G g → g.key = some k →
    inv (vdmMatrix g.basis g.nodes) = some M
  eval : ∀ k k' M, cache.eval.lookup (k, k') = some M → ∀ g m, G g → H m → g.key = some k →
    m.key = some k' → M = vdmMatrix m.basis g.nodes

/-! ## Lemmas -/

omit [DecidableEq A] in
theorem matVec_vandermonde (basis : List (P → K)) (nodes : List P) (c : List K) :
    matVec (vdmMatrix basis nodes) c = nodes.map (evalAt basis c) := by
  unfold matVec vdmMatrix
  rw [List.map_map]
  apply List.map_congr_left
  intro x _
  simp only [Function.comp, rowDot, evalAt]
  rw [List.zipWith_map_left]
  congr 2
  funext φ a
  ring

omit [DecidableEq A] in
theorem einsumRows_ok {M : Mat K} {ary r : List (List K)} (h : einsumRows M ary = .ok r) :
    r = ary.map (matVec M) ∧ ∀ v ∈ ary, ∀ row ∈ M, row.length = v.length := by
  unfold einsumRows at h
  split at h
  · rename_i hc
    simp only [Except.ok.injEq] at h
    refine ⟨h.symm, ?_⟩
    simpa using hc
  · simp at h

omit [DecidableEq A] in
theorem einsumRows_of {M : Mat K} {ary : List (List K)}
    (h : ∀ v ∈ ary, ∀ row ∈ M, row.length = v.length) :
    einsumRows M ary = .ok (ary.map (matVec M)) := by
  unfold einsumRows
  rw [if_pos]
  simpa using h

theorem memo_cases {κ α : Type} [BEq κ] (cache : List (κ × α)) (k : κ)
    (compute : Except ModalErr α) :
    (∃ a, cache.lookup k = some a ∧ memo cache k compute = (.ok a, cache)) ∨
    (cache.lookup k = none ∧ ∃ a, compute = .ok a ∧ memo cache k compute = (.ok a, (k, a) :: cache)) ∨
    (∃ e, compute = .error e ∧ memo cache k compute = (.error e, cache)) := by
  unfold memo
  cases hl : cache.lookup k with
  | some a => exact .inl ⟨a, rfl, rfl⟩
  | none =>
    cases compute with
    | ok a => exact .inr (.inl ⟨rfl, a, rfl, rfl⟩)
    | error e => exact .inr (.inr ⟨e, rfl, rfl⟩)

/-- Memoization returns what would be computed, if what is stored is right. -/
theorem memo_fst {κ α : Type} [BEq κ] {cache : List (κ × α)} {k : κ}
    {compute : Except ModalErr α} (h : ∀ a, cache.lookup k = some a → compute = .ok a) :
    (memo cache k compute).1 = compute := by
  rcases memo_cases cache k compute with ⟨a, h1, h2⟩ | ⟨_, a, h1, h2⟩ | ⟨e, h1, h2⟩
  · rw [h2, h a h1]
  · rw [h2, h1]
  · rw [h2, h1]

/-- What is stored afterwards was there before or has been computed. -/
theorem memo_snd {κ α : Type} [BEq κ] [LawfulBEq κ] {cache : List (κ × α)} {k : κ}
    {compute : Except ModalErr α} {k' : κ} {a : α}
    (h : (memo cache k compute).2.lookup k' = some a) :
    cache.lookup k' = some a ∨ (k' = k ∧ compute = .ok a) := by
  rcases memo_cases cache k compute with ⟨b, h1, h2⟩ | ⟨_, b, h1, h2⟩ | ⟨e, h1, h2⟩
  · rw [h2] at h
    exact .inl h
  · rw [h2, List.lookup_cons] at h
    by_cases hk : k' = k
    · subst hk
      simp only [beq_self_eq_true, Option.some.injEq] at h
      exact .inr ⟨rfl, h ▸ h1⟩
    · have hb : (k' == k) = false := by simpa using hk
      rw [hb] at h
      exact .inl h
  · rw [h2] at h
    exact .inl h

/-- The conversion of one group without caches.
(Specification or proof vocabulary, no code.) -/
def toModalPlain (inv : Mat K → Option (Mat K)) (allow : Bool) (ary : List (List K))
    (g : NodalGroup K P A) (m : ModalGroup K P A) : Except ModalErr (List (List K)) :=
  (toModalGroup inv allow {} ary g m).1

/-- The conversion of one group without caches.
(Specification or proof vocabulary, no code.) -/
def toNodalPlain (ary : List (List K)) (g : NodalGroup K P A) (m : ModalGroup K P A) :
    Except ModalErr (List (List K)) :=
  (toNodalGroup {} ary g m).1

theorem toModalPlain_eq (inv : Mat K → Option (Mat K)) (allow : Bool) (ary : List (List K))
    (g : NodalGroup K P A) (m : ModalGroup K P A) :
    toModalPlain inv allow ary g m = match g.kind with
      | .quadrature =>
        if g.exactTo < 2 * m.order ∧ allow = false then .error .inexact
        else if g.key = none ∨ m.key = none then .error .noKey
        else einsumRows (quadratureMatrix g m) ary
      | .interpolatory =>
        if g.key = none then .error .noKey
        else match inv (vdmMatrix g.basis g.nodes) with
          | none => .error .singular
          | some N => einsumRows N ary
      | .other => .error .unknownGroup := by
  unfold toModalPlain toModalGroup
  cases g.kind with
  | quadrature =>
    simp only
    split
    · rfl
    · unfold projectViaQuadrature
      cases g.key <;> cases m.key <;> simp [memo, Except.bind]
  | interpolatory =>
    simp only
    unfold coeffsViaInverse vandermondeInverse
    cases g.key with
    | none => simp
    | some k =>
      cases inv (vdmMatrix g.basis g.nodes) <;> simp [memo, Except.bind]
  | other => rfl

theorem toNodalPlain_eq (ary : List (List K)) (g : NodalGroup K P A) (m : ModalGroup K P A) :
    toNodalPlain ary g m = if g.key = none ∨ m.key = none then .error .noKey
      else einsumRows (vdmMatrix m.basis g.nodes) ary := by
  unfold toNodalPlain toNodalGroup
  cases g.key <;> cases m.key <;> simp [memo, Except.bind]

variable {inv : Mat K → Option (Mat K)} {G : NodalGroup K P A → Prop} {H : ModalGroup K P A → Prop}

theorem toModalGroup_cache (hk : ModalKeysSound G H) {cache : ModalCache K A}
    (hc : CacheSound inv G H cache) (allow : Bool) (ary : List (List K)) {g : NodalGroup K P A}
    {m : ModalGroup K P A} (hg : G g) (hm : H m) :
    (toModalGroup inv allow cache ary g m).1 = toModalPlain inv allow ary g m ∧
    CacheSound inv G H (toModalGroup inv allow cache ary g m).2 := by
  rw [toModalPlain_eq]
  unfold toModalGroup
  cases g.kind with
  | other => exact ⟨rfl, hc⟩
  | quadrature =>
    simp only
    split
    · exact ⟨rfl, hc⟩
    · unfold projectViaQuadrature
      cases hgk : g.key with
      | none => exact ⟨by simp, hc⟩
      | some k =>
        cases hmk : m.key with
        | none => exact ⟨by simp, hc⟩
        | some k' =>
          refine ⟨?_, ?_, hc.inv, hc.eval⟩
          · simp only
            rw [memo_fst]
            · simp [Except.bind]
            · intro M hM
              rw [hc.quad k k' M hM g m hg hm hgk hmk]
          · intro k1 k2 M hM g' m' hg' hm' h1 h2
            rcases memo_snd hM with h | ⟨h, h3⟩
            · exact hc.quad _ _ M h g' m' hg' hm' h1 h2
            · simp only [Prod.mk.injEq] at h
              obtain ⟨rfl, rfl⟩ := h
              simp only [Except.ok.injEq] at h3
              obtain ⟨e1, _, e3⟩ := hk.nodal g g' hg hg' (by simp [hgk]) (by rw [hgk, h1])
              have e4 := hk.modal m m' hm hm' (by simp [hmk]) (by rw [hmk, h2])
              rw [← h3, quadratureMatrix, quadratureMatrix, e1, e3, e4]
  | interpolatory =>
    simp only
    unfold coeffsViaInverse
    cases hgk : g.key with
    | none => exact ⟨by simp, hc⟩
    | some k =>
      refine ⟨?_, hc.quad, ?_, hc.eval⟩
      · simp only
        rw [memo_fst]
        · unfold vandermondeInverse
          cases inv (vdmMatrix g.basis g.nodes) <;> simp [Except.bind]
        · intro M hM
          rw [vandermondeInverse, hc.inv k M hM g hg hgk]
      · intro k1 M hM g' hg' h1
        rcases memo_snd hM with h | ⟨rfl, h3⟩
        · exact hc.inv _ M h g' hg' h1
        · obtain ⟨e1, e2, _⟩ := hk.nodal g g' hg hg' (by simp [hgk]) (by rw [hgk, h1])
          rw [← e1, ← e2]
          unfold vandermondeInverse at h3
          split at h3
          · rename_i N hN
            rw [hN]
            simpa using h3
          · simp at h3

theorem toNodalGroup_cache (hk : ModalKeysSound G H) {cache : ModalCache K A}
    (hc : CacheSound inv G H cache) (ary : List (List K)) {g : NodalGroup K P A}
    {m : ModalGroup K P A} (hg : G g) (hm : H m) :
    (toNodalGroup cache ary g m).1 = toNodalPlain ary g m ∧
    CacheSound inv G H (toNodalGroup cache ary g m).2 := by
  rw [toNodalPlain_eq]
  unfold toNodalGroup
  cases hgk : g.key with
  | none => exact ⟨by simp, hc⟩
  | some k =>
    cases hmk : m.key with
    | none => exact ⟨by simp, hc⟩
    | some k' =>
      refine ⟨?_, hc.quad, hc.inv, ?_⟩
      · simp only
        rw [memo_fst]
        · simp [Except.bind]
        · intro M hM
          rw [hc.eval k k' M hM g m hg hm hgk hmk]
      · intro k1 k2 M hM g' m' hg' hm' h1 h2
        rcases memo_snd hM with h | ⟨h, h3⟩
        · exact hc.eval _ _ M h g' m' hg' hm' h1 h2
        · simp only [Prod.mk.injEq] at h
          obtain ⟨rfl, rfl⟩ := h
          simp only [Except.ok.injEq] at h3
          obtain ⟨e1, _, _⟩ := hk.nodal g g' hg hg' (by simp [hgk]) (by rw [hgk, h1])
          have e4 := hk.modal m m' hm hm' (by simp [hmk]) (by rw [hmk, h2])
          rw [← h3, e1, e4]

/-- The loop does not depend on the cache either. -/
theorem groupLoop_cache {f : ModalCache K A → List (List K) → NodalGroup K P A → ModalGroup K P A →
      Except ModalErr (List (List K)) × ModalCache K A}
    (hf : ∀ cache ary g m, CacheSound inv G H cache → G g → H m →
      (f cache ary g m).1 = (f {} ary g m).1 ∧ CacheSound inv G H (f cache ary g m).2)
    (h0 : CacheSound inv G H {}) (gs : List (NodalGroup K P A)) (ms : List (ModalGroup K P A))
    (hgs : ∀ g ∈ gs, G g) (hms : ∀ m ∈ ms, H m) (arys : List (List (List K)))
    (cache : ModalCache K A) (hc : CacheSound inv G H cache) :
    (groupLoop f gs ms arys cache).1 = (groupLoop f gs ms arys {}).1 ∧
    CacheSound inv G H (groupLoop f gs ms arys cache).2 := by
  -- both sides are compared with the loop over groups treated separately
  have key : ∀ (gs : List (NodalGroup K P A)) (ms : List (ModalGroup K P A))
      (arys : List (List (List K))), (∀ g ∈ gs, G g) → (∀ m ∈ ms, H m) →
      ∃ R : Except ModalErr (List (List (List K))), ∀ cache, CacheSound inv G H cache →
        (groupLoop f gs ms arys cache).1 = R ∧ CacheSound inv G H (groupLoop f gs ms arys cache).2 := by
    intro gs
    induction gs with
    | nil =>
      intro ms arys _ _
      refine ⟨.ok [], fun cache hc => ?_⟩
      simp [groupLoop, hc]
    | cons g gs ih =>
      intro ms arys hgs hms
      cases ms with
      | nil => exact ⟨.error .index, fun cache hc => by simp [groupLoop, hc]⟩
      | cons m ms =>
        cases arys with
        | nil => exact ⟨.error .index, fun cache hc => by simp [groupLoop, hc]⟩
        | cons a arys =>
          obtain ⟨R, hR⟩ := ih ms arys (fun g hg => hgs g (List.mem_cons_of_mem _ hg))
            (fun m hm => hms m (List.mem_cons_of_mem _ hm))
          have hfg := fun cache hc => hf cache a g m hc (hgs g List.mem_cons_self)
            (hms m List.mem_cons_self)
          cases h1 : (f {} a g m).1 with
          | error e =>
            refine ⟨.error e, fun cache hc => ?_⟩
            obtain ⟨e1, e2⟩ := hfg cache hc
            rw [h1] at e1
            rcases hfc : f cache a g m with ⟨r, cache'⟩
            rw [hfc] at e1 e2
            subst e1
            simp only [groupLoop, hfc]
            exact ⟨trivial, e2⟩
          | ok r =>
            cases R with
            | error e =>
              refine ⟨.error e, fun cache hc => ?_⟩
              obtain ⟨e1, e2⟩ := hfg cache hc
              rw [h1] at e1
              rcases hfc : f cache a g m with ⟨r', cache'⟩
              rw [hfc] at e1 e2
              subst e1
              simp only [groupLoop, hfc]
              obtain ⟨e3, e4⟩ := hR cache' e2
              rcases hl : groupLoop f gs ms arys cache' with ⟨rs, cache''⟩
              rw [hl] at e3 e4
              simp only at e3
              subst e3
              exact ⟨rfl, e4⟩
            | ok rs =>
              refine ⟨.ok (r :: rs), fun cache hc => ?_⟩
              obtain ⟨e1, e2⟩ := hfg cache hc
              rw [h1] at e1
              rcases hfc : f cache a g m with ⟨r', cache'⟩
              rw [hfc] at e1 e2
              subst e1
              simp only [groupLoop, hfc]
              obtain ⟨e3, e4⟩ := hR cache' e2
              rcases hl : groupLoop f gs ms arys cache' with ⟨rs', cache''⟩
              rw [hl] at e3 e4
              simp only at e3
              subst e3
              exact ⟨rfl, e4⟩
  obtain ⟨R, hR⟩ := key gs ms arys hgs hms
  exact ⟨by rw [(hR cache hc).1, (hR {} h0).1], (hR cache hc).2⟩

omit [DecidableEq A] in
theorem cacheSound_empty [DecidableEq A] : CacheSound inv G H ({} : ModalCache K A) where
  quad := by simp
  inv := by simp
  eval := by simp

/-- When the loop succeeds each group has been treated, with some sound cache. -/
theorem groupLoop_ok {f : ModalCache K A → List (List K) → NodalGroup K P A → ModalGroup K P A →
      Except ModalErr (List (List K)) × ModalCache K A}
    (hf : ∀ cache ary g m, CacheSound inv G H cache → G g → H m →
      (f cache ary g m).1 = (f {} ary g m).1 ∧ CacheSound inv G H (f cache ary g m).2)
    (gs : List (NodalGroup K P A)) (ms : List (ModalGroup K P A))
    (hgs : ∀ g ∈ gs, G g) (hms : ∀ m ∈ ms, H m) (arys : List (List (List K)))
    (cache : ModalCache K A) (hc : CacheSound inv G H cache) (rs : List (List (List K))) :
    (groupLoop f gs ms arys cache).1 = .ok rs ↔
      rs.length = gs.length ∧ gs.length ≤ ms.length ∧ gs.length ≤ arys.length ∧
      ∀ (i : Nat) g m a r, gs[i]? = some g → ms[i]? = some m → arys[i]? = some a → rs[i]? = some r →
        (f {} a g m).1 = .ok r := by
  induction gs generalizing ms arys cache rs with
  | nil =>
    simp only [groupLoop, Except.ok.injEq, List.length_nil, Nat.zero_le, List.getElem?_nil]
    constructor
    · rintro rfl
      simp
    · rintro ⟨h, _⟩
      exact (List.length_eq_zero_iff.1 h).symm
  | cons g gs ih =>
    cases ms with
    | nil => simp [groupLoop]
    | cons m ms =>
      cases arys with
      | nil => simp [groupLoop]
      | cons a arys =>
        obtain ⟨e1, e2⟩ := hf cache a g m hc (hgs g List.mem_cons_self) (hms m List.mem_cons_self)
        have ih' := fun cache' hc' rs' => ih ms (fun g hg => hgs g (List.mem_cons_of_mem _ hg))
          (fun m hm => hms m (List.mem_cons_of_mem _ hm)) arys cache' hc' rs'
        rcases hfc : f cache a g m with ⟨r', cache'⟩
        rw [hfc] at e1 e2
        simp only at e1 e2
        simp only [groupLoop, hfc]
        cases r' with
        | error e =>
          simp only [reduceCtorEq, false_iff, not_and]
          intro h1 _ _ h4
          cases rs with
          | nil => simp at h1
          | cons r rs =>
            have := h4 0 g m a r rfl rfl rfl rfl
            rw [← e1] at this
            simp at this
        | ok r' =>
          have h2 := ih' cache' e2
          rcases hl : groupLoop f gs ms arys cache' with ⟨rs', cache''⟩
          rw [hl] at h2
          simp only at h2
          cases rs with
          | nil =>
            cases rs' <;> simp [hl]
          | cons r rs =>
            have hall : (∀ (i : Nat) g' m' a' r'', (g :: gs)[i]? = some g' → (m :: ms)[i]? = some m' →
                (a :: arys)[i]? = some a' → (r :: rs)[i]? = some r'' → (f {} a' g' m').1 = .ok r'') ↔
                r = r' ∧ ∀ (i : Nat) g' m' a' r'', gs[i]? = some g' → ms[i]? = some m' →
                arys[i]? = some a' → rs[i]? = some r'' → (f {} a' g' m').1 = .ok r'' := by
              constructor
              · intro h
                refine ⟨?_, fun i => h (i + 1)⟩
                have := h 0 g m a r rfl rfl rfl rfl
                rw [← e1] at this
                simpa using this.symm
              · rintro ⟨rfl, h⟩ i
                cases i with
                | zero =>
                  rintro _ _ _ _ ⟨⟩ ⟨⟩ ⟨⟩ ⟨⟩
                  exact e1.symm
                | succ i => exact h i
            rw [hall]
            have h3 := h2 rs
            simp only [hl]
            cases rs' with
            | error e =>
              simp only [reduceCtorEq, false_iff] at h3 ⊢
              rintro ⟨h4, h5, h6, _, h7⟩
              exact h3 ⟨by simpa using h4, by simpa using h5, by simpa using h6, h7⟩
            | ok rs' =>
              simp only [Except.ok.injEq] at h3
              simp only [Except.ok.injEq, List.cons.injEq, h3, List.length_cons, Nat.add_right_cancel_iff,
                Nat.add_le_add_iff_right]
              constructor
              · rintro ⟨rfl, h4, h5, h6, h7⟩
                exact ⟨h4, h5, h6, rfl, h7⟩
              · rintro ⟨h4, h5, h6, rfl, h7⟩
                exact ⟨rfl, h4, h5, h6, h7⟩

/-! ## Properties -/

theorem toModal_ok (hk : ModalKeysSound G H) {cache : ModalCache K A} (hc : CacheSound inv G H cache)
    (c : ModalConn K P A) (hn : ∀ g ∈ c.nodal, G g) (hm : ∀ m ∈ c.modal, H m)
    (ary rs : List (List (List K))) :
    (c.toModal inv ary cache).1 = .ok rs ↔ ary.length = c.nodal.length ∧
      rs.length = c.nodal.length ∧ c.nodal.length ≤ c.modal.length ∧
      ∀ (i : Nat) g m a r, c.nodal[i]? = some g → c.modal[i]? = some m → ary[i]? = some a →
        rs[i]? = some r → toModalPlain inv c.allow a g m = .ok r := by
  unfold ModalConn.toModal
  by_cases h : ary.length = c.nodal.length
  · rw [if_neg (by simp [h]), groupLoop_ok (inv := inv) (G := G) (H := H)
      (f := toModalGroup inv c.allow) (fun cache ary g m hc hg hm => by
        have := toModalGroup_cache hk hc c.allow ary hg hm
        exact this) _ _ hn hm _ _ hc]
    simp only [h, le_refl, true_and]
    rfl
  · rw [if_pos h]
    simp [h]

theorem toNodal_ok (hk : ModalKeysSound G H) {cache : ModalCache K A} (hc : CacheSound inv G H cache)
    (c : ModalConn K P A) (hn : ∀ g ∈ c.nodal, G g) (hm : ∀ m ∈ c.modal, H m)
    (ary rs : List (List (List K))) :
    (c.toNodal ary cache).1 = .ok rs ↔ ary.length = c.modal.length ∧
      rs.length = c.nodal.length ∧ c.nodal.length ≤ c.modal.length ∧
      ∀ (i : Nat) g m a r, c.nodal[i]? = some g → c.modal[i]? = some m → ary[i]? = some a →
        rs[i]? = some r → toNodalPlain a g m = .ok r := by
  unfold ModalConn.toNodal
  by_cases h : ary.length = c.modal.length
  · rw [if_neg (by simp [h]), groupLoop_ok (inv := inv) (G := G) (H := H)
      (f := toNodalGroup) (fun cache ary g m hc hg hm => by
        have := toNodalGroup_cache hk hc ary hg hm
        exact this) _ _ hn hm _ _ hc]
    simp only [h, true_and]
    constructor
    · rintro ⟨h1, h2, _, h3⟩
      exact ⟨h1, h2, h3⟩
    · rintro ⟨h1, h2, h3⟩
      exact ⟨h1, h2, h2, h3⟩
  · rw [if_pos h]
    simp [h]

omit [Field K] [DecidableEq A] in
theorem mapM_nodal_iff (l : List (AnyGroup K P A)) :
    ∀ ns, l.mapM AnyGroup.nodal? = some ns ↔ l = ns.map .nodal := by
  induction l with
  | nil => intro ns; cases ns <;> simp
  | cons a l ih =>
    intro ns
    cases a with
    | modal g => cases ns <;> simp [AnyGroup.nodal?]
    | nodal g =>
      cases ns with
      | nil => simp [AnyGroup.nodal?, List.mapM_cons, Option.bind_eq_some_iff]
      | cons n ns =>
        simp [AnyGroup.nodal?, List.mapM_cons, ih, Option.bind_eq_some_iff]
        exact and_comm

omit [Field K] [DecidableEq A] in
theorem mapM_modal_iff (l : List (AnyGroup K P A)) :
    ∀ ns, l.mapM AnyGroup.modal? = some ns ↔ l = ns.map .modal := by
  induction l with
  | nil => intro ns; cases ns <;> simp
  | cons a l ih =>
    intro ns
    cases a with
    | nodal g => cases ns <;> simp [AnyGroup.modal?]
    | modal g =>
      cases ns with
      | nil => simp [AnyGroup.modal?, List.mapM_cons, Option.bind_eq_some_iff]
      | cons n ns =>
        simp [AnyGroup.modal?, List.mapM_cons, ih, Option.bind_eq_some_iff]
        exact and_comm

omit [Field K] [DecidableEq A] in
/-- C61: the connections are only made between a nodal and a modal discretization of one mesh. -/
theorem C61_constructor (fromD toD : MDiscr K P A) (allow : Bool) (c : ModalConn K P A) :
    makeNodalToModal fromD toD allow = .ok c ↔ fromD.mesh = toD.mesh ∧
      fromD.groups = c.nodal.map .nodal ∧ toD.groups = c.modal.map .modal ∧ c.allow = allow := by
  unfold makeNodalToModal
  obtain ⟨ns, ms, al⟩ := c
  cases h1 : fromD.groups.mapM AnyGroup.nodal? with
  | none =>
    simp only [reduceCtorEq, false_iff, not_and]
    intro _ h
    rw [(mapM_nodal_iff _ _).2 h] at h1
    simp at h1
  | some ns' =>
    cases h2 : toD.groups.mapM AnyGroup.modal? with
    | none =>
      simp only [reduceCtorEq, false_iff, not_and]
      intro _ _ h
      rw [(mapM_modal_iff _ _).2 h] at h2
      simp at h2
    | some ms' =>
      simp only [ne_eq, ite_not]
      rw [← mapM_nodal_iff, ← mapM_modal_iff, h1, h2]
      split
      · rename_i h
        simp [h]
        intro _ _
        exact eq_comm
      · rename_i h
        simp [Ne.symm h]

omit [Field K] [DecidableEq A] in
/-- C61: likewise in the other direction. -/
theorem C61_constructor_back (fromD toD : MDiscr K P A) (c : ModalConn K P A) :
    makeModalToNodal fromD toD = .ok c ↔ fromD.mesh = toD.mesh ∧
      fromD.groups = c.modal.map .modal ∧ toD.groups = c.nodal.map .nodal ∧ c.allow = false := by
  unfold makeModalToNodal
  obtain ⟨ns, ms, al⟩ := c
  cases h1 : fromD.groups.mapM AnyGroup.modal? with
  | none =>
    simp only [reduceCtorEq, false_iff, not_and]
    intro _ h
    rw [(mapM_modal_iff _ _).2 h] at h1
    simp at h1
  | some ms' =>
    cases h2 : toD.groups.mapM AnyGroup.nodal? with
    | none =>
      simp only [reduceCtorEq, false_iff, not_and]
      intro _ _ h
      rw [(mapM_nodal_iff _ _).2 h] at h2
      simp at h2
    | some ns' =>
      simp only [ne_eq, ite_not]
      rw [← mapM_nodal_iff, ← mapM_modal_iff, h1, h2]
      split
      · rename_i h
        simp only [h, Except.ok.injEq, ModalConn.mk.injEq, Option.some.injEq, true_and]
        constructor
        · rintro ⟨e1, e2, e3⟩
          exact ⟨e2, e1, e3.symm⟩
        · rintro ⟨e1, e2, e3⟩
          exact ⟨e2, e1, e3.symm⟩
      · rename_i h
        simp [Ne.symm h]

/-- C61: what has been done before on the same array context does not change the result, if groups with
the same key have the same nodes and basis. -/
theorem C61_cache_irrelevant (hk : ModalKeysSound G H) {cache : ModalCache K A}
    (hc : CacheSound inv G H cache) (c : ModalConn K P A) (hn : ∀ g ∈ c.nodal, G g)
    (hm : ∀ m ∈ c.modal, H m) (ary : List (List (List K))) :
    (c.toModal inv ary cache).1 = (c.toModal inv ary {}).1 ∧
    CacheSound inv G H (c.toModal inv ary cache).2 ∧
    (c.toNodal ary cache).1 = (c.toNodal ary {}).1 ∧
    CacheSound inv G H (c.toNodal ary cache).2 := by
  have h1 := groupLoop_cache (inv := inv) (G := G) (H := H) (f := toModalGroup inv c.allow)
    (fun cache ary g m hc hg hm => by
      have := toModalGroup_cache hk hc c.allow ary hg hm
      exact this) cacheSound_empty c.nodal c.modal hn hm ary cache hc
  have h2 := groupLoop_cache (inv := inv) (G := G) (H := H) (f := toNodalGroup)
    (fun cache ary g m hc hg hm => by
      have := toNodalGroup_cache hk hc ary hg hm
      exact this) cacheSound_empty c.nodal c.modal hn hm ary cache hc
  refine ⟨?_, ?_, ?_, ?_⟩
  · unfold ModalConn.toModal
    split
    · rfl
    · exact h1.1
  · unfold ModalConn.toModal
    split
    · exact hc
    · exact h1.2
  · unfold ModalConn.toNodal
    split
    · rfl
    · exact h2.1
  · unfold ModalConn.toNodal
    split
    · exact hc
    · exact h2.2

/-- C61: the nodal values are those of the function with the given coefficients in the modal basis, at
the unit nodes; there is a result if each group has keys and each element one coefficient for each basis
function. -/
theorem C61_modal_to_nodal (hk : ModalKeysSound G H) {cache : ModalCache K A}
    (hc : CacheSound inv G H cache) (c : ModalConn K P A) (hlen : c.nodal.length = c.modal.length)
    (hn : ∀ g ∈ c.nodal, G g) (hm : ∀ m ∈ c.modal, H m) {ary : List (List (List K))}
    (ha : ary.length = c.modal.length)
    (hkey : (∀ g ∈ c.nodal, g.key ≠ none) ∧ ∀ m ∈ c.modal, m.key ≠ none)
    (hsize : ∀ (i : Nat) m a, c.modal[i]? = some m → ary[i]? = some a → ∀ v ∈ a,
      v.length = m.basis.length) :
    (c.toNodal ary cache).1 = .ok ((c.nodal.zip (c.modal.zip ary)).map fun p =>
      p.2.2.map fun v => p.1.nodes.map (evalAt p.2.1.basis v)) := by
  rw [toNodal_ok hk hc c hn hm]
  refine ⟨ha, by simp [ha, hlen], hlen.le, ?_⟩
  intro i g m a r hg hm' hai hr
  have hr' : r = a.map fun v => g.nodes.map (evalAt m.basis v) := by
    rw [List.getElem?_map, List.getElem?_zip_eq_some (z := (g, m, a)).2
      ⟨hg, List.getElem?_zip_eq_some (z := (m, a)).2 ⟨hm', hai⟩⟩] at hr
    simpa using hr.symm
  rw [toNodalPlain_eq, if_neg, einsumRows_of, hr']
  · congr 1
    exact List.map_congr_left fun v _ => matVec_vandermonde _ _ _
  · intro v hv row hrow
    obtain ⟨x, _, rfl⟩ := List.mem_map.1 hrow
    rw [List.length_map, hsize i m a hm' hai v hv]
  · rintro (h | h)
    · exact hkey.1 g (List.mem_of_getElem? hg) h
    · exact hkey.2 m (List.mem_of_getElem? hm') h

/-- C61: for an interpolatory group the coefficients are those of the interpolant, in the group's own
basis: as many as there are nodes, and the function with these coefficients has the given values. -/
theorem C61_interpolant (hinv : InvSound inv) (hk : ModalKeysSound G H) {cache : ModalCache K A}
    (hc : CacheSound inv G H cache) {c : ModalConn K P A} (hn : ∀ g ∈ c.nodal, G g)
    (hm : ∀ m ∈ c.modal, H m) {ary res : List (List (List K))}
    (h : (c.toModal inv ary cache).1 = .ok res) {i : Nat} {g : NodalGroup K P A}
    {m : ModalGroup K P A} {a r : List (List K)} (hg : c.nodal[i]? = some g)
    (hm' : c.modal[i]? = some m) (ha : ary[i]? = some a) (hr : res[i]? = some r)
    (hki : g.kind = .interpolatory) (hne : g.nodes ≠ []) :
    List.Forall₂ (fun v cs => cs.length = g.nodes.length ∧ g.nodes.map (evalAt g.basis cs) = v) a r := by
  rw [toModal_ok hk hc c hn hm] at h
  · have h2 := h.2.2.2 i g m a r hg hm' ha hr
    rw [toModalPlain_eq, hki] at h2
    simp only at h2
    split at h2
    · simp at h2
    · split at h2
      · simp at h2
      · rename_i N hN
        obtain ⟨e1, e2⟩ := einsumRows_ok h2
        have hi := hinv _ _ hN
        rw [vdmMatrix, List.length_map] at hi
        rw [e1]
        rw [List.forall₂_map_right_iff, List.forall₂_same]
        intro v hv
        have hvl : v.length = g.nodes.length := by
          have hN0 : N ≠ [] := by
            rintro rfl
            have := hi.rows
            simp at this
            exact hne (List.eq_nil_of_length_eq_zero this.symm)
          obtain ⟨row, hrow⟩ := List.exists_mem_of_ne_nil N hN0
          rw [← e2 v hv row hrow, hi.cols row hrow]
        refine ⟨by simp [matVec, hi.rows], ?_⟩
        have := hi.right v hvl
        rwa [← vdmMatrix, matVec_vandermonde] at this

/-- The sum of the weights times the values of a function at the nodes.
(Specification or proof vocabulary, no code.) -/
def quadSum (g : NodalGroup K P A) (f : P → K) : K :=
  (List.zipWith (fun x w => w * f x) g.nodes g.weights).sum

/-- The modal basis is orthonormal with respect to the quadrature rule.
(Specification or proof vocabulary, no code.) -/
def QuadOrtho (g : NodalGroup K P A) (m : ModalGroup K P A) : Prop :=
  ∀ (i j : Nat) ψ ψ', m.basis[i]? = some ψ → m.basis[j]? = some ψ' →
    quadSum g (fun x => ψ x * ψ' x) = if i = j then 1 else 0

omit [DecidableEq A] in
/-- C61: a basis that is orthonormal with respect to an integral, with products of degree at most twice
the order, is orthonormal with respect to each rule that integrates those degrees exactly: this is what
the check of `exact_to` is for. -/
theorem C61_exact_rule {g : NodalGroup K P A} {m : ModalGroup K P A} (deg : Nat → (P → K) → Prop)
    (integral : (P → K) → K) (hdeg : ∀ d d' f, d ≤ d' → deg d f → deg d' f)
    (hexact : ∀ f, deg g.exactTo f → quadSum g f = integral f)
    (hprod : ∀ ψ ∈ m.basis, ∀ ψ' ∈ m.basis, deg (2 * m.order) fun x => ψ x * ψ' x)
    (hortho : ∀ (i j : Nat) ψ ψ', m.basis[i]? = some ψ → m.basis[j]? = some ψ' →
      integral (fun x => ψ x * ψ' x) = if i = j then 1 else 0)
    (hcheck : ¬ g.exactTo < 2 * m.order) : QuadOrtho g m := by
  intro i j ψ ψ' hi hj
  rw [hexact _ (hdeg _ _ _ (by omega) (hprod ψ (List.mem_of_getElem? hi) ψ' (List.mem_of_getElem? hj))),
    hortho i j ψ ψ' hi hj]

omit [DecidableEq A] in
theorem quadSum_linear (g : NodalGroup K P A) (ψ : P → K) (basis : List (P → K)) (v : List K) :
    quadSum g (fun x => ψ x * evalAt basis v x) =
      (List.zipWith (fun φ a => a * quadSum g (fun x => ψ x * φ x)) basis v).sum := by
  have hz : quadSum g (fun _ => (0 : K)) = 0 := by
    unfold quadSum
    apply List.sum_eq_zero
    intro y hy
    obtain ⟨p, _, rfl⟩ := List.mem_iff_getElem.1 hy
    simp
  have hadd : ∀ f h : P → K, quadSum g (fun x => f x + h x) = quadSum g f + quadSum g h := by
    intro f h
    unfold quadSum
    generalize g.nodes = xs
    generalize g.weights = ws
    induction xs generalizing ws with
    | nil => simp
    | cons x xs ih =>
      cases ws with
      | nil => simp
      | cons w ws =>
        simp only [List.zipWith_cons_cons, List.sum_cons, ih]
        ring
  have hmul : ∀ (a : K) (f : P → K), quadSum g (fun x => a * f x) = a * quadSum g f := by
    intro a f
    unfold quadSum
    generalize g.nodes = xs
    generalize g.weights = ws
    induction xs generalizing ws with
    | nil => simp
    | cons x xs ih =>
      cases ws with
      | nil => simp
      | cons w ws =>
        simp only [List.zipWith_cons_cons, List.sum_cons, ih]
        ring
  induction basis generalizing v with
  | nil => simp [evalAt, hz]
  | cons φ basis ih =>
    cases v with
    | nil => simp [evalAt, hz]
    | cons a v =>
      rw [List.zipWith_cons_cons, List.sum_cons, ← ih, ← hmul, ← hadd]
      congr 1
      funext x
      simp only [evalAt, List.zipWith_cons_cons, List.sum_cons]
      ring

omit [DecidableEq A] in
theorem sum_select (F : (P → K) → K) (basis : List (P → K)) (v : List K) (i : Nat)
    (hl : v.length = basis.length)
    (hF : ∀ (j : Nat) φ, basis[j]? = some φ → F φ = if i = j then 1 else 0) :
    (List.zipWith (fun φ a => a * F φ) basis v).sum = v.getD i 0 := by
  induction basis generalizing v i with
  | nil =>
    have : v = [] := by simpa using hl
    simp [this]
  | cons φ basis ih =>
    cases v with
    | nil => simp at hl
    | cons a v =>
      rw [List.zipWith_cons_cons, List.sum_cons, hF 0 φ rfl]
      cases i with
      | zero =>
        have hz : (List.zipWith (fun φ a => a * F φ) basis v).sum = 0 := by
          apply List.sum_eq_zero
          intro y hy
          obtain ⟨n, hn, rfl⟩ := List.mem_iff_getElem.1 hy
          have hb : n < basis.length := by
            simp at hn
            omega
          have := hF (n + 1) basis[n] (by simp [hb])
          simp [this]
        rw [hz]
        simp
      | succ i =>
        rw [ih v i (by simpa using hl) fun j φ hj => by
          have := hF (j + 1) φ (by simpa using hj)
          simpa using this]
        simp

omit [DecidableEq A] in
theorem quadratureMatrix_left {g : NodalGroup K P A} {m : ModalGroup K P A} (ho : QuadOrtho g m)
    {v : List K} (hv : v.length = m.basis.length) :
    matVec (quadratureMatrix g m) (g.nodes.map (evalAt m.basis v)) = v := by
  have hrow : ∀ (ψ : P → K) (f : P → K), rowDot (List.zipWith (fun x w => ψ x * w) g.nodes g.weights)
      (g.nodes.map f) = quadSum g fun x => ψ x * f x := by
    intro ψ f
    unfold rowDot quadSum
    generalize g.nodes = xs
    generalize g.weights = ws
    induction xs generalizing ws with
    | nil => simp
    | cons x xs ih =>
      cases ws with
      | nil => simp
      | cons w ws =>
        simp only [List.zipWith_cons_cons, List.map_cons, List.sum_cons, ih]
        ring
  apply List.ext_getElem?
  intro i
  unfold matVec quadratureMatrix
  rw [List.map_map, List.getElem?_map]
  cases hi : m.basis[i]? with
  | none =>
    rw [List.getElem?_eq_none_iff] at hi
    rw [List.getElem?_eq_none (by omega)]
    rfl
  | some ψ =>
    have hil := (List.getElem?_eq_some_iff.1 hi).1
    simp only [Option.map_some, Function.comp]
    rw [hrow, quadSum_linear, sum_select _ _ _ i hv fun j φ hj => ho i j ψ φ hi hj,
      List.getElem?_eq_getElem (by omega), List.getD_eq_getElem?_getD, List.getElem?_eq_getElem (by omega)]
    rfl

/-- C61: for a quadrature group the coefficients are the sums of weight, mode and value over the nodes,
and each element has as many values as there are nodes with weights. -/
theorem C61_projection (hk : ModalKeysSound G H) {cache : ModalCache K A}
    (hc : CacheSound inv G H cache) {c : ModalConn K P A} (hn : ∀ g ∈ c.nodal, G g)
    (hm : ∀ m ∈ c.modal, H m) {ary res : List (List (List K))}
    (h : (c.toModal inv ary cache).1 = .ok res) {i : Nat} {g : NodalGroup K P A}
    {m : ModalGroup K P A} {a r : List (List K)} (hg : c.nodal[i]? = some g)
    (hm' : c.modal[i]? = some m) (ha : ary[i]? = some a) (hr : res[i]? = some r)
    (hki : g.kind = .quadrature) :
    (2 * m.order ≤ g.exactTo ∨ c.allow = true) ∧
    (m.basis ≠ [] → ∀ v ∈ a, min g.nodes.length g.weights.length = v.length) ∧
    r = a.map fun v => m.basis.map fun ψ =>
      (((g.nodes.zip g.weights).zip v).map fun p => p.1.2 * ψ p.1.1 * p.2).sum := by
  rw [toModal_ok hk hc c hn hm] at h
  have h2 := h.2.2.2 i g m a r hg hm' ha hr
  rw [toModalPlain_eq, hki] at h2
  simp only at h2
  split at h2
  · simp at h2
  · rename_i hne
    split at h2
    · simp at h2
    · obtain ⟨e1, e2⟩ := einsumRows_ok h2
      refine ⟨?_, ?_, ?_⟩
      · by_cases hx : g.exactTo < 2 * m.order
        · right
          cases hb : c.allow with
          | true => rfl
          | false => exact absurd ⟨hx, hb⟩ hne
        · left
          omega
      · intro hb v hv
        obtain ⟨ψ, hψ⟩ := List.exists_mem_of_ne_nil _ hb
        have := e2 v hv _ (List.mem_map_of_mem hψ)
        simpa using this
      · rw [e1]
        apply List.map_congr_left
        intro v hv
        clear hv
        unfold matVec quadratureMatrix
        rw [List.map_map]
        apply List.map_congr_left
        intro ψ _
        simp only [Function.comp, rowDot]
        generalize g.nodes = xs
        generalize g.weights = ws
        induction xs generalizing ws v with
        | nil => simp
        | cons x xs ih =>
          cases ws with
          | nil => simp
          | cons w ws =>
            cases v with
            | nil => simp
            | cons b v =>
              simp only [List.zipWith_cons_cons, List.sum_cons, List.zip_cons_cons, List.map_cons]
              rw [ih v]
              ring

/-- A nodal and a modal group between which no information is lost: the keys exist; either the nodal
group is interpolatory with an invertible Vandermonde matrix and both have the same basis, or it is a
quadrature group accepted by the check with respect to whose rule the modal basis is orthonormal.
(Specification or proof vocabulary, no code.) -/
def Compatible (inv : Mat K → Option (Mat K)) (allow : Bool) (g : NodalGroup K P A)
    (m : ModalGroup K P A) : Prop :=
  g.key ≠ none ∧ m.key ≠ none ∧
  ((g.kind = .interpolatory ∧ g.basis = m.basis ∧ g.basis.length = g.nodes.length ∧
      ∃ N, inv (vdmMatrix g.basis g.nodes) = some N) ∨
   (g.kind = .quadrature ∧ (2 * m.order ≤ g.exactTo ∨ allow = true) ∧
      g.weights.length = g.nodes.length ∧ QuadOrtho g m))

/-- C61: converting modal data to nodal values and back returns the coefficients. -/
theorem C61_modal_round_trip (hinv : InvSound inv) (hk : ModalKeysSound G H) {cache : ModalCache K A}
    (hc : CacheSound inv G H cache) (c : ModalConn K P A) (hlen : c.nodal.length = c.modal.length)
    (hn : ∀ g ∈ c.nodal, G g) (hm : ∀ m ∈ c.modal, H m)
    (hcomp : ∀ (i : Nat) g m, c.nodal[i]? = some g → c.modal[i]? = some m → Compatible inv c.allow g m)
    {coeffs : List (List (List K))} (ha : coeffs.length = c.modal.length)
    (hsize : ∀ (i : Nat) m a, c.modal[i]? = some m → coeffs[i]? = some a → ∀ v ∈ a,
      v.length = m.basis.length) :
    ∃ values, (c.toNodal coeffs cache).1 = .ok values ∧ (c.toModal inv values cache).1 = .ok coeffs := by
  have hkey : (∀ g ∈ c.nodal, g.key ≠ none) ∧ ∀ m ∈ c.modal, m.key ≠ none := by
    constructor
    · intro g hg
      obtain ⟨i, hi⟩ := List.mem_iff_getElem?.1 hg
      have hil := (List.getElem?_eq_some_iff.1 hi).1
      exact (hcomp i g _ hi (List.getElem?_eq_getElem (by omega))).1
    · intro m hm
      obtain ⟨i, hi⟩ := List.mem_iff_getElem?.1 hm
      have hil := (List.getElem?_eq_some_iff.1 hi).1
      exact (hcomp i _ m (List.getElem?_eq_getElem (by omega)) hi).2.1
  refine ⟨_, C61_modal_to_nodal hk hc c hlen hn hm ha hkey hsize, ?_⟩
  rw [toModal_ok hk hc c hn hm]
  refine ⟨by simp [ha, hlen], by omega, hlen.le, ?_⟩
  intro i g m b r hg hm' hb hr
  have hb' : b = r.map fun v => g.nodes.map (evalAt m.basis v) := by
    rw [List.getElem?_map, List.getElem?_zip_eq_some (z := (g, m, r)).2
      ⟨hg, List.getElem?_zip_eq_some (z := (m, r)).2 ⟨hm', hr⟩⟩] at hb
    simpa using hb.symm
  obtain ⟨k1, k2, h | h⟩ := hcomp i g m hg hm'
  · obtain ⟨h1, h2, h3, N, hN⟩ := h
    have hi := hinv _ _ hN
    rw [vdmMatrix, List.length_map, ← vdmMatrix] at hi
    rw [toModalPlain_eq, h1]
    simp only [k1, if_false, hN]
    rw [einsumRows_of, hb', List.map_map]
    · congr 1
      conv_rhs => rw [← List.map_id r]
      apply List.map_congr_left
      intro v hv
      simp only [Function.comp, id]
      rw [← h2, ← matVec_vandermonde]
      exact hi.left v (by rw [hsize i m r hm' hr v hv, ← h2, h3])
    · intro v hv row hrow
      rw [hb'] at hv
      obtain ⟨v', _, rfl⟩ := List.mem_map.1 hv
      rw [hi.cols row hrow, List.length_map]
  · obtain ⟨h1, h2, h3, h4⟩ := h
    rw [toModalPlain_eq, h1]
    simp only
    rw [if_neg, if_neg]
    · rw [einsumRows_of, hb', List.map_map]
      · congr 1
        conv_rhs => rw [← List.map_id r]
        apply List.map_congr_left
        intro v hv
        exact quadratureMatrix_left h4 (hsize i m r hm' hr v hv)
      · intro v hv row hrow
        rw [hb'] at hv
        obtain ⟨v', _, rfl⟩ := List.mem_map.1 hv
        obtain ⟨ψ, _, rfl⟩ := List.mem_map.1 hrow
        simp [h3]
    · simp [k1, k2]
    · rintro ⟨h5, h6⟩
      rcases h2 with h2 | h2
      · omega
      · rw [h6] at h2
        simp at h2

/-- C61: for interpolatory groups with the basis of the modal groups, converting nodal values to modal
data and back returns the values. -/
theorem C61_nodal_round_trip (hinv : InvSound inv) (hk : ModalKeysSound G H) {cache : ModalCache K A}
    (hc : CacheSound inv G H cache) (c : ModalConn K P A) (hlen : c.nodal.length = c.modal.length)
    (hn : ∀ g ∈ c.nodal, G g) (hm : ∀ m ∈ c.modal, H m)
    (hcomp : ∀ (i : Nat) g m, c.nodal[i]? = some g → c.modal[i]? = some m →
      Compatible inv c.allow g m ∧ g.kind = .interpolatory)
    {values : List (List (List K))} (ha : values.length = c.nodal.length)
    (hsize : ∀ (i : Nat) g a, c.nodal[i]? = some g → values[i]? = some a → ∀ v ∈ a,
      v.length = g.nodes.length) :
    ∃ coeffs, (c.toModal inv values cache).1 = .ok coeffs ∧ (c.toNodal coeffs cache).1 = .ok values := by
  -- each group by itself
  have hgrp : ∀ i : Nat, i < c.nodal.length → ∃ g m a r, c.nodal[i]? = some g ∧ c.modal[i]? = some m ∧
      values[i]? = some a ∧ toModalPlain inv c.allow a g m = .ok r ∧
      toNodalPlain r g m = .ok a := by
    intro i hi
    have hg : c.nodal[i]? = some c.nodal[i] := List.getElem?_eq_getElem hi
    have hm' : c.modal[i]? = some (c.modal[i]'(by omega)) := List.getElem?_eq_getElem (by omega)
    have hai : values[i]? = some (values[i]'(by omega)) := List.getElem?_eq_getElem (by omega)
    generalize c.nodal[i] = g at hg
    generalize (c.modal[i]'(by omega)) = m at hm'
    generalize (values[i]'(by omega)) = a at hai
    obtain ⟨⟨k1, k2, h⟩, hkind⟩ := hcomp i g m hg hm'
    rw [hkind] at h
    simp only [true_and, reduceCtorEq, false_and, or_false] at h
    obtain ⟨h2, h3, N, hN⟩ := h
    have hI := hinv _ _ hN
    rw [vdmMatrix, List.length_map, ← vdmMatrix] at hI
    refine ⟨g, m, a, a.map (matVec N), hg, hm', hai, ?_, ?_⟩
    · rw [toModalPlain_eq, hkind]
      simp only [k1, if_false, hN]
      rw [einsumRows_of]
      intro v hv row hrow
      rw [hI.cols row hrow, hsize i g a hg hai v hv]
    · rw [toNodalPlain_eq, if_neg (by simp [k1, k2]), einsumRows_of, List.map_map]
      · congr 1
        conv_rhs => rw [← List.map_id a]
        apply List.map_congr_left
        intro v hv
        simp only [Function.comp, id]
        rw [← h2]
        exact hI.right v (hsize i g a hg hai v hv)
      · intro v hv row hrow
        obtain ⟨v', _, rfl⟩ := List.mem_map.1 hv
        obtain ⟨x, _, rfl⟩ := List.mem_map.1 hrow
        simp [matVec, hI.rows, ← h2, h3]
  -- the list of coefficients
  have hlist : ∃ coeffs : List (List (List K)), coeffs.length = c.nodal.length ∧
      ∀ (i : Nat) g m a r, c.nodal[i]? = some g → c.modal[i]? = some m → values[i]? = some a →
        coeffs[i]? = some r → toModalPlain inv c.allow a g m = .ok r ∧
        toNodalPlain r g m = .ok a := by
    have hch : ∀ i : Nat, ∃ r, i < c.nodal.length → ∃ g m a, c.nodal[i]? = some g ∧
        c.modal[i]? = some m ∧ values[i]? = some a ∧ toModalPlain inv c.allow a g m = .ok r ∧
        toNodalPlain r g m = .ok a := by
      intro i
      by_cases hi : i < c.nodal.length
      · obtain ⟨g, m, a, r, h⟩ := hgrp i hi
        exact ⟨r, fun _ => ⟨g, m, a, h⟩⟩
      · exact ⟨[], fun h => absurd h hi⟩
    choose R hR using hch
    refine ⟨(List.range c.nodal.length).map R, by simp, ?_⟩
    intro i g m a r hg hm' hai hr
    have hi := (List.getElem?_eq_some_iff.1 hg).1
    obtain ⟨g', m', a', e1, e2, e3, e4⟩ := hR i hi
    rw [hg, Option.some.injEq] at e1
    rw [hm', Option.some.injEq] at e2
    rw [hai, Option.some.injEq] at e3
    subst e1 e2 e3
    have : r = R i := by
      rw [List.getElem?_map, List.getElem?_range hi] at hr
      simpa using hr.symm
    rw [this]
    exact e4
  obtain ⟨coeffs, hl, hall⟩ := hlist
  refine ⟨coeffs, ?_, ?_⟩
  · rw [toModal_ok hk hc c hn hm]
    exact ⟨ha, hl, hlen.le, fun i g m a r hg hm' hai hr => (hall i g m a r hg hm' hai hr).1⟩
  · rw [toNodal_ok hk hc c hn hm]
    exact ⟨by omega, ha, hlen.le, fun i g m r a hg hm' hr hai => (hall i g m a r hg hm' hai hr).2⟩

/-- C61: a quadrature rule that is not exact for the products of modes is refused unless
`allow_approximate_quad` is set. -/
theorem C61_inexact_refused (c : ModalConn K P A) (g : NodalGroup K P A) (gs : List (NodalGroup K P A))
    (m : ModalGroup K P A) (ms : List (ModalGroup K P A)) (hn : c.nodal = g :: gs)
    (hm : c.modal = m :: ms) (hkind : g.kind = .quadrature) (hex : g.exactTo < 2 * m.order)
    (hal : c.allow = false) (ary : List (List (List K))) (ha : ary.length = c.nodal.length)
    (cache : ModalCache K A) : (c.toModal inv ary cache).1 = .error .inexact := by
  unfold ModalConn.toModal
  rw [if_neg (by simp [ha]), hn, hm]
  rw [hn] at ha
  cases ary with
  | nil => simp at ha
  | cons a ary => simp [groupLoop, toModalGroup, hkind, hex, hal]

/-- C61: no group whose `discretization_key` is not implemented can be converted: these are the groups
with given nodes. -/
theorem C61_no_key (c : ModalConn K P A) (g : NodalGroup K P A) (gs : List (NodalGroup K P A))
    (m : ModalGroup K P A) (ms : List (ModalGroup K P A)) (hn : c.nodal = g :: gs)
    (hm : c.modal = m :: ms) (hlen : c.nodal.length = c.modal.length) (hkind : g.kind = .interpolatory)
    (hkey : g.key = none) (ary : List (List (List K))) (ha : ary.length = c.nodal.length)
    (cache : ModalCache K A) :
    (c.toModal inv ary cache).1 = .error .noKey ∧ (c.toNodal ary cache).1 = .error .noKey := by
  have ha' := ha
  rw [hn] at ha
  cases ary with
  | nil => simp at ha
  | cons a ary =>
    constructor
    · unfold ModalConn.toModal
      rw [if_neg (by simpa using ha'), hn, hm]
      simp [groupLoop, toModalGroup, hkind, coeffsViaInverse, hkey]
    · unfold ModalConn.toNodal
      rw [if_neg (by simpa [hlen] using ha'), hn, hm]
      simp [groupLoop, toNodalGroup, hkey]

end

/-! ## A case -/

/-- Two equidistant nodes on an interval, basis `1, x`. (Example, no code.) -/
def lineNodal : NodalGroup ℚ ℚ Nat :=
  ⟨.interpolatory, [0, 1], [fun _ => 1, fun x => x], [], 0, some 1⟩

/-- The modal group of order one with the same basis. (Example, no code.) -/
def lineModal : ModalGroup ℚ ℚ Nat := ⟨[fun _ => 1, fun x => x], 1, some 1⟩

/-- Two nodes with equal weights. (Example, no code.) -/
def lineQuad : NodalGroup ℚ ℚ Nat :=
  ⟨.quadrature, [-1, 1], [fun _ => 1, fun x => x], [1 / 2, 1 / 2], 2, some 2⟩

/-- The modal group of order two. (Example, no code.) -/
def lineModal2 : ModalGroup ℚ ℚ Nat := ⟨[fun _ => 1, fun x => x, fun x => x * x], 2, some 2⟩

/-- An inversion that knows one matrix. (Example, no code.) -/
def lineInv (M : Mat ℚ) : Option (Mat ℚ) :=
  if M = [[1, 0], [1, 1]] then some [[1, 0], [-1, 1]] else none

theorem lineInv_sound : InvSound lineInv := by
  intro M N h
  unfold lineInv at h
  split at h
  · rename_i hM
    simp only [Option.some.injEq] at h
    subst hM h
    refine ⟨rfl, by simp, ?_, ?_⟩
    · intro v hv
      obtain ⟨a, b, rfl⟩ := List.length_eq_two.1 hv
      simp [matVec, rowDot]
    · intro v hv
      obtain ⟨a, b, rfl⟩ := List.length_eq_two.1 hv
      simp [matVec, rowDot]
  · simp at h

theorem line_compatible : Compatible lineInv false lineNodal lineModal := by
  refine ⟨by simp [lineNodal], by simp [lineModal], .inl ⟨rfl, rfl, rfl, ?_⟩⟩
  exact ⟨[[1, 0], [-1, 1]], by decide +kernel⟩

theorem line_ortho : QuadOrtho lineQuad lineModal := by
  intro i j ψ ψ' hi hj
  match i, j with
  | 0, 0 =>
    simp only [lineModal, List.getElem?_cons_zero, Option.some.injEq] at hi hj
    subst hi hj
    decide +kernel
  | 0, 1 =>
    simp only [lineModal, List.getElem?_cons_zero, List.getElem?_cons_succ, Option.some.injEq] at hi hj
    subst hi hj
    decide +kernel
  | 1, 0 =>
    simp only [lineModal, List.getElem?_cons_zero, List.getElem?_cons_succ, Option.some.injEq] at hi hj
    subst hi hj
    decide +kernel
  | 1, 1 =>
    simp only [lineModal, List.getElem?_cons_zero, List.getElem?_cons_succ, Option.some.injEq] at hi hj
    subst hi hj
    decide +kernel
  | i + 2, _ => simp [lineModal] at hi
  | _, j + 2 => simp [lineModal] at hj

/-- The connection between both kinds of nodal groups and the modal one. (Example, no code.) -/
def lineConn : ModalConn ℚ ℚ Nat := ⟨[lineNodal, lineQuad], [lineModal, lineModal], false⟩

-- the hypotheses of `C61_modal_round_trip` hold for it
example : InvSound lineInv ∧
    ModalKeysSound (fun g => g = lineNodal ∨ g = lineQuad) (fun m => m = lineModal) ∧
    CacheSound lineInv (fun g => g = lineNodal ∨ g = lineQuad) (fun m => m = lineModal) {} ∧
    lineConn.nodal.length = lineConn.modal.length ∧
    ∀ (i : Nat) g m, lineConn.nodal[i]? = some g → lineConn.modal[i]? = some m →
      Compatible lineInv lineConn.allow g m := by
  refine ⟨lineInv_sound, ⟨?_, ?_⟩, cacheSound_empty, rfl, ?_⟩
  · rintro g g' (rfl | rfl) (rfl | rfl) _ h <;> simp_all [lineNodal, lineQuad]
  · rintro m m' rfl rfl _ _
    rfl
  · intro i g m hg hm
    match i with
    | 0 =>
      simp only [lineConn, List.getElem?_cons_zero, Option.some.injEq] at hg hm
      subst hg hm
      exact line_compatible
    | 1 =>
      simp only [lineConn, List.getElem?_cons_zero, List.getElem?_cons_succ, Option.some.injEq] at hg hm
      subst hg hm
      exact ⟨by simp [lineQuad], by simp [lineModal], .inr ⟨rfl, .inl (by decide), rfl, line_ortho⟩⟩
    | i + 2 => simp [lineConn] at hg

example : (lineConn.toModal lineInv [[[3, 5], [1, 1]], [[2, 6]]] {}).1 =
    .ok [[[3, 2], [1, 0]], [[4, 2]]] := by decide +kernel

example : (lineConn.toNodal [[[3, 2], [1, 0]], [[4, 2]]] {}).1 =
    .ok [[[3, 5], [1, 1]], [[2, 6]]] := by decide +kernel

-- the hypotheses of `C61_exact_rule` hold for the rule with two nodes, for the mean of the values at the
-- ends instead of the integral
example : ∃ (deg : Nat → (ℚ → ℚ) → Prop) (integral : (ℚ → ℚ) → ℚ),
    (∀ f, deg lineQuad.exactTo f → quadSum lineQuad f = integral f) ∧ ¬ lineQuad.exactTo < 2 * lineModal.order :=
  ⟨fun _ _ => True, fun f => (f (-1) + f 1) / 2, fun f _ => by
    simp only [quadSum, lineQuad, List.zipWith_cons_cons, List.zipWith_nil_right, List.sum_cons,
      List.sum_nil]
    ring, by decide⟩

-- a rule that is not exact enough is refused, and accepted with `allow_approximate_quad`
example : (ModalConn.toModal lineInv ⟨[lineQuad], [lineModal2], false⟩ [[[2, 6]]] {}).1 =
    .error .inexact := by decide +kernel

example : (ModalConn.toModal lineInv ⟨[lineQuad], [lineModal2], true⟩ [[[2, 6]]] {}).1 =
    .ok [[[4, 2, 4]]] := by decide +kernel

example : (makeNodalToModal ⟨7, [.nodal lineNodal]⟩ ⟨7, [.modal lineModal]⟩ false).toOption.isSome := by
  decide +kernel

example : (makeNodalToModal ⟨7, [.nodal lineNodal]⟩ ⟨8, [.modal lineModal]⟩ false).toOption.isNone := by
  decide +kernel

/-- C61: the number of coefficients is not checked.  Interpolatory groups are converted with their own
basis whatever the modal group is, so that with a modal group of another order the result is not an array
of the modal discretization, and converting it back raises. -/
theorem C61_order_counterexample : ∃ c : ModalConn ℚ ℚ Nat,
    makeNodalToModal ⟨7, [.nodal lineNodal]⟩ ⟨7, [.modal lineModal2]⟩ false = .ok c ∧
    (c.toModal lineInv [[[3, 5]]] {}).1 = .ok [[[3, 2]]] ∧ lineModal2.basis.length = 3 ∧
    (c.toNodal [[[3, 2]]] {}).1 = .error .einsum := by
  refine ⟨⟨[lineNodal], [lineModal2], false⟩, rfl, ?_, rfl, ?_⟩ <;> decide +kernel

end Meshmode
