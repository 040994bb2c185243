import Verif.Np
import Mathlib.Algebra.Group.Action.Defs
import Mathlib.LinearAlgebra.Matrix.NonsingularInverse
import Mathlib.Data.Matrix.Mul
import Mathlib.Data.List.Perm.Basic
import Mathlib.Tactic.Ring
import Mathlib.Data.Fin.VecNotation
import Mathlib.Tactic.FinCases

/-!
# Reference derivatives (C39)

`num_reference_derivative` (meshmode/discretization/__init__.py:641-698).
-/
namespace Meshmode

/-! ## Model -/

/-- An element group: whether it is interpolatory, its `discretization_key()` (`none` if that raises
`NotImplementedError`), and `mp.diff_matrices(basis, unit_nodes)`, by axis.  Matrices are elements of
a monoid acting on the vectors of one element's coefficients.
Code: meshmode/discretization/__init__.py:641-710. -/
structure DiffGroup (Mat A : Type) where
  interp : Bool
  key : Option (List A)
  mats : Nat → Mat

/-- Errors of `num_reference_derivative`. Code: meshmode/discretization/__init__.py:654-677. -/
inductive DerivErr where
  /-- `NoninterpolatoryElementGroupError` -/
  | noninterpolatory
  /-- `ValueError` for a frozen array -/
  | frozen
  /-- `ValueError("'ref_axes' exceeds discretization dimensions")` -/
  | axes
  /-- `NotImplementedError` from `discretization_key` -/
  | noKey
  /-- `IndexError` for `vec[igrp]` -/
  | index
  /-- `assert mat is not None` -/
  | assertion
  deriving DecidableEq, Repr

variable {Mat Vec A : Type} [Monoid Mat] [MulAction Mat Vec] [DecidableEq A]

/-- The matrix product built in `get_mat`, meshmode/discretization/__init__.py:680-688. -/
def buildMat (mats : Nat → Mat) : List Nat → Option Mat
  | [] => none
  | a :: l => some (l.foldl (fun m ax => mats ax * m) (mats a))

/-- `get_mat` with its `keyed_memoize_in` cache, meshmode/discretization/__init__.py:670-689.  The key
is `(*grp.discretization_key(), *gref_axes)`; `ax` is the axis number as an entry of that tuple. -/
def getMat (ax : Nat → A) (cache : List (List A × Mat)) (g : DiffGroup Mat A) (axes : List Nat) :
    Except DerivErr (Mat × List (List A × Mat)) :=
  match g.key with
  | none => .error .noKey
  | some k =>
    let key := k ++ axes.map ax
    match cache.lookup key with
    | some m => .ok (m, cache)
    | none =>
      match buildMat g.mats axes with
      | none => .error .assertion
      | some m => .ok (m, (key, m) :: cache)

/-- The loop over the groups, meshmode/discretization/__init__.py:691-698; `vecs` has the coefficient
vectors of the elements of each group.  The cache is kept also if a later group raises. -/
def derivLoop (ax : Nat → A) (axes : List Nat) :
    List (DiffGroup Mat A) → List (List Vec) → List (List A × Mat) →
      Except DerivErr (List (List Vec)) × List (List A × Mat)
  | [], _, cache => (.ok [], cache)
  | g :: gs, vecs, cache =>
      match getMat ax cache g axes with
      | .error e => (.error e, cache)
      | .ok (m, cache) =>
        match vecs with
        | [] => (.error .index, cache)
        | v :: vs =>
          match derivLoop ax axes gs vs cache with
          | (.error e, cache) => (.error e, cache)
          | (.ok rs, cache) => (.ok (v.map (m • ·) :: rs), cache)

/-- `num_reference_derivative`, meshmode/discretization/__init__.py:641-698, with `ref_axes` a list.
`frozen` says whether `vec.array_context` is `None`; the cache belongs to the array context. -/
def numReferenceDerivative (ax : Nat → A) (dim : Nat) (groups : List (DiffGroup Mat A))
    (refAxes : List Int) (frozen : Bool) (vec : List (List Vec)) (cache : List (List A × Mat)) :
    Except DerivErr (List (List Vec)) × List (List A × Mat) :=
  if !(groups.all fun g => g.interp) then (.error .noninterpolatory, cache)
  else if refAxes.isEmpty then (.ok vec, cache)
  else
    let axes := stableSort (fun a b => decide (a ≤ b)) refAxes
    if frozen then (.error .frozen, cache)
    else if !(axes.all fun a => decide (0 ≤ a) && decide (a < dim)) then (.error .axes, cache)
    else derivLoop ax (axes.map Int.toNat) groups vec cache

/-! ## Specification -/

/-- Apply the matrices of the given axes one after the other.
(Specification or proof vocabulary, no code.) -/
def applyAxes (mats : Nat → Mat) (axes : List Nat) (v : Vec) : Vec :=
  axes.foldl (fun v a => mats a • v) v

/-- The derivative of all groups' vectors, one axis after the other.
(Specification or proof vocabulary, no code.) -/
def derivSpec (groups : List (DiffGroup Mat A)) (axes : List Nat) (vec : List (List Vec)) :
    List (List Vec) :=
  (groups.zip vec).map fun p => p.2.map (applyAxes p.1.mats axes)

/-- The groups in use have sound keys: two groups with the same key have the same matrices, and keys
with the same first entry (the type) have the same length.
(Specification or proof vocabulary, no code.) -/
def KeysSound (G : DiffGroup Mat A → Prop) : Prop :=
  (∀ g g', G g → G g' → ∀ k, g.key = some k → g'.key = some k → g.mats = g'.mats) ∧
  (∀ g g' k k', G g → G g' → g.key = some k → g'.key = some k' → k ≠ [] ∧
    (k.head? = k'.head? → k.length = k'.length))

/-- Calls of `num_reference_derivative` on one array context.
(Specification or proof vocabulary, no code.) -/
structure DerivCall (Mat Vec A : Type) where
  dim : Nat
  groups : List (DiffGroup Mat A)
  refAxes : List Int
  frozen : Bool
  vec : List (List Vec)

/-- The cache after some calls. (Specification or proof vocabulary, no code.) -/
def cacheAfter (ax : Nat → A) (calls : List (DerivCall Mat Vec A)) : List (List A × Mat) :=
  calls.foldl (fun cache c =>
    (numReferenceDerivative ax c.dim c.groups c.refAxes c.frozen c.vec cache).2) []

/-! ## Lemmas -/

omit [DecidableEq A] in
theorem buildMat_smul (mats : Nat → Mat) (a : Nat) (l : List Nat) (v : Vec) :
    (l.foldl (fun m ax => mats ax * m) (mats a)) • v = applyAxes mats (a :: l) v := by
  unfold applyAxes
  rw [List.foldl_cons]
  generalize mats a = m
  induction l generalizing m v with
  | nil => rfl
  | cons b l ih =>
    rw [List.foldl_cons, List.foldl_cons, ih, mul_smul]

/-- Every cached matrix is the one that would be built.
(Specification or proof vocabulary, no code.) -/
def CacheOK (ax : Nat → A) (G : DiffGroup Mat A → Prop) (cache : List (List A × Mat)) : Prop :=
  ∀ key m, (key, m) ∈ cache → ∃ g k axes, G g ∧ g.key = some k ∧ key = k ++ axes.map ax ∧
    buildMat g.mats axes = some m

theorem getMat_spec {ax : Nat → A} (hax : Function.Injective ax) {G : DiffGroup Mat A → Prop}
    (hG : KeysSound G) {cache : List (List A × Mat)} (hc : CacheOK ax G cache)
    {g : DiffGroup Mat A} (hg : G g) {axes : List Nat} {m : Mat} {cache' : List (List A × Mat)}
    (h : getMat ax cache g axes = .ok (m, cache')) :
    buildMat g.mats axes = some m ∧ CacheOK ax G cache' := by
  unfold getMat at h
  split at h
  · simp at h
  · rename_i k hk
    simp only at h
    split at h
    · rename_i m' hm
      simp only [Except.ok.injEq, Prod.mk.injEq] at h
      obtain ⟨rfl, rfl⟩ := h
      refine ⟨?_, hc⟩
      have hmem : (k ++ axes.map ax, m') ∈ cache := by
        obtain ⟨l1, l2, h1, _⟩ := List.lookup_eq_some_iff.1 hm
        rw [h1]
        simp
      obtain ⟨g', k', axes', hg', hk', hkey, hb⟩ := hc _ _ hmem
      obtain ⟨hne, hlen⟩ := hG.2 g g' k k' hg hg' hk hk'
      obtain ⟨hne', _⟩ := hG.2 g' g k' k hg' hg hk' hk
      have hh : k.head? = k'.head? := by
        cases k with
        | nil => exact absurd rfl hne
        | cons a k =>
          cases k' with
          | nil => exact absurd rfl hne'
          | cons b k' =>
            simp only [List.cons_append, List.cons.injEq] at hkey
            simp [hkey.1]
      obtain ⟨h1, h2⟩ := List.append_inj hkey (hlen hh)
      subst h1
      have h3 := List.map_injective_iff.2 hax h2
      subst h3
      rw [hG.1 g g' hg hg' k hk hk']
      exact hb
    · split at h
      · simp at h
      · rename_i m' hm
        simp only [Except.ok.injEq, Prod.mk.injEq] at h
        obtain ⟨rfl, rfl⟩ := h
        refine ⟨hm, ?_⟩
        intro key m hmem
        rcases List.mem_cons.1 hmem with h | h
        · simp only [Prod.mk.injEq] at h
          obtain ⟨rfl, rfl⟩ := h
          exact ⟨g, k, axes, hg, hk, rfl, hm⟩
        · exact hc _ _ h

theorem derivLoop_cache {ax : Nat → A} (hax : Function.Injective ax)
    {G : DiffGroup Mat A → Prop} (hG : KeysSound G) (axes : List Nat)
    (groups : List (DiffGroup Mat A)) (hg : ∀ g ∈ groups, G g) (vec : List (List Vec))
    (cache : List (List A × Mat)) (hc : CacheOK ax G cache) :
    CacheOK ax G (derivLoop ax axes groups vec cache).2 := by
  induction groups generalizing vec cache with
  | nil => exact hc
  | cons g gs ih =>
    rw [derivLoop]
    split
    · exact hc
    · rename_i m cache' hm
      have hc' := (getMat_spec hax hG hc (hg g List.mem_cons_self) hm).2
      split
      · exact hc'
      · rename_i v vs
        have := ih (fun g hg' => hg g (List.mem_cons_of_mem _ hg')) vs cache' hc'
        split
        · rename_i e c he
          rw [he] at this
          exact this
        · rename_i rs c he
          rw [he] at this
          exact this

theorem derivLoop_spec {ax : Nat → A} (hax : Function.Injective ax)
    {G : DiffGroup Mat A → Prop} (hG : KeysSound G) (axes : List Nat)
    (groups : List (DiffGroup Mat A)) (hg : ∀ g ∈ groups, G g) (vec : List (List Vec))
    (cache : List (List A × Mat)) (hc : CacheOK ax G cache) {r : List (List Vec)}
    {cache' : List (List A × Mat)} (h : derivLoop ax axes groups vec cache = (.ok r, cache')) :
    r = derivSpec groups axes vec ∧ groups.length ≤ vec.length := by
  induction groups generalizing vec cache r cache' with
  | nil =>
    simp only [derivLoop, Prod.mk.injEq, Except.ok.injEq] at h
    simp [derivSpec, ← h.1]
  | cons g gs ih =>
    rw [derivLoop] at h
    split at h
    · simp at h
    · rename_i m c hm
      obtain ⟨hb, hc'⟩ := getMat_spec hax hG hc (hg g List.mem_cons_self) hm
      split at h
      · simp at h
      · rename_i v vs
        split at h
        · simp at h
        · rename_i rs c' hrs
          obtain ⟨h1, h2⟩ := ih (fun g hg' => hg g (List.mem_cons_of_mem _ hg')) vs c hc' hrs
          simp only [Prod.mk.injEq, Except.ok.injEq] at h
          refine ⟨?_, by simpa using h2⟩
          rw [← h.1, h1]
          simp only [derivSpec, List.zip_cons_cons, List.map_cons]
          congr 1
          cases axes with
          | nil => simp [buildMat] at hb
          | cons a l =>
            simp only [buildMat, Option.some.injEq] at hb
            subst hb
            exact List.map_congr_left fun x _ => buildMat_smul g.mats a l x

theorem derivLoop_defined {ax : Nat → A} (axes : List Nat) (hax : axes ≠ [])
    (groups : List (DiffGroup Mat A)) (hk : ∀ g ∈ groups, g.key ≠ none) (vec : List (List Vec))
    (hl : groups.length ≤ vec.length) (cache : List (List A × Mat)) :
    ∃ r, (derivLoop ax axes groups vec cache).1 = .ok r := by
  induction groups generalizing vec cache with
  | nil => exact ⟨[], rfl⟩
  | cons g gs ih =>
    obtain ⟨m, c, hm⟩ : ∃ m c, getMat ax cache g axes = .ok (m, c) := by
      unfold getMat
      cases hkg : g.key with
      | none => exact absurd hkg (hk g List.mem_cons_self)
      | some k =>
        simp only
        cases hlk : cache.lookup (k ++ axes.map ax) with
        | some m => exact ⟨_, _, rfl⟩
        | none =>
          cases axes with
          | nil => exact absurd rfl hax
          | cons a l => exact ⟨_, _, rfl⟩
    cases vec with
    | nil => simp at hl
    | cons v vs =>
      obtain ⟨r, hr⟩ := ih (fun g hg' => hk g (List.mem_cons_of_mem _ hg')) vs (by simpa using hl) c
      rw [derivLoop, hm]
      simp only
      cases hd : derivLoop ax axes gs vs c with
      | mk a b =>
        rw [hd] at hr
        simp only at hr
        subst hr
        exact ⟨_, rfl⟩

theorem cacheAfter_ok {ax : Nat → A} (hax : Function.Injective ax)
    {G : DiffGroup Mat A → Prop} (hG : KeysSound G) (calls : List (DerivCall Mat Vec A))
    (hcalls : ∀ c ∈ calls, ∀ g ∈ c.groups, G g) : CacheOK ax G (cacheAfter ax calls) := by
  unfold cacheAfter
  have : ∀ cache, CacheOK ax G cache → CacheOK ax G (calls.foldl (fun cache c =>
      (numReferenceDerivative ax c.dim c.groups c.refAxes c.frozen c.vec cache).2) cache) := by
    induction calls with
    | nil => exact fun _ h => h
    | cons c calls ih =>
      intro cache hc
      rw [List.foldl_cons]
      refine ih (fun c hc => hcalls c (List.mem_cons_of_mem _ hc)) _ ?_
      unfold numReferenceDerivative
      split
      · exact hc
      · split
        · exact hc
        · simp only
          split
          · exact hc
          · split
            · exact hc
            · exact derivLoop_cache hax hG _ _ (hcalls c List.mem_cons_self) _ _ hc
  refine this [] ?_
  intro key m h
  simp at h

/-! ## Properties -/

/-- The axes in the order used. (Specification or proof vocabulary, no code.) -/
def sortedAxes (refAxes : List Int) : List Nat :=
  (stableSort (fun a b => decide (a ≤ b)) refAxes).map Int.toNat

/-- C39: after any calls on the same array context, a result is that of applying the per-axis
matrices one after the other, in ascending order of the axes. -/
theorem C39_value {ax : Nat → A} (hax : Function.Injective ax)
    {G : DiffGroup Mat A → Prop} (hG : KeysSound G) (calls : List (DerivCall Mat Vec A))
    (hcalls : ∀ c ∈ calls, ∀ g ∈ c.groups, G g) {dim : Nat} {groups : List (DiffGroup Mat A)}
    (hg : ∀ g ∈ groups, G g) {refAxes : List Int} {frozen : Bool} {vec r : List (List Vec)}
    (hl : vec.length = groups.length)
    (h : (numReferenceDerivative ax dim groups refAxes frozen vec (cacheAfter ax calls)).1 = .ok r) :
    r = derivSpec groups (sortedAxes refAxes) vec := by
  unfold numReferenceDerivative at h
  split at h
  · simp at h
  · split at h
    · rename_i hem
      simp only [Except.ok.injEq] at h
      rw [List.isEmpty_iff] at hem
      subst hem h
      unfold derivSpec sortedAxes
      simp only [stableSort, List.map_nil]
      have h1 : (groups.zip vec).map Prod.snd = vec := List.map_snd_zip (by omega)
      conv_lhs => rw [← h1]
      exact List.map_congr_left fun p _ => (List.map_id' _).symm
    · simp only at h
      split at h
      · simp at h
      · split at h
        · simp at h
        · cases hd : derivLoop ax ((stableSort (fun a b => decide (a ≤ b)) refAxes).map Int.toNat)
            groups vec (cacheAfter ax calls) with
          | mk a b =>
            rw [hd] at h
            simp only at h
            subst h
            exact (derivLoop_spec hax hG _ _ hg _ _ (cacheAfter_ok hax hG calls hcalls) hd).1

/-- C39: cached matrices never change the answer. -/
theorem C39_cache_irrelevant {ax : Nat → A} (hax : Function.Injective ax)
    {G : DiffGroup Mat A → Prop} (hG : KeysSound G) (calls calls' : List (DerivCall Mat Vec A))
    (hcalls : ∀ c ∈ calls, ∀ g ∈ c.groups, G g) (hcalls' : ∀ c ∈ calls', ∀ g ∈ c.groups, G g)
    {dim : Nat} {groups : List (DiffGroup Mat A)} (hg : ∀ g ∈ groups, G g) {refAxes : List Int}
    {frozen : Bool} {vec r r' : List (List Vec)} (hl : vec.length = groups.length)
    (h : (numReferenceDerivative ax dim groups refAxes frozen vec (cacheAfter ax calls)).1 = .ok r)
    (h' : (numReferenceDerivative ax dim groups refAxes frozen vec (cacheAfter ax calls')).1 =
      .ok r') : r = r' := by
  rw [C39_value hax hG calls hcalls hg hl h, C39_value hax hG calls' hcalls' hg hl h']

theorem stableSort_eq_of_perm {l l' : List Int} (h : l.Perm l') :
    stableSort (fun a b => decide (a ≤ b)) l = stableSort (fun a b => decide (a ≤ b)) l' := by
  have hp : ∀ l : List Int, (stableSort (fun a b => decide (a ≤ b)) l).Pairwise (· ≤ ·) := by
    intro l
    have := pairwise_stableSort (le := fun a b : Int => decide (a ≤ b))
      (by intro a b c; simp only [decide_eq_true_eq]; omega)
      (by intro a b; simp only [Bool.or_eq_true, decide_eq_true_eq]; omega) l
    exact this.imp (by intro a b h; simpa using h)
  refine List.Perm.eq_of_pairwise (le := (· ≤ ·)) ?_ (hp l) (hp l')
    ((stableSort_perm _ l).trans (h.trans (stableSort_perm _ l').symm))
  intro a b _ _ h1 h2
  omega

/-- C39: the order of the axes does not matter, for any groups and any state of the cache: result,
errors and cache are the same. -/
theorem C39_axis_order {ax : Nat → A} (dim : Nat) (groups : List (DiffGroup Mat A))
    {refAxes refAxes' : List Int} (h : refAxes.Perm refAxes') (frozen : Bool)
    (vec : List (List Vec)) (cache : List (List A × Mat)) :
    numReferenceDerivative ax dim groups refAxes frozen vec cache =
      numReferenceDerivative ax dim groups refAxes' frozen vec cache := by
  unfold numReferenceDerivative
  rw [stableSort_eq_of_perm h]
  have : refAxes.isEmpty = refAxes'.isEmpty := by
    cases refAxes with
    | nil => rw [List.nil_perm.1 h]
    | cons a l =>
      cases refAxes' with
      | nil => exact absurd (List.perm_nil.1 h) (by simp)
      | cons b l' => rfl
  rw [this]

omit [DecidableEq A] in
/-- Commuting matrices may be applied in any order. -/
theorem applyAxes_perm {mats : Nat → Mat} {l l' : List Nat} (h : l.Perm l')
    (hc : ∀ i ∈ l, ∀ j ∈ l, mats i * mats j = mats j * mats i) (v : Vec) :
    applyAxes mats l v = applyAxes mats l' v := by
  unfold applyAxes
  refine h.foldl_eq' ?_ v
  intro x hx y hy z
  rw [← mul_smul, ← mul_smul, hc x hx y hy]

/-- C39: if the per-axis matrices commute (see `C39_matrices_commute`), the result is that of
applying them one after the other in the order given. -/
theorem C39_given_order {ax : Nat → A} (hax : Function.Injective ax)
    {G : DiffGroup Mat A → Prop} (hG : KeysSound G) (calls : List (DerivCall Mat Vec A))
    (hcalls : ∀ c ∈ calls, ∀ g ∈ c.groups, G g) {dim : Nat} {groups : List (DiffGroup Mat A)}
    (hg : ∀ g ∈ groups, G g)
    (hcomm : ∀ g ∈ groups, ∀ i j, i < dim → j < dim → g.mats i * g.mats j = g.mats j * g.mats i)
    {refAxes : List Int} (hr : ∀ a ∈ refAxes, 0 ≤ a ∧ a < dim)
    {frozen : Bool} {vec r : List (List Vec)} (hl : vec.length = groups.length)
    (h : (numReferenceDerivative ax dim groups refAxes frozen vec (cacheAfter ax calls)).1 = .ok r) :
    r = derivSpec groups (refAxes.map Int.toNat) vec := by
  rw [C39_value hax hG calls hcalls hg hl h]
  unfold derivSpec sortedAxes
  refine List.map_congr_left fun p hp => List.map_congr_left fun v _ => ?_
  refine applyAxes_perm ((stableSort_perm _ refAxes).map _) ?_ v
  have hp1 : p.1 ∈ groups := (List.of_mem_zip hp).1
  intro i hi j hj
  obtain ⟨a, ha, rfl⟩ := List.mem_map.1 hi
  obtain ⟨b, hb, rfl⟩ := List.mem_map.1 hj
  have := hr a (mem_stableSort.1 ha)
  have := hr b (mem_stableSort.1 hb)
  exact hcomm p.1 hp1 _ _ (by omega) (by omega)

/-- C39: which calls return, and that out-of-range axes are rejected. -/
theorem C39_defined {ax : Nat → A} (dim : Nat) (groups : List (DiffGroup Mat A))
    (refAxes : List Int) (frozen : Bool) (vec : List (List Vec)) (cache : List (List A × Mat))
    (hk : ∀ g ∈ groups, g.key ≠ none) (hl : vec.length = groups.length) :
    (∃ r, (numReferenceDerivative ax dim groups refAxes frozen vec cache).1 = .ok r) ↔
      (∀ g ∈ groups, g.interp = true) ∧
      (refAxes = [] ∨ frozen = false ∧ ∀ a ∈ refAxes, 0 ≤ a ∧ a < dim) := by
  unfold numReferenceDerivative
  by_cases h1 : (∀ g ∈ groups, g.interp = true)
  · rw [if_neg (by simpa using h1)]
    by_cases h2 : refAxes = []
    · subst h2
      simpa using h1
    · rw [if_neg (by simpa using h2)]
      simp only
      cases frozen with
      | true => simp [h2]
      | false =>
        rw [if_neg (by simp)]
        by_cases h3 : ∀ a ∈ refAxes, 0 ≤ a ∧ a < (dim : Int)
        · rw [if_neg (by simpa using h3)]
          refine ⟨fun _ => ⟨h1, Or.inr ⟨rfl, h3⟩⟩, fun _ => ?_⟩
          refine derivLoop_defined _ ?_ _ hk _ (by omega) _
          intro h0
          rw [List.map_eq_nil_iff, ← List.length_eq_zero_iff, length_stableSort,
            List.length_eq_zero_iff] at h0
          exact h2 h0
        · rw [if_pos (by simpa using h3)]
          simp only [reduceCtorEq, exists_false, false_iff, not_and, not_or]
          intro _
          exact ⟨h2, fun _ => h3⟩
  · rw [if_pos (by simpa using h1)]
    simp only [reduceCtorEq, exists_false, false_iff]
    exact fun h => h1 h.1

/-! ## The matrices commute -/

section commute
open Matrix
variable {K X : Type} [Field K] {n : Nat}

/-- `mp.diff_matrices`: the matrix taking values at the nodes to values of the derivative, for a
basis `φ` with derivatives `dφ`. Code: meshmode/discretization/__init__.py:679-700. -/
noncomputable def diffMatrix (φ dφ : Fin n → X → K) (x : Fin n → X) : Matrix (Fin n) (Fin n) K :=
  (Matrix.of fun j k => dφ k (x j)) * (Matrix.of fun j k => φ k (x j))⁻¹

/-- C39: the matrices of two axes commute, if the function space is closed under both derivatives
and the derivatives commute on it (as for the polynomial spaces `P^N` and `Q^N`). -/
theorem C39_matrices_commute (φ : Fin n → X → K) (x : Fin n → X)
    (hV : IsUnit (Matrix.of fun j k => φ k (x j)).det)
    (d₁ d₂ : (X → K) →ₗ[K] (X → K)) (S₁ S₂ : Matrix (Fin n) (Fin n) K)
    (h₁ : ∀ k, d₁ (φ k) = ∑ l, S₁ k l • φ l) (h₂ : ∀ k, d₂ (φ k) = ∑ l, S₂ k l • φ l)
    (hd : ∀ k, d₁ (d₂ (φ k)) = d₂ (d₁ (φ k))) :
    diffMatrix φ (fun k => d₁ (φ k)) x * diffMatrix φ (fun k => d₂ (φ k)) x =
      diffMatrix φ (fun k => d₂ (φ k)) x * diffMatrix φ (fun k => d₁ (φ k)) x := by
  set V : Matrix (Fin n) (Fin n) K := Matrix.of fun j k => φ k (x j) with hVdef
  have key : ∀ (d : (X → K) →ₗ[K] (X → K)) (S : Matrix (Fin n) (Fin n) K),
      (∀ k, d (φ k) = ∑ l, S k l • φ l) →
      (Matrix.of fun j k => d (φ k) (x j)) = V * Sᵀ := by
    intro d S h
    ext j k
    simp only [Matrix.of_apply, h, Finset.sum_apply, Pi.smul_apply, smul_eq_mul, Matrix.mul_apply,
      Matrix.transpose_apply, hVdef]
    exact Finset.sum_congr rfl fun l _ => mul_comm _ _
  have comp : ∀ (d d' : (X → K) →ₗ[K] (X → K)) (S S' : Matrix (Fin n) (Fin n) K),
      (∀ k, d (φ k) = ∑ l, S k l • φ l) → (∀ k, d' (φ k) = ∑ l, S' k l • φ l) →
      (Matrix.of fun j k => d (d' (φ k)) (x j)) = V * Sᵀ * S'ᵀ := by
    intro d d' S S' h h'
    have hd : ∀ k, d (d' (φ k)) = ∑ l, (S' * S) k l • φ l := by
      intro k
      rw [h', map_sum]
      simp only [map_smul, h, Matrix.mul_apply, Finset.smul_sum, Finset.sum_smul, smul_smul]
      rw [Finset.sum_comm]
    ext j k
    simp only [Matrix.of_apply, hd, Finset.sum_apply, Pi.smul_apply, smul_eq_mul]
    rw [Matrix.mul_assoc, ← Matrix.transpose_mul, Matrix.mul_apply]
    exact Finset.sum_congr rfl fun l _ => by
      rw [Matrix.transpose_apply, mul_comm]
      rfl
  have hS : V * S₁ᵀ * S₂ᵀ = V * S₂ᵀ * S₁ᵀ := by
    rw [← comp d₁ d₂ S₁ S₂ h₁ h₂, ← comp d₂ d₁ S₂ S₁ h₂ h₁]
    simp only [hd]
  have cancel : ∀ A B : Matrix (Fin n) (Fin n) K, V * A * V⁻¹ * (V * B * V⁻¹) = V * A * B * V⁻¹ := by
    intro A B
    have : V * A * V⁻¹ * (V * B * V⁻¹) = V * A * (V⁻¹ * V) * B * V⁻¹ := by
      simp only [Matrix.mul_assoc]
    rw [this, Matrix.nonsing_inv_mul _ hV, Matrix.mul_one]
  unfold diffMatrix
  rw [key d₁ S₁ h₁, key d₂ S₂ h₂, cancel, cancel, hS]

end commute

/-! ## Example -/

/-- Two groups with the same key, one with another. -/
def exDiffGroup (k : Nat) : DiffGroup (Matrix (Fin 2) (Fin 2) ℚ) Nat :=
  ⟨true, some [k], fun a => if a = 0 then !![1, k; 0, 1] else !![2, 0; 0, 2]⟩

example : KeysSound (fun g => ∃ k, g = exDiffGroup k) := by
  constructor
  · rintro _ _ ⟨k, rfl⟩ ⟨k', rfl⟩ key h h'
    simp only [exDiffGroup, Option.some.injEq] at h h'
    rw [← h] at h'
    simp only [List.cons.injEq, and_true] at h'
    rw [h']
  · rintro _ _ key key' ⟨k, rfl⟩ ⟨k', rfl⟩ h h'
    simp only [exDiffGroup, Option.some.injEq] at h h'
    subst h h'
    simp

example : (exDiffGroup 3).mats 0 * (exDiffGroup 3).mats 1 =
    (exDiffGroup 3).mats 1 * (exDiffGroup 3).mats 0 := by
  ext i j
  fin_cases i <;> fin_cases j <;> norm_num [exDiffGroup, Matrix.mul_apply, Fin.sum_univ_two]

end Meshmode
