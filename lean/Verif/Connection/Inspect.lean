import Verif.Connection.DirectProps
import Verif.Connection.FaceEmbed
import Verif.Connection.PartConn
import Verif.Connection.RefineConn
import Verif.Mesh.Points

/-!
# Inspecting connections (C98)

`check_connection` (meshmode/discretization/connection/__init__.py:140-159) and
`DirectDiscretizationConnection.is_permutation`
(meshmode/discretization/connection/direct.py:465-478).
-/
namespace Meshmode

/-! ## Model -/

/-- An element group as `check_connection` sees it: `nelements` and `mesh_el_group.nfaces`.
Code: meshmode/discretization/connection/__init__.py:148-159. -/
structure CheckGroup where
  nel : Nat
  nfaces : Nat
  deriving DecidableEq, Repr

/-- A batch as `check_connection` sees it; numbers may be negative.
Code: meshmode/discretization/connection/direct.py:78-149. -/
structure RawBatch where
  fromGroup : Int
  fromEls : List Int
  toEls : List Int
  face : Option Int
  deriving DecidableEq, Repr

/-- Exceptions. Code: meshmode/discretization/connection/__init__.py:144-159,
meshmode/discretization/connection/direct.py:434-441. -/
inductive InspectErr where
  /-- `IndexError`: no such group -/
  | index
  /-- failed assertion -/
  | assertion
  /-- exception of `find_point_to_point_mapping` -/
  | matching
  deriving DecidableEq, Repr

/-- `sequence[i]` in Python: negative numbers count from the end.
Code: meshmode/discretization/connection/__init__.py:148. -/
def seqAt {α : Type} (l : List α) (i : Int) : Option α :=
  if 0 ≤ i then l[i.toNat]?
  else if 0 ≤ i + l.length then l[(i + l.length).toNat]? else none

/-- The assertions about a batch, meshmode/discretization/connection/__init__.py:154-159. -/
def batchFits (fgrp tgrp : CheckGroup) (b : RawBatch) : Bool :=
  (b.fromEls.all fun e => decide (0 ≤ e)) && (b.toEls.all fun e => decide (0 ≤ e)) &&
    (b.fromEls.all fun e => decide (e < fgrp.nel)) &&
    (b.toEls.all fun e => decide (e < tgrp.nel)) &&
    match b.face with
    | none => true
    | some f => decide (0 ≤ f) && decide (f < fgrp.nfaces)

/-- The body of the loops, meshmode/discretization/connection/__init__.py:148-159. -/
def checkBatch (fromD : List CheckGroup) (tgrp : CheckGroup) (b : RawBatch) :
    Except InspectErr Unit :=
  match seqAt fromD b.fromGroup with
  | none => .error .index
  | some fgrp => if batchFits fgrp tgrp b then .ok () else .error .assertion

/-- The batches of one group, meshmode/discretization/connection/__init__.py:147-159. -/
def checkConnBatches (fromD : List CheckGroup) (tgrp : CheckGroup) : List RawBatch → Except InspectErr Unit
  | [] => .ok ()
  | b :: bs => match checkBatch fromD tgrp b with
    | .ok _ => checkConnBatches fromD tgrp bs
    | .error e => .error e

/-- The loop over the groups, meshmode/discretization/connection/__init__.py:146-159. -/
def checkConnGroups (fromD : List CheckGroup) : List (List RawBatch × CheckGroup) → Except InspectErr Unit
  | [] => .ok ()
  | p :: ps => match checkConnBatches fromD p.2 p.1 with
    | .ok _ => checkConnGroups fromD ps
    | .error e => .error e

/-- `check_connection`, meshmode/discretization/connection/__init__.py:140-159. -/
def checkConnection (fromD toD : List CheckGroup) (groups : List (List RawBatch)) :
    Except InspectErr Unit :=
  if groups.length ≠ toD.length then .error .assertion else checkConnGroups fromD (groups.zip toD)

/-- The batch of a connection as `check_connection` sees it.
Code: meshmode/discretization/connection/__init__.py:150-152. -/
def Batch.raw {U : Type} (b : Batch U) : RawBatch where
  fromGroup := b.fromGroup
  fromEls := b.fromEls.map fun e : Nat => (e : Int)
  toEls := b.toEls.map fun e : Nat => (e : Int)
  face := b.face.map fun e : Nat => (e : Int)

section
variable {K : Type} [Field K] [LinearOrder K]

/-- The tolerance of `find_point_to_point_mapping`, meshmode/mesh/tools.py:286-290; `eps` is the machine
epsilon. -/
def matchTol (eps : K) (multiplier : Option K) : K := eps * multiplier.getD 250

/-- `_resample_point_pick_indices`, meshmode/discretization/connection/direct.py:423-446, with a tolerance;
outer `none` if matching raises. -/
def pickAt (d : Nat) (eps : K) (fuel : Nat) (multiplier : Option K) (nodes unit : List (Nat → K)) :
    Option (Option (List Nat)) :=
  (p2pMapping d (matchTol eps multiplier) 256 fuel nodes unit).map fun r => r.mapM id

/-- `is_permutation`, meshmode/discretization/connection/direct.py:465-478, for the batches of all groups in
order; `unit` are the unit nodes of the source groups.  `all` ends at the first batch without picks. -/
def isPermutation (d : Nat) (eps : K) (fuel : Nat) (multiplier : Option K)
    (unit : List (List (Nat → K))) : List (Batch (List (Nat → K))) → Except InspectErr Bool
  | [] => .ok true
  | b :: bs =>
    match unit[b.fromGroup]? with
    | none => .error .index
    | some un =>
      match pickAt d eps fuel multiplier b.nodes un with
      | none => .error .matching
      | some none => .ok false
      | some (some _) => isPermutation d eps fuel multiplier unit bs

end

/-! ## Specification -/

/-- All numbers of the batch are those of elements and faces there are.
(Specification or proof vocabulary, no code.) -/
def RawBatch.InRange (b : RawBatch) (fromD : List CheckGroup) (tgrp : CheckGroup) : Prop :=
  ∃ (k : Nat) (fgrp : CheckGroup), (b.fromGroup = k ∨ b.fromGroup = (k : Int) - fromD.length) ∧
    fromD[k]? = some fgrp ∧ (∀ e ∈ b.fromEls, ∃ n < fgrp.nel, e = (n : Int)) ∧
    (∀ e ∈ b.toEls, ∃ n < tgrp.nel, e = (n : Int)) ∧
    ∀ f, b.face = some f → ∃ n < fgrp.nfaces, f = (n : Int)

/-- The same for a batch with nonnegative numbers. (Specification or proof vocabulary, no code.) -/
def Batch.InRange {U : Type} (b : Batch U) (fromD : List CheckGroup) (tnel : Nat) : Prop :=
  ∃ fgrp, fromD[b.fromGroup]? = some fgrp ∧ (∀ e ∈ b.fromEls, e < fgrp.nel) ∧
    (∀ e ∈ b.toEls, e < tnel) ∧ ∀ f, b.face = some f → f < fgrp.nfaces

/-! ## Lemmas -/

theorem seqAt_iff {α : Type} {l : List α} {i : Int} {a : α} :
    seqAt l i = some a ↔ ∃ k : Nat, (i = k ∨ i = (k : Int) - l.length) ∧ l[k]? = some a := by
  unfold seqAt
  constructor
  · intro h
    split at h
    · exact ⟨i.toNat, Or.inl (by omega), h⟩
    · split at h
      · exact ⟨(i + l.length).toNat, Or.inr (by omega), h⟩
      · simp at h
  · rintro ⟨k, hk, ha⟩
    have hlt := (List.getElem?_eq_some_iff.1 ha).1
    rcases hk with rfl | rfl
    · rw [if_pos (by omega)]
      simpa using ha
    · rw [if_neg (by omega), if_pos (by omega)]
      have : ((k : Int) - l.length + l.length).toNat = k := by omega
      rw [this, ha]

theorem checkBatch_ok {fromD : List CheckGroup} {tgrp : CheckGroup} {b : RawBatch} :
    checkBatch fromD tgrp b = .ok () ↔ b.InRange fromD tgrp := by
  have key : ∀ fgrp : CheckGroup, batchFits fgrp tgrp b = true ↔
      (∀ e ∈ b.fromEls, ∃ n < fgrp.nel, e = (n : Int)) ∧
      (∀ e ∈ b.toEls, ∃ n < tgrp.nel, e = (n : Int)) ∧
      ∀ f, b.face = some f → ∃ n < fgrp.nfaces, f = (n : Int) := by
    intro fgrp
    have hn : ∀ (e : Int) (m : Nat), (∃ n < m, e = (n : Int)) ↔ 0 ≤ e ∧ e < m := by
      intro e m
      constructor
      · rintro ⟨n, hn, rfl⟩
        omega
      · rintro ⟨h0, h1⟩
        exact ⟨e.toNat, by omega, by omega⟩
    simp only [hn]
    have hface : (match b.face with
          | none => true
          | some f => decide (0 ≤ f) && decide (f < fgrp.nfaces)) = true ↔
        ∀ f, b.face = some f → 0 ≤ f ∧ f < fgrp.nfaces := by
      cases b.face <;> simp
    rw [batchFits, Bool.and_eq_true, hface]
    simp only [Bool.and_eq_true, List.all_eq_true, decide_eq_true_eq]
    constructor
    · rintro ⟨⟨⟨⟨h1, h2⟩, h3⟩, h4⟩, h5⟩
      exact ⟨fun e he => ⟨h1 e he, h3 e he⟩, fun e he => ⟨h2 e he, h4 e he⟩, h5⟩
    · rintro ⟨h1, h2, h3⟩
      exact ⟨⟨⟨⟨fun e he => (h1 e he).1, fun e he => (h2 e he).1⟩, fun e he => (h1 e he).2⟩,
        fun e he => (h2 e he).2⟩, h3⟩
  unfold checkBatch RawBatch.InRange
  constructor
  · intro h
    cases hs : seqAt fromD b.fromGroup with
    | none => simp [hs] at h
    | some fgrp =>
      obtain ⟨k, hk, hg⟩ := seqAt_iff.1 hs
      simp only [hs] at h
      split at h
      · rename_i hc
        exact ⟨k, fgrp, hk, hg, (key fgrp).1 hc⟩
      · simp at h
  · rintro ⟨k, fgrp, hk, hg, h⟩
    have hs := seqAt_iff.2 ⟨k, hk, hg⟩
    simp only [hs]
    rw [if_pos ((key fgrp).2 h)]

theorem checkConnBatches_ok {fromD : List CheckGroup} {tgrp : CheckGroup} {bs : List RawBatch} :
    checkConnBatches fromD tgrp bs = .ok () ↔ ∀ b ∈ bs, b.InRange fromD tgrp := by
  induction bs with
  | nil => simp [checkConnBatches]
  | cons b bs ih =>
    rw [checkConnBatches, List.forall_mem_cons, ← ih, ← checkBatch_ok]
    cases checkBatch fromD tgrp b <;> simp

theorem checkConnGroups_ok {fromD : List CheckGroup} {ps : List (List RawBatch × CheckGroup)} :
    checkConnGroups fromD ps = .ok () ↔ ∀ p ∈ ps, ∀ b ∈ p.1, b.InRange fromD p.2 := by
  induction ps with
  | nil => simp [checkConnGroups]
  | cons p ps ih =>
    rw [checkConnGroups, List.forall_mem_cons, ← ih, ← checkConnBatches_ok]
    cases checkConnBatches fromD p.2 p.1 <;> simp

theorem raw_inRange {U : Type} {b : Batch U} {fromD : List CheckGroup} {tgrp : CheckGroup} :
    b.raw.InRange fromD tgrp ↔ b.InRange fromD tgrp.nel := by
  unfold RawBatch.InRange Batch.InRange Batch.raw
  constructor
  · rintro ⟨k, fgrp, hk, hg, h1, h2, h3⟩
    have hlt := (List.getElem?_eq_some_iff.1 hg).1
    have : b.fromGroup = k := by
      rcases hk with hk | hk <;> simp only at hk <;> omega
    refine ⟨fgrp, this ▸ hg, ?_, ?_, ?_⟩
    · intro e he
      obtain ⟨n, hn, he'⟩ := h1 e (List.mem_map_of_mem he)
      omega
    · intro e he
      obtain ⟨n, hn, he'⟩ := h2 e (List.mem_map_of_mem he)
      omega
    · intro f hf
      obtain ⟨n, hn, he'⟩ := h3 f (by simp [hf])
      omega
  · rintro ⟨fgrp, hg, h1, h2, h3⟩
    refine ⟨b.fromGroup, fgrp, Or.inl rfl, hg, ?_, ?_, ?_⟩
    · intro e he
      obtain ⟨n, hn, rfl⟩ := List.mem_map.1 he
      exact ⟨n, h1 n hn, rfl⟩
    · intro e he
      obtain ⟨n, hn, rfl⟩ := List.mem_map.1 he
      exact ⟨n, h2 n hn, rfl⟩
    · intro f hf
      obtain ⟨n, hn, rfl⟩ := Option.map_eq_some_iff.1 hf
      exact ⟨n, h3 n hn, rfl⟩

/-! ## C98: `check_connection` -/

/-- C98: the check passes exactly if there are as many groups as in the target discretization and all
numbers of the batches are in range. -/
theorem C98_check_iff (fromD toD : List CheckGroup) (groups : List (List RawBatch)) :
    checkConnection fromD toD groups = .ok () ↔ groups.length = toD.length ∧
      ∀ (t : Nat) bs tgrp, groups[t]? = some bs → toD[t]? = some tgrp →
        ∀ b ∈ bs, b.InRange fromD tgrp := by
  unfold checkConnection
  by_cases hl : groups.length = toD.length
  · simp only [hl, ne_eq, not_true_eq_false, if_false, true_and]
    rw [checkConnGroups_ok]
    constructor
    · intro h t bs tgrp hb ht
      exact h (bs, tgrp) (List.mem_iff_getElem?.2 ⟨t, List.getElem?_zip_eq_some (z := (bs, tgrp)) |>.2 ⟨hb, ht⟩⟩)
    · intro h p hp
      obtain ⟨t, ht⟩ := List.mem_iff_getElem?.1 hp
      obtain ⟨h1, h2⟩ := (List.getElem?_zip_eq_some (z := p)).1 ht
      exact h t p.1 p.2 h1 h2
  · simp [hl]

theorem checkConnGroups_index {fromD : List CheckGroup} {ps : List (List RawBatch × CheckGroup)}
    (h : ∀ p ∈ ps, ∀ b ∈ p.1, (seqAt fromD b.fromGroup).isSome) :
    checkConnGroups fromD ps = .ok () ∨ checkConnGroups fromD ps = .error .assertion := by
  have hb : ∀ tgrp (b : RawBatch), (seqAt fromD b.fromGroup).isSome →
      checkBatch fromD tgrp b = .ok () ∨ checkBatch fromD tgrp b = .error .assertion := by
    intro tgrp b hb
    obtain ⟨g, hg⟩ := Option.isSome_iff_exists.1 hb
    unfold checkBatch
    simp only [hg]
    split
    · exact Or.inl rfl
    · exact Or.inr rfl
  have hbs : ∀ tgrp (bs : List RawBatch), (∀ b ∈ bs, (seqAt fromD b.fromGroup).isSome) →
      checkConnBatches fromD tgrp bs = .ok () ∨ checkConnBatches fromD tgrp bs = .error .assertion := by
    intro tgrp bs
    induction bs with
    | nil => intro _; exact Or.inl rfl
    | cons b bs ih =>
      intro hall
      rcases hb tgrp b (hall b List.mem_cons_self) with hx | hx
      · simp only [checkConnBatches, hx]
        exact ih fun b' hb' => hall b' (List.mem_cons_of_mem _ hb')
      · simp [checkConnBatches, hx]
  induction ps with
  | nil => exact Or.inl rfl
  | cons p ps ih =>
    rcases hbs p.2 p.1 (h p List.mem_cons_self) with hx | hx
    · simp only [checkConnGroups, hx]
      exact ih fun p' hp' => h p' (List.mem_cons_of_mem _ hp')
    · simp [checkConnGroups, hx]

/-- C98: if the check does not pass, an assertion fails, unless a batch names a group that does not exist. -/
theorem C98_check_errors (fromD toD : List CheckGroup) (groups : List (List RawBatch))
    (h : ∀ bs ∈ groups, ∀ b ∈ bs, ∃ k < fromD.length, b.fromGroup = (k : Int) ∨
      b.fromGroup = (k : Int) - fromD.length) :
    checkConnection fromD toD groups = .ok () ∨ checkConnection fromD toD groups = .error .assertion := by
  unfold checkConnection
  split
  · exact Or.inr rfl
  · refine checkConnGroups_index ?_
    intro p hp b hb
    obtain ⟨k, hk, hk'⟩ := h p.1 (List.of_mem_zip hp).1 b hb
    rw [Option.isSome_iff_exists]
    exact ⟨fromD[k], seqAt_iff.2 ⟨k, hk', List.getElem?_eq_getElem hk⟩⟩

/-- C98: for connections with nonnegative numbers, as the library makes them. -/
theorem C98_check_batches {U : Type} (fromD toD : List CheckGroup) (groups : List (List (Batch U))) :
    checkConnection fromD toD (groups.map fun bs => bs.map Batch.raw) = .ok () ↔
      groups.length = toD.length ∧ ∀ (t : Nat) bs tgrp, groups[t]? = some bs → toD[t]? = some tgrp →
        ∀ b ∈ bs, b.InRange fromD tgrp.nel := by
  rw [C98_check_iff, List.length_map]
  refine and_congr_right fun _ => ?_
  constructor
  · intro h t bs tgrp hb ht b hm
    exact raw_inRange.1 (h t (bs.map Batch.raw) tgrp (by rw [List.getElem?_map, hb]; rfl) ht b.raw
      (List.mem_map_of_mem hm))
  · intro h t bs tgrp hb ht b hm
    rw [List.getElem?_map] at hb
    obtain ⟨bs', hb', rfl⟩ := Option.map_eq_some_iff.1 hb
    obtain ⟨b', hb'', rfl⟩ := List.mem_map.1 hm
    exact raw_inRange.2 (h t bs' tgrp hb' ht b' hb'')

section
variable {R U : Type} [CommRing R]

/-- C98: a connection that passes the check reads only entries of elements there are: data that agree on these
give the same result. -/
theorem C98_check_reads {c : DirectConn R U} {fromD toD : List CheckGroup}
    (hfrom : fromD.map CheckGroup.nel = c.fromD.map DGroup.nel)
    (hcheck : checkConnection fromD toD (c.groups.map fun bs => bs.map Batch.raw) = .ok ())
    (hpick : ∀ g ∈ c.fromD, ∀ u I, g.pick u = some I → ∀ i, I.getD i 0 < g.ndof) {merge : Bool}
    {x y u v : DofArr R} (hxy : ∀ (g : Nat) grp e i, c.fromD[g]? = some grp → e < grp.nel → i < grp.ndof →
      x g e i = y g e i)
    (hu : c.call merge x = some u) (hv : c.call merge y = some v) {t : Nat} (ht : t < c.groups.length)
    (e i : Nat) : u t e i = v t e i := by
  obtain ⟨hl, hall⟩ := (C98_check_batches _ _ _).1 hcheck
  have hbs := List.getElem?_eq_getElem ht
  have htg : toD[t]? = some (toD[t]'(hl ▸ ht)) := List.getElem?_eq_getElem _
  have hb : ∀ b ∈ c.groups[t], ∃ g, c.fromD[b.fromGroup]? = some g ∧ (∀ f ∈ b.fromEls, f < g.nel) ∧
      (g.pick b.nodes ≠ none → g.ndof ≠ 0) := by
    intro b hm
    obtain ⟨fg, h1, h2, _⟩ := hall t _ _ hbs htg b hm
    have h3 : (fromD.map CheckGroup.nel)[b.fromGroup]? = some fg.nel := by rw [List.getElem?_map, h1]; rfl
    rw [hfrom, List.getElem?_map] at h3
    obtain ⟨g, hg, hgn⟩ := Option.map_eq_some_iff.1 h3
    refine ⟨g, hg, fun f hf => hgn ▸ h2 f hf, ?_⟩
    intro hp
    obtain ⟨I, hI⟩ := Option.ne_none_iff_exists'.1 hp
    have := hpick g (List.mem_of_getElem? hg) _ I hI 0
    omega
  rw [groupCall_batchSum hb (call_getElem hu hbs), groupCall_batchSum hb (call_getElem hv hbs)]
  congr 1
  apply List.map_congr_left
  intro b hm
  obtain ⟨g, hg, hf, _⟩ := hb b hm
  unfold batchEval
  cases hs : b.source e with
  | none => rfl
  | some f =>
    have hfn := hf f (batch_source_mem hs).2
    simp only [hg]
    cases hp : g.pick b.nodes with
    | some I => exact hxy _ g f _ hg hfn (hpick g (List.mem_of_getElem? hg) _ I hp i)
    | none =>
      simp only
      apply Finset.sum_congr rfl
      intro j hj
      rw [hxy _ g f j hg hfn (Finset.mem_range.1 hj)]

end

/-! ## C98: the connections of the library pass the check -/

theorem check_of_batches {U : Type} {fromD toD : List CheckGroup} {groups : List (List (Batch U))}
    {sizes : List Nat} (hto : toD.map CheckGroup.nel = sizes) (hl : groups.length = sizes.length)
    (h : ∀ (t : Nat) bs n, groups[t]? = some bs → sizes[t]? = some n → ∀ b ∈ bs, b.InRange fromD n) :
    checkConnection fromD toD (groups.map fun bs => bs.map Batch.raw) = .ok () := by
  subst hto
  rw [C98_check_batches]
  refine ⟨by simpa using hl, ?_⟩
  intro t bs tgrp hb ht b hm
  exact h t bs tgrp.nel hb (by rw [List.getElem?_map, ht]; rfl) b hm

section
variable {N M U A : Type}

theorem setRows_length {α : Type} (arr : List (Option α)) (idx : List Nat) (rows : List (Option α)) :
    (setRows arr idx rows).length = arr.length := by
  unfold setRows
  generalize idx.zip rows = l
  induction l generalizing arr with
  | nil => rfl
  | cons p l ih => rw [List.foldl_cons, ih, List.length_set]

theorem sharedFaces_length (un : Nat → U) (row : Nat → Nat → Option (BdryEl M)) (igrp : Nat)
    (faces : List ElFace) (fs : List Nat) (base : Nat) (arr : List (Option (BdryEl M))) :
    (sharedFaces un row igrp faces fs base arr).1.length = arr.length := by
  induction fs generalizing base arr with
  | nil => rfl
  | cons f fs ih =>
    simp only [sharedFaces]
    rw [ih, setRows_length]

theorem mem_faceEls {faces : List ElFace} {f e : Nat} (h : e ∈ faceEls faces f) : ⟨e, f⟩ ∈ faces := by
  obtain ⟨k, hk⟩ := List.mem_iff_getElem?.1 h
  exact (List.mem_filter.1 (List.mem_of_getElem? ((faceEls_getElem? _ _ _ _).1 hk))).1

theorem faceGroups_inRange {perFace : Bool} {un : Nat → U} {row : Nat → Nat → Option (BdryEl M)}
    {igrp nel nf : Nat} {faces : List ElFace} (hreq : ∀ ef ∈ faces, ef.face < nf ∧ ef.el < nel)
    {fromD : List CheckGroup} (hg : fromD[igrp]? = some ⟨nel, nf⟩)
    {p : List (Option (BdryEl M)) × List (Batch U)} (hp : p ∈ faceGroups perFace un row igrp nf faces)
    {b : Batch U} (hb : b ∈ p.2) : b.InRange fromD p.1.length := by
  unfold faceGroups at hp
  cases perFace with
  | true =>
    simp only [if_true] at hp
    obtain ⟨f, hf, rfl⟩ := List.mem_map.1 hp
    obtain rfl := List.mem_singleton.1 hb
    refine ⟨_, hg, fun e he => (hreq _ (mem_faceEls he)).2, ?_, ?_⟩
    · intro e he
      rw [setRows_length, List.length_replicate]
      simpa [faceBatch] using he
    · intro f' hf'
      obtain rfl : f = f' := by simpa [faceBatch] using hf'
      exact List.mem_range.1 hf
  | false =>
    simp only [Bool.false_eq_true, if_false] at hp
    split at hp
    · simp at hp
    obtain rfl := List.mem_singleton.1 hp
    obtain ⟨k, hk⟩ := List.mem_iff_getElem?.1 hb
    have hk' := hk
    rw [sharedFaces_batches] at hk
    obtain ⟨f, hf, rfl⟩ := Option.map_eq_some_iff.1 hk
    refine ⟨_, hg, fun e he => (hreq _ (mem_faceEls he)).2, ?_, ?_⟩
    · intro e he
      have hm : e ∈ (sharedFaces un row igrp faces (List.range nf) 0
          (List.replicate faces.length none)).2.flatMap Batch.toEls :=
        List.mem_flatMap.2 ⟨_, hb, he⟩
      rw [sharedFaces_toEls] at hm
      have hlen := (filter_partition_perm nf faces fun ef hef => (hreq ef hef).1).length_eq
      unfold byFace at hlen
      rw [sharedFaces_length, List.length_replicate, ← hlen]
      simpa using hm
    · intro f' hf'
      obtain rfl : f = f' := by simpa [faceBatch] using hf'
      exact List.mem_range.1 (List.mem_of_getElem? hf)

theorem makeFaceRestriction_eq {perFace : Bool} {un : Nat → Nat → U} {res : Nat → Nat → N → M}
    {sel : FaceSel} {nv : Nat} {groups : List (ElGroup N)} {fags : List (List (Fag A))}
    {r : FaceRestr M U} (h : makeFaceRestriction perFace un res sel nv groups fags = some r) :
    r = ⟨faceVertexNrs sel nv groups fags,
      ((groups.zip fags).zipIdx.flatMap fun p =>
        faceGroups perFace (un p.2) (bdryEl (res p.2) (faceVertexNrs sel nv groups fags) p.1.1) p.2 p.1.1.nfaces
          (groupFaces sel p.1.1.nelements p.1.1.nfaces p.1.2)).map Prod.fst,
      ((groups.zip fags).zipIdx.flatMap fun p =>
        faceGroups perFace (un p.2) (bdryEl (res p.2) (faceVertexNrs sel nv groups fags) p.1.1) p.2 p.1.1.nfaces
          (groupFaces sel p.1.1.nelements p.1.1.nfaces p.1.2)).map Prod.snd⟩ := by
  unfold makeFaceRestriction at h
  simp only at h
  rw [ite_eq_iff] at h
  rcases h with ⟨_, h⟩ | ⟨_, h⟩
  · simp at h
  · exact (Option.some.inj h).symm

/-- C98: a face restriction passes the check, for every selection of faces whose elements and faces exist. -/
theorem C98_face_restriction {perFace : Bool} {un : Nat → Nat → U} {res : Nat → Nat → N → M}
    {sel : FaceSel} {nv : Nat} {groups : List (ElGroup N)} {fags : List (List (Fag A))}
    {r : FaceRestr M U} (h : makeFaceRestriction perFace un res sel nv groups fags = some r)
    (hreq : ∀ (g : Nat) grp fg, groups[g]? = some grp → fags[g]? = some fg →
      ∀ ef ∈ groupFaces sel grp.nelements grp.nfaces fg, ef.face < grp.nfaces ∧ ef.el < grp.nelements)
    {toD : List CheckGroup} (hto : toD.map CheckGroup.nel = r.groups.map List.length) :
    checkConnection (groups.map fun g => ⟨g.nelements, g.nfaces⟩) toD
      (r.batches.map fun bs => bs.map Batch.raw) = .ok () := by
  obtain rfl := makeFaceRestriction_eq h
  refine check_of_batches hto (by simp) ?_
  intro t bs n hb hn b hm
  simp only [List.getElem?_map] at hb hn
  obtain ⟨p, hp, rfl⟩ := Option.map_eq_some_iff.1 hb
  rw [hp] at hn
  obtain rfl := Option.some.inj hn
  obtain ⟨q, hq, hpq⟩ := List.mem_flatMap.1 (List.mem_of_getElem? hp)
  obtain ⟨⟨grp, fg⟩, g⟩ := q
  have hz := List.mem_zipIdx_iff_getElem?.1 hq
  obtain ⟨h1, h2⟩ := (List.getElem?_zip_eq_some (z := (grp, fg))).1 hz
  exact faceGroups_inRange (hreq g grp fg h1 h2) (by rw [List.getElem?_map, h1]; rfl) hpq hm

theorem flatMap_moves_mem {b : Batch U} {bs : List (Batch U)} (hb : b ∈ bs)
    (hlen : b.toEls.length = b.fromEls.length) {e : Nat} (he : e ∈ b.fromEls) :
    ∃ t, (t, b.fromGroup, e) ∈ bs.flatMap Batch.moves := by
  obtain ⟨k, hk⟩ := List.mem_iff_getElem?.1 he
  have hkl := (List.getElem?_eq_some_iff.1 hk).1
  refine ⟨b.toEls[k]'(by omega), List.mem_flatMap.2 ⟨b, hb, ?_⟩⟩
  unfold Batch.moves
  refine List.mem_map.2 ⟨(b.toEls[k]'(by omega), e), ?_, rfl⟩
  exact List.mem_iff_getElem?.2 ⟨k, List.getElem?_zip_eq_some (z := (b.toEls[k]'(by omega), e)) |>.2
    ⟨List.getElem?_eq_getElem _, hk⟩⟩

theorem mapM_flatten_forall {α β : Type} {P : β → Prop} {F : α → Option (List β)} {l : List α} {bs : List β}
    (h : (l.mapM F).map List.flatten = some bs) (hF : ∀ a ∈ l, ∀ ys, F a = some ys → ∀ y ∈ ys, P y) :
    ∀ y ∈ bs, P y := by
  obtain ⟨yss, h1, rfl⟩ := Option.map_eq_some_iff.1 h
  intro y hy
  obtain ⟨ys, hys, hy'⟩ := List.mem_flatten.1 hy
  obtain ⟨k, hk⟩ := List.mem_iff_getElem?.1 hys
  obtain ⟨hl, h2⟩ := mapM_getElem?_some h1
  have hkl : k < l.length := by rw [← hl]; exact (List.getElem?_eq_some_iff.1 hk).1
  obtain ⟨b, hb, hb'⟩ := h2 k _ (List.getElem?_eq_getElem hkl)
  rw [hk] at hb
  obtain rfl := Option.some.inj hb
  exact hF _ (List.getElem_mem hkl) _ hb' y hy'

theorem crossBatches_face {cross : List (Nat × Nat) → Option (CrossNodes U)} {iSrc : Nat}
    {pairs : List (Nat × Nat)} {bs : List (Batch U)} (h : crossBatches cross iSrc pairs = some bs) :
    ∀ b ∈ bs, b.face = none := by
  unfold crossBatches at h
  split at h
  · obtain rfl := Option.some.inj h
    simp
  · simp only [Option.bind_eq_bind, Option.bind_eq_some_iff, Option.some.injEq] at h
    obtain ⟨_, _, _, _, rfl⟩ := h
    intro b hb
    obtain ⟨_, _, rfl⟩ := List.mem_map.1 hb
    rfl

theorem oppGroup_face {cross : Nat → Nat → A → List (Nat × Nat) → Option (CrossNodes U)}
    {vbc : List (List (Batch U))} {i nf : Nat} {fg : List (Fag A)} {bs : List (Batch U)}
    (h : oppGroup cross vbc i nf fg = some bs) : ∀ b ∈ bs, b.face = none := by
  unfold oppGroup at h
  refine mapM_flatten_forall h fun iSrc _ ys hys => ?_
  refine mapM_flatten_forall hys fun adj _ zs hzs => ?_
  refine mapM_flatten_forall hzs fun f _ ws hws => ?_
  simp only [Option.bind_eq_bind, Option.bind_eq_some_iff] at hws
  obtain ⟨pairs, _, hws⟩ := hws
  exact crossBatches_face hws

theorem partGroup_face {cross : Nat → Nat → A → List (Nat × Nat) → Option (CrossNodes U)}
    {sizes : List Nat} {vbc : List (List (Batch U))} {infos : List (RemoteInfo A)} {i : Nat}
    {bs : List (Batch U)} (h : partGroup cross sizes vbc infos i = some bs) : ∀ b ∈ bs, b.face = none := by
  unfold partGroup at h
  refine mapM_flatten_forall h fun iSrc _ ys hys => ?_
  refine mapM_flatten_forall hys fun adj _ zs hzs => ?_
  simp only [Option.bind_eq_bind, Option.bind_eq_some_iff] at hzs
  obtain ⟨pairs, _, hws⟩ := hzs
  exact crossBatches_face hws

/-- C98: an opposite-face connection passes the check. -/
theorem C98_opposite {un : Nat → Nat → U} {res : Nat → Nat → N → M}
    {nv : Nat} {groups : List (ElGroup N)} {fags : List (List (Fag A))}
    {r : FaceRestr M U} (h : makeFaceRestriction false un res .interior nv groups fags = some r)
    (hnf : ∀ g ∈ groups, 0 < g.nfaces) (ok : InteriorOK groups fags)
    {cross : Nat → Nat → A → List (Nat × Nat) → Option (CrossNodes U)} {opp : List (List (Batch U))}
    (hopp : makeOpposite cross (groups.map ElGroup.nfaces) fags r.batches = some opp)
    {bdryD : List CheckGroup} (hD : bdryD.map CheckGroup.nel = r.groups.map List.length) :
    checkConnection bdryD bdryD (opp.map fun bs => bs.map Batch.raw) = .ok () := by
  obtain ⟨hl, hall⟩ := C29_moves h hnf ok hopp
  obtain ⟨_, hone⟩ := makeOpposite_groups hopp
  obtain ⟨hc1, hc2⟩ := C27_group_count h ok.len (fun _ => hnf)
  simp only [Bool.false_eq_true, if_false] at hc1
  refine check_of_batches hD (by simpa using hl) ?_
  intro i bs n hi hn b hb
  obtain ⟨⟨els, hels, hperm⟩, hmoves⟩ := hall i bs hi
  rw [List.getElem?_map, hels] at hn
  obtain rfl := Option.some.inj hn
  have hi' : i < groups.length := by
    have := (List.getElem?_eq_some_iff.1 hi).1
    omega
  have hg := List.getElem?_eq_getElem hi'
  have hfg := List.getElem?_eq_getElem (ok.len ▸ hi' : i < fags.length)
  have hog := hone i bs hi
  have hFD : fags.getD i [] = fags[i]'(ok.len ▸ hi') := by rw [List.getD_eq_getElem?_getD, hfg]; rfl
  have hN : (groups.map ElGroup.nfaces).getD i 0 = groups[i].nfaces := by
    rw [List.getD_eq_getElem?_getD, List.getElem?_map, hg]; rfl
  rw [hFD, hN] at hog
  obtain ⟨_, hQ⟩ := oppGroup_moves h hnf ok hg hfg hog
  obtain ⟨hlen, hne, _⟩ := hQ b hb
  obtain ⟨s0, hs0⟩ : ∃ s0, s0 ∈ b.fromEls := by
    apply List.exists_mem_of_ne_nil
    intro h0
    rw [h0] at hlen
    exact hne (List.length_eq_zero_iff.1 hlen)
  have hsrc : ∀ s ∈ b.fromEls, ∃ els', r.groups[b.fromGroup]? = some els' ∧ s < els'.length := by
    intro s hs
    obtain ⟨t, ht⟩ := flatMap_moves_mem hb hlen hs
    obtain ⟨el, f, el', f', hacr, _, hso⟩ := (hmoves t b.fromGroup s).1 ht
    obtain ⟨grp', hg', hel', hf'⟩ := ok.valid _ _ _ _ _ _ (ok.symm _ _ _ _ _ _ hacr)
    have hjl : b.fromGroup < fags.length := ok.len ▸ (List.getElem?_eq_some_iff.1 hg').1
    obtain ⟨hr, _⟩ := C27_elements h ok.len (fun _ => hnf) hg' (List.getElem?_eq_getElem hjl) hf' (by
      intro ef hef
      obtain ⟨fag, hfag, row, hrow, h1, h2⟩ := (C27_requested .interior _ _ _ ef.el ef.face).1 hef
      have hval : ∃ grp2, groups[b.fromGroup]? = some grp2 ∧ row.el < grp2.nelements ∧ row.face < grp2.nfaces := by
        cases fag with
        | interior ig j rows aff =>
          exact ok.valid b.fromGroup row.el row.face j row.nel row.nface
            ⟨_, List.getElem?_eq_getElem hjl, ig, rows, aff, hfag, hrow⟩
        | _ => simp [Fag.interiorRows] at hrow
      obtain ⟨grp2, hg2, _, hf2⟩ := hval
      rw [hg'] at hg2
      obtain rfl := Option.some.inj hg2
      omega)
    simp only [bdryGroupNr, Bool.false_eq_true, if_false] at hr
    refine ⟨_, hr, ?_⟩
    rw [List.length_map]
    have : interiorOrigins groups fags b.fromGroup =
        origins false grp'.nfaces (groupFaces .interior grp'.nelements grp'.nfaces fags[b.fromGroup]) f' := by
      simp [interiorOrigins, origins, hg', List.getElem?_eq_getElem hjl]
    rw [← this]
    exact (List.getElem?_eq_some_iff.1 hso).1
  obtain ⟨els', hels', _⟩ := hsrc s0 hs0
  have hbd : (bdryD.map CheckGroup.nel)[b.fromGroup]? = some els'.length := by
    rw [hD, List.getElem?_map, hels']; rfl
  rw [List.getElem?_map] at hbd
  obtain ⟨cg, hcg, hcgn⟩ := Option.map_eq_some_iff.1 hbd
  refine ⟨cg, hcg, ?_, ?_, ?_⟩
  · intro s hs
    obtain ⟨els2, h2, h3⟩ := hsrc s hs
    rw [hels'] at h2
    obtain rfl := Option.some.inj h2
    omega
  · intro e he
    have : e ∈ List.range els.length := hperm.mem_iff.1 (List.mem_flatMap.2 ⟨b, hb, he⟩)
    simpa using this
  · intro f hf
    rw [oppGroup_face hog b hb] at hf
    simp at hf

end

section two
variable {N M U A : Type} [DecidableEq A] {un un' : Nat → Nat → U} {res res' : Nat → Nat → N → M} {nv nv' : Nat}
  {gP gQ : List (ElGroup N)} {fP fQ : List (List (Fag A))} {tP tQ : BTag} {p q : Nat}
  {rP rQ : FaceRestr M U}

/-- C98: the connection of a part boundary to that of another part passes the check. -/
theorem C98_partition
    (hP : makeFaceRestriction false un res (.tag tQ) nv gP fP = some rP)
    (hQ : makeFaceRestriction false un' res' (.tag tP) nv' gQ fQ = some rQ)
    (hnfP : ∀ g ∈ gP, 0 < g.nfaces) (hnfQ : ∀ g ∈ gQ, 0 < g.nfaces)
    (sP : PartSide gP fP tQ q (gQ.map ElGroup.nelements))
    (sQ : PartSide gQ fQ tP p (gP.map ElGroup.nelements))
    (symm : ∀ i el f j el' f', AcrossParts fP q (gQ.map ElGroup.nelements) i el f j el' f' ↔
      AcrossParts fQ p (gP.map ElGroup.nelements) j el' f' i el f)
    {cross : Nat → Nat → A → List (Nat × Nat) → Option (CrossNodes U)} {conn : List (List (Batch U))}
    (hconn : makePartConn cross (gP.map ElGroup.nelements) rP.batches (makeRemoteInfos p fQ rQ.batches) =
        some conn)
    {bdryP bdryQ : List CheckGroup} (hDP : bdryP.map CheckGroup.nel = rP.groups.map List.length)
    (hDQ : bdryQ.map CheckGroup.nel = rQ.groups.map List.length) :
    checkConnection bdryQ bdryP (conn.map fun bs => bs.map Batch.raw) = .ok () := by
  obtain ⟨⟨hl, hall⟩, hbatch⟩ := (partConn_all hP hQ hnfP hnfQ sP sQ symm cross).2 conn hconn
  obtain ⟨_, hone⟩ := makePartConn_groups hconn
  refine check_of_batches hDP (by simpa using hl) ?_
  intro i bs n hi hn b hb
  obtain ⟨⟨els, hels, hperm⟩, hmoves⟩ := hall i bs hi
  rw [List.getElem?_map, hels] at hn
  obtain rfl := Option.some.inj hn
  obtain ⟨hlen, hne, _⟩ := hbatch i bs hi b hb
  obtain ⟨s0, hs0⟩ : ∃ s0, s0 ∈ b.fromEls := by
    apply List.exists_mem_of_ne_nil
    intro h0
    rw [h0] at hlen
    exact hne (List.length_eq_zero_iff.1 hlen)
  have hsrc : ∀ s ∈ b.fromEls, ∃ els', rQ.groups[b.fromGroup]? = some els' ∧ s < els'.length := by
    intro s hs
    obtain ⟨t, ht⟩ := flatMap_moves_mem hb hlen hs
    obtain ⟨el, f, el', f', hacr, _, hso⟩ := (hmoves t b.fromGroup s).1 ht
    have hso' := hso
    unfold tagOrigins at hso'
    cases hg' : gQ[b.fromGroup]? with
    | none => simp [hg'] at hso'
    | some grp' =>
      cases hfg' : fQ[b.fromGroup]? with
      | none => simp [hg', hfg'] at hso'
      | some fg' =>
        have hin := sQ.valid b.fromGroup grp' fg' hg' hfg'
        have hmem : ⟨el', f'⟩ ∈ groupFaces (.tag tP) grp'.nelements grp'.nfaces fg' := by
          simp only [hg', hfg'] at hso'
          exact (filter_partition_perm _ _ fun ef hef => (hin ef hef).2).mem_iff.1 (List.mem_of_getElem? hso')
        obtain ⟨hr, _⟩ := C27_elements hQ sQ.len (fun _ => hnfQ) hg' hfg' (hin _ hmem).2 (fun ef hef => (hin ef hef).2)
        simp only [bdryGroupNr, Bool.false_eq_true, if_false] at hr
        refine ⟨_, hr, ?_⟩
        rw [List.length_map]
        have : tagOrigins tP gQ fQ b.fromGroup =
            origins false grp'.nfaces (groupFaces (.tag tP) grp'.nelements grp'.nfaces fg') f' := by
          simp [tagOrigins, origins, hg', hfg']
        rw [← this]
        exact (List.getElem?_eq_some_iff.1 hso).1
  obtain ⟨els', hels', _⟩ := hsrc s0 hs0
  have hbd : (bdryQ.map CheckGroup.nel)[b.fromGroup]? = some els'.length := by
    rw [hDQ, List.getElem?_map, hels']; rfl
  rw [List.getElem?_map] at hbd
  obtain ⟨cg, hcg, hcgn⟩ := Option.map_eq_some_iff.1 hbd
  refine ⟨cg, hcg, ?_, ?_, ?_⟩
  · intro s hs
    obtain ⟨els2, h2, h3⟩ := hsrc s hs
    rw [hels'] at h2
    obtain rfl := Option.some.inj h2
    omega
  · intro e he
    have : e ∈ List.range els.length := hperm.mem_iff.1 (List.mem_flatMap.2 ⟨b, hb, he⟩)
    simpa using this
  · intro f hf
    rw [partGroup_face (hone i bs hi) b hb] at hf
    simp at hf

end two

section
variable {K : Type} [Field K]

omit [Field K] in
theorem binBatches_face (igrp : Nat) (bins : List (List (Nat × Nat))) (nodes : List (List (List K))) :
    ∀ b ∈ binBatches igrp bins nodes, b.face = none := by
  intro b hb
  unfold binBatches at hb
  obtain ⟨p, _, hp⟩ := List.mem_filterMap.1 hb
  split at hp
  · simp at hp
  · obtain rfl := Option.some.inj hp
    rfl

/-- C98: a refinement connection passes the check, if the refiner's record covers the elements. -/
theorem C98_refinement {sameMesh : Bool} {coarse F T : List (SGroup K (List K))}
    {fine : List (SGroup K (List K) × ChildShape)} {records : List RefRecord}
    {gs : List (List (Batch (List (List K))))} {s : Bool}
    (hmake : makeRefinementConn sameMesh coarse fine records = .ok (.direct F T gs s))
    (hmap : ∀ (t : Nat) g f r, coarse[t]? = some g → fine[t]? = some f → records[t]? = some r →
      ExactMapping r.mapping g.nel f.1.nel)
    {fromD toD : List CheckGroup} (hfrom : fromD.map CheckGroup.nel = coarse.map SGroup.nel)
    (hto : toD.map CheckGroup.nel = fine.map fun f => f.1.nel) :
    checkConnection fromD toD (gs.map fun bs => bs.map Batch.raw) = .ok () := by
  obtain ⟨rfl, rfl, h⟩ := make_refine_direct hmake
  obtain ⟨h1, h2, h3, h4⟩ := refineConnGroups_ok.1 h
  refine check_of_batches hto (by simpa using h3) ?_
  intro t bs n hi hn b hb
  rw [List.getElem?_map] at hn
  obtain ⟨f, hf, rfl⟩ := Option.map_eq_some_iff.1 hn
  have htl := (List.getElem?_eq_some_iff.1 hf).1
  have hr : records[t]? = some (records[t]'(by omega)) := List.getElem?_eq_getElem _
  have hc : F[t]? = some (F[t]'(by omega)) := List.getElem?_eq_getElem _
  obtain ⟨hm1, hm2⟩ := hmap t _ f _ hc hf hr
  obtain ⟨bs', hbs', hok⟩ := h4 t f _ hf hr
  rw [hi] at hbs'
  obtain rfl := Option.some.inj hbs'
  obtain ⟨_, hperm, hall, _⟩ := refineBatches_ok hok (by rw [hm2]; exact List.nodup_range)
  obtain ⟨hgrp, hfe, _⟩ := hall b hb
  have hfd : (fromD.map CheckGroup.nel)[t]? = some (F[t]'(by omega)).nel := by
    rw [hfrom, List.getElem?_map, hc]; rfl
  rw [List.getElem?_map] at hfd
  obtain ⟨cg, hcg, hcgn⟩ := Option.map_eq_some_iff.1 hfd
  refine ⟨cg, by rw [hgrp, Nat.zero_add]; exact hcg, ?_, ?_, ?_⟩
  · intro e he
    have := hfe e he
    omega
  · intro e he
    have : e ∈ List.range f.1.nel := hm2 ▸ hperm.mem_iff.1 (List.mem_flatMap.2 ⟨b, hb, he⟩)
    simpa using this
  · intro f' hf'
    unfold refineBatches at hok
    split at hok
    · simp at hok
    split at hok
    · simp at hok
    simp only [Except.ok.injEq] at hok
    rw [binBatches_face _ _ _ b (hok ▸ hb)] at hf'
    simp at hf'

omit [Field K] in
/-- C98: a connection between two discretizations of the same mesh passes the check. -/
theorem C98_same_mesh {P : Type} {toD fromD : SDiscr K P} {F T : List (SGroup K P)}
    {gs : List (List (Batch (List P)))} {s : Bool} (hmake : makeSameMesh toD fromD = .ok (.direct F T gs s))
    (hnel : fromD.groups.map SGroup.nel = toD.groups.map SGroup.nel)
    {cFrom cTo : List CheckGroup} (hfrom : cFrom.map CheckGroup.nel = fromD.groups.map SGroup.nel)
    (hto : cTo.map CheckGroup.nel = toD.groups.map SGroup.nel) :
    checkConnection cFrom cTo (gs.map fun bs => bs.map Batch.raw) = .ok () := by
  unfold makeSameMesh at hmake
  split at hmake
  · simp at hmake
  split at hmake
  · simp at hmake
  cases hg : sameMeshGroups 0 fromD.groups toD.groups with
  | error e => simp [hg, Except.map] at hmake
  | ok gs' =>
    simp only [hg, Except.map, Except.ok.injEq, SameConn.direct.injEq] at hmake
    obtain ⟨_, _, rfl, _⟩ := hmake
    obtain ⟨hl, _, rfl⟩ := (sameMeshGroups_ok _ _ _ _).1 hg
    refine check_of_batches hto (by simp [hl]) ?_
    intro t bs n hi hn b hb
    rw [List.getElem?_map] at hi
    obtain ⟨q, hq, rfl⟩ := Option.map_eq_some_iff.1 hi
    obtain rfl := List.mem_singleton.1 hb
    rw [List.getElem?_zipIdx] at hq
    obtain ⟨z, hz, rfl⟩ := Option.map_eq_some_iff.1 hq
    obtain ⟨hz1, hz2⟩ := (List.getElem?_zip_eq_some (z := z)).1 hz
    have hfd : (cFrom.map CheckGroup.nel)[t]? = some z.1.nel := by rw [hfrom, List.getElem?_map, hz1]; rfl
    have hn' : n = z.1.nel := by
      rw [← hnel, List.getElem?_map, hz1] at hn
      exact (Option.some.inj hn).symm
    rw [List.getElem?_map] at hfd
    obtain ⟨cg, hcg, hcgn⟩ := Option.map_eq_some_iff.1 hfd
    refine ⟨cg, by simpa using hcg, ?_, ?_, ?_⟩
    · intro e he
      simpa [hcgn] using he
    · intro e he
      simpa [hn'] using he
    · intro f hf
      simp at hf

end

section
variable {N M U A R : Type}

theorem embGo_length [DecidableEq U] {perFace : Bool} {fc : List (List (Batch U))} {allNel : List Nat}
    {fromUnit allUnit : List U} {vol : List (Nat × Nat)} {i : Nat} {gs : List (List (Batch U))}
    (h : embGo perFace fc allNel fromUnit allUnit vol i = some gs) (hnf : ∀ v ∈ vol, 0 < v.2) :
    gs.length = if perFace then (vol.map Prod.snd).sum else vol.length := by
  induction vol generalizing i gs with
  | nil => simp [embGo] at h; simp [← h]
  | cons v rest ih =>
    obtain ⟨nel, nf⟩ := v
    have hv : 0 < nf := hnf (nel, nf) List.mem_cons_self
    have ih := fun i gs h => ih (i := i) (gs := gs) h fun v hv => hnf v (List.mem_cons_of_mem _ hv)
    cases perFace with
    | true =>
      simp only [embGo, if_true, Option.bind_eq_bind, Option.bind_eq_some_iff, Option.some.injEq] at h
      obtain ⟨gs1, h1, gs2, h2, rfl⟩ := h
      have := ih _ _ h2
      rw [List.length_append, this, (mapM_range_getElem? _ _ h1).1]
      simp
    | false =>
      simp only [embGo, Bool.false_eq_true, if_false] at h
      rw [if_neg (by omega)] at h
      split at h
      · split at h
        · simp only [Option.bind_eq_bind, Option.bind_eq_some_iff, Option.some.injEq] at h
          obtain ⟨gs2, h2, rfl⟩ := h
          have := ih _ _ h2
          simp only [Bool.false_eq_true, if_false] at this
          simp [this]
        · simp at h
      · simp at h

theorem sum_split {nfs : List Nat} {t : Nat} (h : t < nfs.sum) :
    ∃ (g f n : Nat), nfs[g]? = some n ∧ f < n ∧ t = (nfs.take g).sum + f := by
  induction nfs generalizing t with
  | nil => simp at h
  | cons a l ih =>
    rw [List.sum_cons] at h
    by_cases hta : t < a
    · exact ⟨0, t, a, rfl, hta, by simp⟩
    · obtain ⟨g, f, n, h1, h2, h3⟩ := ih (t := t - a) (by omega)
      exact ⟨g + 1, f, n, by simpa using h1, h2, by simp; omega⟩

theorem sum_gt_length {l : List Nat} (hl : ∀ n ∈ l, 1 < n) (hne : l ≠ []) : l.length < l.sum := by
  induction l with
  | nil => exact absurd rfl hne
  | cons a l ih =>
    have := hl a (by simp)
    by_cases hl0 : l = []
    · subst hl0; simpa using this
    · have := ih (fun g hg => hl g (by simp [hg])) hl0
      simp only [List.length_cons, List.sum_cons]
      omega

/-- C98: the embedding of a face restriction into the restriction to all faces passes the check. -/
theorem C98_embedding [DecidableEq U] {perFace : Bool} {un : Nat → Nat → U}
    {res : Nat → Nat → N → M} {sel : FaceSel} {nv : Nat} {groups : List (ElGroup N)}
    {fags : List (List (Fag A))} {r ra : FaceRestr M U}
    (h : makeFaceRestriction perFace un res sel nv groups fags = some r)
    (ha : makeFaceRestriction perFace un res .all nv groups fags = some ra)
    (hlen : groups.length = fags.length) (hnf : ∀ g ∈ groups, 1 < g.nfaces)
    (hreq : ReqOK sel groups fags)
    {facesD allD : List (DGroup R U)} {fromUnit allUnit : List U} {c : DirectConn R U}
    (he : faceEmbedding (groups.map fun g => (g.nelements, g.nfaces)) r.batches facesD allD fromUnit
      allUnit = some c)
    {fromD toD : List CheckGroup} (hfrom : fromD.map CheckGroup.nel = r.groups.map List.length)
    (hto : toD.map CheckGroup.nel = ra.groups.map List.length) :
    checkConnection fromD toD (c.groups.map fun bs => bs.map Batch.raw) = .ok () := by
  have hnf' : perFace = false → ∀ g ∈ groups, 0 < g.nfaces := fun _ g hg => by
    have := hnf g hg; omega
  obtain ⟨hc1, hc2⟩ := C27_group_count h hlen hnf'
  obtain ⟨ha1, ha2⟩ := C27_group_count ha hlen hnf'
  unfold faceEmbedding at he
  simp only [Option.ite_none_left_eq_some, not_or, not_not] at he
  obtain ⟨⟨hl1, hl2⟩, he⟩ := he
  obtain ⟨gs, hgs, rfl⟩ := Option.map_eq_some_iff.1 he
  by_cases hgr : groups = []
  · subst hgr
    have hg0 : gs = [] := by simpa [embGo] using hgs.symm
    have : ra.groups = [] := by
      apply List.length_eq_zero_iff.1
      rw [ha1]
      cases perFace <;> simp
    refine check_of_batches hto (by simp [hg0, this]) ?_
    intro t bs n hi
    simp [hg0] at hi
  have hflag : ((groups.map fun g => (g.nelements, g.nfaces)).length != facesD.length) = perFace := by
    rw [hl1, ← hl2, hc2, hc1, List.length_map]
    cases perFace with
    | false => simp
    | true =>
      simp only [if_true, bne_iff_ne]
      have := sum_gt_length (l := groups.map ElGroup.nfaces) (by simpa using hnf) (by simpa using hgr)
      rw [List.length_map] at this
      omega
  rw [hflag] at hgs
  have hm : (groups.map fun g => (g.nelements, g.nfaces)).map Prod.snd = groups.map ElGroup.nfaces := by
    rw [List.map_map]; rfl
  have hpos : ∀ v ∈ groups.map fun g => (g.nelements, g.nfaces), 0 < v.2 := by
    intro v hv
    obtain ⟨gr, hgr, rfl⟩ := List.mem_map.1 hv
    have := hnf gr hgr
    simp only
    omega
  have hgl : gs.length = ra.groups.length := by
    rw [embGo_length hgs hpos, ha1, hm, List.length_map]
  refine check_of_batches hto (by simpa using hgl) ?_
  intro t bs n hi hn b hb
  -- the volume group and a face
  have htl : t < gs.length := (List.getElem?_eq_some_iff.1 hi).1
  have hsplit : ∃ (g f : Nat) (grp : ElGroup N), groups[g]? = some grp ∧ f < grp.nfaces ∧
      t = bdryGroupNr perFace (groups.map ElGroup.nfaces) g f ∧
      ∃ k bk, k < grp.nfaces ∧ bdryGroupNr perFace (groups.map ElGroup.nfaces) g k = t ∧
        (∃ bs0, r.batches[t]? = some bs0 ∧ bs0[if perFace then 0 else k]? = some bk) ∧
        ∃ u, b = embBatch t (if perFace then 0 else grp.nelements * k) u bk := by
    cases perFace with
    | true =>
      simp only [if_true] at ha1
      rw [hgl, ha1] at htl
      obtain ⟨g, f, m, hg, hf, ht⟩ := sum_split htl
      rw [List.getElem?_map] at hg
      obtain ⟨grp, hg', rfl⟩ := Option.map_eq_some_iff.1 hg
      clear hg
      have hg := hg'
      have hvol : (groups.map fun g => (g.nelements, g.nfaces))[g]? = some (grp.nelements, grp.nfaces) := by
        rw [List.getElem?_map, hg]; rfl
      obtain ⟨b0, u, h1, _, h3⟩ := embGo_perFace hgs hvol hf
      rw [hm, Nat.zero_add, ← ht] at h1 h3
      rw [hi] at h3
      obtain rfl := Option.some.inj h3
      refine ⟨g, f, grp, hg, hf, by simp [bdryGroupNr, ht], f, b0, hf, by simp [bdryGroupNr, ht],
        ⟨[b0], h1, rfl⟩, u, ?_⟩
      simpa using hb
    | false =>
      simp only [Bool.false_eq_true, if_false] at ha1
      have htg : t < groups.length := by omega
      have hg := List.getElem?_eq_getElem htg
      have hvol : (groups.map fun g => (g.nelements, g.nfaces))[t]? =
          some (groups[t].nelements, groups[t].nfaces) := by
        rw [List.getElem?_map, hg]; rfl
      obtain ⟨bs0, u, h1, hl, _, h3⟩ := embGo_shared hgs hpos hvol
      rw [Nat.zero_add] at h1 h3
      rw [hi] at h3
      obtain rfl := Option.some.inj h3
      obtain ⟨⟨bk, k⟩, hq, rfl⟩ := List.mem_map.1 hb
      have hk := List.mem_zipIdx_iff_getElem?.1 hq
      have hkl := (List.getElem?_eq_some_iff.1 hk).1
      exact ⟨t, 0, _, hg, hpos _ (List.mem_of_getElem? hvol), rfl, k, bk, by omega, rfl, ⟨bs0, h1, hk⟩, u, rfl⟩
  obtain ⟨g, _, grp, hg, _, _, f, bk, hf, htf, ⟨bs0, hbs0, hbk⟩, u, rfl⟩ := hsplit
  have hfg : fags[g]? = some (fags[g]'(hlen ▸ (List.getElem?_eq_some_iff.1 hg).1)) := List.getElem?_eq_getElem _
  generalize fags[g]'(hlen ▸ (List.getElem?_eq_some_iff.1 hg).1) = fg at hfg
  obtain ⟨hr1, _⟩ := hreq g grp fg hg hfg
  obtain ⟨bs1, b1, k1, k2, _, _, _, _, k8, _, k10, k11⟩ := C27_batches h hlen hnf' hg hfg hf
  rw [htf, hbs0] at k1
  obtain rfl := Option.some.inj k1
  rw [hbk] at k2
  obtain rfl := Option.some.inj k2
  obtain ⟨hsrc, _⟩ := C27_elements h hlen hnf' hg hfg hf fun ef hef => (hr1 ef hef).1
  obtain ⟨htgt, _⟩ := C27_elements ha hlen hnf' hg hfg hf
    fun ef hef => ((C27_requested .all _ _ fg ef.el ef.face).1 hef).2
  rw [htf] at hsrc htgt
  rw [List.getElem?_map, htgt] at hn
  obtain rfl := Option.some.inj hn
  have hfd : (fromD.map CheckGroup.nel)[t]? = (r.groups[t]?).map List.length := by
    rw [hfrom, List.getElem?_map]
  rw [List.getElem?_map, hsrc, Option.map_some] at hfd
  obtain ⟨cg, hcg, hcgn⟩ := Option.map_eq_some_iff.1 hfd
  refine ⟨cg, hcg, ?_, ?_, ?_⟩
  · intro n hn
    obtain ⟨k, hk⟩ := List.mem_iff_getElem?.1 (show n ∈ bk.toEls from hn)
    have hkl := (List.getElem?_eq_some_iff.1 hk).1
    have hz : (n, bk.fromEls[k]'(by omega)) ∈ bk.toEls.zip bk.fromEls :=
      List.mem_iff_getElem?.2 ⟨k, (List.getElem?_zip_eq_some (z := (n, _))).2
        ⟨hk, List.getElem?_eq_getElem (by omega)⟩⟩
    have := (List.getElem?_eq_some_iff.1 ((k11 _ _).1 hz)).1
    rw [hcgn, List.length_map]
    exact this
  · intro e he'
    obtain ⟨el, hel, rfl⟩ := List.mem_map.1 (show e ∈ bk.fromEls.map _ from he')
    rw [k10] at hel
    obtain ⟨ef, hef, rfl⟩ := List.mem_map.1 hel
    have := allFacesNr_origins (perFace := perFace) fg (hr1 ef (List.mem_filter.1 hef).1).2 hf
    have := (List.getElem?_eq_some_iff.1 this).1
    rw [List.length_map]
    cases perFace <;> simpa [allFacesNr] using this
  · intro f' hf'
    simp [embBatch] at hf'

end

/-! ## C98: `is_permutation` -/

section
variable {K : Type} [Field K] [LinearOrder K]

theorem isPermutation_true {d : Nat} {eps : K} {fuel : Nat} {m : Option K} {unit : List (List (Nat → K))}
    {bs : List (Batch (List (Nat → K)))} :
    isPermutation d eps fuel m unit bs = .ok true ↔ ∀ b ∈ bs, ∃ un I, unit[b.fromGroup]? = some un ∧
      pickAt d eps fuel m b.nodes un = some (some I) := by
  induction bs with
  | nil => simp [isPermutation]
  | cons b bs ih =>
    rw [isPermutation, List.forall_mem_cons, ← ih]
    cases unit[b.fromGroup]? with
    | none => simp
    | some un =>
      cases hp : pickAt d eps fuel m b.nodes un with
      | none => simp [hp]
      | some o =>
        cases o with
        | none => simp [hp]
        | some I => simp [hp]

theorem isPermutation_false {d : Nat} {eps : K} {fuel : Nat} {m : Option K} {unit : List (List (Nat → K))}
    {bs : List (Batch (List (Nat → K)))} (h : isPermutation d eps fuel m unit bs = .ok false) :
    ∃ b ∈ bs, ∃ un, unit[b.fromGroup]? = some un ∧ pickAt d eps fuel m b.nodes un = some none := by
  induction bs with
  | nil => simp [isPermutation] at h
  | cons b bs ih =>
    rw [isPermutation] at h
    cases hu : unit[b.fromGroup]? with
    | none => simp [hu] at h
    | some un =>
      simp only [hu] at h
      cases hp : pickAt d eps fuel m b.nodes un with
      | none => simp [hp] at h
      | some o =>
        cases o with
        | none => exact ⟨b, List.mem_cons_self, un, hu, hp⟩
        | some I =>
          simp only [hp] at h
          obtain ⟨b', hb', h'⟩ := ih h
          exact ⟨b', List.mem_cons_of_mem _ hb', h'⟩

variable [IsStrictOrderedRing K]

theorem pickAt_spec {d : Nat} (hd : 0 < d) {eps : K} {m : Option K} (ht : 0 ≤ matchTol eps m) {fuel : Nat}
    {nodes un : List (Nat → K)} {o : Option (List Nat)} (h : pickAt d eps fuel m nodes un = some o) :
    (o.isSome ↔ ∀ x ∈ nodes, ∃ y ∈ un, sqDist d x y < matchTol eps m ^ 2) ∧
    ∀ I, o = some I → I.length = nodes.length ∧ ∀ (i : Nat) x, nodes[i]? = some x →
      ∃ j y, I[i]? = some j ∧ un[j]? = some y ∧ sqDist d x y < matchTol eps m ^ 2 :=
  C44_permutation hd ht h

/-- C98: if `is_permutation` returns an answer, the answer says whether each node of each batch is within the
tolerance of a unit node of the source group. -/
theorem C98_permutation_iff {d : Nat} (hd : 0 < d) {eps : K} {m : Option K} (ht : 0 ≤ matchTol eps m)
    {fuel : Nat} {unit : List (List (Nat → K))} {bs : List (Batch (List (Nat → K)))} {ans : Bool}
    (h : isPermutation d eps fuel m unit bs = .ok ans) :
    ans = true ↔ ∀ b ∈ bs, ∃ un, unit[b.fromGroup]? = some un ∧
      ∀ x ∈ b.nodes, ∃ y ∈ un, sqDist d x y < matchTol eps m ^ 2 := by
  cases ans with
  | true =>
    simp only [true_iff]
    intro b hb
    obtain ⟨un, I, hu, hp⟩ := isPermutation_true.1 h b hb
    exact ⟨un, hu, (pickAt_spec hd ht hp).1.1 rfl⟩
  | false =>
    simp only [Bool.false_eq_true, false_iff]
    intro hall
    obtain ⟨b, hb, un, hu, hp⟩ := isPermutation_false h
    obtain ⟨un', hu', hx⟩ := hall b hb
    rw [hu] at hu'
    obtain rfl := Option.some.inj hu'
    exact absurd ((pickAt_spec hd ht hp).1.2 hx) (by simp)

omit [IsStrictOrderedRing K] in
/-- C98: without a multiplier, the tolerance is 250 times the machine epsilon, as for the multiplier 250. -/
theorem C98_permutation_default (d : Nat) (eps : K) (fuel : Nat) (unit : List (List (Nat → K)))
    (bs : List (Batch (List (Nat → K)))) :
    isPermutation d eps fuel none unit bs = isPermutation d eps fuel (some 250) unit bs ∧
      ∀ m : K, matchTol eps (some m) = eps * m := by
  refine ⟨?_, fun _ => rfl⟩
  induction bs with
  | nil => rfl
  | cons b bs ih => simp only [isPermutation, ih, pickAt, matchTol, Option.getD_none, Option.getD_some]

omit [IsStrictOrderedRing K] in
/-- C98: with the nodes in a leaf of the search (256 points), `is_permutation` returns an answer. -/
theorem C98_permutation_defined {d : Nat} (hd : 0 < d) (eps : K) (m : Option K) (fuel : Nat)
    {unit : List (List (Nat → K))} {bs : List (Batch (List (Nat → K)))}
    (h : ∀ b ∈ bs, ∃ un, unit[b.fromGroup]? = some un ∧ un ≠ [] ∧ b.nodes.length + un.length ≤ 256) :
    ∃ ans, isPermutation d eps (fuel + 1) m unit bs = .ok ans := by
  induction bs with
  | nil => exact ⟨true, rfl⟩
  | cons b bs ih =>
    obtain ⟨un, hu, hne, hl⟩ := h b List.mem_cons_self
    obtain ⟨ans, ih⟩ := ih fun b' hb' => h b' (List.mem_cons_of_mem _ hb')
    obtain ⟨r, hr, _⟩ := C44_small hd (tol := matchTol eps m) (fuel := fuel) hl hne
    rw [isPermutation]
    simp only [hu, pickAt, hr, Option.map_some]
    cases r.mapM id with
    | none => exact ⟨false, rfl⟩
    | some I => exact ⟨ans, ih⟩

/-- C98: a larger tolerance does not turn a yes into a no. -/
theorem C98_permutation_mono {d : Nat} (hd : 0 < d) {eps : K} (heps : 0 ≤ eps) {m m' : K} (hm : 0 ≤ m)
    (hmm : m ≤ m') {fuel fuel' : Nat} {unit : List (List (Nat → K))} {bs : List (Batch (List (Nat → K)))}
    {ans : Bool} (h : isPermutation d eps fuel (some m) unit bs = .ok true)
    (h' : isPermutation d eps fuel' (some m') unit bs = .ok ans) : ans = true := by
  have ht : 0 ≤ matchTol eps (some m) := mul_nonneg heps hm
  have ht' : matchTol eps (some m) ≤ matchTol eps (some m') := mul_le_mul_of_nonneg_left hmm heps
  rw [C98_permutation_iff hd (ht.trans ht') h']
  intro b hb
  obtain ⟨un, hu, hx⟩ := (C98_permutation_iff hd ht h).1 rfl b hb
  refine ⟨un, hu, fun x hxm => ?_⟩
  obtain ⟨y, hy, hxy⟩ := hx x hxm
  exact ⟨y, hy, lt_of_lt_of_le hxy (pow_le_pow_left₀ ht ht' 2)⟩

/-- The groups of the source discretization, with the picks that applying the connection makes: the default
tolerance. Code: meshmode/discretization/connection/direct.py:423-446, 493, 793-796. -/
def PicksOf (d : Nat) (eps : K) (fuel : Nat) {R : Type} (unit : List (List (Nat → K)))
    (fromD : List (DGroup R (List (Nat → K)))) : Prop :=
  fromD.length = unit.length ∧ ∀ (g : Nat) grp un, fromD[g]? = some grp → unit[g]? = some un →
    grp.ndof = un.length ∧ ∀ u, grp.pick u = (pickAt d eps fuel none u un).join

/-- C98: if the answer for the default tolerance is yes, applying the connection interpolates nothing: the value
at a node of a target element set by one batch is the entry of the source element at a unit node within the
tolerance, whatever the data. -/
theorem C98_permutation_value {R : Type} [CommRing R] {d : Nat} (hd : 0 < d) {eps : K} (heps : 0 ≤ eps)
    {fuel : Nat} {unit : List (List (Nat → K))} {c : DirectConn R (List (Nat → K))}
    (hpicks : PicksOf d eps fuel unit c.fromD) (hne : ∀ un ∈ unit, un ≠ [])
    (h : isPermutation d eps fuel none unit c.groups.flatten = .ok true)
    (hrange : ∀ bs ∈ c.groups, ∀ b ∈ bs, ∀ g, c.fromD[b.fromGroup]? = some g → ∀ f ∈ b.fromEls, f < g.nel)
    {t : Nat} {bs : List (Batch (List (Nat → K)))} (ht : c.groups[t]? = some bs) {b : Batch (List (Nat → K))}
    {e f : Nat} (hb : bs.filter (fun b => (b.source e).isSome) = [b]) (hs : b.source e = some f)
    {i : Nat} {x : Nat → K} (hx : b.nodes[i]? = some x) :
    ∃ un j y, unit[b.fromGroup]? = some un ∧ un[j]? = some y ∧ sqDist d x y < matchTol eps none ^ 2 ∧
      ∀ (merge : Bool) (ary u : DofArr R), c.call merge ary = some u → u t e i = ary b.fromGroup f j := by
  have htol : 0 ≤ matchTol eps none := mul_nonneg heps (by norm_num)
  have hbm : b ∈ bs := (List.mem_filter.1 (hb ▸ List.mem_singleton_self b)).1
  have hflat : ∀ b' ∈ bs, b' ∈ c.groups.flatten := fun b' hb' =>
    List.mem_flatten.2 ⟨bs, List.mem_of_getElem? ht, hb'⟩
  obtain ⟨un, I, hu, hp⟩ := isPermutation_true.1 h b (hflat b hbm)
  obtain ⟨_, hI⟩ := pickAt_spec hd htol hp
  obtain ⟨hIl, hI⟩ := hI I rfl
  obtain ⟨j, y, hj, hy, hxy⟩ := hI i x hx
  refine ⟨un, j, y, hu, hy, hxy, ?_⟩
  intro merge ary u hcall
  have hgrp : ∀ b' ∈ bs, ∃ g un', c.fromD[b'.fromGroup]? = some g ∧ unit[b'.fromGroup]? = some un' ∧
      g.ndof = un'.length ∧ g.pick b'.nodes = (pickAt d eps fuel none b'.nodes un').join := by
    intro b' hb'
    obtain ⟨un', I', hu', hp'⟩ := isPermutation_true.1 h b' (hflat b' hb')
    have hl : b'.fromGroup < c.fromD.length := by
      rw [hpicks.1]
      exact (List.getElem?_eq_some_iff.1 hu').1
    obtain ⟨h1, h2⟩ := hpicks.2 _ _ _ (List.getElem?_eq_getElem hl) hu'
    exact ⟨_, un', List.getElem?_eq_getElem hl, hu', h1, h2 _⟩
  have hdeg : ∀ b' ∈ bs, ∃ g, c.fromD[b'.fromGroup]? = some g ∧ (∀ f ∈ b'.fromEls, f < g.nel) ∧
      (g.pick b'.nodes ≠ none → g.ndof ≠ 0) := by
    intro b' hb'
    obtain ⟨g, un', hg, hu', hn, _⟩ := hgrp b' hb'
    refine ⟨g, hg, hrange bs (List.mem_of_getElem? ht) b' hb' g hg, fun _ => ?_⟩
    rw [hn]
    exact fun h0 => hne un' (List.mem_of_getElem? hu') (List.length_eq_zero_iff.1 h0)
  rw [groupCall_batchSum hdeg (call_getElem hcall ht)]
  have hzero : (bs.map fun b => batchEval c.fromD ary b e i).sum =
      ((bs.filter fun b => (b.source e).isSome).map fun b => batchEval c.fromD ary b e i).sum := by
    rw [sum_map_filter_zero]
    intro b' _ hb'
    have : b'.source e = none := by simpa using hb'
    simp [batchEval, this]
  rw [hzero, hb]
  obtain ⟨g, un', hg, hu', _, hgp⟩ := hgrp b hbm
  rw [hu] at hu'
  obtain rfl := Option.some.inj hu'
  rw [hp] at hgp
  simp only [List.map_cons, List.map_nil, List.sum_cons, List.sum_nil, add_zero, batchEval, hs, hg]
  rw [hgp]
  simp [List.getD_eq_getElem?_getD, hj]

/-- C98: so a connection that is a permutation commutes with every function applied to each entry, as squaring,
which interpolation does not. -/
theorem C98_permutation_commutes {R : Type} [CommRing R] {d : Nat} (hd : 0 < d) {eps : K} (heps : 0 ≤ eps)
    {fuel : Nat} {unit : List (List (Nat → K))} {c : DirectConn R (List (Nat → K))}
    (hpicks : PicksOf d eps fuel unit c.fromD) (hne : ∀ un ∈ unit, un ≠ [])
    (h : isPermutation d eps fuel none unit c.groups.flatten = .ok true)
    (hrange : ∀ bs ∈ c.groups, ∀ b ∈ bs, ∀ g, c.fromD[b.fromGroup]? = some g → ∀ f ∈ b.fromEls, f < g.nel)
    {t : Nat} {bs : List (Batch (List (Nat → K)))} (ht : c.groups[t]? = some bs) {b : Batch (List (Nat → K))}
    {e : Nat} (hb : bs.filter (fun b => (b.source e).isSome) = [b]) {i : Nat} (hi : i < b.nodes.length)
    (φ : R → R) {merge merge' : Bool} {ary u v : DofArr R} (hu : c.call merge ary = some u)
    (hv : c.call merge' (fun g e i => φ (ary g e i)) = some v) : v t e i = φ (u t e i) := by
  have hmem : b ∈ bs.filter (fun b => (b.source e).isSome) := hb ▸ List.mem_singleton_self b
  have hsome : (b.source e).isSome := by simpa using (List.mem_filter.1 hmem).2
  obtain ⟨f, hs⟩ := Option.isSome_iff_exists.1 hsome
  obtain ⟨un, j, y, _, _, _, hval⟩ := C98_permutation_value hd heps hpicks hne h hrange ht hb hs
    (List.getElem?_eq_getElem hi)
  rw [hval merge' _ _ hv, hval merge _ _ hu]

end

/-! ## Examples -/

/-- Unit nodes, those of a batch, and picks. (Example, no code.) -/
def exUnit : List (List (Nat → ℚ)) := [exLine [-1, 0, 1]]

/-- A batch to one element with the given nodes. (Example, no code.) -/
def exNodesBatch (l : List ℚ) (toEls : List Nat) : Batch (List (Nat → ℚ)) := ⟨0, [1], toEls, exLine l, none⟩

/-- A connection of those batches; the resampling matrices are that of the mean value. (Example, no code.) -/
def exPickConn (bs : List (Batch (List (Nat → ℚ)))) : DirectConn ℚ (List (Nat → ℚ)) where
  fromD := [⟨2, 3, fun _ _ _ => 1 / 3, fun u => (pickAt 1 (1 / 1000) 5 none u (exLine [-1, 0, 1])).join⟩]
  toD := [⟨2, 3, fun _ _ _ => 0, fun _ => none⟩]
  groups := [bs]
  surjective := true

-- the nodes in another order; a node elsewhere
example : isPermutation 1 (1 / 1000 : ℚ) 5 none exUnit [exNodesBatch [1, -1, 0] [0], exNodesBatch [0] [1]] = .ok true ∧
    isPermutation 1 (1 / 1000 : ℚ) 5 none exUnit [exNodesBatch [1, -1, 0] [0], exNodesBatch [1 / 2] [1]] =
      .ok false ∧
    isPermutation 1 (1 / 1000 : ℚ) 5 none [] [exNodesBatch [1, -1, 0] [0]] = .error .index := by decide +kernel

-- the hypotheses of `C98_permutation_value`
example : PicksOf 1 (1 / 1000 : ℚ) 5 exUnit (exPickConn [exNodesBatch [1, -1, 0] [0], exNodesBatch [0] [1]]).fromD ∧
    (exPickConn [exNodesBatch [1, -1, 0] [0], exNodesBatch [0] [1]]).groups.flatten.length = 2 ∧
    0 ≤ matchTol (1 / 1000 : ℚ) none ∧ (∀ un ∈ exUnit, un ≠ []) := by
  refine ⟨⟨rfl, ?_⟩, rfl, by decide +kernel, by simp [exUnit, exLine]⟩
  intro g grp un hg hu
  rcases g with _ | g
  · simp only [exPickConn, exUnit, List.getElem?_cons_zero, Option.some.injEq] at hg hu
    subst hg hu
    exact ⟨rfl, fun _ => rfl⟩
  · simp [exPickConn] at hg

-- and the result
example : ((exPickConn [exNodesBatch [1, -1, 0] [0]]).call true (fun _ e i => (10 * e + i : ℚ))).map
    (fun u => [u 0 0 0, u 0 0 1, u 0 0 2]) = some [12, 10, 11] := by decide +kernel

/-- C98: the answer for a tolerance given by the caller is not about applying the connection, which uses the
default tolerance: the answer is yes, and the connection interpolates (here, it takes mean values). -/
theorem C98_multiplier_counterexample :
    isPermutation 1 (1 / 1000 : ℚ) 5 (some 600) exUnit [exNodesBatch [-1 / 2, 1 / 2] [0]] = .ok true ∧
    isPermutation 1 (1 / 1000 : ℚ) 5 none exUnit [exNodesBatch [-1 / 2, 1 / 2] [0]] = .ok false ∧
    ((exPickConn [exNodesBatch [-1 / 2, 1 / 2] [0]]).call true (fun _ e i => (10 * e + i ^ 2 : ℚ))).map
      (fun u => [u 0 0 0, u 0 0 1]) = some [35 / 3, 35 / 3] := by decide +kernel

/-- C98: a connection with answer yes need not be a permutation: here two nodes of a target element receive the
same source entry, and another source entry is lost. -/
theorem C98_not_bijective_counterexample :
    isPermutation 1 (1 / 1000 : ℚ) 5 none exUnit [exNodesBatch [1, 1, 0] [0]] = .ok true ∧
    ((exPickConn [exNodesBatch [1, 1, 0] [0]]).call true (fun _ e i => (10 * e + i : ℚ))).map
      (fun u => [u 0 0 0, u 0 0 1, u 0 0 2]) = some [12, 12, 11] := by decide +kernel

-- a connection that passes the check, and three that do not
example : checkConnection [⟨2, 3⟩, ⟨1, 4⟩] [⟨3, 2⟩] [[⟨0, [1, 0], [2, 0], some 2⟩, ⟨-1, [0], [1], none⟩]] = .ok () ∧
    checkConnection [⟨2, 3⟩, ⟨1, 4⟩] [⟨3, 2⟩] [[⟨0, [1, 2], [2, 0], some 2⟩]] = .error .assertion ∧
    checkConnection [⟨2, 3⟩, ⟨1, 4⟩] [⟨3, 2⟩] [[⟨0, [1, 0], [2, -1], none⟩]] = .error .assertion ∧
    checkConnection [⟨2, 3⟩, ⟨1, 4⟩] [⟨3, 2⟩] [[⟨2, [1, 0], [2, 1], none⟩]] = .error .index := by
  decide +kernel

-- the connections of the library, in examples
example : ((makeFaceRestriction false (fun _ _ => ()) (fun _ f n => (f, n)) (.tag .all) 4 exFaceMesh
    exFaceFags).map fun r => checkConnection (exFaceMesh.map fun g => ⟨g.nelements, g.nfaces⟩)
      (r.groups.map fun g => ⟨g.length, 2⟩) (r.batches.map fun bs => bs.map Batch.raw)) = some (.ok ()) ∧
    ((exOpposite .interior).map fun p => checkConnection (p.1.groups.map fun g => ⟨g.length, 2⟩)
      (p.1.groups.map fun g => ⟨g.length, 2⟩) (p.2.map fun bs => bs.map Batch.raw)) = some (.ok ()) := by
  decide +kernel

example : ((exEmb false .interior).map fun p => checkConnection (p.2.fromD.map fun g => ⟨g.nel, 2⟩)
    (p.2.toD.map fun g => ⟨g.nel, 2⟩) (p.2.groups.map fun bs => bs.map Batch.raw)) = some (.ok ()) := by
  decide +kernel

/-- C98: the check passes although the index arrays of the batch have different lengths, one target element is set
twice and another never. -/
theorem C98_check_counterexample :
    checkConnection [⟨2, 3⟩] [⟨3, 3⟩] [[⟨0, [1], [0, 0], none⟩]] = .ok () := by decide +kernel

end Meshmode
