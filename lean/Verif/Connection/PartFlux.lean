import Verif.Connection.FluxCancel

/-!
# Numerical fluxes cancel between the parts of a mesh (C116)

`make_partition_connection` (meshmode/discretization/connection/opposite_face.py:536-637) in both directions between
two parts, composed with the evaluation of the connections: for faces with coinciding nodes the values sent there and
back are the same, weighted sums agree, and fluxes cancel; with C115 nothing is lost in a distributed computation.  No
code of its own.
-/
namespace Meshmode

open Finset

variable {N M A : Type} {a d : Nat}

/-! ## Specification -/

/-- Node `k'` of element `s` of group `j` of the faces `S` of part `Q` is the one at the place of node `k` of element
`t` of group `i` of the faces `T` of part `P`, number `p`, after moving by the affine map of the adjacency group of
`Q`. (Specification or proof vocabulary, no code.) -/
def PartPartner (tP tQ : BTag) (gP gQ : List (ElGroup N)) (fP fQ : List (List (Fag A))) (p : Nat) (tol : ℝ)
    (move : A → (Fin a → ℝ) → Fin a → ℝ) (T S : BdryDiscr a d) (i t k j s k' : Nat) : Prop :=
  ∃ aff g, AdjPartPair tP tQ gP gQ fP fQ p i j aff (t, s) ∧ S.groups[j]? = some g ∧
    OneNear g.n tol (T.pos i t k) (fun f => move aff (S.pos j s f)) k'

/-- The groups of a boundary discretization have the elements of the restriction to a tag.
(Specification or proof vocabulary, no code.) -/
def TagGroupsOK (t : BTag) (groups : List (ElGroup N)) (fags : List (List (Fag A))) (D : BdryDiscr a d) : Prop :=
  D.groups.length = groups.length ∧ ∀ (j : Nat) g, D.groups[j]? = some g → g.nel = (tagOrigins t groups fags j).length

/-- Two parts, number `p` and `q`, with the connections in both directions, for faces with coinciding nodes.
(Specification or proof vocabulary, no code.) -/
structure PartRun [DecidableEq A] (lstsq : ∀ d, (Fin d → Fin a → ℝ) → (Fin a → ℝ) → Fin d → ℝ) (tP tQ : BTag)
    (p q : Nat) (gP gQ : List (ElGroup N)) (fP fQ : List (List (Fag A))) (tol : ℝ)
    (move : A → (Fin a → ℝ) → Fin a → ℝ) (T S : BdryDiscr a d) (rP rQ : FaceRestr M (List (Fin d → ℝ)))
    (conn : List (List (Batch (List (Fin d → ℝ))))) : Prop where
  dim : 0 < d
  restrP : ∃ (un : Nat → Nat → List (Fin d → ℝ)) (res : Nat → Nat → N → M) (nv : Nat),
    makeFaceRestriction false un res (.tag tQ) nv gP fP = some rP
  restrQ : ∃ (un : Nat → Nat → List (Fin d → ℝ)) (res : Nat → Nat → N → M) (nv : Nat),
    makeFaceRestriction false un res (.tag tP) nv gQ fQ = some rQ
  facesP : ∀ g ∈ gP, 0 < g.nfaces
  facesQ : ∀ g ∈ gQ, 0 < g.nfaces
  sideP : PartSide gP fP tQ q (gQ.map ElGroup.nelements)
  sideQ : PartSide gQ fQ tP p (gP.map ElGroup.nelements)
  symm : ∀ i el f j el' f', AcrossParts fP q (gQ.map ElGroup.nelements) i el f j el' f' ↔
    AcrossParts fQ p (gP.map ElGroup.nelements) j el' f' i el f
  made : makePartConn (crossPart lstsq tol move T S) (gP.map ElGroup.nelements) rP.batches
    (makeRemoteInfos p fQ rQ.batches) = some conn
  groupsT : TagGroupsOK tQ gP fP T
  groupsS : TagGroupsOK tP gQ fQ S
  apart : ∀ (j : Nat) g, S.groups[j]? = some g → 0 < g.n ∧
    ∀ f < g.n, ∀ f' < g.n, (∀ k, |g.nodes f k - g.nodes f' k| < tol) → f = f'
  unisolvent : ∀ (j : Nat) g, S.groups[j]? = some g → ∀ v : Nat → ℝ, ∃ c, HasValues g.toS c v
  conforming : ConformingParts tP tQ gP gQ fP fQ p tol move T S

/-- The affine maps of the two parts at a common face undo each other and keep distances.
(Specification or proof vocabulary, no code.) -/
def PartMovesBack (tP tQ : BTag) (p q : Nat) (gP gQ : List (ElGroup N)) (fP fQ : List (List (Fag A)))
    (move : A → (Fin a → ℝ) → Fin a → ℝ) : Prop :=
  ∀ i j aff aff' t s, AdjPartPair tP tQ gP gQ fP fQ p i j aff (t, s) →
    AdjPartPair tQ tP gQ gP fQ fP q j i aff' (s, t) →
    ∀ x y : Fin a → ℝ, ∑ k, (x k - move aff y k) ^ 2 = ∑ k, (y k - move aff' x k) ^ 2

/-! ## Lemmas -/

theorem nodup_getElem?_inj {α : Type} {l : List α} (h : l.Nodup) {s s' : Nat} {x : α} (hs : l[s]? = some x)
    (hs' : l[s']? = some x) : s = s' := by
  obtain ⟨h1, h2⟩ := List.getElem?_eq_some_iff.1 hs
  obtain ⟨h1', h2'⟩ := List.getElem?_eq_some_iff.1 hs'
  exact (List.Nodup.getElem_inj_iff h).1 (h2.trans h2'.symm)

section
variable [DecidableEq A] {tP tQ : BTag} {p q : Nat} {gP gQ : List (ElGroup N)} {fP fQ : List (List (Fag A))}

theorem adjPartPair_unique (sP : PartSide gP fP tQ q (gQ.map ElGroup.nelements))
    (sQ : PartSide gQ fQ tP p (gP.map ElGroup.nelements))
    (symm : ∀ i el f j el' f', AcrossParts fP q (gQ.map ElGroup.nelements) i el f j el' f' ↔
      AcrossParts fQ p (gP.map ElGroup.nelements) j el' f' i el f) {i j j' t s s' : Nat} {aff aff' : A}
    (h : AdjPartPair tP tQ gP gQ fP fQ p i j aff (t, s)) (h' : AdjPartPair tP tQ gP gQ fP fQ p i j' aff' (t, s')) :
    j = j' ∧ aff = aff' ∧ s = s' := by
  obtain ⟨fg, t1, rows, row, el, h1, h2, h3, h4, h5, h6⟩ := h
  obtain ⟨fg', t1', rows', row', el', h1', h2', h3', h4', h5', h6'⟩ := h'
  simp only at h5 h5' h6 h6'
  rw [h5] at h5'
  have he := Option.some.inj h5'
  injection he with he1 he2
  subst he1
  have a1 := (symm i el row.nface j row.el row.face).2 ⟨fg, _, t1, rows, aff, _, h1, h2, h3, h4⟩
  have a2 := (symm i el row.nface j' row'.el row'.face).2
    ⟨fg', _, t1', rows', aff', _, h1', h2', (by rw [he2]; exact h3'), h4'⟩
  obtain ⟨rfl, e1, e2⟩ := acrossParts_unique sP a1 a2
  rw [h1] at h1'
  obtain rfl := Option.some.inj h1'
  have hj : j < gQ.length := sQ.len ▸ (List.getElem?_eq_some_iff.1 h1).1
  have hnd := sQ.nodup j _ _ (List.getElem?_eq_getElem hj) h1
  rw [groupFaces_eq_ipags _ _ (sQ.tagged _ (List.mem_of_getElem? h1))] at hnd
  obtain ⟨e3, _⟩ := flatMap_key_inj (f := fun p : Nat × List AdjRow × A => p.2.1)
    (k := fun r => (⟨r.el, r.face⟩ : ElFace)) hnd (mem_ipagsOf.2 ⟨_, h2⟩) (mem_ipagsOf.2 ⟨_, h2'⟩) h3 h3' (by
      rw [e1, e2])
  refine ⟨rfl, by simpa using (Prod.mk.inj (Prod.mk.inj e3).2).2, ?_⟩
  rw [← e1, ← e2] at h6'
  exact nodup_getElem?_inj (tagOrigins_props sQ j).1 h6 h6'

omit [DecidableEq A] in
theorem adjPartPair_symm (sP : PartSide gP fP tQ q (gQ.map ElGroup.nelements))
    (symm : ∀ i el f j el' f', AcrossParts fP q (gQ.map ElGroup.nelements) i el f j el' f' ↔
      AcrossParts fQ p (gP.map ElGroup.nelements) j el' f' i el f) {i j t s : Nat} {aff : A}
    (h : AdjPartPair tP tQ gP gQ fP fQ p i j aff (t, s)) :
    ∃ aff', AdjPartPair tQ tP gQ gP fQ fP q j i aff' (s, t) := by
  obtain ⟨fg, t1, rows, row, el, h1, h2, h3, h4, h5, h6⟩ := h
  obtain ⟨fg', ig, t', rows', aff', nel, b1, b2, b3, b4⟩ :=
    (symm i el row.nface j row.el row.face).2 ⟨fg, _, t1, rows, aff, _, h1, h2, h3, h4⟩
  obtain ⟨rfl, _⟩ := sP.igroup i fg' b1 ig t' rows' aff' b2
  exact ⟨aff', fg', t', rows', _, row.el, b1, b2, b3, b4, h6, h5⟩

/-- Boundary elements have a face of the other part behind them. -/
theorem exists_adjPartPair (sP : PartSide gP fP tQ q (gQ.map ElGroup.nelements))
    (sQ : PartSide gQ fQ tP p (gP.map ElGroup.nelements))
    (symm : ∀ i el f j el' f', AcrossParts fP q (gQ.map ElGroup.nelements) i el f j el' f' ↔
      AcrossParts fQ p (gP.map ElGroup.nelements) j el' f' i el f) {i t : Nat}
    (ht : t < (tagOrigins tQ gP fP i).length) : ∃ j aff s, AdjPartPair tP tQ gP gQ fP fQ p i j aff (t, s) := by
  have h0 := List.getElem?_eq_getElem ht
  obtain ⟨j, el', f', hac⟩ := ((tagOrigins_props sP i).2 _ _).1 (List.mem_of_getElem? h0 : (⟨_, _⟩ : ElFace) ∈ _)
  have hb := (symm _ _ _ _ _ _).1 hac
  obtain ⟨s, hs⟩ := List.mem_iff_getElem?.1 (((tagOrigins_props sQ j).2 _ _).2 ⟨_, _, _, hb⟩)
  obtain ⟨fg, ig, t1, rows, aff, nel, h1, h2, h3, h4⟩ := hb
  obtain ⟨rfl, _⟩ := sQ.igroup j fg h1 ig t1 rows aff h2
  exact ⟨ig, aff, s, fg, t1, rows, _, _, h1, h2, h3, h4, h0, hs⟩

omit [DecidableEq A] in
theorem adjPartPair_lt {S : BdryDiscr a d} (hS : TagGroupsOK tP gQ fQ S) {i j t s : Nat} {aff : A}
    (h : AdjPartPair tP tQ gP gQ fP fQ p i j aff (t, s)) : ∃ g, S.groups[j]? = some g ∧ s < g.nel := by
  obtain ⟨fg, t1, rows, row, el, h1, h2, h3, h4, h5, h6⟩ := h
  have hj : j < gQ.length := by
    by_contra hn
    simp [tagOrigins, List.getElem?_eq_none (show gQ.length ≤ j by omega)] at h6
  refine ⟨_, List.getElem?_eq_getElem (hS.1 ▸ hj), ?_⟩
  rw [hS.2 j _ (List.getElem?_eq_getElem (hS.1 ▸ hj))]
  exact (List.getElem?_eq_some_iff.1 h6).1

end

/-- Renaming the nodes by a one-to-one correspondence keeps the sum. -/
theorem total_bij {D E : BdryDiscr a d} {R : Nat → Nat → Nat → Nat → Nat → Nat → Prop}
    (hex : ∀ (i : Nat) g, D.groups[i]? = some g → ∀ t < g.nel, ∀ q < g.n, ∃ j s q', R i t q j s q')
    (hex' : ∀ (j : Nat) g, E.groups[j]? = some g → ∀ s < g.nel, ∀ q' < g.n, ∃ i t q, R i t q j s q')
    (hlt : ∀ i t q j s q', R i t q j s q' → (∃ g, D.groups[i]? = some g ∧ t < g.nel ∧ q < g.n) ∧
      ∃ g, E.groups[j]? = some g ∧ s < g.nel ∧ q' < g.n)
    (hu : ∀ i t q j s q' j' s' q'', R i t q j s q' → R i t q j' s' q'' → j = j' ∧ s = s' ∧ q' = q'')
    (hu' : ∀ i t q i' t' q1 j s q', R i t q j s q' → R i' t' q1 j s q' → i = i' ∧ t = t' ∧ q = q1)
    {F G : Nat → Nat → Nat → ℝ} (hFG : ∀ i t q j s q', R i t q j s q' → F i t q = G j s q') :
    D.total F = E.total G := by
  have hD : ∀ x : (Σ _ : Fin D.groups.length, Nat × Nat), x ∈ ((univ : Finset (Fin D.groups.length)).sigma fun i =>
      range D.groups[i].nel ×ˢ range D.groups[i].n) → ∃ y : (Σ _ : Fin E.groups.length, Nat × Nat),
      y ∈ ((univ : Finset (Fin E.groups.length)).sigma fun i => range E.groups[i].nel ×ˢ range E.groups[i].n) ∧
      R x.1 x.2.1 x.2.2 y.1 y.2.1 y.2.2 := by
    rintro ⟨i, t, q⟩ hx
    simp only [mem_sigma, mem_univ, mem_product, mem_range, true_and] at hx
    obtain ⟨j, s, q', hr⟩ := hex i _ (List.getElem?_eq_getElem i.2) t hx.1 q hx.2
    obtain ⟨_, g, h1, h2, h3⟩ := hlt _ _ _ _ _ _ hr
    obtain ⟨hj, rfl⟩ := List.getElem?_eq_some_iff.1 h1
    exact ⟨⟨⟨j, hj⟩, s, q'⟩, by simp [h2, h3], hr⟩
  have hE : ∀ y : (Σ _ : Fin E.groups.length, Nat × Nat), y ∈ ((univ : Finset (Fin E.groups.length)).sigma fun i =>
      range E.groups[i].nel ×ˢ range E.groups[i].n) → ∃ x : (Σ _ : Fin D.groups.length, Nat × Nat),
      x ∈ ((univ : Finset (Fin D.groups.length)).sigma fun i => range D.groups[i].nel ×ˢ range D.groups[i].n) ∧
      R x.1 x.2.1 x.2.2 y.1 y.2.1 y.2.2 := by
    rintro ⟨j, s, q'⟩ hx
    simp only [mem_sigma, mem_univ, mem_product, mem_range, true_and] at hx
    obtain ⟨i, t, q, hr⟩ := hex' j _ (List.getElem?_eq_getElem j.2) s hx.1 q' hx.2
    obtain ⟨⟨g, h1, h2, h3⟩, _⟩ := hlt _ _ _ _ _ _ hr
    obtain ⟨hj, rfl⟩ := List.getElem?_eq_some_iff.1 h1
    exact ⟨⟨⟨i, hj⟩, t, q⟩, by simp [h2, h3], hr⟩
  rw [total_eq, total_eq]
  choose σ hσ1 hσ2 using hD
  choose τ hτ1 hτ2 using hE
  refine Finset.sum_bij' σ τ hσ1 hτ1 ?_ ?_ fun x hx => hFG _ _ _ _ _ _ (hσ2 x hx)
  · intro x hx
    obtain ⟨e1, e2, e3⟩ := hu' _ _ _ _ _ _ _ _ _ (hτ2 _ (hσ1 x hx)) (hσ2 x hx)
    exact Sigma.ext (Fin.ext e1) (heq_of_eq (Prod.ext e2 e3))
  · intro x hx
    obtain ⟨e1, e2, e3⟩ := hu _ _ _ _ _ _ _ _ _ (hσ2 _ (hτ1 x hx)) (hτ2 x hx)
    exact Sigma.ext (Fin.ext e1) (heq_of_eq (Prod.ext e2 e3))

variable [DecidableEq A] {lstsq : ∀ d, (Fin d → Fin a → ℝ) → (Fin a → ℝ) → Fin d → ℝ} {tP tQ : BTag} {p q : Nat}
  {gP gQ : List (ElGroup N)} {fP fQ : List (List (Fag A))} {tol : ℝ} {move : A → (Fin a → ℝ) → Fin a → ℝ}
  {T S : BdryDiscr a d} {rP rQ : FaceRestr M (List (Fin d → ℝ))}
  {conn conn' : List (List (Batch (List (Fin d → ℝ))))}
  {find : List (Fin d → ℝ) → List (Fin d → ℝ) → List (Option Nat)}
  {resample : List ((Fin d → ℝ) → ℝ) → List (Fin d → ℝ) → List (Fin d → ℝ) → Option (Mat ℝ)}

theorem partPartner_unique (R : PartRun lstsq tP tQ p q gP gQ fP fQ tol move T S rP rQ conn)
    {i t k j s k' j' s' k'' : Nat} (h : PartPartner tP tQ gP gQ fP fQ p tol move T S i t k j s k')
    (h' : PartPartner tP tQ gP gQ fP fQ p tol move T S i t k j' s' k'') : j = j' ∧ s = s' ∧ k' = k'' := by
  obtain ⟨aff, g, h1, h2, h3⟩ := h
  obtain ⟨aff', g', h1', h2', h3'⟩ := h'
  obtain ⟨rfl, rfl, rfl⟩ := adjPartPair_unique R.sideP R.sideQ R.symm h1 h1'
  rw [h2] at h2'
  obtain rfl := Option.some.inj h2'
  exact ⟨rfl, rfl, h3'.2.2 _ h3.1 h3.2.1⟩

theorem exists_partPartner (R : PartRun lstsq tP tQ p q gP gQ fP fQ tol move T S rP rQ conn) {i t k : Nat}
    {tg : FaceGroup d} (htg : T.groups[i]? = some tg) (ht : t < tg.nel) (hk : k < tg.n) :
    ∃ j s k', PartPartner tP tQ gP gQ fP fQ p tol move T S i t k j s k' := by
  obtain ⟨j, aff, s, h⟩ := exists_adjPartPair R.sideP R.sideQ R.symm (R.groupsT.2 i tg htg ▸ ht)
  obtain ⟨g, hg, _⟩ := adjPartPair_lt R.groupsS h
  obtain ⟨f, hf⟩ := R.conforming i j aff (t, s) tg g h htg hg k hk
  exact ⟨j, s, f, aff, g, h, hg, hf⟩

omit [DecidableEq A] in
theorem partPartner_lt (hS : TagGroupsOK tP gQ fQ S) {i t k j s k' : Nat}
    (h : PartPartner tP tQ gP gQ fP fQ p tol move T S i t k j s k') :
    ∃ g, S.groups[j]? = some g ∧ s < g.nel ∧ k' < g.n := by
  obtain ⟨aff, g, h1, h2, h3⟩ := h
  obtain ⟨g', h4, h5⟩ := adjPartPair_lt hS h1
  rw [h2] at h4
  obtain rfl := Option.some.inj h4
  exact ⟨g, h2, h5, h3.1⟩

/-! ## Properties -/

/-- C116: the result of the connection at a node is the value at its partner on the other part. -/
theorem C116_value (R : PartRun lstsq tP tQ p q gP gQ fP fQ tol move T S rP rQ conn) (hf : FindNear 0 find)
    (hr : ResampleSound resample) {sj merge : Bool} {ary u : DofArr ℝ}
    (hc : (SameConn.direct (S.groups.map FaceGroup.toS) (T.groups.map FaceGroup.toS) conn sj).call find resample merge
      ary = .ok u) {i t k j s k' : Nat} {tg : FaceGroup d} (htg : T.groups[i]? = some tg) (ht : t < tg.nel)
    (hk : k < tg.n) (hp : PartPartner tP tQ gP gQ fP fQ p tol move T S i t k j s k') : u i t k = ary j s k' := by
  obtain ⟨un, res, nv, h⟩ := R.restrP
  obtain ⟨un', res', nv', h'⟩ := R.restrQ
  have ht' := List.getElem?_eq_getElem (R.groupsT.2 i tg htg ▸ ht : t < (tagOrigins tQ gP fP i).length)
  obtain ⟨j', fg, t', rows, aff, row, s', g, h1, h2, h3, h4, h5, h6, h7, k'', h8, h9⟩ :=
    C95_partition_conforming R.dim h h' R.facesP R.facesQ R.sideP R.sideQ R.symm R.made
      (fun j g hg => ⟨R.groupsS.2 j g hg, R.apart j g hg⟩) R.conforming hf hr hc (el := _) (f := _) ht' htg hk
  have hp' : PartPartner tP tQ gP gQ fP fQ p tol move T S i t k j' s' k'' :=
    ⟨aff, g, ⟨fg, t', rows, row, _, h1, h2, h3, h4, by rw [h5]; exact ht', h6⟩, h7, h8⟩
  obtain ⟨rfl, rfl, rfl⟩ := partPartner_unique R hp hp'
  exact h9 (R.unisolvent _ _ h7 _)

/-- C116: being at the same place on the other part is symmetric. -/
theorem C116_partner_symm (R : PartRun lstsq tP tQ p q gP gQ fP fQ tol move T S rP rQ conn)
    (R' : PartRun lstsq tQ tP q p gQ gP fQ fP tol move S T rQ rP conn')
    (hback : PartMovesBack tP tQ p q gP gQ fP fQ move) {i t k j s k' : Nat} {tg : FaceGroup d}
    (htg : T.groups[i]? = some tg) (hk : k < tg.n)
    (h : PartPartner tP tQ gP gQ fP fQ p tol move T S i t k j s k') :
    PartPartner tQ tP gQ gP fQ fP q tol move S T j s k' i t k := by
  obtain ⟨aff, g, h1, h2, h3⟩ := h
  obtain ⟨aff', h4⟩ := adjPartPair_symm R.sideP R.symm h1
  obtain ⟨f, hf⟩ := R'.conforming j i aff' (s, t) g tg h4 h2 htg k' h3.1
  have hn : Real.sqrt (∑ l, (S.pos j s k' l - move aff' (T.pos i t k) l) ^ 2) < tol := by
    rw [← hback i j aff aff' t s h1 h4]
    exact h3.2.1
  have := hf.2.2 k hk hn
  subst this
  exact ⟨aff', tg, h4, htg, hf⟩

omit [DecidableEq A] in
theorem PartMovesBack.symm (h : PartMovesBack tP tQ p q gP gQ fP fQ move) :
    PartMovesBack tQ tP q p gQ gP fQ fP move :=
  fun i j aff aff' t s h1 h2 x y => (h j i aff' aff s t h2 h1 y x).symm

/-- C116: values sent to the other part and back are the same. -/
theorem C116_there_and_back (R : PartRun lstsq tP tQ p q gP gQ fP fQ tol move T S rP rQ conn)
    (R' : PartRun lstsq tQ tP q p gQ gP fQ fP tol move S T rQ rP conn')
    (hback : PartMovesBack tP tQ p q gP gQ fP fQ move) (hf : FindNear 0 find)
    (hr : ResampleSound resample) {sj merge sj' merge' : Bool} {ary u v : DofArr ℝ}
    (hc : (SameConn.direct (T.groups.map FaceGroup.toS) (S.groups.map FaceGroup.toS) conn' sj).call find resample merge
      ary = .ok u)
    (hc' : (SameConn.direct (S.groups.map FaceGroup.toS) (T.groups.map FaceGroup.toS) conn sj').call find resample
      merge' u = .ok v) {i t k : Nat} {tg : FaceGroup d} (htg : T.groups[i]? = some tg) (ht : t < tg.nel)
    (hk : k < tg.n) : v i t k = ary i t k := by
  obtain ⟨j, s, k', hp⟩ := exists_partPartner R htg ht hk
  obtain ⟨g, hg, hs, hk'⟩ := partPartner_lt R.groupsS hp
  rw [C116_value R hf hr hc' htg ht hk hp]
  exact C116_value R' hf hr hc hg hs hk' (C116_partner_symm R R' hback htg hk hp)

/-- C116: what is computed from the values on this and the other part, on the two parts, has the same sum with the
roles of the values swapped, for weights with a common factor `e` between the two parts (one, or minus one for the
components of the normal vector). -/
theorem C116_swap (R : PartRun lstsq tP tQ p q gP gQ fP fQ tol move T S rP rQ conn)
    (R' : PartRun lstsq tQ tP q p gQ gP fQ fP tol move S T rQ rP conn')
    (hback : PartMovesBack tP tQ p q gP gQ fP fQ move) (hf : FindNear 0 find)
    (hr : ResampleSound resample) {sj merge sj' merge' : Bool} {aP uP aQ uQ : DofArr ℝ}
    (hc : (SameConn.direct (S.groups.map FaceGroup.toS) (T.groups.map FaceGroup.toS) conn sj).call find resample merge
      aQ = .ok uP)
    (hc' : (SameConn.direct (T.groups.map FaceGroup.toS) (S.groups.map FaceGroup.toS) conn' sj').call find resample
      merge' aP = .ok uQ) {W W' : Nat → Nat → Nat → ℝ} {e : ℝ}
    (hW : ∀ i t k j s k', PartPartner tP tQ gP gQ fP fQ p tol move T S i t k j s k' → W i t k = e * W' j s k')
    (h : ℝ → ℝ → ℝ) :
    T.total (fun i t k => W i t k * h (aP i t k) (uP i t k)) =
      e * S.total fun j s k => W' j s k * h (uQ j s k) (aQ j s k) := by
  have hmul : e * S.total (fun j s k => W' j s k * h (uQ j s k) (aQ j s k)) =
      S.total fun j s k => e * (W' j s k * h (uQ j s k) (aQ j s k)) := by
    simp only [BdryDiscr.total, Finset.mul_sum]
  rw [hmul]
  refine total_bij (R := fun i t k j s k' => PartPartner tP tQ gP gQ fP fQ p tol move T S i t k j s k' ∧
    ∃ tg, T.groups[i]? = some tg ∧ t < tg.nel ∧ k < tg.n) ?_ ?_ ?_ ?_ ?_ ?_
  · intro i g hg t ht k hk
    obtain ⟨j, s, k', hp⟩ := exists_partPartner R hg ht hk
    exact ⟨j, s, k', hp, g, hg, ht, hk⟩
  · intro j g hg s hs k' hk'
    obtain ⟨i, t, k, hp⟩ := exists_partPartner R' hg hs hk'
    exact ⟨i, t, k, C116_partner_symm R' R hback.symm hg hk' hp, partPartner_lt R.groupsT hp⟩
  · rintro i t k j s k' ⟨hp, ht⟩
    exact ⟨ht, partPartner_lt R.groupsS hp⟩
  · rintro i t k j s k' j' s' k'' ⟨hp, _⟩ ⟨hp', _⟩
    exact partPartner_unique R hp hp'
  · rintro i t k i' t' k1 j s k' ⟨hp, tg, htg, _, hk⟩ ⟨hp', tg', htg', _, hk1⟩
    exact partPartner_unique R' (C116_partner_symm R R' hback htg hk hp)
      (C116_partner_symm R R' hback htg' hk1 hp')
  · rintro i t k j s k' ⟨hp, tg, htg, ht, hk⟩
    obtain ⟨g, hg, hs, hk'⟩ := partPartner_lt R.groupsS hp
    rw [C116_value R hf hr hc htg ht hk hp, hW _ _ _ _ _ _ hp,
      C116_value R' hf hr hc' hg hs hk' (C116_partner_symm R R' hback htg hk hp)]
    ring

/-- C116: a numerical flux that changes sign when the two sides are swapped cancels between the two parts, for weights
that are the same on both sides. -/
theorem C116_flux (R : PartRun lstsq tP tQ p q gP gQ fP fQ tol move T S rP rQ conn)
    (R' : PartRun lstsq tQ tP q p gQ gP fQ fP tol move S T rQ rP conn')
    (hback : PartMovesBack tP tQ p q gP gQ fP fQ move) (hf : FindNear 0 find)
    (hr : ResampleSound resample) {sj merge sj' merge' : Bool} {aP uP aQ uQ : DofArr ℝ}
    (hc : (SameConn.direct (S.groups.map FaceGroup.toS) (T.groups.map FaceGroup.toS) conn sj).call find resample merge
      aQ = .ok uP)
    (hc' : (SameConn.direct (T.groups.map FaceGroup.toS) (S.groups.map FaceGroup.toS) conn' sj').call find resample
      merge' aP = .ok uQ) {W W' : Nat → Nat → Nat → ℝ}
    (hW : ∀ i t k j s k', PartPartner tP tQ gP gQ fP fQ p tol move T S i t k j s k' → W i t k = W' j s k')
    {h : ℝ → ℝ → ℝ} (hh : ∀ x y, h x y = -h y x) :
    T.total (fun i t k => W i t k * h (aP i t k) (uP i t k)) +
      S.total (fun j s k => W' j s k * h (aQ j s k) (uQ j s k)) = 0 := by
  rw [C116_swap R R' hback hf hr hc hc' (e := 1) (fun i t k j s k' hp => by rw [hW _ _ _ _ _ _ hp, one_mul]) h, one_mul]
  have h2 : S.total (fun j s k => W' j s k * h (aQ j s k) (uQ j s k)) =
      -S.total fun j s k => W' j s k * h (uQ j s k) (aQ j s k) := by
    simp only [BdryDiscr.total, ← Finset.sum_neg_distrib]
    refine Finset.sum_congr rfl fun i _ => Finset.sum_congr rfl fun t _ => Finset.sum_congr rfl fun q _ => ?_
    rw [hh (aQ i t q)]
    ring
  rw [h2]
  ring

/-- C116: so does a flux that does not change, for weights of opposite sign. -/
theorem C116_central (R : PartRun lstsq tP tQ p q gP gQ fP fQ tol move T S rP rQ conn)
    (R' : PartRun lstsq tQ tP q p gQ gP fQ fP tol move S T rQ rP conn')
    (hback : PartMovesBack tP tQ p q gP gQ fP fQ move) (hf : FindNear 0 find)
    (hr : ResampleSound resample) {sj merge sj' merge' : Bool} {aP uP aQ uQ : DofArr ℝ}
    (hc : (SameConn.direct (S.groups.map FaceGroup.toS) (T.groups.map FaceGroup.toS) conn sj).call find resample merge
      aQ = .ok uP)
    (hc' : (SameConn.direct (T.groups.map FaceGroup.toS) (S.groups.map FaceGroup.toS) conn' sj').call find resample
      merge' aP = .ok uQ) {n n' : Nat → Nat → Nat → ℝ}
    (hn : ∀ i t k j s k', PartPartner tP tQ gP gQ fP fQ p tol move T S i t k j s k' → n i t k = -n' j s k')
    {h : ℝ → ℝ → ℝ} (hh : ∀ x y, h x y = h y x) :
    T.total (fun i t k => n i t k * h (aP i t k) (uP i t k)) +
      S.total (fun j s k => n' j s k * h (aQ j s k) (uQ j s k)) = 0 := by
  rw [C116_swap R R' hback hf hr hc hc' (e := -1) (fun i t k j s k' hp => by rw [hn _ _ _ _ _ _ hp]; ring) h]
  have h2 : S.total (fun j s k => n' j s k * h (aQ j s k) (uQ j s k)) =
      S.total fun j s k => n' j s k * h (uQ j s k) (aQ j s k) := by
    simp only [hh (aQ _ _ _)]
  rw [h2]
  ring

/-- C116: what a part receives has the weighted sum of what the other part has. -/
theorem C116_sum (R : PartRun lstsq tP tQ p q gP gQ fP fQ tol move T S rP rQ conn)
    (R' : PartRun lstsq tQ tP q p gQ gP fQ fP tol move S T rQ rP conn')
    (hback : PartMovesBack tP tQ p q gP gQ fP fQ move) (hf : FindNear 0 find)
    (hr : ResampleSound resample) {sj merge sj' merge' : Bool} {aP uP aQ uQ : DofArr ℝ}
    (hc : (SameConn.direct (S.groups.map FaceGroup.toS) (T.groups.map FaceGroup.toS) conn sj).call find resample merge
      aQ = .ok uP)
    (hc' : (SameConn.direct (T.groups.map FaceGroup.toS) (S.groups.map FaceGroup.toS) conn' sj').call find resample
      merge' aP = .ok uQ) {W W' : Nat → Nat → Nat → ℝ}
    (hW : ∀ i t k j s k', PartPartner tP tQ gP gQ fP fQ p tol move T S i t k j s k' → W i t k = W' j s k') :
    T.total (fun i t k => W i t k * uP i t k) = S.total fun j s k => W' j s k * aQ j s k := by
  have := C116_swap R R' hback hf hr hc hc' (W := W) (W' := W') (e := 1) (fun i t k j s k' hp => by rw [hW _ _ _ _ _ _ hp, one_mul])
    fun _ y => y
  simpa using this

/-- C116: a distributed computation.  On each part, the flux is summed over the interior faces and over the faces to
each neighboring part; the sum over all parts is zero, for a flux that changes sign when the two sides are swapped. -/
theorem C116_global {n : Nat} {gs : Fin n → List (ElGroup N)} {fs : Fin n → List (List (Fag A))}
    {tag : Fin n → BTag} {DI : Fin n → BdryDiscr a d} {DB : Fin n → Fin n → BdryDiscr a d}
    {rI : Fin n → FaceRestr M (List (Fin d → ℝ))} {rB : Fin n → Fin n → FaceRestr M (List (Fin d → ℝ))}
    {opp : Fin n → List (List (Batch (List (Fin d → ℝ))))}
    {con : Fin n → Fin n → List (List (Batch (List (Fin d → ℝ))))}
    {nb : Fin n → Fin n → Bool} (hnb : ∀ p q, nb p q = nb q p)
    (hI : ∀ p, OppositeRun lstsq (gs p) (fs p) tol move (DI p) (rI p) (opp p))
    (hB : ∀ p q, nb p q = true → PartRun lstsq (tag p) (tag q) p q (gs p) (gs q) (fs p) (fs q) tol move (DB p q)
      (DB q p) (rB p q) (rB q p) (con p q))
    (hback : ∀ p q, nb p q = true → PartMovesBack (tag p) (tag q) p q (gs p) (gs q) (fs p) (fs q) move)
    (hf : FindNear 0 find) (hr : ResampleSound resample) {sj merge : Bool}
    {aI uI : Fin n → DofArr ℝ} {aB uB : Fin n → Fin n → DofArr ℝ}
    (hcI : ∀ p, (SameConn.direct ((DI p).groups.map FaceGroup.toS) ((DI p).groups.map FaceGroup.toS) (opp p) sj).call
      find resample merge (aI p) = .ok (uI p))
    (hcB : ∀ p q, nb p q = true → (SameConn.direct ((DB q p).groups.map FaceGroup.toS)
      ((DB p q).groups.map FaceGroup.toS) (con p q) sj).call find resample merge (aB q p) = .ok (uB p q))
    {WI : Fin n → Nat → Nat → Nat → ℝ} {WB : Fin n → Fin n → Nat → Nat → Nat → ℝ}
    (hWI : ∀ p i t k j s k', NodePartner (gs p) (fs p) tol move (DI p) i t k j s k' → WI p i t k = WI p j s k')
    (hWB : ∀ p q, nb p q = true → ∀ i t k j s k', PartPartner (tag p) (tag q) (gs p) (gs q) (fs p) (fs q) p tol move
      (DB p q) (DB q p) i t k j s k' → WB p q i t k = WB q p j s k')
    {h : ℝ → ℝ → ℝ} (hh : ∀ x y, h x y = -h y x) :
    ∑ p, ((DI p).total (fun i t k => WI p i t k * h (aI p i t k) (uI p i t k)) +
      ∑ q with nb p q = true, (DB p q).total fun i t k => WB p q i t k * h (aB p q i t k) (uB p q i t k)) = 0 := by
  rw [Finset.sum_add_distrib, Finset.sum_eq_zero (f := fun p => (DI p).total _) fun p _ =>
    C115_flux (hI p) hf hr (hcI p) (hWI p) hh, zero_add]
  simp only [Finset.sum_filter]
  have hanti : ∀ p q, (if nb p q = true then (DB p q).total fun i t k =>
        WB p q i t k * h (aB p q i t k) (uB p q i t k) else 0) =
      -(if nb q p = true then (DB q p).total fun i t k =>
        WB q p i t k * h (aB q p i t k) (uB q p i t k) else 0) := by
    intro p q
    by_cases hpq : nb p q = true
    · have hqp : nb q p = true := hnb p q ▸ hpq
      rw [if_pos hpq, if_pos hqp]
      have := C116_flux (hB p q hpq) (hB q p hqp) (hback p q hpq) hf hr (hcB p q hpq) (hcB q p hqp) (hWB p q hpq) hh
      linarith
    · have hqp : ¬ nb q p = true := hnb p q ▸ hpq
      rw [if_neg hpq, if_neg hqp, neg_zero]
  have hS := Finset.sum_comm (s := (univ : Finset (Fin n))) (t := univ) (f := fun p q => if nb p q = true then
    (DB p q).total fun i t k => WB p q i t k * h (aB p q i t k) (uB p q i t k) else 0)
  have h2 : (∑ q : Fin n, ∑ p : Fin n, if nb p q = true then
      (DB p q).total fun i t k => WB p q i t k * h (aB p q i t k) (uB p q i t k) else 0) =
      -∑ q : Fin n, ∑ p : Fin n, if nb q p = true then
      (DB q p).total fun i t k => WB q p i t k * h (aB q p i t k) (uB q p i t k) else 0 := by
    rw [← Finset.sum_neg_distrib]
    refine Finset.sum_congr rfl fun q _ => ?_
    rw [← Finset.sum_neg_distrib]
    exact Finset.sum_congr rfl fun p _ => hanti p q
  rw [h2] at hS
  linarith

omit [DecidableEq A] in
/-- C116: the affine maps undo each other where they do nothing. -/
theorem C116_identity_moves (hm : ∀ aff x, move aff x = x) : PartMovesBack tP tQ p q gP gQ fP fQ move := by
  intro i j aff aff' t s _ _ x y
  rw [hm, hm]
  refine Finset.sum_congr rfl fun k _ => ?_
  ring

/-! ## Examples -/

theorem exPart_symm_back (i el f j el' f' : Nat) :
    AcrossParts exPartFQ 0 (exPartP.map ElGroup.nelements) i el f j el' f' ↔
      AcrossParts exPartFP 1 (exPartQ.map ElGroup.nelements) j el' f' i el f :=
  (exPart_symm j el' f' i el f).symm

theorem exPart_pair_back {i j : Nat} {aff : Unit} {x : Nat × Nat}
    (h : AdjPartPair (.partition 1) (.partition 0) exPartQ exPartP exPartFQ exPartFP 1 i j aff x) :
    j < 2 ∧ i = 0 ∧ x = (j, 0) := by
  obtain ⟨t, s⟩ := x
  obtain ⟨_, h'⟩ := adjPartPair_symm exPartQ_side exPart_symm_back h
  obtain ⟨h1, h2, h3⟩ := exPart_pair h'
  simp only [Prod.mk.injEq] at h3
  exact ⟨h1, h2, by simp [h3.1, h3.2]⟩

theorem exPart_conforming_back : ConformingParts (.partition 1) (.partition 0) exPartQ exPartP exPartFQ exPartFP 1
    (1 / 2) (fun _ x => x) exPartS exPartT := by
  intro i j aff x tg g hp htg hg k hk
  obtain ⟨hj, rfl, rfl⟩ := exPart_pair_back hp
  clear hp
  have e2 : exTwoNode = tg := by simpa [exPartS] using htg
  subst e2
  have hk2 : k < 2 := hk
  have hgn : g.n = 2 := by
    interval_cases j
    · obtain rfl := Option.some.inj hg
      rfl
    · obtain rfl := Option.some.inj hg
      rfl
  rw [hgn]
  refine ⟨1 - k, show 1 - k < 2 by omega, ?_, ?_⟩
  · have : exPartS.pos 0 j k = exPartT.pos j 0 (1 - k) := by
      interval_cases k <;> rfl
    simp [this]
  · intro f' hf' hn
    by_contra hne
    have : exPartS.pos 0 j k 1 = j ∧ exPartT.pos j 0 f' 1 = j ∧
        (exPartS.pos 0 j k 0 - exPartT.pos j 0 f' 0) ^ 2 = 1 := by
      interval_cases k <;> interval_cases f' <;> simp_all [exPartT, exPartS]
    simp only [Fin.sum_univ_two] at hn
    rw [this.1, this.2.1, this.2.2] at hn
    norm_num at hn

theorem exPartT_group {j : Nat} {g : FaceGroup 1} (hg : exPartT.groups[j]? = some g) :
    j < 2 ∧ g = { exTwoNode with nel := 1 } := by
  match j with
  | 0 => exact ⟨by omega, by simpa [exPartT] using hg.symm⟩
  | 1 => exact ⟨by omega, by simpa [exPartT] using hg.symm⟩
  | j + 2 => simp [exPartT] at hg

theorem exPartS_group {j : Nat} {g : FaceGroup 1} (hg : exPartS.groups[j]? = some g) : j = 0 ∧ g = exTwoNode := by
  match j with
  | 0 => exact ⟨rfl, by simpa [exPartS] using hg.symm⟩
  | j + 1 => simp [exPartS] at hg

theorem exPartT_sep : ∀ (j : Nat) g, exPartT.groups[j]? = some g →
    ∀ f < g.n, ∀ f' < g.n, (∀ k, |g.nodes f k - g.nodes f' k| < 1 / 2) → f = f' := by
  intro j g hg
  obtain ⟨_, rfl⟩ := exPartT_group hg
  exact exTwoNode_sep 0 exTwoNode rfl

theorem exPartT_ok : TagGroupsOK (.partition 1) exPartP exPartFP exPartT := by
  refine ⟨rfl, ?_⟩
  intro j g hg
  obtain ⟨hj, rfl⟩ := exPartT_group hg
  obtain ⟨ef, he⟩ := exPart_originsP j hj
  rw [he]
  rfl

theorem exPartS_ok : TagGroupsOK (.partition 0) exPartQ exPartFQ exPartS := by
  refine ⟨rfl, ?_⟩
  intro j g hg
  obtain ⟨rfl, rfl⟩ := exPartS_group hg
  rw [exPart_originsQ]
  rfl

/-- Two parts with two faces in common, one with its faces in two groups, and the nodes in opposite order: the
hypotheses hold in both directions, for any arrays. -/
theorem exPart_runs (lstsq : ∀ d, (Fin d → Fin 2 → ℝ) → (Fin 2 → ℝ) → Fin d → ℝ) (aP aQ : DofArr ℝ) :
    ∃ (rP rQ : FaceRestr (Nat × Nat) (List (Fin 1 → ℝ))) (conn conn' : _) (uP uQ : _),
      PartRun lstsq (.partition 0) (.partition 1) 0 1 exPartP exPartQ exPartFP exPartFQ (1 / 2) (fun _ x => x) exPartT
        exPartS rP rQ conn ∧
      PartRun lstsq (.partition 1) (.partition 0) 1 0 exPartQ exPartP exPartFQ exPartFP (1 / 2) (fun _ x => x) exPartS
        exPartT rQ rP conn' ∧
      (SameConn.direct (exPartS.groups.map FaceGroup.toS) (exPartT.groups.map FaceGroup.toS) conn true).call
        exSearch (fun _ _ _ => none) true aQ = .ok uP ∧
      (SameConn.direct (exPartT.groups.map FaceGroup.toS) (exPartS.groups.map FaceGroup.toS) conn' true).call
        exSearch (fun _ _ _ => none) true aP = .ok uQ := by
  have hlen : (exPartRP.map fun r => r.groups.map List.length) = some [1, 1] := by decide +kernel
  have hlen' : (exPartRQ.map fun r => r.groups.map List.length) = some [2] := by decide +kernel
  obtain ⟨rP, hrP, hgl⟩ := Option.map_eq_some_iff.1 hlen
  obtain ⟨rQ, hrQ, hgl'⟩ := Option.map_eq_some_iff.1 hlen'
  have hnfP : ∀ g ∈ exPartP, 0 < g.nfaces := by decide
  have hnfQ : ∀ g ∈ exPartQ, 0 < g.nfaces := by decide
  have hT : ∀ i < exPartP.length, ∃ g, exPartT.groups[i]? = some g := by
    intro i hi
    have hi : i < 2 := hi
    interval_cases i <;> exact ⟨_, rfl⟩
  have hS : ∀ i < exPartQ.length, ∃ g, exPartS.groups[i]? = some g := by
    intro i hi
    have hi : i < 1 := hi
    interval_cases i
    exact ⟨_, rfl⟩
  obtain ⟨conn, hconn⟩ := C95_partition_defined (lstsq := lstsq) hrP hrQ hnfP hnfQ exPartP_side exPartQ_side exPart_symm
    (by norm_num : (0 : ℝ) < 1 / 2) hT hS exPart_conforming
  obtain ⟨conn', hconn'⟩ := C95_partition_defined (lstsq := lstsq) hrQ hrP hnfQ hnfP exPartQ_side exPartP_side
    exPart_symm_back (by norm_num : (0 : ℝ) < 1 / 2) hS hT exPart_conforming_back
  obtain ⟨uP, hu⟩ := C95_partition_call (by norm_num) hrP hrQ hnfP hnfQ exPartP_side exPartQ_side exPart_symm hconn
    exPartS_sep exPart_conforming (find := exSearch) (fun _ _ _ => none) exSearch_complete (by
      intro bs hbs
      obtain ⟨i, hi⟩ := List.mem_iff_getElem?.1 hbs
      obtain ⟨els, h1, h2⟩ := partition_batch_count hrP hrQ hnfP hnfQ exPartP_side exPartQ_side exPart_symm hconn hi
      have h3 : (rP.groups.map List.length)[i]? = some els.length := by rw [List.getElem?_map, h1]; rfl
      rw [hgl] at h3
      have := List.mem_of_getElem? h3
      simp at this
      omega) true true aQ
  obtain ⟨uQ, hu'⟩ := C95_partition_call (by norm_num) hrQ hrP hnfQ hnfP exPartQ_side exPartP_side exPart_symm_back
    hconn' exPartT_sep exPart_conforming_back (find := exSearch) (fun _ _ _ => none) exSearch_complete (by
      intro bs hbs
      obtain ⟨i, hi⟩ := List.mem_iff_getElem?.1 hbs
      obtain ⟨els, h1, h2⟩ := partition_batch_count hrQ hrP hnfQ hnfP exPartQ_side exPartP_side exPart_symm_back hconn'
        hi
      have h3 : (rQ.groups.map List.length)[i]? = some els.length := by rw [List.getElem?_map, h1]; rfl
      rw [hgl'] at h3
      have := List.mem_of_getElem? h3
      simp at this
      omega) true true aP
  have R : PartRun lstsq (.partition 0) (.partition 1) 0 1 exPartP exPartQ exPartFP exPartFQ (1 / 2) (fun _ x => x)
      exPartT exPartS rP rQ conn := {
    dim := by norm_num
    restrP := ⟨_, _, _, hrP⟩
    restrQ := ⟨_, _, _, hrQ⟩
    facesP := hnfP
    facesQ := hnfQ
    sideP := exPartP_side
    sideQ := exPartQ_side
    symm := exPart_symm
    made := hconn
    groupsT := exPartT_ok
    groupsS := exPartS_ok
    apart := fun j g hg => ⟨by obtain ⟨_, rfl⟩ := exPartS_group hg; decide, exPartS_sep j g hg⟩
    unisolvent := fun j g hg => by obtain ⟨_, rfl⟩ := exPartS_group hg; exact exTwoNode_values
    conforming := exPart_conforming }
  have R' : PartRun lstsq (.partition 1) (.partition 0) 1 0 exPartQ exPartP exPartFQ exPartFP (1 / 2) (fun _ x => x)
      exPartS exPartT rQ rP conn' := {
    dim := by norm_num
    restrP := ⟨_, _, _, hrQ⟩
    restrQ := ⟨_, _, _, hrP⟩
    facesP := hnfQ
    facesQ := hnfP
    sideP := exPartQ_side
    sideQ := exPartP_side
    symm := exPart_symm_back
    made := hconn'
    groupsT := exPartS_ok
    groupsS := exPartT_ok
    apart := fun j g hg => ⟨by obtain ⟨_, rfl⟩ := exPartT_group hg; decide, exPartT_sep j g hg⟩
    unisolvent := fun j g hg => by obtain ⟨_, rfl⟩ := exPartT_group hg; exact exTwoNode_values
    conforming := exPart_conforming_back }
  exact ⟨rP, rQ, conn, conn', uP, uQ, R, R', hu, hu'⟩

theorem exNoResample :
    ResampleSound fun (_ : List ((Fin 1 → ℝ) → ℝ)) (_ _ : List (Fin 1 → ℝ)) => (none : Option (Mat ℝ)) := by
  intro basis new old M _ h
  simp at h

/-- What follows for the two parts. -/
example (lstsq : ∀ d, (Fin d → Fin 2 → ℝ) → (Fin 2 → ℝ) → Fin d → ℝ) (aP aQ : DofArr ℝ) : ∃ uP uQ : DofArr ℝ,
    exPartT.total (fun i t k => aP i t k - uP i t k) + exPartS.total (fun i t k => aQ i t k - uQ i t k) = 0 ∧
      exPartT.total (fun i t k => aP i t k + uP i t k) + exPartS.total (fun i t k => -1 * (aQ i t k + uQ i t k)) = 0 := by
  obtain ⟨rP, rQ, conn, conn', uP, uQ, R, R', hu, hu'⟩ := exPart_runs lstsq aP aQ
  have hback : PartMovesBack (a := 2) (.partition 0) (.partition 1) 0 1 exPartP exPartQ exPartFP exPartFQ
      (fun _ x => x) := C116_identity_moves fun _ _ => rfl
  refine ⟨uP, uQ, ?_, ?_⟩
  · have := C116_flux R R' hback exSearch_near exNoResample hu hu' (W := fun _ _ _ => 1) (W' := fun _ _ _ => 1)
      (fun _ _ _ _ _ _ _ => rfl) (h := fun x y => x - y) (fun x y => by ring)
    simpa using this
  · have := C116_central R R' hback exSearch_near exNoResample hu hu' (n := fun _ _ _ => 1) (n' := fun _ _ _ => -1)
      (fun _ _ _ _ _ _ _ => by norm_num) (h := fun x y => x + y) (fun x y => by ring)
    simpa using this

/-- No elements. (Example, no code.) -/
noncomputable def exNoFaces (n : Nat) : BdryDiscr 2 1 :=
  ⟨List.replicate n { exTwoNode with nel := 0 }, fun _ _ _ => 0⟩

/-- Parts without interior faces. -/
theorem exNoInterior (lstsq : ∀ d, (Fin d → Fin 2 → ℝ) → (Fin 2 → ℝ) → Fin d → ℝ) {groups : List (ElGroup Nat)}
    {fags : List (List (Fag Unit))} (hlen : groups.length = fags.length) (hnf : ∀ g ∈ groups, 0 < g.nfaces)
    (hno : ∀ fg ∈ fags, ∀ fag ∈ fg, fag.interiorRows = []) (hnb : ∀ fg ∈ fags, ∀ ig j rows aff,
      Fag.interior ig j rows aff ∈ fg → j < groups.length) {r : FaceRestr (Nat × Nat) (List (Fin 1 → ℝ))}
    (hr : makeFaceRestriction false (fun _ _ => []) (fun _ f n => (f, n)) .interior 4 groups fags = some r)
    (hgl : ∀ els ∈ r.groups, els.length = 0) (ary : DofArr ℝ) : ∃ opp u,
    OppositeRun lstsq groups fags (1 / 2) (fun _ x => x) (exNoFaces groups.length) r opp ∧
      (SameConn.direct ((exNoFaces groups.length).groups.map FaceGroup.toS)
        ((exNoFaces groups.length).groups.map FaceGroup.toS) opp true).call
        exSearch (fun _ _ _ => none) true ary = .ok u := by
  have hac : ∀ i el f j el' f', ¬ Across fags i el f j el' f' := by
    rintro i el f j el' f' ⟨fg, h1, ig, rows, aff, h2, h3⟩
    have := hno fg (List.mem_of_getElem? h1) _ h2
    simp only [Fag.interiorRows] at this
    rw [this] at h3
    cases h3
  have ok : InteriorOK groups fags := by
    refine ⟨hlen, fun i el f j el' f' h => absurd h (hac _ _ _ _ _ _), hnb,
      fun i el f j el' f' h => absurd h (hac _ _ _ _ _ _), ?_⟩
    intro i fg hfg
    have : (fg.flatMap fun fag => fag.interiorRows.map fun r => (⟨r.el, r.face⟩ : ElFace)) = [] := by
      rw [List.flatMap_eq_nil_iff]
      intro fag hfag
      rw [hno fg (List.mem_of_getElem? hfg) fag hfag]
      rfl
    rw [this]
    exact List.nodup_nil
  have hor : ∀ i, interiorOrigins groups fags i = [] := by
    intro i
    rw [List.eq_nil_iff_forall_not_mem]
    rintro ⟨el, f⟩ h
    obtain ⟨j, el', f', h'⟩ := ((interiorOrigins_props ok i).2 el f).2 h
    exact hac _ _ _ _ _ _ h'
  have hpair : ∀ i j aff x, ¬ AdjPair groups fags i j aff x := by
    rintro i j aff x ⟨fg, ig, rows, row, _, _, _, h4, _⟩
    rw [hor] at h4
    cases h4
  have hgrp : ∀ (j : Nat) g, (exNoFaces groups.length).groups[j]? = some g → g = { exTwoNode with nel := 0 } := by
    intro j g hg
    exact List.eq_of_mem_replicate (List.mem_of_getElem? hg)
  have hconf : ConformingNodes groups fags (1 / 2) (fun _ x => x) (exNoFaces groups.length) :=
    fun i j aff x tg g h => absurd h (hpair _ _ _ _)
  have hsep : ∀ (j : Nat) g, (exNoFaces groups.length).groups[j]? = some g →
      ∀ f < g.n, ∀ f' < g.n, (∀ k, |g.nodes f k - g.nodes f' k| < 1 / 2) → f = f' := by
    intro j g hg
    obtain rfl := hgrp j g hg
    exact exTwoNode_sep 0 exTwoNode rfl
  obtain ⟨opp, hopp⟩ := C95_conforming_defined (lstsq := lstsq) hr hnf ok (by norm_num : (0 : ℝ) < 1 / 2)
    (D := exNoFaces groups.length) (fun i hi => ⟨_, List.getElem?_eq_getElem (by simpa [exNoFaces] using hi)⟩) hconf
  obtain ⟨u, hu⟩ := C95_conforming_call (by norm_num) hr hnf ok hopp hsep hconf
    (find := exSearch) (fun _ _ _ => none) exSearch_complete (by
      intro bs hbs
      obtain ⟨i, hi⟩ := List.mem_iff_getElem?.1 hbs
      obtain ⟨els, h1, h2⟩ := opposite_batch_count hr hnf ok hopp hi
      have := hgl els (List.mem_of_getElem? h1)
      omega) true true ary
  refine ⟨opp, u, ?_, hu⟩
  exact {
    dim := by norm_num
    restr := ⟨_, _, _, hr⟩
    faces := hnf
    ok := ok
    made := hopp
    groupsOK := ⟨by simp [exNoFaces], fun j g hg => by
      obtain rfl := hgrp j g hg
      rw [hor]
      rfl⟩
    apart := fun j g hg => ⟨by obtain rfl := hgrp j g hg; decide, hsep j g hg⟩
    unisolvent := fun j g hg => by obtain rfl := hgrp j g hg; exact exTwoNode_values
    conforming := hconf
    back := C115_identity_moves fun _ _ => rfl }

/-- The two parts as a distributed computation. -/
example (lstsq : ∀ d, (Fin d → Fin 2 → ℝ) → (Fin 2 → ℝ) → Fin d → ℝ) (aP aQ aI aJ : DofArr ℝ) :
    ∃ uP uQ uI uJ : DofArr ℝ,
      (exNoFaces 2).total (fun i t k => aI i t k - uI i t k) + exPartT.total (fun i t k => aP i t k - uP i t k) +
        ((exNoFaces 1).total (fun i t k => aJ i t k - uJ i t k) +
          exPartS.total (fun i t k => aQ i t k - uQ i t k)) = 0 := by
  obtain ⟨rP, rQ, conn, conn', uP, uQ, R, R', hu, hu'⟩ := exPart_runs lstsq aP aQ
  have h1 : ((makeFaceRestriction false (fun _ _ => ([] : List (Fin 1 → ℝ))) (fun _ f n => (f, n)) .interior 4 exPartP
      exPartFP).map fun r => r.groups.map List.length) = some [0, 0] := by decide +kernel
  have h2 : ((makeFaceRestriction false (fun _ _ => ([] : List (Fin 1 → ℝ))) (fun _ f n => (f, n)) .interior 4 exPartQ
      exPartFQ).map fun r => r.groups.map List.length) = some [0] := by decide +kernel
  obtain ⟨r1, hr1, hg1⟩ := Option.map_eq_some_iff.1 h1
  obtain ⟨r2, hr2, hg2⟩ := Option.map_eq_some_iff.1 h2
  obtain ⟨o1, uI, I1, hu1⟩ := exNoInterior lstsq (groups := exPartP) (fags := exPartFP) rfl (by decide)
    (by decide) (by
      intro fg hfg ig j rows aff hm
      simp only [exPartFP, List.mem_cons, List.not_mem_nil, or_false] at hfg
      rcases hfg with rfl | rfl <;> simp at hm) hr1 (by
      intro els he
      have := List.mem_map_of_mem (f := List.length) he
      rw [hg1] at this
      simpa using this) aI
  obtain ⟨o2, uJ, I2, hu2⟩ := exNoInterior lstsq (groups := exPartQ) (fags := exPartFQ) rfl (by decide)
    (by decide) (by
      intro fg hfg ig j rows aff hm
      simp only [exPartFQ, List.mem_cons, List.not_mem_nil, or_false] at hfg
      subst hfg
      simp at hm) hr2 (by
      intro els he
      have := List.mem_map_of_mem (f := List.length) he
      rw [hg2] at this
      simpa using this) aJ
  have := C116_global (lstsq := lstsq) (tol := 1 / 2) (move := fun (_ : Unit) (x : Fin 2 → ℝ) => x)
    (gs := ![exPartP, exPartQ]) (fs := ![exPartFP, exPartFQ]) (tag := fun p => .partition p)
    (DI := ![exNoFaces 2, exNoFaces 1]) (DB := fun p _ => ![exPartT, exPartS] p) (rI := ![r1, r2])
    (rB := fun p _ => ![rP, rQ] p) (opp := ![o1, o2]) (con := fun p _ => ![conn, conn'] p)
    (nb := fun p q => p != q) (fun p q => by simp [bne, Bool.beq_comm]) (by
      intro p
      fin_cases p
      · exact I1
      · exact I2) (by
      intro p q h
      fin_cases p <;> fin_cases q
      · simp at h
      · exact R
      · exact R'
      · simp at h) (fun _ _ _ => C116_identity_moves fun _ _ => rfl) exSearch_near exNoResample (sj := true)
      (merge := true) (aI := ![aI, aJ]) (uI := ![uI, uJ]) (aB := fun p _ => ![aP, aQ] p)
      (uB := fun p _ => ![uP, uQ] p) (by
      intro p
      fin_cases p
      · exact hu1
      · exact hu2) (by
      intro p q h
      fin_cases p <;> fin_cases q
      · simp at h
      · exact hu
      · exact hu'
      · simp at h) (WI := fun _ _ _ _ => 1) (WB := fun _ _ _ _ _ => 1) (fun _ _ _ _ _ _ _ _ => rfl)
      (fun _ _ _ _ _ _ _ _ _ _ => rfl) (h := fun x y => x - y) (fun x y => by ring)
  refine ⟨uP, uQ, uI, uJ, ?_⟩
  have e0 : (Finset.univ.filter fun q : Fin 2 => ((0 : Fin 2) != q) = true) = {1} := by decide
  have e1 : (Finset.univ.filter fun q : Fin 2 => ((1 : Fin 2) != q) = true) = {0} := by decide
  rw [Fin.sum_univ_two, e0, e1, Finset.sum_singleton, Finset.sum_singleton] at this
  simpa using this

end Meshmode
