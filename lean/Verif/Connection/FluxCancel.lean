import Verif.Connection.CrossFace
import Mathlib.Algebra.BigOperators.Group.Finset.Sigma

/-!
# Numerical fluxes cancel across interior faces (C115)

`make_opposite_face_connection` (meshmode/discretization/connection/opposite_face.py:389-528) gives, at each node of
each interior face, the value on the other side.  Composed with the evaluation of the connection (direct.py) and the
search of the reference nodes (CrossFace.lean), for faces with coinciding nodes: taking the values on the other side
twice gives the values back, weighted sums are the same on both sides, and a flux that changes sign with its arguments
sums to zero.  No code of its own.
-/
namespace Meshmode

open Finset

variable {N M A : Type} {a d : Nat}

/-! ## Specification -/

/-- The sum over the nodes of all boundary elements. (Specification or proof vocabulary, no code.) -/
def BdryDiscr.total (D : BdryDiscr a d) (F : Nat → Nat → Nat → ℝ) : ℝ :=
  ∑ i : Fin D.groups.length, ∑ t ∈ range D.groups[i].nel, ∑ q ∈ range D.groups[i].n, F i t q

/-- Node `q'` of boundary element `s` of group `j` is the one at the place of node `q` of element `t` of group `i`, on
the other side of the face, after moving by the affine map of the adjacency group.
(Specification or proof vocabulary, no code.) -/
def NodePartner (groups : List (ElGroup N)) (fags : List (List (Fag A))) (tol : ℝ)
    (move : A → (Fin a → ℝ) → Fin a → ℝ) (D : BdryDiscr a d) (i t q j s q' : Nat) : Prop :=
  ∃ aff g, AdjPair groups fags i j aff (t, s) ∧ D.groups[j]? = some g ∧
    OneNear g.n tol (move aff (D.pos i t q)) (D.pos j s) q'

/-- The affine maps of the two directions of a face undo each other and keep distances.
(Specification or proof vocabulary, no code.) -/
def MovesBack (groups : List (ElGroup N)) (fags : List (List (Fag A))) (move : A → (Fin a → ℝ) → Fin a → ℝ) : Prop :=
  ∀ i j aff aff' t s, AdjPair groups fags i j aff (t, s) → AdjPair groups fags j i aff' (s, t) →
    ∀ x y : Fin a → ℝ, ∑ k, (move aff x k - y k) ^ 2 = ∑ k, (move aff' y k - x k) ^ 2

/-! ## Lemmas -/

theorem flatMap_key_inj {α β γ : Type} {l : List α} {f : α → List β} {k : β → γ}
    (h : (l.flatMap fun a => (f a).map k).Nodup) {x y : α} {r s : β} (hx : x ∈ l) (hy : y ∈ l) (hr : r ∈ f x)
    (hs : s ∈ f y) (e : k r = k s) : x = y ∧ r = s := by
  rw [List.nodup_flatMap] at h
  have hxy : x = y := by
    by_contra hne
    have : Std.Symm (Function.onFun List.Disjoint fun a => (f a).map k) := ⟨fun _ _ h => List.Disjoint.symm h⟩
    have := h.2.forall hx hy hne
    rw [Function.onFun, List.disjoint_left] at this
    exact this (List.mem_map_of_mem hr) (e ▸ List.mem_map_of_mem hs)
  subst hxy
  exact ⟨rfl, List.inj_on_of_nodup_map (h.1 x hx) hr hs e⟩

/-- A face is in one row. -/
theorem adjPair_unique {groups : List (ElGroup N)} {fags : List (List (Fag A))} (ok : InteriorOK groups fags)
    {i j j' t s s' : Nat} {aff aff' : A} (h : AdjPair groups fags i j aff (t, s))
    (h' : AdjPair groups fags i j' aff' (t, s')) : j = j' ∧ aff = aff' ∧ s = s' := by
  obtain ⟨fg, ig, rows, row, h1, h2, h3, h4, h5⟩ := h
  obtain ⟨fg', ig', rows', row', h1', h2', h3', h4', h5'⟩ := h'
  rw [h1] at h1'
  obtain rfl := Option.some.inj h1'
  simp only at h4 h4' h5 h5'
  rw [h4] at h4'
  have hk := Option.some.inj h4'
  obtain ⟨e1, e2⟩ := flatMap_key_inj (f := Fag.interiorRows)
    (k := fun r => (⟨r.el, r.face⟩ : ElFace)) (ok.nodup i fg h1) h2 h2' h3 h3' hk
  injection e1 with e3 e4 e5 e6
  subst e4 e6 e2
  refine ⟨rfl, rfl, ?_⟩
  have := (interiorOrigins_props ok j).1
  exact (List.nodup_iff_injective_get.1 this |> fun hi => by
    have hs := (List.getElem?_eq_some_iff.1 h5)
    have hs' := (List.getElem?_eq_some_iff.1 h5')
    have := @hi ⟨s, hs.1⟩ ⟨s', hs'.1⟩ (by simp [hs.2, hs'.2])
    simpa using this)

theorem adjPair_symm {groups : List (ElGroup N)} {fags : List (List (Fag A))} (ok : InteriorOK groups fags)
    {i j t s : Nat} {aff : A} (h : AdjPair groups fags i j aff (t, s)) :
    ∃ aff', AdjPair groups fags j i aff' (s, t) := by
  obtain ⟨fg, ig, rows, row, h1, h2, h3, h4, h5⟩ := h
  obtain ⟨fg', h6, ig', rows', aff', h7, h8⟩ := ok.symm i row.el row.face j row.nel row.nface
    ⟨fg, h1, ig, rows, aff, h2, h3⟩
  exact ⟨aff', fg', ig', rows', _, h6, h7, h8, h5, h4⟩

theorem nodePartner_unique {groups : List (ElGroup N)} {fags : List (List (Fag A))} (ok : InteriorOK groups fags)
    {tol : ℝ} {move : A → (Fin a → ℝ) → Fin a → ℝ} {D : BdryDiscr a d} {i t q j s q' j' s' q'' : Nat}
    (h : NodePartner groups fags tol move D i t q j s q') (h' : NodePartner groups fags tol move D i t q j' s' q'') :
    j = j' ∧ s = s' ∧ q' = q'' := by
  obtain ⟨aff, g, h1, h2, h3⟩ := h
  obtain ⟨aff', g', h1', h2', h3'⟩ := h'
  obtain ⟨rfl, rfl, rfl⟩ := adjPair_unique ok h1 h1'
  rw [h2] at h2'
  obtain rfl := Option.some.inj h2'
  exact ⟨rfl, rfl, h3'.2.2 _ h3.1 h3.2.1⟩

/-- Boundary elements have a face behind them. -/
theorem exists_adjPair {groups : List (ElGroup N)} {fags : List (List (Fag A))} (ok : InteriorOK groups fags)
    {i t : Nat} (ht : t < (interiorOrigins groups fags i).length) :
    ∃ j aff s, AdjPair groups fags i j aff (t, s) := by
  have h0 := List.getElem?_eq_getElem ht
  obtain ⟨j, el', f', hac⟩ := ((interiorOrigins_props ok i).2 _ _).2
    (List.mem_of_getElem? h0 : (⟨_, _⟩ : ElFace) ∈ _)
  have hb := ((interiorOrigins_props ok j).2 _ _).1 ⟨_, _, _, ok.symm _ _ _ _ _ _ hac⟩
  obtain ⟨s, hs⟩ := List.mem_iff_getElem?.1 hb
  obtain ⟨fg, h1, ig, rows, aff, h2, h3⟩ := hac
  exact ⟨j, aff, s, fg, ig, rows, _, h1, h2, h3, h0, hs⟩

/-- The groups of the boundary discretization have the elements of the face restriction.
(Specification or proof vocabulary, no code.) -/
def FaceGroupsOK (groups : List (ElGroup N)) (fags : List (List (Fag A))) (D : BdryDiscr a d) : Prop :=
  D.groups.length = groups.length ∧
    ∀ (j : Nat) g, D.groups[j]? = some g → g.nel = (interiorOrigins groups fags j).length

theorem adjPair_lt {groups : List (ElGroup N)} {fags : List (List (Fag A))} {D : BdryDiscr a d}
    (hD : FaceGroupsOK groups fags D) {i j t s : Nat} {aff : A} (h : AdjPair groups fags i j aff (t, s)) :
    ∃ g, D.groups[j]? = some g ∧ s < g.nel := by
  obtain ⟨fg, ig, rows, row, h1, h2, h3, h4, h5⟩ := h
  have hj : j < groups.length := by
    by_contra hn
    simp [interiorOrigins, List.getElem?_eq_none (show groups.length ≤ j by omega)] at h5
  refine ⟨_, List.getElem?_eq_getElem (hD.1 ▸ hj), ?_⟩
  rw [hD.2 j _ (List.getElem?_eq_getElem (hD.1 ▸ hj))]
  exact (List.getElem?_eq_some_iff.1 h5).1

theorem exists_partner {groups : List (ElGroup N)} {fags : List (List (Fag A))} (ok : InteriorOK groups fags)
    {tol : ℝ} {move : A → (Fin a → ℝ) → Fin a → ℝ} {D : BdryDiscr a d} (hD : FaceGroupsOK groups fags D)
    (hconf : ConformingNodes groups fags tol move D) {i t q : Nat} {tg : FaceGroup d} (htg : D.groups[i]? = some tg)
    (ht : t < tg.nel) (hq : q < tg.n) : ∃ j s q', NodePartner groups fags tol move D i t q j s q' := by
  obtain ⟨j, aff, s, h⟩ := exists_adjPair ok (hD.2 i tg htg ▸ ht)
  obtain ⟨g, hg, _⟩ := adjPair_lt hD h
  obtain ⟨f, hf⟩ := hconf i j aff (t, s) tg g h htg hg q hq
  exact ⟨j, s, f, aff, g, h, hg, hf⟩

theorem partner_lt {groups : List (ElGroup N)} {fags : List (List (Fag A))} {tol : ℝ}
    {move : A → (Fin a → ℝ) → Fin a → ℝ} {D : BdryDiscr a d} (hD : FaceGroupsOK groups fags D) {i t q j s q' : Nat}
    (h : NodePartner groups fags tol move D i t q j s q') :
    ∃ g, D.groups[j]? = some g ∧ s < g.nel ∧ q' < g.n := by
  obtain ⟨aff, g, h1, h2, h3⟩ := h
  obtain ⟨g', h4, h5⟩ := adjPair_lt hD h1
  rw [h2] at h4
  obtain rfl := Option.some.inj h4
  exact ⟨g, h2, h5, h3.1⟩

/-- Sums over all nodes, as one sum. -/
theorem total_eq (D : BdryDiscr a d) (F : Nat → Nat → Nat → ℝ) :
    D.total F = ∑ x ∈ (univ : Finset (Fin D.groups.length)).sigma fun i =>
      range D.groups[i].nel ×ˢ range D.groups[i].n, F x.1 x.2.1 x.2.2 := by
  rw [Finset.sum_sigma]
  refine Finset.sum_congr rfl fun i _ => ?_
  rw [Finset.sum_product]

/-- Renaming the nodes by an involution keeps the sum. -/
theorem total_involution {D : BdryDiscr a d} {R : Nat → Nat → Nat → Nat → Nat → Nat → Prop}
    (hex : ∀ (i : Nat) g, D.groups[i]? = some g → ∀ t < g.nel, ∀ q < g.n, ∃ j s q', R i t q j s q')
    (hlt : ∀ i t q j s q', R i t q j s q' → ∃ g, D.groups[j]? = some g ∧ s < g.nel ∧ q' < g.n)
    (hu : ∀ i t q j s q' j' s' q'', R i t q j s q' → R i t q j' s' q'' → j = j' ∧ s = s' ∧ q' = q'')
    (hs : ∀ (i : Nat) g t q j s q', D.groups[i]? = some g → t < g.nel → q < g.n → R i t q j s q' → R j s q' i t q)
    {F G : Nat → Nat → Nat → ℝ} (hFG : ∀ i t q j s q', R i t q j s q' → F i t q = G j s q') :
    D.total F = D.total G := by
  have hex' : ∀ x : (Σ _ : Fin D.groups.length, Nat × Nat), x ∈ ((univ : Finset (Fin D.groups.length)).sigma fun i =>
      range D.groups[i].nel ×ˢ range D.groups[i].n) → ∃ y : (Σ _ : Fin D.groups.length, Nat × Nat),
      y ∈ ((univ : Finset (Fin D.groups.length)).sigma fun i => range D.groups[i].nel ×ˢ range D.groups[i].n) ∧
      R x.1 x.2.1 x.2.2 y.1 y.2.1 y.2.2 := by
    rintro ⟨i, t, q⟩ hx
    simp only [mem_sigma, mem_univ, mem_product, mem_range, true_and] at hx
    obtain ⟨j, s, q', hr⟩ := hex i _ (List.getElem?_eq_getElem i.2) t hx.1 q hx.2
    obtain ⟨g, h1, h2, h3⟩ := hlt _ _ _ _ _ _ hr
    obtain ⟨hj, rfl⟩ := List.getElem?_eq_some_iff.1 h1
    exact ⟨⟨⟨j, hj⟩, s, q'⟩, by simp [h2, h3], hr⟩
  rw [total_eq, total_eq]
  choose! σ hσ1 hσ2 using hex'
  have hinv : ∀ x ∈ ((univ : Finset (Fin D.groups.length)).sigma fun i =>
      range D.groups[i].nel ×ˢ range D.groups[i].n), σ (σ x) = x := by
    rintro x hx
    have h1 := hσ2 x hx
    have h2 := hσ2 _ (hσ1 x hx)
    have hx' := hx
    simp only [mem_sigma, mem_univ, mem_product, mem_range, true_and] at hx'
    have h3 := hs _ _ _ _ _ _ _ (List.getElem?_eq_getElem x.1.2) hx'.1 hx'.2 h1
    obtain ⟨e1, e2, e3⟩ := hu _ _ _ _ _ _ _ _ _ h2 h3
    exact Sigma.ext (Fin.ext e1) (heq_of_eq (Prod.ext e2 e3))
  exact Finset.sum_nbij' σ σ hσ1 hσ1 hinv hinv fun x hx => hFG _ _ _ _ _ _ (hσ2 x hx)

/-! ## Properties -/

/-- C115: being at the same place on the other side is symmetric. -/
theorem C115_partner_symm {groups : List (ElGroup N)} {fags : List (List (Fag A))} (ok : InteriorOK groups fags)
    {tol : ℝ} {move : A → (Fin a → ℝ) → Fin a → ℝ} {D : BdryDiscr a d}
    (hconf : ConformingNodes groups fags tol move D) (hback : MovesBack groups fags move) {i t q j s q' : Nat}
    {tg : FaceGroup d} (htg : D.groups[i]? = some tg) (hq : q < tg.n)
    (h : NodePartner groups fags tol move D i t q j s q') : NodePartner groups fags tol move D j s q' i t q := by
  obtain ⟨aff, g, h1, h2, h3⟩ := h
  obtain ⟨aff', h4⟩ := adjPair_symm ok h1
  obtain ⟨f, hf⟩ := hconf j i aff' (s, t) g tg h4 h2 htg q' h3.1
  have hn : Real.sqrt (∑ k, (move aff' (D.pos j s q') k - D.pos i t q k) ^ 2) < tol := by
    rw [← hback i j aff aff' t s h1 h4]
    exact h3.2.1
  have := hf.2.2 q hq hn
  subst this
  exact ⟨aff', tg, h4, htg, hf⟩

/-- The connection between the two sides of the interior faces of a mesh is made and evaluated, for faces with
coinciding nodes. (Specification or proof vocabulary, no code.) -/
structure OppositeRun (lstsq : ∀ d, (Fin d → Fin a → ℝ) → (Fin a → ℝ) → Fin d → ℝ) (groups : List (ElGroup N))
    (fags : List (List (Fag A))) (tol : ℝ) (move : A → (Fin a → ℝ) → Fin a → ℝ) (D : BdryDiscr a d)
    (r : FaceRestr M (List (Fin d → ℝ))) (opp : List (List (Batch (List (Fin d → ℝ))))) : Prop where
  dim : 0 < d
  restr : ∃ (un : Nat → Nat → List (Fin d → ℝ)) (res : Nat → Nat → N → M) (nv : Nat),
    makeFaceRestriction false un res .interior nv groups fags = some r
  faces : ∀ g ∈ groups, 0 < g.nfaces
  ok : InteriorOK groups fags
  made : makeOpposite (crossOpposite lstsq tol move D) (groups.map ElGroup.nfaces) fags r.batches = some opp
  groupsOK : FaceGroupsOK groups fags D
  apart : ∀ (j : Nat) g, D.groups[j]? = some g → 0 < g.n ∧
    ∀ f < g.n, ∀ f' < g.n, (∀ k, |g.nodes f k - g.nodes f' k| < tol) → f = f'
  unisolvent : ∀ (j : Nat) g, D.groups[j]? = some g → ∀ v : Nat → ℝ, ∃ c, HasValues g.toS c v
  conforming : ConformingNodes groups fags tol move D
  back : MovesBack groups fags move

variable {lstsq : ∀ d, (Fin d → Fin a → ℝ) → (Fin a → ℝ) → Fin d → ℝ} {groups : List (ElGroup N)}
  {fags : List (List (Fag A))} {tol : ℝ} {move : A → (Fin a → ℝ) → Fin a → ℝ} {D : BdryDiscr a d}
  {r : FaceRestr M (List (Fin d → ℝ))} {opp : List (List (Batch (List (Fin d → ℝ))))}
  {find : List (Fin d → ℝ) → List (Fin d → ℝ) → List (Option Nat)}
  {resample : List ((Fin d → ℝ) → ℝ) → List (Fin d → ℝ) → List (Fin d → ℝ) → Option (Mat ℝ)}

/-- C115: the result of the connection at a node is the value at its partner. -/
theorem C115_value (R : OppositeRun lstsq groups fags tol move D r opp) (hf : FindNear 0 find)
    (hr : ResampleSound resample) {sj merge : Bool} {ary u : DofArr ℝ}
    (hc : (SameConn.direct (D.groups.map FaceGroup.toS) (D.groups.map FaceGroup.toS) opp sj).call find resample merge
      ary = .ok u) {i t q j s q' : Nat} {tg : FaceGroup d} (htg : D.groups[i]? = some tg) (ht : t < tg.nel)
    (hq : q < tg.n) (hp : NodePartner groups fags tol move D i t q j s q') : u i t q = ary j s q' := by
  obtain ⟨un, res, nv, h⟩ := R.restr
  have ht' := List.getElem?_eq_getElem (R.groupsOK.2 i tg htg ▸ ht : t < (interiorOrigins groups fags i).length)
  obtain ⟨fg, ig, j', rows, aff, el', f', s', g, q'', h1, h2, h3, h4, h5, h6, h7⟩ :=
    C95_conforming R.dim h R.faces R.ok R.made
      (fun j g hg => ⟨R.groupsOK.2 j g hg, R.apart j g hg⟩) R.conforming hf hr hc (el := _) (f := _) ht' htg hq
  have hp' : NodePartner groups fags tol move D i t q j' s' q'' :=
    ⟨aff, g, ⟨fg, ig, rows, _, h1, h2, h3, ht', h4⟩, h5, h6⟩
  obtain ⟨rfl, rfl, rfl⟩ := nodePartner_unique R.ok hp hp'
  exact h7 (R.unisolvent _ _ h5 _)

/-- C115: applied twice, the connection gives back the array. -/
theorem C115_twice (R : OppositeRun lstsq groups fags tol move D r opp) (hf : FindNear 0 find)
    (hr : ResampleSound resample) {sj merge sj' merge' : Bool} {ary u v : DofArr ℝ}
    (hc : (SameConn.direct (D.groups.map FaceGroup.toS) (D.groups.map FaceGroup.toS) opp sj).call find resample merge
      ary = .ok u)
    (hc' : (SameConn.direct (D.groups.map FaceGroup.toS) (D.groups.map FaceGroup.toS) opp sj').call find resample merge'
      u = .ok v) {i t q : Nat} {tg : FaceGroup d} (htg : D.groups[i]? = some tg) (ht : t < tg.nel)
    (hq : q < tg.n) : v i t q = ary i t q := by
  obtain ⟨j, s, q', hp⟩ := exists_partner R.ok R.groupsOK R.conforming htg ht hq
  obtain ⟨g, hg, hs, hq'⟩ := partner_lt R.groupsOK hp
  rw [C115_value R hf hr hc' htg ht hq hp]
  exact C115_value R hf hr hc hg hs hq' (C115_partner_symm R.ok R.conforming R.back htg hq hp)

/-- C115: for weights that are the same on both sides, a quantity computed at each node from the values on this and the
other side has the same weighted sum with the two sides swapped. -/
theorem C115_swap (R : OppositeRun lstsq groups fags tol move D r opp) (hf : FindNear 0 find)
    (hr : ResampleSound resample) {sj merge : Bool} {ary u : DofArr ℝ}
    (hc : (SameConn.direct (D.groups.map FaceGroup.toS) (D.groups.map FaceGroup.toS) opp sj).call find resample merge
      ary = .ok u) {W : Nat → Nat → Nat → ℝ}
    (hW : ∀ i t q j s q', NodePartner groups fags tol move D i t q j s q' → W i t q = W j s q') (h : ℝ → ℝ → ℝ) :
    D.total (fun i t q => W i t q * h (ary i t q) (u i t q)) =
      D.total fun i t q => W i t q * h (u i t q) (ary i t q) := by
  refine total_involution (R := fun i t q j s q' => NodePartner groups fags tol move D i t q j s q' ∧
    ∃ tg, D.groups[i]? = some tg ∧ t < tg.nel ∧ q < tg.n) ?_ ?_ ?_ ?_ ?_
  · intro i g hg t ht q hq
    obtain ⟨j, s, q', hp⟩ := exists_partner R.ok R.groupsOK R.conforming hg ht hq
    exact ⟨j, s, q', hp, g, hg, ht, hq⟩
  · rintro i t q j s q' ⟨hp, _⟩
    exact partner_lt R.groupsOK hp
  · rintro i t q j s q' j' s' q'' ⟨hp, _⟩ ⟨hp', _⟩
    exact nodePartner_unique R.ok hp hp'
  · rintro i g t q j s q' hg ht hq ⟨hp, _⟩
    exact ⟨C115_partner_symm R.ok R.conforming R.back hg hq hp, partner_lt R.groupsOK hp⟩
  · rintro i t q j s q' ⟨hp, tg, htg, ht, hq⟩
    obtain ⟨g, hg, hs, hq'⟩ := partner_lt R.groupsOK hp
    rw [C115_value R hf hr hc htg ht hq hp, hW _ _ _ _ _ _ hp, C115_value R hf hr hc hg hs hq'
      (C115_partner_symm R.ok R.conforming R.back htg hq hp)]

/-- C115: the weighted sum of the values on the other side is that of the values on this side. -/
theorem C115_sum (R : OppositeRun lstsq groups fags tol move D r opp) (hf : FindNear 0 find)
    (hr : ResampleSound resample) {sj merge : Bool} {ary u : DofArr ℝ}
    (hc : (SameConn.direct (D.groups.map FaceGroup.toS) (D.groups.map FaceGroup.toS) opp sj).call find resample merge
      ary = .ok u) {W : Nat → Nat → Nat → ℝ}
    (hW : ∀ i t q j s q', NodePartner groups fags tol move D i t q j s q' → W i t q = W j s q') :
    D.total (fun i t q => W i t q * u i t q) = D.total fun i t q => W i t q * ary i t q :=
  C115_swap R hf hr hc hW fun _ y => y

/-- C115: a numerical flux that changes sign when the two sides are swapped sums to zero over the interior faces:
nothing is lost or made between elements. -/
theorem C115_flux (R : OppositeRun lstsq groups fags tol move D r opp) (hf : FindNear 0 find)
    (hr : ResampleSound resample) {sj merge : Bool} {ary u : DofArr ℝ}
    (hc : (SameConn.direct (D.groups.map FaceGroup.toS) (D.groups.map FaceGroup.toS) opp sj).call find resample merge
      ary = .ok u) {W : Nat → Nat → Nat → ℝ}
    (hW : ∀ i t q j s q', NodePartner groups fags tol move D i t q j s q' → W i t q = W j s q') {h : ℝ → ℝ → ℝ}
    (hh : ∀ x y, h x y = -h y x) : D.total (fun i t q => W i t q * h (ary i t q) (u i t q)) = 0 := by
  have h1 := C115_swap R hf hr hc hW h
  have h2 : D.total (fun i t q => W i t q * h (u i t q) (ary i t q)) =
      -D.total fun i t q => W i t q * h (ary i t q) (u i t q) := by
    simp only [BdryDiscr.total, ← Finset.sum_neg_distrib]
    refine Finset.sum_congr rfl fun i _ => Finset.sum_congr rfl fun t _ => Finset.sum_congr rfl fun q _ => ?_
    rw [hh (u i t q)]
    ring
  linarith

/-- C115: a flux of the average, with a weight of opposite sign on the two sides (as the normal vector is), sums to
zero. -/
theorem C115_central (R : OppositeRun lstsq groups fags tol move D r opp) (hf : FindNear 0 find)
    (hr : ResampleSound resample) {sj merge : Bool} {ary u : DofArr ℝ}
    (hc : (SameConn.direct (D.groups.map FaceGroup.toS) (D.groups.map FaceGroup.toS) opp sj).call find resample merge
      ary = .ok u) {n : Nat → Nat → Nat → ℝ}
    (hn : ∀ i t q j s q', NodePartner groups fags tol move D i t q j s q' → n i t q = -n j s q') {h : ℝ → ℝ → ℝ}
    (hh : ∀ x y, h x y = h y x) : D.total (fun i t q => n i t q * h (ary i t q) (u i t q)) = 0 := by
  have h1 : D.total (fun i t q => n i t q * h (ary i t q) (u i t q)) =
      D.total fun i t q => -(n i t q * h (ary i t q) (u i t q)) := by
    refine total_involution (R := fun i t q j s q' => NodePartner groups fags tol move D i t q j s q' ∧
      ∃ tg, D.groups[i]? = some tg ∧ t < tg.nel ∧ q < tg.n) ?_ ?_ ?_ ?_ ?_
    · intro i g hg t ht q hq
      obtain ⟨j, s, q', hp⟩ := exists_partner R.ok R.groupsOK R.conforming hg ht hq
      exact ⟨j, s, q', hp, g, hg, ht, hq⟩
    · rintro i t q j s q' ⟨hp, _⟩
      exact partner_lt R.groupsOK hp
    · rintro i t q j s q' j' s' q'' ⟨hp, _⟩ ⟨hp', _⟩
      exact nodePartner_unique R.ok hp hp'
    · rintro i g t q j s q' hg ht hq ⟨hp, _⟩
      exact ⟨C115_partner_symm R.ok R.conforming R.back hg hq hp, partner_lt R.groupsOK hp⟩
    · rintro i t q j s q' ⟨hp, tg, htg, ht, hq⟩
      obtain ⟨g, hg, hs, hq'⟩ := partner_lt R.groupsOK hp
      rw [C115_value R hf hr hc htg ht hq hp, hn _ _ _ _ _ _ hp, C115_value R hf hr hc hg hs hq'
        (C115_partner_symm R.ok R.conforming R.back htg hq hp), hh (ary i t q)]
      ring
  have h2 : D.total (fun i t q => -(n i t q * h (ary i t q) (u i t q))) =
      -D.total fun i t q => n i t q * h (ary i t q) (u i t q) := by
    simp only [BdryDiscr.total, ← Finset.sum_neg_distrib]
  linarith

/-- C115: the affine maps undo each other where adjacency is by common vertices and they do nothing. -/
theorem C115_identity_moves (hm : ∀ aff x, move aff x = x) : MovesBack groups fags move := by
  intro i j aff aff' t s _ _ x y
  rw [hm, hm]
  refine Finset.sum_congr rfl fun k _ => ?_
  ring

/-! ## Examples -/

/-- The edge between two triangles, whose sides have their nodes in opposite order: the hypotheses of the theorems
hold, for any array; and what they say. -/
example (lstsq : ∀ d, (Fin d → Fin 2 → ℝ) → (Fin 2 → ℝ) → Fin d → ℝ) (ary : DofArr ℝ) :
    ∃ (r : FaceRestr (Nat × Nat) (List (Fin 1 → ℝ))) (opp : _) (u : _),
      OppositeRun lstsq exFaceMesh exFaceFags (1 / 2) (fun _ x => x) exEdgeDiscr r opp ∧
      (SameConn.direct (exEdgeDiscr.groups.map FaceGroup.toS) (exEdgeDiscr.groups.map FaceGroup.toS) opp true).call
        exSearch (fun _ _ _ => none) true ary = .ok u ∧
      NodePartner exFaceMesh exFaceFags (1 / 2) (fun _ x => x) exEdgeDiscr 0 0 0 0 1 1 ∧
      exEdgeDiscr.total (fun i t q => ary i t q - u i t q) = 0 ∧
      exEdgeDiscr.total (fun i t q => (-1) ^ t * (ary i t q + u i t q)) = 0 := by
  have hlen : (exEdgeRestr.map fun r => r.groups.map List.length) = some [2] := by decide +kernel
  obtain ⟨r, hr, hgl⟩ := Option.map_eq_some_iff.1 hlen
  have hnf : ∀ g ∈ exFaceMesh, 0 < g.nfaces := by decide
  obtain ⟨opp, hopp⟩ := C95_conforming_defined (lstsq := lstsq) hr hnf exFaceFags_ok (by norm_num : (0 : ℝ) < 1 / 2)
    (D := exEdgeDiscr) (by
      intro i hi
      have : i = 0 := by simpa [exFaceMesh] using hi
      subst this
      exact ⟨_, rfl⟩) exEdge_conforming
  obtain ⟨u, hu⟩ := C95_conforming_call (by norm_num) hr hnf exFaceFags_ok hopp exTwoNode_sep exEdge_conforming
    (find := exSearch) (fun _ _ _ => none) exSearch_complete (by
      intro bs hbs
      obtain ⟨i, hi⟩ := List.mem_iff_getElem?.1 hbs
      obtain ⟨els, h1, h2⟩ := opposite_batch_count hr hnf exFaceFags_ok hopp hi
      have h3 : (r.groups.map List.length)[i]? = some els.length := by rw [List.getElem?_map, h1]; rfl
      rw [hgl] at h3
      have := List.mem_of_getElem? h3
      simp at this
      omega) true true ary
  have hgrp : ∀ (j : Nat) g, exEdgeDiscr.groups[j]? = some g → j = 0 ∧ g = exTwoNode := by
    intro j g hg
    match j with
    | 0 => exact ⟨rfl, by simpa [exEdgeDiscr] using hg.symm⟩
    | j + 1 => simp [exEdgeDiscr] at hg
  have R : OppositeRun lstsq exFaceMesh exFaceFags (1 / 2) (fun _ x => x) exEdgeDiscr r opp := {
    dim := by norm_num
    restr := ⟨_, _, _, hr⟩
    faces := hnf
    ok := exFaceFags_ok
    made := hopp
    groupsOK := ⟨rfl, by
      intro j g hg
      obtain ⟨rfl, rfl⟩ := hgrp j g hg
      rw [exEdge_origins]
      rfl⟩
    apart := by
      intro j g hg
      refine ⟨?_, exTwoNode_sep j g hg⟩
      obtain ⟨rfl, rfl⟩ := hgrp j g hg
      decide
    unisolvent := by
      intro j g hg
      obtain ⟨rfl, rfl⟩ := hgrp j g hg
      exact exTwoNode_values
    conforming := exEdge_conforming
    back := C115_identity_moves fun _ _ => rfl }
  have hpart : ∀ i t q j s q', NodePartner exFaceMesh exFaceFags (1 / 2) (fun _ x => x) exEdgeDiscr i t q j s q' →
      t + s = 1 := by
    rintro i t q j s q' ⟨aff, g, h1, _⟩
    obtain ⟨_, _, h⟩ := exEdge_pair h1
    rcases h with h | h <;> simp at h <;> omega
  refine ⟨r, opp, u, R, hu, ?_, ?_, ?_⟩
  · obtain ⟨j, s, q', hp⟩ := exists_partner R.ok R.groupsOK R.conforming (i := 0) (t := 0) (q := 0) rfl
      (show 0 < 2 by omega) (show 0 < 2 by omega)
    have hs := hpart _ _ _ _ _ _ hp
    obtain ⟨aff, g, h1, h2, h3⟩ := hp
    obtain ⟨_, rfl, _⟩ := exEdge_pair h1
    obtain ⟨_, rfl⟩ := hgrp _ _ h2
    obtain rfl : s = 1 := by omega
    have : 1 = q' := by
      refine h3.2.2 1 (show 1 < 2 by omega) ?_
      have : exEdgeDiscr.pos 0 0 0 = exEdgeDiscr.pos 0 1 1 := rfl
      simp [this]
    subst this
    exact ⟨aff, _, h1, h2, h3⟩
  · have := C115_flux R exSearch_near (by intro basis new old M _ h; simp at h) hu (W := fun _ _ _ => 1)
      (fun _ _ _ _ _ _ _ => rfl) (h := fun x y => x - y) (fun x y => by ring)
    simpa using this
  · refine C115_central R exSearch_near (by intro basis new old M _ h; simp at h) hu (n := fun _ t _ => (-1) ^ t) ?_
      (h := fun x y => x + y) (fun x y => by ring)
    intro i t q j s q' hp
    have := hpart _ _ _ _ _ _ hp
    rcases (show (t = 0 ∧ s = 1) ∨ (t = 1 ∧ s = 0) by omega) with ⟨rfl, rfl⟩ | ⟨rfl, rfl⟩ <;> norm_num

end Meshmode
