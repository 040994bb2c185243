import Verif.Mesh.Facial
import Mathlib.Data.List.Perm.Basic

/-!
# Facial adjacency from vertices: lemmas
-/
namespace Meshmode

variable {N A : Type}

/-! ## Consecutive matches in a sorted list -/

section Consec
variable {key : Nat → List Int}

theorem consecMatches_sublist {l : List Nat} {i j : Nat} (h : (i, j) ∈ consecMatches key l) :
    [i, j].Sublist l ∧ key i = key j := by
  induction l with
  | nil => simp [consecMatches] at h
  | cons a l ih =>
    cases l with
    | nil => simp [consecMatches] at h
    | cons b l =>
      simp only [consecMatches] at h
      split at h
      · rename_i hk
        rcases List.mem_cons.1 h with h | h
        · cases h
          exact ⟨by simp, hk⟩
        · exact ⟨(ih h).1.cons a, (ih h).2⟩
      · exact ⟨(ih h).1.cons a, (ih h).2⟩

theorem consecMatches_cons_mono {l : List Nat} {a : Nat} {p : Nat × Nat}
    (h : p ∈ consecMatches key l) : p ∈ consecMatches key (a :: l) := by
  cases l with
  | nil => simp [consecMatches] at h
  | cons b l =>
    simp only [consecMatches]
    split
    · exact List.mem_cons_of_mem _ h
    · exact h

theorem map_fst_consecMatches_sublist (l : List Nat) :
    ((consecMatches key l).map Prod.fst).Sublist l := by
  induction l with
  | nil => simp [consecMatches]
  | cons a l ih =>
    cases l with
    | nil => simp [consecMatches]
    | cons b l =>
      simp only [consecMatches]
      split
      · simpa using ih
      · exact ih.cons a

theorem nodup_consecMatches {l : List Nat} (h : l.Nodup) : (consecMatches key l).Nodup :=
  List.Nodup.of_map Prod.fst ((map_fst_consecMatches_sublist l).nodup h)

/-- In a list sorted by key, an entry that shares its key with another entry occurs in a
consecutive match. -/
theorem consecMatches_exists {l : List Nat}
    (hs : l.Pairwise fun a b => (key a).reverse ≤ (key b).reverse) {i j : Nat}
    (hij : [i, j].Sublist l) (hk : key i = key j) :
    (∃ m, (i, m) ∈ consecMatches key l) ∧ (∃ m, (m, j) ∈ consecMatches key l) := by
  induction l with
  | nil => simp at hij
  | cons a l ih =>
    obtain ⟨h1, h2⟩ := List.pairwise_cons.1 hs
    cases hij with
    | cons _ h' =>
      obtain ⟨⟨m, hm⟩, ⟨m', hm'⟩⟩ := ih h2 h'
      exact ⟨⟨m, consecMatches_cons_mono hm⟩, ⟨m', consecMatches_cons_mono hm'⟩⟩
    | cons_cons _ h' =>
      cases l with
      | nil => simp at h'
      | cons b l =>
        have hjm : j ∈ b :: l := by simpa using h'.subset
        obtain ⟨h3, _⟩ := List.pairwise_cons.1 h2
        have hbk : key i = key b := by
          rcases List.mem_cons.1 hjm with rfl | hjl
          · exact hk
          · have e1 := h1 b (by simp)
            have e2 := h3 j hjl
            rw [← hk] at e2
            exact List.reverse_injective (List.le_antisymm e1 e2)
        have hmem : (i, b) ∈ consecMatches key (i :: b :: l) := by
          simp [consecMatches, hbk]
        refine ⟨⟨b, hmem⟩, ?_⟩
        rcases List.mem_cons.1 hjm with rfl | hjl
        · exact ⟨i, hmem⟩
        · have hbj : [b, j].Sublist (b :: l) :=
            List.Sublist.cons_cons b (List.singleton_sublist.2 hjl)
          have hk' : key b = key j := by rw [← hbk, hk]
          -- induction on the tail with pair (b, j)
          have : ∀ (l : List Nat) (b : Nat),
              (b :: l).Pairwise (fun a b => (key a).reverse ≤ (key b).reverse) → j ∈ l →
              key b = key j → ∃ m, (m, j) ∈ consecMatches key (b :: l) := by
            intro l
            induction l with
            | nil => intro b _ hj _; simp at hj
            | cons c l ih2 =>
              intro b hp hj hkb
              obtain ⟨q1, q2⟩ := List.pairwise_cons.1 hp
              obtain ⟨q3, _⟩ := List.pairwise_cons.1 q2
              rcases List.mem_cons.1 hj with rfl | hj
              · exact ⟨b, by simp [consecMatches, hkb]⟩
              · have e1 := q1 c (by simp)
                have e2 := q3 j hj
                have e3 : key c = key j := by
                  rw [hkb] at e1
                  exact List.reverse_injective (List.le_antisymm e2 e1)
                obtain ⟨m, hm⟩ := ih2 c q2 hj e3
                exact ⟨m, consecMatches_cons_mono hm⟩
          obtain ⟨m, hm⟩ := this l b h2 hjl hk'
          exact ⟨m, consecMatches_cons_mono hm⟩

end Consec

theorem pairwise_lexOrder (key : Nat → List Int) (n : Nat) :
    (lexOrder key n).Pairwise fun a b => (key a).reverse ≤ (key b).reverse := by
  have := pairwise_stableSort (le := fun i j => decide ((key i).reverse ≤ (key j).reverse))
    (by intro a b c; simp only [decide_eq_true_eq]; exact List.le_trans)
    (by intro a b; simp only [Bool.or_eq_true, decide_eq_true_eq]; exact List.le_total _ _)
    (List.range n)
  simpa [lexOrder] using this

theorem nodup_lexOrder (key : Nat → List Int) (n : Nat) : (lexOrder key n).Nodup :=
  (stableSort_perm _ _).nodup_iff.2 List.nodup_range

theorem mem_lexOrder {key : Nat → List Int} {n i : Nat} : i ∈ lexOrder key n ↔ i < n := by
  simp [lexOrder]

theorem pair_sublist_of_ne {l : List Nat} {i j : Nat} (hi : i ∈ l) (hj : j ∈ l) (h : i ≠ j) :
    [i, j].Sublist l ∨ [j, i].Sublist l := by
  induction l with
  | nil => simp at hi
  | cons a l ih =>
    rcases List.mem_cons.1 hi with rfl | hi'
    · rcases List.mem_cons.1 hj with rfl | hj'
      · exact absurd rfl h
      · exact Or.inl (List.Sublist.cons_cons _ (List.singleton_sublist.2 hj'))
    · rcases List.mem_cons.1 hj with rfl | hj'
      · exact Or.inr (List.Sublist.cons_cons _ (List.singleton_sublist.2 hi'))
      · rcases ih hi' hj' with h | h
        · exact Or.inl (h.cons a)
        · exact Or.inr (h.cons a)

theorem not_pair_sublist_swap {l : List Nat} (hn : l.Nodup) {i j : Nat}
    (h : [i, j].Sublist l) : ¬ [j, i].Sublist l := by
  induction l with
  | nil => simp at h
  | cons a l ih =>
    obtain ⟨h1, h2⟩ := List.nodup_cons.1 hn
    intro h'
    cases h with
    | cons _ h =>
      cases h' with
      | cons _ h' => exact ih h2 h h'
      | cons_cons _ h' => exact h1 (h.subset (by simp))
    | cons_cons _ h =>
      cases h' with
      | cons _ h' => exact h1 (h'.subset (by simp))
      | cons_cons _ h' => exact h1 (h.subset (by simp))

/-- Facts about a match returned by the consecutive-column search. -/
theorem consec_lexOrder {key : Nat → List Int} {n i j : Nat}
    (h : (i, j) ∈ consecMatches key (lexOrder key n)) :
    i < n ∧ j < n ∧ i < j ∧ key i = key j := by
  obtain ⟨hsub, hk⟩ := consecMatches_sublist h
  have hi : i ∈ lexOrder key n := hsub.subset (by simp)
  have hj : j ∈ lexOrder key n := hsub.subset (by simp)
  have hi' := mem_lexOrder.1 hi
  have hj' := mem_lexOrder.1 hj
  refine ⟨hi', hj', ?_, hk⟩
  have hne : i ≠ j := by
    have := hsub.nodup (nodup_lexOrder key n)
    simpa using this
  rcases Nat.lt_trichotomy i j with hlt | heq | hgt
  · exact hlt
  · exact absurd heq hne
  · exfalso
    have hr : [j, i].Sublist (List.range n) := by
      have hlt : (List.range n).Pairwise (· < ·) := List.pairwise_lt_range
      rcases pair_sublist_of_ne (List.mem_range.2 hj') (List.mem_range.2 hi') hne.symm with h | h
      · exact h
      · have := hlt.sublist h
        simp at this
        omega
    have : [j, i].Sublist (lexOrder key n) :=
      pair_sublist_stableSort (by simp [hk]) hr
    exact not_pair_sublist_swap (nodup_lexOrder key n) hsub this

theorem consec_lexOrder_exists {key : Nat → List Int} {n i j : Nat} (hi : i < n) (hj : j < n)
    (hne : i ≠ j) (hk : key i = key j) :
    ∃ m, (i, m) ∈ consecMatches key (lexOrder key n) ∨
         (m, i) ∈ consecMatches key (lexOrder key n) := by
  rcases pair_sublist_of_ne (mem_lexOrder.2 hi) (mem_lexOrder (key := key).2 hj) hne with h | h
  · obtain ⟨⟨m, hm⟩, _⟩ := consecMatches_exists (pairwise_lexOrder key n) h hk
    exact ⟨m, Or.inl hm⟩
  · obtain ⟨_, ⟨m, hm⟩⟩ := consecMatches_exists (pairwise_lexOrder key n) h hk.symm
    exact ⟨m, Or.inr hm⟩

/-! ## Face keys -/

theorem mapM_getElem?_length {row : List Nat} {ref vs : List Nat}
    (h : ref.mapM (row[·]?) = some vs) : vs.length = ref.length := by
  induction ref generalizing vs with
  | nil => simp at h; subst h; rfl
  | cons k ref ih =>
    simp only [List.mapM_cons, Option.bind_eq_bind, Option.bind_eq_some_iff, Option.pure_def,
      Option.some.injEq] at h
    obtain ⟨a, _, l, hl, rfl⟩ := h
    simp [ih hl]

theorem mapM_getElem?_isSome {row ref : List Nat} (h : ∀ k ∈ ref, k < row.length) :
    ∃ vs, ref.mapM (row[·]?) = some vs := by
  induction ref with
  | nil => exact ⟨[], by simp⟩
  | cons k ref ih =>
    obtain ⟨vs, hvs⟩ := ih fun k hk => h k (List.mem_cons_of_mem _ hk)
    have hk : k < row.length := h k (by simp)
    exact ⟨row[k] :: vs, by simp [List.mapM_cons, hvs, List.getElem?_eq_getElem hk]⟩

theorem le_foldl_max {l : List Nat} {a b : Nat} (h : a ∈ l ∨ a ≤ b) : a ≤ l.foldl max b := by
  induction l generalizing b with
  | nil => simpa using h
  | cons c l ih =>
    simp only [List.foldl_cons]
    apply ih
    rcases h with h | h
    · rcases List.mem_cons.1 h with rfl | h
      · right; exact Nat.le_max_right _ _
      · left; exact h
    · right; exact Nat.le_trans h (Nat.le_max_left _ _)

theorem foldl_max_congr {l l' : List Nat} (h : ∀ a, a ∈ l → ∃ b ∈ l', a ≤ b) (c : Nat) :
    l.foldl max c ≤ l'.foldl max c := by
  have key : ∀ (l : List Nat) (m c : Nat), (∀ a ∈ l, a ≤ m) → c ≤ m → l.foldl max c ≤ m := by
    intro l
    induction l with
    | nil => intro m c _ h; simpa using h
    | cons a l ih =>
      intro m c h1 h2
      simp only [List.foldl_cons]
      apply ih
      · intro b hb; exact h1 b (List.mem_cons_of_mem _ hb)
      · exact Nat.max_le.2 ⟨h2, h1 a (by simp)⟩
  apply key
  · intro a ha
    obtain ⟨b, hb, hab⟩ := h a ha
    exact Nat.le_trans hab (le_foldl_max (Or.inl hb))
  · exact le_foldl_max (Or.inr (Nat.le_refl _))

/-- A face of the mesh. (Specification or proof vocabulary, no code.) -/
def IsFace (groups : List (ElGroup N)) (f : FaceId) : Prop :=
  ∃ g, groups[f.grp]? = some g ∧ f.face < g.nfaces ∧ f.el < g.nelements

theorem mem_groupFaceIds {igrp : Nat} {g : ElGroup N} {f : FaceId} :
    f ∈ groupFaceIds igrp g ↔ f.grp = igrp ∧ f.face < g.nfaces ∧ f.el < g.nelements := by
  simp only [groupFaceIds, List.mem_flatMap, List.mem_map, List.mem_range]
  constructor
  · rintro ⟨a, ha, b, hb, rfl⟩; exact ⟨rfl, ha, hb⟩
  · rintro ⟨rfl, h1, h2⟩; exact ⟨f.face, h1, f.el, h2, rfl⟩

theorem mem_allFaceIds {groups : List (ElGroup N)} {f : FaceId} :
    f ∈ allFaceIds groups ↔ IsFace groups f := by
  simp only [allFaceIds, List.mem_flatMap, mem_groupFaceIds, IsFace, Prod.exists,
    List.mem_zipIdx_iff_getElem?]
  constructor
  · rintro ⟨g, i, hg, rfl, h1, h2⟩; exact ⟨g, hg, h1, h2⟩
  · rintro ⟨g, hg, h1, h2⟩; exact ⟨g, f.grp, hg, rfl, h1, h2⟩

theorem nodup_groupFaceIds (igrp : Nat) (g : ElGroup N) : (groupFaceIds igrp g).Nodup := by
  unfold groupFaceIds
  rw [List.nodup_flatMap]
  constructor
  · intro f _
    exact List.nodup_range.map fun a b h => by simpa using h
  · refine List.nodup_range.imp ?_
    intro a b hab
    simp only [List.disjoint_left, List.mem_map, not_exists, not_and, Function.onFun]
    rintro f ⟨x, _, rfl⟩ y _ h
    simp at h
    exact hab h.2.symm

theorem nodup_allFaceIds (groups : List (ElGroup N)) : (allFaceIds groups).Nodup := by
  unfold allFaceIds
  rw [List.nodup_flatMap]
  constructor
  · intro p _; exact nodup_groupFaceIds _ _
  · have : (groups.zipIdx).Pairwise fun p q => p.2 < q.2 := by
      have h := List.pairwise_lt_range' (s := 0) (n := groups.length) (step := 1)
      rw [← List.zipIdx_map_snd, List.pairwise_map] at h
      exact h
    refine this.imp ?_
    intro p q hpq
    simp only [List.disjoint_left, mem_groupFaceIds, Function.onFun]
    rintro f ⟨h1, _⟩ ⟨h2, _⟩
    omega

theorem faceVerts_isSome {groups : List (ElGroup N)} (hwf : ∀ g ∈ groups, g.WF) {f : FaceId}
    (hf : IsFace groups f) : ∃ vs, faceVerts groups f = some vs := by
  obtain ⟨g, hg, h1, h2⟩ := hf
  obtain ⟨hl, hr⟩ := hwf g (List.mem_of_getElem? hg)
  have h1' : f.face < g.fvi.length := h1
  have h2' : f.el < g.vertexIndices.length := by rw [hl]; exact h2
  obtain ⟨vs, hvs⟩ := mapM_getElem?_isSome (row := g.vertexIndices[f.el])
    (ref := g.fvi[f.face]) (hr _ (List.getElem_mem _) _ (List.getElem_mem _))
  refine ⟨vs, ?_⟩
  simp only [faceVerts, hg, List.getElem?_eq_getElem h1', List.getElem?_eq_getElem h2',
    Option.bind_eq_bind, Option.bind_some]
  exact hvs

theorem faceVerts_length_le {groups : List (ElGroup N)} {f : FaceId} {vs : List Nat}
    (h : faceVerts groups f = some vs) : vs.length ≤ maxFaceVertices groups := by
  simp only [faceVerts, Option.bind_eq_bind, Option.bind_eq_some_iff] at h
  obtain ⟨g, hg, ref, href, row, hrow, h⟩ := h
  rw [mapM_getElem?_length h]
  apply le_foldl_max
  left
  simp only [List.mem_map, List.mem_flatMap]
  exact ⟨ref, ⟨g, List.mem_of_getElem? hg, List.mem_of_getElem? href⟩, rfl⟩

theorem pairwise_sortInt (l : List Int) :
    (stableSort (fun a b => decide (a ≤ b)) l).Pairwise (· ≤ ·) := by
  have := pairwise_stableSort (le := fun a b : Int => decide (a ≤ b))
    (by intro a b c; simp only [decide_eq_true_eq]; omega)
    (by intro a b; simp only [Bool.or_eq_true, decide_eq_true_eq]; omega) l
  simpa using this

/-- Two faces have equal sorted padded columns exactly when their (mapped) vertex lists are
permutations of each other. -/
theorem faceKey_eq_iff {groups : List (ElGroup N)} {vmap : Nat → Nat} {f f' : FaceId}
    {vs vs' : List Nat} (h : faceVerts groups f = some vs) (h' : faceVerts groups f' = some vs') :
    faceKey groups vmap f = faceKey groups vmap f' ↔ (vs.map vmap).Perm (vs'.map vmap) := by
  have l1 := faceVerts_length_le h
  have l2 := faceVerts_length_le h'
  simp only [faceKey, h, h', Option.getD_some]
  set m := maxFaceVertices groups
  have cast : ∀ l : List Nat, l.map (fun v => ((vmap v : Nat) : Int)) =
      (l.map vmap).map (fun v : Nat => (v : Int)) := by intro l; simp
  rw [cast vs, cast vs']
  have hfil : ∀ (l : List Nat) (k : Nat),
      (l.map (fun v : Nat => (v : Int)) ++ List.replicate k (-1)).filter (fun a => decide (0 ≤ a))
        = l.map (fun v : Nat => (v : Int)) := by
    intro l k
    rw [List.filter_append, List.filter_eq_self.2, List.filter_eq_nil_iff.2, List.append_nil]
    · intro a ha
      rw [List.eq_of_mem_replicate ha]
      simp
    · intro a ha
      simp only [List.mem_map] at ha
      obtain ⟨b, _, rfl⟩ := ha
      simp
  constructor
  · intro heq
    have hp : (((vs.map vmap).map (fun v : Nat => (v : Int))) ++ List.replicate _ (-1)).Perm
        (((vs'.map vmap).map (fun v : Nat => (v : Int))) ++ List.replicate _ (-1)) :=
      (stableSort_perm (fun a b => decide (a ≤ b)) _).symm.trans
        ((List.Perm.of_eq heq).trans (stableSort_perm _ _))
    have := hp.filter (fun a => decide (0 ≤ a))
    rw [hfil, hfil] at this
    exact (List.map_perm_map_iff (fun a b hab => Int.ofNat.inj hab)).1 this
  · intro hp
    have hlen : vs.length = vs'.length := by simpa using hp.length_eq
    have hp' : (((vs.map vmap).map (fun v : Nat => (v : Int))) ++
        List.replicate (m - ((vs.map vmap).map (fun v : Nat => (v : Int))).length) (-1)).Perm
        (((vs'.map vmap).map (fun v : Nat => (v : Int))) ++
        List.replicate (m - ((vs'.map vmap).map (fun v : Nat => (v : Int))).length) (-1)) := by
      simp only [List.length_map, hlen]
      exact (hp.map _).append_right _
    refine List.Perm.eq_of_pairwise (le := (· ≤ ·)) ?_ (pairwise_sortInt _) (pairwise_sortInt _) ?_
    · intro a b _ _ h1 h2; exact Int.le_antisymm h1 h2
    · exact (stableSort_perm _ _).trans (hp'.trans (stableSort_perm _ _).symm)

/-! ## Pairs of face ids -/

theorem mem_pairsBothWays {pairs : List (Nat × Nat)} {i j : Nat} :
    (i, j) ∈ pairsBothWays pairs ↔ (i, j) ∈ pairs ∨ (j, i) ∈ pairs := by
  simp only [pairsBothWays, mem_stableSort, List.mem_append, List.mem_map, Prod.exists,
    Prod.swap_prod_mk, Prod.mk.injEq]
  constructor
  · rintro (h | ⟨a, b, h, rfl, rfl⟩)
    · exact Or.inl h
    · exact Or.inr h
  · rintro (h | h)
    · exact Or.inl h
    · exact Or.inr ⟨j, i, h, rfl, rfl⟩

theorem mem_faceIdPairs {ids : List FaceId} {pairs : List (Nat × Nat)} {f f' : FaceId} :
    (f, f') ∈ faceIdPairs ids pairs ↔
      ∃ i j, ((i, j) ∈ pairs ∨ (j, i) ∈ pairs) ∧ ids[i]? = some f ∧ ids[j]? = some f' := by
  simp only [faceIdPairs, List.mem_filterMap, Prod.exists, mem_pairsBothWays,
    Option.bind_eq_bind, Option.bind_eq_some_iff, Option.pure_def, Option.some.injEq,
    Prod.mk.injEq]
  constructor
  · rintro ⟨i, j, h, a, ha, b, hb, rfl, rfl⟩; exact ⟨i, j, h, ha, hb⟩
  · rintro ⟨i, j, h, ha, hb⟩; exact ⟨i, j, h, f, ha, f', hb, rfl, rfl⟩

theorem faceIdPairs_symm {ids : List FaceId} {pairs : List (Nat × Nat)} {f f' : FaceId}
    (h : (f, f') ∈ faceIdPairs ids pairs) : (f', f) ∈ faceIdPairs ids pairs := by
  rw [mem_faceIdPairs] at *
  obtain ⟨i, j, h, h1, h2⟩ := h
  exact ⟨j, i, h.symm, h2, h1⟩

theorem nodup_faceIdPairs {ids : List FaceId} (hids : ids.Nodup) {pairs : List (Nat × Nat)}
    (hn : pairs.Nodup) (hlt : ∀ p ∈ pairs, p.1 < p.2) : (faceIdPairs ids pairs).Nodup := by
  have hb : (pairsBothWays pairs).Nodup := by
    rw [pairsBothWays, (stableSort_perm _ _).nodup_iff, List.nodup_append]
    refine ⟨hn, hn.map fun a b h => Prod.swap_injective h, ?_⟩
    rintro ⟨a, b⟩ hab p hp rfl
    simp only [List.mem_map, Prod.exists, Prod.swap_prod_mk, Prod.mk.injEq] at hp
    obtain ⟨c, d, hcd, rfl, rfl⟩ := hp
    have h1 := hlt _ hab
    have h2 := hlt _ hcd
    simp at h1 h2
    omega
  unfold faceIdPairs
  refine hb.filterMap ?_
  rintro ⟨a, b⟩ ⟨c, d⟩ p hp hq
  simp only [Option.bind_eq_bind, Option.mem_def, Option.bind_eq_some_iff, Option.pure_def,
    Option.some.injEq] at hp hq
  obtain ⟨x, hx, y, hy, rfl⟩ := hp
  obtain ⟨x', hx', y', hy', h⟩ := hq
  simp only [Prod.mk.injEq] at h
  obtain ⟨rfl, rfl⟩ := h
  have e1 : a = c := (List.getElem?_inj (List.getElem?_eq_some_iff.1 hx).1 hids).1 (hx.trans hx'.symm)
  have e2 : b = d := (List.getElem?_inj (List.getElem?_eq_some_iff.1 hy).1 hids).1 (hy.trans hy'.symm)
  rw [e1, e2]

section Match
variable {groups : List (ElGroup N)} {ids : List FaceId} {vmap : Nat → Nat}

theorem matchFaces_spec {i j : Nat} (h : (i, j) ∈ matchFaces groups ids vmap) :
    i < j ∧ ∃ f f', ids[i]? = some f ∧ ids[j]? = some f' ∧
      faceKey groups vmap f = faceKey groups vmap f' := by
  obtain ⟨hi, hj, hlt, hk⟩ := consec_lexOrder h
  refine ⟨hlt, ids[i], ids[j], List.getElem?_eq_getElem hi, List.getElem?_eq_getElem hj, ?_⟩
  simpa [List.getElem?_eq_getElem hi, List.getElem?_eq_getElem hj] using hk

theorem nodup_matchFaces : (matchFaces groups ids vmap).Nodup :=
  nodup_consecMatches (nodup_lexOrder _ _)

theorem matchFaces_exists {i j : Nat} {f f' : FaceId} (hi : ids[i]? = some f)
    (hj : ids[j]? = some f') (hne : i ≠ j) (hk : faceKey groups vmap f = faceKey groups vmap f') :
    ∃ m, (i, m) ∈ matchFaces groups ids vmap ∨ (m, i) ∈ matchFaces groups ids vmap := by
  have h1 := (List.getElem?_eq_some_iff.1 hi).1
  have h2 := (List.getElem?_eq_some_iff.1 hj).1
  exact consec_lexOrder_exists h1 h2 hne (by simp [hi, hj, hk])

end Match

end Meshmode
