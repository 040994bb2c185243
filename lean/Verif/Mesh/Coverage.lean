import Verif.Mesh.FacialProps

/-!
# Boundary coverage checks (C07, C52)

`mesh_has_boundary`, `check_bc_coverage`, `is_boundary_tag_empty`
(meshmode/mesh/__init__.py:2131-2231).
-/
namespace Meshmode

variable {A N : Type}

/-- Outcome of `check_bc_coverage`: normal return or the exception raised.
Code: meshmode/mesh/__init__.py:2146-2209. -/
inductive Coverage where
  | ok
  /-- `ValueError("invalid boundary tag")` -/
  | invalidTag
  /-- `ValueError` from unpacking `all_bdry_grp, = ...` -/
  | unpack
  /-- `IndexError` for a face outside the group -/
  | index
  /-- `RuntimeError("found faces with multiple boundary conditions")` -/
  | multiple
  /-- `RuntimeError("found faces without boundary conditions")` -/
  | missing
  deriving DecidableEq, Repr

/-- `mesh_has_boundary`, meshmode/mesh/__init__.py:2131-2139. -/
def meshHasBoundary (fags : List (List (Fag A))) (t : BTag) : Bool :=
  fags.any fun l => !((l.filterMap Fag.bdry?).filter fun b => b.1 == t).isEmpty

/-- `get_bdry_counts(bdry_grp)[f, e]`, meshmode/mesh/__init__.py:2186-2191: `counts[faces,
elements] += 1` with index arrays adds one to each listed entry once, also if it is listed
twice. -/
def bdryCount (fs : List ElFace) (f e : Nat) : Nat := if ⟨e, f⟩ ∈ fs then 1 else 0

/-- All entries of a table of shape (nfaces, nelements).
Code: meshmode/mesh/__init__.py:2189-2191. -/
def tableEntries (nfaces nelements : Nat) : List (Nat × Nat) :=
  (List.range nfaces).flatMap fun f => (List.range nelements).map fun e => (f, e)

/-- All faces are within the group (else `counts[...]` raises `IndexError`).
Code: meshmode/mesh/__init__.py:2189-2191. -/
def facesInRange (nfaces nelements : Nat) (fs : List ElFace) : Bool :=
  fs.all fun f => decide (f.el < nelements ∧ f.face < nfaces)

/-- The loop body for one group, meshmode/mesh/__init__.py:2169-2209. -/
def checkGroup (nfaces nelements : Nat) (l : List (Fag A)) (tags : List BTag)
    (incompleteOk trueOnly : Bool) : Coverage :=
  let bdrys := l.filterMap Fag.bdry?
  let allTag := if trueOnly then BTag.all else BTag.reallyAll
  match bdrys.filter fun b => b.1 == allTag with
  | [allGrp] =>
      let matching := bdrys.filter fun b => decide (b.1 ∈ tags)
      if !facesInRange nfaces nelements allGrp.2 then .index
      else if !matching.isEmpty then
        if matching.any fun b => !facesInRange nfaces nelements b.2 then .index
        else
          let counts := fun (f e : Nat) => (matching.map fun b => bdryCount b.2 f e).sum
          if (tableEntries nfaces nelements).any fun p => decide (counts p.1 p.2 > 1)
          then .multiple
          else if !incompleteOk && (tableEntries nfaces nelements).any
              fun p => decide (counts p.1 p.2 < bdryCount allGrp.2 p.1 p.2)
          then .missing
          else .ok
      else if !incompleteOk && (tableEntries nfaces nelements).any
          fun p => decide (bdryCount allGrp.2 p.1 p.2 ≠ 0)
        then .missing
      else .ok
  | _ => .unpack

/-- The loop over the groups; the first exception ends it.
Code: meshmode/mesh/__init__.py:2169-2209. -/
def checkGroups (tags : List BTag) (incompleteOk trueOnly : Bool) :
    List (ElGroup N × List (Fag A)) → Coverage
  | [] => .ok
  | (g, l) :: rest =>
      match checkGroup g.nfaces g.nelements l tags incompleteOk trueOnly with
      | .ok => checkGroups tags incompleteOk trueOnly rest
      | e => e

/-- `check_bc_coverage`, meshmode/mesh/__init__.py:2146-2209. -/
def checkBcCoverage (groups : List (ElGroup N)) (fags : List (List (Fag A))) (tags : List BTag)
    (incompleteOk trueOnly : Bool) : Coverage :=
  if tags.any fun t => !meshHasBoundary fags t then .invalidTag
  else checkGroups tags incompleteOk trueOnly (groups.zip fags)

/-- `is_boundary_tag_empty`, meshmode/mesh/__init__.py:2216-2231; `none` is `ValueError`. -/
def isBoundaryTagEmpty (fags : List (List (Fag A))) (t : BTag) : Option Bool :=
  if !meshHasBoundary fags t then none
  else some (fags.all fun l =>
    (((l.filterMap Fag.bdry?).filter fun b => b.1 == t).map fun b => b.2.length).sum == 0)

/-! ## Specification -/

/-- Facial adjacency with one boundary group per tag, one `BTAG_ALL` and one `BTAG_REALLY_ALL`
group in each mesh group, and faces that exist. (Specification or proof vocabulary, no code.) -/
structure BoundaryOK (groups : List (ElGroup N)) (fags : List (List (Fag A))) : Prop where
  length : fags.length = groups.length
  oneGroupPerTag : ∀ l ∈ fags, ((l.filterMap Fag.bdry?).map Prod.fst).Nodup
  hasAll : ∀ l ∈ fags, BTag.all ∈ (l.filterMap Fag.bdry?).map Prod.fst
  hasReallyAll : ∀ l ∈ fags, BTag.reallyAll ∈ (l.filterMap Fag.bdry?).map Prod.fst
  faces : ∀ t f, InBoundary fags t f → IsFace groups f

/-- The tag `t` exists on the mesh (possibly with no faces).
(Specification or proof vocabulary, no code.) -/
def TagExists (fags : List (List (Fag A))) (t : BTag) : Prop :=
  ∃ l ∈ fags, ∃ fg ∈ l, ∃ fs, fg.bdry? = some (t, fs)

/-! ## Lemmas -/

theorem meshHasBoundary_iff {fags : List (List (Fag A))} {t : BTag} :
    meshHasBoundary fags t = true ↔ TagExists fags t := by
  simp only [meshHasBoundary, List.any_eq_true, Bool.not_eq_true', List.isEmpty_eq_false_iff_exists_mem,
    List.mem_filter, List.mem_filterMap, beq_iff_eq, TagExists]
  constructor
  · rintro ⟨l, hl, ⟨t', fs⟩, ⟨fg, hfg, hb⟩, rfl⟩
    exact ⟨l, hl, fg, hfg, fs, hb⟩
  · rintro ⟨l, hl, fg, hfg, fs, hb⟩
    exact ⟨l, hl, (t, fs), ⟨fg, hfg, hb⟩, rfl⟩

theorem mem_tableEntries {nf ne f e : Nat} :
    (f, e) ∈ tableEntries nf ne ↔ f < nf ∧ e < ne := by
  simp [tableEntries]

theorem checkGroups_ok {tags : List BTag} {inc tr : Bool} {l : List (ElGroup N × List (Fag A))} :
    checkGroups tags inc tr l = .ok ↔
      ∀ p ∈ l, checkGroup p.1.nfaces p.1.nelements p.2 tags inc tr = .ok := by
  induction l with
  | nil => simp [checkGroups]
  | cons p l ih =>
    obtain ⟨g, l'⟩ := p
    simp only [checkGroups, List.mem_cons, forall_eq_or_imp]
    cases h : checkGroup g.nfaces g.nelements l' tags inc tr <;> simp [ih]

theorem filter_tag_singleton {l : List (BTag × List ElFace)} (hn : (l.map Prod.fst).Nodup)
    {t : BTag} (ht : t ∈ l.map Prod.fst) : ∃ fs, (t, fs) ∈ l ∧
      (l.filter fun b => b.1 == t) = [(t, fs)] := by
  induction l with
  | nil => simp at ht
  | cons b l ih =>
    obtain ⟨t', fs⟩ := b
    simp only [List.map_cons, List.nodup_cons] at hn
    simp only [List.map_cons, List.mem_cons] at ht
    by_cases h : t = t'
    · subst h
      refine ⟨fs, by simp, ?_⟩
      rw [List.filter_cons_of_pos (by simp), List.filter_eq_nil_iff.2]
      intro b hb
      have : b.1 ≠ t := by
        rintro rfl; exact hn.1 (List.mem_map.2 ⟨b, hb, rfl⟩)
      simpa using this
    · obtain ⟨fs', h1, h2⟩ := ih hn.2 (by rcases ht with ht | ht; exact absurd ht h; exact ht)
      refine ⟨fs', by simp [h1], ?_⟩
      rw [List.filter_cons_of_neg (by simpa using Ne.symm h), h2]

theorem pair_le_one {l : List (BTag × List ElFace)} (hn : (l.map Prod.fst).Nodup) (f e : Nat) :
    (l.map fun b => bdryCount b.2 f e).sum ≤ 1 ↔
      ∀ b ∈ l, ∀ b' ∈ l, (⟨e, f⟩ : ElFace) ∈ b.2 → (⟨e, f⟩ : ElFace) ∈ b'.2 → b.1 = b'.1 := by
  induction l with
  | nil => simp
  | cons a l ih =>
    simp only [List.map_cons, List.nodup_cons] at hn
    simp only [List.map_cons, List.sum_cons]
    by_cases ha : (⟨e, f⟩ : ElFace) ∈ a.2
    · rw [show bdryCount a.2 f e = 1 from if_pos ha]
      constructor
      · intro h b hb b' hb' h1 h2
        have h0 : (l.map fun b => bdryCount b.2 f e).sum = 0 := by omega
        rw [List.sum_eq_zero_iff_forall_eq_nat] at h0
        have hnot : ∀ b ∈ l, (⟨e, f⟩ : ElFace) ∉ b.2 := by
          intro b hb hc
          have := h0 _ (List.mem_map.2 ⟨b, hb, rfl⟩)
          rw [show bdryCount b.2 f e = 1 from if_pos hc] at this
          omega
        rcases List.mem_cons.1 hb with rfl | hb
        · rcases List.mem_cons.1 hb' with rfl | hb'
          · rfl
          · exact absurd h2 (hnot _ hb')
        · exact absurd h1 (hnot _ hb)
      · intro h
        have h0 : (l.map fun b => bdryCount b.2 f e).sum = 0 := by
          rw [List.sum_eq_zero_iff_forall_eq_nat]
          intro x hx
          obtain ⟨b, hb, rfl⟩ := List.mem_map.1 hx
          by_cases hc : (⟨e, f⟩ : ElFace) ∈ b.2
          · have := h a (by simp) b (by simp [hb]) ha hc
            exact absurd (List.mem_map.2 ⟨b, hb, this.symm⟩) hn.1
          · exact if_neg hc
        omega
    · rw [show bdryCount a.2 f e = 0 from if_neg ha, Nat.zero_add, ih hn.2]
      constructor
      · intro h b hb b' hb' h1 h2
        rcases List.mem_cons.1 hb with rfl | hb
        · exact absurd h1 ha
        · rcases List.mem_cons.1 hb' with rfl | hb'
          · exact absurd h2 ha
          · exact h b hb b' hb' h1 h2
      · intro h b hb b' hb' h1 h2
        exact h b (by simp [hb]) b' (by simp [hb']) h1 h2

theorem count_pos_iff {l : List (BTag × List ElFace)} (f e : Nat) :
    0 < (l.map fun b => bdryCount b.2 f e).sum ↔ ∃ b ∈ l, (⟨e, f⟩ : ElFace) ∈ b.2 := by
  rw [Nat.pos_iff_ne_zero, ne_eq, List.sum_eq_zero_iff_forall_eq_nat]
  push Not
  constructor
  · rintro ⟨x, hx, h⟩
    obtain ⟨b, hb, rfl⟩ := List.mem_map.1 hx
    refine ⟨b, hb, ?_⟩
    by_contra hc
    exact h (if_neg hc)
  · rintro ⟨b, hb, h⟩
    refine ⟨_, List.mem_map.2 ⟨b, hb, rfl⟩, ?_⟩
    rw [show bdryCount b.2 f e = 1 from if_pos h]; omega

/-- One group's check, in terms of its boundary groups. -/
theorem checkGroup_ok {nf ne : Nat} {l : List (Fag A)} {tags : List BTag} {inc tr : Bool}
    (hn : ((l.filterMap Fag.bdry?).map Prod.fst).Nodup)
    (hall : (if tr then BTag.all else BTag.reallyAll) ∈ (l.filterMap Fag.bdry?).map Prod.fst)
    (hr : ∀ b ∈ l.filterMap Fag.bdry?, ∀ f ∈ b.2, f.el < ne ∧ f.face < nf) :
    checkGroup nf ne l tags inc tr = .ok ↔
      (∀ b ∈ l.filterMap Fag.bdry?, ∀ b' ∈ l.filterMap Fag.bdry?, b.1 ∈ tags → b'.1 ∈ tags →
        ∀ x, x ∈ b.2 → x ∈ b'.2 → b.1 = b'.1) ∧
      (inc = true ∨ ∀ b ∈ l.filterMap Fag.bdry?, b.1 = (if tr then BTag.all else BTag.reallyAll) →
        ∀ x ∈ b.2, ∃ b' ∈ l.filterMap Fag.bdry?, b'.1 ∈ tags ∧ x ∈ b'.2) := by
  obtain ⟨afs, hmem, hsing⟩ := filter_tag_singleton hn hall
  unfold checkGroup
  simp only [hsing]
  have hrange : ∀ b ∈ l.filterMap Fag.bdry?, facesInRange nf ne b.2 = true := by
    intro b hb
    simp only [facesInRange, List.all_eq_true, decide_eq_true_eq]
    exact fun f hf => hr b hb f hf
  generalize hB : l.filterMap Fag.bdry? = B at *
  generalize hT : (if tr = true then BTag.all else BTag.reallyAll) = T at *
  have huniq : ∀ b ∈ B, b.1 = T → b.2 = afs := by
    intro b hb hbT
    have : b ∈ B.filter fun b => b.1 == T := List.mem_filter.2 ⟨hb, by simpa using hbT⟩
    rw [hsing] at this
    simp at this; rw [this]
  rw [if_neg (by simp [hrange (T, afs) hmem])]
  have hMn : ((B.filter fun b => decide (b.1 ∈ tags)).map Prod.fst).Nodup :=
    hn.sublist ((List.filter_sublist).map _)
  have hMmem : ∀ b, b ∈ B.filter (fun b => decide (b.1 ∈ tags)) ↔ b ∈ B ∧ b.1 ∈ tags := by
    intro b; simp
  by_cases hempty : (B.filter fun b => decide (b.1 ∈ tags)).isEmpty = true
  · rw [if_neg (by simp [hempty])]
    have hnone : ∀ b ∈ B, b.1 ∉ tags := by
      intro b hb hc
      have := (hMmem b).2 ⟨hb, hc⟩
      rw [List.isEmpty_iff.1 hempty] at this
      simp at this
    have h1 : (∀ b ∈ B, ∀ b' ∈ B, b.1 ∈ tags → b'.1 ∈ tags →
        ∀ x, x ∈ b.2 → x ∈ b'.2 → b.1 = b'.1) :=
      fun b hb _ _ h => absurd h (hnone b hb)
    constructor
    · intro h
      refine ⟨h1, ?_⟩
      by_cases hinc : inc = true
      · exact Or.inl hinc
      · right
        intro b hb hbT x hx
        exfalso
        have hx' := hr b hb x hx
        rw [huniq b hb hbT] at hx
        rw [if_pos] at h
        · simp at h
        · simp only [Bool.and_eq_true, Bool.not_eq_true', List.any_eq_true, decide_eq_true_eq]
          refine ⟨by simpa using hinc, (x.face, x.el), mem_tableEntries.2 ⟨hx'.2, hx'.1⟩, ?_⟩
          rw [show bdryCount afs x.face x.el = 1 from if_pos hx]; omega
    · rintro ⟨_, h⟩
      rw [if_neg]
      simp only [Bool.and_eq_true, Bool.not_eq_true', List.any_eq_true, decide_eq_true_eq]
      rintro ⟨hinc, ⟨f, e⟩, _, hcnt⟩
      rcases h with h | h
      · rw [h] at hinc; simp at hinc
      · have hx : (⟨e, f⟩ : ElFace) ∈ afs := by
          by_contra hc; exact hcnt (if_neg hc)
        obtain ⟨b', hb', h2, _⟩ := h (T, afs) hmem rfl _ hx
        exact hnone b' hb' h2
  · rw [if_pos (by simpa using hempty)]
    rw [if_neg (by
      simp only [List.any_eq_true, Bool.not_eq_true', not_exists, not_and, Bool.not_eq_false]
      intro b hb; exact hrange b ((hMmem b).1 hb).1)]
    have hmult : (tableEntries nf ne).any (fun p => decide
        (((B.filter fun b => decide (b.1 ∈ tags)).map fun b => bdryCount b.2 p.1 p.2).sum > 1))
        = false ↔ (∀ b ∈ B, ∀ b' ∈ B, b.1 ∈ tags → b'.1 ∈ tags →
        ∀ x, x ∈ b.2 → x ∈ b'.2 → b.1 = b'.1) := by
      rw [List.any_eq_false]
      simp only [decide_eq_true_eq, not_lt]
      constructor
      · intro h b hb b' hb' h1 h2 x hx hx'
        have hx0 := hr b hb x hx
        exact (pair_le_one hMn x.face x.el).1 (h _ (mem_tableEntries.2 ⟨hx0.2, hx0.1⟩))
          b ((hMmem b).2 ⟨hb, h1⟩) b' ((hMmem b').2 ⟨hb', h2⟩) hx hx'
      · rintro h ⟨f, e⟩ _
        refine (pair_le_one hMn f e).2 fun b hb b' hb' h1 h2 => ?_
        exact h b ((hMmem b).1 hb).1 b' ((hMmem b').1 hb').1 ((hMmem b).1 hb).2
          ((hMmem b').1 hb').2 _ h1 h2
    have hmiss : (tableEntries nf ne).any (fun p => decide
        (((B.filter fun b => decide (b.1 ∈ tags)).map fun b => bdryCount b.2 p.1 p.2).sum <
          bdryCount afs p.1 p.2)) = false ↔
        ∀ b ∈ B, b.1 = T → ∀ x ∈ b.2, ∃ b' ∈ B, b'.1 ∈ tags ∧ x ∈ b'.2 := by
      rw [List.any_eq_false]
      simp only [decide_eq_true_eq, not_lt]
      constructor
      · intro h b hb hbT x hx
        have hx0 := hr b hb x hx
        rw [huniq b hb hbT] at hx
        have h1 := h _ (mem_tableEntries.2 ⟨hx0.2, hx0.1⟩)
        rw [show bdryCount afs x.face x.el = 1 from if_pos hx] at h1
        obtain ⟨b', hb', h2⟩ := (count_pos_iff x.face x.el).1 h1
        exact ⟨b', ((hMmem b').1 hb').1, ((hMmem b').1 hb').2, h2⟩
      · rintro h ⟨f, e⟩ _
        by_cases hx : (⟨e, f⟩ : ElFace) ∈ afs
        · rw [show bdryCount afs f e = 1 from if_pos hx]
          obtain ⟨b', hb', h2, h3⟩ := h (T, afs) hmem rfl _ hx
          exact (count_pos_iff f e).2 ⟨b', (hMmem b').2 ⟨hb', h2⟩, h3⟩
        · rw [show bdryCount afs f e = 0 from if_neg hx]; omega
    rw [← hmult, ← hmiss]
    cases (tableEntries nf ne).any fun p => decide
        (((B.filter fun b => decide (b.1 ∈ tags)).map fun b => bdryCount b.2 p.1 p.2).sum > 1) <;>
      cases (tableEntries nf ne).any fun p => decide
        (((B.filter fun b => decide (b.1 ∈ tags)).map fun b => bdryCount b.2 p.1 p.2).sum <
          bdryCount afs p.1 p.2) <;> cases inc <;> simp

theorem inBoundary_iff_bdry {fags : List (List (Fag A))} {t : BTag} {f : FaceId}
    {l : List (Fag A)} (hl : fags[f.grp]? = some l) :
    InBoundary fags t f ↔ ∃ b ∈ l.filterMap Fag.bdry?, b.1 = t ∧ ⟨f.el, f.face⟩ ∈ b.2 := by
  simp only [InBoundary, List.mem_filterMap]
  constructor
  · rintro ⟨l', fg, fs, h1, h2, h3, h4⟩
    rw [hl] at h1; cases h1
    exact ⟨(t, fs), ⟨fg, h2, h3⟩, rfl, h4⟩
  · rintro ⟨⟨t', fs⟩, ⟨fg, h2, h3⟩, rfl, h4⟩
    exact ⟨l, fg, fs, hl, h2, h3, h4⟩

/-! ## Properties -/

/-- C07: `check_bc_coverage` returns normally exactly when all tags exist on the mesh, no face
carries two of the given tags, and (unless `incomplete_ok`) every face of `BTAG_ALL` (or of
`BTAG_REALLY_ALL`, if `true_boundary_only` is false) carries one. -/
theorem C07_check_bc_coverage {groups : List (ElGroup N)} {fags : List (List (Fag A))}
    (hok : BoundaryOK groups fags) (tags : List BTag) (incompleteOk trueOnly : Bool) :
    checkBcCoverage groups fags tags incompleteOk trueOnly = .ok ↔
      (∀ t ∈ tags, TagExists fags t) ∧
      (∀ f, ∀ t ∈ tags, ∀ t' ∈ tags, InBoundary fags t f → InBoundary fags t' f → t = t') ∧
      (incompleteOk = true ∨
        ∀ f, InBoundary fags (if trueOnly then .all else .reallyAll) f →
          ∃ t ∈ tags, InBoundary fags t f) := by
  unfold checkBcCoverage
  by_cases hinv : tags.any (fun t => !meshHasBoundary fags t) = true
  · rw [if_pos hinv]
    simp only [List.any_eq_true, Bool.not_eq_true'] at hinv
    obtain ⟨t, ht, h⟩ := hinv
    refine iff_of_false (by simp) ?_
    rintro ⟨h1, _⟩
    rw [meshHasBoundary_iff.2 (h1 t ht)] at h
    simp at h
  · rw [if_neg hinv]
    have hex : ∀ t ∈ tags, TagExists fags t := by
      intro t ht
      rw [← meshHasBoundary_iff]
      by_contra hc
      exact hinv (List.any_eq_true.2 ⟨t, ht, by simpa using hc⟩)
    rw [checkGroups_ok]
    have hpair : ∀ p, p ∈ groups.zip fags ↔ ∃ i : Nat, groups[i]? = some p.1 ∧ fags[i]? = some p.2 := by
      intro p
      rw [List.mem_iff_getElem?]
      simp only [List.getElem?_zip_eq_some]
    have hprem : ∀ p ∈ groups.zip fags, ((p.2.filterMap Fag.bdry?).map Prod.fst).Nodup ∧
        (if trueOnly then BTag.all else BTag.reallyAll) ∈
          (p.2.filterMap Fag.bdry?).map Prod.fst ∧
        ∀ b ∈ p.2.filterMap Fag.bdry?, ∀ f ∈ b.2, f.el < p.1.nelements ∧ f.face < p.1.nfaces := by
      intro p hp
      obtain ⟨i, hi1, hi2⟩ := (hpair p).1 hp
      have hm := List.mem_of_getElem? hi2
      refine ⟨hok.oneGroupPerTag _ hm, ?_, ?_⟩
      · cases trueOnly
        · exact hok.hasReallyAll _ hm
        · exact hok.hasAll _ hm
      · intro b hb x hx
        obtain ⟨g, hg, h1, h2⟩ := hok.faces b.1 ⟨i, x.el, x.face⟩
          ((inBoundary_iff_bdry (f := ⟨i, x.el, x.face⟩) hi2).2 ⟨b, hb, rfl, hx⟩)
        simp only at hg h1 h2
        rw [hi1] at hg; cases hg
        exact ⟨h2, h1⟩
    have hgrp := fun p hp => checkGroup_ok (tags := tags) (inc := incompleteOk)
      (hprem p hp).1 (hprem p hp).2.1 (hprem p hp).2.2
    have hfag : ∀ f t, InBoundary fags t f → ∃ g l, (g, l) ∈ groups.zip fags ∧
        fags[f.grp]? = some l := by
      rintro f t ⟨l, fg, fs, h1, _⟩
      have hlt : f.grp < groups.length := by
        rw [← hok.length]; exact (List.getElem?_eq_some_iff.1 h1).1
      exact ⟨groups[f.grp], l, (hpair _).2 ⟨f.grp, List.getElem?_eq_getElem hlt, h1⟩, h1⟩
    constructor
    · intro h
      refine ⟨hex, ?_, ?_⟩
      · intro f t ht t' ht' h1 h2
        obtain ⟨g, l, hgl, hl⟩ := hfag f t h1
        obtain ⟨b, hb, rfl, hx⟩ := (inBoundary_iff_bdry hl).1 h1
        obtain ⟨b', hb', rfl, hx'⟩ := (inBoundary_iff_bdry hl).1 h2
        exact ((hgrp _ hgl).1 (h _ hgl)).1 b hb b' hb' ht ht' _ hx hx'
      · by_cases hinc : incompleteOk = true
        · exact Or.inl hinc
        · right
          intro f h1
          obtain ⟨g, l, hgl, hl⟩ := hfag f _ h1
          obtain ⟨b, hb, hbT, hx⟩ := (inBoundary_iff_bdry hl).1 h1
          rcases ((hgrp _ hgl).1 (h _ hgl)).2 with h3 | h3
          · exact absurd h3 hinc
          · obtain ⟨b', hb', h4, h5⟩ := h3 b hb hbT _ hx
            exact ⟨b'.1, h4, (inBoundary_iff_bdry hl).2 ⟨b', hb', rfl, h5⟩⟩
    · rintro ⟨_, h1, h2⟩ ⟨g, l⟩ hp
      rw [hgrp _ hp]
      obtain ⟨i, _, hi⟩ := (hpair _).1 hp
      refine ⟨?_, ?_⟩
      · intro b hb b' hb' ht ht' x hx hx'
        exact h1 ⟨i, x.el, x.face⟩ b.1 ht b'.1 ht'
          ((inBoundary_iff_bdry (f := ⟨i, x.el, x.face⟩) hi).2 ⟨b, hb, rfl, hx⟩)
          ((inBoundary_iff_bdry (f := ⟨i, x.el, x.face⟩) hi).2 ⟨b', hb', rfl, hx'⟩)
      · refine h2.imp id fun h2 => ?_
        intro b hb hbT x hx
        obtain ⟨t, ht, h3⟩ := h2 ⟨i, x.el, x.face⟩
          ((inBoundary_iff_bdry (f := ⟨i, x.el, x.face⟩) hi).2 ⟨b, hb, hbT, hx⟩)
        obtain ⟨b', hb', rfl, hx'⟩ := (inBoundary_iff_bdry (f := ⟨i, x.el, x.face⟩) hi).1 h3
        exact ⟨b', hb', ht, hx'⟩

/-- C52: `is_boundary_tag_empty` raises for tags the mesh does not know and otherwise says
whether any face carries the tag. -/
theorem C52_is_boundary_tag_empty (fags : List (List (Fag A))) (t : BTag) :
    (isBoundaryTagEmpty fags t = none ↔ ¬ TagExists fags t) ∧
    (isBoundaryTagEmpty fags t = some true ↔ TagExists fags t ∧ ∀ f, ¬ InBoundary fags t f) := by
  have hz : (fags.all fun l => (((l.filterMap Fag.bdry?).filter fun b => b.1 == t).map
      fun b => b.2.length).sum == 0) = true ↔ ∀ f, ¬ InBoundary fags t f := by
    simp only [List.all_eq_true, beq_iff_eq, List.sum_eq_zero_iff_forall_eq_nat, List.mem_map,
      List.mem_filter, forall_exists_index, and_imp]
    constructor
    · rintro h f ⟨l, fg, fs, h1, h2, h3, h4⟩
      have := h l (List.mem_of_getElem? h1) _ (t, fs) (List.mem_filterMap.2 ⟨fg, h2, h3⟩) rfl rfl
      rw [List.length_eq_zero_iff] at this
      simp only at this
      rw [this] at h4; simp at h4
    · intro h l hl _ b hb hbt hx
      rw [← hx, List.length_eq_zero_iff]
      obtain ⟨i, hi⟩ := List.mem_iff_getElem?.1 hl
      rw [List.eq_nil_iff_forall_not_mem]
      intro x hx'
      exact h ⟨i, x.el, x.face⟩
        ((inBoundary_iff_bdry (f := ⟨i, x.el, x.face⟩) hi).2 ⟨b, hb, by simpa using hbt, hx'⟩)
  unfold isBoundaryTagEmpty
  by_cases h : meshHasBoundary fags t = true
  · rw [if_neg (by simp [h])]
    simp only [reduceCtorEq, false_iff, not_not, Option.some.injEq, ← meshHasBoundary_iff, h,
      true_and, hz]
  · rw [if_pos (by simpa using h)]
    simp [← meshHasBoundary_iff, h]

/-! ## The hypothesis of C07 holds for computed adjacency -/

theorem rawTags_sublist {groups : List (ElGroup N)} {aff0 : A}
    {dict : List (List Nat × List BTag)} {btags : List BTag} {fpairs : List (FaceId × FaceId)}
    {igrp : Nat} {g : ElGroup N} :
    (((interiorGroups aff0 fpairs igrp ++ boundaryGroups groups dict btags fpairs igrp
      g).filterMap Fag.bdry?).map Prod.fst).Sublist (btags ++ [BTag.all]) := by
  rw [List.filterMap_append, List.map_append]
  have h1 : (interiorGroups aff0 fpairs igrp).filterMap Fag.bdry? = [] := by
    rw [List.filterMap_eq_nil_iff]
    intro fg hfg
    simp only [interiorGroups, List.mem_map] at hfg
    obtain ⟨_, _, rfl⟩ := hfg
    rfl
  rw [h1, List.map_nil, List.nil_append]
  unfold boundaryGroups
  simp only
  split
  · simp
  · rw [List.filterMap_append, List.map_append]
    apply List.Sublist.append
    · rw [List.filterMap_filterMap, List.map_filterMap]
      clear h1
      induction btags with
      | nil => simp
      | cons t btags ih =>
        rw [List.filterMap_cons]
        split
        · exact ih.cons t
        · rename_i b hb
          split at hb
          · simp at hb
          · simp only [Option.bind_some, Fag.bdry?, Option.map_some, Option.some.injEq] at hb
            subst hb
            exact ih.cons_cons t
    · split
      · simp [Fag.bdry?]
      · simp

theorem completeTags {igrp : Nat} {fags : List (Fag A)} :
    ((completeGroup igrp fags).filterMap Fag.bdry?).map Prod.fst =
      let tags := (fags.filterMap Fag.bdry?).map Prod.fst
      tags ++ (if BTag.none ∈ tags then [] else [.none])
        ++ (if BTag.all ∈ tags then [] else [.all])
        ++ (if BTag.reallyAll ∈ tags then [] else [.reallyAll]) := by
  simp only [completeGroup, List.filterMap_append, List.map_append]
  congr 1
  · congr 1
    · congr 1
      split <;> simp [Fag.bdry?]
    · split <;> simp [Fag.bdry?]
  · split <;> simp [Fag.bdry?]

theorem completeTags_nodup {igrp : Nat} {fags : List (Fag A)}
    (h : ((fags.filterMap Fag.bdry?).map Prod.fst).Nodup) :
    (((completeGroup igrp fags).filterMap Fag.bdry?).map Prod.fst).Nodup := by
  rw [completeTags]
  simp only
  generalize (fags.filterMap Fag.bdry?).map Prod.fst = tags at *
  by_cases h1 : BTag.none ∈ tags <;> by_cases h2 : BTag.all ∈ tags <;>
    by_cases h3 : BTag.reallyAll ∈ tags <;>
    simp [h1, h2, h3, List.nodup_append, h] <;> grind

/-- Every face listed in the completed groups is listed in the groups given. -/
theorem listedUnder_complete {igrp : Nat} {fags : List (Fag A)} {t : BTag} {x : ElFace}
    (h : ListedUnder (completeGroup igrp fags) t x) : ∃ t', ListedUnder fags t' x := by
  obtain ⟨fg, hfg, fs, hb, hx⟩ := h
  rcases mem_completeGroup.1 hfg with h | ⟨_, rfl⟩ | ⟨_, rfl⟩ | ⟨_, rfl⟩
  · exact ⟨t, fg, h, fs, hb, hx⟩
  · simp only [Fag.bdry?, Option.some.injEq, Prod.mk.injEq] at hb
    rw [← hb.2] at hx; simp at hx
  all_goals
    simp only [Fag.bdry?, Option.some.injEq, Prod.mk.injEq] at hb
    rw [← hb.2, mem_mergeBoundary] at hx
    obtain ⟨fs', hfs', hx'⟩ := hx
    simp only [List.mem_map, List.mem_filter, List.mem_filterMap] at hfs'
  · obtain ⟨⟨t', fs''⟩, ⟨⟨fg', h1, h2⟩, _⟩, rfl⟩ := hfs'
    exact ⟨t', fg', h1, fs'', h2, hx'⟩
  · obtain ⟨⟨t', fs''⟩, ⟨fg', h1, h2⟩, rfl⟩ := hfs'
    exact ⟨t', fg', h1, fs'', h2, hx'⟩

/-- C07: adjacency computed from vertices meets the hypothesis `BoundaryOK` when the application's
tags do not include `BTAG_ALL` (the others may be included). -/
theorem C07_applies_to_computed (groups : List (ElGroup N))
    (aff0 : A) (dict : List (List Nat × List BTag)) {btags : List BTag}
    (hb : btags.Nodup) (hall : BTag.all ∉ btags) :
    BoundaryOK groups (computeFacial aff0 groups dict btags) := by
  have hget : ∀ l ∈ computeFacial aff0 groups dict btags, ∃ (i : Nat) (g : ElGroup N),
      groups[i]? = some g ∧
      l = completeGroup i (interiorGroups aff0 (meshFacePairs groups) i ++
        boundaryGroups groups dict btags (meshFacePairs groups) i g) := by
    intro l hl
    obtain ⟨i, hi⟩ := List.mem_iff_getElem?.1 hl
    unfold computeFacial at hi
    rw [completeFacial_getElem?, rawFacial_getElem?, Option.map_map] at hi
    obtain ⟨g, hg, rfl⟩ := Option.map_eq_some_iff.1 hi
    exact ⟨i, g, hg, rfl⟩
  refine ⟨by simp [computeFacial, completeFacial, rawFacial], ?_, ?_, ?_, ?_⟩
  · intro l hl
    obtain ⟨i, g, hg, rfl⟩ := hget l hl
    refine completeTags_nodup (List.Nodup.sublist rawTags_sublist ?_)
    rw [List.nodup_append]
    exact ⟨hb, by simp, by intro a ha b hb' hab; simp at hb'; subst hb'; subst hab; exact hall ha⟩
  · intro l hl
    obtain ⟨i, g, hg, h⟩ := hget l hl
    rw [h]
    exact hasEntry_iff.1 ((C05_completion i _).2.1 .all (Or.inr (Or.inl rfl)))
  · intro l hl
    obtain ⟨i, g, hg, h⟩ := hget l hl
    rw [h]
    exact hasEntry_iff.1 ((C05_completion i _).2.1 .reallyAll (Or.inr (Or.inr rfl)))
  · intro t f hf
    have hg : ∃ g, groups[f.grp]? = some g := by
      obtain ⟨l, _, _, h1, _⟩ := hf
      unfold computeFacial at h1
      rw [completeFacial_getElem?, rawFacial_getElem?, Option.map_map] at h1
      obtain ⟨g, hg, _⟩ := Option.map_eq_some_iff.1 h1
      exact ⟨g, hg⟩
    obtain ⟨g, hg⟩ := hg
    rw [inBoundary_iff_listed hg] at hf
    obtain ⟨t', ht'⟩ := listedUnder_complete hf
    have := (listedUnder_raw_iff.1 ht').1
    rw [mem_unmatchedFaces] at this
    exact ⟨g, hg, this.1, this.2.1⟩

/-- Non-vacuity: a segment whose two ends carry different tags; the check accepts both tags,
rejects one of them alone, and rejects both together with `BTAG_ALL`. -/
example :
    let groups : List (ElGroup Unit) := [⟨0, [[0], [1]], [[0, 1]], [()]⟩]
    let fags := computeFacial () groups [([0], [.user 0 false]), ([1], [.user 1 false])]
      [.user 0 false, .user 1 false]
    checkBcCoverage groups fags [.user 0 false, .user 1 false] false true = .ok ∧
    checkBcCoverage groups fags [.user 0 false] false true = .missing ∧
    checkBcCoverage groups fags [.user 0 false] true true = .ok ∧
    checkBcCoverage groups fags [.user 0 false, .all] false true = .multiple ∧
    checkBcCoverage groups fags [.user 2 false] false true = .invalidTag ∧
    isBoundaryTagEmpty fags .none = some true ∧
    isBoundaryTagEmpty fags (.user 0 false) = some false := by
  decide +kernel

end Meshmode
