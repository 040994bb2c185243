import Verif.Refine.Geometry

/-!
# When refinement succeeds, and uniform refinement (C89)

`RefinerWithoutAdjacency.refine` (meshmode/mesh/refinement/no_adjacency.py:84-259) raises nothing on well-formed
meshes, and `refine_uniformly` (meshmode/mesh/refinement/__init__.py:51-68,
meshmode/mesh/refinement/utils.py:64-76).  The consistency check of the new mesh (`make_mesh`, C49) is not run here.
-/
namespace Meshmode

/-! ## Model -/

/-- Exceptions of `refine_uniformly`: the `ValueError` at meshmode/mesh/refinement/__init__.py:61, and those of
the refiner. -/
inductive UniformErr
  | conforming
  | refiner
  deriving DecidableEq, Repr

/-- `Refiner.refine_uniformly`, meshmode/mesh/refinement/utils.py:74-76. -/
def Refiner.refineAll {N P : Type} (geo : Geo N P) (r : Refiner N P) : Option (Refiner N P) :=
  r.refine geo (List.replicate (r.groups.map ElGroup.nelements).sum true)

/-- The loop of `refine_uniformly`, meshmode/mesh/refinement/__init__.py:65-66. -/
def Refiner.refineTimes {N P : Type} (geo : Geo N P) : Nat → Refiner N P → Option (Refiner N P)
  | 0, r => some r
  | k + 1, r => (r.refineAll geo).bind (Refiner.refineTimes geo k)

/-- `refine_uniformly`, meshmode/mesh/refinement/__init__.py:51-68. -/
def refineUniformly {N P : Type} (geo : Geo N P) (vertices : List P) (groups : List (ElGroup N))
    (conforming : Option Bool) (iterations : Nat) (withAdjacency : Bool) :
    Except UniformErr (Refiner N P) :=
  if withAdjacency = true ∧ conforming ≠ some true then .error .conforming
  else match Refiner.refineTimes geo iterations (Refiner.init vertices groups conforming) with
    | none => .error .refiner
    | some r => .ok r

/-! ## Specification -/

/-- The description of a template is complete for elements with `n` vertices: every reference vertex is an original
one or a midpoint, and all numbers are in range. (Specification or proof vocabulary, no code.) -/
structure Tess.Complete (t : Tess) (n : Nat) : Prop where
  orig : t.origIdx.length = n
  mid : t.midIdx.length = t.midPairs.length
  pairs : ∀ p ∈ t.midPairs, p.1 < n ∧ p.2 < n
  cover : ∀ k < t.nref, k ∈ t.origIdx ++ t.midIdx
  child : ∀ c ∈ t.children, c.length = n ∧ ∀ x ∈ c, x < t.nref

/-- Every group has as many rows of vertex numbers as elements, with as many vertices as its template wants.
(Specification or proof vocabulary, no code.) -/
def RowsFit {N P : Type} (geo : Geo N P) (groups : List (ElGroup N)) : Prop :=
  ∀ g ∈ groups, g.vertexIndices.length = g.nodes.length ∧
    ∃ n, (geo.tess g).Complete n ∧ ∀ row ∈ g.vertexIndices, row.length = n

/-! ## Lemmas -/

section
variable {N P : Type}

theorem midStep_defined {row : List Nat} {pair : Nat × Nat} (h1 : pair.1 < row.length) (h2 : pair.2 < row.length)
    (pt : P) (s : RState P) : ∃ m s', midStep row pt pair s = some (m, s') := by
  unfold midStep
  rw [List.getElem?_eq_getElem h1, List.getElem?_eq_getElem h2]
  simp only
  split
  · exact ⟨_, _, rfl⟩
  · exact ⟨_, _, rfl⟩

theorem elMids_defined {row : List Nat} (pt : Nat → P) {l : List ((Nat × Nat) × Nat)}
    (h : ∀ p ∈ l, p.1.1 < row.length ∧ p.1.2 < row.length) (s : RState P) :
    ∃ ms s', elMids row pt l s = some (ms, s') ∧ ms.length = l.length := by
  induction l generalizing s with
  | nil => exact ⟨[], s, rfl, rfl⟩
  | cons p l ih =>
    obtain ⟨pair, im⟩ := p
    obtain ⟨h1, h2⟩ := h (pair, im) List.mem_cons_self
    obtain ⟨m, s1, hm⟩ := midStep_defined h1 h2 (pt im) s
    obtain ⟨ms, s2, hms, hl⟩ := ih (fun p hp => h p (List.mem_cons_of_mem _ hp)) s1
    refine ⟨m :: ms, s2, ?_, by simp [hl]⟩
    simp only [elMids]
    rw [hm]
    simp only
    rw [hms]

theorem lookup_of_mem_keys {α β : Type} [BEq α] [LawfulBEq α] {l : List (α × β)} {k : α}
    (h : k ∈ l.map Prod.fst) : ∃ b, l.lookup k = some b := by
  induction l with
  | nil => simp at h
  | cons x l ih =>
    obtain ⟨a, b⟩ := x
    rw [List.lookup_cons]
    by_cases hk : k = a
    · rw [beq_iff_eq.2 hk]
      exact ⟨b, rfl⟩
    · rw [beq_eq_false_iff_ne.2 hk]
      refine ih ?_
      rcases List.mem_cons.1 h with h | h
      · exact absurd h hk
      · exact h

theorem refiningVertices_defined {t : Tess} {n : Nat} (ht : t.Complete n) {row mids : List Nat}
    (hrow : row.length = n) (hm : mids.length = t.midPairs.length) :
    ∃ rv, refiningVertices t row mids = some rv ∧ rv.length = t.nref := by
  unfold refiningVertices
  rw [if_pos ⟨by rw [ht.orig, hrow], by rw [ht.mid, hm]⟩]
  obtain ⟨rv, hrv⟩ := mapM_isSome_of (l := List.range t.nref)
    (f := fun k => ((t.origIdx ++ t.midIdx).zip (row ++ mids)).reverse.lookup k) (by
      intro k hk
      apply lookup_of_mem_keys
      rw [List.map_reverse, List.mem_reverse, List.map_fst_zip (by
        rw [List.length_append, List.length_append, ht.orig, ht.mid, hrow, hm])]
      exact ht.cover k (List.mem_range.1 hk))
  exact ⟨rv, hrv, by rw [(mapM_getElem?_some hrv).1, List.length_range]⟩

theorem childRows_defined {t : Tess} {n : Nat} (ht : t.Complete n) {rv : List Nat} (hrv : rv.length = t.nref) :
    ∃ ch, childRows t rv = some ch := by
  unfold childRows
  refine mapM_isSome_of fun c hc => mapM_isSome_of fun x hx => ?_
  exact ⟨_, List.getElem?_eq_getElem (by rw [hrv]; exact (ht.child c hc).2 x hx)⟩

theorem childRows_lengths {t : Tess} {n : Nat} (ht : t.Complete n) {rv : List Nat} {ch : List (List Nat)}
    (h : childRows t rv = some ch) : ∀ row ∈ ch, row.length = n := by
  intro row hrow
  obtain ⟨i, hi⟩ := List.mem_iff_getElem?.1 hrow
  obtain ⟨h1, h2⟩ := mapM_getElem?_some h
  have hil := (List.getElem?_eq_some_iff.1 hi).1
  obtain ⟨c, hc⟩ : ∃ c, t.children[i]? = some c := ⟨_, List.getElem?_eq_getElem (by omega)⟩
  obtain ⟨b, hb, hb'⟩ := h2 i c hc
  rw [hi] at hb
  cases hb
  rw [(mapM_getElem?_some hb').1]
  exact (ht.child c (List.mem_of_getElem? hc)).1

theorem refineEls_defined {t : Tess} {n : Nat} (ht : t.Complete n) {rows : List (List Nat)}
    (hrows : ∀ row ∈ rows, row.length = n) (pt : Nat → Nat → P) {es : List Nat}
    (hes : ∀ e ∈ es, e < rows.length) (s : RState P) :
    ∃ ch s', refineEls t rows pt es s = some (ch, s') ∧ ∀ c ∈ ch, ∀ row ∈ c.2, row.length = n := by
  induction es generalizing s with
  | nil => exact ⟨[], s, rfl, by simp⟩
  | cons e es ih =>
    obtain ⟨row, hrow⟩ : ∃ row, rows[e]? = some row :=
      ⟨_, List.getElem?_eq_getElem (hes e List.mem_cons_self)⟩
    have hrl := hrows row (List.mem_of_getElem? hrow)
    obtain ⟨ms, s1, hms, hml⟩ := elMids_defined (row := row) (pt e) (l := t.midPairs.zipIdx) (by
      intro p hp
      rw [hrl]
      refine ht.pairs p.1 ?_
      obtain ⟨q, i⟩ := p
      exact List.mem_of_getElem? (List.mem_zipIdx_iff_getElem?.1 hp)) s
    rw [List.length_zipIdx] at hml
    obtain ⟨rv, hrv, hrvl⟩ := refiningVertices_defined ht hrl hml
    obtain ⟨ch, hch⟩ := childRows_defined ht hrvl
    obtain ⟨rest, s2, hrest, hr2⟩ := ih (fun e he => hes e (List.mem_cons_of_mem _ he)) s1
    refine ⟨(e, ch) :: rest, s2, ?_, ?_⟩
    · simp only [refineEls]
      rw [hrow]
      simp only
      rw [hms]
      simp only
      rw [hrv, Option.bind_some, hch]
      simp only
      rw [hrest]
    · intro c hc
      rcases List.mem_cons.1 hc with rfl | hc
      · exact childRows_lengths ht hch
      · exact hr2 c hc

theorem refineBlocks_mem {α : Type} {flags : List Bool} {old : List α} {ch : Nat → List α} {x : α}
    (h : x ∈ (refineBlocks flags old ch).flatten) :
    x ∈ old ∨ ∃ e, flags[e]? = some true ∧ x ∈ ch e := by
  obtain ⟨l, hl, hx⟩ := List.mem_flatten.1 h
  obtain ⟨i, hi⟩ := List.mem_iff_getElem?.1 hl
  obtain ⟨a, f, h1, h2, rfl⟩ := refineBlocks_getElem?.1 hi
  cases f with
  | true => exact Or.inr ⟨i, h2, hx⟩
  | false =>
    left
    simp only [Bool.false_eq_true, if_false, List.mem_singleton] at hx
    subst hx
    exact List.mem_of_getElem? h1

theorem refineGroup_defined {t : Tess} {n : Nat} (ht : t.Complete n) {tn : Nat → List N} (pt : Nat → Nat → P)
    (nv : Nat) {g : ElGroup N} {flags : List Bool} (hwf : g.vertexIndices.length = g.nodes.length)
    (hrows : ∀ row ∈ g.vertexIndices, row.length = n) (hlen : flags.length = g.nelements)
    (htn : ∀ e, flags[e]? = some true → (tn e).length = t.children.length)
    (table : List ((Nat × Nat) × Nat)) (added : List P) :
    ∃ g' s, refineGroup t tn pt nv g flags table added = some (g', s) ∧ g'.kind = g.kind ∧ g'.fvi = g.fvi ∧
      g'.vertexIndices.length = g'.nodes.length ∧ (∀ row ∈ g'.vertexIndices, row.length = n) ∧
      g'.nelements = (flags.map fun f => if f then t.children.length else 1).sum := by
  have hlen' : flags.length = g.nodes.length := hlen
  obtain ⟨ch, s, hch, hcl⟩ := refineEls_defined ht hrows pt (es := npWhere flags) (by
    intro e he
    rw [mem_npWhere] at he
    rw [hwf, ← hlen']
    exact (List.getElem?_eq_some_iff.1 he).1) ⟨table, nv, added⟩
  have hdef : ∃ g', refineGroup t tn pt nv g flags table added = some (g', s) := by
    obtain ⟨hc1, hc2⟩ := refineEls_children hch
    have hnd : (ch.map Prod.fst).Nodup := by
      rw [hc1]; exact (pairwise_lt_npWhere flags).imp (fun h => Nat.ne_of_lt h)
    have hlook : ∀ c ∈ ch, ch.lookup c.1 = some c.2 := fun c hc => lookup_of_nodup hnd hc
    have e1 : (ch.map fun c => ((childStarts t flags).getD c.1 0, c.2)) =
        (npWhere flags).map fun e => ((childStarts t flags).getD e 0, (ch.lookup e).getD []) := by
      rw [← hc1, List.map_map]
      apply List.map_congr_left
      intro c hc
      simp [hlook c hc]
    unfold refineGroup
    rw [hch]
    simp only
    rw [e1, scatter_refine (by omega) (by
        intro i hi
        have : i ∈ ch.map Prod.fst := by rw [hc1]; exact mem_npWhere.2 hi
        obtain ⟨c, hc, rfl⟩ := List.mem_map.1 this
        rw [hlook c hc]
        exact hc2 c hc), scatter_refine (by omega) htn]
    exact ⟨_, rfl⟩
  obtain ⟨g', hg'⟩ := hdef
  refine ⟨g', s, hg', ?_⟩
  obtain ⟨ch', hch', hk, hf, hv, hn⟩ := refineGroup_spec hwf hlen htn hg'
  rw [hch] at hch'
  cases hch'
  obtain ⟨_, e2, _⟩ := refineGroup_elements hwf hlen htn hg'
  refine ⟨hk, hf, e2, ?_, ?_⟩
  · intro row hrow
    rw [hv] at hrow
    rcases refineBlocks_mem hrow with h | ⟨e, he, h⟩
    · exact hrows row h
    · cases hl : ch.lookup e with
      | none => rw [hl] at h; simp at h
      | some c =>
        rw [hl] at h
        exact hcl (e, c) (mem_of_lookup hl) row h
  · unfold ElGroup.nelements
    have := take_flatten_refineBlocks (t := t) (old := g.nodes) (by omega) htn flags.length
    rw [List.take_of_length_le (by rw [length_refineBlocks]; omega),
      List.take_of_length_le (by simp [childCounts])] at this
    rw [hn, this]
    rfl

/-- One group after its refinement with the given flags.  (Specification or proof vocabulary, no code.) -/
def Refined (geo : Geo N P) (g : ElGroup N) (flags : List Bool) (g' : ElGroup N) : Prop :=
  g'.kind = g.kind ∧ g'.fvi = g.fvi ∧ g'.vertexIndices.length = g'.nodes.length ∧
    (∀ n, (geo.tess g).Complete n → (∀ row ∈ g.vertexIndices, row.length = n) →
      ∀ row ∈ g'.vertexIndices, row.length = n) ∧
    g'.nelements = (flags.map fun f => if f then (geo.tess g).children.length else 1).sum

theorem refineGroups_defined {geo : Geo N P} (hgeo : geo.OK) (nv : Nat) {l : List (ElGroup N × List Bool)}
    (hfit : RowsFit geo (l.map Prod.fst)) (hlen : ∀ p ∈ l, p.2.length = p.1.nelements)
    (table : List ((Nat × Nat) × Nat)) (added : List P) :
    ∃ gs table' added', refineGroups geo nv l table added = some (gs, table', added') ∧
      List.Forall₂ (fun p g' => Refined geo p.1 p.2 g') l gs := by
  induction l generalizing table added with
  | nil => exact ⟨[], table, added, rfl, List.Forall₂.nil⟩
  | cons p l ih =>
    obtain ⟨g, flags⟩ := p
    have hl := hlen (g, flags) List.mem_cons_self
    simp only at hl
    have htn : ∀ e, flags[e]? = some true → (geo.tn g e).length = (geo.tess g).children.length := by
      intro e he
      exact hgeo g e (hl ▸ (List.getElem?_eq_some_iff.1 he).1)
    obtain ⟨hwf, n, hn, hrows⟩ := hfit g (by simp)
    obtain ⟨g', s, hg', d1, d2, d3, d4, d5⟩ := refineGroup_defined hn (geo.pt g) nv hwf hrows hl htn table added
    obtain ⟨gs, t', a', hgs, hall⟩ := ih (fun g hg => hfit g (by
      rw [List.map_cons]; exact List.mem_cons_of_mem _ hg)) (fun p hp => hlen p (List.mem_cons_of_mem _ hp))
      s.table s.added
    refine ⟨g' :: gs, t', a', ?_, List.Forall₂.cons ⟨d1, d2, d3, ?_, d5⟩ hall⟩
    · simp only [refineGroups]
      rw [hg']
      simp only
      rw [hgs]
    · intro m hm hrows'
      have : m = n := by rw [← hm.orig, hn.orig]
      subst this
      exact d4

/-- The flags are split into one list for each group. -/
theorem refineFlags_zip {groups : List (ElGroup N)} {flags : List Bool}
    (h : flags.length = (groups.map ElGroup.nelements).sum) :
    (groups.zip (refineFlags groups flags)).map Prod.fst = groups ∧
      ∀ p ∈ groups.zip (refineFlags groups flags), p.2.length = p.1.nelements := by
  refine ⟨List.map_fst_zip ?_, ?_⟩
  · simp only [refineFlags, List.length_map, List.length_zip, baseElementNrs, cumsum, length_cumsumFrom,
      List.length_cons, List.length_dropLast]
    omega
  · intro p hp
    obtain ⟨i, hi⟩ := List.mem_iff_getElem?.1 hp
    obtain ⟨g, f⟩ := p
    obtain ⟨h1, h2⟩ := (List.getElem?_zip_eq_some (z := (g, f))).1 hi
    obtain ⟨f', hf', hl, _⟩ := refineFlags_getElem? h1 h
    rw [h2] at hf'
    cases hf'
    exact hl

/-! ## Properties -/

/-- **C89**: `refine` succeeds exactly when there is one flag for each element of the mesh (for a mesh whose rows of
vertex numbers fit the templates). -/
theorem C89_refine_defined {geo : Geo N P} (hgeo : geo.OK) {r : Refiner N P} (hfit : RowsFit geo r.groups)
    (flags : List Bool) :
    (∃ r', r.refine geo flags = some r') ↔ flags.length = (r.groups.map ElGroup.nelements).sum := by
  constructor
  · rintro ⟨r', h⟩
    unfold Refiner.refine at h
    split at h
    · simp at h
    · rename_i hl
      exact not_not.1 hl
  · intro h
    obtain ⟨f1, f2⟩ := refineFlags_zip h
    obtain ⟨gs, t, a, hgs, _⟩ := refineGroups_defined hgeo r.vertices.length (l := r.groups.zip
      (refineFlags r.groups flags)) (by rw [f1]; exact hfit) f2 r.table []
    unfold Refiner.refine
    rw [if_neg (not_not.2 h)]
    simp only
    rw [hgs]
    exact ⟨_, rfl⟩

/-- **C89**: after a refinement there are the same groups, and the number of elements of each has grown by one less
than the number of children for each flagged element; the rows of vertex numbers fit the templates again. -/
theorem C89_refine_counts {geo : Geo N P} (hgeo : geo.OK)
    (hkind : ∀ g g', g.kind = g'.kind → geo.tess g = geo.tess g') {r r' : Refiner N P}
    (hfit : RowsFit geo r.groups) {flags : List Bool} (h : r.refine geo flags = some r') :
    RowsFit geo r'.groups ∧ r'.groups.length = r.groups.length ∧
      ∀ (i : Nat) g, r.groups[i]? = some g → ∃ g', r'.groups[i]? = some g' ∧ g'.kind = g.kind ∧ g'.fvi = g.fvi ∧
        g'.nelements = ((List.range g.nelements).map fun e =>
          if r.flagOf flags i e = some true then (geo.tess g).children.length else 1).sum := by
  have hl := (C89_refine_defined hgeo hfit flags).1 ⟨r', h⟩
  obtain ⟨f1, f2⟩ := refineFlags_zip hl
  obtain ⟨gs, t, a, hgs, hall⟩ := refineGroups_defined hgeo r.vertices.length (l := r.groups.zip
    (refineFlags r.groups flags)) (by rw [f1]; exact hfit) f2 r.table []
  unfold Refiner.refine at h
  rw [if_neg (not_not.2 hl)] at h
  simp only at h
  rw [hgs] at h
  cases h
  simp only
  have hlen : gs.length = r.groups.length := by
    have := congrArg List.length f1
    rw [List.length_map] at this
    rw [← hall.length_eq, this]
  have hget : ∀ (i : Nat) g, r.groups[i]? = some g → ∃ f g', (refineFlags r.groups flags)[i]? = some f ∧
      f.length = g.nelements ∧ (∀ e, e < g.nelements → f[e]? = r.flagOf flags i e) ∧ gs[i]? = some g' ∧
      Refined geo g f g' := by
    intro i g hg
    obtain ⟨f, hf, hfl, hfe⟩ := refineFlags_getElem? hg hl
    have hz := (List.getElem?_zip_eq_some (l₁ := r.groups) (z := (g, f))).2 ⟨hg, hf⟩
    obtain ⟨g', hg'⟩ : ∃ g', gs[i]? = some g' :=
      ⟨_, List.getElem?_eq_getElem (by rw [hlen]; exact (List.getElem?_eq_some_iff.1 hg).1)⟩
    refine ⟨f, g', hf, hfl, hfe, hg', ?_⟩
    obtain ⟨_, hall'⟩ := List.forall₂_iff_get.1 hall
    obtain ⟨z1, z2⟩ := List.getElem?_eq_some_iff.1 hz
    obtain ⟨y1, y2⟩ := List.getElem?_eq_some_iff.1 hg'
    have := hall' i z1 y1
    rw [List.get_eq_getElem, List.get_eq_getElem] at this
    simp only [z2, y2] at this
    exact this
  refine ⟨?_, hlen, ?_⟩
  · intro g' hg'
    obtain ⟨i, hi⟩ := List.mem_iff_getElem?.1 hg'
    obtain ⟨g, hg⟩ : ∃ g, r.groups[i]? = some g :=
      ⟨_, List.getElem?_eq_getElem (by rw [← hlen]; exact (List.getElem?_eq_some_iff.1 hi).1)⟩
    obtain ⟨f, g'', _, _, _, e1, e2⟩ := hget i g hg
    rw [hi] at e1
    cases e1
    obtain ⟨r1, _, r2, r3, _⟩ := e2
    obtain ⟨_, n, hn, hrows⟩ := hfit g (List.mem_of_getElem? hg)
    exact ⟨r2, n, hkind _ _ r1 ▸ hn, r3 n hn hrows⟩
  · intro i g hg
    obtain ⟨f, g', _, e1, e2, e3, r1, r2, _, _, r4⟩ := hget i g hg
    refine ⟨g', e3, r1, r2, ?_⟩
    rw [r4]
    congr 1
    apply List.ext_getElem?
    intro e
    rw [List.getElem?_map, List.getElem?_map]
    by_cases he : e < g.nelements
    · have h1 : f[e]? = some (f[e]'(by omega)) := List.getElem?_eq_getElem _
      rw [List.getElem?_range he, h1]
      rw [e2 e he] at h1
      simp only [Option.map_some, h1, Option.some.injEq]
    · rw [List.getElem?_eq_none (by omega), List.getElem?_eq_none (by rw [List.length_range]; omega)]
      rfl

theorem refineAll_spec {geo : Geo N P} (hgeo : geo.OK)
    (hkind : ∀ g g', g.kind = g'.kind → geo.tess g = geo.tess g') {r : Refiner N P}
    (hfit : RowsFit geo r.groups) : ∃ r', r.refineAll geo = some r' ∧ RowsFit geo r'.groups ∧
      r'.conforming = r.conforming ∧ r'.groups.length = r.groups.length ∧
      ∀ (i : Nat) g, r.groups[i]? = some g → ∃ g', r'.groups[i]? = some g' ∧ g'.kind = g.kind ∧ g'.fvi = g.fvi ∧
        g'.nelements = g.nelements * (geo.tess g).children.length := by
  obtain ⟨r', h⟩ := (C89_refine_defined hgeo hfit
    (List.replicate (r.groups.map ElGroup.nelements).sum true)).2 (by simp)
  obtain ⟨c1, c2, c3⟩ := C89_refine_counts hgeo hkind hfit h
  refine ⟨r', h, c1, ?_, c2, ?_⟩
  · unfold Refiner.refine at h
    split at h
    · simp at h
    · simp only at h
      split at h
      · simp at h
      · cases h
        simp only [refinedConforming]
        split
        · rename_i hc
          rw [hc]
          simp
        · rfl
  · intro i g hg
    obtain ⟨g', d1, d2, d3, d4⟩ := c3 i g hg
    refine ⟨g', d1, d2, d3, ?_⟩
    rw [d4]
    have : ((List.range g.nelements).map fun e => if r.flagOf (List.replicate
        (r.groups.map ElGroup.nelements).sum true) i e = some true then (geo.tess g).children.length else 1) =
        (List.range g.nelements).map fun _ => (geo.tess g).children.length := by
      refine List.map_congr_left fun e he => ?_
      obtain ⟨f, hf, hfl, hfe⟩ := refineFlags_getElem? (flags := List.replicate
        (r.groups.map ElGroup.nelements).sum true) hg (by simp)
      have he := List.mem_range.1 he
      have h1 := hfe e he
      rw [List.getElem?_eq_getElem (by omega)] at h1
      have h2 : r.flagOf (List.replicate (r.groups.map ElGroup.nelements).sum true) i e = some (f[e]'(by omega)) :=
        h1.symm
      rw [h2]
      unfold Refiner.flagOf at h2
      have := List.mem_of_getElem? h2
      rw [List.eq_of_mem_replicate this, if_pos rfl]
    rw [this, List.map_const', List.length_range, List.sum_replicate, nsmul_eq_mul, Nat.cast_id]

theorem refineTimes_spec {geo : Geo N P} (hgeo : geo.OK)
    (hkind : ∀ g g', g.kind = g'.kind → geo.tess g = geo.tess g') (k : Nat) {r : Refiner N P}
    (hfit : RowsFit geo r.groups) : ∃ r', r.refineTimes geo k = some r' ∧ RowsFit geo r'.groups ∧
      r'.conforming = r.conforming ∧ r'.groups.length = r.groups.length ∧
      ∀ (i : Nat) g, r.groups[i]? = some g → ∃ g', r'.groups[i]? = some g' ∧ g'.kind = g.kind ∧ g'.fvi = g.fvi ∧
        g'.nelements = g.nelements * (geo.tess g).children.length ^ k := by
  induction k generalizing r with
  | zero => exact ⟨r, rfl, hfit, rfl, rfl, fun i g hg => ⟨g, hg, rfl, rfl, by simp⟩⟩
  | succ k ih =>
    obtain ⟨r1, a1, a2, a3, a4, a5⟩ := refineAll_spec hgeo hkind hfit
    obtain ⟨r2, b1, b2, b3, b4, b5⟩ := ih a2
    refine ⟨r2, ?_, b2, by rw [b3, a3], by rw [b4, a4], ?_⟩
    · simp only [Refiner.refineTimes]
      rw [a1, Option.bind_some, b1]
    · intro i g hg
      obtain ⟨g1, c1, c2, c3, c4⟩ := a5 i g hg
      obtain ⟨g2, d1, d2, d3, d4⟩ := b5 i g1 c1
      refine ⟨g2, d1, by rw [d2, c2], by rw [d3, c3], ?_⟩
      rw [d4, c4, hkind g1 g c2]
      ring

/-- **C89**: `refine_uniformly` raises `ValueError` exactly when adjacency is wanted for a mesh which is not known to
be conforming, and no other exception. -/
theorem C89_uniform_error {geo : Geo N P} (hgeo : geo.OK)
    (hkind : ∀ g g', g.kind = g'.kind → geo.tess g = geo.tess g') {vertices : List P} {groups : List (ElGroup N)}
    (hfit : RowsFit geo groups) (conforming : Option Bool) (iterations : Nat) (withAdjacency : Bool)
    (e : UniformErr) :
    refineUniformly geo vertices groups conforming iterations withAdjacency = .error e ↔
      e = .conforming ∧ withAdjacency = true ∧ conforming ≠ some true := by
  unfold refineUniformly
  by_cases hc : withAdjacency = true ∧ conforming ≠ some true
  · rw [if_pos hc]
    constructor
    · intro h
      cases h
      exact ⟨rfl, hc⟩
    · rintro ⟨rfl, _⟩
      rfl
  · rw [if_neg hc]
    obtain ⟨r', h, _⟩ := refineTimes_spec hgeo hkind iterations (r := Refiner.init vertices groups conforming) hfit
    rw [h]
    constructor
    · intro h
      cases h
    · rintro ⟨_, h⟩
      exact absurd h hc

/-- **C89**: the result of `refine_uniformly` has the same groups, with the number of elements multiplied by the number
of children for each iteration, and is conforming exactly if the mesh is. -/
theorem C89_uniform_counts {geo : Geo N P} (hgeo : geo.OK)
    (hkind : ∀ g g', g.kind = g'.kind → geo.tess g = geo.tess g') {vertices : List P} {groups : List (ElGroup N)}
    (hfit : RowsFit geo groups) {conforming : Option Bool} {iterations : Nat} {withAdjacency : Bool}
    {r : Refiner N P}
    (h : refineUniformly geo vertices groups conforming iterations withAdjacency = .ok r) :
    r.conforming = conforming ∧ r.groups.length = groups.length ∧
      ∀ (i : Nat) g, groups[i]? = some g → ∃ g', r.groups[i]? = some g' ∧ g'.kind = g.kind ∧ g'.fvi = g.fvi ∧
        g'.nelements = g.nelements * (geo.tess g).children.length ^ iterations := by
  unfold refineUniformly at h
  split at h
  · cases h
  · obtain ⟨r', h', _, a1, a2, a3⟩ := refineTimes_spec hgeo hkind iterations
      (r := Refiner.init vertices groups conforming) hfit
    rw [h'] at h
    cases h
    exact ⟨a1, a2, a3⟩

theorem refineTimes_reached {geo : Geo N P} (hgeo : geo.OK)
    (hkind : ∀ g g', g.kind = g'.kind → geo.tess g = geo.tess g') (k : Nat) {r0 r r' : Refiner N P}
    (hfit : RowsFit geo r.groups) (h1 : r.groups.length ≤ 1) (h0 : Reached geo r0 r)
    (h : r.refineTimes geo k = some r') : Reached geo r0 r' := by
  induction k generalizing r with
  | zero =>
    cases h
    exact h0
  | succ k ih =>
    obtain ⟨r1, a1, a2, _, a4, _⟩ := refineAll_spec hgeo hkind hfit
    simp only [Refiner.refineTimes] at h
    rw [a1, Option.bind_some] at h
    refine ih a2 (by omega) (h0.step (k := 0) ?_ a1) h
    intro i g e hi hg
    have := (List.getElem?_eq_some_iff.1 hg).1
    omega

end

section
variable {K : Type} [Field K]

/-- **C89**: uniform refinement of straight elements of one group: the vertices of every element of the result are the
points of the element over the corners of the reference element.  (Missing: several groups, see
`C88_groups_counterexample`.) -/
theorem C89_uniform_straight_partial [CharZero K] [DecidableEq K]
    {resample : List (List K → K) → List (List K) → List (List K) → Option (Mat K)}
    (hr : ResampleSound resample) {meg : SGroup K (List K)} (hl : meg.basis.length = meg.nodes.length)
    {sh : ChildShape} {ref1 ref2 children : List (List Nat)} (h1 : ref1.Nodup) (h2 : ref2.Nodup) {d : Nat}
    (hd1 : ∀ c ∈ ref1, c.length = d) (hd : ∀ v ∈ ref2, v.length = d) {geo : Geo (List (List K)) (List K)}
    (hgeo : polyGeo resample meg sh ref1 ref2 children = some geo)
    (hch : ChildrenOK meg sh ref1 ref2 children)
    {vertices : List (List K)} {g : ElGroup (List (List K))} {c : Option Bool} (hfit : RowsFit geo [g])
    (hval : ∀ row ∈ g.vertexIndices, ∀ v ∈ row, v < vertices.length)
    (hmatch : CornersMatch meg ref1 (Refiner.init vertices [g] c))
    (hs : AllStraight meg d (Refiner.init vertices [g] c)) {iterations : Nat} {withAdjacency : Bool}
    {r : Refiner (List (List K)) (List K)}
    (h : refineUniformly geo vertices [g] c iterations withAdjacency = .ok r) :
    r.OK ∧ CornersMatch meg ref1 r ∧ AllStraight meg d r := by
  obtain ⟨g1, g2⟩ := polyGeo_ok hgeo h1 h2
  have hkind : ∀ g g' : ElGroup (List (List K)), g.kind = g'.kind → geo.tess g = geo.tess g' := by
    obtain ⟨t, mapped, Mm, Mc, _, _, _, _, rfl⟩ := polyGeo_spec hgeo
    intro _ _ _
    rfl
  unfold refineUniformly at h
  split at h
  · cases h
  · split at h
    · cases h
    · rename_i r' hr'
      cases h
      have := refineTimes_reached g1 hkind iterations (r := Refiner.init vertices [g] c) hfit (by simp [Refiner.init])
        Reached.init hr'
      obtain ⟨i1, i2, i3, _⟩ := C88_straight_history_partial hr hl h1 h2 hd1 hd hgeo hch
        (by simpa using (hfit g (by simp)).1) (by simpa using hval) hmatch hs this
      exact ⟨i1, i2, i3⟩

/-- The template computed by the code is complete. -/
theorem C89_tess_complete {ref1 ref2 children : List (List Nat)} {t : Tess} (h2 : ref2.Nodup)
    (h : tessInfo ref1 ref2 children = some t)
    (hch : ∀ c ∈ children, c.length = ref1.length ∧ ∀ x ∈ c, x < ref2.length) : t.Complete ref1.length := by
  obtain ⟨t1, t2, t3, t4, t5, t6⟩ := tessInfo_spec h
  have l3 := congrArg List.length t3
  have l4 := congrArg List.length t4
  simp only [List.length_map] at l3 l4
  refine ⟨l3, by omega, ?_, ?_, ?_⟩
  · intro p hp
    obtain ⟨im, him⟩ := List.mem_iff_getElem?.1 hp
    have := (List.getElem?_eq_some_iff.1 him).1
    obtain ⟨c, hc⟩ : ∃ c, (refMidpoints ref1 ref2)[im]? = some c := ⟨_, List.getElem?_eq_getElem (by omega)⟩
    obtain ⟨a, b, ha, hb, _⟩ := t6 im p c him hc
    exact ⟨(List.getElem?_eq_some_iff.1 ha).1, (List.getElem?_eq_some_iff.1 hb).1⟩
  · intro k hk
    rw [t2] at hk
    have hmem : ref2[k]? ∈ (t.origIdx ++ t.midIdx).map (ref2[·]?) := by
      rw [List.map_append, t3, t4, ← List.map_append, List.getElem?_eq_getElem hk]
      refine List.mem_map_of_mem ?_
      rw [List.mem_append]
      by_cases ho : ref2[k] ∈ ref1.map fun v => v.map (2 * ·)
      · exact Or.inl ho
      · right
        unfold refMidpoints
        rw [List.mem_filter]
        refine ⟨List.getElem_mem _, ?_⟩
        rw [Bool.not_eq_true', ← Bool.not_eq_true, List.contains_iff_mem]
        exact ho
    obtain ⟨y, hy, hyk⟩ := List.mem_map.1 hmem
    have hyl : y = k := by
      have := (List.getElem?_inj (i := k) (j := y) hk h2).1 hyk.symm
      exact this.symm
    exact hyl ▸ hy
  · intro c hc
    rw [t1] at hc
    rw [t2]
    exact hch c hc

end

/-! ## Cases -/

-- two refinements of the two triangles of a square
example : (triGeo.bind fun geo => (refineUniformly geo squareVertices [squareGroup] (some true) 2 true).toOption.map
    fun r => (r.groups.map ElGroup.nelements, r.vertices.length, r.conforming)) =
    some ([32], 25, some true) := by
  decide +kernel

example : (triGeo.map fun geo => (refineUniformly geo squareVertices [squareGroup] none 2 true).toOption.isSome) =
    some false := by
  decide +kernel

-- the hypotheses of `C89_uniform_counts` and `C89_uniform_straight_partial`
example : ∃ geo, triGeo = some geo ∧ geo.OK ∧ RowsFit geo [squareGroup] ∧
    (∀ g g', g.kind = g'.kind → geo.tess g = geo.tess g') ∧
    (∀ row ∈ squareGroup.vertexIndices, ∀ v ∈ row, v < squareVertices.length) := by
  obtain ⟨geo, hgeo⟩ : ∃ geo, triGeo = some geo := Option.isSome_iff_exists.1 (by decide +kernel)
  have hok := polyGeo_ok hgeo (by decide) (by decide)
  obtain ⟨t, mapped, Mm, Mc, ht, _, _, _, rfl⟩ := polyGeo_spec hgeo
  refine ⟨_, hgeo, hok.1, ?_, fun _ _ _ => rfl, by decide⟩
  intro g hg
  rw [List.mem_singleton] at hg
  subst hg
  exact ⟨rfl, 3, C89_tess_complete (by decide) ht (by decide), by decide⟩

end Meshmode
