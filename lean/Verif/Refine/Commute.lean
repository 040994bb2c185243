import Verif.Refine.Geometry
import Verif.Refine.Uniform
import Verif.Mesh.Commute

/-!
# Moving a mesh and refining it can be exchanged (C110)

`affine_map` (meshmode/mesh/processing.py:1372-1480) together with `RefinerWithoutAdjacency.refine`
(meshmode/mesh/refinement/no_adjacency.py:84-259).
-/
namespace Meshmode

section natural
variable {N N' P P' : Type}

/-- `geo'` does to groups with nodes changed by `φ` what `geo` does to the groups, with points changed by `ψ`.
(Specification or proof vocabulary, no code.) -/
structure GeoNat (geo : Geo N P) (geo' : Geo N' P') (φ : N → N') (ψ : P → P') : Prop where
  tess : ∀ g : ElGroup N, geo'.tess (g.mapNodes φ) = geo.tess g
  tn : ∀ (g : ElGroup N) (e : Nat), e < g.nelements → geo'.tn (g.mapNodes φ) e = (geo.tn g e).map φ
  pt : ∀ (g : ElGroup N) (e im : Nat), e < g.nelements → im < (geo.tess g).midPairs.length →
    geo'.pt (g.mapNodes φ) e im = ψ (geo.pt g e im)

/-- The state with other points. (Specification or proof vocabulary, no code.) -/
def RState.mapPts (ψ : P → P') (s : RState P) : RState P' := ⟨s.table, s.inew, s.added.map ψ⟩

/-- A refiner with other points and nodes. (Specification or proof vocabulary, no code.) -/
def Refiner.transport (φ : N → N') (ψ : P → P') (r : Refiner N P) : Refiner N' P' :=
  ⟨r.vertices.map ψ, r.groups.map (ElGroup.mapNodes φ), r.conforming, r.records, r.table⟩

theorem midStep_map (ψ : P → P') (row : List Nat) (pt : P) (pair : Nat × Nat) (s : RState P) :
    midStep row (ψ pt) pair (s.mapPts ψ) = (midStep row pt pair s).map fun r => (r.1, r.2.mapPts ψ) := by
  unfold midStep
  cases row[pair.1]? with
  | none => rfl
  | some a =>
    cases row[pair.2]? with
    | none => rfl
    | some b =>
      simp only [RState.mapPts]
      cases s.table.lookup (edgeKey a b) with
      | none => simp
      | some m => rfl

theorem elMids_map (ψ : P → P') (row : List Nat) (pt : Nat → P) (pt' : Nat → P') (l : List ((Nat × Nat) × Nat))
    (h : ∀ p ∈ l, pt' p.2 = ψ (pt p.2)) (s : RState P) :
    elMids row pt' l (s.mapPts ψ) = (elMids row pt l s).map fun r => (r.1, r.2.mapPts ψ) := by
  induction l generalizing s with
  | nil => rfl
  | cons p l ih =>
    obtain ⟨pair, im⟩ := p
    have h1 : pt' im = ψ (pt im) := h (pair, im) (by simp)
    simp only [elMids, h1, midStep_map]
    cases midStep row (pt im) pair s with
    | none => rfl
    | some q =>
      simp only [Option.map_some]
      rw [ih (fun p hp => h p (by simp [hp]))]
      cases elMids row pt l q.2 <;> rfl

theorem refineEls_map (ψ : P → P') (t : Tess) (rows : List (List Nat)) (pt : Nat → Nat → P) (pt' : Nat → Nat → P')
    (es : List Nat) (h : ∀ e ∈ es, ∀ im < t.midPairs.length, pt' e im = ψ (pt e im)) (s : RState P) :
    refineEls t rows pt' es (s.mapPts ψ) = (refineEls t rows pt es s).map fun r => (r.1, r.2.mapPts ψ) := by
  induction es generalizing s with
  | nil => rfl
  | cons e es ih =>
    simp only [refineEls]
    cases rows[e]? with
    | none => rfl
    | some row =>
      simp only
      rw [elMids_map ψ row (pt e) (pt' e) _ fun p hp => h e (by simp) p.2 (by
        have := List.mem_zipIdx hp; omega)]
      cases elMids row (pt e) t.midPairs.zipIdx s with
      | none => rfl
      | some q =>
        simp only [Option.map_some]
        cases (refiningVertices t row q.1).bind (childRows t) with
        | none => rfl
        | some ch =>
          simp only
          rw [ih fun e he => h e (by simp [he])]
          cases refineEls t rows pt es q.2 <;> rfl

theorem findSome_map_blocks {α β : Type} (f : α → β) (k : Nat) (w : List (Nat × List α)) :
    ((w.map fun p => (p.1, p.2.map f)).findSome? fun w => if w.1 ≤ k then w.2[k - w.1]? else none) =
      (w.findSome? fun w => if w.1 ≤ k then w.2[k - w.1]? else none).map f := by
  induction w with
  | nil => rfl
  | cons p w ih =>
    simp only [List.map_cons, List.findSome?_cons, ih]
    by_cases h : p.1 ≤ k
    · simp only [if_pos h, List.getElem?_map]
      cases p.2[k - p.1]? <;> rfl
    · simp only [if_neg h]

theorem scatter_map {α β : Type} (f : α → β) (n : Nat) (w : List (Nat × List α)) :
    scatter n (w.map fun p => (p.1, p.2.map f)) = (scatter n w).map (·.map f) := by
  unfold scatter
  rw [← mapM_map_option]
  congr 1
  funext k
  rw [← List.map_reverse, findSome_map_blocks]

theorem keepWrites_map {α β : Type} (f : α → β) (t : Tess) (flags : List Bool) (old : List α) :
    keepWrites t flags (old.map f) = (keepWrites t flags old).map fun p => (p.1, p.2.map f) := by
  unfold keepWrites
  rw [List.map_filterMap]
  congr 1
  funext i
  simp only [List.getElem?_map, Option.map_map]
  rfl

theorem refineGroup_map {geo : Geo N P} {geo' : Geo N' P'} {φ : N → N'} {ψ : P → P'} (h : GeoNat geo geo' φ ψ)
    (nv : Nat) (g : ElGroup N) (flags : List Bool) (hf : flags.length ≤ g.nelements)
    (table : List ((Nat × Nat) × Nat)) (added : List P) :
    refineGroup (geo'.tess (g.mapNodes φ)) (geo'.tn (g.mapNodes φ)) (geo'.pt (g.mapNodes φ)) nv (g.mapNodes φ) flags
      table (added.map ψ) =
      (refineGroup (geo.tess g) (geo.tn g) (geo.pt g) nv g flags table added).map fun r =>
        (r.1.mapNodes φ, r.2.mapPts ψ) := by
  have hw : ∀ e ∈ npWhere flags, e < g.nelements := fun e he =>
    lt_of_lt_of_le (List.getElem?_eq_some_iff.1 (mem_npWhere.1 he)).1 hf
  unfold refineGroup
  rw [h.tess]
  have e1 := refineEls_map ψ (geo.tess g) g.vertexIndices (geo.pt g) (geo'.pt (g.mapNodes φ)) (npWhere flags)
    (fun e he im him => h.pt g e im (hw e he) him) ⟨table, nv, added⟩
  have e2 : keepWrites (geo.tess g) flags (g.mapNodes φ).nodes ++ (npWhere flags).map (fun e =>
      ((childStarts (geo.tess g) flags).getD e 0, geo'.tn (g.mapNodes φ) e)) =
      (keepWrites (geo.tess g) flags g.nodes ++ (npWhere flags).map fun e =>
        ((childStarts (geo.tess g) flags).getD e 0, geo.tn g e)).map fun p => (p.1, p.2.map φ) := by
    rw [List.map_append, ← keepWrites_map, List.map_map]
    congr 1
    refine List.map_congr_left fun e he => ?_
    rw [h.tn g e (hw e he)]
    rfl
  rw [e2, scatter_map]
  change (match refineEls (geo.tess g) g.vertexIndices _ _ (RState.mapPts ψ ⟨table, nv, added⟩) with
    | none => none
    | some (ch, s) => _) = _
  rw [e1]
  cases refineEls (geo.tess g) g.vertexIndices (geo.pt g) (npWhere flags) ⟨table, nv, added⟩ with
  | none => rfl
  | some q =>
    simp only [Option.map_some]
    rw [show (g.mapNodes φ).vertexIndices = g.vertexIndices from rfl]
    cases scatter (childCounts (geo.tess g) flags).sum (keepWrites (geo.tess g) flags g.vertexIndices ++
        q.1.map fun c => ((childStarts (geo.tess g) flags).getD c.1 0, c.2)) with
    | none => rfl
    | some rows =>
      cases scatter (childCounts (geo.tess g) flags).sum (keepWrites (geo.tess g) flags g.nodes ++
        (npWhere flags).map fun e => ((childStarts (geo.tess g) flags).getD e 0, geo.tn g e)) <;> rfl

theorem refineGroups_map {geo : Geo N P} {geo' : Geo N' P'} {φ : N → N'} {ψ : P → P'} (h : GeoNat geo geo' φ ψ)
    (nv : Nat) (gs : List (ElGroup N × List Bool)) (hf : ∀ p ∈ gs, p.2.length ≤ p.1.nelements)
    (table : List ((Nat × Nat) × Nat)) (added : List P) :
    refineGroups geo' nv (gs.map fun p => (p.1.mapNodes φ, p.2)) table (added.map ψ) =
      (refineGroups geo nv gs table added).map fun r => (r.1.map (ElGroup.mapNodes φ), r.2.1, r.2.2.map ψ) := by
  induction gs generalizing table added with
  | nil => rfl
  | cons p gs ih =>
    obtain ⟨g, flags⟩ := p
    simp only [List.map_cons, refineGroups]
    rw [refineGroup_map h nv g flags (hf (g, flags) (by simp))]
    cases refineGroup (geo.tess g) (geo.tn g) (geo.pt g) nv g flags table added with
    | none => rfl
    | some q =>
      simp only [Option.map_some, RState.mapPts]
      rw [ih fun p hp => hf p (by simp [hp])]
      cases refineGroups geo nv gs q.2.table q.2.added <;> rfl

theorem refineFlags_map (φ : N → N') (gs : List (ElGroup N)) (flags : List Bool) :
    refineFlags (gs.map (ElGroup.mapNodes φ)) flags = refineFlags gs flags := by
  unfold refineFlags
  rw [mapNodes_sizes, List.zip_map_left, List.map_map]
  congr 1
  funext p
  simp [mapNodes_nelements]

theorem refine_map {geo : Geo N P} {geo' : Geo N' P'} {φ : N → N'} {ψ : P → P'} (h : GeoNat geo geo' φ ψ)
    (r : Refiner N P) (flags : List Bool) :
    (r.transport φ ψ).refine geo' flags = (r.refine geo flags).map (Refiner.transport φ ψ) := by
  unfold Refiner.refine
  simp only [Refiner.transport, mapNodes_sizes, refineFlags_map, List.length_map, List.zip_map_left]
  split
  · rfl
  have hf : ∀ p ∈ r.groups.zip (refineFlags r.groups flags), p.2.length ≤ p.1.nelements := by
    intro p hp
    obtain ⟨i, hi⟩ := List.mem_iff_getElem?.1 hp
    obtain ⟨h1, h2⟩ := List.getElem?_zip_eq_some (z := (p.1, p.2)) |>.1 hi
    rw [refineFlags, List.getElem?_map, Option.map_eq_some_iff] at h2
    obtain ⟨q, hq, h2⟩ := h2
    obtain ⟨h3, -⟩ := List.getElem?_zip_eq_some (z := (q.1, q.2)) |>.1 hq
    rw [h1, Option.some.injEq] at h3
    rw [← h2, h3]
    exact List.length_take_le _ _
  have := refineGroups_map h r.vertices.length _ hf r.table []
  rw [List.map_nil] at this
  change (match refineGroups geo' r.vertices.length ((r.groups.zip (refineFlags r.groups flags)).map
    fun p => (p.1.mapNodes φ, p.2)) r.table [] with
    | none => none
    | some (gs, table, added) => _) = _
  rw [this]
  cases refineGroups geo r.vertices.length (r.groups.zip (refineFlags r.groups flags)) r.table [] with
  | none => rfl
  | some q =>
    simp only [Option.map_some, List.map_map, Option.some.injEq]
    congr 1
    · exact List.map_append.symm
    refine List.map_congr_left fun p _ => ?_
    simp [h.tess]

theorem run_map {geo : Geo N P} {geo' : Geo N' P'} {φ : N → N'} {ψ : P → P'} (h : GeoNat geo geo' φ ψ)
    (fs : List (List Bool)) (r : Refiner N P) :
    (r.transport φ ψ).run geo' fs = (r.run geo fs).map (Refiner.transport φ ψ) := by
  induction fs generalizing r with
  | nil => rfl
  | cons f fs ih =>
    simp only [Refiner.run, refine_map h]
    cases r.refine geo f with
    | none => rfl
    | some r' => exact ih r'

theorem refineTimes_map {geo : Geo N P} {geo' : Geo N' P'} {φ : N → N'} {ψ : P → P'} (h : GeoNat geo geo' φ ψ)
    (k : Nat) (r : Refiner N P) :
    (r.transport φ ψ).refineTimes geo' k = (r.refineTimes geo k).map (Refiner.transport φ ψ) := by
  induction k generalizing r with
  | zero => rfl
  | succ k ih =>
    simp only [Refiner.refineTimes, Refiner.refineAll]
    rw [show ((r.transport φ ψ).groups.map ElGroup.nelements) = r.groups.map ElGroup.nelements from mapNodes_sizes φ _,
      refine_map h]
    cases r.refine geo (List.replicate (r.groups.map ElGroup.nelements).sum true) with
    | none => rfl
    | some r' => exact ih r'

end natural

section typed
variable {K : Type} [Field K] {d n : Nat}

/-- The coordinates of a point. (Specification or proof vocabulary, no code.) -/
def coordList (x : Fin d → K) : List K := (List.finRange d).map x

/-- The nodes of an element for one coordinate after the other. (Specification or proof vocabulary, no code.) -/
def nodeCoords (x : List (Fin d → K)) : List (List K) := (List.finRange d).map fun c => x.map (· c)

/-- Entry `j` of the product of a matrix and the values `x`. (Specification or proof vocabulary, no code.) -/
def matEntry (M : Mat K) (x : Fin n → K) (j : Nat) : K := (matVec M ((List.finRange n).map x)).getD j 0

/-- The geometry for elements with `n` nodes. (Specification or proof vocabulary, no code.) -/
def typedGeo (t : Tess) (Mm Mc : Mat K) (nch n d : Nat) : Geo (Fin n → Fin d → K) (Fin d → K) where
  tess _ := t
  tn g e := (g.nodes[e]?).elim [] fun x => (List.range nch).map fun j i c => matEntry Mc (fun k => x k c) (j * n + i)
  pt g e im := (g.nodes[e]?).elim 0 fun x c => matEntry Mm (fun k => x k c) im

theorem typed_lists (t : Tess) (Mm Mc : Mat K) (nch : Nat) (hc : Mc.length = nch * n) :
    GeoNat (typedGeo t Mm Mc nch n d) ⟨fun _ => t,
      fun g e => elementChildren Mc nch n ((g.nodes[e]?).getD []),
      fun g e im => elementMidpoint Mm ((g.nodes[e]?).getD []) im⟩
      (fun x => nodeCoords (List.ofFn x)) coordList := by
  refine ⟨fun _ => rfl, fun g e he => ?_, fun g e im he _ => ?_⟩
  · have hx := List.getElem?_eq_getElem (l := g.nodes) (i := e) he
    generalize g.nodes[e] = x at hx
    simp only [ElGroup.mapNodes, List.getElem?_map, hx, typedGeo, Option.map_some, Option.getD_some, Option.elim_some,
      elementChildren, List.map_map]
    refine List.map_congr_left fun j hj => ?_
    rw [List.mem_range] at hj
    simp only [Function.comp_apply, nodeCoords, List.map_map]
    refine List.map_congr_left fun c _ => ?_
    apply List.ext_getElem?
    intro i
    have h1 : j * n + n ≤ nch * n := by
      calc j * n + n = (j + 1) * n := by ring
        _ ≤ nch * n := Nat.mul_le_mul_right n hj
    by_cases hi : i < n
    · have h3 : j * n + i < Mc.length := by omega
      simp only [Function.comp_apply, List.getElem?_take_of_lt hi, List.getElem?_drop, List.getElem?_map,
        List.getElem?_ofFn, hi, dif_pos, Option.map_some, matVec, List.getElem?_eq_getElem h3]
      simp [matEntry, matVec, h3, List.ofFn_eq_map, List.map_map, Function.comp_def]
    · rw [List.getElem?_eq_none, List.getElem?_eq_none]
      · simp; omega
      · simp; omega
  · have hx := List.getElem?_eq_getElem (l := g.nodes) (i := e) he
    generalize g.nodes[e] = x at hx
    simp only [ElGroup.mapNodes, List.getElem?_map, hx, typedGeo, Option.map_some, Option.getD_some, Option.elim_some,
      elementMidpoint, nodeCoords, coordList, List.map_map]
    refine List.map_congr_left fun c _ => ?_
    simp [matEntry, List.ofFn_eq_map, List.map_map, Function.comp_def]

/-- Each row of the matrix sums to one. (Specification or proof vocabulary, no code.) -/
def RowSums (n : Nat) (M : Mat K) : Prop := ∀ row ∈ M, rowDot row (List.replicate n 1) = 1

theorem rowDot_affine (row : List K) {ι : Type} (s : Finset ι) (a : ι → K) (x : ι → Fin n → K) (b : K) :
    rowDot row ((List.finRange n).map fun k => (∑ i ∈ s, a i * x i k) + b) =
      (∑ i ∈ s, a i * rowDot row ((List.finRange n).map (x i))) + b * rowDot row (List.replicate n 1) := by
  have key : ∀ (row : List K) (l : List (Fin n)), rowDot row (l.map fun k => (∑ i ∈ s, a i * x i k) + b) =
      (∑ i ∈ s, a i * rowDot row (l.map (x i))) + b * rowDot row (l.map fun _ => 1) := by
    intro row
    induction row with
    | nil => intro l; simp [rowDot]
    | cons r row ih =>
      intro l
      cases l with
      | nil => simp [rowDot]
      | cons k l =>
        have := ih l
        simp only [rowDot, List.map_cons, List.zipWith_cons_cons, List.sum_cons] at this ⊢
        rw [this]
        simp only [mul_add, Finset.sum_add_distrib, Finset.mul_sum]
        simp only [mul_left_comm r]
        ring
  rw [key]
  simp

theorem apply_sum (f : AffMap d K) : ∃ (A : Fin d → Fin d → K) (b : Fin d → K), ∀ x c,
    f.apply x c = (∑ c', A c c' * x c') + b c := by
  obtain ⟨A, b⟩ := f
  have h1 : ∀ (x : Fin d → K) (c : Fin d), (∑ c', (1 : Matrix (Fin d) (Fin d) K) c c' * x c') = x c := by
    intro x c
    simp [Matrix.one_apply]
  cases A with
  | none =>
    cases b with
    | none => exact ⟨(1 : Matrix (Fin d) (Fin d) K), 0, fun x c => by rw [h1]; simp [AffMap.apply]⟩
    | some b => exact ⟨(1 : Matrix (Fin d) (Fin d) K), b, fun x c => by rw [h1]; simp [AffMap.apply]⟩
  | some A =>
    cases b with
    | none => exact ⟨A, 0, fun x c => by simp [AffMap.apply, Matrix.mulVec, dotProduct]⟩
    | some b => exact ⟨A, b, fun x c => by simp [AffMap.apply, Matrix.mulVec, dotProduct]⟩

theorem matEntry_affine {M : Mat K} (hM : RowSums n M) (f : AffMap d K) (x : Fin n → Fin d → K) {j : Nat}
    (hj : j < M.length) (c : Fin d) :
    matEntry M (fun k => f.apply (x k) c) j = f.apply (fun c => matEntry M (fun k => x k c) j) c := by
  obtain ⟨A, b, hf⟩ := apply_sum f
  have : ∀ y : Fin n → K, matEntry M y j = rowDot M[j] ((List.finRange n).map y) := by
    intro y
    simp [matEntry, matVec, hj]
  simp only [this, hf, rowDot_affine, hM _ (List.getElem_mem hj), mul_one]

theorem typed_affine {t : Tess} {Mm Mc : Mat K} {nch : Nat} (hc : Mc.length = nch * n) (hm : Mm.length = t.midPairs.length)
    (sm : RowSums n Mm) (sc : RowSums n Mc) (f : AffMap d K) :
    GeoNat (typedGeo t Mm Mc nch n d) (typedGeo t Mm Mc nch n d) (fun x k => f.apply (x k)) f.apply := by
  refine ⟨fun _ => rfl, fun g e he => ?_, fun g e im he him => ?_⟩
  · have hx := List.getElem?_eq_getElem (l := g.nodes) (i := e) he
    generalize g.nodes[e] = x at hx
    simp only [ElGroup.mapNodes, List.getElem?_map, hx, typedGeo, Option.map_some, Option.elim_some, List.map_map]
    refine List.map_congr_left fun j hj => ?_
    rw [List.mem_range] at hj
    funext i c
    have h1 : j * n + n ≤ nch * n := by
      calc j * n + n = (j + 1) * n := by ring
        _ ≤ nch * n := Nat.mul_le_mul_right n hj
    exact matEntry_affine sc f x (by omega) c
  · have hx := List.getElem?_eq_getElem (l := g.nodes) (i := e) he
    generalize g.nodes[e] = x at hx
    simp only [ElGroup.mapNodes, List.getElem?_map, hx, typedGeo, Option.map_some, Option.elim_some]
    funext c
    exact matEntry_affine sm f x (hm ▸ him) c

theorem rowSums_of_sound {resample : List (List K → K) → List (List K) → List (List K) → Option (Mat K)}
    (hr : ResampleSound resample) {meg : SGroup K (List K)} (hl : meg.basis.length = meg.nodes.length)
    (h1 : ∃ c : List K, c.length = meg.basis.length ∧ ∀ x, evalAt meg.basis c x = 1) {new : List (List K)} {M : Mat K}
    (hM : resample meg.basis new meg.nodes = some M) : RowSums meg.nodes.length M := by
  obtain ⟨c, hc, hone⟩ := h1
  obtain ⟨s1, s2, s3, s4⟩ := hr _ _ _ _ hl hM
  obtain ⟨c', hc', e1, e2⟩ := s3 (List.replicate meg.nodes.length 1) (by simp)
  have : c = c' := by
    refine s4 c c' hc hc' ?_
    rw [e1, List.map_congr_left fun x _ => hone x, List.map_const']
  subst this
  intro row hrow
  obtain ⟨i, hi, rfl⟩ := List.getElem_of_mem hrow
  have h2 := congrArg (·[i]?) e2
  simp only [matVec, List.getElem?_map, List.getElem?_eq_getElem hi, Option.map_some] at h2
  rw [List.getElem?_eq_getElem (s1 ▸ hi), Option.map_some, Option.some.injEq, hone] at h2
  exact h2

theorem flatten_length_const {α : Type} (l : List (List α)) (n : Nat) (h : ∀ x ∈ l, x.length = n) :
    l.flatten.length = l.length * n := by
  induction l with
  | nil => simp
  | cons x l ih =>
    rw [List.flatten_cons, List.length_append, h x (by simp), ih fun y hy => h y (by simp [hy]), List.length_cons]
    ring

/-- Facts about the geometry of the refiner. -/
theorem polyGeo_typed {resample : List (List K → K) → List (List K) → List (List K) → Option (Mat K)}
    (hr : ResampleSound resample) {meg : SGroup K (List K)} (hl : meg.basis.length = meg.nodes.length)
    (h1 : ∃ c : List K, c.length = meg.basis.length ∧ ∀ x, evalAt meg.basis c x = 1)
    {sh : ChildShape} {ref1 ref2 children : List (List Nat)} {geo : Geo (List (List K)) (List K)}
    (hgeo : polyGeo resample meg sh ref1 ref2 children = some geo) (d : Nat) :
    ∃ geoT : Geo (Fin meg.nodes.length → Fin d → K) (Fin d → K),
      GeoNat geoT geo (fun x => nodeCoords (List.ofFn x)) coordList ∧
      ∀ f : AffMap d K, GeoNat geoT geoT (fun x k => f.apply (x k)) f.apply := by
  obtain ⟨t, mapped, Mm, Mc, ht, hm, hMm, hMc, rfl⟩ := polyGeo_spec hgeo
  have e1 : Mc.length = mapped.length * meg.nodes.length := by
    rw [(hr _ _ _ _ hl hMc).1]
    apply flatten_length_const
    intro us hus
    obtain ⟨j, hj⟩ := List.mem_iff_getElem?.1 hus
    have hjc : j < children.length := (mapNodes_ok hm).1 ▸ (List.getElem?_eq_some_iff.1 hj).1
    obtain ⟨us', h2, h3⟩ := (mapNodes_ok hm).2 j _ (List.getElem?_eq_getElem hjc)
    rw [hj] at h2
    cases h2
    exact childNodes_length h3
  have e2 : Mm.length = t.midPairs.length := by
    rw [(hr _ _ _ _ hl hMm).1, List.length_map, (tessInfo_spec ht).2.2.2.2.1]
  exact ⟨_, typed_lists t Mm Mc mapped.length e1, typed_affine e1 e2 (rowSums_of_sound hr hl h1 hMm)
    (rowSums_of_sound hr hl h1 hMc)⟩

/-! ## Specification -/

/-- The refiner that is made for the mesh, whose vertices are `vs`. (Specification or proof vocabulary, no code.) -/
def refinerOf (m : PMesh d K) (vs : List (Fin d → K)) : Refiner (List (List K)) (List K) :=
  Refiner.init (vs.map coordList) (m.groups.map (ElGroup.mapNodes nodeCoords)) m.lazy.conforming

/-- The state of the refiner in which the current mesh is `u`, with vertices `vs`: all its adjacency is yet to be
computed, or disabled. (Specification or proof vocabulary, no code.) -/
def AtMesh (r : Refiner (List (List K)) (List K)) (u : PMesh d K) (vs : List (Fin d → K)) : Prop :=
  u.vertices = some vs ∧ r.vertices = vs.map coordList ∧ r.groups = u.groups.map (ElGroup.mapNodes nodeCoords) ∧
  u.lazy = LazyMesh.make completeFacial true r.conforming .missing .missing

/-! ## Properties -/

theorem typed_groups {n : Nat} (gs : List (ElGroup (List (Fin d → K)))) (h : ∀ g ∈ gs, ∀ x ∈ g.nodes, x.length = n) :
    ∃ ts : List (ElGroup (Fin n → Fin d → K)), gs = ts.map (ElGroup.mapNodes List.ofFn) := by
  have hl : ∀ l : List (List (Fin d → K)), (∀ x ∈ l, x.length = n) →
      ∃ l' : List (Fin n → Fin d → K), l = l'.map List.ofFn := by
    intro l hl
    refine ⟨l.map fun x i => x.getD i 0, ?_⟩
    rw [List.map_map]
    conv_lhs => rw [← List.map_id l]
    refine List.map_congr_left fun x hx => ?_
    have := hl x hx
    subst this
    apply List.ext_getElem
    · simp
    · intro i h1 h2
      simp
  induction gs with
  | nil => exact ⟨[], rfl⟩
  | cons g gs ih =>
    obtain ⟨ts, hts⟩ := ih fun g' hg' => h g' (by simp [hg'])
    obtain ⟨l', hl'⟩ := hl g.nodes (h g (by simp))
    refine ⟨⟨g.kind, g.fvi, g.vertexIndices, l'⟩ :: ts, ?_⟩
    rw [List.map_cons, hts]
    congr 1
    obtain ⟨a, b, c, nodes⟩ := g
    simp only at hl'
    subst hl'
    rfl

theorem mapNodes_comp {A B C : Type} (f : A → B) (g : B → C) (l : List (ElGroup A)) :
    (l.map (ElGroup.mapNodes f)).map (ElGroup.mapNodes g) = l.map (ElGroup.mapNodes fun x => g (f x)) := by
  rw [List.map_map]
  refine List.map_congr_left fun x _ => ?_
  simp [ElGroup.mapNodes, Function.comp_def]

/-- **C110**: refining a mesh again and again and then moving it by an affine map gives the same as moving it first:
refining fails for both or for none, the tables of midpoints and the records are the same, and the refined mesh is
moved.  It can itself be moved if it is conforming.  (`u` is the refined mesh; its facial adjacency has not been looked
at.)  Functions on elements are given by values at unit nodes and their space has the constant functions. -/
theorem C110_refine {resample : List (List K → K) → List (List K) → List (List K) → Option (Mat K)}
    (hr : ResampleSound resample) {meg : SGroup K (List K)} (hl : meg.basis.length = meg.nodes.length)
    (h1 : ∃ c : List K, c.length = meg.basis.length ∧ ∀ x, evalAt meg.basis c x = 1)
    {sh : ChildShape} {ref1 ref2 children : List (List Nat)} {geo : Geo (List (List K)) (List K)}
    (hgeo : polyGeo resample meg sh ref1 ref2 children = some geo) {f : AffMap d K} {m m' : PMesh d K}
    (hm : affineMapMesh f m = some m') {vs : List (Fin d → K)} (hv : m.vertices = some vs)
    (hn : ∀ g ∈ m.groups, ∀ x ∈ g.nodes, x.length = meg.nodes.length) (fs : List (List Bool)) :
    m'.vertices = some (vs.map f.apply) ∧
    ((refinerOf m' (vs.map f.apply)).run geo fs = none ↔ (refinerOf m vs).run geo fs = none) ∧
    ∀ r, (refinerOf m vs).run geo fs = some r → ∃ r' u us, AtMesh r u us ∧
      (refinerOf m' (vs.map f.apply)).run geo fs = some r' ∧ r'.table = r.table ∧ r'.records = r.records ∧
      ∃ u', AtMesh r' u' (us.map f.apply) ∧ affineMapMesh f u.fresh = some u'.fresh ∧
        (r.conforming = some true → affineMapMesh f u = some u') := by
  obtain ⟨geoT, g1, g2⟩ := polyGeo_typed hr hl h1 hgeo d
  have g2 := g2 f
  obtain ⟨ts, hts⟩ := typed_groups m.groups hn
  have hm' := (affine_cases f m).2 m' hm
  have e1 : refinerOf m vs = (Refiner.init vs ts m.lazy.conforming).transport
      (fun x => nodeCoords (List.ofFn x)) coordList := by
    simp only [refinerOf, Refiner.init, Refiner.transport, hts, mapNodes_comp]
  have e2 : refinerOf m' (vs.map f.apply) = ((Refiner.init vs ts m.lazy.conforming).transport
      (fun x k => f.apply (x k)) f.apply).transport (fun x => nodeCoords (List.ofFn x)) coordList := by
    rw [hm']
    simp only [refinerOf, Refiner.init, Refiner.transport, movePts, FMesh.transport, hts, mapNodes_comp]
    simp [List.ofFn_eq_map, Function.comp_def]
  rw [e1, e2, run_map g1, run_map g1, run_map g2]
  refine ⟨by rw [hm']; simp [movePts, FMesh.transport, hv], by simp, fun r h => ?_⟩
  obtain ⟨rT, hT, rfl⟩ := Option.map_eq_some_iff.1 h
  let u : PMesh d K := ⟨m.ambientDim, some rT.vertices, rT.groups.map (ElGroup.mapNodes List.ofFn),
    LazyMesh.make completeFacial true rT.conforming .missing .missing⟩
  let u' : PMesh d K := movePts f.apply (computeNewMap f) u
  have hul : u'.lazy = u.lazy := by
    by_cases hc : rT.conforming = some true <;> simp [u', u, FMesh.transport, LazyMesh.make, hc]
  refine ⟨(rT.transport (fun x k => f.apply (x k)) f.apply).transport (fun x => nodeCoords (List.ofFn x)) coordList,
    u, rT.vertices, ⟨rfl, rfl, ?_, rfl⟩, by rw [hT]; rfl, rfl, rfl, u', ⟨rfl, rfl, ?_, hul⟩, ?_, ?_⟩
  · simp only [Refiner.transport, u, mapNodes_comp]
  · simp only [Refiner.transport, u, u', FMesh.transport, mapNodes_comp]
    simp [List.ofFn_eq_map, Function.comp_def]
  · have h3 : affineMapMesh f u.fresh ≠ none := by
      rw [ne_eq, (affine_cases f u.fresh).1]
      simp [FMesh.fresh]
    obtain ⟨w, hw⟩ := Option.ne_none_iff_exists'.1 h3
    rw [hw, (affine_cases f u.fresh).2 w hw]
    rfl
  · intro hc
    have h3 : affineMapMesh f u ≠ none := by
      rw [ne_eq, (affine_cases f u).1]
      simp only [Refiner.transport] at hc
      simp [u, LazyMesh.make, hc]
    obtain ⟨w, hw⟩ := Option.ne_none_iff_exists'.1 h3
    rw [hw, (affine_cases f u).2 w hw]

/-- **C110**: a mesh that is refined in part of its elements only cannot be moved by `affine_map` afterwards. -/
theorem C110_refined_stuck {r : Refiner (List (List K)) (List K)} {u : PMesh d K} {us : List (Fin d → K)}
    (h : AtMesh r u us) (hc : r.conforming ≠ some true) (f : AffMap d K) (hf : f.matrix ≠ none ∨ f.offset ≠ none) :
    affineMapMesh f u = none ∧ ∀ g, mapMesh g u = .error .unavailable := by
  have h3 : u.lazy.facial = .disabled := by
    rw [h.2.2.2]
    simp [LazyMesh.make, hc]
  exact ⟨(affine_cases f u).1.2 ⟨h3, hf⟩, fun g => (C53_map_mesh g u).2.2.2 h3⟩

end typed

/-! ## Cases -/

/-- The two triangles of a square. (Example, no code.) -/
def exRefineMesh : PMesh 2 ℚ where
  ambientDim := 2
  vertices := some [![0, 0], ![2, 0], ![0, 2], ![2, 2]]
  groups := [⟨0, [[0, 1], [0, 2], [1, 2]], [[0, 1, 2], [3, 2, 1]],
    [[![0, 0], ![2, 0], ![0, 2]], [![2, 2], ![0, 2], ![2, 0]]]⟩]
  lazy := ⟨some true, .missing, .missing⟩

-- the hypotheses of `C110_refine` for linear triangles
example : triMeg.basis.length = triMeg.nodes.length ∧
    (∃ c : List ℚ, c.length = triMeg.basis.length ∧ ∀ x, evalAt triMeg.basis c x = 1) ∧
    (∃ geo, triGeo = some geo) ∧ (∃ m', affineMapMesh ⟨some !![0, 1; -1, 3], some ![5, 7]⟩ exRefineMesh = some m') ∧
    ∀ g ∈ exRefineMesh.groups, ∀ x ∈ g.nodes, x.length = triMeg.nodes.length := by
  refine ⟨rfl, ⟨[1, 1, 1], rfl, fun x => ?_⟩, ?_, ⟨_, rfl⟩, by simp [exRefineMesh, triMeg]⟩
  · simp [triMeg, evalAt]
    ring
  · rw [← Option.isSome_iff_exists]
    decide +kernel

-- uniform refinement, then one child
example : (triGeo.bind fun geo => ((refinerOf exRefineMesh [![0, 0], ![2, 0], ![0, 2], ![2, 2]]).run geo
      [[true, true], [false, true, false, false, true, false, false, false]]).map fun r => (r.vertices, r.conforming)) =
    some ([[0, 0], [2, 0], [0, 2], [2, 2], [1, 0], [0, 1], [1, 1], [1, 2], [2, 1],
      [3 / 2, 0], [1, 1 / 2], [3 / 2, 1 / 2], [3 / 2, 2], [2, 3 / 2], [3 / 2, 3 / 2]], some false) := by
  decide +kernel

end Meshmode
