import Verif.Connection.RefineConn

/-!
# Where the nodes of a refined mesh are (C64)

The resampling of the nodes of a mesh to children (meshmode/mesh/refinement/tessellate.py:222-249), the
nodes of a discretization (meshmode/discretization/__init__.py:580-638), and how the refinement connection
of C63 goes with them.

One element and one coordinate are looked at a time, arithmetic is exact and `mp.resampling_matrix` is a
parameter as for C62.  The memoized matrix and the cached nodes are computed anew.
-/
namespace Meshmode

open Finset

section
variable {K : Type} [Field K]

/-! ## Model -/

/-- `get_group_tessellated_nodes` for one element and one coordinate: the children's nodes,
meshmode/mesh/refinement/tessellate.py:222-249; `none` if the resampling matrix cannot be computed. -/
def tessellatedNodes (resample : List (List K → K) → List (List K) → List (List K) → Option (Mat K))
    (meg : SGroup K (List K)) (mapped : List (List (List K))) (v : List K) : Option (List (List K)) :=
  (resample meg.basis mapped.flatten meg.nodes).map fun M =>
    (List.range mapped.length).map fun j =>
      ((matVec M v).drop (j * meg.nodes.length)).take meg.nodes.length

/-- `resample_mesh_nodes` of `Discretization.nodes` for one element and one coordinate,
meshmode/discretization/__init__.py:602-631, with the matrix of
meshmode/discretization/poly_element.py:124-134. -/
def discrNodes [DecidableEq K]
    (resample : List (List K → K) → List (List K) → List (List K) → Option (Mat K))
    (meg : SGroup K (List K)) (unit : List (List K)) (v : List K) : Option (List K) :=
  if unit = meg.nodes then some v
  else (resample meg.basis unit meg.nodes).map fun M => matVec M v

/-! ## Specification -/

/-- The function with coefficients `a` has the listed values at the unit nodes.
(Specification or proof vocabulary, no code.) -/
def NodeValues (g : SGroup K (List K)) (a v : List K) : Prop :=
  a.length = g.basis.length ∧ v.length = g.nodes.length ∧
    ∀ (i : Nat) x, g.nodes[i]? = some x → v[i]? = some (evalAt g.basis a x)

/-- Composing with the map gives functions of the space again.
(Specification or proof vocabulary, no code.) -/
def ClosedUnder (g : SGroup K (List K)) (d : Nat) (T : List K → List K) : Prop :=
  ∀ a : List K, a.length = g.basis.length → ∃ b : List K, b.length = g.basis.length ∧
    ∀ x : List K, x.length = d → evalAt g.basis b x = evalAt g.basis a (T x)

/-! ## Lemmas -/

theorem resample_values {resample : List (List K → K) → List (List K) → List (List K) → Option (Mat K)}
    (hr : ResampleSound resample) {g : SGroup K (List K)} (hl : g.basis.length = g.nodes.length)
    {new : List (List K)} {M : Mat K} (hM : resample g.basis new g.nodes = some M) {a v : List K}
    (hv : NodeValues g a v) : matVec M v = new.map (evalAt g.basis a) := by
  obtain ⟨_, _, h3, h4⟩ := hr _ _ _ _ hl hM
  obtain ⟨c, hc, hc1, hc2⟩ := h3 v hv.2.1
  have hva : g.nodes.map (evalAt g.basis a) = v := by
    apply List.ext_getElem?
    intro i
    rw [List.getElem?_map]
    by_cases hi : i < g.nodes.length
    · rw [hv.2.2 i _ (List.getElem?_eq_getElem hi), List.getElem?_eq_getElem hi, Option.map_some]
    · rw [List.getElem?_eq_none (by omega), List.getElem?_eq_none (by rw [hv.2.1]; omega), Option.map_none]
  rw [hc2, h4 c a hc hv.1 (by rw [hc1, hva])]

omit [Field K] in
theorem flatten_drop_take {α : Type} {L : List (List α)} {n : Nat} (h : ∀ l ∈ L, l.length = n) {j : Nat}
    {l : List α} (hj : L[j]? = some l) : (L.flatten.drop (j * n)).take n = l := by
  induction L generalizing j with
  | nil => simp at hj
  | cons a L ih =>
    have ha : a.length = n := h a (by simp)
    cases j with
    | zero =>
      simp only [List.getElem?_cons_zero, Option.some.injEq] at hj
      subst hj
      simp [← ha]
    | succ j =>
      simp only [List.getElem?_cons_succ] at hj
      rw [List.flatten_cons, Nat.succ_mul, Nat.add_comm, ← ha, List.drop_append]
      simp only [Nat.add_sub_cancel_left]
      rw [List.drop_eq_nil_of_le (by omega), List.nil_append, ha]
      exact ih (fun l hl => h l (by simp [hl])) hj

/-! ## Properties -/

/-- C64: the nodes of the `j`-th child of an element are the points of the element over the images of the
unit nodes in the `j`-th part of the reference element. -/
theorem C64_child_nodes [CharZero K]
    {resample : List (List K → K) → List (List K) → List (List K) → Option (Mat K)}
    (hr : ResampleSound resample) {meg : SGroup K (List K)} (hl : meg.basis.length = meg.nodes.length)
    {sh : ChildShape} {refVerts : List (List Nat)} {d : Nat} (hd : ∀ v ∈ refVerts, v.length = d)
    {children : List (List Nat)} {mapped : List (List (List K))}
    (hm : mapNodesToChildren sh refVerts meg.nodes children = .ok mapped) {a v : List K}
    (hv : NodeValues meg a v) {ch : List (List K)} (h : tessellatedNodes resample meg mapped v = some ch) :
    ch.length = children.length ∧ ∀ (j : Nat) child, children[j]? = some child →
      ∃ origin axs T w, ChildCorners sh refVerts child origin axs ∧ ChildMap (K := K) origin axs T ∧
        (∀ x ∈ meg.nodes, x.length = axs.length) ∧ ch[j]? = some w ∧ w.length = meg.nodes.length ∧
        ∀ (i : Nat) x, meg.nodes[i]? = some x → w[i]? = some (evalAt meg.basis a (T x)) := by
  unfold tessellatedNodes at h
  obtain ⟨M, hM, rfl⟩ := Option.map_eq_some_iff.1 h
  have hval := resample_values hr hl hM hv
  obtain ⟨hml, hmc⟩ := mapNodes_ok hm
  refine ⟨by simp [hml], ?_⟩
  intro j child hj
  obtain ⟨us, hus, hcn⟩ := hmc j child hj
  obtain ⟨origin, axs, hcor, hxl, hT, rfl⟩ := childNodes_ok hd hcn
  have hjl := (List.getElem?_eq_some_iff.1 hus).1
  refine ⟨origin, axs, _, (meg.nodes.map (childPoint origin axs)).map (evalAt meg.basis a), hcor, hT, hxl,
    ?_, by simp, ?_⟩
  · rw [List.getElem?_map, List.getElem?_range hjl, Option.map_some, hval, List.map_flatten]
    congr 1
    refine flatten_drop_take (n := meg.nodes.length) ?_ (by rw [List.getElem?_map, hus]; rfl)
    intro l hl'
    obtain ⟨u, hu, rfl⟩ := List.mem_map.1 hl'
    obtain ⟨k, hk⟩ := List.mem_iff_getElem?.1 hu
    have hkl := (List.getElem?_eq_some_iff.1 hk).1
    obtain ⟨us', h1, h2⟩ := hmc k _ (List.getElem?_eq_getElem (by omega))
    rw [hk] at h1
    cases h1
    rw [List.length_map, childNodes_length h2]
  · intro i x hx
    rw [List.getElem?_map, List.getElem?_map, hx]
    rfl

variable [DecidableEq K]

/-- C64: the nodes of a discretization are the points of the elements over its unit nodes. -/
theorem C64_discr_nodes {resample : List (List K → K) → List (List K) → List (List K) → Option (Mat K)}
    (hr : ResampleSound resample) {meg : SGroup K (List K)} (hl : meg.basis.length = meg.nodes.length)
    {unit : List (List K)} {a v w : List K} (hv : NodeValues meg a v)
    (h : discrNodes resample meg unit v = some w) : w.length = unit.length ∧
      ∀ (i : Nat) x, unit[i]? = some x → w[i]? = some (evalAt meg.basis a x) := by
  unfold discrNodes at h
  split at h
  · rename_i he
    simp only [Option.some.injEq] at h
    subst h he
    exact hv.2
  · obtain ⟨M, hM, rfl⟩ := Option.map_eq_some_iff.1 h
    rw [resample_values hr hl hM hv]
    refine ⟨by simp, ?_⟩
    intro i x hx
    rw [List.getElem?_map, hx]
    rfl

/-- C64: a refined element covers its part of the parent: each point of the `j`-th child is the point of
the parent over the image of its place in the reference element; in particular the nodes of any
discretization of the refined mesh are. -/
theorem C64_same_surface [CharZero K]
    {resample : List (List K → K) → List (List K) → List (List K) → Option (Mat K)}
    (hr : ResampleSound resample) {meg : SGroup K (List K)} (hl : meg.basis.length = meg.nodes.length)
    {sh : ChildShape} {refVerts : List (List Nat)} {d : Nat} (hd : ∀ v ∈ refVerts, v.length = d)
    {children : List (List Nat)} {mapped : List (List (List K))}
    (hm : mapNodesToChildren sh refVerts meg.nodes children = .ok mapped) {a v : List K}
    (hv : NodeValues meg a v) {ch : List (List K)} (h : tessellatedNodes resample meg mapped v = some ch)
    {j : Nat} {child origin : List Nat} {axs : List (List Nat)} {T : List K → List K}
    (hj : children[j]? = some child) (hcor : ChildCorners sh refVerts child origin axs)
    (hT : ChildMap (K := K) origin axs T) (hcl : ClosedUnder meg axs.length T) :
    ∃ w b, ch[j]? = some w ∧ NodeValues meg b w ∧
      (∀ x : List K, x.length = axs.length → evalAt meg.basis b x = evalAt meg.basis a (T x)) ∧
      ∀ unit y, (∀ x ∈ unit, x.length = axs.length) → discrNodes resample meg unit w = some y →
        ∀ (i : Nat) x, unit[i]? = some x → y[i]? = some (evalAt meg.basis a (T x)) := by
  obtain ⟨_, h2⟩ := C64_child_nodes hr hl hd hm hv h
  obtain ⟨origin', axs', T', w, hcor', hT', hxl, hw, hwl, hval⟩ := h2 j child hj
  obtain ⟨rfl, rfl⟩ := hcor.unique hcor'
  obtain ⟨b, hb, hba⟩ := hcl a hv.1
  have hbw : NodeValues meg b w := by
    refine ⟨hb, hwl, ?_⟩
    intro i x hx
    have hxa := hxl x (List.mem_of_getElem? hx)
    rw [hval i x hx, hba x hxa, C63_map_unique hT hT' hxa]
  refine ⟨w, b, hw, hbw, hba, ?_⟩
  intro unit y hu hy i x hx
  rw [(C64_discr_nodes hr hl hbw hy).2 i x hx, hba x (hu x (List.mem_of_getElem? hx))]

/-- C64: the refinement connection takes values from the same place: the value at a node of a child is that
of the coarse function over a point of the reference element of the parent, and the point of the parent
there (`A q` are the coefficients of coordinate `q`) is the node. -/
theorem C64_same_point [CharZero K] {find : List (List K) → List (List K) → List (Option Nat)}
    {resample : List (List K → K) → List (List K) → List (List K) → Option (Mat K)}
    (hf : FindSound find) (hr : ResampleSound resample) {sameMesh : Bool}
    {coarse F T : List (SGroup K (List K))} {fine : List (SGroup K (List K) × ChildShape)}
    {records : List RefRecord} {gs : List (List (Batch (List (List K))))} {s : Bool}
    (hmake : makeRefinementConn sameMesh coarse fine records = .ok (.direct F T gs s)) {merge : Bool}
    {ary u : DofArr K} (hc : (SameConn.direct F T gs s).call find resample merge ary = .ok u) {t : Nat}
    {g tg : SGroup K (List K)} {sh : ChildShape} {r : RefRecord} (hg : coarse[t]? = some g)
    (htg : fine[t]? = some (tg, sh)) (hrec : records[t]? = some r)
    (hx : ExactMapping r.mapping g.nel tg.nel) {d : Nat} (hd : ∀ v ∈ r.refVerts, v.length = d) {e : Nat}
    {cs : List Nat} (he : r.mapping[e]? = some cs) {a : List K} (hv : HasValues g a (ary t e))
    (hcs : cs.length ≠ 1) {j k : Nat} {child : List Nat} (hk : cs[j]? = some k)
    (hj : r.children[j]? = some child)
    {meg : SGroup K (List K)} (hl : meg.basis.length = meg.nodes.length) {mapped : List (List (List K))}
    (hm : mapNodesToChildren sh r.refVerts meg.nodes r.children = .ok mapped) {A V : Nat → List K}
    (hA : ∀ q, NodeValues meg (A q) (V q)) {CH : Nat → List (List K)}
    (hCH : ∀ q, tessellatedNodes resample meg mapped (V q) = some (CH q))
    (hcl : ∀ origin axs T', ChildCorners sh r.refVerts child origin axs → ChildMap (K := K) origin axs T' →
      ClosedUnder meg axs.length T') {i : Nat} {x : List K} (hi : tg.nodes[i]? = some x) :
    ∃ p, u t k i = evalAt g.basis a p ∧ ∀ q, ∃ w, (CH q)[j]? = some w ∧
      ∀ y, discrNodes resample meg tg.nodes w = some y → y[i]? = some (evalAt meg.basis (A q) p) := by
  obtain ⟨_, h2⟩ := (C63_exact hf hr hmake hc hg htg hrec hx hd he hv).2 hcs
  obtain ⟨origin, axs, T', hcor, hT, hval⟩ := h2 j k child hk hj
  refine ⟨T' x, (hval i x hi).2, ?_⟩
  intro q
  obtain ⟨w, b, hw, _, _, hy⟩ := C64_same_surface hr hl hd hm (hA q) (hCH q) hj hcor hT
    (hcl origin axs T' hcor hT)
  refine ⟨w, hw, fun y hy' => hy tg.nodes y ?_ hy' i x hi⟩
  intro x' hx'
  obtain ⟨i', hi'⟩ := List.mem_iff_getElem?.1 hx'
  exact (hval i' x' hi').1

end

/-! ## A case -/

/-- Quadratic functions on a line. (Example, no code.) -/
def quadMeg : SGroup ℚ (List ℚ) :=
  ⟨true, 1, [[-1], [0], [1]], [fun x => x.headD 0 * (x.headD 0 - 1) / 2,
    fun x => 1 - x.headD 0 * x.headD 0, fun x => x.headD 0 * (x.headD 0 + 1) / 2]⟩

-- an element on a parabola: the coordinates of the nodes of both children are on it
example : tessellatedNodes lagrangeResample quadMeg [[[-1], [-1 / 2], [0]], [[0], [1 / 2], [1]]] [4, 0, 4] =
      some [[4, 1, 0], [0, 1, 4]] ∧
    mapNodesToChildren (K := ℚ) .simplex [[0], [1], [2]] quadMeg.nodes [[0, 1], [1, 2]] =
      .ok [[[-1], [-1 / 2], [0]], [[0], [1 / 2], [1]]] := by
  decide +kernel

-- the nodes of a discretization of the first child
example : discrNodes lagrangeResample quadMeg [[-1 / 2], [1 / 2]] [4, 1, 0] = some [9 / 4, 1 / 4] := by
  decide +kernel

-- the hypotheses of `C64_same_surface`
example : NodeValues quadMeg [4, 0, 4] [4, 0, 4] ∧ quadMeg.basis.length = quadMeg.nodes.length ∧
    ChildCorners .simplex [[0], [1], [2]] [1, 2] [1] [[2]] ∧
    ∀ T, ChildMap (K := ℚ) [1] [[2]] T → ClosedUnder quadMeg 1 T := by
  refine ⟨⟨rfl, rfl, ?_⟩, rfl, ⟨⟨1, rfl, rfl⟩, rfl, ?_⟩, ?_⟩
  · intro i x hx
    match i with
    | 0 =>
      simp only [quadMeg, List.getElem?_cons_zero, Option.some.injEq] at hx
      subst hx
      decide +kernel
    | 1 =>
      simp only [quadMeg, List.getElem?_cons_succ, List.getElem?_cons_zero, Option.some.injEq] at hx
      subst hx
      decide +kernel
    | 2 =>
      simp only [quadMeg, List.getElem?_cons_succ, List.getElem?_cons_zero, Option.some.injEq] at hx
      subst hx
      decide +kernel
    | i + 3 => simp [quadMeg] at hx
  · intro j v hv
    match j with
    | 0 => exact ⟨2, rfl, by simpa using hv⟩
    | j + 1 => simp at hv
  · intro T hT a ha
    match a, ha with
    | [p, q, r], _ =>
      refine ⟨[q, -1 / 8 * p + 3 / 4 * q + 3 / 8 * r, r], rfl, ?_⟩
      intro x hx
      obtain ⟨z, rfl⟩ := List.length_eq_one_iff.1 hx
      rw [C63_map_unique hT (childPoint_spec (by simp)) (by simp)]
      simp [childPoint, quadMeg, evalAt]
      ring

end Meshmode
