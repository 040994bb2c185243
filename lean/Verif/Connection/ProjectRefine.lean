import Verif.Connection.Projection
import Verif.Connection.RefineGeo
import Mathlib.MeasureTheory.Function.Jacobian
import Mathlib.MeasureTheory.Integral.IntervalIntegral.FundThmCalculus
import Mathlib.MeasureTheory.Measure.Lebesgue.VolumeOfBalls
import Mathlib.LinearAlgebra.Matrix.ToLin
import Mathlib.Topology.Algebra.Module.FiniteDimension

/-!
# Projecting back from a refined mesh (C121)

`L2ProjectionInverseDiscretizationConnection` (meshmode/discretization/connection/projection.py:47-266) of
the connection made by `make_refinement_connection`, with the weights of `_batch_weights`, the tabulated
basis functions and the Vandermonde matrices written out.  `mp.diff_matrices` and the quadrature weights are
data of the groups.  Integrals are those of Lebesgue measure over the reference element.
-/
namespace Meshmode

open Finset MeasureTheory

/-! ## Model -/

/-- What the projection takes from an element group besides nodes and basis: dimension, `mp.diff_matrices`
(meshmode/discretization/connection/projection.py:120) and the weights of `quadrature_rule()` (128). -/
structure L2Data where
  dim : Nat
  diff : Nat → Mat ℝ
  weights : List ℝ

/-- `matrices[iaxis] @ batch.result_unit_nodes.T` at a node and in one coordinate,
meshmode/discretization/connection/projection.py:124. -/
def batchJac (dt : L2Data) (u : List (List ℝ)) (q a b : Nat) : ℝ :=
  ∑ j ∈ range u.length, (((dt.diff a).getD q []).getD j 0) * ((u.getD j []).getD b 0)

/-- A weight of `_batch_weights`, meshmode/discretization/connection/projection.py:90-130; the absolute value
of the outer product of `dim` vectors is that of their determinant. -/
noncomputable def batchWeight (dt : L2Data) (u : List (List ℝ)) (q : Nat) : ℝ :=
  |(Matrix.of fun a b : Fin dt.dim => batchJac dt u q a b).det| * dt.weights.getD q 0

/-- The numbers which enter the projection, meshmode/discretization/connection/projection.py:120-128, 217-222,
244-253: `coarse` and `fine` are the groups of the two discretizations. -/
noncomputable def l2OpsOf (coarse fine : List (SGroup ℝ (List ℝ))) (data : List L2Data) :
    L2Ops ℝ (List (List ℝ)) where
  tab := fun s u ib q => match fine[s]? with
    | some g => (g.basis.getD ib fun _ => 0) (u.getD q [])
    | none => 0
  wgt := fun g u q => match data[g]? with
    | some dt => batchWeight dt u q
    | none => 0
  vdm := fun g i ib => match coarse[g]? with
    | some g => (g.basis.getD ib fun _ => 0) (g.nodes.getD i [])
    | none => 0

/-! ## Specification -/

section
variable {d : Nat}

/-- An affine map of the reference space. (Specification or proof vocabulary, no code.) -/
structure UnitMap (d : Nat) where
  lin : Matrix (Fin d) (Fin d) ℝ
  off : Fin d → ℝ

/-- Its value. (Specification or proof vocabulary, no code.) -/
def UnitMap.at (m : UnitMap d) (y : Fin d → ℝ) : Fin d → ℝ := m.lin.mulVec y + m.off

/-- The identity. (Specification or proof vocabulary, no code.) -/
def UnitMap.id (d : Nat) : UnitMap d := ⟨1, 0⟩

/-- The map takes the corner `(-1, ..., -1)` to `origin - 1` and the ends of the edges there to `axs - 1`.
(Specification or proof vocabulary, no code.) -/
structure MapsOnto (origin : List Nat) (axs : List (List Nat)) (m : UnitMap d) : Prop where
  corner : ∀ i : Fin d, m.at (fun _ => -1) i = ((origin.getD i 0 : Nat) : ℝ) - 1
  edge : ∀ j i : Fin d, m.at (Function.update (fun _ => -1) j 1) i = (((axs.getD j []).getD i 0 : Nat) : ℝ) - 1

/-- The maps onto the children of a tessellation, in order. (Specification or proof vocabulary, no code.) -/
def ChildMaps (sh : ChildShape) (refVerts : List (List Nat)) (children : List (List Nat))
    (maps : List (UnitMap d)) : Prop :=
  maps.length = children.length ∧ ∀ (j : Nat) child m, children[j]? = some child → maps[j]? = some m →
    ∃ origin axs, ChildCorners sh refVerts child origin axs ∧ MapsOnto origin axs m

/-- The images of `S` cover `S` and do not overlap. (Specification or proof vocabulary, no code.) -/
structure Tiles (S : Set (Fin d → ℝ)) (maps : List (UnitMap d)) : Prop where
  nondeg : ∀ m ∈ maps, m.lin.det ≠ 0
  cover : S = ⋃ m ∈ maps, m.at '' S
  apart : maps.Pairwise fun m m' => volume (m.at '' S ∩ m'.at '' S) = 0

/-- The parts of an element with the given children: it stays whole or is tessellated.
(Specification or proof vocabulary, no code.) -/
def partsOf (cs : List Nat) (maps : List (UnitMap d)) : List (UnitMap d) :=
  if cs.length = 1 then [UnitMap.id d] else maps

/-- A function of the group's space on the reference element. (Specification or proof vocabulary, no code.) -/
noncomputable def fnOf (g : SGroup ℝ (List ℝ)) (c : List ℝ) (y : Fin d → ℝ) : ℝ := evalAt g.basis c (List.ofFn y)

/-- What the class asks of a group (an orthonormal basis), and what it needs: as many basis functions as nodes,
a quadrature rule at the nodes that is exact for products, differentiation matrices, and affine functions in
the space.  (Specification or proof vocabulary, no code.) -/
structure ProjSpace (S : Set (Fin d → ℝ)) (g : SGroup ℝ (List ℝ)) (dt : L2Data) : Prop where
  dim : dt.dim = d
  square : g.basis.length = g.nodes.length
  nodes : ∀ x ∈ g.nodes, x.length = d
  continuous : ∀ φ ∈ g.basis, Continuous fun y : Fin d → ℝ => φ (List.ofFn y)
  orthonormal : ∀ (i j : Nat) φ ψ, g.basis[i]? = some φ → g.basis[j]? = some ψ →
    ∫ y in S, φ (List.ofFn y) * ψ (List.ofFn y) = if i = j then 1 else 0
  exact : ∀ c c' : List ℝ, c.length = g.basis.length → c'.length = g.basis.length →
    ∑ q ∈ range g.nodes.length, dt.weights.getD q 0 * (evalAt g.basis c (g.nodes.getD q []) *
      evalAt g.basis c' (g.nodes.getD q [])) = ∫ y in S, fnOf g c y * fnOf g c' y
  deriv : ∀ c : List ℝ, c.length = g.basis.length → ∀ (q : Nat) (y : Fin d → ℝ),
    g.nodes[q]? = some (List.ofFn y) → ∀ a : Fin d,
      HasDerivAt (fun s : ℝ => fnOf g c (y + s • Pi.single a 1)) (∑ j ∈ range g.nodes.length,
        (((dt.diff a).getD q []).getD j 0) * evalAt g.basis c (g.nodes.getD j [])) 0
  affine : ∀ (l : Fin d → ℝ) (t : ℝ), ∃ c : List ℝ, c.length = g.basis.length ∧
    ∀ y : Fin d → ℝ, fnOf g c y = ∑ i, l i * y i + t

/-- Composing with the map gives functions of the space again. (Specification or proof vocabulary, no code.) -/
def ClosedAff (g : SGroup ℝ (List ℝ)) (m : UnitMap d) : Prop :=
  ∀ c : List ℝ, c.length = g.basis.length → ∃ c' : List ℝ, c'.length = g.basis.length ∧
    ∀ y, fnOf g c' y = fnOf g c (m.at y)

/-- `h` is the function with the given pieces on the parts of the reference element.
(Specification or proof vocabulary, no code.) -/
def Pieces (S : Set (Fin d → ℝ)) (parts : List (UnitMap d)) (f : Nat → (Fin d → ℝ) → ℝ) (h : (Fin d → ℝ) → ℝ) :
    Prop :=
  ∀ (j : Nat) m, parts[j]? = some m → ∀ᵐ y ∂volume.restrict S, h (m.at y) = f j y

/-! ## Integrals over the parts -/

theorem UnitMap.hasFDeriv (m : UnitMap d) (y : Fin d → ℝ) :
    HasFDerivAt m.at (LinearMap.toContinuousLinearMap (Matrix.toLin' m.lin)) y := by
  have h : m.at = fun y => LinearMap.toContinuousLinearMap (Matrix.toLin' m.lin) y + m.off := by
    funext y
    simp [UnitMap.at]
  rw [h]
  exact (ContinuousLinearMap.hasFDerivAt _).add_const _

theorem UnitMap.det_eq (m : UnitMap d) :
    (LinearMap.toContinuousLinearMap (Matrix.toLin' m.lin)).det = m.lin.det := by
  rw [ContinuousLinearMap.det, LinearMap.coe_toContinuousLinearMap, LinearMap.det_toLin']

theorem UnitMap.injective {m : UnitMap d} (h : m.lin.det ≠ 0) : Function.Injective m.at := by
  intro x y hxy
  have h1 : m.lin.mulVec x = m.lin.mulVec y := by
    simpa [UnitMap.at] using hxy
  exact Matrix.mulVec_injective_of_isUnit
    ((Matrix.isUnit_iff_isUnit_det _).2 (isUnit_iff_ne_zero.2 h)) h1

theorem UnitMap.continuous (m : UnitMap d) : Continuous m.at :=
  continuous_iff_continuousAt.2 fun y => (m.hasFDeriv y).continuousAt

theorem integral_part {S : Set (Fin d → ℝ)} (hS : IsCompact S) {m : UnitMap d} (hm : m.lin.det ≠ 0)
    {F f : (Fin d → ℝ) → ℝ} (hf : Continuous f) (h : ∀ᵐ y ∂volume.restrict S, F (m.at y) = f y) :
    IntegrableOn F (m.at '' S) ∧ ∫ y in m.at '' S, F y = |m.lin.det| * ∫ y in S, f y := by
  have hd : ∀ y ∈ S, HasFDerivWithinAt m.at (LinearMap.toContinuousLinearMap (Matrix.toLin' m.lin)) S y :=
    fun y _ => (m.hasFDeriv y).hasFDerivWithinAt
  have hi : Set.InjOn m.at S := (UnitMap.injective hm).injOn
  have hms := hS.measurableSet
  have hae : (fun y => |(LinearMap.toContinuousLinearMap (Matrix.toLin' m.lin)).det| • F (m.at y))
      =ᵐ[volume.restrict S] fun y => |m.lin.det| * f y := by
    filter_upwards [h] with y hy
    rw [hy, UnitMap.det_eq, smul_eq_mul]
  constructor
  · rw [integrableOn_image_iff_integrableOn_abs_det_fderiv_smul volume hms hd hi]
    exact (((continuous_const.mul hf).continuousOn.integrableOn_compact hS).congr hae.symm :
      IntegrableOn _ S volume)
  · rw [integral_image_eq_integral_abs_det_fderiv_smul volume hms hd hi, integral_congr_ae hae,
      integral_const_mul]

theorem integral_list {S : Set (Fin d → ℝ)} (hS : IsCompact S) (maps : List (UnitMap d))
    (hn : ∀ m ∈ maps, m.lin.det ≠ 0)
    (ha : maps.Pairwise fun m m' => volume (m.at '' S ∩ m'.at '' S) = 0)
    {F : (Fin d → ℝ) → ℝ} {f : Nat → (Fin d → ℝ) → ℝ} (hf : ∀ j < maps.length, Continuous (f j))
    (h : Pieces S maps f F) :
    IntegrableOn F (⋃ m ∈ maps, m.at '' S) ∧ MeasurableSet (⋃ m ∈ maps, m.at '' S) ∧
    ∫ y in ⋃ m ∈ maps, m.at '' S, F y =
      ∑ j ∈ range maps.length, |((maps.map UnitMap.lin).getD j 0).det| * ∫ y in S, f j y := by
  induction maps generalizing f with
  | nil => simp
  | cons m maps ih =>
    obtain ⟨ha1, ha2⟩ := List.pairwise_cons.1 ha
    obtain ⟨i1, i2, i3⟩ := ih (fun x hx => hn x (List.mem_cons_of_mem _ hx)) ha2 (f := fun j => f (j + 1))
      (fun j hj => hf (j + 1) (by simpa using hj)) (fun j x hj => h (j + 1) x (by simpa using hj))
    obtain ⟨p1, p2⟩ := integral_part hS (hn m (by simp)) (hf 0 (by simp)) (h 0 m (by simp))
    have hU : (⋃ x ∈ m :: maps, x.at '' S) = m.at '' S ∪ ⋃ x ∈ maps, x.at '' S := by
      ext y
      simp
    have hdis : AEDisjoint volume (m.at '' S) (⋃ x ∈ maps, x.at '' S) := by
      unfold AEDisjoint
      rw [Set.inter_iUnion₂]
      have hc : {x | x ∈ maps}.Countable := (maps.finite_toSet).countable
      exact (measure_biUnion_null_iff hc).2 fun x hx => ha1 x hx
    rw [hU]
    refine ⟨p1.union i1, ((hS.image m.continuous).measurableSet).union i2, ?_⟩
    rw [setIntegral_union₀ hdis i2.nullMeasurableSet p1 i1, p2, i3, List.length_cons, Finset.sum_range_succ',
      add_comm]
    simp

/-- The integral over the reference element is the sum of the integrals over the parts. -/
theorem integral_tiles {S : Set (Fin d → ℝ)} (hS : IsCompact S) {maps : List (UnitMap d)} (ht : Tiles S maps)
    {F : (Fin d → ℝ) → ℝ} {f : Nat → (Fin d → ℝ) → ℝ} (hf : ∀ j < maps.length, Continuous (f j))
    (h : Pieces S maps f F) :
    IntegrableOn F S ∧ ∫ y in S, F y =
      ∑ j ∈ range maps.length, |((maps.map UnitMap.lin).getD j 0).det| * ∫ y in S, f j y := by
  obtain ⟨h1, _, h3⟩ := integral_list hS maps ht.nondeg ht.apart hf h
  rw [← ht.cover] at h1 h3
  exact ⟨h1, h3⟩

theorem tiles_id (S : Set (Fin d → ℝ)) : Tiles S [UnitMap.id d] := by
  have h : (UnitMap.id d).at = _root_.id := by
    funext y
    simp [UnitMap.at, UnitMap.id]
  refine ⟨by simp [UnitMap.id], by simp [h], by simp⟩

/-! ## The batches of a refinement connection -/

theorem zipIdx_pick {α β : Type} (F : α × Nat → Option (Nat × β)) (hF : ∀ p x, F p = some x → x.1 = p.2)
    (l : List α) (n e : Nat) :
    ((l.zipIdx n).filterMap F).filter (fun x => x.1 == n + e) =
      ((l[e]?).bind fun a => F (a, n + e)).toList := by
  induction l generalizing n e with
  | nil => simp
  | cons a l ih =>
    rw [List.zipIdx_cons, List.filterMap_cons]
    have htail : ∀ m, n + 1 + m = n + (m + 1) := fun m => by omega
    cases e with
    | zero =>
      have h0 : ((l.zipIdx (n + 1)).filterMap F).filter (fun x => x.1 == n + 0) = [] := by
        rw [List.filter_eq_nil_iff]
        intro x hx
        obtain ⟨p, hp, hpx⟩ := List.mem_filterMap.1 hx
        have h1 := hF p x hpx
        have h2 := List.mem_zipIdx (x := p.1) (i := p.2) hp
        simp only [beq_iff_eq]
        omega
      cases h : F (a, n) with
      | none => simpa [h] using h0
      | some x =>
        have := hF _ _ h
        simp only [Nat.add_zero] at h0 ⊢
        rw [List.filter_cons_of_pos (by simpa using this), h0]
        simp [h]
    | succ e =>
      have h1 := ih (n + 1) e
      rw [htail] at h1
      cases h : F (a, n) with
      | none => simpa [h] using h1
      | some x =>
        have := hF _ _ h
        rw [List.filter_cons_of_neg (by simp only at this; simp; omega), h1]
        simp

/-- The entries of a bin for one element. -/
theorem refinementBin_pick (mapping : List (List Nat)) (e k : Nat) :
    (refinementBin mapping k).filter (fun x => x.1 == e) =
      ((mapping[e]?).bind fun cs => if cs.length = 1 then if k = 0 then cs[0]?.map fun c => (e, c) else none
        else if k = 0 then none else cs[k - 1]?.map fun c => (e, c)).toList := by
  have h := zipIdx_pick (fun p : List Nat × Nat => if p.1.length = 1 then
      if k = 0 then p.1[0]?.map fun c => (p.2, c) else none
    else if k = 0 then none else p.1[k - 1]?.map fun c => (p.2, c)) (by
      intro p x hx
      split at hx
      · split at hx
        · obtain ⟨c, _, rfl⟩ := Option.map_eq_some_iff.1 hx
          rfl
        · simp at hx
      · split at hx
        · simp at hx
        · obtain ⟨c, _, rfl⟩ := Option.map_eq_some_iff.1 hx
          rfl) mapping 0 e
  simpa [refinementBin] using h

theorem binBatches_sum {G : List (List ℝ) → Nat → ℝ} (igrp e : Nat) (bins : List (List (Nat × Nat)))
    (nodes : List (List (List ℝ))) :
    ((binBatches igrp bins nodes).map fun b =>
      ((b.pairs.filter fun p => p.2 == e).map fun p => G b.nodes p.1).sum).sum =
    ((bins.zip nodes).map fun p => ((p.1.filter fun x => x.1 == e).map fun x => G p.2 x.2).sum).sum := by
  have hp : ∀ l : List (Nat × Nat), (l.map Prod.snd).zip (l.map Prod.fst) = l.map fun x => (x.2, x.1) := by
    intro l
    rw [List.zip_map, List.zip_eq_zipWith, List.zipWith_self, List.map_map]
    rfl
  unfold binBatches
  induction bins.zip nodes with
  | nil => rfl
  | cons p l ih =>
    rw [List.filterMap_cons, List.map_cons, List.sum_cons]
    split
    · rename_i h
      split at h
      · rename_i he
        rw [ih, List.isEmpty_iff.1 he]
        simp
      · simp at h
    · rename_i b h
      split at h
      · simp at h
      · obtain rfl := Option.some.inj h
        rw [List.map_cons, List.sum_cons, ih]
        congr 1
        simp only [Batch.pairs, hp]
        rw [List.filter_map, List.map_map]
        rfl

theorem sum_zip_index {α β : Type} (G : α → β → ℝ) (F : Nat → α) (n : Nat) (l : List β) (hl : l.length = n)
    (db : β) : ((((List.range n).map F).zip l).map fun p => G p.1 p.2).sum =
      ∑ i ∈ range n, G (F i) (l.getD i db) := by
  subst hl
  rw [List.zip_map_left, List.map_map]
  induction l generalizing F with
  | nil => simp
  | cons b l ih =>
    rw [List.length_cons, List.range_succ_eq_map, List.zip_cons_cons, List.map_cons, List.sum_cons,
      List.zip_map_left, List.map_map, Finset.sum_range_succ', add_comm]
    congr 1
    exact ih fun i => F (i + 1)

/-- The sum over the pairs of all batches that lead to an element is the sum over its children. -/
theorem refine_sum {G : List (List ℝ) → Nat → ℝ} {igrp : Nat} {sh : ChildShape} {nodes : List (List ℝ)}
    {r : RefRecord} {bs : List (Batch (List (List ℝ)))} (h : refineBatches igrp sh nodes r = .ok bs)
    {mapped : List (List (List ℝ))} (hm : mapNodesToChildren sh r.refVerts nodes r.children = .ok mapped)
    {e : Nat} {cs : List Nat} (he : r.mapping[e]? = some cs) :
    (bs.map fun b => ((b.pairs.filter fun p => p.2 == e).map fun p => G b.nodes p.1).sum).sum =
      ∑ j ∈ range cs.length, G (if cs.length = 1 then nodes else mapped.getD j []) (cs.getD j 0) := by
  have hlen : cs.length = 1 ∨ cs.length = r.children.length := by
    unfold refineBatches refinementBins at h
    split at h
    · simp at h
    · rename_i bins hb
      split at hb
      · rename_i hall
        simpa using List.all_eq_true.1 hall cs (List.mem_of_getElem? he)
      · simp at hb
  have hml := (mapNodes_ok hm).1
  unfold refineBatches at h
  split at h
  · simp at h
  rename_i bins hb
  rw [hm] at h
  simp only [Except.ok.injEq] at h
  subst h
  unfold refinementBins at hb
  split at hb
  swap
  · simp at hb
  obtain rfl := Option.some.inj hb
  rw [binBatches_sum, sum_zip_index (fun (a : List (Nat × Nat)) (u : List (List ℝ)) =>
    ((a.filter fun x => x.1 == e).map fun x => G u x.2).sum) _ _ _ (by simp [hml]) []]
  simp only [refinementBin_pick, he, Option.bind_some]
  by_cases h1 : cs.length = 1
  · obtain ⟨k, rfl⟩ := List.length_eq_one_iff.1 h1
    rw [Finset.sum_range_succ']
    simp
  · have h2 : cs.length = r.children.length := hlen.resolve_left h1
    rw [Finset.sum_range_succ', h2]
    have h0 : ((none : Option (Nat × Nat)).toList.map fun x => G ((nodes :: mapped).getD 0 []) x.2).sum = 0 := rfl
    simp only [← h2, if_neg h1, Nat.add_sub_cancel, Nat.add_eq_zero_iff, one_ne_zero, and_false, if_false,
      if_true, List.getD_cons_succ]
    rw [h0, add_zero]
    apply Finset.sum_congr rfl
    intro j hj
    have hj' : j < cs.length := Finset.mem_range.1 hj
    rw [List.getElem?_eq_getElem hj']
    simp [hj']

/-! ## Functions of the space and their values -/

theorem evalAt_sum {basis : List (List ℝ → ℝ)} {c : List ℝ} (h : c.length = basis.length) (x : List ℝ) :
    evalAt basis c x = ∑ k ∈ range basis.length, c.getD k 0 * (basis.getD k fun _ => 0) x := by
  unfold evalAt
  induction basis generalizing c with
  | nil => simp
  | cons φ basis ih =>
    cases c with
    | nil => simp at h
    | cons a c =>
      rw [List.zipWith_cons_cons, List.sum_cons, ih (by simpa using h), List.length_cons,
        Finset.sum_range_succ', add_comm]
      simp

theorem getD_mem_basis {g : SGroup ℝ (List ℝ)} {k : Nat} (hk : k < g.basis.length) :
    g.basis[k]? = some (g.basis.getD k fun _ => 0) := by
  simp [hk]

theorem fnOf_continuous {S : Set (Fin d → ℝ)} {g : SGroup ℝ (List ℝ)} {dt : L2Data} (hp : ProjSpace S g dt)
    {c : List ℝ} (hc : c.length = g.basis.length) : Continuous (fnOf (d := d) g c) := by
  unfold fnOf
  simp only [evalAt_sum hc]
  refine continuous_finsetSum _ fun k hk => continuous_const.mul ?_
  exact hp.continuous _ (List.mem_of_getElem? (getD_mem_basis (Finset.mem_range.1 hk)))

/-- A list of coordinates as a point. (Specification or proof vocabulary, no code.) -/
def toPoint (d : Nat) (x : List ℝ) : Fin d → ℝ := fun i => x.getD i 0

theorem ofFn_toPoint {x : List ℝ} (h : x.length = d) : List.ofFn (toPoint d x) = x := by
  apply List.ext_getElem
  · simp [h]
  · intro i h1 h2
    simp [toPoint, h2]

theorem toPoint_ofFn (y : Fin d → ℝ) : toPoint d (List.ofFn y) = y := by
  funext i
  simp [toPoint]

/-- The coefficients come from integrals with the basis functions. -/
theorem ProjSpace.coeff {S : Set (Fin d → ℝ)} {g : SGroup ℝ (List ℝ)} {dt : L2Data} (hS : IsCompact S)
    (hp : ProjSpace S g dt) {c : List ℝ} (hc : c.length = g.basis.length) {k : Nat} (hk : k < g.basis.length) :
    ∫ y in S, fnOf g c y * (g.basis.getD k fun _ => 0) (List.ofFn y) = c.getD k 0 := by
  have hcont : ∀ k < g.basis.length, Continuous fun y : Fin d → ℝ =>
      (g.basis.getD k fun _ => 0) (List.ofFn y) := fun k hk =>
    hp.continuous _ (List.mem_of_getElem? (getD_mem_basis hk))
  unfold fnOf
  simp only [evalAt_sum hc, Finset.sum_mul, mul_assoc]
  rw [integral_finsetSum]
  · simp only [integral_const_mul]
    rw [Finset.sum_congr rfl fun i hi => by
      rw [hp.orthonormal i k _ _ (getD_mem_basis (Finset.mem_range.1 hi)) (getD_mem_basis hk)]]
    simp [hk]
  · intro i hi
    exact ((continuous_const.mul ((hcont i (Finset.mem_range.1 hi)).mul (hcont k hk))).continuousOn
      ).integrableOn_compact hS

/-- Functions of the space with the same integrals against the space are the same. -/
theorem ProjSpace.unique {S : Set (Fin d → ℝ)} {g : SGroup ℝ (List ℝ)} {dt : L2Data} (hS : IsCompact S)
    (hp : ProjSpace S g dt) {c c' : List ℝ} (hc : c.length = g.basis.length) (hc' : c'.length = g.basis.length)
    (h : ∀ k < g.basis.length, ∫ y in S, fnOf g c y * (g.basis.getD k fun _ => 0) (List.ofFn y) =
      ∫ y in S, fnOf g c' y * (g.basis.getD k fun _ => 0) (List.ofFn y)) : c = c' := by
  apply List.ext_getElem (by rw [hc, hc'])
  intro k h1 h2
  have := h k (by omega)
  rw [hp.coeff hS hc (by omega), hp.coeff hS hc' (by omega)] at this
  simpa [h1, h2] using this

/-- The unit coefficient vectors. -/
theorem evalAt_unit {basis : List (List ℝ → ℝ)} {k : Nat} (hk : k < basis.length) (x : List ℝ) :
    evalAt basis ((List.replicate basis.length 0).set k 1) x = (basis.getD k fun _ => 0) x := by
  rw [evalAt_sum (by simp), Finset.sum_eq_single k]
  · simp [hk]
  · intro j hj hne
    have hj' := Finset.mem_range.1 hj
    simp [hj', Ne.symm hne]
  · intro h
    simp at h
    omega

/-- A function is determined by its values at the nodes, and any values are taken. -/
theorem ProjSpace.interp {S : Set (Fin d → ℝ)} {g : SGroup ℝ (List ℝ)} {dt : L2Data} (hS : IsCompact S)
    (hp : ProjSpace S g dt) :
    (∀ c c' : List ℝ, c.length = g.basis.length → c'.length = g.basis.length →
      (∀ q < g.nodes.length, evalAt g.basis c (g.nodes.getD q []) = evalAt g.basis c' (g.nodes.getD q [])) →
      c = c') ∧
    ∀ vals : Nat → ℝ, ∃ c, HasValues g c vals := by
  have huniq : ∀ c c' : List ℝ, c.length = g.basis.length → c'.length = g.basis.length →
      (∀ q < g.nodes.length, evalAt g.basis c (g.nodes.getD q []) = evalAt g.basis c' (g.nodes.getD q [])) →
      c = c' := by
    intro c c' hc hc' h
    apply hp.unique hS hc hc'
    intro k hk
    have hu : ∀ y : Fin d → ℝ, (g.basis.getD k fun _ => 0) (List.ofFn y) =
        fnOf g ((List.replicate g.basis.length 0).set k 1) y := fun y => (evalAt_unit hk _).symm
    simp only [hu]
    rw [← hp.exact c _ hc (by simp), ← hp.exact c' _ hc' (by simp)]
    apply Finset.sum_congr rfl
    intro q hq
    rw [h q (Finset.mem_range.1 hq)]
  refine ⟨huniq, ?_⟩
  intro vals
  let n := g.basis.length
  let V : Matrix (Fin n) (Fin n) ℝ := Matrix.of fun i k => (g.basis.getD k fun _ => 0) (g.nodes.getD i [])
  have hev : ∀ (x : Fin n → ℝ) (i : Fin n), V.mulVec x i = evalAt g.basis (List.ofFn x) (g.nodes.getD i []) := by
    intro x i
    rw [evalAt_sum (by simp [n]), ← Fin.sum_univ_eq_sum_range (fun k => (List.ofFn x).getD k 0 *
      (g.basis.getD k fun _ => 0) (g.nodes.getD i []))]
    simp only [Matrix.mulVec, dotProduct, V, Matrix.of_apply]
    apply Finset.sum_congr rfl
    intro k _
    have : (List.ofFn x).getD k 0 = x k := by simp
    rw [this, mul_comm]
  have hinj : Function.Injective (Matrix.toLin' V) := by
    intro x y hxy
    have := huniq (List.ofFn x) (List.ofFn y) (by simp [n]) (by simp [n]) (by
      intro q hq
      have h1 := congrFun hxy (⟨q, by rw [← hp.square] at hq; exact hq⟩ : Fin n)
      simp only [Matrix.toLin'_apply] at h1
      rw [hev, hev] at h1
      exact h1)
    exact List.ofFn_injective this
  obtain ⟨x, hx⟩ := (LinearMap.injective_iff_surjective.1 hinj) fun i => vals i
  refine ⟨List.ofFn x, by simp [n], ?_⟩
  intro i p hi
  have hil := (List.getElem?_eq_some_iff.1 hi).1
  have h1 := congrFun hx (⟨i, by rw [← hp.square] at hil; exact hil⟩ : Fin n)
  simp only [Matrix.toLin'_apply] at h1
  rw [hev] at h1
  rw [← h1]
  simp [hi]

/-! ## Nodes and weights of the children -/

theorem MapsOnto.lin {origin : List Nat} {axs : List (List Nat)} {m : UnitMap d} (h : MapsOnto origin axs m)
    (i j : Fin d) : m.lin i j = ((((axs.getD j []).getD i 0 : Nat) : ℝ) - ((origin.getD i 0 : Nat) : ℝ)) / 2 := by
  have h1 := h.corner i
  have h2 := h.edge j i
  have h3 : (Function.update (fun _ => -1) j 1 : Fin d → ℝ) = (fun _ => -1) + Pi.single j 2 := by
    funext k
    by_cases hk : k = j
    · subst hk
      simp
      norm_num
    · simp [hk]
  rw [h3] at h2
  simp only [UnitMap.at, Matrix.mulVec_add, Pi.add_apply, Matrix.mulVec_single, Matrix.col_apply,
    Pi.smul_apply, MulOpposite.smul_eq_mul_unop, MulOpposite.unop_op] at h1 h2
  linarith

theorem MapsOnto.childPoint {origin : List Nat} {axs : List (List Nat)} {m : UnitMap d}
    (h : MapsOnto origin axs m) (ho : origin.length = d) (ha : axs.length = d) {x : List ℝ} (hx : x.length = d) :
    Meshmode.childPoint origin axs x = List.ofFn (m.at (toPoint d x)) := by
  rw [childPoint_coord _ _ _ (by omega)]
  apply List.ext_getElem
  · simp [ho]
  · intro r h1 h2
    have hr : r < d := by simpa using h2
    have hc := h.corner ⟨r, hr⟩
    simp only [List.getElem_map, List.getElem_range, List.getElem_ofFn]
    simp only [UnitMap.at, Pi.add_apply, Matrix.mulVec, dotProduct] at hc ⊢
    rw [ha, ← Fin.sum_univ_eq_sum_range (fun j => ((((axs.getD j []).getD r 0 : Nat) : ℝ) -
      ((origin.getD r 0 : Nat) : ℝ)) * ((x.getD j 0 + 1) / 2))]
    have e1 : ∀ j : Fin d, ((((axs.getD j []).getD r 0 : Nat) : ℝ) - ((origin.getD r 0 : Nat) : ℝ)) *
        ((x.getD j 0 + 1) / 2) = m.lin ⟨r, hr⟩ j * toPoint d x j - m.lin ⟨r, hr⟩ j * -1 := by
      intro j
      rw [h.lin ⟨r, hr⟩ j, toPoint]
      ring
    rw [Finset.sum_congr rfl fun j _ => e1 j, Finset.sum_sub_distrib]
    linarith

/-- The weights of a batch are the weights of the rule, times the size of the part. -/
theorem batchWeight_part {S : Set (Fin d → ℝ)} {g : SGroup ℝ (List ℝ)} {dt : L2Data} (hp : ProjSpace S g dt)
    (m : UnitMap d) {q : Nat} (hq : q < g.nodes.length) :
    batchWeight dt (g.nodes.map fun x => List.ofFn (m.at (toPoint d x))) q =
      |m.lin.det| * dt.weights.getD q 0 := by
  have hjac : ∀ a b : Fin d, batchJac dt (g.nodes.map fun x => List.ofFn (m.at (toPoint d x))) q a b =
      m.lin b a := by
    intro a b
    obtain ⟨c, hc, hcf⟩ := hp.affine (m.lin b) (m.off b)
    have hxq : g.nodes[q]? = some g.nodes[q] := List.getElem?_eq_getElem hq
    have hy : g.nodes[q]? = some (List.ofFn (toPoint d g.nodes[q])) := by
      rw [ofFn_toPoint (hp.nodes _ (List.getElem_mem hq))]
      exact hxq
    have h1 := hp.deriv c hc q _ hy a
    have h2 : HasDerivAt (fun s : ℝ => fnOf g c (toPoint d g.nodes[q] + s • Pi.single a 1)) (m.lin b a) 0 := by
      have : (fun s : ℝ => fnOf g c (toPoint d g.nodes[q] + s • Pi.single a 1)) =
          fun s => s * m.lin b a + (∑ i, m.lin b i * toPoint d g.nodes[q] i + m.off b) := by
        funext s
        rw [hcf]
        simp only [Pi.add_apply, Pi.smul_apply, smul_eq_mul, mul_add, Finset.sum_add_distrib, Pi.single_apply]
        simp
        ring
      rw [this]
      simpa using ((hasDerivAt_id (0 : ℝ)).mul_const (m.lin b a)).add_const
        (∑ i, m.lin b i * toPoint d g.nodes[q] i + m.off b)
    rw [← h1.unique h2]
    unfold batchJac
    rw [List.length_map]
    apply Finset.sum_congr rfl
    intro j hj
    have hj' := Finset.mem_range.1 hj
    congr 1
    have hl := hp.nodes _ (List.getElem_mem hj')
    have h3 := hcf (toPoint d g.nodes[j])
    rw [fnOf, ofFn_toPoint hl] at h3
    have h4 : g.nodes.getD j [] = g.nodes[j] := by simp [hj']
    rw [h4, h3]
    simp [hj', UnitMap.at, Matrix.mulVec, dotProduct]
  unfold batchWeight
  obtain rfl := hp.dim
  have : (Matrix.of fun a b : Fin dt.dim =>
      batchJac dt (g.nodes.map fun x => List.ofFn (m.at (toPoint dt.dim x))) q a b) = m.lin.transpose := by
    ext a b
    simp [hjac]
  rw [this, Matrix.det_transpose]

/-- The nodes of a child are the images of the unit nodes under its map. -/
theorem mapped_part {sh : ChildShape} {r : RefRecord} (hd : ∀ v ∈ r.refVerts, v.length = d)
    {nodes : List (List ℝ)} (hn : ∀ x ∈ nodes, x.length = d) (hne : nodes ≠ []) {mapped : List (List (List ℝ))}
    (hm : mapNodesToChildren sh r.refVerts nodes r.children = .ok mapped) {maps : List (UnitMap d)}
    (hmaps : ChildMaps sh r.refVerts r.children maps) {j : Nat} {m : UnitMap d} (hj : maps[j]? = some m) :
    mapped.getD j [] = nodes.map fun x => List.ofFn (m.at (toPoint d x)) := by
  obtain ⟨hlen, hall⟩ := hmaps
  have hjl := (List.getElem?_eq_some_iff.1 hj).1
  have hcj : r.children[j]? = some (r.children[j]'(by omega)) := List.getElem?_eq_getElem (by omega)
  obtain ⟨origin, axs, hcor, hon⟩ := hall j _ m hcj hj
  obtain ⟨us, hus, hch⟩ := (mapNodes_ok hm).2 j _ hcj
  obtain ⟨origin', axs', hcor', hxl, _, rfl⟩ := childNodes_ok hd hch
  obtain ⟨rfl, rfl⟩ := hcor.unique hcor'
  have ho : origin.length = d := by
    obtain ⟨⟨n, _, hn'⟩, _⟩ := hcor
    exact hd _ (List.mem_of_getElem? hn')
  have ha : axs.length = d := by
    obtain ⟨x, hx⟩ := List.exists_mem_of_ne_nil _ hne
    rw [← hxl x hx, hn x hx]
  rw [List.getD_eq_getElem?_getD, hus, Option.getD_some]
  apply List.map_congr_left
  intro x hx
  exact hon.childPoint ho ha (hn x hx)

/-- The weights, basis functions and Vandermonde matrix of a group put into the projection: on an element the
result is the function whose coefficients are sums over its parts. -/
theorem project_value {S : Set (Fin d → ℝ)} {coarse F T : List (SGroup ℝ (List ℝ))}
    {fine : List (SGroup ℝ (List ℝ) × ChildShape)} {records : List RefRecord} {data : List L2Data}
    {gs : List (List (Batch (List (List ℝ))))} {s sameMesh : Bool}
    (hmake : makeRefinementConn sameMesh coarse fine records = .ok (.direct F T gs s))
    {find : List (List ℝ) → List (List ℝ) → List (Option Nat)}
    {resample : List (List ℝ → ℝ) → List (List ℝ) → List (List ℝ) → Option (Mat ℝ)}
    {v w : DofArr ℝ}
    (hc : l2Call (l2OpsOf F T data) ⟨F.map (SGroup.toDGroup find resample),
      T.map (SGroup.toDGroup find resample), gs, s⟩ v = some w) {t : Nat} {g tg : SGroup ℝ (List ℝ)}
    {sh : ChildShape} {r : RefRecord} {dt : L2Data} (hg : coarse[t]? = some g) (htg : fine[t]? = some (tg, sh))
    (hrec : records[t]? = some r) (hdt : data[t]? = some dt) (hnodes : tg.nodes = g.nodes)
    (hbasis : tg.basis = g.basis) (hp : ProjSpace S g dt) (hd : ∀ v ∈ r.refVerts, v.length = d)
    {maps : List (UnitMap d)} (hmaps : ChildMaps sh r.refVerts r.children maps) {e : Nat} {cs : List Nat}
    (he : r.mapping[e]? = some cs) :
    (partsOf cs maps).length = cs.length ∧
    ∃ c : List ℝ, HasValues g c (w t e) ∧ ∀ k < g.basis.length, c.getD k 0 =
      ∑ j ∈ range cs.length, |(((partsOf cs maps).map UnitMap.lin).getD j 0).det| *
        ∑ q ∈ range g.nodes.length, dt.weights.getD q 0 * (v t (cs.getD j 0) q *
          (g.basis.getD k fun _ => 0) (List.ofFn (((partsOf cs maps).getD j ⟨0, 0⟩).at
            (toPoint d (g.nodes.getD q []))))) := by
  obtain ⟨rfl, rfl, hgr⟩ := make_refine_direct hmake
  obtain ⟨_, _, _, h4⟩ := refineConnGroups_ok.1 hgr
  obtain ⟨bs, hbs, hb⟩ := h4 t _ r htg hrec
  rw [Nat.zero_add] at hb
  simp only [hnodes] at hb
  have hlen : cs.length = 1 ∨ cs.length = r.children.length := by
    have hb' := hb
    unfold refineBatches refinementBins at hb'
    split at hb'
    · simp at hb'
    · rename_i bins hb2
      split at hb2
      · rename_i hall
        simpa using List.all_eq_true.1 hall cs (List.mem_of_getElem? he)
      · simp at hb2
  have hpl : (partsOf cs maps).length = cs.length := by
    unfold partsOf
    split
    · rename_i h1
      simp [h1]
    · rename_i h1
      rw [hmaps.1, hlen.resolve_left h1]
  refine ⟨hpl, ?_⟩
  obtain ⟨mapped, hm⟩ : ∃ mapped, mapNodesToChildren sh r.refVerts g.nodes r.children = .ok mapped := by
    unfold refineBatches at hb
    split at hb
    · simp at hb
    · split at hb
      · simp at hb
      · exact ⟨_, by assumption⟩
  -- the batches read and write group `t`
  have hfrom : ∀ b ∈ bs, b.fromGroup = t := by
    intro b hbm
    unfold refineBatches at hb
    split at hb
    · simp at hb
    · split at hb
      · simp at hb
      · obtain rfl := Except.ok.inj hb
        obtain ⟨i, l, u, _, _, _, rfl⟩ := mem_binBatches.1 hbm
        rfl
  unfold l2Call at hc
  split at hc
  · simp at hc
  split at hc
  · simp at hc
  obtain rfl := Option.some.inj hc
  have hFt : (F.map (SGroup.toDGroup find resample))[t]? = some (g.toDGroup find resample) := by
    rw [List.getElem?_map, hg]
    rfl
  have hTt : (fine.map Prod.fst)[t]? = some tg := by
    rw [List.getElem?_map, htg]
    rfl
  have hcoef : ∀ k < g.basis.length,
      (bs.map fun b => l2Batch (l2OpsOf F (fine.map Prod.fst) data) v t g.nodes.length b e k).sum =
      ∑ j ∈ range cs.length, |(((partsOf cs maps).map UnitMap.lin).getD j 0).det| *
        ∑ q ∈ range g.nodes.length, dt.weights.getD q 0 * (v t (cs.getD j 0) q *
          (g.basis.getD k fun _ => 0) (List.ofFn (((partsOf cs maps).getD j ⟨0, 0⟩).at
            (toPoint d (g.nodes.getD q []))))) := by
    intro k hk
    have hne : g.nodes ≠ [] := by
      intro h0
      rw [hp.square, h0] at hk
      simp at hk
    have h1 : (bs.map fun b => l2Batch (l2OpsOf F (fine.map Prod.fst) data) v t g.nodes.length b e k) =
        bs.map fun b => ((b.pairs.filter fun p => p.2 == e).map fun p =>
          (fun u x => ∑ q ∈ range g.nodes.length, v t x q * (g.basis.getD k fun _ => 0) (u.getD q []) *
            batchWeight dt u q) b.nodes p.1).sum := by
      apply List.map_congr_left
      intro b hbm
      unfold l2Batch
      simp only [l2OpsOf, hfrom b hbm, hTt, hdt, hbasis]
    rw [h1, refine_sum (G := fun u x => ∑ q ∈ range g.nodes.length,
      v t x q * (g.basis.getD k fun _ => 0) (u.getD q []) * batchWeight dt u q) hb hm he]
    apply Finset.sum_congr rfl
    intro j hj
    have hj' := Finset.mem_range.1 hj
    obtain ⟨m, hmj⟩ : ∃ m, (partsOf cs maps)[j]? = some m :=
      ⟨_, List.getElem?_eq_getElem (by omega)⟩
    have hu : (if cs.length = 1 then g.nodes else mapped.getD j []) =
        g.nodes.map fun x => List.ofFn (m.at (toPoint d x)) := by
      unfold partsOf at hmj
      split
      · rename_i h1
        rw [if_pos h1] at hmj
        have hj0 : j = 0 := by omega
        subst hj0
        obtain rfl := Option.some.inj hmj
        conv_lhs => rw [← List.map_id g.nodes]
        apply List.map_congr_left
        intro x hx
        have hid : (UnitMap.id d).at (toPoint d x) = toPoint d x := by simp [UnitMap.at, UnitMap.id]
        rw [hid, ofFn_toPoint (hp.nodes x hx)]
        rfl
      · rename_i h1
        rw [if_neg h1] at hmj
        exact mapped_part hd hp.nodes hne hm hmaps hmj
    have hlin : ((partsOf cs maps).map UnitMap.lin).getD j 0 = m.lin := by
      rw [List.getD_eq_getElem?_getD, List.getElem?_map, hmj]
      rfl
    have hget : (partsOf cs maps).getD j ⟨0, 0⟩ = m := by
      rw [List.getD_eq_getElem?_getD, hmj]
      rfl
    rw [hu, hlin, hget, Finset.mul_sum]
    apply Finset.sum_congr rfl
    intro q hq
    have hq' := Finset.mem_range.1 hq
    rw [batchWeight_part hp m hq']
    have h2 : (g.nodes.map fun x => List.ofFn (m.at (toPoint d x))).getD q [] =
        List.ofFn (m.at (toPoint d (g.nodes.getD q []))) := by
      simp [hq']
    rw [h2]
    ring
  refine ⟨(List.range g.basis.length).map fun k => (bs.map fun b =>
    l2Batch (l2OpsOf F (fine.map Prod.fst) data) v t g.nodes.length b e k).sum, ⟨by simp, ?_⟩, ?_⟩
  · intro i x hi
    simp only [hFt, hbs]
    rw [evalAt_sum (by simp)]
    show ∑ ib ∈ range g.nodes.length, _ = _
    rw [hp.square]
    apply Finset.sum_congr rfl
    intro k hk
    have hk' := Finset.mem_range.1 hk
    have hx : g.nodes.getD i [] = x := by simp [hi]
    have hck : (((List.range g.nodes.length).map fun k => (bs.map fun b =>
        l2Batch (l2OpsOf F (fine.map Prod.fst) data) v t g.nodes.length b e k).sum).getD k 0) =
        (bs.map fun b => l2Batch (l2OpsOf F (fine.map Prod.fst) data) v t g.nodes.length b e k).sum := by
      simp [hk']
    rw [hck, mul_comm]
    simp only [l2OpsOf, hg, hx]
    rfl
  · intro k hk
    rw [← hcoef k hk]
    simp [hk]

/-! ## Theorems -/

/-- C121: the projection is the orthogonal one.  If the array has the values of the functions with coefficients
`a j` on the children of an element, the result has the values of a function on the element whose integral
against every function of the space is that of the function with these pieces. -/
theorem C121_orthogonal {S : Set (Fin d → ℝ)} (hS : IsCompact S) {coarse F T : List (SGroup ℝ (List ℝ))}
    {fine : List (SGroup ℝ (List ℝ) × ChildShape)} {records : List RefRecord} {data : List L2Data}
    {gs : List (List (Batch (List (List ℝ))))} {s sameMesh : Bool}
    (hmake : makeRefinementConn sameMesh coarse fine records = .ok (.direct F T gs s))
    {find : List (List ℝ) → List (List ℝ) → List (Option Nat)}
    {resample : List (List ℝ → ℝ) → List (List ℝ) → List (List ℝ) → Option (Mat ℝ)}
    {v w : DofArr ℝ}
    (hc : l2Call (l2OpsOf F T data) ⟨F.map (SGroup.toDGroup find resample),
      T.map (SGroup.toDGroup find resample), gs, s⟩ v = some w) {t : Nat} {g tg : SGroup ℝ (List ℝ)}
    {sh : ChildShape} {r : RefRecord} {dt : L2Data} (hg : coarse[t]? = some g) (htg : fine[t]? = some (tg, sh))
    (hrec : records[t]? = some r) (hdt : data[t]? = some dt) (hnodes : tg.nodes = g.nodes)
    (hbasis : tg.basis = g.basis) (hp : ProjSpace S g dt) (hd : ∀ v ∈ r.refVerts, v.length = d)
    {maps : List (UnitMap d)} (hmaps : ChildMaps sh r.refVerts r.children maps) (htile : Tiles S maps)
    (hclosed : ∀ m ∈ maps, ClosedAff g m) {e : Nat} {cs : List Nat} (he : r.mapping[e]? = some cs)
    {a : Nat → List ℝ} (ha : ∀ (j : Nat) k, cs[j]? = some k → HasValues g (a j) (v t k))
    {h : (Fin d → ℝ) → ℝ} (hh : Pieces S (partsOf cs maps) (fun j => fnOf g (a j)) h) :
    IntegrableOn (fun y => h y * h y) S ∧ ∃ c, HasValues g c (w t e) ∧
      ∀ b : List ℝ, b.length = g.basis.length → IntegrableOn (fun y => h y * fnOf g b y) S ∧
        ∫ y in S, fnOf g c y * fnOf g b y = ∫ y in S, h y * fnOf g b y := by
  obtain ⟨hpl, c, hcv, hck⟩ := project_value hmake hc hg htg hrec hdt hnodes hbasis hp hd hmaps he
  have htl : Tiles S (partsOf cs maps) := by
    unfold partsOf
    split
    · exact tiles_id S
    · exact htile
  have hcl : ∀ m ∈ partsOf cs maps, ClosedAff g m := by
    unfold partsOf
    split
    · intro m hm b hb
      rw [List.mem_singleton.1 hm]
      exact ⟨b, hb, fun y => by simp [UnitMap.at, UnitMap.id]⟩
    · exact hclosed
  have hal : ∀ j < (partsOf cs maps).length, (a j).length = g.basis.length := fun j hj =>
    (ha j _ (List.getElem?_eq_getElem (by omega))).1
  have hac : ∀ j < (partsOf cs maps).length, Continuous (fnOf (d := d) g (a j)) := fun j hj =>
    fnOf_continuous hp (hal j hj)
  have hcomp : ∀ b : List ℝ, b.length = g.basis.length → Pieces S (partsOf cs maps)
      (fun j y => fnOf g (a j) y * fnOf g b (((partsOf cs maps).getD j ⟨0, 0⟩).at y))
      (fun y => h y * fnOf g b y) := by
    intro b hb j m hj
    filter_upwards [hh j m hj] with y hy
    have : (partsOf cs maps).getD j ⟨0, 0⟩ = m := by
      rw [List.getD_eq_getElem?_getD, hj]
      rfl
    rw [hy, this]
  have hint : ∀ b : List ℝ, b.length = g.basis.length → _ := fun b hb =>
    integral_tiles hS htl (f := fun j y => fnOf g (a j) y * fnOf g b (((partsOf cs maps).getD j ⟨0, 0⟩).at y))
      (fun j hj => (hac j hj).mul
      ((fnOf_continuous hp hb).comp ((partsOf cs maps).getD j ⟨0, 0⟩).continuous)) (hcomp b hb)
  have hsq := integral_tiles hS htl (f := fun j y => fnOf g (a j) y * fnOf g (a j) y)
    (F := fun y => h y * h y) (fun j hj => (hac j hj).mul (hac j hj)) (by
      intro j m hj
      filter_upwards [hh j m hj] with y hy
      rw [hy])
  refine ⟨hsq.1, c, hcv, ?_⟩
  -- against a basis function
  have hbasisk : ∀ k < g.basis.length,
      ∫ y in S, h y * (g.basis.getD k fun _ => 0) (List.ofFn y) = c.getD k 0 := by
    intro k hk
    have hu : ∀ y : Fin d → ℝ, (g.basis.getD k fun _ => 0) (List.ofFn y) =
        fnOf g ((List.replicate g.basis.length 0).set k 1) y := fun y => (evalAt_unit hk _).symm
    simp only [hu]
    rw [(hint _ (by simp)).2, hck k hk, hpl]
    apply Finset.sum_congr rfl
    intro j hj
    have hj' := Finset.mem_range.1 hj
    obtain ⟨m, hmj⟩ : ∃ m, (partsOf cs maps)[j]? = some m :=
      ⟨_, List.getElem?_eq_getElem (by omega)⟩
    have hget : (partsOf cs maps).getD j ⟨0, 0⟩ = m := by
      rw [List.getD_eq_getElem?_getD, hmj]
      rfl
    obtain ⟨b', hb', hbf⟩ := hcl m (List.mem_of_getElem? hmj) ((List.replicate g.basis.length 0).set k 1)
      (by simp)
    have hb2 : (fun y => fnOf g (a j) y * fnOf g ((List.replicate g.basis.length 0).set k 1) (m.at y)) =
        fun y => fnOf g (a j) y * fnOf g b' y := by
      funext y
      rw [hbf]
    simp only [hget]
    rw [hb2, ← hp.exact _ _ (hal j (by omega)) hb']
    congr 1
    apply Finset.sum_congr rfl
    intro q hq
    have hq' := Finset.mem_range.1 hq
    have hxq : g.nodes[q]? = some (g.nodes.getD q []) := by simp [hq']
    have hl : (g.nodes.getD q []).length = d := hp.nodes _ (List.mem_of_getElem? hxq)
    have hk' : cs[j]? = some (cs.getD j 0) := by simp [hj']
    rw [(ha j _ hk').2 q _ hxq]
    congr 2
    have := hbf (toPoint d (g.nodes.getD q []))
    rw [fnOf, ofFn_toPoint hl] at this
    rw [this, hu]
  intro b hb
  refine ⟨(hint b hb).1, ?_⟩
  have hcc := hcv.1
  have hfb : ∀ y : Fin d → ℝ, fnOf g b y = ∑ k ∈ range g.basis.length,
      b.getD k 0 * (g.basis.getD k fun _ => 0) (List.ofFn y) := fun y => evalAt_sum hb _
  have hcontk : ∀ k < g.basis.length, Continuous fun y : Fin d → ℝ =>
      (g.basis.getD k fun _ => 0) (List.ofFn y) := fun k hk =>
    hp.continuous _ (List.mem_of_getElem? (getD_mem_basis hk))
  have hintk : ∀ k < g.basis.length, IntegrableOn
      (fun y : Fin d → ℝ => h y * (g.basis.getD k fun _ => 0) (List.ofFn y)) S := by
    intro k hk
    have hu : ∀ y : Fin d → ℝ, (g.basis.getD k fun _ => 0) (List.ofFn y) =
        fnOf g ((List.replicate g.basis.length 0).set k 1) y := fun y => (evalAt_unit hk _).symm
    simp only [hu]
    exact (hint _ (by simp)).1
  have e1 : ∀ (H : (Fin d → ℝ) → ℝ), (∀ k < g.basis.length, IntegrableOn
      (fun y : Fin d → ℝ => H y * (g.basis.getD k fun _ => 0) (List.ofFn y)) S) →
      ∫ y in S, H y * fnOf g b y = ∑ k ∈ range g.basis.length, b.getD k 0 *
        ∫ y in S, H y * (g.basis.getD k fun _ => 0) (List.ofFn y) := by
    intro H hH
    have : (fun y => H y * fnOf g b y) = fun y => ∑ k ∈ range g.basis.length,
        b.getD k 0 * (H y * (g.basis.getD k fun _ => 0) (List.ofFn y)) := by
      funext y
      rw [hfb, Finset.mul_sum]
      apply Finset.sum_congr rfl
      intro k _
      ring
    rw [this, integral_finsetSum]
    · simp only [integral_const_mul]
    · intro k hk
      exact (hH k (Finset.mem_range.1 hk)).const_mul _
  rw [e1 _ (fun k hk => ((fnOf_continuous hp hcc).mul (hcontk k hk)).continuousOn.integrableOn_compact hS),
    e1 h hintk]
  apply Finset.sum_congr rfl
  intro k hk
  have hk' := Finset.mem_range.1 hk
  rw [hbasisk k hk', hp.coeff hS hcc hk']

theorem integral_square {S : Set (Fin d → ℝ)} {p q r : (Fin d → ℝ) → ℝ} (hp : IntegrableOn p S)
    (hq : IntegrableOn q S) (hr : IntegrableOn r S) :
    ∫ y in S, (p y - 2 * q y + r y) = (∫ y in S, p y) - 2 * (∫ y in S, q y) + ∫ y in S, r y := by
  have h1 : IntegrableOn (fun y => p y - 2 * q y) S := Integrable.sub hp (Integrable.const_mul hq 2)
  rw [integral_add h1 hr, integral_sub hp (Integrable.const_mul hq 2), integral_const_mul]

/-- C121: of all functions of the space, the result is the one with the least square distance from the function
that is projected, and it has the same integral. -/
theorem C121_best {S : Set (Fin d → ℝ)} (hS : IsCompact S) {coarse F T : List (SGroup ℝ (List ℝ))}
    {fine : List (SGroup ℝ (List ℝ) × ChildShape)} {records : List RefRecord} {data : List L2Data}
    {gs : List (List (Batch (List (List ℝ))))} {s sameMesh : Bool}
    (hmake : makeRefinementConn sameMesh coarse fine records = .ok (.direct F T gs s))
    {find : List (List ℝ) → List (List ℝ) → List (Option Nat)}
    {resample : List (List ℝ → ℝ) → List (List ℝ) → List (List ℝ) → Option (Mat ℝ)}
    {v w : DofArr ℝ}
    (hc : l2Call (l2OpsOf F T data) ⟨F.map (SGroup.toDGroup find resample),
      T.map (SGroup.toDGroup find resample), gs, s⟩ v = some w) {t : Nat} {g tg : SGroup ℝ (List ℝ)}
    {sh : ChildShape} {r : RefRecord} {dt : L2Data} (hg : coarse[t]? = some g) (htg : fine[t]? = some (tg, sh))
    (hrec : records[t]? = some r) (hdt : data[t]? = some dt) (hnodes : tg.nodes = g.nodes)
    (hbasis : tg.basis = g.basis) (hp : ProjSpace S g dt) (hd : ∀ v ∈ r.refVerts, v.length = d)
    {maps : List (UnitMap d)} (hmaps : ChildMaps sh r.refVerts r.children maps) (htile : Tiles S maps)
    (hclosed : ∀ m ∈ maps, ClosedAff g m) {e : Nat} {cs : List Nat} (he : r.mapping[e]? = some cs)
    {a : Nat → List ℝ} (ha : ∀ (j : Nat) k, cs[j]? = some k → HasValues g (a j) (v t k))
    {h : (Fin d → ℝ) → ℝ} (hh : Pieces S (partsOf cs maps) (fun j => fnOf g (a j)) h) :
    ∃ c, HasValues g c (w t e) ∧ ∫ y in S, fnOf g c y = ∫ y in S, h y ∧
      ∀ b : List ℝ, b.length = g.basis.length →
        ∫ y in S, (h y - fnOf g c y) ^ 2 ≤ ∫ y in S, (h y - fnOf g b y) ^ 2 := by
  obtain ⟨hsq, c, hcv, horth⟩ := C121_orthogonal hS hmake hc hg htg hrec hdt hnodes hbasis hp hd hmaps htile
    hclosed he ha hh
  refine ⟨c, hcv, ?_, ?_⟩
  · obtain ⟨one, h1, h2⟩ := hp.affine 0 1
    have := (horth one h1).2
    simpa [h2] using this
  · intro b hb
    have hcf : ∀ x x' : List ℝ, x.length = g.basis.length → x'.length = g.basis.length →
        IntegrableOn (fun y : Fin d → ℝ => fnOf g x y * fnOf g x' y) S := fun x x' hx hx' =>
      ((fnOf_continuous hp hx).mul (fnOf_continuous hp hx')).continuousOn.integrableOn_compact hS
    have key : ∀ x : List ℝ, x.length = g.basis.length → ∫ y in S, (h y - fnOf g x y) ^ 2 =
        (∫ y in S, h y * h y) - 2 * (∫ y in S, fnOf g c y * fnOf g x y) + ∫ y in S, fnOf g x y * fnOf g x y := by
      intro x hx
      have e : (fun y => (h y - fnOf g x y) ^ 2) = fun y =>
          (h y * h y - 2 * (h y * fnOf g x y)) + fnOf g x y * fnOf g x y := by
        funext y
        ring
      rw [e, integral_square hsq (horth x hx).1 (hcf x x hx hx), (horth x hx).2]
    rw [key b hb, key c hcv.1]
    have hpos : 0 ≤ ∫ y in S, (fnOf g b y - fnOf g c y) ^ 2 :=
      integral_nonneg fun y => sq_nonneg _
    have e : (fun y : Fin d → ℝ => (fnOf g b y - fnOf g c y) ^ 2) = fun y =>
        (fnOf g b y * fnOf g b y - 2 * (fnOf g c y * fnOf g b y)) + fnOf g c y * fnOf g c y := by
      funext y
      ring
    rw [e, integral_square (hcf b b hb hb) (hcf c b hcv.1 hb) (hcf c c hcv.1 hcv.1)] at hpos
    linarith

/-- C121: taking an array to the refined mesh and projecting it back gives the array. -/
theorem C121_round_trip {S : Set (Fin d → ℝ)} (hS : IsCompact S) {coarse F T : List (SGroup ℝ (List ℝ))}
    {fine : List (SGroup ℝ (List ℝ) × ChildShape)} {records : List RefRecord} {data : List L2Data}
    {gs : List (List (Batch (List (List ℝ))))} {s sameMesh : Bool}
    (hmake : makeRefinementConn sameMesh coarse fine records = .ok (.direct F T gs s))
    {find : List (List ℝ) → List (List ℝ) → List (Option Nat)}
    {resample : List (List ℝ → ℝ) → List (List ℝ) → List (List ℝ) → Option (Mat ℝ)}
    (hf : FindSound find) (hr : ResampleSound resample) {merge : Bool} {ary u v w : DofArr ℝ}
    (hcall : (SameConn.direct F T gs s).call find resample merge ary = .ok u)
    (huv : EqOn (T.map (SGroup.toDGroup find resample)) v u)
    (hc : l2Call (l2OpsOf F T data) ⟨F.map (SGroup.toDGroup find resample),
      T.map (SGroup.toDGroup find resample), gs, s⟩ v = some w) {t : Nat} {g tg : SGroup ℝ (List ℝ)}
    {sh : ChildShape} {r : RefRecord} {dt : L2Data} (hg : coarse[t]? = some g) (htg : fine[t]? = some (tg, sh))
    (hrec : records[t]? = some r) (hdt : data[t]? = some dt) (hnodes : tg.nodes = g.nodes)
    (hbasis : tg.basis = g.basis) (hp : ProjSpace S g dt) (hd : ∀ v ∈ r.refVerts, v.length = d)
    {maps : List (UnitMap d)} (hmaps : ChildMaps sh r.refVerts r.children maps) (htile : Tiles S maps)
    (hclosed : ∀ m ∈ maps, ClosedAff g m) (hx : ExactMapping r.mapping g.nel tg.nel) :
    ∀ e < g.nel, ∀ i < g.nodes.length, w t e i = ary t e i := by
  intro e hel i hi
  obtain ⟨cs, he⟩ : ∃ cs, r.mapping[e]? = some cs :=
    ⟨_, List.getElem?_eq_getElem (by rw [hx.1]; exact hel)⟩
  obtain ⟨a, ha⟩ := (hp.interp hS).2 (ary t e)
  obtain ⟨hone, hmany⟩ := C63_exact hf hr hmake hcall hg htg hrec hx hd he ha
  have hTt : (T.map (SGroup.toDGroup find resample))[t]? = some (tg.toDGroup find resample) := by
    obtain ⟨_, rfl, _⟩ := make_refine_direct hmake
    rw [List.getElem?_map, List.getElem?_map, htg]
    rfl
  -- the function on the parts
  have hne : g.nodes ≠ [] := by
    intro h0
    rw [h0] at hi
    simp at hi
  have hpart : ∀ (j : Nat) m, (partsOf cs maps)[j]? = some m → ∃ c' : List ℝ, c'.length = g.basis.length ∧
      ∀ y, fnOf g c' y = fnOf g a (m.at y) := by
    intro j m hj
    unfold partsOf at hj
    split at hj
    · have := List.mem_of_getElem? hj
      rw [List.mem_singleton] at this
      subst this
      exact ⟨a, ha.1, fun y => by simp [UnitMap.at, UnitMap.id]⟩
    · exact hclosed m (List.mem_of_getElem? hj) a ha.1
  obtain ⟨hpl, _⟩ := project_value hmake hc hg htg hrec hdt hnodes hbasis hp hd hmaps he
  have hch : ∀ j : Nat, ∃ c' : List ℝ, ∀ m : UnitMap d, (partsOf cs maps)[j]? = some m → c'.length = g.basis.length ∧
      ∀ y, fnOf g c' y = fnOf g a (m.at y) := by
    intro j
    cases hm : (partsOf cs maps)[j]? with
    | none => exact ⟨[], by simp⟩
    | some m =>
      obtain ⟨c', h1, h2⟩ := hpart j m hm
      exact ⟨c', fun m' hm' => by obtain rfl := Option.some.inj hm'; exact ⟨h1, h2⟩⟩
  choose a' ha' using hch
  have hval : ∀ (j : Nat) k, cs[j]? = some k → HasValues g (a' j) (v t k) := by
    intro j k hj
    have hjl := (List.getElem?_eq_some_iff.1 hj).1
    obtain ⟨m, hm⟩ : ∃ m, (partsOf cs maps)[j]? = some m := ⟨_, List.getElem?_eq_getElem (by omega)⟩
    obtain ⟨h1, h2⟩ := ha' j m hm
    refine ⟨h1, ?_⟩
    intro q x hq
    have hql := (List.getElem?_eq_some_iff.1 hq).1
    have hxl := hp.nodes x (List.mem_of_getElem? hq)
    have hk : k < tg.nel := by
      have : k ∈ r.mapping.flatten := List.mem_flatten.2 ⟨cs, List.mem_of_getElem? he, List.mem_of_getElem? hj⟩
      rw [hx.2] at this
      simpa using this
    have huvk : v t k q = u t k q := huv t _ hTt k hk q (by
      show q < tg.nodes.length
      rw [hnodes]
      exact hql)
    have hgoal : evalAt g.basis (a' j) x = evalAt g.basis a (List.ofFn (m.at (toPoint d x))) := by
      have := h2 (toPoint d x)
      rw [fnOf, ofFn_toPoint hxl] at this
      exact this
    rw [huvk, hgoal]
    unfold partsOf at hm
    by_cases h3 : cs.length = 1
    · rw [if_pos h3] at hm
      obtain ⟨k', rfl⟩ := List.length_eq_one_iff.1 h3
      have hj0 : j = 0 := by simpa using hjl
      subst hj0
      simp only [List.getElem?_cons_zero, Option.some.injEq] at hj hm
      subst hj hm
      have hid : (UnitMap.id d).at (toPoint d x) = toPoint d x := by simp [UnitMap.at, UnitMap.id]
      rw [hone k' rfl q x (by rw [hnodes]; exact hq), hid, ofFn_toPoint hxl]
    · rw [if_neg h3] at hm
      obtain ⟨hcl, hmany'⟩ := hmany h3
      have hcj : r.children[j]? = some (r.children[j]'(by omega)) := List.getElem?_eq_getElem (by omega)
      obtain ⟨origin, axs, hcor, hon⟩ := hmaps.2 j _ m hcj hm
      obtain ⟨origin', axs', T', hcor', hT', hT''⟩ := hmany' j k _ hj hcj
      obtain ⟨rfl, rfl⟩ := hcor.unique hcor'
      obtain ⟨h5, h6⟩ := hT'' q x (by rw [hnodes]; exact hq)
      have ho : origin.length = d := by
        obtain ⟨⟨n, _, hn'⟩, _⟩ := hcor
        exact hd _ (List.mem_of_getElem? hn')
      rw [h6, ← hon.childPoint ho (by omega) hxl]
      congr 1
      refine C63_map_unique hT' (childPoint_spec ?_) h5
      intro z hz
      obtain ⟨l, hl⟩ := List.mem_iff_getElem?.1 hz
      rw [ho]
      cases sh with
      | simplex =>
        obtain ⟨n, _, hn⟩ := hcor.2.2 l z hl
        exact hd _ (List.mem_of_getElem? hn)
      | tensor dim =>
        obtain ⟨n, _, hn⟩ := hcor.2.2 l z hl
        exact hd _ (List.mem_of_getElem? hn)
      | other => exact absurd hcor.2 id
  obtain ⟨_, c, hcv, horth⟩ := C121_orthogonal hS hmake hc hg htg hrec hdt hnodes hbasis hp hd hmaps htile
    hclosed he hval (h := fnOf g a) (by
      intro j m hj
      exact Filter.Eventually.of_forall fun y => ((ha' j m hj).2 y).symm)
  have hca : c = a := by
    apply hp.unique hS hcv.1 ha.1
    intro k hk
    have hu : ∀ y : Fin d → ℝ, (g.basis.getD k fun _ => 0) (List.ofFn y) =
        fnOf g ((List.replicate g.basis.length 0).set k 1) y := fun y => (evalAt_unit hk _).symm
    simp only [hu]
    exact (horth _ (by simp)).2
  have hxi : g.nodes[i]? = some (g.nodes.getD i []) := by simp [hi]
  rw [hcv.2 i _ hxi, ha.2 i _ hxi, hca]

/-- C121: the projection is defined if no group is empty. -/
theorem C121_defined {coarse F T : List (SGroup ℝ (List ℝ))}
    {fine : List (SGroup ℝ (List ℝ) × ChildShape)} {records : List RefRecord} {data : List L2Data}
    {gs : List (List (Batch (List (List ℝ))))} {s sameMesh : Bool}
    (hmake : makeRefinementConn sameMesh coarse fine records = .ok (.direct F T gs s))
    {find : List (List ℝ) → List (List ℝ) → List (Option Nat)}
    {resample : List (List ℝ → ℝ) → List (List ℝ) → List (List ℝ) → Option (Mat ℝ)}
    (hx : ∀ (t : Nat) f r, fine[t]? = some f → records[t]? = some r →
      ∃ n, ExactMapping r.mapping n f.1.nel ∧ 0 < f.1.nel) (v : DofArr ℝ) :
    ∃ w, l2Call (l2OpsOf F T data) ⟨F.map (SGroup.toDGroup find resample),
      T.map (SGroup.toDGroup find resample), gs, s⟩ v = some w := by
  obtain ⟨rfl, rfl, hgr⟩ := make_refine_direct hmake
  obtain ⟨h1, h2, h3, h4⟩ := refineConnGroups_ok.1 hgr
  unfold l2Call
  rw [if_neg (by simp [h3, h1]), if_neg ?_]
  · exact ⟨_, rfl⟩
  · simp only [List.any_eq_true, Bool.or_eq_true, List.isEmpty_iff, decide_eq_true_eq, not_exists, not_and]
    intro bs hbs hcase
    obtain ⟨t, ht⟩ := List.mem_iff_getElem?.1 hbs
    have htl := (List.getElem?_eq_some_iff.1 ht).1
    obtain ⟨bs', hbs', hb⟩ := h4 t _ _ (List.getElem?_eq_getElem (by omega)) (List.getElem?_eq_getElem (by omega))
    rw [ht] at hbs'
    obtain rfl := Option.some.inj hbs'
    obtain ⟨n, hn, hpos⟩ := hx t _ _ (List.getElem?_eq_getElem (by omega)) (List.getElem?_eq_getElem (by omega))
    obtain ⟨_, hperm, hfrom, _⟩ := refineBatches_ok hb (by rw [hn.2]; exact List.nodup_range)
    rcases hcase with h0 | ⟨b, hbm, hle⟩
    · subst h0
      rw [hn.2] at hperm
      have := hperm.length_eq
      simp at this
      omega
    · rw [(hfrom b hbm).1] at hle
      simp at hle
      omega

/-! ## Parts that cover -/

theorem volume_part {S : Set (Fin d → ℝ)} (hS : IsCompact S) {m : UnitMap d} (hm : m.lin.det ≠ 0) :
    volume.real (m.at '' S) = |m.lin.det| * volume.real S := by
  have h := (integral_part hS hm (F := fun _ => 1) (f := fun _ => 1) continuous_const (by simp)).2
  simpa using h

theorem apart_of_volume {S : Set (Fin d → ℝ)} (hS : IsCompact S) (maps : List (UnitMap d))
    (h : (maps.map fun m => volume.real (m.at '' S)).sum ≤ volume.real (⋃ m ∈ maps, m.at '' S)) :
    maps.Pairwise fun m m' => volume (m.at '' S ∩ m'.at '' S) = 0 := by
  have hfin : ∀ m : UnitMap d, volume (m.at '' S) ≠ ⊤ := fun m => (hS.image m.continuous).measure_lt_top.ne
  have hUc : ∀ l : List (UnitMap d), IsCompact (⋃ m ∈ l, m.at '' S) := by
    intro l
    have : (⋃ m ∈ l, m.at '' S) = ⋃ m ∈ {x | x ∈ l}, m.at '' S := rfl
    rw [this]
    exact (l.finite_toSet).isCompact_biUnion fun m _ => hS.image m.continuous
  have hle : ∀ l : List (UnitMap d),
      volume.real (⋃ m ∈ l, m.at '' S) ≤ (l.map fun m => volume.real (m.at '' S)).sum := by
    intro l
    induction l with
    | nil => simp
    | cons m l ih =>
      have hU : (⋃ x ∈ m :: l, x.at '' S) = m.at '' S ∪ ⋃ x ∈ l, x.at '' S := by
        ext y
        simp
      rw [hU, List.map_cons, List.sum_cons]
      exact (measureReal_union_le _ _).trans (by linarith)
  induction maps with
  | nil => simp
  | cons m maps ih =>
    have hU : (⋃ x ∈ m :: maps, x.at '' S) = m.at '' S ∪ ⋃ x ∈ maps, x.at '' S := by
      ext y
      simp
    rw [hU, List.map_cons, List.sum_cons] at h
    have h1 := measureReal_union_add_inter (μ := volume) (s := m.at '' S) (t := ⋃ x ∈ maps, x.at '' S)
      (hUc maps).measurableSet (hfin m) (hUc maps).measure_lt_top.ne
    have h2 := hle maps
    have h3 : 0 ≤ volume.real (m.at '' S ∩ ⋃ x ∈ maps, x.at '' S) := measureReal_nonneg
    refine List.pairwise_cons.2 ⟨?_, ih (by linarith)⟩
    intro m' hm'
    have h4 : volume.real (m.at '' S ∩ ⋃ x ∈ maps, x.at '' S) = 0 := by linarith
    have h5 : volume (m.at '' S ∩ ⋃ x ∈ maps, x.at '' S) = 0 := by
      have hne : volume (m.at '' S ∩ ⋃ x ∈ maps, x.at '' S) ≠ ⊤ :=
        ne_top_of_le_ne_top (hfin m) (measure_mono Set.inter_subset_left)
      exact (measureReal_eq_zero_iff hne).1 h4
    refine measure_mono_null ?_ h5
    exact Set.inter_subset_inter_right _ (Set.subset_biUnion_of_mem (u := fun x : UnitMap d => x.at '' S) hm')

/-- C121: parts that cover the reference element and have together its volume do not overlap. -/
theorem C121_tiles {S : Set (Fin d → ℝ)} (hS : IsCompact S) {maps : List (UnitMap d)}
    (hn : ∀ m ∈ maps, m.lin.det ≠ 0) (hcov : S = ⋃ m ∈ maps, m.at '' S)
    (hsum : (maps.map fun m => |m.lin.det|).sum = 1) : Tiles S maps := by
  refine ⟨hn, hcov, apart_of_volume hS maps ?_⟩
  rw [← hcov]
  have h1 : (maps.map fun m => volume.real (m.at '' S)) = maps.map fun m => |m.lin.det| * volume.real S :=
    List.map_congr_left fun m hm => volume_part hS (hn m hm)
  rw [h1, list_sum_mul_right, hsum, one_mul]

/-- The resampling matrix of a group with as many functions as nodes, which is exact. -/
theorem resample_exists {S : Set (Fin d → ℝ)} (hS : IsCompact S) {g : SGroup ℝ (List ℝ)} {dt : L2Data}
    (hp : ProjSpace S g dt) (new : List (List ℝ)) : ∃ M : Mat ℝ,
    M.length = new.length ∧ (∀ row ∈ M, row.length = g.nodes.length) ∧
    (∀ v : List ℝ, v.length = g.nodes.length → ∃ c : List ℝ, c.length = g.basis.length ∧
      g.nodes.map (evalAt g.basis c) = v ∧ matVec M v = new.map (evalAt g.basis c)) ∧
    ∀ c c' : List ℝ, c.length = g.basis.length → c'.length = g.basis.length →
      g.nodes.map (evalAt g.basis c) = g.nodes.map (evalAt g.basis c') → c = c' := by
  obtain ⟨huniq, hex⟩ := hp.interp hS
  choose card hcard using fun j : Nat => hex fun i => if i = j then 1 else 0
  refine ⟨new.map fun x => (List.range g.nodes.length).map fun j => evalAt g.basis (card j) x, by simp, ?_, ?_, ?_⟩
  · intro row hrow
    obtain ⟨x, _, rfl⟩ := List.mem_map.1 hrow
    simp
  · intro v hv
    obtain ⟨c, hc, hcv⟩ := hex fun i => v.getD i 0
    refine ⟨c, hc, ?_, ?_⟩
    · apply List.ext_getElem (by simp [hv])
      intro i h1 h2
      have h3 : i < g.nodes.length := by simpa using h1
      have := hcv i _ (List.getElem?_eq_getElem h3)
      simp only [List.getElem_map]
      rw [← this]
      simp [h2]
    · have hlin : ∀ x, evalAt g.basis ((List.range g.basis.length).map fun k =>
          ∑ j ∈ range g.nodes.length, v.getD j 0 * (card j).getD k 0) x =
          ∑ j ∈ range g.nodes.length, evalAt g.basis (card j) x * v.getD j 0 := by
        intro x
        rw [evalAt_sum (by simp)]
        simp only [evalAt_sum (hcard _).1, Finset.sum_mul]
        rw [Finset.sum_comm]
        apply Finset.sum_congr rfl
        intro k hk
        have hk' := Finset.mem_range.1 hk
        have : ((List.range g.basis.length).map fun k =>
          ∑ j ∈ range g.nodes.length, v.getD j 0 * (card j).getD k 0).getD k 0 =
          ∑ j ∈ range g.nodes.length, v.getD j 0 * (card j).getD k 0 := by simp [hk']
        rw [this, Finset.sum_mul]
        apply Finset.sum_congr rfl
        intro j _
        ring
      have hcc : c = (List.range g.basis.length).map fun k =>
          ∑ j ∈ range g.nodes.length, v.getD j 0 * (card j).getD k 0 := by
        apply huniq _ _ hc (by simp)
        intro q hq
        have hxq : g.nodes[q]? = some (g.nodes.getD q []) := by simp [hq]
        rw [hlin, ← hcv q _ hxq, Finset.sum_eq_single q]
        · rw [← (hcard q).2 q _ hxq]
          simp
        · intro j _ hjq
          rw [← (hcard j).2 q _ hxq]
          simp [Ne.symm hjq]
        · intro h
          simp [hq] at h
      unfold matVec
      rw [List.map_map]
      apply List.map_congr_left
      intro x _
      rw [hcc, hlin]
      simp only [Function.comp, rowDot]
      rw [← List.map_uncurry_zip_eq_zipWith]
      exact sum_zip_index (fun a b : ℝ => a * b) _ _ v hv 0
  · intro c c' hc hc' h
    apply huniq c c' hc hc'
    intro q hq
    have h1 := congrArg (fun l => l.getD q 0) h
    simpa [hq] using h1

end

/-! ## Order zero -/

/-- C121 without affine functions in the space (order zero) fails: the differentiation matrices are zero, so are
the weights, and the projection of any array is zero. -/
theorem C121_order_zero_counterexample :
    ∃ (g : SGroup ℝ (List ℝ)) (dt : L2Data) (gs : List (List (Batch (List (List ℝ))))),
      makeRefinementConn true [g] [(⟨true, 2, g.nodes, g.basis⟩, .simplex)]
        [⟨[[0, 1], [1, 2]], [[0], [1], [2]], [[0, 1]]⟩] =
        .ok (.direct [g] [⟨true, 2, g.nodes, g.basis⟩] gs true) ∧
      g.nodes = [[0]] ∧ (∀ φ ∈ g.basis, ∀ x y, φ x = φ y) ∧ g.basis.length = 1 ∧
      dt.dim = 1 ∧ dt.weights = [2] ∧ dt.diff 0 = [[0]] ∧
      ∀ find resample v w, l2Call (l2OpsOf [g] [⟨true, 2, g.nodes, g.basis⟩] [dt])
        ⟨[g].map (SGroup.toDGroup find resample), [⟨true, 2, g.nodes, g.basis⟩].map (SGroup.toDGroup find resample),
          gs, true⟩ v = some w → w 0 0 0 = 0 := by
  refine ⟨⟨true, 1, [[0]], [fun _ => Real.sqrt (1 / 2)]⟩, ⟨1, fun _ => [[0]], [2]⟩,
    [[⟨0, [0], [0], [[-1 / 2]], none⟩, ⟨0, [0], [1], [[1 / 2]], none⟩]], ?_, rfl, by simp, rfl, rfl, rfl, rfl, ?_⟩
  · have h1 : refinementBins 2 [[0, 1]] = some [[], [(0, 0)], [(0, 1)]] := by decide +kernel
    have h2 : (2 : ℝ)⁻¹ + 1 - 1 = 1 / 2 := by norm_num
    have h3 : (2 : ℝ)⁻¹ - 1 = -1 / 2 := by norm_num
    simp [makeRefinementConn, refineConnGroups, refineBatches, h1, mapNodesToChildren, allChildNodes,
      childNodes, childAxes, childPoint, binBatches, Except.map]
    norm_num
  · intro find resample v w hw
    unfold l2Call at hw
    split at hw
    · simp at hw
    split at hw
    · simp at hw
    obtain rfl := Option.some.inj hw
    simp [l2Batch, l2OpsOf, batchWeight, batchJac, SGroup.toDGroup]

/-! ## Example: linear functions on lines, with two Gauss points -/

section Example

/-- The reference line. (Example, no code.) -/
def exSegm : Set (Fin 1 → ℝ) := Set.Icc (fun _ => -1) fun _ => 1

/-- Orthonormal linear functions and Gauss nodes on the line. (Example, no code.) -/
noncomputable def exSegmGroup (nel : Nat) : SGroup ℝ (List ℝ) :=
  ⟨true, nel, [[-√(1 / 3)], [√(1 / 3)]], [fun _ => √(1 / 2), fun x => √(3 / 2) * x.headD 0]⟩

/-- Differentiation matrix and weights. (Example, no code.) -/
noncomputable def exSegmData : L2Data :=
  ⟨1, fun _ => [[-(1 / (2 * √(1 / 3))), 1 / (2 * √(1 / 3))], [-(1 / (2 * √(1 / 3))), 1 / (2 * √(1 / 3))]], [1, 1]⟩

/-- The maps onto the two halves. (Example, no code.) -/
noncomputable def exSegmMaps : List (UnitMap 1) :=
  [⟨Matrix.of fun _ _ => 1 / 2, fun _ => -1 / 2⟩, ⟨Matrix.of fun _ _ => 1 / 2, fun _ => 1 / 2⟩]

/-- The first element stays, the second is cut into halves. (Example, no code.) -/
def exSegmRecord : RefRecord := ⟨[[0, 1], [1, 2]], [[0], [1], [2]], [[0], [1, 2]]⟩

theorem exSegm_compact : IsCompact exSegm := isCompact_Icc

theorem exSegm_integral (F : ℝ → ℝ) : ∫ y in exSegm, F (y 0) = ∫ x in (-1 : ℝ)..1, F x := by
  have h := (volume_preserving_funUnique (Fin 1) ℝ).setIntegral_preimage_emb
    (MeasurableEquiv.measurableEmbedding _) F (Set.Icc (-1) 1)
  rw [intervalIntegral.integral_of_le (by norm_num), ← integral_Icc_eq_integral_Ioc, ← h]
  have : (MeasurableEquiv.funUnique (Fin 1) ℝ) ⁻¹' Set.Icc (-1) 1 = exSegm := by
    ext y
    simp [exSegm, Pi.le_def, MeasurableEquiv.funUnique]
  rw [this]
  rfl

theorem exSegm_quadratic (a b c : ℝ) : ∫ y in exSegm, (a + b * y 0 + c * y 0 ^ 2) = 2 * a + 2 / 3 * c := by
  rw [exSegm_integral fun x => a + b * x + c * x ^ 2, intervalIntegral.integral_add,
    intervalIntegral.integral_add]
  · have h0 : ∫ x in (-1 : ℝ)..1, b * x = 0 := by
      rw [intervalIntegral.integral_const_mul]
      simp
    rw [h0]
    simp
    ring
  all_goals exact Continuous.intervalIntegrable (by fun_prop) _ _

theorem exSegm_fn (nel : Nat) {c : List ℝ} (hc : c.length = 2) (y : Fin 1 → ℝ) :
    fnOf (exSegmGroup nel) c y = c.getD 0 0 * √(1 / 2) + c.getD 1 0 * √(3 / 2) * y 0 := by
  match c, hc with
  | [a, b], _ =>
    simp [fnOf, evalAt, exSegmGroup]
    ring

theorem exSegm_space (nel : Nat) : ProjSpace exSegm (exSegmGroup nel) exSegmData := by
  have hp : √(1 / 3 : ℝ) ^ 2 = 1 / 3 := Real.sq_sqrt (by norm_num)
  have hs : √(1 / 2 : ℝ) ^ 2 = 1 / 2 := Real.sq_sqrt (by norm_num)
  have ht : √(3 / 2 : ℝ) ^ 2 = 3 / 2 := Real.sq_sqrt (by norm_num)
  have hp0 : √(1 / 3 : ℝ) ≠ 0 := (Real.sqrt_pos.2 (by norm_num)).ne'
  have hs0 : √(1 / 2 : ℝ) ≠ 0 := (Real.sqrt_pos.2 (by norm_num)).ne'
  have ht0 : √(3 / 2 : ℝ) ≠ 0 := (Real.sqrt_pos.2 (by norm_num)).ne'
  have hev : ∀ (c : List ℝ), c.length = 2 → ∀ x : ℝ, evalAt (exSegmGroup nel).basis c [x] =
      c.getD 0 0 * √(1 / 2) + c.getD 1 0 * √(3 / 2) * x := by
    intro c hc x
    have := exSegm_fn nel hc fun _ => x
    simpa [fnOf] using this
  refine ⟨rfl, rfl, by simp [exSegmGroup], ?_, ?_, ?_, ?_, ?_⟩
  · intro φ hφ
    simp only [exSegmGroup, List.mem_cons, List.not_mem_nil, or_false] at hφ
    rcases hφ with rfl | rfl
    · exact continuous_const
    · simp only [List.ofFn_succ, List.headD_cons]
      exact continuous_const.mul (continuous_apply 0)
  · intro i j φ ψ hi hj
    have hil := (List.getElem?_eq_some_iff.1 hi).1
    have hjl := (List.getElem?_eq_some_iff.1 hj).1
    simp only [exSegmGroup, List.length_cons, List.length_nil, Nat.zero_add] at hil hjl
    have key : ∀ a b c : ℝ, (∀ y : Fin 1 → ℝ, φ (List.ofFn y) * ψ (List.ofFn y) = a + b * y 0 + c * y 0 ^ 2) →
        ∫ y in exSegm, φ (List.ofFn y) * ψ (List.ofFn y) = 2 * a + 2 / 3 * c := by
      intro a b c h
      simp only [h]
      exact exSegm_quadratic a b c
    interval_cases i <;> interval_cases j <;>
      simp only [exSegmGroup, List.getElem?_cons_zero, List.getElem?_cons_succ, Option.some.injEq] at hi hj <;>
      subst hi hj
    · rw [key (1 / 2) 0 0 (by intro y; show √(1 / 2) * √(1 / 2) = _; rw [← sq, hs]; ring)]
      norm_num
    · rw [key 0 (√(1 / 2) * √(3 / 2)) 0 (by intro y; simp; ring)]
      norm_num
    · rw [key 0 (√(1 / 2) * √(3 / 2)) 0 (by intro y; simp; ring)]
      norm_num
    · rw [key 0 0 (3 / 2) (by
        intro y
        simp only [List.ofFn_succ, List.headD_cons]
        have : √(3 / 2) * y 0 * (√(3 / 2) * y 0) = √(3 / 2) ^ 2 * y 0 ^ 2 := by ring
        rw [this, ht]
        ring)]
      norm_num
  · intro c c' hc hc'
    have hc2 : c.length = 2 := hc
    have hc2' : c'.length = 2 := hc'
    have hq : ∫ y in exSegm, fnOf (exSegmGroup nel) c y * fnOf (exSegmGroup nel) c' y =
        2 * (c.getD 0 0 * c'.getD 0 0 * (1 / 2)) + 2 / 3 * (c.getD 1 0 * c'.getD 1 0 * (3 / 2)) := by
      have : ∀ y : Fin 1 → ℝ, fnOf (exSegmGroup nel) c y * fnOf (exSegmGroup nel) c' y =
          c.getD 0 0 * c'.getD 0 0 * (1 / 2) + (c.getD 0 0 * c'.getD 1 0 + c.getD 1 0 * c'.getD 0 0) *
            √(1 / 2) * √(3 / 2) * y 0 + c.getD 1 0 * c'.getD 1 0 * (3 / 2) * y 0 ^ 2 := by
        intro y
        rw [exSegm_fn nel hc2, exSegm_fn nel hc2']
        have e : ∀ a b a' b' s t z : ℝ, s ^ 2 = 1 / 2 → t ^ 2 = 3 / 2 →
            (a * s + b * t * z) * (a' * s + b' * t * z) =
              a * a' * (1 / 2) + (a * b' + b * a') * s * t * z + b * b' * (3 / 2) * z ^ 2 := by
          intro a b a' b' s t z h1 h2
          linear_combination a * a' * h1 + b * b' * z ^ 2 * h2
        exact e _ _ _ _ _ _ _ hs ht
      simp only [this]
      exact exSegm_quadratic _ _ _
    rw [hq]
    have hn : (exSegmGroup nel).nodes = [[-√(1 / 3)], [√(1 / 3)]] := rfl
    simp only [hn, List.length_cons, List.length_nil, Finset.sum_range_succ, Finset.sum_range_zero,
      List.getD_cons_zero, List.getD_cons_succ, exSegmData, hev c hc2, hev c' hc2']
    have e : ∀ a b a' b' s t p : ℝ, s ^ 2 = 1 / 2 → t ^ 2 = 3 / 2 → p ^ 2 = 1 / 3 →
        0 + 1 * ((a * s + b * t * -p) * (a' * s + b' * t * -p)) + 1 * ((a * s + b * t * p) * (a' * s + b' * t * p)) =
        2 * (a * a' * (1 / 2)) + 2 / 3 * (b * b' * (3 / 2)) := by
      intro a b a' b' s t p h1 h2 h3
      have : 0 + 1 * ((a * s + b * t * -p) * (a' * s + b' * t * -p)) +
          1 * ((a * s + b * t * p) * (a' * s + b' * t * p)) =
          2 * (a * a' * s ^ 2) + 2 * (b * b' * t ^ 2 * p ^ 2) := by ring
      rw [this, h1, h2, h3]
      ring
    exact e _ _ _ _ _ _ _ hs ht hp
  · intro c hc q y hq a
    have hc2 : c.length = 2 := hc
    have ha : a = 0 := Subsingleton.elim _ _
    subst ha
    have hql := (List.getElem?_eq_some_iff.1 hq).1
    simp only [exSegmGroup, List.length_cons, List.length_nil, Nat.zero_add] at hql
    have hd : HasDerivAt (fun s : ℝ => fnOf (exSegmGroup nel) c (y + s • Pi.single 0 1))
        (c.getD 1 0 * √(3 / 2)) 0 := by
      have : (fun s : ℝ => fnOf (exSegmGroup nel) c (y + s • Pi.single 0 1)) =
          fun s => s * (c.getD 1 0 * √(3 / 2)) + (c.getD 0 0 * √(1 / 2) + c.getD 1 0 * √(3 / 2) * y 0) := by
        funext s
        rw [exSegm_fn nel hc2]
        simp
        ring
      rw [this]
      simpa using ((hasDerivAt_id (0 : ℝ)).mul_const (c.getD 1 0 * √(3 / 2))).add_const
        (c.getD 0 0 * √(1 / 2) + c.getD 1 0 * √(3 / 2) * y 0)
    have hn : (exSegmGroup nel).nodes = [[-√(1 / 3)], [√(1 / 3)]] := rfl
    have hsum : (∑ j ∈ range (exSegmGroup nel).nodes.length, (((exSegmData.diff (0 : Fin 1)).getD q []).getD j 0) *
        evalAt (exSegmGroup nel).basis c ((exSegmGroup nel).nodes.getD j [])) = c.getD 1 0 * √(3 / 2) := by
      have hrow : (exSegmData.diff (0 : Fin 1)).getD q [] = [-(1 / (2 * √(1 / 3))), 1 / (2 * √(1 / 3))] := by
        interval_cases q <;> rfl
      rw [hrow]
      simp only [hn, List.length_cons, List.length_nil, Finset.sum_range_succ, Finset.sum_range_zero,
        List.getD_cons_zero, List.getD_cons_succ, hev c hc2]
      field_simp
      ring
    rw [hsum]
    exact hd
  · intro l t
    refine ⟨[t / √(1 / 2), l 0 / √(3 / 2)], rfl, ?_⟩
    intro y
    rw [exSegm_fn nel rfl]
    simp only [List.getD_cons_zero, List.getD_cons_succ, Fin.sum_univ_one, Fin.isValue]
    field_simp
    ring

theorem exSegm_tiles : Tiles exSegm exSegmMaps := by
  apply C121_tiles exSegm_compact
  · intro m hm
    simp only [exSegmMaps, List.mem_cons, List.not_mem_nil, or_false] at hm
    rcases hm with rfl | rfl <;> simp
  · ext y
    have hmem : ∀ z : Fin 1 → ℝ, z ∈ exSegm ↔ -1 ≤ z 0 ∧ z 0 ≤ 1 := by
      intro z
      simp [exSegm, Pi.le_def]
    simp only [exSegmMaps, List.mem_cons, List.not_mem_nil, or_false, Set.mem_iUnion, Set.mem_image, hmem,
      exists_prop, exists_eq_or_imp, exists_eq_left]
    constructor
    · intro ⟨h1, h2⟩
      rcases le_total (y 0) 0 with h | h
      · left
        refine ⟨fun _ => 2 * y 0 + 1, ⟨by linarith, by linarith⟩, ?_⟩
        funext i
        have : i = 0 := Subsingleton.elim _ _
        subst this
        simp [UnitMap.at, Matrix.mulVec, dotProduct]
        ring
      · right
        refine ⟨fun _ => 2 * y 0 - 1, ⟨by linarith, by linarith⟩, ?_⟩
        funext i
        have : i = 0 := Subsingleton.elim _ _
        subst this
        simp [UnitMap.at, Matrix.mulVec, dotProduct]
        ring
    · rintro (⟨z, ⟨h1, h2⟩, rfl⟩ | ⟨z, ⟨h1, h2⟩, rfl⟩) <;>
        simp [UnitMap.at, Matrix.mulVec, dotProduct] <;> constructor <;> linarith
  · simp [exSegmMaps]
    norm_num

theorem exSegm_maps : ChildMaps .simplex exSegmRecord.refVerts exSegmRecord.children exSegmMaps := by
  refine ⟨rfl, ?_⟩
  intro j child m hc hm
  have hj := (List.getElem?_eq_some_iff.1 hc).1
  simp only [exSegmRecord, List.length_cons, List.length_nil, Nat.zero_add] at hj
  interval_cases j
  · simp only [exSegmRecord, exSegmMaps, List.getElem?_cons_zero, Option.some.injEq] at hc hm
    subst hc hm
    refine ⟨[0], [[1]], ⟨⟨0, rfl, rfl⟩, rfl, ?_⟩, ⟨?_, ?_⟩⟩
    · intro j v hv
      cases j with
      | zero => exact ⟨1, rfl, by simpa [exSegmRecord] using hv⟩
      | succ j => simp at hv
    · intro i
      simp [UnitMap.at, Matrix.mulVec, dotProduct]
      norm_num
    · intro j i
      have : j = 0 := Subsingleton.elim _ _
      subst this
      simp [UnitMap.at, Matrix.mulVec, dotProduct]
      norm_num
  · simp only [exSegmRecord, exSegmMaps, List.getElem?_cons_zero, List.getElem?_cons_succ,
      Option.some.injEq] at hc hm
    subst hc hm
    refine ⟨[1], [[2]], ⟨⟨1, rfl, rfl⟩, rfl, ?_⟩, ⟨?_, ?_⟩⟩
    · intro j v hv
      cases j with
      | zero => exact ⟨2, rfl, by simpa [exSegmRecord] using hv⟩
      | succ j => simp at hv
    · intro i
      simp [UnitMap.at, Matrix.mulVec, dotProduct]
    · intro j i
      have : j = 0 := Subsingleton.elim _ _
      subst this
      simp [UnitMap.at, Matrix.mulVec, dotProduct]
      norm_num

theorem exSegm_closed : ∀ m ∈ exSegmMaps, ClosedAff (exSegmGroup 2) m := by
  intro m _ c hc
  obtain ⟨c', h1, h2⟩ := (exSegm_space 2).affine (fun _ => c.getD 1 0 * √(3 / 2) * m.lin 0 0)
    (c.getD 0 0 * √(1 / 2) + c.getD 1 0 * √(3 / 2) * m.off 0)
  refine ⟨c', h1, fun y => ?_⟩
  rw [h2, exSegm_fn 2 hc]
  simp [UnitMap.at, Matrix.mulVec, dotProduct]
  ring

open Classical in
/-- A resampling matrix, whenever there is one. (Example, no code.) -/
noncomputable def exResample (basis : List (List ℝ → ℝ)) (new old : List (List ℝ)) : Option (Mat ℝ) :=
  if h : ∃ M : Mat ℝ, M.length = new.length ∧ (∀ row ∈ M, row.length = old.length) ∧
    (∀ v : List ℝ, v.length = old.length → ∃ c : List ℝ, c.length = basis.length ∧
      old.map (evalAt basis c) = v ∧ matVec M v = new.map (evalAt basis c)) ∧
    ∀ c c' : List ℝ, c.length = basis.length → c'.length = basis.length →
      old.map (evalAt basis c) = old.map (evalAt basis c') → c = c' then some h.choose else none

theorem exResample_sound : ResampleSound exResample := by
  intro basis new old M _ h
  unfold exResample at h
  split at h
  · rename_i hex
    obtain rfl := Option.some.inj h
    exact hex.choose_spec
  · simp at h

theorem exSegm_exact : ExactMapping exSegmRecord.mapping 2 3 := by
  unfold ExactMapping
  decide

theorem exSegm_ref : ∀ v ∈ exSegmRecord.refVerts, v.length = 1 := by decide

theorem exSegm_conn : ∃ gs, makeRefinementConn true [exSegmGroup 2] [(exSegmGroup 3, .simplex)] [exSegmRecord] =
    .ok (.direct [exSegmGroup 2] [exSegmGroup 3] gs true) := by
  obtain ⟨c, hc⟩ := ((C63_constructor (K := ℝ) true [exSegmGroup 2] [(exSegmGroup 3, .simplex)] [exSegmRecord]).2).2
    ⟨rfl, rfl, rfl, by
      intro t f r hf hr
      cases t with
      | succ t => simp at hf
      | zero =>
        simp only [List.getElem?_cons_zero, Option.some.injEq] at hf hr
        subst hf hr
        refine ⟨by decide, by simp, ?_⟩
        intro child hch
        obtain ⟨j, hj⟩ := List.mem_iff_getElem?.1 hch
        obtain ⟨o, a, h1, _⟩ := exSegm_maps.2 j child (exSegmMaps.getD j ⟨0, 0⟩) hj (by
          have := (List.getElem?_eq_some_iff.1 hj).1
          simp only [exSegmRecord, List.length_cons, List.length_nil, Nat.zero_add] at this
          interval_cases j <;> rfl)
        refine ⟨o, a, h1, ?_⟩
        have h2 : child.length = 2 := by
          have : ∀ c ∈ exSegmRecord.children, c.length = 2 := by decide
          exact this child hch
        have h3 := h1.2.1
        intro x hxn
        have := (exSegm_space 3).nodes x hxn
        omega⟩
  unfold makeRefinementConn at hc
  simp only [if_true] at hc
  cases hg : refineConnGroups 0 [exSegmGroup 2] [(exSegmGroup 3, ChildShape.simplex)] [exSegmRecord] with
  | error e => simp [hg, Except.map] at hc
  | ok gs =>
    refine ⟨gs, ?_⟩
    unfold makeRefinementConn
    simp only [if_true]
    rw [hg]
    rfl

theorem exSegm_find : FindSound (fun (src _ : List (List ℝ)) => src.map fun _ => (none : Option Nat)) := by
  intro src tgt
  rw [List.forall₂_map_right_iff]
  exact List.forall₂_same.2 fun _ _ j hj => by simp at hj

theorem exSegm_call {gs : List (List (Batch (List (List ℝ))))}
    (hc : makeRefinementConn true [exSegmGroup 2] [(exSegmGroup 3, .simplex)] [exSegmRecord] =
      .ok (.direct [exSegmGroup 2] [exSegmGroup 3] gs true)) (merge : Bool) (ary : DofArr ℝ) :
    ∃ u, (SameConn.direct [exSegmGroup 2] [exSegmGroup 3] gs true).call (fun src _ => src.map fun _ => none)
      exResample merge ary = .ok u := by
  have hres : ∀ g ∈ [exSegmGroup 2], g.basis.length = g.nodes.length ∧ ∀ u, exResample g.basis u g.nodes ≠ none := by
    intro g hg
    rw [List.mem_singleton] at hg
    subst hg
    refine ⟨rfl, fun u => ?_⟩
    unfold exResample
    rw [dif_pos (resample_exists exSegm_compact (exSegm_space 2) u)]
    simp
  exact C63_defined (find := fun src _ => src.map fun _ => none) (resample := exResample) hc merge ary
    hres (by decide)

theorem exSegm_project {gs : List (List (Batch (List (List ℝ))))}
    (hc : makeRefinementConn true [exSegmGroup 2] [(exSegmGroup 3, .simplex)] [exSegmRecord] =
      .ok (.direct [exSegmGroup 2] [exSegmGroup 3] gs true)) (u : DofArr ℝ) :
    ∃ w, l2Call (l2OpsOf [exSegmGroup 2] [exSegmGroup 3] [exSegmData])
      ⟨[exSegmGroup 2].map (SGroup.toDGroup (fun src _ => src.map fun _ => none) exResample),
        [exSegmGroup 3].map (SGroup.toDGroup (fun src _ => src.map fun _ => none) exResample), gs, true⟩ u =
      some w :=
  C121_defined (data := [exSegmData]) (find := fun src _ => src.map fun _ => none)
    (resample := exResample) hc (by
      intro t f r hf hr
      cases t with
      | succ t => simp at hf
      | zero =>
        simp only [List.getElem?_cons_zero, Option.some.injEq] at hf hr
        subst hf hr
        exact ⟨2, exSegm_exact, by simp [exSegmGroup]⟩) u

-- everything is defined, and the round trip gives the array back
example (ary : DofArr ℝ) (merge : Bool) : ∃ gs u w,
    makeRefinementConn true [exSegmGroup 2] [(exSegmGroup 3, .simplex)] [exSegmRecord] =
      .ok (.direct [exSegmGroup 2] [exSegmGroup 3] gs true) ∧
    (SameConn.direct [exSegmGroup 2] [exSegmGroup 3] gs true).call (fun src _ => src.map fun _ => none)
      exResample merge ary = .ok u ∧
    l2Call (l2OpsOf [exSegmGroup 2] [exSegmGroup 3] [exSegmData])
      ⟨[exSegmGroup 2].map (SGroup.toDGroup (fun src _ => src.map fun _ => none) exResample),
        [exSegmGroup 3].map (SGroup.toDGroup (fun src _ => src.map fun _ => none) exResample), gs, true⟩ u =
      some w ∧ ∀ e < 2, ∀ i < 2, w 0 e i = ary 0 e i := by
  obtain ⟨gs, hc⟩ := exSegm_conn
  obtain ⟨u, hu⟩ := exSegm_call hc merge ary
  obtain ⟨w, hw⟩ := exSegm_project hc u
  refine ⟨gs, u, w, hc, hu, hw, ?_⟩
  exact C121_round_trip (g := exSegmGroup 2) (tg := exSegmGroup 3) exSegm_compact hc exSegm_find exResample_sound hu
    (fun _ _ _ _ _ _ _ => rfl) hw rfl rfl rfl rfl rfl rfl
    (exSegm_space 2) exSegm_ref exSegm_maps exSegm_tiles exSegm_closed exSegm_exact

end Example



end Meshmode
