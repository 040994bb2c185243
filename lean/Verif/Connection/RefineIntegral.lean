import Verif.Connection.ProjectRefine
import Mathlib.Analysis.Calculus.ContDiff.Basic
import Mathlib.Analysis.Calculus.FDeriv.Comp
import Mathlib.Analysis.Calculus.LineDeriv.Basic
import Mathlib.Topology.Instances.Matrix

/-!
# Integrals over refined meshes (C122)

What a user computes as the integral of an array over the elements of a discretization: `quad_weights()`
(meshmode/discretization/__init__.py:551-578), times the area element made from `num_reference_derivative` of
the nodes (641-698), times the values.  The arrays on the refined mesh come from the connection of
`make_refinement_connection`, its nodes from the tessellation of the elements.
-/
namespace Meshmode

open Finset MeasureTheory

section
variable {d : Nat}

/-! ## Model and specification -/

/-- `num_reference_derivative(discr, (a,), x)` at one node: the matrix of `mp.diff_matrices` times the values
on the element, meshmode/discretization/__init__.py:680-698. -/
def refDeriv (dt : L2Data) (nn : Nat) (x : DofArr ℝ) (t e i a : Nat) : ℝ :=
  ∑ j ∈ range nn, ((dt.diff a).getD i []).getD j 0 * x t e j

/-- The area element at a node: the square root of the Gram determinant of the reference derivatives of the
coordinates, of which there are `n`. (Specification or proof vocabulary, no code.) -/
noncomputable def areaElement (dt : L2Data) (nn n : Nat) (X : Nat → DofArr ℝ) (t e i : Nat) : ℝ :=
  √(Matrix.of fun a b : Fin dt.dim =>
    ∑ c ∈ range n, refDeriv dt nn (X c) t e i a * refDeriv dt nn (X c) t e i b).det

/-- The integral of an array over one element, as one computes it from `quad_weights()`, the area elements and
the values. (Specification or proof vocabulary, no code.) -/
noncomputable def elIntegral (dt : L2Data) (nn n : Nat) (X : Nat → DofArr ℝ) (u : DofArr ℝ) (t e : Nat) : ℝ :=
  ∑ i ∈ range nn, dt.weights.getD i 0 * areaElement dt nn n X t e i * u t e i

/-- The array has, at the nodes of the children of an element, the values of the function `f` on the element.
(Specification or proof vocabulary, no code.) -/
def OnChildren (g : SGroup ℝ (List ℝ)) (cs : List Nat) (maps : List (UnitMap d)) (f : (Fin d → ℝ) → ℝ)
    (y : Nat → Nat → ℝ) : Prop :=
  ∀ (j k : Nat) m, cs[j]? = some k → (partsOf cs maps)[j]? = some m → ∀ (i : Nat) x, g.nodes[i]? = some x →
    y k i = f (m.at (toPoint d x))

/-- The rule of the group is exact for a function. (Specification or proof vocabulary, no code.) -/
def RuleExact (S : Set (Fin d → ℝ)) (g : SGroup ℝ (List ℝ)) (dt : L2Data) (h : (Fin d → ℝ) → ℝ) : Prop :=
  ∑ i ∈ range g.nodes.length, dt.weights.getD i 0 * h (toPoint d (g.nodes.getD i [])) = ∫ y in S, h y

/-- The area element of the element whose coordinates are the functions `F c`.
(Specification or proof vocabulary, no code.) -/
noncomputable def areaAt (n : Nat) (F : Nat → (Fin d → ℝ) → ℝ) (y : Fin d → ℝ) : ℝ :=
  √(Matrix.of fun a b : Fin d => ∑ c ∈ range n, fderiv ℝ (F c) y (Pi.single a 1) * fderiv ℝ (F c) y (Pi.single b 1)).det

/-! ## Derivatives -/

theorem refDeriv_eq {S : Set (Fin d → ℝ)} {g : SGroup ℝ (List ℝ)} {dt : L2Data} (hp : ProjSpace S g dt)
    {c : List ℝ} {x : DofArr ℝ} {t e : Nat} (hc : HasValues g c (x t e))
    (hdiff : Differentiable ℝ (fnOf (d := d) g c)) {i : Nat} (hi : i < g.nodes.length) (a : Fin d) :
    refDeriv dt g.nodes.length x t e i a =
      fderiv ℝ (fnOf g c) (toPoint d (g.nodes.getD i [])) (Pi.single a 1) := by
  have hl : g.nodes.getD i [] = g.nodes[i] := by simp [hi]
  have hxl := hp.nodes _ (List.getElem_mem hi)
  have hy : g.nodes[i]? = some (List.ofFn (toPoint d (g.nodes.getD i []))) := by
    rw [hl, ofFn_toPoint hxl]
    exact List.getElem?_eq_getElem hi
  have h1 := hp.deriv c hc.1 i _ hy a
  have h2 : HasDerivAt (fun s : ℝ => fnOf g c (toPoint d (g.nodes.getD i []) + s • Pi.single a 1))
      (fderiv ℝ (fnOf g c) (toPoint d (g.nodes.getD i [])) (Pi.single a 1)) 0 :=
    HasFDerivAt.hasLineDerivAt (hdiff _).hasFDerivAt _
  rw [← h1.unique h2]
  unfold refDeriv
  apply Finset.sum_congr rfl
  intro j hj
  have hj' := Finset.mem_range.1 hj
  have hxj : g.nodes[j]? = some (g.nodes.getD j []) := by simp [hj']
  rw [hc.2 j _ hxj]

theorem areaElement_eq {S : Set (Fin d → ℝ)} {g : SGroup ℝ (List ℝ)} {dt : L2Data} (hp : ProjSpace S g dt)
    {n : Nat} {C : Nat → List ℝ} {X : Nat → DofArr ℝ} {t e : Nat}
    (hC : ∀ c < n, HasValues g (C c) (X c t e)) (hdiff : ∀ c < n, Differentiable ℝ (fnOf (d := d) g (C c)))
    {i : Nat} (hi : i < g.nodes.length) :
    areaElement dt g.nodes.length n X t e i =
      areaAt (d := d) n (fun c => fnOf g (C c)) (toPoint d (g.nodes.getD i [])) := by
  unfold areaElement areaAt
  obtain rfl := hp.dim
  congr 2
  ext a b
  simp only [Matrix.of_apply]
  apply Finset.sum_congr rfl
  intro c hc
  have hc' := Finset.mem_range.1 hc
  rw [refDeriv_eq hp (hC c hc') (hdiff c hc') hi a, refDeriv_eq hp (hC c hc') (hdiff c hc') hi b]

theorem areaAt_comp (n : Nat) {F : Nat → (Fin d → ℝ) → ℝ} (hF : ∀ c < n, Differentiable ℝ (F c)) (m : UnitMap d)
    (y : Fin d → ℝ) : areaAt n (fun c y => F c (m.at y)) y = |m.lin.det| * areaAt n F (m.at y) := by
  have hd : ∀ c < n, ∀ a : Fin d, fderiv ℝ (fun y => F c (m.at y)) y (Pi.single a 1) =
      ∑ i, m.lin i a * fderiv ℝ (F c) (m.at y) (Pi.single i 1) := by
    intro c hc a
    have h1 := ((hF c hc (m.at y)).hasFDerivAt).comp y (m.hasFDeriv y)
    have h2 : fderiv ℝ (fun y => F c (m.at y)) y = _ := h1.fderiv
    rw [h2, ContinuousLinearMap.comp_apply]
    have h3 : (LinearMap.toContinuousLinearMap (Matrix.toLin' m.lin)) (Pi.single a 1 : Fin d → ℝ) =
        ∑ i, m.lin i a • (Pi.single i 1 : Fin d → ℝ) := by
      funext k
      simp [Finset.sum_apply, Pi.single_apply]
    rw [h3, map_sum]
    apply Finset.sum_congr rfl
    intro i _
    rw [map_smul, smul_eq_mul]
  have hM : (Matrix.of fun a b : Fin d => ∑ c ∈ range n, fderiv ℝ (fun y => F c (m.at y)) y (Pi.single a 1) *
      fderiv ℝ (fun y => F c (m.at y)) y (Pi.single b 1)) = m.lin.transpose *
      (Matrix.of fun a b : Fin d => ∑ c ∈ range n, fderiv ℝ (F c) (m.at y) (Pi.single a 1) *
        fderiv ℝ (F c) (m.at y) (Pi.single b 1)) * m.lin := by
    ext a b
    simp only [Matrix.of_apply, Matrix.mul_apply, Matrix.transpose_apply]
    have : ∀ c ∈ range n, fderiv ℝ (fun y => F c (m.at y)) y (Pi.single a 1) *
        fderiv ℝ (fun y => F c (m.at y)) y (Pi.single b 1) =
        ∑ j, ∑ i, m.lin i a * (fderiv ℝ (F c) (m.at y) (Pi.single i 1) *
          fderiv ℝ (F c) (m.at y) (Pi.single j 1)) * m.lin j b := by
      intro c hc
      have hc' := Finset.mem_range.1 hc
      rw [hd c hc' a, hd c hc' b, Finset.sum_mul_sum, Finset.sum_comm]
      apply Finset.sum_congr rfl
      intro j _
      apply Finset.sum_congr rfl
      intro i _
      ring
    rw [Finset.sum_congr rfl this, Finset.sum_comm]
    apply Finset.sum_congr rfl
    intro j _
    rw [Finset.sum_comm, Finset.sum_mul]
    apply Finset.sum_congr rfl
    intro i _
    rw [Finset.mul_sum, Finset.sum_mul]
  unfold areaAt
  rw [hM, Matrix.det_mul, Matrix.det_mul, Matrix.det_transpose]
  have : ∀ x y : ℝ, √(x * y * x) = |x| * √y := by
    intro x y
    rw [show x * y * x = x ^ 2 * y by ring, Real.sqrt_mul (sq_nonneg x), Real.sqrt_sq_eq_abs]
  rw [this]

theorem areaAt_continuous (n : Nat) {F : Nat → (Fin d → ℝ) → ℝ} (hF : ∀ c < n, ContDiff ℝ 1 (F c)) :
    Continuous (areaAt n F) := by
  unfold areaAt
  apply Real.continuous_sqrt.comp
  apply Continuous.matrix_det
  apply continuous_matrix
  intro a b
  simp only [Matrix.of_apply]
  refine continuous_finsetSum _ fun c hc => ?_
  have hc' := Finset.mem_range.1 hc
  have h := (hF c hc').continuous_fderiv (by norm_num)
  exact (h.clm_apply continuous_const).mul (h.clm_apply continuous_const)

/-! ## Values on the children -/

/-- An array made by the refinement connection has the values of the coarse functions on the children. -/
theorem refined_values {S : Set (Fin d → ℝ)} {coarse F T : List (SGroup ℝ (List ℝ))}
    {fine : List (SGroup ℝ (List ℝ) × ChildShape)} {records : List RefRecord}
    {gs : List (List (Batch (List (List ℝ))))} {s sameMesh : Bool}
    (hmake : makeRefinementConn sameMesh coarse fine records = .ok (.direct F T gs s))
    {find : List (List ℝ) → List (List ℝ) → List (Option Nat)}
    {resample : List (List ℝ → ℝ) → List (List ℝ) → List (List ℝ) → Option (Mat ℝ)}
    (hf : FindSound find) (hr : ResampleSound resample) {merge : Bool} {ary u : DofArr ℝ}
    (hcall : (SameConn.direct F T gs s).call find resample merge ary = .ok u) {t : Nat}
    {g tg : SGroup ℝ (List ℝ)} {sh : ChildShape} {r : RefRecord} {dt : L2Data} (hg : coarse[t]? = some g)
    (htg : fine[t]? = some (tg, sh)) (hrec : records[t]? = some r) (hnodes : tg.nodes = g.nodes)
    (hp : ProjSpace S g dt) (hd : ∀ v ∈ r.refVerts, v.length = d)
    {maps : List (UnitMap d)} (hmaps : ChildMaps sh r.refVerts r.children maps)
    (hx : ExactMapping r.mapping g.nel tg.nel) {e : Nat} {cs : List Nat} (he : r.mapping[e]? = some cs)
    {a : List ℝ} (ha : HasValues g a (ary t e)) :
    (partsOf cs maps).length = cs.length ∧ OnChildren g cs maps (fnOf g a) (u t) := by
  obtain ⟨hone, hmany⟩ := C63_exact hf hr hmake hcall hg htg hrec hx hd he ha
  constructor
  · unfold partsOf
    split
    · rename_i h
      simp [h]
    · rename_i h
      rw [hmaps.1, (hmany h).1]
  · intro j k m hj hm q x hq
    have hjl := (List.getElem?_eq_some_iff.1 hj).1
    have hxl := hp.nodes x (List.mem_of_getElem? hq)
    unfold partsOf at hm
    by_cases h3 : cs.length = 1
    · rw [if_pos h3] at hm
      obtain ⟨k', rfl⟩ := List.length_eq_one_iff.1 h3
      have hj0 : j = 0 := by simpa using hjl
      subst hj0
      simp only [List.getElem?_cons_zero, Option.some.injEq] at hj hm
      subst hj hm
      have hid : (UnitMap.id d).at (toPoint d x) = toPoint d x := by simp [UnitMap.at, UnitMap.id]
      rw [hone k' rfl q x (by rw [hnodes]; exact hq), hid, fnOf, ofFn_toPoint hxl]
    · rw [if_neg h3] at hm
      obtain ⟨hcl, hmany'⟩ := hmany h3
      have hcj : r.children[j]? = some (r.children[j]'(by omega)) := List.getElem?_eq_getElem (by omega)
      obtain ⟨origin, axs, hcor, hon⟩ := hmaps.2 j _ m hcj hm
      obtain ⟨origin', axs', T', hcor', hT', hT''⟩ := hmany' j k _ hj hcj
      obtain ⟨rfl, rfl⟩ := hcor.unique hcor'
      obtain ⟨h5, h6⟩ := hT'' q x (by rw [hnodes]; exact hq)
      have ho : origin.length = d := by
        obtain ⟨⟨n, _, hn'⟩, _⟩ := hcor
        exact hd _ (List.mem_of_getElem? hn')
      rw [h6, fnOf, ← hon.childPoint ho (by omega) hxl]
      congr 1
      refine C63_map_unique hT' (childPoint_spec ?_) h5
      intro z hz
      obtain ⟨l, hl⟩ := List.mem_iff_getElem?.1 hz
      rw [ho]
      cases sh with
      | simplex =>
        obtain ⟨n, _, hn⟩ := hcor.2.2 l z hl
        exact hd _ (List.mem_of_getElem? hn)
      | tensor dim =>
        obtain ⟨n, _, hn⟩ := hcor.2.2 l z hl
        exact hd _ (List.mem_of_getElem? hn)
      | other => exact absurd hcor.2 id

/-! ## Properties -/

/-- C122: integrals over the children add up to the integral over the element, also for curved elements,
if the rule is exact for the integrand on the element and on its parts.  `C` are the coefficients of the
coordinates, `h` is the function with the values of the array. -/
theorem C122_element {S : Set (Fin d → ℝ)} (hS : IsCompact S) {g : SGroup ℝ (List ℝ)} {dt : L2Data}
    (hp : ProjSpace S g dt) {n t e : Nat} {X Y : Nat → DofArr ℝ} {C : Nat → List ℝ}
    (hC : ∀ c < n, HasValues g (C c) (X c t e)) (hsmooth : ∀ c < n, ContDiff ℝ 1 (fnOf (d := d) g (C c)))
    {cs : List Nat} {maps : List (UnitMap d)} (hlen : (partsOf cs maps).length = cs.length)
    (htile : Tiles S maps) (hclosed : ∀ m ∈ maps, ClosedAff g m)
    (hY : ∀ c < n, OnChildren g cs maps (fnOf g (C c)) (Y c t)) {u v : DofArr ℝ} {h : (Fin d → ℝ) → ℝ}
    (hcont : Continuous h) (hu : ∀ (i : Nat) x, g.nodes[i]? = some x → u t e i = h (toPoint d x))
    (hv : OnChildren g cs maps h (v t))
    (hex : RuleExact S g dt fun y => areaAt n (fun c => fnOf g (C c)) y * h y)
    (hexp : ∀ m ∈ partsOf cs maps, RuleExact S g dt fun y =>
      areaAt n (fun c => fnOf g (C c)) (m.at y) * h (m.at y)) :
    (cs.map (elIntegral dt g.nodes.length n Y v t)).sum = elIntegral dt g.nodes.length n X u t e := by
  have hdiff : ∀ c < n, Differentiable ℝ (fnOf (d := d) g (C c)) := fun c hc =>
    (hsmooth c hc).differentiable (by norm_num)
  have hcA := areaAt_continuous n hsmooth
  have hparent : elIntegral dt g.nodes.length n X u t e =
      ∫ y in S, areaAt n (fun c => fnOf g (C c)) y * h y := by
    rw [← hex]
    unfold elIntegral
    apply Finset.sum_congr rfl
    intro i hi
    have hi' := Finset.mem_range.1 hi
    have hxi : g.nodes[i]? = some (g.nodes.getD i []) := by simp [hi']
    rw [areaElement_eq hp hC hdiff hi', hu i _ hxi, mul_assoc]
  have htl : Tiles S (partsOf cs maps) := by
    unfold partsOf
    split
    · exact tiles_id S
    · exact htile
  have hcl : ∀ m ∈ partsOf cs maps, ClosedAff g m := by
    unfold partsOf
    split
    · intro m hm b hb
      rw [List.mem_singleton.1 hm]
      exact ⟨b, hb, fun y => by simp [UnitMap.at, UnitMap.id]⟩
    · exact hclosed
  have hchild : ∀ (j k : Nat) m, cs[j]? = some k → (partsOf cs maps)[j]? = some m →
      elIntegral dt g.nodes.length n Y v t k =
        |m.lin.det| * ∫ y in S, areaAt n (fun c => fnOf g (C c)) (m.at y) * h (m.at y) := by
    intro j k m hj hm
    have hmm := List.mem_of_getElem? hm
    have hch : ∀ c : Nat, ∃ c' : List ℝ, c < n → HasValues g c' (Y c t k) ∧
        ∀ y, fnOf g c' y = fnOf g (C c) (m.at y) := by
      intro c
      by_cases hc : c < n
      · obtain ⟨c', h1, h2⟩ := hcl m hmm (C c) (hC c hc).1
        refine ⟨c', fun _ => ⟨⟨h1, ?_⟩, h2⟩⟩
        intro i x hi
        have := h2 (toPoint d x)
        rw [hY c hc j k m hj hm i x hi, ← this, fnOf, ofFn_toPoint (hp.nodes x (List.mem_of_getElem? hi))]
      · exact ⟨[], fun h => absurd h hc⟩
    choose C' hC' using hch
    have heq : ∀ c < n, fnOf (d := d) g (C' c) = fun y => fnOf g (C c) (m.at y) := fun c hc =>
      funext (hC' c hc).2
    have hdiff' : ∀ c < n, Differentiable ℝ (fnOf (d := d) g (C' c)) := by
      intro c hc
      rw [heq c hc]
      exact (hdiff c hc).comp fun y => (m.hasFDeriv y).differentiableAt
    have harea : ∀ y, areaAt (d := d) n (fun c => fnOf g (C' c)) y =
        areaAt n (fun c y => fnOf g (C c) (m.at y)) y := by
      intro y
      unfold areaAt
      congr 2
      ext a b
      simp only [Matrix.of_apply]
      apply Finset.sum_congr rfl
      intro c hc
      rw [heq c (Finset.mem_range.1 hc)]
    rw [← hexp m hmm, Finset.mul_sum]
    unfold elIntegral
    apply Finset.sum_congr rfl
    intro i hi
    have hi' := Finset.mem_range.1 hi
    have hxi : g.nodes[i]? = some (g.nodes.getD i []) := by simp [hi']
    rw [areaElement_eq hp (fun c hc => (hC' c hc).1) hdiff' hi', harea, areaAt_comp n hdiff,
      hv j k m hj hm i _ hxi]
    ring
  have hint := (integral_tiles hS htl (F := fun y => areaAt n (fun c => fnOf g (C c)) y * h y)
    (f := fun j y => areaAt n (fun c => fnOf g (C c)) (((partsOf cs maps).getD j ⟨0, 0⟩).at y) *
      h (((partsOf cs maps).getD j ⟨0, 0⟩).at y))
    (fun j _ => (hcA.comp (UnitMap.continuous _)).mul (hcont.comp (UnitMap.continuous _))) (by
      intro j m hj
      have : (partsOf cs maps).getD j ⟨0, 0⟩ = m := by
        rw [List.getD_eq_getElem?_getD, hj]
        rfl
      simp only [this]
      simp)).2
  rw [hparent, hint, hlen]
  have hsum : ∀ (l : List Nat) (f : Nat → ℝ), (l.map f).sum = ∑ j ∈ range l.length, f (l.getD j 0) := by
    intro l f
    induction l with
    | nil => simp
    | cons x l ih =>
      rw [List.map_cons, List.sum_cons, ih, List.length_cons, Finset.sum_range_succ', add_comm]
      simp
  rw [hsum]
  apply Finset.sum_congr rfl
  intro j hj
  have hj' := Finset.mem_range.1 hj
  have hm : (partsOf cs maps)[j]? = some ((partsOf cs maps).getD j ⟨0, 0⟩) := by
    rw [List.getD_eq_getElem?_getD, List.getElem?_eq_getElem (by omega), Option.getD_some]
  have hk : cs[j]? = some (cs.getD j 0) := by simp [hj']
  rw [hchild j _ _ hk hm]
  congr 3
  simp [List.getD_eq_getElem?_getD, List.getElem?_eq_getElem (show j < (partsOf cs maps).length by omega)]

/-- The coordinates of an element are affine functions. (Specification or proof vocabulary, no code.) -/
def affFn (l : Fin d → ℝ) (s : ℝ) (y : Fin d → ℝ) : ℝ := ∑ i, l i * y i + s

theorem affFn_fderiv (l : Fin d → ℝ) (s : ℝ) (y : Fin d → ℝ) (a : Fin d) :
    fderiv ℝ (affFn l s) y (Pi.single a 1) = l a := by
  have h : HasFDerivAt (affFn l s) (∑ i, l i • ContinuousLinearMap.proj (R := ℝ) (φ := fun _ : Fin d => ℝ) i) y := by
    have h1 := (∑ i, l i • ContinuousLinearMap.proj (R := ℝ) (φ := fun _ : Fin d => ℝ) i).hasFDerivAt (x := y)
    have h2 : affFn l s = fun y => (∑ i, l i • ContinuousLinearMap.proj (R := ℝ) (φ := fun _ : Fin d => ℝ) i) y + s := by
      funext y
      simp [affFn]
    rw [h2]
    exact h1.add_const s
  rw [h.fderiv]
  simp [Pi.single_apply]

theorem affFn_smooth (l : Fin d → ℝ) (s : ℝ) : ContDiff ℝ 1 (affFn l s) := by
  unfold affFn
  fun_prop

/-- The element is straight: its coordinates are affine functions of the reference coordinates.
(Specification or proof vocabulary, no code.) -/
def Straight (g : SGroup ℝ (List ℝ)) (n : Nat) (l : Nat → Fin d → ℝ) (s : Nat → ℝ) (X : Nat → Nat → ℝ) : Prop :=
  ∀ c < n, ∀ (i : Nat) x, g.nodes[i]? = some x → X c i = affFn (l c) (s c) (toPoint d x)

/-- C122: for straight elements and the product of two arrays on the coarse mesh, the integrals over the children
add up to that over the element. -/
theorem C122_straight {S : Set (Fin d → ℝ)} (hS : IsCompact S) {g : SGroup ℝ (List ℝ)} {dt : L2Data}
    (hp : ProjSpace S g dt) {n t e : Nat} {X Y : Nat → DofArr ℝ} {l : Nat → Fin d → ℝ} {s : Nat → ℝ}
    (hX : Straight g n l s fun c => X c t e) {cs : List Nat} {maps : List (UnitMap d)}
    (hlen : (partsOf cs maps).length = cs.length) (htile : Tiles S maps) (hclosed : ∀ m ∈ maps, ClosedAff g m)
    (hY : ∀ c < n, OnChildren g cs maps (affFn (l c) (s c)) (Y c t)) {p q p' q' : DofArr ℝ} {a b : List ℝ}
    (ha : HasValues g a (p t e)) (hb : HasValues g b (q t e))
    (ha' : OnChildren g cs maps (fnOf g a) (p' t)) (hb' : OnChildren g cs maps (fnOf g b) (q' t)) :
    (cs.map (elIntegral dt g.nodes.length n Y (fun t e i => p' t e i * q' t e i) t)).sum =
      elIntegral dt g.nodes.length n X (fun t e i => p t e i * q t e i) t e := by
  have hch : ∀ c : Nat, ∃ C : List ℝ, C.length = g.basis.length ∧ ∀ y : Fin d → ℝ, fnOf g C y = affFn (l c) (s c) y :=
    fun c => hp.affine (l c) (s c)
  choose C hCl hCf using hch
  have hCf' : ∀ c, fnOf (d := d) g (C c) = affFn (l c) (s c) := fun c => funext (hCf c)
  have hpt : ∀ (f : List ℝ) (x : List ℝ), x ∈ g.nodes → evalAt g.basis f x = fnOf g f (toPoint d x) := by
    intro f x hx
    rw [fnOf, ofFn_toPoint (hp.nodes x hx)]
  have hconst : ∀ y : Fin d → ℝ, areaAt n (fun c => fnOf g (C c)) y = areaAt n (fun c => fnOf (d := d) g (C c)) 0 := by
    intro y
    unfold areaAt
    simp only [hCf', affFn_fderiv]
  have hrule : ∀ a b : List ℝ, a.length = g.basis.length → b.length = g.basis.length → ∀ k : ℝ,
      RuleExact S g dt fun y => k * (fnOf g a y * fnOf g b y) := by
    intro a b ha hb k
    unfold RuleExact
    rw [integral_const_mul, ← hp.exact a b ha hb, Finset.mul_sum]
    apply Finset.sum_congr rfl
    intro i hi
    have hi' := Finset.mem_range.1 hi
    have hxi : g.nodes[i]? = some (g.nodes.getD i []) := by simp [hi']
    rw [hpt a _ (List.mem_of_getElem? hxi), hpt b _ (List.mem_of_getElem? hxi)]
    ring
  have hcl : ∀ m ∈ partsOf cs maps, ClosedAff g m := by
    unfold partsOf
    split
    · intro m hm b hb
      rw [List.mem_singleton.1 hm]
      exact ⟨b, hb, fun y => by simp [UnitMap.at, UnitMap.id]⟩
    · exact hclosed
  refine C122_element hS hp (C := C) (h := fun y => fnOf g a y * fnOf g b y) ?_ ?_ hlen htile hclosed ?_
    ((fnOf_continuous hp ha.1).mul (fnOf_continuous hp hb.1)) ?_ ?_ ?_ ?_
  · intro c hc
    refine ⟨hCl c, ?_⟩
    intro i x hi
    have h1 : X c t e i = _ := hX c hc i x hi
    rw [h1, hpt _ _ (List.mem_of_getElem? hi), hCf]
  · intro c _
    rw [hCf']
    exact affFn_smooth _ _
  · intro c hc
    rw [hCf']
    exact hY c hc
  · intro i x hi
    show p t e i * q t e i = _
    rw [ha.2 i x hi, hb.2 i x hi, hpt _ _ (List.mem_of_getElem? hi), hpt _ _ (List.mem_of_getElem? hi)]
  · intro j k m hj hm i x hi
    show p' t k i * q' t k i = _
    rw [ha' j k m hj hm i x hi, hb' j k m hj hm i x hi]
  · simp only [hconst]
    exact hrule a b ha.1 hb.1 _
  · intro m hm
    simp only [hconst]
    obtain ⟨a1, h1, h2⟩ := hcl m hm a ha.1
    obtain ⟨b1, h3, h4⟩ := hcl m hm b hb.1
    simp only [← h2, ← h4]
    exact hrule a1 b1 h1 h3 _

/-- Sums over the children of all elements are sums over all fine elements. -/
theorem sum_children {mapping : List (List Nat)} {nc nf : Nat} (hx : ExactMapping mapping nc nf) (f F : Nat → ℝ)
    (h : ∀ (e : Nat) cs, mapping[e]? = some cs → (cs.map f).sum = F e) :
    ∑ k ∈ range nf, f k = ∑ e ∈ range nc, F e := by
  have h1 : ∑ k ∈ range nf, f k = (mapping.flatten.map f).sum := by
    rw [hx.2, ← List.sum_toFinset _ List.nodup_range]
    congr 1
    ext k
    simp
  have h2 : ∀ (l : List (List Nat)) (F : Nat → ℝ), (∀ (e : Nat) cs, l[e]? = some cs → (cs.map f).sum = F e) →
      (l.flatten.map f).sum = ∑ e ∈ range l.length, F e := by
    intro l
    induction l with
    | nil => simp
    | cons cs l ih =>
      intro F hF
      rw [List.flatten_cons, List.map_append, List.sum_append, hF 0 cs rfl, List.length_cons,
        Finset.sum_range_succ', ih (fun e => F (e + 1)) fun e cs' he => hF (e + 1) cs' (by simpa using he)]
      ring
  rw [h1, h2 _ F h, hx.1]

/-- C122: the integral of the product of two arrays over a straight mesh is that of the refined arrays over the
refined mesh.  `X` and `Y` are the nodes of the two discretizations. -/
theorem C122_total {S : Set (Fin d → ℝ)} (hS : IsCompact S) {coarse F T : List (SGroup ℝ (List ℝ))}
    {fine : List (SGroup ℝ (List ℝ) × ChildShape)} {records : List RefRecord}
    {gs : List (List (Batch (List (List ℝ))))} {sm sameMesh : Bool}
    (hmake : makeRefinementConn sameMesh coarse fine records = .ok (.direct F T gs sm))
    {find : List (List ℝ) → List (List ℝ) → List (Option Nat)}
    {resample : List (List ℝ → ℝ) → List (List ℝ) → List (List ℝ) → Option (Mat ℝ)}
    (hf : FindSound find) (hr : ResampleSound resample) {merge merge' : Bool} {p q p' q' : DofArr ℝ}
    (hcp : (SameConn.direct F T gs sm).call find resample merge p = .ok p')
    (hcq : (SameConn.direct F T gs sm).call find resample merge' q = .ok q') {t : Nat}
    {g tg : SGroup ℝ (List ℝ)} {sh : ChildShape} {r : RefRecord} {dt : L2Data} (hg : coarse[t]? = some g)
    (htg : fine[t]? = some (tg, sh)) (hrec : records[t]? = some r) (hnodes : tg.nodes = g.nodes)
    (hp : ProjSpace S g dt) (hd : ∀ v ∈ r.refVerts, v.length = d)
    {maps : List (UnitMap d)} (hmaps : ChildMaps sh r.refVerts r.children maps) (htile : Tiles S maps)
    (hclosed : ∀ m ∈ maps, ClosedAff g m) (hx : ExactMapping r.mapping g.nel tg.nel)
    {n : Nat} {X Y : Nat → DofArr ℝ} {l : Nat → Nat → Fin d → ℝ} {s : Nat → Nat → ℝ}
    (hX : ∀ e < g.nel, Straight g n (l e) (s e) fun c => X c t e)
    (hY : ∀ (e : Nat) cs, r.mapping[e]? = some cs → ∀ c < n,
      OnChildren g cs maps (affFn (l e c) (s e c)) (Y c t)) :
    ∑ k ∈ range tg.nel, elIntegral dt tg.nodes.length n Y (fun t e i => p' t e i * q' t e i) t k =
      ∑ e ∈ range g.nel, elIntegral dt g.nodes.length n X (fun t e i => p t e i * q t e i) t e := by
  rw [hnodes]
  apply sum_children hx
  intro e cs he
  have hel : e < g.nel := by
    rw [← hx.1]
    exact (List.getElem?_eq_some_iff.1 he).1
  obtain ⟨a, ha⟩ := (hp.interp hS).2 (p t e)
  obtain ⟨b, hb⟩ := (hp.interp hS).2 (q t e)
  obtain ⟨hlen, ha'⟩ := refined_values hmake hf hr hcp hg htg hrec hnodes hp hd hmaps hx he ha
  obtain ⟨_, hb'⟩ := refined_values hmake hf hr hcq hg htg hrec hnodes hp hd hmaps hx he hb
  exact C122_straight hS hp (hX e hel) hlen htile hclosed (hY e cs he) ha hb ha' hb'

/-- C122: the integral of an array over a straight mesh is that of the refined array over the refined mesh. -/
theorem C122_integral {S : Set (Fin d → ℝ)} (hS : IsCompact S) {coarse F T : List (SGroup ℝ (List ℝ))}
    {fine : List (SGroup ℝ (List ℝ) × ChildShape)} {records : List RefRecord}
    {gs : List (List (Batch (List (List ℝ))))} {sm sameMesh : Bool}
    (hmake : makeRefinementConn sameMesh coarse fine records = .ok (.direct F T gs sm))
    {find : List (List ℝ) → List (List ℝ) → List (Option Nat)}
    {resample : List (List ℝ → ℝ) → List (List ℝ) → List (List ℝ) → Option (Mat ℝ)}
    (hf : FindSound find) (hr : ResampleSound resample) {merge : Bool} {p p' : DofArr ℝ}
    (hcp : (SameConn.direct F T gs sm).call find resample merge p = .ok p') {t : Nat}
    {g tg : SGroup ℝ (List ℝ)} {sh : ChildShape} {r : RefRecord} {dt : L2Data} (hg : coarse[t]? = some g)
    (htg : fine[t]? = some (tg, sh)) (hrec : records[t]? = some r) (hnodes : tg.nodes = g.nodes)
    (hp : ProjSpace S g dt) (hd : ∀ v ∈ r.refVerts, v.length = d)
    {maps : List (UnitMap d)} (hmaps : ChildMaps sh r.refVerts r.children maps) (htile : Tiles S maps)
    (hclosed : ∀ m ∈ maps, ClosedAff g m) (hx : ExactMapping r.mapping g.nel tg.nel)
    {n : Nat} {X Y : Nat → DofArr ℝ} {l : Nat → Nat → Fin d → ℝ} {s : Nat → Nat → ℝ}
    (hX : ∀ e < g.nel, Straight g n (l e) (s e) fun c => X c t e)
    (hY : ∀ (e : Nat) cs, r.mapping[e]? = some cs → ∀ c < n,
      OnChildren g cs maps (affFn (l e c) (s e c)) (Y c t)) :
    ∑ k ∈ range tg.nel, elIntegral dt tg.nodes.length n Y p' t k =
      ∑ e ∈ range g.nel, elIntegral dt g.nodes.length n X p t e := by
  rw [hnodes]
  apply sum_children hx
  intro e cs he
  have hel : e < g.nel := by
    rw [← hx.1]
    exact (List.getElem?_eq_some_iff.1 he).1
  obtain ⟨a, ha⟩ := (hp.interp hS).2 (p t e)
  obtain ⟨b, hb1, hb2⟩ := hp.affine 0 1
  have hb2' : ∀ y : Fin d → ℝ, fnOf g b y = 1 := by
    intro y
    rw [hb2]
    simp
  have hb : HasValues g b fun _ => 1 := by
    refine ⟨hb1, ?_⟩
    intro i x hi
    have := hb2' (toPoint d x)
    rw [fnOf, ofFn_toPoint (hp.nodes x (List.mem_of_getElem? hi))] at this
    exact this.symm
  obtain ⟨hlen, ha'⟩ := refined_values hmake hf hr hcp hg htg hrec hnodes hp hd hmaps hx he ha
  have := C122_straight hS hp (hX e hel) hlen htile hclosed (hY e cs he) (q := fun _ _ _ => 1)
    (q' := fun _ _ _ => 1) ha hb ha' fun j k m _ _ i x _ => (hb2' _).symm
  simpa using this

/-- C122: projecting an array of a refined straight mesh back keeps its integral against any array of the coarse
mesh (refined for the integral over the refined mesh). -/
theorem C122_project {S : Set (Fin d → ℝ)} (hS : IsCompact S) {coarse F T : List (SGroup ℝ (List ℝ))}
    {fine : List (SGroup ℝ (List ℝ) × ChildShape)} {records : List RefRecord} {data : List L2Data}
    {gs : List (List (Batch (List (List ℝ))))} {sm sameMesh : Bool}
    (hmake : makeRefinementConn sameMesh coarse fine records = .ok (.direct F T gs sm))
    {find : List (List ℝ) → List (List ℝ) → List (Option Nat)}
    {resample : List (List ℝ → ℝ) → List (List ℝ) → List (List ℝ) → Option (Mat ℝ)}
    (hf : FindSound find) (hr : ResampleSound resample) {merge : Bool} {v w q q' : DofArr ℝ}
    (hc : l2Call (l2OpsOf F T data) ⟨F.map (SGroup.toDGroup find resample),
      T.map (SGroup.toDGroup find resample), gs, sm⟩ v = some w)
    (hcq : (SameConn.direct F T gs sm).call find resample merge q = .ok q') {t : Nat}
    {g tg : SGroup ℝ (List ℝ)} {sh : ChildShape} {r : RefRecord} {dt : L2Data} (hg : coarse[t]? = some g)
    (htg : fine[t]? = some (tg, sh)) (hrec : records[t]? = some r) (hdt : data[t]? = some dt)
    (hnodes : tg.nodes = g.nodes) (hbasis : tg.basis = g.basis)
    (hp : ProjSpace S g dt) (hd : ∀ v ∈ r.refVerts, v.length = d)
    {maps : List (UnitMap d)} (hmaps : ChildMaps sh r.refVerts r.children maps)
    (hclosed : ∀ m ∈ maps, ClosedAff g m) (hx : ExactMapping r.mapping g.nel tg.nel)
    {n : Nat} {X Y : Nat → DofArr ℝ} {l : Nat → Nat → Fin d → ℝ} {s : Nat → Nat → ℝ}
    (hX : ∀ e < g.nel, Straight g n (l e) (s e) fun c => X c t e)
    (hY : ∀ (e : Nat) cs, r.mapping[e]? = some cs → ∀ c < n,
      OnChildren g cs maps (affFn (l e c) (s e c)) (Y c t)) :
    ∑ k ∈ range tg.nel, elIntegral dt tg.nodes.length n Y (fun t e i => v t e i * q' t e i) t k =
      ∑ e ∈ range g.nel, elIntegral dt g.nodes.length n X (fun t e i => w t e i * q t e i) t e := by
  rw [hnodes]
  apply sum_children hx
  intro e cs he
  have hel : e < g.nel := by
    rw [← hx.1]
    exact (List.getElem?_eq_some_iff.1 he).1
  obtain ⟨b, hb⟩ := (hp.interp hS).2 (q t e)
  obtain ⟨hlen, hb'⟩ := refined_values hmake hf hr hcq hg htg hrec hnodes hp hd hmaps hx he hb
  obtain ⟨_, c, hcv, hck⟩ := project_value hmake hc hg htg hrec hdt hnodes hbasis hp hd hmaps he
  have hpt : ∀ (f : List ℝ) (x : List ℝ), x ∈ g.nodes → evalAt g.basis f x = fnOf g f (toPoint d x) := by
    intro f x hx
    rw [fnOf, ofFn_toPoint (hp.nodes x hx)]
  have hcl : ∀ m ∈ partsOf cs maps, ClosedAff g m := by
    unfold partsOf
    split
    · intro m hm b hb
      rw [List.mem_singleton.1 hm]
      exact ⟨b, hb, fun y => by simp [UnitMap.at, UnitMap.id]⟩
    · exact hclosed
  -- area elements
  have hareaOf : ∀ (Z : Nat → DofArr ℝ) (k : Nat) (m : UnitMap d), (∀ c < n, ∀ (i : Nat) x, g.nodes[i]? = some x →
      Z c t k i = affFn (l e c) (s e c) (m.at (toPoint d x))) → ClosedAff g m → ∀ i < g.nodes.length,
      areaElement dt g.nodes.length n Z t k i = |m.lin.det| * areaAt n (fun c => affFn (l e c) (s e c)) 0 := by
    intro Z k m hZ hcm i hi
    have hch : ∀ c : Nat, ∃ C : List ℝ, C.length = g.basis.length ∧
        ∀ y : Fin d → ℝ, fnOf g C y = affFn (l e c) (s e c) (m.at y) := by
      intro c
      obtain ⟨C, h1, h2⟩ := hp.affine (l e c) (s e c)
      obtain ⟨C', h3, h4⟩ := hcm C h1
      exact ⟨C', h3, fun y => by rw [h4, h2]; rfl⟩
    choose C hCl hCf using hch
    have hCf' : ∀ c, fnOf (d := d) g (C c) = fun y => affFn (l e c) (s e c) (m.at y) := fun c => funext (hCf c)
    rw [areaElement_eq hp (C := C) ?_ ?_ hi]
    · simp only [hCf']
      rw [areaAt_comp n fun c _ => (affFn_smooth _ _).differentiable (by norm_num)]
      congr 1
      unfold areaAt
      simp only [affFn_fderiv]
    · intro c hc
      refine ⟨hCl c, ?_⟩
      intro i x hi
      rw [hZ c hc i x hi, hpt _ _ (List.mem_of_getElem? hi), hCf]
    · intro c _
      rw [hCf']
      exact ((affFn_smooth _ _).differentiable (by norm_num)).comp fun y => (m.hasFDeriv y).differentiableAt
  have hparent : elIntegral dt g.nodes.length n X (fun t e i => w t e i * q t e i) t e =
      areaAt n (fun c => affFn (l e c) (s e c)) 0 * ∑ k ∈ range g.basis.length, b.getD k 0 * c.getD k 0 := by
    have h1 : ∫ y in S, fnOf g c y * fnOf g b y = ∑ k ∈ range g.basis.length, b.getD k 0 * c.getD k 0 := by
      have hfb : ∀ y : Fin d → ℝ, fnOf g b y = ∑ k ∈ range g.basis.length,
          b.getD k 0 * (g.basis.getD k fun _ => 0) (List.ofFn y) := fun y => evalAt_sum hb.1 _
      have hcontk : ∀ k < g.basis.length, Continuous fun y : Fin d → ℝ =>
          (g.basis.getD k fun _ => 0) (List.ofFn y) := fun k hk =>
        hp.continuous _ (List.mem_of_getElem? (getD_mem_basis hk))
      have h2 : (fun y : Fin d → ℝ => fnOf g c y * fnOf g b y) = fun y => ∑ k ∈ range g.basis.length,
          b.getD k 0 * (fnOf g c y * (g.basis.getD k fun _ => 0) (List.ofFn y)) := by
        funext y
        rw [hfb, Finset.mul_sum]
        apply Finset.sum_congr rfl
        intro k _
        ring
      rw [h2, integral_finsetSum]
      · apply Finset.sum_congr rfl
        intro k hk
        rw [integral_const_mul, hp.coeff hS hcv.1 (Finset.mem_range.1 hk)]
      · intro k hk
        exact (continuous_const.mul ((fnOf_continuous hp hcv.1).mul
          (hcontk k (Finset.mem_range.1 hk)))).continuousOn.integrableOn_compact hS
    rw [← h1, ← hp.exact c b hcv.1 hb.1, Finset.mul_sum]
    unfold elIntegral
    apply Finset.sum_congr rfl
    intro i hi
    have hi' := Finset.mem_range.1 hi
    have hxi : g.nodes[i]? = some (g.nodes.getD i []) := by simp [hi']
    have hid : ∀ y : Fin d → ℝ, (UnitMap.id d).at y = y := fun y => by simp [UnitMap.at, UnitMap.id]
    rw [hareaOf X e (UnitMap.id d) (fun c hc i x hi => by rw [hid]; exact hX e hel c hc i x hi)
      (fun b hb => ⟨b, hb, fun y => by rw [hid]⟩) i hi']
    beta_reduce
    rw [hcv.2 i _ hxi, hb.2 i _ hxi]
    simp only [UnitMap.id, Matrix.det_one, abs_one]
    ring
  rw [hparent]
  have hsum : ∀ (l : List Nat) (f : Nat → ℝ), (l.map f).sum = ∑ j ∈ range l.length, f (l.getD j 0) := by
    intro l f
    induction l with
    | nil => simp
    | cons x l ih =>
      rw [List.map_cons, List.sum_cons, ih, List.length_cons, Finset.sum_range_succ', add_comm]
      simp
  rw [hsum]
  have hj : ∀ j ∈ range cs.length,
      elIntegral dt g.nodes.length n Y (fun t e i => v t e i * q' t e i) t (cs.getD j 0) =
        areaAt n (fun c => affFn (l e c) (s e c)) 0 * ∑ k ∈ range g.basis.length, b.getD k 0 *
          (|(((partsOf cs maps).map UnitMap.lin).getD j 0).det| *
            ∑ q ∈ range g.nodes.length, dt.weights.getD q 0 * (v t (cs.getD j 0) q *
              (g.basis.getD k fun _ => 0) (List.ofFn (((partsOf cs maps).getD j ⟨0, 0⟩).at
                (toPoint d (g.nodes.getD q [])))))) := by
    intro j hj
    have hj' := Finset.mem_range.1 hj
    have hm : (partsOf cs maps)[j]? = some ((partsOf cs maps).getD j ⟨0, 0⟩) := by
      rw [List.getD_eq_getElem?_getD, List.getElem?_eq_getElem (by omega), Option.getD_some]
    have hk : cs[j]? = some (cs.getD j 0) := by simp [hj']
    have hlin : ((partsOf cs maps).map UnitMap.lin).getD j 0 = ((partsOf cs maps).getD j ⟨0, 0⟩).lin := by
      simp [List.getD_eq_getElem?_getD, List.getElem?_eq_getElem (show j < (partsOf cs maps).length by omega)]
    rw [hlin]
    generalize (partsOf cs maps).getD j ⟨0, 0⟩ = m at hm ⊢
    simp only [Finset.mul_sum]
    rw [Finset.sum_comm]
    unfold elIntegral
    apply Finset.sum_congr rfl
    intro i hi
    have hi' := Finset.mem_range.1 hi
    have hxi : g.nodes[i]? = some (g.nodes.getD i []) := by simp [hi']
    have h3 : fnOf g b (m.at (toPoint d (g.nodes.getD i []))) = _ := evalAt_sum hb.1 _
    rw [hareaOf Y _ m (fun c hc i x hi => hY e cs he c hc j _ m hk hm i x hi)
      (hcl m (List.mem_of_getElem? hm)) i hi']
    beta_reduce
    rw [hb' j _ m hk hm i _ hxi, h3]
    simp only [Finset.mul_sum]
    apply Finset.sum_congr rfl
    intro k _
    ring
  rw [Finset.sum_congr rfl hj, ← Finset.mul_sum, Finset.sum_comm]
  congr 1
  apply Finset.sum_congr rfl
  intro k hk
  rw [hck k (Finset.mem_range.1 hk), Finset.mul_sum]

/-- C122: the nodes of a discretization of a refined mesh are at the points of the parents over the images of
its unit nodes, as the other theorems suppose. `A` are the coefficients of a coordinate in the mesh's own space,
which has to contain the same function as the space of the discretization. -/
theorem C122_nodes {resample : List (List ℝ → ℝ) → List (List ℝ) → List (List ℝ) → Option (Mat ℝ)}
    (hr : ResampleSound resample) {meg g : SGroup ℝ (List ℝ)} (hl : meg.basis.length = meg.nodes.length)
    {sh : ChildShape} {r : RefRecord} (hd : ∀ v ∈ r.refVerts, v.length = d) (hd0 : meg.nodes ≠ [])
    (hmn : ∀ x ∈ meg.nodes, x.length = d) (hgn : ∀ x ∈ g.nodes, x.length = d)
    {mapped : List (List (List ℝ))} (hm : mapNodesToChildren sh r.refVerts meg.nodes r.children = .ok mapped)
    {A V : List ℝ} (hA : NodeValues meg A V) {CH : List (List ℝ)}
    (hCH : tessellatedNodes resample meg mapped V = some CH)
    {maps : List (UnitMap d)} (hmaps : ChildMaps sh r.refVerts r.children maps)
    (hclosed : ∀ m ∈ maps, ClosedAff meg m) {cs : List Nat} (hcs : cs.length ≠ 1) {y : Nat → Nat → ℝ}
    (hy : ∀ (j k : Nat) w, cs[j]? = some k → CH[j]? = some w →
      ∃ z, discrNodes resample meg g.nodes w = some z ∧ ∀ i : Nat, y k i = z.getD i 0) :
    OnChildren g cs maps (fnOf meg A) y := by
  intro j k m hj hmj i x hi
  unfold partsOf at hmj
  rw [if_neg hcs] at hmj
  have hjl := (List.getElem?_eq_some_iff.1 hmj).1
  have hcj : r.children[j]? = some (r.children[j]'(by rw [← hmaps.1]; exact hjl)) := List.getElem?_eq_getElem _
  obtain ⟨origin, axs, hcor, hon⟩ := hmaps.2 j _ m hcj hmj
  have ho : origin.length = d := by
    obtain ⟨⟨n, _, hn'⟩, _⟩ := hcor
    exact hd _ (List.mem_of_getElem? hn')
  have hax : ∀ z ∈ axs, z.length = origin.length := by
    intro z hz
    obtain ⟨l, hl⟩ := List.mem_iff_getElem?.1 hz
    rw [ho]
    cases sh with
    | simplex =>
      obtain ⟨n, _, hn⟩ := hcor.2.2 l z hl
      exact hd _ (List.mem_of_getElem? hn)
    | tensor dim =>
      obtain ⟨n, _, hn⟩ := hcor.2.2 l z hl
      exact hd _ (List.mem_of_getElem? hn)
    | other => exact absurd hcor.2 id
  obtain ⟨o', a', _, _, hcor', _, hxl', _⟩ := (C64_child_nodes hr hl hd hm hA hCH).2 j _ hcj
  obtain ⟨rfl, rfl⟩ := hcor.unique hcor'
  have haxl : axs.length = d := by
    obtain ⟨x, hx⟩ := List.exists_mem_of_ne_nil _ hd0
    rw [← hxl' x hx, hmn x hx]
  have hcp : ∀ x : List ℝ, x.length = d → childPoint origin axs x = List.ofFn (m.at (toPoint d x)) := fun x hx =>
    hon.childPoint ho haxl hx
  obtain ⟨w, b, hw, _, _, hval⟩ := C64_same_surface hr hl hd hm hA hCH hcj hcor (childPoint_spec hax) (by
    intro c hc
    obtain ⟨c', h1, h2⟩ := hclosed m (List.mem_of_getElem? hmj) c hc
    refine ⟨c', h1, ?_⟩
    intro x hx
    have hx' : x.length = d := by omega
    rw [hcp x hx']
    have := h2 (toPoint d x)
    rw [fnOf, fnOf, ofFn_toPoint hx'] at this
    exact this)
  obtain ⟨z, hz, hyz⟩ := hy j k w hj hw
  have h3 := hval g.nodes z (fun x hx => by rw [hgn x hx, haxl]) hz i x hi
  rw [hyz i, List.getD_eq_getElem?_getD, h3, Option.getD_some, hcp x (hgn x (List.mem_of_getElem? hi))]
  rfl

end

/-! ## Example: two segments in the plane, the second cut into halves -/

section Example

/-- Coefficients of the coordinates of the two segments. (Example, no code.) -/
noncomputable def exRiLin (e c : Nat) : Fin 1 → ℝ := fun _ => if c = 0 then 1 / 2 else e

/-- Offsets of the coordinates. (Example, no code.) -/
noncomputable def exRiOff (e c : Nat) : ℝ := if c = 0 then e + 1 / 2 else 0

/-- The nodes of the coarse segments. (Example, no code.) -/
noncomputable def exRiX (c : Nat) : DofArr ℝ := fun _ e i =>
  affFn (exRiLin e c) (exRiOff e c) (toPoint 1 ((exSegmGroup 2).nodes.getD i []))

/-- The nodes of the fine segments: number 0 is the first coarse one. (Example, no code.) -/
noncomputable def exRiY (c : Nat) : DofArr ℝ := fun _ k i =>
  if k = 0 then exRiX c 0 0 i
  else affFn (exRiLin 1 c) (exRiOff 1 c) ((exSegmMaps.getD (k - 1) ⟨0, 0⟩).at
    (toPoint 1 ((exSegmGroup 2).nodes.getD i [])))

theorem exRi_straight : ∀ e < (exSegmGroup 2).nel, Straight (exSegmGroup 2) 2 (exRiLin e) (exRiOff e)
    fun c => exRiX c 0 e := by
  intro e _ c _ i x hi
  show exRiX c 0 e i = _
  unfold exRiX
  rw [List.getD_eq_getElem?_getD, hi]
  rfl

theorem exRi_children : ∀ (e : Nat) cs, exSegmRecord.mapping[e]? = some cs → ∀ c < 2,
    OnChildren (exSegmGroup 2) cs exSegmMaps (affFn (exRiLin e c) (exRiOff e c)) (exRiY c 0) := by
  intro e cs he c _ j k m hj hm i x hi
  have hget : (exSegmGroup 2).nodes.getD i [] = x := by
    rw [List.getD_eq_getElem?_getD, hi]
    rfl
  have hel := (List.getElem?_eq_some_iff.1 he).1
  simp only [exSegmRecord, List.length_cons, List.length_nil, Nat.zero_add] at hel
  interval_cases e
  · simp only [exSegmRecord, List.getElem?_cons_zero, Option.some.injEq] at he
    subst he
    have hj0 : j = 0 := by simpa using (List.getElem?_eq_some_iff.1 hj).1
    subst hj0
    simp only [List.getElem?_cons_zero, Option.some.injEq, partsOf, List.length_cons, List.length_nil,
      Nat.zero_add, if_true] at hj hm
    subst hj hm
    unfold exRiY exRiX
    rw [if_pos rfl, hget]
    simp [UnitMap.at, UnitMap.id]
  · simp only [exSegmRecord, List.getElem?_cons_zero, List.getElem?_cons_succ, Option.some.injEq] at he
    subst he
    have hjl := (List.getElem?_eq_some_iff.1 hj).1
    simp only [List.length_cons, List.length_nil, Nat.zero_add] at hjl
    have hm' : exSegmMaps[j]? = some m := by simpa [partsOf] using hm
    have hg : exSegmMaps.getD j ⟨0, 0⟩ = m := by
      rw [List.getD_eq_getElem?_getD, hm']
      rfl
    have hk : k = j + 1 := by
      interval_cases j <;> simp_all
    subst hk
    unfold exRiY
    rw [if_neg (by omega), Nat.add_sub_cancel, hg, hget]

-- integrals of arrays and of products, and of what is projected back
example (p q v : DofArr ℝ) : ∃ gs p' q' w,
    makeRefinementConn true [exSegmGroup 2] [(exSegmGroup 3, .simplex)] [exSegmRecord] =
      .ok (.direct [exSegmGroup 2] [exSegmGroup 3] gs true) ∧
    (SameConn.direct [exSegmGroup 2] [exSegmGroup 3] gs true).call (fun src _ => src.map fun _ => none)
      exResample false p = .ok p' ∧
    (SameConn.direct [exSegmGroup 2] [exSegmGroup 3] gs true).call (fun src _ => src.map fun _ => none)
      exResample false q = .ok q' ∧
    l2Call (l2OpsOf [exSegmGroup 2] [exSegmGroup 3] [exSegmData])
      ⟨[exSegmGroup 2].map (SGroup.toDGroup (fun src _ => src.map fun _ => none) exResample),
        [exSegmGroup 3].map (SGroup.toDGroup (fun src _ => src.map fun _ => none) exResample), gs, true⟩ v =
      some w ∧
    ∑ k ∈ range 3, elIntegral exSegmData 2 2 exRiY p' 0 k = ∑ e ∈ range 2, elIntegral exSegmData 2 2 exRiX p 0 e ∧
    ∑ k ∈ range 3, elIntegral exSegmData 2 2 exRiY (fun t e i => p' t e i * q' t e i) 0 k =
      ∑ e ∈ range 2, elIntegral exSegmData 2 2 exRiX (fun t e i => p t e i * q t e i) 0 e ∧
    ∑ k ∈ range 3, elIntegral exSegmData 2 2 exRiY (fun t e i => v t e i * q' t e i) 0 k =
      ∑ e ∈ range 2, elIntegral exSegmData 2 2 exRiX (fun t e i => w t e i * q t e i) 0 e := by
  obtain ⟨gs, hc⟩ := exSegm_conn
  obtain ⟨p', hp'⟩ := exSegm_call hc false p
  obtain ⟨q', hq'⟩ := exSegm_call hc false q
  obtain ⟨w, hw⟩ := exSegm_project hc v
  refine ⟨gs, p', q', w, hc, hp', hq', hw, ?_, ?_, ?_⟩
  · exact C122_integral (g := exSegmGroup 2) (tg := exSegmGroup 3) exSegm_compact hc exSegm_find exResample_sound hp'
      rfl rfl rfl rfl (exSegm_space 2) exSegm_ref exSegm_maps exSegm_tiles exSegm_closed exSegm_exact exRi_straight
      exRi_children
  · exact C122_total (g := exSegmGroup 2) (tg := exSegmGroup 3) exSegm_compact hc exSegm_find exResample_sound hp' hq'
      rfl rfl rfl rfl (exSegm_space 2) exSegm_ref exSegm_maps exSegm_tiles exSegm_closed exSegm_exact exRi_straight
      exRi_children
  · exact C122_project (g := exSegmGroup 2) (tg := exSegmGroup 3) exSegm_compact hc exSegm_find exResample_sound hw hq'
      rfl rfl rfl rfl rfl rfl (exSegm_space 2) exSegm_ref exSegm_maps exSegm_closed exSegm_exact exRi_straight
      exRi_children

-- the lengths of the segments are not all the same
example : areaElement exSegmData 2 2 exRiX 0 0 0 = 1 / 2 := by
  have hp : √(1 / 3 : ℝ) ≠ 0 := (Real.sqrt_pos.2 (by norm_num)).ne'
  unfold areaElement
  have h : (Matrix.of fun a b : Fin exSegmData.dim => ∑ c ∈ range 2,
      refDeriv exSegmData 2 (exRiX c) 0 0 0 a * refDeriv exSegmData 2 (exRiX c) 0 0 0 b).det = (1 / 2) ^ 2 := by
    rw [show (exSegmData.dim) = 1 from rfl]
    rw [Matrix.det_fin_one]
    simp [refDeriv, Finset.sum_range_succ, exSegmData, exRiX, affFn, exRiLin, exRiOff, toPoint, exSegmGroup]
    field_simp
    ring
  rw [h, Real.sqrt_sq (by norm_num)]

-- the nodes of the halves of an element are on it
example (A V : List ℝ) (hA : NodeValues (exSegmGroup 1) A V) : ∃ mapped CH,
    mapNodesToChildren .simplex exSegmRecord.refVerts (exSegmGroup 1).nodes exSegmRecord.children = .ok mapped ∧
    tessellatedNodes exResample (exSegmGroup 1) mapped V = some CH ∧
    OnChildren (exSegmGroup 2) [1, 2] exSegmMaps (fnOf (exSegmGroup 1) A)
      fun k i => (CH.getD (k - 1) []).getD i 0 := by
  obtain ⟨gs, hc⟩ := exSegm_conn
  obtain ⟨_, _, h⟩ := make_refine_direct hc
  obtain ⟨_, _, _, h4⟩ := refineConnGroups_ok.1 h
  obtain ⟨bs, hbs, hb⟩ := h4 0 _ _ rfl rfl
  obtain ⟨_, _, _, mapped, hm, _⟩ := refineBatches_ok hb (by decide)
  have hm' : mapNodesToChildren .simplex exSegmRecord.refVerts (exSegmGroup 1).nodes exSegmRecord.children =
      .ok mapped := hm
  obtain ⟨CH, hCH⟩ : ∃ CH, tessellatedNodes exResample (exSegmGroup 1) mapped V = some CH := by
    unfold tessellatedNodes exResample
    rw [dif_pos (resample_exists exSegm_compact (exSegm_space 1) _)]
    exact ⟨_, rfl⟩
  refine ⟨mapped, CH, hm', hCH, ?_⟩
  refine C122_nodes exResample_sound (meg := exSegmGroup 1) rfl exSegm_ref (by simp [exSegmGroup])
    (exSegm_space 1).nodes (exSegm_space 2).nodes hm' hA hCH exSegm_maps exSegm_closed (by simp) ?_
  intro j k w hj hw
  refine ⟨w, ?_, ?_⟩
  · exact if_pos rfl
  · intro i
    have hjl := (List.getElem?_eq_some_iff.1 hj).1
    simp only [List.length_cons, List.length_nil, Nat.zero_add] at hjl
    have hk : k = j + 1 := by
      clear hw hCH hA
      interval_cases j
      · simpa using hj.symm
      · simpa using hj.symm
    subst hk
    rw [Nat.add_sub_cancel, List.getD_eq_getElem?_getD (l := CH), hw]
    rfl

end Example

end Meshmode
