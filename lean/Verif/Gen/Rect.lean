import Verif.Gen.BoxProps
import Mathlib.Tactic.FieldSimp
import Mathlib.Tactic.Positivity

/-!
# Regular meshes of boxes (C74)

`generate_regular_rect_mesh`, meshmode/mesh/generation.py:1644-1716: the choice of the points of the axes.
The mesh is then that of `generate_box_mesh` (C21, C60).  Exact arithmetic.
-/
namespace Meshmode

/-! ## Model -/

/-- Exceptions of `generate_regular_rect_mesh`, meshmode/mesh/generation.py:1684-1706. -/
inductive RectErr
  | bothElementsAndN
  | bothPointsAndN
  | both
  | neither
  | single
  | negative
  deriving DecidableEq

/-- The number of points of each axis, meshmode/mesh/generation.py:1677-1706. -/
def rectPoints (dimA : Nat) (nelements npoints : Option (List Int)) (n : Option Int) :
    Except RectErr (List Int) :=
  let pts : Except RectErr (List Int) :=
    match n with
    | some n =>
      if nelements.isSome then .error .bothElementsAndN
      else if npoints.isSome then .error .bothPointsAndN
      else .ok (List.replicate dimA n)
    | none =>
      match npoints, nelements with
      | some _, some _ => .error .both
      | some p, none => .ok p
      | none, some e => .ok (e.map fun k => if k > 0 then k + 1 else 0)
      | none, none => .error .neither
  match pts with
  | .error e => .error e
  | .ok p => if p.any (· == 1) then .error .single else .ok p

section
variable {K : Type} [Field K]

/-- `np.linspace(a, b, num)`, meshmode/mesh/generation.py:1709. -/
def linspace (a b : K) (num : Nat) : List K :=
  (List.range num).map fun i : Nat => a + (i : K) * ((b - a) / ((num - 1 : Nat) : K))

/-- `axis_coords`, meshmode/mesh/generation.py:1708-1710; `zip` stops with the shortest of the three, and
`linspace` refuses negative numbers of points. -/
def rectAxes : List K → List K → List Int → Except RectErr (List (List K))
  | a :: as, b :: bs, p :: ps =>
    if p < 0 then .error .negative
    else match rectAxes as bs ps with
      | .error e => .error e
      | .ok axes => .ok (linspace a b p.toNat :: axes)
  | _, _, _ => .ok []

/-- The axes that `generate_regular_rect_mesh` passes to `generate_box_mesh`,
meshmode/mesh/generation.py:1644-1716. -/
def regularRect (a b : List K) (nelements npoints : Option (List Int)) (n : Option Int) :
    Except RectErr (List (List K)) :=
  match rectPoints a.length nelements npoints n with
  | .error e => .error e
  | .ok p => rectAxes a b p

end

/-! ## Specification -/

section
variable {K : Type} [Field K]

/-- The coordinates of `e` intervals of equal length from `a` to `b`. (Specification or proof vocabulary,
no code.) -/
def Equispaced (a b : K) (e : Nat) (ax : List K) : Prop :=
  ax.length = e + 1 ∧ ∀ (i : Nat) x, ax[i]? = some x → x = a + (i : K) * ((b - a) / (e : K))

/-- The arguments say how many points each axis has. (Specification or proof vocabulary, no code.) -/
inductive PointsGiven (dimA : Nat) : Option (List Int) → Option (List Int) → Option Int → List Int → Prop
  | elements (e) : PointsGiven dimA (some e) none none (e.map fun k => if k > 0 then k + 1 else 0)
  | points (p) : PointsGiven dimA none (some p) none p
  | n (n) : PointsGiven dimA none none (some n) (List.replicate dimA n)

/-! ## Lemmas -/

theorem rectPoints_ok {dimA : Nat} {nel npt : Option (List Int)} {n : Option Int} {p : List Int} :
    rectPoints dimA nel npt n = .ok p ↔ PointsGiven dimA nel npt n p ∧ 1 ∉ p := by
  have hs : ∀ q : List Int, (if q.any (· == 1) then (.error .single : Except RectErr (List Int)) else .ok q) =
      .ok p ↔ q = p ∧ 1 ∉ p := by
    intro q
    by_cases h : q.any (· == 1) = true
    · rw [if_pos h]
      simp only [reduceCtorEq, false_iff, not_and, not_not]
      rintro rfl
      simpa using h
    · rw [if_neg h, Except.ok.injEq]
      constructor
      · rintro rfl
        exact ⟨rfl, by simpa using h⟩
      · exact fun h => h.1
  unfold rectPoints
  rcases n with _ | n <;> rcases npt with _ | q <;> rcases nel with _ | e <;>
    simp only [Option.isSome_none, Option.isSome_some, Bool.false_eq_true, if_false, if_true, reduceCtorEq,
      false_iff, not_and, hs]
  · rintro ⟨⟩
  · constructor
    · rintro ⟨rfl, h⟩; exact ⟨.elements e, h⟩
    · rintro ⟨⟨⟩, h⟩; exact ⟨rfl, h⟩
  · constructor
    · rintro ⟨rfl, h⟩; exact ⟨.points q, h⟩
    · rintro ⟨⟨⟩, h⟩; exact ⟨rfl, h⟩
  · rintro ⟨⟩
  · constructor
    · rintro ⟨rfl, h⟩; exact ⟨.n n, h⟩
    · rintro ⟨⟨⟩, h⟩; exact ⟨rfl, h⟩
  all_goals rintro ⟨⟩

theorem rectAxes_ok {a b : List K} {p : List Int} {axes : List (List K)} (h : rectAxes a b p = .ok axes) :
    axes.length = min a.length (min b.length p.length) ∧
    ∀ (i : Nat) x y k, a[i]? = some x → b[i]? = some y → p[i]? = some k → 0 ≤ k ∧
      axes[i]? = some (linspace x y k.toNat) := by
  induction a generalizing b p axes with
  | nil =>
    simp only [rectAxes, Except.ok.injEq] at h
    subst h
    simp
  | cons x a ih =>
    cases b with
    | nil =>
      simp only [rectAxes, Except.ok.injEq] at h
      subst h
      simp
    | cons y b =>
      cases p with
      | nil =>
        simp only [rectAxes, Except.ok.injEq] at h
        subst h
        simp
      | cons k p =>
        simp only [rectAxes] at h
        split at h
        · cases h
        · rename_i hk
          split at h
          · cases h
          · rename_i axes' h'
            cases h
            obtain ⟨h1, h2⟩ := ih h'
            refine ⟨by simp only [List.length_cons]; omega, ?_⟩
            intro i u v l hu hv hl
            cases i with
            | zero =>
              simp only [List.getElem?_cons_zero, Option.some.injEq] at hu hv hl ⊢
              subst hu hv hl
              exact ⟨by omega, rfl⟩
            | succ i =>
              simp only [List.getElem?_cons_succ] at hu hv hl ⊢
              exact h2 i u v l hu hv hl

theorem rectAxes_exists {a b : List K} {p : List Int} :
    (∃ axes, rectAxes a b p = .ok axes) ↔
      ∀ i < min a.length (min b.length p.length), ∀ k, p[i]? = some k → 0 ≤ k := by
  induction a generalizing b p with
  | nil => simp [rectAxes]
  | cons x a ih =>
    cases b with
    | nil => simp [rectAxes]
    | cons y b =>
      cases p with
      | nil => simp [rectAxes]
      | cons k p =>
        constructor
        · rintro ⟨axes, h⟩ i hi l hl
          simp only [List.length_cons] at hi
          exact ((rectAxes_ok h).2 i _ _ l (List.getElem?_eq_getElem (by simp only [List.length_cons]; omega))
            (List.getElem?_eq_getElem (by simp only [List.length_cons]; omega)) hl).1
        · intro h
          have h0 := h 0 (by simp) k rfl
          obtain ⟨axes, hx⟩ := (ih (b := b) (p := p)).2 fun i hi l hl =>
            h (i + 1) (by simp only [List.length_cons]; omega) l (by simpa using hl)
          exact ⟨_, by rw [rectAxes, if_neg (by omega), hx]⟩

theorem linspace_equispaced (a b : K) (e : Nat) : Equispaced a b e (linspace a b (e + 1)) := by
  refine ⟨by simp [linspace], ?_⟩
  intro i x h
  simp only [linspace, List.getElem?_map, Option.map_eq_some_iff] at h
  obtain ⟨j, hj, rfl⟩ := h
  have hj' := List.getElem?_eq_some_iff.1 hj
  simp only [List.getElem_range] at hj'
  obtain ⟨_, rfl⟩ := hj'
  rw [Nat.add_sub_cancel]

end

/-! ## Properties -/

section
variable {K : Type} [Field K]

/-- C74: exactly one of the three ways to say how many points there are has to be used; no axis may have a
single point, and no axis that is used a negative number of points. -/
theorem C74_defined (a b : List K) (nel npt : Option (List Int)) (n : Option Int) :
    (∃ axes, regularRect a b nel npt n = .ok axes) ↔
      ∃ p, PointsGiven a.length nel npt n p ∧ 1 ∉ p ∧
        ∀ i < min a.length (min b.length p.length), ∀ k, p[i]? = some k → 0 ≤ k := by
  unfold regularRect
  constructor
  · rintro ⟨axes, h⟩
    split at h
    · cases h
    · rename_i p hp
      obtain ⟨h1, h2⟩ := rectPoints_ok.1 hp
      exact ⟨p, h1, h2, rectAxes_exists.1 ⟨_, h⟩⟩
  · rintro ⟨p, h1, h2, h3⟩
    rw [rectPoints_ok.2 ⟨h1, h2⟩]
    exact rectAxes_exists.2 h3

/-- C74: the axes for given numbers of elements: equispaced coordinates from `a` to `b`. -/
theorem C74_elements {a b : List K} {e : List Nat} (he : ∀ k ∈ e, 0 < k) (hb : b.length = a.length)
    (hl : e.length = a.length) :
    ∃ axes, regularRect a b (some (e.map fun k : Nat => (k : Int))) none none = .ok axes ∧
      axes.length = a.length ∧ ∀ (i : Nat) x y k, a[i]? = some x → b[i]? = some y → e[i]? = some k →
        ∃ ax, axes[i]? = some ax ∧ Equispaced x y k ax := by
  have hp : ∀ (i : Nat) k, e[i]? = some k → ((e.map fun k : Nat => (k : Int)).map
      fun k => if k > 0 then k + 1 else 0)[i]? = some ((k : Int) + 1) := by
    intro i k hk
    have := he k (List.mem_of_getElem? hk)
    rw [List.getElem?_map, List.getElem?_map, hk]
    simp only [Option.map_some]
    rw [if_pos (by omega)]
  have hex := (C74_defined a b (some (e.map fun k : Nat => (k : Int))) none none).2 ⟨_, .elements _, ?_, ?_⟩
  · obtain ⟨axes, hx⟩ := hex
    refine ⟨axes, hx, ?_⟩
    unfold regularRect at hx
    split at hx
    · cases hx
    · rename_i p hp'
      obtain ⟨h1, _⟩ := rectPoints_ok.1 hp'
      cases h1
      obtain ⟨h2, h3⟩ := rectAxes_ok hx
      refine ⟨by simp only [List.length_map] at h2; omega, ?_⟩
      intro i x y k hx hy hk
      obtain ⟨_, h4⟩ := h3 i x y _ hx hy (hp i k hk)
      refine ⟨_, h4, ?_⟩
      rw [show ((k : Int) + 1).toNat = k + 1 by omega]
      exact linspace_equispaced x y k
  · intro h
    obtain ⟨i, hi⟩ := List.mem_iff_getElem?.1 h
    have hlt : i < e.length := by
      have := (List.getElem?_eq_some_iff.1 hi).1
      simpa using this
    rw [hp i _ (List.getElem?_eq_getElem hlt)] at hi
    have := he _ (List.getElem_mem hlt)
    simp only [Option.some.injEq] at hi
    omega
  · intro i hi k hk
    have hlt : i < e.length := by simp only [List.length_map] at hi; omega
    rw [hp i _ (List.getElem?_eq_getElem hlt)] at hk
    simp only [Option.some.injEq] at hk
    omega

/-- C74: numbers of points, for each axis or one for all, mean the same as numbers of elements that are one
less. -/
theorem C74_points (a b : List K) {e : List Nat} (he : ∀ k ∈ e, 0 < k) :
    regularRect a b none (some (e.map fun k : Nat => (k : Int) + 1)) none =
      regularRect a b (some (e.map fun k : Nat => (k : Int))) none none ∧
    ∀ k : Nat, 0 < k → regularRect a b none none (some ((k : Int) + 1)) =
      regularRect a b (some (List.replicate a.length (k : Int))) none none := by
  have key : ∀ l : List Nat, (∀ k ∈ l, 0 < k) → regularRect a b none (some (l.map fun k : Nat => (k : Int) + 1)) none =
      regularRect a b (some (l.map fun k : Nat => (k : Int))) none none := by
    intro l hl
    have h2 : ((l.map fun k : Nat => (k : Int)).map fun k => if k > 0 then k + 1 else 0) =
        l.map fun k : Nat => (k : Int) + 1 := by
      rw [List.map_map]
      apply List.map_congr_left
      intro k hk
      have := hl k hk
      simp only [Function.comp]
      rw [if_pos (by omega)]
    simp only [regularRect, rectPoints, h2]
  refine ⟨key e he, ?_⟩
  intro k hk
  have h1 := key (List.replicate a.length k) (by intro j hj; rw [List.eq_of_mem_replicate hj]; exact hk)
  rw [List.map_replicate, List.map_replicate] at h1
  rw [← h1]
  simp only [regularRect, rectPoints, Option.isSome_none, Bool.false_eq_true, if_false]

variable [LinearOrder K] [IsStrictOrderedRing K]

/-- Equispaced coordinates increase from the first, `a`, to the last, `b`. -/
theorem Equispaced.spec {a b : K} {e : Nat} {ax : List K} (h : Equispaced a b e ax) (he : 0 < e)
    (hab : a < b) : ax.Pairwise (· < ·) ∧ ax.head? = some a ∧ ax.getLast? = some b := by
  obtain ⟨hl, hx⟩ := h
  have hd : 0 < (b - a) / (e : K) := div_pos (sub_pos.2 hab) (by exact_mod_cast he)
  refine ⟨?_, ?_, ?_⟩
  · rw [List.pairwise_iff_getElem]
    intro i j hi hj hij
    rw [hx i _ (List.getElem?_eq_getElem hi), hx j _ (List.getElem?_eq_getElem hj)]
    have : (i : K) < (j : K) := by exact_mod_cast hij
    have := mul_lt_mul_of_pos_right this hd
    linarith
  · rw [List.head?_eq_getElem?, List.getElem?_eq_getElem (by omega)]
    rw [hx 0 _ (List.getElem?_eq_getElem (by omega))]
    simp
  · rw [List.getLast?_eq_getElem?, List.getElem?_eq_getElem (by omega)]
    rw [hx (ax.length - 1) _ (List.getElem?_eq_getElem (by omega))]
    have : ax.length - 1 = e := by omega
    rw [this]
    have hne : (e : K) ≠ 0 := by exact_mod_cast he.ne'
    congr 1
    field_simp
    ring

variable {N : Type}

/-- C21: elements lie in the box: combinations of the vertices of an element are points of the box. -/
theorem C21_inside {nodeOf : List Nat → N} {axes : List (List K)} {kind : BoxKind} {g : ElGroup N}
    (h : generateBox nodeOf (axes.map List.length) kind = some g)
    (hinc : ∀ ax ∈ axes, ax.Pairwise (· < ·)) (pt : Nat → K) {e : Nat} {row : List Nat}
    {w : List K} (he : g.vertexIndices[e]? = some row)
    (hc1 : IsCombination axes.length (boxVertices axes kind) row w pt) : InBox axes pt := by
  have hdef := (C21_defined nodeOf (axes.map List.length) kind).1 (by rw [h]; rfl)
  obtain ⟨T, hT, hd, hok, hdim, rfl⟩ := generateBox_eq h
  rw [List.length_map] at hT hd
  obtain ⟨c, s, hc, hs, rfl⟩ := boxElements_of_lt (List.getElem?_eq_some_iff.1 he).1
  have hsub : T.subs[s]? = some T.subs[s] := List.getElem?_eq_getElem hs
  have he1 := (boxElements_getElem? (n := boxShape (axes.map List.length)) hc hsub).symm.trans he
  obtain rfl := Option.some.inj he1
  obtain ⟨l1, w1, p1⟩ := hc1
  rw [List.length_map] at l1
  have hd3 : axes.length ≤ 3 := by
    have := hdef.2.2.1
    rwa [List.length_map] at this
  intro a ax hax
  have ha := (List.getElem?_eq_some_iff.1 hax).1
  have q1 := p1 a ha
  rw [combo_element hok hdim hc (List.mem_of_getElem? hsub) l1 w1.2 hax] at q1
  have b1 := inShape_get hc a
  rw [boxCellShape_get (by omega), List.getElem?_map, hax] at b1
  simp only [Option.map_some, Option.getD_some] at b1
  obtain ⟨r1, r2, _⟩ := range_ref hT hsub l1 w1 ha
  have hp := List.pairwise_iff_getElem.1 (hinc ax (List.mem_of_getElem? hax))
  have hle : ∀ i j (hi : i < ax.length) (hj : j < ax.length), i ≤ j → ax[i] ≤ ax[j] := by
    intro i j hi hj hij
    rcases Nat.lt_or_ge i j with h | h
    · exact (hp i j hi hj h).le
    · have : i = j := by omega
      subst this
      exact le_refl _
  have gd : ∀ i (hi : i < ax.length), ax.getD i 0 = ax[i] := by
    intro i hi
    simp [hi]
  rw [gd _ (by omega), gd _ (by omega)] at q1
  have h01 := hle (c.get a) (c.get a + 1) (by omega) (by omega) (by omega)
  constructor
  · intro f hf
    rw [List.head?_eq_getElem?] at hf
    obtain ⟨h0, rfl⟩ := List.getElem?_eq_some_iff.1 hf
    have := hle 0 (c.get a) (by omega) (by omega) (by omega)
    nlinarith
  · intro l hl
    rw [List.getLast?_eq_getElem?] at hl
    obtain ⟨h0, rfl⟩ := List.getElem?_eq_some_iff.1 hl
    have := hle (c.get a + 1) (ax.length - 1) (by omega) (by omega) (by omega)
    nlinarith

/-- C74: the mesh exists in one to three dimensions ("X" meshes in two), has the product of the numbers of
elements along the axes as its number of cells, its elements cover exactly the box from `a` to `b`, and
they do not overlap. -/
theorem C74_mesh (nodeOf : List Nat → N) {a b : List K} {e : List Nat} (he : ∀ k ∈ e, 0 < k)
    (hb : b.length = a.length) (hl : e.length = a.length) (hab : ∀ (i : Nat) x y, a[i]? = some x →
      b[i]? = some y → x < y) (h1 : 1 ≤ a.length) (h3 : a.length ≤ 3) {kind : BoxKind}
    (hk : kind = .crossed → a.length = 2) :
    ∃ axes g T, regularRect a b (some (e.map fun k : Nat => (k : Int))) none none = .ok axes ∧
      generateBox nodeOf (axes.map List.length) kind = some g ∧ boxTpl a.length kind = some T ∧
      g.nelements = e.foldr (· * ·) 1 * T.subs.length ∧
      (∀ pt : Nat → K, (∀ (i : Nat) x y, a[i]? = some x → b[i]? = some y → x ≤ pt i ∧ pt i ≤ y) ↔
        ∃ (el : Nat) (row : List Nat) (w : List K), g.vertexIndices[el]? = some row ∧
          IsCombination a.length (boxVertices axes kind) row w pt) ∧
      ∀ (pt : Nat → K) (el el' : Nat) row row' w w', g.vertexIndices[el]? = some row →
        g.vertexIndices[el']? = some row' → IsCombination a.length (boxVertices axes kind) row w pt →
        (∀ c ∈ w, 0 < c) → IsCombination a.length (boxVertices axes kind) row' w' pt → el = el' := by
  obtain ⟨axes, hx, hlen, hax⟩ := C74_elements he hb hl
  have hall : ∀ (i : Nat) ax, axes[i]? = some ax → ∃ x y k, a[i]? = some x ∧ b[i]? = some y ∧ e[i]? = some k ∧
      0 < k ∧ x < y ∧ Equispaced x y k ax := by
    intro i ax hi
    have hlt := (List.getElem?_eq_some_iff.1 hi).1
    have ga : a[i]? = some (a[i]'(by omega)) := List.getElem?_eq_getElem (by omega)
    have gb : b[i]? = some (b[i]'(by omega)) := List.getElem?_eq_getElem (by omega)
    have ge : e[i]? = some (e[i]'(by omega)) := List.getElem?_eq_getElem (by omega)
    obtain ⟨ax', h2, h4⟩ := hax i _ _ _ ga gb ge
    rw [hi] at h2
    cases h2
    exact ⟨_, _, _, ga, gb, ge, he _ (List.getElem_mem _), hab i _ _ ga gb, h4⟩
  have hmem : ∀ ax ∈ axes, ∃ x y k, 0 < k ∧ x < y ∧ Equispaced x y k ax := by
    intro ax hm
    obtain ⟨i, hi⟩ := List.mem_iff_getElem?.1 hm
    obtain ⟨x, y, k, _, _, _, h5, h6, h7⟩ := hall i ax hi
    exact ⟨x, y, k, h5, h6, h7⟩
  have hinc : ∀ ax ∈ axes, ax.Pairwise (· < ·) := by
    intro ax hm
    obtain ⟨x, y, k, h5, h6, h7⟩ := hmem ax hm
    exact (h7.spec h5 h6).1
  have hone : 1 ∉ axes.map List.length := by
    intro hm
    obtain ⟨ax, hm, hx1⟩ := List.mem_map.1 hm
    obtain ⟨x, y, k, h5, h6, h7⟩ := hmem ax hm
    have := h7.1
    omega
  have hsome := (C21_defined nodeOf (axes.map List.length) kind).2
    ⟨hone, by simp [hlen, h1], by simp [hlen, h3], fun hc => by simpa [hlen] using hk hc⟩
  obtain ⟨g, hg⟩ := Option.isSome_iff_exists.1 hsome
  obtain ⟨⟨T, hT, hn⟩, _⟩ := C21_elements hg
  rw [hlen] at hT
  have hmap : (axes.map fun ax => ax.length - 1) = e := by
    apply List.ext_getElem?
    intro i
    rw [List.getElem?_map]
    cases hi : axes[i]? with
    | none =>
      have := List.getElem?_eq_none_iff.1 hi
      rw [List.getElem?_eq_none (by omega)]
      rfl
    | some ax =>
      obtain ⟨x, y, k, _, _, h4, _, _, h7⟩ := hall i ax hi
      rw [h4, Option.map_some, h7.1, Nat.add_sub_cancel]
  rw [hmap] at hn
  have hbox : ∀ pt : Nat → K, (∀ (i : Nat) x y, a[i]? = some x → b[i]? = some y → x ≤ pt i ∧ pt i ≤ y) ↔
      InBox axes pt := by
    intro pt
    constructor
    · intro h i ax hi
      obtain ⟨x, y, k, h5, h6, _, h8, h9, h10⟩ := hall i ax hi
      obtain ⟨_, s1, s2⟩ := h10.spec h8 h9
      rw [s1, s2]
      obtain ⟨u, v⟩ := h i x y h5 h6
      exact ⟨fun f hf => by cases hf; exact u, fun f hf => by cases hf; exact v⟩
    · intro h i x y hxa hyb
      have hlt : i < axes.length := by rw [hlen]; exact (List.getElem?_eq_some_iff.1 hxa).1
      obtain ⟨x', y', k, h5, h6, _, h8, h9, h10⟩ := hall i _ (List.getElem?_eq_getElem hlt)
      rw [hxa] at h5
      rw [hyb] at h6
      cases h5
      cases h6
      obtain ⟨_, s1, s2⟩ := h10.spec h8 h9
      obtain ⟨u, v⟩ := h i _ (List.getElem?_eq_getElem hlt)
      exact ⟨u x s1, v y s2⟩
  refine ⟨axes, g, T, hx, hg, hT, hn, ?_, ?_⟩
  · intro pt
    rw [hbox, ← hlen]
    constructor
    · intro hpt
      refine C21_cover hg ?_ hinc pt hpt
      rintro ax hm rfl
      obtain ⟨x, y, k, h5, h6, h7⟩ := hmem _ hm
      have := h7.1
      simp at this
    · rintro ⟨el, row, w, h5, h6⟩
      exact C21_inside hg hinc pt h5 h6
  · intro pt el el' row row' w w' h5 h6 h7 h8 h9
    rw [← hlen] at h7 h9
    exact C21_disjoint hg hinc pt h5 h6 h7 h8 h9

end

/-- C74 fails if the numbers of coordinates differ: with the default corners and numbers of elements for
three axes, the mesh has two dimensions, without an exception. -/
theorem C74_dimension_counterexample :
    regularRect [(0 : ℚ), 0] [1, 1] (some [2, 2, 2]) none none = .ok [[0, 1 / 2, 1], [0, 1 / 2, 1]] := by
  decide +kernel

/-! ## Concrete cases -/

-- The hypotheses of `C74_elements` and `C74_mesh`: two by one cells in a rectangle.
example : regularRect [(0 : ℚ), 1] [1, 3] (some [2, 1]) none none = .ok [[0, 1 / 2, 1], [1, 3]] := by
  decide +kernel

example : regularRect [(0 : ℚ), 1] [1, 3] (some [2, 0]) none none = .ok [[0, 1 / 2, 1], []] ∧
    regularRect [(0 : ℚ), 1] [1, 3] none (some [2, 1]) none = .error .single ∧
    regularRect [(0 : ℚ), 1] [1, 3] none (some [2, -1]) none = .error .negative := by
  decide +kernel

end Meshmode
