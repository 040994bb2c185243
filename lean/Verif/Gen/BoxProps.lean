import Verif.Gen.BoxCover

/-!
# Box meshes: properties (C21)

See Verif/Gen/BoxFaces.lean for `C21_faces` and `C21_tags`.
-/
namespace Meshmode

variable {N : Type}

/-- C21: a box mesh is generated exactly for one to three axes none of which has exactly one point,
`mesh_type="X"` in two dimensions only. -/
theorem C21_defined (nodeOf : List Nat → N) (lens : List Nat) (kind : BoxKind) :
    (generateBox nodeOf lens kind).isSome ↔
      1 ∉ lens ∧ 1 ≤ lens.length ∧ lens.length ≤ 3 ∧ (kind = .crossed → lens.length = 2) := by
  have hT : ∀ d, (boxTpl d kind).isSome ↔ 1 ≤ d ∧ d ≤ 3 ∧ (kind = .crossed → d = 2) := by
    intro d
    match d, kind with
    | 0, _ => simp [boxTpl]
    | 1, .tensor => simp [boxTpl]
    | 1, .simplex => simp [boxTpl]
    | 1, .crossed => simp [boxTpl]
    | 2, .tensor => simp [boxTpl]
    | 2, .simplex => simp [boxTpl]
    | 2, .crossed => simp [boxTpl]
    | 3, .tensor => simp [boxTpl]
    | 3, .simplex => simp [boxTpl]
    | 3, .crossed => simp [boxTpl]
    | k + 4, _ => simp [boxTpl]
  unfold generateBox
  by_cases h : lens.any (· == 1)
  · rw [if_pos h]
    simp only [Option.isSome_none, Bool.false_eq_true, false_iff, not_and]
    intro h1
    obtain ⟨a, ha, e⟩ := List.any_eq_true.1 h
    rw [beq_iff_eq] at e
    exact absurd (e ▸ ha) h1
  · rw [if_neg h]
    have h1 : 1 ∉ lens := by
      intro hm
      exact h (List.any_eq_true.2 ⟨1, hm, by simp⟩)
    simp only [Option.bind_eq_bind, Option.isSome_bind, Option.isSome_some]
    rw [← hT]
    simp [h1]

/-- C21: the numbers of the grid points are `0, …, nvertices - 1`, each the number of exactly one grid
point. -/
theorem C21_numbering (n : P3) :
    (∀ i, n.InShape i → n.rowMajor i < n.x * n.y * n.z) ∧
    (∀ i j, n.InShape i → n.InShape j → n.rowMajor i = n.rowMajor j → i = j) ∧
    ∀ v < n.x * n.y * n.z, ∃ i, n.InShape i ∧ n.rowMajor i = v := by
  refine ⟨fun i => rowMajor_lt, fun i j => rowMajor_inj, ?_⟩
  intro v hv
  rw [← length_indices] at hv
  obtain ⟨hi, e⟩ := indices_getElem?_iff.1 (List.getElem?_eq_getElem hv)
  exact ⟨_, hi, e.symm⟩

theorem boxShape_get {lens : List Nat} {a : Nat} (ha : a < 3) : (boxShape lens).get a = lens.getD a 1 := by
  interval_cases a <;> rfl

theorem boxCellShape_get {lens : List Nat} {a : Nat} (ha : a < 3) :
    (boxCellShape lens).get a = (lens[a]?.map (· - 1)).getD 1 := by
  interval_cases a <;> rfl

theorem inShape_get {n p : P3} (h : n.InShape p) (a : Nat) : p.get a < n.get a := by
  obtain ⟨h1, h2, h3⟩ := h
  match a with
  | 0 => exact h1
  | 1 => exact h2
  | _ + 2 => exact h3

theorem inShape_of_get {n p : P3} (h : ∀ a < 3, p.get a < n.get a) : n.InShape p :=
  ⟨h 0 (by omega), h 1 (by omega), h 2 (by omega)⟩

/-- C21: the vertex with the number of the grid point `i` has the coordinates `axis_coords[a][i[a]]`; with
`mesh_type="X"` the vertex with the number of cell `(i, j)` is the midpoint of the cell; there are no other
vertices. -/
theorem C21_vertices {K : Type} [Field K] (axes : List (List K)) (kind : BoxKind) (hd : axes.length ≤ 3) :
    let n := boxShape (axes.map List.length)
    let m := boxCellShape (axes.map List.length)
    (∀ i, n.InShape i → ∃ v, (boxVertices axes kind)[n.rowMajor i]? = some v ∧ v.length = axes.length ∧
      ∀ (a : Nat) ax, axes[a]? = some ax → v[a]? = ax[i.get a]?) ∧
    (∀ ax ay, axes = [ax, ay] → kind = .crossed → ∀ i j, i + 1 < ax.length → j + 1 < ay.length →
      ∃ x x' y y', ax[i]? = some x ∧ ax[i + 1]? = some x' ∧ ay[j]? = some y ∧ ay[j + 1]? = some y' ∧
        (boxVertices axes kind)[n.x * n.y * n.z + (i + j * m.x)]? = some [(x + x') / 2, (y + y') / 2]) ∧
    (boxVertices axes kind).length = n.x * n.y * n.z + if kind = .crossed then m.x * m.y else 0 := by
  intro n m
  refine ⟨?_, ?_, ?_⟩
  · intro i hi
    have h := boxPositions_getElem? (n := n) (m := m) (kind := kind) (Or.inl ⟨i, hi, rfl⟩)
    rw [boxVertexNr_grid] at h
    refine ⟨axes.zipIdx.map fun a => boxCoord a.1
      (P3.get ⟨2 * i.x, 2 * i.y, 2 * i.z⟩ a.2), ?_, by simp, ?_⟩
    · unfold boxVertices
      simp only
      rw [List.getElem?_map]
      show (boxPositions n m kind)[n.rowMajor i]?.map _ = _
      rw [h]
      rfl
    · intro a ax hax
      have ha3 : a < 3 := lt_of_lt_of_le (List.getElem?_eq_some_iff.1 hax).1 hd
      have hlt : i.get a < ax.length := by
        have h1 := inShape_get hi a
        have h2 : n.get a = ax.length := by
          show (boxShape (axes.map List.length)).get a = _
          rw [boxShape_get ha3]
          simp [hax]
        omega
      have e : P3.get ⟨2 * i.x, 2 * i.y, 2 * i.z⟩ a = 2 * i.get a := by interval_cases a <;> rfl
      rw [List.getElem?_map, List.getElem?_zipIdx, hax]
      simp only [Option.map_some, Nat.zero_add, e, boxCoord]
      rw [if_pos (by omega), Nat.mul_div_cancel_left _ (by omega), List.getElem?_eq_getElem hlt]
      simp [List.getElem?_eq_getElem hlt]
  · rintro ax ay rfl hk i j hi hj
    have hmx : m.x = ax.length - 1 := rfl
    have hmy : m.y = ay.length - 1 := rfl
    have h := boxPositions_getElem? (n := n) (m := m) (kind := kind)
      (Or.inr ⟨hk, i, j, by omega, by omega, rfl⟩)
    rw [boxVertexNr_mid] at h
    refine ⟨ax[i], ax[i + 1], ay[j], ay[j + 1], List.getElem?_eq_getElem _, List.getElem?_eq_getElem _,
      List.getElem?_eq_getElem _, List.getElem?_eq_getElem _, ?_⟩
    unfold boxVertices
    simp only
    rw [List.getElem?_map]
    show (boxPositions n m kind)[n.x * n.y * n.z + (i + j * m.x)]?.map _ = _
    rw [h]
    have e1 : ∀ i : Nat, (2 * i + 1) / 2 = i := by intro i; omega
    have e2 : ∀ i : Nat, ¬ (2 * i + 1) % 2 = 0 := by intro i; omega
    have g1 : ax[i]? = some ax[i] := List.getElem?_eq_getElem _
    have g2 : ax[i + 1]? = some ax[i + 1] := List.getElem?_eq_getElem _
    have g3 : ay[j]? = some ay[j] := List.getElem?_eq_getElem _
    have g4 : ay[j + 1]? = some ay[j + 1] := List.getElem?_eq_getElem _
    simp only [Option.map_some, List.zipIdx_cons, List.zipIdx_nil, List.map_cons, List.map_nil, P3.get,
      boxCoord, Nat.zero_add, if_neg (e2 _), e1, List.getD_eq_getElem?_getD, g1, g2, g3, g4,
      Option.getD_some]
  · unfold boxVertices boxPositions
    simp only [List.length_map, List.length_append, length_indices]
    split
    · rw [flatMap_const_length (w := m.x) (fun a _ => by simp; rfl), List.length_range]
      show _ + m.y * m.x = _ + m.x * m.y
      rw [Nat.mul_comm m.y]
    · rfl

/-- C21: the number of elements, and every element has different vertices, all of which exist. -/
theorem C21_elements {K : Type} [Field K] {nodeOf : List Nat → N} {axes : List (List K)} {kind : BoxKind}
    {g : ElGroup N} (h : generateBox nodeOf (axes.map List.length) kind = some g) :
    (∃ T, boxTpl axes.length kind = some T ∧
      g.nelements = ((axes.map fun ax => ax.length - 1).foldr (· * ·) 1) * T.subs.length) ∧
    ∀ row ∈ g.vertexIndices, row.Nodup ∧ ∀ v ∈ row, v < (boxVertices axes kind).length := by
  obtain ⟨T, hT, hd, hok, hdim, rfl⟩ := generateBox_eq h
  rw [List.length_map] at hT
  refine ⟨⟨T, hT, ?_⟩, ?_⟩
  · simp only [boxGroup, ElGroup.nelements, List.length_map, length_boxElements]
    congr 1
    rw [List.length_map] at hd
    have h3 := hok.2.2.2.2.2.2.2
    rw [hd] at h3
    match axes, h3 with
    | [a], _ => simp [boxCellShape]
    | [a, b], _ => simp [boxCellShape]
    | [a, b, c], _ => simp [boxCellShape]; ring
    | [], h3 => simp at h3
    | _ :: _ :: _ :: _ :: _, h3 => simp at h3; omega
  · intro row hrow
    simp only [boxGroup, boxElements, List.mem_flatMap, List.mem_map] at hrow
    obtain ⟨c, hc, sub, hs, rfl⟩ := hrow
    have hc' := mem_indices.1 hc
    have hv : ∀ o ∈ sub, VertexAt _ _ kind (c.at2 o) := fun o ho => vertexAt_at2 hok hdim hc' hs ho
    constructor
    · refine (List.nodup_map_iff_inj_on (hok.2.1 sub hs)).2 ?_
      intro o ho o' ho' e
      have := boxVertexNr_inj (hv o ho) (hv o' ho') e
      simp only [P3.at2, P3.mk.injEq] at this
      exact P3.ext' (by omega) (by omega) (by omega)
    · intro v hvv
      obtain ⟨o, ho, rfl⟩ := List.mem_map.1 hvv
      have := (List.getElem?_eq_some_iff.1 (boxPositions_getElem? (hv o ho))).1
      unfold boxVertices
      rw [List.length_map]
      exact this

/-! ## The elements fill the box without overlap -/

section
variable {K : Type} [Field K] [LinearOrder K] [IsStrictOrderedRing K]

omit [Field K] [IsStrictOrderedRing K] in
theorem exists_interval (ax : List K) (x : K) (h2 : 2 ≤ ax.length)
    (hlo : ∀ f, ax.head? = some f → f ≤ x) (hhi : ∀ l, ax.getLast? = some l → x ≤ l) :
    ∃ (i : Nat) (a b : K), ax[i]? = some a ∧ ax[i + 1]? = some b ∧ a ≤ x ∧ x ≤ b := by
  induction ax with
  | nil => simp at h2
  | cons a ax ih =>
    cases ax with
    | nil => simp at h2
    | cons b ax =>
      by_cases hb : x ≤ b
      · exact ⟨0, a, b, rfl, rfl, hlo a rfl, hb⟩
      · cases ax with
        | nil => exact absurd (hhi b rfl) hb
        | cons c ax =>
          obtain ⟨i, p, q, h1, h2, h3⟩ := ih (by simp) (by
              intro f hf
              simp at hf
              rw [← hf]; exact le_of_lt (not_le.1 hb))
            (by intro l hl; exact hhi l (by rw [List.getLast?_cons_cons]; exact hl))
          exact ⟨i + 1, p, q, by simpa using h1, by simpa using h2, h3⟩

/-- The point lies in the box: between the first and the last coordinate along every axis.
(Specification or proof vocabulary, no code.) -/
def InBox (axes : List (List K)) (pt : Nat → K) : Prop :=
  ∀ (a : Nat) ax, axes[a]? = some ax →
    (∀ f, ax.head? = some f → f ≤ pt a) ∧ ∀ l, ax.getLast? = some l → pt a ≤ l

/-- C21: every point of the box lies in an element: it is a combination of the vertices of the element with
nonnegative weights of sum 1. -/
theorem C21_cover {nodeOf : List Nat → N} {axes : List (List K)} {kind : BoxKind} {g : ElGroup N}
    (h : generateBox nodeOf (axes.map List.length) kind = some g) (hne : ∀ ax ∈ axes, ax ≠ [])
    (hinc : ∀ ax ∈ axes, ax.Pairwise (· < ·)) (pt : Nat → K) (hpt : InBox axes pt) :
    ∃ (e : Nat) (row : List Nat) (w : List K), g.vertexIndices[e]? = some row ∧
      IsCombination axes.length (boxVertices axes kind) row w pt := by
  have hdef := (C21_defined nodeOf (axes.map List.length) kind).1 (by rw [h]; rfl)
  obtain ⟨T, hT, hd, hok, hdim, rfl⟩ := generateBox_eq h
  rw [List.length_map] at hT hd
  have hlen : ∀ ax ∈ axes, 2 ≤ ax.length := by
    intro ax hax
    have h1 : ax.length ≠ 1 := fun e => hdef.1 (e ▸ List.mem_map_of_mem (f := List.length) hax)
    have h0 : ax.length ≠ 0 := fun e => hne ax hax (List.length_eq_zero_iff.1 e)
    omega
  have hex : ∀ a : Nat, ∃ i : Nat, (∀ ax, axes[a]? = some ax → ∃ lo hi : K, ax[i]? = some lo ∧
      ax[i + 1]? = some hi ∧ lo ≤ pt a ∧ pt a ≤ hi) ∧ (axes[a]? = none → i = 0) := by
    intro a
    cases hax : axes[a]? with
    | none => exact ⟨0, by simp, fun _ => rfl⟩
    | some ax =>
      obtain ⟨i, lo, hi, h1, h2, h3⟩ := exists_interval ax (pt a) (hlen ax (List.mem_of_getElem? hax))
        (hpt a ax hax).1 (hpt a ax hax).2
      exact ⟨i, fun ax' e => by obtain rfl := Option.some.inj e; exact ⟨lo, hi, h1, h2, h3⟩, by simp⟩
  choose I hI using hex
  let c : P3 := ⟨I 0, I 1, I 2⟩
  have hcI : ∀ a < 3, c.get a = I a := by intro a ha; interval_cases a <;> rfl
  have hc : (boxCellShape (axes.map List.length)).InShape c := by
    refine inShape_of_get fun a ha => ?_
    rw [hcI a ha, boxCellShape_get ha, List.getElem?_map]
    cases hax : axes[a]? with
    | none => rw [(hI a).2 hax]; simp
    | some ax =>
      obtain ⟨lo, hi, h1, h2, _⟩ := (hI a).1 ax hax
      have := (List.getElem?_eq_some_iff.1 h2).1
      simp
      omega
  -- the point in the unit cell
  have hq : ∀ a : Nat, ∃ q : K, 0 ≤ q ∧ q ≤ 1 ∧ ∀ ax, axes[a]? = some ax →
      pt a = ax.getD (I a) 0 + (ax.getD (I a + 1) 0 - ax.getD (I a) 0) * q := by
    intro a
    cases hax : axes[a]? with
    | none => exact ⟨0, le_refl _, zero_le_one, by simp⟩
    | some ax =>
      obtain ⟨lo, hi, h1, h2, h3, h4⟩ := (hI a).1 ax hax
      have hlt : lo < hi := by
        have hp := List.pairwise_iff_getElem.1 (hinc ax (List.mem_of_getElem? hax))
        obtain ⟨l1, e1⟩ := List.getElem?_eq_some_iff.1 h1
        obtain ⟨l2, e2⟩ := List.getElem?_eq_some_iff.1 h2
        have := hp (I a) (I a + 1) l1 l2 (by omega)
        rw [e1, e2] at this
        exact this
      have hpos : 0 < hi - lo := by linarith
      refine ⟨(pt a - lo) / (hi - lo), div_nonneg (by linarith) hpos.le,
        (div_le_one hpos).2 (by linarith), ?_⟩
      intro ax' e
      obtain rfl := Option.some.inj e
      rw [List.getD_eq_getElem?_getD, List.getD_eq_getElem?_getD, h1, h2, Option.getD_some,
        Option.getD_some, mul_div_cancel₀ _ hpos.ne']
      ring
  choose q hq0 hq1 hqe using hq
  obtain ⟨s, sub, hs, w, hl, hw, hcombo⟩ := cover_ref hT q fun a _ => ⟨hq0 a, hq1 a⟩
  refine ⟨_, _, w, boxElements_getElem? hc hs, by rw [List.length_map, hl], hw, ?_⟩
  intro a ha
  have ha3 : a < 3 := by
    have := hdef.2.2.1
    rw [List.length_map] at this
    omega
  have hax : axes[a]? = some axes[a] := List.getElem?_eq_getElem ha
  rw [combo_element hok hdim hc (List.mem_of_getElem? hs) hl hw.2 hax, hcI a ha3, ← hcombo a ha]
  exact hqe a _ hax

/-- C21: elements do not overlap: a point that is a combination with positive weights of the vertices of one
element belongs to no other element. -/
theorem C21_disjoint {nodeOf : List Nat → N} {axes : List (List K)} {kind : BoxKind} {g : ElGroup N}
    (h : generateBox nodeOf (axes.map List.length) kind = some g)
    (hinc : ∀ ax ∈ axes, ax.Pairwise (· < ·)) (pt : Nat → K) {e e' : Nat} {row row' : List Nat}
    {w w' : List K} (he : g.vertexIndices[e]? = some row) (he' : g.vertexIndices[e']? = some row')
    (hc1 : IsCombination axes.length (boxVertices axes kind) row w pt) (hpos : ∀ b ∈ w, 0 < b)
    (hc2 : IsCombination axes.length (boxVertices axes kind) row' w' pt) : e = e' := by
  have hdef := (C21_defined nodeOf (axes.map List.length) kind).1 (by rw [h]; rfl)
  obtain ⟨T, hT, hd, hok, hdim, rfl⟩ := generateBox_eq h
  rw [List.length_map] at hT hd
  obtain ⟨c, s, hc, hs, rfl⟩ := boxElements_of_lt (List.getElem?_eq_some_iff.1 he).1
  obtain ⟨c', s', hc', hs', rfl⟩ := boxElements_of_lt (List.getElem?_eq_some_iff.1 he').1
  have hsub : T.subs[s]? = some T.subs[s] := List.getElem?_eq_getElem hs
  have hsub' : T.subs[s']? = some T.subs[s'] := List.getElem?_eq_getElem hs'
  have he1 := (boxElements_getElem? (n := boxShape (axes.map List.length)) hc hsub).symm.trans he
  have he2 := (boxElements_getElem? (n := boxShape (axes.map List.length)) hc' hsub').symm.trans he'
  obtain rfl := Option.some.inj he1
  obtain rfl := Option.some.inj he2
  obtain ⟨l1, w1, p1⟩ := hc1
  obtain ⟨l2, w2, p2⟩ := hc2
  rw [List.length_map] at l1 l2
  have hd3 : axes.length ≤ 3 := by
    have := hdef.2.2.1
    rwa [List.length_map] at this
  have hax : ∀ a (ha : a < axes.length), ∃ lo hi lo' hi' : K, lo < hi ∧ lo' < hi' ∧
      (c.get a = c'.get a → lo = lo' ∧ hi = hi') ∧ (c.get a < c'.get a → hi ≤ lo') ∧
      (c'.get a < c.get a → hi' ≤ lo) ∧
      pt a = lo + (hi - lo) * combo w (T.subs[s].map (offCoord a)) ∧
      pt a = lo' + (hi' - lo') * combo w' (T.subs[s'].map (offCoord a)) := by
    intro a ha
    have hxa : axes[a]? = some axes[a] := List.getElem?_eq_getElem ha
    have q1 := p1 a ha
    have q2 := p2 a ha
    rw [combo_element hok hdim hc (List.mem_of_getElem? hsub) l1 w1.2 hxa] at q1
    rw [combo_element hok hdim hc' (List.mem_of_getElem? hsub') l2 w2.2 hxa] at q2
    have b1 := inShape_get hc a
    have b2 := inShape_get hc' a
    rw [boxCellShape_get (by omega), List.getElem?_map, hxa] at b1 b2
    simp only [Option.map_some, Option.getD_some] at b1 b2
    have hp := List.pairwise_iff_getElem.1 (hinc axes[a] (List.getElem_mem ha))
    have gd : ∀ i (hi : i < axes[a].length), axes[a].getD i 0 = axes[a][i] := by
      intro i hi
      simp [hi]
    rw [gd _ (by omega), gd _ (by omega)] at q1 q2
    refine ⟨_, _, _, _, ?_, ?_, ?_, ?_, ?_, q1, q2⟩
    · exact hp _ _ _ _ (by omega)
    · exact hp _ _ _ _ (by omega)
    · intro e; simp [e]
    · intro hlt
      rcases Nat.lt_or_ge (c.get a + 1) (c'.get a) with hh | hh
      · exact (hp _ _ _ _ hh).le
      · have : c.get a + 1 = c'.get a := by omega
        simp [this]
    · intro hlt
      rcases Nat.lt_or_ge (c'.get a + 1) (c.get a) with hh | hh
      · exact (hp _ _ _ _ hh).le
      · have : c'.get a + 1 = c.get a := by omega
        simp [this]
  have hceq : ∀ a < axes.length, c.get a = c'.get a := by
    intro a ha
    obtain ⟨lo, hi, lo', hi', k1, k2, _, k4, k5, k6, k7⟩ := hax a ha
    obtain ⟨r1, r2, r3⟩ := range_ref hT hsub l1 w1 ha
    obtain ⟨r4, r5⟩ := r3 hpos
    obtain ⟨r6, r7, _⟩ := range_ref hT hsub' l2 w2 ha
    have u1 : lo < pt a := by nlinarith
    have u2 : pt a < hi := by nlinarith
    have u3 : lo' ≤ pt a := by nlinarith
    have u4 : pt a ≤ hi' := by nlinarith
    rcases Nat.lt_trichotomy (c.get a) (c'.get a) with hlt | heq | hgt
    · have := k4 hlt; linarith
    · exact heq
    · have := k5 hgt; linarith
  have hcc : c = c' := by
    have hall : ∀ a < 3, c.get a = c'.get a := by
      intro a ha
      by_cases h' : a < axes.length
      · exact hceq a h'
      · have b1 := inShape_get hc a
        have b2 := inShape_get hc' a
        rw [boxCellShape_get ha, List.getElem?_map, List.getElem?_eq_none (by omega)] at b1 b2
        simp at b1 b2
        omega
    exact P3.ext' (hall 0 (by omega)) (hall 1 (by omega)) (hall 2 (by omega))
  subst hcc
  have hss : s = s' := by
    refine disjoint_ref hT hsub hsub' l1 l2 w1 w2 hpos ?_
    intro a ha
    obtain ⟨lo, hi, lo', hi', k1, k2, k3, _, _, k6, k7⟩ := hax a ha
    obtain ⟨rfl, rfl⟩ := k3 rfl
    rw [k6] at k7
    have hne : hi - lo ≠ 0 := by
      have : 0 < hi - lo := by linarith
      exact this.ne'
    exact mul_left_cancel₀ hne (add_left_cancel k7)
  rw [hss]

end

/-! ## Concrete cases -/

/-- A 2×1 grid of cells, each two triangles: the rows. -/
example : (generateBox id [3, 2] .simplex).map ElGroup.vertexIndices =
    some [[0, 2, 1], [3, 1, 2], [2, 4, 3], [5, 3, 4]] := by decide +kernel

example : (generateBox id [2, 2] .crossed).map ElGroup.vertexIndices =
    some [[0, 2, 4], [2, 3, 4], [3, 1, 4], [1, 0, 4]] := by decide +kernel

/-- A face on the upper side of axis 0, and one on no side. -/
example : ∃ g, generateBox id [3, 2] .simplex = some g ∧ faceVerts [g] ⟨0, 3, 1⟩ = some [4, 5] ∧
    OnBoxSide (boxShape [3, 2]) [4, 5] (true, 0) ∧ faceVerts [g] ⟨0, 0, 2⟩ = some [2, 1] ∧
    ¬ OnBoxSide (boxShape [3, 2]) [2, 1] (true, 0) := by
  refine ⟨_, rfl, by decide +kernel, ?_, by decide +kernel, ?_⟩
  · intro v hv
    rcases List.mem_cons.1 hv with rfl | hv
    · exact ⟨⟨2, 0, 0⟩, ⟨by decide, by decide, by decide⟩, by decide, by decide⟩
    · obtain rfl := List.mem_singleton.1 hv
      exact ⟨⟨2, 1, 0⟩, ⟨by decide, by decide, by decide⟩, by decide, by decide⟩
  · intro h
    rw [← onBoxSide_all] at h
    revert h
    decide +kernel

/-- The dictionary of tags for one tag on two sides of a 2×1 grid. -/
example : boxTagDict (boxShape [3, 2]) (boxCellShape [3, 2])
    ⟨2, [[⟨0,0,0⟩, ⟨2,0,0⟩, ⟨0,2,0⟩], [⟨2,2,0⟩, ⟨0,2,0⟩, ⟨2,0,0⟩]], [[0, 1], [2, 0], [1, 2]]⟩ .simplex
    [(.user 7 false, [(true, 0), (false, 1)])] =
    [([4, 5], [.user 7 false]), ([0, 2], [.user 7 false]), ([2, 4], [.user 7 false])] := by
  decide +kernel

/-- A point in the second triangle of the second cell of a graded box. -/
example : IsCombination 2 (boxVertices [[(0 : ℚ), 1, 3], [0, 2]] .simplex) [5, 3, 4] [1/2, 1/4, 1/4]
    (fun a => if a = 0 then 5/2 else 3/2) := by
  refine ⟨rfl, ⟨?_, ?_⟩, ?_⟩
  · intro a ha
    simp at ha
    rcases ha with rfl | rfl <;> norm_num
  · norm_num
  · intro a ha
    have e3 : (boxVertices [[(0 : ℚ), 1, 3], [0, 2]] .simplex) =
        [[0, 0], [0, 2], [1, 0], [1, 2], [3, 0], [3, 2]] := by
      decide +kernel
    rw [e3]
    interval_cases a <;> norm_num [combo]

end Meshmode
