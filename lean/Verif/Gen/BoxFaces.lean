import Verif.Gen.Box
import Mathlib.Tactic.IntervalCases

/-!
# Box meshes: faces and boundary tags (C21)

The faces of one cell are compared once and for all (a finite check for each of the seven ways to divide a
cell); the comparison of faces of different cells is reduced to it by translation.
-/
namespace Meshmode

/-! ## Faces of one cell -/

/-- The faces of a cell: subelement, face, offsets of the vertices.
(Specification or proof vocabulary, no code.) -/
def tplFaces (T : BoxTpl) : List (Nat × Nat × List P3) :=
  T.subs.zipIdx.flatMap fun s => T.fvi.zipIdx.map fun r =>
    (s.2, r.2, r.1.map fun k => s.1.getD k ⟨0, 0, 0⟩)

/-- Least entries of a list of offsets (which are at most 2).
(Specification or proof vocabulary, no code.) -/
def minOff (l : List P3) : P3 :=
  ⟨(l.map P3.x).foldr min 2, (l.map P3.y).foldr min 2, (l.map P3.z).foldr min 2⟩

/-- (Specification or proof vocabulary, no code.) -/
def normOff (l : List P3) : List P3 :=
  l.map fun p => ⟨p.x - (minOff l).x, p.y - (minOff l).y, p.z - (minOff l).z⟩

/-- Two faces differ by a translation by full cells.
(Specification or proof vocabulary, no code.) -/
def Compat (l l' : List P3) : Prop :=
  (normOff l).Perm (normOff l') ∧ (minOff l).x % 2 = (minOff l').x % 2 ∧
    (minOff l).y % 2 = (minOff l').y % 2 ∧ (minOff l).z % 2 = (minOff l').z % 2

instance (l l' : List P3) : Decidable (Compat l l') := by unfold Compat; infer_instance

/-- The face lies in a side of its cell. (Specification or proof vocabulary, no code.) -/
def OnCellSide (l : List P3) (side : Bool × Nat) : Prop :=
  ∀ p ∈ l, p.get side.2 = if side.1 then 2 else 0

instance (l : List P3) (side : Bool × Nat) : Decidable (OnCellSide l side) := by
  unfold OnCellSide; infer_instance

/-- `l'`, moved to the neighbouring cell across `side`, is where `l` is.
(Specification or proof vocabulary, no code.) -/
def ShiftedBy (l l' : List P3) (side : Bool × Nat) : Prop :=
  ∀ b ∈ [0, 1, 2], (minOff l).get b + (if side = (false, b) then 2 else 0) =
    (minOff l').get b + (if side = (true, b) then 2 else 0)

instance (l l' : List P3) (side : Bool × Nat) : Decidable (ShiftedBy l l' side) := by
  unfold ShiftedBy; infer_instance

/-- `G` is the only other face of the cell that is a translate of `F`; it is the same face, or the same face
moved across the only side of the cell that contains `F`.
(Specification or proof vocabulary, no code.) -/
def Partner (T : BoxTpl) (kind : BoxKind) (F G : Nat × Nat × List P3) : Prop :=
  G ≠ F ∧ Compat F.2.2 G.2.2 ∧ (∀ H ∈ tplFaces T, Compat F.2.2 H.2.2 → H = F ∨ H = G) ∧
  ((minOff F.2.2 = minOff G.2.2 ∧ ∀ side ∈ boxSides T.dim, ¬ OnCellSide F.2.2 side) ∨
    ∃ side ∈ boxSides T.dim, OnCellSide F.2.2 side ∧ F.1 ∈ boxSideSubs T.dim kind side ∧
      (∀ side' ∈ boxSides T.dim, OnCellSide F.2.2 side' → side' = side) ∧
      ShiftedBy F.2.2 G.2.2 side)

instance (T : BoxTpl) (kind : BoxKind) (F G : Nat × Nat × List P3) : Decidable (Partner T kind F G) := by
  unfold Partner; infer_instance

/-- What is checked for each way to divide a cell. (Specification or proof vocabulary, no code.) -/
def TplOK (T : BoxTpl) (kind : BoxKind) : Prop :=
  (∀ sub ∈ T.subs, ∀ o ∈ sub, o.x ≤ 2 ∧ o.y ≤ 2 ∧ o.z ≤ 2 ∧
    ((o.x % 2 = 0 ∧ o.y % 2 = 0 ∧ o.z % 2 = 0) ∨ (kind = .crossed ∧ o = ⟨1, 1, 0⟩ ∧ T.dim = 2)) ∧
    (T.dim ≤ 1 → o.y = 0) ∧ (T.dim ≤ 2 → o.z = 0)) ∧
  (∀ sub ∈ T.subs, sub.Nodup) ∧
  (∀ sub ∈ T.subs, ∀ ref ∈ T.fvi, ref ≠ [] ∧ ∀ k ∈ ref, k < sub.length) ∧
  (∀ F ∈ tplFaces T, ∃ G ∈ tplFaces T, Partner T kind F G) ∧
  (∀ side ∈ boxSides T.dim, ∀ s ∈ boxSideSubs T.dim kind side, s < T.subs.length) ∧
  T.subs ≠ [] ∧ T.fvi ≠ [] ∧ 1 ≤ T.dim ∧ T.dim ≤ 3

instance (T : BoxTpl) (kind : BoxKind) : Decidable (TplOK T kind) := by
  unfold TplOK; infer_instance

theorem boxTpl_ok {d : Nat} {kind : BoxKind} {T : BoxTpl} (h : boxTpl d kind = some T) :
    T.dim = d ∧ TplOK T kind := by
  unfold boxTpl at h
  split at h
  all_goals first
    | (obtain rfl := Option.some.inj h; exact ⟨rfl, by decide +kernel⟩)
    | simp at h

/-! ## Translation -/

theorem foldr_min_le {l : List Nat} {a : Nat} (h : a ∈ l) : l.foldr min 2 ≤ a := by
  induction l with
  | nil => simp at h
  | cons b l ih =>
    rw [List.foldr_cons]
    rcases List.mem_cons.1 h with rfl | h
    · exact Nat.min_le_left _ _
    · exact le_trans (Nat.min_le_right _ _) (ih h)

theorem foldr_min_mem {l : List Nat} (h0 : l ≠ []) (h2 : ∀ a ∈ l, a ≤ 2) : l.foldr min 2 ∈ l := by
  induction l with
  | nil => simp at h0
  | cons b l ih =>
    rw [List.foldr_cons]
    by_cases hl : l = []
    · subst hl
      have := h2 b List.mem_cons_self
      simp [this]
    · have h3 := ih hl fun a ha => h2 a (List.mem_cons_of_mem _ ha)
      rcases Nat.le_total b (l.foldr min 2) with hb | hb
      · rw [Nat.min_eq_left hb]; exact List.mem_cons_self
      · rw [Nat.min_eq_right hb]; exact List.mem_cons_of_mem _ h3

/-- Offsets of the vertices of a face. (Specification or proof vocabulary, no code.) -/
def OffsOK (l : List P3) : Prop := l ≠ [] ∧ ∀ p ∈ l, p.x ≤ 2 ∧ p.y ≤ 2 ∧ p.z ≤ 2

theorem minOff_le {l : List P3} {p : P3} (h : p ∈ l) :
    (minOff l).x ≤ p.x ∧ (minOff l).y ≤ p.y ∧ (minOff l).z ≤ p.z :=
  ⟨foldr_min_le (List.mem_map_of_mem h), foldr_min_le (List.mem_map_of_mem h),
    foldr_min_le (List.mem_map_of_mem h)⟩

theorem minOff_mem {l : List P3} (h : OffsOK l) :
    (∃ p ∈ l, p.x = (minOff l).x) ∧ (∃ p ∈ l, p.y = (minOff l).y) ∧ (∃ p ∈ l, p.z = (minOff l).z) := by
  obtain ⟨h0, h2⟩ := h
  refine ⟨?_, ?_, ?_⟩
  · obtain ⟨p, hp, e⟩ := List.mem_map.1 (foldr_min_mem (l := l.map P3.x) (by simpa using h0)
      (by intro a ha; obtain ⟨p, hp, rfl⟩ := List.mem_map.1 ha; exact (h2 p hp).1))
    exact ⟨p, hp, e⟩
  · obtain ⟨p, hp, e⟩ := List.mem_map.1 (foldr_min_mem (l := l.map P3.y) (by simpa using h0)
      (by intro a ha; obtain ⟨p, hp, rfl⟩ := List.mem_map.1 ha; exact (h2 p hp).2.1))
    exact ⟨p, hp, e⟩
  · obtain ⟨p, hp, e⟩ := List.mem_map.1 (foldr_min_mem (l := l.map P3.z) (by simpa using h0)
      (by intro a ha; obtain ⟨p, hp, rfl⟩ := List.mem_map.1 ha; exact (h2 p hp).2.2))
    exact ⟨p, hp, e⟩

/-- The least coordinates of the positions of a face of cell `c`.
(Specification or proof vocabulary, no code.) -/
def lowPos (c : P3) (l : List P3) : P3 := c.at2 (minOff l)

theorem lowPos_le {c c' : P3} {l l' : List P3} (hl : OffsOK l)
    (h : (l.map c.at2).Perm (l'.map c'.at2)) :
    (lowPos c' l').x ≤ (lowPos c l).x ∧ (lowPos c' l').y ≤ (lowPos c l).y ∧
      (lowPos c' l').z ≤ (lowPos c l).z := by
  have key : ∀ p ∈ l, (lowPos c' l').x ≤ (c.at2 p).x ∧ (lowPos c' l').y ≤ (c.at2 p).y ∧
      (lowPos c' l').z ≤ (c.at2 p).z := by
    intro p hp
    have := h.mem_iff.1 (List.mem_map_of_mem (f := c.at2) hp)
    obtain ⟨q, hq, e⟩ := List.mem_map.1 this
    rw [← e]
    have := minOff_le hq
    simp only [lowPos, P3.at2]
    omega
  obtain ⟨⟨p, hp, e⟩, ⟨q, hq, e'⟩, ⟨r, hr, e''⟩⟩ := minOff_mem hl
  have k1 := (key p hp).1
  have k2 := (key q hq).2.1
  have k3 := (key r hr).2.2
  simp only [lowPos, P3.at2] at *
  omega

theorem at2_eq_low {c : P3} {l : List P3} :
    l.map c.at2 = (normOff l).map fun p => ⟨(lowPos c l).x + p.x, (lowPos c l).y + p.y, (lowPos c l).z + p.z⟩ := by
  rw [normOff, List.map_map]
  refine List.map_congr_left ?_
  intro p hp
  have := minOff_le hp
  simp only [Function.comp, lowPos, P3.at2, P3.mk.injEq]
  omega

theorem normOff_eq_sub {c : P3} {l : List P3} :
    normOff l = (l.map c.at2).map fun p =>
      ⟨p.x - (lowPos c l).x, p.y - (lowPos c l).y, p.z - (lowPos c l).z⟩ := by
  rw [normOff, List.map_map]
  refine List.map_congr_left ?_
  intro p hp
  have := minOff_le hp
  simp only [Function.comp, lowPos, P3.at2, P3.mk.injEq]
  omega

/-- Faces of two cells have the same positions iff they are translates and have the same least
coordinates. -/
theorem at2_perm_iff {c c' : P3} {l l' : List P3} (hl : OffsOK l) (hl' : OffsOK l') :
    (l.map c.at2).Perm (l'.map c'.at2) ↔ (normOff l).Perm (normOff l') ∧ lowPos c l = lowPos c' l' := by
  constructor
  · intro h
    have h1 := lowPos_le hl h
    have h2 := lowPos_le hl' h.symm
    have e : lowPos c l = lowPos c' l' := by
      have : ∀ p q : P3, p.x = q.x → p.y = q.y → p.z = q.z → p = q := by
        rintro ⟨⟩ ⟨⟩ rfl rfl rfl; rfl
      exact this _ _ (by omega) (by omega) (by omega)
    refine ⟨?_, e⟩
    rw [normOff_eq_sub (c := c), normOff_eq_sub (c := c') (l := l'), e]
    exact h.map _
  · rintro ⟨h, e⟩
    rw [at2_eq_low, at2_eq_low (c := c') (l := l'), e]
    exact h.map _

theorem P3.ext' {p q : P3} (hx : p.x = q.x) (hy : p.y = q.y) (hz : p.z = q.z) : p = q := by
  cases p; cases q; simp_all

theorem compat_of_perm {c c' : P3} {l l' : List P3} (hl : OffsOK l) (hl' : OffsOK l')
    (h : (l.map c.at2).Perm (l'.map c'.at2)) : Compat l l' := by
  obtain ⟨h1, h2⟩ := (at2_perm_iff hl hl').1 h
  simp only [lowPos, P3.at2, P3.mk.injEq] at h2
  exact ⟨h1, by omega, by omega, by omega⟩

theorem mem_boxSides {d : Nat} {side : Bool × Nat} : side ∈ boxSides d ↔ side.2 < d := by
  obtain ⟨p, a⟩ := side
  simp only [boxSides, List.mem_flatMap, List.mem_range, List.mem_cons, List.not_mem_nil, or_false,
    Prod.mk.injEq]
  constructor
  · rintro ⟨b, hb, ⟨_, rfl⟩ | ⟨_, rfl⟩⟩ <;> exact hb
  · intro h
    refine ⟨a, h, ?_⟩
    cases p <;> simp

/-- The shape of the cells fits the shape of the grid points.
(Specification or proof vocabulary, no code.) -/
def BoxDims (d : Nat) (n m : P3) : Prop :=
  (0 < m.x → n.x = m.x + 1) ∧ (2 ≤ d → 0 < m.y → n.y = m.y + 1) ∧ (d ≤ 1 → n.y = 1 ∧ m.y = 1) ∧
  (3 ≤ d → 0 < m.z → n.z = m.z + 1) ∧ (d ≤ 2 → n.z = 1 ∧ m.z = 1)

theorem boxDims_of_lens {lens : List Nat} (h1 : lens.any (· == 1) = false) (hd : 1 ≤ lens.length)
    (hd3 : lens.length ≤ 3) : BoxDims lens.length (boxShape lens) (boxCellShape lens) := by
  match lens, hd, hd3 with
  | [a], _, _ => simp [boxShape, boxCellShape, BoxDims] at *; omega
  | [a, b], _, _ => simp [boxShape, boxCellShape, BoxDims] at *; omega
  | [a, b, c], _, _ => simp [boxShape, boxCellShape, BoxDims] at *; omega

/-- The positions of the vertices of an element have vertices. -/
theorem vertexAt_at2 {T : BoxTpl} {kind : BoxKind} {n m c : P3} (hok : TplOK T kind)
    (hdim : BoxDims T.dim n m) (hc : m.InShape c) {sub : List P3} (hs : sub ∈ T.subs) {o : P3} (ho : o ∈ sub) :
    VertexAt n m kind (c.at2 o) := by
  obtain ⟨hx, hy, hz, hpar, h1, h2⟩ := hok.1 sub hs o ho
  obtain ⟨c1, c2, c3⟩ := hc
  obtain ⟨d1, d2, d3, d4, d5⟩ := hdim
  rcases hpar with hpar | ⟨hk, rfl, hd2⟩
  · left
    refine ⟨⟨c.x + o.x / 2, c.y + o.y / 2, c.z + o.z / 2⟩, ?_, ?_⟩
    · refine ⟨?_, ?_, ?_⟩
      · have := d1 (by omega)
        show c.x + o.x / 2 < n.x
        omega
      · show c.y + o.y / 2 < n.y
        by_cases h : T.dim ≤ 1
        · have := h1 h; have := d3 h; omega
        · have := d2 (by omega) (by omega); omega
      · show c.z + o.z / 2 < n.z
        by_cases h : T.dim ≤ 2
        · have := h2 h; have := d5 h; omega
        · have := d4 (by omega) (by omega); omega
    · simp only [P3.at2, P3.mk.injEq]
      omega
  · right
    refine ⟨hk, c.x, c.y, c1, c2, ?_⟩
    simp only [P3.at2, P3.mk.injEq]
    refine ⟨trivial, trivial, ?_⟩
    have := d5 (by omega)
    omega

/-! ## Faces of the mesh -/

variable {N : Type}

theorem mem_tplFaces {T : BoxTpl} {F : Nat × Nat × List P3} :
    F ∈ tplFaces T ↔ ∃ sub ref, T.subs[F.1]? = some sub ∧ T.fvi[F.2.1]? = some ref ∧
      F.2.2 = ref.map fun k => sub.getD k ⟨0, 0, 0⟩ := by
  obtain ⟨s, f, l⟩ := F
  simp only [tplFaces, List.mem_flatMap, List.mem_map, Prod.exists, List.mem_zipIdx_iff_getElem?,
    Prod.mk.injEq]
  constructor
  · rintro ⟨sub, s', hs, ref, f', hf, rfl, rfl, rfl⟩
    exact ⟨sub, ref, hs, hf, rfl⟩
  · rintro ⟨sub, ref, hs, hf, rfl⟩
    exact ⟨sub, s, hs, ref, f, hf, rfl, rfl, rfl⟩

theorem tplFaces_key {T : BoxTpl} {F G : Nat × Nat × List P3} (hF : F ∈ tplFaces T) (hG : G ∈ tplFaces T)
    (h1 : F.1 = G.1) (h2 : F.2.1 = G.2.1) : F = G := by
  obtain ⟨sub, ref, a, b, c⟩ := mem_tplFaces.1 hF
  obtain ⟨sub', ref', a', b', c'⟩ := mem_tplFaces.1 hG
  rw [h1, a'] at a
  rw [h2, b'] at b
  obtain rfl := Option.some.inj a
  obtain rfl := Option.some.inj b
  obtain ⟨s, f, l⟩ := F
  obtain ⟨s', f', l'⟩ := G
  simp only at *
  subst h1 h2
  rw [c, c']

theorem offsOK_of_mem {T : BoxTpl} {kind : BoxKind} (hok : TplOK T kind) {F : Nat × Nat × List P3}
    (hF : F ∈ tplFaces T) : OffsOK F.2.2 ∧ F.1 < T.subs.length ∧
      ∃ sub ∈ T.subs, ∀ o ∈ F.2.2, o ∈ sub := by
  obtain ⟨sub, ref, hs, hf, e⟩ := mem_tplFaces.1 hF
  have hsm := List.mem_of_getElem? hs
  obtain ⟨h0, hk⟩ := hok.2.2.1 sub hsm ref (List.mem_of_getElem? hf)
  have hmem : ∀ o ∈ F.2.2, o ∈ sub := by
    intro o ho
    rw [e] at ho
    obtain ⟨k, hk', rfl⟩ := List.mem_map.1 ho
    have := hk k hk'
    rw [List.getD_eq_getElem?_getD, List.getElem?_eq_getElem this]
    exact List.getElem_mem _
  refine ⟨⟨?_, ?_⟩, (List.getElem?_eq_some_iff.1 hs).1, sub, hsm, hmem⟩
  · rw [e]; simpa using h0
  · intro p hp
    obtain ⟨a, b, c, _⟩ := hok.1 sub hsm p (hmem p hp)
    exact ⟨a, b, c⟩

/-- The number of the face `F` of the cell `c`. (Specification or proof vocabulary, no code.) -/
def boxFaceId (m : P3) (T : BoxTpl) (c : P3) (F : Nat × Nat × List P3) : FaceId :=
  ⟨0, m.rowMajor c * T.subs.length + F.1, F.2.1⟩

theorem boxElements_getElem? {n m : P3} {T : BoxTpl} {c : P3} (hc : m.InShape c) {s : Nat} {sub : List P3}
    (hs : T.subs[s]? = some sub) :
    (boxElements n m T)[m.rowMajor c * T.subs.length + s]? =
      some (sub.map fun o => boxVertexNr n m (c.at2 o)) := by
  unfold boxElements
  rw [flatMap_const_getElem? (fun a _ => by simp) (indices_getElem? hc) (List.getElem?_eq_some_iff.1 hs).1,
    List.getElem?_map, hs]
  rfl

theorem length_boxElements (n m : P3) (T : BoxTpl) :
    (boxElements n m T).length = m.x * m.y * m.z * T.subs.length := by
  unfold boxElements
  rw [flatMap_const_length (w := T.subs.length) (fun a _ => by simp), length_indices]

theorem boxElements_of_lt {n m : P3} {T : BoxTpl} {e : Nat} (he : e < (boxElements n m T).length) :
    ∃ c s, m.InShape c ∧ s < T.subs.length ∧ e = m.rowMajor c * T.subs.length + s := by
  obtain ⟨i, j, a, h1, h2, h3, _⟩ := flatMap_const_of_lt (w := T.subs.length) (fun a _ => by simp) he
  obtain ⟨hc, rfl⟩ := indices_getElem?_iff.1 h1
  exact ⟨a, j, hc, h2, h3⟩

theorem isFace_box {nodeOf : List Nat → N} {n m : P3} {T : BoxTpl} {f : FaceId} :
    IsFace [boxGroup nodeOf n m T] f ↔ ∃ c F, m.InShape c ∧ F ∈ tplFaces T ∧ f = boxFaceId m T c F := by
  constructor
  · rintro ⟨g, hg, hf, he⟩
    obtain ⟨grp, el, face⟩ := f
    cases grp with
    | succ k => simp at hg
    | zero =>
      simp only [List.getElem?_cons_zero, Option.some.injEq] at hg
      subst hg
      simp only [boxGroup, ElGroup.nfaces, ElGroup.nelements, List.length_map] at hf he
      obtain ⟨c, s, hc, hs, rfl⟩ := boxElements_of_lt he
      refine ⟨c, (s, face, (T.fvi[face]).map fun k => (T.subs[s]).getD k ⟨0, 0, 0⟩), hc, ?_, rfl⟩
      exact mem_tplFaces.2 ⟨T.subs[s], T.fvi[face], List.getElem?_eq_getElem hs,
        List.getElem?_eq_getElem hf, rfl⟩
  · rintro ⟨c, F, hc, hF, rfl⟩
    obtain ⟨sub, ref, hs, hf, _⟩ := mem_tplFaces.1 hF
    refine ⟨_, rfl, (List.getElem?_eq_some_iff.1 hf).1, ?_⟩
    simp only [boxGroup, ElGroup.nelements, List.length_map]
    exact (List.getElem?_eq_some_iff.1 (boxElements_getElem? (n := n) hc hs)).1

theorem boxFaceId_inj {m : P3} {T : BoxTpl} {c c' : P3} {F F' : Nat × Nat × List P3} (hc : m.InShape c)
    (hc' : m.InShape c') (hF : F ∈ tplFaces T) (hF' : F' ∈ tplFaces T)
    (h : boxFaceId m T c F = boxFaceId m T c' F') : c = c' ∧ F = F' := by
  simp only [boxFaceId, FaceId.mk.injEq, true_and] at h
  obtain ⟨h1, h2⟩ := h
  obtain ⟨_, _, a, _, _⟩ := mem_tplFaces.1 hF
  obtain ⟨_, _, a', _, _⟩ := mem_tplFaces.1 hF'
  have l1 := (List.getElem?_eq_some_iff.1 a).1
  have l2 := (List.getElem?_eq_some_iff.1 a').1
  have e : m.rowMajor c = m.rowMajor c' := by
    have e1 : (m.rowMajor c * T.subs.length + F.1) / T.subs.length = m.rowMajor c := by
      rw [Nat.add_comm, Nat.add_mul_div_right _ _ (by omega), Nat.div_eq_of_lt l1, Nat.zero_add]
    have e2 : (m.rowMajor c' * T.subs.length + F'.1) / T.subs.length = m.rowMajor c' := by
      rw [Nat.add_comm, Nat.add_mul_div_right _ _ (by omega), Nat.div_eq_of_lt l2, Nat.zero_add]
    rw [← e1, h1, e2]
  rw [e] at h1
  exact ⟨rowMajor_inj hc hc' e, tplFaces_key hF hF' (by omega) h2⟩

theorem faceVerts_box {nodeOf : List Nat → N} {n m : P3} {T : BoxTpl} {kind : BoxKind} (hok : TplOK T kind)
    {c : P3} (hc : m.InShape c) {F : Nat × Nat × List P3} (hF : F ∈ tplFaces T) :
    faceVerts [boxGroup nodeOf n m T] (boxFaceId m T c F) =
      some (F.2.2.map fun o => boxVertexNr n m (c.at2 o)) := by
  obtain ⟨sub, ref, hs, hf, e⟩ := mem_tplFaces.1 hF
  have hk := (hok.2.2.1 sub (List.mem_of_getElem? hs) ref (List.mem_of_getElem? hf)).2
  simp only [faceVerts, boxFaceId, boxGroup, List.getElem?_cons_zero, Option.bind_eq_bind,
    Option.bind_some, hf, boxElements_getElem? hc hs]
  rw [e, List.map_map, mapM_some_eq_map]
  intro k hk'
  have := hk k hk'
  simp [List.getElem?_map, List.getElem?_eq_getElem this]

theorem box_wf {nodeOf : List Nat → N} {n m : P3} {T : BoxTpl} {kind : BoxKind} (hok : TplOK T kind) :
    ∀ g ∈ [boxGroup nodeOf n m T], g.WF := by
  intro g hg
  rw [List.mem_singleton] at hg
  subst hg
  refine ⟨by simp [boxGroup], ?_⟩
  intro row hrow ref href k hk
  simp only [boxGroup, boxElements, List.mem_flatMap, List.mem_map] at hrow
  obtain ⟨c, _, sub, hs, rfl⟩ := hrow
  rw [List.length_map]
  exact (hok.2.2.1 sub hs ref href).2 k hk

/-- Faces of the mesh have the same vertex numbers iff they have the same positions. -/
theorem sameVertices_box {nodeOf : List Nat → N} {n m : P3} {T : BoxTpl} {kind : BoxKind}
    (hok : TplOK T kind) (hdim : BoxDims T.dim n m) {c c' : P3} (hc : m.InShape c) (hc' : m.InShape c')
    {F F' : Nat × Nat × List P3} (hF : F ∈ tplFaces T) (hF' : F' ∈ tplFaces T) :
    SameVertices [boxGroup nodeOf n m T] (boxFaceId m T c F) (boxFaceId m T c' F') ↔
      (F.2.2.map c.at2).Perm (F'.2.2.map c'.at2) := by
  have hv : ∀ {c : P3} {F : Nat × Nat × List P3}, m.InShape c → F ∈ tplFaces T →
      ∀ o ∈ F.2.2, VertexAt n m kind (c.at2 o) := by
    intro c F hc hF o ho
    obtain ⟨_, _, sub, hs, hmem⟩ := offsOK_of_mem hok hF
    exact vertexAt_at2 hok hdim hc hs (hmem o ho)
  constructor
  · rintro ⟨vs, vs', h1, h2, hp⟩
    rw [faceVerts_box hok hc hF] at h1
    rw [faceVerts_box hok hc' hF'] at h2
    obtain rfl := Option.some.inj h1
    obtain rfl := Option.some.inj h2
    have hp' := hp.map fun v => (boxPositions n m kind)[v]?.getD ⟨0, 0, 0⟩
    have e : ∀ {c : P3} {F : Nat × Nat × List P3}, m.InShape c → F ∈ tplFaces T →
        ((F.2.2.map fun o => boxVertexNr n m (c.at2 o)).map fun v =>
          (boxPositions n m kind)[v]?.getD ⟨0, 0, 0⟩) = F.2.2.map c.at2 := by
      intro c F hc hF
      rw [List.map_map]
      refine List.map_congr_left ?_
      intro o ho
      simp only [Function.comp, boxPositions_getElem? (hv hc hF o ho), Option.getD_some]
    rw [e hc hF, e hc' hF'] at hp'
    exact hp'
  · intro h
    refine ⟨_, _, faceVerts_box hok hc hF, faceVerts_box hok hc' hF', ?_⟩
    have := h.map (boxVertexNr n m)
    rw [List.map_map, List.map_map] at this
    exact this

/-- The face lies on a side of the box: all its vertices are grid points with the first or last index along
the axis of the side. (Specification or proof vocabulary, no code.) -/
def OnBoxSide (n : P3) (vs : List Nat) (side : Bool × Nat) : Prop :=
  ∀ v ∈ vs, ∃ i, n.InShape i ∧ v = n.rowMajor i ∧ i.get side.2 = if side.1 then n.get side.2 - 1 else 0

theorem P3.get_at2 (c o : P3) (a : Nat) : (c.at2 o).get a = 2 * c.get a + o.get a := by
  match a with
  | 0 => rfl
  | 1 => rfl
  | _ + 2 => rfl

theorem boxDims_get {d : Nat} {n m c : P3} (hdim : BoxDims d n m) (hc : m.InShape c) {a : Nat} (ha : a < d)
    (hd3 : d ≤ 3) : n.get a = m.get a + 1 ∧ c.get a < m.get a := by
  obtain ⟨d1, d2, d3, d4, d5⟩ := hdim
  obtain ⟨c1, c2, c3⟩ := hc
  match a, ha with
  | 0, _ => exact ⟨d1 (by omega), c1⟩
  | 1, _ => exact ⟨d2 (by omega) (by omega), c2⟩
  | 2, _ => exact ⟨d4 (by omega) (by omega), c3⟩
  | k + 3, h => omega

theorem onBoxSide_iff {n m : P3} {T : BoxTpl} {kind : BoxKind} (hok : TplOK T kind)
    (hdim : BoxDims T.dim n m) {c : P3} (hc : m.InShape c) {F : Nat × Nat × List P3} (hF : F ∈ tplFaces T)
    {side : Bool × Nat} (hside : side ∈ boxSides T.dim) :
    OnBoxSide n (F.2.2.map fun o => boxVertexNr n m (c.at2 o)) side ↔
      OnCellSide F.2.2 side ∧ c.get side.2 = if side.1 then m.get side.2 - 1 else 0 := by
  obtain ⟨⟨hne, h2⟩, _, sub, hs, hmem⟩ := offsOK_of_mem hok hF
  have hva : ∀ o ∈ F.2.2, VertexAt n m kind (c.at2 o) := fun o ho => vertexAt_at2 hok hdim hc hs (hmem o ho)
  have ha := mem_boxSides.1 hside
  have hd3 : T.dim ≤ 3 := hok.2.2.2.2.2.2.2.2
  obtain ⟨g1, g2⟩ := boxDims_get hdim hc ha hd3
  have hle : ∀ o ∈ F.2.2, o.get side.2 ≤ 2 := by
    intro o ho
    obtain ⟨a, b, c⟩ := h2 o ho
    match side.2 with
    | 0 => exact a
    | 1 => exact b
    | _ + 2 => exact c
  constructor
  · intro h
    have key : ∀ o ∈ F.2.2, 2 * c.get side.2 + o.get side.2 =
        2 * (if side.1 then n.get side.2 - 1 else 0) := by
      intro o ho
      obtain ⟨i, hi, e, e2⟩ := h _ (List.mem_map_of_mem ho)
      rw [← boxVertexNr_grid n m i] at e
      have := boxVertexNr_inj (hva o ho) (Or.inl ⟨i, hi, rfl⟩) e
      rw [← e2, ← P3.get_at2, this]
      match side.2 with
      | 0 => rfl
      | 1 => rfl
      | _ + 2 => rfl
    have hc' : c.get side.2 = if side.1 then m.get side.2 - 1 else 0 := by
      obtain ⟨o, ho⟩ := List.exists_mem_of_ne_nil _ hne
      have k := key o ho
      have l := hle o ho
      split_ifs at k ⊢ <;> omega
    refine ⟨?_, hc'⟩
    intro o ho
    have k := key o ho
    have l := hle o ho
    split_ifs at k hc' ⊢ <;> omega
  · rintro ⟨h, hce⟩ v hv
    obtain ⟨o, ho, rfl⟩ := List.mem_map.1 hv
    have hoa := h o ho
    rcases hva o ho with ⟨i, hi, e⟩ | ⟨hk, i, j, _, _, e⟩
    · refine ⟨i, hi, ?_, ?_⟩
      · rw [e, boxVertexNr_grid]
      · have e2 : (c.at2 o).get side.2 = 2 * i.get side.2 := by
          rw [e]
          match side.2 with
          | 0 => rfl
          | 1 => rfl
          | _ + 2 => rfl
        rw [P3.get_at2] at e2
        split_ifs at hoa hce ⊢ <;> omega
    · exfalso
      obtain ⟨_, _, _, hpar, _⟩ := hok.1 sub hs o (hmem o ho)
      simp only [P3.at2, P3.mk.injEq] at e
      rcases hpar with ⟨hp, _⟩ | ⟨_, rfl, hd2⟩
      · omega
      · rw [hd2] at ha
        match h : side.2, ha with
        | 0, _ => rw [h] at hoa; simp only [P3.get] at hoa; split_ifs at hoa; omega
        | 1, _ => rw [h] at hoa; simp only [P3.get] at hoa; split_ifs at hoa; omega

/-- The neighbour of a face of cell `c`. -/
theorem partner_of_face {n m : P3} {T : BoxTpl} {kind : BoxKind} (hok : TplOK T kind)
    (hdim : BoxDims T.dim n m) {c : P3} (hc : m.InShape c) {F : Nat × Nat × List P3} (hF : F ∈ tplFaces T) :
    ∃ G ∈ tplFaces T, G ≠ F ∧
      (∀ c' F', F' ∈ tplFaces T → (F.2.2.map c.at2).Perm (F'.2.2.map c'.at2) →
        (F' = F ∧ c' = c) ∨ F' = G) ∧
      ((∃ c', m.InShape c' ∧ (F.2.2.map c.at2).Perm (G.2.2.map c'.at2)) ↔
        ¬ ∃ side ∈ boxSides T.dim, OnBoxSide n (F.2.2.map fun o => boxVertexNr n m (c.at2 o)) side) := by
  obtain ⟨G, hG, hGF, hcompat, huniq, hpos⟩ := hok.2.2.2.1 F hF
  have oF := (offsOK_of_mem hok hF).1
  have oG := (offsOK_of_mem hok hG).1
  refine ⟨G, hG, hGF, ?_, ?_⟩
  · intro c' F' hF' hp
    have oF' := (offsOK_of_mem hok hF').1
    rcases huniq F' hF' (compat_of_perm oF oF' hp) with rfl | rfl
    · left
      refine ⟨rfl, ?_⟩
      have := ((at2_perm_iff oF oF).1 hp).2
      simp only [lowPos, P3.at2, P3.mk.injEq] at this
      exact P3.ext' (by omega) (by omega) (by omega)
    · exact Or.inr rfl
  · have hside : (∃ side ∈ boxSides T.dim,
        OnBoxSide n (F.2.2.map fun o => boxVertexNr n m (c.at2 o)) side) ↔
        ∃ side ∈ boxSides T.dim, OnCellSide F.2.2 side ∧
          c.get side.2 = if side.1 then m.get side.2 - 1 else 0 := by
      constructor
      · rintro ⟨side, h1, h2⟩; exact ⟨side, h1, (onBoxSide_iff hok hdim hc hF h1).1 h2⟩
      · rintro ⟨side, h1, h2⟩; exact ⟨side, h1, (onBoxSide_iff hok hdim hc hF h1).2 h2⟩
    have hperm : ∀ c', (F.2.2.map c.at2).Perm (G.2.2.map c'.at2) ↔
        lowPos c F.2.2 = lowPos c' G.2.2 := by
      intro c'
      rw [at2_perm_iff oF oG]
      exact ⟨fun h => h.2, fun h => ⟨hcompat.1, h⟩⟩
    rw [hside]
    rcases hpos with ⟨hmin, hno⟩ | ⟨side, hs, hon, _, honly, hshift⟩
    · refine ⟨fun _ => ?_, fun _ => ⟨c, hc, ?_⟩⟩
      · rintro ⟨side, hs, h, _⟩; exact hno side hs h
      · rw [hperm, lowPos, lowPos, hmin]
    · have hiff : (∃ side ∈ boxSides T.dim, OnCellSide F.2.2 side ∧
          c.get side.2 = if side.1 then m.get side.2 - 1 else 0) ↔
          c.get side.2 = if side.1 then m.get side.2 - 1 else 0 := by
        constructor
        · rintro ⟨side', h1, h2, h3⟩
          rw [honly side' h1 h2] at h3
          exact h3
        · intro h; exact ⟨side, hs, hon, h⟩
      rw [hiff]
      have ha := mem_boxSides.1 hs
      have hd3 : T.dim ≤ 3 := hok.2.2.2.2.2.2.2.2
      have s0 := hshift 0 (by simp)
      have s1 := hshift 1 (by simp)
      have s2 := hshift 2 (by simp)
      obtain ⟨c1, c2, c3⟩ := hc
      obtain ⟨p, a⟩ := side
      simp only [P3.get] at s0 s1 s2
      simp only at ha
      constructor
      · rintro ⟨c', ⟨k1, k2, k3⟩, hp⟩ hend
        rw [hperm] at hp
        simp only [lowPos, P3.at2, P3.mk.injEq] at hp
        have : a < 3 := by omega
        interval_cases a <;> cases p <;> simp [P3.get] at hend s0 s1 s2 <;> omega
      · intro hend
        have : a < 3 := by omega
        interval_cases a <;> cases p <;> simp [P3.get] at hend s0 s1 s2
        · refine ⟨⟨c.x - 1, c.y, c.z⟩, ⟨?_, c2, c3⟩, (hperm _).2 ?_⟩
          · show c.x - 1 < m.x; omega
          · simp only [lowPos, P3.at2, P3.mk.injEq]; omega
        · refine ⟨⟨c.x + 1, c.y, c.z⟩, ⟨?_, c2, c3⟩, (hperm _).2 ?_⟩
          · show c.x + 1 < m.x; omega
          · simp only [lowPos, P3.at2, P3.mk.injEq]; omega
        · refine ⟨⟨c.x, c.y - 1, c.z⟩, ⟨c1, ?_, c3⟩, (hperm _).2 ?_⟩
          · show c.y - 1 < m.y; omega
          · simp only [lowPos, P3.at2, P3.mk.injEq]; omega
        · refine ⟨⟨c.x, c.y + 1, c.z⟩, ⟨c1, ?_, c3⟩, (hperm _).2 ?_⟩
          · show c.y + 1 < m.y; omega
          · simp only [lowPos, P3.at2, P3.mk.injEq]; omega
        · refine ⟨⟨c.x, c.y, c.z - 1⟩, ⟨c1, c2, ?_⟩, (hperm _).2 ?_⟩
          · show c.z - 1 < m.z; omega
          · simp only [lowPos, P3.at2, P3.mk.injEq]; omega
        · refine ⟨⟨c.x, c.y, c.z + 1⟩, ⟨c1, c2, ?_⟩, (hperm _).2 ?_⟩
          · show c.z + 1 < m.z; omega
          · simp only [lowPos, P3.at2, P3.mk.injEq]; omega

/-! ## The properties -/

/-- C21: the generated group. -/
theorem generateBox_eq {nodeOf : List Nat → N} {lens : List Nat} {kind : BoxKind} {g : ElGroup N}
    (h : generateBox nodeOf lens kind = some g) :
    ∃ T, boxTpl lens.length kind = some T ∧ T.dim = lens.length ∧ TplOK T kind ∧
      BoxDims T.dim (boxShape lens) (boxCellShape lens) ∧
      g = boxGroup nodeOf (boxShape lens) (boxCellShape lens) T := by
  unfold generateBox at h
  split at h
  · simp at h
  · rename_i h1
    simp only [Option.bind_eq_bind, Option.bind_eq_some_iff, Option.some.injEq] at h
    obtain ⟨T, hT, rfl⟩ := h
    obtain ⟨hd, hok⟩ := boxTpl_ok hT
    refine ⟨T, hT, hd, hok, ?_, rfl⟩
    rw [hd]
    have h2 := hok.2.2.2.2.2.2.2
    exact boxDims_of_lens (by simpa only [Bool.not_eq_true] using h1) (by omega) (by omega)

theorem neighbors_box {nodeOf : List Nat → N} {n m : P3} {T : BoxTpl} {kind : BoxKind} (hok : TplOK T kind)
    (hdim : BoxDims T.dim n m) {f : FaceId} (hf : IsFace [boxGroup nodeOf n m T] f) :
    ∃ vs, faceVerts [boxGroup nodeOf n m T] f = some vs ∧
      ((∀ f', IsFace [boxGroup nodeOf n m T] f' → f' ≠ f → ¬ SameVertices [boxGroup nodeOf n m T] f f') ↔
        ∃ side ∈ boxSides T.dim, OnBoxSide n vs side) ∧
      (∀ f' f'', IsFace [boxGroup nodeOf n m T] f' → IsFace [boxGroup nodeOf n m T] f'' →
        SameVertices [boxGroup nodeOf n m T] f f' → SameVertices [boxGroup nodeOf n m T] f f'' →
        f ≠ f' → f ≠ f'' → f' = f'') := by
  obtain ⟨c, F, hc, hF, rfl⟩ := isFace_box.1 hf
  obtain ⟨G, hG, hGF, huniq, hhull⟩ := partner_of_face hok hdim hc hF
  refine ⟨_, faceVerts_box hok hc hF, ?_, ?_⟩
  · rw [← not_iff_not, ← hhull]
    constructor
    · intro h
      push Not at h
      obtain ⟨f', hf', hne, hs⟩ := h
      obtain ⟨c', F', hc', hF', rfl⟩ := isFace_box.1 hf'
      rw [sameVertices_box hok hdim hc hc' hF hF'] at hs
      rcases huniq c' F' hF' hs with ⟨rfl, rfl⟩ | rfl
      · exact absurd rfl hne
      · exact ⟨c', hc', hs⟩
    · rintro ⟨c', hc', hp⟩ h
      refine h (boxFaceId m T c' G) (isFace_box.2 ⟨c', G, hc', hG, rfl⟩) ?_
        ((sameVertices_box hok hdim hc hc' hF hG).2 hp)
      intro e
      exact hGF (boxFaceId_inj hc' hc hG hF e).2
  · intro f' f'' hf' hf'' hs' hs'' hne' hne''
    obtain ⟨c', F', hc', hF', rfl⟩ := isFace_box.1 hf'
    obtain ⟨c'', F'', hc'', hF'', rfl⟩ := isFace_box.1 hf''
    rw [sameVertices_box hok hdim hc hc' hF hF'] at hs'
    rw [sameVertices_box hok hdim hc hc'' hF hF''] at hs''
    rcases huniq c' F' hF' hs' with ⟨rfl, rfl⟩ | rfl
    · exact absurd rfl hne'
    · rcases huniq c'' F'' hF'' hs'' with ⟨rfl, rfl⟩ | rfl
      · exact absurd rfl hne''
      · have e := (at2_perm_iff (offsOK_of_mem hok hF').1 (offsOK_of_mem hok hF').1).1 (hs'.symm.trans hs'')
        have e := e.2
        simp only [lowPos, P3.at2, P3.mk.injEq] at e
        have : c' = c'' := P3.ext' (by omega) (by omega) (by omega)
        rw [this]

/-- C21: in a box mesh no three faces have the same vertices, and a face is a boundary face (no other face
has its vertices) exactly when it lies on a side of the box. -/
theorem C21_faces {nodeOf : List Nat → N} {lens : List Nat} {kind : BoxKind} {g : ElGroup N}
    (h : generateBox nodeOf lens kind = some g) :
    AtMostTwoSides [g] ∧ ∀ f, IsFace [g] f → ∃ vs, faceVerts [g] f = some vs ∧
      (IsBoundaryFace [g] f ↔ ∃ plus axis, axis < lens.length ∧
        OnBoxSide (boxShape lens) vs (plus, axis)) := by
  obtain ⟨T, _, hd, hok, hdim, rfl⟩ := generateBox_eq h
  refine ⟨?_, ?_⟩
  · intro f f' f'' hf hf' hf'' hs' hs'' h1 h2
    obtain ⟨_, _, _, hu⟩ := neighbors_box hok hdim hf
    exact hu f' f'' hf' hf'' hs' hs'' h1 h2
  · intro f hf
    obtain ⟨vs, hvs, hb, _⟩ := neighbors_box hok hdim hf
    refine ⟨vs, hvs, ?_⟩
    rw [← hd]
    constructor
    · intro hbf
      obtain ⟨⟨p, a⟩, hs, ho⟩ := hb.1 hbf.2
      exact ⟨p, a, mem_boxSides.1 hs, ho⟩
    · rintro ⟨p, a, ha, ho⟩
      exact ⟨hf, hb.2 ⟨(p, a), mem_boxSides.2 ha, ho⟩⟩

/-! ## Boundary tags -/

theorem boxVertTuple_iff {n : P3} {v a w : Nat} :
    (boxVertTuple n v).map (P3.get · a) = some w ↔ ∃ i, n.InShape i ∧ v = n.rowMajor i ∧ i.get a = w := by
  constructor
  · intro h
    by_cases hv : v < n.x * n.y * n.z
    · rw [← length_indices] at hv
      obtain ⟨hi, e⟩ := indices_getElem?_iff.1 (List.getElem?_eq_getElem hv)
      generalize n.indices[v] = i at hi e
      refine ⟨i, hi, e, ?_⟩
      rw [e, boxVertTuple_rowMajor hi] at h
      simpa using h
    · rw [boxVertTuple, if_neg hv] at h
      simp at h
  · rintro ⟨i, hi, rfl, rfl⟩
    rw [boxVertTuple_rowMajor hi]
    rfl

theorem onBoxSide_all {n : P3} {vs : List Nat} {side : Bool × Nat} :
    (vs.all fun v => (boxVertTuple n v).map (P3.get · side.2) ==
      some (if side.1 then n.get side.2 - 1 else 0)) = true ↔ OnBoxSide n vs side := by
  rw [List.all_eq_true]
  unfold OnBoxSide
  refine forall₂_congr fun v _ => ?_
  rw [beq_iff_eq, boxVertTuple_iff]

/-- The vertices of face `F` of cell `c`. (Specification or proof vocabulary, no code.) -/
def boxFaceVerts (n m c : P3) (F : Nat × Nat × List P3) : List Nat :=
  F.2.2.map fun o => boxVertexNr n m (c.at2 o)

theorem face_of_row {n m : P3} {T : BoxTpl} {kind : BoxKind} (hok : TplOK T kind) {c : P3} {s f : Nat}
    {sub : List P3} {ref : List Nat} (hs : T.subs[s]? = some sub) (hf : T.fvi[f]? = some ref) :
    (ref.map fun k => (sub.map fun o => boxVertexNr n m (c.at2 o)).getD k 0) =
      boxFaceVerts n m c (s, f, ref.map fun k => sub.getD k ⟨0, 0, 0⟩) := by
  have hk := (hok.2.2.1 sub (List.mem_of_getElem? hs) ref (List.mem_of_getElem? hf)).2
  rw [boxFaceVerts, List.map_map]
  refine List.map_congr_left ?_
  intro k hk'
  have := hk k hk'
  simp [List.getElem?_map, List.getElem?_eq_getElem this]

theorem mem_boxSideElements {m : P3} {T : BoxTpl} {kind : BoxKind} {side : Bool × Nat} {e : Nat} :
    e ∈ boxSideElements m T kind side ↔ ∃ c s, m.InShape c ∧ s ∈ boxSideSubs T.dim kind side ∧
      c.get side.2 = (if side.1 then m.get side.2 - 1 else 0) ∧ e = m.rowMajor c * T.subs.length + s := by
  simp only [boxSideElements, List.mem_flatMap, List.mem_map, List.mem_filter, Prod.exists,
    List.mem_zipIdx_iff_getElem?, indices_getElem?_iff, beq_iff_eq, exists_eq_right]
  constructor
  · rintro ⟨s, hs, k, ⟨c, ⟨hc, rfl⟩, he⟩, rfl⟩
    exact ⟨c, s, hc, hs, he, by rw [Nat.mul_comm]⟩
  · rintro ⟨c, s, hc, hs, he, rfl⟩
    exact ⟨s, hs, _, ⟨c, ⟨hc, rfl⟩, he⟩, by rw [Nat.mul_comm]⟩

theorem mem_boxTagWrites {n m : P3} {T : BoxTpl} {kind : BoxKind} (hok : TplOK T kind)
    (hdim : BoxDims T.dim n m) {tagToFace : List (BTag × List (Bool × Nat))} {w : List Nat × List BTag} :
    w ∈ boxTagWrites n m T kind tagToFace ↔ ∃ side ∈ boxSides T.dim, boxSideTags tagToFace side ≠ [] ∧
      ∃ c F, m.InShape c ∧ F ∈ tplFaces T ∧ OnBoxSide n (boxFaceVerts n m c F) side ∧
        w = (boxFaceVerts n m c F, boxSideTags tagToFace side) := by
  simp only [boxTagWrites, List.mem_flatMap]
  refine exists_congr fun side => and_congr_right fun hside => ?_
  by_cases ht : boxSideTags tagToFace side = []
  · simp [ht]
  rw [if_neg ht]
  simp only [List.mem_flatMap, List.mem_filterMap, Option.bind_eq_bind, Option.bind_eq_some_iff,
    Option.ite_none_right_eq_some, onBoxSide_all, Option.some.injEq]
  constructor
  · rintro ⟨ref, href, e, he, row, hrow, hall, rfl⟩
    refine ⟨ht, ?_⟩
    obtain ⟨c, s, hc, hs, hce, rfl⟩ := mem_boxSideElements.1 he
    have hsl := hok.2.2.2.2.1 side hside s hs
    have hsub : T.subs[s]? = some T.subs[s] := List.getElem?_eq_getElem hsl
    rw [boxElements_getElem? hc hsub] at hrow
    obtain rfl := Option.some.inj hrow
    obtain ⟨f, hf⟩ := List.mem_iff_getElem?.1 href
    rw [face_of_row hok hsub hf] at hall ⊢
    exact ⟨c, _, hc, mem_tplFaces.2 ⟨_, _, hsub, hf, rfl⟩, hall, rfl⟩
  · rintro ⟨_, c, F, hc, hF, hon, rfl⟩
    obtain ⟨sub, ref, hsub, hf, e⟩ := mem_tplFaces.1 hF
    have hboth := (onBoxSide_iff hok hdim hc hF hside).1 hon
    obtain ⟨G, hG, _, _, _, hpos⟩ := hok.2.2.2.1 F hF
    have hFs : F.1 ∈ boxSideSubs T.dim kind side := by
      rcases hpos with ⟨_, hno⟩ | ⟨side', _, _, hin, honly, _⟩
      · exact absurd hboth.1 (hno side hside)
      · rw [honly side hside hboth.1]; exact hin
    have hFe : boxFaceVerts n m c (F.1, F.2.1, ref.map fun k => sub.getD k ⟨0, 0, 0⟩) =
        boxFaceVerts n m c F := by rw [← e]
    refine ⟨ref, List.mem_of_getElem? hf, m.rowMajor c * T.subs.length + F.1,
      mem_boxSideElements.2 ⟨c, F.1, hc, hFs, hboth.2, rfl⟩, _, boxElements_getElem? hc hsub, ?_⟩
    rw [face_of_row hok hsub hf, hFe]
    exact ⟨hon, rfl⟩

/-- A face lies on at most one side of the box. -/
theorem onBoxSide_unique {n m : P3} {T : BoxTpl} {kind : BoxKind} (hok : TplOK T kind)
    (hdim : BoxDims T.dim n m) {c : P3} (hc : m.InShape c) {F : Nat × Nat × List P3} (hF : F ∈ tplFaces T)
    {side side' : Bool × Nat} (hs : side ∈ boxSides T.dim) (hs' : side' ∈ boxSides T.dim)
    (h : OnBoxSide n (boxFaceVerts n m c F) side) (h' : OnBoxSide n (boxFaceVerts n m c F) side') :
    side = side' := by
  have h1 := ((onBoxSide_iff hok hdim hc hF hs).1 h).1
  have h2 := ((onBoxSide_iff hok hdim hc hF hs').1 h').1
  obtain ⟨G, hG, _, _, _, hpos⟩ := hok.2.2.2.1 F hF
  rcases hpos with ⟨_, hno⟩ | ⟨side'', _, _, _, honly, _⟩
  · exact absurd h1 (hno side hs)
  · rw [honly side hs h1, honly side' hs' h2]

theorem onBoxSide_congr {n : P3} {vs vs' : List Nat} (h : ∀ v, v ∈ vs ↔ v ∈ vs') {side : Bool × Nat} :
    OnBoxSide n vs side ↔ OnBoxSide n vs' side :=
  ⟨fun k v hv => k v ((h v).2 hv), fun k v hv => k v ((h v).1 hv)⟩

/-- Writes to the same key have the same value. (Specification or proof vocabulary, no code.) -/
def Coherent (ws : List (List Nat × List BTag)) : Prop :=
  ∀ w ∈ ws, ∀ w' ∈ ws, (∀ v, v ∈ w.1 ↔ v ∈ w'.1) → w.2 = w'.2

theorem frozenSet_coherent {d : List (List Nat × List BTag)} {w : List Nat × List BTag}
    (h : ∀ kv ∈ d, (∀ v, v ∈ kv.1 ↔ v ∈ w.1) → kv.2 = w.2) :
    frozenSet d w = if d.any fun kv => sameSet kv.1 w.1 then d else d ++ [w] := by
  unfold frozenSet
  split
  · conv_rhs => rw [← List.map_id d]
    refine List.map_congr_left ?_
    intro kv hkv
    split
    · rename_i hs
      have := h kv hkv (sameSet_iff.1 hs)
      rw [← this]; rfl
    · rfl
  · rfl

theorem foldl_frozenSet {ws d : List (List Nat × List BTag)} (hco : Coherent (d ++ ws))
    (hd : DistinctKeys d) :
    DistinctKeys (ws.foldl frozenSet d) ∧ (∀ kv ∈ ws.foldl frozenSet d, kv ∈ d ++ ws) ∧
      ∀ w ∈ d ++ ws, ∃ kv ∈ ws.foldl frozenSet d, (∀ v, v ∈ kv.1 ↔ v ∈ w.1) ∧ kv.2 = w.2 := by
  induction ws generalizing d with
  | nil => exact ⟨hd, by simp, fun w hw => ⟨w, by simpa using hw, fun v => Iff.rfl, rfl⟩⟩
  | cons w ws ih =>
    rw [List.foldl_cons]
    have hw : ∀ kv ∈ d, (∀ v, v ∈ kv.1 ↔ v ∈ w.1) → kv.2 = w.2 := fun kv hkv =>
      hco kv (by simp [hkv]) w (by simp)
    rw [frozenSet_coherent hw]
    split
    · rename_i hany
      obtain ⟨kv, hkv, hs⟩ := List.any_eq_true.1 hany
      have hsub : ∀ a ∈ d ++ ws, a ∈ d ++ w :: ws := by
        intro a ha
        rcases List.mem_append.1 ha with h | h <;> simp [h]
      obtain ⟨i1, i2, i3⟩ := ih (d := d) (fun a ha b hb => hco a (hsub a ha) b (hsub b hb)) hd
      refine ⟨i1, fun a ha => hsub a (i2 a ha), ?_⟩
      intro a ha
      rcases List.mem_append.1 ha with h | h
      · exact i3 a (by simp [h])
      rcases List.mem_cons.1 h with rfl | h
      · obtain ⟨b, hb, e1, e2⟩ := i3 kv (by simp [hkv])
        have e3 := sameSet_iff.1 hs
        exact ⟨b, hb, fun v => (e1 v).trans (e3 v), e2.trans (hw kv hkv e3)⟩
      · exact i3 a (by simp [h])
    · rename_i hany
      have e : (d ++ [w]) ++ ws = d ++ w :: ws := by simp
      have hd' : DistinctKeys (d ++ [w]) := by
        unfold DistinctKeys at *
        rw [List.pairwise_append]
        refine ⟨hd, by simp, ?_⟩
        intro a ha b hb
        rw [List.mem_singleton] at hb
        subst hb
        intro hc
        exact hany (List.any_eq_true.2 ⟨a, ha, sameSet_iff.2 hc⟩)
      obtain ⟨i1, i2, i3⟩ := ih (d := d ++ [w]) (by rw [e]; exact hco) hd'
      rw [e] at i2 i3
      exact ⟨i1, i2, i3⟩

theorem mem_boxSideTags {tagToFace : List (BTag × List (Bool × Nat))} {side : Bool × Nat} {t : BTag} :
    t ∈ boxSideTags tagToFace side ↔ ∃ sides, (t, sides) ∈ tagToFace ∧ side ∈ sides := by
  simp only [boxSideTags, List.mem_flatMap, List.mem_map, List.mem_filter, beq_iff_eq]
  constructor
  · rintro ⟨⟨a, l⟩, hm, b, ⟨hb, rfl⟩, rfl⟩; exact ⟨l, hm, hb⟩
  · rintro ⟨l, hm, hs⟩; exact ⟨(t, l), hm, side, ⟨hs, rfl⟩, rfl⟩

/-- C21: a tag of `boundary_tag_to_face` denotes exactly the faces that lie on one of the sides given for it
(`btags` enumerates the tags of the dictionary, as in the code). -/
theorem C21_tags {A : Type} {nodeOf : List Nat → N} {lens : List Nat} {kind : BoxKind} {g : ElGroup N}
    (h : generateBox nodeOf lens kind = some g) (tagToFace : List (BTag × List (Bool × Nat)))
    (hsides : ∀ tf ∈ tagToFace, ∀ side ∈ tf.2, side.2 < lens.length) (aff0 : A) {T : BoxTpl}
    (hT : boxTpl lens.length kind = some T) {btags : List BTag}
    (hb : EnumeratesTags (boxTagDict (boxShape lens) (boxCellShape lens) T kind tagToFace) btags)
    (t : BTag) (ht : t ≠ .none ∧ t ≠ .all ∧ t ≠ .reallyAll) (f : FaceId) (hf : IsFace [g] f) :
    ∃ vs, faceVerts [g] f = some vs ∧
      (InBoundary (computeFacial aff0 [g]
          (boxTagDict (boxShape lens) (boxCellShape lens) T kind tagToFace) btags) t f ↔
        ∃ side sides, (t, sides) ∈ tagToFace ∧ side ∈ sides ∧ OnBoxSide (boxShape lens) vs side) := by
  obtain ⟨T', hT', hd, hok, hdim, rfl⟩ := generateBox_eq h
  obtain rfl := Option.some.inj (hT.symm.trans hT')
  obtain ⟨c, F, hc, hF, rfl⟩ := isFace_box.1 hf
  refine ⟨boxFaceVerts (boxShape lens) (boxCellShape lens) c F, faceVerts_box hok hc hF, ?_⟩
  have hco : Coherent ([] ++ boxTagWrites (boxShape lens) (boxCellShape lens) T kind tagToFace) := by
    intro w hw w' hw' e
    rw [List.nil_append, mem_boxTagWrites hok hdim] at hw hw'
    obtain ⟨side, hs, _, c1, F1, hc1, hF1, ho, rfl⟩ := hw
    obtain ⟨side', hs', _, c2, F2, hc2, hF2, ho', rfl⟩ := hw'
    have := onBoxSide_unique hok hdim hc1 hF1 hs hs' ho ((onBoxSide_congr e).2 ho')
    rw [this]
  obtain ⟨k1, k2, k3⟩ := foldl_frozenSet hco (by simp [DistinctKeys])
  rw [C05_user_tags (box_wf hok) aff0 (show DistinctKeys (boxTagDict _ _ _ _ _) from k1) hb t ht _ hf]
  constructor
  · rintro ⟨_, vs, hvs, kv, hkv, hset, htag⟩
    rw [faceVerts_box hok hc hF] at hvs
    obtain rfl := Option.some.inj hvs
    have := k2 kv hkv
    rw [List.nil_append, mem_boxTagWrites hok hdim] at this
    obtain ⟨side, hs, _, c1, F1, hc1, hF1, ho, rfl⟩ := this
    obtain ⟨sides, hm, hsd⟩ := mem_boxSideTags.1 htag
    exact ⟨side, sides, hm, hsd, (onBoxSide_congr hset).1 ho⟩
  · rintro ⟨side, sides, hm, hsd, ho⟩
    have hs : side ∈ boxSides T.dim := mem_boxSides.2 (by rw [hd]; exact hsides _ hm side hsd)
    have hmem : t ∈ boxSideTags tagToFace side := mem_boxSideTags.2 ⟨sides, hm, hsd⟩
    refine ⟨⟨hf, ?_⟩, _, faceVerts_box hok hc hF, ?_⟩
    · obtain ⟨vs, hvs, hb', _⟩ := neighbors_box hok hdim hf
      rw [faceVerts_box hok hc hF] at hvs
      obtain rfl := Option.some.inj hvs
      exact hb'.2 ⟨side, hs, ho⟩
    · obtain ⟨kv, hkv, e1, e2⟩ := k3 (boxFaceVerts (boxShape lens) (boxCellShape lens) c F,
        boxSideTags tagToFace side) (by
          rw [List.nil_append, mem_boxTagWrites hok hdim]
          exact ⟨side, hs, List.ne_nil_of_mem hmem, c, F, hc, hF, ho, rfl⟩)
      exact ⟨kv, hkv, e1, by rw [e2]; exact hmem⟩

end Meshmode
