import Verif.Gen.BoxProps

/-!
# Box meshes: opposite sides (C60)

The faces on the lower side of the box along an axis, moved to the upper side, are the faces there.
-/
namespace Meshmode

variable {N : Type}

/-- Index tuple with entry `a` replaced. (Specification or proof vocabulary, no code.) -/
def P3.set (p : P3) (a v : Nat) : P3 :=
  match a with
  | 0 => ⟨v, p.y, p.z⟩
  | 1 => ⟨p.x, v, p.z⟩
  | _ => ⟨p.x, p.y, v⟩

/-- The vertices `vs` are grid points on the lower side of the box along axis `d`, and `vs'` are, in some order,
the points opposite to them on the upper side. (Specification or proof vocabulary, no code.) -/
def TranslateAlong (n : P3) (d : Nat) (vs vs' : List Nat) : Prop :=
  ∃ is : List P3, (∀ i ∈ is, n.InShape i ∧ i.get d = 0) ∧ vs = is.map n.rowMajor ∧
    vs'.Perm (is.map fun i => n.rowMajor (i.set d (n.get d - 1)))

theorem P3.get_set_same (p : P3) (a v : Nat) : (p.set a v).get a = v := by
  match a with
  | 0 => rfl
  | 1 => rfl
  | _ + 2 => rfl

theorem P3.get_set_of_ne (p : P3) {a b : Nat} (v : Nat) (ha : a < 3) (hb : b < 3) (h : b ≠ a) :
    (p.set a v).get b = p.get b := by
  interval_cases a <;> interval_cases b <;> first | rfl | exact absurd rfl h

theorem P3.ext_get {p q : P3} (h : ∀ a < 3, p.get a = q.get a) : p = q :=
  P3.ext' (h 0 (by omega)) (h 1 (by omega)) (h 2 (by omega))

theorem P3.set_get (p : P3) (a v : Nat) (h : p.get a = v) : p.set a v = p := by
  match a with
  | 0 => subst h; rfl
  | 1 => subst h; rfl
  | _ + 2 => subst h; rfl

theorem P3.set_set (p : P3) (a v w : Nat) : (p.set a v).set a w = p.set a w := by
  match a with
  | 0 => rfl
  | 1 => rfl
  | _ + 2 => rfl

theorem inShape_set {n p : P3} (h : n.InShape p) {a v : Nat} (hv : v < n.get a) : n.InShape (p.set a v) := by
  obtain ⟨h1, h2, h3⟩ := h
  match a with
  | 0 => exact ⟨hv, h2, h3⟩
  | 1 => exact ⟨h1, hv, h3⟩
  | _ + 2 => exact ⟨h1, h2, hv⟩

theorem P3.get_half (i : P3) (a : Nat) : P3.get ⟨2 * i.x, 2 * i.y, 2 * i.z⟩ a = 2 * i.get a := by
  match a with
  | 0 => rfl
  | 1 => rfl
  | _ + 2 => rfl

/-- Positions of grid points, halved. (Specification or proof vocabulary, no code.) -/
def P3.half (p : P3) : P3 := ⟨p.x / 2, p.y / 2, p.z / 2⟩

/-- The grid points of a face on a side of the box. -/
theorem side_points {n m : P3} {T : BoxTpl} {kind : BoxKind} (hok : TplOK T kind)
    (hdim : BoxDims T.dim n m) {c : P3} (hc : m.InShape c) {F : Nat × Nat × List P3} (hF : F ∈ tplFaces T)
    {side : Bool × Nat} (hon : OnBoxSide n (boxFaceVerts n m c F) side) :
    ∀ o ∈ F.2.2, n.InShape (c.at2 o).half ∧
      (c.at2 o).half.get side.2 = (if side.1 then n.get side.2 - 1 else 0) ∧
      c.at2 o = ⟨2 * (c.at2 o).half.x, 2 * (c.at2 o).half.y, 2 * (c.at2 o).half.z⟩ ∧
      boxVertexNr n m (c.at2 o) = n.rowMajor (c.at2 o).half := by
  intro o ho
  obtain ⟨_, _, sub, hs, hmem⟩ := offsOK_of_mem hok hF
  have hva : VertexAt n m kind (c.at2 o) := vertexAt_at2 hok hdim hc hs (hmem o ho)
  obtain ⟨i, hi, e, e2⟩ := hon _ (List.mem_map_of_mem ho)
  have e' := e
  rw [← boxVertexNr_grid n m i] at e
  have hp := boxVertexNr_inj hva (Or.inl ⟨i, hi, rfl⟩) e
  have hh : (c.at2 o).half = i := by
    rw [hp]; simp [P3.half]
  rw [hh]
  exact ⟨hi, e2, hp, e'⟩

theorem translate_of_positions {n m : P3} {T : BoxTpl} {kind : BoxKind} (hok : TplOK T kind)
    (hdim : BoxDims T.dim n m) {c c' : P3} (hc : m.InShape c) (hc' : m.InShape c')
    {F G : Nat × Nat × List P3} (hF : F ∈ tplFaces T) (hG : G ∈ tplFaces T) {d : Nat} (hd : d < T.dim)
    (hlow : OnBoxSide n (boxFaceVerts n m c F) (false, d))
    (hup : OnBoxSide n (boxFaceVerts n m c' G) (true, d))
    (hp : ((G.2.2.map c'.at2).map fun p => p.set d 0).Perm ((F.2.2.map c.at2).map fun p => p.set d 0)) :
    TranslateAlong n d (boxFaceVerts n m c F) (boxFaceVerts n m c' G) := by
  have hd3 : T.dim ≤ 3 := hok.2.2.2.2.2.2.2.2
  have hl := side_points hok hdim hc hF hlow
  have hu := side_points hok hdim hc' hG hup
  simp only [if_true, Bool.false_eq_true, if_false] at hl hu
  refine ⟨F.2.2.map fun o => (c.at2 o).half, ?_, ?_, ?_⟩
  · intro i hi
    obtain ⟨o, ho, rfl⟩ := List.mem_map.1 hi
    exact ⟨(hl o ho).1, (hl o ho).2.1⟩
  · rw [boxFaceVerts, List.map_map]
    exact List.map_congr_left fun o ho => (hl o ho).2.2.2
  · have hq := hp.map fun p => n.rowMajor (p.half.set d (n.get d - 1))
    rw [List.map_map, List.map_map, List.map_map, List.map_map] at hq
    have hhs : ∀ p : P3, (p.set d 0).half.set d (n.get d - 1) = p.half.set d (n.get d - 1) := by
      intro p
      match d with
      | 0 => rfl
      | 1 => rfl
      | _ + 2 => rfl
    rw [List.map_map]
    refine List.Perm.trans (List.Perm.of_eq ?_) (hq.trans (List.Perm.of_eq ?_))
    · rw [boxFaceVerts]
      refine List.map_congr_left fun o ho => ?_
      simp only [Function.comp, hhs]
      rw [(hu o ho).2.2.2, P3.set_get _ _ _ (hu o ho).2.1]
    · refine List.map_congr_left fun o _ => ?_
      simp only [Function.comp, hhs]

theorem set_low_perm {c c' : P3} {l l' : List P3} {d : Nat} (hc : Compat l l')
    (hlow : ∀ a < 3, a ≠ d → (lowPos c l).get a = (lowPos c' l').get a) :
    ((l'.map c'.at2).map fun p => p.set d 0).Perm ((l.map c.at2).map fun p => p.set d 0) := by
  rw [at2_eq_low, at2_eq_low (c := c) (l := l), List.map_map, List.map_map]
  have h := hc.1.symm.map ((fun p => p.set d 0) ∘
    fun p => (⟨(lowPos c' l').x + p.x, (lowPos c' l').y + p.y, (lowPos c' l').z + p.z⟩ : P3))
  refine h.trans (List.Perm.of_eq (List.map_congr_left fun p _ => ?_))
  have h0 := hlow 0 (by omega)
  have h1 := hlow 1 (by omega)
  have h2 := hlow 2 (by omega)
  have key : ∀ x x' y : Nat, x = x' → x' + y = x + y := fun _ _ _ h => by rw [h]
  rcases d with _ | _ | k
  · simp only [Function.comp, P3.set, P3.mk.injEq]
    exact ⟨trivial, key _ _ _ (h1 (by omega)), key _ _ _ (h2 (by omega))⟩
  · simp only [Function.comp, P3.set, P3.mk.injEq]
    exact ⟨key _ _ _ (h0 (by omega)), trivial, key _ _ _ (h2 (by omega))⟩
  · simp only [Function.comp, P3.set, P3.mk.injEq]
    exact ⟨key _ _ _ (h0 (by omega)), key _ _ _ (h1 (by omega)), trivial⟩

/-- A face on a side of the box has a translate on the opposite side. -/
theorem opposite_face {n m : P3} {T : BoxTpl} {kind : BoxKind} (hok : TplOK T kind)
    (hdim : BoxDims T.dim n m) {c : P3} (hc : m.InShape c) {F : Nat × Nat × List P3} (hF : F ∈ tplFaces T)
    {side : Bool × Nat} (hd : side.2 < T.dim) (hon : OnBoxSide n (boxFaceVerts n m c F) side) :
    ∃ c' G, m.InShape c' ∧ G ∈ tplFaces T ∧ OnBoxSide n (boxFaceVerts n m c' G) (!side.1, side.2) ∧
      (if side.1 then TranslateAlong n side.2 (boxFaceVerts n m c' G) (boxFaceVerts n m c F)
        else TranslateAlong n side.2 (boxFaceVerts n m c F) (boxFaceVerts n m c' G)) := by
  have hd3 : T.dim ≤ 3 := hok.2.2.2.2.2.2.2.2
  have hs := mem_boxSides.2 hd
  obtain ⟨hcell, hce⟩ := (onBoxSide_iff hok hdim hc hF hs).1 hon
  obtain ⟨G, hG, _, hcompat, _, hpos⟩ := hok.2.2.2.1 F hF
  have oF := (offsOK_of_mem hok hF).1
  have oG := (offsOK_of_mem hok hG).1
  have hshift : ShiftedBy F.2.2 G.2.2 side := by
    rcases hpos with ⟨_, hno⟩ | ⟨side', _, _, _, honly, hsh⟩
    · exact absurd hcell (hno side hs)
    · rw [honly side hs hcell]; exact hsh
  obtain ⟨g1, g2⟩ := boxDims_get hdim hc hd hd3
  have hle : ∀ l : List P3, OffsOK l → ∀ o ∈ l, ∀ a < 3, o.get a ≤ 2 ∧ (minOff l).get a ≤ o.get a := by
    intro l hl o ho a ha
    obtain ⟨x1, x2, x3⟩ := hl.2 o ho
    obtain ⟨y1, y2, y3⟩ := minOff_le ho
    interval_cases a
    · exact ⟨x1, y1⟩
    · exact ⟨x2, y2⟩
    · exact ⟨x3, y3⟩
  have hex : ∀ l : List P3, OffsOK l → ∀ a < 3, ∃ o ∈ l, o.get a = (minOff l).get a := by
    intro l hl a ha
    obtain ⟨x1, x2, x3⟩ := minOff_mem hl
    interval_cases a
    · exact x1
    · exact x2
    · exact x3
  have hda : side.2 < 3 := by omega
  have hmin : ∀ a < 3, (minOff F.2.2).get a + (if side = (false, a) then 2 else 0) =
      (minOff G.2.2).get a + (if side = (true, a) then 2 else 0) := by
    intro a ha
    exact hshift a (by interval_cases a <;> simp)
  -- all offsets of `G` along the axis are equal
  have hGcell : OnCellSide G.2.2 (!side.1, side.2) := by
    intro o ho
    -- from the equality of the normalised offsets
    have hnF : ∀ q ∈ normOff F.2.2, q.get side.2 = 0 := by
      intro q hq
      obtain ⟨p, hp, rfl⟩ := List.mem_map.1 hq
      obtain ⟨p0, hp0, e0⟩ := hex _ oF side.2 hda
      have h1 := hcell p hp
      have h2 := hcell p0 hp0
      rw [← h2, e0] at h1
      have : ∀ a < 3, P3.get ⟨p.x - (minOff F.2.2).x, p.y - (minOff F.2.2).y, p.z - (minOff F.2.2).z⟩ a =
          p.get a - (minOff F.2.2).get a := by
        intro a ha
        interval_cases a <;> rfl
      rw [this _ hda, h1]
      omega
    have hnG := hnF _ (hcompat.1.mem_iff.2 (List.mem_map_of_mem ho))
    have : ∀ a < 3, P3.get ⟨o.x - (minOff G.2.2).x, o.y - (minOff G.2.2).y, o.z - (minOff G.2.2).z⟩ a =
        o.get a - (minOff G.2.2).get a := by
      intro a ha
      interval_cases a <;> rfl
    rw [this _ hda] at hnG
    have hog := hle _ oG o ho _ hda
    have hm := hmin _ hda
    obtain ⟨p0, hp0, e0⟩ := hex _ oF side.2 hda
    have h2 := hcell p0 hp0
    rw [e0] at h2
    obtain ⟨p, a⟩ := side
    cases p <;> simp at hm h2 hog hnG ⊢ <;> omega
  have hc' : m.InShape (c.set side.2 (if side.1 then 0 else m.get side.2 - 1)) := by
    refine inShape_set hc ?_
    split <;> omega
  refine ⟨_, G, hc', hG, ?_, ?_⟩
  · refine (onBoxSide_iff hok hdim hc' hG (mem_boxSides.2 (by exact hd))).2 ⟨hGcell, ?_⟩
    rw [P3.get_set_same]
    cases side.1 <;> simp
  · have hlow : ∀ a < 3, a ≠ side.2 → (lowPos c F.2.2).get a =
        (lowPos (c.set side.2 (if side.1 then 0 else m.get side.2 - 1)) G.2.2).get a := by
      intro a ha hne
      have := hmin a ha
      rw [if_neg (by rintro rfl; exact hne rfl), if_neg (by rintro rfl; exact hne rfl)] at this
      rw [lowPos, lowPos, P3.get_at2, P3.get_at2, P3.get_set_of_ne _ _ hda ha hne]
      omega
    have hon' : OnBoxSide n (boxFaceVerts n m (c.set side.2 (if side.1 then 0 else m.get side.2 - 1)) G)
        (!side.1, side.2) := by
      refine (onBoxSide_iff hok hdim hc' hG (mem_boxSides.2 (by exact hd))).2 ⟨hGcell, ?_⟩
      rw [P3.get_set_same]
      cases side.1 <;> simp
    have hperm := set_low_perm hcompat hlow
    obtain ⟨p, a⟩ := side
    cases p
    · simp only [Bool.false_eq_true, if_false, Bool.not_false] at hon' hon hperm hc' ⊢
      exact translate_of_positions hok hdim hc hc' hF hG hd hon hon' hperm
    · simp only [if_true, Bool.not_true] at hon' hon hperm hc' ⊢
      exact translate_of_positions hok hdim hc' hc hG hF hd hon' hon hperm.symm

theorem perm_of_map_perm' {α β : Type} {f : α → β} {l l' : List α}
    (hinj : ∀ a ∈ l ++ l', ∀ b ∈ l ++ l', f a = f b → a = b) (h : (l.map f).Perm (l'.map f)) :
    l.Perm l' := by
  classical
  by_cases hne : l ++ l' = []
  · obtain ⟨rfl, rfl⟩ := List.append_eq_nil_iff.1 hne
    exact List.Perm.refl _
  obtain ⟨x, _⟩ := List.exists_mem_of_ne_nil _ hne
  obtain ⟨g, hg⟩ : ∃ g : β → α, ∀ a ∈ l ++ l', g (f a) = a := by
    refine ⟨fun y => if hy : ∃ a ∈ l ++ l', f a = y then hy.choose else x, fun a ha => ?_⟩
    have hy : ∃ b ∈ l ++ l', f b = f a := ⟨a, ha, rfl⟩
    simp only
    rw [dif_pos hy]
    exact hinj _ hy.choose_spec.1 _ ha hy.choose_spec.2
  have h2 := h.map g
  rw [List.map_map, List.map_map] at h2
  have e1 : l.map (g ∘ f) = l := by
    conv_rhs => rw [← List.map_id l]
    exact List.map_congr_left fun a ha => hg a (List.mem_append_left _ ha)
  have e2 : l'.map (g ∘ f) = l' := by
    conv_rhs => rw [← List.map_id l']
    exact List.map_congr_left fun a ha => hg a (List.mem_append_right _ ha)
  rwa [e1, e2] at h2

theorem TranslateAlong.unique_right {n : P3} {d : Nat} {vs vs' vs'' : List Nat}
    (h : TranslateAlong n d vs vs') (h' : TranslateAlong n d vs vs'') : vs'.Perm vs'' := by
  obtain ⟨is, h1, h2, h3⟩ := h
  obtain ⟨js, k1, k2, k3⟩ := h'
  have : is.Perm js := by
    refine perm_of_map_perm' (f := n.rowMajor) ?_ (by rw [← h2, ← k2])
    have hin : ∀ a ∈ is ++ js, n.InShape a := by
      intro a ha
      rcases List.mem_append.1 ha with ha | ha
      · exact (h1 a ha).1
      · exact (k1 a ha).1
    intro a ha b hb e
    exact rowMajor_inj (hin a ha) (hin b hb) e
  exact h3.trans ((this.map _).trans k3.symm)

theorem TranslateAlong.unique_left {n : P3} {d : Nat} {vs vs' vs'' : List Nat}
    (h : TranslateAlong n d vs vs'') (h' : TranslateAlong n d vs' vs'') : vs.Perm vs' := by
  obtain ⟨is, h1, h2, h3⟩ := h
  obtain ⟨js, k1, k2, k3⟩ := h'
  have : is.Perm js := by
    refine perm_of_map_perm' ?_ (h3.symm.trans k3)
    have hin : ∀ a ∈ is ++ js, n.InShape a ∧ a.get d = 0 := by
      intro a ha
      rcases List.mem_append.1 ha with ha | ha
      · exact h1 a ha
      · exact k1 a ha
    intro a ha b hb e
    have hs : ∀ a ∈ is ++ js, n.InShape (a.set d (n.get d - 1)) := by
      intro a ha
      have := inShape_get (hin a ha).1 d
      exact inShape_set (hin a ha).1 (by omega)
    have e' := rowMajor_inj (hs a ha) (hs b hb) e
    have e2 := congrArg (fun p => p.set d 0) e'
    simp only [P3.set_set] at e2
    rwa [P3.set_get _ _ _ (hin a ha).2, P3.set_get _ _ _ (hin b hb).2] at e2
  rw [h2, k2]
  exact this.map _

theorem TranslateAlong.sides {n : P3} {d : Nat} {vs vs' : List Nat} (h : TranslateAlong n d vs vs') :
    OnBoxSide n vs (false, d) ∧ OnBoxSide n vs' (true, d) := by
  obtain ⟨is, h1, h2, h3⟩ := h
  refine ⟨?_, ?_⟩
  · intro v hv
    rw [h2] at hv
    obtain ⟨i, hi, rfl⟩ := List.mem_map.1 hv
    exact ⟨i, (h1 i hi).1, rfl, (h1 i hi).2⟩
  · intro v hv
    obtain ⟨i, hi, rfl⟩ := List.mem_map.1 (h3.mem_iff.1 hv)
    have := inShape_get (h1 i hi).1 d
    exact ⟨_, inShape_set (h1 i hi).1 (by omega), rfl, P3.get_set_same _ _ _⟩

end Meshmode
