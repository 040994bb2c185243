import Verif.Gen.Periodic

/-!
# Periodic box meshes: properties (C60)
-/
namespace Meshmode

variable {N K A : Type}

/-! ## The dictionary of tags -/

theorem mem_tagAssign {d : List (BTag × List (Bool × Nat))} {t t' : BTag} {v s : List (Bool × Nat)} :
    (t', s) ∈ tagAssign d t v ↔ (t' = t ∧ s = v) ∨ (t' ≠ t ∧ (t', s) ∈ d) := by
  unfold tagAssign
  split
  · rename_i h
    obtain ⟨kv, hkv, hk⟩ := List.any_eq_true.1 h
    have hk : kv.1 = t := by simpa using hk
    rw [List.mem_map]
    constructor
    · rintro ⟨⟨a, b⟩, hab, e⟩
      by_cases ha : a = t
      · simp only [ha, beq_self_eq_true, if_true, Prod.mk.injEq] at e
        exact Or.inl ⟨e.1.symm, e.2.symm⟩
      · rw [if_neg (by simpa using ha)] at e
        simp only [Prod.mk.injEq] at e
        obtain ⟨rfl, rfl⟩ := e
        exact Or.inr ⟨ha, hab⟩
    · rintro (⟨rfl, rfl⟩ | ⟨h1, h2⟩)
      · exact ⟨kv, hkv, by simp [hk]⟩
      · exact ⟨_, h2, by simp [h1]⟩
  · rename_i h
    rw [List.mem_append, List.mem_singleton, Prod.mk.injEq]
    constructor
    · rintro (h1 | h1)
      · refine Or.inr ⟨?_, h1⟩
        rintro rfl
        exact h (List.any_eq_true.2 ⟨_, h1, by simp⟩)
      · exact Or.inl h1
    · rintro (h1 | ⟨_, h1⟩)
      · exact Or.inr h1
      · exact Or.inl h1

theorem periodicTag_inj {s s' : Bool × Nat} (h : periodicTag s = periodicTag s') : s = s' := by
  obtain ⟨p, a⟩ := s
  obtain ⟨p', a'⟩ := s'
  simp only [periodicTag, BTag.user.injEq, and_true] at h
  cases p <;> cases p' <;> simp at h ⊢ <;> omega

theorem mem_periodicTags_aux {periodic : List Bool} {l : List Nat}
    {tf : List (BTag × List (Bool × Nat))} {t : BTag} {s : List (Bool × Nat)} :
    (t, s) ∈ l.foldl (fun d a => if periodic.getD a false then
      tagAssign (tagAssign d (periodicTag (false, a)) [(false, a)]) (periodicTag (true, a)) [(true, a)]
      else d) tf ↔
    (∃ p, ∃ a ∈ l, periodic.getD a false = true ∧ t = periodicTag (p, a) ∧ s = [(p, a)]) ∨
      ((t, s) ∈ tf ∧ ∀ p, ∀ a ∈ l, periodic.getD a false = true → t ≠ periodicTag (p, a)) := by
  induction l generalizing tf with
  | nil => simp
  | cons b l ih =>
    rw [List.foldl_cons, ih]
    by_cases hb : periodic.getD b false = true
    · rw [if_pos hb, mem_tagAssign, mem_tagAssign]
      constructor
      · rintro (⟨p, a, ha, h⟩ | ⟨(⟨rfl, rfl⟩ | ⟨h1, ⟨rfl, rfl⟩ | ⟨h2, h3⟩⟩), h⟩)
        · exact Or.inl ⟨p, a, List.mem_cons_of_mem _ ha, h⟩
        · exact Or.inl ⟨true, b, List.mem_cons_self, hb, rfl, rfl⟩
        · exact Or.inl ⟨false, b, List.mem_cons_self, hb, rfl, rfl⟩
        · refine Or.inr ⟨h3, ?_⟩
          intro p a ha hp
          rcases List.mem_cons.1 ha with rfl | ha
          · cases p
            · exact h2
            · exact h1
          · exact h p a ha hp
      · rintro (⟨p, a, ha, hp, rfl, rfl⟩ | ⟨h1, h2⟩)
        · by_cases hin : a ∈ l
          · exact Or.inl ⟨p, a, hin, hp, rfl, rfl⟩
          · have hab : a = b := (List.mem_cons.1 ha).resolve_right hin
            subst hab
            right
            refine ⟨?_, ?_⟩
            · cases p
              · refine Or.inr ⟨?_, Or.inl ⟨rfl, rfl⟩⟩
                intro h
                have := periodicTag_inj h
                simp at this
              · exact Or.inl ⟨rfl, rfl⟩
            · intro p' a' ha' _ h
              have := periodicTag_inj h
              simp only [Prod.mk.injEq] at this
              exact hin (this.2 ▸ ha')
        · exact Or.inr ⟨Or.inr ⟨h2 true b List.mem_cons_self hb, Or.inr ⟨h2 false b List.mem_cons_self hb,
            h1⟩⟩, fun p a ha hp => h2 p a (List.mem_cons_of_mem _ ha) hp⟩
    · rw [if_neg hb]
      constructor
      · rintro (⟨p, a, ha, h⟩ | ⟨h1, h2⟩)
        · exact Or.inl ⟨p, a, List.mem_cons_of_mem _ ha, h⟩
        · refine Or.inr ⟨h1, fun p a ha hp => ?_⟩
          rcases List.mem_cons.1 ha with rfl | ha
          · exact absurd hp hb
          · exact h2 p a ha hp
      · rintro (⟨p, a, ha, hp, h⟩ | ⟨h1, h2⟩)
        · rcases List.mem_cons.1 ha with rfl | ha
          · exact absurd hp hb
          · exact Or.inl ⟨p, a, ha, hp, h⟩
        · exact Or.inr ⟨h1, fun p a ha hp => h2 p a (List.mem_cons_of_mem _ ha) hp⟩

theorem mem_periodicAxes {dim d : Nat} {periodic : List Bool} :
    d ∈ periodicAxes dim periodic ↔ d < dim ∧ periodic[d]? = some true := by
  unfold periodicAxes
  rw [List.mem_filter, List.mem_range]
  refine and_congr_right fun _ => ?_
  rw [List.getD_eq_getElem?_getD]
  cases periodic[d]? <;> simp

theorem mem_periodicTags {dim : Nat} {periodic : List Bool}
    {tf : List (BTag × List (Bool × Nat))} {t : BTag} {s : List (Bool × Nat)} :
    (t, s) ∈ periodicTags dim periodic tf ↔
    (∃ p, ∃ a ∈ periodicAxes dim periodic, t = periodicTag (p, a) ∧ s = [(p, a)]) ∨
      ((t, s) ∈ tf ∧ ∀ p, ∀ a ∈ periodicAxes dim periodic, t ≠ periodicTag (p, a)) := by
  unfold periodicTags
  rw [mem_periodicTags_aux]
  simp only [periodicAxes, List.mem_filter, and_assoc, and_imp]

/-! ## Distances -/

section
variable [Field K] [LinearOrder K] [IsStrictOrderedRing K]

theorem listDistSq_nonneg (p q : List K) : 0 ≤ listDistSq p q := by
  unfold listDistSq
  refine List.sum_nonneg ?_
  intro x hx
  obtain ⟨i, hi⟩ := List.mem_iff_getElem?.1 hx
  obtain ⟨a, b, _, _, rfl⟩ := List.getElem?_zipWith_eq_some.1 hi
  exact sq_nonneg _

theorem sq_le_listDistSq {p q : List K} {i : Nat} {x y : K} (hx : p[i]? = some x) (hy : q[i]? = some y) :
    (x - y) ^ 2 ≤ listDistSq p q := by
  unfold listDistSq
  refine List.single_le_sum ?_ _ (List.mem_iff_getElem?.2 ⟨i, List.getElem?_zipWith_eq_some.2
    ⟨x, y, hx, hy, rfl⟩⟩)
  intro x hx
  obtain ⟨i, hi⟩ := List.mem_iff_getElem?.1 hx
  obtain ⟨a, b, _, _, rfl⟩ := List.getElem?_zipWith_eq_some.1 hi
  exact sq_nonneg _

omit [LinearOrder K] [IsStrictOrderedRing K] in
theorem listDistSq_self (p : List K) : listDistSq p p = 0 := by
  unfold listDistSq
  refine List.sum_eq_zero ?_
  intro x hx
  obtain ⟨i, hi⟩ := List.mem_iff_getElem?.1 hx
  obtain ⟨a, b, h1, h2, rfl⟩ := List.getElem?_zipWith_eq_some.1 hi
  rw [h1] at h2
  obtain rfl := Option.some.inj h2
  simp

/-- Along every periodic axis the last coordinate is greater than the first, and different coordinates of any
axis differ by at least the tolerance `eps * (last - first)`.
(Specification or proof vocabulary, no code.) -/
def WellSeparated (eps : K) (axes : List (List K)) (periodic : List Bool) : Prop :=
  ∀ (d : Nat) ax e, axes[d]? = some ax → periodic[d]? = some true → axisExtent ax = some e →
    0 < e ∧ ∀ ax' ∈ axes, ∀ (i j : Nat) x y, ax'[i]? = some x → ax'[j]? = some y → i ≠ j →
      eps * e ≤ |x - y|

omit [LinearOrder K] [IsStrictOrderedRing K] in
theorem axisExtent_spec {ax : List K} {e : K} (h : axisExtent ax = some e) :
    ∃ a b, ax[0]? = some a ∧ ax[ax.length - 1]? = some b ∧ e = b - a := by
  unfold axisExtent at h
  rw [List.getLast?_eq_getElem?, List.head?_eq_getElem?] at h
  cases h0 : ax[0]? with
  | none => simp [h0] at h
  | some a =>
    cases h1 : ax[ax.length - 1]? with
    | none => simp [h0, h1] at h
    | some b =>
      simp only [h0, h1, Option.some.injEq] at h
      exact ⟨a, b, rfl, rfl, h.symm⟩

/-- Of two grid points on opposite sides the first is mapped close to the second exactly if they are opposite
to each other. -/
theorem close_grid {axes : List (List K)} {kind : BoxKind} (hd3 : axes.length ≤ 3) {d : Nat} {ax : List K}
    (hax : axes[d]? = some ax) {e : K} (he : axisExtent ax = some e) {tol : K} (ht : 0 < tol)
    (hsep : ∀ ax' ∈ axes, ∀ (i j : Nat) x y, ax'[i]? = some x → ax'[j]? = some y → i ≠ j →
      tol ≤ |x - y|) {i j : P3} (hi : (boxShape (axes.map List.length)).InShape i)
    (hj : (boxShape (axes.map List.length)).InShape j) (hi0 : i.get d = 0)
    (hj1 : j.get d = (boxShape (axes.map List.length)).get d - 1) :
    (∃ p q, (boxVertices axes kind)[(boxShape (axes.map List.length)).rowMajor i]? = some p ∧
      (boxVertices axes kind)[(boxShape (axes.map List.length)).rowMajor j]? = some q ∧
      ShiftClose (some (axisOffset axes.length d e)) tol p q) ↔
      j = i.set d ((boxShape (axes.map List.length)).get d - 1) := by
  set n := boxShape (axes.map List.length) with hn
  have hd : d < axes.length := (List.getElem?_eq_some_iff.1 hax).1
  obtain ⟨p, hp, hpl, hpa⟩ := (C21_vertices axes kind hd3).1 i hi
  obtain ⟨q, hq, hql, hqa⟩ := (C21_vertices axes kind hd3).1 j hj
  have hnd : n.get d = ax.length := by
    rw [hn, boxShape_get (by omega)]
    simp [hax]
  obtain ⟨a, b, h0, h1, hab⟩ := axisExtent_spec he
  have hcoord : ∀ c (hc : c < axes.length) ax', axes[c]? = some ax' → ∃ x y, ax'[i.get c]? = some x ∧
      ax'[j.get c]? = some y ∧
      (Shift.apply (some (axisOffset axes.length d e)) p)[c]? = some (x + if c = d then e else 0) ∧
      q[c]? = some y := by
    intro c hc ax' hax'
    have hx := hpa c ax' hax'
    have hy := hqa c ax' hax'
    rw [List.getElem?_eq_getElem (by omega)] at hx hy
    refine ⟨_, _, hx.symm, hy.symm, ?_, List.getElem?_eq_getElem (by omega)⟩
    simp only [Shift.apply]
    rw [List.getElem?_zipWith_eq_some]
    refine ⟨_, _, List.getElem?_eq_getElem (by omega), ?_, rfl⟩
    unfold axisOffset
    rw [List.getElem?_map, List.getElem?_range hc]
    rfl
  constructor
  · rintro ⟨p', q', hp', hq', hc⟩
    rw [hp] at hp'
    rw [hq] at hq'
    obtain rfl := Option.some.inj hp'
    obtain rfl := Option.some.inj hq'
    refine P3.ext_get fun c hc3 => ?_
    by_cases hcd : c = d
    · subst hcd
      rw [P3.get_set_same, hj1]
    · rw [P3.get_set_of_ne _ _ (by omega) hc3 hcd]
      by_cases hcl : c < axes.length
      · obtain ⟨x, y, hx, hy, h2, h3⟩ := hcoord c hcl axes[c] (List.getElem?_eq_getElem hcl)
        by_contra hne
        have hle := sq_le_listDistSq h2 h3
        rw [if_neg hcd, add_zero] at hle
        have hlt : (x - y) ^ 2 < tol ^ 2 := lt_of_le_of_lt hle hc
        have hs := hsep _ (List.getElem_mem hcl) _ _ _ _ hx hy (fun h => hne h.symm)
        have := sq_le_sq' (by linarith : -|x - y| ≤ tol) hs
        rw [sq_abs] at this
        exact absurd hlt (not_lt.2 this)
      · have hn1 : n.get c = 1 := by
          rw [hn, boxShape_get hc3]
          simp [List.getElem?_eq_none (not_lt.1 hcl)]
        have l1 := inShape_get hi c
        have l2 := inShape_get hj c
        omega
  · intro e'
    refine ⟨p, q, hp, hq, ?_⟩
    have : Shift.apply (some (axisOffset axes.length d e)) p = q := by
      have hl : (Shift.apply (some (axisOffset axes.length d e)) p).length = axes.length := by
        simp [Shift.apply, axisOffset, hpl]
      refine List.ext_getElem? fun c => ?_
      by_cases hcl : c < axes.length
      · obtain ⟨x, y, hx, hy, h2, h3⟩ := hcoord c hcl axes[c] (List.getElem?_eq_getElem hcl)
        rw [h2, h3]
        by_cases hcd : c = d
        · subst hcd
          have hx' : axes[c] = ax := by
            rw [List.getElem?_eq_getElem hcl] at hax
            exact Option.some.inj hax
          rw [hx', hi0, h0] at hx
          rw [hx', hj1, hnd, h1] at hy
          obtain rfl := Option.some.inj hx
          obtain rfl := Option.some.inj hy
          rw [if_pos rfl, hab]
          congr 1
          ring
        · rw [if_neg hcd, add_zero]
          have : j.get c = i.get c := by rw [e', P3.get_set_of_ne _ _ (by omega) (by omega) hcd]
          rw [this, hx] at hy
          exact hy
      · rw [List.getElem?_eq_none (by omega), List.getElem?_eq_none (by omega)]
    unfold ShiftClose
    rw [this, listDistSq_self]
    positivity

/-! ## Matching the faces of opposite sides -/

omit [Field K] [LinearOrder K] [IsStrictOrderedRing K] in
theorem length_le_of_rel {α β : Type} {R : α → β → Prop} {M : List α} {L : List β} (hM : M.Nodup)
    (h : ∀ f ∈ M, ∃ f' ∈ L, R f f') (hinj : ∀ f₁ ∈ M, ∀ f₂ ∈ M, ∀ f', R f₁ f' → R f₂ f' → f₁ = f₂) :
    M.length ≤ L.length := by
  classical
  induction M generalizing L with
  | nil => simp
  | cons a M ih =>
    obtain ⟨hn, hM⟩ := List.nodup_cons.1 hM
    obtain ⟨b, hb, hab⟩ := h a List.mem_cons_self
    have := ih (L := L.erase b) hM (by
      intro f hf
      obtain ⟨f', hf', hr⟩ := h f (List.mem_cons_of_mem _ hf)
      refine ⟨f', (List.mem_erase_of_ne ?_).2 hf', hr⟩
      rintro rfl
      have := hinj _ List.mem_cons_self _ (List.mem_cons_of_mem _ hf) _ hab hr
      exact hn (this ▸ hf))
      (fun f₁ h1 f₂ h2 => hinj _ (List.mem_cons_of_mem _ h1) _ (List.mem_cons_of_mem _ h2))
    rw [List.length_erase_of_mem hb] at this
    have := List.length_pos_of_mem hb
    simp only [List.length_cons]
    omega

omit [Field K] [LinearOrder K] [IsStrictOrderedRing K] in
theorem forall₂_grid {n : P3} {d : Nat} {vs ws : List Nat}
    (h : List.Forall₂ (fun v w => ∃ i, (n.InShape i ∧ i.get d = 0) ∧ v = n.rowMajor i ∧
      w = n.rowMajor (i.set d (n.get d - 1))) vs ws) :
    ∃ is : List P3, (∀ i ∈ is, n.InShape i ∧ i.get d = 0) ∧ vs = is.map n.rowMajor ∧
      ws = is.map fun i => n.rowMajor (i.set d (n.get d - 1)) := by
  induction h with
  | nil => exact ⟨[], by simp, rfl, rfl⟩
  | cons h _ ih =>
    obtain ⟨i, hi, rfl, rfl⟩ := h
    obtain ⟨is, h1, rfl, rfl⟩ := ih
    exact ⟨i :: is, by simpa [hi] using h1, rfl, rfl⟩

omit [Field K] [LinearOrder K] [IsStrictOrderedRing K] in
theorem sameVertices_side {nodeOf : List Nat → N} {lens : List Nat} {kind : BoxKind} {g : ElGroup N}
    (hg : generateBox nodeOf lens kind = some g) {f f' : FaceId} (hf : IsFace [g] f) (hf' : IsFace [g] f')
    {vs : List Nat} (hvs : faceVerts [g] f = some vs) {side : Bool × Nat} (hs : side.2 < lens.length)
    (hon : OnBoxSide (boxShape lens) vs side) (h : SameVertices [g] f f') : f = f' := by
  obtain ⟨vs', hvs', hb⟩ := (C21_faces hg).2 f hf
  rw [hvs] at hvs'
  obtain rfl := Option.some.inj hvs'
  by_contra hne
  exact (hb.2 ⟨side.1, side.2, hs, hon⟩).2 f' hf' (fun h => hne h.symm) h

theorem periodic_match {p2p : Shift K → K → List (List K) → List (List K) → List (Option Nat)}
    (hs : ∀ t, 0 ≤ t → P2PSound (fun a (_ : Unit) => p2p a t) (fun a _ => ShiftClose a t))
    (hc : ∀ t, 0 ≤ t → P2PComplete (fun a (_ : Unit) => p2p a t) (fun a _ => ShiftClose a t))
    {nodeOf : List Nat → N} {axes : List (List K)} {kind : BoxKind} {g : ElGroup N}
    (hg : generateBox nodeOf (axes.map List.length) kind = some g) {d : Nat} {ax : List K}
    (hax : axes[d]? = some ax) (h2 : 2 ≤ ax.length) {e eps : K} (he : axisExtent ax = some e)
    (ht : 0 < eps * e)
    (hsep : ∀ ax' ∈ axes, ∀ (i j : Nat) x y, ax'[i]? = some x → ax'[j]? = some y → i ≠ j →
      eps * e ≤ |x - y|)
    {fags : List (List (Fag (Shift K)))} (hfc : ∀ p f, InBoundary fags (periodicTag (p, d)) f → IsFace [g] f)
    (hon : ∀ p f vs, faceVerts [g] f = some vs → IsFace [g] f →
      (InBoundary fags (periodicTag (p, d)) f ↔ OnBoxSide (boxShape (axes.map List.length)) vs (p, d)))
    (hid : ∀ p, ∃ M, boundaryFaceIds fags (periodicTag (p, d)) = some M ∧ M.Nodup) :
    ∃ prs, matchBoundaryFaces p2p (boxVertices axes kind) [g] fags
        ⟨periodicTag (false, d), periodicTag (true, d), some (axisOffset axes.length d e), eps * e⟩ =
          some prs ∧
      (prs.map Prod.fst).Nodup ∧ (prs.map Prod.snd).Nodup ∧
      (∀ f, f ∈ prs.map Prod.fst ↔ IsFace [g] f ∧ ∃ vs, faceVerts [g] f = some vs ∧
        OnBoxSide (boxShape (axes.map List.length)) vs (false, d)) ∧
      (∀ f, f ∈ prs.map Prod.snd ↔ IsFace [g] f ∧ ∃ vs, faceVerts [g] f = some vs ∧
        OnBoxSide (boxShape (axes.map List.length)) vs (true, d)) ∧
      ∀ f f', (f, f') ∈ prs ↔ IsFace [g] f ∧ IsFace [g] f' ∧ ∃ vs vs', faceVerts [g] f = some vs ∧
        faceVerts [g] f' = some vs' ∧ TranslateAlong (boxShape (axes.map List.length)) d vs vs' := by
  set n := boxShape (axes.map List.length) with hn
  have hd : d < axes.length := (List.getElem?_eq_some_iff.1 hax).1
  have hdl : d < (axes.map List.length).length := by simpa using hd
  obtain ⟨T, hT, hTd, hok, hdim, hgE⟩ := generateBox_eq hg
  have hwf : ∀ g' ∈ [g], g'.WF := by rw [hgE]; exact box_wf hok
  have hd3 : axes.length ≤ 3 := by
    have := hok.2.2.2.2.2.2.2.2
    rw [hTd] at this
    simpa using this
  have hnd : n.get d = ax.length := by
    rw [hn, boxShape_get (by omega)]
    simp [hax]
  obtain ⟨M, hM, hMn⟩ := hid false
  obtain ⟨L, hL, hLn⟩ := hid true
  have mM : ∀ f, f ∈ M ↔ IsFace [g] f ∧ ∃ vs, faceVerts [g] f = some vs ∧ OnBoxSide n vs (false, d) := by
    intro f
    rw [mem_boundaryFaceIds hM]
    constructor
    · intro h
      have hf := hfc _ _ h
      obtain ⟨vs, hvs⟩ := faceVerts_isSome hwf hf
      exact ⟨hf, vs, hvs, (hon false f vs hvs hf).1 h⟩
    · rintro ⟨hf, vs, hvs, h⟩
      exact (hon false f vs hvs hf).2 h
  have mL : ∀ f, f ∈ L ↔ IsFace [g] f ∧ ∃ vs, faceVerts [g] f = some vs ∧ OnBoxSide n vs (true, d) := by
    intro f
    rw [mem_boundaryFaceIds hL]
    constructor
    · intro h
      have hf := hfc _ _ h
      obtain ⟨vs, hvs⟩ := faceVerts_isSome hwf hf
      exact ⟨hf, vs, hvs, (hon true f vs hvs hf).1 h⟩
    · rintro ⟨hf, vs, hvs, h⟩
      exact (hon true f vs hvs hf).2 h
  have vM : ∀ v, VertexOf [g] M v → ∃ i, n.InShape i ∧ v = n.rowMajor i ∧ i.get d = 0 := by
    rintro v ⟨f, hf, vs, hvs, hv⟩
    obtain ⟨_, vs', hvs', h⟩ := (mM f).1 hf
    rw [hvs] at hvs'
    obtain rfl := Option.some.inj hvs'
    exact h v hv
  have vL : ∀ v, VertexOf [g] L v → ∃ i, n.InShape i ∧ v = n.rowMajor i ∧ i.get d = n.get d - 1 := by
    rintro v ⟨f, hf, vs, hvs, hv⟩
    obtain ⟨_, vs', hvs', h⟩ := (mL f).1 hf
    rw [hvs] at hvs'
    obtain rfl := Option.some.inj hvs'
    exact h v hv
  set bp : BdryPair (Shift K) Unit := ⟨periodicTag (false, d), periodicTag (true, d),
    some (axisOffset axes.length d e), ()⟩ with hbp
  have hclose : ∀ i j, n.InShape i → n.InShape j → i.get d = 0 → j.get d = n.get d - 1 →
      (CloseVertices (fun a (_ : Unit) => ShiftClose a (eps * e)) (boxVertices axes kind) bp
        (n.rowMajor i) (n.rowMajor j) ↔ j = i.set d (n.get d - 1)) :=
    fun i j hi hj hi0 hj1 => close_grid hd3 hax he ht hsep hi hj hi0 hj1
  have hface : ∀ f ∈ M ++ L, IsFace [g] f := by
    intro f hf
    rcases List.mem_append.1 hf with hf | hf
    · exact ((mM f).1 hf).1
    · exact ((mL f).1 hf).1
  have hMs : ∀ f ∈ M, ∀ f' ∈ M, SameVertices [g] f f' → f = f' := by
    intro f hf f' hf' hsame
    obtain ⟨h1, vs, hvs, ho⟩ := (mM f).1 hf
    exact sameVertices_side hg h1 ((mM f').1 hf').1 hvs hdl ho hsame
  have hLs : ∀ f ∈ L, ∀ f' ∈ L, SameVertices [g] f f' → f = f' := by
    intro f hf f' hf' hsame
    obtain ⟨h1, vs, hvs, ho⟩ := (mL f).1 hf
    exact sameVertices_side hg h1 ((mL f').1 hf').1 hvs hdl ho hsame
  have hinj : ∀ v v' w, VertexOf [g] M v → VertexOf [g] M v' → VertexOf [g] L w →
      CloseVertices (fun a (_ : Unit) => ShiftClose a (eps * e)) (boxVertices axes kind) bp v w →
      CloseVertices (fun a (_ : Unit) => ShiftClose a (eps * e)) (boxVertices axes kind) bp v' w → v = v' := by
    intro v v' w hv hv' hw h1 h2
    obtain ⟨i, hi, rfl, hi0⟩ := vM v hv
    obtain ⟨i', hi', rfl, hi0'⟩ := vM v' hv'
    obtain ⟨j, hj, rfl, hj1⟩ := vL w hw
    have e1 := (hclose i j hi hj hi0 hj1).1 h1
    have e2 := (hclose i' j hi' hj hi0' hj1).1 h2
    have := congrArg (P3.set · d 0) (e1.symm.trans e2)
    simp only [P3.set_set] at this
    rw [P3.set_get i d 0 hi0, P3.set_get i' d 0 hi0'] at this
    rw [this]
  have hfix : ∀ v w, VertexOf [g] M v → VertexOf [g] L v → VertexOf [g] L w →
      CloseVertices (fun a (_ : Unit) => ShiftClose a (eps * e)) (boxVertices axes kind) bp v w → w = v := by
    intro v w hv hv' _ _
    obtain ⟨i, hi, rfl, hi0⟩ := vM v hv
    obtain ⟨j, hj, hij, hj1⟩ := vL _ hv'
    have := rowMajor_inj hi hj hij
    subst this
    omega
  have hfun : ∀ v w w', VertexOf [g] M v → VertexOf [g] L w → VertexOf [g] L w' →
      CloseVertices (fun a (_ : Unit) => ShiftClose a (eps * e)) (boxVertices axes kind) bp v w →
      CloseVertices (fun a (_ : Unit) => ShiftClose a (eps * e)) (boxVertices axes kind) bp v w' → w = w' := by
    intro v w w' hv hw hw' h1 h2
    obtain ⟨i, hi, rfl, hi0⟩ := vM v hv
    obtain ⟨j, hj, rfl, hj1⟩ := vL w hw
    obtain ⟨j', hj', rfl, hj1'⟩ := vL w' hw'
    rw [(hclose i j hi hj hi0 hj1).1 h1, (hclose i j' hi hj' hi0 hj1').1 h2]
  have hopp : ∀ f ∈ M, ∃ f' ∈ L, ∃ vs vs', faceVerts [g] f = some vs ∧ faceVerts [g] f' = some vs' ∧
      TranslateAlong n d vs vs' := by
    intro f hf
    obtain ⟨h1, vs, hvs, ho⟩ := (mM f).1 hf
    rw [hgE] at h1 hvs
    obtain ⟨c, F, hcs, hF, rfl⟩ := isFace_box.1 h1
    rw [faceVerts_box hok hcs hF] at hvs
    obtain rfl := Option.some.inj hvs
    obtain ⟨c', G, hc', hG, ho', htr⟩ := opposite_face hok hdim hcs hF (side := (false, d))
      (by rw [hTd]; exact hdl) ho
    rw [if_neg (by simp)] at htr
    have hv' := faceVerts_box (nodeOf := nodeOf) (n := n) hok hc' hG
    refine ⟨boxFaceId (boxCellShape (axes.map List.length)) T c' G, (mL _).2 ⟨?_, _, ?_, ho'⟩, _, _, ?_, ?_, htr⟩
    · rw [hgE]; exact isFace_box.2 ⟨c', G, hc', hG, rfl⟩
    · rw [hgE]; exact hv'
    · rw [hgE]; exact faceVerts_box hok hcs hF
    · rw [hgE]; exact hv'
  have hopp' : ∀ f ∈ L, ∃ f' ∈ M, ∃ vs vs', faceVerts [g] f = some vs ∧ faceVerts [g] f' = some vs' ∧
      TranslateAlong n d vs' vs := by
    intro f hf
    obtain ⟨h1, vs, hvs, ho⟩ := (mL f).1 hf
    rw [hgE] at h1 hvs
    obtain ⟨c, F, hcs, hF, rfl⟩ := isFace_box.1 h1
    rw [faceVerts_box hok hcs hF] at hvs
    obtain rfl := Option.some.inj hvs
    obtain ⟨c', G, hc', hG, ho', htr⟩ := opposite_face hok hdim hcs hF (side := (true, d))
      (by rw [hTd]; exact hdl) ho
    rw [if_pos rfl] at htr
    have hv' := faceVerts_box (nodeOf := nodeOf) (n := n) hok hc' hG
    refine ⟨boxFaceId (boxCellShape (axes.map List.length)) T c' G, (mM _).2 ⟨?_, _, ?_, ho'⟩, _, _, ?_, ?_, htr⟩
    · rw [hgE]; exact isFace_box.2 ⟨c', G, hc', hG, rfl⟩
    · rw [hgE]; exact hv'
    · rw [hgE]; exact faceVerts_box hok hcs hF
    · rw [hgE]; exact hv'
  have hlen : M.length = L.length := by
    apply le_antisymm
    · refine length_le_of_rel hMn hopp ?_
      rintro f₁ h1 f₂ h2 f' ⟨vs, vs', a1, a2, a3⟩ ⟨ws, ws', b1, b2, b3⟩
      rw [a2] at b2
      obtain rfl := Option.some.inj b2
      exact hMs f₁ h1 f₂ h2 ⟨vs, ws, a1, b1, a3.unique_left b3⟩
    · refine length_le_of_rel hLn hopp' ?_
      rintro f₁ h1 f₂ h2 f' ⟨vs, vs', a1, a2, a3⟩ ⟨ws, ws', b1, b2, b3⟩
      rw [a2] at b2
      obtain rfl := Option.some.inj b2
      exact hLs f₁ h1 f₂ h2 ⟨vs, ws, a1, b1, a3.unique_right b3⟩
  have hdef := C16_match_defined (hs _ ht.le) (hc _ ht.le) (vertices := boxVertices axes kind) (bp := bp)
    hwf hM hL hface hMn hLn hMs hLs hinj hfix hfun hlen
    (by
      intro a ha b hb
      have ha : a = 0 := by simpa using ha
      have hb : b = 0 := by simpa using hb
      subst ha; subst hb
      exact ⟨rfl, rfl⟩)
    (by simp)
    (by
      rintro v ⟨f, hf, hv⟩
      obtain ⟨i, hi, rfl⟩ : ∃ i, n.InShape i ∧ v = n.rowMajor i := by
        rcases List.mem_append.1 hf with hf | hf
        · obtain ⟨i, h1, h2, _⟩ := vM v ⟨f, hf, hv⟩
          exact ⟨i, h1, h2⟩
        · obtain ⟨i, h1, h2, _⟩ := vL v ⟨f, hf, hv⟩
          exact ⟨i, h1, h2⟩
      obtain ⟨p, hp, _⟩ := (C21_vertices axes kind hd3).1 i hi
      exact (List.getElem?_eq_some_iff.1 hp).1)
    (by
      intro f hf
      obtain ⟨f', hf', vs, vs', a1, a2, is, b1, b2, b3⟩ := hopp f hf
      refine ⟨f', hf', vs, _, vs', a1, a2, b3.symm, ?_⟩
      rw [b2, List.forall₂_map_left_iff, List.forall₂_map_right_iff, List.forall₂_same]
      intro i hi
      have hlt : n.get d - 1 < n.get d := by omega
      exact (hclose i _ (b1 i hi).1 (inShape_set (b1 i hi).1 hlt) (b1 i hi).2
        (P3.get_set_same _ _ _)).2 rfl)
  obtain ⟨prs, hprs⟩ := Option.isSome_iff_exists.1 hdef
  obtain ⟨k1, k2, k3⟩ := C16_match_faces_partial (hs _ ht.le) hwf hprs hM hL hface hMn hLn hMs hLs hinj hfix
  have hpr : ∀ f f', (f, f') ∈ prs → ∃ vs vs', faceVerts [g] f = some vs ∧
      faceVerts [g] f' = some vs' ∧ TranslateAlong n d vs vs' := by
    intro f f' h
    obtain ⟨vs, ws, vs', a1, a2, a3, a4⟩ := k3 f f' h
    have hf : f ∈ M := k1.mem_iff.1 (List.mem_map.2 ⟨_, h, rfl⟩)
    have hf' : f' ∈ L := k2.mem_iff.1 (List.mem_map.2 ⟨_, h, rfl⟩)
    refine ⟨vs, vs', a1, a2, ?_⟩
    have : List.Forall₂ (fun v w => ∃ i, (n.InShape i ∧ i.get d = 0) ∧ v = n.rowMajor i ∧
        w = n.rowMajor (i.set d (n.get d - 1))) vs ws := by
      rw [List.forall₂_iff_get] at a4 ⊢
      refine ⟨a4.1, fun k h1 h2 => ?_⟩
      have hc4 := a4.2 k h1 h2
      obtain ⟨i, hi, hv, hi0⟩ := vM (vs.get ⟨k, h1⟩) ⟨f, hf, vs, a1, List.get_mem _ _⟩
      obtain ⟨j, hj, hw, hj1⟩ := vL (ws.get ⟨k, h2⟩) ⟨f', hf', vs', a2, a3.mem_iff.1 (List.get_mem _ _)⟩
      rw [hv, hw] at hc4
      refine ⟨i, ⟨hi, hi0⟩, hv, ?_⟩
      rw [hw, (hclose i j hi hj hi0 hj1).1 hc4]
    obtain ⟨is, b1, b2, b3⟩ := forall₂_grid this
    exact ⟨is, b1, b2, b3 ▸ a3.symm⟩
  refine ⟨prs, hprs, k1.nodup_iff.2 hMn, k2.nodup_iff.2 hLn, fun f => (k1.mem_iff).trans (mM f),
    fun f => (k2.mem_iff).trans (mL f), fun f f' => ⟨fun h => ?_, ?_⟩⟩
  · have hf : f ∈ M := k1.mem_iff.1 (List.mem_map.2 ⟨_, h, rfl⟩)
    have hf' : f' ∈ L := k2.mem_iff.1 (List.mem_map.2 ⟨_, h, rfl⟩)
    exact ⟨((mM f).1 hf).1, ((mL f').1 hf').1, hpr f f' h⟩
  · rintro ⟨h1, h2, vs, vs', a1, a2, a3⟩
    have hf : f ∈ M := (mM f).2 ⟨h1, vs, a1, a3.sides.1⟩
    have hf' : f' ∈ L := (mL f').2 ⟨h2, vs', a2, a3.sides.2⟩
    obtain ⟨⟨x, f''⟩, hx, rfl⟩ := List.mem_map.1 (k1.mem_iff.2 hf)
    obtain ⟨ws, ws', b1, b2, b3⟩ := hpr _ _ hx
    rw [a1] at b1
    obtain rfl := Option.some.inj b1
    have : f' = f'' := hLs f' hf' f'' (k2.mem_iff.1 (List.mem_map.2 ⟨_, hx, rfl⟩))
      ⟨vs', ws', a2, b2, a3.unique_right b3⟩
    rw [this]
    exact hx

/-! ## The mesh -/

omit [Field K] [LinearOrder K] [IsStrictOrderedRing K] in
theorem isFace_of_inBoundary {groups : List (ElGroup N)} (hwf : ∀ g ∈ groups, g.WF) {aff0 : A}
    {dict : List (List Nat × List BTag)} {btags : List BTag} {t : BTag}
    (ht : t ≠ .none ∧ t ≠ .all ∧ t ≠ .reallyAll) {f : FaceId}
    (h : InBoundary (computeFacial aff0 groups dict btags) t f) : IsFace groups f := by
  obtain ⟨g, hg⟩ : ∃ g, groups[f.grp]? = some g := by
    obtain ⟨l, _, _, h, _⟩ := h
    unfold computeFacial at h
    rw [completeFacial_getElem?, rawFacial_getElem?] at h
    cases hg : groups[f.grp]? with
    | none => simp [hg] at h
    | some g => exact ⟨g, rfl⟩
  rw [inBoundary_iff_listed hg, (C05_completion _ _).2.2.1 t _ (Or.inr ht), listedUnder_raw_iff,
    mem_unmatchedFaces_iff hwf hg] at h
  exact h.1.1

omit [Field K] [LinearOrder K] [IsStrictOrderedRing K] in
theorem tpl_sides {d : Nat} {kind : BoxKind} {T : BoxTpl} (h : boxTpl d kind = some T) :
    ∀ side ∈ boxSides T.dim, ∃ F ∈ tplFaces T, OnCellSide F.2.2 side := by
  unfold boxTpl at h
  split at h
  all_goals first
    | (obtain rfl := Option.some.inj h; decide +kernel)
    | simp at h

/-- What is assumed of a call of `generate_box_mesh` with `periodic`: `find_point_to_point_mapping` finds the
points within the tolerance, the axes have at least two points, the points are further apart than the
tolerance, the tags name sides that exist.
(Specification or proof vocabulary, no code.) -/
structure PeriodicInput (p2p : Shift K → K → List (List K) → List (List K) → List (Option Nat))
    (enum : List (List Nat × List BTag) → List BTag) (eps : K) (nodeOf : List Nat → N)
    (axes : List (List K)) (kind : BoxKind) (periodic : List Bool)
    (tagToFace : List (BTag × List (Bool × Nat))) (g : ElGroup N) : Prop where
  sound : ∀ t, 0 ≤ t → P2PSound (fun a (_ : Unit) => p2p a t) (fun a _ => ShiftClose a t)
  complete : ∀ t, 0 ≤ t → P2PComplete (fun a (_ : Unit) => p2p a t) (fun a _ => ShiftClose a t)
  enum_tags : ∀ dict, EnumeratesTags dict (enum dict)
  eps_pos : 0 < eps
  box : generateBox nodeOf (axes.map List.length) kind = some g
  points : ∀ ax ∈ axes, 2 ≤ ax.length
  separated : WellSeparated eps axes periodic
  flags : axes.length ≤ periodic.length
  sides : ∀ tf ∈ tagToFace, ∀ side ∈ tf.2, side.2 < axes.length

/-- The faces of the mesh without periodicity. (Specification or proof vocabulary, no code.) -/
def boxFags (enum : List (List Nat × List BTag) → List BTag) (axes : List (List K)) (kind : BoxKind)
    (periodic : List Bool) (tagToFace : List (BTag × List (Bool × Nat))) (g : ElGroup N) (T : BoxTpl) :
    List (List (Fag (Shift K))) :=
  let lens := axes.map List.length
  let dict := boxTagDict (boxShape lens) (boxCellShape lens) T kind
    (periodicTags lens.length periodic tagToFace)
  computeFacial none [g] dict (enum dict)

/-- Length of the box along an axis. (Specification or proof vocabulary, no code.) -/
def boxExtent (axes : List (List K)) (d : Nat) : K := (axisExtent (axes.getD d [])).getD 0

theorem periodicTag_user (s : Bool × Nat) :
    periodicTag s ≠ .none ∧ periodicTag s ≠ .all ∧ periodicTag s ≠ .reallyAll := by
  simp [periodicTag]

/-- The pairs of faces that are added. (Specification or proof vocabulary, no code.) -/
def addedTriples (axes : List (List K)) (prs : Nat → List (FaceId × FaceId)) (d : Nat) :
    List (FaceId × FaceId × Shift K) :=
  ((prs d).map fun q => (q.1, q.2, some (axisOffset axes.length d (boxExtent axes d)))) ++
    ((prs d).map fun q => (q.2, q.1, Shift.inv (some (axisOffset axes.length d (boxExtent axes d)))))

theorem periodic_glue {p2p : Shift K → K → List (List K) → List (List K) → List (Option Nat)}
    {enum : List (List Nat × List BTag) → List BTag} {eps : K} {nodeOf : List Nat → N}
    {axes : List (List K)} {kind : BoxKind} {periodic : List Bool}
    {tagToFace : List (BTag × List (Bool × Nat))} {g : ElGroup N}
    (H : PeriodicInput p2p enum eps nodeOf axes kind periodic tagToFace g) :
    ∃ T fags' prs, boxTpl (axes.map List.length).length kind = some T ∧
      generatePeriodicBox p2p enum eps nodeOf axes kind periodic tagToFace = some (g, fags') ∧
      (interiorTriples fags').Perm (interiorTriples (boxFags enum axes kind periodic tagToFace g T) ++
        (periodicAxes axes.length periodic).flatMap (addedTriples axes prs)) ∧
      (∀ i, bdryGroupsOf fags' i = (bdryGroupsOf (boxFags enum axes kind periodic tagToFace g T) i).filter
        fun tb => (periodicAxes axes.length periodic).all fun d =>
          tb.1 ≠ periodicTag (false, d) ∧ tb.1 ≠ periodicTag (true, d)) ∧
      ∀ d ∈ periodicAxes axes.length periodic, axisExtent (axes.getD d []) = some (boxExtent axes d) ∧
        ((prs d).map Prod.fst).Nodup ∧ ((prs d).map Prod.snd).Nodup ∧
        (∀ f, f ∈ (prs d).map Prod.fst ↔ IsFace [g] f ∧ ∃ vs, faceVerts [g] f = some vs ∧
          OnBoxSide (boxShape (axes.map List.length)) vs (false, d)) ∧
        (∀ f, f ∈ (prs d).map Prod.snd ↔ IsFace [g] f ∧ ∃ vs, faceVerts [g] f = some vs ∧
          OnBoxSide (boxShape (axes.map List.length)) vs (true, d)) ∧
        ∀ f f', (f, f') ∈ prs d ↔ IsFace [g] f ∧ IsFace [g] f' ∧ ∃ vs vs', faceVerts [g] f = some vs ∧
          faceVerts [g] f' = some vs' ∧ TranslateAlong (boxShape (axes.map List.length)) d vs vs' := by
  classical
  obtain ⟨T, hT, hTd, hok, hdim, hgE⟩ := generateBox_eq H.box
  have hwf : ∀ g' ∈ [g], g'.WF := by rw [hgE]; exact box_wf hok
  have hd3 : axes.length ≤ 3 := by
    have := hok.2.2.2.2.2.2.2.2
    rw [hTd] at this
    simpa using this
  set fags := boxFags enum axes kind periodic tagToFace g T with hfags
  set ds := periodicAxes axes.length periodic with hds
  have hsides : ∀ tf ∈ periodicTags (axes.map List.length).length periodic tagToFace, ∀ side ∈ tf.2,
      side.2 < (axes.map List.length).length := by
    rintro ⟨t, s⟩ htf side hside
    rcases mem_periodicTags.1 htf with ⟨p, a, ha, _, rfl⟩ | ⟨h, _⟩
    · rw [List.mem_singleton] at hside
      subst hside
      exact (mem_periodicAxes.1 ha).1
    · have := H.sides _ h side hside
      simpa using this
  have hon : ∀ d ∈ ds, ∀ p f vs, faceVerts [g] f = some vs → IsFace [g] f →
      (InBoundary fags (periodicTag (p, d)) f ↔ OnBoxSide (boxShape (axes.map List.length)) vs (p, d)) := by
    intro d hd p f vs hvs hf
    obtain ⟨vs', hvs', h⟩ := C21_tags H.box _ hsides (none : Shift K) hT (H.enum_tags _)
      (periodicTag (p, d)) (periodicTag_user _) f hf
    rw [hvs] at hvs'
    obtain rfl := Option.some.inj hvs'
    rw [hfags]
    refine h.trans ?_
    constructor
    · rintro ⟨side, sides, h1, h2, h3⟩
      rcases mem_periodicTags.1 h1 with ⟨p', a, ha, e1, rfl⟩ | ⟨_, h4⟩
      · rw [List.mem_singleton] at h2
        rw [periodicTag_inj e1, ← h2]
        exact h3
      · exact absurd rfl (h4 p d (by simpa using hd))
    · intro h3
      exact ⟨(p, d), [(p, d)], mem_periodicTags.2 (Or.inl ⟨p, d, by simpa using hd, rfl, rfl⟩), by simp, h3⟩
  have hexf : ∀ d ∈ ds, ∀ p, ∃ f, InBoundary fags (periodicTag (p, d)) f := by
    intro d hd p
    have hda := (mem_periodicAxes.1 hd).1
    have hdT : d < T.dim := by rw [hTd]; simpa using hda
    have hs : (p, d) ∈ boxSides T.dim := mem_boxSides.2 hdT
    obtain ⟨F, hF, hcell⟩ := tpl_sides hT _ hs
    have hpos : ∀ a < 3, 0 < (boxCellShape (axes.map List.length)).get a := by
      intro a ha
      rw [boxCellShape_get ha, List.getElem?_map]
      cases hax : axes[a]? with
      | none => simp
      | some ax =>
        have := H.points ax (List.mem_of_getElem? hax)
        simp
        omega
    obtain ⟨c0, hc0, hcd⟩ : ∃ c0, (boxCellShape (axes.map List.length)).InShape c0 ∧
        c0.get d = if p then (boxCellShape (axes.map List.length)).get d - 1 else 0 := by
      refine ⟨P3.set ⟨0, 0, 0⟩ d (if p then (boxCellShape (axes.map List.length)).get d - 1 else 0),
        inShape_set ⟨hpos 0 (by omega), hpos 1 (by omega), hpos 2 (by omega)⟩ ?_, P3.get_set_same _ _ _⟩
      have := hpos d (by omega)
      split <;> omega
    have hface : IsFace [g] (boxFaceId (boxCellShape (axes.map List.length)) T c0 F) := by
      rw [hgE]
      exact isFace_box.2 ⟨_, F, hc0, hF, rfl⟩
    refine ⟨_, (hon d hd p _ _ ?_ hface).2 ((onBoxSide_iff hok hdim hc0 hF hs).2 ⟨hcell, hcd⟩)⟩
    rw [hgE]
    exact faceVerts_box hok hc0 hF
  have hext : ∀ d ∈ ds, ∃ ax, axes[d]? = some ax ∧ axisExtent ax = some (boxExtent axes d) := by
    intro d hd
    have hda := (mem_periodicAxes.1 hd).1
    have h2 := H.points axes[d] (List.getElem_mem hda)
    refine ⟨axes[d], List.getElem?_eq_getElem hda, ?_⟩
    unfold boxExtent
    rw [List.getD_eq_getElem?_getD, List.getElem?_eq_getElem hda]
    simp only [Option.getD_some]
    have : (axisExtent axes[d]).isSome := by
      unfold axisExtent
      cases h : axes[d] with
      | nil => simp [h] at h2
      | cons a l => simp [List.getLast?_cons]
    obtain ⟨x, hx⟩ := Option.isSome_iff_exists.1 this
    rw [hx]
    rfl
  have hmatch : ∀ d, ∃ prs, d ∈ ds → matchBoundaryFaces p2p (boxVertices axes kind) [g] fags
        ⟨periodicTag (false, d), periodicTag (true, d), some (axisOffset axes.length d (boxExtent axes d)),
          eps * boxExtent axes d⟩ = some prs ∧
        (prs.map Prod.fst).Nodup ∧ (prs.map Prod.snd).Nodup ∧
        (∀ f, f ∈ prs.map Prod.fst ↔ IsFace [g] f ∧ ∃ vs, faceVerts [g] f = some vs ∧
          OnBoxSide (boxShape (axes.map List.length)) vs (false, d)) ∧
        (∀ f, f ∈ prs.map Prod.snd ↔ IsFace [g] f ∧ ∃ vs, faceVerts [g] f = some vs ∧
          OnBoxSide (boxShape (axes.map List.length)) vs (true, d)) ∧
        ∀ f f', (f, f') ∈ prs ↔ IsFace [g] f ∧ IsFace [g] f' ∧ ∃ vs vs', faceVerts [g] f = some vs ∧
          faceVerts [g] f' = some vs' ∧ TranslateAlong (boxShape (axes.map List.length)) d vs vs' := by
    intro d
    by_cases hd : d ∈ ds
    · obtain ⟨ax, hax, he⟩ := hext d hd
      obtain ⟨hpos, hsep⟩ := H.separated d ax _ hax (mem_periodicAxes.1 hd).2 he
      obtain ⟨prs, h⟩ := periodic_match H.sound H.complete H.box hax (H.points ax (List.mem_of_getElem? hax))
        he (mul_pos H.eps_pos hpos) hsep (fags := fags)
        (fun p f h => isFace_of_inBoundary hwf (periodicTag_user _) h) (hon d hd)
        (fun p => boundaryFaceIds_computeFacial _ (H.enum_tags _).1 (periodicTag_user _) (hexf d hd p))
      exact ⟨prs, fun _ => h⟩
    · exact ⟨[], fun h => absurd h hd⟩
  choose prs hprs using hmatch
  have hlen : (axes.map List.length).length = axes.length := List.length_map _
  have hgen : generatePeriodicBox p2p enum eps nodeOf axes kind periodic tagToFace =
      if periodic.any id then
        (ds.mapM (periodicPair eps axes)).bind fun bps =>
        (glueMeshBoundaries p2p Shift.inv (boxVertices axes kind) [g] fags bps).map fun fags' => (g, fags')
      else some (g, fags) := by
    unfold generatePeriodicBox
    simp only [H.box, Option.bind_some, hT]
    rw [if_neg (by have := H.flags; simpa using this), if_neg]
    · simp only [hlen]
      rw [hfags, hds]
      unfold boxFags
      simp only [hlen]
    · rw [List.any_eq_true]
      rintro ⟨tf, h1, h2⟩
      obtain ⟨s, h3, h4⟩ := List.any_eq_true.1 h2
      have := H.sides tf h1 s h3
      simp at h4
      omega
  refine ⟨T, ?_⟩
  by_cases hany : periodic.any id = true
  · set mk : Nat → BdryPair (Shift K) K := fun d => ⟨periodicTag (false, d), periodicTag (true, d),
      some (axisOffset axes.length d (boxExtent axes d)), eps * boxExtent axes d⟩ with hmk
    have hbps : ds.mapM (periodicPair eps axes) = some (ds.map mk) := by
      refine mapM_some_eq_map ?_
      intro d hd
      obtain ⟨ax, hax, he⟩ := hext d hd
      unfold periodicPair
      rw [List.getD_eq_getElem?_getD, hax]
      simp only [Option.getD_some, he, Option.map_some]
      rfl
    rw [if_pos hany, hbps, Option.bind_some] at hgen
    have hglue : (glueMeshBoundaries p2p Shift.inv (boxVertices axes kind) [g] fags (ds.map mk)).isSome := by
      refine C16_glue_defined ?_ ?_
      · rw [List.pairwise_map]
        have hnd : ds.Nodup := List.nodup_range.filter _
        refine hnd.imp ?_
        intro a b hab h
        rcases h with ⟨h1, _⟩ | ⟨h1, _⟩
        · have := periodicTag_inj h1
          simp only [Prod.mk.injEq] at this
          exact hab this.2
        · have := periodicTag_inj h1
          simp at this
      · intro bp hbp
        obtain ⟨d, hd, rfl⟩ := List.mem_map.1 hbp
        rw [(hprs d hd).1]
        rfl
    obtain ⟨fags', hf'⟩ := Option.isSome_iff_exists.1 hglue
    rw [hf', Option.map_some] at hgen
    have hfl : fags.length = [g].length := by
      simp [hfags, boxFags, computeFacial, completeFacial, rawFacial]
    obtain ⟨pairs, h1, h2, _, h4⟩ := C16_glue_adjacency_partial hfl hf'
    have hpairs : pairs = ds.map prs := by
      rw [List.forall₂_map_left_iff] at h1
      have h5 : List.Forall₂ (fun d q => d ∈ ds ∧ prs d = q) ds pairs := by
        rw [List.forall₂_iff_get] at h1 ⊢
        refine ⟨h1.1, fun i hi hj => ⟨List.get_mem _ _, ?_⟩⟩
        have := h1.2 i hi hj
        rw [(hprs _ (List.get_mem _ _)).1] at this
        exact Option.some.inj this
      have h6 : List.Forall₂ (fun d q => prs d = q) ds pairs := h5.imp fun _ _ h => h.2
      rw [← List.forall₂_map_left_iff (R := fun a b => a = b) (f := prs), List.forall₂_eq_eq_eq] at h6
      exact h6.symm
    refine ⟨fags', prs, hT, hgen, ?_, ?_, fun d hd => ⟨?_, (hprs d hd).2⟩⟩
    · refine h2.trans (List.Perm.of_eq ?_)
      rw [hpairs, List.map_map, List.zip_map', List.flatMap_map]
      rfl
    · intro i
      rw [h4 i]
      refine List.filter_congr fun tb _ => ?_
      rw [List.all_map]
      rfl
    · obtain ⟨ax, hax, he⟩ := hext d hd
      rw [List.getD_eq_getElem?_getD, hax]
      exact he
  · have hnil : ds = [] := by
      rw [hds, List.eq_nil_iff_forall_not_mem]
      intro d hd
      exact hany (List.any_eq_true.2 ⟨true, List.mem_of_getElem? (mem_periodicAxes.1 hd).2, rfl⟩)
    rw [if_neg hany] at hgen
    refine ⟨fags, prs, hT, hgen, ?_, ?_, ?_⟩
    · rw [hnil, List.flatMap_nil, List.append_nil]
    · intro i; rw [hnil]; simp only [List.all_nil]; simp [hfags]
    · rw [hnil]; simp

/-- `o` moves the lower side of the box along axis `d` to the upper one.
(Specification or proof vocabulary, no code.) -/
def PeriodOffset (axes : List (List K)) (d : Nat) (o : List K) : Prop :=
  o.length = axes.length ∧ ∃ ax a b, axes[d]? = some ax ∧ ax.head? = some a ∧ ax.getLast? = some b ∧
    ∀ i < axes.length, o[i]? = some (if i = d then b - a else 0)

omit [LinearOrder K] [IsStrictOrderedRing K] in
theorem periodOffset_iff {axes : List (List K)} {d : Nat} {ax : List K} (hax : axes[d]? = some ax) {e : K}
    (he : axisExtent ax = some e) {o : List K} : PeriodOffset axes d o ↔ o = axisOffset axes.length d e := by
  have key : ∀ (a b : K), ax.head? = some a → ax.getLast? = some b → e = b - a := by
    intro a b h1 h2
    unfold axisExtent at he
    rw [h1, h2] at he
    exact (Option.some.inj he).symm
  constructor
  · rintro ⟨hl, ax', a, b, hax', h1, h2, h3⟩
    rw [hax] at hax'
    obtain rfl := Option.some.inj hax'
    obtain rfl := key a b h1 h2
    refine List.ext_getElem? fun i => ?_
    unfold axisOffset
    by_cases hi : i < axes.length
    · rw [h3 i hi, List.getElem?_map, List.getElem?_range hi]
      rfl
    · rw [List.getElem?_eq_none (by omega), List.getElem?_eq_none (by simp; omega)]
  · rintro rfl
    obtain ⟨a, b, h1, h2, _⟩ := axisExtent_spec he
    rw [← List.head?_eq_getElem?] at h1
    rw [← List.getLast?_eq_getElem?] at h2
    refine ⟨by simp [axisOffset], ax, a, b, hax, h1, h2, fun i hi => ?_⟩
    unfold axisOffset
    rw [List.getElem?_map, List.getElem?_range hi, key a b h1 h2]
    rfl

omit [Field K] [LinearOrder K] [IsStrictOrderedRing K] in
theorem mem_meshFacePairs_iff {groups : List (ElGroup N)} (hwf : ∀ g ∈ groups, g.WF)
    (htwo : AtMostTwoSides groups) {f f' : FaceId} : (f, f') ∈ meshFacePairs groups ↔
      IsFace groups f ∧ IsFace groups f' ∧ f ≠ f' ∧ SameVertices groups f f' := by
  constructor
  · intro h
    obtain ⟨h1, h2, h3, h4, _⟩ := meshFacePairs_props hwf h
    exact ⟨h1, h2, h3, h4⟩
  · rintro ⟨h1, h2, h3, h4⟩
    obtain ⟨f'', h5⟩ := meshFacePairs_exists h1 h2 h3 h4
    obtain ⟨_, k2, k3, k4, _⟩ := meshFacePairs_props hwf h5
    rw [htwo f f' f'' h1 h2 k2 h4 k4 h3 k3]
    exact h5

/-- C60: `generate_box_mesh` with `periodic` returns a mesh, and in it two faces are neighbours exactly if they
have the same vertices, or if one is the other moved from the lower to the upper side of the box along a
periodic axis; in the second case the recorded map is the translation by the length of the box along that
axis (or its inverse), otherwise there is none. -/
theorem C60_neighbors {p2p : Shift K → K → List (List K) → List (List K) → List (Option Nat)}
    {enum : List (List Nat × List BTag) → List BTag} {eps : K} {nodeOf : List Nat → N}
    {axes : List (List K)} {kind : BoxKind} {periodic : List Bool}
    {tagToFace : List (BTag × List (Bool × Nat))} {g : ElGroup N}
    (H : PeriodicInput p2p enum eps nodeOf axes kind periodic tagToFace g) :
    ∃ fags', generatePeriodicBox p2p enum eps nodeOf axes kind periodic tagToFace = some (g, fags') ∧
      ∀ f f' a, (f, f', a) ∈ interiorTriples fags' ↔ IsFace [g] f ∧ IsFace [g] f' ∧
        ((f ≠ f' ∧ SameVertices [g] f f' ∧ a = none) ∨
        ∃ d vs vs' o, d < axes.length ∧ periodic[d]? = some true ∧ faceVerts [g] f = some vs ∧
          faceVerts [g] f' = some vs' ∧ PeriodOffset axes d o ∧
          ((TranslateAlong (boxShape (axes.map List.length)) d vs vs' ∧ a = some o) ∨
            (TranslateAlong (boxShape (axes.map List.length)) d vs' vs ∧ a = some (o.map (- ·))))) := by
  obtain ⟨T, fags', prs, hT, hgen, hperm, _, hp⟩ := periodic_glue H
  obtain ⟨T', hT', _, hok, _, hgE⟩ := generateBox_eq H.box
  have hwf : ∀ g' ∈ [g], g'.WF := by rw [hgE]; exact box_wf hok
  refine ⟨fags', hgen, fun f f' a => ?_⟩
  rw [hperm.mem_iff, List.mem_append]
  unfold boxFags
  rw [interiorTriples_computeFacial hwf, mem_meshFacePairs_iff hwf (C21_faces H.box).1, List.mem_flatMap]
  have hoff : ∀ d ∈ periodicAxes axes.length periodic, ∀ o,
      PeriodOffset axes d o ↔ o = axisOffset axes.length d (boxExtent axes d) := by
    intro d hd o
    have hda := (mem_periodicAxes.1 hd).1
    have h := (hp d hd).1
    rw [List.getD_eq_getElem?_getD, List.getElem?_eq_getElem hda] at h
    exact periodOffset_iff (List.getElem?_eq_getElem hda) h
  constructor
  · rintro (⟨⟨h1, h2, h3, h4⟩, rfl⟩ | ⟨d, hd, h⟩)
    · exact ⟨h1, h2, Or.inl ⟨h3, h4, rfl⟩⟩
    · obtain ⟨hd1, hd2⟩ := mem_periodicAxes.1 hd
      have ho := (hoff d hd _).2 rfl
      rcases List.mem_append.1 h with h | h
      · obtain ⟨⟨x, y⟩, hxy, e⟩ := List.mem_map.1 h
        simp only [Prod.mk.injEq] at e
        obtain ⟨rfl, rfl, rfl⟩ := e
        obtain ⟨h1, h2, vs, vs', h3, h4, h5⟩ := ((hp d hd).2.2.2.2.2 x y).1 hxy
        exact ⟨h1, h2, Or.inr ⟨d, vs, vs', _, hd1, hd2, h3, h4, ho, Or.inl ⟨h5, rfl⟩⟩⟩
      · obtain ⟨⟨x, y⟩, hxy, e⟩ := List.mem_map.1 h
        simp only [Prod.mk.injEq] at e
        obtain ⟨rfl, rfl, rfl⟩ := e
        obtain ⟨h1, h2, vs, vs', h3, h4, h5⟩ := ((hp d hd).2.2.2.2.2 x y).1 hxy
        exact ⟨h2, h1, Or.inr ⟨d, vs', vs, _, hd1, hd2, h4, h3, ho, Or.inr ⟨h5, rfl⟩⟩⟩
  · rintro ⟨h1, h2, ⟨h3, h4, rfl⟩ | ⟨d, vs, vs', o, hd1, hd2, h3, h4, ho, h⟩⟩
    · exact Or.inl ⟨⟨h1, h2, h3, h4⟩, rfl⟩
    · have hd := mem_periodicAxes.2 ⟨hd1, hd2⟩
      obtain rfl := (hoff d hd o).1 ho
      refine Or.inr ⟨d, hd, ?_⟩
      rcases h with ⟨h5, rfl⟩ | ⟨h5, rfl⟩
      · exact List.mem_append.2 (Or.inl (List.mem_map.2 ⟨(f, f'),
          ((hp d hd).2.2.2.2.2 f f').2 ⟨h1, h2, vs, vs', h3, h4, h5⟩, rfl⟩))
      · exact List.mem_append.2 (Or.inr (List.mem_map.2 ⟨(f', f),
          ((hp d hd).2.2.2.2.2 f' f).2 ⟨h2, h1, vs', vs, h4, h3, h5⟩, rfl⟩))

omit [Field K] [LinearOrder K] [IsStrictOrderedRing K] in
theorem sum_map_one_axis {l : List Nat} (hn : l.Nodup) {F : Nat → Nat} {d : Nat}
    (h : ∀ x ∈ l, x ≠ d → F x = 0) : (l.map F).sum = if d ∈ l then F d else 0 := by
  induction l with
  | nil => simp
  | cons a l ih =>
    obtain ⟨h1, h2⟩ := List.nodup_cons.1 hn
    rw [List.map_cons, List.sum_cons, ih h2 fun x hx => h x (List.mem_cons_of_mem _ hx)]
    by_cases ha : a = d
    · subst ha
      simp [h1]
    · rw [h a List.mem_cons_self ha]
      have : d ∈ a :: l ↔ d ∈ l := by simp [Ne.symm ha]
      simp [this]

omit [Field K] [LinearOrder K] [IsStrictOrderedRing K] in
theorem countP_map_eq {α β : Type} [DecidableEq α] {l : List β} {F : β → α} (hn : (l.map F).Nodup) (a : α)
    (P : Prop) [Decidable P] (hP : a ∈ l.map F ↔ P) :
    l.countP (fun q => decide (F q = a)) = if P then 1 else 0 := by
  have : l.countP (fun q => decide (F q = a)) = (l.map F).count a := by
    rw [List.count, List.countP_map]
    refine List.countP_congr fun q _ => ?_
    simp
  rw [this]
  by_cases h : P
  · rw [if_pos h]
    exact List.count_eq_one_of_mem hn (hP.2 h)
  · rw [if_neg h]
    exact List.count_eq_zero.2 fun hm => h (hP.1 hm)

open Classical in
/-- C60: in a periodic box mesh a face on a side of the box along an axis that is not periodic has no
neighbour, and every other face has exactly one. -/
theorem C60_count {p2p : Shift K → K → List (List K) → List (List K) → List (Option Nat)}
    {enum : List (List Nat × List BTag) → List BTag} {eps : K} {nodeOf : List Nat → N}
    {axes : List (List K)} {kind : BoxKind} {periodic : List Bool}
    {tagToFace : List (BTag × List (Bool × Nat))} {g : ElGroup N}
    (H : PeriodicInput p2p enum eps nodeOf axes kind periodic tagToFace g)
    {fags' : List (List (Fag (Shift K)))}
    (hgen : generatePeriodicBox p2p enum eps nodeOf axes kind periodic tagToFace = some (g, fags'))
    (f : FaceId) (hf : IsFace [g] f) : ∃ vs, faceVerts [g] f = some vs ∧
      interiorRowCount fags' f = if ∃ p d, d < axes.length ∧ periodic[d]? = some false ∧
        OnBoxSide (boxShape (axes.map List.length)) vs (p, d) then 0 else 1 := by
  obtain ⟨T, fags'', prs, hT, hgen', hperm, _, hp⟩ := periodic_glue H
  obtain rfl : fags'' = fags' := by
    rw [hgen'] at hgen
    simpa using hgen
  obtain ⟨T', hT', hTd, hok, hdim, hgE⟩ := generateBox_eq H.box
  have hwf : ∀ g' ∈ [g], g'.WF := by rw [hgE]; exact box_wf hok
  obtain ⟨vs, hvs, hbd⟩ := (C21_faces H.box).2 f hf
  refine ⟨vs, hvs, ?_⟩
  set n := boxShape (axes.map List.length) with hn
  have hold : interiorRowCount (boxFags enum axes kind periodic tagToFace g T) f =
      if IsBoundaryFace [g] f then 0 else 1 := by
    unfold boxFags
    rw [interiorRowCount_eq (none : Shift K) _ _ hf, ← interiorRowCount_eq (none : Shift K) [] [] hf]
    rw [← C05_really_all hwf (none : Shift K) [] [] (by simp) f hf]
    rcases C03_facial_adjacency_complete hwf (C21_faces H.box).1 (none : Shift K) [] [] (by simp) f hf with
      ⟨h1, h2⟩ | ⟨h1, h2, _⟩
    · rw [h2, if_pos h1]
    · rw [h2, if_neg h1]
  have huniq : ∀ s s' : Bool × Nat, s.2 < axes.length → s'.2 < axes.length → OnBoxSide n vs s →
      OnBoxSide n vs s' → s = s' := by
    intro s s' hs hs' h h'
    have hf2 := hf
    rw [hgE] at hf2
    obtain ⟨c, F, hc, hF, rfl⟩ := isFace_box.1 hf2
    rw [hgE, faceVerts_box hok hc hF] at hvs
    obtain rfl := Option.some.inj hvs
    exact onBoxSide_unique hok hdim hc hF (mem_boxSides.2 (by rw [hTd]; simpa using hs))
      (mem_boxSides.2 (by rw [hTd]; simpa using hs')) h h'
  have hadd : ∀ d ∈ periodicAxes axes.length periodic,
      (addedTriples axes prs d).countP (fun q => decide (q.1 = f)) =
        (if OnBoxSide n vs (false, d) then 1 else 0) + if OnBoxSide n vs (true, d) then 1 else 0 := by
    intro d hd
    obtain ⟨_, k1, k2, k3, k4, _⟩ := hp d hd
    unfold addedTriples
    rw [List.countP_append, List.countP_map, List.countP_map]
    congr 1
    · refine countP_map_eq k1 f _ ((k3 f).trans ⟨?_, fun h => ⟨hf, vs, hvs, h⟩⟩)
      rintro ⟨_, vs', hvs', h⟩
      rw [hvs] at hvs'
      obtain rfl := Option.some.inj hvs'
      exact h
    · refine countP_map_eq k2 f _ ((k4 f).trans ⟨?_, fun h => ⟨hf, vs, hvs, h⟩⟩)
      rintro ⟨_, vs', hvs', h⟩
      rw [hvs] at hvs'
      obtain rfl := Option.some.inj hvs'
      exact h
  have htot : interiorRowCount fags'' f = (if IsBoundaryFace [g] f then 0 else 1) +
      ((periodicAxes axes.length periodic).map fun d => (if OnBoxSide n vs (false, d) then 1 else 0) +
        if OnBoxSide n vs (true, d) then 1 else 0).sum := by
    rw [← countP_interiorTriples, hperm.countP_eq, List.countP_append, countP_interiorTriples, hold,
      List.countP_flatMap]
    congr 2
    exact List.map_congr_left fun d hd => hadd d hd
  rw [htot]
  have hlen : (axes.map List.length).length = axes.length := List.length_map _
  by_cases hb : IsBoundaryFace [g] f
  · obtain ⟨p, d, hd, hon⟩ := hbd.1 hb
    rw [hlen] at hd
    rw [if_pos hb, Nat.zero_add, sum_map_one_axis (l := periodicAxes axes.length periodic)
      (List.nodup_range.filter _) (d := d)]
    · have hone : ((if OnBoxSide n vs (false, d) then 1 else 0) + if OnBoxSide n vs (true, d) then 1 else 0) =
          1 := by
        cases p
        · have h2 : ¬ OnBoxSide n vs (true, d) := fun h => by
            have := huniq _ _ hd hd hon h
            simp at this
          rw [if_pos hon, if_neg h2]
        · have h2 : ¬ OnBoxSide n vs (false, d) := fun h => by
            have := huniq _ _ hd hd hon h
            simp at this
          rw [if_neg h2, if_pos hon]
      rw [hone]
      have hfl : d < periodic.length := Nat.lt_of_lt_of_le hd H.flags
      cases hpd : periodic[d] with
      | true =>
        have hq : periodic[d]? = some true := by rw [List.getElem?_eq_getElem hfl, hpd]
        rw [if_pos (mem_periodicAxes.2 ⟨hd, hq⟩), if_neg]
        rintro ⟨p', d', hd', hq', hon'⟩
        have := huniq _ _ hd hd' hon hon'
        simp only [Prod.mk.injEq] at this
        rw [← this.2, hq] at hq'
        simp at hq'
      | false =>
        have hq : periodic[d]? = some false := by rw [List.getElem?_eq_getElem hfl, hpd]
        rw [if_neg, if_pos ⟨p, d, hd, hq, hon⟩]
        intro h
        have := (mem_periodicAxes.1 h).2
        rw [hq] at this
        simp at this
    · intro x hx hxd
      have hxl := (mem_periodicAxes.1 hx).1
      have : ∀ p', ¬ OnBoxSide n vs (p', x) := by
        intro p' h
        have := huniq _ _ hd hxl hon h
        simp only [Prod.mk.injEq] at this
        exact hxd this.2.symm
      rw [if_neg (this _), if_neg (this _)]
  · have hno : ∀ p d, d < axes.length → ¬ OnBoxSide n vs (p, d) := by
      intro p d hd h
      exact hb (hbd.2 ⟨p, d, by rw [hlen]; exact hd, h⟩)
    rw [if_neg hb, if_neg (by rintro ⟨p, d, hd, _, h⟩; exact hno p d hd h), List.sum_eq_zero ?_]
    · rfl
    intro x hx
    obtain ⟨d, hd, rfl⟩ := List.mem_map.1 hx
    have := (mem_periodicAxes.1 hd).1
    simp only [if_neg (hno _ _ this), Nat.add_zero]

omit [Field K] [LinearOrder K] [IsStrictOrderedRing K] in
theorem inBoundary_iff_bdryGroupsOf {fags : List (List (Fag A))} {t : BTag} {f : FaceId} :
    InBoundary fags t f ↔ ∃ fs, (t, fs) ∈ bdryGroupsOf fags f.grp ∧ ⟨f.el, f.face⟩ ∈ fs := by
  unfold bdryGroupsOf InBoundary
  simp only [List.mem_filterMap]
  constructor
  · rintro ⟨l, fg, fs, h1, h2, h3, h4⟩
    exact ⟨fs, ⟨fg, by rw [h1]; exact h2, h3⟩, h4⟩
  · rintro ⟨fs, ⟨fg, h2, h3⟩, h4⟩
    cases h : fags[f.grp]? with
    | none => simp [h] at h2
    | some l =>
      rw [h] at h2
      exact ⟨l, fg, fs, rfl, h2, h3, h4⟩

/-- C60 (partial: not for `BTAG_ALL` and `BTAG_REALLY_ALL`, see below): the tags that the caller
gives denote the faces on the sides given for them, also on periodic sides; nothing is left of the tags that the function itself makes up for the periodic sides. -/
theorem C60_tags_partial {p2p : Shift K → K → List (List K) → List (List K) → List (Option Nat)}
    {enum : List (List Nat × List BTag) → List BTag} {eps : K} {nodeOf : List Nat → N}
    {axes : List (List K)} {kind : BoxKind} {periodic : List Bool}
    {tagToFace : List (BTag × List (Bool × Nat))} {g : ElGroup N}
    (H : PeriodicInput p2p enum eps nodeOf axes kind periodic tagToFace g)
    {fags' : List (List (Fag (Shift K)))}
    (hgen : generatePeriodicBox p2p enum eps nodeOf axes kind periodic tagToFace = some (g, fags'))
    (t : BTag) (ht : t ≠ .none ∧ t ≠ .all ∧ t ≠ .reallyAll) (f : FaceId) (hf : IsFace [g] f) :
    ∃ vs, faceVerts [g] f = some vs ∧ (InBoundary fags' t f ↔
      (∀ p d, d < axes.length → periodic[d]? = some true → t ≠ periodicTag (p, d)) ∧
      ∃ side sides, (t, sides) ∈ tagToFace ∧ side ∈ sides ∧
        OnBoxSide (boxShape (axes.map List.length)) vs side) := by
  obtain ⟨T, fags'', prs, hT, hgen', _, hbdry, _⟩ := periodic_glue H
  obtain rfl : fags'' = fags' := by
    rw [hgen'] at hgen
    simpa using hgen
  have hlen : (axes.map List.length).length = axes.length := List.length_map _
  have hsides : ∀ tf ∈ periodicTags (axes.map List.length).length periodic tagToFace, ∀ side ∈ tf.2,
      side.2 < (axes.map List.length).length := by
    rintro ⟨t, s⟩ htf side hside
    rcases mem_periodicTags.1 htf with ⟨p, a, ha, _, rfl⟩ | ⟨h, _⟩
    · rw [List.mem_singleton] at hside
      subst hside
      exact (mem_periodicAxes.1 ha).1
    · have := H.sides _ h side hside
      simpa using this
  obtain ⟨vs, hvs, h⟩ := C21_tags H.box _ hsides (none : Shift K) hT (H.enum_tags _) t ht f hf
  refine ⟨vs, hvs, ?_⟩
  have hsplit : InBoundary fags'' t f ↔
      (∀ p d, d < axes.length → periodic[d]? = some true → t ≠ periodicTag (p, d)) ∧
      InBoundary (boxFags enum axes kind periodic tagToFace g T) t f := by
    rw [inBoundary_iff_bdryGroupsOf, inBoundary_iff_bdryGroupsOf, hbdry]
    simp only [List.mem_filter, List.all_eq_true, decide_eq_true_eq]
    constructor
    · rintro ⟨fs, ⟨h1, h2⟩, h3⟩
      refine ⟨fun p d hd hq => ?_, fs, h1, h3⟩
      have := h2 d (mem_periodicAxes.2 ⟨hd, hq⟩)
      cases p
      · exact this.1
      · exact this.2
    · rintro ⟨h2, fs, h1, h3⟩
      refine ⟨fs, ⟨h1, fun d hd => ?_⟩, h3⟩
      obtain ⟨k1, k2⟩ := mem_periodicAxes.1 hd
      exact ⟨h2 false d k1 k2, h2 true d k1 k2⟩
  rw [hsplit]
  refine and_congr_right fun hno => ?_
  unfold boxFags
  refine h.trans ⟨?_, ?_⟩
  · rintro ⟨side, sides, h1, h2, h3⟩
    rcases mem_periodicTags.1 h1 with ⟨p, a, ha, e, _⟩ | ⟨h4, _⟩
    · rw [hlen] at ha
      obtain ⟨k1, k2⟩ := mem_periodicAxes.1 ha
      exact absurd e (hno p a k1 k2)
    · exact ⟨side, sides, h4, h2, h3⟩
  · rintro ⟨side, sides, h1, h2, h3⟩
    refine ⟨side, sides, mem_periodicTags.2 (Or.inr ⟨h1, fun p a ha => ?_⟩), h2, h3⟩
    rw [hlen] at ha
    obtain ⟨k1, k2⟩ := mem_periodicAxes.1 ha
    exact hno p a k1 k2

/-- C60, what is wrong: `BTAG_REALLY_ALL` still denotes all faces on the sides of the box, those on periodic
sides included, although these have neighbours. -/
theorem C60_really_all_counterexample
    {p2p : Shift K → K → List (List K) → List (List K) → List (Option Nat)}
    {enum : List (List Nat × List BTag) → List BTag} {eps : K} {nodeOf : List Nat → N}
    {axes : List (List K)} {kind : BoxKind} {periodic : List Bool}
    {tagToFace : List (BTag × List (Bool × Nat))} {g : ElGroup N}
    (H : PeriodicInput p2p enum eps nodeOf axes kind periodic tagToFace g)
    (hra : ∀ tf ∈ tagToFace, tf.1 ≠ .reallyAll)
    {fags' : List (List (Fag (Shift K)))}
    (hgen : generatePeriodicBox p2p enum eps nodeOf axes kind periodic tagToFace = some (g, fags'))
    (f : FaceId) (hf : IsFace [g] f) : ∃ vs, faceVerts [g] f = some vs ∧
      (InBoundary fags' .reallyAll f ↔ ∃ p d, d < axes.length ∧
        OnBoxSide (boxShape (axes.map List.length)) vs (p, d)) := by
  obtain ⟨T, fags'', prs, hT, hgen', _, hbdry, _⟩ := periodic_glue H
  obtain rfl : fags'' = fags' := by
    rw [hgen'] at hgen
    simpa using hgen
  obtain ⟨T', hT', hTd, hok, hdim, hgE⟩ := generateBox_eq H.box
  obtain rfl := Option.some.inj (hT.symm.trans hT')
  have hwf : ∀ g' ∈ [g], g'.WF := by rw [hgE]; exact box_wf hok
  have hlen : (axes.map List.length).length = axes.length := List.length_map _
  obtain ⟨vs, hvs, hbd⟩ := (C21_faces H.box).2 f hf
  refine ⟨vs, hvs, ?_⟩
  have hsplit : InBoundary fags'' .reallyAll f ↔
      InBoundary (boxFags enum axes kind periodic tagToFace g T) .reallyAll f := by
    rw [inBoundary_iff_bdryGroupsOf, inBoundary_iff_bdryGroupsOf, hbdry]
    simp only [List.mem_filter, List.all_eq_true, decide_eq_true_eq]
    constructor
    · rintro ⟨fs, ⟨h1, _⟩, h3⟩
      exact ⟨fs, h1, h3⟩
    · rintro ⟨fs, h1, h3⟩
      exact ⟨fs, ⟨h1, fun d _ => ⟨(periodicTag_user _).2.2.symm, (periodicTag_user _).2.2.symm⟩⟩, h3⟩
  have hnot : BTag.reallyAll ∉ enum (boxTagDict (boxShape (axes.map List.length))
      (boxCellShape (axes.map List.length)) T kind
      (periodicTags (axes.map List.length).length periodic tagToFace)) := by
    rw [(H.enum_tags _).2]
    rintro ⟨kv, hkv, hin⟩
    have hco : Coherent ([] ++ boxTagWrites (boxShape (axes.map List.length))
        (boxCellShape (axes.map List.length)) T kind
        (periodicTags (axes.map List.length).length periodic tagToFace)) := by
      intro w hw w' hw' e
      rw [List.nil_append, mem_boxTagWrites hok hdim] at hw hw'
      obtain ⟨side, hs, _, c1, F1, hc1, hF1, ho, rfl⟩ := hw
      obtain ⟨side', hs', _, c2, F2, hc2, hF2, ho', rfl⟩ := hw'
      have := onBoxSide_unique hok hdim hc1 hF1 hs hs' ho ((onBoxSide_congr e).2 ho')
      rw [this]
    have := (foldl_frozenSet hco (by simp [DistinctKeys])).2.1 kv hkv
    rw [List.nil_append, mem_boxTagWrites hok hdim] at this
    obtain ⟨side, _, _, c, F, _, _, _, rfl⟩ := this
    obtain ⟨sides, hm, _⟩ := mem_boxSideTags.1 hin
    rcases mem_periodicTags.1 hm with ⟨p, a, _, e, _⟩ | ⟨h, _⟩
    · exact (periodicTag_user _).2.2 e.symm
    · exact hra _ h rfl
  rw [hsplit]
  unfold boxFags
  rw [C05_really_all hwf (none : Shift K) _ _ hnot f hf, hbd, hlen]

/-! ## Cases that meet the hypotheses -/

/-- The first target point within the tolerance. (For examples, no code.) -/
def firstClose (a : Shift K) (t : K) (src tgt : List (List K)) : List (Option Nat) :=
  src.map fun p => tgt.findIdx? fun q => decide (0 ≤ t ∧ listDistSq (a.apply p) q < t ^ 2)

omit [IsStrictOrderedRing K] in
theorem firstClose_sound (t : K) :
    P2PSound (fun a (_ : Unit) => firstClose a t) (fun a _ => ShiftClose a t) := by
  intro a _ src tgt
  refine ⟨by simp [firstClose], ?_⟩
  intro i j h
  simp only [firstClose, List.getElem?_map, Option.map_eq_some_iff] at h
  obtain ⟨p, hp, h⟩ := h
  obtain ⟨hj, h1, _⟩ := List.findIdx?_eq_some_iff_getElem.1 h
  refine ⟨p, tgt[j], hp, List.getElem?_eq_getElem hj, ?_⟩
  exact (of_decide_eq_true h1).2

omit [IsStrictOrderedRing K] in
theorem firstClose_complete {t : K} (ht : 0 ≤ t) :
    P2PComplete (fun a (_ : Unit) => firstClose a t) (fun a _ => ShiftClose a t) := by
  intro a _ src tgt i p hp ⟨q, hq, hc⟩
  simp only [firstClose, List.getElem?_map, hp, Option.map_some, Option.some.injEq]
  have : (tgt.findIdx? fun q => decide (0 ≤ t ∧ listDistSq (a.apply p) q < t ^ 2)).isSome := by
    rw [List.findIdx?_isSome, List.any_eq_true]
    exact ⟨q, hq, decide_eq_true ⟨ht, hc⟩⟩
  exact Option.isSome_iff_exists.1 this

omit [Field K] [LinearOrder K] [IsStrictOrderedRing K] in
theorem dedup_enumerates (dict : List (List Nat × List BTag)) :
    EnumeratesTags dict (dict.flatMap Prod.snd).dedup :=
  ⟨List.nodup_dedup _, fun t => by rw [List.mem_dedup, List.mem_flatMap]⟩

end

/-- Three by two points, periodic along the first axis, a tag on the lower side of the second. -/
theorem exPeriodicBox : PeriodicInput (N := Unit) (K := ℚ) firstClose (fun d => (d.flatMap Prod.snd).dedup) (1 / 10)
    (fun _ => ()) [[0, 1, 3], [0, 2]] .simplex [true, false] [(.user 7 false, [(false, 1)])]
    (boxGroup (fun _ => ()) ⟨3, 2, 1⟩ ⟨2, 1, 1⟩ ((boxTpl 2 .simplex).getD ⟨0, [], []⟩)) where
  sound t _ := firstClose_sound t
  complete _ := firstClose_complete
  enum_tags := dedup_enumerates
  eps_pos := by norm_num
  box := by rfl
  points := by decide
  separated := by
    intro d ax e hax hp he
    have hd : d = 0 := by
      rcases d with _ | _ | d
      · rfl
      · simp at hp
      · simp at hp
    subst hd
    obtain rfl := Option.some.inj hax
    obtain rfl : (3 : ℚ) - 0 = e := Option.some.inj he
    refine ⟨by norm_num, ?_⟩
    intro ax' hax' i j x y hx hy hij
    simp only [List.mem_cons, List.not_mem_nil, or_false] at hax'
    rcases hax' with rfl | rfl
    · rcases i with _ | _ | _ | i <;> rcases j with _ | _ | _ | j <;> simp at hx hy hij <;>
        subst hx <;> subst hy <;> norm_num
    · rcases i with _ | _ | i <;> rcases j with _ | _ | j <;> simp at hx hy hij <;>
        subst hx <;> subst hy <;> norm_num
  flags := by decide
  sides := by decide

/-- In this mesh face 1 of element 0 and face 1 of element 3 become neighbours, but stay in
`BTAG_REALLY_ALL`. -/
example : ((generatePeriodicBox (N := Unit) (K := ℚ) firstClose (fun d => (d.flatMap Prod.snd).dedup)
    (1 / 10) (fun _ => ()) [[0, 1, 3], [0, 2]] .simplex [true, false] [(.user 7 false, [(false, 1)])]).map
      fun r => (interiorTriples r.2).drop 6 ++ ((bdryGroupsOf r.2 0).filter fun b => b.1 = .reallyAll).flatMap
        fun b => (b.2.filter fun x => x.face = 1).map fun x => (⟨0, x.el, 1⟩, ⟨0, x.el, 1⟩, none)) =
    some [(⟨0, 0, 1⟩, ⟨0, 3, 1⟩, some [3, 0]), (⟨0, 3, 1⟩, ⟨0, 0, 1⟩, some [-3, 0]),
      (⟨0, 0, 1⟩, ⟨0, 0, 1⟩, none), (⟨0, 3, 1⟩, ⟨0, 3, 1⟩, none)] := by
  decide +kernel

/-- An axis without points along which the box shall be periodic: `IndexError`; without `periodic` a mesh
without elements is made. -/
theorem C60_empty_counterexample {K : Type} [Field K]
    (p2p : Shift K → K → List (List K) → List (List K) → List (Option Nat))
    (enum : List (List Nat × List BTag) → List BTag) (eps : K) :
    generatePeriodicBox (N := Unit) p2p enum eps (fun _ => ()) [[]] .simplex [true] [] = none ∧
      (generatePeriodicBox (N := Unit) p2p enum eps (fun _ => ()) [[]] .simplex [false] []).isSome :=
  ⟨rfl, rfl⟩

/-- With coordinates in decreasing order the tolerance is negative, no point is found and an exception is
raised; with the coordinates in increasing order a mesh is made. -/
theorem C60_decreasing_counterexample :
    generatePeriodicBox (N := Unit) (K := ℚ) firstClose (fun d => (d.flatMap Prod.snd).dedup) (1 / 10)
      (fun _ => ()) [[1, 0]] .simplex [true] [] = none ∧
    (generatePeriodicBox (N := Unit) (K := ℚ) firstClose (fun d => (d.flatMap Prod.snd).dedup) (1 / 10)
      (fun _ => ()) [[0, 1]] .simplex [true] []).isSome = true := by
  decide +kernel

end Meshmode
