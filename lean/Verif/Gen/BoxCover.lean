import Verif.Gen.BoxFaces
import Mathlib.Algebra.Order.Field.Basic
import Mathlib.Algebra.Order.Ring.Rat
import Mathlib.Algebra.Order.Field.Rat
import Mathlib.Tactic.Linarith
import Mathlib.Tactic.NormNum
import Mathlib.Tactic.FieldSimp
import Mathlib.Tactic.Positivity

/-!
# Box meshes: the elements fill the box without overlap (C21)

Geometry over an arbitrary ordered field (floating-point rounding is not modelled).
-/
namespace Meshmode

set_option linter.unusedTactic false
set_option linter.unusedSectionVars false
set_option linter.unreachableTactic false
set_option linter.unnecessarySeqFocus false

variable {K : Type} [Field K] [LinearOrder K] [IsStrictOrderedRing K]

/-! ## Specification -/

/-- Weighted sum. (Specification or proof vocabulary, no code.) -/
def combo (w vals : List K) : K := (List.zipWith (· * ·) w vals).sum

/-- Weights: nonnegative, with sum 1. (Specification or proof vocabulary, no code.) -/
def Weights (w : List K) : Prop := (∀ a ∈ w, 0 ≤ a) ∧ w.sum = 1

/-- The point `pt` (given by its coordinates) is the combination with weights `w` of the vertices with the
numbers `row`. (Specification or proof vocabulary, no code.) -/
def IsCombination (d : Nat) (vertices : List (List K)) (row : List Nat) (w : List K) (pt : Nat → K) : Prop :=
  w.length = row.length ∧ Weights w ∧ ∀ a < d, pt a =
    combo w (row.map fun v => ((vertices[v]?).getD []).getD a 0)

/-! ## The reference cell -/

/-- Coordinate of an offset in the unit cell. (Specification or proof vocabulary, no code.) -/
def offCoord (a : Nat) (o : P3) : K := (o.get a : K) / 2

theorem cover_ref {d : Nat} {kind : BoxKind} {T : BoxTpl} (h : boxTpl d kind = some T) (q : Nat → K)
    (hq : ∀ a < d, 0 ≤ q a ∧ q a ≤ 1) :
    ∃ (s : Nat) (sub : List P3), T.subs[s]? = some sub ∧ ∃ w : List K, w.length = sub.length ∧ Weights w ∧
      ∀ a < d, q a = combo w (sub.map (offCoord a)) := by
  unfold boxTpl at h
  split at h
  · obtain rfl := Option.some.inj h
    obtain ⟨h0, h1⟩ := hq 0 (by omega)
    refine ⟨0, _, rfl, [1 - q 0, q 0], rfl, ⟨?_, ?_⟩, ?_⟩
    · simp; constructor <;> linarith
    · simp <;> ring
    · intro a ha; interval_cases a; simp [combo, offCoord, P3.get]
  · obtain rfl := Option.some.inj h
    obtain ⟨h0, h1⟩ := hq 0 (by omega)
    refine ⟨0, _, rfl, [1 - q 0, q 0], rfl, ⟨?_, ?_⟩, ?_⟩
    · simp; constructor <;> linarith
    · simp <;> ring
    · intro a ha; interval_cases a; simp [combo, offCoord, P3.get]
  · obtain rfl := Option.some.inj h
    obtain ⟨h0, h1⟩ := hq 0 (by omega)
    obtain ⟨h2, h3⟩ := hq 1 (by omega)
    have k1 : 0 ≤ 1 - q 0 := by linarith
    have k3 : 0 ≤ 1 - q 1 := by linarith
    refine ⟨0, _, rfl, [(1 - q 0) * (1 - q 1), q 0 * (1 - q 1), (1 - q 0) * q 1, q 0 * q 1], rfl,
      ⟨?_, ?_⟩, ?_⟩
    · simp only [List.mem_cons, List.not_mem_nil, or_false]
      rintro a (rfl | rfl | rfl | rfl) <;> positivity
    · simp <;> ring
    · intro a ha; interval_cases a <;> simp [combo, offCoord, P3.get] <;> ring
  · obtain rfl := Option.some.inj h
    obtain ⟨h0, h1⟩ := hq 0 (by omega)
    obtain ⟨h2, h3⟩ := hq 1 (by omega)
    by_cases hs : q 0 + q 1 ≤ 1
    · refine ⟨0, _, rfl, [1 - q 0 - q 1, q 0, q 1], rfl, ⟨?_, ?_⟩, ?_⟩
      · simp only [List.mem_cons, List.not_mem_nil, or_false]
        rintro a (rfl | rfl | rfl) <;> linarith
      · simp <;> ring
      · intro a ha; interval_cases a <;> simp [combo, offCoord, P3.get] <;> ring
    · refine ⟨1, _, rfl, [q 0 + q 1 - 1, 1 - q 0, 1 - q 1], rfl, ⟨?_, ?_⟩, ?_⟩
      · simp only [List.mem_cons, List.not_mem_nil, or_false]
        rintro a (rfl | rfl | rfl) <;> linarith
      · simp <;> ring
      · intro a ha; interval_cases a <;> simp [combo, offCoord, P3.get] <;> ring
  · obtain rfl := Option.some.inj h
    obtain ⟨h0, h1⟩ := hq 0 (by omega)
    obtain ⟨h2, h3⟩ := hq 1 (by omega)
    by_cases hs : q 0 + q 1 ≤ 1
    · by_cases ht : q 1 ≤ q 0
      · refine ⟨0, _, rfl, [1 - q 0 - q 1, q 0 - q 1, 2 * q 1], rfl, ⟨?_, ?_⟩, ?_⟩
        · simp only [List.mem_cons, List.not_mem_nil, or_false]
          rintro a (rfl | rfl | rfl) <;> linarith
        · simp <;> ring
        · intro a ha; interval_cases a <;> simp [combo, offCoord, P3.get] <;> ring
      · refine ⟨3, _, rfl, [q 1 - q 0, 1 - q 0 - q 1, 2 * q 0], rfl, ⟨?_, ?_⟩, ?_⟩
        · simp only [List.mem_cons, List.not_mem_nil, or_false]
          rintro a (rfl | rfl | rfl) <;> linarith
        · simp <;> ring
        · intro a ha; interval_cases a <;> simp [combo, offCoord, P3.get] <;> ring
    · by_cases ht : q 1 ≤ q 0
      · refine ⟨1, _, rfl, [q 0 - q 1, q 0 + q 1 - 1, 2 - 2 * q 0], rfl, ⟨?_, ?_⟩, ?_⟩
        · simp only [List.mem_cons, List.not_mem_nil, or_false]
          rintro a (rfl | rfl | rfl) <;> linarith
        · simp <;> ring
        · intro a ha; interval_cases a <;> simp [combo, offCoord, P3.get] <;> ring
      · refine ⟨2, _, rfl, [q 0 + q 1 - 1, q 1 - q 0, 2 - 2 * q 1], rfl, ⟨?_, ?_⟩, ?_⟩
        · simp only [List.mem_cons, List.not_mem_nil, or_false]
          rintro a (rfl | rfl | rfl) <;> linarith
        · simp <;> ring
        · intro a ha; interval_cases a <;> simp [combo, offCoord, P3.get] <;> ring
  · obtain rfl := Option.some.inj h
    obtain ⟨h0, h1⟩ := hq 0 (by omega)
    obtain ⟨h2, h3⟩ := hq 1 (by omega)
    obtain ⟨h4, h5⟩ := hq 2 (by omega)
    have k1 : 0 ≤ 1 - q 0 := by linarith
    have k3 : 0 ≤ 1 - q 1 := by linarith
    have k5 : 0 ≤ 1 - q 2 := by linarith
    refine ⟨0, _, rfl, [(1 - q 0) * (1 - q 1) * (1 - q 2), q 0 * (1 - q 1) * (1 - q 2),
      (1 - q 0) * q 1 * (1 - q 2), q 0 * q 1 * (1 - q 2), (1 - q 0) * (1 - q 1) * q 2,
      q 0 * (1 - q 1) * q 2, (1 - q 0) * q 1 * q 2, q 0 * q 1 * q 2], rfl, ⟨?_, ?_⟩, ?_⟩
    · simp only [List.mem_cons, List.not_mem_nil, or_false]
      rintro a (rfl | rfl | rfl | rfl | rfl | rfl | rfl | rfl) <;> positivity
    · simp <;> ring
    · intro a ha; interval_cases a <;> simp [combo, offCoord, P3.get] <;> ring
  · obtain rfl := Option.some.inj h
    obtain ⟨h0, h1⟩ := hq 0 (by omega)
    obtain ⟨h2, h3⟩ := hq 1 (by omega)
    obtain ⟨h4, h5⟩ := hq 2 (by omega)
    by_cases hs : q 0 + q 1 ≤ 1
    · by_cases ht : q 1 + q 2 ≤ 1
      · by_cases hu : q 0 + q 1 + q 2 ≤ 1
        · refine ⟨0, _, rfl, [1 - q 0 - q 1 - q 2, q 0, q 1, q 2], rfl, ⟨?_, ?_⟩, ?_⟩
          · simp only [List.mem_cons, List.not_mem_nil, or_false]
            rintro a (rfl | rfl | rfl | rfl) <;> linarith
          · simp <;> ring
          · intro a ha; interval_cases a <;> simp [combo, offCoord, P3.get] <;> ring
        · refine ⟨1, _, rfl, [q 0 + q 1 + q 2 - 1, 1 - q 1 - q 2, 1 - q 0 - q 1, q 1], rfl, ⟨?_, ?_⟩, ?_⟩
          · simp only [List.mem_cons, List.not_mem_nil, or_false]
            rintro a (rfl | rfl | rfl | rfl) <;> linarith
          · simp <;> ring
          · intro a ha; interval_cases a <;> simp [combo, offCoord, P3.get] <;> ring
      · refine ⟨2, _, rfl, [q 0, q 1 + q 2 - 1, 1 - q 2, 1 - q 0 - q 1], rfl, ⟨?_, ?_⟩, ?_⟩
        · simp only [List.mem_cons, List.not_mem_nil, or_false]
          rintro a (rfl | rfl | rfl | rfl) <;> linarith
        · simp <;> ring
        · intro a ha; interval_cases a <;> simp [combo, offCoord, P3.get] <;> ring
    · by_cases ht : q 1 + q 2 ≤ 1
      · refine ⟨3, _, rfl, [1 - q 1 - q 2, 1 - q 0, q 2, q 0 + q 1 - 1], rfl, ⟨?_, ?_⟩, ?_⟩
        · simp only [List.mem_cons, List.not_mem_nil, or_false]
          rintro a (rfl | rfl | rfl | rfl) <;> linarith
        · simp <;> ring
        · intro a ha; interval_cases a <;> simp [combo, offCoord, P3.get] <;> ring
      · by_cases hu : q 0 + q 1 + q 2 ≤ 2
        · refine ⟨4, _, rfl, [q 1 + q 2 - 1, 2 - q 0 - q 1 - q 2, q 0 + q 1 - 1, 1 - q 1], rfl, ⟨?_, ?_⟩, ?_⟩
          · simp only [List.mem_cons, List.not_mem_nil, or_false]
            rintro a (rfl | rfl | rfl | rfl) <;> linarith
          · simp <;> ring
          · intro a ha; interval_cases a <;> simp [combo, offCoord, P3.get] <;> ring
        · refine ⟨5, _, rfl, [1 - q 0, q 0 + q 1 + q 2 - 2, 1 - q 1, 1 - q 2], rfl, ⟨?_, ?_⟩, ?_⟩
          · simp only [List.mem_cons, List.not_mem_nil, or_false]
            rintro a (rfl | rfl | rfl | rfl) <;> linarith
          · simp <;> ring
          · intro a ha; interval_cases a <;> simp [combo, offCoord, P3.get] <;> ring
  · simp at h

theorem list2 {α : Type} {w : List α} (h : w.length = 2) : ∃ a b, w = [a, b] := by
  match w, h with
  | [a, b], _ => exact ⟨a, b, rfl⟩

theorem list3 {α : Type} {w : List α} (h : w.length = 3) : ∃ a b c, w = [a, b, c] := by
  match w, h with
  | [a, b, c], _ => exact ⟨a, b, c, rfl⟩

theorem list4 {α : Type} {w : List α} (h : w.length = 4) : ∃ a b c d, w = [a, b, c, d] := by
  match w, h with
  | [a, b, c, d], _ => exact ⟨a, b, c, d, rfl⟩

theorem list8 {α : Type} {w : List α} (h : w.length = 8) :
    ∃ a b c d a' b' c' d', w = [a, b, c, d, a', b', c', d'] := by
  match w, h with
  | [a, b, c, d, a', b', c', d'], _ => exact ⟨a, b, c, d, a', b', c', d', rfl⟩

set_option maxHeartbeats 1600000 in
/-- Different subelements of a cell do not overlap. -/
theorem disjoint_ref {d : Nat} {kind : BoxKind} {T : BoxTpl} (h : boxTpl d kind = some T) {s s' : Nat}
    {sub sub' : List P3} (hs : T.subs[s]? = some sub) (hs' : T.subs[s']? = some sub') {w w' : List K}
    (hl : w.length = sub.length) (hl' : w'.length = sub'.length) (hw : Weights w) (hw' : Weights w')
    (hpos : ∀ a ∈ w, 0 < a)
    (heq : ∀ a < d, combo w (sub.map (offCoord a)) = combo w' (sub'.map (offCoord a))) : s = s' := by
  have hlt := (List.getElem?_eq_some_iff.1 hs).1
  have hlt' := (List.getElem?_eq_some_iff.1 hs').1
  obtain ⟨_, hsum⟩ := hw
  obtain ⟨hnn, hsum'⟩ := hw'
  unfold boxTpl at h
  split at h
  · obtain rfl := Option.some.inj h
    simp at hlt hlt'
    omega
  · obtain rfl := Option.some.inj h
    simp at hlt hlt'
    omega
  · obtain rfl := Option.some.inj h
    simp at hlt hlt'
    omega
  · obtain rfl := Option.some.inj h
    have e0 := heq 0 (by omega)
    have e1 := heq 1 (by omega)
    simp at hlt hlt'
    interval_cases s <;> interval_cases s' <;> first
      | rfl
      | (exfalso
         obtain rfl := Option.some.inj hs
         obtain rfl := Option.some.inj hs'
         obtain ⟨a, b, c, rfl⟩ := list3 hl
         obtain ⟨a', b', c', rfl⟩ := list3 hl'
         simp [combo, offCoord, P3.get] at e0 e1 hpos hnn hsum hsum'
         linarith [hpos.1, hpos.2.1, hpos.2.2, hnn.1, hnn.2.1, hnn.2.2])
  · obtain rfl := Option.some.inj h
    have e0 := heq 0 (by omega)
    have e1 := heq 1 (by omega)
    simp at hlt hlt'
    interval_cases s <;> interval_cases s' <;> first
      | rfl
      | (exfalso
         obtain rfl := Option.some.inj hs
         obtain rfl := Option.some.inj hs'
         obtain ⟨a, b, c, rfl⟩ := list3 hl
         obtain ⟨a', b', c', rfl⟩ := list3 hl'
         simp [combo, offCoord, P3.get] at e0 e1 hpos hnn hsum hsum'
         linarith [hpos.1, hpos.2.1, hpos.2.2, hnn.1, hnn.2.1, hnn.2.2])
  · obtain rfl := Option.some.inj h
    simp at hlt hlt'
    omega
  · obtain rfl := Option.some.inj h
    have e0 := heq 0 (by omega)
    have e1 := heq 1 (by omega)
    have e2 := heq 2 (by omega)
    simp at hlt hlt'
    interval_cases s <;> interval_cases s' <;> first
      | rfl
      | (exfalso
         obtain rfl := Option.some.inj hs
         obtain rfl := Option.some.inj hs'
         obtain ⟨a, b, c, d, rfl⟩ := list4 hl
         obtain ⟨a', b', c', d', rfl⟩ := list4 hl'
         simp [combo, offCoord, P3.get] at e0 e1 e2 hpos hnn hsum hsum'
         linarith [hpos.1, hpos.2.1, hpos.2.2.1, hpos.2.2.2, hnn.1, hnn.2.1, hnn.2.2.1, hnn.2.2.2])
  · simp at h

theorem combo_bounds {l : List P3} {g : P3 → K} {w : List K} (hl : w.length = l.length)
    (hw : ∀ b ∈ w, 0 ≤ b) (hg : ∀ o ∈ l, 0 ≤ g o ∧ g o ≤ 1) :
    0 ≤ combo w (l.map g) ∧ combo w (l.map g) ≤ w.sum ∧
      ((∀ b ∈ w, 0 < b) → ((∃ o ∈ l, 0 < g o) → 0 < combo w (l.map g)) ∧
        ((∃ o ∈ l, g o < 1) → combo w (l.map g) < w.sum)) := by
  induction l generalizing w with
  | nil =>
    have : w = [] := List.length_eq_zero_iff.1 hl
    subst this
    simp [combo]
  | cons o l ih =>
    match w, hl with
    | b :: w, hl =>
      have hb := hw b List.mem_cons_self
      obtain ⟨g0, g1⟩ := hg o List.mem_cons_self
      obtain ⟨i1, i2, i3⟩ := ih (w := w) (by simpa using hl) (fun c hc => hw c (List.mem_cons_of_mem _ hc))
        fun q hq => hg q (List.mem_cons_of_mem _ hq)
      have e : combo (b :: w) ((o :: l).map g) = b * g o + combo w (l.map g) := by simp [combo]
      have e2 : (b :: w).sum = b + w.sum := by simp
      rw [e, e2]
      have p1 : 0 ≤ b * g o := mul_nonneg hb g0
      have p2 : b * g o ≤ b := by nlinarith
      refine ⟨by linarith, by linarith, ?_⟩
      intro hpos
      have hb' := hpos b List.mem_cons_self
      obtain ⟨i4, i5⟩ := i3 fun c hc => hpos c (List.mem_cons_of_mem _ hc)
      constructor
      · rintro ⟨q, hq, hgq⟩
        rcases List.mem_cons.1 hq with rfl | hq
        · have := mul_pos hb' hgq; linarith
        · have := i4 ⟨q, hq, hgq⟩; linarith
      · rintro ⟨q, hq, hgq⟩
        rcases List.mem_cons.1 hq with rfl | hq
        · have : b * g q < b := by nlinarith
          linarith
        · have := i5 ⟨q, hq, hgq⟩; linarith

theorem boxTpl_spread {d : Nat} {kind : BoxKind} {T : BoxTpl} (h : boxTpl d kind = some T) :
    ∀ sub ∈ T.subs, ∀ a < d, (∃ o ∈ sub, 0 < o.get a) ∧ (∃ o ∈ sub, o.get a < 2) ∧
      ∀ o ∈ sub, o.get a ≤ 2 := by
  unfold boxTpl at h
  split at h
  all_goals first
    | (obtain rfl := Option.some.inj h; decide +kernel)
    | simp at h

/-- Points of subelements lie in the cell, interior points in its interior. -/
theorem range_ref {d : Nat} {kind : BoxKind} {T : BoxTpl} (h : boxTpl d kind = some T) {s : Nat}
    {sub : List P3} (hs : T.subs[s]? = some sub) {w : List K} (hl : w.length = sub.length) (hw : Weights w)
    {a : Nat} (ha : a < d) :
    0 ≤ combo w (sub.map (offCoord a)) ∧ combo w (sub.map (offCoord a)) ≤ 1 ∧
      ((∀ b ∈ w, 0 < b) → 0 < combo w (sub.map (offCoord a)) ∧ combo w (sub.map (offCoord a)) < 1) := by
  obtain ⟨⟨o1, m1, k1⟩, ⟨o2, m2, k2⟩, k3⟩ := boxTpl_spread h sub (List.mem_of_getElem? hs) a ha
  have hc : ∀ o ∈ sub, 0 ≤ offCoord (K := K) a o ∧ offCoord (K := K) a o ≤ 1 := by
    intro o ho
    have h2 : ((o.get a : Nat) : K) ≤ (2 : Nat) := Nat.cast_le.2 (k3 o ho)
    have h0 : (0 : K) ≤ (o.get a : Nat) := Nat.cast_nonneg _
    push_cast at h2
    unfold offCoord
    constructor <;> linarith
  obtain ⟨i1, i2, i3⟩ := combo_bounds (g := offCoord a) hl hw.1 hc
  rw [hw.2] at i2 i3
  refine ⟨i1, i2, fun hpos => ?_⟩
  obtain ⟨i4, i5⟩ := i3 hpos
  refine ⟨i4 ⟨o1, m1, ?_⟩, i5 ⟨o2, m2, ?_⟩⟩
  · have : (0 : K) < (o1.get a : Nat) := Nat.cast_pos.2 k1
    unfold offCoord
    linarith
  · have h2 : ((o2.get a : Nat) : K) < (2 : Nat) := Nat.cast_lt.2 k2
    push_cast at h2
    unfold offCoord
    linarith

/-! ## The cells of the box -/

theorem combo_affine {l : List P3} {g : P3 → K} {w : List K} (hl : w.length = l.length) (lo hh : K) :
    combo w (l.map fun o => lo + g o * hh) = lo * w.sum + hh * combo w (l.map g) := by
  induction l generalizing w with
  | nil =>
    have : w = [] := List.length_eq_zero_iff.1 hl
    subst this
    simp [combo]
  | cons o l ih =>
    match w, hl with
    | b :: w, hl =>
      have e := ih (w := w) (by simpa using hl)
      simp only [combo, List.map_cons, List.zipWith_cons_cons, List.sum_cons] at e ⊢
      rw [e]
      ring

/-- Coordinates of the vertices of a cell. -/
theorem boxCoord_at2 (ax : List K) (c o : P3) (a : Nat) (ho : o.get a ≤ 2) :
    boxCoord ax ((c.at2 o).get a) =
      ax.getD (c.get a) 0 + offCoord a o * (ax.getD (c.get a + 1) 0 - ax.getD (c.get a) 0) := by
  rw [P3.get_at2]
  unfold offCoord boxCoord
  generalize c.get a = i
  have : o.get a = 0 ∨ o.get a = 1 ∨ o.get a = 2 := by omega
  rcases this with h | h | h <;> rw [h]
  · have h1 : (2 * i + 0) % 2 = 0 := by omega
    have h2 : (2 * i + 0) / 2 = i := by omega
    rw [if_pos h1, h2]; simp
  · have h1 : ¬ (2 * i + 1) % 2 = 0 := by omega
    have h2 : (2 * i + 1) / 2 = i := by omega
    rw [if_neg h1, h2]; push_cast; ring
  · have h1 : (2 * i + 2) % 2 = 0 := by omega
    have h2 : (2 * i + 2) / 2 = i + 1 := by omega
    rw [if_pos h1, h2]; push_cast; ring

theorem boxVertices_coord {axes : List (List K)} {kind : BoxKind} {p : P3} {a : Nat} {ax : List K}
    (hax : axes[a]? = some ax)
    (hp : VertexAt (boxShape (axes.map List.length)) (boxCellShape (axes.map List.length)) kind p) :
    (((boxVertices axes kind)[boxVertexNr (boxShape (axes.map List.length))
      (boxCellShape (axes.map List.length)) p]?).getD []).getD a 0 = boxCoord ax (p.get a) := by
  unfold boxVertices
  simp only
  rw [List.getElem?_map, boxPositions_getElem? hp]
  simp [List.getElem?_map, List.getElem?_zipIdx, hax]

/-- The combination of the vertices of an element, along axis `a`. -/
theorem combo_element {axes : List (List K)} {kind : BoxKind} {T : BoxTpl} (hok : TplOK T kind)
    (hdim : BoxDims T.dim (boxShape (axes.map List.length)) (boxCellShape (axes.map List.length)))
    {c : P3} (hc : (boxCellShape (axes.map List.length)).InShape c) {sub : List P3} (hs : sub ∈ T.subs)
    {w : List K} (hl : w.length = sub.length) (hw : w.sum = 1) {a : Nat} {ax : List K}
    (hax : axes[a]? = some ax) :
    combo w ((sub.map fun o => boxVertexNr (boxShape (axes.map List.length))
        (boxCellShape (axes.map List.length)) (c.at2 o)).map fun v =>
          (((boxVertices axes kind)[v]?).getD []).getD a 0) =
      ax.getD (c.get a) 0 + (ax.getD (c.get a + 1) 0 - ax.getD (c.get a) 0) *
        combo w (sub.map (offCoord a)) := by
  rw [List.map_map]
  have e : (sub.map ((fun v => (((boxVertices axes kind)[v]?).getD []).getD a 0) ∘
      fun o => boxVertexNr (boxShape (axes.map List.length))
        (boxCellShape (axes.map List.length)) (c.at2 o))) =
      sub.map fun o => ax.getD (c.get a) 0 +
        offCoord a o * (ax.getD (c.get a + 1) 0 - ax.getD (c.get a) 0) := by
    refine List.map_congr_left ?_
    intro o ho
    simp only [Function.comp]
    rw [boxVertices_coord hax (vertexAt_at2 hok hdim hc hs ho), boxCoord_at2]
    obtain ⟨h1, h2, h3, _⟩ := hok.1 sub hs o ho
    match a with
    | 0 => exact h1
    | 1 => exact h2
    | _ + 2 => exact h3
  rw [e, combo_affine hl, hw, mul_one]

end Meshmode
