import Verif.Refine.Apart

/-!
# Halves of squares and cubes do not overlap

The conditions `C130_refine` and `C130_refine_history` put on the children of the reference element, proved for
squares and cubes of any dimension. No new code is modelled here: the children are those that
meshmode/mesh/refinement/no_adjacency.py:84-259 takes from modepy.
-/
namespace Meshmode
variable {K : Type} [Field K] {d : Nat}

/-! ## Quadrilaterals and hexahedra -/

/-- The maps of the children of a square or cube: halves of it, one at each corner.
(Specification or proof vocabulary, no code.) -/
def halfMaps (K : Type) [Field K] (d : Nat) (uv : List (List Int)) : List (Matrix (Fin d) (Fin d) K × (Fin d → K)) :=
  uv.map fun c => ((1 / 2 : K) • (1 : Matrix (Fin d) (Fin d) K), (1 / 2 : K) • unitPoint K d c)

theorem refPoint_coord (uv : List (List Int)) (i : Fin d) : ∀ w : List K,
    refPoint uv w i = (List.zipWith (fun b x => b * unitPoint K d x i) w uv).sum := by
  induction uv with
  | nil => intro w; simp [refPoint]
  | cons x uv ih =>
    intro w
    match w with
    | [] => simp [refPoint]
    | b :: w =>
      have := ih w
      simp only [refPoint] at this ⊢
      simp [this]

theorem refPoint_halved (uv : List (List Int)) : ∀ (w : List K) (j : Nat) c, w.length = uv.length → uv[j]? = some c →
    (refPoint uv ((w.map (· / 2)).modify j (· + 1 / 2)) : Fin d → K) =
      (1 / 2 : K) • refPoint uv w + (1 / 2 : K) • unitPoint K d c := by
  have hmap : ∀ (uv : List (List Int)) (w : List K), (refPoint uv (w.map (· / 2)) : Fin d → K) =
      (1 / 2 : K) • refPoint uv w := by
    intro uv
    induction uv with
    | nil => intro w; simp [refPoint]
    | cons x uv ih =>
      intro w
      match w with
      | [] => simp [refPoint]
      | b :: w =>
        have := ih w
        simp only [refPoint] at this ⊢
        simp only [List.map_cons, List.zipWith_cons_cons, List.sum_cons, this, smul_add, smul_smul]
        congr 2
        ring
  induction uv with
  | nil => intro w j c _ hj; simp at hj
  | cons x uv ih =>
    intro w j c hl hj
    match w, hl with
    | b :: w, hl =>
      match j with
      | 0 =>
        obtain rfl := Option.some.inj hj
        have := hmap uv w
        simp only [refPoint] at this ⊢
        simp only [List.map_cons, List.modify_zero_cons, List.zipWith_cons_cons, List.sum_cons, this, smul_add, smul_smul,
          add_smul]
        rw [show b / 2 = 1 / 2 * b by ring]
        abel
      | j + 1 =>
        have := ih w j c (by simpa using hl) hj
        simp only [refPoint] at this ⊢
        simp only [List.map_cons, List.modify_succ_cons, List.zipWith_cons_cons, List.sum_cons, this, smul_add, smul_smul]
        rw [show b / 2 = 1 / 2 * b by ring]
        abel

variable [LinearOrder K] [IsStrictOrderedRing K]

theorem weighted_nonneg {α : Type} (f : α → K) : ∀ (w : List K) (l : List α), w.length = l.length → (∀ b ∈ w, 0 ≤ b) →
    (∀ x ∈ l, -1 ≤ f x) → -w.sum ≤ (List.zipWith (fun b x => b * f x) w l).sum ∧
      ((∀ b ∈ w, 0 < b) → (∃ x ∈ l, -1 < f x) → -w.sum < (List.zipWith (fun b x => b * f x) w l).sum) := by
  intro w
  induction w with
  | nil =>
    intro l hl _ _
    match l, hl with
    | [], _ => simp
  | cons b w ih =>
    intro l hl h0 hf
    match l, hl with
    | x :: l, hl =>
      obtain ⟨i1, i2⟩ := ih l (by simpa using hl) (fun b hb => h0 b (List.mem_cons_of_mem _ hb))
        fun x hx => hf x (List.mem_cons_of_mem _ hx)
      have hb := h0 b List.mem_cons_self
      have hx := hf x List.mem_cons_self
      have hm := mul_le_mul_of_nonneg_left hx hb
      simp only [List.zipWith_cons_cons, List.sum_cons]
      refine ⟨by linarith, fun hp hex => ?_⟩
      obtain ⟨y, hy, hlt⟩ := hex
      rcases List.mem_cons.1 hy with rfl | hy
      · have := mul_lt_mul_of_pos_left hlt (hp b List.mem_cons_self)
        linarith
      · have := i2 (fun b hb => hp b (List.mem_cons_of_mem _ hb)) ⟨y, hy, hlt⟩
        linarith

/-- C130: the halves of a square or cube, in any dimension, do not overlap, as `C130_refine` asks. -/
theorem C130_tensor_children {uv : List (List Int)} (hnd : uv.Nodup) (hlen : ∀ x ∈ uv, x.length = d)
    (hpm : ∀ x ∈ uv, ∀ a ∈ x, a = 1 ∨ a = -1) : RefApart (d := d) uv (halfMaps K d uv) := by
  have hcoord : ∀ x ∈ uv, ∀ i : Fin d, unitPoint K d x i = 1 ∨ unitPoint K d x i = -1 := by
    intro x hx i
    have hi : (i : Nat) < x.length := by rw [hlen x hx]; exact i.2
    have := hpm x hx _ (List.getElem_mem hi)
    unfold unitPoint
    rw [List.getD_eq_getElem?_getD, List.getElem?_eq_getElem hi, Option.getD_some]
    rcases this with h | h <;> simp [h]
  have hge : ∀ x ∈ uv, ∀ i : Fin d, -1 ≤ unitPoint K d x i ∧ -1 ≤ -unitPoint K d x i := by
    intro x hx i
    rcases hcoord x hx i with h | h <;> rw [h] <;> constructor <;> linarith [zero_lt_one (α := K)]
  have hone : ∀ (w : List K) i, IsWeights uv.length w → -1 ≤ refPoint uv w i ∧ refPoint uv w i ≤ (1 : K) ∧
      ((∀ b ∈ w, 0 < b) → ((∃ x ∈ uv, unitPoint K d x i = 1) → -1 < refPoint uv w i) ∧
        ((∃ x ∈ uv, unitPoint K d x i = -1) → refPoint uv w i < (1 : K))) := by
    rintro w i ⟨w1, w2, w3⟩
    obtain ⟨p1, p2⟩ := weighted_nonneg (fun x => unitPoint K d x i) w uv w1 w2 fun x hx => (hge x hx i).1
    obtain ⟨n1, n2⟩ := weighted_nonneg (fun x => -unitPoint K d x i) w uv w1 w2 fun x hx => (hge x hx i).2
    have hneg : (List.zipWith (fun b x => b * -unitPoint K d x i) w uv).sum = -refPoint uv w i := by
      rw [refPoint_coord]
      have hz : ∀ (w : List K) (l : List (List Int)), (List.zipWith (fun b x => b * -unitPoint K d x i) w l).sum =
          -(List.zipWith (fun b x => b * unitPoint K d x i) w l).sum := by
        intro w
        induction w with
        | nil => simp
        | cons b w ih =>
          intro l
          cases l with
          | nil => simp
          | cons x l => simp only [List.zipWith_cons_cons, List.sum_cons, ih l]; ring
      exact hz w uv
    rw [hneg, w3] at n1 n2
    rw [← refPoint_coord, w3] at p1 p2
    refine ⟨p1, by linarith, fun hp => ⟨fun ⟨x, hx, h⟩ => p2 hp ⟨x, hx, ?_⟩, fun ⟨x, hx, h⟩ => ?_⟩⟩
    · rw [h]; linarith [zero_lt_one (α := K)]
    · have := n2 hp ⟨x, hx, by rw [h]; linarith [zero_lt_one (α := K)]⟩
      linarith
  have happ : ∀ (c : List Int) (w : List K) (i : Fin d),
      (((1 / 2 : K) • (1 : Matrix (Fin d) (Fin d) K)).mulVec (refPoint uv w) + (1 / 2 : K) • unitPoint K d c) i =
        1 / 2 * refPoint uv w i + 1 / 2 * unitPoint K d c i := by
    intro c w i
    rw [Matrix.smul_mulVec, Matrix.one_mulVec]
    simp
  constructor
  · intro m hm w hw
    obtain ⟨c, hc, rfl⟩ := List.mem_map.1 hm
    obtain ⟨j, hj⟩ := List.mem_iff_getElem?.1 hc
    have hjl : j < w.length := by rw [hw.1]; exact (List.getElem?_eq_some_iff.1 hj).1
    have hmem : ∀ b ∈ (w.map (· / 2)).modify j (· + 1 / 2), ∃ a ∈ w, b = a / 2 ∨ b = a / 2 + 1 / 2 := by
      intro b hb
      obtain ⟨k, hk⟩ := List.mem_iff_getElem?.1 hb
      rw [List.getElem?_modify, List.getElem?_map] at hk
      cases hwk : w[k]? with
      | none => simp [hwk] at hk
      | some a =>
        refine ⟨a, List.mem_of_getElem? hwk, ?_⟩
        simp only [hwk, Option.map_some] at hk
        split at hk
        · exact .inr (by simpa using hk.symm)
        · exact .inl (by simpa using hk.symm)
    refine ⟨(w.map (· / 2)).modify j (· + 1 / 2), ⟨by simp [hw.1], fun b hb => ?_, ?_⟩, ?_, fun hp b hb => ?_⟩
    · obtain ⟨a, ha, rfl | rfl⟩ := hmem b hb <;> have := hw.2.1 a ha <;> positivity
    · have hsum : ∀ (w : List K) (j : Nat), j < w.length → ((w.map (· / 2)).modify j (· + 1 / 2)).sum = w.sum / 2 + 1 / 2 := by
        have hm2 : ∀ w : List K, (w.map (· / 2)).sum = w.sum / 2 := by
          intro w
          induction w with
          | nil => simp
          | cons b w ih => simp only [List.map_cons, List.sum_cons, ih]; ring
        intro w
        induction w with
        | nil => intro j hj; simp at hj
        | cons b w ih =>
          intro j hj
          match j with
          | 0 => simp only [List.map_cons, List.modify_zero_cons, List.sum_cons, hm2]; ring
          | j + 1 =>
            simp only [List.map_cons, List.modify_succ_cons, List.sum_cons, ih j (by simpa using hj)]
            ring
      rw [hsum w j hjl, hw.2.2]
      norm_num
    · rw [refPoint_halved uv w j c hw.1 hj]
      funext i
      rw [happ]
      simp
    · obtain ⟨a, ha, rfl | rfl⟩ := hmem b hb <;> have := hp a ha <;> positivity
  · intro j j' m m' w w' hm hm' hw hw' hp heq
    unfold halfMaps at hm hm'
    rw [List.getElem?_map, Option.map_eq_some_iff] at hm hm'
    obtain ⟨c, hc, rfl⟩ := hm
    obtain ⟨c', hc', rfl⟩ := hm'
    have hcm := List.mem_of_getElem? hc
    have hcm' := List.mem_of_getElem? hc'
    refine (List.getElem?_inj (List.getElem?_eq_some_iff.1 hc).1 hnd).1 ?_
    rw [hc, hc']
    congr 1
    refine List.ext_getElem (by rw [hlen c hcm, hlen c' hcm']) fun i hi hi' => ?_
    have hid : i < d := by rw [← hlen c hcm]; exact hi
    have he := congrFun heq ⟨i, hid⟩
    simp only at he
    rw [happ, happ] at he
    obtain ⟨p1, p2, p3⟩ := hone w ⟨i, hid⟩ hw
    obtain ⟨q1, q2, _⟩ := hone w' ⟨i, hid⟩ hw'
    have hu : ∀ (x : List Int) (hx : i < x.length), unitPoint K d x ⟨i, hid⟩ = ((x[i] : Int) : K) := by
      intro x hx
      unfold unitPoint
      simp [List.getD_eq_getElem?_getD, List.getElem?_eq_getElem hx]
    rcases hpm c hcm _ (List.getElem_mem hi) with h | h <;> rcases hpm c' hcm' _ (List.getElem_mem hi') with h' | h'
    · rw [h, h']
    · exfalso
      have e1 : unitPoint K d c ⟨i, hid⟩ = 1 := by rw [hu c hi, h]; simp
      have e2 : unitPoint K d c' ⟨i, hid⟩ = -1 := by rw [hu c' hi', h']; simp
      have := (p3 hp).1 ⟨c, hcm, e1⟩
      rw [e1, e2] at he
      linarith
    · exfalso
      have e1 : unitPoint K d c ⟨i, hid⟩ = -1 := by rw [hu c hi, h]; simp
      have e2 : unitPoint K d c' ⟨i, hid⟩ = 1 := by rw [hu c' hi', h']; simp
      have := (p3 hp).2 ⟨c, hcm, e1⟩
      rw [e1, e2] at he
      linarith
    · rw [h, h']

omit [LinearOrder K] [IsStrictOrderedRing K] in
/-- C130: the maps of the halves are those of the children of the code, if the child at a corner has, at each of
its corners, the node whose tuple is the sum of the tuples of the two corners. -/
theorem C130_tensor_maps [CharZero K] {ref1 ref2 children : List (List Nat)} (hlen : children.length = ref1.length)
    (hd : ∀ c ∈ ref1, c.length = d)
    (h : ∀ (j q n : Nat) (o c child v : List Nat), ref1[j]? = some o → ref1[q]? = some c → children[j]? = some child →
      child[q]? = some n → ref2[n]? = some v → v = List.zipWith (· + ·) o c) :
    RefChildren (d := d) ref1 ref2 children (halfMaps K d (ref1.map cornerInts)) ∧
      ∀ m ∈ halfMaps K d (ref1.map cornerInts), m.1.det ≠ 0 := by
  refine ⟨⟨by simp [halfMaps, hlen], fun j child m hj hm q n c v hn hc hv => ?_⟩, fun m hm => ?_⟩
  · unfold halfMaps at hm
    rw [List.getElem?_map, List.getElem?_map, Option.map_map, Option.map_eq_some_iff] at hm
    obtain ⟨o, ho, rfl⟩ := hm
    obtain rfl := h j q n o c child v ho hc hj hn hv
    have ho' : o.length = d := hd o (List.mem_of_getElem? ho)
    have hc' : c.length = d := hd c (List.mem_of_getElem? hc)
    funext i
    have hio : (i : Nat) < o.length := ho' ▸ i.2
    have hic : (i : Nat) < c.length := hc' ▸ i.2
    simp only [Function.comp_apply]
    rw [Matrix.smul_mulVec, Matrix.one_mulVec]
    simp only [tuplePoint, unitPoint, cornerInts, Pi.add_apply, Pi.smul_apply, smul_eq_mul, List.getD_eq_getElem?_getD,
      List.getElem?_map, List.getElem?_zipWith, List.getElem?_eq_getElem hio, List.getElem?_eq_getElem hic,
      Option.map_some, Option.getD_some]
    push_cast
    ring
  · obtain ⟨c, _, rfl⟩ := List.mem_map.1 hm
    simp

/-- The four children of a square. (Example, no code.) -/
def squareChildren : List (List Nat) :=
  [[0, 1, 3, 4], [1, 2, 4, 5], [3, 4, 6, 7], [4, 5, 7, 8]]

/-- The hypotheses of the theorems on halves hold for the children of a square and for those of a cube. -/
example : RefApart (K := ℚ) (d := 2) [[-1, -1], [1, -1], [-1, 1], [1, 1]] (halfMaps ℚ 2 [[-1, -1], [1, -1], [-1, 1], [1, 1]]) ∧
    RefApart (K := ℚ) (d := 3) ((cubeNodes 1).map cornerInts) (halfMaps ℚ 3 ((cubeNodes 1).map cornerInts)) :=
  ⟨C130_tensor_children (by decide) (by decide) (by decide), C130_tensor_children (by decide) (by decide) (by decide)⟩

/-- An interval is a cube of dimension one. -/
example : RefApart (K := ℚ) (d := 1) (unitVerts (.simplex 1)) (halfMaps ℚ 1 (unitVerts (.simplex 1))) :=
  C130_tensor_children (by decide) (by decide) (by decide)

/-- A way to check the last condition of `C130_tensor_maps` for given tables. -/
theorem sums_of_all {ref1 ref2 children : List (List Nat)}
    (h : ∀ x ∈ ref1.zip children, ∀ y ∈ ref1.zip x.2, ref2.getD y.2 (List.zipWith (· + ·) x.1 y.1) =
      List.zipWith (· + ·) x.1 y.1) :
    ∀ (j q n : Nat) (o c child v : List Nat), ref1[j]? = some o → ref1[q]? = some c → children[j]? = some child →
      child[q]? = some n → ref2[n]? = some v → v = List.zipWith (· + ·) o c := by
  intro j q n o c child v ho hc hj hn hv
  have h1 : (o, child) ∈ ref1.zip children :=
    List.mem_of_getElem? (i := j) (List.getElem?_zip_eq_some.2 ⟨ho, hj⟩)
  have h2 : (c, n) ∈ ref1.zip child :=
    List.mem_of_getElem? (i := q) (List.getElem?_zip_eq_some.2 ⟨hc, hn⟩)
  have := h _ h1 _ h2
  simpa [List.getD_eq_getElem?_getD, hv] using this

example : RefChildren (K := ℚ) (d := 2) [[0, 0], [1, 0], [0, 1], [1, 1]]
    [[0, 0], [1, 0], [2, 0], [0, 1], [1, 1], [2, 1], [0, 2], [1, 2], [2, 2]] squareChildren
    (halfMaps ℚ 2 ([[0, 0], [1, 0], [0, 1], [1, 1]].map cornerInts)) ∧
    RefChildren (K := ℚ) (d := 3) (cubeNodes 1) (cubeNodes 2) cubeChildren (halfMaps ℚ 3 ((cubeNodes 1).map cornerInts)) :=
  ⟨(C130_tensor_maps (by decide) (by decide) (sums_of_all (by decide))).1,
    (C130_tensor_maps (by decide) (by decide) (sums_of_all (by decide +kernel))).1⟩

end Meshmode
