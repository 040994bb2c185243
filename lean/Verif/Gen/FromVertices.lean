import Verif.Connection.RefineConn
import Mathlib.Tactic.Ring

/-!
# Element groups from vertices (C71)

`make_group_from_vertices`, meshmode/mesh/generation.py:489-575.  Arithmetic is exact; vertices, unit nodes
and nodes are lists of points.  The unit nodes are given (the default ones come from modepy), `la.solve` and
`mp.node_tuples_for_space` are parameters, and the final `make_group` is not part of it.  Vertex numbers are
not negative, and there is no broadcasting: unit nodes of another dimension raise an exception.
-/
namespace Meshmode

open Finset

/-! ## Model -/

/-- Classes of element groups, meshmode/mesh/generation.py:500-504, 528, 567. -/
inductive MgfvCls where
  | simplex
  | tensor
  | other
  deriving DecidableEq, Repr

/-- Exceptions. Code: meshmode/mesh/generation.py:497, 505-509, 520-522, 531-533, 556, 568. -/
inductive MgfvErr where
  /-- `IndexError`: vertex numbers out of range, simplices without vertices -/
  | index
  /-- `ValueError`: simplices of order below one -/
  | order
  /-- `ValueError`: number of vertices not a power of two -/
  | power
  /-- `ValueError`: another class -/
  | cls
  /-- `ValueError` of numpy: shapes -/
  | shape
  /-- `LinAlgError` -/
  | singular
  deriving DecidableEq, Repr

section
variable {K : Type} [Field K]

/-- One node of a simplex, meshmode/mesh/generation.py:509-526. -/
def simplexPoint (amb : Nat) (ev : List (List K)) (x : List K) : List K :=
  (List.range amb).map fun r =>
    ((ev.tail.zip x).map fun q => (1 / 2 + 1 / 2 * q.2) * (q.1.getD r 0 - (ev.headD []).getD r 0)).sum +
      (ev.headD []).getD r 0

/-- `np.prod(vertex_ref**func_tuple)`, meshmode/mesh/generation.py:550, 560-562. -/
def tupleMono (y : List K) (f : List Nat) : K := (List.zipWith (· ^ ·) y f).prod

/-- The matrix `vdm`, meshmode/mesh/generation.py:546-550. -/
def vertexVdm (tuples : List (List Nat)) : Mat K :=
  tuples.map fun t => tuples.map fun f => tupleMono (t.map fun n : Nat => (n : K)) f

/-- One node of a tensor product element, given the coefficients by coordinate,
meshmode/mesh/generation.py:540, 558-565. -/
def tensorPoint (tuples : List (List Nat)) (coeffs : List (List K)) (x : List K) : List K :=
  coeffs.map fun c => rowDot (tuples.map fun f => tupleMono (x.map fun v => 1 / 2 + 1 / 2 * v) f) c

/-- The nodes of one tensor product element, meshmode/mesh/generation.py:553-565. -/
def tensorElement (solve : Mat K → List K → Option (List K)) (tuples : List (List Nat)) (amb : Nat)
    (unit : List (List K)) (ev : List (List K)) : Except MgfvErr (List (List K)) :=
  match (List.range amb).mapM fun r => solve (vertexVdm tuples) (ev.map (·.getD r 0)) with
  | none => .error .singular
  | some coeffs => .ok (unit.map (tensorPoint tuples coeffs))

/-- All tensor product elements. Code: meshmode/mesh/generation.py:553-565. -/
def tensorElements (solve : Mat K → List K → Option (List K)) (tuples : List (List Nat)) (amb : Nat)
    (unit : List (List K)) : List (List (List K)) → Except MgfvErr (List (List (List K)))
  | [] => .ok []
  | ev :: evs =>
    match tensorElement solve tuples amb unit ev, tensorElements solve tuples amb unit evs with
    | .ok n, .ok ns => .ok (n :: ns)
    | .error e, _ => .error e
    | _, .error e => .error e

/-- The nodes that `make_group_from_vertices` computes, meshmode/mesh/generation.py:489-571: for each
element its nodes.  `amb`: ambient dimension; `nv`: `vertex_indices.shape[1]`; `tuples dim`:
`mp.node_tuples_for_space` for the vertices of the hypercube. -/
def groupFromVertices (solve : Mat K → List K → Option (List K)) (tuples : Nat → List (List Nat))
    (cls : MgfvCls) (amb nv : Nat) (vertices : List (List K)) (vi : List (List Nat)) (order : Int)
    (unit : List (List K)) : Except MgfvErr (List (List (List K))) :=
  match vi.mapM fun row => row.mapM fun v => vertices[v]? with
  | none => .error .index
  | some evs =>
    match cls with
    | .simplex =>
      if order < 1 then .error .order
      else if nv = 0 then .error .index
      else if unit.all fun x => x.length + 1 == nv then
        .ok (evs.map fun ev => unit.map (simplexPoint amb ev))
      else .error .shape
    | .tensor =>
      if nv ≠ 2 ^ nv.log2 then .error .power
      else if unit.all fun x => x.length == nv.log2 then
        tensorElements solve (tuples nv.log2) amb unit evs
      else .error .shape
    | .other => .error .cls

/-! ## Specification -/

/-- The points are the vertices of an element: those with the numbers in `row`.
(Specification or proof vocabulary, no code.) -/
def ElementVertices (vertices : List (List K)) (row : List Nat) (ev : List (List K)) : Prop :=
  ev.length = row.length ∧ ∀ (i : Nat) v, row[i]? = some v → vertices[v]? = ev[i]?

/-- The affine map taking the corners of the reference simplex, `(-1, ..., -1)` first, to the points.
(Specification or proof vocabulary, no code.) -/
structure SimplexMap (ev : List (List K)) (T : List K → List K) : Prop where
  affine : ∀ (s : K) (x y : List K), x.length + 1 = ev.length → y.length + 1 = ev.length →
    T (linePoint s x y) = linePoint s (T x) (T y)
  corner : ∀ p, ev[0]? = some p → T (List.replicate (ev.length - 1) (-1)) = p
  edge : ∀ (j : Nat) p, ev[j + 1]? = some p → T ((List.replicate (ev.length - 1) (-1)).set j 1) = p

/-- The map, affine in each variable, taking the corners of the hypercube to the points; `tuples` are the
corners of the unit cube in the order of the points. (Specification or proof vocabulary, no code.) -/
structure TensorMap (dim : Nat) (tuples : List (List Nat)) (ev : List (List K)) (T : List K → List K) :
    Prop where
  affine : ∀ (s a b : K) (x : List K) (j : Nat), x.length = dim → j < dim →
    T (x.set j ((1 - s) * a + s * b)) = linePoint s (T (x.set j a)) (T (x.set j b))
  corner : ∀ (i : Nat) t p, tuples[i]? = some t → ev[i]? = some p →
    T (t.map fun n : Nat => 2 * (n : K) - 1) = p

/-- All tuples of zeros and ones. (Specification or proof vocabulary, no code.) -/
def cubeTuples : Nat → List (List Nat)
  | 0 => [[]]
  | d + 1 => (cubeTuples d).map (0 :: ·) ++ (cubeTuples d).map (1 :: ·)

/-- `la.solve` returns solutions. (Specification or proof vocabulary, no code.) -/
def SolveSound (solve : Mat K → List K → Option (List K)) : Prop :=
  ∀ M b x, solve M b = some x → x.length = M.length ∧ matVec M x = b

/-! ## Lemmas -/

/-- The weight of a corner at a point of the unit cube. (Specification or proof vocabulary, no code.) -/
def cornerWeight (t : List Nat) (y : List K) : K :=
  (List.zipWith (fun n v => if n = 0 then 1 - v else v) t y).prod

theorem mem_cubeTuples {d : Nat} {t : List Nat} :
    t ∈ cubeTuples d ↔ t.length = d ∧ ∀ n ∈ t, n = 0 ∨ n = 1 := by
  induction d generalizing t with
  | zero =>
    simp only [cubeTuples, List.mem_singleton]
    constructor
    · rintro rfl; simp
    · rintro ⟨h, _⟩; exact List.length_eq_zero_iff.1 h
  | succ d ih =>
    simp only [cubeTuples, List.mem_append, List.mem_map]
    constructor
    · rintro (⟨u, hu, rfl⟩ | ⟨u, hu, rfl⟩)
      · obtain ⟨h1, h2⟩ := ih.1 hu
        refine ⟨by simp [h1], ?_⟩
        intro n hn
        rcases List.mem_cons.1 hn with rfl | hn
        · exact .inl rfl
        · exact h2 n hn
      · obtain ⟨h1, h2⟩ := ih.1 hu
        refine ⟨by simp [h1], ?_⟩
        intro n hn
        rcases List.mem_cons.1 hn with rfl | hn
        · exact .inr rfl
        · exact h2 n hn
    · rintro ⟨h1, h2⟩
      cases t with
      | nil => simp at h1
      | cons n u =>
        have hu : u ∈ cubeTuples d := ih.2 ⟨by simpa using h1, fun m hm => h2 m (by simp [hm])⟩
        rcases h2 n (by simp) with rfl | rfl
        · exact .inl ⟨u, hu, rfl⟩
        · exact .inr ⟨u, hu, rfl⟩

/-- Interpolation at the corners is exact for the monomials. -/
theorem cube_interp {d : Nat} {y : List K} {f : List Nat} (hy : y.length = d) (hf : f ∈ cubeTuples d) :
    ((cubeTuples d).map fun t => cornerWeight t y * tupleMono (t.map fun n : Nat => (n : K)) f).sum =
      tupleMono y f := by
  induction d generalizing y f with
  | zero =>
    have : y = [] := List.length_eq_zero_iff.1 hy
    subst this
    simp [cubeTuples, cornerWeight, tupleMono]
  | succ d ih =>
    cases y with
    | nil => simp at hy
    | cons v y =>
      obtain ⟨h1, h2⟩ := mem_cubeTuples.1 hf
      cases f with
      | nil => simp at h1
      | cons n f =>
        have hf' : f ∈ cubeTuples d := mem_cubeTuples.2 ⟨by simpa using h1, fun m hm => h2 m (by simp [hm])⟩
        have ih' := ih (y := y) (f := f) (by simpa using hy) hf'
        simp only [cubeTuples, List.map_append, List.map_map, List.sum_append, Function.comp_def]
        have e0 : ∀ t : List Nat, cornerWeight (0 :: t) (v :: y) *
            tupleMono ((0 :: t).map fun n : Nat => (n : K)) (n :: f) =
            ((1 - v) * (0 : K) ^ n) * (cornerWeight t y * tupleMono (t.map fun n : Nat => (n : K)) f) := by
          intro t; simp [cornerWeight, tupleMono]; ring
        have e1 : ∀ t : List Nat, cornerWeight (1 :: t) (v :: y) *
            tupleMono ((1 :: t).map fun n : Nat => (n : K)) (n :: f) =
            v * (cornerWeight t y * tupleMono (t.map fun n : Nat => (n : K)) f) := by
          intro t; simp [cornerWeight, tupleMono]; ring
        simp only [e0, e1, List.sum_map_mul_left, ih']
        rcases h2 n (by simp) with rfl | rfl
        · simp [tupleMono]; ring
        · simp [tupleMono]

theorem sum_zipWith_mul_comm {α β : Type} (A : List α) (B : List β) (g : α → β → K) (w : α → K) (c : List K) :
    (A.map fun a => w a * (List.zipWith (fun b x => g a b * x) B c).sum).sum =
      (List.zipWith (fun b x => (A.map fun a => w a * g a b).sum * x) B c).sum := by
  induction A with
  | nil =>
    simp only [List.map_nil, List.sum_nil, zero_mul]
    induction B generalizing c with
    | nil => simp
    | cons b B ih => cases c <;> simp [← ih]
  | cons a A ih =>
    simp only [List.map_cons, List.sum_cons, ih]
    clear ih
    induction B generalizing c with
    | nil => simp
    | cons b B ih =>
      cases c with
      | nil => simp
      | cons x c =>
        simp only [List.zipWith_cons_cons, List.sum_cons]
        rw [← ih c]
        ring

/-- The values of the interpolating function: weights of the corners times the values there. -/
theorem tensor_value {dim : Nat} {tuples : List (List Nat)} (ht : tuples.Perm (cubeTuples dim))
    {c vals : List K} (hc : matVec (vertexVdm tuples) c = vals) {y : List K} (hy : y.length = dim) :
    rowDot (tuples.map fun f => tupleMono y f) c = rowDot (tuples.map fun t => cornerWeight t y) vals := by
  have hv : vals = tuples.map fun t =>
      (List.zipWith (fun f x => tupleMono (t.map fun n : Nat => (n : K)) f * x) tuples c).sum := by
    rw [← hc, matVec, vertexVdm, List.map_map]
    apply List.map_congr_left
    intro t _
    simp only [Function.comp, rowDot, List.zipWith_map_left]
  have h1 : rowDot (tuples.map fun t => cornerWeight t y) vals = (tuples.map fun t => cornerWeight t y *
      (List.zipWith (fun f x => tupleMono (t.map fun n : Nat => (n : K)) f * x) tuples c).sum).sum := by
    rw [hv, rowDot, List.zipWith_map_left, List.zipWith_map_right, List.zipWith_self]
  rw [h1, sum_zipWith_mul_comm tuples tuples
    (fun t f => tupleMono (t.map fun n : Nat => (n : K)) f) (fun t => cornerWeight t y) c]
  have h2 : ∀ f ∈ tuples, (tuples.map fun t =>
      cornerWeight t y * tupleMono (t.map fun n : Nat => (n : K)) f).sum = tupleMono y f := by
    intro f hf
    rw [(ht.map _).sum_eq]
    exact cube_interp hy (ht.mem_iff.1 hf)
  rw [rowDot, List.zipWith_map_left]
  congr 1
  have : ∀ (B : List (List Nat)) (c : List K), (∀ f ∈ B, f ∈ tuples) →
      List.zipWith (fun f x => tupleMono y f * x) B c = List.zipWith (fun b x => (tuples.map fun t =>
        cornerWeight t y * tupleMono (t.map fun n : Nat => (n : K)) b).sum * x) B c := by
    intro B
    induction B with
    | nil => simp
    | cons b B ih =>
      intro c hB
      cases c with
      | nil => simp
      | cons x c =>
        rw [List.zipWith_cons_cons, List.zipWith_cons_cons, h2 b (hB b (by simp)),
          ih c fun f hf => hB f (by simp [hf])]
  exact this tuples c fun f hf => hf

theorem cornerWeight_corner {t u : List Nat} (hl : t.length = u.length) (ht : ∀ n ∈ t, n = 0 ∨ n = 1)
    (hu : ∀ n ∈ u, n = 0 ∨ n = 1) :
    cornerWeight t (u.map fun n : Nat => (n : K)) = if t = u then 1 else 0 := by
  induction t generalizing u with
  | nil =>
    have : u = [] := (List.length_eq_zero_iff.1 hl.symm)
    subst this
    simp [cornerWeight]
  | cons n t ih =>
    cases u with
    | nil => simp at hl
    | cons m u =>
      have ih' := ih (u := u) (by simpa using hl) (fun k hk => ht k (by simp [hk]))
        (fun k hk => hu k (by simp [hk]))
      have e : cornerWeight (n :: t) ((m :: u).map fun n : Nat => (n : K)) =
          (if n = 0 then 1 - (m : K) else (m : K)) * cornerWeight t (u.map fun n : Nat => (n : K)) := by
        simp [cornerWeight]
      rw [e, ih']
      rcases ht n (by simp) with rfl | rfl <;> rcases hu m (by simp) with rfl | rfl <;> simp

theorem cornerWeight_affine {t : List Nat} {y : List K} {j : Nat} (hl : t.length = y.length)
    (hj : j < y.length) (s a b : K) :
    cornerWeight t (y.set j ((1 - s) * a + s * b)) =
      (1 - s) * cornerWeight t (y.set j a) + s * cornerWeight t (y.set j b) := by
  induction t generalizing y j with
  | nil => simp at hl; omega
  | cons n t ih =>
    cases y with
    | nil => simp at hj
    | cons v y =>
      cases j with
      | zero =>
        simp only [List.set_cons_zero, cornerWeight, List.zipWith_cons_cons, List.prod_cons]
        split <;> ring
      | succ j =>
        have ih' := ih (y := y) (j := j) (by simpa using hl) (by simpa using hj)
        simp only [cornerWeight] at ih'
        simp only [List.set_cons_succ, cornerWeight, List.zipWith_cons_cons, List.prod_cons, ih']
        ring

theorem rowDot_add_smul {α : Type} (A : List α) (vals : List K) (s : K) (f g : α → K) :
    rowDot (A.map fun a => (1 - s) * f a + s * g a) vals =
      (1 - s) * rowDot (A.map f) vals + s * rowDot (A.map g) vals := by
  simp only [rowDot]
  induction A generalizing vals with
  | nil => simp
  | cons a A ih =>
    cases vals with
    | nil => simp
    | cons v vals =>
      simp only [List.map_cons, List.zipWith_cons_cons, List.sum_cons, ih vals]
      ring

theorem rowDot_indicator {α : Type} [DecidableEq α] {A : List α} (hA : A.Nodup) {vals : List K} {i : Nat}
    {a : α} {v : K} (ha : A[i]? = some a) (hv : vals[i]? = some v) :
    rowDot (A.map fun b => if b = a then 1 else 0) vals = v := by
  simp only [rowDot]
  induction A generalizing vals i with
  | nil => simp at ha
  | cons b A ih =>
    cases vals with
    | nil => simp at hv
    | cons w vals =>
      simp only [List.map_cons, List.zipWith_cons_cons, List.sum_cons]
      cases i with
      | zero =>
        simp only [List.getElem?_cons_zero, Option.some.injEq] at ha hv
        subst ha; subst hv
        have hz : ∀ (B : List α) (vs : List K), b ∉ B →
            (List.zipWith (fun x y => x * y) (B.map fun c => if c = b then (1 : K) else 0) vs).sum = 0 := by
          intro B
          induction B with
          | nil => simp
          | cons c B ihB =>
            intro vs hb
            simp only [List.mem_cons, not_or] at hb
            cases vs with
            | nil => simp
            | cons x vs => simp [Ne.symm hb.1, ihB vs hb.2]
        rw [if_pos rfl, hz A vals (List.nodup_cons.1 hA).1]
        ring
      | succ i =>
        simp only [List.getElem?_cons_succ] at ha hv
        have hne : b ≠ a := by
          rintro rfl
          exact (List.nodup_cons.1 hA).1 (List.mem_of_getElem? ha)
        rw [if_neg hne, ih (List.nodup_cons.1 hA).2 ha hv]
        ring

theorem nodup_cubeTuples (d : Nat) : (cubeTuples d).Nodup := by
  induction d with
  | zero => simp [cubeTuples]
  | succ d ih =>
    rw [cubeTuples, List.nodup_append]
    refine ⟨ih.map fun a b h => by simpa using h, ih.map fun a b h => by simpa using h, ?_⟩
    intro x hx y hy
    obtain ⟨u, _, rfl⟩ := List.mem_map.1 hx
    obtain ⟨v, _, rfl⟩ := List.mem_map.1 hy
    simp

theorem length_cubeTuples (d : Nat) : (cubeTuples d).length = 2 ^ d := by
  induction d with
  | zero => rfl
  | succ d ih => simp [cubeTuples, ih, Nat.pow_succ]; omega

omit [Field K] in
theorem mapM_coord {f : Nat → Option (List K)} {n : Nat} {cs : List (List K)}
    (h : (List.range n).mapM f = some cs) : cs.length = n ∧ ∀ r, r < n → f r = cs[r]? := by
  have key : ∀ (l : List Nat) (cs : List (List K)), l.mapM f = some cs →
      cs.length = l.length ∧ ∀ (r : Nat) a, l[r]? = some a → f a = cs[r]? := by
    intro l
    induction l with
    | nil => intro cs h; cases h; simp
    | cons a l ih =>
      intro cs h
      rw [List.mapM_cons] at h
      simp only [Option.bind_eq_bind, Option.bind_eq_some_iff, Option.pure_def, Option.some.injEq] at h
      obtain ⟨c, hc, cs', hcs, rfl⟩ := h
      obtain ⟨h1, h2⟩ := ih cs' hcs
      refine ⟨by simp [h1], fun r b hr => ?_⟩
      cases r with
      | zero => simp at hr; subst hr; simpa using hc
      | succ r => simpa using h2 r b (by simpa using hr)
  obtain ⟨h1, h2⟩ := key _ _ h
  refine ⟨by simpa using h1, fun r hr => h2 r r (by simp [hr])⟩

/-- The map of a tensor product element. -/
theorem tensorPoint_spec [CharZero K] {dim amb : Nat} {tuples : List (List Nat)}
    (ht : tuples.Perm (cubeTuples dim)) {ev coeffs : List (List K)} (hlen : ∀ p ∈ ev, p.length = amb)
    (hcl : coeffs.length = amb)
    (hc : ∀ (r : Nat) c, coeffs[r]? = some c → matVec (vertexVdm tuples) c = ev.map (·.getD r 0)) :
    TensorMap dim tuples ev (tensorPoint tuples coeffs) := by
  have hmem : ∀ t ∈ tuples, t.length = dim ∧ ∀ n ∈ t, n = 0 ∨ n = 1 :=
    fun t h => mem_cubeTuples.1 (ht.mem_iff.1 h)
  have hnd : tuples.Nodup := ht.nodup_iff.2 (nodup_cubeTuples dim)
  have hval : ∀ {x : List K}, x.length = dim → tensorPoint tuples coeffs x =
      (List.range amb).map fun r => rowDot (tuples.map fun t =>
        cornerWeight t (x.map fun v => 1 / 2 + 1 / 2 * v)) (ev.map (·.getD r 0)) := by
    intro x hx
    unfold tensorPoint
    apply List.ext_getElem
    · simp [hcl]
    · intro r h1 h2
      simp only [List.getElem_map, List.getElem_range]
      simp only [List.length_map] at h1
      exact tensor_value ht (hc r _ (List.getElem?_eq_getElem h1)) (by simp [hx])
  refine ⟨?_, ?_⟩
  · intro s a b x j hx hj
    rw [hval (by simp [hx]), hval (by simp [hx]), hval (by simp [hx]), linePoint,
      List.zipWith_map_left, List.zipWith_map_right, List.zipWith_self]
    apply List.map_congr_left
    intro r _
    rw [← rowDot_add_smul]
    congr 1
    apply List.map_congr_left
    intro t hmt
    rw [List.map_set, List.map_set, List.map_set]
    have hj' : j < (x.map fun v : K => 1 / 2 + 1 / 2 * v).length := by simp [hx, hj]
    rw [← cornerWeight_affine (by simp [(hmem t hmt).1, hx]) hj']
    congr 2
    ring
  · intro i t p hi hp
    have htm := hmem t (List.mem_of_getElem? hi)
    rw [hval (by simp [htm.1])]
    have hpl := hlen p (List.mem_of_getElem? hp)
    have hcorner : ((t.map fun n : Nat => 2 * (n : K) - 1).map fun v => 1 / 2 + 1 / 2 * v) =
        t.map fun n : Nat => (n : K) := by
      rw [List.map_map]
      apply List.map_congr_left
      intro n _
      simp only [Function.comp]
      ring
    rw [hcorner]
    have hind : (tuples.map fun u => cornerWeight u (t.map fun n : Nat => (n : K))) =
        tuples.map fun u => if u = t then (1 : K) else 0 := by
      apply List.map_congr_left
      intro u hu
      exact cornerWeight_corner (by rw [(hmem u hu).1, htm.1]) (hmem u hu).2 htm.2
    rw [hind]
    apply List.ext_getElem
    · simp [hpl]
    · intro r h1 h2
      simp only [List.getElem_map, List.getElem_range]
      apply rowDot_indicator hnd hi
      rw [List.getElem?_map, hp, Option.map_some]
      simp [h2]

theorem simplexPoint_spec [CharZero K] {amb : Nat} {ev : List (List K)} (hne : ev ≠ [])
    (hlen : ∀ p ∈ ev, p.length = amb) : SimplexMap ev (simplexPoint amb ev) := by
  obtain ⟨o, axs, rfl⟩ : ∃ o axs, ev = o :: axs := by
    cases ev with
    | nil => exact absurd rfl hne
    | cons o axs => exact ⟨o, axs, rfl⟩
  have ho : o.length = amb := hlen o (by simp)
  have hco : ∀ {x : List K}, x.length = axs.length → simplexPoint amb (o :: axs) x =
      (List.range amb).map fun r => ∑ j ∈ range axs.length,
        (1 / 2 + 1 / 2 * x.getD j 0) * ((axs.getD j []).getD r 0 - o.getD r 0) + o.getD r 0 := by
    intro x hx
    unfold simplexPoint
    apply List.map_congr_left
    intro r _
    simp only [List.tail_cons, List.headD_cons]
    rw [zip_map_sum (f := fun (a : List K) (b : K) => (1 / 2 + 1 / 2 * b) * (a.getD r 0 - o.getD r 0))
      [] 0 hx.symm]
  refine ⟨?_, ?_, ?_⟩
  · intro s x y hx hy
    have hx : x.length = axs.length := by simpa using hx
    have hy : y.length = axs.length := by simpa using hy
    rw [hco (by simp [linePoint, hx, hy]), hco hx, hco hy]
    unfold linePoint
    rw [List.zipWith_map_left, List.zipWith_map_right, List.zipWith_self]
    apply List.map_congr_left
    intro r _
    have : ∀ j ∈ range axs.length, (List.zipWith (fun a b => (1 - s) * a + s * b) x y).getD j 0 =
        (1 - s) * x.getD j 0 + s * y.getD j 0 := by
      intro j hj
      simp only [Finset.mem_range] at hj
      simp [hx, hy, hj]
    rw [Finset.sum_congr rfl fun j hj => by rw [this j hj]]
    have e : ∀ j, (1 / 2 + 1 / 2 * ((1 - s) * x.getD j 0 + s * y.getD j 0)) *
        ((axs.getD j []).getD r 0 - o.getD r 0) =
        (1 - s) * ((1 / 2 + 1 / 2 * x.getD j 0) * ((axs.getD j []).getD r 0 - o.getD r 0)) +
        s * ((1 / 2 + 1 / 2 * y.getD j 0) * ((axs.getD j []).getD r 0 - o.getD r 0)) :=
      fun j => by ring
    simp only [e]
    rw [Finset.sum_add_distrib, ← Finset.mul_sum, ← Finset.mul_sum]
    ring
  · intro p hp
    simp only [List.getElem?_cons_zero, Option.some.injEq] at hp
    subst hp
    rw [hco (by simp)]
    apply List.ext_getElem
    · simp [ho]
    · intro r h1 h2
      simp only [List.getElem_map, List.getElem_range]
      rw [Finset.sum_eq_zero]
      · simp [h2]
      · intro j hj
        simp only [Finset.mem_range] at hj
        simp [hj]
  · intro j p hj
    simp only [List.getElem?_cons_succ] at hj
    have hjl := (List.getElem?_eq_some_iff.1 hj).1
    have hp : p.length = amb := hlen p (List.mem_cons_of_mem _ (List.mem_of_getElem? hj))
    rw [hco (by simp)]
    apply List.ext_getElem
    · simp [hp]
    · intro r h1 h2
      simp only [List.getElem_map, List.getElem_range]
      have hro : r < o.length := by omega
      rw [Finset.sum_eq_single j]
      · simp only [List.length_cons, Nat.add_sub_cancel]
        have e1 : (((List.replicate axs.length (-1 : K))).set j 1).getD j 0 = 1 := by
          simp [hjl]
        have e2 : axs.getD j [] = p := by simp [hj]
        rw [e1, e2]
        simp only [List.getD_eq_getElem?_getD, List.getElem?_eq_getElem h2, List.getElem?_eq_getElem hro,
          Option.getD_some]
        ring
      · intro k hk hkj
        simp only [Finset.mem_range] at hk
        have e1 : (((List.replicate axs.length (-1 : K))).set j 1).getD k 0 = -1 := by
          rw [List.getD_eq_getElem?_getD, List.getElem?_set_ne (Ne.symm hkj)]
          simp [hk]
        simp only [List.length_cons, Nat.add_sub_cancel]
        rw [e1]
        ring
      · intro h
        exact absurd (Finset.mem_range.2 hjl) h

omit [Field K] in
theorem mapM_element {vertices : List (List K)} {vi : List (List Nat)} {evs : List (List (List K))}
    (h : (vi.mapM fun row => row.mapM fun v => vertices[v]?) = some evs) : evs.length = vi.length ∧
      ∀ (e : Nat) row, vi[e]? = some row → ∃ ev, evs[e]? = some ev ∧ ElementVertices vertices row ev := by
  have inner : ∀ (row : List Nat) (ev : List (List K)), (row.mapM fun v => vertices[v]?) = some ev →
      ElementVertices vertices row ev := by
    intro row
    induction row with
    | nil => intro ev h; cases h; exact ⟨rfl, by simp⟩
    | cons v row ih =>
      intro ev h
      rw [List.mapM_cons] at h
      simp only [Option.bind_eq_bind, Option.bind_eq_some_iff, Option.pure_def, Option.some.injEq] at h
      obtain ⟨p, hp, ps, hps, rfl⟩ := h
      obtain ⟨h1, h2⟩ := ih ps hps
      refine ⟨by simp [h1], fun i w hi => ?_⟩
      cases i with
      | zero => simp only [List.getElem?_cons_zero, Option.some.injEq] at hi; subst hi; simpa using hp
      | succ i => simpa using h2 i w (by simpa using hi)
  induction vi generalizing evs with
  | nil => cases h; simp
  | cons row vi ih =>
    rw [List.mapM_cons] at h
    simp only [Option.bind_eq_bind, Option.bind_eq_some_iff, Option.pure_def, Option.some.injEq] at h
    obtain ⟨ev, hev, evs', hevs, rfl⟩ := h
    obtain ⟨h1, h2⟩ := ih hevs
    refine ⟨by simp [h1], fun e row' he => ?_⟩
    cases e with
    | zero =>
      simp only [List.getElem?_cons_zero, Option.some.injEq] at he
      subst he
      exact ⟨ev, rfl, inner _ _ hev⟩
    | succ e =>
      obtain ⟨ev', a, b⟩ := h2 e row' (by simpa using he)
      exact ⟨ev', by simpa using a, b⟩

theorem tensorElements_ok {solve : Mat K → List K → Option (List K)} {tuples : List (List Nat)} {amb : Nat}
    {unit : List (List K)} {evs nodes : List (List (List K))}
    (h : tensorElements solve tuples amb unit evs = .ok nodes) : nodes.length = evs.length ∧
      ∀ (e : Nat) ev, evs[e]? = some ev → ∃ ns, nodes[e]? = some ns ∧
        tensorElement solve tuples amb unit ev = .ok ns := by
  induction evs generalizing nodes with
  | nil => cases h; simp
  | cons ev evs ih =>
    simp only [tensorElements] at h
    split at h
    · rename_i n ns h1 h2
      cases h
      obtain ⟨a, b⟩ := ih h2
      refine ⟨by simp [a], fun e ev' he => ?_⟩
      cases e with
      | zero =>
        simp only [List.getElem?_cons_zero, Option.some.injEq] at he
        subst he
        exact ⟨n, rfl, h1⟩
      | succ e =>
        obtain ⟨ns', c, d⟩ := b e ev' (by simpa using he)
        exact ⟨ns', by simpa using c, d⟩
    · cases h
    · cases h

omit [Field K] in
theorem ElementVertices.mem {vertices : List (List K)} {row : List Nat} {ev : List (List K)}
    (h : ElementVertices vertices row ev) {p : List K} (hp : p ∈ ev) : p ∈ vertices := by
  obtain ⟨i, hi⟩ := List.mem_iff_getElem?.1 hp
  have hlt : i < row.length := by rw [← h.1]; exact (List.getElem?_eq_some_iff.1 hi).1
  have := h.2 i _ (List.getElem?_eq_getElem hlt)
  rw [hi] at this
  exact List.mem_of_getElem? this

/-! ## Properties -/

variable {solve : Mat K → List K → Option (List K)} {tuples : Nat → List (List Nat)} {amb nv : Nat}
  {vertices : List (List K)} {vi : List (List Nat)} {order : Int} {unit : List (List K)}

/-- C71: the nodes of each simplex are the images of the unit nodes under the affine map that takes the
corners of the reference simplex to the vertices of the element. -/
theorem C71_simplex [CharZero K] (hv : ∀ p ∈ vertices, p.length = amb) (hvi : ∀ row ∈ vi, row.length = nv)
    {nodes : List (List (List K))}
    (h : groupFromVertices solve tuples .simplex amb nv vertices vi order unit = .ok nodes) :
    nodes.length = vi.length ∧ ∀ (e : Nat) row, vi[e]? = some row →
      ∃ ev T, ElementVertices vertices row ev ∧ SimplexMap ev T ∧ (∀ x ∈ unit, x.length + 1 = ev.length) ∧
        nodes[e]? = some (unit.map T) := by
  unfold groupFromVertices at h
  split at h
  · cases h
  · rename_i evs hevs
    simp only at h
    split at h
    · cases h
    · split at h
      · cases h
      · rename_i hnv
        split at h
        · rename_i hall
          cases h
          obtain ⟨h1, h2⟩ := mapM_element hevs
          refine ⟨by simp [h1], fun e row he => ?_⟩
          obtain ⟨ev, a, b⟩ := h2 e row he
          have hl : ev.length = nv := by rw [b.1, hvi row (List.mem_of_getElem? he)]
          refine ⟨ev, simplexPoint amb ev, b, simplexPoint_spec ?_ fun p hp => hv p (b.mem hp), ?_, ?_⟩
          · rintro rfl; exact hnv hl.symm
          · intro x hx
            have := List.all_eq_true.1 hall x hx
            rw [hl]; simpa using this
          · rw [List.getElem?_map, a]; rfl
        · cases h

/-- C71: the nodes of each tensor product element are the images of the unit nodes under the map, affine
in each variable, that takes the corners of the hypercube to the vertices of the element, in the order in
which `mp.node_tuples_for_space` lists corners. -/
theorem C71_tensor [CharZero K] (hs : SolveSound solve)
    (ht : ∀ d, (tuples d).Perm (cubeTuples d)) (hv : ∀ p ∈ vertices, p.length = amb)
    (hvi : ∀ row ∈ vi, row.length = nv) {nodes : List (List (List K))}
    (h : groupFromVertices solve tuples .tensor amb nv vertices vi order unit = .ok nodes) :
    ∃ dim, nv = 2 ^ dim ∧ (∀ x ∈ unit, x.length = dim) ∧ nodes.length = vi.length ∧
      ∀ (e : Nat) row, vi[e]? = some row → ∃ ev T, ElementVertices vertices row ev ∧
        ev.length = (tuples dim).length ∧ TensorMap dim (tuples dim) ev T ∧ nodes[e]? = some (unit.map T) := by
  unfold groupFromVertices at h
  split at h
  · cases h
  · rename_i evs hevs
    simp only at h
    split at h
    · cases h
    · rename_i hpow
      split at h
      · rename_i hall
        obtain ⟨h1, h2⟩ := mapM_element hevs
        obtain ⟨h3, h4⟩ := tensorElements_ok h
        refine ⟨nv.log2, by simpa using hpow, fun x hx => by simpa using List.all_eq_true.1 hall x hx,
          by omega, fun e row he => ?_⟩
        obtain ⟨ev, a, b⟩ := h2 e row he
        obtain ⟨ns, c, d⟩ := h4 e ev a
        unfold tensorElement at d
        split at d
        · cases d
        · rename_i coeffs hc
          cases d
          obtain ⟨hcl, hcs⟩ := mapM_coord hc
          refine ⟨ev, _, b, ?_, tensorPoint_spec (ht _) (fun p hp => hv p (b.mem hp)) hcl ?_, c⟩
          · rw [b.1, hvi row (List.mem_of_getElem? he), (ht _).length_eq, length_cubeTuples]
            simpa using hpow
          intro r co hco
          have hr : r < amb := by rw [← hcl]; exact (List.getElem?_eq_some_iff.1 hco).1
          exact (hs _ _ _ ((hcs r hr).trans hco)).2
      · cases h

/-- The coefficients of the function with given values at the corners.
(Specification or proof vocabulary, no code.) -/
def cubeCoeffs (V : List Nat → K) : List Nat → K
  | [] => V []
  | 0 :: t => cubeCoeffs (fun u => V (0 :: u)) t
  | (_ + 1) :: t => cubeCoeffs (fun u => V (1 :: u)) t - cubeCoeffs (fun u => V (0 :: u)) t

theorem cubeCoeffs_spec {d : Nat} (V : List Nat → K) {t : List Nat} (h : t ∈ cubeTuples d) :
    ((cubeTuples d).map fun f => tupleMono (t.map fun n : Nat => (n : K)) f * cubeCoeffs V f).sum = V t := by
  induction d generalizing V t with
  | zero =>
    simp only [cubeTuples, List.mem_singleton] at h
    subst h
    simp [cubeTuples, tupleMono, cubeCoeffs]
  | succ d ih =>
    obtain ⟨h1, h2⟩ := mem_cubeTuples.1 h
    cases t with
    | nil => simp at h1
    | cons n t =>
      have ht : t ∈ cubeTuples d := mem_cubeTuples.2 ⟨by simpa using h1, fun m hm => h2 m (by simp [hm])⟩
      have i0 := ih (fun u => V (0 :: u)) ht
      have i1 := ih (fun u => V (1 :: u)) ht
      simp only [cubeTuples, List.map_append, List.map_map, List.sum_append, Function.comp_def]
      have e0 : ∀ f : List Nat, tupleMono ((n :: t).map fun n : Nat => (n : K)) (0 :: f) *
          cubeCoeffs V (0 :: f) =
          tupleMono (t.map fun n : Nat => (n : K)) f * cubeCoeffs (fun u => V (0 :: u)) f := by
        intro f; simp [tupleMono, cubeCoeffs]
      have e1 : ∀ f : List Nat, tupleMono ((n :: t).map fun n : Nat => (n : K)) (1 :: f) *
          cubeCoeffs V (1 :: f) =
          (n : K) * (tupleMono (t.map fun n : Nat => (n : K)) f * cubeCoeffs (fun u => V (1 :: u)) f) +
          -(n : K) * (tupleMono (t.map fun n : Nat => (n : K)) f * cubeCoeffs (fun u => V (0 :: u)) f) := by
        intro f; simp [tupleMono, cubeCoeffs]; ring
      simp only [e0, e1, List.sum_map_add, List.sum_map_mul_left, i0, i1]
      rcases h2 n (by simp) with rfl | rfl <;> simp

/-- C71: the system of equations for the coefficients always has a solution. -/
theorem C71_solvable {dim : Nat} {tup : List (List Nat)} (ht : tup.Perm (cubeTuples dim)) (b : List K)
    (hb : b.length = tup.length) : ∃ x : List K, x.length = tup.length ∧ matVec (vertexVdm tup) x = b := by
  have hnd : tup.Nodup := ht.nodup_iff.2 (nodup_cubeTuples dim)
  refine ⟨tup.map (cubeCoeffs fun t => b.getD (tup.idxOf t) 0), by simp, ?_⟩
  apply List.ext_getElem
  · simp [matVec, vertexVdm, hb]
  · intro i h1 h2
    have hi : i < tup.length := by omega
    simp only [matVec, vertexVdm, List.getElem_map, rowDot, List.zipWith_map_left, List.zipWith_map_right,
      List.zipWith_self]
    rw [(ht.map _).sum_eq, cubeCoeffs_spec _ (ht.mem_iff.1 (List.getElem_mem hi)),
      hnd.idxOf_getElem i hi]
    simp [h2]

/-- C71: for a solver that solves solvable systems, the call succeeds exactly if vertex numbers are valid,
the class is supported, simplices have order and number of vertices at least one, tensor product elements
have a power of two as number of vertices, and the unit nodes have the dimension of the elements. -/
theorem C71_succeeds (hs : ∀ (M : Mat K) b, b.length = M.length →
      (∀ b' : List K, b'.length = M.length → ∃ x : List K, x.length = M.length ∧ matVec M x = b') →
      (solve M b).isSome = true)
    (ht : ∀ d, (tuples d).Perm (cubeTuples d)) (hvi : ∀ row ∈ vi, row.length = nv) (cls : MgfvCls) :
    (∃ nodes, groupFromVertices solve tuples cls amb nv vertices vi order unit = .ok nodes) ↔
      (∀ row ∈ vi, ∀ v ∈ row, v < vertices.length) ∧
      ((cls = .simplex ∧ 1 ≤ order ∧ 1 ≤ nv ∧ ∀ x ∈ unit, x.length + 1 = nv) ∨
       (cls = .tensor ∧ ∃ dim, nv = 2 ^ dim ∧ ∀ x ∈ unit, x.length = dim)) := by
  have hidx : (∃ evs, (vi.mapM fun row => row.mapM fun v => vertices[v]?) = some evs) ↔
      ∀ row ∈ vi, ∀ v ∈ row, v < vertices.length := by
    constructor
    · rintro ⟨evs, h⟩ row hrow v hvr
      obtain ⟨e, he⟩ := List.mem_iff_getElem?.1 hrow
      obtain ⟨i, hi⟩ := List.mem_iff_getElem?.1 hvr
      obtain ⟨ev, _, b⟩ := (mapM_element h).2 e row he
      have hlt : i < ev.length := by rw [b.1]; exact (List.getElem?_eq_some_iff.1 hi).1
      have := b.2 i v hi
      rw [List.getElem?_eq_getElem hlt] at this
      exact (List.getElem?_eq_some_iff.1 this).1
    · intro h
      have inner : ∀ row : List Nat, (∀ v ∈ row, v < vertices.length) →
          (row.mapM fun v => vertices[v]?) = some (row.map fun v => vertices.getD v []) := by
        intro row
        induction row with
        | nil => intro _; rfl
        | cons v row ih =>
          intro hr
          rw [List.mapM_cons, ih fun w hw => hr w (by simp [hw]),
            List.getElem?_eq_getElem (hr v (by simp))]
          simp [hr v (by simp)]
      refine ⟨vi.map fun row => row.map fun v => vertices.getD v [], ?_⟩
      clear hvi
      induction vi with
      | nil => rfl
      | cons row vi ih =>
        rw [List.mapM_cons, ih fun r hr => h r (by simp [hr]), inner row (h row (by simp))]
        rfl
  cases hm : (vi.mapM fun row => row.mapM fun v => vertices[v]?) with
  | none =>
    rw [hm] at hidx
    simp only [reduceCtorEq, exists_false, false_iff] at hidx
    simp only [groupFromVertices, hm, reduceCtorEq, exists_false, false_iff]
    exact fun h => hidx h.1
  | some evs =>
    rw [hm] at hidx
    have hok := hidx.1 ⟨evs, rfl⟩
    simp only [groupFromVertices, hm]
    cases cls with
    | other => simp
    | simplex =>
      simp only [reduceCtorEq, false_and, or_false, true_and]
      by_cases ho : order < 1
      · simp only [if_pos ho, reduceCtorEq, exists_false, false_iff]
        rintro ⟨_, h, _⟩; omega
      · by_cases hn : nv = 0
        · simp only [if_neg ho, if_pos hn, reduceCtorEq, exists_false, false_iff]
          rintro ⟨_, _, h, _⟩; omega
        · simp only [if_neg ho, if_neg hn]
          by_cases hu : (unit.all fun x => x.length + 1 == nv) = true
          · rw [if_pos hu]
            refine ⟨fun _ => ⟨hok, by omega, by omega, fun x hx => by
              simpa using List.all_eq_true.1 hu x hx⟩, fun _ => ⟨_, rfl⟩⟩
          · rw [if_neg hu]
            simp only [reduceCtorEq, exists_false, false_iff]
            rintro ⟨_, _, _, h⟩
            exact hu (List.all_eq_true.2 fun x hx => by simpa using h x hx)
    | tensor =>
      simp only [reduceCtorEq, false_and, false_or, true_and]
      by_cases hp : nv = 2 ^ nv.log2
      · rw [if_neg (by simpa using hp)]
        by_cases hu : (unit.all fun x => x.length == nv.log2) = true
        · rw [if_pos hu]
          refine ⟨fun _ => ⟨hok, nv.log2, hp, fun x hx => by simpa using List.all_eq_true.1 hu x hx⟩,
            fun _ => ?_⟩
          have hlen : ∀ ev ∈ evs, ev.length = nv := by
            intro ev hev
            obtain ⟨e, he⟩ := List.mem_iff_getElem?.1 hev
            obtain ⟨h1, h2⟩ := mapM_element hm
            have hlt : e < vi.length := by rw [← h1]; exact (List.getElem?_eq_some_iff.1 he).1
            obtain ⟨ev', a, b⟩ := h2 e _ (List.getElem?_eq_getElem hlt)
            rw [he] at a
            cases a
            rw [b.1, hvi _ (List.getElem_mem hlt)]
          have hone : ∀ ev ∈ evs, ∃ ns, tensorElement solve (tuples nv.log2) amb unit ev = .ok ns := by
            intro ev hev
            unfold tensorElement
            cases hc : (List.range amb).mapM fun r =>
                solve (vertexVdm (tuples nv.log2)) (ev.map (·.getD r 0)) with
            | some coeffs => exact ⟨_, rfl⟩
            | none =>
              exfalso
              have hsome : ∀ r, (solve (vertexVdm (tuples nv.log2)) (ev.map (·.getD r 0))).isSome = true := by
                intro r
                have hl2 : (tuples nv.log2).length = nv := by
                  rw [(ht _).length_eq, length_cubeTuples]; exact hp.symm
                apply hs
                · simp [vertexVdm, hlen ev hev, hl2]
                · intro b' hb'
                  obtain ⟨x, hx1, hx2⟩ := C71_solvable (ht nv.log2) b' (by simpa [vertexVdm] using hb')
                  exact ⟨x, by simpa [vertexVdm] using hx1, hx2⟩
              have : ∀ l : List Nat, (l.mapM fun r =>
                  solve (vertexVdm (tuples nv.log2)) (ev.map (·.getD r 0))) ≠ none := by
                intro l
                induction l with
                | nil => simp
                | cons r l ih =>
                  rw [List.mapM_cons]
                  obtain ⟨c, hc'⟩ := Option.isSome_iff_exists.1 (hsome r)
                  obtain ⟨cs, hcs⟩ := Option.ne_none_iff_exists'.1 ih
                  rw [hc', hcs]
                  simp
              exact this _ hc
          clear hm hlen hidx
          induction evs with
          | nil => exact ⟨_, rfl⟩
          | cons ev evs ih =>
            obtain ⟨n, hn⟩ := hone ev (by simp)
            obtain ⟨ns, hns⟩ := ih fun ev' h => hone ev' (by simp [h])
            exact ⟨n :: ns, by rw [tensorElements, hn, hns]⟩
        · rw [if_neg hu]
          simp only [reduceCtorEq, exists_false, false_iff]
          rintro ⟨_, dim, hd, h⟩
          apply hu
          rw [hd, Nat.log2_two_pow]
          exact List.all_eq_true.2 fun x hx => by simpa using h x hx
      · rw [if_pos (by simpa using hp)]
        simp only [reduceCtorEq, exists_false, false_iff]
        rintro ⟨_, dim, hd, _⟩
        rw [hd, Nat.log2_two_pow] at hp
        exact hp rfl

end

/-! ## Concrete cases -/

/-- Exact solution of the systems that occur, for the corners of cubes in the order of `cubeTuples`.
(Example, no code.) -/
def exSolve (M : Mat ℚ) (b : List ℚ) : Option (List ℚ) :=
  let tup := cubeTuples M.length.log2
  let x := tup.map (cubeCoeffs fun t => b.getD (tup.idxOf t) 0)
  if x.length = M.length ∧ matVec M x = b then some x else none

-- The hypotheses of `C71_simplex`: two triangles of order two with some of their unit nodes.
example : groupFromVertices exSolve cubeTuples .simplex 2 3 [[0, 0], [2, 0], [0, 2], [2, 2]]
    [[0, 1, 2], [3, 2, 1]] 2 [[-1, -1], [0, -1], [1, -1], [0, 0]] =
    .ok [[[0, 0], [1, 0], [2, 0], [1, 1]], [[2, 2], [1, 2], [0, 2], [1, 1]]] := by decide +kernel

-- The hypotheses of `C71_tensor`: a quadrilateral that is not a parallelogram.
example : groupFromVertices exSolve cubeTuples .tensor 2 4 [[0, 0], [0, 2], [2, 0], [4, 4]]
    [[0, 1, 2, 3]] 1 [[-1, -1], [1, 1], [0, 0]] = .ok [[[0, 0], [4, 4], [3 / 2, 3 / 2]]] := by
  decide +kernel

example : SolveSound exSolve := by
  intro M b x h
  simp only [exSolve] at h
  split at h
  · rename_i hc
    cases h
    exact hc
  · cases h

-- Three vertices do not make a tensor product element.
example : groupFromVertices exSolve cubeTuples .tensor 2 3 [[0, 0], [2, 0], [0, 2]] [[0, 1, 2]] 1 [] =
    .error .power := by decide +kernel

end Meshmode
