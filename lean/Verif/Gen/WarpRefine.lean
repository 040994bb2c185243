import Verif.Refine.Elements
import Mathlib.Analysis.SpecialFunctions.Pow.Real
import Mathlib.Tactic.Linarith

/-!
# Refining until a warped mesh is resolved (C86)

`warp_and_refine_until_resolved`, meshmode/mesh/generation.py:1843-1930.  Finite floating point numbers are
real numbers, and the values which are not finite are one value each.  The matrices from modepy are given.
-/
namespace Meshmode

/-! ## Model -/

/-- A coordinate of a warped mesh: a finite number, or `none` for `NaN` and the infinities.
Code: meshmode/mesh/generation.py:1881-1889. -/
abbrev Coord := Option ℝ

/-- A group of the warped mesh: whether it is a `ModepyElementGroup`, the matrices `vdm_inv` and
`interp_err_est_mat` of modepy, and the nodes of each element for each coordinate direction.
Code: meshmode/mesh/generation.py:1891-1911. -/
structure WarpedGroup where
  modepy : Bool
  vdmInv : List (List ℝ)
  errMat : List (List ℝ)
  els : List (List (List Coord))

/-- The mesh returned by `warp_callable`, meshmode/mesh/generation.py:1877-1878. -/
structure WarpedMesh where
  vertices : List (List Coord)
  groups : List WarpedGroup

/-- The exceptions of `warp_and_refine_until_resolved`: `FloatingPointError`, `TypeError`, `ValueError` (from
numpy or from `zip`), and those of the refiner.  Code: meshmode/mesh/generation.py:1883-1889, 1897, 1891-1893,
1914-1917, 1927. -/
inductive ResolveErr
  | nonFinite
  | groupType
  | value
  | refiner
  deriving DecidableEq, Repr

/-- The floating point numbers which may result from the division at meshmode/mesh/generation.py:1914. -/
inductive Est
  | nan
  | num (x : ℝ)
  | inf

/-- `np.einsum("ij,dej->dei", mat, nodes)` for one coordinate direction of one element,
meshmode/mesh/generation.py:1906, 1909-1910. -/
noncomputable def applyMat (m : List (List ℝ)) (x : List ℝ) : List ℝ :=
  m.map fun row => (List.zipWith (· * ·) row x).sum

/-- `np.sqrt(np.sum(coeffs**2, axis=-1))`, meshmode/mesh/generation.py:1907, 1911. -/
noncomputable def coeffNorm (x : List ℝ) : ℝ := Real.sqrt (x.map (· ^ 2)).sum

open Classical in
/-- The division of two numbers, the second not negative, meshmode/mesh/generation.py:1914. -/
noncomputable def estDiv (a b : ℝ) : Est :=
  if b = 0 then if a = 0 then .nan else .inf else .num (a / b)

/-- `interp_error_norm_2/mapping_norm_2` for one coordinate direction of one element,
meshmode/mesh/generation.py:1906-1914. -/
noncomputable def relError (g : WarpedGroup) (x : List ℝ) : Est :=
  estDiv (coeffNorm (applyMat g.errMat x)) (coeffNorm (applyMat g.vdmInv x))

/-- The larger of two numbers, `NaN` if one of them is `NaN`, as in `np.max`,
meshmode/mesh/generation.py:1914. -/
noncomputable def Est.max : Est → Est → Est
  | .nan, _ => .nan
  | _, .nan => .nan
  | .inf, _ => .inf
  | _, .inf => .inf
  | .num x, .num y => .num (Max.max x y)

/-- `np.max(…, axis=0)` for one element; `none` is the `ValueError` for no coordinate directions,
meshmode/mesh/generation.py:1913-1914. -/
noncomputable def maxEst : List Est → Option Est
  | [] => none
  | e :: es => some (es.foldl Est.max e)

open Classical in
/-- `est_rel_interp_error > est_rel_interp_tolerance`, meshmode/mesh/generation.py:1917: comparisons with `NaN`
are false. -/
noncomputable def Est.exceeds (tol : ℝ) : Est → Bool
  | .nan => false
  | .num x => decide (x > tol)
  | .inf => true

/-- The flag of one element, whose coordinates are finite numbers, meshmode/mesh/generation.py:1906-1917. -/
noncomputable def elementFlag (tol : ℝ) (g : WarpedGroup) (el : List (List Coord)) : Option Bool :=
  (maxEst (el.map fun x => relError g (x.map (·.getD 0)))).map (Est.exceeds tol)

/-- `refine_flags[base:base + n] = vals`, meshmode/mesh/generation.py:1916-1917: the slice ends at the end of
the array, and its length must be that of the values, except that a single value fits everywhere. -/
def setFlags (l : List Bool) (base : Nat) (vals : List Bool) : Option (List Bool) :=
  if min vals.length (l.length - base) = vals.length then
    some (l.take base ++ vals ++ l.drop (base + vals.length))
  else if vals.length = 1 then some l
  else none

/-- The body of the loop over groups, meshmode/mesh/generation.py:1891-1917. -/
noncomputable def flagGroup (tol : ℝ) (flags : List Bool) (p : Nat × WarpedGroup) :
    Except ResolveErr (List Bool) :=
  if p.2.modepy = false then .error .groupType
  else match p.2.els.mapM (elementFlag tol p.2) with
    | none => .error .value
    | some vals => match setFlags flags p.1 vals with
      | none => .error .value
      | some l => .ok l

/-- Whether all coordinates are finite, meshmode/mesh/generation.py:1882, 1886-1887. -/
def WarpedMesh.finite (w : WarpedMesh) : Bool :=
  w.vertices.all (fun v => v.all Option.isSome) &&
    w.groups.all fun g => g.els.all fun el => el.all fun x => x.all Option.isSome

/-- The flags computed in one iteration, meshmode/mesh/generation.py:1875-1917; `nelements` is the number of
elements of the unwarped mesh.  The `ValueError` for a mesh without groups is that of `zip`. -/
noncomputable def resolveFlags (tol : ℝ) (nelements : Nat) (w : WarpedMesh) : Except ResolveErr (List Bool) :=
  if w.finite = false then .error .nonFinite
  else if w.groups = [] then .error .value
  else ((baseElementNrs (w.groups.map fun g => g.els.length)).zip w.groups).foldlM (flagGroup tol)
    (List.replicate nelements false)

/-- The number of elements of the current mesh, meshmode/mesh/generation.py:1875. -/
def Refiner.count {N P : Type} (r : Refiner N P) : Nat := (r.groups.map ElGroup.nelements).sum

/-- The loop of `warp_and_refine_until_resolved`, meshmode/mesh/generation.py:1872-1930, for at most the given
number of iterations; `none` if it has not ended by then.  The refiner includes the current mesh. -/
noncomputable def warpRefine {N P : Type} (geo : Geo N P) (warp : Refiner N P → WarpedMesh) (tol : ℝ) :
    Nat → Refiner N P → Option (Except ResolveErr (Refiner N P))
  | 0, _ => none
  | k + 1, r => match resolveFlags tol r.count (warp r) with
    | .error e => some (.error e)
    | .ok flags =>
      if flags.countP id = 0 then some (.ok r)
      else match r.refine geo flags with
        | none => some (.error .refiner)
        | some r' => warpRefine geo warp tol k r'

/-! ## Specification -/

/-- The estimate for an element is at most the tolerance: in each coordinate direction, the norm of the
estimated error is at most the tolerance times the norm of the coordinate function.
(Specification or proof vocabulary, no code.) -/
def ElementResolved (tol : ℝ) (g : WarpedGroup) (el : List (List Coord)) : Prop :=
  ∀ x ∈ el, ∀ c : List ℝ, x = c.map some →
    coeffNorm (applyMat g.errMat c) ≤ tol * coeffNorm (applyMat g.vdmInv c)

/-- No coordinate function of the element vanishes.  (Specification or proof vocabulary, no code.) -/
def NoZeroCoordinate (g : WarpedGroup) (el : List (List Coord)) : Prop :=
  ∀ x ∈ el, ∀ c : List ℝ, x = c.map some → coeffNorm (applyMat g.vdmInv c) ≠ 0

/-- The warped mesh has the groups and elements of the unwarped one.
(Specification or proof vocabulary, no code.) -/
def SameElements {N P : Type} (w : WarpedMesh) (r : Refiner N P) : Prop :=
  (w.groups.map fun g => g.els.length) = r.groups.map ElGroup.nelements

/-! ## Lemmas -/

theorem coeffNorm_nonneg (x : List ℝ) : 0 ≤ coeffNorm x := Real.sqrt_nonneg _

theorem estMax_not_exceeds {tol : ℝ} {a b : Est} (ha : a ≠ .nan) (hb : b ≠ .nan) :
    Est.max a b ≠ .nan ∧
      (Est.exceeds tol (Est.max a b) = false ↔ Est.exceeds tol a = false ∧ Est.exceeds tol b = false) := by
  cases a <;> cases b <;> simp_all [Est.max, Est.exceeds]

theorem foldl_estMax {tol : ℝ} (es : List Est) (e : Est) (h0 : e ≠ .nan) (h : ∀ x ∈ es, x ≠ .nan) :
    Est.exceeds tol (es.foldl Est.max e) = false ↔
      Est.exceeds tol e = false ∧ ∀ x ∈ es, Est.exceeds tol x = false := by
  induction es generalizing e with
  | nil => simp
  | cons a es ih =>
    have ha := h a (by simp)
    obtain ⟨h1, h2⟩ := estMax_not_exceeds (tol := tol) h0 ha
    rw [List.foldl_cons, ih _ h1 fun x hx => h x (by simp [hx]), h2]
    simp only [List.mem_cons, forall_eq_or_imp]
    tauto

theorem foldl_estMax_nan (es : List Est) (e : Est) (h : e = .nan ∨ .nan ∈ es) : es.foldl Est.max e = .nan := by
  induction es generalizing e with
  | nil => simpa using h
  | cons a es ih =>
    rw [List.foldl_cons]
    refine ih _ ?_
    rcases h with rfl | h
    · left
      rfl
    · rcases List.mem_cons.1 h with rfl | h
      · left
        cases e <;> rfl
      · exact Or.inr h

theorem getD_map_some (c : List ℝ) : (c.map some).map (·.getD 0) = c := by
  rw [List.map_map]
  simp

theorem eq_map_some {x : List Coord} (h : x.all Option.isSome = true) : x = (x.map (·.getD 0)).map some := by
  rw [List.map_map]
  conv_lhs => rw [← List.map_id x]
  refine List.map_congr_left fun c hc => ?_
  obtain ⟨v, rfl⟩ := Option.isSome_iff_exists.1 (List.all_eq_true.1 h c hc)
  rfl

theorem relError_spec {tol : ℝ} {g : WarpedGroup} {c : List ℝ} (h : coeffNorm (applyMat g.vdmInv c) ≠ 0) :
    relError g c ≠ .nan ∧ (Est.exceeds tol (relError g c) = false ↔
      coeffNorm (applyMat g.errMat c) ≤ tol * coeffNorm (applyMat g.vdmInv c)) := by
  have hp : 0 < coeffNorm (applyMat g.vdmInv c) := lt_of_le_of_ne (coeffNorm_nonneg _) (Ne.symm h)
  unfold relError estDiv
  rw [if_neg h]
  refine ⟨by simp, ?_⟩
  simp only [Est.exceeds, decide_eq_false_iff_not, not_lt]
  exact div_le_iff₀ hp

theorem elementFlag_spec {tol : ℝ} {g : WarpedGroup} {el : List (List Coord)}
    (hfin : ∀ x ∈ el, x.all Option.isSome = true) (hz : NoZeroCoordinate g el) {b : Bool}
    (h : elementFlag tol g el = some b) : b = false ↔ ElementResolved tol g el := by
  unfold elementFlag at h
  obtain ⟨e, he, rfl⟩ := Option.map_eq_some_iff.1 h
  rcases el with _ | ⟨x, xs⟩
  · simp [maxEst] at he
  · simp only [List.map_cons, maxEst, Option.some.injEq] at he
    subst he
    have key : ∀ y ∈ x :: xs, relError g (y.map (·.getD 0)) ≠ .nan ∧
        (Est.exceeds tol (relError g (y.map (·.getD 0))) = false ↔
          coeffNorm (applyMat g.errMat (y.map (·.getD 0))) ≤
            tol * coeffNorm (applyMat g.vdmInv (y.map (·.getD 0)))) := fun y hy =>
      relError_spec (hz y hy _ (eq_map_some (hfin y hy)))
    rw [foldl_estMax _ _ (key x (by simp)).1]
    · constructor
      · rintro ⟨h1, h2⟩ y hy c rfl
        have hk := (key _ hy).2
        rw [getD_map_some] at hk
        rw [← hk]
        rcases List.mem_cons.1 hy with rfl | hy
        · rw [getD_map_some] at h1
          exact h1
        · have := h2 _ (List.mem_map.2 ⟨_, hy, rfl⟩)
          rw [getD_map_some] at this
          exact this
      · intro hr
        have hall : ∀ y ∈ x :: xs, Est.exceeds tol (relError g (y.map (·.getD 0))) = false := fun y hy =>
          (key y hy).2.2 (hr y hy _ (eq_map_some (hfin y hy)))
        refine ⟨hall x (by simp), fun z hz => ?_⟩
        obtain ⟨y, hy, rfl⟩ := List.mem_map.1 hz
        exact hall y (by simp [hy])
    · intro z hz
      obtain ⟨y, hy, rfl⟩ := List.mem_map.1 hz
      exact (key y (by simp [hy])).1

theorem flagGroup_ok {tol : ℝ} {flags l : List Bool} {p : Nat × WarpedGroup} (h : flagGroup tol flags p = .ok l) :
    p.2.modepy = true ∧ ∃ vals, p.2.els.mapM (elementFlag tol p.2) = some vals ∧
      setFlags flags p.1 vals = some l := by
  unfold flagGroup at h
  split at h
  · simp at h
  · rename_i h1
    split at h
    · simp at h
    · rename_i vals hv
      split at h
      · simp at h
      · rename_i l' hl
        simp only [Except.ok.injEq] at h
        subst h
        exact ⟨by simpa using h1, vals, hv, hl⟩

theorem setFlags_fit {l vals : List Bool} {base : Nat} (h : base + vals.length ≤ l.length) :
    setFlags l base vals = some (l.take base ++ vals ++ l.drop (base + vals.length)) := by
  unfold setFlags
  rw [if_pos (by omega)]

theorem mapM_length_eq {α β : Type} {f : α → Option β} {l : List α} {r : List β} (h : l.mapM f = some r) :
    r.length = l.length := by
  induction l generalizing r with
  | nil =>
    simp only [List.mapM_nil, Option.pure_def, Option.some.injEq] at h
    subst h
    rfl
  | cons a l ih =>
    simp only [List.mapM_cons, Option.pure_def, Option.bind_eq_bind, Option.bind_eq_some_iff,
      Option.some.injEq] at h
    obtain ⟨b, _, r', hr, rfl⟩ := h
    rw [List.length_cons, List.length_cons, ih hr]

/-- The loop over groups writes the flags of the groups one after the other. -/
theorem flagLoop {tol : ℝ} (L : List (Nat × WarpedGroup)) (b : Nat) (flags : List Bool)
    (hb : ∀ (i : Nat) p, L[i]? = some p → p.1 = b + ((L.map fun p => p.2.els.length).take i).sum)
    (hlen : b + (L.map fun p => p.2.els.length).sum = flags.length) {out : List Bool}
    (h : L.foldlM (flagGroup tol) flags = .ok out) :
    ∃ valss : List (List Bool), (L.mapM fun p => p.2.els.mapM (elementFlag tol p.2)) = some valss ∧
      out = flags.take b ++ valss.flatten := by
  induction L generalizing b flags with
  | nil =>
    simp only [List.foldlM_nil, pure, Except.pure, Except.ok.injEq] at h
    subst h
    simp only [List.map_nil, List.sum_nil, add_zero] at hlen
    exact ⟨[], rfl, by rw [hlen]; simp⟩
  | cons p L ih =>
    rw [List.foldlM_cons] at h
    cases h1 : flagGroup tol flags p with
    | error e => rw [h1] at h; simp [bind, Except.bind] at h
    | ok l =>
      rw [h1] at h
      simp only [bind, Except.bind] at h
      obtain ⟨_, vals, hv, hs⟩ := flagGroup_ok h1
      have hvl := mapM_length_eq hv
      have hp : p.1 = b := by simpa using hb 0 p rfl
      simp only [List.map_cons, List.sum_cons] at hlen
      rw [setFlags_fit (by omega), Option.some_inj, hp] at hs
      have hll : l.length = flags.length := by
        rw [← hs]
        simp only [List.length_append, List.length_take, List.length_drop]
        omega
      obtain ⟨valss, h2, h3⟩ := ih (b + p.2.els.length) l
        (fun i q hq => by
          have := hb (i + 1) q hq
          simp only [List.map_cons, List.take_succ_cons, List.sum_cons] at this
          omega)
        (by omega) h
      refine ⟨vals :: valss, ?_, ?_⟩
      · rw [List.mapM_cons, hv, h2]
        rfl
      · rw [h3, List.flatten_cons, ← List.append_assoc]
        congr 1
        rw [← hs, List.take_append_of_le_length (by simp; omega)]
        rw [List.take_of_length_le (by simp; omega)]

theorem flatten_get {α : Type} (L : List (List α)) {i j : Nat} {row : List α} (hi : L[i]? = some row)
    (hj : j < row.length) : L.flatten[((L.map List.length).take i).sum + j]? = row[j]? := by
  induction L generalizing i with
  | nil => simp at hi
  | cons r L ih =>
    rcases i with _ | i
    · simp only [List.getElem?_cons_zero, Option.some.injEq] at hi
      subst hi
      simp [List.getElem?_append_left hj]
    · rw [List.getElem?_cons_succ] at hi
      rw [List.flatten_cons, List.map_cons, List.take_succ_cons, List.sum_cons,
        List.getElem?_append_right (by omega), ← ih hi]
      congr 1
      omega

theorem mapM_get {α β : Type} {f : α → Option β} {l : List α} {r : List β} (h : l.mapM f = some r) {i : Nat}
    {a : α} (ha : l[i]? = some a) : ∃ b, f a = some b ∧ r[i]? = some b := by
  induction l generalizing r i with
  | nil => simp at ha
  | cons x l ih =>
    simp only [List.mapM_cons, Option.pure_def, Option.bind_eq_bind, Option.bind_eq_some_iff,
      Option.some.injEq] at h
    obtain ⟨b, hb, r', hr, rfl⟩ := h
    rcases i with _ | i
    · simp only [List.getElem?_cons_zero, Option.some.injEq] at ha
      subst ha
      exact ⟨b, hb, rfl⟩
    · exact ih hr ha

theorem resolveFlags_ok {N P : Type} {tol : ℝ} {r : Refiner N P} {w : WarpedMesh} (hsame : SameElements w r)
    {flags : List Bool} (h : resolveFlags tol r.count w = .ok flags) :
    w.finite = true ∧ flags.length = r.count ∧
      ∀ (i e : Nat) g el, w.groups[i]? = some g → g.els[e]? = some el →
        ∃ b, elementFlag tol g el = some b ∧
          flags[((r.groups.map ElGroup.nelements).take i).sum + e]? = some b := by
  unfold resolveFlags at h
  split at h
  · simp at h
  · rename_i hf
    split at h
    · simp at h
    · rename_i hne
      set L := (baseElementNrs (w.groups.map fun g => g.els.length)).zip w.groups with hL
      have hlenb : w.groups.length ≤ (baseElementNrs (w.groups.map fun g => g.els.length)).length := by
        by_contra hlt
        have h1 := baseElementNrs_getElem? (w.groups.map fun g => g.els.length)
          (baseElementNrs (w.groups.map fun g => g.els.length)).length (by rw [List.length_map]; omega)
        rw [List.getElem?_eq_none (le_refl _)] at h1
        simp at h1
      have hsnd : L.map Prod.snd = w.groups := by
        rw [hL, List.map_snd_zip hlenb]
      have hmap : (L.map fun p => p.2.els.length) = w.groups.map fun g => g.els.length := by
        rw [← hsnd, List.map_map]
        rfl
      have hbase : ∀ (i : Nat) p, L[i]? = some p →
          p.1 = 0 + ((L.map fun p => p.2.els.length).take i).sum := by
        intro i p hp
        rw [hL] at hp
        obtain ⟨k1, k2⟩ := List.getElem?_zip_eq_some.1 hp
        have hi : i < w.groups.length := (List.getElem?_eq_some_iff.1 k2).1
        rw [baseElementNrs_getElem? _ _ (by simpa using hi), Option.some_inj] at k1
        rw [hmap, zero_add, k1]
      have hcount : (L.map fun p => p.2.els.length).sum = r.count := by
        rw [hmap]
        unfold Refiner.count
        rw [← hsame]
      obtain ⟨valss, hv, hout⟩ := flagLoop (tol := tol) L 0 (List.replicate r.count false) hbase
        (by rw [hcount, List.length_replicate, zero_add]) h
      rw [List.take_zero, List.nil_append] at hout
      have hvl : valss.map List.length = r.groups.map ElGroup.nelements := by
        rw [← hsame, ← hmap]
        apply List.ext_getElem?
        intro i
        rw [List.getElem?_map, List.getElem?_map]
        cases hLi : L[i]? with
        | none =>
          have h2 := mapM_length_eq hv
          rw [List.getElem?_eq_none (by rw [h2]; exact List.getElem?_eq_none_iff.1 hLi)]
          rfl
        | some p =>
          obtain ⟨vals, k1, k2⟩ := mapM_get hv hLi
          rw [k2, Option.map_some, Option.map_some, mapM_length_eq k1]
      refine ⟨by simpa using hf, ?_, ?_⟩
      · rw [hout, List.length_flatten, hvl]
        rfl
      · intro i e g el hg hel
        have hi : i < w.groups.length := (List.getElem?_eq_some_iff.1 hg).1
        have hLi : L[i]? = some (((w.groups.map fun g => g.els.length).take i).sum, g) := by
          rw [hL]
          exact List.getElem?_zip_eq_some.2 ⟨baseElementNrs_getElem? _ _ (by simpa using hi), hg⟩
        obtain ⟨vals, k1, k2⟩ := mapM_get hv hLi
        obtain ⟨b, k3, k4⟩ := mapM_get k1 hel
        refine ⟨b, k3, ?_⟩
        rw [hout, ← hvl, flatten_get valss k2 (List.getElem?_eq_some_iff.1 k4).1, k4]

/-! ## Properties -/

/-- **C86**: when `warp_and_refine_until_resolved` returns, the mesh returned is the current mesh of the refiner
after some sequence of refinements, and it is not refined further because in the warped mesh no element exceeds
the tolerance (if its coordinates do not vanish, see below).  Every refinement in the sequence was for the
warped mesh of that stage, at least one element was flagged, and the elements flagged are exactly those whose
estimate exceeds the tolerance. -/
theorem C86_resolved_partial {N P : Type} {geo : Geo N P} {warp : Refiner N P → WarpedMesh} {tol : ℝ}
    (hsame : ∀ r, SameElements (warp r) r) {k : Nat} {r r' : Refiner N P}
    (h : warpRefine geo warp tol k r = some (.ok r')) :
    (∃ fs : List (List Bool), r.run geo fs = some r' ∧ fs.length < k ∧
      ∀ (s : Nat) flags, fs[s]? = some flags → ∃ rs, r.run geo (fs.take s) = some rs ∧
        (∃ m : Nat, flags[m]? = some true) ∧ flags.length = rs.count ∧
        ∀ (i e : Nat) g el, (warp rs).groups[i]? = some g → g.els[e]? = some el → NoZeroCoordinate g el →
          (flags[((rs.groups.map ElGroup.nelements).take i).sum + e]? = some false ↔
            ElementResolved tol g el)) ∧
      (warp r').finite = true ∧
      ∀ (i e : Nat) g el, (warp r').groups[i]? = some g → g.els[e]? = some el → NoZeroCoordinate g el →
        ElementResolved tol g el := by
  have hfin : ∀ (w : WarpedMesh), w.finite = true → ∀ (i e : Nat) g el, w.groups[i]? = some g →
      g.els[e]? = some el → ∀ x ∈ el, x.all Option.isSome = true := by
    intro w hw i e g el hg hel x hx
    unfold WarpedMesh.finite at hw
    rw [Bool.and_eq_true] at hw
    have h1 := List.all_eq_true.1 hw.2 g (List.mem_of_getElem? hg)
    have h2 := List.all_eq_true.1 h1 el (List.mem_of_getElem? hel)
    exact List.all_eq_true.1 h2 x hx
  induction k generalizing r with
  | zero => simp [warpRefine] at h
  | succ k ih =>
    unfold warpRefine at h
    split at h
    · simp at h
    · rename_i flags hflags
      obtain ⟨h1, h2, h3⟩ := resolveFlags_ok (hsame r) hflags
      split at h
      · rename_i hc
        simp only [Option.some.injEq, Except.ok.injEq] at h
        subst h
        refine ⟨⟨[], rfl, by simp, by simp⟩, h1, ?_⟩
        intro i e g el hg hel hz
        obtain ⟨b, k1, k2⟩ := h3 i e g el hg hel
        have hb : b = false := by
          have := List.countP_eq_zero.1 hc b (List.mem_of_getElem? k2)
          simpa using this
        exact (elementFlag_spec (hfin _ h1 i e g el hg hel) hz k1).1 hb
      · rename_i hc
        split at h
        · simp at h
        · rename_i r1 hr1
          obtain ⟨⟨fs, k1, k2, k3⟩, k4, k5⟩ := ih h
          refine ⟨⟨flags :: fs, ?_, by simp; omega, ?_⟩, k4, k5⟩
          · simp only [Refiner.run, hr1]
            exact k1
          · intro s fl hs
            rcases s with _ | s
            · simp only [List.getElem?_cons_zero, Option.some.injEq] at hs
              subst hs
              refine ⟨r, rfl, ?_, h2, ?_⟩
              · obtain ⟨b, hb, hb'⟩ := List.countP_pos_iff.1 (Nat.pos_of_ne_zero hc)
                obtain ⟨m, hm⟩ := List.mem_iff_getElem?.1 hb
                exact ⟨m, by rw [hm]; simpa using hb'⟩
              · intro i e g el hg hel hz
                obtain ⟨b, q1, q2⟩ := h3 i e g el hg hel
                rw [q2, Option.some_inj]
                exact elementFlag_spec (hfin _ h1 i e g el hg hel) hz q1
            · rw [List.getElem?_cons_succ] at hs
              obtain ⟨rs, q1, q2⟩ := k3 s fl hs
              refine ⟨rs, ?_, q2⟩
              simp only [List.take_succ_cons, Refiner.run, hr1]
              exact q1

/-- **C86**: the elements of the mesh returned descend from those of the original mesh, each from exactly one of
them in the same group. -/
theorem C86_descend {N P : Type} {geo : Geo N P} (hgeo : geo.OK) {warp : Refiner N P → WarpedMesh} {tol : ℝ}
    (hsame : ∀ r, SameElements (warp r) r) {k : Nat} {r r' : Refiner N P}
    (hwf : ∀ g ∈ r.groups, g.vertexIndices.length = g.nodes.length)
    (h : warpRefine geo warp tol k r = some (.ok r')) {i : Nat} {g : ElGroup N} (hg : r.groups[i]? = some g) :
    ∃ fs g', r'.groups[i]? = some g' ∧ ExactMapping (r.descendants geo i fs) g.nelements g'.nelements := by
  obtain ⟨⟨fs, h1, _, _⟩, _, _⟩ := C86_resolved_partial hsame h
  obtain ⟨g', h2, h3⟩ := C20_history hgeo hwf h1 hg
  exact ⟨fs, g', h2, h3⟩

/-- **C86**: a mesh which is resolved is returned as it is. -/
theorem C86_unchanged {N P : Type} {geo : Geo N P} {warp : Refiner N P → WarpedMesh} {tol : ℝ} {r : Refiner N P}
    (hsame : SameElements (warp r) r) (hfin : (warp r).finite = true) (hne : (warp r).groups ≠ [])
    (hgrp : ∀ g ∈ (warp r).groups, g.modepy = true ∧ ∀ el ∈ g.els, el ≠ [] ∧ NoZeroCoordinate g el ∧
      ElementResolved tol g el) (k : Nat) :
    warpRefine geo warp tol (k + 1) r = some (.ok r) := by
  have hel : ∀ g ∈ (warp r).groups, ∀ el ∈ g.els, elementFlag tol g el = some false := by
    intro g hg el hel
    obtain ⟨h1, h2, h3⟩ := (hgrp g hg).2 el hel
    have hf : ∀ x ∈ el, x.all Option.isSome = true := by
      intro x hx
      unfold WarpedMesh.finite at hfin
      rw [Bool.and_eq_true] at hfin
      exact List.all_eq_true.1 (List.all_eq_true.1 (List.all_eq_true.1 hfin.2 g hg) el hel) x hx
    rcases el with _ | ⟨x, xs⟩
    · exact absurd rfl h1
    · have e : elementFlag tol g (x :: xs) = some (Est.exceeds tol ((xs.map fun x =>
        relError g (x.map (·.getD 0))).foldl Est.max (relError g (x.map (·.getD 0))))) := rfl
      rw [e]
      congr 1
      exact (elementFlag_spec hf h2 e).2 h3
  have hm : ∀ g ∈ (warp r).groups, g.els.mapM (elementFlag tol g) = some (List.replicate g.els.length false) := by
    intro g hg
    have : ∀ els : List (List (List Coord)), (∀ el ∈ els, elementFlag tol g el = some false) →
        els.mapM (elementFlag tol g) = some (List.replicate els.length false) := by
      intro els
      induction els with
      | nil => intro _; rfl
      | cons a els ih =>
        intro ha
        rw [List.mapM_cons, ha a (by simp), ih fun x hx => ha x (by simp [hx])]
        rfl
    exact this _ fun el hl => hel g hg el hl
  have hgo : ∀ (L : List (Nat × WarpedGroup)) (n : Nat), (∀ p ∈ L, p.2 ∈ (warp r).groups) →
      (∀ p ∈ L, p.1 + p.2.els.length ≤ n) →
      L.foldlM (flagGroup tol) (List.replicate n false) = .ok (List.replicate n false) := by
    intro L n hL hb
    induction L with
    | nil => rfl
    | cons p L ih =>
      have hp := hL p (by simp)
      have h1 : flagGroup tol (List.replicate n false) p = .ok (List.replicate n false) := by
        unfold flagGroup
        rw [if_neg (by rw [(hgrp _ hp).1]; simp), hm _ hp]
        have hbp := hb p (by simp)
        simp only
        rw [setFlags_fit (by simpa using hbp)]
        simp only [Except.ok.injEq]
        rw [List.take_replicate, List.drop_replicate, List.length_replicate, List.append_assoc,
          List.replicate_append_replicate, List.replicate_append_replicate]
        congr 1
        omega
      rw [List.foldlM_cons, h1]
      exact ih (fun q hq => hL q (by simp [hq])) fun q hq => hb q (by simp [hq])
  have hflags : resolveFlags tol r.count (warp r) = .ok (List.replicate r.count false) := by
    unfold resolveFlags
    rw [if_neg (by rw [hfin]; simp), if_neg hne]
    refine hgo _ _ (fun p hp => (List.of_mem_zip hp).2) ?_
    intro p hp
    obtain ⟨i, hi⟩ := List.mem_iff_getElem?.1 hp
    obtain ⟨k1, k2⟩ := List.getElem?_zip_eq_some.1 hi
    have hil : i < (warp r).groups.length := (List.getElem?_eq_some_iff.1 k2).1
    rw [baseElementNrs_getElem? _ _ (by simpa using hil), Option.some_inj] at k1
    rw [← k1]
    unfold Refiner.count
    rw [← hsame]
    set sizes := (warp r).groups.map fun g => g.els.length with hsz
    have hs : sizes[i]? = some p.2.els.length := by
      rw [hsz, List.getElem?_map, k2]
      rfl
    have h1 : (sizes.take i).sum + (sizes.drop i).sum = sizes.sum := by
      rw [← List.sum_append, List.take_append_drop]
    have hi' : i < sizes.length := (List.getElem?_eq_some_iff.1 hs).1
    rw [← List.getElem_cons_drop hi', List.sum_cons, (List.getElem?_eq_some_iff.1 hs).2] at h1
    omega
  unfold warpRefine
  rw [hflags]
  simp only
  rw [if_pos]
  rw [List.countP_eq_zero]
  intro b hb
  rw [(List.mem_replicate.1 hb).2]
  simp

/-- **C86**: a `FloatingPointError` is raised exactly when the warped mesh of some stage has a vertex or a node
which is not finite; before any flags are computed for that stage. -/
theorem C86_nonfinite {N P : Type} {geo : Geo N P} {warp : Refiner N P → WarpedMesh} {tol : ℝ} {k : Nat}
    {r : Refiner N P} :
    ((warp r).finite = false → warpRefine geo warp tol (k + 1) r = some (.error .nonFinite)) ∧
      (warpRefine geo warp tol k r = some (.error .nonFinite) →
        ∃ fs rs, r.run geo fs = some rs ∧ (warp rs).finite = false ∧ fs.length < k ∧
          ∀ (s : Nat) flags, fs[s]? = some flags → ∃ rs, r.run geo (fs.take s) = some rs ∧
            (warp rs).finite = true ∧ resolveFlags tol rs.count (warp rs) = .ok flags) := by
  constructor
  · intro h
    simp only [warpRefine, resolveFlags, h, if_true]
  · intro h
    induction k generalizing r with
    | zero => simp [warpRefine] at h
    | succ k ih =>
      unfold warpRefine at h
      split at h
      · rename_i e he
        simp only [Option.some.injEq, Except.error.injEq] at h
        subst h
        refine ⟨[], r, rfl, ?_, by simp, by simp⟩
        unfold resolveFlags at he
        split at he
        · rename_i hf
          exact hf
        · split at he
          · simp at he
          · exfalso
            have : ∀ (L : List (Nat × WarpedGroup)) (l : List Bool),
                L.foldlM (flagGroup tol) l ≠ .error .nonFinite := by
              intro L
              induction L with
              | nil => intro l hl; simp [pure, Except.pure] at hl
              | cons p L ih =>
                intro l hl
                rw [List.foldlM_cons] at hl
                cases h1 : flagGroup tol l p with
                | ok l' =>
                  rw [h1] at hl
                  exact ih l' hl
                | error e =>
                  rw [h1] at hl
                  simp only [bind, Except.bind, Except.error.injEq] at hl
                  subst hl
                  unfold flagGroup at h1
                  split at h1
                  · simp at h1
                  · split at h1
                    · simp at h1
                    · split at h1 <;> simp at h1
            exact this _ _ he
      · rename_i flags hflags
        split at h
        · simp at h
        · split at h
          · simp at h
          · rename_i r1 hr1
            obtain ⟨fs, rs, k1, k2, k3, k4⟩ := ih h
            refine ⟨flags :: fs, rs, by simp only [Refiner.run, hr1]; exact k1, k2, by simp; omega, ?_⟩
            intro s fl hs
            rcases s with _ | s
            · simp only [List.getElem?_cons_zero, Option.some.injEq] at hs
              subst hs
              refine ⟨r, rfl, ?_, hflags⟩
              by_contra hf
              rw [Bool.not_eq_true] at hf
              simp [resolveFlags, hf] at hflags
            · rw [List.getElem?_cons_succ] at hs
              obtain ⟨rs', q1, q2⟩ := k4 s fl hs
              exact ⟨rs', by simp only [List.take_succ_cons, Refiner.run, hr1]; exact q1, q2⟩

/-- **C86**, what fails: an element is never refined if one of its coordinate functions vanishes, as for an
element of a surface in a coordinate plane, however large the error in the other coordinates is: the estimate
for that coordinate is `0/0`. -/
theorem C86_zero_coordinate {tol : ℝ} {g : WarpedGroup} {el : List (List Coord)} {x : List Coord} {n : Nat}
    (hx : x ∈ el) (hzero : x = (List.replicate n (0 : ℝ)).map some) : elementFlag tol g el = some false := by
  have happ : ∀ m : List (List ℝ), coeffNorm (applyMat m (List.replicate n 0)) = 0 := by
    intro m
    have h1 : ∀ (row : List ℝ) (n : Nat), (List.zipWith (· * ·) row (List.replicate n (0 : ℝ))).sum = 0 := by
      intro row
      induction row with
      | nil => intro n; simp
      | cons a row ih =>
        intro n
        rcases n with _ | n
        · simp
        · rw [List.replicate_succ, List.zipWith_cons_cons, List.sum_cons, ih, mul_zero, add_zero]
    have h2 : (applyMat m (List.replicate n 0)).map (· ^ 2) = m.map fun _ => (0 : ℝ) := by
      unfold applyMat
      rw [List.map_map]
      refine List.map_congr_left fun row _ => ?_
      simp [h1]
    unfold coeffNorm
    rw [h2]
    simp
  have hnan : relError g (x.map (·.getD 0)) = .nan := by
    rw [hzero, getD_map_some]
    unfold relError estDiv
    rw [happ, happ, if_pos rfl, if_pos rfl]
  rcases el with _ | ⟨y, ys⟩
  · simp at hx
  · have e : elementFlag tol g (y :: ys) = some (Est.exceeds tol ((ys.map fun x =>
      relError g (x.map (·.getD 0))).foldl Est.max (relError g (y.map (·.getD 0))))) := rfl
    rw [e, foldl_estMax_nan]
    · rfl
    · rcases List.mem_cons.1 hx with rfl | hx
      · exact Or.inl hnan
      · exact Or.inr (List.mem_map.2 ⟨x, hx, hnan⟩)

/-- A group with one element of two nodes; the error estimate is the whole second coefficient.
(Example, no code.) -/
def exWarpedGroup (x y : List Coord) : WarpedGroup :=
  ⟨true, [[1, 0], [0, 1]], [[0, 0], [0, 1]], [[x, y]]⟩

/-- **C86**, what fails: with the second coordinate zero, the element is accepted for the tolerance 1/10, though
the estimated error of its first coordinate is all of the coordinate function; with the second coordinate one,
it is refined. -/
theorem C86_resolved_counterexample :
    elementFlag 0.1 (exWarpedGroup [some 0, some 1] [some 0, some 0]) [[some 0, some 1], [some 0, some 0]]
        = some false ∧
      ¬ ElementResolved 0.1 (exWarpedGroup [some 0, some 1] [some 0, some 0])
        [[some 0, some 1], [some 0, some 0]] ∧
      elementFlag 0.1 (exWarpedGroup [some 0, some 1] [some 1, some 0]) [[some 0, some 1], [some 1, some 0]]
        = some true := by
  refine ⟨C86_zero_coordinate (x := [some 0, some 0]) (n := 2) (by simp) rfl, ?_, ?_⟩
  · intro h
    have := h [some 0, some 1] (by simp) [0, 1] rfl
    simp [exWarpedGroup, applyMat, coeffNorm] at this
    norm_num at this
  · simp [elementFlag, exWarpedGroup, maxEst, relError, estDiv, applyMat, coeffNorm, Est.max, Est.exceeds]
    norm_num

example : SameElements ⟨[], [exWarpedGroup [some 3, some 0] [some 4, some 0]]⟩
    (⟨[], [⟨0, [], [[0, 1]], [()]⟩], none, [], []⟩ : Refiner Unit Unit) := rfl

example : NoZeroCoordinate (exWarpedGroup [some 3, some 0] [some 4, some 0]) [[some 3, some 0], [some 4, some 0]] ∧
    ElementResolved 0.1 (exWarpedGroup [some 3, some 0] [some 4, some 0]) [[some 3, some 0], [some 4, some 0]] := by
  constructor
  · intro x hx c hc
    rcases List.mem_cons.1 hx with rfl | hx
    · have : c = [3, 0] := by
        have := congrArg (List.map (·.getD 0)) hc
        rw [getD_map_some] at this
        exact this.symm
      subst this
      simp [exWarpedGroup, applyMat, coeffNorm]
    · rw [List.mem_singleton.1 hx] at hc
      have : c = [4, 0] := by
        have := congrArg (List.map (·.getD 0)) hc
        rw [getD_map_some] at this
        exact this.symm
      subst this
      simp [exWarpedGroup, applyMat, coeffNorm]
  · intro x hx c hc
    rcases List.mem_cons.1 hx with rfl | hx
    · have : c = [3, 0] := by
        have := congrArg (List.map (·.getD 0)) hc
        rw [getD_map_some] at this
        exact this.symm
      subst this
      simp [exWarpedGroup, applyMat, coeffNorm]
      norm_num
    · rw [List.mem_singleton.1 hx] at hc
      have : c = [4, 0] := by
        have := congrArg (List.map (·.getD 0)) hc
        rw [getD_map_some] at this
        exact this.symm
      subst this
      simp [exWarpedGroup, applyMat, coeffNorm]
      norm_num

end Meshmode
