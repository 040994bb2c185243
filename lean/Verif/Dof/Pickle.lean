import Mathlib.Data.List.Basic
import Mathlib.Data.List.Zip

/-!
# Pickling of DOF arrays (C37) and the consistency check (C38)

`DOFArray.__getstate__`, `__setstate__` (meshmode/dof_array.py:296-377),
`check_dofarray_against_discr` (meshmode/dof_array.py:612-635).
-/
namespace Meshmode

/-! ## Model of pickling -/

/-- An array of an array context: its values, its dimension, and, for contexts whose arrays have
them, the tags of the array and of its axes. Code: meshmode/dof_array.py:314-325. -/
structure PLeaf (V T : Type) where
  val : V
  ndim : Nat
  tags : Option (List T)
  axes : Option (List (List T))
  deriving DecidableEq

/-- An array context.  `tagged`: its arrays have `tags`, `axes` and `_with_new_tags` (as those of a
pytato context have, numpy arrays not). Code: meshmode/dof_array.py:296-325. -/
structure ACtx where
  id : Nat
  tagged : Bool
  deriving DecidableEq

/-- A `DOFArray`. Code: meshmode/dof_array.py:91-170. -/
structure PDof (V T : Type) where
  ctx : Option ACtx
  data : List (PLeaf V T)

variable {V T : Type}

/-- `actx.thaw(actx.freeze(ary))` for one array: an array of context `c` with the same values (and
tags, if it can have any). arraycontext is not part of the code modelled; this is taken from its
documentation. Code: meshmode/dof_array.py:309-312. -/
def rethaw (c : ACtx) (l : PLeaf V T) : PLeaf V T :=
  if c.tagged then ⟨l.val, l.ndim, some (l.tags.getD []), some (l.axes.getD (List.replicate l.ndim []))⟩
  else ⟨l.val, l.ndim, none, none⟩

/-- `actx.from_numpy`. Code: meshmode/dof_array.py:359-373. -/
def fromNumpy (c : ACtx) (a : V × Nat) : PLeaf V T :=
  if c.tagged then ⟨a.1, a.2, some [], some (List.replicate a.2 [])⟩ else ⟨a.1, a.2, none, none⟩

/-- `actx.tag_axis(i, tags, ary)`: adds tags, if the arrays have axes.
Code: meshmode/dof_array.py:359-373. -/
def tagAxis (i : Nat) (ts : List T) (l : PLeaf V T) : PLeaf V T :=
  { l with axes := l.axes.map fun axs => axs.modify i (· ++ ts) }

/-- A pickled state: the dictionary, or a bare list of arrays (older versions).
Code: meshmode/dof_array.py:314-325. -/
inductive PState (V T : Type) where
  | dict (data : List (V × Nat)) (tags : List (List T)) (axesTags : List (List (List T)))
  | legacy (data : List (V × Nat))

/-- Errors of pickling. Code: meshmode/dof_array.py:302-360. -/
inductive PickleErr where
  /-- `RuntimeError`: no `array_context_for_pickling` -/
  | noContext
  /-- `AssertionError` -/
  | assertion
  deriving DecidableEq, Repr

/-- `DOFArray.__getstate__`, meshmode/dof_array.py:296-325; `tls` is the pickling context. -/
def getState (tls : Option ACtx) (a : PDof V T) : Except PickleErr (PState V T) :=
  match tls with
  | none => .error .noContext
  | some actx =>
    match a.ctx with
    | none => .error .assertion
    | some c0 =>
      let ary := a.data.map (rethaw c0)
      let ary := if c0 ≠ actx then a.data.map (rethaw actx) else ary
      let hasAxes := match ary with
        | [] => false
        | l :: _ => l.axes.isSome
      .ok (.dict (ary.map fun l => (l.val, l.ndim)) (ary.map fun l => l.tags.getD [])
        (if hasAxes then ary.map fun l => l.axes.getD []
          else ary.map fun l => List.replicate l.ndim []))

/-- The loop body of `__setstate__`, meshmode/dof_array.py:359-375. -/
def setLeaf (actx : ACtx) (p : (V × Nat) × List T × List (List T)) : Except PickleErr (PLeaf V T) :=
  if p.2.2.length ≠ p.1.2 then .error .assertion
  else
    let d : PLeaf V T := fromNumpy actx p.1
    let d := match d.tags with
      | some _ => { d with tags := some p.2.1 }
      | none => d
    .ok (p.2.2.zipIdx.foldl (fun d q => tagAxis q.2 q.1 d) d)

/-- The loop of `__setstate__`. Code: meshmode/dof_array.py:357-377. -/
def setLeaves (actx : ACtx) : List ((V × Nat) × List T × List (List T)) →
    Except PickleErr (List (PLeaf V T))
  | [] => .ok []
  | p :: ps =>
      match setLeaf actx p with
      | .error e => .error e
      | .ok l =>
        match setLeaves actx ps with
        | .error e => .error e
        | .ok ls => .ok (l :: ls)

/-- `DOFArray.__setstate__`, meshmode/dof_array.py:327-377. -/
def setState (tls : Option ACtx) (st : PState V T) : Except PickleErr (PDof V T) :=
  match tls with
  | none => .error .noContext
  | some actx =>
    let s : List (V × Nat) × List (List T) × List (List (List T)) := match st with
      | .dict data tags axesTags => (data, tags, axesTags)
      | .legacy data => (data, data.map fun _ => [], data.map fun a => List.replicate a.2 [])
    if s.1.length ≠ s.2.1.length ∨ s.2.1.length ≠ s.2.2.length then .error .assertion
    else
      match setLeaves actx (s.1.zip (s.2.1.zip s.2.2)) with
      | .error e => .error e
      | .ok ls => .ok ⟨some actx, ls⟩

/-! ## Properties of pickling -/

/-- One list of tags per axis. (Specification or proof vocabulary, no code.) -/
def PLeaf.OK (l : PLeaf V T) : Prop := ∀ axs, l.axes = some axs → axs.length = l.ndim

theorem getState_eq {actx c0 : ACtx} {a : PDof V T} (ha : a.ctx = some c0) :
    getState (some actx) a = .ok (.dict (a.data.map fun l => (l.val, l.ndim))
      (a.data.map fun l => if actx.tagged then l.tags.getD [] else [])
      (a.data.map fun l => if actx.tagged then l.axes.getD (List.replicate l.ndim [])
        else List.replicate l.ndim [])) := by
  have key : (if c0 ≠ actx then a.data.map (rethaw actx) else a.data.map (rethaw c0)) =
      a.data.map (rethaw actx) := by
    split
    · rfl
    · rename_i h
      rw [not_not.1 h]
  unfold getState
  simp only [ha]
  rw [key]
  cases hd : a.data with
  | nil => simp
  | cons l ls =>
    by_cases ht : actx.tagged = true
    · simp [rethaw, ht]
    · have ht : actx.tagged = false := by simpa using ht
      have hf : (fun l : PLeaf V T => l.tags.getD []) ∘ rethaw actx = fun _ => [] := by
        funext l
        simp [rethaw, ht]
      simp [rethaw, ht, hf]

theorem modify_append_length {α : Type} (f : α → α) (l l' : List α) (a : α) :
    (l ++ a :: l').modify l.length f = l ++ f a :: l' := by
  induction l with
  | nil => rfl
  | cons b l ih => simp [ih]

theorem foldl_tagAxis (axs : List (List T)) (pre : List (List T)) (l : PLeaf V T)
    (h : l.axes = some (pre ++ List.replicate axs.length [])) :
    ((axs.zipIdx pre.length).foldl (fun d q => tagAxis q.2 q.1 d) l) =
      { l with axes := some (pre ++ axs) } := by
  induction axs generalizing pre l with
  | nil =>
    cases l
    simp only [List.length_nil, List.replicate_zero] at h
    subst h
    rfl
  | cons ax axs ih =>
    rw [List.zipIdx_cons, List.foldl_cons]
    have h1 : (tagAxis pre.length ax l).axes =
        some ((pre ++ [ax]) ++ List.replicate axs.length []) := by
      simp only [tagAxis, h, Option.map_some, List.length_cons, List.replicate_succ]
      rw [modify_append_length]
      simp
    have := ih (pre ++ [ax]) (tagAxis pre.length ax l) h1
    rw [List.length_append, List.length_singleton] at this
    rw [this]
    simp [tagAxis]

theorem foldl_tagAxis_none (axs : List (List T)) (k : Nat) (l : PLeaf V T) (h : l.axes = none) :
    ((axs.zipIdx k).foldl (fun d q => tagAxis q.2 q.1 d) l) = l := by
  induction axs generalizing k with
  | nil => rfl
  | cons ax axs ih =>
    rw [List.zipIdx_cons, List.foldl_cons]
    have : tagAxis k ax l = l := by
      cases l
      simp only at h
      subst h
      rfl
    rw [this, ih]

/-- The array made from stored values and tags. -/
theorem setLeaf_eq {actx : ACtx} {a : V × Nat} {ts : List T} {axs : List (List T)}
    (h : axs.length = a.2) :
    setLeaf actx (a, ts, axs) = .ok (if actx.tagged then ⟨a.1, a.2, some ts, some axs⟩
      else ⟨a.1, a.2, none, none⟩) := by
  unfold setLeaf
  rw [if_neg (by simpa using h)]
  simp only
  by_cases ht : actx.tagged = true
  · simp only [fromNumpy, ht, if_true]
    have := foldl_tagAxis axs [] (⟨a.1, a.2, some ts, some (List.replicate a.2 [])⟩ : PLeaf V T)
      (by simp [h])
    simp only [List.length_nil, List.nil_append] at this
    rw [this]
  · simp only [fromNumpy, ht, Bool.false_eq_true, if_false]
    rw [foldl_tagAxis_none _ _ _ rfl]

theorem setLeaves_map {α : Type} {actx : ACtx} (xs : List α) (f : α → V × Nat) (g : α → List T)
    (k : α → List (List T)) (h : ∀ x ∈ xs, (k x).length = (f x).2) :
    setLeaves actx ((xs.map f).zip ((xs.map g).zip (xs.map k))) =
      .ok (xs.map fun x => if actx.tagged then ⟨(f x).1, (f x).2, some (g x), some (k x)⟩
        else ⟨(f x).1, (f x).2, none, none⟩) := by
  induction xs with
  | nil => rfl
  | cons x xs ih =>
    simp only [List.map_cons, List.zip_cons_cons, setLeaves]
    rw [setLeaf_eq (h x List.mem_cons_self)]
    simp only
    rw [ih fun y hy => h y (List.mem_cons_of_mem _ hy)]

/-- C37, partial (arrays that are not frozen): the values come back, and the tags too if both
contexts' arrays have tags. -/
theorem C37_round_trip_partial {a : PDof V T} {c0 c1 c2 : ACtx} (ha : a.ctx = some c0)
    (hok : ∀ l ∈ a.data, l.OK) :
    ∃ st b, getState (some c1) a = .ok st ∧ setState (some c2) st = .ok b ∧ b.ctx = some c2 ∧
      (b.data.map fun l => (l.val, l.ndim)) = (a.data.map fun l => (l.val, l.ndim)) ∧
      (c1.tagged = true → c2.tagged = true →
        (b.data.map PLeaf.tags) = (a.data.map fun l => some (l.tags.getD [])) ∧
        (b.data.map PLeaf.axes) =
          (a.data.map fun l => some (l.axes.getD (List.replicate l.ndim [])))) := by
  have hs := setLeaves_map (actx := c2) a.data (fun l => (l.val, l.ndim))
    (fun l => if c1.tagged then l.tags.getD [] else [])
    (fun l => if c1.tagged then l.axes.getD (List.replicate l.ndim [])
        else List.replicate l.ndim []) (by
    intro l hl
    simp only
    split
    · cases hax : l.axes with
      | none => simp
      | some axs => simpa using hok l hl axs hax
    · simp)
  refine ⟨_, ⟨some c2, _⟩, getState_eq ha, by
    simp only [setState, List.length_map, ne_eq, not_true_eq_false, or_self, if_false]
    rw [hs], rfl, ?_, ?_⟩
  · rw [List.map_map]
    refine List.map_congr_left fun l _ => ?_
    simp only [Function.comp]
    split <;> rfl
  · intro h1 h2
    simp only [List.map_map, h1, h2, if_true]
    exact ⟨rfl, rfl⟩

/-- C37: what is stored does not depend on the context, except that contexts without tags store
none. -/
theorem C37_context_independent {a : PDof V T} {c0 c1 c1' : ACtx} (ha : a.ctx = some c0)
    (ht : c1.tagged = c1'.tagged) : getState (some c1) a = getState (some c1') a := by
  rw [getState_eq ha, getState_eq ha, ht]

/-- C37: the data stored does not depend on the context at all. -/
theorem C37_data_independent {a : PDof V T} {c0 c1 c1' : ACtx} (ha : a.ctx = some c0) :
    ∃ data tags axs tags' axs', getState (some c1) a = .ok (.dict data tags axs) ∧
      getState (some c1') a = .ok (.dict data tags' axs') :=
  ⟨_, _, _, _, _, getState_eq ha, getState_eq ha⟩

/-- C37: without `array_context_for_pickling` nothing is pickled or unpickled. -/
theorem C37_no_context (a : PDof V T) (st : PState V T) :
    getState none a = .error .noContext ∧ setState none st = .error .noContext := ⟨rfl, rfl⟩

/-- C37: states of older versions are read, with the same values. -/
theorem C37_legacy (c : ACtx) (data : List (V × Nat)) :
    ∃ b, setState (some c) (.legacy data : PState V T) = .ok b ∧ b.ctx = some c ∧
      (b.data.map fun l => (l.val, l.ndim)) = data := by
  have h := setLeaves_map (actx := c) (T := T) data id (fun _ => [])
    (fun a => List.replicate a.2 []) (by simp)
  rw [List.map_id] at h
  refine ⟨⟨some c, _⟩, by
    simp only [setState, List.length_map, ne_eq, not_true_eq_false, or_self, if_false]
    rw [h], rfl, ?_⟩
  · rw [List.map_map]
    conv_rhs => rw [← List.map_id data]
    refine List.map_congr_left fun l _ => ?_
    simp only [Function.comp, id]
    split <;> rfl

/-- C37 fails for frozen arrays: they cannot be pickled, against the documentation of `DOFArray`
("If `array_context` is *None*, the `DOFArray` is thawed into the array context given"). -/
theorem C37_frozen_counterexample (c : ACtx) (data : List (PLeaf V T)) :
    getState (some c) (⟨none, data⟩ : PDof V T) = .error .assertion := rfl

/-- Two groups, from a context without tags through one with tags. -/
example : (match getState (V := List Nat) (T := Nat) (some ⟨1, true⟩)
      ⟨some ⟨0, true⟩, [⟨[1, 2], 2, some [5], some [[6], []]⟩, ⟨[3], 2, some [], some [[], [7]]⟩]⟩ with
    | .ok st => match setState (some ⟨1, true⟩) st with
      | .ok b => b.data
      | .error _ => []
    | .error _ => []) =
    [⟨[1, 2], 2, some [5], some [[6], []]⟩, ⟨[3], 2, some [], some [[], [7]]⟩] := by decide +kernel

/-! ## The consistency check -/

/-- The argument of the check: not a `DOFArray`, or one with the shapes of its group arrays.
Code: meshmode/dof_array.py:612-635. -/
inductive CheckArg where
  | notDof
  | dof (shapes : List (List Nat))

/-- Outcomes of the check. Code: meshmode/dof_array.py:612-635. -/
inductive CheckRes where
  | ok
  | typeError
  /-- `InconsistentDOFArray`, wrong number of groups -/
  | groupCount
  /-- `InconsistentDOFArray`, group `i` -/
  | shape (i : Nat)
  deriving DecidableEq, Repr

/-- The loop of `check_dofarray_against_discr`, meshmode/dof_array.py:612-635; discretization groups
by `nelements`, `nunit_dofs`. -/
def checkShapes : Nat → List (Nat × Nat) → List (List Nat) → CheckRes
  | i, g :: gs, s :: ss => if s ≠ [g.1, g.2] then .shape i else checkShapes (i + 1) gs ss
  | _, _, _ => .ok

/-- `check_dofarray_against_discr`, meshmode/dof_array.py:612-635. -/
def checkDofArray (groups : List (Nat × Nat)) : CheckArg → CheckRes
  | .notDof => .typeError
  | .dof shapes =>
      if shapes.length ≠ groups.length then .groupCount else checkShapes 0 groups shapes

theorem checkShapes_ok (i : Nat) (gs : List (Nat × Nat)) (ss : List (List Nat))
    (hl : ss.length = gs.length) :
    checkShapes i gs ss = .ok ↔ ss = gs.map fun g => [g.1, g.2] := by
  induction gs generalizing i ss with
  | nil =>
    rw [List.length_nil, List.length_eq_zero_iff] at hl
    subst hl
    simp [checkShapes]
  | cons g gs ih =>
    cases ss with
    | nil => simp at hl
    | cons s ss =>
      rw [checkShapes]
      by_cases h : s = [g.1, g.2]
      · rw [if_neg (by simpa using h), ih _ _ (by simpa using hl)]
        simp [h]
      · rw [if_pos (by simpa using h)]
        simp [h]

/-- C38: exactly the arrays with the right number of groups and the right shapes are accepted. -/
theorem C38_exact (groups : List (Nat × Nat)) (a : CheckArg) :
    checkDofArray groups a = .ok ↔ a = .dof (groups.map fun g => [g.1, g.2]) := by
  cases a with
  | notDof => simp [checkDofArray]
  | dof shapes =>
    simp only [checkDofArray]
    by_cases h : shapes.length = groups.length
    · rw [if_neg (by simpa using h), checkShapes_ok _ _ _ h]
      simp
    · rw [if_pos (by simpa using h)]
      simp only [CheckArg.dof.injEq, reduceCtorEq, false_iff]
      rintro rfl
      simp at h

theorem checkShapes_shape (i j : Nat) (gs : List (Nat × Nat)) (ss : List (List Nat))
    (h : checkShapes i gs ss = .shape j) :
    ∃ k g s, j = i + k ∧ gs[k]? = some g ∧ ss[k]? = some s ∧ s ≠ [g.1, g.2] := by
  induction gs generalizing i ss with
  | nil => simp [checkShapes] at h
  | cons g gs ih =>
    cases ss with
    | nil => simp [checkShapes] at h
    | cons s ss =>
      rw [checkShapes] at h
      split at h
      · rename_i hs
        simp only [CheckRes.shape.injEq] at h
        exact ⟨0, g, s, by omega, rfl, rfl, hs⟩
      · obtain ⟨k, g', s', h1, h2, h3, h4⟩ := ih _ _ h
        exact ⟨k + 1, g', s', by omega, by simpa using h2, by simpa using h3, h4⟩

/-- C38: a group named in the error does have the wrong shape. -/
theorem C38_named_group {groups : List (Nat × Nat)} {shapes : List (List Nat)} {i : Nat}
    (h : checkDofArray groups (.dof shapes) = .shape i) :
    ∃ g s, groups[i]? = some g ∧ shapes[i]? = some s ∧ s ≠ [g.1, g.2] := by
  simp only [checkDofArray] at h
  split at h
  · simp at h
  · obtain ⟨k, g, s, h1, h2, h3, h4⟩ := checkShapes_shape _ _ _ _ h
    rw [Nat.zero_add] at h1
    subst h1
    exact ⟨g, s, h2, h3, h4⟩

example : checkDofArray [(2, 3), (4, 6)] (.dof [[2, 3], [4, 6]]) = .ok ∧
    checkDofArray [(2, 3), (4, 6)] (.dof [[2, 3], [4, 1]]) = .shape 1 ∧
    checkDofArray [(2, 3)] (.dof [[2, 3], [4, 1]]) = .groupCount ∧
    checkDofArray [(2, 3)] (.dof [[2]]) = .shape 0 := by decide

end Meshmode
