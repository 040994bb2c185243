import Mathlib.Data.List.Sort
import Mathlib.Data.List.Basic

/-!
# Choosing how to run a kernel in parallel (C109)

`PyOpenCLArrayContext.transform_loopy_program`, `_transform_loopy_inner`,
`_transform_with_element_and_dof_inames` and the removal of tags in
`PytatoPyOpenCLArrayContext.transform_dag` (meshmode/array_context.py:62-283). What loopy and pytato do is not
modelled: a transformed program is the list of transformations asked for.
-/
namespace Meshmode

variable {S : Type} [LinearOrder S]

/-! ## Model -/

/-- A subscript: a `Variable`, or any other expression. Code: meshmode/array_context.py:116-121, 155-160. -/
inductive LpIndex (S : Type) where
  | var (name : S) | other
  deriving DecidableEq, Repr

/-- An assignee: a `Variable`, a `Subscript` (of a variable), or another expression.
Code: meshmode/array_context.py:85, 107-114, 144-149. -/
inductive LpAssignee (S : Type) where
  | var (name : S) | subscript (name : S) (index : List (LpIndex S)) | other
  deriving DecidableEq, Repr

/-- An instruction: `lp.Assignment`, another `lp.MultiAssignmentBase`, or one that assigns nothing.
Code: meshmode/array_context.py:77-79, 104-105, 141-142. -/
inductive LpStmt (S : Type) where
  | assignment (a : LpAssignee S) | call (as : List (LpAssignee S)) | other
  deriving DecidableEq, Repr

/-- `stmt.assignees` of a `MultiAssignmentBase`, nothing for others.
Code: meshmode/array_context.py:105-106, 142-143. -/
def LpStmt.assignees : LpStmt S → List (LpAssignee S)
  | .assignment a => [a]
  | .call as => as
  | .other => []

/-- What the function reads of a kernel: options, the two tags, instructions, arguments (with
`FirstAxisIsElementsTag` or without), inames (with `ConcurrentElementInameTag` and `ConcurrentDOFInameTag`).
Code: meshmode/array_context.py:69-72, 104, 134-135, 176-181, 224-225. -/
structure LpKernel (S : Type) where
  returnDict : Bool := true
  noNumpy : Bool := true
  firstAxisTag : Bool := false
  elementwiseTag : Bool := false
  instructions : List (LpStmt S)
  args : List (S × Bool)
  inames : List (S × Bool × Bool)

/-- Exceptions. Code: meshmode/array_context.py:80-87, 112-121, 145-160, 195-197, 225-229. -/
inductive LpErr where
  /-- "FirstAxisIsElementsTag may only be applied to a kernel if …" -/
  | notSingle
  /-- "single assignment in FirstAxisIsElementsTag kernel must be a subscript" -/
  | singleNotSubscript
  /-- "assignees in …-tagged kernels must be subscripts" -/
  | assignee
  /-- "subscripts in …-tagged kernels must be inames" -/
  | subscript
  /-- "Some inames are marked as both 'element' and 'dof' inames" -/
  | both
  /-- "Loopy kernel passed to call_loopy must have return_dict and no_numpy options set" -/
  | options
  deriving DecidableEq, Repr

/-- A transformation asked for: `lp.split_iname(…, 32, inner_tag="l.0")`, `lp.tag_inames(…, "g.0")`.
Code: meshmode/array_context.py:203-206. -/
inductive LpStep (S : Type) where
  | split (iname : S) | tag (iname : S)
  deriving DecidableEq, Repr

/-- The result: the arguments of the kernel and the transformations in order.
Code: meshmode/array_context.py:90-95, 203-207. -/
structure LpResult (S : Type) where
  args : List (S × Bool)
  steps : List (LpStep S)
  deriving DecidableEq, Repr

/-- The compatibility code for a tag on the kernel: the arguments, with the output tagged.
Code: meshmode/array_context.py:76-95. -/
def tagOutput (k : LpKernel S) : Except LpErr (List (S × Bool)) :=
  if k.firstAxisTag then
    match k.instructions with
    | [.assignment (.subscript name _)] =>
      .ok (k.args.map fun a => if a.1 = name then (a.1, true) else a)
    | [.assignment _] => .error .singleNotSubscript
    | _ => .error .notSingle
  else .ok k.args

/-- `default_ep.all_inames()`, meshmode/array_context.py:118, 157. -/
def LpKernel.allInames (k : LpKernel S) : List S := k.inames.map Prod.fst

/-- The test of one subscript, meshmode/array_context.py:117-121, 156-160. -/
def indexName (k : LpKernel S) : LpIndex S → Except LpErr S
  | .var n => if n ∈ k.allInames then .ok n else .error .subscript
  | .other => .error .subscript

/-- The loop over `assignee.index_tuple[:2]`, meshmode/array_context.py:116-126, 153-165: element and
degree-of-freedom inames. -/
def subscriptNames (k : LpKernel S) : List (LpIndex S) → Except LpErr (List S × List S)
  | [] => .ok ([], [])
  | [i] => do let e ← indexName k i; pure ([e], [])
  | i :: j :: _ => do let e ← indexName k i; let d ← indexName k j; pure ([e], [d])

/-- The body of the loop over assignees for `ElementwiseMapKernelTag`, meshmode/array_context.py:107-126. -/
def elementwiseNames (k : LpKernel S) : LpAssignee S → Except LpErr (List S × List S)
  | .var _ => .ok ([], [])
  | .subscript _ idx => subscriptNames k idx
  | .other => .error .assignee

/-- The body of the loop over assignees for `FirstAxisIsElementsTag`, meshmode/array_context.py:144-165. -/
def firstAxisNames (k : LpKernel S) (outs : List S) : LpAssignee S → Except LpErr (List S × List S)
  | .subscript n idx => if n ∈ outs then subscriptNames k idx else .ok ([], [])
  | _ => .error .assignee

/-- The two lists filled by a loop over all assignees, meshmode/array_context.py:102-126, 138-165. -/
def collectNames (f : LpAssignee S → Except LpErr (List S × List S)) :
    List (LpAssignee S) → Except LpErr (List S × List S)
  | [] => .ok ([], [])
  | a :: as => do
    let x ← f a
    let y ← collectNames f as
    pure (x.1 ++ y.1, x.2 ++ y.2)

/-- `_transform_with_element_and_dof_inames`, meshmode/array_context.py:192-207. -/
def transformSteps (el dof : List S) : Except LpErr (List (LpStep S)) :=
  if el.any fun n => dof.contains n then .error .both
  else .ok ((dof.insertionSort (· ≤ ·)).map .split ++ (el.insertionSort (· ≤ ·)).map .tag)

/-- The assignees of a kernel in order, meshmode/array_context.py:104-106, 141-143. -/
def LpKernel.assignees (k : LpKernel S) : List (LpAssignee S) := k.instructions.flatMap LpStmt.assignees

/-- Calling `_transform_with_element_and_dof_inames`, meshmode/array_context.py:128, 166, 184. -/
def finishTransform (args : List (S × Bool)) (names : List S × List S) : Except LpErr (Option (LpResult S)) := do
  let steps ← transformSteps names.1 names.2
  pure (some ⟨args, steps⟩)

/-- `first_axis_el_args`, meshmode/array_context.py:134-135. -/
def taggedArgs (args : List (S × Bool)) : List S := (args.filter fun a => a.2).map Prod.fst

/-- The inames with element and degree-of-freedom tags, meshmode/array_context.py:176-181. -/
def tagNames (k : LpKernel S) : List S × List S :=
  ((k.inames.filter fun i => i.2.1).map Prod.fst, (k.inames.filter fun i => i.2.2).map Prod.fst)

/-- `_transform_loopy_inner` after the compatibility code, meshmode/array_context.py:101-189. -/
def transformTagged (k : LpKernel S) (args : List (S × Bool)) : Except LpErr (Option (LpResult S)) :=
  if k.elementwiseTag then do
    let names ← collectNames (elementwiseNames k) k.assignees
    finishTransform args names
  else if taggedArgs args ≠ [] then do
    let names ← collectNames (firstAxisNames k (taggedArgs args)) k.assignees
    finishTransform args names
  else if (tagNames k).1 ≠ [] then finishTransform args (tagNames k)
  else .ok none

/-- `_transform_loopy_inner`, meshmode/array_context.py:62-189. -/
def transformInner (k : LpKernel S) : Except LpErr (Option (LpResult S)) := do
  let args ← tagOutput k
  transformTagged k args

/-- What `transform_loopy_program` returns: the transformed program, or that of the base class (after a
warning). Code: meshmode/array_context.py:231-245. -/
inductive LpOutcome (S : Type) where
  | transformed (r : LpResult S) | base (k : LpKernel S)

/-- `PyOpenCLArrayContext.transform_loopy_program`, meshmode/array_context.py:222-245. -/
def transformProgram (k : LpKernel S) : Except LpErr (LpOutcome S) :=
  if ¬ (k.returnDict ∧ k.noNumpy) then .error .options else do
    let r ← transformInner k
    match r with
    | some r => pure (.transformed r)
    | none => pure (.base k)

/-! ## Specification -/

/-- The instruction assigns to `a`. (Specification or proof vocabulary, no code.) -/
inductive LpStmt.Assigns : LpStmt S → LpAssignee S → Prop
  | one (a : LpAssignee S) : Assigns (.assignment a) a
  | many {as : List (LpAssignee S)} {a : LpAssignee S} : a ∈ as → Assigns (.call as) a

/-- Some instruction of the kernel assigns to `a`. (Specification or proof vocabulary, no code.) -/
def LpKernel.Assigns (k : LpKernel S) (a : LpAssignee S) : Prop := ∃ stmt ∈ k.instructions, stmt.Assigns a

/-- The iname `n` is subscript number `pos` of an assignee that `sel` selects.
(Specification or proof vocabulary, no code.) -/
def IsSubscript (k : LpKernel S) (sel : S → Prop) (pos : Nat) (n : S) : Prop :=
  ∃ stmt ∈ k.instructions, ∃ a, stmt.Assigns a ∧ ∃ name idx, a = .subscript name idx ∧ sel name ∧
    idx[pos]? = some (.var n)

/-- The inames split in a result. (Specification or proof vocabulary, no code.) -/
def splitsOf (steps : List (LpStep S)) : List S :=
  steps.filterMap fun s => match s with | .split n => some n | .tag _ => none

/-- The inames tagged in a result. (Specification or proof vocabulary, no code.) -/
def tagsOf (steps : List (LpStep S)) : List S :=
  steps.filterMap fun s => match s with | .tag n => some n | .split _ => none

/-! ## Lemmas -/

omit [LinearOrder S] in
theorem splits_steps (dof el : List S) : splitsOf (dof.map LpStep.split ++ el.map .tag) = dof := by
  induction dof with
  | nil =>
    simp only [List.map_nil, List.nil_append, splitsOf, List.filterMap_map]
    exact List.filterMap_eq_nil_iff.2 fun _ _ => rfl
  | cons d dof ih => simp [splitsOf]

omit [LinearOrder S] in
theorem tags_steps (dof el : List S) : tagsOf (dof.map LpStep.split ++ el.map .tag) = el := by
  induction dof with
  | nil =>
    simp only [List.map_nil, List.nil_append, tagsOf, List.filterMap_map]
    induction el with
    | nil => rfl
    | cons e el ih => simp
  | cons d dof ih => simp [tagsOf]

theorem any_contains {el dof : List S} : (el.any fun n => dof.contains n) = true ↔ ∃ n ∈ el, n ∈ dof := by
  simp [List.any_eq_true]

theorem sort_perm_eq {a b : List S} (h : a.Perm b) : a.insertionSort (· ≤ ·) = b.insertionSort (· ≤ ·) := by
  have hp : (a.insertionSort (· ≤ ·)).Perm (b.insertionSort (· ≤ ·)) :=
    (List.perm_insertionSort _ a).trans (h.trans (List.perm_insertionSort _ b).symm)
  exact hp.eq_of_pairwise (fun x y _ _ h1 h2 => le_antisymm h1 h2) (List.pairwise_insertionSort _ a)
    (List.pairwise_insertionSort _ b)

/-! ## Properties: the transformations -/

/-- **C109**: the transformations fail exactly if some iname is both; otherwise the degree-of-freedom inames are
split and the element inames tagged, each as often as it was found, first the splits, both in sorted order. -/
theorem C109_steps (el dof : List S) :
    (transformSteps el dof = .error .both ↔ ∃ n ∈ el, n ∈ dof) ∧
    ∀ steps, transformSteps el dof = .ok steps → (∀ n ∈ el, n ∉ dof) ∧
      (splitsOf steps).Perm dof ∧ (tagsOf steps).Perm el ∧ (splitsOf steps).Pairwise (· ≤ ·) ∧
      (tagsOf steps).Pairwise (· ≤ ·) ∧ steps = (splitsOf steps).map .split ++ (tagsOf steps).map .tag := by
  unfold transformSteps
  constructor
  · rw [← any_contains]
    split
    · rename_i h; exact ⟨fun _ => h, fun _ => rfl⟩
    · rename_i h; simp only [h]; simp
  · intro steps h
    split at h
    · simp at h
    · rename_i hno
      cases h
      rw [any_contains] at hno
      rw [splits_steps, tags_steps]
      exact ⟨fun n hn hd => hno ⟨n, hn, hd⟩, List.perm_insertionSort _ _, List.perm_insertionSort _ _,
        List.pairwise_insertionSort _ _, List.pairwise_insertionSort _ _, rfl⟩

example : transformSteps [2, 1] [7] = .ok [.split 7, .tag 1, .tag 2] ∧
    transformSteps [1] [7, 1] = .error .both := by decide +kernel

/-- **C109**: the transformations do not depend on the order in which the inames were found. -/
theorem C109_steps_order {el el' dof dof' : List S} (h1 : el.Perm el') (h2 : dof.Perm dof') :
    transformSteps el dof = transformSteps el' dof' := by
  unfold transformSteps
  rw [sort_perm_eq h1, sort_perm_eq h2]
  have : (el.any fun n => dof.contains n) = (el'.any fun n => dof'.contains n) := by
    rw [Bool.eq_iff_iff, any_contains, any_contains]
    constructor
    · rintro ⟨n, a, b⟩; exact ⟨n, h1.subset a, h2.subset b⟩
    · rintro ⟨n, a, b⟩; exact ⟨n, h1.symm.subset a, h2.symm.subset b⟩
  rw [this]

example : ([1, 2] : List Nat).Perm [2, 1] ∧ transformSteps [1, 2] [7] = transformSteps [2, 1] [7] := by
  exact ⟨List.Perm.swap _ _ _, by decide +kernel⟩

theorem lp_bind_ok {α β : Type} {x : Except LpErr α} {f : α → Except LpErr β} {b : β} :
    (x >>= f) = .ok b ↔ ∃ a, x = .ok a ∧ f a = .ok b := by
  cases x with
  | error e =>
    constructor
    · intro h; cases h
    · rintro ⟨a, h, _⟩; cases h
  | ok a =>
    constructor
    · intro h; exact ⟨a, rfl, h⟩
    · rintro ⟨a', h, h'⟩; cases h; exact h'

omit [LinearOrder S] in
theorem collect_ok {f : LpAssignee S → Except LpErr (List S × List S)} {l : List (LpAssignee S)}
    {r : List S × List S} : collectNames f l = .ok r ↔
      ∃ xs : List (List S × List S), l.map f = xs.map .ok ∧ r = ((xs.map Prod.fst).flatten, (xs.map Prod.snd).flatten) := by
  induction l generalizing r with
  | nil =>
    simp only [collectNames, List.map_nil, Except.ok.injEq]
    constructor
    · rintro rfl; exact ⟨[], rfl, rfl⟩
    · rintro ⟨xs, h, rfl⟩
      have : xs = [] := List.map_eq_nil_iff.1 h.symm
      subst this; rfl
  | cons a l ih =>
    rw [collectNames, lp_bind_ok]
    constructor
    · rintro ⟨x, hx, h⟩
      obtain ⟨y, hy, h⟩ := lp_bind_ok.1 h
      cases h
      obtain ⟨xs, h1, rfl⟩ := ih.1 hy
      exact ⟨x :: xs, by simp [hx, h1], by simp⟩
    · rintro ⟨xs, h, rfl⟩
      cases xs with
      | nil => simp at h
      | cons x xs =>
        simp only [List.map_cons, List.cons.injEq] at h
        exact ⟨x, h.1, lp_bind_ok.2 ⟨_, ih.2 ⟨xs, h.2, rfl⟩, by simp; rfl⟩⟩

omit [LinearOrder S] in
theorem collect_perm {f : LpAssignee S → Except LpErr (List S × List S)} {l l' : List (LpAssignee S)}
    (hp : l.Perm l') {r : List S × List S} (h : collectNames f l = .ok r) :
    ∃ r', collectNames f l' = .ok r' ∧ r.1.Perm r'.1 ∧ r.2.Perm r'.2 := by
  induction hp generalizing r with
  | nil => exact ⟨r, h, .refl _, .refl _⟩
  | cons x _ ih =>
    rw [collectNames] at h
    obtain ⟨a, ha, h⟩ := lp_bind_ok.1 h
    obtain ⟨b, hb, h⟩ := lp_bind_ok.1 h
    cases h
    obtain ⟨b', hb', p1, p2⟩ := ih hb
    refine ⟨(a.1 ++ b'.1, a.2 ++ b'.2), ?_, List.Perm.append_left _ p1, List.Perm.append_left _ p2⟩
    rw [collectNames]
    exact lp_bind_ok.2 ⟨a, ha, lp_bind_ok.2 ⟨b', hb', rfl⟩⟩
  | swap x y l =>
    rw [collectNames] at h
    obtain ⟨a, ha, h⟩ := lp_bind_ok.1 h
    obtain ⟨b, hb, h⟩ := lp_bind_ok.1 h
    cases h
    rw [collectNames] at hb
    obtain ⟨c, hc, hb⟩ := lp_bind_ok.1 hb
    obtain ⟨d, hd, hb⟩ := lp_bind_ok.1 hb
    cases hb
    refine ⟨(c.1 ++ (a.1 ++ d.1), c.2 ++ (a.2 ++ d.2)), ?_, ?_, ?_⟩
    · rw [collectNames]
      refine lp_bind_ok.2 ⟨c, hc, lp_bind_ok.2 ⟨(a.1 ++ d.1, a.2 ++ d.2), ?_, rfl⟩⟩
      rw [collectNames]
      exact lp_bind_ok.2 ⟨a, ha, lp_bind_ok.2 ⟨d, hd, rfl⟩⟩
    · exact List.perm_append_comm_assoc _ _ _
    · exact List.perm_append_comm_assoc _ _ _
  | trans _ _ ih1 ih2 =>
    obtain ⟨r1, h1, p1, p2⟩ := ih1 h
    obtain ⟨r2, h2, q1, q2⟩ := ih2 h1
    exact ⟨r2, h2, p1.trans q1, p2.trans q2⟩

theorem indexName_ok {k : LpKernel S} {i : LpIndex S} {n : S} :
    indexName k i = .ok n ↔ i = .var n ∧ n ∈ k.allInames := by
  cases i with
  | other => simp [indexName]
  | var m =>
    by_cases h : m ∈ k.allInames
    · simp only [indexName, if_pos h, Except.ok.injEq, LpIndex.var.injEq]
      exact ⟨fun h' => by subst h'; exact ⟨rfl, h⟩, fun h' => h'.1⟩
    · simp only [indexName, if_neg h, LpIndex.var.injEq]
      constructor
      · intro h'; cases h'
      · rintro ⟨rfl, h2⟩; exact absurd h2 h

/-- The names found at the first two subscripts. -/
theorem subscript_ok {k : LpKernel S} {idx : List (LpIndex S)} {r : List S × List S}
    (h : subscriptNames k idx = .ok r) :
    (∀ n, n ∈ r.1 ↔ idx[0]? = some (.var n)) ∧ (∀ n, n ∈ r.2 ↔ idx[1]? = some (.var n)) := by
  match idx with
  | [] => simp only [subscriptNames] at h; cases h; simp
  | [i] =>
    simp only [subscriptNames] at h
    obtain ⟨e, he, h⟩ := lp_bind_ok.1 h
    cases h
    obtain ⟨rfl, -⟩ := indexName_ok.1 he
    simp [eq_comm]
  | i :: j :: l =>
    simp only [subscriptNames] at h
    obtain ⟨e, he, h⟩ := lp_bind_ok.1 h
    obtain ⟨d, hd, h⟩ := lp_bind_ok.1 h
    cases h
    obtain ⟨rfl, -⟩ := indexName_ok.1 he
    obtain ⟨rfl, -⟩ := indexName_ok.1 hd
    simp [eq_comm]

theorem subscript_defined {k : LpKernel S} {idx : List (LpIndex S)} :
    (∃ r, subscriptNames k idx = .ok r) ↔ ∀ i ∈ idx.take 2, ∃ n ∈ k.allInames, i = .var n := by
  match idx with
  | [] => simp [subscriptNames]
  | [i] =>
    simp only [subscriptNames, lp_bind_ok]
    constructor
    · rintro ⟨r, e, he, -⟩ i' hi'
      obtain ⟨h1, h2⟩ := indexName_ok.1 he
      simp only [List.take_succ_cons, List.take_nil, List.mem_singleton] at hi'
      subst hi'
      exact ⟨e, h2, h1⟩
    · intro h
      obtain ⟨n, hn, rfl⟩ := h i (by simp)
      exact ⟨_, n, indexName_ok.2 ⟨rfl, hn⟩, rfl⟩
  | i :: j :: l =>
    simp only [subscriptNames, lp_bind_ok]
    constructor
    · rintro ⟨r, e, he, d, hd, -⟩ i' hi'
      simp only [List.take_succ_cons, List.take_zero, List.mem_cons, List.not_mem_nil, or_false] at hi'
      rcases hi' with rfl | rfl
      · exact ⟨e, (indexName_ok.1 he).2, (indexName_ok.1 he).1⟩
      · exact ⟨d, (indexName_ok.1 hd).2, (indexName_ok.1 hd).1⟩
    · intro h
      obtain ⟨n, hn, rfl⟩ := h i (by simp)
      obtain ⟨n', hn', rfl⟩ := h j (by simp)
      exact ⟨_, n, indexName_ok.2 ⟨rfl, hn⟩, n', indexName_ok.2 ⟨rfl, hn'⟩, rfl⟩

omit [LinearOrder S] in
theorem collect_mem {f : LpAssignee S → Except LpErr (List S × List S)} {l : List (LpAssignee S)}
    {r : List S × List S} (h : collectNames f l = .ok r) (n : S) :
    (n ∈ r.1 ↔ ∃ a ∈ l, ∃ x, f a = .ok x ∧ n ∈ x.1) ∧ (n ∈ r.2 ↔ ∃ a ∈ l, ∃ x, f a = .ok x ∧ n ∈ x.2) := by
  induction l generalizing r with
  | nil => simp only [collectNames] at h; cases h; simp
  | cons a l ih =>
    rw [collectNames] at h
    obtain ⟨x, hx, h⟩ := lp_bind_ok.1 h
    obtain ⟨y, hy, h⟩ := lp_bind_ok.1 h
    cases h
    obtain ⟨i1, i2⟩ := ih hy
    have hx1 : ∀ p : List S × List S → Prop, (∃ z, f a = .ok z ∧ p z) ↔ p x := fun p =>
      ⟨fun ⟨z, hz, hp⟩ => by rw [hx] at hz; cases hz; exact hp, fun hp => ⟨x, hx, hp⟩⟩
    simp only [List.mem_append, List.exists_mem_cons_iff, i1, i2, hx1]
    exact ⟨trivial, trivial⟩

omit [LinearOrder S] in
theorem collect_defined {f : LpAssignee S → Except LpErr (List S × List S)} {l : List (LpAssignee S)} :
    (∃ r, collectNames f l = .ok r) ↔ ∀ a ∈ l, ∃ x, f a = .ok x := by
  induction l with
  | nil => simp [collectNames]
  | cons a l ih =>
    rw [List.forall_mem_cons, ← ih]
    simp only [collectNames, lp_bind_ok]
    constructor
    · rintro ⟨r, x, hx, y, hy, -⟩; exact ⟨⟨x, hx⟩, y, hy⟩
    · rintro ⟨⟨x, hx⟩, y, hy⟩; exact ⟨_, x, hx, y, hy, rfl⟩

omit [LinearOrder S] in
theorem mem_assignees {k : LpKernel S} {a : LpAssignee S} :
    a ∈ k.assignees ↔ k.Assigns a := by
  simp only [LpKernel.assignees, List.mem_flatMap, LpKernel.Assigns]
  refine exists_congr fun st => and_congr_right fun _ => ?_
  cases st with
  | assignment b =>
    simp only [LpStmt.assignees, List.mem_singleton]
    exact ⟨fun h => h ▸ .one _, fun h => by cases h; rfl⟩
  | call as => exact ⟨.many, fun h => by cases h; assumption⟩
  | other => exact ⟨fun h => (by cases h), fun h => (by cases h)⟩

theorem elementwise_mem {k : LpKernel S} {r : List S × List S}
    (h : collectNames (elementwiseNames k) k.assignees = .ok r) (n : S) :
    (n ∈ r.1 ↔ IsSubscript k (fun _ => True) 0 n) ∧ (n ∈ r.2 ↔ IsSubscript k (fun _ => True) 1 n) := by
  obtain ⟨h1, h2⟩ := collect_mem h n
  have hdef := collect_defined.1 ⟨r, h⟩
  rw [h1, h2]
  constructor
  · constructor
    · rintro ⟨a, ha, x, hx, hn⟩
      obtain ⟨st, hst, ha⟩ := mem_assignees.1 ha
      cases a with
      | var _ => simp only [elementwiseNames] at hx; cases hx; simp at hn
      | other => simp [elementwiseNames] at hx
      | subscript nm idx => exact ⟨st, hst, _, ha, nm, idx, rfl, trivial, ((subscript_ok hx).1 n).1 hn⟩
    · rintro ⟨st, hst, a, ha, nm, idx, rfl, -, hi⟩
      have ham := mem_assignees.2 ⟨st, hst, ha⟩
      obtain ⟨x, hx⟩ := hdef _ ham
      exact ⟨_, ham, x, hx, ((subscript_ok hx).1 n).2 hi⟩
  · constructor
    · rintro ⟨a, ha, x, hx, hn⟩
      obtain ⟨st, hst, ha⟩ := mem_assignees.1 ha
      cases a with
      | var _ => simp only [elementwiseNames] at hx; cases hx; simp at hn
      | other => simp [elementwiseNames] at hx
      | subscript nm idx => exact ⟨st, hst, _, ha, nm, idx, rfl, trivial, ((subscript_ok hx).2 n).1 hn⟩
    · rintro ⟨st, hst, a, ha, nm, idx, rfl, -, hi⟩
      have ham := mem_assignees.2 ⟨st, hst, ha⟩
      obtain ⟨x, hx⟩ := hdef _ ham
      exact ⟨_, ham, x, hx, ((subscript_ok hx).2 n).2 hi⟩

theorem firstAxis_mem {k : LpKernel S} {outs : List S} {r : List S × List S}
    (h : collectNames (firstAxisNames k outs) k.assignees = .ok r) (n : S) :
    (n ∈ r.1 ↔ IsSubscript k (· ∈ outs) 0 n) ∧ (n ∈ r.2 ↔ IsSubscript k (· ∈ outs) 1 n) := by
  obtain ⟨h1, h2⟩ := collect_mem h n
  have hdef := collect_defined.1 ⟨r, h⟩
  rw [h1, h2]
  have key : ∀ nm idx x, firstAxisNames k outs (.subscript nm idx) = .ok x →
      (nm ∈ outs ∧ subscriptNames k idx = .ok x) ∨ (nm ∉ outs ∧ x = ([], [])) := by
    intro nm idx x hx
    simp only [firstAxisNames] at hx
    split at hx
    · rename_i hm; exact Or.inl ⟨hm, hx⟩
    · rename_i hm; cases hx; exact Or.inr ⟨hm, rfl⟩
  constructor
  · constructor
    · rintro ⟨a, ha, x, hx, hn⟩
      obtain ⟨st, hst, ha⟩ := mem_assignees.1 ha
      cases a with
      | var _ => simp [firstAxisNames] at hx
      | other => simp [firstAxisNames] at hx
      | subscript nm idx =>
        rcases key nm idx x hx with ⟨hm, hx⟩ | ⟨-, rfl⟩
        · exact ⟨st, hst, _, ha, nm, idx, rfl, hm, ((subscript_ok hx).1 n).1 hn⟩
        · simp at hn
    · rintro ⟨st, hst, a, ha, nm, idx, rfl, hm, hi⟩
      have ham := mem_assignees.2 ⟨st, hst, ha⟩
      obtain ⟨x, hx⟩ := hdef _ ham
      rcases key nm idx x hx with ⟨-, hx'⟩ | ⟨hm', -⟩
      · exact ⟨_, ham, x, hx, ((subscript_ok hx').1 n).2 hi⟩
      · exact absurd hm hm'
  · constructor
    · rintro ⟨a, ha, x, hx, hn⟩
      obtain ⟨st, hst, ha⟩ := mem_assignees.1 ha
      cases a with
      | var _ => simp [firstAxisNames] at hx
      | other => simp [firstAxisNames] at hx
      | subscript nm idx =>
        rcases key nm idx x hx with ⟨hm, hx⟩ | ⟨-, rfl⟩
        · exact ⟨st, hst, _, ha, nm, idx, rfl, hm, ((subscript_ok hx).2 n).1 hn⟩
        · simp at hn
    · rintro ⟨st, hst, a, ha, nm, idx, rfl, hm, hi⟩
      have ham := mem_assignees.2 ⟨st, hst, ha⟩
      obtain ⟨x, hx⟩ := hdef _ ham
      rcases key nm idx x hx with ⟨-, hx'⟩ | ⟨hm', -⟩
      · exact ⟨_, ham, x, hx, ((subscript_ok hx').2 n).2 hi⟩
      · exact absurd hm hm'

theorem finish_ok {args : List (S × Bool)} {names : List S × List S} {r : Option (LpResult S)} :
    finishTransform args names = .ok r ↔
      ∃ steps, transformSteps names.1 names.2 = .ok steps ∧ r = some ⟨args, steps⟩ := by
  unfold finishTransform
  rw [lp_bind_ok]
  exact exists_congr fun s => and_congr_right fun _ => ⟨fun h => by cases h; rfl, fun h => by rw [h]; rfl⟩

theorem steps_defined {el dof : List S} : (∃ steps, transformSteps el dof = .ok steps) ↔ ∀ n ∈ el, n ∉ dof := by
  constructor
  · rintro ⟨s, hs⟩; exact ((C109_steps el dof).2 s hs).1
  · intro h
    unfold transformSteps
    rw [if_neg]
    · exact ⟨_, rfl⟩
    · rw [any_contains]; rintro ⟨n, a, b⟩; exact h n a b

/-! ## Properties: kernels -/

/-- **C109**: in a kernel with `ElementwiseMapKernelTag` the inames tagged as elements are the first subscripts of
the values assigned, and those split are the second ones. -/
theorem C109_elementwise {k : LpKernel S} (hk : k.elementwiseTag = true) (hf : k.firstAxisTag = false)
    {r : Option (LpResult S)} (h : transformInner k = .ok r) :
    ∃ res, r = some res ∧ res.args = k.args ∧
      (∀ n, n ∈ tagsOf res.steps ↔ IsSubscript k (fun _ => True) 0 n) ∧
      (∀ n, n ∈ splitsOf res.steps ↔ IsSubscript k (fun _ => True) 1 n) := by
  simp only [transformInner, tagOutput, hf, transformTagged, hk, if_true, Bool.false_eq_true, if_false] at h
  obtain ⟨args, ha, h⟩ := lp_bind_ok.1 h
  cases ha
  obtain ⟨names, hn, h⟩ := lp_bind_ok.1 h
  obtain ⟨steps, hs, rfl⟩ := finish_ok.1 h
  obtain ⟨-, p1, p2, -⟩ := (C109_steps _ _).2 steps hs
  exact ⟨_, rfl, rfl, fun n => by rw [p2.mem_iff]; exact (elementwise_mem hn n).1,
    fun n => by rw [p1.mem_iff]; exact (elementwise_mem hn n).2⟩

/-- **C109**: such a kernel is accepted exactly if every value assigned is a variable or a subscript, the first two
subscripts are inames, and no iname is a first subscript and a second one. -/
theorem C109_elementwise_defined {k : LpKernel S} (hk : k.elementwiseTag = true) (hf : k.firstAxisTag = false) :
    (∃ r, transformInner k = .ok r) ↔
      (∀ a, k.Assigns a → a ≠ .other) ∧
      (∀ name idx, k.Assigns (.subscript name idx) → ∀ i ∈ idx.take 2, ∃ n, n ∈ k.inames.map Prod.fst ∧ i = .var n) ∧
      ∀ n, IsSubscript k (fun _ => True) 0 n → ¬ IsSubscript k (fun _ => True) 1 n := by
  simp only [← mem_assignees]
  rw [show k.inames.map Prod.fst = k.allInames from rfl]
  have e : transformInner k = (collectNames (elementwiseNames k) k.assignees >>= finishTransform k.args) := by
    simp only [transformInner, tagOutput, hf, transformTagged, hk, if_true, Bool.false_eq_true, if_false]
    rfl
  rw [e]
  have hc : (∃ r, collectNames (elementwiseNames k) k.assignees = .ok r) ↔
      (∀ a ∈ k.assignees, a ≠ .other) ∧
      (∀ name idx, .subscript name idx ∈ k.assignees → ∀ i ∈ idx.take 2, ∃ n ∈ k.allInames, i = .var n) := by
    rw [collect_defined]
    constructor
    · intro h
      refine ⟨fun a ha => ?_, fun name idx ha => subscript_defined.1 (h _ ha)⟩
      rintro rfl
      obtain ⟨x, hx⟩ := h _ ha
      simp [elementwiseNames] at hx
    · rintro ⟨h1, h2⟩ a ha
      cases a with
      | var _ => exact ⟨_, rfl⟩
      | other => exact absurd rfl (h1 _ ha)
      | subscript nm idx => exact subscript_defined.2 (h2 nm idx ha)
  rw [← and_assoc, ← hc]
  constructor
  · rintro ⟨r, h⟩
    obtain ⟨names, hn, h⟩ := lp_bind_ok.1 h
    obtain ⟨steps, hs, rfl⟩ := finish_ok.1 h
    refine ⟨⟨names, hn⟩, fun n h0 h1 => ?_⟩
    exact steps_defined.1 ⟨steps, hs⟩ n ((elementwise_mem hn n).1.2 h0) ((elementwise_mem hn n).2.2 h1)
  · rintro ⟨⟨names, hn⟩, h⟩
    obtain ⟨steps, hs⟩ := steps_defined.2 fun n (h0 : n ∈ names.1) (h1 : n ∈ names.2) =>
      h n ((elementwise_mem hn n).1.1 h0) ((elementwise_mem hn n).2.1 h1)
    exact ⟨_, lp_bind_ok.2 ⟨names, hn, finish_ok.2 ⟨steps, hs, rfl⟩⟩⟩

/-- **C109**: in a kernel with arguments tagged `FirstAxisIsElementsTag` the inames are the first and second
subscripts of these arguments, where they are assigned to. -/
theorem C109_first_axis {k : LpKernel S} (hk : k.elementwiseTag = false) (hf : k.firstAxisTag = false)
    (harg : ∃ a, (a, true) ∈ k.args) {r : Option (LpResult S)} (h : transformInner k = .ok r) :
    ∃ res, r = some res ∧ res.args = k.args ∧
      (∀ n, n ∈ tagsOf res.steps ↔ IsSubscript k (fun a => (a, true) ∈ k.args) 0 n) ∧
      (∀ n, n ∈ splitsOf res.steps ↔ IsSubscript k (fun a => (a, true) ∈ k.args) 1 n) := by
  have hmem : ∀ a, a ∈ taggedArgs k.args ↔ (a, true) ∈ k.args := by
    intro a; simp [taggedArgs]
  have hne : taggedArgs k.args ≠ [] := by
    obtain ⟨a, ha⟩ := harg
    exact List.ne_nil_of_mem ((hmem a).2 ha)
  simp only [transformInner, tagOutput, hf, transformTagged, hk, Bool.false_eq_true, if_false] at h
  obtain ⟨args, ha, h⟩ := lp_bind_ok.1 h
  cases ha
  rw [if_pos hne] at h
  obtain ⟨names, hn, h⟩ := lp_bind_ok.1 h
  obtain ⟨steps, hs, rfl⟩ := finish_ok.1 h
  obtain ⟨-, p1, p2, -⟩ := (C109_steps _ _).2 steps hs
  have e : (fun a => a ∈ taggedArgs k.args) = fun a => (a, true) ∈ k.args := funext fun a => propext (hmem a)
  refine ⟨_, rfl, rfl, fun n => ?_, fun n => ?_⟩
  · rw [p2.mem_iff, ← e]; exact (firstAxis_mem hn n).1
  · rw [p1.mem_iff, ← e]; exact (firstAxis_mem hn n).2

/-- **C109**: such a kernel is accepted exactly if every value assigned is a subscript (also of other variables),
the first two subscripts of the tagged arguments are inames, and no iname is a first and a second one. -/
theorem C109_first_axis_defined {k : LpKernel S} (hk : k.elementwiseTag = false) (hf : k.firstAxisTag = false)
    (harg : ∃ a, (a, true) ∈ k.args) :
    (∃ r, transformInner k = .ok r) ↔
      (∀ a, k.Assigns a → ∃ name idx, a = .subscript name idx) ∧
      (∀ name idx, k.Assigns (.subscript name idx) → (name, true) ∈ k.args →
        ∀ i ∈ idx.take 2, ∃ n, n ∈ k.inames.map Prod.fst ∧ i = .var n) ∧
      ∀ n, IsSubscript k (fun a => (a, true) ∈ k.args) 0 n → ¬ IsSubscript k (fun a => (a, true) ∈ k.args) 1 n := by
  simp only [← mem_assignees]
  rw [show k.inames.map Prod.fst = k.allInames from rfl]
  have hmem : ∀ a, a ∈ taggedArgs k.args ↔ (a, true) ∈ k.args := by
    intro a; simp [taggedArgs]
  have hne : taggedArgs k.args ≠ [] := by
    obtain ⟨a, ha⟩ := harg
    exact List.ne_nil_of_mem ((hmem a).2 ha)
  have e : transformInner k = (collectNames (firstAxisNames k (taggedArgs k.args)) k.assignees >>=
      finishTransform k.args) := by
    simp only [transformInner, tagOutput, hf, transformTagged, hk, Bool.false_eq_true, if_false]
    show (if taggedArgs k.args ≠ [] then _ else _) = _
    rw [if_pos hne]
  have e' : (fun a => (a, true) ∈ k.args) = fun a => a ∈ taggedArgs k.args :=
    funext fun a => propext (hmem a).symm
  rw [e, e']
  have hc : (∃ r, collectNames (firstAxisNames k (taggedArgs k.args)) k.assignees = .ok r) ↔
      (∀ a ∈ k.assignees, ∃ name idx, a = .subscript name idx) ∧
      (∀ name idx, .subscript name idx ∈ k.assignees → (name, true) ∈ k.args →
        ∀ i ∈ idx.take 2, ∃ n ∈ k.allInames, i = .var n) := by
    rw [collect_defined]
    constructor
    · intro h
      refine ⟨fun a ha => ?_, fun name idx ha hm => ?_⟩
      · obtain ⟨x, hx⟩ := h a ha
        cases a with
        | var _ => simp [firstAxisNames] at hx
        | other => simp [firstAxisNames] at hx
        | subscript nm idx => exact ⟨nm, idx, rfl⟩
      · obtain ⟨x, hx⟩ := h _ ha
        simp only [firstAxisNames, if_pos ((hmem name).2 hm)] at hx
        exact subscript_defined.1 ⟨x, hx⟩
    · rintro ⟨h1, h2⟩ a ha
      obtain ⟨nm, idx, rfl⟩ := h1 a ha
      simp only [firstAxisNames]
      split
      · rename_i hm; exact subscript_defined.2 (h2 nm idx ha ((hmem nm).1 hm))
      · exact ⟨_, rfl⟩
  rw [← and_assoc, ← hc]
  constructor
  · rintro ⟨r, h⟩
    obtain ⟨names, hn, h⟩ := lp_bind_ok.1 h
    obtain ⟨steps, hs, rfl⟩ := finish_ok.1 h
    refine ⟨⟨names, hn⟩, fun n h0 h1 => ?_⟩
    exact steps_defined.1 ⟨steps, hs⟩ n ((firstAxis_mem hn n).1.2 h0) ((firstAxis_mem hn n).2.2 h1)
  · rintro ⟨⟨names, hn⟩, h⟩
    obtain ⟨steps, hs⟩ := steps_defined.2 fun n (h0 : n ∈ names.1) (h1 : n ∈ names.2) =>
      h n ((firstAxis_mem hn n).1.1 h0) ((firstAxis_mem hn n).2.1 h1)
    exact ⟨_, lp_bind_ok.2 ⟨names, hn, finish_ok.2 ⟨steps, hs, rfl⟩⟩⟩

/-- **C109**: a tag on the kernel is the same as a tag on the variable assigned to in its only instruction; a kernel
with another number of instructions, or whose instruction does not assign to a subscript, is rejected. -/
theorem C109_kernel_tag {k : LpKernel S} (hf : k.firstAxisTag = true) :
    (∀ name idx, k.instructions = [.assignment (.subscript name idx)] →
      transformInner k = transformInner { k with
        firstAxisTag := false, args := k.args.map fun a => if a.1 = name then (a.1, true) else a }) ∧
    ((¬ ∃ name idx, k.instructions = [.assignment (.subscript name idx)]) →
      transformInner k = .error .notSingle ∨ transformInner k = .error .singleNotSubscript) ∧
    (transformInner k = .error .notSingle ↔ ¬ ∃ a, k.instructions = [.assignment a]) := by
  have hall : ∀ {args : List (S × Bool)}, transformTagged k args ≠ .error .notSingle := by
    intro args h
    have fin : ∀ names, finishTransform args names ≠ .error .notSingle := by
      intro names h
      unfold finishTransform transformSteps at h
      split at h <;> simp [bind, Except.bind, pure, Except.pure] at h
    have idx : ∀ i, indexName k i ≠ .error .notSingle := by
      intro i h
      cases i with
      | other => simp [indexName] at h
      | var n => simp only [indexName] at h; split at h <;> simp at h
    have sub : ∀ l, subscriptNames k l ≠ .error .notSingle := by
      intro l h
      match l with
      | [] => simp [subscriptNames] at h
      | [i] =>
        simp only [subscriptNames] at h
        cases hi : indexName k i with
        | error e => rw [hi] at h; simp [bind, Except.bind] at h; exact idx i (by rw [hi, h])
        | ok x => rw [hi] at h; simp [bind, Except.bind, pure, Except.pure] at h
      | i :: j :: l =>
        simp only [subscriptNames] at h
        cases hi : indexName k i with
        | error e => rw [hi] at h; simp [bind, Except.bind] at h; exact idx i (by rw [hi, h])
        | ok x =>
          rw [hi] at h
          cases hj : indexName k j with
          | error e => rw [hj] at h; simp [bind, Except.bind] at h; exact idx j (by rw [hj, h])
          | ok x => rw [hj] at h; simp [bind, Except.bind, pure, Except.pure] at h
    have col : ∀ (f : LpAssignee S → Except LpErr (List S × List S)), (∀ a, f a ≠ .error .notSingle) →
        ∀ l, collectNames f l ≠ .error .notSingle := by
      intro f hf l
      induction l with
      | nil => simp [collectNames]
      | cons a l ih =>
        intro h
        rw [collectNames] at h
        cases ha : f a with
        | error e => rw [ha] at h; simp [bind, Except.bind] at h; exact hf a (by rw [ha, h])
        | ok x =>
          rw [ha] at h
          cases hl : collectNames f l with
          | error e => rw [hl] at h; simp [bind, Except.bind] at h; exact ih (by rw [hl, h])
          | ok x => rw [hl] at h; simp [bind, Except.bind, pure, Except.pure] at h
    have two : ∀ (x : Except LpErr (List S × List S)), x ≠ .error .notSingle →
        (x >>= fun names => finishTransform args names) ≠ .error .notSingle := by
      intro x hx h
      cases x with
      | error e => simp [bind, Except.bind] at h; exact hx (by rw [h])
      | ok y => exact fin y h
    unfold transformTagged at h
    split at h
    · refine two _ (col _ ?_ _) h
      intro a
      cases a with
      | var _ => simp [elementwiseNames]
      | other => simp [elementwiseNames]
      | subscript nm ix => exact sub ix
    · split at h
      · refine two _ (col _ ?_ _) h
        intro a
        cases a with
        | var _ => simp [firstAxisNames]
        | other => simp [firstAxisNames]
        | subscript nm ix => simp only [firstAxisNames]; split <;> first | exact sub ix | simp
      · split at h
        · exact fin _ h
        · simp at h
  refine ⟨fun name idx hi => ?_, fun hno => ?_, ?_⟩
  · have t1 : tagOutput k = .ok (k.args.map fun a => if a.1 = name then (a.1, true) else a) := by
      simp [tagOutput, hf, hi]
    unfold transformInner
    rw [t1]
    rfl
  · unfold transformInner tagOutput
    rw [if_pos hf]
    split
    · rename_i name idx hi; exact absurd ⟨name, idx, hi⟩ hno
    · exact Or.inr rfl
    · exact Or.inl rfl
  · unfold transformInner tagOutput
    rw [if_pos hf]
    split
    · rename_i name idx hi
      constructor
      · intro h; exact absurd h hall
      · intro h; exact absurd ⟨_, hi⟩ h
    · rename_i a _ hi
      constructor
      · intro h; simp [bind, Except.bind] at h
      · intro h; exact absurd ⟨_, hi⟩ h
    · rename_i h1 h2
      constructor
      · rintro - ⟨a, ha⟩; exact h2 a ha
      · intro _; rfl

/-- **C109**: in a kernel without these tags the inames tagged as element inames are tagged and those tagged as
degree-of-freedom inames are split; the kernel is rejected if an iname has both tags. -/
theorem C109_iname_tags {k : LpKernel S} (hk : k.elementwiseTag = false) (hf : k.firstAxisTag = false)
    (harg : ∀ a ∈ k.args, a.2 = false) (hel : ∃ i ∈ k.inames, i.2.1 = true) :
    (transformInner k = .error .both ↔ ∃ n d e, (n, true, d) ∈ k.inames ∧ (n, e, true) ∈ k.inames) ∧
    ∀ r, transformInner k = .ok r → ∃ res, r = some res ∧ res.args = k.args ∧
      (∀ n, n ∈ tagsOf res.steps ↔ ∃ d, (n, true, d) ∈ k.inames) ∧
      (∀ n, n ∈ splitsOf res.steps ↔ ∃ e, (n, e, true) ∈ k.inames) ∧
      ((k.inames.map Prod.fst).Nodup → (tagsOf res.steps).Nodup ∧ (splitsOf res.steps).Nodup) := by
  have h0 : taggedArgs k.args = [] := by
    rw [taggedArgs, List.map_eq_nil_iff, List.filter_eq_nil_iff]
    intro a ha
    simp [harg a ha]
  have hne : (tagNames k).1 ≠ [] := by
    obtain ⟨i, hi, ht⟩ := hel
    exact List.ne_nil_of_mem (List.mem_map.2 ⟨i, List.mem_filter.2 ⟨hi, ht⟩, rfl⟩)
  have e : transformInner k = finishTransform k.args (tagNames k) := by
    simp only [transformInner, tagOutput, hf, transformTagged, hk, Bool.false_eq_true, if_false]
    show (if taggedArgs k.args ≠ [] then _ else _) = _
    rw [if_neg (by simp [h0]), if_pos hne]
  have m1 : ∀ n, n ∈ (tagNames k).1 ↔ ∃ d, (n, true, d) ∈ k.inames := by
    intro n
    simp only [tagNames, List.mem_map, List.mem_filter]
    constructor
    · rintro ⟨⟨a, b, c⟩, ⟨h1, h2⟩, rfl⟩
      simp only at h2; subst h2; exact ⟨c, h1⟩
    · rintro ⟨d, h⟩; exact ⟨(n, true, d), ⟨h, rfl⟩, rfl⟩
  have m2 : ∀ n, n ∈ (tagNames k).2 ↔ ∃ e, (n, e, true) ∈ k.inames := by
    intro n
    simp only [tagNames, List.mem_map, List.mem_filter]
    constructor
    · rintro ⟨⟨a, b, c⟩, ⟨h1, h2⟩, rfl⟩
      simp only at h2; subst h2; exact ⟨b, h1⟩
    · rintro ⟨d, h⟩; exact ⟨(n, d, true), ⟨h, rfl⟩, rfl⟩
  rw [e]
  constructor
  · have : finishTransform k.args (tagNames k) = .error .both ↔
        transformSteps (tagNames k).1 (tagNames k).2 = .error .both := by
      unfold finishTransform
      cases transformSteps (tagNames k).1 (tagNames k).2 <;> simp [bind, Except.bind, pure, Except.pure]
    rw [this, (C109_steps _ _).1]
    constructor
    · rintro ⟨n, a, b⟩
      obtain ⟨d, hd⟩ := (m1 n).1 a
      obtain ⟨e, he⟩ := (m2 n).1 b
      exact ⟨n, d, e, hd, he⟩
    · rintro ⟨n, d, e, hd, he⟩
      exact ⟨n, (m1 n).2 ⟨d, hd⟩, (m2 n).2 ⟨e, he⟩⟩
  · intro r h
    obtain ⟨steps, hs, rfl⟩ := finish_ok.1 h
    obtain ⟨-, p1, p2, -⟩ := (C109_steps _ _).2 steps hs
    refine ⟨_, rfl, rfl, fun n => by rw [p2.mem_iff]; exact m1 n, fun n => by rw [p1.mem_iff]; exact m2 n,
      fun hnd => ⟨p2.nodup_iff.2 ?_, p1.nodup_iff.2 ?_⟩⟩
    · exact hnd.sublist (List.filter_sublist.map _)
    · exact hnd.sublist (List.filter_sublist.map _)

/-- **C109**: the options are checked first; a kernel without them is always rejected, one with them never for
that reason. -/
theorem C109_options (k : LpKernel S) :
    (k.returnDict = false ∨ k.noNumpy = false → transformProgram k = .error .options) ∧
    (k.returnDict = true → k.noNumpy = true → ∀ r, transformInner k = .ok (some r) →
      transformProgram k = .ok (.transformed r)) ∧
    (k.returnDict = true → k.noNumpy = true → ∀ e, transformInner k = .error e →
      transformProgram k = .error e) := by
  refine ⟨fun h => ?_, fun h1 h2 r hr => ?_, fun h1 h2 e he => ?_⟩
  · unfold transformProgram
    rw [if_pos]
    rcases h with h | h <;> simp [h]
  · unfold transformProgram
    rw [if_neg (by simp [h1, h2]), hr]
    rfl
  · unfold transformProgram
    rw [if_neg (by simp [h1, h2]), he]
    rfl

/-- **C109**: a kernel is handed on to the base class, unchanged, exactly if it has the options, no
`ElementwiseMapKernelTag`, no argument with the first-axis tag (a tag on the kernel counts for its output), and no
element iname. -/
theorem C109_fallback (k k' : LpKernel S) :
    transformProgram k = .ok (.base k') ↔ k' = k ∧ k.returnDict = true ∧ k.noNumpy = true ∧
      k.elementwiseTag = false ∧ (∀ a ∈ k.args, a.2 = false) ∧ (∀ i ∈ k.inames, i.2.1 = false) ∧
      (k.firstAxisTag = true → ∃ name idx, k.instructions = [.assignment (.subscript name idx)] ∧
        name ∉ k.args.map Prod.fst) := by
  have hfin : ∀ args names, finishTransform args names ≠ .ok (none : Option (LpResult S)) := by
    intro args names h
    obtain ⟨_, -, h⟩ := finish_ok.1 h
    simp at h
  have htag : ∀ args, transformTagged k args = .ok none ↔
      k.elementwiseTag = false ∧ (∀ a ∈ args, a.2 = false) ∧ (∀ i ∈ k.inames, i.2.1 = false) := by
    intro args
    have ha : taggedArgs args = [] ↔ ∀ a ∈ args, a.2 = false := by
      rw [taggedArgs, List.map_eq_nil_iff, List.filter_eq_nil_iff]
      exact forall₂_congr fun a _ => by simp
    have hi : (tagNames k).1 = [] ↔ ∀ i ∈ k.inames, i.2.1 = false := by
      rw [tagNames, List.map_eq_nil_iff, List.filter_eq_nil_iff]
      exact forall₂_congr fun a _ => by simp
    rw [← ha, ← hi]
    unfold transformTagged
    split
    · rename_i h
      constructor
      · intro h'
        obtain ⟨x, -, h'⟩ := lp_bind_ok.1 h'
        exact absurd h' (hfin _ _)
      · rintro ⟨h', -⟩; rw [h] at h'; simp at h'
    · rename_i h
      split
      · rename_i h1
        constructor
        · intro h'
          obtain ⟨x, -, h'⟩ := lp_bind_ok.1 h'
          exact absurd h' (hfin _ _)
        · rintro ⟨-, h', -⟩; exact absurd h' h1
      · rename_i h1
        split
        · rename_i h2
          constructor
          · intro h'; exact absurd h' (hfin _ _)
          · rintro ⟨-, -, h'⟩; exact absurd h' h2
        · rename_i h2
          exact ⟨fun _ => ⟨by simpa using h, by simpa using h1, by simpa using h2⟩, fun _ => rfl⟩
  have hinner : transformInner k = .ok none ↔ k.elementwiseTag = false ∧ (∀ a ∈ k.args, a.2 = false) ∧
      (∀ i ∈ k.inames, i.2.1 = false) ∧ (k.firstAxisTag = true → ∃ name idx,
        k.instructions = [.assignment (.subscript name idx)] ∧ name ∉ k.args.map Prod.fst) := by
    unfold transformInner tagOutput
    split
    · rename_i hf
      split
      · rename_i name idx hi
        show transformTagged k _ = .ok none ↔ _
        rw [htag]
        constructor
        · rintro ⟨h1, h2, h3⟩
          have hn : name ∉ k.args.map Prod.fst := by
            intro hm
            obtain ⟨a, ha, rfl⟩ := List.mem_map.1 hm
            have := h2 (a.1, true) (List.mem_map.2 ⟨a, ha, by simp⟩)
            simp at this
          refine ⟨h1, fun a ha => ?_, h3, fun _ => ⟨name, idx, hi, hn⟩⟩
          refine h2 a (List.mem_map.2 ⟨a, ha, ?_⟩)
          rw [if_neg]
          rintro rfl
          exact hn (List.mem_map.2 ⟨a, ha, rfl⟩)
        · rintro ⟨h1, h2, h3, h4⟩
          obtain ⟨name', idx', hi', hn⟩ := h4 hf
          rw [hi] at hi'
          cases hi'
          refine ⟨h1, fun a ha => ?_, h3⟩
          obtain ⟨b, hb, rfl⟩ := List.mem_map.1 ha
          rw [if_neg]
          · exact h2 b hb
          · rintro rfl; exact hn (List.mem_map.2 ⟨b, hb, rfl⟩)
      · rename_i a hno hi
        constructor
        · intro h; cases h
        · rintro ⟨-, -, -, h4⟩
          obtain ⟨name', idx', hi', -⟩ := h4 hf
          rw [hi] at hi'
          cases hi'
          exact absurd rfl (hno name' idx')
      · rename_i hno hno'
        constructor
        · intro h; cases h
        · rintro ⟨-, -, -, h4⟩
          obtain ⟨name', idx', hi', -⟩ := h4 hf
          exact absurd hi' (hno name' idx')
    · rename_i hf
      show transformTagged k _ = .ok none ↔ _
      rw [htag]
      exact ⟨fun ⟨a, b, c⟩ => ⟨a, b, c, fun h => absurd h hf⟩, fun ⟨a, b, c, _⟩ => ⟨a, b, c⟩⟩
  unfold transformProgram
  by_cases ho : k.returnDict = true ∧ k.noNumpy = true
  · rw [if_neg (by simp [ho])]
    constructor
    · intro h
      obtain ⟨r, hr, h⟩ := lp_bind_ok.1 h
      cases r with
      | some r => simp [pure, Except.pure] at h
      | none =>
        simp only [pure, Except.pure, Except.ok.injEq, LpOutcome.base.injEq] at h
        exact ⟨h.symm, ho.1, ho.2, hinner.1 hr⟩
    · rintro ⟨rfl, -, -, h⟩
      rw [hinner.2 h]
      rfl
  · rw [if_pos (by simpa using ho)]
    constructor
    · intro h; cases h
    · rintro ⟨-, h1, h2, -⟩; exact absurd ⟨h1, h2⟩ ho

/-- **C109**: the result does not depend on the order of the instructions and inames of the kernel. -/
theorem C109_order {k k' : LpKernel S} (hi : k.instructions.Perm k'.instructions) (hn : k.inames.Perm k'.inames)
    (ha : k'.args = k.args) (h1 : k'.elementwiseTag = k.elementwiseTag) (h2 : k'.firstAxisTag = k.firstAxisTag)
    {r : Option (LpResult S)} (h : transformInner k = .ok r) : transformInner k' = .ok r := by
  have hall : ∀ n, n ∈ k.allInames ↔ n ∈ k'.allInames := fun n => (hn.map Prod.fst).mem_iff
  have hidx : indexName k' = indexName k := by
    funext i
    cases i with
    | other => rfl
    | var n => simp only [indexName, hall n]
  have hsub : subscriptNames k' = subscriptNames k := by
    funext l
    match l with
    | [] => rfl
    | [i] => simp only [subscriptNames, hidx]
    | i :: j :: l => simp only [subscriptNames, hidx]
  have hew : elementwiseNames k' = elementwiseNames k := by
    funext a; cases a <;> simp only [elementwiseNames, hsub]
  have hfa : ∀ outs, firstAxisNames k' outs = firstAxisNames k outs := by
    intro outs; funext a; cases a <;> simp only [firstAxisNames, hsub]
  have has : k.assignees.Perm k'.assignees := hi.flatMap_right _
  obtain ⟨args, hargs, h⟩ := lp_bind_ok.1 h
  have hargs' : tagOutput k' = .ok args := by
    rw [← hargs]
    unfold tagOutput
    rw [h2, ha]
    by_cases hf : k.firstAxisTag = true
    · rw [if_pos hf, if_pos hf]
      have hlen : k.instructions = k'.instructions ∨ (∀ a, k.instructions ≠ [a]) := by
        by_cases hl : ∃ a, k.instructions = [a]
        · obtain ⟨a, hl⟩ := hl
          rw [hl] at hi
          exact Or.inl (hl.trans (List.singleton_perm.1 hi))
        · exact Or.inr fun a ha => hl ⟨a, ha⟩
      rcases hlen with hl | hl
      · rw [hl]
      · exfalso
        unfold tagOutput at hargs
        rw [if_pos hf] at hargs
        split at hargs
        · rename_i heq; exact hl _ heq
        · simp at hargs
        · simp at hargs
    · rw [if_neg hf, if_neg hf]
  refine lp_bind_ok.2 ⟨args, hargs', ?_⟩
  have hfin : ∀ {x y : List S × List S}, x.1.Perm y.1 → x.2.Perm y.2 → finishTransform args x = .ok r →
      finishTransform args y = .ok r := by
    intro x y p1 p2 hx
    obtain ⟨steps, hs, rfl⟩ := finish_ok.1 hx
    exact finish_ok.2 ⟨steps, by rw [← C109_steps_order p1 p2]; exact hs, rfl⟩
  have ht1 : (tagNames k).1.Perm (tagNames k').1 := (hn.filter _).map _
  have ht2 : (tagNames k).2.Perm (tagNames k').2 := (hn.filter _).map _
  unfold transformTagged at h ⊢
  rw [h1, hew, hfa]
  split at h
  · rename_i he
    rw [if_pos he]
    obtain ⟨x, hx, h⟩ := lp_bind_ok.1 h
    obtain ⟨y, hy, p1, p2⟩ := collect_perm has hx
    exact lp_bind_ok.2 ⟨y, hy, hfin p1 p2 h⟩
  · rename_i he
    rw [if_neg he]
    split at h
    · rename_i hta
      rw [if_pos hta]
      obtain ⟨x, hx, h⟩ := lp_bind_ok.1 h
      obtain ⟨y, hy, p1, p2⟩ := collect_perm has hx
      exact lp_bind_ok.2 ⟨y, hy, hfin p1 p2 h⟩
    · rename_i hta
      rw [if_neg hta]
      have hiff : (tagNames k).1 ≠ [] ↔ (tagNames k').1 ≠ [] := by
        rw [Ne, Ne, ← List.length_eq_zero_iff, ← List.length_eq_zero_iff, ht1.length_eq]
      split at h
      · rename_i hne
        rw [if_pos (hiff.1 hne)]
        exact hfin ht1 ht2 h
      · rename_i hne
        rw [if_neg fun h' => hne (hiff.2 h')]
        exact h

/-- The second subscripts of the values assigned, in order. (Specification or proof vocabulary, no code.) -/
def secondSubscripts (k : LpKernel S) : List S :=
  (k.instructions.flatMap fun s => match s with
    | .assignment a => [a]
    | .call as => as
    | .other => []).filterMap fun a => match a with
    | .subscript _ (_ :: .var n :: _) => some n
    | _ => none

theorem second_eq {k : LpKernel S} : ∀ {l : List (LpAssignee S)} {r : List S × List S},
    collectNames (elementwiseNames k) l = .ok r → r.2 = l.filterMap fun a => match a with
      | .subscript _ (_ :: .var n :: _) => some n
      | _ => none := by
  intro l
  induction l with
  | nil => intro r h; simp only [collectNames] at h; cases h; rfl
  | cons a l ih =>
    intro r h
    rw [collectNames] at h
    obtain ⟨x, hx, h⟩ := lp_bind_ok.1 h
    obtain ⟨y, hy, h⟩ := lp_bind_ok.1 h
    cases h
    have := ih hy
    cases a with
    | var _ => simp only [elementwiseNames] at hx; cases hx; simpa using this
    | other => simp [elementwiseNames] at hx
    | subscript nm idx =>
      match idx with
      | [] => simp only [elementwiseNames, subscriptNames] at hx; cases hx; simpa using this
      | [i] =>
        simp only [elementwiseNames, subscriptNames] at hx
        obtain ⟨e, he, hx⟩ := lp_bind_ok.1 hx
        cases hx
        simpa using this
      | i :: j :: t =>
        simp only [elementwiseNames, subscriptNames] at hx
        obtain ⟨e, he, hx⟩ := lp_bind_ok.1 hx
        obtain ⟨d, hd, hx⟩ := lp_bind_ok.1 hx
        cases hx
        obtain ⟨rfl, -⟩ := indexName_ok.1 hd
        simp [this]

/-- **C109** (partial: only kernels in which the second subscripts differ): in an element-wise kernel no iname is
split twice exactly if no two values assigned have the same second subscript. -/
theorem C109_split_once_partial {k : LpKernel S} (hk : k.elementwiseTag = true) (hf : k.firstAxisTag = false)
    {res : LpResult S} (h : transformInner k = .ok (some res)) :
    (splitsOf res.steps).Nodup ↔ (secondSubscripts k).Nodup := by
  simp only [transformInner, tagOutput, hf, transformTagged, hk, if_true, Bool.false_eq_true, if_false] at h
  obtain ⟨args, ha, h⟩ := lp_bind_ok.1 h
  cases ha
  obtain ⟨names, hn, h⟩ := lp_bind_ok.1 h
  obtain ⟨steps, hs, h⟩ := finish_ok.1 h
  cases h
  obtain ⟨-, p1, -⟩ := (C109_steps _ _).2 steps hs
  rw [p1.nodup_iff, second_eq hn]
  have : k.assignees = k.instructions.flatMap fun s => match s with
      | .assignment a => [a]
      | .call as => as
      | .other => [] := by
    unfold LpKernel.assignees
    congr 1
  rw [this]
  rfl

/-- Two instructions that assign to `a[iel, idof]` and `b[iel, idof]`; `iel` is 0, `idof` is 1.
(Example, no code.) -/
def exTwoOutputs : LpKernel Nat :=
  { elementwiseTag := true
    instructions := [.assignment (.subscript 10 [.var 0, .var 1]), .assignment (.subscript 11 [.var 0, .var 1])]
    args := [(10, false), (11, false)]
    inames := [(0, false, false), (1, false, false)] }

/-- **C109**: in a kernel that assigns to two arrays with the same inames, the same iname is split twice. -/
theorem C109_split_twice_counterexample :
    transformInner exTwoOutputs = .ok (some ⟨exTwoOutputs.args, [.split 1, .split 1, .tag 0, .tag 0]⟩) := by
  decide +kernel

/-! ## Examples for kernels -/

/-- `out[iel, idof] = …` with a tag on the kernel. (Example, no code.) -/
def exKernelTag : LpKernel Nat :=
  { firstAxisTag := true
    instructions := [.assignment (.subscript 10 [.var 0, .var 1])]
    args := [(9, false), (10, false)]
    inames := [(0, false, false), (1, false, false), (2, false, false)] }

/-- A kernel with tagged inames only. (Example, no code.) -/
def exInameTags : LpKernel Nat :=
  { instructions := [.assignment (.subscript 10 [.var 0, .var 1])]
    args := [(9, false), (10, false)]
    inames := [(0, true, false), (1, false, true), (2, false, false)] }

example : transformInner exKernelTag = .ok (some ⟨[(9, false), (10, true)], [.split 1, .tag 0]⟩) := by
  decide +kernel

example : transformInner { exKernelTag with instructions := [] } = .error .notSingle ∧
    transformInner { exKernelTag with instructions := [.assignment (.var 10)] } = .error .singleNotSubscript := by
  decide +kernel

example : transformInner { exKernelTag with firstAxisTag := false, args := [(9, false), (10, true)] } =
    .ok (some ⟨[(9, false), (10, true)], [.split 1, .tag 0]⟩) := by decide +kernel

example : transformInner exInameTags = .ok (some ⟨exInameTags.args, [.split 1, .tag 0]⟩) ∧
    (∀ a ∈ exInameTags.args, a.2 = false) ∧ (∃ i ∈ exInameTags.inames, i.2.1 = true) := by
  decide +kernel

example : transformInner { exTwoOutputs with instructions := [.call [.subscript 10 [.var 0, .var 1], .var 5], .other] } =
    .ok (some ⟨exTwoOutputs.args, [.split 1, .tag 0]⟩) := by decide +kernel

/-- C109: a kernel that is handed on. -/
example : transformProgram { exInameTags with inames := [(0, false, false), (1, false, true)] } =
    .ok (.base { exInameTags with inames := [(0, false, false), (1, false, true)] }) :=
  (C109_fallback _ _).2 ⟨rfl, rfl, rfl, rfl, by decide, by decide, fun h => by cases h⟩

/-! ## Removal of tags -/

/-- A node of a pytato graph: whether it is a `LoopyCallResult`, what it computes, its tags, the tags of its axes,
the nodes it refers to. Code: meshmode/array_context.py:267-283. -/
inductive DagNode (T : Type) where
  | node (loopy : Bool) (op : Nat) (tags : List T) (axes : List (List T)) (children : List (DagNode T))

variable {T : Type}

/-- `new_axes`, meshmode/array_context.py:272-275. -/
def untagAxes (axes : List (List T)) : List (List T) :=
  if axes.any fun a => !a.isEmpty then List.replicate axes.length [] else axes

/-- `untag_loopy_call_results`, meshmode/array_context.py:267-281. (`replace_if_different` keeps the object if
nothing changes; objects are values here.) -/
def untagNode : DagNode T → DagNode T
  | .node true op _ axes ch => .node true op [] (untagAxes axes) ch
  | .node false op tags axes ch => .node false op tags axes ch

/-- `pt.transform.map_and_copy(dag, untag_loopy_call_results)`: the function is applied to copies of the nodes,
from the inputs up. Code: meshmode/array_context.py:283. -/
def untagDag : DagNode T → DagNode T
  | .node l op tags axes ch => untagNode (.node l op tags axes (ch.map untagDag))

/-- `transform_dag`, meshmode/array_context.py:254-283; `base` is the method of the base class. -/
def transformDag (base : DagNode T → DagNode T) (d : DagNode T) : DagNode T := untagDag (base d)

/-- The node reached by following references. (Specification or proof vocabulary, no code.) -/
def DagNode.at : DagNode T → List Nat → Option (DagNode T)
  | d, [] => some d
  | .node _ _ _ _ ch, i :: p => ch[i]?.bind fun c => c.at p

theorem untagAxes_spec (axes : List (List T)) : (untagAxes axes).length = axes.length ∧ ∀ a ∈ untagAxes axes, a = [] := by
  unfold untagAxes
  split
  · simp
  · rename_i h
    simp only [List.any_eq_true, not_exists, not_and] at h
    exact ⟨rfl, fun a ha => by simpa using h a ha⟩

/-- **C109**: after `transform_dag` the graph is that of the base class, except that no result of a loopy kernel
has a tag or an axis with a tag. -/
theorem C109_untag (base : DagNode T → DagNode T) (d : DagNode T) (p : List Nat) {l : Bool} {op : Nat} {tags : List T}
    {axes : List (List T)} {ch : List (DagNode T)} (h : (base d).at p = some (.node l op tags axes ch)) :
    ∃ tags' axes' ch', (transformDag base d).at p = some (.node l op tags' axes' ch') ∧ ch'.length = ch.length ∧
      axes'.length = axes.length ∧ (l = false → tags' = tags ∧ axes' = axes) ∧
      (l = true → tags' = [] ∧ ∀ a ∈ axes', a = []) := by
  unfold transformDag
  generalize base d = e at h
  induction p generalizing e with
  | nil =>
    simp only [DagNode.at, Option.some.injEq] at h
    subst h
    cases l
    · exact ⟨tags, axes, ch.map untagDag, by simp [DagNode.at, untagDag, untagNode], by simp, rfl,
        fun _ => ⟨rfl, rfl⟩, fun h => by cases h⟩
    · exact ⟨[], untagAxes axes, ch.map untagDag, by simp [DagNode.at, untagDag, untagNode], by simp,
        (untagAxes_spec axes).1, fun h => (by cases h), fun _ => ⟨rfl, (untagAxes_spec axes).2⟩⟩
  | cons i p ih =>
    obtain ⟨l0, op0, t0, a0, c0⟩ := e
    simp only [DagNode.at] at h
    obtain ⟨c, hc, h⟩ := Option.bind_eq_some_iff.1 h
    obtain ⟨t', a', c', h1, h2⟩ := ih c h
    refine ⟨t', a', c', ?_, h2⟩
    rw [untagDag]
    cases l0 <;> simp [untagNode, DagNode.at, hc, h1]

/-- **C109**: nothing is added to the graph: every node after `transform_dag` has its counterpart before. -/
theorem C109_untag_only (base : DagNode T → DagNode T) (d : DagNode T) (p : List Nat)
    (h : (base d).at p = none) : (transformDag base d).at p = none := by
  unfold transformDag
  generalize base d = e at h
  induction p generalizing e with
  | nil => simp [DagNode.at] at h
  | cons i p ih =>
    obtain ⟨l0, op0, t0, a0, c0⟩ := e
    simp only [DagNode.at] at h
    rw [untagDag]
    cases hc : c0[i]? with
    | none => cases l0 <;> simp [untagNode, DagNode.at, hc]
    | some c =>
      rw [hc] at h
      have := ih c h
      cases l0 <;> simp [untagNode, DagNode.at, hc, this]

/-- A sum of a tagged loopy result and a tagged input. (Example, no code.) -/
def exDag : DagNode Nat :=
  .node false 0 [5] [[6]] [.node true 1 [5] [[6], []] [], .node false 2 [7] [[8]] []]

example : (transformDag id exDag).at [0] = some (.node true 1 [] [[], []] []) ∧
    (transformDag id exDag).at [1] = some (.node false 2 [7] [[8]] []) ∧
    (id exDag).at [0] = some (.node true 1 [5] [[6], []] []) := by
  simp [transformDag, exDag, untagDag, untagNode, untagAxes, DagNode.at, List.replicate]

end Meshmode
