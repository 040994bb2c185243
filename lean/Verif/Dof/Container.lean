import Mathlib.Data.List.Basic

/-!
# Containers of DOF arrays (C70)

Construction, serialization and deserialization of DOF arrays, and `rec_map_dof_array_container`:
meshmode/dof_array.py:153-163, 170-188, 414-475.  Array containers other than `DOFArray` are taken to
follow the rules of arraycontext: `deserialize_container(template, items)` is a container of the class of
the template with the given items.  Python runs without `-O` unless `debug` is false.
-/
namespace Meshmode

/-! ## Model -/

/-- A `DOFArray`: number of the array context (or `None`) and the arrays,
meshmode/dof_array.py:150-163. -/
structure DofObj (X : Type) where
  actx : Option Nat
  data : List X
  deriving DecidableEq, Repr

/-- Exceptions. Code: meshmode/dof_array.py:155-159, 185-186, 424-427, 443. -/
inductive DofErr where
  | typeError
  | valueError
  | assertion
  deriving DecidableEq, Repr

/-- What callers pass as array context, meshmode/dof_array.py:155, 185. -/
inductive ActxArg where
  | none
  | actx (i : Nat)
  | other
  deriving DecidableEq, Repr

/-- What callers pass as data: tuples and other sequences, meshmode/dof_array.py:158, 188. -/
inductive DataArg (X : Type) where
  | tuple (l : List X)
  | list (l : List X)
  deriving DecidableEq, Repr

section
variable {X : Type}

/-- The array context of an argument. Code: meshmode/dof_array.py:155, 161. -/
def ActxArg.get : ActxArg → Option Nat
  | .actx i => some i
  | _ => Option.none

/-- The entries of an argument. Code: meshmode/dof_array.py:162. -/
def DataArg.get : DataArg X → List X
  | .tuple l => l
  | .list l => l

/-- `DOFArray.__init__`, meshmode/dof_array.py:153-162. Without `__debug__`, an object is made of whatever
is given; this is the data for which the result is meaningful. -/
def dofInit (debug : Bool) (actx : ActxArg) (data : DataArg X) : Except DofErr (DofObj X) :=
  if debug && actx == .other then .error .typeError
  else match debug, data with
    | true, .list _ => .error .typeError
    | _, _ => .ok ⟨actx.get, data.get⟩

/-- `DOFArray.from_list`, meshmode/dof_array.py:176-192. -/
def dofFromList (debug : Bool) (actx : ActxArg) (data : DataArg X) : Except DofErr (DofObj X) :=
  if actx = .other then .error .typeError else dofInit debug actx (.tuple data.get)

/-- `_serialize_dof_container`, meshmode/dof_array.py:415-417 (`enumerate`). -/
def dofSerialize (a : DofObj X) : List (Nat × X) := a.data.zipIdx.map fun p => (p.2, p.1)

/-- The loop of `_deserialize_dof_container` that compares indices, meshmode/dof_array.py:431-433. -/
def dofItems : Nat → List (Nat × X) → Except DofErr (List X)
  | _, [] => .ok []
  | i, (j, v) :: rest => if i = j then (dofItems (i + 1) rest).map (v :: ·) else .error .valueError

/-- `_deserialize_dof_container`, meshmode/dof_array.py:420-439. -/
def dofDeserialize (debug : Bool) (template : DofObj X) (items : List (Nat × X)) :
    Except DofErr (DofObj X) :=
  if debug then (dofItems 0 items).map fun l => ⟨template.actx, l⟩
  else .ok ⟨template.actx, items.map Prod.snd⟩

/-- `_with_actx_dofarray`, meshmode/dof_array.py:441-445; `isArray i`: instances of the array types of
array context `i`. -/
def dofWithActx (isArray : Nat → X → Bool) (a : DofObj X) (actx : Option Nat) :
    Except DofErr (DofObj X) :=
  match actx with
  | none => .ok ⟨none, a.data⟩
  | some i => if a.data.all (isArray i) then .ok ⟨some i, a.data⟩ else .error .assertion

end

/-- An array container: its class and its items by key.  Leaves are DOF arrays, and all objects that are
not array containers. Code: meshmode/dof_array.py:454-466. -/
inductive ACont (κ L : Type) where
  | leaf (x : L)
  | node (cls : Nat) (items : List (κ × ACont κ L))

section
variable {κ L M R : Type}

mutual
/-- `rec_map_dof_array_container`, meshmode/dof_array.py:448-468; `f` can raise an exception (`none`),
and can return a container. -/
def recMap (f : L → Option (ACont κ M)) : ACont κ L → Option (ACont κ M)
  | .leaf x => f x
  | .node cls items => (recMapItems f items).map (.node cls)

/-- The items of a container, meshmode/dof_array.py:464-466. -/
def recMapItems (f : L → Option (ACont κ M)) : List (κ × ACont κ L) → Option (List (κ × ACont κ M))
  | [] => some []
  | (k, t) :: rest => (recMap f t).bind fun t' => (recMapItems f rest).map ((k, t') :: ·)
end

/-! ## Specification -/

mutual
/-- The leaves in order. (Specification or proof vocabulary, no code.) -/
def ACont.leaves : ACont κ L → List L
  | .leaf x => [x]
  | .node _ items => itemLeaves items

/-- The leaves of all items. (Specification or proof vocabulary, no code.) -/
def itemLeaves : List (κ × ACont κ L) → List L
  | [] => []
  | (_, t) :: rest => t.leaves ++ itemLeaves rest
end

mutual
/-- The container without its leaves. (Specification or proof vocabulary, no code.) -/
def ACont.shape : ACont κ L → ACont κ Unit
  | .leaf _ => .leaf ()
  | .node cls items => .node cls (itemShapes items)

/-- The items without leaves. (Specification or proof vocabulary, no code.) -/
def itemShapes : List (κ × ACont κ L) → List (κ × ACont κ Unit)
  | [] => []
  | (k, t) :: rest => (k, t.shape) :: itemShapes rest
end

/-! ## Proofs -/

mutual
theorem recMap_leaves {f : L → Option (ACont κ M)} : ∀ {t : ACont κ L} {t' : ACont κ M},
    recMap f t = some t' → ∃ rs, t.leaves.mapM f = some rs ∧ t'.leaves = rs.flatMap ACont.leaves
  | .leaf x, t', h => ⟨[t'], by simp only [recMap] at h; simp [ACont.leaves, h], by simp⟩
  | .node cls items, t', h => by
    simp only [recMap] at h
    obtain ⟨is, h1, rfl⟩ := Option.map_eq_some_iff.1 h
    exact recMapItems_leaves h1

theorem recMapItems_leaves {f : L → Option (ACont κ M)} : ∀ {l : List (κ × ACont κ L)}
    {l' : List (κ × ACont κ M)}, recMapItems f l = some l' →
      ∃ rs, (itemLeaves l).mapM f = some rs ∧ itemLeaves l' = rs.flatMap ACont.leaves
  | [], l', h => by
    simp only [recMapItems, Option.some.injEq] at h
    subst h
    exact ⟨[], rfl, rfl⟩
  | (k, t) :: rest, l', h => by
    simp only [recMapItems] at h
    obtain ⟨t', h1, h2⟩ := Option.bind_eq_some_iff.1 h
    obtain ⟨r', h3, rfl⟩ := Option.map_eq_some_iff.1 h2
    obtain ⟨rs1, a1, a2⟩ := recMap_leaves h1
    obtain ⟨rs2, b1, b2⟩ := recMapItems_leaves h3
    refine ⟨rs1 ++ rs2, ?_, ?_⟩
    · simp [itemLeaves, List.mapM_append, a1, b1]
    · simp [itemLeaves, a2, b2]
end

/-- C70: the leaves of the result are the results of `f` for the leaves of the container, in order, each
used once. -/
theorem C70_leaves {f : L → Option (ACont κ M)} {t : ACont κ L} {t' : ACont κ M} (h : recMap f t = some t') :
    ∃ rs, t.leaves.mapM f = some rs ∧ t'.leaves = rs.flatMap ACont.leaves := recMap_leaves h

mutual
theorem recMap_none {f : L → Option (ACont κ M)} : ∀ {t : ACont κ L},
    recMap f t = none ↔ ∃ x ∈ t.leaves, f x = none
  | .leaf x => by simp [recMap, ACont.leaves]
  | .node cls items => by
    rw [recMap, Option.map_eq_none_iff, ACont.leaves]
    exact recMapItems_none

theorem recMapItems_none {f : L → Option (ACont κ M)} : ∀ {l : List (κ × ACont κ L)},
    recMapItems f l = none ↔ ∃ x ∈ itemLeaves l, f x = none
  | [] => by simp [recMapItems, itemLeaves]
  | (k, t) :: rest => by
    simp only [recMapItems, itemLeaves, List.mem_append]
    have h1 := recMap_none (f := f) (t := t)
    have h2 := recMapItems_none (f := f) (l := rest)
    cases h : recMap f t with
    | none =>
      rw [h] at h1
      obtain ⟨x, hx, hf⟩ := h1.1 rfl
      simp only [Option.bind_none, true_iff]
      exact ⟨x, .inl hx, hf⟩
    | some t' =>
      rw [h] at h1
      simp only [Option.bind_some, Option.map_eq_none_iff]
      rw [h2]
      constructor
      · rintro ⟨x, hx, hf⟩; exact ⟨x, .inr hx, hf⟩
      · rintro ⟨x, hx | hx, hf⟩
        · exact absurd (h1.2 ⟨x, hx, hf⟩) (by simp)
        · exact ⟨x, hx, hf⟩
end

/-- C70: there is an exception exactly if `f` raises one for some leaf. -/
theorem C70_raises {f : L → Option (ACont κ M)} {t : ACont κ L} :
    recMap f t = none ↔ ∃ x ∈ t.leaves, f x = none := recMap_none

mutual
theorem recMap_shape {f : L → Option M} : ∀ {t : ACont κ L} {t' : ACont κ M},
    recMap (fun x => (f x).map .leaf) t = some t' → t'.shape = t.shape
  | .leaf x, t', h => by
    simp only [recMap] at h
    obtain ⟨y, _, rfl⟩ := Option.map_eq_some_iff.1 h
    rfl
  | .node cls items, t', h => by
    simp only [recMap] at h
    obtain ⟨is, h1, rfl⟩ := Option.map_eq_some_iff.1 h
    simp only [ACont.shape, recMapItems_shape h1]

theorem recMapItems_shape {f : L → Option M} : ∀ {l : List (κ × ACont κ L)} {l' : List (κ × ACont κ M)},
    recMapItems (fun x => (f x).map .leaf) l = some l' → itemShapes l' = itemShapes l
  | [], l', h => by
    simp only [recMapItems, Option.some.injEq] at h
    subst h; rfl
  | (k, t) :: rest, l', h => by
    simp only [recMapItems] at h
    obtain ⟨t', h1, h2⟩ := Option.bind_eq_some_iff.1 h
    obtain ⟨r', h3, rfl⟩ := Option.map_eq_some_iff.1 h2
    simp only [itemShapes, recMap_shape h1, recMapItems_shape h3]
end

/-- C70: if `f` returns leaves, classes and keys at all levels are kept. -/
theorem C70_shape {f : L → Option M} {t : ACont κ L} {t' : ACont κ M}
    (h : recMap (fun x => (f x).map .leaf) t = some t') : t'.shape = t.shape := recMap_shape h

mutual
theorem recMap_comp {f : L → Option (ACont κ M)} {g : M → Option (ACont κ R)} : ∀ {t : ACont κ L}
    {t' : ACont κ M}, recMap f t = some t' → recMap g t' = recMap (fun x => (f x).bind (recMap g)) t
  | .leaf x, t', h => by
    simp only [recMap] at h ⊢
    rw [h]; rfl
  | .node cls items, t', h => by
    simp only [recMap] at h
    obtain ⟨is, h1, rfl⟩ := Option.map_eq_some_iff.1 h
    simp only [recMap, recMapItems_comp h1]

theorem recMapItems_comp {f : L → Option (ACont κ M)} {g : M → Option (ACont κ R)} :
    ∀ {l : List (κ × ACont κ L)} {l' : List (κ × ACont κ M)}, recMapItems f l = some l' →
      recMapItems g l' = recMapItems (fun x => (f x).bind (recMap g)) l
  | [], l', h => by
    simp only [recMapItems, Option.some.injEq] at h
    subst h; rfl
  | (k, t) :: rest, l', h => by
    simp only [recMapItems] at h
    obtain ⟨t', h1, h2⟩ := Option.bind_eq_some_iff.1 h
    obtain ⟨r', h3, rfl⟩ := Option.map_eq_some_iff.1 h2
    simp only [recMapItems, recMap_comp h1, recMapItems_comp h3]
end

mutual
theorem recMap_id : ∀ t : ACont κ L, recMap (fun x => some (.leaf x)) t = some t
  | .leaf x => rfl
  | .node cls items => by rw [recMap, recMapItems_id items]; rfl

theorem recMapItems_id : ∀ l : List (κ × ACont κ L), recMapItems (fun x => some (.leaf x)) l = some l
  | [] => rfl
  | (k, t) :: rest => by rw [recMapItems, recMap_id t, recMapItems_id rest]; rfl
end

/-- C70: mapping the identity returns the container, and mapping twice is mapping the composition. -/
theorem C70_functor {f : L → Option (ACont κ M)} {g : M → Option (ACont κ R)} (t : ACont κ L) :
    recMap (fun x => some (.leaf x)) t = some t ∧
      ∀ t', recMap f t = some t' → recMap g t' = recMap (fun x => (f x).bind (recMap g)) t :=
  ⟨recMap_id t, fun _ => recMap_comp⟩

end

section
variable {X : Type}

theorem dofItems_ok {i : Nat} {items : List (Nat × X)} {l : List X} :
    dofItems i items = .ok l ↔ items = (l.zipIdx i).map fun p => (p.2, p.1) := by
  induction items generalizing i l with
  | nil => cases l <;> simp [dofItems]
  | cons p items ih =>
    obtain ⟨j, v⟩ := p
    simp only [dofItems]
    constructor
    · intro h
      split at h
      · rename_i hij
        cases hd : dofItems (i + 1) items with
        | error e => rw [hd] at h; cases h
        | ok l' =>
          rw [hd] at h
          cases h
          rw [List.zipIdx_cons, List.map_cons, ← ih.1 hd, hij]
      · cases h
    · intro h
      cases l with
      | nil => simp at h
      | cons v' l =>
        simp only [List.zipIdx_cons, List.map_cons, List.cons.injEq, Prod.mk.injEq] at h
        obtain ⟨⟨rfl, rfl⟩, h2⟩ := h
        rw [if_pos rfl, ih.2 h2]
        rfl

theorem dofItems_error {i : Nat} {items : List (Nat × X)} {e : DofErr} (h : dofItems i items = .error e) :
    e = .valueError := by
  induction items generalizing i with
  | nil => cases h
  | cons p items ih =>
    obtain ⟨j, v⟩ := p
    simp only [dofItems] at h
    split at h
    · cases hd : dofItems (i + 1) items with
      | error e' => rw [hd] at h; cases h; exact ih hd
      | ok l' => rw [hd] at h; cases h
    · cases h; rfl

/-- C70: a DOF array is recovered from its items, with the array context of the template. -/
theorem C70_round_trip (debug : Bool) (a template : DofObj X) :
    dofDeserialize debug template (dofSerialize a) = .ok ⟨template.actx, a.data⟩ := by
  cases debug with
  | true =>
    rw [dofDeserialize, if_pos rfl, dofSerialize, (dofItems_ok (l := a.data)).2 rfl]
    rfl
  | false =>
    rw [dofDeserialize, if_neg (by simp), dofSerialize, List.map_map]
    congr 2
    exact List.zipIdx_map_fst 0 a.data

/-- C70: items are accepted exactly if their indices are `0, 1, ...` in order, and then their values are
the arrays of the result; otherwise there is a `ValueError`. -/
theorem C70_deserialize (template : DofObj X) (items : List (Nat × X)) :
    dofDeserialize true template items =
      if items.map Prod.fst = List.range items.length then .ok ⟨template.actx, items.map Prod.snd⟩
      else .error .valueError := by
  rw [dofDeserialize, if_pos rfl]
  cases hd : dofItems 0 items with
  | ok l =>
    have h := dofItems_ok.1 hd
    have hl : items.length = l.length := by rw [h]; simp
    have hf : items.map Prod.fst = List.range items.length := by
      rw [hl]
      conv => lhs; rw [h]
      rw [List.map_map]
      exact (List.zipIdx_map_snd 0 l).trans List.range_eq_range'.symm
    have hs : items.map Prod.snd = l := by
      conv => lhs; rw [h]
      rw [List.map_map]
      exact List.zipIdx_map_fst 0 l
    rw [if_pos hf, hs]
    rfl
  | error e =>
    rw [dofItems_error hd, if_neg]
    · rfl
    · intro hf
      have : dofItems 0 items = .ok (items.map Prod.snd) := by
        rw [dofItems_ok]
        apply List.ext_getElem?
        intro i
        have hfi := congrArg (·[i]?) hf
        simp only [List.getElem?_map] at hfi
        simp only [List.getElem?_map, List.getElem?_zipIdx, Nat.zero_add]
        cases hi : items[i]? with
        | none => rfl
        | some p =>
          have hlt := (List.getElem?_eq_some_iff.1 hi).1
          rw [hi, List.getElem?_range hlt] at hfi
          simp only [Option.map_some, Option.some.injEq] at hfi ⊢
          exact Prod.ext hfi rfl
      rw [hd] at this
      cases this

/-- C70: a DOF array is made exactly if the array context is one or `None` and the data is a tuple; it has
this array context and these arrays.  `from_list` takes any sequence. -/
theorem C70_construct (actx : ActxArg) (data : DataArg X) :
    (∀ a, dofInit true actx data = .ok a ↔
      actx ≠ .other ∧ (∃ l, data = .tuple l) ∧ a = ⟨actx.get, data.get⟩) ∧
    (∀ e, dofInit true actx data = .error e → e = .typeError) ∧
    ∀ debug, dofFromList debug actx data =
      if actx = .other then .error .typeError else .ok ⟨actx.get, data.get⟩ := by
  cases actx <;> cases data <;>
    refine ⟨fun a => ?_, fun e h => ?_, fun debug => ?_⟩ <;>
    first
      | (cases debug <;> rfl)
      | (simp only [dofInit] at h; cases h; try rfl)
      | skip
  all_goals
    constructor
    · intro h
      first
        | (cases h; exact ⟨by simp, ⟨_, rfl⟩, rfl⟩)
        | cases h
    · rintro ⟨h1, ⟨l, h2⟩, rfl⟩
      first
        | exact absurd rfl h1
        | rfl
        | cases h2

/-- C70: changing the array context keeps the arrays; it fails exactly if some array does not belong to
the new one. -/
theorem C70_with_actx (isArray : Nat → X → Bool) (a : DofObj X) (actx : Option Nat) :
    (∀ b, dofWithActx isArray a actx = .ok b → b = ⟨actx, a.data⟩) ∧
    ((∃ e, dofWithActx isArray a actx = .error e) ↔ ∃ i, actx = some i ∧ ∃ x ∈ a.data, isArray i x = false) := by
  cases actx with
  | none =>
    refine ⟨fun b h => ?_, ?_⟩
    · cases h; rfl
    · simp [dofWithActx]
  | some i =>
    simp only [dofWithActx]
    by_cases hall : a.data.all (isArray i) = true
    · rw [if_pos hall]
      refine ⟨fun b h => (by cases h; rfl), ?_⟩
      simp only [List.all_eq_true] at hall
      simp only [reduceCtorEq, exists_false, Option.some.injEq, false_iff]
      rintro ⟨_, rfl, x, hx, hf⟩
      rw [hall x hx] at hf
      cases hf
    · rw [if_neg hall]
      refine ⟨fun b h => (by cases h), ?_⟩
      simp only [List.all_eq_true, not_forall] at hall
      obtain ⟨x, hx, hf⟩ := hall
      exact ⟨fun _ => ⟨i, rfl, x, hx, by simpa using hf⟩, fun _ => ⟨_, rfl⟩⟩

end

/-! ## Concrete cases -/

/-- A container with a container and two leaves. (Example, no code.) -/
def exACont : ACont String Int := .node 1 [("rho", .leaf 3), ("mom", .node 2 [("x", .leaf 4), ("y", .leaf 5)])]

-- The hypotheses of `C70_leaves`, `C70_shape` and `C70_functor`: doubling the leaves.
example : recMap (fun x => (some (2 * x)).map .leaf) exACont =
    some (.node 1 [("rho", .leaf 6), ("mom", .node 2 [("x", .leaf 8), ("y", .leaf 10)])]) := rfl

-- An exception for one leaf.
example : recMap (M := Int) (fun x => if x = 4 then none else some (.leaf x)) exACont = none := rfl

-- Items out of sequence are refused, but only in debug mode.
example : dofDeserialize true ⟨some 0, []⟩ [(1, 7), (0, 8)] = .error .valueError ∧
    dofDeserialize false ⟨some 0, []⟩ [(1, 7), (0, 8)] = .ok ⟨some 0, [7, 8]⟩ := by decide

-- Construction from a tuple and from a list.
example : dofInit true (.actx 2) (.tuple [1, 2]) = .ok ⟨some 2, [1, 2]⟩ ∧
    dofInit true (.actx 2) (.list [1, 2]) = .error .typeError ∧
    dofFromList true (.actx 2) (.list [1, 2]) = .ok ⟨some 2, [1, 2]⟩ := by
  exact ⟨rfl, rfl, rfl⟩

end Meshmode
