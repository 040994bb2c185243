import Mathlib.Data.Complex.Basic
import Mathlib.Algebra.BigOperators.Group.List.Basic
import Verif.Dof.Container
import Verif.Dof.Pickle

/-!
# Arrays made by discretizations (C96)

`Discretization.__init__`, `copy`, `ndofs`, `zeros`, `empty`, `zeros_like`, `empty_like` and `quad_weights`
(meshmode/discretization/__init__.py:387-578), and the parts of `DOFArray` that act on one group at a time:
sequence protocol, `shape`, `size`, `conj`, `real`, `imag`, `astype`
(meshmode/dof_array.py:171-173, 204-255).

Array contexts are numbers, `clone` gives the number of the clone.  Group factories can raise exceptions.
The tags put on the axes of new arrays are not modelled.
-/
namespace Meshmode

/-! ## Model -/

/-- Data types of entries. Code: meshmode/discretization/__init__.py:411-415. -/
inductive DType where
  | float32
  | float64
  | complex64
  | complex128
  | other (i : Nat)
  deriving DecidableEq, Repr

/-- What callers pass as `dtype`. Code: meshmode/discretization/__init__.py:489-494. -/
inductive DTypeArg where
  | none
  | c
  | given (d : DType)
  deriving DecidableEq, Repr

/-- Exceptions. Code: meshmode/discretization/__init__.py:406, 409, 415, 529, 540, 547, 559,
meshmode/dof_array.py:173, 204-207. -/
inductive ArrErr where
  | typeError
  | keyError
  | valueError
  /-- `ElementGroupTypeError` -/
  | groupType
  /-- raised by the group factory -/
  | factory (i : Nat)
  deriving DecidableEq, Repr

/-- An element group as far as arrays are concerned: numbers of elements and of degrees of freedom, whether it
is a `NodalElementGroupBase`, and the weights of its quadrature rule.
Code: meshmode/discretization/__init__.py:145-164, 221-267. -/
structure ArrGroup (K : Type) where
  nelements : Nat
  nunit : Nat
  nodal : Bool
  weights : List K
  deriving DecidableEq, Repr

/-- An array of shape `(nrows, ncols)`. Code: meshmode/discretization/__init__.py:497. -/
structure GroupArr (K : Type) where
  nrows : Nat
  ncols : Nat
  dtype : DType
  entry : Nat → Nat → K

/-- A `Discretization`, `M` for mesh element groups. Code: meshmode/discretization/__init__.py:378-385. -/
structure ArrDiscr (M K : Type) where
  mesh : List M
  groups : List (ArrGroup K)
  realDtype : DType
  complexDtype : DType
  setupActx : Nat
  factory : M → Except Nat (ArrGroup K)

section
variable {M K : Type}

/-- `{np.float32: np.complex64, np.float64: np.complex128}[…]`,
meshmode/discretization/__init__.py:412-415. -/
def complexOf : DType → Option DType
  | .float32 => some .complex64
  | .float64 => some .complex128
  | _ => none

/-- `[group_factory(mg) for mg in mesh.groups]`, meshmode/discretization/__init__.py:409. -/
def makeGroups (factory : M → Except Nat (ArrGroup K)) : List M → Except ArrErr (List (ArrGroup K))
  | [] => .ok []
  | m :: ms => match factory m with
    | .error i => .error (.factory i)
    | .ok g => (makeGroups factory ms).map (g :: ·)

/-- `Discretization.__init__`, meshmode/discretization/__init__.py:387-432. -/
def discrInit (clone : Nat → Nat) (actx : ActxArg) (mesh : List M)
    (factory : M → Except Nat (ArrGroup K)) (realDtype : Option DType) (force : Bool) :
    Except ArrErr (ArrDiscr M K) :=
  match actx with
  | .actx a => match makeGroups factory mesh with
    | .error e => .error e
    | .ok groups => match complexOf (realDtype.getD .float64) with
      | none => .error .keyError
      | some c => .ok ⟨mesh, groups, realDtype.getD .float64, c, if force then clone a else a, factory⟩
  | _ => .error .typeError

/-- `Discretization.copy`, meshmode/discretization/__init__.py:434-452; a given array context is one. -/
def discrCopy (clone : Nat → Nat) (d : ArrDiscr M K) (actx : Option Nat) (mesh : Option (List M))
    (factory : Option (M → Except Nat (ArrGroup K))) (realDtype : Option DType) :
    Except ArrErr (ArrDiscr M K) :=
  discrInit clone (.actx (match actx with | none => d.setupActx | some a => clone a)) (mesh.getD d.mesh)
    (factory.getD d.factory) (some (realDtype.getD d.realDtype)) false

/-- `ndofs` of discretizations and groups, meshmode/discretization/__init__.py:160-164, 462-464. -/
def ArrDiscr.ndofs (d : ArrDiscr M K) : Nat := (d.groups.map fun g => g.nunit * g.nelements).sum

/-- `is_nodal`, meshmode/discretization/__init__.py:466-473. -/
def ArrDiscr.isNodal (d : ArrDiscr M K) : Bool := d.groups.all fun g => g.nodal

/-- The data type of a new array, meshmode/discretization/__init__.py:489-494. -/
def ArrDiscr.newDtype (d : ArrDiscr M K) : DTypeArg → DType
  | .none => d.realDtype
  | .c => d.complexDtype
  | .given t => t

/-- `_new_array` with `actx.np.zeros`, meshmode/discretization/__init__.py:484-503; tags left out. -/
def ArrDiscr.newArray [Zero K] (d : ArrDiscr M K) (actx : Nat) (dtype : DTypeArg) : DofObj (GroupArr K) :=
  ⟨some actx, d.groups.map fun g => ⟨g.nelements, g.nunit, d.newDtype dtype, fun _ _ => 0⟩⟩

/-- `zeros`, meshmode/discretization/__init__.py:521-531, and the deprecated `empty`, 505-519, which differs
by a warning. -/
def ArrDiscr.zeros [Zero K] (d : ArrDiscr M K) (actx : ActxArg) (dtype : DTypeArg) :
    Except ArrErr (DofObj (GroupArr K)) :=
  match actx with
  | .actx a => .ok (d.newArray a dtype)
  | _ => .error .typeError

/-- `entry_dtype`, meshmode/dof_array.py:171-173: `single_valued` raises an exception if there are no items,
or if they are not all equal to the first. -/
def entryDtype (a : DofObj (GroupArr K)) : Except ArrErr DType :=
  match a.data.map GroupArr.dtype with
  | [] => .error .valueError
  | t :: ts => if ts.all (· == t) then .ok t else .error .valueError

/-- `zeros_like`, meshmode/discretization/__init__.py:544-549, and the deprecated `empty_like`, 533-542. -/
def ArrDiscr.zerosLike [Zero K] (d : ArrDiscr M K) (a : DofObj (GroupArr K)) :
    Except ArrErr (DofObj (GroupArr K)) :=
  match a.actx with
  | none => .error .valueError
  | some i => match entryDtype a with
    | .error e => .error e
    | .ok t => d.zeros (.actx i) (.given t)

/-- One group of `quad_weights`, meshmode/discretization/__init__.py:571-578: the number of columns is
inferred from the shape of `weights`, and its data type, `float64` for all rules, is kept. -/
def weightArr [Zero K] (g : ArrGroup K) : GroupArr K :=
  ⟨g.nelements, g.weights.length, .float64, fun _ idof => g.weights.getD idof 0⟩

/-- `quad_weights`, meshmode/discretization/__init__.py:551-578. -/
def ArrDiscr.quadWeights [Zero K] (d : ArrDiscr M K) : Except ArrErr (DofObj (GroupArr K)) :=
  if d.isNodal then .ok ⟨none, d.groups.map weightArr⟩ else .error .groupType

/-- `bool(array)`, meshmode/dof_array.py:204-207. -/
def dofBool (_ : DofObj (GroupArr K)) : Except ArrErr Bool := .error .valueError

/-- `len(array)` and `array.size`, meshmode/dof_array.py:209-210, 229-231. -/
def dofLen (a : DofObj (GroupArr K)) : Nat := a.data.length

/-- `array.shape`, meshmode/dof_array.py:225-227. -/
def dofShape (a : DofObj (GroupArr K)) : List Nat := [dofLen a]

/-- `_like_me` of the arrays with `f` applied to each, meshmode/dof_array.py:222-223. -/
def likeMe {L : Type} (f : GroupArr K → GroupArr L) (a : DofObj (GroupArr K)) : DofObj (GroupArr L) :=
  ⟨a.actx, a.data.map f⟩

/-- Conversion of all entries of an array to a type.  Code: meshmode/dof_array.py:255, external `astype`,
with conversion `cvt` of entries. -/
def convArr (cvt : DType → K → K) (t : DType) (a : GroupArr K) : GroupArr K :=
  ⟨a.nrows, a.ncols, t, fun i j => cvt t (a.entry i j)⟩

/-- `astype`, meshmode/dof_array.py:253-255. -/
def dofAstype (cvt : DType → K → K) (t : DType) : DofObj (GroupArr K) → DofObj (GroupArr K) :=
  likeMe (convArr cvt t)

/-- The type of real and imaginary parts. Code: meshmode/dof_array.py:247, 251, external `real`, `imag`. -/
def DType.part : DType → DType
  | .complex64 => .float32
  | .complex128 => .float64
  | t => t

end

/-- `conj`, meshmode/dof_array.py:240-243. -/
noncomputable def dofConj : DofObj (GroupArr ℂ) → DofObj (GroupArr ℂ) :=
  likeMe fun a => ⟨a.nrows, a.ncols, a.dtype, fun i j => ⟨(a.entry i j).re, -(a.entry i j).im⟩⟩

/-- `real`, meshmode/dof_array.py:245-247. -/
noncomputable def dofReal : DofObj (GroupArr ℂ) → DofObj (GroupArr ℝ) :=
  likeMe fun a => ⟨a.nrows, a.ncols, a.dtype.part, fun i j => (a.entry i j).re⟩

/-- `imag`, meshmode/dof_array.py:249-251. -/
noncomputable def dofImag : DofObj (GroupArr ℂ) → DofObj (GroupArr ℝ) :=
  likeMe fun a => ⟨a.nrows, a.ncols, a.dtype.part, fun i j => (a.entry i j).im⟩

/-! ## Specification -/

section
variable {M K : Type}

/-- The entries of an array, row by row. (Specification or proof vocabulary, no code.) -/
def GroupArr.entries (a : GroupArr K) : List K :=
  (List.range a.nrows).flatMap fun i => (List.range a.ncols).map (a.entry i)

/-- All entries of a DOF array, group by group. (Specification or proof vocabulary, no code.) -/
def allEntries (a : DofObj (GroupArr K)) : List K := a.data.flatMap GroupArr.entries

/-- The array as seen by `check_dofarray_against_discr`. (Specification or proof vocabulary, no code.) -/
def asCheckArg (a : DofObj (GroupArr K)) : CheckArg := .dof (a.data.map fun x => [x.nrows, x.ncols])

/-- The groups as seen by `check_dofarray_against_discr`. (Specification or proof vocabulary, no code.) -/
def ArrDiscr.sizes (d : ArrDiscr M K) : List (Nat × Nat) := d.groups.map fun g => (g.nelements, g.nunit)

/-! ## Proofs -/

theorem makeGroups_ok {factory : M → Except Nat (ArrGroup K)} {ms : List M} {gs : List (ArrGroup K)} :
    makeGroups factory ms = .ok gs ↔ ms.map factory = gs.map .ok := by
  induction ms generalizing gs with
  | nil => cases gs <;> simp [makeGroups]
  | cons m ms ih =>
    rw [makeGroups]
    rcases hf : factory m with i | g
    · cases gs <;> simp [hf]
    · rcases hm : makeGroups factory ms with e | hs
      · cases gs with
        | nil => simp [Except.map]
        | cons g' gs =>
          simp only [Except.map, reduceCtorEq, List.map_cons, List.cons.injEq, false_iff, not_and]
          intro _ h
          rw [(ih (gs := gs)).2 h] at hm
          simp at hm
      · cases gs with
        | nil => simp [Except.map]
        | cons g' gs =>
          have := ih (gs := gs)
          rw [hm] at this
          simp only [Except.ok.injEq] at this
          simp [Except.map, hf, this]

/-- C96: a discretization is made exactly of an array context, a mesh whose groups the factory accepts, and a
real type of single or double precision; it has one group per group of the mesh, in order, as made by the
factory, and the complex type of the same precision. -/
theorem C96_init {clone : Nat → Nat} {actx : ActxArg} {mesh : List M}
    {factory : M → Except Nat (ArrGroup K)} {dt : Option DType} {force : Bool} {d : ArrDiscr M K} :
    discrInit clone actx mesh factory dt force = .ok d ↔
      ∃ a, actx = .actx a ∧ d.mesh = mesh ∧ d.factory = factory ∧ mesh.map factory = d.groups.map .ok ∧
        d.setupActx = (if force then clone a else a) ∧
        (((dt = none ∨ dt = some .float64) ∧ d.realDtype = .float64 ∧ d.complexDtype = .complex128) ∨
          (dt = some .float32 ∧ d.realDtype = .float32 ∧ d.complexDtype = .complex64)) := by
  cases actx with
  | none => simp [discrInit]
  | other => simp [discrInit]
  | actx a =>
    obtain ⟨dm, dg, dr, dc, da, df⟩ := d
    rcases hg : makeGroups factory mesh with e | gs
    · simp only [discrInit, hg, reduceCtorEq, ActxArg.actx.injEq, false_iff, not_exists, not_and]
      rintro _ - - - h
      rw [makeGroups_ok.2 h] at hg
      simp at hg
    · have hgs : ∀ gs' : List (ArrGroup K), mesh.map factory = gs'.map .ok ↔ gs = gs' := by
        intro gs'
        rw [← makeGroups_ok, hg]
        simp
      simp only [discrInit, hg, ActxArg.actx.injEq, exists_eq_left', hgs]
      rcases dt with _ | dt
      · simp only [Option.getD_none, complexOf, Except.ok.injEq, ArrDiscr.mk.injEq]
        constructor
        · rintro ⟨rfl, rfl, rfl, rfl, rfl, rfl⟩
          simp
        · rintro ⟨rfl, rfl, rfl, rfl, h⟩
          simp at h
          simp [h]
      · cases dt <;> simp only [Option.getD_some, complexOf, Except.ok.injEq, ArrDiscr.mk.injEq]
        case float32 =>
          constructor
          · rintro ⟨rfl, rfl, rfl, rfl, rfl, rfl⟩
            simp
          · rintro ⟨rfl, rfl, rfl, rfl, h⟩
            simp at h
            simp [h]
        case float64 =>
          constructor
          · rintro ⟨rfl, rfl, rfl, rfl, rfl, rfl⟩
            simp
          · rintro ⟨rfl, rfl, rfl, rfl, h⟩
            simp at h
            simp [h]
        all_goals simp

/-- C96: the errors of the constructor. -/
theorem C96_init_errors (clone : Nat → Nat) (mesh : List M) (factory : M → Except Nat (ArrGroup K))
    (force : Bool) :
    (∀ dt, discrInit clone .none mesh factory dt force = .error .typeError) ∧
    (∀ dt, discrInit clone .other mesh factory dt force = .error .typeError) ∧
    ∀ (a : Nat) (t : DType) (gs : List (ArrGroup K)), mesh.map factory = gs.map .ok → t ≠ .float32 → t ≠ .float64 →
      discrInit clone (.actx a) mesh factory (some t) force = .error .keyError := by
  refine ⟨fun _ => rfl, fun _ => rfl, ?_⟩
  intro a t gs h h1 h2
  simp only [discrInit, makeGroups_ok.2 h, Option.getD_some]
  cases t <;> simp_all [complexOf]

/-- C96: a copy without arguments has the same mesh, factory, groups, types and array context; no array context
is cloned. -/
theorem C96_copy {clone clone' : Nat → Nat} {actx : ActxArg} {mesh : List M}
    {factory : M → Except Nat (ArrGroup K)} {dt : Option DType} {force : Bool} {d : ArrDiscr M K}
    (h : discrInit clone actx mesh factory dt force = .ok d) :
    discrCopy clone' d none none none none = .ok d := by
  obtain ⟨a, -, h2, h3, h4, -, h6⟩ := C96_init.1 h
  refine C96_init.2 ⟨_, rfl, rfl, rfl, ?_, rfl, ?_⟩
  · simpa [h2, h3] using h4
  · rcases h6 with ⟨-, h7, h8⟩ | ⟨-, h7, h8⟩ <;> simp [h7, h8]

/-- C96: given arguments replace what they stand for, and nothing else; a given array context is cloned
once. -/
theorem C96_copy_replaces {clone : Nat → Nat} {d d' : ArrDiscr M K} {actx : Option Nat}
    {mesh : Option (List M)} {factory : Option (M → Except Nat (ArrGroup K))} {dt : Option DType}
    (h : discrCopy clone d actx mesh factory dt = .ok d') :
    d'.mesh = mesh.getD d.mesh ∧ d'.factory = factory.getD d.factory ∧
      d'.realDtype = dt.getD d.realDtype ∧ d'.setupActx = (actx.map clone).getD d.setupActx ∧
      d'.mesh.map d'.factory = d'.groups.map .ok := by
  obtain ⟨a, h1, h2, h3, h4, h5, h6⟩ := C96_init.1 h
  refine ⟨h2, h3, ?_, ?_, by rw [h2, h3]; exact h4⟩
  · rcases h6 with ⟨h7, h8, -⟩ | ⟨h7, h8, -⟩ <;> simp_all
  · simp only [ActxArg.actx.injEq] at h1
    rw [h5]
    cases actx <;> simp_all

/-- C96: new arrays need an array context, and have it. -/
theorem C96_zeros_defined [Zero K] (d : ArrDiscr M K) (actx : ActxArg) (dt : DTypeArg) :
    (∀ r, d.zeros actx dt = .ok r → ∃ a, actx = .actx a ∧ r.actx = some a) ∧
    (∀ e, d.zeros actx dt = .error e → e = .typeError ∧ ∀ a, actx ≠ .actx a) ∧
    ∀ a, ∃ r, d.zeros (.actx a) dt = .ok r := by
  refine ⟨?_, ?_, fun a => ⟨_, rfl⟩⟩
  · intro r h
    cases actx <;> simp [ArrDiscr.zeros] at h
    subst h
    exact ⟨_, rfl, rfl⟩
  · intro e h
    cases actx <;> simp [ArrDiscr.zeros] at h <;> exact ⟨h.symm, by simp⟩

/-- C96: new arrays pass the consistency check of C38. -/
theorem C96_zeros_checked [Zero K] {d : ArrDiscr M K} {actx : ActxArg} {dt : DTypeArg}
    {r : DofObj (GroupArr K)} (h : d.zeros actx dt = .ok r) :
    checkDofArray d.sizes (asCheckArg r) = .ok := by
  cases actx <;> simp [ArrDiscr.zeros] at h
  subst h
  rw [C38_exact]
  simp [asCheckArg, ArrDiscr.newArray, ArrDiscr.sizes, Function.comp_def]

theorem entries_length (a : GroupArr K) : a.entries.length = a.nrows * a.ncols := by
  simp [GroupArr.entries, List.length_flatMap]

/-- C96: arrays that pass the check have `ndofs` entries. -/
theorem C96_ndofs {d : ArrDiscr M K} {a : DofObj (GroupArr K)}
    (h : checkDofArray d.sizes (asCheckArg a) = .ok) : (allEntries a).length = d.ndofs := by
  rw [C38_exact] at h
  simp only [asCheckArg, CheckArg.dof.injEq, ArrDiscr.sizes, List.map_map] at h
  have h2 := congrArg (List.map fun s : List Nat => s.getD 1 0 * s.getD 0 0) h
  simp only [List.map_map, Function.comp_def, List.getD_cons_zero, List.getD_cons_succ] at h2
  rw [allEntries, List.length_flatMap, ArrDiscr.ndofs, ← h2]
  congr 1
  apply List.map_congr_left
  intro x _
  rw [entries_length, Nat.mul_comm]

/-- C96: all entries of new arrays are zero. -/
theorem C96_zeros_zero [Zero K] {d : ArrDiscr M K} {actx : ActxArg} {dt : DTypeArg}
    {r : DofObj (GroupArr K)} (h : d.zeros actx dt = .ok r) :
    allEntries r = List.replicate d.ndofs 0 := by
  rw [List.eq_replicate_iff]
  refine ⟨C96_ndofs (C96_zeros_checked h), ?_⟩
  intro b hb
  cases actx <;> simp [ArrDiscr.zeros] at h
  subst h
  simp only [allEntries, ArrDiscr.newArray, List.mem_flatMap, List.mem_map] at hb
  obtain ⟨x, ⟨g, -, rfl⟩, hb⟩ := hb
  simp only [GroupArr.entries, List.mem_flatMap, List.mem_map] at hb
  obtain ⟨i, -, j, -, rfl⟩ := hb
  rfl

/-- C96: the data type of new arrays: the real type of the discretization unless one is asked for, the complex
type of the same precision for `"c"`, else the given one. -/
theorem C96_zeros_dtype [Zero K] {clone : Nat → Nat} {c : ActxArg} {mesh : List M}
    {factory : M → Except Nat (ArrGroup K)} {rdt : Option DType} {force : Bool} {d : ArrDiscr M K}
    (hd : discrInit clone c mesh factory rdt force = .ok d) {actx : ActxArg} {dt : DTypeArg}
    {r : DofObj (GroupArr K)} (h : d.zeros actx dt = .ok r) {x : GroupArr K} (hx : x ∈ r.data) :
    (dt = .none → x.dtype = rdt.getD .float64) ∧
    (dt = .c → x.dtype = if rdt = some .float32 then .complex64 else .complex128) ∧
    ∀ t, dt = .given t → x.dtype = t := by
  obtain ⟨-, -, -, -, -, -, h6⟩ := C96_init.1 hd
  cases actx <;> simp [ArrDiscr.zeros] at h
  subst h
  simp only [ArrDiscr.newArray, List.mem_map] at hx
  obtain ⟨g, -, rfl⟩ := hx
  refine ⟨?_, ?_, ?_⟩
  · rintro rfl
    rcases h6 with ⟨h7 | h7, h8, -⟩ | ⟨h7, h8, -⟩ <;> simp [h7, h8, ArrDiscr.newDtype]
  · rintro rfl
    rcases h6 with ⟨h7 | h7, -, h8⟩ | ⟨h7, -, h8⟩ <;> simp [h7, h8, ArrDiscr.newDtype]
  · rintro t rfl
    rfl

theorem entryDtype_ok {a : DofObj (GroupArr K)} {t : DType} :
    entryDtype a = .ok t ↔ a.data ≠ [] ∧ ∀ x ∈ a.data, x.dtype = t := by
  rw [entryDtype]
  rcases ha : a.data with _ | ⟨x, xs⟩
  · simp
  · simp only [List.map_cons, ne_eq, reduceCtorEq, not_false_eq_true, List.forall_mem_cons, true_and]
    by_cases h : (xs.map GroupArr.dtype).all (· == x.dtype) = true
    · rw [if_pos h]
      simp only [List.all_eq_true, List.mem_map, beq_iff_eq, forall_exists_index, and_imp,
        forall_apply_eq_imp_iff₂] at h
      simp only [Except.ok.injEq]
      constructor
      · rintro rfl
        exact ⟨rfl, h⟩
      · exact fun h => h.1
    · rw [if_neg h]
      simp only [reduceCtorEq, false_iff, not_and]
      rintro rfl h2
      apply h
      simp only [List.all_eq_true, List.mem_map, beq_iff_eq, forall_exists_index, and_imp,
        forall_apply_eq_imp_iff₂]
      exact h2

/-- C96: `zeros_like` gives an array exactly for arrays that are not frozen and have one data type: the array
of zeros of this discretization, with the array context and type of its argument. -/
theorem C96_zeros_like [Zero K] (d : ArrDiscr M K) (a r : DofObj (GroupArr K)) :
    d.zerosLike a = .ok r ↔ ∃ i t, a.actx = some i ∧ a.data ≠ [] ∧ (∀ x ∈ a.data, x.dtype = t) ∧
      d.zeros (.actx i) (.given t) = .ok r := by
  rw [ArrDiscr.zerosLike]
  rcases ha : a.actx with _ | i
  · simp
  · rcases he : entryDtype a with e | t
    · simp only [reduceCtorEq, Option.some.injEq, false_iff, not_exists, not_and]
      intro _ t _ h1 h2
      rw [entryDtype_ok.2 ⟨h1, h2⟩] at he
      simp at he
    · simp only [Option.some.injEq]
      obtain ⟨h1, h2⟩ := entryDtype_ok.1 he
      constructor
      · exact fun h => ⟨i, t, rfl, h1, h2, h⟩
      · rintro ⟨i', t', rfl, -, h3, h4⟩
        rw [entryDtype_ok.2 ⟨h1, h3⟩] at he
        simp only [Except.ok.injEq] at he
        rwa [← he]

/-- C96: all errors of `zeros_like` are `ValueError`s. -/
theorem C96_zeros_like_errors [Zero K] (d : ArrDiscr M K) (a : DofObj (GroupArr K)) (e : ArrErr)
    (h : d.zerosLike a = .error e) : e = .valueError := by
  rw [ArrDiscr.zerosLike] at h
  split at h
  · simpa using h.symm
  · split at h
    · rename_i he
      simp only [Except.error.injEq] at h
      subst h
      rw [entryDtype] at he
      split at he
      · simpa using he.symm
      · split at he <;> simp at he
        exact he.symm
    · simp [ArrDiscr.zeros] at h

/-- C96: `zeros_like` of a new array of the same discretization is that array. -/
theorem C96_zeros_like_zeros [Zero K] {d : ArrDiscr M K} (hd : d.groups ≠ []) {actx : ActxArg}
    {dt : DTypeArg} {r : DofObj (GroupArr K)} (h : d.zeros actx dt = .ok r) : d.zerosLike r = .ok r := by
  cases actx <;> simp [ArrDiscr.zeros] at h
  subst h
  rename_i i
  rw [C96_zeros_like]
  refine ⟨i, d.newDtype dt, rfl, by simpa [ArrDiscr.newArray] using hd, ?_, rfl⟩
  simp [ArrDiscr.newArray]

/-- C96 fails for a discretization without groups: `zeros_like` rejects the arrays `zeros` makes. -/
theorem C96_no_groups_counterexample [Zero K] {d : ArrDiscr M K} (hd : d.groups = []) (a : Nat)
    (dt : DTypeArg) :
    ∃ r, d.zeros (.actx a) dt = .ok r ∧ d.zerosLike r = .error .valueError := by
  refine ⟨_, rfl, ?_⟩
  simp [ArrDiscr.zerosLike, ArrDiscr.newArray, hd, entryDtype]

/-- C96: weights are available exactly if all groups are nodal. -/
theorem C96_weights_defined [Zero K] (d : ArrDiscr M K) :
    ((∃ r, d.quadWeights = .ok r) ↔ ∀ g ∈ d.groups, g.nodal = true) ∧
    ∀ e, d.quadWeights = .error e → e = .groupType := by
  rw [ArrDiscr.quadWeights]
  by_cases h : d.isNodal = true
  · rw [if_pos h]
    refine ⟨by simpa [ArrDiscr.isNodal] using h, by simp⟩
  · rw [if_neg h]
    refine ⟨by simpa [ArrDiscr.isNodal] using h, by simp⟩

/-- C96: weights are frozen; the array passes the check if each rule has one weight per degree of freedom. -/
theorem C96_weights_checked [Zero K] {d : ArrDiscr M K} {r : DofObj (GroupArr K)}
    (h : d.quadWeights = .ok r) (hw : ∀ g ∈ d.groups, g.weights.length = g.nunit) :
    r.actx = none ∧ checkDofArray d.sizes (asCheckArg r) = .ok := by
  rw [ArrDiscr.quadWeights] at h
  split at h <;> simp only [Except.ok.injEq, reduceCtorEq] at h
  subst h
  refine ⟨rfl, ?_⟩
  rw [C38_exact]
  simp only [asCheckArg, ArrDiscr.sizes, List.map_map, Function.comp_def, weightArr, CheckArg.dof.injEq]
  apply List.map_congr_left
  intro g hg
  rw [hw g hg]

theorem range_getD_map [Zero K] (l : List K) : (List.range l.length).map (fun j => l.getD j 0) = l := by
  apply List.ext_getElem
  · simp
  · intro i h1 h2
    simp [List.getD_eq_getElem?_getD, List.getElem?_eq_getElem h2]

/-- C96: each element has the weights of its group's rule. -/
theorem C96_weights [Zero K] {d : ArrDiscr M K} {r : DofObj (GroupArr K)} (h : d.quadWeights = .ok r) :
    allEntries r = d.groups.flatMap fun g => (List.replicate g.nelements g.weights).flatten := by
  rw [ArrDiscr.quadWeights] at h
  split at h <;> simp only [Except.ok.injEq, reduceCtorEq] at h
  subst h
  simp only [allEntries, List.flatMap_map]
  congr 1
  funext g
  simp only [GroupArr.entries, weightArr, range_getD_map]
  rw [List.flatMap_def]
  congr 1
  simp [List.map_const']

theorem sum_rows [CommSemiring K] (n m : Nat) (f : Nat → Nat → K) :
    ((List.range n).flatMap fun i => (List.range m).map (f i)).sum =
      ((List.range n).map fun i => ((List.range m).map (f i)).sum).sum := by
  induction List.range n with
  | nil => rfl
  | cons a l ih => simp [ih]

/-- C96: the sum of weights times values is the sum over all elements of their groups' quadrature
rules. -/
theorem C96_quadrature [CommSemiring K] {d : ArrDiscr M K} {r : DofObj (GroupArr K)}
    (h : d.quadWeights = .ok r) (f : Nat → Nat → Nat → K) :
    (r.data.zipIdx.map fun p => ((List.range p.1.nrows).flatMap fun iel =>
        (List.range p.1.ncols).map fun idof => p.1.entry iel idof * f p.2 iel idof).sum).sum =
      (d.groups.zipIdx.map fun p => ((List.range p.1.nelements).map fun iel =>
        (p.1.weights.zipIdx.map fun w => w.1 * f p.2 iel w.2).sum).sum).sum := by
  rw [ArrDiscr.quadWeights] at h
  split at h <;> simp only [Except.ok.injEq, reduceCtorEq] at h
  subst h
  simp only [List.zipIdx_map, List.map_map]
  congr 1
  apply List.map_congr_left
  rintro ⟨g, k⟩ _
  simp only [Function.comp_def, Prod.map_fst, Prod.map_snd, id, weightArr]
  rw [sum_rows]
  congr 1
  apply List.map_congr_left
  intro iel _
  congr 1
  apply List.ext_getElem
  · simp
  · intro i h1 h2
    simp at h1
    simp [List.getD_eq_getElem?_getD, h1]

/-- C96: a DOF array has no truth value; its length, size and shape count groups. -/
theorem C96_sequence (a : DofObj (GroupArr K)) :
    dofBool a = .error .valueError ∧ dofLen a = a.data.length ∧ dofShape a = [a.data.length] :=
  ⟨rfl, rfl, rfl⟩

/-- C96: conversion to a type keeps context and shapes, converts all entries, and gives an array of that
one type. -/
theorem C96_astype (cvt : DType → K → K) (t : DType) (a : DofObj (GroupArr K)) :
    (dofAstype cvt t a).actx = a.actx ∧ asCheckArg (dofAstype cvt t a) = asCheckArg a ∧
      allEntries (dofAstype cvt t a) = (allEntries a).map (cvt t) ∧
      ∀ x ∈ (dofAstype cvt t a).data, x.dtype = t := by
  refine ⟨rfl, ?_, ?_, ?_⟩
  · simp [asCheckArg, dofAstype, likeMe, convArr, Function.comp_def]
  · simp only [allEntries, dofAstype, likeMe, List.flatMap_map, List.map_flatMap, GroupArr.entries, convArr,
      List.map_map, Function.comp_def]
  · simp [dofAstype, likeMe, convArr]

end

/-- C96: real and imaginary parts and conjugates keep context and shapes; entries are those of the parts of
the entries, a number is its real part plus `i` times its imaginary part. -/
theorem C96_parts (a : DofObj (GroupArr ℂ)) :
    (dofReal a).actx = a.actx ∧ (dofImag a).actx = a.actx ∧ (dofConj a).actx = a.actx ∧
      asCheckArg (dofReal a) = asCheckArg a ∧ asCheckArg (dofImag a) = asCheckArg a ∧
      asCheckArg (dofConj a) = asCheckArg a ∧
      allEntries a = List.zipWith (fun x y : ℝ => (x : ℂ) + Complex.I * y) (allEntries (dofReal a))
        (allEntries (dofImag a)) ∧
      allEntries (dofConj a) = List.zipWith (fun x y : ℝ => (x : ℂ) - Complex.I * y)
        (allEntries (dofReal a)) (allEntries (dofImag a)) := by
  have hre : allEntries (dofReal a) = (allEntries a).map Complex.re := by
    simp only [allEntries, dofReal, likeMe, List.flatMap_map, List.map_flatMap, GroupArr.entries,
      List.map_map, Function.comp_def]
  have him : allEntries (dofImag a) = (allEntries a).map Complex.im := by
    simp only [allEntries, dofImag, likeMe, List.flatMap_map, List.map_flatMap, GroupArr.entries,
      List.map_map, Function.comp_def]
  have hco : allEntries (dofConj a) = (allEntries a).map fun z => (⟨z.re, -z.im⟩ : ℂ) := by
    simp only [allEntries, dofConj, likeMe, List.flatMap_map, List.map_flatMap, GroupArr.entries,
      List.map_map, Function.comp_def]
  refine ⟨rfl, rfl, rfl, ?_, ?_, ?_, ?_, ?_⟩
  · simp [asCheckArg, dofReal, likeMe, Function.comp_def]
  · simp [asCheckArg, dofImag, likeMe, Function.comp_def]
  · simp [asCheckArg, dofConj, likeMe, Function.comp_def]
  · rw [hre, him]
    induction allEntries a with
    | nil => rfl
    | cons z l ih =>
      simp only [List.map_cons, List.zipWith_cons_cons, ← ih, List.cons.injEq, and_true]
      apply Complex.ext <;> simp
  · rw [hre, him, hco]
    induction allEntries a with
    | nil => rfl
    | cons z l ih =>
      simp only [List.map_cons, List.zipWith_cons_cons, ih, List.cons.injEq, and_true]
      apply Complex.ext <;> simp

/-- C96: real and imaginary parts have the real type for the number type, conjugates keep the number type. -/
theorem C96_parts_dtype (a : DofObj (GroupArr ℂ)) :
    (dofReal a).data.map GroupArr.dtype = a.data.map (fun x => x.dtype.part) ∧
      (dofImag a).data.map GroupArr.dtype = a.data.map (fun x => x.dtype.part) ∧
      (dofConj a).data.map GroupArr.dtype = a.data.map GroupArr.dtype ∧
      DType.part .complex64 = .float32 ∧ DType.part .complex128 = .float64 ∧
      ∀ t : DType, t ≠ .complex64 → t ≠ .complex128 → t.part = t := by
  refine ⟨?_, ?_, ?_, rfl, rfl, ?_⟩
  · simp [dofReal, likeMe, Function.comp_def]
  · simp [dofImag, likeMe, Function.comp_def]
  · simp [dofConj, likeMe, Function.comp_def]
  · intro t h1 h2
    cases t <;> first | rfl | contradiction

/-- C96: conjugating twice gives the array again. -/
theorem C96_conj_conj (a : DofObj (GroupArr ℂ)) : dofConj (dofConj a) = a := by
  obtain ⟨c, l⟩ := a
  simp [dofConj, likeMe, Function.comp_def]

/-! ## Examples -/

/-- A factory for groups of triangles (0: three nodes) and quadrilaterals (1: four nodes), which rejects other
groups; each mesh group is its kind and its number of elements. (Example, no code.) -/
def exArrFactory : Nat × Nat → Except Nat (ArrGroup ℚ)
  | (0, n) => .ok ⟨n, 3, true, [2/3, 2/3, 2/3]⟩
  | (1, n) => .ok ⟨n, 4, true, [1, 1, 1, 1]⟩
  | (k, _) => .error k

/-- The discretization of a mesh of two triangles and a quadrilateral, in single precision.
(Example, no code.) -/
def exArrDiscr : ArrDiscr (Nat × Nat) ℚ :=
  ⟨[(0, 2), (1, 1)], [⟨2, 3, true, [2/3, 2/3, 2/3]⟩, ⟨1, 4, true, [1, 1, 1, 1]⟩], .float32, .complex64, 17,
    exArrFactory⟩

/-- `exArrDiscr` is what the constructor makes. (Example, no code.) -/
theorem exArrDiscr_init :
    discrInit (· + 10) (.actx 7) [(0, 2), (1, 1)] exArrFactory (some .float32) true = .ok exArrDiscr := rfl

example : discrInit (· + 10) (.actx 7) [(0, 2), (5, 1)] exArrFactory none true =
    .error (.factory 5) := rfl
example : discrInit (· + 10) (.actx 7) [(0, 2), (1, 1)] exArrFactory (some .complex64) true =
    .error .keyError := rfl
example : discrCopy (· + 10) exArrDiscr none none none none = .ok exArrDiscr := C96_copy exArrDiscr_init

example : exArrDiscr.ndofs = 10 ∧
    ∃ r, exArrDiscr.zeros (.actx 3) .c = .ok r ∧ r.actx = some 3 ∧ r.data.map GroupArr.dtype =
      [.complex64, .complex64] ∧ checkDofArray [(2, 3), (1, 4)] (asCheckArg r) = .ok ∧
      allEntries r = List.replicate 10 0 ∧ exArrDiscr.zerosLike r = .ok r :=
  ⟨rfl, _, rfl, rfl, rfl, C96_zeros_checked (d := exArrDiscr) (actx := .actx 3) (dt := .c) rfl,
    C96_zeros_zero (d := exArrDiscr) (actx := .actx 3) (dt := .c) rfl,
    C96_zeros_like_zeros (d := exArrDiscr) (by simp [exArrDiscr]) (actx := .actx 3) (dt := .c) rfl⟩

example : ∃ r, exArrDiscr.quadWeights = .ok r ∧ r.actx = none ∧ (allEntries r).sum = 8 ∧
    checkDofArray [(2, 3), (1, 4)] (asCheckArg r) = .ok := by
  refine ⟨_, rfl, rfl, by decide +kernel, by decide +kernel⟩

example : (⟨(1 : ℕ), 1, .complex128, fun _ _ => ⟨1, 2⟩⟩ : GroupArr ℂ).dtype.part = .float64 := rfl

end Meshmode
