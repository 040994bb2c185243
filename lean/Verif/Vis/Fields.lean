import Verif.Np
import Mathlib.Data.List.Flatten

/-!
# Fields in visualization files (C76)

What `Visualizer.write_vtk_file` and `write_xdmf_file` write for their `names_and_fields`:
`preprocess_fields`, `_resample_to_numpy` and `separate_by_real_and_imag`,
meshmode/discretization/visualization.py:79-214, 837-842, 880-883, 1181-1187, 1272-1276.

Object arrays have one axis and their entries are numbers and DOF arrays; all arrays of a DOF array have the same
type.  Python runs without `-O`.
-/
namespace Meshmode

/-! ## Model -/

variable {K X : Type}

/-- A numpy array with entries of real or complex type, meshmode/discretization/visualization.py:95, 107. -/
inductive NpArr (K : Type) where
  | real (l : List K)
  | cplx (l : List (K × K))
  deriving DecidableEq, Repr

/-- A DOF array, group by group. Code: meshmode/discretization/visualization.py:168-170, 182-184. -/
inductive VisDof (K : Type) where
  | real (l : List (List K))
  | cplx (l : List (List (K × K)))
  deriving DecidableEq, Repr

/-- Values that are not containers, meshmode/discretization/visualization.py:153-186: numbers, DOF arrays (still to
be resampled), and everything else. -/
inductive VisVal (K X : Type) where
  | realNum (c : K)
  | cplxNum (c : K × K)
  | dof (x : X)
  | other
  deriving DecidableEq, Repr

/-- Values of fields and of attributes of data classes, meshmode/discretization/visualization.py:195-200: nothing, a
value, or an object array. -/
inductive VisField (K X : Type) where
  | nothing
  | val (v : VisVal K X)
  | obj (l : List (VisVal K X))
  deriving DecidableEq, Repr

/-- What the caller gives, meshmode/discretization/visualization.py:205-212. -/
inductive VisInput (K X : Type) where
  | field (f : VisField K X)
  | dataclass (attrs : List (String × VisField K X))
  deriving DecidableEq, Repr

/-- `is_nonempty`, meshmode/discretization/visualization.py:195-200. -/
def VisField.nonempty : VisField K X → Bool
  | .nothing => false
  | .val _ => true
  | .obj l => !l.isEmpty

/-- `preprocess_fields`, meshmode/discretization/visualization.py:189-214. -/
def preprocessFields (l : List (String × VisInput K X)) : List (String × VisField K X) :=
  l.flatMap fun p =>
    match p.2 with
    | .dataclass attrs =>
      (attrs.filter fun a => a.2.nonempty).map fun a => (p.1 ++ "_" ++ a.1, a.2)
    | .field f => if f.nonempty then [(p.1, f)] else []

/-- Exceptions. Code: meshmode/discretization/visualization.py:166, 172, 180, 186. -/
inductive VisErr where
  /-- raised while resampling -/
  | resample
  /-- raised by `check_dofarray_against_discr` -/
  | check
  /-- `TypeError`: unsupported array type -/
  | typeError
  deriving DecidableEq, Repr

/-- The sizes of the arrays of a DOF array. Code: meshmode/discretization/visualization.py:165-166, 179-180. -/
def VisDof.sizes : VisDof K → List Nat
  | .real l => l.map List.length
  | .cplx l => l.map List.length

/-- `flatten` and `to_numpy`, meshmode/discretization/visualization.py:182-184. -/
def VisDof.flat : VisDof K → NpArr K
  | .real l => .real l.flatten
  | .cplx l => .cplx l.flatten

/-- The arrays of the groups, meshmode/discretization/visualization.py:168-170. -/
def VisDof.groups : VisDof K → List (NpArr K)
  | .real l => l.map .real
  | .cplx l => l.map .cplx

/-- Resampling and the check, meshmode/discretization/visualization.py:153-155, 163-166, 177-180; `conn` is the
connection, `sizes` the numbers of nodes of the groups of `vis_discr`. -/
def visDofOf (conn : X → Option (VisDof K)) (sizes : List Nat) (x : X) : Except VisErr (VisDof K) :=
  match conn x with
  | none => .error .resample
  | some d => if d.sizes = sizes then .ok d else .error .check

/-- `_resample_to_numpy` for one value, not by group, meshmode/discretization/visualization.py:153-156, 173-186. -/
def resampleVal (conn : X → Option (VisDof K)) (sizes : List Nat) : VisVal K X → Except VisErr (NpArr K)
  | .realNum c => .ok (.real (List.replicate sizes.sum c))
  | .cplxNum c => .ok (.cplx (List.replicate sizes.sum c))
  | .dof x => (visDofOf conn sizes x).map VisDof.flat
  | .other => .error .typeError

/-- `_resample_to_numpy` for one value, by group, meshmode/discretization/visualization.py:153-172. -/
def resampleValByGroup (conn : X → Option (VisDof K)) (sizes : List Nat) :
    VisVal K X → Except VisErr (List (NpArr K))
  | .realNum c => .ok (sizes.map fun n => .real (List.replicate n c))
  | .cplxNum c => .ok (sizes.map fun n => .cplx (List.replicate n c))
  | .dof x => (visDofOf conn sizes x).map VisDof.groups
  | .other => .error .typeError

/-- The numpy form of a field: an array, or an object array of arrays. Code:
meshmode/discretization/visualization.py:146-151, 173-186. -/
inductive NpField (K : Type) where
  | arr (a : NpArr K)
  | obj (l : List (NpArr K))
  deriving DecidableEq, Repr

/-- All entries of an object array, meshmode/discretization/visualization.py:146-151. -/
def resampleAll (conn : X → Option (VisDof K)) (sizes : List Nat) :
    List (VisVal K X) → Except VisErr (List (NpArr K))
  | [] => .ok []
  | v :: vs =>
    match resampleVal conn sizes v with
    | .error e => .error e
    | .ok a => (resampleAll conn sizes vs).map (a :: ·)

/-- `_resample_to_numpy` not stacked and not by group, meshmode/discretization/visualization.py:127-186. -/
def resampleField (conn : X → Option (VisDof K)) (sizes : List Nat) :
    VisField K X → Except VisErr (NpField K)
  | .nothing => .error .typeError
  | .val v => (resampleVal conn sizes v).map .arr
  | .obj l => (resampleAll conn sizes l).map .obj

/-- `dtype.kind == "c"`, meshmode/discretization/visualization.py:95, 107. -/
def NpArr.isCplx : NpArr K → Bool
  | .real _ => false
  | .cplx _ => true

/-- `.real.copy()`, meshmode/discretization/visualization.py:98, 101, 109, 111. -/
def NpArr.re : NpArr K → NpArr K
  | .real l => .real l
  | .cplx l => .real (l.map Prod.fst)

/-- `.imag.copy()`, meshmode/discretization/visualization.py:103, 112 (zeros for real arrays). -/
def NpArr.im [Zero K] : NpArr K → NpArr K
  | .real l => .real (l.map fun _ => 0)
  | .cplx l => .real (l.map Prod.snd)

/-- `separate_by_real_and_imag` for one field, meshmode/discretization/visualization.py:88-114. -/
def separateField [Zero K] (realOnly : Bool) (name : String) : NpField K → List (String × NpField K)
  | .obj [] => []
  | .obj (a :: l) =>
    if a.isCplx then
      if realOnly then [(name, .obj ((a :: l).map NpArr.re))]
      else [(name ++ "_r", .obj ((a :: l).map NpArr.re)), (name ++ "_i", .obj ((a :: l).map NpArr.im))]
    else [(name, .obj (a :: l))]
  | .arr a =>
    if a.isCplx then
      if realOnly then [(name, .arr a.re)]
      else [(name ++ "_r", .arr a.re), (name ++ "_i", .arr a.im)]
    else [(name, .arr a)]

/-- The list comprehension with `_resample_to_numpy`, meshmode/discretization/visualization.py:838-842. -/
def resampleFields (conn : X → Option (VisDof K)) (sizes : List Nat) :
    List (String × VisField K X) → Except VisErr (List (String × NpField K))
  | [] => .ok []
  | p :: ps =>
    match resampleField conn sizes p.2 with
    | .error e => .error e
    | .ok f => (resampleFields conn sizes ps).map ((p.1, f) :: ·)

/-- The point data of `write_vtk_file`, meshmode/discretization/visualization.py:837-842, 880-883. -/
def vtkPointData [Zero K] (conn : X → Option (VisDof K)) (sizes : List Nat) (realOnly : Bool)
    (l : List (String × VisInput K X)) : Except VisErr (List (String × NpField K)) :=
  (resampleFields conn sizes (preprocessFields l)).map
    fun fs => fs.flatMap fun p => separateField realOnly p.1 p.2

/-! ## Specification -/

/-- A field that the caller gives, with the name it is to have: fields themselves, and attributes of data classes.
(Specification or proof vocabulary, no code.) -/
def Given (l : List (String × VisInput K X)) (name : String) (f : VisField K X) : Prop :=
  (name, .field f) ∈ l ∨ ∃ base attrs attr, (base, .dataclass attrs) ∈ l ∧ (attr, f) ∈ attrs ∧
    name = base ++ "_" ++ attr

/-- There is something to write: neither `None` nor an object array without entries.
(Specification or proof vocabulary, no code.) -/
def VisField.HasData (f : VisField K X) : Prop := f ≠ .nothing ∧ f ≠ .obj []

/-- The components of a field. (Specification or proof vocabulary, no code.) -/
def VisField.comps : VisField K X → List (VisVal K X)
  | .nothing => []
  | .val v => [v]
  | .obj l => l

/-- The components of a field in the file. (Specification or proof vocabulary, no code.) -/
def NpField.comps : NpField K → List (NpArr K)
  | .arr a => [a]
  | .obj l => l

/-- A value is complex. (Specification or proof vocabulary, no code.) -/
def VisVal.Complex (conn : X → Option (VisDof K)) : VisVal K X → Prop
  | .cplxNum _ => True
  | .dof x => ∃ l, conn x = some (.cplx l)
  | _ => False

/-- The value at a node: number `j` in group `g`. (Specification or proof vocabulary, no code.) -/
def VisVal.At [Zero K] (conn : X → Option (VisDof K)) (v : VisVal K X) (g j : Nat) (z : K × K) : Prop :=
  match v with
  | .realNum c => z = (c, 0)
  | .cplxNum c => z = c
  | .dof x =>
    (∃ l row a, conn x = some (.real l) ∧ l[g]? = some row ∧ row[j]? = some a ∧ z = (a, 0)) ∨
    (∃ l row, conn x = some (.cplx l) ∧ l[g]? = some row ∧ row[j]? = some z)
  | .other => False

/-- A value that can be written: a number or a DOF array which the connection takes to the nodes of the
visualization. (Specification or proof vocabulary, no code.) -/
def VisVal.Fits (conn : X → Option (VisDof K)) (sizes : List Nat) : VisVal K X → Prop
  | .dof x => ∃ d, conn x = some d ∧ d.sizes = sizes
  | .other => False
  | _ => True

/-- The components of a field are all complex, or all real. (Specification or proof vocabulary, no code.) -/
def VisField.OneKind (conn : X → Option (VisDof K)) (f : VisField K X) : Prop :=
  (∀ v ∈ f.comps, v.Complex conn) ∨ (∀ v ∈ f.comps, ¬ v.Complex conn)

/-- A real array with the given values at the nodes of the groups. (Specification or proof vocabulary, no code.) -/
def HoldsAt (sizes : List Nat) (a : NpArr K) (val : Nat → Nat → K → Prop) : Prop :=
  ∃ l, a = .real l ∧ l.length = sizes.sum ∧
    ∀ (g j n : Nat), sizes[g]? = some n → j < n → ∃ x, l[(sizes.take g).sum + j]? = some x ∧ val g j x

/-- The entries in the file are the real or the imaginary parts of the components of a field.
(Specification or proof vocabulary, no code.) -/
def PartOf [Zero K] (conn : X → Option (VisDof K)) (sizes : List Nat) (pick : K × K → K) (f : VisField K X)
    (w : NpField K) : Prop :=
  List.Forall₂ (fun v a => HoldsAt sizes a fun g j x => ∃ z, v.At conn g j z ∧ x = pick z) f.comps w.comps

/-- The names that fields and attributes are given. (Specification or proof vocabulary, no code.) -/
def givenNames (l : List (String × VisInput K X)) : List String :=
  l.flatMap fun p =>
    match p.2 with
    | .field _ => [p.1]
    | .dataclass attrs => attrs.map fun a => p.1 ++ "_" ++ a.1

/-! ## Proofs -/

theorem nonempty_iff (f : VisField K X) : f.nonempty = true ↔ f.HasData := by
  rcases f with _ | v | l
  · simp [VisField.nonempty, VisField.HasData]
  · simp [VisField.nonempty, VisField.HasData]
  · simp [VisField.nonempty, VisField.HasData]

theorem mem_preprocess {l : List (String × VisInput K X)} {n : String} {f : VisField K X} :
    (n, f) ∈ preprocessFields l ↔ Given l n f ∧ f.HasData := by
  simp only [preprocessFields, List.mem_flatMap, Given]
  constructor
  · rintro ⟨⟨base, i⟩, hi, h⟩
    rcases i with f' | attrs
    · simp only at h
      split at h
      · rename_i hn
        simp only [List.mem_singleton, Prod.mk.injEq] at h
        obtain ⟨rfl, rfl⟩ := h
        exact ⟨.inl hi, (nonempty_iff _).1 hn⟩
      · simp at h
    · simp only [List.mem_map, List.mem_filter, Prod.mk.injEq] at h
      obtain ⟨⟨attr, f'⟩, ⟨ha, hn⟩, rfl, rfl⟩ := h
      exact ⟨.inr ⟨base, attrs, attr, hi, ha, rfl⟩, (nonempty_iff _).1 hn⟩
  · rintro ⟨h | ⟨base, attrs, attr, hi, ha, rfl⟩, hn⟩
    · exact ⟨_, h, by simp [(nonempty_iff f).2 hn]⟩
    · refine ⟨_, hi, ?_⟩
      simp only [List.mem_map, List.mem_filter, Prod.mk.injEq]
      exact ⟨(attr, f), ⟨ha, (nonempty_iff f).2 hn⟩, rfl, rfl⟩

theorem flatten_getElem?_take {α : Type} {L : List (List α)} {g j : Nat} {row : List α} (h : L[g]? = some row)
    (hj : j < row.length) : L.flatten[((L.map List.length).take g).sum + j]? = row[j]? := by
  induction L generalizing g with
  | nil => simp at h
  | cons r L ih =>
    cases g with
    | zero =>
      simp only [List.getElem?_cons_zero, Option.some.injEq] at h
      subst h
      simp [List.getElem?_append_left hj]
    | succ g =>
      rw [List.getElem?_cons_succ] at h
      simp only [List.flatten_cons, List.map_cons, List.take_succ_cons, List.sum_cons]
      rw [List.getElem?_append_right (by omega)]
      rw [← ih h]
      congr 1
      omega

theorem take_sum_lt {sizes : List Nat} {g j n : Nat} (h : sizes[g]? = some n) (hj : j < n) :
    (sizes.take g).sum + j < sizes.sum := by
  induction sizes generalizing g with
  | nil => simp at h
  | cons a sizes ih =>
    cases g with
    | zero =>
      simp only [List.getElem?_cons_zero, Option.some.injEq] at h
      subst h
      simp only [List.take_zero, List.sum_nil, List.sum_cons]
      omega
    | succ g =>
      rw [List.getElem?_cons_succ] at h
      have := ih h
      simp only [List.take_succ_cons, List.sum_cons]
      omega

theorem visDofOf_ok {conn : X → Option (VisDof K)} {sizes : List Nat} {x : X} {d : VisDof K} :
    visDofOf conn sizes x = .ok d ↔ conn x = some d ∧ d.sizes = sizes := by
  simp only [visDofOf]
  cases conn x with
  | none => simp
  | some d' =>
    simp only [Option.some.injEq]
    split
    · rename_i h
      simp only [Except.ok.injEq]
      constructor
      · rintro rfl; exact ⟨rfl, h⟩
      · rintro ⟨rfl, _⟩; rfl
    · rename_i h
      simp only [reduceCtorEq, false_iff, not_and]
      rintro rfl; exact h

theorem resampleVal_defined {conn : X → Option (VisDof K)} {sizes : List Nat} (v : VisVal K X) :
    (∃ a, resampleVal conn sizes v = .ok a) ↔ v.Fits conn sizes := by
  rcases v with c | c | x | _
  · simp [resampleVal, VisVal.Fits]
  · simp [resampleVal, VisVal.Fits]
  · simp only [resampleVal, VisVal.Fits]
    constructor
    · rintro ⟨a, h⟩
      cases hd : visDofOf conn sizes x with
      | error e => rw [hd] at h; cases h
      | ok d => exact ⟨d, visDofOf_ok.1 hd⟩
    · rintro ⟨d, h⟩
      rw [visDofOf_ok.2 h]
      exact ⟨_, rfl⟩
  · simp [resampleVal, VisVal.Fits]

section
variable [Zero K]

/-- What resampling one value gives. -/
theorem resampleVal_spec {conn : X → Option (VisDof K)} {sizes : List Nat} {v : VisVal K X} {a : NpArr K}
    (h : resampleVal conn sizes v = .ok a) :
    (a.isCplx = true ↔ v.Complex conn) ∧
    (HoldsAt sizes a.re fun g j x => ∃ z, v.At conn g j z ∧ x = z.1) ∧
    (HoldsAt sizes a.im fun g j x => ∃ z, v.At conn g j z ∧ x = z.2) := by
  rcases v with c | c | x | _
  · simp only [resampleVal, Except.ok.injEq] at h
    subst h
    refine ⟨by simp [NpArr.isCplx, VisVal.Complex], ⟨_, rfl, by simp, ?_⟩, ⟨_, rfl, by simp, ?_⟩⟩
    · intro g j n hn hj
      have := take_sum_lt hn hj
      exact ⟨c, by simp [this], (c, 0), rfl, rfl⟩
    · intro g j n hn hj
      have := take_sum_lt hn hj
      exact ⟨0, by simp [this], (c, 0), rfl, rfl⟩
  · simp only [resampleVal, Except.ok.injEq] at h
    subst h
    refine ⟨by simp [NpArr.isCplx, VisVal.Complex], ⟨_, rfl, by simp, ?_⟩, ⟨_, rfl, by simp, ?_⟩⟩
    · intro g j n hn hj
      have := take_sum_lt hn hj
      exact ⟨c.1, by simp [this], c, rfl, rfl⟩
    · intro g j n hn hj
      have := take_sum_lt hn hj
      exact ⟨c.2, by simp [this], c, rfl, rfl⟩
  · simp only [resampleVal] at h
    cases hd : visDofOf conn sizes x with
    | error e => rw [hd] at h; cases h
    | ok d =>
      rw [hd] at h
      cases h
      obtain ⟨hc, hs⟩ := visDofOf_ok.1 hd
      have key : ∀ {α : Type} (l : List (List α)), l.map List.length = sizes → ∀ (g j n : Nat),
          sizes[g]? = some n → j < n → ∃ row y, l[g]? = some row ∧ row[j]? = some y ∧
            l.flatten[(sizes.take g).sum + j]? = some y := by
        intro α l hl g j n hn hj
        rw [← hl, List.getElem?_map, Option.map_eq_some_iff] at hn
        obtain ⟨row, hrow, rfl⟩ := hn
        refine ⟨row, row[j], hrow, List.getElem?_eq_getElem hj, ?_⟩
        rw [← hl, flatten_getElem?_take hrow hj]
        exact List.getElem?_eq_getElem hj
      cases d with
      | real l =>
        simp only [VisDof.sizes] at hs
        refine ⟨by simp [VisDof.flat, NpArr.isCplx, VisVal.Complex, hc], ⟨_, rfl, ?_, ?_⟩, ⟨_, rfl, ?_, ?_⟩⟩
        · rw [List.length_flatten, hs]
        · intro g j n hn hj
          obtain ⟨row, y, h1, h2, h3⟩ := key l hs g j n hn hj
          exact ⟨y, h3, (y, 0), .inl ⟨l, row, y, hc, h1, h2, rfl⟩, rfl⟩
        · rw [List.length_map, List.length_flatten, hs]
        · intro g j n hn hj
          obtain ⟨row, y, h1, h2, h3⟩ := key l hs g j n hn hj
          exact ⟨0, by rw [List.getElem?_map, h3]; rfl, (y, 0), .inl ⟨l, row, y, hc, h1, h2, rfl⟩, rfl⟩
      | cplx l =>
        simp only [VisDof.sizes] at hs
        refine ⟨by simp [VisDof.flat, NpArr.isCplx, VisVal.Complex, hc], ⟨_, rfl, ?_, ?_⟩, ⟨_, rfl, ?_, ?_⟩⟩
        · rw [List.length_map, List.length_flatten, hs]
        · intro g j n hn hj
          obtain ⟨row, y, h1, h2, h3⟩ := key l hs g j n hn hj
          exact ⟨y.1, by rw [List.getElem?_map, h3]; rfl, y, .inr ⟨l, row, hc, h1, h2⟩, rfl⟩
        · rw [List.length_map, List.length_flatten, hs]
        · intro g j n hn hj
          obtain ⟨row, y, h1, h2, h3⟩ := key l hs g j n hn hj
          exact ⟨y.2, by rw [List.getElem?_map, h3]; rfl, y, .inr ⟨l, row, hc, h1, h2⟩, rfl⟩
  · simp [resampleVal] at h

omit [Zero K] in
theorem re_of_real {a : NpArr K} (h : ¬ a.isCplx = true) : a.re = a := by
  cases a <;> simp_all [NpArr.isCplx, NpArr.re]

omit [Zero K] in
theorem resampleAll_ok {conn : X → Option (VisDof K)} {sizes : List Nat} {l : List (VisVal K X)}
    {as : List (NpArr K)} :
    resampleAll conn sizes l = .ok as ↔ List.Forall₂ (fun v a => resampleVal conn sizes v = .ok a) l as := by
  induction l generalizing as with
  | nil =>
    simp only [resampleAll, Except.ok.injEq, List.forall₂_nil_left_iff]
    exact eq_comm
  | cons v l ih =>
    simp only [resampleAll]
    cases hv : resampleVal conn sizes v with
    | error e =>
      simp only [reduceCtorEq, false_iff]
      intro h
      cases h with
      | cons h1 _ => rw [hv] at h1; cases h1
    | ok a =>
      cases hl : resampleAll conn sizes l with
      | error e =>
        simp only [Except.map, reduceCtorEq, false_iff]
        intro h
        cases h with
        | cons _ h2 => rw [ih.2 h2] at hl; cases hl
      | ok bs =>
        simp only [Except.map, Except.ok.injEq]
        constructor
        · rintro rfl
          exact .cons hv (ih.1 hl)
        · intro h
          cases h with
          | cons h1 h2 =>
            rw [hv] at h1
            cases h1
            rw [ih.2 h2] at hl
            cases hl
            rfl

omit [Zero K] in
theorem resampleField_ok {conn : X → Option (VisDof K)} {sizes : List Nat} {f : VisField K X} {w : NpField K}
    (h : resampleField conn sizes f = .ok w) :
    List.Forall₂ (fun v a => resampleVal conn sizes v = .ok a) f.comps w.comps := by
  rcases f with _ | v | l
  · simp [resampleField] at h
  · simp only [resampleField] at h
    cases hv : resampleVal conn sizes v with
    | error e => rw [hv] at h; cases h
    | ok a =>
      rw [hv] at h
      cases h
      exact .cons hv .nil
  · simp only [resampleField] at h
    cases hv : resampleAll conn sizes l with
    | error e => rw [hv] at h; cases h
    | ok a =>
      rw [hv] at h
      cases h
      exact resampleAll_ok.1 hv

omit [Zero K] in
theorem resampleField_defined {conn : X → Option (VisDof K)} {sizes : List Nat} {f : VisField K X}
    (hf : f.HasData) :
    (∃ w, resampleField conn sizes f = .ok w) ↔ ∀ v ∈ f.comps, v.Fits conn sizes := by
  constructor
  · rintro ⟨w, h⟩ v hv
    have h2 := resampleField_ok h
    rw [← resampleVal_defined]
    clear h hf
    generalize f.comps = l at *
    generalize w.comps = as at *
    induction h2 with
    | nil => simp at hv
    | cons h1 _ ih =>
      rcases List.mem_cons.1 hv with rfl | hv
      · exact ⟨_, h1⟩
      · exact ih hv
  · intro h
    rcases f with _ | v | l
    · exact absurd rfl hf.1
    · obtain ⟨a, ha⟩ := (resampleVal_defined v).2 (h v (by simp [VisField.comps]))
      exact ⟨.arr a, by simp [resampleField, ha, Except.map]⟩
    · have : ∃ as, List.Forall₂ (fun v a => resampleVal conn sizes v = .ok a) l as := by
        simp only [VisField.comps] at h
        clear hf
        induction l with
        | nil => exact ⟨[], .nil⟩
        | cons v l ih =>
          obtain ⟨a, ha⟩ := (resampleVal_defined v).2 (h v (by simp))
          obtain ⟨as, has⟩ := ih fun v hv => h v (by simp [hv])
          exact ⟨a :: as, .cons ha has⟩
      obtain ⟨as, has⟩ := this
      exact ⟨.obj as, by simp [resampleField, resampleAll_ok.2 has, Except.map]⟩

omit [Zero K] in
theorem resampleFields_ok {conn : X → Option (VisDof K)} {sizes : List Nat} {l : List (String × VisField K X)}
    {fs : List (String × NpField K)} :
    resampleFields conn sizes l = .ok fs ↔
      List.Forall₂ (fun p q => p.1 = q.1 ∧ resampleField conn sizes p.2 = .ok q.2) l fs := by
  induction l generalizing fs with
  | nil =>
    simp only [resampleFields, Except.ok.injEq, List.forall₂_nil_left_iff]
    exact eq_comm
  | cons v l ih =>
    simp only [resampleFields]
    cases hv : resampleField conn sizes v.2 with
    | error e =>
      simp only [reduceCtorEq, false_iff]
      intro h
      cases h with
      | cons h1 _ => rw [hv] at h1; cases h1.2
    | ok a =>
      cases hl : resampleFields conn sizes l with
      | error e =>
        simp only [Except.map, reduceCtorEq, false_iff]
        intro h
        cases h with
        | cons _ h2 => rw [ih.2 h2] at hl; cases hl
      | ok bs =>
        simp only [Except.map, Except.ok.injEq]
        constructor
        · rintro rfl
          exact .cons ⟨rfl, hv⟩ (ih.1 hl)
        · intro h
          cases h with
          | @cons _ b _ _ h1 h2 =>
            rw [hv] at h1
            obtain ⟨h1, h1'⟩ := h1
            rw [ih.2 h2] at hl
            cases hl
            obtain ⟨n, b⟩ := b
            simp only at h1 h1'
            cases h1'
            rw [h1]

/-- C76: files are written exactly if all given components are numbers or DOF arrays that the connection accepts and
whose result has the sizes of the visualization discretization. -/
theorem C76_defined (conn : X → Option (VisDof K)) (sizes : List Nat) (realOnly : Bool)
    (l : List (String × VisInput K X)) :
    (∃ out, vtkPointData conn sizes realOnly l = .ok out) ↔
      ∀ n f, Given l n f → f.HasData → ∀ v ∈ f.comps, v.Fits conn sizes := by
  have h1 : (∃ out, vtkPointData conn sizes realOnly l = .ok out) ↔
      ∃ fs, resampleFields conn sizes (preprocessFields l) = .ok fs := by
    simp only [vtkPointData]
    cases resampleFields conn sizes (preprocessFields l) <;> simp [Except.map]
  rw [h1]
  have h2 : (∀ n f, Given l n f → f.HasData → ∀ v ∈ f.comps, v.Fits conn sizes) ↔
      ∀ p ∈ preprocessFields l, ∃ w, resampleField conn sizes p.2 = .ok w := by
    constructor
    · rintro h ⟨n, f⟩ hp
      obtain ⟨hg, hd⟩ := mem_preprocess.1 hp
      exact (resampleField_defined hd).2 (h n f hg hd)
    · intro h n f hg hd
      exact (resampleField_defined hd).1 (h (n, f) (mem_preprocess.2 ⟨hg, hd⟩))
  rw [h2]
  generalize preprocessFields l = ps
  simp only [resampleFields_ok]
  constructor
  · rintro ⟨fs, h⟩ p hp
    induction h with
    | nil => simp at hp
    | cons h1 _ ih =>
      rcases List.mem_cons.1 hp with rfl | hp
      · exact ⟨_, h1.2⟩
      · exact ih hp
  · intro h
    induction ps with
    | nil => exact ⟨[], .nil⟩
    | cons p ps ih =>
      obtain ⟨w, hw⟩ := h p (by simp)
      obtain ⟨fs, hfs⟩ := ih fun q hq => h q (by simp [hq])
      exact ⟨(p.1, w) :: fs, .cons ⟨rfl, hw⟩ hfs⟩

/-- What is written for one field with components of one kind. -/
theorem separateField_spec {conn : X → Option (VisDof K)} {sizes : List Nat} {realOnly : Bool} {name : String}
    {f : VisField K X} {w : NpField K} (hd : f.HasData) (hk : f.OneKind conn)
    (h : resampleField conn sizes f = .ok w) :
    (((∀ v ∈ f.comps, ¬ v.Complex conn) ∨ realOnly = true) ∧
      ∃ w', separateField realOnly name w = [(name, w')] ∧ PartOf conn sizes Prod.fst f w') ∨
    ((∀ v ∈ f.comps, v.Complex conn) ∧ realOnly = false ∧
      ∃ wr wi, separateField realOnly name w = [(name ++ "_r", wr), (name ++ "_i", wi)] ∧
        PartOf conn sizes Prod.fst f wr ∧ PartOf conn sizes Prod.snd f wi) := by
  have hall := resampleField_ok h
  have hre : List.Forall₂ (fun v a => HoldsAt sizes a fun g j x => ∃ z, v.At conn g j z ∧ x = z.1) f.comps
      (w.comps.map NpArr.re) := by
    rw [List.forall₂_map_right_iff]
    exact hall.imp fun v a hv => (resampleVal_spec hv).2.1
  have him : List.Forall₂ (fun v a => HoldsAt sizes a fun g j x => ∃ z, v.At conn g j z ∧ x = z.2) f.comps
      (w.comps.map NpArr.im) := by
    rw [List.forall₂_map_right_iff]
    exact hall.imp fun v a hv => (resampleVal_spec hv).2.2
  have hkind : List.Forall₂ (fun v a => a.isCplx = true ↔ v.Complex conn) f.comps w.comps :=
    hall.imp fun v a hv => (resampleVal_spec hv).1
  -- the first component
  have hne : f.comps ≠ [] := by
    rcases f with _ | v | l
    · exact absurd rfl hd.1
    · simp [VisField.comps]
    · intro h0
      simp only [VisField.comps] at h0
      subst h0
      exact hd.2 rfl
  rcases hk with hk | hk
  · -- complex
    have hc : ∀ a ∈ w.comps, a.isCplx = true := by
      clear h hre him hne hd
      generalize f.comps = l at *
      generalize w.comps = as at *
      clear hall
      induction hkind with
      | nil => simp
      | cons h1 _ ih =>
        intro a ha
        rcases List.mem_cons.1 ha with rfl | ha
        · exact h1.2 (hk _ (by simp))
        · exact ih (fun v hv => hk v (by simp [hv])) a ha
    rcases w with a | as
    · have ha := hc a (by simp [NpField.comps])
      cases realOnly with
      | true => exact .inl ⟨.inr rfl, .arr a.re, by simp [separateField, ha], hre⟩
      | false => exact .inr ⟨hk, rfl, .arr a.re, .arr a.im, by simp [separateField, ha], hre, him⟩
    · cases as with
      | nil =>
        simp only [NpField.comps] at hall
        cases hf : f.comps with
        | nil => exact absurd hf hne
        | cons _ _ => rw [hf] at hall; cases hall
      | cons a as =>
        have ha := hc a (by simp [NpField.comps])
        cases realOnly with
        | true =>
          exact .inl ⟨.inr rfl, .obj ((a :: as).map NpArr.re), by simp [separateField, ha], hre⟩
        | false =>
          exact .inr ⟨hk, rfl, .obj ((a :: as).map NpArr.re), .obj ((a :: as).map NpArr.im),
            by simp [separateField, ha], hre, him⟩
  · -- real
    have hc : ∀ a ∈ w.comps, ¬ a.isCplx = true := by
      clear h hre him hne hd
      generalize f.comps = l at *
      generalize w.comps = as at *
      clear hall
      induction hkind with
      | nil => simp
      | cons h1 _ ih =>
        intro a ha
        rcases List.mem_cons.1 ha with rfl | ha
        · exact fun h => hk _ (by simp) (h1.1 h)
        · exact ih (fun v hv => hk v (by simp [hv])) a ha
    have hid : w.comps.map NpArr.re = w.comps := by
      conv_rhs => rw [← List.map_id w.comps]
      exact List.map_congr_left fun a ha => re_of_real (hc a ha)
    rw [hid] at hre
    refine .inl ⟨.inl hk, w, ?_, hre⟩
    rcases w with a | as
    · have ha := hc a (by simp [NpField.comps])
      simp [separateField, ha]
    · cases as with
      | nil =>
        simp only [NpField.comps] at hall
        cases hf : f.comps with
        | nil => exact absurd hf hne
        | cons _ _ => rw [hf] at hall; cases hall
      | cons a as =>
        have ha := hc a (by simp [NpField.comps])
        simp [separateField, ha]

omit [Zero K] in
theorem forall₂_mem_right {α β : Type} {R : α → β → Prop} {l : List α} {l' : List β}
    (h : List.Forall₂ R l l') {b : β} (hb : b ∈ l') : ∃ a ∈ l, R a b := by
  induction h with
  | nil => simp at hb
  | cons h1 _ ih =>
    rcases List.mem_cons.1 hb with rfl | hb
    · exact ⟨_, by simp, h1⟩
    · obtain ⟨a, ha, h⟩ := ih hb
      exact ⟨a, by simp [ha], h⟩

omit [Zero K] in
theorem forall₂_mem_left {α β : Type} {R : α → β → Prop} {l : List α} {l' : List β}
    (h : List.Forall₂ R l l') {a : α} (ha : a ∈ l) : ∃ b ∈ l', R a b := by
  induction h with
  | nil => simp at ha
  | cons h1 _ ih =>
    rcases List.mem_cons.1 ha with rfl | ha
    · exact ⟨_, by simp, h1⟩
    · obtain ⟨b, hb, h⟩ := ih ha
      exact ⟨b, by simp [hb], h⟩

theorem vtkPointData_ok {conn : X → Option (VisDof K)} {sizes : List Nat} {realOnly : Bool}
    {l : List (String × VisInput K X)} {out : List (String × NpField K)}
    (h : vtkPointData conn sizes realOnly l = .ok out) :
    ∃ fs : List (String × NpField K),
      List.Forall₂ (fun p q => p.1 = q.1 ∧ resampleField conn sizes p.2 = .ok q.2) (preprocessFields l) fs ∧
      out = fs.flatMap fun p => separateField realOnly p.1 p.2 := by
  simp only [vtkPointData] at h
  cases hf : resampleFields conn sizes (preprocessFields l) with
  | error e => rw [hf] at h; cases h
  | ok fs =>
    rw [hf] at h
    cases h
    exact ⟨fs, resampleFields_ok.1 hf, rfl⟩

/-- C76: everything in the file is a field or attribute that was given and has data: real fields (and, with
`real_only`, complex ones) under their name with the real parts, other complex fields under their name with `_r` and
`_i` and the real and imaginary parts of the values at the nodes, group after group. -/
theorem C76_sound {conn : X → Option (VisDof K)} {sizes : List Nat} {realOnly : Bool}
    {l : List (String × VisInput K X)} {out : List (String × NpField K)}
    (hk : ∀ n f, Given l n f → f.HasData → f.OneKind conn)
    (h : vtkPointData conn sizes realOnly l = .ok out) {n : String} {w : NpField K} (hw : (n, w) ∈ out) :
    ∃ name f, Given l name f ∧ f.HasData ∧
      ((((∀ v ∈ f.comps, ¬ v.Complex conn) ∨ realOnly = true) ∧ n = name ∧ PartOf conn sizes Prod.fst f w) ∨
       ((∀ v ∈ f.comps, v.Complex conn) ∧ realOnly = false ∧
         ((n = name ++ "_r" ∧ PartOf conn sizes Prod.fst f w) ∨
          (n = name ++ "_i" ∧ PartOf conn sizes Prod.snd f w)))) := by
  obtain ⟨fs, hfs, rfl⟩ := vtkPointData_ok h
  obtain ⟨⟨q, w0⟩, hq, hw⟩ := List.mem_flatMap.1 hw
  obtain ⟨⟨name, f⟩, hp, hn, hr⟩ := forall₂_mem_right hfs hq
  obtain ⟨hg, hd⟩ := mem_preprocess.1 hp
  simp only at hn hr hw
  subst hn
  refine ⟨name, f, hg, hd, ?_⟩
  rcases separateField_spec (realOnly := realOnly) (name := name) hd (hk _ _ hg hd) hr with
    ⟨h1, w', hs, hpart⟩ | ⟨h1, h2, wr, wi, hs, hpr, hpi⟩
  · rw [hs, List.mem_singleton, Prod.mk.injEq] at hw
    obtain ⟨rfl, rfl⟩ := hw
    exact .inl ⟨h1, rfl, hpart⟩
  · rw [hs] at hw
    simp only [List.mem_cons, Prod.mk.injEq, List.not_mem_nil, or_false] at hw
    rcases hw with ⟨rfl, rfl⟩ | ⟨rfl, rfl⟩
    · exact .inr ⟨h1, h2, .inl ⟨rfl, hpr⟩⟩
    · exact .inr ⟨h1, h2, .inr ⟨rfl, hpi⟩⟩

/-- C76: every field and attribute that was given and has data is in the file. -/
theorem C76_complete {conn : X → Option (VisDof K)} {sizes : List Nat} {realOnly : Bool}
    {l : List (String × VisInput K X)} {out : List (String × NpField K)}
    (hk : ∀ n f, Given l n f → f.HasData → f.OneKind conn)
    (h : vtkPointData conn sizes realOnly l = .ok out) {name : String} {f : VisField K X} (hg : Given l name f)
    (hd : f.HasData) :
    (((∀ v ∈ f.comps, ¬ v.Complex conn) ∨ realOnly = true) ∧
      ∃ w, (name, w) ∈ out ∧ PartOf conn sizes Prod.fst f w) ∨
    ((∀ v ∈ f.comps, v.Complex conn) ∧ realOnly = false ∧
      ∃ wr wi, (name ++ "_r", wr) ∈ out ∧ (name ++ "_i", wi) ∈ out ∧ PartOf conn sizes Prod.fst f wr ∧
        PartOf conn sizes Prod.snd f wi) := by
  obtain ⟨fs, hfs, rfl⟩ := vtkPointData_ok h
  obtain ⟨⟨q, w0⟩, hq, hn, hr⟩ := forall₂_mem_left hfs (mem_preprocess.2 ⟨hg, hd⟩)
  simp only at hn hr
  subst hn
  rcases separateField_spec (realOnly := realOnly) (name := name) hd (hk _ _ hg hd) hr with
    ⟨h1, w', hs, hpart⟩ | ⟨h1, h2, wr, wi, hs, hpr, hpi⟩
  · exact .inl ⟨h1, w', List.mem_flatMap.2 ⟨_, hq, by rw [hs]; simp⟩, hpart⟩
  · exact .inr ⟨h1, h2, wr, wi, List.mem_flatMap.2 ⟨_, hq, by rw [hs]; simp⟩,
      List.mem_flatMap.2 ⟨_, hq, by rw [hs]; simp⟩, hpr, hpi⟩

/-- The names under which one field is written. -/
theorem separateField_names (realOnly : Bool) (name : String) (w : NpField K) :
    (separateField realOnly name w).map Prod.fst = [] ∨ (separateField realOnly name w).map Prod.fst = [name] ∨
      (separateField realOnly name w).map Prod.fst = [name ++ "_r", name ++ "_i"] := by
  rcases w with a | as
  · simp only [separateField]
    split_ifs <;> simp
  · cases as with
    | nil => simp [separateField]
    | cons a as =>
      simp only [separateField]
      split_ifs <;> simp

theorem append_suffix_cancel {a b s : String} (h : a ++ s = b ++ s) : a = b := by
  have := congrArg String.toList h
  simp only [String.toList_append] at this
  exact String.toList_injective (List.append_cancel_right this)

theorem append_r_ne_i (a b : String) : a ++ "_r" ≠ b ++ "_i" := by
  intro h
  have := congrArg (fun s => s.toList.getLast?) h
  simp at this

omit [Zero K] in
theorem preprocess_names_sublist (l : List (String × VisInput K X)) :
    ((preprocessFields l).map Prod.fst).Sublist (givenNames l) := by
  induction l with
  | nil => simp [preprocessFields, givenNames]
  | cons p l ih =>
    simp only [preprocessFields, givenNames, List.flatMap_cons, List.map_append] at ih ⊢
    refine List.Sublist.append ?_ ih
    obtain ⟨n, i⟩ := p
    rcases i with f | attrs
    · simp only
      split <;> simp
    · simp only [List.map_map]
      exact (List.filter_sublist (l := attrs)).map _

/-- C76: if the given names are different, and none is another one followed by `_r` or `_i`, then the names in the
file are different. -/
theorem C76_names {conn : X → Option (VisDof K)} {sizes : List Nat} {realOnly : Bool}
    {l : List (String × VisInput K X)} {out : List (String × NpField K)}
    (h : vtkPointData conn sizes realOnly l = .ok out) (hn : (givenNames l).Nodup)
    (hs : ∀ a ∈ givenNames l, ∀ b ∈ givenNames l, a ≠ b ++ "_r" ∧ a ≠ b ++ "_i") : (out.map Prod.fst).Nodup := by
  obtain ⟨fs, hfs, rfl⟩ := vtkPointData_ok h
  have hfst : fs.map Prod.fst = (preprocessFields l).map Prod.fst := by
    clear h
    generalize preprocessFields l = ps at hfs
    induction hfs with
    | nil => rfl
    | cons h1 _ ih => simp [h1.1, ih]
  have hsub : (fs.map Prod.fst).Sublist (givenNames l) := hfst ▸ preprocess_names_sublist l
  have hnd : (fs.map Prod.fst).Nodup := hn.sublist hsub
  have hmem : ∀ p ∈ fs, p.1 ∈ givenNames l := fun p hp => hsub.subset (List.mem_map_of_mem hp)
  clear hfs h hfst hsub
  induction fs with
  | nil => simp
  | cons p fs ih =>
    simp only [List.map_cons, List.nodup_cons] at hnd
    simp only [List.flatMap_cons, List.map_append]
    rw [List.nodup_append]
    refine ⟨?_, ih hnd.2 fun q hq => hmem q (by simp [hq]), ?_⟩
    · rcases separateField_names realOnly p.1 p.2 with h | h | h <;> rw [h]
      · simp
      · simp
      · simp
    · intro a ha b hb hab
      subst hab
      simp only [List.map_flatMap, List.mem_flatMap] at hb
      obtain ⟨q, hq, hb⟩ := hb
      have hpq : p.1 ≠ q.1 := fun he => hnd.1 (he ▸ List.mem_map_of_mem hq)
      have hp1 := hmem p (by simp)
      have hq1 := hmem q (by simp [hq])
      have ha' : a = p.1 ∨ a = p.1 ++ "_r" ∨ a = p.1 ++ "_i" := by
        rcases separateField_names realOnly p.1 p.2 with h | h | h <;> rw [h] at ha <;> simp at ha <;> simp [ha]
      have hb' : a = q.1 ∨ a = q.1 ++ "_r" ∨ a = q.1 ++ "_i" := by
        rcases separateField_names realOnly q.1 q.2 with h | h | h <;> rw [h] at hb <;> simp at hb <;> simp [hb]
      rcases ha' with rfl | rfl | rfl <;> rcases hb' with h | h | h
      · exact hpq h
      · exact (hs _ hp1 _ hq1).1 h
      · exact (hs _ hp1 _ hq1).2 h
      · exact (hs _ hq1 _ hp1).1 h.symm
      · exact hpq (append_suffix_cancel h)
      · exact append_r_ne_i _ _ h
      · exact (hs _ hq1 _ hp1).2 h.symm
      · exact append_r_ne_i _ _ h.symm
      · exact hpq (append_suffix_cancel h)

/-- C76: complex arrays reach the file (whose format has none) exactly if an object array has a real first component
and a complex component. -/
theorem C76_mixed_iff {conn : X → Option (VisDof K)} {sizes : List Nat} {realOnly : Bool}
    {l : List (String × VisInput K X)} {out : List (String × NpField K)}
    (h : vtkPointData conn sizes realOnly l = .ok out) :
    (∃ n w, (n, w) ∈ out ∧ ∃ a ∈ w.comps, a.isCplx = true) ↔
      ∃ n f v vs, Given l n f ∧ f.comps = v :: vs ∧ ¬ v.Complex conn ∧ ∃ v' ∈ vs, v'.Complex conn := by
  obtain ⟨fs, hfs, rfl⟩ := vtkPointData_ok h
  have key : ∀ (name : String) (f : VisField K X) (w : NpField K), resampleField conn sizes f = .ok w →
      ((∃ n w', (n, w') ∈ separateField realOnly name w ∧ ∃ a ∈ w'.comps, a.isCplx = true) ↔
        ∃ v vs, f.comps = v :: vs ∧ ¬ v.Complex conn ∧ ∃ v' ∈ vs, v'.Complex conn) := by
    intro name f w hr
    have hkind : List.Forall₂ (fun v a => a.isCplx = true ↔ v.Complex conn) f.comps w.comps :=
      (resampleField_ok hr).imp fun v a hv => (resampleVal_spec hv).1
    have hre : ∀ a : NpArr K, a.re.isCplx = false := by intro a; cases a <;> rfl
    have him : ∀ a : NpArr K, a.im.isCplx = false := by intro a; cases a <;> rfl
    rcases w with a | as
    · have hlhs : ¬ ∃ n w', (n, w') ∈ separateField realOnly name (.arr a) ∧ ∃ b ∈ w'.comps, b.isCplx = true := by
        rintro ⟨n, w', hw, b, hb, hbc⟩
        simp only [separateField] at hw
        split_ifs at hw with h1 h2 <;>
          simp only [List.mem_cons, Prod.mk.injEq, List.not_mem_nil, or_false] at hw
        · obtain ⟨_, rfl⟩ := hw
          simp only [NpField.comps, List.mem_singleton] at hb
          subst hb
          rw [hre] at hbc
          cases hbc
        · rcases hw with ⟨_, rfl⟩ | ⟨_, rfl⟩ <;> simp only [NpField.comps, List.mem_singleton] at hb <;> subst hb
          · rw [hre] at hbc; cases hbc
          · rw [him] at hbc; cases hbc
        · obtain ⟨_, rfl⟩ := hw
          simp only [NpField.comps, List.mem_singleton] at hb
          subst hb
          exact h1 hbc
      refine iff_of_false hlhs ?_
      rintro ⟨v, vs, hc, _, v', hv', _⟩
      rw [hc] at hkind
      simp only [NpField.comps] at hkind
      cases hkind with
      | cons _ h2 => cases h2; simp at hv'
    · cases as with
      | nil =>
        simp only [NpField.comps] at hkind
        have : f.comps = [] := by
          cases hf : f.comps with
          | nil => rfl
          | cons _ _ => rw [hf] at hkind; cases hkind
        simp [separateField, this]
      | cons a as =>
        simp only [NpField.comps] at hkind
        cases hf : f.comps with
        | nil => rw [hf] at hkind; cases hkind
        | cons v vs =>
          rw [hf] at hkind
          cases hkind with
          | cons h1 h2 =>
            by_cases hac : a.isCplx = true
            · refine iff_of_false ?_ ?_
              · rintro ⟨n, w', hw, b, hb, hbc⟩
                simp only [separateField, if_pos hac] at hw
                split_ifs at hw <;>
                  simp only [List.mem_cons, Prod.mk.injEq, List.not_mem_nil, or_false] at hw
                · obtain ⟨_, rfl⟩ := hw
                  simp only [NpField.comps, List.mem_map] at hb
                  obtain ⟨c, _, rfl⟩ := hb
                  rw [hre] at hbc; cases hbc
                · rcases hw with ⟨_, rfl⟩ | ⟨_, rfl⟩ <;> simp only [NpField.comps, List.mem_map] at hb <;>
                    obtain ⟨c, _, rfl⟩ := hb
                  · rw [hre] at hbc; cases hbc
                  · rw [him] at hbc; cases hbc
              · rintro ⟨v0, vs0, he, hnc, _⟩
                cases he
                exact hnc (h1.1 hac)
            · have hsep : separateField realOnly name (.obj (a :: as)) = [(name, .obj (a :: as))] := by
                simp [separateField, hac]
              rw [hsep]
              constructor
              · rintro ⟨n, w', hw, b, hb, hbc⟩
                rw [List.mem_singleton, Prod.mk.injEq] at hw
                obtain ⟨_, rfl⟩ := hw
                simp only [NpField.comps] at hb
                rcases List.mem_cons.1 hb with rfl | hb
                · exact absurd hbc hac
                · obtain ⟨v', hv', hvb⟩ := forall₂_mem_right h2 hb
                  exact ⟨v, vs, rfl, fun hvc => hac (h1.2 hvc), v', hv', hvb.1 hbc⟩
              · rintro ⟨v0, vs0, he, hnc, v', hv', hvc⟩
                cases he
                obtain ⟨b, hb, hvb⟩ := forall₂_mem_left h2 hv'
                exact ⟨name, _, List.mem_singleton.2 rfl, b, by simp [NpField.comps, hb], hvb.2 hvc⟩
  constructor
  · rintro ⟨n, w, hw, hc⟩
    obtain ⟨⟨q, w0⟩, hq, hw⟩ := List.mem_flatMap.1 hw
    obtain ⟨⟨name, f⟩, hp, hn, hr⟩ := forall₂_mem_right hfs hq
    obtain ⟨hg, _⟩ := mem_preprocess.1 hp
    simp only at hn hr hw
    subst hn
    obtain ⟨v, vs, h1, h2, h3⟩ := (key name f w0 hr).1 ⟨n, w, hw, hc⟩
    exact ⟨name, f, v, vs, hg, h1, h2, h3⟩
  · rintro ⟨name, f, v, vs, hg, h1, h2, h3⟩
    have hd : f.HasData := by
      constructor <;> rintro rfl <;> simp [VisField.comps] at h1
    obtain ⟨⟨q, w0⟩, hq, hn, hr⟩ := forall₂_mem_left hfs (mem_preprocess.2 ⟨hg, hd⟩)
    simp only at hn hr
    obtain ⟨n, w, hw, hc⟩ := (key q f w0 hr).2 ⟨v, vs, h1, h2, h3⟩
    exact ⟨n, w, List.mem_flatMap.2 ⟨_, hq, hw⟩, hc⟩

/-- C76: by group, the array of each group has the values at the nodes of the group, and it is defined for the same
values. -/
theorem C76_by_group {conn : X → Option (VisDof K)} {sizes : List Nat} (v : VisVal K X) :
    ((∃ gs, resampleValByGroup conn sizes v = .ok gs) ↔ v.Fits conn sizes) ∧
    ∀ gs, resampleValByGroup conn sizes v = .ok gs → gs.length = sizes.length ∧
      ∀ (g n : Nat), sizes[g]? = some n → ∃ a, gs[g]? = some a ∧ (a.isCplx = true ↔ v.Complex conn) ∧
        (HoldsAt [n] a.re fun _ j x => ∃ z, v.At conn g j z ∧ x = z.1) ∧
        (HoldsAt [n] a.im fun _ j x => ∃ z, v.At conn g j z ∧ x = z.2) := by
  have hone : ∀ {n g j m : Nat}, [n][g]? = some m → j < m → ([n].take g).sum + j = j ∧ m = n := by
    intro n g j m h _
    cases g with
    | zero => simp only [List.getElem?_cons_zero, Option.some.injEq] at h; simp [h]
    | succ g => simp at h
  rcases v with c | c | x | _
  · refine ⟨by simp [resampleValByGroup, VisVal.Fits], ?_⟩
    rintro gs h
    simp only [resampleValByGroup, Except.ok.injEq] at h
    subst h
    refine ⟨by simp, fun g n hn => ⟨_, by rw [List.getElem?_map, hn]; rfl, by simp [NpArr.isCplx, VisVal.Complex],
      ⟨_, rfl, by simp, ?_⟩, ⟨_, rfl, by simp, ?_⟩⟩⟩
    · intro g' j m hm hj
      obtain ⟨h1, rfl⟩ := hone hm hj
      rw [h1]
      exact ⟨c, by simp [hj], (c, 0), rfl, rfl⟩
    · intro g' j m hm hj
      obtain ⟨h1, rfl⟩ := hone hm hj
      rw [h1]
      exact ⟨0, by simp [hj], (c, 0), rfl, rfl⟩
  · refine ⟨by simp [resampleValByGroup, VisVal.Fits], ?_⟩
    rintro gs h
    simp only [resampleValByGroup, Except.ok.injEq] at h
    subst h
    refine ⟨by simp, fun g n hn => ⟨_, by rw [List.getElem?_map, hn]; rfl, by simp [NpArr.isCplx, VisVal.Complex],
      ⟨_, rfl, by simp, ?_⟩, ⟨_, rfl, by simp, ?_⟩⟩⟩
    · intro g' j m hm hj
      obtain ⟨h1, rfl⟩ := hone hm hj
      rw [h1]
      exact ⟨c.1, by simp [hj], c, rfl, rfl⟩
    · intro g' j m hm hj
      obtain ⟨h1, rfl⟩ := hone hm hj
      rw [h1]
      exact ⟨c.2, by simp [hj], c, rfl, rfl⟩
  · constructor
    · simp only [resampleValByGroup, VisVal.Fits]
      constructor
      · rintro ⟨a, h⟩
        cases hd : visDofOf conn sizes x with
        | error e => rw [hd] at h; cases h
        | ok d => exact ⟨d, visDofOf_ok.1 hd⟩
      · rintro ⟨d, h⟩
        rw [visDofOf_ok.2 h]
        exact ⟨_, rfl⟩
    · rintro gs h
      simp only [resampleValByGroup] at h
      cases hd : visDofOf conn sizes x with
      | error e => rw [hd] at h; cases h
      | ok d =>
        rw [hd] at h
        cases h
        obtain ⟨hc, hs⟩ := visDofOf_ok.1 hd
        cases d with
        | real l =>
          simp only [VisDof.sizes] at hs
          refine ⟨by simp [VisDof.groups, ← hs], fun g n hn => ?_⟩
          rw [← hs, List.getElem?_map, Option.map_eq_some_iff] at hn
          obtain ⟨row, hrow, rfl⟩ := hn
          refine ⟨.real row, by simp [VisDof.groups, hrow], by simp [NpArr.isCplx, VisVal.Complex, hc],
            ⟨_, rfl, by simp, ?_⟩, ⟨_, rfl, by simp, ?_⟩⟩
          · intro g' j m hm hj
            obtain ⟨h1, rfl⟩ := hone hm hj
            rw [h1]
            exact ⟨row[j], List.getElem?_eq_getElem hj, (row[j], 0),
              .inl ⟨l, row, row[j], hc, hrow, List.getElem?_eq_getElem hj, rfl⟩, rfl⟩
          · intro g' j m hm hj
            obtain ⟨h1, rfl⟩ := hone hm hj
            rw [h1]
            exact ⟨0, by simp [hj], (row[j], 0),
              .inl ⟨l, row, row[j], hc, hrow, List.getElem?_eq_getElem hj, rfl⟩, rfl⟩
        | cplx l =>
          simp only [VisDof.sizes] at hs
          refine ⟨by simp [VisDof.groups, ← hs], fun g n hn => ?_⟩
          rw [← hs, List.getElem?_map, Option.map_eq_some_iff] at hn
          obtain ⟨row, hrow, rfl⟩ := hn
          refine ⟨.cplx row, by simp [VisDof.groups, hrow], by simp [NpArr.isCplx, VisVal.Complex, hc],
            ⟨_, rfl, by simp, ?_⟩, ⟨_, rfl, by simp, ?_⟩⟩
          · intro g' j m hm hj
            obtain ⟨h1, rfl⟩ := hone hm hj
            rw [h1]
            exact ⟨row[j].1, by simp [hj], row[j],
              .inr ⟨l, row, hc, hrow, List.getElem?_eq_getElem hj⟩, rfl⟩
          · intro g' j m hm hj
            obtain ⟨h1, rfl⟩ := hone hm hj
            rw [h1]
            exact ⟨row[j].2, by simp [hj], row[j],
              .inr ⟨l, row, hc, hrow, List.getElem?_eq_getElem hj⟩, rfl⟩
  · exact ⟨by simp [resampleValByGroup, VisVal.Fits], by simp [resampleValByGroup]⟩

end

/-! ## Concrete cases -/

/-- A connection for two groups of two and one nodes: real and complex DOF arrays. (Example, no code.) -/
def exVisConn : Nat → Option (VisDof Int)
  | 0 => some (.real [[1, 2], [3]])
  | 1 => some (.cplx [[(4, -4), (5, -5)], [(6, -6)]])
  | _ => none

/-- Fields: a data class with an empty attribute, a complex field, a vector, nothing. (Example, no code.) -/
def exVisInput : List (String × VisInput Int Nat) :=
  [("q", .dataclass [("mass", .val (.dof 0)), ("energy", .nothing), ("mom", .obj [.dof 0, .realNum 7])]),
   ("u", .field (.val (.dof 1))), ("empty", .field (.obj []))]

example : vtkPointData exVisConn [2, 1] false exVisInput =
    .ok [("q_mass", .arr (.real [1, 2, 3])), ("q_mom", .obj [.real [1, 2, 3], .real [7, 7, 7]]),
      ("u_r", .arr (.real [4, 5, 6])), ("u_i", .arr (.real [-4, -5, -6]))] := by decide +kernel

example : vtkPointData exVisConn [2, 1] true [("u", .field (.val (.dof 1)))] =
    .ok [("u", .arr (.real [4, 5, 6]))] := by decide +kernel

-- The hypotheses of `C76_names`.
example : (givenNames exVisInput).Nodup ∧
    ∀ a ∈ givenNames exVisInput, ∀ b ∈ givenNames exVisInput, a ≠ b ++ "_r" ∧ a ≠ b ++ "_i" := by decide +kernel

-- The hypotheses on kinds of `C76_sound` and `C76_complete`.
example : (VisField.obj [.dof 0, .realNum 7]).OneKind exVisConn ∧ (VisField.val (.dof 1)).OneKind exVisConn := by
  constructor
  · right
    simp [VisField.comps, VisVal.Complex, exVisConn]
  · left
    simp [VisField.comps, VisVal.Complex, exVisConn]

/-- C76: two fields end up under one name although they were given different names. -/
theorem C76_names_counterexample :
    ∃ l : List (String × VisInput Int Nat), (givenNames l).Nodup ∧ ∃ out,
      vtkPointData exVisConn [2, 1] false l = .ok out ∧ ¬ (out.map Prod.fst).Nodup :=
  ⟨[("u", .field (.val (.dof 1))), ("u_r", .field (.val (.dof 0)))], by decide +kernel, _, rfl, by decide +kernel⟩

/-- C76: a vector field with a real and a complex component is written with a complex array, also with
`real_only`. -/
theorem C76_mixed_counterexample (realOnly : Bool) :
    vtkPointData exVisConn [2, 1] realOnly [("u", .field (.obj [.dof 0, .dof 1]))] =
      .ok [("u", .obj [.real [1, 2, 3], .cplx [(4, -4), (5, -5), (6, -6)]])] := by
  cases realOnly <;> decide +kernel

end Meshmode
