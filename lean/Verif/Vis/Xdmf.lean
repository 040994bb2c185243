import Verif.Vis.Connectivity
import Verif.Vis.Fields

/-!
# XDMF files (C78)

`Visualizer.write_xdmf_file`, meshmode/discretization/visualization.py:1134-1288: what the HDF5 file contains for each
element group, and when the function raises an exception.  `attrs` and the options of data sets are left out; names
with slashes, which HDF5 takes as paths, are names like any other.
-/
namespace Meshmode

variable {K X P : Type}

/-! ## Model -/

/-- Exceptions. Code: meshmode/discretization/visualization.py:1124-1132, 1174, 1224, 1248-1250, 1256, 1274. -/
inductive XdmfErr where
  /-- `NotImplementedError`: options ask for several ranks -/
  | distributed
  /-- raised while resampling -/
  | field (e : VisErr)
  /-- `ValueError`: ambient dimension neither two nor three -/
  | dimension
  /-- `ValueError` of `reshape`: no cells -/
  | reshape
  /-- `KeyError`: cell type without topology type -/
  | topology
  /-- raised by `create_dataset`: the name exists -/
  | nameTaken
  deriving DecidableEq, Repr

/-- `_vtk_to_xdmf_cell_type`, meshmode/discretization/visualization.py:1123-1132, with the numbers that VTK gives to
lines, triangles, tetrahedra, quadrilaterals and hexahedra. -/
inductive XdmfTopology where
  | polyline | triangle | tetrahedron | quadrilateral | hexahedron
  deriving DecidableEq, Repr

/-- `_vtk_to_xdmf_cell_type`, meshmode/discretization/visualization.py:1123-1132. -/
def xdmfTopology : Nat → Option XdmfTopology
  | 3 => some .polyline
  | 5 => some .triangle
  | 10 => some .tetrahedron
  | 9 => some .quadrilateral
  | 12 => some .hexahedron
  | _ => none

/-- All entries of an object array, by group, meshmode/discretization/visualization.py:146-149. -/
def resampleAllByGroup (conn : X → Option (VisDof K)) (sizes : List Nat) :
    List (VisVal K X) → Except VisErr (List (List (NpArr K)))
  | [] => .ok []
  | v :: vs =>
    match resampleValByGroup conn sizes v with
    | .error e => .error e
    | .ok a => (resampleAllByGroup conn sizes vs).map (a :: ·)

/-- Conversion to complex entries, on stacking. Code: meshmode/discretization/visualization.py:122. -/
def NpArr.toCplx [Zero K] : NpArr K → NpArr K
  | .real l => .cplx (l.map fun x => (x, 0))
  | .cplx l => .cplx l

/-- `np.stack`: an array with one more axis and a common type, meshmode/discretization/visualization.py:122. -/
def stackRows [Zero K] (rows : List (NpArr K)) : NpField K :=
  if rows.any NpArr.isCplx then .obj (rows.map NpArr.toCplx) else .obj rows

/-- `_stack_object_array` by group, meshmode/discretization/visualization.py:117-124. -/
def stackGroups [Zero K] (vec : List (List (NpArr K))) : List (NpField K) :=
  (List.range (vec.headD []).length).map fun g => stackRows (vec.map fun r => r.getD g (.real []))

/-- `_resample_to_numpy` stacked and by group, meshmode/discretization/visualization.py:127-172: one array for each
group.  Stacked arrays are `NpField.obj`, here with entries of one type. -/
def xdmfField [Zero K] (conn : X → Option (VisDof K)) (sizes : List Nat) :
    VisField K X → Except VisErr (List (NpField K))
  | .nothing => .error .typeError
  | .val v => (resampleValByGroup conn sizes v).map fun gs => gs.map .arr
  | .obj l => (resampleAllByGroup conn sizes l).map stackGroups

/-- The list comprehension, meshmode/discretization/visualization.py:1182-1187. -/
def xdmfFields [Zero K] (conn : X → Option (VisDof K)) (sizes : List Nat) :
    List (String × VisField K X) → Except VisErr (List (String × List (NpField K)))
  | [] => .ok []
  | p :: ps =>
    match xdmfField conn sizes p.2 with
    | .error e => .error e
    | .ok f => (xdmfFields conn sizes ps).map ((p.1, f) :: ·)

/-- `dtype.kind == "c"` for one group, meshmode/discretization/visualization.py:95. -/
def NpField.isCplx : NpField K → Bool
  | .arr a => a.isCplx
  | .obj [] => false
  | .obj (a :: _) => a.isCplx

/-- `obj_array_real_copy` and `obj_array_imag_copy` for one group, meshmode/discretization/visualization.py:97-103. -/
def NpField.mapArr (f : NpArr K → NpArr K) : NpField K → NpField K
  | .arr a => .arr (f a)
  | .obj l => .obj (l.map f)

/-- `separate_by_real_and_imag` for one field, by group, meshmode/discretization/visualization.py:88-105. -/
def separateGroups [Zero K] (realOnly : Bool) (name : String) : List (NpField K) → List (String × List (NpField K))
  | [] => []
  | w :: ws =>
    if w.isCplx then
      if realOnly then [(name, (w :: ws).map (NpField.mapArr NpArr.re))]
      else [(name ++ "_r", (w :: ws).map (NpField.mapArr NpArr.re)),
        (name ++ "_i", (w :: ws).map (NpField.mapArr NpArr.im))]
    else [(name, w :: ws)]

/-- `{igrp:05d}`: decimal digits with leading zeros, meshmode/discretization/visualization.py:1243. -/
def fiveDigits (g : Nat) : List Char :=
  List.replicate (5 - (Nat.toDigits 10 g).length) '0' ++ Nat.toDigits 10 g

/-- `f"Group_{igrp:05d}"`, meshmode/discretization/visualization.py:1243. -/
def xdmfGroupName (g : Nat) : String := "Group_" ++ String.ofList (fiveDigits g)

/-- A group of the HDF5 file and its grid. Code: meshmode/discretization/visualization.py:1252-1278. -/
structure XdmfGrid (K P : Type) where
  name : String
  nodes : List P
  conn : List (List Int)
  topology : XdmfTopology
  fields : List (String × NpField K)
  deriving DecidableEq, Repr

/-- The data sets of the fields in group `g`, meshmode/discretization/visualization.py:1272-1276. -/
def xdmfGroupFields [Zero K] (realOnly : Bool) (fields : List (String × List (NpField K))) (g : Nat) :
    List (String × NpField K) :=
  (fields.flatMap fun p => separateGroups realOnly p.1 p.2).map fun p => (p.1, p.2.getD g (.arr (.real [])))

/-- The loop over groups, meshmode/discretization/visualization.py:1238-1280; `base` is `node_nr_base`.  For each group:
the group of the discretization, its connectivity and its nodes. -/
def xdmfGridsFrom [Zero K] (realOnly : Bool) (fields : List (String × List (NpField K))) (g base : Nat) :
    List (VisGroup × VisConnGroup × List P) → Except XdmfErr (List (XdmfGrid K P))
  | [] => .ok []
  | (G, v, nodes) :: rest =>
    if v.nsub = 0 then .error .reshape
    else match xdmfTopology v.cellType with
      | none => .error .topology
      | some t =>
        if ("Nodes" :: "Connectivity" :: (xdmfGroupFields realOnly fields g).map Prod.fst).Nodup then
          (xdmfGridsFrom realOnly fields (g + 1) (base + G.nelements * G.nunit) rest).map fun grids =>
            { name := xdmfGroupName g
              nodes := nodes
              conn := v.conn.flatten.map fun cell => cell.map fun k : Nat => (k : Int) - base
              topology := t
              fields := xdmfGroupFields realOnly fields g } :: grids
        else .error .nameTaken

/-- What the caller asks for. Code: meshmode/discretization/visualization.py:1134-1141. -/
structure XdmfCall (K X : Type) where
  fields : List (String × VisInput K X)
  /-- `"comm" in h5_file_options` or the driver is `mpio`, meshmode/discretization/visualization.py:1172-1174 -/
  distributed : Bool
  realOnly : Bool
  overwrite : Bool
  deriving DecidableEq, Repr

/-- The visualization discretization. Code: meshmode/discretization/visualization.py:1185, 1219-1224, 1233-1234. -/
structure XdmfDiscr (K X P : Type) where
  ambientDim : Nat
  groups : List VisGroup
  /-- nodes by group, meshmode/discretization/visualization.py:1116-1121 -/
  nodes : List (List P)
  conn : X → Option (VisDof K)

/-- `ndofs` of the groups. Code: meshmode/discretization/visualization.py:160, 1251. -/
def XdmfDiscr.sizes (d : XdmfDiscr K X P) : List Nat := d.groups.map fun G => G.nelements * G.nunit

/-- The part of the function before the file is opened, meshmode/discretization/visualization.py:1172-1224. -/
def xdmfPrepare [Zero K] (d : XdmfDiscr K X P) (c : XdmfCall K X) :
    Except XdmfErr (List (String × List (NpField K))) :=
  if c.distributed then .error .distributed
  else match xdmfFields d.conn d.sizes (preprocessFields c.fields) with
    | .error e => .error (.field e)
    | .ok fs => if d.ambientDim = 2 ∨ d.ambientDim = 3 then .ok fs else .error .dimension

/-- `write_xdmf_file`, meshmode/discretization/visualization.py:1134-1288: the groups that are written. -/
def xdmfGrids [Zero K] (d : XdmfDiscr K X P) (c : XdmfCall K X) : Except XdmfErr (List (XdmfGrid K P)) :=
  match xdmfPrepare d c with
  | .error e => .error e
  | .ok fs => xdmfGridsFrom c.realOnly fs 0 0 (d.groups.zip ((visGroups d.groups).zip d.nodes))

/-- Contents of an HDF5 file: complete, or left behind by an exception.
Code: meshmode/discretization/visualization.py:1226. -/
inductive XdmfFile (K P : Type) where
  | grids (l : List (XdmfGrid K P))
  | incomplete
  deriving DecidableEq, Repr

/-- The HDF5 file after the call, given the one before: it is opened with `"w"`,
meshmode/discretization/visualization.py:1226. -/
def xdmfFile [Zero K] (d : XdmfDiscr K X P) (c : XdmfCall K X) (before : Option (XdmfFile K P)) :
    Option (XdmfFile K P) :=
  match xdmfPrepare d c with
  | .error _ => before
  | .ok _ =>
    match xdmfGrids d c with
    | .error _ => some .incomplete
    | .ok l => some (.grids l)

/-! ## Specification -/

/-- The points of the cells, as a reader of the file finds them. (Specification or proof vocabulary, no code.) -/
def XdmfGrid.cellPoints (grid : XdmfGrid K P) : List (List (Option P)) :=
  grid.conn.map fun cell => cell.map fun k => if k < 0 then none else grid.nodes[k.toNat]?

/-- The entries for group `g` (with `n` nodes) are the real or the imaginary parts of the components of a field at the
nodes of the group. (Specification or proof vocabulary, no code.) -/
def GroupPartOf [Zero K] (conn : X → Option (VisDof K)) (g n : Nat) (pick : K × K → K) (f : VisField K X)
    (w : NpField K) : Prop :=
  List.Forall₂ (fun v a => HoldsAt [n] a fun _ j x => ∃ z, v.At conn g j z ∧ x = pick z) f.comps w.comps

/-- Some component is complex. (Specification or proof vocabulary, no code.) -/
def VisField.SomeComplex (conn : X → Option (VisDof K)) (f : VisField K X) : Prop :=
  ∃ v ∈ f.comps, v.Complex conn

/-! ## Lemmas -/

theorem ofDigitChars_zeros (k : Nat) (l : List Char) :
    Nat.ofDigitChars 10 (List.replicate k '0' ++ l) 0 = Nat.ofDigitChars 10 l 0 := by
  induction k with
  | zero => simp
  | succ k ih =>
    rw [List.replicate_succ, List.cons_append, Nat.ofDigitChars_cons]
    simpa using ih

theorem fiveDigits_inj {a b : Nat} (h : fiveDigits a = fiveDigits b) : a = b := by
  have h2 := congrArg (fun l => Nat.ofDigitChars 10 l 0) h
  simp only [fiveDigits, ofDigitChars_zeros] at h2
  have key : ∀ n, Nat.ofDigitChars 10 (Nat.toDigits 10 n) 0 = n := fun n =>
    Nat.ofDigitChars_toDigits (by omega) (by omega)
  exact (key a).symm.trans (h2.trans (key b))

/-- C78: groups have different names. -/
theorem C78_group_names {a b : Nat} (h : xdmfGroupName a = xdmfGroupName b) : a = b := by
  have h1 := congrArg String.toList h
  simp only [xdmfGroupName, String.toList_append, String.toList_ofList] at h1
  exact fiveDigits_inj ((List.append_right_inj _).1 h1)

/-- C78: the name of a group ends with its number in decimal, with five digits for numbers below 100000. -/
theorem C78_group_digits (g : Nat) : Nat.ofDigitChars 10 (fiveDigits g) 0 = g ∧
    (g < 100000 → (fiveDigits g).length = 5) := by
  constructor
  · rw [fiveDigits, ofDigitChars_zeros]
    exact Nat.ofDigitChars_toDigits (by omega) (by omega)
  · intro h
    have := (Nat.length_toDigits_le_iff (b := 10) (n := g) (k := 5) (by omega) (by omega)).2 (by omega)
    rw [fiveDigits, List.length_append, List.length_replicate]
    omega

/-- Dimension and number of vertices of a cell of a VTK type, as VTK numbers them.
(Specification or proof vocabulary, no code.) -/
def vtkCellShape : List (Nat × Nat × Nat) := [(3, 1, 2), (5, 2, 3), (9, 2, 4), (10, 3, 4), (12, 3, 8)]

/-- Dimension and number of vertices of a cell of an XDMF topology type.
(Specification or proof vocabulary, no code.) -/
def XdmfTopology.shape : XdmfTopology → Nat × Nat
  | .polyline => (1, 2)
  | .triangle => (2, 3)
  | .quadrilateral => (2, 4)
  | .tetrahedron => (3, 4)
  | .hexahedron => (3, 8)

/-- C78: the topology type written for a cell type is the one of this shape; lines, triangles, quadrilaterals,
tetrahedra and hexahedra have one, other types have none. -/
theorem C78_topology (ct : Nat) :
    (∀ t, xdmfTopology ct = some t ↔ (ct, t.shape) ∈ vtkCellShape) ∧
      (xdmfTopology ct = none ↔ ∀ s, (ct, s) ∉ vtkCellShape) := by
  have key : xdmfTopology ct = none ∧ ct ≠ 3 ∧ ct ≠ 5 ∧ ct ≠ 9 ∧ ct ≠ 10 ∧ ct ≠ 12 ∨
      ct = 3 ∨ ct = 5 ∨ ct = 9 ∨ ct = 10 ∨ ct = 12 := by
    by_cases h : ct = 3 ∨ ct = 5 ∨ ct = 9 ∨ ct = 10 ∨ ct = 12
    · exact Or.inr h
    · left
      refine ⟨?_, by omega, by omega, by omega, by omega, by omega⟩
      unfold xdmfTopology
      split <;> first | omega | rfl
  rcases key with ⟨h, h1, h2, h3, h4, h5⟩ | h | h | h | h | h
  · rw [h]
    simp [vtkCellShape, h1, h2, h3, h4, h5]
  all_goals
    subst h
    refine ⟨fun t => by cases t <;> decide, ?_⟩
    simp [vtkCellShape, xdmfTopology]

section
variable [Zero K]

theorem re_toCplx (a : NpArr K) : a.toCplx.re = a.re := by
  cases a with
  | real l => simp only [NpArr.toCplx, NpArr.re, List.map_map]; exact congrArg _ (List.map_id l)
  | cplx l => rfl

theorem im_toCplx (a : NpArr K) : a.toCplx.im = a.im := by
  cases a with
  | real l => simp only [NpArr.toCplx, NpArr.im, List.map_map]; rfl
  | cplx l => rfl

theorem isCplx_toCplx (a : NpArr K) : a.toCplx.isCplx = true := by
  cases a <;> rfl

omit [Zero K] in
theorem resampleAllByGroup_ok {conn : X → Option (VisDof K)} {sizes : List Nat} {l : List (VisVal K X)}
    {r : List (List (NpArr K))} : resampleAllByGroup conn sizes l = .ok r ↔
      List.Forall₂ (fun v a => resampleValByGroup conn sizes v = .ok a) l r := by
  induction l generalizing r with
  | nil => simp [resampleAllByGroup, eq_comm]
  | cons v l ih =>
    simp only [resampleAllByGroup]
    cases hv : resampleValByGroup conn sizes v with
    | error e =>
      simp only [reduceCtorEq, false_iff]
      intro h
      cases h with
      | cons h1 _ => rw [hv] at h1; cases h1
    | ok a =>
      cases hl : resampleAllByGroup conn sizes l with
      | error e =>
        simp only [Except.map, reduceCtorEq, false_iff]
        intro h
        cases h with
        | cons _ h2 => rw [ih.2 h2] at hl; cases hl
      | ok r' =>
        simp only [Except.map, Except.ok.injEq]
        constructor
        · rintro rfl
          exact .cons hv (ih.1 hl)
        · intro h
          cases h with
          | cons h1 h2 =>
            rw [hv] at h1
            cases h1
            rw [ih.2 h2] at hl
            cases hl
            rfl

theorem xdmfField_defined {conn : X → Option (VisDof K)} {sizes : List Nat} {f : VisField K X} (hd : f.HasData) :
    (∃ w, xdmfField conn sizes f = .ok w) ↔ ∀ v ∈ f.comps, v.Fits conn sizes := by
  rcases f with _ | v | l
  · exact absurd rfl hd.1
  · simp only [xdmfField, VisField.comps, List.mem_singleton, forall_eq]
    rw [← (C76_by_group v).1]
    cases resampleValByGroup conn sizes v <;> simp [Except.map]
  · simp only [xdmfField, VisField.comps]
    have h1 : (∃ w, (resampleAllByGroup conn sizes l).map stackGroups = .ok w) ↔
        ∃ r, resampleAllByGroup conn sizes l = .ok r := by
      cases resampleAllByGroup conn sizes l <;> simp [Except.map]
    rw [h1]
    simp only [resampleAllByGroup_ok]
    constructor
    · rintro ⟨r, h⟩ v hv
      obtain ⟨a, _, ha⟩ := forall₂_mem_left h hv
      exact (C76_by_group v).1.1 ⟨a, ha⟩
    · intro h
      clear h1 hd
      induction l with
      | nil => exact ⟨[], .nil⟩
      | cons v l ih =>
        obtain ⟨a, ha⟩ := (C76_by_group v).1.2 (h v (by simp))
        obtain ⟨r, hr⟩ := ih fun v hv => h v (by simp [hv])
        exact ⟨a :: r, .cons ha hr⟩

/-- What one field gives for a group. -/
theorem xdmfField_spec {conn : X → Option (VisDof K)} {sizes : List Nat} {f : VisField K X} {ws : List (NpField K)}
    (hd : f.HasData) (h : xdmfField conn sizes f = .ok ws) :
    ws.length = sizes.length ∧ ∀ (g n : Nat), sizes[g]? = some n → ∃ w, ws[g]? = some w ∧
      (w.isCplx = true ↔ f.SomeComplex conn) ∧
      GroupPartOf conn g n Prod.fst f (w.mapArr NpArr.re) ∧ GroupPartOf conn g n Prod.snd f (w.mapArr NpArr.im) ∧
      (w.isCplx = false → w.mapArr NpArr.re = w) := by
  rcases f with _ | v | l
  · exact absurd rfl hd.1
  · simp only [xdmfField] at h
    cases hv : resampleValByGroup conn sizes v with
    | error e => rw [hv] at h; cases h
    | ok gs =>
      rw [hv] at h
      cases h
      obtain ⟨h1, h2⟩ := (C76_by_group v).2 gs hv
      refine ⟨by simpa using h1, fun g n hn => ?_⟩
      obtain ⟨a, ha, hc, hr, hi⟩ := h2 g n hn
      refine ⟨.arr a, by rw [List.getElem?_map, ha]; rfl, ?_, ?_, ?_, ?_⟩
      · simpa [NpField.isCplx, VisField.SomeComplex, VisField.comps] using hc
      · exact .cons hr .nil
      · exact .cons hi .nil
      · intro hf
        simp only [NpField.isCplx] at hf
        have : a.re = a := re_of_real (by simp [hf])
        simp [NpField.mapArr, this]
  · simp only [xdmfField] at h
    cases hv : resampleAllByGroup conn sizes l with
    | error e => rw [hv] at h; cases h
    | ok r =>
      rw [hv] at h
      cases h
      have hr := resampleAllByGroup_ok.1 hv
      have hne : l ≠ [] := fun h0 => hd.2 (by rw [h0])
      have hlen : (r.headD []).length = sizes.length := by
        cases hr with
        | nil => exact absurd rfl hne
        | cons h1 _ => exact ((C76_by_group _).2 _ h1).1
      refine ⟨by simp only [stackGroups, List.length_map, List.length_range, hlen], fun g n hn => ?_⟩
      have hg : g < (r.headD []).length := by
        rw [hlen]
        exact (List.getElem?_eq_some_iff.1 hn).1
      refine ⟨stackRows (r.map fun r => r.getD g (.real [])),
        by rw [stackGroups, List.getElem?_map, List.getElem?_range hg]; rfl, ?_⟩
      have hrows : List.Forall₂ (fun v a => (a.isCplx = true ↔ v.Complex conn) ∧
          (HoldsAt [n] a.re fun _ j x => ∃ z, v.At conn g j z ∧ x = z.1) ∧
          (HoldsAt [n] a.im fun _ j x => ∃ z, v.At conn g j z ∧ x = z.2)) l
          (r.map fun r => r.getD g (.real [])) := by
        rw [List.forall₂_map_right_iff]
        refine hr.imp fun v a hva => ?_
        obtain ⟨b, hb, hrest⟩ := ((C76_by_group v).2 a hva).2 g n hn
        rw [List.getD_eq_getElem?_getD, hb]
        exact hrest
      generalize (r.map fun r => r.getD g (.real [])) = rows at hrows
      have hany : rows.any NpArr.isCplx = true ↔ ∃ v ∈ l, v.Complex conn := by
        rw [List.any_eq_true]
        constructor
        · rintro ⟨a, ha, hac⟩
          obtain ⟨v, hv, hva⟩ := forall₂_mem_right hrows ha
          exact ⟨v, hv, hva.1.1 hac⟩
        · rintro ⟨v, hv, hvc⟩
          obtain ⟨a, ha, hva⟩ := forall₂_mem_left hrows hv
          exact ⟨a, ha, hva.1.2 hvc⟩
      have hpart : ∀ (m : NpArr K → NpArr K) (pick : K × K → K), (∀ a, m a.toCplx = m a) →
          List.Forall₂ (fun v a => HoldsAt [n] (m a) fun _ j x => ∃ z, v.At conn g j z ∧ x = pick z) l rows →
          GroupPartOf conn g n pick (.obj l) ((stackRows rows).mapArr m) := by
        intro m pick hm hf
        simp only [GroupPartOf, VisField.comps, stackRows]
        split
        · simp only [NpField.mapArr, NpField.comps, List.map_map]
          rw [List.forall₂_map_right_iff]
          exact hf.imp fun v a h => by simpa only [Function.comp, hm] using h
        · simp only [NpField.mapArr, NpField.comps]
          rw [List.forall₂_map_right_iff]
          exact hf
      have hrne : rows ≠ [] := by
        rintro rfl
        cases hrows
        exact hne rfl
      refine ⟨?_, hpart _ _ re_toCplx (hrows.imp fun _ _ h => h.2.1),
        hpart _ _ im_toCplx (hrows.imp fun _ _ h => h.2.2), ?_⟩
      · rw [VisField.SomeComplex, VisField.comps, ← hany]
        simp only [stackRows]
        cases rows with
        | nil => exact absurd rfl hrne
        | cons a as =>
          split
          · rename_i h
            simp only [List.map_cons, NpField.isCplx, isCplx_toCplx, true_iff]
            exact h
          · rename_i h
            simp only [NpField.isCplx]
            exact iff_of_false (fun ha => h (by simp [ha])) h
      · simp only [stackRows]
        split
        · intro hf
          cases rows with
          | nil => exact absurd rfl hrne
          | cons a as => simp [NpField.isCplx, isCplx_toCplx] at hf
        · rename_i h
          intro _
          simp only [NpField.mapArr, NpField.obj.injEq]
          refine (List.map_congr_left fun a ha => ?_).trans (List.map_id _)
          exact re_of_real fun hc => h (List.any_eq_true.2 ⟨a, ha, hc⟩)

theorem xdmfFields_ok {conn : X → Option (VisDof K)} {sizes : List Nat} {l : List (String × VisField K X)}
    {r : List (String × List (NpField K))} : xdmfFields conn sizes l = .ok r ↔
      List.Forall₂ (fun p q => p.1 = q.1 ∧ xdmfField conn sizes p.2 = .ok q.2) l r := by
  induction l generalizing r with
  | nil => simp [xdmfFields, eq_comm]
  | cons v l ih =>
    simp only [xdmfFields]
    cases hv : xdmfField conn sizes v.2 with
    | error e =>
      simp only [reduceCtorEq, false_iff]
      intro h
      cases h with
      | cons h1 _ => rw [hv] at h1; cases h1.2
    | ok a =>
      cases hl : xdmfFields conn sizes l with
      | error e =>
        simp only [Except.map, reduceCtorEq, false_iff]
        intro h
        cases h with
        | cons _ h2 => rw [ih.2 h2] at hl; cases hl
      | ok r' =>
        simp only [Except.map, Except.ok.injEq]
        constructor
        · rintro rfl
          exact .cons ⟨rfl, hv⟩ (ih.1 hl)
        · intro h
          cases h with
          | @cons _ q _ _ h1 h2 =>
            rw [hv] at h1
            rw [ih.2 h2] at hl
            cases hl
            obtain ⟨h3, h4⟩ := h1
            cases h4
            rw [h3]

/-- What is written for one field in a group. -/
theorem separateGroups_spec {conn : X → Option (VisDof K)} {sizes : List Nat} {realOnly : Bool} {name : String}
    {f : VisField K X} {ws : List (NpField K)} (hd : f.HasData) (h : xdmfField conn sizes f = .ok ws)
    {g n : Nat} (hn : sizes[g]? = some n) :
    ((¬ f.SomeComplex conn ∨ realOnly = true) ∧
      ∃ w' w, separateGroups realOnly name ws = [(name, w')] ∧ w'[g]? = some w ∧ GroupPartOf conn g n Prod.fst f w) ∨
    (f.SomeComplex conn ∧ realOnly = false ∧
      ∃ wr' wi' wr wi, separateGroups realOnly name ws = [(name ++ "_r", wr'), (name ++ "_i", wi')] ∧
        wr'[g]? = some wr ∧ wi'[g]? = some wi ∧
        GroupPartOf conn g n Prod.fst f wr ∧ GroupPartOf conn g n Prod.snd f wi) := by
  obtain ⟨hlen, hspec⟩ := xdmfField_spec hd h
  obtain ⟨w, hw, hc, hr, hi, hre⟩ := hspec g n hn
  cases ws with
  | nil => simp at hw
  | cons w0 ws =>
    have h0 : w0.isCplx = true ↔ f.SomeComplex conn := by
      have : 0 < sizes.length := by rw [← hlen]; simp
      obtain ⟨w1, hw1, hc1, _⟩ := hspec 0 _ (List.getElem?_eq_getElem this)
      simp only [List.getElem?_cons_zero, Option.some.injEq] at hw1
      rw [hw1]
      exact hc1
    simp only [separateGroups]
    by_cases hcx : f.SomeComplex conn
    · rw [if_pos (h0.2 hcx)]
      cases realOnly with
      | true =>
        exact .inl ⟨.inr rfl, _, _, by rw [if_pos rfl], by rw [List.getElem?_map, hw]; rfl, hr⟩
      | false =>
        exact .inr ⟨hcx, rfl, _, _, _, _, by rw [if_neg (by simp)], by rw [List.getElem?_map, hw]; rfl,
          by rw [List.getElem?_map, hw]; rfl, hr, hi⟩
    · rw [if_neg fun hx => hcx (h0.1 hx)]
      refine .inl ⟨.inl hcx, _, w, rfl, hw, ?_⟩
      have : w.isCplx = false := by
        cases hx : w.isCplx with
        | false => rfl
        | true => exact absurd (hc.1 hx) hcx
      rw [← hre this]
      exact hr

theorem separateGroups_names (realOnly : Bool) (name : String) (ws : List (NpField K)) :
    (separateGroups realOnly name ws).map Prod.fst = [] ∨ (separateGroups realOnly name ws).map Prod.fst = [name] ∨
      (separateGroups realOnly name ws).map Prod.fst = [name ++ "_r", name ++ "_i"] := by
  cases ws with
  | nil => simp [separateGroups]
  | cons a as =>
    simp only [separateGroups]
    split_ifs <;> simp

/-- What the loop gives. -/
theorem xdmfGridsFrom_ok {realOnly : Bool} {fields : List (String × List (NpField K))} {g0 base : Nat}
    {l : List (VisGroup × VisConnGroup × List P)} {out : List (XdmfGrid K P)}
    (h : xdmfGridsFrom realOnly fields g0 base l = .ok out) :
    out.length = l.length ∧ ∀ (g : Nat) G v nodes, l[g]? = some (G, v, nodes) → ∃ t, xdmfTopology v.cellType = some t ∧
      v.nsub ≠ 0 ∧
      out[g]? = some
        { name := xdmfGroupName (g0 + g)
          nodes := nodes
          conn := v.conn.flatten.map fun cell => cell.map fun k : Nat =>
            (k : Int) - ((base + ((l.take g).map fun p => p.1.nelements * p.1.nunit).sum : Nat) : Int)
          topology := t
          fields := xdmfGroupFields realOnly fields (g0 + g) } ∧
      ("Nodes" :: "Connectivity" :: (xdmfGroupFields realOnly fields (g0 + g)).map Prod.fst).Nodup := by
  induction l generalizing g0 base out with
  | nil => simp only [xdmfGridsFrom, Except.ok.injEq] at h; subst h; simp
  | cons p l ih =>
    obtain ⟨G, v, nodes⟩ := p
    simp only [xdmfGridsFrom] at h
    split at h
    · cases h
    rename_i hsub
    split at h
    · cases h
    rename_i t ht
    split at h
    · rename_i hnd
      cases hrec : xdmfGridsFrom realOnly fields (g0 + 1) (base + G.nelements * G.nunit) l with
      | error e => rw [hrec] at h; cases h
      | ok grids =>
        rw [hrec] at h
        cases h
        obtain ⟨h1, h2⟩ := ih hrec
        refine ⟨by simp [h1], fun g G' v' nodes' hg => ?_⟩
        cases g with
        | zero =>
          simp only [List.getElem?_cons_zero, Option.some.injEq, Prod.mk.injEq] at hg
          obtain ⟨rfl, rfl, rfl⟩ := hg
          exact ⟨t, ht, hsub, by simp, hnd⟩
        | succ g =>
          rw [List.getElem?_cons_succ] at hg
          obtain ⟨t', h3, h4, h5, h6⟩ := h2 g G' v' nodes' hg
          have e1 : g0 + 1 + g = g0 + (g + 1) := by omega
          rw [e1] at h5 h6
          refine ⟨t', h3, h4, ?_, h6⟩
          rw [List.getElem?_cons_succ, h5]
          simp [Nat.add_assoc]
    · cases h

theorem xdmfGrids_ok {d : XdmfDiscr K X P} {c : XdmfCall K X} {out : List (XdmfGrid K P)}
    (h : xdmfGrids d c = .ok out) : ∃ fs, c.distributed = false ∧
      xdmfFields d.conn d.sizes (preprocessFields c.fields) = .ok fs ∧ (d.ambientDim = 2 ∨ d.ambientDim = 3) ∧
      xdmfGridsFrom c.realOnly fs 0 0 (d.groups.zip ((visGroups d.groups).zip d.nodes)) = .ok out := by
  simp only [xdmfGrids, xdmfPrepare] at h
  by_cases hd : c.distributed = true
  · simp [hd] at h
  rw [if_neg hd] at h
  cases hf : xdmfFields d.conn d.sizes (preprocessFields c.fields) with
  | error e => rw [hf] at h; cases h
  | ok fs =>
    rw [hf] at h
    by_cases ha : d.ambientDim = 2 ∨ d.ambientDim = 3
    · simp only [if_pos ha] at h
      exact ⟨fs, by simpa using hd, rfl, ha, h⟩
    · simp only [if_neg ha] at h
      cases h

omit [Zero K] in
theorem zip_groups_getElem? {d : XdmfDiscr K X P} {g : Nat} {G : VisGroup} {nodes : List P}
    (hg : d.groups[g]? = some G) (hn : d.nodes[g]? = some nodes) :
    ∃ v, (visGroups d.groups)[g]? = some v ∧ v.cellType = G.cellType ∧ v.nsub = G.nelements * G.rows.length ∧
      v.conn.flatten = groupCells (nodeBase d.groups g) G ∧
      (d.groups.zip ((visGroups d.groups).zip d.nodes))[g]? = some (G, v, nodes) := by
  have hv := visGroupsFrom_getElem? d.groups 0 0 g
  rw [hg] at hv
  refine ⟨_, hv, rfl, by simp [VisConnGroup.nsub], ?_, ?_⟩
  · simp only [groupCells, List.flatMap_def, Nat.zero_add]
  · rw [List.getElem?_zip_eq_some (z := (_, _, _))]
    refine ⟨hg, ?_⟩
    rw [List.getElem?_zip_eq_some (z := (_, _))]
    exact ⟨hv, hn⟩

/-- The part of one grid. -/
theorem xdmfGrids_getElem? {d : XdmfDiscr K X P} {c : XdmfCall K X} {out : List (XdmfGrid K P)}
    (h : xdmfGrids d c = .ok out) {g : Nat} {G : VisGroup} {nodes : List P}
    (hg : d.groups[g]? = some G) (hn : d.nodes[g]? = some nodes) (hl : d.nodes.length = d.groups.length) :
    ∃ fs t, xdmfFields d.conn d.sizes (preprocessFields c.fields) = .ok fs ∧ xdmfTopology G.cellType = some t ∧
      out[g]? = some ⟨xdmfGroupName g, nodes, (groupCells 0 G).map fun cell => cell.map fun k : Nat => (k : Int), t,
        xdmfGroupFields c.realOnly fs g⟩ ∧
      ("Nodes" :: "Connectivity" :: (xdmfGroupFields c.realOnly fs g).map Prod.fst).Nodup := by
  obtain ⟨fs, _, hfs, _, hgrids⟩ := xdmfGrids_ok h
  obtain ⟨v, _, hv2, hv3, hv4, hz⟩ := zip_groups_getElem? hg hn
  obtain ⟨t, h1, _, h3, h4⟩ := (xdmfGridsFrom_ok hgrids).2 g G v nodes hz
  rw [hv2] at h1
  refine ⟨fs, t, hfs, h1, ?_, by simpa using h4⟩
  have hbase : ((d.groups.zip ((visGroups d.groups).zip d.nodes)).take g).map
      (fun p => p.1.nelements * p.1.nunit) = (d.groups.take g).map fun G => G.nelements * G.nunit := by
    have hvl : (visGroups d.groups).length = d.groups.length := by
      have : ∀ (gs : List VisGroup) (a b : Nat), (visGroupsFrom a b gs).length = gs.length := by
        intro gs
        induction gs with
        | nil => intros; rfl
        | cons G gs ih => intro a b; simp [visGroupsFrom, ih]
      exact this _ _ _
    have : (d.groups.zip ((visGroups d.groups).zip d.nodes)).map Prod.fst = d.groups := by
      apply List.map_fst_zip
      rw [List.length_zip, hvl, hl, Nat.min_self]
    calc _ = (((d.groups.zip ((visGroups d.groups).zip d.nodes)).map Prod.fst).take g).map
          (fun G => G.nelements * G.nunit) := by rw [← List.map_take, List.map_map]; rfl
      _ = _ := by rw [this]
  rw [h3, hbase, hv4, Nat.zero_add, Nat.zero_add]
  congr 2
  simp only [groupCells, List.map_flatMap, List.map_map, nodeBase]
  apply List.flatMap_congr
  intro e _
  apply List.map_congr_left
  intro r _
  simp only [Function.comp, List.map_map]
  apply List.map_congr_left
  intro k _
  simp only [Function.comp]
  push_cast
  ring

/-- C78: each element group becomes a grid with the nodes of the group, and a cell for each element and row of its
connectivity, in terms of the numbers of the nodes of the group. -/
theorem C78_cells {d : XdmfDiscr K X P} {c : XdmfCall K X} {out : List (XdmfGrid K P)}
    (h : xdmfGrids d c = .ok out) (hl : d.nodes.length = d.groups.length) {g : Nat} {G : VisGroup} {nodes : List P}
    (hg : d.groups[g]? = some G) (hn : d.nodes[g]? = some nodes) :
    out.length = d.groups.length ∧ ∃ grid, out[g]? = some grid ∧ grid.name = xdmfGroupName g ∧ grid.nodes = nodes ∧
      some grid.topology = xdmfTopology G.cellType ∧ grid.conn.length = G.nelements * G.rows.length ∧
      ∀ (e r : Nat) row, e < G.nelements → G.rows[r]? = some row →
        grid.conn[e * G.rows.length + r]? = some (row.map fun k : Nat => ((e * G.nunit + k : Nat) : Int)) := by
  obtain ⟨fs, t, _, ht, hout, _⟩ := xdmfGrids_getElem? h hg hn hl
  obtain ⟨_, _, _, _, hgrids⟩ := xdmfGrids_ok h
  refine ⟨?_, _, hout, rfl, rfl, ht.symm, by simp [length_groupCells], ?_⟩
  · have hvl : (visGroups d.groups).length = d.groups.length := by
      have : ∀ (gs : List VisGroup) (a b : Nat), (visGroupsFrom a b gs).length = gs.length := by
        intro gs
        induction gs with
        | nil => intros; rfl
        | cons G gs ih => intro a b; simp [visGroupsFrom, ih]
      exact this _ _ _
    rw [(xdmfGridsFrom_ok hgrids).1, List.length_zip, List.length_zip, hvl, hl, Nat.min_self, Nat.min_self]
  · intro e r row he hr
    have hrl : r < G.rows.length := (List.getElem?_eq_some_iff.1 hr).1
    have : (groupCells 0 G)[e * G.rows.length + r]? = some (row.map fun k => 0 + e * G.nunit + k) := by
      have h1 := flatten_getElem?_take (L := (List.range G.nelements).map
        (fun e => G.rows.map fun r => r.map fun k => 0 + e * G.nunit + k)) (g := e) (j := r)
        (row := G.rows.map fun r => r.map fun k => 0 + e * G.nunit + k)
        (by rw [List.getElem?_map, List.getElem?_range he]; rfl) (by simpa using hrl)
      have h2 : (((List.range G.nelements).map
          (fun e => G.rows.map fun r => r.map fun k => 0 + e * G.nunit + k)).map List.length).take e =
          List.replicate e G.rows.length := by
        rw [List.eq_replicate_iff]
        refine ⟨by simp; omega, fun b hb => ?_⟩
        have := List.mem_of_mem_take hb
        simp only [List.map_map, List.mem_map, Function.comp, List.length_map] at this
        obtain ⟨_, _, rfl⟩ := this
        rfl
      rw [h2, List.sum_replicate_nat] at h1
      simp only [groupCells, List.flatMap_def]
      rw [h1, List.getElem?_map, hr]
      rfl
    rw [List.getElem?_map, this]
    simp

/-- C78: the points of the cells are those of the cells of VTK files, whose nodes are numbered over all groups. -/
theorem C78_points {d : XdmfDiscr K X P} {c : XdmfCall K X} {out : List (XdmfGrid K P)}
    (h : xdmfGrids d c = .ok out) (hs : d.nodes.map List.length = d.sizes) {g : Nat} {G : VisGroup}
    (hg : d.groups[g]? = some G) (hr : ∀ row ∈ G.rows, ∀ k ∈ row, k < G.nunit) :
    ∃ grid, out[g]? = some grid ∧ grid.cellPoints =
      (groupCells (nodeBase d.groups g) G).map fun cell => cell.map fun k => d.nodes.flatten[k]? := by
  have hl : d.nodes.length = d.groups.length := by
    have := congrArg List.length hs
    simpa [XdmfDiscr.sizes] using this
  have hgl : g < d.nodes.length := by rw [hl]; exact (List.getElem?_eq_some_iff.1 hg).1
  have hn : d.nodes[g]? = some d.nodes[g] := List.getElem?_eq_getElem hgl
  have hlen : (d.nodes[g]).length = G.nelements * G.nunit := by
    have h1 : (d.nodes.map List.length)[g]? = some (d.nodes[g]).length := by rw [List.getElem?_map, hn]; rfl
    rw [hs, XdmfDiscr.sizes, List.getElem?_map, hg] at h1
    simpa using h1.symm
  obtain ⟨fs, t, _, ht, hout, _⟩ := xdmfGrids_getElem? h hg hn hl
  refine ⟨_, hout, ?_⟩
  have hbase : ((d.nodes.map List.length).take g).sum = nodeBase d.groups g := by
    rw [hs, XdmfDiscr.sizes, ← List.map_take]
    rfl
  simp only [XdmfGrid.cellPoints, groupCells, List.map_flatMap, List.map_map]
  apply List.flatMap_congr
  intro e he
  rw [List.mem_range] at he
  apply List.map_congr_left
  intro row hrow
  simp only [Function.comp, List.map_map]
  apply List.map_congr_left
  intro k hk
  have hk' := hr row hrow k hk
  have hlt : e * G.nunit + k < (d.nodes[g]).length := by
    rw [hlen]
    calc e * G.nunit + k < e * G.nunit + G.nunit := by omega
      _ = (e + 1) * G.nunit := by ring
      _ ≤ G.nelements * G.nunit := Nat.mul_le_mul_right _ he
  have h2 := flatten_getElem?_take hn hlt
  rw [hbase, ← Nat.add_assoc] at h2
  simp only [Function.comp, Nat.zero_add]
  rw [h2, if_neg (by omega), Int.toNat_natCast]

theorem mem_xdmfGroupFields {realOnly : Bool} {fs : List (String × List (NpField K))} {g : Nat} {n : String}
    {w : NpField K} : (n, w) ∈ xdmfGroupFields realOnly fs g ↔
      ∃ p ∈ fs, ∃ q ∈ separateGroups realOnly p.1 p.2, q.1 = n ∧ q.2.getD g (.arr (.real [])) = w := by
  simp only [xdmfGroupFields, List.mem_map, List.mem_flatMap, Prod.mk.injEq]
  constructor
  · rintro ⟨q, ⟨p, hp, hq⟩, h1, h2⟩
    exact ⟨p, hp, q, hq, h1, h2⟩
  · rintro ⟨p, hp, q, hq, h1, h2⟩
    exact ⟨q, ⟨p, hp, hq⟩, h1, h2⟩

/-- C78: everything in a grid but nodes and cells is a field or attribute that was given and has data: real fields
(and, with `real_only`, complex ones) under their name with the real parts, fields with a complex component otherwise
under their name with `_r` and `_i` and the real and imaginary parts of the values at the nodes of the group.  Names
are different from each other and from those of nodes and cells. -/
theorem C78_fields_sound {d : XdmfDiscr K X P} {c : XdmfCall K X} {out : List (XdmfGrid K P)}
    (h : xdmfGrids d c = .ok out) (hs : d.nodes.map List.length = d.sizes) {g : Nat} {grid : XdmfGrid K P}
    (hgrid : out[g]? = some grid) :
    ("Nodes" :: "Connectivity" :: grid.fields.map Prod.fst).Nodup ∧
    ∃ m, d.sizes[g]? = some m ∧ ∀ n w, (n, w) ∈ grid.fields → ∃ name f, Given c.fields name f ∧ f.HasData ∧
      (((¬ f.SomeComplex d.conn ∨ c.realOnly = true) ∧ n = name ∧ GroupPartOf d.conn g m Prod.fst f w) ∨
       (f.SomeComplex d.conn ∧ c.realOnly = false ∧
         ((n = name ++ "_r" ∧ GroupPartOf d.conn g m Prod.fst f w) ∨
          (n = name ++ "_i" ∧ GroupPartOf d.conn g m Prod.snd f w)))) := by
  have hl : d.nodes.length = d.groups.length := by
    have := congrArg List.length hs
    simpa [XdmfDiscr.sizes] using this
  have hgl : g < d.groups.length := by
    obtain ⟨_, _, _, _, hgrids⟩ := xdmfGrids_ok h
    have h1 := (xdmfGridsFrom_ok hgrids).1
    have h2 := (List.getElem?_eq_some_iff.1 hgrid).1
    rw [h1, List.length_zip] at h2
    omega
  have hg := List.getElem?_eq_getElem hgl
  have hn := List.getElem?_eq_getElem (l := d.nodes) (i := g) (by omega)
  obtain ⟨fs, t, hfs, _, hout, hnd⟩ := xdmfGrids_getElem? h hg hn hl
  rw [hgrid] at hout
  cases hout
  have hm : d.sizes[g]? = some (d.groups[g].nelements * d.groups[g].nunit) := by
    rw [XdmfDiscr.sizes, List.getElem?_map, hg]; rfl
  refine ⟨hnd, _, hm, fun n w hw => ?_⟩
  obtain ⟨⟨q, ws⟩, hq, ⟨n', ws'⟩, hmem, rfl, rfl⟩ := mem_xdmfGroupFields.1 hw
  obtain ⟨⟨name, f⟩, hp, hne, hr⟩ := forall₂_mem_right (xdmfFields_ok.1 hfs) hq
  obtain ⟨hgiv, hd⟩ := mem_preprocess.1 hp
  simp only at hne hr hmem
  subst hne
  refine ⟨name, f, hgiv, hd, ?_⟩
  rcases separateGroups_spec (realOnly := c.realOnly) (name := name) hd hr hm with
    ⟨h1, w', w, hsep, hw', hpart⟩ | ⟨h1, h2, wr', wi', wr, wi, hsep, hwr, hwi, hpr, hpi⟩
  · rw [hsep, List.mem_singleton, Prod.mk.injEq] at hmem
    obtain ⟨rfl, rfl⟩ := hmem
    refine .inl ⟨h1, rfl, ?_⟩
    rw [List.getD_eq_getElem?_getD, hw']
    exact hpart
  · rw [hsep] at hmem
    simp only [List.mem_cons, Prod.mk.injEq, List.not_mem_nil, or_false] at hmem
    rcases hmem with ⟨rfl, rfl⟩ | ⟨rfl, rfl⟩
    · refine .inr ⟨h1, h2, .inl ⟨rfl, ?_⟩⟩
      rw [List.getD_eq_getElem?_getD, hwr]
      exact hpr
    · refine .inr ⟨h1, h2, .inr ⟨rfl, ?_⟩⟩
      rw [List.getD_eq_getElem?_getD, hwi]
      exact hpi

/-- C78: every field and attribute that was given and has data is in every grid. -/
theorem C78_fields_complete {d : XdmfDiscr K X P} {c : XdmfCall K X} {out : List (XdmfGrid K P)}
    (h : xdmfGrids d c = .ok out) (hs : d.nodes.map List.length = d.sizes) {g m : Nat} (hm : d.sizes[g]? = some m)
    {name : String} {f : VisField K X} (hgiv : Given c.fields name f) (hd : f.HasData) :
    ∃ grid, out[g]? = some grid ∧
    (((¬ f.SomeComplex d.conn ∨ c.realOnly = true) ∧
      ∃ w, (name, w) ∈ grid.fields ∧ GroupPartOf d.conn g m Prod.fst f w) ∨
    (f.SomeComplex d.conn ∧ c.realOnly = false ∧
      ∃ wr wi, (name ++ "_r", wr) ∈ grid.fields ∧ (name ++ "_i", wi) ∈ grid.fields ∧
        GroupPartOf d.conn g m Prod.fst f wr ∧ GroupPartOf d.conn g m Prod.snd f wi)) := by
  have hl : d.nodes.length = d.groups.length := by
    have := congrArg List.length hs
    simpa [XdmfDiscr.sizes] using this
  have hgl : g < d.groups.length := by
    have := (List.getElem?_eq_some_iff.1 hm).1
    simpa [XdmfDiscr.sizes] using this
  obtain ⟨fs, t, hfs, _, hout, _⟩ := xdmfGrids_getElem? h (List.getElem?_eq_getElem hgl)
    (List.getElem?_eq_getElem (by omega)) hl
  obtain ⟨⟨q, ws⟩, hq, hne, hr⟩ := forall₂_mem_left (xdmfFields_ok.1 hfs) (mem_preprocess.2 ⟨hgiv, hd⟩)
  simp only at hne hr
  subst hne
  refine ⟨_, hout, ?_⟩
  rcases separateGroups_spec (realOnly := c.realOnly) (name := name) hd hr hm with
    ⟨h1, w', w, hsep, hw', hpart⟩ | ⟨h1, h2, wr', wi', wr, wi, hsep, hwr, hwi, hpr, hpi⟩
  · refine .inl ⟨h1, w, mem_xdmfGroupFields.2 ⟨_, hq, (name, w'), by simp [hsep], rfl, ?_⟩, hpart⟩
    simp [hw']
  · refine .inr ⟨h1, h2, wr, wi, mem_xdmfGroupFields.2 ⟨_, hq, (_, wr'), by simp [hsep], rfl, ?_⟩,
      mem_xdmfGroupFields.2 ⟨_, hq, (_, wi'), by simp [hsep], rfl, ?_⟩, hpr, hpi⟩
    · simp [hwr]
    · simp [hwi]

theorem reserved_ne {s : String} (hs : s = "Nodes" ∨ s = "Connectivity") (a : String) : s ≠ a ++ "_r" ∧ s ≠ a ++ "_i" := by
  constructor <;> intro h <;> have := congrArg (fun s => s.toList.getLast?) h <;> rcases hs with rfl | rfl <;>
    simp at this

theorem xdmfNames_nodup {fs : List (String × List (NpField K))} {realOnly : Bool} {names : List String}
    (hsub : (fs.map Prod.fst).Sublist names) (hn : names.Nodup)
    (hr : "Nodes" ∉ names ∧ "Connectivity" ∉ names)
    (hs : ∀ a ∈ names, ∀ b ∈ names, a ≠ b ++ "_r" ∧ a ≠ b ++ "_i") (g : Nat) :
    ("Nodes" :: "Connectivity" :: (xdmfGroupFields realOnly fs g).map Prod.fst).Nodup := by
  have he : (xdmfGroupFields realOnly fs g).map Prod.fst =
      fs.flatMap fun p => (separateGroups realOnly p.1 p.2).map Prod.fst := by
    simp only [xdmfGroupFields, List.map_map, List.map_flatMap]
    rfl
  have hnd : (fs.map Prod.fst).Nodup := hn.sublist hsub
  have hmem : ∀ p ∈ fs, p.1 ∈ names := fun p hp => hsub.subset (List.mem_map_of_mem hp)
  have hone : ∀ p : String × List (NpField K), ∀ a ∈ (separateGroups realOnly p.1 p.2).map Prod.fst,
      a = p.1 ∨ a = p.1 ++ "_r" ∨ a = p.1 ++ "_i" := by
    intro p a ha
    rcases separateGroups_names realOnly p.1 p.2 with h | h | h <;> rw [h] at ha <;> simp at ha <;> simp [ha]
  have hres : ∀ s, s = "Nodes" ∨ s = "Connectivity" →
      s ∉ fs.flatMap fun p => (separateGroups realOnly p.1 p.2).map Prod.fst := by
    intro s hs' hin
    obtain ⟨p, hp, ha⟩ := List.mem_flatMap.1 hin
    rcases hone p s ha with h | h | h
    · rcases hs' with rfl | rfl
      · exact hr.1 (h ▸ hmem p hp)
      · exact hr.2 (h ▸ hmem p hp)
    · exact (reserved_ne hs' _).1 h
    · exact (reserved_ne hs' _).2 h
  rw [he, List.nodup_cons, List.nodup_cons]
  refine ⟨?_, hres _ (.inr rfl), ?_⟩
  · rw [List.mem_cons, not_or]
    exact ⟨by decide, hres _ (.inl rfl)⟩
  clear hres he hsub
  induction fs with
  | nil => simp
  | cons p fs ih =>
    simp only [List.map_cons, List.nodup_cons] at hnd
    simp only [List.flatMap_cons]
    rw [List.nodup_append]
    refine ⟨?_, ih hnd.2 fun q hq => hmem q (by simp [hq]), ?_⟩
    · rcases separateGroups_names realOnly p.1 p.2 with h | h | h <;> rw [h]
      · simp
      · simp
      · simp
    · intro a ha b hb hab
      subst hab
      obtain ⟨q, hq, hb⟩ := List.mem_flatMap.1 hb
      have hpq : p.1 ≠ q.1 := fun he => hnd.1 (he ▸ List.mem_map_of_mem hq)
      have hp1 := hmem p (by simp)
      have hq1 := hmem q (by simp [hq])
      rcases hone p a ha with rfl | rfl | rfl <;> rcases hone q _ hb with h | h | h
      · exact hpq h
      · exact (hs _ hp1 _ hq1).1 h
      · exact (hs _ hp1 _ hq1).2 h
      · exact (hs _ hq1 _ hp1).1 h.symm
      · exact hpq (append_suffix_cancel h)
      · exact append_r_ne_i _ _ h
      · exact (hs _ hq1 _ hp1).2 h.symm
      · exact append_r_ne_i _ _ h.symm
      · exact hpq (append_suffix_cancel h)

theorem xdmfGridsFrom_defined {realOnly : Bool} {fields : List (String × List (NpField K))} {g0 base : Nat}
    {l : List (VisGroup × VisConnGroup × List P)}
    (hn : ∀ g, ("Nodes" :: "Connectivity" :: (xdmfGroupFields realOnly fields g).map Prod.fst).Nodup) :
    (∃ out, xdmfGridsFrom realOnly fields g0 base l = .ok out) ↔
      ∀ p ∈ l, p.2.1.nsub ≠ 0 ∧ xdmfTopology p.2.1.cellType ≠ none := by
  induction l generalizing g0 base with
  | nil => simp [xdmfGridsFrom]
  | cons p l ih =>
    obtain ⟨G, v, nodes⟩ := p
    simp only [xdmfGridsFrom, List.mem_cons, forall_eq_or_imp]
    rw [← ih (g0 := g0 + 1) (base := base + G.nelements * G.nunit)]
    split
    · rename_i h0
      simp [h0]
    rename_i h0
    split
    · rename_i ht
      simp [ht]
    rename_i t ht
    rw [if_pos (hn g0)]
    cases xdmfGridsFrom realOnly fields (g0 + 1) (base + G.nelements * G.nunit) l <;> simp [Except.map, h0, ht]

/-- C78: with different names (none of which is another one followed by `_r` or `_i`, nor `Nodes` or `Connectivity`)
a file is written exactly if distributed files are not asked for, all components can be resampled, the ambient
dimension is two or three, and all groups have elements and a known cell type. -/
theorem C78_defined {d : XdmfDiscr K X P} {c : XdmfCall K X} (hl : d.nodes.length = d.groups.length)
    (hn : (givenNames c.fields).Nodup) (hr : "Nodes" ∉ givenNames c.fields ∧ "Connectivity" ∉ givenNames c.fields)
    (hs : ∀ a ∈ givenNames c.fields, ∀ b ∈ givenNames c.fields, a ≠ b ++ "_r" ∧ a ≠ b ++ "_i") :
    (∃ out, xdmfGrids d c = .ok out) ↔
      c.distributed = false ∧ (∀ n f, Given c.fields n f → f.HasData → ∀ v ∈ f.comps, v.Fits d.conn d.sizes) ∧
      (d.ambientDim = 2 ∨ d.ambientDim = 3) ∧ ∀ G ∈ d.groups, 0 < G.nelements ∧ xdmfTopology G.cellType ≠ none := by
  have hfields : (∃ fs, xdmfFields d.conn d.sizes (preprocessFields c.fields) = .ok fs) ↔
      ∀ n f, Given c.fields n f → f.HasData → ∀ v ∈ f.comps, v.Fits d.conn d.sizes := by
    have h2 : (∀ n f, Given c.fields n f → f.HasData → ∀ v ∈ f.comps, v.Fits d.conn d.sizes) ↔
        ∀ p ∈ preprocessFields c.fields, ∃ w, xdmfField d.conn d.sizes p.2 = .ok w := by
      constructor
      · rintro h ⟨n, f⟩ hp
        obtain ⟨hg, hd⟩ := mem_preprocess.1 hp
        exact (xdmfField_defined hd).2 (h n f hg hd)
      · intro h n f hg hd
        exact (xdmfField_defined hd).1 (h (n, f) (mem_preprocess.2 ⟨hg, hd⟩))
    rw [h2]
    generalize preprocessFields c.fields = ps
    simp only [xdmfFields_ok]
    constructor
    · rintro ⟨fs, h⟩ p hp
      obtain ⟨q, _, hq⟩ := forall₂_mem_left h hp
      exact ⟨_, hq.2⟩
    · intro h
      induction ps with
      | nil => exact ⟨[], .nil⟩
      | cons p ps ih =>
        obtain ⟨w, hw⟩ := h p (by simp)
        obtain ⟨fs, hfs⟩ := ih fun q hq => h q (by simp [hq])
        exact ⟨(p.1, w) :: fs, .cons ⟨rfl, hw⟩ hfs⟩
  have hgroups : (∀ p ∈ d.groups.zip ((visGroups d.groups).zip d.nodes),
      p.2.1.nsub ≠ 0 ∧ xdmfTopology p.2.1.cellType ≠ none) ↔
      ∀ G ∈ d.groups, 0 < G.nelements ∧ xdmfTopology G.cellType ≠ none := by
    have hrows : ∀ G : VisGroup, 0 < G.rows.length := by
      intro G
      simp only [VisGroup.rows]
      split
      · simp
      · rename_i h; exact List.length_pos_iff.2 h
    have key : ∀ g (hg : g < d.groups.length), ∃ p ∈ d.groups.zip ((visGroups d.groups).zip d.nodes),
        (d.groups.zip ((visGroups d.groups).zip d.nodes))[g]? = some p ∧
        ((p.2.1.nsub ≠ 0 ∧ xdmfTopology p.2.1.cellType ≠ none) ↔
          0 < d.groups[g].nelements ∧ xdmfTopology d.groups[g].cellType ≠ none) := by
      intro g hg
      obtain ⟨v, _, h2, h3, _, h5⟩ := zip_groups_getElem? (d := d) (List.getElem?_eq_getElem hg)
        (List.getElem?_eq_getElem (by omega : g < d.nodes.length))
      refine ⟨_, List.mem_of_getElem? h5, h5, ?_⟩
      simp only [h2, h3]
      have := hrows d.groups[g]
      constructor
      · rintro ⟨a, b⟩
        refine ⟨?_, b⟩
        rcases Nat.eq_zero_or_pos d.groups[g].nelements with h0 | h0
        · rw [h0] at a; simp at a
        · exact h0
      · rintro ⟨a, b⟩
        exact ⟨(Nat.mul_pos a this).ne', b⟩
    constructor
    · intro h G hG
      obtain ⟨g, hg, rfl⟩ := List.mem_iff_getElem.1 hG
      obtain ⟨p, hp, _, hiff⟩ := key g hg
      exact hiff.1 (h p hp)
    · intro h p hp
      obtain ⟨g, hg, rfl⟩ := List.mem_iff_getElem.1 hp
      have hg' : g < d.groups.length := by
        rw [List.length_zip] at hg
        omega
      obtain ⟨q, _, hq2, hiff⟩ := key g hg'
      rw [List.getElem?_eq_getElem hg] at hq2
      cases hq2
      exact hiff.2 (h _ (List.getElem_mem hg'))
  have hnames : ∀ fs, xdmfFields d.conn d.sizes (preprocessFields c.fields) = .ok fs → ∀ g,
      ("Nodes" :: "Connectivity" :: (xdmfGroupFields c.realOnly fs g).map Prod.fst).Nodup := by
    intro fs hfs
    have hfst : fs.map Prod.fst = (preprocessFields c.fields).map Prod.fst := by
      have h := xdmfFields_ok.1 hfs
      clear hfields hfs
      generalize preprocessFields c.fields = ps at h
      induction h with
      | nil => rfl
      | cons h1 _ ih => simp [h1.1, ih]
    exact xdmfNames_nodup (hfst ▸ preprocess_names_sublist c.fields) hn hr hs
  rw [← hfields, ← hgroups]
  constructor
  · rintro ⟨out, h⟩
    obtain ⟨fs, h1, h2, h3, h4⟩ := xdmfGrids_ok h
    exact ⟨h1, ⟨fs, h2⟩, h3, (xdmfGridsFrom_defined (hnames fs h2)).1 ⟨out, h4⟩⟩
  · rintro ⟨h1, ⟨fs, h2⟩, h3, h4⟩
    obtain ⟨out, ho⟩ := (xdmfGridsFrom_defined (g0 := 0) (base := 0) (hnames fs h2)).2 h4
    refine ⟨out, ?_⟩
    simp only [xdmfGrids, xdmfPrepare, h1, h2, h3, Bool.false_eq_true, if_false, if_true]
    exact ho

/-- C78: the HDF5 file keeps its contents exactly if an exception is raised before it is opened; `overwrite` has no
influence. -/
theorem C78_file (d : XdmfDiscr K X P) (c : XdmfCall K X) (before : Option (XdmfFile K P)) :
    xdmfFile d c before = match xdmfGrids d c with
      | .ok l => some (.grids l)
      | .error .distributed => before
      | .error (.field _) => before
      | .error .dimension => before
      | .error _ => some .incomplete := by
  have hlate : ∀ (fs : List (String × List (NpField K))) (g0 base : Nat) (l : List (VisGroup × VisConnGroup × List P)) e,
      xdmfGridsFrom c.realOnly fs g0 base l = .error e → e = .reshape ∨ e = .topology ∨ e = .nameTaken := by
    intro fs g0 base l
    induction l generalizing g0 base with
    | nil => intro e h; simp [xdmfGridsFrom] at h
    | cons p l ih =>
      obtain ⟨G, v, nodes⟩ := p
      intro e h
      simp only [xdmfGridsFrom] at h
      split at h
      · cases h; simp
      split at h
      · cases h; simp
      split at h
      · cases hrec : xdmfGridsFrom c.realOnly fs (g0 + 1) (base + G.nelements * G.nunit) l with
        | error e' =>
          rw [hrec] at h
          cases h
          exact ih _ _ _ hrec
        | ok _ => rw [hrec] at h; cases h
      · cases h; simp
  simp only [xdmfFile, xdmfGrids]
  cases hp : xdmfPrepare d c with
  | error e =>
    simp only
    simp only [xdmfPrepare] at hp
    split at hp
    · cases hp; rfl
    split at hp
    · cases hp; rfl
    split at hp
    · cases hp
    · cases hp; rfl
  | ok fs =>
    simp only
    cases hg : xdmfGridsFrom c.realOnly fs 0 0 (d.groups.zip ((visGroups d.groups).zip d.nodes)) with
    | ok l => rfl
    | error e => rcases hlate fs 0 0 _ e hg with rfl | rfl | rfl <;> rfl

end

/-! ## Concrete cases -/

/-- Two groups: two lines, and one triangle. (Example, no code.) -/
def exXdmf : XdmfDiscr Int Nat (Int × Int) where
  ambientDim := 2
  groups := [⟨2, 2, [[0, 1]], 3⟩, ⟨1, 3, [[0, 1, 2]], 5⟩]
  nodes := [[(0, 0), (1, 0), (1, 0), (2, 0)], [(0, 5), (1, 5), (0, 6)]]
  conn
    | 0 => some (.real [[1, 2, 3, 4], [5, 6, 7]])
    | 1 => some (.cplx [[(1, -1), (2, -2), (3, -3), (4, -4)], [(5, -5), (6, -6), (7, -7)]])
    | _ => none

/-- A call with a mixed vector field. (Example, no code.) -/
def exXdmfCall : XdmfCall Int Nat :=
  ⟨[("u", .field (.val (.dof 0))), ("v", .field (.obj [.dof 0, .dof 1]))], false, false, false⟩

example : xdmfGrids exXdmf exXdmfCall = .ok
    [{ name := "Group_00000", nodes := [(0, 0), (1, 0), (1, 0), (2, 0)], conn := [[0, 1], [2, 3]],
       topology := .polyline,
       fields := [("u", .arr (.real [1, 2, 3, 4])), ("v_r", .obj [.real [1, 2, 3, 4], .real [1, 2, 3, 4]]),
         ("v_i", .obj [.real [0, 0, 0, 0], .real [-1, -2, -3, -4]])] },
     { name := "Group_00001", nodes := [(0, 5), (1, 5), (0, 6)], conn := [[0, 1, 2]], topology := .triangle,
       fields := [("u", .arr (.real [5, 6, 7])), ("v_r", .obj [.real [5, 6, 7], .real [5, 6, 7]]),
         ("v_i", .obj [.real [0, 0, 0], .real [-5, -6, -7]])] }] := by decide +kernel

-- The hypotheses of `C78_points` and `C78_defined`.
example : exXdmf.nodes.map List.length = exXdmf.sizes ∧
    (∀ G ∈ exXdmf.groups, ∀ row ∈ G.rows, ∀ k ∈ row, k < G.nunit) ∧
    (givenNames exXdmfCall.fields).Nodup ∧ "Nodes" ∉ givenNames exXdmfCall.fields ∧
    "Connectivity" ∉ givenNames exXdmfCall.fields ∧
    ∀ a ∈ givenNames exXdmfCall.fields, ∀ b ∈ givenNames exXdmfCall.fields, a ≠ b ++ "_r" ∧ a ≠ b ++ "_i" := by
  decide +kernel

/-- C78: a field called `Nodes` is not written, and what was in the file before is lost, although `overwrite` is
false. -/
theorem C78_overwrite_counterexample : ∃ c : XdmfCall Int Nat, c.overwrite = false ∧ (givenNames c.fields).Nodup ∧
    xdmfGrids exXdmf c = .error .nameTaken ∧ xdmfFile exXdmf c (some (.grids [])) = some .incomplete :=
  ⟨⟨[("Nodes", .field (.val (.dof 0)))], false, false, false⟩, rfl, by decide +kernel, by decide +kernel,
    by decide +kernel⟩

/-- C78: a group without elements raises an exception. -/
theorem C78_empty_group_counterexample :
    xdmfGrids { exXdmf with groups := [⟨0, 3, [[0, 1, 2]], 5⟩], nodes := [([] : List (Int × Int))] } ⟨[], false, false, false⟩ =
      .error .reshape := by decide +kernel

end Meshmode
