import Verif.Vis.Connectivity
import Verif.Vis.Fields
import Mathlib.Data.List.Perm.Basic
import Mathlib.Algebra.Order.BigOperators.Group.List

/-!
# VTKHDF files written by several ranks (C77)

`Visualizer.write_vtkhdf_file`, meshmode/discretization/visualization.py:940-1105.  Data sets are lists of rows, which
the ranks fill in any order; `comm.scan` and `comm.allreduce` give sums.  The names and values of fields are C76.
-/
namespace Meshmode

/-! ## Model -/

/-- Exceptions. Code: meshmode/discretization/visualization.py:978-981, 984-985, 1035-1044. -/
inductive HdfErr where
  /-- `ValueError` of `hstack`: no groups -/
  | noGroups
  /-- the assertion on cell types -/
  | cellTypes
  /-- `IndexError` on writing the connectivity, after the connectivity was taken apart as if it were a tuple -/
  | unpacked
  /-- `ValueError` of `np.vectorize` for arrays of size zero -/
  | vectorize
  /-- `TypeError`: cell types without a number of nodes -/
  | cellCount
  deriving DecidableEq, Repr

/-- `cell_count`, `cell_connectivity`, `cell_offsets` and `cell_types`. Code:
meshmode/discretization/visualization.py:1033-1044. -/
structure HdfLocal where
  count : Nat
  conn : List Nat
  offsets : List Nat
  types : List Nat
  deriving DecidableEq, Repr

/-- The connectivity of one rank, meshmode/discretization/visualization.py:1032-1044; `nodeCount` is
`CELL_NODE_COUNT`.  Without high order `cells` is an array, and taking it apart raises an exception, as is expected,
unless it has three entries: then `cell_connectivity` becomes a number, and writing it fails (lines 1020, 1085). -/
def hdfLocal (nodeCount : Nat → Option Nat) (high : Bool) (gs : List VisGroup) : Except HdfErr HdfLocal :=
  match visCellTypes gs with
  | none => .error .cellTypes
  | some types =>
    match visCells gs with
    | none => .error .noGroups
    | some conn =>
      if high then .ok ⟨(gs.map VisGroup.nelements).sum, conn, 0 :: lagrangeOffsets gs, types⟩
      else if conn.length = 3 then .error .unpacked
      else if types = [] then .error .vectorize
      else match types.mapM nodeCount with
        | none => .error .cellCount
        | some ns => .ok ⟨types.length, conn, cumsum (0 :: ns), types⟩

section
variable {α : Type}

/-- `dset[offset:offset + data.shape[0]] = data`, meshmode/discretization/visualization.py:1020. -/
def putSlice (ds : List α) (offset : Nat) (data : List α) : List α :=
  ds.take offset ++ data ++ ds.drop (offset + data.length)

/-- `comm.scan(count) - count` on a rank; `scan` is the sum up to and with the rank,
meshmode/discretization/visualization.py:1064-1066. -/
def scanOffset (counts : List Nat) (rank : Nat) : Nat := (counts.take (rank + 1)).sum - counts.getD rank 0

/-- A data set after all ranks wrote their part, in the given order; `offset` depends on the rank. Code:
meshmode/discretization/visualization.py:1011-1022, 1075-1091. -/
def hdfDataset (order : List Nat) (init : List α) (offset : Nat → Nat) (pieces : List (List α)) : List α :=
  order.foldl (fun ds r => putSlice ds (offset r) (pieces.getD r [])) init

/-- Padding of points and vectors to three components, meshmode/discretization/visualization.py:1012-1017. -/
def padRow [Zero α] (row : List α) : List α :=
  if row.length < 3 then row ++ List.replicate (3 - row.length) 0 else row

end

/-- The arrays of a file, meshmode/discretization/visualization.py:1075-1091. -/
structure HdfFile (R : Type) where
  numCells : List Nat
  numPoints : List Nat
  numConn : List Nat
  points : List R
  conn : List Nat
  offsets : List Nat
  types : List Nat
  deriving DecidableEq, Repr

/-- The part of one rank: connectivity and the rows of points (or of a field).
Code: meshmode/discretization/visualization.py:1028, 1050-1051. -/
structure HdfPiece (R : Type) where
  loc : HdfLocal
  rows : List R
  deriving DecidableEq, Repr

/-- The file after all ranks wrote their parts, meshmode/discretization/visualization.py:1048-1091.  `order i` is the
order in which the ranks write data set `i`; `fill` and `fillRow` are what new data sets contain. -/
def hdfFile {R : Type} (order : Nat → List Nat) (fill : Nat) (fillRow : R) (ps : List (HdfPiece R)) : HdfFile R :=
  let cells := ps.map fun p => p.loc.count
  let points := ps.map fun p => p.rows.length
  let conns := ps.map fun p => p.loc.conn.length
  let n := ps.length
  { numCells := hdfDataset (order 0) (List.replicate n fill) id (cells.map fun c => [c])
    numPoints := hdfDataset (order 1) (List.replicate n fill) id (points.map fun c => [c])
    numConn := hdfDataset (order 2) (List.replicate n fill) id (conns.map fun c => [c])
    points := hdfDataset (order 3) (List.replicate points.sum fillRow) (scanOffset points) (ps.map HdfPiece.rows)
    conn := hdfDataset (order 4) (List.replicate conns.sum fill) (scanOffset conns) (ps.map fun p => p.loc.conn)
    offsets := hdfDataset (order 5) (List.replicate (cells.sum + n) fill) (fun r => scanOffset cells r + r)
      (ps.map fun p => p.loc.offsets)
    types := hdfDataset (order 6) (List.replicate cells.sum fill) (scanOffset cells) (ps.map fun p => p.loc.types) }

/-- The options of the caller: `comm` and `driver`, if present. Code:
meshmode/discretization/visualization.py:970-981. -/
structure HdfOptions where
  comm : Option Nat
  driver : Option String
  deriving DecidableEq, Repr

/-- The dictionary `h5_file_options` after the first lines of the function, meshmode/discretization/visualization.py:970-981;
`none` is the `ValueError`.  It is the dictionary of the caller that is changed. -/
def hdfOptions (comm : Option Nat) (o : HdfOptions) : Option HdfOptions :=
  match comm with
  | none => some o
  | some c =>
    match o.driver with
    | none => some ⟨some c, some "mpio"⟩
    | some d => if d = "mpio" then some ⟨some c, some d⟩ else none

/-- Files by name before and after the call: the file is opened for writing, meshmode/discretization/visualization.py:945,
1024. -/
def hdfFiles {F : Type} (files : String → Option F) (name : String) (_overwrite : Bool) (content : F) :
    String → Option F :=
  fun n => if n = name then some content else files n

/-! ## Specification -/

/-- A part of a data set. (Specification or proof vocabulary, no code.) -/
def readSlice {α : Type} (l : List α) (a n : Nat) : List α := (l.drop a).take n

/-- How readers find the part of a rank, by the documentation of the format: the parts follow one after the other, with
the sizes that `NumberOf…` say, and the offsets have one entry more per part than there are cells.
(Specification or proof vocabulary, no code.) -/
def HdfFile.Reads {R : Type} (f : HdfFile R) (r : Nat) (rows : List R) (conn offsets types : List Nat) : Prop :=
  ∃ nc np nk, f.numCells[r]? = some nc ∧ f.numPoints[r]? = some np ∧ f.numConn[r]? = some nk ∧
    rows = readSlice f.points (f.numPoints.take r).sum np ∧
    conn = readSlice f.conn (f.numConn.take r).sum nk ∧
    offsets = readSlice f.offsets ((f.numCells.take r).sum + r) (nc + 1) ∧
    types = readSlice f.types (f.numCells.take r).sum nc

/-- Offsets and types fit to the number of cells. (Specification or proof vocabulary, no code.) -/
def HdfLocal.Fits (l : HdfLocal) : Prop := l.offsets.length = l.count + 1 ∧ l.types.length = l.count

/-- The cells of a group have as many nodes as their type says. (Specification or proof vocabulary, no code.) -/
def VisGroup.Sized (nodeCount : Nat → Option Nat) (G : VisGroup) : Prop :=
  ∀ r ∈ G.rows, nodeCount G.cellType = some r.length

/-! ## Proofs -/

section
variable {α : Type}

theorem scanOffset_eq (counts : List Nat) {r : Nat} (hr : r < counts.length) :
    scanOffset counts r = (counts.take r).sum := by
  simp only [scanOffset, List.take_add_one, List.sum_append, List.getElem?_eq_getElem hr, Option.toList_some,
    List.sum_singleton, List.getD_eq_getElem?_getD, Option.getD_some]
  omega

theorem length_putSlice {ds : List α} {o : Nat} {data : List α} (h : o + data.length ≤ ds.length) :
    (putSlice ds o data).length = ds.length := by
  simp only [putSlice, List.length_append, List.length_take, List.length_drop]
  omega

theorem getElem?_putSlice {ds : List α} {o : Nat} {data : List α} (h : o + data.length ≤ ds.length) (i : Nat) :
    (putSlice ds o data)[i]? = if o ≤ i ∧ i < o + data.length then data[i - o]? else ds[i]? := by
  simp only [putSlice]
  by_cases h1 : i < o
  · rw [if_neg (by omega), List.append_assoc, List.getElem?_append_left (by simp; omega), List.getElem?_take,
      if_pos h1]
  · by_cases h2 : i < o + data.length
    · rw [if_pos ⟨by omega, h2⟩, List.getElem?_append_left (by simp; omega),
        List.getElem?_append_right (by simp; omega)]
      congr 1
      simp
      omega
    · rw [if_neg (by omega), List.getElem?_append_right (by simp; omega), List.getElem?_drop]
      congr 1
      simp
      omega

theorem piece_end_le {L : List (List α)} {r : Nat} :
    ((L.map List.length).take r).sum + (L.getD r []).length ≤ (L.map List.length).sum := by
  induction L generalizing r with
  | nil => simp
  | cons l L ih =>
    cases r with
    | zero => simp
    | succ r =>
      have := ih (r := r)
      simp only [List.map_cons, List.take_succ_cons, List.sum_cons, List.getD_cons_succ]
      omega

theorem pieces_disjoint {L : List (List α)} {r s i : Nat} (hrs : r < s)
    (h1 : i < ((L.map List.length).take r).sum + (L.getD r []).length) :
    i < ((L.map List.length).take s).sum := by
  have hm : ((L.map List.length).take (r + 1)).sum ≤ ((L.map List.length).take s).sum := by
    have h2 : ((L.map List.length).take s).take (r + 1) = (L.map List.length).take (r + 1) := by
      rw [List.take_take, min_eq_left hrs]
    rw [← h2]
    exact (List.take_sublist _ _).sum_le_sum (by simp)
  by_cases hr : r < L.length
  · rw [List.take_add_one, List.sum_append, List.getElem?_map, List.getElem?_eq_getElem hr] at hm
    simp only [List.getD_eq_getElem?_getD, List.getElem?_eq_getElem hr, Option.getD_some] at h1
    simp only [Option.map_some, Option.toList_some, List.sum_singleton] at hm
    omega
  · have : L.getD r [] = [] := by
      rw [List.getD_eq_getElem?_getD, List.getElem?_eq_none (by omega)]; rfl
    rw [this] at h1
    have hm2 : ((L.map List.length).take r).sum ≤ ((L.map List.length).take (r + 1)).sum := by
      have h2 : ((L.map List.length).take (r + 1)).take r = (L.map List.length).take r := by
        rw [List.take_take, min_eq_left (by omega)]
      rw [← h2]
      exact (List.take_sublist _ _).sum_le_sum (by simp)
    simp at h1
    omega

/-- Writing the parts in any order gives them one after the other. -/
theorem hdfDataset_eq {order : List Nat} {L : List (List α)} {init : List α} {offset : Nat → Nat}
    (ho : order.Perm (List.range L.length)) (hi : init.length = (L.map List.length).sum)
    (hoff : ∀ r, r < L.length → offset r = ((L.map List.length).take r).sum) :
    hdfDataset order init offset L = L.flatten := by
  have hlt : ∀ r ∈ order, r < L.length := fun r hr => List.mem_range.1 (ho.mem_iff.1 hr)
  have key : ∀ (os : List Nat) (ds : List α), (∀ r ∈ os, r < L.length) → os.Nodup →
      ds.length = (L.map List.length).sum →
      (os.foldl (fun ds r => putSlice ds (offset r) (L.getD r [])) ds).length = (L.map List.length).sum ∧
      ∀ i, ((∀ r ∈ os, ¬ (((L.map List.length).take r).sum ≤ i ∧
              i < ((L.map List.length).take r).sum + (L.getD r []).length)) →
            (os.foldl (fun ds r => putSlice ds (offset r) (L.getD r [])) ds)[i]? = ds[i]?) ∧
        ∀ r ∈ os, ((L.map List.length).take r).sum ≤ i →
            i < ((L.map List.length).take r).sum + (L.getD r []).length →
            (os.foldl (fun ds r => putSlice ds (offset r) (L.getD r [])) ds)[i]? =
              (L.getD r [])[i - ((L.map List.length).take r).sum]? := by
    intro os
    induction os with
    | nil => intro ds _ _ hl; exact ⟨hl, fun i => ⟨by simp, by simp⟩⟩
    | cons s os ih =>
      intro ds hlt hnd hl
      rw [List.nodup_cons] at hnd
      have hs := hoff s (hlt s (by simp))
      have hfit : offset s + (L.getD s []).length ≤ ds.length := by
        rw [hs, hl]; exact piece_end_le
      have hl' : (putSlice ds (offset s) (L.getD s [])).length = (L.map List.length).sum := by
        rw [length_putSlice hfit, hl]
      obtain ⟨h1, h2⟩ := ih _ (fun r hr => hlt r (by simp [hr])) hnd.2 hl'
      simp only [List.foldl_cons]
      refine ⟨h1, fun i => ⟨fun hno => ?_, fun r hr ha hb => ?_⟩⟩
      · rw [(h2 i).1 fun r hr => hno r (by simp [hr]), getElem?_putSlice hfit, if_neg]
        rw [hs]
        exact hno s (by simp)
      · rcases List.mem_cons.1 hr with rfl | hr
        · rw [(h2 i).1, getElem?_putSlice hfit, if_pos (by rw [hs]; exact ⟨ha, hb⟩), hs]
          intro r' hr' hin
          rcases lt_trichotomy r r' with h | h | h
          · have := pieces_disjoint h hb; omega
          · subst h; exact hnd.1 hr'
          · have := pieces_disjoint h hin.2; omega
        · exact (h2 i).2 r hr ha hb
  obtain ⟨hlen, hget⟩ := key order init hlt (ho.nodup_iff.2 List.nodup_range) hi
  apply List.ext_getElem?
  intro i
  by_cases hiN : i < L.flatten.length
  · -- find the part
    obtain ⟨r, hr, h1, h2⟩ : ∃ r, r < L.length ∧ ((L.map List.length).take r).sum ≤ i ∧
        i < ((L.map List.length).take r).sum + (L.getD r []).length := by
      clear hget hlen key hlt ho hoff hi
      induction L generalizing i with
      | nil => simp at hiN
      | cons l L ih =>
        by_cases hl : i < l.length
        · exact ⟨0, by simp, by simp, by simpa using hl⟩
        · rw [List.flatten_cons, List.length_append] at hiN
          obtain ⟨r, hr, h1, h2⟩ := ih (i - l.length) (by omega)
          refine ⟨r + 1, by simp; omega, ?_, ?_⟩
          · simp only [List.map_cons, List.take_succ_cons, List.sum_cons]; omega
          · simp only [List.map_cons, List.take_succ_cons, List.sum_cons, List.getD_cons_succ]; omega
    have hro : r ∈ order := ho.mem_iff.2 (List.mem_range.2 hr)
    have hq := (hget i).2 r hro h1 h2
    simp only [hdfDataset]
    rw [hq]
    have hrow : L[r]? = some (L.getD r []) := by
      rw [List.getD_eq_getElem?_getD, List.getElem?_eq_getElem hr]; rfl
    have hj : i - ((L.map List.length).take r).sum < (L.getD r []).length := by omega
    have := flatten_getElem?_take hrow hj
    rw [← this]
    congr 1
    omega
  · rw [List.getElem?_eq_none (by rw [hdfDataset, hlen, ← List.length_flatten]; omega),
      List.getElem?_eq_none (by omega)]

theorem readSlice_flatten {L : List (List α)} {r : Nat} {row : List α} (h : L[r]? = some row) :
    readSlice L.flatten ((L.map List.length).take r).sum row.length = row := by
  apply List.ext_getElem?
  intro j
  simp only [readSlice, List.getElem?_take, List.getElem?_drop]
  split
  · rename_i hj
    exact flatten_getElem?_take h hj
  · rename_i hj
    rw [List.getElem?_eq_none (by omega)]

end

variable {R : Type}

theorem singles_length (l : List Nat) : (l.map fun c => [c]).map List.length = l.map fun _ => 1 := by
  rw [List.map_map]
  rfl

theorem hdfDataset_singles {order : List Nat} {l : List Nat} {fill : Nat} (ho : order.Perm (List.range l.length)) :
    hdfDataset order (List.replicate l.length fill) id (l.map fun c => [c]) = l := by
  rw [hdfDataset_eq]
  · clear ho
    induction l with
    | nil => rfl
    | cons a l ih => simpa using ih
  · simpa using ho
  · rw [singles_length]
    simp
  · intro r hr
    rw [List.length_map] at hr
    simp only [singles_length, ← List.map_take, id]
    simp
    omega

theorem take_map_succ_sum (l : List Nat) {r : Nat} (hr : r ≤ l.length) :
    ((l.map (· + 1)).take r).sum = (l.take r).sum + r := by
  induction l generalizing r with
  | nil => simp at hr; subst hr; simp
  | cons a l ih =>
    cases r with
    | zero => simp
    | succ r =>
      simp only [List.map_cons, List.take_succ_cons, List.sum_cons]
      rw [ih (by simpa using hr)]
      omega

/-- C77: whatever the order in which the ranks write, and whatever was in the new data sets, the arrays of the file are
those of the ranks one after the other. -/
theorem C77_file {ps : List (HdfPiece R)} (hf : ∀ p ∈ ps, p.loc.Fits) {order : Nat → List Nat}
    (ho : ∀ i, (order i).Perm (List.range ps.length)) (fill : Nat) (fillRow : R) :
    hdfFile order fill fillRow ps =
      { numCells := ps.map fun p => p.loc.count
        numPoints := ps.map fun p => p.rows.length
        numConn := ps.map fun p => p.loc.conn.length
        points := ps.flatMap HdfPiece.rows
        conn := ps.flatMap fun p => p.loc.conn
        offsets := ps.flatMap fun p => p.loc.offsets
        types := ps.flatMap fun p => p.loc.types } := by
  have hs : ∀ (f : HdfPiece R → Nat) (i : Nat), hdfDataset (order i) (List.replicate ps.length fill) id
      ((ps.map f).map fun c => [c]) = ps.map f := by
    intro f i
    have := hdfDataset_singles (l := ps.map f) (fill := fill) (order := order i) (by simpa using ho i)
    simpa using this
  have hd : ∀ {α : Type} (g : HdfPiece R → List α) (c : HdfPiece R → Nat) (x : α) (i : Nat),
      (∀ p ∈ ps, (g p).length = c p) →
      hdfDataset (order i) (List.replicate (ps.map c).sum x) (scanOffset (ps.map c)) (ps.map g) =
        ps.flatMap g := by
    intro α g c x i hc
    have hm : (ps.map g).map List.length = ps.map c := by
      rw [List.map_map]
      exact List.map_congr_left fun p hp => hc p hp
    rw [hdfDataset_eq, List.flatMap_def]
    · simpa using ho i
    · rw [hm]; simp
    · intro r hr
      rw [hm, scanOffset_eq]
      simpa using hr
  have hoffs : hdfDataset (order 5) (List.replicate ((ps.map fun p => p.loc.count).sum + ps.length) fill)
      (fun r => scanOffset (ps.map fun p => p.loc.count) r + r) (ps.map fun p => p.loc.offsets) =
      ps.flatMap fun p => p.loc.offsets := by
    have hm : (ps.map fun p => p.loc.offsets).map List.length = (ps.map fun p => p.loc.count).map (· + 1) := by
      rw [List.map_map, List.map_map]
      exact List.map_congr_left fun p hp => (hf p hp).1
    rw [hdfDataset_eq, List.flatMap_def]
    · simpa using ho 5
    · have := take_map_succ_sum (ps.map fun p => p.loc.count) (r := ps.length) (by simp)
      rw [List.take_of_length_le (by simp), List.take_of_length_le (by simp)] at this
      rw [hm, this]
      simp
    · intro r hr
      rw [List.length_map] at hr
      rw [hm, scanOffset_eq _ (by simpa using hr), take_map_succ_sum _ (by simp; omega)]
  simp only [hdfFile]
  rw [hs, hs, hs, hd _ _ _ _ (fun _ _ => rfl), hd _ _ _ _ (fun _ _ => rfl), hoffs,
    hd _ _ _ _ (fun p hp => (hf p hp).2)]

/-- C77: readers find for each rank exactly what it wrote. -/
theorem C77_round_trip {ps : List (HdfPiece R)} (hf : ∀ p ∈ ps, p.loc.Fits) {order : Nat → List Nat}
    (ho : ∀ i, (order i).Perm (List.range ps.length)) (fill : Nat) (fillRow : R) {r : Nat} {p : HdfPiece R}
    (hp : ps[r]? = some p) {rows : List R} {conn offsets types : List Nat} :
    (hdfFile order fill fillRow ps).Reads r rows conn offsets types ↔
      rows = p.rows ∧ conn = p.loc.conn ∧ offsets = p.loc.offsets ∧ types = p.loc.types := by
  rw [C77_file hf ho]
  have hpf := hf p (List.mem_of_getElem? hp)
  have hs : ∀ {α : Type} (g : HdfPiece R → List α),
      readSlice (ps.flatMap g) ((ps.map fun p => (g p).length).take r).sum (g p).length = g p := by
    intro α g
    have := readSlice_flatten (L := ps.map g) (r := r) (row := g p) (by rw [List.getElem?_map, hp]; rfl)
    rw [List.map_map] at this
    rw [List.flatMap_def]
    exact this
  have hr : r < ps.length := (List.getElem?_eq_some_iff.1 hp).1
  have ho' : ps.map (fun p => p.loc.offsets.length) = (ps.map fun p => p.loc.count).map (· + 1) := by
    rw [List.map_map]
    exact List.map_congr_left fun p hp => (hf p hp).1
  have ht' : ps.map (fun p => p.loc.types.length) = ps.map fun p => p.loc.count :=
    List.map_congr_left fun p hp => (hf p hp).2
  have e1 := hs HdfPiece.rows
  have e2 := hs fun p => p.loc.conn
  have e3 := hs fun p => p.loc.offsets
  have e4 := hs fun p => p.loc.types
  rw [ho', take_map_succ_sum _ (by simp; omega), hpf.1] at e3
  rw [ht', hpf.2] at e4
  simp only [HdfFile.Reads]
  constructor
  · rintro ⟨nc, np, nk, h1, h2, h3, rfl, rfl, rfl, rfl⟩
    rw [List.getElem?_map, hp] at h1 h2 h3
    cases h1
    cases h2
    cases h3
    exact ⟨e1, e2, e3, e4⟩
  · rintro ⟨rfl, rfl, rfl, rfl⟩
    refine ⟨p.loc.count, p.rows.length, p.loc.conn.length, ?_, ?_, ?_, e1.symm, e2.symm, e3.symm, e4.symm⟩ <;>
      rw [List.getElem?_map, hp] <;> rfl

theorem allCells_lengths (gs : List VisGroup) :
    (allCells gs).map List.length =
      gs.flatMap fun G => (List.range G.nelements).flatMap fun _ => G.rows.map List.length := by
  have key : ∀ (l : List VisGroup) (n : Nat) (f : Nat → Nat),
      ((l.zipIdx n).flatMap fun p => groupCells (f p.2) p.1).map List.length =
        l.flatMap fun G => (List.range G.nelements).flatMap fun _ => G.rows.map List.length := by
    intro l
    induction l with
    | nil => intro n f; rfl
    | cons G l ih =>
      intro n f
      rw [List.zipIdx_cons, List.flatMap_cons, List.map_append, ih, List.flatMap_cons]
      congr 1
      simp only [groupCells, List.map_flatMap, List.map_map]
      apply List.flatMap_congr
      intro e _
      apply List.map_congr_left
      intro r _
      simp
  exact key gs 0 _

theorem types_counts {nodeCount : Nat → Option Nat} {gs : List VisGroup} (hs : ∀ G ∈ gs, G.Sized nodeCount) :
    (gs.flatMap fun G => List.replicate (G.nelements * G.rows.length) G.cellType).mapM nodeCount =
      some ((allCells gs).map List.length) := by
  rw [allCells_lengths]
  have h1 : ∀ t ∈ gs.flatMap (fun G => List.replicate (G.nelements * G.rows.length) G.cellType),
      nodeCount t = some ((nodeCount t).getD 0) := by
    intro t ht
    obtain ⟨G, hG, h⟩ := List.mem_flatMap.1 ht
    obtain ⟨hne, rfl⟩ := List.mem_replicate.1 h
    have : G.rows ≠ [] := by
      rintro h0
      rw [h0] at hne
      simp at hne
    obtain ⟨r, hr⟩ := List.exists_mem_of_ne_nil _ this
    rw [hs G hG r hr]
    rfl
  rw [mapM_some_eq_map h1, List.map_flatMap]
  congr 1
  apply List.flatMap_congr
  intro G hG
  rw [List.map_replicate]
  have h2 : G.rows.map List.length = List.replicate G.rows.length ((nodeCount G.cellType).getD 0) := by
    rw [List.eq_replicate_iff]
    refine ⟨by simp, fun k hk => ?_⟩
    obtain ⟨r, hr, rfl⟩ := List.mem_map.1 hk
    rw [hs G hG r hr]
    rfl
  rw [h2]
  generalize (nodeCount G.cellType).getD 0 = k
  generalize G.rows.length = m
  induction G.nelements with
  | zero => simp
  | succ n ih =>
    rw [List.range_succ, List.flatMap_append, ← ih, Nat.succ_mul]
    simp [List.replicate_append_replicate]

/-- C77: when the connectivity of a rank is found (linear cells): there are cells, and their numbers of nodes do not
add up to three. -/
theorem C77_local_defined {nodeCount : Nat → Option Nat} {gs : List VisGroup} (hg : gs ≠ [])
    (ht : ∀ G ∈ gs, G.cellType < 255) (hs : ∀ G ∈ gs, G.Sized nodeCount) :
    (∃ l, hdfLocal nodeCount false gs = .ok l) ↔ allCells gs ≠ [] ∧ (allCells gs).flatten.length ≠ 3 := by
  obtain ⟨types, h1, h2, h3⟩ := C43_cell_types ht
  simp only [hdfLocal, h1, C43_flat hg, Bool.false_eq_true, if_false]
  have he : types = [] ↔ allCells gs = [] := by
    rw [← List.length_eq_zero_iff, h3, List.length_eq_zero_iff]
  split
  · rename_i h
    simp only [reduceCtorEq, exists_false, false_iff, not_and, not_not]
    exact fun _ => h
  · rename_i h
    split
    · rename_i h0
      simp [he.1 h0]
    · rename_i h0
      rw [h2, types_counts hs]
      simp only [Except.ok.injEq, exists_eq', true_iff]
      exact ⟨fun h' => h0 (he.2 h'), h⟩

/-- C77: the connectivity of a rank: cell `c` is found between the offsets `c` and `c + 1`, there is one type per cell,
and sizes fit. -/
theorem C77_local {nodeCount : Nat → Option Nat} {high : Bool} {gs : List VisGroup} {l : HdfLocal}
    (ht : ∀ G ∈ gs, G.cellType < 255)
    (hs : ∀ G ∈ gs, if high then IsLagrange G else G.Sized nodeCount)
    (h : hdfLocal nodeCount high gs = .ok l) :
    l.Fits ∧ l.count = (allCells gs).length ∧ (∀ c, csrRow l.offsets l.conn c = (allCells gs)[c]?) ∧
      l.types = gs.flatMap fun G => List.replicate (G.nelements * G.rows.length) G.cellType := by
  obtain ⟨types, h1, h2, h3⟩ := C43_cell_types ht
  have hg : gs ≠ [] := by
    rintro rfl
    simp [hdfLocal, h1, visCells] at h
  simp only [hdfLocal, h1, C43_flat hg] at h
  cases high with
  | true =>
    simp only [if_true] at h hs
    cases h
    obtain ⟨a1, a2, a3⟩ := C43_lagrange hs
    refine ⟨⟨?_, ?_⟩, a1.symm, a3, h2⟩
    · rw [a2, List.length_cons, ← a1]
      simp [cumsum, length_cumsumFrom]
    · rw [h3, a1]
  | false =>
    simp only [Bool.false_eq_true, if_false] at h hs
    split at h
    · cases h
    · split at h
      · cases h
      · have hm : types.mapM nodeCount = some ((allCells gs).map List.length) := by
          rw [h2]; exact types_counts hs
        rw [hm] at h
        cases h
        refine ⟨⟨?_, rfl⟩, h3, fun c => csrRow_of_rows _ c, h2⟩
        simp [cumsum, length_cumsumFrom, h3]

/-- C77: points and vectors of up to three components become three, the missing ones zero. -/
theorem C77_padding {α : Type} [Zero α] (row : List α) (h : row.length ≤ 3) :
    (padRow row).length = 3 ∧ ∀ (i : Nat), i < 3 → (padRow row)[i]? = some (row.getD i 0) := by
  simp only [padRow]
  split
  · refine ⟨by simp; omega, fun i hi => ?_⟩
    by_cases hlt : i < row.length
    · rw [List.getElem?_append_left hlt]
      simp [hlt]
    · rw [List.getElem?_append_right (by omega), List.getElem?_replicate, if_pos (by omega)]
      simp [List.getElem?_eq_none (Nat.le_of_not_lt hlt)]
  · have : row.length = 3 := by omega
    refine ⟨this, fun i hi => ?_⟩
    simp [this, hi]

/-! ## Concrete cases -/

/-- Numbers of nodes of lines, triangles, quadrilaterals and tetrahedra. (Example, no code.) -/
def exNodeCount : Nat → Option Nat
  | 3 => some 2
  | 5 => some 3
  | 9 => some 4
  | 10 => some 4
  | _ => none

/-- Two triangles of order one. (Example, no code.) -/
def exTwoTris : VisGroup := ⟨2, 3, [[0, 1, 2]], 5⟩

example : hdfLocal exNodeCount false [exTwoTris] = .ok ⟨2, [0, 1, 2, 3, 4, 5], [0, 3, 6], [5, 5]⟩ := by
  decide +kernel

-- The hypotheses of `C77_local`.
example : (∀ G ∈ [exTwoTris], G.cellType < 255) ∧ exTwoTris.Sized exNodeCount ∧ IsLagrange exTwoTris := by
  refine ⟨by decide, ?_, ⟨[0, 1, 2], rfl, rfl⟩⟩
  simp [VisGroup.Sized, VisGroup.rows, exTwoTris, exNodeCount]

/-- Three ranks. (Example, no code.) -/
def exPieces : List (HdfPiece (List Int)) :=
  [⟨⟨1, [0, 1, 2, 3], [0, 4], [9]⟩, [[0, 0], [1, 0], [0, 1], [1, 1]]⟩,
   ⟨⟨2, [0, 1, 1, 2], [0, 2, 4], [3, 3]⟩, [[5, 5], [6, 6], [7, 7]]⟩,
   ⟨⟨1, [1, 0], [0, 2], [3]⟩, [[8, 8], [9, 9]]⟩]

example : (∀ p ∈ exPieces, p.loc.Fits) ∧ [2, 0, 1].Perm (List.range exPieces.length) := by
  refine ⟨?_, by decide⟩
  simp [exPieces, HdfLocal.Fits]

example : (hdfFile (fun _ => [2, 0, 1]) 77 [] exPieces).offsets = [0, 4, 0, 2, 4, 0, 2] ∧
    (hdfFile (fun _ => [2, 0, 1]) 77 [] exPieces).types = [9, 3, 3, 3] := by decide +kernel

/-- C77: a mesh of one linear triangle is not written. -/
theorem C77_triangle_counterexample : ∃ G : VisGroup, G.Sized exNodeCount ∧ G.cellType = 5 ∧ G.nelements = 1 ∧
    (allCells [G]) = [[0, 1, 2]] ∧ hdfLocal exNodeCount false [G] = .error .unpacked := by
  refine ⟨⟨1, 3, [[0, 1, 2]], 5⟩, ?_, rfl, rfl, by decide +kernel, by decide +kernel⟩
  simp [VisGroup.Sized, VisGroup.rows, exNodeCount]

/-- C77: a rank without elements raises an exception. -/
theorem C77_empty_counterexample : hdfLocal exNodeCount false [⟨0, 3, [[0, 1, 2]], 5⟩] = .error .vectorize := by
  decide +kernel

/-- C77: the options of the caller are changed exactly if there is a communicator that they do not have, or if they
have no driver. -/
theorem C77_options_iff {comm : Option Nat} {o o' : HdfOptions} (h : hdfOptions comm o = some o') :
    o' = o ↔ comm = none ∨ (o.comm = comm ∧ o.driver = some "mpio") := by
  obtain ⟨oc, od⟩ := o
  rcases comm with _ | c
  · simp only [hdfOptions, Option.some.injEq] at h
    simp [h]
  · rcases od with _ | d
    · simp only [hdfOptions, Option.some.injEq] at h
      subst h
      simp
    · simp only [hdfOptions] at h
      split at h
      · rename_i hd
        subst hd
        simp only [Option.some.injEq] at h
        subst h
        simp [eq_comm]
      · cases h

/-- C77: options of the caller are changed. -/
theorem C77_options_counterexample : ∃ o o', hdfOptions (some 1) o = some o' ∧ o' ≠ o :=
  ⟨⟨none, none⟩, _, rfl, by decide⟩

/-- C77: an existing file is replaced although `overwrite` is false. -/
theorem C77_overwrite_counterexample : ∃ files : String → Option Nat, files "a.hdf" = some 1 ∧
    hdfFiles files "a.hdf" false 2 "a.hdf" = some 2 := ⟨fun _ => some 1, rfl, rfl⟩

end Meshmode
