import Verif.Np
import Mathlib.Data.List.Basic
import Mathlib.Data.List.Nodup
import Mathlib.Data.List.Induction

/-!
# Visualization files of several ranks (C79)

`Visualizer.write_parallel_vtk_file` and the part of `Visualizer.write_vtk_file` that writes files,
meshmode/discretization/visualization.py:721-776, 887-932.  Ranks run at the same time: a schedule says whose turn it
is.  Looking for a file and writing a file are steps; what a file contains is opaque, except for the names in
manifests.
-/
namespace Meshmode

variable {C : Type}

/-! ## Model -/

/-- Contents of files: the data of a rank, or a manifest with names relative to its directory.
Code: meshmode/discretization/visualization.py:910-915, 922-928. -/
inductive VtkFile (C : Type) where
  | piece (c : C)
  | manifest (names : List (List String))
  deriving DecidableEq, Repr

/-- Exceptions. Code: meshmode/discretization/visualization.py:763-765, 899, 907-908, 919-920. -/
inductive VtkErr where
  /-- `FileExistsError` -/
  | exists (name : String)
  /-- `ValueError`: files of other ranks without a name for the manifest -/
  | noManifest
  /-- `ValueError`: the pattern does not give names ending in `.vtu` -/
  | extension
  deriving DecidableEq, Repr

/-- Steps that have to do with files. Code: meshmode/discretization/visualization.py:894-930. -/
inductive FsOp (C : Type) where
  /-- raise an exception if the file exists -/
  | refuse (name : String)
  /-- open with `"w"` and write -/
  | write (name : String) (c : VtkFile C)
  /-- raise the `ValueError` -/
  | fail
  deriving DecidableEq, Repr

/-- `par_file_names and par_file_names[0] == file_name`, meshmode/discretization/visualization.py:891-893. -/
def vtkResponsible (file : String) : Option (List String) → Bool
  | some (p :: _) => p == file
  | _ => false

/-- The steps of `write_vtk_file`, meshmode/discretization/visualization.py:890-930; `rel` is
`os.path.relpath(·, start=os.path.dirname(manifest))`. -/
def vtkProgram (rel : String → String → List String) (file : String) (c : C) (overwrite : Bool)
    (manifest : Option String) (parNames : Option (List String)) : List (FsOp C) :=
  (if overwrite then [] else [.refuse file]) ++
  (match manifest with
    | some m => if vtkResponsible file parNames && !overwrite then [.refuse m] else []
    | none => []) ++
  [.write file (.piece c)] ++
  (match parNames with
    | none => []
    | some ps =>
      match manifest with
      | none => [.fail]
      | some m => if vtkResponsible file parNames then [.write m (.manifest (ps.map (rel m)))] else [])

/-- The arguments that `write_parallel_vtk_file` passes on: file name, manifest and names of all ranks,
meshmode/discretization/visualization.py:750-775; `format r` is `file_name_pattern.format(rank=r)`. -/
def parallelArgs (format : Nat → String) (manifest : Option String) (rank nranks : Nat) :
    Except VtkErr (String × String × List String) :=
  let names := (List.range nranks).map format
  match manifest with
  | some m => .ok (format rank, m, names)
  | none =>
    if ".vtu".toList <:+ (format 0).toList then
      .ok (format rank, String.ofList ((format 0).toList.take ((format 0).toList.length - 4)) ++ ".pvtu", names)
    else .error .extension

/-- The files: contents by name. Code: meshmode/discretization/visualization.py:894, 910. -/
abbrev Files (C : Type) := String → Option (VtkFile C)

/-- Where a rank is: the steps it still has to do, and the exception it raised.
Code: meshmode/discretization/visualization.py:887-932. -/
structure RankState (C : Type) where
  todo : List (FsOp C)
  err : Option VtkErr
  deriving DecidableEq, Repr

/-- The next step of a rank. Code: meshmode/discretization/visualization.py:894-930. -/
def rankStep (fs : Files C) (st : RankState C) : Files C × RankState C :=
  match st.todo with
  | [] => (fs, st)
  | .refuse n :: rest => if (fs n).isSome then (fs, ⟨[], some (.exists n)⟩) else (fs, ⟨rest, st.err⟩)
  | .write n c :: rest => (fun m => if m = n then some c else fs m, ⟨rest, st.err⟩)
  | .fail :: _ => (fs, ⟨[], some .noManifest⟩)

/-- Files and ranks. Code: meshmode/discretization/visualization.py:887-932. -/
structure VtkWorld (C : Type) where
  fs : Files C
  ranks : Nat → RankState C

/-- A step of rank `r`. Code: meshmode/discretization/visualization.py:887-932. -/
def VtkWorld.step (w : VtkWorld C) (r : Nat) : VtkWorld C :=
  let p := rankStep w.fs (w.ranks r)
  ⟨p.1, fun s => if s = r then p.2 else w.ranks s⟩

/-- An execution. Code: meshmode/discretization/visualization.py:887-932. -/
def VtkWorld.run (w : VtkWorld C) (schedule : List Nat) : VtkWorld C := schedule.foldl VtkWorld.step w

/-- All ranks at the beginning of `write_vtk_file`, called by `write_parallel_vtk_file`,
meshmode/discretization/visualization.py:763-775. -/
def parallelStart (rel : String → String → List String) (content : Nat → C) (overwrite : Bool) (m : String)
    (names : List String) (fs : Files C) : VtkWorld C :=
  ⟨fs, fun r => ⟨match names[r]? with
    | some file => vtkProgram rel file (content r) overwrite (some m) (some names)
    | none => [], none⟩⟩

/-- `os.path.relpath` on the components of absolute paths without `.` and `..`.
Code: meshmode/discretization/visualization.py:923-925. -/
def relPath : List String → List String → List String
  | p :: path, s :: start => if p = s then relPath path start else List.replicate (start.length + 1) ".." ++ p :: path
  | path, start => List.replicate start.length ".." ++ path

/-! ## Specification -/

/-- The file that a relative path means, seen from a directory. (Specification or proof vocabulary, no code.) -/
def resolvePath (dir rel : List String) : List String :=
  rel.foldl (fun acc c => if c = ".." then acc.dropLast else acc ++ [c]) dir

/-- A rank is done: no steps are left. (Specification or proof vocabulary, no code.) -/
def RankState.Done (st : RankState C) : Prop := st.todo = []

/-- The file a step has to do with. (Specification or proof vocabulary, no code.) -/
def FsOp.file : FsOp C → Option String
  | .refuse n => some n
  | .write n _ => some n
  | .fail => none

/-! ## Lemmas -/

/-- Steps of a rank alone. (Specification or proof vocabulary, no code.) -/
def aloneRun (fs : Files C) (st : RankState C) : Nat → Files C × RankState C
  | 0 => (fs, st)
  | k + 1 => let p := aloneRun fs st k; rankStep p.1 p.2

theorem rankStep_todo_subset (fs : Files C) (st : RankState C) : (rankStep fs st).2.todo ⊆ st.todo := by
  rcases st with ⟨todo, err⟩
  rcases todo with _ | ⟨op, rest⟩
  · simp [rankStep]
  · rcases op with n | ⟨n, c⟩ | _
    · simp only [rankStep]
      split <;> simp
    · simp [rankStep]
    · simp [rankStep]

theorem rankStep_length (fs : Files C) (st : RankState C) :
    (rankStep fs st).2.todo.length ≤ st.todo.length - 1 := by
  rcases st with ⟨todo, err⟩
  rcases todo with _ | ⟨op, rest⟩
  · simp [rankStep]
  · rcases op with n | ⟨n, c⟩ | _
    · simp only [rankStep]
      split <;> simp
    · simp [rankStep]
    · simp [rankStep]

/-- A step depends on and changes only the file it has to do with. -/
theorem rankStep_local {fs fs' : Files C} {st : RankState C} {S : String → Prop}
    (hops : ∀ op ∈ st.todo, ∀ n, op.file = some n → S n) (hag : ∀ n, S n → fs n = fs' n) :
    (rankStep fs st).2 = (rankStep fs' st).2 ∧ (∀ n, S n → (rankStep fs st).1 n = (rankStep fs' st).1 n) ∧
      ∀ n, ¬ S n → (rankStep fs st).1 n = fs n := by
  rcases st with ⟨todo, err⟩
  rcases todo with _ | ⟨op, rest⟩
  · exact ⟨rfl, hag, fun _ _ => rfl⟩
  · rcases op with n | ⟨n, c⟩ | _
    · have hn : fs n = fs' n := hag n (hops (.refuse n) (by simp) n rfl)
      simp only [rankStep, hn]
      split
      · exact ⟨rfl, hag, fun _ _ => rfl⟩
      · exact ⟨rfl, hag, fun _ _ => rfl⟩
    · refine ⟨rfl, fun k hk => ?_, fun k hk => ?_⟩
      · simp only [rankStep]
        split
        · rfl
        · exact hag k hk
      · simp only [rankStep]
        rw [if_neg]
        rintro rfl
        exact hk (hops (.write k c) (by simp) k rfl)
    · exact ⟨rfl, hag, fun _ _ => rfl⟩

theorem aloneRun_todo_subset (fs : Files C) (st : RankState C) (k : Nat) :
    (aloneRun fs st k).2.todo ⊆ st.todo := by
  induction k with
  | zero => exact List.Subset.refl _
  | succ k ih => exact fun x hx => ih (rankStep_todo_subset _ _ hx)

/-- Ranks that have to do with different files do not disturb each other: each of them is where it would be alone
after as many steps. -/
theorem noninterference {w : VtkWorld C} {own : Nat → String → Prop}
    (hops : ∀ r, ∀ op ∈ (w.ranks r).todo, ∀ n, op.file = some n → own r n)
    (hdis : ∀ r s n, own r n → own s n → r = s) (schedule : List Nat) :
    (∀ r, (w.run schedule).ranks r = (aloneRun w.fs (w.ranks r) (schedule.count r)).2 ∧
      ∀ n, own r n → (w.run schedule).fs n = (aloneRun w.fs (w.ranks r) (schedule.count r)).1 n) ∧
    ∀ n, (∀ r, ¬ own r n) → (w.run schedule).fs n = w.fs n := by
  induction schedule using List.reverseRecOn with
  | nil => exact ⟨fun r => ⟨rfl, fun _ _ => rfl⟩, fun _ _ => rfl⟩
  | append_singleton sch q ih =>
    obtain ⟨ih1, ih2⟩ := ih
    have hrun : w.run (sch ++ [q]) = (w.run sch).step q := by simp [VtkWorld.run]
    have hq := ih1 q
    have hops' : ∀ op ∈ ((w.run sch).ranks q).todo, ∀ n, op.file = some n → own q n := by
      intro op hop
      rw [hq.1] at hop
      exact hops q op (aloneRun_todo_subset _ _ _ hop)
    obtain ⟨hl1, hl2, hl3⟩ := rankStep_local (fs := (w.run sch).fs)
      (fs' := (aloneRun w.fs (w.ranks q) (sch.count q)).1) hops' hq.2
    rw [hrun]
    refine ⟨fun r => ?_, fun n hn => ?_⟩
    · by_cases hr : r = q
      · subst hr
        have hc : (sch ++ [r]).count r = sch.count r + 1 := by simp
        rw [hc]
        simp only [VtkWorld.step, if_true, aloneRun]
        rw [hq.1] at hl1 hl2
        exact ⟨by rw [hq.1]; exact hl1, fun n hn => by rw [hq.1]; exact hl2 n hn⟩
      · have hc : (sch ++ [q]).count r = sch.count r := by
          rw [List.count_append, List.count_singleton]
          simp [beq_eq_false_iff_ne.2 (Ne.symm hr)]
        rw [hc]
        simp only [VtkWorld.step, if_neg hr]
        refine ⟨(ih1 r).1, fun n hn => ?_⟩
        rw [hl3 n fun hqn => hr (hdis _ _ _ hn hqn)]
        exact (ih1 r).2 n hn
    · simp only [VtkWorld.step]
      rw [hl3 n (hn q)]
      exact ih2 n hn

theorem aloneRun_done {fs : Files C} {st : RankState C} {k : Nat} (h : (aloneRun fs st k).2.todo = []) (j : Nat) :
    aloneRun fs st (k + j) = aloneRun fs st k := by
  induction j with
  | zero => rfl
  | succ j ih =>
    rw [← Nat.add_assoc, aloneRun, ih]
    simp only [rankStep, h]

theorem aloneRun_length (fs : Files C) (st : RankState C) (k : Nat) :
    (aloneRun fs st k).2.todo.length ≤ st.todo.length - k := by
  induction k with
  | zero => simp [aloneRun]
  | succ k ih =>
    have := rankStep_length (aloneRun fs st k).1 (aloneRun fs st k).2
    simp only [aloneRun]
    omega

theorem aloneRun_eq_of_done {fs : Files C} {st : RankState C} {k j : Nat} (hk : (aloneRun fs st k).2.todo = [])
    (hj : st.todo.length ≤ j) : aloneRun fs st k = aloneRun fs st j := by
  have hj' : (aloneRun fs st j).2.todo = [] := by
    have := aloneRun_length fs st j
    exact List.eq_nil_of_length_eq_zero (by omega)
  rcases Nat.le_total k j with h | h
  · obtain ⟨d, rfl⟩ := Nat.exists_eq_add_of_le h
    exact (aloneRun_done hk d).symm
  · obtain ⟨d, rfl⟩ := Nat.exists_eq_add_of_le h
    exact aloneRun_done hj' d

theorem vtkResponsible_iff {names : List String} (hn : names.Nodup) {r : Nat} {file : String}
    (hr : names[r]? = some file) : vtkResponsible file (some names) = true ↔ r = 0 := by
  cases names with
  | nil => simp at hr
  | cons p ps =>
    simp only [vtkResponsible, beq_iff_eq]
    cases r with
    | zero => simp only [List.getElem?_cons_zero, Option.some.injEq] at hr; simp [hr]
    | succ r =>
      simp only [List.getElem?_cons_succ] at hr
      have : file ∈ ps := List.mem_of_getElem? hr
      simp only [Nat.succ_ne_zero, iff_false]
      rintro rfl
      exact (List.nodup_cons.1 hn).1 this

/-- The whole of `write_vtk_file` on one rank, alone. -/
theorem alone_program (rel : String → String → List String) {file m : String} (c : C) (overwrite : Bool)
    (names : List String) (fs : Files C) (hm : m ≠ file) :
    let resp := vtkResponsible file (some names)
    let out := aloneRun fs ⟨vtkProgram rel file c overwrite (some m) (some names), none⟩ 4
    if overwrite = false ∧ (fs file).isSome then
      out.2 = ⟨[], some (.exists file)⟩ ∧ ∀ n, out.1 n = fs n
    else if overwrite = false ∧ resp = true ∧ (fs m).isSome then
      out.2 = ⟨[], some (.exists m)⟩ ∧ ∀ n, out.1 n = fs n
    else out.2 = ⟨[], none⟩ ∧ out.1 file = some (.piece c) ∧
      (resp = true → out.1 m = some (.manifest (names.map (rel m)))) ∧
      ∀ n, n ≠ file → (n ≠ m ∨ resp = false) → out.1 n = fs n := by
  intro resp out
  have hout : out = aloneRun fs ⟨vtkProgram rel file c overwrite (some m) (some names), none⟩ 4 := rfl
  have hresp : vtkResponsible file (some names) = resp := rfl
  clear_value resp out
  simp only [vtkProgram, hresp] at hout
  cases overwrite with
  | true =>
    cases hr : resp with
    | true =>
      simp only [hr, Bool.not_true, Bool.and_false, Bool.false_eq_true, if_false, if_true, List.nil_append,
        List.cons_append, aloneRun, rankStep] at hout
      subst hout
      simp only [Bool.true_eq_false, false_and, if_false]
      refine ⟨trivial, by simp [Ne.symm hm], by simp, ?_⟩
      intro n h1 h2
      simp only [or_false] at h2
      simp [h1, h2]
    | false =>
      simp only [hr, Bool.false_and, Bool.false_eq_true, if_false, if_true, List.nil_append,
        List.append_nil, aloneRun, rankStep] at hout
      subst hout
      simp only [Bool.true_eq_false, false_and, if_false]
      refine ⟨trivial, by simp, by simp, ?_⟩
      intro n h1 _
      simp [h1]
  | false =>
    cases hf : (fs file).isSome with
    | true =>
      simp only [Bool.false_eq_true, if_false, List.cons_append, List.nil_append, aloneRun, rankStep, hf, if_true]
        at hout
      subst hout
      simp
    | false =>
      cases hr : resp with
      | true =>
        cases hfm : (fs m).isSome with
        | true =>
          simp only [hr, Bool.not_false, Bool.and_true, Bool.false_eq_true, if_false, if_true, List.cons_append,
            List.nil_append, aloneRun, rankStep, hf, hfm] at hout
          subst hout
          simp
        | false =>
          simp only [hr, Bool.not_false, Bool.and_true, Bool.false_eq_true, if_false, if_true, List.cons_append,
            List.nil_append, aloneRun, rankStep, hf, hfm] at hout
          subst hout
          simp only [Bool.false_eq_true, and_false, if_false]
          refine ⟨trivial, by simp [Ne.symm hm], by simp, ?_⟩
          intro n h1 h2
          simp only [Bool.true_eq_false, or_false] at h2
          simp [h1, h2]
      | false =>
        simp only [hr, Bool.false_and, Bool.false_eq_true, if_false, List.cons_append, List.nil_append,
          List.append_nil, aloneRun, rankStep, hf] at hout
        subst hout
        simp only [Bool.false_eq_true, and_false, false_and, if_false]
        refine ⟨trivial, by simp, by simp, ?_⟩
        intro n h1 _
        simp [h1]

theorem program_length (rel : String → String → List String) (file m : String) (c : C) (overwrite : Bool)
    (names : List String) : (vtkProgram rel file c overwrite (some m) (some names)).length ≤ 4 := by
  simp only [vtkProgram]
  cases overwrite <;> cases vtkResponsible file (some names) <;> simp

theorem program_files (rel : String → String → List String) {file m : String} {c : C} {overwrite : Bool}
    {names : List String} {op : FsOp C} (hop : op ∈ vtkProgram rel file c overwrite (some m) (some names)) {n : String}
    (hn : op.file = some n) : n = file ∨ (n = m ∧ vtkResponsible file (some names) = true) := by
  simp only [vtkProgram] at hop
  cases overwrite <;> cases hr : vtkResponsible file (some names) <;> simp [hr] at hop
  · rcases hop with rfl | rfl <;> simp [FsOp.file] at hn <;> simp [hn]
  · rcases hop with rfl | rfl | rfl | rfl <;> simp [FsOp.file] at hn <;> simp [hn]
  · subst hop
    simp [FsOp.file] at hn
    simp [hn]
  · rcases hop with rfl | rfl <;> simp [FsOp.file] at hn <;> simp [hn]

section
variable (rel : String → String → List String) (content : Nat → C) (overwrite : Bool) {m : String}
  {names : List String} (fs : Files C)

theorem start_noninterference (hn : names.Nodup) (hm : m ∉ names) (schedule : List Nat) :
    (∀ (r : Nat) file, names[r]? = some file →
      let w := (parallelStart rel content overwrite m names fs).run schedule
      let st : RankState C := ⟨vtkProgram rel file (content r) overwrite (some m) (some names), none⟩
      w.ranks r = (aloneRun fs st (schedule.count r)).2 ∧
      w.fs file = (aloneRun fs st (schedule.count r)).1 file ∧
      (r = 0 → w.fs m = (aloneRun fs st (schedule.count r)).1 m)) ∧
    ∀ n, n ∉ names → n ≠ m → ((parallelStart rel content overwrite m names fs).run schedule).fs n = fs n := by
  have hinj : ∀ (r s : Nat) f, names[r]? = some f → names[s]? = some f → r = s := by
    intro r s f h1 h2
    exact (List.getElem?_inj (List.getElem?_eq_some_iff.1 h1).1 hn).1 (h1.trans h2.symm)
  obtain ⟨h1, h2⟩ := noninterference (w := parallelStart rel content overwrite m names fs)
    (own := fun r n => names[r]? = some n ∨ (n = m ∧ r = 0 ∧ names ≠ []))
    (by
      intro r op hop n hopn
      simp only [parallelStart] at hop
      cases hr : names[r]? with
      | none => rw [hr] at hop; simp at hop
      | some file =>
        rw [hr] at hop
        rcases program_files rel hop hopn with rfl | ⟨rfl, hresp⟩
        · exact .inl rfl
        · refine .inr ⟨rfl, (vtkResponsible_iff hn hr).1 hresp, ?_⟩
          rintro rfl
          simp at hr)
    (by
      rintro r s n (hr | ⟨hrm, hr, _⟩) (hs | ⟨hsm, hs, _⟩)
      · exact hinj r s n hr hs
      · exact absurd (hsm ▸ List.mem_of_getElem? hr) hm
      · exact absurd (hrm ▸ List.mem_of_getElem? hs) hm
      · exact hr.trans hs.symm)
    schedule
  refine ⟨fun r file hr => ?_, fun n h3 h4 => h2 n fun r => ?_⟩
  · obtain ⟨h3, h4⟩ := h1 r
    have hst : (parallelStart rel content overwrite m names fs).ranks r =
        ⟨vtkProgram rel file (content r) overwrite (some m) (some names), none⟩ := by
      simp only [parallelStart, hr]
    rw [hst] at h3 h4
    refine ⟨h3, h4 file (.inl hr), fun h0 => h4 m (.inr ⟨rfl, h0, ?_⟩)⟩
    rintro rfl
    simp at hr
  · rintro (h5 | ⟨h5, _⟩)
    · exact h3 (List.mem_of_getElem? h5)
    · exact h4 h5

/-- C79: with different file names for the ranks (and another one for the manifest), for every way in which the ranks
take turns: a rank whose file exists, or whose manifest exists, raises `FileExistsError` unless told to overwrite;
every other rank writes its file, and rank zero the manifest with the names of all files.  Nothing else changes. -/
theorem C79_parallel (hn : names.Nodup) (hm : m ∉ names) {schedule : List Nat}
    (hdone : ∀ r, r < names.length → (((parallelStart rel content overwrite m names fs).run schedule).ranks r).Done) :
    let w := (parallelStart rel content overwrite m names fs).run schedule
    (∀ (r : Nat) file, names[r]? = some file →
      let exist := overwrite = false ∧ (fs file ≠ none ∨ (r = 0 ∧ fs m ≠ none))
      (exist → (∃ n, (w.ranks r).err = some (.exists n)) ∧ w.fs file = fs file ∧ (r = 0 → w.fs m = fs m)) ∧
      (¬ exist → (w.ranks r).err = none ∧ w.fs file = some (.piece (content r)) ∧
        (r = 0 → w.fs m = some (.manifest (names.map (rel m)))))) ∧
    ∀ n, n ∉ names → n ≠ m → w.fs n = fs n := by
  intro w
  obtain ⟨h1, h2⟩ := start_noninterference rel content overwrite fs hn hm schedule
  refine ⟨fun r file hr => ?_, h2⟩
  obtain ⟨h3, h4, h5⟩ := h1 r file hr
  have hd := hdone r (List.getElem?_eq_some_iff.1 hr).1
  rw [RankState.Done, h3] at hd
  have he := aloneRun_eq_of_done hd (j := 4) (program_length rel file m (content r) overwrite names)
  rw [he] at h3 h4 h5
  have hmf : m ≠ file := fun h => hm (h ▸ List.mem_of_getElem? hr)
  have hal := alone_program rel (content r) overwrite names fs hmf
  have hw : w = (parallelStart rel content overwrite m names fs).run schedule := rfl
  rw [← hw] at h3 h4 h5
  clear_value w
  simp only at hal
  have hri := vtkResponsible_iff hn hr
  have hsome : ∀ n, (fs n).isSome = true ↔ fs n ≠ none := fun n => Option.isSome_iff_ne_none
  rw [h3, h4]
  by_cases hc1 : overwrite = false ∧ (fs file).isSome = true
  · rw [if_pos hc1] at hal
    refine ⟨fun _ => ⟨⟨file, by rw [hal.1]⟩, hal.2 _, fun h0 => (h5 h0).trans (hal.2 _)⟩, fun hne => ?_⟩
    exact absurd ⟨hc1.1, .inl ((hsome _).1 hc1.2)⟩ hne
  · rw [if_neg hc1] at hal
    by_cases hc2 : overwrite = false ∧ vtkResponsible file (some names) = true ∧ (fs m).isSome = true
    · rw [if_pos hc2] at hal
      refine ⟨fun _ => ⟨⟨m, by rw [hal.1]⟩, hal.2 _, fun h0 => (h5 h0).trans (hal.2 _)⟩, fun hne => ?_⟩
      exact absurd ⟨hc2.1, .inr ⟨hri.1 hc2.2.1, (hsome _).1 hc2.2.2⟩⟩ hne
    · rw [if_neg hc2] at hal
      refine ⟨fun hex => ?_, fun _ => ⟨by rw [hal.1], hal.2.1, fun h0 => (h5 h0).trans (hal.2.2.1 (hri.2 h0))⟩⟩
      rcases hex with ⟨ho, hf | ⟨h0, hf⟩⟩
      · exact absurd ⟨ho, (hsome _).2 hf⟩ hc1
      · exact absurd ⟨ho, hri.2 h0, (hsome _).2 hf⟩ hc2

/-- C79: ranks are done after four turns each, whatever the order. -/
theorem C79_finishes (hn : names.Nodup) (hm : m ∉ names) {schedule : List Nat}
    (h : ∀ r, r < names.length → 4 ≤ schedule.count r) {r : Nat} (hr : r < names.length) :
    (((parallelStart rel content overwrite m names fs).run schedule).ranks r).Done := by
  obtain ⟨h1, _⟩ := start_noninterference rel content overwrite fs hn hm schedule
  obtain ⟨h3, _⟩ := h1 r _ (List.getElem?_eq_getElem hr)
  rw [RankState.Done, h3]
  apply List.eq_nil_of_length_eq_zero
  have := aloneRun_length fs ⟨vtkProgram rel names[r] (content r) overwrite (some m) (some names), none⟩
    (schedule.count r)
  have h4 := program_length rel names[r] m (content r) overwrite names
  have h5 := h r hr
  simp only at this
  omega

/-- Steps of ranks that do not overwrite: each write comes after looking for the same file. -/
theorem no_overwrite_aux {fs0 : Files C} {w : VtkWorld C}
    (hfs : ∀ n, (fs0 n).isSome → w.fs n = fs0 n)
    (hp : ∀ r n c, FsOp.write n c ∈ (w.ranks r).todo →
      fs0 n = none ∨ ∃ pre post, (w.ranks r).todo = pre ++ FsOp.refuse n :: post ∧
        ∀ c', FsOp.write n c' ∉ pre) (schedule : List Nat) :
    ∀ n, (fs0 n).isSome → (w.run schedule).fs n = fs0 n := by
  induction schedule generalizing w with
  | nil => exact hfs
  | cons q sch ih =>
    have hrun : w.run (q :: sch) = (w.step q).run sch := rfl
    rw [hrun]
    rcases hst : w.ranks q with ⟨todo, err⟩
    have key : ∀ (fs' : Files C) (st' : RankState C), rankStep w.fs ⟨todo, err⟩ = (fs', st') →
        (∀ n, (fs0 n).isSome → fs' n = fs0 n) →
        (∀ n c, FsOp.write n c ∈ st'.todo → fs0 n = none ∨ ∃ pre post, st'.todo = pre ++ FsOp.refuse n :: post ∧
          ∀ c', FsOp.write n c' ∉ pre) →
        ∀ n, (fs0 n).isSome → ((w.step q).run sch).fs n = fs0 n := by
      intro fs' st' he h1 h2
      have hstep : w.step q = ⟨fs', fun s => if s = q then st' else w.ranks s⟩ := by
        simp only [VtkWorld.step, hst, he]
      rw [hstep]
      apply ih h1
      intro r n c hw
      by_cases hr : r = q
      · simp only [if_pos hr] at hw ⊢
        exact h2 n c hw
      · simp only [if_neg hr] at hw ⊢
        exact hp r n c hw
    have hpq := hp q
    rw [hst] at hpq
    simp only at hpq
    cases todo with
    | nil => exact key _ _ rfl hfs (by simp)
    | cons op rest =>
      have htail : (∀ n, op = .refuse n → fs0 n = none) → ∀ n c, FsOp.write n c ∈ rest → fs0 n = none ∨
          ∃ pre post, rest = pre ++ FsOp.refuse n :: post ∧ ∀ c', FsOp.write n c' ∉ pre := by
        intro hop n c hw
        rcases hpq n c (by simp [hw]) with h | ⟨pre, post, h1, h2⟩
        · exact .inl h
        · cases pre with
          | nil =>
            simp only [List.nil_append, List.cons.injEq] at h1
            exact .inl (hop n h1.1)
          | cons a pre =>
            simp only [List.cons_append, List.cons.injEq] at h1
            exact .inr ⟨pre, post, h1.2, fun c' hc => h2 c' (by simp [hc])⟩
      rcases op with n | ⟨n, c⟩ | _
      · by_cases hx : (w.fs n).isSome = true
        · exact key w.fs ⟨[], some (.exists n)⟩ (by simp [rankStep, hx]) hfs (by simp)
        · refine key w.fs ⟨rest, err⟩ (by simp [rankStep, hx]) hfs (htail ?_)
          intro n' hn'
          cases hn'
          cases h0 : fs0 n with
          | none => rfl
          | some v => rw [hfs n (by simp [h0]), h0] at hx; simp at hx
      · refine key _ ⟨rest, err⟩ rfl ?_ (htail (by simp))
        intro k hk
        have : fs0 n = none := by
          rcases hpq n c (by simp) with h | ⟨pre, post, h1, h2⟩
          · exact h
          · cases pre with
            | nil => simp at h1
            | cons a pre =>
              simp only [List.cons_append, List.cons.injEq] at h1
              exact absurd (by simp [← h1.1]) (h2 c)
        rw [if_neg]
        · exact hfs k hk
        · rintro rfl
          rw [this] at hk
          simp at hk
      · exact key w.fs ⟨[], some .noManifest⟩ rfl hfs (by simp)

/-- C79: without `overwrite` no file that exists is ever changed, whatever the names and the order of steps. -/
theorem C79_no_overwrite (names : List String) (m : String) (schedule : List Nat) {n : String} {c : VtkFile C}
    (h : fs n = some c) : ((parallelStart rel content false m names fs).run schedule).fs n = some c := by
  rw [← h]
  refine no_overwrite_aux (fs0 := fs) (w := parallelStart rel content false m names fs) (fun _ _ => rfl) ?_ schedule n (by simp [h])
  intro r k c' hw
  right
  simp only [parallelStart] at hw ⊢
  cases hr : names[r]? with
  | none => rw [hr] at hw; simp at hw
  | some file =>
    rw [hr] at hw
    simp only at hw ⊢
    simp only [vtkProgram] at hw ⊢
    cases hresp : vtkResponsible file (some names) with
    | false =>
      simp [hresp] at hw
      obtain ⟨rfl, rfl⟩ := hw
      exact ⟨[], _, rfl, by simp⟩
    | true =>
      simp [hresp] at hw
      rcases hw with ⟨rfl, rfl⟩ | ⟨rfl, rfl⟩
      · exact ⟨[], _, rfl, by simp⟩
      · exact ⟨[.refuse file], _, by simp; rfl, by simp⟩

end

/-- C79: the name of the manifest, if none is given: that of rank zero with `.pvtu` for `.vtu`; any other name of
rank zero raises `ValueError`. -/
theorem C79_default_name (format : Nat → String) (rank nranks : Nat) :
    (∀ stem, format 0 = stem ++ ".vtu" →
      parallelArgs format none rank nranks = .ok (format rank, stem ++ ".pvtu", (List.range nranks).map format)) ∧
    ((∀ stem, format 0 ≠ stem ++ ".vtu") → parallelArgs format none rank nranks = .error .extension) := by
  constructor
  · intro stem h
    simp only [parallelArgs, h, String.toList_append]
    rw [if_pos (List.suffix_append _ _)]
    congr 3
    rw [List.length_append]
    have : (".vtu".toList).length = 4 := by decide
    rw [this, Nat.add_sub_cancel, List.take_left, String.ofList_toList]
  · intro h
    simp only [parallelArgs]
    rw [if_neg]
    rintro ⟨pre, hpre⟩
    apply h (String.ofList pre)
    apply String.toList_injective
    rw [String.toList_append, String.toList_ofList, hpre]

/-- C79: every rank writes the file with its own number, and the manifest lists the files of all ranks in order; all
ranks agree on the names and on the manifest. -/
theorem C79_names {format : Nat → String} {manifest : Option String} {rank nranks : Nat} {file m : String}
    {names : List String} (h : parallelArgs format manifest rank nranks = .ok (file, m, names)) :
    file = format rank ∧ names.length = nranks ∧ (∀ r, r < nranks → names[r]? = some (format r)) ∧
      (∀ m', manifest = some m' → m = m') ∧
      ∀ rank', parallelArgs format manifest rank' nranks = .ok (format rank', m, names) := by
  have key : file = format rank ∧ names = (List.range nranks).map format ∧ (∀ m', manifest = some m' → m = m') ∧
      ∀ rank', parallelArgs format manifest rank' nranks = .ok (format rank', m, names) := by
    cases manifest with
    | some m' =>
      simp only [parallelArgs, Except.ok.injEq, Prod.mk.injEq] at h ⊢
      obtain ⟨rfl, rfl, rfl⟩ := h
      simp
    | none =>
      simp only [parallelArgs] at h ⊢
      split at h
      · rename_i hs
        simp only [Except.ok.injEq, Prod.mk.injEq] at h
        obtain ⟨rfl, rfl, rfl⟩ := h
        exact ⟨rfl, rfl, fun m' hm => by simp at hm, fun rank' => by rw [if_pos hs]⟩
      · simp at h
  obtain ⟨h1, h2, h3, h4⟩ := key
  refine ⟨h1, by rw [h2]; simp, fun r hr => ?_, h3, h4⟩
  rw [h2, List.getElem?_map, List.getElem?_range hr]
  rfl

theorem resolve_up (dir : List String) (k : Nat) (rest : List String) :
    resolvePath dir (List.replicate k ".." ++ rest) = resolvePath (dir.take (dir.length - k)) rest := by
  induction k generalizing dir with
  | zero => simp
  | succ k ih =>
    rw [List.replicate_succ, List.cons_append]
    have : resolvePath dir (".." :: (List.replicate k ".." ++ rest)) =
        resolvePath dir.dropLast (List.replicate k ".." ++ rest) := by
      simp [resolvePath]
    rw [this, ih, List.length_dropLast, List.dropLast_eq_take, List.take_take]
    congr 2
    omega

theorem resolve_down (dir path : List String) (h : ".." ∉ path) : resolvePath dir path = dir ++ path := by
  induction path generalizing dir with
  | nil => simp [resolvePath]
  | cons p path ih =>
    rw [List.mem_cons, not_or] at h
    have : resolvePath dir (p :: path) = resolvePath (dir ++ [p]) path := by
      simp [resolvePath, Ne.symm h.1]
    rw [this, ih _ h.2]
    simp

/-- C79: the names in the manifest mean the files of the ranks. -/
theorem C79_relative_names {path start : List String} (h : ".." ∉ path) (pre : List String) :
    resolvePath (pre ++ start) (relPath path start) = pre ++ path := by
  have hbase : ∀ (pre path start : List String), ".." ∉ path →
      resolvePath (pre ++ start) (List.replicate start.length ".." ++ path) = pre ++ path := by
    intro pre path start h
    rw [resolve_up, resolve_down _ _ h]
    simp
  induction path generalizing start pre with
  | nil =>
    have : relPath [] start = List.replicate start.length ".." ++ [] := by
      cases start <;> rfl
    rw [this]
    exact hbase _ _ _ h
  | cons p path ih =>
    cases start with
    | nil => exact hbase _ _ _ h
    | cons s start =>
      simp only [relPath]
      split
      · rename_i hps
        subst hps
        have := ih (start := start) (fun hx => h (by simp [hx])) (pre ++ [p])
        simpa using this
      · exact hbase pre (p :: path) (s :: start) h

/-! ## Concrete cases -/

/-- Names of the files of three ranks. (Example, no code.) -/
def exNames : List String := ["vis-0.vtu", "vis-1.vtu", "vis-2.vtu"]

example : parallelArgs (fun r => s!"vis-{r}.vtu") none 1 3 = .ok ("vis-1.vtu", "vis-0.pvtu", exNames) := by
  decide +kernel

-- The hypotheses of `C79_parallel` and `C79_finishes`.
example : exNames.Nodup ∧ "vis-0.pvtu" ∉ exNames ∧
    ∀ r, r < exNames.length → 4 ≤ [2, 0, 1, 1, 0, 2, 2, 0, 1, 1, 0, 2].count r := by decide +kernel

example : relPath ["home", "u", "out", "vis-0.vtu"] ["home", "u", "man"] = ["..", "out", "vis-0.vtu"] := by
  decide +kernel

/-- The world of the next theorem: two ranks, one name. (Example, no code.) -/
def exSameName : VtkWorld Nat :=
  parallelStart (fun _ p => [p]) (fun r => 10 + r) false "vis.pvtu" ["vis.vtu", "vis.vtu"] fun _ => none

/-- C79: a pattern without the rank is not rejected; what is written then depends on the order of the steps: the file
has the data of either rank, and `FileExistsError` is raised or not. -/
theorem C79_same_name_counterexample :
    (exSameName.run [0, 1, 0, 1, 0, 1, 0, 1]).fs "vis.vtu" = some (.piece 11) ∧
    ((exSameName.run [0, 1, 0, 1, 0, 1, 0, 1]).ranks 1).err = none ∧
    (exSameName.run [0, 0, 0, 0, 1, 1, 1, 1]).fs "vis.vtu" = some (.piece 10) ∧
    ((exSameName.run [0, 0, 0, 0, 1, 1, 1, 1]).ranks 1).err = some (.exists "vis.vtu") := by
  decide +kernel

/-- C79: when the names of the ranks are given to `write_vtk_file` without a name of the manifest, the file has been
written when `ValueError` is raised. -/
theorem C79_no_manifest_counterexample : ∃ fs : Files Nat, fs "a.vtu" = none ∧
    (aloneRun fs ⟨vtkProgram (fun _ p => [p]) "a.vtu" 1 false none (some ["a.vtu"]), none⟩ 3).1 "a.vtu" =
      some (.piece 1) ∧
    (aloneRun fs ⟨vtkProgram (fun _ p => [p]) "a.vtu" 1 false none (some ["a.vtu"]), none⟩ 3).2.err =
      some .noManifest :=
  ⟨fun _ => none, rfl, by decide +kernel, by decide +kernel⟩

end Meshmode
