import Mathlib.Data.List.Basic

/-!
# Running gmsh: output files and the warning about coordinates (C92)

The parts of `generate_gmsh` (meshmode/mesh/io.py:421-507) that are neither a call of the program (see C47
for what is done with its output) nor a deprecation warning.
-/
namespace Meshmode

/-! ## Model -/

/-- `os.path.basename` (POSIX), used in meshmode/mesh/io.py:471. -/
def posixBase (p : List Char) : List Char := (p.reverse.takeWhile (· ≠ '/')).reverse

/-- `os.path.dirname` (POSIX), used in meshmode/mesh/io.py:472: the part up to the last slash, without slashes
at its end unless it has nothing else. -/
def posixDir (p : List Char) : List Char :=
  let head := (p.reverse.dropWhile (· ≠ '/')).reverse
  if head.all (· == '/') then head else (head.reverse.dropWhile (· == '/')).reverse

/-- `output_file_name` and `save_output_file_in` as passed to `GmshRunner`, meshmode/mesh/io.py:462-477;
`cwd` is `os.getcwd()`, `path` and `name` are the arguments `output_file_path` and `output_file_name`. -/
def gmshOutput (cwd : List Char) (path name : Option (List Char)) : Option (List Char × List Char) :=
  let path := match name with
    | some n => some n
    | none => path
  path.map fun p => (posixBase p, if posixDir p = [] then cwd else posixDir p)

section
variable {Q : Type} [Zero Q] [DecidableEq Q]

/-- The axis that the warning names and the value that it suggests for `force_ambient_dim`, if there is a
warning, meshmode/mesh/io.py:491-505; `vertices` are points of `dim` coordinates. -/
def zeroAxis (force : Option Nat) (dim : Nat) (vertices : List (List Q)) : Option Nat :=
  match force with
  | some _ => none
  | none => (List.range dim).find? fun i => vertices.all fun p => decide (p.getD i 0 = 0)

end

/-- Points as read with `force_dimension` (gmsh_interop keeps the first coordinates), meshmode/mesh/io.py:486-487. -/
def forceDim {Q : Type} (k : Nat) (vertices : List (List Q)) : List (List Q) := vertices.map (·.take k)

/-! ## Specification -/

/-- Collect the names between slashes; `cur` is the name that has begun. (Specification or proof vocabulary, no
code.) -/
def partsFrom (cur : List Char) : List Char → List (List Char)
  | [] => if cur = [] then [] else [cur]
  | c :: cs =>
    if c = '/' then (if cur = [] then [] else [cur]) ++ partsFrom [] cs else partsFrom (cur ++ [c]) cs

/-- The names in a path. (Specification or proof vocabulary, no code.) -/
def pathParts (p : List Char) : List (List Char) := partsFrom [] p

/-! ## Lemmas -/

theorem partsFrom_slash (cur a b : List Char) :
    partsFrom cur (a ++ '/' :: b) = partsFrom cur a ++ partsFrom [] b := by
  induction a generalizing cur with
  | nil => simp [partsFrom]
  | cons c a ih =>
    simp only [List.cons_append, partsFrom]
    split
    · rw [ih, List.append_assoc]
    · exact ih _

theorem partsFrom_plain (cur : List Char) {a : List Char} (h : '/' ∉ a) :
    partsFrom cur a = if cur ++ a = [] then [] else [cur ++ a] := by
  induction a generalizing cur with
  | nil => simp [partsFrom]
  | cons c a ih =>
    simp only [List.mem_cons, not_or] at h
    simp only [partsFrom]
    rw [if_neg (fun hc => h.1 hc.symm), ih _ h.2]
    simp

theorem pathParts_slashes (a : List Char) (n : Nat) (b : List Char) :
    pathParts (a ++ List.replicate (n + 1) '/' ++ b) = pathParts a ++ pathParts b := by
  induction n with
  | zero =>
    simp only [pathParts, List.append_assoc, List.replicate_succ, List.replicate_zero, List.cons_append,
      List.nil_append]
    exact partsFrom_slash [] a b
  | succ n ih =>
    rw [List.replicate_succ, List.append_assoc, List.cons_append]
    have : pathParts (a ++ '/' :: (List.replicate (n + 1) '/' ++ b)) =
        pathParts a ++ pathParts (List.replicate (n + 1) '/' ++ b) := partsFrom_slash [] a _
    rw [this]
    have h2 : pathParts (List.replicate (n + 1) '/' ++ b) = pathParts b := by
      clear ih this
      induction n with
      | zero => exact partsFrom_slash [] [] b
      | succ n ih =>
        rw [List.replicate_succ, List.cons_append]
        have : pathParts ('/' :: (List.replicate (n + 1) '/' ++ b)) =
            pathParts [] ++ pathParts (List.replicate (n + 1) '/' ++ b) := partsFrom_slash [] [] _
        rw [this, ih]
        rfl
    rw [h2]

theorem takeWhile_all {α : Type} {f : α → Bool} {l : List α} : ∀ x ∈ l.takeWhile f, f x = true := by
  induction l with
  | nil => simp
  | cons a l ih =>
    rw [List.takeWhile_cons]
    split
    · rename_i h
      intro x hx
      rcases List.mem_cons.1 hx with rfl | hx
      · exact h
      · exact ih x hx
    · simp

theorem posixBase_no_slash (p : List Char) : '/' ∉ posixBase p := by
  intro h
  simp only [posixBase, List.mem_reverse] at h
  have := takeWhile_all _ h
  simp at this

theorem posix_split (p : List Char) :
    (p.reverse.dropWhile (· ≠ '/')).reverse ++ posixBase p = p := by
  rw [posixBase, ← List.reverse_append, List.takeWhile_append_dropWhile, List.reverse_reverse]

theorem eq_replicate_of_all {l : List Char} (h : ∀ c ∈ l, (c == '/') = true) :
    l = List.replicate l.length '/' := by
  rw [List.eq_replicate_iff]
  exact ⟨rfl, fun c hc => by simpa using h c hc⟩

/-- The path is the directory, slashes and the base name. -/
theorem posix_shape (p : List Char) : ∃ n, p = posixDir p ++ List.replicate n '/' ++ posixBase p ∧
    (posixDir p = [] → n = 0) ∧ (n = 0 → ∀ c ∈ posixDir p, c = '/') := by
  have h := posix_split p
  by_cases hall : ((p.reverse.dropWhile (· ≠ '/')).reverse).all (· == '/') = true
  · refine ⟨0, ?_, fun _ => rfl, fun _ c hc => ?_⟩
    · simp only [posixDir]
      rw [if_pos hall]
      simpa using h.symm
    · simp only [posixDir] at hc
      rw [if_pos hall] at hc
      simpa using List.all_eq_true.1 hall c hc
  · have hd : posixDir p =
        ((p.reverse.dropWhile (· ≠ '/')).dropWhile (· == '/')).reverse := by
      simp only [posixDir]
      rw [if_neg hall, List.reverse_reverse]
    have hsplit := List.takeWhile_append_dropWhile (p := fun c : Char => c == '/')
      (l := p.reverse.dropWhile (· ≠ '/'))
    have hrep := eq_replicate_of_all
      (takeWhile_all (f := fun c : Char => c == '/') (l := p.reverse.dropWhile (· ≠ '/')))
    refine ⟨((p.reverse.dropWhile (· ≠ '/')).takeWhile (· == '/')).length, ?_, fun hnil => ?_, fun h0 => ?_⟩
    · conv_lhs => rw [← h, ← hsplit, List.reverse_append, ← hd]
      congr 2
      rw [hrep]
      simp
    · exfalso
      rw [hd, List.reverse_eq_nil_iff] at hnil
      rw [hnil, List.append_nil] at hsplit
      apply hall
      rw [List.all_reverse, ← hsplit, List.all_eq_true]
      exact takeWhile_all
    · exfalso
      rw [List.length_eq_zero_iff] at h0
      -- the part of the path up to the last slash ends with a slash
      rcases hq : p.reverse.dropWhile (· ≠ '/') with _ | ⟨c, cs⟩
      · rw [hq] at hall
        simp at hall
      · have hc : c = '/' := by
          have := List.head_dropWhile_not (p := fun c : Char => decide (c ≠ '/')) (l := p.reverse)
            (by rw [hq]; simp)
          simp only [hq, List.head_cons] at this
          simpa using this
        rw [hq, List.takeWhile_cons, hc] at h0
        simp at h0

/-! ## Properties -/

/-- C92: the mesh file is kept where `output_file_path` says: its directory is that of the path (the current one
if the path has none), its name the last one in the path.  The deprecated `output_file_name` is used in place of
`output_file_path` if it is given; without either, no file is kept. -/
theorem C92_output (cwd : List Char) (path name : Option (List Char)) :
    (gmshOutput cwd path name = none ↔ path = none ∧ name = none) ∧
    (∀ n, gmshOutput cwd path (some n) = gmshOutput cwd (some n) none) ∧
    ∀ p base dir, gmshOutput cwd (some p) none = some (base, dir) →
      '/' ∉ base ∧ ('/' ∉ p → base = p ∧ dir = cwd) ∧
      ('/' ∈ p → (pathParts dir ++ if base = [] then [] else [base]) = pathParts p ∧
        dir.head? = p.head?) := by
  refine ⟨?_, fun n => rfl, ?_⟩
  · cases name <;> cases path <;> simp [gmshOutput]
  · intro p base dir h
    simp only [gmshOutput, Option.map_some, Option.some.injEq, Prod.mk.injEq] at h
    obtain ⟨rfl, rfl⟩ := h
    obtain ⟨n, hp, h1, h2⟩ := posix_shape p
    refine ⟨posixBase_no_slash p, fun hs => ?_, fun hs => ?_⟩
    · have hd : posixDir p = [] := by
        cases hdir : posixDir p with
        | nil => rfl
        | cons c cs =>
          exfalso
          rcases Nat.eq_zero_or_pos n with h0 | h0
          · have := h2 h0 c (by rw [hdir]; simp)
            apply hs
            rw [hp, hdir, this]
            simp
          · apply hs
            rw [hp]
            simp only [List.append_assoc, List.mem_append, List.mem_replicate]
            exact .inr (.inl (by simp; omega))
      rw [if_pos hd]
      refine ⟨?_, rfl⟩
      conv_rhs => rw [hp, hd, h1 hd]
      simp
    · have hd : posixDir p ≠ [] := by
        intro hd
        apply posixBase_no_slash p
        rw [hp, hd, h1 hd] at hs
        simpa using hs
      rw [if_neg hd]
      have hb : pathParts (posixBase p) = if posixBase p = [] then [] else [posixBase p] := by
        have := partsFrom_plain [] (posixBase_no_slash p)
        simpa [pathParts] using this
      constructor
      · rw [← hb]
        rcases n with _ | n
        · have hrep := eq_replicate_of_all (fun c hc => by simpa using h2 rfl c hc : ∀ c ∈ posixDir p, (c == '/') = true)
          obtain ⟨k, hk⟩ : ∃ k, (posixDir p).length = k + 1 :=
            ⟨(posixDir p).length - 1, by have := List.length_pos_of_ne_nil hd; omega⟩
          rw [hk] at hrep
          conv_rhs => rw [hp]
          simp only [List.replicate_zero, List.append_nil]
          have e1 := pathParts_slashes [] k (posixBase p)
          have e2 := pathParts_slashes [] k []
          simp only [List.nil_append, List.append_nil] at e1 e2
          rw [hrep, e1, e2]
          rfl
        · conv_rhs => rw [hp]
          rw [pathParts_slashes]
      · conv_rhs => rw [hp]
        cases hdir : posixDir p with
        | nil => exact absurd hdir hd
        | cons c cs => simp

section
variable {Q : Type} [Zero Q] [DecidableEq Q]

/-- C92: the warning names the first axis on which all vertices have coordinate zero; there is none if
`force_ambient_dim` is given or no axis is like this. -/
theorem C92_warning (force : Option Nat) (dim : Nat) (vertices : List (List Q)) (k : Nat) :
    zeroAxis force dim vertices = some k ↔ force = none ∧ k < dim ∧ (∀ p ∈ vertices, p.getD k 0 = 0) ∧
      ∀ j < k, ∃ p ∈ vertices, p.getD j 0 ≠ 0 := by
  cases force with
  | some f => simp [zeroAxis]
  | none =>
    simp only [zeroAxis, List.find?_range_eq_some, List.all_eq_true, decide_eq_true_eq, List.mem_range, true_and]
    constructor
    · rintro ⟨h1, h2, h3⟩
      refine ⟨h2, h1, fun j hj => ?_⟩
      have := h3 j hj
      simpa using this
    · rintro ⟨h1, h2, h3⟩
      refine ⟨h2, h1, fun j hj => ?_⟩
      have := h3 j hj
      simpa using this

/-- C92: following the suggestion of the warning loses nothing exactly if the coordinates on all later axes are
zero too, in particular if the axis is the last one.  Partial: it is not so in general. -/
theorem C92_suggestion_partial {dim : Nat} {vertices : List (List Q)} {k : Nat}
    (hl : ∀ p ∈ vertices, p.length = dim) (h : zeroAxis none dim vertices = some k) :
    ((forceDim k vertices).map (· ++ List.replicate (dim - k) 0) = vertices ↔
      ∀ j, k < j → j < dim → ∀ p ∈ vertices, p.getD j 0 = 0) ∧
    (k + 1 = dim → (forceDim k vertices).map (· ++ List.replicate (dim - k) 0) = vertices) := by
  obtain ⟨_, hk, hz, _⟩ := (C92_warning none dim vertices k).1 h
  have key : (forceDim k vertices).map (· ++ List.replicate (dim - k) 0) = vertices ↔
      ∀ j, k < j → j < dim → ∀ p ∈ vertices, p.getD j 0 = 0 := by
    have hself : ∀ (f : List Q → List Q) (l : List (List Q)), l.map f = l ↔ ∀ p ∈ l, f p = p := by
      intro f l
      induction l with
      | nil => simp
      | cons a l ih => simp [ih]
    rw [forceDim, List.map_map, hself]
    constructor
    · intro h j hj hjd p hp
      have := congrArg (fun l : List Q => l.getD j 0) (h p hp)
      simp only [Function.comp] at this
      rw [← this, List.getD_eq_getElem?_getD, List.getElem?_append_right (by simp; omega),
        List.getElem?_replicate]
      split <;> rfl
    · intro h p hp
      simp only [Function.comp]
      apply List.ext_getElem?
      intro j
      have hpl := hl p hp
      by_cases hjk : j < k
      · rw [List.getElem?_append_left (by simp; omega), List.getElem?_take_of_lt hjk]
      · rw [List.getElem?_append_right (by simp; omega), List.getElem?_replicate]
        by_cases hjd : j < dim
        · have hz' : p.getD j 0 = 0 := by
            rcases Nat.lt_or_eq_of_le (Nat.le_of_not_lt hjk) with h1 | h1
            · exact h j h1 hjd p hp
            · rw [← h1]; exact hz p hp
          rw [if_pos (by simp; omega)]
          rw [List.getD_eq_getElem?_getD, List.getElem?_eq_getElem (by omega), Option.getD_some] at hz'
          rw [List.getElem?_eq_getElem (by omega), hz']
        · rw [if_neg (by simp; omega), List.getElem?_eq_none (by omega)]
  exact ⟨key, fun h => key.2 fun j hj hjd => by omega⟩

end

/-- C92: for a mesh in the plane `x = 0` the warning suggests `force_ambient_dim=0`, with which all vertices
coincide. -/
theorem C92_suggestion_counterexample : ∃ vertices : List (List Int), vertices.Nodup ∧
    (∀ p ∈ vertices, p.length = 3) ∧ zeroAxis none 3 vertices = some 0 ∧
    ∀ p ∈ forceDim 0 vertices, p = [] :=
  ⟨[[0, 0, 0], [0, 1, 0], [0, 0, 1]], by decide, by decide, by decide, by decide⟩

/-! ## Examples -/

-- a flat mesh in the plane `z = 0`
example : zeroAxis none 3 [[0, 0, 0], [1, 0, 0], [0, (1 : Int), 0]] = some 2 := by decide

-- paths with and without directory
example : gmshOutput "/tmp".toList (some "out//a.msh".toList) none = some ("a.msh".toList, "out".toList) ∧
    gmshOutput "/tmp".toList (some "/a.msh".toList) none = some ("a.msh".toList, "/".toList) ∧
    gmshOutput "/tmp".toList (some "a.msh".toList) none = some ("a.msh".toList, "/tmp".toList) ∧
    gmshOutput "/tmp".toList (some "a".toList) (some "b".toList) = some ("b".toList, "/tmp".toList) := by
  decide +kernel

end Meshmode
