import Verif.Np
import Mathlib.Data.List.Perm.Basic
import Mathlib.Data.List.Nodup

/-!
# Matching of reference nodes across a face (C30)

`_find_src_unit_nodes_by_matching` and `_find_src_unit_nodes_batches`
(meshmode/discretization/connection/opposite_face.py).
-/
namespace Meshmode

/-! ## Model -/

/-- One batch yielded by `_find_src_unit_nodes_batches`: the element whose nodes serve as template,
and the positions of the elements.
Code: meshmode/discretization/connection/opposite_face.py:341-348. -/
structure NodeBatch where
  template : Nat
  els : List Nat
  deriving DecidableEq, Repr

/-- The `while` loop of `_find_src_unit_nodes_batches`,
meshmode/discretization/connection/opposite_face.py:324-348, run for at most `fuel` rounds: `none`
if it is still running then.  `close t e` is `unit_node_dist < tol`, for template `t` and element
`e`; `done` are the flags `done_elements`. -/
def nodeBatchLoop (n : Nat) (close : Nat → Nat → Bool) : Nat → (Nat → Bool) → Option (List NodeBatch)
  | 0, _ => none
  | fuel + 1, done =>
    match (List.range n).filter fun e => !done e with
    | [] => some []
    | t :: rest =>
      let closeEls := (t :: rest).filter (close t)
      (nodeBatchLoop n close fuel fun e => done e || closeEls.contains e).map (⟨t, closeEls⟩ :: ·)

/-- The index arrays of the batches, meshmode/discretization/connection/opposite_face.py:341-348:
source and target boundary elements.  `none` if the loop is still running. -/
def nodeBatches (n : Nat) (close : Nat → Nat → Bool) (fuel : Nat) (src tgt : Nat → Nat) :
    Option (List (List Nat × List Nat)) :=
  (nodeBatchLoop n close fuel fun _ => false).map fun bs =>
    bs.map fun b => (b.els.map src, b.els.map tgt)

/-- `_find_src_unit_nodes_by_matching` for one element,
meshmode/discretization/connection/opposite_face.py:109-135: for each target node the source node
near it, if there is exactly one for every target node. -/
def matchNodes (ntgt nsrc : Nat) (close : Nat → Nat → Bool) : Option (List Nat) :=
  (List.range ntgt).mapM fun t =>
    match (List.range nsrc).filter (close t) with
    | [s] => some s
    | _ => none

/-! ## Lemmas -/

theorem nodeBatchLoop_sound {n : Nat} {close : Nat → Nat → Bool} {fuel : Nat} {done : Nat → Bool}
    {bs : List NodeBatch} (h : nodeBatchLoop n close fuel done = some bs) :
    (bs.flatMap NodeBatch.els).Perm ((List.range n).filter fun e => !done e) ∧
    (∀ b ∈ bs, ∀ e ∈ b.els, close b.template e = true) ∧
    ∀ b ∈ bs, b.template < n ∧ done b.template = false := by
  induction fuel generalizing done bs with
  | zero => simp [nodeBatchLoop] at h
  | succ fuel ih =>
    unfold nodeBatchLoop at h
    split at h
    · rename_i heq
      simp only [Option.some.injEq] at h
      subst h
      simp [heq]
    · rename_i t rest heq
      simp only [Option.map_eq_some_iff] at h
      obtain ⟨bs', hbs', rfl⟩ := h
      obtain ⟨h1, h2, h3⟩ := ih hbs'
      refine ⟨?_, ?_, ?_⟩
      · rw [List.flatMap_cons]
        have hsplit : ((List.range n).filter fun e =>
            !(done e || ((t :: rest).filter (close t)).contains e)) =
            (t :: rest).filter fun e => !close t e := by
          rw [← heq, List.filter_filter (p := fun e => !close t e)]
          apply List.filter_congr
          intro e he
          cases hd : done e with
          | true => simp
          | false =>
            have : e ∈ (List.range n).filter fun e => !done e := by simp [List.mem_range.1 he, hd]
            rw [Bool.eq_iff_iff]
            simp [hd, List.mem_range.1 he]
        rw [hsplit] at h1
        refine (List.Perm.append_left _ h1).trans ?_
        rw [heq]
        exact List.filter_append_perm (close t) (t :: rest)
      · intro b hb e he
        rcases List.mem_cons.1 hb with rfl | hb
        · exact (List.mem_filter.1 he).2
        · exact h2 b hb e he
      · intro b hb
        rcases List.mem_cons.1 hb with rfl | hb
        · have : t ∈ (List.range n).filter fun e => !done e := by rw [heq]; simp
          simpa using this
        · have := h3 b hb
          simp only [Bool.or_eq_false_iff] at this
          exact ⟨this.1, this.2.1⟩

theorem nodeBatchLoop_terminates {n : Nat} {close : Nat → Nat → Bool}
    (hrefl : ∀ e < n, close e e = true) (fuel : Nat) (done : Nat → Bool)
    (hf : ((List.range n).filter fun e => !done e).length < fuel) :
    (nodeBatchLoop n close fuel done).isSome := by
  induction fuel generalizing done with
  | zero => omega
  | succ fuel ih =>
    unfold nodeBatchLoop
    split
    · rfl
    · rename_i t rest heq
      simp only [Option.isSome_map]
      apply ih
      have ht : t ∈ (List.range n).filter fun e => !done e := by rw [heq]; simp
      have htn : t < n := by simpa using (List.mem_filter.1 ht).1
      have hlt : ((List.range n).filter fun e =>
          !(done e || ((t :: rest).filter (close t)).contains e)).length <
          ((List.range n).filter fun e => !done e).length := by
        have hsub : ((List.range n).filter fun e =>
            !(done e || ((t :: rest).filter (close t)).contains e)) =
            ((List.range n).filter fun e => !done e).filter fun e =>
              !((t :: rest).filter (close t)).contains e := by
          rw [List.filter_filter]
          apply List.filter_congr
          intro e _
          rw [Bool.eq_iff_iff]
          simp only [Bool.not_eq_true', Bool.or_eq_false_iff, Bool.and_eq_true]
          tauto
        rw [hsub]
        refine List.length_filter_lt_length_iff_exists.2 ⟨t, ht, ?_⟩
        simp [hrefl t htn]
      omega

/-- With a template that is not close to itself the loop stays where it is. -/
theorem nodeBatchLoop_stuck {n : Nat} {close : Nat → Nat → Bool} {t : Nat} (ht : close t t = false) (fuel : Nat)
    (done : Nat → Bool) (rest : List Nat) (h : ((List.range n).filter fun e => !done e) = t :: rest) :
    nodeBatchLoop n close fuel done = none := by
  induction fuel generalizing done rest with
  | zero => rfl
  | succ fuel ih =>
    rw [nodeBatchLoop]
    simp only [h]
    rw [ih (rest := rest.filter fun e => !((t :: rest).filter (close t)).contains e)]
    · rfl
    · have hsub : ((List.range n).filter fun e =>
          !(done e || ((t :: rest).filter (close t)).contains e)) =
          ((List.range n).filter fun e => !done e).filter fun e =>
            !((t :: rest).filter (close t)).contains e := by
        rw [List.filter_filter]
        apply List.filter_congr
        intro e _
        rw [Bool.eq_iff_iff]
        simp only [Bool.not_eq_true', Bool.or_eq_false_iff, Bool.and_eq_true]
        tauto
      rw [hsub, h, List.filter_cons_of_pos]
      simp [ht]

/-! ## Properties -/

/-- C30: whenever the loop ends, each template is in its batch. -/
theorem C30_template {n : Nat} {close : Nat → Nat → Bool} {fuel : Nat} {done : Nat → Bool} {bs : List NodeBatch}
    (h : nodeBatchLoop n close fuel done = some bs) : ∀ b ∈ bs, b.template ∈ b.els := by
  induction fuel generalizing done bs with
  | zero => simp [nodeBatchLoop] at h
  | succ fuel ih =>
    intro b hb
    have h' := h
    unfold nodeBatchLoop at h
    split at h
    · simp only [Option.some.injEq] at h
      subst h
      simp at hb
    · rename_i t rest heq
      simp only [Option.map_eq_some_iff] at h
      obtain ⟨bs', hbs', rfl⟩ := h
      rcases List.mem_cons.1 hb with rfl | hb
      · cases hc : close t t with
        | true => simp [hc]
        | false => rw [nodeBatchLoop_stuck hc _ _ _ heq] at h'; cases h'
      · exact ih hbs' b hb

/-- C30: for every relation that is reflexive the loop ends (after at most one round per element and
the last one); the batches contain every element exactly once; all elements of a batch are close to
the batch's nodes, those of the template element, which is itself in the batch. -/
theorem C30_batches (n : Nat) (close : Nat → Nat → Bool) (hrefl : ∀ e < n, close e e = true) :
    ∃ bs, nodeBatchLoop n close (n + 1) (fun _ => false) = some bs ∧
      (bs.flatMap NodeBatch.els).Perm (List.range n) ∧
      (∀ b ∈ bs, ∀ e ∈ b.els, close b.template e = true) ∧
      ∀ b ∈ bs, b.template ∈ b.els := by
  have ht := nodeBatchLoop_terminates hrefl (n + 1) (fun _ => false) (by simp)
  obtain ⟨bs, hbs⟩ := Option.isSome_iff_exists.1 ht
  obtain ⟨h1, h2, h3⟩ := nodeBatchLoop_sound hbs
  refine ⟨bs, hbs, by simpa using h1, h2, ?_⟩
  clear ht h1 h2
  -- the template is the first of the elements considered
  have key : ∀ fuel done bs, nodeBatchLoop n close fuel done = some bs →
      ∀ b ∈ bs, b.template ∈ b.els := by
    intro fuel
    induction fuel with
    | zero => intro done bs h; simp [nodeBatchLoop] at h
    | succ fuel ih =>
      intro done bs h b hb
      unfold nodeBatchLoop at h
      split at h
      · simp only [Option.some.injEq] at h
        subst h
        simp at hb
      · rename_i t rest heq
        simp only [Option.map_eq_some_iff] at h
        obtain ⟨bs', hbs', rfl⟩ := h
        rcases List.mem_cons.1 hb with rfl | hb
        · have htm : t ∈ (List.range n).filter fun e => !done e := by rw [heq]; simp
          have htn : t < n := by simpa using (List.mem_filter.1 htm).1
          simp [hrefl t htn]
        · exact ih _ _ hbs' b hb
  exact key _ _ _ hbs

/-- C30: more rounds do not change the result. -/
theorem C30_rounds {n : Nat} {close : Nat → Nat → Bool} {done : Nat → Bool} {fuel fuel' : Nat}
    {bs : List NodeBatch} (h : nodeBatchLoop n close fuel done = some bs) (hle : fuel ≤ fuel') :
    nodeBatchLoop n close fuel' done = some bs := by
  induction fuel generalizing done fuel' bs with
  | zero => simp [nodeBatchLoop] at h
  | succ fuel ih =>
    obtain ⟨f', rfl⟩ : ∃ f', fuel' = f' + 1 := ⟨fuel' - 1, by omega⟩
    unfold nodeBatchLoop at h ⊢
    split at h
    · exact h
    · rename_i t rest heq
      simp only [Option.map_eq_some_iff] at h ⊢
      obtain ⟨bs', hbs', rfl⟩ := h
      exact ⟨bs', ih hbs' (by omega), rfl⟩

/-- C30: the index arrays pair each source element with its target element, once. -/
theorem C30_index_arrays (n : Nat) (close : Nat → Nat → Bool) (hrefl : ∀ e < n, close e e = true)
    (src tgt : Nat → Nat) : ∃ ixs, nodeBatches n close (n + 1) src tgt = some ixs ∧
      (ixs.flatMap fun p => p.1.zip p.2).Perm ((List.range n).map fun e => (src e, tgt e)) := by
  obtain ⟨bs, hbs, hp, _⟩ := C30_batches n close hrefl
  refine ⟨_, by rw [nodeBatches, hbs]; rfl, ?_⟩
  rw [List.flatMap_map]
  have : (bs.flatMap fun b => (b.els.map src).zip (b.els.map tgt)) =
      (bs.flatMap NodeBatch.els).map fun e => (src e, tgt e) := by
    rw [List.map_flatMap]
    congr 1
    funext b
    rw [List.zip_map']
  rw [this]
  exact hp.map _

/-- Without reflexivity (an element with a node that is not a number) the loop never ends: in each
round no element is close to the template, so nothing is marked as done. -/
theorem C30_nan_counterexample (n : Nat) (hn : 0 < n) (close : Nat → Nat → Bool)
    (h0 : ∀ e < n, close 0 e = false) (fuel : Nat) :
    nodeBatchLoop n close fuel (fun _ => false) = none := by
  induction fuel with
  | zero => rfl
  | succ fuel ih =>
    unfold nodeBatchLoop
    obtain ⟨m, rfl⟩ : ∃ m, n = m + 1 := ⟨n - 1, by omega⟩
    have h1 : ((List.range (m + 1)).filter fun e => !(fun _ => false : Nat → Bool) e) =
        0 :: (List.range m).map Nat.succ := by
      simp [List.range_succ_eq_map]
    rw [h1]
    have h2 : (0 :: (List.range m).map Nat.succ).filter (close 0) = [] := by
      rw [← List.range_succ_eq_map, List.filter_eq_nil_iff]
      intro e he
      simp [h0 e (List.mem_range.1 he)]
    simp only [h2]
    simp [ih]

/-- Matching nodes directly: the result says for each target node a source node close to it, and
that no other one is. -/
theorem C30_matching {ntgt nsrc : Nat} {close : Nat → Nat → Bool} {p : List Nat}
    (h : matchNodes ntgt nsrc close = some p) : p.length = ntgt ∧
      ∀ t s, p[t]? = some s → s < nsrc ∧ close t s = true ∧ ∀ s' < nsrc, close t s' = true → s' = s := by
  unfold matchNodes at h
  have key : ∀ (l : List Nat) (p : List Nat), (l.mapM fun t =>
      match (List.range nsrc).filter (close t) with
      | [s] => some s
      | _ => none) = some p → p.length = l.length ∧ ∀ (k t s : Nat), l[k]? = some t → p[k]? = some s →
        (List.range nsrc).filter (close t) = [s] := by
    intro l
    induction l with
    | nil =>
      intro p h
      simp only [List.mapM_nil, Option.pure_def, Option.some.injEq] at h
      subst h
      simp
    | cons a l ih =>
      intro p h
      simp only [List.mapM_cons, Option.bind_eq_bind, Option.pure_def, Option.bind_eq_some_iff,
        Option.some.injEq] at h
      obtain ⟨s0, hs0, p', hp', rfl⟩ := h
      obtain ⟨i1, i2⟩ := ih p' hp'
      refine ⟨by simp [i1], ?_⟩
      intro k t s hk hs
      cases k with
      | zero =>
        simp only [List.getElem?_cons_zero, Option.some.injEq] at hk hs
        subst hk hs
        split at hs0
        · rename_i heq
          simp only [Option.some.injEq] at hs0
          rw [heq, hs0]
        · simp at hs0
      | succ k =>
        exact i2 k t s (by simpa using hk) (by simpa using hs)
  obtain ⟨h1, h2⟩ := key _ _ h
  refine ⟨by simpa using h1, ?_⟩
  intro t s hs
  have ht : t < ntgt := by
    have := (List.getElem?_eq_some_iff.1 hs).1
    simpa [h1] using this
  have hf := h2 t t s (by simp [ht]) hs
  have hmem : ∀ s', s' ∈ (List.range nsrc).filter (close t) ↔ s' = s := by
    intro s'
    rw [hf]
    simp
  have := (hmem s).2 rfl
  simp only [List.mem_filter, List.mem_range] at this hmem
  exact ⟨this.1, this.2, fun s' h1 h2 => (hmem s').1 ⟨h1, h2⟩⟩

example : nodeBatchLoop 5 (fun t e => t % 2 == e % 2) 6 (fun _ => false) =
    some [⟨0, [0, 2, 4]⟩, ⟨1, [1, 3]⟩] := by decide

example : matchNodes 3 3 (fun t s => (t + s) % 3 == 0) = some [0, 2, 1] := by decide

example : ∀ e < 5, (fun t e => t % 2 == e % 2 : Nat → Nat → Bool) e e = true := by decide

end Meshmode
