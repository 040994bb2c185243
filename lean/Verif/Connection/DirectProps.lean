import Verif.Connection.Direct
import Verif.Refine.Elements
import Mathlib.Tactic.FinCases
import Mathlib.Tactic.IntervalCases

/-!
# Direct connections: properties (C22, C23, C24)
-/
namespace Meshmode

open Finset

variable {R U : Type} [CommRing R]

/-! ### Merged picks (C23) -/

theorem sum_map_partition {α : Type} (l : List α) (k : α → Nat) (f : α → R) (keys : List Nat)
    (hn : keys.Nodup) (hk : ∀ a ∈ l, k a ∈ keys) :
    (l.map f).sum = (keys.map fun s => ((l.filter fun a => k a == s).map f).sum).sum := by
  induction l with
  | nil => simp
  | cons a l ih0 =>
    have ih0 := ih0 fun b hb => hk b (List.mem_cons_of_mem _ hb)
    rw [List.map_cons, List.sum_cons, ih0]
    have ha := hk a List.mem_cons_self
    clear ih0 hk
    revert hn ha
    clear * -
    intro hn ha
    induction keys with
    | nil => simp at ha
    | cons s ks ih =>
      simp only [List.map_cons, List.sum_cons]
      by_cases hs : k a = s
      · have hks : ∀ s' ∈ ks, (((a :: l).filter fun a => k a == s').map f).sum =
            ((l.filter fun a => k a == s').map f).sum := by
          intro s' hs'
          have : k a ≠ s' := by
            rintro rfl
            exact (List.nodup_cons.1 hn).1 (hs ▸ hs')
          rw [List.filter_cons_of_neg (by simpa using this)]
        rw [List.map_congr_left hks, List.filter_cons_of_pos (by simpa using hs)]
        simp only [List.map_cons, List.sum_cons]
        ring
      · rw [List.filter_cons_of_neg (by simpa using hs)]
        have := ih (List.nodup_cons.1 hn).2 (by
          rcases List.mem_cons.1 ha with h | h
          · exact absurd h hs
          · exact h)
        rw [← this]
        ring

theorem batch_source_mem {b : Batch U} {e f : Nat} (h : b.source e = some f) :
    e ∈ b.toEls ∧ f ∈ b.fromEls := by
  obtain ⟨l1, l2, he, _⟩ := List.lookup_eq_some_iff.1 h
  have : (e, f) ∈ b.toEls.zip b.fromEls := List.mem_reverse.1 (by rw [he]; simp)
  exact List.of_mem_zip this

theorem pickFill_eval {fromD : List (DGroup R U)} {ary : DofArr R} {s : Nat} {lists : List (List Nat)}
    {bs : List (Batch U × List Nat)} {idx idx' : Nat → Nat} {src src' : Nat → Option Nat}
    (hb : ∀ p ∈ bs, p.1.fromGroup = s ∧ p.2 ∈ lists ∧
      ∃ g, fromD[s]? = some g ∧ g.pick p.1.nodes = some p.2)
    (h : pickFill lists bs idx src = some (idx', src')) (e i : Nat) :
    pickEval ary ⟨s, lists, idx', src'⟩ e i =
      pickEval ary ⟨s, lists, idx, src⟩ e i + (bs.map fun p => batchEval fromD ary p.1 e i).sum := by
  induction bs generalizing idx src with
  | nil =>
    simp only [pickFill, Option.some.injEq, Prod.mk.injEq] at h
    obtain ⟨rfl, rfl⟩ := h
    simp
  | cons p bs ih =>
    obtain ⟨b, I⟩ := p
    simp only [pickFill] at h
    split at h
    · simp at h
    · rename_i hfree
      rw [ih (fun p hp => hb p (List.mem_cons_of_mem _ hp)) h]
      obtain ⟨h1, h2, g, h3, h4⟩ := hb (b, I) List.mem_cons_self
      simp only at h1 h2 h4
      simp only [List.map_cons, List.sum_cons, ← add_assoc]
      congr 1
      cases hs : b.source e with
      | none =>
        have : batchEval fromD ary b e i = 0 := by simp [batchEval, hs]
        rw [this, add_zero]
        simp only [pickEval, hs]
        cases hse : src e with
        | none => rfl
        | some f =>
          simp only
          by_cases he : e ∈ b.toEls
          · exfalso
            apply hfree
            rw [List.any_eq_true]
            exact ⟨e, he, by simp [hse]⟩
          · rw [if_neg he]
      | some f =>
        have he := (batch_source_mem hs).1
        have hse : src e = none := by
          cases hse : src e with
          | none => rfl
          | some f =>
            exfalso
            apply hfree
            rw [List.any_eq_true]
            exact ⟨e, he, by simp [hse]⟩
        simp only [pickEval, hs, hse, zero_add, if_pos he, batchEval, h1, h3, h4]
        congr 1
        rw [List.getD_eq_getElem?_getD (l := lists),
          List.getElem?_eq_getElem (List.idxOf_lt_length_of_mem h2), List.getElem_idxOf]
        rfl

theorem pickSources_eval {fromD : List (DGroup R U)} {ary : DofArr R}
    {bs : List (Batch U × List Nat)} {srcs : List Nat} {acc data : List PickData}
    (hb : ∀ p ∈ bs, ∃ g, fromD[p.1.fromGroup]? = some g ∧ g.pick p.1.nodes = some p.2)
    (h : pickSources bs srcs acc = .used data) (e i : Nat) :
    ∃ new, data = acc ++ new ∧ new.map (fun d => pickEval ary d e i) = srcs.map fun s =>
      (((bs.filter fun p => p.1.fromGroup == s)).map fun p => batchEval fromD ary p.1 e i).sum := by
  induction srcs generalizing acc with
  | nil =>
    simp only [pickSources, PickOutcome.used.injEq] at h
    exact ⟨[], by simp [h], rfl⟩
  | cons s srcs ih =>
    simp only [pickSources] at h
    split at h
    · simp at h
    · split at h
      · simp at h
      · rename_i idx src hf
        obtain ⟨new, h1, h2⟩ := ih h
        refine ⟨_ :: new, by rw [h1, List.append_assoc]; rfl, ?_⟩
        simp only [List.map_cons]
        rw [h2]
        congr 1
        have := pickFill_eval (fromD := fromD) (ary := ary) (s := s) (by
          intro p hp
          obtain ⟨hp1, hp2⟩ := List.mem_filter.1 hp
          have hps : p.1.fromGroup = s := by simpa using hp2
          refine ⟨hps, ?_, hps ▸ hb p hp1⟩
          rw [firstOccs_mem]
          exact List.mem_map.2 ⟨p, hp, rfl⟩) hf e i
        rw [this]
        simp [pickEval]

theorem batchEval_empty {fromD : List (DGroup R U)} {ary : DofArr R} {b : Batch U}
    (h : b.fromEls.isEmpty = true) (e i : Nat) : batchEval fromD ary b e i = 0 := by
  have : b.fromEls = [] := by simpa using h
  simp [batchEval, Batch.source, this]

theorem sum_map_filter_zero {α : Type} (l : List α) (p : α → Bool) (f : α → R)
    (h : ∀ a ∈ l, p a = false → f a = 0) : ((l.filter p).map f).sum = (l.map f).sum := by
  induction l with
  | nil => rfl
  | cons a l ih =>
    have ih := ih fun b hb => h b (List.mem_cons_of_mem _ hb)
    cases hp : p a with
    | true => rw [List.filter_cons_of_pos hp, List.map_cons, List.sum_cons, ih]; simp
    | false =>
      rw [List.filter_cons_of_neg (by simp [hp]), ih, List.map_cons, List.sum_cons,
        h a List.mem_cons_self hp, zero_add]

theorem batchPath_eq (fromD : List (DGroup R U)) (ary : DofArr R) (bs : List (Batch U))
    (e i : Nat) : batchPath fromD ary bs e i = (bs.map fun b => batchEval fromD ary b e i).sum := by
  unfold batchPath
  apply sum_map_filter_zero
  intro b _ hb
  exact batchEval_empty (by simpa using hb) e i

theorem pickInfo_eval {fromD : List (DGroup R U)} {batches : List (Batch U)}
    {data : List PickData} (h : pickInfo fromD batches = .used data) (ary : DofArr R) (e i : Nat) :
    (data.map fun d => pickEval ary d e i).sum =
      (batches.map fun b => batchEval fromD ary b e i).sum := by
  unfold pickInfo at h
  split at h
  · simp at h
  · rename_i bs hbs
    split at h
    · simp at h
    · obtain ⟨l1, l2⟩ := mapM_getElem?_some hbs
      have hfst : bs.map Prod.fst = batches := by
        apply List.ext_getElem?
        intro k
        rw [List.getElem?_map]
        by_cases hk : k < batches.length
        · obtain ⟨p, hp, hp'⟩ := l2 k _ (List.getElem?_eq_getElem hk)
          obtain ⟨I, _, rfl⟩ := Option.map_eq_some_iff.1 hp'
          rw [hp, List.getElem?_eq_getElem hk]
          rfl
        · rw [List.getElem?_eq_none (by omega), List.getElem?_eq_none (by omega)]
          rfl
      have hb : ∀ p ∈ bs, ∃ g, fromD[p.1.fromGroup]? = some g ∧ g.pick p.1.nodes = some p.2 := by
        intro p hp
        obtain ⟨k, hk⟩ := List.mem_iff_getElem?.1 hp
        have hkl := (List.getElem?_eq_some_iff.1 hk).1
        obtain ⟨q, hq, hq'⟩ := l2 k _ (List.getElem?_eq_getElem (by omega))
        rw [hk] at hq
        cases hq
        obtain ⟨I, hI, rfl⟩ := Option.map_eq_some_iff.1 hq'
        exact Option.bind_eq_some_iff.1 hI
      obtain ⟨new, h1, h2⟩ := pickSources_eval (ary := ary) hb h e i
      rw [h1, List.nil_append, h2]
      conv_rhs => rw [← hfst, List.map_map]
      symm
      refine sum_map_partition (R := R) bs (fun p => p.1.fromGroup) _ _ ?_ ?_
      · exact nodup_npUnique _
      · intro p hp
        rw [mem_npUnique]
        exact List.mem_map.2 ⟨p.1, hfst ▸ List.mem_map.2 ⟨p, hp, rfl⟩, rfl⟩

theorem pickFill_src {lists : List (List Nat)} {bs : List (Batch U × List Nat)}
    {idx idx' : Nat → Nat} {src src' : Nat → Option Nat}
    (h : pickFill lists bs idx src = some (idx', src')) {e f : Nat} (he : src' e = some f) :
    src e = some f ∨ ∃ p ∈ bs, f ∈ p.1.fromEls := by
  induction bs generalizing idx src with
  | nil =>
    simp only [pickFill, Option.some.injEq, Prod.mk.injEq] at h
    exact Or.inl (h.2 ▸ he)
  | cons p bs ih =>
    obtain ⟨b, I⟩ := p
    simp only [pickFill] at h
    split at h
    · simp at h
    · rcases ih h with h1 | ⟨p, hp, h1⟩
      · split at h1
        · rename_i f' hf'
          simp only [Option.some.injEq] at h1
          subst h1
          exact Or.inr ⟨_, List.mem_cons_self, (batch_source_mem hf').2⟩
        · exact Or.inl h1
      · exact Or.inr ⟨p, List.mem_cons_of_mem _ hp, h1⟩

theorem pickSources_src {bs : List (Batch U × List Nat)} {srcs : List Nat}
    {acc data : List PickData} (h : pickSources bs srcs acc = .used data) {d : PickData}
    (hd : d ∈ data) : d ∈ acc ∨ ∀ e f, d.src e = some f → ∃ p ∈ bs, p.1.fromGroup = d.fromGroup ∧
      f ∈ p.1.fromEls := by
  induction srcs generalizing acc with
  | nil =>
    simp only [pickSources, PickOutcome.used.injEq] at h
    exact Or.inl (h ▸ hd)
  | cons s srcs ih =>
    simp only [pickSources] at h
    split at h
    · simp at h
    · split at h
      · simp at h
      · rename_i idx src hf
        rcases ih h with h1 | h1
        · rcases List.mem_append.1 h1 with h2 | h2
          · exact Or.inl h2
          · rw [List.mem_singleton] at h2
            subst h2
            refine Or.inr fun e f he => ?_
            rcases pickFill_src hf he with h3 | ⟨p, hp, h3⟩
            · simp at h3
            · obtain ⟨h4, h5⟩ := List.mem_filter.1 hp
              exact ⟨p, h4, by simpa using h5, h3⟩
        · exact Or.inr h1

omit [CommRing R] in
theorem pickInfo_src {fromD : List (DGroup R U)} {batches : List (Batch U)}
    {data : List PickData} (h : pickInfo fromD batches = .used data) {d : PickData} (hd : d ∈ data)
    {e f : Nat} (he : d.src e = some f) : ∃ b ∈ batches, b.fromGroup = d.fromGroup ∧
      f ∈ b.fromEls ∧ ∃ g I, fromD[b.fromGroup]? = some g ∧ g.pick b.nodes = some I := by
  unfold pickInfo at h
  split at h
  · simp at h
  · rename_i bs hbs
    split at h
    · simp at h
    · rcases pickSources_src h hd with h1 | h1
      · simp at h1
      · obtain ⟨p, hp, h2, h3⟩ := h1 e f he
        obtain ⟨l1, l2⟩ := mapM_getElem?_some hbs
        obtain ⟨k, hk⟩ := List.mem_iff_getElem?.1 hp
        have hkl := (List.getElem?_eq_some_iff.1 hk).1
        obtain ⟨q, hq, hq'⟩ := l2 k _ (List.getElem?_eq_getElem (by omega))
        rw [hk] at hq
        cases hq
        obtain ⟨I, hI, he⟩ := Option.map_eq_some_iff.1 hq'
        rw [← he] at h2 h3
        obtain ⟨g, hg, hg'⟩ := Option.bind_eq_some_iff.1 hI
        exact ⟨_, List.getElem_mem _, h2, h3, g, I, hg, hg'⟩

/-- Specification: interpolation by the batch's matrix. -/
def interpEval (fromD : List (DGroup R U)) (ary : DofArr R) (b : Batch U) (e i : Nat) : R :=
  match b.source e, fromD[b.fromGroup]? with
  | some f, some g => ∑ j ∈ range g.ndof, g.mat b.nodes i j * ary b.fromGroup f j
  | _, _ => 0

theorem batchEval_eq_interp {fromD : List (DGroup R U)} (hs : ∀ g ∈ fromD, PickSound g)
    {ary : DofArr R} {b : Batch U} {i : Nat}
    (hi : ∀ g I, fromD[b.fromGroup]? = some g → g.pick b.nodes = some I → i < I.length) (e : Nat) :
    batchEval fromD ary b e i = interpEval fromD ary b e i := by
  unfold batchEval interpEval
  cases b.source e with
  | none => rfl
  | some f =>
    cases hg : fromD[b.fromGroup]? with
    | none => rfl
    | some g =>
      simp only
      cases hp : g.pick b.nodes with
      | none => rfl
      | some I =>
        simp only
        obtain ⟨h1, h2⟩ := hs g (List.mem_of_getElem? hg) _ _ hp i (hi g I hg hp)
        simp only [h2, ite_mul, one_mul, zero_mul]
        rw [Finset.sum_ite_eq' (range g.ndof), if_pos (Finset.mem_range.2 h1)]

/-- Value of a group evaluation as the sum of what the batches give. -/
theorem groupCall_batchSum {fromD : List (DGroup R U)} {batches : List (Batch U)}
    (hb : ∀ b ∈ batches, ∃ g, fromD[b.fromGroup]? = some g ∧ (∀ f ∈ b.fromEls, f < g.nel) ∧
      (g.pick b.nodes ≠ none → g.ndof ≠ 0))
    {merge : Bool} {ary : DofArr R} {u : Nat → Nat → R}
    (h : groupCall merge fromD ary batches = some u) (e i : Nat) :
    u e i = (batches.map fun b => batchEval fromD ary b e i).sum := by
  unfold groupCall at h
  split at h
  · simp at h
  · simp only [Option.some.injEq] at h
    rw [← h, batchPath_eq]
  · rename_i data hd
    split at h
    · simp only [Option.some.injEq] at h
      rw [← h, ← pickInfo_eval hd ary e i]
      apply sum_map_filter_zero
      intro d hdm hz
      unfold pickEval
      cases hse : d.src e with
      | none => rfl
      | some f =>
        exfalso
        obtain ⟨b, hbm, h1, h2, g, I, hg, hI⟩ := pickInfo_src hd hdm hse
        obtain ⟨g', hg', h3, hl⟩ := hb b hbm
        rw [hg] at hg'
        cases hg'
        have h4 := h3 f h2
        have h5 := hl (by simp [hI])
        rw [h1] at hg
        rw [hg] at hz
        simp only [bne_eq_false_iff_eq] at hz
        rcases Nat.mul_eq_zero.1 hz with h | h <;> omega
    · simp only [Option.some.injEq] at h
      rw [← h, batchPath_eq]

/-- Value of a group evaluation, by picks or by batches, for valid unit nodes. -/
theorem groupCall_eq {fromD : List (DGroup R U)} (hs : ∀ g ∈ fromD, PickSound g)
    {batches : List (Batch U)} {nt : Nat} (hb : ∀ b ∈ batches, ∃ g, fromD[b.fromGroup]? = some g ∧
      (∀ f ∈ b.fromEls, f < g.nel) ∧ ∀ I, g.pick b.nodes = some I → I.length = nt)
    {merge : Bool} {ary : DofArr R} {u : Nat → Nat → R}
    (h : groupCall merge fromD ary batches = some u) (e : Nat) {i : Nat} (hi : i < nt) :
    u e i = (batches.map fun b => interpEval fromD ary b e i).sum := by
  have hmap : (batches.map fun b => interpEval fromD ary b e i).sum =
      (batches.map fun b => batchEval fromD ary b e i).sum := by
    congr 1
    apply List.map_congr_left
    intro b hbm
    refine (batchEval_eq_interp hs ?_ e).symm
    intro g I hg hI
    obtain ⟨g', hg', _, hl⟩ := hb b hbm
    rw [hg] at hg'
    cases hg'
    rw [hl I hI]
    exact hi
  rw [hmap]
  refine groupCall_batchSum ?_ h e i
  intro b hbm
  obtain ⟨g, hg, h3, hl⟩ := hb b hbm
  refine ⟨g, hg, h3, fun hne => ?_⟩
  obtain ⟨I, hI⟩ := Option.ne_none_iff_exists'.1 hne
  have h5 := (hs g (List.mem_of_getElem? hg) _ _ hI i (by rw [hl I hI]; exact hi)).1
  omega

theorem call_getElem {c : DirectConn R U} {merge : Bool} {ary u : DofArr R}
    (h : c.call merge ary = some u) {t : Nat} {bs : List (Batch U)} (ht : c.groups[t]? = some bs) :
    groupCall merge c.fromD ary bs = some (u t) := by
  unfold DirectConn.call at h
  obtain ⟨gs, hgs, rfl⟩ := Option.map_eq_some_iff.1 h
  obtain ⟨_, h2⟩ := mapM_getElem?_some hgs
  obtain ⟨f, hf, hf'⟩ := h2 t bs ht
  rw [hf']
  simp only [hf]

/-- C23: whether merged picks or batches are used, the connection returns, on each target element
and unit node, the sum over the batches of the interpolated values, so both ways agree. -/
theorem C23_value {c : DirectConn R U} (hc : c.Valid) (hs : ∀ g ∈ c.fromD, PickSound g)
    {merge : Bool} {ary u : DofArr R} (h : c.call merge ary = some u) {t e i : Nat}
    {bs : List (Batch U)} {tg : DGroup R U} (ht : c.groups[t]? = some bs)
    (htg : c.toD[t]? = some tg) (hi : i < tg.ndof) :
    u t e i = (bs.map fun b => interpEval c.fromD ary b e i).sum := by
  refine groupCall_eq hs ?_ (call_getElem h ht) e hi
  intro b hb
  obtain ⟨_, _, _, g, hg, h1, h2⟩ := hc.batch t bs tg ht htg b hb
  exact ⟨g, hg, h1, h2⟩

theorem C23_pick_path_eq {c : DirectConn R U} (hc : c.Valid) (hs : ∀ g ∈ c.fromD, PickSound g)
    {ary u v : DofArr R} (hu : c.call true ary = some u) (hv : c.call false ary = some v)
    {t e i : Nat} {tg : DGroup R U} (htg : c.toD[t]? = some tg) (hi : i < tg.ndof) :
    u t e i = v t e i := by
  have htl : t < c.groups.length := by
    rw [hc.ngroups]
    exact (List.getElem?_eq_some_iff.1 htg).1
  rw [C23_value hc hs hu (List.getElem?_eq_getElem htl) htg hi,
    C23_value hc hs hv (List.getElem?_eq_getElem htl) htg hi]

/-- Whether the connection raises does not depend on the way of evaluation or the data. -/
theorem C23_defined (c : DirectConn R U) (merge merge' : Bool) (ary ary' : DofArr R) :
    (c.call merge ary).isSome = (c.call merge' ary').isSome := by
  have key : ∀ bs : List (Batch U), (groupCall merge c.fromD ary bs).isSome =
      (groupCall merge' c.fromD ary' bs).isSome := by
    intro bs
    unfold groupCall
    cases pickInfo c.fromD bs with
    | raises => rfl
    | unused => rfl
    | used d => simp only; split <;> split <;> rfl
  unfold DirectConn.call
  simp only [Option.isSome_map]
  generalize c.groups = gs
  induction gs with
  | nil => rfl
  | cons a gs ih =>
    simp only [List.mapM_cons, Option.bind_eq_bind, Option.pure_def]
    have := key a
    cases h1 : groupCall merge c.fromD ary a <;> cases h2 : groupCall merge' c.fromD ary' a <;>
      simp_all [Option.isSome_bind]

theorem pickSources_defined {bs : List (Batch U × List Nat)} {l : List Nat} {acc : List PickData}
    (h : ∀ (s : Nat) (L : List (List Nat)), L.Nodup → (∀ I ∈ L, ∃ p ∈ bs, p.1.fromGroup = s ∧ p.2 = I) → L.length ≤ 128) :
    pickSources bs l acc ≠ .raises := by
  induction l generalizing acc with
  | nil => simp [pickSources]
  | cons s l ih =>
    unfold pickSources
    simp only
    rw [if_neg]
    · split
      · simp
      · exact ih
    · have := h s (firstOccs ((bs.filter fun p => p.1.fromGroup == s).map Prod.snd))
        (nodup_firstOccs _) fun I hI => by
          rw [firstOccs_mem, List.mem_map] at hI
          obtain ⟨p, hp, rfl⟩ := hI
          rw [List.mem_filter] at hp
          exact ⟨p, hp.1, by simpa using hp.2, rfl⟩
      omega

/-- C23: the connection can be evaluated whenever no target group is reached from one source group
through more than 128 different pick lists. -/
theorem C23_evaluates {c : DirectConn R U} (merge : Bool) (ary : DofArr R)
    (h : ∀ bs ∈ c.groups, ∀ (s : Nat) (L : List (List Nat)), L.Nodup →
      (∀ I ∈ L, ∃ b ∈ bs, b.fromGroup = s ∧ ∃ g, c.fromD[s]? = some g ∧ g.pick b.nodes = some I) →
      L.length ≤ 128) : ∃ u, c.call merge ary = some u := by
  rw [← Option.isSome_iff_exists, DirectConn.call, Option.isSome_map, Option.isSome_iff_exists]
  refine mapM_isSome_of fun bs hbs => ?_
  have hne : pickInfo c.fromD bs ≠ .raises := by
    unfold pickInfo
    split
    · simp
    · rename_i bs' hbs'
      split
      · simp
      · refine pickSources_defined fun s L hn hL => h bs hbs s L hn fun I hI => ?_
        obtain ⟨p, hp, h1, h2⟩ := hL I hI
        obtain ⟨k, hk⟩ := List.mem_iff_getElem?.1 hp
        obtain ⟨hlen, hall⟩ := mapM_getElem?_some hbs'
        have hkl := (List.getElem?_eq_some_iff.1 hk).1
        rw [hlen] at hkl
        obtain ⟨p', hp', hbp⟩ := hall k _ (List.getElem?_eq_getElem hkl)
        rw [hk, Option.some.injEq] at hp'
        subst hp'
        rw [Option.map_eq_some_iff] at hbp
        obtain ⟨I', hI', rfl⟩ := hbp
        rw [Option.bind_eq_some_iff] at hI'
        obtain ⟨g, hg, hg'⟩ := hI'
        simp only at h1 h2
        subst h1 h2
        exact ⟨_, List.getElem_mem hkl, rfl, g, hg, hg'⟩
  unfold groupCall
  split
  · rename_i hr; exact absurd hr hne
  · exact ⟨_, rfl⟩
  · split <;> exact ⟨_, rfl⟩

/-- In particular 128 batches per target group can always be evaluated. -/
theorem C23_evaluates_few {c : DirectConn R U} (merge : Bool) (ary : DofArr R)
    (h : ∀ bs ∈ c.groups, bs.length ≤ 128) : ∃ u, c.call merge ary = some u := by
  refine C23_evaluates merge ary fun bs hbs s L hn hL => le_trans ?_ (h bs hbs)
  have hsub : L.map some ⊆ bs.map fun b => (c.fromD[s]?).bind fun g => g.pick b.nodes := by
    intro x hx
    obtain ⟨I, hI, rfl⟩ := List.mem_map.1 hx
    obtain ⟨b, hb, _, g, hg, hg'⟩ := hL I hI
    exact List.mem_map.2 ⟨b, hb, by rw [hg, Option.bind_some, hg']⟩
  have := (List.subperm_of_subset (hn.map (Option.some_injective _)) hsub).length_le
  simpa using this

/-! ### Linearity (C24) -/

theorem batchEval_lin (fromD : List (DGroup R U)) (x y : DofArr R) (a : R) (b : Batch U)
    (e i : Nat) : batchEval fromD (fun g e i => a * x g e i + y g e i) b e i =
      a * batchEval fromD x b e i + batchEval fromD y b e i := by
  unfold batchEval
  cases b.source e with
  | none => simp
  | some f =>
    cases fromD[b.fromGroup]? with
    | none => simp
    | some g =>
      simp only
      cases g.pick b.nodes with
      | some I => rfl
      | none =>
        simp only
        rw [Finset.mul_sum, ← Finset.sum_add_distrib]
        apply Finset.sum_congr rfl
        intro j _
        ring

theorem pickEval_lin (x y : DofArr R) (a : R) (d : PickData) (e i : Nat) :
    pickEval (fun g e i => a * x g e i + y g e i) d e i =
      a * pickEval x d e i + pickEval y d e i := by
  unfold pickEval
  cases d.src e <;> simp

theorem list_sum_lin {α : Type} (l : List α) (a : R) (f g h : α → R)
    (hl : ∀ b ∈ l, f b = a * g b + h b) :
    (l.map f).sum = a * (l.map g).sum + (l.map h).sum := by
  induction l with
  | nil => simp
  | cons b l ih =>
    simp only [List.map_cons, List.sum_cons]
    rw [ih fun c hc => hl c (List.mem_cons_of_mem _ hc), hl b List.mem_cons_self]
    ring

theorem groupCall_lin (merge : Bool) (fromD : List (DGroup R U)) (x y : DofArr R) (a : R)
    (bs : List (Batch U)) : groupCall merge fromD (fun g e i => a * x g e i + y g e i) bs =
      (groupCall merge fromD x bs).bind fun u => (groupCall merge fromD y bs).map fun v =>
        fun e i => a * u e i + v e i := by
  unfold groupCall
  have hp : ∀ (z : DofArr R) (l : List (Batch U)), batchPath fromD z l = fun e i =>
      ((l.filter fun b => !b.fromEls.isEmpty).map fun b => batchEval fromD z b e i).sum :=
    fun _ _ => rfl
  cases pickInfo fromD bs with
  | raises => rfl
  | unused =>
    simp only [Option.bind_some, Option.map_some, hp]
    congr 1
    funext e i
    exact list_sum_lin _ _ _ _ _ fun b _ => batchEval_lin _ _ _ _ _ _ _
  | used data =>
    simp only
    split
    · simp only [Option.bind_some, Option.map_some]
      congr 1
      funext e i
      exact list_sum_lin _ _ _ _ _ fun b _ => pickEval_lin _ _ _ _ _ _
    · simp only [Option.bind_some, Option.map_some, hp]
      congr 1
      funext e i
      exact list_sum_lin _ _ _ _ _ fun b _ => batchEval_lin _ _ _ _ _ _ _

theorem mapM_lin {α : Type} (l : List α) (F G H : α → Option (Nat → Nat → R)) (a : R)
    (h : ∀ b, F b = (G b).bind fun u => (H b).map fun v => fun e i => a * u e i + v e i) :
    l.mapM F = (l.mapM G).bind fun us => (l.mapM H).map fun vs =>
      us.zipWith (fun u v e i => a * u e i + v e i) vs := by
  induction l with
  | nil => rfl
  | cons b l ih =>
    simp only [List.mapM_cons, Option.bind_eq_bind, Option.pure_def, ih, h]
    cases G b <;> cases H b <;> cases l.mapM G <;> cases l.mapM H <;> rfl

/-- C24: applying a connection to `a * x + y` gives `a` times the result for `x` plus the result
for `y`; both are defined together. -/
theorem C24_direct_linear (c : DirectConn R U) (merge : Bool) (x y : DofArr R) (a : R) :
    c.call merge (fun g e i => a * x g e i + y g e i) =
      (c.call merge x).bind fun u => (c.call merge y).map fun v =>
        fun g e i => a * u g e i + v g e i := by
  unfold DirectConn.call
  rw [mapM_lin _ _ _ _ a (groupCall_lin merge c.fromD x y a)]
  cases hx : c.groups.mapM (groupCall merge c.fromD x) with
  | none => rfl
  | some us =>
    cases hy : c.groups.mapM (groupCall merge c.fromD y) with
    | none => rfl
    | some vs =>
      simp only [Option.bind_some, Option.map_some]
      congr 1
      funext g e i
      have hl : us.length = vs.length := by
        rw [(mapM_getElem?_some hx).1, (mapM_getElem?_some hy).1]
      rw [List.getElem?_zipWith]
      by_cases hg : g < us.length
      · rw [List.getElem?_eq_getElem hg, List.getElem?_eq_getElem (by omega : g < vs.length)]
      · rw [List.getElem?_eq_none (by omega : us.length ≤ g),
          List.getElem?_eq_none (by omega : vs.length ≤ g)]
        simp

/-- C24: zero is mapped to zero. -/
theorem C24_direct_zero {c : DirectConn R U} {merge : Bool} {u : DofArr R}
    (h : c.call merge (fun _ _ _ => 0) = some u) : u = fun _ _ _ => 0 := by
  have := C24_direct_linear c merge (fun _ _ _ => 0) (fun _ _ _ => 0) (-1)
  simp only [mul_zero, add_zero] at this
  rw [h] at this
  simp only [Option.bind_some, Option.map_some, Option.some.injEq] at this
  rw [this]
  funext g e i
  ring

/-! ### The dense matrix (C22) -/

theorem take_zipIdx {α : Type} (l : List α) (g : Nat) : l.zipIdx.take g = (l.take g).zipIdx := by
  apply List.ext_getElem?
  intro k
  simp only [List.getElem?_take, List.getElem?_zipIdx]
  split <;> simp

theorem map_fst_zip_sublist {α β : Type} (l : List α) (l' : List β) :
    ((l.zip l').map Prod.fst).Sublist l := by
  induction l generalizing l' with
  | nil => simp
  | cons a l ih =>
    cases l' with
    | nil => simp
    | cons b l' => simpa using ih l'

omit [CommRing R] in
theorem flattenDof_eq (D : List (DGroup R U)) (ary : DofArr R) :
    flattenDof D ary = (D.zipIdx.map fun p => ((List.range p.1.nel).map fun e =>
      (List.range p.1.ndof).map fun i => ary p.2 e i).flatten).flatten := by
  unfold flattenDof
  rw [List.flatMap_def]
  congr 1

omit [CommRing R] in
theorem length_blocks (n m : Nat) (f : Nat → Nat → R) :
    ((List.range n).map fun e => (List.range m).map fun i => f e i).flatten.length = n * m := by
  rw [List.length_flatten, List.map_map]
  have : (List.length ∘ fun e => (List.range m).map fun i => f e i) = fun _ => m := by
    funext e; simp
  rw [this]
  simp

omit [CommRing R] in
theorem length_flattenDof (D : List (DGroup R U)) (ary : DofArr R) :
    (flattenDof D ary).length = dofCount D := by
  rw [flattenDof_eq, List.length_flatten, List.map_map]
  have : (List.length ∘ fun p : DGroup R U × Nat => ((List.range p.1.nel).map fun e =>
      (List.range p.1.ndof).map fun i => ary p.2 e i).flatten) = fun p => p.1.nel * p.1.ndof := by
    funext p
    exact length_blocks _ _ _
  rw [this]
  unfold dofCount
  have h2 : (fun p : DGroup R U × Nat => p.1.nel * p.1.ndof) =
      (fun g : DGroup R U => g.nel * g.ndof) ∘ Prod.fst := rfl
  rw [h2, ← List.map_map, List.zipIdx_map_fst]

omit [CommRing R] in
theorem flattenDof_take (D : List (DGroup R U)) (ary : DofArr R) (g : Nat) :
    ((D.zipIdx.map fun p => ((List.range p.1.nel).map fun e =>
      (List.range p.1.ndof).map fun i => ary p.2 e i).flatten).take g).flatten.length =
      dofStart D g := by
  rw [← List.map_take, take_zipIdx, ← flattenDof_eq, length_flattenDof]
  rfl

omit [CommRing R] in
theorem flattenDof_getElem? {D : List (DGroup R U)} (ary : DofArr R) {g e i : Nat}
    {dg : DGroup R U} (hg : D[g]? = some dg) (he : e < dg.nel) (hi : i < dg.ndof) :
    (flattenDof D ary)[dofStart D g + e * dg.ndof + i]? = some (ary g e i) := by
  rw [flattenDof_eq, Nat.add_assoc, ← flattenDof_take D ary g]
  apply flatten_index (l := ((List.range dg.nel).map fun e =>
      (List.range dg.ndof).map fun i => ary g e i).flatten)
  · rw [List.getElem?_map, List.getElem?_zipIdx, hg]
    simp
  · have := flatten_index ((List.range dg.nel).map fun e =>
      (List.range dg.ndof).map fun i => ary g e i) (i := e) (j := i) (a := ary g e i)
      (l := (List.range dg.ndof).map fun i => ary g e i) (by simp [he]) (by simp [hi])
    rw [← List.map_take, List.take_range, length_blocks, Nat.min_eq_left (by omega)] at this
    exact this

/-- Every flat position belongs to a group, element and unit node. -/
theorem flat_index_exists {D : List (DGroup R U)} {r : Nat} (hr : r < dofCount D) :
    ∃ g e i dg, D[g]? = some dg ∧ e < dg.nel ∧ i < dg.ndof ∧
      r = dofStart D g + e * dg.ndof + i := by
  have ary : DofArr R := fun _ _ _ => 0
  rw [← length_flattenDof D ary, flattenDof_eq] at hr
  obtain ⟨g, j, l, h1, h2, h3⟩ := flatten_index_exists _ hr
  rw [flattenDof_take] at h3
  rw [List.getElem?_map, List.getElem?_zipIdx] at h1
  cases hg : D[g]? with
  | none => simp [hg] at h1
  | some dg =>
    simp only [hg, Option.map_some, Option.some.injEq, Nat.zero_add] at h1
    rw [← h1] at h2
    obtain ⟨e, i, l', h4, h5, h6⟩ := flatten_index_exists _ h2
    rw [List.getElem?_map] at h4
    have he : e < dg.nel := by
      by_contra hne
      rw [List.getElem?_eq_none (by simpa using hne)] at h4
      simp at h4
    rw [List.getElem?_range he] at h4
    simp only [Option.map_some, Option.some.injEq] at h4
    rw [← List.map_take, List.take_range, length_blocks, Nat.min_eq_left (by omega)] at h6
    refine ⟨g, e, i, dg, hg, he, ?_, by omega⟩
    rw [← h4] at h5
    simpa using h5

omit [CommRing R] in
theorem dofStart_mono {D : List (DGroup R U)} {g g' : Nat} {dg : DGroup R U} (hg : D[g]? = some dg)
    (h : g < g') : dofStart D g + dg.nel * dg.ndof ≤ dofStart D g' := by
  unfold dofStart dofCount
  have h1 : D.take g' = D.take g ++ dg :: (D.take g').drop (g + 1) := by
    have hl := (List.getElem?_eq_some_iff.1 hg).1
    have e1 : D.take g = (D.take g').take g := by rw [List.take_take, Nat.min_eq_left (by omega)]
    rw [e1]
    have : (D.take g')[g]? = some dg := by rw [List.getElem?_take, if_pos h, hg]
    obtain ⟨h2, h3⟩ := List.getElem?_eq_some_iff.1 this
    rw [← h3, List.getElem_cons_drop, List.take_append_drop]
  rw [h1]
  simp only [List.map_append, List.map_cons, List.sum_append, List.sum_cons]
  omega

omit [CommRing R] in
theorem dofStart_le_count {D : List (DGroup R U)} {g : Nat} {dg : DGroup R U}
    (hg : D[g]? = some dg) : dofStart D g + dg.nel * dg.ndof ≤ dofCount D := by
  have := dofStart_mono hg (g' := D.length) (List.getElem?_eq_some_iff.1 hg).1
  unfold dofStart at this ⊢
  rwa [List.take_length] at this

theorem elem_block_le {e nel n : Nat} (h : e < nel) : e * n + n ≤ nel * n := by
  have : e * n + n = (e + 1) * n := by rw [Nat.add_mul, Nat.one_mul]
  rw [this]
  exact Nat.mul_le_mul_right _ h

theorem elem_block_ne {e e' n i : Nat} (hi : i < n) (h1 : e' * n ≤ e * n + i)
    (h2 : e * n + i < e' * n + n) : e' = e := by
  rcases Nat.lt_trichotomy e e' with h | h | h
  · have := Nat.mul_le_mul_right n h
    rw [Nat.succ_mul] at this
    omega
  · exact h.symm
  · have := Nat.mul_le_mul_right n h
    rw [Nat.succ_mul] at this
    omega

theorem sum_block (N s n : Nat) (h : s + n ≤ N) (f : Nat → R) :
    ∑ j ∈ range N, (if s ≤ j ∧ j < s + n then f j else 0) = ∑ k ∈ range n, f (s + k) := by
  rw [← Finset.sum_filter]
  have : (range N).filter (fun j => s ≤ j ∧ j < s + n) = Finset.Ico s (s + n) := by
    ext j
    simp only [Finset.mem_filter, Finset.mem_range, Finset.mem_Ico]
    omega
  rw [this, Finset.sum_Ico_eq_sum_range]
  simp

/-- A row of a batch's matrix in the batch's own target group. -/
theorem batchMatrix_row {tb sb ndt nds : Nat} {mat : Nat → Nat → R} {b : Batch U}
    (hn : b.toEls.Nodup) {e i : Nat} (hi : i < ndt) (j : Nat) :
    batchMatrix tb sb ndt nds mat b (tb + e * ndt + i) j = match b.source e with
      | none => 0
      | some f => if sb + f * nds ≤ j ∧ j < sb + f * nds + nds then mat i (j - (sb + f * nds))
        else 0 := by
  unfold batchMatrix Batch.source
  have hn' : ((b.toEls.zip b.fromEls).reverse.map Prod.fst).Nodup := by
    rw [List.map_reverse, List.nodup_reverse]
    exact hn.sublist (map_fst_zip_sublist _ _)
  generalize (b.toEls.zip b.fromEls).reverse = l at *
  have hout : ∀ p : Nat × Nat, p.1 ≠ e → ¬(tb + p.1 * ndt ≤ tb + e * ndt + i ∧
      tb + e * ndt + i < tb + p.1 * ndt + ndt ∧ sb + p.2 * nds ≤ j ∧ j < sb + p.2 * nds + nds) := by
    rintro p hp ⟨h1, h2, _⟩
    exact hp (elem_block_ne hi (by omega) (by omega))
  induction l with
  | nil => rfl
  | cons p l ih =>
    simp only [List.map_cons, List.nodup_cons] at hn'
    rw [List.findSome?_cons, List.lookup_cons]
    by_cases hp : p.1 = e
    · obtain ⟨e', f⟩ := p
      simp only at hp
      subst hp
      simp only [beq_self_eq_true]
      have hnil : l.findSome? (fun p => if tb + p.1 * ndt ≤ tb + e' * ndt + i ∧
          tb + e' * ndt + i < tb + p.1 * ndt + ndt ∧ sb + p.2 * nds ≤ j ∧ j < sb + p.2 * nds + nds
          then some (mat (tb + e' * ndt + i - (tb + p.1 * ndt)) (j - (sb + p.2 * nds)))
          else none) = none := by
        rw [List.findSome?_eq_none_iff]
        intro q hq
        rw [if_neg]
        apply hout
        intro h
        exact hn'.1 (h ▸ List.mem_map.2 ⟨q, hq, rfl⟩)
      by_cases hj : sb + f * nds ≤ j ∧ j < sb + f * nds + nds
      · rw [if_pos ⟨by omega, by omega, hj.1, hj.2⟩, if_pos hj]
        simp only [Option.getD_some]
        congr 1
        omega
      · rw [if_neg (fun h => hj ⟨h.2.2.1, h.2.2.2⟩), if_neg hj]
        simp only
        rw [hnil]
        rfl
    · rw [if_neg (hout p hp), beq_eq_false_iff_ne.2 (Ne.symm hp)]
      simp only
      exact ih hn'.2

/-- A batch has no entries in the rows of other target groups. -/
theorem batchMatrix_other {tb sb ndt nds nel : Nat} {mat : Nat → Nat → R} {b : Batch U}
    (hb : ∀ e ∈ b.toEls, e < nel) {r : Nat} (hr : r < tb ∨ tb + nel * ndt ≤ r) (j : Nat) :
    batchMatrix tb sb ndt nds mat b r j = 0 := by
  unfold batchMatrix
  have : (b.toEls.zip b.fromEls).reverse.findSome? (fun p =>
      if tb + p.1 * ndt ≤ r ∧ r < tb + p.1 * ndt + ndt ∧
        sb + p.2 * nds ≤ j ∧ j < sb + p.2 * nds + nds
      then some (mat (r - (tb + p.1 * ndt)) (j - (sb + p.2 * nds))) else none) = none := by
    rw [List.findSome?_eq_none_iff]
    intro p hp
    have h1 := hb p.1 (List.of_mem_zip (List.mem_reverse.1 hp)).1
    have h2 := elem_block_le (n := ndt) h1
    rw [if_neg]
    omega
  rw [this]
  rfl

/-- One row of a batch's matrix times the flattened vector. -/
theorem batchMatrix_mulVec {fromD : List (DGroup R U)} {b : Batch U} {g : DGroup R U}
    (hg : fromD[b.fromGroup]? = some g) (hf : ∀ f ∈ b.fromEls, f < g.nel) (hn : b.toEls.Nodup)
    {tb ndt e i : Nat} (hi : i < ndt) (ary : DofArr R) :
    ∑ j ∈ range (dofCount fromD), batchMatrix tb (dofStart fromD b.fromGroup) ndt g.ndof
      (g.mat b.nodes) b (tb + e * ndt + i) j * (flattenDof fromD ary).getD j 0 =
      interpEval fromD ary b e i := by
  unfold interpEval
  simp only [batchMatrix_row hn hi, hg]
  cases hs : b.source e with
  | none => simp
  | some f =>
    simp only
    have hfl := hf f (batch_source_mem hs).2
    have h1 := elem_block_le (n := g.ndof) hfl
    have h2 := dofStart_le_count hg
    have := sum_block (R := R) (dofCount fromD) (dofStart fromD b.fromGroup + f * g.ndof) g.ndof
      (by omega) fun j => g.mat b.nodes i (j - (dofStart fromD b.fromGroup + f * g.ndof)) *
        (flattenDof fromD ary).getD j 0
    simp only [ite_mul, zero_mul]
    rw [this]
    apply Finset.sum_congr rfl
    intro k hk
    rw [Nat.add_sub_cancel_left, List.getD_eq_getElem?_getD,
      flattenDof_getElem? ary hg hfl (Finset.mem_range.1 hk)]
    rfl

theorem sum_list_sum {α : Type} (l : List α) (s : Finset Nat) (f : α → Nat → R) :
    ∑ j ∈ s, (l.map fun a => f a j).sum = (l.map fun a => ∑ j ∈ s, f a j).sum := by
  induction l with
  | nil => simp
  | cons a l ih => simp [Finset.sum_add_distrib, ih]

theorem list_sum_mul (l : List R) (a : R) : l.sum * a = (l.map fun x => x * a).sum := by
  induction l with
  | nil => simp
  | cons b l ih => simp [add_mul, ih]

theorem sum_flatMap {α β : Type} (l : List α) (f : α → List β) (g : β → R) :
    ((l.flatMap f).map g).sum = (l.map fun a => ((f a).map g).sum).sum := by
  induction l with
  | nil => rfl
  | cons a l ih => simp [List.flatMap_cons, ih]

theorem sum_filterMap {α β : Type} (l : List α) (f : α → Option β) (g : β → R) :
    ((l.filterMap f).map g).sum = (l.map fun a => ((f a).map g).getD 0).sum := by
  induction l with
  | nil => rfl
  | cons a l ih =>
    rw [List.filterMap_cons]
    cases h : f a with
    | none => simp [ih, h]
    | some b => simp [ih, h]

theorem sum_zipIdx_single {α : Type} (l : List α) (t : Nat) (a : α) (h : l[t]? = some a)
    (f : α × Nat → R) (hf : ∀ (k : Nat) b, l[k]? = some b → k ≠ t → f (b, k) = 0) :
    (l.zipIdx.map f).sum = f (a, t) := by
  have key : ∀ (n : Nat) (l : List α) (t : Nat), l[t]? = some a →
      (∀ (k : Nat) b, l[k]? = some b → k ≠ t → f (b, n + k) = 0) →
      ((l.zipIdx n).map f).sum = f (a, n + t) := by
    intro n l
    induction l generalizing n with
    | nil => intro t h; simp at h
    | cons x l ih =>
      intro t h hf
      rw [List.zipIdx_cons, List.map_cons, List.sum_cons]
      cases t with
      | zero =>
        simp only [List.getElem?_cons_zero, Option.some.injEq] at h
        subst h
        have : ((l.zipIdx (n + 1)).map f).sum = 0 := by
          apply List.sum_eq_zero
          intro y hy
          obtain ⟨⟨b, k⟩, hk, rfl⟩ := List.mem_map.1 hy
          rw [List.mem_zipIdx_iff_le_and_getElem?_sub] at hk
          obtain ⟨hk1, hk2⟩ := hk
          have := hf (k - n) b (by
            rw [show k - n = (k - (n + 1)) + 1 by omega, List.getElem?_cons_succ]
            exact hk2) (by omega)
          rwa [show n + (k - n) = k by omega] at this
        rw [this, add_zero]
        rfl
      | succ t =>
        have h0 := hf 0 x rfl (by omega)
        rw [Nat.add_zero] at h0
        rw [h0, zero_add, ih (n + 1) t (by simpa using h), show n + 1 + t = n + (t + 1) by omega]
        intro k b hk hkt
        have := hf (k + 1) b (by simpa using hk) (by omega)
        rwa [show n + 1 + k = n + (k + 1) by omega]
  simpa using key 0 l t h (by simpa using hf)

/-- The matrix of a connection (entry by entry the sum over all batches) times a flattened
vector. -/
theorem mats_mulVec {c : DirectConn R U} (hc : c.Valid) {t e i : Nat} {bs : List (Batch U)}
    {tg : DGroup R U} (ht : c.groups[t]? = some bs) (htg : c.toD[t]? = some tg) (he : e < tg.nel)
    (hi : i < tg.ndof) (ary : DofArr R) :
    ∑ j ∈ range (dofCount c.fromD),
      (c.mats.map fun m => m (dofStart c.toD t + e * tg.ndof + i) j).sum *
        (flattenDof c.fromD ary).getD j 0 =
      (bs.map fun b => interpEval c.fromD ary b e i).sum := by
  simp only [list_sum_mul, List.map_map]
  rw [sum_list_sum]
  unfold DirectConn.mats
  rw [sum_flatMap]
  simp only [sum_filterMap]
  rw [sum_zipIdx_single _ t (tg, bs) (List.getElem?_zip_eq_some.2 ⟨htg, ht⟩)]
  · simp only
    rw [sum_map_filter_zero]
    · congr 1
      apply List.map_congr_left
      intro b hb
      obtain ⟨_, hn, _, g, hg, hf, _⟩ := hc.batch t bs tg ht htg b hb
      rw [hg]
      simp only [Option.map_some, Option.getD_some, Function.comp]
      exact batchMatrix_mulVec hg hf hn hi ary
    · intro b hb hz
      obtain ⟨_, hn, _, g, hg, hf, _⟩ := hc.batch t bs tg ht htg b hb
      rw [hg]
      simp only [Option.map_some, Option.getD_some, Function.comp]
      rw [batchMatrix_mulVec hg hf hn hi ary]
      have : b.fromEls = [] := by simpa using hz
      simp [interpEval, Batch.source, this]
  · rintro k ⟨tg', bs'⟩ hk hkt
    obtain ⟨h1, h2⟩ := List.getElem?_zip_eq_some.1 hk
    simp only at h1 h2 ⊢
    apply List.sum_eq_zero
    intro y hy
    obtain ⟨b, hb, rfl⟩ := List.mem_map.1 hy
    obtain ⟨_, hn, hel, g, hg, hf, _⟩ := hc.batch k bs' tg' h2 h1 b (List.mem_filter.1 hb).1
    rw [hg]
    simp only [Option.map_some, Option.getD_some, Function.comp]
    apply Finset.sum_eq_zero
    intro j _
    rw [batchMatrix_other hel, zero_mul]
    have hblk := elem_block_le (n := tg.ndof) he
    rcases Nat.lt_or_gt_of_ne hkt with h | h
    · have := dofStart_mono h1 h
      omega
    · have := dofStart_mono htg h
      omega

/-- C22: the flattened result of a connection is its dense matrix times the flattened input. -/
theorem C22_call_eq_matrix {c : DirectConn R U} (hc : c.Valid) (hs : ∀ g ∈ c.fromD, PickSound g)
    {merge : Bool} {ary u : DofArr R} (h : c.call merge ary = some u) {M : Nat → Nat → R}
    (hM : c.matrix = some M) {r : Nat} (hr : r < dofCount c.toD) :
    (flattenDof c.toD u)[r]? =
      some (∑ j ∈ range (dofCount c.fromD), M r j * (flattenDof c.fromD ary).getD j 0) := by
  obtain ⟨t, e, i, tg, htg, he, hi, rfl⟩ := flat_index_exists hr
  rw [flattenDof_getElem? u htg he hi]
  have htl : t < c.groups.length := by
    rw [hc.ngroups]
    exact (List.getElem?_eq_some_iff.1 htg).1
  unfold DirectConn.matrix at hM
  split at hM
  · simp at hM
  · simp only [Option.some.injEq] at hM
    subst hM
    rw [mats_mulVec hc (List.getElem?_eq_getElem htl) htg he hi,
      C23_value hc hs h (List.getElem?_eq_getElem htl) htg hi]

/-- C22, no batch with elements: there is no matrix (the code returns the number 0), and the result
of the connection is zero. -/
theorem C22_no_matrix {c : DirectConn R U} (hc : c.Valid) (hs : ∀ g ∈ c.fromD, PickSound g)
    (hM : c.matrix = none) {merge : Bool} {ary u : DofArr R} (h : c.call merge ary = some u)
    {r : Nat} (hr : r < dofCount c.toD) : (flattenDof c.toD u)[r]? = some 0 := by
  obtain ⟨t, e, i, tg, htg, he, hi, rfl⟩ := flat_index_exists hr
  rw [flattenDof_getElem? u htg he hi]
  have htl : t < c.groups.length := by
    rw [hc.ngroups]
    exact (List.getElem?_eq_some_iff.1 htg).1
  unfold DirectConn.matrix at hM
  split at hM
  · rename_i hnil
    have := mats_mulVec hc (List.getElem?_eq_getElem htl) htg he hi ary
    rw [hnil] at this
    rw [C23_value hc hs h (List.getElem?_eq_getElem htl) htg hi, ← this]
    simp
  · simp at hM

/-! ### Examples -/

/-- Two source groups (an element with two nodes; two elements with one node) over the integers;
unit nodes are `false` (the group's own nodes) and `true` (interpolation by a sum). -/
def exFrom : List (DGroup Int Bool) :=
  [⟨1, 2, fun u i j => if u then 1 else if j = i then 1 else 0,
      fun u => if u then none else some [0, 1]⟩,
   ⟨2, 2, fun u i j => if u then (i : Int) + j else if j = 1 - i then 1 else 0,
      fun u => if u then none else some [1, 0]⟩]

def exTo : List (DGroup Int Bool) :=
  [⟨3, 2, fun _ _ _ => 0, fun _ => none⟩, ⟨1, 2, fun _ _ _ => 0, fun _ => none⟩]

/-- The first target group is evaluated by picks, the second by batches. -/
def exConn : DirectConn Int Bool :=
  ⟨exFrom, exTo, [[⟨0, [0], [2], false, none⟩, ⟨1, [1, 0], [0, 1], false, none⟩],
    [⟨1, [1], [0], true, none⟩]], true⟩

theorem exConn_valid : exConn.Valid := by
  refine ⟨rfl, ?_⟩
  intro t bs tg ht htg b hb
  have htl : t < 2 := (List.getElem?_eq_some_iff.1 ht).1
  interval_cases t
  · cases ht
    cases htg
    fin_cases hb <;> exact ⟨rfl, by decide, by decide, _, rfl, by decide, by decide⟩
  · cases ht
    cases htg
    fin_cases hb
    exact ⟨rfl, by decide, by decide, _, rfl, by decide, by decide⟩

theorem exConn_sound : ∀ g ∈ exConn.fromD, PickSound g := by
  intro g hg u I hI i hi
  cases u with
  | true => fin_cases hg <;> simp at hI
  | false =>
    fin_cases hg
    · simp only [Bool.false_eq_true, if_false, Option.some.injEq] at hI
      subst hI
      have : i < 2 := hi
      interval_cases i <;> exact ⟨by decide, fun j => rfl⟩
    · simp only [Bool.false_eq_true, if_false, Option.some.injEq] at hI
      subst hI
      have : i < 2 := hi
      interval_cases i <;> exact ⟨by decide, fun j => rfl⟩

/-- Data `10 * group + 2 * element + node + 1`. -/
def exAry : DofArr Int := fun g e i => 10 * g + 2 * e + i + 1

example : ∃ u, exConn.call true exAry = some u := C23_evaluates_few true exAry (by simp [exConn])

example : ∃ d, pickInfo exFrom [⟨0, [0], [2], false, none⟩, ⟨1, [1, 0], [0, 1], false, none⟩] =
    .used d := ⟨_, rfl⟩

example : (exConn.call true exAry).map (flattenDof exTo) = some [14, 13, 12, 11, 1, 2, 14, 41] ∧
    (exConn.call false exAry).map (flattenDof exTo) = some [14, 13, 12, 11, 1, 2, 14, 41] := by
  decide +kernel

example : exConn.matrix.map (fun M => (List.range 8).map fun r => (List.range 6).map (M r)) =
    some [[0, 0, 0, 0, 0, 1], [0, 0, 0, 0, 1, 0], [0, 0, 0, 1, 0, 0], [0, 0, 1, 0, 0, 0],
      [1, 0, 0, 0, 0, 0], [0, 1, 0, 0, 0, 0], [0, 0, 0, 0, 0, 1], [0, 0, 0, 0, 1, 2]] := by
  decide +kernel

/-- A batch that sets the same target element twice: the matrix has both blocks, the call keeps the
last. (Specification or proof vocabulary, no code.) -/
def twiceConn : DirectConn Int Bool :=
  ⟨exFrom, [⟨1, 2, fun _ _ _ => 0, fun _ => none⟩],
    [[⟨1, [0, 1], [0, 0], false, none⟩]], true⟩

/-- C22 needs distinct target elements within a batch. -/
theorem C22_repeated_target_counterexample :
    (twiceConn.call true exAry).map (flattenDof twiceConn.toD) = some [14, 13] ∧
    twiceConn.matrix.map (fun M => (List.range 2).map fun r => ∑ j ∈ range 6,
      M r j * (flattenDof twiceConn.fromD exAry).getD j 0) = some [26, 24] := by
  decide +kernel

/-- A connection without any batch: the matrix is the number 0, not an array. -/
theorem C22_no_matrix_counterexample :
    (⟨exFrom, exTo, [[], []], false⟩ : DirectConn Int Bool).matrix = none ∧
    ((⟨exFrom, exTo, [[], []], false⟩ : DirectConn Int Bool).call true exAry).map
      (flattenDof exTo) = some [0, 0, 0, 0, 0, 0, 0, 0] := by
  decide +kernel

end Meshmode
