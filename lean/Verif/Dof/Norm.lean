import Mathlib.Analysis.SpecialFunctions.Pow.Real

/-!
# Norms of nested containers (C35)

`_reduce_norm`, `flat_norm` (meshmode/dof_array.py:497-569).
-/
namespace Meshmode

/-! ## Model -/

/-- The `ord` argument: a number, `np.inf`, `-np.inf`, or something else.
Code: meshmode/dof_array.py:523-536. -/
inductive NOrd where
  | fin (p : ℝ)
  | inf
  | negInf
  | other

/-- The arguments of `flat_norm`: a number, a `DOFArray` with its array context (`none` if frozen)
and one list of entries per group, a container of further containers (object array, dataclass
container), or something that is not an array container. Code: meshmode/dof_array.py:540-568. -/
inductive Cont (E : Type) where
  | num (x : E)
  | dof (ctx : Option Nat) (groups : List (List E))
  | node (children : List (Cont E))
  | bad

/-- Errors of `flat_norm`. Code: meshmode/dof_array.py:548-566. -/
inductive NormErr where
  /-- `NotImplementedError("unsupported value of 'ord'")` -/
  | ord
  /-- `reduce` or `max` of nothing -/
  | empty
  /-- `ValueError("cannot compute the norm of frozen DOFArrays")` -/
  | frozen
  /-- `assert actx is _ary.array_context` -/
  | context
  /-- `TypeError("unsupported array type")` -/
  | type
  deriving DecidableEq, Repr

/-- `reduce(f, arys)`. Code: meshmode/dof_array.py:499-520. -/
noncomputable def reduce1 (f : ℝ → ℝ → ℝ) : List ℝ → Except NormErr ℝ
  | [] => .error .empty
  | a :: l => .ok (l.foldl f a)

/-- `_reduce_norm`, meshmode/dof_array.py:499-520. -/
noncomputable def reduceNorm (arys : List ℝ) : NOrd → Except NormErr ℝ
  | .inf => reduce1 max arys
  | .negInf => reduce1 min arys
  | .fin p =>
      if p = 2 then .ok (Real.sqrt (arys.map fun a => a * a).sum)
      else if 0 < p then .ok ((arys.map fun a => a ^ p).sum ^ (1 / p))
      else .error .ord
  | .other => .error .ord

/-- `actx.np.linalg.norm(actx.np.ravel(subary), ord)`: numpy's vector norm, as a function of the
absolute values. Code: meshmode/dof_array.py:557. -/
noncomputable def npLinalgNorm (abs : List ℝ) : NOrd → Except NormErr ℝ
  | .inf => reduce1 max abs
  | .negInf => reduce1 min abs
  | .fin p =>
      if p = 0 then .ok (abs.filter fun a => decide (a ≠ 0)).length
      else if p = 1 then .ok abs.sum
      else if p = 2 then .ok (Real.sqrt (abs.map fun a => a ^ 2).sum)
      else .ok ((abs.map fun a => a ^ p).sum ^ (1 / p))
  | .other => .error .ord

section
variable {E : Type} [SeminormedAddGroup E]

/-- `[actx.np.linalg.norm(…) for _, subary in serialize_container(_ary)]`.
Code: meshmode/dof_array.py:556-559. -/
noncomputable def groupNorms (o : NOrd) : List (List E) → Except NormErr (List ℝ)
  | [] => .ok []
  | g :: gs =>
      match npLinalgNorm (g.map fun x => ‖x‖) o with
      | .error e => .error e
      | .ok r =>
        match groupNorms o gs with
        | .error e => .error e
        | .ok rs => .ok (r :: rs)

mutual
/-- `_rec`, meshmode/dof_array.py:541-567; the second argument is the nonlocal `actx`. -/
noncomputable def normRec (o : NOrd) : Cont E → Option Nat → Except NormErr (ℝ × Option Nat)
  | .num x, s => .ok (‖x‖, s)
  | .dof none _, _ => .error .frozen
  | .dof (some c) groups, s =>
      if s = none ∨ s = some c then dofNorm o groups c else .error .context
  | .node cs, s =>
      match normRecs o cs s with
      | .error e => .error e
      | .ok (rs, s') =>
        match reduceNorm rs o with
        | .error e => .error e
        | .ok r => .ok (r, s')
  | .bad, _ => .error .type

/-- `[_rec(subary) for _, subary in iterable]`. Code: meshmode/dof_array.py:567. -/
noncomputable def normRecs (o : NOrd) :
    List (Cont E) → Option Nat → Except NormErr (List ℝ × Option Nat)
  | [], s => .ok ([], s)
  | c :: cs, s =>
      match normRec o c s with
      | .error e => .error e
      | .ok (r, s') =>
        match normRecs o cs s' with
        | .error e => .error e
        | .ok (rs, s'') => .ok (r :: rs, s'')

/-- The `DOFArray` case, meshmode/dof_array.py:557-560. -/
noncomputable def dofNorm (o : NOrd) (groups : List (List E)) (c : Nat) :
    Except NormErr (ℝ × Option Nat) :=
  match groupNorms o groups with
  | .error e => .error e
  | .ok rs =>
    match reduceNorm rs o with
    | .error e => .error e
    | .ok r => .ok (r, some c)
end

/-- `flat_norm`, meshmode/dof_array.py:523-570; `ord=None` is 2. -/
noncomputable def flatNorm (o : Option NOrd) (c : Cont E) : Except NormErr ℝ :=
  match normRec (o.getD (.fin 2)) c none with
  | .error e => .error e
  | .ok (r, _) => .ok r

/-! ## Specification -/

mutual
/-- All entries of a container. (Specification or proof vocabulary, no code.) -/
def Cont.entries : Cont E → List E
  | .num x => [x]
  | .dof _ groups => groups.flatten
  | .node cs => Cont.entriesAll cs
  | .bad => []

/-- All entries of a list of containers. (Specification or proof vocabulary, no code.) -/
def Cont.entriesAll : List (Cont E) → List E
  | [] => []
  | c :: cs => c.entries ++ Cont.entriesAll cs
end

/-- `r` is the ℓ^ord norm of the entries. (Specification or proof vocabulary, no code.) -/
def IsNorm (o : NOrd) (xs : List E) (r : ℝ) : Prop :=
  match o with
  | .fin p => 0 < p ∧ r = (xs.map fun x => ‖x‖ ^ p).sum ^ (1 / p)
  | .inf => (∃ x ∈ xs, ‖x‖ = r) ∧ ∀ x ∈ xs, ‖x‖ ≤ r
  | .negInf => (∃ x ∈ xs, ‖x‖ = r) ∧ ∀ x ∈ xs, r ≤ ‖x‖
  | .other => False

/-! ## Lemmas -/

theorem foldl_max_spec (a : ℝ) (l : List ℝ) :
    l.foldl max a ∈ a :: l ∧ ∀ x ∈ a :: l, x ≤ l.foldl max a := by
  induction l generalizing a with
  | nil => simp
  | cons b l ih =>
    obtain ⟨h1, h2⟩ := ih (max a b)
    rw [List.foldl_cons]
    constructor
    · rcases List.mem_cons.1 h1 with h | h
      · rcases max_choice a b with h' | h' <;> rw [h, h'] <;> simp
      · exact List.mem_cons_of_mem _ (List.mem_cons_of_mem _ h)
    · intro x hx
      have h0 := h2 _ List.mem_cons_self
      rcases List.mem_cons.1 hx with rfl | hx
      · exact le_trans (le_max_left _ _) h0
      · rcases List.mem_cons.1 hx with rfl | hx
        · exact le_trans (le_max_right _ _) h0
        · exact h2 x (List.mem_cons_of_mem _ hx)

theorem foldl_min_spec (a : ℝ) (l : List ℝ) :
    l.foldl min a ∈ a :: l ∧ ∀ x ∈ a :: l, l.foldl min a ≤ x := by
  induction l generalizing a with
  | nil => simp
  | cons b l ih =>
    obtain ⟨h1, h2⟩ := ih (min a b)
    rw [List.foldl_cons]
    constructor
    · rcases List.mem_cons.1 h1 with h | h
      · rcases min_choice a b with h' | h' <;> rw [h, h'] <;> simp
      · exact List.mem_cons_of_mem _ (List.mem_cons_of_mem _ h)
    · intro x hx
      have h0 := h2 _ List.mem_cons_self
      rcases List.mem_cons.1 hx with rfl | hx
      · exact le_trans h0 (min_le_left _ _)
      · rcases List.mem_cons.1 hx with rfl | hx
        · exact le_trans h0 (min_le_right _ _)
        · exact h2 x (List.mem_cons_of_mem _ hx)

theorem sum_rpow_nonneg (xs : List E) (p : ℝ) : 0 ≤ (xs.map fun x => ‖x‖ ^ p).sum :=
  List.sum_nonneg fun _ h => by
    obtain ⟨x, _, rfl⟩ := List.mem_map.1 h
    exact Real.rpow_nonneg (norm_nonneg x) p

/-- numpy's norm of one group is its norm. -/
theorem npLinalgNorm_spec {o : NOrd} (ho : ∀ p, o = .fin p → 0 < p) {xs : List E} {r : ℝ}
    (h : npLinalgNorm (xs.map fun x => ‖x‖) o = .ok r) : IsNorm o xs r := by
  cases o with
  | other => simp [npLinalgNorm] at h
  | inf =>
    cases xs with
    | nil => simp [npLinalgNorm, reduce1] at h
    | cons a l =>
      simp only [npLinalgNorm, reduce1, List.map_cons, Except.ok.injEq] at h
      subst h
      obtain ⟨h1, h2⟩ := foldl_max_spec ‖a‖ (l.map fun x => ‖x‖)
      rw [← List.map_cons (f := fun x => ‖x‖)] at h1 h2
      exact ⟨List.mem_map.1 h1, fun x hx => h2 _ (List.mem_map.2 ⟨x, hx, rfl⟩)⟩
  | negInf =>
    cases xs with
    | nil => simp [npLinalgNorm, reduce1] at h
    | cons a l =>
      simp only [npLinalgNorm, reduce1, List.map_cons, Except.ok.injEq] at h
      subst h
      obtain ⟨h1, h2⟩ := foldl_min_spec ‖a‖ (l.map fun x => ‖x‖)
      rw [← List.map_cons (f := fun x => ‖x‖)] at h1 h2
      exact ⟨List.mem_map.1 h1, fun x hx => h2 _ (List.mem_map.2 ⟨x, hx, rfl⟩)⟩
  | fin p =>
    have hp := ho p rfl
    refine ⟨hp, ?_⟩
    simp only [npLinalgNorm] at h
    rw [if_neg hp.ne'] at h
    split at h
    · rename_i h1
      simp only [Except.ok.injEq] at h
      subst h1 h
      simp
    · split at h
      · rename_i h1
        simp only [Except.ok.injEq] at h
        subst h1 h
        rw [List.map_map, Real.sqrt_eq_rpow]
        congr 2
        refine List.map_congr_left fun x _ => ?_
        simp
      · simp only [Except.ok.injEq] at h
        rw [← h, List.map_map]
        rfl

/-- The norm of norms is the norm of everything. -/
theorem reduceNorm_spec {o : NOrd} {ls : List (List E)} {rs : List ℝ} {r : ℝ}
    (hrs : List.Forall₂ (fun xs a => IsNorm o xs a) ls rs)
    (h : reduceNorm rs o = .ok r) : IsNorm o ls.flatten r := by
  cases o with
  | other => simp [reduceNorm] at h
  | inf =>
    cases hrs with
    | nil => simp [reduceNorm, reduce1] at h
    | @cons xs a ls' rs' h1 h2 =>
      simp only [reduceNorm, reduce1, Except.ok.injEq] at h
      have hrs : List.Forall₂ (fun xs a => IsNorm .inf xs a) (xs :: ls') (a :: rs') := .cons h1 h2
      obtain ⟨m1, m2⟩ := foldl_max_spec a rs'
      rw [h] at m1 m2
      constructor
      · obtain ⟨i, hi⟩ := List.mem_iff_getElem?.1 m1
        obtain ⟨hl, hget⟩ := List.forall₂_iff_get.1 hrs
        obtain ⟨hil, hir⟩ := List.getElem?_eq_some_iff.1 hi
        obtain ⟨⟨x, hx, hxr⟩, _⟩ := hget i (hl ▸ hil) hil
        refine ⟨x, List.mem_flatten.2 ⟨_, List.get_mem _ _, hx⟩, ?_⟩
        rw [hxr]
        simpa using hir
      · intro x hx
        obtain ⟨l, hl, hxl⟩ := List.mem_flatten.1 hx
        obtain ⟨i, hi⟩ := List.mem_iff_get.1 hl
        obtain ⟨hl', hget⟩ := List.forall₂_iff_get.1 hrs
        have := (hget i i.2 (hl' ▸ i.2)).2 x (by rw [hi]; exact hxl)
        exact le_trans this (m2 _ (List.get_mem _ _))
  | negInf =>
    cases hrs with
    | nil => simp [reduceNorm, reduce1] at h
    | @cons xs a ls' rs' h1 h2 =>
      simp only [reduceNorm, reduce1, Except.ok.injEq] at h
      have hrs : List.Forall₂ (fun xs a => IsNorm .negInf xs a) (xs :: ls') (a :: rs') := .cons h1 h2
      obtain ⟨m1, m2⟩ := foldl_min_spec a rs'
      rw [h] at m1 m2
      constructor
      · obtain ⟨i, hi⟩ := List.mem_iff_getElem?.1 m1
        obtain ⟨hl, hget⟩ := List.forall₂_iff_get.1 hrs
        obtain ⟨hil, hir⟩ := List.getElem?_eq_some_iff.1 hi
        obtain ⟨⟨x, hx, hxr⟩, _⟩ := hget i (hl ▸ hil) hil
        refine ⟨x, List.mem_flatten.2 ⟨_, List.get_mem _ _, hx⟩, ?_⟩
        rw [hxr]
        simpa using hir
      · intro x hx
        obtain ⟨l, hl, hxl⟩ := List.mem_flatten.1 hx
        obtain ⟨i, hi⟩ := List.mem_iff_get.1 hl
        obtain ⟨hl', hget⟩ := List.forall₂_iff_get.1 hrs
        have := (hget i i.2 (hl' ▸ i.2)).2 x (by rw [hi]; exact hxl)
        exact le_trans (m2 _ (List.get_mem _ _)) this
  | fin p =>
    have key : ∀ p : ℝ, 0 < p → List.Forall₂ (fun xs a => IsNorm (.fin p) xs a) ls rs →
        (rs.map fun a => a ^ p).sum = (ls.flatten.map fun x => ‖x‖ ^ p).sum := by
      intro p hp hrs'
      clear h hrs
      induction hrs' with
      | nil => rfl
      | @cons xs a ls rs h1 _ ih =>
        rw [List.map_cons, List.sum_cons, List.flatten_cons, List.map_append, List.sum_append, ih,
          h1.2, one_div, Real.rpow_inv_rpow (sum_rpow_nonneg xs p) hp.ne']
    simp only [reduceNorm] at h
    split at h
    · rename_i h2
      subst h2
      simp only [Except.ok.injEq] at h
      refine ⟨by norm_num, ?_⟩
      rw [← h, ← key 2 (by norm_num) hrs, Real.sqrt_eq_rpow]
      congr 2
      refine List.map_congr_left fun a _ => ?_
      simp [sq]
    · split at h
      · rename_i hp
        simp only [Except.ok.injEq] at h
        refine ⟨hp, ?_⟩
        rw [← h, key p hp hrs]
      · simp at h

theorem groupNorms_spec {o : NOrd} (ho : ∀ p, o = .fin p → 0 < p) {gs : List (List E)}
    {rs : List ℝ} (h : groupNorms o gs = .ok rs) :
    List.Forall₂ (fun xs a => IsNorm o xs a) gs rs := by
  induction gs generalizing rs with
  | nil =>
    simp only [groupNorms, Except.ok.injEq] at h
    subst h
    exact .nil
  | cons g gs ih =>
    rw [groupNorms] at h
    split at h
    · simp at h
    · rename_i r hr
      split at h
      · simp at h
      · rename_i rs' hrs
        simp only [Except.ok.injEq] at h
        subst h
        exact .cons (npLinalgNorm_spec ho hr) (ih hrs)

theorem dofNorm_spec {o : NOrd} (ho : ∀ p, o = .fin p → 0 < p) {gs : List (List E)} {c : Nat}
    {q : ℝ × Option Nat} (h : dofNorm o gs c = .ok q) : IsNorm o gs.flatten q.1 := by
  rw [dofNorm] at h
  split at h
  · simp at h
  · rename_i rs hrs
    split at h
    · simp at h
    · rename_i r hr
      simp only [Except.ok.injEq] at h
      subst h
      exact reduceNorm_spec (groupNorms_spec ho hrs) hr

theorem isNorm_single {o : NOrd} (ho : ∀ p, o = .fin p → 0 < p) (hno : o ≠ .other) (x : E) :
    IsNorm o [x] ‖x‖ := by
  cases o with
  | other => exact absurd rfl hno
  | inf => exact ⟨⟨x, by simp, rfl⟩, by simp⟩
  | negInf => exact ⟨⟨x, by simp, rfl⟩, by simp⟩
  | fin p =>
    have hp := ho p rfl
    refine ⟨hp, ?_⟩
    simp only [List.map_cons, List.map_nil, List.sum_cons, List.sum_nil, add_zero]
    rw [one_div, Real.rpow_rpow_inv (norm_nonneg x) hp.ne']

omit [SeminormedAddGroup E] in
theorem entriesAll_eq (cs : List (Cont E)) :
    Cont.entriesAll cs = (cs.map Cont.entries).flatten := by
  induction cs with
  | nil => rfl
  | cons c cs ih => rw [Cont.entriesAll, ih]; rfl

mutual
theorem normRec_spec {o : NOrd} (ho : ∀ p, o = .fin p → 0 < p) (hno : o ≠ .other) :
    ∀ (c : Cont E) (s : Option Nat) (q : ℝ × Option Nat), normRec o c s = .ok q →
      IsNorm o c.entries q.1
  | .num x, s, q, h => by
    rw [normRec, Except.ok.injEq] at h
    subst h
    exact isNorm_single ho hno x
  | .dof none _, s, q, h => by simp [normRec] at h
  | .dof (some c) groups, s, q, h => by
    rw [normRec] at h
    split at h
    · exact dofNorm_spec ho h
    · simp at h
  | .node cs, s, q, h => by
    rw [normRec] at h
    split at h
    · simp at h
    · rename_i rs s' hrs
      split at h
      · simp at h
      · rename_i r hr
        simp only [Except.ok.injEq] at h
        subst h
        rw [Cont.entries, entriesAll_eq]
        exact reduceNorm_spec (normRecs_spec ho hno cs s _ hrs) hr
  | .bad, s, q, h => by simp [normRec] at h

theorem normRecs_spec {o : NOrd} (ho : ∀ p, o = .fin p → 0 < p) (hno : o ≠ .other) :
    ∀ (cs : List (Cont E)) (s : Option Nat) (q : List ℝ × Option Nat), normRecs o cs s = .ok q →
      List.Forall₂ (fun xs a => IsNorm o xs a) (cs.map Cont.entries) q.1
  | [], s, q, h => by
    rw [normRecs, Except.ok.injEq] at h
    subst h
    exact .nil
  | c :: cs, s, q, h => by
    rw [normRecs] at h
    split at h
    · simp at h
    · rename_i r s' hr
      split at h
      · simp at h
      · rename_i rs s'' hrs
        simp only [Except.ok.injEq] at h
        subst h
        exact .cons (normRec_spec ho hno c s _ hr) (normRecs_spec ho hno cs s' _ hrs)
end

/-! ## Properties -/

/-- C35: `flat_norm` is the norm of the list of all entries, however they are nested. -/
theorem C35_flat {o : NOrd} (ho : ∀ p, o = .fin p → 0 < p) (hno : o ≠ .other) {c : Cont E} {r : ℝ}
    (h : flatNorm (some o) c = .ok r) : IsNorm o c.entries r := by
  unfold flatNorm at h
  split at h
  · simp at h
  · rename_i r' s' hr
    simp only [Except.ok.injEq] at h
    subst h
    exact normRec_spec ho hno c none _ hr

/-- C35: the default is the 2-norm. -/
theorem C35_default (c : Cont E) : flatNorm none c = flatNorm (some (.fin 2)) c := rfl

/-- There is only one norm. -/
theorem IsNorm.unique {o : NOrd} {xs : List E} {r r' : ℝ} (h : IsNorm o xs r)
    (h' : IsNorm o xs r') : r = r' := by
  cases o with
  | other => exact h.elim
  | fin p => rw [h.2, h'.2]
  | inf =>
    obtain ⟨⟨x, hx, rfl⟩, h2⟩ := h
    obtain ⟨⟨y, hy, rfl⟩, h2'⟩ := h'
    exact le_antisymm (h2' x hx) (h2 y hy)
  | negInf =>
    obtain ⟨⟨x, hx, rfl⟩, h2⟩ := h
    obtain ⟨⟨y, hy, rfl⟩, h2'⟩ := h'
    exact le_antisymm (h2 y hy) (h2' x hx)

/-- C35: regrouping and reordering do not matter. -/
theorem C35_regroup {o : NOrd} (ho : ∀ p, o = .fin p → 0 < p) (hno : o ≠ .other) {c c' : Cont E}
    {r r' : ℝ} (hp : c.entries.Perm c'.entries) (h : flatNorm (some o) c = .ok r)
    (h' : flatNorm (some o) c' = .ok r') : r = r' := by
  refine (C35_flat ho hno h).unique ?_
  have h1 := C35_flat ho hno h'
  cases o with
  | other => exact h1
  | fin p => exact ⟨h1.1, by rw [h1.2, (hp.map _).sum_eq]⟩
  | inf =>
    obtain ⟨⟨x, hx, hxr⟩, h2⟩ := h1
    exact ⟨⟨x, hp.mem_iff.2 hx, hxr⟩, fun x hx => h2 x (hp.mem_iff.1 hx)⟩
  | negInf =>
    obtain ⟨⟨x, hx, hxr⟩, h2⟩ := h1
    exact ⟨⟨x, hp.mem_iff.2 hx, hxr⟩, fun x hx => h2 x (hp.mem_iff.1 hx)⟩

/-- C35: zero entries do not matter (for finite order and `np.inf`). -/
theorem C35_zeros {o : NOrd} (ho : ∀ p, o = .fin p → 0 < p) (hno : o ≠ .other) (hneg : o ≠ .negInf)
    {c c' : Cont E} {r r' : ℝ} {n : Nat}
    (hp : c'.entries.Perm (c.entries ++ List.replicate n 0)) (h : flatNorm (some o) c = .ok r)
    (h' : flatNorm (some o) c' = .ok r') : r' = r := by
  have h0 := C35_flat ho hno h
  have h1 := C35_flat ho hno h'
  cases o with
  | other => exact absurd rfl hno
  | negInf => exact absurd rfl hneg
  | fin p =>
    rw [h1.2, h0.2, (hp.map _).sum_eq, List.map_append, List.sum_append, List.map_replicate,
      norm_zero, Real.zero_rpow h0.1.ne', List.sum_replicate]
    simp
  | inf =>
    obtain ⟨⟨x, hx, hxr⟩, h2⟩ := h0
    refine IsNorm.unique (o := .inf) (xs := c'.entries) h1
      ⟨⟨x, hp.mem_iff.2 (List.mem_append_left _ hx), hxr⟩, fun y hy => ?_⟩
    rcases List.mem_append.1 (hp.mem_iff.1 hy) with h | h
    · exact h2 y h
    · rw [List.mem_replicate] at h
      rw [h.2, norm_zero, ← hxr]
      exact norm_nonneg x

/-! ### When a norm is returned -/

mutual
/-- All `DOFArray`s are in context `k`, and every leaf is supported.
(Specification or proof vocabulary, no code.) -/
def Cont.InContext (k : Nat) : Cont E → Prop
  | .num _ => True
  | .dof c _ => c = some k
  | .node cs => Cont.InContextAll k cs
  | .bad => False

/-- `InContext` for a list. (Specification or proof vocabulary, no code.) -/
def Cont.InContextAll (k : Nat) : List (Cont E) → Prop
  | [] => True
  | c :: cs => c.InContext k ∧ Cont.InContextAll k cs
end

mutual
/-- No container, `DOFArray` or group is empty. (Specification or proof vocabulary, no code.) -/
def Cont.NoEmpty : Cont E → Prop
  | .num _ => True
  | .dof _ groups => groups ≠ [] ∧ ∀ g ∈ groups, g ≠ []
  | .node cs => cs ≠ [] ∧ Cont.NoEmptyAll cs
  | .bad => True

/-- `NoEmpty` for a list. (Specification or proof vocabulary, no code.) -/
def Cont.NoEmptyAll : List (Cont E) → Prop
  | [] => True
  | c :: cs => c.NoEmpty ∧ Cont.NoEmptyAll cs
end

theorem reduceNorm_defined {o : NOrd} (ho : ∀ p, o = .fin p → 0 < p) (hno : o ≠ .other)
    {rs : List ℝ} (hne : (∃ p, o = .fin p) ∨ rs ≠ []) : ∃ r, reduceNorm rs o = .ok r := by
  cases o with
  | other => exact absurd rfl hno
  | fin p =>
    simp only [reduceNorm]
    split
    · exact ⟨_, rfl⟩
    · rw [if_pos (ho p rfl)]
      exact ⟨_, rfl⟩
  | inf =>
    cases rs with
    | nil => simp at hne
    | cons a l => exact ⟨_, rfl⟩
  | negInf =>
    cases rs with
    | nil => simp at hne
    | cons a l => exact ⟨_, rfl⟩

theorem npLinalgNorm_defined {o : NOrd} (hno : o ≠ .other)
    {rs : List ℝ} (hne : (∃ p, o = .fin p) ∨ rs ≠ []) : ∃ r, npLinalgNorm rs o = .ok r := by
  cases o with
  | other => exact absurd rfl hno
  | fin p =>
    simp only [npLinalgNorm]
    split
    · exact ⟨_, rfl⟩
    · split
      · exact ⟨_, rfl⟩
      · split
        · exact ⟨_, rfl⟩
        · exact ⟨_, rfl⟩
  | inf =>
    cases rs with
    | nil => simp at hne
    | cons a l => exact ⟨_, rfl⟩
  | negInf =>
    cases rs with
    | nil => simp at hne
    | cons a l => exact ⟨_, rfl⟩

theorem groupNorms_defined {o : NOrd} (hno : o ≠ .other) {gs : List (List E)}
    (hne : (∃ p, o = .fin p) ∨ ∀ g ∈ gs, g ≠ []) :
    ∃ rs, groupNorms o gs = .ok rs ∧ rs.length = gs.length := by
  induction gs with
  | nil => exact ⟨[], rfl, rfl⟩
  | cons g gs ih =>
    obtain ⟨rs, h1, h2⟩ := ih (hne.imp id fun h g hg => h g (List.mem_cons_of_mem _ hg))
    obtain ⟨r, hr⟩ := npLinalgNorm_defined hno (rs := g.map fun x => ‖x‖)
      (hne.imp id fun h => by simpa using h g List.mem_cons_self)
    exact ⟨r :: rs, by rw [groupNorms, hr]; simp only; rw [h1], by simp [h2]⟩

mutual
theorem normRec_defined {o : NOrd} (ho : ∀ p, o = .fin p → 0 < p) (hno : o ≠ .other) {k : Nat} :
    ∀ (c : Cont E) (s : Option Nat), c.InContext k → ((∃ p, o = .fin p) ∨ c.NoEmpty) →
      (s = none ∨ s = some k) → ∃ r s', normRec o c s = .ok (r, s') ∧ (s' = none ∨ s' = some k)
  | .num x, s, _, _, hs => ⟨_, _, rfl, hs⟩
  | .dof c groups, s, hc, hne, hs => by
    rw [Cont.InContext] at hc
    subst hc
    obtain ⟨rs, h1, h2⟩ := groupNorms_defined hno (gs := groups)
      (hne.imp id fun h => by rw [Cont.NoEmpty] at h; exact h.2)
    obtain ⟨r, hr⟩ := reduceNorm_defined ho hno (rs := rs) (hne.imp id fun h => by
      rw [Cont.NoEmpty] at h
      intro h0
      rw [h0] at h2
      exact h.1 (List.length_eq_zero_iff.1 h2.symm))
    have hd : dofNorm o groups k = .ok (r, some k) := by
      rw [dofNorm, h1]
      simp only
      rw [hr]
    refine ⟨r, some k, ?_, Or.inr rfl⟩
    rw [normRec, if_pos hs]
    exact hd
  | .node cs, s, hc, hne, hs => by
    rw [Cont.InContext] at hc
    obtain ⟨rs, s', h1, h2, h3⟩ := normRecs_defined ho hno cs s hc
      (hne.imp id fun h => by rw [Cont.NoEmpty] at h; exact h.2) hs
    obtain ⟨r, hr⟩ := reduceNorm_defined ho hno (rs := rs) (hne.imp id fun h => by
      rw [Cont.NoEmpty] at h
      intro h0
      rw [h0] at h3
      exact h.1 (List.length_eq_zero_iff.1 h3.symm))
    refine ⟨r, s', ?_, h2⟩
    rw [normRec, h1]
    simp only
    rw [hr]
  | .bad, _, hc, _, _ => by rw [Cont.InContext] at hc; exact hc.elim

theorem normRecs_defined {o : NOrd} (ho : ∀ p, o = .fin p → 0 < p) (hno : o ≠ .other) {k : Nat} :
    ∀ (cs : List (Cont E)) (s : Option Nat), Cont.InContextAll k cs →
      ((∃ p, o = .fin p) ∨ Cont.NoEmptyAll cs) → (s = none ∨ s = some k) →
      ∃ rs s', normRecs o cs s = .ok (rs, s') ∧ (s' = none ∨ s' = some k) ∧ rs.length = cs.length
  | [], s, _, _, hs => ⟨[], s, by rw [normRecs], hs, rfl⟩
  | c :: cs, s, hc, hne, hs => by
    rw [Cont.InContextAll] at hc
    obtain ⟨r, s', h1, h2⟩ := normRec_defined ho hno c s hc.1
      (hne.imp id fun h => by rw [Cont.NoEmptyAll] at h; exact h.1) hs
    obtain ⟨rs, s'', h3, h4, h5⟩ := normRecs_defined ho hno cs s' hc.2
      (hne.imp id fun h => by rw [Cont.NoEmptyAll] at h; exact h.2) h2
    refine ⟨r :: rs, s'', ?_, h4, by simp [h5]⟩
    rw [normRecs, h1]
    simp only
    rw [h3]
end

/-- C35: a norm is returned for all containers whose arrays are in one context; for `±np.inf`,
provided that nothing is empty. -/
theorem C35_defined {o : NOrd} (ho : ∀ p, o = .fin p → 0 < p) (hno : o ≠ .other) {k : Nat}
    {c : Cont E} (hc : c.InContext k) (hne : (∃ p, o = .fin p) ∨ c.NoEmpty) :
    ∃ r, flatNorm (some o) c = .ok r := by
  obtain ⟨r, s', h, _⟩ := normRec_defined ho hno c none hc hne (Or.inl rfl)
  refine ⟨r, ?_⟩
  unfold flatNorm
  rw [Option.getD_some, h]

end

/-- Two arrays, one with two groups, and a number. -/
def exCont : Cont ℝ := .node [.dof (some 0) [[3, 4], [12]], .node [.num (-5), .dof (some 0) [[1]]]]

example : (exCont.InContext 0) ∧ exCont.NoEmpty := by
  simp [exCont, Cont.InContext, Cont.InContextAll, Cont.NoEmpty, Cont.NoEmptyAll]

/-- The infinity norm of an array with an empty group is not defined in the code, although the array
has entries. -/
theorem C35_empty_group_counterexample :
    (Cont.dof (some 0) [[(1 : ℝ)], []]).entries = [1] ∧
    flatNorm (some .inf) (Cont.dof (some 0) [[(1 : ℝ)], []]) = .error .empty := by
  constructor
  · simp [Cont.entries]
  · simp [flatNorm, normRec, dofNorm, groupNorms, npLinalgNorm, reduce1]

end Meshmode
