import Verif.Connection.Flatten

/-!
# L2 projection inverses (C41)

meshmode/discretization/connection/projection.py:47-266.
-/
namespace Meshmode

open Finset

variable {R U : Type}

/-- What the projection takes from the bases and quadrature rules of the groups (computed by
modepy): the basis functions of group `s` of the connection's target tabulated at the unit nodes of
a batch (meshmode/discretization/connection/projection.py:217-222), the weights of a batch from
group `g` (`_batch_weights`, meshmode/discretization/connection/projection.py:90-130), and the
Vandermonde matrix of group `g` of the connection's source
(meshmode/discretization/connection/projection.py:244-253). -/
structure L2Ops (R U : Type) where
  tab : Nat → U → Nat → Nat → R
  wgt : Nat → U → Nat → R
  vdm : Nat → Nat → Nat → R

section
variable [CommRing R]

/-- One run of the kernel, meshmode/discretization/connection/projection.py:160-207, as called at
228-240: coefficient `ib` of element `e`, a sum over the pairs of the batch that lead to `e`.
(The kernel adds concurrently; a batch with a repeated source element would be a race there.) -/
def l2Batch (ops : L2Ops R U) (ary : DofArr R) (igrp n : Nat) (b : Batch U) (e ib : Nat) : R :=
  ((b.pairs.filter fun p => p.2 == e).map fun p => ∑ q ∈ range n,
    ary b.fromGroup p.1 q * ops.tab b.fromGroup b.nodes ib q * ops.wgt igrp b.nodes q).sum

/-- `L2ProjectionInverseDiscretizationConnection.__call__`,
meshmode/discretization/connection/projection.py:132-266; `none` if it raises: group counts differ
(`self.conn.groups[igrp]`, 123, or the strict `zip`, 263), a group has no batches (the sum is then
the integer 0 and not an array), or a batch's group index is not one of the target's (217).  `c` is
the forward connection. -/
def l2Call (ops : L2Ops R U) (c : DirectConn R U) (ary : DofArr R) : Option (DofArr R) :=
  if c.groups.length ≠ c.fromD.length then none
  else if c.groups.any fun bs => bs.isEmpty ||
      bs.any fun b => decide (c.toD.length ≤ b.fromGroup) then none
  else some fun g e i =>
    match c.fromD[g]?, c.groups[g]? with
    | some dg, some bs => ∑ ib ∈ range dg.ndof, ops.vdm g i ib *
        (bs.map fun b => l2Batch ops ary g dg.ndof b e ib).sum
    | _, _ => 0

/-- Result of `L2ProjectionInverseDiscretizationConnection(...)`: an empty chain handed back, the
inverse of a direct connection, or a chain.
Code: meshmode/discretization/connection/projection.py:61-88. -/
inductive LConn (R U : Type) where
  | orig (c : Conn R U)
  | inv (c : DirectConn R U)
  | chained (l : List (LConn R U))

mutual
/-- `L2ProjectionInverseDiscretizationConnection.__new__`,
meshmode/discretization/connection/projection.py:61-74.  `ok` is the check of `__init__` (76-81:
equal dimensions and orthonormal bases).  An identity connection is neither direct nor chained, and
`reversed` raises. -/
def l2Inverse (ok : DirectConn R U → Bool) : Conn R U → Option (LConn R U)
  | .direct c => if ok c then some (.inv c) else none
  | .ident _ => none
  | .chained [] f t s => some (.orig (.chained [] f t s))
  | .chained (c :: cs) _ _ _ => (l2InverseList ok (c :: cs)).map .chained

/-- The comprehension over `reversed(connections)`.
Code: meshmode/discretization/connection/projection.py:61-74. -/
def l2InverseList (ok : DirectConn R U → Bool) : List (Conn R U) → Option (List (LConn R U))
  | [] => some []
  | c :: cs => (l2InverseList ok cs).bind fun ms => (l2Inverse ok c).map fun m => ms ++ [m]
end

mutual
/-- `__call__` of the result; `inv` is the call of the inverse of a direct connection.
Code: meshmode/discretization/connection/projection.py:132-266. -/
def LConn.call (merge : Bool) (inv : DirectConn R U → DofArr R → Option (DofArr R)) :
    LConn R U → DofArr R → Option (DofArr R)
  | .orig c, a => c.call merge a
  | .inv c, a => inv c a
  | .chained l, a => LConn.callList merge inv l a

/-- `ChainedDiscretizationConnection.__call__`,
meshmode/discretization/connection/chained.py:67-71. -/
def LConn.callList (merge : Bool) (inv : DirectConn R U → DofArr R → Option (DofArr R)) :
    List (LConn R U) → DofArr R → Option (DofArr R)
  | [], a => some a
  | c :: cs, a => (c.call merge inv a).bind fun a' => LConn.callList merge inv cs a'
end

/-! ## Specification -/

omit [CommRing R] in
/-- Two arrays agree on a discretization. (Specification or proof vocabulary, no code.) -/
def EqOn (D : List (DGroup R U)) (a b : DofArr R) : Prop :=
  ∀ (g : Nat) dg, D[g]? = some dg → ∀ e < dg.nel, ∀ i < dg.ndof, a g e i = b g e i

/-- `inv` is a left inverse of the direct connection `c`, for input known on `c.toD` only.
(Specification or proof vocabulary, no code.) -/
def LeftInv (merge : Bool) (inv : DirectConn R U → DofArr R → Option (DofArr R))
    (c : DirectConn R U) : Prop :=
  ∀ a u v, c.call merge a = some u → EqOn c.toD v u → ∃ w, inv c v = some w ∧ EqOn c.fromD w a

/-- The inverse the class promises: group `g` collects from the pairs of all batches that read
group `g`, whatever their target group `t`, and reads group `t`.
(Specification or proof vocabulary, no code.) -/
def l2Want (ops : L2Ops R U) (c : DirectConn R U) (ary : DofArr R) (g e i n : Nat) : R :=
  ∑ ib ∈ range n, ops.vdm g i ib *
    (c.groups.zipIdx.map fun p => ((p.1.filter fun b => b.fromGroup == g).map fun b =>
      ((b.pairs.filter fun r => r.2 == e).map fun r => ∑ q ∈ range n,
        ary p.2 r.1 q * ops.tab g b.nodes ib q * ops.wgt g b.nodes q).sum).sum).sum

/-- Every batch reads the group with the number of its target group.
(Specification or proof vocabulary, no code.) -/
def SameGroups (c : DirectConn R U) : Prop :=
  ∀ (t : Nat) bs, c.groups[t]? = some bs → ∀ b ∈ bs, b.fromGroup = t

/-! ## The inverse of a direct connection -/

/-- C41: if every batch reads the group with the number of its target group, the inverse is the one
promised.  (Missing: without the hypothesis it is not, see `C41_groups_counterexample`.) -/
theorem C41_groups_partial {ops : L2Ops R U} {c : DirectConn R U} (hs : SameGroups c)
    {ary w : DofArr R} (h : l2Call ops c ary = some w) {g : Nat} {dg : DGroup R U}
    (hg : c.fromD[g]? = some dg) (e i : Nat) :
    w g e i = l2Want ops c ary g e i dg.ndof := by
  unfold l2Call at h
  split at h
  · simp at h
  rename_i hlen
  split at h
  · simp at h
  obtain rfl := Option.some.inj h
  have hgl : g < c.groups.length := by
    rw [not_not.1 hlen]
    exact (List.getElem?_eq_some_iff.1 hg).1
  obtain ⟨bs, hbs⟩ : ∃ bs, c.groups[g]? = some bs := ⟨_, List.getElem?_eq_getElem hgl⟩
  simp only [hg, hbs]
  unfold l2Want
  apply Finset.sum_congr rfl
  intro ib _
  congr 1
  rw [sum_zipIdx_single _ g bs hbs]
  · simp only
    rw [List.filter_eq_self.2 fun b hb => by simp [hs g bs hbs b hb]]
    congr 1
    apply List.map_congr_left
    intro b hb
    unfold l2Batch
    rw [hs g bs hbs b hb]
  · intro t a ha ht
    rw [List.filter_eq_nil_iff.2 fun b hb => by simp [hs t a ha b hb, ht]]
    rfl

theorem list_sum_mul_right {α : Type} (l : List α) (f : α → R) (x : R) :
    (l.map fun a => f a * x).sum = (l.map f).sum * x := by
  induction l with
  | nil => simp
  | cons a l ih => simp only [List.map_cons, List.sum_cons, ih, add_mul]

theorem list_sum_finset_comm {α : Type} (l : List α) (n : Nat) (f : α → Nat → R) :
    (l.map fun a => ∑ j ∈ range n, f a j).sum = ∑ j ∈ range n, (l.map fun a => f a j).sum := by
  induction l with
  | nil => simp
  | cons a l ih => simp only [List.map_cons, List.sum_cons, ih, Finset.sum_add_distrib]

/-- Tabulated basis, weights and resampling matrices of the batches over an element `e` of group `g`
reproduce the element's degrees of freedom: what orthonormality and exact quadrature give.
(Specification or proof vocabulary, no code.) -/
def L2Exact (ops : L2Ops R U) (c : DirectConn R U) : Prop :=
  ∀ (g : Nat) dg bs, c.fromD[g]? = some dg → c.groups[g]? = some bs → ∀ e < dg.nel,
    ∀ i < dg.ndof, ∀ j < dg.ndof, ∑ ib ∈ range dg.ndof, ops.vdm g i ib *
      (bs.map fun b => ((b.pairs.filter fun p => p.2 == e).map fun _ => ∑ q ∈ range dg.ndof,
        dg.mat b.nodes q j * ops.tab g b.nodes ib q * ops.wgt g b.nodes q).sum).sum =
      if i = j then 1 else 0

/-- C41: with exact quadrature, one batch per group at least, and equal numbers of groups and of
unit nodes, the inverse is a left inverse of the forward connection. -/
theorem C41_direct_left_inverse_partial {ops : L2Ops R U} {c : DirectConn R U} {merge : Bool}
    (hv : c.Valid) (hp : ∀ g ∈ c.fromD, PickSound g) (hs : SameGroups c)
    (hlen : c.fromD.length = c.toD.length) (hne : ∀ bs ∈ c.groups, bs ≠ [])
    (hdof : ∀ (g : Nat) dg tg, c.fromD[g]? = some dg → c.toD[g]? = some tg → tg.ndof = dg.ndof)
    (hnd : ∀ bs ∈ c.groups, (bs.flatMap Batch.toEls).Nodup) (hx : L2Exact ops c) :
    LeftInv merge (l2Call ops) c := by
  intro a u v hu hvu
  unfold l2Call
  rw [if_neg (by rw [hv.ngroups, hlen]; simp), if_neg ?_]
  · refine ⟨_, rfl, ?_⟩
    intro g dg hg e he i hi
    have hgl := (List.getElem?_eq_some_iff.1 hg).1
    obtain ⟨tg, htg⟩ : ∃ tg, c.toD[g]? = some tg :=
      ⟨_, List.getElem?_eq_getElem (by omega)⟩
    obtain ⟨bs, hbs⟩ : ∃ bs, c.groups[g]? = some bs :=
      ⟨_, List.getElem?_eq_getElem (by rw [hv.ngroups]; omega)⟩
    simp only [hg, hbs]
    have hbatch : ∀ b ∈ bs, ∀ ib, l2Batch ops v g dg.ndof b e ib = ∑ j ∈ range dg.ndof,
        ((b.pairs.filter fun p => p.2 == e).map fun _ => ∑ q ∈ range dg.ndof,
          dg.mat b.nodes q j * ops.tab g b.nodes ib q * ops.wgt g b.nodes q).sum * a g e j := by
      intro b hb ib
      unfold l2Batch
      rw [hs g bs hbs b hb]
      simp only [← list_sum_mul_right]
      rw [← list_sum_finset_comm]
      congr 1
      apply List.map_congr_left
      intro p hpm
      obtain ⟨hpp, hpe⟩ := List.mem_filter.1 hpm
      simp only [beq_iff_eq] at hpe
      obtain ⟨e', f⟩ := p
      simp only at hpe
      subst hpe
      obtain ⟨_, _, h3, _⟩ := hv.batch g bs tg hbs htg b hb
      have he' : e' < tg.nel := h3 e' (List.of_mem_zip hpp).1
      have hval : ∀ q < dg.ndof, v g e' q =
          ∑ j ∈ range dg.ndof, dg.mat b.nodes q j * a g f j := by
        intro q hq
        have hq' : q < tg.ndof := by rw [hdof g dg tg hg htg]; exact hq
        have hfg := hs g bs hbs b hb
        rw [hvu g tg htg e' he' q hq', C23_value hv hp hu hbs htg hq',
          interp_sum_of_mem (hnd bs (List.mem_of_getElem? hbs)) hb hpp (by rw [hfg]; exact hg), hfg]
      simp only [Finset.sum_mul]
      rw [Finset.sum_comm]
      apply Finset.sum_congr rfl
      intro q hq
      rw [hval q (Finset.mem_range.1 hq), Finset.sum_mul, Finset.sum_mul]
      apply Finset.sum_congr rfl
      intro j _
      ring
    have step : ∀ ib, (bs.map fun b => l2Batch ops v g dg.ndof b e ib).sum =
        ∑ j ∈ range dg.ndof, (bs.map fun b => ((b.pairs.filter fun p => p.2 == e).map fun _ =>
          ∑ q ∈ range dg.ndof, dg.mat b.nodes q j * ops.tab g b.nodes ib q *
            ops.wgt g b.nodes q).sum).sum * a g e j := by
      intro ib
      have : ∀ j, (bs.map fun b => ((b.pairs.filter fun p => p.2 == e).map fun _ =>
          ∑ q ∈ range dg.ndof, dg.mat b.nodes q j * ops.tab g b.nodes ib q *
            ops.wgt g b.nodes q).sum).sum * a g e j = (bs.map fun b =>
          ((b.pairs.filter fun p => p.2 == e).map fun _ => ∑ q ∈ range dg.ndof,
            dg.mat b.nodes q j * ops.tab g b.nodes ib q * ops.wgt g b.nodes q).sum *
              a g e j).sum := fun j => (list_sum_mul_right _ _ _).symm
      simp only [this]
      rw [← list_sum_finset_comm]
      congr 1
      apply List.map_congr_left
      intro b hb
      exact hbatch b hb ib
    simp only [step, Finset.mul_sum]
    rw [Finset.sum_comm]
    have : ∀ j ∈ range dg.ndof, ∑ ib ∈ range dg.ndof, ops.vdm g i ib *
        ((bs.map fun b => ((b.pairs.filter fun p => p.2 == e).map fun _ =>
          ∑ q ∈ range dg.ndof, dg.mat b.nodes q j * ops.tab g b.nodes ib q *
            ops.wgt g b.nodes q).sum).sum * a g e j) = (if i = j then 1 else 0) * a g e j := by
      intro j hj
      rw [← hx g dg bs hg hbs e he i hi j (Finset.mem_range.1 hj), Finset.sum_mul]
      apply Finset.sum_congr rfl
      intro ib _
      ring
    rw [Finset.sum_congr rfl this]
    simp [hi]
  · simp only [List.any_eq_true, Bool.or_eq_true, List.isEmpty_iff, decide_eq_true_eq, not_exists,
      not_and]
    intro bs hbs hcase
    rcases hcase with h0 | ⟨b, hb, hle⟩
    · exact hne bs hbs h0
    · obtain ⟨t, ht⟩ := List.mem_iff_getElem?.1 hbs
      have htl := (List.getElem?_eq_some_iff.1 ht).1
      rw [hs t bs ht b hb, ← hv.ngroups] at hle
      omega

/-! ## Chains -/

theorem callList_append (merge : Bool) (inv : DirectConn R U → DofArr R → Option (DofArr R))
    (l m : List (LConn R U)) (a : DofArr R) :
    LConn.callList merge inv (l ++ m) a =
      (LConn.callList merge inv l a).bind (LConn.callList merge inv m) := by
  induction l generalizing a with
  | nil => rfl
  | cons c cs ih =>
    rw [List.cons_append, LConn.callList, LConn.callList]
    cases c.call merge inv a with
    | none => rfl
    | some a' => exact ih a'

omit [CommRing R] in
/-- C41: the inverse of a non-empty chain is the chain of the members' inverses in reverse order,
and there is none if one member has none. -/
theorem C41_reversed (ok : DirectConn R U → Bool) (l : List (Conn R U)) (hl : l ≠ [])
    (f t : List (DGroup R U)) (s : Bool) :
    l2Inverse ok (.chained l f t s) = (l.reverse.mapM (l2Inverse ok)).map .chained := by
  have key : ∀ l : List (Conn R U), l2InverseList ok l = l.reverse.mapM (l2Inverse ok) := by
    intro l
    induction l with
    | nil => rw [l2InverseList]; rfl
    | cons c cs ih =>
      rw [l2InverseList, List.reverse_cons, List.mapM_append, ih]
      simp only [List.mapM_cons, List.mapM_nil, Option.bind_eq_bind, Option.pure_def]
      cases cs.reverse.mapM (l2Inverse ok) with
      | none => rfl
      | some ms => cases l2Inverse ok c <;> rfl
  cases l with
  | nil => exact absurd rfl hl
  | cons c cs => rw [l2Inverse, key]

mutual
/-- The direct connections of a chain, at any depth.
(Specification or proof vocabulary, no code.) -/
def Conn.leaves : Conn R U → List (DirectConn R U)
  | .direct c => [c]
  | .ident _ => []
  | .chained l _ _ _ => Conn.leavesList l

/-- The same for the members. (Specification or proof vocabulary, no code.) -/
def Conn.leavesList : List (Conn R U) → List (DirectConn R U)
  | [] => []
  | c :: cs => c.leaves ++ Conn.leavesList cs
end

mutual
/-- An identity connection occurs, at any depth. (Specification or proof vocabulary, no code.) -/
def Conn.HasIdent : Conn R U → Prop
  | .direct _ => False
  | .ident _ => True
  | .chained l _ _ _ => Conn.HasIdentList l

/-- The same for the members. (Specification or proof vocabulary, no code.) -/
def Conn.HasIdentList : List (Conn R U) → Prop
  | [] => False
  | c :: cs => c.HasIdent ∨ Conn.HasIdentList cs
end

omit [CommRing R] in
mutual
/-- C41: there is an inverse exactly when every direct connection at any depth passes the checks and no identity
connection occurs. -/
theorem C41_defined (ok : DirectConn R U → Bool) (c : Conn R U) :
    (l2Inverse ok c).isSome = true ↔ (∀ d ∈ c.leaves, ok d = true) ∧ ¬ c.HasIdent := by
  match c with
  | .direct d =>
    rw [l2Inverse, Conn.leaves, Conn.HasIdent]
    cases h : ok d <;> simp [h]
  | .ident D => simp [l2Inverse, Conn.HasIdent]
  | .chained [] f t s => simp [l2Inverse, Conn.leaves, Conn.leavesList, Conn.HasIdent, Conn.HasIdentList]
  | .chained (d :: ds) f t s =>
    rw [l2Inverse, Option.isSome_map, Conn.leaves, Conn.HasIdent]
    exact C41_list_defined ok (d :: ds)

/-- The same for the list of members. -/
theorem C41_list_defined (ok : DirectConn R U → Bool) (l : List (Conn R U)) :
    (l2InverseList ok l).isSome = true ↔ (∀ d ∈ Conn.leavesList l, ok d = true) ∧ ¬ Conn.HasIdentList l := by
  match l with
  | [] => simp [l2InverseList, Conn.leavesList, Conn.HasIdentList]
  | c :: cs =>
    have h1 := C41_defined ok c
    have h2 := C41_list_defined ok cs
    rw [l2InverseList, Conn.leavesList, Conn.HasIdentList]
    have h3 : ((l2InverseList ok cs).bind fun ms => (l2Inverse ok c).map fun m => ms ++ [m]).isSome = true ↔
        (l2InverseList ok cs).isSome = true ∧ (l2Inverse ok c).isSome = true := by
      cases l2InverseList ok cs <;> simp
    rw [h3, h1, h2]
    simp only [List.mem_append, not_or]
    constructor
    · rintro ⟨⟨a, b⟩, c, d⟩
      exact ⟨fun x hx => hx.elim (c x) (a x), d, b⟩
    · rintro ⟨a, b, c⟩
      exact ⟨⟨fun x hx => a x (Or.inr hx), c⟩, fun x hx => a x (Or.inl hx), b⟩
end

mutual
/-- C41: if the inverse of each direct member is a left inverse, the inverse of a (possibly nested)
chain is one. -/
theorem C41_chain_left_inverse (merge : Bool) (ok : DirectConn R U → Bool)
    (inv : DirectConn R U → DofArr R → Option (DofArr R)) (c : Conn R U) (hc : c.Good)
    (hinv : ∀ d ∈ c.leaves, LeftInv merge inv d) (m : LConn R U) (hm : l2Inverse ok c = some m)
    (a u v : DofArr R) (hu : c.call merge a = some u) (hvu : EqOn c.toD v u) :
    ∃ w, m.call merge inv v = some w ∧ EqOn c.fromD w a := by
  match c with
  | .direct d =>
    rw [l2Inverse] at hm
    split at hm
    · obtain rfl := Option.some.inj hm
      rw [Conn.call] at hu
      rw [LConn.call]
      exact hinv d (by simp [Conn.leaves]) a u v hu hvu
    · simp at hm
  | .ident D => rw [l2Inverse] at hm; simp at hm
  | .chained [] f t s =>
    rw [l2Inverse] at hm
    obtain rfl := Option.some.inj hm
    rw [Conn.call, Conn.callList] at hu
    obtain rfl := Option.some.inj hu
    rw [Conn.Good, Conn.GoodList] at hc
    subst hc
    exact ⟨v, by rw [LConn.call, Conn.call, Conn.callList], hvu⟩
  | .chained (d :: ds) f t s =>
    rw [l2Inverse] at hm
    obtain ⟨ms, hms, rfl⟩ := Option.map_eq_some_iff.1 hm
    rw [Conn.call] at hu
    rw [Conn.Good] at hc
    rw [LConn.call]
    exact C41_list_left_inverse merge ok inv (d :: ds) f t hc
      (fun x hx => hinv x (by rw [Conn.leaves]; exact hx)) ms hms a u v hu hvu

/-- The same for the list of members. -/
theorem C41_list_left_inverse (merge : Bool) (ok : DirectConn R U → Bool)
    (inv : DirectConn R U → DofArr R → Option (DofArr R)) (l : List (Conn R U))
    (f t : List (DGroup R U)) (hc : Conn.GoodList l f t)
    (hinv : ∀ d ∈ Conn.leavesList l, LeftInv merge inv d) (ms : List (LConn R U))
    (hm : l2InverseList ok l = some ms) (a u v : DofArr R)
    (hu : Conn.callList merge l a = some u) (hvu : EqOn t v u) :
    ∃ w, LConn.callList merge inv ms v = some w ∧ EqOn f w a := by
  match l with
  | [] =>
    rw [l2InverseList] at hm
    obtain rfl := Option.some.inj hm
    rw [Conn.callList] at hu
    obtain rfl := Option.some.inj hu
    rw [Conn.GoodList] at hc
    subst hc
    exact ⟨v, by rw [LConn.callList], hvu⟩
  | c :: cs =>
    rw [l2InverseList] at hm
    obtain ⟨ms', hms', hm⟩ := Option.bind_eq_some_iff.1 hm
    obtain ⟨m, hmc, rfl⟩ := Option.map_eq_some_iff.1 hm
    rw [Conn.callList] at hu
    obtain ⟨a', ha', hu⟩ := Option.bind_eq_some_iff.1 hu
    rw [Conn.GoodList] at hc
    obtain ⟨hc1, hc2, hc3⟩ := hc
    rw [Conn.leavesList] at hinv
    obtain ⟨w, hw, hw'⟩ := C41_list_left_inverse merge ok inv cs c.toD t hc3
      (fun d hd => hinv d (List.mem_append_right _ hd)) ms' hms' a' u v hu hvu
    obtain ⟨w2, hw2, hw2'⟩ := C41_chain_left_inverse merge ok inv c hc1
      (fun d hd => hinv d (List.mem_append_left _ hd)) m hmc a a' w ha' hw'
    refine ⟨w2, ?_, hc2 ▸ hw2'⟩
    rw [callList_append, hw, Option.bind_some, LConn.callList, hw2, Option.bind_some,
      LConn.callList]
end

end

/-! ## Examples -/

/-- One degree of freedom per element and the identity as resampling matrix. -/
def exL2Group (n : Nat) : DGroup ℤ Unit := ⟨n, 1, fun _ _ _ => 1, fun _ => none⟩

/-- Constant basis and unit weights. -/
def exL2Ops : L2Ops ℤ Unit := ⟨fun _ _ _ _ => 1, fun _ _ _ => 1, fun _ _ _ => 1⟩

/-- Three groups of one element, target group `t` reading source group `s t`. -/
def exL2Conn (s : Nat → Nat) : DirectConn ℤ Unit :=
  ⟨List.replicate 3 (exL2Group 1), List.replicate 3 (exL2Group 1),
    (List.range 3).map fun t => [⟨s t, [0], [0], (), none⟩], false⟩

/-- C41: the inverse of a valid connection that moves the groups around, with exact quadrature,
reads the wrong groups: of the data 0, 1, 2 moved to 1, 2, 0 it makes 2, 0, 1. -/
theorem C41_groups_counterexample :
    ∃ (c : DirectConn ℤ Unit) (a u w : DofArr ℤ), c.call false a = some u ∧
      l2Call exL2Ops c u = some w ∧
      (List.range 3).map (fun g => a g 0 0) = [0, 1, 2] ∧
      (List.range 3).map (fun g => l2Want exL2Ops c u g 0 0 1) = [0, 1, 2] ∧
      (List.range 3).map (fun g => w g 0 0) = [2, 0, 1] := by
  refine ⟨exL2Conn fun t => (t + 1) % 3, fun g _ _ => (g : ℤ), _, _, rfl, rfl, ?_, ?_, ?_⟩ <;>
    decide +kernel

/-- Two groups; the element 0 of group 0 has two children with weight one half. -/
def exL2Refine : DirectConn ℚ Unit :=
  ⟨[⟨2, 1, fun _ _ _ => 1, fun _ => none⟩, ⟨1, 1, fun _ _ _ => 1, fun _ => none⟩],
    [⟨4, 1, fun _ _ _ => 1, fun _ => none⟩, ⟨2, 1, fun _ _ _ => 1, fun _ => none⟩],
    [[⟨0, [0, 1], [0, 2], (), none⟩, ⟨0, [0, 1], [1, 3], (), none⟩],
      [⟨1, [0], [1], (), none⟩, ⟨1, [0], [0], (), none⟩]], true⟩

example : (exL2Refine.call true fun g e _ => (10 * g + e : ℚ)).isSome = true := by decide +kernel

example : ((exL2Refine.call true fun g e _ => (10 * g + e : ℚ)).bind
    (l2Call ⟨fun _ _ _ _ => 1, fun _ _ _ => 1 / 2, fun _ _ _ => 1⟩ exL2Refine)).map
    (fun w => [w 0 0 0, w 0 1 0, w 1 0 0]) = some [0, 1, 10] := by decide +kernel

example : LeftInv true (l2Call ⟨fun _ _ _ _ => 1, fun _ _ _ => 1 / 2, fun _ _ _ => 1⟩)
    exL2Refine := by
  apply C41_direct_left_inverse_partial
  · refine ⟨rfl, ?_⟩
    intro t bs tg h1 h2
    match t with
    | 0 =>
      simp only [exL2Refine, List.getElem?_cons_zero, Option.some.injEq] at h1 h2
      subst h1 h2
      simp [exL2Refine]
    | 1 =>
      simp only [exL2Refine, List.getElem?_cons_zero, List.getElem?_cons_succ,
        Option.some.injEq] at h1 h2
      subst h1 h2
      simp [exL2Refine]
    | t + 2 => simp [exL2Refine] at h1
  · intro g hg u I hI
    simp only [exL2Refine, List.mem_cons, List.not_mem_nil, or_false] at hg
    rcases hg with rfl | rfl <;> simp at hI
  · intro t bs h b hb
    match t with
    | 0 =>
      simp only [exL2Refine, List.getElem?_cons_zero, Option.some.injEq] at h
      subst h
      simp only [List.mem_cons, List.not_mem_nil, or_false] at hb
      rcases hb with rfl | rfl <;> rfl
    | 1 =>
      simp only [exL2Refine, List.getElem?_cons_zero, List.getElem?_cons_succ,
        Option.some.injEq] at h
      subst h
      simp only [List.mem_cons, List.not_mem_nil, or_false] at hb
      rcases hb with rfl | rfl <;> rfl
    | t + 2 => simp [exL2Refine] at h
  · rfl
  · simp [exL2Refine]
  · intro g dg tg h1 h2
    match g with
    | 0 =>
      simp only [exL2Refine, List.getElem?_cons_zero, Option.some.injEq] at h1 h2
      subst h1 h2
      rfl
    | 1 =>
      simp only [exL2Refine, List.getElem?_cons_zero, List.getElem?_cons_succ,
        Option.some.injEq] at h1 h2
      subst h1 h2
      rfl
    | t + 2 => simp [exL2Refine] at h1
  · simp [exL2Refine]
  · intro g dg bs h1 h2 e he i hi j hj
    match g with
    | 0 =>
      simp only [exL2Refine, List.getElem?_cons_zero, Option.some.injEq] at h1 h2
      subst h1 h2
      simp only at he hi hj
      interval_cases e <;> interval_cases i <;> interval_cases j <;> decide +kernel
    | 1 =>
      simp only [exL2Refine, List.getElem?_cons_zero, List.getElem?_cons_succ,
        Option.some.injEq] at h1 h2
      subst h1 h2
      simp only at he hi hj
      interval_cases e; interval_cases i; interval_cases j; decide +kernel
    | t + 2 => simp [exL2Refine] at h1

example : (l2Inverse (fun _ => true) (Conn.chained [.direct (exL2Conn id),
    .direct (exL2Conn id)] [] [] true)).isSome = true := by
  rw [C41_reversed _ _ (by simp)]
  rfl

/-- Both sides of C41_defined occur: a chain of a direct connection in a chain, and the same with an identity or with a
failing check. -/
example : (l2Inverse (fun _ => true) (Conn.chained [.chained [.direct (exL2Conn id)] [] [] true] [] [] true)).isSome
      = true ∧
    (l2Inverse (fun _ => true) (Conn.chained [.direct (exL2Conn id), .ident []] [] [] true)).isSome ≠ true ∧
    (l2Inverse (fun _ => false) (Conn.chained [.direct (exL2Conn id)] [] [] true)).isSome ≠ true := by
  refine ⟨(C41_defined _ _).2 ?_, fun h => ?_, fun h => ?_⟩
  · simp [Conn.leaves, Conn.leavesList, Conn.HasIdent, Conn.HasIdentList]
  · simpa [Conn.HasIdent, Conn.HasIdentList] using ((C41_defined _ _).1 h).2
  · simpa [Conn.leaves, Conn.leavesList] using ((C41_defined _ _).1 h).1

end Meshmode
