import Verif.Connection.DirectProps

/-!
# Chained connections (C24, C25)

meshmode/discretization/connection/chained.py:37-71, 271-311.
-/
namespace Meshmode

open Finset

variable {R U : Type} [CommRing R]

/-- Direct, identity (meshmode/discretization/connection/direct.py:333-342) and chained connections
(meshmode/discretization/connection/chained.py:37-71, with the attributes set by the constructor).
-/
inductive Conn (R U : Type) where
  | direct (c : DirectConn R U)
  | ident (D : List (DGroup R U))
  | chained (conns : List (Conn R U)) (fromD toD : List (DGroup R U)) (surjective : Bool)

omit [CommRing R] in
section

/-- `from_discr`. Code: meshmode/discretization/connection/chained.py:44-65. -/
def Conn.fromD : Conn R U → List (DGroup R U)
  | direct c => c.fromD
  | ident D => D
  | chained _ f _ _ => f

/-- `to_discr`. Code: meshmode/discretization/connection/chained.py:44-65. -/
def Conn.toD : Conn R U → List (DGroup R U)
  | direct c => c.toD
  | ident D => D
  | chained _ _ t _ => t

/-- `is_surjective`. Code: meshmode/discretization/connection/chained.py:44-65. -/
def Conn.surjective : Conn R U → Bool
  | direct c => c.surjective
  | ident _ => true
  | chained _ _ _ s => s

/-- `ChainedDiscretizationConnection.__init__`,
meshmode/discretization/connection/chained.py:44-65; `none` for the `ValueError`.  (If `from_discr`
is given it has to be that of the first connection; this assertion is not modelled.) -/
def mkChained (conns : List (Conn R U)) (fromD : Option (List (DGroup R U))) :
    Option (Conn R U) :=
  match conns with
  | [] => fromD.map fun D => .chained [] D D true
  | c :: cs => some (.chained (c :: cs) c.fromD ((c :: cs).getLast (by simp)).toD
      ((c :: cs).all Conn.surjective))

end

mutual
/-- `__call__`, meshmode/discretization/connection/chained.py:67-71 for chains. -/
def Conn.call (merge : Bool) : Conn R U → DofArr R → Option (DofArr R)
  | .direct c, a => c.call merge a
  | .ident _, a => some a
  | .chained l _ _ _, a => Conn.callList merge l a

/-- The loop over the members. Code: meshmode/discretization/connection/chained.py:67-71. -/
def Conn.callList (merge : Bool) : List (Conn R U) → DofArr R → Option (DofArr R)
  | [], a => some a
  | c :: cs, a => (c.call merge a).bind fun a' => Conn.callList merge cs a'
end

/-- Product of matrices with inner dimension `n`.
Code: meshmode/discretization/connection/chained.py:305-311. -/
def matMul (n : Nat) (A B : Nat → Nat → R) : Nat → Nat → R :=
  fun r j => ∑ k ∈ range n, A r k * B k j

mutual
/-- `make_full_resample_matrix`, meshmode/discretization/connection/chained.py:271-311; `none` if
there is no matrix: an identity connection (`TypeError`) or a direct connection without batches. -/
def Conn.matrix : Conn R U → Option (Nat → Nat → R)
  | .direct c => c.matrix
  | .ident _ => none
  | .chained [] _ _ _ => some fun r j => if r = j then 1 else 0
  | .chained (c :: cs) _ _ _ => c.matrix.bind fun acc => Conn.matrixList cs acc

/-- The loop `acc = resampler @ acc`.
Code: meshmode/discretization/connection/chained.py:305-311. -/
def Conn.matrixList : List (Conn R U) → (Nat → Nat → R) → Option (Nat → Nat → R)
  | [], acc => some acc
  | c :: cs, acc => c.matrix.bind fun m =>
      Conn.matrixList cs (matMul (dofCount c.fromD) m acc)
end

mutual
/-- Direct connections are valid and the chains fit together.
(Specification or proof vocabulary, no code.) -/
def Conn.Good : Conn R U → Prop
  | .direct c => c.Valid ∧ ∀ g ∈ c.fromD, PickSound g
  | .ident _ => True
  | .chained l f t _ => Conn.GoodList l f t

/-- The members lead from `f` to `t`. (Specification or proof vocabulary, no code.) -/
def Conn.GoodList : List (Conn R U) → List (DGroup R U) → List (DGroup R U) → Prop
  | [], f, t => f = t
  | c :: cs, f, t => c.Good ∧ c.fromD = f ∧ Conn.GoodList cs c.toD t
end

/-- C25: a chain applies its members from left to right, and stops at the first that raises. -/
theorem C25_call (merge : Bool) (l : List (Conn R U)) (f t : List (DGroup R U)) (s : Bool)
    (a : DofArr R) :
    (Conn.chained l f t s).call merge a = l.foldlM (fun a c => Conn.call merge c a) a := by
  rw [Conn.call]
  induction l generalizing a with
  | nil => rw [Conn.callList]; rfl
  | cons c cs ih =>
    rw [Conn.callList, List.foldlM_cons]
    cases h : Conn.call merge c a with
    | none => rfl
    | some a' => exact ih a'

omit [CommRing R] in
/-- C25: the attributes of a chain. -/
theorem C25_attributes {conns : List (Conn R U)} {D : Option (List (DGroup R U))} {c : Conn R U}
    (h : mkChained conns D = some c) :
    (c.surjective = true ↔ ∀ m ∈ conns, m.surjective = true) ∧
    (∀ m, conns.head? = some m → c.fromD = m.fromD) ∧
    (∀ m, conns.getLast? = some m → c.toD = m.toD) ∧
    (conns = [] → D = some c.fromD ∧ c.toD = c.fromD) := by
  cases conns with
  | nil =>
    simp only [mkChained, Option.map_eq_some_iff] at h
    obtain ⟨D', rfl, rfl⟩ := h
    simp [Conn.surjective, Conn.fromD, Conn.toD]
  | cons a l =>
    simp only [mkChained, Option.some.injEq] at h
    subst h
    refine ⟨by simp [Conn.surjective], by simp [Conn.fromD], ?_, by simp⟩
    intro m hm
    rw [List.getLast?_eq_some_getLast (by simp)] at hm
    simp only [Option.some.injEq] at hm
    rw [← hm]
    rfl

/-- C25: an identity connection is between one discretization and itself, sets every value, and returns what it is
given; adding it to a chain does not change the flag. -/
theorem C25_ident (merge : Bool) (D : List (DGroup R U)) (a : DofArr R) :
    (Conn.ident D).surjective = true ∧ (Conn.ident D).fromD = D ∧ (Conn.ident D).toD = D ∧
    (Conn.ident D).call merge a = some a ∧
    ∀ (l l' : List (Conn R U)) c c' X X', mkChained (l ++ .ident D :: l') X = some c →
      mkChained (l ++ l') X' = some c' → c.surjective = c'.surjective := by
  refine ⟨rfl, rfl, rfl, by rw [Conn.call], ?_⟩
  intro l l' c c' X X' h h'
  rw [Bool.eq_iff_iff, (C25_attributes h).1, (C25_attributes h').1]
  simp only [List.mem_append, List.mem_cons]
  constructor
  · rintro hm m (h1 | h1)
    · exact hm m (.inl h1)
    · exact hm m (.inr (.inr h1))
  · rintro hm m (h1 | rfl | h1)
    · exact hm m (.inl h1)
    · rfl
    · exact hm m (.inr h1)

omit [CommRing R] in
theorem goodList_last {l : List (Conn R U)} {f t : List (DGroup R U)} [CommRing R]
    (h : Conn.GoodList l f t) : (∀ c, l.getLast? = some c → t = c.toD) ∧
    (∀ c, l.head? = some c → f = c.fromD) := by
  induction l generalizing f with
  | nil => simp
  | cons c cs ih =>
    rw [Conn.GoodList] at h
    refine ⟨?_, ?_⟩
    · intro m hm
      cases cs with
      | nil =>
        have h3 := h.2.2
        rw [Conn.GoodList] at h3
        simp only [List.getLast?_singleton, Option.some.injEq] at hm
        rw [← hm, h3]
      | cons d ds =>
        rw [List.getLast?_cons_cons] at hm
        exact (ih h.2.2).1 m hm
    · intro m hm
      simp only [List.head?_cons, Option.some.injEq] at hm
      rw [← hm, h.2.1]

/-- Entry `r` of the flattened array. (Specification or proof vocabulary, no code.) -/
def flatEntry (D : List (DGroup R U)) (a : DofArr R) (r : Nat) : R := (flattenDof D a).getD r 0

/-- C22 in this notation. -/
theorem direct_flatEntry {c : DirectConn R U} (hc : c.Valid) (hs : ∀ g ∈ c.fromD, PickSound g)
    {merge : Bool} {a u : DofArr R} (h : c.call merge a = some u) {M : Nat → Nat → R}
    (hM : c.matrix = some M) {r : Nat} (hr : r < dofCount c.toD) :
    flatEntry c.toD u r = ∑ j ∈ range (dofCount c.fromD), M r j * flatEntry c.fromD a j := by
  unfold flatEntry
  rw [List.getD_eq_getElem?_getD, C22_call_eq_matrix hc hs h hM hr]
  rfl

theorem matMul_mulVec {n n0 : Nat} {m acc : Nat → Nat → R} {v w : Nat → R}
    (hw : ∀ k < n, w k = ∑ j ∈ range n0, acc k j * v j) (r : Nat) :
    ∑ j ∈ range n0, matMul n m acc r j * v j = ∑ k ∈ range n, m r k * w k := by
  unfold matMul
  simp only [Finset.sum_mul]
  rw [Finset.sum_comm]
  apply Finset.sum_congr rfl
  intro k hk
  rw [hw k (Finset.mem_range.1 hk), Finset.mul_sum]
  apply Finset.sum_congr rfl
  intro j _
  ring

mutual
/-- C25: the dense matrix of a (possibly nested) chain, the product of the members' matrices in the
order of application, times the flattened input is the flattened output. -/
theorem C25_matrix (merge : Bool) (c : Conn R U) (hc : c.Good) (a u : DofArr R)
    (M : Nat → Nat → R) (h : c.call merge a = some u) (hM : c.matrix = some M) (r : Nat)
    (hr : r < dofCount c.toD) :
    flatEntry c.toD u r = ∑ j ∈ range (dofCount c.fromD), M r j * flatEntry c.fromD a j := by
  match c with
  | .direct c =>
    rw [Conn.Good] at hc
    rw [Conn.call] at h
    rw [Conn.matrix] at hM
    exact direct_flatEntry hc.1 hc.2 h hM hr
  | .ident D =>
    rw [Conn.matrix] at hM
    simp at hM
  | .chained [] f t s =>
    rw [Conn.Good, Conn.GoodList] at hc
    rw [Conn.call, Conn.callList] at h
    rw [Conn.matrix] at hM
    simp only [Option.some.injEq] at h hM
    subst h hM hc
    simp only [Conn.fromD, Conn.toD] at hr ⊢
    simp only [ite_mul, one_mul, zero_mul]
    rw [Finset.sum_ite_eq (range (dofCount f)), if_pos (Finset.mem_range.2 hr)]
  | .chained (c :: cs) f t s =>
    rw [Conn.Good, Conn.GoodList] at hc
    rw [Conn.call, Conn.callList] at h
    rw [Conn.matrix] at hM
    obtain ⟨acc, hacc, hM⟩ := Option.bind_eq_some_iff.1 hM
    obtain ⟨a', ha', h⟩ := Option.bind_eq_some_iff.1 h
    obtain ⟨h1, h2, h3⟩ := hc
    simp only [Conn.fromD, Conn.toD] at hr ⊢
    subst h2
    exact C25_matrixList merge cs c.toD t h3 a' u acc M h hM (dofCount c.fromD)
      (flatEntry c.fromD a) (fun k hk => C25_matrix merge c h1 a a' acc ha' hacc k hk) r hr

theorem C25_matrixList (merge : Bool) (l : List (Conn R U)) (f t : List (DGroup R U))
    (hl : Conn.GoodList l f t) (a u : DofArr R) (acc M : Nat → Nat → R)
    (h : Conn.callList merge l a = some u) (hM : Conn.matrixList l acc = some M) (n0 : Nat)
    (v : Nat → R)
    (hacc : ∀ k < dofCount f, flatEntry f a k = ∑ j ∈ range n0, acc k j * v j) (r : Nat)
    (hr : r < dofCount t) : flatEntry t u r = ∑ j ∈ range n0, M r j * v j := by
  match l with
  | [] =>
    rw [Conn.GoodList] at hl
    rw [Conn.callList] at h
    rw [Conn.matrixList] at hM
    simp only [Option.some.injEq] at h hM
    subst h hM hl
    exact hacc r hr
  | c :: cs =>
    rw [Conn.GoodList] at hl
    rw [Conn.callList] at h
    rw [Conn.matrixList] at hM
    obtain ⟨h1, h2, h3⟩ := hl
    obtain ⟨m, hm, hM⟩ := Option.bind_eq_some_iff.1 hM
    obtain ⟨a', ha', h⟩ := Option.bind_eq_some_iff.1 h
    refine C25_matrixList merge cs c.toD t h3 a' u _ M h hM n0 v ?_ r hr
    intro k hk
    subst h2
    rw [matMul_mulVec hacc, C25_matrix merge c h1 a a' m ha' hm k hk]
end

/-- C25: the matrix of a chain is the product of the members' matrices, the last on the left. -/
theorem C25_matrix_product {c : Conn R U} {cs : List (Conn R U)} {f t : List (DGroup R U)}
    {s : Bool} {M : Nat → Nat → R} {Ms : List (Nat → Nat → R)}
    (hM : c.matrix = some M) (hMs : cs.mapM Conn.matrix = some Ms) :
    (Conn.chained (c :: cs) f t s).matrix =
      some ((cs.zip Ms).foldl (fun acc p => matMul (dofCount p.1.fromD) p.2 acc) M) := by
  rw [Conn.matrix, hM, Option.bind_some]
  clear hM
  induction cs generalizing M Ms with
  | nil =>
    simp only [List.mapM_nil, Option.pure_def, Option.some.injEq] at hMs
    subst hMs
    rw [Conn.matrixList]
    rfl
  | cons d ds ih =>
    simp only [List.mapM_cons, Option.bind_eq_bind, Option.bind_eq_some_iff, Option.pure_def,
      Option.some.injEq] at hMs
    obtain ⟨m, hm, ms, hms, rfl⟩ := hMs
    rw [Conn.matrixList, hm, Option.bind_some, ih hms]
    rfl

mutual
/-- C24 for every connection: linearity. -/
theorem C24_linear (merge : Bool) (c : Conn R U) (x y : DofArr R) (a : R) :
    c.call merge (fun g e i => a * x g e i + y g e i) =
      (c.call merge x).bind fun u => (c.call merge y).map fun v =>
        fun g e i => a * u g e i + v g e i := by
  match c with
  | .direct c => simp only [Conn.call]; exact C24_direct_linear c merge x y a
  | .ident D => simp only [Conn.call]; rfl
  | .chained l f t s => simp only [Conn.call]; exact C24_linearList merge l x y a

theorem C24_linearList (merge : Bool) (l : List (Conn R U)) (x y : DofArr R) (a : R) :
    Conn.callList merge l (fun g e i => a * x g e i + y g e i) =
      (Conn.callList merge l x).bind fun u => (Conn.callList merge l y).map fun v =>
        fun g e i => a * u g e i + v g e i := by
  match l with
  | [] => simp only [Conn.callList]; rfl
  | c :: cs =>
    simp only [Conn.callList]
    rw [C24_linear merge c x y a]
    cases h1 : Conn.call merge c x with
    | none => rfl
    | some u =>
      cases h2 : Conn.call merge c y with
      | none => simp
      | some v =>
        simp only [Option.bind_some, Option.map_some]
        exact C24_linearList merge cs u v a
end

/-- C24: zero is mapped to zero by every connection. -/
theorem C24_zero {merge : Bool} {c : Conn R U} {u : DofArr R}
    (h : c.call merge (fun _ _ _ => 0) = some u) : u = fun _ _ _ => 0 := by
  have := C24_linear merge c (fun _ _ _ => 0) (fun _ _ _ => 0) (-1)
  simp only [mul_zero, add_zero] at this
  rw [h] at this
  simp only [Option.bind_some, Option.map_some, Option.some.injEq] at this
  rw [this]
  funext g e i
  ring

/-! ### Examples -/

/-- From the target of `exConn` to one element: the sum of the nodes of element 2, then of the
second group. -/
def exBack : DirectConn Int Bool :=
  ⟨exTo, [⟨1, 2, fun _ _ _ => 0, fun _ => none⟩], [[⟨0, [2], [0], true, none⟩]], true⟩

/-- A nested chain that meets the hypotheses of `C25_matrix`. -/
def exChain : Conn Int Bool :=
  .chained [.direct exConn, .chained [.direct exBack] exTo exBack.toD true,
    .chained [] exBack.toD exBack.toD true] exFrom exBack.toD true

theorem exBack_valid : exBack.Valid ∧ ∀ g ∈ exBack.fromD, PickSound g := by
  refine ⟨⟨rfl, ?_⟩, ?_⟩
  · intro t bs tg ht htg b hb
    have htl : t < 1 := (List.getElem?_eq_some_iff.1 ht).1
    interval_cases t
    cases ht
    cases htg
    fin_cases hb
    exact ⟨rfl, by decide, by decide, _, rfl, by decide, by simp⟩
  · intro g hg u I hI
    fin_cases hg <;> simp at hI

example : exChain.Good := by
  simp only [exChain, Conn.Good, Conn.GoodList, Conn.fromD, Conn.toD, and_true]
  exact ⟨⟨exConn_valid, exConn_sound⟩, rfl, ⟨exBack_valid, rfl⟩, rfl⟩

example : ∃ u M, exChain.call true exAry = some u ∧ exChain.matrix = some M := ⟨_, _, rfl, rfl⟩

/-- C25: a broken chain is *not* rejected: the constructor accepts connections that do not fit
together (groups of three and one elements against groups of one and two). -/
theorem C25_broken_chain_counterexample :
    (∃ c, mkChained [Conn.direct exConn, Conn.direct exConn] none = some c) ∧
    exConn.toD.map DGroup.nel ≠ exConn.fromD.map DGroup.nel := by
  exact ⟨⟨_, rfl⟩, by decide⟩

end Meshmode
