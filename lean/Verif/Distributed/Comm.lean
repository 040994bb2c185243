import Mathlib.Data.List.Basic
import Mathlib.Data.List.Nodup
import Mathlib.Data.List.Perm.Basic

/-!
# Setting up the exchange across rank boundaries (C31)

meshmode/distributed.py:203-398.
-/
namespace Meshmode

variable {D M C : Type}

/-- `InterRankBoundaryInfo`, meshmode/distributed.py:203-230; `D` is the type of connections to a
boundary. -/
structure Irbi (D : Type) where
  localPart : Nat
  remotePart : Nat
  remoteRank : Nat
  conn : D

/-- A message: the sender's local and remote part, the data (boundary mesh and group infos), and the
rank it came from (`status.source`). Code: meshmode/distributed.py:305-315. -/
structure BdryMsg (M : Type) where
  senderPart : Nat
  receiverPart : Nat
  data : M
  source : Nat
  deriving DecidableEq

/-- The key `(local_part_id, remote_part_id)` of a boundary.
Code: meshmode/distributed.py:298-300. -/
def Irbi.key (b : Irbi D) : Nat × Nat := (b.localPart, b.remotePart)

/-- The key under which the receiver files a message, meshmode/distributed.py:349. -/
def BdryMsg.key (m : BdryMsg M) : Nat × Nat := (m.receiverPart, m.senderPart)

/-- The messages sent in `__enter__`, meshmode/distributed.py:304-315: destination and message;
`pay` makes the data (`make_remote_group_infos`) from the remote part and the connection. -/
def bdrySends (pay : Nat → D → M) (rank : Nat) (bs : List (Irbi D)) : List (Nat × BdryMsg M) :=
  bs.map fun b => (b.remoteRank, ⟨b.localPart, b.remotePart, pay b.remotePart b.conn, rank⟩)

/-- `pending_recv_identifiers`, meshmode/distributed.py:297-302; `none` if the assertion on its size
fails. -/
def bdryEnter (bs : List (Irbi D)) : Option (List ((Nat × Nat) × Nat)) :=
  if (bs.map Irbi.key).Nodup then some (bs.zipIdx.map fun p => (p.1.key, p.2)) else none

/-- What a call does. Code: meshmode/distributed.py:322-400. -/
inductive CommOut (α : Type) where
  | ok (a : α)
  | raises
  /-- waits for a message that never comes -/
  | blocked
  deriving DecidableEq

/-- The receive loop, meshmode/distributed.py:346-355: `n` messages still to come, the messages in
the order of their arrival, and the slots `data`. -/
def recvLoop (pending : List ((Nat × Nat) × Nat)) :
    Nat → List (BdryMsg M) → List (Option (BdryMsg M)) →
      CommOut (List (Option (BdryMsg M)) × List (BdryMsg M))
  | 0, ms, slots => .ok (slots, ms)
  | _ + 1, [], _ => .blocked
  | n + 1, m :: ms, slots =>
    match pending.lookup m.key with
    | none => .raises
    | some loc =>
      match slots[loc]? with
      | some none => recvLoop pending n ms (slots.set loc (some m))
      | _ => .raises

/-- Assignment to an entry of a dictionary. Code: meshmode/distributed.py:298-300. -/
def dictSet {κ α : Type} [DecidableEq κ] (d : List (κ × α)) (k : κ) (a : α) : List (κ × α) :=
  if k ∈ d.map Prod.fst then d.map fun p => if p.1 = k then (k, a) else p else d ++ [(k, a)]

/-- The key of the result: the remote part in the old interface, the pair (remote, local) in the new
one, meshmode/distributed.py:376-379. -/
def resultKey (old : Bool) (m : BdryMsg M) : List Nat :=
  if old then [m.senderPart] else [m.senderPart, m.receiverPart]

/-- The loop over the received data, meshmode/distributed.py:364-390; `make` is
`make_partition_connection`.  The state is the result and the pending table. -/
def buildLoop (old : Bool) (make : D → M → C) (bs : List (Irbi D)) :
    List (Option (BdryMsg M)) → List (List Nat × C) × List ((Nat × Nat) × Nat) →
      CommOut (List (List Nat × C) × List ((Nat × Nat) × Nat))
  | [], st => .ok st
  | none :: _, _ => .raises
  | some m :: ms, (res, pending) =>
    match (bs.map fun b => (b.key, b)).lookup m.key with
    | none => .raises
    | some b =>
      if m.source = b.remoteRank then
        buildLoop old make bs ms
          (dictSet res (resultKey old m) (make b.conn m.data), pending.filter fun p => p.1 ≠ m.key)
      else .raises

/-- `complete_some`, meshmode/distributed.py:322-398: the result, the pending table afterwards, and
the messages that have not been received. -/
def completeSome (old : Bool) (make : D → M → C) (bs : List (Irbi D))
    (pending : List ((Nat × Nat) × Nat)) (arrivals : List (BdryMsg M)) :
    CommOut (List (List Nat × C) × List ((Nat × Nat) × Nat) × List (BdryMsg M)) :=
  if pending = [] then .ok ([], [], arrivals)
  else
    match recvLoop pending pending.length arrivals (List.replicate pending.length none) with
    | .raises => .raises
    | .blocked => .blocked
    | .ok (slots, rest) =>
      if ¬ (bs.map Irbi.key).Nodup then .raises
      else
        match buildLoop old make bs slots ([], pending) with
        | .ok (res, pending') => if pending' = [] then .ok (res, [], rest) else .raises
        | .raises => .raises
        | .blocked => .blocked

/-! ### One rank -/

/-- `ms` are the messages a rank with boundaries `bs` expects, in the order of the boundaries: sent
for the same pair of parts by the expected rank. (Specification or proof vocabulary, no code.) -/
def Expected (bs : List (Irbi D)) (ms : List (BdryMsg M)) : Prop :=
  List.Forall₂ (fun b m => m.key = b.key ∧ m.source = b.remoteRank) bs ms

theorem lookup_of_nodup {κ α : Type} [BEq κ] [LawfulBEq κ] {l : List (κ × α)}
    (hn : (l.map Prod.fst).Nodup) {k : κ} {a : α} (h : (k, a) ∈ l) : l.lookup k = some a := by
  induction l with
  | nil => simp at h
  | cons p l ih =>
    obtain ⟨k', a'⟩ := p
    rw [List.map_cons, List.nodup_cons] at hn
    rcases List.mem_cons.1 h with h | h
    · cases h
      simp
    · have : k ≠ k' := fun he => hn.1 (List.mem_map.2 ⟨(k, a), h, he⟩)
      rw [List.lookup_cons]
      have hb : (k == k') = false := by simpa using this
      rw [hb]
      exact ih hn.2 h

theorem expected_getElem {bs : List (Irbi D)} {ms : List (BdryMsg M)} (h : Expected bs ms) :
    ms.length = bs.length ∧ ∀ (i : Nat) b m, bs[i]? = some b → ms[i]? = some m →
      m.key = b.key ∧ m.source = b.remoteRank := by
  refine ⟨h.length_eq.symm, ?_⟩
  intro i b m hb hm
  obtain ⟨h1, rfl⟩ := List.getElem?_eq_some_iff.1 hb
  obtain ⟨h2, rfl⟩ := List.getElem?_eq_some_iff.1 hm
  exact (List.forall₂_iff_get.1 h).2 i h1 h2

theorem recvLoop_ok {bs : List (Irbi D)} (hn : (bs.map Irbi.key).Nodup) {ms : List (BdryMsg M)}
    (he : Expected bs ms) (l rest : List (BdryMsg M)) (slots : List (Option (BdryMsg M)))
    (hl : l.Nodup) (hsub : ∀ m ∈ l, m ∈ ms) (hs : slots.length = ms.length)
    (h1 : ∀ (i : Nat) m, ms[i]? = some m → m ∈ l → slots[i]? = some none)
    (h2 : ∀ (i : Nat) m, ms[i]? = some m → m ∉ l → slots[i]? = some (some m)) :
    recvLoop (bs.zipIdx.map fun p => (p.1.key, p.2)) l.length (l ++ rest) slots =
      .ok (ms.map some, rest) := by
  obtain ⟨elen, eget⟩ := expected_getElem he
  induction l generalizing slots with
  | nil =>
    simp only [List.length_nil, List.nil_append, recvLoop]
    congr 2
    apply List.ext_getElem?
    intro i
    rw [List.getElem?_map]
    cases hm : ms[i]? with
    | none =>
      rw [List.getElem?_eq_none_iff] at hm
      rw [List.getElem?_eq_none (by omega)]
      rfl
    | some m => exact h2 i m hm (by simp)
  | cons m l ih =>
    obtain ⟨hml, hl'⟩ := List.nodup_cons.1 hl
    obtain ⟨i, hi⟩ := List.mem_iff_getElem?.1 (hsub m List.mem_cons_self)
    have hil := (List.getElem?_eq_some_iff.1 hi).1
    have hb : bs[i]? = some (bs[i]'(by omega)) := List.getElem?_eq_getElem (by omega)
    obtain ⟨ek, es⟩ := eget i _ m hb hi
    have hlook : (bs.zipIdx.map fun p => (p.1.key, p.2)).lookup m.key = some i := by
      apply lookup_of_nodup
      · rw [List.map_map]
        have : (bs.zipIdx.map (Prod.fst ∘ fun p : Irbi D × Nat => (p.1.key, p.2))) =
            bs.map Irbi.key := by
          rw [show (Prod.fst ∘ fun p : Irbi D × Nat => (p.1.key, p.2)) = Irbi.key ∘ Prod.fst from rfl,
            ← List.map_map, List.zipIdx_map_fst]
        rw [this]
        exact hn
      · rw [ek]
        exact List.mem_map.2 ⟨(_, i), List.mem_zipIdx_iff_getElem?.2 hb, rfl⟩
    simp only [List.length_cons, List.cons_append, recvLoop, hlook, h1 i m hi List.mem_cons_self]
    -- messages at different places differ
    have hne : ∀ (j : Nat) m', ms[j]? = some m' → j ≠ i → m' ≠ m := by
      rintro j m' hj hji rfl
      have hjl := (List.getElem?_eq_some_iff.1 hj).1
      have hb' : bs[j]? = some (bs[j]'(by omega)) := List.getElem?_eq_getElem (by omega)
      obtain ⟨ek', _⟩ := eget j _ _ hb' hj
      have hk : (bs.map Irbi.key)[i]'(by simp; omega) = (bs.map Irbi.key)[j]'(by simp; omega) := by
        rw [List.getElem_map, List.getElem_map, ← ek, ← ek']
      exact hji ((List.Nodup.getElem_inj_iff hn).1 hk).symm
    refine ih _ hl' (fun m hm => hsub m (List.mem_cons_of_mem _ hm)) (by simpa using hs) ?_ ?_
    · intro j m' hj hm'
      by_cases hji : j = i
      · subst hji
        rw [hi, Option.some.injEq] at hj
        subst hj
        exact absurd hm' hml
      · rw [List.getElem?_set_ne (by omega)]
        exact h1 j m' hj (List.mem_cons_of_mem _ hm')
    · intro j m' hj hm'
      by_cases hji : j = i
      · subst hji
        rw [hi, Option.some.injEq] at hj
        subst hj
        rw [List.getElem?_set_self (by omega)]
      · rw [List.getElem?_set_ne (by omega)]
        refine h2 j m' hj ?_
        intro hc
        rcases List.mem_cons.1 hc with h | h
        · exact hne j m' hj hji h
        · exact hm' h

theorem dictSet_new {κ α : Type} [DecidableEq κ] {d : List (κ × α)} {k : κ} {a : α}
    (h : k ∉ d.map Prod.fst) : dictSet d k a = d ++ [(k, a)] := by
  rw [dictSet, if_neg h]

theorem buildLoop_ok (old : Bool) (make : D → M → C) {all : List (Irbi D)}
    (hn : (all.map Irbi.key).Nodup) (bs : List (Irbi D)) (ms : List (BdryMsg M))
    (hsub : ∀ b ∈ bs, b ∈ all) (he : Expected bs ms) (res : List (List Nat × C))
    (pending : List ((Nat × Nat) × Nat))
    (hr : (res.map Prod.fst ++ ms.map (resultKey old)).Nodup) :
    buildLoop old make all (ms.map some) (res, pending) =
      .ok (res ++ (bs.zip ms).map (fun p => (resultKey old p.2, make p.1.conn p.2.data)),
        pending.filter fun p => decide (p.1 ∉ bs.map Irbi.key)) := by
  induction he generalizing res pending with
  | nil => simp [buildLoop]
  | @cons b m bs ms hbm _ ih =>
    have hlook : (all.map fun b => (b.key, b)).lookup m.key = some b := by
      apply lookup_of_nodup
      · rw [List.map_map]
        exact hn
      · rw [hbm.1]
        exact List.mem_map.2 ⟨b, hsub b List.mem_cons_self, rfl⟩
    rw [List.map_cons, buildLoop, hlook]
    simp only [hbm.2, if_true]
    have hnew : resultKey old m ∉ res.map Prod.fst := by
      rw [List.map_cons] at hr
      intro hc
      exact (List.nodup_append.1 hr).2.2 _ hc _ List.mem_cons_self rfl
    rw [dictSet_new hnew, ih (fun b hb => hsub b (List.mem_cons_of_mem _ hb))]
    · congr 2
      · simp
      · rw [List.filter_filter]
        apply List.filter_congr
        intro p _
        by_cases h1 : p.1 = b.key <;> by_cases h2 : p.1 ∈ bs.map Irbi.key <;> simp [hbm.1, h1, h2]
    · simpa using hr

/-- C31, one rank: whatever the order in which the expected messages arrive, `complete_some` returns
one connection for each boundary, in the order of the boundaries and made from the message for that
boundary; nothing is pending afterwards. -/
theorem C31_order_independent (old : Bool) (make : D → M → C) {bs : List (Irbi D)}
    (hn : (bs.map Irbi.key).Nodup) (hne : bs ≠ []) {ms arrivals rest : List (BdryMsg M)}
    (he : Expected bs ms) (hold : old = true → (ms.map BdryMsg.senderPart).Nodup)
    (hp : arrivals.Perm ms) {pending : List ((Nat × Nat) × Nat)}
    (hpend : bdryEnter bs = some pending) :
    completeSome old make bs pending (arrivals ++ rest) =
      .ok ((bs.zip ms).map fun p => (resultKey old p.2, make p.1.conn p.2.data), [], rest) := by
  obtain ⟨elen, eget⟩ := expected_getElem he
  rw [bdryEnter, if_pos hn, Option.some.injEq] at hpend
  subst hpend
  have hkeys : ms.map BdryMsg.key = bs.map Irbi.key := by
    apply List.ext_getElem (by simp [elen])
    intro i h1 h2
    rw [List.getElem_map, List.getElem_map]
    exact (eget i _ _ (List.getElem?_eq_getElem _) (List.getElem?_eq_getElem _)).1
  have hmn : ms.Nodup := List.Nodup.of_map _ (hkeys ▸ hn)
  have hrn : (ms.map (resultKey old)).Nodup := by
    cases old with
    | true =>
      have := (hold rfl).map (f := fun k => [k]) (by intro a b h; simpa using h)
      rwa [List.map_map] at this
    | false =>
      have := (hkeys ▸ hn).map (f := fun k : Nat × Nat => [k.2, k.1]) (by
        rintro ⟨a, b⟩ ⟨c, d⟩ h
        simp only [List.cons.injEq, and_true] at h
        rw [h.1, h.2])
      rwa [List.map_map] at this
  have hpl : (bs.zipIdx.map fun p => (p.1.key, p.2)).length = arrivals.length := by
    simp [hp.length_eq, elen]
  unfold completeSome
  rw [if_neg (by simpa using hne), hpl,
    recvLoop_ok hn he arrivals rest _ (hp.nodup_iff.2 hmn) (fun m hm => hp.mem_iff.1 hm)
      (by simp [hp.length_eq]) ?_ ?_]
  · simp only [hn, not_true, if_false]
    rw [buildLoop_ok old make hn bs ms (fun b hb => hb) he [] _ (by simpa using hrn)]
    have hempty : ((bs.zipIdx.map fun p => (p.1.key, p.2)).filter fun p =>
        decide (p.1 ∉ bs.map Irbi.key)) = [] := by
      rw [List.filter_eq_nil_iff]
      intro p hp'
      obtain ⟨q, hq, rfl⟩ := List.mem_map.1 hp'
      have : q.1 ∈ bs := List.mem_of_getElem? (List.mem_zipIdx_iff_getElem?.1 hq)
      simpa using ⟨q.1, this, rfl⟩
    simp only [hempty, if_true, List.nil_append]
  · intro i m hi _
    rw [List.getElem?_replicate, if_pos]
    have := (List.getElem?_eq_some_iff.1 hi).1
    rw [hp.length_eq]
    exact this
  · intro i m hi hm
    exact absurd (hp.mem_iff.2 (List.mem_of_getElem? hi)) hm

/-- C31: once nothing is pending, `complete_some` returns nothing and receives nothing. -/
theorem C31_done (old : Bool) (make : D → M → C) (bs : List (Irbi D))
    (arrivals : List (BdryMsg M)) : completeSome old make bs [] arrivals = .ok ([], [], arrivals) :=
  rfl

/-- C31: the boundaries reported are all of them, each once. -/
theorem C31_reported_once (make : D → M → C) {bs : List (Irbi D)} {ms : List (BdryMsg M)}
    (he : Expected bs ms) :
    ((bs.zip ms).map fun p => (resultKey false p.2, make p.1.conn p.2.data)).map Prod.fst =
      bs.map fun b => [b.remotePart, b.localPart] := by
  induction he with
  | nil => rfl
  | @cons b m bs ms h _ ih =>
    rw [List.zip_cons_cons, List.map_cons, List.map_cons, ih, List.map_cons]
    congr 1
    have := h.1
    simp only [BdryMsg.key, Irbi.key, Prod.mk.injEq] at this
    simp [resultKey, this]

/-! ### Nothing else is accepted -/

/-- What can be received without an exception: messages for different boundaries, all known. -/
theorem recvLoop_inv {pending : List ((Nat × Nat) × Nat)} (n : Nat) (arrivals : List (BdryMsg M))
    (slots slots' : List (Option (BdryMsg M))) (rest : List (BdryMsg M))
    (h : recvLoop pending n arrivals slots = .ok (slots', rest)) :
    ∃ l, arrivals = l ++ rest ∧ l.length = n ∧ (l.map BdryMsg.key).Nodup ∧
      ∀ m ∈ l, ∃ i, pending.lookup m.key = some i ∧ slots[i]? = some none := by
  induction n generalizing arrivals slots with
  | zero =>
    simp only [recvLoop, CommOut.ok.injEq, Prod.mk.injEq] at h
    exact ⟨[], by simp [h.2], rfl, by simp, by simp⟩
  | succ n ih =>
    cases arrivals with
    | nil => simp [recvLoop] at h
    | cons m arrivals =>
      rw [recvLoop] at h
      cases hl : pending.lookup m.key with
      | none => simp [hl] at h
      | some i =>
        simp only [hl] at h
        split at h
        · rename_i hs
          obtain ⟨l, rfl, h2, h3, h4⟩ := ih _ _ h
          have hil := (List.getElem?_eq_some_iff.1 hs).1
          have hne : ∀ (j : Nat), (slots.set i (some m))[j]? = some none → j ≠ i := by
            rintro j hj rfl
            rw [List.getElem?_set_self hil] at hj
            simp at hj
          refine ⟨m :: l, rfl, by simp [h2], ?_, ?_⟩
          · rw [List.map_cons, List.nodup_cons]
            refine ⟨?_, h3⟩
            intro hc
            obtain ⟨m', hm', he⟩ := List.mem_map.1 hc
            obtain ⟨j, hj, hjs⟩ := h4 m' hm'
            rw [he, hl, Option.some.injEq] at hj
            exact hne j hjs hj.symm
          · intro m' hm'
            rcases List.mem_cons.1 hm' with rfl | hm'
            · exact ⟨i, hl, hs⟩
            · obtain ⟨j, hj, hjs⟩ := h4 m' hm'
              refine ⟨j, hj, ?_⟩
              rw [List.getElem?_set_ne (hne j hjs).symm] at hjs
              exact hjs
        · simp at h

theorem mem_of_lookup {κ α : Type} [BEq κ] [LawfulBEq κ] {l : List (κ × α)} {k : κ} {a : α}
    (h : l.lookup k = some a) : (k, a) ∈ l := by
  induction l with
  | nil => simp at h
  | cons p l ih =>
    obtain ⟨k', a'⟩ := p
    rw [List.lookup_cons] at h
    by_cases hk : k = k'
    · subst hk
      simp at h
      simp [h]
    · have hb : (k == k') = false := by simpa using hk
      rw [hb] at h
      exact List.mem_cons_of_mem _ (ih h)

/-- A list whose images are a rearrangement of `ks` can be rearranged so that its images are `ks`. -/
theorem exists_perm_map {α β : Type} (f : α → β) (ks : List β) (l : List α)
    (h : (l.map f).Perm ks) : ∃ ms : List α, l.Perm ms ∧ ms.map f = ks := by
  induction ks generalizing l with
  | nil =>
    have : l = [] := by simpa using h.eq_nil
    exact ⟨[], by simp [this], rfl⟩
  | cons k ks ih =>
    obtain ⟨m, hm, rfl⟩ := List.mem_map.1 (h.mem_iff.2 List.mem_cons_self)
    obtain ⟨l1, l2, rfl⟩ := List.append_of_mem hm
    have h1 : (l1 ++ m :: l2).Perm (m :: (l1 ++ l2)) := List.perm_middle
    have h2 : ((l1 ++ l2).map f).Perm ks := by
      have := (h1.map f).symm.trans h
      rw [List.map_cons] at this
      exact this.cons_inv
    obtain ⟨ms, h3, h4⟩ := ih _ h2
    exact ⟨m :: ms, h1.trans (h3.cons m), by rw [List.map_cons, h4]⟩

/-- Data are only used if they come from the rank of their boundary. -/
theorem buildLoop_inv (old : Bool) (make : D → M → C) {all : List (Irbi D)} (ms : List (BdryMsg M))
    (st st' : List (List Nat × C) × List ((Nat × Nat) × Nat))
    (h : buildLoop old make all (ms.map some) st = .ok st') :
    ∀ m ∈ ms, ∃ b, (all.map fun b => (b.key, b)).lookup m.key = some b ∧
      m.source = b.remoteRank := by
  induction ms generalizing st with
  | nil => simp
  | cons m ms ih =>
    obtain ⟨res, pending⟩ := st
    rw [List.map_cons, buildLoop] at h
    cases hl : (all.map fun b => (b.key, b)).lookup m.key with
    | none => simp [hl] at h
    | some b =>
      simp only [hl] at h
      split at h
      · rename_i hs
        intro m' hm'
        rcases List.mem_cons.1 hm' with rfl | hm'
        · exact ⟨b, hl, hs⟩
        · exact ih _ h m' hm'
      · simp at h

/-- C31: if `complete_some` returns, what it has received are the messages expected: one for each
boundary and from the rank of that boundary.  A second message for a boundary, a message for an unknown
boundary or from another rank is never accepted. -/
theorem C31_only_expected (old : Bool) (make : D → M → C) {bs : List (Irbi D)} (hne : bs ≠ [])
    {pending : List ((Nat × Nat) × Nat)} (hpend : bdryEnter bs = some pending)
    {arrivals rest : List (BdryMsg M)} {res : List (List Nat × C)}
    {pending' : List ((Nat × Nat) × Nat)}
    (h : completeSome old make bs pending arrivals = .ok (res, pending', rest)) :
    ∃ received ms, arrivals = received ++ rest ∧ received.Perm ms ∧ Expected bs ms := by
  have hn : (bs.map Irbi.key).Nodup := by
    by_contra hc
    simp [bdryEnter, hc] at hpend
  rw [bdryEnter, if_pos hn, Option.some.injEq] at hpend
  subst hpend
  have hpk : (bs.zipIdx.map fun p => (p.1.key, p.2)).map Prod.fst = bs.map Irbi.key := by
    rw [List.map_map, show (Prod.fst ∘ fun p : Irbi D × Nat => (p.1.key, p.2)) =
      Irbi.key ∘ Prod.fst from rfl, ← List.map_map, List.zipIdx_map_fst]
  unfold completeSome at h
  rw [if_neg (by simpa using hne)] at h
  split at h
  · simp at h
  · simp at h
  · rename_i slots rest' hrecv
    rw [if_neg (by simpa using hn)] at h
    obtain ⟨l, rfl, h2, h3, h4⟩ := recvLoop_inv _ _ _ _ _ hrecv
    have hperm : (l.map BdryMsg.key).Perm (bs.map Irbi.key) := by
      refine (List.subperm_of_subset h3 ?_).perm_of_length_le (by simp [h2])
      intro k hk
      obtain ⟨m, hm, rfl⟩ := List.mem_map.1 hk
      obtain ⟨i, hi, _⟩ := h4 m hm
      rw [← hpk]
      exact List.mem_map.2 ⟨(m.key, i), mem_of_lookup hi, rfl⟩
    obtain ⟨ms, hlm, hks⟩ := exists_perm_map _ _ _ hperm
    -- the same boundaries, with the ranks from which the messages came
    have hlen : ms.length = bs.length := by
      have := congrArg List.length hks
      simpa using this
    let bs' : List (Irbi D) := List.zipWith (fun b m => { b with remoteRank := m.source }) bs ms
    have hkeys' : bs'.map Irbi.key = bs.map Irbi.key := by
      apply List.ext_getElem (by simp [bs', hlen])
      intro i h1 h2
      simp [bs', Irbi.key]
    have hmsget : ∀ (i : Nat) (h1 : i < ms.length) (h2 : i < bs.length), (ms[i]).key = (bs[i]).key := by
      intro i h1 h2
      have := congrArg (fun l => l[i]?) hks
      simpa [h1, h2] using this
    have he' : Expected bs' ms := by
      refine List.forall₂_iff_get.2 ⟨by simp [bs', hlen], ?_⟩
      intro i h1 h2
      have h1' : i < bs.length := by simp [bs', hlen] at h1; omega
      simp only [List.get_eq_getElem, bs', List.getElem_zipWith]
      exact ⟨hmsget i h2 h1', trivial⟩
    have hpend' : (bs'.zipIdx.map fun p => (p.1.key, p.2)) = bs.zipIdx.map fun p => (p.1.key, p.2) := by
      apply List.ext_getElem (by simp [bs', hlen])
      intro i h1 h2
      simp [bs', Irbi.key]
    have hslots := recvLoop_ok (hkeys' ▸ hn) he' l rest' (List.replicate l.length none)
      (List.Nodup.of_map _ h3) (fun m hm => hlm.mem_iff.1 hm) (by simp [hlm.length_eq])
      (by
        intro i m hi _
        rw [List.getElem?_replicate, if_pos]
        have := (List.getElem?_eq_some_iff.1 hi).1
        rw [hlm.length_eq]
        exact this)
      (fun i m hi hm => absurd (hlm.mem_iff.2 (List.mem_of_getElem? hi)) hm)
    rw [hpend', h2, hrecv, CommOut.ok.injEq, Prod.mk.injEq] at hslots
    obtain ⟨rfl, _⟩ := hslots
    split at h
    · rename_i res' pend' hb
      have hsrc := buildLoop_inv old make ms _ _ hb
      split at h
      · simp only [CommOut.ok.injEq, Prod.mk.injEq] at h
        obtain ⟨_, _, rfl⟩ := h
        refine ⟨l, ms, rfl, hlm, List.forall₂_iff_get.2 ⟨hlen.symm, ?_⟩⟩
        intro i h1 h2
        simp only [List.get_eq_getElem]
        refine ⟨hmsget i h2 h1, ?_⟩
        obtain ⟨b, hb1, hb2⟩ := hsrc _ (List.getElem_mem h2)
        have hlook : (bs.map fun b => (b.key, b)).lookup (ms[i]).key = some bs[i] := by
          apply lookup_of_nodup
          · rw [List.map_map]
            exact hn
          · rw [hmsget i h2 h1]
            exact List.mem_map.2 ⟨_, List.getElem_mem h1, rfl⟩
        rw [hlook, Option.some.injEq] at hb1
        rw [hb2, hb1]
      · simp at h
    · simp at h
    · simp at h

/-- C31: `complete_some` returns if and only if the first messages to arrive are the ones expected, in
any order; its result is then determined. -/
theorem C31_ok_iff (make : D → M → C) {bs : List (Irbi D)} (hne : bs ≠ [])
    {pending : List ((Nat × Nat) × Nat)} (hpend : bdryEnter bs = some pending)
    (arrivals rest : List (BdryMsg M)) (res : List (List Nat × C))
    (pending' : List ((Nat × Nat) × Nat)) :
    completeSome false make bs pending arrivals = .ok (res, pending', rest) ↔
      pending' = [] ∧ ∃ received ms, arrivals = received ++ rest ∧ received.Perm ms ∧
        Expected bs ms ∧
        res = (bs.zip ms).map fun p => ([p.2.senderPart, p.2.receiverPart], make p.1.conn p.2.data) := by
  have hn : (bs.map Irbi.key).Nodup := by
    by_contra hc
    simp [bdryEnter, hc] at hpend
  constructor
  · intro h
    obtain ⟨l, ms, rfl, h2, h3⟩ := C31_only_expected false make hne hpend h
    have := C31_order_independent false make hn hne h3 (by simp) h2 (rest := rest) hpend
    rw [h, CommOut.ok.injEq, Prod.mk.injEq, Prod.mk.injEq] at this
    exact ⟨this.2.1, l, ms, rfl, h2, h3, this.1⟩
  · rintro ⟨rfl, l, ms, rfl, h2, h3, rfl⟩
    exact C31_order_independent false make hn hne h3 (by simp) h2 (rest := rest) hpend

/-- A message from the wrong rank, a second message for the same boundary, and a message for an unknown
boundary are rejected. -/
example :
    completeSome false (fun d m : Nat => d + m) [⟨0, 1, 1, 100⟩] [((0, 1), 0)] [⟨1, 0, 7, 2⟩] = .raises ∧
    completeSome false (fun d m : Nat => d + m) [⟨0, 1, 1, 100⟩, ⟨0, 2, 2, 101⟩]
      [((0, 1), 0), ((0, 2), 1)] [⟨1, 0, 7, 1⟩, ⟨1, 0, 8, 1⟩] = .raises ∧
    completeSome false (fun d m : Nat => d + m) [⟨0, 1, 1, 100⟩] [((0, 1), 0)] [⟨4, 0, 7, 1⟩] = .raises :=
  ⟨rfl, rfl, rfl⟩

/-! ### The old interface -/

/-- The boundaries made from a dictionary of ranks and connections,
meshmode/distributed.py:262-277. -/
def oldBoundaries (rank : Nat) (conns : List (Nat × D)) : List (Irbi D) :=
  conns.map fun p => ⟨rank, p.1, p.1, p.2⟩

/-- C31, old interface: the boundaries of a dictionary have different keys, and whatever the order of
arrival the result maps each rank of the dictionary to the connection made from its message. -/
theorem C31_old_interface (make : D → M → C) (rank : Nat) {conns : List (Nat × D)}
    (hk : (conns.map Prod.fst).Nodup) (hne : conns ≠ []) {ms arrivals rest : List (BdryMsg M)}
    (he : List.Forall₂ (fun p m => m.senderPart = p.1 ∧ m.receiverPart = rank ∧ m.source = p.1) conns ms)
    (hp : arrivals.Perm ms) :
    ∃ pending, bdryEnter (oldBoundaries rank conns) = some pending ∧
      completeSome true make (oldBoundaries rank conns) pending (arrivals ++ rest) =
        .ok ((conns.zip ms).map fun p => ([p.1.1], make p.1.2 p.2.data), [], rest) := by
  have hn : ((oldBoundaries rank conns).map Irbi.key).Nodup := by
    have := hk.map (f := fun k => (rank, k)) (by intro a b h; simpa using h)
    rw [List.map_map] at this
    rw [oldBoundaries, List.map_map]
    exact this
  have hs : ms.map BdryMsg.senderPart = conns.map Prod.fst := by
    clear hk hne hp hn
    induction he with
    | nil => rfl
    | cons h _ ih => rw [List.map_cons, List.map_cons, h.1, ih]
  have he' : Expected (oldBoundaries rank conns) ms := by
    refine List.forall₂_map_left_iff.2 (he.imp ?_)
    rintro p m ⟨h1, h2, h3⟩
    exact ⟨by simp [BdryMsg.key, Irbi.key, h1, h2], h3⟩
  refine ⟨_, by rw [bdryEnter, if_pos hn], ?_⟩
  rw [C31_order_independent true make hn (by simpa [oldBoundaries] using hne) he'
    (fun _ => hs ▸ hk) hp (by rw [bdryEnter, if_pos hn])]
  congr 2
  clear hk hne hp hn hs he'
  induction he with
  | nil => rfl
  | cons h _ ih =>
    simp only [oldBoundaries, List.map_cons, List.zip_cons_cons] at ih ⊢
    rw [ih]
    simp [resultKey, h.1]

/-- Rank 4 with two neighbors, in the old interface. -/
example : completeSome true (fun d m => d + 1000 * m) (oldBoundaries 4 [(7, 100), (2, 101)])
      [((4, 7), 0), ((4, 2), 1)] [⟨2, 4, 8, 2⟩, ⟨7, 4, 9, 7⟩] =
    .ok ([([7], 9100), ([2], 8101)], [], []) := rfl

/-! ### All ranks -/

/-- The messages sent to rank `r`. (Specification or proof vocabulary, no code.) -/
def inbox (pay : Nat → D → M) (ranks : List (List (Irbi D))) (r : Nat) : List (BdryMsg M) :=
  ((ranks.zipIdx.flatMap fun p => bdrySends pay p.2 p.1).filter fun m => m.1 == r).map Prod.snd

/-- Each rank lists each pair of parts once, and each boundary is known on its other side too.
(Specification or proof vocabulary, no code.) -/
structure Consistent (ranks : List (List (Irbi D))) : Prop where
  nodup : ∀ bs ∈ ranks, (bs.map Irbi.key).Nodup
  symm : ∀ (r : Nat) (bs : List (Irbi D)), ranks[r]? = some bs → ∀ b ∈ bs, ∃ bs', ranks[b.remoteRank]? = some bs' ∧
    ∃ b' ∈ bs', b'.localPart = b.remotePart ∧ b'.remotePart = b.localPart ∧ b'.remoteRank = r

theorem mem_inbox {pay : Nat → D → M} {ranks : List (List (Irbi D))} {r : Nat} {m : BdryMsg M} :
    m ∈ inbox pay ranks r ↔ ∃ s bs b, ranks[s]? = some bs ∧ b ∈ bs ∧ b.remoteRank = r ∧
      m = ⟨b.localPart, b.remotePart, pay b.remotePart b.conn, s⟩ := by
  unfold inbox bdrySends
  constructor
  · intro h
    obtain ⟨⟨d, m'⟩, h1, rfl⟩ := List.mem_map.1 h
    obtain ⟨h1, h2⟩ := List.mem_filter.1 h1
    obtain ⟨⟨bs, s⟩, h3, h4⟩ := List.mem_flatMap.1 h1
    obtain ⟨b, hb, he⟩ := List.mem_map.1 h4
    simp only [Prod.mk.injEq] at he
    obtain ⟨rfl, rfl⟩ := he
    exact ⟨s, bs, b, List.mem_zipIdx_iff_getElem?.1 h3, hb, by simpa using h2, rfl⟩
  · rintro ⟨s, bs, b, h1, h2, h3, rfl⟩
    refine List.mem_map.2 ⟨(b.remoteRank, _), List.mem_filter.2 ⟨List.mem_flatMap.2
      ⟨(bs, s), List.mem_zipIdx_iff_getElem?.2 h1, List.mem_map.2 ⟨b, h2, rfl⟩⟩, ?_⟩, rfl⟩
    simpa using h3

theorem key_inj {bs : List (Irbi D)} (hn : (bs.map Irbi.key).Nodup) {b b' : Irbi D} (hb : b ∈ bs)
    (hb' : b' ∈ bs) (h : b.key = b'.key) : b = b' :=
  List.inj_on_of_nodup_map hn hb hb' h

theorem inbox_keys_nodup {pay : Nat → D → M} {ranks : List (List (Irbi D))} (hc : Consistent ranks)
    {r : Nat} {bs : List (Irbi D)} (hr : ranks[r]? = some bs) :
    ((inbox pay ranks r).map BdryMsg.key).Nodup := by
  unfold inbox
  rw [List.map_map, List.filter_flatMap, List.map_flatMap, List.nodup_flatMap]
  -- the sender of a message is determined by its key
  have hsender : ∀ (s : Nat) cs (c : Irbi D), ranks[s]? = some cs → c ∈ cs → c.remoteRank = r →
      ∃ b ∈ bs, b.key = (c.remotePart, c.localPart) ∧ b.remoteRank = s := by
    intro s cs c hs hcm hcr
    obtain ⟨bs', h1, b', h2, h3, h4, h5⟩ := hc.symm s cs hs c hcm
    rw [hcr, hr, Option.some.injEq] at h1
    subst h1
    exact ⟨b', h2, by rw [Irbi.key, h3, h4], h5⟩
  constructor
  · rintro ⟨cs, s⟩ hcs
    have hs := List.mem_zipIdx_iff_getElem?.1 hcs
    have hcn := hc.nodup cs (List.mem_of_getElem? hs)
    have h1 : ((bdrySends pay s cs).map (BdryMsg.key ∘ Prod.snd)).Nodup := by
      unfold bdrySends
      rw [List.map_map]
      have := hcn.map (f := Prod.swap) (by
        rintro ⟨a, b⟩ ⟨c, d⟩ h
        simp only [Prod.swap, Prod.mk.injEq] at h
        rw [h.1, h.2])
      rwa [List.map_map] at this
    exact h1.sublist (List.Sublist.map _ List.filter_sublist)
  · have hpw : ranks.zipIdx.Pairwise fun p q => p.2 < q.2 := by
      have : (ranks.zipIdx.map Prod.snd).Pairwise (· < ·) := by
        rw [List.zipIdx_map_snd]
        exact List.pairwise_lt_range'
      rwa [List.pairwise_map] at this
    refine hpw.imp_of_mem ?_
    rintro ⟨cs, s⟩ ⟨cs', s'⟩ h1 h2 hlt k hk hk'
    obtain ⟨⟨d, m⟩, hm, rfl⟩ := List.mem_map.1 hk
    obtain ⟨⟨d', m'⟩, hm', he⟩ := List.mem_map.1 hk'
    obtain ⟨hm, hd⟩ := List.mem_filter.1 hm
    obtain ⟨hm', hd'⟩ := List.mem_filter.1 hm'
    obtain ⟨c, hcm, hce⟩ := List.mem_map.1 hm
    obtain ⟨c', hcm', hce'⟩ := List.mem_map.1 hm'
    simp only [Prod.mk.injEq] at hce hce'
    obtain ⟨rfl, rfl⟩ := hce
    obtain ⟨rfl, rfl⟩ := hce'
    obtain ⟨b, hb, hbk, hbs⟩ := hsender s cs c (List.mem_zipIdx_iff_getElem?.1 h1) hcm
      (by simpa using hd)
    obtain ⟨b', hb', hbk', hbs'⟩ := hsender s' cs' c' (List.mem_zipIdx_iff_getElem?.1 h2) hcm'
      (by simpa using hd')
    simp only [Function.comp, BdryMsg.key] at he
    have : b = b' := key_inj (hc.nodup bs (List.mem_of_getElem? hr)) hb hb' (by
      rw [hbk, hbk', he])
    subst this
    omega

/-- C31, all ranks: with a consistent set of boundaries, the messages for a rank are the ones it
expects, each once. -/
theorem C31_inbox_expected (pay : Nat → D → M) {ranks : List (List (Irbi D))}
    (hc : Consistent ranks) {r : Nat} {bs : List (Irbi D)} (hr : ranks[r]? = some bs) :
    ∃ ms, Expected bs ms ∧ (inbox pay ranks r).Perm ms ∧
      List.Forall₂ (fun b m => ∃ bs', ranks[b.remoteRank]? = some bs' ∧ ∃ b' ∈ bs',
        b'.localPart = b.remotePart ∧ b'.remotePart = b.localPart ∧ b'.remoteRank = r ∧
        m.data = pay b'.remotePart b'.conn) bs ms := by
  have hn := hc.nodup bs (List.mem_of_getElem? hr)
  have hex : ∀ b ∈ bs, ∃ m ∈ inbox pay ranks r, (m.key = b.key ∧ m.source = b.remoteRank) ∧
      ∃ bs', ranks[b.remoteRank]? = some bs' ∧ ∃ b' ∈ bs',
        b'.localPart = b.remotePart ∧ b'.remotePart = b.localPart ∧ b'.remoteRank = r ∧
        m.data = pay b'.remotePart b'.conn := by
    intro b hb
    obtain ⟨bs', h1, b', h2, h3, h4, h5⟩ := hc.symm r bs hr b hb
    exact ⟨_, mem_inbox.2 ⟨b.remoteRank, bs', b', h1, h2, h5, rfl⟩,
      ⟨by simp [BdryMsg.key, Irbi.key, h3, h4], rfl⟩, bs', h1, b', h2, h3, h4, h5, rfl⟩
  have hlist : ∀ l : List (Irbi D), (∀ b ∈ l, b ∈ bs) → ∃ ms : List (BdryMsg M),
      (∀ m ∈ ms, m ∈ inbox pay ranks r) ∧ Expected l ms ∧
      List.Forall₂ (fun b m => ∃ bs', ranks[b.remoteRank]? = some bs' ∧ ∃ b' ∈ bs',
        b'.localPart = b.remotePart ∧ b'.remotePart = b.localPart ∧ b'.remoteRank = r ∧
        m.data = pay b'.remotePart b'.conn) l ms := by
    intro l
    induction l with
    | nil => exact fun _ => ⟨[], by simp, .nil, .nil⟩
    | cons b l ih =>
      intro hl
      obtain ⟨ms, h1, h2, h3⟩ := ih fun b hb => hl b (List.mem_cons_of_mem _ hb)
      obtain ⟨m, h4, h5, h6⟩ := hex b (hl b List.mem_cons_self)
      refine ⟨m :: ms, ?_, .cons h5 h2, .cons h6 h3⟩
      intro x hx
      rcases List.mem_cons.1 hx with rfl | hx
      · exact h4
      · exact h1 x hx
  obtain ⟨ms, h1, h2, h3⟩ := hlist bs fun _ h => h
  refine ⟨ms, h2, ?_, h3⟩
  obtain ⟨elen, eget⟩ := expected_getElem h2
  have hkeys : ms.map BdryMsg.key = bs.map Irbi.key := by
    apply List.ext_getElem (by simp [elen])
    intro i h1 h2
    rw [List.getElem_map, List.getElem_map]
    exact (eget i _ _ (List.getElem?_eq_getElem _) (List.getElem?_eq_getElem _)).1
  have hin := inbox_keys_nodup (pay := pay) hc hr
  rw [List.perm_ext_iff_of_nodup (List.Nodup.of_map _ hin) (List.Nodup.of_map _ (hkeys ▸ hn))]
  intro m
  constructor
  · intro hm
    obtain ⟨s, cs, c, g1, g2, g3, rfl⟩ := mem_inbox.1 hm
    obtain ⟨bs', k1, b', k2, k3, k4, k5⟩ := hc.symm s cs g1 c g2
    rw [g3, hr, Option.some.injEq] at k1
    subst k1
    have hk : b'.key ∈ ms.map BdryMsg.key := by
      rw [hkeys]
      exact List.mem_map.2 ⟨b', k2, rfl⟩
    obtain ⟨m', hm', hmk⟩ := List.mem_map.1 hk
    have := List.inj_on_of_nodup_map hin hm (h1 m' hm') (by
      rw [hmk, Irbi.key, k3, k4]; rfl)
    rw [this]
    exact hm'
  · exact h1 m

/-- C31, all ranks: with a consistent set of boundaries and any order of arrival on a rank,
`complete_some` neither raises nor waits forever, and its result is the same for all orders. -/
theorem C31_all_ranks (pay : Nat → D → M) (make : D → M → C) {ranks : List (List (Irbi D))}
    (hc : Consistent ranks) {r : Nat} {bs : List (Irbi D)} (hr : ranks[r]? = some bs)
    (hne : bs ≠ []) :
    ∃ pending res, bdryEnter bs = some pending ∧
      res.map Prod.fst = (bs.map fun b => [b.remotePart, b.localPart]) ∧
      ∀ arrivals, arrivals.Perm (inbox pay ranks r) →
        completeSome false make bs pending arrivals = .ok (res, [], []) := by
  have hn := hc.nodup bs (List.mem_of_getElem? hr)
  obtain ⟨ms, h1, h2, _⟩ := C31_inbox_expected pay hc hr
  refine ⟨_, _, by rw [bdryEnter, if_pos hn], C31_reported_once make h1, ?_⟩
  intro arrivals ha
  have := C31_order_independent false make hn hne h1 (by simp) (ha.trans h2) (rest := [])
    (by rw [bdryEnter, if_pos hn])
  rwa [List.append_nil] at this

/-- Three ranks; rank 0 holds two parts and has two boundaries with rank 1. -/
def exRanks : List (List (Irbi Nat)) :=
  [[⟨0, 1, 1, 100⟩, ⟨3, 1, 1, 101⟩, ⟨3, 2, 2, 102⟩], [⟨1, 3, 0, 110⟩, ⟨1, 0, 0, 111⟩], [⟨2, 3, 0, 120⟩]]

theorem exRanks_consistent : Consistent exRanks := by
  refine ⟨by decide, ?_⟩
  intro r bs hr b hb
  have hl : r < 3 := (List.getElem?_eq_some_iff.1 hr).1
  match r, hl with
  | 0, _ =>
    cases hr
    simp only [List.mem_cons, List.not_mem_nil, or_false] at hb
    rcases hb with rfl | rfl | rfl <;> exact ⟨_, rfl, by decide⟩
  | 1, _ =>
    cases hr
    simp only [List.mem_cons, List.not_mem_nil, or_false] at hb
    rcases hb with rfl | rfl <;> exact ⟨_, rfl, by decide⟩
  | 2, _ =>
    cases hr
    simp only [List.mem_cons, List.not_mem_nil, or_false] at hb
    subst hb
    exact ⟨_, rfl, by decide⟩

/-- Rank 0 of the example, with its three messages arriving in reverse order. -/
example : ((bdryEnter (exRanks.getD 0 [])).map fun p =>
      completeSome false (fun d m => d + 1000 * m) (exRanks.getD 0 []) p
        (inbox (fun r d => d + r) exRanks 0).reverse) =
    some (.ok ([([1, 0], 111100), ([1, 3], 113101), ([2, 3], 123102)], [], [])) := by
  rfl

/-- If a side does not know of a boundary, the other waits forever. -/
example : completeSome false (fun d m : Nat => d + m) [⟨0, 1, 1, 100⟩] [((0, 1), 0)] [] = .blocked :=
  rfl

end Meshmode
