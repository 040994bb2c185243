import Verif.Distributed.Comm
import Verif.Distributed.Connected
import Verif.Connection.PartExchange

/-!
# Exchange across rank boundaries compared with the whole mesh (C104)

`MPIBoundaryCommSetupHelper` (meshmode/distributed.py:233-398) together with `make_remote_group_infos`,
`make_partition_connection`, `partition_mesh` and `make_opposite_face_connection`: the parts of a mesh are spread over
ranks, every rank sets up its connections from the messages it receives, in whatever order they come, and these
connections move what the opposite-face connection of the whole mesh moves across the boundaries between ranks.
-/
namespace Meshmode

variable {N P A U M X : Type}

/-! ## Model -/

/-- What the setup uses of `local_boundary_connection`: the boundary mesh (`to_discr.mesh`), the numbers of elements of
the groups and the facial adjacency of the volume mesh (`from_discr.mesh`), and the batches.
Code: meshmode/distributed.py:230, 305-315, 382-390. -/
structure BdryConn (A U X : Type) where
  mesh : X
  sizes : List Nat
  fags : List (List (Fag A))
  batches : List (List (Batch U))

/-- The data of the message for a boundary with part `q`: the boundary mesh and the group infos,
meshmode/distributed.py:310-313. -/
def bdryPay [DecidableEq A] (q : Nat) (d : BdryConn A U X) : X × List (RemoteInfo A) :=
  (d.mesh, makeRemoteInfos q d.fags d.batches)

/-- The connection made from the received data, meshmode/distributed.py:382-390; `cross` finds the source nodes on the
remote boundary mesh, of which the discretization is a copy of the local one with the received mesh.  `none` if
`make_partition_connection` raises. -/
def bdryMake (cross : X → X → Nat → Nat → A → List (Nat × Nat) → Option (CrossNodes U)) (d : BdryConn A U X)
    (msg : X × List (RemoteInfo A)) : Option (List (List (Batch U))) :=
  makePartConn (cross d.mesh msg.1) d.sizes d.batches msg.2

/-! ## Specification -/

/-- The parts of a mesh are spread over ranks: part `p` is on rank `rankOf p`; each rank lists, once, each pair of one
of its parts and a part on another rank to which that part is connected, with the boundary connection `conn`.
(Specification or proof vocabulary, no code.) -/
structure OnRanks (parts : Parts) (pm : Nat → MMesh N P A) (rankOf : Nat → Nat)
    (conn : Nat → Nat → BdryConn A U X) (ranks : List (List (Irbi (BdryConn A U X)))) : Prop where
  rank : ∀ x ∈ parts, rankOf x.1 < ranks.length
  nodup : ∀ bs ∈ ranks, (bs.map Irbi.key).Nodup
  mem : ∀ (r : Nat) bs, ranks[r]? = some bs → ∀ p q, (p, q) ∈ bs.map Irbi.key ↔
    p ∈ parts.map Prod.fst ∧ rankOf p = r ∧ rankOf q ≠ r ∧
      ∃ ps, getConnectedParts (some (pm p).fags) = some ps ∧ q ∈ ps
  info : ∀ bs ∈ ranks, ∀ b ∈ bs, b.remoteRank = rankOf b.remotePart ∧ b.conn = conn b.localPart b.remotePart

/-! ## Proofs -/

section
variable {m : MMesh N P A} {parts : Parts} {pm : Nat → MMesh N P A} {rankOf : Nat → Nat}
  {conn : Nat → Nat → BdryConn A U X} {ranks : List (List (Irbi (BdryConn A U X)))}

/-- Every element listed for a part is in it. -/
theorem sameElem_of_nr {p : Nat} {selp : List Nat} {q : MMesh N P A} (hP : Partitioned m parts)
    (hp : getMeshPart m parts p = .ok q) (hselp : (p, selp) ∈ parts) {g i e : Nat} (h : IsGlobalNr m.sizes g i e)
    (he : e ∈ selp) : ∃ i', SameElem m q selp g i' i := by
  obtain ⟨k, hk⟩ := List.mem_iff_getElem?.1 he
  obtain ⟨sel, hsel, _, _, _, hall⟩ := C09_part_elements hP.ids hP.sorted hp
  obtain rfl : sel = selp := by
    have := List.inj_on_of_nodup_map hP.ids hsel hselp rfl
    simpa using this
  obtain ⟨g', j, j', _, _, h1, h2, _⟩ := hall k _ hk
  obtain ⟨rfl, rfl⟩ := (C01_numbering_bijective m.sizes _).2 _ _ _ _ h1 h
  exact ⟨j', k, _, hk, h2, h1⟩

theorem connected_part (hP : Partitioned m parts) (hpm : ∀ x ∈ parts, getMeshPart m parts x.1 = .ok (pm x.1))
    {p q : Nat} {selp : List Nat} (hp : (p, selp) ∈ parts) {ps : List Nat}
    (hps : getConnectedParts (some (pm p).fags) = some ps) (hq : q ∈ ps) :
    q ≠ p ∧ ∃ selq, (q, selq) ∈ parts ∧ ∃ qs, getConnectedParts (some (pm q).fags) = some qs ∧ p ∈ qs := by
  obtain ⟨hne, selq, hsq, aff, f1, f2, e1, e2, h1, h2, h3, h4, h5⟩ :=
    (C69_partition hP.adj hP.ids hP.sorted (hpm _ hp) hp hps q).1 hq
  refine ⟨hne, selq, hsq, _, rfl, (C69_partition hP.adj hP.ids hP.sorted (hpm _ hsq) hsq rfl p).2
    ⟨Ne.symm hne, selp, hp, ?_⟩⟩
  have hac := hP.interior.symm _ _ _ _ _ _ ((across_iff_via hP.adj (i := f1.grp) (el := f1.el) (f := f1.face)
    (j := f2.grp) (el' := f2.el) (f' := f2.face)).2 ⟨aff, h1⟩)
  obtain ⟨aff', h6⟩ := (across_iff_via hP.adj).1 hac
  exact ⟨aff', f2, f1, e2, e1, h6, h4, h5, h2, h3⟩

/-- C104: the boundaries that the ranks know of fit together. -/
theorem C104_consistent (hP : Partitioned m parts) (hpm : ∀ x ∈ parts, getMeshPart m parts x.1 = .ok (pm x.1))
    (hR : OnRanks parts pm rankOf conn ranks) : Consistent ranks := by
  refine ⟨hR.nodup, ?_⟩
  intro r bs hr b hb
  obtain ⟨h1, h2, h3, ps, h4, h5⟩ := (hR.mem r bs hr b.localPart b.remotePart).1 (List.mem_map.2 ⟨b, hb, rfl⟩)
  obtain ⟨⟨p, selp⟩, hp, he⟩ := List.mem_map.1 h1
  simp only at he
  obtain ⟨hne, selq, hsq, qs, h6, h7⟩ := connected_part hP hpm (he ▸ hp) h4 h5
  have hlt := hR.rank _ hsq
  have hs := List.getElem?_eq_getElem hlt
  obtain ⟨b', hb', hk⟩ := List.mem_map.1 ((hR.mem _ _ hs b.remotePart b.localPart).2
    ⟨List.mem_map.2 ⟨_, hsq, rfl⟩, rfl, by rw [h2]; exact Ne.symm h3, qs, h6, h7⟩)
  simp only [Irbi.key, Prod.mk.injEq] at hk
  rw [(hR.info bs (List.mem_of_getElem? hr) b hb).1]
  refine ⟨_, hs, b', hb', hk.1, hk.2, ?_⟩
  rw [(hR.info _ (List.mem_of_getElem? hs) b' hb').1, hk.2, h2]

variable [DecidableEq A]

/-- C104: on every rank, whatever the order in which the messages arrive, the setup returns one connection for each of
its boundaries, and the connection for parts `p` and `q` is made from the boundary of `p` with `q` and the boundary of
`q` with `p`. -/
theorem C104_setup (hP : Partitioned m parts) (hpm : ∀ x ∈ parts, getMeshPart m parts x.1 = .ok (pm x.1))
    (hR : OnRanks parts pm rankOf conn ranks)
    (cross : X → X → Nat → Nat → A → List (Nat × Nat) → Option (CrossNodes U))
    {r : Nat} {bs : List (Irbi (BdryConn A U X))} (hr : ranks[r]? = some bs) (hne : bs ≠ []) :
    ∃ pending, bdryEnter bs = some pending ∧ ∀ arrivals, arrivals.Perm (inbox bdryPay ranks r) →
      completeSome false (bdryMake cross) bs pending arrivals = .ok (bs.map fun b =>
        ([b.remotePart, b.localPart], makePartConn
          (cross (conn b.localPart b.remotePart).mesh (conn b.remotePart b.localPart).mesh)
          (conn b.localPart b.remotePart).sizes (conn b.localPart b.remotePart).batches
          (makeRemoteInfos b.localPart (conn b.remotePart b.localPart).fags
            (conn b.remotePart b.localPart).batches)), [], []) := by
  have hc := C104_consistent hP hpm hR
  have hn := hc.nodup bs (List.mem_of_getElem? hr)
  obtain ⟨ms, h1, h2, h3⟩ := C31_inbox_expected bdryPay hc hr
  refine ⟨_, by rw [bdryEnter, if_pos hn], ?_⟩
  intro arrivals ha
  have h4 := C31_order_independent false (bdryMake cross) hn hne h1 (by simp) (ha.trans h2) (rest := [])
    (by rw [bdryEnter, if_pos hn])
  rw [List.append_nil] at h4
  rw [h4]
  congr 2
  obtain ⟨elen, eget⟩ := expected_getElem h1
  apply List.ext_getElem (by simp [elen])
  intro i hi1 hi2
  have hib : i < bs.length := by simpa using hi2
  have him : i < ms.length := by omega
  obtain ⟨ek, es⟩ := eget i _ _ (List.getElem?_eq_getElem hib) (List.getElem?_eq_getElem him)
  obtain ⟨bs', g1, b', g2, g3, g4, g5, g6⟩ := (List.forall₂_iff_get.1 h3).2 i hib him
  simp only [List.get_eq_getElem] at g1 g3 g4 g5 g6
  have hb := (hR.info bs (List.mem_of_getElem? hr) _ (List.getElem_mem hib)).2
  have hb' := (hR.info bs' (List.mem_of_getElem? g1) b' g2).2
  simp only [BdryMsg.key, Irbi.key, Prod.mk.injEq] at ek
  simp only [List.getElem_map, List.getElem_zip, resultKey, Bool.false_eq_true, if_false, ek.1, ek.2]
  rw [bdryMake, g6, bdryPay, hb, hb', g3, g4]

end

section moves
variable [DecidableEq A] {m : MMesh N P A} {parts : Parts} {pm : Nat → MMesh N P A} {rankOf : Nat → Nat}
  {conn : Nat → Nat → BdryConn A U X} {ranks : List (List (Irbi (BdryConn A U X)))}
  {un : Nat → Nat → U} {res : Nat → Nat → N → M} {nv : Nat}
  {cross0 : Nat → Nat → A → List (Nat × Nat) → Option (CrossNodes U)}
  {r0 : FaceRestr M U} {opp : List (List (Batch U))}

/-- The boundary connection of part `p` with part `q` is the restriction to the faces tagged with `q`, with any unit
nodes and interpolation. (Specification or proof vocabulary, no code.) -/
def IsPartBdry (M : Type) (pm : Nat → MMesh N P A) (conn : Nat → Nat → BdryConn A U X) (p q : Nat) : Prop :=
  ∃ un res nv, ∃ rp : FaceRestr M U,
    makeFaceRestriction false un res (.tag (.partition q)) nv (pm p).groups (pm p).fags = some rp ∧
    (conn p q).batches = rp.batches ∧ (conn p q).fags = (pm p).fags ∧
    (conn p q).sizes = (pm p).groups.map ElGroup.nelements

/-- C104: on every rank and for every order of arrival, each connection that is returned moves, across the boundary of
a local part `p` with a part `q` on another rank, what the opposite-face connection of the whole mesh moves there. -/
theorem C104_moves (hP : Partitioned m parts) (hpm : ∀ x ∈ parts, getMeshPart m parts x.1 = .ok (pm x.1))
    (hR : OnRanks parts pm rankOf conn ranks) (hnf : ∀ g ∈ m.groups, 0 < g.nfaces)
    (hconn : ∀ bs ∈ ranks, ∀ b ∈ bs, IsPartBdry M pm conn b.localPart b.remotePart)
    (hr0 : makeFaceRestriction false un res .interior nv m.groups m.fags = some r0)
    (hopp : makeOpposite cross0 (m.groups.map ElGroup.nfaces) m.fags r0.batches = some opp)
    (cross : X → X → Nat → Nat → A → List (Nat × Nat) → Option (CrossNodes U))
    {r : Nat} {bs : List (Irbi (BdryConn A U X))} (hr : ranks[r]? = some bs) (hne : bs ≠ [])
    {arrivals : List (BdryMsg (X × List (RemoteInfo A)))} (ha : arrivals.Perm (inbox bdryPay ranks r))
    {pending : List ((Nat × Nat) × Nat)} (hpend : bdryEnter bs = some pending) :
    ∃ result, completeSome false (bdryMake cross) bs pending arrivals = .ok (result, [], []) ∧
      (∀ p q selp selq, (p, selp) ∈ parts → (q, selq) ∈ parts →
        ((∃ c, ([q, p], c) ∈ result) ↔ rankOf p = r ∧ rankOf q ≠ r ∧
          ∃ i el f j el' f', AcrossParts (pm p).fags q ((pm q).groups.map ElGroup.nelements) i el f j el' f')) ∧
      ∀ p q c, ([q, p], some c) ∈ result → ∃ selp selq, (p, selp) ∈ parts ∧ (q, selq) ∈ parts ∧
        ∀ (i : Nat) ob cb, opp[i]? = some ob → c[i]? = some cb → ∀ t' j s',
          (t', j, s') ∈ cb.flatMap Batch.moves ↔ ∃ t s, (t, j, s) ∈ ob.flatMap Batch.moves ∧
            SameBdry m (pm p) selp (tagOrigins (.partition q) (pm p).groups (pm p).fags i)
              (interiorOrigins m.groups m.fags i) i t' t ∧
            SameBdry m (pm q) selq (tagOrigins (.partition p) (pm q).groups (pm q).fags j)
              (interiorOrigins m.groups m.fags j) j s' s := by
  obtain ⟨pending', hp', hall⟩ := C104_setup hP hpm hR cross hr hne
  rw [hpend, Option.some.injEq] at hp'
  subst hp'
  refine ⟨_, hall arrivals ha, ?_, ?_⟩
  · intro p q selp selq hsp hsq
    have hkey : (∃ c, ([q, p], c) ∈ bs.map fun b => ([b.remotePart, b.localPart], makePartConn
          (cross (conn b.localPart b.remotePart).mesh (conn b.remotePart b.localPart).mesh)
          (conn b.localPart b.remotePart).sizes (conn b.localPart b.remotePart).batches
          (makeRemoteInfos b.localPart (conn b.remotePart b.localPart).fags
            (conn b.remotePart b.localPart).batches))) ↔ (p, q) ∈ bs.map Irbi.key := by
      constructor
      · rintro ⟨c, hc⟩
        obtain ⟨b, hb, he⟩ := List.mem_map.1 hc
        simp only [Prod.mk.injEq, List.cons.injEq, and_true] at he
        exact List.mem_map.2 ⟨b, hb, by rw [Irbi.key, he.1.1, he.1.2]⟩
      · intro h
        obtain ⟨b, hb, he⟩ := List.mem_map.1 h
        simp only [Irbi.key, Prod.mk.injEq] at he
        obtain ⟨rfl, rfl⟩ := he
        exact ⟨_, List.mem_map.2 ⟨b, hb, rfl⟩⟩
    rw [hkey, hR.mem r bs hr]
    constructor
    · rintro ⟨h1, h2, h3, ps, h4, h5⟩
      refine ⟨h2, h3, ?_⟩
      obtain ⟨hne', selq', hsq', aff, f1, f2, e1, e2, k1, k2, k3, k4, k5⟩ :=
        (C69_partition hP.adj hP.ids hP.sorted (hpm _ hsp) hsp h4 q).1 h5
      obtain ⟨i1, hi1⟩ := sameElem_of_nr hP (hpm _ hsp) hsp k2 k3
      obtain ⟨i2, hi2⟩ := sameElem_of_nr hP (hpm _ hsq') hsq' k4 k5
      exact ⟨f1.grp, i1, f1.face, f2.grp, i2, f2.face,
        (acrossParts_part_iff hP (hpm _ hsp) hsp (hpm _ hsq') hsq').2
          ⟨Ne.symm hne', _, _, hi1, hi2, (across_iff_via hP.adj).2 ⟨aff, k1⟩⟩⟩
    · rintro ⟨h2, h3, i, el, f, j, el', f', h4⟩
      refine ⟨List.mem_map.2 ⟨_, hsp, rfl⟩, h2, h3, _, rfl, ?_⟩
      obtain ⟨fg, ig, t, rows, aff, nel, a1, a2, _⟩ := h4
      exact ((C69_exact rfl).2 q).2 ⟨fg, List.mem_of_getElem? a1, _, _, _, _, a2⟩
  · intro p q c hc
    obtain ⟨b, hb, he⟩ := List.mem_map.1 hc
    simp only [Prod.mk.injEq, List.cons.injEq, and_true] at he
    obtain ⟨⟨rfl, rfl⟩, hcc⟩ := he
    obtain ⟨h1, h2, h3, ps, h4, h5⟩ := (hR.mem r bs hr b.localPart b.remotePart).1 (List.mem_map.2 ⟨b, hb, rfl⟩)
    obtain ⟨⟨p, selp⟩, hp, hep⟩ := List.mem_map.1 h1
    simp only at hep
    subst hep
    obtain ⟨hne', selq, hsq, _⟩ := connected_part hP hpm hp h4 h5
    obtain ⟨un', res', nv', rp, a1, a2, a3, a4⟩ := hconn bs (List.mem_of_getElem? hr) b hb
    obtain ⟨bs', g1, b', g2, g3, g4, _⟩ := (C104_consistent hP hpm hR).symm r bs hr b hb
    obtain ⟨un'', res'', nv'', rq, b1, b2, b3, b4⟩ := hconn bs' (List.mem_of_getElem? g1) b' g2
    rw [g3, g4] at b1 b2 b3 b4
    rw [a2, a4, b2, b3] at hcc
    refine ⟨selp, selq, hp, hsq, ?_⟩
    intro i ob cb hi hi' t' j s'
    exact C102_between hP (hpm _ hp) hp (hpm _ hsq) hsq (Ne.symm hne') hnf hr0 hopp a1 b1 hcc hi hi' t' j s'

/-- C104: if the source nodes can be found for all pairs of facing boundary elements, all the connections are made,
with one entry for each group of the mesh. -/
theorem C104_made (hP : Partitioned m parts) (hpm : ∀ x ∈ parts, getMeshPart m parts x.1 = .ok (pm x.1))
    (hR : OnRanks parts pm rankOf conn ranks) (hnf : ∀ g ∈ m.groups, 0 < g.nfaces)
    (hconn : ∀ bs ∈ ranks, ∀ b ∈ bs, IsPartBdry M pm conn b.localPart b.remotePart)
    (cross : X → X → Nat → Nat → A → List (Nat × Nat) → Option (CrossNodes U))
    (hcross : ∀ x ∈ parts, ∀ y ∈ parts, ∀ i j aff pairs, pairs ≠ [] →
      (∀ z ∈ pairs, AdjPartPair (.partition x.1) (.partition y.1) (pm x.1).groups (pm y.1).groups (pm x.1).fags
        (pm y.1).fags x.1 i j aff z) →
      ∃ cn, cross (conn x.1 y.1).mesh (conn y.1 x.1).mesh j i aff pairs = some cn ∧
        ∀ e < pairs.length, cn.close e e = true)
    {r : Nat} {bs : List (Irbi (BdryConn A U X))} (hr : ranks[r]? = some bs) (hne : bs ≠ [])
    {arrivals : List (BdryMsg (X × List (RemoteInfo A)))} (ha : arrivals.Perm (inbox bdryPay ranks r))
    {pending : List ((Nat × Nat) × Nat)} (hpend : bdryEnter bs = some pending) :
    ∃ result, completeSome false (bdryMake cross) bs pending arrivals = .ok (result, [], []) ∧
      result.map Prod.fst = (bs.map fun b => [b.remotePart, b.localPart]) ∧
      ∀ x ∈ result, ∃ c, x.2 = some c ∧ c.length = m.groups.length := by
  obtain ⟨pending', hp', hall⟩ := C104_setup hP hpm hR cross hr hne
  rw [hpend, Option.some.injEq] at hp'
  subst hp'
  refine ⟨_, hall arrivals ha, by simp, ?_⟩
  intro x hx
  obtain ⟨b, hb, rfl⟩ := List.mem_map.1 hx
  obtain ⟨h1, h2, h3, ps, h4, h5⟩ := (hR.mem r bs hr b.localPart b.remotePart).1 (List.mem_map.2 ⟨b, hb, rfl⟩)
  obtain ⟨⟨p, selp⟩, hp, hep⟩ := List.mem_map.1 h1
  simp only at hep
  subst hep
  obtain ⟨hne', selq, hsq, _⟩ := connected_part hP hpm hp h4 h5
  obtain ⟨un', res', nv', rp, a1, a2, a3, a4⟩ := hconn bs (List.mem_of_getElem? hr) b hb
  obtain ⟨bs', g1, b', g2, g3, g4, _⟩ := (C104_consistent hP hpm hR).symm r bs hr b hb
  obtain ⟨un'', res'', nv'', rq, b1, b2, b3, b4⟩ := hconn bs' (List.mem_of_getElem? g1) b' g2
  rw [g3, g4] at b1 b2 b3 b4
  obtain ⟨c, k1, k2⟩ := (C102_made hP (hpm _ hp) (hpm _ hsq) hnf (cross := cross (conn b.localPart b.remotePart).mesh
    (conn b.remotePart b.localPart).mesh)).2 rp rq a1 b1 (hcross _ hp _ hsq)
  exact ⟨c, by simp only [a2, a4, b2, b3]; exact k1, k2⟩

end moves

/-! ## Example -/

/-- The boundary of part `p` with part `q` of the three segments. (Example, no code.) -/
def exRankConn (p q : Nat) : BdryConn Unit Nat Unit :=
  match makeFaceRestriction false (fun _ _ => 0) (fun _ f n => (f, n)) (.tag (.partition q)) 4
      (exExchangePart p).groups (exExchangePart p).fags with
  | some r => ⟨(), (exExchangePart p).groups.map ElGroup.nelements, (exExchangePart p).fags, r.batches⟩
  | none => ⟨(), [], [], []⟩

/-- Part 7 is on rank 0, part 8 on rank 1. (Example, no code.) -/
def exSpread : List (List (Irbi (BdryConn Unit Nat Unit))) :=
  [[⟨7, 8, 1, exRankConn 7 8⟩], [⟨8, 7, 0, exRankConn 8 7⟩]]

theorem exSpread_connected : getConnectedParts (some (exExchangePart 7).fags) = some [8] ∧
    getConnectedParts (some (exExchangePart 8).fags) = some [7] := by
  constructor <;> decide +kernel

/-- Non-vacuity of C104: the two ranks. -/
theorem exSpread_onRanks : OnRanks exExchangeParts exExchangePart (fun p => p - 7) exRankConn exSpread := by
  obtain ⟨h7, h8⟩ := exSpread_connected
  refine ⟨by decide, ?_, ?_, ?_⟩
  · intro bs hbs
    simp only [exSpread, List.mem_cons, List.not_mem_nil, or_false] at hbs
    rcases hbs with rfl | rfl <;> simp [Irbi.key]
  · intro r bs hr p q
    have h2 : r < 2 := (List.getElem?_eq_some_iff.1 hr).1
    have hp : p ∈ exExchangeParts.map Prod.fst ↔ p = 7 ∨ p = 8 := by simp [exExchangeParts]
    rw [hp]
    obtain rfl | rfl : r = 0 ∨ r = 1 := by omega
    · obtain rfl : [⟨7, 8, 1, exRankConn 7 8⟩] = bs := by simpa [exSpread] using hr
      simp only [List.map_cons, List.map_nil, Irbi.key, List.mem_singleton, Prod.mk.injEq]
      constructor
      · rintro ⟨rfl, rfl⟩
        exact ⟨.inl rfl, rfl, by decide, _, h7, by simp⟩
      · rintro ⟨rfl | rfl, a, b, ps, c, d⟩
        · rw [h7, Option.some.injEq] at c
          subst c
          exact ⟨rfl, by simpa using d⟩
        · simp at a
    · obtain rfl : [⟨8, 7, 0, exRankConn 8 7⟩] = bs := by simpa [exSpread] using hr
      simp only [List.map_cons, List.map_nil, Irbi.key, List.mem_singleton, Prod.mk.injEq]
      constructor
      · rintro ⟨rfl, rfl⟩
        exact ⟨.inr rfl, rfl, by decide, _, h8, by simp⟩
      · rintro ⟨rfl | rfl, a, b, ps, c, d⟩
        · simp at a
        · rw [h8, Option.some.injEq] at c
          subst c
          exact ⟨rfl, by simpa using d⟩
  · intro bs hbs b hb
    simp only [exSpread, List.mem_cons, List.not_mem_nil, or_false] at hbs
    rcases hbs with rfl | rfl <;> simp only [List.mem_singleton] at hb <;> subst hb <;> exact ⟨rfl, rfl⟩

/-- The boundary connections of the example are restrictions to the tagged faces. -/
theorem exSpread_bdry : ∀ bs ∈ exSpread, ∀ b ∈ bs,
    IsPartBdry (Nat × Nat) exExchangePart exRankConn b.localPart b.remotePart := by
  have key : ∀ x ∈ [(7, 8), (8, 7)],
      (makeFaceRestriction (M := Nat × Nat) (U := Nat) false (fun _ _ => 0) (fun _ f n => (f, n)) (.tag (.partition x.2)) 4
        (exExchangePart x.1).groups (exExchangePart x.1).fags).isSome = true := by decide +kernel
  intro bs hbs b hb
  have hx : (b.localPart, b.remotePart) ∈ [(7, 8), (8, 7)] := by
    simp only [exSpread, List.mem_cons, List.not_mem_nil, or_false] at hbs
    rcases hbs with rfl | rfl <;> simp only [List.mem_singleton] at hb <;> subst hb <;> simp
  obtain ⟨r, hr⟩ := Option.isSome_iff_exists.1 (key _ hx)
  refine ⟨_, _, _, r, hr, ?_, ?_, ?_⟩ <;> simp only at hr <;> simp only [exRankConn, hr]

/-- What rank `r` obtains for a pair of parts, as moves of each group. (Example, no code.) -/
def exRankMoves (r : Nat) (key : List Nat) : Option (List (List (Nat × Nat × Nat))) := do
  let pending ← bdryEnter (exSpread.getD r [])
  match completeSome false (bdryMake fun _ _ _ _ _ _ => some ⟨fun a b => a == b, id⟩) (exSpread.getD r []) pending
      (inbox bdryPay exSpread r) with
  | .ok (res, _, _) =>
    match res.lookup key with
    | some (some c) => some (c.map fun bs => bs.flatMap Batch.moves)
    | _ => none
  | _ => none

/-- Both ranks obtain the moves across the boundary between the parts. -/
example : exRankMoves 0 [8, 7] = some [[(0, 1, 0)], []] ∧ exRankMoves 1 [7, 8] = some [[], [(0, 0, 0)]] ∧
    exRankMoves 0 [7, 8] = none := by
  refine ⟨?_, ?_, ?_⟩ <;> decide +kernel

end Meshmode
