import Mathlib.Data.List.Basic
import Mathlib.Data.List.Nodup

/-!
# In-place arithmetic and copies of DOF arrays (C68)

`DOFArray._ibop`, `copy`, `fill`: meshmode/dof_array.py:233-238, 261-291.  Arrays live in a store and a
`DOFArray` refers to them; whether an array can be changed in place depends on the array context (numpy
and pyopencl arrays can, the arrays of lazily evaluating or functional contexts cannot).  Arrays are
flat lists, and operations of arrays of different size raise an exception (broadcasting of arrays is not
modelled).
-/
namespace Meshmode

/-! ## Model -/

/-- An array object: its entries, and whether operators like `+=` act on the object itself
(meshmode/dof_array.py:272-276, arrays of an array context). -/
structure ArrObj (K : Type) where
  vals : List K
  inPlace : Bool
  deriving DecidableEq, Repr

/-- The array objects of a program by number (meshmode/dof_array.py:272-276). -/
abbrev Store (K : Type) := List (ArrObj K)

/-- Exceptions. Code: meshmode/dof_array.py:267-278. -/
inductive IbopErr where
  /-- `ValueError`: different numbers of groups -/
  | length
  /-- `NotImplementedError`: neither a `DOFArray` nor a number -/
  | type
  /-- the array operation fails, for want of equal sizes -/
  | shape
  /-- reference to an array that does not exist (does not occur in Python) -/
  | dangling
  deriving DecidableEq, Repr

/-- The right hand side of an in-place operator, meshmode/dof_array.py:267-278. -/
inductive IbopArg (K : Type) where
  | dof (arrays : List Nat)
  | number (x : K)
  | other
  deriving DecidableEq, Repr

section
variable {K : Type}

/-- `f(subary, other)` for `f` like `op.iadd`, meshmode/dof_array.py:273, 276: arrays that work in place
are changed, others give a new array, which the code drops. -/
def ibopArray (f : K → K → K) (s : Store K) (a : Nat) (other : List K) : Except IbopErr (Store K) :=
  match s[a]? with
  | none => .error .dangling
  | some o =>
    if o.vals.length = other.length then
      if o.inPlace then .ok (s.set a { o with vals := List.zipWith f o.vals other }) else .ok s
    else .error .shape

/-- The loop over the groups for a `DOFArray` on the right, meshmode/dof_array.py:272-273: the store at
the end, and the exception if there was one. -/
def ibopLoop (f : K → K → K) (s : Store K) : List (Nat × Nat) → Store K × Option IbopErr
  | [] => (s, none)
  | (a, b) :: rest =>
    match s[b]? with
    | none => (s, some .dangling)
    | some o =>
      match ibopArray f s a o.vals with
      | .ok s' => ibopLoop f s' rest
      | .error e => (s, some e)

/-- The loop over the groups for a number on the right, meshmode/dof_array.py:275-276. -/
def ibopNumber (f : K → K → K) (x : K) (s : Store K) : List Nat → Store K × Option IbopErr
  | [] => (s, none)
  | a :: rest =>
    match s[a]? with
    | none => (s, some .dangling)
    | some o =>
      match ibopArray f s a (List.replicate o.vals.length x) with
      | .ok s' => ibopNumber f x s' rest
      | .error e => (s, some e)

/-- `DOFArray._ibop`, meshmode/dof_array.py:261-280. -/
def ibop (f : K → K → K) (s : Store K) (self : List Nat) : IbopArg K → Store K × Option IbopErr
  | .dof arg => if self.length ≠ arg.length then (s, some .length) else ibopLoop f s (self.zip arg)
  | .number x => ibopNumber f x s self
  | .other => (s, some .type)

/-- `DOFArray.copy`, meshmode/dof_array.py:233-234: new array objects with the same entries. -/
def dofCopy (s : Store K) (self : List Nat) : Option (Store K × List Nat) :=
  (self.mapM fun a => s[a]?).map fun objs => (s ++ objs, (List.range objs.length).map (s.length + ·))

/-- `DOFArray.fill`, meshmode/dof_array.py:236-238. -/
def dofFill (x : K) (s : Store K) : List Nat → Option (Store K)
  | [] => some s
  | a :: rest =>
    match s[a]? with
    | none => none
    | some o => dofFill x (s.set a { o with vals := List.replicate o.vals.length x }) rest

/-! ## Specification -/

/-- The entries of an array. (Specification or proof vocabulary, no code.) -/
def valsOf (s : Store K) (a : Nat) : Option (List K) := s[a]?.map ArrObj.vals

/-- The references exist and refer to arrays that work in place.
(Specification or proof vocabulary, no code.) -/
def InPlaceArrays (s : Store K) (self : List Nat) : Prop :=
  ∀ a ∈ self, ∃ o, s[a]? = some o ∧ o.inPlace = true

/-! ## Proofs -/

theorem ibopArray_ok {f : K → K → K} {s : Store K} {a : Nat} {o : ArrObj K} {other : List K}
    (ha : s[a]? = some o) (hi : o.inPlace = true) (hl : o.vals.length = other.length) :
    ibopArray f s a other = .ok (s.set a { o with vals := List.zipWith f o.vals other }) := by
  simp [ibopArray, ha, hi, hl]

theorem getElem?_set_self' {s : Store K} {a : Nat} {o : ArrObj K} (ha : s[a]? = some o) (o' : ArrObj K) :
    (s.set a o')[a]? = some o' := by
  have := (List.getElem?_eq_some_iff.1 ha).1
  simp [this]

theorem ibopLoop_spec {f : K → K → K} {ps : List (Nat × Nat)} {s : Store K}
    (hmut : InPlaceArrays s (ps.map Prod.fst)) (hnd : (ps.map Prod.fst).Nodup)
    (hal : ∀ (i j : Nat) a b a' b', ps[i]? = some (a, b) → ps[j]? = some (a', b') → i < j → b' ≠ a)
    (hsh : ∀ p ∈ ps, ∃ u v, valsOf s p.1 = some u ∧ valsOf s p.2 = some v ∧ u.length = v.length) :
    (ibopLoop f s ps).2 = none ∧
    (∀ p ∈ ps, valsOf (ibopLoop f s ps).1 p.1 =
      (valsOf s p.1).bind fun u => (valsOf s p.2).map fun v => List.zipWith f u v) ∧
    (∀ c, c ∉ ps.map Prod.fst → (ibopLoop f s ps).1[c]? = s[c]?) := by
  induction ps generalizing s with
  | nil => exact ⟨rfl, by simp, fun c _ => rfl⟩
  | cons p ps ih =>
    obtain ⟨a, b⟩ := p
    simp only [List.map_cons, List.nodup_cons] at hnd
    obtain ⟨u, v, hu, hv, hlen⟩ := hsh (a, b) (by simp)
    obtain ⟨o, ho, hin⟩ := hmut a (by simp)
    obtain ⟨o2, ho2, rfl⟩ := Option.map_eq_some_iff.1 hv
    have hou : o.vals = u := by simpa [valsOf, ho] using hu
    subst hou
    have hstep := ibopArray_ok (f := f) ho hin hlen
    simp only [ibopLoop, ho2, hstep]
    -- the store after the first group
    generalize hs' : s.set a { o with vals := List.zipWith f o.vals o2.vals } = s'
    have hother : ∀ c, c ≠ a → s'[c]? = s[c]? := by
      intro c hc; rw [← hs']; simp [Ne.symm hc]
    have hvother : ∀ c, c ≠ a → valsOf s' c = valsOf s c := by
      intro c hc; rw [valsOf, valsOf, hother c hc]
    have ha' : s'[a]? = some { o with vals := List.zipWith f o.vals o2.vals } := by
      rw [← hs']; exact getElem?_set_self' ho _
    have hne1 : ∀ p ∈ ps, p.1 ≠ a := by
      rintro p hp rfl
      exact hnd.1 (List.mem_map.2 ⟨p, hp, rfl⟩)
    have hne2 : ∀ p ∈ ps, p.2 ≠ a := by
      intro p hp
      obtain ⟨j, hj⟩ := List.mem_iff_getElem?.1 hp
      exact hal 0 (j + 1) a b p.1 p.2 rfl (by simpa using hj) (by omega)
    have hih := ih (s := s')
      (fun c hc => by
        obtain ⟨p, hp, rfl⟩ := List.mem_map.1 hc
        rw [hother _ (hne1 p hp)]
        exact hmut p.1 (List.mem_cons_of_mem _ hc))
      hnd.2
      (fun i j x y x' y' hi hj hij => hal (i + 1) (j + 1) x y x' y' (by simpa using hi)
        (by simpa using hj) (by omega))
      (fun p hp => by
        rw [hvother _ (hne1 p hp), hvother _ (hne2 p hp)]
        exact hsh p (List.mem_cons_of_mem _ hp))
    refine ⟨hih.1, ?_, ?_⟩
    · intro p hp
      rcases List.mem_cons.1 hp with rfl | hp
      · rw [valsOf, hih.2.2 a hnd.1, ha', hu, hv]
        rfl
      · rw [hih.2.1 p hp, hvother _ (hne1 p hp), hvother _ (hne2 p hp)]
    · intro c hc
      simp only [List.map_cons, List.mem_cons, not_or] at hc
      rw [hih.2.2 c hc.2, hother c hc.1]

/-- C68: with arrays that work in place, `x op= y` gives every group of `x` the entrywise result and
changes nothing else, provided that the groups of `x` are different arrays of the sizes of those of `y`,
and no group of `y` is the array of an earlier group of `x` (it can be that of the same group, as in
`x += x`).

Partial: other aliasing, arrays that do not work in place. -/
theorem C68_elementwise_partial {f : K → K → K} {s : Store K} {x y : List Nat}
    (hlen : x.length = y.length) (hmut : InPlaceArrays s x) (hnd : x.Nodup)
    (hal : ∀ (i j : Nat) a b, x[i]? = some a → y[j]? = some b → i < j → b ≠ a)
    (hsh : ∀ (i : Nat) a b, x[i]? = some a → y[i]? = some b →
      ∃ u v, valsOf s a = some u ∧ valsOf s b = some v ∧ u.length = v.length) :
    (ibop f s x (.dof y)).2 = none ∧
    (∀ (i : Nat) a b u v, x[i]? = some a → y[i]? = some b → valsOf s a = some u → valsOf s b = some v →
      valsOf (ibop f s x (.dof y)).1 a = some (List.zipWith f u v)) ∧
    (∀ c, c ∉ x → (ibop f s x (.dof y)).1[c]? = s[c]?) := by
  have hfst : (x.zip y).map Prod.fst = x := List.map_fst_zip (by omega)
  simp only [ibop, hlen, ne_eq, not_true_eq_false, if_false]
  have hz : ∀ {i : Nat} {a b : Nat}, (x.zip y)[i]? = some (a, b) → x[i]? = some a ∧ y[i]? = some b := by
    intro i a b h
    exact List.getElem?_zip_eq_some.1 h
  obtain ⟨h1, h2, h3⟩ := ibopLoop_spec (f := f) (ps := x.zip y) (s := s) (by rwa [hfst]) (by rwa [hfst])
    (fun i j a b a' b' hi hj hij => hal i j a b' (hz hi).1 (hz hj).2 hij)
    (fun p hp => by
      obtain ⟨i, hi⟩ := List.mem_iff_getElem?.1 hp
      obtain ⟨a, b⟩ := p
      exact hsh i a b (hz hi).1 (hz hi).2)
  refine ⟨h1, ?_, fun c hc => h3 c (by rwa [hfst])⟩
  intro i a b u v hx hy hu hv
  have := h2 (a, b) (List.mem_of_getElem? (List.getElem?_zip_eq_some.2 ⟨hx, hy⟩ : (x.zip y)[i]? = some (a, b)))
  rw [this, hu, hv]
  rfl

/-- C68: the same for a number on the right. -/
theorem C68_number_partial {f : K → K → K} {c : K} {x : List Nat} {s : Store K}
    (hmut : InPlaceArrays s x) (hnd : x.Nodup) :
    (ibop f s x (.number c)).2 = none ∧
    (∀ a ∈ x, valsOf (ibop f s x (.number c)).1 a = (valsOf s a).map (·.map (f · c))) ∧
    (∀ b, b ∉ x → (ibop f s x (.number c)).1[b]? = s[b]?) := by
  simp only [ibop]
  induction x generalizing s with
  | nil => exact ⟨rfl, by simp, fun _ _ => rfl⟩
  | cons a x ih =>
    obtain ⟨o, ho, hin⟩ := hmut a (by simp)
    have hstep := ibopArray_ok (f := f) (other := List.replicate o.vals.length c) ho hin (by simp)
    simp only [ibopNumber, ho, hstep]
    have hzip : List.zipWith f o.vals (List.replicate o.vals.length c) = o.vals.map (f · c) := by
      apply List.ext_getElem?
      intro i
      simp only [List.getElem?_zipWith, List.getElem?_map, List.getElem?_replicate]
      cases h : o.vals[i]? with
      | none => rfl
      | some v => rw [if_pos (List.getElem?_eq_some_iff.1 h).1]; rfl
    rw [hzip]
    generalize hs' : s.set a { o with vals := o.vals.map (f · c) } = s'
    have hother : ∀ b, b ≠ a → s'[b]? = s[b]? := by
      intro b hb; rw [← hs']; simp [Ne.symm hb]
    have ha' : s'[a]? = some { o with vals := o.vals.map (f · c) } := by
      rw [← hs']; exact getElem?_set_self' ho _
    have hne : ∀ b ∈ x, b ≠ a := by
      rintro b hb rfl; exact (List.nodup_cons.1 hnd).1 hb
    obtain ⟨h1, h2, h3⟩ := ih (s := s') (fun b hb => by
      rw [hother b (hne b hb)]; exact hmut b (List.mem_cons_of_mem _ hb)) (List.nodup_cons.1 hnd).2
    refine ⟨h1, ?_, ?_⟩
    · intro b hb
      rcases List.mem_cons.1 hb with rfl | hb
      · rw [valsOf, h3 b (List.nodup_cons.1 hnd).1, ha', valsOf, ho]
        rfl
      · rw [h2 b hb, valsOf, valsOf, hother b (hne b hb)]
    · intro b hb
      simp only [List.mem_cons, not_or] at hb
      rw [h3 b hb.2, hother b hb.1]

/-- C68: different numbers of groups, and right hand sides that are neither DOF arrays nor numbers, are
refused before anything changes. -/
theorem C68_refused (f : K → K → K) (s : Store K) (x y : List Nat) :
    (x.length ≠ y.length → ibop f s x (.dof y) = (s, some .length)) ∧
    ibop f s x .other = (s, some .type) := by
  constructor
  · intro h; simp [ibop, h]
  · rfl

theorem ibopArray_lengths {f : K → K → K} {s s' : Store K} {a : Nat} {l : List K}
    (h : ibopArray f s a l = .ok s') (c : Nat) :
    (valsOf s' c).map List.length = (valsOf s c).map List.length := by
  unfold ibopArray at h
  split at h
  · cases h
  · rename_i o ho
    split at h
    · rename_i hl
      split at h
      · cases h
        by_cases hc : c = a
        · subst hc
          rw [valsOf, getElem?_set_self' ho, valsOf, ho]
          simp [hl]
        · rw [valsOf, List.getElem?_set_ne (Ne.symm hc), valsOf]
      · cases h; rfl
    · cases h

/-- C68: whatever happens, also when there is an exception, all arrays keep their sizes, and no arrays
other than those of `x` change. -/
theorem C68_frame {f : K → K → K} {s : Store K} {x : List Nat} (arg : IbopArg K) :
    (∀ c, (valsOf (ibop f s x arg).1 c).map List.length = (valsOf s c).map List.length) ∧
    ∀ c, c ∉ x → (ibop f s x arg).1[c]? = s[c]? := by
  have harr : ∀ {s s' : Store K} {a : Nat} {l : List K}, ibopArray f s a l = .ok s' →
      ∀ c, c ≠ a → s'[c]? = s[c]? := by
    intro s s' a l h c hc
    unfold ibopArray at h
    split at h
    · cases h
    · split at h
      · split at h
        · cases h; simp [Ne.symm hc]
        · cases h; rfl
      · cases h
  cases arg with
  | other => exact ⟨fun _ => rfl, fun _ _ => rfl⟩
  | number y =>
    simp only [ibop]
    induction x generalizing s with
    | nil => exact ⟨fun _ => rfl, fun _ _ => rfl⟩
    | cons a x ih =>
      simp only [ibopNumber]
      split
      · exact ⟨fun _ => rfl, fun _ _ => rfl⟩
      · split
        · rename_i s' h
          obtain ⟨h1, h2⟩ := ih (s := s')
          refine ⟨fun c => (h1 c).trans (ibopArray_lengths h c), fun c hc => ?_⟩
          simp only [List.mem_cons, not_or] at hc
          rw [h2 c hc.2, harr h c hc.1]
        · exact ⟨fun _ => rfl, fun _ _ => rfl⟩
  | dof y =>
    simp only [ibop]
    split
    · exact ⟨fun _ => rfl, fun _ _ => rfl⟩
    · have key : ∀ (ps : List (Nat × Nat)) (s : Store K),
          (∀ c, (valsOf (ibopLoop f s ps).1 c).map List.length = (valsOf s c).map List.length) ∧
          ∀ c, c ∉ ps.map Prod.fst → (ibopLoop f s ps).1[c]? = s[c]? := by
        intro ps
        induction ps with
        | nil => exact fun s => ⟨fun _ => rfl, fun _ _ => rfl⟩
        | cons p ps ih =>
          intro s
          obtain ⟨a, b⟩ := p
          simp only [ibopLoop]
          split
          · exact ⟨fun _ => rfl, fun _ _ => rfl⟩
          · split
            · rename_i s' h
              obtain ⟨h1, h2⟩ := ih s'
              refine ⟨fun c => (h1 c).trans (ibopArray_lengths h c), fun c hc => ?_⟩
              simp only [List.map_cons, List.mem_cons, not_or] at hc
              rw [h2 c hc.2, harr h c hc.1]
            · exact ⟨fun _ => rfl, fun _ _ => rfl⟩
      obtain ⟨h1, h2⟩ := key (x.zip y) s
      refine ⟨h1, fun c hc => h2 c fun hm => hc ?_⟩
      obtain ⟨p, hp, rfl⟩ := List.mem_map.1 hm
      exact (List.of_mem_zip hp).1

/-- C68: a copy has the same entries in arrays of its own: in-place operations on the copy leave the
original alone, and the other way round. -/
theorem C68_copy {s s' : Store K} {x x' : List Nat} (h : dofCopy s x = some (s', x')) :
    x'.length = x.length ∧ x'.Nodup ∧ (∀ a ∈ x, a ∉ x') ∧
    (∀ c, c < s.length → s'[c]? = s[c]?) ∧
    (∀ (i : Nat) a a', x[i]? = some a → x'[i]? = some a' → s'[a']? = s[a]?) ∧
    ∀ (f : K → K → K) arg,
      (∀ a ∈ x, (ibop f s' x' arg).1[a]? = s'[a]?) ∧ (∀ a ∈ x', (ibop f s' x arg).1[a]? = s'[a]?) := by
  obtain ⟨objs, hm, he⟩ := Option.map_eq_some_iff.1 h
  simp only [Prod.mk.injEq] at he
  obtain ⟨rfl, rfl⟩ := he
  have hlen : objs.length = x.length ∧ ∀ i : Nat, objs[i]? = x[i]?.bind fun a => s[a]? := by
    clear h
    induction x generalizing objs with
    | nil => cases hm; exact ⟨rfl, by simp⟩
    | cons a x ih =>
      rw [List.mapM_cons] at hm
      simp only [Option.bind_eq_bind, Option.bind_eq_some_iff, Option.pure_def,
        Option.some.injEq] at hm
      obtain ⟨o, ho, os, hos, rfl⟩ := hm
      obtain ⟨h1, h2⟩ := ih (objs := os) hos
      refine ⟨by simp [h1], fun i => ?_⟩
      cases i with
      | zero => simp [ho]
      | succ i => simpa using h2 i
  have hlt : ∀ a ∈ x, a < s.length := by
    intro a ha
    obtain ⟨i, hi⟩ := List.mem_iff_getElem?.1 ha
    have h2 := hlen.2 i
    rw [hi, Option.bind_some] at h2
    have hil : i < objs.length := by
      rw [hlen.1]; exact (List.getElem?_eq_some_iff.1 hi).1
    rw [List.getElem?_eq_getElem hil] at h2
    exact (List.getElem?_eq_some_iff.1 h2.symm).1
  have hdis : ∀ a ∈ x, a ∉ (List.range objs.length).map (s.length + ·) := by
    intro a ha hm'
    obtain ⟨k, _, hk⟩ := List.mem_map.1 hm'
    have := hlt a ha
    omega
  refine ⟨by simp [hlen.1], ?_, hdis, ?_, ?_, fun f arg => ⟨fun a ha => ?_, fun a ha => ?_⟩⟩
  · exact List.nodup_range.map (fun a b h => by simpa using h)
  · intro c hc; rw [List.getElem?_append_left hc]
  · intro i a a' hx hx'
    simp only [List.getElem?_map, Option.map_eq_some_iff] at hx'
    obtain ⟨k, hk, rfl⟩ := hx'
    obtain ⟨hi, rfl⟩ := List.getElem?_eq_some_iff.1 hk
    simp only [List.getElem_range]
    rw [List.getElem?_append_right (by omega), Nat.add_sub_cancel_left, hlen.2 i, hx, Option.bind_some]
  · exact (C68_frame arg).2 a (hdis a ha)
  · exact (C68_frame arg).2 a fun hx => hdis a hx ha

/-- C68: `fill` gives all groups the value and changes nothing else. -/
theorem C68_fill {c : K} {x : List Nat} {s s' : Store K} (h : dofFill c s x = some s') :
    (∀ a ∈ x, valsOf s' a = (valsOf s a).map fun u => List.replicate u.length c) ∧
    ∀ b, b ∉ x → s'[b]? = s[b]? := by
  induction x generalizing s with
  | nil => cases h; exact ⟨by simp, fun _ _ => rfl⟩
  | cons a x ih =>
    simp only [dofFill] at h
    split at h
    · cases h
    · rename_i o ho
      obtain ⟨h1, h2⟩ := ih h
      have hself := getElem?_set_self' ho { o with vals := List.replicate o.vals.length c }
      refine ⟨?_, ?_⟩
      · intro b hb
        by_cases hbx : b ∈ x
        · rw [h1 b hbx]
          by_cases hba : b = a
          · subst hba
            rw [valsOf, hself, valsOf, ho]
            simp
          · rw [valsOf, List.getElem?_set_ne (Ne.symm hba), valsOf]
        · rcases List.mem_cons.1 hb with rfl | hb
          · rw [valsOf, h2 b hbx, hself, valsOf, ho]; rfl
          · exact absurd hb hbx
      · intro b hb
        simp only [List.mem_cons, not_or] at hb
        rw [h2 b hb.2, List.getElem?_set_ne (Ne.symm hb.1)]

end

/-! ## Concrete cases -/

/-- Four arrays that work in place. (Example, no code.) -/
def exStore : Store Int := [⟨[1, 2], true⟩, ⟨[3], true⟩, ⟨[10, 20], true⟩, ⟨[30], true⟩]

-- The hypotheses of `C68_elementwise_partial` for `x += y` and `x += x`.
example : InPlaceArrays exStore [0, 1] ∧ [0, 1].Nodup ∧
    (ibop (· + ·) exStore [0, 1] (.dof [2, 3])).1.map ArrObj.vals = [[11, 22], [33], [10, 20], [30]] ∧
    (ibop (· + ·) exStore [0, 1] (.dof [0, 1])).1.map ArrObj.vals = [[2, 4], [6], [10, 20], [30]] := by
  refine ⟨?_, by decide, by decide, by decide⟩
  intro a ha
  simp only [List.mem_cons, List.not_mem_nil, or_false] at ha
  rcases ha with rfl | rfl
  · exact ⟨_, rfl, rfl⟩
  · exact ⟨_, rfl, rfl⟩

-- The hypotheses of `C68_copy` and `C68_fill`.
example : dofCopy exStore [0, 1] = some (exStore ++ [⟨[1, 2], true⟩, ⟨[3], true⟩], [4, 5]) := by decide
example : (dofFill 7 exStore [0, 1]).isSome = true := by decide

/-- C68: if the arrays do not work in place, `x += y` does nothing, without an exception. -/
theorem C68_immutable_counterexample :
    ibop (· + ·) [⟨[1, 2], false⟩, ⟨[10, 20], false⟩] [0] (.dof [1]) =
      (([⟨[1, 2], false⟩, ⟨[10, 20], false⟩] : Store Int), none) := by decide

/-- C68: if the second group has a different size, the exception leaves the first group changed. -/
theorem C68_not_atomic_counterexample :
    ibop (· + ·) exStore [0, 1] (.dof [2, 2]) =
      ([⟨[11, 22], true⟩, ⟨[3], true⟩, ⟨[10, 20], true⟩, ⟨[30], true⟩], some .shape) := by decide

/-- C68: if the groups of `y` are those of `x` in another order, later groups see changed values. -/
theorem C68_aliasing_counterexample :
    (ibop (· + ·) ([⟨[1], true⟩, ⟨[10], true⟩] : Store Int) [0, 1] (.dof [1, 0])).1 =
      [⟨[11], true⟩, ⟨[21], true⟩] := by decide

end Meshmode
