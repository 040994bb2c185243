import Mathlib.Logic.Function.Basic
import Mathlib.Data.List.Basic

/-!
# The array context for pickling (C36)

`array_context_for_pickling` (meshmode/dof_array.py:581-601), a context manager setting a
thread-local variable.
-/
namespace Meshmode

/-! ## Model -/

/-- What a thread does with the thread-local variable `_ARRAY_CONTEXT_FOR_PICKLING_TLS.actx`.
Code: meshmode/dof_array.py:580-601. -/
inductive CtxEv (C : Type) where
  /-- the code before `yield`, meshmode/dof_array.py:586-596, with argument `a` -/
  | enter (a : C)
  /-- the `finally` clause, meshmode/dof_array.py:599-600 -/
  | leave
  /-- `DOFArray.__getstate__` or `__setstate__` reading the variable,
  meshmode/dof_array.py:287-290, 319-322 -/
  | read
  deriving DecidableEq

/-- What the thread sees. Code: meshmode/dof_array.py:580-601. -/
inductive CtxObs (C : Type) where
  | entered
  /-- `RuntimeError("array_context_for_pickling should not be called inside …")` -/
  | refused
  | left
  | value (v : Option C)
  deriving DecidableEq

/-- One event; the state is the variable, `none` if it is `None` or not yet set.
Code: meshmode/dof_array.py:580-601. -/
def ctxStep {C : Type} (s : Option C) : CtxEv C → Option C × CtxObs C
  | .enter a => match s with
      | some _ => (s, .refused)
      | none => (some a, .entered)
  | .leave => (none, .left)
  | .read => (s, .value s)

/-- The events of one thread, in order. Code: meshmode/dof_array.py:580-601. -/
def ctxRun {C : Type} : Option C → List (CtxEv C) → List (CtxObs C)
  | _, [] => []
  | s, e :: es => (ctxStep s e).2 :: ctxRun (ctxStep s e).1 es

/-- The events of several threads, interleaved: `threading.local` has one variable per thread.
Code: meshmode/dof_array.py:580-601. -/
def ctxRunAll {C T : Type} [DecidableEq T] :
    (T → Option C) → List (T × CtxEv C) → List (T × CtxObs C)
  | _, [] => []
  | σ, (t, e) :: es =>
      (t, (ctxStep (σ t) e).2) :: ctxRunAll (Function.update σ t (ctxStep (σ t) e).1) es

/-- Programs of one thread: `with array_context_for_pickling(a): body`, pickling or unpickling
(which reads the variable and raises if there is none), raising, sequence, and `try: … except: …`.
Code: meshmode/dof_array.py:580-601. -/
inductive CtxProg (C : Type) where
  | skip
  | withCtx (a : C) (body : CtxProg C)
  | pickle
  | raise
  | seq (p q : CtxProg C)
  | tryExcept (p q : CtxProg C)

/-- Running a program: the events, the final value of the variable, and whether it raised.  The
`with` statement: if the part before `yield` raises, the body is not run and nothing else happens;
otherwise the body runs and `finally` is executed in any case.
Code: meshmode/dof_array.py:580-601. -/
def CtxProg.exec {C : Type} : CtxProg C → Option C → List (CtxEv C) × Option C × Bool
  | .skip, s => ([], s, false)
  | .withCtx a body, s =>
      match ctxStep s (.enter a) with
      | (s', .refused) => ([.enter a], s', true)
      | (s', _) =>
        let r := body.exec s'
        (.enter a :: r.1 ++ [.leave], (ctxStep r.2.1 .leave).1, r.2.2)
  | .pickle, s => ([.read], s, s.isNone)
  | .raise, s => ([], s, true)
  | .seq p q, s =>
      let r := p.exec s
      if r.2.2 then r else
        let r' := q.exec r.2.1
        (r.1 ++ r'.1, r'.2)
  | .tryExcept p q, s =>
      let r := p.exec s
      if r.2.2 then
        let r' := q.exec r.2.1
        (r.1 ++ r'.1, r'.2)
      else r

/-! ## Specification: lexical scoping -/

/-- The context seen by each pickling operation, and whether the program raises, if the context
were an argument instead of a variable: `env` is the context of the enclosing `with`.
(Specification or proof vocabulary, no code.) -/
def CtxProg.scoped {C : Type} : CtxProg C → Option C → List (Option C) × Bool
  | .skip, _ => ([], false)
  | .withCtx a body, none => body.scoped (some a)
  | .withCtx _ _, some _ => ([], true)
  | .pickle, env => ([env], env.isNone)
  | .raise, _ => ([], true)
  | .seq p q, env =>
      if (p.scoped env).2 then p.scoped env
      else ((p.scoped env).1 ++ (q.scoped env).1, (q.scoped env).2)
  | .tryExcept p q, env =>
      if (p.scoped env).2 then ((p.scoped env).1 ++ (q.scoped env).1, (q.scoped env).2)
      else p.scoped env

/-- The values read. (Specification or proof vocabulary, no code.) -/
def ctxValues {C : Type} (obs : List (CtxObs C)) : List (Option C) :=
  obs.filterMap fun o => match o with | .value v => some v | _ => none

/-! ## Proofs -/

/-- The state after a list of events. (Specification or proof vocabulary, no code.) -/
def ctxFinal {C : Type} (s : Option C) (es : List (CtxEv C)) : Option C :=
  es.foldl (fun s e => (ctxStep s e).1) s

theorem ctxRun_append {C : Type} (s : Option C) (es es' : List (CtxEv C)) :
    ctxRun s (es ++ es') = ctxRun s es ++ ctxRun (ctxFinal s es) es' := by
  induction es generalizing s with
  | nil => rfl
  | cons e es ih => simp only [List.cons_append, ctxRun, ih, ctxFinal, List.foldl_cons]

theorem ctxFinal_append {C : Type} (s : Option C) (es es' : List (CtxEv C)) :
    ctxFinal s (es ++ es') = ctxFinal (ctxFinal s es) es' := by
  simp [ctxFinal]

/-- C36: whatever a program does, normally or by exception, it leaves the variable as it was; in
particular the context is gone after the `with`, and a refused inner `with` does not disturb the
outer one. -/
theorem C36_restored {C : Type} (p : CtxProg C) (s : Option C) : (p.exec s).2.1 = s := by
  induction p generalizing s with
  | skip => rfl
  | withCtx a body ih =>
    cases s with
    | some b => rfl
    | none => simp [CtxProg.exec, ctxStep]
  | pickle => rfl
  | raise => rfl
  | seq p q ihp ihq =>
    simp only [CtxProg.exec]
    split
    · exact ihp s
    · rw [ihq, ihp]
  | tryExcept p q ihp ihq =>
    simp only [CtxProg.exec]
    split
    · rw [ihq, ihp]
    · exact ihp s

/-- The events of a program, replayed, end in the state of the program. -/
theorem exec_final {C : Type} (p : CtxProg C) (s : Option C) :
    ctxFinal s (p.exec s).1 = s := by
  induction p generalizing s with
  | skip => rfl
  | withCtx a body ih =>
    cases s with
    | some b => rfl
    | none =>
      simp only [CtxProg.exec, ctxStep]
      rw [ctxFinal_append]
      simp [ctxFinal, ctxStep]
  | pickle => rfl
  | raise => rfl
  | seq p q ihp ihq =>
    simp only [CtxProg.exec]
    split
    · exact ihp s
    · rw [ctxFinal_append, ihp, C36_restored, ihq]
  | tryExcept p q ihp ihq =>
    simp only [CtxProg.exec]
    split
    · rw [ctxFinal_append, ihp, C36_restored, ihq]
    · exact ihp s

theorem ctxValues_append {C : Type} (l l' : List (CtxObs C)) :
    ctxValues (l ++ l') = ctxValues l ++ ctxValues l' := by simp [ctxValues]

/-- C36: every pickling operation sees the context of the enclosing `with`; nested ones raise. -/
theorem C36_scoped {C : Type} (p : CtxProg C) (s : Option C) :
    ctxValues (ctxRun s (p.exec s).1) = (p.scoped s).1 ∧ (p.exec s).2.2 = (p.scoped s).2 := by
  induction p generalizing s with
  | skip => exact ⟨rfl, rfl⟩
  | withCtx a body ih =>
    cases s with
    | some b => exact ⟨rfl, rfl⟩
    | none =>
      simp only [CtxProg.exec, ctxStep, CtxProg.scoped]
      refine ⟨?_, (ih (some a)).2⟩
      rw [ctxRun_append, ctxValues_append, ← (ih (some a)).1]
      simp [ctxRun, ctxValues, ctxStep]
  | pickle => exact ⟨rfl, rfl⟩
  | raise => exact ⟨rfl, rfl⟩
  | seq p q ihp ihq =>
    simp only [CtxProg.exec, CtxProg.scoped]
    rw [(ihp s).2]
    split
    · exact ihp s
    · rw [C36_restored]
      refine ⟨?_, (ihq s).2⟩
      simp only
      rw [ctxRun_append, ctxValues_append, exec_final, (ihp s).1, (ihq s).1]
  | tryExcept p q ihp ihq =>
    simp only [CtxProg.exec, CtxProg.scoped]
    rw [(ihp s).2]
    split
    · rw [C36_restored]
      refine ⟨?_, (ihq s).2⟩
      simp only
      rw [ctxRun_append, ctxValues_append, exec_final, (ihp s).1, (ihq s).1]
    · exact ihp s

/-- C36: threads do not see each other: in any interleaving each thread observes what it would
observe alone. -/
theorem C36_threads {C T : Type} [DecidableEq T] (σ : T → Option C) (es : List (T × CtxEv C))
    (t : T) :
    ((ctxRunAll σ es).filter fun p => decide (p.1 = t)).map Prod.snd =
      ctxRun (σ t) ((es.filter fun p => decide (p.1 = t)).map Prod.snd) := by
  induction es generalizing σ with
  | nil => rfl
  | cons p es ih =>
    obtain ⟨t', e⟩ := p
    rw [ctxRunAll]
    by_cases h : t' = t
    · subst h
      simp only [decide_true, List.filter_cons_of_pos, List.map_cons, ctxRun]
      rw [ih, Function.update_self]
    · rw [List.filter_cons_of_neg (by simpa using h), List.filter_cons_of_neg (by simpa using h),
        ih, Function.update_of_ne (Ne.symm h)]

/-- C36: all threads running programs, interleaved in any way, starting without contexts: each
pickling operation of each thread sees the context of the enclosing `with` of its own thread. -/
theorem C36_all_schedules {C T : Type} [DecidableEq T] (progs : T → CtxProg C)
    (es : List (T × CtxEv C))
    (hes : ∀ t, (es.filter fun p => decide (p.1 = t)).map Prod.snd = ((progs t).exec none).1)
    (t : T) :
    ctxValues (((ctxRunAll (fun _ => none) es).filter fun p => decide (p.1 = t)).map Prod.snd) =
      ((progs t).scoped none).1 := by
  rw [C36_threads, hes t]
  exact (C36_scoped (progs t) none).1

/-- Pickling twice, with a refused inner `with` in between, then once outside. -/
def exCtxProg : CtxProg Nat :=
  .tryExcept (.seq (.withCtx 7 (.seq .pickle (.seq (.tryExcept (.withCtx 8 .pickle) .skip) .pickle)))
    .pickle) .skip

example : exCtxProg.scoped none = ([some 7, some 7, none], false) ∧
    (exCtxProg.exec none).1 = [.enter 7, .read, .enter 8, .read, .leave, .read] := ⟨rfl, rfl⟩

/-- Two threads interleaved. -/
example : ctxRunAll (T := Nat) (C := Nat) (fun _ => none)
    [(0, .enter 5), (1, .read), (1, .enter 6), (0, .read), (0, .leave), (1, .read)] =
    [(0, .entered), (1, .value none), (1, .entered), (0, .value (some 5)), (0, .left),
      (1, .value (some 6))] := by decide

end Meshmode
