import Verif.Router.Lemmas3
import Verif.Router.Props
import Mathlib.Tactic.ByContra

/-! C32: nested `with log` blocks. -/

namespace Polog
open HandleSpec RouterSpec

/-- A block begins exactly if its beginning does not raise (partial.py:50-54). -/
theorem begins_iff (env : HEnv) (p : Partial) : Begins env p ↔ (p.prepare env (freshFin env)).2 = none := by
  constructor
  · intro h; rw [prepare_eq h]
  · intro h
    by_contra hn
    have hb : ∃ excs, p.before = some excs ∧ ¬ (env.silent = true ∨ SuppressArg.wrong ∉ excs) := by
      unfold Begins at hn
      rw [not_or] at hn
      obtain ⟨h1, h2⟩ := hn
      simp only [not_forall] at h2
      obtain ⟨excs, e, h3⟩ := h2
      exact ⟨excs, e, by rw [not_or]; exact ⟨h1, h3⟩⟩
    obtain ⟨excs, e, h3⟩ := hb
    unfold Partial.prepare at h
    rw [call_entered rfl, show editOf env [] p.kwargs = some p.kwargs from rfl] at h
    dsimp only at h
    rw [e] at h
    dsimp only at h
    rw [suppress_error _ h3] at h
    cases h

/-- **C32.** Take any interleaving of the steps of any number of tasks, and in it a block of task `t` begun by
`with log…` after the steps `pre`; inside the block (steps `mid`) the task opens and closes other blocks in a balanced
way. Then the end of the block is the end of this very block — the one with this number, whatever the other tasks have
done meanwhile — with the fields and the classes to suppress that were asked for at its beginning and later through
its own context object, and nothing else.

Partial: new tasks may be made only outside of blocks, and no `with log.suppress(...)` raises while it begins (see the
theorems `…_fails` below). -/
theorem C32_blocks_pair_up_partial (env : HEnv) (t : Nat) (p : Partial) (pre mid : List CtxOp) (out : Outcome)
    (hs : SpawnsOutside env (pre ++ .enter t p :: mid)) (hp : Begins env p) (hm : Balanced env t mid) :
    let s := CtxState.run env (pre ++ .enter t p :: mid) (.init env)
    ∃ f, s.top t = some (begun pre) ∧
      (s.step env (.exit t out)).done = s.done ++ [(begun pre, out, f)] ∧
      f.Has (fieldsAfter env (begun pre) (firstFields env p) mid)
        (p.before.toList ++ suppressAfter env (begun pre) mid) ∧
      f.entered = true := by
  intro s
  have hsafe := spawnSafe_of _ hs
  obtain ⟨h1, h2⟩ := spawnSafe_append.1 hsafe
  have sep0 : (CtxState.run env pre (.init env)).Sep := run_sep (init_sep env) h1
  obtain ⟨sep1, st1⟩ := step_stack env sep0 h2.1
  have hst := balanced_stack hm sep1 h2.2
  rw [st1] at hst
  have hnext : (CtxState.run env pre (.init env)).nextFin = begun pre := by
    rw [run_nextFin]; exact Nat.zero_add _
  have hs' : s = CtxState.run env mid ((CtxState.run env pre (.init env)).step env (.enter t p)) := by
    show CtxState.run env (pre ++ .enter t p :: mid) (.init env) = _
    rw [run_append, CtxState.run]
  have hstack : s.stackOf t = (CtxState.run env pre (.init env)).stackOf t ++ [begun pre] := by
    rw [hs', hst, ← hnext]; exact if_pos rfl
  have hfin : (s.fins (begun pre)).In (fieldsAfter env (begun pre) (firstFields env p) mid)
      (p.before.toList ++ suppressAfter env (begun pre) mid) := by
    rw [hs']
    refine run_fin mid _ ?_ ?_
    · rw [step_nextFin, hnext]; simp [begun]
    · have e : ((CtxState.run env pre (.init env)).step env (.enter t p)).fins (begun pre) =
          (p.prepare env (freshFin env)).1 := by
        rw [← hnext]
        simp only [CtxState.step]
        cases (CtxState.run env pre (.init env)).var t <;> exact if_pos rfl
      rw [e, prepare_eq hp]
      exact ⟨prepared_has, rfl⟩
  have hvar : ∃ l, s.var t = some l ∧ s.lists l = (CtxState.run env pre (.init env)).stackOf t ++ [begun pre] := by
    unfold CtxState.stackOf at hstack
    rcases Option.eq_none_or_eq_some (s.var t) with e | ⟨l, e⟩
    · rw [e] at hstack
      exact absurd hstack.symm (by simp)
    · rw [e] at hstack
      exact ⟨l, e, hstack⟩
  obtain ⟨l, hl, hll⟩ := hvar
  have hlast : (s.lists l).getLast? = some (begun pre) := by rw [hll, List.getLast?_concat]
  refine ⟨s.fins (begun pre), ?_, ?_, hfin.has, hfin.entered⟩
  · unfold CtxState.top; rw [hl]; exact hlast
  · have : s.step env (.exit t out) =
        { s with
          lists := fun k => if k = l then (s.lists l).dropLast else s.lists k
          var := fun u => if u = t ∧ (s.lists l).dropLast = [] then none else s.var u
          done := s.done ++ [(begun pre, out, s.fins (begun pre))] } := by
      simp only [CtxState.step, hl, hlast]
    rw [this]

/-- **C32** and **C31** together: the record made at that end is the one of this block. -/
theorem C32_record_of_a_nested_block_partial (env : CEnv) (t : Nat) (p : Partial) (pre mid : List CtxOp) (out : Outcome)
    (hs : SpawnsOutside env.h (pre ++ .enter t p :: mid)) (hp : Begins env.h p) (hm : Balanced env.h t mid)
    (hpr : CallSpec.Printable out)
    (hv : ValidCall simpleLogger env.h [] (fieldsAfter env.h (begun pre) (firstFields env.h p) mid)) (c : CallState) :
    let s := CtxState.run env.h (pre ++ .enter t p :: mid) (.init env.h)
    ∃ f, (s.step env.h (.exit t out)).done = s.done ++ [(begun pre, out, f)] ∧
      RecordsOnce env (fieldsAfter env.h (begun pre) (firstFields env.h p) mid)
        (p.before.toList ++ suppressAfter env.h (begun pre) mid) out c (f.exit env out c) := by
  intro s
  obtain ⟨f, _, h2, h3, h4⟩ := C32_blocks_pair_up_partial env.h t p pre mid out hs hp hm
  exact ⟨f, h2, exit_recordsOnce h3 h4 hpr hv c⟩

/-- `with log:`. -/
def plainLog : Partial := ⟨[], none⟩

-- two tasks, nested blocks, an edit of the outer one from the inner one
example : let pre := [CtxOp.enter 1 plainLog]
    let mid := [CtxOp.enter 1 plainLog, .enter 0 plainLog, .edit 1 [.str "hi".toList] [], .exit 1 (.ret cVal),
      .exit 0 (.ret cVal)]
    SpawnsOutside cEnv.h (pre ++ .enter 0 plainLog :: mid) ∧ Balanced cEnv.h 0 mid ∧ begun pre = 1 ∧
      fieldsAfter cEnv.h 1 (firstFields cEnv.h plainLog) mid =
        [("time".toList, .other 0), ("message".toList, .str "hi".toList)] := by
  dsimp only
  refine ⟨?_, ?_, rfl, rfl⟩
  · intro pre t u post h
    have : CtxOp.spawn t u ∈ [CtxOp.enter 1 plainLog] ++ CtxOp.enter 0 plainLog :: [CtxOp.enter 1 plainLog,
        .enter 0 plainLog, .edit 1 [.str "hi".toList] [], .exit 1 (.ret cVal), .exit 0 (.ret cVal)] := by
      rw [h]; simp
    simp at this
  · refine .other _ _ (by decide : (1 : Nat) ≠ 0) ?_
    exact .block plainLog [.edit 1 [.str "hi".toList] [], .exit 1 (.ret cVal)] _ []
      (Or.inr fun _ h => nomatch h)
      (.other _ _ trivial (.other _ _ (by decide : (1 : Nat) ≠ 0) .nil)) .nil

/-- **C32** fails when a task is made inside a block: the new task shares the stack. Task 0 enters a block and makes
task 1, which enters a block of its own; then the end of the block of task 0 ends the block of task 1. -/
theorem C32_task_made_inside_a_block_fails :
    ¬ ∀ (env : HEnv) (t : Nat) (p : Partial) (pre mid : List CtxOp), Begins env p → Balanced env t mid →
      (CtxState.run env (pre ++ .enter t p :: mid) (.init env)).top t = some (begun pre) := by
  intro h
  have := h cEnv.h 0 plainLog [] [.spawn 0 1, .enter 1 plainLog] (Or.inr fun _ h => nomatch h)
    (.other _ _ trivial (.other _ _ (by decide : (1 : Nat) ≠ 0) .nil))
  exact absurd this (by decide)

/-- **C32** fails after a `with log.suppress(...)` that raises while it begins (`with log: try: with log.suppress(5): …
except ValueError: …`): the end of the outer block ends the inner one, which was never begun for the user. -/
theorem C32_block_that_does_not_begin_fails :
    ¬ ∀ (env : HEnv) (t : Nat) (p q : Partial) (pre : List CtxOp), Begins env p → ¬ Begins env q →
      (CtxState.run env (pre ++ [.enter t p, .enter t q]) (.init env)).top t = some (begun pre) := by
  intro h
  have := h cEnv.h 0 plainLog ⟨[], some [.wrong]⟩ [] (Or.inr fun _ h => nomatch h)
    (by
      rintro (h | h)
      · exact absurd h (by decide)
      · exact h _ rfl (by simp))
  exact absurd this (by decide)

end Polog
