import Verif.Calls.Props

/-!
Decorated generator functions (`def f(): ... yield ...`, also asynchronous ones).

`inspect.iscoroutinefunction` is false for them, so they get the ordinary wrapper (function_logger.py:85-110, unlog.py:93-100). Calling a
generator function runs nothing of its body: the call returns a generator object at once. The body runs later, in the code that
iterates over it, when the wrapper has ended.
-/

namespace Polog
open CallSpec

/-- The code calls a generator function of this kind with the body `b` and iterates over the generator `gen` to its end. Simplified:
what the caller does between the elements is left out.
The wrappers are function_logger.py:85-105 and unlog.py:95-100. -/
def generatorCall (kind : Kind) (gen : Val) (b : Body) (k : Outcome → Body) : Body :=
  .call kind (.ret gen) fun
    | .ret _ => .call .plain b k
    | .raised e => k (.raised e)

/-- **C29** for generators: `@unlog` does nothing to the body of a generator function: everything in it is logged as without `@unlog`. -/
theorem C29_generator_body_runs_as_without_unlog (env : CEnv) (full : Option Bool) (gen : Val) (b : Body) (k : Outcome → Body)
    (s : CallState) (hs : s.unlog = none) :
    (generatorCall (.unlogged full) gen b k).run env s = (Body.call .plain b k).run env s := by
  have : ({ s with unlog := none } : CallState) = s := by rw [← hs]
  simp only [generatorCall, Body.run]
  rw [this]

/-- **C29 fails for generators**: the same body records nothing in an unlogged function and something in an unlogged generator function. -/
theorem C29_unlogged_generator_logs_fails : ∃ (env : CEnv) (gen : Val) (b : Body), Valid env b ∧ NoUnlog b ∧
    ((Body.call (.unlogged (some true)) b andReturn).run env .init).2.records = [] ∧
    ((generatorCall (.unlogged (some true)) gen b andReturn).run env .init).2.records ≠ [] :=
  ⟨cEnv, cVal, .call (.logged (cDeco 9) (cFn "f")) (.ret cVal) andReturn,
    ⟨trivial, .inr ⟨9, rfl, by decide⟩, rfl, rfl, trivial⟩, ⟨(fun _ h => nomatch h), trivial, fun o => by cases o <;> trivial⟩,
    by decide +kernel, by decide +kernel⟩

/-- **C25 fails for generators**: whatever a decorated generator function does when it is iterated over, the only record of the call says that it
returned the generator (and this before the body has begun); here the body raises an exception, which nobody records. -/
theorem C25_failing_generator_is_recorded_as_success_fails : ∃ (env : CEnv) (d : Deco) (info : FnInfo) (gen : Val) (e : Exc),
    Valid env (generatorCall (.logged d info) gen (.raise e) andReturn) ∧ Passes env d (.raised e) ∧ e.isException = true ∧
    ((generatorCall (.logged d info) gen (.raise e) andReturn).run env .init).1 = .raised e ∧
    ((generatorCall (.logged d info) gen (.raise e) andReturn).run env .init).2.records.map Rec.origin = [.auto info (.ret gen)] :=
  ⟨cEnv, cDeco 9, cFn "f", cVal, cExc, ⟨trivial, .inr ⟨9, rfl, by decide⟩, rfl, rfl, trivial, trivial⟩,
    ⟨9, errorsLevel_spec cEnv (cDeco 9), by decide⟩, rfl, by decide +kernel, by decide +kernel⟩

/-- **C25** for generators: the record of a call of a decorated generator function does not depend on its body at all. -/
theorem C25_record_of_a_generator_is_made_before_its_body (env : CEnv) (d : Deco) (info : FnInfo) (gen : Val) (b : Body) (k : Outcome → Body)
    (s : CallState) (o : Outcome) (s' : CallState)
    (h : loggedEnd env d info (.ret gen) { s with msg := none } = (o, s')) :
    (generatorCall (.logged d info) gen b k).run env s =
      match o with
      | .ret _ => (Body.call .plain b k).run env s'
      | .raised e => (k (.raised e)).run env s' := by
  simp only [generatorCall, Body.run, h]
  cases o <;> simp only [Body.run]

example : ∃ s', loggedEnd cEnv (cDeco 9) (cFn "f") (.ret cVal) { CallState.init with msg := none } = (.ret cVal, s') := ⟨_, rfl⟩

end Polog
