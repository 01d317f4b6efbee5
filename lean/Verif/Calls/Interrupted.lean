import Verif.Calls.Props
import Verif.Calls.InterruptedSpec

/-! C113: calls that are ended by something that is not an `Exception`: Ctrl-C, `sys.exit()`, the cancellation of an asyncio task
(`asyncio.CancelledError`), the closing of a generator. Decorators catch `Exception` only (function_logger.py:72, 95), `with` blocks get
everything (finalizer.py:84). -/

namespace Polog
open CallSpec

theorem loggedEnd_noInterrupt (env : CEnv) (d : Deco) (info : FnInfo) (o : Outcome) {s : CallState} (h : NoInterruptRecorded s) :
    NoInterruptRecorded (loggedEnd env d info o s).2 := by
  cases o with
  | ret v =>
    have : NoInterruptRecorded (logNormal env d info v s).2 := by
      unfold logNormal
      split
      · exact h
      · split
        · exact h
        · split
          · split
            · exact h
            · dsimp only
              split
              · exact h
              · intro r hr info' e' ho
                rcases List.mem_append.1 hr with hr | hr
                · exact h r hr info' e' ho
                · rw [List.mem_singleton.1 hr] at ho; cases ho
          · exact h
    unfold loggedEnd
    dsimp only
    split <;> rename_i hl <;> rw [hl] at this <;> exact this
  | raised e =>
    rw [loggedEnd_snd]
    split
    · rename_i he
      unfold logException
      split
      · exact h
      · split
        · dsimp only
          split
          · split
            · intro r hr info' e' ho
              rcases List.mem_append.1 hr with hr | hr
              · exact h r hr info' e' ho
              · rw [List.mem_singleton.1 hr] at ho
                injection ho with _ ho
                injection ho with ho
                rw [← ho]; exact he
            · exact h
          · exact h
        · exact h
    · exact h

theorem blockEnd_noInterrupt (env : CEnv) (o : BlockOpts) (out : Outcome) {s : CallState} (h : NoInterruptRecorded s) :
    NoInterruptRecorded (blockEnd env o out s).2 := by
  have key : ∀ l : List (Dict Str HVal), ∀ r ∈ s.records ++ l.map (fun data => (⟨.block out, data⟩ : Rec)), ∀ info e,
      r.origin = .auto info (.raised e) → e.isException = true := by
    intro l r hr info' e' ho
    rcases List.mem_append.1 hr with hr | hr
    · exact h r hr info' e' ho
    · obtain ⟨x, _, rfl⟩ := List.mem_map.1 hr
      cases ho
  unfold blockEnd
  split
  · dsimp only
    split
    · exact key _
    · split
      · exact key _
      · split <;> exact key _
  · exact h

/-- **C113**: whatever the code does, no decorator ever makes a record of a call that ended by something that is not an `Exception`: a call
interrupted by Ctrl-C, `sys.exit()` or the cancellation of its task leaves no trace in the log. -/
theorem C113_interrupted_calls_are_not_recorded (env : CEnv) (b : Body) (s : CallState) (h : NoInterruptRecorded s) :
    NoInterruptRecorded (b.run env s).2 := by
  induction b generalizing s with
  | ret v => exact h
  | raise e => exact h
  | call kind b k ihb ihk =>
    cases kind with
    | plain => exact ihk _ _ (ihb s h)
    | logged d info => exact ihk _ _ (loggedEnd_noInterrupt env d info _ (ihb { s with msg := none } h))
    | unlogged full => exact ihk _ { (b.run env { s with unlog := some full }).2 with unlog := none } (ihb { s with unlog := some full } h)
  | block o b k ihb ihk => exact ihk _ _ (blockEnd_noInterrupt env o _ (ihb s h))
  | msg args kwargs k ih =>
    simp only [Body.run]
    split
    · exact ih _ s h
    · exact ih _ s h
    · exact ih _ { s with msg := _ } h
  | manual args kwargs k ih =>
    refine ih _ _ ?_
    intro r hr info' e' ho
    rcases List.mem_append.1 hr with hr | hr
    · exact h r hr info' e' ho
    · obtain ⟨x, _, rfl⟩ := List.mem_map.1 hr
      cases ho

example : NoInterruptRecorded .init := fun _ h => nomatch h

theorem chain_interrupted (env : CEnv) (e : Exc) (he : e.isException = false) (ds : List (Deco × FnInfo)) (b : Body) (s s' : CallState)
    (h : ∀ m, b.run env { s with msg := m } = (.raised e, s')) (m : Option (Dict Str HVal)) :
    (callChain b ds).run env { s with msg := m } = (.raised e, s') := by
  induction ds generalizing b m with
  | nil => exact h m
  | cons x rest ih =>
    refine ih _ ?_ m
    intro m
    simp only [Body.run, h none, loggedEnd, he, Bool.false_eq_true, if_false, andReturn]

/-- **C113**: no decorator holds up an interrupt, whatever it was told to suppress: an interrupt that leaves a function leaves any number of decorated
functions around it (each of which returns or raises what it got), and nothing is recorded on the way. -/
theorem C113_interrupts_pass_decorators (env : CEnv) (e : Exc) (he : e.isException = false) (ds : List (Deco × FnInfo)) (hds : ds ≠ []) (b : Body)
    (s s' : CallState) (h : b.run env { s with msg := none } = (.raised e, s')) :
    (callChain b ds).run env s = (.raised e, s') := by
  cases ds with
  | nil => exact absurd rfl hds
  | cons x rest =>
    refine chain_interrupted env e he rest _ s s' ?_ s.msg
    intro m
    simp only [Body.run, h, loggedEnd, he, Bool.false_eq_true, if_false, andReturn]

/-- Ctrl-C. -/
def ctrlC : Exc := ⟨.user 0, 9, "KeyboardInterrupt".toList, some [], false⟩

-- three decorators, one of which is to suppress everything; the function calls a decorated function before it is interrupted
example : ∃ s', (callChain (.call (.logged (cDeco 9) (cFn "k")) (.ret cVal) fun _ => .raise ctrlC)
    [(cDeco 9, cFn "f"), ({ cDeco 9 with suppressAll := true }, cFn "g"), (cDeco 9, cFn "h")]).run cEnv .init = (.raised ctrlC, s') ∧
    s'.records.map Rec.origin = [.auto (cFn "k") (.ret cVal)] := by
  refine ⟨_, C113_interrupts_pass_decorators cEnv ctrlC rfl _ (List.cons_ne_nil _ _) _ .init _ rfl, ?_⟩
  decide +kernel

/-- **C113** fails: "Ctrl-C ends the program": `with log.suppress():` swallows it (finalizer.py:102-104), as well as `with log:` does with
`suppress_by_default`; the code goes on. -/
theorem C113_block_swallows_an_interrupt_fails : ∃ (env : CEnv) (o : BlockOpts) (b : Body), (b.run env .init).1 = .raised ctrlC ∧
    ((Body.block o b andReturn).run env .init).1 = .ret .none ∧
    ((Body.block o b andReturn).run env .init).2.records.map Rec.origin = [.block (.raised ctrlC)] :=
  ⟨cEnv, ⟨[], true, []⟩, .raise ctrlC, rfl, by decide +kernel, by decide +kernel⟩

/-- **C113** (and C28) fails: the message of an interrupted call gets into the record of the function around it: `outer` awaits `inner`, which leaves a
message and is cancelled; `outer` handles the cancellation and returns. -/
theorem C113_message_of_an_interrupted_call_leaks_fails : ∃ (env : CEnv) (b : Body), Valid env b ∧ UnlogFlat env false b ∧
    (b.run env .init).2.records.map (fun r => (r.origin, Dict.get? "message".toList r.data)) =
      [(.auto (cFn "outer") (.ret cVal), some (.str "inside".toList))] ∧
    b = .call (.logged (cDeco 9) (cFn "outer"))
      (.call (.logged (cDeco 9) (cFn "inner")) (.msg [.str "inside".toList] [] fun _ => .raise ctrlC) fun _ => .ret cVal) andReturn := by
  refine ⟨cEnv, _, ?_, ?_, ?_, rfl⟩
  · exact ⟨⟨trivial, .inr ⟨9, rfl, by decide⟩, rfl, rfl, trivial⟩, .inr ⟨9, rfl, by decide⟩, rfl, rfl, trivial⟩
  · exact ⟨⟨trivial, trivial⟩, trivial⟩
  · decide +kernel

end Polog
