import Verif.LogItem.Model

/-!
An interrupt (Ctrl-C) while a log is processed by the synchronous engine: `LogItem.__call__`,
`log_item.py:151-194`, executed by the main thread.  The moment of the interrupt is a number of
actions that are still done before it; `none` means that it has already come.
-/

namespace Polog

variable {V : Type}

/-- The body of a handler, interrupted before the action with the given number. Called at log_item.py:167-171. -/
def Prog.runInt {E : Type} : Option Nat → Prog V E → LogItem V → LogItem V × List E × Ending × Option Nat
  | some 0, _, l => (l, [], .raised, none)
  | n, .ret, l => (l, [], .returned, n.map (· - 1))
  | n, .throw, l => (l, [], .raised, n.map (· - 1))
  | n, .op o k, l => let r := l.op o; (k r.2).runInt (n.map (· - 1)) r.1
  | n, .emit e k, l => let r := k.runInt (n.map (· - 1)) l; (r.1, e :: r.2.1, r.2.2)

/-- `call_one_handler`, `log_item.py:166-171`: the bare `except` of `exception_escaping`
(`exception_escaping.py:15`) catches `KeyboardInterrupt` as well. -/
def callOneHandlerInt {E : Type} (n : Option Nat) (h : Prog V E) (l : LogItem V) :
    LogItem V × List E × Option Nat :=
  let r := h.runInt n l
  (r.1, r.2.1, r.2.2.2)

/-- `call_handlers`, `log_item.py:159-164`.  An interrupt that comes between two handlers is caught by
nobody and ends the loop. -/
def callHandlersInt {H E : Type} (body : H → Prog V E) :
    Option Nat → List H → LogItem V → LogItem V × List (CallRecord H V E) × Ending × Option Nat
  | some 0, _, l => (l, [], .raised, none)
  | n, [], l => (l, [], .returned, n)
  | n, h :: hs, l =>
    let r := callOneHandlerInt (n.map (· - 1)) (body h) l
    let r' := callHandlersInt body r.2.2 hs r.1
    (r'.1, ⟨h, l, r.2.1⟩ :: r'.2.1, r'.2.2)

/-- `extract_extra_fields_from`, `log_item.py:179-194`: an interrupt inside `get_data` is caught by the
bare `except` of line 193, one between two fields is not.  The ending is `.raised` if it was not. -/
def extractFromInt (inter : Bool) :
    Option Nat → List (Str × Extractor V) → Dict Str V → Dict Str V × Ending × Option Nat
  | some 0, _, data => (data, .raised, none)
  | n, [], data => (data, .returned, n)
  | some 1, (name, _) :: rest, data =>
    -- the next thing that happens is the interrupt, inside `get_data` if it is called
    if !(Dict.has name data) || inter then extractFromInt inter none rest data else (data, .raised, none)
  | n, (name, field) :: rest, data =>
    if !(Dict.has name data) || inter then
      match field data with
      | .ok value => extractFromInt inter (n.map (· - 2)) rest (Dict.set name value data)
      | .error _ => extractFromInt inter (n.map (· - 2)) rest data
    else extractFromInt inter (n.map (· - 2)) rest data

/-- `LogItem.__call__`, `log_item.py:151-157`. -/
def processLogInt {H E : Type} (inter : Bool) (engineFields : List (Str × Extractor V))
    (body : H → Prog V E) (handlers : List H) (l : LogItem V) (n : Option Nat) :
    LogItem V × List (CallRecord H V E) × Ending × Option Nat :=
  match extractFromInt inter n engineFields l.dict with
  | (data, .raised, n') => (⟨some data⟩, [], .raised, n')
  | (data, .returned, n') => callHandlersInt body n' handlers ⟨some data⟩

/-! ### What holds -/

theorem Prog.runInt_none {E : Type} (h : Prog V E) (l : LogItem V) :
    h.runInt none l = ((h.run l).1, (h.run l).2.1, (h.run l).2.2, none) := by
  induction h generalizing l with
  | ret => rfl
  | throw => rfl
  | op o k ih => simp only [Prog.runInt, Prog.run, Option.map_none]; rw [ih]
  | emit e k ih => simp only [Prog.runInt, Prog.run, Option.map_none]; rw [ih]

theorem callHandlersInt_shape {H E : Type} (body : H → Prog V E) (hs : List H) (n : Option Nat)
    (l : LogItem V) :
    ((callHandlersInt body n hs l).2.2.1 = .returned ∧
      (callHandlersInt body n hs l).2.1.map (·.handler) = hs) ∨
    ((callHandlersInt body n hs l).2.2 = (.raised, none) ∧ n ≠ none ∧
      (callHandlersInt body n hs l).2.1.map (·.handler) <+: hs) := by
  induction hs generalizing n l with
  | nil =>
    cases n with
    | none => exact .inl ⟨rfl, rfl⟩
    | some n =>
      cases n with
      | zero => exact .inr ⟨rfl, by simp, List.nil_prefix⟩
      | succ n => exact .inl ⟨rfl, rfl⟩
  | cons h hs ih =>
    cases n with
    | none =>
      simp only [callHandlersInt, callOneHandlerInt, Option.map_none, Prog.runInt_none]
      rcases ih none ((body h).run l).1 with ⟨a, b⟩ | ⟨_, a, _⟩
      · exact .inl ⟨a, by simp [b]⟩
      · exact absurd rfl a
    | some n =>
      cases n with
      | zero => exact .inr ⟨rfl, by simp, List.nil_prefix⟩
      | succ n =>
        simp only [callHandlersInt]
        generalize callOneHandlerInt ((some (n + 1)).map (· - 1)) (body h) l = r
        rcases ih r.2.2 r.1 with ⟨a, b⟩ | ⟨a, _, b⟩
        · exact .inl ⟨a, by simp [b]⟩
        · exact .inr ⟨a, by simp, by simpa using b⟩

/-- **C82.** An interrupt while a log is being processed by the synchronous engine, at whatever moment:
no handler is called twice or out of order.  If the program is not told of an interrupt, every
handler of the log is called; if it is, those handlers that were called are the first ones. -/
theorem C82_interrupt_during_processing {H E : Type} (inter : Bool)
    (engineFields : List (Str × Extractor V)) (body : H → Prog V E) (handlers : List H) (l : LogItem V)
    (n : Nat) :
    let r := processLogInt inter engineFields body handlers l (some n)
    (r.2.2.1 = .returned ∧ r.2.1.map (·.handler) = handlers) ∨
    (r.2.2 = (.raised, none) ∧ r.2.1.map (·.handler) <+: handlers) := by
  intro r
  have hx : ∀ m (fs : List (Str × Extractor V)) data, (extractFromInt inter m fs data).2.1 = .raised →
      (extractFromInt inter m fs data).2.2 = (none : Option Nat) := by
    intro m fs
    induction fs generalizing m with
    | nil =>
      intro data
      match m with
      | none => intro h; cases h
      | some 0 => intro _; rfl
      | some (m + 1) => intro h; simp [extractFromInt] at h
    | cons f fs ih =>
      intro data
      obtain ⟨name, field⟩ := f
      match m with
      | some 0 => intro _; rfl
      | some 1 =>
        simp only [extractFromInt]
        split
        · exact ih none data
        · intro _; rfl
      | none =>
        simp only [extractFromInt]
        split
        · split
          · exact ih _ _
          · exact ih _ _
        · exact ih _ _
      | some (m + 2) =>
        simp only [extractFromInt]
        split
        · split
          · exact ih _ _
          · exact ih _ _
        · exact ih _ _
  have := hx (some n) engineFields l.dict
  show (_ ∨ _)
  unfold r processLogInt
  generalize extractFromInt inter (some n) engineFields l.dict = x at this ⊢
  obtain ⟨data, ending, m⟩ := x
  cases ending with
  | raised =>
    have : m = none := this rfl
    subst this
    exact .inr ⟨rfl, List.nil_prefix⟩
  | returned =>
    rcases callHandlersInt_shape body handlers m ⟨some data⟩ with h | ⟨a, _, b⟩
    · exact .inl h
    · exact .inr ⟨a, b⟩

/-- **C82.** The model with interrupts is the model of the processing if none comes. -/
theorem C82_processing_without_interrupt {H E : Type} (inter : Bool)
    (engineFields : List (Str × Extractor V)) (body : H → Prog V E) (handlers : List H) (l : LogItem V) :
    processLogInt inter engineFields body handlers l none =
      ((processLog inter engineFields body handlers l).1, (processLog inter engineFields body handlers l).2.1,
       .returned, none) ∧ (processLog inter engineFields body handlers l).2.2 = .returned := by
  have hf : ∀ (fs : List (Str × Extractor V)) data, extractFromInt inter none fs data = (extractFrom inter fs data, .returned, none) := by
    intro fs
    induction fs with
    | nil => intro data; rfl
    | cons f fs ih =>
      intro data
      obtain ⟨name, field⟩ := f
      simp only [extractFromInt, extractFrom, Option.map_none]
      split
      · split
        · next h => rw [ih, h]
        · next h => rw [ih, h]
      · rw [ih]
  have hh : ∀ hs l, callHandlersInt body none hs l =
      ((callHandlers body hs l).1, (callHandlers body hs l).2.1, .returned, none) ∧
      (callHandlers body hs l).2.2 = .returned := by
    intro hs
    induction hs with
    | nil => intro l; exact ⟨rfl, rfl⟩
    | cons h hs ih =>
      intro l
      have e : (callOneHandler (body h) l).2.2 = .returned := by
        show escaping ((body h).run l).2.2 = .returned
        cases ((body h).run l).2.2 <;> rfl
      simp only [callHandlersInt, callOneHandlerInt, Option.map_none, Prog.runInt_none, callHandlers]
      generalize hr : callOneHandler (body h) l = r at e
      obtain ⟨l', eff, en⟩ := r
      dsimp only at e
      subst e
      have h1 : ((body h).run l).1 = l' := by have := congrArg (·.1) hr; exact this
      have h2 : ((body h).run l).2.1 = eff := by have := congrArg (·.2.1) hr; exact this
      obtain ⟨i1, i2⟩ := ih l'
      simp only [h1, h2, i1, i2, and_self]
  unfold processLogInt processLog
  rw [hf]
  exact hh _ _

/-- **C82 fails.** Ctrl-C while a handler is at work is lost: the log call returns normally, the
program goes on as if nothing had been pressed, and the handler has done only a part of its work. -/
theorem C82_interrupt_in_a_handler_is_swallowed_fails :
    ∃ (body : Nat → Prog Nat Nat) (l : LogItem Nat),
      processLogInt true [] body [1, 2] l (some 2) = (⟨some l.dict⟩,
        [⟨1, ⟨some l.dict⟩, [10]⟩, ⟨2, ⟨some l.dict⟩, [20, 21]⟩], .returned, none) ∧
      (processLogInt true [] body [1, 2] l none).2.1 =
        [⟨1, ⟨some l.dict⟩, [10, 11]⟩, ⟨2, ⟨some l.dict⟩, [20, 21]⟩] :=
  ⟨fun h => .emit (10 * h) (.emit (10 * h + 1) .ret), ⟨some []⟩, rfl, rfl⟩

/-- An interrupt between two handlers reaches the program; the second handler is not called. -/
example : processLogInt (V := Nat) (E := Nat) true [] (fun h : Nat => .emit (10 * h) .ret) [1, 2]
    ⟨some []⟩ (some 3) = (⟨some []⟩, [⟨1, ⟨some []⟩, [10]⟩], .raised, none) := rfl

end Polog
