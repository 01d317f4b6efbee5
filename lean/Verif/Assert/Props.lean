import Verif.Assert.Model
import Verif.Handle.Props

/-! C34: `ass(expression, message)`. -/

namespace Polog
open HandleSpec

theorem assLog_valid (env : HEnv) (message : Str) :
    ValidCall simpleLogger env [.str message]
      [("exception".toList, .exc 0 "AssertionError".toList message)] where
  positional := by simp
  aliases := by simp [NoAliases]
  right := by
    intro k v h
    simp only [List.mem_cons, List.not_mem_nil, or_false, Prod.mk.injEq] at h
    obtain ⟨rfl, rfl⟩ := h
    exact ⟨by decide, .inl (.exception _ _ _)⟩
  level := by
    intro v h _
    simp only [List.mem_cons, List.not_mem_nil, or_false, Prod.mk.injEq] at h
    exact absurd h.1 (by decide)
  message := by
    intro m v _ h
    simp only [List.mem_cons, List.not_mem_nil, or_false, Prod.mk.injEq] at h
    exact absurd h.1 (by decide)

theorem assLog_raised (env : HEnv) (message : Str) : (assLog env message).raised = none := by
  obtain ⟨n, _, h, _⟩ := C22_log_statement_records_exactly_when_level_passes env _ _
    (.inr ⟨message, rfl⟩) (assLog_valid env message)
  exact h

theorem assMessage_ok (env : HEnv) (expr : AObj) {msgs : List AObj} (h : msgs.length ≤ 1) :
    ∃ m, assMessage env expr msgs = .ok m := by
  unfold assMessage
  rw [if_neg (by omega)]
  dsimp only
  cases msgs with
  | nil => exact ⟨_, rfl⟩
  | cons a l =>
    dsimp only
    cases a.asStr with
    | some s => exact ⟨_, rfl⟩
    | none => cases a.text <;> exact ⟨_, rfl⟩

/-- What the record written by a failed assertion looks like: its message is the given text, it is a
failure with exception `AssertionError`, its level is `default_error_level`. -/
theorem C34_record_of_a_failed_assertion (env : HEnv) (message : Str)
    (hp : ∀ k ∈ ["message", "success", "level", "exception_type", "exception_message"].map String.toList,
      k ∉ Dict.keys env.inPlace) :
    (assLog env message).records.length =
      (if env.threshold ≤ env.defaultErrorLevel ∧ env.unlogged = false then 1 else 0) ∧
    ∀ r ∈ (assLog env message).records,
      Dict.get? "message".toList r = some (.str message) ∧
      Dict.get? "success".toList r = some (.bool false) ∧
      Dict.get? "level".toList r = some (.int env.defaultErrorLevel) ∧
      Dict.get? "exception_type".toList r = some (.str "AssertionError".toList) ∧
      Dict.get? "exception_message".toList r = some (.str message) := by
  obtain ⟨n, hn, _, hc, hr⟩ := C22_log_statement_records_exactly_when_level_passes env _ _
    (.inr ⟨message, rfl⟩) (assLog_valid env message)
  have hn' : n = env.defaultErrorLevel := by
    have : levelOf env (given env.levels [.str message]
      [("exception".toList, .exc 0 "AssertionError".toList message)]) = .int env.defaultErrorLevel := rfl
    rw [this] at hn
    exact (HVal.int.inj hn).symm
  subst hn'
  refine ⟨hc, fun r hmem => ?_⟩
  refine ⟨?_, ?_, ?_, ?_, ?_⟩
  · rw [hr r hmem _ (hp _ (by decide))]; rfl
  · rw [hr r hmem _ (hp _ (by decide))]; rfl
  · rw [hr r hmem _ (hp _ (by decide))]; rfl
  · rw [hr r hmem _ (hp _ (by decide))]; rfl
  · rw [hr r hmem _ (hp _ (by decide))]; rfl

/-- **C34**, true expressions: nothing happens, in every mode. -/
theorem C34_true_expression_does_nothing (env : HEnv) (all debug : Bool) (expr : AObj) (msgs : List AObj)
    (hm : msgs.length ≤ 1) (ht : expr.truth = some true) :
    (assCall env all debug expr msgs).records = [] ∧ (assCall env all debug expr msgs).raised = none := by
  obtain ⟨m, hm⟩ := assMessage_ok env expr hm
  unfold assCall assPolitic
  rw [hm, ht]
  cases all <;> cases debug <;> exact ⟨rfl, rfl⟩

/-- **C34**, false expressions when not debugging: exactly one `log` with the message is made, and
nothing is raised. -/
theorem C34_false_expression_logs_once_when_not_debugging (env : HEnv) (all : Bool) (expr : AObj)
    (msgs : List AObj) (hm : msgs.length ≤ 1) (ht : expr.truth = some false) :
    ∃ m, assMessage env expr msgs = .ok m ∧
      (assCall env all false expr msgs).records = (assLog env m).records ∧
      (assCall env all false expr msgs).raised = none := by
  obtain ⟨m, hm⟩ := assMessage_ok env expr hm
  refine ⟨m, hm, ?_⟩
  unfold assCall assPolitic
  rw [hm, ht]
  have h := assLog_raised env m
  cases all <;> simp [h]

/-- **C34**, false expressions when debugging: `AssertionError` is raised. -/
theorem C34_false_expression_raises_when_debugging (env : HEnv) (all : Bool) (expr : AObj)
    (msgs : List AObj) (hm : msgs.length ≤ 1) (ht : expr.truth = some false) :
    (assCall env all true expr msgs).raised = some .assertionError := by
  obtain ⟨m, hm⟩ := assMessage_ok env expr hm
  unfold assCall assPolitic assExcept
  rw [hm, ht]
  have h := assLog_raised env m
  cases all <;> simp [h]

/-- **C34**, number of records when debugging: one with the politic `'if_debug'`, two with `'all'`.
Missing from the full property: the documentation promises none and one
(`C34_if_debug_writes_nothing_when_debugging_fails`, `C34_all_writes_one_record_fails`). -/
theorem C34_records_when_debugging_partial (env : HEnv) (all : Bool) (expr : AObj)
    (msgs : List AObj) (hm : msgs.length ≤ 1) (ht : expr.truth = some false) :
    ∃ m, assMessage env expr msgs = .ok m ∧
      (assCall env all true expr msgs).records =
        (if all then (assLog env m).records ++ (assLog env m).records else (assLog env m).records) := by
  obtain ⟨m, hm⟩ := assMessage_ok env expr hm
  refine ⟨m, hm, ?_⟩
  unfold assCall assPolitic assExcept
  rw [hm, ht]
  have h := assLog_raised env m
  cases all <;> simp [h]

/-- **C34**, the text of the message: the given string; else `str` of the given object; else, when
there is no message or its `str` fails, the text of the expression itself; else a fixed text. -/
theorem C34_message_text (env : HEnv) (expr : AObj) (msg : AObj) :
    assMessage env expr [] = .ok (expr.strOf.getD "It is impossible to extract data for the log.".toList) ∧
    assMessage env expr [msg] = .ok (match msg.strOf with
      | some s => s
      | none => expr.strOf.getD "It is impossible to extract data for the log.".toList) := by
  refine ⟨rfl, ?_⟩
  unfold assMessage AObj.strOf
  simp only [List.length_cons, List.length_nil, Nat.zero_add, Nat.lt_irrefl, ↓reduceIte, gt_iff_lt]
  cases msg.asStr with
  | some s => rfl
  | none => cases msg.text <;> rfl

/-- A `False` and a string. -/
def objFalse : AObj := ⟨some false, none, some "False".toList⟩
def objStr (s : Str) : AObj := ⟨some true, some s, some s⟩

-- the hypotheses are met by `ass(False, "It's bad.")`
example : objFalse.truth = some false ∧ [objStr "It's bad.".toList].length ≤ 1 ∧
    assMessage (exEnv false) objFalse [objStr "It's bad.".toList] = .ok "It's bad.".toList ∧
    (assCall (exEnv false) false false objFalse [objStr "It's bad.".toList]).records.length = 1 := by
  decide +kernel

-- and those of `C34_record_of_a_failed_assertion` and `C34_true_expression_does_nothing`
example : (∀ k ∈ ["message", "success", "level", "exception_type", "exception_message"].map String.toList,
      k ∉ Dict.keys (exEnv false).inPlace) ∧ (assLog (exEnv false) "It's bad.".toList).records.length = 1 ∧
    (objStr "yes".toList).truth = some true ∧ ([] : List AObj).length ≤ 1 := by
  decide +kernel

/-- **C34** fails: `ass(False)` while debugging with the default politic writes a record. -/
theorem C34_if_debug_writes_nothing_when_debugging_fails :
    ¬ ∀ (env : HEnv) (expr : AObj) (msgs : List AObj), msgs.length ≤ 1 → expr.truth = some false →
      (assCall env false true expr msgs).records = [] :=
  fun h => absurd (h (exEnv false) objFalse [] (by decide) rfl) (by decide +kernel)

/-- **C34** fails: `ass(False)` while debugging with the politic `'all'` writes two records. -/
theorem C34_all_writes_one_record_fails :
    ¬ ∀ (env : HEnv) (expr : AObj) (msgs : List AObj), msgs.length ≤ 1 → expr.truth = some false →
      (assCall env true true expr msgs).records.length ≤ 1 :=
  fun h => absurd (h (exEnv false) objFalse [] (by decide) rfl) (by decide +kernel)

/-- **C34** fails for expressions whose truth value cannot be computed: when not debugging, nothing is
recorded and nothing is raised. -/
theorem C34_failing_expression_is_recorded_fails :
    ¬ ∀ (env : HEnv) (all : Bool) (expr : AObj), env.threshold ≤ env.defaultErrorLevel →
      env.unlogged = false → expr.truth = none →
      (assCall env all false expr []).records ≠ [] ∨ (assCall env all false expr []).raised ≠ none := by
  intro h
  have := h (exEnv false) true ⟨none, none, none⟩ (by decide) rfl rfl
  exact absurd this (by decide +kernel)

/-- **C34, production never stops.** With `debug_mode` off and at most one message, `ass` raises
nothing, whatever the expression, its truth value (even if taking it raises), the message and the
politic. -/
theorem C34_never_raises_when_not_debugging (env : HEnv) (all : Bool) (expr : AObj)
    (msgs : List AObj) (h : msgs.length ≤ 1) : (assCall env all false expr msgs).raised = none := by
  obtain ⟨m, hm⟩ := assMessage_ok env expr h
  unfold assCall
  rw [hm]
  dsimp only
  cases hp : assPolitic all false expr with
  | none => rfl
  | some b => cases b <;> simp [assLog_raised]

example : -- an expression whose truth value cannot be taken, with a message that cannot be printed
    ([(⟨none, none, none⟩ : AObj)]).length ≤ 1 := by decide

/-- **C34, too many arguments.** More than one message is a `TypeError`, unless `silent_internal_exceptions` is on: then only the first
message is used. -/
theorem C34_more_than_one_message (env : HEnv) (all debug : Bool) (expr m₁ m₂ : AObj) (rest : List AObj) :
    assCall env all debug expr (m₁ :: m₂ :: rest) =
      (if env.silent = true then assCall env all debug expr [m₁] else ⟨[], some .typeError⟩) := by
  have h : assMessage env expr (m₁ :: m₂ :: rest) =
      (if env.silent = true then assMessage env expr [m₁] else .error .typeError) := by
    cases hs : env.silent <;> simp [assMessage, maybeRaise, hs]
  unfold assCall
  rw [h]
  cases hs : env.silent <;> simp

example : -- `ass(False, 'a', 'b')`
    (assCall (exEnv false) true false objFalse [objStr "a".toList, objStr "b".toList]).raised = some .typeError := by
  decide +kernel

end Polog
