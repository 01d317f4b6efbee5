import Verif.Handle.Lemmas3
import Verif.LogItem.Lemmas

/-!
C22 and C23: manual records.

`handleLog` is `handle_log(...)`, `logStatement` is `log(...)` used as a statement.
-/

namespace Polog
open HandleSpec

/-- The destination after the positional arguments. -/
def posDest : List HVal → Dict Str HVal
  | [] => []
  | a :: _ => [("message".toList, a)]

theorem position_ok {lg : HLogger} {env : HEnv} {args : List HVal} (hm : "message".toList ∉ lg.forbidden)
    (h : args.length ≤ 1 ∨ env.silent = true) :
    positionArgs lg env args = .ok (posDest args) := by
  have h1 : (if args.length > 1 then maybeRaise env PyErr.valueError () else .ok ())
      = (.ok () : Except PyErr Unit) := by
    split
    · rcases h with h | h
      · omega
      · unfold maybeRaise; rw [h]; rfl
    · rfl
  unfold positionArgs
  rw [h1]
  dsimp only
  rw [if_neg hm]
  cases args <;> rfl

theorem position_dest (args : List HVal) :
    Dict.WF (posDest args) ∧ ∀ n, Dict.get? n (posDest args) = if n = "message".toList then args.head? else none := by
  cases args with
  | nil => exact ⟨Dict.WF_nil, fun n => by simp [posDest, Dict.get?_nil]⟩
  | cons a l =>
    refine ⟨by simp [posDest, Dict.WF, Dict.keys], fun n => ?_⟩
    show Dict.get? n [("message".toList, a)] = _
    unfold Dict.get?
    by_cases h : n = "message".toList
    · rw [if_pos h.symm, if_pos h]; rfl
    · rw [if_neg (fun e => h e.symm), if_neg h]; rfl

theorem position_fresh (args : List HVal) (k : Str) :
    Fresh args (posDest args) k := by
  unfold Fresh
  rw [(position_dest args).2]
  by_cases h : fullName k = "message".toList
  · rw [if_pos h]
    cases args with
    | nil => exact .inl rfl
    | cons a l => exact .inr ⟨fullName_message h, a, rfl, rfl⟩
  · rw [if_neg h]; exact .inl rfl

/-- Preparation of the arguments of a call without mistakes. -/
theorem prepare_valid {lg : HLogger} {env : HEnv} {args : List HVal} {kwargs : Dict Str HVal}
    (hf : "message".toList ∉ lg.forbidden) (h : ValidCall lg env args kwargs) :
    ∃ f, prepareData lg env args kwargs = .ok f ∧ Dict.WF f ∧
      ∀ n, Dict.get? n f = given env.levels args kwargs n := by
  have hp := position_dest args
  obtain ⟨f, h1, h2, h3⟩ := kwargs_valid (lg := lg) (env := env) (args := args) (kwargs := kwargs)
    (NoAliases.wf h.aliases) h.level
    (by
      intro m v hm hv
      refine h.message m v ?_ hv
      have hlen := h.positional
      cases args with
      | nil => cases hm
      | cons a l =>
        cases l with
        | nil => cases hm; rfl
        | cons b l => simp at hlen)
    kwargs _ hp.1 (fun x hx => hx) h.aliases (fun x hx => h.right x.1 x.2 hx)
    (fun x _ => position_fresh args x.1)
  refine ⟨f, ?_, h2, ?_⟩
  · unfold prepareData
    rw [position_ok hf (.inl h.positional)]
    exact h1
  · intro n
    rw [h3 n, hp.2 n]
    rfl

theorem given_level {lg : HLogger} {env : HEnv} {args : List HVal} {kwargs : Dict Str HVal}
    (h : ValidCall lg env args kwargs) {v : HVal}
    (hv : given env.levels args kwargs "level".toList = some v) : ∃ n, v = .int n := by
  unfold given at hv
  split at hv
  · rename_i x hx
    have hmem := List.mem_of_find?_eq_some hx
    have hpr := List.find?_some hx
    simp only [ne_eq, Bool.and_eq_true, decide_eq_true_eq] at hpr
    have hk := fullName_level hpr.1
    have hmem' : ("level".toList, x.2) ∈ kwargs := by rw [← hk]; exact hmem
    have hr := h.right _ _ hmem
    have hty : (∃ s, x.2 = .str s) ∨ ∃ n, x.2 = .int n := by
      rcases hr.2 with ha | ⟨hn, _⟩
      · rw [hpr.1] at ha
        generalize hk2 : "level".toList = kk at ha
        generalize x.2 = w at ha ⊢
        cases ha <;> first | exact .inl ⟨_, rfl⟩ | exact .inr ⟨_, rfl⟩ | exact absurd hk2 (by decide)
      · exact absurd (by rw [hpr.1]; decide) hn
    obtain ⟨n, hn⟩ := h.level _ hmem' hty
    have e : v = stored env.levels "level".toList x.2 := by cases hv; rfl
    unfold stored at e
    rw [if_pos rfl] at e
    generalize x.2 = w at hn e
    cases hn with
    | number _ h0 => exact ⟨n, e⟩
    | name s _ hs => exact ⟨n, by rw [e]; dsimp only; rw [hs]⟩
  · rw [if_neg (by decide)] at hv; cases hv

theorem levelOf_int {lg : HLogger} {env : HEnv} {args : List HVal} {kwargs : Dict Str HVal}
    (h : ValidCall lg env args kwargs) : ∃ n, levelOf env (given env.levels args kwargs) = .int n := by
  unfold levelOf
  rcases Option.eq_none_or_eq_some (given env.levels args kwargs "level".toList) with hg | ⟨v, hg⟩
  · rw [hg]; dsimp only; split
    · exact ⟨_, rfl⟩
    · exact ⟨_, rfl⟩
  · rw [hg]; exact given_level h hg

theorem base_valid {lg : HLogger} {env : HEnv} {args : List HVal} {kwargs : Dict Str HVal}
    (hf : "message".toList ∉ lg.forbidden) (h : ValidCall lg env args kwargs) :
    ∃ n f, levelOf env (given env.levels args kwargs) = .int n ∧
      (∀ name, Dict.get? name f = field env (given env.levels args kwargs) name) ∧
      baseCall lg env args kwargs =
        ⟨if env.threshold ≤ n ∧ env.unlogged = false
          then [extractFrom env.fieldsIntersection env.inPlace f] else [], none⟩ := by
  obtain ⟨f, h1, h2, h3⟩ := prepare_valid hf h
  obtain ⟨n, hn⟩ := levelOf_int h
  have hfun : (fun k => Dict.get? k f) = given env.levels args kwargs := funext h3
  refine ⟨n, specificProcessing env f, hn, fun name => ?_, ?_⟩
  · rw [get_specific env h2, hfun]
  · unfold baseCall
    rw [h1]
    dsimp only
    unfold basePush
    have hl : Dict.get? "level".toList (specificProcessing env f) = some (.int n) := by
      rw [get_specific env h2, hfun]
      unfold field
      repeat rw [if_neg (show ¬ ("level".toList = _) by decide)]
      rw [if_pos rfl, hn]
    rw [hl]
    dsimp only
    by_cases ht : env.threshold ≤ n
    · rw [if_pos ht]
      cases hu : env.unlogged <;> simp [ht]
    · rw [if_neg ht, if_neg (fun e => ht e.1)]

/-- **C22** for `handle_log(...)`: a call without mistakes never raises; it hands over exactly one
record if its level is at least the setting `level` and logging is not switched off around it, and
none otherwise; each field of the record (apart from the extractable ones) is what the table says. -/
theorem C22_handle_log_records_exactly_when_level_passes (env : HEnv) (args : List HVal)
    (kwargs : Dict Str HVal) (h : ValidCall handleLogger env args kwargs) :
    ∃ n, levelOf env (given env.levels args kwargs) = .int n ∧
      (handleLog env args kwargs).raised = none ∧
      (handleLog env args kwargs).records.length =
        (if env.threshold ≤ n ∧ env.unlogged = false then 1 else 0) ∧
      ∀ r ∈ (handleLog env args kwargs).records, ∀ name, name ∉ Dict.keys env.inPlace →
        Dict.get? name r = field env (given env.levels args kwargs) name := by
  obtain ⟨n, f, hn, hf, hb⟩ := base_valid (by decide) h
  refine ⟨n, hn, ?_, ?_, ?_⟩
  · unfold handleLog; rw [hb]
  · unfold handleLog; rw [hb]; split <;> rfl
  · unfold handleLog; rw [hb]
    intro r hr name hname
    dsimp only at hr
    split at hr
    · rw [List.mem_singleton] at hr
      rw [hr, extractFrom_get_other _ _ _ hname, hf]
    · cases hr

theorem logStatement_records {env : HEnv} {args : List HVal} {kwargs : Dict Str HVal}
    (hargs : args = [] ∨ ∃ s, args = [.str s])
    (hm : ∀ m v, args = [m] → ("message".toList, v) ∈ kwargs → v = m) (hW : Dict.WF kwargs) :
    logStatement env args kwargs = ⟨(baseCall simpleLogger env args kwargs).records, none⟩ := by
  rcases hargs with rfl | ⟨s, rfl⟩
  · rfl
  · unfold logStatement
    dsimp only
    rcases Option.eq_none_or_eq_some (Dict.get? "message".toList kwargs) with hg | ⟨v, hg⟩
    · simp only [hg]
    · have hv := hm _ v rfl ((Dict.mem_iff_get? hW _ _).2 hg)
      subst hv
      simp only [hg]
      rw [(HVal.pyEq_str _ _).2 rfl]
      rfl

/-- **C22** for `log(...)` used as a statement. -/
theorem C22_log_statement_records_exactly_when_level_passes (env : HEnv) (args : List HVal)
    (kwargs : Dict Str HVal) (hargs : args = [] ∨ ∃ s, args = [.str s])
    (h : ValidCall simpleLogger env args kwargs) :
    ∃ n, levelOf env (given env.levels args kwargs) = .int n ∧
      (logStatement env args kwargs).raised = none ∧
      (logStatement env args kwargs).records.length =
        (if env.threshold ≤ n ∧ env.unlogged = false then 1 else 0) ∧
      ∀ r ∈ (logStatement env args kwargs).records, ∀ name, name ∉ Dict.keys env.inPlace →
        Dict.get? name r = field env (given env.levels args kwargs) name := by
  obtain ⟨n, f, hn, hf, hb⟩ := base_valid (by decide) h
  rw [logStatement_records hargs h.message (NoAliases.wf h.aliases), hb]
  refine ⟨n, hn, rfl, ?_, ?_⟩
  · dsimp only; split <;> rfl
  · intro r hr name hname
    dsimp only at hr
    split at hr
    · rw [List.mem_singleton] at hr
      rw [hr, extractFrom_get_other _ _ _ hname, hf]
    · cases hr

/-- A concrete environment: one named level, one extractable field. -/
def exEnv (silent : Bool) : HEnv where
  levels := ⟨[("high".toList, 7)], [(7, "high".toList)]⟩
  threshold := 3
  defaultLevel := 1
  defaultErrorLevel := 5
  serviceName := some "srv".toList
  silent := silent
  unknownAllowed := false
  fieldsIntersection := false
  inPlace := [("ip".toList, fun _ => .ok (.str "127".toList))]
  engineNames := []
  unlogged := false
  traceback := "[]".toList
  localsText := []
  now := .other 0

-- `handle_log('hi', level='high', e=ValueError('x'))`: a valid call that is recorded
example : ValidCall handleLogger (exEnv false) [.str "hi".toList]
    [("level".toList, .str "high".toList), ("e".toList, .exc 0 "ValueError".toList "x".toList)] where
  positional := by decide
  aliases := by unfold NoAliases; decide
  right := by
    intro k v h
    simp only [List.mem_cons, List.not_mem_nil, or_false, Prod.mk.injEq] at h
    rcases h with ⟨rfl, rfl⟩ | ⟨rfl, rfl⟩
    · exact ⟨by decide, .inl (.levelName _)⟩
    · exact ⟨by decide, .inl (.exception _ _ _)⟩
  level := by
    intro v h _
    simp only [List.mem_cons, List.not_mem_nil, or_false, Prod.mk.injEq] at h
    rcases h with ⟨_, rfl⟩ | ⟨h, _⟩
    · exact ⟨7, .name _ _ (by decide)⟩
    · exact absurd h (by decide)
  message := by
    intro m v _ h
    simp only [List.mem_cons, List.not_mem_nil, or_false, Prod.mk.injEq] at h
    rcases h with ⟨h, _⟩ | ⟨h, _⟩ <;> exact absurd h (by decide)

example : ((handleLog (exEnv false) [.str "hi".toList]
    [("level".toList, .str "high".toList), ("e".toList, .exc 0 "ValueError".toList "x".toList)]).records.map
      fun r => (Dict.get? "level".toList r, Dict.get? "success".toList r, Dict.get? "ip".toList r))
    = [(some (.int 7), some (.bool false), some (.str "127".toList))] := by decide +kernel

/-! ### C23 -/

/-- A call is valid exactly when it has no mistake (for arguments without double names). -/
theorem valid_iff {lg : HLogger} {env : HEnv} {args : List HVal} {kwargs : Dict Str HVal}
    (ha : NoAliases kwargs) : ¬ ValidCall lg env args kwargs →
    args.length > 1 ∨ ∃ x ∈ kwargs, Mistake lg env args x := by
  intro h
  by_cases h1 : args.length > 1
  · exact .inl h1
  · refine .inr (Classical.byContradiction fun hno => h ?_)
    have hno' : ∀ x ∈ kwargs, ¬ Mistake lg env args x := fun x hx hm => hno ⟨x, hx, hm⟩
    exact
      { positional := by omega
        aliases := ha
        right := fun k v hkv => Classical.byContradiction fun hr => hno' _ hkv (.inl hr)
        level := fun v hv _ => Classical.byContradiction fun hl =>
          hno' _ hv (.inr (.inl ⟨by dsimp only; decide, hl⟩))
        message := fun m v hm hv => Classical.byContradiction fun hne =>
          hno' _ hv (.inr (.inr ⟨rfl, m, by rw [hm]; rfl, hne⟩)) }

theorem base_strict {lg : HLogger} {env : HEnv} {args : List HVal} {kwargs : Dict Str HVal}
    (hf : "message".toList ∉ lg.forbidden) (hs : env.silent = false) (ha : NoAliases kwargs)
    (h : ¬ ValidCall lg env args kwargs) :
    (baseCall lg env args kwargs).raised ≠ none ∧ (baseCall lg env args kwargs).records = [] := by
  suffices hsuff : ∃ e, prepareData lg env args kwargs = .error e by
    obtain ⟨e, he⟩ := hsuff
    unfold baseCall; rw [he]
    exact ⟨by simp, rfl⟩
  rcases Nat.lt_or_ge 1 args.length with hlen | hlen
  · refine ⟨.valueError, ?_⟩
    unfold prepareData positionArgs
    rw [if_pos hlen]
    unfold maybeRaise
    rw [hs]; rfl
  · rcases valid_iff ha h with h1 | h1
    · omega
    · obtain ⟨e, he⟩ := kwargs_strict (lg := lg) (args := args) hs (NoAliases.wf ha) kwargs
        _ (fun x hx => hx) ha (fun x _ => position_fresh args x.1)
        (by
          intro m hm _
          rw [(position_dest args).2, if_pos rfl]; exact hm) h1
      refine ⟨e, ?_⟩
      unfold prepareData
      rw [position_ok hf (.inl hlen)]
      exact he

/-- **C23**, strict mode (`silent_internal_exceptions=False`), `handle_log`: a call raises exactly
when it has a mistake, and then nothing is recorded.  Missing from the full property: calls that give
one field under two names (see `C23_two_names_of_one_field_fails`), and `log(...)`
(see `C23_log_statement_raises_fails`). -/
theorem C23_strict_rejects_exactly_wrong_calls_partial (env : HEnv) (args : List HVal)
    (kwargs : Dict Str HVal) (hs : env.silent = false) (ha : NoAliases kwargs) :
    ((handleLog env args kwargs).raised ≠ none ↔ ¬ ValidCall handleLogger env args kwargs) ∧
    ((handleLog env args kwargs).raised ≠ none → (handleLog env args kwargs).records = []) := by
  by_cases hv : ValidCall handleLogger env args kwargs
  · obtain ⟨n, _, h2, _⟩ := C22_handle_log_records_exactly_when_level_passes env args kwargs hv
    exact ⟨⟨fun h => absurd h2 h, fun h => absurd hv h⟩, fun h => absurd h2 h⟩
  · have := base_strict (lg := handleLogger) (by decide) hs ha hv
    exact ⟨⟨fun _ => hv, fun _ => this.1⟩, fun _ => this.2⟩

/-- **C23**, strict mode, `log(...)`: a wrong call records nothing (but see
`C23_log_statement_raises_fails`: it does not raise either). -/
theorem C23_log_statement_wrong_calls_record_nothing_partial (env : HEnv) (args : List HVal)
    (kwargs : Dict Str HVal) (hs : env.silent = false) (ha : NoAliases kwargs)
    (h : ¬ ValidCall simpleLogger env args kwargs) : (logStatement env args kwargs).records = [] := by
  have hb := (base_strict (lg := simpleLogger) (by decide) hs ha h).2
  unfold logStatement
  split
  · exact hb
  · split
    · rfl
    · exact hb
  · rfl

/-- **C23**, `log(...)` with two different messages, `log('a', message='b')`: in strict mode the call
raises `IncorrectUseLoggerError` itself and records nothing; in loyal mode it does not raise. -/
theorem C23_log_statement_two_messages (env : HEnv) (s s' : Str) (kwargs : Dict Str HVal)
    (hm : Dict.get? "message".toList kwargs = some (.str s')) (hd : s ≠ s') :
    (env.silent = false → logStatement env [.str s] kwargs = ⟨[], some .incorrectUse⟩) ∧
    (env.silent = true → (logStatement env [.str s] kwargs).raised = none) := by
  have hne : ((HVal.str s).pyEq (.str s')) = false := by simp [HVal.pyEq, hd]
  constructor <;> intro hs <;> unfold logStatement <;> simp only [hm, hne, maybeRaise, hs] <;> rfl

example : Dict.get? "message".toList [("message".toList, HVal.str "b".toList)] = some (.str "b".toList) ∧
    "a".toList ≠ "b".toList := by decide +kernel

-- a wrong call in strict mode
example : ¬ ValidCall handleLogger (exEnv false) [] [("success".toList, .int 5)] := by
  intro h
  have := h.right "success".toList (.int 5) (by simp)
  rcases this.2 with ha | ⟨hn, _⟩
  · have hf : fullName "success".toList = "success".toList := by decide
    rw [hf] at ha
    generalize hk : "success".toList = k at ha
    cases ha; exact absurd hk (by decide)
  · exact absurd (by decide) hn

/-- **C23**: with `unknown_fields_in_handle_logs=False` a field that is neither a standard one nor configured makes
`handle_log(...)` raise in strict mode, and nothing is recorded; with `True` such a field is accepted with any value. -/
theorem C23_unknown_fields_rejected_unless_allowed (env : HEnv) (args : List HVal) (kwargs : Dict Str HVal)
    (hs : env.silent = false) (ha : NoAliases kwargs) (name : Str) (v : HVal) (hm : (name, v) ∈ kwargs)
    (hn : fullName name ∉ standardNames) (hp : fullName name ∉ Dict.keys env.inPlace) (he : fullName name ∉ env.engineNames) :
    (env.unknownAllowed = false → (handleLog env args kwargs).raised ≠ none ∧ (handleLog env args kwargs).records = []) ∧
    (env.unknownAllowed = true → kwargs.length = 1 → args.length ≤ 1 → (handleLog env args kwargs).raised = none) := by
  refine ⟨fun hu => ?_, fun hu h1 h2 => ?_⟩
  · have hv : ¬ ValidCall handleLogger env args kwargs := by
      intro hv
      rcases (hv.right name v hm).2 with h | ⟨_, h | h | h | h⟩
      · refine hn ?_
        generalize fullName name = k at h
        cases h <;> decide
      · exact hp h
      · exact he h
      · cases h
      · rw [hu] at h; cases h
    have hb := base_strict (lg := handleLogger) (by decide) hs ha hv
    exact ⟨hb.1, hb.2⟩
  · obtain ⟨x, rfl⟩ := List.length_eq_one_iff.1 h1
    rw [List.mem_singleton] at hm
    subst hm
    have hv : ValidCall handleLogger env args [(name, v)] := by
      refine ⟨h2, ha, fun k w hk => ?_, fun w hw _ => ?_, fun m w _ hw => ?_⟩
      · rw [List.mem_singleton] at hk; cases hk
        exact ⟨by simp [handleLogger], .inr ⟨hn, .inr (.inr (.inr hu))⟩⟩
      · rw [List.mem_singleton] at hw; cases hw
        exact absurd (by decide) hn
      · rw [List.mem_singleton] at hw; cases hw
        exact absurd (by decide) hn
    obtain ⟨n, _, h3, _⟩ := C22_handle_log_records_exactly_when_level_passes env args _ hv
    exact h3

/-- A field `kek` is rejected. -/
example : (handleLog (exEnv false) [] [("kek".toList, .int 5)]).raised ≠ none :=
  ((C23_unknown_fields_rejected_unless_allowed (exEnv false) [] [("kek".toList, .int 5)] rfl (by unfold NoAliases; decide)
    "kek".toList (.int 5) (by simp) (by decide) (by decide) (by decide)).1 rfl).1

/-- **C23** fails for `log(...)` in strict mode: `log(success=5)` does not raise (the exception
appears in a weak-reference callback, where the interpreter only prints it). -/
theorem C23_log_statement_raises_fails :
    ¬ ∀ (env : HEnv) (args : List HVal) (kwargs : Dict Str HVal), env.silent = false →
      NoAliases kwargs → ¬ ValidCall simpleLogger env args kwargs →
      (logStatement env args kwargs).raised ≠ none := by
  intro h
  refine h (exEnv false) [] [("success".toList, .int 5)] rfl (by unfold NoAliases; decide) ?_ ?_
  · intro h
    have := h.right "success".toList (.int 5) (by simp)
    rcases this.2 with ha | ⟨hn, _⟩
    · have hf : fullName "success".toList = "success".toList := by decide
      rw [hf] at ha
      generalize hk : "success".toList = k at ha
      cases ha; exact absurd hk (by decide)
    · exact absurd (by decide) hn
  · decide +kernel

/-- **C23** fails for `log(...)` with `unknown_fields_in_handle_logs=False`: unknown field names are
accepted and recorded all the same. -/
theorem C23_log_statement_unknown_fields_fails :
    ¬ ∀ (env : HEnv) (args : List HVal) (kwargs : Dict Str HVal), env.silent = false →
      env.unknownAllowed = false → ¬ ValidCall handleLogger env args kwargs →
      (logStatement env args kwargs).records = [] := by
  intro h
  have := h (exEnv false) [] [("level".toList, .int 9), ("kek".toList, .int 5)] rfl rfl (by
    intro h
    have := h.right "kek".toList (.int 5) (by simp)
    rcases this.2 with ha | ⟨_, h1 | h1 | h1 | h1⟩
    · have hf : fullName "kek".toList = "kek".toList := by decide
      rw [hf] at ha
      generalize hk : "kek".toList = k at ha
      cases ha <;> exact absurd hk (by decide)
    · exact absurd h1 (by decide)
    · exact absurd h1 (by decide)
    · exact absurd h1 (by decide)
    · exact absurd h1 (by decide))
  exact absurd this (by decide +kernel)

/-- **C23** fails for two names of one field: `handle_log(exception='A', e='B', level=9)` in strict
mode does not raise and records `'B'`. -/
theorem C23_two_names_of_one_field_fails :
    ¬ ∀ (env : HEnv) (args : List HVal) (kwargs : Dict Str HVal), env.silent = false →
      ¬ ValidCall handleLogger env args kwargs → (handleLog env args kwargs).raised ≠ none := by
  intro h
  refine h (exEnv false) [] [("level".toList, .int 9), ("exception".toList, .str "A".toList),
    ("e".toList, .str "B".toList)] rfl ?_ (by decide +kernel)
  intro hv
  have := hv.aliases
  unfold NoAliases at this
  exact absurd this (by decide)

/-- **C23**, loyal mode (`silent_internal_exceptions=True`), `handle_log`: the call never raises, and
it does exactly what the same call without its wrong arguments does (surplus positional arguments,
keyword arguments of a wrong type or with a forbidden or unknown name, a second message); that
reduced call is a correct one, so `C22` describes its record.  `p` tells the correct keyword
arguments from the wrong ones.  Missing from the full property: unknown level names and negative
levels (`C23_loyal_never_raises_fails`), one field given under two names
(`C23_loyal_two_names_fails`). -/
theorem C23_loyal_ignores_only_the_wrong_arguments_partial (env : HEnv) (args : List HVal)
    (kwargs : Dict Str HVal) (hs : env.silent = true) (ha : NoAliases kwargs)
    (hl : LevelKnown env kwargs) (p : Str × HVal → Bool)
    (hp : ∀ x ∈ kwargs, p x = true ↔ RightArg handleLogger env x.1 x.2 ∧
      (x.1 = "message".toList → ∀ m, args.head? = some m → x.2 = m)) :
    ValidCall handleLogger env (args.take 1) (kwargs.filter p) ∧
    handleLog env args kwargs = handleLog env (args.take 1) (kwargs.filter p) ∧
    (handleLog env args kwargs).raised = none := by
  have hsub : (kwargs.filter p).Sublist kwargs := List.filter_sublist
  have hv : ValidCall handleLogger env (args.take 1) (kwargs.filter p) :=
    { positional := by simp; omega
      aliases := by
        unfold NoAliases at ha ⊢
        exact List.Nodup.sublist (List.Sublist.map _ hsub) ha
      right := fun k v hkv => by
        obtain ⟨h1, h2⟩ := List.mem_filter.1 hkv
        exact ((hp _ h1).1 h2).1
      level := fun v hv hty => hl v (hsub.subset hv) hty
      message := fun m v hm hkv => by
        obtain ⟨h1, h2⟩ := List.mem_filter.1 hkv
        refine ((hp _ h1).1 h2).2 rfl m ?_
        cases args with
        | nil => cases hm
        | cons a l => simp at hm; simp [hm] }
  have he : handleLog env args kwargs = handleLog env (args.take 1) (kwargs.filter p) := by
    unfold handleLog baseCall prepareData
    rw [position_ok (by decide) (.inr hs), position_ok (by decide) (.inr hs)]
    dsimp only
    have hdd : posDest (args.take 1) = posDest args := by cases args <;> rfl
    rw [hdd]
    rw [kwargs_loyal (lg := handleLogger) (args := args) hs (NoAliases.wf ha) p hp kwargs _
      (fun x hx => hx) ha (fun x _ => position_fresh args x.1)
      (by intro m hm _; rw [(position_dest args).2, if_pos rfl]; exact hm)]
  refine ⟨hv, he, ?_⟩
  rw [he]
  obtain ⟨n, _, h2, _⟩ := C22_handle_log_records_exactly_when_level_passes env _ _ hv
  exact h2

-- a loyal call with two wrong arguments and one correct one
example : (handleLog (exEnv true) [.str "a".toList, .str "b".toList]
    [("success".toList, .int 5), ("level".toList, .int 9), ("message".toList, .str "z".toList)]).records.map
      (fun r => (Dict.get? "message".toList r, Dict.get? "success".toList r, Dict.get? "level".toList r))
    = [(some (.str "a".toList), none, some (.int 9))] := by decide +kernel

/-- **C23** fails in loyal mode for unknown levels: `handle_log('x', level='unknown')` raises. -/
theorem C23_loyal_never_raises_fails :
    ¬ ∀ (env : HEnv) (args : List HVal) (kwargs : Dict Str HVal), env.silent = true →
      (handleLog env args kwargs).raised = none :=
  fun h => absurd (h (exEnv true) [.str "x".toList] [("level".toList, .str "unknown".toList)] rfl)
    (by decide +kernel)

/-- **C23** fails in loyal mode for `handle_log(vars='a', locals='b', level=9)`: it raises `KeyError`
and the record is lost. -/
theorem C23_loyal_two_names_fails :
    ¬ ∀ (env : HEnv) (args : List HVal) (kwargs : Dict Str HVal), env.silent = true →
      LevelKnown env kwargs → (handleLog env args kwargs).raised = none := by
  intro h
  refine absurd (h (exEnv true) [] [("level".toList, .int 9), ("vars".toList, .str "a".toList),
    ("locals".toList, .str "b".toList)] rfl ?_) (by decide +kernel)
  intro v hv _
  simp only [List.mem_cons, List.not_mem_nil, or_false, Prod.mk.injEq] at hv
  rcases hv with ⟨_, rfl⟩ | ⟨h, _⟩ | ⟨h, _⟩
  · exact ⟨9, .number 9 (by decide)⟩
  · exact absurd h (by decide)
  · exact absurd h (by decide)

/-- **C23** fails in loyal mode for `log(...)`: with an unknown level the correct arguments are not
recorded at all. -/
theorem C23_loyal_log_statement_records_the_rest_fails :
    ¬ ∀ (env : HEnv) (s : Str) (kwargs : Dict Str HVal), env.silent = true → env.threshold ≤ 0 →
      env.unlogged = false → (logStatement env [.str s] kwargs).records ≠ [] := by
  intro h
  refine absurd (h { exEnv true with threshold := 0 } "x".toList
    [("level".toList, .str "unknown".toList)] rfl (by decide) rfl) ?_
  intro h
  exact h (by decide +kernel)

end Polog
