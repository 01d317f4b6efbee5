import Verif.Handle.Spec

/-! Helper lemmas for the manual loggers. -/

namespace Polog
open HandleSpec

theorem convertKey_eq (k : Str) : convertKey k = fullName k := by
  unfold convertKey fullName
  by_cases h1 : k = "vars".toList
  · rw [if_pos h1, if_pos (Or.inl h1)]
  · by_cases h2 : k = "locals".toList
    · rw [if_neg h1, if_pos h2, if_pos (Or.inr h2)]
    · have h3 : ¬ (k = "vars".toList ∨ k = "locals".toList) := fun h => h.elim h1 h2
      rw [if_neg h1, if_neg h2, if_neg h3]

theorem fullName_ne_vars (k : Str) : fullName k ≠ "vars".toList := by
  unfold fullName
  split
  · decide
  split
  · decide
  split
  · decide
  · rename_i h _ _
    exact fun e => h (.inl e)

theorem fullName_message {k : Str} (h : fullName k = "message".toList) : k = "message".toList := by
  unfold fullName at h
  split at h
  · exact absurd h (by decide)
  split at h
  · exact absurd h (by decide)
  split at h
  · exact absurd h (by decide)
  · exact h

theorem fullName_level {k : Str} (h : fullName k = "level".toList) : k = "level".toList := by
  unfold fullName at h
  split at h
  · exact absurd h (by decide)
  split at h
  · exact absurd h (by decide)
  split at h
  · exact absurd h (by decide)
  · exact h

/-- The type table of the code is the type table of the specification. -/
theorem allowedType_some {key : Str} {prove : HVal → Bool} (hv : key ≠ "vars".toList)
    (h : allowedType key = some prove) (v : HVal) :
    (prove v = true ↔ Accepts key v) ∧ key ∈ standardNames := by
  unfold allowedType at h
  split at h
  · rename_i e; subst e; cases h
    refine ⟨⟨fun h => ?_, fun h => ?_⟩, by decide⟩
    · cases v <;> simp [HVal.isStr, HVal.callable] at h
      · exact .functionName _
      · exact .functionClass _ _ _
      · exact .function _ _ _ _
    · generalize hk : "function".toList = k at h
      cases h <;> first | rfl | exact absurd hk (by decide)
  split at h
  · rename_i e; subst e; cases h
    refine ⟨⟨fun h => ?_, fun h => ?_⟩, by decide⟩
    · cases v <;> simp [HVal.isStr] at h
      exact .module _
    · generalize hk : "module".toList = k at h
      cases h <;> first | rfl | exact absurd hk (by decide)
  split at h
  · rename_i e; subst e; cases h
    refine ⟨⟨fun h => ?_, fun h => ?_⟩, by decide⟩
    · cases v <;> simp [HVal.isStr, HVal.isCls] at h
      · exact .className _
      · exact .class_ _ _ _
    · generalize hk : "class".toList = k at h
      cases h <;> first | rfl | exact absurd hk (by decide)
  split at h
  · rename_i e; subst e; cases h
    refine ⟨⟨fun h => ?_, fun h => ?_⟩, by decide⟩
    · cases v <;> simp [HVal.isStr] at h
      exact .message _
    · generalize hk : "message".toList = k at h
      cases h <;> first | rfl | exact absurd hk (by decide)
  split at h
  · rename_i e; subst e; cases h
    refine ⟨⟨fun h => ?_, fun h => ?_⟩, by decide⟩
    · cases v <;> simp [HVal.isStr, HVal.isExc] at h
      · exact .exceptionName _
      · exact .exception _ _ _
    · generalize hk : "exception".toList = k at h
      cases h <;> first | rfl | exact absurd hk (by decide)
  split at h
  · rename_i e; subst e; cases h
    refine ⟨⟨fun h => ?_, fun h => ?_⟩, by decide⟩
    · cases v <;> simp [HVal.isBool] at h
      exact .success _
    · generalize hk : "success".toList = k at h
      cases h <;> first | rfl | exact absurd hk (by decide)
  split at h
  · rename_i e; subst e; cases h
    refine ⟨⟨fun h => ?_, fun h => ?_⟩, by decide⟩
    · cases v <;> simp [HVal.isStr, HVal.isInt] at h
      · exact .level _
      · exact .levelName _
    · generalize hk : "level".toList = k at h
      cases h <;> first | rfl | exact absurd hk (by decide)
  split at h
  · rename_i e; subst e; cases h
    refine ⟨⟨fun h => ?_, fun h => ?_⟩, by decide⟩
    · cases v <;> simp [HVal.isStr] at h
      exact .localVariables _
    · generalize hk : "local_variables".toList = k at h
      cases h <;> first | rfl | exact absurd hk (by decide)
  · cases h

theorem allowedType_none {key : Str} (h : allowedType key = none) : key ∉ standardNames := by
  unfold allowedType at h
  repeat' split at h
  all_goals first | cases h | skip
  intro hm
  simp only [standardNames, List.map_cons, List.map_nil, List.mem_cons, List.not_mem_nil, or_false] at hm
  simp_all

theorem HandleSpec.Accepts.standard {key : Str} {v : HVal} (h : Accepts key v) : key ∈ standardNames := by
  cases h <;> decide

theorem argCheck_none_iff (lg : HLogger) (env : HEnv) (k : Str) (v : HVal) :
    argCheck lg env (fullName k) v = none ↔ RightArg lg env k v := by
  unfold argCheck RightArg
  by_cases hf : fullName k ∈ lg.forbidden
  · simp [hf]
  · simp only [hf, ↓reduceIte, not_false_eq_true, true_and]
    cases ha : allowedType (fullName k) with
    | some prove =>
      have := allowedType_some (fullName_ne_vars k) ha v
      simp only [this.2, not_true_eq_false, false_and, or_false, ← this.1]
      cases prove v <;> simp
    | none =>
      have hn := allowedType_none ha
      have hA : ¬ Accepts (fullName k) v := fun h => hn h.standard
      simp only [hA, hn, not_false_eq_true, true_and, false_or, unknownOk,
        ← Dict.get?_isSome_iff]
      unfold Dict.has
      by_cases h1 : (Dict.get? (fullName k) env.inPlace).isSome = true
      · simp [h1]
      · by_cases h2 : fullName k ∈ env.engineNames
        · simp [h2]
        · cases h3 : lg.allFields <;> cases h4 : env.unknownAllowed <;> simp [h1, h2]

/-- Conversion of an accepted value whose level is known. -/
theorem convertValue_ok {lg : HLogger} {env : HEnv} {k : Str} {v : HVal} (h : RightArg lg env k v)
    (hl : fullName k = "level".toList → ∃ n, LevelIs env.levels v n) :
    convertValue env.levels (fullName k) v = .ok (stored env.levels (fullName k) v) := by
  unfold convertValue stored
  by_cases h1 : fullName k = "level".toList
  · obtain ⟨n, hn⟩ := hl h1
    rw [if_pos h1, if_pos h1]
    cases hn with
    | number _ h0 =>
      simp [HVal.toPyObj, Levels.get, Int.not_lt.2 h0, Except.map]
    | name s _ hs => simp [HVal.toPyObj, Levels.get, hs, Except.map]
  · rw [if_neg h1, if_neg h1]
    by_cases h2 : fullName k = "class".toList
    · rw [if_pos h2, if_pos h2]
      rcases h.2 with ha | ⟨hn, _⟩
      · rw [h2] at ha
        generalize hk : "class".toList = kk at ha
        cases ha <;> first | rfl | exact absurd hk (by decide)
      · exact absurd (by rw [h2]; decide) hn
    · rw [if_neg h2, if_neg h2]

/-- A level that is not known makes the conversion raise. -/
theorem convertValue_level_unknown {lg : HLogger} {env : HEnv} {k : Str} {v : HVal}
    (h : RightArg lg env k v) (hk : fullName k = "level".toList)
    (hl : ¬ ∃ n, LevelIs env.levels v n) :
    convertValue env.levels (fullName k) v = .error .keyError := by
  unfold convertValue
  rw [if_pos hk]
  cases v with
  | int n =>
    by_cases h0 : n < 0
    · simp [HVal.toPyObj, Levels.get, h0, Except.map]
    · exact absurd ⟨n, .number n (by omega)⟩ hl
  | str s =>
    cases hs : Dict.get? s env.levels.byName with
    | none => simp [HVal.toPyObj, Levels.get, hs, Except.map]
    | some n => exact absurd ⟨n, .name s n hs⟩ hl
  | _ =>
    rcases h.2 with ha | ⟨hn, _⟩
    · rw [hk] at ha
      generalize hk2 : "level".toList = kk at ha
      cases ha <;> exact absurd hk2 (by decide)
    · exact absurd (by rw [hk]; decide) hn

theorem stored_ne_none {levels : Levels} {key : Str} {v : HVal} (h : v ≠ .none) :
    stored levels key v ≠ .none := by
  unfold stored
  split
  · split
    · split
      · simp
      · simp
    · exact h
  · split
    · split
      · simp
      · exact h
    · exact h

theorem stored_none (levels : Levels) (key : Str) : stored levels key .none = .none := by
  unfold stored; split
  · rfl
  · split <;> rfl

theorem HVal.pyEq_str (m : HVal) (s : Str) : m.pyEq (.str s) = true ↔ m = .str s := by
  cases m <;> simp [HVal.pyEq]

theorem HandleSpec.RightArg.message {lg : HLogger} {env : HEnv} {v : HVal}
    (h : RightArg lg env "message".toList v) : ∃ s, v = .str s := by
  have hf : fullName "message".toList = "message".toList := by decide
  rcases h.2 with ha | ⟨hn, _⟩
  · rw [hf] at ha
    generalize hk : "message".toList = kk at ha
    cases ha <;> first | exact ⟨_, rfl⟩ | exact absurd hk (by decide)
  · exact absurd (by rw [hf]; decide) hn

end Polog
