import Verif.Handle.Props
import Verif.Handle.MessageSpec

/-!
C92: `message(...)` changes exactly the fields it is given.
-/

namespace Polog
open HandleSpec MessageSpec

theorem fullName_function {k : Str} (h : fullName k = "function".toList) : k = "function".toList := by
  unfold fullName at h
  split at h
  · exact absurd h (by decide)
  · split at h
    · exact absurd h (by decide)
    · split at h
      · exact absurd h (by decide)
      · exact h

theorem rightMessage_iff {env : HEnv} {args : List HVal} {kwargs : Dict Str HVal} :
    RightMessage env args kwargs ↔ ValidCall messageLogger env args kwargs := by
  constructor
  · rintro ⟨h, hf⟩
    refine ⟨h.positional, h.aliases, fun k v hkv => ?_, h.level, h.message⟩
    obtain ⟨_, h2⟩ := h.right k v hkv
    refine ⟨?_, h2⟩
    intro hm
    exact hf k v hkv (fullName_function (by simpa [messageLogger] using hm))
  · intro h
    refine ⟨⟨h.positional, h.aliases, fun k v hkv => ?_, h.level, h.message⟩, fun k v hkv e => ?_⟩
    · obtain ⟨_, h2⟩ := h.right k v hkv
      exact ⟨by simp [handleLogger], h2⟩
    · obtain ⟨h1, _⟩ := h.right k v hkv
      subst e
      exact h1 (by decide)

/-- What `_extract_exception` without its flags leaves under each name. -/
theorem get_exception_plain (env : HEnv) {f : Dict Str HVal} (hf : Dict.WF f) (n : Str) :
    Dict.get? n (extractException env false false f) = newValue env (fun k => Dict.get? k f) n := by
  rcases Option.eq_none_or_eq_some (Dict.get? "exception".toList f) with hv | ⟨v, hv⟩
  · rw [extractException_none env _ _ hv]
    unfold newValue
    simp only [hv]
    by_cases h : n = "exception".toList
    · subst h; rw [if_pos rfl, hv]
    · rw [if_neg h]
  · unfold extractException newValue
    simp only [hv]
    simp only [Bool.false_eq_true, ↓reduceIte, Bool.false_and]
    have hW : Dict.WF (exceptionInfo env v f) := WF_exc_stage env hf v
    have hst' := get_exc_stage env f v
    rw [Dict.get?_erase hW]
    by_cases h : n = "exception".toList
    · subst h; simp
    · rw [if_neg (fun e => h e.symm), if_neg h, hst']
      clear hst' hW
      generalize "exception_type".toList = k1
      generalize "exception_message".toList = k2
      generalize "traceback".toList = k3
      generalize "local_variables".toList = k4
      cases v <;> dsimp only
      all_goals
        by_cases h1 : n = k1 <;> by_cases h2 : n = k2 <;> by_cases h3 : n = k3 <;> by_cases h4 : n = k4 <;>
          by_cases h5 : env.localsText = [] <;> simp only [h1, h2, h3, h4, h5] <;> simp_all

theorem messageCall_eq (env : HEnv) (args : List HVal) (kwargs : Dict Str HVal) :
    messageCall env args kwargs =
      match prepareData messageLogger env args kwargs with
      | .error e => .error e
      | .ok f => .ok (if extractException env false false f = [] then none else some (extractException env false false f)) :=
  rfl

/-- **C92** a correct call of `message(...)` never raises; what it asks for is, field by field, what was given, an exception
being replaced by the fields that describe it; and if it asks for nothing, nothing was given. -/
theorem C92_message_asks_for_what_is_given (env : HEnv) (args : List HVal) (kwargs : Dict Str HVal)
    (h : RightMessage env args kwargs) :
    ∃ asked, messageCall env args kwargs = .ok asked ∧
      ∀ name, asked.bind (Dict.get? name) = newValue env (given env.levels args kwargs) name := by
  obtain ⟨f, h1, h2, h3⟩ := prepare_valid (by decide) (rightMessage_iff.1 h)
  have hfun : (fun k => Dict.get? k f) = given env.levels args kwargs := funext h3
  rw [messageCall_eq, h1]
  refine ⟨_, rfl, fun name => ?_⟩
  have hg := get_exception_plain env h2 name
  rw [hfun] at hg
  split
  · rename_i he
    rw [he] at hg
    rw [← hg]; rfl
  · exact hg

/-- **C92**, strict mode: `message(...)` raises exactly when the call has a mistake (calls that give one field under two
names left out). It then asks for nothing, so the record of the call is not changed by it. -/
theorem C92_strict_message_rejects_wrong_calls_partial (env : HEnv) (args : List HVal) (kwargs : Dict Str HVal)
    (hs : env.silent = false) (ha : NoAliases kwargs) :
    (∃ e, messageCall env args kwargs = .error e) ↔ ¬ RightMessage env args kwargs := by
  constructor
  · rintro ⟨e, he⟩ h
    obtain ⟨a, h1, _⟩ := C92_message_asks_for_what_is_given env args kwargs h
    rw [h1] at he; cases he
  · intro h
    have := (base_strict (lg := messageLogger) (by decide) hs ha (fun hv => h (rightMessage_iff.2 hv))).1
    rw [messageCall_eq]
    unfold baseCall at this
    cases hp : prepareData messageLogger env args kwargs with
    | error e => exact ⟨e, rfl⟩
    | ok f =>
      exfalso
      -- a strict mistake is found while the arguments are prepared
      rw [hp] at this
      dsimp only at this
      have hv : ¬ ValidCall messageLogger env args kwargs := fun hv => h (rightMessage_iff.2 hv)
      obtain ⟨e, he⟩ : ∃ e, prepareData messageLogger env args kwargs = .error e := by
        rcases Nat.lt_or_ge 1 args.length with hlen | hlen
        · refine ⟨.valueError, ?_⟩
          unfold prepareData positionArgs
          rw [if_pos hlen]
          unfold maybeRaise
          rw [hs]; rfl
        · rcases valid_iff ha hv with h1 | h1
          · omega
          · obtain ⟨e, he⟩ := kwargs_strict (lg := messageLogger) (args := args) hs (NoAliases.wf ha) kwargs
              _ (fun x hx => hx) ha (fun x _ => position_fresh args x.1)
              (by
                intro m hm _
                rw [(position_dest args).2, if_pos rfl]; exact hm) h1
            refine ⟨e, ?_⟩
            unfold prepareData
            rw [position_ok (by decide) (.inl hlen)]
            exact he
      rw [he] at hp; cases hp

/-- **C92**, loyal mode: `message(...)` does what the same call without its wrong arguments does, and that call is a correct
one. Missing: unknown level names and negative levels, one field under two names (as in C23). -/
theorem C92_loyal_message_ignores_wrong_arguments_partial (env : HEnv) (args : List HVal) (kwargs : Dict Str HVal)
    (hs : env.silent = true) (ha : NoAliases kwargs) (hl : LevelKnown env kwargs) (p : Str × HVal → Bool)
    (hp : ∀ x ∈ kwargs, p x = true ↔ RightArg handleLogger env x.1 x.2 ∧ x.1 ≠ "function".toList ∧
      (x.1 = "message".toList → ∀ m, args.head? = some m → x.2 = m)) :
    RightMessage env (args.take 1) (kwargs.filter p) ∧
    messageCall env args kwargs = messageCall env (args.take 1) (kwargs.filter p) := by
  have hp' : ∀ x ∈ kwargs, p x = true ↔ RightArg messageLogger env x.1 x.2 ∧
      (x.1 = "message".toList → ∀ m, args.head? = some m → x.2 = m) := by
    intro x hx
    rw [hp x hx]
    constructor
    · rintro ⟨⟨_, h2⟩, hf, h3⟩
      exact ⟨⟨fun hm => hf (fullName_function (by simpa [messageLogger] using hm)), h2⟩, h3⟩
    · rintro ⟨⟨h1, h2⟩, h3⟩
      refine ⟨⟨by simp [handleLogger], h2⟩, fun e => ?_, h3⟩
      rw [e] at h1
      exact h1 (by decide)
  have hsub : (kwargs.filter p).Sublist kwargs := List.filter_sublist
  have hv : ValidCall messageLogger env (args.take 1) (kwargs.filter p) :=
    { positional := by simp; omega
      aliases := by
        unfold NoAliases at ha ⊢
        exact List.Nodup.sublist (List.Sublist.map _ hsub) ha
      right := fun k v hkv => by
        obtain ⟨h1, h2⟩ := List.mem_filter.1 hkv
        exact ((hp' _ h1).1 h2).1
      level := fun v hv hty => hl v (hsub.subset hv) hty
      message := fun m v hm hkv => by
        obtain ⟨h1, h2⟩ := List.mem_filter.1 hkv
        refine ((hp' _ h1).1 h2).2 rfl m ?_
        cases args with
        | nil => cases hm
        | cons a l => simp at hm; simp [hm] }
  refine ⟨rightMessage_iff.2 hv, ?_⟩
  rw [messageCall_eq, messageCall_eq]
  have he : prepareData messageLogger env args kwargs = prepareData messageLogger env (args.take 1) (kwargs.filter p) := by
    unfold prepareData
    rw [position_ok (by decide) (.inr hs), position_ok (by decide) (.inr hs)]
    dsimp only
    have hdd : posDest (args.take 1) = posDest args := by cases args <;> rfl
    rw [hdd]
    rw [kwargs_loyal (lg := messageLogger) (args := args) hs (NoAliases.wf ha) p hp' kwargs _
      (fun x hx => hx) ha (fun x _ => position_fresh args x.1)
      (by intro m hm _; rw [(position_dest args).2, if_pos rfl]; exact hm)]
  rw [he]

/-- `message('hi', level='high', e=ValueError('x'))`: a correct call. -/
example : RightMessage (exEnv false) [.str "hi".toList]
    [("level".toList, .str "high".toList), ("e".toList, .exc 0 "ValueError".toList "x".toList)] := by
  refine ⟨⟨by decide, by unfold NoAliases; decide, fun k v h => ?_, fun v h _ => ?_, fun m v _ h => ?_⟩, fun k v h => ?_⟩
  all_goals simp only [List.mem_cons, List.not_mem_nil, or_false, Prod.mk.injEq] at h
  · rcases h with ⟨rfl, rfl⟩ | ⟨rfl, rfl⟩
    · exact ⟨by decide, .inl (.levelName _)⟩
    · exact ⟨by decide, .inl (.exception _ _ _)⟩
  · rcases h with ⟨_, rfl⟩ | ⟨h, _⟩
    · exact ⟨7, .name _ _ (by decide)⟩
    · exact absurd h (by decide)
  · rcases h with ⟨h, _⟩ | ⟨h, _⟩ <;> exact absurd h (by decide)
  · rcases h with ⟨rfl, _⟩ | ⟨rfl, _⟩ <;> decide

/-- It asks for five fields; `success` is not among them. -/
example : messageCall (exEnv false) [.str "hi".toList]
    [("level".toList, .str "high".toList), ("e".toList, .exc 0 "ValueError".toList "x".toList)] =
    .ok (some [("message".toList, .str "hi".toList), ("level".toList, .int 7),
      ("exception_message".toList, .str "x".toList), ("exception_type".toList, .str "ValueError".toList),
      ("traceback".toList, .str "[]".toList)]) := by decide +kernel

/-- `message(function='f')` is a wrong call: rejected in strict mode, ignored otherwise. -/
example : messageCall (exEnv false) [] [("function".toList, .str "f".toList)] = .error .keyError ∧
    messageCall (exEnv true) [] [("function".toList, .str "f".toList)] = .ok none := by decide +kernel

/-- **C92 fails** in loyal mode for a level that is not known: `message('hi', level='nope')` raises in the user's code. -/
theorem C92_loyal_unknown_level_fails :
    ¬ ∀ (env : HEnv) (args : List HVal) (kwargs : Dict Str HVal), env.silent = true →
      ∃ asked, messageCall env args kwargs = .ok asked := by
  intro h
  obtain ⟨a, ha⟩ := h (exEnv true) [.str "hi".toList] [("level".toList, .str "nope".toList)] rfl
  have : messageCall (exEnv true) [.str "hi".toList] [("level".toList, .str "nope".toList)] = .error .keyError := by
    decide +kernel
  rw [this] at ha; cases ha

end Polog
