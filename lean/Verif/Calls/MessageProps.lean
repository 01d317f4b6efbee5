import Verif.Calls.Props
import Verif.Handle.Message

/-! C92: the record of a decorated call in which `message(...)` is called. -/

namespace Polog
open CallSpec HandleSpec MessageSpec

/-- Extractable fields leave the others alone. -/
theorem extracted_other {inter : Bool} {fields : List (Str × Extractor HVal)} {key : Str} {d d' : Dict Str HVal}
    (he : FieldsSpec.Extracted inter fields d d') (hk : key ∉ fields.map Prod.fst) : Dict.get? key d' = Dict.get? key d := by
  induction he with
  | none => rfl
  | @more name f rest d₁ d₂ d₃ ht _ ih =>
    rw [ih (fun hm => hk (List.mem_cons_of_mem _ hm)), ht.1, if_neg (fun e : key = name => hk (by simp [e]))]

/-- What a correct call of `message(...)` is to the code around it. -/
theorem right_message {env : CEnv} {args : List HVal} {kwargs : Dict Str HVal} (h : RightMessage env.h args kwargs) :
    messageRaises env args kwargs = none ∧
      ∀ key, (messageFields env args kwargs).bind (Dict.get? key) = newValue env.h (given env.h.levels args kwargs) key := by
  obtain ⟨asked, h1, h2⟩ := C92_message_asks_for_what_is_given env.h args kwargs h
  unfold messageRaises messageFields
  rw [h1]
  exact ⟨rfl, h2⟩

/-- **C92** a decorated function calls `message(...)` correctly and returns: there is one record, and every field of it that
is not an extractable one has the value the message gives for it, or the automatic one if the message gives none (the
arguments of the call always stay, if it has any). -/
theorem C92_record_has_the_given_fields (env : CEnv) (d : Deco) (info : FnInfo) (args : List HVal) (kwargs : Dict Str HVal)
    (v : Val) (h : RightMessage env.h args kwargs) (hl : GoodLevel env d.level) (hi : info.inputs.isSome = true)
    (hp : v.text.isSome = true) (hpass : Passes env d (.ret v)) :
    ∃ r n, ((Body.call (.logged d info) (.msg args kwargs fun _ => .ret v) andReturn).run env .init).2.records = [r] ∧
      LevelOf env d (.ret v) n ∧
      ∀ key, key ∉ d.inPlace.map Prod.fst →
        Dict.get? key r.data =
          if key = "input_variables".toList ∧ info.inputs.join.isSome = true then autoField env d info (.ret v) none n key
          else (newValue env.h (given env.h.levels args kwargs) key).or (autoField env d info (.ret v) none n key) := by
  obtain ⟨hr, hf⟩ := right_message h
  have hv : Valid env (Body.call (.logged d info) (.msg args kwargs fun _ => .ret v) andReturn) := by
    refine ⟨?_, hl, hi, ?_, ?_⟩
    · simp [Valid]
    · simpa [outcomeOf, Printable] using hp
    · simp [outcomeOf, decoOutcome, andReturn, Valid]
  have hfl : UnlogFlat env false (Body.call (.logged d info) (.msg args kwargs fun _ => .ret v) andReturn) := by
    simp [UnlogFlat, outcomeOf, decoOutcome, andReturn]
  have hs : MsgSafe env false false (Body.call (.logged d info) (.msg args kwargs fun _ => .ret v) andReturn) := by
    refine ⟨rfl, ?_, .inl ⟨rfl, by simpa [outcomeOf] using hpass, ?_⟩, ?_⟩
    · simp [MsgSafe]
    · simp [outcomeOf]
    · simp [outcomeOf, decoOutcome, andReturn, MsgSafe]
  have key := C28_record_has_the_last_own_message_partial env _ hv hfl hs
  have hev : events env false (Body.call (.logged d info) (.msg args kwargs fun _ => .ret v) andReturn) =
      [.ended d info (.ret v) (messageFields env args kwargs)] := by
    simp [events, outcomeOf, decoOutcome, andReturn, ownMessages]
    cases messageFields env args kwargs <;> rfl
  rw [hev, toRecord_pos (show ToRecord env [] (.ended d info (.ret v) _) from hpass)] at key
  cases hrec : ((Body.call (.logged d info) (.msg args kwargs fun _ => .ret v) andReturn).run env .init).2.records with
  | nil => rw [hrec] at key; cases key
  | cons r rest =>
    rw [hrec] at key
    cases key with
    | cons h1 h2 =>
      cases h2
      obtain ⟨_, n, base, hn, hb, hx⟩ := h1
      refine ⟨r, n, rfl, hn, fun name hname => ?_⟩
      have e1 : Dict.get? name r.data = Dict.get? name base := extracted_other hx hname
      rw [e1, hb name, ← hf name]
      unfold autoField
      by_cases hin : name = "input_variables".toList
      · simp only [hin, ↓reduceIte]
        cases hj : info.inputs.join with
        | some t => simp
        | none =>
          simp
          cases (messageFields env args kwargs).bind (Dict.get? _) <;> rfl
      · simp only [hin, ↓reduceIte, false_and]
        cases (messageFields env args kwargs).bind (Dict.get? name) <;> rfl

/-- The hypotheses are met: a function decorated with `@log(level=9)` calls `message('hello', success=False)`. -/
example : RightMessage cEnv.h [.str "hello".toList] [("success".toList, .bool false)] ∧ GoodLevel cEnv (cDeco 9).level ∧
    (cFn "f").inputs.isSome = true ∧ cVal.text.isSome = true ∧ Passes cEnv (cDeco 9) (.ret cVal) := by
  refine ⟨⟨⟨by decide, by unfold NoAliases; decide, fun k v h => ?_, fun v h _ => ?_, fun m v _ h => ?_⟩, fun k v h => ?_⟩,
    .inr ⟨9, rfl, by decide⟩, rfl, rfl, ⟨9, .given _ _ rfl (.number 9 (by decide)), by decide⟩⟩
  all_goals simp only [List.mem_cons, List.not_mem_nil, or_false, Prod.mk.injEq] at h
  · obtain ⟨rfl, rfl⟩ := h
    exact ⟨by decide, .inl (.success _)⟩
  · exact absurd h.1 (by decide)
  · exact absurd h.1 (by decide)
  · obtain ⟨rfl, _⟩ := h; decide

/-- The record then says that the call failed, although it returned. -/
example : ((Body.call (.logged (cDeco 9) (cFn "f")) (.msg [.str "hello".toList] [("success".toList, .bool false)]
      fun _ => .ret cVal) andReturn).run cEnv .init).2.records.map
    (fun r => (Dict.get? "message".toList r.data, Dict.get? "success".toList r.data, Dict.get? "result".toList r.data)) =
    [(some (.str "hello".toList), some (.bool false), some (.str "7".toList))] := by decide +kernel

end Polog
