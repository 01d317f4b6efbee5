import Verif.Calls.Every

/-! C76: the fields every record has. C77: the level filter, for whole programs. -/

namespace Polog
open CallSpec HandleSpec

/-! ### Extractable fields -/

theorem extracted_isSome {inter : Bool} {fields : List (Str × Extractor HVal)} {key : Str} {d d' : Dict Str HVal}
    (h : FieldsSpec.Extracted inter fields d d') (hd : (Dict.get? key d).isSome = true) : (Dict.get? key d').isSome = true := by
  induction h with
  | none => exact hd
  | @more name f rest d₁ d₂ d₃ ht _ ih =>
    refine ih ?_
    rw [ht.1]
    split
    · rename_i hk
      rw [← hk]
      obtain ⟨v, hv⟩ := Option.isSome_iff_exists.1 hd
      rw [hv]
      cases inter <;> cases f d₁ <;> rfl
    · exact hd

/-- Extractable fields do not replace this field: they never do with `fields_intersection=False`, nor if none has this name. -/
theorem extracted_keeps {inter : Bool} {fields : List (Str × Extractor HVal)} {key : Str} {v : HVal} {d d' : Dict Str HVal}
    (h : inter = false ∨ key ∉ fields.map Prod.fst) (he : FieldsSpec.Extracted inter fields d d')
    (hv : Dict.get? key d = some v) : Dict.get? key d' = some v := by
  induction he with
  | none => exact hv
  | @more name f rest d₁ d₂ d₃ ht _ ih =>
    refine ih (h.imp_right fun h hm => h (List.mem_cons_of_mem _ hm)) ?_
    rw [ht.1]
    split
    · rename_i hk
      rcases h with rfl | h
      · rw [← hk, hv]; rfl
      · exact absurd (hk ▸ List.mem_cons_self) h
    · exact hv

/-! ### Manual records -/

theorem field_auto (env : HEnv) (g : Str → Option HVal) : field env g "auto".toList = some (.bool false) := rfl

theorem field_time (env : HEnv) (g : Str → Option HVal) : (field env g "time".toList).isSome = true := by
  unfold field
  repeat rw [if_neg (show ¬ ("time".toList = _) by decide)]
  rw [if_pos rfl]
  cases g "time".toList <;> rfl

/-- What is known about a record made by hand. -/
theorem baseCall_base {lg : HLogger} {env : HEnv} {args : List HVal} {kwargs d : Dict Str HVal}
    (h : d ∈ (baseCall lg env args kwargs).records) : ∃ base n,
      d = extractFrom env.fieldsIntersection env.inPlace base ∧ Dict.get? "level".toList base = some (.int n) ∧
      env.threshold ≤ n ∧ Dict.get? "auto".toList base = some (.bool false) ∧ (Dict.get? "time".toList base).isSome = true := by
  unfold baseCall at h
  split at h
  · cases h
  · rename_i f hf
    have hw := prepareData_wf hf
    unfold basePush at h
    split at h
    · rename_i n hn
      split at h
      · rename_i hle
        split at h
        · cases h
        · rw [List.mem_singleton] at h
          refine ⟨_, n, h, hn, hle, ?_, ?_⟩
          · rw [get_specific env hw, field_auto]
          · rw [get_specific env hw]; exact field_time _ _
      · cases h
    · cases h

/-! ### Messages -/

theorem kwargsToDict_lacks {lg : HLogger} {env : HEnv} {kwargs : Dict Str HVal} {key : Str} :
    ∀ {items : List (Str × HVal)} {dest d : Dict Str HVal}, (∀ x ∈ items, fullName x.1 ≠ key) →
      Dict.get? key dest = none → kwargsToDict lg env kwargs items dest = .ok d → Dict.get? key d = none := by
  intro items
  induction items with
  | nil => intro dest d _ h e; cases e; exact h
  | cons it rest ih =>
    intro dest d hi h e
    simp only [kwargsToDict] at e
    split at e
    · cases e
    · rename_i dest' hs
      refine ih (fun x hx => hi x (List.mem_cons_of_mem _ hx)) ?_ e
      have hm : ∀ {e' : PyErr} {x : Dict Str HVal}, maybeRaise env e' dest = .ok x → Dict.get? key x = none := by
        intro e' x hx
        unfold maybeRaise at hx
        split at hx
        · cases hx; exact h
        · cases hx
      have hne : convertKey it.1 ≠ key := by rw [convertKey_eq]; exact hi it List.mem_cons_self
      have hnn : ∀ v, Dict.get? key (notNoneToDict dest (convertKey it.1) v) = none := by
        intro v
        unfold notNoneToDict
        split
        · exact h
        · rw [Dict.get?_set_ne hne]; exact h
      unfold kwStep at hs
      dsimp only at hs
      split at hs
      · exact hm hs
      · split at hs
        · cases hs
        · split at hs
          · cases hs; exact hnn _
          · split at hs
            · cases hs
            · split at hs
              · exact hm hs
              · cases hs; exact hnn _

theorem messageFields_lacks {env : CEnv} {args : List HVal} {kwargs f : Dict Str HVal} {key : Str}
    (hk : ∀ x ∈ kwargs, fullName x.1 ≠ key)
    (hn : key ∉ ["message", "exception_message", "exception_type", "traceback", "local_variables"].map String.toList)
    (h : messageFields env args kwargs = some f) : Dict.get? key f = none := by
  unfold messageFields at h
  split at h
  · cases h
  · rename_i fields hm
    subst h
    unfold messageCall at hm
    split at hm
    · cases hm
    · rename_i d hp
      dsimp only at hm
      split at hm
      · cases hm
      · cases hm
        simp only [List.map_cons, List.map_nil, List.mem_cons, List.not_mem_nil, or_false, not_or] at hn
        obtain ⟨n1, n2, n3, n4, n5⟩ := hn
        have hd : Dict.get? key d = none := by
          unfold prepareData at hp
          split at hp
          · cases hp
          · rename_i dest hpos
            refine kwargsToDict_lacks hk ?_ hp
            unfold positionArgs at hpos
            split at hpos
            · cases hpos
            · split at hpos
              · cases hpos
              · split at hpos
                · cases hpos; rfl
                · cases hpos
                  unfold Dict.get?
                  rw [if_neg (fun e => n1 e.symm)]
                  rfl
        have hset : ∀ {k : Str} {v : HVal} {m : Dict Str HVal}, key ≠ k → Dict.get? key m = none →
            Dict.get? key (Dict.set k v m) = none := by
          intro k v m hne hm
          rw [Dict.get?_set_ne (fun e => hne e.symm)]; exact hm
        unfold extractException
        split
        · exact hd
        · rename_i v _
          dsimp only
          rw [if_neg (by simp), if_neg (by simp)]
          have he : Dict.get? key (exceptionInfo env.h v d) = none := by
            unfold exceptionInfo
            split
            · dsimp only
              split
              · exact hset n4 (hset n3 (hset n2 hd))
              · exact hset n5 (hset n4 (hset n3 (hset n2 hd)))
            · exact hset n3 hd
            · exact hd
          rw [Dict.get?_eq_none_iff] at he ⊢
          exact fun hmem => he ((Dict.keys_erase_sub _ _).subset hmem)

theorem lacks_key {b : Body} {key : Str} (h : NoMessageGives b key) (hf : ∀ k : Str, fullName k = key → k = key)
    {args : List HVal} {kwargs : Dict Str HVal} (hs : SaysMessage b args kwargs) : ∀ x ∈ kwargs, fullName x.1 ≠ key := by
  intro x hx he
  have := hf _ he
  exact h args kwargs hs (this ▸ List.mem_map_of_mem hx)

theorem fullName_auto (k : Str) (h : fullName k = "auto".toList) : k = "auto".toList := by
  unfold fullName at h
  split at h
  · exact absurd h (by decide)
  split at h
  · exact absurd h (by decide)
  split at h
  · exact absurd h (by decide)
  · exact h

theorem autoField_of_lacks {env : CEnv} {d : Deco} {info : FnInfo} {o : Outcome} {msg : Option (Dict Str HVal)} {n : Int} {key : Str}
    (hk : key ≠ "input_variables".toList) (hm : ∀ f, msg = some f → Dict.get? key f = none) :
    autoField env d info o msg n key = autoField env d info o none n key := by
  unfold autoField
  rw [if_neg hk]
  cases msg with
  | none => rfl
  | some f => simp only [Option.bind, hm f rfl]

theorem autoField_isSome {env : CEnv} {d : Deco} {info : FnInfo} {o : Outcome} {msg : Option (Dict Str HVal)} {n : Int} {key : Str}
    (h : (autoField env d info o none n key).isSome = true) : (autoField env d info o msg n key).isSome = true := by
  unfold autoField at h ⊢
  split at h
  · rfl
  · rename_i hi
    cases hm : msg.bind (Dict.get? key) with
    | some v => rfl
    | none => exact h

/-! ### C76 -/

/-- **C76**: every record of every program, whatever its arguments, messages and extractable fields, has the fields `level`, `auto` and
`time`. -/
theorem C76_mandatory_fields (env : CEnv) (b : Body) : ∀ r ∈ (b.run env .init).2.records,
    (Dict.get? "level".toList r.data).isSome = true ∧ (Dict.get? "auto".toList r.data).isSome = true ∧
    (Dict.get? "time".toList r.data).isSome = true := by
  intro r hr
  have manual : ∀ lg args kwargs, r.data ∈ (baseCall lg { env.h with unlogged := false } args kwargs).records →
      (Dict.get? "level".toList r.data).isSome = true ∧ (Dict.get? "auto".toList r.data).isSome = true ∧
      (Dict.get? "time".toList r.data).isSome = true := by
    intro lg args kwargs h
    obtain ⟨base, n, h1, h2, _, h3, h4⟩ := baseCall_base h
    rw [h1]
    have hd := extractFrom_extracted env.h.fieldsIntersection env.h.inPlace base
    exact ⟨extracted_isSome hd (by rw [h2]; rfl), extracted_isSome hd (by rw [h3]; rfl), extracted_isSome hd h4⟩
  cases C75_every_record_has_a_cause env b r hr with
  | call d info o callee k msg _ _ _ h =>
    obtain ⟨_, n, base, _, hg, hd⟩ := h
    refine ⟨extracted_isSome hd ?_, extracted_isSome hd ?_, extracted_isSome hd ?_⟩ <;>
      (rw [hg]; exact autoField_isSome rfl)
  | manual args kwargs k _ _ h => exact manual _ _ _ h
  | block o inner k out _ _ h => exact manual _ _ _ h

/-- **C76**: the field `auto` tells the truth: it is `True` in exactly the records made by decorators.

Partial: if no message in the program has a field `auto`, and no extractable field replaces it. -/
theorem C76_auto_is_true_exactly_for_decorators_partial (env : CEnv) (b : Body) (hm : NoMessageGives b "auto".toList)
    (hx : ExtraFieldsKeep env b "auto".toList) :
    ∀ r ∈ (b.run env .init).2.records, Dict.get? "auto".toList r.data = some (.bool r.origin.isAuto) := by
  intro r hr
  have manual : ∀ lg args kwargs, r.origin.isAuto = false →
      r.data ∈ (baseCall lg { env.h with unlogged := false } args kwargs).records →
      Dict.get? "auto".toList r.data = some (.bool r.origin.isAuto) := by
    intro lg args kwargs ho h
    obtain ⟨base, n, h1, h2, _, h3, h4⟩ := baseCall_base h
    rw [h1, ho]
    exact extracted_keeps (hx.imp_right And.left) (extractFrom_extracted ..) h3
  cases C75_every_record_has_a_cause env b r hr with
  | call d info o callee k msg hp _ hmsg h =>
    obtain ⟨ho, n, base, _, hg, hd⟩ := h
    rw [ho]
    refine extracted_keeps (hx.imp_right fun h => h.2 d info callee k hp) hd ?_
    rw [hg, autoField_of_lacks (by decide) ?_]
    · rfl
    · rintro f rfl
      obtain ⟨args, kwargs, hs, hf⟩ := hmsg
      exact messageFields_lacks (lacks_key hm fullName_auto hs) (by decide) hf
  | manual args kwargs k _ ho h => exact manual _ _ _ (by rw [ho]; rfl) h
  | block o inner k out _ ho h => exact manual _ _ _ (by rw [ho]; rfl) h

/-- **C76 fails**: "you cannot control this" (README, the field `auto`): `message(auto=False)` can. -/
theorem C76_auto_can_be_forged_fails : ∃ (env : CEnv) (b : Body), Valid env b ∧ ExtraFieldsKeep env b "auto".toList ∧
    ∃ r ∈ (b.run env .init).2.records, r.origin.isAuto = true ∧ Dict.get? "auto".toList r.data = some (.bool false) := by
  refine ⟨{ cEnv with h := { cEnv.h with unknownAllowed := true } }, .call (.logged (cDeco 9) (cFn "f"))
    (.msg [] [("auto".toList, .bool false)] fun _ => .ret cVal) andReturn, ?_, .inl rfl, ?_⟩
  · exact ⟨trivial, .inr ⟨9, rfl, by decide⟩, rfl, rfl, trivial⟩
  · have : ((((Body.call (.logged (cDeco 9) (cFn "f")) (.msg [] [("auto".toList, .bool false)] fun _ => .ret cVal) andReturn).run
        { cEnv with h := { cEnv.h with unknownAllowed := true } } .init).2.records.map fun r =>
        (r.origin.isAuto, Dict.get? "auto".toList r.data)) = [(true, some (.bool false))]) := by decide +kernel
    generalize Prod.snd (Body.run _ _ _) = s at this ⊢
    obtain ⟨r, hr, he⟩ := List.mem_map.1 (this ▸ List.mem_singleton.2 rfl : (true, some (HVal.bool false)) ∈ _)
    exact ⟨r, hr, congrArg Prod.fst he, congrArg Prod.snd he⟩

-- a program with an automatic and a manual record that meets the hypotheses
def autoProg : Body :=
  .call (.logged (cDeco 9) (cFn "outer")) (.msg [.str "hello".toList] [] fun _ =>
    .manual [.str "by hand".toList] [("level".toList, .int 4)] fun _ => .ret cVal) andReturn

theorem autoProg_parts {p : Body} (h : Part p autoProg) : p = autoProg ∨
    (∃ k, p = .msg [.str "hello".toList] [] k) ∨ (∃ k, p = .manual [.str "by hand".toList] [("level".toList, .int 4)] k) ∨
    (∃ v, p = .ret v) ∨ (∃ e, p = .raise e) := by
  cases h with
  | self => exact .inl rfl
  | callee _ _ _ h =>
    cases h with
    | self => exact .inr (.inl ⟨_, rfl⟩)
    | afterMessage _ _ _ _ h =>
      cases h with
      | self => exact .inr (.inr (.inl ⟨_, rfl⟩))
      | afterManual _ _ _ _ h => cases h; exact .inr (.inr (.inr (.inl ⟨_, rfl⟩)))
  | afterCall _ _ _ o h =>
    cases o with
    | ret v => cases h; exact .inr (.inr (.inr (.inl ⟨_, rfl⟩)))
    | raised e => cases h; exact .inr (.inr (.inr (.inr ⟨_, rfl⟩)))

theorem autoProg_messages (key : Str) : NoMessageGives autoProg key := by
  rintro args kwargs ⟨k, h⟩
  rcases autoProg_parts h with h | ⟨_, h⟩ | ⟨_, h⟩ | ⟨_, h⟩ | ⟨_, h⟩
  · cases h
  · cases h; exact (fun h => nomatch h)
  · cases h
  · cases h
  · cases h

example : NoMessageGives autoProg "auto".toList ∧ ExtraFieldsKeep cEnv autoProg "auto".toList ∧
    (autoProg.run cEnv .init).2.records.map (fun r => r.origin.isAuto) = [false, true] :=
  ⟨autoProg_messages _, .inl rfl, by decide +kernel⟩

/-! ### C77 -/

/-- **C77**: no record of any program has a level below the setting `level`.

Partial: if no message in the program has a field `level`, and no extractable field replaces it. -/
theorem C77_nothing_below_the_threshold_partial (env : CEnv) (b : Body) (hm : NoMessageGives b "level".toList)
    (hx : ExtraFieldsKeep env b "level".toList) :
    ∀ r ∈ (b.run env .init).2.records, ∃ n, Dict.get? "level".toList r.data = some (.int n) ∧ env.h.threshold ≤ n := by
  intro r hr
  have manual : ∀ lg args kwargs, r.data ∈ (baseCall lg { env.h with unlogged := false } args kwargs).records →
      ∃ n, Dict.get? "level".toList r.data = some (.int n) ∧ env.h.threshold ≤ n := by
    intro lg args kwargs h
    obtain ⟨base, n, h1, h2, h5, h3, h4⟩ := baseCall_base h
    rw [h1]
    exact ⟨n, extracted_keeps (hx.imp_right And.left) (extractFrom_extracted ..) h2, h5⟩
  cases C75_every_record_has_a_cause env b r hr with
  | call d info o callee k msg hp hpass hmsg h =>
    obtain ⟨ho, n, base, hl, hg, hd⟩ := h
    have hn : env.h.threshold ≤ n := by
      cases o with
      | ret v => obtain ⟨m, h1, h2⟩ := hpass; rw [normalLevel_fun hl h1]; exact h2
      | raised e => obtain ⟨m, h1, h2⟩ := hpass; rw [errorLevel_fun hl h1]; exact h2
    refine ⟨n, ?_, hn⟩
    refine extracted_keeps (hx.imp_right fun h => h.2 d info callee k hp) hd ?_
    rw [hg, autoField_of_lacks (by decide) ?_]
    · rfl
    · rintro f rfl
      obtain ⟨args, kwargs, hs, hf⟩ := hmsg
      exact messageFields_lacks (lacks_key hm (fun _ => fullName_level) hs) (by decide) hf
  | manual args kwargs k _ ho h => exact manual _ _ _ h
  | block o inner k out _ ho h => exact manual _ _ _ h

/-- **C77 fails**: the level filter looks at the level of the decorator before the message changes it, so `message(level=0)` makes a
record with a level below the setting `level`. -/
theorem C77_message_puts_a_record_below_the_threshold_fails : ∃ (env : CEnv) (b : Body), Valid env b ∧
    ExtraFieldsKeep env b "level".toList ∧
    ∃ r ∈ (b.run env .init).2.records, Dict.get? "level".toList r.data = some (.int 0) ∧ 0 < env.h.threshold := by
  refine ⟨cEnv, .call (.logged (cDeco 9) (cFn "f"))
    (.msg [] [("level".toList, .int 0)] fun _ => .ret cVal) andReturn, ?_, .inl rfl, ?_⟩
  · exact ⟨trivial, .inr ⟨9, rfl, by decide⟩, rfl, rfl, trivial⟩
  · have : ((((Body.call (.logged (cDeco 9) (cFn "f")) (.msg [] [("level".toList, .int 0)] fun _ => .ret cVal) andReturn).run
        cEnv .init).2.records.map fun r => Dict.get? "level".toList r.data) = [some (.int 0)]) := by decide +kernel
    generalize Prod.snd (Body.run _ _ _) = s at this ⊢
    obtain ⟨r, hr, he⟩ := List.mem_map.1 (this ▸ List.mem_singleton.2 rfl : some (HVal.int 0) ∈ _)
    exact ⟨r, hr, he, by decide⟩

example : NoMessageGives autoProg "level".toList ∧ ExtraFieldsKeep cEnv autoProg "level".toList ∧
    (autoProg.run cEnv .init).2.records.map (fun r => Dict.get? "level".toList r.data) = [some (.int 4), some (.int 9)] ∧
    cEnv.h.threshold = 3 :=
  ⟨autoProg_messages _, .inl rfl, by decide +kernel, rfl⟩

end Polog
