import Verif.Calls.Mandatory
import Verif.LogItem.Props

/-! C50: extra fields that a user registers never replace a field that Polog fills itself, even with `fields_intersection=True`. -/

namespace Polog
open CallSpec HandleSpec

/-- The names of fields that Polog fills itself, whatever the program: the list of fields in README.md:1130-1155. -/
def FieldsSpec.ownNames : List Str :=
  ["level", "auto", "time", "service_name", "success", "function", "class", "module", "message", "exception_type",
   "exception_message", "traceback", "input_variables", "local_variables", "result", "time_of_work"].map String.toList

theorem autoField_own {env : CEnv} {d : Deco} {info : FnInfo} {o : Outcome} {n : Int} {key : Str}
    (h : (autoField env d info o none n key).isSome = true) : key ∈ FieldsSpec.ownNames := by
  by_contra hk
  have hne : ∀ s ∈ FieldsSpec.ownNames, key ≠ s := fun s hs e => hk (e ▸ hs)
  unfold autoField at h
  rw [if_neg (hne _ (by decide))] at h
  simp only [Option.bind] at h
  rw [if_neg (hne _ (by decide)), if_neg (hne _ (by decide)), if_neg (hne _ (by decide)), if_neg (hne _ (by decide)),
    if_neg (hne _ (by decide)), if_neg (hne _ (by decide)), if_neg (hne _ (by decide)), if_neg (hne _ (by decide)),
    if_neg (hne _ (by decide))] at h
  cases o with
  | ret v =>
    dsimp only at h
    rw [if_neg (hne _ (by decide)), if_neg (hne _ (by decide))] at h
    cases h
  | raised e =>
    dsimp only at h
    rw [if_neg (hne _ (by decide)), if_neg (hne _ (by decide)), if_neg (hne _ (by decide)), if_neg (hne _ (by decide)),
      if_neg (hne _ (by decide))] at h
    cases h

theorem field_own {env : HEnv} {g : Str → Option HVal} {key : Str} {v : HVal} (h : field env g key = some v) (hv : g key ≠ some v) :
    key ∈ FieldsSpec.ownNames := by
  by_contra hk
  have hne : ∀ s ∈ FieldsSpec.ownNames, key ≠ s := fun s hs e => hk (e ▸ hs)
  unfold field at h
  rw [if_neg (hne _ (by decide)), if_neg (hne _ (by decide))] at h
  split at h
  · cases h
  · rw [if_neg (hne _ (by decide)), if_neg (hne _ (by decide)), if_neg (hne _ (by decide)), if_neg (hne _ (by decide)),
      if_neg (hne _ (by decide)), if_neg (hne _ (by decide)), if_neg (hne _ (by decide)), if_neg (hne _ (by decide)),
      if_neg (hne _ (by decide))] at h
    exact hv h

theorem ownNames_builtIn : ∀ key ∈ FieldsSpec.ownNames, key ∈ FieldsSpec.standardFields := by decide +kernel

theorem registered_not_own {F : Type} (isId : Str → Bool) (history : List (FieldCall F)) {key : Str} (h : key ∈ FieldsSpec.ownNames) :
    key ∉ Dict.keys (FieldStore.empty.calls isId history).inPlace ∧ key ∉ Dict.keys (FieldStore.empty.calls isId history).engine :=
  ⟨fun hm => (C50_field_names_never_shadow isId history key (.inl hm)).2.2 (ownNames_builtIn key h),
    fun hm => (C50_field_names_never_shadow isId history key (.inr hm)).2.2 (ownNames_builtIn key h)⟩

/-- **C50**: whatever was done with `add_fields`, `add_engine_fields`, `delete_fields` and `delete_engine_fields`, the extraction of
the registered fields leaves every field that a decorator fills itself as it was, for all calls, and every value of
`fields_intersection`. -/
theorem C50_registered_fields_keep_automatic_fields (isId : Str → Bool) (history : List (FieldCall (Extractor HVal))) (inter : Bool)
    (env : CEnv) (d : Deco) (info : FnInfo) (o : Outcome) (n : Int) (key : Str)
    (hkey : (autoField env d info o none n key).isSome = true) (data : Dict Str HVal) :
    let s := FieldStore.empty.calls isId history
    Dict.get? key (extractFrom inter s.engine (extractFrom inter s.inPlace data)) = Dict.get? key data := by
  intro s
  obtain ⟨h1, h2⟩ := registered_not_own isId history (autoField_own hkey)
  rw [extractFrom_get_other _ _ _ h2, extractFrom_get_other _ _ _ h1]

/-- **C50**: the same for the fields a manual log fills itself: those with a value that was not given for this field. -/
theorem C50_registered_fields_keep_manual_fields (isId : Str → Bool) (history : List (FieldCall (Extractor HVal))) (inter : Bool)
    (env : HEnv) (g : Str → Option HVal) (key : Str) (v : HVal) (hkey : field env g key = some v) (hv : g key ≠ some v)
    (data : Dict Str HVal) :
    let s := FieldStore.empty.calls isId history
    Dict.get? key (extractFrom inter s.engine (extractFrom inter s.inPlace data)) = Dict.get? key data := by
  intro s
  obtain ⟨h1, h2⟩ := registered_not_own isId history (field_own hkey hv)
  rw [extractFrom_get_other _ _ _ h2, extractFrom_get_other _ _ _ h1]

theorem CallSpec.OnlyRegistered.keep {isId : Str → Bool} {env : CEnv} {b : Body} (h : OnlyRegistered isId env b) {key : Str}
    (hk : key ∈ FieldsSpec.ownNames) : ExtraFieldsKeep env b key := by
  obtain ⟨⟨history, hi⟩, hd⟩ := h
  have : key ∉ env.h.inPlace.map Prod.fst := by rw [hi]; exact (registered_not_own isId history hk).1
  exact .inr ⟨this, fun d info callee k hp => by rw [hd d info callee k hp]; exact this⟩

/-- **C76** with registered extra fields, whatever their values and `fields_intersection`.

Partial: if no message in the program has a field `auto`, and no decorator has extra fields of its own. -/
theorem C76_auto_with_registered_fields_partial (isId : Str → Bool) (env : CEnv) (b : Body) (hr : OnlyRegistered isId env b)
    (hm : NoMessageGives b "auto".toList) :
    ∀ r ∈ (b.run env .init).2.records, Dict.get? "auto".toList r.data = some (.bool r.origin.isAuto) :=
  C76_auto_is_true_exactly_for_decorators_partial env b hm (CallSpec.OnlyRegistered.keep hr (by decide))

/-- **C77** with registered extra fields, whatever their values and `fields_intersection`.

Partial: if no message in the program has a field `level`, and no decorator has extra fields of its own. -/
theorem C77_threshold_with_registered_fields_partial (isId : Str → Bool) (env : CEnv) (b : Body) (hr : OnlyRegistered isId env b)
    (hm : NoMessageGives b "level".toList) :
    ∀ r ∈ (b.run env .init).2.records, ∃ n, Dict.get? "level".toList r.data = some (.int n) ∧ env.h.threshold ≤ n :=
  C77_nothing_below_the_threshold_partial env b hm (CallSpec.OnlyRegistered.keep hr (by decide))

/-- Settings with `fields_intersection=True` and a registered field `ip`. -/
def ipEnv : CEnv :=
  { cEnv with h := { cEnv.h with fieldsIntersection := true, inPlace := [("ip".toList, fun _ => .ok (.str "::1".toList))] } }

def ipDeco : Deco := { cDeco 9 with inPlace := ipEnv.h.inPlace }

def ipProg : Body := .call (.logged ipDeco (cFn "outer")) (.ret cVal) andReturn

example : OnlyRegistered (fun _ => true) ipEnv ipProg ∧ NoMessageGives ipProg "auto".toList ∧
    (ipProg.run ipEnv .init).2.records.map (fun r => Dict.get? "ip".toList r.data) = [some (.str "::1".toList)] := by
  refine ⟨⟨⟨[.addFields [("ip".toList, some fun _ => .ok (.str "::1".toList))]], rfl⟩, ?_⟩, ?_, by decide +kernel⟩
  · intro d info callee k h
    cases h with
    | self => rfl
    | callee _ _ _ h => cases h
    | afterCall _ _ _ o h => cases o <;> cases h
  · rintro args kwargs ⟨k, h⟩
    cases h with
    | callee _ _ _ h => cases h
    | afterCall _ _ _ o h => cases o <;> cases h

-- `time_of_work` is one of the fields a decorator fills itself
example : (autoField cEnv (cDeco 9) (cFn "f") (.ret cVal) none 9 "time_of_work".toList).isSome = true := by decide +kernel

/-- **C50 fails for the fields of one decorator**: their names are not checked, so with `fields_intersection=True`
`@log(extra_fields={'level': field(...)})` replaces the level of the record, and it may be below the setting `level`. -/
theorem C50_fields_of_a_decorator_replace_the_level_fails : ∃ (env : CEnv) (f : Extractor HVal) (own : Dict Str (Extractor HVal)) (b : Body),
    (getExtraFields (.dict [(some "level".toList, some f)])).1 = .ok (.container own false) ∧
    b = .call (.logged { cDeco 9 with inPlace := (FieldsSource.container own false).items env.h.inPlace } (cFn "f"))
      (.ret cVal) andReturn ∧ Valid env b ∧ NoMessageGives b "level".toList ∧
    ∃ r ∈ (b.run env .init).2.records, Dict.get? "level".toList r.data = some (.int 0) ∧ 0 < env.h.threshold := by
  refine ⟨{ cEnv with h := { cEnv.h with fieldsIntersection := true } }, fun _ => .ok (.int 0),
    [("level".toList, fun _ => .ok (.int 0))], _, rfl, rfl, ?_, ?_, ?_⟩
  · exact ⟨trivial, .inr ⟨9, rfl, by decide⟩, rfl, rfl, trivial⟩
  · rintro args kwargs ⟨k, h⟩
    cases h with
    | callee _ _ _ h => cases h
    | afterCall _ _ _ o h => cases o <;> cases h
  · generalize hb : Body.run _ _ _ = s
    have : s.2.records.map (fun r => Dict.get? "level".toList r.data) = [some (.int 0)] := by
      rw [← hb]; decide +kernel
    obtain ⟨r, hr, he⟩ := List.mem_map.1 (this ▸ List.mem_singleton.2 rfl : some (HVal.int 0) ∈ _)
    exact ⟨r, hr, he, by decide⟩

end Polog
