import Verif.LogItem.Lemmas
import Verif.Tree.Props

/-! Property theorems: C12, C13, C14, C15, C16, C54 and the second half of C50. -/

namespace Polog

variable {V : Type}

/-! ### C12 -/

/-- **C12.** Whatever the handlers do with the dictionary interface of a log (any number of handlers,
any terminating bodies that may depend on what they read), the log is the same afterwards, and every
handler was given the unchanged log. -/
theorem C12_handlers_cannot_modify {H E : Type} (body : H → Prog V E) (hs : List H) (l : LogItem V) :
    (callHandlers body hs l).1 = l ∧ ∀ r ∈ (callHandlers body hs l).2.1, r.log = l := by
  rw [callHandlers_eq]
  refine ⟨rfl, ?_⟩
  intro r hr
  simp only [List.mem_map] at hr
  obtain ⟨h, _, rfl⟩ := hr
  rfl

/-- **C12.** Every item assignment and deletion raises `RewritingLogError`. -/
theorem C12_assignment_and_deletion_raise (l : LogItem V) (k : Str) (v : V) :
    l.op (.setitem k v) = (l, .raised .rewritingLog) ∧ l.op (.delitem k) = (l, .raised .rewritingLog) :=
  ⟨rfl, rfl⟩

/-- A handler that reads a field, tries to change the log and reports what it saw. -/
def nosyHandler : Prog Nat Nat :=
  .op (.setitem "a".toList 7) fun _ => .op (.delitem "a".toList) fun _ => .op (.getitem "a".toList) fun r =>
    match r with
    | .value v => .emit v .throw
    | _ => .ret

example : callHandlers (fun _ : Nat => nosyHandler) [0, 1] ⟨some [("a".toList, 5)]⟩
    = (⟨some [("a".toList, 5)]⟩,
       [⟨0, ⟨some [("a".toList, 5)]⟩, [5]⟩, ⟨1, ⟨some [("a".toList, 5)]⟩, [5]⟩], .returned) := by
  decide +kernel

/-! ### C13 -/

/-- **C13, logs with a time.** All six comparisons of two logs agree with comparing their times. -/
theorem C13_compare_as_times (a b : Int) :
    (logEq (some a) (.log (some b)) = true ↔ a = b) ∧
    (logNe (some a) (.log (some b)) = true ↔ a ≠ b) ∧
    (logLt (some a) (.log (some b)) = .ok true ↔ a < b) ∧
    (logGt (some a) (.log (some b)) = .ok true ↔ a > b) ∧
    (logLe (some a) (.log (some b)) = .ok true ↔ a ≤ b) ∧
    (logGe (some a) (.log (some b)) = .ok true ↔ a ≥ b) := by
  simp [logEq, logNe, logLt, logGt, logLe, logGe, logCompare, logCompareOrRaise]

/-- **C13.** Exactly one of `<`, `==`, `>` holds. -/
theorem C13_trichotomy (a b : Int) :
    let lt := logLt (some a) (.log (some b)) = .ok true
    let eq := logEq (some a) (.log (some b)) = true
    let gt := logGt (some a) (.log (some b)) = .ok true
    (lt ∧ ¬eq ∧ ¬gt) ∨ (¬lt ∧ eq ∧ ¬gt) ∨ (¬lt ∧ ¬eq ∧ gt) := by
  obtain ⟨h1, _, h3, h4, _, _⟩ := C13_compare_as_times a b
  simp only [h1, h3, h4]
  omega

/-- **C13.** Among logs with a time, `==` is an equivalence compatible with `hash`. -/
theorem C13_eq_equivalence_and_hash (hash : Option Int → Nat) (a b c : Int) :
    logEq (some a) (.log (some a)) = true ∧
    (logEq (some a) (.log (some b)) = true → logEq (some b) (.log (some a)) = true) ∧
    (logEq (some a) (.log (some b)) = true → logEq (some b) (.log (some c)) = true →
      logEq (some a) (.log (some c)) = true) ∧
    (logEq (some a) (.log (some b)) = true → logHash hash (some a) = logHash hash (some b)) := by
  simp only [(C13_compare_as_times _ _).1]
  refine ⟨trivial, fun h => h.symm, fun h1 h2 => h1.trans h2, ?_⟩
  rintro rfl; rfl

/-- **C13, anything else.** If either log has no time or the other object is not a log, `==` is
`False`, `!=` is `True` and every ordering raises `TypeError`. -/
theorem C13_incomparable (self : Option Int) (that : CmpObj)
    (h : self = none ∨ that = .other ∨ that = .log none) :
    logEq self that = false ∧ logNe self that = true ∧
    logLt self that = .error .typeError ∧ logGt self that = .error .typeError ∧
    logLe self that = .error .typeError ∧ logGe self that = .error .typeError := by
  rcases h with rfl | rfl | rfl
  · cases that with
    | log t => cases t <;> simp [logEq, logNe, logLt, logGt, logLe, logGe, logCompare, logCompareOrRaise]
    | other => simp [logEq, logNe, logLt, logGt, logLe, logGe, logCompare, logCompareOrRaise]
  · simp [logEq, logNe, logLt, logGt, logLe, logGe, logCompare, logCompareOrRaise]
  · cases self <;> simp [logEq, logNe, logLt, logGt, logLe, logGe, logCompare, logCompareOrRaise]

/-- **C13.** `==` and `!=` are complementary for all objects. -/
theorem C13_ne_is_not_eq (self : Option Int) (that : CmpObj) : logNe self that = !logEq self that := by
  cases that with
  | other => rfl
  | log t =>
    cases self <;> cases t <;> simp [logEq, logNe, logCompare, bne]

/-- **C13.** A list of logs is sorted for Python (no later element `<` an earlier one) iff its times
are non-decreasing. -/
theorem C13_sorted_by_time (times : List Int) :
    times.Pairwise (fun a b => logLt (some b) (.log (some a)) = .ok false) ↔ times.Pairwise (· ≤ ·) := by
  have : ∀ a b : Int, logLt (some b) (.log (some a)) = .ok false ↔ a ≤ b := by
    intro a b; simp [logLt, logCompareOrRaise]
  simp only [this]

/-- A log without a time is not even equal to itself. -/
example : logEq none (.log none) = false := rfl

/-! ### C14 -/

/-- **C14.** Processing a log calls every handler of its list exactly once, in order, with the log as
it is after the extraction of the engine fields, whatever any of them does or raises; nothing leaves
the processing. -/
theorem C14_each_handler_exactly_once {H E : Type} (inter : Bool) (engineFields : List (Str × Extractor V))
    (body : H → Prog V E) (hs : List H) (l : LogItem V) :
    let r := processLog inter engineFields body hs l
    let seen : LogItem V := ⟨some (extractFrom inter engineFields l.dict)⟩
    r.2.2 = .returned ∧ r.2.1.map CallRecord.handler = hs ∧
    ∀ c ∈ r.2.1, c.log = seen ∧ c.effects = ((body c.handler).run seen).2.1 := by
  simp only [processLog, callHandlers_eq, List.map_map]
  refine ⟨trivial, ?_, ?_⟩
  · have : (CallRecord.handler ∘ fun h => (⟨h, ⟨some (extractFrom inter engineFields l.dict)⟩,
        ((body h).run ⟨some (extractFrom inter engineFields l.dict)⟩).2.1⟩ : CallRecord H V E)) = id := rfl
    rw [this, List.map_id]
  · intro c hc
    simp only [List.mem_map] at hc
    obtain ⟨h, _, rfl⟩ := hc
    exact ⟨rfl, rfl⟩

/-- **C14, namespace.** With the handlers of a namespace, the calls are in one-to-one correspondence
with the registered keys: each registered key's handler is called once, shallower keys first. -/
theorem C14_each_registered_key_once {H E : Type} (isId : Str → Bool) (okValue : H → Bool)
    (hId : isId [] = false) (t : Tree H) (ht : Tree.Reachable isId okValue t) (inter : Bool)
    (engineFields : List (Str × Extractor V)) (body : H → Prog V E) (l : LogItem V) :
    ∃ keys : List Str, keys.Nodup ∧ (∀ k, k ∈ keys ↔ ∃ h, t.getitem isId (.str k) = .ok h) ∧
      (keys.map TreeSpec.depth).Pairwise (· ≤ ·) ∧
      keys.map (fun k => t.getitem isId (.str k))
        = (processLog inter engineFields body t.iter l).2.1.map (fun c => .ok c.handler) := by
  obtain ⟨keys, h1, h2, h3, h4, _⟩ := C02_iteration_complete_and_exact isId okValue hId t ht
  refine ⟨keys, h1, h2, h4, ?_⟩
  have h := (C14_each_handler_exactly_once inter engineFields body t.iter l).2.1
  rw [h3]
  conv => lhs; rw [← h]
  rw [List.map_map]
  rfl

example : ((processLog (V := Nat) (E := Nat) false [] (fun n : Nat => if n = 1 then .throw else .emit n .ret)
    [1, 2, 1] ⟨some []⟩).2.1.map CallRecord.effects) = [[], [2], []] := by decide +kernel

/-! ### C15 -/

/-- **C15.** Extraction of a dictionary of fields (distinct names), seen at one of its fields
`(name, f)`: `f` is called once, on the log as left by the fields before it. The record finally holds
under `name`: the value `f` returned, if the name was absent or `fields_intersection` is on; the
previous content (or nothing) if `f` raised; the previous content if the name was present and
`fields_intersection` is off.  The fields after it do not matter. -/
theorem C15_field_value (inter : Bool) (pre post : List (Str × Extractor V)) (name : Str)
    (f : Extractor V) (hnd : ((pre ++ (name, f) :: post).map Prod.fst).Nodup) (d : Dict Str V) :
    Dict.get? name (extractFrom inter (pre ++ (name, f) :: post) d) =
      FieldsSpec.stored (Dict.get? name d) inter (f (extractFrom inter pre d)) := by
  rw [List.map_append, List.map_cons, List.nodup_append, List.nodup_cons] at hnd
  obtain ⟨_, ⟨hpost, _⟩, hpre⟩ := hnd
  have hpre' : name ∉ pre.map Prod.fst := fun h => hpre name h name (by simp) rfl
  have h1 : (pre ++ (name, f) :: post) = pre ++ ([(name, f)] ++ post) := by simp
  rw [h1, extractFrom_append, extractFrom_append, extractFrom_get_other inter post name hpost,
    extractFrom_one, extractFrom_get_other inter pre name hpre']

/-- **C15.** All of it at once: the fields are taken one after another, in the order in which they were registered, each from
the record as the ones before it left it; nothing else of the record changes, not even the order. -/
theorem C15_fields_are_taken_in_order (inter : Bool) (fields : List (Str × Extractor V)) (d : Dict Str V) :
    FieldsSpec.Extracted inter fields d (extractFrom inter fields d) := extractFrom_extracted inter fields d

/-- **C15.** And this says exactly what the record is. -/
theorem C15_record_exactly (inter : Bool) (fields : List (Str × Extractor V)) (d d' : Dict Str V) (hd : Dict.WF d) :
    FieldsSpec.Extracted inter fields d d' ↔ d' = extractFrom inter fields d :=
  ⟨fun h => h.eq hd, fun h => h ▸ extractFrom_extracted inter fields d⟩

/-- **C15.** Everything that is not the name of an extracted field is left alone. -/
theorem C15_other_fields_untouched (inter : Bool) (fields : List (Str × Extractor V)) (k : Str)
    (hk : k ∉ fields.map Prod.fst) (d : Dict Str V) :
    Dict.get? k (extractFrom inter fields d) = Dict.get? k d :=
  extractFrom_get_other inter fields k hk d

/-- **C15.** A field whose extractor raises has no influence on anything: the result is the same as
if it was not configured. -/
theorem C15_raising_extractor_is_isolated (inter : Bool) (pre post : List (Str × Extractor V))
    (name : Str) (f : Extractor V) (d : Dict Str V)
    (hr : f (extractFrom inter pre d) = .error ()) :
    extractFrom inter (pre ++ (name, f) :: post) d = extractFrom inter (pre ++ post) d := by
  simp only [extractFrom_append, extractFrom, hr]
  split <;> rfl

/-- **C15.** When the extractors do not look at the log, each field's outcome is independent of the
others. -/
theorem C15_independent (inter : Bool) (fields : List (Str × Except Unit V))
    (hnd : (fields.map Prod.fst).Nodup) (name : Str) (r : Except Unit V) (hm : (name, r) ∈ fields)
    (d : Dict Str V) :
    Dict.get? name (extractFrom inter (fields.map fun x => (x.1, fun _ => x.2)) d) =
      FieldsSpec.stored (Dict.get? name d) inter r := by
  obtain ⟨pre, post, rfl⟩ := List.append_of_mem hm
  have := C15_field_value inter (pre.map fun x => (x.1, fun _ => x.2))
    (post.map fun x => (x.1, fun _ => x.2)) name (fun _ => r) (by
      simpa [List.map_map, Function.comp_def] using hnd) d
  simpa using this

example : extractFrom (V := Nat) false
    [("a".toList, fun _ => .error ()), ("b".toList, fun d => .ok d.length), ("c".toList, fun d => .ok d.length)]
    [("c".toList, 100)] = [("c".toList, 100), ("b".toList, 1)] := by decide +kernel

/-! ### C16 -/

/-- **C16, no argument**: exactly the global fields, with all their later changes. -/
theorem C16_no_argument {F : Type} (globals : Dict Str F) :
    ∃ s : FieldsSource F, (getExtraFields .none).1 = .ok s ∧ s.items globals = globals :=
  ⟨.defaults, rfl, rfl⟩

/-- **C16, dictionary**: exactly the fields of the dictionary, whatever the global ones are. -/
theorem C16_dictionary {F : Type} (d : Dict Str F) (hd : Dict.WF d) :
    ∃ s : FieldsSource F, (getExtraFields (.dict (cleanDict d))).1 = .ok s ∧
      ∀ globals : Dict Str F, s.items globals = d := by
  have h := mergeDicts_clean [d] [] Dict.WF_nil
  simp only [List.map_cons, List.map_nil, List.flatten_cons, List.flatten_nil, List.append_nil,
    List.nil_append] at h
  have hd' : (List.map Prod.fst d).Nodup := hd
  rw [if_pos hd'] at h
  refine ⟨.container d false, by simp [getExtraFields, h], ?_⟩
  intro globals
  simp [FieldsSource.items, containerItems]

/-- **C16, list without `...`**: the union of the dictionaries if their names are pairwise different;
otherwise `ValueError`. -/
theorem C16_list {F : Type} (ds : List (Dict Str F)) :
    let r := (getExtraFields (.list (ds.map fun d => .dict (cleanDict d)))).1
    (FieldsSpec.goodDicts ds →
      ∃ s : FieldsSource F, r = .ok s ∧ ∀ globals : Dict Str F, s.items globals = ds.flatten) ∧
    (¬ FieldsSpec.goodDicts ds → r = .error .valueError) := by
  have hany : (ds.map fun d => (FieldsItem.dict (cleanDict d) : FieldsItem F)).any FieldsItem.isEllipsis
      = false := by
    simp [List.any_eq_false, FieldsItem.isEllipsis]
  have hf : (ds.map fun d => (FieldsItem.dict (cleanDict d) : FieldsItem F)).filter (fun x => !x.isEllipsis)
      = ds.map fun d => (FieldsItem.dict (cleanDict d) : FieldsItem F) := by
    rw [List.filter_eq_self]; intro a ha
    simp only [List.mem_map] at ha
    obtain ⟨d, _, rfl⟩ := ha; rfl
  have h := mergeDicts_clean ds [] Dict.WF_nil
  simp only [List.nil_append] at h
  simp only [getExtraFields, hany, hf, h, FieldsSpec.goodDicts]
  constructor
  · intro hg
    rw [if_pos hg]
    exact ⟨_, rfl, fun _ => by simp [FieldsSource.items, containerItems]⟩
  · intro hg
    rw [if_neg hg]

/-- **C16, list with `...`** (at any position, any number of times): the local fields, and every
global field *current at the time of the record* that is not overridden locally. -/
theorem C16_list_with_ellipsis {F : Type} (ds : List (Dict Str F)) (items : List (FieldsItem F))
    (hitems : items.filter (fun x => !x.isEllipsis) = ds.map fun d => .dict (cleanDict d))
    (hell : FieldsItem.ellipsis ∈ items) (hgood : FieldsSpec.goodDicts ds) :
    ∃ s : FieldsSource F, (getExtraFields (.list items)).1 = .ok s ∧
      ∀ globals : Dict Str F, Dict.WF globals → Dict.WF (s.items globals) ∧
        ∀ name, Dict.get? name (s.items globals) =
          match Dict.get? name ds.flatten with
          | some f => some f
          | none => Dict.get? name globals := by
  have hany : items.any FieldsItem.isEllipsis = true := by
    rw [List.any_eq_true]; exact ⟨_, hell, rfl⟩
  have h := mergeDicts_clean ds [] Dict.WF_nil
  simp only [List.nil_append] at h
  have hg : (List.map Prod.fst ds.flatten).Nodup := hgood
  rw [if_pos hg] at h
  refine ⟨.container ds.flatten true, by simp [getExtraFields, hany, hitems, h], ?_⟩
  intro globals hw
  exact ⟨containerItems_WF hg hw, fun name => containerItems_get _ _ _⟩

example : FieldsSpec.goodDicts [[("a".toList, 1)], [("b".toList, 2), ("c".toList, 3)]] := by
  unfold FieldsSpec.goodDicts; decide

theorem mergeDict_error {F : Type} {e : PyErr} : ∀ (d : List (Option Str × Option F)) (acc : Dict Str F),
    mergeDict d acc = .error e → e = .valueError
  | [], acc, h => by cases h
  | (name, field) :: rest, acc, h => by
    unfold mergeDict at h
    cases name with
    | none => cases h; rfl
    | some n =>
      cases field with
      | none => cases h; rfl
      | some f =>
        dsimp only at h
        split at h
        · cases h; rfl
        · exact mergeDict_error rest _ h

theorem mergeDict_ok {F : Type} {acc' : Dict Str F} : ∀ (d : List (Option Str × Option F)) (acc : Dict Str F),
    mergeDict d acc = .ok acc' → ∃ d' : Dict Str F, d = cleanDict d'
  | [], acc, h => ⟨[], rfl⟩
  | (name, field) :: rest, acc, h => by
    unfold mergeDict at h
    cases name with
    | none => cases h
    | some n =>
      cases field with
      | none => cases h
      | some f =>
        dsimp only at h
        split at h
        · cases h
        · obtain ⟨d', rfl⟩ := mergeDict_ok rest _ h
          exact ⟨(n, f) :: d', rfl⟩

theorem mergeDicts_error {F : Type} {e : PyErr} : ∀ (ds : List (FieldsItem F)) (acc : Dict Str F), FieldsItem.ellipsis ∉ ds →
    mergeDicts ds acc = .error e → e = .valueError
  | [], acc, _, h => by cases h
  | .ellipsis :: rest, acc, hn, h => absurd (List.mem_cons_self) hn
  | .dict d :: rest, acc, hn, h => by
    unfold mergeDicts at h
    cases hd : mergeDict d acc with
    | error e' => rw [hd] at h; cases h; exact mergeDict_error d acc hd
    | ok acc' => rw [hd] at h; exact mergeDicts_error rest acc' (fun hm => hn (List.mem_cons_of_mem _ hm)) h

theorem mergeDicts_ok {F : Type} {acc' : Dict Str F} : ∀ (ds : List (FieldsItem F)) (acc : Dict Str F),
    mergeDicts ds acc = .ok acc' → ∃ ds' : List (Dict Str F), ds = ds'.map fun d => .dict (cleanDict d)
  | [], acc, h => ⟨[], rfl⟩
  | .ellipsis :: rest, acc, h => by cases h
  | .dict d :: rest, acc, h => by
    unfold mergeDicts at h
    cases hd : mergeDict d acc with
    | error e' => rw [hd] at h; cases h
    | ok acc' =>
      rw [hd] at h
      obtain ⟨d', rfl⟩ := mergeDict_ok d acc hd
      obtain ⟨ds', rfl⟩ := mergeDicts_ok rest acc' h
      exact ⟨d' :: ds', rfl⟩

/-- **C16, tuple without `...`**: as a list. -/
theorem C16_tuple {F : Type} (ds : List (Dict Str F)) :
    let r := (getExtraFields (.tuple (ds.map fun d => .dict (cleanDict d)))).1
    (FieldsSpec.goodDicts ds →
      ∃ s : FieldsSource F, r = .ok s ∧ ∀ globals : Dict Str F, s.items globals = ds.flatten) ∧
    (¬ FieldsSpec.goodDicts ds → r = .error .valueError) := by
  have hany : (ds.map fun d => (FieldsItem.dict (cleanDict d) : FieldsItem F)).any FieldsItem.isEllipsis
      = false := by
    simp [List.any_eq_false, FieldsItem.isEllipsis]
  have h := mergeDicts_clean ds [] Dict.WF_nil
  simp only [List.nil_append] at h
  simp only [getExtraFields, hany, h, FieldsSpec.goodDicts]
  constructor
  · intro hg
    rw [if_pos hg]
    exact ⟨_, rfl, fun _ => by simp [FieldsSource.items, containerItems]⟩
  · intro hg
    rw [if_neg hg]
    rfl

/-- **C16, what is rejected**: anything but `None`, a dictionary, a list or a tuple; and, in a list, dictionaries with a name that is
no string or a value that is no field. The exception is `ValueError`. -/
theorem C16_rejected {F : Type} :
    (getExtraFields (.other : FieldsArg F)).1 = .error .valueError ∧
    ∀ items : List (FieldsItem F),
      (¬ ∃ ds : List (Dict Str F), items.filter (fun x => !x.isEllipsis) = ds.map fun d => .dict (cleanDict d)) →
      (getExtraFields (.list items)).1 = .error .valueError := by
  refine ⟨rfl, fun items hno => ?_⟩
  simp only [getExtraFields]
  cases hm : mergeDicts (items.filter fun x => !x.isEllipsis) [] with
  | ok acc => exact absurd (mergeDicts_ok _ _ hm) hno
  | error e =>
    rw [mergeDicts_error _ _ (by simp [FieldsItem.isEllipsis]) hm]

/-- **C16 fails for tuples**: the documentation allows "a list or tuple"; a tuple with `...` raises
`AttributeError`. -/
theorem C16_tuple_with_ellipsis_fails {F : Type} (items : List (FieldsItem F))
    (h : FieldsItem.ellipsis ∈ items) :
    (getExtraFields (.tuple items)).1 = .error .attributeError := by
  have hany : items.any FieldsItem.isEllipsis = true := by
    rw [List.any_eq_true]; exact ⟨_, h, rfl⟩
  simp [getExtraFields, hany]

/-- **C16 fails for reused lists**: the `...` is removed from the user's list, so a second decorator
given the same list object does not include the global fields any more. -/
theorem C16_reused_list_fails :
    let arg : FieldsArg Nat := .list [.dict [(some "a".toList, some 1)], .ellipsis]
    let globals : Dict Str Nat := [("g".toList, 5)]
    (∃ s, (getExtraFields arg).1 = .ok s ∧ Dict.get? "g".toList (s.items globals) = some 5) ∧
    (∃ s, (getExtraFields (getExtraFields arg).2).1 = .ok s ∧
      Dict.get? "g".toList (s.items globals) = none) := by
  exact ⟨⟨_, rfl, by decide +kernel⟩, ⟨_, rfl, by decide +kernel⟩⟩

/-! ### C54 -/

/-- **C54.** After any history of `add_fields`, `add_engine_fields`, `delete_fields`,
`delete_engine_fields` (with exceptions), looking a name up through `get_in_place_fields` /
`get_engine_fields` (with or without a selection of names) gives what the plain maps of the
specification hold. -/
theorem C54_registry_is_a_map {F : Type} (isId : Str → Bool) (history : List (FieldCall F))
    (names : List Str) (k : Str) :
    let s := FieldStore.empty.calls isId history
    let m := FieldsSpec.calls isId ⟨fun _ => none, fun _ => none⟩ history
    Dict.get? k (selectFields s.inPlace names) = (if names = [] ∨ k ∈ names then m.inPlace k else none) ∧
    Dict.get? k (selectFields s.engine names) = (if names = [] ∨ k ∈ names then m.engine k else none) := by
  have h := (FieldStore.calls_refines isId history (FieldStore.empty (F := F)) Dict.WF_nil Dict.WF_nil).2.2
  have he : (⟨fun n => Dict.get? n (FieldStore.empty : FieldStore F).inPlace,
      fun n => Dict.get? n (FieldStore.empty : FieldStore F).engine⟩ : FieldsSpec.Maps F)
      = ⟨fun _ => none, fun _ => none⟩ := rfl
  rw [he] at h
  dsimp only
  rw [← h]
  exact ⟨selectFields_get _ _ _, selectFields_get _ _ _⟩

/-- **C54.** The call itself succeeds or raises exactly as the specification says. -/
theorem C54_same_exceptions {F : Type} (isId : Str → Bool) (history : List (FieldCall F))
    (c : FieldCall F) :
    ((FieldStore.empty.calls isId history).call isId c).2
      = (FieldsSpec.call isId (FieldsSpec.calls isId ⟨fun _ => none, fun _ => none⟩ history) c).2 := by
  have h := FieldStore.calls_refines isId history (FieldStore.empty (F := F)) Dict.WF_nil Dict.WF_nil
  have he : (⟨fun n => Dict.get? n (FieldStore.empty : FieldStore F).inPlace,
      fun n => Dict.get? n (FieldStore.empty : FieldStore F).engine⟩ : FieldsSpec.Maps F)
      = ⟨fun _ => none, fun _ => none⟩ := rfl
  rw [he] at h
  rw [← h.2.2]
  cases c with
  | addFields kw => exact congrArg Prod.snd (addFieldsTo_refines isId kw _)
  | addEngineFields kw => exact congrArg Prod.snd (addFieldsTo_refines isId kw _)
  | deleteFields ns => exact congrArg Prod.snd (deleteFieldsFrom_refines ns _ h.1)
  | deleteEngineFields ns => exact congrArg Prod.snd (deleteFieldsFrom_refines ns _ h.2.1)

/-- **C54, `get_all_fields`, partial.** With `fields_intersection` on and extractors that do not
raise, the value finally recorded for a name is the one of the extractor `get_all_fields` reports.
Missing: with `fields_intersection` off the in-place extractor's value is recorded, but
`get_all_fields` still reports the engine one (`C54_get_all_fields_off_fails`), although the README
says that the method takes the setting into account. -/
theorem C54_get_all_fields_partial (inPlace engine : Dict Str (Extractor V)) (h1 : Dict.WF inPlace)
    (h2 : Dict.WF engine) (name : Str) (f : Extractor V) (v : V)
    (hf : Dict.get? name (getAllFields ⟨inPlace, engine⟩ []) = some f) (hv : ∀ d, f d = .ok v)
    (data : Dict Str V) :
    Dict.get? name (extractFrom true engine (extractFrom true inPlace data)) = some v := by
  simp only [getAllFields, selectFields, ↓reduceIte] at hf
  rw [Dict.get?_update_wf h2] at hf
  have hsplit : ∀ (d : Dict Str (Extractor V)) (hd : Dict.WF d), Dict.get? name d = some f →
      ∀ x : Dict Str V, Dict.get? name (extractFrom true d x) = some v := by
    intro d hd hg x
    obtain ⟨pre, post, rfl⟩ := List.append_of_mem ((Dict.mem_iff_get? hd name f).2 hg)
    rw [C15_field_value true pre post name f hd x]
    rw [hv]
    cases Dict.get? name x <;> rfl
  rcases Option.eq_none_or_eq_some (Dict.get? name engine) with hg | ⟨g, hg⟩
  · rw [hg] at hf
    rw [extractFrom_get_other true engine name (by
      have := (Dict.get?_eq_none_iff name engine).1 hg; exact this)]
    exact hsplit inPlace h1 hf data
  · rw [hg] at hf
    cases hf
    exact hsplit engine h2 hg _

/-- **C54 fails with `fields_intersection` off.** -/
theorem C54_get_all_fields_off_fails :
    let inPlace : Dict Str (Extractor Nat) := [("x".toList, fun _ => .ok 1)]
    let engine : Dict Str (Extractor Nat) := [("x".toList, fun _ => .ok 2)]
    (∃ f, Dict.get? "x".toList (getAllFields ⟨inPlace, engine⟩ []) = some f ∧ f [] = .ok 2) ∧
    Dict.get? "x".toList (extractFrom false engine (extractFrom false inPlace [])) = some 1 := by
  exact ⟨⟨_, rfl, rfl⟩, by decide +kernel⟩

/-- **C50, fields.** After any history of API calls the registered extra fields never have the name
of a built-in field, are identifiers and do not start with an underscore. -/
theorem C50_field_names_never_shadow {F : Type} (isId : Str → Bool) (history : List (FieldCall F))
    (name : Str) :
    let s := FieldStore.empty.calls isId history
    (name ∈ Dict.keys s.inPlace ∨ name ∈ Dict.keys s.engine) →
    isId name = true ∧ name.head? ≠ some '_' ∧ name ∉ FieldsSpec.standardFields := by
  have hadd : ∀ (kw : List (Str × Option F)) (d : Dict Str F),
      (∀ n ∈ Dict.keys d, FieldsSpec.goodName isId n = true) →
      ∀ n ∈ Dict.keys (addFieldsTo isId d kw).1, FieldsSpec.goodName isId n = true := by
    intro kw
    induction kw with
    | nil => intro d h; exact h
    | cons x xs ih =>
      intro d h
      obtain ⟨n0, v⟩ := x
      cases v with
      | none => exact h
      | some f =>
        simp only [addFieldsTo, isPossibleFieldName_eq]
        split
        · exact h
        · rename_i hg
          apply ih
          intro n hn
          rw [Dict.keys_set] at hn
          split at hn
          · exact h n hn
          · simp only [List.mem_append, List.mem_singleton] at hn
            rcases hn with hn | rfl
            · exact h n hn
            · simpa using hg
  have hdel : ∀ (ns : List Key) (d : Dict Str F),
      (∀ n ∈ Dict.keys d, FieldsSpec.goodName isId n = true) →
      ∀ n ∈ Dict.keys (deleteFieldsFrom d ns).1, FieldsSpec.goodName isId n = true := by
    intro ns
    induction ns with
    | nil => intro d h; exact h
    | cons x xs ih =>
      intro d h
      cases x with
      | other => exact h
      | str n0 =>
        simp only [deleteFieldsFrom]
        split
        · apply ih
          intro n hn
          exact h n ((Dict.keys_erase_sub n0 d).subset hn)
        · exact h
  have main : ∀ (cs : List (FieldCall F)) (s : FieldStore F),
      (∀ n ∈ Dict.keys s.inPlace, FieldsSpec.goodName isId n = true) →
      (∀ n ∈ Dict.keys s.engine, FieldsSpec.goodName isId n = true) →
      (∀ n ∈ Dict.keys (s.calls isId cs).inPlace, FieldsSpec.goodName isId n = true) ∧
      (∀ n ∈ Dict.keys (s.calls isId cs).engine, FieldsSpec.goodName isId n = true) := by
    intro cs
    induction cs with
    | nil => intro s h1 h2; exact ⟨h1, h2⟩
    | cons c cs ih =>
      intro s h1 h2
      cases c with
      | addFields kw => exact ih _ (hadd kw _ h1) h2
      | addEngineFields kw => exact ih _ h1 (hadd kw _ h2)
      | deleteFields ns => exact ih _ (hdel ns _ h1) h2
      | deleteEngineFields ns => exact ih _ h1 (hdel ns _ h2)
  have hm := main history (FieldStore.empty (F := F)) (by intro n hn; cases hn) (by intro n hn; cases hn)
  dsimp only
  intro h
  have hg : FieldsSpec.goodName isId name = true := by
    rcases h with h | h
    · exact hm.1 _ h
    · exact hm.2 _ h
  simpa [FieldsSpec.goodName, and_assoc] using hg

example : (FieldStore.empty.calls (fun s => s ≠ [])
    [.addFields [("ip".toList, some 1), ("level".toList, some 2), ("x".toList, some 3)],
     .addEngineFields [("y".toList, some 3)]]).inPlace = [("ip".toList, 1)] := by decide +kernel

/-- **C16**: going over the fields of a decorator gives the names of its own fields and of the common ones, every
name once, in the order of the pairs. -/
theorem C16_keys_of_container {F : Type} (own defaults : Dict Str F) :
    containerKeys own defaults = (containerItems own defaults).map Prod.fst ∧
    (Dict.WF own → Dict.WF defaults → (containerKeys own defaults).Nodup) ∧
    ∀ k, k ∈ containerKeys own defaults ↔ k ∈ Dict.keys own ∨ k ∈ Dict.keys defaults := by
  have h1 : containerKeys own defaults = (containerItems own defaults).map Prod.fst := by
    unfold containerKeys containerItems Dict.keys
    rw [List.map_append, List.filter_map]; rfl
  refine ⟨h1, fun a b => h1 ▸ containerItems_WF a b, fun k => ?_⟩
  unfold containerKeys
  rw [List.mem_append, List.mem_filter]
  have hh : Dict.has k own = true ↔ k ∈ Dict.keys own := Dict.get?_isSome_iff k own
  by_cases hk : k ∈ Dict.keys own
  · simp [hk]
  · have : Dict.has k own = false := by simpa using fun e => hk (hh.1 e)
    simp [hk, this]

example : containerKeys [("a".toList, 1), ("b".toList, 2)] [("b".toList, 3), ("c".toList, 4)] =
    ["a".toList, "b".toList, "c".toList] := by decide +kernel

end Polog
