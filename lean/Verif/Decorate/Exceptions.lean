import Verif.Decorate.Props

/-!
Which exception ends a decoration with wrong `handlers` or wrong fields.
-/

namespace Polog
open DecorateSpec

theorem sortHandlers_wrong {env : DEnv} : ∀ {items : List HVal} {x : HVal}, x ∈ items → (∀ p, x ≠ .str p) →
    env.isHandler x = false → sortHandlers env items = .error .valueError
  | [], _, h, _, _ => nomatch h
  | y :: rest, x, h, hs, hh => by
    rcases List.mem_cons.1 h with rfl | h
    · cases x with
      | str p => exact absurd rfl (hs p)
      | _ => simp [sortHandlers, hh]
    · have ih := sortHandlers_wrong h hs hh
      cases y <;> simp [sortHandlers, ih, Except.map]

theorem sortHandlers_right {env : DEnv} : ∀ {items : List HVal},
    (∀ x ∈ items, (∃ p, x = .str p) ∨ env.isHandler x = true) →
    sortHandlers env items = .ok (items.filterMap fun x => match x with | .str p => some p | _ => none)
  | [], _ => rfl
  | y :: rest, h => by
    have ih := sortHandlers_right fun x hx => h x (List.mem_cons_of_mem _ hx)
    have hy := h y List.mem_cons_self
    cases y with
    | str p => simp [sortHandlers, ih, Except.map]
    | _ =>
      have hy : env.isHandler _ = true := hy.resolve_left (fun ⟨_, e⟩ => nomatch e)
      simp [sortHandlers, ih, hy]

theorem pathsError_first {isId : Str → Bool} {p : Str} (hp : ¬ Path isId p) : ∀ {before after : List Str},
    (∀ q ∈ before, Path isId q) →
    pathsError isId (before ++ p :: after) = some (if p = ['.'] then .valueError else .keyError)
  | [], after, _ => by
    rw [List.nil_append, pathsError]
    by_cases hd : p = ['.']
    · subst hd; simp [sep]
    · have hd' : p ≠ [sep] := hd
      rw [if_neg hd', if_neg hd, convKeys_str, if_neg hd', if_neg]
      intro hall
      exact hp ⟨hd, fun part hpart => List.all_eq_true.1 hall part hpart⟩
  | q :: before, after, h => by
    have hq := h q List.mem_cons_self
    have hd' : q ≠ [sep] := hq.1
    have : (splitChar sep q).all isId = true := List.all_eq_true.2 hq.2
    rw [List.cons_append, pathsError, if_neg hd', convKeys_str, if_neg hd', if_pos this]
    exact pathsError_first hp fun x hx => h x (List.mem_cons_of_mem _ hx)

theorem mergeDict_wrongKind {F : Type} : ∀ {d : List (Option Str × Option F)} {acc : Dict Str F} {e : PyErr},
    mergeDict d acc = .error e → e = .valueError
  | [], _, _, h => by simp [mergeDict] at h
  | (n, f) :: rest, acc, e, h => by
    cases n with
    | none => simp only [mergeDict, Except.error.injEq] at h; exact h.symm
    | some n =>
      cases f with
      | none => simp only [mergeDict, Except.error.injEq] at h; exact h.symm
      | some f =>
        simp only [mergeDict] at h
        split at h
        · simp only [Except.error.injEq] at h; exact h.symm
        · exact mergeDict_wrongKind h

theorem mergeDicts_wrongKind {F : Type} : ∀ {items : List (FieldsItem F)} {acc : Dict Str F} {e : PyErr},
    mergeDicts items acc = .error e → .ellipsis ∉ items → e = .valueError
  | [], _, _, h, _ => by simp [mergeDicts] at h
  | .ellipsis :: _, _, _, _, hn => absurd List.mem_cons_self hn
  | .dict d :: rest, acc, e, h, hn => by
    simp only [mergeDicts] at h
    split at h
    · rename_i e' he
      simp only [Except.error.injEq] at h
      subst h
      exact mergeDict_wrongKind he
    · exact mergeDicts_wrongKind h fun hm => hn (List.mem_cons_of_mem _ hm)

theorem fieldsMerged_error {env : DEnv} {items : List HVal} {b : Bool} {e : PyErr}
    (h : fieldsMerged env items b = .error e) (hd : ∀ x ∈ items, ∃ i d, x = .other i ∧ env.obj i = .dict d) :
    e = .valueError := by
  unfold fieldsMerged at h
  split at h
  · rename_i e' he
    simp only [Except.error.injEq] at h
    subst h
    refine mergeDicts_wrongKind he fun hm => ?_
    obtain ⟨x, hx, hxe⟩ := List.mem_map.1 hm
    obtain ⟨i, d, rfl, hi⟩ := hd x hx
    simp [DEnv.fieldsItem, DEnv.kind, hi] at hxe
  · cases h

/-- With the arguments of simple types right, the exception of the decoration is that of `handlers`. -/
theorem decorateFunction_handlers {env : DEnv} {r : FRegistry} {sa : Bool} {sup : List Nat} {kwargs : Dict Str HVal}
    {f : FObj}
    (hn : ∀ x ∈ kwargs, x.1 ∈ ["message", "level", "errors_level", "is_method", "handlers", "extra_fields",
        "extra_engine_fields"].map String.toList)
    (hs : SimpleRight kwargs) (hm : Given kwargs "is_method" fun v => ∃ b, v = .bool b) :
    decorateFunction env r sa sup kwargs f =
      match handlersError env (argOr "handlers" .none kwargs) with
      | some e => .error e
      | none =>
        match fieldsOf env (argOr "extra_fields" .none kwargs) with
        | .error e => .error e
        | .ok fields =>
          match fieldsOf env (argOr "extra_engine_fields" .none kwargs) with
          | .error e => .error e
          | .ok _ =>
            .ok (r.logFn (decoOf env sa sup fields kwargs)
              (decide (argOr "is_method" (.bool false) kwargs = .bool true)) f) := by
  have : (kwargs.any fun x => decide (x.1 ∉ flogNames)) = false := (unknownName_iff _ _).2 hn
  have hc : checkFlog (argOr "message" .none kwargs) (argOr "level" .none kwargs)
      (argOr "errors_level" .none kwargs) (argOr "is_method" (.bool false) kwargs) = none := by
    rcases checkFlog_cases (argOr "message" .none kwargs) (argOr "level" .none kwargs)
      (argOr "errors_level" .none kwargs) (argOr "is_method" (.bool false) kwargs) with ⟨hc, _⟩ | ⟨_, hbad⟩
    · exact hc
    · exact absurd ⟨(argOr_given (.inl rfl)).2 hs.1, (argOr_given (.inl rfl)).2 hs.2.1,
        (argOr_given (.inl rfl)).2 hs.2.2, (argOr_given (P := fun v => ∃ x, v = .bool x) ⟨_, rfl⟩).2 hm⟩ hbad
  simp only [decorateFunction, this, hc]
  rfl

/-- **C103, wrong handlers**: with the other arguments of simple types right, `handlers` that is not a list or a
tuple is a `ValueError`, and so is an item that is neither a string nor a handler, wherever it is. If all items are
strings or handlers, the first wrong path decides: a `ValueError` for the dot, a `KeyError` for the others. -/
theorem C103_handlers_exceptions (env : DEnv) (r : FRegistry) (sa : Bool) (sup : List Nat) (kwargs : Dict Str HVal)
    (f : FObj) (v : HVal)
    (hn : ∀ x ∈ kwargs, x.1 ∈ ["message", "level", "errors_level", "is_method", "handlers", "extra_fields",
        "extra_engine_fields"].map String.toList)
    (hs : SimpleRight kwargs) (hm : Given kwargs "is_method" fun v => ∃ b, v = .bool b)
    (hv : Dict.get? "handlers".toList kwargs = some v) :
    (v ≠ .none → (∀ items, ¬ Sequence env v items) →
      decorateFunction env r sa sup kwargs f = .error .valueError) ∧
    (∀ items x, Sequence env v items → x ∈ items → (∀ p, x ≠ .str p) → env.isHandler x = false →
      decorateFunction env r sa sup kwargs f = .error .valueError) ∧
    (∀ before p after, Sequence env v (before ++ .str p :: after) →
      (∀ x ∈ before, (∃ q, x = .str q ∧ Path env.isId q) ∨ (∀ q, x ≠ .str q) ∧ env.isHandler x = true) →
      (∀ x ∈ after, (∃ q, x = .str q) ∨ env.isHandler x = true) → ¬ Path env.isId p →
      decorateFunction env r sa sup kwargs f = .error (if p = ['.'] then .valueError else .keyError)) := by
  rw [decorateFunction_handlers hn hs hm, argOr, hv, Option.getD_some]
  refine ⟨fun h1 h2 => ?_, ?_, ?_⟩
  · have : handlersError env v = some .valueError := by
      unfold handlersError
      rw [if_neg h1]
      split
      · rename_i items hk
        obtain ⟨i, hi, hl⟩ := kind_list hk
        exact absurd ⟨i, hi, .inl hl⟩ (h2 items)
      · rename_i items hk
        obtain ⟨i, hi, hl⟩ := kind_tuple hk
        exact absurd ⟨i, hi, .inr hl⟩ (h2 items)
      · rfl
    rw [this]
  · rintro items x ⟨i, rfl, hi⟩ hx hne hh
    have : handlersError env (.other i) = some .valueError := by
      have hw := sortHandlers_wrong hx hne hh
      unfold handlersError
      rcases hi with hi | hi <;> simp [DEnv.kind, hi, hw]
    rw [this]
  · rintro before p after ⟨i, rfl, hi⟩ hb ha hp
    have hr := sortHandlers_right (env := env) (items := before ++ .str p :: after) fun x hx => by
      rcases List.mem_append.1 hx with hx | hx
      · rcases hb x hx with ⟨q, h, _⟩ | ⟨_, h⟩
        · exact .inl ⟨q, h⟩
        · exact .inr h
      · rcases List.mem_cons.1 hx with rfl | hx
        · exact .inl ⟨p, rfl⟩
        · exact ha x hx
    rw [List.filterMap_append, List.filterMap_cons] at hr
    have hpe := pathsError_first (isId := env.isId) hp (before := before.filterMap fun x => match x with
        | .str p => some p
        | _ => none)
      (after := after.filterMap fun x => match x with
        | .str p => some p
        | _ => none) fun q hq => by
          obtain ⟨x, hx, hxq⟩ := List.mem_filterMap.1 hq
          rcases hb x hx with ⟨q', rfl, h⟩ | ⟨h, _⟩
          · simp only [Option.some.injEq] at hxq
            exact hxq ▸ h
          · cases x with
            | str q' => exact absurd rfl (h q')
            | _ => simp at hxq
    have : handlersError env (.other i) = some (if p = ['.'] then .valueError else .keyError) := by
      unfold handlersError
      rcases hi with hi | hi <;> simp only [DEnv.kind, hi, hr] <;> rw [if_neg (by simp)] <;> exact hpe
    rw [this]

/-- **C103, wrong fields**: with all the other arguments right, fields that are not a dictionary, a list or a tuple
are a `ValueError`; so is a collection of dictionaries of which one has a key that is not a string, a value that is
not a field, or a name that was there before; `...` in a tuple is an `AttributeError`. -/
theorem C103_fields_exceptions (env : DEnv) (r : FRegistry) (sa : Bool) (sup : List Nat) (kwargs : Dict Str HVal)
    (f : FObj) (v : HVal) (name : String)
    (hn : ∀ x ∈ kwargs, x.1 ∈ ["message", "level", "errors_level", "is_method", "handlers", "extra_fields",
        "extra_engine_fields"].map String.toList)
    (hs : SimpleRight kwargs) (hm : Given kwargs "is_method" fun v => ∃ b, v = .bool b)
    (hh : Given kwargs "handlers" (Handlers env))
    (hname : name = "extra_fields" ∨ name = "extra_engine_fields" ∧ Given kwargs "extra_fields" (Fields env))
    (hv : Dict.get? name.toList kwargs = some v) :
    (v ≠ .none → (∀ items, ¬ Sequence env v items) → (∀ i d, v = .other i → env.obj i ≠ .dict d) →
      decorateFunction env r sa sup kwargs f = .error .valueError) ∧
    (∀ i, v = .other i → (∃ d, env.obj i = .dict d) → ¬ Fields env v →
      decorateFunction env r sa sup kwargs f = .error .valueError) ∧
    (∀ i items, v = .other i → env.obj i = .list items ∨ env.obj i = .tuple items →
      (∀ x ∈ items, (∃ j d, x = .other j ∧ env.obj j = .dict d) ∨ env.obj i = .list items ∧ IsEllipsis env x) →
      ¬ Fields env v → decorateFunction env r sa sup kwargs f = .error .valueError) ∧
    (∀ i items, v = .other i → env.obj i = .tuple items → (∃ x ∈ items, IsEllipsis env x) →
      decorateFunction env r sa sup kwargs f = .error .attributeError) := by
  have hh' : handlersError env (argOr "handlers" .none kwargs) = none :=
    (handlersError_iff env _).2 ((argOr_given (.inl rfl)).2 hh)
  have key : ∀ e, fieldsOf env v = .error e → decorateFunction env r sa sup kwargs f = .error e := by
    intro e he
    rw [decorateFunction_handlers hn hs hm, hh']
    dsimp only
    rcases hname with rfl | ⟨rfl, hf⟩
    · rw [show argOr "extra_fields" .none kwargs = v by rw [argOr, hv]; rfl, he]
    · obtain ⟨s, hs'⟩ := (fieldsOf_iff env _).2 ((argOr_given (P := Fields env) (.inl rfl)).2 hf)
      rw [hs']
      dsimp only
      rw [show argOr "extra_engine_fields" .none kwargs = v by rw [argOr, hv]; rfl, he]
  have bad : ¬ Fields env v → (∀ e, fieldsOf env v = .error e → e = .valueError) →
      decorateFunction env r sa sup kwargs f = .error .valueError := by
    intro h1 h2
    cases hf : fieldsOf env v with
    | ok s => exact absurd ((fieldsOf_iff env v).1 ⟨s, hf⟩) h1
    | error e =>
      obtain rfl := h2 e hf
      exact key _ hf
  refine ⟨fun h1 h2 h3 => key _ ?_, ?_, ?_, ?_⟩
  · unfold fieldsOf
    rw [if_neg h1]
    split
    · rename_i d hk
      obtain ⟨i, hi, hd⟩ := kind_dict hk
      exact absurd hd (h3 i d hi)
    · rename_i items hk
      obtain ⟨i, hi, hl⟩ := kind_list hk
      exact absurd ⟨i, hi, .inl hl⟩ (h2 items)
    · rename_i items hk
      obtain ⟨i, hi, hl⟩ := kind_tuple hk
      exact absurd ⟨i, hi, .inr hl⟩ (h2 items)
    · rfl
  · rintro i rfl ⟨d, hd⟩ hF
    refine bad hF fun e he => ?_
    simp only [fieldsOf, DEnv.kind, hd] at he
    rw [if_neg (by simp)] at he
    refine fieldsMerged_error he fun x hx => ?_
    rw [List.mem_singleton] at hx
    exact ⟨i, d, hx, hd⟩
  · rintro i items rfl hi hall hF
    refine bad hF fun e he => ?_
    rcases hi with hi | hi
    · simp only [fieldsOf, DEnv.kind, hi] at he
      rw [if_neg (by simp)] at he
      refine fieldsMerged_error he fun x hx => ?_
      obtain ⟨hx, hne⟩ := List.mem_filter.1 hx
      rcases hall x hx with h | ⟨_, h⟩
      · exact h
      · rw [(isEllipsis_iff env x).2 h] at hne
        simp at hne
    · have hd : ∀ x ∈ items, ∃ j d, x = .other j ∧ env.obj j = .dict d := fun x hx => by
        rcases hall x hx with h | ⟨h, _⟩
        · exact h
        · rw [hi] at h; cases h
      have hne : items.any env.isEllipsis = false := by
        rw [List.any_eq_false]
        intro x hx he'
        obtain ⟨j, d, rfl, hj⟩ := hd x hx
        obtain ⟨k, hk, hk'⟩ := (isEllipsis_iff env _).1 he'
        cases hk
        rw [hj] at hk'
        cases hk'
      simp only [fieldsOf, DEnv.kind, hi, hne] at he
      rw [if_neg (by simp)] at he
      exact fieldsMerged_error he hd
  · rintro i items rfl hi ⟨x, hx, hxe⟩
    refine key _ ?_
    have : items.any env.isEllipsis = true := List.any_eq_true.2 ⟨x, hx, (isEllipsis_iff env x).2 hxe⟩
    simp only [fieldsOf, DEnv.kind, hi, this]
    rw [if_neg (by simp)]
    rfl

/-- Concrete wrong arguments: a number among the handlers, a wrong path, a number as fields, and `...` in a tuple. -/
example (r : FRegistry) (f : FObj) (isId : Str → Bool) (hid : isId ['-'] = false) :
    let env : DEnv := {
      obj := fun n => match n with
        | 0 => .list [.str "a".toList, .int 1]
        | 1 => .tuple [.str ['-']]
        | 2 => .ellipsis
        | 3 => .tuple [.other 2]
        | _ => .plain
      isHandler := fun _ => false, isId := isId, inPlace := [] }
    decorateFunction env r false [] [("handlers".toList, .other 0)] f = .error .valueError ∧
    decorateFunction env r false [] [("handlers".toList, .other 1)] f = .error .keyError ∧
    decorateFunction env r false [] [("extra_fields".toList, .int 5)] f = .error .valueError ∧
    decorateFunction env r false [] [("extra_engine_fields".toList, .other 3)] f = .error .attributeError := by
  intro env
  have hsr : ∀ n v, n = "handlers" ∨ n = "extra_fields" ∨ n = "extra_engine_fields" →
      SimpleRight [(n.toList, v)] ∧ Given [(n.toList, v)] "is_method" fun v => ∃ b, v = .bool b := by
    rintro n v (rfl | rfl | rfl) <;>
      exact ⟨⟨fun _ h => by simp [Dict.get?] at h, fun _ h => by simp [Dict.get?] at h,
        fun _ h => by simp [Dict.get?] at h⟩, fun _ h => by simp [Dict.get?] at h⟩
  refine ⟨?_, ?_, ?_, ?_⟩
  · exact (C103_handlers_exceptions env r false [] _ f (.other 0) (by simp) (hsr _ _ (.inl rfl)).1
      (hsr _ _ (.inl rfl)).2 rfl).2.1 _ (.int 1) ⟨0, rfl, .inl rfl⟩ (by simp) (fun _ h => nomatch h) rfl
  · have := (C103_handlers_exceptions env r false [] _ f (.other 1) (by simp) (hsr _ _ (.inl rfl)).1
      (hsr _ _ (.inl rfl)).2 rfl).2.2 [] ['-'] [] ⟨1, rfl, .inr rfl⟩ (by simp) (by simp) fun h => by
        have := h.2 ['-'] (by decide)
        rw [show env.isId = isId from rfl, hid] at this
        cases this
    simpa using this
  · exact (C103_fields_exceptions env r false [] _ f (.int 5) "extra_fields" (by simp) (hsr _ _ (.inr (.inl rfl))).1
      (hsr _ _ (.inr (.inl rfl))).2 (fun _ h => by simp [Dict.get?] at h) (.inl rfl) rfl).1 (fun h => nomatch h)
      (fun _ h => by obtain ⟨_, h, _⟩ := h; cases h) (fun _ _ h => nomatch h)
  · exact (C103_fields_exceptions env r false [] _ f (.other 3) "extra_engine_fields" (by simp)
      (hsr _ _ (.inr (.inr rfl))).1 (hsr _ _ (.inr (.inr rfl))).2 (fun _ h => by simp [Dict.get?] at h)
      (.inr ⟨rfl, fun _ h => by simp [Dict.get?] at h⟩) rfl).2.2.2 3 _ rfl rfl ⟨_, List.mem_singleton_self _, 2, rfl, rfl⟩

end Polog
