import Verif.Decorate.Spec
import Verif.LogItem.Props

namespace Polog
open DecorateSpec

theorem kind_dict {env : DEnv} {v : HVal} {d} (h : env.kind v = .dict d) : ∃ i, v = .other i ∧ env.obj i = .dict d := by
  cases v <;> simp_all [DEnv.kind]

theorem kind_list {env : DEnv} {v : HVal} {d} (h : env.kind v = .list d) : ∃ i, v = .other i ∧ env.obj i = .list d := by
  cases v <;> simp_all [DEnv.kind]

theorem kind_tuple {env : DEnv} {v : HVal} {d} (h : env.kind v = .tuple d) :
    ∃ i, v = .other i ∧ env.obj i = .tuple d := by
  cases v <;> simp_all [DEnv.kind]

theorem isEllipsis_iff (env : DEnv) (v : HVal) : env.isEllipsis v = true ↔ IsEllipsis env v := by
  unfold DEnv.isEllipsis IsEllipsis
  cases v <;> simp [DEnv.kind]
  split <;> simp_all

/-! ### Simple arguments -/

theorem argOr_given {name : String} {default : HVal} {kwargs : Dict Str HVal} {P : HVal → Prop} (hd : P default) :
    P (argOr name default kwargs) ↔ Given kwargs name P := by
  unfold argOr Given
  cases h : Dict.get? name.toList kwargs with
  | none => simp [hd]
  | some v => simp

theorem wrongLevel_iff (v : HVal) : wrongLevel v = false ↔ LevelLike v := by
  unfold wrongLevel LevelLike
  cases v <;> simp [HVal.isInt, HVal.isBool, HVal.isStr]

theorem wrongMessage_iff (v : HVal) : (v != .none && !v.isStr) = false ↔ Text v := by
  unfold Text
  cases v <;> simp [HVal.isStr]

theorem isBool_iff (v : HVal) : v.isBool = true ↔ ∃ b, v = .bool b := by
  cases v <;> simp [HVal.isBool]

theorem checkFlog_cases (m l e b : HVal) :
    (checkFlog m l e b = none ∧ Text m ∧ LevelLike l ∧ LevelLike e ∧ ∃ x, b = .bool x) ∨
    (checkFlog m l e b = some .valueError ∧ ¬ (Text m ∧ LevelLike l ∧ LevelLike e ∧ ∃ x, b = .bool x)) := by
  rw [← wrongMessage_iff, ← wrongLevel_iff, ← wrongLevel_iff, ← isBool_iff]
  unfold checkFlog
  cases (m != .none && !m.isStr) <;> cases wrongLevel l <;> cases wrongLevel e <;> cases b.isBool <;> simp

/-! ### Handlers -/

theorem pathsError_iff (isId : Str → Bool) (ps : List Str) : pathsError isId ps = none ↔ ∀ p ∈ ps, Path isId p := by
  induction ps with
  | nil => simp [pathsError]
  | cons p ps ih =>
    unfold pathsError
    by_cases h : p = [sep]
    · have : ¬ Path isId p := fun hp => hp.1 h
      simp [h, Path, sep]
    · simp only [h, ↓reduceIte, convKeys, List.mem_cons, forall_eq_or_imp]
      by_cases ha : (splitChar sep p).all isId = true
      · have : Path isId p := ⟨h, fun x hx => List.all_eq_true.1 ha x hx⟩
        simp [ha, ih, this]
      · have : ¬ Path isId p := fun hp => ha (List.all_eq_true.2 hp.2)
        simp [ha, this]

/-- The exceptions of `projector.on`, as in the model of local namespaces. -/
theorem pathsError_select {V : Type} (isId : Str → Bool) (ps : List Str) : ∀ (h : Heap V) (t : PNode V),
    pathsError isId ps =
      (match (h.on isId t (ps.map Key.str)).2 with
       | .error e => some e
       | .ok _ => none) := by
  induction ps with
  | nil => intro h t; rfl
  | cons p ps ih =>
    intro h t
    simp only [pathsError, List.map_cons, Heap.on]
    by_cases hp : p = [sep]
    · simp [hp]
    · have : Key.str p ≠ Key.str [sep] := fun e => hp (Key.str.inj e)
      simp only [hp, this, ↓reduceIte]
      cases hk : convKeys isId (.str p) with
      | error e => rfl
      | ok keys => exact ih _ _

theorem sortHandlers_ok {env : DEnv} {items : List HVal} {paths : List Str} (h : sortHandlers env items = .ok paths) :
    (∀ p, p ∈ paths ↔ HVal.str p ∈ items) ∧ ∀ x ∈ items, (∃ p, x = .str p) ∨ env.isHandler x = true := by
  induction items generalizing paths with
  | nil => cases h; simp
  | cons x rest ih =>
    cases x with
    | str s =>
      simp only [sortHandlers] at h
      cases hr : sortHandlers env rest with
      | error e => rw [hr] at h; cases h
      | ok ps =>
        rw [hr] at h
        cases h
        have := ih hr
        refine ⟨fun p => ?_, ?_⟩
        · simp [this.1 p, eq_comm]
        · intro x hx
          rcases List.mem_cons.1 hx with rfl | hx
          · exact .inl ⟨s, rfl⟩
          · exact this.2 x hx
    | _ =>
      simp only [sortHandlers] at h
      split at h
      · rename_i hh
        have := ih h
        refine ⟨fun p => by simp [this.1 p], ?_⟩
        intro x hx
        rcases List.mem_cons.1 hx with rfl | hx
        · exact .inr hh
        · exact this.2 x hx
      · cases h

theorem sortHandlers_total {env : DEnv} {items : List HVal}
    (h : ∀ x ∈ items, (∃ p, x = .str p) ∨ env.isHandler x = true) : ∃ paths, sortHandlers env items = .ok paths := by
  induction items with
  | nil => exact ⟨[], rfl⟩
  | cons x rest ih =>
    obtain ⟨ps, hp⟩ := ih fun y hy => h y (List.mem_cons_of_mem _ hy)
    have hx := h x List.mem_cons_self
    cases x with
    | str s => exact ⟨s :: ps, by simp [sortHandlers, hp, Except.map]⟩
    | _ =>
      have hx : env.isHandler _ = true := hx.resolve_left (by rintro ⟨p, hp⟩; cases hp)
      exact ⟨ps, by simp [sortHandlers, hx, hp]⟩

theorem handlersError_iff (env : DEnv) (v : HVal) : handlersError env v = none ↔ Handlers env v := by
  have seq : ∀ items, Sequence env v items → (handlersError env v = none ↔
      ∀ x ∈ items, (∃ p, x = .str p ∧ Path env.isId p) ∨ ((∀ p, x ≠ .str p) ∧ env.isHandler x = true)) := by
    rintro items ⟨i, rfl, hs⟩
    have : handlersError env (.other i) =
        (match sortHandlers env items with
          | .error e => some e
          | .ok paths => pathsError env.isId paths) := by
      rcases hs with hs | hs <;> simp only [handlersError, DEnv.kind, hs] <;> rfl
    rw [this]
    constructor
    · intro h x hx
      cases hr : sortHandlers env items with
      | error e => rw [hr] at h; cases h
      | ok paths =>
        rw [hr] at h
        have hp := (pathsError_iff _ _).1 h
        have hk := sortHandlers_ok hr
        by_cases hstr : ∃ p, x = .str p
        · obtain ⟨p, rfl⟩ := hstr
          exact .inl ⟨p, rfl, hp p ((hk.1 p).2 hx)⟩
        · exact .inr ⟨fun p e => hstr ⟨p, e⟩, (hk.2 x hx).resolve_left hstr⟩
    · intro h
      obtain ⟨paths, hr⟩ := sortHandlers_total (env := env) (items := items)
        (fun x hx => (h x hx).imp (fun ⟨p, hp⟩ => ⟨p, hp.1⟩) (fun hh => hh.2))
      rw [hr]
      refine (pathsError_iff _ _).2 fun p hp => ?_
      rcases h _ (((sortHandlers_ok hr).1 p).1 hp) with ⟨q, hq, hgood⟩ | ⟨hne, _⟩
      · cases hq; exact hgood
      · exact absurd rfl (hne p)
  constructor
  · intro h
    by_cases hn : v = .none
    · exact .inl hn
    · refine .inr ?_
      have hh := h
      unfold handlersError at h
      simp only [hn, ↓reduceIte] at h
      cases hk : env.kind v with
      | list items =>
        obtain ⟨i, rfl, hi⟩ := kind_list hk
        have hs : Sequence env (.other i) items := ⟨i, rfl, .inl hi⟩
        exact ⟨items, hs, (seq items hs).1 hh⟩
      | tuple items =>
        obtain ⟨i, rfl, hi⟩ := kind_tuple hk
        have hs : Sequence env (.other i) items := ⟨i, rfl, .inr hi⟩
        exact ⟨items, hs, (seq items hs).1 hh⟩
      | _ => rw [hk] at h; cases h
  · rintro (rfl | ⟨items, hs, h⟩)
    · simp [handlersError]
    · exact (seq items hs).2 h

/-! ### Fields -/

theorem fieldsItem_iff (env : DEnv) (v : HVal) (d : List (Str × Extractor HVal)) :
    env.fieldsItem v = .dict (cleanDict d) ↔ FieldDict env v d := by
  unfold DEnv.fieldsItem FieldDict cleanDict
  cases v <;> simp [DEnv.kind]
  split <;> simp_all

theorem fieldsItems_iff (env : DEnv) (items : List HVal) : ∀ (ds : List (List (Str × Extractor HVal))),
    items.map env.fieldsItem = ds.map (fun d => .dict (cleanDict d)) ↔ List.Forall₂ (FieldDict env) items ds := by
  induction items with
  | nil => intro ds; cases ds <;> simp
  | cons v items ih =>
    intro ds
    cases ds with
    | nil => simp
    | cons d ds => simp [fieldsItem_iff, ih]

theorem fieldsMerged_ok {env : DEnv} {items : List HVal} {ds : List (List (Str × Extractor HVal))} {b : Bool}
    (h : List.Forall₂ (FieldDict env) items ds) (hn : (ds.flatten.map Prod.fst).Nodup) :
    fieldsMerged env items b = .ok (.container ds.flatten b) := by
  unfold fieldsMerged
  rw [(fieldsItems_iff env items ds).2 h, mergeDicts_clean ds [] Dict.WF_nil]
  simp only [List.nil_append, hn, ↓reduceIte]

theorem fieldsMerged_inv {env : DEnv} {items : List HVal} {b : Bool} {s : FieldsSource (Extractor HVal)}
    (h : fieldsMerged env items b = .ok s) :
    ∃ ds, List.Forall₂ (FieldDict env) items ds ∧ (ds.flatten.map Prod.fst).Nodup ∧
      s = .container ds.flatten b := by
  unfold fieldsMerged at h
  cases hm : mergeDicts (items.map env.fieldsItem) [] with
  | error e => rw [hm] at h; cases h
  | ok own =>
    obtain ⟨ds, hds⟩ := mergeDicts_ok _ _ hm
    refine ⟨ds, (fieldsItems_iff env items ds).1 hds, ?_⟩
    rw [hm] at h
    rw [hds, mergeDicts_clean ds [] Dict.WF_nil] at hm
    simp only [List.nil_append] at hm
    split at hm
    · rename_i hn
      cases hm
      cases h
      exact ⟨hn, rfl⟩
    · cases hm

theorem mixed_iff (env : DEnv) (items : List HVal) : ∀ ds,
    Mixed env items ds ↔ List.Forall₂ (FieldDict env) (items.filter fun x => !env.isEllipsis x) ds := by
  induction items with
  | nil =>
    intro ds
    constructor
    · intro h; cases h; exact .nil
    · intro h
      have := List.forall₂_nil_left_iff.1 h
      subst this
      exact .nil
  | cons v items ih =>
    intro ds
    by_cases he : env.isEllipsis v = true
    · have hE := (isEllipsis_iff env v).1 he
      simp only [he, List.filter_cons, Bool.not_true, Bool.false_eq_true, ↓reduceIte]
      rw [← ih]
      constructor
      · intro h
        cases h with
        | skip _ h => exact h
        | take hd _ =>
          obtain ⟨i, rfl, hi⟩ := hE
          obtain ⟨j, hj, hd⟩ := hd
          cases hj
          rw [hi] at hd
          cases hd
      · exact .skip hE
    · have hE : ¬ IsEllipsis env v := fun h => he ((isEllipsis_iff env v).2 h)
      simp only [he, List.filter_cons, Bool.not_false, ↓reduceIte]
      constructor
      · intro h
        cases h with
        | skip h _ => exact absurd h hE
        | take hd h => exact .cons hd ((ih _).1 h)
      · intro h
        cases h with
        | cons hd h => exact .take hd ((ih _).2 h)

theorem fieldsOf_none (env : DEnv) : fieldsOf env .none = .ok .defaults := by simp [fieldsOf]

theorem fieldsOf_iff (env : DEnv) (v : HVal) : (∃ s, fieldsOf env v = .ok s) ↔ Fields env v := by
  constructor
  · rintro ⟨s, h⟩
    by_cases hn : v = .none
    · exact .inl hn
    · refine .inr ?_
      unfold fieldsOf at h
      simp only [hn, ↓reduceIte] at h
      cases hk : env.kind v with
      | dict d =>
        rw [hk] at h
        obtain ⟨ds, hf, hnd, _⟩ := fieldsMerged_inv h
        cases hf with
        | cons hd hrest =>
          have := List.forall₂_nil_left_iff.1 hrest
          subst this
          exact ⟨_, .one hd, hnd⟩
      | list items =>
        rw [hk] at h
        obtain ⟨ds, hf, hnd, _⟩ := fieldsMerged_inv h
        obtain ⟨i, rfl, hi⟩ := kind_list hk
        exact ⟨ds, .list hi ((mixed_iff _ _ _).2 hf), hnd⟩
      | tuple items =>
        rw [hk] at h
        dsimp only at h
        split at h
        · cases h
        · obtain ⟨ds, hf, hnd, _⟩ := fieldsMerged_inv h
          obtain ⟨i, rfl, hi⟩ := kind_tuple hk
          exact ⟨ds, .tuple hi hf, hnd⟩
      | ellipsis => rw [hk] at h; cases h
      | plain => rw [hk] at h; cases h
  · rintro (rfl | ⟨ds, hd, hn⟩)
    · exact ⟨_, fieldsOf_none env⟩
    · cases hd with
      | one hd =>
        rename_i d
        have h := fieldsMerged_ok (b := false) (List.Forall₂.cons hd List.Forall₂.nil) hn
        obtain ⟨i, rfl, hi⟩ := hd
        refine ⟨.container [d].flatten false, ?_⟩
        simp only [fieldsOf, DEnv.kind, hi]
        exact h
      | list hi hm =>
        rename_i i items
        refine ⟨.container ds.flatten (items.any env.isEllipsis), ?_⟩
        simp only [fieldsOf, DEnv.kind, hi]
        exact fieldsMerged_ok ((mixed_iff _ _ _).1 hm) hn
      | tuple hi hf =>
        rename_i i items
        have : items.any env.isEllipsis = false := by
          rw [List.any_eq_false]
          intro x hx he
          have hE := (isEllipsis_iff env x).1 he
          obtain ⟨d, hd, hfd⟩ : ∃ d ∈ ds, FieldDict env x d := by
            clear hn hi
            induction hf with
            | nil => cases hx
            | cons hd _ ih =>
              rcases List.mem_cons.1 hx with rfl | hx
              · exact ⟨_, List.mem_cons_self, hd⟩
              · obtain ⟨d, hm, h⟩ := ih hx
                exact ⟨d, List.mem_cons_of_mem _ hm, h⟩
          obtain ⟨j, rfl, hj⟩ := hE
          obtain ⟨k, hk, hkd⟩ := hfd
          cases hk
          rw [hj] at hkd
          cases hkd
        refine ⟨.container ds.flatten false, ?_⟩
        simp only [fieldsOf, DEnv.kind, hi, this]
        exact fieldsMerged_ok hf hn

/-- Collections of dictionaries and `...`: the argument as in `LogItem/Model.lean`. -/
theorem fieldsOf_list (env : DEnv) (i : Nat) (items : List HVal) (hi : env.obj i = .list items)
    (hitems : ∀ x ∈ items, env.isEllipsis x = true ∨ ∃ d, env.kind x = .dict d) :
    fieldsOf env (.other i) = (getExtraFields (.list (items.map env.fieldsItem))).1 := by
  have hany : (items.map env.fieldsItem).any FieldsItem.isEllipsis = items.any env.isEllipsis := by
    rw [List.any_map]
    clear hi
    induction items with
    | nil => rfl
    | cons x xs ih =>
      rw [List.any_cons, List.any_cons, ih fun y hy => hitems y (List.mem_cons_of_mem _ hy)]
      congr 1
      rcases hitems x List.mem_cons_self with he | ⟨d, hd⟩
      · have : env.kind x = .ellipsis := by
          unfold DEnv.isEllipsis at he
          split at he <;> simp_all
        simp [DEnv.fieldsItem, DEnv.isEllipsis, this, FieldsItem.isEllipsis]
      · simp [DEnv.fieldsItem, DEnv.isEllipsis, hd, FieldsItem.isEllipsis]
  have hfilter : (items.map env.fieldsItem).filter (fun x => !x.isEllipsis) =
      (items.filter fun x => !env.isEllipsis x).map env.fieldsItem := by
    clear hi hany
    induction items with
    | nil => rfl
    | cons x xs ih =>
      have ih := ih fun y hy => hitems y (List.mem_cons_of_mem _ hy)
      rcases hitems x List.mem_cons_self with he | ⟨d, hd⟩
      · have hk : env.kind x = .ellipsis := by
          unfold DEnv.isEllipsis at he
          split at he <;> simp_all
        have h1 : env.fieldsItem x = .ellipsis := by simp [DEnv.fieldsItem, hk]
        have h2 : (FieldsItem.ellipsis : FieldsItem (Extractor HVal)).isEllipsis = true := rfl
        simp [List.filter_cons, h1, he, h2, ih]
      · have h1 : env.fieldsItem x = .dict d := by simp [DEnv.fieldsItem, hd]
        have h2 : env.isEllipsis x = false := by simp [DEnv.isEllipsis, hd]
        have h3 : (FieldsItem.dict d : FieldsItem (Extractor HVal)).isEllipsis = false := rfl
        simp [List.filter_cons, h1, h2, h3, ih]
  have : fieldsOf env (.other i) = fieldsMerged env (items.filter fun x => !env.isEllipsis x)
      (items.any env.isEllipsis) := by
    simp [fieldsOf, DEnv.kind, hi]
  rw [this]
  simp only [getExtraFields, hany, hfilter, fieldsMerged]
  cases mergeDicts ((items.filter fun x => !env.isEllipsis x).map env.fieldsItem) [] <;> rfl

/-! ### The decorator of a function -/

theorem unknownName_iff (kwargs : Dict Str HVal) (names : List Str) :
    (kwargs.any fun x => decide (x.1 ∉ names)) = false ↔ ∀ x ∈ kwargs, x.1 ∈ names := by
  simp [List.any_eq_false]

theorem decorateFunction_cases (env : DEnv) (r : FRegistry) (sa : Bool) (sup : List Nat) (kwargs : Dict Str HVal)
    (f : FObj) :
    (Accepts env kwargs ∧ ∃ fields, fieldsOf env (argOr "extra_fields" .none kwargs) = .ok fields ∧
      decorateFunction env r sa sup kwargs f =
        .ok (r.logFn (decoOf env sa sup fields kwargs)
          (decide (argOr "is_method" (.bool false) kwargs = .bool true)) f)) ∨
    (¬ Accepts env kwargs ∧ ∃ e, decorateFunction env r sa sup kwargs f = .error e) := by
  unfold decorateFunction
  cases hu : kwargs.any fun x => decide (x.1 ∉ flogNames) with
  | true =>
    refine .inr ⟨fun h => ?_, _, rfl⟩
    have := (unknownName_iff kwargs flogNames).2 h.names
    rw [hu] at this
    cases this
  | false =>
    have hnames := (unknownName_iff kwargs flogNames).1 hu
    simp only [Bool.false_eq_true, ↓reduceIte]
    rcases checkFlog_cases (argOr "message" .none kwargs) (argOr "level" .none kwargs)
      (argOr "errors_level" .none kwargs) (argOr "is_method" (.bool false) kwargs) with
      ⟨hc, hm, hl, he, hb⟩ | ⟨hc, hbad⟩
    · rw [hc]
      rw [argOr_given (P := Text) (.inl rfl)] at hm
      rw [argOr_given (P := LevelLike) (.inl rfl)] at hl he
      rw [argOr_given (P := fun v => ∃ x, v = .bool x) ⟨_, rfl⟩] at hb
      cases hh : handlersError env (argOr "handlers" .none kwargs) with
      | some e =>
        refine .inr ⟨fun h => ?_, _, rfl⟩
        have := (handlersError_iff env _).2 ((argOr_given (.inl rfl)).2 h.handlers)
        rw [hh] at this
        cases this
      | none =>
        have hh' := (argOr_given (.inl rfl)).1 ((handlersError_iff env _).1 hh)
        cases hf : fieldsOf env (argOr "extra_fields" .none kwargs) with
        | error e =>
          refine .inr ⟨fun h => ?_, _, rfl⟩
          obtain ⟨s, hs⟩ := (fieldsOf_iff env _).2 ((argOr_given (.inl rfl)).2 h.fields)
          rw [hf] at hs
          cases hs
        | ok fields =>
          cases hg : fieldsOf env (argOr "extra_engine_fields" .none kwargs) with
          | error e =>
            refine .inr ⟨fun h => ?_, _, rfl⟩
            obtain ⟨s, hs⟩ := (fieldsOf_iff env _).2 ((argOr_given (.inl rfl)).2 h.engineFields)
            rw [hg] at hs
            cases hs
          | ok g =>
            exact .inl ⟨⟨hnames, hm, hl, he, hb, hh', (argOr_given (.inl rfl)).1 ((fieldsOf_iff env _).1 ⟨_, hf⟩),
              (argOr_given (.inl rfl)).1 ((fieldsOf_iff env _).1 ⟨_, hg⟩)⟩, fields, rfl, rfl⟩
    · rw [hc]
      refine .inr ⟨fun h => hbad ?_, _, rfl⟩
      exact ⟨(argOr_given (.inl rfl)).2 h.message, (argOr_given (.inl rfl)).2 h.level,
        (argOr_given (.inl rfl)).2 h.errorsLevel,
        (argOr_given (P := fun v => ∃ x, v = .bool x) ⟨_, rfl⟩).2 h.isMethod⟩

end Polog
