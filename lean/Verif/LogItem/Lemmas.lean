import Verif.LogItem.Spec

namespace Polog

variable {V : Type}

theorem LogItem.op_fst (l : LogItem V) (o : LogOp V) : (l.op o).1 = l := by
  cases o <;> simp only [LogItem.op] <;> (repeat' split) <;> rfl

theorem Prog.run_fst {E : Type} (p : Prog V E) : ∀ l : LogItem V, (p.run l).1 = l := by
  induction p with
  | ret => intro l; rfl
  | throw => intro l; rfl
  | op o k ih => intro l; simp only [Prog.run]; rw [ih]; exact LogItem.op_fst l o
  | emit e k ih => intro l; simp only [Prog.run]; exact ih l

theorem escaping_eq (e : Ending) : escaping e = .returned := by cases e <;> rfl

theorem callHandlers_eq {H E : Type} (body : H → Prog V E) (hs : List H) : ∀ l : LogItem V,
    callHandlers body hs l
      = (l, hs.map fun h => ⟨h, l, ((body h).run l).2.1⟩, .returned) := by
  induction hs with
  | nil => intro l; rfl
  | cons h hs ih =>
    intro l
    simp only [callHandlers, callOneHandler, escaping_eq, Prog.run_fst, ih, List.map_cons]

/-! extraction -/

theorem Dict.has_iff {K W : Type} [DecidableEq K] (k : K) (d : Dict K W) :
    Dict.has k d = true ↔ k ∈ Dict.keys d := Dict.get?_isSome_iff k d

theorem extractFrom_append (inter : Bool) (a b : List (Str × Extractor V)) : ∀ d : Dict Str V,
    extractFrom inter (a ++ b) d = extractFrom inter b (extractFrom inter a d) := by
  induction a with
  | nil => intro d; rfl
  | cons x xs ih =>
    intro d
    obtain ⟨n, f⟩ := x
    simp only [List.cons_append, extractFrom]
    split
    · split <;> exact ih _
    · exact ih _

theorem extractFrom_get_other (inter : Bool) (fields : List (Str × Extractor V)) (k : Str)
    (hk : k ∉ fields.map Prod.fst) : ∀ d : Dict Str V,
    Dict.get? k (extractFrom inter fields d) = Dict.get? k d := by
  induction fields with
  | nil => intro d; rfl
  | cons x xs ih =>
    intro d
    obtain ⟨n, f⟩ := x
    simp only [List.map_cons, List.mem_cons, not_or] at hk
    simp only [extractFrom]
    split
    · split
      · rw [ih hk.2, Dict.get?_set_ne (fun e => hk.1 e.symm)]
      · exact ih hk.2 d
    · exact ih hk.2 d

theorem extractFrom_one (inter : Bool) (n : Str) (f : Extractor V) (d : Dict Str V) :
    Dict.get? n (extractFrom inter [(n, f)] d) =
      FieldsSpec.stored (Dict.get? n d) inter (f d) := by
  simp only [extractFrom, Dict.has, FieldsSpec.stored]
  rcases Option.eq_none_or_eq_some (Dict.get? n d) with hg | ⟨old, hg⟩
  · simp only [hg, Option.isSome_none, Bool.not_false, Bool.true_or, ↓reduceIte]
    split
    · simp [Dict.get?_set_self, *]
    · simp [*]
  · simp only [hg, Option.isSome_some, Bool.not_true, Bool.false_or]
    cases inter with
    | false => simpa using hg
    | true =>
      simp only [↓reduceIte]
      split
      · simp [Dict.get?_set_self, *]
      · simp [*]

theorem extractFrom_taken (inter : Bool) (n : Str) (f : Extractor V) (d : Dict Str V) :
    FieldsSpec.Taken inter n f d (extractFrom inter [(n, f)] d) := by
  refine ⟨fun key => ?_, ?_⟩
  · by_cases h : key = n
    · rw [if_pos h, h, extractFrom_one]
    · rw [if_neg h, extractFrom_get_other _ _ _ (by simpa using h)]
  · simp only [extractFrom]
    split
    · split
      · rename_i v _
        have := Dict.keys_set n v d
        unfold Dict.keys at this
        by_cases hm : n ∈ d.map Prod.fst
        · exact .inl (by rw [this, if_pos hm])
        · exact .inr ⟨by rw [this, if_neg hm], hm⟩
      · exact .inl rfl
    · exact .inl rfl

theorem extractFrom_extracted (inter : Bool) (fields : List (Str × Extractor V)) : ∀ d : Dict Str V,
    FieldsSpec.Extracted inter fields d (extractFrom inter fields d) := by
  induction fields with
  | nil => intro d; exact .none d
  | cons x xs ih =>
    intro d
    obtain ⟨n, f⟩ := x
    have h := extractFrom_append inter [(n, f)] xs d
    rw [List.singleton_append] at h
    rw [h]
    exact .more (extractFrom_taken inter n f d) (ih _)

/-- A dictionary is given by its keys, in order, and by what it holds. -/
theorem Dict.ext_keys {K W : Type} [DecidableEq K] : ∀ {d d' : Dict K W}, Dict.WF d → d.map Prod.fst = d'.map Prod.fst →
    (∀ k, Dict.get? k d = Dict.get? k d') → d = d' := by
  intro d
  induction d with
  | nil => intro d' _ h _; cases d' with
    | nil => rfl
    | cons => cases h
  | cons x d ih =>
    intro d' hw h hg
    cases d' with
    | nil => cases h
    | cons y d' =>
      obtain ⟨k, v⟩ := x
      obtain ⟨k', v'⟩ := y
      simp only [List.map_cons, List.cons.injEq] at h
      obtain ⟨rfl, h⟩ := h
      unfold Dict.WF Dict.keys at hw ih
      rw [List.map_cons, List.nodup_cons] at hw
      have hv := hg k
      simp only [Dict.get?, if_true, Option.some.injEq] at hv
      suffices d = d' by rw [hv, this]
      refine ih hw.2 h fun j => ?_
      have hj := hg j
      simp only [Dict.get?] at hj
      by_cases hjk : k = j
      · subst hjk
        have h1 := (Dict.get?_eq_none_iff k d).2 hw.1
        have h2 := (Dict.get?_eq_none_iff k d').2 (fun hm => hw.1 (by rw [h]; exact hm))
        rw [h1, h2]
      · rwa [if_neg hjk, if_neg hjk] at hj

theorem FieldsSpec.Taken.wf {inter : Bool} {n : Str} {f : Extractor V} {d d' : Dict Str V}
    (h : FieldsSpec.Taken inter n f d d') (hd : Dict.WF d) : Dict.WF d' := by
  unfold Dict.WF Dict.keys at *
  rcases h.2 with h | ⟨h, hn⟩
  · rwa [h]
  · rw [h, List.nodup_append]
    exact ⟨hd, by simp, fun a ha b hb => by simp at hb; subst hb; exact fun e => hn (e ▸ ha)⟩

theorem FieldsSpec.Taken.unique {inter : Bool} {n : Str} {f : Extractor V} {d d₁ d₂ : Dict Str V}
    (h₁ : FieldsSpec.Taken inter n f d d₁) (h₂ : FieldsSpec.Taken inter n f d d₂) (hd : Dict.WF d) : d₁ = d₂ := by
  have hg : ∀ k, Dict.get? k d₁ = Dict.get? k d₂ := fun k => by rw [h₁.1, h₂.1]
  refine Dict.ext_keys (h₁.wf hd) ?_ hg
  have hm : n ∈ d₁.map Prod.fst ↔ n ∈ d₂.map Prod.fst := by
    have e1 := Dict.get?_isSome_iff n d₁
    have e2 := Dict.get?_isSome_iff n d₂
    rw [hg] at e1
    exact e1.symm.trans e2
  rcases h₁.2 with h1 | ⟨h1, n1⟩ <;> rcases h₂.2 with h2 | ⟨h2, n2⟩
  · rw [h1, h2]
  · rw [h1, h2] at hm; exact absurd (hm.2 (by simp)) n2
  · rw [h1, h2] at hm; exact absurd (hm.1 (by simp)) n1
  · rw [h1, h2]

theorem FieldsSpec.Extracted.eq {inter : Bool} {fields : List (Str × Extractor V)} {d d' : Dict Str V}
    (h : FieldsSpec.Extracted inter fields d d') (hd : Dict.WF d) : d' = extractFrom inter fields d := by
  induction h with
  | none => rfl
  | @more n f rest d₁ d₂ d₃ h _ ih =>
    rw [ih (h.wf hd), h.unique (extractFrom_taken inter n f d₁) hd]
    have := extractFrom_append inter [(n, f)] rest d₁
    rw [List.singleton_append] at this
    exact this.symm

/-! the registry -/

open FieldsSpec in
theorem isPossibleFieldName_eq (isId : Str → Bool) (name : Str) :
    isPossibleFieldName isId name = goodName isId name := by
  have hb : builtInFields = standardFields := rfl
  unfold isPossibleFieldName goodName
  rw [hb]
  cases isId name <;> simp
  by_cases h : name.head? = some '_' <;> simp [h]

open FieldsSpec in
theorem addFieldsTo_refines {F : Type} (isId : Str → Bool) (kw : List (Str × Option F)) :
    ∀ d : Dict Str F,
    let r := addFieldsTo isId d kw
    ((fun n => Dict.get? n r.1), r.2) = add isId (fun n => Dict.get? n d) kw := by
  induction kw with
  | nil => intro d; rfl
  | cons x xs ih =>
    intro d
    obtain ⟨name, v⟩ := x
    cases v with
    | none => rfl
    | some f =>
      simp only [addFieldsTo, add, isPossibleFieldName_eq]
      by_cases hg : goodName isId name = true
      · simp only [hg, Bool.not_true, Bool.false_eq_true, ↓reduceIte]
        have := ih (Dict.set name f d)
        rw [this]
        congr 1
        funext n
        simp only [assign, Dict.get?_set]
        by_cases h : n = name
        · simp [h]
        · have : name ≠ n := fun e => h e.symm
          simp [h, this]
      · simp [hg]

theorem WF_addFieldsTo {F : Type} (isId : Str → Bool) (kw : List (Str × Option F)) :
    ∀ d : Dict Str F, Dict.WF d → Dict.WF (addFieldsTo isId d kw).1 := by
  induction kw with
  | nil => intro d h; exact h
  | cons x xs ih =>
    intro d h
    obtain ⟨name, v⟩ := x
    cases v with
    | none => exact h
    | some f =>
      simp only [addFieldsTo]
      split
      · exact h
      · exact ih _ (Dict.WF_set h)

theorem WF_deleteFieldsFrom {F : Type} (ns : List Key) :
    ∀ d : Dict Str F, Dict.WF d → Dict.WF (deleteFieldsFrom d ns).1 := by
  induction ns with
  | nil => intro d h; exact h
  | cons x xs ih =>
    intro d h
    cases x with
    | other => exact h
    | str name =>
      simp only [deleteFieldsFrom]
      split
      · exact ih _ (Dict.WF_erase h)
      · exact h

open FieldsSpec in
theorem deleteFieldsFrom_refines {F : Type} (ns : List Key) :
    ∀ d : Dict Str F, Dict.WF d →
    let r := deleteFieldsFrom d ns
    ((fun n => Dict.get? n r.1), r.2) = delete (fun n => Dict.get? n d) ns := by
  induction ns with
  | nil => intro d _; rfl
  | cons x xs ih =>
    intro d hd
    cases x with
    | other => rfl
    | str name =>
      simp only [deleteFieldsFrom, delete, Dict.has]
      rcases Option.eq_none_or_eq_some (Dict.get? name d) with hg | ⟨f, hg⟩
      · simp [hg]
      · simp only [hg, Option.isSome_some, ↓reduceIte]
        rw [ih _ (Dict.WF_erase hd)]
        congr 1
        funext n
        simp only [assign, Dict.get?_erase hd]
        by_cases h : n = name
        · simp [h]
        · have : name ≠ n := fun e => h e.symm
          simp [h, this]

open FieldsSpec in
theorem FieldStore.calls_refines {F : Type} (isId : Str → Bool) (cs : List (FieldCall F)) :
    ∀ s : FieldStore F, Dict.WF s.inPlace → Dict.WF s.engine →
    Dict.WF (s.calls isId cs).inPlace ∧ Dict.WF (s.calls isId cs).engine ∧
    (⟨fun n => Dict.get? n (s.calls isId cs).inPlace, fun n => Dict.get? n (s.calls isId cs).engine⟩
      : Maps F)
      = FieldsSpec.calls isId ⟨fun n => Dict.get? n s.inPlace, fun n => Dict.get? n s.engine⟩ cs := by
  induction cs with
  | nil => intro s h1 h2; exact ⟨h1, h2, rfl⟩
  | cons c cs ih =>
    intro s h1 h2
    cases c with
    | addFields kw =>
      have := ih ⟨(addFieldsTo isId s.inPlace kw).1, s.engine⟩ (WF_addFieldsTo isId kw _ h1) h2
      refine ⟨this.1, this.2.1, ?_⟩
      simp only [FieldStore.calls, FieldStore.call, FieldsSpec.calls, FieldsSpec.call,
        ← addFieldsTo_refines isId kw s.inPlace]
      exact this.2.2
    | addEngineFields kw =>
      have := ih ⟨s.inPlace, (addFieldsTo isId s.engine kw).1⟩ h1 (WF_addFieldsTo isId kw _ h2)
      refine ⟨this.1, this.2.1, ?_⟩
      simp only [FieldStore.calls, FieldStore.call, FieldsSpec.calls, FieldsSpec.call,
        ← addFieldsTo_refines isId kw s.engine]
      exact this.2.2
    | deleteFields ns =>
      have := ih ⟨(deleteFieldsFrom s.inPlace ns).1, s.engine⟩ (WF_deleteFieldsFrom ns _ h1) h2
      refine ⟨this.1, this.2.1, ?_⟩
      simp only [FieldStore.calls, FieldStore.call, FieldsSpec.calls, FieldsSpec.call,
        ← deleteFieldsFrom_refines ns s.inPlace h1]
      exact this.2.2
    | deleteEngineFields ns =>
      have := ih ⟨s.inPlace, (deleteFieldsFrom s.engine ns).1⟩ h1 (WF_deleteFieldsFrom ns _ h2)
      refine ⟨this.1, this.2.1, ?_⟩
      simp only [FieldStore.calls, FieldStore.call, FieldsSpec.calls, FieldsSpec.call,
        ← deleteFieldsFrom_refines ns s.engine h2]
      exact this.2.2

theorem selectFields_get_aux {F : Type} (d : Dict Str F) (k : Str) (names : List Str) :
    ∀ acc : Dict Str F,
    Dict.get? k (names.foldl (addPresent d) acc)
    = if k ∈ names ∧ (Dict.get? k d).isSome then Dict.get? k d else Dict.get? k acc := by
  induction names with
  | nil => intro acc; simp
  | cons n ns ih =>
    intro acc
    simp only [List.foldl_cons]
    rw [ih]
    by_cases hk : k = n
    · subst hk
      cases hg : Dict.get? k d with
      | none => simp [addPresent, hg]
      | some f => simp [addPresent, hg, Dict.get?_set_self]
    · have hn : n ≠ k := fun e => hk e.symm
      cases hg : Dict.get? n d with
      | none => simp [addPresent, hg, hk]
      | some f => simp [addPresent, hg, hk, Dict.get?_set_ne hn]

theorem selectFields_get {F : Type} (d : Dict Str F) (k : Str) (names : List Str) :
    Dict.get? k (selectFields d names) = if names = [] ∨ k ∈ names then Dict.get? k d else none := by
  unfold selectFields
  by_cases h : names = []
  · simp [h]
  · simp only [h, ↓reduceIte, false_or]
    rw [selectFields_get_aux]
    by_cases hk : k ∈ names
    · cases hg : Dict.get? k d with
      | none => simp [Dict.get?]
      | some f => simp [hk]
    · simp [hk, Dict.get?]

theorem WF_selectFields {F : Type} {d : Dict Str F} (hd : Dict.WF d) (names : List Str) :
    Dict.WF (selectFields d names) := by
  unfold selectFields
  split
  · exact hd
  · have : ∀ (ns : List Str) (acc : Dict Str F), Dict.WF acc →
        Dict.WF (ns.foldl (addPresent d) acc) := by
      intro ns
      induction ns with
      | nil => intro acc h; exact h
      | cons n ns ih =>
        intro acc h
        simp only [List.foldl_cons]
        apply ih
        unfold addPresent
        split
        · exact h
        · exact Dict.WF_set h
    exact this _ _ Dict.WF_nil

/-! get_extra_fields -/

theorem Dict.set_new {K W : Type} [DecidableEq K] (k : K) (v : W) (d : Dict K W)
    (h : k ∉ Dict.keys d) : Dict.set k v d = d ++ [(k, v)] := by
  induction d with
  | nil => rfl
  | cons x r ih =>
    obtain ⟨k0, v0⟩ := x
    simp only [Dict.keys, List.map_cons, List.mem_cons, not_or] at h
    have : k0 ≠ k := fun e => h.1 e.symm
    simp only [Dict.set, this, ↓reduceIte, List.cons_append]
    rw [ih h.2]

theorem mergeDict_clean {F : Type} (d : List (Str × F)) : ∀ acc : Dict Str F, Dict.WF acc →
    mergeDict (cleanDict d) acc =
      if ((acc ++ d).map Prod.fst).Nodup then .ok (acc ++ d) else .error .valueError := by
  induction d with
  | nil =>
    intro acc h
    have : (acc.map Prod.fst).Nodup := h
    simp [cleanDict, mergeDict, this]
  | cons x xs ih =>
    intro acc h
    obtain ⟨n, f⟩ := x
    simp only [cleanDict, List.map_cons, mergeDict] at ih ⊢
    by_cases hm : Dict.has n acc = true
    · rw [if_pos hm]
      rw [Dict.has_iff] at hm
      have : ¬ (List.map Prod.fst (acc ++ (n, f) :: xs)).Nodup := by
        intro hnd
        rw [List.map_append, List.nodup_append] at hnd
        exact hnd.2.2 n hm n (by simp) rfl
      rw [if_neg this]
    · rw [if_neg hm]
      rw [Dict.has_iff] at hm
      rw [ih _ (Dict.WF_set h), Dict.set_new _ _ _ hm]
      simp [List.append_assoc]

theorem mergeDicts_clean {F : Type} (ds : List (List (Str × F))) : ∀ acc : Dict Str F, Dict.WF acc →
    mergeDicts (ds.map fun d => .dict (cleanDict d)) acc =
      if ((acc ++ ds.flatten).map Prod.fst).Nodup then .ok (acc ++ ds.flatten)
      else .error .valueError := by
  induction ds with
  | nil =>
    intro acc h
    have : (acc.map Prod.fst).Nodup := h
    simp [mergeDicts, this]
  | cons d ds ih =>
    intro acc h
    simp only [List.map_cons, mergeDicts, mergeDict_clean d acc h, List.flatten_cons]
    by_cases hn : ((acc ++ d).map Prod.fst).Nodup
    · simp only [hn, ↓reduceIte]
      rw [ih _ hn]
      simp [List.append_assoc]
    · simp only [hn, ↓reduceIte]
      have : ¬ (List.map Prod.fst (acc ++ (d ++ ds.flatten))).Nodup := by
        intro hnd
        apply hn
        rw [← List.append_assoc, List.map_append] at hnd
        exact (List.nodup_append.1 hnd).1
      simp only [this, ↓reduceIte]

theorem containerItems_get {F : Type} (own defaults : Dict Str F) (k : Str) :
    Dict.get? k (containerItems own defaults) =
      match Dict.get? k own with | some f => some f | none => Dict.get? k defaults := by
  unfold containerItems
  have happ : ∀ a b : Dict Str F, Dict.get? k (a ++ b) =
      match Dict.get? k a with | some f => some f | none => Dict.get? k b := by
    intro a b
    induction a with
    | nil => rfl
    | cons x xs ih =>
      obtain ⟨n, f⟩ := x
      simp only [List.cons_append, Dict.get?]
      by_cases h : n = k
      · simp [h]
      · simp only [h, ↓reduceIte]; exact ih
  rw [happ]
  cases h : Dict.get? k own with
  | some f => rfl
  | none =>
    dsimp only
    induction defaults with
    | nil => rfl
    | cons x xs ih =>
      obtain ⟨n, f⟩ := x
      simp only [List.filter_cons]
      by_cases hn : n = k
      · subst hn
        simp [Dict.has, h, Dict.get?]
      · split
        · simp only [Dict.get?, hn, ↓reduceIte]; exact ih
        · simp only [Dict.get?, hn, ↓reduceIte]; exact ih

theorem containerItems_WF {F : Type} {own defaults : Dict Str F} (h1 : Dict.WF own)
    (h2 : Dict.WF defaults) : Dict.WF (containerItems own defaults) := by
  unfold containerItems Dict.WF Dict.keys
  rw [List.map_append, List.nodup_append]
  refine ⟨h1, ?_, ?_⟩
  · exact List.Nodup.sublist (List.Sublist.map _ List.filter_sublist) h2
  · intro a ha b hb
    rintro rfl
    simp only [List.mem_map, List.mem_filter] at hb
    obtain ⟨x, ⟨_, hx⟩, rfl⟩ := hb
    have : Dict.has x.1 own = true := (Dict.has_iff _ _).2 ha
    simp [this] at hx

end Polog
