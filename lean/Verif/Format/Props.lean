import Verif.Format.Lemmas3
import Verif.Levels.Lemmas

/-! Property theorems: C42 (what stands in a line), C43 (columns), C44 (the duration). -/

namespace Polog
open FormatSpec

/-- C42. The text of a record is exactly its shown fields, in the documented order and then the others in the order of
the record, joined with ` | ` and followed by the separator; a standard field whose extractor raises is shown as the
text of its value or not at all, and nothing else changes. -/
theorem C42_line (env : FmtEnv) (first : Levels) (separator : Str) (log : FLog) (hw : Dict.WF log) (line : Str) :
    formatLine env first separator log = .ok line ↔ LineOf env first separator log line :=
  formatLine_iff env first separator log hw line

/-- C42. The only records that have no line are those with an unprintable value of a field that has no standard text. -/
theorem C42_no_line_exactly (env : FmtEnv) (first : Levels) (separator : Str) (log : FLog) (hw : Dict.WF log) :
    (∃ e, formatLine env first separator log = .error e) ↔
      ∃ x ∈ log, Extra env log x.1 x.2 ∧ x.2.text = none := by
  have hnone : ∀ x : Str × FVal, extraText x.1 x.2 = none ↔ x.2.text = none := by
    rintro ⟨name, v⟩
    unfold extraText
    cases v with
    | str s => simp only [FVal.text]; exact ⟨fun h => (nomatch h), fun h => (nomatch h)⟩
    | _ => simp only [Option.map_eq_none_iff]
  have hex : extraCells (baseCells env log fieldHandlers) hiddenFields log = none ↔
      ∃ x ∈ log, Extra env log x.1 x.2 ∧ x.2.text = none := by
    rw [extraCells_none]
    constructor
    · rintro ⟨x, h1, h2, h3⟩; exact ⟨x, h1, (isExtra_iff env log x).1 h2, (hnone x).1 h3⟩
    · rintro ⟨x, h1, h2, h3⟩; exact ⟨x, h1, (isExtra_iff env log x).2 h2, (hnone x).2 h3⟩
  rw [← hex]
  unfold formatLine
  rw [formatWith_eq env _ _ _ separator log fieldHandlers_nodup (alignNorms_nodup first) hw]
  constructor
  · rintro ⟨e, he⟩
    split at he
    · assumption
    · cases he
  · intro h
    rw [h]
    exact ⟨_, rfl⟩

/-- C42. Every field that is not a standard one, is not shown as a part of one and is not `None` stands in the line
exactly once, as `name: value`: the texts after the standard ones are one for each such field, in their order, and for
nothing else than fields without a standard text. -/
theorem C42_extra_fields_once (env : FmtEnv) (first : Levels) (separator : Str) (log : FLog) (hw : Dict.WF log)
    (line : Str) (h : formatLine env first separator log = .ok line) :
    ∃ base extra fields, line = List.intercalate " | ".toList (base ++ extra) ++ separator ∧
      Cells env first log standardOrder base ∧ fields.Sublist log ∧
      List.Forall₂ (fun x t => Named x.1 x.2 t) fields extra ∧
      (∀ x ∈ log, x.1 ∉ standardOrder → x.1 ∉ neverAlone → x.2 ≠ .none → x ∈ fields) ∧
      (∀ x ∈ fields, x.2 ≠ .none ∧ x.1 ∉ neverAlone ∧ ∀ s, ¬ Cell env log x.1 (some s)) := by
  obtain ⟨base, extra, hb, he, hl⟩ := (formatLine_iff env first separator log hw line).1 h
  have main : ∀ rest ts, Extras env log rest ts → ∃ fields : FLog, fields.Sublist rest ∧
      List.Forall₂ (fun x t => Named x.1 x.2 t) fields ts ∧
      (∀ x ∈ rest, Extra env log x.1 x.2 → x ∈ fields) ∧ (∀ x ∈ fields, Extra env log x.1 x.2) := by
    intro rest ts h
    induction h with
    | nil => exact ⟨[], List.Sublist.slnil, .nil, fun _ h => (nomatch h), fun _ h => (nomatch h)⟩
    | shown name v t rest ts hex hn hr ih =>
      obtain ⟨fields, h1, h2, h3, h4⟩ := ih
      refine ⟨(name, v) :: fields, h1.cons_cons _, .cons hn h2, ?_, ?_⟩
      · intro x hx hxe
        rcases List.mem_cons.1 hx with e | hx
        · rw [e]; exact List.mem_cons_self
        · exact List.mem_cons_of_mem _ (h3 x hx hxe)
      · intro x hx
        rcases List.mem_cons.1 hx with e | hx
        · rw [e]; exact hex
        · exact h4 x hx
    | absent name v rest ts hex hr ih =>
      obtain ⟨fields, h1, h2, h3, h4⟩ := ih
      refine ⟨fields, h1.cons _, h2, ?_, h4⟩
      intro x hx hxe
      rcases List.mem_cons.1 hx with e | hx
      · rw [e] at hxe; exact absurd hxe hex
      · exact h3 x hx hxe
  obtain ⟨fields, h1, h2, h3, h4⟩ := main log extra he
  refine ⟨base, extra, fields, hl, hb, h1, h2, ?_, h4⟩
  intro x hx hs hn hv
  refine h3 x hx ⟨hv, hn, fun s hc => hs ?_⟩
  have hex : ∃ ex, (x.1, ex) ∈ fieldHandlers := by
    cases hc with
    | own t he => exact ⟨_, he.choose_spec.1⟩
    | value e v t he hg ht => exact ⟨_, he.choose_spec.1⟩
  obtain ⟨ex, hm⟩ := hex
  rw [← fieldHandlers_names]
  exact List.mem_map_of_mem (f := Prod.fst) hm

/-- C42. An extractor that raises, whatever the others are: if the record has no such field, the line is the one
without that extractor; if it has a printable one, the line is the one with its value as the text. -/
theorem C42_failing_extractor (env : FmtEnv) (before after : List (Str × FExtractor)) (name : Str) (bad : FExtractor)
    (hidden : List Str) (norms : List (Str × Nat)) (separator : Str) (log : FLog) (e : PyErr)
    (hbad : bad env log = .error e) :
    (Dict.get? name log = none →
      formatWith env (before ++ (name, bad) :: after) hidden norms separator log =
        formatWith env (before ++ after) hidden norms separator log) ∧
    (∀ v t, Dict.get? name log = some v → v.text = some t →
      formatWith env (before ++ (name, bad) :: after) hidden norms separator log =
        formatWith env (before ++ (name, fun _ _ => .ok (some t)) :: after) hidden norms separator log) := by
  have happ : ∀ (l l' : List (Str × FExtractor)) (base : Dict Str Str),
      addBaseFields env log (l ++ l') base = addBaseFields env log l' (addBaseFields env log l base) := by
    intro l
    induction l with
    | nil => intro l' base; rfl
    | cons h l ih =>
      intro l' base
      rw [List.cons_append, addBaseFields, addBaseFields]
      cases baseText env log h with
      | none => exact ih l' base
      | some t => exact ih l' _
  unfold formatWith
  constructor
  · intro hg
    rw [happ, happ, addBaseFields]
    have : baseText env log (name, bad) = none := by
      unfold baseText; dsimp only; rw [hbad, hg]
    rw [this]
  · intro v t hg ht
    rw [happ, happ, addBaseFields, addBaseFields]
    have : baseText env log (name, bad) = some t := by
      unfold baseText; dsimp only; rw [hbad, hg]; exact ht
    rw [this]
    rfl

/-- C42 fails for unprintable values: a field of a record whose `str()` raises does not only drop itself, there is no
line at all; this holds for standard fields too (`message`). -/
theorem C42_unprintable_value_fails : ∀ (env : FmtEnv) (first : Levels) (separator : Str) (type : Str),
    (∃ e, formatLine env first separator
      [("message".toList, .str "hi".toList), ("user".toList, .other none true type)] = .error e) ∧
    (∃ e, formatLine env first separator [("message".toList, .other none true type)] = .error e) := by
  intro env first separator type
  constructor
  · have hw : Dict.WF [("message".toList, FVal.str "hi".toList), ("user".toList, FVal.other none true type)] :=
      show (["message".toList, "user".toList]).Nodup by decide +kernel
    rw [C42_no_line_exactly env first separator _ hw]
    refine ⟨("user".toList, .other none true type), by simp,
      ⟨fun h => (nomatch h), show "user".toList ∉ neverAlone by decide +kernel, ?_⟩, rfl⟩
    intro s hc
    have hex : ∃ ex, ("user".toList, ex) ∈ fieldHandlers := by
      cases hc with
      | own t he => exact ⟨_, he.choose_spec.1⟩
      | value e v t he hg ht => exact ⟨_, he.choose_spec.1⟩
    obtain ⟨ex, hm⟩ := hex
    have := List.mem_map_of_mem (f := Prod.fst) hm
    rw [fieldHandlers_names] at this
    exact absurd this (show "user".toList ∉ standardOrder by decide +kernel)
  · have hw : Dict.WF [("message".toList, FVal.other none true type)] :=
      show (["message".toList]).Nodup by decide +kernel
    rw [C42_no_line_exactly env first separator _ hw]
    refine ⟨("message".toList, .other none true type), by simp,
      ⟨fun h => (nomatch h), show "message".toList ∉ neverAlone by decide +kernel, ?_⟩, rfl⟩
    intro s hc
    have hm : ("message".toList, exMessage) ∈ fieldHandlers := by
      simp only [fieldHandlers, List.mem_cons, true_or, or_true]
    have := (cell_iff hm _).1 hc
    cases this

/-- C42. What the standard fields say for the values the logger puts into them. -/
theorem C42_standard_texts (env : FmtEnv) (log : FLog) :
    (∀ t, (∃ v, fget log "time" = v ∧ v ≠ .none ∧ v.text = some t) →
      Cell env log "time".toList (some ("[".toList ++ t ++ "]".toList))) ∧
    (fget log "time" = .none → Cell env log "time".toList (some "[----time not specified----]".toList)) ∧
    (∀ n name, fget log "level" = .int n → env.levels.getLevelName (some n) = some name →
      Cell env log "level".toList (some name)) ∧
    (fget log "level" = .none → Cell env log "level".toList (some "UNKNOWN".toList)) ∧
    (∀ b, fget log "success" = .bool b →
      Cell env log "success".toList (some (if b then "SUCCESS".toList else "ERROR".toList))) ∧
    (fget log "success" = .none → Cell env log "success".toList (some "UNKNOWN".toList)) ∧
    (∀ b, fget log "auto" = .bool b →
      Cell env log "auto".toList (some (if b then "AUTO".toList else "MANUAL".toList))) ∧
    (∀ m, fget log "message" = .str m → Cell env log "message".toList (some ("\"".toList ++ m ++ "\"".toList))) ∧
    (fget log "message" = .none → Cell env log "message".toList none) ∧
    (∀ type, fget log "exception_type" = .str type → ∀ m, fget log "exception_message" = .str m →
      Cell env log "exception".toList
        (some ("exception: ".toList ++ type ++ "(\"".toList ++ m ++ "\")".toList))) ∧
    (∀ type, fget log "exception_type" = .str type → fget log "exception_message" = .none →
      Cell env log "exception".toList (some ("exception: ".toList ++ type ++ "()".toList))) ∧
    (fget log "exception_type" = .none → Cell env log "exception".toList none) := by
  have key : ∀ (name : Str) (ex : FExtractor) (t : Option Str), (name, ex) ∈ fieldHandlers → ex env log = .ok t →
      Cell env log name t := fun name ex t hm h => .own t ⟨ex, hm, h⟩
  have mt : ("time".toList, exTime) ∈ fieldHandlers := List.mem_cons_self
  have ml : ("level".toList, exLevel) ∈ fieldHandlers := by simp only [fieldHandlers, List.mem_cons, true_or, or_true]
  have ms : ("success".toList, exSuccess) ∈ fieldHandlers := by
    simp only [fieldHandlers, List.mem_cons, true_or, or_true]
  have ma : ("auto".toList, exAuto) ∈ fieldHandlers := by simp only [fieldHandlers, List.mem_cons, true_or, or_true]
  have mm : ("message".toList, exMessage) ∈ fieldHandlers := by
    simp only [fieldHandlers, List.mem_cons, true_or, or_true]
  have me : ("exception".toList, exException) ∈ fieldHandlers := by
    simp only [fieldHandlers, List.mem_cons, true_or, or_true]
  refine ⟨?_, ?_, ?_, ?_, ?_, ?_, ?_, ?_, ?_, ?_, ?_, ?_⟩
  · rintro t ⟨v, hv, hne, ht⟩
    refine key _ _ _ mt ?_
    unfold exTime
    rw [hv]
    cases v with
    | none => exact absurd rfl hne
    | _ => simp only [FVal.textE, ht]; rfl
  · intro hv
    refine key _ _ _ mt ?_
    unfold exTime; rw [hv]
  · intro n name hv hn
    refine key _ _ _ ml ?_
    unfold exLevel; rw [hv]; dsimp only; rw [hn]
  · intro hv
    refine key _ _ _ ml ?_
    unfold exLevel; rw [hv]
  · intro b hv
    refine key _ _ _ ms ?_
    unfold exSuccess; rw [hv]; rfl
  · intro hv
    refine key _ _ _ ms ?_
    unfold exSuccess; rw [hv]
  · intro b hv
    refine key _ _ _ ma ?_
    unfold exAuto; rw [hv]; rfl
  · intro m hv
    refine key _ _ _ mm ?_
    unfold exMessage; rw [hv]; rfl
  · intro hv
    refine key _ _ _ mm ?_
    unfold exMessage; rw [hv]
  · intro type hv m hm
    refine key _ _ _ me ?_
    unfold exException; rw [hv, hm]; rfl
  · intro type hv hm
    refine key _ _ _ me ?_
    unfold exException; rw [hv, hm]; rfl
  · intro hv
    refine key _ _ _ me ?_
    unfold exException; rw [hv]

/-- C42. Standard fields that the record does not have: `MANUAL` stands for a missing `auto`, the others leave no text. -/
theorem C42_missing_fields (env : FmtEnv) (log : FLog) :
    (Dict.get? "auto".toList log = none → Cell env log "auto".toList (some "MANUAL".toList)) ∧
    ∀ name ∈ ["message", "time_of_work", "input_variables", "local_variables", "result", "traceback"].map String.toList,
      Dict.get? name log = none → Cell env log name none := by
  have key : ∀ (name : Str) (ex : FExtractor) (t : Option Str), (name, ex) ∈ fieldHandlers → ex env log = .ok t →
      Cell env log name t := fun name ex t hm h => .own t ⟨ex, hm, h⟩
  have hf : ∀ name : String, Dict.get? name.toList log = none → fget log name = .none := by
    intro name h
    unfold fget; rw [h]; rfl
  refine ⟨fun h => ?_, ?_⟩
  · refine key _ exAuto _ (by simp only [fieldHandlers, List.mem_cons, true_or, or_true]) ?_
    unfold exAuto; rw [hf _ h]; rfl
  · intro name hn
    simp only [List.map_cons, List.map_nil, List.mem_cons, List.not_mem_nil, or_false] at hn
    rcases hn with rfl | rfl | rfl | rfl | rfl | rfl <;> intro h
    · refine key _ exMessage _ (by simp only [fieldHandlers, List.mem_cons, true_or, or_true]) ?_
      unfold exMessage; rw [hf _ h]
    · refine key _ exTimeOfWork _ (by simp only [fieldHandlers, List.mem_cons, true_or, or_true]) ?_
      unfold exTimeOfWork; rw [hf _ h]
    · refine key _ exInput _ (by simp only [fieldHandlers, List.mem_cons, true_or, or_true]) ?_
      unfold exInput; rw [hf _ h]; rfl
    · refine key _ exLocal _ (by simp only [fieldHandlers, List.mem_cons, true_or, or_true]) ?_
      unfold exLocal; rw [hf _ h]
    · refine key _ exResult _ (by simp only [fieldHandlers, List.mem_cons, true_or, or_true]) ?_
      unfold exResult; rw [h]
    · refine key _ exTraceback _ (by simp only [fieldHandlers, List.mem_cons, true_or, or_true]) ?_
      unfold exTraceback; rw [hf _ h]

/-- C42. The place: service, module, class and function, those of them there are, joined with dots. -/
theorem C42_place_text (env : FmtEnv) (log : FLog) (module cls : Option Str)
    (hm : fget log "module" = optStr module) (hc : fget log "class" = optStr cls) :
    (∀ f, fget log "function" = .str f →
      Cell env log "function".toList (some ("where: ".toList ++
        List.intercalate ".".toList ([env.service, module, cls, some f].filterMap id) ++ "()".toList))) ∧
    (fget log "function" = .none →
      Cell env log "function".toList (some ("where: ".toList ++
        (if List.intercalate ".".toList ([env.service, module, cls].filterMap id) = [] then "?".toList
         else List.intercalate ".".toList ([env.service, module, cls].filterMap id) ++ ".?".toList)))) := by
  have key : ∀ (t : Option Str), exFunction env log = .ok t → Cell env log "function".toList t := fun t h =>
    .own t ⟨exFunction, by simp only [fieldHandlers, List.mem_cons, true_or, or_true], h⟩
  have parts : ∀ l : List (Option Str), placeParts (l.map optStr) = .ok (l.filterMap id) := by
    intro l
    induction l with
    | nil => rfl
    | cons a l ih =>
      cases a with
      | none => exact ih
      | some s =>
        have : placeParts ((some s :: l).map optStr) = (placeParts (l.map optStr)).map fun l => s :: l := rfl
        rw [this, ih]
        rfl
  constructor
  · intro f hf
    refine key _ ?_
    unfold exFunction
    dsimp only
    rw [hf, if_pos (fun h => nomatch h), hm, hc]
    have := parts [env.service, module, cls, some f]
    rw [show [optStr env.service, optStr module, optStr cls, FVal.str f] =
      [env.service, module, cls, some f].map optStr from rfl, this, ← joinStr_eq]
    rfl
  · intro hf
    refine key _ ?_
    unfold exFunction
    dsimp only
    rw [hf, if_neg (fun h => h rfl), hm, hc]
    have := parts [env.service, module, cls]
    rw [show [optStr env.service, optStr module, optStr cls] =
      [env.service, module, cls].map optStr from rfl, this, ← joinStr_eq]
    dsimp only [Except.map]
    by_cases h : joinStr ".".toList ([env.service, module, cls].filterMap id) = []
    · rw [if_neg (fun h' => h' h), if_pos h]; rfl
    · rw [if_pos h, if_neg h, List.append_assoc]

def fmtExampleEnv : FmtEnv :=
  ⟨Levels.standard .empty, some "shop".toList, fun _ => .error .valueError, fun _ => [], fun c => c == ' '⟩

/-- A manual record with an extra field: the whole line. -/
example : formatLine fmtExampleEnv (Levels.standard .empty) "\n".toList
    [("level".toList, .int 40), ("time".toList, .other (some "12:00".toList) true []),
     ("message".toList, .str "no money".toList), ("auto".toList, .bool false), ("user".toList, .int 7)] =
    .ok "[12:00] |  error   | UNKNOWN | MANUAL | \"no money\" | where: shop.? | user: 7\n".toList := by
  decide +kernel

/-- **C42.** The place in a line is not made of the fields of the record alone: the name of the service is read from the settings when
the line is made (`base_formatter_fields_extractors.py:90`), and the field `service_name` of the record is never shown.  A record that
was made while the service was called `till` and is written after `config.set(service_name='shop')` says `shop`. -/
theorem C42_service_name_of_another_moment_fails : ∃ (log : FLog) (line : Str),
    Dict.get? "service_name".toList log = some (.str "till".toList) ∧
    formatLine fmtExampleEnv (Levels.standard .empty) "\n".toList log = .ok line ∧
    "where: shop.?".toList <:+: line ∧ ¬ "till".toList <:+: line :=
  ⟨[("level".toList, .int 40), ("time".toList, .other (some "12:00".toList) true []), ("auto".toList, .bool false),
      ("service_name".toList, .str "till".toList)],
    "[12:00] |  error   | UNKNOWN | MANUAL | where: shop.?\n".toList, by decide +kernel, by decide +kernel,
    ⟨"[12:00] |  error   | UNKNOWN | MANUAL | ".toList, "\n".toList, by decide +kernel⟩, by decide +kernel⟩

end Polog
