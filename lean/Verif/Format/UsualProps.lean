import Verif.Format.UsualSpec
import Verif.Format.Props5

/-! The whole line of a usual record (C42). -/

namespace Polog
open FormatSpec

theorem cells_spoken {env : FmtEnv} {first : Levels} {log : FLog} : ∀ {names : List Str} {texts : List (Option Str)} {base : List Str},
    Cells env first log names base → List.Forall₂ (Cell env log) names texts →
    List.Forall₂ (fun (x : Str × Str) t => Written first x.1 x.2 t)
      ((names.zip texts).filterMap fun x => x.2.map fun t => (x.1, t)) base := by
  intro names texts base h
  induction h generalizing texts with
  | nil => intro h2; cases h2; exact .nil
  | shown name s t names ts hc hw hr ih =>
    intro h2
    cases h2 with
    | cons h3 h4 =>
      have := cell_unique h3 hc
      subst this
      exact .cons hw (ih h4)
  | absent name names ts hc hr ih =>
    intro h2
    cases h2 with
    | cons h3 h4 =>
      have := cell_unique h3 hc
      subst this
      exact ih h4

theorem extras_named {env : FmtEnv} {log : FLog} (p : Str × FVal → Bool) : ∀ {rest : FLog} {extra : List Str},
    Extras env log rest extra → (∀ x ∈ rest, Extra env log x.1 x.2 ↔ p x = true) →
    List.Forall₂ (fun (x : Str × FVal) t => Named x.1 x.2 t) (rest.filter p) extra := by
  intro rest extra h
  induction h with
  | nil => intro _; exact .nil
  | shown name v t rest ts hex hn hr ih =>
    intro hp
    rw [List.filter_cons_of_pos ((hp _ List.mem_cons_self).1 hex)]
    exact .cons hn (ih fun x hx => hp x (List.mem_cons_of_mem _ hx))
  | absent name v rest ts hex hr ih =>
    intro hp
    rw [List.filter_cons_of_neg (fun h => hex ((hp _ List.mem_cons_self).2 h))]
    exact ih fun x hx => hp x (List.mem_cons_of_mem _ hx)

/-! ### variables -/

theorem entry_arg {env : FmtEnv} {js : List J} {texts : List Str} (h : List.Forall₂ (EntryText env) js texts) :
    ∃ args, mapExcept getItem args = .ok js ∧ args.length = js.length ∧
      ∀ ts, List.Forall₂ (ArgText env) args ts → List.Forall₂ (EntryText env) js ts := by
  induction h with
  | nil => exact ⟨[], rfl, rfl, fun ts h => by cases h; exact .nil⟩
  | @cons j t js texts hj hr ih =>
    obtain ⟨args, h1, h2, h3⟩ := ih
    obtain ⟨value, type, hh, _⟩ := hj
    refine ⟨.prim type value type :: args, ?_, by simp [h2], ?_⟩
    · simp only [mapExcept, getItem, h1]
      rw [hh]
    · intro ts hts
      cases hts with
      | cons ha hts => exact .cons ⟨value, type, hh, ha⟩ (h3 _ hts)

theorem named_entry_arg {env : FmtEnv} {ks : List (Str × J)} {texts : List Str} (h : List.Forall₂ (NamedEntryText env) ks texts) :
    ∃ kwargs : Dict Str ArgVal, mapExcept getItemPair kwargs = .ok ks ∧ kwargs.length = ks.length ∧
      ∀ ts, List.Forall₂ (KwargText env) kwargs ts → List.Forall₂ (NamedEntryText env) ks ts := by
  induction h with
  | nil => exact ⟨[], rfl, rfl, fun ts h => by cases h; exact .nil⟩
  | @cons x t ks texts hj hr ih =>
    obtain ⟨kwargs, h1, h2, h3⟩ := ih
    obtain ⟨s, ⟨value, type, hh, _⟩, _⟩ := hj
    obtain ⟨name, j⟩ := x
    refine ⟨(name, .prim type value type) :: kwargs, ?_, by simp [h2], ?_⟩
    · simp only [mapExcept, getItemPair, getItem, Except.map]
      rw [show mapExcept getItemPair kwargs = .ok ks from h1]
      dsimp only at hh ⊢
      rw [hh]
    · intro ts hts
      cases hts with
      | cons ha hts =>
        obtain ⟨s, h4, h5⟩ := ha
        exact .cons ⟨s, ⟨value, type, hh, h4⟩, h5⟩ (h3 _ hts)

/-- The text of the JSON of variables. -/
theorem variables_text {env : FmtEnv} {j : J} {t : Str} (h : VariablesText env j t) {dumped : Str} (hne : dumped ≠ [])
    (hl : env.loads dumped = .ok j) : ∃ t', VariablesText env j t' ∧ jsonVariablesToText env (.str dumped) = .ok (some t') := by
  obtain ⟨as, ks, texts, ktexts, h0, hj, h1, h2, _⟩ := h
  obtain ⟨args, a1, a2, a3⟩ := entry_arg h1
  obtain ⟨kwargs, k1, k2, k3⟩ := named_entry_arg h2
  have hv : jsonVars args kwargs = .ok (some j) := by
    unfold jsonVars
    have : args.length + kwargs.length ≠ 0 := by
      rw [a2, k2]
      rcases h0 with h0 | h0
      · have := List.length_pos_iff.2 h0; omega
      · have := List.length_pos_iff.2 h0; omega
    rw [if_neg this, a1]
    dsimp only
    rw [k1, hj]
    dsimp only
    congr 4
    · cases as <;> simp
    · cases ks <;> simp
  obtain ⟨ts, kts, t1, t2, t3⟩ := jsonVariables_text env args kwargs j dumped hv hne hl
  exact ⟨_, ⟨as, ks, ts, kts, h0, hj, a3 _ t1, k3 _ t2, rfl⟩, t3⟩

theorem entry_text {env : FmtEnv} {j : J} {t : Str} (h : EntryText env j t) : humanReadable env j = .ok t := by
  obtain ⟨value, type, hh, rfl⟩ := h
  exact humanReadable_holds env hh

/-! ### the fields -/

theorem strOrNone_opt {v : FVal} (h : StrOrNone v) : ∃ o, v = optStr o := by
  rcases h with rfl | ⟨s, rfl⟩
  · exact ⟨none, rfl⟩
  · exact ⟨some s, rfl⟩

theorem dotted_opt (l : List (Option Str)) : dotted (l.map optStr) = List.intercalate ".".toList (l.filterMap id) := by
  unfold dotted
  congr 1
  induction l with
  | nil => rfl
  | cons o l ih =>
    cases o with
    | none => exact ih
    | some s => simpa [optStr] using ih

theorem serviceOf_opt (env : FmtEnv) : serviceOf env = optStr env.service := by
  unfold serviceOf
  cases env.service <;> rfl

/-- The text of a field, what it says, and that a field without a text has no value. -/
def Spoken (env : FmtEnv) (log : FLog) (name : Str) (t : Option Str) : Prop :=
  Says env log name t ∧ Cell env log name t ∧ (t = none → (Dict.get? name log).getD .none = .none)

theorem spoken_of_usual {env : FmtEnv} {log : FLog} (u : Usual env log) (name : Str) (hn : name ∈ standardOrder) :
    ∃ t, Spoken env log name t := by
  obtain ⟨s1, s2, s3, s4, s5, s6, s7, s8, s9, s10, s11, s12⟩ := C42_standard_texts env log
  have m := (C42_missing_fields env log).2
  simp only [standardOrder, List.map_cons, List.map_nil, List.mem_cons, List.not_mem_nil, or_false] at hn
  have out : ∀ (t : Str), Says env log name (some t) → Cell env log name (some t) → ∃ t, Spoken env log name t :=
    fun t h1 h2 => ⟨some t, h1, h2, fun h => nomatch h⟩
  have own : ∀ (ex : FExtractor) (t : Option Str), (name, ex) ∈ fieldHandlers → ex env log = .ok t → Cell env log name t :=
    fun ex t hm h => .own t ⟨ex, hm, h⟩
  rcases hn with rfl | rfl | rfl | rfl | rfl | rfl | rfl | rfl | rfl | rfl | rfl | rfl
  · -- time
    by_cases hv : fget log "time" = .none
    · exact out _ (.noTime hv) (s2 hv)
    · cases hg : Dict.get? "time".toList log with
      | none => exact absurd (by unfold fget; rw [hg]; rfl) hv
      | some v =>
        have hf : fget log "time" = v := by unfold fget; rw [hg]; rfl
        cases ht : v.text with
        | none => exact absurd ht (u.printable _ ((Dict.mem_iff_get? u.once _ _).2 hg))
        | some t => exact out _ (.time v t hf (hf ▸ hv) ht) (s1 t ⟨v, hf, hf ▸ hv, ht⟩)
  · -- level
    rcases u.level with h | ⟨n, h⟩
    · exact out _ (.noLevel h) (s4 h)
    · cases hg : Dict.get? n env.levels.byNumber with
      | none => exact out _ (.levelNumber n h hg) (s3 n _ h (by unfold Levels.getLevelName; dsimp only; rw [hg]))
      | some name => exact out _ (.levelName n name h hg) (s3 n _ h (by unfold Levels.getLevelName; dsimp only; rw [hg]))
  · -- success
    rcases u.success with h | ⟨b, h⟩
    · exact out _ (.noSuccess h) (s6 h)
    · cases b with
      | true => exact out _ (.success h) (s5 true h)
      | false => exact out _ (.error h) (s5 false h)
  · -- auto
    rcases u.auto with h | ⟨b, h⟩
    · exact out _ (.manual _ rfl (.inr h)) (own exAuto _ (by simp only [fieldHandlers, List.mem_cons, true_or, or_true]) (by
        unfold exAuto; rw [show fget log "auto" = .none from h]; rfl))
    · cases b with
      | true => exact out _ (.auto h) (s7 true h)
      | false => exact out _ (.manual _ rfl (.inl h)) (s7 false h)
  · -- message
    rcases u.message with h | ⟨s, h⟩
    · exact ⟨none, .noMessage h, s9 h, fun _ => h⟩
    · exact out _ (.message s h) (s8 s h)
  · -- function
    obtain ⟨mo, hm⟩ := strOrNone_opt u.module
    obtain ⟨co, hc⟩ := strOrNone_opt u.cls
    obtain ⟨p1, p2⟩ := C42_place_text env log mo co hm hc
    rcases u.function with h | ⟨f, h⟩
    · refine out _ (.placeOfNoFunction _ h rfl) ?_
      have := p2 h
      have e : dotted [serviceOf env, valueOf log "module", valueOf log "class"] =
          List.intercalate ".".toList ([env.service, mo, co].filterMap id) := by
        rw [← dotted_opt, hm, hc, serviceOf_opt]; rfl
      rw [e]
      exact this
    · refine out _ (.place f h) ?_
      have := p1 f h
      have e : dotted [serviceOf env, valueOf log "module", valueOf log "class", .str f] =
          List.intercalate ".".toList ([env.service, mo, co, some f].filterMap id) := by
        rw [← dotted_opt, hm, hc, serviceOf_opt]; rfl
      rw [e]
      exact this
  · -- time of work
    have hnum : ∀ v, fget log "time_of_work" = v → ((∃ n, v = .int n) ∨ ∃ neg num den text, v = .float neg num den text ∧ 0 < den) →
        ∃ t, Spoken env log "time_of_work".toList t := by
      intro v hv hn
      obtain ⟨neg, n, number, h1, h2, h3⟩ := C44_time_of_work_partial env log v hv (.inr hn)
      exact ⟨_, .timeOfWork v neg n number hv h1 h3.2, h2, fun h => nomatch h⟩
    rcases u.timeOfWork with h | ⟨n, h⟩ | ⟨neg, num, den, text, h, hd⟩
    · refine ⟨none, .noTimeOfWork h, own exTimeOfWork _ (by simp only [fieldHandlers, List.mem_cons, true_or, or_true]) ?_, fun _ => h⟩
      unfold exTimeOfWork; rw [show fget log "time_of_work" = .none from h]
    · exact hnum _ h (.inl ⟨n, rfl⟩)
    · exact hnum _ h (.inr ⟨neg, num, den, text, rfl, hd⟩)
  · -- input variables
    have mem : ("input_variables".toList, exInput) ∈ fieldHandlers := by simp only [fieldHandlers, List.mem_cons, true_or, or_true]
    rcases u.input with h | ⟨dumped, j, t, h, hne, hl, hv⟩
    · refine ⟨none, .noInput h, own exInput _ mem ?_, fun _ => h⟩
      unfold exInput jsonVariablesToText; rw [show fget log "input_variables" = .none from h]; rfl
    · obtain ⟨t', h1, h2⟩ := variables_text hv hne hl
      refine out _ (.input dumped j t' h hl h1) (own exInput _ mem ?_)
      unfold exInput; rw [show fget log "input_variables" = .str dumped from h, h2]; rfl
  · -- local variables
    have mem : ("local_variables".toList, exLocal) ∈ fieldHandlers := by simp only [fieldHandlers, List.mem_cons, true_or, or_true]
    rcases u.locals with h | ⟨dumped, j, t, h, hne, hl, hv⟩ | ⟨s, e, h, hne, hl⟩
    · refine ⟨none, .noLocals h, own exLocal _ mem ?_, fun _ => h⟩
      unfold exLocal; rw [show fget log "local_variables" = .none from h]
    · obtain ⟨t', h1, h2⟩ := variables_text hv hne hl
      refine out _ (.locals dumped j t' h hl h1) (own exLocal _ mem ?_)
      unfold exLocal; rw [show fget log "local_variables" = .str dumped from h]; dsimp only; rw [h2]; rfl
    · refine out _ (.localsAsGiven s e h hl) (own exLocal _ mem ?_)
      have ht : (FVal.str s).truthy = true := by unfold FVal.truthy; simpa using hne
      unfold exLocal; rw [show fget log "local_variables" = .str s from h]; dsimp only
      unfold jsonVariablesToText loadsV
      rw [if_pos ht]; dsimp only; rw [hl]; rfl
  · -- result
    rcases u.result with h | ⟨dumped, j, t, h, hl, ht⟩ | ⟨v, t, h, hv, ht⟩
    · refine ⟨none, .noResult h, own exResult _ (by simp only [fieldHandlers, List.mem_cons, true_or, or_true]) ?_, fun _ => by rw [h]; rfl⟩
      unfold exResult; rw [h]
    · refine out _ (.result dumped j t h hl ht) (own exResult _ (by simp only [fieldHandlers, List.mem_cons, true_or, or_true]) ?_)
      unfold exResult; rw [h]; dsimp only; rw [hl]; dsimp only; rw [entry_text ht]; rfl
    · exact out _ (.otherResult v t h hv ht) (C84_other_result_is_shown env log v t hv ht h)
  · -- exception
    rcases u.exceptionType with h | ⟨type, h⟩
    · exact ⟨none, .noException h, s12 h, fun _ => by rw [u.exception]; rfl⟩
    · rcases u.exceptionMessage with h' | ⟨m, h'⟩
      · exact out _ (.exceptionWithoutText type h h') (s11 type h h')
      · exact out _ (.exception type m h h') (s10 type h m h')
  · -- traceback
    rcases u.traceback with h | ⟨dumped, entries, h, hne, hp, hl⟩
    · refine ⟨none, .noTraceback h, own exTraceback _ (by simp only [fieldHandlers, List.mem_cons, true_or, or_true]) ?_, fun _ => h⟩
      unfold exTraceback; rw [show fget log "traceback" = .none from h]
    · obtain ⟨t1, t2⟩ := C84_traceback_is_shown_partial env log entries dumped u.spaces (fun e he => (hp e he).1)
        (fun e he => (hp e he).2) hne hl h
      by_cases he : entries = []
      · subst he
        exact out _ (.emptyTraceback dumped h hl) (t1 rfl)
      · obtain ⟨texts, h1, h2⟩ := t2 he
        exact out _ (.traceback dumped entries texts h hl he h1) h2

theorem spoken_list {env : FmtEnv} {log : FLog} : ∀ names : List Str, (∀ n ∈ names, ∃ t, Spoken env log n t) →
    ∃ texts, List.Forall₂ (Spoken env log) names texts
  | [], _ => ⟨[], .nil⟩
  | n :: names, h => by
    obtain ⟨t, ht⟩ := h n List.mem_cons_self
    obtain ⟨ts, hts⟩ := spoken_list names fun m hm => h m (List.mem_cons_of_mem _ hm)
    exact ⟨t :: ts, .cons ht hts⟩

/-- **C42.** The whole line of a usual record: what the documentation says about each of the twelve standard fields, in their order, those
without a text left out, the first ones in columns; then every other field that is not `None`, once, under its own name; joined with
` | ` and followed by the separator. -/
theorem C42_usual_line (env : FmtEnv) (first : Levels) (separator : Str) (log : FLog) (u : Usual env log) :
    ∃ texts shown others, List.Forall₂ (Says env log) standardOrder texts ∧
      List.Forall₂ (fun (x : Str × Str) t => Written first x.1 x.2 t) (spoken texts) shown ∧
      List.Forall₂ (fun (x : Str × FVal) t => Named x.1 x.2 t) (otherFields log) others ∧
      formatLine env first separator log = .ok (List.intercalate " | ".toList (shown ++ others) ++ separator) := by
  have hw : Dict.WF log := u.once
  obtain ⟨texts, ht⟩ := spoken_list standardOrder (spoken_of_usual u)
  have hsays : List.Forall₂ (Says env log) standardOrder texts := ht.imp fun _ _ h => h.1
  have hcell : List.Forall₂ (Cell env log) standardOrder texts := ht.imp fun _ _ h => h.2.1
  cases hf : formatLine env first separator log with
  | error e =>
    obtain ⟨x, hx, _, h2⟩ := (C42_no_line_exactly env first separator log hw).1 ⟨e, hf⟩
    exact absurd h2 (u.printable x hx)
  | ok line =>
    obtain ⟨base, extra, hb, he, rfl⟩ := (C42_line env first separator log hw line).1 hf
    refine ⟨texts, base, extra, hsays, cells_spoken hb hcell, extras_named _ he ?_, rfl⟩
    rintro ⟨name, v⟩ hx
    have hg : Dict.get? name log = some v := (Dict.mem_iff_get? hw _ _).1 hx
    have hstd : name ∈ standardOrder → ¬ Extra env log name v := by
      rintro hn ⟨h1, _, h3⟩
      obtain ⟨t, _, hc, h0⟩ := spoken_of_usual u name hn
      cases t with
      | none => exact h1 (by have := h0 rfl; rw [hg] at this; exact this)
      | some s => exact h3 s hc
    have hno : name ∉ standardOrder → ∀ s, ¬ Cell env log name (some s) := by
      intro hn s hc
      apply hn
      rw [← fieldHandlers_names]
      cases hc with
      | own _ h => obtain ⟨ex, hm, _⟩ := h; exact List.mem_map_of_mem (f := Prod.fst) hm
      | value e v t h _ _ => obtain ⟨ex, hm, _⟩ := h; exact List.mem_map_of_mem (f := Prod.fst) hm
    simp only [Bool.and_eq_true, Bool.not_eq_true', List.contains_eq_mem, decide_eq_false_iff_not, decide_eq_true_eq, ne_eq]
    constructor
    · intro h
      exact ⟨⟨fun hn => hstd hn h, h.2.1⟩, h.1⟩
    · rintro ⟨⟨h1, h2⟩, h3⟩
      exact ⟨h3, h2, hno h1⟩

def usualEntry (value : J) (type : Str) : J := .obj [("value".toList, value), ("type".toList, .str type)]

/-- `json.loads` on three texts: the arguments `5` and `name='x'`, a result and a traceback of one entry. -/
def usualEnv : FmtEnv :=
  ⟨Levels.standard .empty, some "shop".toList,
   fun s => if s = "I".toList then .ok (.obj [("args".toList, .arr [usualEntry (.int 5) "int".toList]),
        ("kwargs".toList, .obj [("name".toList, usualEntry (.str "x".toList) "str".toList)])])
      else if s = "R".toList then .ok (usualEntry (.int 6) "int".toList)
      else if s = "T".toList then .ok (.arr ([⟨"a.py".toList, 10, "pay".toList, "    raise  error\n".toList⟩].map fun e : TbEntry => .str e.text))
      else .error .valueError,
   fun _ => [], fun c => c == ' ' || c == '\n'⟩

def usualRecord : FLog :=
  [("level".toList, .int 40), ("time".toList, .other (some "12:00".toList) true []), ("auto".toList, .bool true),
   ("success".toList, .bool false), ("function".toList, .str "pay".toList), ("module".toList, .str "m".toList),
   ("class".toList, .none), ("time_of_work".toList, .float false 1 4 "0.25".toList), ("input_variables".toList, .str "I".toList),
   ("local_variables".toList, .str "oops".toList), ("result".toList, .str "R".toList),
   ("exception_type".toList, .str "ValueError".toList), ("exception_message".toList, .str "bad".toList),
   ("traceback".toList, .str "T".toList), ("user".toList, .int 7), ("id".toList, .none)]

/-- The hypotheses of `C42_usual_line` hold of a record with every standard field, and this is its line. -/
example : Usual usualEnv usualRecord ∧
    formatLine usualEnv (Levels.standard .empty) "\n".toList usualRecord =
      .ok (("[12:00] |  error   |  ERROR  |  AUTO  | where: shop.m.pay() | time of work: 0.25 sec. | " ++
        "input variables: 5 (int), name = \"x\" (str) | local variables: oops | result: 6 (int) | exception: ValueError(\"bad\") | " ++
        "traceback: raise error (\"a.py\", line 10, in pay) | user: 7\n").toList) := by
  refine ⟨⟨?_, by decide +kernel, by decide +kernel, .inr ⟨40, by decide +kernel⟩, .inr ⟨false, by decide +kernel⟩,
    .inr ⟨true, by decide +kernel⟩, .inl (by decide +kernel), .inr ⟨"pay".toList, by decide +kernel⟩, .inr ⟨"m".toList, by decide +kernel⟩,
    .inl (by decide +kernel), .inr (.inr ⟨false, 1, 4, "0.25".toList, by decide +kernel, by decide⟩),
    .inr ⟨"I".toList, _, "5 (int), name = \"x\" (str)".toList, by decide +kernel, by decide +kernel, rfl, ?_⟩,
    .inr (.inr ⟨"oops".toList, .valueError, by decide +kernel, by decide +kernel, rfl⟩),
    .inr (.inl ⟨"R".toList, _, _, by decide +kernel, rfl, ⟨_, _, rfl, rfl⟩⟩), by decide +kernel,
    .inr ⟨"ValueError".toList, by decide +kernel⟩, .inr ⟨"bad".toList, by decide +kernel⟩,
    .inr ⟨"T".toList, [_], by decide +kernel, by decide +kernel, ?_, rfl⟩⟩, by decide +kernel⟩
  · refine ⟨rfl, rfl, ?_⟩
    rintro c (h | rfl | rfl)
    · by_cases h1 : c = ' '
      · subst h1; exact absurd h (by decide)
      · by_cases h2 : c = '\n'
        · subst h2; exact absurd h (by decide)
        · simp [usualEnv, h1, h2]
    · rfl
    · rfl
  · exact ⟨[_], [_], [_], [_], .inl (List.cons_ne_nil _ _), rfl, .cons ⟨_, _, rfl, rfl⟩ .nil, .cons ⟨_, ⟨_, _, rfl, rfl⟩, rfl⟩ .nil, rfl⟩
  · intro e he
    rw [List.mem_singleton.1 he]
    exact ⟨by decide +kernel, by decide +kernel, by decide +kernel⟩

end Polog
