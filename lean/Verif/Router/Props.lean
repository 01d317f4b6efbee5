import Verif.Router.Lemmas2
import Verif.Levels.Props
import Mathlib.Tactic.ByContra

/-!
C31: `with log(...)` blocks. C53: what becomes of `log(x)`. C33: `log.<level>`.
-/

namespace Polog
open HandleSpec RouterSpec

/-! ### C31 -/

/-- **C31.** A block `with log(*args, **kwargs).suppress(...)… as ctx: ctx(...); …` whose arguments are correct and
whose exception (if any) can be printed makes exactly one record at its end, when its level passes, and swallows
exactly what it was asked to swallow. Dropping the object afterwards records nothing more.

Partial: the levels must be known, and the exception printable (see the theorem `…_fails` below). -/
theorem C31_block_records_once_partial (env : CEnv) (args : List HVal) (kwargs : Dict Str HVal)
    (sups : List (List SuppressArg)) (edits : List (List HVal × Dict Str HVal)) (f : Fin)
    (h : openBlock env.h args kwargs sups edits = .ok f) (out : Outcome) (hp : CallSpec.Printable out)
    (hv : ValidCall simpleLogger env.h [] (asked env.h args kwargs edits)) (s : CallState) :
    RecordsOnce env (asked env.h args kwargs edits) sups out s (f.exit env out s) ∧ f.drop = none := by
  obtain ⟨a, b, c⟩ := openBlock_has h
  refine ⟨exit_recordsOnce a b hp hv s, ?_⟩
  unfold Fin.drop; rw [c]; rfl

/-- **C31**: the fields that tell how the block went, spelled out: `success` is true exactly if it ended normally; an
exception is described by its class, text and traceback. (Provided the arguments of the block contained no
`exception`, and the names are not ones the user has put an extractor on.) -/
theorem C31_record_tells_how_it_went (env : CEnv) (args : List HVal) (kwargs : Dict Str HVal)
    (sups : List (List SuppressArg)) (edits : List (List HVal × Dict Str HVal)) (f : Fin)
    (h : openBlock env.h args kwargs sups edits = .ok f) (out : Outcome) (hp : CallSpec.Printable out)
    (hv : ValidCall simpleLogger env.h [] (asked env.h args kwargs edits))
    (hex : ∀ x ∈ asked env.h args kwargs edits, x.1 ≠ "exception".toList ∧ x.1 ≠ "e".toList)
    (hin : ∀ name ∈ ["success", "exception_type", "exception_message", "traceback", "time_of_work"].map String.toList,
      name ∉ Dict.keys env.h.inPlace)
    (s : CallState) (r : Rec) (hr : (f.exit env out s).2.records = s.records ++ [r]) :
    Dict.get? "success".toList r.data = some (.bool (wentWell out)) ∧
    (env.elapsed ≠ .none → Dict.get? "time_of_work".toList r.data = some env.elapsed) ∧
    ∀ e, out = .raised e →
      Dict.get? "exception_type".toList r.data = some (.str e.name) ∧
      e.text.map (fun t => HVal.str t) = Dict.get? "exception_message".toList r.data ∧
      Dict.get? "traceback".toList r.data = some (.str env.h.traceback) := by
  obtain ⟨⟨_, n, new, _, hst, _, hfields⟩, _⟩ :=
    C31_block_records_once_partial env args kwargs sups edits f h out hp hv s
  rw [hst] at hr
  have hnew : new = [r] := List.append_cancel_left hr
  have hf := (hfields r (by rw [hnew]; exact List.mem_singleton.2 rfl)).2
  have hg : given env.h.levels [] (asked env.h args kwargs edits) "exception".toList = none := by
    unfold given
    rw [List.find?_eq_none.2]
    · rfl
    · intro x hx
      have := hex x hx
      have hne : fullName x.1 ≠ "exception".toList := by
        unfold fullName
        split
        · decide
        · rw [if_neg this.2]
          split
          · decide
          · exact this.1
      intro hh
      rw [Bool.and_eq_true, decide_eq_true_eq] at hh
      exact hne hh.1
  have hge : atEnd env out (given env.h.levels [] (asked env.h args kwargs edits)) "exception".toList = none := by
    unfold atEnd
    rw [if_neg (by decide), if_neg (by decide)]
    cases out with
    | ret v => exact hg
    | raised e => dsimp only; rw [if_neg (by decide), if_neg (by decide), if_neg (by decide)]; exact hg
  refine ⟨?_, ?_, ?_⟩
  · rw [hf _ (hin _ (by decide))]
    unfold field
    repeat rw [if_neg (show ¬ ("success".toList = _) by decide)]
    rw [if_pos rfl, hge]
    rfl
  · intro hel
    rw [hf _ (hin _ (by decide))]
    unfold field
    repeat rw [if_neg (show ¬ ("time_of_work".toList = _) by decide)]
    unfold atEnd
    rw [if_neg (by decide), if_pos rfl, if_neg hel]
  · intro e he
    subst he
    have htext : ∃ t, e.text = some t := Option.isSome_iff_exists.1 hp
    obtain ⟨t, ht⟩ := htext
    refine ⟨?_, ?_, ?_⟩
    · rw [hf _ (hin _ (by decide))]
      unfold field
      rw [if_neg (by decide), if_neg (by decide), if_neg (by decide), if_pos rfl, hge]
      rfl
    · rw [hf _ (hin _ (by decide))]
      unfold field
      rw [if_neg (by decide), if_neg (by decide), if_neg (by decide), if_neg (by decide), if_pos rfl, hge, ht]
      change some (HVal.str t) = some (HVal.str (e.text.getD []))
      rw [ht]
      rfl
    · rw [hf _ (hin _ (by decide))]
      unfold field
      rw [if_neg (by decide), if_neg (by decide), if_neg (by decide), if_neg (by decide), if_neg (by decide),
        if_pos rfl, hge]
      rfl

/-- Blocks that are written correctly do begin: the hypothesis of the theorems above. -/
theorem C31_correct_blocks_begin (env : HEnv) (args : List HVal) (kwargs : Dict Str HVal)
    (sups : List (List SuppressArg)) (edits : List (List HVal × Dict Str HVal))
    (ha : (editOf env args kwargs).isSome = true)
    (hs : ∀ l ∈ sups, env.silent = true ∨ SuppressArg.wrong ∉ l)
    (he : ∀ e ∈ edits, (editOf env e.1 e.2).isSome = true) :
    ∃ f, openBlock env args kwargs sups edits = .ok f := openBlock_ok ha hs he

-- `with log('hi', level='high').suppress(KeyError) as ctx: ctx(extra=5); raise KeyError('x')`
example : openBlock cEnv.h [.str "hi".toList] [("level".toList, .str "high".toList)] [[.exc 3]]
    [([], [("extra".toList, .int 5)])] =
      .ok ⟨true, true, false, [("level".toList, .str "high".toList), ("message".toList, .str "hi".toList),
        ("time".toList, .other 0), ("extra".toList, .int 5)], [.str "hi".toList],
        [("level".toList, .str "high".toList)], false, [3]⟩ := rfl

example : ValidCall simpleLogger cEnv.h [] (asked cEnv.h [.str "hi".toList] [("level".toList, .str "high".toList)]
    [([], [("extra".toList, .int 5)])]) where
  positional := by decide
  aliases := by unfold NoAliases; decide
  right := by
    intro k v h
    have h' : (k, v) ∈ [("level".toList, HVal.str "high".toList), ("message".toList, .str "hi".toList),
        ("time".toList, .other 0), ("extra".toList, .int 5)] := h
    simp only [List.mem_cons, List.not_mem_nil, or_false, Prod.mk.injEq] at h'
    rcases h' with ⟨rfl, rfl⟩ | ⟨rfl, rfl⟩ | ⟨rfl, rfl⟩ | ⟨rfl, rfl⟩
    · exact ⟨by decide, .inl (.levelName _)⟩
    · exact ⟨by decide, .inl (.message _)⟩
    · exact ⟨by decide, .inr ⟨by decide, .inr (.inr (.inl rfl))⟩⟩
    · exact ⟨by decide, .inr ⟨by decide, .inr (.inr (.inl rfl))⟩⟩
  level := by
    intro v h _
    have h' : ("level".toList, v) ∈ [("level".toList, HVal.str "high".toList), ("message".toList, .str "hi".toList),
        ("time".toList, .other 0), ("extra".toList, .int 5)] := h
    simp only [List.mem_cons, List.not_mem_nil, or_false, Prod.mk.injEq] at h'
    rcases h' with ⟨_, rfl⟩ | ⟨h, _⟩ | ⟨h, _⟩ | ⟨h, _⟩
    · exact ⟨7, .name _ _ rfl⟩
    · exact absurd h (by decide)
    · exact absurd h (by decide)
    · exact absurd h (by decide)
  message := by simp

/-- **C31** fails for levels that are not known: `with log(level='unknown'): …` begins, and its end raises another
exception without any record. -/
theorem C31_unknown_level_fails :
    ¬ ∀ (env : CEnv) (args : List HVal) (kwargs : Dict Str HVal) (f : Fin) (v : Val) (s : CallState),
      openBlock env.h args kwargs [] [] = .ok f → Ends env [] (.ret v) (f.exit env (.ret v) s).1 := by
  intro h
  have this : Ends cEnv [] (.ret cVal) (Fin.exit cEnv ⟨true, true, false, [("level".toList, .str "unknown".toList),
      ("time".toList, .other 0)], [], [("level".toList, .str "unknown".toList)], false, []⟩ (.ret cVal) .init).1 :=
    h cEnv [] [("level".toList, .str "unknown".toList)] _ cVal .init rfl
  rw [show ((Fin.exit cEnv ⟨true, true, false, [("level".toList, .str "unknown".toList), ("time".toList, .other 0)], [],
      [("level".toList, .str "unknown".toList)], false, []⟩ (.ret cVal) .init).1 = .raised (internalExc 0)) by
    decide +kernel] at this
  cases this

/-- **C31** fails for exceptions whose text cannot be made: another exception leaves the block, although everything
should be swallowed. -/
theorem C31_unprintable_exception_fails :
    ¬ ∀ (env : CEnv) (f : Fin) (out : Outcome) (s : CallState),
      openBlock env.h [] [] [[]] [] = .ok f → Ends env [[]] out (f.exit env out s).1 := by
  intro h
  have this : Ends cEnv [[]] (.raised ⟨.user 0, 0, [], none, true⟩) (Fin.exit cEnv ⟨true, true, false,
      [("time".toList, .other 0)], [], [], true, []⟩ (.raised ⟨.user 0, 0, [], none, true⟩) .init).1 :=
    h cEnv _ (.raised ⟨.user 0, 0, [], none, true⟩) .init rfl
  rw [show ((Fin.exit cEnv ⟨true, true, false, [("time".toList, .other 0)], [], [], true, []⟩
      (.raised ⟨.user 0, 0, [], none, true⟩) .init).1 = .raised (internalExc 0)) by decide +kernel] at this
  cases this

/-! ### C53 -/

/-- **C53.** Whatever is done with the object `log(...)` returned, for as long as it lives: at most one of the things
happens — a function or class is decorated, a block is entered, or a manual record is made when it is dropped. If no
operation raised, exactly one. -/
theorem C53_one_and_only_one_use (env : CEnv) (args : List HVal) (kwargs : Dict Str HVal) (f : Fin)
    (h : routerCall env.h args kwargs = .finalizer f) (ops : List FinOp) :
    (f.life env ops).1.length ≤ 1 ∧ ((f.life env ops).2 = [] → (f.life env ops).1.length = 1) := by
  obtain ⟨e, _, _⟩ := routerCall_finalizer h
  exact life_count ops f (by rw [e]; exact ⟨rfl, fun h => nomatch h⟩) (by rw [e])

theorem life_steps {env : CEnv} (out : Outcome) : ∀ (ops : List FinOp) (f : Fin), f.entered = true → f.armed = false →
    (∀ op ∈ ops, RightStep env op) → f.life env (ops ++ [.exit out]) = ([], [])
  | [], f, he, ha, _ => by
    simp [Fin.life, Fin.op, Fin.drop, he, ha]
  | op :: ops, f, he, ha, h => by
    have hop := h op (by simp)
    have hrest := fun o ho => h o (List.mem_cons_of_mem _ ho)
    rw [List.cons_append, Fin.life]
    cases op with
    | call args kwargs =>
      obtain ⟨d, hd⟩ := Option.isSome_iff_exists.1 hop
      simp only [Fin.op, call_entered he, hd]
      rw [life_steps out ops { f with data := Dict.update f.data d } he ha hrest]; rfl
    | suppress excs =>
      simp only [Fin.op, suppress_ok f (.inr hop)]
      rw [life_steps out ops { f with suppressAll := f.suppressAll || decide (excs = []),
                                      suppressed := f.suppressed ++ excClasses excs } he ha hrest]; rfl
    | enter => exact hop.elim
    | exit out => exact hop.elim

/-- **C53.** The right uses raise nothing and are the only use: a block, however it ends and whatever is asked for inside;
a decoration; and no use at all. -/
theorem C53_right_uses (env : CEnv) (args : List HVal) (kwargs : Dict Str HVal) (f : Fin)
    (h : routerCall env.h args kwargs = .finalizer f) :
    (∀ ops out, (∀ op ∈ ops, RightStep env op) → f.life env (.enter :: ops ++ [.exit out]) = ([.block], [])) ∧
    (∀ item, item.callable = true → ∃ use, routerCall env.h [item] (named args kwargs) = .used use ∧
      f.life env [.call [item] []] = ([use], [])) ∧
    f.life env [] = ([.manual args kwargs], []) := by
  obtain ⟨e, _, _⟩ := routerCall_finalizer h
  subst e
  refine ⟨fun ops out hops => ?_, fun item hi => ?_, rfl⟩
  · rw [List.cons_append, Fin.life]
    have : (Fin.op env ⟨false, false, true, named args kwargs, args, kwargs, false, []⟩ .enter) =
      (⟨true, true, false, Dict.set "time".toList env.h.now (named args kwargs), args, kwargs, false, []⟩, none,
        some .block) := rfl
    rw [this, life_steps out ops _ rfl rfl hops]; rfl
  · cases item with
    | cls i n m => exact ⟨_, rfl, rfl⟩
    | fn i n m t => exact ⟨_, rfl, rfl⟩
    | none => cases hi
    | bool b => cases hi
    | int n => cases hi
    | str s => cases hi
    | exc i n m => cases hi
    | other i => cases hi

-- hypotheses: `with log('x').suppress(ValueError) as l: l('y', level=3)`
example : ∃ f, routerCall cEnv.h [.str "x".toList] [] = .finalizer f ∧
    ∀ op ∈ [FinOp.suppress [.exc 1], .call [.str "y".toList] [("level".toList, .int 3)]], RightStep cEnv op := by
  refine ⟨_, rfl, ?_⟩
  intro op hop
  rcases List.mem_cons.1 hop with rfl | hop
  · intro h; simp at h
  · rcases List.mem_cons.1 hop with rfl | hop
    · show Option.isSome _ = true
      decide +kernel
    · cases hop

/-- **C53.** What `log(x, **kwargs)` does is decided by `x` alone: a class is decorated as a class, another callable
as a function, both at once and with the given arguments; a text (or nothing) gives an object that, when it is not
used otherwise, makes the manual record `log(...)` stands for; everything else is an error. -/
theorem C53_dispatch (env : HEnv) (x : HVal) (kwargs : Dict Str HVal) :
    (∀ i n m, x = .cls i n m → routerCall env [x] kwargs = .used (.decorateCls x false [] kwargs)) ∧
    (∀ i n m t, x = .fn i n m t → routerCall env [x] kwargs = .used (.decorateFn x false [] kwargs)) ∧
    (∀ s, x = .str s → (editOf env [x] kwargs).isSome = true →
      ∃ f, routerCall env [x] kwargs = .finalizer f ∧ f.drop = some (.manual [x] kwargs)) ∧
    (x.isCls = false → x.callable = false → x.isStr = false → routerCall env [x] kwargs = .raised .incorrectUse) := by
  refine ⟨?_, ?_, ?_, ?_⟩
  · rintro i n m rfl; rfl
  · rintro i n m t rfl; rfl
  · rintro s rfl h; exact ⟨_, routerCall_ok h, rfl⟩
  · intro h1 h2 h3
    cases x <;> first | rfl | (simp [HVal.isCls, HVal.callable, HVal.isStr] at h1 h2 h3)

/-- **C53.** Without positional arguments `log(**kwargs)` gives the object whose manual record it stands for; with two or more
it always raises and does nothing else. -/
theorem C53_number_of_arguments (env : HEnv) (kwargs : Dict Str HVal) :
    ((editOf env [] kwargs).isSome = true →
      ∃ f, routerCall env [] kwargs = .finalizer f ∧ f.drop = some (.manual [] kwargs)) ∧
    ∀ x y rest, routerCall env (x :: y :: rest) kwargs = .raised .incorrectUse :=
  ⟨fun h => ⟨_, routerCall_ok h, rfl⟩, fun _ _ _ => rfl⟩

/-- The manual record is that of the model of manual logging (theorems C22). -/
theorem C53_plain_call_is_a_manual_record (env : HEnv) (args : List HVal) (kwargs : Dict Str HVal) (f : Fin)
    (h : routerCall env args kwargs = .finalizer f) :
    f.drop = some (.manual args kwargs) ∧
    logStatement env args kwargs = ⟨(baseCall simpleLogger env args kwargs).records, none⟩ := by
  obtain ⟨e, hargs, hs⟩ := routerCall_finalizer h
  refine ⟨by rw [e]; rfl, ?_⟩
  have hc : ∃ d, convertArgs env args kwargs = .ok d := by
    obtain ⟨d, hd⟩ := Option.isSome_iff_exists.1 hs
    exact ⟨d, by rw [convertArgs_eq, hd]⟩
  obtain ⟨d, hd⟩ := hc
  rcases hargs with rfl | ⟨s, rfl⟩
  · rfl
  · unfold convertArgs at hd
    unfold logStatement
    dsimp only at hd ⊢
    rcases Option.eq_none_or_eq_some (Dict.get? "message".toList kwargs) with hg | ⟨v, hg⟩
    · rw [hg]
    · rw [hg] at hd ⊢
      dsimp only at hd ⊢
      cases hq : (HVal.str s).pyEq v with
      | true => rfl
      | false =>
        rw [hq] at hd
        unfold maybeRaise at hd ⊢
        cases hsil : env.silent with
        | true => rfl
        | false => rw [hsil] at hd; cases hd

/-- **C53.** Brackets without arguments decorate like no brackets; brackets with arguments decorate like giving the
same arguments together with the function or class, a text being its `message`. -/
theorem C53_brackets (env : HEnv) (args : List HVal) (kwargs : Dict Str HVal) (f : Fin)
    (h : routerCall env args kwargs = .finalizer f) (item : HVal) (hi : item.callable = true) :
    ∃ use, routerCall env [item] (named args kwargs) = .used use ∧
      (f.call env [item] []).2 = (none, some use) := by
  obtain ⟨e, _, _⟩ := routerCall_finalizer h
  subst e
  cases item with
  | cls i n m => exact ⟨_, rfl, rfl⟩
  | fn i n m t => exact ⟨_, rfl, rfl⟩
  | none => cases hi
  | bool b => cases hi
  | int n => cases hi
  | str s => cases hi
  | exc i n m => cases hi
  | other i => cases hi

theorem C53_empty_brackets (env : HEnv) (item : HVal) (hi : item.callable = true) :
    ∃ f use, routerCall env [] [] = .finalizer f ∧ routerCall env [item] [] = .used use ∧
      (f.call env [item] []).2 = (none, some use) := by
  obtain ⟨use, h1, h2⟩ := C53_brackets env [] [] _ (routerCall_ok (args := []) (kwargs := []) rfl) item hi
  exact ⟨_, use, routerCall_ok rfl, h1, h2⟩

-- `log('x')` used twice: the second use raises, and nothing happens at the end
example : (Fin.life cEnv ⟨false, false, true, [], [], [], false, []⟩
    [.call [.fn 1 none none []] [], .call [.fn 1 none none []] []]) =
      ([.decorateFn (.fn 1 none none []) false [] []], [.incorrectUse]) := by decide +kernel

/-- **C53**: `log('x')(a, b, name=…)` and `log('x')(name=…)` are refused with the error for wrong use of a decorator, `log('x')()` with an
`IndexError`; the object stays unused, so the record of a plain `log('x')` is written when it is dropped. -/
theorem C53_wrong_second_brackets (env : CEnv) (args : List HVal) (kwargs : Dict Str HVal) (f : Fin)
    (h : routerCall env.h args kwargs = .finalizer f) :
    (∀ args' kwargs', args'.length ≠ 1 → kwargs' ≠ [] →
      f.life env [.call args' kwargs'] = ([.manual args kwargs], [.incorrectUse])) ∧
    f.life env [.call [] []] = ([.manual args kwargs], [.indexError]) := by
  have hd := (C53_plain_call_is_a_manual_record env.h args kwargs f h).1
  have he : f.entered = false := by
    have h' := h
    unfold routerCall at h'
    split at h'
    · split at h'
      · rename_i hc; cases h'; unfold Fin.create at hc; split at hc <;> cases hc; rfl
      · cases h'
    · split at h'
      · split at h'
        · rename_i hc; cases h'; unfold Fin.create at hc; split at hc <;> cases hc; rfl
        · cases h'
      · split at h' <;> (try split at h') <;> cases h'
    · cases h'
  constructor
  · intro args' kwargs' ha hk
    have hk' : kwargs'.length > 0 := List.length_pos_iff.2 hk
    simp [Fin.life, Fin.op, Fin.call, he, ha, hk', hd]
  · simp [Fin.life, Fin.op, Fin.call, he, hd]

example : ∃ f, routerCall cEnv.h [.str "x".toList] [] = .finalizer f ∧ ([] : List HVal).length ≠ 1 ∧
    [("level".toList, HVal.int 3)] ≠ [] := ⟨_, rfl, by decide, by decide⟩

/-- **C53** fails for further arguments in the second brackets: `log('x')(f, g)` and `log('x')(f, level=3)` do the same as `log('x')(f)`;
`g` is not decorated, the level is not used, and there is no error. -/
theorem C53_further_arguments_are_ignored_fails (env : CEnv) (f : Fin) (item : HVal) (rest : List HVal) (kwargs : Dict Str HVal)
    (he : f.entered = false) (hr : rest = [] ∨ kwargs = []) :
    f.life env [.call (item :: rest) kwargs] = f.life env [.call [item] []] := by
  have hn : ¬ ((item :: rest).length ≠ 1 ∧ kwargs.length > 0) := by
    rcases hr with rfl | rfl <;> simp
  simp only [Fin.life, Fin.op, Fin.call, he, hn]
  simp

example : ∃ f, routerCall cEnv.h [.str "x".toList] [] = .finalizer f ∧ f.entered = false := ⟨_, rfl, rfl⟩

/-- **C53** fails for wrong arguments of `suppress`: `with log('x').suppress(5): …` raises `ValueError` before the block begins, and the
object, which is then dropped without use, still writes the manual record of a plain `log('x')`. -/
theorem C53_refused_block_is_recorded_fails (env : CEnv) (hs : env.h.silent = false) (args : List HVal) (kwargs : Dict Str HVal) (f : Fin)
    (h : routerCall env.h args kwargs = .finalizer f) (excs : List SuppressArg) (hw : SuppressArg.wrong ∈ excs) :
    f.life env [.suppress excs] = ([.manual args kwargs], [.valueError]) := by
  have hne : excs ≠ [] := by rintro rfl; cases hw
  have hd := (C53_plain_call_is_a_manual_record env.h args kwargs f h).1
  have he : f.suppress env.h excs = (f, some .valueError) := by
    simp only [Fin.suppress, hne, if_false, suppressLoop_error hs excs [] hw]
  simp only [Fin.life, Fin.op, he]
  simp [hd]

example : ∃ f, cEnv.h.silent = false ∧ routerCall cEnv.h [.str "x".toList] [] = .finalizer f ∧
    SuppressArg.wrong ∈ [SuppressArg.exc 1, .wrong] := ⟨_, rfl, rfl, by decide⟩

/-- **C53**: a wrong use, `log('text')(5)`, raises — and also loses the record of the text. (The English property
allows for errors; this shows that "exactly one if nothing raised" cannot be strengthened to "exactly one".) -/
theorem C53_wrong_use_loses_the_record :
    ¬ ∀ (env : CEnv) (args : List HVal) (kwargs : Dict Str HVal) (f : Fin) (ops : List FinOp),
      routerCall env.h args kwargs = .finalizer f → (f.life env ops).1.length = 1 := by
  intro h
  have := h cEnv [.str "text".toList] [] _ [.call [.int 5] []] rfl
  revert this
  decide +kernel

/-! ### C33 -/

/-- The attributes `log` has itself are those Python gives to every object, `message`, `suppress` and the internal `_wrap`;
every other name is taken for the name of a level. -/
theorem C33_ordinary_attributes (name : Str) :
    routerGetattr name = none ↔
      (∃ rest, name = '_' :: '_' :: rest) ∨ name ∈ ["message".toList, "suppress".toList, "_wrap".toList] := by
  have h2 : "__".toList.isPrefixOf name = true ↔ ∃ rest, name = '_' :: '_' :: rest := by
    show List.isPrefixOf ['_', '_'] name = true ↔ _
    rw [List.isPrefixOf_iff_prefix]
    exact ⟨fun ⟨t, ht⟩ => ⟨t, ht.symm⟩, fun ⟨t, ht⟩ => ⟨t, ht.symm⟩⟩
  unfold routerGetattr isRouterAttr
  generalize "message".toList = a at *
  generalize "suppress".toList = b at *
  generalize "_wrap".toList = c at *
  generalize hp : "__".toList.isPrefixOf name = p at *
  rw [← h2]
  simp only [Bool.or_eq_true, beq_iff_eq, List.mem_cons, List.not_mem_nil, or_false, ite_eq_left_iff, reduceCtorEq, imp_false,
    Classical.not_not]
  grind

/-- **C33.** For every name that is not an attribute of the logger itself, `log.name(*args, **kwargs)` is
`log(*args, level='name', **kwargs)`: the same decoration, the same object, or the same error. -/
theorem C33_attribute_is_the_level_partial (env : HEnv) (name : Str) (hn : isRouterAttr name = false) (args : List HVal)
    (kwargs : Dict Str HVal) :
    ∃ p, routerGetattr name = some p ∧
      p.call env args kwargs = routerCall env args (Dict.set "level".toList (.str name) kwargs) := by
  unfold routerGetattr
  rw [hn]
  exact ⟨_, rfl, rfl⟩

/-- **C33**: so the record of `log.name('text', **kwargs)` has the number registered for the name as its level, and it
is made exactly if that number passes. -/
theorem C33_level_of_the_record (env : HEnv) (name : Str) (n : Int)
    (hl : Dict.get? name env.levels.byName = some n) (args : List HVal)
    (kwargs : Dict Str HVal) (hk : ∀ x ∈ kwargs, x.1 ≠ "level".toList)
    (hs : (editOf env args kwargs).isSome = true)
    (h : ValidCall simpleLogger env args kwargs) :
    let out := logStatement env args (Dict.set "level".toList (.str name) kwargs)
    out.records.length = (if env.threshold ≤ n ∧ env.unlogged = false then 1 else 0) ∧
    ("level".toList ∉ Dict.keys env.inPlace →
      ∀ r ∈ out.records, Dict.get? "level".toList r = some (.int n)) := by
  have hargs : args = [] ∨ ∃ s, args = [.str s] := by
    unfold editOf at hs
    split at hs
    · exact Or.inl rfl
    · exact Or.inr ⟨_, rfl⟩
    · cases hs
  have honly : ∀ x, fullName x = "level".toList → x = "level".toList := fun x => fullName_level
  have hv : ValidCall simpleLogger env args (Dict.set "level".toList (.str name) kwargs) := by
    refine ⟨h.positional, noAliases_set honly rfl h.aliases, ?_, ?_, ?_⟩
    · intro k v hm
      rcases mem_set hm with ⟨rfl, rfl⟩ | hm
      · exact ⟨by simp [simpleLogger], .inl (.levelName _)⟩
      · exact h.right _ _ hm
    · intro v hm hv
      rcases mem_set hm with ⟨_, rfl⟩ | hm
      · exact ⟨n, .name _ _ hl⟩
      · exact h.level _ hm hv
    · intro m v ha hm
      rcases mem_set hm with ⟨e, _⟩ | hm
      · exact absurd e (by decide)
      · exact h.message _ _ ha hm
  obtain ⟨m, h1, h2, h3, h4⟩ := C22_log_statement_records_exactly_when_level_passes env args _ hargs hv
  have hset : Dict.set "level".toList (HVal.str name) kwargs = kwargs ++ [("level".toList, .str name)] := by
    clear h1 h2 h3 h4 hv h hs
    induction kwargs with
    | nil => rfl
    | cons x d ih =>
      rw [Dict.set, if_neg (hk x List.mem_cons_self), ih fun y hy => hk y (List.mem_cons_of_mem _ hy)]
      rfl
  have hgl : given env.levels args (Dict.set "level".toList (.str name) kwargs) "level".toList = some (.int n) := by
    unfold given
    rw [hset, List.find?_append, List.find?_eq_none.2]
    · simp only [Option.none_or]
      rw [List.find?_cons]
      rw [show (decide (fullName ("level".toList, HVal.str name).1 = "level".toList) &&
        decide (("level".toList, HVal.str name).2 ≠ HVal.none)) = true by simp [fullName]]
      dsimp only
      unfold stored
      rw [if_pos rfl]
      dsimp only
      rw [hl]
    · intro x hx
      have : fullName x.1 ≠ "level".toList := fun e => hk x hx (fullName_level e)
      intro hh
      rw [Bool.and_eq_true, decide_eq_true_eq] at hh
      exact this hh.1
  have hlev : levelOf env (given env.levels args (Dict.set "level".toList (.str name) kwargs)) = .int n := by
    unfold levelOf; rw [hgl]
  rw [hlev] at h1
  cases h1
  refine ⟨h3, fun hin r hr => ?_⟩
  rw [h4 r hr _ hin]
  unfold field
  repeat rw [if_neg (show ¬ ("level".toList = _) by decide)]
  rw [if_pos rfl, hlev]

/-- `log.name.suppress(...)` is `log(level='name').suppress(...)`. -/
theorem C33_attribute_suppress (env : HEnv) (name : Str) (hn : isRouterAttr name = false) (excs : List SuppressArg) :
    ∃ p f, routerGetattr name = some p ∧ routerCall env [] [("level".toList, .str name)] = .finalizer f ∧
      p.suppress env excs = f.suppresses env [excs] := by
  unfold routerGetattr
  rw [hn]
  refine ⟨_, _, rfl, routerCall_ok rfl, ?_⟩
  unfold Partial.suppress Fin.create
  rw [convertArgs_eq]
  have h1 : editOf env [] [("level".toList, HVal.str name)] = some [("level".toList, .str name)] := rfl
  rw [h1]
  dsimp only
  simp only [Fin.suppresses]
  by_cases h : env.silent = true ∨ SuppressArg.wrong ∉ excs
  · rw [suppress_ok _ h, suppress_ok _ h]; rfl
  · rw [suppress_error _ h, suppress_error _ h]

/-- Blocks without brackets: `with log:`, `with log.suppress(...):` and `with log.name:`. -/
theorem C31_block_without_brackets_partial (env : CEnv) (p : Partial) (hp : Begins env.h p) :
    ∃ f, p.enter env.h = .ok f ∧ f.drop = none ∧
      ∀ (out : Outcome) (s : CallState), CallSpec.Printable out →
        ValidCall simpleLogger env.h [] (firstFields env.h p) →
        RecordsOnce env (firstFields env.h p) p.before.toList out s (f.exit env out s) :=
  ⟨_, partialEnter_eq hp, rfl, fun _ s hpr hv => exit_recordsOnce prepared_has rfl hpr hv s⟩

/-- `with log.suppress(...):` is `with log().suppress(...):`, for every list of exceptions, good or bad. -/
theorem C31_suppress_without_brackets (env : HEnv) (excs : List SuppressArg) :
    (routerSuppress excs).enter env = openBlock env [] [] [excs] [] := by
  by_cases h : env.silent = true ∨ SuppressArg.wrong ∉ excs
  · have hp : Begins env (routerSuppress excs) := by
      rcases h with h | h
      · exact Or.inl h
      · exact Or.inr fun l hl => by cases hl; exact h
    rw [partialEnter_eq hp]
    unfold openBlock
    rw [routerCall_ok rfl]
    simp only [Fin.suppresses, suppress_ok _ h, Bool.false_or]
    have hd : decide ((routerSuppress excs).before = some []) = decide (excs = []) := by
      simp [routerSuppress]
    rw [hd]
    rfl
  · unfold openBlock
    rw [routerCall_ok rfl]
    simp only [Fin.suppresses, suppress_error _ h]
    have h2 : (routerSuppress excs).enter env = match (routerSuppress excs).prepare env (freshFin env) with
      | (_, some e) => .error e
      | (f, none) => .ok f := rfl
    rw [h2]
    have h3 : (routerSuppress excs).prepare env (freshFin env) =
      ((freshFin env).call env [] []).1.suppress env excs := rfl
    rw [h3, suppress_error _ h]

/-- `.suppress(...)` right after `log` counts only for a block: `log.suppress(ValueError)('text')` and
`@log.suppress(ValueError)` are `log('text')` and `@log`, the classes are forgotten. -/
theorem C31_suppress_then_call_fails (env : HEnv) (excs : List SuppressArg) :
    (∀ args kwargs, (routerSuppress excs).call env args kwargs = routerCall env args kwargs) ∧
    (∀ text, ∃ f, (routerSuppress excs).call env [.str text] [] = .finalizer f ∧ f.suppressAll = false ∧ f.suppressed = []) ∧
    ∀ id name module text, (routerSuppress excs).call env [.fn id name module text] [] =
      .used (.decorateFn (.fn id name module text) false [] []) :=
  ⟨fun _ _ => rfl, fun _ => ⟨_, rfl, rfl, rfl⟩, fun _ _ _ _ => rfl⟩

/-- The blocks inside the code of C24–C29 end as the objects of C31 do. -/
theorem C31_blocks_inside_calls (env : CEnv) (o : BlockOpts) (out : Outcome) (s : CallState) (args kwargs)
    (armed used : Bool) :
    blockEnd env o out s =
      Fin.exit env ⟨used, true, armed, Dict.set "time".toList env.h.now o.data, args, kwargs, o.suppressAll,
        o.suppressed⟩ out s :=
  blockEnd_eq env o out s args kwargs armed used

/-- **C33**: a block `with log.name:` ends as `with log(level='name'):` does, for every known level. -/
theorem C33_attribute_block (env : CEnv) (name : Str) (hn : isRouterAttr name = false) (n : Int)
    (hl : Dict.get? name env.h.levels.byName = some n) :
    ∃ p f, routerGetattr name = some p ∧ p.enter env.h = .ok f ∧
      ∀ (out : Outcome) (s : CallState), CallSpec.Printable out →
        RecordsOnce env (asked env.h [] [("level".toList, .str name)] []) [] out s (f.exit env out s) ∧
        ∃ g, openBlock env.h [] [("level".toList, .str name)] [] [] = .ok g ∧
          RecordsOnce env (asked env.h [] [("level".toList, .str name)] []) [] out s (g.exit env out s) := by
  unfold routerGetattr
  rw [hn]
  have hp : Begins env.h ⟨[("level".toList, .str name)], none⟩ := Or.inr fun _ h => nomatch h
  obtain ⟨f, h1, _, h3⟩ := C31_block_without_brackets_partial env _ hp
  refine ⟨_, f, rfl, h1, fun out s hpr => ?_⟩
  have hright : ∀ k v, (k = "time".toList ∧ v = env.h.now) ∨ (k = "level".toList ∧ v = .str name) →
      RightArg simpleLogger env.h k v := by
    rintro k v (⟨rfl, rfl⟩ | ⟨rfl, rfl⟩)
    · exact ⟨by simp [simpleLogger], .inr ⟨by decide, .inr (.inr (.inl rfl))⟩⟩
    · exact ⟨by simp [simpleLogger], .inl (.levelName _)⟩
  have hlev : ∀ v, ("level".toList = "time".toList ∧ v = env.h.now) ∨ (True ∧ v = .str name) →
      ∃ n, LevelIs env.h.levels v n := by
    rintro v (⟨h, _⟩ | ⟨_, rfl⟩)
    · exact absurd h (by decide)
    · exact ⟨n, .name _ _ hl⟩
  have v1 : ValidCall simpleLogger env.h [] [("time".toList, env.h.now), ("level".toList, .str name)] := by
    refine ⟨by decide, ?_, ?_, ?_, by simp⟩
    · show (["time".toList, "level".toList]).Nodup; decide
    · intro k v h
      simp only [List.mem_cons, List.not_mem_nil, or_false, Prod.mk.injEq] at h
      exact hright k v h
    · intro v h _
      simp only [List.mem_cons, List.not_mem_nil, or_false, Prod.mk.injEq] at h
      exact hlev v h
  have v2 : ValidCall simpleLogger env.h [] [("level".toList, .str name), ("time".toList, env.h.now)] := by
    refine ⟨by decide, ?_, ?_, ?_, by simp⟩
    · show (["level".toList, "time".toList]).Nodup; decide
    · intro k v h
      simp only [List.mem_cons, List.not_mem_nil, or_false, Prod.mk.injEq] at h
      exact hright k v h.symm
    · intro v h _
      simp only [List.mem_cons, List.not_mem_nil, or_false, Prod.mk.injEq] at h
      exact hlev v h.symm
  have hgiv : given env.h.levels [] [("time".toList, env.h.now), ("level".toList, .str name)] =
      given env.h.levels [] [("level".toList, .str name), ("time".toList, env.h.now)] := by
    funext nm
    have e1 : given env.h.levels [] (Dict.set "time".toList env.h.now [("level".toList, HVal.str name)]) nm = _ :=
      given_set sTime (by decide) env.h.levels env.h.now (by show (["level".toList]).Nodup; decide) nm
    have e2 : Dict.set "time".toList env.h.now [("level".toList, HVal.str name)] =
      [("level".toList, .str name), ("time".toList, env.h.now)] := rfl
    rw [← e2, e1]
    by_cases h : nm = "time".toList
    · subst h
      rw [if_pos rfl]
      unfold given
      rw [List.find?_cons]
      by_cases hnow : env.h.now = .none
      · rw [hnow]; rfl
      · rw [if_neg hnow]
        rw [show (decide (fullName ("time".toList, env.h.now).1 = "time".toList) &&
          decide (("time".toList, env.h.now).2 ≠ HVal.none)) = true by
            rw [Bool.and_eq_true]; exact ⟨rfl, by simpa using hnow⟩]
        rfl
    · rw [if_neg h]
      unfold given
      rw [List.find?_cons]
      rw [show (decide (fullName ("time".toList, env.h.now).1 = nm) &&
          decide (("time".toList, env.h.now).2 ≠ HVal.none)) = false by
            rw [Bool.and_eq_false_iff]
            exact Or.inl (decide_eq_false fun e => h (e.symm.trans rfl))]
  have hr := h3 out s hpr v1
  have hr' : RecordsOnce env [("level".toList, .str name), ("time".toList, env.h.now)] [] out s (f.exit env out s) := by
    have : RecordsOnce env [("time".toList, env.h.now), ("level".toList, .str name)] [] out s (f.exit env out s) := hr
    unfold RecordsOnce at this ⊢
    rw [hgiv] at this
    exact this
  refine ⟨hr', ?_⟩
  obtain ⟨g, hg⟩ := openBlock_ok (env := env.h) (args := []) (kwargs := [("level".toList, .str name)]) (sups := [])
    (edits := []) rfl (by simp) (by simp)
  obtain ⟨a, b, _⟩ := openBlock_has hg
  exact ⟨g, hg, exit_recordsOnce a b hpr v2 s⟩

/-- **C33** fails for a level that is given explicitly as well: the documentation promises priority to the explicit
one, `log.low(level=9)` has the level `low`. -/
theorem C33_explicit_level_has_priority_fails :
    ¬ ∀ (env : HEnv) (name : Str) (p : Partial) (args : List HVal) (kwargs : Dict Str HVal),
      routerGetattr name = some p → Dict.has "level".toList kwargs = true →
      p.call env args kwargs = routerCall env args kwargs := by
  intro h
  have := h (exEnv false) "high".toList _ [.fn 1 none none []] [("level".toList, .int 9)] rfl rfl
  have h1 : routerCall (exEnv false) [.fn 1 none none []] [("level".toList, .int 9)] =
    .used (.decorateFn (.fn 1 none none []) false [] [("level".toList, .int 9)]) := rfl
  have h2 : Partial.call (exEnv false) ⟨[("level".toList, .str "high".toList)], none⟩ [.fn 1 none none []]
      [("level".toList, .int 9)] =
    .used (.decorateFn (.fn 1 none none []) false [] [("level".toList, .str "high".toList)]) := rfl
  rw [h1] at this
  have := h2.symm.trans this
  simp at this

/-- **C33**: every level that was registered can be used as `log.<name>`, whatever was passed to `config.levels`
before: no registered name is an attribute of the logger. (`isId` accepts the twelve standard names.) -/
theorem C33_registered_levels_can_be_used (isId : Str → Bool) (hstd : ∀ a ∈ LevelsSpec.standardAssignments, isId a.1 = true)
    (history : List LevelsCall) (name : Str) (n : Int)
    (h : (Levels.empty.calls isId history).get (.str name) = .ok n) :
    routerGetattr name = some ⟨[("level".toList, .str name)], none⟩ := by
  obtain ⟨_, h1, h2⟩ := C50_level_names_never_shadow isId hstd history name n h
  have h3 : isRouterAttr name = false := by
    unfold isRouterAttr
    simp only [Bool.or_eq_false_iff, beq_eq_false_iff_ne, ne_eq]
    refine ⟨⟨⟨?_, ?_⟩, ?_⟩, ?_⟩
    · by_contra hc
      simp only [Bool.not_eq_false, List.isPrefixOf_iff_prefix] at hc
      obtain ⟨r, rfl⟩ := hc
      exact h1 rfl
    · rintro rfl; exact h1 rfl
    · rintro rfl; exact h2 (by decide)
    · rintro rfl; exact h2 (by decide)
  unfold routerGetattr
  rw [h3]
  rfl

example : ((Levels.empty.calls (fun _ => true) [.levels [("high".toList, .int 7), ("message".toList, .int 1)],
    .levels [("suppress".toList, .int 1)]]).get (.str "high".toList)) = .ok 7 := by decide +kernel

-- the hypotheses of the C33 theorems
example : isRouterAttr "high".toList = false ∧ Dict.get? "high".toList cEnv.h.levels.byName = some 7 := by decide

end Polog
