import Verif.Decorate.Lemmas
import Verif.Router.Props

/-!
# C103: the arguments of `@log(...)` are checked when the function is decorated
-/

namespace Polog
open DecorateSpec RouterSpec

/-! ### Functions -/

/-- **C103.** `@log(...)` takes exactly the documented arguments: with these the function is decorated, with any
others an exception is raised. -/
theorem C103_function_arguments (env : DEnv) (r : FRegistry) (sa : Bool) (sup : List Nat) (kwargs : Dict Str HVal)
    (f : FObj) :
    (Accepts env kwargs → ∃ g r', decorateFunction env r sa sup kwargs f = .ok (g, r')) ∧
    (¬ Accepts env kwargs → ∃ e, decorateFunction env r sa sup kwargs f = .error e) := by
  rcases decorateFunction_cases env r sa sup kwargs f with ⟨ha, s, _, h⟩ | ⟨ha, h⟩
  · exact ⟨fun _ => ⟨_, _, h⟩, fun hn => absurd ha hn⟩
  · exact ⟨fun hn => absurd hn ha, fun _ => h⟩

theorem levelArg_eq (kwargs : Dict Str HVal) (name : String) :
    (∀ n, Dict.get? name.toList kwargs = some (.int n) → levelArg (argOr name .none kwargs) = some (.int n)) ∧
    (∀ s, Dict.get? name.toList kwargs = some (.str s) → levelArg (argOr name .none kwargs) = some (.str s)) ∧
    (∀ b, Dict.get? name.toList kwargs = some (.bool b) → levelArg (argOr name .none kwargs) = some (.bool b)) ∧
    (Dict.get? name.toList kwargs = none ∨ Dict.get? name.toList kwargs = some .none →
      levelArg (argOr name .none kwargs) = none) := by
  unfold argOr levelArg
  refine ⟨?_, ?_, ?_, ?_⟩
  · intro n h; simp [h, HVal.toPyObj]
  · intro n h; simp [h, HVal.toPyObj]
  · intro n h; simp [h, HVal.toPyObj]
  · rintro (h | h) <;> simp [h]

/-- **C103, what is accepted takes effect**: the decorated function is the wrapper of the registry with the given
level, message, classes to suppress and fields; what is not given is the default. -/
theorem C103_accepted_arguments_take_effect (env : DEnv) (r : FRegistry) (sa : Bool) (sup : List Nat)
    (kwargs : Dict Str HVal) (f : FObj) (res : FObj × FRegistry)
    (h : decorateFunction env r sa sup kwargs f = .ok res) :
    ∃ (d : Deco) (m : Bool), res = r.logFn d m f ∧ d.suppressAll = sa ∧ d.suppressed = sup ∧
      (∀ s, d.message = some s ↔ Dict.get? "message".toList kwargs = some (.str s)) ∧
      (m = true ↔ Dict.get? "is_method".toList kwargs = some (.bool true)) ∧
      (∀ n, Dict.get? "level".toList kwargs = some (.int n) → d.level = some (.int n)) ∧
      (∀ s, Dict.get? "level".toList kwargs = some (.str s) → d.level = some (.str s)) ∧
      (Dict.get? "level".toList kwargs = none → d.level = none) ∧
      (∀ n, Dict.get? "errors_level".toList kwargs = some (.int n) → d.errLevel = some (.int n)) ∧
      (∀ s, Dict.get? "errors_level".toList kwargs = some (.str s) → d.errLevel = some (.str s)) ∧
      (Dict.get? "errors_level".toList kwargs = none → d.errLevel = none) ∧
      (Dict.get? "extra_fields".toList kwargs = none → d.inPlace = env.inPlace) ∧
      (∀ v fields, Dict.get? "extra_fields".toList kwargs = some v → FieldDict env v fields →
        d.inPlace = fields) := by
  rcases decorateFunction_cases env r sa sup kwargs f with ⟨ha, s, hs, h'⟩ | ⟨ha, e, h'⟩
  · rw [h'] at h
    cases h
    refine ⟨_, _, rfl, rfl, rfl, ?_, ?_, (levelArg_eq kwargs "level").1, (levelArg_eq kwargs "level").2.1,
      fun h => (levelArg_eq kwargs "level").2.2.2 (.inl h), (levelArg_eq kwargs "errors_level").1,
      (levelArg_eq kwargs "errors_level").2.1, fun h => (levelArg_eq kwargs "errors_level").2.2.2 (.inl h), ?_, ?_⟩
    · intro t
      unfold decoOf argOr
      cases hm : Dict.get? "message".toList kwargs with
      | none => simp [messageArg]
      | some v => cases v <;> simp [messageArg]
    · unfold argOr
      cases hm : Dict.get? "is_method".toList kwargs with
      | none => simp
      | some v => simp
    · intro hn
      have : s = .defaults := by
        rw [argOr, hn] at hs
        simp only [Option.getD_none, fieldsOf_none] at hs
        cases hs
        rfl
      subst this
      rfl
    · intro v fields hv hd
      rw [argOr, hv, Option.getD_some] at hs
      have hF := ha.fields v hv
      have hnd : (fields.map Prod.fst).Nodup := by
        obtain ⟨i, rfl, hi⟩ := hd
        rcases hF with h | ⟨ds, hds, hn⟩
        · cases h
        · cases hds with
          | one hd' =>
            obtain ⟨j, hj, hjd⟩ := hd'
            cases hj
            rw [hi] at hjd
            rename_i d0
            have : fields = d0 := by
              have := DObj.dict.inj hjd
              exact List.map_injective_iff.2 (fun a b hab => by
                have := Prod.mk.inj hab
                exact Prod.ext (Option.some.inj this.1) (Option.some.inj this.2)) this
            subst this
            simpa using hn
          | list hj _ => rw [hi] at hj; cases hj
          | tuple hj _ => rw [hi] at hj; cases hj
      have hok := fieldsMerged_ok (b := false) (List.Forall₂.cons hd List.Forall₂.nil) (by simpa using hnd)
      obtain ⟨i, rfl, hi⟩ := hd
      have : s = .container fields false := by
        simp only [fieldsOf, DEnv.kind, hi] at hs
        rw [if_neg (by simp), hok] at hs
        cases hs
        simp
      subst this
      simp [decoOf, FieldsSource.items, containerItems]
  · rw [h'] at h
    cases h

/-- **C103, the exceptions**: a name that is not an argument is a `TypeError`; then wrong types of the message, the
levels and the flag are `ValueError`s. -/
theorem C103_function_exceptions (env : DEnv) (r : FRegistry) (sa : Bool) (sup : List Nat) (kwargs : Dict Str HVal)
    (f : FObj) :
    ((∃ x ∈ kwargs, x.1 ∉ ["message", "level", "errors_level", "is_method", "handlers", "extra_fields",
        "extra_engine_fields"].map String.toList) →
      decorateFunction env r sa sup kwargs f = .error .typeError) ∧
    ((∀ x ∈ kwargs, x.1 ∈ ["message", "level", "errors_level", "is_method", "handlers", "extra_fields",
        "extra_engine_fields"].map String.toList) →
      ¬ (SimpleRight kwargs ∧ Given kwargs "is_method" fun v => ∃ b, v = .bool b) →
      decorateFunction env r sa sup kwargs f = .error .valueError) := by
  constructor
  · rintro ⟨x, hx, hn⟩
    have : (kwargs.any fun x => decide (x.1 ∉ flogNames)) = true :=
      List.any_eq_true.2 ⟨x, hx, by simpa [flogNames] using hn⟩
    rw [decorateFunction, if_pos this]
  · intro hnames hbad
    have : (kwargs.any fun x => decide (x.1 ∉ flogNames)) = false := (unknownName_iff _ _).2 hnames
    simp only [decorateFunction, this]
    rcases checkFlog_cases (argOr "message" .none kwargs) (argOr "level" .none kwargs)
      (argOr "errors_level" .none kwargs) (argOr "is_method" (.bool false) kwargs) with
      ⟨hc, hm, hl, he, hb⟩ | ⟨hc, _⟩
    · exact absurd ⟨⟨(argOr_given (.inl rfl)).1 hm, (argOr_given (.inl rfl)).1 hl, (argOr_given (.inl rfl)).1 he⟩,
        (argOr_given (P := fun v => ∃ x, v = .bool x) ⟨_, rfl⟩).1 hb⟩ hbad
    · simp [hc]

/-- **C103, accepted paths are paths of the tree**: selecting them from any global tree of handlers (C05) does not
raise. -/
theorem C103_accepted_paths_can_be_selected {V : Type} (env : DEnv) (v : HVal) (items : List HVal)
    (hs : Sequence env v items) (hv : Handlers env v) (paths : List Str) (hp : ∀ p ∈ paths, HVal.str p ∈ items)
    (h : Heap V) : ∃ t, (h.select env.isId (paths.map Key.str)).2 = .ok t := by
  have hgood : ∀ p ∈ paths, Path env.isId p := by
    intro p hmem
    obtain ⟨i, rfl, hi⟩ := hs
    rcases hv with hv | ⟨items', ⟨j, hj, hj'⟩, hall⟩
    · cases hv
    · cases hj
      have : items' = items := by
        rcases hi with hi | hi <;> rcases hj' with hj' | hj' <;> rw [hi] at hj' <;> cases hj' <;> rfl
      subst this
      rcases hall _ (hp p hmem) with ⟨q, hq, hgood⟩ | ⟨hne, _⟩
      · cases hq; exact hgood
      · exact absurd rfl (hne p)
  have := pathsError_select env.isId paths h (.own none [])
  rw [(pathsError_iff env.isId paths).2 hgood] at this
  unfold Heap.select
  cases hr : (h.on env.isId (.own none []) (paths.map Key.str)).2 with
  | ok t => exact ⟨t, rfl⟩
  | error e => rw [hr] at this; cases this

theorem suppressLoop_right (henv : HEnv) : ∀ (excs : List SuppressArg) (acc : List Nat),
    (henv.silent = true ∨ .wrong ∉ excs) → suppressLoop henv excs acc = .ok (acc ++ classesOf excs)
  | [], acc, _ => by simp [suppressLoop, classesOf]
  | .exc c :: rest, acc, h => by
    rw [suppressLoop, suppressLoop_right henv rest (acc ++ [c]) (h.imp id fun h hm => h (List.mem_cons_of_mem _ hm))]
    simp [classesOf]
  | .wrong :: rest, acc, h => by
    rcases h with h | h
    · rw [suppressLoop, maybeRaise, if_pos h]
      dsimp only
      rw [suppressLoop_right henv rest acc (.inl h)]
      rfl
    · exact absurd List.mem_cons_self h

theorem suppressLoop_wrong (henv : HEnv) (hs : henv.silent = false) : ∀ (excs : List SuppressArg) (acc : List Nat),
    .wrong ∈ excs → suppressLoop henv excs acc = .error .valueError
  | .exc c :: rest, acc, h => by
    rw [suppressLoop]
    exact suppressLoop_wrong henv hs rest _ ((List.mem_cons.1 h).resolve_left (by simp))
  | .wrong :: rest, acc, _ => by rw [suppressLoop, maybeRaise, if_neg (by simp [hs])]

theorem Fin.suppresses_right (henv : HEnv) : ∀ (sups : List (List SuppressArg)) (fin : Fin),
    (henv.silent = true ∨ ∀ excs ∈ sups, .wrong ∉ excs) →
    fin.suppresses henv sups = .ok { fin with
      suppressAll := fin.suppressAll || decide ([] ∈ sups), suppressed := fin.suppressed ++ classesOf sups.flatten }
  | [], fin, _ => by simp [Fin.suppresses, classesOf]
  | excs :: rest, fin, h => by
    have hl := suppressLoop_right henv excs [] (h.imp id fun h => h excs List.mem_cons_self)
    have ih := fun fin => Fin.suppresses_right henv rest fin (h.imp id fun h e he => h e (List.mem_cons_of_mem _ he))
    simp only [Fin.suppresses, Fin.suppress, hl, ih, List.nil_append]
    by_cases he : excs = []
    · subst he
      simp [classesOf]
    · have he' : ¬ ([] = excs) := fun h => he h.symm
      simp [he, he', classesOf, List.filterMap_append]

theorem Fin.suppresses_wrong (henv : HEnv) (hs : henv.silent = false) : ∀ (sups : List (List SuppressArg)) (fin : Fin),
    (∃ excs ∈ sups, .wrong ∈ excs) → fin.suppresses henv sups = .error .valueError
  | [], _, ⟨_, h, _⟩ => (nomatch h)
  | excs :: rest, fin, h => by
    by_cases hw : .wrong ∈ excs
    · simp [Fin.suppresses, Fin.suppress, suppressLoop_wrong henv hs excs [] hw]
    · have hl := suppressLoop_right henv excs [] (.inr hw)
      obtain ⟨e, he, hwe⟩ := h
      rcases List.mem_cons.1 he with rfl | he
      · exact absurd hwe hw
      · simp only [Fin.suppresses, Fin.suppress, hl]
        exact Fin.suppresses_wrong henv hs rest _ ⟨e, he, hwe⟩

theorem routerCall_decorate {henv : HEnv} {args : List HVal} {kwargs : Dict Str HVal} {d : Dict Str HVal}
    (hd : editOf henv args kwargs = some d) (sups : List (List SuppressArg)) (item : HVal) (hc : item.isCls = false)
    (hi : item.callable = true) (env : DEnv) (r : FRegistry) (f : FObj) :
    ((henv.silent = true ∨ ∀ excs ∈ sups, .wrong ∉ excs) → logFunction henv env r args kwargs sups item f =
      decorateFunction env r (decide ([] ∈ sups)) (classesOf sups.flatten) d f) ∧
    (henv.silent = false → (∃ excs ∈ sups, .wrong ∈ excs) →
      logFunction henv env r args kwargs sups item f = .error .valueError) := by
  have key : convertArgs henv args kwargs = .ok d := by rw [convertArgs_eq, hd]
  have hr : ∃ fin, routerCall henv args kwargs = .finalizer fin ∧ fin.entered = false ∧ fin.used = false ∧
      fin.data = d ∧ fin.suppressAll = false ∧ fin.suppressed = [] := by
    unfold editOf at hd
    split at hd
    · exact ⟨_, by simp only [routerCall, Fin.create, key]; rfl, rfl, rfl, rfl, rfl, rfl⟩
    · exact ⟨_, by simp only [routerCall, Fin.create, key]; rfl, rfl, rfl, rfl, rfl, rfl⟩
    · cases hd
  obtain ⟨fin, hr, h1, h2, h3, h4, h5⟩ := hr
  constructor
  · intro hs
    simp only [logFunction, hr, Fin.suppresses_right henv sups fin hs, h4, h5, Fin.call, h1, h2, h3, hc, hi]
    simp
  · intro hs hw
    simp only [logFunction, hr, Fin.suppresses_wrong henv hs sups fin hw]

/-- **C103, with brackets**: `log('text', **kwargs).suppress(...)…(f)` and `log(**kwargs).suppress(...)…(f)` take the
arguments that the decorator takes with the text as the `message`, and all the exceptions given to `suppress`; an
empty `suppress()` stands for all exceptions. The setting `silent_internal_exceptions` only matters for two
different messages in one decorator and for what `suppress` does not accept. -/
theorem C103_decorator_with_brackets (henv : HEnv) (env : DEnv) (r : FRegistry) (args : List HVal)
    (kwargs : Dict Str HVal) (sups : List (List SuppressArg)) (item : HVal) (hc : item.isCls = false)
    (hi : item.callable = true) (f : FObj) (ha : args = [] ∨ ∃ s, args = [.str s]) :
    ((henv.silent = true ∨ ∀ s m, args = [.str s] → Dict.get? "message".toList kwargs = some m → m = .str s) →
      (henv.silent = true ∨ ∀ excs ∈ sups, .wrong ∉ excs) →
      logFunction henv env r args kwargs sups item f =
        decorateFunction env r (decide ([] ∈ sups)) (classesOf sups.flatten) (named args kwargs) f) ∧
    (henv.silent = false → ∀ s m, args = [.str s] → Dict.get? "message".toList kwargs = some m → m ≠ .str s →
      logFunction henv env r args kwargs sups item f = .error .incorrectUse) ∧
    (henv.silent = false → (∀ s m, args = [.str s] → Dict.get? "message".toList kwargs = some m → m = .str s) →
      (∃ excs ∈ sups, .wrong ∈ excs) → logFunction henv env r args kwargs sups item f = .error .valueError) := by
  have hedit : (henv.silent = true ∨
      ∀ s m, args = [.str s] → Dict.get? "message".toList kwargs = some m → m = .str s) →
      editOf henv args kwargs = some (named args kwargs) := by
    intro h
    rcases ha with rfl | ⟨s, rfl⟩
    · rfl
    · have : henv.silent = true ∨ Dict.get? "message".toList kwargs = none ∨
          Dict.get? "message".toList kwargs = some (.str s) := by
        rcases h with h | h
        · exact .inl h
        · cases hg : Dict.get? "message".toList kwargs with
          | none => exact .inr (.inl rfl)
          | some m => exact .inr (.inr (by rw [h s m rfl hg]))
      simp only [editOf, this, ↓reduceIte, named]
  refine ⟨fun h hs => (routerCall_decorate (hedit h) sups item hc hi env r f).1 hs, ?_,
    fun hs h hw => (routerCall_decorate (hedit (.inr h)) sups item hc hi env r f).2 hs hw⟩
  · rintro hs s m rfl hm hne
    have hn : editOf henv [.str s] kwargs = none := by
      have : ¬ (henv.silent = true ∨ Dict.get? "message".toList kwargs = none ∨
          Dict.get? "message".toList kwargs = some (.str s)) := by
        rw [hs, hm]
        rintro (h | h | h)
        · cases h
        · cases h
        · exact hne (Option.some.inj h)
      simp only [editOf, this, ↓reduceIte]
    have key : convertArgs henv [.str s] kwargs = .error .incorrectUse := by rw [convertArgs_eq, hn]
    simp [logFunction, routerCall, Fin.create, key]

/-- **C103, silence does not matter**: apart from two different messages and wrong arguments of `suppress`, what a
decorator accepts and what it raises is the same for every setting of the program. -/
theorem C103_settings_do_not_matter (henv henv' : HEnv) (env : DEnv) (r : FRegistry) (args : List HVal)
    (kwargs : Dict Str HVal) (sups : List (List SuppressArg)) (item : HVal) (hc : item.isCls = false)
    (hi : item.callable = true) (f : FObj) (ha : args = [] ∨ ∃ s, args = [.str s])
    (hm : ∀ s m, args = [.str s] → Dict.get? "message".toList kwargs = some m → m = .str s)
    (hs : ∀ excs ∈ sups, .wrong ∉ excs) :
    logFunction henv env r args kwargs sups item f = logFunction henv' env r args kwargs sups item f := by
  rw [(C103_decorator_with_brackets henv env r args kwargs sups item hc hi f ha).1 (.inr hm) (.inr hs),
    (C103_decorator_with_brackets henv' env r args kwargs sups item hc hi f ha).1 (.inr hm) (.inr hs)]

/-! A program with some objects: 0 is `[path, handler]`, 1 is `{'a': field(...)}`, 2 is `...`, 3 is `[1, 2]`. -/

def dField : Extractor HVal := fun _ => .ok (.int 1)

def dEnv : DEnv where
  obj := fun i =>
    if i = 0 then .list [.str "disk.main".toList, .fn 7 none none []]
    else if i = 1 then .dict [(some "a".toList, some dField)]
    else if i = 2 then .ellipsis
    else if i = 3 then .list [.other 1, .other 2]
    else if i = 4 then .list [.str "run".toList, .str "missing".toList]
    else .plain
  isHandler := fun x => x == .fn 7 none none []
  isId := fun s => s.all (fun c => c.isAlphanum) && !s.isEmpty
  inPlace := []

/-- `@log(message='hello', level='high', handlers=['disk.main', handler], extra_fields=[{'a': field(...)}, ...])`. -/
def dArgs : Dict Str HVal :=
  [("message".toList, .str "hello".toList), ("level".toList, .str "high".toList), ("handlers".toList, .other 0),
   ("extra_fields".toList, .other 3)]

-- right arguments
example : Accepts dEnv dArgs where
  names := by decide +kernel
  message := by
    intro v h
    have : v = .str "hello".toList := (Option.some.inj h).symm
    exact .inr ⟨_, this⟩
  level := by
    intro v h
    have : v = .str "high".toList := (Option.some.inj h).symm
    exact .inr (.inl ⟨_, this⟩)
  errorsLevel := by intro v h; exact nomatch h
  isMethod := by intro v h; exact nomatch h
  handlers := by
    intro v h
    have : v = .other 0 := (Option.some.inj h).symm
    subst this
    refine .inr ⟨[.str "disk.main".toList, .fn 7 none none []], ⟨0, rfl, .inl rfl⟩, ?_⟩
    intro x hx
    simp only [List.mem_cons, List.not_mem_nil, or_false] at hx
    rcases hx with rfl | rfl
    · exact .inl ⟨_, rfl, by decide +kernel, by decide +kernel⟩
    · exact .inr ⟨fun p => nofun, by decide +kernel⟩
  fields := by
    intro v h
    have : v = .other 3 := (Option.some.inj h).symm
    subst this
    refine .inr ⟨[[("a".toList, dField)]], .list rfl (.take ⟨1, rfl, rfl⟩ (.skip ⟨2, rfl, rfl⟩ .nil)), ?_⟩
    decide +kernel
  engineFields := by intro v h; exact nomatch h

-- wrong arguments: a number as the message, an unknown name, a field that is none
example : ¬ SimpleRight [("message".toList, .int 5)] := by
  intro h
  rcases h.1 (.int 5) rfl with h | ⟨s, h⟩ <;> cases h

example : decorateFunction dEnv .empty false [] [("message".toList, .int 5)] (.orig 0) = .error .valueError := rfl

example : decorateFunction dEnv .empty false [] [("lewel".toList, .int 5)] (.orig 0) = .error .typeError := rfl

-- `@log('hello', level=5)` with other settings
example : ∃ g r', logFunction (exEnv true) dEnv FRegistry.empty.defFn.2 [.str "hello".toList]
    [("level".toList, .int 5)] [[.exc 3], [.exc 4, .exc 5]] (.fn 1 none none []) (.orig 0) = .ok (g, r') ∧
    g = .logged 1 ⟨some (.int 5), none, some "hello".toList, false, [3, 4, 5], []⟩ (.orig 0) := ⟨_, _, rfl, rfl⟩

-- two different messages
example : logFunction (exEnv false) dEnv FRegistry.empty [.str "a".toList] [("message".toList, .str "b".toList)]
    [] (.fn 1 none none []) (.orig 0) = .error .incorrectUse := rfl

end Polog
