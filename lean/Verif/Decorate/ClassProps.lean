import Verif.Decorate.ClassLemmas
import Verif.Decorate.Props
import Verif.Registry.Props

/-!
# C103: the arguments of `@log(...)` on a class
-/

namespace Polog
open DecorateSpec

theorem classNames_any {kwargs : Dict Str HVal} (h : ClassNames kwargs) :
    (kwargs.any fun x => decide (x.1 ∉ clogNames)) = false := (unknownName_iff kwargs clogNames).2 h

/-- **C103, classes**: the decorator of a class takes `methods`, `message`, `level` and `errors_level`; any other
name (also `handlers` and `extra_fields`) is a `TypeError`, and nothing is changed. -/
theorem C103_class_names (env : DEnv) (order : List Str → List Str) (w : DWorld) (c : Nat) (bases : List Nat)
    (sa : Bool) (sup : List Nat) (kwargs : Dict Str HVal) (h : ¬ ClassNames kwargs) :
    w.decorateClass env order c bases sa sup kwargs = (w, some .typeError) := by
  have : (kwargs.any fun x => decide (x.1 ∉ clogNames)) = true := by
    cases hb : kwargs.any fun x => decide (x.1 ∉ clogNames) with
    | true => rfl
    | false => exact absurd ((unknownName_iff kwargs clogNames).1 hb) h
  rw [DWorld.decorateClass, if_pos this]

/-- **C103, classes**: `methods` that is not a collection is a `TypeError`, and nothing is changed. -/
theorem C103_methods_must_be_a_collection (env : DEnv) (order : List Str → List Str) (w : DWorld) (c : Nat) (bases : List Nat)
    (sa : Bool) (sup : List Nat) (kwargs : Dict Str HVal) (hn : ClassNames kwargs) (v : HVal) (hm : Dict.get? "methods".toList kwargs = some v)
    (hs : ∀ s, v ≠ .str s) (hk : ∀ l d, env.kind v ≠ .list l ∧ env.kind v ≠ .tuple l ∧ env.kind v ≠ .dict d) :
    w.decorateClass env order c bases sa sup kwargs = (w, some .typeError) := by
  have hg : DWorld.givenMethods env kwargs = .error .typeError := by
    rw [DWorld.givenMethods, hm]
    show DWorld.methodsOf env v = _
    unfold DWorld.methodsOf
    split
    · exact absurd rfl (hs _)
    · split
      · rename_i h; exact absurd h (hk _ []).1
      · rename_i h; exact absurd h (hk _ []).2.1
      · rename_i h; exact absurd h (hk [] _).2.2
      · rfl
  rw [DWorld.decorateClass, classNames_any hn, hg]
  rfl

-- `@log(methods=5)` on a class
example (env : DEnv) (hk : env.kind (.int 5) = .plain) :
    let kwargs : Dict Str HVal := [("methods".toList, .int 5)]
    ClassNames kwargs ∧ Dict.get? "methods".toList kwargs = some (.int 5) ∧ (∀ s, HVal.int 5 ≠ .str s) ∧
      ∀ l d, env.kind (.int 5) ≠ .list l ∧ env.kind (.int 5) ≠ .tuple l ∧ env.kind (.int 5) ≠ .dict d := by
  refine ⟨?_, rfl, (fun _ h => nomatch h), fun l d => ?_⟩
  · intro x hx
    rw [List.mem_singleton.1 hx]
    decide
  · rw [hk]; exact ⟨(fun h => nomatch h), (fun h => nomatch h), (fun h => nomatch h)⟩

theorem decorateClass_whole {env : DEnv} {order : List Str → List Str} {w : DWorld} {c : Nat} {bases : List Nat}
    {sa : Bool} {sup : List Nat} {kwargs : Dict Str HVal} (hn : ClassNames kwargs)
    (hm : Dict.get? "methods".toList kwargs = none) :
    w.decorateClass env order c bases sa sup kwargs =
      DWorld.decorateMethods c (c :: bases)
        (checkFlog (argOr "message" .none kwargs) (argOr "level" .none kwargs)
          (argOr "errors_level" .none kwargs) (.bool true))
        (decoOf env sa sup .defaults kwargs) ((w.loggable order (c :: bases)).map HVal.str) w := by
  rw [DWorld.decorateClass, classNames_any hn]
  have hg : DWorld.givenMethods env kwargs = .ok [] := by rw [DWorld.givenMethods, hm]
  simp only [hg, DWorld.wholeClass, Bool.false_eq_true, ↓reduceIte]
  split <;> simp_all

theorem checkFlog_right {kwargs : Dict Str HVal} (h : SimpleRight kwargs) :
    checkFlog (argOr "message" .none kwargs) (argOr "level" .none kwargs) (argOr "errors_level" .none kwargs)
      (.bool true) = none := by
  rcases checkFlog_cases (argOr "message" .none kwargs) (argOr "level" .none kwargs)
    (argOr "errors_level" .none kwargs) (.bool true) with ⟨hc, _⟩ | ⟨_, hbad⟩
  · exact hc
  · exact absurd ⟨(argOr_given (.inl rfl)).2 h.1, (argOr_given (.inl rfl)).2 h.2.1, (argOr_given (.inl rfl)).2 h.2.2,
      _, rfl⟩ hbad

theorem checkFlog_wrong {kwargs : Dict Str HVal} (h : ¬ SimpleRight kwargs) :
    checkFlog (argOr "message" .none kwargs) (argOr "level" .none kwargs) (argOr "errors_level" .none kwargs)
      (.bool true) = some .valueError := by
  rcases checkFlog_cases (argOr "message" .none kwargs) (argOr "level" .none kwargs)
    (argOr "errors_level" .none kwargs) (.bool true) with ⟨_, hm, hl, he, _⟩ | ⟨hc, _⟩
  · exact absurd ⟨(argOr_given (.inl rfl)).1 hm, (argOr_given (.inl rfl)).1 hl, (argOr_given (.inl rfl)).1 he⟩ h
  · exact hc

/-- **C103, a wrong message or level on a class**: a `ValueError`, and nothing is changed. Missing: classes without
methods. -/
theorem C103_class_wrong_argument_partial (env : DEnv) (order : List Str → List Str)
    (ho : ∀ l, (order l).Perm l) (w : DWorld) (c : Nat) (bases : List Nat) (sa : Bool) (sup : List Nat)
    (kwargs : Dict Str HVal) (hn : ClassNames kwargs) (hm : Dict.get? "methods".toList kwargs = none)
    (hw : ¬ SimpleRight kwargs) (n : Str) (hx : HasMethod w (c :: bases) n) :
    w.decorateClass env order c bases sa sup kwargs = (w, some .valueError) := by
  rw [decorateClass_whole hn hm, checkFlog_wrong hw]
  have hmem : n ∈ w.loggable order (c :: bases) := (DWorld.mem_loggable ho w _ n).2 hx
  cases hl : w.loggable order (c :: bases) with
  | nil => rw [hl] at hmem; cases hmem
  | cons m ms =>
    have hmm : HasMethod w (c :: bases) m := (DWorld.mem_loggable ho w _ m).1 (by rw [hl]; exact List.mem_cons_self)
    rw [List.map_cons, DWorld.decorateMethods, DWorld.decorateMethod]
    rcases hmm.1 with ⟨f, hf⟩ | hf <;> simp [hf]

/-- **C103 fails for classes without methods**: whatever is given as message and levels, nothing is checked. -/
theorem C103_class_without_methods_fails (env : DEnv) (order : List Str → List Str)
    (ho : ∀ l, (order l).Perm l) (w : DWorld) (c : Nat) (bases : List Nat) (sa : Bool) (sup : List Nat)
    (kwargs : Dict Str HVal) (hn : ClassNames kwargs) (hm : Dict.get? "methods".toList kwargs = none)
    (hx : ∀ n, ¬ HasMethod w (c :: bases) n) :
    w.decorateClass env order c bases sa sup kwargs = (w, none) := by
  rw [decorateClass_whole hn hm]
  have : w.loggable order (c :: bases) = [] := by
    rw [List.eq_nil_iff_forall_not_mem]
    exact fun n h => hx n ((DWorld.mem_loggable ho w _ n).1 h)
  rw [this]
  rfl

/-- **C103, right arguments on a class of functions**: no exception; attributes that are no methods stay what they
are, the methods are functions. Missing: classes with built-in methods. -/
theorem C103_class_accepts_partial (env : DEnv) (order : List Str → List Str) (ho : ∀ l, (order l).Perm l)
    (w : DWorld) (c : Nat) (bases : List Nat) (sa : Bool) (sup : List Nat) (kwargs : Dict Str HVal)
    (hn : ClassNames kwargs) (hm : Dict.get? "methods".toList kwargs = none) (hs : SimpleRight kwargs)
    (hb : ∀ n, HasMethod w (c :: bases) n → w.getattr n (c :: bases) ≠ some .builtin) :
    (w.decorateClass env order c bases sa sup kwargs).2 = none ∧
    ∀ n, (¬ HasMethod w (c :: bases) n →
        (w.decorateClass env order c bases sa sup kwargs).1.getattr n (c :: bases) = w.getattr n (c :: bases)) ∧
      (HasMethod w (c :: bases) n →
        ∃ f, (w.decorateClass env order c bases sa sup kwargs).1.getattr n (c :: bases) = some (.func f)) := by
  rw [decorateClass_whole hn hm, checkFlog_right hs]
  have h := DWorld.decorateMethods_funcs (c := c) (bases := bases) (d := decoOf env sa sup .defaults kwargs)
    (w.loggable order (c :: bases)) w (fun n hmem => by
      have hh := (DWorld.mem_loggable ho w _ n).1 hmem
      exact hh.1.resolve_right (hb n hh))
  refine ⟨h.1, fun n => ⟨fun hnot => ?_, fun hhas => ?_⟩⟩
  · exact (h.2 n).1 fun hmem => hnot ((DWorld.mem_loggable ho w _ n).1 hmem)
  · exact (h.2 n).2 ((DWorld.mem_loggable ho w _ n).2 hhas)

/-- **C103 fails for classes with built-in methods**: a class that inherits a method of a built-in type, as every
subclass of `Exception` or `list` does, is refused with a `TypeError` although the arguments are right. -/
theorem C103_built_in_methods_fails (env : DEnv) (order : List Str → List Str) (ho : ∀ l, (order l).Perm l)
    (w : DWorld) (c : Nat) (bases : List Nat) (sa : Bool) (sup : List Nat) (kwargs : Dict Str HVal)
    (hn : ClassNames kwargs) (hm : Dict.get? "methods".toList kwargs = none) (hs : SimpleRight kwargs) (n : Str)
    (hh : HasMethod w (c :: bases) n) (hb : w.getattr n (c :: bases) = some .builtin) :
    (w.decorateClass env order c bases sa sup kwargs).2 = some .typeError := by
  rw [decorateClass_whole hn hm, checkFlog_right hs]
  refine DWorld.decorateMethods_builtin _ w (fun m hmem => ?_) ⟨n, (DWorld.mem_loggable ho w _ n).2 hh, hb⟩
  rcases ((DWorld.mem_loggable ho w _ m).1 hmem).1 with ⟨f, hf⟩ | hf <;> simp [hf]

/-- The argument `methods` names exactly these methods. -/
theorem methodsOf_sequence {env : DEnv} {v : HVal} {items : List HVal} (h : Sequence env v items) :
    DWorld.methodsOf env v = .ok items := by
  obtain ⟨i, rfl, h | h⟩ := h <;> simp [DWorld.methodsOf, DEnv.kind, h]

theorem wholeClass_strs {names : List Str} (h : names ≠ []) : DWorld.wholeClass (names.map HVal.str) = false := by
  cases names with
  | nil => exact absurd rfl h
  | cons a t => cases t <;> simp [DWorld.wholeClass, HVal.isCls]

/-- **C103, a name in `methods` that the class does not have**: an `AttributeError`; the methods named before it
are decorated already (they have become what decorating only them makes of them). -/
theorem C103_missing_method (env : DEnv) (order : List Str → List Str) (w : DWorld) (c : Nat) (bases : List Nat)
    (sa : Bool) (sup : List Nat) (kwargs : Dict Str HVal) (hn : ClassNames kwargs) (v : HVal)
    (hm : Dict.get? "methods".toList kwargs = some v) (before after : List Str) (n : Str)
    (hv : Sequence env v ((before ++ n :: after).map HVal.str)) (hs : SimpleRight kwargs)
    (hb : ∀ m ∈ before, ∃ f, w.getattr m (c :: bases) = some (.func f))
    (hx : w.getattr n (c :: bases) = none) :
    (w.decorateClass env order c bases sa sup kwargs).2 = some .attributeError ∧
    (w.decorateClass env order c bases sa sup kwargs).1.simple =
      before.foldl (ClassWorld.decorateMethod c (c :: bases) (decoOf env sa sup .defaults kwargs)) w.simple := by
  have hne : before ++ n :: after ≠ [] := by simp
  have hfuncs := DWorld.decorateMethods_funcs (c := c) (bases := bases) (d := decoOf env sa sup .defaults kwargs)
    before w hb
  have hnb : n ∉ before := by
    intro h
    obtain ⟨f, hf⟩ := hb n h
    rw [hx] at hf
    cases hf
  have hgone := (hfuncs.2 n).1 hnb
  rw [hx] at hgone
  have key : DWorld.decorateMethods c (c :: bases) none (decoOf env sa sup .defaults kwargs)
      ((before ++ n :: after).map HVal.str) w =
      ((DWorld.decorateMethods c (c :: bases) none (decoOf env sa sup .defaults kwargs)
        (before.map HVal.str) w).1, some .attributeError) := by
    rw [List.map_append, DWorld.decorateMethods_append _ _ _ hfuncs.1, List.map_cons, DWorld.decorateMethods]
    simp [DWorld.decorateMethod, hgone]
  have : w.decorateClass env order c bases sa sup kwargs =
      ((DWorld.decorateMethods c (c :: bases) none (decoOf env sa sup .defaults kwargs)
        (before.map HVal.str) w).1, some .attributeError) := by
    rw [DWorld.decorateClass, classNames_any hn]
    have hg : DWorld.givenMethods env kwargs = .ok ((before ++ n :: after).map HVal.str) := by
      rw [DWorld.givenMethods, hm]
      exact methodsOf_sequence hv
    simp only [hg, wholeClass_strs hne, checkFlog_right hs, Bool.false_eq_true, ↓reduceIte, key]
  rw [this]
  exact ⟨rfl, DWorld.simple_decorateMethods before w hb⟩

/-- **C103, without exceptions the decorator does what C30 says**: for classes of functions and right arguments, with or
without `methods`, the classes afterwards are those of the model of C30. -/
theorem C103_class_as_in_C30 (env : DEnv) (w : DWorld) (c : Nat) (bases : List Nat) (sa : Bool) (sup : List Nat)
    (kwargs : Dict Str HVal) (hn : ClassNames kwargs) (hs : SimpleRight kwargs) (methods : List Str)
    (hm : (Dict.get? "methods".toList kwargs = none ∧ methods = []) ∨
      ∃ v, Dict.get? "methods".toList kwargs = some v ∧ Sequence env v (methods.map HVal.str))
    (hf : ∀ n ∈ methods, ∃ f, w.getattr n (c :: bases) = some (.func f))
    (hb : ∀ n, w.getattr n (c :: bases) ≠ some .builtin) :
    (w.decorateClass env id c bases sa sup kwargs).2 = none ∧
    (w.decorateClass env id c bases sa sup kwargs).1.simple =
      w.simple.decorateClass c bases methods (decoOf env sa sup .defaults kwargs) := by
  have hread : DWorld.givenMethods env kwargs = .ok (methods.map HVal.str) := by
    rw [DWorld.givenMethods]
    rcases hm with ⟨h1, h2⟩ | ⟨v, h1, h2⟩
    · rw [h1, h2]; rfl
    · rw [h1]; exact methodsOf_sequence h2
  have hperm : ∀ l : List Str, (id l).Perm l := fun l => List.Perm.refl l
  have hlog : ∀ n ∈ w.loggable id (c :: bases), ∃ f, w.getattr n (c :: bases) = some (.func f) := by
    intro n hmem
    exact ((DWorld.mem_loggable hperm w _ n).1 hmem).1.resolve_right (hb n)
  rw [DWorld.decorateClass, classNames_any hn]
  simp only [hread, checkFlog_right hs, Bool.false_eq_true, ↓reduceIte]
  by_cases he : methods = []
  · subst he
    have h := DWorld.decorateMethods_funcs (c := c) (bases := bases) (d := decoOf env sa sup .defaults kwargs) _ w hlog
    have h' := DWorld.simple_decorateMethods (c := c) (bases := bases) (d := decoOf env sa sup .defaults kwargs) _ w
      hlog
    simp only [List.map_nil, DWorld.wholeClass, ↓reduceIte, ClassWorld.decorateClass, ClassWorld.unselected,
      List.foldl_nil, DWorld.simple_loggable w _ hb]
    revert h h'
    cases DWorld.decorateMethods c (c :: bases) none (decoOf env sa sup .defaults kwargs)
      ((w.loggable id (c :: bases)).map HVal.str) w with
    | mk w' e =>
      rintro ⟨h1, _⟩ h2
      dsimp only at h1
      subst h1
      exact ⟨rfl, h2⟩
  · have h := DWorld.decorateMethods_funcs (c := c) (bases := bases) (d := decoOf env sa sup .defaults kwargs) _ w hf
    have h' := DWorld.simple_decorateMethods (c := c) (bases := bases) (d := decoOf env sa sup .defaults kwargs) _ w hf
    have hne : methods.map HVal.str ≠ [] := by simpa using he
    simp only [wholeClass_strs he, Bool.false_eq_true, ↓reduceIte, ClassWorld.decorateClass, ClassWorld.unselected,
      he]
    revert h h'
    cases DWorld.decorateMethods c (c :: bases) none (decoOf env sa sup .defaults kwargs)
      (methods.map HVal.str) w with
    | mk w' e =>
      rintro ⟨h1, hget⟩ h2
      dsimp only at h1 hget h2
      subst h1
      have hb' : ∀ n, w'.getattr n (c :: bases) ≠ some .builtin := by
        intro n hbn
        by_cases hmem : n ∈ methods
        · obtain ⟨f, hf⟩ := (hget n).2 hmem
          rw [hf] at hbn
          cases hbn
        · rw [(hget n).1 hmem] at hbn
          exact hb n hbn
      have hl2 : w.simple.loggingMethods (c :: bases) methods = methods := by
        simp [ClassWorld.loggingMethods, he]
      simp only [hne, ↓reduceIte]
      refine ⟨trivial, ?_⟩
      rw [DWorld.simple_restoreMethods]
      · rw [hl2, ← h2, DWorld.simple_loggable w' _ hb']
        congr 1
        apply List.filter_congr
        intro n _
        simp
      · intro n hmem
        have := (List.mem_filter.1 hmem).1
        exact ((DWorld.mem_loggable hperm w' _ n).1 this).1.resolve_right (hb' n)

/-! ### Cases -/

/-- A class with a method `run`, an attribute `x = 5` and `__init__`; class 1 is `Exception`, class 2 has no
methods. -/
def dWorld : DWorld :=
  ⟨FRegistry.empty.defFn.2.defFn.2, fun i =>
    if i = 0 then [("run".toList, .func (.orig 0)), ("x".toList, .value), ("__init__".toList, .func (.orig 1))]
    else if i = 1 then [("add_note".toList, .builtin), ("with_traceback".toList, .builtin)]
    else []⟩

example : HasMethod dWorld [0] "run".toList := ⟨.inl ⟨.orig 0, rfl⟩, by decide +kernel⟩

example : HasMethod dWorld [0, 1] "with_traceback".toList ∧
    dWorld.getattr "with_traceback".toList [0, 1] = some .builtin :=
  ⟨⟨.inr rfl, by decide +kernel⟩, rfl⟩

example : ∀ n, ¬ HasMethod dWorld [2] n := by
  rintro n ⟨⟨f, h⟩ | h, _⟩
  · exact nomatch h
  · exact nomatch h

example : SimpleRight [("level".toList, .int 3)] :=
  ⟨fun v h => (nomatch h), fun v h => .inr (.inr (.inl ⟨3, (Option.some.inj h).symm⟩)), fun v h => (nomatch h)⟩

example : ClassNames [("level".toList, .int 3)] := by unfold ClassNames; decide +kernel

-- `handlers` is not for classes
example : ¬ ClassNames [("handlers".toList, .other 0)] := by unfold ClassNames; decide +kernel

theorem dWorld_no_builtin : ∀ n, dWorld.getattr n [0] ≠ some .builtin := by
  intro n h
  have h : Dict.get? n (dWorld.own 0) = some .builtin := by
    simpa only [DWorld.getattr, Option.or_none] using h
  have hall : ∀ x ∈ dWorld.own 0, x.2 ≠ .builtin := by
    intro x hx
    rcases List.mem_cons.1 hx with rfl | hx
    · exact nofun
    · rcases List.mem_cons.1 hx with rfl | hx
      · exact nofun
      · rcases List.mem_cons.1 hx with rfl | hx
        · exact nofun
        · cases hx
  have : ∀ d : Dict Str DAttr, (∀ x ∈ d, x.2 ≠ .builtin) → Dict.get? n d ≠ some .builtin := by
    intro d
    induction d with
    | nil => intro _; exact nofun
    | cons y ys ih =>
      intro hd
      rw [Dict.get?]
      split
      · intro e
        exact hd y List.mem_cons_self (Option.some.inj e)
      · exact ih fun x hx => hd x (List.mem_cons_of_mem _ hx)
  exact this _ hall h

-- `@log(methods=['run', 'missing'])`
example : Sequence dEnv (.other 4) ((["run".toList] ++ "missing".toList :: []).map HVal.str) ∧
    (∀ m ∈ ["run".toList], ∃ f, dWorld.getattr m [0] = some (.func f)) ∧
    dWorld.getattr "missing".toList [0] = none :=
  ⟨⟨4, rfl, .inl rfl⟩, fun m hm => ⟨.orig 0, by rw [List.mem_singleton.1 hm]; rfl⟩, rfl⟩

-- a right decorator: `run` is logged, `x` and `__init__` are left
example : (dWorld.decorateClass dEnv id 0 [] false [] [("level".toList, .int 3)]).1.getattr "run".toList [0] =
    some (.func (.logged 2 (cDeco 3) (.orig 0))) := rfl

/-- **C103 fails: an exception may leave the class half decorated**: `@log(methods=['run', 'missing'])` raises, and
`run` is logged afterwards. -/
theorem C103_failed_decoration_changes_nothing_fails :
    ∃ w', dWorld.decorateClass dEnv id 0 [] false [] [("methods".toList, .other 4)] = (w', some .attributeError) ∧
      dWorld.getattr "run".toList [0] = some (.func (.orig 0)) ∧
      ∃ d, w'.getattr "run".toList [0] = some (.func (.logged 2 d (.orig 0))) :=
  ⟨_, rfl, rfl, _, rfl⟩

/-- **C103 fails: one name instead of a list of names**: `@log(methods='run')` looks for methods named `r`, `u` and
`n`; the method `run` is there, but an `AttributeError` is raised. -/
theorem C103_methods_as_text_fails :
    (dWorld.decorateClass dEnv id 0 [] false [] [("methods".toList, .str "run".toList)]).2 = some .attributeError ∧
    dWorld.getattr "run".toList [0] = some (.func (.orig 0)) := ⟨rfl, rfl⟩

end Polog
