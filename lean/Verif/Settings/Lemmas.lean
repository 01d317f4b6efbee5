import Verif.Settings.Spec
import Verif.Levels.Props

namespace Polog
open SettingsSpec

theorem Levels.number_get (l : Levels) (name : Str) :
    l.number name = match l.get (.str name) with | .ok n => some n | .error _ => none := by
  simp only [Levels.number, Levels.get]
  cases Dict.get? name l.byName <;> rfl

theorem setAt_ne {α β : Type} [DecidableEq α] (f : α → β) (b : β) {a x : α} (h : x ≠ a) :
    setAt f a b x = f x := by
  simp [setAt, h]

theorem setAt_self {α β : Type} [DecidableEq α] (f : α → β) (a : α) (b : β) : setAt f a b a = b := by
  simp [setAt]

theorem Point.check_ok {p : Point} {levels : Levels} {values : Setting → SVal} {changed : Bool}
    {old v v' : SVal} (h : p.check levels values changed old v = .ok v') :
    (p.proves.all fun f => f v) = true ∧ p.convert levels v = .ok v' ∧
    (changed && p.changeOnce) = false ∧
    ∀ c ∈ p.conflicts, c.2 v' old (values c.1) = false := by
  unfold Point.check at h
  split at h
  · cases h
  · rename_i h1
    split at h
    · cases h
    · split at h
      · cases h
      · rename_i h3
        split at h
        · cases h
        · rename_i w hw
          split at h
          · cases h
          · rename_i h4
            cases h
            refine ⟨by simpa using h3, hw, by simpa using h1, ?_⟩
            intro c hc
            have h4' : ¬ ∃ c ∈ p.conflicts, c.2 v' old (values c.1) = true := by
              intro ⟨c, hc, he⟩
              exact h4 (List.any_eq_true.2 ⟨c, hc, he⟩)
            cases he : c.2 v' old (values c.1) with
            | false => rfl
            | true => exact absurd ⟨c, hc, he⟩ h4'

/-- All registered level numbers are non-negative. -/
def Levels.Ok (l : Levels) : Prop := ∀ key n, l.get key = .ok n → 0 ≤ n

theorem Levels.Ok_calls (isId : Str → Bool) (cs : List LevelsCall) :
    (Levels.empty.calls isId cs).Ok := fun key n h => C06_levels_nonnegative isId cs key n h

theorem levelConverter_ok {l : Levels} (hl : l.Ok) {v v' : SVal} (h : levelConverter l v = .ok v') :
    ∃ n : Int, v' = .int n ∧ 0 ≤ n := by
  have key : ∀ k, (l.get k).map SVal.int = .ok v' → ∃ n : Int, v' = .int n ∧ 0 ≤ n := by
    intro k hk
    cases hg : l.get k with
    | error e => rw [hg] at hk; cases hk
    | ok n => rw [hg] at hk; cases hk; exact ⟨n, rfl, hl k n hg⟩
  unfold levelConverter at h
  split at h <;> exact key _ h

/-- What passes the checks of a point satisfies the documented constraint. -/
theorem check_valid {isId : Str → Bool} {debug : Bool} {levels : Levels} (hl : levels.Ok)
    {values : Setting → SVal} {changed : Bool} {old v v' : SVal} (s : Setting)
    (h : (point isId debug s).check levels values changed old v = .ok v') : valid isId s v' := by
  obtain ⟨hp, hc, _, _⟩ := Point.check_ok h
  cases s <;> simp only [point, Point.convert, List.all_cons, List.all_nil, Bool.and_true, Except.ok.injEq,
    Bool.and_eq_true] at hp hc
  case level => exact levelConverter_ok hl hc
  case defaultLevel => exact levelConverter_ok hl hc
  case defaultErrorLevel => exact levelConverter_ok hl hc
  case smartAssertPolitic =>
    simp only [Bool.or_eq_true, beq_iff_eq] at hp
    rcases hp.2 with rfl | rfl
    · simp only [politicConverter, ↓reduceIte, Except.ok.injEq] at hc
      exact ⟨true, hc.symm⟩
    · have : ("if_debug".toList = "all".toList) = False := by decide
      simp only [politicConverter, this, ↓reduceIte, Except.ok.injEq] at hc
      exact ⟨false, hc.symm⟩
  case engine =>
    subst hc
    cases v <;> simp_all [SVal.isCallable, valid]
  case jsonModule =>
    subst hc
    cases v with
    | module i l d =>
      simp only [SVal.loads, SVal.dumps, beq_iff_eq] at hp
      obtain ⟨_, _, _, rfl, rfl⟩ := hp
      exact ⟨i, rfl⟩
    | _ => simp [SVal.isModule] at hp
  case serviceName =>
    subst hc
    cases v with
    | none => exact .inl rfl
    | str s => exact .inr ⟨s, rfl, hp.2⟩
    | _ => simp [SVal.isStr, SVal.isNone] at hp
  case poolSize =>
    subst hc
    cases v <;> simp_all [SVal.isInt, SVal.int?, SVal.geZero, valid, nonNegativeInteger]
  case maxQueueSize =>
    subst hc
    cases v <;> simp_all [SVal.isInt, SVal.int?, SVal.geZero, valid, nonNegativeInteger]
  case maxDelayBeforeExit =>
    subst hc
    cases v with
    | float f => cases f <;> simp_all [SVal.geZero, valid, nonNegativeNumber]
    | _ => simp_all [SVal.isInt, SVal.isFloat, SVal.int?, SVal.geZero, valid, nonNegativeNumber]
  case timeQuant =>
    subst hc
    cases v with
    | float f => cases f <;> simp_all [SVal.gtZero, valid, positiveNumber]
    | bool b => cases b <;> simp_all [SVal.gtZero, valid, positiveNumber, SVal.int?, boolInt]
    | _ => simp_all [SVal.isInt, SVal.isFloat, SVal.int?, SVal.gtZero, valid, positiveNumber]
  case delayOnExit =>
    subst hc
    cases v with
    | bool b => cases b <;> simp_all [SVal.gtZero, valid, SVal.int?, boolInt]
    | _ => simp_all [SVal.isInt, SVal.int?, SVal.gtZero, valid]
  all_goals
    subst hc
    cases v <;> simp_all [SVal.isBool, valid]

theorem init_valid (isId : Str → Bool) (debug : Bool) (s : Setting) :
    valid isId s ((Store.init isId debug).value s) := by
  cases s <;> simp [Store.init, point, valid, nonNegativeInteger, nonNegativeNumber, positiveNumber]

theorem isZero_iff {v : SVal} (h : nonNegativeInteger v) : isZero v ↔ v.pyEq (.int 0) = true := by
  cases v with
  | int n => simp [isZero, SVal.pyEq, SVal.int?]
  | bool b => cases b <;> simp [isZero, SVal.pyEq, SVal.int?, boolInt]
  | _ => exact absurd h (by simp [nonNegativeInteger])

/-- Storing a value accepted by the checks keeps the combinations possible. -/
theorem compatible_set {isId : Str → Bool} {debug : Bool}
    {values : Setting → SVal} (hv : ∀ s, valid isId s (values s)) (hc : compatible values)
    {old v' : SVal} (s : Setting)
    (hval : valid isId s v')
    (hconf : ∀ c ∈ (point isId debug s).conflicts, c.2 v' old (values c.1) = false) :
    compatible (setAt values s v') := by
  obtain ⟨h1, h2⟩ := hc
  constructor
  · intro hz
    by_cases hs : s = .poolSize
    · subst hs
      simp only [setAt, ↓reduceIte, reduceCtorEq] at hz ⊢
      have := hconf _ (by simp [point]; rfl)
      simp only at this
      have hz' := (isZero_iff (v := v') hval).1 hz
      rw [hz'] at this
      simp only [Bool.true_and, Bool.not_eq_eq_eq_not, Bool.not_false] at this
      exact (isZero_iff (hv .maxQueueSize)).2 this
    · by_cases hs2 : s = .maxQueueSize
      · subst hs2
        simp only [setAt, ↓reduceIte, reduceCtorEq] at hz ⊢
        have := hconf _ (by simp [point]; rfl)
        simp only at this
        have hz' := (isZero_iff (hv .poolSize)).1 hz
        rw [hz'] at this
        simp only [Bool.and_true, Bool.not_eq_eq_eq_not, Bool.not_false] at this
        exact (isZero_iff (v := v') hval).2 this
      · have e1 : setAt values s v' .poolSize = values .poolSize := by
          exact setAt_ne _ _ (Ne.symm hs)
        have e2 : setAt values s v' .maxQueueSize = values .maxQueueSize := by
          exact setAt_ne _ _ (Ne.symm hs2)
        rw [e1] at hz
        rw [e2]
        exact h1 hz
  · intro hz
    by_cases hs : s = .integrationWithLogging
    · subst hs
      simp only [setAt, ↓reduceIte, reduceCtorEq] at hz ⊢
      subst hz
      have := hconf _ (by simp [point]; rfl)
      obtain ⟨b, hb⟩ := hv .loggingOff
      simp only [hb] at this
      cases b with
      | false => exact hb
      | true => simp [SVal.pyEq, SVal.int?] at this
    · by_cases hs2 : s = .loggingOff
      · subst hs2
        simp only [setAt, ↓reduceIte, reduceCtorEq] at hz ⊢
        have := hconf _ (by simp [point]; rfl)
        simp only [hz] at this
        obtain ⟨b, rfl⟩ := hval
        cases b with
        | false => rfl
        | true => simp [SVal.pyEq, SVal.int?] at this
      · have e1 : setAt values s v' .integrationWithLogging = values .integrationWithLogging := by
          exact setAt_ne _ _ (Ne.symm hs)
        have e2 : setAt values s v' .loggingOff = values .loggingOff := by
          exact setAt_ne _ _ (Ne.symm hs2)
        rw [e1] at hz
        rw [e2]
        exact h2 hz

theorem valid_setAt {isId : Str → Bool} {values : Setting → SVal} (hv : ∀ s, valid isId s (values s))
    {s : Setting} {v : SVal} (h : valid isId s v) : ∀ x, valid isId x (setAt values s v x) := by
  intro x
  unfold setAt
  split
  · rename_i hx; subst hx; exact h
  · exact hv x

/-- The invariant of the store. -/
structure Store.Ok (isId : Str → Bool) (st : Store) : Prop where
  levels : ∃ cs, st.levels = Levels.empty.calls isId cs
  valid : ∀ s, valid isId s (st.value s)
  compatible : compatible st.value

theorem Store.Ok.levelsOk {isId : Str → Bool} {st : Store} (h : st.Ok isId) : st.levels.Ok := by
  obtain ⟨cs, h⟩ := h.levels
  rw [h]; exact Levels.Ok_calls isId cs

theorem Store.Ok_init (isId : Str → Bool) (debug : Bool) : (Store.init isId debug).Ok isId :=
  ⟨⟨[], rfl⟩, init_valid isId debug, by
    constructor
    · intro _; exact .inl rfl
    · intro h; cases h⟩

theorem Store.Ok_set {isId : Str → Bool} {debug : Bool} {st : Store} (h : st.Ok isId) (s : Setting)
    (v : SVal) : (st.set isId debug s v).1.Ok isId := by
  unfold Store.set
  dsimp only
  split
  · exact h
  · rename_i v' hv'
    have hval := check_valid h.levelsOk s hv'
    obtain ⟨_, _, _, hconf⟩ := Point.check_ok hv'
    exact ⟨h.levels, valid_setAt h.valid hval, compatible_set h.valid h.compatible s hval hconf⟩

theorem Store.Ok_configSet {isId : Str → Bool} {debug : Bool} (kwargs : List SetArg) :
    ∀ {st : Store}, st.Ok isId → (st.configSet isId debug kwargs).1.Ok isId := by
  induction kwargs with
  | nil => intro st h; exact h
  | cons x xs ih =>
    intro st h
    obtain ⟨s, v⟩ := x
    cases s with
    | none => exact h
    | some s =>
      simp only [Store.configSet]
      have h1 := Store.Ok_set (debug := debug) h s v
      split
      · rename_i st' e heq; rw [heq] at h1; exact h1
      · rename_i st' heq; rw [heq] at h1; exact ih h1

theorem Levels.calls_snoc (isId : Str → Bool) (c : LevelsCall) (cs : List LevelsCall) : ∀ l : Levels,
    l.calls isId (cs ++ [c]) = (l.calls isId cs).call isId c := by
  induction cs with
  | nil => intro l; rfl
  | cons d ds ih => intro l; exact ih _

theorem Store.Ok_levels {isId : Str → Bool} {st : Store} (h : st.Ok isId) (c : LevelsCall) :
    ({ st with levels := st.levels.call isId c } : Store).Ok isId := by
  obtain ⟨cs, hc⟩ := h.levels
  refine ⟨⟨cs ++ [c], ?_⟩, h.valid, h.compatible⟩
  rw [Levels.calls_snoc, hc]

theorem Store.Ok_calls {isId : Str → Bool} {debug : Bool} (cs : List SettingsCall) :
    ∀ {st : Store}, st.Ok isId → (st.calls isId debug cs).Ok isId := by
  induction cs with
  | nil => intro st h; exact h
  | cons c cs ih =>
    intro st h
    cases c with
    | set kwargs => exact ih (Store.Ok_configSet kwargs h)
    | levels c => exact ih (Store.Ok_levels h c)

/-- `started` was changed iff it is `True`. -/
def Store.StartedOk (st : Store) : Prop :=
  (st.value .started = .bool false ∧ st.changed .started = false) ∨
  (st.value .started = .bool true ∧ st.changed .started = true)

theorem pyEq_true {v : SVal} (h1 : v.isBool = true) (h2 : v.pyEq (.bool true) = true) :
    v = .bool true := by
  cases v <;> simp_all [SVal.isBool, SVal.pyEq, SVal.int?]
  rename_i b
  cases b <;> simp_all [boolInt]

theorem Store.StartedOk_set {isId : Str → Bool} {debug : Bool} {st : Store} (h : st.StartedOk)
    (s : Setting) (v : SVal) : (st.set isId debug s v).1.StartedOk := by
  unfold Store.set
  dsimp only
  split
  · exact h
  · rename_i v' hv'
    by_cases hs : s = .started
    · subst hs
      right
      obtain ⟨hp, hc, _, _⟩ := Point.check_ok hv'
      simp only [point, Point.convert, List.all_cons, List.all_nil, Bool.and_true, Except.ok.injEq,
        Bool.and_eq_true] at hp hc
      subst hc
      dsimp only
      rw [setAt_self, setAt_self]
      exact ⟨pyEq_true hp.1 hp.2, rfl⟩
    · unfold Store.StartedOk
      dsimp only
      rw [setAt_ne _ _ (Ne.symm hs), setAt_ne _ _ (Ne.symm hs)]
      exact h

theorem Store.StartedOk_configSet {isId : Str → Bool} {debug : Bool} (kwargs : List SetArg) :
    ∀ {st : Store}, st.StartedOk → (st.configSet isId debug kwargs).1.StartedOk := by
  induction kwargs with
  | nil => intro st h; exact h
  | cons x xs ih =>
    intro st h
    obtain ⟨s, v⟩ := x
    cases s with
    | none => exact h
    | some s =>
      simp only [Store.configSet]
      have h1 := Store.StartedOk_set (isId := isId) (debug := debug) h s v
      split
      · rename_i st' e heq; rw [heq] at h1; exact h1
      · rename_i st' heq; rw [heq] at h1; exact ih h1

theorem Store.StartedOk_calls {isId : Str → Bool} {debug : Bool} (cs : List SettingsCall) :
    ∀ {st : Store}, st.StartedOk → (st.calls isId debug cs).StartedOk := by
  induction cs with
  | nil => intro st h; exact h
  | cons c cs ih =>
    intro st h
    cases c with
    | set kwargs => exact ih (Store.StartedOk_configSet kwargs h)
    | levels c => exact ih (st := { st with levels := st.levels.call isId c }) h

theorem Point.check_eq_ok {p : Point} {levels : Levels} {values : Setting → SVal} {changed : Bool}
    {old v v' : SVal} (h0 : p.changeOnlyBeforeStart = false)
    (h1 : (p.proves.all fun f => f v) = true) (h2 : p.convert levels v = .ok v')
    (h3 : (changed && p.changeOnce) = false) (h4 : ∀ c ∈ p.conflicts, c.2 v' old (values c.1) = false) :
    p.check levels values changed old v = .ok v' := by
  unfold Point.check
  rw [if_neg (by simp [h3]), if_neg (by simp [h0]), if_neg (by simp [h1]), h2]
  simp only
  rw [if_neg]
  intro h
  obtain ⟨c, hc, he⟩ := List.any_eq_true.1 h
  rw [h4 c hc] at he
  cases he

theorem point_anytime (isId : Str → Bool) (debug : Bool) (s : Setting) :
    (point isId debug s).changeOnlyBeforeStart = false := by cases s <;> rfl

/-- The checks and the conversion agree with the specification. -/
theorem check_requested {isId : Str → Bool} {debug : Bool} {st : Store} (h : st.Ok isId)
    (hst : st.StartedOk) (s : Setting) (v v' : SVal) :
    (point isId debug s).check st.levels st.value (st.changed s) (st.value s) v = .ok v' ↔
      requested st.levels.number s v = some v' ∧ acceptable isId st.value s v' := by
  constructor
  · intro hc
    have hval := check_valid h.levelsOk s hc
    obtain ⟨hp, hcv, hch, hconf⟩ := Point.check_ok hc
    refine ⟨?_, hval, compatible_set h.valid h.compatible s hval hconf, ?_⟩
    · have lv : ∀ w, levelProve w = true → levelConverter st.levels w = .ok v' →
          (match w with
            | .str name => (st.levels.number name).map SVal.int
            | x => some x) = some v' := by
        intro w hw hcw
        cases w with
        | str name =>
          simp only [levelConverter] at hcw
          simp only [Levels.number_get]
          cases hg : st.levels.get (.str name) with
          | error e => rw [hg] at hcw; cases hcw
          | ok n => rw [hg] at hcw; cases hcw; rfl
        | int n =>
          simp only [levelConverter, Levels.get] at hcw
          split at hcw
          · cases hcw
          · cases hcw; rfl
        | bool b => cases hcw
        | _ => simp [levelProve, SVal.isInt, SVal.int?, SVal.isStr] at hw
      cases s <;> simp only [point, Point.convert, List.all_cons, List.all_nil, Bool.and_true,
        Except.ok.injEq, Bool.and_eq_true] at hp hcv
      case level => have := lv v hp hcv; cases v <;> exact this
      case defaultLevel => have := lv v hp hcv; cases v <;> exact this
      case defaultErrorLevel => have := lv v hp hcv; cases v <;> exact this
      case smartAssertPolitic =>
        simp only [Bool.or_eq_true, beq_iff_eq] at hp
        have hne : ("if_debug".toList = "all".toList) = False := by decide
        rcases hp.2 with rfl | rfl
        · simp only [politicConverter, ↓reduceIte, Except.ok.injEq] at hcv
          simp only [requested, ↓reduceIte, hcv]
        · simp only [politicConverter, hne, ↓reduceIte, Except.ok.injEq] at hcv
          simp only [requested, hne, ↓reduceIte, hcv]
      all_goals
        subst hcv
        rfl
    · intro hs
      subst hs
      simp only [point, Point.convert, List.all_cons, List.all_nil, Bool.and_true,
        Except.ok.injEq, Bool.and_eq_true] at hp hcv hch
      subst hcv
      refine ⟨pyEq_true hp.1 hp.2, ?_⟩
      rcases hst with h | h
      · exact h.1
      · rw [h.2] at hch; cases hch
  · intro ⟨hr, hval, hcomp, hstart⟩
    have hconf : ∀ c ∈ (point isId debug s).conflicts, c.2 v' (st.value s) (st.value c.1) = false := by
      intro c hc
      cases s <;> simp only [point, List.mem_singleton, List.not_mem_nil] at hc
      · subst hc
        have hz := hcomp.1
        rw [setAt_self, setAt_ne _ _ (by decide), isZero_iff hval,
          isZero_iff (h.valid .maxQueueSize)] at hz
        simp only
        cases h1 : v'.pyEq (.int 0)
        · rfl
        · rw [hz h1]; rfl
      · subst hc
        have hz := hcomp.1
        rw [setAt_self, setAt_ne _ _ (by decide), isZero_iff hval,
          isZero_iff (h.valid .poolSize)] at hz
        simp only
        cases h1 : (st.value .poolSize).pyEq (.int 0)
        · simp
        · rw [hz h1]; rfl
      · subst hc
        have hz := hcomp.2
        rw [setAt_self, setAt_ne _ _ (by decide)] at hz
        obtain ⟨b, rfl⟩ := hval
        obtain ⟨b', hb'⟩ := h.valid .loggingOff
        cases b
        · have := hz rfl
          simp [this, SVal.pyEq, SVal.int?, boolInt]
        · simp [SVal.pyEq, SVal.int?, boolInt]
      · subst hc
        have hz := hcomp.2
        rw [setAt_self, setAt_ne _ _ (by decide)] at hz
        obtain ⟨b, rfl⟩ := hval
        obtain ⟨b', hb'⟩ := h.valid .integrationWithLogging
        cases b'
        · have := hz hb'
          cases this
          simp [SVal.pyEq, SVal.int?, boolInt]
        · simp [hb', SVal.pyEq, SVal.int?, boolInt]
    have hch : (st.changed s && (point isId debug s).changeOnce) = false := by
      by_cases hs : s = .started
      · subst hs
        rcases hst with h | h
        · rw [h.2]; rfl
        · rw [(hstart rfl).2] at h; cases h.1
      · have : (point isId debug s).changeOnce = false := by
          cases s <;> first | rfl | exact absurd rfl hs
        rw [this, Bool.and_false]
    have lv : ∀ w, (match w with
            | .str name => (st.levels.number name).map SVal.int
            | x => some x) = some v' → (∃ n : Int, v' = .int n ∧ 0 ≤ n) →
          levelProve w = true ∧ levelConverter st.levels w = .ok v' := by
      intro w hw hn
      obtain ⟨n, rfl, hn⟩ := hn
      cases w with
      | str name =>
        refine ⟨rfl, ?_⟩
        simp only [Levels.number_get] at hw
        simp only [levelConverter]
        cases hg : st.levels.get (.str name) with
        | error e => rw [hg] at hw; cases hw
        | ok m => rw [hg] at hw; cases hw; rfl
      | int m =>
        cases hw
        refine ⟨by simp [levelProve, SVal.isInt, SVal.int?, SVal.geZero, hn], ?_⟩
        simp only [levelConverter, Levels.get]
        rw [if_neg (by omega)]; rfl
      | _ => cases hw
    refine Point.check_eq_ok (point_anytime _ _ _) ?_ ?_ hch hconf
    · cases s <;> simp only [point, List.all_cons, List.all_nil, Bool.and_true, Bool.and_eq_true]
      case level => exact (lv v (by cases v <;> exact hr) hval).1
      case defaultLevel => exact (lv v (by cases v <;> exact hr) hval).1
      case defaultErrorLevel => exact (lv v (by cases v <;> exact hr) hval).1
      case smartAssertPolitic =>
        cases v with
        | str name =>
          refine ⟨rfl, ?_⟩
          simp only [requested] at hr
          split at hr
          · rename_i h; subst h; simp
          · split at hr
            · rename_i h; subst h; simp
            · cases hr
        | _ => cases hr
      case engine => cases hr; rcases hval with ⟨i, rfl⟩ | ⟨b, rfl⟩ <;> rfl
      case started => cases hr; obtain ⟨rfl, _⟩ := hstart rfl; exact ⟨rfl, rfl⟩
      case jsonModule => cases hr; obtain ⟨i, rfl⟩ := hval; exact ⟨rfl, rfl, rfl, rfl, rfl⟩
      case serviceName =>
        cases hr
        rcases hval with rfl | ⟨x, rfl, hx⟩
        · exact ⟨rfl, rfl⟩
        · exact ⟨rfl, hx⟩
      case poolSize =>
        cases hr
        cases v with
        | bool b => cases b <;> exact ⟨rfl, rfl⟩
        | _ => simp_all [SVal.isInt, SVal.int?, SVal.geZero, valid, nonNegativeInteger]
      case maxQueueSize =>
        cases hr
        cases v with
        | bool b => cases b <;> exact ⟨rfl, rfl⟩
        | _ => simp_all [SVal.isInt, SVal.int?, SVal.geZero, valid, nonNegativeInteger]
      case maxDelayBeforeExit =>
        cases hr
        cases v with
        | bool b => cases b <;> exact ⟨rfl, rfl⟩
        | float f => cases f <;> simp_all [SVal.isFloat, SVal.geZero, valid, nonNegativeNumber]
        | _ => simp_all [SVal.isInt, SVal.isFloat, SVal.int?, SVal.geZero, valid, nonNegativeNumber]
      case timeQuant =>
        cases hr
        cases v with
        | bool b => cases b <;> simp_all [valid, positiveNumber, SVal.isInt, SVal.int?, SVal.gtZero, boolInt]
        | float f => cases f <;> simp_all [SVal.isFloat, SVal.gtZero, valid, positiveNumber]
        | _ => simp_all [SVal.isInt, SVal.isFloat, SVal.int?, SVal.gtZero, valid, positiveNumber]
      case delayOnExit =>
        cases hr
        rcases hval with ⟨n, rfl, hn⟩ | rfl
        · exact ⟨rfl, by simp [SVal.gtZero, SVal.int?, hn]⟩
        · exact ⟨rfl, rfl⟩
      all_goals
        cases hr
        obtain ⟨b, rfl⟩ := hval
        rfl
    · cases s <;> simp only [point, Point.convert]
      case level => exact (lv v (by cases v <;> exact hr) hval).2
      case defaultLevel => exact (lv v (by cases v <;> exact hr) hval).2
      case defaultErrorLevel => exact (lv v (by cases v <;> exact hr) hval).2
      case smartAssertPolitic =>
        cases v with
        | str name =>
          simp only [requested] at hr
          simp only [politicConverter]
          split at hr
          · cases hr; rename_i h; rw [if_pos h]
          · rename_i h
            split at hr
            · cases hr; rename_i h2; rw [if_neg h, if_pos h2]
            · cases hr
        | _ => cases hr
      all_goals
        cases hr
        rfl

/-! ### Concurrent changes -/

theorem conflicts_share_lock (isId : Str → Bool) (debug : Bool) (s : Setting)
    (c : Setting × (SVal → SVal → SVal → Bool)) (h : c ∈ (point isId debug s).conflicts) :
    lockOf isId debug c.1 = lockOf isId debug s := by
  cases s <;> simp only [point, List.mem_singleton, List.not_mem_nil] at h <;> subst h <;> rfl

/-- The setting a thread holds the lock of. -/
def SetPC.holds : SetPC → Option Setting
  | .idle | .waiting _ _ => none
  | .locked s _ | .checked s _ _ | .stored s _ _ => some s

structure CInv (isId : Str → Bool) (debug : Bool) (c : CState) : Prop where
  ok : c.store.Ok isId
  locks : ∀ t s, (c.pc t).holds = some s → c.holder (lockOf isId debug s) = some t
  pending : ∀ t s old new, c.pc t = .checked s old new →
    valid isId s new ∧ ∀ k ∈ (point isId debug s).conflicts, k.2 new old (c.store.value k.1) = false

theorem CInv_init (isId : Str → Bool) (debug : Bool) : CInv isId debug (CState.init isId debug) :=
  ⟨Store.Ok_init isId debug, (fun _ _ h => nomatch h), (fun _ _ _ _ h => nomatch h)⟩

/-- A thread's move to another place inside the same locked region. -/
theorem CInv.move {isId : Str → Bool} {debug : Bool} {pc : Nat → SetPC} {holder : Setting → Option Nat}
    (h : ∀ t s, (pc t).holds = some s → holder (lockOf isId debug s) = some t) (t : Nat) (p : SetPC)
    (hp : ∀ s, p.holds = some s → (pc t).holds = some s) :
    ∀ t' s, (setAt pc t p t').holds = some s → holder (lockOf isId debug s) = some t' := by
  intro t' s hs
  by_cases ht : t' = t
  · subst ht; rw [setAt_self] at hs; exact h _ _ (hp s hs)
  · rw [setAt_ne _ _ ht] at hs; exact h _ _ hs

/-- A thread's leaving its locked region. -/
theorem CInv.release {isId : Str → Bool} {debug : Bool} {pc : Nat → SetPC}
    {holder : Setting → Option Nat}
    (h : ∀ t s, (pc t).holds = some s → holder (lockOf isId debug s) = some t) (t : Nat) (s0 : Setting)
    (hp : (pc t).holds = some s0) :
    ∀ t' s, (setAt pc t .idle t').holds = some s →
      setAt holder (lockOf isId debug s0) none (lockOf isId debug s) = some t' := by
  intro t' s hs
  by_cases ht : t' = t
  · subst ht; rw [setAt_self] at hs; cases hs
  · rw [setAt_ne _ _ ht] at hs
    have h1 := h _ _ hs
    have h2 := h _ _ hp
    rw [setAt_ne, h1]
    intro he
    rw [he, h2] at h1
    exact ht (Option.some.inj h1).symm

theorem CInv_step {isId : Str → Bool} {debug : Bool} {c c' : CState} (h : CInv isId debug c)
    (hs : CStep isId debug c c') : CInv isId debug c' := by
  have pend : ∀ (t : Nat) (p : SetPC), (∀ s old new, p ≠ .checked s old new) →
      ∀ t' s old new, setAt c.pc t p t' = .checked s old new →
      valid isId s new ∧
        ∀ k ∈ (point isId debug s).conflicts, k.2 new old (c.store.value k.1) = false := by
    intro t p hp t' s old new hpc
    by_cases ht : t' = t
    · subst ht; rw [setAt_self] at hpc; exact absurd hpc (hp s old new)
    · rw [setAt_ne _ _ ht] at hpc; exact h.pending _ _ _ _ hpc
  cases hs with
  | call t s v hpc =>
    refine ⟨h.ok, CInv.move h.locks t _ (fun _ hx => by cases hx), pend t _ (fun _ _ _ => by simp)⟩
  | acquire t s v hpc free =>
    refine ⟨h.ok, ?_, pend t _ (fun _ _ _ => by simp)⟩
    intro t' s' hs'
    dsimp only at hs' ⊢
    by_cases ht : t' = t
    · subst ht; rw [setAt_self] at hs'; cases hs'; rw [setAt_self]
    · rw [setAt_ne _ _ ht] at hs'
      have := h.locks _ _ hs'
      rw [setAt_ne, this]
      intro he
      rw [he, free] at this
      cases this
  | reject t s v hpc e bad =>
    exact ⟨h.ok, CInv.release h.locks t s (by rw [hpc]; rfl), pend t _ (fun _ _ _ => by simp)⟩
  | accept t s v new hpc good =>
    refine ⟨h.ok, CInv.move h.locks t _ (fun _ hx => by rw [hpc]; exact hx), ?_⟩
    intro t' s' old' new' hpc'
    dsimp only at hpc' ⊢
    by_cases ht : t' = t
    · subst ht
      rw [setAt_self] at hpc'
      cases hpc'
      exact ⟨check_valid h.ok.levelsOk s good, (Point.check_ok good).2.2.2⟩
    · rw [setAt_ne _ _ ht] at hpc'
      exact h.pending _ _ _ _ hpc'
  | store t s old new hpc =>
    obtain ⟨hval, hconf⟩ := h.pending t s old new hpc
    refine ⟨⟨h.ok.levels, valid_setAt h.ok.valid hval,
      compatible_set h.ok.valid h.ok.compatible s hval hconf⟩,
      CInv.move h.locks t _ (fun _ hx => by rw [hpc]; exact hx), ?_⟩
    intro t' s' old' new' hpc'
    dsimp only at hpc' ⊢
    by_cases ht : t' = t
    · subst ht; rw [setAt_self] at hpc'; cases hpc'
    · rw [setAt_ne _ _ ht] at hpc'
      obtain ⟨a, b⟩ := h.pending _ _ _ _ hpc'
      refine ⟨a, ?_⟩
      intro k hk
      by_cases hks : k.1 = s
      · exfalso
        have l1 := h.locks t s (by rw [hpc]; rfl)
        have l2 := h.locks t' s' (by rw [hpc']; rfl)
        rw [← conflicts_share_lock isId debug s' k hk, hks, l1] at l2
        exact ht (Option.some.inj l2).symm
      · rw [setAt_ne _ _ hks]; exact b k hk
  | finish t s old new hpc =>
    exact ⟨⟨h.ok.levels, h.ok.valid, h.ok.compatible⟩,
      CInv.release h.locks t s (by rw [hpc]; rfl), pend t _ (fun _ _ _ => by simp)⟩
  | levels lc => exact ⟨Store.Ok_levels h.ok lc, h.locks, h.pending⟩

theorem CInv_reach {isId : Str → Bool} {debug : Bool} {c : CState} (h : CReach isId debug c) :
    CInv isId debug c := by
  induction h with
  | init => exact CInv_init isId debug
  | step _ hs ih => exact CInv_step ih hs

end Polog
