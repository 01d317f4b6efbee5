import Verif.Settings.Lemmas

/-! Theorems about `config.set` (C08 – C11). -/

namespace Polog
open SettingsSpec

theorem Store.after_ok (isId : Str → Bool) (debug : Bool) (history : List SettingsCall) :
    (Store.after isId debug history).Ok isId := Store.Ok_calls history (Store.Ok_init isId debug)

theorem Store.after_startedOk (isId : Str → Bool) (debug : Bool) (history : List SettingsCall) :
    (Store.after isId debug history).StartedOk := Store.StartedOk_calls history (.inl ⟨rfl, rfl⟩)

theorem Store.configSet_append (isId : Str → Bool) (debug : Bool) (xs ys : List SetArg) : ∀ st : Store,
    st.configSet isId debug (xs ++ ys) =
      match st.configSet isId debug xs with
      | (st', none) => st'.configSet isId debug ys
      | (st', some e) => (st', some e) := by
  induction xs with
  | nil => intro st; rfl
  | cons x xs ih =>
    intro st
    obtain ⟨s, v⟩ := x
    cases s with
    | none => rfl
    | some s =>
      simp only [List.cons_append, Store.configSet]
      rcases hset : st.set isId debug s v with ⟨st', e⟩
      cases e with
      | some e => rfl
      | none => exact ih st'

theorem Store.configSet_single (isId : Str → Bool) (debug : Bool) (st : Store) (s : Setting) (v : SVal) :
    st.configSet isId debug [(some s, v)] = st.set isId debug s v := by
  simp only [Store.configSet]
  split <;> rename_i h <;> exact h.symm

/-- **C08.** When `config.set(name=value)` raises, nothing changed: no value, no flag, no side effect
(the journal of executed callbacks). -/
theorem C08_rejected_change_has_no_effect (isId : Str → Bool) (debug : Bool) (history : List SettingsCall)
    (arg : SetArg) (e : PyErr)
    (h : ((Store.after isId debug history).configSet isId debug [arg]).2 = some e) :
    ((Store.after isId debug history).configSet isId debug [arg]).1 = Store.after isId debug history := by
  obtain ⟨s, v⟩ := arg
  cases s with
  | none => rfl
  | some s =>
    rw [Store.configSet_single] at h ⊢
    revert h
    unfold Store.set
    dsimp only
    split
    · intro _; rfl
    · intro h; cases h

example : ((Store.after (fun _ => true) true []).configSet (fun _ => true) true
    [(some .maxQueueSize, .int 5)]).2 = some .valueError := by decide +kernel

/-- **C08.** `config.set(name=value)` is accepted exactly when the documented rules say so, and then
exactly that setting takes exactly the requested value. -/
theorem C08_accepted_iff_acceptable (isId : Str → Bool) (debug : Bool) (history : List SettingsCall)
    (s : Setting) (v : SVal) :
    let st := Store.after isId debug history
    let r := st.configSet isId debug [(some s, v)]
    (r.2 = none ↔ ∃ v', requested st.levels.number s v = some v' ∧ acceptable isId st.value s v') ∧
    (r.2 = none → ∀ v', requested st.levels.number s v = some v' →
      r.1.value s = v' ∧ ∀ x, x ≠ s → r.1.value x = st.value x) := by
  have key := check_requested (debug := debug) (Store.after_ok isId debug history)
    (Store.after_startedOk isId debug history) s v
  generalize Store.after isId debug history = st at key ⊢
  dsimp only
  rw [Store.configSet_single]
  unfold Store.set
  dsimp only
  cases hc : (point isId debug s).check st.levels st.value (st.changed s) (st.value s) v with
  | error e =>
    refine ⟨⟨(fun h => nomatch h), ?_⟩, (fun h => nomatch h)⟩
    rintro ⟨v', h1, h2⟩
    rw [(key v').2 ⟨h1, h2⟩] at hc
    cases hc
  | ok v' =>
    have hk := (key v').1 hc
    refine ⟨⟨fun _ => ⟨v', hk⟩, fun _ => rfl⟩, ?_⟩
    intro _ v'' hv''
    rw [hk.1] at hv''
    cases hv''
    exact ⟨setAt_self _ _ _, fun x hx => setAt_ne _ _ hx⟩

theorem level_complaint {value : Setting → SVal} {l : Levels} {s : Setting} {v : SVal} {e : PyErr}
    (hs : s ∈ [.level, .defaultLevel, .defaultErrorLevel])
    (h : (if (!levelProve v) = true then (.error .valueError : Except PyErr SVal)
      else match levelConverter l v with
        | .error e => .error e
        | .ok v' => .ok v') = .error e) : Complaint value l.number s v e := by
  have hne : ¬ (s = .started ∧ value .started = .bool true) := by rintro ⟨rfl, -⟩; simp at hs
  cases v with
  | str name =>
    rw [if_neg (by simp [levelProve, SVal.isStr])] at h
    have hg : l.get (.str name) = .error .keyError ∨ ∃ n, l.get (.str name) = .ok n := by
      simp only [Levels.get]
      cases Dict.get? name l.byName <;> simp
    rcases hg with hg | ⟨n, hg⟩
    · simp only [levelConverter, hg, Except.map, Except.error.injEq] at h
      subst h
      exact .level hs (.inl ⟨name, rfl, by simp [Levels.number_get, hg]⟩)
    · simp [levelConverter, hg, Except.map] at h
  | bool b =>
    rw [if_neg (by cases b <;> decide)] at h
    simp only [levelConverter, Levels.get, Except.map, Except.error.injEq] at h
    subst h
    exact .level hs (.inr ⟨b, rfl⟩)
  | int n =>
    split at h
    · cases h
      exact .value hne (by simp)
    · rename_i hp
      have hn : ¬ n < 0 := by
        simp [levelProve, SVal.isInt, SVal.int?, SVal.isStr, SVal.geZero] at hp
        omega
      simp [levelConverter, Levels.get, hn, Except.map] at h
  | _ =>
    rw [if_pos (by simp [levelProve, SVal.isInt, SVal.int?, SVal.isStr])] at h
    cases h
    exact .value hne (by simp)

/-- **C08**: and the exception says what was wrong. -/
theorem C08_kind_of_rejection (isId : Str → Bool) (debug : Bool) (history : List SettingsCall) (s : Setting) (v : SVal)
    (e : PyErr) :
    let st := Store.after isId debug history
    (st.configSet isId debug [(some s, v)]).2 = some e → Complaint st.value st.levels.number s v e := by
  have hst := Store.after_startedOk isId debug history
  dsimp only
  generalize Store.after isId debug history = st at hst ⊢
  rw [Store.configSet_single]
  unfold Store.set
  dsimp only
  cases hc : (point isId debug s).check st.levels st.value (st.changed s) (st.value s) v with
  | ok v' => intro h; cases h
  | error e' =>
    intro h
    cases h
    have plain : ∀ (p : Prop) [Decidable p] (q : Bool) (w : SVal), s ≠ .started →
        s ∉ [.level, .defaultLevel, .defaultErrorLevel] →
        (if p then (.error .valueError : Except PyErr SVal) else if q = true then .error .valueError else .ok w) = .error e →
        Complaint st.value st.levels.number s v e := by
      intro p _ q w h1 h2 h
      have he : e = .valueError := by
        split at h
        · cases h; rfl
        · split at h
          · cases h; rfl
          · cases h
      subst he
      exact .value (fun hh => h1 hh.1) (fun hh => h2 hh.1)
    cases s
    case started =>
      rcases hst with ⟨h1, h2⟩ | ⟨h1, h2⟩
      · simp only [Point.check, point, h2, Bool.false_and, Bool.false_eq_true, if_false, Point.convert, List.any_nil] at hc
        split at hc
        · cases hc
          refine .value (by simp [h1]) (by simp)
        · cases hc
      · simp only [Point.check, point, h2, Bool.true_and, if_true] at hc
        cases hc
        exact .again rfl h1
    case level | defaultLevel | defaultErrorLevel =>
      refine level_complaint (by simp) ?_
      simp only [Point.check, point, Point.convert, Bool.and_false, Bool.false_and, Bool.false_eq_true, if_false, List.any_nil, List.all_cons, List.all_nil,
        Bool.and_true] at hc
      exact hc
    case smartAssertPolitic =>
      simp only [Point.check, point, Point.convert, Bool.and_false, Bool.false_and, Bool.false_eq_true, if_false,
        List.any_nil] at hc
      split at hc
      · cases hc; exact .value (by simp) (by simp)
      · obtain ⟨w, hw⟩ : ∃ w, politicConverter v = .ok w := by cases v <;> exact ⟨_, rfl⟩
        rw [hw] at hc
        cases hc
    all_goals
      simp only [Point.check, point, Point.convert, Bool.and_false, Bool.false_and, Bool.false_eq_true, if_false] at hc
      exact plain _ _ _ (by decide) (by decide) hc

example : ((Store.after (fun _ => true) true [.set [(some .started, .bool true)]]).configSet (fun _ => true) true
    [(some .started, .bool true)]).2 = some .doubleSetting := by decide +kernel

example : ((Store.after (fun _ => true) true []).configSet (fun _ => true) true
    [(some .level, .str "loud".toList)]).2 = some .keyError := by decide +kernel

/-- **C08.** An unknown setting name is rejected wherever it stands among the arguments of `config.set`:
the arguments before it have been applied as by a call of their own, those after it have not. -/
theorem C08_unknown_name_rejected (isId : Str → Bool) (debug : Bool) (st : Store) (before after : List SetArg)
    (v : SVal) (h : (st.configSet isId debug before).2 = none) :
    st.configSet isId debug (before ++ (none, v) :: after) =
      ((st.configSet isId debug before).1, some .keyError) := by
  rw [Store.configSet_append]
  generalize st.configSet isId debug before = r at h ⊢
  obtain ⟨st', e⟩ := r
  dsimp only at h
  subst h
  rfl

/-- **C09.** Every setting satisfies its documented constraint after every history of calls, whether
they were accepted or rejected. -/
theorem C09_settings_always_valid (isId : Str → Bool) (debug : Bool) (history : List SettingsCall)
    (s : Setting) : valid isId s ((Store.after isId debug history).value s) :=
  (Store.after_ok isId debug history).valid s

/-- **C09.** The same under every interleaving of concurrent calls. -/
theorem C09_settings_always_valid_concurrent (isId : Str → Bool) (debug : Bool) (c : CState)
    (h : CReach isId debug c) (s : Setting) : valid isId s (c.store.value s) :=
  (CInv_reach h).ok.valid s

/-- Calls that do not name a setting leave it alone. -/
theorem Store.configSet_other (isId : Str → Bool) (debug : Bool) (s : Setting) (kwargs : List SetArg)
    (h : ∀ x ∈ kwargs, x.1 ≠ some s) : ∀ st : Store, (st.configSet isId debug kwargs).1.value s = st.value s := by
  induction kwargs with
  | nil => intro st; rfl
  | cons x xs ih =>
    intro st
    obtain ⟨s', v⟩ := x
    cases s' with
    | none => rfl
    | some s' =>
      have hne : s ≠ s' := fun he => h (some s', v) List.mem_cons_self (by rw [he])
      have hv : (st.set isId debug s' v).1.value s = st.value s := by
        unfold Store.set
        dsimp only
        split
        · rfl
        · exact if_neg hne
      simp only [Store.configSet]
      revert hv
      cases st.set isId debug s' v with
      | mk st' e =>
        intro hv
        cases e with
        | some e => exact hv
        | none => exact (ih (fun y hy => h y (List.mem_cons_of_mem _ hy)) st').trans hv

/-- **C09.** A setting that no call has named has its documented default value, whatever else was set. -/
theorem C09_defaults (isId : Str → Bool) (debug : Bool) (history : List SettingsCall) (s : Setting)
    (h : NeverNamed s history) : (Store.after isId debug history).value s = documentedDefault debug s := by
  have key : ∀ (history : List SettingsCall) (st : Store), NeverNamed s history →
      (st.calls isId debug history).value s = st.value s := by
    intro history
    induction history with
    | nil => intro st _; rfl
    | cons c cs ih =>
      intro st hn
      refine (ih _ fun kw hk => hn kw (List.mem_cons_of_mem _ hk)).trans ?_
      cases c with
      | levels => rfl
      | set kwargs => exact Store.configSet_other isId debug s kwargs (hn kwargs List.mem_cons_self) st
  refine (key history _ h).trans ?_
  cases s <;> rfl

example : NeverNamed .tracebackCutting [.set [(some .poolSize, .int 2)], .levels .standardLevels,
    .set [(none, .int 2), (some .level, .int 5)]] := by
  intro kwargs hk x hx
  simp only [List.mem_cons, reduceCtorEq, List.not_mem_nil, or_false, SettingsCall.set.injEq, false_or] at hk
  rcases hk with rfl | rfl
  · simp only [List.mem_cons, List.not_mem_nil, or_false] at hx
    subst hx; simp
  · simp only [List.mem_cons, List.not_mem_nil, or_false] at hx
    rcases hx with rfl | rfl <;> simp

example : (Store.after (fun _ => true) true
    [.levels .standardLevels, .set [(some .level, .str "info".toList), (some .poolSize, .int 2)],
     .set [(some .maxQueueSize, .int 7), (some .timeQuant, .int 0)]]).value .level = .int 20 := by
  decide +kernel

/-- **C10.** The impossible combinations never occur, after any history. -/
theorem C10_no_impossible_combination (isId : Str → Bool) (debug : Bool) (history : List SettingsCall) :
    compatible (Store.after isId debug history).value :=
  (Store.after_ok isId debug history).compatible

/-- **C10.** And they never occur under any interleaving of any number of threads calling
`config.set`. -/
theorem C10_no_impossible_combination_concurrent (isId : Str → Bool) (debug : Bool) (c : CState)
    (h : CReach isId debug c) : compatible c.store.value :=
  (CInv_reach h).ok.compatible

/-- Two threads at once: one has passed its checks of `pool_size=2`, the other one waits. -/
example : ∃ c, CReach (fun _ => true) true c ∧ c.pc 0 = .checked .poolSize (.int 0) (.int 2) ∧
    c.pc 1 = .waiting .maxQueueSize (.int 5) := by
  refine ⟨_, .step (.step (.step (.step .init (.call _ 0 .poolSize (.int 2) rfl))
    (.acquire _ 0 .poolSize (.int 2) rfl rfl)) (.accept _ 0 .poolSize (.int 2) (.int 2) rfl rfl))
    (.call _ 1 .maxQueueSize (.int 5) rfl), rfl, rfl⟩

/-- **C11.** `config.set(a=…, b=…, …)` behaves as the consecutive single calls: either all of them
succeed, one after another, or there is a first rejected one; then everything before it is applied,
that exception is raised, and nothing else is. -/
theorem C11_items_applied_in_order (isId : Str → Bool) (debug : Bool) (st : Store)
    (kwargs : List SetArg) :
    match st.configSet isId debug kwargs with
    | (st', some e) => ∃ before arg rest, kwargs = before ++ arg :: rest ∧
        st.configSet isId debug before = (st', none) ∧
        st'.configSet isId debug [arg] = (st', some e)
    | (st', none) => ∀ before arg rest, kwargs = before ++ arg :: rest →
        ∃ a b, st.configSet isId debug before = (a, none) ∧ a.configSet isId debug [arg] = (b, none) ∧
          b.configSet isId debug rest = (st', none) := by
  split
  · rename_i st' e heq
    induction kwargs generalizing st with
    | nil => cases heq
    | cons x xs ih =>
      obtain ⟨s, v⟩ := x
      cases s with
      | none => cases heq; exact ⟨[], _, xs, rfl, rfl, rfl⟩
      | some s =>
        simp only [Store.configSet] at heq
        rcases hset : st.set isId debug s v with ⟨st1, e1⟩
        rw [hset] at heq
        cases e1 with
        | some e1 =>
          cases heq
          have : st' = st := by
            revert hset
            unfold Store.set
            dsimp only
            split
            · intro h; cases h; rfl
            · intro h; cases h
          subst this
          exact ⟨[], (some s, v), xs, rfl, rfl, by rw [Store.configSet_single, hset]⟩
        | none =>
          obtain ⟨before, arg, rest, h1, h2, h3⟩ := ih st1 heq
          refine ⟨(some s, v) :: before, arg, rest, by rw [h1]; rfl, ?_, h3⟩
          simp only [Store.configSet, hset, h2]
  · rename_i st' heq
    intro before arg rest hk
    subst hk
    have hsplit : before ++ arg :: rest = before ++ ([arg] ++ rest) := rfl
    rw [hsplit, Store.configSet_append] at heq
    rcases h1 : st.configSet isId debug before with ⟨a, e1⟩
    rw [h1] at heq
    cases e1 with
    | some e1 => cases heq
    | none =>
      dsimp only at heq
      rw [Store.configSet_append] at heq
      rcases h2 : a.configSet isId debug [arg] with ⟨b, e2⟩
      rw [h2] at heq
      cases e2 with
      | some e2 => cases heq
      | none => exact ⟨a, b, rfl, h2, heq⟩

theorem pyEq_iff_same (a b : SVal) : a.pyEq b = true ↔ Same a b := by
  have hi : ∀ v : SVal, v.int? = integer v := by
    intro v; cases v <;> first | rfl | (rename_i b; cases b <;> rfl)
  unfold SVal.pyEq Same
  rw [hi, hi]
  cases ha : integer a with
  | none => simp
  | some x =>
    cases hb : integer b with
    | none => simp only [beq_iff_eq, reduceCtorEq, false_and, or_false]
    | some y =>
      simp only [beq_iff_eq, Option.some.injEq, ne_eq, reduceCtorEq, not_false_eq_true, and_true]
      constructor
      · exact .inr
      · rintro (rfl | h)
        · rw [ha] at hb; exact Option.some.inj hb
        · exact h

/-- **C11.** A single change reloads the engine exactly once if it is accepted, concerns `pool_size`
or `max_queue_size` and really changes the value; otherwise it does not. -/
theorem C11_reload_exactly_once_per_change (isId : Str → Bool) (debug : Bool) (st : Store) (s : Setting)
    (v : SVal) :
    let r := st.configSet isId debug [(some s, v)]
    r.1.reloadCount = st.reloadCount +
      (match r.2 with | none => reloads s (st.value s) (r.1.value s) | some _ => 0) := by
  dsimp only
  rw [Store.configSet_single]
  unfold Store.set
  dsimp only
  split
  · rfl
  · rename_i v' _
    dsimp only
    rw [setAt_self]
    simp only [Store.reloadCount, List.filter_append, List.length_append, Nat.add_left_cancel_iff]
    simp only [Point.journalEntry, reloads]
    cases s <;> simp only [point] <;> first
      | rfl
      | (cases hp : (st.value _).pyEq v' <;> simp [← pyEq_iff_same, hp])

/-- The order of the arguments matters: `config.set(pool_size=2, max_queue_size=5)` succeeds with two
reloads, `config.set(max_queue_size=5, pool_size=2)` raises and changes nothing. -/
theorem C11_order_matters :
    let st := Store.init (fun _ => true) true
    (st.configSet (fun _ => true) true [(some .poolSize, .int 2), (some .maxQueueSize, .int 5)]).2 = none ∧
    (st.configSet (fun _ => true) true
      [(some .poolSize, .int 2), (some .maxQueueSize, .int 5)]).1.reloadCount = 2 ∧
    (st.configSet (fun _ => true) true
      [(some .maxQueueSize, .int 5), (some .poolSize, .int 2)]).2 = some .valueError ∧
    (st.configSet (fun _ => true) true
      [(some .maxQueueSize, .int 5), (some .poolSize, .int 2)]).1.value .poolSize = .int 0 := by
  decide +kernel

end Polog
