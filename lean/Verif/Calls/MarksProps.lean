import Verif.Calls.MarksSpec
import Verif.Calls.Props

/-! C108: exceptions of unusual classes. -/

namespace Polog
open CallSpec MarksSpec

/-! ### Ordinary exceptions -/

theorem logExceptionK_ordinary {kinds : Nat → AttrKind} {e : Exc} (h : Ordinary kinds e) (env : CEnv) (d : Deco) (info : FnInfo)
    (s : CallState) : logExceptionK kinds env d info e s = logException env d info e s := by
  have hk : kindOf kinds e.id = .ordinary := by
    cases he : e.id with
    | user n => exact h n he
    | internal n => rfl
  unfold logExceptionK logException
  rw [hk]
  by_cases hu : unlogStatus env s = true
  · rw [if_pos hu, if_pos hu]
  · rw [if_neg hu, if_neg hu, if_neg (fun e => nomatch e)]
    by_cases hc : e.id ∉ s.marked ∨ env.dedup = false
    · rw [if_pos hc, if_pos (hc.imp_left fun h => ⟨(fun e => nomatch e), h⟩)]
      rfl
    · rw [if_neg hc, if_neg (fun h => hc (h.imp_left And.right))]

theorem loggedEndK_ordinary {kinds : Nat → AttrKind} {o : Outcome} (h : Brings (Ordinary kinds) o) (env : CEnv) (d : Deco)
    (info : FnInfo) (s : CallState) : loggedEndK kinds env d info o s = loggedEnd env d info o s := by
  cases o with
  | ret v => rfl
  | raised e =>
    unfold loggedEndK loggedEnd
    dsimp only
    rw [logExceptionK_ordinary h]
    rfl

theorem internal_ordinary (kinds : Nat → AttrKind) (n : Nat) : Ordinary kinds (internalExc n) := fun _ h => nomatch h

theorem loggedEnd_brings {kinds : Nat → AttrKind} {o : Outcome} (h : Brings (Ordinary kinds) o) (env : CEnv) (d : Deco)
    (info : FnInfo) (s : CallState) : Brings (Ordinary kinds) (loggedEnd env d info o s).1 := by
  cases o with
  | ret v =>
    unfold loggedEnd; dsimp only
    have : ∀ e, (logNormal env d info v s).1 = some e → ∃ n, e = internalExc n := by
      intro e
      unfold logNormal
      dsimp only
      intro he
      split at he
      · cases he
      · split at he
        · cases he; exact ⟨_, rfl⟩
        · split at he
          · split at he
            · cases he; exact ⟨_, rfl⟩
            · split at he
              · cases he; exact ⟨_, rfl⟩
              · cases he
          · cases he
    split
    · trivial
    · rename_i e s' hr
      obtain ⟨n, rfl⟩ := this e (by rw [hr])
      exact internal_ordinary kinds n
  | raised e =>
    unfold loggedEnd; dsimp only
    have : ∀ e', (logException env d info e s).1 = some e' → ∃ n, e' = internalExc n := by
      intro e'
      unfold logException
      dsimp only
      intro he
      split at he
      · cases he
      · split at he
        · split at he
          · split at he
            · cases he
            · cases he; exact ⟨_, rfl⟩
          · cases he
        · cases he
    split
    · split
      · rename_i e' s' hr
        obtain ⟨n, rfl⟩ := this e' (by rw [hr])
        exact internal_ordinary kinds n
      · split
        · trivial
        · split
          · trivial
          · exact h
    · exact h

theorem blockEnd_brings {kinds : Nat → AttrKind} {out : Outcome} (h : Brings (Ordinary kinds) out) (env : CEnv) (o : BlockOpts)
    (s : CallState) : Brings (Ordinary kinds) (blockEnd env o out s).1 := by
  unfold blockEnd
  dsimp only
  split
  · split
    · exact internal_ordinary kinds _
    · cases out with
      | ret v => trivial
      | raised e => dsimp only; split; exacts [trivial, h]
  · exact internal_ordinary kinds _

theorem runK_ordinary (kinds : Nat → AttrKind) (env : CEnv) : ∀ (b : Body) (s : CallState), RaisesOnly (Ordinary kinds) b →
    b.runK kinds env s = b.run env s ∧ Brings (Ordinary kinds) (b.run env s).1 := by
  intro b
  induction b with
  | ret v => intro s _; exact ⟨rfl, trivial⟩
  | raise e => intro s h; exact ⟨rfl, h⟩
  | call kind b k ihb ihk =>
    intro s h
    cases kind with
    | plain =>
      obtain ⟨h1, h2⟩ := ihb s h.1
      simp only [Body.runK, Body.run, h1]
      exact ihk _ _ (h.2 _ h2)
    | logged d info =>
      obtain ⟨h1, h2⟩ := ihb { s with msg := none } h.1
      simp only [Body.runK, Body.run, h1, loggedEndK_ordinary h2]
      exact ihk _ _ (h.2 _ (loggedEnd_brings h2 ..))
    | unlogged full =>
      obtain ⟨h1, h2⟩ := ihb { s with unlog := some full } h.1
      simp only [Body.runK, Body.run, h1]
      exact ihk _ _ (h.2 _ h2)
  | block o b k ihb ihk =>
    intro s h
    obtain ⟨h1, h2⟩ := ihb s h.1
    simp only [Body.runK, Body.run, h1]
    exact ihk _ _ (h.2 _ (blockEnd_brings h2 ..))
  | msg args kwargs k ihk =>
    intro s h
    simp only [Body.runK, Body.run]
    cases messageCall env.h args kwargs with
    | error e => exact ihk _ _ (h _)
    | ok m => cases m <;> exact ihk _ _ (h _)
  | manual args kwargs k ihk =>
    intro s h
    simp only [Body.runK, Body.run]
    exact ihk _ _ (h _)

/-- **C108.** Classes of exceptions that the code does not raise do not matter: code that raises ordinary exceptions runs as
described by C24–C31, whatever other classes there are. -/
theorem C108_ordinary_exceptions_as_described (kinds : Nat → AttrKind) (env : CEnv) (b : Body) (s : CallState)
    (h : RaisesOnly (Ordinary kinds) b) : b.runK kinds env s = b.run env s :=
  (runK_ordinary kinds env b s h).1

/-! ### Exceptions that raise nothing themselves pass unchanged -/

theorem recordException_fine (env : CEnv) (d : Deco) {info : FnInfo} {e : Exc} (s : CallState) (hi : info.inputs.isSome = true)
    (hp : e.text.isSome = true) : (recordException env d info e s).1 = none := by
  obtain ⟨inputs, hi⟩ := Option.isSome_iff_exists.1 hi
  obtain ⟨t, ht⟩ := Option.isSome_iff_exists.1 hp
  unfold recordException
  dsimp only
  split
  · rw [ht, hi]
  · rfl

theorem kindOf_harmless {kinds : Nat → AttrKind} (h : Harmless kinds) (x : ExcId) :
    (kindOf kinds x).look ≠ .raises ∧ (kindOf kinds x).mark ≠ .refuses := by
  cases x with
  | user n => exact h n
  | internal n => exact ⟨(fun e => nomatch e), (fun e => nomatch e)⟩

theorem logExceptionK_fine {kinds : Nat → AttrKind} (hh : Harmless kinds) (env : CEnv) (d : Deco) {info : FnInfo} {e : Exc}
    (s : CallState) (hi : info.inputs.isSome = true) (hp : e.text.isSome = true) :
    (logExceptionK kinds env d info e s).1 = none := by
  obtain ⟨h1, h2⟩ := kindOf_harmless hh e.id
  unfold logExceptionK
  rw [if_neg h1]
  split
  · rfl
  · split
    · split
      · rename_i hm; exact absurd hm h2
      · exact recordException_fine env d s hi hp
      · exact recordException_fine env d _ hi hp
    · rfl

theorem loggedEndK_outcome {kinds : Nat → AttrKind} (hh : Harmless kinds) {env : CEnv} {d : Deco} {info : FnInfo} {o : Outcome}
    (s : CallState) (hl : GoodLevel env d.level) (hi : info.inputs.isSome = true) (hp : Printable o) :
    (loggedEndK kinds env d info o s).1 = decoOutcome env d o := by
  cases o with
  | ret v => exact loggedEnd_outcome (o := .ret v) s hl hi hp
  | raised e =>
    have := logExceptionK_fine hh env d s hi (show e.text.isSome = true from hp)
    unfold loggedEndK decoOutcome
    dsimp only
    generalize logExceptionK kinds env d info e s = r at this
    obtain ⟨r1, r2⟩ := r
    dsimp only at this
    subst this
    dsimp only
    by_cases h : DecoSwallows env d e
    · rw [if_pos h, if_pos h.1]
      by_cases ha : d.suppressAll = true
      · rw [if_pos ha]
      · have hc := h.2.resolve_left ha
        rw [if_neg ha, if_pos ((excSuppressed_iff env _ e).2 hc)]
    · rw [if_neg h]
      by_cases hx : e.isException = true
      · rw [if_pos hx, if_neg (fun ha => h ⟨hx, .inl ha⟩),
          if_neg (fun hc => h ⟨hx, .inr ((excSuppressed_iff env _ e).1 hc)⟩)]
      · rw [if_neg hx]

theorem messageRaises_eqK {kinds : Nat → AttrKind} {env : CEnv} {args : List HVal} {kwargs : Dict Str HVal}
    (k : Option PyErr → Body) (s : CallState) :
    (Body.msg args kwargs k).runK kinds env s = (k (messageRaises env args kwargs)).runK kinds env
      { s with msg := (messageFields env args kwargs).or s.msg } := by
  simp only [Body.runK, messageRaises, messageFields]
  split <;> simp_all

theorem runK_outcome {kinds : Nat → AttrKind} (hh : Harmless kinds) (env : CEnv) : ∀ (b : Body) (s : CallState), Valid env b →
    (b.runK kinds env s).1 = outcomeOf env b := by
  intro b
  induction b with
  | ret v => intro s _; rfl
  | raise e => intro s _; rfl
  | call kind b k ihb ihk =>
    intro s hv
    cases kind with
    | plain =>
      have h1 := ihb s hv.1
      simp only [Body.runK, outcomeOf, h1]
      exact ihk _ _ hv.2
    | logged d info =>
      obtain ⟨hb, hl, hi, hp, hk⟩ := hv
      have h1 := ihb { s with msg := none } hb
      simp only [Body.runK, outcomeOf, h1, loggedEndK_outcome hh _ hl hi hp]
      exact ihk _ _ hk
    | unlogged full =>
      have h1 := ihb { s with unlog := some full } hv.1
      simp only [Body.runK, outcomeOf, h1]
      exact ihk _ _ hv.2
  | block o b k ihb ihk =>
    intro s hv
    obtain ⟨hb, hp, hr, hk⟩ := hv
    have h1 := ihb s hb
    simp only [Body.runK, outcomeOf, h1, blockEnd_outcome _ hp hr]
    exact ihk _ _ hk
  | msg args kwargs k ihk => intro s hv; rw [messageRaises_eqK]; exact ihk _ _ hv
  | manual args kwargs k ihk =>
    intro s hv
    simp only [Body.runK, outcomeOf, handleLog, baseCall_raised]
    exact ihk _ _ hv

/-- **C108, partly.** If no exception raises something itself when it is asked for an attribute or an attribute of it is set,
code behaves as without logging, whatever the classes of the exceptions. -/
theorem C108_decorators_are_transparent_partial (kinds : Nat → AttrKind) (hh : Harmless kinds) (env : CEnv) (b : Body)
    (s : CallState) (h : Valid env b) : (b.runK kinds env s).1 = outcomeOf env b :=
  runK_outcome hh env b s h

/-! ### How often an exception is recorded -/

/-- What holds of the records of exception `x` at all times: `never`: there is none; otherwise at most one, and then the
exception is marked. -/
def MarkInv (never : Bool) (x : ExcId) (s : CallState) : Prop :=
  timesRecorded x s = 0 ∨ (never = false ∧ timesRecorded x s = 1 ∧ x ∈ s.marked)

theorem MarkInv.of {never : Bool} {x : ExcId} {s s' : CallState} {rs : List Rec} (h : MarkInv never x s)
    (hr : s'.records = s.records ++ rs) (hm : ∀ y ∈ s.marked, y ∈ s'.marked) (ho : ∀ r ∈ rs, recordsExc x r = false) :
    MarkInv never x s' := by
  have h0 : rs.filter (recordsExc x) = [] := by
    rw [List.filter_eq_nil_iff]; intro r hr'; rw [ho r hr']; simp
  have : timesRecorded x s' = timesRecorded x s := by simp [timesRecorded, hr, List.filter_append, h0]
  rcases h with h | ⟨h1, h2, h3⟩
  · exact .inl (this.trans h)
  · exact .inr ⟨h1, this.trans h2, hm _ h3⟩

theorem MarkInv.same {never : Bool} {x : ExcId} {s s' : CallState} (h : MarkInv never x s) (hr : s'.records = s.records)
    (hm : s'.marked = s.marked) : MarkInv never x s' :=
  h.of (rs := []) (by rw [hr, List.append_nil]) (by rw [hm]; exact fun _ h => h) (fun _ h => nomatch h)

theorem recordException_rec (env : CEnv) (d : Deco) (info : FnInfo) (e : Exc) (s : CallState) :
    (recordException env d info e s).2.marked = s.marked ∧
    ((recordException env d info e s).2.records = s.records ∨
      ∃ data, (recordException env d info e s).2.records = s.records ++ [⟨.auto info (.raised e), data⟩]) := by
  unfold recordException
  dsimp only
  split
  · split
    · exact ⟨rfl, .inr ⟨_, rfl⟩⟩
    · exact ⟨rfl, .inl rfl⟩
  · exact ⟨rfl, .inl rfl⟩

theorem logExceptionK_inv {kinds : Nat → AttrKind} {env : CEnv} (hd : env.dedup = true) {never : Bool} {x : ExcId}
    (hx : never = false → (kindOf kinds x).mark ≠ .forgets) (hn : never = true → (kindOf kinds x).look = .answers)
    (d : Deco) (info : FnInfo) (e : Exc) {s : CallState} (h : MarkInv never x s) :
    MarkInv never x (logExceptionK kinds env d info e s).2 := by
  unfold logExceptionK
  split
  · exact h
  · split
    · exact h.same rfl rfl
    · split
      · rename_i hc
        have hc := hc.resolve_right (by rw [hd]; exact fun e => nomatch e)
        by_cases hxe : e.id = x
        · subst hxe
          have h0 : timesRecorded e.id s = 0 := by
            rcases h with h | ⟨_, _, h3⟩
            · exact h
            · exact absurd h3 hc.2
          have hnv : never = false := by
            cases never with
            | false => rfl
            | true => exact absurd (hn rfl) hc.1
          split
          · exact h.same rfl rfl
          · rename_i hm; exact absurd hm (hx hnv)
          · obtain ⟨h1, h2⟩ := recordException_rec env d info e { s with marked := e.id :: s.marked }
            rcases h2 with h2 | ⟨data, h2⟩
            · refine .inl ?_
              simp only [timesRecorded, h2]
              exact h0
            · refine .inr ⟨hnv, ?_, by rw [h1]; exact List.mem_cons_self⟩
              simp only [timesRecorded, h2, List.filter_append, List.length_append]
              have : (s.records.filter (recordsExc e.id)).length = 0 := h0
              rw [this]
              simp [recordsExc]
        · have key : ∀ s2 : CallState, s2.records = s.records → (∀ y ∈ s.marked, y ∈ s2.marked) →
              MarkInv never x (recordException env d info e s2).2 := by
            intro s2 hr hmk
            obtain ⟨h1, h2⟩ := recordException_rec env d info e s2
            rcases h2 with h2 | ⟨data, h2⟩
            · exact h.of (rs := []) (by rw [h2, hr, List.append_nil]) (by rw [h1]; exact hmk) (fun _ h => nomatch h)
            · refine h.of (by rw [h2, hr]) (by rw [h1]; exact hmk) ?_
              intro r hr'
              rw [List.mem_singleton] at hr'
              subst hr'
              simp [recordsExc, hxe]
          split
          · exact h.same rfl rfl
          · exact key s rfl (fun _ h => h)
          · exact key _ rfl (fun _ h => List.mem_cons_of_mem _ h)
      · exact h

theorem logNormal_inv {env : CEnv} {never : Bool} {x : ExcId} (d : Deco) (info : FnInfo) (v : Val) {s : CallState}
    (h : MarkInv never x s) : MarkInv never x (logNormal env d info v s).2 := by
  unfold logNormal
  split
  · exact h
  · split
    · exact h.same rfl rfl
    · split
      · split
        · exact h.same rfl rfl
        · dsimp only
          split
          · exact h.same rfl rfl
          · refine h.of rfl (fun _ h => h) ?_
            intro r hr
            rw [List.mem_singleton] at hr
            subst hr
            rfl
      · exact h

theorem loggedEndK_inv {kinds : Nat → AttrKind} {env : CEnv} (hd : env.dedup = true) {never : Bool} {x : ExcId}
    (hx : never = false → (kindOf kinds x).mark ≠ .forgets) (hn : never = true → (kindOf kinds x).look = .answers)
    (d : Deco) (info : FnInfo) (o : Outcome) {s : CallState} (h : MarkInv never x s) :
    MarkInv never x (loggedEndK kinds env d info o s).2 := by
  cases o with
  | ret v =>
    have : (loggedEndK kinds env d info (.ret v) s).2 = (logNormal env d info v s).2 := loggedEnd_ret_snd env d info v s
    rw [this]
    exact logNormal_inv d info v h
  | raised e =>
    have hl := logExceptionK_inv hd hx hn d info e h
    unfold loggedEndK
    dsimp only
    generalize logExceptionK kinds env d info e s = r at hl
    obtain ⟨r1, r2⟩ := r
    split
    · split
      · rename_i heq; cases heq; exact hl
      · rename_i heq; cases heq
        split
        · exact hl
        · split <;> exact hl
    · exact h

theorem runK_inv {kinds : Nat → AttrKind} {env : CEnv} (hd : env.dedup = true) {never : Bool} {x : ExcId}
    (hx : never = false → (kindOf kinds x).mark ≠ .forgets) (hn : never = true → (kindOf kinds x).look = .answers) :
    ∀ (b : Body) (s : CallState), MarkInv never x s → MarkInv never x (b.runK kinds env s).2 := by
  intro b
  induction b with
  | ret v => intro s h; exact h
  | raise e => intro s h; exact h
  | call kind b k ihb ihk =>
    intro s h
    cases kind with
    | plain => simp only [Body.runK]; exact ihk _ _ (ihb _ h)
    | logged d info =>
      simp only [Body.runK]
      exact ihk _ _ (loggedEndK_inv hd hx hn d info _ (ihb _ (h.same rfl rfl)))
    | unlogged full =>
      simp only [Body.runK]
      exact ihk _ _ ((ihb { s with unlog := some full } (h.same rfl rfl)).same rfl rfl)
  | block o b k ihb ihk =>
    intro s h
    simp only [Body.runK]
    refine ihk _ _ ?_
    obtain ⟨n, rs, e, hr, _⟩ := blockEnd_snd env o (b.runK kinds env s).1 (b.runK kinds env s).2
    rw [e]
    refine (ihb s h).of rfl (fun _ h => h) ?_
    intro r hr'
    obtain ⟨data, rfl⟩ := hr r hr'
    rfl
  | msg args kwargs k ihk => intro s h; rw [messageRaises_eqK]; exact ihk _ _ (h.same rfl rfl)
  | manual args kwargs k ihk =>
    intro s h
    simp only [Body.runK]
    refine ihk _ _ (h.of rfl (fun _ h => h) ?_)
    intro r hr
    obtain ⟨data, _, rfl⟩ := List.mem_map.1 hr
    rfl

/-- **C108, partly.** With `deduplicate_errors`, an exception whose class does not ignore the setting of attributes is never
recorded by decorators more than once, whatever the code and whatever the classes of other exceptions. -/
theorem C108_never_recorded_twice_partial (kinds : Nat → AttrKind) (env : CEnv) (hd : env.dedup = true) (b : Body) (n : Nat)
    (h : (kinds n).mark ≠ .forgets) : timesRecorded (.user n) (b.runK kinds env .init).2 ≤ 1 := by
  rcases runK_inv (kinds := kinds) (x := .user n) (never := false) hd (fun _ => h) (fun e => nomatch e) b .init (.inl rfl) with h | h
  · omega
  · omega

/-- **C108.** For a class that answers to every name, e.g. by a `__getattr__` that returns something always: with
`deduplicate_errors` no decorator ever records an exception of it, in any program. -/
theorem C108_answering_exception_is_never_recorded (kinds : Nat → AttrKind) (env : CEnv) (hd : env.dedup = true) (b : Body)
    (n : Nat) (h : (kinds n).look = .answers) : timesRecorded (.user n) (b.runK kinds env .init).2 = 0 := by
  rcases runK_inv (kinds := kinds) (x := .user n) (never := true) hd (fun e => nomatch e) (fun _ => h) b .init (.inl rfl) with h | h
  · exact h
  · cases h.1

/-! ### Exceptions that raise exceptions -/

/-- **C108.** A decorated function that ends with an exception that refuses to be marked, or raises when it is asked for an
attribute, ends with another exception instead, whatever the decorator was told to suppress, and the call is not
recorded. -/
theorem C108_refusing_exception_is_replaced (kinds : Nat → AttrKind) (env : CEnv) (d : Deco) (info : FnInfo) (b : Body)
    (s s1 : CallState) (e : Exc) (n : Nat) (hb : b.runK kinds env { s with msg := none } = (.raised e, s1))
    (he : e.isException = true) (hid : e.id = .user n) (hu : unlogStatus env s1 = false)
    (hk : (kinds n).look = .raises ∨
      (kinds n).mark = .refuses ∧ (env.dedup = false ∨ (kinds n).look = .ordinary ∧ .user n ∉ s1.marked)) :
    ∃ e', e'.id ≠ e.id ∧ ((Body.call (.logged d info) b andReturn).runK kinds env s).1 = .raised e' ∧
      ((Body.call (.logged d info) b andReturn).runK kinds env s).2.records = s1.records := by
  have hl : logExceptionK kinds env d info e s1 = (some (internalExc s1.next), { s1 with next := s1.next + 1 }) := by
    unfold logExceptionK
    rw [if_neg (by rw [hu]; exact fun e => nomatch e), hid]
    show (if (kinds n).look = .raises then _ else _) = _
    rcases hk with hk | ⟨hk, hd⟩
    · rw [if_pos hk]
    · by_cases hr : (kinds n).look = .raises
      · rw [if_pos hr]
      · rw [if_neg hr, if_pos]
        · show (match (kinds n).mark with | .refuses => _ | .forgets => _ | .stores => _) = _
          rw [hk]
        · rcases hd with hd | ⟨h1, h2⟩
          · exact .inr hd
          · refine .inl ⟨?_, h2⟩
            show (kinds n).look ≠ .answers
            rw [h1]; exact fun e => nomatch e
  refine ⟨internalExc s1.next, by rw [hid]; exact (fun e => nomatch e), ?_⟩
  have : (Body.call (.logged d info) b andReturn).runK kinds env s =
      (.raised (internalExc s1.next), { s1 with next := s1.next + 1 }) := by
    simp only [Body.runK, hb]
    unfold loggedEndK
    dsimp only
    rw [if_pos he, hl]
    rfl
  rw [this]
  exact ⟨rfl, rfl⟩

/-- **C108 fails** for classes that refuse to set attributes (`@dataclass(frozen=True)`): a decorated function that raises such
an exception raises another one instead, also with `@log.suppress()`, and nothing is recorded, whatever the settings and the
arguments of the decorator. -/
theorem C108_frozen_exception_fails (kinds : Nat → AttrKind) (env : CEnv) (d : Deco) (info : FnInfo) (e : Exc) (n : Nat)
    (he : e.isException = true) (hid : e.id = .user n) (hk : kinds n = ⟨.ordinary, .refuses⟩) :
    ∃ e', e' ≠ e ∧ ((Body.call (.logged d info) (.raise e) andReturn).runK kinds env .init).1 = .raised e' ∧
      ((Body.call (.logged d info) (.raise e) andReturn).runK kinds env .init).2.records = [] := by
  obtain ⟨e', h1, h2, h3⟩ := C108_refusing_exception_is_replaced kinds env d info (.raise e) .init .init e n rfl he hid rfl
    (.inr ⟨by rw [hk], .inr ⟨by rw [hk], fun h => nomatch h⟩⟩)
  exact ⟨e', fun h => h1 (by rw [h]), h2, h3⟩

/-! ### Exceptions that forget -/

theorem recordException_pass {env : CEnv} {d : Deco} {info : FnInfo} {e : Exc} (s : CallState) (hi : info.inputs.isSome = true)
    (ht : e.text.isSome = true) (hp : Passes env d (.raised e)) :
    ∃ data, recordException env d info e s = (none, { s with msg := none, records := s.records ++ [⟨.auto info (.raised e), data⟩] }) := by
  obtain ⟨inputs, hi⟩ := Option.isSome_iff_exists.1 hi
  obtain ⟨t, ht⟩ := Option.isSome_iff_exists.1 ht
  unfold recordException
  dsimp only
  rw [if_pos ((passes_raised env d e).1 hp), ht, hi]
  exact ⟨_, rfl⟩

theorem chain_runK (kinds : Nat → AttrKind) (env : CEnv) (e : Exc) (n : Nat) (he : e.isException = true) (hid : e.id = .user n)
    (hk : kinds n = ⟨.ordinary, .forgets⟩) (ht : e.text.isSome = true) :
    ∀ (ds : List (Deco × FnInfo)) (b : Body) (R : List Origin),
      (∀ x ∈ ds, x.1.suppressAll = false ∧ x.1.suppressed = [] ∧ x.2.inputs.isSome = true ∧ Passes env x.1 (.raised e)) →
      (∀ s : CallState, s.unlog = none → s.marked = [] → ∃ s1, b.runK kinds env s = (.raised e, s1) ∧ s1.unlog = none ∧
        s1.marked = [] ∧ s1.records.map Rec.origin = s.records.map Rec.origin ++ R) →
      ∀ s : CallState, s.unlog = none → s.marked = [] → ∃ s1, (callChain b ds).runK kinds env s = (.raised e, s1) ∧
        s1.unlog = none ∧ s1.marked = [] ∧
        s1.records.map Rec.origin = s.records.map Rec.origin ++ (R ++ ds.map fun x => .auto x.2 (.raised e)) := by
  intro ds
  induction ds with
  | nil => intro b R _ hb s hu hm; rw [List.map_nil, List.append_nil]; exact hb s hu hm
  | cons x rest ih =>
    intro b R hds hb s hu hm
    obtain ⟨d, info⟩ := x
    obtain ⟨h1, h2, h3, h4⟩ := hds (d, info) List.mem_cons_self
    have := ih (.call (.logged d info) b andReturn) (R ++ [.auto info (.raised e)])
      (fun x hx => hds x (List.mem_cons_of_mem _ hx)) ?_ s hu hm
    · obtain ⟨s1, g1, g2, g3, g4⟩ := this
      exact ⟨s1, g1, g2, g3, by rw [g4]; simp⟩
    · intro s hu hm
      obtain ⟨s1, g1, g2, g3, g4⟩ := hb { s with msg := none } hu hm
      obtain ⟨data, hr⟩ := recordException_pass (info := info) s1 h3 ht h4
      have hl : logExceptionK kinds env d info e s1 =
          (none, { s1 with msg := none, records := s1.records ++ [⟨.auto info (.raised e), data⟩] }) := by
        unfold logExceptionK
        have hk' : kindOf kinds e.id = ⟨.ordinary, .forgets⟩ := by rw [hid]; exact hk
        rw [if_neg (by unfold unlogStatus; rw [g2]; exact fun e => nomatch e), hk', if_neg (fun e => nomatch e),
          if_pos (.inl ⟨(fun e => nomatch e), by rw [g3]; exact fun h => nomatch h⟩)]
        exact hr
      refine ⟨{ s1 with msg := none, records := s1.records ++ [⟨.auto info (.raised e), data⟩] }, ?_, g2, g3, ?_⟩
      · simp only [Body.runK, g1]
        unfold loggedEndK
        dsimp only
        rw [if_pos he, hl]
        dsimp only at h1 h2 ⊢
        rw [h1, h2]
        simp [excSuppressed, andReturn, Body.runK]
      · simp only [List.map_append, g4, List.map_cons, List.map_nil, List.append_assoc]

/-- **C108 fails** for classes that ignore the setting of attributes: an exception that leaves a chain of decorated calls is
recorded by every decorator whose level passes, in spite of `deduplicate_errors`. -/
theorem C108_forgetting_exception_fails (kinds : Nat → AttrKind) (env : CEnv) (e : Exc) (n : Nat) (he : e.isException = true)
    (hid : e.id = .user n) (hk : kinds n = ⟨.ordinary, .forgets⟩) (ht : e.text.isSome = true) (ds : List (Deco × FnInfo))
    (hds : ∀ x ∈ ds, x.1.suppressAll = false ∧ x.1.suppressed = [] ∧ x.2.inputs.isSome = true ∧ Passes env x.1 (.raised e)) :
    timesRecorded (.user n) ((callChain (.raise e) ds).runK kinds env .init).2 = ds.length := by
  obtain ⟨s1, g1, _, _, g4⟩ := chain_runK kinds env e n he hid hk ht ds (.raise e) [] hds
    (fun s hu hm => ⟨s, rfl, hu, hm, (List.append_nil _).symm⟩) .init rfl rfl
  rw [g1]
  have key : ∀ rs : List Rec, (rs.filter (recordsExc (.user n))).length = (rs.map Rec.origin).countP fun o =>
      match o with | .auto _ (.raised e) => decide (e.id = .user n) | _ => false := by
    intro rs
    rw [← List.countP_eq_length_filter, List.countP_map]
    congr 1
  show (s1.records.filter _).length = _
  rw [key, g4]
  simp only [CallState.init, List.map_nil, List.nil_append]
  rw [List.countP_eq_length.2, List.length_map]
  intro o ho
  obtain ⟨x, _, rfl⟩ := List.mem_map.1 ho
  simpa using hid

/-- **C108 fails** for classes that answer to every name: the exception leaves two decorated functions whose levels pass, and
nobody records it. -/
theorem C108_answering_exception_fails : ∃ (kinds : Nat → AttrKind) (e : Exc), e.isException = true ∧ cEnv.dedup = true ∧
    Passes cEnv (cDeco 9) (.raised e) ∧
    ((callChain (.raise e) [(cDeco 9, cFn "inner"), (cDeco 9, cFn "outer")]).runK kinds cEnv .init).1 = .raised e ∧
    ((callChain (.raise e) [(cDeco 9, cFn "inner"), (cDeco 9, cFn "outer")]).runK kinds cEnv .init).2.records = [] :=
  ⟨fun _ => ⟨.answers, .stores⟩, cExc, rfl, rfl, ⟨9, errorsLevel_spec cEnv (cDeco 9), by decide⟩, by decide +kernel,
    by decide +kernel⟩

/-! ### The hypotheses can be met -/

-- a program whose one exception is ordinary, next to classes that are not
example : RaisesOnly (Ordinary fun n => if n = 0 then .ordinary else ⟨.raises, .refuses⟩) cProg := by
  have h : Ordinary (fun n => if n = 0 then .ordinary else ⟨.raises, .refuses⟩) cExc := by
    intro n hn; cases hn; rfl
  refine ⟨⟨h, ?_⟩, ?_⟩
  · intro o ho
    cases o with
    | ret v => trivial
    | raised e => intro _; trivial
  · intro o ho
    cases o with
    | ret v => trivial
    | raised e => exact ho

example : Harmless (fun _ => ⟨.answers, .forgets⟩) ∧ Valid cEnv cProg :=
  ⟨fun _ => ⟨(fun e => nomatch e), (fun e => nomatch e)⟩, cProg_valid⟩

-- an ordinary exception is recorded once by the chain, one that forgets twice, one that answers never
example : timesRecorded (.user 0) ((callChain (.raise cExc) [(cDeco 9, cFn "inner"), (cDeco 9, cFn "outer")]).runK
      (fun _ => .ordinary) cEnv .init).2 = 1 ∧
    timesRecorded (.user 0) ((callChain (.raise cExc) [(cDeco 9, cFn "inner"), (cDeco 9, cFn "outer")]).runK
      (fun _ => ⟨.ordinary, .forgets⟩) cEnv .init).2 = 2 ∧
    timesRecorded (.user 0) ((callChain (.raise cExc) [(cDeco 9, cFn "inner"), (cDeco 9, cFn "outer")]).runK
      (fun _ => ⟨.answers, .stores⟩) cEnv .init).2 = 0 := by decide +kernel

-- `@log.suppress()` does not swallow an exception that refuses to be marked
example : ∃ e', ((Body.call (.logged ⟨none, none, none, true, [], []⟩ (cFn "f")) (.raise cExc) andReturn).runK
    (fun _ => ⟨.ordinary, .refuses⟩) cEnv .init).1 = .raised e' := by
  obtain ⟨e', _, h, _⟩ := C108_frozen_exception_fails (fun _ => ⟨.ordinary, .refuses⟩) cEnv ⟨none, none, none, true, [], []⟩
    (cFn "f") cExc 0 rfl rfl rfl
  exact ⟨e', h⟩

end Polog
