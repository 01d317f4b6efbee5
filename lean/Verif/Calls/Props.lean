import Verif.Calls.Lemmas3
import Verif.Handle.Props

/-! C24–C29: what decorated, unlogged and plain calls do. -/

namespace Polog
open CallSpec

/-! ### Concrete settings and functions for the examples -/

/-- Records everything of level 3 and more; `default_level` 1, `default_error_level` 5. -/
def cEnv : CEnv where
  h := { exEnv false with inPlace := [] }
  dedup := true
  subclasses := false
  fullUnlog := true
  suppressByDefault := false
  isSub := fun a b => a == b
  elapsed := .other 1

/-- `@log(level=n)`. -/
def cDeco (n : Int) : Deco := ⟨some (.int n), none, none, false, [], []⟩

def cFn (name : String) : FnInfo := ⟨some name.toList, some "m".toList, none, some none⟩

def cVal : Val := ⟨7, some "7".toList⟩

/-- An exception object. -/
def cExc : Exc := ⟨.user 0, 4, "ValueError".toList, some "bad".toList, true⟩

/-- `outer` calls `inner`, both decorated; `inner` raises, `outer` handles that, leaves a message and
returns. -/
def cProg : Body :=
  .call (.logged (cDeco 9) (cFn "outer"))
    (.call (.logged (cDeco 3) (cFn "inner")) (.raise cExc) fun
      | .ret v => .ret v
      | .raised _ => .msg [.str "hello".toList] [] fun _ => .ret cVal)
    andReturn

theorem cProg_valid : Valid cEnv cProg := by
  refine ⟨⟨trivial, .inr ⟨3, rfl, by decide⟩, rfl, rfl, trivial⟩, .inr ⟨9, rfl, by decide⟩, rfl, rfl, trivial⟩

theorem cProg_flat : UnlogFlat cEnv false cProg := ⟨⟨trivial, trivial⟩, trivial⟩

theorem cProg_safe : MsgSafe cEnv false false cProg :=
  ⟨rfl, ⟨rfl, trivial, .inr rfl, trivial⟩,
    .inl ⟨rfl, ⟨9, .given _ _ rfl (.number 9 (by decide)), by decide⟩, trivial⟩, trivial⟩

/-! ### C24 -/

/-- **C24.** Code whose logging arguments are valid ends exactly as it would if logging had no effect on it:
decorators only swallow what they were asked to. In any state of the thread, for any nesting. -/
theorem C24_decorators_are_transparent (env : CEnv) (b : Body) (s : CallState) (h : Valid env b) :
    (b.run env s).1 = outcomeOf env b :=
  run_outcome env b s h

example : (cProg.run cEnv .init).1 = .ret cVal := C24_decorators_are_transparent cEnv cProg .init cProg_valid

theorem original_outcome (env : CEnv) : ∀ b, NoSuppress b → outcomeOf env (original b) = outcomeOf env b := by
  intro b
  induction b with
  | ret v => intro _; rfl
  | raise e => intro _; rfl
  | call kind b k ihb ihk =>
    intro ⟨h1, h2, h3⟩
    cases kind with
    | plain => simp only [original, outcomeOf, ihb h2, ihk _ (h3 _)]
    | unlogged full => simp only [original, outcomeOf, ihb h2, ihk _ (h3 _)]
    | logged d info =>
      have hd : ∀ o, decoOutcome env d o = o := by
        intro o
        obtain ⟨ha, hs⟩ := h1 d info rfl
        cases o with
        | ret v => rfl
        | raised e =>
          unfold decoOutcome
          dsimp only
          rw [if_neg]
          rintro ⟨_, h | ⟨c, hc, _⟩⟩
          · rw [ha] at h; cases h
          · rw [hs] at hc; cases hc
      simp only [original, outcomeOf, ihb h2, ihk _ (h3 _), hd]
  | block o b k ihb ihk =>
    intro ⟨h2, h3⟩
    simp only [original, outcomeOf, ihb h2, ihk _ (h3 _)]
  | msg args kwargs k ihk => intro h; simp only [original, outcomeOf, ihk _ (h _)]
  | manual args kwargs k ihk => intro h; simp only [original, outcomeOf, ihk _ (h _)]

theorem original_valid (env : CEnv) : ∀ b, NoSuppress b → Valid env b → Valid env (original b) := by
  intro b
  induction b with
  | ret v => intro _ _; trivial
  | raise e => intro _ _; trivial
  | call kind b k ihb ihk =>
    intro ⟨h1, h2, h3⟩ hv
    have hb : Valid env b := by cases kind <;> exact hv.1
    refine ⟨ihb h2 hb, ?_⟩
    dsimp only [original]
    rw [original_outcome env b h2]
    cases kind with
    | plain => exact ihk _ (h3 _) hv.2
    | unlogged full => exact ihk _ (h3 _) hv.2
    | logged d info =>
      have hd : decoOutcome env d (outcomeOf env b) = outcomeOf env b := by
        obtain ⟨ha, hs⟩ := h1 d info rfl
        cases outcomeOf env b with
        | ret v => rfl
        | raised e =>
          unfold decoOutcome
          dsimp only
          rw [if_neg]
          rintro ⟨_, h | ⟨c, hc, _⟩⟩
          · rw [ha] at h; cases h
          · rw [hs] at hc; cases hc
      have := hv.2.2.2.2
      rw [hd] at this
      exact ihk _ (h3 _) this
  | block o b k ihb ihk =>
    intro ⟨h2, h3⟩ hv
    refine ⟨ihb h2 hv.1, ?_, ?_, ?_⟩
    · rw [original_outcome env b h2]; exact hv.2.1
    · rw [original_outcome env b h2]; exact hv.2.2.1
    · dsimp only [original]; rw [original_outcome env b h2]; exact ihk _ (h3 _) hv.2.2.2
  | msg args kwargs k ihk => intro h hv; exact ihk _ (h _) hv
  | manual args kwargs k ihk => intro h hv; exact ihk _ (h _) hv

/-- **C24.** If no decorator uses `.suppress(...)`, the code ends exactly as the same code with every
decorator removed, whatever the states of the two threads. -/
theorem C24_same_outcome_as_the_original (env : CEnv) (b : Body) (s s' : CallState) (h : Valid env b)
    (hs : NoSuppress b) : (b.run env s).1 = ((original b).run env s').1 := by
  rw [run_outcome env b s h, run_outcome env (original b) s' (original_valid env b hs h),
    original_outcome env b hs]

example : NoSuppress cProg := by
  refine ⟨fun d info h => by cases h; exact ⟨rfl, rfl⟩,
    ⟨fun d info h => by cases h; exact ⟨rfl, rfl⟩, trivial, fun o => ?_⟩, fun o => ?_⟩
  · cases o with
    | ret v => trivial
    | raised e => exact fun _ => trivial
  · cases o <;> trivial

/-- **C24 fails** for an unknown level: the function returns a value, the decorated function raises. -/
theorem C24_unknown_level_raises_fails :
    ∃ (env : CEnv) (d : Deco) (info : FnInfo) (v : Val), d.level = some (.str "unknown".toList) ∧
      ∀ s, unlogStatus env s = false →
        ((Body.call (.logged d info) (.ret v) andReturn).run env s).1 ≠ .ret v := by
  refine ⟨cEnv, ⟨some (.str "unknown".toList), none, none, false, [], []⟩, cFn "f", cVal, rfl, ?_⟩
  intro s hs h
  have hu : unlogStatus cEnv { s with msg := none } = false := hs
  have hn : normalLevel cEnv (some (.str "unknown".toList)) = .error .keyError := rfl
  simp only [Body.run, loggedEnd, logNormal, hu, hn, andReturn, Bool.false_eq_true, if_false] at h
  cases h

/-- **C24 fails** for a result that cannot be turned to text: the decorated function raises instead of
returning it. -/
theorem C24_unprintable_result_raises_fails :
    ∃ (env : CEnv) (d : Deco) (info : FnInfo) (v : Val), GoodLevel env d.level ∧
      ∀ s, unlogStatus env s = false →
        ((Body.call (.logged d info) (.ret v) andReturn).run env s).1 ≠ .ret v := by
  refine ⟨cEnv, cDeco 3, cFn "f", ⟨1, none⟩, .inr ⟨3, rfl, by decide⟩, ?_⟩
  intro s hs h
  have hu : unlogStatus cEnv { s with msg := none } = false := hs
  have hn : normalLevel cEnv (cDeco 3).level = .ok 3 := rfl
  have ht : cEnv.h.threshold ≤ 3 := by decide
  simp [Body.run, loggedEnd, logNormal, hu, hn, andReturn, ht] at h

/-! ### C25 -/

/-- **C25** (partial: for valid logging arguments, and code that does not call an unlogged function from
inside a fully unlogged one — see C24 and C29 for what happens otherwise). The records made by any code are
those of its decorated calls outside unlogged calls that pass the level filter, one for each, in the order in
which the calls ended (together with the manual records in their places). An exception, with
`deduplicate_errors`, counts only in the first call it leaves. -/
theorem C25_one_record_per_call_partial (env : CEnv) (b : Body) (hv : Valid env b)
    (hf : UnlogFlat env false b) :
    (b.run env .init).2.records.map Rec.origin = (toRecord env [] (events env false b)).map Event.origin := by
  obtain ⟨_, _, _, _, ⟨recs, e, f⟩, _⟩ := run_sim env False b false false [] .init hv hf rfl
    (fun x => Iff.rfl) (fun h => h.elim)
  rw [e]
  simp only [CallState.init, List.nil_append]
  generalize toRecord env [] (events env false b) = evs at f
  clear e
  induction f with
  | nil => rfl
  | cons h _ ih => simp only [List.map_cons, ih, h.1]

example : (cProg.run cEnv .init).2.records.map Rec.origin =
    [.auto (cFn "inner") (.raised cExc), .auto (cFn "outer") (.ret cVal)] := by decide +kernel

theorem AllPass.flat {env : CEnv} : ∀ {b : Body}, AllPass env b → UnlogFlat env false b := by
  intro b
  induction b with
  | ret v => intro _; trivial
  | raise e => intro _; trivial
  | call kind b k ihb ihk =>
    intro h
    cases kind with
    | plain => exact ⟨ihb h.1, ihk _ h.2⟩
    | logged d info => exact ⟨ihb h.1, ihk _ h.2.2.2⟩
    | unlogged full => exact h.elim
  | block o b k ihb ihk => intro h; exact ⟨ihb h.1, ihk _ h.2⟩
  | msg args kwargs k ihk => intro h; exact ihk _ h
  | manual args kwargs k ihk => intro h; exact ihk _ h

theorem events_autos {env : CEnv} (hd : env.dedup = false) :
    ∀ (b : Body) (seen : List ExcId), AllPass env b →
      (((toRecord env seen (events env false b)).map Event.origin).filter Origin.isAuto).length =
        callsMade env b := by
  have hone : ∀ seen d info o m, Passes env d o → (∀ e, o = .raised e → e.isException = true) →
      toRecord env seen [Event.ended d info o m] = [Event.ended d info o m] := by
    intro seen d info o m hp he
    apply toRecord_pos
    cases o with
    | ret v => exact hp
    | raised e => exact ⟨hp, he e rfl, fun h => by rw [hd] at h; cases h⟩
  have hb : ∀ (rs : List (Dict Str HVal)) (og : Origin), og.isAuto = false → ∀ seen,
      (((toRecord env seen (rs.map fun data => Event.byHand ⟨og, data⟩)).map Event.origin).filter
        Origin.isAuto).length = 0 := by
    intro rs og hog seen
    have h1 : (rs.map fun data => Event.byHand ⟨og, data⟩) = (rs.map fun data => (⟨og, data⟩ : Rec)).map .byHand := by
      simp [List.map_map, Function.comp_def]
    rw [h1, toRecord_byHand]
    simp [List.map_map, Function.comp_def, Event.origin, hog]
  intro b
  induction b with
  | ret v => intro seen _; rfl
  | raise e => intro seen _; rfl
  | call kind b k ihb ihk =>
    intro seen ha
    cases kind with
    | plain =>
      simp only [events, toRecord_append, List.map_append, List.filter_append, List.length_append, callsMade]
      rw [ihb _ ha.1, ihk _ _ ha.2]
    | logged d info =>
      simp only [events, Bool.false_eq_true, if_false, toRecord_append, List.map_append, List.filter_append,
        List.length_append, callsMade]
      rw [ihb _ ha.1, ihk _ _ ha.2.2.2, hone _ _ _ _ _ ha.2.1 ha.2.2.1]
      rfl
    | unlogged full => exact ha.elim
  | block o b k ihb ihk =>
    intro seen ha
    simp only [events, Bool.false_eq_true, if_false, toRecord_append, List.map_append, List.filter_append,
      List.length_append, callsMade]
    rw [ihb _ ha.1, ihk _ _ ha.2, hb _ _ rfl, Nat.add_zero]
  | msg args kwargs k ihk => intro seen ha; exact ihk _ seen ha
  | manual args kwargs k ihk =>
    intro seen ha
    simp only [events, Bool.false_eq_true, if_false, toRecord_append, List.map_append, List.filter_append,
      List.length_append, callsMade]
    rw [ihk _ _ ha, hb _ _ rfl, Nat.zero_add]

/-- **C25.** If every level passes, nothing is unlogged and `deduplicate_errors` is off, any code makes exactly as
many automatic records as it makes decorated calls. -/
theorem C25_as_many_records_as_calls (env : CEnv) (hd : env.dedup = false) (b : Body) (hv : Valid env b)
    (ha : AllPass env b) :
    (((b.run env .init).2.records.map Rec.origin).filter Origin.isAuto).length = callsMade env b := by
  rw [C25_one_record_per_call_partial env b hv ha.flat]
  exact events_autos hd b [] ha

example : AllPass { cEnv with dedup := false } cProg :=
  ⟨⟨trivial, ⟨5, errorsLevel_spec _ (cDeco 3), by decide⟩, fun e h => (by cases h; rfl), trivial⟩,
    ⟨9, .given _ _ rfl (.number 9 (by decide)), by decide⟩, fun e h => (by cases h), trivial⟩

theorem extracted_nil {inter : Bool} {d d' : Dict Str HVal} (h : FieldsSpec.Extracted inter [] d d') : d' = d := by
  cases h; rfl

/-! ### C26 -/

/-- **C26.** After any code `b`, run in any state of the thread outside unlogged calls: the end of a decorated
call is recorded exactly if its level passes the filter, and with that level — the decorator's level or
`default_level` after a normal return, `errors_level` or the greatest of the three levels after an exception
(unless a message of the call replaces it). -/
theorem C26_level_of_the_record (env : CEnv) (d : Deco) (info : FnInfo) (b : Body) (s s1 : CallState) (o : Outcome)
    (n : Int) (hb : b.run env { s with msg := none } = (o, s1)) (hl : GoodLevel env d.level)
    (hi : info.inputs.isSome = true) (hp : Printable o) (hu : unlogStatus env s1 = false)
    (hm : s1.msg = none) (he : ∀ e, o = .raised e → e.isException = true ∧ e.id ∉ s1.marked)
    (hn : LevelOf env d o n) :
    ∃ base data, Dict.get? "level".toList base = some (.int n) ∧
      FieldsSpec.Extracted env.h.fieldsIntersection d.inPlace base data ∧
      ((Body.call (.logged d info) b andReturn).run env s).2.records = s1.records ++
        (if env.h.threshold ≤ n then [⟨.auto info o, data⟩] else []) := by
  have hfx := endEffect (env := env) (seen := s1.marked) (d := d) (info := info) (o := o) none (s := s1) hl hi hp hu
    (fun x => Iff.rfl)
  have hrun : ((Body.call (.logged d info) b andReturn).run env s).2.records =
      (loggedEnd env d info o s1).2.records := by
    simp only [Body.run, hb]
    cases (loggedEnd env d info o s1).1 <;> rfl
  obtain ⟨recs, erec, f⟩ := hfx.records
  rw [hrun, erec]
  have hpass : Passes env d o ↔ env.h.threshold ≤ n := by
    cases o with
    | ret v =>
      constructor
      · rintro ⟨m, hm, hle⟩; rwa [normalLevel_fun hm hn] at hle
      · intro h; exact ⟨n, hn, h⟩
    | raised e =>
      constructor
      · rintro ⟨m, hm, hle⟩; rwa [errorLevel_fun hm hn] at hle
      · intro h; exact ⟨n, hn, h⟩
  have htr : ToRecord env s1.marked (.ended d info o none) ↔ env.h.threshold ≤ n := by
    rw [← hpass]
    cases o with
    | ret v => exact Iff.rfl
    | raised e => exact ⟨fun h => h.1, fun h => ⟨h, (he e rfl).1, fun _ => (he e rfl).2⟩⟩
  by_cases hle : env.h.threshold ≤ n
  · rw [toRecord_pos (htr.2 hle)] at f
    cases f with
    | cons ha hf =>
      cases hf
      rename_i r
      obtain ⟨ho, n', base, hn', hg, hd⟩ := ha.2 ⟨hm, fun f h => by cases h⟩
      have hnn : n' = n := by
        cases o with
        | ret v => exact normalLevel_fun hn' hn
        | raised e => exact errorLevel_fun hn' hn
      subst hnn
      refine ⟨base, r.data, ?_, hd, ?_⟩
      · rw [hg]
        unfold autoField
        simp only [Option.bind]
        rw [if_neg (by decide)]
        dsimp only
        rw [if_neg (by decide), if_neg (by decide), if_neg (by decide), if_neg (by decide), if_neg (by decide),
          if_neg (by decide), if_neg (by decide), if_neg (by decide), if_pos trivial]
      · rw [if_pos hle]
        obtain ⟨ro, rd⟩ := r
        dsimp only at ho
        rw [ho]
  · rw [toRecord_neg (fun h => hle (htr.1 h))] at f
    cases f
    exact ⟨[("level".toList, .int n)], _, rfl, extractFrom_extracted .., by rw [if_neg hle]⟩

/-- Every failed call has one and only one level; every successful call with a usable level too. -/
theorem C26_level_is_determined (env : CEnv) (d : Deco) :
    (∃ n, ErrorLevel env d n ∧ ∀ m, ErrorLevel env d m → m = n) ∧
    (GoodLevel env d.level → ∃ n, NormalLevel env d n ∧ ∀ m, NormalLevel env d m → m = n) := by
  refine ⟨⟨_, errorsLevel_spec env d, fun m h => errorLevel_fun h (errorsLevel_spec env d)⟩, fun h => ?_⟩
  obtain ⟨n, hn⟩ := goodLevel_ok h
  exact ⟨n, (normalLevel_iff _ _ _).1 hn, fun m hm => normalLevel_fun hm ((normalLevel_iff _ _ _).1 hn)⟩

-- a failed call of a function decorated with level 9 and no `errors_level`: the greatest of 1, 5, 9
example : ErrorLevel cEnv (cDeco 9) 9 := errorsLevel_spec cEnv (cDeco 9)
example : ErrorLevel cEnv (cDeco 2) 5 := errorsLevel_spec cEnv (cDeco 2)
-- the hypotheses of `C26_level_of_the_record` for `inner` of `cProg`
example : ∃ s1, (Body.raise cExc).run cEnv { CallState.init with msg := none } = (.raised cExc, s1) ∧
    unlogStatus cEnv s1 = false ∧ s1.msg = none ∧ cExc.id ∉ s1.marked ∧ LevelOf cEnv (cDeco 3) (.raised cExc) 5 :=
  ⟨_, rfl, rfl, rfl, by decide, errorsLevel_spec cEnv (cDeco 3)⟩

/-! ### C27 -/

/-- The invariant behind C27. -/
def OnceInv (s : CallState) : Prop := ∀ x, timesRecorded x s ≤ 1 ∧ (timesRecorded x s = 1 → x ∈ s.marked)

theorem times_append (x : ExcId) (s : CallState) (rs : List Rec) (m u mk n) :
    timesRecorded x ⟨m, u, mk, n, s.records ++ rs⟩ = timesRecorded x s + (rs.filter (recordsExc x)).length := by
  simp [timesRecorded, List.filter_append]

theorem OnceInv.of_same {s s' : CallState} (h : OnceInv s) (hr : s'.records = s.records)
    (hm : ∀ x ∈ s.marked, x ∈ s'.marked) : OnceInv s' := by
  intro x
  have : timesRecorded x s' = timesRecorded x s := by simp [timesRecorded, hr]
  rw [this]
  exact ⟨(h x).1, fun h1 => hm x ((h x).2 h1)⟩

theorem OnceInv.add_other {s s' : CallState} (h : OnceInv s) {rs : List Rec} (hr : s'.records = s.records ++ rs)
    (hm : s'.marked = s.marked) (ho : ∀ r ∈ rs, ∀ x, recordsExc x r = false) : OnceInv s' := by
  intro x
  have h0 : rs.filter (recordsExc x) = [] := by
    rw [List.filter_eq_nil_iff]; intro r hr'; rw [ho r hr' x]; simp
  have : timesRecorded x s' = timesRecorded x s := by simp [timesRecorded, hr, List.filter_append, h0]
  rw [this, hm]
  exact h x

theorem logNormal_once {env : CEnv} {d : Deco} {info : FnInfo} {v : Val} {s : CallState} (h : OnceInv s) :
    OnceInv (logNormal env d info v s).2 := by
  unfold logNormal
  split
  · exact h
  · split
    · exact h.of_same rfl (fun x hx => hx)
    · split
      · split
        · exact h.of_same rfl (fun x hx => hx)
        · dsimp only
          split
          · exact h.of_same rfl (fun x hx => hx)
          · refine h.add_other rfl rfl ?_
            intro r hr x
            rw [List.mem_singleton] at hr
            subst hr
            rfl
      · exact h

theorem logException_once {env : CEnv} (hd : env.dedup = true) {d : Deco} {info : FnInfo} {e : Exc} {s : CallState}
    (h : OnceInv s) : OnceInv (logException env d info e s).2 := by
  unfold logException
  split
  · exact h
  · split
    · rename_i hc
      have hc : e.id ∉ s.marked := by
        rcases hc with hc | hc
        · exact hc
        · rw [hd] at hc; cases hc
      dsimp only
      split
      · split
        · intro x
          rw [times_append]
          by_cases hx : e.id = x
          · subst hx
            have h0 : timesRecorded e.id s = 0 := by
              rcases Nat.lt_or_ge (timesRecorded e.id s) 1 with h1 | h1
              · omega
              · exact absurd ((h e.id).2 (Nat.le_antisymm (h e.id).1 h1)) hc
            rw [h0]
            refine ⟨?_, fun _ => List.mem_cons_self⟩
            simp only [Nat.zero_add]
            exact (List.length_filter_le _ _)
          · have h0 : ∀ data, (List.filter (recordsExc x) [(⟨.auto info (.raised e), data⟩ : Rec)]).length = 0 := by
              intro data
              simp [recordsExc, hx]
            rw [h0, Nat.add_zero]
            exact ⟨(h x).1, fun h1 => List.mem_cons_of_mem _ ((h x).2 h1)⟩
        · exact h.of_same rfl (fun x hx => List.mem_cons_of_mem _ hx)
      · exact h.of_same rfl (fun x hx => List.mem_cons_of_mem _ hx)
    · exact h

theorem loggedEnd_ret_snd (env : CEnv) (d : Deco) (info : FnInfo) (v : Val) (s : CallState) :
    (loggedEnd env d info (.ret v) s).2 = (logNormal env d info v s).2 := by
  unfold loggedEnd
  dsimp only
  split <;> (rename_i h; rw [h])

theorem loggedEnd_once {env : CEnv} (hd : env.dedup = true) {d : Deco} {info : FnInfo} {o : Outcome} {s : CallState}
    (h : OnceInv s) : OnceInv (loggedEnd env d info o s).2 := by
  cases o with
  | ret v => rw [loggedEnd_ret_snd]; exact logNormal_once h
  | raised e =>
    rw [loggedEnd_snd]
    split
    · exact logException_once hd h
    · exact h

theorem blockEnd_snd (env : CEnv) (o : BlockOpts) (out : Outcome) (s : CallState) :
    ∃ n rs, (blockEnd env o out s).2 = ⟨s.msg, s.unlog, s.marked, n, s.records ++ rs⟩ ∧
      (∀ r ∈ rs, ∃ data, r = ⟨.block out, data⟩) ∧ (unlogStatus env s = true → rs = []) := by
  unfold blockEnd
  dsimp only
  cases hp : out.printable with
  | false =>
    exact ⟨s.next + 1, [], by rw [if_neg (by simp), List.append_nil], fun r h => (by cases h), fun _ => rfl⟩
  | true =>
    rw [if_pos rfl]
    have hu : unlogStatus env s = true →
        (baseCall simpleLogger { env.h with unlogged := unlogStatus env s } [] (blockData env o out)).records = [] := by
      intro hu; rw [hu]; exact baseCall_muted _ _ _ _
    generalize (baseCall simpleLogger { env.h with unlogged := unlogStatus env s } [] (blockData env o out)) = h at hu
    obtain ⟨hr, he⟩ := h
    dsimp only at hu ⊢
    have hin : ∀ r ∈ hr.map (fun data => (⟨.block out, data⟩ : Rec)), ∃ data, r = ⟨.block out, data⟩ := by
      intro r h
      obtain ⟨data, _, rfl⟩ := List.mem_map.1 h
      exact ⟨data, rfl⟩
    have hnil : unlogStatus env s = true → hr.map (fun data => (⟨.block out, data⟩ : Rec)) = [] :=
      fun h => List.map_eq_nil_iff.2 (hu h)
    cases he with
    | some x => exact ⟨s.next + 1, _, rfl, hin, hnil⟩
    | none =>
      refine ⟨s.next, _, ?_, hin, hnil⟩
      cases out with
      | ret v => rfl
      | raised e => dsimp only; split <;> rfl

theorem blockEnd_once {env : CEnv} {o : BlockOpts} {out : Outcome} {s : CallState} (h : OnceInv s) :
    OnceInv (blockEnd env o out s).2 := by
  obtain ⟨n, rs, e, hr, _⟩ := blockEnd_snd env o out s
  rw [e]
  refine h.add_other rfl rfl ?_
  intro r hr' x
  obtain ⟨data, rfl⟩ := hr r hr'
  rfl

theorem run_once {env : CEnv} (hd : env.dedup = true) : ∀ (b : Body) (s : CallState), OnceInv s →
    OnceInv (b.run env s).2 := by
  intro b
  induction b with
  | ret v => intro s h; exact h
  | raise e => intro s h; exact h
  | call kind b k ihb ihk =>
    intro s h
    cases kind with
    | plain => simp only [Body.run]; exact ihk _ _ (ihb _ h)
    | logged d info =>
      simp only [Body.run]
      exact ihk _ _ (loggedEnd_once hd (ihb _ (h.of_same rfl (fun x hx => hx))))
    | unlogged full =>
      simp only [Body.run]
      exact ihk _ _ ((ihb { s with unlog := some full } (h.of_same rfl (fun x hx => hx))).of_same rfl
        (fun x hx => hx))
  | block o b k ihb ihk => intro s h; simp only [Body.run]; exact ihk _ _ (blockEnd_once (ihb _ h))
  | msg args kwargs k ihk =>
    intro s h
    rw [messageRaises_eq]
    exact ihk _ _ (h.of_same rfl (fun x hx => hx))
  | manual args kwargs k ihk =>
    intro s h
    simp only [Body.run]
    refine ihk _ _ (h.add_other rfl rfl ?_)
    intro r hr x
    obtain ⟨data, _, rfl⟩ := List.mem_map.1 hr
    rfl

/-- **C27.** With `deduplicate_errors`, no exception is recorded by decorators more than once — for any code at
all, including invalid levels, unlogged calls, exceptions that are caught and raised again later. -/
theorem C27_never_recorded_twice (env : CEnv) (hd : env.dedup = true) (b : Body) (x : ExcId) :
    timesRecorded x (b.run env .init).2 ≤ 1 :=
  (run_once hd b .init (fun x => ⟨Nat.zero_le _, fun h => by cases h⟩) x).1

theorem chain_run (env : CEnv) (hd : env.dedup = true) (e : Exc) (he : e.isException = true) :
    ∀ (ds : List (Deco × FnInfo)) (b : Body) (s s' : CallState),
      (∀ x ∈ ds, x.1.suppressAll = false ∧ x.1.suppressed = []) →
      (∀ m, b.run env { s with msg := m } = (.raised e, s')) → s'.unlog = none → e.id ∈ s'.marked →
      ∀ m, (callChain b ds).run env { s with msg := m } = (.raised e, s') := by
  intro ds
  induction ds with
  | nil => intro b s s' _ h _ _; exact h
  | cons x rest ih =>
    intro b s s' hds h hu hm
    obtain ⟨d, info⟩ := x
    refine ih _ s s' (fun x hx => hds x (List.mem_cons_of_mem _ hx)) ?_ hu hm
    intro m
    obtain ⟨h1, h2⟩ := hds (d, info) List.mem_cons_self
    dsimp only at h1 h2
    have hus : unlogStatus env s' = false := by unfold unlogStatus; rw [hu]
    have hle : logException env d info e s' = (none, s') := by
      unfold logException
      rw [hus, if_neg (by simp), if_neg]
      rintro (h' | h')
      · exact h' hm
      · rw [hd] at h'; cases h'
    simp only [Body.run, h none]
    unfold loggedEnd
    dsimp only
    rw [if_pos he, hle]
    dsimp only
    rw [h1, h2]
    simp [excSuppressed, andReturn, Body.run]

/-- **C27** (partial: the innermost decorator's level has to pass). With `deduplicate_errors`, an exception that
leaves a chain of any length of decorated calls gives exactly one record, made by the innermost decorator. -/
theorem C27_recorded_once_by_the_innermost_partial (env : CEnv) (hd : env.dedup = true) (e : Exc)
    (he : e.isException = true) (ht : e.text.isSome = true) (d : Deco) (info : FnInfo)
    (outer : List (Deco × FnInfo)) (hi : info.inputs.isSome = true)
    (hs : ∀ x ∈ (d, info) :: outer, x.1.suppressAll = false ∧ x.1.suppressed = [])
    (hp : Passes env d (.raised e)) :
    ((callChain (.raise e) ((d, info) :: outer)).run env .init).1 = .raised e ∧
    ((callChain (.raise e) ((d, info) :: outer)).run env .init).2.records.map Rec.origin =
      [.auto info (.raised e)] := by
  obtain ⟨h1, h2⟩ := hs (d, info) List.mem_cons_self
  dsimp only at h1 h2
  have hrun : ∀ m, (Body.call (.logged d info) (.raise e) andReturn).run env { CallState.init with msg := m } =
      (.raised e, (loggedEnd env d info (.raised e) CallState.init).2) := by
    intro m
    have ho : (loggedEnd env d info (.raised e) CallState.init).1 = .raised e := by
      obtain ⟨inputs, hi⟩ := Option.isSome_iff_exists.1 hi
      obtain ⟨t, ht⟩ := Option.isSome_iff_exists.1 ht
      have : (logException env d info e CallState.init).1 = none := by
        unfold logException
        dsimp only
        split
        · rfl
        · split
          · split
            · rw [ht, hi]
            · rfl
          · rfl
      unfold loggedEnd
      dsimp only
      rw [if_pos he]
      generalize logException env d info e CallState.init = r at this
      obtain ⟨r1, r2⟩ := r
      dsimp only at this
      subst this
      dsimp only
      rw [h1, h2]
      simp [excSuppressed]
    have hrw : Body.run env (.call (.logged d info) (.raise e) andReturn) { CallState.init with msg := m } =
        match loggedEnd env d info (.raised e) CallState.init with
        | (o, s) => (andReturn o).run env s := rfl
    rw [hrw]
    generalize loggedEnd env d info (.raised e) CallState.init = r at ho
    obtain ⟨r1, r2⟩ := r
    dsimp only at ho
    subst ho
    rfl
  have hfx := endEffect_raised (env := env) (seen := []) (d := d) (info := info) (e := e) none (s := CallState.init)
    hi ht rfl (fun x => Iff.rfl)
  have hm : e.id ∈ (loggedEnd env d info (.raised e) CallState.init).2.marked := by
    rw [hfx.marked]; simp [Event.exc?, he]
  have hc := chain_run env hd e he outer _ CallState.init _
    (fun x hx => hs x (List.mem_cons_of_mem _ hx)) hrun hfx.unlog hm none
  have hc : (callChain (.raise e) ((d, info) :: outer)).run env .init = _ := hc
  rw [hc]
  refine ⟨rfl, ?_⟩
  obtain ⟨recs, e1, f1⟩ := hfx.records
  dsimp only
  rw [e1]
  have htr : ToRecord env [] (.ended d info (.raised e) none) := ⟨hp, he, fun _ h => by cases h⟩
  rw [toRecord_pos htr] at f1
  cases f1 with
  | cons ha hf => cases hf; simp only [CallState.init, List.nil_append, List.map_cons, List.map_nil, ha.1]; rfl

example : cEnv.dedup = true ∧ Passes cEnv (cDeco 3) (.raised cExc) ∧
    (∀ x ∈ [(cDeco 3, cFn "inner"), (cDeco 9, cFn "outer")], x.1.suppressAll = false ∧ x.1.suppressed = []) :=
  ⟨rfl, ⟨5, errorsLevel_spec cEnv (cDeco 3), by decide⟩, by
    intro x hx
    simp only [List.mem_cons, List.not_mem_nil, or_false] at hx
    rcases hx with rfl | rfl <;> exact ⟨rfl, rfl⟩⟩

/-- **C27 fails**: if the innermost decorator's level does not pass the filter, the exception is recorded by
nobody, although the outer decorator's level does pass. -/
theorem C27_lost_when_innermost_is_filtered_fails :
    ∃ (env : CEnv) (e : Exc) (d1 d2 : Deco) (info1 info2 : FnInfo), env.dedup = true ∧
      Passes env d2 (.raised e) ∧ e.isException = true ∧
      Valid env (callChain (.raise e) [(d1, info1), (d2, info2)]) ∧
      ((callChain (.raise e) [(d1, info1), (d2, info2)]).run env .init).2.records = [] :=
  ⟨cEnv, cExc, ⟨none, some (.int 0), none, false, [], []⟩, cDeco 9, cFn "inner", cFn "outer", rfl,
    ⟨9, errorsLevel_spec cEnv (cDeco 9), by decide⟩, rfl,
    ⟨⟨trivial, trivial, rfl, rfl, trivial⟩, .inr ⟨9, rfl, by decide⟩, rfl, rfl, trivial⟩, by decide +kernel⟩

/-! ### C28 -/

/-- **C28** (partial: for valid logging arguments, no unlogged call inside a fully unlogged one, and code that
leaves messages only after the decorated functions it calls, all of which are recorded or leave no messages).
Every record is the right one for its call: it has the fields of the last message left by the call itself and
of no other message, and the automatic ones. -/
theorem C28_record_has_the_last_own_message_partial (env : CEnv) (b : Body) (hv : Valid env b)
    (hf : UnlogFlat env false b) (hs : MsgSafe env false false b) :
    List.Forall₂ (RecordOf env) (toRecord env [] (events env false b)) (b.run env .init).2.records := by
  obtain ⟨_, _, _, _, ⟨recs, e, f⟩, _⟩ := run_sim env True b false false [] .init hv hf rfl
    (fun x => Iff.rfl) (fun _ => ⟨hs, rfl⟩)
  rw [e]
  simp only [CallState.init, List.nil_append]
  exact f.imp fun ev r h => h.2 trivial

example : Valid cEnv cProg ∧ UnlogFlat cEnv false cProg ∧ MsgSafe cEnv false false cProg :=
  ⟨cProg_valid, cProg_flat, cProg_safe⟩

example : (cProg.run cEnv .init).2.records.map (fun r => Dict.get? "message".toList r.data) =
    [none, some (.str "hello".toList)] := by decide +kernel

/-- **C28.** A message left before a decorated call does not get into its record, nor changes anything else
about it. -/
theorem C28_earlier_messages_do_not_matter (env : CEnv) (d : Deco) (info : FnInfo) (b : Body)
    (k : Outcome → Body) (s : CallState) (m : Option (Dict Str HVal)) :
    (Body.call (.logged d info) b k).run env { s with msg := m } =
      (Body.call (.logged d info) b k).run env s := rfl

/-- **C28 fails**: a decorated call made after the message takes the message away. -/
theorem C28_inner_call_clears_the_message_fails :
    ∃ (env : CEnv) (b : Body), Valid env b ∧ UnlogFlat env false b ∧
      ¬ List.Forall₂ (RecordOf env) (toRecord env [] (events env false b)) (b.run env .init).2.records := by
  let b : Body := .call (.logged (cDeco 9) (cFn "outer"))
    (.msg [.str "hello".toList] [] fun _ => .call (.logged (cDeco 9) (cFn "inner")) (.ret cVal) andReturn) andReturn
  have hv : Valid cEnv b := ⟨⟨trivial, .inr ⟨9, rfl, by decide⟩, rfl, rfl, trivial⟩, .inr ⟨9, rfl, by decide⟩, rfl, rfl, trivial⟩
  refine ⟨cEnv, b, hv, ⟨⟨trivial, trivial⟩, trivial⟩, fun h => ?_⟩
  have hp : ∀ v, Passes cEnv (cDeco 9) (.ret v) := fun v =>
    ⟨9, .given _ _ rfl (.number 9 (by decide)), by decide⟩
  have hev : events cEnv false b =
      [.ended (cDeco 9) (cFn "inner") (.ret cVal) none,
       .ended (cDeco 9) (cFn "outer") (.ret cVal) (some [("message".toList, .str "hello".toList)])] := by
    have hmf : messageFields cEnv [.str "hello".toList] [] = some [("message".toList, .str "hello".toList)] := by
      decide +kernel
    simp only [b, events, ownMessages, outcomeOf, decoOutcome, andReturn, hmf, Bool.false_eq_true, if_false]
    rfl
  have htr : toRecord cEnv [] (events cEnv false b) = events cEnv false b := by
    rw [hev]
    have := toRecord_append cEnv [] [.ended (cDeco 9) (cFn "inner") (.ret cVal) none]
      [.ended (cDeco 9) (cFn "outer") (.ret cVal) (some [("message".toList, .str "hello".toList)])]
    rw [toRecord_pos (show ToRecord cEnv [] (.ended _ _ (.ret _) _) from hp cVal),
      toRecord_pos (show ToRecord cEnv _ (.ended _ _ (.ret _) _) from hp cVal)] at this
    exact this
  rw [htr, hev] at h
  have hrec : ((b.run cEnv .init).2.records.map fun r => Dict.get? "message".toList r.data) = [none, none] := by
    decide +kernel
  generalize (b.run cEnv .init).2.records = rs at h hrec
  cases h with
  | cons h1 h2 =>
    cases h2 with
    | cons h2 h3 =>
      rename_i r1 r2 _
      obtain ⟨_, n, base, _, hg, hd⟩ := h2
      simp only [List.map_cons, List.cons.injEq] at hrec
      have h4 := hrec.2.1
      have h5 : r2.data = base := extracted_nil hd
      rw [h5, hg] at h4
      simp [autoField, Dict.get?] at h4

/-- **C28 fails**: a message left in a decorated call that is filtered out by its level gets into the record
of the call around it. -/
theorem C28_message_of_a_filtered_call_leaks_fails :
    ∃ (env : CEnv) (b : Body), Valid env b ∧ UnlogFlat env false b ∧
      ¬ List.Forall₂ (RecordOf env) (toRecord env [] (events env false b)) (b.run env .init).2.records := by
  let b : Body := .call (.logged (cDeco 9) (cFn "outer"))
    (.call (.logged (cDeco 0) (cFn "inner")) (.msg [.str "hello".toList] [] fun _ => .ret cVal) andReturn) andReturn
  have hv : Valid cEnv b := ⟨⟨trivial, .inr ⟨0, rfl, by decide⟩, rfl, rfl, trivial⟩, .inr ⟨9, rfl, by decide⟩, rfl, rfl, trivial⟩
  refine ⟨cEnv, b, hv, ⟨⟨trivial, trivial⟩, trivial⟩, fun h => ?_⟩
  have hp : ∀ v, Passes cEnv (cDeco 9) (.ret v) := fun v =>
    ⟨9, .given _ _ rfl (.number 9 (by decide)), by decide⟩
  have hnp : ∀ v, ¬ Passes cEnv (cDeco 0) (.ret v) := by
    intro v h
    exact absurd ((passes_ret (n := 0) rfl v).1 h) (by decide)
  have hev : events cEnv false b =
      [.ended (cDeco 0) (cFn "inner") (.ret cVal) (some [("message".toList, .str "hello".toList)]),
       .ended (cDeco 9) (cFn "outer") (.ret cVal) none] := by
    have hmf : messageFields cEnv [.str "hello".toList] [] = some [("message".toList, .str "hello".toList)] := by
      decide +kernel
    simp only [b, events, ownMessages, outcomeOf, decoOutcome, andReturn, hmf, Bool.false_eq_true, if_false]
    rfl
  have htr : toRecord cEnv [] (events cEnv false b) = [.ended (cDeco 9) (cFn "outer") (.ret cVal) none] := by
    rw [hev]
    have := toRecord_append cEnv [] [.ended (cDeco 0) (cFn "inner") (.ret cVal)
      (some [("message".toList, .str "hello".toList)])] [.ended (cDeco 9) (cFn "outer") (.ret cVal) none]
    rw [toRecord_neg (show ¬ ToRecord cEnv [] (.ended _ _ (.ret _) _) from hnp cVal),
      toRecord_pos (show ToRecord cEnv _ (.ended _ _ (.ret _) _) from hp cVal)] at this
    exact this
  rw [htr] at h
  have hrec : ((b.run cEnv .init).2.records.map fun r => Dict.get? "message".toList r.data) =
      [some (.str "hello".toList)] := by decide +kernel
  generalize (b.run cEnv .init).2.records = rs at h hrec
  cases h with
  | cons h1 h2 =>
    cases h2
    rename_i r1
    obtain ⟨_, n, base, _, hg, hd⟩ := h1
    simp only [List.map_cons, List.cons.injEq] at hrec
    have h4 := hrec.1
    have h5 : r1.data = base := extracted_nil hd
    rw [h5, hg] at h4
    revert h4
    simp only [autoField, Option.bind]
    rw [if_neg (by decide)]
    dsimp only
    rw [if_neg (by decide), if_pos trivial]
    exact fun h => nomatch h

/-! ### C29 -/

theorem run_muted (env : CEnv) : ∀ (b : Body) (s : CallState), NoUnlog b → unlogStatus env s = true →
    (b.run env s).2.records = s.records ∧ (b.run env s).2.unlog = s.unlog ∧ (b.run env s).2.marked = s.marked := by
  have hst : ∀ {s s' : CallState}, unlogStatus env s = true → s'.unlog = s.unlog → unlogStatus env s' = true := by
    intro s s' h e; rw [← h]; unfold unlogStatus; rw [e]
  intro b
  induction b with
  | ret v => intro s _ _; exact ⟨rfl, rfl, rfl⟩
  | raise e => intro s _ _; exact ⟨rfl, rfl, rfl⟩
  | call kind b k ihb ihk =>
    intro s ⟨h1, h2, h3⟩ hu
    cases kind with
    | plain =>
      simp only [Body.run]
      obtain ⟨a1, a2, a3⟩ := ihb s h2 hu
      obtain ⟨b1, b2, b3⟩ := ihk (b.run env s).1 (b.run env s).2 (h3 _) (hst hu a2)
      exact ⟨b1.trans a1, b2.trans a2, b3.trans a3⟩
    | logged d info =>
      simp only [Body.run]
      have hu' : unlogStatus env { s with msg := none } = true := hu
      obtain ⟨a1, a2, a3⟩ := ihb { s with msg := none } h2 hu'
      have hm := loggedEnd_muted env d info (b.run env { s with msg := none }).1 (b.run env { s with msg := none }).2
        (hst hu a2)
      rw [hm]
      obtain ⟨b1, b2, b3⟩ := ihk (loggedEnd env d info (b.run env { s with msg := none }).1
        (b.run env { s with msg := none }).2).1 (b.run env { s with msg := none }).2 (h3 _) (hst hu a2)
      exact ⟨b1.trans a1, b2.trans a2, b3.trans a3⟩
    | unlogged full => exact absurd rfl (h1 full)
  | block o b k ihb ihk =>
    intro s ⟨h2, h3⟩ hu
    simp only [Body.run]
    obtain ⟨a1, a2, a3⟩ := ihb s h2 hu
    have hb : (blockEnd env o (b.run env s).1 (b.run env s).2).2.records = (b.run env s).2.records ∧
        (blockEnd env o (b.run env s).1 (b.run env s).2).2.unlog = (b.run env s).2.unlog ∧
        (blockEnd env o (b.run env s).1 (b.run env s).2).2.marked = (b.run env s).2.marked := by
      obtain ⟨n, rs, e, _, hrs⟩ := blockEnd_snd env o (b.run env s).1 (b.run env s).2
      rw [e, hrs (hst hu a2), List.append_nil]
      exact ⟨rfl, rfl, rfl⟩
    obtain ⟨b1, b2, b3⟩ := ihk (blockEnd env o (b.run env s).1 (b.run env s).2).1
      (blockEnd env o (b.run env s).1 (b.run env s).2).2 (h3 _) (hst hu (hb.2.1.trans a2))
    exact ⟨b1.trans (hb.1.trans a1), b2.trans (hb.2.1.trans a2), b3.trans (hb.2.2.trans a3)⟩
  | msg args kwargs k ihk =>
    intro s hn hu
    rw [messageRaises_eq]
    exact ihk _ { s with msg := (messageFields env args kwargs).or s.msg } (hn _) hu
  | manual args kwargs k ihk =>
    intro s hn hu
    simp only [Body.run]
    rw [hu]
    have h0 : (handleLog { env.h with unlogged := true } args kwargs).records = [] := baseCall_muted _ _ _ _
    rw [h0]
    obtain ⟨b1, b2, b3⟩ := ihk (handleLog { env.h with unlogged := true } args kwargs).raised
      { s with records := s.records ++ [].map fun data => ⟨.manual, data⟩ } (hn _) hu
    exact ⟨b1.trans (by simp), b2, b3⟩

/-- **C29** (partial: the code inside calls no further unlogged functions). During a call of a function marked
`@unlog(full=True)` — or `@unlog` with the setting `full_unlog` — nothing is recorded, whatever it does and however
it ends; afterwards the thread logs again, and exceptions that passed are not taken for recorded ones. -/
theorem C29_nothing_recorded_inside_unlogged_partial (env : CEnv) (full : Option Bool) (b : Body) (s : CallState)
    (hf : fullOf env full = true) (hn : NoUnlog b) :
    ((Body.call (.unlogged full) b andReturn).run env s).2.records = s.records ∧
    ((Body.call (.unlogged full) b andReturn).run env s).2.marked = s.marked ∧
    unlogStatus env ((Body.call (.unlogged full) b andReturn).run env s).2 = false := by
  have hu : unlogStatus env { s with unlog := some full } = true := by
    rw [← hf]; cases full <;> rfl
  obtain ⟨h1, h2, h3⟩ := run_muted env b { s with unlog := some full } hn hu
  have hrun : ((Body.call (.unlogged full) b andReturn).run env s).2 =
      { (b.run env { s with unlog := some full }).2 with unlog := none } := by
    simp only [Body.run]
    cases (b.run env { s with unlog := some full }).1 <;> rfl
  rw [hrun]
  exact ⟨h1, h3, rfl⟩

-- a logged call and a manual log inside
example : NoUnlog (.call (.logged (cDeco 9) (cFn "f")) (.raise cExc) fun _ => .manual [.str "x".toList]
    [("level".toList, .int 9)] fun _ => .ret cVal) :=
  ⟨fun _ h => (nomatch h), trivial, fun _ _ => trivial⟩

/-- **C29 fails**: an unlogged function calls another unlogged function and then logs; the record is made,
although the first call is still in progress. -/
theorem C29_nested_unlogged_call_switches_logging_on_fails :
    ∃ (env : CEnv) (b : Body), Valid env b ∧ events env true b = [] ∧
      ((Body.call (.unlogged (some true)) b andReturn).run env .init).2.records ≠ [] := by
  refine ⟨cEnv, .call (.unlogged (some true)) (.ret cVal) fun _ =>
    .call (.logged (cDeco 9) (cFn "f")) (.ret cVal) andReturn, ?_, ?_, ?_⟩
  · exact ⟨trivial, trivial, .inr ⟨9, rfl, by decide⟩, rfl, rfl, trivial⟩
  · simp [events, decoOutcome, outcomeOf, andReturn]
  · decide +kernel

end Polog
