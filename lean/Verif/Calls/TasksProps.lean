import Verif.Calls.Tasks
import Verif.Calls.ThreadsExamples

/-! C78, C29, C28, C27 for threads and tasks that begin while the program runs. -/

namespace Polog
open CallSpec

theorem TkRun.trans {env : CEnv} {progs : Nat → Body} {a b c : TaskWorld} (h1 : TkRun env progs a b) (h2 : TkRun env progs b c) :
    TkRun env progs a c := by
  induction h2 with
  | refl => exact h1
  | step _ h ih => exact ih.step h

/-- A new thread. -/
def AloneSt.fresh (b : Body) (msg : Option (Dict Str HVal)) (unlog : Option (Option Bool)) : AloneSt :=
  .at (.code b) [] { CallState.init with msg := msg, unlog := unlog }

/-- Every thread is where it would be alone; those that have not begun have done nothing. -/
structure TkInv (env : CEnv) (owner : Nat → Nat) (progs : Nat → Body) (c0 : Nat → AloneSt) (x : TaskWorld) : Prop where
  as : ∀ t, AsAlone env owner t (c0 t) x.w
  noRecords : ∀ u, u ∉ x.begun → recordsOf u x.w.records = []
  noMarks : ∀ u, u ∉ x.begun → ∀ e, OwnId owner u e → GExc.of u e ∉ x.w.marked

theorem TkInv.start {env : CEnv} {owner : Nat → Nat} {progs : Nat → Body} (hown : ∀ t, Own owner t (progs t)) :
    TkInv env owner progs (fun t => .fresh (progs t) none none) (.start progs) :=
  ⟨fun t => asAlone_run hown .refl t, fun _ _ => rfl, fun _ _ _ _ h => nomatch h⟩

theorem TkInv.run {env : CEnv} {owner : Nat → Nat} {progs : Nat → Body} {c0 : Nat → AloneSt} {x : TaskWorld}
    (h : TkInv env owner progs c0 x) {t : Nat} {out : ThOut} (ht : t ∈ x.begun)
    (e : (x.w.threads t).step env (fun e => decide (GExc.of t e ∈ x.w.marked)) = some out) :
    TkInv env owner progs c0 (x.after t out) := by
  have hne : ∀ u, u ∉ x.begun → u ≠ t := by rintro u hu rfl; exact hu ht
  refine ⟨asAlone_step h.as (.step t out e), fun u hu => ?_, fun u hu y hy hm => ?_⟩
  · change recordsOf u (x.w.records ++ _) = []
    rw [recordsOf_append, recordsOf_other (hne u hu), h.noRecords u hu]
    rfl
  · rcases List.mem_append.1 hm with hm | hm
    · obtain ⟨z, hz, he⟩ := List.mem_map.1 hm
      obtain ⟨hown, _⟩ := h.as t
      exact GExc.of_other (hne u hu) hy (((step_own hown (fun _ _ => rfl)).2 out e).2 z hz) he.symm
    · exact h.noMarks u hu y hy hm

theorem TkInv.begin {env : CEnv} {owner : Nat → Nat} {progs : Nat → Body} (hown : ∀ t, Own owner t (progs t)) {c0 : Nat → AloneSt}
    {x : TaskWorld} (h : TkInv env owner progs c0 x) {u : Nat} (hu : u ∉ x.begun) (m : Option (Dict Str HVal)) (ul : Option (Option Bool)) :
    TkInv env owner progs (fun i => if i = u then .fresh (progs u) m ul else c0 i) (x.begin progs u m ul) := by
  refine ⟨fun t => ?_, fun v hv => h.noRecords v (fun hb => hv (List.mem_cons_of_mem _ hb)),
    fun v hv => h.noMarks v (fun hb => hv (List.mem_cons_of_mem _ hb))⟩
  by_cases ht : t = u
  · subst ht
    have e : (x.begin progs t m ul).w.threads t = ⟨.code (progs t), [], m, ul, 0⟩ := if_pos rfl
    simp only [if_true]
    refine ⟨by rw [e]; exact ⟨hown t, fun _ h => nomatch h⟩, _, .refl, by rw [e]; rfl, (h.noRecords t hu).symm, fun y hy => ?_⟩
    exact ⟨(fun h => nomatch h), fun hm => absurd hm (h.noMarks t hu y hy)⟩
  · have e : (x.begin progs u m ul).w.threads t = x.w.threads t := if_neg ht
    simp only [if_neg ht]
    obtain ⟨h1, c, h2, h3, h4, h5⟩ := h.as t
    exact ⟨by rw [e]; exact h1, c, h2, h3.trans e.symm, h4, h5⟩

theorem TkInv.steps {env : CEnv} {owner : Nat → Nat} {progs : Nat → Body} (hown : ∀ t, Own owner t (progs t)) {c0 : Nat → AloneSt}
    {x y : TaskWorld} (h : TkInv env owner progs c0 x) (hr : TkRun env progs x y) :
    (∀ t ∈ x.begun, t ∈ y.begun) ∧ ∃ c1, (∀ t ∈ x.begun, c1 t = c0 t) ∧ TkInv env owner progs c1 y := by
  induction hr with
  | refl => exact ⟨fun _ h => h, c0, fun _ _ => rfl, h⟩
  | @step y z _ _ hs ih =>
    obtain ⟨hb, c1, hc, hi⟩ := ih
    have new : ∀ (u : Nat) m ul, u ∉ y.begun → (∀ t ∈ x.begun, t ∈ (y.begin progs u m ul).begun) ∧
        ∃ c2, (∀ t ∈ x.begun, c2 t = c0 t) ∧ TkInv env owner progs c2 (y.begin progs u m ul) := by
      intro u m ul hu
      refine ⟨fun t ht => List.mem_cons_of_mem _ (hb t ht), _, fun t ht => ?_, hi.begin hown hu m ul⟩
      have : t ≠ u := by rintro rfl; exact hu (hb t ht)
      simp only [if_neg this]
      exact hc t ht
    cases hs with
    | run t out ht e => exact ⟨hb, c1, hc, hi.run ht e⟩
    | task t u _ hu => exact new u _ _ hu
    | thread t u _ hu => exact new u _ _ hu

theorem begun_run_as_alone {env : CEnv} {owner : Nat → Nat} {progs : Nat → Body} (hown : ∀ t, Own owner t (progs t))
    {x y : TaskWorld} {u : Nat} (hx : TkRun env progs (.start progs) x) (hu : u ∉ x.begun)
    (m : Option (Dict Str HVal)) (ul : Option (Option Bool)) (hy : TkRun env progs (x.begin progs u m ul) y) :
    recordsOf u y.w.records <+: (alone env (progs u) m ul).2.records ∧
    ∀ o, (y.w.threads u).ctl = .halted o →
      o = (alone env (progs u) m ul).1 ∧ recordsOf u y.w.records = (alone env (progs u) m ul).2.records := by
  obtain ⟨_, c1, _, h1⟩ := (TkInv.start (env := env) hown).steps hown hx
  obtain ⟨_, c2, hc, h2⟩ := (h1.begin hown hu m ul).steps hown hy
  obtain ⟨_, c, hr, hth, hrec, _⟩ := h2.as u
  rw [hc u List.mem_cons_self] at hr
  simp only [if_true] at hr
  have hend := solo_ends env (progs u) { CallState.init with msg := m, unlog := ul }
  have hgo := hr.through hend rfl
  refine ⟨hrec ▸ hgo.recs_prefix, fun o ho => ?_⟩
  rcases hgo.head with he | ⟨b, hb, _⟩
  · rw [← hth, he] at ho
    rw [← hrec, he]
    exact ⟨(Ctl.halted.inj ho).symm, rfl⟩
  · exact absurd (hth ▸ ho) (AloneStep.not_halted hb)

/-- **C78** for tasks that begin while the program runs: whatever the others do, a task makes the records it would make alone, beginning
with the context (pending message, state of `@unlog`) that its maker had when it made it, and ends as it would alone. Nothing that its
maker does later acts on it. -/
theorem C78_begun_tasks_run_as_alone (env : CEnv) (owner : Nat → Nat) (progs : Nat → Body) (hown : ∀ t, Own owner t (progs t))
    (x x' y : TaskWorld) (t u : Nat) (hx : TkRun env progs (.start progs) x) (hs : TkStep env progs x (.task t u) x')
    (hy : TkRun env progs x' y) :
    recordsOf u y.w.records <+: (alone env (progs u) (x.w.threads t).msg (x.w.threads t).unlog).2.records ∧
    ∀ o, (y.w.threads u).ctl = .halted o → o = (alone env (progs u) (x.w.threads t).msg (x.w.threads t).unlog).1 ∧
      recordsOf u y.w.records = (alone env (progs u) (x.w.threads t).msg (x.w.threads t).unlog).2.records := by
  cases hs with
  | task _ _ _ hu => exact begun_run_as_alone hown hx hu _ _ hy

/-- **C78** for threads that are started while the program runs: the same, beginning with an empty context. -/
theorem C78_begun_threads_run_as_alone (env : CEnv) (owner : Nat → Nat) (progs : Nat → Body) (hown : ∀ t, Own owner t (progs t))
    (x x' y : TaskWorld) (t u : Nat) (hx : TkRun env progs (.start progs) x) (hs : TkStep env progs x (.thread t u) x')
    (hy : TkRun env progs x' y) :
    recordsOf u y.w.records <+: (alone env (progs u) none none).2.records ∧
    ∀ o, (y.w.threads u).ctl = .halted o → o = (alone env (progs u) none none).1 ∧
      recordsOf u y.w.records = (alone env (progs u) none none).2.records := by
  cases hs with
  | thread _ _ _ hu => exact begun_run_as_alone hown hx hu _ _ hy

/-- **C29** for tasks: a task made while the maker is in a call of an unlogged function records nothing, now or later, even when the
call of the maker has long returned.

Partial: the code of the task calls no unlogged function itself (see
`C29_nested_unlogged_call_switches_logging_on_fails`), and is a task, not a thread (see below). -/
theorem C29_task_of_an_unlogged_call_records_nothing_partial (env : CEnv) (owner : Nat → Nat) (progs : Nat → Body)
    (hown : ∀ t, Own owner t (progs t)) (x x' y : TaskWorld) (t u : Nat) (hx : TkRun env progs (.start progs) x)
    (hun : unlogStatus env (x.w.threads t).view = true) (hn : NoUnlog (progs u)) (hs : TkStep env progs x (.task t u) x')
    (hy : TkRun env progs x' y) : recordsOf u y.w.records = [] := by
  have h := (C78_begun_tasks_run_as_alone env owner progs hown x x' y t u hx hs hy).1
  have hm := (run_muted env (progs u) { CallState.init with msg := (x.w.threads t).msg, unlog := (x.w.threads t).unlog } hn hun).1
  unfold alone at h
  rw [hm] at h
  exact List.prefix_nil.1 h

/-! ### C27 for tasks of one event loop -/

theorem logNormal_recs {env : CEnv} {d : Deco} {info : FnInfo} {v : Val} {s : CallState} (hs : s.records = []) :
    ∀ r ∈ (logNormal env d info v s).2.records, ∀ t g, recordsObject g (t, r) = false := by
  unfold logNormal
  split
  · simp [hs]
  · split
    · simp [hs]
    · split
      · split
        · simp [hs]
        · dsimp only
          split
          · simp [hs]
          · intro r hr t g
            rw [hs, List.nil_append, List.mem_singleton] at hr
            subst hr
            rfl
      · simp [hs]

theorem blockEnd_recs {env : CEnv} {o : BlockOpts} {out : Outcome} {s : CallState} (hs : s.records = []) :
    ∀ r ∈ (blockEnd env o out s).2.records, ∀ t g, recordsObject g (t, r) = false := by
  obtain ⟨n, rs, e, hr, _⟩ := blockEnd_snd env o out s
  rw [e]
  intro r h t g
  dsimp only at h
  rw [hs, List.nil_append] at h
  obtain ⟨data, rfl⟩ := hr r h
  rfl

theorem logException_recs {env : CEnv} {d : Deco} {info : FnInfo} {e : Exc} {s : CallState} (hs : s.records = []) :
    (logException env d info e s).2.records.length ≤ 1 ∧
    ∀ r ∈ (logException env d info e s).2.records, ∀ t g, recordsObject g (t, r) = true → GExc.of t e.id = g := by
  unfold logException
  split
  · simp [hs]
  · split
    · dsimp only
      split
      · split
        · refine ⟨by simp [hs], fun r hr t g h => ?_⟩
          dsimp only at hr
          rw [hs, List.nil_append, List.mem_singleton] at hr
          subst hr
          simpa [recordsObject] using h
        · simp [hs]
      · simp [hs]
    · simp [hs]

/-- What a step can do to marks and records of exceptions. -/
inductive StepKind (seen : ExcId → Bool) (th : ThSt) (out : ThOut) : Prop
  | other : out.marks = [] → (∀ r ∈ out.recs, ∀ t g, recordsObject g (t, r) = false) →
      (∀ d info k e, out.th.ctl = .marking d info k e → seen e.id = false) → StepKind seen th out
  | mark (d : Deco) (info : FnInfo) (k : Outcome → Body) (e : Exc) : th.ctl = .marking d info k e → out.marks = [e.id] → out.recs.length ≤ 1 →
      (∀ r ∈ out.recs, ∀ t g, recordsObject g (t, r) = true → GExc.of t e.id = g) → (¬ out.th.isMarking) → StepKind seen th out

theorem leave_kind {env : CEnv} (hd : env.dedup = true) (seen : ExcId → Bool) (th : ThSt) (o : Outcome) :
    StepKind seen th (th.leave env seen o) := by
  have go : ∀ (b : Body) (st : List CtlFrame) (s : CallState), (∀ r ∈ s.records, ∀ t g, recordsObject g (t, r) = false) →
      StepKind seen th (th.goOn b st s []) := fun b st s h => .other rfl h (fun _ _ _ _ h => nomatch h)
  have view : ∀ r ∈ th.view.records, ∀ t g, recordsObject g (t, r) = false := fun _ h => nomatch h
  unfold ThSt.leave
  split
  · exact .other rfl (fun _ h => nomatch h) (fun _ _ _ _ h => nomatch h)
  · exact go _ _ _ view
  · rename_i d info k st _
    split
    · rename_i v
      have hr := logNormal_recs (env := env) (d := d) (info := info) (v := v) (s := th.view) rfl
      split
      · rename_i h; rw [h] at hr; exact go _ _ _ hr
      · rename_i h; rw [h] at hr; exact go _ _ _ hr
    · rename_i e
      split
      · split
        · exact go _ _ _ view
        · split
          · rename_i hc
            refine .other rfl (fun _ h => nomatch h) fun d' info' k' e' h => ?_
            cases h
            rcases hc with hc | hc
            · exact hc
            · rw [hd] at hc; cases hc
          · exact go _ _ _ view
      · exact go _ _ _ view
  · exact go _ _ _ (fun _ h => nomatch h)
  · rename_i opts k st _
    have hr := blockEnd_recs (env := env) (o := opts) (out := o) (s := th.view) rfl
    exact go _ _ _ hr

theorem step_kind {env : CEnv} (hd : env.dedup = true) {seen : ExcId → Bool} {th : ThSt} {out : ThOut} (h : th.step env seen = some out) :
    StepKind seen th out := by
  have go : ∀ (b : Body) (st : List CtlFrame) (s : CallState), (∀ r ∈ s.records, ∀ t g, recordsObject g (t, r) = false) →
      StepKind seen th (th.goOn b st s []) := fun b st s h => .other rfl h (fun _ _ _ _ h => nomatch h)
  unfold ThSt.step at h
  split at h
  · cases h
  · rename_i d info k e he
    have hr := logException_recs (env := env) (d := d) (info := info) (e := e) (s := th.view) rfl
    split at h <;> cases h
    · rename_i h; rw [h] at hr
      exact .mark d info k e he rfl hr.1 hr.2 (fun ⟨_, _, _, _, h⟩ => nomatch h)
    · rename_i h; rw [h] at hr
      exact .mark d info k e he rfl hr.1 hr.2 (fun ⟨_, _, _, _, h⟩ => nomatch h)
  · cases h; exact leave_kind hd seen th _
  · cases h; exact leave_kind hd seen th _
  · cases h; exact go _ _ _ (fun _ h => nomatch h)
  · cases h; exact go _ _ _ (fun _ h => nomatch h)
  · cases h; exact go _ _ _ (fun _ h => nomatch h)
  · cases h; exact go _ _ _ (fun _ h => nomatch h)
  · split at h <;> cases h <;> exact go _ _ _ (fun _ h => nomatch h)
  · cases h
    refine go _ _ _ fun r hr t g => ?_
    obtain ⟨data, _, rfl⟩ := List.mem_map.1 hr
    rfl

/-- The invariant behind C27 for tasks. -/
structure AioInv (x : TaskWorld) : Prop where
  once : ∀ g, (x.w.records.filter (recordsObject g)).length ≤ 1
  mark : ∀ g, g ∉ x.w.marked → (x.w.records.filter (recordsObject g)).length = 0
  marking : ∀ u d info k e, (x.w.threads u).ctl = .marking d info k e → GExc.of u e.id ∉ x.w.marked

theorem AioInv.run {env : CEnv} (hd : env.dedup = true) {x : TaskWorld} (h : AioInv x) {t : Nat} {out : ThOut}
    (e : (x.w.threads t).step env (fun e => decide (GExc.of t e ∈ x.w.marked)) = some out)
    (hu : ∀ u, u ≠ t → ¬ (x.w.threads u).isMarking) : AioInv (x.after t out) := by
  have hth : ∀ u, u ≠ t → ∀ d info k e, ((x.after t out).w.threads u).ctl ≠ .marking d info k e := by
    intro u hne d info k e he
    have : (x.after t out).w.threads u = x.w.threads u := if_neg hne
    rw [this] at he
    exact hu u hne ⟨d, info, k, e, he⟩
  have hself : (x.after t out).w.threads t = out.th := if_pos rfl
  have hrecs : ∀ g, ((x.after t out).w.records.filter (recordsObject g)).length =
      (x.w.records.filter (recordsObject g)).length + (out.recs.filter fun r => recordsObject g (t, r)).length := by
    intro g
    change ((x.w.records ++ _).filter _).length = _
    rw [List.filter_append, List.length_append, List.filter_map, List.length_map]
    rfl
  cases step_kind hd e with
  | other hm hr hk =>
    have hmk : (x.after t out).w.marked = x.w.marked := by
      change out.marks.map _ ++ _ = _
      rw [hm]; rfl
    have h0 : ∀ g, (out.recs.filter fun r => recordsObject g (t, r)).length = 0 := by
      intro g
      rw [List.length_eq_zero_iff, List.filter_eq_nil_iff]
      intro r hr'
      rw [hr r hr' t g]; simp
    refine ⟨fun g => by rw [hrecs, h0]; exact h.once g, fun g hg => ?_, fun u d info k e' he => ?_⟩
    · rw [hrecs, h0]
      exact h.mark g (hmk ▸ hg)
    · by_cases hne : u = t
      · subst hne
        rw [hself] at he
        rw [hmk]
        simpa using hk d info k e' he
      · exact absurd he (hth u hne d info k e')
  | mark d info k ex hctl hm hlen hr hno =>
    have hmk : (x.after t out).w.marked = GExc.of t ex.id :: x.w.marked := by
      change out.marks.map _ ++ _ = _
      rw [hm]; rfl
    have hfresh := h.marking t d info k ex hctl
    have h0 : ∀ g, GExc.of t ex.id ≠ g → (out.recs.filter fun r => recordsObject g (t, r)).length = 0 := by
      intro g hg
      rw [List.length_eq_zero_iff, List.filter_eq_nil_iff]
      intro r hr' hrec
      exact hg (hr r hr' t g hrec)
    refine ⟨fun g => ?_, fun g hg => ?_, fun u d' info' k' e' he => ?_⟩
    · rw [hrecs]
      by_cases hg : GExc.of t ex.id = g
      · subst hg
        rw [h.mark _ hfresh]
        have := List.length_filter_le (fun r => recordsObject (GExc.of t ex.id) (t, r)) out.recs
        omega
      · rw [h0 g hg]; exact h.once g
    · rw [hmk] at hg
      rw [hrecs, h0 g (fun h => hg (h ▸ List.mem_cons_self)), h.mark g (fun h => hg (List.mem_cons_of_mem _ h))]
    · by_cases hne : u = t
      · subst hne
        rw [hself] at he
        exact absurd ⟨d', info', k', e', he⟩ hno
      · exact absurd he (hth u hne d' info' k' e')

theorem AioInv.begin {progs : Nat → Body} {x : TaskWorld} (h : AioInv x) (u : Nat) (m : Option (Dict Str HVal)) (ul : Option (Option Bool)) :
    AioInv (x.begin progs u m ul) := by
  refine ⟨h.once, h.mark, fun v d info k e he => ?_⟩
  by_cases hv : v = u
  · subst hv
    have : (x.begin progs v m ul).w.threads v = ⟨.code (progs v), [], m, ul, 0⟩ := if_pos rfl
    rw [this] at he
    cases he
  · have : (x.begin progs u m ul).w.threads v = x.w.threads v := if_neg hv
    rw [this] at he
    exact h.marking v d info k e he

/-- **C27** for asyncio: in one event loop, with any number of tasks that begin at any moment and run in any order, every exception
object is recorded at most once by all decorators together, whichever tasks it passes through (an exception of a task is raised
again in every task that awaits it). -/
theorem C27_tasks_never_record_an_exception_twice (env : CEnv) (hd : env.dedup = true) (progs : Nat → Body) (x : TaskWorld)
    (h : AioRun env progs (.start progs) x) (g : GExc) : (x.w.records.filter (recordsObject g)).length ≤ 1 := by
  suffices AioInv x from this.once g
  induction h with
  | refl => exact ⟨fun _ => Nat.zero_le _, fun _ _ => rfl, fun _ _ _ _ _ h => nomatch h⟩
  | step _ hs hl ih =>
    cases hs with
    | run t out _ e => exact ih.run hd e hl
    | task t u _ _ => exact ih.begin u _ _
    | thread t u _ _ => exact hl.elim

/-- Two tasks, the second made by the first, meet one exception object; it is recorded once, by the first of them. -/
example : ∃ x, AioRun cEnv (fun _ => .call (.logged (cDeco 9) (cFn "f")) (.raise cExc) andReturn)
    (.start fun _ => .call (.logged (cDeco 9) (cFn "f")) (.raise cExc) andReturn) x ∧ cEnv.dedup = true ∧
    x.w.records.map (fun y => (y.1, recordsObject (.user 0) y)) = [(0, true)] ∧
    (∃ o, (x.w.threads 0).ctl = .halted o) ∧ ∃ o, (x.w.threads 1).ctl = .halted o := by
  let progs : Nat → Body := fun _ => .call (.logged (cDeco 9) (cFn "f")) (.raise cExc) andReturn
  have no : ∀ (u : Nat), ¬ ((TaskWorld.start progs).w.threads u).isMarking := fun u ⟨_, _, _, _, h⟩ => nomatch h
  have keep : ∀ {y : TaskWorld} {t : Nat} {out : ThOut}, (∀ u, u ≠ t → ¬ (y.w.threads u).isMarking) →
      ∀ u, u ≠ t → ¬ ((y.after t out).w.threads u).isMarking := by
    intro y t out h u hu
    rw [show (y.after t out).w.threads u = y.w.threads u from if_neg hu]
    exact h u hu
  have other : ∀ {y : TaskWorld} {t : Nat} {out : ThOut}, (∀ u, u ≠ t → ¬ (y.w.threads u).isMarking) → ¬ out.th.isMarking →
      ∀ u, ¬ ((y.after t out).w.threads u).isMarking := by
    intro y t out h ho u
    by_cases hu : u = t
    · subst hu
      rw [show (y.after u out).w.threads u = out.th from if_pos rfl]
      exact ho
    · exact keep h u hu
  have h0 : ∀ u, u ≠ 0 → ¬ (((TaskWorld.start progs).begin progs 1 none none).w.threads u).isMarking := by
    intro u _
    by_cases hu : u = 1
    · subst hu; exact fun ⟨_, _, _, _, h⟩ => nomatch h
    · rw [show ((TaskWorld.start progs).begin progs 1 none none).w.threads u = (TaskWorld.start progs).w.threads u from if_neg hu]
      exact no u
  have r := AioRun.refl (env := cEnv) (progs := progs) (x := .start progs)
  have r := r.step (.task 0 1 (by decide) (by decide)) trivial
  have r := r.step (.run 0 _ (by decide) rfl) h0
  have r := r.step (.run 0 _ (by decide) rfl) (keep h0)
  have r := r.step (.run 0 _ (by decide) rfl) (keep (keep h0))
  have r := r.step (.run 0 _ (by decide) rfl) (keep (keep (keep h0)))
  have r := r.step (.run 1 _ (by decide) rfl) (fun u _ => other (keep (keep (keep h0))) (fun ⟨_, _, _, _, h⟩ => nomatch h) u)
  have r := r.step (.run 1 _ (by decide) rfl) (keep fun u _ => other (keep (keep (keep h0))) (fun ⟨_, _, _, _, h⟩ => nomatch h) u)
  have r := r.step (.run 1 _ (by decide) rfl) (keep (keep fun u _ => other (keep (keep (keep h0))) (fun ⟨_, _, _, _, h⟩ => nomatch h) u))
  exact ⟨_, r, rfl, by decide +kernel, ⟨_, rfl⟩, ⟨_, rfl⟩⟩

/-! ### Executions -/

/-- Doing a list of actions, for examples. -/
def TaskWorld.exec (env : CEnv) (progs : Nat → Body) : List TkAct → TaskWorld → Option TaskWorld
  | [], x => some x
  | .run t :: acts, x =>
    if t ∈ x.begun then
      match (x.w.threads t).step env (fun e => decide (GExc.of t e ∈ x.w.marked)) with
      | none => none
      | some out => TaskWorld.exec env progs acts (x.after t out)
    else none
  | .task t u :: acts, x =>
    if t ∈ x.begun ∧ u ∉ x.begun then
      TaskWorld.exec env progs acts (x.begin progs u (x.w.threads t).msg (x.w.threads t).unlog)
    else none
  | .thread t u :: acts, x =>
    if t ∈ x.begun ∧ u ∉ x.begun then TaskWorld.exec env progs acts (x.begin progs u none none) else none

theorem TaskWorld.exec_run {env : CEnv} {progs : Nat → Body} : ∀ {acts : List TkAct} {x y : TaskWorld}, x.exec env progs acts = some y →
    TkRun env progs x y := by
  intro acts
  induction acts with
  | nil => intro x y h; cases h; exact .refl
  | cons a acts ih =>
    intro x y h
    cases a <;> unfold TaskWorld.exec at h <;> split at h
    · rename_i t ht
      split at h
      · cases h
      · rename_i out ho
        exact (TkRun.refl.step (.run t out ht ho)).trans (ih h)
    · cases h
    · rename_i t u ht
      exact (TkRun.refl.step (.task t u ht.1 ht.2)).trans (ih h)
    · cases h
    · rename_i t u ht
      exact (TkRun.refl.step (.thread t u ht.1 ht.2)).trans (ih h)
    · cases h

/-- A function marked `@unlog(full=True)` which makes number 1 (in the middle), and the code of number 1: a decorated function. -/
def unlogMaker (t : Nat) : Body :=
  if t = 0 then .call (.unlogged (some true)) (.call .plain (.ret cVal) andReturn) andReturn
  else .call (.logged (cDeco 9) (cFn "f")) (.ret cVal) andReturn

theorem unlogMaker_own (t : Nat) : Own twoOwner t (unlogMaker t) := by
  unfold unlogMaker
  split
  · exact ⟨⟨trivial, andReturn_own⟩, andReturn_own⟩
  · exact ⟨trivial, andReturn_own⟩

theorem unlogMaker_noUnlog : NoUnlog (unlogMaker 1) :=
  ⟨(fun _ h => nomatch h), trivial, fun o => by cases o <;> trivial⟩

/-- The hypotheses of `C29_task_of_an_unlogged_call_records_nothing_partial` are met; the task goes on when the unlogged call has
ended. -/
example : (∀ t, Own twoOwner t (unlogMaker t)) ∧ NoUnlog (unlogMaker 1) ∧
    ∃ x x' y, TkRun cEnv unlogMaker (.start unlogMaker) x ∧ TkStep cEnv unlogMaker x (.task 0 1) x' ∧
      unlogStatus cEnv (x.w.threads 0).view = true ∧ TkRun cEnv unlogMaker x' y ∧
      unlogStatus cEnv (y.w.threads 0).view = false ∧ ∃ o, (y.w.threads 1).ctl = .halted o := by
  refine ⟨unlogMaker_own, unlogMaker_noUnlog, ?_⟩
  obtain ⟨x, hx, hx'⟩ : ∃ x, (TaskWorld.start unlogMaker).exec cEnv unlogMaker [.run 0] = some x ∧
      (x.begun = [0] ∧ unlogStatus cEnv (x.w.threads 0).view = true ∧
      ∃ y, (x.begin unlogMaker 1 (x.w.threads 0).msg (x.w.threads 0).unlog).exec cEnv unlogMaker
        [.run 0, .run 0, .run 0, .run 0, .run 1, .run 1, .run 1] = some y ∧ unlogStatus cEnv (y.w.threads 0).view = false ∧
        ∃ o, (y.w.threads 1).ctl = .halted o) :=
    ⟨_, rfl, rfl, rfl, _, rfl, rfl, _, rfl⟩
  obtain ⟨h1, h2, y, h3, h4, h5⟩ := hx'
  exact ⟨x, _, y, TaskWorld.exec_run hx, .task 0 1 (by rw [h1]; decide) (by rw [h1]; decide), h2, TaskWorld.exec_run h3, h4, h5⟩

/-- **C29 fails for threads**: a thread that is started in a call of a function marked `@unlog(full=True)` does log, while this call is
still going on: a new thread has no context variables. -/
theorem C29_thread_started_by_an_unlogged_call_logs_fails : ∃ (env : CEnv) (progs : Nat → Body) (x x' y : TaskWorld),
    TkRun env progs (.start progs) x ∧ unlogStatus env (x.w.threads 0).view = true ∧ x.w.records = [] ∧
    TkRun env progs x' y ∧ TkStep env progs x (.thread 0 1) x' ∧
    unlogStatus env (y.w.threads 0).view = true ∧ NoUnlog (progs 1) ∧ y.w.records.map Prod.fst = [1] := by
  obtain ⟨x, hx, h1, h2, h6, y, h3, h4, h5⟩ : ∃ x, (TaskWorld.start unlogMaker).exec cEnv unlogMaker [.run 0] = some x ∧
      x.begun = [0] ∧ unlogStatus cEnv (x.w.threads 0).view = true ∧ x.w.records = [] ∧
      ∃ y, (x.begin unlogMaker 1 none none).exec cEnv unlogMaker [.run 1, .run 1, .run 1] = some y ∧
        unlogStatus cEnv (y.w.threads 0).view = true ∧ y.w.records.map Prod.fst = [1] :=
    ⟨_, rfl, rfl, rfl, rfl, _, rfl, rfl, by decide +kernel⟩
  exact ⟨cEnv, unlogMaker, x, _, y, TaskWorld.exec_run hx, h2, h6, TaskWorld.exec_run h3, .thread 0 1 (by rw [h1]; decide) (by rw [h1]; decide),
    h4, unlogMaker_noUnlog, h5⟩

/-- A decorated function which makes task 1 and waits for it; the task leaves a message. -/
def msgMaker (t : Nat) : Body :=
  if t = 0 then .call (.logged (cDeco 9) (cFn "f")) (.call .plain (.ret cVal) andReturn) andReturn
  else .msg [.str "hello".toList] [] fun _ => .ret cVal

/-- **C28 fails for tasks**: a message left by a task, made by a decorated function which waits for it (`await gather(...)`), is not in the
record of this function. -/
theorem C28_message_of_a_task_is_lost_fails : ∃ (env : CEnv) (progs : Nat → Body) (x : TaskWorld),
    (∀ t, Valid env (progs t)) ∧ (progs 1 = .msg [.str "hello".toList] [] fun _ => .ret cVal) ∧ TkRun env progs (.start progs) x ∧
    x.w.records.map (fun r => (r.1, Dict.get? "message".toList r.2.data)) = [(0, none)] ∧
    (∃ o, (x.w.threads 0).ctl = .halted o) ∧ ∃ o, (x.w.threads 1).ctl = .halted o := by
  obtain ⟨x, hx, h1, h2, h3⟩ : ∃ x, (TaskWorld.start msgMaker).exec cEnv msgMaker
      [.run 0, .task 0 1, .run 1, .run 1, .run 0, .run 0, .run 0, .run 0] = some x ∧
      x.w.records.map (fun r => (r.1, Dict.get? "message".toList r.2.data)) = [(0, none)] ∧
      (∃ o, (x.w.threads 0).ctl = .halted o) ∧ ∃ o, (x.w.threads 1).ctl = .halted o :=
    ⟨_, rfl, by decide +kernel, ⟨_, rfl⟩, ⟨_, rfl⟩⟩
  refine ⟨cEnv, msgMaker, x, fun t => ?_, rfl, TaskWorld.exec_run hx, h1, h2, h3⟩
  unfold msgMaker
  split
  · exact ⟨⟨trivial, trivial⟩, .inr ⟨9, rfl, by decide⟩, rfl, rfl, trivial⟩
  · exact trivial

end Polog
