import Verif.Calls.ThreadsSpec
import Verif.Calls.Props

/-! C78: threads do not disturb each other.  `Calls/ThreadsExamples.lean` has an execution that meets the hypotheses. -/

namespace Polog
open CallSpec

/-! ### One thread alone, step by step -/

/-- A thread with its marks and records. -/
structure AloneSt where
  th : ThSt
  marked : List ExcId
  recs : List Rec

inductive AloneStep (env : CEnv) (c : AloneSt) : AloneSt → Prop
  | step (out : ThOut) : c.th.step env (fun x => decide (x ∈ c.marked)) = some out →
      AloneStep env c ⟨out.th, out.marks ++ c.marked, c.recs ++ out.recs⟩

inductive AloneRun (env : CEnv) (c : AloneSt) : AloneSt → Prop
  | refl : AloneRun env c c
  | step {c' c'' : AloneSt} : AloneRun env c c' → AloneStep env c' c'' → AloneRun env c c''

theorem AloneRun.trans {env : CEnv} {a b c : AloneSt} (h1 : AloneRun env a b) (h2 : AloneRun env b c) : AloneRun env a c := by
  induction h2 with
  | refl => exact h1
  | step _ h ih => exact ih.step h

theorem AloneStep.det {env : CEnv} {a b c : AloneSt} (h1 : AloneStep env a b) (h2 : AloneStep env a c) : b = c := by
  cases h1 with
  | step o1 e1 =>
    cases h2 with
    | step o2 e2 => rw [e1] at e2; cases e2; rfl

theorem AloneRun.head {env : CEnv} {a c : AloneSt} (h : AloneRun env a c) : a = c ∨ ∃ b, AloneStep env a b ∧ AloneRun env b c := by
  induction h with
  | refl => exact .inl rfl
  | step h1 h2 ih =>
    rcases ih with rfl | ⟨b, hb, hr⟩
    · exact .inr ⟨_, h2, .refl⟩
    · exact .inr ⟨b, hb, hr.step h2⟩

theorem AloneStep.not_halted {env : CEnv} {a b : AloneSt} {o : Outcome} (h : AloneStep env a b) : a.th.ctl ≠ .halted o := by
  intro he
  cases h with
  | step out e =>
    unfold ThSt.step at e
    rw [he] at e
    cases e

/-- A run to the end goes through every state that can be reached. -/
theorem AloneRun.through {env : CEnv} {a b c : AloneSt} {o : Outcome} (h1 : AloneRun env a b) (h2 : AloneRun env a c)
    (hc : c.th.ctl = .halted o) : AloneRun env b c := by
  induction h1 with
  | refl => exact h2
  | step _ h ih =>
    rcases ih.head with rfl | ⟨x, hx, hr⟩
    · exact absurd hc (AloneStep.not_halted h)
    · rw [AloneStep.det h hx]; exact hr

theorem AloneRun.recs_prefix {env : CEnv} {a b : AloneSt} (h : AloneRun env a b) : a.recs <+: b.recs := by
  induction h with
  | refl => exact List.prefix_refl _
  | step _ h ih =>
    cases h with
    | step out _ => exact ih.trans (List.prefix_append _ _)

/-- The thread with the context variables, marks and records of a state of `Body.run`. -/
def AloneSt.at (ctl : Ctl) (stack : List CtlFrame) (s : CallState) : AloneSt := ⟨⟨ctl, stack, s.msg, s.unlog, s.next⟩, s.marked, s.records⟩

theorem logNormal_view (env : CEnv) (d : Deco) (info : FnInfo) (v : Val) (s : CallState) :
    logNormal env d info v s = ((logNormal env d info v { s with marked := [], records := [] }).1,
      { (logNormal env d info v { s with marked := [], records := [] }).2 with
        marked := s.marked
        records := s.records ++ (logNormal env d info v { s with marked := [], records := [] }).2.records }) := by
  unfold logNormal
  have : unlogStatus env { s with marked := [], records := [] } = unlogStatus env s := rfl
  rw [this]
  split
  · simp
  · split
    · simp
    · split
      · split
        · simp
        · dsimp only [copyContext]
          split <;> simp
      · simp

theorem logException_view (env : CEnv) (d : Deco) (info : FnInfo) (e : Exc) (s : CallState)
    (hu : unlogStatus env s = false) (hc : e.id ∉ s.marked ∨ env.dedup = false) :
    logException env d info e s = ((logException env d info e { s with marked := [], records := [] }).1,
      { (logException env d info e { s with marked := [], records := [] }).2 with
        marked := e.id :: s.marked
        records := s.records ++ (logException env d info e { s with marked := [], records := [] }).2.records }) := by
  unfold logException
  have h1 : unlogStatus env { s with marked := [], records := [] } = false := hu
  rw [h1, hu, if_pos hc, if_pos (Or.inl (List.not_mem_nil))]
  simp only [Bool.false_eq_true, if_false]
  split
  · split
    · simp [copyContext]
    · simp
  · simp

theorem blockEnd_view (env : CEnv) (o : BlockOpts) (out : Outcome) (s : CallState) :
    blockEnd env o out s = ((blockEnd env o out { s with marked := [], records := [] }).1,
      { (blockEnd env o out { s with marked := [], records := [] }).2 with
        marked := s.marked
        records := s.records ++ (blockEnd env o out { s with marked := [], records := [] }).2.records }) := by
  unfold blockEnd
  have : unlogStatus env { s with marked := [], records := [] } = unlogStatus env s := rfl
  simp only [this]
  split
  · split
    · simp
    · split
      · simp
      · split <;> simp
  · simp

theorem loggedEnd_raised {env : CEnv} {d : Deco} {info : FnInfo} {e : Exc} {s : CallState} (he : e.isException = true) :
    loggedEnd env d info (.raised e) s =
      match logException env d info e s with
      | (some e', s) => (.raised e', s)
      | (none, s) => (afterException env d e, s) := by
  unfold loggedEnd afterException
  simp only [he, if_true]
  generalize logException env d info e s = r
  obtain ⟨x, s'⟩ := r
  cases x with
  | some e' => rfl
  | none =>
    dsimp only
    split
    · rfl
    · split <;> rfl

theorem AloneRun.one {env : CEnv} {ctl : Ctl} {stack : List CtlFrame} {s : CallState} {out : ThOut} {c : AloneSt}
    (h : (⟨ctl, stack, s.msg, s.unlog, s.next⟩ : ThSt).step env (fun x => decide (x ∈ s.marked)) = some out)
    (hc : (⟨out.th, out.marks ++ s.marked, s.records ++ out.recs⟩ : AloneSt) = c) :
    AloneRun env (AloneSt.at ctl stack s) c := by
  rw [← hc]
  exact AloneRun.step (c := AloneSt.at ctl stack s) .refl (AloneStep.step (c := AloneSt.at ctl stack s) out h)

theorem step_andReturn {env : CEnv} {seen : ExcId → Bool} {th : ThSt} {o : Outcome} (h : th.ctl = .code (andReturn o)) :
    th.step env seen = some (th.leave env seen o) := by
  unfold ThSt.step
  cases o <;> simp only [h, andReturn]

/-- Leaving a decorated function, step by step. -/
theorem solo_logged (env : CEnv) (d : Deco) (info : FnInfo) (k : Outcome → Body) (o : Outcome) (stack : List CtlFrame) (s : CallState) :
    AloneRun env (AloneSt.at (.code (andReturn o)) (.logged d info k :: stack) s)
      (AloneSt.at (.code (k (loggedEnd env d info o s).1)) stack (loggedEnd env d info o s).2) := by
  cases o with
  | ret v =>
    refine AloneRun.one (step_andReturn rfl) ?_
    have hv := logNormal_view env d info v s
    unfold ThSt.leave loggedEnd
    dsimp only [ThSt.view]
    rw [hv]
    generalize logNormal env d info v { s with marked := [], records := [] } = r
    obtain ⟨x, s'⟩ := r
    cases x <;> rfl
  | raised e =>
    by_cases he : e.isException = true
    · rw [loggedEnd_raised he]
      by_cases hu : unlogStatus env s = true
      · have hx : logException env d info e s = (none, s) := by unfold logException; rw [if_pos hu]
        rw [hx]
        refine AloneRun.one (step_andReturn rfl) ?_
        have hu' : unlogStatus env (⟨s.msg, s.unlog, [], s.next, []⟩ : CallState) = true := hu
        simp [ThSt.leave, ThSt.goOn, ThSt.view, AloneSt.at, he, hu']
      · rw [Bool.not_eq_true] at hu
        have hu' : unlogStatus env (⟨s.msg, s.unlog, [], s.next, []⟩ : CallState) = false := hu
        by_cases hc : e.id ∉ s.marked ∨ env.dedup = false
        · have h1 : AloneRun env (AloneSt.at (.code (andReturn (.raised e))) (.logged d info k :: stack) s)
              (AloneSt.at (.marking d info k e) stack s) := by
            refine AloneRun.one (step_andReturn rfl) ?_
            have hc' : e.id ∈ s.marked → env.dedup = false := fun h => hc.resolve_left (fun h' => h' h)
            simp [ThSt.leave, ThSt.view, AloneSt.at, he, hu']
            by_cases hm : e.id ∈ s.marked
            · simp [hc' hm]
            · simp [hm]
          refine h1.trans ?_
          rw [logException_view env d info e s hu hc]
          have hv : (⟨.marking d info k e, stack, s.msg, s.unlog, s.next⟩ : ThSt).view = { s with marked := [], records := [] } := rfl
          generalize hr : logException env d info e { s with marked := [], records := [] } = r
          obtain ⟨x, s'⟩ := r
          cases x with
          | none =>
            refine AloneRun.one (out := ThSt.goOn ⟨.marking d info k e, stack, s.msg, s.unlog, s.next⟩ (k (afterException env d e)) stack s' [e.id]) ?_ rfl
            unfold ThSt.step
            simp only [hv, hr]
          | some e' =>
            refine AloneRun.one (out := ThSt.goOn ⟨.marking d info k e, stack, s.msg, s.unlog, s.next⟩ (k (.raised e')) stack s' [e.id]) ?_ rfl
            unfold ThSt.step
            simp only [hv, hr]
        · have hx : logException env d info e s = (none, s) := by
            unfold logException; rw [hu, if_neg (by decide), if_neg hc]
          rw [hx]
          refine AloneRun.one (step_andReturn rfl) ?_
          rw [not_or, not_not, Bool.not_eq_false] at hc
          simp [ThSt.leave, ThSt.goOn, ThSt.view, AloneSt.at, he, hu', hc.1, hc.2]
    · have hx : loggedEnd env d info (.raised e) s = (.raised e, s) := by
        unfold loggedEnd; dsimp only; rw [if_neg he]
      rw [hx]
      refine AloneRun.one (step_andReturn rfl) ?_
      simp [ThSt.leave, ThSt.goOn, ThSt.view, AloneSt.at, he]

/-- Step by step a thread does what `Body.run` says. -/
theorem solo_run (env : CEnv) : ∀ (b : Body) (stack : List CtlFrame) (s : CallState),
    AloneRun env (AloneSt.at (.code b) stack s) (AloneSt.at (.code (andReturn (b.run env s).1)) stack (b.run env s).2) := by
  intro b
  induction b with
  | ret v => intro stack s; exact .refl
  | raise e => intro stack s; exact .refl
  | call kind b k ihb ihk =>
    intro stack s
    cases kind with
    | plain =>
      have h1 : AloneRun env (AloneSt.at (.code (.call .plain b k)) stack s) (AloneSt.at (.code b) (.plain k :: stack) s) :=
        AloneRun.one rfl (by simp [ThSt.goOn, ThSt.view, AloneSt.at])
      refine (h1.trans (ihb _ _)).trans ?_
      simp only [Body.run]
      generalize b.run env s = r
      obtain ⟨o, s'⟩ := r
      refine AloneRun.trans (AloneRun.one (step_andReturn rfl) ?_) (ihk o stack s')
      simp [ThSt.leave, ThSt.goOn, ThSt.view, AloneSt.at]
    | logged d info =>
      have h1 : AloneRun env (AloneSt.at (.code (.call (.logged d info) b k)) stack s)
          (AloneSt.at (.code b) (.logged d info k :: stack) { s with msg := none }) :=
        AloneRun.one rfl (by simp [ThSt.goOn, ThSt.view, AloneSt.at])
      refine (h1.trans (ihb _ _)).trans ?_
      simp only [Body.run]
      generalize b.run env { s with msg := none } = r
      obtain ⟨o, s'⟩ := r
      exact (solo_logged env d info k o stack s').trans (ihk _ stack _)
    | unlogged full =>
      have h1 : AloneRun env (AloneSt.at (.code (.call (.unlogged full) b k)) stack s)
          (AloneSt.at (.code b) (.unlogged k :: stack) { s with unlog := some full }) :=
        AloneRun.one rfl (by simp [ThSt.goOn, ThSt.view, AloneSt.at])
      refine (h1.trans (ihb _ _)).trans ?_
      simp only [Body.run]
      generalize b.run env { s with unlog := some full } = r
      obtain ⟨o, s'⟩ := r
      refine AloneRun.trans (AloneRun.one (step_andReturn rfl) ?_) (ihk o stack { s' with unlog := none })
      simp [ThSt.leave, ThSt.goOn, ThSt.view, AloneSt.at]
  | block o b k ihb ihk =>
    intro stack s
    have h1 : AloneRun env (AloneSt.at (.code (.block o b k)) stack s) (AloneSt.at (.code b) (.block o k :: stack) s) :=
      AloneRun.one rfl (by simp [ThSt.goOn, ThSt.view, AloneSt.at])
    refine (h1.trans (ihb _ _)).trans ?_
    simp only [Body.run]
    generalize b.run env s = r
    obtain ⟨out, s'⟩ := r
    dsimp only
    refine AloneRun.trans (AloneRun.one (step_andReturn rfl) ?_) (ihk (blockEnd env o out s').1 stack (blockEnd env o out s').2)
    have hv := blockEnd_view env o out s'
    rw [hv]
    unfold ThSt.leave
    dsimp only [ThSt.view]
    generalize blockEnd env o out { s' with marked := [], records := [] } = r
    obtain ⟨x, s''⟩ := r
    rfl
  | msg args kwargs k ih =>
    intro stack s
    simp only [Body.run]
    have hstep : ∀ seen, (⟨.code (.msg args kwargs k), stack, s.msg, s.unlog, s.next⟩ : ThSt).step env seen =
        match messageCall env.h args kwargs with
        | .error e => some ⟨⟨.code (k (some e)), stack, s.msg, s.unlog, s.next⟩, [], []⟩
        | .ok none => some ⟨⟨.code (k none), stack, s.msg, s.unlog, s.next⟩, [], []⟩
        | .ok (some fields) => some ⟨⟨.code (k none), stack, some fields, s.unlog, s.next⟩, [], []⟩ := fun _ => rfl
    generalize messageCall env.h args kwargs = m at hstep
    rcases m with e | _ | fields
    · exact AloneRun.trans (AloneRun.one (hstep _) (by simp [AloneSt.at])) (ih _ stack s)
    · exact AloneRun.trans (AloneRun.one (hstep _) (by simp [AloneSt.at])) (ih _ stack s)
    · exact AloneRun.trans (AloneRun.one (hstep _) (by simp [AloneSt.at])) (ih _ stack { s with msg := some fields })
  | manual args kwargs k ih =>
    intro stack s
    simp only [Body.run]
    refine AloneRun.trans (AloneRun.one rfl ?_) (ih (handleLog { env.h with unlogged := unlogStatus env s } args kwargs).raised stack
      { s with records := s.records ++ ((handleLog { env.h with unlogged := unlogStatus env s } args kwargs).records.map
        (fun data => ⟨.manual, data⟩)) })
    rfl

/-- A thread alone comes to its end. -/
theorem solo_ends (env : CEnv) (b : Body) (s : CallState) :
    AloneRun env (AloneSt.at (.code b) [] s) (AloneSt.at (.halted (b.run env s).1) [] (b.run env s).2) :=
  (solo_run env b [] s).trans (AloneRun.one (step_andReturn rfl) (by simp [ThSt.leave, AloneSt.at]))

/-! ### Exceptions of the thread -/

def CallSpec.OwnFrame (owner : Nat → Nat) (t : Nat) : CtlFrame → Prop
  | .plain k => ∀ o, OwnOutcome owner t o → Own owner t (k o)
  | .logged _ _ k => ∀ o, OwnOutcome owner t o → Own owner t (k o)
  | .unlogged k => ∀ o, OwnOutcome owner t o → Own owner t (k o)
  | .block _ k => ∀ o, OwnOutcome owner t o → Own owner t (k o)

def CallSpec.OwnCtl (owner : Nat → Nat) (t : Nat) : Ctl → Prop
  | .code b => Own owner t b
  | .marking _ _ k e => OwnId owner t e.id ∧ ∀ o, OwnOutcome owner t o → Own owner t (k o)
  | .halted _ => True

/-- The thread can raise and mark only exception objects of its own. -/
structure CallSpec.OwnTh (owner : Nat → Nat) (t : Nat) (th : ThSt) : Prop where
  ctl : OwnCtl owner t th.ctl
  stack : ∀ f ∈ th.stack, OwnFrame owner t f

theorem afterException_own {env : CEnv} {d : Deco} {e : Exc} {owner : Nat → Nat} {t : Nat} (h : OwnId owner t e.id) :
    OwnOutcome owner t (afterException env d e) := by
  unfold afterException
  split
  · trivial
  · split
    · trivial
    · exact h

theorem blockEnd_own {env : CEnv} {o : BlockOpts} {out : Outcome} {s : CallState} {owner : Nat → Nat} {t : Nat}
    (h : OwnOutcome owner t out) : OwnOutcome owner t (blockEnd env o out s).1 := by
  unfold blockEnd
  split
  · dsimp only
    split
    · trivial
    · split
      · trivial
      · split
        · trivial
        · exact h
  · trivial

theorem logNormal_own {env : CEnv} {d : Deco} {info : FnInfo} {v : Val} {s s' : CallState} {e : Exc} {owner : Nat → Nat} {t : Nat}
    (h : logNormal env d info v s = (some e, s')) : OwnId owner t e.id := by
  unfold logNormal at h
  split at h
  · cases h
  · split at h
    · cases h; trivial
    · split at h
      · split at h
        · cases h; trivial
        · dsimp only at h
          split at h
          · cases h; trivial
          · cases h
      · cases h

theorem logException_own {env : CEnv} {d : Deco} {info : FnInfo} {x : Exc} {s s' : CallState} {e : Exc} {owner : Nat → Nat} {t : Nat}
    (h : logException env d info x s = (some e, s')) : OwnId owner t e.id := by
  unfold logException at h
  split at h
  · cases h
  · split at h
    · dsimp only at h
      split at h
      · split at h
        · cases h
        · cases h; trivial
      · cases h
    · cases h

theorem leave_own {env : CEnv} {owner : Nat → Nat} {t : Nat} {th : ThSt} (h : ∀ f ∈ th.stack, OwnFrame owner t f) {seen seen' : ExcId → Bool}
    (hs : ∀ x, OwnId owner t x → seen x = seen' x) {o : Outcome} (ho : OwnOutcome owner t o) :
    th.leave env seen o = th.leave env seen' o ∧ OwnTh owner t (th.leave env seen o).th ∧ (th.leave env seen o).marks = [] := by
  obtain ⟨ctl, stack, msg, unlog, next⟩ := th
  cases stack with
  | nil => exact ⟨rfl, ⟨trivial, h⟩, rfl⟩
  | cons f st =>
    have hf := h f List.mem_cons_self
    have hst : ∀ f ∈ st, OwnFrame owner t f := fun g hg => h g (List.mem_cons_of_mem _ hg)
    cases f with
    | plain k => exact ⟨rfl, ⟨hf o ho, hst⟩, rfl⟩
    | unlogged k => exact ⟨rfl, ⟨hf o ho, hst⟩, rfl⟩
    | block opts k =>
      exact ⟨rfl, ⟨hf _ (blockEnd_own ho), hst⟩, rfl⟩
    | logged d info k =>
      cases o with
      | ret v =>
        unfold ThSt.leave
        dsimp only
        generalize hr : logNormal env d info v _ = r
        obtain ⟨x, s'⟩ := r
        cases x with
        | none => exact ⟨rfl, ⟨hf _ ho, hst⟩, rfl⟩
        | some e => exact ⟨rfl, ⟨hf (.raised e) (logNormal_own hr), hst⟩, rfl⟩
      | raised e =>
        unfold ThSt.leave
        dsimp only
        rw [hs e.id ho]
        split
        · split
          · exact ⟨rfl, ⟨hf _ (afterException_own ho), hst⟩, rfl⟩
          · split
            · exact ⟨rfl, ⟨⟨ho, hf⟩, hst⟩, rfl⟩
            · exact ⟨rfl, ⟨hf _ (afterException_own ho), hst⟩, rfl⟩
        · exact ⟨rfl, ⟨hf _ ho, hst⟩, rfl⟩

/-- A step depends on the marks of the thread's own exceptions only, and marks only such ones. -/
theorem step_own {env : CEnv} {owner : Nat → Nat} {t : Nat} {th : ThSt} (h : OwnTh owner t th) {seen seen' : ExcId → Bool}
    (hs : ∀ x, OwnId owner t x → seen x = seen' x) :
    th.step env seen = th.step env seen' ∧
      ∀ out, th.step env seen = some out → OwnTh owner t out.th ∧ ∀ x ∈ out.marks, OwnId owner t x := by
  obtain ⟨hc, hst⟩ := h
  have hcons : ∀ {f : CtlFrame}, OwnFrame owner t f → ∀ g ∈ f :: th.stack, OwnFrame owner t g := by
    intro f hf g hg
    rcases List.mem_cons.1 hg with rfl | hg
    · exact hf
    · exact hst g hg
  unfold ThSt.step
  split
  · exact ⟨rfl, fun _ h => nomatch h⟩
  · rename_i d info k e he
    rw [he] at hc
    generalize hr : logException env d info e th.view = r
    obtain ⟨x, s'⟩ := r
    cases x with
    | none =>
      refine ⟨rfl, fun out h => ?_⟩
      cases h
      exact ⟨⟨hc.2 _ (afterException_own hc.1), hst⟩, fun x hx => (List.mem_singleton.1 hx) ▸ hc.1⟩
    | some e' =>
      refine ⟨rfl, fun out h => ?_⟩
      cases h
      exact ⟨⟨hc.2 (.raised e') (logException_own hr), hst⟩, fun x hx => (List.mem_singleton.1 hx) ▸ hc.1⟩
  · rename_i v he
    obtain ⟨h1, h2, h3⟩ := leave_own (env := env) hst hs (o := .ret v) trivial
    refine ⟨congrArg some h1, fun out h => ?_⟩
    cases h
    exact ⟨h2, by rw [h3]; exact fun _ h => nomatch h⟩
  · rename_i e he
    rw [he] at hc
    obtain ⟨h1, h2, h3⟩ := leave_own (env := env) hst hs (o := .raised e) hc
    refine ⟨congrArg some h1, fun out h => ?_⟩
    cases h
    exact ⟨h2, by rw [h3]; exact fun _ h => nomatch h⟩
  · rename_i b k he
    rw [he] at hc
    refine ⟨rfl, fun out h => ?_⟩
    cases h
    exact ⟨⟨hc.1, hcons hc.2⟩, fun _ h => nomatch h⟩
  · rename_i d info b k he
    rw [he] at hc
    refine ⟨rfl, fun out h => ?_⟩
    cases h
    exact ⟨⟨hc.1, hcons hc.2⟩, fun _ h => nomatch h⟩
  · rename_i full b k he
    rw [he] at hc
    refine ⟨rfl, fun out h => ?_⟩
    cases h
    exact ⟨⟨hc.1, hcons hc.2⟩, fun _ h => nomatch h⟩
  · rename_i o b k he
    rw [he] at hc
    refine ⟨rfl, fun out h => ?_⟩
    cases h
    exact ⟨⟨hc.1, hcons hc.2⟩, fun _ h => nomatch h⟩
  · rename_i args kwargs k he
    rw [he] at hc
    rcases messageCall env.h args kwargs with e | _ | fields <;>
    · refine ⟨rfl, fun out h => ?_⟩
      cases h
      exact ⟨⟨hc _, hst⟩, fun _ h => nomatch h⟩
  · rename_i args kwargs k he
    rw [he] at hc
    refine ⟨rfl, fun out h => ?_⟩
    cases h
    exact ⟨⟨hc _, hst⟩, fun _ h => nomatch h⟩

/-! ### All threads -/

theorem GExc.of_inj {t : Nat} {x y : ExcId} (h : GExc.of t x = GExc.of t y) : x = y := by
  cases x <;> cases y <;> simp_all [GExc.of]

theorem GExc.of_other {owner : Nat → Nat} {t u : Nat} (hne : t ≠ u) {x y : ExcId} (hx : OwnId owner t x) (hy : OwnId owner u y) :
    GExc.of t x ≠ GExc.of u y := by
  intro h
  cases x <;> cases y <;> simp_all [GExc.of, OwnId]

/-- The thread is where it would be alone. -/
def AsAlone (env : CEnv) (owner : Nat → Nat) (t : Nat) (c0 : AloneSt) (w : CWorld) : Prop :=
  OwnTh owner t (w.threads t) ∧ ∃ c, AloneRun env c0 c ∧ c.th = w.threads t ∧ c.recs = recordsOf t w.records ∧
    ∀ x, OwnId owner t x → (x ∈ c.marked ↔ GExc.of t x ∈ w.marked)

theorem recordsOf_append (t : Nat) (a b : List (Nat × Rec)) : recordsOf t (a ++ b) = recordsOf t a ++ recordsOf t b := by
  simp [recordsOf]

theorem recordsOf_same (t : Nat) (l : List Rec) : recordsOf t (l.map fun r => (t, r)) = l := by
  induction l with
  | nil => rfl
  | cons r l ih => simp_all [recordsOf]

theorem recordsOf_other {t u : Nat} (h : t ≠ u) (l : List Rec) : recordsOf t (l.map fun r => (u, r)) = [] := by
  induction l with
  | nil => rfl
  | cons r l ih => simp_all [recordsOf, Ne.symm h]

theorem asAlone_step {env : CEnv} {owner : Nat → Nat} {c0 : Nat → AloneSt} {w w' : CWorld} (h : ∀ t, AsAlone env owner t (c0 t) w)
    (hs : CwStep env w w') : ∀ t, AsAlone env owner t (c0 t) w' := by
  cases hs with
  | step u out e =>
    obtain ⟨hu, cu, hr, hth, hrec, hm⟩ := h u
    obtain ⟨heq, hout⟩ := step_own (env := env) hu (seen := fun x => decide (GExc.of u x ∈ w.marked))
      (seen' := fun x => decide (x ∈ cu.marked)) (fun x hx => by simp only [hm x hx])
    obtain ⟨hown, hmarks⟩ := hout out e
    intro t
    by_cases htu : t = u
    · subst htu
      refine ⟨by simpa using hown, ⟨out.th, out.marks ++ cu.marked, cu.recs ++ out.recs⟩, hr.step (AloneStep.step out ?_), by simp, ?_, ?_⟩
      · rw [hth, ← heq]; exact e
      · rw [recordsOf_append, recordsOf_same, hrec]
      · intro x hx
        simp only [List.mem_append, List.mem_map]
        refine or_congr ⟨fun h => ⟨x, h, rfl⟩, fun ⟨y, hy, he⟩ => GExc.of_inj he ▸ hy⟩ (hm x hx)
    · obtain ⟨ht, c, hr', hth', hrec', hm'⟩ := h t
      refine ⟨by simpa [htu] using ht, c, hr', by simpa [htu] using hth', ?_, ?_⟩
      · rw [recordsOf_append, recordsOf_other htu, List.append_nil, hrec']
      · intro x hx
        rw [hm' x hx]
        simp only [List.mem_append, List.mem_map]
        refine ⟨.inr, fun h => h.resolve_left ?_⟩
        rintro ⟨y, hy, he⟩
        exact GExc.of_other htu hx (hmarks y hy) he.symm

theorem asAlone_run {env : CEnv} {owner : Nat → Nat} {progs : Nat → Body} {msg : Nat → Option (Dict Str HVal)}
    {unlog : Nat → Option (Option Bool)} (hown : ∀ t, Own owner t (progs t)) {w : CWorld}
    (h : CwRun env (.start progs msg unlog) w) (t : Nat) :
    AsAlone env owner t (AloneSt.at (.code (progs t)) [] { CallState.init with msg := msg t, unlog := unlog t }) w := by
  revert t
  induction h with
  | refl =>
    intro t
    exact ⟨⟨hown t, fun _ h => nomatch h⟩, _, .refl, rfl, rfl, fun x _ => by simp [AloneSt.at, CallState.init, CWorld.start]⟩
  | step _ hs ih => exact asAlone_step ih hs

/-- **C78**: threads and asyncio tasks that log at the same time do not disturb each other. For any number of threads, any code
in them, any settings, and any order of their steps: if every exception object is used in one thread only, then the records
of each thread are at any moment a beginning of those it would make alone, in the same order; when it ends, they are all
there, and it ends as it would alone. So no message, `@unlog` or suppressed repetition of one thread acts on another. -/
theorem C78_threads_do_not_disturb_each_other (env : CEnv) (owner : Nat → Nat) (progs : Nat → Body)
    (msg : Nat → Option (Dict Str HVal)) (unlog : Nat → Option (Option Bool)) (hown : ∀ t, Own owner t (progs t)) (w : CWorld)
    (h : CwRun env (.start progs msg unlog) w) (t : Nat) :
    recordsOf t w.records <+: (alone env (progs t) (msg t) (unlog t)).2.records ∧
    ∀ o, (w.threads t).ctl = .halted o →
      o = (alone env (progs t) (msg t) (unlog t)).1 ∧ recordsOf t w.records = (alone env (progs t) (msg t) (unlog t)).2.records := by
  obtain ⟨_, c, hr, hth, hrec, _⟩ := asAlone_run hown h t
  have hend := solo_ends env (progs t) { CallState.init with msg := msg t, unlog := unlog t }
  have hgo := hr.through hend rfl
  refine ⟨hrec ▸ hgo.recs_prefix, fun o ho => ?_⟩
  rcases hgo.head with he | ⟨b, hb, _⟩
  · rw [← hth, he] at ho
    rw [← hrec, he]
    exact ⟨(Ctl.halted.inj ho).symm, rfl⟩
  · exact absurd (hth ▸ ho) (AloneStep.not_halted hb)

theorem CwRun.trans {env : CEnv} {a b c : CWorld} (h1 : CwRun env a b) (h2 : CwRun env b c) : CwRun env a c := by
  induction h2 with
  | refl => exact h1
  | step _ h ih => exact ih.step h

theorem AloneRun.length {env : CEnv} {a c : AloneSt} (h : AloneRun env a c) :
    ∃ n, ∃ f : Nat → AloneSt, f 0 = a ∧ f n = c ∧ ∀ i < n, AloneStep env (f i) (f (i + 1)) := by
  induction h with
  | refl => exact ⟨0, fun _ => a, rfl, rfl, fun i h => absurd h (Nat.not_lt_zero i)⟩
  | @step c' c'' _ h ih =>
    obtain ⟨n, f, h0, hn, hs⟩ := ih
    refine ⟨n + 1, fun i => if i ≤ n then f i else c'', by simp [h0], if_neg (by omega), fun i hi => ?_⟩
    by_cases hin : i < n
    · have h1 : i ≤ n := by omega
      have h2 : i + 1 ≤ n := by omega
      simp only [h1, h2, if_true]
      exact hs i hin
    · have : i = n := by omega
      subst this
      dsimp only
      rw [if_pos (Nat.le_refl i), if_neg (show ¬ i + 1 ≤ i by omega), hn]
      exact h

/-- **C78**: no thread ever waits for another one: from every state every thread can come to its end by its own steps alone. -/
theorem C78_every_thread_can_end (env : CEnv) (owner : Nat → Nat) (progs : Nat → Body) (msg : Nat → Option (Dict Str HVal))
    (unlog : Nat → Option (Option Bool)) (hown : ∀ t, Own owner t (progs t)) (w : CWorld)
    (h : CwRun env (.start progs msg unlog) w) (t : Nat) :
    ∃ w', CwRun env w w' ∧ (w'.threads t).ctl = .halted (alone env (progs t) (msg t) (unlog t)).1 ∧
      ∀ u, u ≠ t → w'.threads u = w.threads u := by
  have hend := solo_ends env (progs t) { CallState.init with msg := msg t, unlog := unlog t }
  have key : ∀ (n : Nat) (f : Nat → AloneSt) (w : CWorld), CwRun env (.start progs msg unlog) w →
      (f 0).th = w.threads t → (∀ x, OwnId owner t x → (x ∈ (f 0).marked ↔ GExc.of t x ∈ w.marked)) →
      (∀ i < n, AloneStep env (f i) (f (i + 1))) →
      ∃ w', CwRun env w w' ∧ w'.threads t = (f n).th ∧ ∀ u, u ≠ t → w'.threads u = w.threads u := by
    intro n
    induction n with
    | zero => intro f w _ hth _ _; exact ⟨w, .refl, hth.symm, fun _ _ => rfl⟩
    | succ n ih =>
      intro f w hw hth hm hs
      obtain ⟨how, _⟩ := asAlone_run hown hw t
      have h0 := hs 0 (Nat.succ_pos n)
      generalize hf1 : f 1 = c1 at h0
      cases h0 with
      | step out e =>
        obtain ⟨heq, hout⟩ := step_own (env := env) how (seen := fun x => decide (GExc.of t x ∈ w.marked))
          (seen' := fun x => decide (x ∈ (f 0).marked)) (fun x hx => by simp only [hm x hx])
        rw [hth, ← heq] at e
        have hst := CwStep.step (env := env) (w := w) t out e
        obtain ⟨w', hr, ht, hu⟩ := ih (fun i => f (i + 1)) _ (hw.step hst) (by simp [hf1])
          (by
            intro x hx
            simp only [Nat.zero_add, hf1, List.mem_append, List.mem_map]
            exact or_congr ⟨fun h => ⟨x, h, rfl⟩, fun ⟨y, hy, he⟩ => GExc.of_inj he ▸ hy⟩ (hm x hx))
          (fun i hi => hs (i + 1) (Nat.succ_lt_succ hi))
        refine ⟨w', (CwRun.refl.step hst).trans hr, ht, fun u hne => ?_⟩
        rw [hu u hne]
        simp [hne]
  obtain ⟨_, c, hr, hth, hrec, hm⟩ := asAlone_run hown h t
  obtain ⟨n, f, h0, hn, hs⟩ := (hr.through hend rfl).length
  obtain ⟨w', hw', ht, hu⟩ := key n f w h (by rw [h0, hth]) (by rw [h0]; exact hm) hs
  exact ⟨w', hw', by rw [ht, hn]; rfl, hu⟩

end Polog
