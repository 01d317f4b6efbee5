import Verif.Engine.Exit
import Verif.Engine.Progress

/-!
When a program can end: the other half of C87. The callbacks of `atexit` are executed to the end whenever nothing is left to log
after the engine has been stopped.
-/

namespace Polog
open EngineSpec

theorem TStep.not_to_xBlock {t : Nat} {g g' : Glob} {p p' : PC} (h : TStep t g p g' p') (hb : p ≠ .idle) : p' ≠ .xBlock := by
  cases h with
  | xCall => exact absurd rfl hb
  | _ => simp

theorem TStep.calls_same {t : Nat} {g g' : Glob} {p p' : PC} (h : TStep t g p g' p') (hb : p ≠ .idle) : g'.calls = g.calls := by
  cases h with
  | callFirst | callDirect | callBlocked => exact absurd rfl hb
  | cStore c => cases c <;> rfl
  | _ => rfl

/-- A step of a thread that is not idle, as a step of the program. -/
theorem XReach.busy {e : Eng} {H : List Callback} {A : List Log} {P : ExitPhase} {t : Nat} {g' : Glob} {p' : PC}
    (hP : P ≠ .ended) (hb : e.pc t ≠ .idle) (hs : TStep t e.g (e.pc t) g' p') :
    ∃ H', XReach ⟨e, H, A, P⟩ ⟨⟨g', setFn e.pc t p'⟩, H', A, P⟩ := by
  refine ⟨_, .step .init (.work _ ⟨g', setFn e.pc t p'⟩ (.thread e t g' p' hs) (fun u hu => ?_) (fun x hx hn => ?_) hP)⟩
  · dsimp only at hu ⊢
    by_cases hut : u = t
    · subst hut; rw [setFn_self] at hu; exact absurd hu (hs.not_to_xBlock hb)
    · rwa [setFn_ne _ _ hut] at hu
  · have := hs.calls_same hb
    exact absurd (this ▸ hx) hn

theorem XReach.worker {e : Eng} {H : List Callback} {A : List Log} {P : ExitPhase} {k : Nat} {p p' : Pool} {a : PLabel}
    (hP : P ≠ .ended) (hk : k < e.g.loads) (hr : e.g.real k = .pool p) (hp : PStep p a p') (hput : ∀ l, a ≠ .put l)
    (hstop : a ≠ .stop) :
    XReach ⟨e, H, A, P⟩ ⟨⟨{ e.g with real := setFn e.g.real k (.pool p'), seq := e.g.seq ++ a.log?.toList }, e.pc⟩, H, A, P⟩ := by
  have := XReach.step .init (XStep.work ⟨e, H, A, P⟩ _ (.pool e k p p' a hk hr hp hput hstop) (fun u hu => hu)
    (fun x hx hn => absurd hx hn) hP)
  simpa using this

/-- Threads and workers that go on, as steps of the program: nothing is called. -/
theorem EngineSpec.OnwardBy.program {B : Nat → Prop} {e e' : Eng} (h : OnwardBy B e e') : ∀ {H : List Callback} {A : List Log} {P : ExitPhase},
    P ≠ .ended → (∃ H', XReach ⟨e, H, A, P⟩ ⟨e', H', A, P⟩) ∧ e'.g.calls = e.g.calls ∧ e.g.hooks ≤ e'.g.hooks := by
  induction h with
  | refl e => intro H A P hP; exact ⟨⟨H, .init⟩, rfl, Nat.le_refl _⟩
  | thread t mine g' p' busy hs _ ih =>
    intro H A P hP
    obtain ⟨H1, h1⟩ := XReach.busy (H := H) (A := A) hP busy hs
    obtain ⟨⟨H2, h2⟩, hc, hh⟩ := ih (H := H1) (A := A) hP
    exact ⟨⟨H2, h1.trans h2⟩, hc.trans (hs.calls_same busy), Nat.le_trans hs.hooks_mono hh⟩
  | pool k p p' a hk hr hp hput hstop _ ih =>
    intro H A P hP
    obtain ⟨⟨H2, h2⟩, hc, hh⟩ := ih (H := H) (A := A) hP
    exact ⟨⟨H2, (XReach.worker hP hk hr hp hput hstop).trans h2⟩, hc, hh⟩

/-- The engine works and nobody uses it. -/
structure EngReady (e : Eng) : Prop where
  win : WInv e
  idle : ∀ t, e.pc t = .idle
  hook : 0 < e.g.hooks

theorem EngReady.free {e : Eng} (h : EngReady e) : e.g.engLock = none :=
  engFree h.win.inv.s (t := 0) (by rw [h.idle]; rfl) fun u _ => by rw [h.idle]; rfl

/-- A callback writes a log, and the call returns. -/
theorem write_one {e : Eng} (h : EngReady e) {l : Log} (hl : ∀ x ∈ e.g.calls, x.2 ≠ l) (H : List Callback) (A : List Log) (u : Nat)
    (ls : List Log) (todo : List ExitTask) :
    ∃ e' H', XReach ⟨e, H, A, .writing u (l :: ls) todo⟩ ⟨e', H', A, .writing u ls todo⟩ ∧ EngReady e' ∧
      e'.g.calls = e.g.calls ++ [(u, l)] := by
  have hrun := h.win.running h.free
  have hcall : TStep u e.g .idle { e.g with calls := e.g.calls ++ [(u, l)] } (.wFetch l) := .callDirect _ l hl hrun.1.2.2.1
  let e1 : Eng := ⟨{ e.g with calls := e.g.calls ++ [(u, l)] }, setFn e.pc u (.wFetch l)⟩
  have s1 : XReach ⟨e, H, A, .writing u (l :: ls) todo⟩ ⟨e1, H, A, .writing u ls todo⟩ :=
    .step .init (.write ⟨e, H, A, .writing u (l :: ls) todo⟩ u l ls todo _ _ rfl (h.idle u) hcall rfl)
  have hw1 : WInv e1 := by
    refine ⟨EInv_step h.win.inv (.thread e u _ _ (by rw [h.idle]; exact hcall)), h.win.loaded, h.win.sizes, fun t ht => ?_⟩
    unfold Exiting at ht
    by_cases htu : t = u
    · subst htu
      simp [e1, setFn_self] at ht
    · simp [e1, setFn_ne _ _ htu, h.idle] at ht
  obtain ⟨e2, ho, hw2, hp2, hu2⟩ : To e1 u .idle := to_idle_wFetch hw1 h.free (setFn_self _ _ _)
  obtain ⟨⟨H2, s2⟩, hc, hh⟩ := ho.program (H := H) (A := A) (P := .writing u ls todo) (by simp)
  refine ⟨e2, H2, s1.trans s2, ⟨hw2, fun t => ?_, Nat.lt_of_lt_of_le h.hook hh⟩, hc⟩
  by_cases htu : t = u
  · subst htu; exact hp2
  · rw [hu2 t htu]
    exact (setFn_ne _ _ htu).trans (h.idle t)

/-- A callback writes all its logs. -/
theorem write_all (todo : List ExitTask) (A : List Log) (u : Nat) : ∀ (ls : List Log) {e : Eng} (H : List Callback), EngReady e → ls.Nodup →
    (∀ l ∈ ls, ∀ x ∈ e.g.calls, x.2 ≠ l) →
    ∃ e' H', XReach ⟨e, H, A, .writing u ls todo⟩ ⟨e', H', A, .exiting todo⟩ ∧ EngReady e' ∧
      ∀ x ∈ e'.g.calls, x ∈ e.g.calls ∨ x.2 ∈ ls
  | [], e, H, h, _, _ =>
    ⟨e, H, .step .init (.wrote ⟨e, H, A, .writing u [] todo⟩ u todo rfl (h.idle u)), h, fun x hx => .inl hx⟩
  | l :: ls, e, H, h, hn, hf => by
    obtain ⟨e1, H1, s1, r1, c1⟩ := write_one h (hf l (by simp)) H A u ls todo
    rw [List.nodup_cons] at hn
    obtain ⟨e2, H2, s2, r2, c2⟩ := write_all todo A u ls H1 r1 hn.2 fun l' hl' x hx => by
      rw [c1] at hx
      rcases List.mem_append.1 hx with hx | hx
      · exact hf l' (List.mem_cons_of_mem _ hl') x hx
      · rw [List.mem_singleton.1 hx]
        rintro rfl
        exact hn.1 hl'
    refine ⟨e2, H2, s1.trans s2, r2, fun x hx => ?_⟩
    rcases c2 x hx with hx | hx
    · rw [c1] at hx
      rcases List.mem_append.1 hx with hx | hx
      · exact .inl hx
      · rw [List.mem_singleton.1 hx]; exact .inr (by simp)
    · exact .inr (List.mem_cons_of_mem _ hx)

/-- The logs of the tasks. -/
def taskLogs (ts : List ExitTask) : List Log := ts.flatMap fun t => match t with | .write ls => ls | .stop => []

/-- The callbacks that are executed before the hook of the engine. -/
theorem write_tasks (rest : List ExitTask) (A : List Log) : ∀ (ts : List ExitTask) {e : Eng} (H : List Callback), EngReady e → .stop ∉ ts →
    (taskLogs ts).Nodup → (∀ l ∈ taskLogs ts, ∀ x ∈ e.g.calls, x.2 ≠ l) →
    ∃ e' H', XReach ⟨e, H, A, .exiting (ts ++ rest)⟩ ⟨e', H', A, .exiting rest⟩ ∧ EngReady e'
  | [], e, H, h, _, _, _ => ⟨e, H, .init, h⟩
  | .stop :: _, _, _, _, hs, _, _ => absurd (by simp) hs
  | .write ls :: ts, e, H, h, hs, hn, hf => by
    have hsplit : taskLogs (.write ls :: ts) = ls ++ taskLogs ts := rfl
    rw [hsplit] at hn hf
    have hn' := List.nodup_append.1 hn
    have s0 : XReach ⟨e, H, A, .exiting (.write ls :: (ts ++ rest))⟩ ⟨e, H, A, .writing 0 ls (ts ++ rest)⟩ :=
      .step .init (.begin ⟨e, H, A, .exiting (.write ls :: (ts ++ rest))⟩ 0 ls _ rfl (h.idle 0))
    obtain ⟨e1, H1, s1, r1, c1⟩ := write_all (ts ++ rest) A 0 ls H h hn'.1 fun l hl => hf l (List.mem_append_left _ hl)
    obtain ⟨e2, H2, s2, r2⟩ := write_tasks rest A ts H1 r1 (fun hm => hs (List.mem_cons_of_mem _ hm)) hn'.2.1 fun l hl x hx => by
      rcases c1 x hx with hx | hx
      · exact hf l (List.mem_append_right _ hl) x hx
      · exact hn'.2.2 _ hx _ hl
    exact ⟨e2, H2, (s0.trans s1).trans s2, r2⟩

/-- The workers of a pool that is being stopped go on, while the program ends. -/
theorem workers_go_on {H : List Callback} {A : List Log} {P : ExitPhase} (hP : P ≠ .ended) {k : Nat} {p q : Pool} (h : PQuiet p q) :
    ∀ {e : Eng}, p.stop ≠ .none → k < e.g.loads → e.g.real k = .pool p →
      ∃ e', XReach ⟨e, H, A, P⟩ ⟨e', H, A, P⟩ ∧ e'.pc = e.pc ∧ e'.g.real k = .pool q := by
  induction h with
  | refl p => intro e _ _ hr; exact ⟨e, .init, rfl, hr⟩
  | @step p p' p'' a hst hput _ ih =>
    intro e hs hk hr
    have hstop : a ≠ .stop := by
      rintro rfl
      cases hst with
      | stopCall h => exact hs h
    have hs' : p'.stop ≠ .none := fun hn => hs ((hst.stop_mono hstop).1.2 hn)
    obtain ⟨e', hx, hpc, hr'⟩ := ih (e := ⟨{ e.g with real := setFn e.g.real k (.pool p'), seq := e.g.seq ++ a.log?.toList }, e.pc⟩)
      hs' hk (setFn_self _ _ _)
    exact ⟨e', (XReach.worker hP hk hr hst hput hstop).trans hx, hpc, hr'⟩

/-- The hook of the engine is executed to its end. -/
theorem stop_engine {e : Eng} (h : EngReady e) (H : List Callback) (A : List Log) (todo : List ExitTask) :
    ∃ e' H', XReach ⟨e, H, A, .exiting (.stop :: todo)⟩ ⟨e', H', A, .exiting todo⟩ ∧ e'.pc 1 = .idle := by
  have hrun := h.win.running h.free
  obtain ⟨k, hk⟩ : ∃ k, e.g.loads = k + 1 := ⟨e.g.loads - 1, by have := h.win.loaded; omega⟩
  have s1 : XReach ⟨e, H, A, .exiting (.stop :: todo)⟩ ⟨⟨e.g, setFn e.pc 0 .xBlock⟩, H, A, .stopping 0 todo⟩ :=
    .step .init (.stop ⟨e, H, A, .exiting (.stop :: todo)⟩ 0 todo e.g rfl (h.idle 0) (.xCall _ h.hook))
  have hP : (.stopping 0 todo : ExitPhase) ≠ .ended := by simp
  obtain ⟨H2, s2⟩ := XReach.busy (H := H) (A := A) (e := ⟨e.g, setFn e.pc 0 .xBlock⟩) (t := 0) hP (by simp [setFn_self])
    (g' := { e.g with engLock := some 0 }) (p' := .xSwap) (by dsimp only; rw [setFn_self]; exact .xLock _ h.free)
  obtain ⟨H3, s3⟩ := XReach.busy (H := H2) (A := A) (e := ⟨{ e.g with engLock := some 0 }, setFn (setFn e.pc 0 .xBlock) 0 .xSwap⟩) (t := 0) hP
    (by simp [setFn_self]) (g' := { e.g with engLock := some 0, mode := .blocked }) (p' := .xStop)
    (by dsimp only; rw [setFn_self]; exact .xSwap _)
  generalize hpc3 : setFn (setFn (setFn e.pc 0 .xBlock) 0 .xSwap) 0 .xStop = pc3 at s3
  have h30 : pc3 0 = .xStop := by rw [← hpc3, setFn_self]
  have h31 : pc3 1 = .idle := by rw [← hpc3]; simp [setFn, h.idle]
  -- the end, from the place behind `stop`
  have fin : ∀ (e' : Eng) (H' : List Callback), e'.pc 0 = .xEnd → e'.pc 1 = .idle →
      XReach ⟨⟨{ e.g with engLock := some 0, mode := .blocked }, pc3⟩, H3, A, .stopping 0 todo⟩ ⟨e', H', A, .stopping 0 todo⟩ →
      ∃ e' H', XReach ⟨e, H, A, .exiting (.stop :: todo)⟩ ⟨e', H', A, .exiting todo⟩ ∧ e'.pc 1 = .idle := fun e' H' h0 h1 s4 =>
    ⟨e', H', ((((s1.trans s2).trans s3).trans s4).step (.stopped ⟨e', H', A, .stopping 0 todo⟩ 0 todo rfl h0)), h1⟩
  cases hreal : e.g.real k with
  | single =>
    obtain ⟨H4, s4⟩ := XReach.busy (H := H3) (A := A) (e := ⟨{ e.g with engLock := some 0, mode := .blocked }, pc3⟩) (t := 0) hP (by simp [h30])
      (p' := .xEnd) (by dsimp only; rw [h30]; exact .xStopSingle _ k hk hreal)
    exact fin _ _ (by dsimp only; rw [setFn_self]) (by dsimp only; rw [setFn_ne _ _ (by decide)]; exact h31) s4
  | pool p =>
    have hnone : p.stop = .none := hrun.2 p (by rw [hk]; exact hreal)
    obtain ⟨s, c, tr, hr⟩ := h.win.inv.r.runs k (by omega) p hreal
    have hsize : 0 < s := by
      have := (PInv_run hr).sizeEq
      rw [← this]
      exact h.win.sizes k (by omega) p hreal
    obtain ⟨q, hq, hd⟩ := C19_stop_can_always_complete s c hsize _ _ (.step hr (.stopCall p hnone)) (by simp)
    obtain ⟨H4, s4⟩ := XReach.busy (H := H3) (A := A) (e := ⟨{ e.g with engLock := some 0, mode := .blocked }, pc3⟩) (t := 0) hP (by simp [h30])
      (p' := .xStopping k) (by dsimp only; rw [h30]; exact .xStopPool _ k p _ hk hreal (.stopCall p hnone))
    obtain ⟨e5, s5, hpc5, hr5⟩ := workers_go_on (H := H4) (A := A) hP hq
      (e := ⟨{ e.g with engLock := some 0, mode := .blocked, real := setFn e.g.real k (.pool { p with stop := .polling }) }, setFn pc3 0 (.xStopping k)⟩)
      (by simp) (by dsimp only; omega) (setFn_self _ _ _)
    have h50 : e5.pc 0 = .xStopping k := by rw [hpc5]; dsimp only; rw [setFn_self]
    obtain ⟨H6, s6⟩ := XReach.busy (H := H4) (A := A) (e := e5) (t := 0) hP (by simp [h50]) (p' := .xEnd)
      (by rw [h50]; exact .xStopped _ k q hr5 hd)
    exact fin _ _ (by dsimp only; rw [setFn_self]) (by dsimp only; rw [setFn_ne _ _ (by decide), hpc5]; dsimp only; rw [setFn_ne _ _ (by decide)]; exact h31)
      ((s4.trans s5).trans s6)

/-- Callbacks without logs, whatever the state of the engine. -/
theorem nothing_to_write (e : Eng) (H : List Callback) (A : List Log) (u : Nat) (hu : e.pc u = .idle) : ∀ ts : List ExitTask,
    (∀ t ∈ ts, t = .write []) → XReach ⟨e, H, A, .exiting ts⟩ ⟨e, H, A, .ended⟩
  | [], _ => .step .init (.done ⟨e, H, A, .exiting []⟩ rfl)
  | t :: ts, ht => by
    obtain rfl := ht t (by simp)
    have s0 : XReach ⟨e, H, A, .exiting (.write [] :: ts)⟩ ⟨e, H, A, .writing u [] ts⟩ :=
      .step .init (.begin ⟨e, H, A, .exiting (.write [] :: ts)⟩ u [] ts rfl hu)
    have s1 : XReach ⟨e, H, A, .writing u [] ts⟩ ⟨e, H, A, .exiting ts⟩ :=
      .step .init (.wrote ⟨e, H, A, .writing u [] ts⟩ u ts rfl hu)
    exact (s0.trans s1).trans (nothing_to_write e H A u hu ts fun t h => ht t (List.mem_cons_of_mem _ h))

def Callback.isEngine : Callback → Bool
  | .engine => true
  | _ => false

def Callback.isObjects : Callback → Bool
  | .objects => true
  | _ => false

def Callback.userLogs : Callback → List Log
  | .user ls => ls
  | _ => []

theorem reserved_eq (s : XState) : s.reserved = s.armed ++ s.hooks.flatMap Callback.userLogs := by
  unfold XState.reserved
  congr 1

/-- What is known of the callbacks while the program runs. -/
structure CallbackInv (s : XState) : Prop where
  engine : s.hooks.countP Callback.isEngine = s.e.g.hooks
  objects : s.hooks.countP Callback.isObjects ≤ 1
  nodup : s.phase = .running → (s.armed ++ s.hooks.flatMap Callback.userLogs).Nodup
  fresh : s.phase = .running → ∀ l ∈ s.armed ++ s.hooks.flatMap Callback.userLogs, ∀ x ∈ s.e.g.calls, x.2 ≠ l

theorem TStep.hooks_eq {t : Nat} {g g' : Glob} {p p' : PC} (h : TStep t g p g' p') : g'.hooks = g.hooks ∨ g'.hooks = g.hooks + 1 := by
  cases h with
  | wRegister => exact .inr rfl
  | cStore c => cases c <;> exact .inl rfl
  | _ => exact .inl rfl

theorem EStep.hooks_eq {e e' : Eng} (h : EStep e e') : e'.g.hooks = e.g.hooks ∨ e'.g.hooks = e.g.hooks + 1 := by
  cases h with
  | pool => exact .inl rfl
  | thread t g' p' hs => exact hs.hooks_eq

theorem CallbackInv_reach {s : XState} (h : XReach .init s) : CallbackInv s := by
  induction h with
  | init => exact ⟨rfl, Nat.zero_le _, fun _ => List.nodup_nil, fun _ l hl => nomatch hl⟩
  | @step s s' hr hs ih =>
    have hres := reserved_eq s
    cases hs with
    | work e' he hx hf hp =>
      have hh := he.hooks_eq
      have hfl : ∀ H : List Callback, (H ++ [Callback.engine]).flatMap Callback.userLogs = H.flatMap Callback.userLogs := fun H => by
        simp [Callback.userLogs]
      have hfresh : s.phase = .running → ∀ l ∈ s.armed ++ s.hooks.flatMap Callback.userLogs, ∀ x ∈ e'.g.calls, x.2 ≠ l := fun hp l hl x hx => by
        by_cases hxo : x ∈ s.e.g.calls
        · exact ih.fresh hp l hl x hxo
        · rintro rfl
          exact hf x hx hxo (hres ▸ hl)
      by_cases hn : s.e.g.hooks < e'.g.hooks
      · rw [if_pos hn]
        refine ⟨?_, ?_, ?_, ?_⟩
        · have := ih.engine
          simp only [List.countP_append, List.countP_singleton, Callback.isEngine, if_true]
          omega
        · have := ih.objects
          simp only [List.countP_append, List.countP_singleton, Callback.isObjects]
          simpa using this
        · dsimp only; rw [hfl]; exact ih.nodup
        · dsimp only; rw [hfl]; exact hfresh
      · rw [if_neg hn]
        exact ⟨by have := ih.engine; dsimp only; omega, ih.objects, ih.nodup, hfresh⟩
    | make l hp hl hc =>
      rw [hres] at hl
      have hH : ∀ H', H' = s.hooks ∨ H' = s.hooks ++ [Callback.objects] → H'.flatMap Callback.userLogs = s.hooks.flatMap Callback.userLogs := by
        rintro H' (rfl | rfl)
        · rfl
        · simp [Callback.userLogs]
      have hnd : (s.armed ++ [l] ++ s.hooks.flatMap Callback.userLogs).Nodup := by
        have h1 : (l :: (s.armed ++ s.hooks.flatMap Callback.userLogs)).Nodup := List.nodup_cons.2 ⟨hl, ih.nodup hp⟩
        refine (List.Perm.nodup_iff ?_).2 h1
        rw [List.append_assoc]
        exact List.perm_middle
      have hfr : ∀ l' ∈ s.armed ++ [l] ++ s.hooks.flatMap Callback.userLogs, ∀ x ∈ s.e.g.calls, x.2 ≠ l' := by
        intro l' hl'
        rw [List.append_assoc] at hl'
        rcases List.mem_append.1 hl' with h1 | h1
        · exact ih.fresh hp l' (List.mem_append_left _ h1)
        · rcases List.mem_append.1 h1 with h1 | h1
          · rw [List.mem_singleton.1 h1]; exact hc
          · exact ih.fresh hp l' (List.mem_append_right _ h1)
      split
      · exact ⟨ih.engine, ih.objects, fun _ => hnd, fun _ => hfr⟩
      · rename_i ha
        refine ⟨?_, ?_, ?_, ?_⟩
        · have := ih.engine
          simp only [List.countP_append, List.countP_singleton, Callback.isEngine]
          simpa using this
        · have : s.hooks.countP Callback.isObjects = 0 := by
            rw [List.countP_eq_zero]
            intro c hc hco
            exact ha (List.any_eq_true.2 ⟨c, hc, by cases c <;> first | rfl | cases hco⟩)
          simp only [List.countP_append, List.countP_singleton, Callback.isObjects, this]
          simp
        · dsimp only; rw [hH _ (.inr rfl)]; exact fun _ => hnd
        · dsimp only; rw [hH _ (.inr rfl)]; exact fun _ => hfr
    | use l hp hl =>
      refine ⟨ih.engine, ih.objects, fun _ => ?_, fun _ l' hl' => ?_⟩
      · exact (ih.nodup hp).sublist (List.erase_sublist.append_right _)
      · refine ih.fresh hp l' ?_
        rcases List.mem_append.1 hl' with h1 | h1
        · exact List.mem_append_left _ (List.mem_of_mem_erase h1)
        · exact List.mem_append_right _ h1
    | drop l t g' p' hp hl hi ht hc =>
      have hgh : g'.hooks = s.e.g.hooks := by cases ht <;> rfl
      have hnd := ih.nodup hp
      refine ⟨by rw [hgh]; exact ih.engine, ih.objects, fun _ => ?_, fun _ l' hl' x hx => ?_⟩
      · exact hnd.sublist (List.erase_sublist.append_right _)
      · have hx : x ∈ g'.calls := hx
        rw [hc] at hx
        have hn3 := List.nodup_append.1 hnd
        rcases List.mem_append.1 hx with hx | hx
        · refine ih.fresh hp l' ?_ x hx
          rcases List.mem_append.1 hl' with h1 | h1
          · exact List.mem_append_left _ (List.mem_of_mem_erase h1)
          · exact List.mem_append_right _ h1
        · rw [List.mem_singleton.1 hx]
          rintro rfl
          rcases List.mem_append.1 hl' with h1 | h1
          · exact ((List.Nodup.mem_erase_iff hn3.1).1 h1).1 rfl
          · exact hn3.2.2 _ hl _ h1 rfl
    | register ls hp hn hl =>
      have hfl : (s.hooks ++ [Callback.user ls]).flatMap Callback.userLogs = s.hooks.flatMap Callback.userLogs ++ ls := by simp [Callback.userLogs]
      refine ⟨?_, ?_, fun _ => ?_, fun _ => ?_⟩
      · have := ih.engine
        simp only [List.countP_append, List.countP_singleton, Callback.isEngine]
        simpa using this
      · have := ih.objects
        simp only [List.countP_append, List.countP_singleton, Callback.isObjects]
        simpa using this
      · dsimp only
        rw [hfl, ← List.append_assoc, List.nodup_append]
        refine ⟨ih.nodup hp, hn, fun a ha b hb hab => ?_⟩
        subst hab
        exact (hl a hb).1 (hres ▸ ha)
      · dsimp only
        rw [hfl, ← List.append_assoc]
        intro l hl'
        rcases List.mem_append.1 hl' with h1 | h1
        · exact ih.fresh hp l h1
        · exact (hl l h1).2
    | exit hp => exact ⟨ih.engine, ih.objects, (fun h => by cases h), (fun h => by cases h)⟩
    | stop u todo g' hp hi ht =>
      have hgh : g'.hooks = s.e.g.hooks := by cases ht; rfl
      exact ⟨by rw [hgh]; exact ih.engine, ih.objects, (fun h => by cases h), (fun h => by cases h)⟩
    | write u l ls todo g' p' hp hi ht hc =>
      have hgh : g'.hooks = s.e.g.hooks := by cases ht <;> rfl
      exact ⟨by rw [hgh]; exact ih.engine, ih.objects, (fun h => by cases h), (fun h => by cases h)⟩
    | stopped | begin | wrote | done => exact ⟨ih.engine, ih.objects, (fun h => by cases h), (fun h => by cases h)⟩

theorem taskLogs_count (A : List Log) (a : Log) : ∀ H : List Callback,
    (taskLogs (H.map (Callback.task A))).count a = H.countP Callback.isObjects * A.count a + (H.flatMap Callback.userLogs).count a
  | [] => by simp [taskLogs]
  | c :: H => by
    have ih := taskLogs_count A a H
    unfold taskLogs at ih ⊢
    cases c with
    | engine =>
      simp only [List.map_cons, List.flatMap_cons, Callback.task, Callback.userLogs, List.nil_append, List.countP_cons, Callback.isObjects]
      simpa using ih
    | objects =>
      simp only [List.map_cons, List.flatMap_cons, Callback.task, Callback.userLogs, List.nil_append, List.countP_cons, Callback.isObjects,
        List.count_append, ih, List.count_reverse, if_true, Nat.succ_mul]
      omega
    | user ls =>
      simp only [List.map_cons, List.flatMap_cons, Callback.task, Callback.userLogs, List.countP_cons, Callback.isObjects,
        List.count_append, ih]
      simp
      omega

/-- **C87**, the positive half: a program whose other threads have ended (the interpreter waits for them before it executes the
callbacks), and whose pools have workers, can end if no callback that was registered before the first log has anything to log at
exit. -/
theorem C87_orderly_program_can_end (s : XState) (h : XReach .init s) (hp : s.phase = .running) (hidle : ∀ t, s.e.pc t = .idle)
    (hsize : ∀ k < s.e.g.loads, ∀ p, s.e.g.real k = .pool p → 0 < p.size) (before after : List Callback)
    (hh : s.hooks = before ++ .engine :: after) (hl : ∀ c ∈ before, ¬ HasToLog s c) :
    ∃ s', XReach s.exit s' ∧ s'.phase = .ended := by
  have hI := EInv_reach EInv_init h.eng
  have hC := CallbackInv_reach h
  have hov := hI.s.overview
  have hcount : before.countP Callback.isEngine + (1 + after.countP Callback.isEngine) = s.e.g.hooks := by
    rw [← hC.engine, hh, List.countP_append, List.countP_cons]
    simp only [Callback.isEngine, if_true]
    omega
  have hone : s.e.g.hooks ≤ 1 := hov.2.2.2.1
  have hnoe : ∀ c ∈ before ++ after, Callback.isEngine c ≠ true := by
    have : (before ++ after).countP Callback.isEngine = 0 := by rw [List.countP_append]; omega
    exact List.countP_eq_zero.1 this
  have hready : EngReady s.e := by
    have hfree : s.e.g.engLock = none := engFree hI.s (t := 0) (by rw [hidle]; rfl) fun u _ => by rw [hidle]; rfl
    refine ⟨⟨hI, ?_, fun k hk => hsize k hk, fun t ht => ?_⟩, hidle, by omega⟩
    · rcases hI.s.free hfree with hn | hr
      · have := hn.2.2.2.2; omega
      · exact hr.1.2.1
    · unfold Exiting at ht
      simp [hidle] at ht
  have hcnt : ∀ a, (taskLogs (s.hooks.map (Callback.task s.armed))).count a ≤ (s.armed ++ s.hooks.flatMap Callback.userLogs).count a := fun a => by
    rw [taskLogs_count, List.count_append]
    have := Nat.mul_le_mul_right (s.armed.count a) hC.objects
    omega
  -- the tasks before the hook of the engine
  have hsub : ∀ a, (taskLogs (after.reverse.map (Callback.task s.armed))).count a ≤ (taskLogs (s.hooks.map (Callback.task s.armed))).count a := fun a => by
    rw [taskLogs_count, taskLogs_count, hh, List.countP_reverse, List.countP_append, List.countP_cons, List.flatMap_append, List.flatMap_cons,
      List.count_append, List.count_append, (List.Perm.flatMap_right _ (List.reverse_perm after)).count_eq]
    have := Nat.mul_le_mul_right (s.armed.count a) (Nat.le_add_left (after.countP Callback.isObjects) (before.countP Callback.isObjects))
    simp only [Callback.isObjects]
    simp
    omega
  have hnd : (taskLogs (after.reverse.map (Callback.task s.armed))).Nodup := by
    rw [List.nodup_iff_count]
    intro a
    exact Nat.le_trans (hsub a) (Nat.le_trans (hcnt a) (List.nodup_iff_count.1 (hC.nodup hp) a))
  have hfr : ∀ l ∈ taskLogs (after.reverse.map (Callback.task s.armed)), ∀ x ∈ s.e.g.calls, x.2 ≠ l := fun l hl => by
    refine hC.fresh hp l ?_
    rw [← List.count_pos_iff] at hl ⊢
    exact Nat.lt_of_lt_of_le hl (Nat.le_trans (hsub l) (hcnt l))
  have hns : ExitTask.stop ∉ after.reverse.map (Callback.task s.armed) := fun hm => by
    obtain ⟨c, hc, ht⟩ := List.mem_map.1 hm
    cases c with
    | engine => exact hnoe .engine (List.mem_append_right _ (List.mem_reverse.1 hc)) rfl
    | objects => cases ht
    | user ls => cases ht
  have hexit : s.exit = ⟨s.e, s.hooks, s.armed, .exiting (after.reverse.map (Callback.task s.armed) ++
      .stop :: before.reverse.map (Callback.task s.armed))⟩ := by
    unfold XState.exit
    rw [hh]
    simp [Callback.task]
  obtain ⟨e1, H1, s1, r1⟩ := write_tasks (.stop :: before.reverse.map (Callback.task s.armed)) s.armed _ s.hooks hready hns hnd hfr
  obtain ⟨e2, H2, s2, i2⟩ := stop_engine r1 H1 s.armed (before.reverse.map (Callback.task s.armed))
  have s3 := nothing_to_write e2 H2 s.armed 1 i2 (before.reverse.map (Callback.task s.armed)) fun t ht => by
    obtain ⟨c, hc, rfl⟩ := List.mem_map.1 ht
    have hc := List.mem_reverse.1 hc
    have hno := hl c hc
    cases c with
    | engine => exact absurd rfl (hnoe .engine (List.mem_append_left _ hc))
    | objects =>
      have : s.armed = [] := Classical.byContradiction hno
      rw [this]; rfl
    | user ls =>
      have : ls = [] := Classical.byContradiction hno
      rw [this]; rfl
  rw [hexit]
  exact ⟨_, (s1.trans s2).trans s3, rfl⟩

/-- **C87**, exactly: whether such a program can end depends on the callbacks registered before the first log, and on nothing else. -/
theorem C87_program_can_end_iff (s : XState) (h : XReach .init s) (hp : s.phase = .running) (hidle : ∀ t, s.e.pc t = .idle)
    (hsize : ∀ k < s.e.g.loads, ∀ p, s.e.g.real k = .pool p → 0 < p.size) (before after : List Callback)
    (hh : s.hooks = before ++ .engine :: after) :
    (∃ s', XReach s.exit s' ∧ s'.phase = .ended) ↔ ∀ c ∈ before, ¬ HasToLog s c :=
  ⟨fun ⟨s', hr, he⟩ c hc hw => C87_log_after_the_engine_has_stopped_hangs s s' h before after hh ⟨c, hc, hw⟩ hr he,
   C87_orderly_program_can_end s h hp hidle hsize before after hh⟩

/-- A decorated function has logged, then `x = log('a')` is kept. -/
theorem logs_then_keeps : XReach .init ⟨⟨firstSync [(0, 0)] [0], fun _ => .idle⟩, [.engine, .objects], [1], .running⟩ := by
  have a1 : XReach .init ⟨⟨{ Glob.init with calls := [(0, 0)] }, setFn (fun _ => .idle) 0 (.wFirst 0)⟩, [], [], .running⟩ :=
    .step .init (.work .init ⟨{ Glob.init with calls := [(0, 0)] }, setFn (fun _ => .idle) 0 (.wFirst 0)⟩
      (.thread _ 0 _ _ (.callFirst _ 0 (fun x hx => nomatch hx) rfl)) (fun t ht => by
        simp only [setFn] at ht
        split at ht <;> cases ht) (fun x _ _ => List.not_mem_nil) (by simp [XState.init]))
  have a2 := a1.firstWrite (by simp)
  exact .step a2 (.make ⟨⟨firstSync [(0, 0)] [0], fun _ => .idle⟩, [.engine], [], .running⟩ 1 rfl (by decide) (by decide))

/-- The object is kept to the end, and the program can end: the callback of the objects was registered after the first log. -/
example : ∃ s', XReach (⟨⟨firstSync [(0, 0)] [0], fun _ => .idle⟩, [.engine, .objects], [1], .running⟩ : XState).exit s' ∧ s'.phase = .ended :=
  (C87_program_can_end_iff _ logs_then_keeps rfl (fun _ => rfl) (fun _ _ _ h => by cases h) [] [.objects] rfl).2 (fun _ h => nomatch h)

/-- Two logs in the other order: the program cannot end. -/
example : ¬ ∃ s', XReach (⟨⟨firstSync [(0, 1)] [1], fun _ => .idle⟩, [.objects, .engine], [0], .running⟩ : XState).exit s' ∧ s'.phase = .ended :=
  fun h => (C87_program_can_end_iff _ keeps_an_object rfl (fun _ => rfl) (fun _ _ _ h => by cases h) [.objects] [] rfl).1 h .objects
    (by simp) (by simp [HasToLog])

/-- **C87**: a program that has logged nothing and has nothing to log at exit can end. -/
theorem C87_silent_program_can_end (s : XState) (h : XReach .init s) (hidle : ∃ t, s.e.pc t = .idle) (hno : s.e.g.hooks = 0)
    (hl : ∀ c ∈ s.hooks, ¬ HasToLog s c) : ∃ s', XReach s.exit s' ∧ s'.phase = .ended ∧ s'.e = s.e := by
  obtain ⟨t, ht⟩ := hidle
  have hC := (CallbackInv_reach h).engine
  rw [hno, List.countP_eq_zero] at hC
  refine ⟨_, nothing_to_write s.e s.hooks s.armed t ht _ fun x hx => ?_, rfl, rfl⟩
  obtain ⟨c, hc, rfl⟩ := List.mem_map.1 hx
  have hc := List.mem_reverse.1 hc
  have hw := hl c hc
  cases c with
  | engine => exact absurd rfl (hC .engine hc)
  | objects =>
    have : s.armed = [] := Classical.byContradiction hw
    rw [this]; rfl
  | user ls =>
    have : ls = [] := Classical.byContradiction hw
    rw [this]; rfl

/-- An object of `log(...)` was made and used as a decorator, and a callback without logs is registered. -/
example : ∃ s, XReach .init s ∧ s.hooks = [.objects, .user []] ∧ ∃ s', XReach s.exit s' ∧ s'.phase = .ended ∧ s'.e = s.e := by
  have a1 : XReach .init ⟨Eng.init, [.objects], [0], .running⟩ :=
    .step .init (.make .init 0 rfl List.not_mem_nil (fun x hx => nomatch hx))
  have a2 : XReach .init ⟨Eng.init, [.objects], [], .running⟩ := .step a1 (.use ⟨Eng.init, [.objects], [0], .running⟩ 0 rfl (by decide))
  have a3 : XReach .init ⟨Eng.init, [.objects, .user []], [], .running⟩ :=
    .step a2 (.register ⟨Eng.init, [.objects], [], .running⟩ [] rfl List.nodup_nil (fun l hl => nomatch hl))
  refine ⟨_, a3, rfl, C87_silent_program_can_end _ a3 ⟨0, rfl⟩ rfl fun c hc => ?_⟩
  simp only [List.mem_cons, List.not_mem_nil, or_false] at hc
  rcases hc with rfl | rfl <;> simp [HasToLog]

end Polog
