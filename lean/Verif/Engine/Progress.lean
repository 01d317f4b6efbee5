import Verif.Engine.Witness

/-! Progress of the engine (C18). -/

namespace Polog
open EngineSpec

/-- The invariant after the first load, while no exit hook runs. -/
structure WInv (e : Eng) : Prop where
  inv : EInv e
  loaded : 0 < e.g.loads
  sizes : ∀ k, k < e.g.loads → ∀ p, e.g.real k = .pool p → 0 < p.size
  noExit : ∀ t, ¬ Exiting e t

theorem PStep.size_eq {p p' : Pool} {a : PLabel} (h : PStep p a p') : p'.size = p.size ∧ p'.cap = p.cap := by
  cases h <;> exact ⟨rfl, rfl⟩

theorem WInv_thread {e : Eng} (h : WInv e) {t : Nat} {g' : Glob} {p' : PC} (hb : e.pc t ≠ .idle)
    (hs : TStep t e.g (e.pc t) g' p') : WInv ⟨g', setFn e.pc t p'⟩ := by
  have hphase : (e.pc t).holdsEng = true → Phase e.g (e.pc t) :=
    fun hx => h.inv.s.held t ((h.inv.s.eng t).1 hx)
  refine ⟨EInv_step h.inv (.thread e t g' p' hs), Nat.lt_of_lt_of_le h.loaded hs.mono.1, ?_, ?_⟩
  · have upd : ∀ (j : Nat) (r r' : Pool) (a : PLabel), e.g.real j = .pool r → PStep r a r' →
        g'.real = setFn e.g.real j (.pool r') → g'.loads = e.g.loads →
        ∀ k, k < g'.loads → ∀ p, g'.real k = .pool p → 0 < p.size := by
      intro j r r' a hj hst hg hl k hk p hp
      rw [hg] at hp
      rw [hl] at hk
      by_cases hkj : k = j
      · subst hkj
        rw [setFn_self] at hp; cases hp
        rw [hst.size_eq.1]; exact h.sizes k hk r hj
      · rw [setFn_ne _ _ hkj] at hp; exact h.sizes k hk p hp
    have hl0 := h.loaded
    have hsizes := h.sizes
    generalize e.pc t = pc at hs hphase
    cases hs with
    | wLoadSingle l hz => have := (hphase rfl).2.1; omega
    | wLoadWorkers l cap => have := (hphase rfl).2.1; omega
    | cLoad =>
      intro k hk p hp
      dsimp only [Glob.load] at hk hp
      by_cases hkl : k = e.g.loads
      · subst hkl
        rw [setFn_self] at hp
        unfold fabric at hp
        split at hp
        · cases hp
        · cases hp; simp only [Pool.init]; omega
      · rw [setFn_ne _ _ hkl] at hp; exact h.sizes k (by omega) p hp
    | handPool l j r r' hr hp => exact upd _ _ _ _ hr hp rfl rfl
    | bHandPool l j r r' hr hp => exact upd _ _ _ _ hr hp rfl rfl
    | cStopPool j r r' hl hr hp => exact upd _ _ _ _ hr hp rfl rfl
    | xStopPool j r r' hl hr hp => exact upd _ _ _ _ hr hp rfl rfl
    | cStore c => cases c <;> exact hsizes
    | _ => exact hsizes
  · intro u hx
    by_cases hu : u = t
    · subst hu
      have hne := h.noExit u
      unfold Exiting at hx hne
      dsimp only at hx
      rw [setFn_self] at hx
      generalize e.pc u = pc at hs hne hb
      cases hs <;> simp_all
    · refine h.noExit u ?_
      unfold Exiting at hx ⊢
      dsimp only at hx
      rw [setFn_ne _ _ hu] at hx
      exact hx

theorem WInv_pool {e : Eng} (h : WInv e) {k : Nat} {p p' : Pool} {a : PLabel} (hk : k < e.g.loads)
    (hr : e.g.real k = .pool p) (hp : PStep p a p') (hput : ∀ l, a ≠ .put l) (hstop : a ≠ .stop) :
    WInv ⟨{ e.g with real := setFn e.g.real k (.pool p'), seq := e.g.seq ++ a.log?.toList }, e.pc⟩ := by
  refine ⟨EInv_step h.inv (.pool e k p p' a hk hr hp hput hstop), h.loaded, ?_, h.noExit⟩
  intro j hj q hq
  dsimp only at hj hq
  by_cases hjk : j = k
  · subst hjk
    rw [setFn_self] at hq; cases hq
    rw [hp.size_eq.1]; exact h.sizes j hj p hr
  · rw [setFn_ne _ _ hjk] at hq; exact h.sizes j hj q hq

theorem EngineSpec.OnwardBy.trans {A : Nat → Prop} {a b c : Eng} (h : OnwardBy A a b) (h' : OnwardBy A b c) :
    OnwardBy A a c := by
  induction h with
  | refl => exact h'
  | thread t ht g' p' hb hs _ ih => exact .thread t ht g' p' hb hs (ih h')
  | pool k p p' a hk hr hp h1 h2 _ ih => exact .pool k p p' a hk hr hp h1 h2 (ih h')

theorem EngineSpec.OnwardBy.mono {A B : Nat → Prop} {a b : Eng} (h : OnwardBy A a b) (hAB : ∀ t, A t → B t) :
    OnwardBy B a b := by
  induction h with
  | refl => exact .refl _
  | thread t ht g' p' hb hs _ ih => exact .thread t (hAB t ht) g' p' hb hs ih
  | pool k p p' a hk hr hp h1 h2 _ ih => exact .pool k p p' a hk hr hp h1 h2 ih

theorem EngineSpec.OnwardBy.onward {A : Nat → Prop} {a b : Eng} (h : OnwardBy A a b) : Onward a b := by
  induction h with
  | refl => exact .refl _
  | thread t _ g' p' hb hs _ ih => exact .thread t g' p' hb hs ih
  | pool k p p' a hk hr hp h1 h2 _ ih => exact .pool k p p' a hk hr hp h1 h2 ih

/-- Thread `t` can get to the place `q` while the other threads stay where they are. -/
def To (e : Eng) (t : Nat) (q : PC) : Prop :=
  ∃ e', OnwardBy (· = t) e e' ∧ WInv e' ∧ e'.pc t = q ∧ ∀ u, u ≠ t → e'.pc u = e.pc u

theorem To.refl {e : Eng} {t : Nat} {q : PC} (h : WInv e) (hq : e.pc t = q) : To e t q :=
  ⟨e, .refl e, h, hq, fun _ _ => rfl⟩

theorem To.step {e : Eng} {t : Nat} {p q : PC} {g' : Glob} {p' : PC} (h : WInv e) (hpc : e.pc t = p)
    (hb : p ≠ .idle) (hs : TStep t e.g p g' p')
    (next : ∀ e1 : Eng, WInv e1 → e1.pc t = p' → e1.g = g' → To e1 t q) : To e t q := by
  subst hpc
  have hw := WInv_thread h hb hs
  obtain ⟨e', ho, hw', hq, hu⟩ := next _ hw (setFn_self _ _ _) rfl
  refine ⟨e', .thread t rfl g' p' hb hs ho, hw', hq, fun u hne => ?_⟩
  rw [hu u hne]
  exact setFn_ne _ _ hne

theorem To.trans {e : Eng} {t : Nat} {p q : PC} (h : To e t p)
    (next : ∀ e1 : Eng, WInv e1 → e1.pc t = p → (∀ u, u ≠ t → e1.pc u = e.pc u) → To e1 t q) :
    To e t q := by
  obtain ⟨e1, ho, hw, hp, hu⟩ := h
  obtain ⟨e2, ho2, hw2, hq, hu2⟩ := next e1 hw hp hu
  exact ⟨e2, ho.trans ho2, hw2, hq, fun u hne => by rw [hu2 u hne, hu u hne]⟩

/-- The workers act, the threads stay. -/
theorem lift {A : Nat → Prop} {k : Nat} {p q : Pool} (h : PQuiet p q) : ∀ {e : Eng}, WInv e → p.stop ≠ .none →
    k < e.g.loads → e.g.real k = .pool p →
    ∃ e', OnwardBy A e e' ∧ WInv e' ∧ e'.pc = e.pc ∧ e'.g.loads = e.g.loads ∧ e'.g.real k = .pool q := by
  induction h with
  | refl p => intro e hw hs hk hr; exact ⟨e, .refl e, hw, rfl, rfl, hr⟩
  | @step p p' p'' a hst hput _ ih =>
    intro e hw hs hk hr
    have hstop : a ≠ .stop := by
      rintro rfl
      cases hst with
      | stopCall h => exact hs h
    have hs' : p'.stop ≠ .none := fun hn => hs ((hst.stop_mono hstop).1.2 hn)
    obtain ⟨e', ho, hw', hpc, hl, hr'⟩ := ih (WInv_pool hw hk hr hst hput hstop) hs' hk (setFn_self _ _ _)
    exact ⟨e', .pool k p p' a hk hr hst hput hstop ho, hw', hpc, hl, hr'⟩

/-- A pool that is not closed can make room in its queue. -/
theorem room {A : Nat → Prop} {e : Eng} (hw : WInv e) {k : Nat} {p : Pool} (hk : k < e.g.loads) (hr : e.g.real k = .pool p)
    (hc : p.closed = false) :
    ∃ e' p', OnwardBy A e e' ∧ WInv e' ∧ e'.pc = e.pc ∧ e'.g.real k = .pool p' ∧
      (p'.cap = 0 ∨ p'.queue.length < p'.cap) := by
  obtain ⟨s, c, tr, hrun⟩ := hw.inv.r.runs k hk p hr
  have inv := PInv_run hrun
  have h0 := hw.sizes k hk p hr
  by_cases hroom : p.cap = 0 ∨ p.queue.length < p.cap
  · exact ⟨e, p, .refl e, hw, rfl, hr, hroom⟩
  · have hfull : p.cap ≠ 0 ∧ p.cap ≤ p.queue.length := by omega
    have hbound := inv.bound (by rw [← inv.capEq]; exact hfull.1)
    rw [← inv.capEq] at hbound
    cases hq : p.queue with
    | nil => rw [hq] at hfull; simp at hfull
    | cons l qs =>
      -- when worker 0 waits, it can take
      have fromWaiting : ∀ {e : Eng} {p : Pool}, WInv e → k < e.g.loads → e.g.real k = .pool p → 0 < p.size →
          p.worker 0 = .waiting → p.queue = l :: qs → p.queue.length ≤ p.cap →
          ∃ e' p', OnwardBy A e e' ∧ WInv e' ∧ e'.pc = e.pc ∧ e'.g.real k = .pool p' ∧
            (p'.cap = 0 ∨ p'.queue.length < p'.cap) := by
        intro e p hw hk hr h0 hw0 hq hb
        have hst := PStep.take p 0 l qs h0 hw0 hq
        refine ⟨_, _, .pool k p _ _ hk hr hst (by simp) (by simp) (.refl _),
          WInv_pool hw hk hr hst (by simp) (by simp), rfl, setFn_self _ _ _, .inr ?_⟩
        rw [hq] at hb
        simp only [List.length_cons] at hb
        exact hb
      cases hw0 : p.worker 0 with
      | waiting => exact fromWaiting hw hk hr h0 hw0 hq hbound
      | busy l' =>
        have hst := PStep.handled p 0 l' h0 hw0
        obtain ⟨e', p', ho, rest⟩ := fromWaiting (WInv_pool hw hk hr hst (by simp) (by simp)) hk
          (setFn_self _ _ _) h0 (setFn_self p.worker 0 .waiting) hq hbound
        exact ⟨e', p', .pool k p _ _ hk hr hst (by simp) (by simp) ho, rest⟩
      | expired =>
        have hst := PStep.again p 0 h0 hw0 (inv.flags hc 0)
        obtain ⟨e', p', ho, rest⟩ := fromWaiting (WInv_pool hw hk hr hst (by simp) (by simp)) hk
          (setFn_self _ _ _) h0 (setFn_self p.worker 0 .waiting) hq hbound
        exact ⟨e', p', .pool k p _ _ hk hr hst (by simp) (by simp) ho, rest⟩
      | exited =>
        have := inv.exits 0 hw0
        rw [inv.flags hc 0] at this
        cases this

/-- When nobody holds `Engine.lock`, the engine is running. -/
theorem WInv.running {e : Eng} (h : WInv e) (hf : e.g.engLock = none) : Running e.g := by
  rcases h.inv.s.free hf with hn | hr
  · have := hn.2.1; have := h.loaded; omega
  · exact hr

theorem WInv.phase {e : Eng} (h : WInv e) {t : Nat} {p : PC} (hpc : e.pc t = p) (hh : p.holdsEng = true) :
    Phase e.g p := by
  have := h.inv.s.held t ((h.inv.s.eng t).1 (by rw [hpc]; exact hh))
  rwa [hpc] at this

theorem to_cDone_cRelease {e : Eng} (h : WInv e) {t : Nat} (hpc : e.pc t = .cRelease) : To e t .cDone :=
  .step h hpc (by simp) (.cRelease _) fun _ h1 hp _ => .refl h1 hp

theorem to_cDone_cUnblock {e : Eng} (h : WInv e) {t : Nat} (hpc : e.pc t = .cUnblock) : To e t .cDone :=
  .step h hpc (by simp) (.cUnblock _) fun _ h1 hp _ => to_cDone_cRelease h1 hp

theorem to_cDone_cLoad {e : Eng} (h : WInv e) {t : Nat} (hpc : e.pc t = .cLoad) : To e t .cDone :=
  .step h hpc (by simp) (.cLoad _) fun _ h1 hp _ => to_cDone_cUnblock h1 hp

theorem to_cDone_cStopping {e : Eng} (h : WInv e) {t k : Nat} (hpc : e.pc t = .cStopping k) : To e t .cDone := by
  obtain ⟨_, hk, p, hr, hs⟩ := h.phase hpc rfl
  have hk' : k < e.g.loads := by omega
  obtain ⟨s, c, tr, hrun⟩ := h.inv.r.runs k hk' p hr
  have hsz : 0 < s := by rw [← (PInv_run hrun).sizeEq]; exact h.sizes k hk' p hr
  obtain ⟨q, hq, hd⟩ := C19_stop_can_always_complete s c hsz tr p hrun hs
  obtain ⟨e1, ho, hw1, hpc1, hl1, hr1⟩ := lift hq h hs hk' hr
  obtain ⟨e2, ho2, hw2, hq2, hu2⟩ : To e1 t .cDone :=
    .step hw1 (by rw [hpc1]; exact hpc) (by simp) (.cStopped _ k q hr1 hd) fun _ h1 hp _ => to_cDone_cLoad h1 hp
  exact ⟨e2, ho.trans ho2, hw2, hq2, fun u hu => by rw [hu2 u hu, hpc1]⟩

theorem to_cDone_cStop {e : Eng} (h : WInv e) {t : Nat} (hpc : e.pc t = .cStop) : To e t .cDone := by
  obtain ⟨hrun, hidle⟩ := h.phase hpc rfl
  obtain ⟨k, hk⟩ : ∃ k, e.g.loads = k + 1 := ⟨e.g.loads - 1, by have := h.loaded; omega⟩
  cases hr : e.g.real k with
  | single => exact .step h hpc (by simp) (.cStopSingle _ k hk hr) fun _ h1 hp _ => to_cDone_cLoad h1 hp
  | pool p =>
    have hs : p.stop = .none := hidle p (by rw [hk]; simpa using hr)
    exact .step h hpc (by simp) (.cStopPool _ k p _ hk hr (.stopCall p hs))
      fun _ h1 hp _ => to_cDone_cStopping h1 hp

theorem to_cDone_cSwap {e : Eng} (h : WInv e) {t : Nat} (hpc : e.pc t = .cSwap) : To e t .cDone :=
  .step h hpc (by simp) (.cSwap _) fun _ h1 hp _ => to_cDone_cStop h1 hp

theorem to_cReload_cEngineIn {e : Eng} (h : WInv e) {t : Nat} (hpc : e.pc t = .cEngineIn) : To e t .cReload :=
  .step h hpc (by simp) (.cEngineLeave _) fun _ h1 hp _ => .refl h1 hp

theorem to_idle_bUnlock {e : Eng} (h : WInv e) {t : Nat} (hpc : e.pc t = .bUnlock) : To e t .idle :=
  .step h hpc (by simp) (.bRelease _) fun _ h1 hp _ => .refl h1 hp

/-- Before handing over, wait for room. -/
theorem with_room {e : Eng} (h : WInv e) {t k : Nat} {q : PC} {p : Pool} (hk : k < e.g.loads)
    (hr : e.g.real k = .pool p) (hc : p.closed = false)
    (next : ∀ (e1 : Eng) (p1 : Pool), WInv e1 → e1.pc = e.pc → e1.g.real k = .pool p1 →
      (p1.cap = 0 ∨ p1.queue.length < p1.cap) → To e1 t q) : To e t q := by
  obtain ⟨e1, p1, ho, hw, hpc, hr1, hroom⟩ := room h hk hr hc
  obtain ⟨e2, ho2, hw2, hq, hu⟩ := next e1 p1 hw hpc hr1 hroom
  exact ⟨e2, ho.trans ho2, hw2, hq, fun u hne => by rw [hu u hne, hpc]⟩

theorem to_idle_bHand {e : Eng} (h : WInv e) {t k : Nat} {l : Log} (hpc : e.pc t = .bHand l k) :
    To e t .idle := by
  obtain ⟨hrun, hk⟩ := h.phase hpc rfl
  cases hr : e.g.real k with
  | single => exact .step h hpc (by simp) (.bHandSingle _ l k hr) fun _ h1 hp _ => to_idle_bUnlock h1 hp
  | pool p =>
    have hs : p.stop = .none := hrun.2 p (by rw [← hk]; simpa using hr)
    refine with_room h (by omega) hr (closed_of_none hs) fun e1 p1 h1 hpc1 hr1 hroom => ?_
    exact .step h1 (by rw [hpc1]; exact hpc) (by simp) (.bHandPool _ l k p1 _ hr1 (.put p1 l hroom))
      fun _ h2 hp _ => to_idle_bUnlock h2 hp

theorem to_idle_bFetch {e : Eng} (h : WInv e) {t : Nat} {l : Log} (hpc : e.pc t = .bFetch l) :
    To e t .idle := by
  obtain ⟨k, hk⟩ : ∃ k, e.g.loads = k + 1 := ⟨e.g.loads - 1, by have := h.loaded; omega⟩
  exact .step h hpc (by simp) (.bFetch _ l k hk) fun _ h1 hp _ => to_idle_bHand h1 hp

/-- The holder of `Engine.lock` can release it. -/
theorem release {e : Eng} (h : WInv e) {t : Nat} (hl : e.g.engLock = some t) :
    ∃ q, q.holdsEng = false ∧ (q = .idle ∨ q = .cDone ∨ q = .cReload ∨ ∃ l, q = .wFetch l) ∧ To e t q := by
  have hp := h.inv.s.held t hl
  cases hpc : e.pc t with
  | wCheck l =>
    rw [hpc] at hp
    have hst : e.g.started = true := by
      rcases hp with hn | hr
      · have := hn.2.1; have := h.loaded; omega
      · exact hr.1.1
    exact ⟨.wFetch l, rfl, .inr (.inr (.inr ⟨l, rfl⟩)),
      .step h hpc (by simp) (.wAlready _ l hst) fun _ h1 hp _ => .refl h1 hp⟩
  | wStart l => rw [hpc] at hp; have := hp.2.1; have := h.loaded; omega
  | wStarting l => rw [hpc] at hp; have := hp.2.1; have := h.loaded; omega
  | wLoad l => rw [hpc] at hp; have := hp.2.1; have := h.loaded; omega
  | wLoadCap l => rw [hpc] at hp; have := hp.2.1; have := h.loaded; omega
  | wLoadSize l c => rw [hpc] at hp; have := hp.2.1; have := h.loaded; omega
  | wHook l =>
    exact ⟨.wFetch l, rfl, .inr (.inr (.inr ⟨l, rfl⟩)),
      .step h hpc (by simp) (.wRegister _ l) fun _ h1 hp _ =>
        .step h1 hp (by simp) (.wDone _ l) fun _ h2 hp _ => .refl h2 hp⟩
  | wSwap l =>
    exact ⟨.wFetch l, rfl, .inr (.inr (.inr ⟨l, rfl⟩)),
      .step h hpc (by simp) (.wDone _ l) fun _ h2 hp _ => .refl h2 hp⟩
  | bFetch l => exact ⟨_, rfl, .inl rfl, to_idle_bFetch h hpc⟩
  | bHand l k => exact ⟨_, rfl, .inl rfl, to_idle_bHand h hpc⟩
  | bUnlock => exact ⟨_, rfl, .inl rfl, to_idle_bUnlock h hpc⟩
  | cEngineIn => exact ⟨_, rfl, .inr (.inr (.inl rfl)), to_cReload_cEngineIn h hpc⟩
  | cSwap => exact ⟨_, rfl, .inr (.inl rfl), to_cDone_cSwap h hpc⟩
  | cStop => exact ⟨_, rfl, .inr (.inl rfl), to_cDone_cStop h hpc⟩
  | cStopping k => exact ⟨_, rfl, .inr (.inl rfl), to_cDone_cStopping h hpc⟩
  | cLoad => exact ⟨_, rfl, .inr (.inl rfl), to_cDone_cLoad h hpc⟩
  | cUnblock => exact ⟨_, rfl, .inr (.inl rfl), to_cDone_cUnblock h hpc⟩
  | cRelease => exact ⟨_, rfl, .inr (.inl rfl), to_cDone_cRelease h hpc⟩
  | xSwap => exact absurd (.inr (.inl hpc)) (h.noExit t)
  | xStop => exact absurd (.inr (.inr (.inl hpc))) (h.noExit t)
  | xStopping k => exact absurd (.inr (.inr (.inr (.inl ⟨k, hpc⟩)))) (h.noExit t)
  | xEnd => exact absurd (.inr (.inr (.inr (.inr hpc)))) (h.noExit t)
  | _ => rw [hpc] at hp; exact hp.elim

/-- Nobody holds `Engine.lock` if only `t` could have and does not. -/
theorem engFree {e : Eng} (h : SInv e) {t : Nat} (ht : (e.pc t).holdsEng = false)
    (ho : ∀ u, u ≠ t → (e.pc u).holdsEng = false) : e.g.engLock = none := by
  cases hl : e.g.engLock with
  | none => rfl
  | some u =>
    have := (h.eng u).2 hl
    by_cases hu : u = t
    · subst hu; rw [ht] at this; cases this
    · rw [ho u hu] at this; cases this

theorem To.keepsFree {e : Eng} {t : Nat} {q : PC} (h : WInv e) (hl : e.g.engLock = none ∨ e.g.engLock = some t)
    (hq : q.holdsEng = false) {e' : Eng} (hw' : WInv e') (hq' : e'.pc t = q)
    (hu : ∀ u, u ≠ t → e'.pc u = e.pc u) : e'.g.engLock = none := by
  refine engFree hw'.inv.s (t := t) (by rw [hq']; exact hq) fun u hne => ?_
  rw [hu u hne]
  cases hh : (e.pc u).holdsEng with
  | false => rfl
  | true =>
    have := (h.inv.s.eng u).1 hh
    rcases hl with hl | hl
    · rw [hl] at this; cases this
    · rw [hl] at this; cases this; exact absurd rfl hne

/-- A change of a setting can be brought to its end when nobody holds `Engine.lock`. -/
theorem to_idle_cDone {e : Eng} (h : WInv e) {t : Nat} (hpc : e.pc t = .cDone) : To e t .idle :=
  .step h hpc (by simp) (.cDone _) fun _ h1 hp _ => .refl h1 hp

theorem to_idle_cBlock {e : Eng} (h : WInv e) {t : Nat} (hl : e.g.engLock = none) (hpc : e.pc t = .cBlock) :
    To e t .idle :=
  .step h hpc (by simp) (.cBlock _ hl) fun _ h1 hp _ =>
    (to_cDone_cSwap h1 hp).trans fun _ h2 hp2 _ => to_idle_cDone h2 hp2

theorem to_idle_cReload {e : Eng} (h : WInv e) {t : Nat} (hl : e.g.engLock = none) (hpc : e.pc t = .cReload) :
    To e t .idle :=
  .step h hpc (by simp) (.cStarted _ (h.running hl).1.1) fun _ h1 hp hg => to_idle_cBlock h1 (by rw [hg]; exact hl) hp

theorem to_idle_cEngine {e : Eng} (h : WInv e) {t : Nat} (hl : e.g.engLock = none) (hpc : e.pc t = .cEngine) :
    To e t .idle :=
  .step h hpc (by simp) (.cEngineEnter _ hl) fun _ h1 hp _ =>
    .step h1 hp (by simp) (.cEngineLeave _) fun _ h2 hp2 hg2 => to_idle_cReload h2 (by rw [hg2]) hp2

theorem to_idle_cLocked {e : Eng} (h : WInv e) {t : Nat} {c : Change} (hl : e.g.engLock = none)
    (hpc : e.pc t = .cLocked c) : To e t .idle := by
  cases ha : c.allowed e.g with
  | false => exact .step h hpc (by simp) (.cReject _ c ha) fun _ h1 hp _ => .refl h1 hp
  | true =>
    cases hc : c.changes e.g with
    | false => exact .step h hpc (by simp) (.cSame _ c ha hc) fun _ h1 hp _ => to_idle_cDone h1 hp
    | true =>
      exact .step h hpc (by simp) (.cStore _ c ha hc) fun _ h1 hp hg =>
        to_idle_cEngine h1 (by rw [hg]; cases c <;> exact hl) hp

/-- The holder of the lock of the settings can finish when nobody holds `Engine.lock`. -/
theorem to_idle_settings {e : Eng} (h : WInv e) {t : Nat} (hl : e.g.engLock = none)
    (hs : e.g.setLock = some t) : To e t .idle := by
  have hh := (h.inv.s.set t).2 hs
  have hne : (e.pc t).holdsEng = false := by
    cases hx : (e.pc t).holdsEng with
    | false => rfl
    | true => have := (h.inv.s.eng t).1 hx; rw [hl] at this; cases this
  cases hpc : e.pc t with
  | cLocked c => exact to_idle_cLocked h hl hpc
  | cEngine => exact to_idle_cEngine h hl hpc
  | cReload => exact to_idle_cReload h hl hpc
  | cBlock => exact to_idle_cBlock h hl hpc
  | cDone => exact to_idle_cDone h hpc
  | wStarting | cEngineIn | cSwap | cStop | cStopping | cLoad | cUnblock | cRelease =>
    rw [hpc] at hne; cases hne
  | _ => rw [hpc] at hh; cases hh

theorem to_idle_wHand {e : Eng} (h : WInv e) {t k : Nat} {l : Log} (hpc : e.pc t = .wHand l k)
    (hns : ¬ Stranded e t) : To e t .idle := by
  have hk : k < e.g.loads := by have := h.inv.s.loc t; rw [hpc] at this; exact this
  cases hr : e.g.real k with
  | single => exact .step h hpc (by simp) (.handSingle _ l k hr) fun _ h1 hp _ => .refl h1 hp
  | pool p =>
    have put : ∀ (e1 : Eng) (p1 : Pool), WInv e1 → e1.pc = e.pc → e1.g.real k = .pool p1 →
        (p1.cap = 0 ∨ p1.queue.length < p1.cap) → To e1 t .idle := fun e1 p1 h1 hpc1 hr1 hroom =>
      .step h1 (by rw [hpc1]; exact hpc) (by simp) (.handPool _ l k p1 _ hr1 (.put p1 l hroom))
        fun _ h2 hp _ => .refl h2 hp
    cases hc : p.closed with
    | false => exact with_room h hk hr hc put
    | true =>
      refine put e p h rfl hr ?_
      apply Classical.byContradiction
      intro hn
      exact hns ⟨l, k, p, hpc, hr, hc, by omega, by omega⟩

theorem to_idle_wFetch {e : Eng} (h : WInv e) {t : Nat} {l : Log} (hl : e.g.engLock = none)
    (hpc : e.pc t = .wFetch l) : To e t .idle := by
  obtain ⟨k, hk⟩ : ∃ k, e.g.loads = k + 1 := ⟨e.g.loads - 1, by have := h.loaded; omega⟩
  refine .step h hpc (by simp) (.fetch _ l k hk) fun e1 h1 hp hg => to_idle_wHand h1 hp ?_
  rintro ⟨l', k', p, hpc', hr, hc, _⟩
  rw [hp] at hpc'
  cases hpc'
  have := (h.running hl).2 p (by rw [hk, ← hg]; simpa using hr)
  rw [closed_of_none this] at hc
  cases hc

/-- With `Engine.lock` free, any thread that is not stranded can finish. -/
theorem finish_free {e : Eng} (h : WInv e) {t : Nat} (hl : e.g.engLock = none) (hns : ¬ Stranded e t) :
    ∃ e', OnwardBy (fun u => u = t ∨ e.g.setLock = some u) e e' ∧ e'.pc t = .idle := by
  have fromTo : To e t .idle → ∃ e', OnwardBy (fun u => u = t ∨ e.g.setLock = some u) e e' ∧ e'.pc t = .idle :=
    fun ⟨e', ho, _, hq, _⟩ => ⟨e', ho.mono fun _ h => .inl h, hq⟩
  have hne : (e.pc t).holdsEng = false := by
    cases hx : (e.pc t).holdsEng with
    | false => rfl
    | true => have := (h.inv.s.eng t).1 hx; rw [hl] at this; cases this
  have hrun := h.running hl
  cases hpc : e.pc t with
  | idle => exact ⟨e, .refl e, hpc⟩
  | wFirst l =>
    exact fromTo (.step h hpc (by simp) (.wLock _ l hl) fun _ h1 hp hg =>
      .step h1 hp (by simp) (.wAlready _ l (by rw [hg]; exact hrun.1.1)) fun _ h2 hp2 hg2 =>
        to_idle_wFetch h2 (by rw [hg2]) hp2)
  | wFetch l => exact fromTo (to_idle_wFetch h hl hpc)
  | wHand l k => exact fromTo (to_idle_wHand h hpc hns)
  | wFailed l => have := h.inv.s.loc t; rw [hpc] at this; exact this.elim
  | bLock l =>
    exact fromTo (.step h hpc (by simp) (.bAcquire _ l hl) fun _ h1 hp _ => to_idle_bFetch h1 hp)
  | cWait c =>
    -- get the lock of the settings
    have go : ∀ {e : Eng}, WInv e → e.g.engLock = none → e.g.setLock = none → e.pc t = .cWait c → To e t .idle :=
      fun h hl hs hpc => .step h hpc (by simp) (.cAcquire _ c hs) fun _ h1 hp hg =>
        to_idle_cLocked h1 (by rw [hg]; exact hl) hp
    cases hs : e.g.setLock with
    | none => rw [← hs]; exact fromTo (go h hl hs hpc)
    | some u =>
      have hut : u ≠ t := by
        rintro rfl
        have := (h.inv.s.set u).2 hs
        rw [hpc] at this; cases this
      obtain ⟨e1, ho, hw1, hq1, hu1⟩ := to_idle_settings h hl hs
      have hl1 := To.keepsFree (q := .idle) h (.inl hl) rfl hw1 hq1 hu1
      have hs1 : e1.g.setLock = none := by
        cases hx : e1.g.setLock with
        | none => rfl
        | some v =>
          have hv := (hw1.inv.s.set v).2 hx
          by_cases hvu : v = u
          · subst hvu; rw [hq1] at hv; cases hv
          · rw [hu1 v hvu] at hv
            have := (h.inv.s.set v).1 hv
            rw [hs] at this; cases this; exact absurd rfl hvu
      obtain ⟨e2, ho2, _, hq2, _⟩ := go hw1 hl1 hs1 (by rw [hu1 t (Ne.symm hut)]; exact hpc)
      exact ⟨e2, (ho.mono fun _ h => .inr (by rw [h])).trans (ho2.mono fun _ h => .inl h), hq2⟩
  | cLocked c => exact fromTo (to_idle_cLocked h hl hpc)
  | cEngine => exact fromTo (to_idle_cEngine h hl hpc)
  | cReload => exact fromTo (to_idle_cReload h hl hpc)
  | cBlock => exact fromTo (to_idle_cBlock h hl hpc)
  | cDone => exact fromTo (to_idle_cDone h hpc)
  | xBlock => exact absurd (.inl hpc) (h.noExit t)
  | _ => rw [hpc] at hne; cases hne

/-- Every thread that is not stranded can finish, by its own steps and those of the holders of the locks. -/
theorem WInv.finish_by {e : Eng} (hw : WInv e) (t : Nat) (hns : ¬ Stranded e t) :
    ∃ e', OnwardBy (fun u => u = t ∨ e.g.engLock = some u ∨ e.g.setLock = some u) e e' ∧ e'.pc t = .idle := by
  cases hl : e.g.engLock with
  | none =>
    obtain ⟨e', ho, hq⟩ := finish_free hw hl hns
    exact ⟨e', ho.mono fun _ h => h.imp id .inr, hq⟩
  | some u =>
    by_cases hwh : ∃ l k, e.pc t = .wHand l k
    · obtain ⟨l, k, hpc⟩ := hwh
      obtain ⟨e', ho, _, hq, _⟩ := to_idle_wHand hw hpc hns
      exact ⟨e', ho.mono fun _ h => .inl h, hq⟩
    · obtain ⟨q, hq, hcase, e1, ho, hw1, hq1, hu1⟩ := release hw hl
      have hl1 := To.keepsFree hw (.inr hl) hq hw1 hq1 hu1
      have hns1 : ¬ Stranded e1 t := by
        rintro ⟨l, k, p, hpc, _⟩
        by_cases htu : t = u
        · subst htu
          rw [hq1] at hpc
          subst hpc
          rcases hcase with h | h | h | ⟨l, h⟩ <;> cases h
        · rw [hu1 t htu] at hpc
          exact hwh ⟨l, k, hpc⟩
      obtain ⟨e2, ho2, h2⟩ := finish_free hw1 hl1 hns1
      have hset : ∀ v, e1.g.setLock = some v → v = u ∨ e.g.setLock = some v := by
        intro v hv
        by_cases hvu : v = u
        · exact .inl hvu
        · right
          have := (hw1.inv.s.set v).2 hv
          rw [hu1 v hvu] at this
          exact (hw.inv.s.set v).1 this
      refine ⟨e2, (ho.mono fun v h => .inr (.inl (by rw [h]))).trans (ho2.mono fun v h => ?_), h2⟩
      rcases h with h | h
      · exact .inl h
      · rcases hset v h with h | h
        · exact .inr (.inl (by rw [h]))
        · exact .inr (.inr h)

/-- Every thread that is not stranded can finish. -/
theorem WInv.finish {e : Eng} (hw : WInv e) (t : Nat) (hns : ¬ Stranded e t) :
    ∃ e', Onward e e' ∧ e'.pc t = .idle := by
  obtain ⟨e', ho, hq⟩ := hw.finish_by t hns
  exact ⟨e', ho.onward, hq⟩

/-- **C18** (partial: only after the first engine has been loaded with workers, while no exit hook
runs, and not for a thread stranded at the full queue of a replaced engine; each of these exceptions
is a `…_fails` theorem).  From every such reachable state every thread that is inside a log call or
inside `config.set` can get out, without any new call being made: there is no deadlock, no dead end
and no lost wake-up, whatever the numbers of threads, workers, reloads and logs. -/
theorem C18_every_call_can_return_partial (e : Eng) (h : EReach Eng.init e) (hload : 0 < e.g.loads)
    (hsize : ∀ k, k < e.g.loads → ∀ p, e.g.real k = .pool p → 0 < p.size)
    (hexit : ∀ t, ¬ Exiting e t) (t : Nat) (hns : ¬ Stranded e t) :
    ∃ e', Onward e e' ∧ e'.pc t = .idle :=
  WInv.finish ⟨EInv_reach EInv_init h, hload, hsize, hexit⟩ t hns

/-- A state with a log in the queue, a reload waiting for it and a writer waiting for the reload. -/
example : ∃ e, EReach Eng.init e ∧ 0 < e.g.loads ∧
    (∀ k, k < e.g.loads → ∀ p, e.g.real k = .pool p → 0 < p.size) ∧ (∀ t, ¬ Exiting e t) ∧
    ¬ Stranded e 0 ∧ e.pc 0 = .bLock 6 ∧ e.pc 1 = .cStopping 0 := by
  have a1 := (EReach.init (e₀ := Eng.init)).th 1 (.cCall _ (.poolSize 1))
  have a2 := a1.th 1 (.cAcquire _ _ rfl)
  have a3 := a2.th 1 (.cStore _ _ rfl rfl)
  have a4 := a3.th 1 (.cEngineEnter _ rfl)
  have a5 := a4.th 1 (.cEngineLeave _)
  have a6 := a5.th 1 (.cNotStarted _ rfl)
  have a7 := a6.th 1 (.cDone _)
  have b1 := a7.th 0 (.callFirst _ 5 (by simp [Eng.init, Glob.init, Change.apply]) rfl)
  have b2 := b1.th 0 (.wLock _ _ rfl)
  have b3 := b2.th 0 (.wNotYet _ _ rfl)
  have b4 := b3.th 0 (.wSetLock _ _ rfl)
  have b5 := b4.th 0 (.wSetStarted _ _)
  have b6 := b5.th 0 (.wLoadMulti _ _ (by decide))
  have b7 := b6.th 0 (.wLoadQueue _ _)
  have b8 := b7.th 0 (.wLoadWorkers _ _ _)
  have b9 := b8.th 0 (.wRegister _ _)
  have b10 := b9.th 0 (.wDone _ _)
  have b11 := b10.th 0 (.fetch _ _ 0 rfl)
  have b12 := b11.th 0 (.handPool _ _ 0 _ _ rfl (.put _ _ (.inl rfl)))
  have d1 := b12.th 1 (.cCall _ (.poolSize 2))
  have d2 := d1.th 1 (.cAcquire _ _ rfl)
  have d3 := d2.th 1 (.cStore _ _ rfl rfl)
  have d4 := d3.th 1 (.cEngineEnter _ rfl)
  have d5 := d4.th 1 (.cEngineLeave _)
  have d6 := d5.th 1 (.cStarted _ rfl)
  have d7 := d6.th 1 (.cBlock _ rfl)
  have d8 := d7.th 1 (.cSwap _)
  have e1 := d8.th 0 (.callBlocked _ 6 (by
    intro x hx
    have : x = (0, 5) := List.mem_singleton.1 hx
    subst this; decide) rfl)
  have d9 := e1.th 1 (.cStopPool _ 0 _ _ rfl rfl (.stopCall _ rfl))
  refine ⟨_, d9, Nat.zero_lt_one, ?_, ?_, ?_, rfl, rfl⟩
  · intro k hk p hp
    have : k = 0 := Nat.lt_one_iff.1 hk
    subst this
    cases hp
    exact Nat.zero_lt_one
  · intro t hx
    by_cases h0 : t = 0
    · subst h0; rcases hx with h | h | h | ⟨_, h⟩ | h <;> exact nomatch h
    · by_cases h1 : t = 1
      · subst h1; rcases hx with h | h | h | ⟨_, h⟩ | h <;> exact nomatch h
      · simp [Exiting, setFn, h0, h1, Eng.init] at hx
  · rintro ⟨l, k, p, h, _⟩
    exact nomatch h

end Polog
