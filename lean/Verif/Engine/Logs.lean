import Verif.Engine.Lemmas

/-! Where every log is: the invariant behind "exactly once". -/

namespace Polog

/-- Old real engines have been stopped, and every pool is in a state of some execution of pools. -/
structure RInv (e : Eng) : Prop where
  old : ∀ k, k + 1 < e.g.loads → ∀ p, e.g.real k = .pool p → p.stop = .done
  runs : ∀ k, k < e.g.loads → ∀ p, e.g.real k = .pool p → ∃ size cap tr, PRun size cap tr p

theorem RInv_init : RInv Eng.init := by
  constructor <;> intro k hk <;> simp [Eng.init, Glob.init] at hk

theorem RInv_warm (ps mq : Nat) : RInv (Eng.warm ps mq) := by
  constructor
  · intro k hk; simp [Eng.warm] at hk
  · intro k hk p hp
    simp only [Eng.warm, fabric] at hp
    split at hp
    · cases hp
    · cases hp; exact ⟨_, _, _, .init⟩

/-- A step that changes one pool by a step of that pool. -/
theorem RInv.realStep {e : Eng} (h : RInv e) {g' : Glob} {pc' : Nat → PC} {k : Nat} {p p' : Pool}
    {a : PLabel} (hr : e.g.real k = .pool p) (hp : PStep p a p')
    (ha : a = .stop → k + 1 = e.g.loads) (hl : g'.loads = e.g.loads)
    (h6 : g'.real = setFn e.g.real k (.pool p')) : RInv ⟨g', pc'⟩ := by
  constructor
  · intro j hj q hq
    dsimp only at hj hq
    rw [hl] at hj
    rw [h6] at hq
    by_cases hjk : j = k
    · subst hjk
      rw [setFn_self] at hq
      cases hq
      refine (hp.stop_mono ?_).2 (h.old j hj p hr)
      intro hs
      have := ha hs
      omega
    · rw [setFn_ne _ _ hjk] at hq; exact h.old j hj q hq
  · intro j hj q hq
    dsimp only at hj hq
    rw [hl] at hj
    rw [h6] at hq
    by_cases hjk : j = k
    · subst hjk
      rw [setFn_self] at hq
      cases hq
      obtain ⟨s, c, tr, hrun⟩ := h.runs j hj p hr
      exact ⟨s, c, _, .step hrun hp⟩
    · rw [setFn_ne _ _ hjk] at hq; exact h.runs j hj q hq

theorem RInv.load {e : Eng} (h : RInv e) {g' : Glob} {pc' : Nat → PC} {r : Real}
    (hcur : ∀ p, e.g.real (e.g.loads - 1) = .pool p → 0 < e.g.loads → p.stop = .done)
    (hr : ∀ p, r = .pool p → ∃ n c, p = Pool.init n c) (hl : g'.loads = e.g.loads + 1)
    (h6 : g'.real = setFn e.g.real e.g.loads r) : RInv ⟨g', pc'⟩ := by
  constructor
  · intro j hj q hq
    dsimp only at hj hq
    rw [hl] at hj
    rw [h6, setFn_ne _ _ (by omega)] at hq
    by_cases hjl : j + 1 = e.g.loads
    · refine hcur q ?_ (by omega)
      rw [← hjl]; exact hq
    · exact h.old j (by omega) q hq
  · intro j hj q hq
    dsimp only at hj hq
    rw [hl] at hj
    rw [h6] at hq
    by_cases hjl : j = e.g.loads
    · subst hjl
      rw [setFn_self] at hq
      obtain ⟨n, c, rfl⟩ := hr q hq
      exact ⟨n, c, _, .init⟩
    · rw [setFn_ne _ _ hjl] at hq; exact h.runs j (by omega) q hq

theorem RInv.same {e : Eng} (h : RInv e) {g' : Glob} {pc' : Nat → PC} (hl : g'.loads = e.g.loads)
    (h6 : g'.real = e.g.real) : RInv ⟨g', pc'⟩ := by
  constructor
  · intro j hj q hq
    dsimp only at hj hq
    rw [hl] at hj; rw [h6] at hq; exact h.old j hj q hq
  · intro j hj q hq
    dsimp only at hj hq
    rw [hl] at hj; rw [h6] at hq; exact h.runs j hj q hq

theorem RInv_step {e e' : Eng} (hS : SInv e) (h : RInv e) (hs : EStep e e') : RInv e' := by
  cases hs with
  | pool k p p' a hk hr hp hput hstop => exact h.realStep hr hp (fun x => absurd x hstop) rfl rfl
  | thread t g' p' hst =>
    have hph : (e.pc t).holdsEng = true → Phase e.g (e.pc t) :=
      fun hx => hS.held t ((hS.eng t).1 hx)
    generalize hpc : e.pc t = pc at hst hph
    generalize hg : e.g = g at hst hph
    cases hst with
    | wLoadSingle l hz =>
      refine h.load ?_ ?_ (by rw [hg]; rfl) (by rw [hg]; rfl)
      · intro p _ h0; rw [hg] at h0; have := (hph rfl).2.1; omega
      · intro p hp; cases hp
    | wLoadWorkers l cap =>
      refine h.load ?_ ?_ (by rw [hg]; rfl) (by rw [hg]; rfl)
      · intro p _ h0; rw [hg] at h0; have := (hph rfl).2.1; omega
      · intro p hp; cases hp; exact ⟨_, _, rfl⟩
    | cLoad =>
      refine h.load (r := fabric e.g.poolSize e.g.maxQueue) ?_ ?_ (by rw [hg]; rfl) (by rw [hg]; rfl)
      · intro p hp _; rw [hg] at hp; exact (hph rfl).2 p hp
      · intro p hp
        unfold fabric at hp
        split at hp
        · cases hp
        · cases hp; exact ⟨_, _, rfl⟩
    | handPool l k q q' hr hp =>
      exact h.realStep (by rw [hg]; exact hr) hp (by simp) (by rw [hg]) (by rw [hg])
    | bHandPool l k q q' hr hp =>
      exact h.realStep (by rw [hg]; exact hr) hp (by simp) (by rw [hg]) (by rw [hg])
    | cStopPool k q q' hl hr hp =>
      exact h.realStep (by rw [hg]; exact hr) hp (fun _ => by rw [hg, hl]) (by rw [hg]) (by rw [hg])
    | xStopPool k q q' hl hr hp =>
      exact h.realStep (by rw [hg]; exact hr) hp (fun _ => by rw [hg, hl]) (by rw [hg]) (by rw [hg])
    | cStore c => cases c <;> exact h.same (by rw [hg]; rfl) (by rw [hg]; rfl)
    | _ => exact h.same (by rw [hg]) (by rw [hg])

/-- Where a log is. -/
inductive Loc where
  | unborn
  | thread (t : Nat)
  | queue (k : Nat)
  | worker (k i : Nat)
  | done
deriving DecidableEq

/-- The log a thread is about to hand over. -/
def PC.log? : PC → Option Log
  | .wFirst l | .wCheck l | .wStart l | .wStarting l | .wLoad l | .wLoadCap l | .wLoadSize l _
  | .wHook l | .wSwap l | .wFetch l | .wHand l _ | .wFailed l | .bLock l | .bFetch l
  | .bHand l _ => some l
  | _ => none

structure LInv (e : Eng) (loc : Log → Loc) : Prop where
  born : ∀ l, loc l = .unborn ↔ ∀ x ∈ e.g.calls, x.2 ≠ l
  thread : ∀ t l, (e.pc t).log? = some l ↔ loc l = .thread t
  queue : ∀ k l, loc l = .queue k ↔ k < e.g.loads ∧ ∃ p, e.g.real k = .pool p ∧ l ∈ p.queue
  nodup : ∀ k p, k < e.g.loads → e.g.real k = .pool p → p.queue.Nodup
  worker : ∀ k i l, loc l = .worker k i ↔
    k < e.g.loads ∧ ∃ p, e.g.real k = .pool p ∧ i < p.size ∧ p.worker i = .busy l
  done : ∀ l, e.g.seq.count l = if loc l = .done then 1 else 0
  late : ∀ k p, k < e.g.loads → e.g.real k = .pool p → p.closed = true → ∀ l ∈ p.queue, l ∈ e.g.late
  owner : ∀ t l, loc l = .thread t → (t, l) ∈ e.g.calls

/-- The pools hold the same logs as before; new pools hold none. -/
structure PoolsSame (g g' : Glob) : Prop where
  loads : g.loads ≤ g'.loads
  fwd : ∀ k, k < g.loads → ∀ p, g.real k = .pool p → ∃ p', g'.real k = .pool p' ∧
    p'.queue = p.queue ∧ p'.worker = p.worker ∧ p'.size = p.size ∧ p'.closed = p.closed
  bwd : ∀ k, k < g'.loads → ∀ p', g'.real k = .pool p' →
    (k < g.loads ∧ ∃ p, g.real k = .pool p ∧
      p'.queue = p.queue ∧ p'.worker = p.worker ∧ p'.size = p.size ∧ p'.closed = p.closed) ∨
    (∃ n c, p' = Pool.init n c)

theorem PoolsSame.same {g g' : Glob} (hl : g'.loads = g.loads) (hr : g'.real = g.real) :
    PoolsSame g g' :=
  ⟨by omega, fun k hk p hp => ⟨p, by rw [hr]; exact hp, rfl, rfl, rfl, rfl⟩,
    fun k hk p hp => .inl ⟨by omega, p, by rw [hr] at hp; exact hp, rfl, rfl, rfl, rfl⟩⟩

theorem PoolsSame.load {g g' : Glob} {r : Real} (hl : g'.loads = g.loads + 1)
    (hr : g'.real = setFn g.real g.loads r) (hn : ∀ p, r = .pool p → ∃ n c, p = Pool.init n c) :
    PoolsSame g g' := by
  refine ⟨by omega, ?_, ?_⟩
  · intro k hk p hp
    exact ⟨p, by rw [hr, setFn_ne _ _ (by omega)]; exact hp, rfl, rfl, rfl, rfl⟩
  · intro k hk p hp
    rw [hr] at hp
    by_cases hkl : k = g.loads
    · subst hkl; rw [setFn_self] at hp; exact .inr (hn p hp)
    · rw [setFn_ne _ _ hkl] at hp
      exact .inl ⟨by omega, p, hp, rfl, rfl, rfl, rfl⟩

theorem PoolsSame.stop {g g' : Glob} {k : Nat} {p p' : Pool} (hp : PStep p .stop p')
    (hrk : g.real k = .pool p) (hl : g'.loads = g.loads) (hr : g'.real = setFn g.real k (.pool p')) :
    PoolsSame g g' := by
  cases hp with
  | stopCall hs =>
    refine ⟨by omega, ?_, ?_⟩
    · intro j hj q hq
      by_cases hjk : j = k
      · subst hjk
        rw [hrk] at hq; cases hq
        exact ⟨{ p with stop := .polling }, by rw [hr, setFn_self], rfl, rfl, rfl, by simp [Pool.closed, hs]⟩
      · exact ⟨q, by rw [hr, setFn_ne _ _ hjk]; exact hq, rfl, rfl, rfl, rfl⟩
    · intro j hj q hq
      rw [hr] at hq
      by_cases hjk : j = k
      · subst hjk
        rw [setFn_self] at hq; cases hq
        exact .inl ⟨by omega, p, hrk, rfl, rfl, rfl, by simp [Pool.closed, hs]⟩
      · rw [setFn_ne _ _ hjk] at hq
        exact .inl ⟨by omega, q, hq, rfl, rfl, rfl, rfl⟩

/-- What a thread step does with logs. -/
inductive LogEffect (t : Nat) (g : Glob) (p : PC) (g' : Glob) (p' : PC) : Prop where
  | quiet (hp : p'.log? = p.log?) (hc : g'.calls = g.calls) (hs : g'.seq = g.seq) (hl : g'.late = g.late)
      (hr : PoolsSame g g')
  | call (l : Log) (fresh : ∀ x ∈ g.calls, x.2 ≠ l) (hp : p.log? = none) (hp' : p'.log? = some l)
      (hc : g'.calls = g.calls ++ [(t, l)]) (hs : g'.seq = g.seq) (hl : g'.late = g.late)
      (hload : g'.loads = g.loads) (hr : g'.real = g.real)
  | single (l : Log) (hp : p.log? = some l) (hp' : p'.log? = none) (hc : g'.calls = g.calls)
      (hs : g'.seq = g.seq ++ [l]) (hl : g'.late = g.late) (hload : g'.loads = g.loads)
      (hr : g'.real = g.real)
  | put (l : Log) (k : Nat) (q q' : Pool) (hp : p.log? = some l) (hp' : p'.log? = none)
      (hc : g'.calls = g.calls) (hs : g'.seq = g.seq)
      (hl : g'.late = if q.closed then g.late ++ [l] else g.late) (hload : g'.loads = g.loads)
      (hk : p = .wHand l k ∨ p = .bHand l k) (hq : g.real k = .pool q) (hstep : PStep q (.put l) q')
      (hr : g'.real = setFn g.real k (.pool q'))

theorem TStep.effect {t : Nat} {g g' : Glob} {p p' : PC} (h : TStep t g p g' p') :
    LogEffect t g p g' p' := by
  cases h with
  | callFirst l fresh => exact .call l fresh rfl rfl rfl rfl rfl rfl rfl
  | callDirect l fresh => exact .call l fresh rfl rfl rfl rfl rfl rfl rfl
  | callBlocked l fresh => exact .call l fresh rfl rfl rfl rfl rfl rfl rfl
  | handSingle l k h => exact .single l rfl rfl rfl rfl rfl rfl rfl
  | bHandSingle l k h => exact .single l rfl rfl rfl rfl rfl rfl rfl
  | handPool l k q q' h hp => exact .put l k q q' rfl rfl rfl rfl rfl rfl (.inl rfl) h hp rfl
  | bHandPool l k q q' h hp => exact .put l k q q' rfl rfl rfl rfl rfl rfl (.inr rfl) h hp rfl
  | wLoadSingle => exact .quiet rfl rfl rfl rfl (.load rfl rfl (fun _ h => nomatch h))
  | wLoadWorkers =>
    exact .quiet rfl rfl rfl rfl (.load rfl rfl (fun _ h => by cases h; exact ⟨_, _, rfl⟩))
  | cLoad =>
    refine .quiet rfl rfl rfl rfl (.load (r := fabric g.poolSize g.maxQueue) rfl rfl (fun p h => ?_))
    unfold fabric at h
    split at h
    · cases h
    · cases h; exact ⟨_, _, rfl⟩
  | cStopPool k q q' hl hr hp => exact .quiet rfl rfl rfl rfl (.stop hp hr rfl rfl)
  | xStopPool k q q' hl hr hp => exact .quiet rfl rfl rfl rfl (.stop hp hr rfl rfl)
  | cStore c => cases c <;> exact .quiet rfl rfl rfl rfl (.same rfl rfl)
  | _ => exact .quiet rfl rfl rfl rfl (.same rfl rfl)

theorem LInv_quiet {e : Eng} {loc : Log → Loc} (h : LInv e loc) {t : Nat} {g' : Glob} {p' : PC}
    (hp : p'.log? = (e.pc t).log?) (hc : g'.calls = e.g.calls) (hs : g'.seq = e.g.seq)
    (hl : g'.late = e.g.late) (hr : PoolsSame e.g g') : LInv ⟨g', setFn e.pc t p'⟩ loc := by
  constructor <;> dsimp only
  · intro l; rw [hc]; exact h.born l
  · intro t' l
    by_cases ht : t' = t
    · subst ht; rw [setFn_self, hp]; exact h.thread t' l
    · rw [setFn_ne _ _ ht]; exact h.thread t' l
  · intro k l
    rw [h.queue k l]
    constructor
    · rintro ⟨hk, p, hpk, hm⟩
      obtain ⟨q, hq, a, _⟩ := hr.fwd k hk p hpk
      exact ⟨Nat.lt_of_lt_of_le hk hr.loads, q, hq, by rw [a]; exact hm⟩
    · rintro ⟨hk, p, hpk, hm⟩
      rcases hr.bwd k hk p hpk with ⟨hk', q, hq, a, _⟩ | ⟨n, c, rfl⟩
      · exact ⟨hk', q, hq, by rw [← a]; exact hm⟩
      · cases hm
  · intro k p hk hpk
    rcases hr.bwd k hk p hpk with ⟨hk', q, hq, a, _⟩ | ⟨n, c, rfl⟩
    · rw [a]; exact h.nodup k q hk' hq
    · exact List.nodup_nil
  · intro k i l
    rw [h.worker k i l]
    constructor
    · rintro ⟨hk, p, hpk, hi, hw⟩
      obtain ⟨q, hq, a, b, c, _⟩ := hr.fwd k hk p hpk
      exact ⟨Nat.lt_of_lt_of_le hk hr.loads, q, hq, by rw [c]; exact hi, by rw [b]; exact hw⟩
    · rintro ⟨hk, p, hpk, hi, hw⟩
      rcases hr.bwd k hk p hpk with ⟨hk', q, hq, a, b, c, _⟩ | ⟨n, c, rfl⟩
      · exact ⟨hk', q, hq, by rw [← c]; exact hi, by rw [← b]; exact hw⟩
      · cases hw
  · intro l; rw [hs]; exact h.done l
  · intro k p hk hpk hcl l hm
    rw [hl]
    rcases hr.bwd k hk p hpk with ⟨hk', q, hq, a, b, c, d⟩ | ⟨n, c, rfl⟩
    · exact h.late k q hk' hq (by rw [← d]; exact hcl) l (by rw [← a]; exact hm)
    · cases hm
  · intro t' l hl'; rw [hc]; exact h.owner t' l hl'

/-- One log changes its place. -/
def moveTo (loc : Log → Loc) (l : Log) (x : Loc) : Log → Loc := fun l' => if l' = l then x else loc l'

theorem moveTo_self (loc : Log → Loc) (l : Log) (x : Loc) : moveTo loc l x l = x := by simp [moveTo]

theorem moveTo_ne (loc : Log → Loc) {l l' : Log} (x : Loc) (h : l' ≠ l) :
    moveTo loc l x l' = loc l' := by simp [moveTo, h]

/-- The threads after thread `t` gave its log away. -/
theorem LInv.thread_gives {e : Eng} {loc : Log → Loc} (h : LInv e loc) {t : Nat} {p' : PC} {l : Log}
    {x : Loc} (hp : (e.pc t).log? = some l) (hp' : p'.log? = none) (hx : ∀ t, x ≠ .thread t) :
    ∀ t' l', (setFn e.pc t p' t').log? = some l' ↔ moveTo loc l x l' = .thread t' := by
  have hl := (h.thread t l).1 hp
  intro t' l'
  by_cases hl' : l' = l
  · subst hl'
    rw [moveTo_self]
    constructor
    · intro hx'
      exfalso
      by_cases ht : t' = t
      · subst ht; rw [setFn_self, hp'] at hx'; cases hx'
      · rw [setFn_ne _ _ ht] at hx'
        have := (h.thread t' l').1 hx'
        rw [hl] at this
        cases this
        exact ht rfl
    · intro hx'; exact absurd hx' (hx t')
  · rw [moveTo_ne _ _ hl']
    by_cases ht : t' = t
    · subst ht
      rw [setFn_self, hp']
      constructor
      · intro hx'; cases hx'
      · intro hx'
        have := (h.thread t' l').2 hx'
        rw [hp] at this
        cases this
        exact absurd rfl hl'
    · rw [setFn_ne _ _ ht]; exact h.thread t' l'

theorem LInv_call {e : Eng} {loc : Log → Loc} (h : LInv e loc) {t : Nat} {g' : Glob} {p' : PC} {l : Log}
    (fresh : ∀ x ∈ e.g.calls, x.2 ≠ l) (hp : (e.pc t).log? = none) (hp' : p'.log? = some l)
    (hc : g'.calls = e.g.calls ++ [(t, l)]) (hs : g'.seq = e.g.seq) (hl : g'.late = e.g.late)
    (hload : g'.loads = e.g.loads) (hr : g'.real = e.g.real) :
    LInv ⟨g', setFn e.pc t p'⟩ (moveTo loc l (.thread t)) := by
  have hun := (h.born l).2 fresh
  constructor <;> dsimp only
  · intro l'
    rw [hc]
    by_cases hl' : l' = l
    · subst hl'
      rw [moveTo_self]
      constructor
      · intro hx; cases hx
      · intro hx; exact absurd rfl (hx (t, l') (by simp))
    · rw [moveTo_ne _ _ hl', h.born l']
      constructor
      · intro hx y hy
        rcases List.mem_append.1 hy with hy | hy
        · exact hx y hy
        · simp only [List.mem_singleton] at hy
          subst hy; exact fun e => hl' e.symm
      · intro hx y hy; exact hx y (List.mem_append_left _ hy)
  · intro t' l'
    by_cases hl' : l' = l
    · subst hl'
      rw [moveTo_self]
      by_cases ht : t' = t
      · subst ht; rw [setFn_self, hp']; simp
      · rw [setFn_ne _ _ ht]
        constructor
        · intro hx
          have := (h.thread t' l').1 hx
          rw [hun] at this; cases this
        · intro hx; cases hx; exact absurd rfl ht
    · rw [moveTo_ne _ _ hl']
      by_cases ht : t' = t
      · subst ht
        rw [setFn_self, hp']
        constructor
        · intro hx; cases hx; exact absurd rfl hl'
        · intro hx
          have := (h.thread t' l').2 hx
          rw [hp] at this; cases this
      · rw [setFn_ne _ _ ht]; exact h.thread t' l'
  · intro k l'
    rw [hload, hr]
    by_cases hl' : l' = l
    · subst hl'
      rw [moveTo_self]
      constructor
      · intro hx; cases hx
      · intro hx
        have := (h.queue k l').2 hx
        rw [hun] at this; cases this
    · rw [moveTo_ne _ _ hl']; exact h.queue k l'
  · intro k p hk; rw [hload] at hk; rw [hr]; exact h.nodup k p hk
  · intro k i l'
    rw [hload, hr]
    by_cases hl' : l' = l
    · subst hl'
      rw [moveTo_self]
      constructor
      · intro hx; cases hx
      · intro hx
        have := (h.worker k i l').2 hx
        rw [hun] at this; cases this
    · rw [moveTo_ne _ _ hl']; exact h.worker k i l'
  · intro l'
    rw [hs]
    by_cases hl' : l' = l
    · subst hl'
      rw [moveTo_self, h.done l', hun]; simp
    · rw [moveTo_ne _ _ hl']; exact h.done l'
  · intro k p hk hpk; rw [hload] at hk; rw [hr] at hpk; rw [hl]; exact h.late k p hk hpk
  · intro t' l' hx
    rw [hc]
    by_cases hl' : l' = l
    · subst hl'
      rw [moveTo_self] at hx; cases hx; simp
    · rw [moveTo_ne _ _ hl'] at hx
      exact List.mem_append_left _ (h.owner t' l' hx)

theorem LInv_single {e : Eng} {loc : Log → Loc} (h : LInv e loc) {t : Nat} {g' : Glob} {p' : PC} {l : Log}
    (hp : (e.pc t).log? = some l) (hp' : p'.log? = none)
    (hc : g'.calls = e.g.calls) (hs : g'.seq = e.g.seq ++ [l]) (hl : g'.late = e.g.late)
    (hload : g'.loads = e.g.loads) (hr : g'.real = e.g.real) :
    LInv ⟨g', setFn e.pc t p'⟩ (moveTo loc l .done) := by
  have hth := (h.thread t l).1 hp
  constructor <;> dsimp only
  · intro l'
    rw [hc]
    by_cases hl' : l' = l
    · subst hl'
      rw [moveTo_self, ← h.born l', hth]; simp
    · rw [moveTo_ne _ _ hl']; exact h.born l'
  · exact h.thread_gives hp hp' (by simp)
  · intro k l'
    rw [hload, hr]
    by_cases hl' : l' = l
    · subst hl'
      rw [moveTo_self, ← h.queue k l', hth]; simp
    · rw [moveTo_ne _ _ hl']; exact h.queue k l'
  · intro k p hk; rw [hload] at hk; rw [hr]; exact h.nodup k p hk
  · intro k i l'
    rw [hload, hr]
    by_cases hl' : l' = l
    · subst hl'
      rw [moveTo_self, ← h.worker k i l', hth]; simp
    · rw [moveTo_ne _ _ hl']; exact h.worker k i l'
  · intro l'
    rw [hs, List.count_append, h.done l']
    by_cases hl' : l' = l
    · subst hl'
      rw [moveTo_self, hth]; simp
    · rw [moveTo_ne _ _ hl']
      have : List.count l' [l] = 0 := List.count_eq_zero.2 (by simpa using hl')
      rw [this]; simp
  · intro k p hk hpk; rw [hload] at hk; rw [hr] at hpk; rw [hl]; exact h.late k p hk hpk
  · intro t' l' hx
    rw [hc]
    by_cases hl' : l' = l
    · subst hl'
      rw [moveTo_self] at hx; cases hx
    · rw [moveTo_ne _ _ hl'] at hx
      exact h.owner t' l' hx

theorem LInv_put {e : Eng} {loc : Log → Loc} (h : LInv e loc) {t : Nat} {g' : Glob} {p' : PC} {l : Log}
    {k : Nat} {q q' : Pool} (hk : k < e.g.loads)
    (hp : (e.pc t).log? = some l) (hp' : p'.log? = none)
    (hc : g'.calls = e.g.calls) (hs : g'.seq = e.g.seq)
    (hl : g'.late = if q.closed then e.g.late ++ [l] else e.g.late) (hload : g'.loads = e.g.loads)
    (hq : e.g.real k = .pool q) (hstep : PStep q (.put l) q') (hr : g'.real = setFn e.g.real k (.pool q')) :
    LInv ⟨g', setFn e.pc t p'⟩ (moveTo loc l (.queue k)) := by
  have hth := (h.thread t l).1 hp
  have hq' : q' = { q with queue := q.queue ++ [l] } := by cases hstep; rfl
  have hnot : l ∉ q.queue := by
    intro hm
    have := (h.queue k l).2 ⟨hk, q, hq, hm⟩
    rw [hth] at this; cases this
  subst hq'
  constructor <;> dsimp only
  · intro l'
    rw [hc]
    by_cases hl' : l' = l
    · subst hl'
      rw [moveTo_self, ← h.born l', hth]; simp
    · rw [moveTo_ne _ _ hl']; exact h.born l'
  · exact h.thread_gives hp hp' (by simp)
  · intro j l'
    rw [hload, hr]
    by_cases hl' : l' = l
    · subst hl'
      rw [moveTo_self]
      constructor
      · intro hx; cases hx
        exact ⟨hk, _, setFn_self _ _ _, by simp⟩
      · rintro ⟨hj, p, hpj, hm⟩
        by_cases hjk : j = k
        · rw [hjk]
        · rw [setFn_ne _ _ hjk] at hpj
          have := (h.queue j l').2 ⟨hj, p, hpj, hm⟩
          rw [hth] at this; cases this
    · rw [moveTo_ne _ _ hl', h.queue j l']
      by_cases hjk : j = k
      · subst hjk
        rw [setFn_self]
        constructor
        · rintro ⟨hj, p, hpj, hm⟩
          rw [hq] at hpj; cases hpj
          exact ⟨hj, _, rfl, by simp [hm]⟩
        · rintro ⟨hj, p, hpj, hm⟩
          cases hpj
          simp only [List.mem_append, List.mem_singleton, hl', or_false] at hm
          exact ⟨hj, q, hq, hm⟩
      · rw [setFn_ne _ _ hjk]
  · intro j p hj hpj
    rw [hload] at hj
    rw [hr] at hpj
    by_cases hjk : j = k
    · subst hjk
      rw [setFn_self] at hpj; cases hpj
      have := h.nodup j q hj hq
      dsimp only
      rw [List.nodup_append]
      refine ⟨this, by simp, ?_⟩
      intro a ha b hb hab
      simp only [List.mem_singleton] at hb
      subst hb hab
      exact hnot ha
    · rw [setFn_ne _ _ hjk] at hpj; exact h.nodup j p hj hpj
  · intro j i l'
    rw [hload, hr]
    have aux : (j < e.g.loads ∧ ∃ p, setFn e.g.real k (.pool { q with queue := q.queue ++ [l] }) j = .pool p ∧
        i < p.size ∧ p.worker i = .busy l') ↔
        (j < e.g.loads ∧ ∃ p, e.g.real j = .pool p ∧ i < p.size ∧ p.worker i = .busy l') := by
      by_cases hjk : j = k
      · subst hjk
        rw [setFn_self]
        constructor
        · rintro ⟨hj, p, hpj, hm⟩; cases hpj; exact ⟨hj, q, hq, hm⟩
        · rintro ⟨hj, p, hpj, hm⟩
          rw [hq] at hpj; cases hpj
          exact ⟨hj, _, rfl, hm⟩
      · rw [setFn_ne _ _ hjk]
    rw [aux]
    by_cases hl' : l' = l
    · subst hl'
      rw [moveTo_self, ← h.worker j i l', hth]; simp
    · rw [moveTo_ne _ _ hl']; exact h.worker j i l'
  · intro l'
    rw [hs, h.done l']
    by_cases hl' : l' = l
    · subst hl'
      rw [moveTo_self, hth]; simp
    · rw [moveTo_ne _ _ hl']
  · intro j p hj hpj hcl l' hm
    rw [hload] at hj
    rw [hr] at hpj
    rw [hl]
    by_cases hjk : j = k
    · subst hjk
      rw [setFn_self] at hpj; cases hpj
      have hcl' : q.closed = true := hcl
      rw [if_pos hcl']
      simp only [List.mem_append, List.mem_singleton] at hm ⊢
      rcases hm with hm | hm
      · exact .inl (h.late j q hj hq hcl' l' hm)
      · exact .inr hm
    · rw [setFn_ne _ _ hjk] at hpj
      have := h.late j p hj hpj hcl l' hm
      split
      · exact List.mem_append_left _ this
      · exact this
  · intro t' l' hx
    rw [hc]
    by_cases hl' : l' = l
    · subst hl'
      rw [moveTo_self] at hx; cases hx
    · rw [moveTo_ne _ _ hl'] at hx
      exact h.owner t' l' hx

end Polog
