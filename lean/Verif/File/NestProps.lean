import Verif.File.CutLive
import Verif.File.NestSpec

/-! C109: logs written by destructors and signal handlers in the middle of a call of a file handler. -/

namespace Polog
open FileSpec CutSpec NestSpec

theorem callNo_inj {t d t' d' : Nat} (h : callNo t d = callNo t' d') : t = t' ∧ d = d' := by
  unfold callNo at h
  exact Nat.pair_eq_pair.mp h

theorem callNo_surj (n : Nat) : ∃ t d, n = callNo t d := ⟨n.unpair.1, n.unpair.2, (Nat.pair_unpair n).symm⟩

/-- Forgetting who interrupted whom gives a run of the handler. -/
theorem NeRun.forget {c : FConf} {mild : Bool} {f₀ : CuState} {s₀ s : NeState} (h₀ : CuRun c mild f₀ s₀.f) (h : NeRun c s₀ s) :
    CuRun c mild f₀ s.f := by
  induction h with
  | init => exact h₀
  | step _ hs ih =>
    cases hs with
    | go t f' hc => exact ih.step _ hc
    | destructor t => exact ih
    | finished t d _ _ => exact ih

theorem NeRun.trans {c : FConf} {a b d : NeState} (h : NeRun c a b) (h' : NeRun c b d) : NeRun c a d := by
  induction h' with
  | init => exact h
  | step _ hs ih => exact .step ih hs

theorem _root_.Polog.NestSpec.NeOnward.run {c : FConf} {s s' : NeState} (h : NeOnward c s s') : NeRun c s s' := by
  induction h with
  | here => exact .init
  | go t f' _ _ hc ih => exact .step ih (.go _ t f' hc)
  | finished t d _ h1 h2 ih => exact .step ih (.finished _ t d h1 h2)

/-- A step of one call changes no other call. -/
theorem CuStep.others {c : FConf} {s s' : CuState} {n m : Nat} (h : CuStep c n s s') (hne : m ≠ n) : s'.pc m = s.pc m := by
  cases h with
  | release o line r hi => cases o <;> exact putAt_ne _ _ hne
  | spill => rfl
  | _ => exact putAt_ne _ _ hne

theorem CuStep.othersDone {c : FConf} {s s' : CuState} {n m : Nat} (h : CuStep c n s s') (hne : m ≠ n) :
    ofThread m s'.done = ofThread m s.done := by
  have key : ∀ x : Str × CuFate, ofThread m (s.done ++ [(n, x)]) = ofThread m s.done := by
    intro x; rw [ofThread_snoc, if_neg (Ne.symm hne), List.append_nil]
  cases h with
  | release o line r hi => cases o <;> rfl
  | write line auto w' _ _ => exact key _
  | writeFails line _ _ => exact key _
  | _ => rfl

/-- The call is not beyond the waiting for the lock of the file, and a call that waits for the lock of the rotator is not beyond that. -/
def CuPc.front : CuPc → Bool
  | .idle => true
  | .before _ => true
  | .start _ => true
  | .checking _ => true
  | .enter .move _ => true
  | .enter .write _ => true
  | _ => false

def CuPc.early : CuPc → Bool
  | .idle => true
  | .before _ => true
  | .start _ => true
  | _ => false

/-- Above the topmost call there is nothing, and calls above one that holds a lock have not come past that lock. -/
structure NeInv (c : FConf) (s : NeState) : Prop where
  locks : CuLocks c s.f
  above : ∀ t d, s.depth t < d → s.f.pc (callNo t d) = .idle
  rot : ∀ t d d', d < d' → s.f.rotLock = some (callNo t d) → (s.f.pc (callNo t d')).early = true
  lock : ∀ t d d', d < d' → s.f.lock = some (callNo t d) → (s.f.pc (callNo t d')).front = true

theorem CuStep.rotLock_other {c : FConf} {s s' : CuState} {n m : Nat} (hl : CuLocks c s) (h : CuStep c n s s') (hne : m ≠ n) :
    s'.rotLock = some m ↔ s.rotLock = some m := by
  rw [(hl.step h).rot m, hl.rot m, h.others hne]

theorem CuStep.lock_other {c : FConf} {s s' : CuState} {n m : Nat} (hl : CuLocks c s) (h : CuStep c n s s') (hne : m ≠ n) :
    s'.lock = some m ↔ s.lock = some m := by
  rw [(hl.step h).lock m, hl.lock m, h.others hne]

/-- While another call holds the lock of the rotator. -/
theorem CuStep.early {c : FConf} {s s' : CuState} {n m : Nat} (h : CuStep c n s s') (hm : s.rotLock = some m)
    (hp : (s.pc n).early = true) : (s'.pc n).early = true ∧ (s.pc n ≠ .idle → s'.pc n ≠ .idle) ∧ s'.done = s.done := by
  cases h with
  | call line ht hi => simp [CuState.go, putAt, CuPc.early]
  | rotation line hi => simp [CuState.go, putAt, CuPc.early]
  | lockRot line hi hr => rw [hm] at hr; cases hr
  | moved line target w' hi => rcases hi with hi | hi <;> rw [hi] at hp <;> cases hp
  | moveFails line hi => rcases hi with hi | hi <;> rw [hi] at hp <;> cases hp
  | fire line n hi => rw [hi] at hp; cases hp
  | pass line hi => rw [hi] at hp; cases hp
  | acquire o line hi => rw [hi] at hp; cases hp
  | into o line hi => rw [hi] at hp; cases hp
  | notFound line hi => rw [hi] at hp; cases hp
  | close line hi => rw [hi] at hp; cases hp
  | opened line hi => rw [hi] at hp; cases hp
  | openFails line hi => rw [hi] at hp; cases hp
  | write line auto w' hi => rw [hi] at hp; cases hp
  | writeFails line hi => rw [hi] at hp; cases hp
  | spill line auto w' hi => rw [hi] at hp; cases hp
  | flush line w' hi => rw [hi] at hp; cases hp
  | flushFails line hi => rw [hi] at hp; cases hp
  | leave o line hi => rw [hi] at hp; cases hp
  | release o line r hi => rw [hi] at hp; cases hp

/-- While another call holds the lock of the file. -/
theorem CuStep.front {c : FConf} {s s' : CuState} {n m : Nat} (h : CuStep c n s s') (hm : s.lock = some m)
    (hp : (s.pc n).front = true) : (s'.pc n).front = true ∧ (s.pc n ≠ .idle → s'.pc n ≠ .idle) ∧ s'.done = s.done := by
  cases h with
  | call line ht hi => simp [CuState.go, putAt, CuPc.front]
  | rotation line hi => simp [CuState.go, putAt, CuPc.front]
  | lockRot line hi hr => simp [CuState.go, putAt, CuPc.front]
  | fire line n hi => simp [CuState.go, putAt, CuPc.front]
  | pass line hi => simp [CuState.go, putAt, CuPc.front]
  | acquire o line hi hl => rw [hm] at hl; cases hl
  | moved line target w' hi => rcases hi with hi | hi <;> rw [hi] at hp <;> cases hp
  | moveFails line hi => rcases hi with hi | hi <;> rw [hi] at hp <;> cases hp
  | into o line hi => rw [hi] at hp; cases hp
  | notFound line hi => rw [hi] at hp; cases hp
  | close line hi => rw [hi] at hp; cases hp
  | opened line hi => rw [hi] at hp; cases hp
  | openFails line hi => rw [hi] at hp; cases hp
  | write line auto w' hi => rw [hi] at hp; cases hp
  | writeFails line hi => rw [hi] at hp; cases hp
  | spill line auto w' hi => rw [hi] at hp; cases hp
  | flush line w' hi => rw [hi] at hp; cases hp
  | flushFails line hi => rw [hi] at hp; cases hp
  | leave o line hi => rw [hi] at hp; cases hp
  | release o line r hi => rw [hi] at hp; cases hp

theorem NeInv.init {c : FConf} {s : NeState} (h : NeStart c s) : NeInv c s := by
  refine ⟨.init h.start, fun t d _ => h.start.idle _, fun t d d' _ _ => ?_, fun t d d' _ _ => ?_⟩ <;> rw [h.start.idle] <;> rfl

theorem NeInv.step {c : FConf} {s s' : NeState} (h : NeInv c s) (hs : NeStep c s s') : NeInv c s' := by
  cases hs with
  | go u f' hc =>
    have habove : ∀ t d, s.depth t < d → f'.pc (callNo t d) = .idle := by
      intro t d hd
      rw [hc.others]
      · exact h.above t d hd
      · intro e
        obtain ⟨rfl, rfl⟩ := callNo_inj e
        exact absurd hd (Nat.lt_irrefl _)
    refine ⟨h.locks.step hc, habove, fun t d d' hd hr => ?_, fun t d d' hd hr => ?_⟩ <;> dsimp only at hr ⊢
    · by_cases hn : callNo t d = s.top u
      · obtain ⟨rfl, rfl⟩ := callNo_inj hn
        rw [habove _ _ hd]; rfl
      · have hr := (hc.rotLock_other h.locks hn).1 hr
        by_cases hn' : callNo t d' = s.top u
        · have := h.rot t d d' hd hr
          rw [hn'] at this ⊢
          exact (hc.early hr this).1
        · rw [hc.others hn']; exact h.rot t d d' hd hr
    · by_cases hn : callNo t d = s.top u
      · obtain ⟨rfl, rfl⟩ := callNo_inj hn
        rw [habove _ _ hd]; rfl
      · have hr := (hc.lock_other h.locks hn).1 hr
        by_cases hn' : callNo t d' = s.top u
        · have := h.lock t d d' hd hr
          rw [hn'] at this ⊢
          exact (hc.front hr this).1
        · rw [hc.others hn']; exact h.lock t d d' hd hr
  | destructor u =>
    refine ⟨h.locks, fun t d hd => h.above t d ?_, h.rot, h.lock⟩
    dsimp only [putAt] at hd
    split at hd
    · rename_i e; subst e; omega
    · exact hd
  | finished u d₀ hd₀ hi =>
    refine ⟨h.locks, fun t d hd => ?_, h.rot, h.lock⟩
    dsimp only [putAt] at hd ⊢
    split at hd
    · rename_i e; subst e
      by_cases e : d = d₀ + 1
      · subst e; rw [NeState.top, hd₀] at hi; exact hi
      · exact h.above t d (by omega)
    · exact h.above t d hd

theorem NeRun.inv {c : FConf} {s₀ s : NeState} (h₀ : NeInv c s₀) (h : NeRun c s₀ s) : NeInv c s := by
  induction h with
  | init => exact h₀
  | step _ hs ih => exact ih.step hs

/-- **C109**, the contents of the files: whatever logs destructors and signal handlers write, in the middle of whatever calls: what was written
is in the rotated files, the current file and the buffer, whole, in order and once; every call that has ended was written or handed to `alt`,
exactly one of them; and if the system refuses nothing, it was written. -/
theorem C109_written_lines_are_kept (c : FConf) (s₀ s : NeState) (h₀ : NeStart c s₀) (h : NeRun c s₀ s) :
    Kept c.fn s₀.f s.f ∧ Accounted s.f ∧ linesWith .cut s.f = [] ∧ (c.reliable = true → linesWith .failed s.f = []) := by
  have hr := h.forget (mild := true) (.init (s₀ := s₀.f))
  have hi := hr.inv h₀.start
  refine ⟨hi.wf.text, fun t ht => ?_, ?_, fun hc => (hr.sound hc h₀.start).none⟩
  · rw [hi.fates t, ht]
    simp [CuPc.pending]
  clear hr hi
  induction h with
  | init => rw [linesWith, h₀.start.history.2.1]; rfl
  | step _ hs ih =>
    cases hs with
    | destructor t => exact ih
    | finished t d _ _ => exact ih
    | go t f' hc =>
      dsimp only
      rw [← ih]
      cases hc with
      | write line auto w' hi hw =>
        rw [linesWith_append (x := (_, line, .written)) rfl]
        simp
        rfl
      | writeFails line hi hf =>
        rw [linesWith_append (x := (_, line, .failed)) rfl]
        simp
      | release o line r hi => cases o <;> rfl
      | _ => rfl

/-- A destructor called the handler inside: nothing of this thread up to this call goes on. -/
theorem NeInv.inside {c : FConf} {s s' : NeState} (h : NeInv c s) {t d d' : Nat} (hin : CalledInside s t d d') (hs : NeStep c s s') :
    CalledInside s' t d d' ∧ (s'.f.lock = some (callNo t d) ↔ s.f.lock = some (callNo t d)) ∧
    (s'.f.rotLock = some (callNo t d) ↔ s.f.rotLock = some (callNo t d)) ∧
    (∀ n, n = callNo t d ∨ n = callNo t d' → ofThread n s'.f.done = ofThread n s.f.done) := by
  obtain ⟨hd, hh, hb⟩ := hin
  have hdep : d' ≤ s.depth t := by
    by_contra hlt
    exact hb (h.above t d' (by omega))
  cases hs with
  | destructor u => exact ⟨⟨hd, hh, hb⟩, .rfl, .rfl, fun _ _ => rfl⟩
  | finished u d₀ hd₀ hi => exact ⟨⟨hd, hh, hb⟩, .rfl, .rfl, fun _ _ => rfl⟩
  | go u f' hc =>
    have hn : callNo t d ≠ s.top u := by
      intro e; obtain ⟨rfl, rfl⟩ := callNo_inj e; omega
    have hl := hc.lock_other h.locks hn
    have hr := hc.rotLock_other h.locks hn
    have hhold : HoldsLock { s with f := f' } (callNo t d) := by
      rcases hh with hh | hh
      · exact .inl (hl.2 hh)
      · exact .inr (hr.2 hh)
    have hkey : f'.pc (callNo t d') ≠ .idle ∧ ofThread (callNo t d') f'.done = ofThread (callNo t d') s.f.done := by
      by_cases hn' : callNo t d' = s.top u
      · rcases hh with hh | hh
        · have h1 := h.lock t d d' hd hh
          rw [hn'] at h1 hb ⊢
          have := hc.front hh h1
          exact ⟨this.2.1 hb, by rw [this.2.2]⟩
        · have h1 := h.rot t d d' hd hh
          rw [hn'] at h1 hb ⊢
          have := hc.early hh h1
          exact ⟨this.2.1 hb, by rw [this.2.2]⟩
      · exact ⟨by rw [hc.others hn']; exact hb, hc.othersDone hn'⟩
    refine ⟨⟨hd, hhold, hkey.1⟩, hl, hr, ?_⟩
    rintro n (rfl | rfl)
    · exact hc.othersDone hn
    · exact hkey.2

theorem NeInv.insideRun {c : FConf} {s s' : NeState} (h : NeInv c s) {t d d' : Nat} (hin : CalledInside s t d d') (hr : NeRun c s s') :
    CalledInside s' t d d' ∧ (s'.f.lock = some (callNo t d) ↔ s.f.lock = some (callNo t d)) ∧
    (s'.f.rotLock = some (callNo t d) ↔ s.f.rotLock = some (callNo t d)) ∧
    (∀ n, n = callNo t d ∨ n = callNo t d' → ofThread n s'.f.done = ofThread n s.f.done) := by
  induction hr with
  | init => exact ⟨hin, .rfl, .rfl, fun _ _ => rfl⟩
  | step hr hs ih =>
    obtain ⟨h1, h2, h3, h4⟩ := ih
    obtain ⟨h5, h6, h7, h8⟩ := (hr.inv h).inside h1 hs
    exact ⟨h5, h6.trans h2, h7.trans h3, fun n hn => (h8 n hn).trans (h4 n hn)⟩

/-- **C109**: when a destructor calls the handler while its thread holds a lock of it, neither this call nor the interrupted one ever returns,
and what they have not written yet will never be written. -/
theorem C109_call_inside_a_lock_never_returns (c : FConf) (s₀ s : NeState) (h₀ : NeStart c s₀) (h : NeRun c s₀ s) (t d d' : Nat)
    (hin : CalledInside s t d d') : NeverReturns c s (callNo t d) ∧ NeverReturns c s (callNo t d') := by
  have hi := h.inv (.init h₀)
  refine ⟨fun s' hr => ?_, fun s' hr => ?_⟩
  · obtain ⟨⟨_, h2, _⟩, _, _, h4⟩ := hi.insideRun hin hr
    refine ⟨fun e => ?_, h4 _ (.inl rfl)⟩
    rcases h2 with h2 | h2
    · have := ((hr.inv hi).locks.lock _).1 h2; rw [e] at this; cases this
    · have := ((hr.inv hi).locks.rot _).1 h2; rw [e] at this; cases this
  · obtain ⟨⟨_, _, h3⟩, _, _, h4⟩ := hi.insideRun hin hr
    exact ⟨h3, h4 _ (.inr rfl)⟩

/-- **C109**: and from then on the handler is of no use for the whole program: no thread that is outside the handler will ever write a line
through it again, or hand one to `alt`, or come back from a call of it. -/
theorem C109_call_inside_a_lock_stops_the_handler (c : FConf) (s₀ s s' : NeState) (h₀ : NeStart c s₀) (h : NeRun c s₀ s) (t d d' : Nat)
    (hin : CalledInside s t d d') (n : Nat) (hidle : s.f.pc n = .idle) (h' : NeRun c s s') :
    ofThread n s'.f.done = ofThread n s.f.done ∧ (s'.f.pc n = .idle → ofThread n s'.f.calls = ofThread n s.f.calls) := by
  have hi := h.inv (.init h₀)
  have key : ofThread n s'.f.done = ofThread n s.f.done ∧ (s.f.lock = some (callNo t d) → (s'.f.pc n).front = true) ∧
      (s.f.rotLock = some (callNo t d) → (s'.f.pc n).early = true) := by
    induction h' with
    | init => rw [hidle]; exact ⟨rfl, fun _ => rfl, fun _ => rfl⟩
    | @step s₁ _ hr hs ih =>
      obtain ⟨hd, hf, he⟩ := ih
      obtain ⟨⟨_, hh, _⟩, hl, hrl, _⟩ := hi.insideRun hin hr
      cases hs with
      | destructor u => exact ⟨hd, hf, he⟩
      | finished u d₀ _ _ => exact ⟨hd, hf, he⟩
      | go u f' hc =>
        by_cases hn : n = s₁.top u
        · subst hn
          refine ⟨?_, fun e => (hc.front (hl.2 e) (hf e)).1, fun e => (hc.early (hrl.2 e) (he e)).1⟩
          rcases hh with hh | hh
          · dsimp only; rw [(hc.front hh (hf (hl.1 hh))).2.2]; exact hd
          · dsimp only; rw [(hc.early hh (he (hrl.1 hh))).2.2]; exact hd
        · dsimp only; rw [hc.others hn, hc.othersDone hn]
          exact ⟨hd, hf, he⟩
  refine ⟨key.1, fun e => ?_⟩
  rw [(C109_written_lines_are_kept c s₀ s' h₀ (h.trans h')).2.1 n e, (C109_written_lines_are_kept c s₀ s h₀ h).2.1 n hidle, key.1]

/-- The destructors above depth `d` of a thread end. -/
theorem pop_to {c : FConf} {s : NeState} (t d : Nat) : ∀ k s', NeOnward c s s' → s'.depth t = d + k →
    (∀ d', d < d' → s'.f.pc (callNo t d') = .idle) → ∃ s'', NeOnward c s s'' ∧ s''.f = s'.f ∧ s''.depth t = d := by
  intro k
  induction k with
  | zero => intro s' h hd _; exact ⟨s', h, rfl, hd⟩
  | succ k ih =>
    intro s' h hd hi
    have := ih { s' with depth := putAt s'.depth t (d + k) } (.finished t (d + k) h (by omega) (by
      rw [NeState.top, hd]; exact hi _ (by omega))) (putAt_same ..) hi
    exact this

theorem NeOnward.one {c : FConf} {s s₁ : NeState} (h : NeOnward c s s₁) {t d : Nat} {f' : CuState} (hd : d ≤ s₁.depth t)
    (ha : ∀ d', d < d' → s₁.f.pc (callNo t d') = .idle) (hb : s₁.f.pc (callNo t d) ≠ .idle) (hc : CuStep c (callNo t d) s₁.f f') :
    ∃ s₂, NeOnward c s s₂ ∧ s₂.f = f' := by
  obtain ⟨s₂, h1, h2, h3⟩ := pop_to t d (s₁.depth t - d) s₁ h (by omega) ha
  have ht : s₂.top t = callNo t d := by rw [NeState.top, h3]
  exact ⟨_, .go t f' h1 (by rw [ht, h2]; exact hb) (by rw [ht, h2]; exact hc), rfl⟩

theorem NeInv.busyDepth {c : FConf} {s : NeState} (h : NeInv c s) {t d : Nat} (hb : s.f.pc (callNo t d) ≠ .idle) : d ≤ s.depth t := by
  by_contra hlt
  exact hb (h.above t d (by omega))

/-- Some call goes on. -/
theorem NeInv.progress {c : FConf} {s s₁ : NeState} (h : NeInv c s₁) (hon : NeOnward c s s₁)
    (hfree : ∃ target, s₁.f.w.files target = none ∧ target ≠ c.fn)
    (hno : ∀ t d d', ¬ CalledInside s₁ t d d') {n : Nat} (hb : s₁.f.pc n ≠ .idle) :
    ∃ s₂ m x, NeOnward c s s₂ ∧ CuStep c m s₁.f s₂.f ∧ s₂.f.pc = putAt s₁.f.pc m x ∧ x.left < (s₁.f.pc m).left ∧ s₁.f.pc m ≠ .idle ∧
      (∃ t d, m = callNo t d ∧ ∀ d', d < d' → s₁.f.pc (callNo t d') = .idle) := by
  -- a call above which there is nothing and that waits for no lock
  have run : ∀ t d, s₁.f.pc (callNo t d) ≠ .idle → (∀ d', d < d' → s₁.f.pc (callNo t d') = .idle) →
      (∀ o line, s₁.f.pc (callNo t d) = .enter o line → s₁.f.lock = none) →
      (∀ line, s₁.f.pc (callNo t d) = .start line → s₁.f.rotLock = none) →
      ∃ s₂ m x, NeOnward c s s₂ ∧ CuStep c m s₁.f s₂.f ∧ s₂.f.pc = putAt s₁.f.pc m x ∧ x.left < (s₁.f.pc m).left ∧ s₁.f.pc m ≠ .idle ∧
        (∃ t d, m = callNo t d ∧ ∀ d', d < d' → s₁.f.pc (callNo t d') = .idle) := by
    intro t d hb ha hw hw'
    obtain ⟨f', x, h1, h2, h3⟩ := CuLocks.moves (c := c) hfree hb hw hw'
    obtain ⟨s₂, h4, h5⟩ := NeOnward.one hon (h.busyDepth hb) ha hb h1
    subst h5
    exact ⟨s₂, _, x, h4, h1, h2, h3, hb, t, d, rfl, ha⟩
  have above : ∀ t d, HoldsLock s₁ (callNo t d) → ∀ d', d < d' → s₁.f.pc (callNo t d') = .idle := by
    intro t d hh d' hd
    by_contra e
    exact hno t d d' ⟨hd, hh, e⟩
  cases hl : s₁.f.lock with
  | some o =>
    have ho := (h.locks.lock o).1 hl
    obtain ⟨t, d, rfl⟩ := callNo_surj o
    exact run t d (fun e => by rw [e] at ho; cases ho) (above t d (.inl hl)) (fun _ _ e => by rw [e] at ho; cases ho)
      (fun _ e => by rw [e] at ho; cases ho)
  | none =>
    cases hr : s₁.f.rotLock with
    | some o =>
      have ho := (h.locks.rot o).1 hr
      obtain ⟨t, d, rfl⟩ := callNo_surj o
      exact run t d (fun e => by rw [e] at ho; cases ho) (above t d (.inr hr)) (fun _ _ _ => hl)
        (fun _ e => by rw [e] at ho; cases ho)
    | none =>
      obtain ⟨t, d, rfl⟩ := callNo_surj n
      -- the topmost call of this thread that is not idle
      obtain ⟨d₁, hb₁, ha₁⟩ : ∃ d₁, s₁.f.pc (callNo t d₁) ≠ .idle ∧ ∀ d', d₁ < d' → s₁.f.pc (callNo t d') = .idle := by
        have main : ∀ k d, s₁.depth t - d = k → s₁.f.pc (callNo t d) ≠ .idle →
            ∃ d₁, s₁.f.pc (callNo t d₁) ≠ .idle ∧ ∀ d', d₁ < d' → s₁.f.pc (callNo t d') = .idle := by
          intro k
          induction k using Nat.strong_induction_on with
          | _ k ih =>
            intro d hk hb
            by_cases hall : ∀ d', d < d' → s₁.f.pc (callNo t d') = .idle
            · exact ⟨d, hb, hall⟩
            · simp only [not_forall] at hall
              obtain ⟨d', hd', hb'⟩ := hall
              have := h.busyDepth hb'
              exact ih (s₁.depth t - d') (by omega) d' rfl hb'
        exact main _ d rfl hb
      exact run t d₁ hb₁ ha₁ (fun _ _ _ => hl) (fun _ _ => hr)

/-- **C109**, exactly when the calls can come to an end: all calls, of all threads and of all destructors, can be finished if and only if no
destructor has called the handler while its thread holds a lock of it. -/
theorem C109_calls_can_be_finished_iff (c : FConf) (s₀ s : NeState) (h₀ : NeStart c s₀) (h : NeRun c s₀ s) :
    (∃ s', NeOnward c s s' ∧ ∀ n, s'.f.pc n = .idle) ↔ ∀ t d d', ¬ CalledInside s t d d' := by
  constructor
  · rintro ⟨s', hon, hall⟩ t d d' hin
    exact ((C109_call_inside_a_lock_never_returns c s₀ s h₀ h t d d' hin).1 s' hon.run).1 (hall _)
  · intro hno
    have hinv : ∀ s', NeOnward c s s' → NeInv c s' ∧ CuInv c s₀.f s'.f := fun s' hon =>
      ⟨(h.trans hon.run).inv (.init h₀), ((h.trans hon.run).forget (mild := false) (.init (s₀ := s₀.f))).inv h₀.start⟩
    have main : ∀ k s', NeOnward c s s' → (∀ t d d', ¬ CalledInside s' t d d') → s'.f.left c = k →
        ∃ s'', NeOnward c s s'' ∧ ∀ n, s''.f.pc n = .idle := by
      intro k
      induction k using Nat.strong_induction_on with
      | _ k ih =>
        intro s' hon hno hk
        by_cases hall : ∀ n, s'.f.pc n = .idle
        · exact ⟨s', hon, hall⟩
        · obtain ⟨n, hb⟩ := not_forall.1 hall
          obtain ⟨hi, hci⟩ := hinv s' hon
          obtain ⟨s₂, m, x, h1, h2, h3, h4, h5, t₀, d₀, rfl, ha⟩ := hi.progress hon hci.wf.freeName hno hb
          have hm : callNo t₀ d₀ < c.threads := Nat.lt_of_not_le (fun e => h5 (hi.locks.few _ e))
          refine ih (s₂.f.left c) ?_ s₂ h1 ?_ rfl
          · rw [← hk]
            refine sum_map_lt (List.mem_range.2 hm) (by rw [h3, putAt_same]; exact h4) (fun v => ?_)
            rw [h3]
            by_cases e : v = callNo t₀ d₀
            · subst e; rw [putAt_same]; exact Nat.le_of_lt h4
            · rw [putAt_ne _ _ e]
          · rintro t d d' ⟨hd, hh, hb'⟩
            by_cases e : callNo t d = callNo t₀ d₀
            · obtain ⟨rfl, rfl⟩ := callNo_inj e
              refine hb' ?_
              rw [h2.others]
              · exact ha d' hd
              · intro e; have := (callNo_inj e).2; omega
            · have hh' : HoldsLock s' (callNo t d) := by
                rcases hh with hh | hh
                · exact .inl ((h2.lock_other hi.locks e).1 hh)
                · exact .inr ((h2.rotLock_other hi.locks e).1 hh)
              refine hno t d d' ⟨hd, hh', ?_⟩
              by_cases e' : callNo t d' = callNo t₀ d₀
              · rw [e']; exact h5
              · rw [h2.others e'] at hb'; exact hb'
    exact main _ s .here hno rfl

/-! ### Such destructors can run -/

/-- Rotation as soon as there is something in the file; calls with the numbers 0, 1 and 2. -/
def neConf : FConf := ⟨['f'], fun n => decide (0 < n), true, 3, true, true⟩

def neStart : NeState :=
  ⟨⟨⟨fun n => if n = ['f'] then some 0 else none, fun _ => [], 1, some 0, []⟩, fun _ => .idle, none, none, [], [], [], 0⟩, fun _ => 0⟩

theorem neStart_ok : NeStart neConf neStart where
  start := {
    opened := ⟨0, rfl, rfl⟩
    distinct := by
      intro p q i hp hq
      have : ∀ p, (if p = ['f'] then some 0 else none) = some i → p = ['f'] := by
        intro p hp
        split at hp
        · assumption
        · cases hp
      rw [this p hp, this q hq]
    below := by
      intro p i hp
      have hp : (if p = ['f'] then some 0 else none) = some i := hp
      split at hp
      · cases hp; decide
      · cases hp
    buf := rfl
    idle := fun _ => rfl
    unlocked := ⟨rfl, rfl⟩
    history := ⟨rfl, rfl, rfl, rfl⟩ }
  depth _ := rfl

/-- Nobody has written anything and everybody else is outside. -/
theorem nothing_is_written {s s' : NeState} (h : NeRun neConf neStart s) (hin : CalledInside s 0 0 1)
    (hd : s.f.done = []) (hidle : ∀ n, n ≠ 0 → n ≠ 1 → s.f.pc n = .idle) (h' : NeRun neConf s s') : s'.f.done = [] := by
  have key : ∀ n, ofThread n s'.f.done = [] := by
    intro n
    have h0 : ofThread n s.f.done = [] := by rw [hd]; rfl
    by_cases e0 : n = 0
    · subst e0
      exact ((C109_call_inside_a_lock_never_returns neConf neStart s neStart_ok h 0 0 1 hin).1 s' h').2.trans h0
    · by_cases e1 : n = 1
      · subst e1
        exact ((C109_call_inside_a_lock_never_returns neConf neStart s neStart_ok h 0 0 1 hin).2 s' h').2.trans h0
      · exact (C109_call_inside_a_lock_stops_the_handler neConf neStart s s' neStart_ok h 0 0 1 hin n (hidle n e0 e1) h').1.trans h0
  cases hdn : s'.f.done with
  | nil => rfl
  | cons x l =>
    have := key x.1
    rw [hdn] at this
    simp [ofThread] at this

/-- Thread 0 waits for the lock of the file, without any lock. -/
theorem ne_waits : ∃ s, NeRun neConf neStart s ∧ s.f.pc = putAt neStart.f.pc 0 (.enter .write ['a']) ∧ s.f.lock = none ∧ s.f.rotLock = none ∧
    s.f.done = [] ∧ s.depth = neStart.depth := by
  have r := NeRun.init (c := neConf) (s₀ := neStart)
  have r := r.step (.go _ 0 _ (.call _ ['a'] (by decide) rfl))
  have r := r.step (.go _ 0 _ (.rotation _ ['a'] rfl))
  have r := r.step (.go _ 0 _ (.lockRot _ ['a'] rfl rfl))
  have r := r.step (.go _ 0 _ (.pass _ ['a'] rfl (fun n hn => by
    have hn : some 0 = some n := hn
    cases hn; rfl)))
  refine ⟨_, r, ?_, rfl, rfl, rfl, rfl⟩
  funext u
  by_cases hu : u = 0
  · subst hu; rfl
  · have h0 : NeState.top neStart 0 = 0 := rfl
    simp [CuState.go, putAt, hu, neStart, NeState.top, callNo, Nat.pair]

/-- **C109 fails**: a destructor writes a log while its thread writes a line to the file, and the program never writes a line to this file
again; the two calls, and all later ones, of all threads, hang. -/
theorem C109_destructor_while_a_line_is_written_fails : ∃ s, NeRun neConf neStart s ∧ s.f.pc (callNo 0 0) = .body .write ['a'] ∧
    s.f.pc (callNo 0 1) = .before ['b'] ∧ (∀ n, n ≠ callNo 0 0 → n ≠ callNo 0 1 → s.f.pc n = .idle) ∧
    NeverReturns neConf s (callNo 0 0) ∧ NeverReturns neConf s (callNo 0 1) ∧ ∀ s', NeRun neConf s s' → s'.f.done = [] := by
  obtain ⟨s, r, hpc, hl, hr, hd, hdep⟩ := ne_waits
  have htop : s.top 0 = 0 := by rw [NeState.top, hdep]; rfl
  have r := r.step (.go _ 0 _ (.acquire _ .write ['a'] (by rw [htop, hpc]; rfl) hl))
  have r := r.step (.go _ 0 _ (.into _ .write ['a'] (by exact putAt_same ..)))
  have r := r.step (.destructor _ 0)
  have r := r.step (.go _ 0 _ (.call _ ['b'] (by
    show callNo 0 (putAt s.depth 0 (s.depth 0 + 1) 0) < _
    rw [hdep]; decide) (by
    show putAt (putAt s.f.pc _ _) _ _ (callNo 0 (putAt s.depth 0 (s.depth 0 + 1) 0)) = _
    rw [hpc, htop, hdep]; rfl)))
  generalize hs2 : NeState.mk _ _ = s2 at r
  have hpc2 : s2.f.pc = putAt (putAt (putAt s.f.pc 0 (.entered .write ['a'])) 0 (.body .write ['a'])) 1 (.before ['b']) := by
    rw [← hs2]
    show putAt (putAt (putAt s.f.pc (s.top 0) _) (s.top 0) _) (callNo 0 (putAt s.depth 0 (s.depth 0 + 1) 0)) _ = _
    rw [htop, hdep]; rfl
  have hlock : s2.f.lock = some (callNo 0 0) := by
    rw [← hs2]; show some (s.top 0) = _; rw [htop]; rfl
  have hd2 : s2.f.done = [] := by rw [← hs2]; exact hd
  have h0 : s2.f.pc (callNo 0 0) = .body .write ['a'] := by rw [hpc2]; rfl
  have h1 : s2.f.pc (callNo 0 1) = .before ['b'] := by rw [hpc2]; rfl
  have hin : CalledInside s2 0 0 1 := ⟨by decide, .inl hlock, by rw [h1]; exact fun e => nomatch e⟩
  have hid : ∀ n, n ≠ 0 → n ≠ 1 → s2.f.pc n = .idle := by
    intro n e0 e1
    rw [hpc2, putAt_ne _ _ e1, putAt_ne _ _ e0, putAt_ne _ _ e0, hpc, putAt_ne _ _ e0]; rfl
  obtain ⟨n0, n1⟩ := C109_call_inside_a_lock_never_returns neConf neStart s2 neStart_ok r 0 0 1 hin
  exact ⟨s2, r, h0, h1, hid, n0, n1, fun s' h' => nothing_is_written r hin hd2 hid h'⟩

/-- **C109 fails** also if the destructor runs while its thread checks whether the file has to be rotated (which every call does). -/
theorem C109_destructor_while_rotation_is_checked_fails : ∃ s, NeRun neConf neStart s ∧ s.f.pc (callNo 0 0) = .checking ['a'] ∧
    s.f.pc (callNo 0 1) = .before ['b'] ∧ (∀ n, n ≠ callNo 0 0 → n ≠ callNo 0 1 → s.f.pc n = .idle) ∧
    NeverReturns neConf s (callNo 0 0) ∧ NeverReturns neConf s (callNo 0 1) ∧ ∀ s', NeRun neConf s s' → s'.f.done = [] := by
  have r := NeRun.init (c := neConf) (s₀ := neStart)
  have r := r.step (.go _ 0 _ (.call _ ['a'] (by decide) rfl))
  have r := r.step (.go _ 0 _ (.rotation _ ['a'] rfl))
  have r := r.step (.go _ 0 _ (.lockRot _ ['a'] rfl rfl))
  have r := r.step (.destructor _ 0)
  have r := r.step (.go _ 0 _ (.call _ ['b'] (by decide) rfl))
  generalize hs2 : NeState.mk _ _ = s2 at r
  have hpc2 : s2.f.pc = putAt (putAt (putAt (putAt neStart.f.pc 0 (.before ['a'])) 0 (.start ['a'])) 0 (.checking ['a'])) 1 (.before ['b']) := by
    rw [← hs2]; rfl
  have hlock : s2.f.rotLock = some (callNo 0 0) := by rw [← hs2]; rfl
  have hd2 : s2.f.done = [] := by rw [← hs2]; rfl
  have h0 : s2.f.pc (callNo 0 0) = .checking ['a'] := by rw [hpc2]; rfl
  have h1 : s2.f.pc (callNo 0 1) = .before ['b'] := by rw [hpc2]; rfl
  have hin : CalledInside s2 0 0 1 := ⟨by decide, .inr hlock, by rw [h1]; exact fun e => nomatch e⟩
  have hid : ∀ n, n ≠ 0 → n ≠ 1 → s2.f.pc n = .idle := by
    intro n e0 e1
    rw [hpc2, putAt_ne _ _ e1, putAt_ne _ _ e0, putAt_ne _ _ e0, putAt_ne _ _ e0]; rfl
  obtain ⟨n0, n1⟩ := C109_call_inside_a_lock_never_returns neConf neStart s2 neStart_ok r 0 0 1 hin
  exact ⟨s2, r, h0, h1, hid, n0, n1, fun s' h' => nothing_is_written r hin hd2 hid h'⟩

-- a destructor that does no harm: it runs, and calls the handler, before its thread has taken the lock of the file
example : ∃ s, NeRun neConf neStart s ∧ s.f.pc (callNo 0 0) = .enter .write ['a'] ∧ s.f.pc (callNo 0 1) = .before ['b'] ∧
    s.depth 0 = 1 ∧ ∀ t d d', ¬ CalledInside s t d d' := by
  obtain ⟨s, r, hpc, hl, hr, hd, hdep⟩ := ne_waits
  have r := r.step (.destructor _ 0)
  have r := r.step (.go _ 0 _ (.call _ ['b'] (by
    show callNo 0 (putAt s.depth 0 (s.depth 0 + 1) 0) < _
    rw [hdep]; decide) (by
    show s.f.pc (callNo 0 (putAt s.depth 0 (s.depth 0 + 1) 0)) = _
    rw [hpc, hdep]; rfl)))
  refine ⟨_, r, ?_, ?_, ?_, ?_⟩
  · show putAt s.f.pc (callNo 0 (putAt s.depth 0 (s.depth 0 + 1) 0)) (.before ['b']) (callNo 0 0) = _
    rw [hpc, hdep]; rfl
  · show putAt s.f.pc (callNo 0 (putAt s.depth 0 (s.depth 0 + 1) 0)) (.before ['b']) (callNo 0 1) = _
    rw [hpc, hdep]; rfl
  · show putAt s.depth 0 (s.depth 0 + 1) 0 = _
    rw [hdep]; rfl
  · rintro t d d' ⟨_, hh | hh, _⟩
    · have : s.f.lock = _ := hh
      rw [hl] at this; cases this
    · have : s.f.rotLock = _ := hh
      rw [hr] at this; cases this

end Polog
