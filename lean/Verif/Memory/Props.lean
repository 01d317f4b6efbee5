import Verif.Memory.Spec

/-! C58: `memory_saver`. -/

namespace Polog
open MemSpec

variable {L : Type}

theorem sinceClean_append (h h' : List (Nat × MemCall L)) (acc : List L) :
    sinceClean (h ++ h') acc = sinceClean h' (sinceClean h acc) := by
  induction h generalizing acc with
  | nil => rfl
  | cons x h ih => obtain ⟨c, call⟩ := x; cases call <;> exact ih _

theorem kept_snoc (h : List (Nat × MemCall L)) (c : Nat) (call : MemCall L) :
    kept (h ++ [(c, call)]) = call.onAll (kept h) := by
  unfold kept
  rw [sinceClean_append]
  cases call <;> rfl

theorem last_onAll {call : MemCall L} (hc : call ≠ .construct) (l : List L) (o : Option L) :
    (call.onAll l).getLast? = call.onLast o := by
  cases call with
  | construct => exact absurd rfl hc
  | save log => simp [MemCall.onAll, MemCall.onLast]
  | clean => rfl

/-- The semaphore is held by this call. -/
def MemPc.holds : MemPc L → Bool
  | .holding _ => true
  | .half _ => true
  | .leaving _ => true
  | _ => false

/-- The call in progress or finished. -/
def MemPc.call : MemPc L → Option (MemCall L)
  | .waiting k => some k
  | .holding k => some k
  | .half k => some k
  | .leaving k => some k
  | _ => none

/-- The effect of the call on `all` has happened. -/
def MemPc.effective : MemPc L → Option (MemCall L)
  | .half k => some k
  | .leaving k => some k
  | .finished .construct => none
  | .finished k => some k
  | _ => none

/-- The invariant once a constructor call is over. -/
structure MemInv (s : MemState L) : Prop where
  inited : s.inited = true
  noInit : ∀ c, s.pc c ≠ .notInited ∧ s.pc c ≠ .emptied
  holder : ∀ c, (s.pc c).holds = true ↔ s.sem = some c
  real : ∀ c k, (s.pc c).call = some k → k ≠ .construct
  all : s.all = kept s.hist
  last : s.last = s.all.getLast? ∨ ∃ c k, s.pc c = .half k
  half : ∀ c k, s.pc c = .half k → s.all.getLast? = k.onLast s.last
  effect : ∀ c k, (c, k) ∈ s.hist ↔ (s.pc c).effective = some k
  once : (s.hist.map Prod.fst).Nodup

theorem memInv_ready : MemInv (MemState.ready L) where
  inited := rfl
  noInit := fun _ => ⟨fun h => (nomatch h), fun h => (nomatch h)⟩
  holder := fun _ => ⟨fun h => (nomatch h), fun h => (nomatch h)⟩
  real := fun _ _ h => nomatch h
  all := rfl
  last := .inl rfl
  half := fun _ _ h => nomatch h
  effect := fun _ _ => ⟨fun h => (nomatch h), fun h => (nomatch h)⟩
  once := List.nodup_nil

theorem onLast_idem {k : MemCall L} (h : k ≠ .construct) (o o' : Option L) : k.onLast o = k.onLast o' := by
  cases k with
  | construct => exact absurd rfl h
  | save _ => rfl
  | clean => rfl

/-- A step that neither enters nor leaves the half-way point keeps the statement about `last`. -/
theorem keep_last {s : MemState L} {c : Nat} {p : MemPc L} (hc : ∀ k, s.pc c ≠ .half k)
    (h : s.last = s.all.getLast? ∨ ∃ c k, s.pc c = .half k) :
    s.last = s.all.getLast? ∨ ∃ c' k, s.move c p c' = .half k := by
  rcases h with h | ⟨c', k, h⟩
  · exact .inl h
  · refine .inr ⟨c', k, ?_⟩
    by_cases e : c' = c
    · exact absurd (e ▸ h) (hc k)
    · simpa [MemState.move, e] using h

theorem memInv_step {c : Nat} {s t : MemState L} (h : MemInv s) (hs : MemStep c s t) : MemInv t := by
  obtain ⟨h1, h2, h3, h4, h5, h6, h7, h8, h9⟩ := h
  have hc := h3 c
  have hn := h2 c
  cases hs with
  | @start k hp hi hk =>
    have hl := keep_last (p := .waiting k) (fun k e => by rw [hp] at e; cases e) h6
    constructor <;> intros <;> first | exact hl | grind [MemState.move, MemPc.holds, MemPc.call, MemPc.effective]
  | @acquire k hp hl =>
    have hl := keep_last (p := .holding k) (fun k e => by rw [hp] at e; cases e) h6
    constructor <;> intros <;> first | exact hl | grind [MemState.move, MemPc.holds, MemPc.call, MemPc.effective]
  | @setAll k hp =>
    have hk := h4 c k (by rw [hp]; rfl)
    have hno : ∀ k', (c, k') ∉ s.hist := by
      intro k' hm
      have := (h8 c k').1 hm
      rw [hp] at this
      cases this
    have hother : ∀ c' k', s.pc c' = .half k' → c' = c := by
      intro c' k' e
      have h := (h3 c').1 (by rw [e]; rfl)
      have h' := (h3 c).1 (by rw [hp]; rfl)
      rw [h] at h'
      exact Option.some.inj h'
    refine ⟨h1, ?_, ?_, ?_, ?_, ?_, ?_, ?_, ?_⟩
    · grind [MemState.move]
    · grind [MemState.move, MemPc.holds]
    · grind [MemState.move, MemPc.call]
    · show k.onAll s.all = kept (s.hist ++ [(c, k)])
      rw [kept_snoc, h5]
    · exact .inr ⟨c, k, show (s.move c (.half k)) c = .half k by simp [MemState.move]⟩
    · intro c' k' (hp' : s.move c (.half k) c' = .half k')
      have : k' = k := by
        unfold MemState.move at hp'
        by_cases e : c' = c
        · rw [if_pos e] at hp'; exact (MemPc.half.inj hp').symm
        · rw [if_neg e] at hp'; exact absurd (hother c' k' hp') e
      subst this
      exact last_onAll hk _ _
    · intro c' k'
      show (c', k') ∈ s.hist ++ [(c, k)] ↔ _
      rw [List.mem_append, List.mem_singleton]
      by_cases e : c' = c
      · subst e
        have e2 : s.move c' (.half k) c' = .half k := by simp [MemState.move]
        show _ ↔ (s.move c' (.half k) c').effective = some k'
        rw [e2]
        simp only [hno k', false_or, Prod.mk.injEq, true_and, MemPc.effective, Option.some.injEq]
        exact eq_comm
      · have e2 : s.move c (.half k) c' = s.pc c' := by simp [MemState.move, e]
        show _ ↔ (s.move c (.half k) c').effective = some k'
        rw [e2, ← h8 c' k']
        simp [e]
    · show ((s.hist ++ [(c, k)]).map Prod.fst).Nodup
      rw [List.map_append, List.nodup_append]
      refine ⟨h9, by simp, ?_⟩
      intro x hx y hy
      simp only [List.map_cons, List.map_nil, List.mem_singleton] at hy
      subst hy
      rintro rfl
      obtain ⟨⟨x, k'⟩, hm, rfl⟩ := List.mem_map.1 hx
      exact hno k' hm
  | @setLast k hp =>
    have hk := h4 c k (by rw [hp]; rfl)
    have hother : ∀ c' k', s.pc c' = .half k' → c' = c := by
      intro c' k' e
      have h := (h3 c').1 (by rw [e]; rfl)
      have h' := (h3 c).1 (by rw [hp]; rfl)
      rw [h] at h'
      exact Option.some.inj h'
    have h7' := h7 c k hp
    refine ⟨h1, ?_, ?_, ?_, h5, ?_, ?_, ?_, h9⟩
    · grind [MemState.move]
    · grind [MemState.move, MemPc.holds]
    · grind [MemState.move, MemPc.call]
    · exact .inl h7'.symm
    · intro c' k' (hp' : s.move c (.leaving k) c' = .half k')
      unfold MemState.move at hp'
      by_cases e : c' = c
      · rw [if_pos e] at hp'; cases hp'
      · rw [if_neg e] at hp'; exact absurd (hother c' k' hp') e
    · grind [MemState.move, MemPc.effective]
  | @release k hp =>
    have hk := h4 c k (by rw [hp]; rfl)
    have hl := keep_last (p := .finished k) (fun k e => by rw [hp] at e; cases e) h6
    constructor <;> intros <;> first | exact hl | grind [MemState.move, MemPc.holds, MemPc.call, MemPc.effective]
  | skip hp hi =>
    have hl := keep_last (p := .finished .construct) (fun k e => by rw [hp] at e; cases e) h6
    constructor <;> intros <;> first | exact hl | grind [MemState.move, MemPc.holds, MemPc.call, MemPc.effective]
  | begin hp hi => rw [h1] at hi; cases hi
  | empty hp => exact absurd hp hn.1
  | mark hp => exact absurd hp hn.2

theorem memInv_run {s t : MemState L} (h : MemInv s) (hr : MemRun s t) : MemInv t := by
  induction hr with
  | refl => exact h
  | step _ hs ih => exact memInv_step ih hs

/-- **C58**, for an object whose first construction is over: whenever no call is in the middle of its
work, `all` is exactly the list of the records saved since the last `clean()`, in the order of saving,
and `last` is the last of them (`None` after `clean()`).  `hist` is the order in which the calls took
effect: it contains each finished call once, and only calls that have begun.  What is missing:
constructor calls racing with each other (`C58_racing_construction_fails`). -/
theorem C58_holds_the_saved_records_partial {s : MemState L} (hr : MemRun (MemState.ready L) s)
    (hsem : s.sem = none) :
    s.all = kept s.hist ∧ s.last = (kept s.hist).getLast? ∧ (s.hist.map Prod.fst).Nodup ∧
    (∀ c k, k ≠ .construct → s.pc c = .finished k → (c, k) ∈ s.hist) ∧
    (∀ c k, (c, k) ∈ s.hist → s.pc c = .finished k) := by
  have h := memInv_run memInv_ready hr
  have hnone : ∀ c, (s.pc c).holds = false := fun c => by
    cases hh : (s.pc c).holds with
    | false => rfl
    | true => have := (h.holder c).1 hh; rw [hsem] at this; cases this
  refine ⟨h.all, ?_, h.once, ?_, ?_⟩
  · rw [← h.all]
    rcases h.last with h | ⟨c, k, e⟩
    · exact h
    · have := hnone c; rw [e] at this; cases this
  · intro c k hk hp
    rw [h.effect, hp]
    cases k with
    | construct => exact absurd rfl hk
    | save _ => rfl
    | clean => rfl
  · intro c k hm
    have he := (h.effect c k).1 hm
    have hn := hnone c
    cases hp : s.pc c with
    | half k' => rw [hp] at hn; cases hn
    | leaving k' => rw [hp] at hn; cases hn
    | finished k' =>
      rw [hp] at he
      cases k' with
      | construct => cases he
      | save l => exact congrArg MemPc.finished (Option.some.inj he)
      | clean => exact congrArg MemPc.finished (Option.some.inj he)
    | _ => rw [hp] at he; cases he

/-- **C58**: the order of effects respects the order of calls: a call that was over before another
began comes first. -/
theorem C58_order_of_calls {s t : MemState L} (hr : MemRun (MemState.ready L) s) (hr' : MemRun s t)
    {c c' : Nat} {k k' : MemCall L} (hk : k ≠ .construct) (hc : s.pc c = .finished k)
    (hc' : s.pc c' = .idle) (hm' : (c', k') ∈ t.hist) :
    ∃ a b, t.hist = a ++ b ∧ (c, k) ∈ a ∧ (c', k') ∈ b := by
  have hpre : ∃ b, t.hist = s.hist ++ b := by
    clear hm'
    induction hr' with
    | refl => exact ⟨[], by simp⟩
    | @step _ _ d _ hs ih =>
      obtain ⟨b, hb⟩ := ih
      cases hs with
      | @setAll k hp => exact ⟨b ++ [(d, k)], by simp [hb]⟩
      | _ => exact ⟨b, hb⟩
  have h := memInv_run memInv_ready hr
  obtain ⟨b, hb⟩ := hpre
  refine ⟨s.hist, b, hb, ?_, ?_⟩
  · rw [h.effect, hc]
    cases k with
    | construct => exact absurd rfl hk
    | save _ => rfl
    | clean => rfl
  · rw [hb] at hm'
    rcases List.mem_append.1 hm' with hm' | hm'
    · have := (h.effect c' k').1 hm'
      rw [hc'] at this; cases this
    · exact hm'

/-- One call run without interruption. -/
theorem mem_solo {s : MemState L} {c : Nat} {k : MemCall L} (hp : s.pc c = .idle) (hi : s.inited = true)
    (hs : s.sem = none) (hk : k ≠ .construct) :
    MemRun s ⟨none, k.onAll s.all, k.onLast s.last, s.inited, s.move c (.finished k), s.hist ++ [(c, k)]⟩ := by
  have e : ∀ (t : MemState L) (p : MemPc L), t.move c p c = p := fun t p => if_pos rfl
  have r1 := MemRun.step (.refl : MemRun s s) (.start hp hi hk)
  have r2 := r1.step (.acquire (c := c) (e _ _) hs)
  have r3 := r2.step (.setAll (c := c) (e _ _))
  have r4 := r3.step (.setLast (c := c) (e _ _))
  have r5 := r4.step (.release (c := c) (e _ _))
  have key : ∀ pc', pc' = s.move c (.finished k) →
      MemRun s ⟨none, k.onAll s.all, k.onLast s.last, s.inited, pc', s.hist ++ [(c, k)]⟩ →
      MemRun s ⟨none, k.onAll s.all, k.onLast s.last, s.inited, s.move c (.finished k), s.hist ++ [(c, k)]⟩ :=
    fun _ h r => h ▸ r
  refine key _ (funext fun c' => ?_) r5
  by_cases h : c' = c <;> simp [MemState.move, h]

theorem MemRun.trans {s t u : MemState L} (h : MemRun s t) (h' : MemRun t u) : MemRun s u := by
  induction h' with
  | refl => exact h
  | step _ hs ih => exact .step ih hs

-- save 10, save 20, clean, save 30: `all` is `[30]`
example : ∃ s : MemState Nat, MemRun (MemState.ready Nat) s ∧ s.sem = none ∧ s.all = [30] ∧
    s.hist = [(0, .save 10), (1, .save 20), (2, .clean), (3, .save 30)] := by
  have r1 := mem_solo (s := MemState.ready Nat) (c := 0) (k := .save 10) rfl rfl rfl (fun h => nomatch h)
  have r2 := r1.trans (mem_solo (c := 1) (k := .save 20) rfl rfl rfl (fun h => nomatch h))
  have r3 := r2.trans (mem_solo (c := 2) (k := .clean) rfl rfl rfl (fun h => nomatch h))
  have r4 := r3.trans (mem_solo (c := 3) (k := .save 30) rfl rfl rfl (fun h => nomatch h))
  exact ⟨_, r4, rfl, rfl, rfl⟩

/-- **C58** fails when two first constructor calls race: both find the object not initialised, one
finishes and a record is saved, then the other empties `all`: the saved record is gone, though `last`
still shows it. -/
theorem C58_racing_construction_fails : ∃ s : MemState Nat, MemRun (MemState.new Nat) s ∧
    s.sem = none ∧ s.pc 2 = .finished (.save 7) ∧ s.hist = [(2, .save 7)] ∧
    s.all = [] ∧ s.last = some 7 ∧ s.pc 0 = .finished .construct ∧ s.pc 1 = .finished .construct := by
  have r0 := MemRun.step (.refl : MemRun (MemState.new Nat) _) (.begin (c := 0) rfl rfl)
  have r1 := r0.step (.begin (c := 1) rfl rfl)
  have r2 := r1.step (.empty (c := 1) rfl)
  have r3 := r2.step (.mark (c := 1) rfl)
  have r4 := r3.trans (mem_solo (c := 2) (k := .save 7) rfl rfl rfl (fun h => nomatch h))
  have r5 := r4.step (.empty (c := 0) rfl)
  have r6 := r5.step (.mark (c := 0) rfl)
  exact ⟨_, r6, rfl, rfl, rfl, rfl, rfl, rfl, rfl⟩

/-- The semaphore is held by at most one call, which is inside. -/
theorem mem_holder {s₀ s : MemState L} (h₀ : s₀ = .new L ∨ s₀ = .ready L) (hr : MemRun s₀ s) :
    ∀ c, (s.pc c).holds = true ↔ s.sem = some c := by
  induction hr with
  | refl => rcases h₀ with rfl | rfl <;> exact fun _ => ⟨fun h => (nomatch h), fun h => (nomatch h)⟩
  | step _ hs ih =>
    intro c
    cases hs <;> simp only [MemState.move] <;> grind [MemPc.holds]

/-- A call that holds the semaphore leaves it without waiting for anybody. -/
theorem mem_leave {s : MemState L} {c : Nat} (h : (s.pc c).holds = true) :
    ∃ t k, MemRun s t ∧ t.pc c = .finished k ∧ t.sem = none ∧ ∀ d, d ≠ c → t.pc d = s.pc d := by
  have fromLeaving : ∀ {s : MemState L} {k}, s.pc c = .leaving k →
      ∃ t k, MemRun s t ∧ t.pc c = .finished k ∧ t.sem = none ∧ ∀ d, d ≠ c → t.pc d = s.pc d := by
    intro s k e
    exact ⟨_, k, .step .refl (.release e), by simp [MemState.move], rfl, fun d hd => by simp [MemState.move, hd]⟩
  have fromHalf : ∀ {s : MemState L} {k}, s.pc c = .half k →
      ∃ t k, MemRun s t ∧ t.pc c = .finished k ∧ t.sem = none ∧ ∀ d, d ≠ c → t.pc d = s.pc d := by
    intro s k e
    obtain ⟨t, k', h1, h2, h3, h4⟩ := fromLeaving (s := { s with last := k.onLast s.last, pc := s.move c (.leaving k) }) (k := k) (by simp [MemState.move])
    exact ⟨t, k', (MemRun.step .refl (.setLast e)).trans h1, h2, h3, fun d hd => by rw [h4 d hd]; simp [MemState.move, hd]⟩
  cases e : s.pc c with
  | holding k =>
    obtain ⟨t, k', h1, h2, h3, h4⟩ := fromHalf (s := { s with all := k.onAll s.all, pc := s.move c (.half k), hist := s.hist ++ [(c, k)] }) (k := k) (by simp [MemState.move])
    exact ⟨t, k', (MemRun.step .refl (.setAll e)).trans h1, h2, h3, fun d hd => by rw [h4 d hd]; simp [MemState.move, hd]⟩
  | half k => exact fromHalf e
  | leaving k => exact fromLeaving e
  | idle => rw [e] at h; cases h
  | waiting _ => rw [e] at h; cases h
  | notInited => rw [e] at h; cases h
  | emptied => rw [e] at h; cases h
  | finished _ => rw [e] at h; cases h

/-- **C58**: no call hangs: whatever the schedule so far, racing constructors included, every call that has begun can be finished,
and nothing has to happen for that but that the call which is just inside the handler goes on. -/
theorem C58_every_call_can_return {s₀ s : MemState L} (h₀ : s₀ = .new L ∨ s₀ = .ready L) (hr : MemRun s₀ s) (c : Nat)
    (hc : s.pc c ≠ .idle) : ∃ t k, MemRun s t ∧ t.pc c = .finished k ∧ ∀ d, d ≠ c → s.sem ≠ some d → t.pc d = s.pc d := by
  have hh := mem_holder h₀ hr
  have fromFree : ∀ {s : MemState L} {k}, s.pc c = .waiting k → s.sem = none →
      ∃ t k, MemRun s t ∧ t.pc c = .finished k ∧ ∀ d, d ≠ c → t.pc d = s.pc d := by
    intro s k e hn
    obtain ⟨t, k', h1, h2, _, h4⟩ := mem_leave (s := { s with sem := some c, pc := s.move c (.holding k) }) (c := c)
      (by simp [MemState.move, MemPc.holds])
    exact ⟨t, k', (MemRun.step .refl (.acquire e hn)).trans h1, h2, fun d hd => by rw [h4 d hd]; simp [MemState.move, hd]⟩
  cases e : s.pc c with
  | idle => exact absurd e hc
  | waiting k =>
    cases hs : s.sem with
    | none =>
      obtain ⟨t, k', h1, h2, h3⟩ := fromFree e hs
      exact ⟨t, k', h1, h2, fun d hd _ => h3 d hd⟩
    | some d =>
      obtain ⟨t, _, h1, _, h3, h4⟩ := mem_leave ((hh d).2 hs)
      have hdc : c ≠ d := by rintro rfl; have := (hh c).2 hs; rw [e] at this; cases this
      obtain ⟨u, k', h5, h6, h7⟩ := fromFree (s := t) (k := k) (by rw [h4 c hdc]; exact e) h3
      exact ⟨u, k', h1.trans h5, h6, fun x hx hn => by rw [h7 x hx, h4 x (fun he => hn (by rw [he]))]⟩
  | holding k => obtain ⟨t, k', h1, h2, _, h4⟩ := mem_leave (s := s) (c := c) (by rw [e]; rfl); exact ⟨t, k', h1, h2, fun d hd _ => h4 d hd⟩
  | half k => obtain ⟨t, k', h1, h2, _, h4⟩ := mem_leave (s := s) (c := c) (by rw [e]; rfl); exact ⟨t, k', h1, h2, fun d hd _ => h4 d hd⟩
  | leaving k => obtain ⟨t, k', h1, h2, _, h4⟩ := mem_leave (s := s) (c := c) (by rw [e]; rfl); exact ⟨t, k', h1, h2, fun d hd _ => h4 d hd⟩
  | notInited =>
    exact ⟨_, .construct, (MemRun.step .refl (.empty e)).step (.mark (c := c) (by simp [MemState.move])), by simp [MemState.move],
      fun d hd _ => by simp [MemState.move, hd]⟩
  | emptied =>
    exact ⟨_, .construct, .step .refl (.mark e), by simp [MemState.move], fun d hd _ => by simp [MemState.move, hd]⟩
  | finished k => exact ⟨s, k, .refl, e, fun _ _ _ => rfl⟩

-- a call that waits while another one is inside
example : ∃ s : MemState Nat, MemRun (MemState.ready Nat) s ∧ s.sem = some 0 ∧ s.pc 1 = .waiting (.save 2) := by
  have r0 := MemRun.step (.refl : MemRun (MemState.ready Nat) _) (.start (c := 0) (call := .save 1) rfl rfl (fun h => nomatch h))
  have r1 := r0.step (.acquire (c := 0) (call := .save 1) rfl rfl)
  have r2 := r1.step (.start (c := 1) (call := .save 2) rfl rfl (fun h => nomatch h))
  exact ⟨_, r2, rfl, rfl⟩

end Polog
