import Verif.TimeLimit.Spec
import Verif.TimeLimit.Model
import Verif.Signature.Props2

/-! C52: time limits and the exit hook. -/

namespace Polog
open SigSpec

theorem timerDelay_pos {d : Nat} (h : 0 < d) : timerDelay (.ok (.num d)) = some d := by
  unfold timerDelay
  dsimp only
  rw [if_neg (by omega)]
  rfl

theorem timerDelay_zero : timerDelay (.ok (.num 0)) = none := rfl

/-! ### The exit hook -/

/-- Every end of the polling: given up between the limit and one interval later, or the queue was seen
empty before the limit. -/
theorem stop_cases {env : ExitEnv} {f t : Nat} {r : ExitEnd} (h : StopRun env (some f) t r) :
    (r.drained = false ∧ r.time ≤ max t (f + env.interval) ∧ f ≤ r.time) ∨
    (∃ u, t ≤ u ∧ u < f ∧ env.empty u = true ∧ r = ⟨env.joined u, true⟩) := by
  induction h with
  | @interrupted t hp =>
    left
    simp only [pending, decide_eq_true_eq] at hp
    exact ⟨rfl, Nat.le_max_left _ _, hp⟩
  | @seen t hp he =>
    right
    simp only [pending, decide_eq_false_iff_not] at hp
    exact ⟨t, Nat.le_refl _, by omega, he, rfl⟩
  | @sleep t r hp he _ ih =>
    simp only [pending, decide_eq_false_iff_not] at hp
    rcases ih with ⟨a, b, c⟩ | ⟨u, a, b, c, d⟩
    · exact .inl ⟨a, by omega, c⟩
    · exact .inr ⟨u, by omega, b, c, d⟩

theorem stop_ends {env : ExitEnv} (hq : 0 < env.interval) (f : Nat) :
    ∀ n t, f - t ≤ n → ∃ r, StopRun env (some f) t r := by
  intro n
  induction n with
  | zero =>
    intro t h
    exact ⟨_, .interrupted (by simp only [pending, decide_eq_true_eq]; omega)⟩
  | succ n ih =>
    intro t h
    by_cases hp : f ≤ t
    · exact ⟨_, .interrupted (by simp only [pending, decide_eq_true_eq]; omega)⟩
    · have hp' : pending (some f) t = false := by simp only [pending, decide_eq_false_iff_not]; omega
      cases he : env.empty t with
      | true => exact ⟨_, .seen hp' he⟩
      | false =>
        obtain ⟨r, hr⟩ := ih (t + env.interval) (by omega)
        exact ⟨r, .sleep hp' he hr⟩

/-- **C52**, the limit: with a positive `max_delay_before_exit` the exit hook always ends.  If the lock
of the engine is free in time and the workers can be joined within `w` after they were told to stop,
it ends no later than the limit plus the longer of one polling interval and `w`.  It reports that
everything is handled only if it saw the queue empty before the limit and the workers have stopped.  If it does not wait
for the joins (the queue was never seen empty) it ends no later than one polling interval after the
limit, and not before the limit.  What is missing: the limit does not hold for the joins
(`C52_long_handler_fails`), for the lock (`C52_engine_lock_fails`) and for the value zero
(`C52_zero_fails`). -/
theorem C52_limit_partial (env : ExitEnv) (maxDelay w : Nat) (hd : 0 < maxDelay)
    (hq : 0 < env.interval) (hlock : env.lockAt ≤ maxDelay)
    (hw : ∀ t, env.joined t ≤ t + w) :
    (∃ r, ExitHook env maxDelay r) ∧
    ∀ r, ExitHook env maxDelay r →
      r.time ≤ maxDelay + max env.interval w ∧
      (r.drained = false → maxDelay ≤ r.time ∧ r.time ≤ maxDelay + env.interval) ∧
      (r.drained = true → ∃ u, env.lockAt ≤ u ∧ u < maxDelay ∧ env.empty u = true ∧ r.time = env.joined u) := by
  unfold ExitHook
  rw [timerDelay_pos hd]
  constructor
  · cases hp : pending (some maxDelay) env.lockAt with
    | true => exact ⟨_, .inBlock hp⟩
    | false =>
      obtain ⟨r, hr⟩ := stop_ends hq maxDelay (maxDelay - env.lockAt) env.lockAt (Nat.le_refl _)
      exact ⟨r, .inStop hp hr⟩
  · intro r hr
    cases hr with
    | inBlock hp =>
      simp only [pending, decide_eq_true_eq] at hp
      exact ⟨show env.lockAt ≤ _ by omega, fun _ => ⟨hp, show env.lockAt ≤ _ by omega⟩, fun h => (nomatch h)⟩
    | inStop hp hs =>
      rcases stop_cases hs with ⟨a, b, c⟩ | ⟨u, a, b, c, rfl⟩
      · exact ⟨by omega, fun _ => ⟨c, by omega⟩, fun h => by rw [a] at h; cases h⟩
      · refine ⟨?_, fun h => (nomatch h), fun _ => ⟨u, a, b, c, rfl⟩⟩
        have := hw u
        show env.joined u ≤ _
        omega

/-- **C52**, the return: if the queue is empty from the moment `e` on, and one polling interval later is
still before the limit, the hook sees it within one polling interval (or when it gets the engine's
lock, if that is later) and ends with the joins. -/
theorem C52_returns_when_handled (env : ExitEnv) (maxDelay e : Nat)
    (hq : 0 < env.interval) (hempty : ∀ t, e ≤ t → env.empty t = true)
    (hlim : max env.lockAt e + env.interval ≤ maxDelay) (r : ExitEnd) (hr : ExitHook env maxDelay r) :
    ∃ u, u < max env.lockAt e + env.interval ∧ env.empty u = true ∧ r = ⟨env.joined u, true⟩ := by
  unfold ExitHook at hr
  rw [timerDelay_pos (by omega)] at hr
  cases hr with
  | inBlock hp => simp only [pending, decide_eq_true_eq] at hp; omega
  | inStop hp hs =>
    have key : ∀ t r, StopRun env (some maxDelay) t r → t < max env.lockAt e + env.interval →
        ∃ u, u < max env.lockAt e + env.interval ∧ env.empty u = true ∧ r = ⟨env.joined u, true⟩ := by
      intro t r h
      induction h with
      | interrupted hp => intro ht; simp only [pending, decide_eq_true_eq] at hp; omega
      | @seen t _ he => intro ht; exact ⟨t, ht, he, rfl⟩
      | @sleep t r _ he _ ih =>
        intro ht
        have : t < e := by
          by_cases hc : t < e
          · exact hc
          · rw [hempty t (by omega)] at he; cases he
        exact ih (by omega)
    exact key _ _ hs (by omega)

/-- **C52**: a queue that is already empty when the lock is obtained (before the limit) makes the hook
go to the joins at once. -/
theorem C52_empty_queue_no_wait (env : ExitEnv) (maxDelay : Nat) (hd : env.lockAt < maxDelay)
    (he : env.empty env.lockAt = true) (r : ExitEnd) :
    ExitHook env maxDelay r ↔ r = ⟨env.joined env.lockAt, true⟩ := by
  unfold ExitHook
  rw [timerDelay_pos (by omega)]
  have hp : pending (some maxDelay) env.lockAt = false := by
    simp only [pending, decide_eq_false_iff_not]; omega
  constructor
  · intro h
    cases h with
    | inBlock hp' => rw [hp] at hp'; cases hp'
    | inStop _ hs =>
      cases hs with
      | interrupted hp' => rw [hp] at hp'; cases hp'
      | seen _ _ => rfl
      | sleep _ he' _ => rw [he] at he'; cases he'
  · rintro rfl
    exact .inStop hp (.seen hp he)

/-- Workers that need `work` ticks for the last record. -/
def exExit (lockAt emptyFrom work : Nat) : ExitEnv where
  lockAt := lockAt
  interval := 10
  empty := fun t => emptyFrom ≤ t
  joined := fun t => max t work

-- the queue is handled at moment 25, the limit is 100: the hook ends at moment 30
example : ExitHook (exExit 0 25 0) 100 ⟨30, true⟩ := by
  unfold ExitHook
  exact .inStop rfl (.sleep rfl rfl (.sleep rfl rfl (.sleep rfl rfl (.seen rfl rfl))))

-- the queue is never handled: the hook gives up at moment 100
example : ExitHook { exExit 0 0 0 with empty := fun _ => false } 95 ⟨100, false⟩ := by
  unfold ExitHook
  repeat first | exact .interrupted rfl | refine .inStop rfl ?_ | refine .sleep rfl rfl ?_

-- the hypotheses of the limit theorem are met by it
example : ∀ t, (exExit 0 25 5).joined t ≤ t + 5 := by
  intro t; show max t 5 ≤ t + 5; omega

/-- **C52** fails for the work on the last records: the queue is empty at once, but a worker is still
busy with a record for any time `n`; the hook waits for it, whatever the limit. -/
theorem C52_long_handler_fails (maxDelay n : Nat) (hd : 0 < maxDelay) :
    ∃ env : ExitEnv, env.lockAt = 0 ∧ env.empty 0 = true ∧
      ∀ r, ExitHook env maxDelay r → n ≤ r.time := by
  refine ⟨exExit 0 0 n, rfl, rfl, fun r hr => ?_⟩
  rw [C52_empty_queue_no_wait (exExit 0 0 n) maxDelay hd rfl] at hr
  subst hr
  show n ≤ max 0 n
  omega

/-- **C52** fails while another thread holds the engine's lock (a reload waiting for its workers): the
hook waits for the lock, whatever the limit. -/
theorem C52_engine_lock_fails (maxDelay n : Nat) :
    ∃ env : ExitEnv, env.empty 0 = true ∧ ∀ r, ExitHook env maxDelay r → n ≤ r.time := by
  refine ⟨exExit n 0 0, rfl, fun r hr => ?_⟩
  have hmono : ∀ fire t r, StopRun (exExit n 0 0) fire t r → t ≤ r.time := by
    intro fire t r h
    induction h with
    | interrupted _ => exact Nat.le_refl _
    | @seen t _ _ => show t ≤ max t 0; omega
    | @sleep t r _ _ _ ih => exact Nat.le_trans (Nat.le_add_right _ _) ih
  unfold ExitHook at hr
  cases hr with
  | inBlock _ => exact Nat.le_refl _
  | inStop _ hs => exact hmono _ _ _ hs

/-- **C52**: with `max_delay_before_exit=0` the hook ends only by the joins after it saw the queue
empty, and it does end if the queue is empty from some moment on. -/
theorem C52_zero_waits_for_the_queue (env : ExitEnv) :
    (∀ r, ExitHook env 0 r → ∃ u, env.lockAt ≤ u ∧ env.empty u = true ∧ r = ⟨env.joined u, true⟩) ∧
    (0 < env.interval → (∃ e, ∀ t, e ≤ t → env.empty t = true) → ∃ r, ExitHook env 0 r) := by
  constructor
  · intro r hr
    have key : ∀ t r, StopRun env none t r → ∃ u, t ≤ u ∧ env.empty u = true ∧ r = ⟨env.joined u, true⟩ := by
      intro t r h
      induction h with
      | interrupted hp => cases hp
      | seen _ he => exact ⟨_, Nat.le_refl _, he, rfl⟩
      | sleep _ _ _ ih =>
        obtain ⟨u, a, b⟩ := ih
        exact ⟨u, by omega, b⟩
    cases hr with
    | inBlock hp => cases hp
    | inStop _ h => exact key _ _ h
  · rintro hq ⟨e, he⟩
    have key : ∀ n t, e - t ≤ n → ∃ r, StopRun env none t r := by
      intro n
      induction n with
      | zero => intro t h; exact ⟨_, .seen rfl (he t (by omega))⟩
      | succ n ih =>
        intro t h
        cases ht : env.empty t with
        | true => exact ⟨_, .seen rfl ht⟩
        | false =>
          obtain ⟨r, hr⟩ := ih (t + env.interval) (by omega)
          exact ⟨r, .sleep rfl ht hr⟩
    obtain ⟨r, hr⟩ := key _ _ (Nat.le_refl _)
    exact ⟨r, .inStop rfl hr⟩

/-- **C52** fails for `max_delay_before_exit=0`, which the settings accept: then there is no limit, and
with a queue that is never handled the hook never ends. -/
theorem C52_zero_fails : ∃ env : ExitEnv, env.lockAt = 0 ∧ 0 < env.interval ∧
    ∀ r, ¬ ExitHook env 0 r := by
  refine ⟨{ exExit 0 0 0 with empty := fun _ => false }, rfl, by decide, fun r hr => ?_⟩
  have key : ∀ t r, ¬ StopRun { exExit 0 0 0 with empty := fun _ => false } none t r := by
    intro t r h
    induction h with
    | interrupted hp => cases hp
    | seen _ he => cases he
    | sleep _ _ _ ih => exact ih
  unfold ExitHook at hr
  cases hr with
  | inBlock hp => cases hp
  | inStop _ hs => exact key _ _ hs

/-! ### The decorator in general -/

theorem runPieces_none {α : Type} (out : LimitOut α) (pieces : List Nat) (t : Nat) :
    runPieces none out pieces t = (out, t + pieces.sum) := by
  induction pieces generalizing t with
  | nil => rfl
  | cons d l ih => unfold runPieces; dsimp only; rw [ih, List.sum_cons, Nat.add_assoc]

theorem runPieces_some {α : Type} (f : Nat) (out : LimitOut α) (pieces : List Nat) (t : Nat) (ht : t < f) :
    (t + pieces.sum < f → runPieces (some f) out pieces t = (out, t + pieces.sum)) ∧
    (f ≤ t + pieces.sum → ∃ u, runPieces (some f) out pieces t = (.interrupt, u) ∧ f ≤ u ∧
      ∀ m, (∀ d ∈ pieces, d ≤ m) → u < f + m) := by
  induction pieces generalizing t with
  | nil => exact ⟨fun _ => rfl, fun h => by simp at h; omega⟩
  | cons d l ih =>
    unfold runPieces
    dsimp only
    rw [List.sum_cons]
    by_cases h : f ≤ t + d
    · rw [if_pos h]
      refine ⟨fun h' => by omega, fun _ => ⟨_, rfl, h, fun m hm => ?_⟩⟩
      have := hm d List.mem_cons_self
      omega
    · rw [if_neg h]
      obtain ⟨a, b⟩ := ih (t + d) (by omega)
      refine ⟨fun h' => ?_, fun h' => ?_⟩
      · rw [a (by omega), Nat.add_assoc]
      · obtain ⟨u, hu, h1, h2⟩ := b (by omega)
        exact ⟨u, hu, h1, fun m hm => h2 m fun x hx => hm x (List.mem_cons_of_mem _ hx)⟩

/-- **C52**, the decorator `time_limit` itself, for a positive limit: a function that is faster than
the limit ends as it would without the decorator; a slower one ends with `TimeoutError`, at the end of
the uninterruptible operation during which the limit passed.  (A ctrl+c in a faster function is
reported as `TimeoutError` too.) -/
theorem C52_time_limit_decorator {α : Type} (d : Nat) (hd : 0 < d) (out : LimitOut α) (pieces : List Nat) :
    (total pieces < d → limitedCall (.ok (.num d)) out pieces =
      (if out matches .interrupt then .timeout else out, total pieces)) ∧
    (d ≤ total pieces → ∃ u, limitedCall (.ok (.num d)) out pieces = (.timeout, u) ∧ d ≤ u ∧
      ∀ m, (∀ p ∈ pieces, p ≤ m) → u < d + m) := by
  unfold limitedCall total
  rw [timerDelay_pos hd]
  obtain ⟨a, b⟩ := runPieces_some d out pieces 0 hd
  rw [Nat.zero_add] at a b
  dsimp only
  constructor
  · intro h
    rw [a h]
    cases out <;> rfl
  · intro h
    obtain ⟨u, hu, h1, h2⟩ := b h
    exact ⟨u, by rw [hu], h1, h2⟩

/-- **C52**: with a limit function that fails or gives no positive number there is no limit: the
function takes its time and ends in its own way. -/
theorem C52_bad_limit_no_limit {α : Type} (delay : DelayFn)
    (h : ∀ n : Nat, delay = .ok (.num n) → n = 0) (out : LimitOut α) (pieces : List Nat) :
    limitedCall delay out pieces = (out, total pieces) := by
  have : timerDelay delay = none := by
    unfold timerDelay
    rcases delay with e | v
    · rfl
    · rcases v with n | _
      · dsimp only
        by_cases hn : n ≤ 0
        · rw [if_pos hn]
        · exfalso
          have := h n.toNat (by rw [Int.toNat_of_nonneg (by omega)])
          omega
      · rfl
  unfold limitedCall total
  rw [this, runPieces_none, Nat.zero_add]

/-- **C52**: what `time_limit(...)` accepts: a positive number, or a callable that matches the empty
template; everything else is `ValueError` at once. -/
theorem C52_limit_argument (isId : Str → Bool) (a : DelayArg) :
    (∃ f, getDelayFunction isId a = .ok f) ↔
      (∃ n : Int, a = .value (.num n) ∧ 0 < n) ∨
      (∃ sig res, a = .fn sig res ∧ (Matcher.init isId []).matches sig = .ok true) := by
  constructor
  · rintro ⟨f, h⟩
    rcases a with v | ⟨sig, res⟩
    · rcases v with n | _
      · unfold getDelayFunction at h
        dsimp only at h
        by_cases hn : n > 0
        · exact .inl ⟨n, rfl, hn⟩
        · rw [if_neg hn] at h; cases h
      · cases h
    · right
      unfold getDelayFunction at h
      dsimp only at h
      split at h
      · rename_i hm; exact ⟨sig, res, rfl, hm⟩
      · cases h
      · cases h
  · rintro (⟨n, rfl, hn⟩ | ⟨sig, res, rfl, hm⟩)
    · exact ⟨_, if_pos hn⟩
    · refine ⟨res, ?_⟩
      unfold getDelayFunction
      dsimp only
      rw [hm]

/-- **C52**: a limit that is not accepted is refused at once with `ValueError`: a number that is not positive, a
value that is neither a number nor a function, a function that cannot be called without arguments. -/
theorem C52_wrong_limit_is_refused (isId : Str → Bool) :
    (∀ n : Int, n ≤ 0 → getDelayFunction isId (.value (.num n)) = .error .valueError) ∧
    getDelayFunction isId (.value .other) = .error .valueError ∧
    (∀ sig res, (Matcher.init isId []).matches sig = .ok false →
      getDelayFunction isId (.fn sig res) = .error .valueError) ∧
    (∀ n : Int, 0 < n → getDelayFunction isId (.value (.num n)) = .ok (.ok (.num n))) := by
  refine ⟨fun n hn => ?_, rfl, fun sig res h => ?_, fun n hn => ?_⟩
  · exact if_neg (by omega)
  · unfold getDelayFunction
    dsimp only
    rw [h]
  · exact if_pos hn

example : limitedCall (.ok (.num 5)) (.returned 1) [2, 4, 9] = (LimitOut.timeout (α := Nat), 6) := by decide
example : limitedCall (.ok (.num 5)) (.returned 1) [2, 2] = (LimitOut.returned (α := Nat) 1, 4) := by decide

end Polog
