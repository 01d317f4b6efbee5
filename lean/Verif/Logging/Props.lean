import Verif.Logging.Lemmas2
import Mathlib.Tactic.ByContra

/-!
C51: interception of the standard `logging` module.

`runLogOps ops (logInit users)` is the state after Polog was imported (with the filters `users`
already on the root logger) and the program did `ops`; `rootHandle` is what happens to a record logged
on the root logger.
-/

namespace Polog
open HandleSpec LoggingSpec

/-! ### One record -/

theorem levels_get_neg (levels : Levels) {n : Int} (h : n < 0) : ∃ e, levels.get (.int n) = .error e := by
  unfold Levels.get
  simp [h]

theorem kwargs_negative {lg : HLogger} {env : HEnv} {kwargs : Dict Str HVal} {n : Int} (hn : n < 0)
    (hlg : lg.forbidden = []) :
    ∀ (items : List (Str × HVal)) (dest : Dict Str HVal), ("level".toList, .int n) ∈ items →
      ∃ e, kwargsToDict lg env kwargs items dest = .error e
  | [], _, h => by cases h
  | x :: rest, dest, h => by
    unfold kwargsToDict
    rcases List.mem_cons.1 h with rfl | h'
    · have : ∃ e, kwStep lg env kwargs dest ("level".toList, .int n) = .error e := by
        obtain ⟨e, he⟩ := levels_get_neg env.levels hn
        have ha : argCheck lg env "level".toList (.int n) = none := by
          unfold argCheck
          rw [hlg, if_neg List.not_mem_nil]
          rfl
        have hc : convertValue env.levels "level".toList (.int n) = .error e := by
          unfold convertValue
          rw [if_pos rfl]
          show Except.map HVal.int (env.levels.get (.int n)) = _
          rw [he]; rfl
        refine ⟨e, ?_⟩
        unfold kwStep
        have hk : convertKey "level".toList = "level".toList := by decide
        dsimp only
        rw [hk, ha]
        dsimp only
        rw [hc]
      obtain ⟨e, he⟩ := this
      exact ⟨e, by rw [he]⟩
    · cases kwStep lg env kwargs dest x with
      | error e => exact ⟨e, rfl⟩
      | ok d => exact kwargs_negative hn hlg rest d h'

/-- What the filter of Polog does with a record. -/
theorem pologFilter_sound {env : HEnv} (off : Bool) {r : LogRec} (h : Sound r)
    (hin : ∀ name ∈ builtIn, name ∉ Dict.keys env.inPlace) :
    ∃ recs, pologFilter env off r = (recs, .ok (!off)) ∧
      recs.length = (if env.threshold ≤ r.levelno ∧ env.unlogged = false then 1 else 0) ∧
      ∀ d ∈ recs, CopyOf r d := by
  obtain ⟨d, hd⟩ := recData_ok h
  obtain ⟨n, f, hn, hf, hb⟩ := base_valid (by decide) (recData_valid env h hd)
  have hl : n = r.levelno := by
    unfold levelOf at hn
    rw [given_rec_level _ hd] at hn
    dsimp only at hn
    injection hn with hn
    exact hn.symm
  subst hl
  unfold pologFilter
  rw [hd]
  dsimp only
  rw [hb]
  refine ⟨_, rfl, ?_, ?_⟩
  · split <;> rfl
  · intro e he
    split at he
    · rw [List.mem_singleton] at he
      subst he
      exact fields_copied hd env h fun name hname => by
        rw [extractFrom_get_other _ _ _ (hin name hname), hf]
    · cases he

theorem pologFilter_unsound {env : HEnv} (off : Bool) {r : LogRec} (h : ¬ Sound r) :
    ∃ e, pologFilter env off r = ([], .error e) := by
  unfold pologFilter
  rcases hd : recData r with e | d
  · exact ⟨e, rfl⟩
  · dsimp only
    have hneg : r.levelno < 0 := by
      by_contra hc
      refine h ⟨?_, by omega, ?_⟩
      · intro hb
        unfold recData recMessage at hd
        rw [hb] at hd
        rcases hg : r.getMessage with e | s
        · rw [hg] at hd; cases hd
        · exact ⟨s, rfl⟩
      · unfold recData recException at hd
        rcases hg : r.excInfo with _ | _ | _ | ⟨t, m, tb⟩
        · exact .inl rfl
        · rw [hg] at hd; split at hd <;> cases hd
        · rw [hg] at hd; split at hd <;> cases hd
        · exact .inr ⟨t, m, tb, rfl⟩
    have hm : ("level".toList, HVal.int r.levelno) ∈ d :=
      (recData_mem hd _).2 (.inl (.tail _ (.head _)))
    obtain ⟨e, he⟩ := kwargs_negative (lg := simpleLogger) (env := env) (kwargs := d) hneg rfl d [] hm
    have : baseCall simpleLogger env [] d = ⟨[], some e⟩ := by
      unfold baseCall prepareData
      rw [position_ok (by decide) (.inl (Nat.zero_le _))]
      dsimp only [posDest]
      rw [he]
    rw [this]
    exact ⟨e, rfl⟩

/-! ### The chain of filters -/

theorem runFilters_users (env : HEnv) (off : Bool) (verdict : Nat → LogRec → Bool) (r : LogRec) :
    ∀ l : List RootFilter, RootFilter.polog ∉ l →
      (runFilters env off verdict r l).polog = [] ∧ (runFilters env off verdict r l).raised = none ∧
      ((runFilters env off verdict r l).passed = true ↔ ∀ id, RootFilter.user id ∈ l → verdict id r = true)
  | [], _ => ⟨rfl, rfl, by simp [runFilters]⟩
  | .polog :: _, h => absurd List.mem_cons_self h
  | .user id :: rest, h => by
    have ih := runFilters_users env off verdict r rest (fun hm => h (List.mem_cons_of_mem _ hm))
    unfold runFilters
    by_cases hv : verdict id r = true
    · rw [if_pos hv]
      refine ⟨ih.1, ih.2.1, ih.2.2.trans ⟨fun h id' hm => ?_, fun h id' hm => h id' (List.mem_cons_of_mem _ hm)⟩⟩
      rcases List.mem_cons.1 hm with e | hm
      · cases e; exact hv
      · exact h id' hm
    · rw [if_neg hv]
      exact ⟨rfl, rfl, ⟨fun h => (nomatch h), fun h => absurd (h id List.mem_cons_self) hv⟩⟩

open scoped Classical in
/-- The chain with Polog's filter in it once. -/
theorem runFilters_split (env : HEnv) (off : Bool) (verdict : Nat → LogRec → Bool) (r : LogRec)
    (post : List RootFilter) : ∀ pre : List RootFilter, RootFilter.polog ∉ pre →
      runFilters env off verdict r (pre ++ .polog :: post) =
        if ∀ id, RootFilter.user id ∈ pre → verdict id r = true
        then runFilters env off verdict r (.polog :: post) else ⟨[], false, none⟩
  | [], _ => by simp
  | .polog :: _, h => absurd List.mem_cons_self h
  | .user id :: rest, h => by
    have ih := runFilters_split env off verdict r post rest (fun hm => h (List.mem_cons_of_mem _ hm))
    rw [List.cons_append, runFilters.eq_def]
    dsimp only
    rw [ih]
    by_cases hv : verdict id r = true
    · rw [if_pos hv]
      by_cases hr : ∀ id', RootFilter.user id' ∈ rest → verdict id' r = true
      · rw [if_pos hr, if_pos]
        intro id' hm
        rcases List.mem_cons.1 hm with e | hm
        · cases e; exact hv
        · exact hr id' hm
      · rw [if_neg hr, if_neg]
        exact fun h => hr fun id' hm => h id' (List.mem_cons_of_mem _ hm)
    · rw [if_neg hv, if_neg]
      exact fun h => hv (h id List.mem_cons_self)

/-! ### Histories -/

/-- Polog's filter is on the root logger once when the integration is on and not at all otherwise. -/
structure LogInv (s : LogState) : Prop where
  count : s.filters.count .polog = if s.integration then 1 else 0
  conflict : s.integration = false → s.loggingOff = false

theorem count_addFilter_other {f g : RootFilter} (h : f ≠ g) (l : List RootFilter) :
    (addFilter f l).count g = l.count g := by
  unfold addFilter
  split
  · rfl
  · rw [List.count_append, List.count_singleton]
    simp [h]

theorem logInv_init (users : List Nat) : LogInv (logInit users) where
  count := by
    show (addFilter .polog (users.map RootFilter.user)).count .polog = 1
    have h : RootFilter.polog ∉ users.map RootFilter.user := by
      intro h; obtain ⟨_, _, e⟩ := List.mem_map.1 h; cases e
    unfold addFilter
    rw [if_neg h, List.count_append, List.count_eq_zero.2 h]
    rfl
  conflict := fun h => nomatch h

theorem logInv_step (op : LoggingOp) {s : LogState} (h : LogInv s) : LogInv (op.run s) := by
  cases op with
  | setIntegration b =>
    show LogInv (match Polog.setIntegration b s with | .ok s' => s' | .error _ => s)
    unfold setIntegration
    by_cases hc : b = false ∧ s.loggingOff = true
    · rw [if_pos hc]; exact h
    · rw [if_neg hc]
      refine ⟨?_, ?_⟩
      · show (integrationAction b s.filters).count .polog = if b then 1 else 0
        have hcount := h.count
        cases b with
        | true =>
          show (addFilter .polog s.filters).count .polog = 1
          unfold addFilter
          by_cases hm : RootFilter.polog ∈ s.filters
          · rw [if_pos hm]
            cases hi : s.integration with
            | true => rw [hi] at hcount; exact hcount
            | false => rw [hi] at hcount; exact absurd hm (List.count_eq_zero.1 hcount)
          · rw [if_neg hm, List.count_append, List.count_eq_zero.2 hm]; rfl
        | false =>
          show (s.filters.erase .polog).count .polog = 0
          rw [List.count_erase_self]
          cases hi : s.integration <;> rw [hi] at hcount
          · have : s.filters.count .polog = 0 := hcount
            omega
          · have : s.filters.count .polog = 1 := hcount
            omega
      · intro (hb : b = false)
        show s.loggingOff = false
        cases ho : s.loggingOff with
        | false => rfl
        | true => exact absurd ⟨hb, ho⟩ hc
  | setLoggingOff b =>
    show LogInv (match Polog.setLoggingOff b s with | .ok s' => s' | .error _ => s)
    unfold setLoggingOff
    by_cases hc : b = true ∧ s.integration = false
    · rw [if_pos hc]; exact h
    · rw [if_neg hc]
      refine ⟨h.count, fun (hi : s.integration = false) => ?_⟩
      show b = false
      cases b with
      | false => rfl
      | true => exact absurd ⟨rfl, hi⟩ hc
  | addUserFilter id =>
    refine ⟨?_, h.conflict⟩
    show (addFilter (.user id) s.filters).count .polog = _
    rw [count_addFilter_other (f := .user id) (g := .polog) (fun e => nomatch e)]
    exact h.count
  | removeUserFilter id =>
    refine ⟨?_, h.conflict⟩
    show (s.filters.erase (.user id)).count .polog = _
    rw [List.count_erase_of_ne (show RootFilter.polog ≠ .user id from fun e => nomatch e)]
    exact h.count

theorem logInv_run : ∀ (ops : List LoggingOp) {s : LogState}, LogInv s → LogInv (runLogOps ops s)
  | [], _, h => h
  | op :: ops, _, h => logInv_run ops (logInv_step op h)

theorem switches_run : ∀ (ops : List LoggingOp) (s : LogState),
    ((runLogOps ops s).integration, (runLogOps ops s).loggingOff) =
      switches ops (s.integration, s.loggingOff)
  | [], _ => rfl
  | op :: ops, s => by
    show ((runLogOps ops (op.run s)).integration, (runLogOps ops (op.run s)).loggingOff) = _
    rw [switches_run ops (op.run s)]
    cases op with
    | setIntegration b =>
      show _ = switches ops (if !b && s.loggingOff then (s.integration, s.loggingOff) else (b, s.loggingOff))
      congr 1
      simp only [LoggingOp.run, setIntegration]
      cases b <;> cases ho : s.loggingOff <;> simp [ho]
    | setLoggingOff b =>
      show _ = switches ops (if b && !s.integration then (s.integration, s.loggingOff) else (s.integration, b))
      congr 1
      simp only [LoggingOp.run, setLoggingOff]
      cases b <;> cases ho : s.integration <;> simp [ho]
    | addUserFilter id => rfl
    | removeUserFilter id => rfl

theorem state_on (users : List Nat) (ops : List LoggingOp) :
    (runLogOps ops (logInit users)).integration = LoggingSpec.on ops ∧
    (runLogOps ops (logInit users)).loggingOff = LoggingSpec.off ops := by
  have h := switches_run ops (logInit users)
  exact ⟨congrArg Prod.fst h, congrArg Prod.snd h⟩

/-- **C51**, while the integration is off: nothing is intercepted, whatever the record is; it reaches
the handlers of the root logger exactly when the program's own filters let it through. -/
theorem C51_off_untouched (users : List Nat) (ops : List LoggingOp) (env : HEnv)
    (verdict : Nat → LogRec → Bool) (r : LogRec) (hoff : LoggingSpec.on ops = false) :
    let s := runLogOps ops (logInit users)
    (rootHandle env verdict r s).polog = [] ∧ (rootHandle env verdict r s).raised = none ∧
      ((rootHandle env verdict r s).passed = true ↔ UsersAccept verdict r s) := by
  dsimp only
  have hi := logInv_run ops (logInv_init users)
  have hc := hi.count
  rw [(state_on users ops).1, hoff] at hc
  exact runFilters_users env _ verdict r _ (List.count_eq_zero.1 hc)

/-- **C51**, while the integration is on, for logging calls without mistakes.  The record reaches the
handlers of the root logger exactly when the program's own filters let it through and `logging_off`
is off; then, and whenever the program's own filters let it through, it gives exactly one Polog record
if Polog's own level setting admits its level (none otherwise); this record has the message, the
level, the place and the exception of the original, and `success=False` exactly for levels from
WARNING on.  What is missing to the full property: records that come from child loggers
(`C51_child_logger_fails`) and calls with mistakes (`C51_raises_exactly`). -/
theorem C51_on_partial (users : List Nat) (ops : List LoggingOp) (env : HEnv)
    (verdict : Nat → LogRec → Bool) (r : LogRec) (h : Sound r)
    (hin : ∀ name ∈ builtIn, name ∉ Dict.keys env.inPlace) (hon : LoggingSpec.on ops = true) :
    let s := runLogOps ops (logInit users)
    let out := rootHandle env verdict r s
    out.raised = none ∧
    (out.passed = true ↔ UsersAccept verdict r s ∧ LoggingSpec.off ops = false) ∧
    (UsersAccept verdict r s → out.polog.length =
      if env.threshold ≤ r.levelno ∧ env.unlogged = false then 1 else 0) ∧
    out.polog.length ≤ 1 ∧
    ∀ d ∈ out.polog, CopyOf r d := by
  classical
  dsimp only
  have hi := logInv_run ops (logInv_init users)
  have hc := hi.count
  rw [(state_on users ops).1, hon] at hc
  have ho := (state_on users ops).2
  generalize hs : runLogOps ops (logInit users) = s at *
  replace hc : s.filters.count .polog = 1 := hc
  have hm : RootFilter.polog ∈ s.filters := List.count_pos_iff.1 (by omega)
  obtain ⟨pre, post, e, hpre⟩ : ∃ pre post, s.filters = pre ++ .polog :: post ∧ RootFilter.polog ∉ pre := by
    obtain ⟨pre, post, e, hp⟩ := List.eq_append_cons_of_mem hm
    exact ⟨pre, post, e, hp⟩
  have hpost : RootFilter.polog ∉ post := by
    rw [e, List.count_append, List.count_cons_self] at hc
    exact List.count_eq_zero.1 (by omega)
  obtain ⟨recs, hp, hlen, hcopy⟩ := pologFilter_sound (LoggingSpec.off ops) h hin
  have hU : UsersAccept verdict r s ↔ (∀ id, RootFilter.user id ∈ pre → verdict id r = true) ∧
      (∀ id, RootFilter.user id ∈ post → verdict id r = true) := by
    unfold UsersAccept
    rw [e]
    refine ⟨fun h => ⟨fun id hm => h id (List.mem_append_left _ hm),
      fun id hm => h id (List.mem_append_right _ (List.mem_cons_of_mem _ hm))⟩, fun h id hm => ?_⟩
    rcases List.mem_append.1 hm with hm | hm
    · exact h.1 id hm
    · rcases List.mem_cons.1 hm with e | hm
      · cases e
      · exact h.2 id hm
  have hlen1 : recs.length ≤ 1 := by rw [hlen]; split <;> omega
  have hpo := runFilters_users env (LoggingSpec.off ops) verdict r post hpost
  have hrun : rootHandle env verdict r s =
      if ∀ id, RootFilter.user id ∈ pre → verdict id r = true
      then (if LoggingSpec.off ops then ⟨recs, false, none⟩ else
        ⟨recs, (runFilters env (LoggingSpec.off ops) verdict r post).passed, none⟩)
      else ⟨[], false, none⟩ := by
    unfold rootHandle
    rw [e, runFilters_split env _ verdict r post pre hpre, ho]
    congr 1
    rw [runFilters.eq_def]
    dsimp only
    rw [hp]
    cases LoggingSpec.off ops with
    | true => rfl
    | false =>
      simp only [Bool.false_eq_true, if_false]
      have h1 := (runFilters_users env false verdict r post hpost)
      rw [h1.1, h1.2.1]
      show LogOut.mk (recs ++ []) _ _ = _
      rw [List.append_nil]
  rw [hrun]
  by_cases hpr : ∀ id, RootFilter.user id ∈ pre → verdict id r = true
  · rw [if_pos hpr]
    cases hoff : LoggingSpec.off ops with
    | true =>
      refine ⟨rfl, ⟨fun h => (nomatch h), fun h => (nomatch h.2)⟩, fun _ => hlen, hlen1, hcopy⟩
    | false =>
      rw [hoff] at hpo
      refine ⟨rfl, ?_, fun _ => hlen, hlen1, hcopy⟩
      rw [hU]
      exact hpo.2.2.trans ⟨fun h => ⟨⟨hpr, h⟩, rfl⟩, fun h => h.1.2⟩
  · rw [if_neg hpr]
    refine ⟨rfl, ⟨fun h => (nomatch h), fun h => absurd (hU.1 h.1).1 hpr⟩, fun h => absurd (hU.1 h).1 hpr,
      Nat.zero_le _, fun d hd => nomatch hd⟩

/-- **C51**: the settings are what the accepted changes made of them, and `logging_off` is never on
while the integration is off. -/
theorem C51_settings (users : List Nat) (ops : List LoggingOp) :
    (runLogOps ops (logInit users)).integration = LoggingSpec.on ops ∧
    (runLogOps ops (logInit users)).loggingOff = LoggingSpec.off ops ∧
    (LoggingSpec.on ops = false → LoggingSpec.off ops = false) := by
  obtain ⟨h1, h2⟩ := state_on users ops
  refine ⟨h1, h2, ?_⟩
  rw [← h1, ← h2]
  exact (logInv_run ops (logInv_init users)).conflict

/-- **C51**: a change of one of the two settings is rejected, with `ValueError`, exactly when it would leave `logging_off` on
with the integration off; every other change takes effect and leaves the other setting alone. -/
theorem C51_conflict_rejected (users : List Nat) (ops : List LoggingOp) (new : Bool) :
    let s := runLogOps ops (logInit users)
    (∀ e, setIntegration new s = .error e ↔ e = .valueError ∧ new = false ∧ LoggingSpec.off ops = true) ∧
    (∀ e, setLoggingOff new s = .error e ↔ e = .valueError ∧ new = true ∧ LoggingSpec.on ops = false) ∧
    (∀ s', setIntegration new s = .ok s' → s'.integration = new ∧ s'.loggingOff = LoggingSpec.off ops) ∧
    (∀ s', setLoggingOff new s = .ok s' → s'.loggingOff = new ∧ s'.integration = LoggingSpec.on ops) := by
  dsimp only
  obtain ⟨h1, h2⟩ := state_on users ops
  unfold setIntegration setLoggingOff
  rw [h1, h2]
  refine ⟨fun e => ?_, fun e => ?_, fun s' => ?_, fun s' => ?_⟩
  · split
    · rename_i h
      exact ⟨fun he => by cases he; exact ⟨rfl, h⟩, fun he => by rw [he.1]⟩
    · rename_i h
      exact ⟨fun he => (nomatch he), fun he => absurd he.2 h⟩
  · split
    · rename_i h
      exact ⟨fun he => by cases he; exact ⟨rfl, h⟩, fun he => by rw [he.1]⟩
    · rename_i h
      exact ⟨fun he => (nomatch he), fun he => absurd he.2 h⟩
  · split
    · intro he; cases he
    · intro he; cases he; exact ⟨rfl, rfl⟩
  · split
    · intro he; cases he
    · intro he; cases he; exact ⟨rfl, rfl⟩

/-- Both kinds of rejection happen. -/
example : setIntegration false (runLogOps [] (logInit [])) = .error .valueError ∧
    setLoggingOff true (runLogOps [.setLoggingOff false, .setIntegration false] (logInit [])) = .error .valueError := by
  constructor <;> rfl

/-- **C51**: with no filter of the program's own in front, a logging call on the root logger ends with
an exception exactly when the integration is on and the call has a mistake; then nothing is recorded
by Polog and nothing reaches the handlers of the root logger. -/
theorem C51_raises_exactly (users : List Nat) (ops : List LoggingOp) (env : HEnv)
    (verdict : Nat → LogRec → Bool) (r : LogRec)
    (hin : ∀ name ∈ builtIn, name ∉ Dict.keys env.inPlace)
    (hu : UsersAccept verdict r (runLogOps ops (logInit users))) :
    let out := rootHandle env verdict r (runLogOps ops (logInit users))
    (out.raised ≠ none ↔ LoggingSpec.on ops = true ∧ ¬ Sound r) ∧
    (out.raised ≠ none → out.polog = [] ∧ out.passed = false) := by
  dsimp only
  cases hon : LoggingSpec.on ops with
  | false =>
    have h := C51_off_untouched users ops env verdict r hon
    dsimp only at h
    exact ⟨⟨fun h' => absurd h.2.1 h', fun h' => (nomatch h'.1)⟩, fun h' => absurd h.2.1 h'⟩
  | true =>
    by_cases hs : Sound r
    · have h := C51_on_partial users ops env verdict r hs hin hon
      dsimp only at h
      exact ⟨⟨fun h' => absurd h.1 h', fun h' => absurd hs h'.2⟩, fun h' => absurd h.1 h'⟩
    · have hi := logInv_run ops (logInv_init users)
      have hc := hi.count
      rw [(state_on users ops).1, hon] at hc
      generalize runLogOps ops (logInit users) = s at *
      replace hc : s.filters.count .polog = 1 := hc
      have hm : RootFilter.polog ∈ s.filters := List.count_pos_iff.1 (by omega)
      obtain ⟨pre, post, e, hpre⟩ := List.eq_append_cons_of_mem hm
      obtain ⟨er, hp⟩ := pologFilter_unsound (env := env) s.loggingOff hs
      have : rootHandle env verdict r s = ⟨[], false, some er⟩ := by
        unfold rootHandle
        rw [e, runFilters_split env _ verdict r post pre hpre, if_pos, runFilters.eq_def]
        · dsimp only
          rw [hp]
        · exact fun id hm => hu id (by rw [e]; exact List.mem_append_left _ hm)
      rw [this]
      exact ⟨⟨fun _ => ⟨rfl, hs⟩, fun _ h => nomatch h⟩, fun _ => ⟨rfl, rfl⟩⟩

/-! ### Witnesses -/

/-- `logging.warning('disk %s', 'full')` at the top level of a module. -/
def exRec : LogRec where
  time := .other 1
  msgTrue := true
  getMessage := .ok "disk full".toList
  levelno := 30
  module := "app".toList
  lineno := 7
  funcName := "<module>".toList
  funcIsId := false
  pathname := "/app.py".toList
  excInfo := .none
  thread := "MainThread (1)".toList
  process := "MainProcess (2)".toList

example : Sound exRec := ⟨fun _ => ⟨_, rfl⟩, by decide, .inl rfl⟩

-- on, then off is refused (logging_off is on), then both are switched off, then on again
example : LoggingSpec.on [.setIntegration false] = true ∧
    LoggingSpec.on [.setLoggingOff false, .setIntegration false] = false ∧
    LoggingSpec.on [.setLoggingOff false, .addUserFilter 1, .setIntegration false, .setIntegration true] = true ∧
    LoggingSpec.off [.setLoggingOff false, .addUserFilter 1] = false := by decide

example : (∀ name ∈ builtIn, name ∉ Dict.keys (exEnv false).inPlace) := by decide

example : ((rootHandle (exEnv false) (fun _ _ => true) exRec (runLogOps [.setLoggingOff false] (logInit [4]))).polog.map
      fun d => (Dict.get? "message".toList d, Dict.get? "level".toList d, Dict.get? "success".toList d)) =
    [(some (.str "disk full".toList), some (.int 30), some (.bool false))] := by decide +kernel

/-- **C51** fails for records of child loggers: they are not intercepted, and they reach the handlers
of the root logger although `logging_off` is on. -/
theorem C51_child_logger_fails :
    ∃ (ops : List LoggingOp) (env : HEnv) (r : LogRec), Sound r ∧ LoggingSpec.on ops = true ∧
      LoggingSpec.off ops = true ∧
      (childHandle env (fun _ _ => true) r (runLogOps ops (logInit []))).polog = [] ∧
      (childHandle env (fun _ _ => true) r (runLogOps ops (logInit []))).passed = true :=
  ⟨[], exEnv false, exRec, ⟨fun _ => ⟨_, rfl⟩, by decide, .inl rfl⟩, rfl, rfl, rfl, rfl⟩

/-- **C51** fails for `exc_info=False` and for `exc_info=True` outside an `except` block, both allowed
by `logging`: the logging call ends with `TypeError` (`AttributeError`), no record is made. -/
theorem C51_exc_info_fails :
    (rootHandle (exEnv true) (fun _ _ => true) { exRec with excInfo := .false } (logInit [])).raised
      = some .typeError ∧
    (rootHandle (exEnv true) (fun _ _ => true) { exRec with excInfo := .noneTriple } (logInit [])).raised
      = some .attributeError := by
  constructor <;> rfl

/-- **C51** fails for messages that are false values: `logging.error(0)` has the message `0`, the Polog
record has none. -/
theorem C51_false_message_fails :
    ∃ (r : LogRec) (d : Dict Str HVal), Sound r ∧ r.getMessage = .ok "0".toList ∧
      (rootHandle (exEnv false) (fun _ _ => true) r (logInit [])).polog = [d] ∧
      Dict.get? "message".toList d = none := by
  let r : LogRec := { exRec with msgTrue := false, getMessage := .ok "0".toList }
  have hs : Sound r := ⟨fun _ => ⟨_, rfl⟩, by decide, .inl rfl⟩
  have h := C51_on_partial [] [] (exEnv false) (fun _ _ => true) r hs (by decide) rfl
  dsimp only at h
  have hl := h.2.2.1 (fun _ _ => rfl)
  rw [if_pos (by decide)] at hl
  obtain ⟨d, hd⟩ := List.length_eq_one_iff.1 hl
  exact ⟨r, d, hs, rfl, hd, (h.2.2.2.2 d (by rw [hd]; exact List.mem_singleton.2 rfl)).noMessage rfl⟩

end Polog
