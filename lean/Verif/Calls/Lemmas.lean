import Verif.Calls.Spec
import Verif.Handle.Lemmas3
import Mathlib.Data.List.Forall2

/-! Helper lemmas about decorated calls: levels, manual loggers, one decorated call. -/

namespace Polog
open CallSpec

/-! ### Levels -/

theorem levels_get_iff (levels : Levels) (l : PyObj) (n : Int) :
    levels.get l = .ok n ↔ CallSpec.LevelIs levels l n := by
  constructor
  · intro h
    cases l with
    | str s =>
      simp only [Levels.get] at h
      split at h
      · cases h
      · rename_i m hm; cases h; exact .name s _ hm
    | int m =>
      simp only [Levels.get] at h
      split at h
      · cases h
      · rename_i hm; cases h; exact .number _ (by omega)
    | bool b => cases h
    | none => cases h
    | other => cases h
  · intro h
    cases h with
    | number _ h0 => simp only [Levels.get]; rw [if_neg (by omega)]
    | name s _ hs => simp only [Levels.get, hs]

theorem normalLevel_iff (env : CEnv) (d : Deco) (n : Int) :
    normalLevel env d.level = .ok n ↔ NormalLevel env d n := by
  constructor
  · intro h
    cases hl : d.level with
    | none => rw [hl] at h; cases h; exact .default hl
    | some l => rw [hl] at h; exact .given l n hl ((levels_get_iff _ _ _).1 h)
  · intro h
    cases h with
    | given l _ h1 h2 => rw [h1]; exact (levels_get_iff _ _ _).2 h2
    | default h1 => rw [h1]; rfl

theorem levelIs_fun {levels : Levels} {l : PyObj} {n m : Int} (h1 : CallSpec.LevelIs levels l n)
    (h2 : CallSpec.LevelIs levels l m) : n = m := by
  have e1 := (levels_get_iff _ _ _).2 h1
  rw [(levels_get_iff _ _ _).2 h2] at e1
  cases e1; rfl

theorem levelIs_none {levels : Levels} {l : PyObj} {e : PyErr} (h : levels.get l = .error e) (n : Int) :
    ¬ CallSpec.LevelIs levels l n := by
  intro h'
  rw [(levels_get_iff _ _ _).2 h'] at h
  cases h

theorem fallback_spec (env : CEnv) (d : Deco) (n : Int)
    (hn : n = (let two := max env.h.defaultLevel env.h.defaultErrorLevel
      match d.level with
      | none => two
      | some l =>
        match env.h.levels.get l with
        | .ok n => max two n
        | .error _ => two)) :
    ErrorCandidate env d n ∧ ∀ m, ErrorCandidate env d m → m ≤ n := by
  have hb : ∀ a b : Int, (max a b = a ∨ max a b = b) ∧ a ≤ max a b ∧ b ≤ max a b := by
    intro a b; omega
  have h2 := hb env.h.defaultLevel env.h.defaultErrorLevel
  have hc2 : ErrorCandidate env d (max env.h.defaultLevel env.h.defaultErrorLevel) := by
    rcases h2.1 with h | h <;> rw [h]
    · exact .default
    · exact .defaultError
  dsimp only at hn
  cases hl : d.level with
  | none =>
    rw [hl] at hn; dsimp only at hn
    subst hn
    refine ⟨hc2, fun m hm => ?_⟩
    cases hm with
    | default => exact h2.2.1
    | defaultError => exact h2.2.2
    | given l _ h _ => rw [hl] at h; cases h
  | some l =>
    rw [hl] at hn; dsimp only at hn
    cases hg : env.h.levels.get l with
    | error e =>
      rw [hg] at hn; dsimp only at hn
      subst hn
      refine ⟨hc2, fun m hm => ?_⟩
      cases hm with
      | default => exact h2.2.1
      | defaultError => exact h2.2.2
      | given l' _ h h' => rw [hl] at h; cases h; exact absurd h' (levelIs_none hg m)
    | ok k =>
      rw [hg] at hn; dsimp only at hn
      have h3 := hb (max env.h.defaultLevel env.h.defaultErrorLevel) k
      subst hn
      refine ⟨?_, fun m hm => ?_⟩
      · rcases h3.1 with h | h <;> rw [h]
        · exact hc2
        · exact .given l k hl ((levels_get_iff _ _ _).1 hg)
      · cases hm with
        | default => omega
        | defaultError => omega
        | given l' _ h h' =>
          rw [hl] at h; cases h
          have := levelIs_fun h' ((levels_get_iff _ _ _).1 hg)
          omega

theorem errorsLevel_spec (env : CEnv) (d : Deco) :
    ErrorLevel env d (errorsLevel env d.errLevel d.level) := by
  unfold errorsLevel
  dsimp only
  have hf := fallback_spec env d _ rfl
  cases he : d.errLevel with
  | none =>
    exact .greatest _ (fun l m h => by rw [he] at h; cases h) hf.1 hf.2
  | some l =>
    dsimp only
    cases hg : env.h.levels.get l with
    | ok n => exact .given l n he ((levels_get_iff _ _ _).1 hg)
    | error e =>
      refine .greatest _ (fun l' m h => ?_) hf.1 hf.2
      rw [he] at h; cases h; exact levelIs_none hg m

theorem errorLevel_fun {env : CEnv} {d : Deco} {n m : Int} (h1 : ErrorLevel env d n)
    (h2 : ErrorLevel env d m) : n = m := by
  cases h1 with
  | given l _ e1 l1 =>
    cases h2 with
    | given l' _ e2 l2 => rw [e1] at e2; cases e2; exact levelIs_fun l1 l2
    | greatest _ hno _ _ => exact absurd l1 (hno _ _ e1)
  | greatest _ hno hc hg =>
    cases h2 with
    | given l' _ e2 l2 => exact absurd l2 (hno _ _ e2)
    | greatest _ hno' hc' hg' => have := hg _ hc'; have := hg' _ hc; omega

theorem normalLevel_fun {env : CEnv} {d : Deco} {n m : Int} (h1 : NormalLevel env d n)
    (h2 : NormalLevel env d m) : n = m := by
  have e1 := (normalLevel_iff _ _ _).2 h1
  rw [(normalLevel_iff _ _ _).2 h2] at e1
  cases e1; rfl

theorem passes_ret {env : CEnv} {d : Deco} {n : Int} (h : normalLevel env d.level = .ok n) (v : Val) :
    Passes env d (.ret v) ↔ env.h.threshold ≤ n := by
  constructor
  · rintro ⟨m, hm, hle⟩
    rwa [normalLevel_fun hm ((normalLevel_iff _ _ _).1 h)] at hle
  · intro hle; exact ⟨n, (normalLevel_iff _ _ _).1 h, hle⟩

theorem passes_raised (env : CEnv) (d : Deco) (e : Exc) :
    Passes env d (.raised e) ↔ env.h.threshold ≤ errorsLevel env d.errLevel d.level := by
  constructor
  · rintro ⟨m, hm, hle⟩
    rwa [errorLevel_fun hm (errorsLevel_spec env d)] at hle
  · intro hle; exact ⟨_, errorsLevel_spec env d, hle⟩

theorem goodLevel_ok {env : CEnv} {l : Option PyObj} (h : GoodLevel env l) : ∃ n, normalLevel env l = .ok n := by
  cases l with
  | none => exact ⟨_, rfl⟩
  | some l =>
    rcases h with ⟨name, number, rfl, hn⟩ | ⟨n, rfl, hn⟩
    · exact ⟨number, by simp [normalLevel, Levels.get, hn]⟩
    · exact ⟨n, by simp [normalLevel, Levels.get, Int.not_lt.2 hn]⟩

/-! ### Suppression -/

theorem excSuppressed_iff (env : CEnv) (classes : List Nat) (e : Exc) :
    excSuppressed env classes e = true ↔ ∃ c ∈ classes, Matches env e c := by
  unfold excSuppressed Matches
  cases env.subclasses <;> simp [List.any_eq_true]

theorem blockSwallows_iff (env : CEnv) (o : BlockOpts) (e : Exc) :
    blockSwallows env o e = true ↔ BlockSwallows env o e := by
  unfold blockSwallows BlockSwallows
  cases o.suppressAll with
  | true => simp
  | false =>
    cases hs : o.suppressed with
    | nil => simp
    | cons c cs =>
      rw [if_neg (by simp), if_pos (by simp), excSuppressed_iff]
      simp

/-! ### Manual loggers do not look at the unlog status before the end -/

theorem kwargsToDict_unlogged (lg : HLogger) (env : HEnv) (u : Bool) (kwargs : Dict Str HVal) :
    ∀ (items : List (Str × HVal)) (dest : Dict Str HVal),
      kwargsToDict lg { env with unlogged := u } kwargs items dest = kwargsToDict lg env kwargs items dest := by
  intro items
  induction items with
  | nil => intro dest; rfl
  | cons it rest ih =>
    intro dest
    have : kwStep lg { env with unlogged := u } kwargs dest it = kwStep lg env kwargs dest it := rfl
    simp only [kwargsToDict, this]
    cases kwStep lg env kwargs dest it with
    | error e => rfl
    | ok d => exact ih d

theorem prepareData_unlogged (lg : HLogger) (env : HEnv) (u : Bool) (args : List HVal) (kwargs : Dict Str HVal) :
    prepareData lg { env with unlogged := u } args kwargs = prepareData lg env args kwargs := by
  have : positionArgs lg { env with unlogged := u } args = positionArgs lg env args := rfl
  simp only [prepareData, this, kwargsToDict_unlogged]

theorem baseCall_raised (lg : HLogger) (env : HEnv) (u : Bool) (args : List HVal) (kwargs : Dict Str HVal) :
    (baseCall lg { env with unlogged := u } args kwargs).raised = (baseCall lg env args kwargs).raised := by
  simp only [baseCall, prepareData_unlogged]
  cases prepareData lg env args kwargs with
  | error e => rfl
  | ok f =>
    have : specificProcessing { env with unlogged := u } f = specificProcessing env f := rfl
    simp only [this, basePush]
    split
    · split
      · cases u <;> cases env.unlogged <;> rfl
      · rfl
    · rfl

theorem baseCall_muted (lg : HLogger) (env : HEnv) (args : List HVal) (kwargs : Dict Str HVal) :
    (baseCall lg { env with unlogged := true } args kwargs).records = [] := by
  simp only [baseCall, basePush]
  split
  · rfl
  · split
    · split
      · rfl
      · rfl
    · rfl

/-! ### The fields of a message form a dictionary -/

theorem kwargsToDict_wf {lg : HLogger} {env : HEnv} {kwargs : Dict Str HVal} :
    ∀ {items : List (Str × HVal)} {dest d : Dict Str HVal}, Dict.WF dest →
      kwargsToDict lg env kwargs items dest = .ok d → Dict.WF d := by
  intro items
  induction items with
  | nil => intro dest d h e; cases e; exact h
  | cons it rest ih =>
    intro dest d h e
    simp only [kwargsToDict] at e
    split at e
    · cases e
    · rename_i dest' hs
      refine ih ?_ e
      have hm : ∀ {e' : PyErr} {x : Dict Str HVal}, maybeRaise env e' dest = .ok x → Dict.WF x := by
        intro e' x hx
        unfold maybeRaise at hx
        split at hx
        · cases hx; exact h
        · cases hx
      unfold kwStep at hs
      dsimp only at hs
      split at hs
      · exact hm hs
      · split at hs
        · cases hs
        · split at hs
          · cases hs; exact WF_notNone h _ _
          · split at hs
            · cases hs
            · split at hs
              · exact hm hs
              · cases hs; exact WF_notNone h _ _

theorem prepareData_wf {lg : HLogger} {env : HEnv} {args : List HVal} {kwargs d : Dict Str HVal}
    (h : prepareData lg env args kwargs = .ok d) : Dict.WF d := by
  unfold prepareData at h
  split at h
  · cases h
  · rename_i dest hp
    refine kwargsToDict_wf ?_ h
    unfold positionArgs at hp
    split at hp
    · cases hp
    · split at hp
      · cases hp
      · split at hp
        · cases hp; exact Dict.WF_nil
        · cases hp; simp [Dict.WF, Dict.keys]

theorem exceptionInfo_wf {env : HEnv} {v : HVal} {f : Dict Str HVal} (h : Dict.WF f) :
    Dict.WF (exceptionInfo env v f) := by
  unfold exceptionInfo
  split
  · dsimp only
    split
    · exact Dict.WF_set (Dict.WF_set (Dict.WF_set h))
    · exact Dict.WF_set (Dict.WF_set (Dict.WF_set (Dict.WF_set h)))
  · exact Dict.WF_set h
  · exact h

theorem messageCall_wf {env : HEnv} {args : List HVal} {kwargs f : Dict Str HVal}
    (h : messageCall env args kwargs = .ok (some f)) : Dict.WF f := by
  unfold messageCall at h
  split at h
  · cases h
  · rename_i d hp
    have hw := prepareData_wf hp
    dsimp only at h
    split at h
    · cases h
    · cases h
      unfold extractException
      split
      · exact hw
      · dsimp only
        rw [if_neg (by simp), if_neg (by simp)]
        exact Dict.WF_erase (exceptionInfo_wf hw)

theorem ownMessages_wf (env : CEnv) : ∀ (b : Body), ∀ f ∈ ownMessages env b, Dict.WF f := by
  intro b
  induction b with
  | ret v => intro f h; cases h
  | raise e => intro f h; cases h
  | call kind b k ihb ihk =>
    intro f h
    cases kind with
    | plain =>
      simp only [ownMessages, List.mem_append] at h
      exact h.elim (ihb f) (ihk _ f)
    | logged d info => exact ihk _ f h
    | unlogged full =>
      simp only [ownMessages, List.mem_append] at h
      exact h.elim (ihb f) (ihk _ f)
  | block o b k ihb ihk =>
    intro f h
    simp only [ownMessages, List.mem_append] at h
    exact h.elim (ihb f) (ihk _ f)
  | msg args kwargs k ihk =>
    intro f h
    simp only [ownMessages, List.mem_append] at h
    refine h.elim (fun h => ?_) (ihk _ f)
    unfold messageFields at h
    split at h
    · cases h
    · rename_i fields hf
      simp only [Option.mem_toList] at h
      exact messageCall_wf (hf.trans (by rw [h]))
  | manual args kwargs k ihk => intro f h; exact ihk _ f h

/-! ### Transparency -/

theorem loggedEnd_outcome {env : CEnv} {d : Deco} {info : FnInfo} {o : Outcome} (s : CallState)
    (hl : GoodLevel env d.level) (hi : info.inputs.isSome = true) (hp : Printable o) :
    (loggedEnd env d info o s).1 = decoOutcome env d o := by
  obtain ⟨inputs, hi⟩ := Option.isSome_iff_exists.1 hi
  cases o with
  | ret v =>
    obtain ⟨t, ht⟩ := Option.isSome_iff_exists.1 (show v.text.isSome = true from hp)
    obtain ⟨n, hn⟩ := goodLevel_ok hl
    have : (logNormal env d info v s).1 = none := by
      unfold logNormal
      rw [hn]; dsimp only
      split
      · rfl
      · split
        · rw [ht]; dsimp only; rw [hi]
        · rfl
    unfold loggedEnd decoOutcome
    dsimp only
    generalize logNormal env d info v s = r at this
    obtain ⟨r1, r2⟩ := r
    dsimp only at this
    subst this
    rfl
  | raised e =>
    obtain ⟨t, ht⟩ := Option.isSome_iff_exists.1 (show e.text.isSome = true from hp)
    have : (logException env d info e s).1 = none := by
      unfold logException
      dsimp only
      split
      · rfl
      · split
        · split
          · rw [ht, hi]
          · rfl
        · rfl
    unfold loggedEnd decoOutcome
    dsimp only
    generalize logException env d info e s = r at this
    obtain ⟨r1, r2⟩ := r
    dsimp only at this
    subst this
    dsimp only
    by_cases h : DecoSwallows env d e
    · rw [if_pos h, if_pos h.1]
      by_cases ha : d.suppressAll = true
      · rw [if_pos ha]
      · have hc := h.2.resolve_left ha
        rw [if_neg ha, if_pos ((excSuppressed_iff env _ e).2 hc)]
    · rw [if_neg h]
      by_cases hx : e.isException = true
      · rw [if_pos hx, if_neg (fun ha => h ⟨hx, .inl ha⟩),
          if_neg (fun hc => h ⟨hx, .inr ((excSuppressed_iff env _ e).1 hc)⟩)]
      · rw [if_neg hx]

theorem blockEnd_outcome {env : CEnv} {o : BlockOpts} {out : Outcome} (s : CallState) (hp : Printable out)
    (hr : (baseCall simpleLogger env.h [] (blockData env o out)).raised = none) :
    (blockEnd env o out s).1 = blockOutcome env o out := by
  unfold blockEnd
  dsimp only
  rw [if_pos (by cases out <;> first | rfl | exact hp)]
  rw [baseCall_raised, hr]
  cases out with
  | ret v => rfl
  | raised e =>
    dsimp only [blockOutcome]
    by_cases h : BlockSwallows env o e
    · rw [if_pos ((blockSwallows_iff _ _ _).2 h), if_pos h]
    · rw [if_neg (fun h' => h ((blockSwallows_iff _ _ _).1 h')), if_neg h]

theorem messageRaises_eq {env : CEnv} {args : List HVal} {kwargs : Dict Str HVal} (k : Option PyErr → Body)
    (s : CallState) :
    (Body.msg args kwargs k).run env s =
      (k (messageRaises env args kwargs)).run env
        { s with msg := (messageFields env args kwargs).or s.msg } := by
  simp only [Body.run, messageRaises, messageFields]
  cases messageCall env.h args kwargs with
  | error e => rfl
  | ok f => cases f <;> rfl

theorem run_outcome (env : CEnv) : ∀ (b : Body) (s : CallState), Valid env b →
    (b.run env s).1 = outcomeOf env b := by
  intro b
  induction b with
  | ret v => intro s _; rfl
  | raise e => intro s _; rfl
  | call kind b k ihb ihk =>
    intro s hv
    cases kind with
    | plain =>
      have h1 := ihb s hv.1
      have h2 := fun s' => ihk (outcomeOf env b) s' hv.2
      simp only [Body.run, outcomeOf]
      generalize b.run env s = r at h1
      obtain ⟨r1, r2⟩ := r
      dsimp only at h1; subst h1
      exact h2 r2
    | logged d info =>
      obtain ⟨hb, hl, hi, hp, hk⟩ := hv
      have h1 := ihb { s with msg := none } hb
      have h2 := fun s' => ihk _ s' hk
      simp only [Body.run, outcomeOf]
      generalize b.run env { s with msg := none } = r at h1
      obtain ⟨r1, r2⟩ := r
      dsimp only at h1; subst h1
      have h3 := loggedEnd_outcome r2 hl hi hp
      dsimp only
      generalize loggedEnd env d info (outcomeOf env b) r2 = q at h3
      obtain ⟨q1, q2⟩ := q
      dsimp only at h3; subst h3
      exact h2 q2
    | unlogged full =>
      have h1 := ihb { s with unlog := some full } hv.1
      have h2 := fun s' => ihk (outcomeOf env b) s' hv.2
      simp only [Body.run, outcomeOf]
      generalize b.run env { s with unlog := some full } = r at h1
      obtain ⟨r1, r2⟩ := r
      dsimp only at h1; subst h1
      exact h2 _
  | block o b k ihb ihk =>
    intro s hv
    obtain ⟨hb, hp, hr, hk⟩ := hv
    have h1 := ihb s hb
    have h2 := fun s' => ihk _ s' hk
    simp only [Body.run, outcomeOf]
    generalize b.run env s = r at h1
    obtain ⟨r1, r2⟩ := r
    dsimp only at h1; subst h1
    have h3 := blockEnd_outcome r2 hp hr
    dsimp only
    generalize blockEnd env o (outcomeOf env b) r2 = q at h3
    obtain ⟨q1, q2⟩ := q
    dsimp only at h3; subst h3
    exact h2 q2
  | msg args kwargs k ihk =>
    intro s hv
    rw [messageRaises_eq]
    exact ihk _ _ hv
  | manual args kwargs k ihk =>
    intro s hv
    simp only [Body.run, outcomeOf, handleLog, baseCall_raised]
    exact ihk _ _ hv

end Polog
