import Verif.Actions.Spec
import Verif.Actions.Model
import Verif.Settings.Lemmas

/-!
Settings that act outside of the store (C67): what they switch on and off agrees with their values.
-/

namespace Polog
open SettingsSpec

/-- The world agrees with a value of a setting. -/
def ActWorld.Fits (w : ActWorld) : Setting → SVal → Prop
  | .logIsBuiltIn, v => w.builtinLog = true ↔ v = .bool true
  | .integrationWithLogging, v => w.filter = true ↔ v = .bool true
  | .fieldsIntersection, v => w.cached = none ∨ w.cached = some v
  | _, _ => True

/-- The three settings with visible callbacks. -/
def Visible (s : Setting) : Prop := s = .logIsBuiltIn ∨ s = .integrationWithLogging ∨ s = .fieldsIntersection

/-- The world agrees with the value, or a callback is about to be executed. -/
def Pend (c : CState) (w : ActWorld) (s : Setting) : Prop :=
  (∃ t old new, c.pc t = .stored s old new ∧ c.store.value s = new ∧ (w.Fits s old ∨ w.Fits s new)) ∨
  ((∀ t old new, c.pc t ≠ .stored s old new) ∧ w.Fits s (c.store.value s))

/-- What the threads inside `config.set` know. -/
structure KnowInv (isId : Str → Bool) (debug : Bool) (c : CState) : Prop where
  inv : CInv isId debug c
  old : ∀ t s o n, c.pc t = .checked s o n → o = c.store.value s
  chk : ∀ t s o n, (c.pc t = .checked s o n ∨ c.pc t = .stored s o n) → valid isId s o ∧ valid isId s n

theorem KnowInv_init (isId : Str → Bool) (debug : Bool) : KnowInv isId debug (CState.init isId debug) :=
  ⟨CInv_init isId debug, (fun _ _ _ _ h => nomatch h), (fun _ _ _ _ h => by rcases h with h | h <;> cases h)⟩

/-- Two threads inside `set` of settings with one lock are one thread. -/
theorem CInv.same_thread {isId : Str → Bool} {debug : Bool} {c : CState} (h : CInv isId debug c) {t t' : Nat}
    {s : Setting} (h1 : (c.pc t).holds = some s) (h2 : (c.pc t').holds = some s) : t' = t := by
  have a := h.locks t s h1
  rw [h.locks t' s h2] at a
  exact Option.some.inj a

theorem KnowInv_step {isId : Str → Bool} {debug : Bool} {c c' : CState} (h : KnowInv isId debug c)
    (hs : CStep isId debug c c') : KnowInv isId debug c' := by
  refine ⟨CInv_step h.inv hs, ?_, ?_⟩
  · cases hs with
    | levels lc => exact h.old
    | accept t s v new hpc good =>
      intro t' s' o n hp
      dsimp only at hp ⊢
      by_cases ht : t' = t
      · subst ht; rw [setAt_self] at hp; cases hp; rfl
      · rw [setAt_ne _ _ ht] at hp; exact h.old _ _ _ _ hp
    | store t s old new hpc =>
      intro t' s' o n hp
      dsimp only at hp ⊢
      by_cases ht : t' = t
      · subst ht; rw [setAt_self] at hp; cases hp
      · rw [setAt_ne _ _ ht] at hp
        have : s' ≠ s := by
          rintro rfl
          exact ht (h.inv.same_thread (by rw [hpc]; rfl) (by rw [hp]; rfl))
        rw [setAt_ne _ _ this]
        exact h.old _ _ _ _ hp
    | call t | acquire t | reject t | finish t =>
      intro t' s' o n hp
      dsimp only at hp ⊢
      by_cases ht : t' = t
      · subst ht; rw [setAt_self] at hp; cases hp
      · rw [setAt_ne _ _ ht] at hp; exact h.old _ _ _ _ hp
  · cases hs with
    | levels lc => exact h.chk
    | accept t s v new hpc good =>
      intro t' s' o n hp
      dsimp only at hp ⊢
      by_cases ht : t' = t
      · subst ht
        rw [setAt_self] at hp
        rcases hp with hp | hp <;> cases hp
        exact ⟨h.inv.ok.valid s, check_valid h.inv.ok.levelsOk s good⟩
      · rw [setAt_ne _ _ ht] at hp; exact h.chk _ _ _ _ hp
    | store t s old new hpc =>
      intro t' s' o n hp
      dsimp only at hp ⊢
      by_cases ht : t' = t
      · subst ht
        rw [setAt_self] at hp
        rcases hp with hp | hp <;> cases hp
        exact h.chk _ _ _ _ (.inl hpc)
      · rw [setAt_ne _ _ ht] at hp; exact h.chk _ _ _ _ hp
    | call t | acquire t | reject t | finish t =>
      intro t' s' o n hp
      dsimp only at hp ⊢
      by_cases ht : t' = t
      · subst ht; rw [setAt_self] at hp; rcases hp with hp | hp <;> cases hp
      · rw [setAt_ne _ _ ht] at hp; exact h.chk _ _ _ _ hp

theorem pyEq_bool (a b : Bool) : (SVal.bool a).pyEq (.bool b) = (a == b) := by
  cases a <;> cases b <;> rfl

/-- The callback of a visible setting makes the world agree with the new value. -/
theorem fits_after {isId : Str → Bool} (debug : Bool) {s : Setting} (hv : Visible s) {old new : SVal}
    (ho : valid isId s old) (hn : valid isId s new) (w : ActWorld) (hw : w.Fits s old ∨ w.Fits s new) :
    (((point isId debug s).journalEntry old new).foldl ActWorld.act w).Fits s new := by
  rcases hv with rfl | rfl | rfl <;> obtain ⟨o, rfl⟩ := ho <;> obtain ⟨n, rfl⟩ := hn <;>
    cases o <;> cases n <;>
    simp_all [point, Point.journalEntry, pyEq_bool, ActWorld.act, ActWorld.Fits]

/-- A callback of another setting does not matter. -/
theorem fits_other {isId : Str → Bool} (debug : Bool) {s s' : Setting} (hv : Visible s) (h : s' ≠ s)
    (old new v : SVal) (w : ActWorld) (hw : w.Fits s v) :
    (((point isId debug s').journalEntry old new).foldl ActWorld.act w).Fits s v := by
  rcases hv with rfl | rfl | rfl <;> cases s' <;>
    first
      | exact absurd rfl h
      | (simp only [point, Point.journalEntry]
         first
          | exact hw
          | (split
             · exact hw
             · exact hw))

theorem Pend_step {isId : Str → Bool} {debug : Bool} {c c' : CState} (hk : KnowInv isId debug c) {s : Setting}
    (hv : Visible s) {w : ActWorld} (h : Pend c w s) (hs : CStep isId debug c c') :
    Pend c' ((c'.store.journal.drop c.store.journal.length).foldl ActWorld.act w) s := by
  cases hs with
  | levels lc =>
    simp only [List.drop_length, List.foldl_nil]
    exact h
  | call t _ _ hpc | acquire t _ _ hpc | reject t _ _ hpc | accept t _ _ _ hpc =>
    simp only [List.drop_length, List.foldl_nil]
    rcases h with ⟨t', o, n, h1, h2, h3⟩ | ⟨h1, h2⟩
    · left
      have : t' ≠ t := by rintro rfl; rw [h1] at hpc; cases hpc
      exact ⟨t', o, n, by dsimp only; rw [setAt_ne _ _ this]; exact h1, h2, h3⟩
    · right
      refine ⟨fun t' o n hp => ?_, h2⟩
      dsimp only at hp
      by_cases ht : t' = t
      · subst ht; rw [setAt_self] at hp; cases hp
      · rw [setAt_ne _ _ ht] at hp; exact h1 _ _ _ hp
  | store t s0 old new hpc =>
    simp only [List.drop_length, List.foldl_nil]
    by_cases hss : s0 = s
    · subst hss
      left
      refine ⟨t, old, new, setAt_self _ _ _, setAt_self _ _ _, ?_⟩
      rcases h with ⟨t', o, n, h1, h2, h3⟩ | ⟨h1, h2⟩
      · have := hk.inv.same_thread (t := t) (t' := t') (s := s0) (by rw [hpc]; rfl) (by rw [h1]; rfl)
        subst this
        rw [h1] at hpc
        cases hpc
      · left
        rw [hk.old _ _ _ _ hpc]
        exact h2
    · have hval : (setAt c.store.value s0 new) s = c.store.value s := setAt_ne _ _ (Ne.symm hss)
      rcases h with ⟨t', o, n, h1, h2, h3⟩ | ⟨h1, h2⟩
      · left
        have : t' ≠ t := by rintro rfl; rw [h1] at hpc; cases hpc
        refine ⟨t', o, n, ?_, ?_, h3⟩
        · dsimp only; rw [setAt_ne _ _ this]; exact h1
        · dsimp only; rw [hval]; exact h2
      · right
        refine ⟨fun t' o n hp => ?_, by dsimp only; rw [hval]; exact h2⟩
        dsimp only at hp
        by_cases ht : t' = t
        · subst ht; rw [setAt_self] at hp; cases hp; exact hss rfl
        · rw [setAt_ne _ _ ht] at hp; exact h1 _ _ _ hp
  | finish t s0 old new hpc =>
    simp only [List.drop_left]
    by_cases hss : s0 = s
    · subst hss
      right
      rcases h with ⟨t', o, n, h1, h2, h3⟩ | ⟨h1, h2⟩
      · have := hk.inv.same_thread (t := t) (t' := t') (s := s0) (by rw [hpc]; rfl) (by rw [h1]; rfl)
        subst this
        rw [h1] at hpc
        cases hpc
        obtain ⟨vo, vn⟩ := hk.chk _ _ _ _ (.inr h1)
        refine ⟨fun u o' n' hp => ?_, ?_⟩
        · dsimp only at hp
          by_cases ht : u = t'
          · subst ht; rw [setAt_self] at hp; cases hp
          · rw [setAt_ne _ _ ht] at hp
            exact ht (hk.inv.same_thread (t := t') (t' := u) (s := s0) (by rw [h1]; rfl) (by rw [hp]; rfl))
        · dsimp only
          rw [h2]
          exact fits_after debug hv vo vn w h3
      · exact absurd hpc (h1 _ _ _)
    · rcases h with ⟨t', o, n, h1, h2, h3⟩ | ⟨h1, h2⟩
      · left
        have : t' ≠ t := by
          rintro rfl
          rw [h1] at hpc
          cases hpc
          exact hss rfl
        refine ⟨t', o, n, ?_, h2, h3.imp (fits_other debug hv hss _ _ _ _) (fits_other debug hv hss _ _ _ _)⟩
        dsimp only; rw [setAt_ne _ _ this]; exact h1
      · right
        refine ⟨fun t' o n hp => ?_, fits_other debug hv hss _ _ _ _ h2⟩
        dsimp only at hp
        by_cases ht : t' = t
        · subst ht; rw [setAt_self] at hp; cases hp
        · rw [setAt_ne _ _ ht] at hp; exact h1 _ _ _ hp

theorem ActReach.know {isId : Str → Bool} {debug : Bool} {a : ActState} (h : ActReach isId debug a) :
    KnowInv isId debug a.conf := by
  induction h with
  | init => exact KnowInv_init isId debug
  | step _ hs ih =>
    cases hs with
    | conf c' hc => exact KnowInv_step ih hc
    | _ => exact ih

theorem Pend_init (isId : Str → Bool) (debug : Bool) {s : Setting} (hv : Visible s) :
    Pend (ActState.init isId debug).conf (ActState.init isId debug).world s := by
  refine .inr ⟨fun t o n h => (nomatch h), ?_⟩
  rcases hv with rfl | rfl | rfl
  · show false = true ↔ SVal.bool false = SVal.bool true
    simp
  · show true = true ↔ SVal.bool true = SVal.bool true
    simp
  · exact .inl rfl

theorem ActReach.pend {isId : Str → Bool} {debug : Bool} {a : ActState} (h : ActReach isId debug a) {s : Setting}
    (hv : s = .logIsBuiltIn ∨ s = .integrationWithLogging) : Pend a.conf a.world s := by
  have hv' : Visible s := by rcases hv with h | h <;> simp [Visible, h]
  induction h with
  | init => exact Pend_init isId debug hv'
  | step hr hs ih =>
    cases hs with
    | conf c' hc => exact Pend_step hr.know hv' ih hc
    | read | replace => exact ih
    | copy u v hu =>
      rcases hv with rfl | rfl <;> exact ih

/-- **C67**: whatever the threads do with the settings, whenever no change of `log_is_built_in` is in progress,
`log` is available as a built-in exactly if the setting is `True`. -/
theorem C67_log_is_built_in_as_configured (isId : Str → Bool) (debug : Bool) (a : ActState)
    (h : ActReach isId debug a) (hq : ¬ ActSpec.BeingChanged a .logIsBuiltIn) :
    a.world.builtinLog = true ↔ a.conf.store.value .logIsBuiltIn = .bool true := by
  rcases h.pend (.inl rfl) with ⟨t, o, n, h1, _⟩ | ⟨_, h2⟩
  · exact absurd ⟨t, o, n, h1⟩ hq
  · exact h2

/-- **C67**: whenever no change of `integration_with_logging` is in progress, records of `logging` are
intercepted exactly if the setting is `True`. -/
theorem C67_logging_is_intercepted_as_configured (isId : Str → Bool) (debug : Bool) (a : ActState)
    (h : ActReach isId debug a) (hq : ¬ ActSpec.BeingChanged a .integrationWithLogging) :
    a.world.filter = true ↔ a.conf.store.value .integrationWithLogging = .bool true := by
  rcases h.pend (.inr rfl) with ⟨t, o, n, h1, _⟩ | ⟨_, h2⟩
  · exact absurd ⟨t, o, n, h1⟩ hq
  · exact h2

theorem calm_inv {isId : Str → Bool} {debug : Bool} {a : ActState} (h : ActSpec.CalmReach isId debug a) :
    ActReach isId debug a ∧ Pend a.conf a.world .fieldsIntersection ∧
    (∀ u v, a.item u = .read v → v = a.conf.store.value .fieldsIntersection) ∧
    (a.ready = true ∨ (∃ u, a.item u = .copied) → a.world.cached ≠ none) := by
  have hvis : Visible .fieldsIntersection := .inr (.inr rfl)
  induction h with
  | init =>
    refine ⟨.init, Pend_init isId debug hvis, (fun _ _ h => nomatch h), ?_⟩
    rintro (h | ⟨u, h⟩) <;> cases h
  | step hr hs hc ih =>
    obtain ⟨hr', hp, hread, hready⟩ := ih
    refine ⟨.step hr' hs, ?_⟩
    cases hs with
    | conf c' hcs =>
      refine ⟨Pend_step hr'.know hvis hp hcs, fun u v hu => ?_, fun hrd => ?_⟩
      · dsimp only at hu hc ⊢
        rw [hc ⟨u, v, hu⟩]
        exact hread u v hu
      · have hne := hready hrd
        have hfold : ∀ (l : List (Action × SVal × SVal)) (w : ActWorld), w.cached ≠ none →
            (l.foldl ActWorld.act w).cached ≠ none := by
          intro l
          induction l with
          | nil => exact fun _ h => h
          | cons x l ih =>
            intro w hw
            apply ih
            obtain ⟨a, o, n⟩ := x
            cases a <;> simp [ActWorld.act, hw]
        exact hfold _ _ hne
    | read u hu hrd =>
      refine ⟨hp, fun u' v hu' => ?_, ?_⟩
      · dsimp only at hu' ⊢
        by_cases he : u' = u
        · subst he; rw [setAt_self] at hu'; cases hu'; rfl
        · rw [setAt_ne _ _ he] at hu'; exact hread u' v hu'
      · rintro (h | ⟨u', h⟩)
        · exact hready (.inl h)
        · dsimp only at h
          by_cases he : u' = u
          · subst he; rw [setAt_self] at h; cases h
          · rw [setAt_ne _ _ he] at h; exact hready (.inr ⟨u', h⟩)
    | copy u v hu =>
      have hv := hread u v hu
      refine ⟨?_, fun u' v' hu' => ?_, fun _ => by simp⟩
      · rcases hp with ⟨t, o, n, h1, h2, h3⟩ | ⟨h1, h2⟩
        · exact .inl ⟨t, o, n, h1, h2, .inr (.inr (by rw [hv, h2]))⟩
        · exact .inr ⟨h1, .inr (by rw [hv])⟩
      · dsimp only at hu' ⊢
        by_cases he : u' = u
        · subst he; rw [setAt_self] at hu'; cases hu'
        · rw [setAt_ne _ _ he] at hu'; exact hread u' v' hu'
    | replace u hu =>
      refine ⟨hp, fun u' v' hu' => ?_, fun _ => hready (.inr ⟨u, hu⟩)⟩
      dsimp only at hu' ⊢
      by_cases he : u' = u
      · subst he; rw [setAt_self] at hu'; cases hu'
      · rw [setAt_ne _ _ he] at hu'; exact hread u' v' hu'

/-- **C67, partial**: once a log was created, logs use the configured value of `fields_intersection`, if the
setting is not changed during the creation of the first log.  Missing: changes at that moment, for which the
claim fails (below). -/
theorem C67_fields_intersection_as_configured_partial (isId : Str → Bool) (debug : Bool) (a : ActState)
    (h : ActSpec.CalmReach isId debug a) (hq : ¬ ActSpec.BeingChanged a .fieldsIntersection)
    (hr : a.ready = true) : a.world.cached = some (a.conf.store.value .fieldsIntersection) := by
  obtain ⟨_, hp, _, hc⟩ := calm_inv h
  rcases hp with ⟨t, o, n, h1, _⟩ | ⟨_, h2⟩
  · exact absurd ⟨t, o, n, h1⟩ hq
  · rcases h2 with h2 | h2
    · exact absurd h2 (hc (.inl hr))
    · exact h2

/-- **C67**: the first log is always created: whatever the threads have done, three more steps of the thread that creates it, or less, end
its creation, and nobody has to wait. -/
theorem C67_first_log_is_created (isId : Str → Bool) (debug : Bool) (a : ActState) (h : ActReach isId debug a) (u : Nat) :
    ∃ a', ActReach isId debug a' ∧ a'.ready = true ∧ a'.conf = a.conf ∧ ∀ u', u' ≠ u → a'.item u' = a.item u' := by
  have copied : ∀ a : ActState, ActReach isId debug a → a.item u = .copied →
      ∃ a', ActReach isId debug a' ∧ a'.ready = true ∧ a'.conf = a.conf ∧ ∀ u', u' ≠ u → a'.item u' = a.item u' :=
    fun a h hu => ⟨_, h.step (.replace a u hu), rfl, rfl, fun u' hne => setAt_ne _ _ hne⟩
  have read : ∀ (a : ActState) (v : SVal), ActReach isId debug a → a.item u = .read v →
      ∃ a', ActReach isId debug a' ∧ a'.ready = true ∧ a'.conf = a.conf ∧ ∀ u', u' ≠ u → a'.item u' = a.item u' := by
    intro a v h hu
    obtain ⟨a', h1, h2, h3, h4⟩ := copied _ (h.step (.copy a u v hu)) (setAt_self _ _ _)
    exact ⟨a', h1, h2, h3, fun u' hne => (h4 u' hne).trans (setAt_ne _ _ hne)⟩
  cases hr : a.ready with
  | true => exact ⟨a, h, hr, rfl, fun _ _ => rfl⟩
  | false =>
    cases hu : a.item u with
    | idle =>
      obtain ⟨a', h1, h2, h3, h4⟩ := read _ _ (h.step (.read a u hu hr)) (setAt_self _ _ _)
      exact ⟨a', h1, h2, h3, fun u' hne => (h4 u' hne).trans (setAt_ne _ _ hne)⟩
    | read v => exact read a v h hu
    | copied => exact copied a h hu

/-- **C67 fails** for a change made while another thread creates the first log: all calls have returned, the
setting is `True`, and logs go on with `False`. -/
theorem C67_fields_intersection_as_configured_fails : ∃ a, ActReach (fun _ => true) true a ∧
    (∀ t, a.conf.pc t = .idle) ∧ (∀ u, a.item u = .idle) ∧ a.ready = true ∧
    a.conf.store.value .fieldsIntersection = .bool true ∧ a.world.cached = some (.bool false) := by
  have s1 := ActReach.step .init (.read (isId := fun _ => true) (debug := true) _ 0 rfl rfl)
  have s2 := s1.step (.conf _ _ (.call _ 0 .fieldsIntersection (.bool true) rfl))
  have s3 := s2.step (.conf _ _ (.acquire _ 0 .fieldsIntersection (.bool true) rfl rfl))
  have s4 := s3.step (.conf _ _ (.accept _ 0 .fieldsIntersection (.bool true) (.bool true) rfl rfl))
  have s5 := s4.step (.conf _ _ (.store _ 0 .fieldsIntersection (.bool false) (.bool true) rfl))
  have s6 := s5.step (.conf _ _ (.finish _ 0 .fieldsIntersection (.bool false) (.bool true) rfl))
  have s7 := s6.step (.copy _ 0 (.bool false) rfl)
  have s8 := s7.step (.replace _ 0 rfl)
  refine ⟨_, s8, fun t => ?_, fun u => ?_, rfl, rfl, rfl⟩
  · by_cases ht : t = 0
    · subst ht; rfl
    · simp [setAt, ht, ActState.init, CState.init]
  · by_cases ht : u = 0
    · subst ht; rfl
    · simp [setAt, ht, ActState.init]

/-- The hypotheses can be met: the first log is created, then the setting is changed. -/
example : ∃ a, ActSpec.CalmReach (fun _ => true) true a ∧ a.ready = true ∧
    ¬ ActSpec.BeingChanged a .fieldsIntersection ∧ a.conf.store.value .fieldsIntersection = .bool true := by
  have s1 := ActSpec.CalmReach.step .init (.read (isId := fun _ => true) (debug := true) _ 0 rfl rfl)
    (fun _ => rfl)
  have s2 := s1.step (.copy _ 0 (.bool false) rfl) (fun _ => rfl)
  have s3 := s2.step (.replace _ 0 rfl) (fun _ => rfl)
  have s4 := s3.step (.conf _ _ (.call _ 0 .fieldsIntersection (.bool true) rfl)) (fun _ => rfl)
  have s5 := s4.step (.conf _ _ (.acquire _ 0 .fieldsIntersection (.bool true) rfl rfl)) (fun _ => rfl)
  have s6 := s5.step (.conf _ _ (.accept _ 0 .fieldsIntersection (.bool true) (.bool true) rfl rfl)) (fun _ => rfl)
  have s7 := s6.step (.conf _ _ (.store _ 0 .fieldsIntersection (.bool false) (.bool true) rfl)) (by
    rintro ⟨u, v, hu⟩
    exfalso
    by_cases h : u = 0
    · subst h; simp [setAt] at hu
    · simp [setAt, h, ActState.init] at hu)
  have s8 := s7.step (.conf _ _ (.finish _ 0 .fieldsIntersection (.bool false) (.bool true) rfl)) (fun _ => rfl)
  refine ⟨_, s8, rfl, ?_, rfl⟩
  rintro ⟨t, o, n, h⟩
  by_cases ht : t = 0
  · subst ht; simp [setAt] at h
  · simp [setAt, ht, ActState.init, CState.init] at h

end Polog
