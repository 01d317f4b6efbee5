import Verif.Engine.Progress
import Verif.Engine.Witness

/-!
C18 before the first engine: which calls can return while the first log is being written and settings are being changed. Together with
`C18_every_call_can_return_partial` (after the first engine) this says exactly when threads block each other.
-/

namespace Polog
open EngineSpec

/-- One thread writes the first log, holds the lock of the engine and will need the lock of the settings (to set `started`); another thread
changes a setting, holds the lock of the settings and will need the lock of the engine. For statements; engine.py:47, 59-60,
setting_point.py:66-78. -/
def Crossed (e : Eng) : Prop :=
  ∃ t u l, (e.pc t = .wCheck l ∨ e.pc t = .wStart l) ∧
    (e.pc u = .cEngine ∨ ∃ c : Change, e.pc u = .cLocked c ∧ c.allowed e.g = true ∧ c.changes e.g = true)

theorem onward_step {e : Eng} {t : Nat} {p p' : PC} {g' : Glob} {Q : Eng → Prop} (hpc : e.pc t = p) (hb : p ≠ .idle)
    (hs : TStep t e.g p g' p') (next : ∃ e', Onward ⟨g', setFn e.pc t p'⟩ e' ∧ Q e') : ∃ e', Onward e e' ∧ Q e' := by
  subst hpc
  obtain ⟨e', ho, hq⟩ := next
  exact ⟨e', .thread t g' p' hb hs ho, hq⟩

/-- Nothing is loaded yet. -/
structure ZeroInv (e : Eng) : Prop where
  inv : EInv e
  zero : e.g.loads = 0
  noExit : ∀ t, ¬ Exiting e t

theorem ZeroInv.normal {e : Eng} (h : ZeroInv e) (hn : Normal e.g) : NotStarted e.g := by
  rcases hn with hn | hn
  · exact hn
  · have := hn.1.2.1; have := h.zero; omega

theorem ZeroInv.thread {e : Eng} (h : ZeroInv e) {t : Nat} {p p' : PC} {g' : Glob} (hpc : e.pc t = p) (hb : p ≠ .idle)
    (hs : TStep t e.g p g' p') (hz : g'.loads = 0) : ZeroInv ⟨g', setFn e.pc t p'⟩ := by
  subst hpc
  refine ⟨EInv_step h.inv (.thread e t g' p' hs), hz, fun u hu => ?_⟩
  by_cases hut : u = t
  · subst hut
    have hno := h.noExit u
    unfold Exiting at hu hno
    dsimp only at hu
    rw [setFn_self] at hu
    generalize e.pc u = p at hs hb hno
    cases hs <;> simp_all
  · have hno := h.noExit u
    unfold Exiting at hu hno
    dsimp only at hu
    rw [setFn_ne _ _ hut] at hu
    exact hno hu

/-- The other threads have not moved, and one has arrived. -/
def Only (e e' : Eng) (t : Nat) (q : PC) : Prop := e'.pc t = q ∧ ∀ u, u ≠ t → e'.pc u = e.pc u

theorem Only.prepend {e : Eng} {g' : Glob} {t : Nat} {p q : PC} {e' : Eng} (h : Only ⟨g', setFn e.pc t p⟩ e' t q) : Only e e' t q :=
  ⟨h.1, fun u hu => by rw [h.2 u hu]; exact setFn_ne _ _ hu⟩

/-- The first engine has been loaded. -/
def FirstLoaded (e : Eng) (t : Nat) (l : Log) (e' : Eng) : Prop := WInv e' ∧ Only e e' t (.wHook l)

theorem loaded_now {e : Eng} (h : ZeroInv e) {t : Nat} {p : PC} {l : Log} {r : Real} (hpc : e.pc t = p) (hb : p ≠ .idle)
    (hs : TStep t e.g p { e.g.load r with inits := e.g.inits + 1 } (.wHook l)) (hr : ∀ q, r = .pool q → 0 < q.size) :
    ∃ e', Onward e e' ∧ FirstLoaded e t l e' := by
  refine onward_step hpc hb hs ⟨_, .refl _, ⟨?_, ?_, ?_, ?_⟩, setFn_self _ _ _, fun u hu => setFn_ne _ _ hu⟩
  · exact EInv_step h.inv (.thread e t _ _ (by rw [hpc]; exact hs))
  · show 0 < (e.g.load r).loads
    simp [Glob.load]
  · intro k hk q hq
    have hz := h.zero
    have hk : k < (e.g.load r).loads := hk
    have hq : (e.g.load r).real k = .pool q := hq
    simp only [Glob.load, hz] at hk hq
    have : k = 0 := by omega
    subst this
    rw [setFn_self] at hq
    exact hr q hq
  · intro u hu
    have hno := h.noExit u
    unfold Exiting at hu hno
    dsimp only at hu
    by_cases hut : u = t
    · subst hut
      rw [setFn_self] at hu
      simp at hu
    · rw [setFn_ne _ _ hut] at hu
      exact hno hu

theorem load_from_wLoadSize {e : Eng} (h : ZeroInv e) {t c : Nat} {l : Log} (hpc : e.pc t = .wLoadSize l c) (hp : e.g.poolSize ≠ 0) :
    ∃ e', Onward e e' ∧ FirstLoaded e t l e' :=
  loaded_now h hpc (by simp) (.wLoadWorkers _ l c) fun q hq => by
    cases hq
    exact Nat.pos_of_ne_zero hp

theorem FirstLoaded.prepend {e : Eng} {g' : Glob} {t : Nat} {p : PC} {l : Log} {e' : Eng} (h : FirstLoaded ⟨g', setFn e.pc t p⟩ t l e') :
    FirstLoaded e t l e' := ⟨h.1, h.2.prepend⟩

theorem first_step {e : Eng} {t : Nat} {l : Log} {p p' : PC} {g' : Glob} (hpc : e.pc t = p) (hb : p ≠ .idle) (hs : TStep t e.g p g' p')
    (next : ∃ e', Onward ⟨g', setFn e.pc t p'⟩ e' ∧ FirstLoaded ⟨g', setFn e.pc t p'⟩ t l e') : ∃ e', Onward e e' ∧ FirstLoaded e t l e' := by
  obtain ⟨e', ho, hf⟩ := next
  exact onward_step hpc hb hs ⟨e', ho, hf.prepend⟩

theorem load_from_wLoadCap {e : Eng} (h : ZeroInv e) {t : Nat} {l : Log} (hpc : e.pc t = .wLoadCap l) (hp : e.g.poolSize ≠ 0) :
    ∃ e', Onward e e' ∧ FirstLoaded e t l e' :=
  first_step hpc (by simp) (.wLoadQueue _ l)
    (load_from_wLoadSize (h.thread hpc (by simp) (.wLoadQueue _ l) h.zero) (setFn_self _ _ _) hp)

theorem load_from_wLoad {e : Eng} (h : ZeroInv e) {t : Nat} {l : Log} (hpc : e.pc t = .wLoad l) : ∃ e', Onward e e' ∧ FirstLoaded e t l e' := by
  by_cases hp : e.g.poolSize = 0
  · exact loaded_now h hpc (by simp) (.wLoadSingle _ l hp) (fun q hq => by cases hq)
  · exact first_step hpc (by simp) (.wLoadMulti _ l hp)
      (load_from_wLoadCap (h.thread hpc (by simp) (.wLoadMulti _ l hp) h.zero) (setFn_self _ _ _) hp)

theorem load_from_wStarting {e : Eng} (h : ZeroInv e) {t : Nat} {l : Log} (hpc : e.pc t = .wStarting l) : ∃ e', Onward e e' ∧ FirstLoaded e t l e' :=
  first_step hpc (by simp) (.wSetStarted _ l) (load_from_wLoad (h.thread hpc (by simp) (.wSetStarted _ l) h.zero) (setFn_self _ _ _))

theorem load_from_wStart {e : Eng} (h : ZeroInv e) {t : Nat} {l : Log} (hpc : e.pc t = .wStart l) (hl : e.g.setLock = none) :
    ∃ e', Onward e e' ∧ FirstLoaded e t l e' :=
  first_step hpc (by simp) (.wSetLock _ l hl) (load_from_wStarting (h.thread hpc (by simp) (.wSetLock _ l hl) h.zero) (setFn_self _ _ _))

theorem load_from_wCheck {e : Eng} (h : ZeroInv e) {t : Nat} {l : Log} (hpc : e.pc t = .wCheck l) (hs : e.g.started = false)
    (hl : e.g.setLock = none) : ∃ e', Onward e e' ∧ FirstLoaded e t l e' :=
  first_step hpc (by simp) (.wNotYet _ l hs) (load_from_wStart (h.thread hpc (by simp) (.wNotYet _ l hs) h.zero) (setFn_self _ _ _) hl)

/-- As soon as the engine is loaded every call can return. -/
theorem FirstLoaded.finish {e e' : Eng} {t : Nat} {l : Log} (h : ZeroInv e) (hf : FirstLoaded e t l e') (u : Nat) :
    ∃ e2, Onward e' e2 ∧ e2.pc u = .idle := by
  refine hf.1.finish u ?_
  rintro ⟨l', k, p, hpc, _⟩
  by_cases hut : u = t
  · subst hut
    rw [hf.2.1] at hpc
    cases hpc
  · rw [hf.2.2 u hut] at hpc
    have := h.inv.s.loc u
    rw [hpc] at this
    have hk : k < e.g.loads := this
    rw [h.zero] at hk
    exact Nat.not_lt_zero _ hk

/-- A change of a setting is at its end, and the locks are as they should be. -/
def SettledAs (e : Eng) (t : Nat) (e' : Eng) : Prop :=
  ZeroInv e' ∧ Only e e' t .idle ∧ e'.g.engLock = e.g.engLock ∧ e'.g.setLock = none ∧ e'.g.started = e.g.started

theorem settle_step {e : Eng} {t : Nat} {p p' : PC} {g' : Glob} (hpc : e.pc t = p) (hb : p ≠ .idle) (hs : TStep t e.g p g' p')
    (hl : g'.engLock = e.g.engLock) (hst : g'.started = e.g.started)
    (next : ∃ e', Onward ⟨g', setFn e.pc t p'⟩ e' ∧ SettledAs ⟨g', setFn e.pc t p'⟩ t e') : ∃ e', Onward e e' ∧ SettledAs e t e' := by
  obtain ⟨e', ho, h1, h2, h3, h4, h5⟩ := next
  exact onward_step hpc hb hs ⟨e', ho, h1, h2.prepend, h3.trans hl, h4, h5.trans hst⟩

theorem settle_cDone {e : Eng} (h : ZeroInv e) {t : Nat} (hpc : e.pc t = .cDone) : ∃ e', Onward e e' ∧ SettledAs e t e' :=
  onward_step hpc (by simp) (.cDone _) ⟨_, .refl _, h.thread hpc (by simp) (.cDone _) h.zero, ⟨setFn_self _ _ _, fun u hu => setFn_ne _ _ hu⟩,
    rfl, rfl, rfl⟩

theorem settle_cReload {e : Eng} (h : ZeroInv e) {t : Nat} (hpc : e.pc t = .cReload) (hs : e.g.started = false) :
    ∃ e', Onward e e' ∧ SettledAs e t e' :=
  settle_step hpc (by simp) (.cNotStarted _ hs) rfl rfl
    (settle_cDone (h.thread hpc (by simp) (.cNotStarted _ hs) h.zero) (setFn_self _ _ _))

theorem settle_cEngine {e : Eng} (h : ZeroInv e) {t : Nat} (hpc : e.pc t = .cEngine) (hl : e.g.engLock = none) (hs : e.g.started = false) :
    ∃ e', Onward e e' ∧ SettledAs e t e' := by
  have h1 := h.thread hpc (by simp) (.cEngineEnter _ hl) h.zero
  have h2 := h1.thread (setFn_self _ _ _) (by simp) (.cEngineLeave _) h.zero
  obtain ⟨e', ho, a, b, c, d, f⟩ := settle_cReload h2 (setFn_self _ _ _) hs
  exact onward_step hpc (by simp) (.cEngineEnter _ hl) (onward_step (setFn_self _ _ _) (by simp) (.cEngineLeave _)
    ⟨e', ho, a, b.prepend.prepend, c.trans hl.symm, d, f⟩)

/-- A holder of the lock of the settings can finish, unless it needs the lock of the engine and somebody else has it. -/
theorem settle {e : Eng} (h : ZeroInv e) {t : Nat} (hset : e.g.setLock = some t) (hs : e.g.started = false)
    (hok : e.g.engLock = none ∨ (∀ u, e.g.engLock = some u → ∃ l, e.pc u = .wCheck l ∨ e.pc u = .wStart l) ∧ ¬ Crossed e) :
    ∃ e', Onward e e' ∧ SettledAs e t e' := by
  have hh := (h.inv.s.set t).2 hset
  have hloc := h.inv.s.loc t
  have hcross : ∀ {P : Prop}, (∃ u l, e.pc u = .wCheck l ∨ e.pc u = .wStart l) →
      (e.pc t = .cEngine ∨ ∃ c : Change, e.pc t = .cLocked c ∧ c.allowed e.g = true ∧ c.changes e.g = true) → ¬ Crossed e → P :=
    fun ⟨u, l, hu⟩ ht hn => absurd ⟨u, t, l, hu, ht⟩ hn
  have holder : e.g.engLock ≠ none → ∃ u, e.g.engLock = some u := fun hne => Option.ne_none_iff_exists'.1 hne
  have hmine : (e.pc t).holdsEng = true → (∃ l, e.pc t = .wCheck l ∨ e.pc t = .wStart l) := fun hx => by
    have := (h.inv.s.eng t).1 hx
    rcases hok with hn | ⟨hw, _⟩
    · rw [hn] at this; cases this
    · exact hw t this
  cases hpc : e.pc t with
  | cLocked c =>
    cases ha : c.allowed e.g with
    | false =>
      exact onward_step hpc (by simp) (.cReject _ c ha) ⟨_, .refl _, h.thread hpc (by simp) (.cReject _ c ha) h.zero,
        ⟨setFn_self _ _ _, fun u hu => setFn_ne _ _ hu⟩, rfl, rfl, rfl⟩
    | true =>
      cases hc : c.changes e.g with
      | false =>
        exact settle_step hpc (by simp) (.cSame _ c ha hc) rfl rfl
          (settle_cDone (h.thread hpc (by simp) (.cSame _ c ha hc) h.zero) (setFn_self _ _ _))
      | true =>
        by_cases hl : e.g.engLock = none
        · have hz : (c.apply e.g).loads = 0 := by cases c <;> exact h.zero
          have hle : (c.apply e.g).engLock = e.g.engLock := by cases c <;> rfl
          have hst : (c.apply e.g).started = e.g.started := by cases c <;> rfl
          exact settle_step hpc (by simp) (.cStore _ c ha hc) hle hst
            (settle_cEngine (h.thread hpc (by simp) (.cStore _ c ha hc) hz) (setFn_self _ _ _) (hle.trans hl) (hst.trans hs))
        · obtain ⟨u, hu⟩ := holder hl
          rcases hok with hn | ⟨hw, hn⟩
          · exact absurd hn hl
          · obtain ⟨l, hl'⟩ := hw u hu
            exact hcross ⟨u, l, hl'⟩ (.inr ⟨c, hpc, ha, hc⟩) hn
  | cEngine =>
    by_cases hl : e.g.engLock = none
    · exact settle_cEngine h hpc hl hs
    · obtain ⟨u, hu⟩ := holder hl
      rcases hok with hn | ⟨hw, hn⟩
      · exact absurd hn hl
      · obtain ⟨l, hl'⟩ := hw u hu
        exact hcross ⟨u, l, hl'⟩ (.inl hpc) hn
  | cReload => exact settle_cReload h hpc hs
  | cDone => exact settle_cDone h hpc
  | cBlock => rw [hpc] at hloc; have : e.g.started = true := hloc; rw [hs] at this; cases this
  | _ =>
    rw [hpc] at hh hmine
    first
    | (cases hh; done)
    | (obtain ⟨l, hx⟩ := hmine rfl; rcases hx with hx | hx <;> cases hx)

theorem EngineSpec.Onward.trans' {a b c : Eng} (h : Onward a b) (h' : Onward b c) : Onward a c := by
  induction h with
  | refl => exact h'
  | thread t g' p' busy hs _ ih => exact .thread t g' p' busy hs (ih h')
  | pool k p p' a hk hr hp hput hstop _ ih => exact .pool k p p' a hk hr hp hput hstop (ih h')

/-- Both locks are free. -/
theorem finish_both_free {e : Eng} (h : ZeroInv e) (hl : e.g.engLock = none) (hs : e.g.setLock = none) (t : Nat) :
    ∃ e', Onward e e' ∧ e'.pc t = .idle := by
  have hns := h.normal (h.inv.s.free hl)
  have hloc := h.inv.s.loc t
  have hne : (e.pc t).holdsEng = false := by
    cases hx : (e.pc t).holdsEng with
    | false => rfl
    | true => have := (h.inv.s.eng t).1 hx; rw [hl] at this; cases this
  have hne' : (e.pc t).holdsSet = false := by
    cases hx : (e.pc t).holdsSet with
    | false => rfl
    | true => have := (h.inv.s.set t).1 hx; rw [hs] at this; cases this
  have hz := h.zero
  cases hpc : e.pc t with
  | idle => exact ⟨e, .refl e, hpc⟩
  | wFirst l =>
    have h1 := h.thread hpc (by simp) (.wLock _ l hl) h.zero
    obtain ⟨e1, o1, f1⟩ := load_from_wCheck h1 (setFn_self _ _ _) hns.1 hs
    obtain ⟨e2, o2, f2⟩ := f1.finish h1 t
    exact onward_step hpc (by simp) (.wLock _ l hl) ⟨e2, o1.trans' o2, f2⟩
  | cWait c =>
    have h1 := h.thread hpc (by simp) (.cAcquire _ c hs) h.zero
    obtain ⟨e1, o1, s1⟩ := settle h1 (t := t) rfl hns.1 (.inl hl)
    exact onward_step hpc (by simp) (.cAcquire _ c hs) ⟨e1, o1, s1.2.1.1⟩
  | wFetch l => rw [hpc] at hloc; have : 1 ≤ e.g.loads := hloc; omega
  | wHand l k => rw [hpc] at hloc; have : k < e.g.loads := hloc; omega
  | wFailed l => rw [hpc] at hloc; exact hloc.elim
  | bLock l => rw [hpc] at hloc; have : e.g.started = true := hloc; rw [hns.1] at this; cases this
  | xBlock => exact absurd (.inl hpc) (h.noExit t)
  | _ => rw [hpc] at hne hne'; first | (cases hne; done) | (cases hne'; done)

/-- The lock of the engine is free. -/
theorem finish_engine_free {e : Eng} (h : ZeroInv e) (hl : e.g.engLock = none) (t : Nat) : ∃ e', Onward e e' ∧ e'.pc t = .idle := by
  have hns := h.normal (h.inv.s.free hl)
  cases hs : e.g.setLock with
  | none => exact finish_both_free h hl hs t
  | some v =>
    obtain ⟨e1, o1, h1, _, l1, s1, _⟩ := settle h hs hns.1 (.inl hl)
    obtain ⟨e2, o2, f2⟩ := finish_both_free h1 (l1.trans hl) s1 t
    exact ⟨e2, o1.trans' o2, f2⟩

/-- Before the first engine every call can return, unless the locks are taken crosswise. -/
theorem ZeroInv.finish {e : Eng} (h : ZeroInv e) (hc : ¬ Crossed e)
    (hp : ∀ t l, (e.pc t = .wLoadCap l ∨ ∃ c, e.pc t = .wLoadSize l c) → e.g.poolSize ≠ 0) (t : Nat) :
    ∃ e', Onward e e' ∧ e'.pc t = .idle := by
  cases hl : e.g.engLock with
  | none => exact finish_engine_free h hl t
  | some u =>
    have hph := h.inv.s.held u hl
    have hh := (h.inv.s.eng u).2 hl
    have hz := h.zero
    have fin : ∀ {e : Eng} {l : Log}, ZeroInv e → (∃ e', Onward e e' ∧ FirstLoaded e u l e') → ∃ e', Onward e e' ∧ e'.pc t = .idle :=
      fun h ⟨e1, o1, f1⟩ => by
        obtain ⟨e2, o2, f2⟩ := f1.finish h t
        exact ⟨e2, o1.trans' o2, f2⟩
    -- the settings are set free first
    have starting : (∃ l, e.pc u = .wCheck l ∨ e.pc u = .wStart l) → e.g.started = false → ∃ e', Onward e e' ∧ e'.pc t = .idle := by
      intro ⟨l, hu⟩ hns
      have last : ∀ {e : Eng}, ZeroInv e → (e.pc u = .wCheck l ∨ e.pc u = .wStart l) → e.g.started = false → e.g.setLock = none →
          ∃ e', Onward e e' ∧ e'.pc t = .idle := fun h hu hns hs => by
        rcases hu with hu | hu
        · exact fin h (load_from_wCheck h hu hns hs)
        · exact fin h (load_from_wStart h hu hs)
      cases hs : e.g.setLock with
      | none => exact last h hu hns hs
      | some v =>
        have hvu : u ≠ v := by
          rintro rfl
          have := (h.inv.s.set u).2 hs
          rcases hu with hu | hu <;> rw [hu] at this <;> cases this
        obtain ⟨e1, o1, h1, on1, _, s1, st1⟩ := settle h hs hns (.inr ⟨fun w hw => by rw [hl] at hw; cases hw; exact ⟨l, hu⟩, hc⟩)
        obtain ⟨e2, o2, f2⟩ := last h1 (by rw [on1.2 u hvu]; exact hu) (st1.trans hns) s1
        exact ⟨e2, o1.trans' o2, f2⟩
    cases hpc : e.pc u with
    | wCheck l =>
      rw [hpc] at hph
      exact starting ⟨l, .inl hpc⟩ (h.normal hph).1
    | wStart l =>
      rw [hpc] at hph
      have hph : NotStarted e.g := hph
      exact starting ⟨l, .inr hpc⟩ hph.1
    | wStarting l => exact fin h (load_from_wStarting h hpc)
    | wLoad l => exact fin h (load_from_wLoad h hpc)
    | wLoadCap l => exact fin h (load_from_wLoadCap h hpc (hp u l (.inl hpc)))
    | wLoadSize l c => exact fin h (load_from_wLoadSize h hpc (hp u l (.inr ⟨c, hpc⟩)))
    | cEngineIn =>
      rw [hpc] at hph
      have hns := h.normal hph
      have h1 := h.thread hpc (by simp) (.cEngineLeave _) h.zero
      obtain ⟨e2, o2, f2⟩ := finish_engine_free h1 rfl t
      exact onward_step hpc (by simp) (.cEngineLeave _) ⟨e2, o2, f2⟩
    | wHook l => rw [hpc] at hph; have := hph.2.1; omega
    | wSwap l => rw [hpc] at hph; have := hph.2.1; omega
    | bFetch l => rw [hpc] at hph; have := hph.1.2.1; omega
    | bUnlock => rw [hpc] at hph; have := hph.1.2.1; omega
    | cSwap => rw [hpc] at hph; have := hph.1.2.1; omega
    | xSwap => rw [hpc] at hph; have := hph.1.2.1; omega
    | cRelease => rw [hpc] at hph; have := hph.1.2.1; omega
    | bHand l k => rw [hpc] at hph; have := hph.1.1.2.1; omega
    | cStop => rw [hpc] at hph; have := hph.1.2.1; omega
    | xStop => rw [hpc] at hph; have := hph.1.2.1; omega
    | cUnblock => rw [hpc] at hph; have := hph.1.2.1; omega
    | cStopping k => rw [hpc] at hph; have := hph.1.2.1; omega
    | xStopping k => rw [hpc] at hph; have := hph.1.2.1; omega
    | cLoad => rw [hpc] at hph; have := hph.1.2.1; omega
    | xEnd => rw [hpc] at hph; have := hph.1.2.1; omega
    | _ => rw [hpc] at hh; cases hh

theorem TStep.settings_same {t : Nat} {g g' : Glob} {p p' : PC} (h : TStep t g p g' p') (h1 : ∀ c, p ≠ .cLocked c) (h2 : ∀ l, p ≠ .wStarting l) :
    g'.poolSize = g.poolSize ∧ g'.maxQueue = g.maxQueue ∧ g'.started = g.started := by
  cases h with
  | cStore c | cReject c | cSame c => exact absurd rfl (h1 c)
  | wSetStarted l => exact absurd rfl (h2 l)
  | _ => exact ⟨rfl, rfl, rfl⟩

/-- As `Crossed`, with the threads. -/
def CrossedBy (e : Eng) (t u : Nat) (l : Log) : Prop :=
  ((e.pc t = .wCheck l ∧ e.g.started = false) ∨ e.pc t = .wStart l) ∧
    (e.pc u = .cEngine ∨ ∃ c : Change, e.pc u = .cLocked c ∧ c.allowed e.g = true ∧ c.changes e.g = true)

theorem CrossedBy.holds {e : Eng} {t u : Nat} {l : Log} (hI : SInv e) (h : CrossedBy e t u l) :
    e.g.engLock = some t ∧ e.g.setLock = some u := by
  refine ⟨(hI.eng t).1 ?_, (hI.set u).1 ?_⟩
  · rcases h.1 with ⟨h, _⟩ | h <;> rw [h] <;> rfl
  · rcases h.2 with h | ⟨c, h, _⟩ <;> rw [h] <;> rfl

/-- Nobody ever gets out. -/
theorem CrossedBy.step {e e' : Eng} {t u : Nat} {l : Log} (hI : SInv e) (h : CrossedBy e t u l) (hs : EStep e e') : CrossedBy e' t u l := by
  obtain ⟨heng, hset⟩ := h.holds hI
  have htu : t ≠ u := by
    rintro rfl
    rcases h with ⟨⟨h, _⟩ | h, h' | ⟨c, h', _⟩⟩ <;> rw [h] at h' <;> cases h'
  cases hs with
  | pool k p p' a => exact h
  | thread v g' p' hst =>
    by_cases hvt : v = t
    · subst hvt
      have hu : ∀ q, setFn e.pc v q u = e.pc u := fun q => setFn_ne _ _ (Ne.symm htu)
      rcases h.1 with ⟨hpc, hns⟩ | hpc
      · rw [hpc] at hst
        cases hst with
        | wAlready _ hx => rw [hns] at hx; cases hx
        | wNotYet _ _ => exact ⟨.inr (setFn_self _ _ _), by dsimp only; rw [hu]; exact h.2⟩
      · rw [hpc] at hst
        cases hst with
        | wSetLock _ hx => rw [hset] at hx; cases hx
    · by_cases hvu : v = u
      · subst hvu
        have ht : ∀ q, setFn e.pc v q t = e.pc t := fun q => setFn_ne _ _ htu
        rcases h.2 with hpc | ⟨c, hpc, ha, hc⟩
        · rw [hpc] at hst
          cases hst with
          | cEngineEnter hx => rw [heng] at hx; cases hx
        · rw [hpc] at hst
          cases hst with
          | cReject _ hx => rw [ha] at hx; cases hx
          | cSame _ _ hx => rw [hc] at hx; cases hx
          | cStore _ _ _ =>
            refine ⟨?_, .inl (setFn_self _ _ _)⟩
            dsimp only
            rw [ht]
            have : (c.apply e.g).started = e.g.started := by cases c <;> rfl
            rw [this]
            exact h.1
      · have hsame := hst.settings_same
          (fun c hc => hvu (by have := (hI.set v).1 (by rw [hc]; rfl); rw [hset] at this; cases this; rfl))
          (fun l hc => hvt (by have := (hI.eng v).1 (by rw [hc]; rfl); rw [heng] at this; cases this; rfl))
        unfold CrossedBy
        dsimp only
        rw [setFn_ne _ _ (Ne.symm hvt), setFn_ne _ _ (Ne.symm hvu), hsame.2.2]
        refine ⟨h.1, h.2.imp id fun ⟨c, hpc, ha, hc⟩ => ⟨c, hpc, ?_, ?_⟩⟩
        · cases c <;> simp only [Change.allowed, hsame.1, hsame.2.1] at ha ⊢ <;> exact ha
        · cases c <;> simp only [Change.changes, hsame.1, hsame.2.1] at hc ⊢ <;> exact hc

theorem CrossedBy.forever {e e' : Eng} {t u : Nat} {l : Log} (hI : SInv e) (h : CrossedBy e t u l) (hr : EReach e e') :
    SInv e' ∧ CrossedBy e' t u l := by
  induction hr with
  | init => exact ⟨hI, h⟩
  | step _ hs ih => exact ⟨SInv_step ih.1 hs, ih.2.step ih.1 hs⟩

theorem CrossedBy.busy {e : Eng} {t u : Nat} {l : Log} (h : CrossedBy e t u l) : e.pc t ≠ .idle ∧ e.pc u ≠ .idle := by
  constructor
  · rcases h.1 with ⟨h, _⟩ | h <;> rw [h] <;> simp
  · rcases h.2 with h | ⟨c, h, _⟩ <;> rw [h] <;> simp

theorem EngineSpec.Onward.reach {e e' : Eng} (h : Onward e e') : EReach e e' := by
  induction h with
  | refl => exact .init
  | @thread e e' t g' p' busy hs _ ih => exact (EReach.step .init (.thread e t g' p' hs)).trans ih
  | @pool e e' k p p' a hk hr hp hput hstop _ ih => exact (EReach.step .init (.pool e k p p' a hk hr hp hput hstop)).trans ih

theorem TStep.hooks_mono' {t : Nat} {g g' : Glob} {p p' : PC} (h : TStep t g p g' p') : g.hooks ≤ g'.hooks := by
  cases h with
  | cStore c => cases c <;> exact Nat.le_refl _
  | wRegister => exact Nat.le_succ _
  | _ => exact Nat.le_refl _

/-- The exit hook runs only after it was registered. -/
theorem exiting_hooks {e : Eng} (h : EReach Eng.init e) : ∀ t, Exiting e t → 0 < e.g.hooks := by
  induction h with
  | init => intro t ht; simp [Exiting, Eng.init] at ht
  | @step e e' hr hs ih =>
    intro t ht
    cases hs with
    | pool => exact ih t ht
    | thread u g' p' hst =>
      by_cases htu : t = u
      · subst htu
        have hm := hst.hooks_mono'
        unfold Exiting at ht
        dsimp only at ht ⊢
        rw [setFn_self] at ht
        have old := ih t
        unfold Exiting at old
        generalize e.pc t = p at hst old
        cases hst with
        | xCall hh => exact hh
        | xLock | xSwap | xStopSingle | xStopPool | xStopped => exact Nat.lt_of_lt_of_le (old (by simp)) hm
        | _ => simp at ht
      · unfold Exiting at ht
        dsimp only at ht
        rw [setFn_ne _ _ htu] at ht
        exact Nat.lt_of_lt_of_le (ih t ht) hst.hooks_mono'

theorem no_hooks {e : Eng} (hI : SInv e) (hz : e.g.loads = 0) : e.g.hooks = 0 := by
  have hn : Normal e.g → e.g.hooks = 0 := fun hn => by
    rcases hn with hn | hn
    · exact hn.2.2.2.2
    · have := hn.1.2.1; omega
  cases hl : e.g.engLock with
  | none => exact hn (hI.free hl)
  | some u =>
    have hph := hI.held u hl
    have hh := (hI.eng u).2 hl
    cases hpc : e.pc u with
    | wCheck l => rw [hpc] at hph; exact hn hph
    | cEngineIn => rw [hpc] at hph; exact hn hph
    | wStart l => rw [hpc] at hph; exact hph.2.2.2.2
    | wStarting l => rw [hpc] at hph; exact hph.2.2.2.2
    | wLoad l => rw [hpc] at hph; exact hph.2.2.2.2
    | wLoadCap l => rw [hpc] at hph; exact hph.2.2.2.2
    | wLoadSize l c => rw [hpc] at hph; exact hph.2.2.2.2
    | wHook l => rw [hpc] at hph; have := hph.2.1; omega
    | wSwap l => rw [hpc] at hph; have := hph.2.1; omega
    | bHand l k => rw [hpc] at hph; have := hph.1.1.2.1; omega
    | bFetch l => rw [hpc] at hph; have := hph.1.2.1; omega
    | bUnlock => rw [hpc] at hph; have := hph.1.2.1; omega
    | cSwap => rw [hpc] at hph; have := hph.1.2.1; omega
    | xSwap => rw [hpc] at hph; have := hph.1.2.1; omega
    | cRelease => rw [hpc] at hph; have := hph.1.2.1; omega
    | cStop => rw [hpc] at hph; have := hph.1.2.1; omega
    | xStop => rw [hpc] at hph; have := hph.1.2.1; omega
    | cUnblock => rw [hpc] at hph; have := hph.1.2.1; omega
    | cStopping k => rw [hpc] at hph; have := hph.1.2.1; omega
    | xStopping k => rw [hpc] at hph; have := hph.1.2.1; omega
    | cLoad => rw [hpc] at hph; have := hph.1.2.1; omega
    | xEnd => rw [hpc] at hph; have := hph.1.2.1; omega
    | _ => rw [hpc] at hh; cases hh

/-- **C18**, before the first engine exists, exactly: all threads that are inside a log call or inside `config.set` can get out, without any
new call being made, if and only if the locks are not taken crosswise by the writer of the first log and by a change of a setting. (The
size of the pool must not have been set to zero after the writer of the first log found it positive.) -/
theorem C18_before_the_first_engine_iff (e : Eng) (h : EReach Eng.init e) (hz : e.g.loads = 0)
    (hp : ∀ t l, (e.pc t = .wLoadCap l ∨ ∃ c, e.pc t = .wLoadSize l c) → e.g.poolSize ≠ 0) :
    (∀ t, ∃ e', Onward e e' ∧ e'.pc t = .idle) ↔ ¬ Crossed e := by
  have hI := EInv_reach EInv_init h
  refine ⟨fun hall ⟨t, u, l, h1, h2⟩ => ?_, fun hc t => ?_⟩
  · obtain ⟨e', ho, hi⟩ := hall t
    have hc : CrossedBy e t u l := by
      refine ⟨?_, h2⟩
      rcases h1 with h1 | h1
      · refine .inl ⟨h1, ?_⟩
        have hn := hI.s.held t ((hI.s.eng t).1 (by rw [h1]; rfl))
        rw [h1] at hn
        rcases (hn : Normal e.g) with hn | hn
        · exact hn.1
        · have := hn.1.2.1; omega
      · exact .inr h1
    exact (hc.forever hI.s ho.reach).2.busy.1 hi
  · refine ZeroInv.finish ⟨hI, hz, fun t ht => ?_⟩ hc hp t
    have h1 := exiting_hooks h t ht
    have h2 := no_hooks hI.s hz
    omega

/-- **C18**: a program that does not change the settings of the engine while it logs never blocks at its start: in every reachable state in
which no thread is inside `config.set` and no engine exists yet, every log call can return. -/
theorem C18_start_without_changes_can_return (e : Eng) (h : EReach Eng.init e) (hz : e.g.loads = 0)
    (hno : ∀ t, e.pc t ≠ .cEngine ∧ ∀ c, e.pc t ≠ .cLocked c)
    (hp : ∀ t l, (e.pc t = .wLoadCap l ∨ ∃ c, e.pc t = .wLoadSize l c) → e.g.poolSize ≠ 0) (t : Nat) :
    ∃ e', Onward e e' ∧ e'.pc t = .idle := by
  refine (C18_before_the_first_engine_iff e h hz hp).2 ?_ t
  rintro ⟨_, u, _, _, h2 | ⟨c, h2, _⟩⟩
  · exact (hno u).1 h2
  · exact (hno u).2 c h2

/-- Three threads write at once, one of them holds the lock and is about to set `started`; a change that will be rejected is in progress. -/
example : ∃ e, EReach Eng.init e ∧ e.g.loads = 0 ∧ ¬ Crossed e ∧ e.pc 0 = .wStart 5 ∧ e.pc 1 = .wFirst 6 ∧ e.pc 2 = .cLocked (.maxQueue 3) ∧
    (∀ t l, (e.pc t = .wLoadCap l ∨ ∃ c, e.pc t = .wLoadSize l c) → e.g.poolSize ≠ 0) := by
  have a1 := (EReach.init (e₀ := Eng.init)).th 0 (.callFirst _ 5 (by simp [Eng.init, Glob.init]) rfl)
  have a2 := a1.th 1 (.callFirst _ 6 (by simp [Eng.init, Glob.init]) rfl)
  have a3 := a2.th 0 (.wLock _ _ rfl)
  have a4 := a3.th 0 (.wNotYet _ _ rfl)
  have a5 := a4.th 2 (.cCall _ (.maxQueue 3))
  have a6 := a5.th 2 (.cAcquire _ _ rfl)
  have pcs : ∀ t, t ≠ 0 → t ≠ 1 → t ≠ 2 → setFn (setFn (setFn (setFn (setFn (setFn Eng.init.pc 0 (.wFirst 5)) 1 (.wFirst 6)) 0 (.wCheck 5)) 0
      (.wStart 5)) 2 (.cWait (.maxQueue 3))) 2 (.cLocked (.maxQueue 3)) t = .idle := fun t h0 h1 h2 => by simp [setFn, h0, h1, h2, Eng.init]
  refine ⟨_, a6, rfl, ?_, rfl, rfl, rfl, ?_⟩
  · rintro ⟨t, u, l, _, hu⟩
    by_cases h0 : u = 0
    · subst h0; rcases hu with hu | ⟨c, hu, _⟩ <;> exact nomatch hu
    · by_cases h1 : u = 1
      · subst h1; rcases hu with hu | ⟨c, hu, _⟩ <;> exact nomatch hu
      · by_cases h2 : u = 2
        · subst h2
          rcases hu with hu | ⟨c, hu, ha, _⟩
          · exact nomatch hu
          · cases hu; exact absurd ha (by decide)
        · have := pcs u h0 h1 h2
          rcases hu with hu | ⟨c, hu, _⟩ <;> exact nomatch hu.symm.trans this
  · intro t l ht
    exfalso
    by_cases h0 : t = 0
    · subst h0; rcases ht with ht | ⟨c, ht⟩ <;> exact nomatch ht
    · by_cases h1 : t = 1
      · subst h1; rcases ht with ht | ⟨c, ht⟩ <;> exact nomatch ht
      · by_cases h2 : t = 2
        · subst h2; rcases ht with ht | ⟨c, ht⟩ <;> exact nomatch ht
        · have := pcs t h0 h1 h2
          rcases ht with ht | ⟨c, ht⟩ <;> exact nomatch ht.symm.trans this

end Polog
