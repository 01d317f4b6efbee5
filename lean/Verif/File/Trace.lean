import Verif.File.Lemmas
import Verif.File.Props

/-! C36: no line vanishes. -/

namespace Polog

/-- A run together with the lines the handler was called with, in order. Runs of writer.py:33-43. -/
inductive FTrace (c : FConf) (s₀ : FState) : List Str → FState → Prop
  | init : FTrace c s₀ [] s₀
  /-- a thread that was idle starts a call with `line` -/
  | call {calls : List Str} {s s' : FState} {t : Nat} {line : Str} : FTrace c s₀ calls s → FStep c s s' →
      s.pc t = .idle → s'.pc t = .start line → FTrace c s₀ (calls ++ [line]) s'
  /-- no thread starts a call -/
  | other {calls : List Str} {s s' : FState} : FTrace c s₀ calls s → FStep c s s' →
      (∀ t, s.pc t = .idle → s'.pc t = .idle) → FTrace c s₀ calls s'

/-- The line a thread is busy with. -/
def FPc.lineOf : FPc → Option Str
  | .idle => none
  | .start l => some l
  | .checking l => some l
  | .moving l => some l
  | .writing l => some l
  | .flushing l => some l

/-- Accounted for: written, given to `alt`, or in the hands of a thread. -/
def FState.Has (s : FState) (line : Str) : Prop :=
  line ∈ s.written ∨ line ∈ s.alt ∨ ∃ t, (s.pc t).lineOf = some line

theorem FState.has_setPc {s : FState} {line : Str} (h : s.Has line) (t : Nat) (q : FPc)
    (hq : q.lineOf = (s.pc t).lineOf ∨ (s.pc t).lineOf = none) {s' : FState} (hw : s'.written = s.written)
    (ha : s'.alt = s.alt) (hp : s'.pc = putAt s.pc t q) : s'.Has line := by
  rcases h with h | h | ⟨t', h⟩
  · exact .inl (hw ▸ h)
  · exact .inr (.inl (ha ▸ h))
  · refine .inr (.inr ⟨t', ?_⟩)
    rw [hp]
    by_cases ht : t' = t
    · subst ht
      rw [putAt_same]
      rcases hq with hq | hq
      · rw [hq, h]
      · rw [h] at hq; cases hq
    · rw [putAt_ne _ _ ht, h]

theorem FState.has_step {c : FConf} {s s' : FState} {line : Str} (h : s.Has line) (hs : FStep c s s')
    (hfl : ∀ t l, s.pc t = .flushing l → l ∈ s.written) : s'.Has line := by
  have keep : ∀ (t : Nat) (l : Str) (s'' : FState), (s.pc t).lineOf = some l → s''.pc = putAt s.pc t .idle →
      (∀ x ∈ s.written, x ∈ s''.written) → (∀ x ∈ s.alt, x ∈ s''.alt) →
      (l ∈ s''.written ∨ l ∈ s''.alt) → s''.Has line := by
    intro t l s'' hl hp hw ha hin
    rcases h with h | h | ⟨t', h⟩
    · exact .inl (hw _ h)
    · exact .inr (.inl (ha _ h))
    · by_cases ht : t' = t
      · subst ht
        rw [h] at hl; cases hl
        rcases hin with hin | hin
        · exact .inl hin
        · exact .inr (.inl hin)
      · exact .inr (.inr ⟨t', by rw [hp, putAt_ne _ _ ht, h]⟩)
  cases hs with
  | call t l _ hpc => exact FState.has_setPc h t (.start l) (.inr (by rw [hpc]; rfl)) rfl rfl rfl
  | lock t l hpc _ => exact FState.has_setPc h t (.checking l) (.inl (by rw [hpc]; rfl)) rfl rfl rfl
  | fire t l n hpc _ _ => exact FState.has_setPc h t (.moving l) (.inl (by rw [hpc]; rfl)) rfl rfl rfl
  | pass t l hpc _ => exact FState.has_setPc h t (.writing l) (.inl (by rw [hpc]; rfl)) rfl rfl rfl
  | move t l target e hpc _ _ _ _ =>
    exact FState.has_setPc h t (.writing l) (.inl (by rw [hpc]; rfl)) rfl rfl rfl
  | write t l auto w' hpc _ =>
    rcases h with h | h | ⟨t', h⟩
    · exact .inl (List.mem_append_left _ h)
    · exact .inr (.inl h)
    · by_cases ht : t' = t
      · subst ht
        rw [hpc] at h; cases h
        exact .inl (by simp)
      · refine .inr (.inr ⟨t', ?_⟩)
        change (putAt s.pc t (.flushing l) t').lineOf = _
        rw [putAt_ne _ _ ht, h]
  | writeFails t l hpc _ =>
    exact keep t l _ (by rw [hpc]; rfl) rfl (fun _ hx => hx) (fun _ hx => List.mem_append_left _ hx)
      (.inr (by simp))
  | flush t l w' hpc _ _ =>
    exact keep t l _ (by rw [hpc]; rfl) rfl (fun _ hx => hx) (fun _ hx => hx) (.inl (hfl t l hpc))
  | flushFails t l hpc _ _ =>
    exact keep t l _ (by rw [hpc]; rfl) rfl (fun _ hx => hx) (fun _ hx => List.mem_append_left _ hx)
      (.inr (by simp))
  | noFlush t l hpc _ =>
    exact keep t l _ (by rw [hpc]; rfl) rfl (fun _ hx => hx) (fun _ hx => hx) (.inl (hfl t l hpc))

theorem flushing_written {c : FConf} {s s' : FState} (hs : FStep c s s')
    (h : ∀ t l, s.pc t = .flushing l → l ∈ s.written) : ∀ t l, s'.pc t = .flushing l → l ∈ s'.written := by
  intro t' l' h'
  have go : ∀ (t : Nat) (q : FPc), (∀ x, q ≠ .flushing x) → putAt s.pc t q t' = .flushing l' →
      l' ∈ s.written := by
    intro t q hq hx
    by_cases ht : t' = t
    · subst ht; rw [putAt_same] at hx; exact absurd hx (hq _)
    · rw [putAt_ne _ _ ht] at hx; exact h _ _ hx
  cases hs with
  | call t l _ hpc => exact go t _ (by simp) h'
  | lock t l hpc _ => exact go t _ (by simp) h'
  | fire t l n hpc _ _ => exact go t _ (by simp) h'
  | pass t l hpc _ => exact go t _ (by simp) h'
  | move t l target e hpc _ _ _ _ => exact go t _ (by simp) h'
  | write t l auto w' hpc _ =>
    by_cases ht : t' = t
    · subst ht
      change putAt s.pc t' (.flushing l) t' = _ at h'
      rw [putAt_same] at h'; cases h'
      exact List.mem_append_right _ (by simp)
    · change putAt s.pc t (.flushing l) t' = _ at h'
      rw [putAt_ne _ _ ht] at h'
      exact List.mem_append_left _ (h _ _ h')
  | writeFails t l hpc _ => exact go t _ (by simp) h'
  | flush t l w' hpc _ _ => exact go t _ (by simp) h'
  | flushFails t l hpc _ _ => exact go t _ (by simp) h'
  | noFlush t l hpc _ => exact go t _ (by simp) h'

theorem FTrace.inv {c : FConf} {s₀ s : FState} {calls : List Str} (h₀ : FStart c s₀)
    (hr : FTrace c s₀ calls s) :
    (∀ line ∈ calls, s.Has line) ∧ ∀ t l, s.pc t = .flushing l → l ∈ s.written := by
  induction hr with
  | init => exact ⟨by simp, fun t l h => by rw [h₀.idle] at h; cases h⟩
  | call _ hs _ hst ih =>
    refine ⟨fun line hm => ?_, flushing_written hs ih.2⟩
    rcases List.mem_append.1 hm with hm | hm
    · exact FState.has_step (ih.1 line hm) hs ih.2
    · rw [List.mem_singleton] at hm; subst hm
      exact .inr (.inr ⟨_, by rw [hst]; rfl⟩)
  | other _ hs _ ih =>
    exact ⟨fun line hm => FState.has_step (ih.1 line hm) hs ih.2, flushing_written hs ih.2⟩

/-- **C36, no line vanishes.** In every schedule, whatever fails: when no call is in progress, every line
the handler was called with has been written to its file or was given to `alt`. -/
theorem C36_every_line_written_or_given_to_alt (c : FConf) (s₀ s : FState) (calls : List Str)
    (h₀ : FStart c s₀) (hr : FTrace c s₀ calls s) (hidle : ∀ t, s.pc t = .idle) :
    ∀ line ∈ calls, line ∈ s.written ∨ line ∈ s.alt := by
  intro line hm
  rcases (hr.inv h₀).1 line hm with h | h | ⟨t, h⟩
  · exact .inl h
  · exact .inr h
  · rw [hidle] at h; cases h

/-- A file system with the log `f` open and empty. After writer.py:24-31. -/
def fTraceStart : FState :=
  ⟨⟨fun n => if n = ['f'] then some 0 else none, fun _ => [], 1, some 0, []⟩, fun _ => .idle, none, [], [], []⟩

theorem fTraceStart_ok : FStart ⟨['f'], fun _ => false, false, 1, true, true⟩ fTraceStart where
  opened := ⟨0, rfl, rfl⟩
  distinct := by
    intro p q i hp hq
    simp only [fTraceStart] at hp hq
    split at hp
    · split at hq
      · subst_vars; rfl
      · cases hq
    · cases hp
  below := by
    intro p i hp
    simp only [fTraceStart] at hp ⊢
    split at hp
    · cases hp; omega
    · cases hp
  buf := rfl
  idle := fun _ => rfl
  unlocked := rfl
  history := ⟨rfl, rfl, rfl⟩

example : -- a whole call meets the hypotheses
    ∃ c s₀ s, FStart c s₀ ∧ FTrace c s₀ [['a']] s ∧ (∀ t, s.pc t = .idle) := by
  let c : FConf := ⟨['f'], fun _ => false, false, 1, true, true⟩
  have r : FTrace c fTraceStart [] fTraceStart := .init
  have r := r.call (t := 0) (line := ['a']) (.call _ 0 ['a'] (by decide) rfl) rfl rfl
  have r := r.other (.lock _ 0 ['a'] rfl rfl) (by
    intro t h
    by_cases ht : t = 0
    · subst ht; cases h
    · change putAt _ 0 _ t = _; rw [putAt_ne _ _ ht]; exact h)
  have r := r.other (.pass _ 0 ['a'] rfl (fun _ _ => rfl)) (by
    intro t h
    by_cases ht : t = 0
    · subst ht; cases h
    · change putAt _ 0 _ t = _; rw [putAt_ne _ _ ht]; exact h)
  have r := r.other (.write _ 0 ['a'] 0 _ rfl rfl) (by
    intro t h
    by_cases ht : t = 0
    · subst ht; cases h
    · change putAt _ 0 _ t = _; rw [putAt_ne _ _ ht]; exact h)
  have r := r.other (.noFlush _ 0 ['a'] rfl rfl) (by
    intro t h
    by_cases ht : t = 0
    · subst ht; rfl
    · change putAt _ 0 _ t = _; rw [putAt_ne _ _ ht]; exact h)
  refine ⟨c, fTraceStart, _, fTraceStart_ok, r, fun t => ?_⟩
  by_cases ht : t = 0
  · subst ht; rfl
  · change putAt _ 0 _ t = _
    rw [putAt_ne _ _ ht]
    change putAt _ 0 _ t = _
    rw [putAt_ne _ _ ht]
    change putAt _ 0 _ t = _
    rw [putAt_ne _ _ ht]
    change putAt _ 0 _ t = _
    rw [putAt_ne _ _ ht]
    change putAt _ 0 _ t = _
    rw [putAt_ne _ _ ht]
    rfl

end Polog
