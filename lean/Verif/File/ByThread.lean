import Verif.File.Count

/-! C36: the lines of each thread. `File/Examples.lean` has a run that meets the hypotheses. -/

namespace Polog

/-- A run together with the calls of the handler and the lines written, each with its thread, in order.
Runs of writer.py:33-43. -/
inductive FTraceT (c : FConf) (s₀ : FState) : List (Nat × Str) → List (Nat × Str) → FState → Prop
  | init : FTraceT c s₀ [] [] s₀
  /-- a thread that was idle starts a call with `line` -/
  | call {calls writes : List (Nat × Str)} {s s' : FState} {t : Nat} {line : Str} : FTraceT c s₀ calls writes s → FStep c s s' →
      s.pc t = .idle → s'.pc t = .start line → FTraceT c s₀ (calls ++ [(t, line)]) writes s'
  /-- a thread writes its line -/
  | write {calls writes : List (Nat × Str)} {s s' : FState} {t : Nat} {line : Str} : FTraceT c s₀ calls writes s → FStep c s s' →
      s.pc t = .writing line → s'.pc t = .flushing line → FTraceT c s₀ calls (writes ++ [(t, line)]) s'
  /-- no thread starts a call or writes -/
  | other {calls writes : List (Nat × Str)} {s s' : FState} : FTraceT c s₀ calls writes s → FStep c s s' →
      (∀ t, s.pc t = .idle → s'.pc t = .idle) → s'.written = s.written → FTraceT c s₀ calls writes s'

open FileSpec

theorem ofThread_append {α : Type} (t : Nat) (a b : List (Nat × α)) : ofThread t (a ++ b) = ofThread t a ++ ofThread t b := by
  simp [ofThread]

theorem ofThread_same {α : Type} (t : Nat) (x : α) : ofThread t [(t, x)] = [x] := by simp [ofThread]

theorem ofThread_other {α : Type} {t u : Nat} (h : u ≠ t) (x : α) : ofThread t [(u, x)] = [] := by simp [ofThread, h]

theorem FTraceT.toTrace {c : FConf} {s₀ s : FState} {calls writes : List (Nat × Str)} (h : FTraceT c s₀ calls writes s) :
    FTrace c s₀ (calls.map Prod.snd) s := by
  induction h with
  | init => exact .init
  | call _ hs h1 h2 ih => rw [List.map_append]; exact ih.call hs h1 h2
  | @write _ _ s s' t line _ hs h1 h2 ih =>
    refine ih.other hs fun u hu => ?_
    cases hs with
    | call t' l _ hpc =>
      have h2 : putAt s.pc t' (.start l) t = .flushing line := h2
      by_cases ht : t = t'
      · subst ht; rw [putAt_same] at h2; cases h2
      · rw [putAt_ne _ _ ht, h1] at h2; cases h2
    | lock t' l hpc _ | fire t' l n hpc _ _ | pass t' l hpc _ | move t' l target e hpc _ _ _ _ | write t' l auto w' hpc _
    | writeFails t' l hpc _ | flush t' l w' hpc _ _ | flushFails t' l hpc _ _ | noFlush t' l hpc _ =>
      have : u ≠ t' := by rintro rfl; rw [hu] at hpc; cases hpc
      change putAt s.pc t' _ u = _
      rw [putAt_ne _ _ this]
      exact hu
  | other _ hs h1 _ ih => exact ih.other hs h1

/-- Every run has such a trace. -/
theorem FTrace.byThread {c : FConf} {s₀ s : FState} {calls : List Str} (h : FTrace c s₀ calls s) :
    ∃ tc tw, FTraceT c s₀ tc tw s ∧ tc.map Prod.snd = calls := by
  induction h with
  | init => exact ⟨[], [], .init, rfl⟩
  | @call calls s s' t line _ hs h1 h2 ih =>
    obtain ⟨tc, tw, h3, h4⟩ := ih
    exact ⟨tc ++ [(t, line)], tw, h3.call hs h1 h2, by rw [List.map_append, h4]; rfl⟩
  | @other calls s s' _ hs h1 ih =>
    obtain ⟨tc, tw, h3, h4⟩ := ih
    cases hs with
    | call t' l ht hpc => exact ⟨tc, tw, h3.other (.call s t' l ht hpc) h1 rfl, h4⟩
    | lock t' l hpc a => exact ⟨tc, tw, h3.other (.lock s t' l hpc a) h1 rfl, h4⟩
    | fire t' l n hpc a b => exact ⟨tc, tw, h3.other (.fire s t' l n hpc a b) h1 rfl, h4⟩
    | pass t' l hpc a => exact ⟨tc, tw, h3.other (.pass s t' l hpc a) h1 rfl, h4⟩
    | move t' l target e hpc a b d f => exact ⟨tc, tw, h3.other (.move s t' l target e hpc a b d f) h1 rfl, h4⟩
    | write t' l auto w' hpc a =>
      exact ⟨tc, tw ++ [(t', l)], h3.write (.write s t' l auto w' hpc a) hpc (putAt_same ..), h4⟩
    | writeFails t' l hpc a => exact ⟨tc, tw, h3.other (.writeFails s t' l hpc a) h1 rfl, h4⟩
    | flush t' l w' hpc a b => exact ⟨tc, tw, h3.other (.flush s t' l w' hpc a b) h1 rfl, h4⟩
    | flushFails t' l hpc a b => exact ⟨tc, tw, h3.other (.flushFails s t' l hpc a b) h1 rfl, h4⟩
    | noFlush t' l hpc a => exact ⟨tc, tw, h3.other (.noFlush s t' l hpc a) h1 rfl, h4⟩

/-- What was written and what is being written by each thread are its calls, in their order. -/
structure FOrderT (calls writes : List (Nat × Str)) (s : FState) : Prop where
  all : writes.map Prod.snd = s.written
  order : ∀ t, (ofThread t writes ++ (s.pc t).before.toList).Sublist (ofThread t calls)
  whole : s.alt = [] → ∀ t, ofThread t writes ++ (s.pc t).before.toList = ofThread t calls

/-- A step of thread `t`. -/
theorem FOrderT.change {calls writes calls' writes' : List (Nat × Str)} {s s' : FState} (h : FOrderT calls writes s) {t : Nat} {q : FPc}
    (hp : s'.pc = putAt s.pc t q) (hall : writes'.map Prod.snd = s'.written) (ha : s.alt <+: s'.alt)
    (hc : ∀ u, u ≠ t → ofThread u calls' = ofThread u calls) (hw : ∀ u, u ≠ t → ofThread u writes' = ofThread u writes)
    (ho : (ofThread t writes ++ (s.pc t).before.toList).Sublist (ofThread t calls) →
      (ofThread t writes' ++ q.before.toList).Sublist (ofThread t calls'))
    (he : s'.alt = [] → ofThread t writes ++ (s.pc t).before.toList = ofThread t calls →
      ofThread t writes' ++ q.before.toList = ofThread t calls') : FOrderT calls' writes' s' := by
  refine ⟨hall, fun u => ?_, fun hnil u => ?_⟩
  · rw [hp]
    by_cases hu : u = t
    · subst hu; rw [putAt_same]; exact ho (h.order u)
    · rw [putAt_ne _ _ hu, hc u hu, hw u hu]; exact h.order u
  · have hs : s.alt = [] := by rw [hnil] at ha; exact List.prefix_nil.1 ha
    rw [hp]
    by_cases hu : u = t
    · subst hu; rw [putAt_same]; exact he hnil (h.whole hs u)
    · rw [putAt_ne _ _ hu, hc u hu, hw u hu]; exact h.whole hs u

/-- A step that does not begin a call and writes nothing. -/
theorem FOrderT.same {calls writes : List (Nat × Str)} {s s' : FState} (h : FOrderT calls writes s) {t : Nat} {q : FPc}
    (hp : s'.pc = putAt s.pc t q) (hw : s'.written = s.written) (ha : s'.alt = s.alt) (ho : q.before = (s.pc t).before) :
    FOrderT calls writes s' :=
  h.change hp (hw ▸ h.all) (ha ▸ List.prefix_refl _) (fun _ _ => rfl) (fun _ _ => rfl) (fun x => ho ▸ x) (fun _ x => ho ▸ x)

/-- A call that is given up. -/
theorem FOrderT.giveUp {calls writes : List (Nat × Str)} {s s' : FState} {line : Str} (h : FOrderT calls writes s) {t : Nat}
    (hp : s'.pc = putAt s.pc t .idle) (hw : s'.written = s.written) (ha : s'.alt = s.alt ++ [line]) : FOrderT calls writes s' :=
  h.change hp (hw ▸ h.all) (ha ▸ List.prefix_append _ _) (fun _ _ => rfl) (fun _ _ => rfl)
    (fun x => by
      have e : FPc.before .idle = none := rfl
      rw [e, Option.toList_none, List.append_nil]
      exact (List.sublist_append_left _ _).trans x)
    (fun x => by rw [ha] at x; simp at x)

theorem FTraceT.order {c : FConf} {s₀ s : FState} {calls writes : List (Nat × Str)} (h₀ : FStart c s₀)
    (h : FTraceT c s₀ calls writes s) : FOrderT calls writes s := by
  induction h with
  | init =>
    refine ⟨h₀.history.1.symm, fun t => ?_, fun _ t => ?_⟩ <;> rw [h₀.idle t]
    · exact List.Sublist.refl _
    · rfl
  | @call calls writes s s' t line _ hs h1 h2 ih =>
    have hsame : ∀ (t' : Nat) (q : FPc), s.pc t' ≠ .idle → s'.pc = putAt s.pc t' q → False := by
      intro t' q hne hp
      rw [hp] at h2
      by_cases ht : t = t'
      · subst ht; exact hne h1
      · rw [putAt_ne _ _ ht, h1] at h2; cases h2
    cases hs with
    | call t' l htn hpc =>
      change putAt s.pc t' (.start l) t = .start line at h2
      have ht : t = t' := by
        by_contra hne
        rw [putAt_ne _ _ hne, h1] at h2; cases h2
      subst ht
      rw [putAt_same] at h2
      cases h2
      have e : FPc.before .idle = none := rfl
      refine ih.change rfl ih.all (List.prefix_refl _)
        (fun u hu => by rw [ofThread_append, ofThread_other (Ne.symm hu), List.append_nil]) (fun _ _ => rfl) (fun x => ?_) (fun _ x => ?_)
      · rw [h1, e, Option.toList_none, List.append_nil] at x
        rw [ofThread_append, ofThread_same]
        exact x.append (List.Sublist.refl _)
      · rw [h1, e, Option.toList_none, List.append_nil] at x
        rw [ofThread_append, ofThread_same, x]
        rfl
    | lock t' l hpc _ | fire t' l n hpc _ _ | pass t' l hpc _ | move t' l target e hpc _ _ _ _ | write t' l auto w' hpc _
    | writeFails t' l hpc _ | flush t' l w' hpc _ _ | flushFails t' l hpc _ _ | noFlush t' l hpc _ =>
      exact (hsame t' _ (by rw [hpc]; simp) rfl).elim
  | @write calls writes s s' t line _ hs h1 h2 ih =>
    have hno : ∀ (t' : Nat) (q : FPc), s'.pc = putAt s.pc t' q → q ≠ .flushing line → False := by
      intro t' q hp hne
      rw [hp] at h2
      by_cases ht : t = t'
      · subst ht; rw [putAt_same] at h2; exact hne h2
      · rw [putAt_ne _ _ ht, h1] at h2; cases h2
    cases hs with
    | write t' l auto w' hpc hw =>
      change putAt s.pc t' (.flushing l) t = .flushing line at h2
      have ht : t = t' := by
        by_contra hne
        rw [putAt_ne _ _ hne, h1] at h2; cases h2
      subst ht
      rw [putAt_same] at h2
      cases h2
      have e : FPc.before (.writing line) = some line := rfl
      have e' : FPc.before (.flushing line) = none := rfl
      refine ih.change rfl (by rw [List.map_append, ih.all]; rfl) (List.prefix_refl _) (fun _ _ => rfl)
        (fun u hu => by rw [ofThread_append, ofThread_other (Ne.symm hu), List.append_nil]) (fun x => ?_) (fun _ x => ?_)
      all_goals
        rw [h1, e] at x
        rw [ofThread_append, ofThread_same, e', Option.toList_none, List.append_nil]
        exact x
    | call t' l _ hpc | lock t' l hpc _ | fire t' l n hpc _ _ | pass t' l hpc _ | move t' l target e hpc _ _ _ _
    | writeFails t' l hpc _ | flush t' l w' hpc _ _ | flushFails t' l hpc _ _ | noFlush t' l hpc _ =>
      exact (hno t' _ rfl (fun h => nomatch h)).elim
  | @other calls writes s s' _ hs h1 h2 ih =>
    cases hs with
    | call t l _ hpc =>
      have := h1 t hpc
      change putAt s.pc t (.start l) t = .idle at this
      rw [putAt_same] at this; cases this
    | write t l auto w' hpc hw =>
      change s.written ++ [l] = s.written at h2
      simp at h2
    | lock t l hpc _ | fire t l n hpc _ _ | pass t l hpc _ | move t l target e hpc _ _ _ _ | flush t l w' hpc _ _
    | noFlush t l hpc _ => exact ih.same (t := t) rfl rfl rfl (by rw [hpc]; rfl)
    | writeFails t l hpc _ | flushFails t l hpc _ _ => exact ih.giveUp (t := t) rfl rfl rfl

/-- **C36**: whatever the schedule and whatever the system refuses, each thread writes its lines in the order of its calls; and when
nothing was given to `alt` (which holds on a system that does not refuse: see above), all of them. -/
theorem C36_each_thread_writes_in_order (c : FConf) (s₀ s : FState) (calls writes : List (Nat × Str)) (h₀ : FStart c s₀)
    (hr : FTraceT c s₀ calls writes s) : writes.map Prod.snd = s.written ∧
    ∀ t, (ofThread t writes).Sublist (ofThread t calls) ∧
      (s.pc t = .idle → s.alt = [] → ofThread t writes = ofThread t calls) := by
  have h := hr.order h₀
  refine ⟨h.all, fun t => ⟨(List.sublist_append_left _ _).trans (h.order t), fun hi ha => ?_⟩⟩
  have := h.whole ha t
  have e : FPc.before .idle = none := rfl
  rwa [hi, e, Option.toList_none, List.append_nil] at this

end Polog
