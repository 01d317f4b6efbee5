import Verif.File.OutsideSpec
import Verif.File.Props

namespace Polog
open FileSpec OutsideSpec

theorem linesOf_append (i : Nat) (a b : List (Nat × Str)) : linesOf i (a ++ b) = linesOf i a ++ linesOf i b := by
  induction a with
  | nil => rfl
  | cons x a ih =>
    obtain ⟨j, l⟩ := x
    simp only [List.cons_append, linesOf, ih]
    split <;> simp

theorem linesOf_above {n : Nat} {a : List (Nat × Str)} (h : ∀ x ∈ a, x.1 < n) : linesOf n a = [] := by
  induction a with
  | nil => rfl
  | cons x a ih =>
    obtain ⟨j, l⟩ := x
    have := h (j, l) (by simp)
    simp only [linesOf]
    rw [if_neg (by simp at this; omega)]
    exact ih fun y hy => h y (by simp [hy])

/-- Closing and opening: nothing that is in a file or pendingFor for it changes. -/
theorem reopen_holds (w : FileW) (fn : Str) (ok : Bool) (hf : ∀ i, w.file = some i → i < w.fresh)
    (hn : ∀ p i, w.files p = some i → i < w.fresh) :
    (w.reopen fn ok).fresh ≥ w.fresh ∧ (∀ i, (w.reopen fn ok).file = some i → i < (w.reopen fn ok).fresh) ∧
    (∀ p i, (w.reopen fn ok).files p = some i → i < (w.reopen fn ok).fresh) ∧ 
    (w.file = none → w.buf = [] → (w.reopen fn ok).buf = []) ∧
    ((∃ i, w.file = some i) → (w.reopen fn ok).buf = []) ∧
    (∀ i, i < w.fresh → (w.file = none → w.buf = []) →
      (w.reopen fn ok).data i ++ pendingFor (w.reopen fn ok) i = w.data i ++ pendingFor w i) ∧
    (∀ i, w.fresh ≤ i → i < (w.reopen fn ok).fresh → (w.file = none → w.buf = []) →
      (w.reopen fn ok).data i ++ pendingFor (w.reopen fn ok) i = []) ∧
    (∀ p, p ≠ fn → (w.reopen fn ok).files p = w.files p) ∧
    (∀ i, w.files fn = some i → (w.reopen fn ok).files fn = some i) ∧
    (∀ i, (w.reopen fn ok).file = some i → (w.reopen fn ok).files fn = some i) := by
  obtain ⟨files, data, fresh, file, buf⟩ := w
  cases file with
  | none =>
    simp only [FileW.reopen, FileW.close, FileW.open]
    cases ok <;> simp only [Bool.false_eq_true, if_false, if_true]
    · simp_all [pendingFor]; exact ⟨hn, by omega⟩
    · cases h : files fn with
      | some j => simp_all [pendingFor]; grind [putAt]
      | none => simp_all [pendingFor]; grind [putAt]
  | some k =>
    simp only [FileW.reopen, FileW.close, FileW.open]
    cases ok <;> simp only [Bool.false_eq_true, if_false, if_true]
    · simp_all [pendingFor]; grind [putAt]
    · cases h : files fn with
      | some j => simp_all [pendingFor]; grind [putAt]
      | none => simp_all [pendingFor]; grind [putAt]

/-- Files, contents and the open file after `move_file` on one file system. -/
inductive Moved (w : FileW) (fn target : Str) : FileW × Bool → Prop
  | not : Moved w fn target (w, false)
  | done (i : Nat) (ok : Bool) : w.files fn = some i →
      Moved w fn target
        (({ w with files := putAt (putAt w.files fn none) target (some i) } : FileW).reopen fn ok, true)

theorem moved_of_sameFs (w : FileW) (fn target : Str) (e : MoveEnv) (h1 : e.first.copies = false)
    (h2 : e.second.copies = false) : Moved w fn target (w.moveFile fn target e) := by
  obtain ⟨r1, r2, mk, ok⟩ := e
  cases h : w.files fn with
  | none => cases mk <;> simp only [FileW.moveFile, FileW.moveOnce, h] <;> exact .not
  | some i =>
    have hd := Moved.done (w := w) (fn := fn) (target := target) i ok h
    cases r1 <;> simp only [MoveRes.copies, Bool.true_eq_false] at h1 <;>
      simp only [FileW.moveFile, FileW.moveOnce, h]
    · exact hd
    · cases mk
      · exact .not
      · cases r2 <;> simp only [MoveRes.copies, Bool.true_eq_false] at h2
        · exact hd
        · exact .not
        · exact .not
    · exact .not

/-- The state of the handler and of the files, relative to the beginning of the run. -/
structure OInv (s₀ s : FState) (into : List (Nat × Str)) : Prop where
  old : s₀.w.fresh ≤ s.w.fresh
  openBelow : ∀ i, s.w.file = some i → i < s.w.fresh
  named : ∀ p i, s.w.files p = some i → i < s.w.fresh
  intoBelow : ∀ x ∈ into, x.1 < s.w.fresh
  closed : s.w.file = none → s.w.buf = []
  holds : ∀ i, i < s.w.fresh → s.w.data i ++ pendingFor s.w i = before s₀ i ++ linesOf i into

theorem OInv.start {c : FConf} {s : FState} (h : FStart c s) : OInv s s [] := by
  obtain ⟨i, h1, h2⟩ := h.opened
  refine ⟨Nat.le_refl _, ?_, h.below, by simp, fun _ => h.buf, ?_⟩
  · intro j hj
    rw [h2] at hj
    cases hj
    exact h.below _ _ h1
  · intro j hj
    simp [before, hj, pendingFor, h.buf, linesOf]

theorem OInv.outside {harmless : Bool} {s₀ s : FState} {into : List (Nat × Str)} {w : FileW}
    (h : OInv s₀ s into) (hs : OStep harmless s.w w) : OInv s₀ { s with w := w } into := by
  obtain ⟨h1, h2, h3, h4, h5, h6⟩ := h
  generalize hw : s.w = v at *
  cases hs with
  | rename p q i hp hne hq =>
    refine ⟨h1, h2, ?_, h4, h5, h6⟩
    intro p' j hj
    simp only [putAt] at hj
    grind
  | remove p hh =>
    refine ⟨h1, h2, ?_, h4, h5, h6⟩
    intro p' j hj
    simp only [putAt] at hj
    grind
  | create p hp =>
    refine ⟨by simp only; omega, ?_, ?_, ?_, h5, ?_⟩
    · intro i hi; have := h2 i hi; simp only; omega
    · intro p' j hj
      simp only [putAt] at hj ⊢
      grind
    · intro x hx; have := h4 x hx; simp only; omega
    · intro i hi
      simp only at hi ⊢
      by_cases hc : i = v.fresh
      · subst hc
        have hk : v.file ≠ some v.fresh := fun hh => absurd (h2 _ hh) (Nat.lt_irrefl _)
        rw [linesOf_above h4]
        have hb : before s₀ v.fresh = [] := if_neg (by omega)
        rw [hb]
        simp [pendingFor, hk, putAt]
      · have := h6 i (by omega)
        rw [putAt_ne _ _ hc]
        exact this

theorem OInv.move {s₀ s : FState} {into : List (Nat × Str)} {fn target : Str} {r : FileW × Bool}
    (h : OInv s₀ s into) (hm : Moved s.w fn target r) (pc : Nat → FPc) (lk : Option Nat) (rot : List Str) :
    OInv s₀ { s with w := r.1, pc := pc, rotLock := lk, rotated := rot } into := by
  cases hm with
  | not => exact ⟨h.old, h.openBelow, h.named, h.intoBelow, h.closed, h.holds⟩
  | done i ok hi =>
    obtain ⟨h1, h2, h3, h4, h5, h6⟩ := h
    generalize hw : s.w = v at *
    have hn : ∀ p j, putAt (putAt v.files fn none) target (some i) p = some j → j < v.fresh := by
      intro p j hj
      simp only [putAt] at hj
      grind
    have hr := reopen_holds ({ v with files := putAt (putAt v.files fn none) target (some i) } : FileW) fn ok h2 hn
    generalize ({ v with files := putAt (putAt v.files fn none) target (some i) } : FileW).reopen fn ok = w' at hr
    obtain ⟨r1, r2, r3, r4, r5, r6, r7, -, -, -⟩ := hr
    simp only at r1 r6 r7
    refine ⟨by simp only; omega, r2, r3, ?_, ?_, ?_⟩
    · intro x hx; have := h4 x hx; simp only; omega
    · intro _
      cases hf : v.file with
      | none => exact r4 hf (h5 hf)
      | some k => exact r5 ⟨k, hf⟩
    · intro j hj
      by_cases hc : j < v.fresh
      · exact (r6 j hc h5).trans (h6 j hc)
      · simp only at hj
        have := r7 j (by omega) hj h5
        simp only
        rw [this]
        rw [show linesOf j into = [] from linesOf_above fun x hx => by have := h4 x hx; omega]
        simp only [before]
        rw [if_neg (by omega)]
        rfl

theorem OInv.handler {c : FConf} {s₀ s s' : FState} {into : List (Nat × Str)} (hfs : c.sameFs = true)
    (h : OInv s₀ s into) (hs : FStep c s s') (hw : s'.written = s.written) : OInv s₀ s' into := by
  have same : ∀ (pc : Nat → FPc) (lk : Option Nat) (alt : List Str),
      OInv s₀ { s with pc := pc, rotLock := lk, alt := alt } into :=
    fun _ _ _ => ⟨h.old, h.openBelow, h.named, h.intoBelow, h.closed, h.holds⟩
  cases hs with
  | call t line ht hp => exact same _ _ _
  | lock t line hp hl => exact same _ _ _
  | fire t line n hp hn hf => exact same _ _ _
  | pass t line hp hn => exact same _ _ _
  | move t line target e hp hfree hne hc hr =>
    exact h.move (moved_of_sameFs _ _ _ _ (hc hfs).1 (hc hfs).2) _ _ _
  | write t line auto w' hp hw' => simp at hw
  | writeFails t line hp hf => exact same _ _ _
  | flush t line w' hp hfo hw' =>
    obtain ⟨h1, h2, h3, h4, h5, h6⟩ := h
    generalize hv : s.w = v at *
    unfold FileW.flush at hw'
    cases hf : v.file with
    | none => simp [hf] at hw'
    | some k =>
      simp only [hf, Option.some.injEq] at hw'
      subst hw'
      refine ⟨h1, fun i hi => h2 i (hf.trans hi), h3, h4, fun _ => rfl, ?_⟩
      intro i hi
      have := h6 i hi
      rw [← this]
      simp only [pendingFor, hf, putAt]
      grind
  | flushFails t line hp hfo hf => exact same _ _ _
  | noFlush t line hp hfo => exact same _ _ _

theorem OInv.line {c : FConf} {s₀ s s' : FState} {into : List (Nat × Str)} {i : Nat} {l : Str}
    (h : OInv s₀ s into) (hs : FStep c s s') (hf : s.w.file = some i) (hw : s'.written = s.written ++ [l]) :
    OInv s₀ s' (into ++ [(i, l)]) := by
  cases hs with
  | write t line auto w' hp hw' =>
    simp only [List.append_cancel_left_eq, List.cons.injEq, and_true] at hw
    subst hw
    obtain ⟨h1, h2, h3, h4, h5, h6⟩ := h
    generalize hv : s.w = v at *
    simp only [FileW.write, hf, Option.some.injEq] at hw'
    subst hw'
    refine ⟨h1, fun i hi => h2 i (hf.trans hi), h3, ?_, ?_, ?_⟩
    · intro x hx
      rcases List.mem_append.1 hx with hx | hx
      · exact h4 x hx
      · simp only [List.mem_singleton] at hx
        subst hx
        exact h2 i hf
    · intro hn; simp [hf] at hn
    · intro j hj
      have := h6 j hj
      rw [linesOf_append, ← List.append_assoc, ← this]
      simp only [pendingFor, hf, putAt, linesOf]
      by_cases hij : j = i
      · subst hij
        simp only [if_true, List.append_assoc, List.append_nil, List.append_cancel_left_eq]
        exact List.take_append_drop _ _
      · have hij' : ¬ i = j := fun h => hij h.symm
        simp [hij, hij']
  | call t line ht hp => simp at hw
  | lock t line hp hl => simp at hw
  | fire t line n hp hn hf => simp at hw
  | pass t line hp hn => simp at hw
  | move t line target e hp hfree hne hc hr => simp at hw
  | writeFails t line hp hf => simp at hw
  | flush t line w' hp hfo hw' => simp at hw
  | flushFails t line hp hfo hf => simp at hw
  | noFlush t line hp hfo => simp at hw

theorem ORun.inv {c : FConf} {harmless : Bool} {s₀ s : FState} {into : List (Nat × Str)} (hfs : c.sameFs = true)
    (hstart : FStart c s₀) (hrun : ORun c harmless s₀ s into) : OInv s₀ s into := by
  induction hrun with
  | init => exact .start hstart
  | handler _ hs hw ih => exact ih.handler hfs hs hw
  | line _ hs hf hw ih => exact ih.line hs hf hw
  | outside _ hs ih => exact ih.outside hs

end Polog
