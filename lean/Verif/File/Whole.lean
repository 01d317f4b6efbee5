import Verif.File.EmptiedProps

/-! C111: files that others empty while all lines are given to the system whole. -/

namespace Polog
open FileSpec OutsideSpec EmptiedSpec

/-- Runs of the handler and of others as in `TRun`, in which Python gives lines to the system whole: `self.file.write` either only keeps
the line, or gives everything to the system (lines shorter than the buffer of the file, 8192 bytes, with `forced_flush`; longer ones may be
given in parts). writer.py:33-43, file_dependency_wrapper.py:66-71. -/
inductive WholeRun (c : FConf) (s₀ : FState) : FState → List FileEvent → Prop
  | init : WholeRun c s₀ s₀ []
  | handler {s s' : FState} {h : List FileEvent} : WholeRun c s₀ s h → FStep c s s' → s'.written = s.written → WholeRun c s₀ s' h
  | line {s s' : FState} {h : List FileEvent} {i : Nat} {l : Str} : WholeRun c s₀ s h → FStep c s s' → s.w.file = some i →
      s'.written = s.written ++ [l] → s'.w.buf = s.w.buf ++ l ∨ s'.w.buf = [] → WholeRun c s₀ s' (h ++ [.given i l])
  | outside {s : FState} {w : FileW} {h : List FileEvent} : WholeRun c s₀ s h → OStep false s.w w → WholeRun c s₀ { s with w := w } h
  | empty {s : FState} {h : List FileEvent} (p : Str) (i : Nat) : WholeRun c s₀ s h → s.w.files p = some i →
      WholeRun c s₀ { s with w := { s.w with data := putAt s.w.data i [] } }
        (h ++ [.emptied i (if s.w.file = some i then s.w.buf else [])])
  | copy {s : FState} {h : List FileEvent} (p q : Str) (i : Nat) : WholeRun c s₀ s h → s.w.files p = some i → s.w.files q = none →
      WholeRun c s₀ { s with w := { s.w with files := putAt s.w.files q (some s.w.fresh), data := putAt s.w.data s.w.fresh (s.w.data i),
                                             fresh := s.w.fresh + 1 } }
        (h ++ [.copied s.w.fresh (s.w.data i)])

theorem WholeRun.toT {c : FConf} {s₀ s : FState} {h : List FileEvent} (hr : WholeRun c s₀ s h) : TRun c s₀ s h := by
  induction hr with
  | init => exact .init
  | handler _ a b ih => exact ih.handler a b
  | line _ a b d _ ih => exact ih.line a b d
  | outside _ a ih => exact ih.outside a
  | empty p i _ a ih => exact ih.empty p i a
  | copy p q i _ a b ih => exact ih.copy p q i a b

theorem EmptiedSpec.MadeOf.nil {piece : Str → Prop} : MadeOf piece [] := ⟨[], rfl, (fun _ h => nomatch h)⟩

theorem EmptiedSpec.MadeOf.one {piece : Str → Prop} {t : Str} (h : piece t) : MadeOf piece t := ⟨[t], by simp, by simpa using h⟩

theorem EmptiedSpec.MadeOf.append {piece : Str → Prop} {a b : Str} (ha : MadeOf piece a) (hb : MadeOf piece b) : MadeOf piece (a ++ b) := by
  obtain ⟨p, rfl, hp⟩ := ha
  obtain ⟨q, rfl, hq⟩ := hb
  refine ⟨p ++ q, by simp, fun x hx => ?_⟩
  rcases List.mem_append.1 hx with hx | hx
  · exact hp x hx
  · exact hq x hx

theorem EmptiedSpec.MadeOf.mono {piece piece' : Str → Prop} {t : Str} (h : MadeOf piece t) (hi : ∀ x, piece x → piece' x) : MadeOf piece' t := by
  obtain ⟨p, rfl, hp⟩ := h
  exact ⟨p, rfl, fun x hx => hi x (hp x hx)⟩

/-- Every file and the buffer of the handler are made of these pieces. -/
def AllMadeOf (piece : Str → Prop) (w : FileW) : Prop := (∀ i, MadeOf piece (w.data i)) ∧ MadeOf piece w.buf

theorem AllMadeOf.put {piece : Str → Prop} {w : FileW} (h : AllMadeOf piece w) {i : Nat} {t b : Str} (ht : MadeOf piece t) (hb : MadeOf piece b)
    (files : Str → Option Nat) (fresh : Nat) (file : Option Nat) : AllMadeOf piece ⟨files, putAt w.data i t, fresh, file, b⟩ := by
  refine ⟨fun j => ?_, hb⟩
  simp only [putAt]
  split
  · exact ht
  · exact h.1 j

theorem AllMadeOf.reopen {piece : Str → Prop} {w : FileW} (h : AllMadeOf piece w) (fn : Str) (ok : Bool) : AllMadeOf piece (w.reopen fn ok) := by
  have hc : AllMadeOf piece w.close := by
    unfold FileW.close
    split
    · exact h
    · exact h.put ((h.1 _).append h.2) .nil _ _ _
  unfold FileW.reopen FileW.open
  split
  · split
    · exact hc
    · exact hc.put .nil hc.2 _ _ _
  · exact hc

theorem AllMadeOf.step {piece : Str → Prop} {c : FConf} {s s' : FState} (hfs : c.sameFs = true) (h : AllMadeOf piece s.w) (hs : FStep c s s')
    (hl : ∀ l, s'.written = s.written ++ [l] → piece l ∧ (s'.w.buf = s.w.buf ++ l ∨ s'.w.buf = [])) : AllMadeOf piece s'.w := by
  cases hs with
  | write t line auto w' hp hw' =>
    obtain ⟨hpl, hb⟩ := hl line rfl
    unfold FileW.write at hw'
    split at hw'
    · cases hw'
    · rename_i i hi
      cases hw'
      dsimp only at hb ⊢
      have hall := List.take_append_drop auto (s.w.buf ++ line)
      have hm : MadeOf piece (s.w.buf ++ line) := h.2.append (.one hpl)
      rcases hb with hb | hb
      · rw [hb] at hall ⊢
        have h0 : (s.w.buf ++ line).take auto = [] := by simpa using hall
        rw [h0]
        exact h.put (by simpa using h.1 i) hm _ _ _
      · rw [hb] at hall ⊢
        rw [List.append_nil] at hall
        rw [hall]
        exact h.put ((h.1 i).append hm) .nil _ _ _
  | flush t line w' hp hfo hw' =>
    unfold FileW.flush at hw'
    split at hw'
    · cases hw'
    · cases hw'
      exact h.put ((h.1 _).append h.2) .nil _ _ _
  | move t line target e hp hfree hne hc hr =>
    have hm := moved_of_sameFs s.w c.fn target e (hc hfs).1 (hc hfs).2
    generalize s.w.moveFile c.fn target e = r at hm
    cases hm with
    | not => exact h
    | done i ok hi => exact AllMadeOf.reopen (w := { s.w with files := putAt (putAt s.w.files c.fn none) target (some i) }) h c.fn ok
  | _ => exact h

theorem AllMadeOf.mono {piece piece' : Str → Prop} {w : FileW} (h : AllMadeOf piece w) (hi : ∀ x, piece x → piece' x) : AllMadeOf piece' w :=
  ⟨fun i => (h.1 i).mono hi, h.2.mono hi⟩

theorem FStep.written_grows {c : FConf} {s s' : FState} (hs : FStep c s s') : ∀ l ∈ s.written, l ∈ s'.written := by
  cases hs <;> intro l hl <;> simp_all

/-- **C111**: as long as lines are given to the system whole, nobody ever sees a torn line: whatever others copy, empty, rename, remove
and create, at every moment every file is made of whole lines that were logged and of texts that were in the files before (default
settings or not, at any point of the calls; `hnew`: files that do not exist yet are empty). -/
theorem C111_whole_lines_are_never_torn (c : FConf) (hfs : c.sameFs = true) (s₀ s : FState) (h : List FileEvent) (hstart : FStart c s₀)
    (hnew : ∀ j, s₀.w.fresh ≤ j → s₀.w.data j = []) (hrun : WholeRun c s₀ s h) (i : Nat) : MadeOf (fun x => x ∈ s.written ∨ ∃ j, x = before s₀ j) (s.w.data i) := by
  suffices hall : AllMadeOf (fun x => x ∈ s.written ∨ ∃ j, x = before s₀ j) s.w from hall.1 i
  induction hrun with
  | init => exact ⟨fun j => .one (.inr ⟨j, by
      unfold before
      split
      · rfl
      · exact hnew j (by omega)⟩), by rw [hstart.buf]; exact .nil⟩
  | handler _ hs hw ih =>
    rw [hw]
    exact ih.step hfs hs fun l hl => by rw [hw] at hl; simp at hl
  | line _ hs hf hw hb ih =>
    refine (ih.mono fun x hx => hx.imp (hs.written_grows x) id).step hfs hs fun l' hl' => ?_
    rw [hw] at hl'
    cases (List.append_cancel_left hl')
    exact ⟨.inl (by rw [hw]; simp), hb⟩
  | @outside s₁ w _ _ hs ih =>
    dsimp only
    generalize s₁.w = v at ih hs
    cases hs with
    | rename p q i _ _ _ => exact ih
    | remove p _ => exact ih
    | create p _ => exact ih.put .nil ih.2 _ _ _
  | empty p i _ _ ih => exact ih.put .nil ih.2 _ _ _
  | copy p q i _ _ _ ih => exact ih.put (ih.1 i) ih.2 _ _ _

-- a line is kept by the handler, the log is emptied, and the line comes to it whole
example : ∃ s h, WholeRun (exFConf true 1 true true) exFile s h ∧ FileEvent.emptied 0 "ab".toList ∈ h ∧ s.w.data 0 = "ab".toList ∧
    FStart (exFConf true 1 true true) exFile ∧ ∀ j, exFile.w.fresh ≤ j → exFile.w.data j = [] := by
  have r : WholeRun (exFConf true 1 true true) exFile _ _ := .init
  have r := r.handler (.call _ 0 "ab".toList (by decide) rfl) rfl
  have r := r.handler (.lock _ 0 "ab".toList (by decide +kernel) rfl) rfl
  have r := r.handler (.pass _ 0 "ab".toList (by decide +kernel) (fun n hn => by cases hn; rfl)) rfl
  have r := r.line (i := 0) (l := "ab".toList) (.write _ 0 "ab".toList 0 _ (by decide +kernel) rfl) rfl rfl (.inl rfl)
  have r := r.empty "log".toList 0 rfl
  have r := r.handler (.flush _ 0 "ab".toList _ (by decide +kernel) rfl rfl) rfl
  exact ⟨_, _, r, by simp [exFile], by decide +kernel, exFile_start .., fun _ _ => rfl⟩

end Polog
