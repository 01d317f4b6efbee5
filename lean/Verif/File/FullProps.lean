import Verif.File.FullSpec

/-! C99: the file handler on a full disk. -/

namespace Polog
open FullSpec

theorem FullSpec.Beginnings.nil : Beginnings [] [] := ⟨[], .nil, rfl⟩

theorem FullSpec.Beginnings.snoc {l : List Str} {x line p : Str} (h : Beginnings l x) (hp : p <+: line) :
    Beginnings (l ++ [line]) (x ++ p) := by
  obtain ⟨ps, h1, rfl⟩ := h
  exact ⟨ps ++ [p], List.rel_append h1 (.cons hp .nil), by simp⟩

theorem FullSpec.Beginnings.take : ∀ {l : List Str} {x : Str} (n : Nat), Beginnings l x → Beginnings l (x.take n)
  | [], _, n, ⟨_, .nil, h⟩ => ⟨[], .nil, by subst h; simp⟩
  | a :: l, x, n, ⟨_, .cons (b := p) (l₂ := ps) hp hps, h⟩ => by
    subst h
    obtain ⟨qs, h1, h2⟩ := Beginnings.take (n - p.length) ⟨ps, hps, rfl⟩
    exact ⟨p.take n :: qs, .cons ((List.take_prefix _ _).trans hp) h1, by
      simp only [List.flatten_cons, h2, List.take_append]⟩

theorem FullSpec.Beginnings.prefix {l : List Str} {x y : Str} (h : Beginnings l x) (hy : y <+: x) : Beginnings l y := by
  rw [List.prefix_iff_eq_take.1 hy]
  exact h.take _

theorem FullSpec.Whole.nil : Whole [] [] := ⟨[], .nil, rfl⟩

theorem FullSpec.Whole.snoc_done {l : List (Str × Bool)} {x line : Str} (h : Whole l x) : Whole (l ++ [(line, true)]) (x ++ line) := by
  obtain ⟨ps, h1, rfl⟩ := h
  exact ⟨ps ++ [line], List.rel_append h1 (.cons ⟨List.prefix_rfl, fun _ => rfl⟩ .nil), by simp⟩

theorem FullSpec.Whole.snoc_failed {l : List (Str × Bool)} {x line p : Str} (h : Whole l x) (hp : p <+: line) :
    Whole (l ++ [(line, false)]) (x ++ p) := by
  obtain ⟨ps, h1, rfl⟩ := h
  exact ⟨ps ++ [p], List.rel_append h1 (.cons ⟨hp, by simp⟩ .nil), by simp⟩

/-- All of the handler's text, with what waits in the buffers. -/
def DkState.total (s : DkState) : Str := stored s ++ (s.buf ++ s.pend)

theorem init_idle (t : Nat) : DkState.init.pc t = .idle := rfl

/-- Every step keeps the text, or appends the line; and it may cut off something that is not stored. -/
theorem DkStep.total {c : DkConf} {s s' : DkState} (h : DkStep c s s') :
    (stored s <+: stored s') ∧ ∃ new lost, s'.given = s.given ++ new ∧ s.total ++ new.flatten = s'.total ++ lost := by
  cases h with
  | call | skip | writeClosed | flushClosed => exact ⟨List.prefix_rfl, [], [], by simp, by simp [DkState.total, stored]⟩
  | rotate => exact ⟨⟨s.buf ++ s.pend, by simp [stored]⟩, [], [], by simp, by simp [DkState.total, stored]⟩
  | rotateRefused t line k =>
    exact ⟨⟨(s.buf ++ s.pend).take k, by simp [stored]⟩, [], (s.buf ++ s.pend).drop k, by simp, by
      simp [DkState.total, stored]⟩
  | writeKeep t line => exact ⟨List.prefix_rfl, [line], [], by simp, by simp [DkState.total, stored]⟩
  | writePush t line a =>
    refine ⟨⟨(s.buf ++ s.pend).take a, by simp [stored]⟩, [line], [], by simp, ?_⟩
    generalize hb : s.buf ++ s.pend = b
    simp only [DkState.total, stored, hb, List.append_assoc, List.flatten_cons, List.flatten_nil, List.append_nil]
    rw [← List.append_assoc (List.take a b), List.take_append_drop]
  | writeThrough t line a =>
    refine ⟨⟨(s.buf ++ (s.pend ++ line)).take a, by simp [stored]⟩, [line], [], by simp, ?_⟩
    have e : s.total ++ line = stored s ++ (s.buf ++ (s.pend ++ line)) := by simp [DkState.total]
    generalize hb : s.buf ++ (s.pend ++ line) = b at *
    simp [DkState.total, stored] at e ⊢
    exact e
  | writeRefused t line k =>
    exact ⟨⟨s.buf.take k, by simp [stored]⟩, [line], s.pend ++ line, by simp, by simp [DkState.total, stored]⟩
  | writeTorn t line k =>
    refine ⟨⟨s.buf ++ (s.pend ++ line).take k, by simp [stored]⟩, [line], (s.pend ++ line).drop k, by simp, ?_⟩
    have e : s.total ++ line = stored s ++ (s.buf ++ (s.pend ++ line)) := by simp [DkState.total]
    generalize hb : s.pend ++ line = b at *
    simp [DkState.total, stored] at e ⊢
    exact e
  | flush => exact ⟨⟨s.buf ++ s.pend, by simp [stored]⟩, [], [], by simp, by simp [DkState.total, stored]⟩
  | flushHeld t line k =>
    refine ⟨⟨(s.buf ++ s.pend).take k, by simp [stored]⟩, [], [], by simp, ?_⟩
    generalize hb : s.buf ++ s.pend = b
    simp [DkState.total, stored, hb]
  | flushRefused t line k =>
    exact ⟨⟨s.buf.take k, by simp [stored]⟩, [], s.pend, by simp, by simp [DkState.total, stored]⟩
  | flushTorn t line k =>
    exact ⟨⟨s.buf ++ s.pend.take k, by simp [stored]⟩, [], s.pend.drop k, by simp, by simp [DkState.total, stored]⟩

theorem FullSpec.Beginnings.append {l : List Str} {x : Str} (h : Beginnings l x) : ∀ new : List Str,
    Beginnings (l ++ new) (x ++ new.flatten) := by
    intro new
    obtain ⟨ps, h1, rfl⟩ := h
    refine ⟨ps ++ new, List.rel_append h1 ?_, by simp⟩
    exact List.forall₂_same.2 fun _ _ => List.prefix_rfl

theorem Dk_beginnings {c : DkConf} {s : DkState} (h : DkReach c .init s) : Beginnings s.given s.total := by
  induction h with
  | init => exact Beginnings.nil
  | step _ hs ih =>
    obtain ⟨_, new, lost, h1, h2⟩ := hs.total
    rw [h1]
    exact (ih.append new).prefix ⟨lost, h2.symm⟩

/-- **C99**: whatever the system refuses and when, for any number of threads: what is stored in the rotated files and the
log are beginnings of the lines that were given to the file, one piece at most for each line, in the order in which they
were given.  Nothing is written twice, reordered or mixed. -/
theorem C99_nothing_is_doubled_or_reordered (c : DkConf) (s : DkState) (h : DkReach c .init s) :
    Beginnings s.given (stored s) :=
  (Dk_beginnings h).prefix ⟨s.buf ++ s.pend, rfl⟩

/-- What is known between the steps when calls do not overlap. -/
structure SerInv (s : DkState) : Prop where
  one : ∀ t u, s.pc t ≠ .idle → s.pc u ≠ .idle → t = u
  rest : (∀ t line, s.pc t ≠ .flushing line) → ∀ y, stored s <+: y → y <+: s.total → Whole s.calls y
  mid : ∀ t line, s.opened = true → s.pc t = .flushing line → ∃ x, s.total = x ++ line ∧ Whole s.calls x ∧
    ∀ y, stored s <+: y → y <+: x → Whole s.calls y
  shut : s.opened = false → s.buf = [] ∧ s.pend = [] ∧ ∀ t line, s.pc t ≠ .flushing line

theorem Whole_cut {calls : List (Str × Bool)} {st x line y : Str} (hx : Whole calls x)
    (hall : ∀ y, st <+: y → y <+: x → Whole calls y) (h1 : st <+: y) (h2 : y <+: x ++ line) :
    Whole (calls ++ [(line, false)]) y := by
  rcases Nat.le_total y.length x.length with h | h
  · have hyx : y <+: x := List.prefix_of_prefix_length_le h2 (List.prefix_append _ _) h
    simpa using (hall y h1 hyx).snoc_failed (p := []) (line := line) List.nil_prefix
  · have hxy : x <+: y := List.prefix_of_prefix_length_le (List.prefix_append _ _) h2 h
    obtain ⟨p, rfl⟩ := hxy
    exact hx.snoc_failed ((List.prefix_append_right_inj _).1 h2)

theorem SerInv_init : SerInv .init := by
  refine ⟨fun t u h => absurd rfl h, fun _ y _ hy => ?_, fun t line _ h => ?_, fun h => ?_⟩
  · have : y = [] := by simpa [DkState.total, stored, DkState.init] using hy
    rw [this]; exact Whole.nil
  · cases h
  · cases h

theorem SerInv_step {c : DkConf} (hser : c.serial = true) {s s' : DkState} (hi : SerInv s) (hs : DkStep c s s') :
    SerInv s' := by
  obtain ⟨i1, i2, i3, i4⟩ := hi
  obtain ⟨hst, new, lost, hg, ht⟩ := hs.total
  have nof : ∀ t, s.pc t ≠ .idle → (∀ line, s.pc t ≠ .flushing line) → ∀ u line, s.pc u ≠ .flushing line := by
    intro t h1 h2 u line hu
    have := i1 t u h1 (by rw [hu]; simp)
    subst this
    exact h2 line hu
  have alone : ∀ t x, s.pc t ≠ .idle → ∀ u v, putAt s.pc t x u ≠ .idle → putAt s.pc t x v ≠ .idle → u = v := by
    intro t x h1 u v
    have h2 := i1 u v
    have h3 := i1 t u h1
    have h4 := i1 t v h1
    unfold putAt
    split <;> split <;> grind
  have quiet : ∀ t, s.pc t ≠ .idle → ∀ u line, putAt s.pc t .idle u ≠ .flushing line := by
    intro t h1 u line
    have h3 := i1 t u h1
    unfold putAt
    split
    · simp
    · intro hu; exact absurd (h3 (by rw [hu]; simp)) (by grind)
  have quiet2 : ∀ t l, s.pc t ≠ .idle → ∀ u line, putAt s.pc t (.writing l) u ≠ .flushing line := by
    intro t l h1 u line
    have h3 := i1 t u h1
    unfold putAt
    split
    · simp
    · intro hu; exact absurd (h3 (by rw [hu]; simp)) (by grind)
  have only : ∀ t l, s.pc t ≠ .idle → ∀ u line, putAt s.pc t (.flushing l) u = .flushing line → line = l := by
    intro t l h1 u line
    have h3 := i1 t u h1
    unfold putAt
    split
    · simp; exact Eq.symm
    · intro hu; exact absurd (h3 (by rw [hu]; simp)) (by grind)
  have failed : ∀ t line, s.pc t = .writing line → ∀ y, stored s <+: y → y <+: s.total ++ line →
      Whole (s.calls ++ [(line, false)]) y := by
    intro t line hp y h1 h2
    have hn := nof t (by rw [hp]; simp) (by rw [hp]; simp)
    exact Whole_cut (i2 hn _ ⟨s.buf ++ s.pend, rfl⟩ List.prefix_rfl) (i2 hn) h1 h2
  have failed2 : ∀ t line, s.opened = true → s.pc t = .flushing line → ∀ y, stored s <+: y → y <+: s.total →
      Whole (s.calls ++ [(line, false)]) y := by
    intro t line ho hp y h1 h2
    obtain ⟨x, hx, hw, hall⟩ := i3 t line ho hp
    rw [hx] at h2
    exact Whole_cut hw hall h1 h2
  cases hs with
  | call t line hlt hp hidle =>
    have hidle := hidle hser
    have hn : ∀ u l, s.pc u ≠ .flushing l := fun u l h => by rw [hidle u] at h; cases h
    have hn' : ∀ u l, putAt s.pc t (.start line) u ≠ .flushing l := by
      intro u l; unfold putAt; split
      · simp
      · exact hn u l
    refine ⟨?_, fun _ => i2 hn, fun u l _ h => absurd h (hn' u l), fun h => ⟨(i4 h).1, (i4 h).2.1, hn'⟩⟩
    intro u v; simp only [putAt]; split <;> split <;> simp_all
  | skip t line hp =>
    have h0 : s.pc t ≠ .idle := by rw [hp]; simp
    exact ⟨alone t _ h0, fun _ => i2 (nof t h0 (by rw [hp]; simp)), fun u l _ h => absurd h (quiet2 t _ h0 u l),
      fun h => ⟨(i4 h).1, (i4 h).2.1, quiet2 t _ h0⟩⟩
  | rotate t line hp hn ho =>
    have h0 : s.pc t ≠ .idle := by rw [hp]; simp
    refine ⟨alone t _ h0, fun _ y h1 h2 => ?_, fun u l _ h => absurd h (quiet2 t _ h0 u l), fun h => ?_⟩
    · exact i2 (nof t h0 (by rw [hp]; simp)) y (hst.trans h1) (h2.trans ⟨lost, by rw [← ht]; simp_all⟩)
    · rw [ho] at h; cases h
  | rotateRefused t line k hp hn ho hk =>
    have h0 : s.pc t ≠ .idle := by rw [hp]; simp
    refine ⟨alone t _ h0, fun _ y h1 h2 => ?_, (fun u l h => nomatch h), fun _ => ⟨rfl, rfl, quiet2 t _ h0⟩⟩
    exact i2 (nof t h0 (by rw [hp]; simp)) y (hst.trans h1) (h2.trans ⟨lost, by rw [← ht]; simp_all⟩)
  | writeKeep t line hp ho =>
    have h0 : s.pc t ≠ .idle := by rw [hp]; simp
    have hn := nof t h0 (by rw [hp]; simp)
    refine ⟨alone t _ h0, fun h => absurd (by simp [putAt]) (h t line), fun u l _ h => ?_, fun h => ?_⟩
    · cases only t line h0 u l h
      exact ⟨s.total, by simp [DkState.total, stored], i2 hn _ ⟨s.buf ++ s.pend, rfl⟩ List.prefix_rfl,
        fun y h1 h2 => i2 hn y (hst.trans h1) h2⟩
    · rw [ho] at h; cases h
  | writePush t line a hp ho =>
    have h0 : s.pc t ≠ .idle := by rw [hp]; simp
    have hn := nof t h0 (by rw [hp]; simp)
    refine ⟨alone t _ h0, fun h => absurd (by simp [putAt]) (h t line), fun u l _ h => ?_, fun h => ?_⟩
    · cases only t line h0 u l h
      refine ⟨s.total, ?_, i2 hn _ ⟨s.buf ++ s.pend, rfl⟩ List.prefix_rfl,
        fun y h1 h2 => i2 hn y (hst.trans h1) h2⟩
      generalize hb : s.buf ++ s.pend = b
      simp only [DkState.total, stored, hb, List.append_assoc]
      rw [← List.append_assoc (List.take a b), List.take_append_drop]
    · rw [ho] at h; cases h
  | writeThrough t line a hp ho =>
    have h0 : s.pc t ≠ .idle := by rw [hp]; simp
    have hn := nof t h0 (by rw [hp]; simp)
    refine ⟨alone t _ h0, fun h => absurd (by simp [putAt]) (h t line), fun u l _ h => ?_, fun h => ?_⟩
    · cases only t line h0 u l h
      refine ⟨s.total, ?_, i2 hn _ ⟨s.buf ++ s.pend, rfl⟩ List.prefix_rfl,
        fun y h1 h2 => i2 hn y (hst.trans h1) h2⟩
      have e : s.total ++ line = stored s ++ (s.buf ++ (s.pend ++ line)) := by simp [DkState.total]
      rw [e]
      generalize hb : s.buf ++ (s.pend ++ line) = b
      simp [DkState.total, stored]
    · rw [ho] at h; cases h
  | writeRefused t line k hp ho hk hc =>
    have h0 : s.pc t ≠ .idle := by rw [hp]; simp
    refine ⟨alone t _ h0, fun _ y h1 h2 => failed t line hp y (hst.trans h1) (h2.trans ⟨s.pend ++ line, by simp [DkState.total, stored]⟩),
      fun u l _ h => absurd h (quiet t h0 u l), fun h => by rw [ho] at h; cases h⟩
  | writeTorn t line k hp ho hk hc =>
    have h0 : s.pc t ≠ .idle := by rw [hp]; simp
    refine ⟨alone t _ h0, fun _ y h1 h2 => failed t line hp y (hst.trans h1) (h2.trans ⟨(s.pend ++ line).drop k, ?_⟩),
      fun u l _ h => absurd h (quiet t h0 u l), fun h => by rw [ho] at h; cases h⟩
    have e : s.total ++ line = stored s ++ (s.buf ++ (s.pend ++ line)) := by simp [DkState.total]
    rw [e]
    generalize hb : s.pend ++ line = b
    simp [DkState.total, stored]
  | writeClosed t line hp ho =>
    have h0 : s.pc t ≠ .idle := by rw [hp]; simp
    refine ⟨alone t _ h0, fun _ y h1 h2 => failed t line hp y (hst.trans h1) (h2.trans ⟨line, rfl⟩),
      fun u l _ h => absurd h (quiet t h0 u l), fun h => ⟨(i4 h).1, (i4 h).2.1, quiet t h0⟩⟩
  | flush t line hp ho =>
    have h0 : s.pc t ≠ .idle := by rw [hp]; simp
    refine ⟨alone t _ h0, fun _ y h1 h2 => ?_, fun u l _ h => absurd h (quiet t h0 u l), fun h => by rw [ho] at h; cases h⟩
    obtain ⟨x, hx, hw, hall⟩ := i3 t line ho hp
    have e : y = s.total := by
      have a1 : s.total <+: y := by simpa [DkState.total, stored] using h1
      have a2 : y <+: s.total := by simpa [DkState.total, stored] using h2
      exact a2.eq_of_length (Nat.le_antisymm a2.length_le a1.length_le)
    rw [e, hx]
    exact hw.snoc_done
  | flushHeld t line k hp ho hk =>
    have h0 : s.pc t ≠ .idle := by rw [hp]; simp
    refine ⟨alone t _ h0, fun _ y h1 h2 => failed2 t line ho hp y (hst.trans h1) (h2.trans ⟨[], ?_⟩),
      fun u l _ h => absurd h (quiet t h0 u l), fun h => by rw [ho] at h; cases h⟩
    generalize hb : s.buf ++ s.pend = b
    simp [DkState.total, stored, hb]
  | flushRefused t line k hp ho hk hc =>
    have h0 : s.pc t ≠ .idle := by rw [hp]; simp
    refine ⟨alone t _ h0, fun _ y h1 h2 => failed2 t line ho hp y (hst.trans h1) (h2.trans ⟨s.pend, ?_⟩),
      fun u l _ h => absurd h (quiet t h0 u l), fun h => by rw [ho] at h; cases h⟩
    simp [DkState.total, stored]
  | flushTorn t line k hp ho hk hc =>
    have h0 : s.pc t ≠ .idle := by rw [hp]; simp
    refine ⟨alone t _ h0, fun _ y h1 h2 => failed2 t line ho hp y (hst.trans h1) (h2.trans ⟨s.pend.drop k, ?_⟩),
      fun u l _ h => absurd h (quiet t h0 u l), fun h => by rw [ho] at h; cases h⟩
    simp [DkState.total, stored]
  | flushClosed t line hp ho => exact absurd hp ((i4 ho).2.2 t line)

theorem SerInv_reach {c : DkConf} (hser : c.serial = true) {s : DkState} (h : DkReach c .init s) : SerInv s := by
  induction h with
  | init => exact SerInv_init
  | step _ hs ih => exact SerInv_step hser ih hs

/-- **C99** (partial: the calls of the handler do not overlap, see `C99_silent_loss_fails`).  Between calls, the rotated
files and the log hold every line for which the handler ended normally, whole, in order; of every other line, each
of which was handed to `alt`, they hold a beginning, which may be nothing or everything. -/
theorem C99_every_line_is_stored_or_handed_to_alt_partial (c : DkConf) (hser : c.serial = true) (s : DkState)
    (h : DkReach c .init s) (hidle : ∀ t, s.pc t = .idle) : Whole s.calls (stored s) :=
  (SerInv_reach hser h).rest (fun t line h => by rw [hidle t] at h; cases h) _ List.prefix_rfl ⟨s.buf ++ s.pend, rfl⟩

theorem DkReach.trans {c : DkConf} {a b d : DkState} (h : DkReach c a b) (h' : DkReach c b d) : DkReach c a d := by
  induction h' with
  | init => exact h
  | step _ hs ih => exact .step ih hs

/-- **C99**: as long as the file is open, logging goes on as soon as the system takes data again: any call can end
normally, and then the line and everything that still waited are stored. -/
theorem C99_goes_on_when_there_is_room_partial (c : DkConf) (s : DkState) (ho : s.opened = true) (hidle : ∀ t, s.pc t = .idle)
    (t : Nat) (ht : t < c.threads) (line : Str) :
    ∃ s', DkReach c s s' ∧ (∀ u, s'.pc u = .idle) ∧ s'.calls = s.calls ++ [(line, true)] ∧
      stored s' = s.total ++ line ∧ s'.buf = [] ∧ s'.pend = [] := by
  have a1 : DkReach c s _ := .step .init (.call s t line ht (hidle t) fun _ => hidle)
  have a2 := DkReach.step a1 (.skip _ t line (by simp [putAt]))
  have a3 := DkReach.step a2 (.writeKeep _ t line (by simp [putAt]) ho)
  have a4 := DkReach.step a3 (.flush _ t line (by simp [putAt]) ho)
  refine ⟨_, a4, fun u => ?_, rfl, by simp [stored, DkState.total], rfl, rfl⟩
  simp only [putAt]
  split
  · rfl
  · simp [hidle u, *]

/-- A closed file is never opened again and never written to; every call goes to `alt`. -/
theorem Dk_closed {c : DkConf} {s s' : DkState} (ho : s.opened = false) (hn : s.named = false)
    (h : DkReach c s s') : s'.opened = false ∧ s'.named = false ∧ stored s' = stored s ∧
      ∃ later, s'.calls = s.calls ++ later ∧ ∀ x ∈ later, x.2 = false := by
  induction h with
  | init => exact ⟨ho, hn, rfl, [], by simp, by simp⟩
  | step _ hs ih =>
    obtain ⟨h1, h2, h3, later, h4, h5⟩ := ih
    cases hs with
    | call | skip => exact ⟨h1, h2, h3, later, h4, h5⟩
    | writeClosed t line | flushClosed t line =>
      refine ⟨h1, h2, h3, later ++ [(line, false)], by simp [h4], fun x hx => ?_⟩
      rcases List.mem_append.1 hx with hx | hx
      · exact h5 x hx
      · simp at hx; rw [hx]
    | _ => simp_all

/-- **C99 fails**: one worker.  The disk is full, the line `first` is handed to `alt` and waits in the buffer.  At the next call
the file is due for rotation: it is renamed, and closing it fails, which nobody hears of.  From then on, however much room
there is, no line is ever written again: in every continuation every call goes to `alt` and the files do not change. -/
theorem C99_rotation_on_a_full_disk_fails (cap : Nat) (first second : Str) (hf : first ≠ []) :
    ∃ s, DkReach ⟨cap, 1, true⟩ .init s ∧ (∀ t, s.pc t = .idle) ∧ stored s = [] ∧
      s.calls = [(first, false), (second, false)] ∧
      ∀ s', DkReach ⟨cap, 1, true⟩ s s' → stored s' = [] ∧ ∀ x ∈ s'.calls, x.2 = false := by
  have hlen : 0 < first.length := List.length_pos_iff.2 hf
  have hidle : ∀ {f : Nat → DkPc}, (∀ u, f u = .idle) → ∀ x u, putAt (putAt f 0 x) 0 .idle u = .idle := by
    intro f h x u
    simp only [putAt]
    split
    · rfl
    · simp [h u, *]
  have hput : ∀ (f : Nat → DkPc) x y, putAt (putAt f 0 x) 0 y = putAt f 0 y := by
    intro f x y; funext u; simp only [putAt]; split <;> simp_all
  have a1 : DkReach ⟨cap, 1, true⟩ .init _ := .step .init (.call .init 0 first (Nat.zero_lt_one) rfl fun _ _ => rfl)
  have a2 := DkReach.step a1 (.skip _ 0 first (by simp [putAt]))
  have a3 := DkReach.step a2 (.writeKeep _ 0 first (by simp [putAt]) rfl)
  have a4 := DkReach.step a3 (.flushHeld _ 0 first 0 (by simp [putAt]) rfl (by simpa [DkState.init] using hlen))
  have a5 := DkReach.step a4 (.call _ 0 second (Nat.zero_lt_one) (by simp [putAt]) fun _ u => by
    simp only [hput]; simp [putAt, DkState.init])
  have a6 := DkReach.step a5 (.rotateRefused _ 0 second 0 (by simp [putAt]) rfl rfl (by simpa [DkState.init] using hlen))
  have a7 := DkReach.step a6 (.writeClosed _ 0 second (by simp [putAt]) rfl)
  refine ⟨_, a7, fun u => ?_, by simp [stored, DkState.init], by simp [DkState.init], fun s' h => ?_⟩
  · simp only [hput]; simp [putAt, DkState.init]
  · obtain ⟨_, _, h3, later, h4, h5⟩ := Dk_closed rfl rfl h
    refine ⟨by rw [h3]; simp [stored, DkState.init], fun x hx => ?_⟩
    rw [h4] at hx
    simp only [DkState.init, List.nil_append, List.mem_append, List.mem_cons, List.not_mem_nil, or_false] at hx
    rcases hx with (rfl | rfl) | hx
    · rfl
    · rfl
    · exact h5 x hx

/-- **C99 fails**: one worker.  A line that was handed to `alt` because the disk was full is in the file as well: it waited in
the buffer and was written by the next call. -/
theorem C99_alt_and_file_fails (cap : Nat) (first second : Str) (hf : first ≠ []) :
    ∃ s, DkReach ⟨cap, 1, true⟩ .init s ∧ (∀ t, s.pc t = .idle) ∧ s.calls = [(first, false), (second, true)] ∧
      stored s = first ++ second := by
  have hlen : 0 < first.length := List.length_pos_iff.2 hf
  have hput : ∀ (f : Nat → DkPc) x y, putAt (putAt f 0 x) 0 y = putAt f 0 y := by
    intro f x y; funext u; simp only [putAt]; split <;> simp_all
  have a1 : DkReach ⟨cap, 1, true⟩ .init _ := .step .init (.call .init 0 first (Nat.zero_lt_one) rfl fun _ _ => rfl)
  have a2 := DkReach.step a1 (.skip _ 0 first (by simp [putAt]))
  have a3 := DkReach.step a2 (.writeKeep _ 0 first (by simp [putAt]) rfl)
  have a4 := DkReach.step a3 (.flushHeld _ 0 first 0 (by simp [putAt]) rfl (by simpa [DkState.init] using hlen))
  obtain ⟨s, hr, ho, hi, hc, htot⟩ : ∃ s, DkReach ⟨cap, 1, true⟩ .init s ∧ s.opened = true ∧ (∀ u, s.pc u = .idle) ∧
      s.calls = [(first, false)] ∧ s.total = first :=
    ⟨_, a4, rfl, fun u => by simp only [hput]; simp [putAt, DkState.init], by simp [DkState.init],
      by simp [DkState.total, stored, DkState.init]⟩
  obtain ⟨s', h1, h2, h3, h4, _⟩ := C99_goes_on_when_there_is_room_partial ⟨cap, 1, true⟩ s ho hi 0 Nat.zero_lt_one second
  exact ⟨s', hr.trans h1, h2, by rw [h3, hc]; rfl, by rw [h4, htot]⟩

/-- **C99 fails**: one worker.  A line that is larger than the buffer is torn: the system takes a part of it, the rest is gone,
and the next line follows on the same row. -/
theorem C99_torn_line_fails (cap k : Nat) (long next : Str) (hl : cap < byteSize long) (hk : k < long.length) :
    ∃ s, DkReach ⟨cap, 1, true⟩ .init s ∧ (∀ t, s.pc t = .idle) ∧ s.calls = [(long, false), (next, true)] ∧
      stored s = long.take k ++ next := by
  have hput : ∀ (f : Nat → DkPc) x y, putAt (putAt f 0 x) 0 y = putAt f 0 y := by
    intro f x y; funext u; simp only [putAt]; split <;> simp_all
  have a1 : DkReach ⟨cap, 1, true⟩ .init _ := .step .init (.call .init 0 long (Nat.zero_lt_one) rfl fun _ _ => rfl)
  have a2 := DkReach.step a1 (.skip _ 0 long (by simp [putAt]))
  have a3 := DkReach.step a2 (.writeTorn _ 0 long k (by simp [putAt]) rfl (by simpa [DkState.init] using hk)
    (by simpa [DkState.init] using hl))
  obtain ⟨s, hr, ho, hi, hc, htot⟩ : ∃ s, DkReach ⟨cap, 1, true⟩ .init s ∧ s.opened = true ∧ (∀ u, s.pc u = .idle) ∧
      s.calls = [(long, false)] ∧ s.total = long.take k :=
    ⟨_, a3, rfl, fun u => by simp only [hput]; simp [putAt, DkState.init], by simp [DkState.init],
      by simp [DkState.total, stored, DkState.init]⟩
  obtain ⟨s', h1, h2, h3, h4, _⟩ := C99_goes_on_when_there_is_room_partial ⟨cap, 1, true⟩ s ho hi 0 Nat.zero_lt_one next
  exact ⟨s', hr.trans h1, h2, by rw [h3, hc]; rfl, by rw [h4, htot]⟩

/-- **C99 fails**: two workers.  The disk is full and the buffer is filled by the line `big`.  Both workers have written their lines, `a`
and `b`, which wait together.  The flush of the first worker fails, and with it both lines are dropped; `a` is handed to
`alt`.  Then there is room again, and the flush of the second worker ends normally: `b` is not in the file,
was not handed to `alt`, and no exception was raised for it. -/
theorem C99_silent_loss_fails (big a b : Str) (hbig : big ≠ []) (ha : a ≠ []) (hb : ¬ b <:+: big) :
    ∃ s, DkReach ⟨byteSize big, 2, false⟩ .init s ∧ (∀ t, s.pc t = .idle) ∧
      s.calls = [(big, false), (a, false), (b, true)] ∧ s.buf = [] ∧ s.pend = [] ∧ ¬ b <:+: stored s := by
  have hlen : 0 < big.length := List.length_pos_iff.2 hbig
  have hsize : byteSize big < byteSize (big ++ (a ++ b)) := by
    obtain ⟨x, a', rfl⟩ := List.exists_cons_of_ne_nil ha
    have := Char.utf8Size_pos x
    simp only [byteSize, List.map_append, List.sum_append, List.map_cons, List.sum_cons, List.cons_append]
    omega
  generalize hcap : byteSize big = cap at *
  have a1 : DkReach ⟨cap, 2, false⟩ .init _ := .step .init (.call .init 0 big (by simp) rfl (by simp))
  have a2 := DkReach.step a1 (.skip _ 0 big (by simp [putAt]))
  have a3 := DkReach.step a2 (.writeThrough _ 0 big 0 (by simp [putAt]) rfl)
  have a4 := DkReach.step a3 (.flushHeld _ 0 big 0 (by simp [putAt]) rfl (by simpa [DkState.init] using hlen))
  obtain ⟨s, hr, ho, hi, hc, h1, h2, h3⟩ : ∃ s, DkReach ⟨cap, 2, false⟩ .init s ∧ s.opened = true ∧ (∀ u, s.pc u = .idle) ∧
      s.calls = [(big, false)] ∧ stored s = [] ∧ s.buf = big ∧ s.pend = [] := by
    refine ⟨_, a4, rfl, fun u => ?_, by simp [DkState.init], by simp [stored, DkState.init], by simp [DkState.init], rfl⟩
    simp only [putAt, DkState.init]
    split <;> simp_all
  have b1 := DkReach.step hr (.call s 0 a (by simp) (hi 0) (by simp))
  have b2 := DkReach.step b1 (.skip _ 0 a (by simp [putAt]))
  have b3 := DkReach.step b2 (.writeKeep _ 0 a (by simp [putAt]) ho)
  have b4 := DkReach.step b3 (.call _ 1 b (by simp) (by simp [putAt, hi 1]) (by simp))
  have b5 := DkReach.step b4 (.skip _ 1 b (by simp [putAt]))
  have b6 := DkReach.step b5 (.writeKeep _ 1 b (by simp [putAt]) ho)
  have b7 := DkReach.step b6 (.flushRefused _ 0 a 0 (by simp [putAt]) ho (by simpa [h2] using hlen)
    (by simpa [h2, h3] using hsize))
  have b8 := DkReach.step b7 (.flush _ 1 b (by simp [putAt]) ho)
  refine ⟨_, b8, fun u => ?_, by simp [hc], rfl, rfl, ?_⟩
  · simp only [putAt]
    repeat' split
    all_goals simp_all
  · have : s.old.flatten = [] ∧ s.cur = [] := by simpa [stored] using h1
    simpa [stored, this, h2] using hb

/-- The hypotheses of the theorems above are met; here a line that was stored after one that was not. -/
example : ∃ s, DkReach ⟨3, 1, true⟩ .init s ∧ (∀ t, s.pc t = .idle) ∧ Whole s.calls (stored s) ∧
    s.calls = [("abcd\n".toList, false), ("ef\n".toList, true)] ∧ stored s = "abef\n".toList := by
  obtain ⟨s, h1, h2, h3, h4⟩ := C99_torn_line_fails 3 2 "abcd\n".toList "ef\n".toList (by decide +kernel) (by decide +kernel)
  exact ⟨s, h1, h2, C99_every_line_is_stored_or_handed_to_alt_partial _ rfl s h1 h2, h3, h4⟩

example : ∃ s, DkReach ⟨byteSize "big\n".toList, 2, false⟩ .init s ∧ ("b\n".toList, true) ∈ s.calls ∧ ¬ "b\n".toList <:+: stored s := by
  obtain ⟨s, h1, _, h3, _, _, h6⟩ := C99_silent_loss_fails "big\n".toList "a\n".toList "b\n".toList (by decide) (by decide)
    (by decide +kernel)
  exact ⟨s, h1, by simp [h3], h6⟩

end Polog
