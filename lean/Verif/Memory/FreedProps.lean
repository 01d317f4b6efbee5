import Verif.Memory.FreedSpec
import Verif.Memory.Props
import Mathlib.Algebra.BigOperators.Group.Finset.Basic
import Mathlib.Algebra.BigOperators.Intervals

/-! C112: destructors that log while `memory_saver` is at work. -/

namespace Polog
open MemSpec FreedSpec

variable {L : Type} {dies : L → List L} {gc : Bool}

theorem FrRun.trans {s t u : FrState L} (h : FrRun dies gc s t) (h' : FrRun dies gc t u) : FrRun dies gc s u := by
  induction h' with
  | init => exact h
  | step _ hs ih => exact .step ih hs

theorem FrOnward.trans {s t u : FrState L} (h : FrOnward dies s t) (h' : FrOnward dies t u) : FrOnward dies s u := by
  induction h' with
  | here => exact h
  | go t n rest m' _ h1 h2 h3 ih => exact .go t n rest m' ih h1 h2 h3
  | destructor t n c rest x xs _ h1 h2 h3 ih => exact .destructor t n c rest x xs ih h1 h2 h3
  | returns t n rest k _ h1 h2 h3 ih => exact .returns t n rest k ih h1 h2 h3

theorem FrOnward.run {s t : FrState L} (h : FrOnward dies s t) : FrRun dies gc s t := by
  induction h with
  | here => exact .init
  | go t n rest m' _ h1 h2 h3 ih => exact .step ih (.go _ t n rest m' h1 h2 h3)
  | destructor t n c rest x xs _ h1 h2 h3 ih => exact .step ih (.destructor _ t n c rest x xs h1 h2 h3)
  | returns t n rest k _ h1 h2 h3 ih => exact .step ih (.returns _ t n rest k h1 h2 h3)

theorem MemStep.inited {c : Nat} {s t : MemState L} (h : MemStep c s t) (hi : s.inited = true) : t.inited = true := by
  cases h <;> first | exact hi | rfl

/-- The handler itself does what it does without destructors. -/
theorem FrRun.forget {s₀ s : FrState L} (hi : s₀.m.inited = true) (h : FrRun dies gc s₀ s) : MemRun s₀.m s.m ∧ s.m.inited = true := by
  induction h with
  | init => exact ⟨.refl, hi⟩
  | step _ hs ih =>
    obtain ⟨ih, hi⟩ := ih
    cases hs with
    | call t n k _ hn hk => exact ⟨.step ih (.start hn hi hk), hi⟩
    | go t n rest m' _ _ hm => exact ⟨.step ih hm, hm.inited hi⟩
    | destructor t n c rest x xs _ _ hc => exact ⟨.step ih (.start hc hi (fun e => nomatch e)), hi⟩
    | collected t c x _ hc => exact ⟨.step ih (.start hc hi (fun e => nomatch e)), hi⟩
    | returns t n rest k _ _ _ => exact ⟨ih, hi⟩

structure FrInv (s : FrState L) : Prop where
  mem : MemInv s.m
  idle : ∀ t n, n ∈ s.stack t → s.m.pc n ≠ .idle
  busy : ∀ n, s.m.pc n ≠ .idle → (∃ k, s.m.pc n = .finished k) ∨ ∃ t, n ∈ s.stack t
  one : ∀ t t' n, n ∈ s.stack t → n ∈ s.stack t' → t = t'
  nodup : ∀ t, (s.stack t).Nodup
  real : ∀ n, s.m.pc n ≠ .finished .construct
  todo : ∀ n, s.todo n ≠ [] → s.m.pc n = .half .clean ∨ s.m.pc n = .leaving .clean
  above : ∀ t h a b, s.stack t = a ++ h :: b → s.m.sem = some h → ∀ x ∈ a, ∃ k, s.m.pc x = .waiting k

theorem MemStep.others {c n : Nat} {s t : MemState L} (h : MemStep c s t) (hne : n ≠ c) : t.pc n = s.pc n := by
  cases h <;> simp [MemState.move, hne]

theorem MemStep.sem_other {c n : Nat} {s t : MemState L} (hi : MemInv s) (h : MemStep c s t) (hne : n ≠ c) :
    t.sem = some n ↔ s.sem = some n := by
  rw [← (memInv_step hi h).holder n, ← hi.holder n, h.others hne]

theorem FrInv.ready : FrInv (FrState.ready L) where
  mem := memInv_ready
  idle := fun _ _ h => nomatch h
  busy := fun _ h => absurd rfl h
  one := fun _ _ _ h => nomatch h
  nodup := fun _ => List.nodup_nil
  real := fun _ h => nomatch h
  todo := fun _ h => absurd rfl h
  above := fun _ _ _ _ _ h => nomatch h

theorem FrInv.push {s : FrState L} (h : FrInv s) (t n : Nat) (k : MemCall L) (hn : s.m.pc n = .idle) (hk : k ≠ .construct) :
    FrInv (s.push t n k) := by
  have hfresh : ∀ t', n ∉ s.stack t' := fun t' hm => h.idle t' n hm hn
  have hpc : ∀ x, (s.push t n k).m.pc x = if x = n then .waiting k else s.m.pc x := fun x => rfl
  have hst : ∀ t', (s.push t n k).stack t' = if t' = t then n :: s.stack t else s.stack t' := fun x => rfl
  have hsem : (s.push t n k).m.sem = s.m.sem := rfl
  refine ⟨memInv_step h.mem (.start hn h.mem.inited hk), ?_, ?_, ?_, ?_, ?_, ?_, ?_⟩
  · intro t' x hx
    rw [hpc]
    by_cases e : x = n
    · rw [if_pos e]; exact fun e => nomatch e
    · rw [if_neg e]
      rw [hst] at hx
      by_cases e' : t' = t
      · rw [if_pos e'] at hx
        exact h.idle t x ((List.mem_cons.1 hx).resolve_left e)
      · rw [if_neg e'] at hx; exact h.idle t' x hx
  · intro x hx
    rw [hpc] at hx ⊢
    by_cases e : x = n
    · exact .inr ⟨t, by rw [hst, if_pos rfl, e]; exact List.mem_cons_self⟩
    · rw [if_neg e] at hx ⊢
      rcases h.busy x hx with h1 | ⟨t', h1⟩
      · exact .inl h1
      · refine .inr ⟨t', ?_⟩
        rw [hst]
        by_cases e' : t' = t
        · rw [if_pos e']; exact List.mem_cons_of_mem _ (e' ▸ h1)
        · rw [if_neg e']; exact h1
  · intro t1 t2 x h1 h2
    rw [hst] at h1 h2
    have := h.one
    grind
  · intro t'
    rw [hst]
    have := h.nodup
    grind
  · intro x
    rw [hpc]
    by_cases e : x = n
    · rw [if_pos e]; exact fun e => nomatch e
    · rw [if_neg e]; exact h.real x
  · intro x hx
    have := h.todo x hx
    rw [hpc]
    by_cases e : x = n
    · rw [e, hn] at this; rcases this with e | e <;> cases e
    · rw [if_neg e]; exact this
  · intro t' x a b hs hx y hy
    rw [hsem] at hx
    rw [hpc]
    by_cases e : y = n
    · exact ⟨k, if_pos e⟩
    · rw [if_neg e]
      rw [hst] at hs
      by_cases e' : t' = t
      · rw [if_pos e'] at hs
        cases a with
        | nil => cases hy
        | cons z a =>
          injection hs with e1 e2
          refine h.above t x a b e2 hx y ?_
          rcases List.mem_cons.1 hy with e3 | e3
          · exact absurd (e3.trans e1.symm) e
          · exact e3
      · rw [if_neg e'] at hs; exact h.above t' x a b hs hx y hy

theorem FrInv.fewer {s : FrState L} (h : FrInv s) (n : Nat) (xs : List L) (hx : s.todo n ≠ []) : FrInv { s with todo := putAt s.todo n xs } := by
  refine ⟨h.mem, h.idle, h.busy, h.one, h.nodup, h.real, ?_, h.above⟩
  intro x h1
  by_cases e : x = n
  · rw [e]; exact h.todo n hx
  · exact h.todo x (by simpa [putAt, e] using h1)

theorem MemStep.acquires {c : Nat} {s t : MemState L} (hi : MemInv s) (h : MemStep c s t) (hs : t.sem = some c) (hn : s.sem ≠ some c) :
    s.sem = none := by
  have := hi.holder c
  cases h <;> grind [MemPc.holds]

theorem MemStep.leavesIdle {c : Nat} {s t : MemState L} (h : MemStep c s t) : t.pc c ≠ .idle := by
  cases h <;> simp [MemState.move]

theorem FrInv.step {s s' : FrState L} (h : FrInv s) (hs : FrStep dies gc s s') : FrInv s' := by
  cases hs with
  | call t n k h1 h2 h3 => exact h.push t n k h2 h3
  | collected t c x h1 h2 => exact h.push t c _ h2 (fun e => nomatch e)
  | destructor t n c rest x xs h1 h2 h3 =>
    have h4 := h.push t c (.save x) h3 (fun e => nomatch e)
    exact h4.fewer n xs (show s.todo n ≠ [] by rw [h2]; exact fun e => nomatch e)
  | returns t n rest k h1 h2 h3 =>
    have hst : ∀ t', putAt s.stack t rest t' = if t' = t then rest else s.stack t' := fun _ => rfl
    have hin : ∀ t' x, x ∈ putAt s.stack t rest t' → x ∈ s.stack t' := by
      intro t' x hx
      rw [hst] at hx
      by_cases e : t' = t
      · rw [if_pos e] at hx; rw [e, h1]; exact List.mem_cons_of_mem _ hx
      · rw [if_neg e] at hx; exact hx
    refine ⟨h.mem, fun t' x hx => h.idle t' x (hin t' x hx), ?_, fun t1 t2 x a b => h.one t1 t2 x (hin _ _ a) (hin _ _ b), ?_, h.real, h.todo, ?_⟩
    · intro x hx
      rcases h.busy x hx with h4 | ⟨t', h4⟩
      · exact .inl h4
      · by_cases e : x = n
        · exact .inl ⟨k, e ▸ h3⟩
        · refine .inr ⟨t', ?_⟩
          show x ∈ putAt s.stack t rest t'
          rw [hst]
          by_cases e' : t' = t
          · rw [if_pos e']; rw [e', h1] at h4; exact (List.mem_cons.1 h4).resolve_left e
          · rw [if_neg e']; exact h4
    · intro t'
      show (putAt s.stack t rest t').Nodup
      rw [hst]
      by_cases e : t' = t
      · rw [if_pos e]; have := h.nodup t; rw [h1] at this; exact (List.nodup_cons.1 this).2
      · rw [if_neg e]; exact h.nodup t'
    · intro t' x a b e1 e2 y hy
      have e1 : putAt s.stack t rest t' = a ++ x :: b := e1
      rw [hst] at e1
      by_cases e : t' = t
      · rw [if_pos e] at e1
        exact h.above t x (n :: a) b (by rw [h1, e1]; rfl) e2 y (List.mem_cons_of_mem _ hy)
      · rw [if_neg e] at e1; exact h.above t' x a b e1 e2 y hy
  | go t n rest m' h1 h2 h3 =>
    have hni := h.idle t n (by rw [h1]; exact List.mem_cons_self)
    refine ⟨memInv_step h.mem h3, ?_, ?_, h.one, h.nodup, ?_, ?_, ?_⟩
    · intro t' x hx
      by_cases e : x = n
      · rw [e]; exact h3.leavesIdle
      · show m'.pc x ≠ _
        rw [h3.others e]; exact h.idle t' x hx
    · intro x hx
      by_cases e : x = n
      · exact .inr ⟨t, by rw [e]; show n ∈ s.stack t; rw [h1]; exact List.mem_cons_self⟩
      · have e1 : m'.pc x = s.m.pc x := h3.others e
        show (∃ k, m'.pc x = .finished k) ∨ _
        rw [e1]
        exact h.busy x (fun e2 => hx (by show m'.pc x = _; rw [e1, e2]))
    · intro x
      show m'.pc x ≠ _
      by_cases e : x = n
      · subst e
        have hr := h.mem.real x
        have hn := h.mem.noInit x
        cases h3 <;> simp only [MemState.move] <;> grind [MemPc.call]
      · rw [h3.others e]; exact h.real x
    · intro x hx
      have hx : putAt s.todo n (freedBy dies s.m n) x ≠ [] := hx
      by_cases e : x = n
      · subst e
        simp only [putAt, if_true] at hx
        cases h3 with
        | @setAll k hp =>
          cases k with
          | clean => exact .inl (by simp [MemState.move])
          | _ => simp [freedBy, hp, putAt] at hx
        | @setLast k hp =>
          cases k with
          | clean => exact .inr (by simp [MemState.move])
          | _ => simp [freedBy, hp, putAt] at hx
        | start hp => simp [freedBy, hp, putAt] at hx
        | acquire hp => simp [freedBy, hp, putAt] at hx
        | release hp => simp [freedBy, hp, putAt] at hx
        | skip hp => simp [freedBy, hp, putAt] at hx
        | begin hp => simp [freedBy, hp, putAt] at hx
        | empty hp => simp [freedBy, hp, putAt] at hx
        | mark hp => simp [freedBy, hp, putAt] at hx
      · show m'.pc x = _ ∨ m'.pc x = _
        rw [h3.others e]
        exact h.todo x (by simpa [putAt, e] using hx)
    · intro t' x a b e1 e2 y hy
      have e1 : s.stack t' = a ++ x :: b := e1
      have e2 : m'.sem = some x := e2
      show ∃ k, m'.pc y = _
      by_cases e : x = n
      · subst e
        have : t' = t := h.one t' t x (by rw [e1]; simp) (by rw [h1]; exact List.mem_cons_self)
        subst this
        have hnd := h.nodup t'
        rw [h1] at e1
        cases a with
        | nil => cases hy
        | cons z a =>
          injection e1 with e3 e4
          rw [h1] at hnd
          exact absurd (by rw [e4]; simp) (List.nodup_cons.1 hnd).1
      · have e3 := (h3.sem_other h.mem e).1 e2
        obtain ⟨k, hk⟩ := h.above t' x a b e1 e3 y hy
        by_cases e' : y = n
        · subst e'
          have := e3
          cases h3 with
          | acquire hp hs => rw [hs] at e3; cases e3
          | start hp => rw [hp] at hk; cases hk
          | setAll hp => rw [hp] at hk; cases hk
          | setLast hp => rw [hp] at hk; cases hk
          | release hp => rw [hp] at hk; cases hk
          | skip hp => rw [hp] at hk; cases hk
          | begin hp => rw [hp] at hk; cases hk
          | empty hp => rw [hp] at hk; cases hk
          | mark hp => rw [hp] at hk; cases hk
        · exact ⟨k, by rw [h3.others e', hk]⟩

theorem FrInv.run {s s' : FrState L} (h : FrInv s) (hs : FrRun dies gc s s') : FrInv s' := by
  induction hs with
  | init => exact h
  | step _ hs ih => exact ih.step hs

/-- **C112**: destructors that log in the middle of a call, and the garbage collector, do not spoil the contents: whenever no call is in the middle of
its work, `all` is exactly the list of the records saved since the last `clean()`, in the order of saving, and `last` is the last of them. -/
theorem C112_holds_the_saved_records (dies : L → List L) (gc : Bool) (s : FrState L) (h : FrRun dies gc (.ready L) s) (hsem : s.m.sem = none) :
    s.m.all = kept s.m.hist ∧ s.m.last = (kept s.m.hist).getLast? ∧ (s.m.hist.map Prod.fst).Nodup ∧
    (∀ c k, s.m.pc c = .finished k ↔ (c, k) ∈ s.m.hist) := by
  have hi := FrInv.ready.run h
  obtain ⟨h1, h2, h3, h4, h5⟩ := C58_holds_the_saved_records_partial (FrRun.forget (s₀ := .ready L) rfl h).1 hsem
  exact ⟨h1, h2, h3, fun c k => ⟨fun e => h4 c k (fun ek => hi.real c (ek ▸ e)) e, h5 c k⟩⟩

theorem logsInside_holds {s : FrState L} (hi : FrInv s) {t h : Nat} (hl : LogsInside s t h) : (s.m.pc h).holds = true :=
  (hi.mem.holder h).2 hl.2.1

/-- A thread that waits for itself waits for ever. -/
theorem logsInside_step {s s' : FrState L} (hi : FrInv s) {t h : Nat} (hl : LogsInside s t h) (hs : FrStep dies gc s s') : LogsInside s' t h := by
  obtain ⟨h1, h2, h3⟩ := hl
  have hh := (hi.mem.holder h).2 h2
  have hpush : ∀ t' n k, s.m.pc n = .idle → LogsInside (s.push t' n k) t h := by
    intro t' n k hn
    have hne : h ≠ n := fun e => by rw [e, hn] at hh; cases hh
    by_cases e : t' = t
    · subst e
      exact ⟨by simp [FrState.push, putAt, h1], h2, .inl (by simp [FrState.push, putAt, Ne.symm hne])⟩
    · exact ⟨by simp [FrState.push, putAt, Ne.symm e, h1], h2, by simpa [FrState.push, putAt, Ne.symm e] using h3⟩
  cases hs with
  | call t' n k e1 e2 e3 => exact hpush t' n k e2
  | collected t' c x e1 e2 => exact hpush t' c _ e2
  | destructor t' n c rest x xs e1 e2 e3 =>
    obtain ⟨a1, a2, a3⟩ := hpush t' c (.save x) e3
    refine ⟨a1, a2, ?_⟩
    by_cases e : n = h
    · subst e
      have : t' = t := hi.one t' t n (by rw [e1]; exact List.mem_cons_self) h1
      subst this
      exact .inl (by
        show (putAt s.stack t' (c :: s.stack t') t').head? ≠ some n
        have hne : c ≠ n := fun e => by rw [← e, e3] at hh; cases hh
        simp [putAt, hne])
    · rcases a3 with a3 | a3
      · exact .inl a3
      · refine .inr ?_
        show putAt s.todo n xs h ≠ []
        simpa [putAt, Ne.symm e, FrState.push] using a3
  | go t' n rest m' e1 e2 e3 =>
    have hnh : n ≠ h := by
      rintro rfl
      have : t' = t := hi.one t' t n (by rw [e1]; exact List.mem_cons_self) h1
      subst this
      rcases h3 with h3 | h3
      · exact h3 (by rw [e1]; rfl)
      · exact h3 e2
    refine ⟨h1, (e3.sem_other hi.mem (Ne.symm hnh)).2 h2, ?_⟩
    rcases h3 with h3 | h3
    · exact .inl h3
    · exact .inr (by show putAt s.todo n _ h ≠ []; simpa [putAt, Ne.symm hnh] using h3)
  | returns t' n rest k e1 e2 e3 =>
    by_cases e : t' = t
    · subst e
      exfalso
      by_cases en : n = h
      · subst en; rw [e3] at hh; cases hh
      · rw [e1] at h1
        obtain ⟨a, b, hab⟩ := List.append_of_mem ((List.mem_cons.1 h1).resolve_left (Ne.symm en))
        obtain ⟨k', hk'⟩ := hi.above t' h (n :: a) b (by rw [e1, hab]; rfl) h2 n List.mem_cons_self
        rw [e3] at hk'; cases hk'
    · refine ⟨by show h ∈ putAt s.stack t' rest t; simpa [putAt, Ne.symm e] using h1, h2, ?_⟩
      show (putAt s.stack t' rest t).head? ≠ some h ∨ _
      simpa [putAt, Ne.symm e] using h3

theorem logsInside_run {s s' : FrState L} (hi : FrInv s) {t h : Nat} (hl : LogsInside s t h) (hs : FrRun dies gc s s') : LogsInside s' t h := by
  induction hs with
  | init => exact hl
  | step hr hs ih => exact logsInside_step (hi.run hr) ih hs

/-- **C112**: a destructor that logs in the middle of a call that is inside the handler stops the handler for ever: neither this call, nor the calls
of the handler that it or any other thread has not begun or waits with, ever return, and no record is ever saved again. -/
theorem C112_log_inside_stops_the_handler (dies : L → List L) (gc : Bool) (s : FrState L) (h : FrRun dies gc (.ready L) s) (t c : Nat)
    (hin : LogsInside s t c) :
    HangsForever dies gc s c ∧
    (∀ n, (s.m.pc n = .idle ∨ ∃ k, s.m.pc n = .waiting k) → HangsForever dies gc s n) ∧
    ∀ s', FrRun dies gc s s' → s'.m.all = s.m.all ∧ s'.m.last = s.m.last ∧ s'.m.hist = s.m.hist := by
  have hi := FrInv.ready.run h
  have hold : ∀ s', FrRun dies gc s s' → s'.m.sem = some c := fun s' hs => (logsInside_run hi hin hs).2.1
  have still : ∀ s', FrRun dies gc s s' → s'.m.pc c = s.m.pc c ∧
      (∀ n, (s.m.pc n = .idle ∨ ∃ k, s.m.pc n = .waiting k) → (s'.m.pc n = .idle ∨ ∃ k, s'.m.pc n = .waiting k)) ∧
      s'.m.all = s.m.all ∧ s'.m.last = s.m.last ∧ s'.m.hist = s.m.hist := by
    intro s' hs
    induction hs with
    | init => exact ⟨rfl, fun _ h => h, rfl, rfl, rfl⟩
    | @step u v hr hs ih =>
      obtain ⟨i1, i2, i3⟩ := ih
      have hiu := hi.run hr
      have hl := logsInside_run hi hin hr
      have hh := logsInside_holds hiu hl
      have hpush : ∀ t' n k, u.m.pc n = .idle → (u.push t' n k).m.pc c = s.m.pc c ∧
          (∀ x, (s.m.pc x = .idle ∨ ∃ k, s.m.pc x = .waiting k) → ((u.push t' n k).m.pc x = .idle ∨ ∃ k', (u.push t' n k).m.pc x = .waiting k')) := by
        intro t' n k hn
        have hne : c ≠ n := fun e => by rw [e, hn] at hh; cases hh
        refine ⟨by rw [← i1]; simp [FrState.push, MemState.move, hne], fun x hx => ?_⟩
        by_cases e : x = n
        · exact .inr ⟨k, by simp [FrState.push, MemState.move, e]⟩
        · simpa [FrState.push, MemState.move, e] using i2 x hx
      cases hs with
      | call t' n k e1 e2 e3 => exact ⟨(hpush t' n k e2).1, (hpush t' n k e2).2, i3⟩
      | collected t' x y e1 e2 => exact ⟨(hpush t' x _ e2).1, (hpush t' x _ e2).2, i3⟩
      | destructor t' n x rest y ys e1 e2 e3 => exact ⟨(hpush t' x (.save y) e3).1, (hpush t' x (.save y) e3).2, i3⟩
      | returns t' n rest k e1 e2 e3 => exact ⟨i1, i2, i3⟩
      | go t' n rest m' e1 e2 e3 =>
        have hnc : c ≠ n := by
          rintro rfl
          obtain ⟨h1, h2, h3⟩ := hl
          have : t' = t := hiu.one t' t c (by rw [e1]; exact List.mem_cons_self) h1
          subst this
          rcases h3 with h3 | h3
          · exact h3 (by rw [e1]; rfl)
          · exact h3 e2
        have hnoth : (u.m.pc n).holds = false := by
          cases hb : (u.m.pc n).holds with
          | false => rfl
          | true => exact absurd (Option.some.inj (((hiu.mem.holder n).1 hb).symm.trans hl.2.1)) (Ne.symm hnc)
        have hsm := hl.2.1
        have hni := hiu.idle t' n (by rw [e1]; exact List.mem_cons_self)
        have hno := hiu.mem.noInit n
        exfalso
        cases e3 with
        | start hp => exact hni hp
        | acquire hp hs => rw [hsm] at hs; cases hs
        | setAll hp => rw [hp] at hnoth; cases hnoth
        | setLast hp => rw [hp] at hnoth; cases hnoth
        | release hp => rw [hp] at hnoth; cases hnoth
        | skip hp => exact hni hp
        | begin hp => exact hni hp
        | empty hp => exact hno.1 hp
        | mark hp => exact hno.2 hp
  refine ⟨fun s' hs k e => ?_, fun n hn s' hs k e => ?_, fun s' hs => (still s' hs).2.2⟩
  · have hh := logsInside_holds (hi.run hs) (logsInside_run hi hin hs)
    rw [e] at hh; cases hh
  · rcases (still s' hs).2.1 n hn with e' | ⟨k', e'⟩ <;> rw [e] at e' <;> cases e'

/-- What keeps a call of `clean` that is inside the handler from ever returning. -/
def FrDoomed (dies : L → List L) (t n : Nat) (u : FrState L) : Prop :=
  n ∈ u.stack t ∧ u.m.sem = some n ∧ (LogsInside u t n ∨ (u.m.pc n = .holding .clean ∧ ∃ r ∈ u.m.all, dies r ≠ []) ∨
    (u.m.pc n = .half .clean ∧ ∃ r ∈ u.m.last, dies r ≠ []))

theorem FrDoomed.holds {t n : Nat} {u : FrState L} (h : FrDoomed dies t n u) (hi : FrInv u) (k : MemCall L) : u.m.pc n ≠ .finished k := by
  intro e
  have := (hi.mem.holder n).2 h.2.1
  rw [e] at this; cases this

/-- While one call is inside, the others change nothing. -/
theorem MemStep.outside {c n : Nat} {s s' : MemState L} (hi : MemInv s) (h : MemStep c s s') (hs : s.sem = some n) (hne : c ≠ n)
    : s'.all = s.all ∧ s'.last = s.last := by
  have hnoth : (s.pc c).holds = false := by
    cases hb : (s.pc c).holds with
    | false => rfl
    | true => exact absurd (Option.some.inj (((hi.holder c).1 hb).symm.trans hs)) hne
  have hno := hi.noInit c
  cases h with
  | setAll hp => rw [hp] at hnoth; cases hnoth
  | setLast hp => rw [hp] at hnoth; cases hnoth
  | empty hp => exact absurd hp hno.1
  | _ => exact ⟨rfl, rfl⟩

theorem FrDoomed.step {t n : Nat} {u v : FrState L} (h : FrDoomed dies t n u) (hi : FrInv u) (hs : FrStep dies gc u v) : FrDoomed dies t n v := by
  by_cases hl : LogsInside u t n
  · have := logsInside_step hi hl hs
    exact ⟨this.1, this.2.1, .inl this⟩
  · obtain ⟨h1, h2, h3⟩ := h
    have h3 := h3.resolve_left hl
    have hhead : (u.stack t).head? = some n := by
      by_contra hc
      exact hl ⟨h1, h2, .inl hc⟩
    have htodo : u.todo n = [] := by
      by_contra hc
      exact hl ⟨h1, h2, .inr hc⟩
    have hh := (hi.mem.holder n).2 h2
    have hpush : ∀ t' c k, u.m.pc c = .idle → FrDoomed dies t n (u.push t' c k) := by
      intro t' c k hc
      have hne : n ≠ c := fun e => by rw [e, hc] at hh; cases hh
      have hpc : (u.push t' c k).m.pc n = u.m.pc n := by simp [FrState.push, MemState.move, hne]
      refine ⟨?_, h2, .inr ?_⟩
      · by_cases e : t' = t
        · subst e; simp [FrState.push, putAt, h1]
        · simp [FrState.push, putAt, Ne.symm e, h1]
      · rw [hpc]; exact h3
    cases hs with
    | call t' c k e1 e2 e3 => exact hpush t' c k e2
    | collected t' c x e1 e2 => exact hpush t' c _ e2
    | destructor t' c x rest y ys e1 e2 e3 =>
      exact ⟨(hpush t' x (.save y) e3).1, h2, .inr (by
        have hne : n ≠ x := fun e => by rw [e, e3] at hh; cases hh
        have hpc : (u.push t' x (.save y)).m.pc n = u.m.pc n := by simp [FrState.push, MemState.move, hne]
        show ((u.push t' x (.save y)).m.pc n = _ ∧ _) ∨ ((u.push t' x (.save y)).m.pc n = _ ∧ _)
        rw [hpc]; exact h3)⟩
    | returns t' c rest k e1 e2 e3 =>
      have hcn : c ≠ n := fun e => by rw [← e, e3] at hh; cases hh
      refine ⟨?_, h2, .inr h3⟩
      show n ∈ putAt u.stack t' rest t
      by_cases e : t = t'
      · subst e; rw [e1] at hhead; exact absurd (Option.some.inj hhead) hcn
      · simpa [putAt, e] using h1
    | go t' c rest m' e1 e2 e3 =>
      by_cases e : c = n
      · subst e
        have hhalf : ∀ c' k, u.m.pc c' = .half k → c' = c := by
          intro c' k e
          have := (hi.mem.holder c').1 (by rw [e]; rfl)
          exact Option.some.inj (this.symm.trans h2)
        rcases h3 with ⟨hp, r, hr, hd⟩ | ⟨hp, r, hr, hd⟩
        · cases e3 with
          | @setAll k hp' =>
            have hk : k = .clean := by rw [hp] at hp'; exact (MemPc.holding.inj hp').symm
            subst hk
            have hf : freedBy dies u.m c = u.m.all.dropLast.reverse.flatMap dies := by simp [freedBy, hp]
            by_cases ht : freedBy dies u.m c = []
            · refine ⟨h1, h2, .inr (.inr ⟨by simp [MemState.move], r, ?_, hd⟩)⟩
              show r ∈ u.m.last
              have hlast : u.m.last = u.m.all.getLast? := by
                rcases hi.mem.last with h | ⟨c', k, h⟩
                · exact h
                · have := hhalf c' k h; subst this; rw [hp] at h; cases h
              rw [hlast]
              rw [hf, List.flatMap_eq_nil_iff] at ht
              rcases List.eq_nil_or_concat u.m.all with hn | ⟨l, b, hn⟩
              · rw [hn] at hr; cases hr
              · rw [hn] at hr ht ⊢
                simp only [List.concat_eq_append, List.mem_append, List.mem_singleton] at hr
                rcases hr with hr | hr
                · exact absurd (ht r (by simpa using hr)) hd
                · subst hr; simp
            · refine ⟨h1, h2, .inl ⟨h1, h2, .inr ?_⟩⟩
              simpa [putAt] using ht
          | start hp' => rw [hp] at hp'; cases hp'
          | acquire hp' => rw [hp] at hp'; cases hp'
          | setLast hp' => rw [hp] at hp'; cases hp'
          | release hp' => rw [hp] at hp'; cases hp'
          | skip hp' => rw [hp] at hp'; cases hp'
          | begin hp' => rw [hp] at hp'; cases hp'
          | empty hp' => rw [hp] at hp'; cases hp'
          | mark hp' => rw [hp] at hp'; cases hp'
        · cases e3 with
          | @setLast k hp' =>
            have hk : k = .clean := by rw [hp] at hp'; exact (MemPc.half.inj hp').symm
            subst hk
            refine ⟨h1, h2, .inl ⟨h1, h2, .inr ?_⟩⟩
            show putAt u.todo c (freedBy dies u.m c) c ≠ []
            have hr : u.m.last = some r := hr
            simpa [putAt, freedBy, hp, hr] using hd
          | start hp' => rw [hp] at hp'; cases hp'
          | acquire hp' => rw [hp] at hp'; cases hp'
          | setAll hp' => rw [hp] at hp'; cases hp'
          | release hp' => rw [hp] at hp'; cases hp'
          | skip hp' => rw [hp] at hp'; cases hp'
          | begin hp' => rw [hp] at hp'; cases hp'
          | empty hp' => rw [hp] at hp'; cases hp'
          | mark hp' => rw [hp] at hp'; cases hp'
      · obtain ⟨a1, a2⟩ := e3.outside hi.mem h2 e
        refine ⟨h1, (e3.sem_other hi.mem (Ne.symm e)).2 h2, .inr ?_⟩
        show (m'.pc n = _ ∧ ∃ r ∈ m'.all, _) ∨ (m'.pc n = _ ∧ ∃ r ∈ m'.last, _)
        rw [a1, a2, e3.others (Ne.symm e)]
        exact h3

theorem FrDoomed.run {t n : Nat} {u v : FrState L} (h : FrDoomed dies t n u) (hi : FrInv u) (hs : FrRun dies gc u v) : FrDoomed dies t n v := by
  induction hs with
  | init => exact h
  | step hr hs ih => exact ih.step (hi.run hr) hs

/-- **C112**: a call of `clean` that is about to forget a record which is the last to hold an object whose destructor logs never returns, whatever the
other threads do; it is enough that one of the records is of this kind. -/
theorem C112_clean_of_a_record_with_a_destructor_hangs (dies : L → List L) (gc : Bool) (s : FrState L) (h : FrRun dies gc (.ready L) s) (n : Nat)
    (hp : s.m.pc n = .holding .clean) (r : L) (hr : r ∈ s.m.all) (hd : dies r ≠ []) : HangsForever dies gc s n := by
  have hi := FrInv.ready.run h
  have hs := (hi.mem.holder n).1 (by rw [hp]; rfl)
  rcases hi.busy n (by rw [hp]; exact fun e => nomatch e) with ⟨k, e⟩ | ⟨t, ht⟩
  · rw [hp] at e; cases e
  · have hdoom : FrDoomed dies t n s := ⟨ht, hs, .inr (.inl ⟨hp, r, hr, hd⟩)⟩
    exact fun s' hs' k => (hdoom.run hi hs').holds (hi.run hs') k

/-- The call in progress. -/
theorem doing_iff {s : FrState L} {n : Nat} {k : MemCall L} : Doing s n k ↔ (s.m.pc n).call = some k := by
  unfold Doing
  cases s.m.pc n <;> simp [MemPc.call]

/-- A call that goes on stays the same call. -/
theorem MemStep.sameCall {c n : Nat} {s t : MemState L} {k : MemCall L} (h : MemStep c s t) (hc : s.pc c ≠ .idle) (hk : (t.pc n).call = some k) :
    (s.pc n).call = some k := by
  by_cases e : n = c
  · subst e
    cases h <;> simp only [MemState.move] at hk <;> grind [MemPc.call]
  · rw [← h.others e]; exact hk

/-- No destructor will log in what is under way. -/
def Quiet (dies : L → List L) (s : FrState L) : Prop := (∀ n, ¬ Doing s n .clean) ∨ Harmless dies s

theorem Quiet.go {s : FrState L} {m' : MemState L} {n : Nat} {td : Nat → List L} (h : Quiet dies s) (hn : s.m.pc n ≠ .idle) (hs : MemStep n s.m m') :
    Quiet dies { s with m := m', todo := td } := by
  rcases h with h | ⟨h1, h2, h3⟩
  · refine .inl fun x hx => h x ?_
    rw [doing_iff] at hx ⊢
    exact hs.sameCall hn hx
  · refine .inr ⟨?_, ?_, ?_⟩
    · show ∀ r ∈ m'.all, _
      cases hs with
      | @setAll k hp =>
        cases k with
        | save r =>
          intro x hx
          simp only [MemCall.onAll, List.mem_append, List.mem_singleton] at hx
          rcases hx with hx | hx
          · exact h1 x hx
          · subst hx; exact h3 n x (.inr (.inl hp))
        | clean => intro x hx; cases hx
        | construct => exact h1
      | empty _ => intro x hx; cases hx
      | _ => exact h1
    · show ∀ r ∈ m'.last, _
      cases hs with
      | @setLast k hp =>
        cases k with
        | save r =>
          intro x hx
          have : r = x := Option.some.inj hx
          subst this; exact h3 n r (.inr (.inr (.inl hp)))
        | clean => intro x hx; cases hx
        | construct => exact h2
      | _ => exact h2
    · intro x r hx
      refine h3 x r ?_
      rw [doing_iff] at hx ⊢
      exact hs.sameCall hn hx

theorem Quiet.freed {s : FrState L} (h : Quiet dies s) (n : Nat) : freedBy dies s.m n = [] := by
  unfold freedBy
  split
  · rename_i hp
    rcases h with h | ⟨h1, _, _⟩
    · exact absurd (.inr (.inl hp)) (h n)
    · rw [List.flatMap_eq_nil_iff]
      intro r hr
      exact h1 r (List.mem_of_mem_dropLast (List.mem_reverse.1 hr))
  · rename_i hp
    rcases h with h | ⟨_, h2, _⟩
    · exact absurd (.inr (.inr (.inl hp))) (h n)
    · rw [List.flatMap_eq_nil_iff]
      intro r hr
      exact h2 r (by simpa using hr)
  · rfl

/-- Steps that are left. -/
def MemPc.left : MemPc L → Nat
  | .waiting _ => 4
  | .holding _ => 3
  | .half _ => 2
  | .leaving _ => 1
  | _ => 0

theorem fr_finish_top (k : Nat) : ∀ {s : FrState L} {t n : Nat} {rest : List Nat}, FrInv s → Quiet dies s → (∀ x, s.todo x = []) →
    s.stack t = n :: rest → (s.m.sem = none ∨ s.m.sem = some n) → (s.m.pc n).left = k →
    ∃ s', FrOnward dies s s' ∧ FrInv s' ∧ Quiet dies s' ∧ (∀ x, s'.todo x = []) ∧ s'.stack = putAt s.stack t rest ∧ s'.m.sem = none := by
  induction k with
  | zero =>
    intro s t n rest hi hq ht hs hsem hk
    have hni := hi.idle t n (by rw [hs]; exact List.mem_cons_self)
    have hno := hi.mem.noInit n
    cases hp : s.m.pc n with
    | finished c =>
      have hr := FrStep.returns (dies := dies) (gc := false) s t n rest c hs (ht n) hp
      refine ⟨_, .returns t n rest c .here hs (ht n) hp, hi.step hr, hq, ht, rfl, ?_⟩
      rcases hsem with h | h
      · exact h
      · have := (hi.mem.holder n).2 h; rw [hp] at this; cases this
    | idle => exact absurd hp hni
    | notInited => exact absurd hp hno.1
    | emptied => exact absurd hp hno.2
    | waiting _ => rw [hp] at hk; cases hk
    | holding _ => rw [hp] at hk; cases hk
    | half _ => rw [hp] at hk; cases hk
    | leaving _ => rw [hp] at hk; cases hk
  | succ k ih =>
    intro s t n rest hi hq ht hs hsem hk
    have hni := hi.idle t n (by rw [hs]; exact List.mem_cons_self)
    have go : ∀ m', MemStep n s.m m' → (m'.sem = none ∨ m'.sem = some n) → (m'.pc n).left = k →
        ∃ s', FrOnward dies s s' ∧ FrInv s' ∧ Quiet dies s' ∧ (∀ x, s'.todo x = []) ∧ s'.stack = putAt s.stack t rest ∧ s'.m.sem = none := by
      intro m' hm h1 h2
      obtain ⟨s', a1, a2⟩ := ih (s := { s with m := m', todo := putAt s.todo n (freedBy dies s.m n) }) (t := t) (n := n) (rest := rest)
        (hi.step (FrStep.go (dies := dies) (gc := false) s t n rest m' hs (ht n) hm)) (hq.go hni hm)
        (fun x => by by_cases e : x = n <;> simp [putAt, e, hq.freed, ht]) hs h1 h2
      exact ⟨s', FrOnward.trans (.go t n rest m' .here hs (ht n) hm) a1, a2⟩
    cases hp : s.m.pc n with
    | waiting c =>
      have hk : k = 3 := by rw [hp] at hk; simp [MemPc.left] at hk; omega
      have hsn : s.m.sem = none := by
        rcases hsem with h | h
        · exact h
        · have := (hi.mem.holder n).2 h; rw [hp] at this; cases this
      exact go _ (.acquire hp hsn) (.inr rfl) (by subst hk; simp [MemState.move, MemPc.left])
    | holding c =>
      have hk : k = 2 := by rw [hp] at hk; simp [MemPc.left] at hk; omega
      exact go _ (.setAll hp) hsem (by subst hk; simp [MemState.move, MemPc.left])
    | half c =>
      have hk : k = 1 := by rw [hp] at hk; simp [MemPc.left] at hk; omega
      exact go _ (.setLast hp) hsem (by subst hk; simp [MemState.move, MemPc.left])
    | leaving c =>
      have hk : k = 0 := by rw [hp] at hk; simp [MemPc.left] at hk; omega
      exact go _ (.release hp) (.inl rfl) (by subst hk; simp [MemState.move, MemPc.left])
    | idle => exact absurd hp hni
    | notInited => rw [hp] at hk; cases hk
    | emptied => rw [hp] at hk; cases hk
    | finished _ => rw [hp] at hk; cases hk

theorem fr_finish_thread (l : List Nat) : ∀ {s : FrState L} {t : Nat}, FrInv s → Quiet dies s → (∀ x, s.todo x = []) →
    s.stack t = l → s.m.sem = none →
    ∃ s', FrOnward dies s s' ∧ FrInv s' ∧ Quiet dies s' ∧ (∀ x, s'.todo x = []) ∧ s'.stack = putAt s.stack t [] ∧ s'.m.sem = none := by
  induction l with
  | nil => exact fun {s t} hi hq ht hs hsem => ⟨s, .here, hi, hq, ht, funext fun x => by by_cases e : x = t <;> simp [putAt, e, hs], hsem⟩
  | cons n rest ih =>
    intro s t hi hq ht hs hsem
    obtain ⟨u, a1, a2, a3, a4, a5, a6⟩ := fr_finish_top _ hi hq ht hs (.inl hsem) rfl
    obtain ⟨v, b1, b2, b3, b4, b5, b6⟩ := ih a2 a3 a4 (t := t) (by rw [a5]; simp [putAt]) a6
    refine ⟨v, FrOnward.trans a1 b1, b2, b3, b4, ?_, b6⟩
    rw [b5, a5]
    funext x
    by_cases e : x = t <;> simp [putAt, e]

theorem fr_finish_all (N : Nat) : ∀ {s : FrState L}, FrInv s → Quiet dies s → (∀ x, s.todo x = []) →
    (∀ t, N ≤ t → s.stack t = []) → s.m.sem = none → ∃ s', FrOnward dies s s' ∧ ∀ t, s'.stack t = [] := by
  induction N with
  | zero => exact fun {s} _ _ _ h _ => ⟨s, .here, fun t => h t (Nat.zero_le t)⟩
  | succ N ih =>
    intro s hi hq ht hN hsem
    obtain ⟨u, a1, a2, a3, a4, a5, a6⟩ := fr_finish_thread _ hi hq ht (rfl : s.stack N = s.stack N) hsem
    obtain ⟨v, b1, b2⟩ := ih a2 a3 a4 (fun t h => by
      rw [a5]
      by_cases e : t = N
      · simp [putAt, e]
      · simpa [putAt, e] using hN t (by omega)) a6
    exact ⟨v, FrOnward.trans a1 b1, b2⟩

theorem fr_bound {s : FrState L} (h : FrRun dies gc (.ready L) s) : ∃ N, ∀ t, N ≤ t → s.stack t = [] := by
  induction h with
  | init => exact ⟨0, fun _ _ => rfl⟩
  | step _ hs ih =>
    obtain ⟨N, hN⟩ := ih
    have hpush : ∀ (u : FrState L) t l, (∀ t, N ≤ t → u.stack t = []) → ∃ N, ∀ x, N ≤ x → putAt u.stack t l x = [] := by
      intro u t l hu
      refine ⟨max N (t + 1), fun x hx => ?_⟩
      have : x ≠ t := by omega
      simp [putAt, this, hu x (by omega)]
    cases hs with
    | call t n k _ _ _ => exact hpush _ t _ hN
    | collected t n k _ _ => exact hpush _ t _ hN
    | destructor t n k _ _ => exact hpush _ t _ hN
    | returns t n k _ _ => exact hpush _ t _ hN
    | go => exact ⟨N, hN⟩

/-- **C112**: if no destructor logs inside the handler, every call that has begun can be finished, unless it is a `clean` that will free an object whose
destructor logs. -/
theorem C112_calls_can_be_finished (dies : L → List L) (gc : Bool) (s : FrState L) (h : FrRun dies gc (.ready L) s) (hno : ∀ t c, ¬ LogsInside s t c)
    (hq : (∀ n, ¬ Doing s n .clean) ∨ Harmless dies s) : ∃ s', FrOnward dies s s' ∧ ∀ t, s'.stack t = [] := by
  have hi := FrInv.ready.run h
  obtain ⟨N, hN⟩ := fr_bound h
  have hheld : ∀ n, (s.m.pc n).holds = true → ∃ t, n ∈ s.stack t := by
    intro n hh
    rcases hi.busy n (fun e => by rw [e] at hh; cases hh) with ⟨k, e⟩ | h
    · rw [e] at hh; cases hh
    · exact h
  have ht : ∀ x, s.todo x = [] := by
    intro x
    by_contra hc
    have hh : (s.m.pc x).holds = true := by rcases hi.todo x hc with e | e <;> rw [e] <;> rfl
    obtain ⟨t, hx⟩ := hheld x hh
    exact hno t x ⟨hx, (hi.mem.holder x).1 hh, .inr hc⟩
  cases hs : s.m.sem with
  | none => exact fr_finish_all N hi hq ht hN hs
  | some c =>
    obtain ⟨t, hc⟩ := hheld c ((hi.mem.holder c).2 hs)
    cases hst : s.stack t with
    | nil => rw [hst] at hc; cases hc
    | cons n rest =>
      have hn : n = c := by
        by_contra hne
        exact hno t c ⟨hc, hs, .inl (by rw [hst]; simpa using hne)⟩
      subst hn
      obtain ⟨u, a1, a2, a3, a4, a5, a6⟩ := fr_finish_top _ hi hq ht hst (.inr hs) rfl
      obtain ⟨v, b1, b2⟩ := fr_finish_all N a2 a3 a4 (fun x hx => by
        rw [a5]
        have hne : x ≠ t := fun e => by have := hN x hx; rw [e, hst] at this; cases this
        simpa [putAt, hne] using hN x hx) a6
      exact ⟨v, FrOnward.trans a1 b1, b2⟩

/-- **C112**: exactly when `clean` works. Nothing is in progress and a thread calls `clean()`: it returns exactly when no record that the handler has
is the last to hold an object whose destructor logs. -/
theorem C112_clean_returns_iff (dies : L → List L) (gc : Bool) (s : FrState L) (h : FrRun dies gc (.ready L) s) (hidle : ∀ t, s.stack t = [])
    (t n : Nat) (hn : s.m.pc n = .idle) :
    (∃ s', FrOnward dies (s.push t n .clean) s' ∧ ∀ t', s'.stack t' = []) ↔ ∀ r ∈ s.m.all, dies r = [] := by
  have hi := FrInv.ready.run h
  have h1 : FrRun dies gc (.ready L) (s.push t n .clean) := .step h (.call s t n .clean (hidle t) hn (fun e => nomatch e))
  have hi1 := FrInv.ready.run h1
  have hfree : ∀ x, (s.m.pc x).holds = false ∧ (s.m.pc x).call = none := by
    intro x
    cases hp : s.m.pc x with
    | idle => exact ⟨rfl, rfl⟩
    | finished k => exact ⟨rfl, rfl⟩
    | _ =>
      rcases hi.busy x (by rw [hp]; exact fun e => nomatch e) with ⟨k, e⟩ | ⟨t', h⟩
      · rw [hp] at e; cases e
      · rw [hidle t'] at h; cases h
  have hsem : s.m.sem = none := by
    cases hs : s.m.sem with
    | none => rfl
    | some c => have := (hi.mem.holder c).2 hs; rw [(hfree c).1] at this; cases this
  have hlast : s.m.last = s.m.all.getLast? := by
    rcases hi.mem.last with h | ⟨c, k, e⟩
    · exact h
    · have := (hfree c).1; rw [e] at this; cases this
  constructor
  · rintro ⟨s', hon, hall⟩ r hr
    by_contra hd
    have key : ∀ u, FrOnward dies (s.push t n .clean) u → FrDoomed dies t n u ∨
        (n ∈ u.stack t ∧ (∀ t', t' ≠ t → u.stack t' = []) ∧ u.stack t = [n] ∧ u.m.pc n = .waiting .clean ∧ u.todo n = [] ∧ u.m.all = s.m.all) := by
      intro u hu
      induction hu with
      | here =>
        refine .inr ⟨?_, ?_, ?_, ?_, ?_, rfl⟩
        · simp [FrState.push, putAt]
        · intro t' ht'; simp [FrState.push, putAt, ht', hidle]
        · simp [FrState.push, putAt, hidle]
        · simp [FrState.push, MemState.move]
        · show s.todo n = []
          by_contra hc
          rcases hi.todo n hc with e | e <;> rw [hn] at e <;> cases e
      | @go u t' c rest m' hu e1 e2 e3 ih =>
        have hiu := hi1.run (FrOnward.run (gc := gc) hu)
        rcases ih with hd | ⟨b1, b2, b3, b4, b5, b6⟩
        · exact .inl (hd.step hiu (.go (gc := gc) u t' c rest m' e1 e2 e3))
        · have ht' : t' = t := by
            by_contra hc
            rw [b2 t' hc] at e1; cases e1
          subst ht'
          rw [b3] at e1
          injection e1 with e4 e5
          subst e4
          cases e3 with
          | @acquire k hp hs =>
            have hk : k = .clean := by rw [b4] at hp; exact (MemPc.waiting.inj hp).symm
            subst hk
            exact .inl ⟨b1, rfl, .inr (.inl ⟨by simp [MemState.move], r, by show r ∈ u.m.all; rw [b6]; exact hr, hd⟩)⟩
          | start hp => rw [b4] at hp; cases hp
          | setAll hp => rw [b4] at hp; cases hp
          | setLast hp => rw [b4] at hp; cases hp
          | release hp => rw [b4] at hp; cases hp
          | skip hp => rw [b4] at hp; cases hp
          | begin hp => rw [b4] at hp; cases hp
          | empty hp => rw [b4] at hp; cases hp
          | mark hp => rw [b4] at hp; cases hp
      | @destructor u t' c x rest y ys hu e1 e2 e3 ih =>
        have hiu := hi1.run (FrOnward.run (gc := gc) hu)
        rcases ih with hd | ⟨b1, b2, b3, b4, b5, b6⟩
        · exact .inl (hd.step hiu (.destructor (gc := gc) u t' c x rest y ys e1 e2 e3))
        · have ht' : t' = t := by
            by_contra hc
            rw [b2 t' hc] at e1; cases e1
          subst ht'
          rw [b3] at e1
          injection e1 with e4 e5
          subst e4
          rw [b5] at e2; cases e2
      | @returns u t' c rest k hu e1 e2 e3 ih =>
        have hiu := hi1.run (FrOnward.run (gc := gc) hu)
        rcases ih with hd | ⟨b1, b2, b3, b4, b5, b6⟩
        · exact .inl (hd.step hiu (.returns (gc := gc) u t' c rest k e1 e2 e3))
        · have ht' : t' = t := by
            by_contra hc
            rw [b2 t' hc] at e1; cases e1
          subst ht'
          rw [b3] at e1
          injection e1 with e4 e5
          subst e4
          rw [b4] at e3; cases e3
    rcases key s' hon with hk | hk
    · have := hk.1; rw [hall t] at this; cases this
    · have := hk.1; rw [hall t] at this; cases this
  · intro hall
    refine C112_calls_can_be_finished dies gc _ h1 ?_ (.inr ⟨hall, ?_, ?_⟩)
    · rintro t' c ⟨_, hs, _⟩
      have hs : s.m.sem = some c := hs
      rw [hsem] at hs; cases hs
    · intro r hr
      have hr : s.m.last = some r := hr
      rw [hlast] at hr
      exact hall r (List.mem_of_getLast? hr)
    · intro x r hx
      rw [doing_iff] at hx
      by_cases e : x = n
      · subst e; simp [FrState.push, MemState.move, MemPc.call] at hx
      · simp [FrState.push, MemState.move, e, (hfree x).2] at hx

/-- One record saved by thread 0, as call 0. -/
theorem fr_saved (dies : Nat → List Nat) (r : Nat) : ∃ s : FrState Nat, FrRun dies false (.ready Nat) s ∧ s.m.hist = [(0, .save r)] ∧
    s.m.all = [r] ∧ (∀ t, s.stack t = []) ∧ s.m.pc 1 = .idle := by
  have r0 := FrRun.step (.init : FrRun dies false (.ready Nat) _) (.call _ 0 0 (.save r) rfl rfl (fun e => nomatch e))
  have r1 := r0.step (.go _ 0 0 [] _ rfl rfl (.acquire (call := .save r) rfl rfl))
  have r2 := r1.step (.go _ 0 0 [] _ rfl rfl (.setAll (call := .save r) rfl))
  have r3 := r2.step (.go _ 0 0 [] _ rfl rfl (.setLast (call := .save r) rfl))
  have r4 := r3.step (.go _ 0 0 [] _ rfl rfl (.release (call := .save r) rfl))
  have r5 := r4.step (.returns _ 0 0 [] (.save r) rfl rfl rfl)
  exact ⟨_, r5, rfl, rfl, fun t => by by_cases e : t = 0 <;> simp [putAt, e, FrState.push, FrState.ready], rfl⟩

/-- **C112** fails: "`clean()` always returns". One thread, the synchronous engine, a single record (1) that holds an object whose destructor
writes a log (2): `clean()` waits for ever for the semaphore that it holds itself. -/
theorem C112_clean_always_returns_fails : ∃ (dies : Nat → List Nat) (s : FrState Nat), FrRun dies false (.ready Nat) s ∧ s.m.hist = [(0, .save 1)] ∧
    (∀ t, s.stack t = []) ∧ s.m.pc 1 = .idle ∧ ¬ ∃ s', FrOnward dies (s.push 0 1 .clean) s' ∧ ∀ t, s'.stack t = [] := by
  obtain ⟨s, h1, h2, h3, h4, h5⟩ := fr_saved (fun r => if r = 1 then [2] else []) 1
  refine ⟨_, s, h1, h2, h4, h5, fun hc => ?_⟩
  have := (C112_clean_returns_iff _ false s h1 h4 0 1 h5).1 hc 1 (by rw [h3]; exact List.mem_singleton.2 rfl)
  cases this

-- the same record without a destructor that logs: `clean()` returns
example : ∃ s : FrState Nat, FrRun (fun _ => []) false (.ready Nat) s ∧ s.m.all = [1] ∧ (∀ t, s.stack t = []) ∧
    ∃ s', FrOnward (fun _ => []) (s.push 0 1 .clean) s' ∧ ∀ t, s'.stack t = [] := by
  obtain ⟨s, h1, h2, h3, h4, h5⟩ := fr_saved (fun _ => []) 1
  exact ⟨s, h1, h3, h4, (C112_clean_returns_iff _ false s h1 h4 0 1 h5).2 (fun _ _ => rfl)⟩

/-- **C112** fails: "saving a record always returns": the garbage collector runs while a record is saved, and the destructor of any object it finds
writes a log in the same thread: neither call returns. -/
theorem C112_saving_always_returns_fails : ∃ s : FrState Nat, FrRun (fun _ => []) true (.ready Nat) s ∧ LogsInside s 0 0 ∧
    s.m.pc 0 = .holding (.save 4) ∧ s.m.pc 1 = .waiting (.save 5) ∧ HangsForever (fun _ => []) true s 0 ∧ HangsForever (fun _ => []) true s 1 := by
  have r0 := FrRun.step (.init : FrRun (fun _ => []) true (.ready Nat) _) (.call _ 0 0 (.save 4) rfl rfl (fun e => nomatch e))
  have r1 := r0.step (.go _ 0 0 [] _ rfl rfl (.acquire (call := .save 4) rfl rfl))
  have r2 := r1.step (.collected _ 0 1 5 rfl rfl)
  have key := C112_log_inside_stops_the_handler _ true _ r2 0 0
  exact ⟨_, r2, ⟨by decide, rfl, .inl (by decide)⟩, rfl, rfl, (key ⟨by decide, rfl, .inl (by decide)⟩).1,
    (key ⟨by decide, rfl, .inl (by decide)⟩).2.1 1 (.inr ⟨_, rfl⟩)⟩

-- a destructor logs before the interrupted call has taken the semaphore: everything can be finished
example : ∃ s : FrState Nat, FrRun (fun _ => []) true (.ready Nat) s ∧ s.stack 0 = [1, 0] ∧ (∀ t c, ¬ LogsInside s t c) ∧ ∀ n, ¬ Doing s n .clean := by
  have r0 := FrRun.step (.init : FrRun (fun _ => []) true (.ready Nat) _) (.call _ 0 0 (.save 4) rfl rfl (fun e => nomatch e))
  have r1 := r0.step (.collected _ 0 1 5 rfl rfl)
  refine ⟨_, r1, rfl, fun t c h => ?_, fun n h => ?_⟩
  · have := h.2.1; cases this
  · rw [doing_iff] at h
    simp only [FrState.push, FrState.ready, MemState.ready, MemState.move] at h
    by_cases e : n = 1
    · simp [e, MemPc.call] at h
    · by_cases e' : n = 0
      · simp [e', MemPc.call] at h
      · simp [e, e', MemPc.call] at h

end Polog
