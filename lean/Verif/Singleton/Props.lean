import Verif.Singleton.Spec
import Verif.Singleton.Model

/-! C48: singletons. -/

namespace Polog

theorem NewRun.trans {s t u : NewState} (h : NewRun s t) (h' : NewRun t u) : NewRun s u := by
  induction h' with
  | refl => exact h
  | step _ hs ih => exact .step ih hs

theorem SoloRun.toRun {c : Nat} {s t : NewState} (h : SoloRun c s t) : NewRun s t := by
  induction h with
  | refl => exact .refl
  | step _ hs ih => exact .step ih hs

/-- The invariant of all executions. -/
structure NewInv (s : NewState) : Prop where
  holder : ∀ c, (s.pc c).holds = true ↔ s.lock = some c
  quick : s.quickNew = true → ∃ o, s.inst = some o
  fresh : ∀ o, s.inst = some o → o < s.next
  created : ∀ c o, s.pc c = .created o → o < s.next
  assigned : ∀ c, s.pc c = .assigned ∨ s.pc c = .replaced → ∃ o, s.inst = some o
  leaving : ∀ c o, s.pc c = .leaving o → s.inst = some o
  isQuick : ∀ c, s.pc c = .quick → s.quickNew = true

theorem newInv_init : NewInv NewState.init where
  holder := fun c => by simp [NewState.init, NewPc.holds, NewPc.inside]
  quick := fun h => nomatch h
  fresh := fun _ h => nomatch h
  created := fun _ _ h => nomatch h
  assigned := fun _ h => by rcases h with h | h <;> cases h
  leaving := fun _ _ h => nomatch h
  isQuick := fun _ h => nomatch h

theorem move_self (s : NewState) (c : Nat) (p : NewPc) : s.move c p c = p := if_pos rfl
theorem move_other (s : NewState) {c c' : Nat} (h : c' ≠ c) (p : NewPc) : s.move c p c' = s.pc c' := if_neg h

/-- The calls that hold the lock other than `c`: none. -/
theorem NewInv.alone {s : NewState} (h : NewInv s) {c c' : Nat} (hc : (s.pc c).holds = true)
    (hc' : (s.pc c').holds = true) : c' = c := by
  have h1 := (h.holder c).1 hc
  have h2 := (h.holder c').1 hc'
  rw [h1] at h2
  exact (Option.some.inj h2).symm

theorem newInv_step {c : Nat} {s t : NewState} (h : NewInv s) (hs : NewStep c s t) : NewInv t := by
  obtain ⟨h1, h2, h3, h4, h5, h6, h7⟩ := h
  have h8 := h1 c
  cases hs <;> constructor <;> intros <;>
    grind [NewState.move, NewPc.holds, NewPc.inside]

theorem newInv_run {s t : NewState} (h : NewInv s) (hr : NewRun s t) : NewInv t := by
  induction hr with
  | refl => exact h
  | step _ hs ih => exact newInv_step ih hs

/-- **C48**: the original constructor never runs in two calls at the same time. -/
theorem C48_constructor_exclusive {s : NewState} (hr : NewRun NewState.init s) {c c' : Nat}
    (hc : (s.pc c).holds = true) (hc' : (s.pc c').holds = true) : c' = c :=
  (newInv_run newInv_init hr).alone hc hc'

/-- **C48**: the lock cannot leave the constructors stuck: as long as some started call has not
returned, some call can go on. -/
theorem C48_no_deadlock {s : NewState} (hr : NewRun NewState.init s) {c : Nat}
    (h0 : s.pc c ≠ .idle) (h1 : ∀ o, s.pc c ≠ .returned o) : ∃ c' t, NewStep c' s t := by
  have hi := newInv_run newInv_init hr
  have key : ∀ c', (s.pc c').holds = true → ∃ t, NewStep c' s t := by
    intro c' hh
    cases hp : s.pc c' with
    | idle => rw [hp] at hh; cases hh
    | original => rw [hp] at hh; cases hh
    | quick => rw [hp] at hh; cases hh
    | returned o => rw [hp] at hh; cases hh
    | locked => exact ⟨_, .create hp⟩
    | created o => exact ⟨_, .assign hp⟩
    | assigned => exact ⟨_, .replace hp⟩
    | replaced => obtain ⟨o, ho⟩ := hi.assigned c' (.inr hp); exact ⟨_, .read hp ho⟩
    | leaving o => exact ⟨_, .leave hp⟩
  cases hp : s.pc c with
  | idle => exact absurd hp h0
  | returned o => exact absurd hp (h1 o)
  | quick =>
    obtain ⟨o, ho⟩ := hi.quick (hi.isQuick c hp)
    exact ⟨c, _, .readQuick hp ho⟩
  | original =>
    cases hl : s.lock with
    | none => exact ⟨c, _, .acquire hp hl⟩
    | some c' => obtain ⟨t, ht⟩ := key c' ((hi.holder c').2 hl); exact ⟨c', t, ht⟩
  | locked => obtain ⟨t, ht⟩ := key c (by rw [hp]; rfl); exact ⟨c, t, ht⟩
  | created o => obtain ⟨t, ht⟩ := key c (by rw [hp]; rfl); exact ⟨c, t, ht⟩
  | assigned => obtain ⟨t, ht⟩ := key c (by rw [hp]; rfl); exact ⟨c, t, ht⟩
  | replaced => obtain ⟨t, ht⟩ := key c (by rw [hp]; rfl); exact ⟨c, t, ht⟩
  | leaving o => obtain ⟨t, ht⟩ := key c (by rw [hp]; rfl); exact ⟨c, t, ht⟩

theorem settled_step {c o : Nat} {s t : NewState} (h : Settled s) (ho : s.inst = some o)
    (hs : NewStep c s t) : Settled t ∧ t.inst = some o ∧
      ∀ c' o', t.pc c' = .returned o' → s.pc c' = .returned o' ∨ o' = o := by
  obtain ⟨h1, h2⟩ := h
  have h3 := h2 c
  cases hs <;> refine ⟨⟨?_, ?_⟩, ?_, ?_⟩ <;> intros <;> grind [NewState.move, NewPc.inside]

/-- **C48**, once the first construction is over: from any reachable moment at which the object has
been constructed and no call is inside the original constructor, all calls that return later, in any
interleaving and number, return one and the same object.  What is missing: calls that raced with the
first construction (`C48_two_objects_fails`). -/
theorem C48_after_first_construction_partial {s : NewState} (hr : NewRun NewState.init s)
    (h : Settled s) : ∃ o, ∀ t, NewRun s t →
      ∀ c o', t.pc c = .returned o' → s.pc c = .returned o' ∨ o' = o := by
  obtain ⟨o, ho⟩ := (newInv_run newInv_init hr).quick h.1
  refine ⟨o, fun t ht => ?_⟩
  have : Settled t ∧ t.inst = some o ∧
      ∀ c o', t.pc c = .returned o' → s.pc c = .returned o' ∨ o' = o := by
    induction ht with
    | refl => exact ⟨h, ho, fun c o' hc => .inl hc⟩
    | step _ hs ih =>
      obtain ⟨a, b, d⟩ := settled_step ih.1 ih.2.1 hs
      refine ⟨a, b, fun c o' hc => ?_⟩
      rcases d c o' hc with hc | hc
      · exact ih.2.2 c o' hc
      · exact .inr hc
  exact this.2.2

/-- The first call running alone. -/
theorem solo_first {c : Nat} {s : NewState} (h : SoloRun c NewState.init s) :
    (∀ c', c' ≠ c → s.pc c' = .idle) ∧
    (∀ o, s.pc c = .returned o → s.quickNew = true ∧ s.inst = some o) ∧
    (∀ o, s.pc c = .leaving o → s.quickNew = true ∧ s.inst = some o) ∧
    (s.pc c = .replaced → s.quickNew = true) ∧
    (s.pc c = .quick → s.quickNew = true) := by
  induction h with
  | refl => refine ⟨fun _ _ => rfl, ?_, ?_, ?_, ?_⟩ <;> intros <;> (try constructor) <;> contradiction
  | @step t u hr hs ih =>
    obtain ⟨a, b, d, e, f⟩ := ih
    cases hs <;> refine ⟨?_, ?_, ?_, ?_, ?_⟩ <;> intros <;> grind [NewState.move]

/-- **C48**, when the first call returns before any other call starts (for the settings and the engine
this is the import of Polog): then all calls ever return the same object. -/
theorem C48_first_call_alone_partial {c o : Nat} {s : NewState} (h : SoloRun c NewState.init s)
    (hc : s.pc c = .returned o) :
    ∀ t, NewRun s t → ∀ c' o', t.pc c' = .returned o' → o' = o := by
  obtain ⟨h1, h2, _⟩ := solo_first h
  obtain ⟨hq, hi⟩ := h2 o hc
  have hset : Settled s := ⟨hq, fun c' => by
    by_cases e : c' = c
    · rw [e, hc]; rfl
    · rw [h1 c' e]; rfl⟩
  intro t ht
  have : Settled t ∧ t.inst = some o ∧ ∀ c' o', t.pc c' = .returned o' → o' = o := by
    induction ht with
    | refl =>
      refine ⟨hset, hi, fun c' o' hc' => ?_⟩
      by_cases e : c' = c
      · rw [e, hc] at hc'; exact (NewPc.returned.inj hc').symm
      · rw [h1 c' e] at hc'; cases hc'
    | step _ hs ih =>
      obtain ⟨a, b, d⟩ := settled_step ih.1 ih.2.1 hs
      refine ⟨a, b, fun c' o' hc' => ?_⟩
      rcases d c' o' hc' with hc' | hc'
      · exact ih.2.2 c' o' hc'
      · exact hc'
  exact this.2.2

/-- A call running from the original constructor to its end without interruption. -/
theorem run_inside {s : NewState} {c : Nat} (hp : s.pc c = .original) (hl : s.lock = none) :
    NewRun s ⟨none, some s.next, true, s.next + 1, s.move c (.returned s.next)⟩ := by
  have r1 := NewRun.step (.refl : NewRun s s) (.acquire hp hl)
  have r2 := r1.step (.create (c := c) (move_self _ _ _))
  have r3 := r2.step (.assign (c := c) (move_self _ _ _))
  have r4 := r3.step (.replace (c := c) (move_self _ _ _))
  have r5 := r4.step (.read (c := c) (o := s.next) (move_self _ _ _) rfl)
  have r6 := r5.step (.leave (c := c) (move_self _ _ _))
  have key : ∀ pc', pc' = s.move c (.returned s.next) → NewRun s ⟨none, some s.next, true, s.next + 1, pc'⟩ →
      NewRun s ⟨none, some s.next, true, s.next + 1, s.move c (.returned s.next)⟩ := fun _ h r => h ▸ r
  refine key _ (funext fun c' => ?_) r6
  by_cases h : c' = c
  · subst h; simp only [move_self]
  · simp only [move_other _ h]

-- the first call can run alone to its end
example : ∃ s, SoloRun 0 NewState.init s ∧ s.pc 0 = .returned 0 := by
  have r0 := SoloRun.step (.refl : SoloRun 0 NewState.init _) (.lookOriginal (c := 0) rfl rfl)
  have r1 := r0.step (.acquire (c := 0) rfl rfl)
  have r2 := r1.step (.create (c := 0) rfl)
  have r3 := r2.step (.assign (c := 0) rfl)
  have r4 := r3.step (.replace (c := 0) rfl)
  have r5 := r4.step (.read (c := 0) (o := 0) rfl rfl)
  have r6 := r5.step (.leave (c := 0) rfl)
  exact ⟨_, r6, rfl⟩

/-- **C48** fails for calls racing with the first construction: calls 0 and 1 both find the original
constructor, 0 makes the object 0 and returns it, call 2 gets the object 0 as well, then call 1 makes
another object, which call 3 gets. -/
theorem C48_two_objects_fails : ∃ s, NewRun NewState.init s ∧
    s.pc 0 = .returned 0 ∧ s.pc 2 = .returned 0 ∧ s.pc 1 = .returned 1 ∧ s.pc 3 = .returned 1 := by
  have r0 := NewRun.step (.refl : NewRun NewState.init _) (.lookOriginal (c := 0) rfl rfl)
  have r1 := r0.step (.lookOriginal (c := 1) rfl rfl)
  have r2 := r1.trans (run_inside (c := 0) rfl rfl)
  have r3 := r2.step (.lookQuick (c := 2) rfl rfl)
  have r4 := r3.step (.readQuick (c := 2) (o := 0) rfl rfl)
  have r5 := r4.trans (run_inside (c := 1) rfl rfl)
  have r6 := r5.step (.lookQuick (c := 3) rfl rfl)
  have r7 := r6.step (.readQuick (c := 3) (o := 1) rfl rfl)
  exact ⟨_, r7, rfl, rfl, rfl, rfl⟩

end Polog
