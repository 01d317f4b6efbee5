import Verif.Nested.Spec

/-! Lemmas for C91. -/

namespace Polog
namespace Nst

open NestedSpec

theorem set_split {α : Type} : ∀ (l : List α) (k : Nat) (e e' : α), l[k]? = some e →
    ∃ A B, l = A ++ e :: B ∧ l.set k e' = A ++ e' :: B := by
  intro l
  induction l with
  | nil => intro k e e' h; simp at h
  | cons a l ih =>
    intro k e e' h
    cases k with
    | zero => simp at h; exact ⟨[], l, by simp [h], by simp⟩
    | succ k =>
      simp at h
      obtain ⟨A, B, h1, h2⟩ := ih k e e' h
      refine ⟨a :: A, B, by rw [h1]; rfl, ?_⟩
      rw [List.set_cons_succ, h2]; rfl

/-! ### Where logs are -/

def pcIds : NPc → List Nat
  | .wait l => allOf l
  | .fetch l _ => allOf l
  | .hand l _ _ => allOf l
  | _ => []

def frameIds (f : NFrame) : List Nat := f.id :: idsOf f.todo

def threadIds (t : NThread) : List Nat := pcIds t.pc ++ t.frames.flatMap frameIds

def engIds (e : NEng) : List Nat := e.queue.flatMap allOf

def places (s : NState) : List Nat := s.threads.flatMap threadIds ++ s.sh.engines.flatMap engIds

theorem pcIds_rest : pcIds .rest = [] := rfl

theorem pcIds_call (sh : NShared) (l : NLog) : pcIds (nCall sh l) = allOf l := by
  unfold nCall; split <;> rfl

theorem work_count {sh sh' : NShared} {a a' : NThread} (h : NWork sh a sh' a') (x : Nat) :
    (sh'.written.flatMap allOf).count x + (sh.handled.count x + (threadIds a).count x
        + (sh.engines.flatMap engIds).count x)
      = (sh.written.flatMap allOf).count x + (sh'.handled.count x + (threadIds a').count x
        + (sh'.engines.flatMap engIds).count x) := by
  cases h with
  | call l =>
    have := pcIds_call sh l
    simp only [threadIds, this, pcIds_rest, List.flatMap_append, List.flatMap_cons, List.flatMap_nil, List.count_append,
      List.append_nil, List.count_nil]
    omega
  | nested kd f i c r lk fs =>
    have := pcIds_call sh ⟨i, c⟩
    simp only [threadIds, this, pcIds_rest, frameIds, idsOf, allOf, List.flatMap_cons, List.count_cons, List.count_append,
      List.count_nil, List.nil_append, List.cons_append]
    omega
  | acquire kd fs l h => simp [threadIds, pcIds]
  | fetch kd fs l lk k h => simp [threadIds, pcIds]
  | handSingle kd fs l lk k e he hs => simp [threadIds, pcIds, frameIds, allOf]
  | handPool kd fs l lk k e he hs room =>
    obtain ⟨A, B, h1, h2⟩ := set_split sh.engines k e { e with queue := e.queue ++ [l] } he
    simp only [nRelease, h2]
    rw [h1]
    simp [threadIds, pcIds, engIds]; omega
  | done kd f lk fs => simp [threadIds, pcIds, frameIds, idsOf, nRelease, List.count_cons]; omega
  | take k e l q he hq =>
    obtain ⟨A, B, h1, h2⟩ := set_split sh.engines k e { e with queue := q } he
    simp only [h2]
    rw [h1]
    simp [threadIds, pcIds, engIds, hq, frameIds, allOf, List.count_cons]; omega
  | expire k e he hq => simp [threadIds, pcIds]
  | again k e he hf => simp [threadIds, pcIds]
  | exit k e he hf => simp [threadIds, pcIds]

theorem admin_count {pre post : List NThread} {sh sh' : NShared} {a a' : NThread} {new : List NThread}
    (h : NAdmin pre post sh a sh' a' new) :
    sh'.written = sh.written ∧ sh'.handled = sh.handled ∧ threadIds a' = threadIds a ∧
      sh'.engines.flatMap engIds = sh.engines.flatMap engIds ∧ new.flatMap threadIds = [] := by
  cases h with
  | start kd fs exit => simp [threadIds, pcIds]
  | lock kd fs exit h => simp [threadIds, pcIds]
  | swap kd fs exit => simp [threadIds, pcIds]
  | stopSingle kd fs exit k e hk he hs => cases exit <;> simp [threadIds, pcIds]
  | stopPool kd fs exit k e hk he hs => simp [threadIds, pcIds]
  | drained kd fs exit k e he hq =>
    obtain ⟨A, B, h1, h2⟩ := set_split sh.engines k e { e with flag := true } he
    simp only [h2]
    rw [h1]
    simp [threadIds, pcIds, engIds]
  | joined kd fs exit k h => cases exit <;> simp [threadIds, pcIds]
  | load kd fs size cap =>
    refine ⟨rfl, rfl, rfl, by simp [engIds], ?_⟩
    induction size with
    | zero => rfl
    | succ n ih => rw [List.replicate_succ, List.flatMap_cons, ih]; rfl
  | unblock kd fs => simp [threadIds, pcIds]
  | release kd fs => simp [threadIds, pcIds]

def Conserved (s : NState) : Prop := ∀ x, (due s).count x = s.sh.handled.count x + (places s).count x

theorem step_conserved {b : Bool} {s s' : NState} (h : NStep b s s') (hc : Conserved s) : Conserved s' := by
  intro x
  have hx := hc x
  cases h with
  | work pre post sh sh' a a' h =>
    have := work_count h x
    simp only [due, places, List.flatMap_append, List.flatMap_cons, List.count_append] at hx this ⊢
    omega
  | admin pre post new sh sh' a a' h =>
    obtain ⟨h1, h2, h3, h4, h5⟩ := admin_count h
    simp only [due, places, List.flatMap_append, List.flatMap_cons, List.count_append, h1, h2, h3, h4, h5,
      List.count_nil] at hx ⊢
    omega

theorem start_conserved (clients size cap : Nat) : Conserved (.start clients size cap) := by
  intro x
  have h : ∀ (n : Nat) (kd : NKind), (List.replicate n (⟨kd, [], .rest⟩ : NThread)).flatMap threadIds = [] := by
    intro n kd
    induction n with
    | zero => rfl
    | succ n ih => rw [List.replicate_succ, List.flatMap_cons, ih]; rfl
  simp [due, places, NState.start, h, engIds]

theorem reach_conserved {ad : Bool} {s₀ s : NState} (h : NReach ad s₀ s) (h0 : Conserved s₀) : Conserved s := by
  induction h with
  | init => exact h0
  | step b _ hs _ ih => exact step_conserved hs ih

theorem quiet_places {s : NState} (h : AllQuiet s) : places s = [] := by
  obtain ⟨h1, h2⟩ := h
  simp only [places, List.append_eq_nil_iff, List.flatMap_eq_nil_iff]
  constructor
  · intro t ht
    obtain ⟨hf, hp⟩ := h1 t ht
    rcases hp with hp | hp | hp <;> simp [threadIds, hf, hp, pcIds]
  · intro e he
    simp [engIds, h2 e he]

/-! ### Every productive step uses something up -/

def weightOf : NLogs → Nat
  | .nil => 0
  | .cons _ c r => 6 + weightOf c + weightOf r

def pcWeight : NPc → Nat
  | .wait l => 5 + weightOf l.children
  | .fetch l _ => 4 + weightOf l.children
  | .hand l _ _ => 3 + weightOf l.children
  | .expired => 1
  | _ => 0

def frameWeight (f : NFrame) : Nat := 1 + weightOf f.todo

def threadWeight (t : NThread) : Nat := pcWeight t.pc + (t.frames.map frameWeight).sum

def engWeight (e : NEng) : Nat := (e.queue.map (fun l => 2 + weightOf l.children)).sum

def weight (s : NState) : Nat := (s.threads.map threadWeight).sum + (s.sh.engines.map engWeight).sum

theorem pcWeight_call (sh : NShared) (l : NLog) : pcWeight (nCall sh l) ≤ 5 + weightOf l.children := by
  unfold nCall; split <;> simp [pcWeight]

theorem work_weight {sh sh' : NShared} {a a' : NThread} (h : NWork sh a sh' a')
    (hw : sh'.written = sh.written) (hp : a'.pc = .expired → a.pc = .expired) :
    threadWeight a' + (sh'.engines.map engWeight).sum < threadWeight a + (sh.engines.map engWeight).sum := by
  cases h with
  | call l => simp at hw
  | nested kd f i c r lk fs =>
    have := pcWeight_call sh ⟨i, c⟩
    simp only [threadWeight, frameWeight, weightOf, List.map_cons, List.sum_cons, pcWeight] at this ⊢
    omega
  | acquire kd fs l h => simp [threadWeight, pcWeight]
  | fetch kd fs l lk k h => simp [threadWeight, pcWeight]
  | handSingle kd fs l lk k e he hs => simp [threadWeight, pcWeight, frameWeight] <;> omega
  | handPool kd fs l lk k e he hs room =>
    obtain ⟨A, B, h1, h2⟩ := set_split sh.engines k e { e with queue := e.queue ++ [l] } he
    simp only [nRelease, h2]
    rw [h1]
    simp [threadWeight, pcWeight, engWeight]; omega
  | done kd f lk fs => simp [threadWeight, pcWeight, frameWeight, weightOf, nRelease]
  | take k e l q he hq =>
    obtain ⟨A, B, h1, h2⟩ := set_split sh.engines k e { e with queue := q } he
    simp only [h2]
    rw [h1]
    simp [threadWeight, pcWeight, engWeight, hq, frameWeight]
    try omega
  | expire k e he hq => simp at hp
  | again k e he hf => simp [threadWeight, pcWeight]
  | exit k e he hf => simp [threadWeight, pcWeight]

theorem getsOn_weight {s s' : NState} (h : GetsOn s s') : weight s' < weight s := by
  obtain ⟨hs, hw, hp⟩ := h
  cases hs with
  | work pre post sh sh' a a' h =>
    have hx : a'.pc = .expired → a.pc = .expired := by
      intro e
      refine Classical.byContradiction (fun hn => ?_)
      simp [polls, List.countP_cons, e, hn] at hp
      omega
    have := work_weight h hw hx
    simp only [weight, List.map_append, List.map_cons, List.sum_append, List.sum_cons] at this ⊢
    omega

theorem goesOn_weight {s s' : NState} (h : GoesOn s s') : weight s' ≤ weight s := by
  induction h with
  | here s => exact Nat.le_refl _
  | step h _ ih => have := getsOn_weight h; omega

/-! ### Without reloads nothing gets stuck when the queue has no limit -/

/-- What holds of every thread in executions without reloads. -/
def CalmThread (n : Nat) (t : NThread) : Prop :=
  (t.kind = .client ∨ (t.kind = .worker 0 ∧ n ≠ 0)) ∧
  (t.pc = .rest ∨ (∃ l, t.pc = .fetch l false) ∨ (∃ l, t.pc = .hand l 0 false) ∨
    (t.pc = .expired ∧ t.kind = .worker 0 ∧ t.frames = [])) ∧
  ∀ f ∈ t.frames, f.locked = false

structure CalmSt (n : Nat) (s : NState) : Prop where
  lock : s.sh.lock = false
  free : s.sh.blocked = false
  eng : ∃ q, s.sh.engines = [⟨n, 0, q, false⟩] ∧ (n = 0 → q = [])
  thr : ∀ t ∈ s.threads, CalmThread n t
  some : n ≠ 0 → ∃ t ∈ s.threads, t.kind = .worker 0

theorem work_kind {sh sh' : NShared} {a a' : NThread} (h : NWork sh a sh' a') : a'.kind = a.kind := by
  cases h <;> rfl

theorem calm_start (clients n : Nat) : CalmSt n (.start clients n 0) := by
  constructor
  · rfl
  · rfl
  · exact ⟨[], rfl, fun _ => rfl⟩
  · intro t ht
    simp only [NState.start, List.mem_append, List.mem_replicate] at ht
    rcases ht with ⟨_, rfl⟩ | ⟨hn, rfl⟩
    · exact ⟨.inl rfl, .inl rfl, by simp⟩
    · exact ⟨.inr ⟨rfl, hn⟩, .inl rfl, by simp⟩
  · intro hn
    exact ⟨⟨.worker 0, [], .rest⟩, by simp [NState.start, hn], rfl⟩

theorem calm_step {n : Nat} {s s' : NState} (h : NStep false s s') (hc : CalmSt n s) : CalmSt n s' := by
  cases h with
  | work pre post sh sh' a a' h =>
    obtain ⟨hl, hb, ⟨q, he, hq⟩, ht, hs⟩ := hc
    have hk := work_kind h
    have ha : CalmThread n a := ht a (by simp)
    have key : sh'.lock = false ∧ sh'.blocked = false ∧ (∃ q, sh'.engines = [⟨n, 0, q, false⟩] ∧ (n = 0 → q = [])) ∧
        CalmThread n a' := by
      simp only at hl hb he hq
      obtain ⟨h1, h2, h3⟩ := ha
      cases h with
      | call l =>
        refine ⟨hl, hb, ⟨q, he, hq⟩, h1, .inr (.inl ⟨l, by simp [nCall, hb]⟩), by simp⟩
      | nested kd f i c r lk fs =>
        refine ⟨hl, hb, ⟨q, he, hq⟩, h1, .inr (.inl ⟨⟨i, c⟩, by simp [nCall, hb]⟩), ?_⟩
        intro g hg
        rcases List.mem_cons.mp hg with rfl | hg
        · exact h3 ⟨f, .cons i c r, lk⟩ (by simp)
        · exact h3 g (by simp [hg])
      | acquire kd fs l h => simp at h2
      | fetch kd fs l lk k h =>
        simp [he] at h
        subst h
        simp at h2
        subst h2
        exact ⟨hl, hb, ⟨q, he, hq⟩, h1, .inr (.inr (.inl ⟨l, rfl⟩)), h3⟩
      | handSingle kd fs l lk k e he' hs' =>
        simp at h2
        refine ⟨hl, hb, ⟨q, he, hq⟩, h1, .inl rfl, ?_⟩
        intro g hg
        rcases List.mem_cons.mp hg with rfl | hg
        · exact h2.2
        · exact h3 g hg
      | handPool kd fs l lk k e he' hs' room =>
        simp at h2
        obtain ⟨rfl, rfl⟩ := h2
        simp [he] at he'
        subst he'
        refine ⟨by simp [nRelease, hl], by simp [nRelease, hb], ⟨q ++ [l], by simp [nRelease, he], ?_⟩, h1, .inl rfl, h3⟩
        intro hn; exact absurd hn hs'
      | done kd f lk fs =>
        refine ⟨by simp [nRelease, hl], by simp [nRelease, hb], ⟨q, by simp [nRelease, he], hq⟩, h1, .inl rfl, ?_⟩
        intro g hg; exact h3 g (by simp [hg])
      | take k e l q' he' hq' =>
        have hk0 : k = 0 := by
          rcases h1 with h1 | ⟨h1, _⟩
          · simp at h1
          · simpa using h1
        subst hk0
        simp [he] at he'
        subst he'
        refine ⟨hl, hb, ⟨q', by simp [he], ?_⟩, h1, .inl rfl, by simp⟩
        intro hn
        simp at hq'
        simp [hq hn] at hq'
      | expire k e he' hq' =>
        have hk0 : k = 0 := by
          rcases h1 with h1 | ⟨h1, _⟩
          · simp at h1
          · simpa using h1
        subst hk0
        exact ⟨hl, hb, ⟨q, he, hq⟩, h1, .inr (.inr (.inr ⟨rfl, rfl, rfl⟩)), by simp⟩
      | again k e he' hf => exact ⟨hl, hb, ⟨q, he, hq⟩, h1, .inl rfl, by simp⟩
      | exit k e he' hf =>
        have hk0 : k = 0 := by
          rcases h1 with h1 | ⟨h1, _⟩
          · simp at h1
          · simpa using h1
        subst hk0
        simp [he] at he'
        subst he'
        simp at hf
    obtain ⟨k1, k2, k3, k4⟩ := key
    refine ⟨k1, k2, k3, ?_, ?_⟩
    · intro t htt
      simp only [List.mem_append, List.mem_cons] at htt
      rcases htt with htt | rfl | htt
      · exact ht t (by simp [htt])
      · exact k4
      · exact ht t (by simp [htt])
    · intro hn
      obtain ⟨t, htt, htk⟩ := hs hn
      simp only [List.mem_append, List.mem_cons] at htt
      rcases htt with htt | rfl | htt
      · exact ⟨t, by simp [htt], htk⟩
      · exact ⟨a', by simp, by rw [hk, htk]⟩
      · exact ⟨t, by simp [htt], htk⟩

theorem calm_reach {clients n : Nat} {s : NState} (h : NReach false (.start clients n 0) s) : CalmSt n s := by
  induction h with
  | init => exact calm_start clients n
  | step b _ hs hb ih =>
    cases b with
    | false => exact calm_step hs ih
    | true => exact absurd (hb rfl) (by simp)

/-- A step of one thread that is neither a call of a client nor a poll. -/
theorem lift {sh sh' : NShared} {pre post : List NThread} {a a' : NThread} (h : NWork sh a sh' a')
    (hw : sh'.written = sh.written) (hp : a'.pc ≠ .expired) :
    ∃ s', GetsOn ⟨sh, pre ++ a :: post⟩ s' := by
  refine ⟨_, .work pre post sh sh' a a' h, hw, ?_⟩
  simp [polls, List.countP_cons, hp]

theorem busy_moves {n : Nat} {s : NState} (hc : CalmSt n s) {t : NThread} (ht : t ∈ s.threads)
    (hb : t.frames ≠ [] ∨ ¬ (t.pc = .rest ∨ t.pc = .expired)) : ∃ s', GetsOn s s' := by
  obtain ⟨⟨lock, blocked, engines, handled, written⟩, threads⟩ := s
  obtain ⟨hl, hbl, ⟨q, he, hq⟩, hth, hs⟩ := hc
  simp only at hl hbl he hq ht
  subst hl hbl he
  obtain ⟨pre, post, rfl⟩ := List.append_of_mem ht
  obtain ⟨h1, h2, h3⟩ := hth t ht
  obtain ⟨kd, frames, pc⟩ := t
  simp only at h1 h2 h3 hb
  rcases h2 with rfl | ⟨l, rfl⟩ | ⟨l, rfl⟩ | ⟨rfl, _, rfl⟩
  · cases frames with
    | nil => simp at hb
    | cons f fs =>
      obtain ⟨i, todo, lk⟩ := f
      cases todo with
      | nil => exact lift (.done _ kd i lk fs) rfl (by simp)
      | cons j c r => exact lift (.nested _ kd i j c r lk fs) rfl (by simp [nCall])
  · exact lift (.fetch _ kd frames l false 0 rfl) rfl (by simp)
  · by_cases hn : n = 0
    · exact lift (.handSingle _ kd frames l false 0 _ rfl hn) rfl (by simp)
    · exact lift (.handPool _ kd frames l false 0 _ rfl hn (.inl rfl)) rfl (by simp)
  · simp at hb

theorem calm_moves {n : Nat} {s : NState} (hc : CalmSt n s) (hn : ¬ AllQuiet s) : ∃ s', GetsOn s s' := by
  by_cases hb : ∃ t ∈ s.threads, t.frames ≠ [] ∨ ¬ (t.pc = .rest ∨ t.pc = .expired)
  · obtain ⟨t, ht, hb⟩ := hb
    exact busy_moves hc ht hb
  · have hidle : ∀ t ∈ s.threads, t.frames = [] ∧ (t.pc = .rest ∨ t.pc = .expired) := by
      intro t ht
      refine Classical.byContradiction (fun hx => hb ⟨t, ht, ?_⟩)
      grind
    obtain ⟨⟨lock, blocked, engines, handled, written⟩, threads⟩ := s
    obtain ⟨hl, hbl, ⟨q, he, hq⟩, hth, hs⟩ := hc
    simp only at hl hbl he hq hidle hth hs
    subst hl hbl he
    have hqn : q ≠ [] := by
      rintro rfl
      refine hn ⟨fun t ht => ?_, by simp⟩
      obtain ⟨a, b⟩ := hidle t ht
      exact ⟨a, by grind⟩
    have hsz : n ≠ 0 := fun h => hqn (hq h)
    obtain ⟨t, ht, htk⟩ := hs hsz
    obtain ⟨hf, hp⟩ := hidle t ht
    obtain ⟨pre, post, rfl⟩ := List.append_of_mem ht
    obtain ⟨kd, frames, pc⟩ := t
    simp only at htk hf hp
    subst htk hf
    rcases hp with rfl | rfl
    · cases q with
      | nil => exact absurd rfl hqn
      | cons l q => exact lift (.take _ 0 _ l q rfl rfl) rfl (by simp)
    · exact lift (.again _ 0 _ rfl rfl) rfl (by simp)

theorem goesOn_reach {s₀ s s' : NState} (h : GoesOn s s') (hr : NReach false s₀ s) : NReach false s₀ s' := by
  induction h with
  | here s => exact hr
  | step h _ ih => exact ih (.step false hr h.1 (by simp))

/-! ### Threads by number -/

theorem two_split {α : Type} {pre post : List α} {a b c : α} (h : pre ++ a :: post = [b, c]) :
    (pre = [] ∧ a = b ∧ post = [c]) ∨ (pre = [b] ∧ a = c ∧ post = []) := by
  match pre with
  | [] => simp at h; exact .inl ⟨rfl, h.1, h.2⟩
  | [x] => simp at h; exact .inr ⟨by rw [h.1], h.2.1, h.2.2⟩
  | x :: y :: r => simp at h

theorem stuck_two {sh : NShared} {t w : NThread} (h1 : ∀ sh' a', ¬ NWork sh t sh' a') (h2 : ∀ sh' a', ¬ NWork sh w sh' a')
    (h3 : ∀ sh' a' new, ¬ NAdmin [] [w] sh t sh' a' new) (h4 : ∀ sh' a' new, ¬ NAdmin [t] [] sh w sh' a' new) :
    Stuck ⟨sh, [t, w]⟩ := by
  intro b s' h
  generalize hs : (⟨sh, [t, w]⟩ : NState) = s at h
  cases h with
  | work pre post sh0 sh' a a' h =>
    simp only [NState.mk.injEq] at hs
    obtain ⟨rfl, hs⟩ := hs
    rcases two_split hs.symm with ⟨_, rfl, _⟩ | ⟨_, rfl, _⟩
    · exact h1 _ _ h
    · exact h2 _ _ h
  | admin pre post new sh0 sh' a a' h =>
    simp only [NState.mk.injEq] at hs
    obtain ⟨rfl, hs⟩ := hs
    rcases two_split hs.symm with ⟨rfl, rfl, rfl⟩ | ⟨rfl, rfl, rfl⟩
    · exact h3 _ _ _ h
    · exact h4 _ _ _ h

end Nst
end Polog
