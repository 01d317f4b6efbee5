import Verif.Engine.Logs

namespace Polog

theorem LInv_take {e : Eng} {loc : Log → Loc} (h : LInv e loc) {k i : Nat} {l : Log} {qs : List Log}
    {q : Pool} (hk : k < e.g.loads) (hq : e.g.real k = .pool q) (hi : i < q.size)
    (hw : q.worker i = .waiting) (hqs : q.queue = l :: qs) :
    LInv ⟨{ e.g with
        real := setFn e.g.real k (.pool { q with queue := qs, worker := setFn q.worker i (.busy l) }),
        seq := e.g.seq ++ [] }, e.pc⟩ (moveTo loc l (.worker k i)) := by
  have hloc := (h.queue k l).2 ⟨hk, q, hq, by simp [hqs]⟩
  have hnd := h.nodup k q hk hq
  rw [hqs] at hnd
  obtain ⟨hnl, hnd'⟩ := List.nodup_cons.1 hnd
  constructor <;> dsimp only
  · intro l'
    by_cases hl' : l' = l
    · subst hl'; rw [moveTo_self, ← h.born l', hloc]; simp
    · rw [moveTo_ne _ _ hl']; exact h.born l'
  · intro t l'
    by_cases hl' : l' = l
    · subst hl'; rw [moveTo_self, h.thread t l', hloc]; simp
    · rw [moveTo_ne _ _ hl']; exact h.thread t l'
  · intro j l'
    by_cases hjk : j = k
    · subst hjk
      rw [setFn_self]
      by_cases hl' : l' = l
      · subst hl'
        rw [moveTo_self]
        constructor
        · intro hx; cases hx
        · rintro ⟨_, p, hp, hm⟩; cases hp; exact absurd hm hnl
      · rw [moveTo_ne _ _ hl', h.queue j l']
        constructor
        · rintro ⟨hj, p, hp, hm⟩
          rw [hq] at hp; cases hp
          rw [hqs] at hm
          exact ⟨hj, _, rfl, by simpa [hl'] using hm⟩
        · rintro ⟨hj, p, hp, hm⟩
          cases hp
          exact ⟨hj, q, hq, by rw [hqs]; exact List.mem_cons_of_mem _ hm⟩
    · rw [setFn_ne _ _ hjk]
      by_cases hl' : l' = l
      · subst hl'
        rw [moveTo_self, ← h.queue j l', hloc]
        simpa using fun e : k = j => hjk e.symm
      · rw [moveTo_ne _ _ hl']; exact h.queue j l'
  · intro j p hj hp
    by_cases hjk : j = k
    · subst hjk; rw [setFn_self] at hp; cases hp; exact hnd'
    · rw [setFn_ne _ _ hjk] at hp; exact h.nodup j p hj hp
  · intro j i' l'
    by_cases hl' : l' = l
    · subst hl'
      rw [moveTo_self]
      constructor
      · intro hx; cases hx
        exact ⟨hk, _, setFn_self _ _ _, hi, setFn_self _ _ _⟩
      · rintro ⟨hj, p, hp, hi', hw'⟩
        have habs : ∀ j' p', e.g.real j' = .pool p' → j' < e.g.loads → i' < p'.size →
            p'.worker i' = .busy l' → False := by
          intro j' p' hp' hj' hi' hw'
          have := (h.worker j' i' l').2 ⟨hj', p', hp', hi', hw'⟩
          rw [hloc] at this; cases this
        by_cases hjk : j = k
        · subst hjk
          rw [setFn_self] at hp; cases hp
          by_cases hii : i' = i
          · rw [hii]
          · dsimp only at hw'
            rw [setFn_ne _ _ hii] at hw'
            exact (habs j q hq hj hi' hw').elim
        · rw [setFn_ne _ _ hjk] at hp
          exact (habs j p hp hj hi' hw').elim
    · rw [moveTo_ne _ _ hl', h.worker j i' l']
      by_cases hjk : j = k
      · subst hjk
        rw [setFn_self]
        constructor
        · rintro ⟨hj, p, hp, hi', hw'⟩
          rw [hq] at hp; cases hp
          refine ⟨hj, _, rfl, hi', ?_⟩
          by_cases hii : i' = i
          · subst hii; rw [hw] at hw'; cases hw'
          · dsimp only; rw [setFn_ne _ _ hii]; exact hw'
        · rintro ⟨hj, p, hp, hi', hw'⟩
          cases hp
          refine ⟨hj, q, hq, hi', ?_⟩
          by_cases hii : i' = i
          · subst hii; dsimp only at hw'; rw [setFn_self] at hw'; cases hw'; exact absurd rfl hl'
          · dsimp only at hw'; rw [setFn_ne _ _ hii] at hw'; exact hw'
      · rw [setFn_ne _ _ hjk]
  · intro l'
    rw [List.append_nil, h.done l']
    by_cases hl' : l' = l
    · subst hl'; rw [moveTo_self, hloc]; simp
    · rw [moveTo_ne _ _ hl']
  · intro j p hj hp hc l' hm
    by_cases hjk : j = k
    · subst hjk
      rw [setFn_self] at hp; cases hp
      exact h.late j q hj hq hc l' (by rw [hqs]; exact List.mem_cons_of_mem _ hm)
    · rw [setFn_ne _ _ hjk] at hp; exact h.late j p hj hp hc l' hm
  · intro t l' hx
    by_cases hl' : l' = l
    · subst hl'; rw [moveTo_self] at hx; cases hx
    · rw [moveTo_ne _ _ hl'] at hx; exact h.owner t l' hx

theorem LInv_handled {e : Eng} {loc : Log → Loc} (h : LInv e loc) {k i : Nat} {l : Log}
    {q : Pool} (hk : k < e.g.loads) (hq : e.g.real k = .pool q) (hi : i < q.size)
    (hw : q.worker i = .busy l) :
    LInv ⟨{ e.g with
        real := setFn e.g.real k (.pool { q with worker := setFn q.worker i .waiting }),
        seq := e.g.seq ++ [l] }, e.pc⟩ (moveTo loc l .done) := by
  have hloc := (h.worker k i l).2 ⟨hk, q, hq, hi, hw⟩
  constructor <;> dsimp only
  · intro l'
    by_cases hl' : l' = l
    · subst hl'; rw [moveTo_self, ← h.born l', hloc]; simp
    · rw [moveTo_ne _ _ hl']; exact h.born l'
  · intro t l'
    by_cases hl' : l' = l
    · subst hl'; rw [moveTo_self, h.thread t l', hloc]; simp
    · rw [moveTo_ne _ _ hl']; exact h.thread t l'
  · intro j l'
    have aux : (j < e.g.loads ∧ ∃ p, setFn e.g.real k
        (.pool { q with worker := setFn q.worker i .waiting }) j = .pool p ∧ l' ∈ p.queue) ↔
        (j < e.g.loads ∧ ∃ p, e.g.real j = .pool p ∧ l' ∈ p.queue) := by
      by_cases hjk : j = k
      · subst hjk
        rw [setFn_self]
        constructor
        · rintro ⟨hj, p, hp, hm⟩; cases hp; exact ⟨hj, q, hq, hm⟩
        · rintro ⟨hj, p, hp, hm⟩; rw [hq] at hp; cases hp; exact ⟨hj, _, rfl, hm⟩
      · rw [setFn_ne _ _ hjk]
    rw [aux]
    by_cases hl' : l' = l
    · subst hl'; rw [moveTo_self, ← h.queue j l', hloc]; simp
    · rw [moveTo_ne _ _ hl']; exact h.queue j l'
  · intro j p hj hp
    by_cases hjk : j = k
    · subst hjk; rw [setFn_self] at hp; cases hp; exact h.nodup j q hj hq
    · rw [setFn_ne _ _ hjk] at hp; exact h.nodup j p hj hp
  · intro j i' l'
    by_cases hl' : l' = l
    · subst hl'
      rw [moveTo_self]
      constructor
      · intro hx; cases hx
      · rintro ⟨hj, p, hp, hi', hw'⟩
        exfalso
        by_cases hjk : j = k
        · subst hjk
          rw [setFn_self] at hp; cases hp
          dsimp only at hw' hi'
          by_cases hii : i' = i
          · subst hii; rw [setFn_self] at hw'; cases hw'
          · rw [setFn_ne _ _ hii] at hw'
            have := (h.worker j i' l').2 ⟨hj, q, hq, hi', hw'⟩
            rw [hloc] at this; cases this; exact hii rfl
        · rw [setFn_ne _ _ hjk] at hp
          have := (h.worker j i' l').2 ⟨hj, p, hp, hi', hw'⟩
          rw [hloc] at this; cases this; exact hjk rfl
    · rw [moveTo_ne _ _ hl', h.worker j i' l']
      by_cases hjk : j = k
      · subst hjk
        rw [setFn_self]
        constructor
        · rintro ⟨hj, p, hp, hi', hw'⟩
          rw [hq] at hp; cases hp
          refine ⟨hj, _, rfl, hi', ?_⟩
          by_cases hii : i' = i
          · subst hii; rw [hw] at hw'; cases hw'; exact absurd rfl hl'
          · dsimp only; rw [setFn_ne _ _ hii]; exact hw'
        · rintro ⟨hj, p, hp, hi', hw'⟩
          cases hp
          refine ⟨hj, q, hq, hi', ?_⟩
          by_cases hii : i' = i
          · subst hii; dsimp only at hw'; rw [setFn_self] at hw'; cases hw'
          · dsimp only at hw'; rw [setFn_ne _ _ hii] at hw'; exact hw'
      · rw [setFn_ne _ _ hjk]
  · intro l'
    rw [List.count_append, h.done l']
    by_cases hl' : l' = l
    · subst hl'
      rw [moveTo_self, hloc]; simp
    · rw [moveTo_ne _ _ hl']
      have : List.count l' [l] = 0 := List.count_eq_zero.2 (by simpa using hl')
      rw [this]; simp
  · intro j p hj hp hc l' hm
    by_cases hjk : j = k
    · subst hjk
      rw [setFn_self] at hp; cases hp
      exact h.late j q hj hq hc l' hm
    · rw [setFn_ne _ _ hjk] at hp; exact h.late j p hj hp hc l' hm
  · intro t l' hx
    by_cases hl' : l' = l
    · subst hl'; rw [moveTo_self] at hx; cases hx
    · rw [moveTo_ne _ _ hl'] at hx; exact h.owner t l' hx

/-- Internal steps of a pool: nothing moves; if the pool becomes closed its queue is empty. -/
theorem LInv_internal {e : Eng} {loc : Log → Loc} (h : LInv e loc) {k : Nat} {q q' : Pool}
    (hk : k < e.g.loads) (hq : e.g.real k = .pool q) (hqueue : q'.queue = q.queue)
    (hsize : q'.size = q.size)
    (hbusy : ∀ i l, i < q.size → (q'.worker i = .busy l ↔ q.worker i = .busy l))
    (hcl : q'.closed = true → q.closed = true ∨ q.queue = []) :
    LInv ⟨{ e.g with real := setFn e.g.real k (.pool q'), seq := e.g.seq ++ [] }, e.pc⟩ loc := by
  constructor <;> dsimp only
  · exact h.born
  · exact h.thread
  · intro j l'
    rw [h.queue j l']
    by_cases hjk : j = k
    · subst hjk
      rw [setFn_self]
      constructor
      · rintro ⟨hj, p, hp, hm⟩; rw [hq] at hp; cases hp; exact ⟨hj, _, rfl, by rw [hqueue]; exact hm⟩
      · rintro ⟨hj, p, hp, hm⟩; cases hp; exact ⟨hj, q, hq, by rw [← hqueue]; exact hm⟩
    · rw [setFn_ne _ _ hjk]
  · intro j p hj hp
    by_cases hjk : j = k
    · subst hjk; rw [setFn_self] at hp; cases hp; rw [hqueue]; exact h.nodup j q hj hq
    · rw [setFn_ne _ _ hjk] at hp; exact h.nodup j p hj hp
  · intro j i l'
    rw [h.worker j i l']
    by_cases hjk : j = k
    · subst hjk
      rw [setFn_self]
      constructor
      · rintro ⟨hj, p, hp, hi, hw⟩
        rw [hq] at hp; cases hp
        exact ⟨hj, _, rfl, by rw [hsize]; exact hi, (hbusy i l' hi).2 hw⟩
      · rintro ⟨hj, p, hp, hi, hw⟩
        cases hp
        rw [hsize] at hi
        exact ⟨hj, q, hq, hi, (hbusy i l' hi).1 hw⟩
    · rw [setFn_ne _ _ hjk]
  · intro l; rw [List.append_nil]; exact h.done l
  · intro j p hj hp hc l' hm
    by_cases hjk : j = k
    · subst hjk
      rw [setFn_self] at hp; cases hp
      rw [hqueue] at hm
      rcases hcl hc with hc | hc
      · exact h.late j q hj hq hc l' hm
      · rw [hc] at hm; cases hm
    · rw [setFn_ne _ _ hjk] at hp; exact h.late j p hj hp hc l' hm
  · exact h.owner

theorem LInv_pool {e : Eng} {loc : Log → Loc} (h : LInv e loc) {k : Nat} {q q' : Pool} {a : PLabel}
    (hk : k < e.g.loads) (hq : e.g.real k = .pool q) (hp : PStep q a q') (hput : ∀ l, a ≠ .put l)
    (hstop : a ≠ .stop) :
    ∃ loc', LInv ⟨{ e.g with real := setFn e.g.real k (.pool q'), seq := e.g.seq ++ a.log?.toList }, e.pc⟩
      loc' := by
  have notBusy : ∀ {i : Nat} {x : WPC}, (∀ l, x ≠ .busy l) → (∀ l, q.worker i ≠ .busy l) →
      ∀ i' l, i' < q.size → (setFn q.worker i x i' = .busy l ↔ q.worker i' = .busy l) := by
    intro i x hx hi i' l _
    by_cases hii : i' = i
    · subst hii; rw [setFn_self]
      exact ⟨fun h => absurd h (hx l), fun h => absurd h (hi l)⟩
    · rw [setFn_ne _ _ hii]
  cases hp with
  | put l => exact absurd rfl (hput l)
  | stopCall => exact absurd rfl hstop
  | take i l qs hi hw hqs => exact ⟨_, LInv_take h hk hq hi hw hqs⟩
  | handled i l hi hw => exact ⟨_, LInv_handled h hk hq hi hw⟩
  | expire i hi hw hqe =>
    exact ⟨_, LInv_internal h hk hq rfl rfl (notBusy (by simp) (by simp [hw])) .inl⟩
  | again i hi hw hf =>
    exact ⟨_, LInv_internal h hk hq rfl rfl (notBusy (by simp) (by simp [hw])) .inl⟩
  | exit i hi hw hf =>
    exact ⟨_, LInv_internal h hk hq rfl rfl (notBusy (by simp) (by simp [hw])) .inl⟩
  | drained hs hqe => exact ⟨_, LInv_internal h hk hq rfl rfl (fun _ _ _ => Iff.rfl) (fun _ => .inr hqe)⟩
  | setFlag j hs => exact ⟨_, LInv_internal h hk hq rfl rfl (fun _ _ _ => Iff.rfl)
      (fun _ => .inl (by simp [Pool.closed, hs]))⟩
  | flagged hs => exact ⟨_, LInv_internal h hk hq rfl rfl (fun _ _ _ => Iff.rfl)
      (fun _ => .inl (by simp [Pool.closed, hs]))⟩
  | join j hs => exact ⟨_, LInv_internal h hk hq rfl rfl (fun _ _ _ => Iff.rfl)
      (fun _ => .inl (by simp [Pool.closed, hs]))⟩
  | stopped hs => exact ⟨_, LInv_internal h hk hq rfl rfl (fun _ _ _ => Iff.rfl)
      (fun _ => .inl (by simp [Pool.closed, hs]))⟩

theorem LInv_step {e e' : Eng} {loc : Log → Loc} (hS : SInv e) (h : LInv e loc) (hs : EStep e e') :
    ∃ loc', LInv e' loc' := by
  cases hs with
  | pool k p p' a hk hr hp hput hstop => exact LInv_pool h hk hr hp hput hstop
  | thread t g' p' hst =>
    cases hst.effect with
    | quiet hp hc hs hl hr => exact ⟨_, LInv_quiet h hp hc hs hl hr⟩
    | call l fresh hp hp' hc hs hl hload hr => exact ⟨_, LInv_call h fresh hp hp' hc hs hl hload hr⟩
    | single l hp hp' hc hs hl hload hr => exact ⟨_, LInv_single h hp hp' hc hs hl hload hr⟩
    | put l k q q' hp hp' hc hs hl hload hk hq hstep hr =>
      refine ⟨_, LInv_put h ?_ hp hp' hc hs hl hload hq hstep hr⟩
      rcases hk with hk | hk
      · have := hS.loc t; rw [hk] at this; exact this
      · have := hS.held t ((hS.eng t).1 (by rw [hk]; rfl))
        rw [hk] at this
        have := this.2; omega

theorem LInv_init : LInv Eng.init (fun _ => .unborn) := by
  constructor <;> simp [Eng.init, Glob.init, PC.log?]

theorem LInv_warm (ps mq : Nat) : LInv (Eng.warm ps mq) (fun _ => .unborn) := by
  have hf : ∀ p, fabric ps mq = .pool p → p = Pool.init ps mq := by
    intro p hp; unfold fabric at hp; split at hp <;> cases hp; rfl
  constructor <;> dsimp only [Eng.warm, Glob.init]
  · simp
  · simp [PC.log?]
  · intro k l
    refine ⟨(fun h => nomatch h), ?_⟩
    rintro ⟨_, p, hp, hm⟩
    rw [hf p hp] at hm; cases hm
  · intro k p _ hp; rw [hf p hp]; exact List.nodup_nil
  · intro k i l
    refine ⟨(fun h => nomatch h), ?_⟩
    rintro ⟨_, p, hp, _, hm⟩
    rw [hf p hp] at hm; cases hm
  · simp
  · intro k p _ hp hc; rw [hf p hp] at hc; cases hc
  · intro t l h; cases h

/-- All invariants together. -/
structure EInv (e : Eng) : Prop where
  s : SInv e
  r : RInv e
  l : ∃ loc, LInv e loc

theorem EInv_step {e e' : Eng} (h : EInv e) (hs : EStep e e') : EInv e' :=
  ⟨SInv_step h.s hs, RInv_step h.s h.r hs, h.l.elim fun _ hl => LInv_step h.s hl hs⟩

theorem EInv_init : EInv Eng.init := ⟨SInv_init, RInv_init, _, LInv_init⟩

theorem EInv_warm (ps mq : Nat) : EInv (Eng.warm ps mq) := ⟨SInv_warm ps mq, RInv_warm ps mq, _, LInv_warm ps mq⟩

theorem EInv_reach {e₀ e : Eng} (h₀ : EInv e₀) (h : EReach e₀ e) : EInv e := by
  induction h with
  | init => exact h₀
  | step _ hs ih => exact EInv_step ih hs

end Polog
