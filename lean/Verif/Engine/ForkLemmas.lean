import Verif.Engine.Fork
import Verif.Engine.Props
import Verif.Engine.Witness

/-! Lemmas about child processes. -/

namespace Polog
open EngineSpec

theorem TStep.over {t : Nat} {g g' : Glob} {p p' : PC} (h : TStep t g p g' p')
    (hm : g.mode ≠ .first → g.started = true ∧ 1 ≤ g.loads) (hh : 0 < g.hooks → g.started = true)
    (hph : p.holdsEng = true → Phase g p) :
    (g'.mode ≠ .first → g'.started = true ∧ 1 ≤ g'.loads) ∧ (0 < g'.hooks → g'.started = true) := by
  cases h with
  | wSetStarted l => exact ⟨fun h => ⟨rfl, (hm h).2⟩, fun _ => rfl⟩
  | wLoadSingle => exact ⟨fun h => ⟨(hm h).1, by simp [Glob.load]⟩, hh⟩
  | wLoadWorkers => exact ⟨fun h => ⟨(hm h).1, by simp [Glob.load]⟩, hh⟩
  | cLoad => exact ⟨fun h => ⟨(hm h).1, by simp [Glob.load]⟩, hh⟩
  | wRegister l => exact ⟨hm, fun _ => (hph rfl).1⟩
  | wDone l => exact ⟨fun _ => ⟨(hph rfl).1, by have := (hph rfl).2.1; simp [this]⟩, hh⟩
  | cSwap => exact ⟨fun _ => ⟨(hph rfl).1.1, (hph rfl).1.2.1⟩, hh⟩
  | xSwap => exact ⟨fun _ => ⟨(hph rfl).1.1, (hph rfl).1.2.1⟩, hh⟩
  | cUnblock => exact ⟨fun _ => ⟨(hph rfl).1.1, (hph rfl).1.2.1⟩, hh⟩
  | cStore c => cases c <;> exact ⟨hm, hh⟩
  | _ => exact ⟨hm, hh⟩

/-- What is left of the structural invariant when locks may be held by nobody. -/
structure KInv (e : Eng) : Prop where
  eng : ∀ t, (e.pc t).holdsEng = true → e.g.engLock = some t
  free : e.g.engLock = none → Normal e.g
  held : ∀ t, (e.pc t).holdsEng = true → Phase e.g (e.pc t)
  loc : ∀ t, LocalOk e.g (e.pc t)
  over : (e.g.mode ≠ .first → e.g.started = true ∧ 1 ≤ e.g.loads) ∧ (0 < e.g.hooks → e.g.started = true)

theorem KInv_step {e e' : Eng} (h : KInv e) (hs : EStep e e') : KInv e' := by
  cases hs with
  | thread t g' p' hst =>
    have hmono := hst.mono
    have uniq : ∀ t', (e.pc t).holdsEng = true → (e.pc t').holdsEng = true → t' = t := by
      intro t' h1 h2
      have := h.eng t h1
      rw [h.eng t' h2] at this
      exact Option.some.inj this
    refine ⟨?_, ?_, ?_, ?_, hst.over h.over.1 h.over.2 (h.held t)⟩
    · intro t' ht'
      rcases hst.phases with ⟨a, b, c, _⟩ | ⟨a, b, c, d, _⟩ | ⟨a, b, c, _⟩ | ⟨a, b, c, _⟩
      · by_cases ht : t' = t
        · subst ht; simp only [setFn_self, b] at ht'; cases ht'
        · simp only [setFn_ne _ _ ht] at ht'; rw [c]; exact h.eng t' ht'
      · by_cases ht : t' = t
        · subst ht; exact d
        · simp only [setFn_ne _ _ ht] at ht'; rw [h.eng t' ht'] at c; cases c
      · by_cases ht : t' = t
        · subst ht; rw [c]; exact h.eng t' a
        · simp only [setFn_ne _ _ ht] at ht'; rw [c]; exact h.eng t' ht'
      · by_cases ht : t' = t
        · subst ht; simp only [setFn_self, b] at ht'; cases ht'
        · simp only [setFn_ne _ _ ht] at ht'; exact absurd (uniq t' a ht') ht
    · intro hn
      rcases hst.phases with ⟨a, b, c, d⟩ | ⟨a, b, c, d, _⟩ | ⟨a, b, c, _⟩ | ⟨a, b, c, d⟩
      · exact d.normal (h.free (by rw [← c]; exact hn))
      · rw [d] at hn; cases hn
      · rw [c, h.eng t a] at hn; cases hn
      · exact d (h.held t a)
    · intro t' ht'
      rcases hst.phases with ⟨a, b, c, d⟩ | ⟨a, b, c, d, f⟩ | ⟨a, b, c, d⟩ | ⟨a, b, c, d⟩
      · by_cases ht : t' = t
        · subst ht; simp only [setFn_self, b] at ht'; cases ht'
        · simp only [setFn_ne _ _ ht] at ht' ⊢; exact d.phase (h.held t' ht')
      · by_cases ht : t' = t
        · subst ht; simp only [setFn_self]; exact f (h.loc t') (h.free c)
        · simp only [setFn_ne _ _ ht] at ht'; rw [h.eng t' ht'] at c; cases c
      · by_cases ht : t' = t
        · subst ht; simp only [setFn_self]; exact d (h.held t' a)
        · simp only [setFn_ne _ _ ht] at ht'; exact absurd (uniq t' a ht') ht
      · by_cases ht : t' = t
        · subst ht; simp only [setFn_self, b] at ht'; cases ht'
        · simp only [setFn_ne _ _ ht] at ht'; exact absurd (uniq t' a ht') ht
    · intro t'
      by_cases ht : t' = t
      · subst ht
        simp only [setFn_self]
        exact hst.local' (h.loc t') h.over.1 h.over.2 (h.held t')
      · simp only [setFn_ne _ _ ht]; exact (h.loc t').mono hmono.1 hmono.2
  | pool k p p' a hk hr hp hput hstop =>
    have hsame : SamePhase e.g { e.g with real := setFn e.g.real k (.pool p'), seq := e.g.seq ++ a.log?.toList } :=
      .realStep hr hp hstop rfl rfl rfl rfl rfl rfl
    exact ⟨h.eng, fun hn => hsame.normal (h.free hn), fun t ht => hsame.phase (h.held t ht),
      fun t => (h.loc t).mono (Nat.le_refl _) id, h.over⟩

theorem forked_real {g : Glob} {k : Nat} {p' : Pool} (h : (g.real k).forked = .pool p') :
    ∃ p, g.real k = .pool p ∧ p' = p.forked := by
  cases hr : g.real k with
  | single => rw [hr] at h; cases h
  | pool p => rw [hr] at h; cases h; exact ⟨p, rfl, rfl⟩

theorem KInv_forked {e : Eng} (h : SInv e) : KInv e.forked := by
  obtain ⟨hm, hh, _⟩ := h.overview
  refine ⟨fun t ht => (nomatch ht), fun hn => ?_, fun t ht => (nomatch ht), fun t => trivial, hm, hh⟩
  rcases h.free hn with hn | ⟨hr, hc⟩
  · exact .inl hn
  · refine .inr ⟨hr, fun p hp => ?_⟩
    obtain ⟨q, hq, rfl⟩ := forked_real hp
    simp [Pool.forked, hc q hq]

theorem KInv_reach {e₀ e : Eng} (h₀ : KInv e₀) (h : EReach e₀ e) : KInv e := by
  induction h with
  | init => exact h₀
  | step _ hs ih => exact KInv_step ih hs

/-- The state without the log calls that were cut off by the fork. -/
def strip (gone : Log → Bool) (e : Eng) : Eng := ⟨{ e.g with calls := e.g.calls.filter fun x => !gone x.2 }, e.pc⟩

/-- The logs that were in the hands of another thread or of a worker. -/
def Loc.moving : Loc → Bool
  | .thread _ | .worker _ _ => true
  | _ => false

theorem LInv_forked {e : Eng} {loc : Log → Loc} (h : LInv e loc) :
    LInv (strip (fun l => (loc l).moving) e.forked) (fun l => if (loc l).moving then .unborn else loc l) := by
  constructor
  · intro l
    constructor
    · intro hl x hx hxl
      subst hxl
      simp only [strip, List.mem_filter, Bool.not_eq_true'] at hx
      simp only [hx.2] at hl
      exact (h.born x.2).1 hl x hx.1 rfl
    · intro hl
      by_cases hm : (loc l).moving = true
      · simp [hm]
      · simp only [hm]
        refine (h.born l).2 fun x hx hxl => hl x ?_ hxl
        subst hxl
        simp only [strip, List.mem_filter, Bool.not_eq_true']
        exact ⟨hx, by simpa using hm⟩
  · intro t l
    constructor
    · intro h; cases h
    · intro hl
      by_cases hm : (loc l).moving = true
      · simp [hm] at hl
      · simp only [hm] at hl
        change loc l = _ at hl
        rw [hl] at hm; exact absurd rfl hm
  · intro k l
    constructor
    · intro hl
      by_cases hm : (loc l).moving = true
      · simp [hm] at hl
      · simp only [hm] at hl
        obtain ⟨hk, p, hp, hm⟩ := (h.queue k l).1 hl
        exact ⟨hk, p.forked, by simp [strip, Eng.forked, hp, Real.forked], hm⟩
    · rintro ⟨hk, p, hp, hm⟩
      obtain ⟨q, hq, rfl⟩ := forked_real hp
      have := (h.queue k l).2 ⟨hk, q, hq, hm⟩
      simp [this, Loc.moving]
  · intro k p hk hp
    obtain ⟨q, hq, rfl⟩ := forked_real hp
    exact h.nodup k q hk hq
  · intro k i l
    constructor
    · intro hl
      by_cases hm : (loc l).moving = true
      · simp [hm] at hl
      · simp only [hm] at hl
        change loc l = _ at hl
        rw [hl] at hm; exact absurd rfl hm
    · rintro ⟨hk, p, hp, hi, hw⟩
      obtain ⟨q, hq, rfl⟩ := forked_real hp
      cases hw
  · intro l
    refine (h.done l).trans ?_
    cases hl : loc l <;> simp [Loc.moving]
  · intro k p hk hp hc l hl
    obtain ⟨q, hq, rfl⟩ := forked_real hp
    refine h.late k q hk hq ?_ l hl
    unfold Pool.closed Pool.forked at hc
    dsimp only at hc
    by_cases hd : q.stop = .done
    · simp [Pool.closed, hd]
    · rw [if_neg hd] at hc; cases hc
  · intro t l hl
    by_cases hm : (loc l).moving = true
    · simp [hm] at hl
    · simp only [hm] at hl
      change loc l = _ at hl
      rw [hl] at hm; exact absurd rfl hm

/-- Where the logs of the child are. -/
structure BInv (gone : Log → Bool) (e : Eng) : Prop where
  k : KInv e
  l : ∃ loc, LInv (strip gone e) loc
  gone : ∀ l, gone l = true → ∃ x ∈ e.g.calls, x.2 = l

theorem BInv_step {gone : Log → Bool} {e e' : Eng} (h : BInv gone e) (hs : EStep e e') : BInv gone e' := by
  refine ⟨KInv_step h.k hs, ?_, ?_⟩
  · obtain ⟨loc, hl⟩ := h.l
    cases hs with
    | pool k p p' a hk hr hp hput hstop => exact LInv_pool hl hk hr hp hput hstop
    | thread t g' p' hst =>
      cases hst.effect with
      | quiet hp hc hs hlt hr =>
        exact ⟨_, LInv_quiet (g' := (strip gone ⟨g', e.pc⟩).g) hl hp (by simp [strip, hc]) hs hlt
          ⟨hr.loads, hr.fwd, hr.bwd⟩⟩
      | call l fresh hp hp' hc hs hlt hload hr =>
        have hg : gone l = false := by
          cases hg : gone l with
          | false => rfl
          | true => obtain ⟨x, hx, hxl⟩ := h.gone l hg; exact absurd hxl (fresh x hx)
        refine ⟨_, LInv_call (g' := (strip gone ⟨g', e.pc⟩).g) hl (l := l) ?_ hp hp' ?_ hs hlt hload hr⟩
        · intro x hx
          simp only [strip, List.mem_filter] at hx
          exact fresh x hx.1
        · simp [strip, hc, List.filter_append, hg]
      | single l hp hp' hc hs hlt hload hr =>
        exact ⟨_, LInv_single (g' := (strip gone ⟨g', e.pc⟩).g) hl hp hp' (by simp [strip, hc]) hs hlt hload hr⟩
      | put l k q q' hp hp' hc hs hlt hload hk hq hstep hr =>
        refine ⟨_, LInv_put (g' := (strip gone ⟨g', e.pc⟩).g) hl ?_ hp hp' (by simp [strip, hc]) hs hlt hload hq hstep hr⟩
        rcases hk with hk | hk
        · have := h.k.loc t; rw [hk] at this; exact this
        · have := h.k.held t (by rw [hk]; rfl)
          rw [hk] at this
          have := this.2
          show k < e.g.loads
          omega
  · intro l hg
    obtain ⟨x, hx, hxl⟩ := h.gone l hg
    refine ⟨x, ?_, hxl⟩
    cases hs with
    | pool k p p' a hk hr hp hput hstop => exact hx
    | thread t g' p' hst =>
      show x ∈ g'.calls
      cases hst.effect with
      | quiet hp hc => rw [hc]; exact hx
      | call l fresh hp hp' hc => rw [hc]; exact List.mem_append_left _ hx
      | single l hp hp' hc => rw [hc]; exact hx
      | put l k q q' hp hp' hc => rw [hc]; exact hx

theorem BInv_reach {gone : Log → Bool} {e₀ e : Eng} (h₀ : BInv gone e₀) (h : EReach e₀ e) : BInv gone e := by
  induction h with
  | init => exact h₀
  | step _ hs ih => exact BInv_step ih hs

theorem BInv_forked {e : Eng} {loc : Log → Loc} (hS : SInv e) (h : LInv e loc) :
    BInv (fun l => (loc l).moving) e.forked := by
  refine ⟨KInv_forked hS, ⟨_, LInv_forked h⟩, fun l hg => ?_⟩
  by_cases hc : ∃ x ∈ e.g.calls, x.2 = l
  · exact hc
  · have : loc l = .unborn := (h.born l).2 fun x hx hxl => hc ⟨x, hx, hxl⟩
    rw [this] at hg; cases hg

/-! The engines made before the fork -/

/-- The workers of the first `base` engines do not run. -/
def DeadBelow (base : Nat) (e : Eng) : Prop :=
  base ≤ e.g.loads ∧ ∀ k, k < base → ∀ p, e.g.real k = .pool p → ∀ i, p.worker i = .exited

/-- A step of a pool without workers. -/
theorem PStep.dead {p p' : Pool} {a : PLabel} (h : PStep p a p') (hd : ∀ i, p.worker i = .exited) :
    (∀ i, p'.worker i = .exited) ∧ (∃ more, p'.queue = p.queue ++ more) ∧ a.log? = none ∧
    (p.stop = .polling → p.queue ≠ [] → p'.stop = .polling) := by
  cases h with
  | put l room => exact ⟨hd, ⟨[l], rfl⟩, rfl, fun h _ => h⟩
  | take i l q hi hw => rw [hd i] at hw; cases hw
  | handled i l hi hw => rw [hd i] at hw; cases hw
  | expire i hi hw => rw [hd i] at hw; cases hw
  | again i hi hw => rw [hd i] at hw; cases hw
  | exit i hi hw => rw [hd i] at hw; cases hw
  | stopCall hs => exact ⟨hd, ⟨[], by simp⟩, rfl, fun _ _ => rfl⟩
  | drained hs hq => exact ⟨hd, ⟨[], by simp⟩, rfl, fun _ h => absurd hq h⟩
  | setFlag j hs => exact ⟨hd, ⟨[], by simp⟩, rfl, fun h => by rw [hs] at h; cases h⟩
  | flagged hs => exact ⟨hd, ⟨[], by simp⟩, rfl, fun h => by rw [hs] at h; cases h⟩
  | join j hs => exact ⟨hd, ⟨[], by simp⟩, rfl, fun h => by rw [hs] at h; cases h⟩
  | stopped hs => exact ⟨hd, ⟨[], by simp⟩, rfl, fun h => by rw [hs] at h; cases h⟩

/-- What a step does with the pool of an engine. -/
theorem EStep.real {e e' : Eng} (hs : EStep e e') : e.g.loads ≤ e'.g.loads ∧
    ∀ k, k < e.g.loads → (e'.g.real k = e.g.real k) ∨
      ∃ p p' a, e.g.real k = .pool p ∧ e'.g.real k = .pool p' ∧ PStep p a p' := by
  have upd : ∀ {g g' : Glob} {j : Nat} {p p' : Pool} {a : PLabel}, g.real j = .pool p → PStep p a p' →
      g'.real = setFn g.real j (.pool p') → ∀ k, k < g.loads → (g'.real k = g.real k) ∨
      ∃ p p' a, g.real k = .pool p ∧ g'.real k = .pool p' ∧ PStep p a p' := by
    intro g g' j p p' a hj hp hr k hk
    rw [hr]
    by_cases hkj : k = j
    · subst hkj; exact .inr ⟨p, p', a, hj, setFn_self _ _ _, hp⟩
    · exact .inl (setFn_ne _ _ hkj)
  cases hs with
  | pool k p p' a hk hr hp hput hstop => exact ⟨Nat.le_refl _, upd hr hp rfl⟩
  | thread t g' p' hst =>
    refine ⟨hst.mono.1, ?_⟩
    generalize e.pc t = pc at hst
    generalize e.g = g at hst
    cases hst with
    | handPool l k q q' hr hp => exact upd hr hp rfl
    | bHandPool l k q q' hr hp => exact upd hr hp rfl
    | cStopPool k q q' hl hr hp => exact upd hr hp rfl
    | xStopPool k q q' hl hr hp => exact upd hr hp rfl
    | wLoadSingle => exact fun k hk => .inl (setFn_ne _ _ (by omega))
    | wLoadWorkers => exact fun k hk => .inl (setFn_ne _ _ (by omega))
    | cLoad => exact fun k hk => .inl (setFn_ne _ _ (by omega))
    | cStore c => cases c <;> exact fun k hk => .inl rfl
    | _ => exact fun k hk => .inl rfl

theorem DeadBelow_step {base : Nat} {e e' : Eng} (h : DeadBelow base e) (hs : EStep e e') : DeadBelow base e' := by
  obtain ⟨h1, h2⟩ := hs.real
  refine ⟨Nat.le_trans h.1 h1, fun k hk p hp => ?_⟩
  rcases h2 k (Nat.lt_of_lt_of_le hk h.1) with he | ⟨q, q', a, hq, hq', hst⟩
  · rw [he] at hp; exact h.2 k hk p hp
  · rw [hp] at hq'; cases hq'
    exact (hst.dead (h.2 k hk q hq)).1

theorem DeadBelow_reach {base : Nat} {e₀ e : Eng} (h₀ : DeadBelow base e₀) (h : EReach e₀ e) : DeadBelow base e := by
  induction h with
  | init => exact h₀
  | step _ hs ih => exact DeadBelow_step ih hs

theorem DeadBelow_forked (e : Eng) : DeadBelow e.g.loads e.forked := by
  refine ⟨Nat.le_refl _, fun k _ p hp i => ?_⟩
  obtain ⟨q, _, rfl⟩ := forked_real hp
  rfl

/-- A log in a queue without workers stays there. -/
theorem queued_stays {base k : Nat} {e e' : Eng} {l : Log} (hd : DeadBelow base e) (hk : k < base)
    (hq : Queued e k l) (h : EReach e e') : Queued e' k l := by
  have key : DeadBelow base e' ∧ Queued e' k l := by
    induction h with
    | init => exact ⟨hd, hq⟩
    | step _ hs ih =>
      obtain ⟨hd, h1, p, hp, hm⟩ := ih
      refine ⟨DeadBelow_step hd hs, ?_⟩
      obtain ⟨h2, h3⟩ := hs.real
      refine ⟨Nat.lt_of_lt_of_le h1 h2, ?_⟩
      rcases h3 k h1 with he | ⟨q, q', a, hq, hq', hst⟩
      · exact ⟨p, he.trans hp, hm⟩
      · rw [hp] at hq; cases hq
        obtain ⟨more, hmore⟩ := (hst.dead (hd.2 k hk p hp)).2.1
        exact ⟨q', hq', by rw [hmore]; exact List.mem_append_left _ hm⟩
  exact key.2

/-- What was handled stays handled, in the same order. -/
theorem seq_grows {e e' : Eng} (h : EReach e e') : ∃ new, e'.g.seq = e.g.seq ++ new := by
  induction h with
  | init => exact ⟨[], by simp⟩
  | step _ hs ih =>
    obtain ⟨new, hn⟩ := ih
    cases hs with
    | pool k p p' a => exact ⟨new ++ a.log?.toList, by simp [hn]⟩
    | thread t g' p' hst =>
      cases hst.effect with
      | quiet hp hc hs => exact ⟨new, hs.trans hn⟩
      | call l fresh hp hp' hc hs => exact ⟨new, hs.trans hn⟩
      | single l hp hp' hc hs => exact ⟨new ++ [l], by show g'.seq = _; rw [hs, hn]; simp⟩
      | put l k q q' hp hp' hc hs => exact ⟨new, hs.trans hn⟩

end Polog
