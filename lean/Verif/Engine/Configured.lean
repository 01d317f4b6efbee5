import Verif.Engine.Lemmas
import Verif.Engine.Spec
import Mathlib.Tactic.Tauto

/-!
The engine that runs is the one the settings `pool_size` and `max_queue_size` ask for.
-/

namespace Polog
open EngineSpec

/-- A value is stored, and the engine of the new value does not exist yet. -/
def PC.dirty : PC → Bool
  | .cEngine | .cEngineIn | .cReload | .cBlock | .cSwap | .cStop | .cStopping _ | .cLoad => true
  | _ => false

/-- What a thread creating the first engine has read is still right. -/
def ReadOk (g : Glob) : PC → Prop
  | .wLoadCap _ => g.poolSize ≠ 0
  | .wLoadSize _ c => g.poolSize ≠ 0 ∧ c = g.maxQueue
  | _ => True

structure ConfInv (e : Eng) : Prop where
  combo : e.g.poolSize = 0 → e.g.maxQueue = 0
  cur : (∃ t, (e.pc t).dirty = true) ∨
    ((0 < e.g.loads → AsConfigured e.g.poolSize e.g.maxQueue (e.g.real (e.g.loads - 1))) ∧
      ∀ t, ReadOk e.g (e.pc t))

theorem ConfInv_init : ConfInv Eng.init :=
  ⟨fun _ => rfl, .inr ⟨fun h => absurd h (by decide), fun _ => trivial⟩⟩

theorem PStep.size_cap {p p' : Pool} {a : PLabel} (h : PStep p a p') : p'.size = p.size ∧ p'.cap = p.cap := by
  cases h <;> exact ⟨rfl, rfl⟩

theorem AsConfigured.put {g : Glob} {k : Nat} {p p' : Pool} {a : PLabel} (hr : g.real k = .pool p)
    (hp : PStep p a p') {ps mq j : Nat} (h : AsConfigured ps mq (g.real j)) :
    AsConfigured ps mq (setFn g.real k (.pool p') j) := by
  unfold setFn
  split
  · rename_i e
    subst e
    refine ⟨fun h0 => ?_, fun h0 => ?_⟩
    · have := h.1 h0; rw [hr] at this; cases this
    · obtain ⟨q, hq, h1, h2⟩ := h.2 h0
      rw [hr] at hq
      cases hq
      exact ⟨p', rfl, by rw [hp.size_cap.1, h1], by rw [hp.size_cap.2, h2]⟩
  · exact h

theorem dirty_holdsSet {p : PC} (h : p.dirty = true) : p.holdsSet = true := by
  cases p <;> first | rfl | cases h

theorem fabric_asConfigured (a b : Nat) : AsConfigured a b (fabric a b) := by
  unfold fabric
  refine ⟨fun h => by rw [if_pos h], fun h => ⟨_, if_neg h, rfl, rfl⟩⟩

/-- A step that touches neither the settings nor the list of engines, except for steps of pools. -/
theorem ConfInv.keep {e : Eng} (h : ConfInv e) {t : Nat} {g' : Glob} {p' : PC}
    (h1 : g'.poolSize = e.g.poolSize) (h2 : g'.maxQueue = e.g.maxQueue) (h3 : g'.loads = e.g.loads)
    (h4 : ∀ j, AsConfigured e.g.poolSize e.g.maxQueue (e.g.real j) →
      AsConfigured e.g.poolSize e.g.maxQueue (g'.real j))
    (hd : (e.pc t).dirty = true → p'.dirty = true) (hro : ReadOk e.g (e.pc t) → ReadOk e.g p') :
    ConfInv ⟨g', setFn e.pc t p'⟩ := by
  have hR : ∀ p, ReadOk e.g p → ReadOk g' p := by
    intro p hp
    cases p <;> simp only [ReadOk] at hp ⊢ <;> first | trivial | (rw [h1]; exact hp) | (rw [h1, h2]; exact hp)
  refine ⟨by show g'.poolSize = 0 → g'.maxQueue = 0; rw [h1, h2]; exact h.combo, ?_⟩
  rcases h.cur with ⟨u, hu⟩ | ⟨ha, hb⟩
  · left
    by_cases hut : u = t
    · subst hut; exact ⟨u, by simp only [setFn, if_true]; exact hd hu⟩
    · exact ⟨u, by simp only [setFn, if_neg hut]; exact hu⟩
  · right
    refine ⟨?_, fun u => ?_⟩
    · show 0 < g'.loads → AsConfigured g'.poolSize g'.maxQueue (g'.real (g'.loads - 1))
      rw [h1, h2, h3]
      exact fun hl => h4 _ (ha hl)
    · show ReadOk g' (setFn e.pc t p' u)
      unfold setFn
      split
      · exact hR _ (hro (hb t))
      · exact hR _ (hb u)

theorem ConfInv_step {e e' : Eng} (hS : SInv e) (h : ConfInv e) (hs : EStep e e') : ConfInv e' := by
  cases hs with
  | pool k p p' a hk hr hp hput hstop =>
    refine ⟨h.combo, ?_⟩
    rcases h.cur with hu | ⟨ha, hb⟩
    · exact .inl hu
    · refine .inr ⟨fun hl => AsConfigured.put hr hp (ha hl), fun t => ?_⟩
      have := hb t
      show ReadOk _ (e.pc t)
      revert this
      generalize e.pc t = q
      cases q <;> exact fun h => h
  | thread t g' p' hst =>
    generalize hpc : e.pc t = pc at hst
    have hk : ∀ {q : PC} {g1 : Glob}, e.pc t = q → g1.poolSize = e.g.poolSize → g1.maxQueue = e.g.maxQueue →
        g1.loads = e.g.loads → g1.real = e.g.real → (q.dirty = true → p'.dirty = true) →
        (ReadOk e.g q → ReadOk e.g p') → ConfInv ⟨g1, setFn e.pc t p'⟩ := by
      intro q g1 hq a1 a2 a3 a4 a5 a6
      exact h.keep a1 a2 a3 (fun j hj => by rw [a4]; exact hj) (by rw [hq]; exact a5) (by rw [hq]; exact a6)
    -- only one thread holds the lock of the engine, so only `t` can be loading
    have hother : (e.pc t).holdsEng = true → ∀ u, u ≠ t → (e.pc u).holdsEng = false := by
      intro ht u hu
      cases hc : (e.pc u).holdsEng with
      | false => rfl
      | true =>
        have h1 := (hS.eng t).1 ht
        rw [(hS.eng u).1 hc] at h1
        cases h1
        exact absurd rfl hu
    have hread : ∀ g1 : Glob, ∀ q : PC, q.holdsEng = false → ReadOk g1 q := by
      intro g1 q hq
      cases q <;> first | trivial | exact absurd hq (by simp [PC.holdsEng])
    cases hst with
    | callFirst | callDirect | callBlocked | wLock | wAlready | wNotYet | wSetLock | wRegister
    | wDone | fetch | fetchFails | handSingle | bAcquire | bFetch | bHandSingle | bRelease | cCall | cAcquire
    | cReject | cSame | cEngineEnter | cEngineLeave | cBlock | cSwap
    | cStopSingle | cStopped | cUnblock | cRelease | cDone | xCall | xLock | xSwap | xStopSingle | xStopped
    | wSetStarted | cStarted =>
      exact hk hpc rfl rfl rfl rfl (by simp [PC.dirty]) (by simp [ReadOk])
    | wLoadMulti l hn =>
      exact hk hpc rfl rfl rfl rfl (by simp [PC.dirty]) (fun _ => hn)
    | wLoadQueue l =>
      exact hk hpc rfl rfl rfl rfl (by simp [PC.dirty]) (fun hn => ⟨hn, rfl⟩)
    | handPool l k p p' hr hp =>
      exact h.keep rfl rfl rfl (fun j hj => AsConfigured.put hr hp hj) (by rw [hpc]; simp [PC.dirty]) (fun _ => trivial)
    | bHandPool l k p p' hr hp =>
      exact h.keep rfl rfl rfl (fun j hj => AsConfigured.put hr hp hj) (by rw [hpc]; simp [PC.dirty]) (fun _ => trivial)
    | cStopPool k p p' hl hr hp =>
      exact h.keep rfl rfl rfl (fun j hj => AsConfigured.put hr hp hj) (fun _ => rfl) (fun _ => trivial)
    | xStopPool k p p' hl hr hp =>
      exact h.keep rfl rfl rfl (fun j hj => AsConfigured.put hr hp hj) (by rw [hpc]; simp [PC.dirty]) (fun _ => trivial)
    | wLoadSingle l hz =>
      refine ⟨h.combo, ?_⟩
      rcases h.cur with ⟨u, hu⟩ | ⟨ha, hb⟩
      · left
        have : u ≠ t := by rintro rfl; rw [hpc] at hu; cases hu
        exact ⟨u, by simp only [setFn, if_neg this]; exact hu⟩
      · right
        refine ⟨fun _ => ?_, fun u => ?_⟩
        · simp only [Glob.load, Nat.add_sub_cancel, setFn, if_true]
          exact ⟨fun _ => rfl, fun hn => absurd hz hn⟩
        · simp only [setFn]
          split
          · trivial
          · rename_i hu
            exact hread _ _ (hother (by rw [hpc]; rfl) u hu)
    | wLoadWorkers l cap =>
      refine ⟨h.combo, ?_⟩
      rcases h.cur with ⟨u, hu⟩ | ⟨ha, hb⟩
      · left
        have : u ≠ t := by rintro rfl; rw [hpc] at hu; cases hu
        exact ⟨u, by simp only [setFn, if_neg this]; exact hu⟩
      · right
        have hR := hb t
        rw [hpc] at hR
        refine ⟨fun _ => ?_, fun u => ?_⟩
        · simp only [Glob.load, Nat.add_sub_cancel, setFn, if_true]
          exact ⟨fun hz => absurd hz hR.1, fun _ => ⟨_, rfl, rfl, hR.2⟩⟩
        · simp only [setFn]
          split
          · trivial
          · rename_i hu
            exact hread _ _ (hother (by rw [hpc]; rfl) u hu)
    | cStore c ha hc =>
      refine ⟨?_, .inl ⟨t, by simp [setFn, PC.dirty]⟩⟩
      have := h.combo
      cases c with
      | poolSize n =>
        simp only [Change.allowed, Bool.not_eq_true', Bool.and_eq_false_iff, beq_eq_false_iff_ne, ne_eq,
          bne_eq_false_iff_eq] at ha
        intro h0
        rcases ha with ha | ha
        · exact absurd h0 ha
        · exact ha
      | maxQueue n =>
        simp only [Change.allowed, Bool.not_eq_true', Bool.and_eq_false_iff, beq_eq_false_iff_ne, ne_eq,
          bne_eq_false_iff_eq] at ha
        intro h0
        rcases ha with ha | ha
        · exact ha
        · exact absurd h0 ha
    | cNotStarted hns =>
      refine ⟨h.combo, .inr ?_⟩
      -- nothing is loaded, and nobody is loading
      have hN : e.g.loads = 0 ∧ ∀ u, ReadOk e.g (e.pc u) := by
        cases hl : e.g.engLock with
        | none =>
          refine ⟨?_, fun u => hread _ _ ?_⟩
          · rcases hS.free hl with hn | hn
            · exact hn.2.1
            · exact absurd hn.1.1 (by rw [hns]; decide)
          · cases hc : (e.pc u).holdsEng with
            | false => rfl
            | true => rw [(hS.eng u).1 hc] at hl; cases hl
        | some v =>
          have hp := hS.held v hl
          have hv := (hS.eng v).2 hl
          have hall : ∀ u, u ≠ v → ReadOk e.g (e.pc u) := by
            intro u hu
            refine hread _ _ ?_
            cases hc : (e.pc u).holdsEng with
            | false => rfl
            | true => rw [(hS.eng u).1 hc] at hl; cases hl; exact absurd rfl hu
          have : e.g.loads = 0 ∧ ReadOk e.g (e.pc v) := by
            revert hp hv
            generalize e.pc v = q
            intro hp hv
            cases q with
            | wCheck =>
              rcases hp with hn | hn
              · exact ⟨hn.2.1, trivial⟩
              · exact absurd hn.1.1 (by rw [hns]; decide)
            | cEngineIn =>
              rcases hp with hn | hn
              · exact ⟨hn.2.1, trivial⟩
              · exact absurd hn.1.1 (by rw [hns]; decide)
            | wStart => exact ⟨hp.2.1, trivial⟩
            | wStarting => exact ⟨hp.2.1, trivial⟩
            | wLoad | wLoadCap | wLoadSize | wHook | wSwap => exact absurd hp.1 (by rw [hns]; decide)
            | bFetch | bUnlock | cSwap | xSwap | cRelease => exact absurd hp.1.1 (by rw [hns]; decide)
            | bHand => exact absurd hp.1.1.1 (by rw [hns]; decide)
            | cStop | xStop | cUnblock | cStopping | xStopping | cLoad | xEnd =>
              exact absurd hp.1.1 (by rw [hns]; decide)
            | _ => cases hv
          refine ⟨this.1, fun u => ?_⟩
          by_cases hu : u = v
          · rw [hu]; exact this.2
          · exact hall u hu
      refine ⟨fun hl => absurd hl (by show ¬ 0 < e.g.loads; rw [hN.1]; decide), fun u => ?_⟩
      simp only [setFn]
      split
      · trivial
      · exact hN.2 u
    | cLoad =>
      refine ⟨h.combo, .inr ⟨fun _ => ?_, fun u => ?_⟩⟩
      · simp only [Glob.load, Nat.add_sub_cancel, setFn, if_true]
        exact fabric_asConfigured _ _
      · simp only [setFn]
        split
        · trivial
        · rename_i hu
          exact hread _ _ (hother (by rw [hpc]; rfl) u hu)

theorem ConfInv_reach {e : Eng} (h : EReach Eng.init e) : ConfInv e := by
  induction h with
  | init => exact ConfInv_init
  | step hr hs ih => exact ConfInv_step (SInv_reach SInv_init hr) ih hs

/-- **C66**: whenever no accepted `config.set` is still being executed, the engine that runs (the one created
last) is the one described by the settings. -/
theorem C66_engine_as_configured (e : Eng) (h : EReach Eng.init e) (hq : ∀ t, ¬ Accepted e t) (k : Nat)
    (hk : e.g.loads = k + 1) : AsConfigured e.g.poolSize e.g.maxQueue (e.g.real k) := by
  rcases (ConfInv_reach h).cur with ⟨t, ht⟩ | ⟨ha, _⟩
  · exfalso
    apply hq t
    unfold Accepted
    revert ht
    generalize e.pc t = q
    intro ht
    cases q <;> simp [PC.dirty] at ht ⊢
  · have := ha (by omega)
    rw [hk] at this
    exact this

/-- **C66**: a limited queue without workers is never configured, whatever the threads do. -/
theorem C66_limited_queue_has_workers (e : Eng) (h : EReach Eng.init e) (hq : e.g.maxQueue ≠ 0) :
    e.g.poolSize ≠ 0 := fun h0 => hq ((ConfInv_reach h).combo h0)

/-- The settings are changed only by the holder of their lock. -/
theorem EStep.settings {e e' : Eng} (hS : SInv e) (hs : EStep e e') {t : Nat} (ha : Accepted e t) :
    e'.g.poolSize = e.g.poolSize ∧ e'.g.maxQueue = e.g.maxQueue := by
  cases hs with
  | pool => exact ⟨rfl, rfl⟩
  | thread u g' p' hst =>
    generalize hpc : e.pc u = pc at hst
    cases hst with
    | cStore c h1 h2 =>
      exfalso
      have hu : e.g.setLock = some u := (hS.set u).1 (by rw [hpc]; rfl)
      have ht : e.g.setLock = some t := (hS.set t).1 (by
        rcases ha with h | h | h | h | h | h | ⟨k, h⟩ | h | h | h | h <;> rw [h] <;> rfl)
      rw [hu] at ht
      cases ht
      rcases ha with h | h | h | h | h | h | ⟨k, h⟩ | h | h | h | h <;> rw [h] at hpc <;> cases hpc
    | _ => exact ⟨rfl, rfl⟩

/-- **C66**: when the settings are locked for a call of `config.set`, the call is refused exactly if it asks
for a limited queue without workers; otherwise the setting has the value asked for from the next step until
the call returns (and after the returning step). -/
theorem C66_change_takes_effect (e e₁ e₂ : Eng) (h : EReach Eng.init e) (t : Nat) (c : Change)
    (hc : e.pc t = .cLocked c) (g' : Glob) (p' : PC) (hst : TStep t e.g (e.pc t) g' p')
    (he₁ : e₁ = ⟨g', setFn e.pc t p'⟩) :
    (¬ Acceptable e c → e₁.pc t = .idle ∧ e₁.g.poolSize = e.g.poolSize ∧ e₁.g.maxQueue = e.g.maxQueue) ∧
    (Acceptable e c → Accepted e₁ t ∧ (Inside t e₁ e₂ → HasValue e₂ c)) := by
  have hacc : Acceptable e c ↔ c.allowed e.g = true := by
    cases c with
    | poolSize n =>
      simp only [Acceptable, Change.allowed, Bool.not_eq_true', Bool.and_eq_false_iff, beq_eq_false_iff_ne, ne_eq,
        bne_eq_false_iff_eq]
      tauto
    | maxQueue n =>
      simp only [Acceptable, Change.allowed, Bool.not_eq_true', Bool.and_eq_false_iff, beq_eq_false_iff_ne, ne_eq,
        bne_eq_false_iff_eq]
      tauto
  have hstep : EStep e e₁ := by rw [he₁]; exact .thread e t g' p' hst
  have hreach : ∀ {e₂}, Inside t e₁ e₂ → EReach Eng.init e₂ := by
    intro e₂ hi
    induction hi with
    | init => exact .step h hstep
    | step _ _ hs ih => exact .step ih hs
  have hval : HasValue e₁ c → Inside t e₁ e₂ → HasValue e₂ c := by
    intro hv hi
    induction hi with
    | init => exact hv
    | step hi ha hs ih =>
      obtain ⟨s1, s2⟩ := hs.settings (SInv_reach SInv_init (hreach hi)) ha
      cases c with
      | poolSize n => exact s1.trans ih
      | maxQueue n => exact s2.trans ih
  rw [hc] at hst
  cases hst with
  | cReject _ hr =>
    refine ⟨fun _ => ?_, fun ha => ?_⟩
    · subst he₁; exact ⟨by simp [setFn], rfl, rfl⟩
    · rw [hacc.1 ha] at hr; cases hr
  | cSame _ ha hch =>
    refine ⟨fun hn => absurd (hacc.2 ha) hn, fun _ => ⟨?_, hval ?_⟩⟩
    · subst he₁; simp [Accepted, setFn]
    · subst he₁
      cases c with
      | poolSize n => simp only [Change.changes, bne_eq_false_iff_eq] at hch; exact hch.symm
      | maxQueue n => simp only [Change.changes, bne_eq_false_iff_eq] at hch; exact hch.symm
  | cStore _ ha hch =>
    refine ⟨fun hn => absurd (hacc.2 ha) hn, fun _ => ⟨?_, hval ?_⟩⟩
    · subst he₁; simp [Accepted, setFn]
    · subst he₁
      cases c with
      | poolSize n => rfl
      | maxQueue n => rfl

/-- The hypotheses of the theorems can be met: `config.set(pool_size=2)`, then the first log. -/
example : ∃ e, EReach Eng.init e ∧ (∀ t, ¬ Accepted e t) ∧ e.g.loads = 1 ∧ e.g.poolSize = 2 := by
  have th : ∀ {e : Eng}, EReach Eng.init e → ∀ (t : Nat) {g' : Glob} {p' : PC}, TStep t e.g (e.pc t) g' p' →
      EReach Eng.init ⟨g', setFn e.pc t p'⟩ := fun h t _ _ hs => .step h (.thread _ t _ _ hs)
  have a1 := th .init 1 (.cCall _ (.poolSize 2))
  have a2 := th a1 1 (.cAcquire _ _ rfl)
  have a3 := th a2 1 (.cStore _ _ rfl rfl)
  have a4 := th a3 1 (.cEngineEnter _ rfl)
  have a5 := th a4 1 (.cEngineLeave _)
  have a6 := th a5 1 (.cNotStarted _ rfl)
  have a7 := th a6 1 (.cDone _)
  have b1 := th a7 0 (.callFirst _ 7 (fun x hx => absurd hx (List.not_mem_nil)) rfl)
  have b2 := th b1 0 (.wLock _ 7 rfl)
  have b3 := th b2 0 (.wNotYet _ 7 rfl)
  have b4 := th b3 0 (.wSetLock _ 7 rfl)
  have b5 := th b4 0 (.wSetStarted _ 7)
  have b6 := th b5 0 (.wLoadMulti _ 7 (by decide))
  have b7 := th b6 0 (.wLoadQueue _ 7)
  have b8 := th b7 0 (.wLoadWorkers _ 7 0)
  refine ⟨_, b8, fun t => ?_, rfl, rfl⟩
  unfold Accepted
  by_cases h0 : t = 0
  · subst h0; simp [setFn]
  · by_cases h1 : t = 1
    · subst h1; simp [setFn]
    · simp [setFn, h0, h1, Eng.init]

/-- The hypotheses of `C66_change_takes_effect`: `config.set(pool_size=2)` holds the lock of the settings, the value is acceptable. -/
example : ∃ e, EReach Eng.init e ∧ e.pc 1 = .cLocked (.poolSize 2) ∧ Acceptable e (.poolSize 2) ∧
    ∃ g' p', TStep 1 e.g (e.pc 1) g' p' := by
  have th : ∀ {e : Eng}, EReach Eng.init e → ∀ (t : Nat) {g' : Glob} {p' : PC}, TStep t e.g (e.pc t) g' p' →
      EReach Eng.init ⟨g', setFn e.pc t p'⟩ := fun h t _ _ hs => .step h (.thread _ t _ _ hs)
  have a1 := th .init 1 (.cCall _ (.poolSize 2))
  have a2 := th a1 1 (.cAcquire _ _ rfl)
  exact ⟨_, a2, rfl, by simp [Acceptable], _, _, .cStore _ _ rfl rfl⟩

end Polog
