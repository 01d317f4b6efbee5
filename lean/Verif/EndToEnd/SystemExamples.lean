import Verif.EndToEnd.SystemProps

/-! An execution of the whole system that meets the hypotheses of C79. -/

namespace Polog
open CallSpec FormatSpec FileSpec WaySpec EngineSpec

local macro "calm" : tactic => `(tactic| (intro _ h; exact nomatch h))

theorem all_idle {pc : Nat → PC} {t : Nat} (h : ∀ u, u ≠ t → pc u = .idle) (h' : pc t = .idle) (u : Nat) : pc u = .idle := by
  by_cases hu : u = t
  · subst hu; exact h'
  · exact h u hu

theorem EngineSpec.CalmReach.at {e₀ e : Eng} (h : CalmReach e₀ e) (t : Nat) {p : PC} (hp : e.pc t = p) {g' : Glob} {p' : PC}
    (hs : TStep t e.g p g' p') (hc : e.g.mode ≠ .blocked → g'.mode = .blocked → ¬ WriteInFlight e) :
    CalmReach e₀ ⟨g', setFn e.pc t p'⟩ := h.th t (hp ▸ hs) hc

/-- Threads that write logs one after another. -/
theorem calm_writes (t : Nat) (ts : List Nat) : ∃ e, CalmReach Eng.init e ∧ (∀ u, e.pc u = .idle) ∧ e.g.mode = .direct ∧
    e.g.loads = 1 ∧ e.g.real 0 = .single ∧ e.g.calls = (t :: ts).zipIdx ∧ e.g.seq = List.range (t :: ts).length := by
  induction ts using List.reverseRecOn with
  | nil =>
    have b1 := (CalmReach.init (e₀ := Eng.init)).at t rfl (.callFirst _ 0 (by simp [Eng.init, Glob.init]) rfl) (by calm)
    have b2 := b1.at t (setFn_self ..) (.wLock _ _ rfl) (by calm)
    have b3 := b2.at t (setFn_self ..) (.wNotYet _ _ rfl) (by calm)
    have b4 := b3.at t (setFn_self ..) (.wSetLock _ _ rfl) (by calm)
    have b5 := b4.at t (setFn_self ..) (.wSetStarted _ _) (by calm)
    have b6 := b5.at t (setFn_self ..) (.wLoadSingle _ _ rfl) (by calm)
    have b9 := b6.at t (setFn_self ..) (.wRegister _ _) (by calm)
    have b10 := b9.at t (setFn_self ..) (.wDone _ _) (by calm)
    have b11 := b10.at t (setFn_self ..) (.fetch _ _ 0 rfl) (by calm)
    have b12 := b11.at t (setFn_self ..) (.handSingle _ _ 0 rfl) (by calm)
    refine ⟨_, b12, ?_, rfl, rfl, rfl, rfl, rfl⟩
    refine all_idle (t := t) (fun u hu => ?_) (setFn_self ..)
    dsimp only
    simp only [setFn_ne _ _ hu]
    rfl
  | append_singleton ts u ih =>
    obtain ⟨e, hr, hi, hm, hl, hk, hc, hs⟩ := ih
    have hfresh : ∀ x ∈ e.g.calls, x.2 ≠ (t :: ts).length := by
      intro x hx
      rw [hc] at hx
      have := List.snd_lt_of_mem_zipIdx hx
      exact Nat.ne_of_lt (by simpa using this)
    have b1 := hr.at u (hi u) (.callDirect _ (t :: ts).length hfresh hm) (by rw [hm]; calm)
    have b2 := b1.at u (setFn_self ..) (.fetch _ _ 0 hl) (by dsimp only; rw [hm]; calm)
    have b3 := b2.at u (setFn_self ..) (.handSingle _ _ 0 hk) (by dsimp only; rw [hm]; calm)
    refine ⟨_, b3, ?_, hm, hl, hk, ?_, ?_⟩
    · refine all_idle (t := u) (fun v hv => ?_) (setFn_self ..)
      dsimp only
      simp only [setFn_ne _ _ hv]
      exact hi v
    · show e.g.calls ++ [(u, _)] = _
      rw [hc, ← List.cons_append, List.zipIdx_append]
      simp
    · show e.g.seq ++ [_] = _
      rw [hs, ← List.cons_append, List.length_append, List.length_singleton, List.range_succ]

/-- Whatever the threads of the program have done, there is an execution of the whole system with it in which everything comes
to an end. -/
theorem exists_systemRun (env : WayEnv) (progs : Nat → Body) (w : CWorld)
    (h : CwRun env.c (.start progs (fun _ => none) (fun _ => none)) w) :
    ∃ s : SystemRun env progs wayConf, s.w = w ∧ CalmReach Eng.init s.e ∧ Quiescent s.e ∧ ∀ t, s.after.pc t = .idle := by
  obtain ⟨e, hr, hi, hc, hs⟩ : ∃ e, CalmReach Eng.init e ∧ (∀ u, e.pc u = .idle) ∧ e.g.calls = (w.records.map Prod.fst).zipIdx ∧
      e.g.seq = List.range w.records.length := by
    cases hw : w.records with
    | nil => exact ⟨_, .init, fun _ => rfl, rfl, rfl⟩
    | cons x l =>
      obtain ⟨e, hr, hi, _, _, _, hc, hs⟩ := calm_writes x.1 (l.map Prod.fst)
      exact ⟨e, hr, hi, hc, by rw [hs]; simp⟩
  obtain ⟨after, h1, h2, _⟩ := exists_trace wayConf (fun _ => rfl) (by decide) rfl fTraceStart
    (e.g.seq.flatMap fun l => (w.records[l]?).toList.flatMap fun x => ((fileHandler env).call none (env.log x.2)).events)
    (fun _ => rfl) rfl (fun h => nomatch h)
  refine ⟨⟨w, e, _, fTraceStart, after, h, hr.reach, wayStart, h1, fun t l => ?_, .refl _⟩, rfl, hr, ?_, h2⟩
  · rw [hc, List.mem_zipIdx_iff_getElem?, List.getElem?_map]
    simp only [Option.map_eq_some_iff]
    constructor
    · rintro ⟨x, hx, rfl⟩; exact ⟨x.2, hx⟩
    · rintro ⟨r, hr⟩; exact ⟨_, hr, rfl⟩
  · refine quiescent_of_all_handled hr.reach hi fun x hx => ?_
    rw [hc] at hx
    rw [hs]
    have := List.snd_lt_of_mem_zipIdx hx
    exact List.mem_range.2 (by simpa using this)

/-- Two threads that log, the others do nothing. -/
def sysProgs (t : Nat) : Body := if t < 2 then twoProgs t else .ret cVal

/-- Both threads take turns. -/
theorem sysProgs_ok : (∀ t, Own twoOwner t (sysProgs t)) ∧ (∀ t, 2 ≤ t → ∃ v, sysProgs t = .ret v) ∧
    (∀ t < 2, Valid wayExample.c (sysProgs t)) ∧ (∀ t < 2, UnlogFlat wayExample.c false (sysProgs t)) ∧
    (∀ t < 2, MsgSafe wayExample.c false false (sysProgs t)) ∧ (∀ v, (wayExample.view v).text ≠ none) ∧
    ∃ w : CWorld, CwRun wayExample.c (.start sysProgs (fun _ => none) (fun _ => none)) w ∧ w.records.map Prod.fst = [0, 0, 1] ∧
      ∀ t < 2, ∃ o, (w.threads t).ctl = .halted o := by
  have two : ∀ {P : Nat → Prop}, P 0 → P 1 → ∀ t < 2, P t := by
    intro P h0 h1 t ht
    match t, ht with
    | 0, _ => exact h0
    | 1, _ => exact h1
  refine ⟨fun t => ?_, fun t ht => ⟨cVal, if_neg (by omega)⟩, two cProg_valid ?_, two cProg_flat ⟨trivial, trivial⟩,
    two cProg_safe ?_, (fun v h => nomatch h), ?_⟩
  · unfold sysProgs
    split
    · exact twoProgs_own t
    · trivial
  · exact ⟨trivial, .inr ⟨9, rfl, by decide⟩, rfl, rfl, trivial⟩
  · exact ⟨rfl, trivial, .inl ⟨rfl, ⟨9, .given _ _ rfl (.number 9 (by decide)), by decide⟩, trivial⟩, trivial⟩
  · have h : ((CWorld.start sysProgs (fun _ => none) (fun _ => none)).exec cEnv [0, 1, 0, 1, 0, 0, 0, 0, 1, 0, 1]).map
        (fun w => (match (w.threads 0).ctl with | .halted _ => true | _ => false, match (w.threads 1).ctl with | .halted _ => true | _ => false,
          w.records.map Prod.fst)) = some (true, true, [0, 0, 1]) := by
      decide +kernel
    obtain ⟨w, hw, he⟩ := Option.map_eq_some_iff.1 h
    obtain ⟨h1, h2⟩ := Prod.mk.inj he
    obtain ⟨h2, h3⟩ := Prod.mk.inj h2
    refine ⟨w, CWorld.exec_run hw, h3, two ?_ ?_⟩
    · split at h1
      · rename_i o heq; exact ⟨o, heq⟩
      · cases h1
    · split at h2
      · rename_i o heq; exact ⟨o, heq⟩
      · cases h2

-- the hypotheses of C79 are met
example : (∀ t, Own twoOwner t (sysProgs t)) ∧ (∀ t, 2 ≤ t → ∃ v, sysProgs t = .ret v) ∧
    (∀ t < 2, Valid wayExample.c (sysProgs t)) ∧ (∀ t < 2, UnlogFlat wayExample.c false (sysProgs t)) ∧
    (∀ t < 2, MsgSafe wayExample.c false false (sysProgs t)) ∧ (∀ v, (wayExample.view v).text ≠ none) ∧
    ∃ s : SystemRun wayExample sysProgs wayConf, s.w.records.map Prod.fst = [0, 0, 1] ∧
      (∀ t < 2, ∃ o, (s.w.threads t).ctl = .halted o) ∧
      CalmReach Eng.init s.e ∧ Quiescent s.e ∧ (∀ t, s.after.pc t = .idle) := by
  obtain ⟨h1, h2, h3, h4, h5, h6, w, hw, hr, hh⟩ := sysProgs_ok
  obtain ⟨s, rfl, ha, hb, hc⟩ := exists_systemRun wayExample sysProgs w hw
  exact ⟨h1, h2, h3, h4, h5, h6, s, hr, hh, ha, hb, hc⟩

end Polog
