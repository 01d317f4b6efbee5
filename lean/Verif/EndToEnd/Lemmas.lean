import Verif.EndToEnd.Spec
import Verif.Calls.Props
import Verif.Format.Props
import Verif.Format.Props4
import Verif.File.Count
import Verif.Base.Props

namespace Polog

/-! ### Records are dictionaries -/

theorem extractFrom_wf {V : Type} (inter : Bool) : ∀ (fields : List (Str × Extractor V)) (d : Dict Str V),
    Dict.WF d → Dict.WF (extractFrom inter fields d) := by
  intro fields
  induction fields with
  | nil => intro d h; exact h
  | cons x rest ih =>
    intro d h
    obtain ⟨name, field⟩ := x
    simp only [extractFrom]
    split
    · split
      · exact ih _ (Dict.WF_set h)
      · exact ih _ h
    · exact ih _ h

theorem setStr_wf {key : Str} {s : Option Str} {d : Dict Str HVal} (h : Dict.WF d) : Dict.WF (setStr key s d) := by
  unfold setStr
  split
  · exact h
  · exact Dict.WF_set h

theorem baseArgs_wf (env : CEnv) (d : Deco) (info : FnInfo) : Dict.WF (baseArgs env d info) := by
  unfold baseArgs
  exact Dict.WF_set (setStr_wf (setStr_wf (setStr_wf (setStr_wf (by simp [Dict.WF, Dict.keys])))))

theorem copyContext_wf {s : CallState} {d : Dict Str HVal} (h : Dict.WF d) : Dict.WF (copyContext s d) := by
  unfold copyContext
  split
  · exact h
  · exact Dict.WF_update h _

theorem specificProcessing_wf {env : HEnv} {f : Dict Str HVal} (h : Dict.WF f) : Dict.WF (specificProcessing env f) := by
  have h1 := WF_markManual env h
  have h2 : Dict.WF (extractException env true true (markManual env f)) := by
    unfold extractException
    split
    · exact h1
    · dsimp only
      have h3 := Dict.WF_erase (k := "exception".toList) (exceptionInfo_wf (env := env) (v := by assumption) h1)
      rw [if_pos rfl]
      split
      · exact Dict.WF_set (Dict.WF_set h3)
      · exact Dict.WF_set h3
  have h3 : Dict.WF (extractFunctionData (extractException env true true (markManual env f))) := by
    unfold extractFunctionData
    split
    · exact Dict.WF_set (Dict.WF_set h2)
    · dsimp only
      split
      · exact Dict.WF_set (Dict.WF_set h2)
      · exact Dict.WF_set h2
    · exact h2
  have hi : ∀ (c : Bool) (a b : Dict Str HVal), Dict.WF a → Dict.WF b → Dict.WF (if c then a else b) := by
    intro c a b ha hb; cases c
    · exact hb
    · exact ha
  have h4 := hi (Dict.has "level".toList (extractFunctionData (extractException env true true (markManual env f)))) _ _ h3
    (Dict.WF_set (k := "level".toList) (v := .int (if successOf (extractFunctionData (extractException env true true
      (markManual env f))) then env.defaultLevel else env.defaultErrorLevel)) h3)
  exact hi _ _ _ h4 (Dict.WF_set h4)

theorem baseCall_wf (lg : HLogger) (env : HEnv) (args : List HVal) (kwargs : Dict Str HVal) :
    ∀ d ∈ (baseCall lg env args kwargs).records, Dict.WF d := by
  intro d hd
  unfold baseCall at hd
  split at hd
  · cases hd
  · rename_i f hp
    unfold basePush at hd
    split at hd
    · split at hd
      · split at hd
        · cases hd
        · rw [List.mem_singleton] at hd
          subst hd
          exact extractFrom_wf _ _ _ (specificProcessing_wf (prepareData_wf hp))
      · cases hd
    · cases hd

/-- Every record of the state is a dictionary. -/
def RecsWF (s : CallState) : Prop := ∀ r ∈ s.records, Dict.WF r.data

theorem RecsWF.add {s s' : CallState} (h : RecsWF s) (l : List Rec) (hl : ∀ r ∈ l, Dict.WF r.data)
    (e : s'.records = s.records ++ l) : RecsWF s' := by
  intro r hr
  rw [e] at hr
  rcases List.mem_append.1 hr with h1 | h1
  · exact h r h1
  · exact hl r h1

theorem RecsWF.same {s s' : CallState} (h : RecsWF s) (e : s'.records = s.records) : RecsWF s' := by
  intro r hr
  rw [e] at hr
  exact h r hr

theorem recsWF_data (o : Outcome → Origin) (out : Outcome) (l : List (Dict Str HVal))
    (hl : ∀ d ∈ l, Dict.WF d) : ∀ r ∈ l.map (fun d => (⟨o out, d⟩ : Rec)), Dict.WF r.data := by
  intro r hr
  obtain ⟨d, hd, rfl⟩ := List.mem_map.1 hr
  exact hl d hd

theorem logNormal_wf (env : CEnv) (d : Deco) (info : FnInfo) (v : Val) (s : CallState) (h : RecsWF s) :
    RecsWF (logNormal env d info v s).2 := by
  unfold logNormal
  split
  · exact h
  · split
    · exact h
    · split
      · split
        · exact h
        · dsimp only
          split
          · exact h
          · refine h.add _ ?_ rfl
            intro r hr
            rw [List.mem_singleton] at hr
            subst hr
            exact extractFrom_wf _ _ _ (setStr_wf (copyContext_wf (setStr_wf (Dict.WF_set (Dict.WF_set (Dict.WF_set
              (Dict.WF_set (baseArgs_wf env d info))))))))
      · exact h

theorem logException_wf (env : CEnv) (d : Deco) (info : FnInfo) (e : Exc) (s : CallState) (h : RecsWF s) :
    RecsWF (logException env d info e s).2 := by
  unfold logException
  split
  · exact h
  · split
    · dsimp only
      split
      · split
        · refine h.add _ ?_ rfl
          intro r hr
          rw [List.mem_singleton] at hr
          subst hr
          exact extractFrom_wf _ _ _ (setStr_wf (copyContext_wf (setStr_wf (Dict.WF_set (Dict.WF_set (Dict.WF_set
              (Dict.WF_set (Dict.WF_set (Dict.WF_set (Dict.WF_set (baseArgs_wf env d info)))))))))))
        · exact h
      · exact h
    · exact h

theorem loggedEnd_wf (env : CEnv) (d : Deco) (info : FnInfo) (o : Outcome) (s : CallState) (h : RecsWF s) :
    RecsWF (loggedEnd env d info o s).2 := by
  unfold loggedEnd
  cases o with
  | ret v =>
    have := logNormal_wf env d info v s h
    dsimp only
    split <;> (rename_i hq; rw [hq] at this; exact this)
  | raised e =>
    have := logException_wf env d info e s h
    dsimp only
    split
    · split
      · rename_i hq; rw [hq] at this; exact this
      · rename_i hq
        rw [hq] at this
        split
        · exact this
        · split <;> exact this
    · exact h

theorem blockEnd_wf (env : CEnv) (o : BlockOpts) (out : Outcome) (s : CallState) (h : RecsWF s) :
    RecsWF (blockEnd env o out s).2 := by
  unfold blockEnd
  split
  · dsimp only
    have hd : ∀ x : CallState, x.records = s.records ++ (baseCall simpleLogger { env.h with unlogged := unlogStatus env s } []
        (blockData env o out)).records.map (fun data => (⟨.block out, data⟩ : Rec)) → RecsWF x := fun x e =>
      h.add _ (recsWF_data .block out _ (baseCall_wf _ _ _ _)) e
    split
    · exact hd _ rfl
    · split
      · exact hd _ rfl
      · split
        · exact hd _ rfl
        · exact hd _ rfl
  · exact h

theorem run_recsWF (env : CEnv) : ∀ (b : Body) (s : CallState), RecsWF s → RecsWF (b.run env s).2 := by
  intro b
  induction b with
  | ret v => intro s h; exact h
  | raise e => intro s h; exact h
  | call kind b k ihb ihk =>
    intro s h
    cases kind with
    | plain => exact ihk _ _ (ihb s h)
    | logged d info => exact ihk _ _ (loggedEnd_wf env d info _ _ (ihb _ (h.same rfl)))
    | unlogged full =>
      exact ihk _ _ ((ihb { s with unlog := some full } (h.same rfl)).same rfl)
  | block o b k ihb ihk => intro s h; exact ihk _ _ (blockEnd_wf env o _ _ (ihb s h))
  | msg args kwargs k ih =>
    intro s h
    simp only [Body.run]
    split
    · exact ih _ _ h
    · exact ih _ _ h
    · exact ih _ _ (h.same rfl)
  | manual args kwargs k ih =>
    intro s h
    exact ih _ _ (h.add _ (recsWF_data (fun _ => .manual) (.ret .none) _ (baseCall_wf _ _ _ _)) rfl)

theorem wayLog_wf (env : WayEnv) (r : Rec) (h : Dict.WF r.data) : Dict.WF (env.log r) := by
  have := extractFrom_wf env.c.h.fieldsIntersection env.engineFields r.data h
  unfold WayEnv.log Dict.WF Dict.keys at *
  rw [List.map_map]
  exact this

/-! ### The file of one thread is flushed when it rests -/

theorem FRun.alone {c : FConf} (ht : c.threads = 1) (hf : c.forced = true) {s₀ s : FState} (hstart : FStart c s₀)
    (hrun : FRun c s₀ s) : Alone s := by
  suffices FInv c s₀ s ∧ Alone s from this.2
  induction hrun with
  | init =>
    refine ⟨FInv.init hstart, fun t _ => hstart.idle t, fun _ => hstart.buf⟩
  | step _ hs ih =>
    refine ⟨ih.1.step hs (.inr ?_), ih.2.step ht hf ih.1.wf hs⟩
    intro t line hpc
    obtain rfl := ih.2.thread (t := t) (by rw [hpc]; simp)
    refine ih.2.flushed ?_
    intro l hl; rw [hpc] at hl; cases hl

end Polog
