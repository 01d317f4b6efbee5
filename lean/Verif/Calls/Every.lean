import Verif.Calls.EverySpec
import Verif.Calls.Props

/-! C75: every record of any program is due to something the program did. -/

namespace Polog
open CallSpec

theorem CallSpec.Part.trans {p q b : Body} (h1 : Part p q) (h2 : Part q b) : Part p b := by
  induction h2 with
  | self => exact h1
  | callee kind b k _ ih => exact .callee kind b k ih
  | afterCall kind b k o _ ih => exact .afterCall kind b k o ih
  | inBlock o b k _ ih => exact .inBlock o b k ih
  | afterBlock o b k out _ ih => exact .afterBlock o b k out ih
  | afterMessage args kwargs k e _ ih => exact .afterMessage args kwargs k e ih
  | afterManual args kwargs k e _ ih => exact .afterManual args kwargs k e ih

/-- What holds while a part of the program `b` runs. -/
structure DueInv (env : CEnv) (b : Body) (s : CallState) : Prop where
  records : ∀ r ∈ s.records, DueTo env b r
  msg : MessageFrom env b s.msg

theorem DueInv.same {env : CEnv} {b : Body} {s s' : CallState} (h : DueInv env b s) (hr : s'.records = s.records)
    (hm : s'.msg = none ∨ s'.msg = s.msg) : DueInv env b s' := by
  refine ⟨by rw [hr]; exact h.records, ?_⟩
  rcases hm with hm | hm
  · rw [hm]; trivial
  · rw [hm]; exact h.msg

theorem DueInv.add {env : CEnv} {b : Body} {s s' : CallState} (h : DueInv env b s) (rs : List Rec)
    (hr : s'.records = s.records ++ rs) (hd : ∀ r ∈ rs, DueTo env b r) (hm : s'.msg = none ∨ s'.msg = s.msg) :
    DueInv env b s' := by
  refine ⟨fun r h' => ?_, (h.same (s' := { s with msg := s'.msg }) rfl hm).msg⟩
  rw [hr] at h'
  rcases List.mem_append.1 h' with h' | h'
  · exact h.records r h'
  · exact hd r h'

theorem messageFields_wf {env : CEnv} {args : List HVal} {kwargs f : Dict Str HVal} (h : messageFields env args kwargs = some f) :
    Dict.WF f := by
  unfold messageFields at h
  split at h
  · cases h
  · rename_i fields hm
    subst h
    exact messageCall_wf hm

theorem MessageFrom.wf {env : CEnv} {b : Body} {m : Option (Dict Str HVal)} (h : MessageFrom env b m) :
    ∀ f, m = some f → Dict.WF f := by
  rintro f rfl
  obtain ⟨args, kwargs, _, h⟩ := h
  exact messageFields_wf h

theorem DueInv.logNormal {env : CEnv} {b : Body} {s : CallState} (h : DueInv env b s) {d : Deco} {info : FnInfo} {v : Val}
    {callee : Body} {k : Outcome → Body} (hp : Part (.call (.logged d info) callee k) b) :
    DueInv env b (logNormal env d info v s).2 := by
  unfold Polog.logNormal
  split
  · exact h
  · cases hn : normalLevel env d.level with
    | error e => exact h.same rfl (.inr rfl)
    | ok n =>
      dsimp only
      split
      · rename_i hle
        cases ht : v.text with
        | none => exact h.same rfl (.inr rfl)
        | some t =>
          dsimp only
          cases hi : info.inputs with
          | none => exact h.same rfl (.inl rfl)
          | some inputs =>
            refine h.add _ rfl ?_ (.inl rfl)
            intro r hr
            rw [List.mem_singleton] at hr
            subst hr
            refine .call d info (.ret v) callee k s.msg hp ((passes_ret hn v).2 hle) h.msg
              ⟨rfl, n, _, (normalLevel_iff _ _ _).1 hn, fun key => ?_, extractFrom_extracted ..⟩
            exact withMessage_get hi (MessageFrom.wf h.msg) (fun key hk => normalData_get env d info v t n ht key hk) key
      · exact h

theorem DueInv.logException {env : CEnv} {b : Body} {s : CallState} (h : DueInv env b s) {d : Deco} {info : FnInfo} {e : Exc}
    {callee : Body} {k : Outcome → Body} (hp : Part (.call (.logged d info) callee k) b) :
    DueInv env b (logException env d info e s).2 := by
  unfold Polog.logException
  split
  · exact h
  · split
    · dsimp only
      split
      · rename_i hle
        split
        · rename_i t inputs ht hi
          refine h.add _ rfl ?_ (.inl rfl)
          intro r hr
          rw [List.mem_singleton] at hr
          subst hr
          refine .call d info (.raised e) callee k s.msg hp ((passes_raised env d e).2 hle) h.msg
            ⟨rfl, _, _, errorsLevel_spec env d, fun key => ?_, extractFrom_extracted ..⟩
          exact withMessage_get hi (MessageFrom.wf h.msg) (fun key hk => errorData_get env d info e t _ ht key hk) key
        · exact h.same rfl (.inr rfl)
      · exact h.same rfl (.inr rfl)
    · exact h

theorem DueInv.loggedEnd {env : CEnv} {b : Body} {s : CallState} (h : DueInv env b s) {d : Deco} {info : FnInfo} {o : Outcome}
    {callee : Body} {k : Outcome → Body} (hp : Part (.call (.logged d info) callee k) b) :
    DueInv env b (loggedEnd env d info o s).2 := by
  cases o with
  | ret v => rw [loggedEnd_ret_snd]; exact h.logNormal hp
  | raised e =>
    rw [loggedEnd_snd]
    split
    · exact h.logException hp
    · exact h

/-- Records are only made outside fully unlogged functions. -/
theorem baseCall_record {lg : HLogger} {env : HEnv} {u : Bool} {args : List HVal} {kwargs d : Dict Str HVal}
    (h : d ∈ (baseCall lg { env with unlogged := u } args kwargs).records) :
    d ∈ (baseCall lg { env with unlogged := false } args kwargs).records := by
  cases u with
  | false => exact h
  | true =>
    rw [baseCall_muted lg { env with unlogged := true } args kwargs] at h
    cases h

theorem run_due (env : CEnv) (B : Body) : ∀ (b : Body) (s : CallState), Part b B → DueInv env B s →
    DueInv env B (b.run env s).2 := by
  intro b
  induction b with
  | ret v => intro s _ h; exact h
  | raise e => intro s _ h; exact h
  | call kind b k ihb ihk =>
    intro s hp h
    have pb : Part b B := Part.trans (.callee kind b k .self) hp
    have pk : ∀ o, Part (k o) B := fun o => Part.trans (.afterCall kind b k o .self) hp
    cases kind with
    | plain => exact ihk _ _ (pk _) (ihb s pb h)
    | logged d info => exact ihk _ _ (pk _) ((ihb { s with msg := none } pb (h.same rfl (.inl rfl))).loggedEnd hp)
    | unlogged full =>
      exact ihk _ _ (pk _) ((ihb { s with unlog := some full } pb (h.same rfl (.inr rfl))).same rfl (.inr rfl))
  | block o b k ihb ihk =>
    intro s hp h
    have pb : Part b B := Part.trans (.inBlock o b k .self) hp
    have pk : ∀ out, Part (k out) B := fun out => Part.trans (.afterBlock o b k out .self) hp
    refine ihk _ _ (pk _) ?_
    have h1 := ihb s pb h
    obtain ⟨rs, hr, hm, hd⟩ : ∃ rs, (blockEnd env o (b.run env s).1 (b.run env s).2).2.records =
        (b.run env s).2.records ++ rs ∧ (blockEnd env o (b.run env s).1 (b.run env s).2).2.msg = (b.run env s).2.msg ∧
        ∀ r ∈ rs, r.origin = .block (b.run env s).1 ∧
          r.data ∈ (baseCall simpleLogger { env.h with unlogged := unlogStatus env (b.run env s).2 } []
            (blockData env o (b.run env s).1)).records := by
      generalize (b.run env s).1 = out
      generalize (b.run env s).2 = s'
      unfold blockEnd
      split
      · refine ⟨(baseCall simpleLogger { env.h with unlogged := unlogStatus env s' } [] (blockData env o out)).records.map
          fun data => ⟨.block out, data⟩, ?_, ?_, ?_⟩
        · dsimp only
          split
          · rfl
          · split
            · rfl
            · split <;> rfl
        · dsimp only
          split
          · rfl
          · split
            · rfl
            · split <;> rfl
        · intro r hr
          obtain ⟨x, hx, rfl⟩ := List.mem_map.1 hr
          exact ⟨rfl, hx⟩
      · exact ⟨[], by simp, rfl, (fun r h => nomatch h)⟩
    refine h1.add rs hr (fun r h' => ?_) (.inr hm)
    obtain ⟨h2, h3⟩ := hd r h'
    exact .block o b k _ hp h2 (baseCall_record h3)
  | msg args kwargs k ih =>
    intro s hp h
    have pk : ∀ e, Part (k e) B := fun e => Part.trans (.afterMessage args kwargs k e .self) hp
    simp only [Body.run]
    cases hm : messageCall env.h args kwargs with
    | error e => exact ih _ _ (pk _) h
    | ok f =>
      cases f with
      | none => exact ih _ _ (pk _) h
      | some f =>
        refine ih _ _ (pk _) ⟨h.records, args, kwargs, ⟨k, hp⟩, ?_⟩
        unfold messageFields
        rw [hm]
  | manual args kwargs k ih =>
    intro s hp h
    have pk : ∀ e, Part (k e) B := fun e => Part.trans (.afterManual args kwargs k e .self) hp
    refine ih _ _ (pk _) (h.add _ rfl (fun r hr => ?_) (.inr rfl))
    obtain ⟨x, hx, rfl⟩ := List.mem_map.1 hr
    exact .manual args kwargs k hp rfl (baseCall_record hx)

/-- **C75**: whatever a program does (also with wrong arguments, unprintable values, nested `@unlog`, messages left anywhere), every
record it produces is due to the end of a decorated call, to a manual log or to the end of a `with` block of this program; its fields
are those of that call, with the fields of at most one message of the program. Nothing is made up and no two calls or messages are
mixed. -/
theorem C75_every_record_has_a_cause (env : CEnv) (b : Body) : ∀ r ∈ (b.run env .init).2.records, DueTo env b r :=
  (run_due env b b .init .self ⟨(fun r h => nomatch h), trivial⟩).records

-- a program with two records
example : (cProg.run cEnv .init).2.records.length = 2 := by decide +kernel

end Polog
