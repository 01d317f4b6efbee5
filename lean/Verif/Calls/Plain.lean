import Verif.Calls.PlainSpec
import Verif.Calls.MessageProps
import Verif.Router.Lemmas

/-! C102: the complete log of an orderly program. -/

namespace Polog
open CallSpec HandleSpec MessageSpec

namespace PlainSpec

/-- Calls made with logging switched on or off are right alike. -/
theorem valid_unlogged {lg : HLogger} {env : HEnv} {args : List HVal} {kwargs : Dict Str HVal} (u : Bool)
    (h : ValidCall lg env args kwargs) : ValidCall lg { env with unlogged := u } args kwargs :=
  ⟨h.positional, h.aliases, h.right, h.level, h.message⟩

/-- Some records are those of what happened, if one was due. -/
inductive Made (env : CEnv) (h : Happened) : List Rec → Prop
  | one (r : Rec) : (∀ seen, Due env seen h) → RecordFor env h r → Made env h [r]
  | none : (∀ seen, ¬ Due env seen h) → Made env h []

theorem made_of {env : CEnv} {lg : HLogger} {args : List HVal} {kwargs : Dict Str HVal} (hf : "message".toList ∉ lg.forbidden)
    (h : ValidCall lg env.h args kwargs) {g : Str → Option HVal} (hg : given env.h.levels args kwargs = g) {ev : Happened} {o : Origin}
    (hd : ∀ seen, Due env seen ev ↔ Reaches env g)
    (hr : ∀ r, RecordFor env ev r ↔ r.origin = o ∧ HasFields env env.h.inPlace (field env.h g) r.data) :
    Made env ev ((baseCall lg { env.h with unlogged := false } args kwargs).records.map fun data => ⟨o, data⟩) := by
  subst hg
  obtain ⟨n, f, hn, hfl, hb⟩ := base_valid hf (valid_unlogged false h)
  rw [hb]
  dsimp only at hn ⊢
  by_cases ht : env.h.threshold ≤ n
  · rw [if_pos ⟨ht, rfl⟩]
    exact .one _ (fun seen => (hd seen).2 ⟨n, hn, ht⟩) ((hr _).2 ⟨rfl, f, hfl, extractFrom_extracted _ _ _⟩)
  · rw [if_neg (fun e => ht e.1)]
    refine .none fun seen h => ?_
    obtain ⟨m, hm, hle⟩ := (hd seen).1 h
    have : levelOf env.h (given env.h.levels args kwargs) = .int n := hn
    rw [this] at hm
    cases hm
    exact ht hle

theorem made_manual {env : CEnv} {args : List HVal} {kwargs : Dict Str HVal} (h : ValidCall handleLogger env.h args kwargs) :
    Made env (.manual args kwargs)
      ((handleLog { env.h with unlogged := false } args kwargs).records.map fun data => ⟨.manual, data⟩) :=
  made_of (by decide) h rfl (fun _ => Iff.rfl) (fun _ => Iff.rfl)

theorem blockData_eq (env : CEnv) (o : BlockOpts) (out : Outcome) :
    blockData env o out = exitData env out (Dict.set "time".toList env.h.now o.data) := by
  cases out <;> rfl

theorem made_block {env : CEnv} {o : BlockOpts} (out : Outcome)
    (h : ValidCall simpleLogger env.h [] (Dict.set "time".toList env.h.now o.data)) :
    Made env (.block o out)
      ((baseCall simpleLogger { env.h with unlogged := false } [] (blockData env o out)).records.map fun data => ⟨.block out, data⟩) := by
  rw [blockData_eq]
  exact made_of (by decide) (valid_exitData out h) (given_exitData out h) (fun _ => Iff.rfl) (fun _ => Iff.rfl)

theorem manual_raises {env : CEnv} {args : List HVal} {kwargs : Dict Str HVal} (h : ValidCall handleLogger env.h args kwargs) :
    (handleLog env.h args kwargs).raised = none :=
  (C22_handle_log_records_exactly_when_level_passes env.h args kwargs h).choose_spec.2.1

/-- The two accounts of the events of a program. -/
inductive Same (env : CEnv) : List Event → List Happened → Prop
  | nil : Same env [] []
  | ended (d info o msg said evs hs) : Asks env said msg → Same env evs hs →
      Same env (.ended d info o msg :: evs) (.ended d info o said :: hs)
  | made (h : Happened) (rs : List Rec) (evs hs) : met h = [] → Made env h rs → Same env evs hs →
      Same env (rs.map .byHand ++ evs) (h :: hs)

theorem Same.append {env : CEnv} {e1 e2 : List Event} {h1 h2 : List Happened} (h : Same env e1 h1) (h' : Same env e2 h2) :
    Same env (e1 ++ e2) (h1 ++ h2) := by
  induction h with
  | nil => exact h'
  | ended d info o msg said evs hs ha _ ih => exact .ended d info o msg said _ _ ha ih
  | made h rs evs hs hm hmade _ ih => rw [List.append_assoc, List.cons_append]; exact .made h rs _ _ hm hmade ih

/-- Lists of messages. -/
def SameMessages (env : CEnv) : List (Dict Str HVal) → List (List HVal × Dict Str HVal) → Prop :=
  List.Forall₂ fun f m => ∀ name, Dict.get? name f = newValue env.h (given env.h.levels m.1 m.2) name

theorem SameMessages.last {env : CEnv} {fs ms} (h : SameMessages env fs ms) : Asks env ms.getLast? fs.getLast? := by
  induction h with
  | nil => rfl
  | @cons f m fs ms h1 h2 ih =>
    cases h2 with
    | nil => exact ⟨f, rfl, h1⟩
    | cons h3 h4 => rw [List.getLast?_cons_cons, List.getLast?_cons_cons]; exact ih

theorem SameMessages.empty {env : CEnv} {fs ms} (h : SameMessages env fs ms) : fs.isEmpty = ms.isEmpty := by
  cases h <;> rfl

/-- An orderly program meets the conditions of C24, C25 and C28, and the two accounts agree. -/
theorem orderly_bridge (env : CEnv) : ∀ (b : Body) (muted pending : Bool), Orderly env muted pending b →
    outcomeOf env b = outcome env b ∧ Valid env b ∧ UnlogFlat env muted b ∧ MsgSafe env muted pending b ∧
      SameMessages env (ownMessages env b) (messages env b) ∧ Same env (events env muted b) (happened env muted b) := by
  intro b
  induction b with
  | ret v => intro _ _ _; exact ⟨rfl, trivial, trivial, trivial, .nil, .nil⟩
  | raise e => intro _ _ _; exact ⟨rfl, trivial, trivial, trivial, .nil, .nil⟩
  | call kind b k ihb ihk =>
    intro muted pending h
    cases kind with
    | plain =>
      obtain ⟨h1, h2⟩ := h
      obtain ⟨b1, b2, b3, b4, b5, b6⟩ := ihb _ _ h1
      obtain ⟨k1, k2, k3, k4, k5, k6⟩ := ihk _ _ _ h2
      rw [← b1] at k1 k2 k3 k4 k5 k6
      refine ⟨by simp only [outcomeOf, outcome]; rw [k1, b1], ⟨b2, k2⟩, ⟨b3, k3⟩, ⟨b4, by rw [b5.empty]; exact k4⟩, ?_, ?_⟩
      · simp only [ownMessages, messages]; rw [← b1]; exact List.rel_append b5 k5
      · simp only [events, happened]; rw [← b1]; exact b6.append k6
    | logged d info =>
      obtain ⟨h1, h2, h3, h4, h5, h6, h7⟩ := h
      obtain ⟨b1, b2, b3, b4, b5, b6⟩ := ihb _ _ h6
      obtain ⟨k1, k2, k3, k4, k5, k6⟩ := ihk _ _ _ h7
      rw [← b1] at k1 k2 k3 k4 k5 k6 h3 h5
      refine ⟨by simp only [outcomeOf, outcome]; rw [k1, b1], ⟨b2, h1, h2, h3, k2⟩, ⟨b3, k3⟩, ⟨h4, b4, ?_, k4⟩, ?_, ?_⟩
      · refine h5.imp id fun h => ?_
        rw [h] at b5; exact List.forall₂_nil_right_iff.1 b5
      · simp only [ownMessages, messages]; rw [← b1]; exact k5
      · simp only [events, happened]; rw [← b1]
        refine (b6.append ?_).append k6
        split
        · exact .nil
        · exact .ended _ _ _ _ _ _ _ b5.last .nil
    | unlogged full =>
      obtain ⟨h0, h1, h2⟩ := h
      subst h0
      obtain ⟨b1, b2, b3, b4, b5, b6⟩ := ihb _ _ h1
      obtain ⟨k1, k2, k3, k4, k5, k6⟩ := ihk _ _ _ h2
      rw [← b1] at k1 k2 k3 k4 k5 k6
      refine ⟨by simp only [outcomeOf, outcome]; rw [k1, b1], ⟨b2, k2⟩, ⟨rfl, b3, k3⟩,
        ⟨by rw [Bool.false_or]; exact b4, by rw [b5.empty]; exact k4⟩, ?_, ?_⟩
      · simp only [ownMessages, messages]; rw [← b1]; exact List.rel_append b5 k5
      · simp only [events, happened]; rw [← b1, Bool.false_or]; exact b6.append k6
  | block o b k ihb ihk =>
    intro muted pending h
    obtain ⟨h1, h2, h3, h4⟩ := h
    obtain ⟨b1, b2, b3, b4, b5, b6⟩ := ihb _ _ h3
    obtain ⟨k1, k2, k3, k4, k5, k6⟩ := ihk _ _ _ h4
    rw [← b1] at k1 k2 k3 k4 k5 k6 h2
    have hraise : (baseCall simpleLogger env.h [] (blockData env o (outcomeOf env b))).raised = none := by
      rw [blockData_eq]
      obtain ⟨n, f, _, _, hb⟩ := base_valid (lg := simpleLogger) (by decide) (valid_exitData (outcomeOf env b) h1)
      rw [hb]
    refine ⟨by simp only [outcomeOf, outcome]; rw [k1, b1], ⟨b2, h2, hraise, k2⟩, ⟨b3, k3⟩, ⟨b4, by rw [b5.empty]; exact k4⟩, ?_, ?_⟩
    · simp only [ownMessages, messages]; rw [← b1]; exact List.rel_append b5 k5
    · simp only [events, happened]; rw [← b1]
      refine (b6.append ?_).append k6
      split
      · exact .nil
      · have := Same.made _ _ [] [] rfl (made_block (outcomeOf env b) h1) Same.nil
        rw [List.append_nil, List.map_map] at this
        exact this
  | msg args kwargs k ih =>
    intro muted pending h
    obtain ⟨h1, ⟨name, hname⟩, h2⟩ := h
    obtain ⟨k1, k2, k3, k4, k5, k6⟩ := ih _ _ _ h2
    obtain ⟨r1, r2⟩ := right_message h1
    obtain ⟨f, hf⟩ : ∃ f, messageFields env args kwargs = some f := by
      cases hm : messageFields env args kwargs with
      | some f => exact ⟨f, rfl⟩
      | none => rw [← r2 name, hm] at hname; exact absurd rfl hname
    rw [← r1] at k1 k2 k3 k4 k5 k6
    refine ⟨by simp only [outcomeOf, outcome]; rw [k1, r1], k2, k3, ?_, ?_, ?_⟩
    · show MsgSafe env muted (pending || (messageFields env args kwargs).isSome) _
      rw [hf, Option.isSome_some, Bool.or_true]; exact k4
    · simp only [ownMessages, messages]; rw [hf, ← r1]
      refine .cons (fun name => ?_) k5
      rw [← r2 name, hf]; rfl
    · simp only [events, happened]; rw [← r1]; exact k6
  | manual args kwargs k ih =>
    intro muted pending h
    obtain ⟨h1, h2⟩ := h
    obtain ⟨k1, k2, k3, k4, k5, k6⟩ := ih _ _ _ h2
    have r1 := manual_raises h1
    rw [← r1] at k1 k2 k3 k4 k5 k6
    refine ⟨by simp only [outcomeOf, outcome]; rw [k1, r1], k2, k3, k4, ?_, ?_⟩
    · simp only [ownMessages, messages]; rw [← r1]; exact k5
    · simp only [events, happened]; rw [← r1]
      refine Same.append ?_ k6
      split
      · exact .nil
      · have := Same.made _ _ [] [] rfl (made_manual h1) Same.nil
        rw [List.append_nil, List.map_map] at this
        exact this

theorem toRecord_cons_pos {env : CEnv} {seen : List ExcId} {ev : Event} (h : ToRecord env seen ev) (evs : List Event) :
    toRecord env seen (ev :: evs) = ev :: toRecord env (seen ++ ev.exc?.toList) evs := by
  classical
  simp [toRecord, withEarlier, h]

theorem toRecord_cons_neg {env : CEnv} {seen : List ExcId} {ev : Event} (h : ¬ ToRecord env seen ev) (evs : List Event) :
    toRecord env seen (ev :: evs) = toRecord env (seen ++ ev.exc?.toList) evs := by
  classical
  simp [toRecord, withEarlier, h]

/-- Every record of the event is one of what happened. -/
def Stands (env : CEnv) (ev : Event) (h : Happened) : Prop := ∀ r, RecordOf env ev r → RecordFor env h r

theorem same_due {env : CEnv} {evs : List Event} {hs : List Happened} (h : Same env evs hs) : ∀ seen : List ExcId,
    List.Forall₂ (Stands env) (toRecord env seen evs) (due env seen hs) := by
  induction h with
  | nil => intro seen; exact .nil
  | ended d info o msg said evs hs ha _ ih =>
    intro seen
    have hm : (Event.ended d info o msg).exc?.toList = met (.ended d info o said) := by
      cases o with
      | ret v => rfl
      | raised e => simp only [Event.exc?, met]; split <;> rfl
    have hd : ToRecord env seen (.ended d info o msg) ↔ Due env seen (.ended d info o said) := by
      cases o <;> exact Iff.rfl
    unfold due
    rw [← hm]
    by_cases hp : ToRecord env seen (.ended d info o msg)
    · rw [if_pos (hd.1 hp), List.singleton_append, toRecord_cons_pos hp]
      refine .cons (fun r h1 => ?_) (ih _)
      obtain ⟨e1, n, base, e2, e3, e4⟩ := h1
      exact ⟨e1, n, msg, e2, ha, base, e3, e4⟩
    · rw [if_neg (fun e => hp (hd.2 e)), List.nil_append, toRecord_cons_neg hp]
      exact ih _
  | made hh rs evs hs hm hmade _ ih =>
    intro seen
    unfold due
    rw [hm, List.append_nil]
    cases hmade with
    | one r hd hr =>
      rw [if_pos (hd seen), List.singleton_append]
      rw [List.map_cons, List.map_nil, List.singleton_append,
        toRecord_cons_pos (show ToRecord env seen (.byHand r) from trivial)]
      have e : (Event.byHand r).exc?.toList = [] := rfl
      rw [e, List.append_nil]
      refine .cons (fun r' h1 => ?_) (ih _)
      have h1' : r' = r := h1
      rw [h1']; exact hr
    | none hd => rw [if_neg (hd seen), List.nil_append]; exact ih _

theorem forall₂_through {α β γ : Type} {P : α → β → Prop} {Q : α → γ → Prop} {R : β → γ → Prop} (h : ∀ a b c, P a b → Q a c → R b c)
    {l : List α} {m : List β} {n : List γ} (h1 : List.Forall₂ P l m) (h2 : List.Forall₂ Q l n) : List.Forall₂ R m n := by
  induction h1 generalizing n with
  | nil => cases h2; exact .nil
  | cons a _ ih =>
    cases h2 with
    | cons b h2 => exact .cons (h _ _ _ a b) (ih h2)

theorem orderly_due {env : CEnv} {b : Body} (h : Orderly env false false b) :
    List.Forall₂ (Stands env) (toRecord env [] (events env false b)) (due env [] (happened env false b)) :=
  same_due (orderly_bridge env b false false h).2.2.2.2.2 []

end PlainSpec

open PlainSpec

/-- **C102.** An orderly program ends as its code says, and its log is read off the code: there is exactly one record for each thing
that happened and was due a record, in the order in which they happened, each with exactly the fields of its table (and the registered
extra fields). -/
theorem C102_log_is_read_off_the_code (env : CEnv) (b : Body) (h : Orderly env false false b) :
    (b.run env .init).1 = outcome env b ∧
      List.Forall₂ (RecordFor env) (due env [] (happened env false b)) (b.run env .init).2.records := by
  obtain ⟨h1, h2, h3, h4, _, h6⟩ := orderly_bridge env b false false h
  refine ⟨?_, forall₂_through (fun _ _ _ h => h _) (same_due h6 []) (C28_record_has_the_last_own_message_partial env b h2 h3 h4)⟩
  rw [C24_decorators_are_transparent env b .init h2, h1]

/-! A program with everything: a decorated function calls another one, which raises; it logs by hand, opens a block in which the same
exception is raised again and swallowed, calls an unlogged function, leaves a message and returns. -/

def cManual : List HVal × Dict Str HVal := ([.str "hi".toList], [("level".toList, .int 9)])

def cOpts : BlockOpts := ⟨[("level".toList, .int 4)], true, []⟩

/-- What `outer` does after `inner` has raised. -/
def cRest : Body :=
  .manual cManual.1 cManual.2 fun _ =>
    .block cOpts (.raise cExc) fun _ =>
      .call (.unlogged none) (.manual cManual.1 cManual.2 fun _ => .ret cVal) fun _ =>
        .msg [.str "hello".toList] [] fun _ => .ret cVal

def cWhole : Body :=
  .call (.logged (cDeco 9) (cFn "outer"))
    (.call (.logged (cDeco 3) (cFn "inner")) (.raise cExc) fun _ => cRest) andReturn

theorem cManual_valid : ValidCall handleLogger cEnv.h cManual.1 cManual.2 := by
  refine ⟨by decide, by unfold NoAliases; decide, fun k v h => ?_, fun v h _ => ?_, fun m v _ h => ?_⟩
  all_goals
    simp only [cManual, List.mem_cons, List.not_mem_nil, or_false, Prod.mk.injEq] at h
    obtain ⟨h, rfl⟩ := h
  · subst h; exact ⟨by decide, .inl (.level _)⟩
  · exact ⟨9, .number _ (by decide)⟩
  · exact absurd h (by decide)

theorem cOpts_valid : ValidCall simpleLogger cEnv.h [] (Dict.set "time".toList cEnv.h.now cOpts.data) := by
  refine ValidCall.set sTime (.inl (by decide)) ⟨by decide, by unfold NoAliases; decide, fun k v h => ?_, fun v h _ => ?_, by simp⟩
  all_goals
    simp only [cOpts, List.mem_cons, List.not_mem_nil, or_false, Prod.mk.injEq] at h
    obtain ⟨h, rfl⟩ := h
  · subst h; exact ⟨by decide, .inl (.level _)⟩
  · exact ⟨4, .number _ (by decide)⟩

theorem cWhole_orderly : Orderly cEnv false false cWhole := by
  refine ⟨.inr ⟨9, rfl, by decide⟩, rfl, rfl, rfl, .inl ⟨rfl, ⟨9, .given _ _ rfl (.number 9 (by decide)), by decide⟩, trivial⟩, ?_, trivial⟩
  refine ⟨.inr ⟨3, rfl, by decide⟩, rfl, rfl, rfl, .inr rfl, trivial, ?_⟩
  refine ⟨cManual_valid, cOpts_valid, rfl, trivial, rfl, ⟨cManual_valid, trivial⟩, ⟨⟨by decide, List.nodup_nil, (fun _ _ h => nomatch h),
    (fun _ h => nomatch h), (fun _ _ _ h => nomatch h)⟩, (fun _ _ h => nomatch h)⟩, ⟨"message".toList, by decide⟩, trivial⟩

/-- What happens in it, by the specification. -/
example : happened cEnv false cWhole =
    [.ended (cDeco 3) (cFn "inner") (.raised cExc) none, .manual cManual.1 cManual.2, .block cOpts (.raised cExc),
      .ended (cDeco 9) (cFn "outer") (.ret cVal) (some ([.str "hello".toList], []))] := rfl

/-- All of it is due a record, and these are the records. -/
example : (cWhole.run cEnv .init).2.records.map
    (fun r => (r.origin, Dict.get? "message".toList r.data, Dict.get? "level".toList r.data, Dict.get? "success".toList r.data)) =
    [(.auto (cFn "inner") (.raised cExc), none, some (.int 5), some (.bool false)),
      (.manual, some (.str "hi".toList), some (.int 9), none),
      (.block (.raised cExc), none, some (.int 4), some (.bool false)),
      (.auto (cFn "outer") (.ret cVal), some (.str "hello".toList), some (.int 9), some (.bool true))] := by decide +kernel

end Polog
