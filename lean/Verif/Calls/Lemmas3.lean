import Verif.Calls.Lemmas2

/-! Helper lemmas about decorated calls: whole programs. -/

namespace Polog
open CallSpec

/-- What running `b` from `s` does, compared with the specification. -/
structure Sim (env : CEnv) (m : Prop) (muted : Bool) (seen : List ExcId) (b : Body) (s s' : CallState)
    (o : Outcome) : Prop where
  outcome : o = outcomeOf env b
  status : unlogStatus env s' = muted
  next : s'.next = s.next
  marked : ∀ x, x ∈ s'.marked ↔ x ∈ seenAfter seen (events env muted b)
  records : ∃ recs, s'.records = s.records ++ recs ∧
    List.Forall₂ (Agree env m) (toRecord env seen (events env muted b)) recs
  msg : m → s'.msg = (ownMessages env b).getLast?.or s.msg

theorem isSome_or_last (l : List (Dict Str HVal)) (m : Option (Dict Str HVal)) :
    (l.getLast?.or m).isSome = (m.isSome || !l.isEmpty) := by
  cases hl : l.getLast? with
  | none =>
    have := List.getLast?_eq_none_iff.1 hl
    subst this
    simp
  | some x =>
    have : l ≠ [] := by rintro rfl; cases hl
    cases l with
    | nil => exact absurd rfl this
    | cons a b => simp

theorem Agree.mono {env : CEnv} {m m' : Prop} (h : m' → m) {ev : Event} {r : Rec} (ha : Agree env m ev r) :
    Agree env m' ev r := ⟨ha.1, fun hm => ha.2 (h hm)⟩

theorem run_sim (env : CEnv) (m : Prop) : ∀ (b : Body) (muted pending : Bool) (seen : List ExcId) (s : CallState),
    Valid env b → UnlogFlat env muted b → unlogStatus env s = muted → (∀ x, x ∈ s.marked ↔ x ∈ seen) →
    (m → MsgSafe env muted pending b ∧ s.msg.isSome = pending) →
    Sim env m muted seen b s (b.run env s).2 (b.run env s).1 := by
  intro b
  induction b with
  | ret v =>
    intro muted pending seen s _ _ hu hm _
    exact ⟨rfl, hu, rfl, hm, ⟨[], by simp [Body.run], .nil⟩, fun _ => by simp [ownMessages, Body.run]⟩
  | raise e =>
    intro muted pending seen s _ _ hu hm _
    exact ⟨rfl, hu, rfl, hm, ⟨[], by simp [Body.run], .nil⟩, fun _ => by simp [ownMessages, Body.run]⟩
  | call kind b k ihb ihk =>
    intro muted pending seen s hv hf hu hm hs
    cases kind with
    | plain =>
      obtain ⟨o1, u1, n1, m1, ⟨recs1, e1, f1⟩, g1⟩ :=
        ihb muted pending seen s hv.1 hf.1 hu hm (fun h => ⟨(hs h).1.1, (hs h).2⟩)
      simp only [Body.run]
      generalize hr : b.run env s = r at o1 u1 n1 m1 e1 g1
      obtain ⟨r1, r2⟩ := r
      dsimp only at o1 u1 n1 m1 e1 g1 ⊢
      subst o1
      obtain ⟨o2, u2, n2, m2, ⟨recs2, e2, f2⟩, g2⟩ :=
        ihk (outcomeOf env b) muted (pending || !(ownMessages env b).isEmpty) _ r2 hv.2 hf.2 u1 m1
          (fun h => ⟨(hs h).1.2, by rw [g1 h, isSome_or_last, (hs h).2]⟩)
      refine ⟨o2, u2, n2.trans n1, ?_, ⟨recs1 ++ recs2, by rw [e2, e1, List.append_assoc], ?_⟩, fun h => ?_⟩
      · simpa only [events, seenAfter_append] using m2
      · simp only [events, toRecord_append]; exact List.rel_append f1 f2
      · rw [g2 h, g1 h]; simp only [ownMessages, List.getLast?_append, Option.or_assoc]
    | logged d info =>
      obtain ⟨vb, vl, vi, vp, vk⟩ := hv
      have hu' : unlogStatus env { s with msg := none } = muted := hu
      obtain ⟨o1, u1, n1, m1, ⟨recs1, e1, f1⟩, g1⟩ :=
        ihb muted false seen { s with msg := none } vb hf.1 hu' hm (fun h => ⟨(hs h).1.2.1, rfl⟩)
      simp only [Body.run]
      generalize hr : b.run env { s with msg := none } = r at o1 u1 n1 m1 e1 g1
      obtain ⟨r1, r2⟩ := r
      dsimp only at o1 u1 n1 m1 e1 g1 ⊢
      subst o1
      have ho := loggedEnd_outcome r2 vl vi vp
      simp only [Option.or_none] at g1
      cases muted with
      | true =>
        have hsame := loggedEnd_muted env d info (outcomeOf env b) r2 u1
        generalize hq : loggedEnd env d info (outcomeOf env b) r2 = q at ho hsame
        obtain ⟨q1, q2⟩ := q
        dsimp only at ho hsame ⊢
        subst ho; subst hsame
        obtain ⟨o2, u2, n2, m2, ⟨recs2, e2, f2⟩, g2⟩ :=
          ihk _ true false _ q2 vk hf.2 u1 m1 (fun h => ⟨(hs h).1.2.2.2, by
            rw [g1 h]
            rcases (hs h).1.2.2.1 with hsr | hno
            · exact absurd hsr.1 (by simp)
            · rw [hno]; rfl⟩)
        refine ⟨o2, u2, n2.trans n1, ?_, ⟨recs1 ++ recs2, by rw [e2, e1, List.append_assoc], ?_⟩, fun h => ?_⟩
        · simpa only [events, if_true, List.append_nil, seenAfter_append] using m2
        · simp only [events, if_true, List.append_nil, toRecord_append]; exact List.rel_append f1 f2
        · have hpend := (hs h).2
          rw [(hs h).1.1] at hpend
          have hnone : s.msg = none := by simpa using hpend
          rcases (hs h).1.2.2.1 with hsr | hno
          · exact absurd hsr.1 (by simp)
          · rw [g2 h, g1 h, hno, hnone]; simp only [ownMessages, List.getLast?_nil]
      | false =>
        have he := endEffect (ownMessages env b).getLast? vl vi vp u1 m1
        generalize hq : loggedEnd env d info (outcomeOf env b) r2 = q at ho he
        obtain ⟨q1, q2⟩ := q
        dsimp only at ho he ⊢
        subst ho
        obtain ⟨eu, en, em, ⟨recsE, eE, fE⟩, emsg, esure⟩ := he
        have hnone : m → q2.msg = none := by
          intro h
          rcases (hs h).1.2.2.1 with hsr | hno
          · exact esure hsr
          · rcases emsg with h' | h'
            · exact h'
            · rw [h', g1 h, hno]; rfl
        have uq : unlogStatus env q2 = false := by
          rw [← u1]; unfold unlogStatus; rw [eu]
        obtain ⟨o2, u2, n2, m2, ⟨recs2, e2, f2⟩, g2⟩ :=
          ihk _ false false (seenAfter (seenAfter seen (events env false b))
              [.ended d info (outcomeOf env b) (ownMessages env b).getLast?]) q2 vk hf.2 uq
            (by simpa only [seenAfter] using em)
            (fun h => ⟨(hs h).1.2.2.2, by rw [hnone h]; rfl⟩)
        refine ⟨o2, u2, n2.trans (en.trans n1), ?_,
          ⟨recs1 ++ recsE ++ recs2, by rw [e2, eE, e1]; simp only [List.append_assoc], ?_⟩, fun h => ?_⟩
        · simpa only [events, Bool.false_eq_true, if_false, seenAfter_append] using m2
        · simp only [events, Bool.false_eq_true, if_false, toRecord_append, seenAfter_append]
          refine List.rel_append (List.rel_append f1 ?_) f2
          refine fE.imp fun ev r ha => ha.mono fun h => ⟨g1 h, ?_⟩
          intro f hf'
          exact ownMessages_wf env b f (List.mem_of_getLast? hf')
        · have hpend := (hs h).2
          rw [(hs h).1.1] at hpend
          have hn : s.msg = none := by simpa using hpend
          rw [g2 h, hnone h, hn]; simp only [ownMessages]
    | unlogged full =>
      obtain ⟨rfl, fb, fk⟩ := hf
      have hu' : unlogStatus env { s with unlog := some full } = fullOf env full := by
        cases full <;> rfl
      obtain ⟨o1, u1, n1, m1, ⟨recs1, e1, f1⟩, g1⟩ :=
        ihb (fullOf env full) pending seen { s with unlog := some full } hv.1 fb hu' hm
          (fun h => ⟨by have := (hs h).1.1; rwa [Bool.false_or] at this, (hs h).2⟩)
      simp only [Body.run]
      generalize hr : b.run env { s with unlog := some full } = r at o1 u1 n1 m1 e1 g1
      obtain ⟨r1, r2⟩ := r
      dsimp only at o1 u1 n1 m1 e1 g1 ⊢
      subst o1
      obtain ⟨o2, u2, n2, m2, ⟨recs2, e2, f2⟩, g2⟩ :=
        ihk (outcomeOf env b) false (pending || !(ownMessages env b).isEmpty) _ { r2 with unlog := none } hv.2 fk rfl
          m1 (fun h => ⟨(hs h).1.2, by dsimp only; rw [g1 h, isSome_or_last, (hs h).2]⟩)
      dsimp only at n2 e2 g2
      refine ⟨o2, u2, n2.trans n1, ?_, ⟨recs1 ++ recs2, by rw [e2, e1, List.append_assoc], ?_⟩, fun h => ?_⟩
      · simpa only [events, seenAfter_append, Bool.false_or] using m2
      · simp only [events, toRecord_append, Bool.false_or]; exact List.rel_append f1 f2
      · rw [g2 h, g1 h]; simp only [ownMessages, List.getLast?_append, Option.or_assoc]
  | block o b k ihb ihk =>
    intro muted pending seen s hv hf hu hm hs
    obtain ⟨vb, vp, vr, vk⟩ := hv
    obtain ⟨o1, u1, n1, m1, ⟨recs1, e1, f1⟩, g1⟩ :=
      ihb muted pending seen s vb hf.1 hu hm (fun h => ⟨(hs h).1.1, (hs h).2⟩)
    simp only [Body.run]
    generalize hr : b.run env s = r at o1 u1 n1 m1 e1 g1
    obtain ⟨r1, r2⟩ := r
    dsimp only at o1 u1 n1 m1 e1 g1 ⊢
    subst o1
    have ho := blockEnd_outcome r2 vp vr
    have hst : (blockEnd env o (outcomeOf env b) r2).2 =
        { r2 with records := r2.records ++ (baseCall simpleLogger { env.h with unlogged := muted } []
          (blockData env o (outcomeOf env b))).records.map fun data => ⟨.block (outcomeOf env b), data⟩ } := by
      unfold blockEnd
      dsimp only
      rw [if_pos (by cases h : outcomeOf env b <;> first | rfl | (rw [h] at vp; exact vp)), baseCall_raised, vr, u1]
      dsimp only
      cases outcomeOf env b with
      | ret v => rfl
      | raised e => dsimp only; split <;> rfl
    generalize hq : blockEnd env o (outcomeOf env b) r2 = q at ho hst
    obtain ⟨q1, q2⟩ := q
    dsimp only at ho hst ⊢
    subst ho
    have uq : unlogStatus env q2 = muted := by
      rw [← u1, hst]; rfl
    have hq2 : q2.msg = r2.msg := by rw [hst]
    have hq3 : q2.next = r2.next := by rw [hst]
    have hq4 : q2.marked = r2.marked := by rw [hst]
    obtain ⟨o2, u2, n2, m2, ⟨recs2, e2, f2⟩, g2⟩ :=
      ihk (blockOutcome env o (outcomeOf env b)) muted (pending || !(ownMessages env b).isEmpty) _ q2 vk hf.2 uq
        (by rw [hq4]; exact m1)
        (fun h => ⟨(hs h).1.2, by rw [hq2, g1 h, isSome_or_last, (hs h).2]⟩)
    have hmid : (if muted then [] else
        (baseCall simpleLogger { env.h with unlogged := false } [] (blockData env o (outcomeOf env b))).records.map
          fun data => Event.byHand ⟨.block (outcomeOf env b), data⟩) =
        ((baseCall simpleLogger { env.h with unlogged := muted } []
          (blockData env o (outcomeOf env b))).records.map fun data => (⟨.block (outcomeOf env b), data⟩ : Rec)).map
          Event.byHand := by
      cases muted with
      | true => rw [baseCall_muted]; rfl
      | false => simp [List.map_map, Function.comp_def]
    generalize (baseCall simpleLogger { env.h with unlogged := muted } []
      (blockData env o (outcomeOf env b))).records.map (fun data => (⟨.block (outcomeOf env b), data⟩ : Rec)) = L
      at hmid hst
    refine ⟨o2, u2, n2.trans (hq3.trans n1), ?_, ?_, fun h => ?_⟩
    · simpa only [events, hmid, seenAfter_append, seenAfter_byHand] using m2
    · refine ⟨recs1 ++ L ++ recs2, ?_, ?_⟩
      · rw [e2, hst]
        dsimp only
        rw [e1]
        simp only [List.append_assoc]
      · simp only [events, hmid, toRecord_append, seenAfter_append, seenAfter_byHand, toRecord_byHand]
        refine List.rel_append (List.rel_append f1 ?_) f2
        rw [List.forall₂_map_left_iff]
        exact List.forall₂_same.2 fun r _ => ⟨rfl, fun _ => rfl⟩
    · rw [g2 h, hq2, g1 h]; simp only [ownMessages, List.getLast?_append, Option.or_assoc]
  | msg args kwargs k ihk =>
    intro muted pending seen s hv hf hu hm hs
    rw [messageRaises_eq]
    obtain ⟨o2, u2, n2, m2, ⟨recs2, e2, f2⟩, g2⟩ :=
      ihk (messageRaises env args kwargs) muted (pending || (messageFields env args kwargs).isSome) seen
        { s with msg := (messageFields env args kwargs).or s.msg } hv hf hu hm
        (fun h => ⟨(hs h).1, by dsimp only; rw [← (hs h).2]; cases messageFields env args kwargs <;> simp⟩)
    refine ⟨o2, u2, n2, m2, ⟨recs2, e2, f2⟩, fun h => ?_⟩
    rw [g2 h]
    simp only [ownMessages, List.getLast?_append, Option.or_assoc]
    cases messageFields env args kwargs <;> rfl
  | manual args kwargs k ihk =>
    intro muted pending seen s hv hf hu hm hs
    simp only [Body.run]
    have hr : (handleLog { env.h with unlogged := unlogStatus env s } args kwargs).raised =
        (handleLog env.h args kwargs).raised := baseCall_raised _ _ _ _ _
    rw [hr, hu]
    have hmid : (if muted then [] else
        (handleLog { env.h with unlogged := false } args kwargs).records.map
          fun data => Event.byHand ⟨.manual, data⟩) =
        ((handleLog { env.h with unlogged := muted } args kwargs).records.map
          fun data => (⟨.manual, data⟩ : Rec)).map Event.byHand := by
      cases muted with
      | true =>
        have : (handleLog { env.h with unlogged := true } args kwargs).records = [] := baseCall_muted _ _ _ _
        rw [this]; rfl
      | false => simp [List.map_map, Function.comp_def]
    generalize (handleLog { env.h with unlogged := muted } args kwargs).records.map
      (fun data => (⟨.manual, data⟩ : Rec)) = L at hmid
    obtain ⟨o2, u2, n2, m2, ⟨recs2, e2, f2⟩, g2⟩ :=
      ihk (handleLog env.h args kwargs).raised muted pending seen
        { s with records := s.records ++ L } hv hf hu hm hs
    refine ⟨o2, u2, n2, ?_, ⟨L ++ recs2, ?_, ?_⟩, g2⟩
    · simpa only [events, hmid, seenAfter_append, seenAfter_byHand] using m2
    · rw [e2]; simp only [List.append_assoc]
    · simp only [events, hmid, toRecord_append, seenAfter_byHand, toRecord_byHand]
      refine List.rel_append ?_ f2
      rw [List.forall₂_map_left_iff]
      exact List.forall₂_same.2 fun r _ => ⟨rfl, fun _ => rfl⟩

end Polog
