import Verif.Trace.Spec

/-!
Lemmas for C72.
-/

namespace Polog
open TraceSpec

/-! ### Lemmas -/

theorem ofProgram_cons_user (n : Nat) (tb : List TbFrame) : ofProgram (.user n :: tb) = .user n :: ofProgram tb := rfl

theorem ofProgram_cons_wrapper (n : Nat) (tb : List TbFrame) : ofProgram (.wrapper n :: tb) = ofProgram tb := rfl

/-- The traceback without the frames of decorators, and exactly so when they are cut off. -/
def CutTo (env : TbEnv) (tb nat : List TbFrame) : Prop :=
  ofProgram tb = nat ∧ (env.cutting = true → tb = nat)

/-- The end of a run against the end without decorators. -/
def EndsLike (env : TbEnv) (r nat : Option (Nat × List TbFrame)) : Prop :=
  (r = none ∧ nat = none) ∨ ∃ e tb tn, r = some (e, tb) ∧ nat = some (e, tn) ∧ CutTo env tb tn

theorem CutTo.cons {env : TbEnv} {tb tn : List TbFrame} (h : CutTo env tb tn) (n : Nat) :
    CutTo env (.user n :: tb) (.user n :: tn) :=
  ⟨by rw [ofProgram_cons_user, h.1], fun hc => by rw [h.2 hc]⟩

theorem CutTo.self {env : TbEnv} (n : Nat) : CutTo env [.user n] [.user n] := ⟨rfl, fun _ => rfl⟩

theorem cut_wrapper {env : TbEnv} {tb tn : List TbFrame} (h : CutTo env tb tn) (n : Nat) :
    CutTo env (cutTraceback env (.wrapper n :: tb)) tn := by
  unfold cutTraceback
  by_cases hc : env.cutting = true
  · rw [if_pos hc]; exact h
  · rw [if_neg hc]; exact ⟨by rw [ofProgram_cons_wrapper, h.1], fun h2 => absurd h2 hc⟩

theorem natural_head {c : TbCode} : ∀ {fr : TbFrame} {e : Nat} {tb : List TbFrame}, natural fr c = some (e, tb) →
    ∃ t, tb = fr :: t := by
  induction c with
  | done => intro fr e tb h; cases h
  | raise e' => intro fr e tb h; simp only [natural, Option.some.injEq, Prod.mk.injEq] at h; exact ⟨[], h.2.symm⟩
  | call d n body rest ihb ihr =>
    intro fr e tb h
    simp only [natural] at h
    split at h
    · exact ihr h
    · split at h
      · exact ihr h
      · simp only [Option.some.injEq, Prod.mk.injEq] at h; exact ⟨_, h.2.symm⟩
  | native d n r rest ihr =>
    intro fr e tb h
    cases r with
    | none => exact ihr h
    | some x =>
      simp only [natural] at h
      split at h
      · exact ihr h
      · simp only [Option.some.injEq, Prod.mk.injEq] at h; exact ⟨_, h.2.symm⟩
  | handler body l o ends rest ihb ihr =>
    intro fr e tb h
    simp only [natural] at h
    split at h
    · exact ihr h
    · rename_i e' tb' hb
      cases ends with
      | swallow => exact ihr h
      | reraise => simp only [Option.some.injEq, Prod.mk.injEq] at h; exact h.2 ▸ ihb hb
      | raiseSame => simp only [Option.some.injEq, Prod.mk.injEq] at h; exact ⟨_, h.2.symm⟩
      | raiseOther e2 => simp only [Option.some.injEq, Prod.mk.injEq] at h; exact ⟨_, h.2.symm⟩

/-- A run's traceback begins with the frame. -/
theorem runTb_head {env : TbEnv} {c : TbCode} : ∀ {fr : TbFrame} {s : TbState} {e : Nat} {tb : List TbFrame},
    (runTb env fr c s).1 = some (e, tb) → ∃ t, tb = fr :: t := by
  induction c with
  | done => intro fr s e tb h; cases h
  | raise e' => intro fr s e tb h; simp only [runTb, Option.some.injEq, Prod.mk.injEq] at h; exact ⟨[], h.2.symm⟩
  | call d n body rest ihb ihr =>
    intro fr s e tb h
    simp only [runTb] at h
    split at h
    · exact ihr h
    · simp only [Option.some.injEq, Prod.mk.injEq] at h; exact ⟨_, h.2.symm⟩
  | native d n r rest ihr =>
    intro fr s e tb h
    simp only [runTb] at h
    split at h
    · exact ihr h
    · simp only [Option.some.injEq, Prod.mk.injEq] at h; exact ⟨_, h.2.symm⟩
  | handler body l o ends rest ihb ihr =>
    intro fr s e tb h
    simp only [runTb] at h
    split at h
    · exact ihr h
    · rename_i e' tb' s' hb
      cases ends with
      | swallow => exact ihr h
      | reraise =>
        simp only [Option.some.injEq, Prod.mk.injEq] at h
        exact h.2 ▸ ihb (s := s) (by rw [hb])
      | raiseSame => simp only [Option.some.injEq, Prod.mk.injEq] at h; exact ⟨_, h.2.symm⟩
      | raiseOther e2 => simp only [Option.some.injEq, Prod.mk.injEq] at h; exact ⟨_, h.2.symm⟩

/-- What a record says. -/
def RecordRight (env : TbEnv) (fr : TbFrame) (c : TbCode) (r : TbRecord) : Prop :=
  (∃ n body tn tb, r.auto = some n ∧ DecoratedCall n body c ∧ natural (.user n) body = some (r.exc, tn) ∧
      CutTo env tb tn ∧ r.traceback = getTraceback env tb 0 ∧ r.locals = some ((env.vars (.user n)).getD [])) ∨
  (∃ n, r.auto = some n ∧ DecoratedNative n r.exc c ∧ r.traceback = getTraceback env [] 0 ∧
      r.locals = some ((env.vars (.wrapper n)).getD [])) ∨
  (∃ g body other e tn tb, r.auto = none ∧ LogsByHand g body other fr c ∧ natural g body = some (e, tn) ∧
      r.exc = other.getD e ∧ CutTo env tb tn ∧ r.traceback = getTraceback env tb 0 ∧
      r.locals = if getLocals env tb = [] then none else some (getLocals env tb))

theorem getTraceback_drop (env : TbEnv) (f : TbFrame) (tb : List TbFrame) :
    getTraceback env (f :: tb) 1 = getTraceback env tb 0 := rfl

theorem throughAny_ends {env : TbEnv} {deco : Option TbDeco} {n : Nat} {r : TbEnd} {s : TbState} :
    (throughAny env deco n r s).1 =
      match r with
      | none => none
      | some (e, tb) => if deco.any (fun d => d.suppresses e) then none else
          some (e, if deco.isSome then cutTraceback env (.wrapper n :: tb) else tb) := by
  cases deco with
  | none => cases r with
    | none => rfl
    | some x => rfl
  | some d =>
    cases r with
    | none => rfl
    | some x =>
      simp only [throughAny, throughDecorator, Option.any_some, Option.isSome_some, if_true]
      by_cases h : d.suppresses x.1 = true
      · rw [if_pos h, if_pos h]
      · rw [if_neg h, if_neg h]

theorem throughAny_records {env : TbEnv} {deco : Option TbDeco} {n : Nat} {r : TbEnd} {s : TbState} {x : TbRecord}
    (hx : x ∈ (throughAny env deco n r s).2.records) : x ∈ s.records ∨
      ∃ d e tb, deco = some d ∧ r = some (e, tb) ∧
        x = ⟨some n, e, getTraceback env tb 0, some (getLocals env (.wrapper n :: tb))⟩ := by
  cases deco with
  | none => exact .inl hx
  | some d =>
    cases r with
    | none => exact .inl hx
    | some y =>
      obtain ⟨e, tb⟩ := y
      have key : (throughDecorator env d n (some (e, tb)) s).2 = logTbException env d n e (.wrapper n :: tb) s := by
        unfold throughDecorator; dsimp only; split <;> rfl
      simp only [throughAny, key, logTbException] at hx
      split at hx
      · split at hx
        · rcases List.mem_append.1 hx with h | h
          · exact .inl h
          · exact .inr ⟨d, e, tb, rfl, rfl, List.mem_singleton.1 h⟩
        · exact .inl hx
      · exact .inl hx

theorem RecordRight.map {env : TbEnv} {fr fr' : TbFrame} {c c' : TbCode} {r : TbRecord} (h : RecordRight env fr c r)
    (h1 : ∀ n b, DecoratedCall n b c → DecoratedCall n b c') (h2 : ∀ n e, DecoratedNative n e c → DecoratedNative n e c')
    (h3 : ∀ g b o, LogsByHand g b o fr c → LogsByHand g b o fr' c') : RecordRight env fr' c' r := by
  rcases h with ⟨n, b, tn, tb, a1, a2, a3⟩ | ⟨n, a1, a2, a3⟩ | ⟨g, b, o, e, tn, tb, a1, a2, a3⟩
  · exact .inl ⟨n, b, tn, tb, a1, h1 _ _ a2, a3⟩
  · exact .inr (.inl ⟨n, a1, h2 _ _ a2, a3⟩)
  · exact .inr (.inr ⟨g, b, o, e, tn, tb, a1, h3 _ _ _ a2, a3⟩)

theorem runTb_right (env : TbEnv) (c : TbCode) : ∀ (k : Nat) (s : TbState),
    EndsLike env (runTb env (.user k) c s).1 (natural (.user k) c) ∧
    ∀ r ∈ (runTb env (.user k) c s).2.records, r ∈ s.records ∨ RecordRight env (.user k) c r := by
  induction c with
  | done => exact fun k s => ⟨.inl ⟨rfl, rfl⟩, fun r h => .inl h⟩
  | raise e => exact fun k s => ⟨.inr ⟨e, _, _, rfl, rfl, CutTo.self k⟩, fun r h => .inl h⟩
  | call deco n body rest ihb ihr =>
    intro k s
    obtain ⟨hb1, hb2⟩ := ihb n s
    simp only [runTb, natural]
    generalize hrb : runTb env (.user n) body s = q at hb1 hb2
    obtain ⟨r1, s1⟩ := q
    dsimp only at hb1 hb2 ⊢
    have hends := throughAny_ends (env := env) (deco := deco) (n := n) (r := r1) (s := s1)
    have hrec : ∀ r ∈ (throughAny env deco n r1 s1).2.records, r ∈ s.records ∨
        RecordRight env (.user k) (.call deco n body rest) r := by
      intro r hr
      rcases throughAny_records hr with h | ⟨d, e, tb, hd, hr1, rfl⟩
      · rcases hb2 r h with h | h
        · exact .inl h
        · exact .inr (h.map (fun _ _ => .inBody) (fun _ _ => .inBody) (fun _ _ _ => .inBody))
      · subst hd
        rcases hb1 with ⟨h, _⟩ | ⟨e', tb', tn, h, hn, hc⟩
        · rw [hr1] at h; cases h
        · rw [hr1] at h
          simp only [Option.some.injEq, Prod.mk.injEq] at h
          obtain ⟨rfl, rfl⟩ := h
          obtain ⟨t, ht⟩ := natural_head hn
          refine .inr (.inl ⟨n, body, tn, tb, rfl, .here _ _, hn, hc, rfl, ?_⟩)
          have hh := runTb_head (env := env) (c := body) (fr := .user n) (s := s) (e := e) (tb := tb) (by rw [hrb, hr1])
          obtain ⟨t', rfl⟩ := hh
          rfl
    have hgo : ∀ s2 : TbState, (∀ r ∈ s2.records, r ∈ s.records ∨ RecordRight env (.user k) (.call deco n body rest) r) →
        ∀ r ∈ (runTb env (.user k) rest s2).2.records, r ∈ s.records ∨
          RecordRight env (.user k) (.call deco n body rest) r := by
      intro s2 h2 r hr
      rcases (ihr k s2).2 r hr with h | h
      · exact h2 r h
      · exact .inr (h.map (fun _ _ => .after) (fun _ _ => .after) (fun _ _ _ => .after))
    generalize throughAny env deco n r1 s1 = q at hends hrec
    obtain ⟨r2, s2⟩ := q
    dsimp only at hends hrec
    rcases hb1 with ⟨rfl, hn⟩ | ⟨e, tb, tn, rfl, hn, hc⟩
    · dsimp only at hends
      subst hends
      rw [hn]
      exact ⟨(ihr k s2).1, hgo s2 hrec⟩
    · dsimp only at hends
      rw [hn]
      dsimp only
      by_cases hsup : deco.any (fun d => d.suppresses e) = true
      · rw [if_pos hsup] at hends
        subst hends
        rw [if_pos hsup]
        exact ⟨(ihr k s2).1, hgo s2 hrec⟩
      · rw [if_neg hsup] at hends
        subst hends
        rw [if_neg hsup]
        refine ⟨.inr ⟨e, _, _, rfl, rfl, CutTo.cons ?_ k⟩, hrec⟩
        by_cases hd : deco.isSome = true
        · rw [if_pos hd]; exact cut_wrapper hc n
        · rw [if_neg hd]; exact hc
  | native deco n raises rest ihr =>
    intro k s
    simp only [runTb]
    have hends := throughAny_ends (env := env) (deco := deco) (n := n) (r := raises.map fun e => (e, [])) (s := s)
    have hrec : ∀ r ∈ (throughAny env deco n (raises.map fun e => (e, [])) s).2.records, r ∈ s.records ∨
        RecordRight env (.user k) (.native deco n raises rest) r := by
      intro r hr
      rcases throughAny_records hr with h | ⟨d, e, tb, hd, hr1, rfl⟩
      · exact .inl h
      · subst hd
        cases raises with
        | none => cases hr1
        | some x =>
          simp only [Option.map_some, Option.some.injEq, Prod.mk.injEq] at hr1
          obtain ⟨rfl, rfl⟩ := hr1
          exact .inr (.inr (.inl ⟨n, rfl, .here _ _, rfl, rfl⟩))
    have hgo : ∀ s2 : TbState, (∀ r ∈ s2.records, r ∈ s.records ∨ RecordRight env (.user k) (.native deco n raises rest) r) →
        ∀ r ∈ (runTb env (.user k) rest s2).2.records, r ∈ s.records ∨
          RecordRight env (.user k) (.native deco n raises rest) r := by
      intro s2 h2 r hr
      rcases (ihr k s2).2 r hr with h | h
      · exact h2 r h
      · exact .inr (h.map (fun _ _ => .afterNative) (fun _ _ => .afterNative) (fun _ _ _ => .afterNative))
    generalize throughAny env deco n (raises.map fun e => (e, [])) s = q at hends hrec
    obtain ⟨r2, s2⟩ := q
    dsimp only at hends hrec
    cases raises with
    | none =>
      simp only [Option.map_none] at hends
      subst hends
      exact ⟨(ihr k s2).1, hgo s2 hrec⟩
    | some e =>
      simp only [Option.map_some] at hends
      simp only [natural]
      by_cases hsup : deco.any (fun d => d.suppresses e) = true
      · rw [if_pos hsup] at hends
        subst hends
        rw [if_pos hsup]
        exact ⟨(ihr k s2).1, hgo s2 hrec⟩
      · rw [if_neg hsup] at hends
        subst hends
        rw [if_neg hsup]
        refine ⟨.inr ⟨e, _, _, rfl, rfl, CutTo.cons (tn := []) ?_ k⟩, hrec⟩
        by_cases hd : deco.isSome = true
        · rw [if_pos hd]; exact cut_wrapper ⟨rfl, fun _ => rfl⟩ n
        · rw [if_neg hd]; exact ⟨rfl, fun _ => rfl⟩
  | handler body logs other ends rest ihb ihr =>
    intro k s
    obtain ⟨hb1, hb2⟩ := ihb k s
    simp only [runTb, natural]
    generalize hrb : runTb env (.user k) body s = q at hb1 hb2
    obtain ⟨r1, s1⟩ := q
    dsimp only at hb1 hb2 ⊢
    have hb2' : ∀ r ∈ s1.records, r ∈ s.records ∨ RecordRight env (.user k) (.handler body logs other ends rest) r := by
      intro r hr
      rcases hb2 r hr with h | h
      · exact .inl h
      · exact .inr (h.map (fun _ _ => .inTry) (fun _ _ => .inTry) (fun _ _ _ => .inTry))
    have hgo : ∀ s2 : TbState, (∀ r ∈ s2.records, r ∈ s.records ∨
          RecordRight env (.user k) (.handler body logs other ends rest) r) →
        ∀ r ∈ (runTb env (.user k) rest s2).2.records, r ∈ s.records ∨
          RecordRight env (.user k) (.handler body logs other ends rest) r := by
      intro s2 h2 r hr
      rcases (ihr k s2).2 r hr with h | h
      · exact h2 r h
      · exact .inr (h.map (fun _ _ => .afterTry) (fun _ _ => .afterTry) (fun _ _ _ => .afterTry))
    rcases hb1 with ⟨rfl, hn⟩ | ⟨e, tb, tn, rfl, hn, hc⟩
    · rw [hn]
      exact ⟨(ihr k s1).1, hgo s1 hb2'⟩
    · rw [hn]
      dsimp only
      have hlog : ∀ r ∈ (if logs = true then logByHand env (other.getD e) tb s1 else s1).records, r ∈ s.records ∨
          RecordRight env (.user k) (.handler body logs other ends rest) r := by
        intro r hr
        by_cases hl : logs = true
        · rw [if_pos hl] at hr
          subst hl
          rcases List.mem_append.1 hr with h | h
          · exact hb2' r h
          · rw [List.mem_singleton] at h
            subst h
            exact .inr (.inr (.inr ⟨_, body, other, e, tn, tb, rfl, .here _ _, hn, rfl, hc, rfl, rfl⟩))
        · rw [if_neg hl] at hr
          exact hb2' r hr
      cases ends with
      | swallow => exact ⟨(ihr k _).1, hgo _ hlog⟩
      | reraise => exact ⟨.inr ⟨e, tb, tn, rfl, rfl, hc⟩, hlog⟩
      | raiseSame => exact ⟨.inr ⟨e, _, _, rfl, rfl, hc.cons k⟩, hlog⟩
      | raiseOther e2 => exact ⟨.inr ⟨e2, _, _, rfl, rfl, CutTo.self k⟩, hlog⟩

end Polog
