import Verif.Handle.Lemmas2

/-! The loop over keyword arguments. -/

namespace Polog
open HandleSpec

/-- What the destination may hold when an argument is looked at: nothing under its name, or the
positional message. -/
def Fresh (args : List HVal) (dest : Dict Str HVal) (k : Str) : Prop :=
  Dict.get? (fullName k) dest = none ∨
    (k = "message".toList ∧ ∃ m, args.head? = some m ∧ Dict.get? (fullName k) dest = some m)

section steps
variable {lg : HLogger} {env : HEnv} {kwargs dest : Dict Str HVal} {args : List HVal} {k : Str} {v : HVal}

theorem step_wrong (h : ¬ RightArg lg env k v) :
    ∃ e, kwStep lg env kwargs dest (k, v) = maybeRaise env e dest := by
  unfold kwStep
  dsimp only
  rw [convertKey_eq]
  cases hc : argCheck lg env (fullName k) v with
  | none => exact absurd ((argCheck_none_iff _ _ _ _).1 hc) h
  | some e => exact ⟨e, rfl⟩

theorem step_level (h : RightArg lg env k v) (hk : fullName k = "level".toList)
    (hl : ¬ ∃ n, LevelIs env.levels v n) :
    kwStep lg env kwargs dest (k, v) = .error .keyError := by
  unfold kwStep
  dsimp only
  rw [convertKey_eq, (argCheck_none_iff _ _ _ _).2 h]
  dsimp only
  rw [convertValue_level_unknown h hk hl]

theorem step_fresh (h : RightArg lg env k v)
    (hl : fullName k = "level".toList → ∃ n, LevelIs env.levels v n)
    (hd : Dict.get? (fullName k) dest = none) :
    kwStep lg env kwargs dest (k, v) =
      .ok (notNoneToDict dest (fullName k) (stored env.levels (fullName k) v)) := by
  unfold kwStep
  dsimp only
  rw [convertKey_eq, (argCheck_none_iff _ _ _ _).2 h]
  dsimp only
  rw [convertValue_ok h hl]
  dsimp only
  rw [hd]

theorem step_message (hW : Dict.WF kwargs) (hm : (k, v) ∈ kwargs) (h : RightArg lg env k v)
    (hk : k = "message".toList) {m : HVal} (hd : Dict.get? (fullName k) dest = some m) :
    kwStep lg env kwargs dest (k, v) =
      if m = v then .ok (notNoneToDict dest (fullName k) (stored env.levels (fullName k) v))
      else maybeRaise env .valueError dest := by
  subst hk
  have hf : fullName "message".toList = "message".toList := by decide
  unfold kwStep
  dsimp only
  rw [convertKey_eq, (argCheck_none_iff _ _ _ _).2 h]
  dsimp only
  rw [convertValue_ok h (by rw [hf]; intro e; exact absurd e (by decide))]
  dsimp only
  rw [hd]
  dsimp only
  rw [hf] at hd ⊢
  rw [(Dict.mem_iff_get? hW _ _).1 hm]
  dsimp only
  obtain ⟨s, rfl⟩ := h.message
  by_cases e : m = .str s
  · rw [(HVal.pyEq_str m s).2 e]
    rw [if_pos e]; rfl
  · have : m.pyEq (.str s) = false := by
      cases hp : m.pyEq (.str s)
      · rfl
      · exact absurd ((HVal.pyEq_str m s).1 hp) e
    rw [this, if_neg e]; rfl

end steps

theorem NoAliases.wf {kwargs : Dict Str HVal} (h : NoAliases kwargs) : Dict.WF kwargs := by
  unfold NoAliases at h
  unfold Dict.WF Dict.keys
  have : (kwargs.map fun x => fullName x.1) = (kwargs.map Prod.fst).map fullName := by simp
  rw [this] at h
  exact List.Pairwise.of_map _ (fun a b hab e => hab (by rw [e])) h

theorem get_notNone (dest : Dict Str HVal) (key n : Str) (v : HVal) :
    Dict.get? n (notNoneToDict dest key v) =
      if key = n ∧ v ≠ .none then some v else Dict.get? n dest := by
  unfold notNoneToDict
  by_cases h : v = .none
  · simp [h]
  · rw [if_neg h, Dict.get?_set]
    by_cases h2 : key = n <;> simp [h, h2]

theorem WF_notNone {dest : Dict Str HVal} (h : Dict.WF dest) (key : Str) (v : HVal) :
    Dict.WF (notNoneToDict dest key v) := by
  unfold notNoneToDict; split
  · exact h
  · exact Dict.WF_set h

theorem Fresh.next {args : List HVal} {dest : Dict Str HVal} {k k' : Str} {v : HVal}
    (h : Fresh args dest k') (hne : fullName k ≠ fullName k') :
    Fresh args (notNoneToDict dest (fullName k) v) k' := by
  unfold Fresh at h ⊢
  rw [get_notNone, if_neg (fun e => hne e.1)]
  exact h

/-- A call without mistakes: the loop succeeds and stores exactly the given arguments. -/
theorem kwargs_valid {lg : HLogger} {env : HEnv} {kwargs : Dict Str HVal} {args : List HVal}
    (hW : Dict.WF kwargs) (hlev : LevelKnown env kwargs)
    (hmsg : ∀ m v, args.head? = some m → ("message".toList, v) ∈ kwargs → v = m) :
    ∀ (l : List (Str × HVal)) (dest : Dict Str HVal), Dict.WF dest →
    (∀ x ∈ l, x ∈ kwargs) → (l.map fun x => fullName x.1).Nodup →
    (∀ x ∈ l, RightArg lg env x.1 x.2) →
    (∀ x ∈ l, Fresh args dest x.1) →
    ∃ dest', kwargsToDict lg env kwargs l dest = .ok dest' ∧ Dict.WF dest' ∧
      ∀ n, Dict.get? n dest' =
        match l.find? fun x => fullName x.1 = n && x.2 ≠ .none with
        | some x => some (stored env.levels n x.2)
        | none => Dict.get? n dest := by
  intro l
  induction l with
  | nil => intro dest hd _ _ _ _; exact ⟨dest, rfl, hd, fun n => rfl⟩
  | cons x l ih =>
    obtain ⟨k, v⟩ := x
    intro dest hd hsub hnd hR hF
    have hr := hR _ (List.mem_cons_self ..)
    have hmem := hsub _ (List.mem_cons_self ..)
    simp only [List.map_cons, List.nodup_cons] at hnd
    have hl : fullName k = "level".toList → ∃ n, LevelIs env.levels v n := by
      intro e
      have hk := fullName_level e
      subst hk
      refine hlev v hmem ?_
      rcases hr.2 with ha | ⟨hn, _⟩
      · rw [e] at ha
        generalize hk2 : "level".toList = kk at ha
        cases ha <;> first | exact .inl ⟨_, rfl⟩ | exact .inr ⟨_, rfl⟩ | exact absurd hk2 (by decide)
      · exact absurd (by rw [e]; decide) hn
    have hstep : kwStep lg env kwargs dest (k, v) =
        .ok (notNoneToDict dest (fullName k) (stored env.levels (fullName k) v)) := by
      rcases hF _ (List.mem_cons_self ..) with h0 | ⟨hk, m, hm1, hm2⟩
      · exact step_fresh hr hl h0
      · have hmv : v = m := hmsg m v hm1 (by have := hmem; dsimp only at hk; rw [hk] at this; exact this)
        rw [step_message hW hmem hr hk hm2, if_pos hmv.symm]
    obtain ⟨dest', h1, h2, h3⟩ := ih (notNoneToDict dest (fullName k) (stored env.levels (fullName k) v))
      (WF_notNone hd _ _) (fun y hy => hsub y (List.mem_cons_of_mem _ hy)) hnd.2
      (fun y hy => hR y (List.mem_cons_of_mem _ hy))
      (fun y hy => (hF y (List.mem_cons_of_mem _ hy)).next
        (fun e => hnd.1 (List.mem_map.2 ⟨y, hy, e.symm⟩)))
    refine ⟨dest', ?_, h2, ?_⟩
    · rw [kwargsToDict, hstep]; exact h1
    · intro n
      rw [h3 n, List.find?_cons]
      by_cases hk : fullName k = n
      · have hnone : l.find? (fun x => fullName x.1 = n && x.2 ≠ .none) = none := by
          rw [List.find?_eq_none]
          intro y hy
          have : fullName y.1 ≠ n := fun e => hnd.1 (List.mem_map.2 ⟨y, hy, by rw [e, hk]⟩)
          simp [this]
        rw [hnone]
        dsimp only
        rw [get_notNone]
        subst hk
        by_cases hv : v = .none
        · subst hv
          rw [stored_none, if_neg (fun e => e.2 rfl)]
          simp only [ne_eq, not_true_eq_false, decide_false, Bool.and_false]
        · rw [if_pos ⟨rfl, stored_ne_none hv⟩]
          simp [hv]
      · have e1 : (decide (fullName k = n) && decide (v ≠ .none)) = false := by simp [hk]
        have e2 : Dict.get? n (notNoneToDict dest (fullName k) (stored env.levels (fullName k) v))
            = Dict.get? n dest := by rw [get_notNone, if_neg (fun e => hk e.1)]
        dsimp only
        rw [e1, e2]

/-- A mistake in a keyword argument. -/
def Mistake (lg : HLogger) (env : HEnv) (args : List HVal) (x : Str × HVal) : Prop :=
  ¬ RightArg lg env x.1 x.2 ∨
  (fullName x.1 = "level".toList ∧ ¬ ∃ n, LevelIs env.levels x.2 n) ∨
  (x.1 = "message".toList ∧ ∃ m, args.head? = some m ∧ x.2 ≠ m)

theorem step_ok_next {lg : HLogger} {env : HEnv} {kwargs dest dest' : Dict Str HVal}
    {args : List HVal} {k k' : Str} {v : HVal}
    (h : kwStep lg env kwargs dest (k, v) = .ok dest') (hne : fullName k ≠ fullName k')
    (hF : Fresh args dest k') : Fresh args dest' k' := by
  unfold kwStep at h
  dsimp only at h
  rw [convertKey_eq] at h
  have hm : ∀ e, maybeRaise env e dest = .ok dest' → dest' = dest := by
    intro e he
    unfold maybeRaise at he
    split at he
    · cases he; rfl
    · cases he
  split at h
  · rw [hm _ h]; exact hF
  · split at h
    · cases h
    · split at h
      · cases h; exact hF.next hne
      · split at h
        · cases h
        · split at h
          · rw [hm _ h]; exact hF
          · cases h; exact hF.next hne

/-- In strict mode a mistake stops the loop with an exception. -/
theorem kwargs_strict {lg : HLogger} {env : HEnv} {kwargs : Dict Str HVal} {args : List HVal}
    (hs : env.silent = false) (hW : Dict.WF kwargs) :
    ∀ (l : List (Str × HVal)) (dest : Dict Str HVal),
    (∀ x ∈ l, x ∈ kwargs) → (l.map fun x => fullName x.1).Nodup →
    (∀ x ∈ l, Fresh args dest x.1) →
    (∀ m, args.head? = some m → (∃ x ∈ l, x.1 = "message".toList) →
      Dict.get? "message".toList dest = some m) →
    (∃ x ∈ l, Mistake lg env args x) →
    ∃ e, kwargsToDict lg env kwargs l dest = .error e := by
  intro l
  induction l with
  | nil => rintro dest _ _ _ _ ⟨x, hx, _⟩; cases hx
  | cons x l ih =>
    obtain ⟨k, v⟩ := x
    intro dest hsub hnd hF hM hbad
    simp only [List.map_cons, List.nodup_cons] at hnd
    have hmem := hsub _ (List.mem_cons_self ..)
    by_cases hb : Mistake lg env args (k, v)
    · refine Exists.imp (fun e he => ?_) (?_ : ∃ e, kwStep lg env kwargs dest (k, v) = .error e)
      · rw [kwargsToDict, he]
      · by_cases hr : RightArg lg env k v
        · rcases hb with h | ⟨h1, h2⟩ | ⟨hk, m, hm, hne⟩
          · exact absurd hr h
          · exact ⟨_, step_level hr h1 h2⟩
          · have hk' : k = "message".toList := hk
            have hg := hM m hm ⟨_, List.mem_cons_self .., hk⟩
            have hf : fullName k = "message".toList := by rw [hk']; decide
            rw [← hf] at hg
            rw [step_message hW hmem hr hk' hg, if_neg (fun e => hne e.symm)]
            unfold maybeRaise
            rw [hs]
            exact ⟨_, rfl⟩
        · obtain ⟨e, he⟩ := step_wrong (kwargs := kwargs) (dest := dest) hr
          rw [he]; unfold maybeRaise; rw [hs]; exact ⟨_, rfl⟩
    · have hrest : ∃ x ∈ l, Mistake lg env args x := by
        obtain ⟨x, hx, hxm⟩ := hbad
        rcases List.mem_cons.1 hx with rfl | hx
        · exact absurd hxm hb
        · exact ⟨x, hx, hxm⟩
      cases hst : kwStep lg env kwargs dest (k, v) with
      | error e => exact ⟨e, by rw [kwargsToDict, hst]⟩
      | ok dest' =>
        have hne : ∀ y ∈ l, fullName k ≠ fullName y.1 := fun y hy e =>
          hnd.1 (List.mem_map.2 ⟨y, hy, e.symm⟩)
        have := ih dest' (fun y hy => hsub y (List.mem_cons_of_mem _ hy)) hnd.2
          (fun y hy => step_ok_next hst (hne y hy) (hF y (List.mem_cons_of_mem _ hy)))
          (by
            rintro m hm ⟨y, hy, hyk⟩
            have h0 := hM m hm ⟨y, List.mem_cons_of_mem _ hy, hyk⟩
            have hFy : Fresh args dest y.1 := hF y (List.mem_cons_of_mem _ hy)
            have hf : fullName y.1 = "message".toList := by rw [hyk]; decide
            have hFy' : Fresh [m] dest y.1 := .inr ⟨hyk, m, rfl, by rw [hf]; exact h0⟩
            -- the step did not touch another name
            have hn := hne y hy
            have : Dict.get? (fullName y.1) dest' = Dict.get? (fullName y.1) dest := by
              unfold kwStep at hst
              dsimp only at hst
              rw [convertKey_eq] at hst
              have hmr : ∀ e, maybeRaise env e dest = .ok dest' → dest' = dest := by
                intro e he
                unfold maybeRaise at he
                split at he
                · cases he; rfl
                · cases he
              split at hst
              · rw [hmr _ hst]
              · split at hst
                · cases hst
                · split at hst
                  · cases hst; rw [get_notNone, if_neg (fun e => hn e.1)]
                  · split at hst
                    · cases hst
                    · split at hst
                      · rw [hmr _ hst]
                      · cases hst; rw [get_notNone, if_neg (fun e => hn e.1)]
            rw [← hf, this, hf]; exact h0)
          hrest
        obtain ⟨e, he⟩ := this
        exact ⟨e, by rw [kwargsToDict, hst]; exact he⟩

/-- In loyal mode the loop does the same as the loop over the correct arguments only. -/
theorem kwargs_loyal {lg : HLogger} {env : HEnv} {kwargs : Dict Str HVal} {args : List HVal}
    (hs : env.silent = true) (hW : Dict.WF kwargs) (p : Str × HVal → Bool)
    (hp : ∀ x ∈ kwargs, p x = true ↔ RightArg lg env x.1 x.2 ∧
      (x.1 = "message".toList → ∀ m, args.head? = some m → x.2 = m)) :
    ∀ (l : List (Str × HVal)) (dest : Dict Str HVal),
    (∀ x ∈ l, x ∈ kwargs) → (l.map fun x => fullName x.1).Nodup →
    (∀ x ∈ l, Fresh args dest x.1) →
    (∀ m, args.head? = some m → (∃ x ∈ l, x.1 = "message".toList) →
      Dict.get? "message".toList dest = some m) →
    kwargsToDict lg env kwargs l dest = kwargsToDict lg env (kwargs.filter p) (l.filter p) dest := by
  intro l
  induction l with
  | nil => intro dest _ _ _ _; rfl
  | cons x l ih =>
    obtain ⟨k, v⟩ := x
    intro dest hsub hnd hF hM
    simp only [List.map_cons, List.nodup_cons] at hnd
    have hmem := hsub _ (List.mem_cons_self ..)
    have hne : ∀ y ∈ l, fullName k ≠ fullName y.1 := fun y hy e =>
      hnd.1 (List.mem_map.2 ⟨y, hy, e.symm⟩)
    have hWf : Dict.WF (kwargs.filter p) := by
      unfold Dict.WF Dict.keys at hW ⊢
      exact List.Nodup.sublist (List.Sublist.map _ List.filter_sublist) hW
    by_cases hpx : p (k, v) = true
    · obtain ⟨hr, hc⟩ := (hp _ hmem).1 hpx
      have hmemf : (k, v) ∈ kwargs.filter p := List.mem_filter.2 ⟨hmem, hpx⟩
      rw [List.filter_cons_of_pos hpx, kwargsToDict, kwargsToDict]
      by_cases hl : fullName k = "level".toList → ∃ n, LevelIs env.levels v n
      · have hstep : ∀ kw : Dict Str HVal, Dict.WF kw → (k, v) ∈ kw →
            kwStep lg env kw dest (k, v) =
            .ok (notNoneToDict dest (fullName k) (stored env.levels (fullName k) v)) := by
          intro kw hkw hin
          rcases hF _ (List.mem_cons_self ..) with h0 | ⟨hk, m, hm1, hm2⟩
          · exact step_fresh hr hl h0
          · rw [step_message hkw hin hr hk hm2, if_pos (hc hk m hm1).symm]
        rw [hstep _ hW hmem, hstep _ hWf hmemf]
        dsimp only
        refine ih _ (fun y hy => hsub y (List.mem_cons_of_mem _ hy)) hnd.2
          (fun y hy => (hF y (List.mem_cons_of_mem _ hy)).next (hne y hy)) ?_
        rintro m hm ⟨y, hy, hyk⟩
        have hf : fullName y.1 = "message".toList := by rw [hyk]; decide
        rw [get_notNone, if_neg (fun e => hne y hy (by rw [e.1, hf]))]
        exact hM m hm ⟨y, List.mem_cons_of_mem _ hy, hyk⟩
      · have hk : fullName k = "level".toList := by
          by_cases h : fullName k = "level".toList
          · exact h
          · exact absurd (fun e => absurd e h) hl
        have hl' : ¬ ∃ n, LevelIs env.levels v n := fun h => hl (fun _ => h)
        rw [step_level hr hk hl', step_level hr hk hl']
    · have hpx' : p (k, v) = false := by simpa using hpx
      rw [List.filter_cons_of_neg (by simp [hpx']), kwargsToDict]
      have hskip : kwStep lg env kwargs dest (k, v) = .ok dest := by
        by_cases hr : RightArg lg env k v
        · have hk : k = "message".toList := by
            by_cases h : k = "message".toList
            · exact h
            · exact absurd ((hp _ hmem).2 ⟨hr, fun e => absurd e h⟩) hpx
          have hex : ∃ m, args.head? = some m ∧ v ≠ m := by
            cases ha : args.head? with
            | none => exact absurd ((hp _ hmem).2 ⟨hr, fun _ m hm => by rw [ha] at hm; cases hm⟩) hpx
            | some m =>
              refine ⟨m, rfl, fun e => hpx ((hp _ hmem).2 ⟨hr, fun _ m' hm' => ?_⟩)⟩
              rw [ha] at hm'; cases hm'; exact e
          obtain ⟨m, hm, hvm⟩ := hex
          have hf : fullName k = "message".toList := by rw [hk]; decide
          have hg := hM m hm ⟨_, List.mem_cons_self .., hk⟩
          rw [← hf] at hg
          rw [step_message hW hmem hr hk hg, if_neg (fun e => hvm e.symm)]
          unfold maybeRaise; rw [hs]; rfl
        · obtain ⟨e, he⟩ := step_wrong (kwargs := kwargs) (dest := dest) hr
          rw [he]; unfold maybeRaise; rw [hs]; rfl
      rw [hskip]
      dsimp only
      exact ih dest (fun y hy => hsub y (List.mem_cons_of_mem _ hy)) hnd.2
        (fun y hy => hF y (List.mem_cons_of_mem _ hy))
        (fun m hm ⟨y, hy, hyk⟩ => hM m hm ⟨y, List.mem_cons_of_mem _ hy, hyk⟩)

end Polog
