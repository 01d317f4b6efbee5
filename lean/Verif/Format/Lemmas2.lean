import Verif.Format.Lemmas

/-! The line of the formatter against its specification. -/

namespace Polog
open FormatSpec

theorem center_padded (w : Nat) (s : Str) : Padded w s (center w s) := by
  refine ⟨(w - s.length) / 2, (w - s.length) - (w - s.length) / 2, rfl, ?_, by omega, by omega⟩
  simp only [center, List.length_append, List.length_replicate]
  omega

theorem padded_center {w : Nat} {s t : Str} (h : Padded w s t) : t = center w s := by
  obtain ⟨l, r, rfl, hl, h1, h2⟩ := h
  simp only [List.length_append, List.length_replicate] at hl
  unfold center
  have e1 : l = (w - s.length) / 2 := by omega
  have e2 : r = (w - s.length) - (w - s.length) / 2 := by omega
  dsimp only
  rw [← e2, ← e1]

theorem padded_iff (w : Nat) (s t : Str) : Padded w s t ↔ t = center w s :=
  ⟨padded_center, fun h => h ▸ center_padded w s⟩

def levelWidth (levels : Levels) : Nat := max ((levels.allNames.map List.length).max?.getD 2) "UNKNOWN".length

theorem levelWidth_is (levels : Levels) : LevelWidth levels (levelWidth levels) := by
  unfold levelWidth
  have h7 : "UNKNOWN".length = 7 := rfl
  rw [h7]
  refine ⟨Nat.le_max_right _ _, ?_, ?_⟩
  · intro name hn
    cases hm : (levels.allNames.map List.length).max? with
    | none =>
      rw [List.max?_eq_none_iff] at hm
      rw [List.map_eq_nil_iff] at hm
      rw [hm] at hn
      cases hn
    | some a =>
      have := (List.max?_eq_some_iff.1 hm).2 name.length (List.mem_map_of_mem hn)
      simp only [Option.getD_some]
      omega
  · cases hm : (levels.allNames.map List.length).max? with
    | none => left; rfl
    | some a =>
      simp only [Option.getD_some]
      by_cases h : a ≤ 7
      · left; omega
      · right
        have := (List.max?_eq_some_iff.1 hm).1
        obtain ⟨name, hn, he⟩ := List.mem_map.1 this
        exact ⟨name, hn, by omega⟩

theorem levelWidth_unique {levels : Levels} {a b : Nat} (ha : LevelWidth levels a) (hb : LevelWidth levels b) :
    a = b := by
  obtain ⟨a1, a2, a3⟩ := ha
  obtain ⟨b1, b2, b3⟩ := hb
  rcases a3 with h | ⟨n, hn, h⟩ <;> rcases b3 with h' | ⟨n', hn', h'⟩
  · omega
  · have := a2 n' hn'; omega
  · have := b2 n hn; omega
  · have := a2 n' hn'; have := b2 n hn; omega

theorem get?_three {V : Type} (k a b c : Str) (x y z : V) : Dict.get? k [(a, x), (b, y), (c, z)] =
    if a = k then some x else if b = k then some y else if c = k then some z else none := rfl

theorem written_iff (first : Levels) (name s t : Str) :
    Written first name s t ↔ t = (padCell (alignNorms first) (name, s)).2 := by
  have hnorms : alignNorms first = [("level".toList, levelWidth first), ("success".toList, 7), ("auto".toList, 6)] := rfl
  unfold Written padCell
  rw [hnorms]
  dsimp only
  rw [get?_three]
  by_cases h1 : name = "level".toList
  · subst h1
    rw [if_pos rfl, if_pos rfl]
    dsimp only
    constructor
    · rintro ⟨w, hw, hp⟩
      rw [levelWidth_unique (levelWidth_is first) hw]
      exact padded_center hp
    · intro h
      exact ⟨_, levelWidth_is first, (padded_iff _ _ _).2 h⟩
  · rw [if_neg h1, if_neg (Ne.symm h1)]
    by_cases h2 : name = "success".toList
    · subst h2
      rw [if_pos rfl, if_pos rfl]
      exact padded_iff _ _ _
    · rw [if_neg h2, if_neg (Ne.symm h2)]
      by_cases h3 : name = "auto".toList
      · subst h3
        rw [if_pos rfl, if_pos rfl]
        exact padded_iff _ _ _
      · rw [if_neg h3, if_neg (Ne.symm h3)]

theorem fieldHandlers_names : fieldHandlers.map Prod.fst = standardOrder := rfl

theorem fieldHandlers_nodup : (fieldHandlers.map Prod.fst).Nodup := by
  rw [fieldHandlers_names]; decide +kernel

theorem nodup_unique {A B : Type} : ∀ {l : List (A × B)}, (l.map Prod.fst).Nodup → ∀ {a : A} {b b' : B},
    (a, b) ∈ l → (a, b') ∈ l → b = b' := by
  intro l
  induction l with
  | nil => intro _ a b b' h; cases h
  | cons x l ih =>
    intro hn a b b' h h'
    rw [List.map_cons, List.nodup_cons] at hn
    rcases List.mem_cons.1 h with e | h <;> rcases List.mem_cons.1 h' with e' | h'
    · rw [← e] at e'; exact (Prod.mk.inj e').2.symm
    · exact absurd (List.mem_map_of_mem (f := Prod.fst) h') (by rw [← e] at hn; exact hn.1)
    · exact absurd (List.mem_map_of_mem (f := Prod.fst) h) (by rw [← e'] at hn; exact hn.1)
    · exact ih hn.2 h h'

theorem cell_of {env : FmtEnv} {log : FLog} {h : Str × FExtractor} (hm : h ∈ fieldHandlers) :
    Cell env log h.1 (baseText env log h) := by
  obtain ⟨name, ex⟩ := h
  unfold baseText
  dsimp only
  cases hr : ex env log with
  | ok t => exact .own t ⟨ex, hm, hr⟩
  | error e =>
    dsimp only
    rcases Option.eq_none_or_eq_some (Dict.get? name log) with hg | ⟨v, hg⟩
    · rw [hg]
      exact .dropped e ⟨ex, hm, hr⟩ fun v hv => by rw [hg] at hv; cases hv
    · rw [hg]
      dsimp only
      cases ht : v.text with
      | none => exact .dropped e ⟨ex, hm, hr⟩ fun v' hv => by rw [hg] at hv; cases hv; exact ht
      | some t => exact .value e v t ⟨ex, hm, hr⟩ hg ht

theorem extracts_unique {env : FmtEnv} {log : FLog} {name : Str} {r r' : Except PyErr (Option Str)}
    (h : Extracts env log name r) (h' : Extracts env log name r') : r = r' := by
  obtain ⟨a, ha, rfl⟩ := h
  obtain ⟨b, hb, rfl⟩ := h'
  rw [nodup_unique fieldHandlers_nodup ha hb]

theorem cell_unique {env : FmtEnv} {log : FLog} {name : Str} {o o' : Option Str} (h : Cell env log name o)
    (h' : Cell env log name o') : o = o' := by
  cases h with
  | own t he =>
    cases h' with
    | own t' he' => exact Except.ok.inj (extracts_unique he he')
    | value e v t' he' hg ht => exact nomatch extracts_unique he he'
    | dropped e he' hd => exact nomatch extracts_unique he he'
  | value e v t he hg ht =>
    cases h' with
    | own t' he' => exact nomatch extracts_unique he he'
    | value e' v' t' he' hg' ht' => rw [hg] at hg'; cases hg'; rw [← ht, ← ht']
    | dropped e' he' hd => have := hd v hg; rw [this] at ht; cases ht
  | dropped e he hd =>
    cases h' with
    | own t' he' => exact nomatch extracts_unique he he'
    | value e' v' t' he' hg' ht' => have := hd v' hg'; rw [this] at ht'; cases ht'
    | dropped e' he' hd' => rfl

theorem cell_iff {env : FmtEnv} {log : FLog} {h : Str × FExtractor} (hm : h ∈ fieldHandlers) (o : Option Str) :
    Cell env log h.1 o ↔ o = baseText env log h :=
  ⟨fun hc => cell_unique hc (cell_of hm), fun e => e ▸ cell_of hm⟩

theorem cells_iff (env : FmtEnv) (first : Levels) (log : FLog) : ∀ (hs : List (Str × FExtractor)) (ts : List Str),
    (∀ h ∈ hs, h ∈ fieldHandlers) →
    (Cells env first log (hs.map Prod.fst) ts ↔
      ts = ((baseCells env log hs).map (padCell (alignNorms first))).map Prod.snd) := by
  intro hs
  induction hs with
  | nil =>
    intro ts _
    constructor
    · intro h; cases h; rfl
    · intro h; subst h; exact .nil
  | cons h hs ih =>
    intro ts hm
    have hh := hm h List.mem_cons_self
    have hr : ∀ x ∈ hs, x ∈ fieldHandlers := fun x hx => hm x (List.mem_cons_of_mem _ hx)
    rw [List.map_cons, baseCells, List.filterMap_cons]
    cases hb : baseText env log h with
    | none =>
      dsimp only [Option.map_none]
      constructor
      · intro hc
        cases hc with
        | shown name s t names ts hcell hwr hrest =>
          have := (cell_iff hh _).1 hcell
          rw [hb] at this; cases this
        | absent name names ts hcell hrest => exact (ih ts hr).1 hrest
      · intro e
        exact .absent _ _ _ ((cell_iff hh _).2 hb.symm) ((ih ts hr).2 e)
    | some t =>
      dsimp only [Option.map_some]
      constructor
      · intro hc
        cases hc with
        | shown name s t' names ts hcell hwr hrest =>
          have := (cell_iff hh _).1 hcell
          rw [hb] at this; cases this
          rw [(written_iff _ _ _ _).1 hwr, (ih ts hr).1 hrest]
          rfl
        | absent name names ts hcell hrest =>
          have := (cell_iff hh _).1 hcell
          rw [hb] at this; cases this
      · intro e
        subst e
        rw [List.map_cons, List.map_cons]
        exact .shown _ t _ _ _ ((cell_iff hh _).2 hb.symm) ((written_iff _ _ _ _).2 rfl) ((ih _ hr).2 rfl)

theorem has_baseCells (env : FmtEnv) (log : FLog) (name : Str) :
    Dict.has name (baseCells env log fieldHandlers) = true ↔ ∃ s, Cell env log name (some s) := by
  unfold Dict.has
  rw [Dict.get?_isSome_iff]
  unfold Dict.keys baseCells
  simp only [List.mem_map, List.mem_filterMap]
  constructor
  · rintro ⟨x, ⟨h, hm, ht⟩, rfl⟩
    cases hb : baseText env log h with
    | none => rw [hb] at ht; cases ht
    | some t =>
      rw [hb] at ht
      cases ht
      exact ⟨t, (cell_iff hm _).2 hb.symm⟩
  · rintro ⟨s, hc⟩
    have hex : ∃ ex, (name, ex) ∈ fieldHandlers := by
      cases hc with
      | own t he => exact ⟨_, he.choose_spec.1⟩
      | value e v t he hg ht => exact ⟨_, he.choose_spec.1⟩
    obtain ⟨ex, hm⟩ := hex
    have := (cell_iff hm _).1 hc
    exact ⟨(name, s), ⟨(name, ex), hm, by rw [← this]; rfl⟩, rfl⟩

theorem mem_hidden (name : Str) : name ∈ hiddenFields ↔ name ∈ neverAlone := by
  unfold hiddenFields neverAlone
  simp only [List.map_cons, List.map_nil, List.mem_cons, List.not_mem_nil, or_false]
  constructor
  · rintro (h | h | h | h | h) <;> simp only [h, true_or, or_true]
  · rintro (h | h | h | h | h) <;> simp only [h, true_or, or_true]

theorem isExtra_iff (env : FmtEnv) (log : FLog) (x : Str × FVal) :
    isExtra (baseCells env log fieldHandlers) hiddenFields x = true ↔ Extra env log x.1 x.2 := by
  unfold isExtra Extra
  simp only [Bool.and_eq_true, Bool.not_eq_true', decide_eq_true_eq]
  rw [mem_hidden]
  have := has_baseCells env log x.1
  constructor
  · rintro ⟨⟨h1, h2⟩, h3⟩
    refine ⟨h3, h2, fun s hs => ?_⟩
    rw [this.2 ⟨s, hs⟩] at h1; cases h1
  · rintro ⟨h3, h2, h1⟩
    refine ⟨⟨?_, h2⟩, h3⟩
    cases hh : Dict.has x.1 (baseCells env log fieldHandlers) with
    | false => rfl
    | true => obtain ⟨s, hs⟩ := this.1 hh; exact absurd hs (h1 s)

theorem named_iff (name : Str) (v : FVal) (t : Str) : Named name v t ↔ extraText name v = some t := by
  unfold Named extraText
  cases v with
  | str s =>
    dsimp only
    constructor
    · intro h; rw [h]; rfl
    · intro h; exact (Option.some.inj h).symm
  | _ =>
    simp only [Option.map_eq_some_iff]
    constructor
    · rintro ⟨s, h1, h2⟩; exact ⟨s, h1, h2.symm⟩
    · rintro ⟨s, h1, h2⟩; exact ⟨s, h1, h2.symm⟩

theorem extras_iff (env : FmtEnv) (log : FLog) : ∀ (rest : FLog) (ts : List Str),
    (Extras env log rest ts ↔ ∃ l, extraCells (baseCells env log fieldHandlers) hiddenFields rest = some l ∧
      ts = l.map Prod.snd) := by
  intro rest
  induction rest with
  | nil =>
    intro ts
    constructor
    · intro h; cases h; exact ⟨[], rfl, rfl⟩
    · rintro ⟨l, h, rfl⟩; cases h; exact .nil
  | cons x rest ih =>
    intro ts
    obtain ⟨name, v⟩ := x
    rw [extraCells]
    constructor
    · intro h
      cases h with
      | shown _ _ t _ ts hex hn hr =>
        rw [if_pos ((isExtra_iff env log (name, v)).2 hex)]
        dsimp only
        rw [(named_iff _ _ _).1 hn]
        obtain ⟨l, hl, rfl⟩ := (ih ts).1 hr
        exact ⟨(name, t) :: l, by rw [hl]; rfl, rfl⟩
      | absent _ _ _ _ hex hr =>
        rw [if_neg (fun h => hex ((isExtra_iff env log (name, v)).1 h))]
        exact (ih ts).1 hr
    · rintro ⟨l, h, rfl⟩
      split at h
      · rename_i hx
        dsimp only at h
        cases ht : extraText name v with
        | none => rw [ht] at h; cases h
        | some t =>
          rw [ht] at h
          dsimp only at h
          cases hr : extraCells (baseCells env log fieldHandlers) hiddenFields rest with
          | none => rw [hr] at h; cases h
          | some m =>
            rw [hr] at h
            cases h
            exact .shown _ _ _ _ _ ((isExtra_iff env log (name, v)).1 hx) ((named_iff _ _ _).2 ht)
              ((ih _).2 ⟨m, hr, rfl⟩)
      · rename_i hx
        exact .absent _ _ _ _ (fun h => hx ((isExtra_iff env log (name, v)).2 h)) ((ih _).2 ⟨l, h, rfl⟩)

theorem alignNorms_nodup (first : Levels) : ((alignNorms first).map Prod.fst).Nodup := by
  have : (alignNorms first).map Prod.fst = ["level".toList, "success".toList, "auto".toList] := rfl
  rw [this]; decide +kernel

theorem extraCells_mem (shown : Dict Str Str) (hidden : List Str) : ∀ (log : FLog) (l : Dict Str Str),
    extraCells shown hidden log = some l → ∀ x ∈ l, ∃ v, (x.1, v) ∈ log ∧ v ≠ .none ∧ extraText x.1 v = some x.2 := by
  intro log
  induction log with
  | nil => intro l h; cases h; intro x hx; cases hx
  | cons x rest ih =>
    intro l h y hy
    rw [extraCells] at h
    split at h
    · rename_i hx
      split at h
      · cases h
      · rename_i t ht
        cases hr : extraCells shown hidden rest with
        | none => rw [hr] at h; cases h
        | some m =>
          rw [hr] at h
          cases h
          rcases List.mem_cons.1 hy with e | hy
          · subst e
            refine ⟨x.2, List.mem_cons_self, ?_, ht⟩
            unfold isExtra at hx
            simp only [Bool.and_eq_true, decide_eq_true_eq] at hx
            exact hx.2
          · obtain ⟨v, hv, hr⟩ := ih m hr y hy
            exact ⟨v, List.mem_cons_of_mem _ hv, hr⟩
    · obtain ⟨v, hv, hr⟩ := ih l h y hy
      exact ⟨v, List.mem_cons_of_mem _ hv, hr⟩

theorem exLevel_some {env : FmtEnv} {log : FLog} (h : (fget log "level").text ≠ none) :
    ∃ t, exLevel env log = .ok (some t) := by
  unfold exLevel
  cases hv : fget log "level" with
  | none => exact ⟨_, rfl⟩
  | int n =>
    dsimp only [Levels.getLevelName]
    split <;> exact ⟨_, rfl⟩
  | bool b =>
    dsimp only
    split <;> exact ⟨_, rfl⟩
  | str s => exact ⟨s, rfl⟩
  | float a b c t => exact ⟨t, rfl⟩
  | other t a b =>
    rw [hv] at h
    cases t with
    | none => exact absurd rfl h
    | some t => exact ⟨t, rfl⟩

theorem extra_not_column {env : FmtEnv} {log : FLog} {first : Levels} (hw : Dict.WF log) {l : Dict Str Str}
    (h : extraCells (baseCells env log fieldHandlers) hiddenFields log = some l) :
    ∀ x ∈ l, padCell (alignNorms first) x = x := by
  intro x hx
  have hk := (extraCells_keys _ _ _ _ h)
  have hnot : ¬ ∃ s, Cell env log x.1 (some s) := by
    rw [← has_baseCells]
    rw [hk.2 x.1 (List.mem_map_of_mem hx)]
    simp
  unfold padCell
  rcases Option.eq_none_or_eq_some (Dict.get? x.1 (alignNorms first)) with hg | ⟨w, hg⟩
  · rw [hg]
  · exfalso
    have hmem : x.1 ∈ Dict.keys (alignNorms first) := by
      rw [← Dict.get?_isSome_iff, hg]; rfl
    have hs : ∀ n : Str, ∀ ex : FExtractor, (n, ex) ∈ fieldHandlers → ∀ t, ex env log = .ok (some t) →
        x.1 = n → False := by
      intro n ex hm t ht e
      exact hnot ⟨t, .own _ ⟨ex, e ▸ hm, ht⟩⟩
    have hmem' : x.1 ∈ ["level".toList, "success".toList, "auto".toList] := hmem
    simp only [List.mem_cons, List.not_mem_nil, or_false] at hmem'
    rcases hmem' with e | e | e
    · obtain ⟨v, hv, hne, ht⟩ := extraCells_mem _ _ _ _ h x hx
      rw [e] at hv
      have hg' := (Dict.mem_iff_get? hw _ _).1 hv
      have hf : fget log "level" = v := by unfold fget; rw [hg']; rfl
      have htext : (fget log "level").text ≠ none := by
        rw [hf]
        intro hnone
        unfold extraText at ht
        cases v with
        | str s => cases hnone
        | _ => simp only [hnone] at ht; cases ht
      obtain ⟨t, ht⟩ := exLevel_some (env := env) htext
      exact hs _ exLevel (by simp only [fieldHandlers, List.mem_cons, true_or, or_true]) t ht e
    · have : ∃ t, exSuccess env log = .ok (some t) := by
        unfold exSuccess
        split
        · exact ⟨_, rfl⟩
        · exact ⟨_, rfl⟩
      obtain ⟨t, ht⟩ := this
      exact hs _ exSuccess (by simp only [fieldHandlers, List.mem_cons, true_or, or_true]) t ht e
    · exact hs _ exAuto (by simp only [fieldHandlers, List.mem_cons, true_or, or_true]) _ rfl e

/-- The formatter makes exactly the specified line. -/
theorem formatLine_iff (env : FmtEnv) (first : Levels) (separator : Str) (log : FLog) (hw : Dict.WF log) (line : Str) :
    formatLine env first separator log = .ok line ↔ LineOf env first separator log line := by
  unfold formatLine
  rw [formatWith_eq env _ _ _ separator log fieldHandlers_nodup (alignNorms_nodup first) hw]
  constructor
  · intro h
    split at h
    · cases h
    · rename_i l hl
      refine ⟨_, l.map Prod.snd, (cells_iff env first log fieldHandlers _ fun _ h => h).2 rfl,
        (extras_iff env log log _).2 ⟨l, hl, rfl⟩, ?_⟩
      rw [← Except.ok.inj h, List.map_append, List.map_append,
        List.map_congr_left (l := l) (g := id) (extra_not_column hw hl), List.map_id]
  · rintro ⟨base, extra, hb, he, rfl⟩
    have := (cells_iff env first log fieldHandlers _ fun _ h => h).1 hb
    subst this
    obtain ⟨l, hl, rfl⟩ := (extras_iff env log log _).1 he
    rw [hl]
    dsimp only
    rw [List.map_append, List.map_append,
      List.map_congr_left (l := l) (g := id) (extra_not_column hw hl), List.map_id]

theorem extraCells_none (shown : Dict Str Str) (hidden : List Str) : ∀ (log : FLog),
    extraCells shown hidden log = none ↔ ∃ x ∈ log, isExtra shown hidden x = true ∧ extraText x.1 x.2 = none := by
  intro log
  induction log with
  | nil => simp [extraCells]
  | cons x rest ih =>
    rw [extraCells]
    constructor
    · intro h
      split at h
      · rename_i hx
        split at h
        · rename_i ht
          exact ⟨x, List.mem_cons_self, hx, ht⟩
        · rw [Option.map_eq_none_iff] at h
          obtain ⟨y, hy, hr⟩ := ih.1 h
          exact ⟨y, List.mem_cons_of_mem _ hy, hr⟩
      · obtain ⟨y, hy, hr⟩ := ih.1 h
        exact ⟨y, List.mem_cons_of_mem _ hy, hr⟩
    · rintro ⟨y, hy, h1, h2⟩
      rcases List.mem_cons.1 hy with e | hy
      · subst e
        rw [if_pos h1, h2]
      · have := ih.2 ⟨y, hy, h1, h2⟩
        rw [this]
        split
        · split <;> rfl
        · rfl

end Polog
