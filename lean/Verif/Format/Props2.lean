import Verif.Format.Props

/-! Property theorems: C43 (columns), C44 (the duration). -/

namespace Polog
open FormatSpec

/-- C43. A text in a column: if it is shorter than the column it fills exactly the column, if not it is unchanged; and
the spaces are all that is added. -/
theorem C43_padding (width : Nat) (s : Str) :
    (s.length ≤ width → (center width s).length = width) ∧
    (width ≤ s.length → center width s = s) ∧
    (∃ l r, center width s = List.replicate l ' ' ++ s ++ List.replicate r ' ' ∧ l ≤ r ∧ r ≤ l + 1) ∧
    (s ≠ [] → s.head? ≠ some ' ' → s.getLast? ≠ some ' ' → stripSpaces (center width s) = s) := by
  obtain ⟨l, r, h1, h2, h3, h4⟩ := center_padded width s
  refine ⟨fun h => by rw [h2]; omega, ?_, ⟨l, r, h1, h3, h4⟩, ?_⟩
  · intro h
    rw [h1] at h2 ⊢
    simp only [List.length_append, List.length_replicate] at h2
    have hl : l = 0 := by omega
    have hr : r = 0 := by omega
    rw [hl, hr]
    simp
  · intro hne hh hl
    rw [h1]
    unfold stripSpaces
    have e1 : (List.replicate l ' ' ++ s ++ List.replicate r ' ').dropWhile (· == ' ') = s ++ List.replicate r ' ' := by
      rw [List.append_assoc, List.dropWhile_append_of_pos]
      · cases s with
        | nil => exact absurd rfl hne
        | cons c t =>
          have hc : (c == ' ') = false := by
            cases hc : c == ' ' with
            | false => rfl
            | true => rw [beq_iff_eq] at hc; subst hc; exact absurd rfl hh
          rw [List.cons_append, List.dropWhile_cons, if_neg]
          rw [hc]; simp
      · intro a ha
        rw [List.eq_of_mem_replicate ha]; rfl
    rw [e1, List.reverse_append, List.dropWhile_append_of_pos]
    · have : s.reverse ≠ [] := by simpa using hne
      cases hs : s.reverse with
      | nil => exact absurd hs this
      | cons c t =>
        have hlast : s.getLast? = some c := by
          rw [← List.head?_reverse, hs]; rfl
        have hc : (c == ' ') = false := by
          cases hc : c == ' ' with
          | false => rfl
          | true => rw [beq_iff_eq] at hc; subst hc; exact absurd hlast hl
        rw [List.dropWhile_cons, if_neg (by rw [hc]; simp), ← hs, List.reverse_reverse]
    · intro a ha
      rw [List.mem_reverse] at ha
      rw [List.eq_of_mem_replicate ha]; rfl

/-- C43. In every line the level, the success and the kind stand in columns: `[time] | level | success | auto | …` where
the three are padded to the widths, so that what follows begins at the same place in all lines with times of the same
length and levels that fit. -/
theorem C43_columns_line_up (env : FmtEnv) (first : Levels) (separator : Str) (log : FLog) (hw : Dict.WF log)
    (line : Str) (h : formatLine env first separator log = .ok line) (time level : Str) (width : Nat)
    (ht : Cell env log "time".toList (some time)) (hl : Cell env log "level".toList (some level))
    (hwidth : LevelWidth first width) (hfit : level.length ≤ width) :
    ∃ l s a rest, line = time ++ " | ".toList ++ l ++ " | ".toList ++ s ++ " | ".toList ++ a ++ rest ∧
      Padded width level l ∧ l.length = width ∧ s.length = 7 ∧ a.length = 6 ∧
      stripSpaces s ∈ ["SUCCESS".toList, "ERROR".toList, "UNKNOWN".toList] ∧
      stripSpaces a ∈ ["AUTO".toList, "MANUAL".toList] := by
  obtain ⟨base, extra, hb, he, hline⟩ := (formatLine_iff env first separator log hw line).1 h
  have hs : ∃ t, Cell env log "success".toList (some t) ∧ t.length ≤ 7 ∧
      stripSpaces (center 7 t) ∈ ["SUCCESS".toList, "ERROR".toList, "UNKNOWN".toList] := by
    have key : ∀ t, exSuccess env log = .ok (some t) → Cell env log "success".toList (some t) := fun t h =>
      .own _ ⟨exSuccess, by simp only [fieldHandlers, List.mem_cons, true_or, or_true], h⟩
    have : exSuccess env log = .ok (some "UNKNOWN".toList) ∨ exSuccess env log = .ok (some "SUCCESS".toList) ∨
        exSuccess env log = .ok (some "ERROR".toList) := by
      unfold exSuccess
      split
      · exact Or.inl rfl
      · split
        · exact Or.inr (Or.inl rfl)
        · exact Or.inr (Or.inr rfl)
    rcases this with h | h | h
    · exact ⟨_, key _ h, by decide, by decide +kernel⟩
    · exact ⟨_, key _ h, by decide, by decide +kernel⟩
    · exact ⟨_, key _ h, by decide, by decide +kernel⟩
  have ha : ∃ t, Cell env log "auto".toList (some t) ∧ t.length ≤ 6 ∧
      stripSpaces (center 6 t) ∈ ["AUTO".toList, "MANUAL".toList] := by
    have key : ∀ t, exAuto env log = .ok (some t) → Cell env log "auto".toList (some t) := fun t h =>
      .own _ ⟨exAuto, by simp only [fieldHandlers, List.mem_cons, true_or, or_true], h⟩
    have : exAuto env log = .ok (some "AUTO".toList) ∨ exAuto env log = .ok (some "MANUAL".toList) := by
      unfold exAuto
      split
      · exact Or.inl rfl
      · exact Or.inr rfl
    rcases this with h | h
    · exact ⟨_, key _ h, by decide, by decide +kernel⟩
    · exact ⟨_, key _ h, by decide, by decide +kernel⟩
  obtain ⟨sT, hsC, hsL, hsIn⟩ := hs
  obtain ⟨aT, haC, haL, haIn⟩ := ha
  have inv : ∀ name names ts s, Cells env first log (name :: names) ts → Cell env log name (some s) →
      ∃ t ts', ts = t :: ts' ∧ Written first name s t ∧ Cells env first log names ts' := by
    intro name names ts s hc hcell
    cases hc with
    | shown _ s' t _ ts' hcell' hwr hrest =>
      have := cell_unique hcell hcell'
      cases this
      exact ⟨t, ts', rfl, hwr, hrest⟩
    | absent _ _ _ hcell' hrest =>
      have := cell_unique hcell hcell'
      cases this
  have ho : standardOrder = "time".toList :: "level".toList :: "success".toList :: "auto".toList ::
      standardOrder.drop 4 := rfl
  rw [ho] at hb
  obtain ⟨t1, r1, rfl, w1, hb⟩ := inv _ _ _ _ hb ht
  obtain ⟨t2, r2, rfl, w2, hb⟩ := inv _ _ _ _ hb hl
  obtain ⟨t3, r3, rfl, w3, hb⟩ := inv _ _ _ _ hb hsC
  obtain ⟨t4, r4, rfl, w4, hb⟩ := inv _ _ _ _ hb haC
  have w1' : t1 = time := by
    unfold Written at w1
    rw [if_neg (by decide), if_neg (by decide), if_neg (by decide)] at w1
    exact w1
  have w2' : Padded width level t2 := by
    unfold Written at w2
    rw [if_pos rfl] at w2
    obtain ⟨w, h1, h2⟩ := w2
    rw [levelWidth_unique hwidth h1]
    exact h2
  have w3' : Padded 7 sT t3 := by
    unfold Written at w3
    rw [if_neg (by decide), if_pos rfl] at w3
    exact w3
  have w4' : Padded 6 aT t4 := by
    unfold Written at w4
    rw [if_neg (by decide), if_neg (by decide), if_pos rfl] at w4
    exact w4
  subst w1'
  have hc : ∀ (x : Str) (l : List Str), ∃ rest, List.intercalate " | ".toList (x :: l) = x ++ rest := by
    intro x l
    rw [← joinStr_eq]
    cases l with
    | nil => exact ⟨[], by simp [joinStr]⟩
    | cons y l => exact ⟨" | ".toList ++ joinStr " | ".toList (y :: l), by rw [joinStr, List.append_assoc]⟩
  obtain ⟨rest, hrest⟩ := hc t4 (r4 ++ extra)
  refine ⟨t2, t3, t4, rest ++ separator, ?_, w2', ?_, ?_, ?_, ?_, ?_⟩
  · rw [hline]
    simp only [List.cons_append]
    rw [← joinStr_eq] at hrest ⊢
    rw [joinStr, joinStr, joinStr, hrest]
    simp only [List.append_assoc]
  · obtain ⟨_, _, _, h, _, _⟩ := w2'; rw [h]; omega
  · obtain ⟨_, _, _, h, _, _⟩ := w3'; rw [h]; omega
  · obtain ⟨_, _, _, h, _, _⟩ := w4'; rw [h]; omega
  · rw [padded_center w3']; exact hsIn
  · rw [padded_center w4']; exact haIn

/-- C43. The name of a level that was registered before the first record fits into its column. -/
theorem C43_level_names_fit (isId : Str → Bool) (history : List LevelsCall) (env : FmtEnv) (log : FLog) (n : Int)
    (name : Str) (width : Nat) (hlevels : env.levels = Levels.calls isId .empty history)
    (hlog : fget log "level" = .int n) (hname : Dict.get? n env.levels.byNumber = some name)
    (hwidth : LevelWidth env.levels width) :
    Cell env log "level".toList (some name) ∧ name.length ≤ width := by
  constructor
  · refine (C42_standard_texts env log).2.2.1 n name hlog ?_
    unfold Levels.getLevelName
    dsimp only
    rw [hname]
  · refine hwidth.2.1 name ?_
    unfold Levels.allNames
    rw [← Dict.get?_isSome_iff]
    rw [hlevels, Levels.calls_eq] at hname ⊢
    rw [Levels.apply_byNumber] at hname
    rw [Levels.apply_byName]
    have hmem : ∃ m, (name, m) ∈ LevelsSpec.assignments isId history := by
      split at hname
      · rename_i s hs
        cases hname
        unfold LevelsSpec.lastNameOf at hs
        rw [Option.map_eq_some_iff] at hs
        obtain ⟨a, ha, rfl⟩ := hs
        have := List.mem_of_find?_eq_some ha
        exact ⟨a.2, by simpa using this⟩
      · cases hname
    obtain ⟨m, hm⟩ := hmem
    have : (LevelsSpec.numberOf (LevelsSpec.assignments isId history) name).isSome := by
      unfold LevelsSpec.numberOf
      rw [Option.isSome_map, List.find?_isSome]
      exact ⟨(name, m), by simpa using hm, by simp⟩
    obtain ⟨k, hk⟩ := Option.isSome_iff_exists.1 this
    rw [hk]
    rfl

/-- A log of two records whose messages begin at the same place. -/
example : LevelWidth (Levels.standard .empty) 8 := by
  refine ⟨by decide, by decide +kernel, Or.inr ⟨"CRITICAL".toList, by decide +kernel, by decide⟩⟩

example : center 8 "ERROR".toList = " ERROR  ".toList ∧ stripSpaces " ERROR  ".toList = "ERROR".toList := by
  decide +kernel

/-- C44 (partial: not for whole tens of seconds). The duration in a line is a decimal number, the measured one rounded
to the nearest hundred-millionth of a second; exactly the numbers that round to a multiple of ten seconds (zero too) are
written wrong. -/
theorem C44_time_of_work_partial (env : FmtEnv) (log : FLog) (v : FVal) (hv : fget log "time_of_work" = v)
    (hnum : (∃ b, v = .bool b) ∨ (∃ n, v = .int n) ∨ ∃ neg num den text, v = .float neg num den text ∧ 0 < den) :
    ∃ neg n number, Measured v neg n ∧
      Cell env log "time_of_work".toList (some ("time of work: ".toList ++ number ++ " sec.".toList)) ∧
      (Denotes number neg n ↔ ¬ n % (10 * 10 ^ 8) = 0) := by
  have key : ∀ t, exTimeOfWork env log = .ok (some t) → Cell env log "time_of_work".toList (some t) := fun t h =>
    .own _ ⟨exTimeOfWork, by simp only [fieldHandlers, List.mem_cons, true_or, or_true], h⟩
  have den : ∀ neg n, Denotes (rstripZeros (fixed8 neg n)) neg n ↔ ¬ n % (10 * 10 ^ 8) = 0 := by
    intro neg n
    constructor
    · intro h h0
      exact rstrip_wrong neg n (by omega) (by omega) h
    · intro h
      refine rstrip_denotes neg n ?_
      by_cases h1 : n % 10 ^ 8 = 0
      · right
        intro h2
        exact h (by omega)
      · exact Or.inl h1
  rcases hnum with ⟨b, rfl⟩ | ⟨n, rfl⟩ | ⟨neg, num, d, text, rfl, hd⟩
  · refine ⟨_, _, _, .bool b, key ("time of work: ".toList ++ rstripZeros (fixed8 false (if b then 100000000 else 0)) ++
      " sec.".toList) ?_, den _ _⟩
    unfold exTimeOfWork
    rw [hv]
    cases b <;> rfl
  · refine ⟨_, _, _, .int n, key _ ?_, den _ _⟩
    unfold exTimeOfWork
    rw [hv]
    rfl
  · refine ⟨_, _, _, .float neg num d _ text (roundHalfEven_nearest _ _ hd), key _ ?_, den _ _⟩
    unfold exTimeOfWork
    rw [hv]
    rfl

/-- A duration of 0.0625 s is written in full. -/
example : exTimeOfWork fmtExampleEnv [("time_of_work".toList, .float false 1 16 "0.0625".toList)] =
    .ok (some "time of work: 0.0625 sec.".toList) := by decide +kernel

/-- The text of a decimal number has one meaning. -/
theorem C44_meaning_unique {s : Str} {neg neg' : Bool} {m n : Nat} (h : Denotes s neg m) (h' : Denotes s neg' n) :
    neg = neg' ∧ m = n := denotes_unique h h'

/-- C44 fails for whole tens: ten times as many seconds have the same text, and no time at all has no digits. -/
theorem C44_whole_tens_fails :
    (∀ (env : FmtEnv) (k : Nat), k ≠ 0 →
      exTimeOfWork env [("time_of_work".toList, .int (10 * k))] = exTimeOfWork env [("time_of_work".toList, .int k)]) ∧
    (∀ env : FmtEnv, exTimeOfWork env [("time_of_work".toList, .int 0)] = .ok (some "time of work:  sec.".toList)) ∧
    (∀ env : FmtEnv, exTimeOfWork env [("time_of_work".toList, .float false 10 1 "10.0".toList)] =
      .ok (some "time of work: 1 sec.".toList)) := by
  refine ⟨?_, fun env => ?_, fun env => ?_⟩
  · intro env k hk
    have e : ∀ m : Nat, exTimeOfWork env [("time_of_work".toList, .int m)] =
        .ok (some ("time of work: ".toList ++ rstripZeros (fixed8 false (m * 10 ^ 8)) ++ " sec.".toList)) := by
      intro m
      have hneg : decide ((m : Int) < 0) = false := by simp
      show Except.ok (some ("time of work: ".toList ++ rstripZeros (fixed8 (decide ((m : Int) < 0))
        ((m : Int).natAbs * 10 ^ 8)) ++ " sec.".toList)) = _
      rw [hneg]
      rfl
    have h10 : (10 * (k : Int)) = ((10 * k : Nat) : Int) := by simp
    rw [h10, e, e, rstrip_whole, rstrip_whole, rstrip_tens false (10 * k) (by omega) (by omega)]
    rw [Nat.mul_div_cancel_left k (by decide)]
  · show Except.ok (some ("time of work: ".toList ++ rstripZeros (fixed8 false 0) ++ " sec.".toList)) = _
    decide +kernel
  · show Except.ok (some ("time of work: ".toList ++ rstripZeros (fixed8 false (roundHalfEven (10 * 10 ^ 8) 1)) ++
      " sec.".toList)) = _
    decide +kernel

example : -- the hypotheses of `C43_columns_line_up` and `C43_level_names_fit`
    let log : FLog := [("level".toList, .int 40), ("time".toList, .other (some "12:00".toList) true []), ("auto".toList, .bool false)]
    Dict.WF log ∧ formatLine fmtExampleEnv (Levels.standard .empty) "\n".toList log =
      .ok "[12:00] |  error   | UNKNOWN | MANUAL | where: shop.?\n".toList ∧
    Cell fmtExampleEnv log "time".toList (some "[12:00]".toList) ∧ Cell fmtExampleEnv log "level".toList (some "error".toList) ∧
    fmtExampleEnv.levels = Levels.calls (fun _ => true) .empty [.standardLevels] ∧ fget log "level" = .int 40 ∧
    Dict.get? 40 fmtExampleEnv.levels.byNumber = some "error".toList ∧ LevelWidth (Levels.standard .empty) 8 := by
  refine ⟨by unfold Dict.WF; decide +kernel, by decide +kernel, .own _ ⟨exTime, by simp [fieldHandlers], by decide +kernel⟩,
    .own _ ⟨exLevel, by simp [fieldHandlers], by decide +kernel⟩, rfl, by decide +kernel, by decide +kernel,
    by decide, by decide +kernel, Or.inr ⟨"CRITICAL".toList, by decide +kernel, by decide⟩⟩

end Polog
