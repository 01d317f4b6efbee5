import Verif.Levels.Lemmas

/-! Property theorems: C06 (level names and numbers), C07 (display), first half of C50 (names). -/

namespace Polog
open LevelsSpec

/-- **C06.** After any history of `config.levels(...)` and `config.standard_levels()`, a level name
stands for the number most recently assigned to it and is rejected with `KeyError` if there is none;
a non-negative integer stands for itself; everything else (negative integers, bools, `None`, other
objects) is rejected with `KeyError`. -/
theorem C06_names_and_numbers (isId : Str → Bool) (history : List LevelsCall) (key : PyObj) :
    (Levels.empty.calls isId history).get key =
      match key with
      | .str name =>
        match numberOf (assignments isId history) name with
        | some n => .ok n
        | none => .error .keyError
      | .int n => if 0 ≤ n then .ok n else .error .keyError
      | _ => .error .keyError := by
  rw [Levels.calls_eq]
  cases key with
  | str name =>
    simp only [Levels.get]
    rw [Levels.apply_byName]
    cases numberOf (assignments isId history) name with
    | some n => rfl
    | none => rfl
  | int n =>
    simp only [Levels.get]
    by_cases h : n < 0
    · have : ¬ 0 ≤ n := by omega
      simp [h, this]
    · have : 0 ≤ n := by omega
      simp [h, this]
  | bool b => rfl
  | none => rfl
  | other => rfl

/-- **C06.** One accepted assignment changes that name only. -/
theorem C06_other_names_unaffected (isId : Str → Bool) (history : List LevelsCall) (name other : Str)
    (value : PyObj) (h : other ≠ name) :
    (Levels.empty.calls isId (history ++ [.levels [(name, value)]])).get (.str other)
      = (Levels.empty.calls isId history).get (.str other) := by
  rw [C06_names_and_numbers, C06_names_and_numbers]
  have hn : numberOf (assignments isId (history ++ [.levels [(name, value)]])) other
      = numberOf (assignments isId history) other := by
    simp only [assignments, List.flatMap_append, List.flatMap_cons, List.flatMap_nil, List.append_nil,
      assignedByCall, assignedBy]
    cases ha : accepted isId (name, value) with
    | none => simp
    | some a =>
      have : a.1 = name := by
        unfold accepted at ha
        dsimp only at ha
        split at ha
        · split at ha
          · cases ha; rfl
          · cases ha
        · cases ha
      simp only [numberOf, List.reverse_append, List.reverse_cons, List.reverse_nil, List.nil_append,
        List.cons_append, List.find?_cons]
      have : ¬ a.1 = other := by rw [this]; exact fun e => h e.symm
      simp [this]
  simp only [hn]

/-- **C06.** Every level in use is a non-negative number. -/
theorem C06_levels_nonnegative (isId : Str → Bool) (history : List LevelsCall) (key : PyObj) (n : Int)
    (h : (Levels.empty.calls isId history).get key = .ok n) : 0 ≤ n := by
  rw [C06_names_and_numbers] at h
  cases key with
  | str name =>
    dsimp only at h
    cases hn : numberOf (assignments isId history) name with
    | none => simp [hn] at h
    | some m =>
      simp only [hn, Except.ok.injEq] at h
      subst h
      simp only [numberOf, Option.map_eq_some_iff] at hn
      obtain ⟨a, ha, rfl⟩ := hn
      have hm := List.mem_of_find?_eq_some ha
      simp only [List.mem_reverse, assignments, List.mem_flatMap] at hm
      obtain ⟨c, _, hc⟩ := hm
      cases c with
      | levels kwargs => exact (assignedBy_ok isId kwargs a hc).1
      | standardLevels =>
        have : ∀ a ∈ standardAssignments, 0 ≤ a.2 := by decide
        exact this a hc
  | int m =>
    dsimp only at h
    split at h
    · cases h; assumption
    · cases h
  | bool b => cases h
  | none => cases h
  | other => cases h

example : (Levels.empty.calls (fun _ => true)
    [.standardLevels, .levels [("info".toList, .int 7), ("kek".toList, .bool true)],
     .levels [("bad".toList, .int (-1)), ("lol".toList, .int 5)]]).get (.str "info".toList) = .ok 7 := by
  decide +kernel

/-- **C06.** `config.levels(...)` raises exactly when some item is unacceptable; then the items before
it have been applied and the ones after it have not (see `LevelsSpec.assignedBy`). -/
theorem C06_levels_raises_iff (isId : Str → Bool) (l : Levels) (kwargs : List (Str × PyObj)) :
    (l.configLevels isId kwargs).2 ≠ none ↔ ∃ item ∈ kwargs, accepted isId item = none := by
  induction kwargs generalizing l with
  | nil => simp [Levels.configLevels]
  | cons x xs ih =>
    have h := Levels.setOne_eq isId l x
    obtain ⟨name, v⟩ := x
    simp only [Levels.configLevels, List.mem_cons, exists_eq_or_imp]
    cases ha : accepted isId (name, v) with
    | none =>
      rw [ha] at h
      cases hs : l.setOne isId name v with
      | error e => simp
      | ok l' => simp [hs] at h
    | some a =>
      rw [ha] at h
      cases hs : l.setOne isId name v with
      | error e => simp [hs] at h
      | ok l' => simp only [ih, reduceCtorEq, false_or]

/-- **C06.** The kind of the exception tells what is wrong with the first unacceptable item: `TypeError` if the value is not
an integer, `ValueError` if it is negative, `NameError` if it is the name. -/
theorem C06_kind_of_rejection (isId : Str → Bool) (l : Levels) (kwargs : List (Str × PyObj)) :
    (l.configLevels isId kwargs).2 =
      match kwargs.find? (fun item => (accepted isId item).isNone) with
      | none => none
      | some (_, .int n) => if n < 0 then some .valueError else some .nameError
      | some (_, .bool _) => some .nameError
      | some _ => some .typeError := by
  induction kwargs generalizing l with
  | nil => rfl
  | cons x xs ih =>
    have h := Levels.setOne_eq isId l x
    obtain ⟨name, v⟩ := x
    simp only [Levels.configLevels, List.find?_cons]
    cases ha : accepted isId (name, v) with
    | some a =>
      rw [ha] at h
      cases hs : l.setOne isId name v with
      | error e => simp [hs] at h
      | ok l' => simp only [ih, Option.isNone_some]
    | none =>
      rw [ha] at h
      cases hs : l.setOne isId name v with
      | ok l' => simp [hs] at h
      | error e =>
        simp only [Option.isNone_none]
        unfold Levels.setOne at hs
        cases v with
        | int n =>
          dsimp only at hs ⊢
          by_cases hn : n < 0
          · rw [if_pos hn] at hs ⊢; cases hs; rfl
          · rw [if_neg hn] at hs ⊢
            split at hs
            · cases hs; rfl
            · cases hs
        | bool b =>
          dsimp only at hs ⊢
          have hn : ¬ boolInt b < 0 := by cases b <;> decide
          rw [if_neg hn] at hs
          split at hs
          · cases hs; rfl
          · cases hs
        | none => cases hs; rfl
        | str s => cases hs; rfl
        | other => cases hs; rfl

example : (Levels.empty.configLevels (fun _ => true) [("a".toList, .int 1), ("b".toList, .str []), ("c".toList, .int (-1))]).2
    = some .typeError := by decide +kernel

/-- **C07, partial.** If no name was ever moved from one number to another, the text shown for a
level is one of its current names if it has one, and the decimal number otherwise.
Missing: histories that move a name; there the text can be a stale name
(`C07_displayed_under_current_name_fails`). -/
theorem C07_displayed_under_current_name_partial (isId : Str → Bool) (history : List LevelsCall)
    (hstable : ∀ name n m, (name, n) ∈ assignments isId history → (name, m) ∈ assignments isId history →
      n = m) (n : Int) :
    (∃ name, (Levels.empty.calls isId history).getLevelName (some n) = some name ∧
        (Levels.empty.calls isId history).get (.str name) = .ok n) ∨
    ((Levels.empty.calls isId history).getLevelName (some n) = some (decimal n) ∧
        ∀ name, (Levels.empty.calls isId history).get (.str name) ≠ .ok n) := by
  simp only [C06_names_and_numbers]
  rw [Levels.calls_eq]
  simp only [Levels.getLevelName, Levels.apply_byNumber]
  cases hl : lastNameOf (assignments isId history) n with
  | some name =>
    left
    refine ⟨name, rfl, ?_⟩
    simp only [lastNameOf, Option.map_eq_some_iff] at hl
    obtain ⟨a, ha, rfl⟩ := hl
    have hm := List.mem_of_find?_eq_some ha
    have hp := List.find?_some ha
    simp only [List.mem_reverse] at hm
    simp only [decide_eq_true_eq] at hp
    cases hn : numberOf (assignments isId history) a.1 with
    | none =>
      simp only [numberOf, Option.map_eq_none_iff, List.find?_eq_none, List.mem_reverse] at hn
      have := hn a hm
      simp at this
    | some m =>
      simp only [numberOf, Option.map_eq_some_iff] at hn
      obtain ⟨b, hb, rfl⟩ := hn
      have hm2 := List.mem_of_find?_eq_some hb
      have hp2 := List.find?_some hb
      simp only [List.mem_reverse] at hm2
      simp only [decide_eq_true_eq] at hp2
      have := hstable a.1 b.2 a.2 (by rw [← hp2]; exact hm2) hm
      simp [this, hp]
  | none =>
    right
    refine ⟨rfl, ?_⟩
    intro name h
    cases hn : numberOf (assignments isId history) name with
    | none => simp [hn] at h
    | some m =>
      simp only [hn, Except.ok.injEq] at h
      subst h
      simp only [numberOf, Option.map_eq_some_iff] at hn
      obtain ⟨b, hb, hb2⟩ := hn
      have hm2 := List.mem_of_find?_eq_some hb
      simp only [List.mem_reverse] at hm2
      simp only [lastNameOf, Option.map_eq_none_iff, List.find?_eq_none, List.mem_reverse] at hl
      have := hl b hm2
      simp [hb2] at this

example : ∀ name n m, (name, n) ∈ assignments (fun _ => true) [.standardLevels] →
    (name, m) ∈ assignments (fun _ => true) [.standardLevels] → n = m := by
  intro name n m h1 h2
  have : ∀ a ∈ assignments (fun _ => true) [.standardLevels],
      ∀ b ∈ assignments (fun _ => true) [.standardLevels], a.1 = b.1 → a.2 = b.2 := by decide
  exact this _ h1 _ h2 rfl

/-- **C07.** In every history the text shown for a level is the name given to that number most
recently, and the decimal number if it was never named. -/
theorem C07_displayed_under_last_given_name (isId : Str → Bool) (history : List LevelsCall) (n : Int) :
    (Levels.empty.calls isId history).getLevelName (some n)
      = some ((lastNameOf (assignments isId history) n).getD (decimal n)) := by
  rw [Levels.calls_eq]
  simp only [Levels.getLevelName, Levels.apply_byNumber]
  cases lastNameOf (assignments isId history) n <;> rfl

/-- **C07 fails in general**: after `config.levels(a=1, b=1)` and `config.levels(b=2)` level 1 is
still displayed as `b`, although `b` now means 2 and `a` is a current name of 1. -/
theorem C07_displayed_under_current_name_fails :
    let l := Levels.empty.calls (fun _ => true)
      [.levels [("a".toList, .int 1), ("b".toList, .int 1)], .levels [("b".toList, .int 2)]]
    l.getLevelName (some 1) = some "b".toList ∧ l.get (.str "b".toList) = .ok 2 ∧
    l.get (.str "a".toList) = .ok 1 := by
  decide +kernel

/-- **C50, levels.** Whatever was passed to `config.levels` in whatever history, every registered
level name is an identifier, does not start with an underscore and is not a public attribute of the
loggers (the twelve standard names included). -/
theorem C50_level_names_never_shadow (isId : Str → Bool)
    (hstd : ∀ a ∈ standardAssignments, isId a.1 = true) (history : List LevelsCall) (name : Str) (n : Int)
    (h : (Levels.empty.calls isId history).get (.str name) = .ok n) :
    isId name = true ∧ name.head? ≠ some '_' ∧ name ∉ attributesOfLoggers := by
  rw [C06_names_and_numbers] at h
  dsimp only at h
  cases hn : numberOf (assignments isId history) name with
  | none => simp [hn] at h
  | some m =>
    simp only [numberOf, Option.map_eq_some_iff] at hn
    obtain ⟨a, ha, _⟩ := hn
    have hp := List.find?_some ha
    simp only [decide_eq_true_eq] at hp
    subst hp
    have hm := List.mem_of_find?_eq_some ha
    simp only [List.mem_reverse, assignments, List.mem_flatMap] at hm
    obtain ⟨c, _, hc⟩ := hm
    cases c with
    | levels kwargs => exact (assignedBy_ok isId kwargs a hc).2
    | standardLevels =>
      have hh : ∀ a ∈ standardAssignments, a.1.head? ≠ some '_' ∧ a.1 ∉ attributesOfLoggers := by decide
      exact ⟨hstd a hc, hh a hc⟩

end Polog
