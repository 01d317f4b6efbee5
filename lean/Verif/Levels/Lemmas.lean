import Verif.Levels.Spec

namespace Polog
open LevelsSpec

theorem publicApiNames_eq : publicApiNames = attributesOfLoggers := rfl

def Levels.apply (l : Levels) (as : List (Str × Int)) : Levels :=
  as.foldl (fun acc a => acc.set a.1 a.2) l

theorem Levels.setOne_eq (isId : Str → Bool) (l : Levels) (item : Str × PyObj) :
    (match l.setOne isId item.1 item.2 with | .ok l' => some l' | .error _ => none)
      = (accepted isId item).map fun a => l.set a.1 a.2 := by
  obtain ⟨name, v⟩ := item
  have key : ∀ n : Int,
      (match (if n < 0 then (.error PyErr.valueError : Except PyErr Levels)
          else if !isPossibleLevelName isId name then .error .nameError else .ok (l.set name n)) with
        | .ok l' => some l' | .error _ => none)
      = Option.map (fun a => l.set a.1 a.2)
        (if 0 ≤ n ∧ isId name ∧ name.head? ≠ some '_' ∧ name ∉ attributesOfLoggers then some (name, n)
          else none) := by
    intro n
    by_cases hn : n < 0
    · have : ¬ (0 ≤ n) := by omega
      simp [hn, this]
    · have hn' : 0 ≤ n := by omega
      by_cases hi : isId name = true
      · by_cases hh : name.head? = some '_'
        · simp [hn, isPossibleLevelName, hi, hh]
        · by_cases hp : name ∈ attributesOfLoggers <;> simp [hn, hn', isPossibleLevelName, publicApiNames_eq, hi, hh, hp]
      · simp [hn, isPossibleLevelName, hi]
  cases v with
  | int n => simpa [Levels.setOne, accepted] using key n
  | bool b => simpa [Levels.setOne, accepted] using key (boolInt b)
  | none => rfl
  | str s => rfl
  | other => rfl

theorem Levels.configLevels_eq (isId : Str → Bool) (kwargs : List (Str × PyObj)) : ∀ l : Levels,
    (l.configLevels isId kwargs).1 = l.apply (assignedBy isId kwargs) := by
  induction kwargs with
  | nil => intro l; rfl
  | cons x xs ih =>
    intro l
    have h := Levels.setOne_eq isId l x
    obtain ⟨name, v⟩ := x
    simp only [Levels.configLevels, assignedBy]
    cases ha : accepted isId (name, v) with
    | none =>
      rw [ha] at h
      cases hs : l.setOne isId name v with
      | error e => rfl
      | ok l' => simp [hs] at h
    | some a =>
      rw [ha] at h
      cases hs : l.setOne isId name v with
      | error e => simp [hs] at h
      | ok l' =>
        simp [hs] at h
        simp only [ih, h]
        rfl

theorem Levels.standard_eq (l : Levels) : l.standard = l.apply standardAssignments := by
  rfl

theorem Levels.call_eq (isId : Str → Bool) (l : Levels) (c : LevelsCall) :
    l.call isId c = l.apply (assignedByCall isId c) := by
  cases c with
  | levels kwargs => exact Levels.configLevels_eq isId kwargs l
  | standardLevels => exact Levels.standard_eq l

theorem Levels.apply_append (l : Levels) (a b : List (Str × Int)) :
    l.apply (a ++ b) = (l.apply a).apply b := by
  simp [Levels.apply]

theorem Levels.calls_eq (isId : Str → Bool) (cs : List LevelsCall) : ∀ l : Levels,
    l.calls isId cs = l.apply (assignments isId cs) := by
  induction cs with
  | nil => intro l; rfl
  | cons c cs ih =>
    intro l
    simp only [Levels.calls, ih, assignments, List.flatMap_cons, Levels.apply_append, Levels.call_eq]

theorem Levels.apply_byName (as : List (Str × Int)) : ∀ (l : Levels) (name : Str),
    Dict.get? name (l.apply as).byName =
      match numberOf as name with | some n => some n | none => Dict.get? name l.byName := by
  induction as with
  | nil => intro l name; rfl
  | cons a as ih =>
    intro l name
    have : l.apply (a :: as) = (l.set a.1 a.2).apply as := rfl
    rw [this, ih]
    simp only [numberOf, List.reverse_cons, List.find?_append]
    cases h : List.find? (fun a => decide (a.1 = name)) as.reverse with
    | some y => simp
    | none =>
      simp only [Option.map_none, Option.none_or, Levels.set, Dict.get?_set]
      by_cases h2 : a.1 = name <;> simp [h2]

theorem Levels.apply_byNumber (as : List (Str × Int)) : ∀ (l : Levels) (n : Int),
    Dict.get? n (l.apply as).byNumber =
      match lastNameOf as n with | some s => some s | none => Dict.get? n l.byNumber := by
  induction as with
  | nil => intro l name; rfl
  | cons a as ih =>
    intro l n
    have : l.apply (a :: as) = (l.set a.1 a.2).apply as := rfl
    rw [this, ih]
    simp only [lastNameOf, List.reverse_cons, List.find?_append]
    cases h : List.find? (fun a => decide (a.2 = n)) as.reverse with
    | some y => simp
    | none =>
      simp only [Option.map_none, Option.none_or, Levels.set, Dict.get?_set]
      by_cases h2 : a.2 = n <;> simp [h2]

theorem assignedBy_ok (isId : Str → Bool) (kwargs : List (Str × PyObj)) :
    ∀ a ∈ assignedBy isId kwargs, 0 ≤ a.2 ∧ isId a.1 = true ∧ a.1.head? ≠ some '_' ∧
      a.1 ∉ attributesOfLoggers := by
  induction kwargs with
  | nil => intro a ha; cases ha
  | cons x xs ih =>
    intro a ha
    simp only [assignedBy] at ha
    cases h : accepted isId x with
    | none => simp [h] at ha
    | some b =>
      simp only [h, List.mem_cons] at ha
      rcases ha with rfl | ha
      · unfold accepted at h
        dsimp only at h
        split at h
        · split at h
          · rename_i hc
            cases h
            exact hc
          · cases h
        · cases h
      · exact ih a ha

end Polog
