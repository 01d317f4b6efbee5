/-!
Shared vocabulary for the model: Python strings as character lists, the two string operations the
code uses everywhere (`str.split(sep)` with a one-character separator and `sep.join(parts)`), and
the names of the Python exceptions that the modelled code raises.
-/

namespace Polog

/-- A Python `str`, as the list of its characters. Not code of the repository. -/
abbrev Str := List Char

/-- `s.split(c)` for a one-character separator (Python semantics: always at least one part, empty
parts are kept).  Used at `polog/data_structures/trees/named_tree/tree.py:313`. -/
def splitChar (c : Char) : Str → List Str
  | [] => [[]]
  | x :: xs =>
    if x = c then [] :: splitChar c xs
    else
      match splitChar c xs with
      | [] => [[x]]
      | p :: ps => (x :: p) :: ps

/-- `c.join(parts)` for a one-character separator.  Used at
`polog/data_structures/trees/named_tree/tree.py:296`. -/
def joinChar (c : Char) : List Str → Str
  | [] => []
  | [p] => p
  | p :: q :: ps => p ++ c :: joinChar c (q :: ps)

/-- The exceptions raised by the modelled code (only their classes are modelled, not their texts).
Those of the repository: errors.py:1-42. -/
inductive PyErr where
  | keyError
  | valueError
  | typeError
  | nameError
  | attributeError
  | indexError
  | assertionError
  | notImplementedError
  /-- `polog/errors.py`: `IncorrectUseOfTheDecoratorError`, `IncorrectUseLoggerError`, … -/
  | incorrectUse
  /-- `polog/errors.py`: `DoubleSettingError`. -/
  | doubleSetting
  /-- `polog/errors.py`: `AfterStartSettingError`. -/
  | afterStart
  /-- `polog/errors.py`: `RewritingLogError`. -/
  | rewritingLog
deriving DecidableEq, Repr

deriving instance DecidableEq for Except

theorem splitChar_ne_nil (c : Char) (s : Str) : splitChar c s ≠ [] := by
  induction s with
  | nil => simp [splitChar]
  | cons x xs ih =>
    simp only [splitChar]
    split
    · simp
    · split <;> simp

theorem not_mem_of_mem_splitChar (c : Char) (s : Str) : ∀ p ∈ splitChar c s, c ∉ p := by
  induction s with
  | nil => simp [splitChar]
  | cons x xs ih =>
    intro p hp
    simp only [splitChar] at hp
    split at hp
    · rcases List.mem_cons.1 hp with rfl | h
      · simp
      · exact ih p h
    · rename_i hx
      split at hp
      · rename_i h0; exact absurd h0 (splitChar_ne_nil c xs)
      · rename_i q qs heq
        rcases List.mem_cons.1 hp with rfl | h
        · have := ih q (by rw [heq]; simp)
          simp only [List.mem_cons, not_or]
          exact ⟨fun h => hx h.symm, this⟩
        · exact ih p (by rw [heq]; simp [h])

theorem joinChar_splitChar (c : Char) (s : Str) : joinChar c (splitChar c s) = s := by
  induction s with
  | nil => simp [splitChar, joinChar]
  | cons x xs ih =>
    simp only [splitChar]
    split
    · rename_i hx
      cases h : splitChar c xs with
      | nil => exact absurd h (splitChar_ne_nil c xs)
      | cons q qs => rw [h] at ih; simp [joinChar, ih, hx]
    · split
      · rename_i h0; exact absurd h0 (splitChar_ne_nil c xs)
      · rename_i q qs heq
        rw [heq] at ih
        cases qs with
        | nil => simp [joinChar] at ih ⊢; exact ih
        | cons r rs => simp [joinChar] at ih ⊢; exact ih

theorem splitChar_of_not_mem (c : Char) (p : Str) (h : c ∉ p) : splitChar c p = [p] := by
  induction p with
  | nil => simp [splitChar]
  | cons x xs ih =>
    simp only [List.mem_cons, not_or] at h
    simp only [splitChar, if_neg (fun e => h.1 (Eq.symm e)), ih h.2]

theorem splitChar_append (c : Char) (p s : Str) (h : c ∉ p) :
    splitChar c (p ++ c :: s) = p :: splitChar c s := by
  induction p with
  | nil => simp [splitChar]
  | cons x xs ih =>
    simp only [List.mem_cons, not_or] at h
    simp only [List.cons_append, splitChar, if_neg (fun e => h.1 (Eq.symm e)), ih h.2]

theorem splitChar_joinChar (c : Char) (ps : List Str) (hne : ps ≠ []) (h : ∀ p ∈ ps, c ∉ p) :
    splitChar c (joinChar c ps) = ps := by
  induction ps with
  | nil => exact absurd rfl hne
  | cons p ps ih =>
    cases ps with
    | nil => simpa [joinChar] using splitChar_of_not_mem c p (h p (by simp))
    | cons q qs =>
      rw [joinChar, splitChar_append c _ _ (h p (by simp))]
      rw [ih (by simp) (fun r hr => h r (List.mem_cons_of_mem _ hr))]

theorem splitChar_inj (c : Char) {s t : Str} (h : splitChar c s = splitChar c t) : s = t := by
  rw [← joinChar_splitChar c s, h, joinChar_splitChar]

end Polog
