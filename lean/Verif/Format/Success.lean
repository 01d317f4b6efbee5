import Verif.Format.Props

/-!
What a line says about the success of a record whose field `success` is not a flag.
-/

namespace Polog
open FormatSpec

/-- **C42, other values of `success`**: a line says `SUCCESS` exactly if the value equals `True`, that is if it is
`True`, the number 1 or the fraction 1.0; for every other value but `None` it says `ERROR`, even for the text
`"True"` and for objects that are true. -/
theorem C42_success_of_other_values (env : FmtEnv) (log : FLog) :
    ((fget log "success" = .bool true ∨ fget log "success" = .int 1 ∨
        ∃ n t, fget log "success" = .float false n n t) →
      ∀ cell, Cell env log "success".toList cell ↔ cell = some "SUCCESS".toList) ∧
    (¬ (fget log "success" = .none ∨ fget log "success" = .bool true ∨ fget log "success" = .int 1 ∨
        ∃ n t, fget log "success" = .float false n n t) →
      ∀ cell, Cell env log "success".toList cell ↔ cell = some "ERROR".toList) := by
  have ms : ("success".toList, exSuccess) ∈ fieldHandlers := by
    simp only [fieldHandlers, List.mem_cons, true_or, or_true]
  have key : ∀ t, exSuccess env log = .ok t → ∀ cell, Cell env log "success".toList cell ↔ cell = t := by
    intro t h cell
    rw [cell_iff ms]
    have h1 := (cell_iff (env := env) (log := log) ms t).1 (.own t ⟨exSuccess, ms, h⟩)
    rw [← h1]
  constructor
  · intro h
    refine key _ ?_
    unfold exSuccess
    rcases h with h | h | ⟨n, t, h⟩ <;> rw [h] <;> simp [FVal.isTrue]
  · intro h
    refine key _ ?_
    unfold exSuccess
    cases hv : fget log "success" with
    | none => exact absurd (.inl hv) h
    | bool b =>
      cases b with
      | false => simp [FVal.isTrue]
      | true => exact absurd (.inr (.inl hv)) h
    | int n =>
      have : n ≠ 1 := fun e => h (.inr (.inr (.inl (e ▸ hv))))
      simp [FVal.isTrue, this]
    | str s => simp [FVal.isTrue]
    | float neg num den t =>
      have : ¬ (neg = false ∧ num = den) := by
        rintro ⟨rfl, rfl⟩
        exact h (.inr (.inr (.inr ⟨num, t, hv⟩)))
      cases neg with
      | true => simp [FVal.isTrue]
      | false =>
        have : num ≠ den := fun e => this ⟨rfl, e⟩
        simp [FVal.isTrue, this]
    | other t b ty => simp [FVal.isTrue]

/-- A record whose `success` is the text `True`. -/
example (env : FmtEnv) : Cell env [("success".toList, .str "True".toList)] "success".toList (some "ERROR".toList) := by
  refine ((C42_success_of_other_values env _).2 ?_ _).2 rfl
  have : fget [("success".toList, .str "True".toList)] "success" = .str "True".toList := rfl
  rw [this]
  rintro (h | h | h | ⟨_, _, h⟩) <;> cases h

end Polog
