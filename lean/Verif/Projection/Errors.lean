import Verif.Projection.Props2

/-!
When a registration in the global namespace, and a deletion from it, raise, and what.
-/

namespace Polog

variable {V : Type}

/-- **C05, the exceptions of the global namespace**: in any state, a registration with a key that is not a string is
a `KeyError`; then a value that is not a handler is a `ValueError`; then a wrong key is a `KeyError`; every other
registration succeeds. A deletion succeeds exactly if the key has a value, and is a `KeyError` otherwise. -/
theorem C05_global_exceptions (isId : Str → Bool) (okValue : V → Bool) (h : Heap V) :
    (∀ v, (h.set isId okValue .other v).2 = some .keyError) ∧
    (∀ s, (h.set isId okValue (.str s) none).2 = some .valueError) ∧
    (∀ s v, okValue v = false → (h.set isId okValue (.str s) (some v)).2 = some .valueError) ∧
    (∀ s v, okValue v = true → TreeSpec.validKey isId s = false →
      (h.set isId okValue (.str s) (some v)).2 = some .keyError) ∧
    (∀ s v, okValue v = true → TreeSpec.validKey isId s = true →
      (h.set isId okValue (.str s) (some v)).2 = none) ∧
    (∀ key, (∃ v, h.get isId key = .ok (some v)) → (h.del isId key).2 = none) ∧
    (∀ key, (¬ ∃ v, h.get isId key = .ok (some v)) →
      (h.del isId key).2 = some .keyError ∧ (h.del isId key).1 = h) := by
  refine ⟨fun v => rfl, fun s => rfl, fun s v ho => by simp [Heap.set, ho], fun s v ho hk => ?_, fun s v ho hk => ?_,
    ?_, ?_⟩
  · have : convKeys isId (.str s) = .error .keyError := by
      have hn := mt validKey_iff.2 (by rw [hk]; simp)
      rw [convKeys_str, if_neg (fun e => hn (.inl e)), if_neg (fun e => hn (.inr e))]
    simp [Heap.set, ho, this]
  · have : ∃ keys, convKeys isId (.str s) = .ok keys := by
      rw [convKeys_str]
      rcases validKey_iff.1 hk with e | e
      · exact ⟨_, if_pos e⟩
      · by_cases hs : s = [sep]
        · exact ⟨_, if_pos hs⟩
        · rw [if_neg hs, if_pos e]; exact ⟨_, rfl⟩
    obtain ⟨keys, hkeys⟩ := this
    simp [Heap.set, ho, hkeys]
  · rintro key ⟨v, hv⟩
    cases key with
    | other => simp [Heap.get, convKeys] at hv
    | str s =>
      by_cases hs : s = [sep]
      · subst hs
        simp only [Heap.get, if_true, Except.ok.injEq] at hv
        simp [Heap.del, convKeys, Heap.search, hv]
      · simp only [Heap.get, Key.str.injEq, if_neg hs] at hv
        unfold Heap.del
        dsimp only
        cases hc : convKeys isId (.str s) with
        | error e => rw [hc] at hv; cases hv
        | ok keys =>
          rw [hc] at hv
          dsimp only at hv ⊢
          cases hf : h.search keys with
          | none => rw [hf] at hv; cases hv
          | some i =>
            rw [hf] at hv
            simp only [Except.ok.injEq] at hv
            simp [hv]
  · rintro key hv
    cases key with
    | other => exact ⟨rfl, rfl⟩
    | str s =>
      by_cases hs : s = [sep]
      · subst hs
        simp only [Heap.get, if_true, Except.ok.injEq] at hv
        have : (h.node 0).value = none := by
          cases hx : (h.node 0).value with
          | none => rfl
          | some v => exact absurd ⟨v, hx⟩ hv
        simp [Heap.del, convKeys, Heap.search, this]
      · simp only [Heap.get, Key.str.injEq, if_neg hs] at hv
        unfold Heap.del
        dsimp only
        cases hc : convKeys isId (.str s) with
        | error e =>
          rw [convKeys_str, if_neg hs] at hc
          split at hc
          · cases hc
          · cases hc; exact ⟨rfl, rfl⟩
        | ok keys =>
          rw [hc] at hv
          dsimp only at hv ⊢
          cases hf : h.search keys with
          | none => exact ⟨rfl, rfl⟩
          | some i =>
            rw [hf] at hv
            simp only [Except.ok.injEq] at hv
            have : (h.node i).value = none := by
              cases hx : (h.node i).value with
              | none => rfl
              | some v => exact absurd ⟨v, hx⟩ hv
            simp [this]

/-- A namespace with one handler: a wrong key, a wrong value, an absent and a present key. -/
example :
    let h : Heap Nat := Heap.init.run wId (fun n => n != 9) [.set (.str ['a']) (some 1)]
    (h.set wId (fun n => n != 9) (.str ['a', '.', '.', 'b']) (some 2)).2 = some .keyError ∧
    (h.set wId (fun n => n != 9) (.str ['b']) (some 9)).2 = some .valueError ∧
    (h.set wId (fun n => n != 9) (.str ['b']) (some 2)).2 = none ∧
    (h.del wId (.str ['b'])).2 = some .keyError ∧ (h.del wId (.str ['a'])).2 = none := by
  refine ⟨?_, ?_, ?_, ?_, ?_⟩ <;> decide +kernel

end Polog
