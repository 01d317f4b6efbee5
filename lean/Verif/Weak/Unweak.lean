import Verif.Weak.Props

/-! Objects that cannot be referred to weakly, as keys (C64). -/

namespace Polog

/-- **C64.** An object that cannot be referred to weakly (a number, a text) is never in the dictionary: `in` says `False`; reading it,
with `get` too, deleting it, setting it and `pop` with or without a default are a `TypeError`, and nothing changes. -/
theorem C64_keys_that_cannot_be_referred_to_weakly (env : ObjEnv) (d : WeakDict) (k : Nat) (hk : env.weakable k = false) :
    d.contains env k = false ∧ d.get env k = .error .typeError ∧ d.getItem env k = .error .typeError ∧
    d.del env k = .error .typeError ∧ (∀ v, d.set env k v = .error .typeError) ∧
    ∀ defaults, d.pop env k defaults = (.error .typeError, d) := by
  have hg : d.get env k = .error .typeError := by simp [WeakDict.get, hk]
  refine ⟨by simp [WeakDict.contains, hk], hg, by simp [WeakDict.getItem, hg], by simp [WeakDict.del, hk],
    fun v => (C64_set_accepts_exactly env d k v).2 (by simp [hk]), fun defaults => ?_⟩
  match defaults with
  | [] => simp [WeakDict.pop, hg]
  | [_] => simp [WeakDict.pop, hg]
  | _ :: _ :: _ => rfl

/-- Such an object, beside one that can be referred to and is in the dictionary. -/
example : ∃ (env : ObjEnv) (d : WeakDict), env.weakable 5 = false ∧ WeakDict.empty.set env 1 2 = .ok d ∧
    d.contains env 1 = true ∧ (d.pop env 5 [7]).1 = .error .typeError :=
  ⟨⟨fun n => n < 5, fun a b => a == b, fun _ => false, fun _ => none⟩, ⟨[⟨1, 2, 1⟩], []⟩, rfl, rfl, rfl, rfl⟩

end Polog
