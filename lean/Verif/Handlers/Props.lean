import Verif.Handlers.Lemmas

/-! Property theorems about registering handlers through `config`: C03. -/

namespace Polog
open TreeSpec

variable {V : Type} [DecidableEq V]

/-- **C03, never overwrites.** Whatever is passed to `config.add_handlers` after whatever history of
API calls, and whether it succeeds or raises, every handler registered before is still registered
under the same name. -/
theorem C03_add_handlers_never_overwrites (env : RegEnv V) (history : List (ApiCall V))
    (args : List (AddArg V)) (kwargs : List (Str × Option V)) (name : Str) (h : V)
    (hreg : (Registry.init.calls env history).lookup env name = some h) :
    ((Registry.init.calls env history).addHandlers env args kwargs).1.lookup env name = some h := by
  unfold Registry.addHandlers
  have h1 := addArgs_keeps env args (Registry.init.calls env history)
  split
  · rename_i r' e heq; rw [heq] at h1; exact h1 name h hreg
  · rename_i r' heq
    rw [heq] at h1
    exact addItems_keeps env _ r' name h (h1 name h hreg)

/-- **C03, occupied name.** Registering under a name that holds a handler raises `NameError` and
changes nothing. -/
theorem C03_occupied_name_rejected (env : RegEnv V) (r : Registry V) (name : Str) (old : V)
    (new : Option V) (hreg : r.lookup env name = some old) :
    r.addHandlers env [] [(name, new)] = (r, some .nameError) := by
  rw [lookup_eq] at hreg
  split at hreg
  · rename_i hv
    have hw : (r.tree.walk (pathOf name)).isSome = true := by
      unfold Tree.valAt at hreg
      cases h : r.tree.walk (pathOf name) with
      | none => simp [h] at hreg
      | some n => rfl
    simp [Registry.addHandlers, Registry.addArgs, Registry.addItems, Registry.setHandler,
      Tree.contains_str, hv, hw]
  · cases hreg

/-- The environment used in the examples: identifiers are non-empty, every number is a handler,
generated names are `p0`, `p1`, … of `p`s. -/
def exampleEnv : RegEnv Nat := ⟨fun s => s ≠ [], fun _ => true, fun n => .ok (List.replicate (n+1) 'p')⟩

example : (Registry.init.calls exampleEnv
      [.add [.obj (some 1), .dict [(.str "lol.kek".toList, some 2)]] [("x".toList, some 3)]]).lookup
        exampleEnv "lol.kek".toList = some 2 := by decide +kernel

/-- **C03, free name (partial).** If neither the name nor anything below it holds a handler, the
name is valid and not the root, and no branch was ever selected with `get_handlers(names)`, then
`config.add_handlers(name=h)` succeeds, the handler is found under the name and every other name is
unchanged.  Missing: names that hold no handler but lie above a registered one, and names that were
selected before; for both the call raises `NameError` (`C03_free_name_can_be_taken_fails`,
`C03_selected_name_cannot_be_taken`). -/
theorem C03_free_name_can_be_taken_partial (env : RegEnv V) (hId : env.isId [] = false)
    (ops : List (Op V)) (hs : NoSelect ops) (n : Nat) (name : Str) (h : V)
    (hname : validKey env.isId name = true) (hroot : name ≠ ['.']) (hh : env.isHandler h = true)
    (r : Registry V) (hr : r = ⟨(Tree.run env.isId env.isHandler Tree.empty ops).1, n⟩)
    (hfree : ∀ k', Covers name k' → r.lookup env k' = none) :
    (r.addHandlers env [] [(name, some h)]).2 = none ∧
    ∀ k', (r.addHandlers env [] [(name, some h)]).1.lookup env k'
      = if k' = name then some h else r.lookup env k' := by
  have hc := C04_no_dead_branches_partial env.isId env.isHandler hId ops hs name hname
  have hlook : ∀ k' v, r.tree.getitem env.isId (.str k') = .ok v → r.lookup env k' = some v := by
    intro k' v hv; simp [Registry.lookup, hv]
  have hnot : (r.tree.walk (pathOf name)).isSome = false := by
    dsimp only at hc
    rw [Tree.contains_str, hname] at hc
    simp only [↓reduceIte, Except.ok.injEq] at hc
    cases hw : (r.tree.walk (pathOf name)).isSome with
    | false => rfl
    | true =>
      rw [hr] at hw
      rcases hc.1 hw with h1 | ⟨k', v, hg, hcov⟩
      · exact absurd h1 hroot
      · have := hfree k' hcov
        rw [hlook k' v (by rw [hr]; exact hg)] at this
        cases this
  have heq : r.addHandlers env [] [(name, some h)] =
      ({ r with tree := Tree.modifyAt (fun n => ⟨some h, n.childs⟩) (pathOf name) r.tree }, none) := by
    simp [Registry.addHandlers, Registry.addArgs, Registry.addItems, Registry.setHandler,
      Tree.contains_str, hname, hnot, Tree.setitem_str, hh]
  rw [heq]
  refine ⟨rfl, ?_⟩
  intro k'
  simp only [lookup_eq, Tree.valAt_modifyAt_set]
  by_cases hk : k' = name
  · subst hk; simp [hname]
  · have : pathOf k' ≠ pathOf name := fun h => hk (pathOf_inj h)
    simp [hk, this]

example : ∃ ops : List (Op Nat), NoSelect ops ∧
    (∀ k', Covers "a.c".toList k' →
      (⟨(Tree.run exampleEnv.isId exampleEnv.isHandler Tree.empty ops).1, 0⟩ : Registry Nat).lookup
        exampleEnv k' = none) ∧
    (⟨(Tree.run exampleEnv.isId exampleEnv.isHandler Tree.empty ops).1, 0⟩ : Registry Nat).lookup
        exampleEnv "a.b".toList = some 1 := by
  refine ⟨[.set (.str "a.b".toList) (some 1)], trivial, ?_, by decide +kernel⟩
  rintro k' hcov
  have hne : k' ≠ "a.b".toList := by
    rintro rfl
    rcases hcov with h | ⟨rest, h⟩
    · revert h; decide
    · have := congrArg (List.take 3) h
      revert this
      simp
  rw [lookup_eq]
  split
  · have : pathOf k' ≠ pathOf "a.b".toList := fun h => hne (pathOf_inj h)
    simp only [Tree.run, Tree.step, Tree.setitem_str, exampleEnv]
    have hv : validKey (fun s => decide (s ≠ [])) "a.b".toList = true := by decide
    simp only [↓reduceIte, hv, Tree.valAt_modifyAt_set, this]
    exact Tree.valAt_empty _
  · rfl

/-- **C03 fails in general (1)**: after registering only `a.b`, the name `a` holds no handler, yet
`config.add_handlers(a=h)` raises `NameError`. -/
theorem C03_free_name_can_be_taken_fails :
    let r := Registry.init.calls exampleEnv [.add [.dict [(.str "a.b".toList, some 1)]] []]
    r.lookup exampleEnv "a".toList = none ∧
    (r.addHandlers exampleEnv [] [("a".toList, some 2)]).2 = some .nameError := by
  decide +kernel

/-- **C03 fails in general (2)**: merely reading `config.get_handlers('x')` makes the never
registered name `x` unusable: `config.add_handlers(x=h)` raises `NameError`. -/
theorem C03_selected_name_cannot_be_taken :
    let r := Registry.init.calls exampleEnv [.select [.str "x".toList]]
    (∀ name, r.lookup exampleEnv name = none) ∧
    (r.addHandlers exampleEnv [] [("x".toList, some 2)]).2 = some .nameError := by
  refine ⟨?_, by decide +kernel⟩
  intro name
  rw [lookup_eq]
  split
  · have h : Tree.Reachable exampleEnv.isId exampleEnv.isHandler
        (Registry.init.calls exampleEnv [.select [.str "x".toList]]).tree := calls_reachable _ _
    have hl : (Registry.init.calls exampleEnv [.select [.str "x".toList]]).tree.len = 0 := by
      decide +kernel
    exact (Tree.len_eq_zero_iff (Tree.reachable_inv h).1).1 hl _
  · rfl

/-- The root key can never be registered through `config.add_handlers`: `'.' in tree` is always
true, so the call always raises `NameError` and changes nothing. -/
theorem C03_root_never_registrable (env : RegEnv V) (r : Registry V) (h : Option V) :
    r.addHandlers env [.dict [(.str ['.'], h)]] [] = (r, some .nameError) := by
  have hc : r.tree.contains env.isId (.str ['.']) = .ok true := by
    rw [Tree.contains_str]
    simp [validKey, pathOf, sep, Tree.walk]
  simp [Registry.addHandlers, Registry.addArgs, Registry.addArg, Registry.addItems,
    Registry.setHandler, hc]

end Polog
