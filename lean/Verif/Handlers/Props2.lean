import Verif.Handlers.Props
import Verif.Handlers.DeleteSpec

/-! Property theorems about deleting handlers (C68) and about registering one handler object twice
(C69). -/

namespace Polog
open TreeSpec DeleteSpec

variable {V : Type} [DecidableEq V]

set_option linter.unusedSectionVars false

/-! ### Lemmas -/

theorem Forest.get?_of_mem_names {f : Forest V} {n : Str} (h : n ∈ f.names) : ∃ t, f.get? n = some t := by
  induction f with
  | nil => simp [Forest.names] at h
  | cons m v c r _ ih =>
    simp only [Forest.get?]
    by_cases hm : m = n
    · exact ⟨_, if_pos hm⟩
    · rw [if_neg hm]
      simp only [Forest.names, List.mem_cons] at h
      rcases h with h | h
      · exact absurd h.symm hm
      · exact ih h

theorem Forest.nameOf_mem {f : Forest V} {h : Option V} {n : Str} (hn : f.nameOf h = some n) :
    n ∈ f.names := by
  induction f with
  | nil => simp [Forest.nameOf] at hn
  | cons m v c r _ ih =>
    simp only [Forest.nameOf] at hn
    simp only [Forest.names, List.mem_cons]
    split at hn
    · rename_i k hk
      cases hn
      exact .inr (ih hk)
    · split at hn
      · cases hn; exact .inl rfl
      · cases hn

theorem Forest.nameOf_some {f : Forest V} (hw : f.WF) {h : Option V} {n : Str}
    (hn : f.nameOf h = some n) : ∃ t, f.get? n = some t ∧ t.value = h := by
  induction f with
  | nil => simp [Forest.nameOf] at hn
  | cons m v c r _ ih =>
    simp only [Forest.nameOf] at hn
    obtain ⟨hnot, _, hr⟩ := hw
    simp only [Forest.get?]
    split at hn
    · rename_i k hk
      cases hn
      have hne : m ≠ n := fun he => hnot (he ▸ Forest.nameOf_mem hk)
      rw [if_neg hne]
      exact ih hr hk
    · split at hn
      · rename_i hv
        cases hn
        exact ⟨⟨v, c⟩, if_pos rfl, hv⟩
      · cases hn

theorem Forest.nameOf_none {f : Forest V} {h : Option V} (hn : f.nameOf h = none) (n : Str)
    (t : Tree V) (ht : f.get? n = some t) : t.value ≠ h := by
  induction f with
  | nil => simp [Forest.get?] at ht
  | cons m v c r _ ih =>
    simp only [Forest.nameOf] at hn
    simp only [Forest.get?] at ht
    split at hn
    · cases hn
    · rename_i hnone
      split at hn
      · cases hn
      · rename_i hv
        split at ht
        · cases ht; exact hv
        · exact ih hnone ht

theorem mem_topValues {f : Forest V} (hw : f.WF) {h : Option V} :
    h ∈ topValues f ↔ ∃ n t, f.get? n = some t ∧ t.value = h := by
  induction f with
  | nil => simp [topValues, Forest.trees, Forest.get?]
  | cons m v c r _ ih =>
    obtain ⟨hnot, _, hr⟩ := hw
    have hih : h ∈ r.trees.map Tree.value ↔ _ := ih hr
    simp only [topValues, Forest.trees, List.map_cons, List.mem_cons, hih, Forest.get?]
    constructor
    · rintro (hv | ⟨n, t, ht, hv⟩)
      · exact ⟨m, ⟨v, c⟩, if_pos rfl, hv.symm⟩
      · refine ⟨n, t, ?_, hv⟩
        rw [if_neg, ht]
        rintro rfl
        have : ∀ {f : Forest V} {n : Str}, n ∉ f.names → f.get? n = none := by
          intro f n hf
          induction f with
          | nil => rfl
          | cons a b d g _ ihg =>
            simp only [Forest.names, List.mem_cons, not_or] at hf
            simp only [Forest.get?]
            rw [if_neg (Ne.symm hf.1), ihg hf.2]
        rw [this hnot] at ht
        cases ht
    · rintro ⟨n, t, ht, hv⟩
      split at ht
      · cases ht; exact .inl hv.symm
      · exact .inr ⟨n, t, ht, hv⟩

theorem pathOf_dotless {s : Str} (h : '.' ∉ s) : pathOf s = [s] := by
  unfold pathOf
  rw [if_neg (by rintro rfl; exact h (by simp [sep]))]
  exact splitChar_of_not_mem _ _ h

theorem validKey_plain {isId : Str → Bool} {s : Str} (h : '.' ∉ s) (hi : isId s = true) :
    validKey isId s = true := by
  unfold validKey
  rw [splitChar_of_not_mem _ _ h]
  simp [hi]

/-- What a name without dots holds is the value of the top-level node of that name. -/
theorem lookup_plain {env : RegEnv V} {r : Registry V}
    (hn : r.tree.NamesOk env.isId) {s : Str} (h : '.' ∉ s) :
    r.lookup env s = (r.tree.childs.get? s).bind Tree.value := by
  rw [lookup_eq, pathOf_dotless h]
  have hv : r.tree.valAt [s] = (r.tree.childs.get? s).bind Tree.value := by
    rw [Tree.valAt_cons]; rfl
  split
  · exact hv
  · rename_i hk
    cases hg : r.tree.childs.get? s with
    | none => rfl
    | some t =>
      have := hn [s] (by simp [Tree.walk, hg]) s (by simp)
      exact absurd (validKey_plain h this.2) hk

theorem childs_get?_plain {env : RegEnv V} {r : Registry V} (hn : r.tree.NamesOk env.isId) {s : Str}
    {t : Tree V} (hg : r.tree.childs.get? s = some t) : '.' ∉ s :=
  (hn [s] (by simp [Tree.walk, hg]) s (by simp)).1

theorem delitem_lookup {env : RegEnv V} {r : Registry V} (hw : r.tree.WF) (s : Str) :
    (r.lookup env s = none ∧ r.tree.delitem env.isId (.str s) = .error .keyError) ∨
    (∃ v t, r.lookup env s = some v ∧ r.tree.delitem env.isId (.str s) = .ok t ∧
      Registry.lookup env { r with tree := t } = Map.put (r.lookup env) s none) := by
  rw [Tree.delitem_str, lookup_eq]
  by_cases hk : validKey env.isId s = true
  · simp only [hk, if_true]
    cases hv : r.tree.valAt (pathOf s) with
    | none => exact .inl ⟨rfl, rfl⟩
    | some v =>
      refine .inr ⟨v, _, rfl, rfl, ?_⟩
      funext s'
      simp only [lookup_eq, Map.put, Tree.valAt_delAt _ _ hw]
      by_cases hs : s' = s
      · subst hs; simp
      · have : pathOf s' ≠ pathOf s := fun h => hs (pathOf_inj h)
        simp [hs, this]
  · exact .inl ⟨by simp [hk], by simp [hk]⟩

theorem deleteHandlers_spec {env : RegEnv V} (args : List (DelArg V)) : ∀ {r : Registry V},
    Tree.Reachable env.isId env.isHandler r.tree →
    Deletes (r.lookup env) args ((r.deleteHandlers env args).1.lookup env)
      (r.deleteHandlers env args).2 := by
  induction args with
  | nil => intro r _; exact .done _
  | cons a rest ih =>
    intro r hr
    have hr' : Tree.Reachable env.isId env.isHandler (r.delOne env a).1.tree := by
      obtain ⟨ops, h⟩ := hr
      obtain ⟨ops', h'⟩ := delOne_steps env r a
      exact ⟨ops ++ ops', by rw [Tree.run_append, h, h']⟩
    obtain ⟨hw, hn⟩ := Tree.reachable_inv hr
    cases a with
    | name s =>
      rcases delitem_lookup (env := env) hw s with ⟨hl, hd⟩ | ⟨v, t, hl, hd, hp⟩
      · simp only [Registry.deleteHandlers, Registry.delOne, hd]
        exact .noName hl
      · simp only [Registry.delOne, hd] at hr'
        simp only [Registry.deleteHandlers, Registry.delOne, hd]
        refine .name hl ?_
        rw [← hp]
        exact ih hr'
    | obj h =>
      cases hf : r.tree.childs.nameOf h with
      | none =>
        simp only [Registry.deleteHandlers, Registry.delOne, hf]
        cases h with
        | none => exact .nothing (.inr rfl)
        | some v =>
          refine .noObject fun s hs he => ?_
          rw [lookup_plain hn hs] at he
          cases hg : r.tree.childs.get? s with
          | none => rw [hg] at he; cases he
          | some t =>
            rw [hg] at he
            exact Forest.nameOf_none hf s t hg he
      | some n =>
        obtain ⟨t0, hg, hv0⟩ := Forest.nameOf_some hw hf
        have hplain := childs_get?_plain hn hg
        have hlook := lookup_plain (r := r) hn hplain
        rw [hg] at hlook
        simp only [Option.bind_some, hv0] at hlook
        rcases delitem_lookup (env := env) hw n with ⟨hl, hd⟩ | ⟨v, t, hl, hd, hp⟩
        · simp only [Registry.deleteHandlers, Registry.delOne, hf, hd]
          cases h with
          | none => exact .nothing (.inl rfl)
          | some v => rw [hl] at hlook; cases hlook
        · simp only [Registry.delOne, hf, hd] at hr'
          simp only [Registry.deleteHandlers, Registry.delOne, hf, hd]
          rw [hl] at hlook
          subst hlook
          refine .object hplain hl ?_
          rw [← hp]
          exact ih hr'

/-! ### C68: deleting -/

/-- **C68.** After any history of API calls, `config.delete_handlers(*args)` frees exactly the names
the specification `Deletes` says, and raises exactly what it says: names and objects are taken one
after another, nothing but the named registrations is lost, and the first refused argument ends the
call with everything before it deleted and everything after it kept. -/
theorem C68_delete_handlers_frees_exactly_the_given (env : RegEnv V) (history : List (ApiCall V))
    (args : List (DelArg V)) :
    let r := (Registry.init : Registry V).calls env history
    Deletes (r.lookup env) args ((r.call env (.delete args)).1.lookup env)
      (r.call env (.delete args)).2 :=
  deleteHandlers_spec args (calls_reachable env history)

/-- **C68, by name.** A call with one registered name removes that registration and no other; with an
unregistered name it raises `KeyError` and changes nothing. -/
theorem C68_delete_by_name (env : RegEnv V) (history : List (ApiCall V)) (name : Str) :
    let r := (Registry.init : Registry V).calls env history
    let after := r.call env (.delete [.name name])
    (after.2 = none ∧ r.lookup env name ≠ none ∧ after.1.lookup env name = none ∨
      after.2 = some .keyError ∧ r.lookup env name = none) ∧
    ∀ other, other ≠ name → after.1.lookup env other = r.lookup env other := by
  intro r after
  have h := C68_delete_handlers_frees_exactly_the_given env history [.name name]
  change Deletes (r.lookup env) _ (after.1.lookup env) after.2 at h
  revert h
  generalize after.1.lookup env = m'
  generalize after.2 = e
  intro h
  cases h with
  | name hm hrest =>
    cases hrest
    exact ⟨.inl ⟨rfl, (by rw [hm]; exact (fun h => nomatch h)), by simp [Map.put]⟩,
      fun o ho => by simp [Map.put, ho]⟩
  | noName hm => exact ⟨.inr ⟨rfl, hm⟩, fun _ _ => rfl⟩

/-- **C68, by object (partial).** If the handler object is registered under some name without dots,
the call frees one such name and nothing else.  Missing: objects registered only under dotted names,
for which the call raises `ValueError` (`C68_delete_by_object_fails`). -/
theorem C68_delete_by_object_partial (env : RegEnv V) (history : List (ApiCall V)) (h : V)
    (name : Str) (hdot : '.' ∉ name)
    (hreg : ((Registry.init : Registry V).calls env history).lookup env name = some h) :
    let r := (Registry.init : Registry V).calls env history
    let after := r.call env (.delete [.obj (some h)])
    after.2 = none ∧ ∃ freed, r.lookup env freed = some h ∧ after.1.lookup env freed = none ∧
      ∀ other, other ≠ freed → after.1.lookup env other = r.lookup env other := by
  intro r after
  have hd := C68_delete_handlers_frees_exactly_the_given env history [.obj (some h)]
  change Deletes (r.lookup env) _ (after.1.lookup env) after.2 at hd
  change r.lookup env name = some h at hreg
  revert hd
  generalize after.1.lookup env = m'
  generalize after.2 = e
  intro hd
  cases hd with
  | @object _ _ s _ _ _ _ hm hrest =>
    cases hrest
    exact ⟨rfl, s, hm, by simp [Map.put], fun o ho => by simp [Map.put, ho]⟩
  | noObject hno => exact absurd hreg (hno name hdot)

/-- **C68, an object that is not registered** (under no name at all): `ValueError`, nothing changes. -/
theorem C68_unknown_object_rejected (env : RegEnv V) (history : List (ApiCall V)) (h : V)
    (hno : ∀ name, ((Registry.init : Registry V).calls env history).lookup env name ≠ some h) :
    let r := (Registry.init : Registry V).calls env history
    let after := r.call env (.delete [.obj (some h)])
    after.2 = some .valueError ∧ after.1.lookup env = r.lookup env := by
  intro r after
  have hd := C68_delete_handlers_frees_exactly_the_given env history [.obj (some h)]
  change Deletes (r.lookup env) _ (after.1.lookup env) after.2 at hd
  change ∀ name, r.lookup env name ≠ some h at hno
  revert hd
  generalize after.1.lookup env = m'
  generalize after.2 = e
  intro hd
  cases hd with
  | @object _ _ s _ _ _ _ hm _ => exact absurd hm (hno s)
  | noObject _ => exact ⟨rfl, rfl⟩

/-- **C68 fails for nested names**: a handler registered as `a.b` is registered, but deleting it by
object raises `ValueError` and leaves it registered. -/
theorem C68_delete_by_object_fails :
    let r := (Registry.init : Registry Nat).calls exampleEnv
      [.add [.dict [(.str "a.b".toList, some 1)]] []]
    r.lookup exampleEnv "a.b".toList = some 1 ∧
    (r.call exampleEnv (.delete [.obj (some 1)])).2 = some .valueError ∧
    (r.call exampleEnv (.delete [.obj (some 1)])).1.lookup exampleEnv "a.b".toList = some 1 := by
  decide +kernel

example : -- the hypotheses of the theorems above are met
    let r := (Registry.init : Registry Nat).calls exampleEnv
      [.add [.obj (some 1), .dict [(.str "lol.kek".toList, some 2)]] [("x".toList, some 3)]]
    r.lookup exampleEnv "x".toList = some 3 ∧ '.' ∉ "x".toList ∧
    (r.call exampleEnv (.delete [.obj (some 3), .name "nope".toList, .name "lol.kek".toList])).2
      = some .keyError ∧
    (r.call exampleEnv (.delete [.obj (some 3), .name "nope".toList])).1.lookup exampleEnv
      "x".toList = none := by decide +kernel

example : ∀ name, ((Registry.init : Registry Nat).calls exampleEnv []).lookup exampleEnv name
    ≠ some 1 := by
  intro name
  rw [lookup_eq]
  split
  · have h0 : ((Registry.init : Registry Nat).calls exampleEnv []).tree.valAt (pathOf name) = none :=
      Tree.valAt_empty _
    rw [h0]
    exact fun h => nomatch h
  · exact fun h => nomatch h

/-! ### C69: the same handler twice -/

/-- **C69 (partial).** After any history, `config.add_handlers(h)` with an object that is already
registered under a name without dots raises `ValueError` and changes nothing, generated names
included.  Missing: registering it under an explicit name, and objects registered only under dotted
names (`C69_same_object_twice_fails`). -/
theorem C69_registered_object_rejected_partial (env : RegEnv V) (history : List (ApiCall V)) (h : V)
    (name : Str) (hdot : '.' ∉ name)
    (hreg : ((Registry.init : Registry V).calls env history).lookup env name = some h) :
    let r := (Registry.init : Registry V).calls env history
    r.call env (.add [.obj (some h)] []) = (r, some .valueError) := by
  intro r
  obtain ⟨hw, hn⟩ := Tree.reachable_inv (calls_reachable (V := V) env history)
  have hl := lookup_plain (r := r) hn hdot
  change r.lookup env name = some h at hreg
  rw [hreg] at hl
  have hmem : some h ∈ topValues r.tree.childs := by
    rw [mem_topValues hw]
    cases hg : r.tree.childs.get? name with
    | none => rw [hg] at hl; cases hl
    | some t =>
      rw [hg] at hl
      exact ⟨name, t, hg, hl.symm⟩
  simp [Registry.call, Registry.addHandlers, Registry.addArgs, Registry.addArg, hmem]

/-- **C69, an object that is not registered is never refused as a duplicate.** If no name holds the
object, it passes the handler check and the generator yields a valid dot-free name that is no node of
the tree yet (no handler is stored under it or below it, and it was never selected), the call succeeds
and exactly that name now holds it. -/
theorem C69_new_object_registered (env : RegEnv V) (history : List (ApiCall V)) (h : V)
    (hno : ∀ name, ((Registry.init : Registry V).calls env history).lookup env name ≠ some h)
    (hok : env.isHandler h = true) (name : Str) (hdot : '.' ∉ name) (hid : env.isId name = true)
    (hgen : env.pony ((Registry.init : Registry V).calls env history).ponies = .ok name)
    (hfree : ((Registry.init : Registry V).calls env history).tree.contains env.isId (.str name)
      = .ok false) :
    let r := (Registry.init : Registry V).calls env history
    (r.call env (.add [.obj (some h)] [])).2 = none ∧
    (r.call env (.add [.obj (some h)] [])).1.lookup env = Map.put (r.lookup env) name (some h) ∧
    (r.call env (.add [.obj (some h)] [])).1.ponies = r.ponies + 1 := by
  intro r
  obtain ⟨hw, hn⟩ := Tree.reachable_inv (calls_reachable (V := V) env history)
  change r.tree.contains env.isId (.str name) = .ok false at hfree
  change env.pony r.ponies = .ok name at hgen
  change ∀ name, r.lookup env name ≠ some h at hno
  change r.tree.WF at hw
  change r.tree.NamesOk env.isId at hn
  have hmem : some h ∉ topValues r.tree.childs := by
    rw [mem_topValues hw]
    rintro ⟨n, t, hg, hv⟩
    have hl := lookup_plain (r := r) hn (childs_get?_plain hn hg)
    rw [hg] at hl
    exact hno n (by rw [hl]; exact hv)
  have hk := validKey_plain hdot hid
  have hset : r.tree.setitem env.isId env.isHandler (.str name) (some h)
      = .ok (Tree.modifyAt (fun n => ⟨some h, n.childs⟩) (pathOf name) r.tree) := by
    simp [Tree.setitem_str, hk, hok]
  simp only [Registry.call, Registry.addHandlers, Registry.addArgs, Registry.addArg, hmem, if_false,
    hgen, Registry.setHandler, hfree, hset, Registry.addItems, List.map_nil, true_and, and_true]
  funext s
  simp only [lookup_eq, Map.put, Tree.valAt_modifyAt_set]
  by_cases hs : s = name
  · subst hs; simp [hk]
  · have : pathOf s ≠ pathOf name := fun e => hs (pathOf_inj e)
    simp [hs, this]

/-- **C69 fails in general**: an object already registered can be registered again under an explicit
name, and an object registered only as `a.b` can be registered again even without a name. -/
theorem C69_same_object_twice_fails :
    let r := (Registry.init : Registry Nat).calls exampleEnv
      [.add [] [("x".toList, some 1)], .add [] [("y".toList, some 1)]]
    let r' := (Registry.init : Registry Nat).calls exampleEnv
      [.add [.dict [(.str "a.b".toList, some 1)]] [], .add [.obj (some 1)] []]
    (r.lookup exampleEnv "x".toList = some 1 ∧ r.lookup exampleEnv "y".toList = some 1) ∧
    (r'.lookup exampleEnv "a.b".toList = some 1 ∧ r'.lookup exampleEnv "p".toList = some 1) := by
  decide +kernel

example : -- the hypotheses of C69_registered_object_rejected_partial
    ((Registry.init : Registry Nat).calls exampleEnv [.add [.obj (some 1)] []]).lookup exampleEnv
      "p".toList = some 1 ∧ '.' ∉ "p".toList := by decide +kernel

example : -- the other hypotheses of C69_new_object_registered, with an empty registry
    exampleEnv.isHandler 1 = true ∧ '.' ∉ "p".toList ∧ exampleEnv.isId "p".toList = true ∧
    exampleEnv.pony ((Registry.init : Registry Nat).calls exampleEnv []).ponies = .ok "p".toList ∧
    ((Registry.init : Registry Nat).calls exampleEnv []).tree.contains exampleEnv.isId
      (.str "p".toList) = .ok false := by
  refine ⟨rfl, by decide, by decide, rfl, ?_⟩
  decide +kernel

end Polog
