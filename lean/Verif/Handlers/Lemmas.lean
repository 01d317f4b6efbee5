import Verif.Handlers.Model
import Verif.Tree.Props

/-! Helper lemmas for the handler registry. -/

namespace Polog
open TreeSpec

variable {V : Type}

theorem Tree.run_append (isId : Str → Bool) (okValue : V → Bool) (a b : List (Op V)) :
    ∀ t : Tree V, (Tree.run isId okValue t (a ++ b)).1
      = (Tree.run isId okValue (Tree.run isId okValue t a).1 b).1 := by
  induction a with
  | nil => intro t; rfl
  | cons x xs ih => intro t; simp [Tree.run, ih]

/-- `t'` is reached from `t` by some operations of the tree interface. -/
def Steps (env : RegEnv V) (t t' : Tree V) : Prop :=
  ∃ ops : List (Op V), (Tree.run env.isId env.isHandler t ops).1 = t'

theorem Steps.refl (env : RegEnv V) (t : Tree V) : Steps env t t := ⟨[], rfl⟩

theorem Steps.trans {env : RegEnv V} {a b c : Tree V} (h1 : Steps env a b) (h2 : Steps env b c) :
    Steps env a c := by
  obtain ⟨o1, rfl⟩ := h1
  obtain ⟨o2, rfl⟩ := h2
  exact ⟨o1 ++ o2, Tree.run_append _ _ _ _ _⟩

theorem Steps.set {env : RegEnv V} {t t' : Tree V} {k : Key} {v : Option V}
    (h : t.setitem env.isId env.isHandler k v = .ok t') : Steps env t t' :=
  ⟨[.set k v], by simp [Tree.run, Tree.step, h]⟩

theorem Steps.del {env : RegEnv V} {t t' : Tree V} {k : Key}
    (h : t.delitem env.isId k = .ok t') : Steps env t t' :=
  ⟨[.del k], by simp [Tree.run, Tree.step, h]⟩

theorem Steps.select {env : RegEnv V} {t t' : Tree V} {k : Key}
    (h : t.touch env.isId k = .ok t') : Steps env t t' :=
  ⟨[.select k], by simp [Tree.run, Tree.step, h]⟩

theorem setHandler_steps (env : RegEnv V) (r : Registry V) (k : Key) (h : Option V) :
    Steps env r.tree (r.setHandler env k h).1.tree := by
  unfold Registry.setHandler
  split
  · exact Steps.refl _ _
  · exact Steps.refl _ _
  · split
    · exact Steps.refl _ _
    · rename_i heq; exact Steps.set heq

theorem addItems_steps (env : RegEnv V) (items : List (Key × Option V)) : ∀ r : Registry V,
    Steps env r.tree (r.addItems env items).1.tree := by
  induction items with
  | nil => intro r; exact Steps.refl _ _
  | cons x xs ih =>
    intro r
    obtain ⟨k, v⟩ := x
    cases k with
    | other => exact Steps.refl _ _
    | str s =>
      simp only [Registry.addItems]
      have h := setHandler_steps env r (.str s) v
      split
      · rename_i r' e heq; rw [heq] at h; exact h
      · rename_i r' heq; rw [heq] at h; exact h.trans (ih r')

theorem addArg_steps [DecidableEq V] (env : RegEnv V) (r : Registry V) (a : AddArg V) :
    Steps env r.tree (r.addArg env a).1.tree := by
  cases a with
  | dict items => exact addItems_steps env items r
  | obj h =>
    simp only [Registry.addArg]
    split
    · exact Steps.refl _ _
    · split
      · exact Steps.refl _ _
      · exact setHandler_steps env { r with ponies := r.ponies + 1 } _ h

theorem addArgs_steps [DecidableEq V] (env : RegEnv V) (args : List (AddArg V)) : ∀ r : Registry V,
    Steps env r.tree (r.addArgs env args).1.tree := by
  induction args with
  | nil => intro r; exact Steps.refl _ _
  | cons a as ih =>
    intro r
    simp only [Registry.addArgs]
    have h := addArg_steps env r a
    split
    · rename_i r' e heq; rw [heq] at h; exact h
    · rename_i r' heq; rw [heq] at h; exact h.trans (ih r')

theorem addHandlers_steps [DecidableEq V] (env : RegEnv V) (r : Registry V) (args : List (AddArg V))
    (kwargs : List (Str × Option V)) : Steps env r.tree (r.addHandlers env args kwargs).1.tree := by
  unfold Registry.addHandlers
  have h := addArgs_steps env args r
  split
  · rename_i r' e heq; rw [heq] at h; exact h
  · rename_i r' heq; rw [heq] at h; exact h.trans (addItems_steps env _ r')

theorem delOne_steps [DecidableEq V] (env : RegEnv V) (r : Registry V) (a : DelArg V) :
    Steps env r.tree (r.delOne env a).1.tree := by
  cases a with
  | name s =>
    simp only [Registry.delOne]
    split
    · exact Steps.refl _ _
    · rename_i heq; exact Steps.del heq
  | obj h =>
    simp only [Registry.delOne]
    split
    · exact Steps.refl _ _
    · split
      · exact Steps.refl _ _
      · rename_i heq; exact Steps.del heq

theorem deleteHandlers_steps [DecidableEq V] (env : RegEnv V) (args : List (DelArg V)) :
    ∀ r : Registry V, Steps env r.tree (r.deleteHandlers env args).1.tree := by
  induction args with
  | nil => intro r; exact Steps.refl _ _
  | cons a as ih =>
    intro r
    simp only [Registry.deleteHandlers]
    have h := delOne_steps env r a
    split
    · rename_i r' e heq; rw [heq] at h; exact h
    · rename_i r' heq; rw [heq] at h; exact h.trans (ih r')

theorem getHandlers_steps (env : RegEnv V) (names : List Key) : ∀ r : Registry V,
    Steps env r.tree (r.getHandlers env names).1.tree := by
  induction names with
  | nil => intro r; exact Steps.refl _ _
  | cons k ks ih =>
    intro r
    simp only [Registry.getHandlers]
    split
    · exact Steps.refl _ _
    · rename_i t heq
      exact (Steps.select heq).trans (ih { r with tree := t })

theorem call_steps [DecidableEq V] (env : RegEnv V) (r : Registry V) (c : ApiCall V) :
    Steps env r.tree (r.call env c).1.tree := by
  cases c with
  | add args kwargs => exact addHandlers_steps env r args kwargs
  | delete args => exact deleteHandlers_steps env args r
  | select names => exact getHandlers_steps env names r

theorem calls_steps [DecidableEq V] (env : RegEnv V) (cs : List (ApiCall V)) : ∀ r : Registry V,
    Steps env r.tree (r.calls env cs).tree := by
  induction cs with
  | nil => intro r; exact Steps.refl _ _
  | cons c cs ih => intro r; exact (call_steps env r c).trans (ih _)

theorem calls_reachable [DecidableEq V] (env : RegEnv V) (cs : List (ApiCall V)) :
    Tree.Reachable env.isId env.isHandler ((Registry.init : Registry V).calls env cs).tree := by
  obtain ⟨ops, h⟩ := calls_steps env cs Registry.init
  exact ⟨ops, h⟩

theorem lookup_eq (env : RegEnv V) (r : Registry V) (s : Str) :
    r.lookup env s = if validKey env.isId s then r.tree.valAt (pathOf s) else none := by
  unfold Registry.lookup
  rw [Tree.getitem_str]
  by_cases hv : validKey env.isId s = true
  · simp only [hv, ↓reduceIte]
    cases r.tree.valAt (pathOf s) <;> rfl
  · simp only [hv, Bool.false_eq_true, ↓reduceIte]

theorem setHandler_cases (env : RegEnv V) (r : Registry V) (k : Str) (h : Option V) :
    (∃ e, r.setHandler env (.str k) h = (r, some e)) ∨
    (∃ v, h = some v ∧ env.isHandler v = true ∧ validKey env.isId k = true ∧
      (r.tree.walk (pathOf k)).isSome = false ∧
      r.setHandler env (.str k) h =
        ({ r with tree := Tree.modifyAt (fun n => ⟨some v, n.childs⟩) (pathOf k) r.tree }, none)) := by
  unfold Registry.setHandler
  rw [Tree.contains_str]
  by_cases hv : validKey env.isId k = true
  · rw [if_pos hv]
    cases hw : (r.tree.walk (pathOf k)).isSome with
    | true => exact .inl ⟨_, rfl⟩
    | false =>
      cases h with
      | none => exact .inl ⟨_, rfl⟩
      | some v =>
        simp only [Tree.setitem_str, hv, ↓reduceIte]
        by_cases hh : env.isHandler v = true
        · simp only [hh, ↓reduceIte]
          exact .inr ⟨v, rfl, hh, trivial, trivial, rfl⟩
        · simp only [hh, ↓reduceIte, Bool.false_eq_true]
          exact .inl ⟨_, rfl⟩
  · rw [if_neg hv]
    exact .inl ⟨_, rfl⟩

/-- Registered handlers stay. -/
def Keeps (env : RegEnv V) (r r' : Registry V) : Prop :=
  ∀ s v, r.lookup env s = some v → r'.lookup env s = some v

theorem Keeps.trans {env : RegEnv V} {a b c : Registry V} (h1 : Keeps env a b) (h2 : Keeps env b c) :
    Keeps env a c := fun s v h => h2 s v (h1 s v h)

theorem setHandler_keeps (env : RegEnv V) (r : Registry V) (k : Str) (h : Option V) :
    Keeps env r (r.setHandler env (.str k) h).1 := by
  rcases setHandler_cases env r k h with ⟨e, he⟩ | ⟨v, rfl, _, hvk, hw, he⟩
  · rw [he]; exact fun s v h => h
  · rw [he]
    intro s w hs
    rw [lookup_eq] at hs ⊢
    split at hs
    · rename_i hvs
      simp only [hvs, ↓reduceIte, Tree.valAt_modifyAt_set]
      split
      · rename_i hp
        rw [hp] at hs
        unfold Tree.valAt at hs
        cases hx : r.tree.walk (pathOf k) with
        | none => simp [hx] at hs
        | some n => simp [hx] at hw
      · exact hs
    · cases hs

theorem addItems_keeps (env : RegEnv V) (items : List (Key × Option V)) : ∀ r : Registry V,
    Keeps env r (r.addItems env items).1 := by
  induction items with
  | nil => intro r; exact fun s v h => h
  | cons x xs ih =>
    intro r
    obtain ⟨k, v⟩ := x
    cases k with
    | other => exact fun s v h => h
    | str s =>
      simp only [Registry.addItems]
      have h := setHandler_keeps env r s v
      split
      · rename_i r' e heq; rw [heq] at h; exact h
      · rename_i r' heq; rw [heq] at h; exact h.trans (ih r')

theorem addArg_keeps [DecidableEq V] (env : RegEnv V) (r : Registry V) (a : AddArg V) :
    Keeps env r (r.addArg env a).1 := by
  cases a with
  | dict items => exact addItems_keeps env items r
  | obj h =>
    simp only [Registry.addArg]
    split
    · exact fun s v h => h
    · split
      · exact fun s v h => h
      · exact setHandler_keeps env { r with ponies := r.ponies + 1 } _ h

theorem addArgs_keeps [DecidableEq V] (env : RegEnv V) (args : List (AddArg V)) : ∀ r : Registry V,
    Keeps env r (r.addArgs env args).1 := by
  induction args with
  | nil => intro r; exact fun s v h => h
  | cons a as ih =>
    intro r
    simp only [Registry.addArgs]
    have h := addArg_keeps env r a
    split
    · rename_i r' e heq; rw [heq] at h; exact h
    · rename_i r' heq; rw [heq] at h; exact h.trans (ih r')

end Polog
