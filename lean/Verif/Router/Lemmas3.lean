import Verif.Router.Lemmas2
import Mathlib.Data.List.Induction

/-! The stacks of blocks of all tasks. -/

namespace Polog
open HandleSpec RouterSpec

theorem run_append (env : HEnv) : ∀ (a b : List CtxOp) (s : CtxState),
    CtxState.run env (a ++ b) s = CtxState.run env b (CtxState.run env a s)
  | [], _, _ => rfl
  | op :: a, b, s => by rw [List.cons_append, CtxState.run, CtxState.run, run_append env a b]

/-- The open blocks of a task. -/
def CtxState.stackOf (s : CtxState) (t : Nat) : List Nat :=
  match s.var t with
  | none => []
  | some l => s.lists l

/-- No list is shared, and none is empty. -/
structure CtxState.Sep (s : CtxState) : Prop where
  old : ∀ t l, s.var t = some l → l < s.nextList
  alone : ∀ t u l, s.var t = some l → s.var u = some l → t = u
  full : ∀ t l, s.var t = some l → s.lists l ≠ []

/-- This step does not share a list. -/
def OpSafe (s : CtxState) : CtxOp → Prop
  | .spawn t u => s.stackOf t = [] ∧ s.stackOf u = []
  | _ => True

def SpawnSafe (env : HEnv) : List CtxOp → CtxState → Prop
  | [], _ => True
  | op :: ops, s => OpSafe s op ∧ SpawnSafe env ops (s.step env op)

theorem spawnSafe_append {env : HEnv} : ∀ {a b : List CtxOp} {s : CtxState},
    SpawnSafe env (a ++ b) s ↔ SpawnSafe env a s ∧ SpawnSafe env b (CtxState.run env a s)
  | [], b, s => by simp [SpawnSafe, CtxState.run]
  | op :: a, b, s => by
    rw [List.cons_append, SpawnSafe, SpawnSafe, CtxState.run, spawnSafe_append, and_assoc]

theorem var_none_of_stack {s : CtxState} (h : s.Sep) {t : Nat} (ht : s.stackOf t = []) : s.var t = none := by
  unfold CtxState.stackOf at ht
  rcases Option.eq_none_or_eq_some (s.var t) with e | ⟨l, e⟩
  · exact e
  · rw [e] at ht; exact absurd ht (h.full t l e)

/-- What a step does to the open blocks. -/
def stackAfter (s : CtxState) (u : Nat) : CtxOp → List Nat
  | .enter t _ => if u = t then s.stackOf t ++ [s.nextFin] else s.stackOf u
  | .exit t _ => if u = t then (s.stackOf t).dropLast else s.stackOf u
  | _ => s.stackOf u

theorem step_stack (env : HEnv) {s : CtxState} (h : s.Sep) {op : CtxOp} (ho : OpSafe s op) :
    (s.step env op).Sep ∧ ∀ u, (s.step env op).stackOf u = stackAfter s u op := by
  cases op with
  | edit f args kwargs => exact ⟨⟨h.old, h.alone, h.full⟩, fun u => rfl⟩
  | suppress f excs => exact ⟨⟨h.old, h.alone, h.full⟩, fun u => rfl⟩
  | spawn t v =>
    have ht := var_none_of_stack h ho.1
    have hv := var_none_of_stack h ho.2
    have hvar : (s.step env (.spawn t v)).var = s.var := by
      funext k
      simp only [CtxState.step]
      split
      · rename_i e; rw [e, ht, hv]
      · rfl
    refine ⟨⟨?_, ?_, ?_⟩, fun u => ?_⟩
    · rw [hvar]; exact h.old
    · rw [hvar]; exact h.alone
    · rw [hvar]; exact h.full
    · unfold CtxState.stackOf stackAfter; rw [hvar]; rfl
  | enter t p =>
    rcases Option.eq_none_or_eq_some (s.var t) with e | ⟨l, e⟩
    · have hs : s.step env (.enter t p) =
        { fins := fun i => if i = s.nextFin then (p.prepare env (freshFin env)).1 else s.fins i
          nextFin := s.nextFin + 1
          var := fun u => if u = t then some s.nextList else s.var u
          lists := fun l => if l = s.nextList then [s.nextFin] else s.lists l
          nextList := s.nextList + 1
          done := s.done } := by
        simp only [CtxState.step, e]
      rw [hs]
      refine ⟨⟨?_, ?_, ?_⟩, ?_⟩
      · intro u l hu
        dsimp only at hu ⊢
        split at hu
        · cases hu; omega
        · have := h.old u l hu; omega
      · intro u v l hu hv
        dsimp only at hu hv
        split at hu
        · rename_i e1
          split at hv
          · rename_i e2; rw [e1, e2]
          · cases hu; have := h.old v _ hv; omega
        · split at hv
          · cases hv; have := h.old u _ hu; omega
          · exact h.alone u v l hu hv
      · intro u l hu
        dsimp only at hu ⊢
        split
        · simp
        · rename_i hl
          split at hu
          · cases hu; exact absurd rfl hl
          · exact h.full u l hu
      · intro u
        unfold CtxState.stackOf stackAfter
        dsimp only
        by_cases hu : u = t
        · subst hu
          rw [if_pos rfl, if_pos rfl]
          dsimp only
          rw [if_pos rfl]
          unfold CtxState.stackOf
          rw [e]; rfl
        · rw [if_neg hu, if_neg hu]
          unfold CtxState.stackOf
          rcases Option.eq_none_or_eq_some (s.var u) with e' | ⟨l', e'⟩
          · rw [e']
          · rw [e']
            dsimp only
            rw [if_neg (by have := h.old u l' e'; omega)]
    · have hs : s.step env (.enter t p) =
        { fins := fun i => if i = s.nextFin then (p.prepare env (freshFin env)).1 else s.fins i
          nextFin := s.nextFin + 1
          var := s.var
          lists := fun k => if k = l then s.lists l ++ [s.nextFin] else s.lists k
          nextList := s.nextList
          done := s.done } := by
        simp only [CtxState.step, e]
      rw [hs]
      refine ⟨⟨h.old, h.alone, ?_⟩, ?_⟩
      · intro u k hu
        dsimp only
        split
        · simp
        · exact h.full u k hu
      · intro u
        unfold CtxState.stackOf stackAfter
        dsimp only
        by_cases hu : u = t
        · subst hu
          unfold CtxState.stackOf
          rw [e, if_pos rfl]
          dsimp only
          rw [if_pos rfl]
        · rw [if_neg hu]
          unfold CtxState.stackOf
          rcases Option.eq_none_or_eq_some (s.var u) with e' | ⟨l', e'⟩
          · rw [e']
          · rw [e']
            dsimp only
            rw [if_neg (by rintro rfl; exact hu (h.alone u t _ e' e))]
  | exit t out =>
    rcases Option.eq_none_or_eq_some (s.var t) with e | ⟨l, e⟩
    · have hs : s.step env (.exit t out) = s := by simp only [CtxState.step, e]
      rw [hs]
      refine ⟨h, fun u => ?_⟩
      unfold stackAfter
      dsimp only
      by_cases hu : u = t
      · subst hu; rw [if_pos rfl]; unfold CtxState.stackOf; rw [e]; rfl
      · rw [if_neg hu]
    · obtain ⟨f, hf⟩ : ∃ f, (s.lists l).getLast? = some f := by
        rcases Option.eq_none_or_eq_some (s.lists l).getLast? with e' | h'
        · rw [List.getLast?_eq_none_iff] at e'; exact absurd e' (h.full t l e)
        · exact h'
      have hs : s.step env (.exit t out) =
        { s with
          lists := fun k => if k = l then (s.lists l).dropLast else s.lists k
          var := fun u => if u = t ∧ (s.lists l).dropLast = [] then none else s.var u
          done := s.done ++ [(f, out, s.fins f)] } := by
        simp only [CtxState.step, e, hf]
      rw [hs]
      refine ⟨⟨?_, ?_, ?_⟩, ?_⟩
      · intro u k hu
        dsimp only at hu
        split at hu
        · cases hu
        · exact h.old u k hu
      · intro u v k hu hv
        dsimp only at hu hv
        split at hu
        · cases hu
        · split at hv
          · cases hv
          · exact h.alone u v k hu hv
      · intro u k hu
        dsimp only at hu ⊢
        split at hu
        · cases hu
        · rename_i hn
          split
          · rename_i hk
            subst hk
            intro hd
            exact hn ⟨h.alone u t _ hu e, hd⟩
          · exact h.full u k hu
      · intro u
        unfold CtxState.stackOf stackAfter
        dsimp only
        by_cases hu : u = t
        · subst hu
          unfold CtxState.stackOf
          rw [if_pos rfl, e]
          by_cases hd : (s.lists l).dropLast = []
          · rw [if_pos ⟨rfl, hd⟩, hd]
          · rw [if_neg (fun h => hd h.2)]
            dsimp only
            rw [if_pos rfl]
        · rw [if_neg (fun h => hu h.1), if_neg hu]
          unfold CtxState.stackOf
          rcases Option.eq_none_or_eq_some (s.var u) with e' | ⟨l', e'⟩
          · rw [e']
          · rw [e']
            dsimp only
            rw [if_neg (by rintro rfl; exact hu (h.alone u t _ e' e))]

theorem run_sep {env : HEnv} : ∀ {ops : List CtxOp} {s : CtxState}, s.Sep → SpawnSafe env ops s →
    (CtxState.run env ops s).Sep
  | [], _, h, _ => h
  | op :: ops, s, h, hs => by
    rw [CtxState.run]
    exact run_sep (step_stack env h hs.1).1 hs.2

/-- Balanced steps leave the open blocks of the task as they were. -/
theorem balanced_stack {env : HEnv} {t : Nat} {ops : List CtxOp} (hb : Balanced env t ops) :
    ∀ {s : CtxState}, s.Sep → SpawnSafe env ops s → (CtxState.run env ops s).stackOf t = s.stackOf t := by
  induction hb with
  | nil => intro s _ _; rfl
  | other op ops hn _ ih =>
    intro s h hs
    obtain ⟨h1, h2⟩ := step_stack env h hs.1
    rw [CtxState.run, ih h1 hs.2, h2]
    cases op with
    | enter u p => exact if_neg (Ne.symm hn)
    | exit u out => exact if_neg (Ne.symm hn)
    | edit f args kwargs => rfl
    | suppress f excs => rfl
    | spawn u v => rfl
  | block p a out b _ _ _ iha ihb =>
    intro s h hs
    obtain ⟨h1, h2⟩ := step_stack env h hs.1
    obtain ⟨sa, sb⟩ := spawnSafe_append.1 hs.2
    have ha := iha h1 sa
    have hsepa := run_sep h1 sa
    obtain ⟨h3, h4⟩ := step_stack env hsepa sb.1
    rw [CtxState.run, run_append, CtxState.run, ihb h3 sb.2, h4]
    unfold stackAfter
    dsimp only
    rw [if_pos rfl, ha, h2]
    unfold stackAfter
    dsimp only
    rw [if_pos rfl, List.dropLast_concat]

theorem init_sep (env : HEnv) : (CtxState.init env).Sep :=
  ⟨fun _ _ h => (nomatch h), fun _ _ _ h => (nomatch h), fun _ _ h => (nomatch h)⟩

/-- Tasks made outside of blocks share no list. -/
theorem spawnSafe_of {env : HEnv} : ∀ (ops : List CtxOp), SpawnsOutside env ops →
    SpawnSafe env ops (CtxState.init env) := by
  intro ops
  induction ops using List.reverseRecOn with
  | nil => intro _; trivial
  | append_singleton ops op ih =>
    intro h
    have hs : SpawnSafe env ops (CtxState.init env) :=
      ih fun pre t u post e => h pre t u (post ++ [op]) (by rw [e]; simp)
    refine spawnSafe_append.2 ⟨hs, ?_, trivial⟩
    cases op with
    | spawn t u =>
      obtain ⟨h1, h2⟩ := h ops t u [] rfl
      exact ⟨balanced_stack h1 (init_sep env) hs, balanced_stack h2 (init_sep env) hs⟩
    | enter u p => trivial
    | exit u out => trivial
    | edit f args kwargs => trivial
    | suppress f excs => trivial

/-! ### the objects of the blocks -/

theorem step_nextFin (env : HEnv) (s : CtxState) (op : CtxOp) :
    (s.step env op).nextFin = s.nextFin + begun [op] := by
  cases op with
  | enter t p =>
    simp only [CtxState.step]
    cases s.var t <;> rfl
  | exit t out =>
    simp only [CtxState.step]
    cases s.var t with
    | none => rfl
    | some l => dsimp only; cases (s.lists l).getLast? <;> rfl
  | edit f args kwargs => rfl
  | suppress f excs => rfl
  | spawn t u => rfl

theorem begun_cons (op : CtxOp) (ops : List CtxOp) : begun (op :: ops) = begun [op] + begun ops := by
  cases op <;> simp [begun, Nat.add_comm]

theorem run_nextFin (env : HEnv) : ∀ (ops : List CtxOp) (s : CtxState),
    (CtxState.run env ops s).nextFin = s.nextFin + begun ops
  | [], _ => rfl
  | op :: ops, s => by rw [CtxState.run, run_nextFin env ops, step_nextFin, begun_cons op ops, Nat.add_assoc]

/-- An object inside a block. -/
structure Fin.In (f : Fin) (d : Dict Str HVal) (sups : List (List SuppressArg)) : Prop where
  has : f.Has d sups
  entered : f.entered = true

theorem run_fin {env : HEnv} {n : Nat} : ∀ (ops : List CtxOp) (s : CtxState) {d sups}, n < s.nextFin →
    (s.fins n).In d sups →
    ((CtxState.run env ops s).fins n).In (fieldsAfter env n d ops) (sups ++ suppressAfter env n ops)
  | [], s, d, sups, _, h => by simpa [fieldsAfter, suppressAfter, CtxState.run] using h
  | op :: ops, s, d, sups, hn, h => by
    have hn' : n < (s.step env op).nextFin := by rw [step_nextFin]; omega
    rw [CtxState.run]
    cases op with
    | enter t p =>
      have e : (s.step env (.enter t p)).fins n = s.fins n := by
        simp only [CtxState.step]
        cases s.var t <;> exact if_neg (by omega)
      exact run_fin ops _ hn' (by rw [e]; exact h)
    | exit t out =>
      have e : (s.step env (.exit t out)).fins n = s.fins n := by
        simp only [CtxState.step]
        cases s.var t with
        | none => rfl
        | some l => dsimp only; cases (s.lists l).getLast? <;> rfl
      exact run_fin ops _ hn' (by rw [e]; exact h)
    | spawn t u => exact run_fin ops _ hn' h
    | edit f args kwargs =>
      by_cases hf : f = n
      · subst hf
        have e : (s.step env (.edit f args kwargs)).fins f = ((s.fins f).call env args kwargs).1 := if_pos rfl
        rw [call_entered h.entered] at e
        rw [fieldsAfter, suppressAfter, if_pos rfl]
        rcases Option.eq_none_or_eq_some (editOf env args kwargs) with hx | ⟨new, hx⟩
        · rw [hx] at e ⊢
          exact run_fin ops _ hn' (by rw [e]; exact h)
        · rw [hx] at e ⊢
          refine run_fin ops _ hn' ?_
          rw [e]
          exact ⟨⟨by dsimp only; rw [h.has.data], h.has.all, h.has.classes⟩, h.entered⟩
        all_goals intro m excs hh; cases hh
      · have e : (s.step env (.edit f args kwargs)).fins n = s.fins n := if_neg (Ne.symm hf)
        rw [fieldsAfter, suppressAfter, if_neg hf]
        · exact run_fin ops _ hn' (by rw [e]; exact h)
        all_goals intro m excs hh; cases hh
    | suppress f excs =>
      rw [fieldsAfter, suppressAfter]
      · by_cases hf : f = n
        · subst hf
          have e : (s.step env (.suppress f excs)).fins f = ((s.fins f).suppress env excs).1 := if_pos rfl
          by_cases hl : env.silent = true ∨ SuppressArg.wrong ∉ excs
          · rw [if_pos ⟨rfl, hl⟩]
            have h' := h.has.suppress hl
            have he : ((s.fins f).suppress env excs).1.entered = true := by
              rw [suppress_ok _ hl]; exact h.entered
            have := run_fin (env := env) ops _ hn' (d := d) (sups := sups ++ [excs]) (by rw [e]; exact ⟨h', he⟩)
            rw [List.append_assoc] at this
            exact this
          · rw [if_neg (fun h => hl h.2)]
            rw [suppress_error _ hl] at e
            exact run_fin ops _ hn' (by rw [e]; exact h)
        · have e : (s.step env (.suppress f excs)).fins n = s.fins n := if_neg (Ne.symm hf)
          rw [if_neg (fun h => hf h.1)]
          exact run_fin ops _ hn' (by rw [e]; exact h)
      all_goals intros; rename_i hh; cases hh

end Polog
