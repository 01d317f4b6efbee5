import Verif.Router.Lemmas

/-! From the arguments of `log(...)` to the object just before the end of the block; the life of the object. -/

namespace Polog
open HandleSpec RouterSpec

theorem convertArgs_eq (env : HEnv) (args : List HVal) (kwargs : Dict Str HVal) :
    convertArgs env args kwargs =
      match editOf env args kwargs with
      | some d => .ok d
      | none => .error .incorrectUse := by
  unfold convertArgs editOf
  split
  · rfl
  · rename_i s
    rcases Option.eq_none_or_eq_some (Dict.get? "message".toList kwargs) with h | ⟨v, h⟩
    · rw [h]; simp
    · rw [h]
      dsimp only
      by_cases e : v = .str s
      · subst e
        rw [if_neg (by rw [Bool.not_eq_true, Bool.not_eq_false', HVal.pyEq_str]), if_pos (Or.inr (Or.inr rfl))]
      · have hne : ((HVal.str s).pyEq v) = false := by
          cases v <;> simp_all [HVal.pyEq]
          rename_i s'
          rw [eq_comm]; exact e
        rw [hne]
        unfold maybeRaise
        cases hs : env.silent with
        | true => simp
        | false => simp [e]
  · split <;> simp_all

theorem editOf_named {env : HEnv} {args : List HVal} {kwargs d : Dict Str HVal}
    (h : editOf env args kwargs = some d) : d = named args kwargs := by
  unfold editOf at h
  split at h
  · cases h; rfl
  · split at h
    · cases h; rfl
    · cases h
  · cases h

theorem routerCall_finalizer {env : HEnv} {args : List HVal} {kwargs : Dict Str HVal} {f : Fin}
    (h : routerCall env args kwargs = .finalizer f) :
    f = ⟨false, false, true, named args kwargs, args, kwargs, false, []⟩ ∧
      (args = [] ∨ ∃ s, args = [.str s]) ∧ (editOf env args kwargs).isSome = true := by
  unfold routerCall at h
  have key : ∀ {args}, (args = [] ∨ ∃ s, args = [.str s]) →
      (match Fin.create env args kwargs with | .ok f => Routed.finalizer f | .error e => .raised e) = .finalizer f →
      f = ⟨false, false, true, named args kwargs, args, kwargs, false, []⟩ ∧
      (args = [] ∨ ∃ s, args = [.str s]) ∧ (editOf env args kwargs).isSome = true := by
    intro args hargs h
    unfold Fin.create at h
    rw [convertArgs_eq] at h
    rcases Option.eq_none_or_eq_some (editOf env args kwargs) with e | ⟨d, e⟩
    · rw [e] at h; cases h
    · rw [e] at h
      dsimp only at h
      injection h with h
      refine ⟨?_, hargs, by rw [e]; rfl⟩
      rw [← h, editOf_named e]
  split at h
  · exact key (Or.inl rfl) h
  · split at h
    · rename_i s; exact key (Or.inr ⟨s, rfl⟩) h
    · split at h
      · cases h
      · split at h <;> cases h
  · cases h

theorem routerCall_ok {env : HEnv} {args : List HVal} {kwargs : Dict Str HVal}
    (h : (editOf env args kwargs).isSome = true) :
    routerCall env args kwargs = .finalizer ⟨false, false, true, named args kwargs, args, kwargs, false, []⟩ := by
  obtain ⟨d, e⟩ := Option.isSome_iff_exists.1 h
  have hd := editOf_named e
  unfold routerCall
  have hargs : args = [] ∨ ∃ s, args = [.str s] := by
    unfold editOf at e
    split at e
    · exact Or.inl rfl
    · rename_i s; exact Or.inr ⟨s, rfl⟩
    · cases e
  rcases hargs with rfl | ⟨s, rfl⟩
  · dsimp only [Fin.create]; rw [convertArgs_eq, e, hd]
  · dsimp only [Fin.create]; rw [convertArgs_eq, e, hd]

theorem suppresses_has {env : HEnv} : ∀ {sups : List (List SuppressArg)} {f g : Fin} {d done},
    f.Has d done → f.suppresses env sups = .ok g →
      g.Has d (done ++ sups) ∧ g.used = f.used ∧ g.entered = f.entered ∧ g.armed = f.armed
  | [], f, g, d, done, h, e => by
    simp only [Fin.suppresses] at e
    cases e
    exact ⟨by rwa [List.append_nil], rfl, rfl, rfl⟩
  | l :: sups, f, g, d, done, h, e => by
    simp only [Fin.suppresses] at e
    by_cases hl : env.silent = true ∨ SuppressArg.wrong ∉ l
    · have h' := h.suppress hl
      rw [suppress_ok f hl] at e h'
      dsimp only at e h'
      obtain ⟨a, b, c, c'⟩ := suppresses_has h' e
      exact ⟨by rw [List.append_assoc] at a; exact a, b, c, c'⟩
    · rw [suppress_error f hl] at e; cases e

theorem suppresses_ok {env : HEnv} : ∀ {sups : List (List SuppressArg)} (f : Fin),
    (∀ l ∈ sups, env.silent = true ∨ SuppressArg.wrong ∉ l) → ∃ g, f.suppresses env sups = .ok g
  | [], f, _ => ⟨f, rfl⟩
  | l :: sups, f, h => by
    simp only [Fin.suppresses]
    rw [suppress_ok f (h l List.mem_cons_self)]
    exact suppresses_ok _ fun l' hl' => h l' (List.mem_cons_of_mem _ hl')

theorem call_entered {env : HEnv} {f : Fin} (he : f.entered = true) (args : List HVal) (kwargs : Dict Str HVal) :
    f.call env args kwargs =
      match editOf env args kwargs with
      | some d => ({ f with data := Dict.update f.data d }, none, none)
      | none => (f, some .incorrectUse, none) := by
  unfold Fin.call
  rw [if_pos he]
  unfold Fin.rewrite
  rw [convertArgs_eq]
  cases editOf env args kwargs <;> rfl

theorem edits_has {env : HEnv} : ∀ {edits : List (List HVal × Dict Str HVal)} {f g : Fin} {d sups},
    f.Has d sups → f.entered = true → f.edits env edits = .ok g →
      g.Has (edits.foldl (fun d e => Dict.update d (named e.1 e.2)) d) sups ∧ g.entered = true ∧ g.armed = f.armed
  | [], f, g, d, sups, h, he, e => by
    simp only [Fin.edits] at e; cases e; exact ⟨h, he, rfl⟩
  | x :: edits, f, g, d, sups, h, he, e => by
    simp only [Fin.edits] at e
    rw [call_entered he] at e
    rcases Option.eq_none_or_eq_some (editOf env x.1 x.2) with hx | ⟨new, hx⟩
    · rw [hx] at e; cases e
    · rw [hx] at e
      dsimp only at e
      have hn := editOf_named hx
      have h' : ({ f with data := Dict.update f.data new } : Fin).Has (Dict.update d (named x.1 x.2)) sups :=
        ⟨by dsimp only; rw [h.data, hn], h.all, h.classes⟩
      rw [List.foldl_cons]
      exact edits_has (f := { f with data := Dict.update f.data new }) h' he e

theorem edits_ok {env : HEnv} : ∀ {edits : List (List HVal × Dict Str HVal)} (f : Fin), f.entered = true →
    (∀ e ∈ edits, (editOf env e.1 e.2).isSome = true) → ∃ g, f.edits env edits = .ok g
  | [], f, _, _ => ⟨f, rfl⟩
  | x :: edits, f, he, h => by
    simp only [Fin.edits]
    rw [call_entered he]
    obtain ⟨new, hx⟩ := Option.isSome_iff_exists.1 (h x List.mem_cons_self)
    rw [hx]
    dsimp only
    exact edits_ok _ he fun e he' => h e (List.mem_cons_of_mem _ he')

/-- The object inside the block. -/
def Fin.inside (env : HEnv) (f : Fin) : Fin :=
  { used := true, entered := true, armed := false, data := Dict.set "time".toList env.now f.data,
    args := f.args, kwargs := f.kwargs, suppressAll := f.suppressAll, suppressed := f.suppressed }

theorem enter_fresh {env : HEnv} {f : Fin} (hu : f.used = false) (he : f.entered = false) :
    f.enter env = (f.inside env, none) := by
  unfold Fin.enter Fin.inside; rw [hu, he]; rfl

theorem openBlock_has {env : HEnv} {args : List HVal} {kwargs : Dict Str HVal} {sups : List (List SuppressArg)}
    {edits : List (List HVal × Dict Str HVal)} {f : Fin} (h : openBlock env args kwargs sups edits = .ok f) :
    f.Has (asked env args kwargs edits) sups ∧ f.entered = true ∧ f.armed = false := by
  unfold openBlock at h
  split at h
  · cases h
  · cases h
  · rename_i f0 h0
    obtain ⟨e0, _, _⟩ := routerCall_finalizer h0
    split at h
    · cases h
    · rename_i f1 h1
      have hf0 : f0.Has (named args kwargs) [] := by
        rw [e0]; exact ⟨rfl, by simp, rfl⟩
      obtain ⟨a1, a2, a3, _⟩ := suppresses_has hf0 h1
      rw [List.nil_append] at a1
      have hu : f1.used = false := by rw [a2, e0]
      have hen : f1.entered = false := by rw [a3, e0]
      have henter := enter_fresh (env := env) hu hen
      rw [henter] at h
      dsimp only at h
      have h2 : (f1.inside env).Has (Dict.set "time".toList env.now (named args kwargs)) sups :=
        ⟨by unfold Fin.inside; dsimp only; rw [a1.data], a1.all, a1.classes⟩
      exact edits_has h2 rfl h

theorem openBlock_ok {env : HEnv} {args : List HVal} {kwargs : Dict Str HVal} {sups : List (List SuppressArg)}
    {edits : List (List HVal × Dict Str HVal)} (ha : (editOf env args kwargs).isSome = true)
    (hs : ∀ l ∈ sups, env.silent = true ∨ SuppressArg.wrong ∉ l)
    (he : ∀ e ∈ edits, (editOf env e.1 e.2).isSome = true) :
    ∃ f, openBlock env args kwargs sups edits = .ok f := by
  unfold openBlock
  rw [routerCall_ok ha]
  dsimp only
  obtain ⟨g, hg⟩ := suppresses_ok (env := env)
    ⟨false, false, true, named args kwargs, args, kwargs, false, []⟩ hs
  rw [hg]
  have hf0 : (⟨false, false, true, named args kwargs, args, kwargs, false, []⟩ : Fin).Has (named args kwargs) [] :=
    ⟨rfl, by simp, rfl⟩
  obtain ⟨_, a2, a3, _⟩ := suppresses_has hf0 hg
  dsimp only at a2 a3 ⊢
  have henter := enter_fresh (env := env) a2 a3
  rw [henter]
  exact edits_ok _ rfl he

/-! ### blocks without brackets -/

theorem prepare_eq {env : HEnv} {p : Partial} (hp : Begins env p) :
    p.prepare env (freshFin env) =
      (⟨true, true, false, firstFields env p, [], [], decide (p.before = some []), (p.before.map excClasses).getD []⟩,
        none) := by
  unfold Partial.prepare
  rw [call_entered rfl]
  have h1 : editOf env [] p.kwargs = some p.kwargs := rfl
  rw [h1]
  dsimp only
  rcases Option.eq_none_or_eq_some p.before with hb | ⟨excs, hb⟩
  · rw [hb]; rfl
  · rw [hb]
    dsimp only
    rw [suppress_ok _ (hp.imp id fun h => h excs hb)]
    simp [freshFin, firstFields]

theorem prepared_has {env : HEnv} {p : Partial} :
    Fin.Has ⟨true, true, false, firstFields env p, [], [], decide (p.before = some []),
      (p.before.map excClasses).getD []⟩ (firstFields env p) p.before.toList := by
  refine ⟨rfl, ?_, ?_⟩
  · cases p.before <;> simp [eq_comm]
  · cases p.before <;> simp

theorem partialEnter_eq {env : HEnv} {p : Partial} (hp : Begins env p) :
    p.enter env = .ok ⟨true, true, false, firstFields env p, [], [], decide (p.before = some []),
      (p.before.map excClasses).getD []⟩ := by
  have h : p.enter env = match p.prepare env (freshFin env) with
    | (_, some e) => .error e
    | (f, none) => .ok f := rfl
  rw [h, prepare_eq hp]

/-! ### the life of the object returned by `log(...)` -/

/-- Before any use it is armed and not used; afterwards used and not armed. -/
def Fin.LifeInv (f : Fin) : Prop := f.armed = !f.used ∧ (f.entered = true → f.used = true)

theorem life_step (env : CEnv) (f : Fin) (op : FinOp) (h : f.LifeInv) :
    (f.op env op).1.LifeInv ∧
    (f.used = true → (f.op env op).1.used = true ∧ (f.op env op).2.2 = none) ∧
    (f.used = false → (f.op env op).1.used = false → (f.op env op).2.2 = none) ∧
    (f.used = false → (f.op env op).1.used = true → (f.op env op).2.2.isSome = true ∨ (f.op env op).2.1.isSome = true) := by
  obtain ⟨used, entered, armed, data, args0, kwargs0, sa, sl⟩ := f
  obtain ⟨h1, h2⟩ := h
  dsimp only at h1 h2
  subst h1
  cases op with
  | exit out => exact ⟨⟨rfl, h2⟩, fun hu => ⟨hu, rfl⟩, fun hu _ => rfl, fun hu hu' => by
      change used = true at hu'; change used = false at hu; rw [hu] at hu'; cases hu'⟩
  | suppress excs =>
    unfold Fin.op
    dsimp only
    by_cases hl : env.h.silent = true ∨ SuppressArg.wrong ∉ excs
    · rw [suppress_ok _ hl]
      exact ⟨⟨rfl, h2⟩, fun hu => ⟨hu, rfl⟩, fun hu _ => rfl, fun hu hu' => by
        dsimp only at hu hu'; rw [hu] at hu'; cases hu'⟩
    · rw [suppress_error _ hl]
      exact ⟨⟨rfl, h2⟩, fun hu => ⟨hu, rfl⟩, fun hu _ => rfl, fun _ _ => Or.inr rfl⟩
  | enter =>
    unfold Fin.op Fin.enter
    cases used with
    | true => exact ⟨⟨rfl, h2⟩, fun hu => ⟨hu, rfl⟩, fun hu _ => rfl, fun _ _ => Or.inr rfl⟩
    | false =>
      cases entered with
      | true => exact absurd (h2 rfl) (by decide)
      | false => exact ⟨⟨rfl, fun _ => rfl⟩, fun hu => (by cases hu), fun _ hu => (by cases hu), fun _ _ => Or.inl rfl⟩
  | call args kwargs =>
    unfold Fin.op
    dsimp only
    cases entered with
    | true =>
      have hu : used = true := h2 rfl
      rw [call_entered rfl]
      subst hu
      cases editOf env.h args kwargs with
      | none => exact ⟨⟨rfl, h2⟩, fun hu => ⟨hu, rfl⟩, fun hu _ => rfl, fun _ _ => Or.inr rfl⟩
      | some d => exact ⟨⟨rfl, h2⟩, fun hu => ⟨hu, rfl⟩, fun hu _ => rfl, fun hu _ => by cases hu⟩
    | false =>
      unfold Fin.call
      rw [if_neg (fun h => nomatch h)]
      split
      · exact ⟨⟨rfl, h2⟩, fun hu => ⟨hu, rfl⟩, fun hu _ => rfl, fun _ _ => Or.inr rfl⟩
      · split
        · exact ⟨⟨rfl, h2⟩, fun hu => ⟨hu, rfl⟩, fun hu _ => rfl, fun _ _ => Or.inr rfl⟩
        · cases used with
          | true => exact ⟨⟨rfl, h2⟩, fun hu => ⟨hu, rfl⟩, fun hu _ => rfl, fun _ _ => Or.inr rfl⟩
          | false =>
            rw [if_neg (fun h => nomatch h)]
            dsimp only
            split
            · exact ⟨⟨rfl, fun _ => rfl⟩, fun hu => (by cases hu), fun _ hu => (by cases hu), fun _ _ => Or.inl rfl⟩
            · split
              · exact ⟨⟨rfl, fun _ => rfl⟩, fun hu => (by cases hu), fun _ hu => (by cases hu), fun _ _ => Or.inl rfl⟩
              · exact ⟨⟨rfl, fun _ => rfl⟩, fun hu => (by cases hu), fun _ hu => (by cases hu), fun _ _ => Or.inr rfl⟩

theorem life_used {env : CEnv} : ∀ (ops : List FinOp) (f : Fin), f.LifeInv → f.used = true → (f.life env ops).1 = []
  | [], f, h, hu => by
    unfold Fin.life Fin.drop
    rw [h.1, hu]; rfl
  | op :: ops, f, h, hu => by
    obtain ⟨a, b, _, _⟩ := life_step env f op h
    rw [Fin.life]
    dsimp only
    rw [(b hu).2, life_used ops _ a (b hu).1]; rfl

theorem life_count {env : CEnv} : ∀ (ops : List FinOp) (f : Fin), f.LifeInv → f.used = false →
    (f.life env ops).1.length ≤ 1 ∧ ((f.life env ops).2 = [] → (f.life env ops).1.length = 1)
  | [], f, h, hu => by
    unfold Fin.life Fin.drop
    rw [h.1, hu]; exact ⟨Nat.le_refl _, fun _ => rfl⟩
  | op :: ops, f, h, hu => by
    obtain ⟨a, _, c, d⟩ := life_step env f op h
    rw [Fin.life]
    dsimp only
    cases hu' : (f.op env op).1.used with
    | false =>
      obtain ⟨i1, i2⟩ := life_count (env := env) ops _ a hu'
      rw [c hu hu']
      refine ⟨i1, fun he => i2 (List.append_eq_nil_iff.1 he).2⟩
    | true =>
      rw [life_used ops _ a hu', List.append_nil]
      refine ⟨by cases (f.op env op).2.2 <;> simp, fun he => ?_⟩
      have he' := (List.append_eq_nil_iff.1 he).1
      rcases d hu hu' with hs | hs
      · obtain ⟨u, e⟩ := Option.isSome_iff_exists.1 hs
        rw [e]; rfl
      · obtain ⟨u, e⟩ := Option.isSome_iff_exists.1 hs
        rw [e] at he'; cases he'

end Polog
