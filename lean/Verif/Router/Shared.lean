import Verif.Router.Lemmas2
import Verif.Calls.Props

/-!
What a decorated function swallows.  `LoggerRouteFinalizer.__call__` hands `self.suppress_all` (a copy) and
`self.suppressed_exceptions` (the list itself) to the decorator, finalizer.py:61; the wrappers look into the
list at the time of each call, function_logger.py:76-79, 98-101; `.suppress(...)` extends the same list,
finalizer.py:176.
-/

namespace Polog

/-- What happens: `log(...)` is called, or something is done with the `i`-th object it has returned.  Every
step has its own settings. router.py:23-96, finalizer.py:36-178. -/
inductive ShOp where
  | log (env : CEnv) (args : List HVal) (kwargs : Dict Str HVal)
  | use (env : CEnv) (i : Nat) (op : FinOp)

/-- The objects returned by `log(...)`, and the decorated functions and classes: the object whose list of
classes the wrapper looks into (`none`: a list of its own that stays empty, router.py:96), and its copy of
`suppress_all`. finalizer.py:25-34, 61, function_logger.py:43. -/
structure ShState where
  fins : List Fin
  fns : List (Option Nat × Bool)

/-- At the start of the program: no object of finalizer.py:25-34 exists. -/
def ShState.init : ShState := ⟨[], []⟩

/-- The new decorated function or class, if the step makes one. finalizer.py:53-63, router.py:88-96. -/
def Use.decorated (i : Option Nat) : Use → List (Option Nat × Bool)
  | .decorateFn _ all _ _ => [(i, all)]
  | .decorateCls _ all _ _ => [(i, all)]
  | _ => []

/-- One step. router.py:23-96, finalizer.py:36-178. -/
def ShState.step (s : ShState) : ShOp → ShState
  | .log env args kwargs =>
    match routerCall env.h args kwargs with
    | .finalizer f => { s with fins := s.fins ++ [f] }
    | .used u => { s with fns := s.fns ++ u.decorated none }
    | .raised _ => s
  | .use env i op =>
    match s.fins[i]? with
    | none => s
    | some f =>
      ⟨s.fins.set i (f.op env op).1, s.fns ++ ((f.op env op).2.2.toList.flatMap (Use.decorated (some i)))⟩

/-- Steps one after another. router.py:23-96, finalizer.py:36-178. -/
def ShState.run (s : ShState) (ops : List ShOp) : ShState := ops.foldl ShState.step s

/-- The list the wrapper looks into. finalizer.py:61, function_logger.py:99. -/
def ShState.classes (s : ShState) : Option Nat → List Nat
  | none => []
  | some i => ((s.fins[i]?).map Fin.suppressed).getD []

/-- The decorator of the `k`-th decorated function as it acts in a call made now; `base` are its other
arguments. function_logger.py:85-105. -/
def ShState.deco (s : ShState) (base : Deco) (k : Nat) : Deco :=
  match s.fns[k]? with
  | some (o, all) => { base with suppressAll := all, suppressed := s.classes o }
  | none => base

namespace SharedSpec

/-- In these steps `.suppress()` without arguments was called of the `i`-th object. -/
def EverythingAsked (i : Nat) (ops : List ShOp) : Prop := ∃ env, ShOp.use env i (.suppress []) ∈ ops

/-- In these steps a call of `.suppress(...)` of the `i`-th object that did not raise named the class. -/
def ClassAsked (i : Nat) (c : Nat) (ops : List ShOp) : Prop :=
  ∃ env excs, ShOp.use env i (.suppress excs) ∈ ops ∧ SuppressArg.exc c ∈ excs ∧
    (env.h.silent = true ∨ SuppressArg.wrong ∉ excs)

end SharedSpec

open SharedSpec

theorem ShState.run_append (s : ShState) (a b : List ShOp) : s.run (a ++ b) = (s.run a).run b := by
  simp [ShState.run, List.foldl_append]

theorem ShState.run_snoc (s : ShState) (a : List ShOp) (op : ShOp) : s.run (a ++ [op]) = (s.run a).step op := by
  simp [ShState.run, List.foldl_append]

theorem ShState.run_cons (s : ShState) (op : ShOp) (a : List ShOp) : s.run (op :: a) = (s.step op).run a := rfl

/-- Only `.suppress` changes what an object asks to be swallowed. -/
theorem Fin.op_suppressed (env : CEnv) (f : Fin) (op : FinOp) :
    ((f.op env op).1.suppressAll = true ↔ f.suppressAll = true ∨ op = .suppress []) ∧
    ∀ c, c ∈ (f.op env op).1.suppressed ↔ c ∈ f.suppressed ∨
      ∃ excs, op = .suppress excs ∧ SuppressArg.exc c ∈ excs ∧ (env.h.silent = true ∨ SuppressArg.wrong ∉ excs) := by
  cases op with
  | call args kwargs =>
    have h : (f.call env.h args kwargs).1.suppressAll = f.suppressAll ∧
        (f.call env.h args kwargs).1.suppressed = f.suppressed := by
      unfold Fin.call Fin.rewrite
      repeat' split <;> (try exact ⟨rfl, rfl⟩)
    constructor
    · show ((f.call env.h args kwargs).1.suppressAll = true ↔ _)
      rw [h.1]; simp
    · intro c
      show (c ∈ (f.call env.h args kwargs).1.suppressed ↔ _)
      rw [h.2]; simp
  | enter =>
    have h : (f.op env .enter).1.suppressAll = f.suppressAll ∧ (f.op env .enter).1.suppressed = f.suppressed := by
      cases hu : f.used <;> cases he : f.entered <;> simp [Fin.op, Fin.enter, hu, he]
    rw [h.1, h.2]; simp
  | exit out => simp [Fin.op]
  | suppress excs =>
    show (((f.suppress env.h excs).1.suppressAll = true ↔ _) ∧ ∀ c, c ∈ (f.suppress env.h excs).1.suppressed ↔ _)
    by_cases hl : env.h.silent = true ∨ SuppressArg.wrong ∉ excs
    · rw [suppress_ok f hl]
      constructor
      · simp
      · intro c
        simp only [List.mem_append, mem_excClasses]
        constructor
        · rintro (h | h)
          · exact .inl h
          · exact .inr ⟨excs, rfl, h, hl⟩
        · rintro (h | ⟨_, h, h', _⟩)
          · exact .inl h
          · cases h; exact .inr h'
    · rw [suppress_error f hl]
      constructor
      · have : excs ≠ [] := by rintro rfl; exact hl (.inr (by simp))
        simp [this]
      · intro c
        constructor
        · exact .inl
        · rintro (h | ⟨_, h, _, h'⟩)
          · exact h
          · cases h; exact absurd h' hl

theorem ShState.step_fin (s : ShState) (op : ShOp) (i : Nat) (f : Fin) (hf : s.fins[i]? = some f) :
    ∃ g, (s.step op).fins[i]? = some g ∧
      (g.suppressAll = true ↔ f.suppressAll = true ∨ EverythingAsked i [op]) ∧
      ∀ c, c ∈ g.suppressed ↔ c ∈ f.suppressed ∨ ClassAsked i c [op] := by
  have hlt : i < s.fins.length := by
    rw [List.getElem?_eq_some_iff] at hf
    exact hf.1
  cases op with
  | log env args kwargs =>
    refine ⟨f, ?_, by simp [EverythingAsked], by simp [ClassAsked]⟩
    simp only [ShState.step]
    split
    · rw [List.getElem?_append_left hlt, hf]
    · exact hf
    · exact hf
  | use env j op =>
    by_cases hj : j = i
    · subst hj
      have h := Fin.op_suppressed env f op
      refine ⟨(f.op env op).1, ?_, ?_, ?_⟩
      · simp only [ShState.step, hf]
        rw [List.getElem?_set_self hlt]
      · rw [h.1]
        apply or_congr Iff.rfl
        constructor
        · rintro rfl; exact ⟨env, by simp⟩
        · rintro ⟨_, h⟩; simp at h; exact h.2.symm
      · intro c
        rw [h.2]
        apply or_congr Iff.rfl
        simp only [ClassAsked, List.mem_singleton, ShOp.use.injEq, true_and]
        constructor
        · rintro ⟨excs, rfl, h1, h2⟩
          exact ⟨env, excs, ⟨rfl, rfl⟩, h1, h2⟩
        · rintro ⟨_, excs, ⟨rfl, rfl⟩, h1, h2⟩
          exact ⟨excs, rfl, h1, h2⟩
    · refine ⟨f, ?_, ?_, ?_⟩
      · simp only [ShState.step]
        split
        · exact hf
        · rw [List.getElem?_set_ne hj, hf]
      · simp [EverythingAsked, Ne.symm hj]
      · simp [ClassAsked, Ne.symm hj]

theorem everythingAsked_cons (i : Nat) (op : ShOp) (ops : List ShOp) :
    EverythingAsked i (op :: ops) ↔ EverythingAsked i [op] ∨ EverythingAsked i ops := by
  simp [EverythingAsked, exists_or]

theorem classAsked_append (i c : Nat) (a b : List ShOp) :
    ClassAsked i c (a ++ b) ↔ ClassAsked i c a ∨ ClassAsked i c b := by
  simp [ClassAsked, or_and_right, exists_or]

theorem ShState.run_fin : ∀ (ops : List ShOp) (s : ShState) (i : Nat) (f : Fin), s.fins[i]? = some f →
    ∃ g, (s.run ops).fins[i]? = some g ∧
      (g.suppressAll = true ↔ f.suppressAll = true ∨ EverythingAsked i ops) ∧
      ∀ c, c ∈ g.suppressed ↔ c ∈ f.suppressed ∨ ClassAsked i c ops
  | [], s, i, f, hf => ⟨f, hf, by simp [EverythingAsked], by simp [ClassAsked]⟩
  | op :: ops, s, i, f, hf => by
    obtain ⟨g, hg, h1, h2⟩ := s.step_fin op i f hf
    obtain ⟨g', hg', h1', h2'⟩ := ShState.run_fin ops (s.step op) i g hg
    refine ⟨g', hg', ?_, ?_⟩
    · rw [h1', h1, everythingAsked_cons i op ops, or_assoc]
    · intro c
      rw [h2', h2, show op :: ops = [op] ++ ops from rfl, classAsked_append, or_assoc]

theorem ShState.step_fns (s : ShState) (op : ShOp) (k : Nat) (x : Option Nat × Bool) (h : s.fns[k]? = some x) :
    (s.step op).fns[k]? = some x := by
  have hlt : k < s.fns.length := by
    rw [List.getElem?_eq_some_iff] at h
    exact h.1
  cases op with
  | log env args kwargs =>
    simp only [ShState.step]
    split
    · exact h
    · rw [List.getElem?_append_left hlt, h]
    · exact h
  | use env i op =>
    simp only [ShState.step]
    split
    · exact h
    · rw [List.getElem?_append_left hlt, h]

theorem ShState.run_fns : ∀ (ops : List ShOp) (s : ShState) (k : Nat) (x : Option Nat × Bool), s.fns[k]? = some x →
    (s.run ops).fns[k]? = some x
  | [], _, _, _, h => h
  | op :: ops, s, k, x, h => ShState.run_fns ops (s.step op) k x (s.step_fns op k x h)

/-- How a call of a decorated function whose original raises ends, if the text of the exception and of the
arguments can be made. -/
theorem loggedEnd_swallows (env : CEnv) (d : Deco) (info : FnInfo) (e : Exc) (cs : CallState)
    (ht : e.text.isSome = true) (hi : info.inputs.isSome = true) :
    (loggedEnd env d info (.raised e) cs).1 =
      if e.isException = true ∧ (d.suppressAll = true ∨ excSuppressed env d.suppressed e = true) then .ret .none
      else .raised e := by
  have hl : (logException env d info e cs).1 = none := by
    unfold logException
    obtain ⟨t, ht⟩ := Option.isSome_iff_exists.1 ht
    obtain ⟨i, hi⟩ := Option.isSome_iff_exists.1 hi
    simp only [ht, hi]
    repeat' split <;> (try rfl)
  simp only [loggedEnd]
  cases he : e.isException
  · simp
  · generalize logException env d info e cs = r at hl
    obtain ⟨a, s'⟩ := r
    simp only at hl
    subst hl
    simp only [↓reduceIte]
    cases d.suppressAll <;> cases excSuppressed env d.suppressed e <;> simp

theorem Fin.call_decorated (g : Fin) (env : HEnv) (i : Option Nat) (args : List HVal) (kwargs : Dict Str HVal) :
    (g.call env args kwargs).2.2.toList.flatMap (Use.decorated i) = [] ∨
    (g.call env args kwargs).2.2.toList.flatMap (Use.decorated i) = [(i, g.suppressAll)] := by
  unfold Fin.call
  split
  · exact .inl rfl
  · split
    · exact .inl rfl
    · split
      · exact .inl rfl
      · split
        · exact .inl rfl
        · dsimp only
          split
          · exact .inr rfl
          · split
            · exact .inr rfl
            · exact .inl rfl

/-- **C98**, exactly: a function or class decorated with an object that `log(...)` returned swallows, in a call at any
later time, all exceptions if `.suppress()` without arguments had been called of that object before it was used as
a decorator, and otherwise the classes named to `.suppress(...)` of that object *at any time until the call*.
(The `i`-th object is made; steps `pre`; it is used as a decorator; steps `post`; the call.) -/
theorem C98_what_a_function_swallows (s : ShState) (envL : CEnv) (args : List HVal) (kwargs : Dict Str HVal) (f : Fin)
    (hf : routerCall envL.h args kwargs = .finalizer f) (pre post : List ShOp) (envD : CEnv) (dargs : List HVal)
    (dkwargs : Dict Str HVal)
    (hd : ((s.run (.log envL args kwargs :: pre)).step (.use envD s.fins.length (.call dargs dkwargs))).fns.length =
      (s.run (.log envL args kwargs :: pre)).fns.length + 1)
    (env : CEnv) (base : Deco) (info : FnInfo) (e : Exc) (cs : CallState)
    (ht : e.text.isSome = true) (hi : info.inputs.isSome = true) :
    (loggedEnd env
      ((s.run (.log envL args kwargs :: pre ++ .use envD s.fins.length (.call dargs dkwargs) :: post)).deco base
        (s.run (.log envL args kwargs :: pre)).fns.length) info (.raised e) cs).1 =
      .ret .none ↔
    e.isException = true ∧ (EverythingAsked s.fins.length pre ∨
      ∃ c, ClassAsked s.fins.length c (pre ++ post) ∧ CallSpec.Matches env e c) := by
  have hnew : f.suppressAll = false ∧ f.suppressed = [] := by
    have : ∃ a, Fin.create envL.h a kwargs = .ok f := by
      unfold routerCall at hf
      split at hf
      · split at hf
        · cases hf; exact ⟨_, ‹_›⟩
        · cases hf
      · split at hf
        · split at hf
          · cases hf; exact ⟨_, ‹_›⟩
          · cases hf
        · split at hf
          · cases hf
          · split at hf <;> cases hf
      · cases hf
    obtain ⟨a, h⟩ := this
    unfold Fin.create at h
    split at h
    · cases h
    · cases h; exact ⟨rfl, rfl⟩
  have h0 : (s.step (.log envL args kwargs)).fins[s.fins.length]? = some f := by
    simp [ShState.step, hf]
  obtain ⟨g, hg, g1, g2⟩ := ShState.run_fin pre _ _ f h0
  rw [ShState.run_cons] at hd
  have e1 : s.run (.log envL args kwargs :: pre ++ .use envD s.fins.length (.call dargs dkwargs) :: post) =
      (((s.step (.log envL args kwargs)).run pre).step (.use envD s.fins.length (.call dargs dkwargs))).run post := by
    rw [List.cons_append, ShState.run_cons, ShState.run_append, ShState.run_cons]
  rw [e1, ShState.run_cons]
  generalize hs1 : (s.step (.log envL args kwargs)).run pre = s1 at *
  have hdec : (s1.step (.use envD s.fins.length (.call dargs dkwargs))).fns[s1.fns.length]? =
      some (some s.fins.length, g.suppressAll) := by
    simp only [ShState.step, hg, List.length_append] at hd ⊢
    rw [List.getElem?_append_right (Nat.le_refl _), Nat.sub_self]
    rcases g.call_decorated envD.h (some s.fins.length) dargs dkwargs with h | h
    · exfalso
      rw [show g.op envD (.call dargs dkwargs) = g.call envD.h dargs dkwargs from rfl, h] at hd
      simp at hd
    · rw [show g.op envD (.call dargs dkwargs) = g.call envD.h dargs dkwargs from rfl, h]
      rfl
  obtain ⟨g', hg', g1', g2'⟩ := ShState.step_fin s1 (.use envD s.fins.length (.call dargs dkwargs)) _ g hg
  obtain ⟨g'', hg'', g1'', g2''⟩ := ShState.run_fin post _ _ g' hg'
  have hfn := ShState.run_fns post _ _ _ hdec
  generalize (s1.step (.use envD s.fins.length (.call dargs dkwargs))).run post = s3 at *
  have hdeco : s3.deco base s1.fns.length = { base with suppressAll := g.suppressAll, suppressed := g''.suppressed } := by
    simp [ShState.deco, hfn, ShState.classes, hg'']
  rw [hdeco, loggedEnd_swallows env _ info e cs ht hi]
  simp only [excSuppressed_iff]
  have hcl : ∀ c, c ∈ g''.suppressed ↔ ClassAsked s.fins.length c (pre ++ post) := by
    intro c
    rw [g2'', g2', g2, classAsked_append, hnew.2]
    have : ¬ ClassAsked s.fins.length c [.use envD s.fins.length (.call dargs dkwargs)] := by simp [ClassAsked]
    simp [this]
  have hall : g.suppressAll = true ↔ EverythingAsked s.fins.length pre := by rw [g1, hnew.1]; simp
  have hiff : (e.isException = true ∧ (g.suppressAll = true ∨ ∃ c, c ∈ g''.suppressed ∧ CallSpec.Matches env e c)) ↔
      e.isException = true ∧ (EverythingAsked s.fins.length pre ∨
        ∃ c, ClassAsked s.fins.length c (pre ++ post) ∧ CallSpec.Matches env e c) := by
    simp only [hall, hcl]
  split
  · next h => exact ⟨fun _ => hiff.1 h, fun _ => rfl⟩
  · next h => exact ⟨fun h' => by simp at h', fun h' => absurd (hiff.2 h') h⟩

/-- **C98** (partial: `.suppress(...)` must not be called of the same object afterwards with classes, see
`C98_later_suppress_fails`).  What a decorated function swallows is what was asked for before decorating: nothing that
is done later — with other objects, with other functions, calls of `.suppress()` without arguments, attempts to use the
object again — changes it. -/
theorem C98_fixed_when_decorated_partial (s : ShState) (envL : CEnv) (args : List HVal) (kwargs : Dict Str HVal)
    (f : Fin) (hf : routerCall envL.h args kwargs = .finalizer f) (pre post : List ShOp) (envD : CEnv)
    (dargs : List HVal) (dkwargs : Dict Str HVal)
    (hd : ((s.run (.log envL args kwargs :: pre)).step (.use envD s.fins.length (.call dargs dkwargs))).fns.length =
      (s.run (.log envL args kwargs :: pre)).fns.length + 1)
    (hpost : ∀ env excs, ShOp.use env s.fins.length (.suppress excs) ∈ post → ∀ c, SuppressArg.exc c ∉ excs)
    (env : CEnv) (base : Deco) (info : FnInfo) (e : Exc) (cs : CallState)
    (ht : e.text.isSome = true) (hi : info.inputs.isSome = true) :
    (loggedEnd env
      ((s.run (.log envL args kwargs :: pre ++ .use envD s.fins.length (.call dargs dkwargs) :: post)).deco base
        (s.run (.log envL args kwargs :: pre)).fns.length) info (.raised e) cs).1 =
      .ret .none ↔
    e.isException = true ∧ (EverythingAsked s.fins.length pre ∨
      ∃ c, ClassAsked s.fins.length c pre ∧ CallSpec.Matches env e c) := by
  rw [C98_what_a_function_swallows s envL args kwargs f hf pre post envD dargs dkwargs hd env base info e cs ht hi]
  have : ∀ c, ClassAsked s.fins.length c (pre ++ post) ↔ ClassAsked s.fins.length c pre := by
    intro c
    rw [classAsked_append]
    constructor
    · rintro (h | ⟨env', excs, h1, h2, _⟩)
      · exact h
      · exact absurd h2 (hpost env' excs h1 c)
    · exact .inl
  simp only [this]

/-- A function decorated without an object, `@log`, swallows nothing, whatever is done later. -/
theorem C98_bare_decorator_swallows_nothing (s : ShState) (envL : CEnv) (x : HVal) (kwargs : Dict Str HVal)
    (hx : ∀ t, x ≠ .str t) (hc : x.isCls = true ∨ x.callable = true) (post : List ShOp)
    (env : CEnv) (base : Deco) (info : FnInfo) (e : Exc) (cs : CallState)
    (ht : e.text.isSome = true) (hi : info.inputs.isSome = true) :
    (loggedEnd env ((s.run (.log envL [x] kwargs :: post)).deco base s.fns.length) info (.raised e) cs).1 =
      .raised e := by
  have h0 : (s.step (.log envL [x] kwargs)).fns[s.fns.length]? = some (none, false) := by
    cases x with
    | str t => exact absurd rfl (hx t)
    | cls id n m => simp [ShState.step, routerCall, HVal.isCls, Use.decorated]
    | fn id n m t => simp [ShState.step, routerCall, HVal.isCls, HVal.callable, Use.decorated]
    | _ => simp [HVal.isCls, HVal.callable] at hc
  have hfn := ShState.run_fns post _ _ _ h0
  rw [ShState.run_cons, loggedEnd_swallows env _ info e cs ht hi]
  simp [ShState.deco, hfn, ShState.classes, excSuppressed_iff]

/-- `a = log('text')`, `a.suppress(E)` with another class, `f = a(f)`. -/
def shPre : List ShOp :=
  [.log cEnv [.str "text".toList] [], .use cEnv 0 (.suppress [.exc 9]),
   .use cEnv 0 (.call [.fn 1 none none []] [])]

/-- The hypotheses are met: the function of `shPre` swallows the class it was given and not the other one. -/
example : (loggedEnd cEnv ((ShState.init.run shPre).deco (cDeco 9) 0) (cFn "f") (.raised { cExc with cls := 9 }) .init).1 =
      .ret .none ∧
    (loggedEnd cEnv ((ShState.init.run shPre).deco (cDeco 9) 0) (cFn "f") (.raised cExc) .init).1 = .raised cExc := by
  have key := fun e h => C98_fixed_when_decorated_partial ShState.init cEnv [.str "text".toList] [] _ rfl
    [.use cEnv 0 (.suppress [.exc 9])] [] cEnv [.fn 1 none none []] [] rfl (by simp) cEnv (cDeco 9) (cFn "f") e .init h rfl
  refine ⟨(key { cExc with cls := 9 } rfl).2 ⟨rfl, .inr ⟨9, ⟨cEnv, [.exc 9], by simp [ShState.init], by simp, .inr (by simp)⟩,
    .inr ⟨rfl, rfl⟩⟩⟩, by decide +kernel⟩

/-- **C98 fails**: a function is decorated with `log('text').suppress(A)`; its `ValueError` comes through.  Then
`.suppress(ValueError)` is called of the object that was used as the decorator, and the function swallows `ValueError`
from then on. -/
theorem C98_later_suppress_fails :
    (loggedEnd cEnv ((ShState.init.run shPre).deco (cDeco 9) 0) (cFn "f") (.raised cExc) .init).1 = .raised cExc ∧
    (loggedEnd cEnv ((ShState.init.run (shPre ++ [.use cEnv 0 (.suppress [.exc 4])])).deco (cDeco 9) 0) (cFn "f")
      (.raised cExc) .init).1 = .ret .none := by
  decide +kernel

/-- A bare `@log` in front of a function. -/
example : (loggedEnd cEnv ((ShState.init.run (.log cEnv [.fn 1 none none []] [] :: shPre)).deco (cDeco 9) 0) (cFn "f")
    (.raised cExc) .init).1 = .raised cExc :=
  C98_bare_decorator_swallows_nothing ShState.init cEnv (.fn 1 none none []) [] (fun _ h => by cases h) (.inr rfl) shPre
    cEnv (cDeco 9) (cFn "f") cExc .init rfl rfl

end Polog
