import Verif.Registry.Lemmas3
import Verif.Calls.Props

/-!
# C30: stacks of decorators, classes
-/

namespace Polog
open StackSpec

/-! ### Stacks on a function -/

/-- Every stack amounts to something (and, by the next theorem, to one thing only). -/
theorem C30_every_stack_amounts_to_something (ls : List Layer) : ∃ ws, AmountsAll ls ws := amountsAll_exists ls

/-- **C30.** Define a function and put decorators on it one by one, in any program that does anything else to
other functions before, in between and after. Calls of the result go exactly through the wrappers the stack
amounts to: of the decorators between two foreign ones only the topmost `@log` of the function itself works (the
topmost class decorator if there is none), and if there is an `@unlog` among them, only an `@unlog`. -/
theorem C30_stack_amounts (b : Nat) (r : FRegistry) (objs : List FObj) (f : FObj) (ls : List Layer)
    (h : Built b r objs f ls) (ws : List Wrap) (ha : AmountsAll ls ws) : wraps f = ws ∧ bottom f = b := by
  obtain ⟨_, _, o, _, _, hs, hw, hb⟩ := h.inv
  exact ⟨by rw [wraps_of hs, hw, amountsAll_expected ha], by rw [bottom_of hs, hb]⟩

/-- The same for a stack that is put on at once, right after the `def`. -/
theorem C30_stack_at_once (r : FRegistry) (objs : List FObj) (hr : FHistory r objs) (ls : List Layer)
    (ws : List Wrap) (ha : AmountsAll ls ws) :
    wraps (applyStack ls r.defFn.1 r.defFn.2).1 = ws ∧ bottom (applyStack ls r.defFn.1 r.defFn.2).1 = r.next := by
  have key : ∀ ls : List Layer, ∃ objs', Built r.next (applyStack ls r.defFn.1 r.defFn.2).2 objs'
      (applyStack ls r.defFn.1 r.defFn.2).1 ls := by
    intro ls
    induction ls with
    | nil => exact ⟨_, .define hr rfl⟩
    | cons l ls ih =>
      obtain ⟨objs', h⟩ := ih
      exact ⟨_, .line l h⟩
  obtain ⟨objs', h⟩ := key ls
  exact C30_stack_amounts _ _ _ _ _ h ws ha

-- README: six log decorators on one function
example : AmountsAll [.log (cDeco 6), .log (cDeco 5), .log (cDeco 4), .log (cDeco 3), .log (cDeco 2), .log (cDeco 1)]
    [.log (cDeco 6)] :=
  .polog _ _ (by simp [PologOnly, IsOther]) (.own [] _ _ (by simp) (by simp [IsUnlog]))

-- README: `@unlog` in the middle
example : AmountsAll [.log (cDeco 5), .log (cDeco 4), .log (cDeco 3), .unlog none, .log (cDeco 2), .log (cDeco 1)]
    [.unlog none] :=
  .polog _ _ (by simp [PologOnly, IsOther]) (.unlogBelow _ _ (fun h => h) ⟨.unlog none, by simp, trivial⟩)

-- README: a foreign decorator between `@log` and `@unlog`
example : AmountsAll [.log (cDeco 2), .other, .unlog none, .log (cDeco 1)] [.log (cDeco 2), .other, .unlog none] :=
  .other [.log (cDeco 2)] _ [.log (cDeco 2)] [.unlog none] (by simp [PologOnly, IsOther])
    (.own [] [] _ (by simp) (by simp))
    (.polog _ _ (by simp [PologOnly, IsOther]) (.unlogTop _ _))

-- the decorator of a class over the method's own decorator
example : AmountsAll [.cls (cDeco 3), .log (cDeco 10)] [.log (cDeco 10)] :=
  .polog _ _ (by simp [PologOnly, IsOther]) (.own [.cls (cDeco 3)] [] _ (by simp [IsLog]) (by simp [IsUnlog]))

-- a function with two decorators; another one is defined and decorated in between
example : ∃ r objs f, Built 0 r objs f [.log (cDeco 2), .log (cDeco 1)] :=
  ⟨_, _, _, .line (.log (cDeco 2)) (.decorateAnother (.unlog none) (.orig 2)
    (.defineAnother (.line (.log (cDeco 1)) (.define .start rfl))) List.mem_cons_self (by decide))⟩

theorem passOn_eq : passOn = CallSpec.andReturn := by
  funext o; cases o <;> rfl

/-- **C30.** A call of a function with a stack of Polog's decorators on it, none of them `@unlog`, is in every
respect — outcome, records, messages, marks on exceptions — the call of the function with the topmost `@log`
alone. -/
theorem C30_call_is_that_of_the_topmost (b : Nat) (r : FRegistry) (objs : List FObj) (f : FObj)
    (upper lower : List Layer) (d : Deco) (h : Built b r objs f (upper ++ .log d :: lower))
    (hp : PologOnly (upper ++ .log d :: lower)) (h1 : ∀ l ∈ upper, ¬ IsLog l)
    (h2 : ∀ l ∈ upper ++ lower, ¬ IsUnlog l) (env : CEnv) (info : FnInfo) (body : Body) (s : CallState) :
    (f.callBody info body).run env s =
      (Body.call (.logged d info) body CallSpec.andReturn).run env s := by
  have hw := (C30_stack_amounts b r objs f _ h [.log d] (.polog _ _ hp (.own upper lower d h1 h2))).1
  cases f with
  | orig i => cases hw
  | logged i d' g =>
    injection hw with e1 e2
    injection e1 with e1
    subst e1
    cases g with
    | orig j => rw [FObj.callBody, FObj.callBody, passOn_eq]
    | logged j d'' g => cases e2
    | unlogged j full g => cases e2
    | other j g => cases e2
  | unlogged i full g => injection hw with e1; cases e1
  | other i g => injection hw with e1; cases e1

/-- **C30.** A call of a function with an `@unlog` among Polog's decorators on it records nothing, when the mode of
that `@unlog` is full: that of the topmost decorator, if it is `@unlog(full=...)`, else that of the setting
`full_unlog` — if no other unlogged function is called inside (see C29). -/
theorem C30_unlog_wins (b : Nat) (r : FRegistry) (objs : List FObj) (f : FObj) (ls : List Layer)
    (h : Built b r objs f ls) (hp : PologOnly ls) (hu : ∃ l ∈ ls, IsUnlog l) (env : CEnv) (info : FnInfo)
    (body : Body) (s : CallState)
    (hfull : ∀ l, ls.head? = some l → CallSpec.fullOf env (match l with | .unlog full => full | _ => none) = true)
    (hn : CallSpec.NoUnlog body) :
    ((f.callBody info body).run env s).2.records = s.records := by
  have key : ∀ full, wraps f = [.unlog full] → CallSpec.fullOf env full = true →
      ((f.callBody info body).run env s).2.records = s.records := by
    intro full hw hf
    cases f with
    | orig i => cases hw
    | logged i d' g => injection hw with e1; cases e1
    | other i g => injection hw with e1; cases e1
    | unlogged i full' g =>
      injection hw with e1 e2
      injection e1 with e1
      subst e1
      cases g with
      | orig j =>
        rw [FObj.callBody, FObj.callBody, passOn_eq]
        exact (C29_nothing_recorded_inside_unlogged_partial env _ body s hf hn).1
      | logged j d'' g => cases e2
      | unlogged j full g => cases e2
      | other j g => cases e2
  cases ls with
  | nil => obtain ⟨l, hl, _⟩ := hu; cases hl
  | cons l lower =>
    by_cases hl : IsUnlog l
    · cases l with
      | unlog full =>
        exact key full (C30_stack_amounts b r objs f _ h _ (.polog _ _ hp (.unlogTop lower full))).1 (hfull _ rfl)
      | log d => exact hl.elim
      | cls d => exact hl.elim
      | other => exact hl.elim
    · have hb : ∃ x ∈ lower, IsUnlog x := by
        obtain ⟨x, hx, hux⟩ := hu
        rcases List.mem_cons.mp hx with rfl | hx
        · exact absurd hux hl
        · exact ⟨x, hx, hux⟩
      refine key none (C30_stack_amounts b r objs f _ h _ (.polog _ _ hp (.unlogBelow l lower hl hb))).1 ?_
      have := hfull l rfl
      cases l with
      | unlog full => exact absurd trivial hl
      | log d => exact this
      | cls d => exact this
      | other => exact this

-- satisfiable: `@log(level=5) @unlog @log(level=1)`
example : ∃ r objs f, Built 0 r objs f [.log (cDeco 5), .unlog none, .log (cDeco 1)] :=
  ⟨_, _, _, .line (.log (cDeco 5)) (.line (.unlog none) (.line (.log (cDeco 1)) (.define .start rfl)))⟩

/-- **C30 fails** for the mode of `@unlog`: `@log @unlog(full=False)` on a function does not act like
`@unlog(full=False)`; the argument is forgotten, and with the default setting `full_unlog=True` even the manual
logs of the function are dropped. -/
theorem C30_mode_of_unlog_below_is_forgotten_fails :
    ∃ (d : Deco), wraps (applyStack [.log d, .unlog (some false)] FRegistry.empty.defFn.1
      FRegistry.empty.defFn.2).1 = [.unlog none] :=
  ⟨cDeco 5, rfl⟩

/-- **C30 fails** for objects that are decorated twice: after `g = log(f)`, `a = log(g)`, the object `g` is
unknown to Polog, and calls of `log(g)` go through two log decorators. -/
theorem C30_decorating_the_same_object_twice_fails :
    ∃ (r : FRegistry) (objs : List FObj) (g : FObj) (d d' : Deco), FHistory r objs ∧ g ∈ objs ∧
      wraps g = [.log d] ∧ wraps ((Layer.log d').apply g r).1 = [.log d', .log d] := by
  refine ⟨_, _, .logged 1 (cDeco 1) (.orig 0), cDeco 1, cDeco 3,
    .decorate (.log (cDeco 2)) (.logged 1 (cDeco 1) (.orig 0))
      (.decorate (.log (cDeco 1)) (.orig 0) (.define .start) List.mem_cons_self) List.mem_cons_self, ?_, rfl, ?_⟩
  · exact List.mem_cons_of_mem _ List.mem_cons_self
  · rfl

/-! ### Classes -/

/-- One step of both loops over the attributes of a class. -/
def layerMethod (l : Layer) (c : Nat) (mro : List Nat) (w : ClassWorld) (n : Str) : ClassWorld :=
  match w.getattr n mro with
  | some (.func f) => { w with reg := (l.apply f w.reg).2 }.setattr c n (.func (l.apply f w.reg).1)
  | _ => w

theorem getattr_setattr (w : ClassWorld) (c : Nat) (bases : List Nat) (n m : Str) (a : ClsAttr) (r : FRegistry) :
    (({ w with reg := r } : ClassWorld).setattr c n a).getattr m (c :: bases) =
      if n = m then some a else w.getattr m (c :: bases) := by
  have hrest : ∀ l : List Nat, n ≠ m →
      (({ w with reg := r } : ClassWorld).setattr c n a).getattr m l = w.getattr m l := by
    intro l hne
    induction l with
    | nil => rfl
    | cons i l ih =>
      rw [ClassWorld.getattr, ClassWorld.getattr, ih]
      congr 1
      simp only [ClassWorld.setattr]
      split
      · next e => rw [Dict.get?_set_ne hne, e]
      · rfl
  by_cases e : n = m
  · subst e
    simp only [ClassWorld.getattr, ClassWorld.setattr, if_true, Dict.get?_set_self, Option.some_or]
  · rw [if_neg e, hrest _ e]

/-- Every attribute among `names` is a function that was built with its own stack of decorators. -/
structure ClassBuilt (w : ClassWorld) (objs : List FObj) (mro : List Nat) (names : List Str) (b : Str → Nat)
    (ls : Str → List Layer) : Prop where
  built : ∀ n ∈ names, ∃ f, w.getattr n mro = some (.func f) ∧ Built (b n) w.reg objs f (ls n)
  distinct : ∀ n ∈ names, ∀ m ∈ names, n ≠ m → b n ≠ b m

theorem fold_layer (l : Layer) (c : Nat) (bases : List Nat) (b : Str → Nat) (ls : Str → List Layer)
    (all : List Str) : ∀ (todo : List Str) (w : ClassWorld) (objs : List FObj), todo.Nodup → (∀ n ∈ todo, n ∈ all) →
    ClassBuilt w objs (c :: bases) all b ls →
    ∃ objs', ClassBuilt (todo.foldl (layerMethod l c (c :: bases)) w) objs' (c :: bases) all b
        (fun n => if n ∈ todo then l :: ls n else ls n) ∧
      ∀ n, n ∉ todo → (todo.foldl (layerMethod l c (c :: bases)) w).getattr n (c :: bases) =
        w.getattr n (c :: bases) := by
  intro todo
  induction todo generalizing ls with
  | nil => intro w objs _ _ h; exact ⟨objs, by simpa using h, fun _ _ => rfl⟩
  | cons n todo ih =>
    intro w objs hnd hsub h
    obtain ⟨hn, hnd'⟩ := List.nodup_cons.mp hnd
    obtain ⟨f, hf, hb⟩ := h.built n (hsub n List.mem_cons_self)
    have hstep : layerMethod l c (c :: bases) w n =
        { w with reg := (l.apply f w.reg).2 }.setattr c n (.func (l.apply f w.reg).1) := by
      rw [layerMethod, hf]
    have h1 : ClassBuilt (layerMethod l c (c :: bases) w n) ((l.apply f w.reg).1 :: objs) (c :: bases) all b
        (fun m => if m = n then l :: ls n else ls m) := by
      rw [hstep]
      refine ⟨?_, h.distinct⟩
      intro m hm
      rw [getattr_setattr]
      by_cases e : n = m
      · subst e
        refine ⟨_, if_pos rfl, ?_⟩
        rw [if_pos rfl]
        exact .line l hb
      · obtain ⟨g, hg, hgb⟩ := h.built m hm
        refine ⟨g, by rw [if_neg e]; exact hg, ?_⟩
        rw [if_neg (Ne.symm e)]
        refine .decorateAnother l f hgb ?_ ?_
        · exact hb.inv.2.1
        · obtain ⟨_, _, o, _, _, hs, _, hbo⟩ := hb.inv
          rw [bottom_of hs, hbo]
          exact h.distinct n (hsub n List.mem_cons_self) m hm e
    obtain ⟨objs', k1, k2⟩ := ih _ _ _ hnd' (fun x hx => hsub x (List.mem_cons_of_mem _ hx)) h1
    refine ⟨objs', ⟨?_, h.distinct⟩, ?_⟩
    · intro m hm
      obtain ⟨g, hg, hgb⟩ := k1.built m hm
      refine ⟨g, hg, ?_⟩
      by_cases e : m = n
      · subst e
        rw [if_pos List.mem_cons_self]
        rw [if_neg hn, if_pos rfl] at hgb
        exact hgb
      · rw [if_neg e] at hgb
        by_cases e2 : m ∈ todo
        · rw [if_pos e2] at hgb
          rw [if_pos (List.mem_cons_of_mem _ e2)]
          exact hgb
        · rw [if_neg e2] at hgb
          rw [if_neg (by simp [e, e2])]
          exact hgb
    · intro m hm
      rw [List.foldl_cons, k2 m (fun h => hm (List.mem_cons_of_mem _ h)), hstep, getattr_setattr, if_neg]
      rintro rfl
      exact hm List.mem_cons_self

theorem decorateMethod_eq (c : Nat) (mro : List Nat) (d : Deco) :
    ClassWorld.decorateMethod c mro d = layerMethod (.cls d) c mro := by
  funext w n
  rw [ClassWorld.decorateMethod, layerMethod]
  rfl

theorem dir_nodup (w : ClassWorld) (h : ∀ i, Dict.WF (w.own i)) (mro : List Nat) : (w.dir mro).Nodup := by
  induction mro with
  | nil => exact List.nodup_nil
  | cons c mro ih =>
    rw [ClassWorld.dir, List.nodup_append]
    refine ⟨ih.filter _, h c, ?_⟩
    intro a ha b hb
    have := (List.mem_filter.mp ha).2
    rintro rfl
    simp [hb] at this

theorem mem_dir (w : ClassWorld) (mro : List Nat) (n : Str) : n ∈ w.dir mro ↔ (w.getattr n mro).isSome = true := by
  induction mro with
  | nil => simp [ClassWorld.dir, ClassWorld.getattr]
  | cons c mro ih =>
    rw [ClassWorld.dir, ClassWorld.getattr, List.mem_append, List.mem_filter, ih]
    have := Dict.get?_isSome_iff n (w.own c)
    by_cases e : n ∈ Dict.keys (w.own c)
    · simp [e, this.mpr e]
    · have e' : Dict.get? n (w.own c) = none := (Dict.get?_eq_none_iff _ _).mpr e
      simp [e, e']

theorem dunder_iff (n : Str) : (!startsDunder n && !endsDunder n) = true ↔ ¬ Dunder n := by
  rw [Dunder, startsDunder, endsDunder, ← List.isPrefixOf_iff_prefix, ← List.isSuffixOf_iff_suffix]
  cases "__".toList.isPrefixOf n <;> cases "__".toList.isSuffixOf n <;> simp

/-- **C30.** `@log(...)` on a class puts one more line on the stack of every method that is not a dunder method —
also of the inherited ones — and changes no other attribute; so a method without decorators is logged with the
arguments of the class decorator, a method's own `@log` is kept, an `@unlog` wins, and the decorator of a
decorated base class is replaced. (Every method is a function of its own, decorated step by step.) -/
theorem C30_decorating_a_class_partial (w : ClassWorld) (objs : List FObj) (c : Nat) (bases : List Nat) (d : Deco)
    (b : Str → Nat) (ls : Str → List Layer) (hd : ∀ i, Dict.WF (w.own i))
    (h : ∀ n f, w.getattr n (c :: bases) = some (.func f) → ¬ Dunder n → Built (b n) w.reg objs f (ls n))
    (hb : ∀ n m f g, w.getattr n (c :: bases) = some (.func f) → w.getattr m (c :: bases) = some (.func g) →
      n ≠ m → b n ≠ b m) :
    (∀ n f, w.getattr n (c :: bases) = some (.func f) → ¬ Dunder n →
      ∃ f', (w.decorateClass c bases [] d).getattr n (c :: bases) = some (.func f') ∧
        ∀ ws, AmountsAll (.cls d :: ls n) ws → wraps f' = ws ∧ bottom f' = b n) ∧
    (∀ n, Dunder n → (w.decorateClass c bases [] d).getattr n (c :: bases) = w.getattr n (c :: bases)) ∧
    (∀ n, w.getattr n (c :: bases) = some .value ∨ w.getattr n (c :: bases) = none →
      (w.decorateClass c bases [] d).getattr n (c :: bases) = w.getattr n (c :: bases)) := by
  have hmem : ∀ n, n ∈ (w.dir (c :: bases)).filter (w.isLoggable (c :: bases)) ↔
      ∃ f, w.getattr n (c :: bases) = some (.func f) ∧ ¬ Dunder n := by
    intro n
    rw [List.mem_filter, mem_dir, ClassWorld.isLoggable]
    cases hg : w.getattr n (c :: bases) with
    | none => simp
    | some a =>
      cases a with
      | value => simp
      | func f =>
        simp only [Option.isSome_some, true_and, dunder_iff, Option.some.injEq, ClsAttr.func.injEq]
        constructor
        · exact fun h => ⟨f, rfl, h⟩
        · rintro ⟨_, _, h⟩; exact h
  have hall : w.decorateClass c bases [] d =
      ((w.dir (c :: bases)).filter (w.isLoggable (c :: bases))).foldl (layerMethod (.cls d) c (c :: bases)) w := by
    rw [ClassWorld.decorateClass]
    simp only [ClassWorld.loggingMethods, if_true, ClassWorld.unselected, List.foldl_nil, decorateMethod_eq]
  obtain ⟨objs', k1, k2⟩ := fold_layer (.cls d) c bases b ls
    ((w.dir (c :: bases)).filter (w.isLoggable (c :: bases))) _ w objs
    ((dir_nodup w hd _).filter _) (fun _ h => h)
    ⟨fun n hn => by
      obtain ⟨f, hf, hdn⟩ := (hmem n).mp hn
      exact ⟨f, hf, h n f hf hdn⟩, fun n hn m hm => by
      obtain ⟨f, hf, _⟩ := (hmem n).mp hn
      obtain ⟨g, hg, _⟩ := (hmem m).mp hm
      exact hb n m f g hf hg⟩
  rw [hall]
  refine ⟨?_, ?_, ?_⟩
  · intro n f hf hdn
    have hn := (hmem n).mpr ⟨f, hf, hdn⟩
    obtain ⟨f', hf', hb'⟩ := k1.built n hn
    rw [if_pos hn] at hb'
    exact ⟨f', hf', fun ws ha => C30_stack_amounts _ _ _ _ _ hb' ws ha⟩
  · intro n hdn
    exact k2 n fun hn => by obtain ⟨_, _, h⟩ := (hmem n).mp hn; exact h hdn
  · intro n hv
    refine k2 n fun hn => ?_
    obtain ⟨f, hf, _⟩ := (hmem n).mp hn
    rw [hf] at hv
    rcases hv with e | e <;> cases e

/-- **C30.** `@unlog` on a class unlogs every method whose name does not begin with `__`. -/
theorem C30_unlogging_a_class (w : ClassWorld) (objs : List FObj) (c : Nat) (bases : List Nat) (full : Option Bool)
    (b : Str → Nat) (ls : Str → List Layer) (hd : ∀ i, Dict.WF (w.own i))
    (h : ∀ n f, w.getattr n (c :: bases) = some (.func f) → ¬ "__".toList <+: n → Built (b n) w.reg objs f (ls n))
    (hp : ∀ n, PologOnly (ls n))
    (hb : ∀ n m f g, w.getattr n (c :: bases) = some (.func f) → w.getattr m (c :: bases) = some (.func g) →
      n ≠ m → b n ≠ b m) :
    ∀ n f, w.getattr n (c :: bases) = some (.func f) → ¬ "__".toList <+: n →
      ∃ f', (w.unlogClass c bases full).getattr n (c :: bases) = some (.func f') ∧
        wraps f' = [.unlog full] ∧ bottom f' = b n := by
  have hskip : ∀ (names : List Str) (w' : ClassWorld),
      names.foldl (ClassWorld.unlogMethod c (c :: bases) full) w' =
        (names.filter fun n => !startsDunder n).foldl (layerMethod (.unlog full) c (c :: bases)) w' := by
    intro names
    induction names with
    | nil => intro w'; rfl
    | cons n names ih =>
      intro w'
      rw [List.foldl_cons, List.filter_cons]
      by_cases e : startsDunder n = true
      · rw [if_neg (by simp [e]), ClassWorld.unlogMethod, if_pos e]
        exact ih w'
      · rw [if_pos (by simp [e]), List.foldl_cons, ih]
        congr 1
        rw [ClassWorld.unlogMethod, if_neg e, layerMethod]
        rfl
  -- attributes that are not functions are left alone
  have hval : ∀ (names : List Str) (w' : ClassWorld),
      names.Nodup →
      names.foldl (layerMethod (.unlog full) c (c :: bases)) w' =
        (names.filter fun n => match w'.getattr n (c :: bases) with | some (.func _) => true | _ => false).foldl
          (layerMethod (.unlog full) c (c :: bases)) w' := by
    intro names
    induction names with
    | nil => intro w' _; rfl
    | cons n names ih =>
      intro w' hnd
      obtain ⟨hn, hnd'⟩ := List.nodup_cons.mp hnd
      have hone : layerMethod (.unlog full) c (c :: bases) w' n = w' ∨
          ∃ f, w'.getattr n (c :: bases) = some (.func f) ∧ layerMethod (.unlog full) c (c :: bases) w' n =
            { w' with reg := ((Layer.unlog full).apply f w'.reg).2 }.setattr c n
              (.func ((Layer.unlog full).apply f w'.reg).1) := by
        rw [layerMethod]
        cases hg : w'.getattr n (c :: bases) with
        | none => exact .inl rfl
        | some a =>
          cases a with
          | value => exact .inl rfl
          | func f => exact .inr ⟨f, rfl, rfl⟩
      have hsame : ∀ m ∈ names, (layerMethod (.unlog full) c (c :: bases) w' n).getattr m (c :: bases) =
          w'.getattr m (c :: bases) := by
        intro m hm
        rcases hone with e | ⟨f, _, e⟩
        · rw [e]
        · rw [e, getattr_setattr, if_neg]
          rintro rfl
          exact hn hm
      rw [List.foldl_cons, ih _ hnd', List.filter_cons]
      have hfil : (names.filter fun m => match (layerMethod (.unlog full) c (c :: bases) w' n).getattr m (c :: bases)
            with | some (.func _) => true | _ => false) =
          names.filter fun m => match w'.getattr m (c :: bases) with | some (.func _) => true | _ => false := by
        refine List.filter_congr fun m hm => ?_
        rw [hsame m hm]
      rw [hfil]
      cases hg : w'.getattr n (c :: bases) with
      | none => simp only [Bool.false_eq_true, if_false]; congr 1; rw [layerMethod, hg]
      | some a =>
        cases a with
        | value => simp only [Bool.false_eq_true, if_false]; congr 1; rw [layerMethod, hg]
        | func f => simp only [if_true, List.foldl_cons]
  rw [ClassWorld.unlogClass, hskip, hval _ _ ((dir_nodup w hd _).filter _)]
  generalize hN : ((w.dir (c :: bases)).filter fun n => !startsDunder n).filter (fun n =>
    match w.getattr n (c :: bases) with | some (.func _) => true | _ => false) = names
  have hmem : ∀ n, n ∈ names ↔ ∃ f, w.getattr n (c :: bases) = some (.func f) ∧ ¬ "__".toList <+: n := by
    intro n
    rw [← hN, List.mem_filter, List.mem_filter, mem_dir, startsDunder, ← List.isPrefixOf_iff_prefix]
    cases hg : w.getattr n (c :: bases) with
    | none => simp
    | some a =>
      cases a with
      | value => simp
      | func f =>
        simp only [Option.isSome_some, true_and, Option.some.injEq, ClsAttr.func.injEq, and_true,
          Bool.not_eq_true', Bool.eq_false_iff]
        constructor
        · exact fun h => ⟨f, rfl, h⟩
        · rintro ⟨_, _, h⟩; exact h
  have hnd : names.Nodup := hN ▸ ((dir_nodup w hd _).filter _).filter _
  obtain ⟨objs', k1, _⟩ := fold_layer (.unlog full) c bases b ls names names w objs hnd (fun _ h => h)
    ⟨fun n hn => by
      obtain ⟨f, hf, hdn⟩ := (hmem n).mp hn
      exact ⟨f, hf, h n f hf hdn⟩, fun n hn m hm => by
      obtain ⟨f, hf, _⟩ := (hmem n).mp hn
      obtain ⟨g, hg, _⟩ := (hmem m).mp hm
      exact hb n m f g hf hg⟩
  intro n f hf hdn
  have hn := (hmem n).mpr ⟨f, hf, hdn⟩
  obtain ⟨f', hf', hb'⟩ := k1.built n hn
  rw [if_pos hn] at hb'
  refine ⟨f', hf', C30_stack_amounts _ _ _ _ _ hb' _ (.polog _ _ ?_ (.unlogTop _ _))⟩
  intro x hx
  rcases List.mem_cons.mp hx with rfl | hx
  · exact fun h => h
  · exact hp n x hx

theorem restore_other (c : Nat) (bases : List Nat) (n : Str) : ∀ (names : List Str) (w : ClassWorld), n ∉ names →
    (names.foldl (ClassWorld.restoreMethod c (c :: bases)) w).getattr n (c :: bases) = w.getattr n (c :: bases) := by
  intro names
  induction names with
  | nil => intro w _; rfl
  | cons m names ih =>
    intro w hn
    rw [List.foldl_cons, ih _ fun h => hn (List.mem_cons_of_mem _ h), ClassWorld.restoreMethod]
    have hne : m ≠ n := fun e => hn (e ▸ List.mem_cons_self)
    split
    · have := getattr_setattr w c bases m n (.func (w.reg.original (by assumption))) w.reg
      rw [if_neg hne] at this
      exact this
    · rfl

theorem restore_one (c : Nat) (bases : List Nat) (n : Str) (f : FObj) : ∀ (names : List Str) (w : ClassWorld),
    names.Nodup → n ∈ names → w.getattr n (c :: bases) = some (.func f) →
    (names.foldl (ClassWorld.restoreMethod c (c :: bases)) w).getattr n (c :: bases) =
      some (.func (w.reg.original f)) := by
  intro names
  induction names with
  | nil => intro w _ h; cases h
  | cons m names ih =>
    intro w hnd hn hf
    obtain ⟨hm, hnd'⟩ := List.nodup_cons.mp hnd
    rw [List.foldl_cons]
    by_cases e : m = n
    · subst e
      rw [restore_other _ _ _ _ _ hm, ClassWorld.restoreMethod, hf]
      dsimp only
      have := getattr_setattr w c bases m m (.func (w.reg.original f)) w.reg
      rw [if_pos rfl] at this
      exact this
    · have hn' : n ∈ names := (List.mem_cons.mp hn).resolve_left fun h => e h.symm
      have hreg : (ClassWorld.restoreMethod c (c :: bases) w m).reg = w.reg := by
        rw [ClassWorld.restoreMethod]
        split <;> rfl
      have hg : (ClassWorld.restoreMethod c (c :: bases) w m).getattr n (c :: bases) = some (.func f) := by
        rw [← hf]
        exact restore_other c bases n [m] w (by simpa using fun h => e h.symm)
      rw [ih _ hnd' hn' hg, hreg]

/-- **C30.** `@log(methods=(...))` on a class puts one more line on the stack of the named methods; all other
methods except dunder methods end up without any decorator of Polog. -/
theorem C30_methods_argument (w : ClassWorld) (objs : List FObj) (c : Nat) (bases : List Nat) (d : Deco)
    (methods : List Str) (hne : methods ≠ []) (hnd : methods.Nodup)
    (b : Str → Nat) (ls : Str → List Layer) (hd : ∀ i, Dict.WF (w.own i))
    (hsel : ∀ n ∈ methods, ∃ f, w.getattr n (c :: bases) = some (.func f))
    (h : ∀ n f, w.getattr n (c :: bases) = some (.func f) → n ∈ methods ∨ ¬ Dunder n →
      Built (b n) w.reg objs f (ls n))
    (hp : ∀ n, PologOnly (ls n))
    (hb : ∀ n m f g, w.getattr n (c :: bases) = some (.func f) → w.getattr m (c :: bases) = some (.func g) →
      n ≠ m → b n ≠ b m) :
    (∀ n ∈ methods, ∃ f', (w.decorateClass c bases methods d).getattr n (c :: bases) = some (.func f') ∧
        ∀ ws, AmountsAll (.cls d :: ls n) ws → wraps f' = ws ∧ bottom f' = b n) ∧
    (∀ n f, w.getattr n (c :: bases) = some (.func f) → ¬ Dunder n → n ∉ methods →
      ∃ f', (w.decorateClass c bases methods d).getattr n (c :: bases) = some (.func f') ∧ wraps f' = [] ∧
        bottom f' = b n) := by
  generalize hall : (methods ++ (w.dir (c :: bases)).filter fun n => w.isLoggable (c :: bases) n) = all
  have hmem : ∀ n ∈ all, ∃ f, w.getattr n (c :: bases) = some (.func f) ∧ (n ∈ methods ∨ ¬ Dunder n) := by
    intro n hn
    rw [← hall, List.mem_append, List.mem_filter, ClassWorld.isLoggable] at hn
    rcases hn with hn | ⟨_, hn⟩
    · obtain ⟨f, hf⟩ := hsel n hn
      exact ⟨f, hf, .inl hn⟩
    · split at hn
      · next f hf => exact ⟨f, hf, .inr ((dunder_iff n).mp hn)⟩
      · cases hn
  obtain ⟨objs', k1, k2⟩ := fold_layer (.cls d) c bases b ls all methods w objs hnd
    (fun n hn => by rw [← hall]; exact List.mem_append_left _ hn)
    ⟨fun n hn => by
      obtain ⟨f, hf, hdn⟩ := hmem n hn
      exact ⟨f, hf, h n f hf hdn⟩, fun n hn m hm => by
      obtain ⟨f, hf, _⟩ := hmem n hn
      obtain ⟨g, hg, _⟩ := hmem m hm
      exact hb n m f g hf hg⟩
  have hw : w.decorateClass c bases methods d =
      ((methods.foldl (layerMethod (.cls d) c (c :: bases)) w).unselected (c :: bases) methods).foldl
        (ClassWorld.restoreMethod c (c :: bases)) (methods.foldl (layerMethod (.cls d) c (c :: bases)) w) := by
    rw [ClassWorld.decorateClass]
    simp only [ClassWorld.loggingMethods, if_neg hne, decorateMethod_eq]
  rw [hw]
  have hown : ∀ (names : List Str) (w : ClassWorld), (∀ i, Dict.WF (w.own i)) →
      ∀ i, Dict.WF ((names.foldl (layerMethod (.cls d) c (c :: bases)) w).own i) := by
    intro names
    induction names with
    | nil => intro w h; exact h
    | cons n names ih =>
      intro w h
      refine ih _ ?_
      intro i
      rw [layerMethod]
      split
      · simp only [ClassWorld.setattr]
        split
        · exact Dict.WF_set (h c)
        · exact h i
      · exact h i
  have hd' := hown methods w hd
  generalize methods.foldl (layerMethod (.cls d) c (c :: bases)) w = w1 at k1 k2 hd'
  have hun : w1.unselected (c :: bases) methods =
      ((w1.dir (c :: bases)).filter (w1.isLoggable (c :: bases))).filter fun n => decide (n ∉ methods) := by
    rw [ClassWorld.unselected, if_neg hne]
    simp only [ClassWorld.loggingMethods, if_true]
  have hmall : ∀ n ∈ methods, n ∈ all := fun n hn => by rw [← hall]; exact List.mem_append_left _ hn
  constructor
  · intro n hn
    obtain ⟨f', hf', hb'⟩ := k1.built n (hmall n hn)
    rw [if_pos hn] at hb'
    refine ⟨f', ?_, fun ws ha => C30_stack_amounts _ _ _ _ _ hb' ws ha⟩
    rw [restore_other _ _ _ _ _ (by rw [hun, List.mem_filter]; simp [hn]), hf']
  · intro n f hf hdn hn
    have hna : n ∈ all := by
      rw [← hall, List.mem_append, List.mem_filter, mem_dir, hf, ClassWorld.isLoggable, hf]
      exact .inr ⟨rfl, (dunder_iff n).mpr hdn⟩
    obtain ⟨f', hf', hb'⟩ := k1.built n hna
    rw [if_neg hn] at hb'
    obtain ⟨_, _, o, _, hbase, hs, hw', hbo⟩ := hb'.inv
    refine ⟨_, restore_one c bases n f' _ w1 ?_ ?_ hf', ?_, ?_⟩
    · rw [hun]
      exact ((dir_nodup w1 hd' _).filter _).filter _
    · rw [hun, List.mem_filter, List.mem_filter, mem_dir, hf', ClassWorld.isLoggable, hf']
      exact ⟨⟨rfl, (dunder_iff n).mpr hdn⟩, by simpa using hn⟩
    · rw [original_of hbase hs, hw', expected_only (hp n)]
    · rw [original_of hbase hs, hbo]

/-! Concrete classes: `a` with its own `@log(level=10)`, `b` undecorated, `__init__`, and a constant. -/

def exReg : FRegistry := (FRegistry.empty.defFn.2.logFn (cDeco 10) false (.orig 0)).2.defFn.2.defFn.2

def exClass : ClassWorld :=
  ⟨exReg, fun i => if i = 0 then
    [("a".toList, .func (.logged 1 (cDeco 10) (.orig 0))), ("b".toList, .func (.orig 2)),
      ("__init__".toList, .func (.orig 3)), ("X".toList, .value)] else []⟩

def exStack (n : Str) : List Layer := if n = "a".toList then [.log (cDeco 10)] else []

def exBottom (n : Str) : Nat := if n = "a".toList then 0 else if n = "b".toList then 2 else 3

def exObjs : List FObj := [.orig 3, .orig 2, .logged 1 (cDeco 10) (.orig 0), .orig 0]

theorem exBuilt_a : Built 0 exReg exObjs (.logged 1 (cDeco 10) (.orig 0)) [.log (cDeco 10)] :=
  .defineAnother (.defineAnother (.line (.log (cDeco 10)) (.define .start rfl)))

theorem exBuilt_b : Built 2 exReg exObjs (.orig 2) [] :=
  .defineAnother (.define (.decorate (.log (cDeco 10)) (.orig 0) (.define .start) List.mem_cons_self) rfl)

-- the hypotheses of `C30_decorating_a_class_partial` hold for it
example : ∀ n f, exClass.getattr n [0] = some (.func f) → ¬ Dunder n →
    Built (exBottom n) exClass.reg exObjs f (exStack n) := by
  intro n f hf hn
  change Built (exBottom n) exReg exObjs f (exStack n)
  have hg : exClass.getattr n [0] =
      if "a".toList = n then some (.func (.logged 1 (cDeco 10) (.orig 0)))
      else if "b".toList = n then some (.func (.orig 2))
      else if "__init__".toList = n then some (.func (.orig 3))
      else if "X".toList = n then some .value else none := by
    rw [ClassWorld.getattr, ClassWorld.getattr, Option.or_none]
    rfl
  rw [hg] at hf
  by_cases e1 : "a".toList = n
  · rw [if_pos e1] at hf
    cases hf
    rw [exBottom, exStack, if_pos e1.symm, if_pos e1.symm]
    exact exBuilt_a
  · rw [if_neg e1] at hf
    by_cases e2 : "b".toList = n
    · rw [if_pos e2] at hf
      cases hf
      rw [exBottom, exStack, if_neg (Ne.symm e1), if_pos e2.symm, if_neg (Ne.symm e1)]
      exact exBuilt_b
    · rw [if_neg e2] at hf
      by_cases e3 : "__init__".toList = n
      · exact absurd (.inl ⟨"init__".toList, by rw [← e3]; decide⟩) hn
      · rw [if_neg e3] at hf
        split at hf <;> cases hf

-- and its result: `a` keeps its own decorator, `b` has that of the class, `__init__` has none
example : (exClass.decorateClass 0 [] [] (cDeco 3)).getattr "a".toList [0] =
    some (.func (.logged 1 (cDeco 10) (.orig 0))) := rfl

example : ∃ i, (exClass.decorateClass 0 [] [] (cDeco 3)).getattr "b".toList [0] =
    some (.func (.logged i (cDeco 3) (.orig 2))) := ⟨_, rfl⟩

example : (exClass.decorateClass 0 [] [] (cDeco 3)).getattr "__init__".toList [0] =
    some (.func (.orig 3)) := rfl

/-- A decorated class and two subclasses of it. -/
def exBase : ClassWorld :=
  (⟨FRegistry.empty.defFn.2, fun i => if i = 0 then [("m".toList, .func (.orig 0))] else []⟩ :
    ClassWorld).decorateClass 0 [] [] (cDeco 1)

/-- **C30 fails** for inheritance: of two decorated subclasses of a decorated class the first replaces the
decorator of the base, but calls of the second go through both decorators and are recorded twice. -/
theorem C30_second_subclass_records_twice_fails :
    ∃ f f', (exBase.decorateClass 1 [0] [] (cDeco 2)).getattr "m".toList [1, 0] = some (.func f) ∧
      wraps f = [.log (cDeco 2)] ∧
      ((exBase.decorateClass 1 [0] [] (cDeco 2)).decorateClass 2 [0] [] (cDeco 3)).getattr "m".toList [2, 0] =
        some (.func f') ∧
      wraps f' = [.log (cDeco 3), .log (cDeco 1)] :=
  ⟨.logged 2 (cDeco 2) (.orig 0), .logged 3 (cDeco 3) (.logged 1 (cDeco 1) (.orig 0)), rfl, rfl, rfl, rfl⟩

/-- A class with a method that has its own `@unlog`, and one more method. -/
def exUnlog : ClassWorld :=
  ⟨(FRegistry.empty.defFn.2.unlogFn none (.orig 0)).2.defFn.2, fun i => if i = 0 then
    [("secret".toList, .func (.unlogged 1 none (.orig 0))), ("other".toList, .func (.orig 2))] else []⟩

/-- **C30 fails** for `methods=`: a class decorator that names only another method removes the `@unlog` of a
method; what happens inside it is recorded. -/
theorem C30_methods_argument_removes_unlog_fails :
    (∃ f, exUnlog.getattr "secret".toList [0] = some (.func f) ∧ wraps f = [.unlog none]) ∧
    ∃ f, (exUnlog.decorateClass 0 [] ["other".toList] (cDeco 3)).getattr "secret".toList [0] = some (.func f) ∧
      wraps f = [] :=
  ⟨⟨.unlogged 1 none (.orig 0), rfl, rfl⟩, .orig 0, rfl, rfl⟩

end Polog
