import Verif.Registry.BindingProps

/-! Exactly which calls of a decorated class stay what they were (C88). -/

namespace Polog
open BindSpec

namespace BindSpec

/-- A function in Python's sense: defined with `def`, or made by one of the decorators of Polog. -/
inductive IsDef : CallObj → Prop
  | fn (id : Nat) : IsDef (.fn id)
  | wrapper (f : CallObj) : IsDef (.wrapper f)

/-- `d` is `c`, or derived from it, and takes the name from `c`: no class before `c` in its order of resolution defines it. -/
def TakesFrom (w : MClasses) (d c : Nat) (name : Str) : Prop :=
  ∃ before, c ∉ before ∧ w.mro d = before ++ w.mro c ∧ ∀ e ∈ before, Dict.get? name (w.own e) = none

/-- The accesses to an attribute that a function in its place would not change: all of them if it is a function already; if not,
those through a class, where a class method needs the decorated class itself. -/
def CallsKept (a : Access) (c : Nat) (attr : Option MethodAttr) : Prop :=
  (∃ o, attr = some (.plain o) ∧ IsDef o) ∨
  ∃ d, a = .onClass d ∧ ((∃ o, attr = some (.clsm o)) → d = c)

end BindSpec

theorem CallObj.receives_inj (o : CallObj) : ∀ as bs, o.receives as = o.receives bs → as = bs := by
  induction o with
  | fn => intro as bs h; exact (Prod.mk.inj h).2
  | object => intro as bs h; exact (Prod.mk.inj h).2
  | bound f s ih => intro as bs h; exact (List.cons.inj (ih _ _ h)).2
  | wrapper f ih => intro as bs h; exact ih _ _ h

theorem CallObj.receives_longer (o : CallObj) (x : Actual) (as : List Actual) : o.receives (x :: as) ≠ o.receives as :=
  fun h => by simpa using congrArg List.length (o.receives_inj _ _ h)

theorem lookup_none_of (w : MClasses) (name : Str) (cs : List Nat) (h : ∀ e ∈ cs, Dict.get? name (w.own e) = none) :
    w.lookup name cs = none := by
  induction cs with
  | nil => rfl
  | cons c cs ih =>
    simp only [MClasses.lookup, h c (by simp), ih (fun e he => h e (by simp [he]))]
    rfl

/-- A class whose attribute is replaced by a function that passes on its arguments. -/
theorem replaced_iff {w w' : MClasses} {c : Nat} (hk : MClasses.Keeps c w w') (a : Access) (name : Str)
    (ht : TakesFrom w a.via c name) (o g : CallObj) (hr : w.readClass c name = some o)
    (hl : w'.lookup name (w.mro c) = some (.plain g)) (hg : g.isFunction = true) (hrec : ∀ as, g.receives as = o.receives as) :
    (∀ args, runs w' a name args = runs w a name args) ↔ CallsKept a c (found w name (w.mro c)) := by
  obtain ⟨before, hb, hm, hno⟩ := ht
  have h0 : w.lookup name (w.mro a.via) = w.lookup name (w.mro c) := by
    rw [hm, MClasses.lookup_append, lookup_none_of w name before hno]
    rfl
  have h1 : w'.lookup name (w'.mro a.via) = some (.plain g) := by
    rw [hk.mro, hm, MClasses.lookup_append, hk.other before name hb, lookup_none_of w name before hno, hl]
    rfl
  rw [found_eq]
  unfold MClasses.readClass at hr
  rcases a with d | ⟨d, i⟩
  · simp only [Access.via] at h0 h1
    simp only [runs_eq, MClasses.readClass, h0, h1, Option.map_some, CallsKept]
    rcases hx : w.lookup name (w.mro c) with _ | x
    · rw [hx] at hr; cases hr
    rw [hx] at hr
    rcases x with p | p | p | _
    · cases hr
      simp [hrec]
    · cases hr
      simp [hrec]
    · cases hr
      simp only [Option.map_some, Option.some.injEq, hrec, CallObj.receives]
      constructor
      · intro h
        refine .inr ⟨d, rfl, fun _ => ?_⟩
        have := CallObj.receives_inj _ _ _ (h [])
        simpa using this.symm
      · rintro (⟨o, h, -⟩ | ⟨d', h, h'⟩)
        · cases h
        · cases h
          rw [h' ⟨p, rfl⟩]
          simp
    · cases hr
  · simp only [Access.via] at h0 h1
    simp only [runs_eq, MClasses.readInst, h0, h1, hg, if_true, Option.map_some, CallsKept]
    rcases hx : w.lookup name (w.mro c) with _ | x
    · rw [hx] at hr; cases hr
    rw [hx] at hr
    rcases x with p | p | p | _
    · cases hr
      rcases o with id | ⟨f, s⟩ | id | f
      · simp only [CallObj.isFunction, if_true, Option.map_some, CallObj.receives, hrec]
        exact ⟨fun _ => .inl ⟨_, rfl, .fn id⟩, fun _ _ => trivial⟩
      · simp only [CallObj.isFunction, Bool.false_eq_true, if_false, Option.map_some, CallObj.receives, hrec, Option.some.injEq]
        refine ⟨fun h => absurd (h []) (fun e => ?_), ?_⟩
        · have := f.receives_inj _ _ e
          simp at this
        · rintro (⟨o, h, h'⟩ | ⟨d', h, -⟩)
          · cases h; cases h'
          · cases h
      · simp only [CallObj.isFunction, Bool.false_eq_true, if_false, Option.map_some, CallObj.receives, hrec, Option.some.injEq]
        refine ⟨fun h => absurd (h []) (fun e => ?_), ?_⟩
        · simp at e
        · rintro (⟨o, h, h'⟩ | ⟨d', h, -⟩)
          · cases h; cases h'
          · cases h
      · simp only [CallObj.isFunction, if_true, Option.map_some, CallObj.receives, hrec]
        exact ⟨fun _ => .inl ⟨_, rfl, .wrapper f⟩, fun _ _ => trivial⟩
    · cases hr
      simp only [Option.map_some, CallObj.receives, hrec, Option.some.injEq]
      refine ⟨fun h => absurd (h []) (CallObj.receives_longer _ _ _), ?_⟩
      rintro (⟨o, h, h'⟩ | ⟨d', h, -⟩)
      · cases h
      · cases h
    · cases hr
      simp only [Option.map_some, CallObj.receives, hrec, Option.some.injEq]
      refine ⟨fun h => absurd (h []) (fun e => ?_), ?_⟩
      · have := p.receives_inj _ _ e
        simp at this
      · rintro (⟨o, h, h'⟩ | ⟨d', h, -⟩)
        · cases h
        · cases h
    · cases hr

theorem receives_wrapped_inner (o : CallObj) (as : List Actual) : (CallObj.wrapper (inner o)).receives as = o.receives as := by
  cases o <;> rfl

/-- **C88.** Exactly which calls `@log` on a class leaves as they were. For an attribute that is logged (it can be called, and its
name neither begins nor ends with `__`) and an access through the class or something that takes the attribute from it: all calls
run the same function with the same arguments as before if and only if the attribute is a function, or the access is through a
class, which for class methods must be the decorated class itself. -/
theorem C88_logged_attribute_iff (w : MClasses) (c : Nat) (bases : List Nat) (hm : w.mro c = c :: bases) (name : Str)
    (a : Access) (ht : TakesFrom w a.via c name) (o : CallObj) (ho : viaClass w c name = some o)
    (h1 : ¬ "__".toList <+: name) (h2 : ¬ "__".toList <:+ name) :
    (∀ args, runs (w.logClass c []) a name args = runs w a name args) ↔ CallsKept a c (found w name (w.mro c)) := by
  have hl := (C88_what_log_replaces w c bases hm name).1 o ho h1 h2
  rw [found_eq] at hl
  rw [viaClass_eq] at ho
  exact replaced_iff (MClasses.Keeps.logClass w [] bases hm) a name ht o _ ho hl rfl (receives_wrapped_inner o)

/-- **C88.** The same for `@unlog`, whose attributes are those whose name does not begin with `__`. -/
theorem C88_unlogged_attribute_iff (w : MClasses) (c : Nat) (bases : List Nat) (hm : w.mro c = c :: bases) (name : Str)
    (a : Access) (ht : TakesFrom w a.via c name) (o : CallObj) (ho : viaClass w c name = some o)
    (h1 : ¬ "__".toList <+: name) :
    (∀ args, runs (w.unlogClass c) a name args = runs w a name args) ↔ CallsKept a c (found w name (w.mro c)) := by
  have hl := (C88_what_unlog_replaces w c bases hm name).1 o ho h1
  rw [found_eq] at hl
  rw [viaClass_eq] at ho
  exact replaced_iff (MClasses.Keeps.unlogClass w bases hm) a name ht o _ ho hl rfl (receives_wrapped_inner o)

/-- **C88.** With `methods=`: the same for every attribute that is named there; and for one that is not named, if it is a function
without the decorators of Polog (a static method around a function, for example), although nothing is logged for it. -/
theorem C88_methods_attribute_iff (w : MClasses) (c : Nat) (bases : List Nat) (hm : w.mro c = c :: bases)
    (methods : List Str) (hne : methods ≠ []) (name : Str)
    (a : Access) (ht : TakesFrom w a.via c name) (o : CallObj) (ho : viaClass w c name = some o)
    (hw : ∀ f, o ≠ .wrapper (.wrapper f))
    (h : name ∈ methods ∨ (name ∉ methods ∧ (∃ id, inner o = .fn id) ∧ ¬ "__".toList <+: name ∧ ¬ "__".toList <:+ name)) :
    (∀ args, runs (w.logClass c methods) a name args = runs w a name args) ↔ CallsKept a c (found w name (w.mro c)) := by
  have hl := C88_what_log_with_methods_replaces w c bases hm methods hne name (fun f e => hw f (by rw [ho] at e; exact Option.some.inj e))
  have ho' := ho
  rw [viaClass_eq] at ho'
  rcases h with hn | ⟨hn, ⟨id, hi⟩, d1, d2⟩
  · have := hl.1 o ho hn
    rw [found_eq] at this
    exact replaced_iff (MClasses.Keeps.logClass w methods bases hm) a name ht o _ ho' this rfl (receives_wrapped_inner o)
  · have := hl.2.1 o ho hn d1 d2
    rw [found_eq] at this
    exact replaced_iff (MClasses.Keeps.logClass w methods bases hm) a name ht o _ ho' this (by rw [hi]; rfl)
      (fun as => by rw [inner_eq, CallObj.receives_unwrapped])

/-- The class method of `bindWorld` through the derived class: the hypotheses hold, and the calls change. -/
example : TakesFrom bindWorld 1 0 "k".toList ∧ viaClass bindWorld 0 "k".toList = some (.bound (.fn 3) (.cls 0)) ∧
    ¬ CallsKept (.onClass 1) 0 (found bindWorld "k".toList (bindWorld.mro 0)) ∧
    CallsKept (.onClass 1) 0 (found bindWorld "s".toList (bindWorld.mro 0)) ∧
    CallsKept (.onInstance 1 7) 0 (found bindWorld "m".toList (bindWorld.mro 0)) := by
  refine ⟨⟨[1], by decide, by decide, by decide +kernel⟩, by decide +kernel, ?_, ?_, ?_⟩
  · have : found bindWorld "k".toList (bindWorld.mro 0) = some (.clsm (.fn 3)) := by decide +kernel
    rw [this]
    rintro (⟨o, h, -⟩ | ⟨d, h, h'⟩)
    · cases h
    · cases h
      exact absurd (h' ⟨_, rfl⟩) (by decide)
  · have : found bindWorld "s".toList (bindWorld.mro 0) = some (.static (.fn 2)) := by decide +kernel
    rw [this]
    exact .inr ⟨1, rfl, fun ⟨o, h⟩ => nomatch h⟩
  · have : found bindWorld "m".toList (bindWorld.mro 0) = some (.plain (.fn 1)) := by decide +kernel
    rw [this]
    exact .inl ⟨_, rfl, .fn 1⟩

end Polog
