import Verif.Registry.BindingSpec
import Verif.Registry.Binding
import Verif.Registry.Props

/-! A decorated class: what its methods are called with (C88). -/

namespace Polog
open BindSpec

theorem BindSpec.found_eq (w : MClasses) (name : Str) (cs : List Nat) : found w name cs = w.lookup name cs := by
  unfold found
  induction cs with
  | nil => rfl
  | cons c cs ih =>
    simp only [List.findSome?_cons, MClasses.lookup, ih]
    cases Dict.get? name (w.own c) <;> rfl

theorem BindSpec.viaClass_eq (w : MClasses) (c : Nat) (name : Str) : viaClass w c name = w.readClass c name := by
  unfold viaClass MClasses.readClass
  rw [found_eq]
  rcases w.lookup name (w.mro c) with _ | a
  · rfl
  · cases a <;> rfl

theorem BindSpec.viaInstance_eq (w : MClasses) (c i : Nat) (name : Str) : viaInstance w c i name = w.readInst c i name := by
  unfold viaInstance MClasses.readInst
  rw [found_eq]
  rcases w.lookup name (w.mro c) with _ | a
  · rfl
  · rcases a with o | o | o | _
    · cases o <;> rfl
    all_goals rfl

theorem BindSpec.received_eq (o : CallObj) : ∀ as, received o as = o.receives as := by
  induction o with
  | fn => intro as; rfl
  | object => intro as; rfl
  | bound f s ih => intro as; exact ih _
  | wrapper f ih => intro as; exact ih _

theorem BindSpec.inner_eq (o : CallObj) : inner o = o.unwrapped := by
  cases o <;> rfl

theorem BindSpec.runs_eq (w : MClasses) (a : Access) (name : Str) (args : List Actual) :
    runs w a name args = (match a with
      | .onClass d => w.readClass d name
      | .onInstance d i => w.readInst d i name).map fun (o : CallObj) => o.receives args := by
  cases a <;> simp only [runs, viaClass_eq, viaInstance_eq, received_eq]

theorem CallObj.receives_unwrapped (o : CallObj) (as : List Actual) : o.unwrapped.receives as = o.receives as := by
  cases o <;> rfl

theorem BindSpec.IsMethod.receives {o : CallObj} {id : Nat} (h : IsMethod o id) (as : List Actual) :
    o.receives as = (id, as) := by
  induction h with
  | fn => rfl
  | wrapper f id _ ih => exact ih

theorem BindSpec.IsMethod.isFunction {o : CallObj} {id : Nat} (h : IsMethod o id) : o.isFunction = true := by
  cases h <;> rfl

theorem BindSpec.IsMethod.unwrapped {o : CallObj} {id : Nat} (h : IsMethod o id) : IsMethod o.unwrapped id := by
  cases h with
  | fn => exact .fn _
  | wrapper f _ h => exact h

namespace MClasses

theorem lookup_append (w : MClasses) (name : Str) (xs ys : List Nat) :
    w.lookup name (xs ++ ys) = (w.lookup name xs).or (w.lookup name ys) := by
  induction xs with
  | nil => rfl
  | cons x xs ih => simp only [List.cons_append, lookup, ih, Option.or_assoc]

theorem lookup_write_out (w : MClasses) (c : Nat) (n m : Str) (a : MethodAttr) {cs : List Nat} (h : c ∉ cs) :
    (w.write c n a).lookup m cs = w.lookup m cs := by
  induction cs with
  | nil => rfl
  | cons x xs ih =>
    simp only [List.mem_cons, not_or] at h
    simp only [lookup, ih h.2]
    simp [write, Ne.symm h.1]

theorem lookup_write_other (w : MClasses) (c : Nat) (n m : Str) (a : MethodAttr) (h : m ≠ n) (cs : List Nat) :
    (w.write c n a).lookup m cs = w.lookup m cs := by
  induction cs with
  | nil => rfl
  | cons x xs ih =>
    simp only [lookup, ih]
    by_cases hx : x = c
    · subst hx
      simp [write, Dict.get?_set, Ne.symm h]
    · simp [write, hx]

theorem lookup_write_same (w : MClasses) (c : Nat) (n : Str) (a : MethodAttr) (cs : List Nat) :
    (w.write c n a).lookup n (c :: cs) = some a := by
  simp [lookup, write, Dict.get?_set]

theorem write_mro (w : MClasses) (c : Nat) (n : Str) (a : MethodAttr) : (w.write c n a).mro = w.mro := rfl

/-- What the steps of the loops keep: the classes other than `c`, and for every name of `c` that it stays a method, stays
something else, or at least runs the same when called through the class. -/
structure Keeps (c : Nat) (w w' : MClasses) : Prop where
  mro : w'.mro = w.mro
  other : ∀ cs n, c ∉ cs → w'.lookup n cs = w.lookup n cs
  method : ∀ n o id, w.lookup n (w.mro c) = some (.plain o) → IsMethod o id →
    ∃ o', w'.lookup n (w.mro c) = some (.plain o') ∧ IsMethod o' id
  nothing : ∀ n, w.readClass c n = none → w'.lookup n (w.mro c) = w.lookup n (w.mro c)
  through : ∀ n o, w.readClass c n = some o →
    ∃ o', w'.readClass c n = some o' ∧ ∀ as, o'.receives as = o.receives as

theorem Keeps.refl (c : Nat) (w : MClasses) : Keeps c w w :=
  ⟨rfl, fun _ _ _ => rfl, fun _ o _ h1 h2 => ⟨o, h1, h2⟩, fun _ _ => rfl, fun _ o h => ⟨o, h, fun _ => rfl⟩⟩

theorem Keeps.trans {c : Nat} {w w' w'' : MClasses} (h : Keeps c w w') (h' : Keeps c w' w'') : Keeps c w w'' where
  mro := h'.mro.trans h.mro
  other cs n hc := (h'.other cs n hc).trans (h.other cs n hc)
  method n o id h1 h2 := by
    obtain ⟨o', h3, h4⟩ := h.method n o id h1 h2
    rw [← h.mro] at h3 ⊢
    exact h'.method n o' id h3 h4
  nothing n hn := by
    have e := h.nothing n hn
    have hn' : w'.readClass c n = none := by
      unfold readClass at hn ⊢
      rw [h.mro, e]
      exact hn
    have := h'.nothing n hn'
    rw [h.mro] at this
    rw [this, e]
  through n o ho := by
    obtain ⟨o', h1, h2⟩ := h.through n o ho
    obtain ⟨o'', h3, h4⟩ := h'.through n o' h1
    exact ⟨o'', h3, fun as => (h4 as).trans (h2 as)⟩

/-- One step that writes back what was read, unwrapped and perhaps wrapped again. -/
theorem Keeps.step {c : Nat} {w : MClasses} {bases : List Nat} (hm : w.mro c = c :: bases) (n : Str) (o : CallObj)
    (ho : w.readClass c n = some o) (f : CallObj → CallObj) (hf : ∀ o as, (f o).receives as = o.receives as)
    (hmeth : ∀ o id, IsMethod o id → IsMethod (f o) id) : Keeps c w (w.write c n (.plain (f o.unwrapped))) where
  mro := rfl
  other cs m hc := lookup_write_out _ _ _ _ _ hc
  method m o' id h1 h2 := by
    by_cases h : m = n
    · subst h
      have : o = o' := by
        unfold readClass at ho
        rw [h1] at ho
        exact (Option.some.inj ho).symm
      subst this
      rw [hm]
      exact ⟨_, lookup_write_same _ _ _ _ _, hmeth _ _ h2.unwrapped⟩
    · exact ⟨o', by rw [lookup_write_other _ _ _ _ _ h]; exact h1, h2⟩
  nothing m hn := by
    refine lookup_write_other _ _ _ _ _ ?_ _
    rintro rfl
    rw [ho] at hn
    cases hn
  through m o' ho' := by
    by_cases h : m = n
    · subst h
      rw [ho] at ho'
      cases ho'
      refine ⟨f o.unwrapped, ?_, fun as => by rw [hf, CallObj.receives_unwrapped]⟩
      unfold readClass
      rw [write_mro, hm, lookup_write_same]
    · refine ⟨o', ?_, fun _ => rfl⟩
      unfold readClass at ho' ⊢
      rw [write_mro, lookup_write_other _ _ _ _ _ h]
      exact ho'

theorem Keeps.fold {c : Nat} (f : MClasses → Str → MClasses)
    (hf : ∀ w n bases, w.mro c = c :: bases → Keeps c w (f w n)) (ns : List Str) :
    ∀ (w : MClasses) (bases : List Nat), w.mro c = c :: bases → Keeps c w (ns.foldl f w) := by
  induction ns with
  | nil => intro w _ _; exact Keeps.refl c w
  | cons n ns ih =>
    intro w bases h
    have h1 := hf w n bases h
    exact h1.trans (ih (f w n) bases (by rw [h1.mro]; exact h))

theorem Keeps.logOne {c : Nat} (w : MClasses) (n : Str) (bases : List Nat) (h : w.mro c = c :: bases) :
    Keeps c w (w.logOne c n) := by
  unfold MClasses.logOne
  split
  · rename_i o ho
    exact Keeps.step h n o ho .wrapper (fun _ _ => rfl) (fun _ _ h => .wrapper _ _ h)
  · exact Keeps.refl c w

theorem Keeps.restoreOne {c : Nat} (w : MClasses) (n : Str) (bases : List Nat) (h : w.mro c = c :: bases) :
    Keeps c w (w.restoreOne c n) := by
  unfold MClasses.restoreOne
  split
  · rename_i o ho
    exact Keeps.step h n o ho id (fun _ _ => rfl) (fun _ _ h => h)
  · exact Keeps.refl c w

theorem Keeps.logClass {c : Nat} (w : MClasses) (methods : List Str) (bases : List Nat) (h : w.mro c = c :: bases) :
    Keeps c w (w.logClass c methods) := by
  have h1 := Keeps.fold (MClasses.logOne c) Keeps.logOne (w.toLog c methods) w bases h
  exact h1.trans (Keeps.fold (MClasses.restoreOne c) Keeps.restoreOne _ _ bases (by rw [h1.mro]; exact h))

theorem Keeps.unlogClass {c : Nat} (w : MClasses) (bases : List Nat) (h : w.mro c = c :: bases) :
    Keeps c w (w.unlogClass c) := Keeps.fold (MClasses.logOne c) Keeps.logOne _ w bases h

theorem Keeps.runs {c : Nat} {w w' : MClasses} (h : Keeps c w w') (a : Access) (name : Str) (args : List Actual)
    (hd : DerivedFrom w a.via c) (ho : Ordinary w c name) : runs w' a name args = runs w a name args := by
  simp only [Ordinary, found_eq, viaClass_eq] at ho
  obtain ⟨before, hb, hm⟩ := hd
  have hout := h.other before name hb
  have key : w'.lookup name (w'.mro a.via) = w.lookup name (w.mro a.via) ∨
      ∃ o o' id, w.lookup name (w.mro a.via) = some (.plain o) ∧ w'.lookup name (w'.mro a.via) = some (.plain o') ∧
        IsMethod o id ∧ IsMethod o' id := by
    rw [h.mro, hm, lookup_append, lookup_append, hout]
    cases hl : w.lookup name before with
    | some x => exact .inl rfl
    | none =>
      rcases ho with ⟨o, id, h1, h2⟩ | hn
      · obtain ⟨o', h3, h4⟩ := h.method name o id h1 h2
        exact .inr ⟨o, o', id, by simpa using h1, by simpa using h3, h2, h4⟩
      · exact .inl (by simpa using h.nothing name hn)
  cases a with
  | onClass d =>
    simp only [BindSpec.runs_eq, readClass, Access.via] at key ⊢
    rcases key with e | ⟨o, o', id, h1, h2, h3, h4⟩
    · rw [e]
    · rw [h1, h2]
      simp only [Option.map_some, h3.receives, h4.receives]
  | onInstance d i =>
    simp only [BindSpec.runs_eq, readInst, Access.via] at key ⊢
    rcases key with e | ⟨o, o', id, h1, h2, h3, h4⟩
    · rw [e]
    · rw [h1, h2]
      simp only [Option.map_some, h3.isFunction, h4.isFunction, if_true, CallObj.receives, h3.receives, h4.receives]

end MClasses

/-- **C88, partly.** `@log` on a class, with or without `methods=`, changes nothing about the calls of its ordinary methods: for
every such name, through the class and through every class whose order of resolution ends with its own, and through their
instances, a call runs the same function of the user with the same arguments as before; what cannot be called stays what it
was. Missing: static methods, class methods and other callables (see below), and other orders of resolution. -/
theorem C88_decorated_class_calls_the_same_partial (w : MClasses) (c : Nat) (bases : List Nat) (hm : w.mro c = c :: bases)
    (methods : List Str) (a : Access) (name : Str) (args : List Actual) (hd : DerivedFrom w a.via c) (ho : Ordinary w c name) :
    runs (w.logClass c methods) a name args = runs w a name args :=
  (MClasses.Keeps.logClass w methods bases hm).runs a name args hd ho

/-- **C88, partly.** The same for `@unlog` on a class. -/
theorem C88_unlogged_class_calls_the_same_partial (w : MClasses) (c : Nat) (bases : List Nat) (hm : w.mro c = c :: bases)
    (a : Access) (name : Str) (args : List Actual) (hd : DerivedFrom w a.via c) (ho : Ordinary w c name) :
    runs (w.unlogClass c) a name args = runs w a name args :=
  (MClasses.Keeps.unlogClass w bases hm).runs a name args hd ho

/-- **C88.** Through the decorated class itself, `C.name(...)`, every attribute that can be called runs the same with the same
arguments as before, whatever it is: function, static method, class method, nested class. -/
theorem C88_calls_through_the_class_itself (w : MClasses) (c : Nat) (bases : List Nat) (hm : w.mro c = c :: bases)
    (methods : List Str) (name : Str) (args : List Actual) :
    (viaClass w c name).isSome = true →
      runs (w.logClass c methods) (.onClass c) name args = runs w (.onClass c) name args ∧
      runs (w.unlogClass c) (.onClass c) name args = runs w (.onClass c) name args := by
  intro h
  rw [viaClass_eq] at h
  obtain ⟨o, ho⟩ := Option.isSome_iff_exists.mp h
  obtain ⟨o1, h1, k1⟩ := (MClasses.Keeps.logClass w methods bases hm).through name o ho
  obtain ⟨o2, h2, k2⟩ := (MClasses.Keeps.unlogClass w bases hm).through name o ho
  simp only [runs_eq, ho, h1, h2, Option.map_some, k1, k2, and_self]

/-- The program of the examples: class 0 has the function 1 (`m`), a static method 2 (`s`), a class method 3 (`k`) and a nested
class 4 (`N`); class 1 is derived from it. -/
def bindWorld : MClasses where
  own c := if c = 0 then
      [("m".toList, .plain (.fn 1)), ("s".toList, .static (.fn 2)), ("k".toList, .clsm (.fn 3)), ("N".toList, .plain (.object 4))]
    else []
  mro c := if c = 0 then [0] else [c, 0]

example : Ordinary bindWorld 0 "m".toList ∧ DerivedFrom bindWorld 1 0 ∧
    runs (bindWorld.logClass 0 []) (.onInstance 1 7) "m".toList [.arg 5] = some (1, [.inst 7, .arg 5]) ∧
    (bindWorld.logClass 0 []).own 0 ≠ bindWorld.own 0 :=
  ⟨.inl ⟨.fn 1, 1, by decide +kernel, .fn 1⟩, ⟨[1], by decide, by decide⟩, by decide +kernel, by decide +kernel⟩

/-- **C88 fails for static methods**: after `@log` on the class (or `@unlog`, or `@log(methods=...)` that does not even name it)
a static method called through an instance is given the instance as an additional first argument. -/
theorem C88_static_methods_fails :
    runs bindWorld (.onInstance 0 7) "s".toList [.arg 5] = some (2, [.arg 5]) ∧
    runs (bindWorld.logClass 0 []) (.onInstance 0 7) "s".toList [.arg 5] = some (2, [.inst 7, .arg 5]) ∧
    runs (bindWorld.logClass 0 ["m".toList]) (.onInstance 0 7) "s".toList [.arg 5] = some (2, [.inst 7, .arg 5]) ∧
    runs (bindWorld.unlogClass 0) (.onInstance 0 7) "s".toList [.arg 5] = some (2, [.inst 7, .arg 5]) := by
  decide +kernel

/-- **C88 fails for class methods**: through an instance they are given the instance too; through a derived class they are given
the decorated class instead of the derived one. -/
theorem C88_class_methods_fails :
    runs bindWorld (.onInstance 0 7) "k".toList [.arg 5] = some (3, [.cls 0, .arg 5]) ∧
    runs (bindWorld.logClass 0 []) (.onInstance 0 7) "k".toList [.arg 5] = some (3, [.cls 0, .inst 7, .arg 5]) ∧
    runs bindWorld (.onClass 1) "k".toList [.arg 5] = some (3, [.cls 1, .arg 5]) ∧
    runs (bindWorld.logClass 0 []) (.onClass 1) "k".toList [.arg 5] = some (3, [.cls 0, .arg 5]) := by
  decide +kernel

/-- **C88 fails for nested classes** and other callables that are no functions: through an instance they are given the instance,
and the attribute is no longer the class but a function. -/
theorem C88_nested_classes_fails :
    runs bindWorld (.onInstance 0 7) "N".toList [.arg 5] = some (4, [.arg 5]) ∧
    runs (bindWorld.logClass 0 []) (.onInstance 0 7) "N".toList [.arg 5] = some (4, [.inst 7, .arg 5]) ∧
    viaClass bindWorld 0 "N".toList = some (.object 4) ∧
    viaClass (bindWorld.logClass 0 []) 0 "N".toList = some (.wrapper (.object 4)) := by
  decide +kernel

/-- Class 0 has the method `m` (function 1); the classes 1 and 2 are derived from it, class 2 with its own `m` (function 2);
class 3 is derived from both. -/
def diamondWorld : MClasses where
  own c := if c = 0 then [("m".toList, .plain (.fn 1))] else if c = 2 then [("m".toList, .plain (.fn 2))] else []
  mro c := if c = 0 then [0] else if c = 3 then [3, 1, 2, 0] else [c, 0]

/-- **C88 fails for other orders of resolution**: the decorator copies inherited methods into the decorated class, and in a class
derived from it and from a sibling the copy hides the method of the sibling. -/
theorem C88_diamond_fails :
    runs diamondWorld (.onInstance 3 7) "m".toList [] = some (2, [.inst 7]) ∧
    runs (diamondWorld.logClass 1 []) (.onInstance 3 7) "m".toList [] = some (1, [.inst 7]) := by
  decide +kernel

/-- Class 0 has a class method whose function is decorated itself: `@classmethod` above `@log`. -/
def doubleWorld : MClasses where
  own c := if c = 0 then [("k".toList, .clsm (.wrapper (.fn 3)))] else []
  mro c := [c]

/-- **C88 fails for decorated class methods**: `@log` on the class does not see the decorator below `@classmethod`; a call goes
through two of them and makes two records. -/
theorem C88_decorated_class_method_twice_fails :
    (doubleWorld.readClass 0 "k".toList).map CallObj.layers = some 1 ∧
    ((doubleWorld.logClass 0 []).readClass 0 "k".toList).map CallObj.layers = some 2 := by
  decide +kernel

namespace MClasses

theorem mem_names (w : MClasses) (n : Str) (cs : List Nat) : n ∈ w.names cs ↔ (w.lookup n cs).isSome = true := by
  induction cs with
  | nil => simp [names, lookup]
  | cons c cs ih =>
    have hk : n ∈ Dict.keys (w.own c) ↔ (Dict.get? n (w.own c)).isSome = true := (Dict.get?_isSome_iff n _).symm
    simp only [names, lookup, List.mem_append, List.mem_filter, decide_eq_true_eq, ih]
    by_cases h : n ∈ Dict.keys (w.own c)
    · have := hk.mp h
      simp [h, Option.isSome_or, this]
    · have h' : (Dict.get? n (w.own c)).isSome = false := by
        simpa using fun e => h (hk.mpr e)
      simp [h, Option.isSome_or, h']

theorem readClass_of_lookup {w w' : MClasses} {c : Nat} {n : Str}
    (h : w'.lookup n (w'.mro c) = w.lookup n (w.mro c)) : w'.readClass c n = w.readClass c n := by
  unfold readClass
  rw [h]

/-- What a loop that writes `g o` over every callable `o` leaves under a name, if `g` may be repeated. -/
theorem fold_replaces (c : Nat) (g : CallObj → CallObj) (f : MClasses → Str → MClasses)
    (hf : ∀ w n, f w n = match w.readClass c n with
      | some o => w.write c n (.plain (g o))
      | none => w) (n : Str) (ns : List Str) :
    ∀ (w : MClasses) (bases : List Nat), w.mro c = c :: bases →
      (∀ o, w.readClass c n = some o → g (g o) = g o) →
      (ns.foldl f w).mro = w.mro ∧
      (ns.foldl f w).lookup n (w.mro c) =
        match w.readClass c n with
        | some o => if n ∈ ns then some (.plain (g o)) else w.lookup n (w.mro c)
        | none => w.lookup n (w.mro c) := by
  induction ns with
  | nil =>
    intro w bases hm hg
    refine ⟨rfl, ?_⟩
    cases w.readClass c n <;> simp
  | cons m ns ih =>
    intro w bases hm hg
    simp only [List.foldl_cons]
    cases hr : w.readClass c m with
    | none =>
      have e : f w m = w := by rw [hf, hr]
      rw [e]
      refine ⟨(ih w bases hm hg).1, ?_⟩
      rw [(ih w bases hm hg).2]
      cases hn : w.readClass c n with
      | none => rfl
      | some o =>
        have : n ≠ m := by
          rintro rfl
          rw [hr] at hn
          cases hn
        simp [this]
    | some o =>
      have e : f w m = w.write c m (.plain (g o)) := by rw [hf, hr]
      rw [e]
      by_cases hnm : n = m
      · subst hnm
        have hl : (w.write c n (.plain (g o))).lookup n (w.mro c) = some (.plain (g o)) := by
          rw [hm]
          exact lookup_write_same _ _ _ _ _
        have hr' : (w.write c n (.plain (g o))).readClass c n = some (g o) := by
          unfold readClass
          rw [write_mro, hl]
        obtain ⟨i1, i2⟩ := ih (w.write c n (.plain (g o))) bases hm (fun o' h => by
          rw [hr'] at h
          cases h
          rw [hg o hr, hg o hr])
        refine ⟨i1, ?_⟩
        rw [write_mro] at i2
        rw [i2, hr', hl, hr]
        simp [hg o hr]
      · have hl := lookup_write_other w c m n (.plain (g o)) hnm (w.mro c)
        have hr' : (w.write c m (.plain (g o))).readClass c n = w.readClass c n :=
          readClass_of_lookup (by rw [write_mro]; exact hl)
        obtain ⟨i1, i2⟩ := ih (w.write c m (.plain (g o))) bases hm (fun o' h => hg o' (by rw [← hr']; exact h))
        refine ⟨i1, ?_⟩
        rw [write_mro] at i2
        rw [i2, hr', hl]
        cases w.readClass c n <;> simp [hnm]

theorem callable_is_named {w : MClasses} {c : Nat} {n : Str} {o : CallObj} (h : w.readClass c n = some o) :
    n ∈ w.names (w.mro c) := by
  rw [mem_names]
  unfold readClass at h
  cases hl : w.lookup n (w.mro c) with
  | some a => rfl
  | none => rw [hl] at h; cases h

end MClasses

theorem startsDunder_iff (n : Str) : startsDunder n = true ↔ "__".toList <+: n := by simp [startsDunder]

theorem endsDunder_iff (n : Str) : endsDunder n = true ↔ "__".toList <:+ n := by simp [endsDunder]

theorem MClasses.mem_toLog (w : MClasses) (c : Nat) (name : Str) : name ∈ w.toLog c [] ↔
    (∃ o, w.readClass c name = some o) ∧ ¬ "__".toList <+: name ∧ ¬ "__".toList <:+ name := by
  simp only [MClasses.toLog, if_true, List.mem_filter, Bool.and_eq_true, Bool.not_eq_true', Option.isSome_iff_exists,
    ← startsDunder_iff, ← endsDunder_iff, Bool.not_eq_true]
  constructor
  · rintro ⟨-, ⟨h1, h2⟩, h3⟩
    exact ⟨h1, h2, h3⟩
  · rintro ⟨⟨o, h1⟩, h2, h3⟩
    exact ⟨MClasses.callable_is_named h1, ⟨⟨o, h1⟩, h2⟩, h3⟩

/-- **C88.** What `@unlog` on a class replaces: every attribute that can be called and whose name does not begin with `__`,
inherited or not, becomes a function of the class itself, with one wrapper around what it was (without the wrapper it had);
all other attributes stay what they were. -/
theorem C88_what_unlog_replaces (w : MClasses) (c : Nat) (bases : List Nat) (hm : w.mro c = c :: bases) (name : Str) :
    (∀ o, viaClass w c name = some o → ¬ "__".toList <+: name →
      found (w.unlogClass c) name (w.mro c) = some (.plain (.wrapper (inner o)))) ∧
    (viaClass w c name = none ∨ "__".toList <+: name →
      found (w.unlogClass c) name (w.mro c) = found w name (w.mro c)) := by
  simp only [found_eq, viaClass_eq, inner_eq]
  have key := (MClasses.fold_replaces c (fun o => .wrapper o.unwrapped) (MClasses.logOne c)
    (fun w n => rfl) name ((w.names (w.mro c)).filter fun n => !startsDunder n) w bases hm (fun _ _ => rfl)).2
  unfold MClasses.unlogClass
  rw [key]
  constructor
  · intro o ho hd
    rw [ho]
    have hs : startsDunder name = false := by
      rw [← startsDunder_iff] at hd
      simpa using hd
    simp only [List.mem_filter, MClasses.callable_is_named ho, hs]
    simp
  · rintro (h | h)
    · rw [h]
    · have hs := (startsDunder_iff name).mpr h
      cases w.readClass c name with
      | none => rfl
      | some o => simp [List.mem_filter, hs]

/-- **C88.** What `@log` on a class replaces, without `methods=`: every attribute that can be called and whose name neither begins
nor ends with `__`, in the same way. -/
theorem C88_what_log_replaces (w : MClasses) (c : Nat) (bases : List Nat) (hm : w.mro c = c :: bases) (name : Str) :
    (∀ o, viaClass w c name = some o → ¬ "__".toList <+: name → ¬ "__".toList <:+ name →
      found (w.logClass c []) name (w.mro c) = some (.plain (.wrapper (inner o)))) ∧
    (viaClass w c name = none ∨ "__".toList <+: name ∨ "__".toList <:+ name →
      found (w.logClass c []) name (w.mro c) = found w name (w.mro c)) := by
  simp only [found_eq, viaClass_eq, inner_eq]
  have key := (MClasses.fold_replaces c (fun o => .wrapper o.unwrapped) (MClasses.logOne c)
    (fun w n => rfl) name (w.toLog c []) w bases hm (fun _ _ => rfl)).2
  have e : w.logClass c [] = (w.toLog c []).foldl (MClasses.logOne c) w := by
    simp [MClasses.logClass, MClasses.toRestore]
  rw [e, key]
  have hmem := w.mem_toLog c name
  constructor
  · intro o ho h1 h2
    rw [ho]
    simp only [if_pos (hmem.mpr ⟨⟨o, ho⟩, h1, h2⟩)]
  · intro h
    cases hr : w.readClass c name with
    | none => rfl
    | some o =>
      have : name ∉ w.toLog c [] := fun hn => by
        obtain ⟨-, h2, h3⟩ := hmem.mp hn
        rcases h with h | h | h
        · rw [hr] at h; cases h
        · exact h2 h
        · exact h3 h
      simp only [if_neg this]

/-- **C88.** With `methods=`: the named attributes that can be called get one wrapper; every other attribute that can be called
and whose name neither begins nor ends with `__` is replaced by what it was without its wrapper; the rest stays. -/
theorem C88_what_log_with_methods_replaces (w : MClasses) (c : Nat) (bases : List Nat) (hm : w.mro c = c :: bases)
    (methods : List Str) (hne : methods ≠ []) (name : Str) (hw : ∀ f, viaClass w c name ≠ some (.wrapper (.wrapper f))) :
    (∀ o, viaClass w c name = some o → name ∈ methods →
      found (w.logClass c methods) name (w.mro c) = some (.plain (.wrapper (inner o)))) ∧
    (∀ o, viaClass w c name = some o → name ∉ methods → ¬ "__".toList <+: name → ¬ "__".toList <:+ name →
      found (w.logClass c methods) name (w.mro c) = some (.plain (inner o))) ∧
    (viaClass w c name = none ∨ (name ∉ methods ∧ ("__".toList <+: name ∨ "__".toList <:+ name)) →
      found (w.logClass c methods) name (w.mro c) = found w name (w.mro c)) := by
  simp only [found_eq, viaClass_eq, inner_eq] at hw ⊢
  obtain ⟨m1, key⟩ := MClasses.fold_replaces c (fun o => .wrapper o.unwrapped) (MClasses.logOne c)
    (fun w n => rfl) name methods w bases hm (fun _ _ => rfl)
  have e : w.logClass c methods = ((methods.foldl (MClasses.logOne c) w).toRestore c methods).foldl (MClasses.restoreOne c)
      (methods.foldl (MClasses.logOne c) w) := by
    simp [MClasses.logClass, MClasses.toLog, hne]
  generalize methods.foldl (MClasses.logOne c) w = w1 at m1 key e
  have hm1 : w1.mro c = c :: bases := by rw [m1]; exact hm
  have hr1 : w1.readClass c name = (w.readClass c name).map fun o => if name ∈ methods then .wrapper o.unwrapped else o := by
    cases hr : w.readClass c name with
    | none =>
      rw [hr] at key
      rw [Option.map_none, ← hr]
      exact MClasses.readClass_of_lookup (by rw [m1]; exact key)
    | some o =>
      rw [hr] at key
      by_cases hn : name ∈ methods
      · simp only [hn, if_true] at key
        simp only [Option.map_some, hn, if_true]
        unfold MClasses.readClass
        rw [m1, key]
      · simp only [hn, if_false] at key
        simp only [Option.map_some, hn, if_false]
        rw [← hr]
        exact MClasses.readClass_of_lookup (by rw [m1]; exact key)
  obtain ⟨m2, key2⟩ := MClasses.fold_replaces c CallObj.unwrapped (MClasses.restoreOne c)
    (fun w n => rfl) name (w1.toRestore c methods) w1 bases hm1 (fun o h => by
      rw [hr1] at h
      cases hr : w.readClass c name with
      | none => rw [hr] at h; cases h
      | some o' =>
        rw [hr] at h
        have hw' : ∀ o : CallObj, (∀ f, o ≠ .wrapper (.wrapper f)) → o.unwrapped.unwrapped = o.unwrapped := by
          intro o ho
          rcases o with _ | _ | _ | f
          · rfl
          · rfl
          · rfl
          · rcases f with _ | _ | _ | f
            · rfl
            · rfl
            · rfl
            · exact absurd rfl (ho f)
        have h0 := hw' o' (fun f e => hw f (by rw [hr, e]))
        simp only [Option.map_some, Option.some.injEq] at h
        subst h
        split
        · exact h0
        · exact h0)
  have hmem : name ∈ w1.toRestore c methods ↔
      ((∃ o, w.readClass c name = some o) ∧ ¬ "__".toList <+: name ∧ ¬ "__".toList <:+ name) ∧ name ∉ methods := by
    simp only [MClasses.toRestore, hne, if_false, List.mem_filter, decide_eq_true_eq, MClasses.mem_toLog, hr1]
    cases w.readClass c name <;> simp
  rw [m1] at key2
  rw [e, key2, hr1]
  refine ⟨fun o ho hn => ?_, fun o ho hn h1 h2 => ?_, fun h => ?_⟩
  · have : name ∉ w1.toRestore c methods := fun h => (hmem.mp h).2 hn
    rw [ho] at key ⊢
    simp only [Option.map_some, this, if_false, key, hn, if_true]
  · have : name ∈ w1.toRestore c methods := hmem.mpr ⟨⟨⟨o, ho⟩, h1, h2⟩, hn⟩
    rw [ho]
    simp only [Option.map_some, this, if_true, hn, if_false]
  · have : name ∉ w1.toRestore c methods := fun h' => by
      obtain ⟨⟨⟨o, ho⟩, h1, h2⟩, hn⟩ := hmem.mp h'
      rcases h with h | ⟨-, h | h⟩
      · rw [ho] at h; cases h
      · exact h1 h
      · exact h2 h
    cases hr : w.readClass c name with
    | none =>
      rw [hr] at key
      exact key
    | some o =>
      have hn : name ∉ methods := by
        rcases h with h | ⟨h, -⟩
        · rw [hr] at h; cases h
        · exact h
      rw [hr] at key
      simp only [Option.map_some, this, if_false]
      simpa only [hn, if_false] using key

example : (bindWorld.logClass 0 ["m".toList]).lookup "m".toList [0] = some (.plain (.wrapper (.fn 1))) ∧
    (bindWorld.logClass 0 ["m".toList]).lookup "s".toList [0] = some (.plain (.fn 2)) ∧
    (∀ f, bindWorld.readClass 0 "s".toList ≠ some (.wrapper (.wrapper f))) := by
  refine ⟨by decide +kernel, by decide +kernel, fun f => ?_⟩
  have : bindWorld.readClass 0 "s".toList = some (.fn 2) := by decide +kernel
  rw [this]
  exact fun h => nomatch h

end Polog
