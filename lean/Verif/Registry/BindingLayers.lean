import Verif.Registry.BindingExact

/-! How many wrappers the calls of a decorated class go through (C88). -/

namespace Polog
open BindSpec

namespace BindSpec

/-- A call of the object goes through `n` wrappers of Polog before it reaches the user's function. -/
inductive GoesThrough : CallObj → Nat → Prop
  | fn (id : Nat) : GoesThrough (.fn id) 0
  | object (id : Nat) : GoesThrough (.object id) 0
  | bound (f : CallObj) (self : Actual) (n : Nat) : GoesThrough f n → GoesThrough (.bound f self) n
  | wrapper (f : CallObj) (n : Nat) : GoesThrough f n → GoesThrough (.wrapper f) (n + 1)

/-- What the access reads, if it can be called. -/
def reads (w : MClasses) : Access → Str → Option CallObj
  | .onClass d, name => viaClass w d name
  | .onInstance d i, name => viaInstance w d i name

end BindSpec

theorem goesThrough_iff (o : CallObj) : ∀ n, GoesThrough o n ↔ o.layers = n := by
  induction o with
  | fn id => exact fun n => ⟨fun h => by cases h; rfl, fun h => by cases h; exact .fn id⟩
  | object id => exact fun n => ⟨fun h => by cases h; rfl, fun h => by cases h; exact .object id⟩
  | bound f s ih =>
    exact fun n => ⟨fun h => by cases h with | bound _ _ _ h => exact (ih n).mp h, fun h => .bound f s n ((ih n).mpr h)⟩
  | wrapper f ih =>
    refine fun n => ⟨fun h => ?_, fun h => ?_⟩
    · cases h with
      | wrapper _ m h => exact congrArg (· + 1) ((ih m).mp h)
    · subst h
      exact .wrapper f _ ((ih _).mpr rfl)

theorem reads_replaced {w w' : MClasses} {c : Nat} (hk : MClasses.Keeps c w w') (a : Access) (name : Str)
    (ht : TakesFrom w a.via c name) (f : CallObj) (hl : w'.lookup name (w.mro c) = some (.plain (.wrapper f))) :
    ∃ o', reads w' a name = some o' ∧ o'.layers = f.layers + 1 := by
  obtain ⟨before, hb, hm, hno⟩ := ht
  have h1 : w'.lookup name (w'.mro a.via) = some (.plain (.wrapper f)) := by
    rw [hk.mro, hm, MClasses.lookup_append, hk.other before name hb, lookup_none_of w name before hno, hl]
    rfl
  cases a with
  | onClass d =>
    refine ⟨.wrapper f, ?_, rfl⟩
    simp only [reads, viaClass_eq, MClasses.readClass]
    simp only [Access.via] at h1
    rw [h1]
  | onInstance d i =>
    refine ⟨.bound (.wrapper f) (.inst i), ?_, rfl⟩
    simp only [reads, viaInstance_eq, MClasses.readInst]
    simp only [Access.via] at h1
    rw [h1]
    rfl

theorem layers_inner (o : CallObj) : ((∃ f, o = .wrapper f) → (inner o).layers + 1 = o.layers) ∧
    ((¬ ∃ f, o = .wrapper f) → (inner o).layers + 1 = o.layers + 1) := by
  cases o <;> simp [inner, CallObj.layers]

theorem wrappers_of {w w' : MClasses} {c : Nat} (hk : MClasses.Keeps c w w') (a : Access) (name : Str)
    (ht : TakesFrom w a.via c name) (o : CallObj) (n : Nat) (hn : GoesThrough o n)
    (hl : w'.lookup name (w.mro c) = some (.plain (.wrapper (inner o)))) :
    ∃ o', reads w' a name = some o' ∧
      ((∃ f, o = .wrapper f) → GoesThrough o' n) ∧ ((¬ ∃ f, o = .wrapper f) → GoesThrough o' (n + 1)) := by
  obtain ⟨o', h1, h2⟩ := reads_replaced hk a name ht (inner o) hl
  have hn := (goesThrough_iff o n).mp hn
  refine ⟨o', h1, fun h => ?_, fun h => ?_⟩
  · exact (goesThrough_iff _ _).mpr (h2.trans (((layers_inner o).1 h).trans hn))
  · exact (goesThrough_iff _ _).mpr (h2.trans (((layers_inner o).2 h).trans (by rw [hn])))

/-- **C88.** How many wrappers of Polog the calls of a decorated class go through. An attribute that is itself a function made by
Polog gets a new wrapper in place of the outermost one: their number stays what it was. Everything else (and so a class method,
whatever is below `@classmethod`) gets one more. With `@log`, for every attribute that is logged, and with `@unlog`; through the
class, through what takes the attribute from it, and through the instances. -/
theorem C88_number_of_wrappers (w : MClasses) (c : Nat) (bases : List Nat) (hm : w.mro c = c :: bases) (name : Str)
    (a : Access) (ht : TakesFrom w a.via c name) (o : CallObj) (ho : viaClass w c name = some o) (n : Nat)
    (hn : GoesThrough o n) (h1 : ¬ "__".toList <+: name) :
    (¬ "__".toList <:+ name → ∃ o', reads (w.logClass c []) a name = some o' ∧
      ((∃ f, o = .wrapper f) → GoesThrough o' n) ∧ ((¬ ∃ f, o = .wrapper f) → GoesThrough o' (n + 1))) ∧
    ∃ o', reads (w.unlogClass c) a name = some o' ∧
      ((∃ f, o = .wrapper f) → GoesThrough o' n) ∧ ((¬ ∃ f, o = .wrapper f) → GoesThrough o' (n + 1)) := by
  refine ⟨fun h2 => ?_, ?_⟩
  · have hl := (C88_what_log_replaces w c bases hm name).1 o ho h1 h2
    rw [found_eq] at hl
    exact wrappers_of (MClasses.Keeps.logClass w [] bases hm) a name ht o n hn hl
  · have hl := (C88_what_unlog_replaces w c bases hm name).1 o ho h1
    rw [found_eq] at hl
    exact wrappers_of (MClasses.Keeps.unlogClass w bases hm) a name ht o n hn hl

/-- The class method with a decorator below `@classmethod` goes through one wrapper, and is no wrapper itself. -/
example : TakesFrom doubleWorld 0 0 "k".toList ∧
    ∃ o, viaClass doubleWorld 0 "k".toList = some o ∧ GoesThrough o 1 ∧ ¬ ∃ f, o = .wrapper f :=
  ⟨⟨[], by decide, rfl, fun _ h => nomatch h⟩, .bound (.wrapper (.fn 3)) (.cls 0), by decide +kernel,
    .bound _ _ _ (.wrapper _ _ (.fn 3)), fun ⟨_, h⟩ => nomatch h⟩

end Polog
