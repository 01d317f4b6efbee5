import Verif.Registry.BindingExact

/-! Exactly which calls stay what they were for the attributes that `methods=` does not name (C88). -/

namespace Polog
open BindSpec

/-- The accesses whose calls stay the same when an attribute is replaced by what it is without its decorator: for what was
neither a static nor a class method, those through a class, and all of them unless it was a function and is none without the
decorator; for a static method, those through a class, and all of them unless it is a function; for a class method, those through the
decorated class and its instances. -/
def BindSpec.KeptUnnamed (a : Access) (c : Nat) : Option MethodAttr → Prop
  | some (.plain o) => (∃ d, a = .onClass d) ∨ (IsDef o → IsDef (inner o))
  | some (.static o) => (∃ d, a = .onClass d) ∨ ¬ IsDef (inner o)
  | some (.clsm _) => a.via = c
  | _ => True

theorem BindSpec.isDef_iff (o : CallObj) : IsDef o ↔ o.isFunction = true := by
  cases o with
  | fn id => exact ⟨fun _ => rfl, fun _ => .fn id⟩
  | wrapper f => exact ⟨fun _ => rfl, fun _ => .wrapper f⟩
  | bound f s => exact ⟨nofun, nofun⟩
  | object id => exact ⟨nofun, nofun⟩

/-- **C88.** With `methods=`, for every attribute that is not named there, although nothing is logged for it: exactly when all calls
of an access run the same function with the same arguments as before. -/
theorem C88_unnamed_attribute_iff (w : MClasses) (c : Nat) (bases : List Nat) (hm : w.mro c = c :: bases)
    (methods : List Str) (hne : methods ≠ []) (name : Str) (hn : name ∉ methods)
    (a : Access) (ht : TakesFrom w a.via c name) (hw : ∀ f, viaClass w c name ≠ some (.wrapper (.wrapper f)))
    (h1 : ¬ "__".toList <+: name) (h2 : ¬ "__".toList <:+ name) :
    (∀ args, runs (w.logClass c methods) a name args = runs w a name args) ↔ KeptUnnamed a c (found w name (w.mro c)) := by
  have hall := C88_what_log_with_methods_replaces w c bases hm methods hne name hw
  have hk := MClasses.Keeps.logClass w methods bases hm
  obtain ⟨before, hb, hmro, hno⟩ := ht
  have h0 : w.lookup name (w.mro a.via) = w.lookup name (w.mro c) := by
    rw [hmro, MClasses.lookup_append, lookup_none_of w name before hno]
    rfl
  have h1' : ∀ x, (w.logClass c methods).lookup name (w.mro c) = x →
      (w.logClass c methods).lookup name ((w.logClass c methods).mro a.via) = x := fun x hx => by
    rw [hk.mro, hmro, MClasses.lookup_append, hk.other before name hb, lookup_none_of w name before hno, hx]
    rfl
  cases hr : viaClass w c name with
  | none =>
    have hl := hall.2.2 (.inl hr)
    simp only [found_eq] at hl ⊢
    have hl' := h1' _ hl
    rw [viaClass_eq] at hr
    unfold MClasses.readClass at hr
    have hsame : ∀ args, runs (w.logClass c methods) a name args = runs w a name args := fun args => by
      cases a with
      | onClass d => simp only [Access.via] at hl' h0; simp only [runs_eq, MClasses.readClass, hl', h0]
      | onInstance d i => simp only [Access.via] at hl' h0; simp only [runs_eq, MClasses.readInst, hl', h0]
    refine ⟨fun _ => ?_, fun _ => hsame⟩
    rcases hx : w.lookup name (w.mro c) with _ | x
    · trivial
    · rw [hx] at hr
      rcases x with p | p | p | _
      · cases hr
      · cases hr
      · cases hr
      · trivial
  | some o =>
    have hl := hall.2.1 o hr hn h1 h2
    rw [found_eq] at hl ⊢
    have hl' := h1' _ hl
    have hrec : ∀ as, (inner o).receives as = o.receives as := fun as => by rw [inner_eq, CallObj.receives_unwrapped]
    rw [viaClass_eq] at hr
    unfold MClasses.readClass at hr
    rcases hx : w.lookup name (w.mro c) with _ | x
    · rw [hx] at hr; cases hr
    rw [hx] at hr
    rcases a with d | ⟨d, i⟩
    · simp only [Access.via] at h0 hl'
      simp only [runs_eq, MClasses.readClass, h0, hl', hx, Option.map_some]
      rcases x with p | p | p | _
      · cases hr
        simp [hrec, KeptUnnamed]
      · cases hr
        simp [hrec, KeptUnnamed]
      · cases hr
        simp only [Option.map_some, Option.some.injEq, hrec, CallObj.receives, KeptUnnamed, Access.via]
        constructor
        · intro h
          have := CallObj.receives_inj _ _ _ (h [])
          simpa using this.symm
        · rintro rfl args
          rfl
      · cases hr
    · simp only [Access.via] at h0 hl'
      simp only [runs_eq, MClasses.readInst, h0, hl', hx, Option.map_some]
      rcases x with p | p | p | _
      · cases hr
        simp only [KeptUnnamed, isDef_iff, Option.map_some, Option.some.injEq]
        cases hp : (inner o).isFunction <;> cases ho : o.isFunction
        · simp [hrec]
        · simp only [Bool.false_eq_true, if_false, if_true, CallObj.receives, hrec]
          refine ⟨fun h => absurd (h []).symm (CallObj.receives_longer _ _ _), ?_⟩
          rintro (⟨d', h⟩ | h)
          · cases h
          · exact absurd (h trivial) id
        · cases o <;> simp_all [inner, CallObj.isFunction]
        · simp [hrec, CallObj.receives]
      · cases hr
        simp only [KeptUnnamed, isDef_iff, Option.map_some, Option.some.injEq]
        cases hp : (inner o).isFunction
        · simp [hrec]
        · simp only [if_true, CallObj.receives, hrec]
          refine ⟨fun h => absurd (h []) (CallObj.receives_longer _ _ _), ?_⟩
          rintro (⟨d', h⟩ | h)
          · cases h
          · exact absurd trivial h
      · cases hr
        simp only [inner, CallObj.isFunction, Bool.false_eq_true, if_false, Option.map_some, Option.some.injEq, CallObj.receives, KeptUnnamed,
          Access.via]
        constructor
        · intro h
          have := CallObj.receives_inj _ _ _ (h [])
          simpa using this.symm
        · rintro rfl args
          rfl
      · cases hr

/-- With `methods=['m']`: the static method changes through an instance, the class method only through derived classes, the nested class never. -/
example : TakesFrom bindWorld 1 0 "s".toList ∧ ¬ KeptUnnamed (.onInstance 1 7) 0 (found bindWorld "s".toList (bindWorld.mro 0)) ∧
    ¬ KeptUnnamed (.onClass 1) 0 (found bindWorld "k".toList (bindWorld.mro 0)) ∧
    KeptUnnamed (.onInstance 0 7) 0 (found bindWorld "k".toList (bindWorld.mro 0)) ∧
    KeptUnnamed (.onInstance 1 7) 0 (found bindWorld "N".toList (bindWorld.mro 0)) := by
  have e1 : found bindWorld "s".toList (bindWorld.mro 0) = some (.static (.fn 2)) := by decide +kernel
  have e2 : found bindWorld "k".toList (bindWorld.mro 0) = some (.clsm (.fn 3)) := by decide +kernel
  have e3 : found bindWorld "N".toList (bindWorld.mro 0) = some (.plain (.object 4)) := by decide +kernel
  rw [e1, e2, e3]
  refine ⟨⟨[1], by decide, by decide, by decide +kernel⟩, ?_, ?_, rfl, .inr fun h => nomatch h⟩
  · rintro (⟨d, h⟩ | h)
    · cases h
    · exact h (.fn 2)
  · intro h
    exact absurd (show (1 : Nat) = 0 from h) (by decide)

end Polog
