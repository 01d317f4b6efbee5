import Verif.Calls.FnNamesSpec
import Verif.Calls.Mandatory

namespace Polog
open CallSpec FnNamesSpec

theorem withDots_joinChar : ∀ l : List Str, withDots l = joinChar '.' l
  | [] => rfl
  | [_] => rfl
  | s :: t :: u => by
    rw [withDots, joinChar, withDots_joinChar (t :: u)]
    · simp [List.append_assoc]
    · exact fun h => nomatch h

theorem secondLast_qualified {isId : Str → Bool} {path : List Scope} {name : Str} (h : Proper isId path name) :
    secondLast isId (qualifiedName path name) = classOf path := by
  obtain ⟨h1, h2, h3, h4⟩ := h
  have hs : splitChar '.' (qualifiedName path name) = path.flatMap Scope.parts ++ [name] := by
    rw [qualifiedName, withDots_joinChar, splitChar_joinChar _ _ (by simp)]
    intro p hp
    rcases List.mem_append.1 hp with hp | hp
    · obtain ⟨s, hs, hp⟩ := List.mem_flatMap.1 hp
      cases s with
      | cls n => cases List.mem_singleton.1 hp; exact h2 _ hs
      | func n =>
        rcases List.mem_cons.1 hp with rfl | hp
        · exact h2 _ hs
        · cases List.mem_singleton.1 hp; decide
    · cases List.mem_singleton.1 hp; exact h1
  unfold secondLast
  rw [hs]
  rcases List.eq_nil_or_concat path with rfl | ⟨pre, s, rfl⟩
  · rfl
  · cases s with
    | cls n => simp [classOf, Scope.parts, h3 n (by simp)]
    | func n =>
      have h4' : isId ['<', 'l', 'o', 'c', 'a', 'l', 's', '>'] = false := h4
      simp [classOf, Scope.parts, h4']

/-- **C110**: for all places in the source code, nested in any way: the class name that Polog finds for a function is that of the
class in whose body it is defined; for other functions (of a module, inside functions, also inside methods) it finds none. -/
theorem C110_class_of_a_function {isId : Str → Bool} {path : List Scope} {name module : Str} {f : FnObject}
    (hp : Proper isId path name) (hf : DefinedAs path name module f) : getClassName isId f = classOf path := by
  unfold getClassName
  rcases hf.bound with h | h <;>
    (rw [h, hf.hasQualname]; exact secondLast_qualified hp)

/-- **C110**: for a class method it is the class through which the method was taken. -/
theorem C110_class_of_a_class_method {isId : Str → Bool} {path : List Scope} {name module cls : Str} {f : FnObject}
    (hf : ClassMethodAs path name module cls f) : getClassName isId f = some cls := by
  unfold getClassName
  rw [hf.bound]

theorem extracted_absent {inter : Bool} {fields : List (Str × Extractor HVal)} {key : Str} {d d' : Dict Str HVal}
    (h : key ∉ fields.map Prod.fst) (he : FieldsSpec.Extracted inter fields d d') :
    Dict.get? key d' = Dict.get? key d := by
  induction he with
  | none => rfl
  | @more name f rest d₁ d₂ d₃ ht _ ih =>
    rw [ih fun hm => h (List.mem_cons_of_mem _ hm), ht.1]
    split
    · rename_i hk
      exact absurd (by simp [hk]) h
    · rfl

/-- The fields of an automatic record which nothing else gives are those of its function. -/
theorem untouched_field {env : CEnv} {b : Body} {r : Rec} {info : FnInfo} {o : Outcome} {key : Str} {v : Option HVal}
    (hr : r ∈ (b.run env .init).2.records) (ho : r.origin = .auto info o)
    (hk : key ∉ ["input_variables", "message", "exception_message", "exception_type", "traceback", "local_variables"].map String.toList)
    (hm : NoMessageNames b key) (hx : NoExtraField b key)
    (hv : ∀ d n, autoField env d info o none n key = v) :
    Dict.get? key r.data = v := by
  cases C75_every_record_has_a_cause env b r hr with
  | call d info' o' callee k msg hp _ hmsg h =>
    obtain ⟨ho', n, base, _, hg, hd⟩ := h
    rw [ho] at ho'
    cases ho'
    rw [extracted_absent (hx d info callee k hp) hd, hg, autoField_of_lacks (by rintro rfl; exact hk (by decide)) ?_]
    · exact hv d n
    · rintro f rfl
      obtain ⟨args, kwargs, hs, hf⟩ := hmsg
      exact messageFields_lacks (fun x hx' => hm args kwargs hs _ (List.mem_map_of_mem hx'))
        (fun h => hk (List.mem_cons_of_mem _ h)) hf
  | manual args kwargs k _ ho' h => rw [ho] at ho'; cases ho'
  | block o inner k out _ ho' h => rw [ho] at ho'; cases ho'

/-- **C110**: in every program, the automatic record of a call has the name of the function, its module and the class in whose
body it is defined (no class for other functions), if no message and no extractable field takes the place of these fields. -/
theorem C110_record_names_its_function {env : CEnv} {b : Body} {r : Rec} {isId : Str → Bool} {path : List Scope}
    {name module : Str} {f : FnObject} {inputs : Option (Option Str)} {o : Outcome}
    (hr : r ∈ (b.run env .init).2.records) (ho : r.origin = .auto (fnInfoOf isId f inputs) o)
    (hf : DefinedAs path name module f) (hp : Proper isId path name)
    (hm : ∀ key ∈ ["function", "module", "class"], NoMessageNames b key.toList)
    (hx : ∀ key ∈ ["function", "module", "class"], NoExtraField b key.toList) :
    Dict.get? "function".toList r.data = some (.str name) ∧
    Dict.get? "module".toList r.data = some (.str module) ∧
    Dict.get? "class".toList r.data = (classOf path).map .str := by
  refine ⟨untouched_field hr ho (by decide) (hm _ (by decide)) (hx _ (by decide)) fun d n => ?_,
    untouched_field hr ho (by decide) (hm _ (by decide)) (hx _ (by decide)) fun d n => ?_,
    untouched_field hr ho (by decide) (hm _ (by decide)) (hx _ (by decide)) fun d n => ?_⟩
  · show (f.name.map HVal.str) = _
    rw [hf.hasName]; rfl
  · show (f.module.map HVal.str) = _
    rw [hf.hasModule]; rfl
  · show ((getClassName isId f).map HVal.str) = _
    rw [C110_class_of_a_function hp hf]

/-- **C110**: methods for which the same class is recorded are defined in classes of the same name: the field tells methods of
classes with different names apart. -/
theorem C110_methods_of_different_classes_differ {isId : Str → Bool} {p₁ p₂ : List Scope} {c₁ c₂ n₁ n₂ m₁ m₂ : Str} {f₁ f₂ : FnObject}
    {i₁ i₂ : Option (Option Str)} (h₁ : DefinedAs (p₁ ++ [.cls c₁]) n₁ m₁ f₁) (h₂ : DefinedAs (p₂ ++ [.cls c₂]) n₂ m₂ f₂)
    (hp₁ : Proper isId (p₁ ++ [.cls c₁]) n₁) (hp₂ : Proper isId (p₂ ++ [.cls c₂]) n₂)
    (hc : (fnInfoOf isId f₁ i₁).cls = (fnInfoOf isId f₂ i₂).cls) : c₁ = c₂ := by
  have hc' : getClassName isId f₁ = getClassName isId f₂ := hc
  rw [C110_class_of_a_function hp₁ h₁, C110_class_of_a_function hp₂ h₂] at hc'
  simpa [classOf] using hc'

-- a method of a class inside a function: `make.<locals>.Account.pay` of the module `bank`
def payPath : List Scope := [.func "make".toList, .cls "Account".toList]
def payFn : FnObject := ⟨none, some "make.<locals>.Account.pay".toList, some "pay".toList, some "bank".toList⟩
def noAngles (s : Str) : Bool := !s.contains '<'
def payProg : Body := .call (.logged (cDeco 9) (fnInfoOf noAngles payFn (some none))) (.ret cVal) andReturn

theorem payProg_parts {p : Body} (h : Part p payProg) : p = payProg ∨ (∃ v, p = .ret v) ∨ (∃ e, p = .raise e) := by
  cases h with
  | self => exact .inl rfl
  | callee _ _ _ h => cases h; exact .inr (.inl ⟨_, rfl⟩)
  | afterCall _ _ _ o h =>
    cases o with
    | ret v => cases h; exact .inr (.inl ⟨_, rfl⟩)
    | raised e => cases h; exact .inr (.inr ⟨_, rfl⟩)

example : DefinedAs payPath "pay".toList "bank".toList payFn ∧ Proper noAngles payPath "pay".toList ∧
    classOf payPath = some "Account".toList ∧
    (∀ key, NoMessageNames payProg key) ∧ (∀ key, NoExtraField payProg key) ∧
    (payProg.run cEnv .init).2.records.map (fun r => (r.origin, Dict.get? "class".toList r.data)) =
      [(.auto (fnInfoOf noAngles payFn (some none)) (.ret cVal), some (.str "Account".toList))] := by
  refine ⟨⟨rfl, rfl, by decide +kernel, .inl rfl⟩, ⟨by decide, by decide +kernel, ?_, by decide +kernel⟩, rfl, ?_, ?_, by decide +kernel⟩
  · intro n hn
    rcases List.mem_cons.1 hn with h | h
    · cases h
    · cases List.mem_singleton.1 h; decide +kernel
  · rintro key args kwargs ⟨k, h⟩
    rcases payProg_parts h with h | ⟨_, h⟩ | ⟨_, h⟩ <;> cases h
  · rintro key d info callee k h
    rcases payProg_parts h with h | ⟨_, h⟩ | ⟨_, h⟩ <;> cases h
    exact List.not_mem_nil

/-- `len`: `__self__` is the module `builtins`. -/
def lenFn : FnObject := ⟨some (some "builtins".toList), some "len".toList, some "len".toList, some "builtins".toList⟩

/-- **C110 fails** for built-in functions, `log(len)`: they stand in no class, but are bound to their module, and its name is
recorded as that of a class. -/
theorem C110_built_in_functions_fails : ∃ (f : FnObject) (name : Str),
    f.qualname = some (qualifiedName [] name) ∧ Proper noAngles [] name ∧ classOf [] = none ∧
    ((Body.call (.logged (cDeco 9) (fnInfoOf noAngles f (some none))) (.ret cVal) andReturn).run cEnv .init).2.records.map
      (fun r => (Dict.get? "function".toList r.data, Dict.get? "class".toList r.data)) =
      [(some (.str name), some (.str "builtins".toList))] :=
  ⟨lenFn, "len".toList, rfl, ⟨by decide, (fun _ h => nomatch h), (fun _ h => nomatch h), by decide +kernel⟩, rfl, by decide +kernel⟩

/-- **C110 fails** for a method bound to an object that has a `__name__` of its own: it is recorded in place of the class. -/
theorem C110_bound_to_a_named_object_fails : ∃ (f : FnObject) (path : List Scope) (name own cls : Str),
    f.qualname = some (qualifiedName path name) ∧ Proper noAngles path name ∧ classOf path = some cls ∧ own ≠ cls ∧
    ((Body.call (.logged (cDeco 9) (fnInfoOf noAngles f (some none))) (.ret cVal) andReturn).run cEnv .init).2.records.map
      (fun r => Dict.get? "class".toList r.data) = [some (.str own)] := by
  refine ⟨⟨some (some "worker 1".toList), some "Worker.work".toList, some "work".toList, some "m".toList⟩,
    [.cls "Worker".toList], "work".toList, "worker 1".toList, "Worker".toList, by decide +kernel, ⟨by decide, by decide +kernel, ?_, by decide +kernel⟩, rfl, by decide,
    by decide +kernel⟩
  intro n hn
  cases List.mem_singleton.1 hn; decide +kernel

end Polog
