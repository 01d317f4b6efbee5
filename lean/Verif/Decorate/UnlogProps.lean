import Verif.Decorate.Unlog
import Verif.Decorate.ClassProps

/-!
# C104: what can be given to `unlog`
-/

namespace Polog
open DecorateSpec

namespace DecorateSpec

/-- The class has a method of this name that `@unlog` is for. -/
def HasUnloggable (w : DWorld) (mro : List Nat) (n : Str) : Prop :=
  ((∃ f, w.getattr n mro = some (.func f)) ∨ w.getattr n mro = some .builtin) ∧ ¬ "__".toList <+: n

end DecorateSpec

theorem unloggable_dunder_iff (n : Str) : startsDunder n = true ↔ "__".toList <+: n := by
  rw [startsDunder, List.isPrefixOf_iff_prefix]

namespace DWorld

theorem unlogMethod_cases (c : Nat) (bases : List Nat) (full : Option Bool) (w : DWorld) (n : Str) :
    (HasUnloggable w (c :: bases) n ∧ w.getattr n (c :: bases) = some .builtin ∧
      unlogMethod c (c :: bases) full w n = (w, some .typeError)) ∨
    (∃ f, HasUnloggable w (c :: bases) n ∧ w.getattr n (c :: bases) = some (.func f) ∧
      unlogMethod c (c :: bases) full w n =
        ({ w with reg := (w.reg.unlogFn full f).2 }.setattr c n (.func (w.reg.unlogFn full f).1), none)) ∨
    (¬ HasUnloggable w (c :: bases) n ∧ unlogMethod c (c :: bases) full w n = (w, none)) := by
  unfold unlogMethod HasUnloggable
  rw [← unloggable_dunder_iff]
  by_cases hd : startsDunder n = true
  · simp [hd]
  · cases hg : w.getattr n (c :: bases) with
    | none => simp [hd]
    | some a => cases a <;> simp [hd]

theorem unlogFn_shape (r : FRegistry) (full : Option Bool) (f : FObj) :
    ∃ k g, (r.unlogFn full f).1 = .unlogged k full g ∧ (g = f ∨ g = r.original f) := by
  unfold FRegistry.unlogFn
  by_cases h : r.isDecorator f = true
  · exact ⟨_, _, rfl, .inr (by simp [h])⟩
  · exact ⟨_, _, rfl, .inl (by simp [h])⟩

/-- Without built-in methods among the names: no exception; what was a method is unlogged, the rest stays. -/
theorem unlogMethods_funcs {c : Nat} {bases : List Nat} {full : Option Bool} (names : List Str) :
    ∀ w : DWorld, (∀ n ∈ names, HasUnloggable w (c :: bases) n → w.getattr n (c :: bases) ≠ some .builtin) →
      (unlogMethods c (c :: bases) full names w).2 = none ∧
      (∀ m, (m ∉ names ∨ ¬ HasUnloggable w (c :: bases) m →
          (unlogMethods c (c :: bases) full names w).1.getattr m (c :: bases) = w.getattr m (c :: bases)) ∧
        (m ∈ names → HasUnloggable w (c :: bases) m → ∃ k g,
          (unlogMethods c (c :: bases) full names w).1.getattr m (c :: bases) =
            some (.func (.unlogged k full g)))) := by
  induction names with
  | nil => intro w _; exact ⟨rfl, fun m => ⟨fun _ => rfl, nofun⟩⟩
  | cons n ns ih =>
    intro w h
    rcases unlogMethod_cases c bases full w n with ⟨hh, hb, _⟩ | ⟨f, hh, hf, hs⟩ | ⟨hn, hs⟩
    · exact absurd hb (h n List.mem_cons_self hh)
    · obtain ⟨k, g, hshape, _⟩ := unlogFn_shape w.reg full f
      have hget : ∀ m, (unlogMethod c (c :: bases) full w n).1.getattr m (c :: bases) =
          if m = n then some (.func (.unlogged k full g)) else w.getattr m (c :: bases) := by
        intro m
        rw [hs]
        simp only [getattr_setattr, setattr_reg, hshape]
      have hhas : ∀ m, HasUnloggable (unlogMethod c (c :: bases) full w n).1 (c :: bases) m ↔
          HasUnloggable w (c :: bases) m := by
        intro m
        by_cases hm : m = n
        · subst hm
          refine ⟨fun _ => hh, fun _ => ⟨.inl ⟨_, (hget m).trans (if_pos rfl)⟩, hh.2⟩⟩
        · unfold HasUnloggable
          rw [hget, if_neg hm]
      have heq : unlogMethods c (c :: bases) full (n :: ns) w =
          unlogMethods c (c :: bases) full ns (unlogMethod c (c :: bases) full w n).1 := by
        rw [unlogMethods, hs]
      have ih := ih (unlogMethod c (c :: bases) full w n).1 (by
        intro m hm hu
        rw [hget]
        split
        · exact nofun
        · exact h m (List.mem_cons_of_mem _ hm) ((hhas m).1 hu))
      rw [heq]
      refine ⟨ih.1, fun m => ⟨?_, ?_⟩⟩
      · intro hm
        have hmn : m ≠ n := by
          rintro rfl
          rcases hm with hm | hm
          · exact hm List.mem_cons_self
          · exact hm hh
        rw [(ih.2 m).1, hget, if_neg hmn]
        rcases hm with hm | hm
        · exact .inl fun hx => hm (List.mem_cons_of_mem _ hx)
        · exact .inr fun hx => hm ((hhas m).1 hx)
      · intro hm hu
        by_cases hmem : m ∈ ns
        · exact (ih.2 m).2 hmem ((hhas m).2 hu)
        · rw [(ih.2 m).1 (.inl hmem), hget, if_pos ((List.mem_cons.1 hm).resolve_right hmem)]
          exact ⟨_, _, rfl⟩
    · have heq : unlogMethods c (c :: bases) full (n :: ns) w = unlogMethods c (c :: bases) full ns w := by
        rw [unlogMethods, hs]
      rw [heq]
      have ih := ih w fun m hm => h m (List.mem_cons_of_mem _ hm)
      refine ⟨ih.1, fun m => ⟨?_, ?_⟩⟩
      · intro hm
        refine (ih.2 m).1 (hm.imp_left fun hx hmem => hx (List.mem_cons_of_mem _ hmem))
      · intro hm hu
        rcases List.mem_cons.1 hm with rfl | hm
        · exact absurd hu hn
        · exact (ih.2 m).2 hm hu

/-- A built-in method among the names: `TypeError`. -/
theorem unlogMethods_builtin {c : Nat} {bases : List Nat} {full : Option Bool} (names : List Str) :
    ∀ w : DWorld, (∃ n ∈ names, HasUnloggable w (c :: bases) n ∧ w.getattr n (c :: bases) = some .builtin) →
      (unlogMethods c (c :: bases) full names w).2 = some .typeError := by
  induction names with
  | nil => rintro w ⟨n, hn, _⟩; cases hn
  | cons n ns ih =>
    rintro w ⟨b, hb, hu, hbb⟩
    rw [unlogMethods]
    rcases unlogMethod_cases c bases full w n with ⟨_, _, hs⟩ | ⟨f, hh, hf, hs⟩ | ⟨hn, hs⟩
    · rw [hs]
    · rw [hs]
      have hne : b ≠ n := by
        rintro rfl
        rw [hf] at hbb
        cases hbb
      have hg : ({ w with reg := (w.reg.unlogFn full f).2 }.setattr c n
          (.func (w.reg.unlogFn full f).1)).getattr b (c :: bases) = some .builtin := by
        rw [getattr_setattr, if_neg hne, setattr_reg]
        exact hbb
      exact ih _ ⟨b, (List.mem_cons.1 hb).resolve_left hne, ⟨.inr hg, hu.2⟩, hg⟩
    · rw [hs]
      refine ih _ ⟨b, (List.mem_cons.1 hb).resolve_left ?_, hu, hbb⟩
      rintro rfl
      exact hn hu

theorem simple_unlogMethods {c : Nat} {bases : List Nat} {full : Option Bool} (names : List Str) : ∀ w : DWorld,
    (∀ n ∈ names, HasUnloggable w (c :: bases) n → w.getattr n (c :: bases) ≠ some .builtin) →
      (unlogMethods c (c :: bases) full names w).1.simple =
        names.foldl (ClassWorld.unlogMethod c (c :: bases) full) w.simple := by
  induction names with
  | nil => intro w _; rfl
  | cons n ns ih =>
    intro w h
    rw [List.foldl_cons, unlogMethods]
    rcases unlogMethod_cases c bases full w n with ⟨hh, hb, _⟩ | ⟨f, hh, hf, hs⟩ | ⟨hn, hs⟩
    · exact absurd hb (h n List.mem_cons_self hh)
    · have hsg : w.simple.getattr n (c :: bases) = some (.func f) := by rw [simple_getattr, hf]; rfl
      have hnd : startsDunder n = false := by
        cases hd : startsDunder n with
        | false => rfl
        | true => exact absurd ((unloggable_dunder_iff n).1 hd) hh.2
      rw [hs]
      dsimp only
      rw [ih]
      · congr 1
        rw [simple_setattr, ClassWorld.unlogMethod, hsg, hnd]
        rfl
      · intro m hm hu
        rw [getattr_setattr]
        split
        · exact nofun
        · next hmn =>
          rw [setattr_reg]
          refine h m (List.mem_cons_of_mem _ hm) ?_
          unfold HasUnloggable at hu ⊢
          rw [getattr_setattr, if_neg hmn, setattr_reg] at hu
          exact hu
    · rw [hs]
      dsimp only
      rw [ih w fun m hm => h m (List.mem_cons_of_mem _ hm)]
      congr 1
      rw [ClassWorld.unlogMethod]
      split
      · rfl
      · next hd =>
        rw [simple_getattr]
        cases hg : w.getattr n (c :: bases) with
        | none => rfl
        | some a =>
          cases a with
          | func f => exact absurd ⟨.inl ⟨f, hg⟩, fun hx => hd ((unloggable_dunder_iff n).2 hx)⟩ hn
          | builtin => rfl
          | value => rfl

end DWorld

/-- **C104, what `unlog` refuses**: exactly an object that cannot be called, and more than one object. Nothing is
changed then. -/
theorem C104_what_unlog_refuses (order : List Str → List Str) (args : List UArg) (full : Option Bool) (w : DWorld) :
    ((w.unlogCall order args full).2 = .error .incorrectUse ↔ args = [.other] ∨ 2 ≤ args.length) ∧
    (args = [.other] ∨ 2 ≤ args.length → (w.unlogCall order args full).1 = w) := by
  match args with
  | [] => simp [DWorld.unlogCall]
  | [.other] => simp [DWorld.unlogCall, DWorld.unlogDecorator]
  | [.fn f] => simp [DWorld.unlogCall, DWorld.unlogDecorator]
  | [.builtin] => simp [DWorld.unlogCall, DWorld.unlogDecorator]
  | _ :: _ :: _ => simp [DWorld.unlogCall]
  | [.cls c bases] =>
    have h : (DWorld.unlogMethods c (c :: bases) full (order (w.dir (c :: bases))) w).2 = none ∨
        (DWorld.unlogMethods c (c :: bases) full (order (w.dir (c :: bases))) w).2 = some .typeError := by
      by_cases hx : ∃ n ∈ order (w.dir (c :: bases)), HasUnloggable w (c :: bases) n ∧
          w.getattr n (c :: bases) = some .builtin
      · exact .inr (DWorld.unlogMethods_builtin _ w hx)
      · exact .inl (DWorld.unlogMethods_funcs _ w fun n hn hu hb => hx ⟨n, hn, hu, hb⟩).1
    simp only [DWorld.unlogCall, DWorld.unlogDecorator]
    revert h
    cases DWorld.unlogMethods c (c :: bases) full (order (w.dir (c :: bases))) w with
    | mk w' e =>
      rintro (h | h) <;> (dsimp only at h; subst h; simp)

/-- **C104, with and without brackets**: `@unlog`, `@unlog()` and `@unlog(full=...)` do the same to what follows as
`unlog(obj)` and `unlog(obj, full=...)`. -/
theorem C104_with_and_without_brackets (order : List Str → List Str) (full : Option Bool) (w : DWorld) (obj : UArg) :
    DWorld.useDecorator order obj (w.unlogCall order [] full) = w.unlogCall order [obj] full := rfl

/-- **C104, functions**: `unlog(f)` is a wrapper of `f`, or of what `f` was before it was logged; the classes stay
what they are. -/
theorem C104_functions (order : List Str → List Str) (full : Option Bool) (w : DWorld) (f : FObj) :
    ∃ k g, (w.unlogCall order [.fn f] full).2 = .ok (.fn (.unlogged k full g)) ∧ (g = f ∨ g = w.reg.original f) ∧
      (w.unlogCall order [.fn f] full).1.own = w.own := by
  obtain ⟨k, g, h, hg⟩ := DWorld.unlogFn_shape w.reg full f
  refine ⟨k, g, ?_, hg, rfl⟩
  show Except.ok (URes.fn (w.reg.unlogFn full f).1) = _
  rw [h]

/-- **C104, classes** (partial: classes without methods of built-in types): the class itself is returned; every
function in it whose name does not begin with `__` is unlogged, everything else stays what it is. -/
theorem C104_classes_partial (order : List Str → List Str) (ho : ∀ l, (order l).Perm l) (full : Option Bool)
    (w : DWorld) (c : Nat) (bases : List Nat)
    (hb : ∀ n, HasUnloggable w (c :: bases) n → w.getattr n (c :: bases) ≠ some .builtin) :
    (w.unlogCall order [.cls c bases] full).2 = .ok (.cls c) ∧
    ∀ n, (HasUnloggable w (c :: bases) n → ∃ k g,
        (w.unlogCall order [.cls c bases] full).1.getattr n (c :: bases) = some (.func (.unlogged k full g))) ∧
      (¬ HasUnloggable w (c :: bases) n →
        (w.unlogCall order [.cls c bases] full).1.getattr n (c :: bases) = w.getattr n (c :: bases)) := by
  have h := DWorld.unlogMethods_funcs (c := c) (bases := bases) (full := full) (order (w.dir (c :: bases))) w
    fun n _ => hb n
  have hmem : ∀ n, HasUnloggable w (c :: bases) n → n ∈ order (w.dir (c :: bases)) := by
    intro n hn
    rw [(ho _).mem_iff, DWorld.mem_dir]
    rcases hn.1 with ⟨f, hf⟩ | hf <;> simp [hf]
  simp only [DWorld.unlogCall, DWorld.unlogDecorator]
  revert h
  cases DWorld.unlogMethods c (c :: bases) full (order (w.dir (c :: bases))) w with
  | mk w' e =>
    rintro ⟨h1, h2⟩
    dsimp only at h1 h2
    subst h1
    exact ⟨rfl, fun n => ⟨fun hn => (h2 n).2 (hmem n hn) hn, fun hn => (h2 n).1 (.inr hn)⟩⟩

/-- **C104, classes of functions**: the classes afterwards are those of the model of C30, so that the theorems of C30
and C29 hold for them. -/
theorem C104_class_as_in_C30 (full : Option Bool) (w : DWorld) (c : Nat) (bases : List Nat)
    (hb : ∀ n, HasUnloggable w (c :: bases) n → w.getattr n (c :: bases) ≠ some .builtin) :
    (w.unlogCall id [.cls c bases] full).1.simple = w.simple.unlogClass c bases full := by
  have h := DWorld.simple_unlogMethods (c := c) (bases := bases) (full := full) (w.dir (c :: bases)) w
    fun n _ => hb n
  rw [ClassWorld.unlogClass, DWorld.simple_dir, ← h]
  simp only [DWorld.unlogCall, DWorld.unlogDecorator, id_eq]
  cases DWorld.unlogMethods c (c :: bases) full (w.dir (c :: bases)) w with
  | mk w' e => cases e <;> rfl

/-- **C104 fails: built-in functions.** `unlog(list.append)` is refused with a `TypeError`, though it can be called; nothing is changed. -/
theorem C104_built_in_functions_fails (order : List Str → List Str) (full : Option Bool) (w : DWorld) :
    w.unlogCall order [.builtin] full = (w, .error .typeError) := rfl

/-- **C104 fails for classes with built-in methods**: a class that inherits a method of a built-in type, as every
subclass of `Exception` or `list` does, is refused with a `TypeError`. -/
theorem C104_built_in_methods_fails (order : List Str → List Str) (ho : ∀ l, (order l).Perm l) (full : Option Bool)
    (w : DWorld) (c : Nat) (bases : List Nat) (n : Str) (hn : HasUnloggable w (c :: bases) n)
    (hb : w.getattr n (c :: bases) = some .builtin) :
    (w.unlogCall order [.cls c bases] full).2 = .error .typeError := by
  have h := DWorld.unlogMethods_builtin (c := c) (bases := bases) (full := full) (order (w.dir (c :: bases))) w
    ⟨n, by rw [(ho _).mem_iff, DWorld.mem_dir]; simp [hb], hn, hb⟩
  simp only [DWorld.unlogCall, DWorld.unlogDecorator]
  revert h
  cases DWorld.unlogMethods c (c :: bases) full (order (w.dir (c :: bases))) w with
  | mk w' e =>
    intro h
    dsimp only at h
    subst h
    rfl

/-! ### Cases -/

/-- Class 0 is a subclass of `Exception` (class 1) with a method `act`; class 2 has the method `run` and an attribute,
class 3 is a subclass of it with no attributes of its own. -/
def uWorld : DWorld :=
  ⟨FRegistry.empty.defFn.2.defFn.2, fun i =>
    if i = 0 then [("act".toList, .func (.orig 0))]
    else if i = 1 then [("with_traceback".toList, .builtin), ("add_note".toList, .builtin)]
    else if i = 2 then [("run".toList, .func (.orig 1)), ("x".toList, .value)]
    else []⟩

example : HasUnloggable uWorld [0, 1] "add_note".toList ∧ uWorld.getattr "add_note".toList [0, 1] = some .builtin :=
  ⟨⟨.inr rfl, by decide +kernel⟩, rfl⟩

-- the hypothesis of `C104_classes_partial` for class 3
example : HasUnloggable uWorld [3, 2] "run".toList ∧
    ∀ n, HasUnloggable uWorld [3, 2] n → uWorld.getattr n [3, 2] ≠ some .builtin := by
  refine ⟨⟨.inl ⟨.orig 1, rfl⟩, by decide +kernel⟩, ?_⟩
  intro n _ h
  have h : Dict.get? n (uWorld.own 2) = some .builtin := by
    have h3 : uWorld.own 3 = [] := rfl
    simpa only [DWorld.getattr, Option.or_none, h3, Dict.get?, Option.none_or] using h
  have hall : ∀ x ∈ uWorld.own 2, x.2 ≠ .builtin := by
    intro x hx
    rcases List.mem_cons.1 hx with rfl | hx
    · exact nofun
    · rcases List.mem_cons.1 hx with rfl | hx
      · exact nofun
      · cases hx
  have : ∀ d : Dict Str DAttr, (∀ x ∈ d, x.2 ≠ .builtin) → Dict.get? n d ≠ some .builtin := by
    intro d
    induction d with
    | nil => intro _; exact nofun
    | cons y ys ih =>
      intro hd
      rw [Dict.get?]
      split
      · intro e
        exact hd y List.mem_cons_self (Option.some.inj e)
      · exact ih fun x hx => hd x (List.mem_cons_of_mem _ hx)
  exact this _ hall h

/-- **C104 fails: an exception may leave the class half done**: `@unlog` on the class 0, whose names are in the order
`act`, `add_note`, `with_traceback`, raises, and `act` is unlogged afterwards. -/
theorem C104_failed_unlog_changes_nothing_fails :
    ∃ w' k, uWorld.unlogCall List.reverse [.cls 0 [1]] none = (w', .error .typeError) ∧
      uWorld.getattr "act".toList [0, 1] = some (.func (.orig 0)) ∧
      w'.getattr "act".toList [0, 1] = some (.func (.unlogged k none (.orig 0))) :=
  ⟨_, _, rfl, rfl, rfl⟩

/-- **C104 fails: `@unlog` on a class is not confined to that class**: after `@unlog` on the subclass 3 the class 2 still
has its method as it was, but `@log` on class 2, which would have logged it, makes it unlogged. -/
theorem C104_unlogging_a_subclass_forbids_its_base_fails :
    (uWorld.unlogCall id [.cls 3 [2]] none).1.getattr "run".toList [2] = some (.func (.orig 1)) ∧
    (∃ k d, (uWorld.decorateClass dEnv id 2 [] false [] []).1.getattr "run".toList [2] =
      some (.func (.logged k d (.orig 1)))) ∧
    (∃ k, ((uWorld.unlogCall id [.cls 3 [2]] none).1.decorateClass dEnv id 2 [] false [] []).1.getattr
      "run".toList [2] = some (.func (.unlogged k none (.orig 1)))) :=
  ⟨rfl, ⟨_, _, rfl⟩, ⟨_, rfl⟩⟩

end Polog
