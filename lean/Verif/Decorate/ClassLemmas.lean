import Verif.Decorate.Lemmas
import Verif.Registry.Model

namespace Polog
open DecorateSpec

namespace DWorld

theorem getattr_setattr (w : DWorld) (c : Nat) (n m : Str) (a : DAttr) (bases : List Nat) :
    (w.setattr c n a).getattr m (c :: bases) = if m = n then some a else w.getattr m (c :: bases) := by
  by_cases h : m = n
  · subst h
    simp [getattr, setattr, Dict.get?_set_self]
  · rw [if_neg h]
    have : ∀ mro : List Nat, (w.setattr c n a).getattr m mro = w.getattr m mro := by
      intro mro
      induction mro with
      | nil => rfl
      | cons x mro ih =>
        simp only [getattr, ih]
        congr 1
        unfold setattr
        by_cases hx : x = c
        · subst hx; simp [Dict.get?_set, h, Ne.symm h]
        · simp [hx]
    exact this _

theorem setattr_reg (w : DWorld) (r : FRegistry) (m : Str) (mro : List Nat) :
    ({ w with reg := r } : DWorld).getattr m mro = w.getattr m mro := by
  induction mro with
  | nil => rfl
  | cons x mro ih => simp [getattr, ih]

theorem mem_dir (w : DWorld) (n : Str) (mro : List Nat) : n ∈ w.dir mro ↔ w.getattr n mro ≠ none := by
  induction mro with
  | nil => simp [dir, getattr]
  | cons c mro ih =>
    simp only [dir, getattr, List.mem_append, List.mem_filter, ih, decide_eq_true_eq]
    rw [← Dict.get?_eq_none_iff, ← Dict.get?_isSome_iff]
    cases Dict.get? n (w.own c) <;> simp

theorem isLoggable_iff (w : DWorld) (mro : List Nat) (n : Str) : w.isLoggable mro n = true ↔ HasMethod w mro n := by
  have hd : (!startsDunder n && !endsDunder n) = true ↔ ¬ ("__".toList <+: n ∨ "__".toList <:+ n) := by
    simp only [startsDunder, endsDunder, Bool.and_eq_true, Bool.not_eq_true', not_or]
    rw [← Bool.not_eq_true, ← Bool.not_eq_true, List.isPrefixOf_iff_prefix, List.isSuffixOf_iff_suffix]
  unfold isLoggable HasMethod
  rw [← hd]
  split <;> simp_all

theorem mem_loggable {order : List Str → List Str} (ho : ∀ l, (order l).Perm l) (w : DWorld) (mro : List Nat)
    (n : Str) : n ∈ w.loggable order mro ↔ HasMethod w mro n := by
  unfold loggable
  rw [List.mem_filter, isLoggable_iff, (ho _).mem_iff, mem_dir]
  constructor
  · exact And.right
  · intro h
    refine ⟨?_, h⟩
    rcases h.1 with ⟨f, hf⟩ | hf <;> simp [hf]

/-- The step for a name of a function. -/
theorem decorateMethod_func {c : Nat} {mro : List Nat} {d : Deco} {w : DWorld} {n : Str} {f : FObj}
    (h : w.getattr n mro = some (.func f)) :
    decorateMethod c mro none d w (.str n) =
      ({ w with reg := (w.reg.logFn d true f).2 }.setattr c n (.func (w.reg.logFn d true f).1), none) := by
  simp [decorateMethod, h]

/-- Decorating only functions: no exception, every other attribute stays, the functions remain functions. -/
theorem decorateMethods_funcs {c : Nat} {bases : List Nat} {d : Deco} (names : List Str) :
    ∀ w : DWorld, (∀ n ∈ names, ∃ f, w.getattr n (c :: bases) = some (.func f)) →
      (decorateMethods c (c :: bases) none d (names.map HVal.str) w).2 = none ∧
      ∀ m, (m ∉ names → (decorateMethods c (c :: bases) none d (names.map HVal.str) w).1.getattr m (c :: bases) =
          w.getattr m (c :: bases)) ∧
        (m ∈ names → ∃ f, (decorateMethods c (c :: bases) none d (names.map HVal.str) w).1.getattr m (c :: bases) =
          some (.func f)) := by
  induction names with
  | nil => intro w _; exact ⟨rfl, fun m => ⟨fun _ => rfl, nofun⟩⟩
  | cons n ns ih =>
    intro w h
    obtain ⟨f, hf⟩ := h n List.mem_cons_self
    have hstep := decorateMethod_func (c := c) (d := d) hf
    have hget : ∀ m, (decorateMethod c (c :: bases) none d w (.str n)).1.getattr m (c :: bases) =
        if m = n then some (.func (w.reg.logFn d true f).1) else w.getattr m (c :: bases) := by
      intro m
      rw [hstep]
      simp only [getattr_setattr, setattr_reg]
    have heq : decorateMethods c (c :: bases) none d ((n :: ns).map HVal.str) w =
        decorateMethods c (c :: bases) none d (ns.map HVal.str)
          (decorateMethod c (c :: bases) none d w (.str n)).1 := by
      rw [List.map_cons, decorateMethods, hstep]
    rw [heq]
    have ih := ih (decorateMethod c (c :: bases) none d w (.str n)).1 (by
      intro m hm
      rw [hget]
      split
      · exact ⟨_, rfl⟩
      · exact h m (List.mem_cons_of_mem _ hm))
    refine ⟨ih.1, fun m => ⟨?_, ?_⟩⟩
    · intro hm
      rw [List.mem_cons, not_or] at hm
      rw [(ih.2 m).1 hm.2, hget, if_neg hm.1]
    · intro hm
      by_cases hmem : m ∈ ns
      · exact (ih.2 m).2 hmem
      · rw [(ih.2 m).1 hmem, hget]
        rcases List.mem_cons.1 hm with rfl | hm
        · exact ⟨_, if_pos rfl⟩
        · exact absurd hm hmem

/-- A loop over a list is the loop over its first part, then over the rest, if the first part ends well. -/
theorem decorateMethods_append {c : Nat} {mro : List Nat} {e : Option PyErr} {d : Deco} (xs ys : List HVal) :
    ∀ w : DWorld, (decorateMethods c mro e d xs w).2 = none →
      decorateMethods c mro e d (xs ++ ys) w = decorateMethods c mro e d ys (decorateMethods c mro e d xs w).1 := by
  induction xs with
  | nil => intro w _; rfl
  | cons x xs ih =>
    intro w h
    simp only [List.cons_append, decorateMethods] at h ⊢
    cases hs : decorateMethod c mro e d w x with
    | mk w' err =>
      cases err with
      | some e' => simp [hs] at h
      | none =>
        simp only [hs] at h ⊢
        exact ih w' h

/-- A built-in method among the names, all of which the class has: `TypeError`. -/
theorem decorateMethods_builtin {c : Nat} {bases : List Nat} {d : Deco} (names : List Str) :
    ∀ w : DWorld, (∀ n ∈ names, w.getattr n (c :: bases) ≠ none) →
      (∃ n ∈ names, w.getattr n (c :: bases) = some .builtin) →
      (decorateMethods c (c :: bases) none d (names.map HVal.str) w).2 = some .typeError := by
  induction names with
  | nil => rintro w _ ⟨n, hn, _⟩; cases hn
  | cons n ns ih =>
    rintro w hall ⟨b, hb, hbb⟩
    rw [List.map_cons, decorateMethods]
    have hn := hall n List.mem_cons_self
    cases hg : w.getattr n (c :: bases) with
    | none => exact absurd hg hn
    | some a =>
      cases a with
      | builtin => simp [decorateMethod, hg]
      | value => simp [decorateMethod, hg]
      | func f =>
        rw [decorateMethod_func hg]
        have hne : b ≠ n := by
          rintro rfl
          rw [hg] at hbb
          cases hbb
        refine ih _ (fun m hm => ?_) ⟨b, ?_, ?_⟩
        · rw [getattr_setattr]
          split
          · exact nofun
          · rw [setattr_reg]
            exact hall m (List.mem_cons_of_mem _ hm)
        · exact (List.mem_cons.1 hb).resolve_left hne
        · rw [getattr_setattr, if_neg hne, setattr_reg]
          exact hbb

/-! ### The model of `Registry/Model.lean` -/

/-- The attribute in the model without exceptions. -/
def _root_.Polog.DAttr.simple : DAttr → ClsAttr
  | .func f => .func f
  | _ => .value

/-- The classes in the model without exceptions. -/
def simple (w : DWorld) : ClassWorld :=
  ⟨w.reg, fun i => (w.own i).map fun x => (x.1, x.2.simple)⟩

theorem get?_map_simple (n : Str) (d : Dict Str DAttr) :
    Dict.get? n (d.map fun x => (x.1, x.2.simple)) = (Dict.get? n d).map DAttr.simple := by
  induction d with
  | nil => rfl
  | cons x xs ih =>
    simp only [List.map_cons, Dict.get?]
    split
    · rfl
    · exact ih

theorem set_map_simple (n : Str) (a : DAttr) (d : Dict Str DAttr) :
    Dict.set n a.simple (d.map fun x => (x.1, x.2.simple)) =
      (Dict.set n a d).map fun x => (x.1, x.2.simple) := by
  induction d with
  | nil => rfl
  | cons x xs ih =>
    simp only [List.map_cons, Dict.set]
    split
    · rfl
    · rw [ih]; rfl

theorem simple_getattr (w : DWorld) (n : Str) (mro : List Nat) :
    w.simple.getattr n mro = (w.getattr n mro).map DAttr.simple := by
  induction mro with
  | nil => rfl
  | cons c mro ih =>
    simp only [ClassWorld.getattr, getattr, ih]
    have : Dict.get? n (w.simple.own c) = (Dict.get? n (w.own c)).map DAttr.simple := get?_map_simple n _
    rw [this]
    cases Dict.get? n (w.own c) <;> rfl

theorem simple_setattr (w : DWorld) (c : Nat) (n : Str) (a : DAttr) :
    (w.setattr c n a).simple = w.simple.setattr c n a.simple := by
  unfold setattr simple ClassWorld.setattr
  congr 1
  funext i
  dsimp only
  split
  · exact (set_map_simple n a _).symm
  · rfl

theorem simple_dir (w : DWorld) (mro : List Nat) : w.simple.dir mro = w.dir mro := by
  induction mro with
  | nil => rfl
  | cons c mro ih =>
    have hk : Dict.keys (w.simple.own c) = Dict.keys (w.own c) := by
      simp [simple, Dict.keys, Function.comp_def]
    simp only [ClassWorld.dir, dir, ih, hk]

theorem simple_isLoggable (w : DWorld) (mro : List Nat) (n : Str) (h : w.getattr n mro ≠ some .builtin) :
    w.simple.isLoggable mro n = w.isLoggable mro n := by
  unfold ClassWorld.isLoggable isLoggable
  rw [simple_getattr]
  cases hg : w.getattr n mro with
  | none => rfl
  | some a =>
    cases a with
    | func f => rfl
    | builtin => exact absurd hg h
    | value => rfl

theorem simple_loggable (w : DWorld) (mro : List Nat) (h : ∀ n, w.getattr n mro ≠ some .builtin) :
    w.simple.loggingMethods mro [] = w.loggable id mro := by
  simp only [ClassWorld.loggingMethods, ↓reduceIte, loggable, id_eq, simple_dir]
  exact List.filter_congr fun n _ => simple_isLoggable w mro n (h n)

theorem simple_decorateMethods {c : Nat} {bases : List Nat} {d : Deco} (names : List Str) : ∀ w : DWorld,
    (∀ n ∈ names, ∃ f, w.getattr n (c :: bases) = some (.func f)) →
      (decorateMethods c (c :: bases) none d (names.map HVal.str) w).1.simple =
        names.foldl (ClassWorld.decorateMethod c (c :: bases) d) w.simple := by
  induction names with
  | nil => intro w _; rfl
  | cons n ns ih =>
    intro w h
    obtain ⟨f, hf⟩ := h n List.mem_cons_self
    rw [List.map_cons, decorateMethods, decorateMethod_func hf, List.foldl_cons]
    have hs : w.simple.getattr n (c :: bases) = some (.func f) := by rw [simple_getattr, hf]; rfl
    rw [ih]
    · congr 1
      rw [simple_setattr, ClassWorld.decorateMethod, hs]
      rfl
    · intro m hm
      rw [getattr_setattr]
      split
      · exact ⟨_, rfl⟩
      · rw [setattr_reg]
        exact h m (List.mem_cons_of_mem _ hm)

theorem simple_restoreMethods {c : Nat} {bases : List Nat} (names : List Str) : ∀ w : DWorld,
    (∀ n ∈ names, ∃ f, w.getattr n (c :: bases) = some (.func f)) →
      (names.foldl (restoreMethod c (c :: bases)) w).simple =
        names.foldl (ClassWorld.restoreMethod c (c :: bases)) w.simple := by
  induction names with
  | nil => intro w _; rfl
  | cons n ns ih =>
    intro w h
    obtain ⟨f, hf⟩ := h n List.mem_cons_self
    have hs : w.simple.getattr n (c :: bases) = some (.func f) := by rw [simple_getattr, hf]; rfl
    have hstep : restoreMethod c (c :: bases) w n = w.setattr c n (.func (w.reg.original f)) := by
      simp [restoreMethod, hf]
    rw [List.foldl_cons, List.foldl_cons, hstep, ih]
    · congr 1
      rw [simple_setattr, ClassWorld.restoreMethod, hs]
      rfl
    · intro m hm
      rw [getattr_setattr]
      split
      · exact ⟨_, rfl⟩
      · exact h m (List.mem_cons_of_mem _ hm)

end DWorld

end Polog
