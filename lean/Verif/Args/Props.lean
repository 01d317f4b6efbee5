import Verif.Args.Spec
import Verif.Format.Props3

/-! Property theorems: C90 (the arguments of a call and its record). -/

namespace Polog
open ArgsSpec FormatSpec

variable {W : Type}

theorem forall₂_map_left_args {A B C : Type} {R : B → C → Prop} (f : A → B) : ∀ {l : List A} {r : List C},
    List.Forall₂ R (l.map f) r → List.Forall₂ (fun a c => R (f a) c) l r := by
  intro l
  induction l with
  | nil => intro r h; cases h; exact .nil
  | cons a l ih => intro r h; cases h with | cons h1 h2 => exact .cons h1 (ih h2)

theorem args_shown (look : W → Nat → ArgVal) (hc : Clear look) (args : List Nat) (kwargs : Dict Str Nat) (w : W) :
    ∃ shown, jsonVars (args.map (look w)) (kwargs.map fun x => (x.1, look w x.2)) = .ok shown ∧
      Shows look w args kwargs shown := by
  cases h : jsonVars (args.map (look w)) (kwargs.map fun x => (x.1, look w x.2)) with
  | error e =>
    exfalso
    rcases (C45_raises_exactly _ _).1 ⟨e, h⟩ with ⟨a, ha, hn⟩ | ⟨x, hx, hn⟩
    · obtain ⟨r, _, rfl⟩ := List.mem_map.1 ha
      exact hn (hc w r).1
    · obtain ⟨r, _, rfl⟩ := List.mem_map.1 hx
      exact hn (hc w r.2).1
  | ok shown =>
    refine ⟨shown, rfl, ?_⟩
    cases shown with
    | none =>
      obtain ⟨h1, h2⟩ := (C45_absent_exactly _ _).1 h
      exact Or.inl ⟨List.map_eq_nil_iff.1 h1, List.map_eq_nil_iff.1 h2, rfl⟩
    | some j =>
      refine Or.inr ⟨?_, ?_⟩
      · rintro ⟨rfl, rfl⟩
        have := (C45_absent_exactly [] []).2 ⟨rfl, rfl⟩
        rw [List.map_nil, List.map_nil, this] at h
        cases h
      · obtain ⟨as, ks, h1, h2, h3⟩ := C45_one_entry_each_partial _ _ j ⟨by
          intro a ha
          obtain ⟨r, _, rfl⟩ := List.mem_map.1 ha
          exact (hc w r).2, by
          intro x hx
          obtain ⟨r, _, rfl⟩ := List.mem_map.1 hx
          exact (hc w r.2).2⟩ h
        refine ⟨as, ks, forall₂_map_left_args _ h1, forall₂_map_left_args _ h2, ?_⟩
        rw [h3]
        simp only [List.map_eq_nil_iff]

/-- What a record tells about the event it belongs to, as the code does it: the arguments are shown as they look when the
call has ended. -/
def argsDescribed (look : W → Nat → ArgVal) : Event W → ARec → Prop
  | .call args kwargs _ after _, r => r.auto = true ∧ r.functionInputData = ⟨some args, some kwargs⟩ ∧
      Shows look after args kwargs r.input
  | .manual, r => r.auto = false ∧ r.functionInputData = ⟨none, none⟩ ∧ r.input = none

theorem argsRecord_described (look : W → Nat → ArgVal) (hc : Clear look) (args : List Nat) (kwargs : Dict Str Nat)
    (o : AOut) (before w : W) :
    ∃ r, argsRecord look args kwargs o w = .ok r ∧ argsDescribed look (.call args kwargs before w o) r := by
  obtain ⟨shown, h1, h2⟩ := args_shown look hc args kwargs w
  unfold argsRecord
  rw [h1]
  cases o with
  | ret v =>
    cases hg : getItem (look w v) with
    | error e => exact absurd (hc w v).1 ((getItem_error _).1 ⟨e, hg⟩)
    | ok j => exact ⟨⟨true, shown, some j, some ⟨some args, some kwargs⟩⟩, by simp only [hg], rfl, rfl, h2⟩
  | raised e => exact ⟨_, rfl, rfl, rfl, h2⟩
  | internal => exact ⟨_, rfl, rfl, rfl, h2⟩

theorem args_run (look : W → Nat → ArgVal) (hc : Clear look) : ∀ (c : ACode W) (w : W),
    ∃ evs, Runs c w evs (c.run look w).1 (c.run look w).2.1 ∧
      List.Forall₂ (argsDescribed look) evs (c.run look w).2.2 := by
  intro c
  induction c with
  | ret v => intro w; exact ⟨[], .ret v w, .nil⟩
  | raise e => intro w; exact ⟨[], .raise e w, .nil⟩
  | act f k ih =>
    intro w
    obtain ⟨evs, h1, h2⟩ := ih w (f w)
    exact ⟨evs, .act f k w evs _ _ h1, h2⟩
  | call logged args kwargs b k ihb ihk =>
    intro w
    obtain ⟨evs, h1, h2⟩ := ihb w
    obtain ⟨evs', h3, h4⟩ := ihk (b.run look w).1 (b.run look w).2.1
    cases logged with
    | true =>
      obtain ⟨r, hr, hd⟩ := argsRecord_described look hc args kwargs (b.run look w).1 w (b.run look w).2.1
      have e : (ACode.call true args kwargs b k).run look w = (((k (b.run look w).1).run look (b.run look w).2.1).1,
          ((k (b.run look w).1).run look (b.run look w).2.1).2.1,
          (b.run look w).2.2 ++ r :: ((k (b.run look w).1).run look (b.run look w).2.1).2.2) := by
        rw [ACode.run]
        simp only [hr, if_true]
      rw [e]
      exact ⟨_, .logged args kwargs b k w _ _ evs evs' _ _ h1 h3, List.rel_append h2 (.cons hd h4)⟩
    | false =>
      exact ⟨_, .plain args kwargs b k w _ _ evs evs' _ _ h1 h3, List.rel_append h2 h4⟩
  | manual k ih =>
    intro w
    obtain ⟨evs, h1, h2⟩ := ih w
    exact ⟨_, .manual k w evs _ _ h1, .cons ⟨rfl, rfl, rfl⟩ h2⟩

/-- **C90** (partial: for arguments that the call does not change, and with the limits of C45). A program runs as without
Polog, and its records are those of its events, in order. The log of a call holds references to exactly the positional and
keyword arguments of this call, and a manual log `None`. The field `input_variables` shows exactly these arguments, as they
were when the function was called. -/
theorem C90_record_shows_the_arguments_partial (look : W → Nat → ArgVal) (hc : Clear look) (c : ACode W) (w : W)
    (o : AOut) (w' : W) (records : List ARec) (h : c.run look w = (o, w', records)) :
    ∃ events, Runs c w events o w' ∧ List.Forall₂ (fun ev r =>
      match ev with
      | .call args kwargs before after _ =>
        r.functionInputData.args = some args ∧ r.functionInputData.kwargs = some kwargs ∧
        (Unchanged look args kwargs before after → Shows look before args kwargs r.input)
      | .manual => r.functionInputData.args = none ∧ r.functionInputData.kwargs = none ∧ r.input = none)
      events records := by
  obtain ⟨evs, h1, h2⟩ := args_run look hc c w
  rw [h] at h1 h2
  refine ⟨evs, h1, forall₂_imp_mem h2 fun ev _ r hd => ?_⟩
  cases ev with
  | manual => exact ⟨by rw [hd.2.1], by rw [hd.2.1], hd.2.2⟩
  | call args kwargs before after out =>
    refine ⟨by rw [hd.2.1], by rw [hd.2.1], fun hu => ?_⟩
    rcases hd.2.2 with h | ⟨hn, as, ks, h3, h4, h5⟩
    · exact Or.inl h
    · refine Or.inr ⟨hn, as, ks, forall₂_imp_mem h3 fun r hr e he => ?_, forall₂_imp_mem h4 fun x hx e he => ?_, h5⟩
      · rw [← hu.1 r hr]; exact he
      · rw [← hu.2 x hx]; exact ⟨he.1, he.2⟩

/-- In general the arguments are shown as they look when the call has ended, whether it returned or raised. -/
theorem C90_arguments_are_shown_as_at_the_end (look : W → Nat → ArgVal) (hc : Clear look) (c : ACode W) (w : W)
    (o : AOut) (w' : W) (records : List ARec) (h : c.run look w = (o, w', records)) :
    ∃ events, Runs c w events o w' ∧ List.Forall₂ (fun ev r =>
      ∀ args kwargs before after out, ev = .call args kwargs before after out → Shows look after args kwargs r.input)
      events records := by
  obtain ⟨evs, h1, h2⟩ := args_run look hc c w
  rw [h] at h1 h2
  refine ⟨evs, h1, forall₂_imp_mem h2 fun ev _ r hd => ?_⟩
  rintro args kwargs before after out rfl
  exact hd.2.2

/-! ### A call that changes its argument -/

/-- Object 0 is a list; the state is its content, as its text. Other objects are numbers. -/
def argsLook (w : Str) : Nat → ArgVal
  | 0 => .other (some w) "list".toList
  | n + 1 => .prim "int".toList (.int n) "int".toList

theorem argsLook_clear : Clear argsLook := by
  intro w r
  cases r with
  | zero => exact ⟨Option.some_ne_none _, trivial⟩
  | succ n => exact ⟨trivial, rfl⟩

/-- `f([], 5)` of a decorated function whose body is `x.append(1); return 7`. -/
def argsProg (f : Str → Str) : ACode Str :=
  .call true [0, 6] [("key".toList, 3)] (.act f fun _ => .ret 8) fun _ => .manual (.ret 1)

/-- **C90 fails** for an argument that the function changes: the record of a call with an empty list shows the list as it
is after the call. -/
theorem C90_changed_arguments_fails :
    ∃ (c : ACode Str) (w : Str) (events : List (Event Str)) (args : List Nat) (kwargs : Dict Str Nat) (after : Str)
      (out : AOut) (r : ARec), Clear argsLook ∧ Runs c w events (c.run argsLook w).1 (c.run argsLook w).2.1 ∧
      events = [.call args kwargs w after out, .manual] ∧ (c.run argsLook w).2.2.head? = some r ∧
      ¬ Shows argsLook w args kwargs r.input := by
  refine ⟨argsProg fun _ => "[1]".toList, "[]".toList, _, [0, 6], [("key".toList, 3)], "[1]".toList, .ret 8, _,
    argsLook_clear, ?_, rfl, rfl, ?_⟩
  · exact .logged _ _ _ _ _ _ _ [] [.manual] _ _ (.act _ _ _ _ _ _ (.ret _ _)) (.manual _ _ _ _ _ (.ret _ _))
  · rintro (⟨h, _⟩ | ⟨_, as, ks, h1, _, h3⟩)
    · cases h
    · cases h1 with
      | cons he _ =>
        have he : _ = _ := he
        subst he
        revert h3
        simp

/-- The hypotheses of the theorems are met, and the arguments unchanged, by the same function without the change. -/
example : ∃ events, Runs (argsProg id) "[]".toList events (.ret 1) "[]".toList ∧
    events = [.call [0, 6] [("key".toList, 3)] "[]".toList "[]".toList (.ret 8), .manual] ∧
    Unchanged argsLook [0, 6] [("key".toList, 3)] "[]".toList "[]".toList :=
  ⟨_, .logged _ _ _ _ _ _ _ [] [.manual] _ _ (.act _ _ _ _ _ _ (.ret _ _)) (.manual _ _ _ _ _ (.ret _ _)), rfl,
    fun _ _ => rfl, fun _ _ => rfl⟩

example := C90_record_shows_the_arguments_partial argsLook argsLook_clear (argsProg id) "[]".toList _ _ _ rfl

end Polog
