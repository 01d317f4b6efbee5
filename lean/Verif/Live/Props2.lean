import Verif.Live.Props

/-! C95: what happens if names are added or removed meanwhile, and the connection with the registry of `config`. -/

namespace Polog

open Relation LiveSpec FieldsSpec

variable {V : Type}

/-! ### The calls of the API are sequences of elementary changes -/

theorem Slots.items_append {F : Type} (a b : Slots F) : Slots.items (a ++ b) = a.items ++ b.items := by
  simp [Slots.items]

theorem Dict.set_absent {K F : Type} [DecidableEq K] {n : K} {f : F} :
    ∀ {d : Dict K F}, n ∉ Dict.keys d → Dict.set n f d = d ++ [(n, f)] := by
  intro d
  induction d with
  | nil => simp [Dict.set]
  | cons e r ih =>
    obtain ⟨k, v⟩ := e
    intro h
    simp only [Dict.keys, List.map_cons, List.mem_cons, not_or] at h
    simp [Dict.set, Ne.symm h.1, ih h.2]

/-- A present name has a place, and its change changes only this place. -/
theorem Slots.split_at {F : Type} (n : Str) : ∀ s : Slots F, n ∈ Dict.keys s.items →
    ∃ a b f, s = a ++ some (n, f) :: b ∧ (∀ g, Dict.set n g s.items = Slots.items (a ++ some (n, g) :: b)) ∧
      Dict.erase n s.items = Slots.items (a ++ none :: b) := by
  intro s
  induction s with
  | nil => simp [Slots.items, Dict.keys]
  | cons e r ih =>
    intro h
    cases e with
    | none =>
      obtain ⟨a, b, f, h1, h2, h3⟩ := ih (by simpa [Slots.items] using h)
      exact ⟨none :: a, b, f, by simp [h1], by simpa [Slots.items] using h2, by simpa [Slots.items] using h3⟩
    | some x =>
      obtain ⟨k, v⟩ := x
      by_cases hk : k = n
      · subst hk
        exact ⟨[], r, v, rfl, by simp [Slots.items, Dict.set], by simp [Slots.items, Dict.erase]⟩
      · obtain ⟨a, b, f, h1, h2, h3⟩ := ih (by simpa [Slots.items, Dict.keys, Ne.symm hk] using h)
        refine ⟨some (k, v) :: a, b, f, by simp [h1], ?_, ?_⟩
        · intro g
          have hc : ∀ t : Slots F, Slots.items (some (k, v) :: t) = (k, v) :: Slots.items t := fun _ => rfl
          rw [hc, List.cons_append, hc, ← h2 g]
          simp [Dict.set, hk]
        · have hc : ∀ t : Slots F, Slots.items (some (k, v) :: t) = (k, v) :: Slots.items t := fun _ => rfl
          rw [hc, List.cons_append, hc, ← h3]
          simp [Dict.erase, hk]

/-- **C95.** `add_fields(...)` and `delete_fields(...)` (and the same for engine fields) change the dictionary by such elementary
changes, so what is said about all changes is said about all calls of the API, and about their intermediate states. -/
theorem C95_calls_are_changes {F : Type} (isId : Str → Bool) (s : Slots F) :
    (∀ kwargs, ∃ s', ReflTransGen FieldChange s s' ∧ s'.items = (addFieldsTo isId s.items kwargs).1) ∧
    (∀ ns, ∃ s', ReflTransGen FieldChange s s' ∧ s'.items = (deleteFieldsFrom s.items ns).1) := by
  constructor
  · intro kwargs
    induction kwargs generalizing s with
    | nil => exact ⟨s, .refl, rfl⟩
    | cons e r ih =>
      obtain ⟨n, v⟩ := e
      cases v with
      | none => exact ⟨s, .refl, rfl⟩
      | some f =>
        simp only [addFieldsTo]
        split
        · exact ⟨s, .refl, rfl⟩
        · by_cases hn : n ∈ Dict.keys s.items
          · obtain ⟨a, b, f₀, h1, h2, _⟩ := Slots.split_at n s hn
            obtain ⟨s', h3, h4⟩ := ih (a ++ some (n, f) :: b)
            refine ⟨s', .head ?_ h3, by rw [h4, h2]⟩
            rw [h1]
            exact .replace a b n f₀ f
          · obtain ⟨s', h3, h4⟩ := ih (s ++ [some (n, f)])
            refine ⟨s', .head (.add n f hn) h3, ?_⟩
            rw [h4, Slots.items_append, Dict.set_absent hn]
            rfl
  · intro ns
    induction ns generalizing s with
    | nil => exact ⟨s, .refl, rfl⟩
    | cons e r ih =>
      cases e with
      | other => exact ⟨s, .refl, rfl⟩
      | str n =>
        simp only [deleteFieldsFrom]
        split
        · rename_i h
          obtain ⟨a, b, f₀, h1, _, h2⟩ := Slots.split_at n s (by simpa [Dict.has, Dict.get?_isSome_iff] using h)
          obtain ⟨s', h3, h4⟩ := ih (a ++ none :: b)
          refine ⟨s', .head ?_ h3, by rw [h4, h2]⟩
          rw [h1]
          exact .delete a b n f₀
        · exact ⟨s, .refl, rfl⟩

/-! ### Names added or removed meanwhile -/

/-- **C95.** False in general: whatever fields are registered and whatever the record holds, one `config.add_fields(name=...)` of another
thread at the wrong moment makes the log call (or the decorated function) raise `RuntimeError`; the record is lost. -/
theorem C95_registration_breaks_a_log_call_fails (inter : Bool) (slots : Slots (Extractor V)) (d : Dict Str V) (n : Str)
    (f : Extractor V) (hn : n ∉ fieldNames (TakeSys.begin [] slots d)) :
    ReflTransGen (LiveStep inter [] true) (TakeSys.begin [] slots d) ⟨slots ++ [some (n, f)], .raised, d⟩ := by
  rw [fieldNames_eq] at hn
  refine .head (.own (.ownEnd rfl)) (.head (.own .iter) (.head (.change (.add n f hn)) (.head (.own (.changed ?_)) .refl)))
  rw [Slots.items_append]
  simp [Slots.items]

/-- **C95.** The same for one `config.delete_fields(name)`. -/
theorem C95_deletion_breaks_a_log_call_fails (inter : Bool) (a b : Slots (Extractor V)) (d : Dict Str V) (n : Str)
    (f : Extractor V) :
    ReflTransGen (LiveStep inter [] true) (TakeSys.begin [] (a ++ some (n, f) :: b) d) ⟨a ++ none :: b, .raised, d⟩ := by
  refine .head (.own (.ownEnd rfl)) (.head (.own .iter) (.head (.change (.delete a b n f)) (.head (.own (.changed ?_)) .refl)))
  rw [Slots.items_append, Slots.items_append]
  simp [Slots.items]

/-- **C95.** It needs no second thread: a field that registers a field when it is asked for its value (here: the only change is made
while the thread is inside the field `a`) makes the log call raise. -/
theorem C95_field_that_registers_a_field_fails (f : Extractor V) (d : Dict Str V) (hd : Dict.get? ['a'] d = none) :
    ∃ (y : TakeSys V) (d' : Dict Str V),
      ReflTransGen (TakeStep false [] true) (TakeSys.begin [] [some (['a'], f)] d) y ∧
      y.st = .took ['a'] f 1 1 0 ∧ FieldChange y.slots [some (['a'], f), some (['b'], f)] ∧
      ReflTransGen (TakeStep false [] true) { y with slots := [some (['a'], f), some (['b'], f)] }
        ⟨[some (['a'], f), some (['b'], f)], .raised, d'⟩ ∧
      (∀ v, f d = .ok v → Dict.get? ['a'] d' = some v) := by
  refine ⟨⟨[some (['a'], f)], .took ['a'] f 1 1 0, d⟩, extractOne false ['a'] f d, ?_, rfl, ?_, ?_, ?_⟩
  · exact .head (.ownEnd rfl) (.head .iter (.head (.item (by rfl) (by rfl)) .refl))
  · exact .add (s := [some (['a'], f)]) ['b'] f (by simp [Slots.items, Dict.keys])
  · exact .head (.field (by simp [Dict.keys])) (.head (.changed (by simp [Slots.items])) .refl)
  · intro v hv
    simp [extractOne, Dict.has, hd, hv, Dict.get?_set_self]

/-- A field that always works. -/
def okField : Extractor Nat := fun _ => .ok 1

/-- The names of the witness below. -/
def nameOf (c : Char) : Str := [c]

/-- **C95.** Even without an exception a field that stays registered can be missed: five fields `a`, …, `e` are registered; while the
record is made, another thread deletes `a`, which has been taken, and adds `x`, for which CPython rebuilds the table; the iterator
skips `b`. -/
theorem C95_field_silently_missed_fails :
    ∃ (slots : Slots (Extractor Nat)) (x : TakeSys Nat), fieldNames (TakeSys.begin [] slots []) = ['a', 'b', 'c', 'd', 'e'].map nameOf ∧
      Registered (TakeSys.begin [] slots []) ['b'] okField ∧
      ReflTransGen (fun y z => LiveStep false [] true y z ∧ Registered z ['b'] okField) (TakeSys.begin [] slots []) x ∧
      x.st = .handed ∧ Dict.get? ['b'] x.data = none := by
  refine ⟨['a', 'b', 'c', 'd', 'e'].map fun c => some ([c], okField),
    ⟨['b', 'c', 'd', 'e', 'x'].map fun c => some ([c], okField), .handed, ['a', 'c', 'd', 'e', 'x'].map fun c => ([c], 1)⟩,
    by decide +kernel, by simp [Registered, TakeSys.begin], ?_, rfl, by decide +kernel⟩
  refine .head ⟨.own (.ownEnd rfl), by simp [Registered]⟩ ?_
  refine .head ⟨.own .iter, by simp [Registered]⟩ ?_
  refine .head ⟨.own (.item (n := ['a']) (f := okField) (pos' := 1) (len := 4) (by rfl) (by rfl)), by simp [Registered]⟩ ?_
  refine .head ⟨.own (.field (by simp [Dict.keys])), by simp [Registered]⟩ ?_
  refine .head (b := ⟨none :: ['b', 'c', 'd', 'e'].map fun c => some ([c], okField), .loop 5 1 4, [(['a'], 1)]⟩)
    ⟨.change (.delete [] (['b', 'c', 'd', 'e'].map fun c => some ([c], okField)) ['a'] okField), by simp [Registered]⟩ ?_
  refine .head (b := ⟨['b', 'c', 'd', 'e', 'x'].map fun c => some ([c], okField), .loop 5 1 4, [(['a'], 1)]⟩)
    ⟨.change (.addRebuild ['x'] okField (by decide +kernel)), by simp [Registered]⟩ ?_
  refine .head ⟨.own (.item (n := ['c']) (f := okField) (pos' := 2) (len := 3) (by rfl) (by rfl)), by simp [Registered]⟩ ?_
  refine .head ⟨.own (.field (by simp [Dict.keys])), by simp [Registered]⟩ ?_
  refine .head ⟨.own (.item (n := ['d']) (f := okField) (pos' := 3) (len := 2) (by rfl) (by rfl)), by simp [Registered]⟩ ?_
  refine .head ⟨.own (.field (by simp [Dict.keys])), by simp [Registered]⟩ ?_
  refine .head ⟨.own (.item (n := ['e']) (f := okField) (pos' := 4) (len := 1) (by rfl) (by rfl)), by simp [Registered]⟩ ?_
  refine .head ⟨.own (.field (by simp [Dict.keys])), by simp [Registered]⟩ ?_
  refine .head ⟨.own (.item (n := ['x']) (f := okField) (pos' := 5) (len := 0) (by rfl) (by rfl)), by simp [Registered]⟩ ?_
  refine .head ⟨.own (.field (by simp [Dict.keys])), by simp [Registered]⟩ ?_
  exact .head ⟨.own (.finish (by rfl) (by rfl)), by simp [Registered]⟩ .refl

/-- The hypotheses of `C95_kept_field_is_taken_partial` are met: `a` is replaced by another field while the record is made, `b` stays
and is taken. -/
example : ∃ x : TakeSys Nat, ReflTransGen (CalmKept false [] true ['b'] okField)
    (TakeSys.begin [] [some (['a'], okField), some (['b'], okField)] []) x ∧ x.st = .handed ∧
      x.data = [(['a'], 1), (['b'], 1)] ∧ x.slots = [some (['a'], fun _ => .error ()), some (['b'], okField)] := by
  refine ⟨⟨[some (['a'], fun _ => .error ()), some (['b'], okField)], .handed, [(['a'], 1), (['b'], 1)]⟩, ?_, rfl, rfl, rfl⟩
  refine .head ⟨⟨.own (.ownEnd rfl), fun _ => rfl⟩, by simp [Registered]⟩ ?_
  refine .head ⟨⟨.own .iter, fun _ => rfl⟩, by simp [Registered]⟩ ?_
  refine .head ⟨⟨.own (.item (n := ['a']) (f := okField) (pos' := 1) (len := 1) (by rfl) (by rfl)), fun _ => rfl⟩, by simp [Registered]⟩ ?_
  refine .head ⟨⟨.own (.field (by simp [Dict.keys])), fun _ => rfl⟩, by simp [Registered]⟩ ?_
  refine .head (b := ⟨[some (['a'], fun _ => .error ()), some (['b'], okField)], .loop 2 1 1, [(['a'], 1)]⟩)
    ⟨⟨.change (.replace [] [some (['b'], okField)] ['a'] okField _), fun _ => rfl⟩, by simp [Registered]⟩ ?_
  refine .head ⟨⟨.own (.item (n := ['b']) (f := okField) (pos' := 2) (len := 0) (by rfl) (by rfl)), fun _ => rfl⟩, by simp [Registered]⟩ ?_
  refine .head ⟨⟨.own (.field (by simp [Dict.keys])), fun _ => rfl⟩, by simp [Registered]⟩ ?_
  exact .head ⟨⟨.own (.finish (by rfl) (by rfl)), fun _ => rfl⟩, by simp [Registered]⟩ .refl

end Polog
