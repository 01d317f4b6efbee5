import Verif.Live.Spec
import Verif.LogItem.Props
import Mathlib.Data.List.Basic

/-! Lemmas about dictionaries under iteration and the run of an extraction. -/

namespace Polog

open Relation LiveSpec FieldsSpec

variable {V F : Type}

theorem Slots.items_map_fst (s : Slots F) : s.items.map Prod.fst = s.filterMap fun e => e.map Prod.fst := by
  induction s with
  | nil => rfl
  | cons e r ih =>
    cases e with
    | none => simpa [Slots.items] using ih
    | some x => simpa [Slots.items] using ih

theorem Slots.mem_items (s : Slots F) (x : Str × F) : x ∈ s.items ↔ some x ∈ s := by
  simp [Slots.items]

theorem Slots.next_none (s : Slots F) : ∀ pos, s.next pos = none → Slots.items (s.drop pos) = [] := by
  induction s with
  | nil => intro pos _; simp [Slots.items]
  | cons e r ih =>
    intro pos h
    cases pos with
    | zero =>
      cases e with
      | none => simp only [Slots.next, Option.map_eq_none_iff] at h; simpa [Slots.items] using ih 0 h
      | some x => simp [Slots.next] at h
    | succ p =>
      have h' : Slots.next r p = none := by cases e <;> simpa [Slots.next] using h
      simpa using ih p h'

theorem Slots.next_some (s : Slots F) : ∀ pos pos' x, s.next pos = some (pos', x) →
    Slots.items (s.drop pos) = x :: Slots.items (s.drop pos') ∧ some x ∈ s := by
  induction s with
  | nil => intro pos pos' x h; simp [Slots.next] at h
  | cons e r ih =>
    intro pos pos' x h
    cases pos with
    | zero =>
      cases e with
      | none =>
        simp only [Slots.next, Option.map_eq_some_iff] at h
        obtain ⟨⟨a, b⟩, h1, h2⟩ := h
        simp only [Prod.mk.injEq] at h2
        obtain ⟨rfl, rfl⟩ := h2
        obtain ⟨h3, h4⟩ := ih 0 a b h1
        exact ⟨by simpa [Slots.items] using h3, by simp [h4]⟩
      | some y =>
        simp only [Slots.next, Option.some.injEq, Prod.mk.injEq] at h
        obtain ⟨rfl, rfl⟩ := h
        simp [Slots.items]
    | succ p =>
      have h' : (Slots.next r p).map (fun y => (y.1 + 1, y.2)) = some (pos', x) := by
        cases e <;> simpa [Slots.next] using h
      simp only [Option.map_eq_some_iff] at h'
      obtain ⟨⟨a, b⟩, h1, h2⟩ := h'
      simp only [Prod.mk.injEq] at h2
      obtain ⟨rfl, rfl⟩ := h2
      obtain ⟨h3, h4⟩ := ih p a b h1
      exact ⟨by simpa using h3, by simp [h4]⟩

theorem extractOne_eq (inter : Bool) (n : Str) (f : Extractor V) (d : Dict Str V) :
    extractOne inter n f d = extractFrom inter [(n, f)] d := by
  unfold extractOne
  simp only [extractFrom]
  split
  · split <;> simp_all
  · rfl

theorem extracted_one (inter : Bool) (n : Str) (f : Extractor V) (d : Dict Str V) :
    Extracted inter [(n, f)] d (extractOne inter n f d) :=
  extractOne_eq inter n f d ▸ extractFrom_extracted inter [(n, f)] d

theorem FieldsSpec.Extracted.append {inter : Bool} {a b : List (Str × Extractor V)} {d₁ d₂ d₃ : Dict Str V}
    (h₁ : Extracted inter a d₁ d₂) (h₂ : Extracted inter b d₂ d₃) : Extracted inter (a ++ b) d₁ d₃ := by
  induction h₁ with
  | none => exact h₂
  | more ht _ ih => exact .more ht (ih h₂)

/-- A change that leaves the names alone leaves every entry in its place. -/
theorem FieldChange.same_names {s s' : Slots F} (h : FieldChange s s')
    (hn : (s'.filterMap fun e => e.map Prod.fst) = s.filterMap fun e => e.map Prod.fst) (pos : Nat) :
    (Slots.items (s'.drop pos)).map Prod.fst = (Slots.items (s.drop pos)).map Prod.fst := by
  cases h with
  | add n f h => simp at hn
  | addRebuild n f h =>
    have := congrArg List.length hn
    simp only [List.filterMap_append, List.length_append, List.filterMap_map] at this
    have h2 : List.filterMap ((fun e : Option (Str × F) => e.map Prod.fst) ∘ some) s.items = s.items.map Prod.fst := by
      simp [Function.comp_def]
    rw [h2, Slots.items_map_fst] at this
    simp at this
  | replace a b n f f' =>
    simp only [Slots.items_map_fst]
    rw [List.drop_append, List.drop_append, List.filterMap_append, List.filterMap_append]
    congr 1
    cases pos - a.length <;> simp
  | delete a b n f => simp at hn

theorem FieldChange.names_nodup {s s' : Slots F} (h : FieldChange s s')
    (hn : (s.filterMap fun e => e.map Prod.fst).Nodup) : (s'.filterMap fun e => e.map Prod.fst).Nodup := by
  cases h with
  | add n f h =>
    rw [Dict.keys, Slots.items_map_fst] at h
    rw [List.filterMap_append, List.nodup_append]
    refine ⟨hn, by simp, ?_⟩
    intro a ha b hb
    simp only [List.filterMap_cons, Option.map_some, List.filterMap_nil, List.mem_singleton] at hb
    subst hb
    exact fun e => h (e ▸ ha)
  | addRebuild n f h =>
    rw [Dict.keys, Slots.items_map_fst] at h
    have h2 : List.filterMap (fun e : Option (Str × F) => e.map Prod.fst) (s.items.map some) =
        s.filterMap fun e => e.map Prod.fst := by
      rw [List.filterMap_map, ← Slots.items_map_fst]
      simp [Function.comp_def]
    rw [List.filterMap_append, List.nodup_append, h2]
    refine ⟨hn, by simp, ?_⟩
    intro a ha b hb
    simp only [List.filterMap_cons, Option.map_some, List.filterMap_nil, List.mem_singleton] at hb
    subst hb
    exact fun e => h (e ▸ ha)
  | replace a b n f f' => simpa using hn
  | delete a b n f =>
    simp only [List.filterMap_append, List.filterMap_cons, Option.map_some, Option.map_none] at hn ⊢
    exact hn.sublist (by simp)

theorem LiveSpec.Passed.tail {R : TakeSys V → TakeSys V → Prop} {x₀ x x' y : TakeSys V} (h : Passed R x₀ x y) (hs : R x x') : Passed R x₀ x' y :=
  ⟨h.1, h.2.tail hs⟩

/-- The fields of `taken` that the decorator does not hide. -/
def seenOf (own taken : List (Str × Extractor V)) : List (Str × Extractor V) :=
  taken.filter fun e => e.1 ∉ own.map Prod.fst

/-- The invariant of runs without additions and removals during the walk. -/
def CalmInv (inter : Bool) (own : List (Str × Extractor V)) (globals : Bool) (x₀ : TakeSys V) (d₀ : Dict Str V) (x : TakeSys V) : Prop :=
  match x.st with
  | .own rest => ∃ pre, own = pre ++ rest ∧ Extracted inter pre d₀ x.data
  | .start => globals = true ∧ Extracted inter own d₀ x.data
  | .loop used pos len => globals = true ∧ used = x.slots.items.length ∧ len = (Slots.items (x.slots.drop pos)).length ∧
      ∃ taken : List (Str × Extractor V), taken.map Prod.fst ++ (Slots.items (x.slots.drop pos)).map Prod.fst = fieldNames x ∧
        (∀ n f, (n, f) ∈ taken → ∃ y, Passed (Calm inter own globals) x₀ x y ∧ Registered y n f) ∧
        Extracted inter (own ++ seenOf own taken) d₀ x.data
  | .took n f used pos len => globals = true ∧ used = x.slots.items.length ∧ len = (Slots.items (x.slots.drop pos)).length ∧
      ∃ taken : List (Str × Extractor V),
        (taken ++ [(n, f)]).map Prod.fst ++ (Slots.items (x.slots.drop pos)).map Prod.fst = fieldNames x ∧
        (∀ n' f', (n', f') ∈ taken ++ [(n, f)] → ∃ y, Passed (Calm inter own globals) x₀ x y ∧ Registered y n' f') ∧
        Extracted inter (own ++ seenOf own taken) d₀ x.data
  | .handed => ∃ taken : List (Str × Extractor V), (globals = false → taken = []) ∧
      (globals = true → ∃ y, Passed (Calm inter own globals) x₀ x y ∧ Walking y ∧ fieldNames y = taken.map Prod.fst) ∧
      (∀ n f, (n, f) ∈ taken → ∃ y, Passed (Calm inter own globals) x₀ x y ∧ Registered y n f) ∧
      Extracted inter (own ++ seenOf own taken) d₀ x.data
  | .raised => False

theorem fieldNames_eq (x : TakeSys V) : fieldNames x = x.slots.items.map Prod.fst := (Slots.items_map_fst x.slots).symm

theorem CalmInv.step {inter : Bool} {own : List (Str × Extractor V)} {globals : Bool} {x₀ x x' : TakeSys V} {d₀ : Dict Str V}
    (hi : CalmInv inter own globals x₀ d₀ x) (hx₀ : ReflTransGen (Calm inter own globals) x₀ x)
    (hs : Calm inter own globals x x') : CalmInv inter own globals x₀ d₀ x' := by
  have hpas : Passed (Calm inter own globals) x₀ x' x := ⟨hx₀, .single hs⟩
  have hold : ∀ y, Passed (Calm inter own globals) x₀ x y → Passed (Calm inter own globals) x₀ x' y := fun y h => h.tail hs
  obtain ⟨hl, hc⟩ := hs
  cases hl with
  | own h =>
    cases h with
    | ownField =>
      obtain ⟨pre, h1, h2⟩ := hi
      exact ⟨pre ++ [(_, _)], by simp [h1], h2.append (extracted_one _ _ _ _)⟩
    | ownEnd hg =>
      obtain ⟨pre, h1, h2⟩ := hi
      simp only [List.append_nil] at h1
      exact ⟨hg, h1 ▸ h2⟩
    | ownOnly hg =>
      obtain ⟨pre, h1, h2⟩ := hi
      simp only [List.append_nil] at h1
      exact ⟨[], fun _ => rfl, fun h => by simp [hg] at h, by simp, by simpa [seenOf, h1] using h2⟩
    | iter =>
      obtain ⟨h1, h2⟩ := hi
      exact ⟨h1, rfl, rfl, [], by simp [fieldNames_eq], by simp, by simpa [seenOf] using h2⟩
    | changed hu => exact absurd hi.2.1.symm hu
    | finish hu hn =>
      obtain ⟨h1, h2, h3, taken, h4, h5, h6⟩ := hi
      refine ⟨taken, fun h => by simp [h1] at h, fun _ => ⟨_, hpas, .inl ⟨_, _, _, rfl⟩, ?_⟩, ?_, h6⟩
      · simp only [Slots.next_none _ _ hn, List.map_nil, List.append_nil] at h4
        exact h4.symm
      · intro n f hm
        obtain ⟨y, hy, hr⟩ := h5 n f hm
        exact ⟨y, hold y hy, hr⟩
    | unexpected hu hn =>
      obtain ⟨h1, h2, h3, _⟩ := hi
      have := (Slots.next_some _ _ _ _ hn).1
      simp [this] at h3
    | @item s used pos len d pos' n f hu hn =>
      obtain ⟨h1, h2, h3, taken, h4, h5, h6⟩ := hi
      obtain ⟨h7, h8⟩ := Slots.next_some _ _ _ _ hn
      simp only [h7, List.length_cons, Nat.add_right_cancel_iff] at h3
      refine ⟨h1, h2, h3, taken, ?_, ?_, h6⟩
      · simp only [h7, List.map_cons] at h4
        simpa [fieldNames] using h4
      · intro n' f' hm
        simp only [List.mem_append, List.mem_singleton, Prod.mk.injEq] at hm
        rcases hm with hm | ⟨rfl, rfl⟩
        · obtain ⟨y, hy, hr⟩ := h5 n' f' hm
          exact ⟨y, hold y hy, hr⟩
        · exact ⟨_, hpas, h8⟩
    | @hidden s n f used pos len d ho =>
      obtain ⟨h1, h2, h3, taken, h4, h5, h6⟩ := hi
      refine ⟨h1, h2, h3, taken ++ [(n, f)], h4, ?_, ?_⟩
      · intro n' f' hm
        obtain ⟨y, hy, hr⟩ := h5 n' f' hm
        exact ⟨y, hold y hy, hr⟩
      · have : seenOf own (taken ++ [(n, f)]) = seenOf own taken := by
          unfold seenOf
          rw [List.filter_append]
          simp only [Dict.keys] at ho
          simpa using ho
        rw [this]; exact h6
    | @field s n f used pos len d ho =>
      obtain ⟨h1, h2, h3, taken, h4, h5, h6⟩ := hi
      refine ⟨h1, h2, h3, taken ++ [(n, f)], h4, ?_, ?_⟩
      · intro n' f' hm
        obtain ⟨y, hy, hr⟩ := h5 n' f' hm
        exact ⟨y, hold y hy, hr⟩
      · have : seenOf own (taken ++ [(n, f)]) = seenOf own taken ++ [(n, f)] := by
          unfold seenOf
          rw [List.filter_append]
          simp only [Dict.keys] at ho
          simpa using ho
        rw [this, ← List.append_assoc]
        exact h6.append (extracted_one _ _ _ _)
  | change h =>
    obtain ⟨sl, st, d⟩ := x
    cases st with
    | own rest => exact hi
    | start => exact hi
    | loop used pos len =>
      have hnm := hc (.inl ⟨_, _, _, rfl⟩)
      have hsn := h.same_names hnm
      obtain ⟨h1, h2, h3, taken, h4, h5, h6⟩ := hi
      refine ⟨h1, ?_, ?_, taken, ?_, ?_, h6⟩
      · have := congrArg List.length (hsn 0)
        simp only [List.drop_zero, List.length_map] at this
        exact h2.trans this.symm
      · have := congrArg List.length (hsn pos)
        simp only [List.length_map] at this
        exact h3.trans this.symm
      · rw [hnm, ← h4]; congr 1; exact hsn pos
      · intro n' f' hm
        obtain ⟨y, hy, hr⟩ := h5 n' f' hm
        exact ⟨y, hold y hy, hr⟩
    | took n f used pos len =>
      have hnm := hc (.inr ⟨_, _, _, _, _, rfl⟩)
      have hsn := h.same_names hnm
      obtain ⟨h1, h2, h3, taken, h4, h5, h6⟩ := hi
      refine ⟨h1, ?_, ?_, taken, ?_, ?_, h6⟩
      · have := congrArg List.length (hsn 0)
        simp only [List.drop_zero, List.length_map] at this
        exact h2.trans this.symm
      · have := congrArg List.length (hsn pos)
        simp only [List.length_map] at this
        exact h3.trans this.symm
      · rw [hnm, ← h4]; congr 1; exact hsn pos
      · intro n' f' hm
        obtain ⟨y, hy, hr⟩ := h5 n' f' hm
        exact ⟨y, hold y hy, hr⟩
    | handed =>
      obtain ⟨taken, h1, h2, h3, h4⟩ := hi
      refine ⟨taken, h1, fun hg => ?_, ?_, h4⟩
      · obtain ⟨y, hy, hr⟩ := h2 hg
        exact ⟨y, hold y hy, hr⟩
      · intro n' f' hm
        obtain ⟨y, hy, hr⟩ := h3 n' f' hm
        exact ⟨y, hold y hy, hr⟩
    | raised => exact hi.elim

theorem CalmInv.run {inter : Bool} {own : List (Str × Extractor V)} {globals : Bool} {slots : Slots (Extractor V)}
    {d₀ : Dict Str V} {x : TakeSys V} (hr : ReflTransGen (Calm inter own globals) (TakeSys.begin own slots d₀) x) :
    CalmInv inter own globals (TakeSys.begin own slots d₀) d₀ x := by
  induction hr with
  | refl => exact ⟨[], rfl, .none _⟩
  | tail h hs ih => exact ih.step h hs

end Polog
