import Verif.Live.Lemmas

/-! C95: fields are registered and deleted while records are made.  Runs that meet the hypotheses are in `Live/Props2.lean`. -/

namespace Polog

open Relation LiveSpec FieldsSpec

variable {V : Type}

/-- **C95.** If no name is added or removed while a record goes through the fields (they may be replaced, and before and after
everything may change), nothing is raised, and the record gets, in the order of registration, the fields of the decorator and one
field for each other registered name, each of which was registered under its name at some moment of the run.
*Partial*: see `C95_registration_breaks_a_log_call_fails` for names that are added or removed meanwhile. -/
theorem C95_record_of_a_calm_run_partial (inter : Bool) (own : List (Str × Extractor V)) (globals : Bool)
    (slots : Slots (Extractor V)) (d₀ : Dict Str V) (x : TakeSys V)
    (hr : ReflTransGen (Calm inter own globals) (TakeSys.begin own slots d₀) x) :
    x.st ≠ .raised ∧
    (x.st = .handed → ∃ taken : List (Str × Extractor V),
      (globals = false → taken = []) ∧
      (globals = true → ∃ y, Passed (Calm inter own globals) (TakeSys.begin own slots d₀) x y ∧ Walking y ∧
        fieldNames y = taken.map Prod.fst) ∧
      (∀ n f, (n, f) ∈ taken → ∃ y, Passed (Calm inter own globals) (TakeSys.begin own slots d₀) x y ∧ Registered y n f) ∧
      Extracted inter (own ++ taken.filter fun e => e.1 ∉ own.map Prod.fst) d₀ x.data) := by
  have h := CalmInv.run hr
  obtain ⟨sl, st, d⟩ := x
  cases st with
  | raised => exact h.elim
  | handed => exact ⟨by simp, fun _ => h⟩
  | _ => exact ⟨by simp, by simp⟩

/-- Names stay distinct. -/
theorem LiveStep.sound {inter : Bool} {own : List (Str × Extractor V)} {globals : Bool} {x y : TakeSys V}
    (h : LiveStep inter own globals x y) (hx : Sound x) : Sound y := by
  cases h with
  | own h => cases h <;> exact hx
  | change h => exact h.names_nodup hx

theorem unique_field {x : TakeSys V} (hx : Sound x) {n : Str} {f g : Extractor V} (hf : Registered x n f) (hg : Registered x n g) :
    f = g := by
  have h1 := (Slots.mem_items x.slots (n, f)).2 hf
  have h2 := (Slots.mem_items x.slots (n, g)).2 hg
  have hw : Dict.WF x.slots.items := by rw [Dict.WF, Dict.keys, ← fieldNames_eq]; exact hx
  rw [Dict.mem_iff_get? hw] at h1 h2
  simpa using h1.symm.trans h2

/-- **C95.** A field that stays registered is taken: if no name is added or removed while the record goes through the fields and
`f` stays registered under `n`, the record finally holds under `n` what `f` says (`stored`: the value, unless `f` raised or the
record had the field already and `fields_intersection` is off). -/
theorem C95_kept_field_is_taken_partial (inter : Bool) (own : List (Str × Extractor V)) (hown : (own.map Prod.fst).Nodup)
    (slots : Slots (Extractor V)) (d₀ : Dict Str V) (hd : Dict.WF d₀) (x : TakeSys V) (n : Str) (f : Extractor V)
    (hs : Sound (TakeSys.begin own slots d₀)) (hreg : Registered (TakeSys.begin own slots d₀) n f) (hn : n ∉ own.map Prod.fst)
    (hr : ReflTransGen (CalmKept inter own true n f) (TakeSys.begin own slots d₀) x) (hx : x.st = .handed) :
    ∃ d, Dict.get? n x.data = stored (Dict.get? n d₀) inter (f d) := by
  -- the invariant: every visited state keeps `f` under `n`, and names are distinct
  have key : ∀ z, ReflTransGen (CalmKept inter own true n f) (TakeSys.begin own slots d₀) z →
      Sound z ∧ Registered z n f := by
    intro z hz
    induction hz with
    | refl => exact ⟨hs, hreg⟩
    | tail _ h ih => exact ⟨h.1.1.sound ih.1, h.2⟩
  -- the run once more, with a list of taken fields all of which are the kept ones
  have inv : ∀ z, ReflTransGen (CalmKept inter own true n f) (TakeSys.begin own slots d₀) z →
      (∀ rest, z.st = .own rest → ∃ pre, own = pre ++ rest ∧ Extracted inter pre d₀ z.data) ∧
      (z.st = .start → Extracted inter own d₀ z.data) ∧
      (∀ used pos len, z.st = .loop used pos len → ∃ taken : List (Str × Extractor V),
        taken.map Prod.fst ++ (Slots.items (z.slots.drop pos)).map Prod.fst = fieldNames z ∧
        (∀ g, (n, g) ∈ taken → g = f) ∧ Extracted inter (own ++ seenOf own taken) d₀ z.data) ∧
      (∀ m g used pos len, z.st = .took m g used pos len → ∃ taken : List (Str × Extractor V),
        (taken ++ [(m, g)]).map Prod.fst ++ (Slots.items (z.slots.drop pos)).map Prod.fst = fieldNames z ∧
        (∀ g', (n, g') ∈ taken ++ [(m, g)] → g' = f) ∧ Extracted inter (own ++ seenOf own taken) d₀ z.data) ∧
      (z.st = .handed → ∃ taken : List (Str × Extractor V), n ∈ taken.map Prod.fst ∧ (taken.map Prod.fst).Nodup ∧
        (∀ g, (n, g) ∈ taken → g = f) ∧ Extracted inter (own ++ seenOf own taken) d₀ z.data) := by
    intro z hz
    induction hz with
    | refl => exact ⟨fun rest h => ⟨[], by cases h; rfl, .none _⟩, by simp [TakeSys.begin], by simp [TakeSys.begin], by simp [TakeSys.begin],
        by simp [TakeSys.begin]⟩
    | @tail z z' hz h ih =>
      obtain ⟨hsz, hrz⟩ := key z hz
      obtain ⟨ih1, ih2, ih3, ih4, ih5⟩ := ih
      obtain ⟨⟨hl, hc⟩, hkeep⟩ := h
      cases hl with
      | own h =>
        cases h with
        | ownField =>
          refine ⟨fun rest he => ?_, by simp, by simp, by simp, by simp⟩
          cases he
          obtain ⟨pre, h1, h2⟩ := ih1 _ rfl
          exact ⟨pre ++ [(_, _)], by simp [h1], h2.append (extracted_one _ _ _ _)⟩
        | ownEnd hg =>
          refine ⟨by simp, fun _ => ?_, by simp, by simp, by simp⟩
          obtain ⟨pre, h1, h2⟩ := ih1 _ rfl
          simp only [List.append_nil] at h1
          exact h1 ▸ h2
        | ownOnly hg => simp at hg
        | iter =>
          refine ⟨by simp, by simp, fun used pos len he => ?_, by simp, by simp⟩
          cases he
          exact ⟨[], by simp [fieldNames_eq], by simp, by simpa [seenOf] using ih2 rfl⟩
        | changed hu => exact ⟨by simp, by simp, by simp, by simp, by simp⟩
        | finish hu hnx =>
          refine ⟨by simp, by simp, by simp, by simp, fun _ => ?_⟩
          obtain ⟨taken, h4, h5, h6⟩ := ih3 _ _ _ rfl
          simp only [Slots.next_none _ _ hnx, List.map_nil, List.append_nil] at h4
          refine ⟨taken, ?_, h4 ▸ hsz, h5, h6⟩
          rw [h4]
          exact List.mem_filterMap.2 ⟨_, hrz, rfl⟩
        | unexpected hu hnx => exact ⟨by simp, by simp, by simp, by simp, by simp⟩
        | @item s used pos len d pos' m g hu hnx =>
          refine ⟨by simp, by simp, by simp, fun m' g' used' pos'' len' he => ?_, by simp⟩
          cases he
          obtain ⟨taken, h4, h5, h6⟩ := ih3 _ _ _ rfl
          obtain ⟨h7, h8⟩ := Slots.next_some _ _ _ _ hnx
          refine ⟨taken, ?_, ?_, h6⟩
          · simp only [h7, List.map_cons] at h4
            simpa [fieldNames] using h4
          · intro g' hm
            simp only [List.mem_append, List.mem_singleton, Prod.mk.injEq] at hm
            rcases hm with hm | ⟨rfl, rfl⟩
            · exact h5 g' hm
            · exact unique_field hsz h8 hrz
        | @hidden s m g used pos len d ho =>
          refine ⟨by simp, by simp, fun used' pos' len' he => ?_, by simp, by simp⟩
          cases he
          obtain ⟨taken, h4, h5, h6⟩ := ih4 _ _ _ _ _ rfl
          refine ⟨taken ++ [(m, g)], h4, h5, ?_⟩
          have : seenOf own (taken ++ [(m, g)]) = seenOf own taken := by
            unfold seenOf
            rw [List.filter_append]
            simp only [Dict.keys] at ho
            simpa using ho
          rw [this]; exact h6
        | @field s m g used pos len d ho =>
          refine ⟨by simp, by simp, fun used' pos' len' he => ?_, by simp, by simp⟩
          cases he
          obtain ⟨taken, h4, h5, h6⟩ := ih4 _ _ _ _ _ rfl
          refine ⟨taken ++ [(m, g)], h4, h5, ?_⟩
          have : seenOf own (taken ++ [(m, g)]) = seenOf own taken ++ [(m, g)] := by
            unfold seenOf
            rw [List.filter_append]
            simp only [Dict.keys] at ho
            simpa using ho
          rw [this, ← List.append_assoc]
          exact h6.append (extracted_one _ _ _ _)
      | change h =>
        refine ⟨ih1, ih2, fun used pos len he => ?_, fun m g used pos len he => ?_, ih5⟩
        · have hnm := hc (.inl ⟨_, _, _, he⟩)
          obtain ⟨taken, h4, h5, h6⟩ := ih3 _ _ _ he
          exact ⟨taken, by rw [hnm, ← h4, h.same_names hnm pos], h5, h6⟩
        · have hnm := hc (.inr ⟨_, _, _, _, _, he⟩)
          obtain ⟨taken, h4, h5, h6⟩ := ih4 _ _ _ _ _ he
          exact ⟨taken, by rw [hnm, ← h4, h.same_names hnm pos], h5, h6⟩
  obtain ⟨taken, h1, h2, h3, h4⟩ := (inv x hr).2.2.2.2 hx
  simp only [List.mem_map, Prod.exists] at h1
  obtain ⟨m, g, hm, rfl⟩ := h1
  have hg := h3 g hm
  subst hg
  rw [C15_record_exactly inter _ _ _ hd] at h4
  have hmem : (m, g) ∈ seenOf own taken := by simp only [seenOf, List.mem_filter]; exact ⟨hm, by simpa using hn⟩
  obtain ⟨a, b, hab⟩ := List.append_of_mem hmem
  rw [hab, ← List.append_assoc] at h4
  have hnd : ((own ++ a ++ (m, g) :: b).map Prod.fst).Nodup := by
    rw [List.append_assoc, ← hab, List.map_append, List.nodup_append]
    refine ⟨hown, h2.sublist (List.filter_sublist.map _), ?_⟩
    intro u hu v hv he
    subst he
    simp only [seenOf, List.mem_map, List.mem_filter] at hv
    obtain ⟨e, ⟨_, he⟩, rfl⟩ := hv
    simp only [decide_eq_true_eq] at he
    exact he (by simpa using hu)
  exact ⟨_, by rw [h4]; exact C15_field_value inter (own ++ a) b m g hnd d₀⟩

/-- **C95.** Whatever is added and removed meanwhile: what the record held before is kept if `fields_intersection` is off. -/
theorem C95_record_keeps_its_fields (own : List (Str × Extractor V)) (globals : Bool) (slots : Slots (Extractor V))
    (d₀ : Dict Str V) (x : TakeSys V) (hr : ReflTransGen (LiveStep false own globals) (TakeSys.begin own slots d₀) x)
    (k : Str) (v : V) (hk : Dict.get? k d₀ = some v) : Dict.get? k x.data = some v := by
  have one : ∀ n f (d : Dict Str V), Dict.get? k d = some v → Dict.get? k (extractOne false n f d) = some v := by
    intro n f d h
    unfold extractOne
    split
    · rename_i hc
      split
      · rw [Dict.get?_set]
        split
        · rename_i he
          subst he
          simp [Dict.has, h] at hc
        · exact h
      · exact h
    · exact h
  induction hr with
  | refl => exact hk
  | tail _ hs ih =>
    cases hs with
    | own h =>
      cases h with
      | ownField => exact one _ _ _ ih
      | field ho => exact one _ _ _ ih
      | _ => exact ih
    | change h => exact ih

/-- **C95.** Whatever is added and removed meanwhile: a value that was not in the record before was given by a field of the
decorator, or by a field that was registered under this name at some moment of the run. -/
theorem C95_only_registered_fields (inter : Bool) (own : List (Str × Extractor V)) (globals : Bool)
    (slots : Slots (Extractor V)) (d₀ : Dict Str V) (x : TakeSys V)
    (hr : ReflTransGen (LiveStep inter own globals) (TakeSys.begin own slots d₀) x) (k : Str) (v : V)
    (hk : Dict.get? k x.data = some v) :
    Dict.get? k d₀ = some v ∨ ∃ f d, f d = .ok v ∧ ((k, f) ∈ own ∨
      ∃ y, Passed (LiveStep inter own globals) (TakeSys.begin own slots d₀) x y ∧ Registered y k f) := by
  let Reg (z : TakeSys V) (n : Str) (f : Extractor V) : Prop := (n, f) ∈ own ∨
    ∃ y, Passed (LiveStep inter own globals) (TakeSys.begin own slots d₀) z y ∧ Registered y n f
  have inv : ∀ z, ReflTransGen (LiveStep inter own globals) (TakeSys.begin own slots d₀) z →
      (∀ rest, z.st = .own rest → ∀ e ∈ rest, e ∈ own) ∧
      (∀ n f used pos len, z.st = .took n f used pos len → Reg z n f) ∧
      (∀ k v, Dict.get? k z.data = some v → Dict.get? k d₀ = some v ∨ ∃ f d, f d = .ok v ∧ Reg z k f) := by
    intro z hz
    induction hz with
    | refl => exact ⟨fun rest h => by cases h; exact fun e he => he, by simp [TakeSys.begin], fun k v h => .inl h⟩
    | @tail z z' hz hs ih =>
      obtain ⟨ih1, ih2, ih3⟩ := ih
      have lift : ∀ n f, Reg z n f → Reg z' n f := by
        intro n f h
        rcases h with h | ⟨y, hy, h⟩
        · exact .inl h
        · exact .inr ⟨y, ⟨hy.1, hy.2.tail hs⟩, h⟩
      have lift3 : ∀ k v, Dict.get? k z.data = some v → Dict.get? k d₀ = some v ∨ ∃ f d, f d = .ok v ∧ Reg z' k f := by
        intro k v h
        rcases ih3 k v h with h | ⟨f, d, h, hreg⟩
        · exact .inl h
        · exact .inr ⟨f, d, h, lift _ _ hreg⟩
      have one : ∀ n f, Reg z' n f → ∀ k v, Dict.get? k (extractOne inter n f z.data) = some v →
          Dict.get? k d₀ = some v ∨ ∃ f d, f d = .ok v ∧ Reg z' k f := by
        intro n f hreg k v h
        unfold extractOne at h
        split at h
        · split at h
          · rename_i value hval
            rw [Dict.get?_set] at h
            split at h
            · rename_i he
              subst he
              simp only [Option.some.injEq] at h
              subst h
              exact .inr ⟨f, _, hval, hreg⟩
            · exact lift3 k v h
          · exact lift3 k v h
        · exact lift3 k v h
      cases hs with
      | own h =>
        cases h with
        | ownField =>
          exact ⟨fun rest he e hm => by cases he; exact ih1 _ rfl e (by simp [hm]), by simp,
            one _ _ (.inl (ih1 _ rfl _ (by simp)))⟩
        | ownEnd hg => exact ⟨by simp, by simp, lift3⟩
        | ownOnly hg => exact ⟨by simp, by simp, lift3⟩
        | iter => exact ⟨by simp, by simp, lift3⟩
        | changed hu => exact ⟨by simp, by simp, lift3⟩
        | finish hu hnx => exact ⟨by simp, by simp, lift3⟩
        | unexpected hu hnx => exact ⟨by simp, by simp, lift3⟩
        | item hu hnx =>
          refine ⟨by simp, fun n f used pos len he => ?_, lift3⟩
          cases he
          exact .inr ⟨_, ⟨hz, .single (.own (.item hu hnx))⟩, (Slots.next_some _ _ _ _ hnx).2⟩
        | hidden ho => exact ⟨by simp, by simp, lift3⟩
        | field ho => exact ⟨by simp, by simp, one _ _ (lift _ _ (ih2 _ _ _ _ _ rfl))⟩
      | change h => exact ⟨ih1, fun n f used pos len he => lift _ _ (ih2 _ _ _ _ _ he), lift3⟩
  exact (inv x hr).2.2 k v hk

/-- What is left to do, while the thread goes through the global fields. -/
def TakeState.left : TakeState V → Nat
  | .loop _ _ len => 2 * len + 1
  | .took _ _ _ _ len => 2 * len + 2
  | _ => 0

/-- **C95.** Whatever is added and removed meanwhile, however often: from the moment the iterator is made, the thread is done
after at most two steps for every field registered at that moment and one more, and as long as it is not done it can take a step. -/
theorem C95_extraction_ends (inter : Bool) (own : List (Str × Extractor V)) (globals : Bool) (k : Nat) (x y z : TakeSys V)
    (hx : x.st = .start) (hy : TakeStep inter own globals x y) (hz : StepsOf inter own globals k y z) :
    k ≤ 2 * (fieldNames x).length + 1 ∧ (z.st = .handed ∨ z.st = .raised ∨ ∃ z', TakeStep inter own globals z z') := by
  have bound : ∀ {k : Nat} {y z : TakeSys V}, StepsOf inter own globals k y z →
      (Walking y ∨ y.st = .handed ∨ y.st = .raised) → k ≤ y.st.left ∧ (Walking z ∨ z.st = .handed ∨ z.st = .raised) := by
    intro k y z h
    induction h with
    | none x => exact fun h => ⟨Nat.zero_le _, h⟩
    | own hs _ ih =>
      intro hw
      cases hs with
      | ownField => simp [Walking] at hw
      | ownEnd => simp [Walking] at hw
      | ownOnly => simp [Walking] at hw
      | iter => simp [Walking] at hw
      | changed hu =>
        obtain ⟨h1, h2⟩ := ih (.inr (.inr rfl))
        exact ⟨by simp only [TakeState.left] at h1 ⊢; omega, h2⟩
      | finish hu hn =>
        obtain ⟨h1, h2⟩ := ih (.inr (.inl rfl))
        exact ⟨by simp only [TakeState.left] at h1 ⊢; omega, h2⟩
      | unexpected hu hn =>
        obtain ⟨h1, h2⟩ := ih (.inr (.inr rfl))
        exact ⟨by simp only [TakeState.left] at h1 ⊢; omega, h2⟩
      | item hu hn =>
        obtain ⟨h1, h2⟩ := ih (.inl (.inr ⟨_, _, _, _, _, rfl⟩))
        exact ⟨by simp only [TakeState.left] at h1 ⊢; omega, h2⟩
      | hidden ho =>
        obtain ⟨h1, h2⟩ := ih (.inl (.inl ⟨_, _, _, rfl⟩))
        exact ⟨by simp only [TakeState.left] at h1 ⊢; omega, h2⟩
      | field ho =>
        obtain ⟨h1, h2⟩ := ih (.inl (.inl ⟨_, _, _, rfl⟩))
        exact ⟨by simp only [TakeState.left] at h1 ⊢; omega, h2⟩
    | change _ _ ih => exact fun hw => ih hw
  obtain ⟨sl, st, d⟩ := x
  simp only at hx
  subst hx
  cases hy with
  | iter =>
    obtain ⟨h1, h2⟩ := bound hz (.inl (.inl ⟨_, _, _, rfl⟩))
    refine ⟨by simpa [TakeState.left, fieldNames_eq] using h1, ?_⟩
    obtain ⟨sl, st, d⟩ := z
    rcases h2 with (⟨used, pos, len, h⟩ | ⟨n, f, used, pos, len, h⟩) | h | h
    · simp only at h
      subst h
      refine .inr (.inr ?_)
      by_cases hu : sl.items.length = used
      · cases hn : sl.next pos with
        | none => exact ⟨_, .finish hu hn⟩
        | some e =>
          cases len with
          | zero => exact ⟨_, .unexpected hu hn⟩
          | succ l => exact ⟨_, .item (n := e.2.1) (f := e.2.2) (pos' := e.1) hu hn⟩
      · exact ⟨_, .changed hu⟩
    · simp only at h
      subst h
      refine .inr (.inr ?_)
      by_cases ho : n ∈ Dict.keys own
      · exact ⟨_, .hidden ho⟩
      · exact ⟨_, .field ho⟩
    · exact .inl h
    · exact .inr (.inl h)

end Polog
