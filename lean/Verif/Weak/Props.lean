import Verif.Weak.Spec

/-! C64: weak dictionaries. -/

namespace Polog

open WeakSpec

/-- The invariant: keys are different, alive, what the closures refer to, and weakly referable; values are
alive; and the contents are those of the map. -/
structure WeakInv (env : ObjEnv) (d : WeakDict) (m : Map) : Prop where
  nodup : (d.data.map WeakItem.key).Nodup
  good : ∀ i ∈ d.data, i.closure = i.key ∧ i.key ∉ d.gone ∧ i.value ∉ d.gone ∧ env.weakable i.key = true
  mem : ∀ k v, m k = some v ↔ ∃ i ∈ d.data, i.key = k ∧ i.value = v

variable {env : ObjEnv}

theorem find_key (hid : Identity env) {l : List WeakItem} (hnd : (l.map WeakItem.key).Nodup) (i : WeakItem)
    (k : Nat) : (l.find? fun i => env.same i.key k) = some i ↔ i ∈ l ∧ i.key = k := by
  induction l with
  | nil => simp
  | cons j l ih =>
    rw [List.map_cons, List.nodup_cons] at hnd
    rw [List.find?_cons]
    by_cases hj : j.key = k
    · rw [(hid _ _).2 hj]
      simp only [Option.some.injEq, List.mem_cons]
      constructor
      · rintro rfl; exact ⟨.inl rfl, hj⟩
      · rintro ⟨h | h, hk⟩
        · exact h.symm
        · exact absurd (List.mem_map_of_mem (f := WeakItem.key) h) (by rw [hk, ← hj]; exact hnd.1)
    · have : env.same j.key k = false := by
        cases h : env.same j.key k with
        | false => rfl
        | true => exact absurd ((hid _ _).1 h) hj
      rw [this]
      simp only [ih hnd.2, List.mem_cons]
      constructor
      · rintro ⟨h, hk⟩; exact ⟨.inr h, hk⟩
      · rintro ⟨h | h, hk⟩
        · subst h; exact absurd hk hj
        · exact ⟨h, hk⟩

theorem find_none (hid : Identity env) {l : List WeakItem} (k : Nat) :
    (l.find? fun i => env.same i.key k) = none ↔ ∀ i ∈ l, i.key ≠ k := by
  rw [List.find?_eq_none]
  constructor
  · intro h i hi hk; exact h i hi ((hid _ _).2 hk)
  · intro h i hi hk; exact h i hi ((hid _ _).1 hk)

theorem setItem_spec (hid : Identity env) (k v : Nat) {l : List WeakItem} (hnd : (l.map WeakItem.key).Nodup) :
    ((setItem env k v l).map WeakItem.key).Nodup ∧
    ∀ i, i ∈ setItem env k v l ↔ (i ∈ l ∧ i.key ≠ k) ∨ i = ⟨k, v, k⟩ := by
  induction l with
  | nil => simp [setItem]
  | cons j l ih =>
    rw [List.map_cons, List.nodup_cons] at hnd
    obtain ⟨h1, h2⟩ := ih hnd.2
    simp only [setItem]
    split
    · rename_i hs
      have hj := (hid _ _).1 hs
      refine ⟨by simp only [List.map_cons, List.nodup_cons]; exact hnd, fun i => ?_⟩
      rw [List.mem_cons, List.mem_cons, hj]
      constructor
      · rintro (h | h)
        · exact .inr h
        · exact .inl ⟨.inr h, fun hk => hnd.1 (by rw [hj, ← hk]; exact List.mem_map_of_mem h)⟩
      · rintro (⟨h | h, hk⟩ | h)
        · subst h; exact absurd hj hk
        · exact .inr h
        · exact .inl h
    · rename_i hs
      have hj : j.key ≠ k := fun h => hs ((hid _ _).2 h)
      constructor
      · rw [List.map_cons, List.nodup_cons]
        refine ⟨fun hm => ?_, h1⟩
        obtain ⟨i, hi, hk⟩ := List.mem_map.1 hm
        rcases (h2 i).1 hi with ⟨h, _⟩ | h
        · exact hnd.1 (hk ▸ List.mem_map_of_mem h)
        · subst h; exact hj hk.symm
      · intro i
        rw [List.mem_cons, h2, List.mem_cons]
        constructor
        · rintro (h | ⟨h, hk⟩ | h)
          · subst h; exact .inl ⟨.inl rfl, hj⟩
          · exact .inl ⟨.inr h, hk⟩
          · exact .inr h
        · rintro (⟨h | h, hk⟩ | h)
          · exact .inl h
          · exact .inr (.inl ⟨h, hk⟩)
          · exact .inr (.inr h)

theorem delItem_spec (hid : Identity env) (k : Nat) {l : List WeakItem} (hnd : (l.map WeakItem.key).Nodup) :
    delItem env k l = l.filter fun i => i.key ≠ k := by
  induction l with
  | nil => rfl
  | cons j l ih =>
    rw [List.map_cons, List.nodup_cons] at hnd
    simp only [delItem]
    split
    · rename_i hs
      have hj := (hid _ _).1 hs
      rw [List.filter_cons_of_neg (by simpa using hj)]
      symm
      rw [List.filter_eq_self]
      intro i hi
      simp only [ne_eq, decide_eq_true_eq]
      exact fun hk => hnd.1 (by rw [hj, ← hk]; exact List.mem_map_of_mem hi)
    · rename_i hs
      have hj : j.key ≠ k := fun h => hs ((hid _ _).2 h)
      rw [List.filter_cons_of_pos (by simpa using hj), ih hnd.2]

theorem nodup_filter_key {l : List WeakItem} (h : (l.map WeakItem.key).Nodup) (p : WeakItem → Bool) :
    ((l.filter p).map WeakItem.key).Nodup :=
  h.sublist ((List.filter_sublist).map _)

theorem runFinalizers_spec (hid : Identity env) (gone : List Nat) (is : List WeakItem) :
    ∀ {data : List WeakItem}, (data.map WeakItem.key).Nodup → (∀ i ∈ is, i.closure = i.key ∧ i.key ∉ gone) →
    runFinalizers env gone is data = data.filter fun j => is.all fun i => j.key ≠ i.key := by
  induction is with
  | nil => intro data _ _; simp only [runFinalizers, List.all_nil]; rw [List.filter_eq_self.2]; simp
  | cons i is ih =>
    intro data hnd hi
    obtain ⟨h1, h2⟩ := hi i (by simp)
    simp only [runFinalizers]
    rw [h1, if_neg h2, delItem_spec hid _ hnd, ih (nodup_filter_key hnd _) (fun j hj => hi j (by simp [hj])),
      List.filter_filter]
    congr 1
    funext j
    simp [Bool.and_comm]

theorem winv_step (hid : Identity env) {d : WeakDict} {m : Map} (h : WeakInv env d m) (op : WeakOp)
    (hs : Sensible d.gone [op]) : WeakInv env (d.step env op) (step env m op) := by
  have hdel : ∀ k, WeakInv env ⟨d.data.filter fun i => i.key ≠ k, d.gone⟩ (fun n => if n = k then none else m n) := by
    intro k
    refine ⟨nodup_filter_key h.nodup _, fun i hi => h.good i ((List.mem_filter.1 hi).1), fun n v => ?_⟩
    by_cases hn : n = k
    · simp only [hn, if_true]
      constructor
      · intro h; cases h
      · rintro ⟨i, hi, hk, _⟩
        have := (List.mem_filter.1 hi).2
        simp [hk] at this
    · simp only [hn, if_false]
      rw [h.mem]
      constructor
      · rintro ⟨i, hi, hk, hv⟩
        exact ⟨i, List.mem_filter.2 ⟨hi, by simp [hk, hn]⟩, hk, hv⟩
      · rintro ⟨i, hi, hk, hv⟩
        exact ⟨i, (List.mem_filter.1 hi).1, hk, hv⟩
  have hskip : ∀ k, (∀ i ∈ d.data, i.key ≠ k) → WeakInv env d (fun n => if n = k then none else m n) := by
    intro k hk
    have := hdel k
    have e : (d.data.filter fun i => i.key ≠ k) = d.data := by
      rw [List.filter_eq_self]; intro i hi; simpa using hk i hi
    rw [e] at this
    exact this
  have hdel' : ∀ k, WeakInv env (match d.del env k with | .ok d' => d' | .error _ => d)
      (fun n => if n = k then none else m n) := by
    intro k
    unfold WeakDict.del
    by_cases hw : env.weakable k = true
    · simp only [hw, Bool.not_true, Bool.false_eq_true, if_false]
      cases hf : d.find env k with
      | none => exact hskip k ((find_none hid k).1 hf)
      | some i => simp only [delItem_spec hid k h.nodup]; exact hdel k
    · have hw : env.weakable k = false := by simpa using hw
      simp only [hw, Bool.not_false, if_true]
      exact hskip k fun i hi hk => by rw [← hk, (h.good i hi).2.2.2] at hw; cases hw
  cases op with
  | set k v =>
    obtain ⟨hk, hv, _⟩ := hs
    simp only [WeakDict.step, WeakDict.set, step]
    by_cases h1 : env.isNone v = true
    · simp [h1, h]
    · have h1 : env.isNone v = false := by simpa using h1
      by_cases h2 : env.weakable k = true
      · by_cases h3 : env.weakable v = true
        · simp only [h1, h2, h3, Bool.not_true, Bool.false_eq_true, if_false, Bool.or_self]
          obtain ⟨s1, s2⟩ := setItem_spec hid k v h.nodup
          refine ⟨s1, fun i hi => ?_, fun n w => ?_⟩
          · rcases (s2 i).1 hi with ⟨hi, _⟩ | hi
            · exact h.good i hi
            · subst hi; exact ⟨rfl, hk, hv, h2⟩
          · by_cases hn : n = k
            · subst hn
              simp only [if_true, Option.some.injEq]
              constructor
              · rintro rfl; exact ⟨_, (s2 _).2 (.inr rfl), rfl, rfl⟩
              · rintro ⟨i, hi, hk', hv'⟩
                rcases (s2 i).1 hi with ⟨_, hne⟩ | hi
                · exact absurd hk' hne
                · subst hi; exact hv'
            · simp only [hn, if_false]
              rw [h.mem]
              constructor
              · rintro ⟨i, hi, hk', hv'⟩
                exact ⟨i, (s2 i).2 (.inl ⟨hi, by rw [hk']; exact hn⟩), hk', hv'⟩
              · rintro ⟨i, hi, hk', hv'⟩
                rcases (s2 i).1 hi with ⟨hi, _⟩ | hi
                · exact ⟨i, hi, hk', hv'⟩
                · subst hi; exact absurd hk'.symm hn
        · simp [h1, h2, h3, h]
      · simp [h1, h2, h]
  | del k => exact hdel' k
  | pop k ds =>
    simp only [WeakDict.step, step]
    have hp : ∀ ds : List Nat, ds.length < 2 → WeakInv env (d.pop env k ds).2 (fun n => if n = k then none else m n) := by
      intro ds hds
      have hget : ∀ r, d.get env k = r →
          WeakInv env (match r with
            | .error _ => d
            | .ok none => d
            | .ok (some _) => match d.del env k with | .ok d' => d' | .error _ => d)
          (fun n => if n = k then none else m n) := by
        intro r hr
        unfold WeakDict.get at hr
        by_cases hw : env.weakable k = true
        · simp only [hw, Bool.not_true, Bool.false_eq_true, if_false] at hr
          cases hf : d.find env k with
          | none =>
            rw [hf] at hr
            subst hr
            exact hskip k ((find_none hid k).1 hf)
          | some i =>
            rw [hf] at hr
            have := (find_key hid h.nodup i k).1 hf
            simp only [if_neg (h.good i this.1).2.2.1] at hr
            subst hr
            exact hdel' k
        · have hw : env.weakable k = false := by simpa using hw
          simp only [hw, Bool.not_false, if_true] at hr
          subst hr
          exact hskip k fun i hi hk => by rw [← hk, (h.good i hi).2.2.2] at hw; cases hw
      have hg := hget _ rfl
      match ds, hds with
      | [], _ =>
        simp only [WeakDict.pop]
        split at hg <;> rename_i heq <;> simp only [heq]
        · exact hg
        · exact hg
        · split at hg <;> rename_i heq2 <;> simp only [heq2] <;> exact hg
      | [x], _ =>
        simp only [WeakDict.pop]
        split at hg <;> rename_i heq <;> simp only [heq]
        · exact hg
        · exact hg
        · split at hg <;> rename_i heq2 <;> simp only [heq2] <;> exact hg
    by_cases hds : 2 ≤ ds.length
    · rw [if_pos hds]
      match ds, hds with
      | _ :: _ :: _, _ => exact h
    · rw [if_neg hds]
      exact hp ds (by omega)
  | die x =>
    obtain ⟨hx, _⟩ := hs
    simp only [WeakDict.step, WeakDict.die, step]
    have hnd := nodup_filter_key h.nodup fun i => decide (i.key ≠ x)
    rw [runFinalizers_spec hid _ _ hnd (by
      intro i hi
      have h1 := List.mem_filter.1 ((List.mem_filter.1 hi).1)
      have h2 := h.good i h1.1
      refine ⟨h2.1, ?_⟩
      rw [List.mem_cons, not_or]
      exact ⟨by simpa using h1.2, h2.2.1⟩)]
    have hmem : ∀ i, (i ∈ (d.data.filter fun i => decide (i.key ≠ x)).filter (fun j =>
        ((d.data.filter fun i => decide (i.key ≠ x)).filter fun i => decide (i.value = x)).all fun i =>
          decide (j.key ≠ i.key))) ↔ i ∈ d.data ∧ i.key ≠ x ∧ i.value ≠ x := by
      intro i
      simp only [List.mem_filter, decide_eq_true_eq, List.all_eq_true, ne_eq]
      constructor
      · rintro ⟨⟨h1, h2⟩, h3⟩
        exact ⟨h1, h2, fun hv => h3 i ⟨⟨h1, h2⟩, hv⟩ rfl⟩
      · rintro ⟨h1, h2, h3⟩
        refine ⟨⟨h1, h2⟩, ?_⟩
        rintro j ⟨⟨j1, _⟩, j3⟩ hk
        have : i = j := by
          have e1 := (find_key hid h.nodup i j.key).2 ⟨h1, hk⟩
          have e2 := (find_key hid h.nodup j j.key).2 ⟨j1, rfl⟩
          rw [e1] at e2
          exact Option.some.inj e2
        subst this
        exact h3 j3
    refine ⟨nodup_filter_key hnd _, fun i hi => ?_, fun n v => ?_⟩
    · obtain ⟨h1, h2, h3⟩ := (hmem i).1 hi
      obtain ⟨g1, g2, g3, g4⟩ := h.good i h1
      refine ⟨g1, ?_, ?_, g4⟩ <;> rw [List.mem_cons, not_or]
      · exact ⟨h2, g2⟩
      · exact ⟨h3, g3⟩
    · constructor
      · intro hm
        split at hm
        · cases hm
        · rename_i hc
          obtain ⟨i, hi, hk, hv⟩ := (h.mem n v).1 hm
          rw [not_or] at hc
          refine ⟨i, (hmem i).2 ⟨hi, by rw [hk]; exact hc.1, ?_⟩, hk, hv⟩
          rw [hv]
          intro hvx
          rw [hvx] at hm
          exact hc.2 hm
      · rintro ⟨i, hi, hk, hv⟩
        obtain ⟨h1, h2, h3⟩ := (hmem i).1 hi
        have := (h.mem n v).2 ⟨i, h1, hk, hv⟩
        rw [if_neg]
        · exact this
        · rw [this, not_or]
          refine ⟨by rw [← hk]; exact h2, fun hc => ?_⟩
          rw [← hv] at hc
          exact h3 (Option.some.inj hc)

theorem step_gone (d : WeakDict) (op : WeakOp) : (d.step env op).gone = match op with
    | .die x => x :: d.gone
    | _ => d.gone := by
  have hdel : ∀ k d', d.del env k = .ok d' → d'.gone = d.gone := by
    intro k d' h
    unfold WeakDict.del at h
    split at h
    · cases h
    · split at h
      · cases h
      · cases h; rfl
  cases op with
  | set k v =>
    simp only [WeakDict.step]
    unfold WeakDict.set
    split
    · rename_i d' h
      split at h
      · cases h
      · split at h
        · cases h
        · split at h
          · cases h
          · cases h; rfl
    · rfl
  | del k =>
    simp only [WeakDict.step]
    split
    · exact hdel _ _ ‹_›
    · rfl
  | pop k ds =>
    simp only [WeakDict.step]
    unfold WeakDict.pop
    split
    · rfl
    · split
      · rfl
      · split <;> rfl
      · split
        · rfl
        · exact hdel _ _ ‹_›
  | die x => rfl

theorem winv_run (hid : Identity env) (ops : List WeakOp) : ∀ {d : WeakDict} {m : Map}, WeakInv env d m →
    Sensible d.gone ops → WeakInv env (d.run env ops) (run env m ops) := by
  induction ops with
  | nil => intro d m h _; exact h
  | cons op ops ih =>
    intro d m h hs
    simp only [WeakDict.run, run]
    have h1 : Sensible d.gone [op] ∧ Sensible (d.step env op).gone ops := by
      rw [step_gone]
      cases op with
      | set k v => exact ⟨⟨hs.1, hs.2.1, trivial⟩, hs.2.2⟩
      | del k => exact ⟨⟨hs.1, trivial⟩, hs.2⟩
      | pop k ds => exact ⟨⟨hs.1, trivial⟩, hs.2⟩
      | die x => exact ⟨⟨hs.1, trivial⟩, hs.2⟩
    exact ih (winv_step hid h op h1.1) h1.2

theorem winv_empty : WeakInv env .empty (fun _ => none) :=
  ⟨by simp [WeakDict.empty], by simp [WeakDict.empty], by simp [WeakDict.empty]⟩

/-- **C64**, for keys that are equal only to themselves: after any history the dictionary answers like a
map from which every object that went away has taken its pairs with it. -/
theorem C64_weak_dictionary_is_a_map_partial (hid : Identity env) (ops : List WeakOp)
    (hs : Sensible [] ops) (k : Nat) (hk : env.weakable k = true) :
    (WeakDict.empty.run env ops).get env k = .ok (run env (fun _ => none) ops k) ∧
    (WeakDict.empty.run env ops).contains env k = (run env (fun _ => none) ops k).isSome ∧
    ((WeakDict.empty.run env ops).getItem env k = match run env (fun _ => none) ops k with
      | none => .error .keyError
      | some v => .ok v) := by
  have h := winv_run hid ops (d := .empty) winv_empty hs
  generalize WeakDict.empty.run env ops = d at h ⊢
  generalize run env (fun _ => none) ops = m at h ⊢
  have hg : d.get env k = .ok (m k) ∧ d.contains env k = (m k).isSome := by
    unfold WeakDict.get WeakDict.contains
    simp only [hk, Bool.not_true, Bool.false_eq_true, if_false, Bool.true_and]
    cases hf : d.find env k with
    | none =>
      have hn : m k = none := by
        rcases Option.eq_none_or_eq_some (m k) with h' | ⟨v, h'⟩
        · exact h'
        · obtain ⟨i, hi, hk', _⟩ := (h.mem k v).1 h'
          exact absurd hk' ((find_none hid k).1 hf i hi)
      rw [hn]; exact ⟨rfl, rfl⟩
    | some i =>
      obtain ⟨h1, h2⟩ := (find_key hid h.nodup i k).1 hf
      have hv : m k = some i.value := (h.mem k _).2 ⟨i, h1, h2, rfl⟩
      simp only [if_neg (h.good i h1).2.2.1, hv]
      simp
  refine ⟨hg.1, hg.2, ?_⟩
  unfold WeakDict.getItem
  rw [hg.1]
  cases m k <;> rfl

/-- **C64**: its iterators list exactly the keys and the values of that map, each key once. -/
theorem C64_keys_and_values_partial (hid : Identity env) (ops : List WeakOp) (hs : Sensible [] ops) :
    (WeakDict.empty.run env ops).keys.Nodup ∧
    (∀ k, k ∈ (WeakDict.empty.run env ops).keys ↔ (run env (fun _ => none) ops k).isSome = true) ∧
    (WeakDict.empty.run env ops).len = (WeakDict.empty.run env ops).keys.length ∧
    ((WeakDict.empty.run env ops).values.map some =
      (WeakDict.empty.run env ops).keys.map (run env (fun _ => none) ops)) := by
  have h := winv_run hid ops (d := .empty) winv_empty hs
  generalize WeakDict.empty.run env ops = d at h ⊢
  generalize run env (fun _ => none) ops = m at h ⊢
  refine ⟨h.nodup, fun k => ?_, by simp [WeakDict.len, WeakDict.keys], ?_⟩
  · rw [Option.isSome_iff_exists]
    constructor
    · intro hk
      obtain ⟨i, hi, hk⟩ := List.mem_map.1 hk
      exact ⟨i.value, (h.mem k _).2 ⟨i, hi, hk, rfl⟩⟩
    · rintro ⟨v, hv⟩
      obtain ⟨i, hi, hk, _⟩ := (h.mem k v).1 hv
      exact List.mem_map.2 ⟨i, hi, hk⟩
  · have hv : d.values = d.data.map WeakItem.value := by
      unfold WeakDict.values
      rw [List.filter_eq_self]
      intro v hv
      obtain ⟨i, hi, rfl⟩ := List.mem_map.1 hv
      simpa using (h.good i hi).2.2.1
    rw [hv]
    unfold WeakDict.keys
    rw [List.map_map, List.map_map]
    apply List.map_congr_left
    intro i hi
    simp only [Function.comp]
    exact ((h.mem i.key i.value).2 ⟨i, hi, rfl, rfl⟩).symm

theorem itemsFrom_callable {d : WeakDict} (hc : ∀ k v, d.get env k = .ok (some v) → (env.result v).isSome = true) :
    ∀ (l : List WeakItem), (∀ i ∈ l, d.get env i.key = .ok (some i.value)) →
      d.itemsFrom env (l.map WeakItem.key) =
        .ok (l.map fun i => (i.key, (env.result i.value).getD 0)) := by
  intro l
  induction l with
  | nil => intro _; rfl
  | cons i l ih =>
    intro h
    have hi := h i (List.mem_cons_self ..)
    have := ih fun j hj => h j (List.mem_cons_of_mem _ hj)
    have hr := hc _ _ hi
    obtain ⟨r, hr⟩ := Option.isSome_iff_exists.1 hr
    simp only [List.map_cons, WeakDict.itemsFrom, hi, hr, this, Option.getD_some]

/-- **C64**, `items()` when all values of the map can be called (what it yields otherwise:
`C64_items_are_pairs_fails`): one pair for each key in the order of `keys()`, of the key and of what the
call of its value returns. -/
theorem C64_items_of_callables_partial (hid : Identity env) (ops : List WeakOp) (hs : Sensible [] ops)
    (hc : ∀ k v, run env (fun _ => none) ops k = some v → (env.result v).isSome = true) :
    ∃ l, (WeakDict.empty.run env ops).items env = .ok l ∧
      l.map Prod.fst = (WeakDict.empty.run env ops).keys ∧
      ∀ k r, (k, r) ∈ l ↔ ∃ v, run env (fun _ => none) ops k = some v ∧ env.result v = some r := by
  have h := winv_run hid ops (d := .empty) winv_empty hs
  have hmap := C64_weak_dictionary_is_a_map_partial hid ops hs
  generalize WeakDict.empty.run env ops = d at h hmap ⊢
  generalize run env (fun _ => none) ops = m at h hmap hc ⊢
  have hget : ∀ i ∈ d.data, d.get env i.key = .ok (some i.value) := by
    intro i hi
    rw [(hmap i.key (h.good i hi).2.2.2).1, (h.mem i.key i.value).2 ⟨i, hi, rfl, rfl⟩]
  have hc' : ∀ k v, d.get env k = .ok (some v) → (env.result v).isSome = true := by
    intro k v hk
    have hw : env.weakable k = true := by
      cases hw : env.weakable k with
      | true => rfl
      | false => simp [WeakDict.get, hw] at hk
    rw [(hmap k hw).1] at hk
    exact hc k v (by simpa using hk)
  refine ⟨_, itemsFrom_callable hc' d.data hget, by simp [WeakDict.keys, Function.comp_def], ?_⟩
  intro k r
  constructor
  · intro hk
    obtain ⟨i, hi, e⟩ := List.mem_map.1 hk
    have hm : m i.key = some i.value := (h.mem i.key i.value).2 ⟨i, hi, rfl, rfl⟩
    obtain ⟨r', hr'⟩ := Option.isSome_iff_exists.1 (hc _ _ hm)
    rw [hr'] at e
    cases e
    exact ⟨_, hm, hr'⟩
  · rintro ⟨v, hv, hr⟩
    obtain ⟨i, hi, rfl, rfl⟩ := (h.mem k v).1 hv
    exact List.mem_map.2 ⟨i, hi, by rw [hr]; rfl⟩

/-- **C64**: whatever the keys and the values are, and whatever happened, no answer of the dictionary is
an object that is gone. -/
theorem C64_no_dead_value (env : ObjEnv) (ops : List WeakOp) (k v : Nat) :
    ((WeakDict.empty.run env ops).get env k = .ok (some v) → v ∉ (WeakDict.empty.run env ops).gone) ∧
    ((WeakDict.empty.run env ops).getItem env k = .ok v → v ∉ (WeakDict.empty.run env ops).gone) ∧
    (v ∈ (WeakDict.empty.run env ops).values → v ∉ (WeakDict.empty.run env ops).gone) ∧
    (((WeakDict.empty.run env ops).pop env k []).1 = .ok v → v ∉ (WeakDict.empty.run env ops).gone) := by
  generalize WeakDict.empty.run env ops = d
  have hg : ∀ {v}, d.get env k = .ok (some v) → v ∉ d.gone := by
    intro v h
    unfold WeakDict.get at h
    split at h
    · cases h
    · split at h
      · cases h
      · split at h
        · cases h
        · cases h; assumption
  refine ⟨hg, fun h => ?_, fun h => ?_, fun h => ?_⟩
  · unfold WeakDict.getItem at h
    split at h
    · cases h
    · cases h
    · cases h; exact hg ‹_›
  · unfold WeakDict.values at h
    simpa using (List.mem_filter.1 h).2
  · unfold WeakDict.pop at h
    split at h
    · cases h
    · split at h
      · cases h
      · cases h
      · split at h
        · cases h
        · cases h; exact hg ‹_›

/-- **C64**: `pop` with more than one default is a `TypeError`, whatever the key, and changes nothing. -/
theorem C64_pop_with_two_defaults (env : ObjEnv) (d : WeakDict) (k : Nat) (ds : List Nat) (h : 2 ≤ ds.length) :
    d.pop env k ds = (.error .typeError, d) := by
  match ds, h with
  | _ :: _ :: _, _ => rfl

/-- **C64**: `pop` returns the value of the map, or the default, or raises `KeyError`. -/
theorem C64_pop_partial (hid : Identity env) (ops : List WeakOp) (hs : Sensible [] ops) (k : Nat)
    (hk : env.weakable k = true) :
    (∀ v, run env (fun _ => none) ops k = some v → ∀ ds : List Nat, ds.length < 2 →
      ((WeakDict.empty.run env ops).pop env k ds).1 = .ok v) ∧
    (run env (fun _ => none) ops k = none →
      ((WeakDict.empty.run env ops).pop env k []).1 = .error .keyError ∧
      ∀ x, ((WeakDict.empty.run env ops).pop env k [x]).1 = .ok x) := by
  obtain ⟨hg, hc, _⟩ := C64_weak_dictionary_is_a_map_partial hid ops hs k hk
  generalize WeakDict.empty.run env ops = d at *
  generalize run env (fun _ => none) ops = m at *
  refine ⟨fun v hv ds hds => ?_, fun hn => ?_⟩
  · rw [hv] at hg hc
    have hd : ∃ d', d.del env k = .ok d' := by
      unfold WeakDict.del
      simp only [hk, Bool.not_true, Bool.false_eq_true, if_false]
      unfold WeakDict.contains at hc
      rw [hk, Bool.true_and] at hc
      cases hf : d.find env k with
      | none => rw [hf] at hc; cases hc
      | some i => exact ⟨_, rfl⟩
    obtain ⟨d', hd⟩ := hd
    match ds, hds with
    | [], _ => simp only [WeakDict.pop, hg, hd]
    | [x], _ => simp only [WeakDict.pop, hg, hd]
  · rw [hn] at hg
    constructor
    · simp only [WeakDict.pop, hg]
    · intro x; simp only [WeakDict.pop, hg]

/-- **C64**: `del d[k]` removes the pair if the map has one, and raises `KeyError` otherwise. -/
theorem C64_del_partial (hid : Identity env) (ops : List WeakOp) (hs : Sensible [] ops) (k : Nat)
    (hk : env.weakable k = true) :
    (run env (fun _ => none) ops k ≠ none → ∃ d', (WeakDict.empty.run env ops).del env k = .ok d') ∧
    (run env (fun _ => none) ops k = none → (WeakDict.empty.run env ops).del env k = .error .keyError) := by
  obtain ⟨_, hc, _⟩ := C64_weak_dictionary_is_a_map_partial hid ops hs k hk
  generalize WeakDict.empty.run env ops = d at *
  generalize run env (fun _ => none) ops = m at *
  unfold WeakDict.contains at hc
  rw [hk, Bool.true_and] at hc
  unfold WeakDict.del
  simp only [hk, Bool.not_true, Bool.false_eq_true, if_false]
  cases hf : d.find env k with
  | none =>
    rw [hf] at hc
    exact ⟨fun h => absurd (by simpa using hc.symm) h, fun _ => rfl⟩
  | some i =>
    rw [hf] at hc
    exact ⟨fun _ => ⟨_, rfl⟩, fun h => by rw [h] at hc; cases hc⟩

/-! ### Witnesses -/

/-- Objects 0 and 1 are equal, the others only to themselves; all can be referred to weakly; none is
callable. -/
def equalEnv : ObjEnv := ⟨fun _ => true, fun a b => a == b || (a ≤ 1 && b ≤ 1), fun _ => false, fun _ => none⟩

def plainObjEnv : ObjEnv := ⟨fun _ => true, fun a b => a == b, fun _ => false, fun _ => none⟩

example : Identity plainObjEnv := fun a b => by simp [plainObjEnv]

example : Sensible [] [.set 0 10, .set 1 11, .set 0 12, .die 1, .pop 0 [], .set 2 10, .die 10] ∧
    run plainObjEnv (fun _ => none) [.set 0 10, .set 1 11, .set 0 12, .die 1] 0 = some 12 := by
  refine ⟨?_, rfl⟩
  simp [Sensible]

/-- Every object is callable and returns the number above it. -/
def callableObjEnv : ObjEnv := ⟨fun _ => true, fun a b => a == b, fun _ => false, fun n => some (n + 1)⟩

example : Identity callableObjEnv := fun a b => by simp [callableObjEnv]

example : (WeakDict.empty.run callableObjEnv [.set 0 10, .set 1 11, .set 0 12, .set 2 20, .die 1]).items callableObjEnv =
    .ok [(0, 13), (2, 21)] := by decide +kernel

/-- **C64** fails for equal keys that are not the same object: after `d[a] = v; d[b] = w` with `a == b`
the pair is lost when `a` goes away, although `b` and `w` are alive; and when `b` and then `w` go away,
`a in d` stays true though `d[a]` raises `KeyError`. -/
theorem C64_equal_keys_fails :
    (¬ ∀ ops, Sensible [] ops → ∀ k ∉ (WeakDict.empty.run equalEnv ops).gone,
      run equalEnv (fun _ => none) ops k = some 11 → 11 ∉ (WeakDict.empty.run equalEnv ops).gone →
      (WeakDict.empty.run equalEnv ops).getItem equalEnv k = .ok 11) ∧
    (¬ ∀ ops, Sensible [] ops → ∀ k, (WeakDict.empty.run equalEnv ops).contains equalEnv k = true →
      ∃ v, (WeakDict.empty.run equalEnv ops).getItem equalEnv k = .ok v) := by
  constructor
  · intro h
    have := h [.set 0 10, .set 1 11, .die 0] (by simp [Sensible]) 1 (by decide +kernel) (by decide +kernel)
      (by decide +kernel)
    exact absurd this (by decide +kernel)
  · intro h
    obtain ⟨v, hv⟩ := h [.set 0 10, .set 1 11, .die 1, .die 11] (by simp [Sensible]) 0 (by decide +kernel)
    have : (WeakDict.empty.run equalEnv [.set 0 10, .set 1 11, .die 1, .die 11]).getItem equalEnv 0 =
        .error .keyError := by decide +kernel
    rw [this] at hv
    cases hv

/-- **C64** fails for `items()`: it calls the value instead of giving it. -/
theorem C64_items_are_pairs_fails :
    ¬ ∀ ops, Sensible [] ops → ∃ l, (WeakDict.empty.run plainObjEnv ops).items plainObjEnv = .ok l := by
  intro h
  obtain ⟨l, hl⟩ := h [.set 0 10] (by simp [Sensible])
  have : (WeakDict.empty.run plainObjEnv [.set 0 10]).items plainObjEnv = .error .typeError := by decide +kernel
  rw [this] at hl
  cases hl

/-- **C64.** An assignment is refused, with `TypeError`, exactly if the value is `None` or one of the two objects cannot be referred to weakly. -/
theorem C64_set_accepts_exactly (env : ObjEnv) (d : WeakDict) (k v : Nat) :
    (env.isNone v = false ∧ env.weakable k = true ∧ env.weakable v = true → ∃ d', d.set env k v = .ok d') ∧
    (¬ (env.isNone v = false ∧ env.weakable k = true ∧ env.weakable v = true) → d.set env k v = .error .typeError) := by
  unfold WeakDict.set
  cases env.isNone v <;> cases env.weakable k <;> cases env.weakable v <;> simp

example : (WeakDict.empty.set ⟨fun n => n != 5, fun a b => a == b, fun n => n == 0, fun _ => none⟩ 1 5 = .error .typeError) ∧
    ∃ d, WeakDict.empty.set ⟨fun n => n != 5, fun a b => a == b, fun n => n == 0, fun _ => none⟩ 1 2 = .ok d :=
  ⟨by decide +kernel, _, rfl⟩

/-- **C64** fails for objects that cannot be referred to weakly, such as numbers: `k in d` is false, but
`d.get(k)` raises `TypeError` where a dictionary gives `None`. -/
theorem C64_get_of_any_object_fails :
    ¬ ∀ (env : ObjEnv) (ops : List WeakOp) (k : Nat), (WeakDict.empty.run env ops).contains env k = false →
      (WeakDict.empty.run env ops).get env k = .ok none := by
  intro h
  exact absurd (h ⟨fun _ => false, fun a b => a == b, fun _ => false, fun _ => none⟩ [] 5 (by decide +kernel))
    (by decide +kernel)

end Polog
