import Verif.Tree.Lemmas

/-! More helper lemmas for the tree model: from paths to key strings, presence of nodes. -/

namespace Polog
open TreeSpec

variable {V : Type}

/-- The path a key string denotes. -/
def pathOf (s : Str) : List Str := if s = [sep] then [] else splitChar sep s

/-- The key string of a path. -/
def keyOf (p : List Str) : Str := if p = [] then [sep] else joinChar sep p

theorem sep_eq : sep = '.' := rfl

theorem splitChar_ne_sep (s : Str) : splitChar sep s ≠ [[sep]] := by
  intro h
  exact not_mem_of_mem_splitChar sep s [sep] (by rw [h]; simp) (by simp)

theorem pathOf_inj {s t : Str} (h : pathOf s = pathOf t) : s = t := by
  unfold pathOf at h
  split at h <;> split at h
  · simp_all
  · exact absurd h.symm (splitChar_ne_nil _ _)
  · exact absurd h (splitChar_ne_nil _ _)
  · exact splitChar_inj _ h

theorem keyOf_pathOf (s : Str) : keyOf (pathOf s) = s := by
  unfold keyOf pathOf
  split
  · simp_all
  · simp [splitChar_ne_nil, joinChar_splitChar]

theorem joinChar_ne_sep {p : List Str} (hne : p ≠ []) (h : ∀ k ∈ p, sep ∉ k)
    (hne' : ∀ k ∈ p, k ≠ []) : joinChar sep p ≠ [sep] := by
  intro he
  have := splitChar_joinChar sep p hne h
  rw [he] at this
  simp [splitChar] at this
  subst this
  exact hne' [] (by simp) rfl

theorem pathOf_keyOf {p : List Str} (h : ∀ k ∈ p, sep ∉ k) (hne' : ∀ k ∈ p, k ≠ []) :
    pathOf (keyOf p) = p := by
  unfold keyOf
  by_cases hp : p = []
  · simp [hp, pathOf]
  · simp only [if_neg hp, pathOf, if_neg (joinChar_ne_sep hp h hne')]
    exact splitChar_joinChar sep p hp h

theorem depth_eq (s : Str) : depth s = (pathOf s).length := by
  unfold depth pathOf sep
  split <;> simp

theorem convKeys_str (isId : Str → Bool) (s : Str) :
    convKeys isId (.str s) =
      if s = [sep] then .ok [[sep]]
      else if (splitChar sep s).all isId then .ok (splitChar sep s) else .error .keyError := by
  unfold convKeys
  by_cases h : s = [sep]
  · simp [h]
  · simp only [if_neg h]

theorem Tree.searchNode_split (t : Tree V) (s : Str) :
    t.searchNode (splitChar sep s) = t.walk (splitChar sep s) := by
  unfold searchNode
  simp [splitChar_ne_nil, splitChar_ne_sep]

theorem Tree.searchOrCreate_split (f : Tree V → Tree V) (t : Tree V) (s : Str) :
    t.searchOrCreate f (splitChar sep s) = Tree.modifyAt f (splitChar sep s) t := by
  unfold searchOrCreate
  simp [splitChar_ne_sep]

theorem Tree.getitem_str (isId : Str → Bool) (t : Tree V) (s : Str) :
    t.getitem isId (.str s) =
      if validKey isId s then
        match t.valAt (pathOf s) with
        | some v => .ok v
        | none => .error .keyError
      else .error .keyError := by
  unfold getitem get validKey pathOf
  by_cases h : s = [sep]
  · subst h
    simp only [↓reduceIte, sep]
    cases hv : t.value <;> simp [valAt, walk, hv]
  · have h' : s ≠ ['.'] := h
    simp only [Key.str.injEq, h, ↓reduceIte, convKeys_str]
    by_cases ha : (splitChar sep s).all isId = true
    · have ha' : (splitChar '.' s).all isId = true := ha
      simp only [ha, ha', ↓reduceIte, Bool.or_true, searchNode_split, valAt]
      cases hw : t.walk (splitChar sep s) with
      | none => simp
      | some n => cases hv : n.value <;> simp [hv]
    · have ha' : (splitChar '.' s).all isId = false := Bool.eq_false_iff.2 ha
      simp [ha', h', sep]

theorem Tree.setitem_str (isId : Str → Bool) (okValue : V → Bool) (t : Tree V) (s : Str) (v : V) :
    t.setitem isId okValue (.str s) (some v) =
      if okValue v then
        if validKey isId s then
          .ok (Tree.modifyAt (fun n => ⟨some v, n.childs⟩) (pathOf s) t)
        else .error .keyError
      else .error .valueError := by
  unfold setitem validKey pathOf
  simp only [convKeys_str]
  by_cases hok : okValue v = true
  · simp only [hok, ↓reduceIte]
    by_cases h : s = [sep]
    · subst h
      simp [sep, searchOrCreate, modifyAt]
    · have h' : s ≠ ['.'] := h
      simp only [h, ↓reduceIte]
      by_cases ha : (splitChar sep s).all isId = true
      · have ha' : (splitChar '.' s).all isId = true := ha
        simp [ha, ha', searchOrCreate_split]
      · have ha' : (splitChar '.' s).all isId = false := Bool.eq_false_iff.2 ha
        simp [ha', h', sep]
  · simp [hok]

theorem Tree.delitem_str (isId : Str → Bool) (t : Tree V) (s : Str) :
    t.delitem isId (.str s) =
      if validKey isId s then
        if (t.valAt (pathOf s)).isNone then .error .keyError
        else .ok (Tree.delAt (pathOf s) t)
      else .error .keyError := by
  unfold delitem validKey pathOf
  simp only [convKeys_str]
  by_cases h : s = [sep]
  · subst h
    simp [sep, searchNode, valAt, walk]
  · have h' : s ≠ ['.'] := h
    simp only [h, ↓reduceIte]
    by_cases ha : (splitChar sep s).all isId = true
    · have ha' : (splitChar '.' s).all isId = true := ha
      simp only [ha, ha', ↓reduceIte, Bool.or_true, searchNode_split, valAt, splitChar_ne_sep]
      split
      · rename_i hw; simp [hw]
      · rename_i hw; simp [hw]
    · have ha' : (splitChar '.' s).all isId = false := Bool.eq_false_iff.2 ha
      simp [ha', h', sep]

theorem Tree.contains_str (isId : Str → Bool) (t : Tree V) (s : Str) :
    t.contains isId (.str s) =
      if validKey isId s then .ok (t.walk (pathOf s)).isSome else .error .keyError := by
  unfold contains validKey pathOf
  simp only [convKeys_str]
  by_cases h : s = [sep]
  · subst h
    simp [sep, searchNode, walk]
  · have h' : s ≠ ['.'] := h
    simp only [h, ↓reduceIte]
    by_cases ha : (splitChar sep s).all isId = true
    · have ha' : (splitChar '.' s).all isId = true := ha
      simp only [ha, ha', ↓reduceIte, Bool.or_true, searchNode_split]
      cases hw : t.walk (splitChar sep s) with
      | none => simp
      | some n => simp
    · have ha' : (splitChar '.' s).all isId = false := Bool.eq_false_iff.2 ha
      simp [ha', h', sep]

theorem Tree.touch_str (isId : Str → Bool) (t : Tree V) (s : Str) :
    t.touch isId (.str s) =
      if s = [sep] then .error .valueError
      else if validKey isId s then .ok (Tree.modifyAt id (pathOf s) t)
      else .error .keyError := by
  unfold touch validKey pathOf
  simp only [convKeys_str]
  by_cases h : s = [sep]
  · simp [h]
  · have h' : s ≠ ['.'] := h
    simp only [h, Key.str.injEq, ↓reduceIte]
    by_cases ha : (splitChar sep s).all isId = true
    · have ha' : (splitChar '.' s).all isId = true := ha
      simp [ha, ha', searchOrCreate_split]
    · have ha' : (splitChar '.' s).all isId = false := Bool.eq_false_iff.2 ha
      simp [ha', h', sep]

/-! ### Presence of nodes -/

theorem Tree.walk_empty_isSome (q : List Str) :
    ((⟨none, .nil⟩ : Tree V).walk q).isSome = true ↔ q = [] := by
  cases q <;> simp [walk, Forest.get?]

theorem Tree.walk_cons (t : Tree V) (k : Str) (ks : List Str) :
    t.walk (k :: ks) = (t.childs.get? k).bind fun c => c.walk ks := by
  simp only [walk]
  cases t.childs.get? k <;> rfl

theorem Tree.walk_append (q r : List Str) : ∀ t : Tree V,
    t.walk (q ++ r) = (t.walk q).bind fun n => n.walk r := by
  induction q with
  | nil => intro t; rfl
  | cons k ks ih =>
    intro t
    simp only [List.cons_append, walk_cons]
    cases t.childs.get? k with
    | none => rfl
    | some c => simp [ih]

theorem Tree.walk_modifyAt {f : Tree V → Tree V} (hf : ∀ n, (f n).childs = n.childs)
    (p : List Str) : ∀ (t : Tree V) (q : List Str),
    ((Tree.modifyAt f p t).walk q).isSome = true ↔ (t.walk q).isSome = true ∨ q <+: p := by
  induction p with
  | nil =>
    intro t q
    cases q with
    | nil => simp [walk]
    | cons k ks => simp [modifyAt, walk, hf]
  | cons k ks ih =>
    intro t q
    cases q with
    | nil => simp [walk]
    | cons k' ks' =>
      simp only [modifyAt, walk_cons, Forest.get?_upsert]
      by_cases h : k' = k
      · subst h
        simp only [↓reduceIte, Option.bind_some, ih, List.cons_prefix_cons, true_and]
        cases t.childs.get? k' with
        | none =>
          simp only [Option.getD_none, walk_empty_isSome, Option.bind_none, Option.isSome_none,
            Bool.false_eq_true, false_or]
          constructor
          · rintro (rfl | h)
            · exact List.nil_prefix
            · exact h
          · exact .inr
        | some c => simp
      · simp [h, List.cons_prefix_cons]

theorem Tree.walk_delAt_of (p : List Str) : ∀ (t : Tree V), t.WF → ∀ (q : List Str),
    ((Tree.delAt p t).walk q).isSome = true → (t.walk q).isSome = true := by
  induction p with
  | nil =>
    intro t _ q h
    cases q with
    | nil => simp [walk]
    | cons k ks => simpa [delAt, walk] using h
  | cons k ks ih =>
    intro t hwf q h
    cases q with
    | nil => simp [walk]
    | cons k' ks' =>
      have hm : (t.childs.modify k (Tree.delAt ks)).WF :=
        Forest.WF_modify (fun t ht => WF_delAt ks ht) hwf
      simp only [delAt, walk_cons, Forest.get?_prune hm, Forest.get?_modify] at h ⊢
      by_cases hk : k' = k
      · subst hk
        simp only [↓reduceIte] at h
        cases hc : t.childs.get? k' with
        | none => simp [hc] at h
        | some c =>
          simp only [hc, Option.map_some] at h
          split at h
          · simp at h
          · exact ih c (Forest.WF_get? hwf hc) ks' h
      · simp only [hk, ↓reduceIte] at h
        cases hc : t.childs.get? k' with
        | none => simp [hc] at h
        | some c =>
          simp only [hc] at h
          split at h
          · simp at h
          · exact h

/-- No dead branches: every node below the root leads to a value. -/
def Tree.NoDead (t : Tree V) : Prop :=
  ∀ q, q ≠ [] → (t.walk q).isSome = true → ∃ r, t.valAt (q ++ r) ≠ none

theorem Tree.valAt_append (t : Tree V) (q r : List Str) :
    t.valAt (q ++ r) = (t.walk q).bind fun n => n.valAt r := by
  unfold valAt
  rw [walk_append]
  cases t.walk q <;> rfl

theorem Tree.NoDead_set {t : Tree V} (h : t.NoDead) (v : V) (p : List Str) :
    (Tree.modifyAt (fun n => ⟨some v, n.childs⟩) p t).NoDead := by
  intro q hq hs
  rw [walk_modifyAt (f := fun n => ⟨some v, n.childs⟩) (fun _ => rfl)] at hs
  rcases hs with hs | ⟨r, hr⟩
  · obtain ⟨r, hr⟩ := h q hq hs
    refine ⟨r, ?_⟩
    rw [valAt_modifyAt_set]
    split
    · simp
    · exact hr
  · exact ⟨r, by rw [valAt_modifyAt_set, hr]; simp⟩

theorem Tree.NoDead_child {t : Tree V} (h : t.NoDead) {k : Str} {c : Tree V}
    (hc : t.childs.get? k = some c) : c.NoDead := by
  intro q hq hs
  have := h (k :: q) (by simp) (by simpa [walk_cons, hc] using hs)
  obtain ⟨r, hr⟩ := this
  exact ⟨r, by simpa [valAt_cons, hc] using hr⟩

theorem Tree.NoDead_del (p : List Str) : ∀ {t : Tree V}, t.WF → t.NoDead → (Tree.delAt p t).NoDead := by
  induction p with
  | nil =>
    intro t _ h q hq hs
    cases q with
    | nil => exact absurd rfl hq
    | cons k ks =>
      obtain ⟨r, hr⟩ := h (k :: ks) hq (by simpa [delAt, walk_cons] using hs)
      exact ⟨r, by simpa [delAt, valAt_cons] using hr⟩
  | cons k ks ih =>
    intro t hwf h q hq hs
    cases q with
    | nil => exact absurd rfl hq
    | cons k' ks' =>
      have hm : (t.childs.modify k (Tree.delAt ks)).WF :=
        Forest.WF_modify (fun t ht => WF_delAt ks ht) hwf
      have main : ∀ c : Tree V, c.WF → c.NoDead → c.len ≠ 0 → (c.walk ks').isSome = true →
          ∃ r, c.valAt (ks' ++ r) ≠ none := by
        intro c hcw hcd hl hw
        by_cases hks : ks' = []
        · subst hks
          have := mt (len_eq_zero_iff hcw).2 hl
          simp only [Classical.not_forall] at this
          simpa using this
        · exact hcd ks' hks hw
      simp only [delAt, walk_cons, Forest.get?_prune hm, Forest.get?_modify] at hs
      simp only [delAt, List.cons_append, valAt_cons, Forest.get?_prune hm, Forest.get?_modify]
      by_cases hk : k' = k
      · subst hk
        simp only [↓reduceIte] at hs ⊢
        cases hc : t.childs.get? k' with
        | none => simp [hc] at hs
        | some c =>
          simp only [hc, Option.map_some] at hs ⊢
          have hcw := Forest.WF_get? hwf hc
          by_cases hl : (Tree.delAt ks c).len = 0
          · simp [hl] at hs
          · simp only [hl, ↓reduceIte, Option.bind_some] at hs ⊢
            exact main _ (WF_delAt ks hcw) (ih hcw (NoDead_child h hc)) hl hs
      · simp only [hk, ↓reduceIte] at hs ⊢
        cases hc : t.childs.get? k' with
        | none => simp [hc] at hs
        | some c =>
          simp only [hc] at hs ⊢
          by_cases hl : c.len = 0
          · simp [hl] at hs
          · simp only [hl, ↓reduceIte, Option.bind_some] at hs ⊢
            exact main c (Forest.WF_get? hwf hc) (NoDead_child h hc) hl hs

theorem Tree.NoDead_empty : (Tree.empty : Tree V).NoDead := by
  intro q hq hs
  exact absurd ((walk_empty_isSome q).1 hs) hq

/-! ### All node names are valid -/

def Tree.NamesOk (isId : Str → Bool) (t : Tree V) : Prop :=
  ∀ q, (t.walk q).isSome = true → ∀ k ∈ q, sep ∉ k ∧ isId k = true

theorem Tree.NamesOk_empty (isId : Str → Bool) : (Tree.empty : Tree V).NamesOk isId := by
  intro q hs
  rw [(walk_empty_isSome q).1 hs]; simp

theorem pathOf_names {isId : Str → Bool} {s : Str} (h : validKey isId s = true) :
    ∀ k ∈ pathOf s, sep ∉ k ∧ isId k = true := by
  unfold pathOf
  split
  · simp
  · rename_i hs
    intro k hk
    refine ⟨not_mem_of_mem_splitChar _ _ _ hk, ?_⟩
    unfold validKey at h
    have hs' : s ≠ ['.'] := hs
    simp only [beq_iff_eq, hs', Bool.or_eq_true, false_or] at h
    exact List.all_eq_true.1 h k hk

theorem Tree.NamesOk_modifyAt {isId : Str → Bool} {f : Tree V → Tree V}
    (hf : ∀ n, (f n).childs = n.childs) {t : Tree V} (ht : t.NamesOk isId) {p : List Str}
    (hp : ∀ k ∈ p, sep ∉ k ∧ isId k = true) : (Tree.modifyAt f p t).NamesOk isId := by
  intro q hs
  rw [walk_modifyAt hf] at hs
  rcases hs with hs | hs
  · exact ht q hs
  · exact fun k hk => hp k (hs.subset hk)

theorem Tree.NamesOk_delAt {isId : Str → Bool} {t : Tree V} (hw : t.WF) (ht : t.NamesOk isId)
    (p : List Str) : (Tree.delAt p t).NamesOk isId :=
  fun q hs => ht q (walk_delAt_of p t hw q hs)

/-! ### One step -/

theorem Tree.step_inv {isId : Str → Bool} {okValue : V → Bool} {t : Tree V}
    (hw : t.WF) (hn : t.NamesOk isId) (op : Op V) :
    (t.step isId okValue op).1.WF ∧ (t.step isId okValue op).1.NamesOk isId := by
  cases op with
  | set k v =>
    cases k with
    | other => exact ⟨hw, hn⟩
    | str s =>
      cases v with
      | none => exact ⟨hw, hn⟩
      | some v =>
        simp only [step, setitem_str]
        by_cases h1 : okValue v = true <;> simp only [h1, ↓reduceIte, Bool.false_eq_true]
        · by_cases h2 : validKey isId s = true <;> simp only [h2, ↓reduceIte, Bool.false_eq_true]
          · exact ⟨WF_modifyAt (f := fun n => ⟨some v, n.childs⟩) (fun _ h => h) _ hw,
              NamesOk_modifyAt (f := fun n => ⟨some v, n.childs⟩) (fun _ => rfl) hn (pathOf_names h2)⟩
          · exact ⟨hw, hn⟩
        · exact ⟨hw, hn⟩
  | del k =>
    cases k with
    | other => exact ⟨hw, hn⟩
    | str s =>
      simp only [step, delitem_str]
      by_cases h2 : validKey isId s = true <;> simp only [h2, ↓reduceIte, Bool.false_eq_true]
      · by_cases h3 : (t.valAt (pathOf s)).isNone = true <;>
          simp only [h3, ↓reduceIte, Bool.false_eq_true]
        · exact ⟨hw, hn⟩
        · exact ⟨WF_delAt _ hw, NamesOk_delAt hw hn _⟩
      · exact ⟨hw, hn⟩
  | get k =>
    simp only [step]
    cases t.getitem isId k <;> exact ⟨hw, hn⟩
  | select k =>
    cases k with
    | other => exact ⟨hw, hn⟩
    | str s =>
      simp only [step, touch_str]
      by_cases h1 : s = [sep] <;> simp only [h1, ↓reduceIte]
      · exact ⟨hw, hn⟩
      · by_cases h2 : validKey isId s = true <;> simp only [h2, ↓reduceIte, Bool.false_eq_true]
        · exact ⟨WF_modifyAt (fun _ h => h) _ hw, NamesOk_modifyAt (fun _ => rfl) hn (pathOf_names h2)⟩
        · exact ⟨hw, hn⟩

theorem Tree.run_inv {isId : Str → Bool} {okValue : V → Bool} (ops : List (Op V)) :
    ∀ {t : Tree V}, t.WF → t.NamesOk isId →
    (Tree.run isId okValue t ops).1.WF ∧ (Tree.run isId okValue t ops).1.NamesOk isId := by
  induction ops with
  | nil => intro t h1 h2; exact ⟨h1, h2⟩
  | cons op ops ih =>
    intro t h1 h2
    have := step_inv (okValue := okValue) h1 h2 op
    exact ih this.1 this.2

theorem Tree.reachable_inv {isId : Str → Bool} {okValue : V → Bool} {t : Tree V}
    (h : Tree.Reachable isId okValue t) : t.WF ∧ t.NamesOk isId := by
  obtain ⟨ops, rfl⟩ := h
  exact run_inv ops (t := Tree.empty) trivial (NamesOk_empty isId)

/-- The map a tree represents. -/
def Tree.absMap (isId : Str → Bool) (t : Tree V) : TreeSpec.Map V :=
  fun s => if validKey isId s then t.valAt (pathOf s) else none

theorem Tree.step_refines {isId : Str → Bool} {okValue : V → Bool} {t : Tree V}
    (hw : t.WF) (op : Op V) :
    TreeSpec.step isId okValue (t.absMap isId) op =
      ((t.step isId okValue op).1.absMap isId, (t.step isId okValue op).2) := by
  cases op with
  | set k v =>
    cases k with
    | other => rfl
    | str s =>
      cases v with
      | none => rfl
      | some v =>
        simp only [step, setitem_str, TreeSpec.step]
        by_cases h1 : okValue v = true <;> simp only [h1, ↓reduceIte, Bool.false_eq_true, Bool.not_true, Bool.not_false]
        · by_cases h2 : validKey isId s = true <;> simp only [h2, ↓reduceIte, Bool.false_eq_true, Bool.not_true, Bool.not_false]
          · congr 1
            funext s'
            simp only [absMap, TreeSpec.Map.put, valAt_modifyAt_set]
            by_cases hs : s' = s
            · subst hs; simp [h2]
            · simp only [hs, ↓reduceIte]
              have : pathOf s' ≠ pathOf s := fun h => hs (pathOf_inj h)
              simp [this]
  | del k =>
    cases k with
    | other => rfl
    | str s =>
      simp only [step, delitem_str, TreeSpec.step]
      by_cases h2 : validKey isId s = true
      · simp only [h2, ↓reduceIte, Bool.not_true, Bool.false_eq_true, absMap]
        cases h3 : t.valAt (pathOf s) with
        | none => rfl
        | some v =>
          simp only [Option.isNone_some, ↓reduceIte, Bool.false_eq_true]
          congr 1
          funext s'
          simp only [absMap, TreeSpec.Map.put, valAt_delAt _ _ hw]
          by_cases hs : s' = s
          · subst hs; simp
          · simp only [hs, ↓reduceIte]
            have : pathOf s' ≠ pathOf s := fun h => hs (pathOf_inj h)
            simp [this]
      · simp [h2]
  | get k =>
    cases k with
    | other => rfl
    | str s =>
      simp only [step, getitem_str, TreeSpec.step]
      by_cases h2 : validKey isId s = true
      · simp only [h2, ↓reduceIte, Bool.not_true, Bool.false_eq_true, absMap]
        cases h3 : t.valAt (pathOf s) <;> rfl
      · simp [h2]
  | select k =>
    cases k with
    | other => rfl
    | str s =>
      simp only [step, touch_str, TreeSpec.step]
      by_cases h1 : s = ['.']
      · subst h1; rfl
      · have h1' : s ≠ [sep] := h1
        simp only [h1, h1', ↓reduceIte]
        by_cases h2 : validKey isId s = true
        · simp only [h2, ↓reduceIte, Bool.not_true, Bool.false_eq_true]
          congr 1
          funext s'
          simp only [absMap, valAt_modifyAt_id]
        · simp [h2]

theorem splitChar_append' (c : Char) (s t : Str) :
    splitChar c (s ++ c :: t) = splitChar c s ++ splitChar c t := by
  induction s with
  | nil => simp [splitChar]
  | cons x xs ih =>
    simp only [List.cons_append, splitChar, ih]
    split
    · simp
    · cases h : splitChar c xs with
      | nil => exact absurd h (splitChar_ne_nil c xs)
      | cons q qs => simp

theorem joinChar_append (c : Char) {p q : List Str} (hp : p ≠ []) (hq : q ≠ []) :
    joinChar c (p ++ q) = joinChar c p ++ c :: joinChar c q := by
  induction p with
  | nil => exact absurd rfl hp
  | cons x xs ih =>
    cases xs with
    | nil =>
      cases q with
      | nil => exact absurd rfl hq
      | cons y ys => simp [joinChar]
    | cons z zs =>
      have := ih (by simp)
      simp only [List.cons_append] at this
      simp [joinChar, this]

end Polog
