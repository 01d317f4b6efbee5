import Verif.Tree.Spec

/-! Helper lemmas for the tree model.  No claims live here. -/

namespace Polog

variable {V : Type}

/-- Value at a path (list of node names). -/
def Tree.valAt (t : Tree V) (p : List Str) : Option V := (t.walk p).bind Tree.value

/-! ### Names are unique in every dictionary -/

def Forest.names : Forest V → List Str
  | .nil => []
  | .cons n _ _ r => n :: r.names

def Forest.WF : Forest V → Prop
  | .nil => True
  | .cons n _ c r => n ∉ r.names ∧ c.WF ∧ r.WF

def Tree.WF (t : Tree V) : Prop := t.childs.WF

theorem Forest.get?_upsert (k k' : Str) (f : Tree V → Tree V) (fo : Forest V) :
    (fo.upsert k f).get? k' =
      if k' = k then some (f ((fo.get? k).getD ⟨none, .nil⟩)) else fo.get? k' := by
  induction fo with
  | nil =>
    simp only [upsert, get?]
    by_cases h : k' = k
    · simp [h]
    · simp [h, Ne.symm h]
  | cons n v c r _ ih =>
    simp only [upsert]
    by_cases hn : n = k
    · subst hn
      by_cases h : k' = n
      · subst h; simp [get?]
      · simp [get?, h, Ne.symm h]
    · simp only [if_neg hn, get?, ih]
      by_cases h : n = k'
      · subst h; simp [hn]
      · simp [h]

theorem Forest.names_upsert (k : Str) (f : Tree V → Tree V) (fo : Forest V) :
    (fo.upsert k f).names = if k ∈ fo.names then fo.names else fo.names ++ [k] := by
  induction fo with
  | nil => simp [upsert, names]
  | cons n v c r _ ih =>
    simp only [upsert]
    by_cases hn : n = k
    · simp [hn, names]
    · simp only [if_neg hn, names, ih, List.mem_cons, Ne.symm hn, false_or]
      split <;> simp

theorem Forest.WF_get? {fo : Forest V} (h : fo.WF) {k : Str} {t : Tree V}
    (hg : fo.get? k = some t) : t.WF := by
  induction fo with
  | nil => simp [get?] at hg
  | cons n v c r _ ih =>
    simp only [get?] at hg
    split at hg
    · cases hg; exact h.2.1
    · exact ih h.2.2 hg

theorem Forest.WF_upsert {k : Str} {f : Tree V → Tree V} (hf : ∀ t : Tree V, t.WF → (f t).WF)
    {fo : Forest V} (h : fo.WF) : (fo.upsert k f).WF := by
  induction fo with
  | nil => exact ⟨by simp [names], hf ⟨none, .nil⟩ trivial, trivial⟩
  | cons n v c r _ ih =>
    simp only [upsert]
    split
    · rename_i hn
      exact ⟨h.1, hf ⟨v, c⟩ h.2.1, h.2.2⟩
    · rename_i hn
      refine ⟨?_, h.2.1, ih h.2.2⟩
      rw [names_upsert]
      split
      · exact h.1
      · simp [h.1, hn]

theorem Tree.WF_modifyAt {f : Tree V → Tree V} (hf : ∀ t : Tree V, t.WF → (f t).WF)
    (p : List Str) : ∀ {t : Tree V}, t.WF → (Tree.modifyAt f p t).WF := by
  induction p with
  | nil => intro t h; exact hf t h
  | cons k ks ih => intro t h; exact Forest.WF_upsert (fun t ht => ih ht) h

theorem Forest.names_modify (k : Str) (f : Tree V → Tree V) (fo : Forest V) :
    (fo.modify k f).names = fo.names := by
  induction fo with
  | nil => rfl
  | cons n v c r _ ih =>
    simp only [modify]; split <;> simp [names, ih]

theorem Forest.get?_modify (k k' : Str) (f : Tree V → Tree V) (fo : Forest V) :
    (fo.modify k f).get? k' = if k' = k then (fo.get? k).map f else fo.get? k' := by
  induction fo with
  | nil => simp [modify, get?]
  | cons n v c r _ ih =>
    simp only [modify]
    by_cases hn : n = k
    · subst hn
      by_cases h : k' = n
      · subst h; simp [get?]
      · simp [get?, h, Ne.symm h]
    · simp only [if_neg hn, get?, ih]
      by_cases h : n = k'
      · subst h; simp [hn]
      · simp [h]

theorem Forest.WF_modify {k : Str} {f : Tree V → Tree V} (hf : ∀ t : Tree V, t.WF → (f t).WF)
    {fo : Forest V} (h : fo.WF) : (fo.modify k f).WF := by
  induction fo with
  | nil => trivial
  | cons n v c r _ ih =>
    simp only [modify]
    split
    · exact ⟨h.1, hf ⟨v, c⟩ h.2.1, h.2.2⟩
    · refine ⟨?_, h.2.1, ih h.2.2⟩
      rw [names_modify]; exact h.1

theorem Forest.names_prune_sub (fo : Forest V) : ∀ n ∈ fo.prune.names, n ∈ fo.names := by
  induction fo with
  | nil => simp [prune]
  | cons n v c r _ ih =>
    simp only [prune]
    intro m hm
    split at hm
    · exact List.mem_cons_of_mem _ (ih m hm)
    · simp only [names, List.mem_cons] at hm ⊢
      rcases hm with h | h
      · exact .inl h
      · exact .inr (ih m h)

theorem Forest.WF_prune {fo : Forest V} (h : fo.WF) : fo.prune.WF := by
  induction fo with
  | nil => trivial
  | cons n v c r _ ih =>
    simp only [prune]
    split
    · exact ih h.2.2
    · exact ⟨fun hm => h.1 (names_prune_sub r _ hm), h.2.1, ih h.2.2⟩

theorem Forest.get?_none_of_not_mem {fo : Forest V} {k : Str} (h : k ∉ fo.names) :
    fo.get? k = none := by
  induction fo with
  | nil => rfl
  | cons n v c r _ ih =>
    simp only [names, List.mem_cons, not_or] at h
    simp [get?, Ne.symm h.1, ih h.2]

theorem Forest.get?_prune {fo : Forest V} (h : fo.WF) (k : Str) :
    fo.prune.get? k = match fo.get? k with
      | none => none
      | some t => if t.len = 0 then none else some t := by
  induction fo with
  | nil => rfl
  | cons n v c r _ ih =>
    simp only [prune]
    by_cases hn : n = k
    · subst hn
      have hr : r.prune.get? n = none :=
        get?_none_of_not_mem fun hm => h.1 (names_prune_sub r _ hm)
      by_cases hl : (⟨v, c⟩ : Tree V).len = 0
      · simp [get?, hl, hr]
      · simp [get?, hl]
    · by_cases hl : (⟨v, c⟩ : Tree V).len = 0
      · simp only [if_pos hl, get?, if_neg hn]; exact ih h.2.2
      · simp only [if_neg hl, get?, if_neg hn]; exact ih h.2.2

theorem Tree.WF_delAt (p : List Str) : ∀ {t : Tree V}, t.WF → (Tree.delAt p t).WF := by
  induction p with
  | nil => intro t h; exact h
  | cons k ks ih =>
    intro t h
    exact Forest.WF_prune (Forest.WF_modify (fun t ht => ih ht) h)

/-! ### Breadth-first search with path labels -/

/-- Children of a labelled node, with labels. -/
def Forest.labelled (q : List Str) : Forest V → List (List Str × Tree V)
  | .nil => []
  | .cons n v c r => (q ++ [n], ⟨v, c⟩) :: r.labelled q

def nextP (layer : List (List Str × Tree V)) : List (List Str × Tree V) :=
  layer.flatMap fun x => x.2.childs.labelled x.1

theorem Forest.labelled_snd (q : List Str) (f : Forest V) :
    (f.labelled q).map Prod.snd = f.trees := by
  induction f with
  | nil => rfl
  | cons n v c r _ ih => simp [labelled, trees, ih]

theorem nextP_snd (layer : List (List Str × Tree V)) :
    (nextP layer).map Prod.snd = nextLayer (layer.map Prod.snd) := by
  induction layer with
  | nil => rfl
  | cons x xs ih =>
    simp only [nextP, nextLayer, List.flatMap_cons, List.map_append, List.map_cons,
      Forest.labelled_snd] at ih ⊢
    rw [ih]

def bfsP (layer : List (List Str × Tree V)) : List (List Str × Tree V) :=
  if _h : layer = [] then [] else layer ++ bfsP (nextP layer)
termination_by ((layer.map Prod.snd).map Tree.size).sum
decreasing_by
  have h1 := nextLayer_size (layer.map Prod.snd)
  have : 0 < layer.length := List.length_pos_iff.2 _h
  rw [nextP_snd]
  simp only [List.length_map] at h1
  omega

theorem bfsP_snd (layer : List (List Str × Tree V)) :
    (bfsP layer).map Prod.snd = bfsLayers (layer.map Prod.snd) := by
  fun_induction bfsP layer with
  | case1 => unfold bfsLayers; simp
  | case2 layer h ih =>
    rw [List.map_append, ih, nextP_snd]
    conv => rhs; unfold bfsLayers
    simp [h]

theorem Forest.mem_labelled {f : Forest V} (hf : f.WF) (q p : List Str) (n : Tree V) :
    (p, n) ∈ f.labelled q ↔ ∃ k, p = q ++ [k] ∧ f.get? k = some n := by
  induction f with
  | nil => simp [labelled, get?]
  | cons m v c r _ ih =>
    simp only [labelled, List.mem_cons, Prod.mk.injEq, get?]
    rw [ih hf.2.2]
    constructor
    · rintro (⟨rfl, rfl⟩ | ⟨k, rfl, hk⟩)
      · exact ⟨m, rfl, by simp⟩
      · refine ⟨k, rfl, ?_⟩
        have : m ≠ k := by
          rintro rfl
          rw [get?_none_of_not_mem hf.1] at hk; cases hk
        simp [this, hk]
    · rintro ⟨k, rfl, hk⟩
      by_cases hm : m = k
      · subst hm; simp at hk; exact .inl ⟨rfl, hk.symm⟩
      · rw [if_neg hm] at hk; exact .inr ⟨k, rfl, hk⟩

theorem mem_bfsP (layer : List (List Str × Tree V)) (hw : ∀ x ∈ layer, x.2.WF)
    (p : List Str) (n : Tree V) :
    (p, n) ∈ bfsP layer ↔ ∃ q s r, (q, s) ∈ layer ∧ p = q ++ r ∧ s.walk r = some n := by
  fun_induction bfsP layer with
  | case1 => simp
  | case2 layer h ih =>
    have hw' : ∀ x ∈ nextP layer, x.2.WF := by
      rintro ⟨q', s'⟩ hx
      simp only [nextP, List.mem_flatMap] at hx
      obtain ⟨⟨q, s⟩, hqs, hx⟩ := hx
      obtain ⟨k, _, hk⟩ := (Forest.mem_labelled (hw _ hqs) _ _ _).1 hx
      exact Forest.WF_get? (hw _ hqs) hk
    rw [List.mem_append, ih hw']
    constructor
    · rintro (hm | ⟨q', s', r', hx, rfl, hwk⟩)
      · exact ⟨p, n, [], hm, by simp, rfl⟩
      · simp only [nextP, List.mem_flatMap] at hx
        obtain ⟨⟨q, s⟩, hqs, hx⟩ := hx
        obtain ⟨k, hq, hk⟩ := (Forest.mem_labelled (hw _ hqs) _ _ _).1 hx
        refine ⟨q, s, k :: r', hqs, by simp [hq], ?_⟩
        simp only [Tree.walk]
        simp only at hk
        rw [hk]; exact hwk
    · rintro ⟨q, s, r, hqs, rfl, hwk⟩
      cases r with
      | nil =>
        simp only [Tree.walk, Option.some.injEq] at hwk
        subst hwk
        exact .inl (by simpa using hqs)
      | cons k r =>
        right
        simp only [Tree.walk] at hwk
        cases hk : s.childs.get? k with
        | none => rw [hk] at hwk; cases hwk
        | some s' =>
          rw [hk] at hwk
          refine ⟨q ++ [k], s', r, ?_, by simp, hwk⟩
          simp only [nextP, List.mem_flatMap]
          exact ⟨(q, s), hqs, (Forest.mem_labelled (hw _ hqs) _ _ _).2 ⟨k, rfl, hk⟩⟩

theorem Forest.labelled_fst (q : List Str) (f : Forest V) :
    (f.labelled q).map Prod.fst = f.names.map fun k => q ++ [k] := by
  induction f with
  | nil => rfl
  | cons n v c r _ ih => simp [labelled, names, ih]

theorem Forest.WF.nodup {f : Forest V} (h : f.WF) : f.names.Nodup := by
  induction f with
  | nil => simp [names]
  | cons n v c r _ ih => exact List.nodup_cons.2 ⟨h.1, ih h.2.2⟩

theorem nextP_paths (d : Nat) (layer : List (List Str × Tree V)) (hw : ∀ x ∈ layer, x.2.WF)
    (hd : ∀ x ∈ layer, x.1.length = d) (hn : (layer.map Prod.fst).Nodup) :
    (∀ x ∈ nextP layer, x.2.WF) ∧ (∀ x ∈ nextP layer, x.1.length = d + 1) ∧
      ((nextP layer).map Prod.fst).Nodup := by
  have key : ∀ x ∈ nextP layer, ∃ q s k, (q, s) ∈ layer ∧ x.1 = q ++ [k] ∧
      s.childs.get? k = some x.2 := by
    rintro ⟨q', s'⟩ hx
    simp only [nextP, List.mem_flatMap] at hx
    obtain ⟨⟨q, s⟩, hqs, hx⟩ := hx
    obtain ⟨k, h1, hk⟩ := (Forest.mem_labelled (hw _ hqs) _ _ _).1 hx
    exact ⟨q, s, k, hqs, h1, hk⟩
  refine ⟨?_, ?_, ?_⟩
  · intro x hx
    obtain ⟨q, s, k, hqs, _, hk⟩ := key x hx
    exact Forest.WF_get? (hw _ hqs) hk
  · intro x hx
    obtain ⟨q, s, k, hqs, h1, _⟩ := key x hx
    rw [h1]; simp [hd _ hqs]
  · clear key
    induction layer with
    | nil => simp [nextP]
    | cons x xs ih =>
      obtain ⟨q, s⟩ := x
      simp only [List.map_cons, List.nodup_cons] at hn
      have ih := ih (fun y hy => hw y (List.mem_cons_of_mem _ hy))
        (fun y hy => hd y (List.mem_cons_of_mem _ hy)) hn.2
      simp only [nextP, List.flatMap_cons, List.map_append] at ih ⊢
      rw [List.nodup_append]
      refine ⟨?_, ih, ?_⟩
      · rw [Forest.labelled_fst]
        have := (Forest.WF.nodup (hw (q, s) (by simp)))
        simp only [List.Nodup, List.pairwise_map] at this ⊢
        exact this.imp fun hne => by simpa using hne
      · intro a ha b hb hab
        subst hab
        rw [Forest.labelled_fst] at ha
        obtain ⟨k, _, rfl⟩ := List.mem_map.1 ha
        obtain ⟨⟨q', s'⟩, hx, hq'⟩ := List.mem_map.1 hb
        simp only [List.mem_flatMap] at hx
        obtain ⟨⟨q2, s2⟩, hqs2, hx⟩ := hx
        obtain ⟨k2, h2, _⟩ := (Forest.mem_labelled (hw (q2, s2) (List.mem_cons_of_mem _ hqs2)) _ _ _).1 hx
        simp only at hq' h2
        rw [h2] at hq'
        have h3 : q2 = q := by
          have := congrArg List.dropLast hq'
          simpa using this
        subst h3
        exact hn.1 (List.mem_map.2 ⟨(q2, s2), hqs2, rfl⟩)

theorem bfsP_paths (d : Nat) (layer : List (List Str × Tree V)) (hw : ∀ x ∈ layer, x.2.WF)
    (hd : ∀ x ∈ layer, x.1.length = d) (hn : (layer.map Prod.fst).Nodup) :
    ((bfsP layer).map Prod.fst).Nodup ∧ (∀ x ∈ bfsP layer, d ≤ x.1.length) ∧
      ((bfsP layer).map fun x => x.1.length).Pairwise (· ≤ ·) := by
  induction layer using bfsP.induct generalizing d with
  | case1 => unfold bfsP; simp
  | case2 layer h ih =>
    unfold bfsP
    simp only [h, ↓reduceDIte]
    obtain ⟨h1, h2, h3⟩ := nextP_paths d layer hw hd hn
    obtain ⟨i1, i2, i3⟩ := ih (d + 1) h1 h2 h3
    refine ⟨?_, ?_, ?_⟩
    · rw [List.map_append, List.nodup_append]
      refine ⟨hn, i1, ?_⟩
      intro a ha b hb hab
      obtain ⟨x, hx, rfl⟩ := List.mem_map.1 ha
      obtain ⟨y, hy, rfl⟩ := List.mem_map.1 hb
      have := hd x hx
      have := i2 y hy
      rw [← hab] at this; omega
    · intro x hx
      rcases List.mem_append.1 hx with hx | hx
      · have := hd x hx; omega
      · have := i2 x hx; omega
    · rw [List.map_append, List.pairwise_append]
      refine ⟨?_, i3, ?_⟩
      · rw [List.pairwise_map]
        exact List.pairwise_of_forall_mem_list fun a ha b hb => by
          rw [hd a ha, hd b hb]; exact Nat.le_refl _
      · intro a ha b hb
        obtain ⟨x, hx, rfl⟩ := List.mem_map.1 ha
        obtain ⟨y, hy, rfl⟩ := List.mem_map.1 hb
        have := hd x hx
        have := i2 y hy
        omega

/-- Labelled enumeration of the nodes of a tree in iteration order. -/
def Tree.nodesP (t : Tree V) : List (List Str × Tree V) := bfsP [([], t)]

theorem Tree.mem_nodesP {t : Tree V} (h : t.WF) (p : List Str) (n : Tree V) :
    (p, n) ∈ t.nodesP ↔ t.walk p = some n := by
  unfold nodesP
  rw [mem_bfsP _ (by simpa using h)]
  constructor
  · rintro ⟨q, s, r, hm, rfl, hw⟩
    simp only [List.mem_singleton, Prod.mk.injEq] at hm
    obtain ⟨rfl, rfl⟩ := hm
    simpa using hw
  · intro hw
    exact ⟨[], t, p, by simp, by simp, hw⟩

theorem Tree.nodesP_nodup {t : Tree V} (h : t.WF) : (t.nodesP.map Prod.fst).Nodup :=
  (bfsP_paths 0 [([], t)] (by simpa using h) (by simp) (by simp)).1

theorem Tree.nodesP_sorted {t : Tree V} (h : t.WF) :
    (t.nodesP.map fun x => x.1.length).Pairwise (· ≤ ·) :=
  (bfsP_paths 0 [([], t)] (by simpa using h) (by simp) (by simp)).2.2

theorem Tree.iter_eq (t : Tree V) : t.iter = t.nodesP.filterMap fun x => x.2.value := by
  have := bfsP_snd [(([] : List Str), t)]
  unfold iter nodesP
  simp only [List.map_cons, List.map_nil] at this
  rw [← this, List.filterMap_map]; rfl

theorem Tree.len_eq_zero_iff {t : Tree V} (h : t.WF) : t.len = 0 ↔ ∀ p, t.valAt p = none := by
  unfold len
  rw [List.length_eq_zero_iff, iter_eq, List.filterMap_eq_nil_iff]
  constructor
  · intro hall p
    unfold valAt
    cases hw : t.walk p with
    | none => rfl
    | some n => exact hall (p, n) ((mem_nodesP h p n).2 hw)
  · rintro hall ⟨p, n⟩ hm
    have := hall p
    unfold valAt at this
    rw [(mem_nodesP h p n).1 hm] at this
    exact this

/-! ### Effect of the operations on values -/

theorem Tree.valAt_empty (p : List Str) : (⟨none, .nil⟩ : Tree V).valAt p = none := by
  cases p <;> simp [valAt, walk, Forest.get?]

theorem Tree.valAt_cons (t : Tree V) (k : Str) (ks : List Str) :
    t.valAt (k :: ks) = (t.childs.get? k).bind fun c => c.valAt ks := by
  unfold valAt
  simp only [walk]
  cases t.childs.get? k <;> rfl

theorem Tree.valAt_nil (t : Tree V) : t.valAt [] = t.value := rfl

theorem Tree.valAt_modifyAt_set (v : V) (p : List Str) : ∀ (t : Tree V) (q : List Str),
    (Tree.modifyAt (fun n => ⟨some v, n.childs⟩) p t).valAt q
      = if q = p then some v else t.valAt q := by
  induction p with
  | nil =>
    intro t q
    cases q with
    | nil => simp [modifyAt, valAt_nil]
    | cons k ks => simp [modifyAt, valAt_cons]
  | cons k ks ih =>
    intro t q
    cases q with
    | nil => simp [modifyAt, valAt_nil]
    | cons k' ks' =>
      simp only [modifyAt, valAt_cons, Forest.get?_upsert]
      by_cases h : k' = k
      · subst h
        simp only [↓reduceIte, Option.bind_some, List.cons.injEq, true_and, ih]
        cases t.childs.get? k' with
        | none => simp [valAt_empty]
        | some c => simp
      · simp [h]

theorem Tree.valAt_modifyAt_id (p : List Str) : ∀ (t : Tree V) (q : List Str),
    (Tree.modifyAt id p t).valAt q = t.valAt q := by
  induction p with
  | nil => intro t q; rfl
  | cons k ks ih =>
    intro t q
    cases q with
    | nil => rfl
    | cons k' ks' =>
      simp only [modifyAt, valAt_cons, Forest.get?_upsert]
      by_cases h : k' = k
      · subst h
        simp only [↓reduceIte, Option.bind_some, ih]
        cases t.childs.get? k' with
        | none => simp [valAt_empty]
        | some c => simp
      · simp [h]

theorem Tree.valAt_delAt (p : List Str) : ∀ (t : Tree V), t.WF → ∀ (q : List Str),
    (Tree.delAt p t).valAt q = if q = p then none else t.valAt q := by
  induction p with
  | nil =>
    intro t _ q
    cases q with
    | nil => simp [delAt, valAt_nil]
    | cons k ks => simp [delAt, valAt_cons]
  | cons k ks ih =>
    intro t hwf q
    cases q with
    | nil => simp [delAt, valAt_nil]
    | cons k' ks' =>
      have hm : (t.childs.modify k (Tree.delAt ks)).WF :=
        Forest.WF_modify (fun t ht => WF_delAt ks ht) hwf
      simp only [delAt, valAt_cons, Forest.get?_prune hm, Forest.get?_modify]
      have aux : ∀ c : Tree V, c.WF →
          ((if c.len = 0 then none else some c).bind fun c => c.valAt ks') = c.valAt ks' := by
        intro c hc
        by_cases hl : c.len = 0
        · simp [hl, (len_eq_zero_iff hc).1 hl]
        · simp [hl]
      by_cases h : k' = k
      · subst h
        simp only [↓reduceIte, List.cons.injEq, true_and]
        cases hc : t.childs.get? k' with
        | none => simp
        | some c =>
          have hcw : c.WF := Forest.WF_get? hwf hc
          simp only [Option.map_some, Option.bind_some]
          rw [aux _ (WF_delAt ks hcw), ih c hcw]
      · simp only [h, ↓reduceIte, List.cons.injEq, false_and]
        cases hc : t.childs.get? k' with
        | none => simp
        | some c =>
          simp only [Option.bind_some]
          exact aux c (Forest.WF_get? hwf hc)

end Polog
