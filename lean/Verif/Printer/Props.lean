import Verif.Printer.Spec
import Verif.Printer.Model
import Verif.Tree.Props

/-! C65: the textual representation of a tree. -/

namespace Polog
open PrinterSpec

variable {V W : Type}

theorem nodeFullName_ne {path : List Str} (h : path ≠ []) (hg : ∀ n ∈ path, GoodName n) : nodeFullName path ≠ [sep] := by
  unfold nodeFullName
  rw [if_neg h]
  match path, h with
  | [n], _ =>
    intro hc
    exact (hg n (by simp)).2.1 (by rw [show n = [sep] from hc]; simp [sep])
  | n :: m :: rest, _ =>
    intro hc
    simp only [joinChar] at hc
    obtain ⟨a, as, ha⟩ := List.exists_cons_of_ne_nil (hg n (by simp)).1
    rw [ha] at hc
    simp at hc

theorem count_join {path : List Str} (h : path ≠ []) (hg : ∀ n ∈ path, GoodName n) :
    (joinChar sep path).count sep + 1 = path.length := by
  match path, h with
  | [n], _ =>
    simp only [joinChar, List.length_singleton]
    rw [List.count_eq_zero.2 (show sep ∉ n from (hg n (by simp)).2.1)]
  | n :: m :: rest, _ =>
    have ih := count_join (path := m :: rest) (by simp) (fun x hx => hg x (by simp [hx]))
    simp only [joinChar, List.count_append, List.count_cons_self]
    rw [List.count_eq_zero.2 (show sep ∉ n from (hg n (by simp)).2.1)]
    simp only [List.length_cons] at ih ⊢
    omega

theorem nodeLine_eq {path : List Str} (hg : ∀ n ∈ path, GoodName n) : nodeLine path = line path := by
  unfold nodeLine line nodeIndent nodeName
  by_cases h : path = []
  · subst h
    simp [nodeFullName, sep]
  · rw [if_pos (nodeFullName_ne h hg), if_neg h]
    unfold nodeFullName
    rw [if_neg h, count_join h hg]
    rw [List.getLast?_eq_some_getLast h, List.getLastD_eq_getLast?, List.getLast?_eq_some_getLast h]
    rfl

theorem Forest.get?_mem_names {f : Forest V} {k : Str} {u : Tree V} (h : f.get? k = some u) : k ∈ f.names := by
  induction f with
  | nil => simp [Forest.get?] at h
  | cons n v c r _ ih =>
    simp only [Forest.get?] at h
    split at h
    · rename_i e; simp [Forest.names, e]
    · simp [Forest.names, ih h]

/-- The nodes of a forest below a path. -/
theorem mem_dfs {f : Forest V} (h : f.WF) (pre path : List Str) :
    path ∈ f.dfs pre ↔ ∃ k ks, path = pre ++ k :: ks ∧ ∃ u, f.get? k = some u ∧ (u.walk ks).isSome = true := by
  induction f generalizing pre path with
  | nil => simp [Forest.dfs, Forest.get?]
  | cons n v c r ihc ihr =>
    obtain ⟨h1, h2, h3⟩ := h
    simp only [Forest.dfs, List.mem_cons, List.mem_append, ihc h2, ihr h3]
    constructor
    · rintro (rfl | ⟨k, ks, rfl, u, hu, hw⟩ | ⟨k, ks, rfl, u, hu, hw⟩)
      · exact ⟨n, [], rfl, ⟨v, c⟩, by simp [Forest.get?], rfl⟩
      · refine ⟨n, k :: ks, by simp, ⟨v, c⟩, by simp [Forest.get?], ?_⟩
        simp only [Tree.walk, hu, hw]
      · refine ⟨k, ks, rfl, u, ?_, hw⟩
        have : n ≠ k := fun e => h1 (e ▸ Forest.get?_mem_names hu)
        simp [Forest.get?, this, hu]
    · rintro ⟨k, ks, rfl, u, hu, hw⟩
      by_cases hn : n = k
      · subst hn
        simp only [Forest.get?, if_true, Option.some.injEq] at hu
        subst hu
        cases ks with
        | nil => exact .inl rfl
        | cons k ks =>
          right; left
          simp only [Tree.walk] at hw
          split at hw
          · cases hw
          · rename_i u' hu'
            exact ⟨k, ks, by simp, u', hu', hw⟩
      · simp only [Forest.get?, if_neg hn] at hu
        exact .inr (.inr ⟨k, ks, rfl, u, hu, hw⟩)

theorem mem_tree_dfs {t : Tree V} (h : t.WF) (path : List Str) : path ∈ t.dfs ↔ HasNode t path := by
  unfold Tree.dfs HasNode
  rw [List.mem_cons, mem_dfs h]
  constructor
  · rintro (rfl | ⟨k, ks, rfl, u, hu, hw⟩)
    · rfl
    · simp only [List.nil_append, Tree.walk, hu, hw]
  · intro hw
    cases path with
    | nil => exact .inl rfl
    | cons k ks =>
      right
      simp only [Tree.walk] at hw
      split at hw
      · cases hw
      · rename_i u hu
        exact ⟨k, ks, rfl, u, hu, hw⟩

theorem dfs_nodup {f : Forest V} (h : f.WF) (pre : List Str) : (f.dfs pre).Nodup := by
  induction f generalizing pre with
  | nil => simp [Forest.dfs]
  | cons n v c r ihc ihr =>
    obtain ⟨h1, h2, h3⟩ := h
    simp only [Forest.dfs, List.nodup_cons, List.nodup_append]
    refine ⟨?_, ihc h2 _, ihr h3 _, ?_⟩
    · rw [List.mem_append, mem_dfs h2, mem_dfs h3]
      rintro (⟨k, ks, e, _⟩ | ⟨k, ks, e, u, hu, _⟩)
      · simp at e
      · have := List.append_cancel_left e
        simp only [List.cons.injEq] at this
        exact h1 (this.1 ▸ Forest.get?_mem_names hu)
    · intro a ha b hb hab
      subst hab
      obtain ⟨k, ks, e, _⟩ := (mem_dfs h2 _ _).1 ha
      obtain ⟨k', ks', e', u, hu, _⟩ := (mem_dfs h3 _ _).1 hb
      rw [e, List.append_assoc] at e'
      have := List.append_cancel_left e'
      simp only [List.cons_append, List.nil_append, List.cons.injEq] at this
      exact h1 (this.1 ▸ Forest.get?_mem_names hu)

/-- Order within a forest: every node comes after its parent (or is directly below `pre`), with only
deeper or equally deep nodes between. -/
def OrderedIn (pre : List Str) (l : List (List Str)) : Prop :=
  ∀ before path after, l = before ++ path :: after →
    (path.dropLast = pre ∧ (∀ q ∈ before, path.length ≤ q.length)) ∨
    ∃ b₁ b₂, before = b₁ ++ path.dropLast :: b₂ ∧ ∀ q ∈ b₂, path.length ≤ q.length

theorem dfs_longer (f : Forest V) (pre : List Str) : ∀ q ∈ f.dfs pre, pre.length + 1 ≤ q.length := by
  induction f generalizing pre with
  | nil => simp [Forest.dfs]
  | cons n v c r ihc ihr =>
    intro q hq
    simp only [Forest.dfs, List.mem_cons, List.mem_append] at hq
    rcases hq with rfl | hq | hq
    · simp
    · have := ihc _ q hq
      simp only [List.length_append, List.length_singleton] at this
      omega
    · exact ihr _ q hq

theorem dfs_ordered (f : Forest V) (pre : List Str) : OrderedIn pre (f.dfs pre) := by
  induction f generalizing pre with
  | nil => intro b p a h; simp [Forest.dfs] at h
  | cons n v c r ihc ihr =>
    intro before path after h
    simp only [Forest.dfs] at h
    cases before with
    | nil =>
      simp only [List.nil_append, List.cons.injEq] at h
      left
      rw [← h.1]
      simp
    | cons b0 before =>
      simp only [List.cons_append, List.cons.injEq] at h
      obtain ⟨h0, h⟩ := h
      rcases List.append_eq_append_iff.1 h with ⟨x, hx1, hx2⟩ | ⟨x, hx1, hx2⟩
      · -- path in the rest
        rcases ihr pre x path after hx2 with ⟨h1, h2⟩ | ⟨b₁, b₂, h1, h2⟩
        · by_cases hp : path = []
          · subst hp
            exact absurd (dfs_longer r pre [] (by rw [hx2]; simp)) (by simp)
          · left
            refine ⟨h1, ?_⟩
            have hl : path.length = pre.length + 1 := by
              rw [← h1, List.length_dropLast]
              have := List.length_pos_iff.2 hp
              omega
            intro q hq
            rw [List.mem_cons, hx1, List.mem_append] at hq
            rcases hq with rfl | hq | hq
            · rw [← h0]; simp [hl]
            · have := dfs_longer c _ q hq
              simp only [List.length_append, List.length_singleton] at this
              omega
            · exact h2 q hq
        · right
          exact ⟨b0 :: (c.dfs (pre ++ [n]) ++ b₁), b₂, by rw [hx1, h1]; simp, h2⟩
      · -- path may be in the children
        cases x with
        | nil =>
          simp only [List.append_nil, List.nil_append] at hx1 hx2
          rcases ihr pre [] path after (by rw [← hx2]; rfl) with ⟨h1, h2⟩ | ⟨b₁, b₂, h1, h2⟩
          · by_cases hp : path = []
            · subst hp
              exact absurd (dfs_longer r pre [] (by rw [← hx2]; simp)) (by simp)
            · left
              refine ⟨h1, ?_⟩
              have hl : path.length = pre.length + 1 := by
                rw [← h1, List.length_dropLast]
                have := List.length_pos_iff.2 hp
                omega
              intro q hq
              rw [List.mem_cons, ← hx1] at hq
              rcases hq with rfl | hq
              · rw [← h0]; simp [hl]
              · have := dfs_longer c _ q hq
                simp only [List.length_append, List.length_singleton] at this
                omega
          · exact absurd h1 (by simp)
        | cons y ys =>
          simp only [List.cons_append, List.cons.injEq] at hx2
          obtain ⟨rfl, hx2⟩ := hx2
          right
          rcases ihc _ before path ys hx1 with ⟨h1, h2⟩ | ⟨b₁, b₂, h1, h2⟩
          · exact ⟨[], before, by rw [← h0, h1]; rfl, h2⟩
          · exact ⟨b0 :: b₁, b₂, by rw [h1]; rfl, h2⟩

theorem goodNames {isId : Str → Bool} {okValue : V → Bool} (h0 : isId [] = false)
    (hnl : ∀ s, isId s = true → '\n' ∉ s) {t : Tree V} (ht : Tree.Reachable isId okValue t) :
    ∀ path ∈ t.dfs, ∀ n ∈ path, GoodName n := by
  obtain ⟨hw, hn⟩ := Tree.reachable_inv ht
  intro path hp n hm
  obtain ⟨h1, h2⟩ := hn path ((mem_tree_dfs hw path).1 hp) n hm
  exact ⟨fun e => (by rw [e, h0] at h2; cases h2), h1, hnl n h2⟩

/-- **C65**: the representation of a namespace without handlers says so; otherwise it is a heading and one
line for each node, in which the indentation is the depth of the node; a node stands below its parent,
with only nodes below the same parent between them. -/
theorem C65_representation_lists_the_nodes (isId : Str → Bool) (okValue : V → Bool) (h0 : isId [] = false)
    (hnl : ∀ s, isId s = true → '\n' ∉ s) (t : Tree V) (ht : Tree.Reachable isId okValue t) :
    ((∀ k, ∀ v, t.getitem isId k ≠ .ok v) → t.repr = "<NamedTree empty object>".toList) ∧
    ((∃ k v, t.getitem isId k = .ok v) → ∃ order : List (List Str),
      order.Nodup ∧ (∀ path, path ∈ order ↔ HasNode t path) ∧ Ordered order ∧
      t.repr = "<NamedTree:\n".toList ++ joinChar '\n' (order.map line) ++ ">".toList) := by
  obtain ⟨hw, hn⟩ := Tree.reachable_inv ht
  have hlen : t.len = 0 ↔ ∀ k v, t.getitem isId k ≠ .ok v := by
    obtain ⟨keys, _, hk, _, _, hl⟩ := C02_iteration_complete_and_exact isId okValue h0 t ht
    rw [hl, List.length_eq_zero_iff]
    constructor
    · rintro rfl k v hv
      cases k with
      | other => simp [Tree.getitem, Tree.get, convKeys] at hv
      | str k => exact absurd ((hk k).2 ⟨v, hv⟩) (by simp)
    · intro h
      rw [List.eq_nil_iff_forall_not_mem]
      intro k hk'
      obtain ⟨v, hv⟩ := (hk k).1 hk'
      exact h _ _ hv
  unfold Tree.repr
  constructor
  · intro h
    rw [if_pos (hlen.2 h)]
  · rintro ⟨k, v, hv⟩
    rw [if_neg (fun h => hlen.1 h k v hv)]
    refine ⟨t.dfs, ?_, mem_tree_dfs hw, ?_, ?_⟩
    · unfold Tree.dfs
      rw [List.nodup_cons]
      refine ⟨fun h => ?_, dfs_nodup hw _⟩
      have := dfs_longer t.childs [] [] h
      simp at this
    · intro before path after h hp
      cases before with
      | nil => simp only [Tree.dfs, List.nil_append, List.cons.injEq] at h; exact absurd h.1.symm hp
      | cons b before =>
        simp only [Tree.dfs, List.cons_append, List.cons.injEq] at h
        rcases dfs_ordered t.childs [] before path after h.2 with ⟨h1, h2⟩ | ⟨b₁, b₂, h1, h2⟩
        · exact ⟨[], before, by rw [h1, ← h.1]; rfl, h2⟩
        · exact ⟨b :: b₁, b₂, by rw [h1]; rfl, h2⟩
    · rw [List.map_congr_left (fun p hp => nodeLine_eq (goodNames h0 hnl ht p hp))]

/-! ### Reading the representation -/

/-- The tree without the values. -/
def Forest.shape : Forest V → Forest Unit
  | .nil => .nil
  | .cons n _ c r => .cons n none c.shape r.shape

/-- Depths and names in the order of the lines. -/
def Forest.code (d : Nat) : Forest V → List (Nat × Str)
  | .nil => []
  | .cons n _ c r => (d, n) :: (c.code (d + 1) ++ r.code d)

/-- The rest of a list of lines starts above depth `d`. -/
def Above (d : Nat) (s : List (Nat × Str)) : Prop := ∀ x, s.head? = some x → x.1 < d

theorem code_above (f : Forest V) (d : Nat) (s : List (Nat × Str)) (h : Above d s) :
    Above (d + 1) (f.code d ++ s) := by
  cases f with
  | nil => intro x hx; have := h x hx; omega
  | cons n v c r =>
    intro x hx
    simp only [Forest.code, List.cons_append, List.head?_cons, Option.some.injEq] at hx
    rw [← hx]
    show d < d + 1
    omega

theorem code_inj (f : Forest V) : ∀ (g : Forest W) (d : Nat) (s s' : List (Nat × Str)), Above d s → Above d s' →
    f.code d ++ s = g.code d ++ s' → f.shape = g.shape ∧ s = s' := by
  induction f with
  | nil =>
    intro g d s s' h h' e
    cases g with
    | nil => exact ⟨rfl, e⟩
    | cons n v c r =>
      simp only [Forest.code, List.nil_append] at e
      have := h (d, n) (by rw [e]; rfl)
      exact absurd this (Nat.lt_irrefl _)
  | cons n v c r ihc ihr =>
    intro g d s s' h h' e
    cases g with
    | nil =>
      simp only [Forest.code, List.nil_append] at e
      have := h' (d, n) (by rw [← e]; rfl)
      exact absurd this (Nat.lt_irrefl _)
    | cons n' v' c' r' =>
      simp only [Forest.code, List.cons_append, List.append_assoc, List.cons.injEq, Prod.mk.injEq, true_and] at e
      obtain ⟨hn, e⟩ := e
      obtain ⟨h1, h2⟩ := ihc c' (d + 1) _ _ (code_above r d s h) (code_above r' d s' h') e
      obtain ⟨h3, h4⟩ := ihr r' d s s' h h' h2
      exact ⟨by simp only [Forest.shape, hn, h1, h3], h4⟩

theorem dfs_code (f : Forest V) (pre : List Str) :
    (f.dfs pre).map (fun p => (p.length, p.getLastD [])) = f.code (pre.length + 1) := by
  induction f generalizing pre with
  | nil => rfl
  | cons n v c r ihc ihr =>
    simp only [Forest.dfs, Forest.code, List.map_cons, List.map_append, ihc, ihr, List.length_append,
      List.length_singleton]
    congr 1
    simp

theorem shape_get? (f : Forest V) (k : Str) :
    f.shape.get? k = (f.get? k).map fun u => (⟨none, u.childs.shape⟩ : Tree Unit) := by
  induction f with
  | nil => rfl
  | cons n v c r _ ih =>
    simp only [Forest.shape, Forest.get?]
    split <;> simp [ih]

theorem shape_walk (path : List Str) : ∀ (t : Tree V), (t.walk path).isSome =
    ((⟨none, t.childs.shape⟩ : Tree Unit).walk path).isSome := by
  induction path with
  | nil => intro t; rfl
  | cons k ks ih =>
    intro t
    simp only [Tree.walk, shape_get?]
    cases t.childs.get? k with
    | none => rfl
    | some u => exact ih u

theorem line_inj {p q : List Str} (h : line p = line q) :
    p.length = q.length ∧ (p ≠ [] → p.getLastD [] = q.getLastD []) := by
  unfold line at h
  have hlen : ∀ (a b : Nat) (x y : Str), List.replicate a '\t' ++ '|' :: x = List.replicate b '\t' ++ '|' :: y →
      a = b ∧ x = y := by
    intro a
    induction a with
    | zero =>
      intro b x y h
      cases b with
      | zero => simpa using h
      | succ b => simp [List.replicate_succ] at h
    | succ a ih =>
      intro b x y h
      cases b with
      | zero => simp [List.replicate_succ] at h
      | succ b =>
        simp only [List.replicate_succ, List.cons_append, List.cons.injEq, true_and] at h
        obtain ⟨h1, h2⟩ := ih b x y h
        exact ⟨by rw [h1], h2⟩
  simp only [List.append_assoc, List.cons_append] at h
  obtain ⟨h1, h2⟩ := hlen _ _ _ _ h
  refine ⟨h1, fun hp => ?_⟩
  have hq : q ≠ [] := by
    intro e
    rw [e] at h1
    exact hp (List.length_eq_zero_iff.1 h1)
  rw [if_neg hp, if_neg hq] at h2
  exact List.append_cancel_right (List.append_cancel_left h2)

theorem no_newline_line {p : List Str} (h : ∀ n ∈ p, GoodName n) : '\n' ∉ line p := by
  unfold line
  simp only [List.mem_append, List.mem_cons, not_or]
  refine ⟨⟨⟨?_, by decide, by decide⟩, ?_⟩, by decide⟩
  · intro hc
    exact absurd (List.eq_of_mem_replicate hc) (by decide)
  · by_cases hp : p = []
    · rw [if_pos hp]; decide
    · rw [if_neg hp]
      have : p.getLastD [] = p.getLast hp := by
        rw [List.getLastD_eq_getLast?, List.getLast?_eq_some_getLast hp]; rfl
      rw [this]
      exact (h _ (List.getLast_mem hp)).2.2

/-- **C65**: the representation is unambiguous: if two namespaces with handlers are shown alike, they have
the same nodes. -/
theorem C65_representation_determines_the_nodes (isId : Str → Bool) (okValue : V → Bool)
    (okValue' : W → Bool) (h0 : isId [] = false) (hnl : ∀ s, isId s = true → '\n' ∉ s) (t : Tree V) (t' : Tree W)
    (ht : Tree.Reachable isId okValue t) (ht' : Tree.Reachable isId okValue' t')
    (he : ∃ k v, t.getitem isId k = .ok v) (he' : ∃ k v, t'.getitem isId k = .ok v)
    (h : t.repr = t'.repr) : ∀ path, HasNode t path ↔ HasNode t' path := by
  have hl : t.repr = "<NamedTree:\n".toList ++ joinChar '\n' (t.dfs.map line) ++ ">".toList ∧
      t'.repr = "<NamedTree:\n".toList ++ joinChar '\n' (t'.dfs.map line) ++ ">".toList := by
    have h1 : t.len ≠ 0 := by
      obtain ⟨keys, _, hk, _, _, hl⟩ := C02_iteration_complete_and_exact isId okValue h0 t ht
      obtain ⟨k, v, hv⟩ := he
      rw [hl]
      cases k with
      | other => simp [Tree.getitem, Tree.get, convKeys] at hv
      | str k =>
        have := (hk k).2 ⟨v, hv⟩
        intro hc
        rw [List.length_eq_zero_iff.1 hc] at this
        cases this
    have h2 : t'.len ≠ 0 := by
      obtain ⟨keys, _, hk, _, _, hl⟩ := C02_iteration_complete_and_exact isId okValue' h0 t' ht'
      obtain ⟨k, v, hv⟩ := he'
      rw [hl]
      cases k with
      | other => simp [Tree.getitem, Tree.get, convKeys] at hv
      | str k =>
        have := (hk k).2 ⟨v, hv⟩
        intro hc
        rw [List.length_eq_zero_iff.1 hc] at this
        cases this
    unfold Tree.repr
    rw [if_neg h1, if_neg h2, List.map_congr_left (fun p hp => nodeLine_eq (goodNames h0 hnl ht p hp)),
      List.map_congr_left (fun p hp => nodeLine_eq (goodNames h0 hnl ht' p hp))]
    exact ⟨rfl, rfl⟩
  rw [hl.1, hl.2] at h
  have hj := List.append_cancel_left (List.append_cancel_right h)
  have hs : t.dfs.map line = t'.dfs.map line := by
    rw [← splitChar_joinChar '\n' (t.dfs.map line) (by simp [Tree.dfs]) (by
        intro x hx
        obtain ⟨p, hp, rfl⟩ := List.mem_map.1 hx
        exact no_newline_line (goodNames h0 hnl ht p hp)),
      ← splitChar_joinChar '\n' (t'.dfs.map line) (by simp [Tree.dfs]) (by
        intro x hx
        obtain ⟨p, hp, rfl⟩ := List.mem_map.1 hx
        exact no_newline_line (goodNames h0 hnl ht' p hp)), hj]
  have hcode : ∀ l l' : List (List Str), (∀ p ∈ l, p ≠ []) → l.map line = l'.map line →
      l.map (fun p => (p.length, p.getLastD [])) = l'.map (fun p => (p.length, p.getLastD [])) := by
    intro l
    induction l with
    | nil =>
      intro l' _ h
      cases l' with
      | nil => rfl
      | cons _ _ => simp at h
    | cons p l ih =>
      intro l' hne h
      cases l' with
      | nil => simp at h
      | cons q l' =>
        simp only [List.map_cons, List.cons.injEq] at h ⊢
        obtain ⟨h1, h2⟩ := line_inj h.1
        exact ⟨by rw [h1, h2 (hne p (by simp))], ih l' (fun p hp => hne p (by simp [hp])) h.2⟩
  simp only [Tree.dfs, List.map_cons, List.cons.injEq, true_and] at hs
  have := hcode _ _ (by
    intro p hp e
    have := dfs_longer t.childs [] p hp
    rw [e] at this
    simp at this) hs
  rw [dfs_code, dfs_code] at this
  have hshape := (code_inj t.childs t'.childs _ [] [] (by simp [Above]) (by simp [Above]) (by
    rw [List.append_nil, List.append_nil]; exact this)).1
  intro path
  unfold HasNode
  rw [shape_walk path t, shape_walk path t', hshape]

/-! ### Witness -/

def printerTree : Tree Nat :=
  (Tree.run (fun s => s != [] && s.all Char.isAlpha) (fun _ => true) Tree.empty
    [.set (.str "a.b".toList) (some 1), .set (.str "c".toList) (some 2)]).1

example : Tree.Reachable (fun s => s != [] && s.all Char.isAlpha) (fun _ => true) printerTree := ⟨_, rfl⟩

example : ∃ k v, printerTree.getitem (fun s => s != [] && s.all Char.isAlpha) k = .ok v :=
  ⟨.str "a.b".toList, 1, by decide +kernel⟩

example : (∀ s : Str, (s != [] && s.all Char.isAlpha) = true → '\n' ∉ s) := by
  intro s h hc
  simp only [Bool.and_eq_true, List.all_eq_true] at h
  exact absurd (h.2 _ hc) (by decide)

example : printerTree.dfs = [[], ["a".toList], ["a".toList, "b".toList], ["c".toList]] := by decide +kernel

end Polog
