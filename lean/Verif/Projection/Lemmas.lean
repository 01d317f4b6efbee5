import Mathlib.Data.List.Induction
import Mathlib.Logic.Relation
import Mathlib.Tactic.ByContra
import Verif.Projection.Model

/-! Lemmas on the heap of tree nodes: shape, growth, pruning. -/

namespace Polog

variable {V : Type}

/-- The value under a path from a node. -/
def Heap.val (h : Heap V) (i : Nat) (ks : List Str) : Option V :=
  (h.walk i ks).bind fun j => (h.node j).value

/-- The node can be reached from the global root. -/
def Heap.Reach (h : Heap V) (i : Nat) : Prop := ∃ ks, h.walk 0 ks = some i

/-- The shape of the heap: every edge has the matching `parent` and `name`, and leads to a younger
node. -/
structure Heap.Good (h : Heap V) : Prop where
  pos : 0 < h.next
  rootp : (h.node 0).parent = none
  plt : ∀ i, i < h.next → ∀ p, (h.node i).parent = some p → p < i
  edge : ∀ i, i < h.next → ∀ k j, Dict.get? k (h.node i).childs = some j →
    j < h.next ∧ (h.node j).parent = some i ∧ (h.node j).name = some k ∧ i < j
  wf : ∀ i, i < h.next → Dict.WF (h.node i).childs

theorem Heap.Good_init : (Heap.init : Heap V).Good :=
  ⟨Nat.one_pos, rfl, by intro i _ p hp; simp [Heap.init] at hp,
   by intro i _ k j hj; simp [Heap.init, Dict.get?] at hj, by intro i _; exact Dict.WF_nil⟩

theorem Heap.walk_append (h : Heap V) (a b : List Str) : ∀ i,
    h.walk i (a ++ b) = (h.walk i a).bind fun j => h.walk j b := by
  induction a with
  | nil => intro i; rfl
  | cons k ks ih =>
    intro i
    simp only [List.cons_append, Heap.walk]
    cases Dict.get? k (h.node i).childs with
    | none => rfl
    | some j => exact ih j

theorem Heap.walk_single (h : Heap V) (i : Nat) (k : Str) :
    h.walk i [k] = Dict.get? k (h.node i).childs := by
  simp only [Heap.walk]
  cases Dict.get? k (h.node i).childs <;> rfl

theorem Heap.walk_snoc {h : Heap V} {i j : Nat} {a : List Str} {k : Str}
    (hw : h.walk i (a ++ [k]) = some j) :
    ∃ m, h.walk i a = some m ∧ Dict.get? k (h.node m).childs = some j := by
  rw [Heap.walk_append] at hw
  cases hm : h.walk i a with
  | none => rw [hm] at hw; cases hw
  | some m =>
    rw [hm] at hw
    refine ⟨m, rfl, ?_⟩
    rw [← Heap.walk_single]; exact hw

theorem Heap.val_append (h : Heap V) {i j : Nat} {a b : List Str} (hw : h.walk i a = some j) :
    h.val i (a ++ b) = h.val j b := by
  simp [Heap.val, Heap.walk_append, hw]

theorem Heap.walk_lt {h : Heap V} (hg : h.Good) (ks : List Str) : ∀ {i j}, i < h.next →
    h.walk i ks = some j → j < h.next ∧ i ≤ j := by
  induction ks with
  | nil => intro i j hi hw; simp [Heap.walk] at hw; subst hw; exact ⟨hi, Nat.le_refl _⟩
  | cons k ks ih =>
    intro i j hi hw
    simp only [Heap.walk] at hw
    cases hc : Dict.get? k (h.node i).childs with
    | none => rw [hc] at hw; cases hw
    | some c =>
      rw [hc] at hw
      have he := hg.edge i hi k c hc
      have := ih he.1 hw
      exact ⟨this.1, by omega⟩

theorem Heap.Reach.lt {h : Heap V} (hg : h.Good) {i : Nat} (hr : h.Reach i) : i < h.next := by
  obtain ⟨ks, hk⟩ := hr
  exact (Heap.walk_lt hg ks hg.pos hk).1

theorem Heap.walk_unique {h : Heap V} (hg : h.Good) (p : List Str) : ∀ {q n},
    h.walk 0 p = some n → h.walk 0 q = some n → p = q := by
  induction p using List.reverseRecOn with
  | nil =>
    intro q n hp hq
    simp [Heap.walk] at hp
    subst hp
    rcases List.eq_nil_or_concat q with rfl | ⟨q', k, rfl⟩
    · rfl
    · simp only [List.concat_eq_append] at hq
      obtain ⟨m, hm, hc⟩ := Heap.walk_snoc hq
      have h1 := Heap.walk_lt hg q' hg.pos hm
      have := hg.edge m h1.1 k 0 hc
      omega
  | append_singleton p k ih =>
    intro q n hp hq
    obtain ⟨m, hm, hc⟩ := Heap.walk_snoc hp
    have h1 := Heap.walk_lt hg p hg.pos hm
    have e1 := hg.edge m h1.1 k n hc
    rcases List.eq_nil_or_concat q with rfl | ⟨q', k', rfl⟩
    · simp [Heap.walk] at hq; omega
    · simp only [List.concat_eq_append] at hq ⊢
      obtain ⟨m', hm', hc'⟩ := Heap.walk_snoc hq
      have h1' := Heap.walk_lt hg q' hg.pos hm'
      have e2 := hg.edge m' h1'.1 k' n hc'
      have em : m' = m := by
        have := e1.2.1.symm.trans e2.2.1
        exact (Option.some.inj this).symm
      have ek : k' = k := by
        have := e1.2.2.1.symm.trans e2.2.2.1
        exact (Option.some.inj this).symm
      subst em; subst ek
      rw [ih hm hm']

/-- If a node below `i` can be reached from the root, so can `i`. -/
theorem Heap.Reach.up {h : Heap V} (hg : h.Good) {i : Nat} (hi : i < h.next) (ks : List Str) :
    ∀ {j}, h.walk i ks = some j → h.Reach j → h.Reach i := by
  induction ks using List.reverseRecOn with
  | nil => intro j hw hr; simp [Heap.walk] at hw; subst hw; exact hr
  | append_singleton ks k ih =>
    intro j hw hr
    obtain ⟨m, hm, hc⟩ := Heap.walk_snoc hw
    have h1 := Heap.walk_lt hg ks hi hm
    have e1 := hg.edge m h1.1 k j hc
    refine ih hm ?_
    obtain ⟨p, hp⟩ := hr
    rcases List.eq_nil_or_concat p with rfl | ⟨p', k', rfl⟩
    · simp [Heap.walk] at hp; omega
    · simp only [List.concat_eq_append] at hp
      obtain ⟨m', hm', hc'⟩ := Heap.walk_snoc hp
      have h1' := Heap.walk_lt hg p' hg.pos hm'
      have e2 := hg.edge m' h1'.1 k' j hc'
      have em : m' = m := by
        have := e1.2.1.symm.trans e2.2.1
        exact (Option.some.inj this).symm
      subst em
      exact ⟨p', hm'⟩

theorem Heap.hasValue_iff {h : Heap V} (hg : h.Good) (depth : Nat) : ∀ {i}, i < h.next →
    h.next ≤ i + depth → (h.hasValue depth i = true ↔ ∃ ks, h.val i ks ≠ none) := by
  induction depth with
  | zero => intro i hi hd; omega
  | succ d ih =>
    intro i hi hd
    simp only [Heap.hasValue, Bool.or_eq_true, List.any_eq_true]
    constructor
    · rintro (hv | ⟨⟨k, j⟩, hm, hj⟩)
      · refine ⟨[], ?_⟩
        simp only [Heap.val, Heap.walk, Option.bind_some]
        intro e; rw [e] at hv; cases hv
      · have hc := (Dict.mem_iff_get? (hg.wf i hi) k j).1 hm
        have he := hg.edge i hi k j hc
        obtain ⟨ks, hk⟩ := (ih he.1 (by omega)).1 hj
        refine ⟨k :: ks, ?_⟩
        simp only [Heap.val, Heap.walk, hc] at hk ⊢
        exact hk
    · rintro ⟨ks, hk⟩
      cases ks with
      | nil =>
        left
        simp only [Heap.val, Heap.walk, Option.bind_some] at hk
        cases hv : (h.node i).value with
        | none => exact absurd hv hk
        | some v => rfl
      | cons k ks =>
        right
        simp only [Heap.val, Heap.walk] at hk
        cases hc : Dict.get? k (h.node i).childs with
        | none => rw [hc] at hk; exact absurd rfl hk
        | some j =>
          rw [hc] at hk
          have he := hg.edge i hi k j hc
          exact ⟨(k, j), (Dict.mem_iff_get? (hg.wf i hi) k j).2 hc,
            (ih he.1 (by omega)).2 ⟨ks, hk⟩⟩

/-- Elementary changes made by selections. -/
inductive PrimC : Heap V → Heap V → Prop
  | create {h : Heap V} (i : Nat) (k : Str) (hr : h.Reach i)
      (hn : Dict.get? k (h.node i).childs = none) : PrimC h (h.createChild i k).1

/-- Elementary changes made by registrations and selections. -/
inductive PrimG : Heap V → Heap V → Prop
  | setVal {h : Heap V} (i : Nat) (v : V) (hr : h.Reach i) : PrimG h (h.put i { h.node i with value := some v })
  | ofC {h h' : Heap V} (hc : PrimC h h') : PrimG h h'

/-- Elementary changes made by deletions. -/
inductive PrimS : Heap V → Heap V → Prop
  | delVal {h : Heap V} (i : Nat) (hi : i < h.next) : PrimS h (h.put i { h.node i with value := none })
  | prune {h : Heap V} (i : Nat) (hi : i < h.next) : PrimS h (h.prune i)

/-- A branch cut off the global tree. -/
def Heap.Dead (h : Heap V) (i : Nat) : Prop :=
  i < h.next ∧ ¬ h.Reach i ∧ ∀ ks, h.val i ks = none

theorem Heap.walk_congr {h h' : Heap V} (he : ∀ i, (h'.node i).childs = (h.node i).childs)
    (ks : List Str) : ∀ i, h'.walk i ks = h.walk i ks := by
  induction ks with
  | nil => intro i; rfl
  | cons k ks ih =>
    intro i
    simp only [Heap.walk, he]
    cases Dict.get? k (h.node i).childs with
    | none => rfl
    | some j => exact ih j

theorem Heap.childs_put_value (h : Heap V) (i : Nat) (v : Option V) (j : Nat) :
    ((h.put i { h.node i with value := v }).node j).childs = (h.node j).childs := by
  simp only [Heap.put]
  split
  · rename_i e; subst e; rfl
  · rfl

theorem Heap.parent_put_value (h : Heap V) (i : Nat) (v : Option V) (j : Nat) :
    ((h.put i { h.node i with value := v }).node j).parent = (h.node j).parent := by
  simp only [Heap.put]
  split
  · rename_i e; subst e; rfl
  · rfl

theorem Heap.name_put_value (h : Heap V) (i : Nat) (v : Option V) (j : Nat) :
    ((h.put i { h.node i with value := v }).node j).name = (h.node j).name := by
  simp only [Heap.put]
  split
  · rename_i e; subst e; rfl
  · rfl

theorem Heap.Good_put_value {h : Heap V} (hg : h.Good) (i : Nat) (v : Option V) :
    (h.put i { h.node i with value := v }).Good := by
  refine ⟨hg.pos, ?_, ?_, ?_, ?_⟩
  · rw [Heap.parent_put_value]; exact hg.rootp
  · intro j hj p; rw [Heap.parent_put_value]; exact hg.plt j hj p
  · intro a ha k j
    rw [Heap.childs_put_value, Heap.parent_put_value, Heap.name_put_value]
    exact hg.edge a ha k j
  · intro a ha; rw [Heap.childs_put_value]; exact hg.wf a ha

theorem Heap.createChild_old {h : Heap V} {i a : Nat} (k : Str) (ha : a < h.next) :
    (h.createChild i k).1.node a =
      if a = i then { h.node i with childs := Dict.set k h.next (h.node i).childs } else h.node a := by
  simp only [Heap.createChild]
  rw [if_neg (by omega)]

theorem Heap.createChild_new (h : Heap V) (i : Nat) (k : Str) :
    (h.createChild i k).1.node h.next = ⟨some k, none, [], some i⟩ := by
  simp [Heap.createChild]

theorem Heap.Good_create {h : Heap V} (hg : h.Good) {i : Nat} (hi : i < h.next) (k : Str)
    (hn : Dict.get? k (h.node i).childs = none) : (h.createChild i k).1.Good := by
  have hnx : (h.createChild i k).1.next = h.next + 1 := rfl
  have hold : ∀ a, a < h.next → ((h.createChild i k).1.node a).parent = (h.node a).parent ∧
      ((h.createChild i k).1.node a).name = (h.node a).name := by
    intro a ha
    rw [Heap.createChild_old k ha]
    split
    · rename_i e; subst e; exact ⟨rfl, rfl⟩
    · exact ⟨rfl, rfl⟩
  refine ⟨by rw [hnx]; omega, ?_, ?_, ?_, ?_⟩
  · rw [(hold 0 hg.pos).1]; exact hg.rootp
  · intro a ha p hp
    by_cases h1 : a < h.next
    · rw [(hold a h1).1] at hp; exact hg.plt a h1 p hp
    · have : a = h.next := by omega
      subst this
      rw [Heap.createChild_new] at hp
      simp at hp; omega
  · intro a ha k' j hj
    by_cases h1 : a < h.next
    · rw [Heap.createChild_old k h1] at hj
      by_cases h2 : a = i
      · subst h2
        simp only [↓reduceIte] at hj
        rw [Dict.get?_set] at hj
        split at hj
        · rename_i e; subst e
          have : h.next = j := Option.some.inj hj
          subst this
          rw [Heap.createChild_new]
          exact ⟨by omega, rfl, rfl, h1⟩
        · have he := hg.edge a h1 k' j hj
          rw [(hold j he.1).1, (hold j he.1).2]
          exact ⟨by omega, he.2⟩
      · rw [if_neg h2] at hj
        have he := hg.edge a h1 k' j hj
        rw [(hold j he.1).1, (hold j he.1).2]
        exact ⟨by omega, he.2⟩
    · have : a = h.next := by omega
      subst this
      rw [Heap.createChild_new] at hj
      cases hj
  · intro a ha
    by_cases h1 : a < h.next
    · rw [Heap.createChild_old k h1]
      by_cases h2 : a = i
      · subst h2
        simp only [↓reduceIte]
        exact Dict.WF_set (hg.wf a h1)
      · rw [if_neg h2]; exact hg.wf a h1
    · have : a = h.next := by omega
      subst this
      rw [Heap.createChild_new]
      exact Dict.WF_nil

theorem Heap.walk_create_mono {h : Heap V} (hg : h.Good) {i : Nat} (k : Str)
    (hn : Dict.get? k (h.node i).childs = none) (ks : List Str) : ∀ {a j}, a < h.next →
    h.walk a ks = some j → (h.createChild i k).1.walk a ks = some j := by
  induction ks with
  | nil => intro a j _ hw; exact hw
  | cons k' ks ih =>
    intro a j ha hw
    simp only [Heap.walk] at hw ⊢
    cases hc : Dict.get? k' (h.node a).childs with
    | none => rw [hc] at hw; cases hw
    | some c =>
      rw [hc] at hw
      have hlt := (hg.edge a ha k' c hc).1
      have : Dict.get? k' ((h.createChild i k).1.node a).childs = some c := by
        rw [Heap.createChild_old k ha]
        split
        · rename_i e; subst e
          have hne : k ≠ k' := by rintro rfl; rw [hn] at hc; cases hc
          rw [Dict.get?_set_ne hne]; exact hc
        · exact hc
      rw [this]
      exact ih hlt hw

theorem Heap.walk_create_inv {h : Heap V} (hg : h.Good) {i : Nat} (k : Str) (ks : List Str) :
    ∀ {a j}, a < h.next → (h.createChild i k).1.walk a ks = some j →
      h.walk a ks = some j ∨ j = h.next := by
  induction ks with
  | nil => intro a j _ hw; exact .inl hw
  | cons k' ks ih =>
    intro a j ha hw
    simp only [Heap.walk] at hw ⊢
    rw [Heap.createChild_old k ha] at hw
    by_cases h2 : a = i
    · subst h2
      simp only [↓reduceIte] at hw
      rw [Dict.get?_set] at hw
      split at hw
      · cases hw
      · rename_i c hc
        split at hc
        · have : h.next = c := Option.some.inj hc
          subst this
          right
          cases ks with
          | nil => simp [Heap.walk] at hw; exact hw.symm
          | cons k2 ks =>
            simp only [Heap.walk] at hw
            rw [Heap.createChild_new] at hw
            cases hw
        · rw [hc]
          exact ih (hg.edge a ha k' c hc).1 hw
    · rw [if_neg h2] at hw
      split at hw
      · cases hw
      · rename_i c hc
        exact ih (hg.edge a ha k' c hc).1 hw

theorem PrimG.spec {h h' : Heap V} (hp : PrimG h h') (hg : h.Good) :
    h'.Good ∧ h.next ≤ h'.next ∧
    (∀ i ks j, i < h.next → h.walk i ks = some j → h'.walk i ks = some j) ∧
    (∀ i, h.Dead i → h'.Dead i) := by
  cases hp with
  | setVal i v hr =>
    have hw : ∀ ks a, (h.put i { h.node i with value := some v }).walk a ks = h.walk a ks :=
      fun ks a => Heap.walk_congr (Heap.childs_put_value h i (some v)) ks a
    refine ⟨Heap.Good_put_value hg i _, Nat.le_refl _, ?_, ?_⟩
    · intro a ks j _ hj; rw [hw]; exact hj
    · rintro a ⟨ha, hnr, hv⟩
      refine ⟨ha, ?_, ?_⟩
      · rintro ⟨ks, hk⟩; rw [hw] at hk; exact hnr ⟨ks, hk⟩
      · intro ks
        have hvk := hv ks
        simp only [Heap.val] at hvk ⊢
        rw [hw]
        cases hj : h.walk a ks with
        | none => rfl
        | some j =>
          rw [hj] at hvk
          simp only [Option.bind_some] at hvk ⊢
          have hne : j ≠ i := by
            rintro rfl
            exact hnr (Heap.Reach.up hg ha ks hj hr)
          simp only [Heap.put, if_neg hne]
          exact hvk
  | ofC hc =>
    obtain ⟨i, k, hr, hn⟩ := hc
    have hi := hr.lt hg
    refine ⟨Heap.Good_create hg hi k hn, Nat.le_succ _, ?_, ?_⟩
    · intro a ks j ha hj; exact Heap.walk_create_mono hg k hn ks ha hj
    · rintro a ⟨ha, hnr, hv⟩
      refine ⟨Nat.lt_succ_of_lt ha, ?_, ?_⟩
      · rintro ⟨ks, hk⟩
        rcases Heap.walk_create_inv hg k ks hg.pos hk with h1 | h1
        · exact hnr ⟨ks, h1⟩
        · omega
      · intro ks
        have hvk := hv ks
        simp only [Heap.val] at hvk ⊢
        cases hj : (h.createChild i k).1.walk a ks with
        | none => rfl
        | some j =>
          simp only [Option.bind_some]
          rcases Heap.walk_create_inv hg k ks ha hj with h1 | h1
          · rw [h1] at hvk
            simp only [Option.bind_some] at hvk
            rw [Heap.createChild_old k (Heap.walk_lt hg ks ha h1).1]
            split
            · rename_i e; subst e; exact hvk
            · exact hvk
          · subst h1
            rw [Heap.createChild_new]

theorem Dict.get?_filter {K W : Type} [DecidableEq K] {d : Dict K W} (hd : Dict.WF d)
    (f : K × W → Bool) (k : K) (v : W) :
    Dict.get? k (d.filter f) = some v ↔ Dict.get? k d = some v ∧ f (k, v) = true := by
  have hd' : Dict.WF (d.filter f) := by
    unfold Dict.WF Dict.keys at hd ⊢
    exact List.Nodup.sublist (List.Sublist.map _ List.filter_sublist) hd
  rw [← Dict.mem_iff_get? hd', ← Dict.mem_iff_get? hd, List.mem_filter]

theorem Heap.prune_childs (h : Heap V) (p a : Nat) :
    ((h.prune p).node a).childs =
      if a = p then (h.node p).childs.filter (fun kj => h.hasValue h.next kj.2) else (h.node a).childs := by
  simp only [Heap.prune, Heap.put]
  split <;> rfl

theorem Heap.prune_rest (h : Heap V) (p a : Nat) :
    ((h.prune p).node a).value = (h.node a).value ∧ ((h.prune p).node a).parent = (h.node a).parent ∧
      ((h.prune p).node a).name = (h.node a).name := by
  simp only [Heap.prune, Heap.put]
  split
  · rename_i e; subst e; exact ⟨rfl, rfl, rfl⟩
  · exact ⟨rfl, rfl, rfl⟩

theorem Heap.prune_get {h : Heap V} (hg : h.Good) {p : Nat} (hp : p < h.next) {a : Nat} {k : Str}
    {j : Nat} : Dict.get? k ((h.prune p).node a).childs = some j ↔
      Dict.get? k (h.node a).childs = some j ∧ (a = p → h.hasValue h.next j = true) := by
  rw [Heap.prune_childs]
  by_cases e : a = p
  · subst e
    simp only [↓reduceIte]
    rw [Dict.get?_filter (hg.wf a hp)]
    simp
  · simp [e]

theorem Heap.walk_prune_sub {h : Heap V} (hg : h.Good) {p : Nat} (hp : p < h.next) (ks : List Str) :
    ∀ {a j}, (h.prune p).walk a ks = some j → h.walk a ks = some j := by
  induction ks with
  | nil => intro a j hw; exact hw
  | cons k ks ih =>
    intro a j hw
    simp only [Heap.walk] at hw ⊢
    cases hc : Dict.get? k ((h.prune p).node a).childs with
    | none => rw [hc] at hw; cases hw
    | some c =>
      rw [hc] at hw
      rw [((Heap.prune_get hg hp).1 hc).1]
      exact ih hw

theorem Heap.walk_prune_cases {h : Heap V} (hg : h.Good) {p : Nat} (hp : p < h.next) (ks : List Str) :
    ∀ {a j}, a < h.next → h.walk a ks = some j → (h.prune p).walk a ks = some j ∨
      ∃ c r, c < h.next ∧ h.hasValue h.next c = false ∧ h.walk c r = some j := by
  induction ks with
  | nil => intro a j _ hw; exact .inl hw
  | cons k ks ih =>
    intro a j ha hw
    simp only [Heap.walk] at hw ⊢
    cases hc : Dict.get? k (h.node a).childs with
    | none => rw [hc] at hw; cases hw
    | some c =>
      rw [hc] at hw
      have hlt := (hg.edge a ha k c hc).1
      by_cases e : a = p → h.hasValue h.next c = true
      · rw [(Heap.prune_get hg hp).2 ⟨hc, e⟩]
        exact ih hlt hw
      · right
        refine ⟨c, ks, hlt, ?_, hw⟩
        cases hv : h.hasValue h.next c with
        | false => rfl
        | true => exact absurd (fun _ => hv) e

theorem Heap.Good_prune {h : Heap V} (hg : h.Good) {p : Nat} (hp : p < h.next) : (h.prune p).Good := by
  refine ⟨hg.pos, ?_, ?_, ?_, ?_⟩
  · rw [(Heap.prune_rest h p 0).2.1]; exact hg.rootp
  · intro i hi q; rw [(Heap.prune_rest h p i).2.1]; exact hg.plt i hi q
  · intro i hi k j hj
    rw [(Heap.prune_rest h p j).2.1, (Heap.prune_rest h p j).2.2]
    exact hg.edge i hi k j ((Heap.prune_get hg hp).1 hj).1
  · intro i hi
    rw [Heap.prune_childs]
    split
    · have := hg.wf p hp
      unfold Dict.WF Dict.keys at this ⊢
      exact List.Nodup.sublist (List.Sublist.map _ List.filter_sublist) this
    · exact hg.wf i hi

theorem PrimS.spec {h h' : Heap V} (hp : PrimS h h') (hg : h.Good) :
    h'.Good ∧ h.next = h'.next ∧
    (∀ i ks j, h'.walk i ks = some j → h.walk i ks = some j) ∧
    (∀ j, (h'.node j).value = none ∨ (h'.node j).value = (h.node j).value) ∧
    (∀ q i, h.walk 0 q = some i → h'.walk 0 q = some i ∨ h'.Dead i) := by
  cases hp with
  | delVal i hi =>
    have hw : ∀ ks a, (h.put i { h.node i with value := none }).walk a ks = h.walk a ks :=
      fun ks a => Heap.walk_congr (Heap.childs_put_value h i none) ks a
    refine ⟨Heap.Good_put_value hg i _, rfl, ?_, ?_, ?_⟩
    · intro a ks j hj; rw [hw] at hj; exact hj
    · intro j; simp only [Heap.put]; split <;> simp
    · intro q a ha; left; rw [hw]; exact ha
  | prune p hp =>
    refine ⟨Heap.Good_prune hg hp, rfl, ?_, ?_, ?_⟩
    · intro a ks j hj; exact Heap.walk_prune_sub hg hp ks hj
    · intro j; right; exact (Heap.prune_rest h p j).1
    · intro q a ha
      by_cases hl : (h.prune p).walk 0 q = some a
      · exact .inl hl
      right
      rcases Heap.walk_prune_cases hg hp q hg.pos ha with h1 | ⟨c, r, hc, hcv, hcw⟩
      · exact absurd h1 hl
      have hnone : ∀ ks, h.val c ks = none := by
        intro ks
        by_contra hne
        have := (Heap.hasValue_iff hg h.next hc (by omega)).2 ⟨ks, hne⟩
        rw [hcv] at this
        cases this
      refine ⟨(Heap.walk_lt hg q hg.pos ha).1, ?_, ?_⟩
      · rintro ⟨r', hr'⟩
        have h2 := Heap.walk_prune_sub hg hp r' hr'
        have := Heap.walk_unique hg _ ha h2
        subst this
        exact hl hr'
      · intro ks
        simp only [Heap.val]
        cases hj : (h.prune p).walk a ks with
        | none => rfl
        | some j =>
          simp only [Option.bind_some]
          rw [(Heap.prune_rest h p j).1]
          have h3 := Heap.walk_prune_sub hg hp ks hj
          have h4 := hnone (r ++ ks)
          rw [Heap.val_append h hcw] at h4
          simpa [Heap.val, h3] using h4

theorem PrimS.dead {h h' : Heap V} (hp : PrimS h h') (hg : h.Good) {i : Nat} (hd : h.Dead i) :
    h'.Dead i := by
  obtain ⟨_, hn, hw, hv, _⟩ := hp.spec hg
  refine ⟨hn ▸ hd.1, ?_, ?_⟩
  · rintro ⟨ks, hk⟩; exact hd.2.1 ⟨ks, hw 0 ks i hk⟩
  · intro ks
    have := hd.2.2 ks
    simp only [Heap.val] at this ⊢
    cases hj : h'.walk i ks with
    | none => rfl
    | some j =>
      rw [hw i ks j hj] at this
      simp only [Option.bind_some] at this ⊢
      rcases hv j with h1 | h1
      · exact h1
      · rw [h1]; exact this

/-- The closure of the elementary changes. -/
abbrev Grow : Heap V → Heap V → Prop := Relation.ReflTransGen PrimG
abbrev Touch : Heap V → Heap V → Prop := Relation.ReflTransGen PrimC
abbrev Shrink : Heap V → Heap V → Prop := Relation.ReflTransGen PrimS

theorem Grow.spec {h h' : Heap V} (hp : Grow h h') (hg : h.Good) :
    h'.Good ∧ h.next ≤ h'.next ∧
    (∀ i ks j, i < h.next → h.walk i ks = some j → h'.walk i ks = some j) ∧
    (∀ i, h.Dead i → h'.Dead i) := by
  induction hp with
  | refl => exact ⟨hg, Nat.le_refl _, fun _ _ _ _ hj => hj, fun _ hd => hd⟩
  | tail _ hs ih =>
    obtain ⟨g1, n1, w1, d1⟩ := ih
    obtain ⟨g2, n2, w2, d2⟩ := hs.spec g1
    exact ⟨g2, by omega, fun i ks j hi hj => w2 i ks j (by omega) (w1 i ks j hi hj),
      fun i hd => d2 i (d1 i hd)⟩

theorem Touch.grow {h h' : Heap V} (ht : Touch h h') : Grow h h' := by
  induction ht with
  | refl => exact .refl
  | tail _ hs ih => exact .tail ih (.ofC hs)

theorem PrimC.val {h h' : Heap V} (hp : PrimC h h') (hg : h.Good) (q : List Str) :
    h'.val 0 q = h.val 0 q := by
  have hsp := (PrimG.ofC hp).spec hg
  obtain ⟨i, k, hr, hn⟩ := hp
  simp only [Heap.val]
  cases hw : h.walk 0 q with
  | some j =>
    rw [hsp.2.2.1 0 q j hg.pos hw]
    simp only [Option.bind_some]
    rw [Heap.createChild_old k (Heap.walk_lt hg q hg.pos hw).1]
    split
    · rename_i e; subst e; rfl
    · rfl
  | none =>
    cases hw' : (h.createChild i k).1.walk 0 q with
    | none => rfl
    | some j =>
      rcases Heap.walk_create_inv hg k q hg.pos hw' with h1 | h1
      · rw [hw] at h1; cases h1
      · subst h1
        simp only [Option.bind_some, Option.bind_none]
        rw [Heap.createChild_new]

theorem Touch.val {h h' : Heap V} (ht : Touch h h') (hg : h.Good) (q : List Str) :
    h'.val 0 q = h.val 0 q := by
  induction ht with
  | refl => rfl
  | tail ht hs ih => rw [hs.val ((Touch.grow ht).spec hg).1, ih]

theorem Shrink.spec {h h' : Heap V} (hp : Shrink h h') (hg : h.Good) :
    h'.Good ∧ h.next = h'.next ∧
    (∀ i ks j, h'.walk i ks = some j → h.walk i ks = some j) ∧
    (∀ i, h.Dead i → h'.Dead i) ∧
    (∀ q i, h.walk 0 q = some i → h'.walk 0 q = some i ∨ h'.Dead i) := by
  induction hp with
  | refl => exact ⟨hg, rfl, fun _ _ _ hj => hj, fun _ hd => hd, fun _ _ hl => .inl hl⟩
  | tail _ hs ih =>
    obtain ⟨g1, n1, w1, d1, l1⟩ := ih
    obtain ⟨g2, n2, w2, _, l2⟩ := hs.spec g1
    refine ⟨g2, n1.trans n2, fun i ks j hj => w1 i ks j (w2 i ks j hj),
      fun i hd => hs.dead g1 (d1 i hd), ?_⟩
    intro q i hl
    rcases l1 q i hl with h1 | h1
    · exact l2 q i h1
    · exact .inr (hs.dead g1 h1)

theorem Heap.walkNew_spec (ks : List Str) : ∀ {h : Heap V} {i : Nat}, h.Good → h.Reach i →
    Touch h (h.walkNew i ks).1 ∧ (h.walkNew i ks).1.walk i ks = some (h.walkNew i ks).2 := by
  induction ks with
  | nil => intro h i _ _; exact ⟨.refl, rfl⟩
  | cons k ks ih =>
    intro h i hg hr
    simp only [Heap.walkNew]
    cases hc : Dict.get? k (h.node i).childs with
    | none =>
      have hi := hr.lt hg
      have hp : PrimC h (h.createChild i k).1 := .create i k hr hc
      obtain ⟨g1, _, w1, _⟩ := (PrimG.ofC hp).spec hg
      have hedge : Dict.get? k ((h.createChild i k).1.node i).childs = some h.next := by
        rw [Heap.createChild_old k hi]; simp [Dict.get?_set_self]
      have hr1 : (h.createChild i k).1.Reach h.next := by
        obtain ⟨p, hp0⟩ := hr
        refine ⟨p ++ [k], ?_⟩
        rw [Heap.walk_append, w1 0 p i hg.pos hp0]
        simp only [Option.bind_some]
        rw [Heap.walk_single]; exact hedge
      obtain ⟨a, b⟩ := ih g1 hr1
      have ha := a
      obtain ⟨_, _, w2, _⟩ := Grow.spec ha.grow g1
      refine ⟨Relation.ReflTransGen.trans (.single hp) a, ?_⟩
      have hstep := w2 i [k] h.next (Nat.lt_succ_of_lt hi) (by rw [Heap.walk_single]; exact hedge)
      have : (k :: ks) = [k] ++ ks := rfl
      show ((h.createChild i k).1.walkNew h.next ks).1.walk i (k :: ks) = _
      rw [this, Heap.walk_append, hstep]
      exact b
    | some j =>
      have hi := hr.lt hg
      have hr1 : h.Reach j := by
        obtain ⟨p, hp0⟩ := hr
        refine ⟨p ++ [k], ?_⟩
        rw [Heap.walk_append, hp0]
        simp only [Option.bind_some]
        rw [Heap.walk_single]; exact hc
      obtain ⟨a, b⟩ := ih hg hr1
      obtain ⟨_, _, w2, _⟩ := Grow.spec a.grow hg
      refine ⟨a, ?_⟩
      have hstep := w2 i [k] j hi (by rw [Heap.walk_single]; exact hc)
      have : (k :: ks) = [k] ++ ks := rfl
      show (h.walkNew j ks).1.walk i (k :: ks) = _
      rw [this, Heap.walk_append, hstep]
      exact b

/-- The loop of `cut_empty_branch` makes only elementary changes. -/
theorem Heap.cut_shrink (b rounds : Nat) : ∀ {h : Heap V} {i : Nat}, h.Good → i < h.next →
    Shrink h (h.cut b rounds i) := by
  induction rounds with
  | zero => intro h i _ _; exact .refl
  | succ n ih =>
    intro h i hg hi
    simp only [Heap.cut]
    cases hp : (h.node i).parent with
    | none => exact .refl
    | some p =>
      dsimp only
      split
      · exact .refl
      · have hlt := hg.plt i hi p hp
        have hpn : p < h.next := by omega
        have := PrimS.prune (h := h) p hpn
        exact Relation.ReflTransGen.trans (.single this) (ih (Heap.Good_prune hg hpn) hpn)

/-- The number of rounds given by `Heap.del` is never exhausted. -/
theorem Heap.cut_rounds (b : Nat) (n : Nat) : ∀ {h : Heap V} {i m : Nat}, h.Good → i < h.next →
    i < n → n ≤ m → h.cut b m i = h.cut b n i := by
  induction n with
  | zero => intro h i m _ _ h0; omega
  | succ n ih =>
    intro h i m hg hi hin hnm
    obtain ⟨m', rfl⟩ : ∃ m', m = m' + 1 := ⟨m - 1, by omega⟩
    simp only [Heap.cut]
    cases hp : (h.node i).parent with
    | none => rfl
    | some p =>
      dsimp only
      split
      · rfl
      · have hlt := hg.plt i hi p hp
        exact ih (Heap.Good_prune hg (by omega)) (show p < (h.prune p).next by
          show p < h.next; omega) (by omega) (by omega)

/-- Starting below the root, the loop ends with a round for the root. -/
theorem Heap.cut_root (rounds : Nat) : ∀ {h : Heap V} {i : Nat}, h.Good → h.Reach i →
    i < rounds → i ≠ 0 →
    ∃ g : Heap V, g.Good ∧ h.cut 0 rounds i = g.prune 0 := by
  induction rounds with
  | zero => intro h i _ _ h0; omega
  | succ n ih =>
    intro h i hg hr hin hne
    have hi := hr.lt hg
    obtain ⟨q, hq⟩ := hr
    rcases List.eq_nil_or_concat q with rfl | ⟨q', k, rfl⟩
    · simp [Heap.walk] at hq; omega
    simp only [List.concat_eq_append] at hq
    obtain ⟨m, hm, hc⟩ := Heap.walk_snoc hq
    have hml := Heap.walk_lt hg q' hg.pos hm
    have he := hg.edge m hml.1 k i hc
    simp only [Heap.cut, he.2.1]
    have hnb : ((h.node m).childs.any fun kj => kj.2 == 0) = false := by
      rw [List.any_eq_false]
      rintro ⟨k', j⟩ hmem
      have hj := (Dict.mem_iff_get? (hg.wf m hml.1) k' j).1 hmem
      have := hg.edge m hml.1 k' j hj
      simp; omega
    rw [hnb]
    simp only [Bool.false_eq_true, ↓reduceIte]
    have g1 := Heap.Good_prune hg hml.1
    by_cases h0 : m = 0
    · subst h0
      refine ⟨h, hg, ?_⟩
      cases n with
      | zero => rfl
      | succ n =>
        have hrp : ((h.prune 0).node 0).parent = none := by
          rw [(Heap.prune_rest h 0 0).2.1]; exact hg.rootp
        simp only [Heap.cut, hrp]
    · have hw : (h.prune m).walk 0 q' = some m := by
        -- the path to `m` does not pass below `m`
        have : ∀ (r : List Str) {a : Nat}, a < h.next → h.walk a r = some m →
            (h.prune m).walk a r = some m := by
          intro r
          induction r with
          | nil => intro a _ hw; exact hw
          | cons k2 r ihr =>
            intro a ha hw
            simp only [Heap.walk] at hw ⊢
            cases hc2 : Dict.get? k2 (h.node a).childs with
            | none => rw [hc2] at hw; cases hw
            | some c =>
              rw [hc2] at hw
              have e2 := hg.edge a ha k2 c hc2
              have hcm := Heap.walk_lt hg r e2.1 hw
              have hne2 : a ≠ m := by omega
              rw [(Heap.prune_get hg hml.1).2 ⟨hc2, fun e => absurd e hne2⟩]
              exact ihr e2.1 hw
        exact this q' hg.pos hm
      exact ih g1 ⟨q', hw⟩ (by omega) h0

end Polog
