import Verif.Projection.Lemmas2
import Verif.Projection.Spec

/-! Lemmas on the operations and on histories of operations. -/

namespace Polog
open ProjSpec

variable {V : Type}

theorem under_iff (p key : Str) :
    Under p key ↔ ∃ r, splitChar sep key = splitChar sep p ++ r := by
  constructor
  · rintro (rfl | ⟨rest, rfl⟩)
    · exact ⟨[], by simp⟩
    · exact ⟨splitChar sep rest, splitChar_append' sep p rest⟩
  · rintro ⟨r, hr⟩
    have h1 := joinChar_splitChar sep key
    rw [hr] at h1
    by_cases h0 : r = []
    · subst h0
      left
      rw [List.append_nil, joinChar_splitChar] at h1
      exact h1.symm
    · right
      rw [joinChar_append sep (splitChar_ne_nil _ _) h0, joinChar_splitChar] at h1
      exact ⟨joinChar sep r, h1.symm⟩

theorem convKeys_ok {isId : Str → Bool} {p : Key} {keys : List Str} (h : convKeys isId p = .ok keys)
    (hp : p ≠ .str [sep]) : ∃ s, p = .str s ∧ s ≠ [sep] ∧ (splitChar sep s).all isId = true ∧
      keys = splitChar sep s := by
  cases p with
  | other => simp [convKeys] at h
  | str s =>
    have hs : s ≠ [sep] := fun e => hp (by rw [e])
    rw [convKeys_str, if_neg hs] at h
    split at h
    · rename_i hv; exact ⟨s, rfl, hs, hv, by simpa using h.symm⟩
    · cases h

theorem Heap.searchOrCreate_split (h : Heap V) (s : Str) :
    h.searchOrCreate (splitChar sep s) = h.walkNew 0 (splitChar sep s) := by
  unfold Heap.searchOrCreate
  rw [if_neg (splitChar_ne_sep s)]

theorem Heap.reach_zero (h : Heap V) : h.Reach 0 := ⟨[], rfl⟩

theorem Heap.searchOrCreate_spec {h : Heap V} (hg : h.Good) (keys : List Str) :
    Touch h (h.searchOrCreate keys).1 ∧ (h.searchOrCreate keys).1.Reach (h.searchOrCreate keys).2 := by
  unfold Heap.searchOrCreate
  split
  · exact ⟨.refl, Heap.reach_zero h⟩
  · obtain ⟨a, b⟩ := Heap.walkNew_spec keys hg (Heap.reach_zero h)
    exact ⟨a, ⟨keys, b⟩⟩

theorem ShowsPaths.grow {h h' : Heap V} {S : List (List Str)} {t : PNode V} (hg : h.Good) (hG : Grow h h')
    (hi : ShowsPaths h [] S t) : ShowsPaths h' [] S t := by
  obtain ⟨_, _, w, _⟩ := hG.spec hg
  refine ⟨?_, hi.all, hi.plain⟩
  intro ks i rest hks
  obtain ⟨q, h1, h2, h3⟩ := hi.shows ks i rest hks
  exact ⟨q, h1, h2, w 0 _ i hg.pos h3⟩

theorem Heap.on_spec (isId : Str → Bool) (ps : List Key) : ∀ {h : Heap V} {t : PNode V}
    {S : List (List Str)}, h.Good → ShowsPaths h [] S t → (∀ q ∈ S, q ≠ []) →
    Touch h (h.on isId t ps).1 ∧
    ∀ t', (h.on isId t ps).2 = .ok t' →
      (∃ S', ShowsPaths (h.on isId t ps).1 [] S' t' ∧
        ∀ q, q ∈ S' ↔ q ∈ S ∨ ∃ s, Key.str s ∈ ps ∧ q = splitChar sep s) ∧
      ∀ p ∈ ps, ∃ s, p = .str s ∧ s ≠ [sep] ∧ (splitChar sep s).all isId = true := by
  induction ps with
  | nil =>
    intro h t S hg hi hS
    refine ⟨.refl, ?_⟩
    intro t' ht
    have : t = t' := by simpa [Heap.on] using ht
    subst this
    exact ⟨⟨S, hi, by simp⟩, by simp⟩
  | cons p ps ih =>
    intro h t S hg hi hS
    simp only [Heap.on]
    by_cases hp : p = .str [sep]
    · rw [if_pos hp]
      exact ⟨.refl, fun t' ht => by cases ht⟩
    · rw [if_neg hp]
      cases hk : convKeys isId p with
      | error e => exact ⟨.refl, fun t' ht => by cases ht⟩
      | ok keys =>
        dsimp only
        obtain ⟨s, rfl, hs, hv, rfl⟩ := convKeys_ok hk hp
        rw [Heap.searchOrCreate_split]
        obtain ⟨ga, gb⟩ := Heap.walkNew_spec (splitChar sep s) hg (Heap.reach_zero h)
        have g1 := (ga.grow.spec hg).1
        have hi1 := hi.grow hg ga.grow
        obtain ⟨pa, pb, pc, pd, pe⟩ := PNode.putNode_inv (splitChar sep s) (pre := []) (S := S) (t := t)
          (splitChar_ne_nil _ _) gb (fun q hq => hS q (by simpa using hq)) hi1.shows hi1.plain
        rw [pa]
        have hi2 : ShowsPaths (h.walkNew 0 (splitChar sep s)).1 [] (splitChar sep s :: S)
            (PNode.putNode (h.walkNew 0 (splitChar sep s)).1 t (splitChar sep s)
              (h.walkNew 0 (splitChar sep s)).2).2 := by
          refine ⟨pb, ?_, pe⟩
          intro p hp rest
          rcases List.mem_cons.1 hp with h1 | h1
          · simp only [List.nil_append] at h1; subst h1; exact pd rest
          · exact pc _ (hi1.all p h1 rest)
        obtain ⟨ra, rb⟩ := ih g1 hi2 (by
          intro q hq
          rcases List.mem_cons.1 hq with rfl | h1
          · exact splitChar_ne_nil _ _
          · exact hS q h1)
        refine ⟨Relation.ReflTransGen.trans ga ra, ?_⟩
        intro t' ht
        obtain ⟨⟨S', h1, h2⟩, h3⟩ := rb t' ht
        refine ⟨⟨S', h1, ?_⟩, ?_⟩
        · intro q
          rw [h2 q]
          constructor
          · rintro (h4 | ⟨s', h4, h5⟩)
            · rcases List.mem_cons.1 h4 with h5 | h5
              · exact .inr ⟨s, List.mem_cons_self, h5⟩
              · exact .inl h5
            · exact .inr ⟨s', List.mem_cons_of_mem _ h4, h5⟩
          · rintro (h4 | ⟨s', h4, h5⟩)
            · exact .inl (List.mem_cons_of_mem _ h4)
            · rcases List.mem_cons.1 h4 with h6 | h6
              · left; rw [h5, Key.str.inj h6]; exact List.mem_cons_self
              · exact .inr ⟨s', h6, h5⟩
        · intro p hp
          rcases List.mem_cons.1 hp with rfl | h4
          · exact ⟨s, rfl, hs, hv⟩
          · exact h3 p h4

theorem ShowsPaths.fresh (h : Heap V) : ShowsPaths h [] [] (.own none []) := by
  refine ⟨?_, by simp, ?_⟩
  · intro ks i rest hk
    cases ks <;> simp [PNode.front, Dict.get?] at hk
  · intro ks
    cases ks <;> simp [PNode.ownVal, Dict.get?]

theorem Heap.select_touch (isId : Str → Bool) {h : Heap V} (hg : h.Good) (ps : List Key) :
    Touch h (h.select isId ps).1 :=
  (Heap.on_spec isId ps hg (ShowsPaths.fresh h) (by simp)).1

theorem Heap.set_grow (isId : Str → Bool) (okValue : V → Bool) {h : Heap V} (hg : h.Good) (k : Key)
    (v : Option V) : Grow h (h.set isId okValue k v).1 := by
  unfold Heap.set
  cases k with
  | other => exact .refl
  | str s =>
    cases v with
    | none => exact .refl
    | some v =>
      dsimp only
      split
      · cases hk : convKeys isId (.str s) with
        | error e => exact .refl
        | ok keys =>
          dsimp only
          obtain ⟨a, b⟩ := Heap.searchOrCreate_spec hg keys
          exact Relation.ReflTransGen.tail a.grow (.setVal _ v b)
      · exact .refl

theorem Heap.search_reach {h : Heap V} {keys : List Str} {i : Nat} (hs : h.search keys = some i) :
    h.Reach i := by
  unfold Heap.search at hs
  split at hs
  · cases hs
  · split at hs
    · cases hs; exact Heap.reach_zero h
    · exact ⟨keys, hs⟩

theorem Heap.del_shrink (isId : Str → Bool) {h : Heap V} (hg : h.Good) (k : Key) :
    Shrink h (h.del isId k).1 := by
  unfold Heap.del
  cases k with
  | other => exact .refl
  | str s =>
    dsimp only
    cases hk : convKeys isId (.str s) with
    | error e => exact .refl
    | ok keys =>
      dsimp only
      cases hs : h.search keys with
      | none => exact .refl
      | some i =>
        dsimp only
        split
        · exact .refl
        · have hi := (Heap.search_reach hs).lt hg
          refine Relation.ReflTransGen.trans (.single (.delVal i hi)) ?_
          exact Heap.cut_shrink 0 h.next (Heap.Good_put_value hg i none) hi

/-- A deletion, as opposed to a registration or a selection. -/
def HOp.isDel : HOp V → Bool
  | .del _ => true
  | _ => false

theorem Heap.step_spec (isId : Str → Bool) (okValue : V → Bool) {h : Heap V} (hg : h.Good)
    (op : HOp V) :
    (op.isDel = false ∧ Grow h (h.step isId okValue op).1) ∨
    (op.isDel = true ∧ Shrink h (h.step isId okValue op).1) := by
  cases op with
  | set k v => exact .inl ⟨rfl, Heap.set_grow isId okValue hg k v⟩
  | del k => exact .inr ⟨rfl, Heap.del_shrink isId hg k⟩
  | select ps =>
    refine .inl ⟨rfl, ?_⟩
    have := (Heap.select_touch isId hg ps).grow
    simp only [Heap.step]
    cases hsel : h.select isId ps with
    | mk h' r =>
      rw [hsel] at this
      cases r <;> exact this

theorem Heap.step_good (isId : Str → Bool) (okValue : V → Bool) {h : Heap V} (hg : h.Good)
    (op : HOp V) : (h.step isId okValue op).1.Good := by
  rcases Heap.step_spec isId okValue hg op with ⟨_, h1⟩ | ⟨_, h1⟩
  · exact (h1.spec hg).1
  · exact (h1.spec hg).1

theorem Heap.run_good (isId : Str → Bool) (okValue : V → Bool) (ops : List (HOp V)) :
    ∀ {h : Heap V}, h.Good → (h.run isId okValue ops).Good := by
  induction ops with
  | nil => intro h hg; exact hg
  | cons op ops ih => intro h hg; exact ih (Heap.step_good isId okValue hg op)

theorem Heap.step_dead (isId : Str → Bool) (okValue : V → Bool) {h : Heap V} (hg : h.Good)
    (op : HOp V) {i : Nat} (hd : h.Dead i) : (h.step isId okValue op).1.Dead i := by
  rcases Heap.step_spec isId okValue hg op with ⟨_, h1⟩ | ⟨_, h1⟩
  · exact (h1.spec hg).2.2.2 i hd
  · exact (h1.spec hg).2.2.2.1 i hd

theorem Heap.run_dead (isId : Str → Bool) (okValue : V → Bool) (ops : List (HOp V)) {i : Nat} :
    ∀ {h : Heap V}, h.Good → h.Dead i → (h.run isId okValue ops).Dead i := by
  induction ops with
  | nil => intro h _ hd; exact hd
  | cons op ops ih =>
    intro h hg hd
    exact ih (Heap.step_good isId okValue hg op) (Heap.step_dead isId okValue hg op hd)

theorem Heap.step_live (isId : Str → Bool) (okValue : V → Bool) {h : Heap V} (hg : h.Good)
    (op : HOp V) {q : List Str} {i : Nat} (hl : h.walk 0 q = some i) :
    (h.step isId okValue op).1.walk 0 q = some i ∨ (h.step isId okValue op).1.Dead i := by
  rcases Heap.step_spec isId okValue hg op with ⟨_, h1⟩ | ⟨_, h1⟩
  · exact .inl ((h1.spec hg).2.2.1 0 q i hg.pos hl)
  · exact (h1.spec hg).2.2.2.2 q i hl

theorem Heap.run_live (isId : Str → Bool) (okValue : V → Bool) (ops : List (HOp V)) {q : List Str}
    {i : Nat} : ∀ {h : Heap V}, h.Good → h.walk 0 q = some i →
    (h.run isId okValue ops).walk 0 q = some i ∨ (h.run isId okValue ops).Dead i := by
  induction ops with
  | nil => intro h _ hl; exact .inl hl
  | cons op ops ih =>
    intro h hg hl
    rcases Heap.step_live isId okValue hg op hl with h1 | h1
    · exact ih (Heap.step_good isId okValue hg op) h1
    · exact .inr (Heap.run_dead isId okValue ops (Heap.step_good isId okValue hg op) h1)

/-- A branch that keeps a handler in every deletion stays attached. -/
theorem Heap.run_kept (isId : Str → Bool) (okValue : V → Bool) (ops : List (HOp V)) {q : List Str}
    {i : Nat} : ∀ {h : Heap V}, h.Good → h.walk 0 q = some i →
    (∀ a op b, ops = a ++ op :: b → op.isDel = true →
      ∃ r, (h.run isId okValue (a ++ [op])).val 0 (q ++ r) ≠ none) →
    (h.run isId okValue ops).walk 0 q = some i := by
  induction ops with
  | nil => intro h _ hl _; exact hl
  | cons op ops ih =>
    intro h hg hl hk
    refine ih (Heap.step_good isId okValue hg op) ?_ ?_
    · rcases Heap.step_spec isId okValue hg op with ⟨_, h1⟩ | ⟨hd, h1⟩
      · exact (h1.spec hg).2.2.1 0 q i hg.pos hl
      · obtain ⟨r, hr⟩ := hk [] op ops rfl hd
        simp only [List.nil_append, Heap.run] at hr
        cases hw : (h.step isId okValue op).1.walk 0 q with
        | none =>
          exfalso; apply hr
          simp [Heap.val, Heap.walk_append, hw]
        | some j =>
          have := (h1.spec hg).2.2.1 0 q j hw
          rw [hl] at this
          exact this.symm
    · intro a op' b hops hd
      obtain ⟨r, hr⟩ := hk (op :: a) op' b (by rw [hops]; rfl) hd
      exact ⟨r, hr⟩

theorem Heap.get_str (isId : Str → Bool) (h : Heap V) (s : Str) :
    h.get isId (.str s) =
      if s = [sep] then .ok (h.node 0).value
      else if (splitChar sep s).all isId then .ok (h.val 0 (splitChar sep s)) else .error .keyError := by
  unfold Heap.get
  by_cases hs : s = [sep]
  · simp [hs]
  · rw [if_neg (fun e => hs (Key.str.inj e)), convKeys_str, if_neg hs, if_neg hs]
    by_cases hv : (splitChar sep s).all isId = true
    · rw [if_pos hv, if_pos hv]
      dsimp only
      unfold Heap.search
      rw [if_neg (splitChar_ne_nil _ _), if_neg (splitChar_ne_sep s), Heap.val]
      cases h.walk 0 (splitChar sep s) <;> rfl
    · rw [if_neg hv, if_neg hv]

theorem PNode.get_str (isId : Str → Bool) (h : Heap V) (t : PNode V) (s : Str) :
    t.get isId h (.str s) =
      if s = [sep] then .ok (t.val h [])
      else if (splitChar sep s).all isId then .ok (t.val h (splitChar sep s)) else .error .keyError := by
  unfold PNode.get
  by_cases hs : s = [sep]
  · simp [hs]
  · rw [if_neg (fun e => hs (Key.str.inj e)), convKeys_str, if_neg hs, if_neg hs]
    by_cases hv : (splitChar sep s).all isId = true
    · rw [if_pos hv, if_pos hv]
    · rw [if_neg hv, if_neg hv]

/-- A key below a valid path is not the root key. -/
theorem under_ne_sep {isId : Str → Bool} (hId : isId [] = false) {p key : Str}
    (hv : (splitChar sep p).all isId = true) (hp : p ≠ [sep]) (hu : Under p key) : key ≠ [sep] := by
  rintro rfl
  rcases hu with h1 | ⟨rest, h1⟩
  · exact hp h1.symm
  · cases p with
    | nil => simp [splitChar, hId] at hv
    | cons a b => simp at h1

end Polog
