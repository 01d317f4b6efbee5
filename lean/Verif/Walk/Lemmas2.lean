import Verif.Walk.Lemmas

/-! A handler that stays registered is reached by the walk. -/

namespace Polog

open WalkSpec Relation

variable {V : Type}

/-- The walk will still come to the end of the path `p ++ r` through the node `m` of the path `p`. -/
def WState.Coming (h : Heap V) (w : WState) (m : Nat) (r : List Str) : Prop :=
  m ∈ w.pend ∨ (w.fresh = some m ∧ r ≠ []) ∨
    ∃ used pos rest next k r' idx c, w = .copy m used pos rest next ∧ r = k :: r' ∧ pos ≤ idx ∧
      (h.node m).childs[idx]? = some (k, c)

/-- The walk has yielded the node `n` of the path `q`, or is still on the way to it. -/
def OnWay (s : WSys V) (q : List Str) (n : Nat) : Prop :=
  n ∈ s.seen ∨ ∃ p r m, q = p ++ r ∧ s.heap.walk 0 p = some m ∧ s.w.Coming s.heap m r

theorem OnWay.step {s s' : WSys V} {q : List Str} {n : Nat} {v : V} (hi : WalkCInv s) (hs : CalmStep s s')
    (hq : s.heap.walk 0 q = some n) (hv' : At s'.heap q v) (ho : OnWay s q n) : OnWay s' q n := by
  rcases ho with ho | ⟨p, r, m, hpr, hpm, hco⟩
  · left
    cases hs with
    | env he hc => exact ho
    | walk hw => cases hw <;> simp_all
  cases hs with
  | env he hc =>
    right
    refine ⟨p, r, m, hpr, ?_, ?_⟩
    · have hw' := he.walk_kept hi.base.good hq hv'
      rw [hpr, Heap.walk_append] at hw'
      cases hm : (Heap.walk _ 0 p) with
      | none => rw [hm] at hw'; cases hw'
      | some m' => rw [he.walk_same hi.base.good hpm hm]
    · rcases hco with h1 | h1 | ⟨used, pos, rest, next, k, r', idx, c, hw, h1⟩
      · exact .inl h1
      · exact .inr (.inl h1)
      · refine .inr (.inr ⟨used, pos, rest, next, k, r', idx, c, hw, h1.1, h1.2.1, ?_⟩)
        have := hc m (by rw [hw]; rfl)
        simp only
        rw [this]
        exact h1.2.2
  | walk hw =>
    cases hw with
    | start =>
      right; refine ⟨p, r, m, hpr, hpm, ?_⟩
      rcases hco with h1 | h1 | ⟨used, pos, rest, next, k, r', idx, c, hw, _⟩
      · exact .inl (by simpa [WState.pend] using h1)
      · simp [WState.fresh] at h1
      · cases hw
    | @node h i rest next c sn =>
      rcases hco with h1 | h1 | ⟨used, pos, rest, next, k, r', idx, c, hw, _⟩
      · simp only [WState.pend, List.cons_append, List.mem_cons] at h1
        by_cases hmi : m = i
        · subst hmi
          by_cases hr : r = []
          · left
            subst hr
            rw [List.append_nil] at hpr
            subst hpr
            simp only at hq hpm
            rw [hpm] at hq
            simp [(Option.some.inj hq).symm]
          · right; exact ⟨p, r, m, hpr, hpm, .inr (.inl ⟨rfl, hr⟩)⟩
        · right
          refine ⟨p, r, m, hpr, hpm, .inl ?_⟩
          rcases h1 with h1 | h1
          · exact absurd h1 hmi
          · exact h1
      · simp [WState.fresh] at h1
      · cases hw
    | skip hv =>
      right; refine ⟨p, r, m, hpr, hpm, ?_⟩
      rcases hco with h1 | h1 | ⟨used, pos, rest, next, k, r', idx, c, hw, _⟩
      · exact .inl (by simpa [WState.pend] using h1)
      · exact .inr (.inl (by simpa [WState.fresh] using h1))
      · cases hw
    | full hv =>
      right; refine ⟨p, r, m, hpr, hpm, ?_⟩
      rcases hco with h1 | h1 | ⟨used, pos, rest, next, k, r', idx, c, hw, _⟩
      · exact .inl (by simpa [WState.pend] using h1)
      · exact .inr (.inl (by simpa [WState.fresh] using h1))
      · cases hw
    | call =>
      right; refine ⟨p, r, m, hpr, hpm, ?_⟩
      rcases hco with h1 | h1 | ⟨used, pos, rest, next, k, r', idx, c, hw, _⟩
      · exact .inl (by simpa [WState.pend] using h1)
      · exact .inr (.inl (by simpa [WState.fresh] using h1))
      · cases hw
    | @iter h i rest next c sn =>
      right; refine ⟨p, r, m, hpr, hpm, ?_⟩
      rcases hco with h1 | ⟨h1, hr⟩ | ⟨used, pos, rest, next, k, r', idx, c, hw, _⟩
      · exact .inl (by simpa [WState.pend] using h1)
      · simp only [WState.fresh, Option.some.injEq] at h1
        subst h1
        cases r with
        | nil => exact absurd rfl hr
        | cons k r' =>
          simp only at hq hpm
          have hin := (Heap.walk_lt hi.base.good p hi.base.good.pos hpm).1
          rw [hpr, Heap.walk_append, hpm] at hq
          simp only [Option.bind_some, Heap.walk] at hq
          cases hg : Dict.get? k (h.node i).childs with
          | none => rw [hg] at hq; cases hq
          | some c' =>
            have hmem := (Dict.mem_iff_get? (hi.base.good.wf i hin) k c').2 hg
            obtain ⟨idx, hidx⟩ := List.mem_iff_getElem?.1 hmem
            exact .inr (.inr ⟨_, 0, _, _, k, r', idx, c', rfl, rfl, Nat.zero_le _, hidx⟩)
      · cases hw
    | @child h i used pos rest next c sn hu k0 j hj =>
      right
      rcases hco with h1 | h1 | ⟨used', pos', rest', next', k, r', idx, c', hw, hr, hle, hidx⟩
      · refine ⟨p, r, m, hpr, hpm, .inl ?_⟩
        simp [WState.pend] at h1 ⊢
        grind
      · simp [WState.fresh] at h1
      · simp only [WState.copy.injEq] at hw
        obtain ⟨rfl, rfl, rfl, rfl, rfl⟩ := hw
        simp only at hidx hpm
        by_cases he : idx = pos
        · subst he
          rw [hj] at hidx
          obtain ⟨rfl, rfl⟩ := Prod.mk.inj (Option.some.inj hidx)
          have hin := (Heap.walk_lt hi.base.good p hi.base.good.pos hpm).1
          refine ⟨p ++ [k0], r', j, by simp [hpr, hr], ?_, .inl (by simp [WState.pend])⟩
          simp only
          rw [Heap.walk_append, hpm]
          simp only [Option.bind_some, Heap.walk_single]
          exact (Dict.mem_iff_get? (hi.base.good.wf i hin) k0 j).1 (List.mem_of_getElem? hj)
        · exact ⟨p, r, i, hpr, hpm, .inr (.inr ⟨_, _, _, _, k, r', idx, c', rfl, hr, by omega, hidx⟩)⟩
    | @childsEnd h i used pos rest next c sn hu hj =>
      right
      rcases hco with h1 | h1 | ⟨used', pos', rest', next', k, r', idx, c', hw, hr, hle, hidx⟩
      · exact ⟨p, r, m, hpr, hpm, .inl (by simpa [WState.pend] using h1)⟩
      · simp [WState.fresh] at h1
      · simp only [WState.copy.injEq] at hw
        obtain ⟨rfl, rfl, rfl, rfl, rfl⟩ := hw
        simp only at hidx
        rw [List.getElem?_eq_none_iff] at hj
        have := (List.getElem?_eq_some_iff.1 hidx).1
        omega
    | changed hu =>
      obtain ⟨h1, _⟩ := hi.copy _ _ _ _ _ rfl
      exact absurd h1.symm hu
    | nextLayer =>
      right; refine ⟨p, r, m, hpr, hpm, ?_⟩
      rcases hco with h1 | h1 | ⟨used, pos, rest, next, k, r', idx, c, hw, _⟩
      · exact .inl (by simpa [WState.pend] using h1)
      · simp [WState.fresh] at h1
      · cases hw
    | stop =>
      right; refine ⟨p, r, m, hpr, hpm, ?_⟩
      rcases hco with h1 | h1 | ⟨used, pos, rest, next, k, r', idx, c, hw, _⟩
      · simp [WState.pend] at h1
      · simp [WState.fresh] at h1
      · cases hw

/-- The node was yielded but its handler was not called yet. -/
def WState.before : WState → Option Nat
  | .check i _ _ => some i
  | .give i _ _ => some i
  | _ => none

theorem before_cur {w : WState} {i : Nat} (h : w.before = some i) : w.cur = some i := by
  cases w <;> simp_all [WState.before, WState.cur]

/-- A handler that stays registered under one path is called exactly when its node was yielded. -/
theorem called_step {s s' : WSys V} {q : List Str} {n : Nat} {v : V} (hi : WalkCInv s) (hs : CalmStep s s')
    (hq : s.heap.walk 0 q = some n) (hv : At s.heap q v)
    (hc : (n ∈ s.seen ∧ s.w.before ≠ some n → v ∈ s.calls)) :
    (n ∈ s'.seen ∧ s'.w.before ≠ some n → v ∈ s'.calls) := by
  have hval : (s.heap.node n).value = some v := by
    obtain ⟨i, h1, h2⟩ := at_iff.1 hv
    rw [hq] at h1; cases h1; exact h2
  cases hs with
  | env he _ => exact hc
  | walk hw =>
    cases hw with
    | start => simpa [WState.before] using hc
    | node =>
      simp only [WState.before] at hc ⊢
      rintro ⟨h1, h2⟩
      simp at h1 h2 hc
      grind
    | @skip h i rest next c sn hnv =>
      simp only [WState.before] at hc ⊢
      rintro ⟨h1, _⟩
      refine hc ⟨h1, ?_⟩
      intro e
      have := Option.some.inj e
      subst this
      simp only at hval
      rw [hval] at hnv; cases hnv
    | full hnv => simpa [WState.before] using hc
    | @call h i rest next c sn =>
      simp only [WState.before] at hc ⊢
      rintro ⟨h1, _⟩
      by_cases e : i = n
      · subst e
        simp only at hval
        simp [hval]
      · exact List.mem_append.2 (.inl (hc ⟨h1, fun h => e (Option.some.inj h)⟩))
    | iter => simpa [WState.before] using hc
    | child hu hj => simpa [WState.before] using hc
    | childsEnd hu hj => simpa [WState.before] using hc
    | changed hu => simpa [WState.before] using hc
    | nextLayer => simpa [WState.before] using hc
    | stop => simpa [WState.before] using hc

theorem count_step [DecidableEq V] {s s' : WSys V} {q : List Str} {n : Nat} {v : V} (hi : WalkCInv s)
    (hs : CalmStep s s') (hq : s.heap.walk 0 q = some n) (hv : OnlyAt s.heap q v)
    (hc : s.calls.count v = if n ∈ s.seen ∧ s.w.before ≠ some n then 1 else 0) :
    s'.calls.count v = if n ∈ s'.seen ∧ s'.w.before ≠ some n then 1 else 0 := by
  have hval : (s.heap.node n).value = some v := by
    obtain ⟨i, h1, h2⟩ := at_iff.1 hv.1
    rw [hq] at h1; cases h1; exact h2
  cases hs with
  | env he _ => exact hc
  | walk hw =>
    cases hw with
    | start => simpa [WState.before] using hc
    | @node h i rest next c sn =>
      have hnd := hi.nodup
      simp only [WState.before, WState.pend] at hc hnd ⊢
      rw [hc]
      have hnot : i ∉ sn := by
        intro hmem
        rw [List.nodup_append] at hnd
        exact hnd.2.2 i hmem i (by simp) rfl
      by_cases e : i = n
      · subst e; simp [hnot]
      · have e' : ¬ n = i := fun h => e h.symm
        simp [e, e']
    | @skip h i rest next c sn hnv =>
      simp only [WState.before] at hc ⊢
      rw [hc]
      have : i ≠ n := by
        rintro rfl
        simp only at hval
        rw [hval] at hnv; cases hnv
      simp [this]
    | full hnv => simpa [WState.before] using hc
    | @call h i rest next c sn =>
      simp only [WState.before] at hc ⊢
      rw [List.count_append, hc]
      have hseen := hi.cur i rfl
      simp only at hseen
      by_cases e : i = n
      · subst e
        simp only at hval
        simp [hval, hseen]
      · have : List.count v (h.node i).value.toList = 0 := by
          rw [List.count_eq_zero]
          intro hmem
          simp at hmem
          obtain ⟨q', hq', hat⟩ := hi.base.give_at (i := i) (v := v) rfl hmem
          have := hv.2 q' hat
          subst this
          simp only at hq hq'
          rw [hq] at hq'
          exact e (Option.some.inj hq').symm
        simp [this, e]
    | iter => simpa [WState.before] using hc
    | child hu hj => simpa [WState.before] using hc
    | childsEnd hu hj => simpa [WState.before] using hc
    | changed hu => simpa [WState.before] using hc
    | nextLayer => simpa [WState.before] using hc
    | stop => simpa [WState.before] using hc

end Polog
