import Mathlib.Data.List.Perm.Subperm
import Verif.Walk.Lemmas2

/-!
C59: handling a log while the handler namespace changes.  Runs that meet the hypotheses are at the end of `Walk/Props2.lean`.
-/

namespace Polog

open WalkSpec Relation

variable {V : Type}

theorem calm_run {q : List Str} {v : V} {h : Heap V} {s : WSys V} (hg : h.Good) (hv : At h q v)
    (hr : ReflTransGen (CalmKeeping q v) (WSys.begin h) s) :
    ∃ n, WalkCInv s ∧ s.heap.walk 0 q = some n ∧ At s.heap q v ∧ OnWay s q n ∧
      (n ∈ s.seen ∧ s.w.before ≠ some n → v ∈ s.calls) := by
  induction hr with
  | refl =>
    obtain ⟨n, hn, hval⟩ := at_iff.1 hv
    refine ⟨n, WalkCInv.begin hg, hn, hv, ?_, ?_⟩
    · exact .inr ⟨[], q, 0, rfl, rfl, .inl (by simp [WSys.begin, WState.pend])⟩
    · simp [WSys.begin]
  | @tail s s' _ hs ih =>
    obtain ⟨n, hi, hq, hv, ho, hc⟩ := ih
    have hq' : s'.heap.walk 0 q = some n := by
      obtain ⟨hs, hv'⟩ := hs
      cases hs with
      | walk hw => cases hw <;> exact hq
      | env he _ => exact he.walk_kept hi.base.good hq hv'
    exact ⟨n, hi.step hs.1, hq', hs.2, ho.step hi hs.1 hq hs.2, called_step hi hs.1 hq hv hc⟩

theorem OnWay.done {s : WSys V} {q : List Str} {n : Nat} (ho : OnWay s q n) (hd : s.w = .done) :
    n ∈ s.seen := by
  rcases ho with h1 | ⟨p, r, m, _, _, hco⟩
  · exact h1
  · rw [hd] at hco
    rcases hco with h1 | h1 | ⟨_, _, _, _, _, _, _, _, hw, _⟩
    · simp [WState.pend] at h1
    · simp [WState.fresh] at h1
    · cases hw

/-- C59.  Whatever is registered, deleted or selected while a log is being handled (by other threads
between any two steps of the walk, or by the handlers themselves): the handlers that stay registered are
all called.  *Partial*: a change of the children of a node exactly while they are being read is excluded,
see `C59_concurrent_registration_loses_handlers_fails`. -/
theorem C59_kept_handlers_are_called_partial (isId : Str → Bool) (okValue : V → Bool) (ops : List (HOp V))
    {q : List Str} {v : V} {s : WSys V}
    (hv : At (Heap.init.run isId okValue ops) q v)
    (hr : ReflTransGen (CalmKeeping q v) (WSys.begin (Heap.init.run isId okValue ops)) s)
    (hd : s.w = .done) : v ∈ s.calls := by
  obtain ⟨n, _, _, _, ho, hc⟩ := calm_run (Heap.run_good isId okValue ops Heap.Good_init) hv hr
  exact hc ⟨ho.done hd, by rw [hd]; simp [WState.before]⟩

/-- C59.  ... and exactly once, if they are not registered under a second path at the same time. -/
theorem C59_kept_handlers_are_called_once_partial [DecidableEq V] (isId : Str → Bool) (okValue : V → Bool)
    (ops : List (HOp V)) {q : List Str} {v : V} {s : WSys V}
    (hv : OnlyAt (Heap.init.run isId okValue ops) q v)
    (hr : ReflTransGen (fun s s' => CalmStep s s' ∧ OnlyAt s'.heap q v)
      (WSys.begin (Heap.init.run isId okValue ops)) s)
    (hd : s.w = .done) : s.calls.count v = 1 := by
  have hg := Heap.run_good isId okValue ops (Heap.Good_init (V := V))
  have key : ∃ n, WalkCInv s ∧ s.heap.walk 0 q = some n ∧ OnlyAt s.heap q v ∧ OnWay s q n ∧
      s.calls.count v = if n ∈ s.seen ∧ s.w.before ≠ some n then 1 else 0 := by
    clear hd
    induction hr with
    | refl =>
      obtain ⟨n, hn, hval⟩ := at_iff.1 hv.1
      refine ⟨n, WalkCInv.begin hg, hn, hv, ?_, ?_⟩
      · exact .inr ⟨[], q, 0, rfl, rfl, .inl (by simp [WSys.begin, WState.pend])⟩
      · simp [WSys.begin]
    | @tail s s' _ hs ih =>
      obtain ⟨n, hi, hq, hv, ho, hc⟩ := ih
      have hq' : s'.heap.walk 0 q = some n := by
        obtain ⟨hs, hv'⟩ := hs
        cases hs with
        | walk hw => cases hw <;> exact hq
        | env he _ => exact he.walk_kept hi.base.good hq hv'.1
      exact ⟨n, hi.step hs.1, hq', hs.2, ho.step hi hs.1 hq hs.2.1, count_step hi hs.1 hq hv hc⟩
  obtain ⟨n, _, _, _, ho, hc⟩ := key
  rw [hc, if_pos ⟨ho.done hd, by rw [hd]; simp [WState.before]⟩]

/-- C59.  In every interleaving, a handler gets the log only if it is registered under some path at the
moment of the call. -/
theorem C59_only_registered_handlers_are_called (isId : Str → Bool) (okValue : V → Bool)
    (ops : List (HOp V)) {s s' : WSys V} {v : V}
    (hr : ReflTransGen RaceStep (WSys.begin (Heap.init.run isId okValue ops)) s)
    (hs : RaceStep s s') (hc : s'.calls = s.calls ++ [v]) : ∃ q, At s.heap q v := by
  have hi := (WalkRInv.begin (Heap.run_good isId okValue ops (Heap.Good_init (V := V)))).run hr
  cases hs with
  | env he => simp at hc
  | walk hw =>
    cases hw with
    | @call h i rest next c sn =>
      simp only [List.append_cancel_left_eq] at hc
      have hval : (h.node i).value = some v := by
        cases hv : (h.node i).value with
        | none => rw [hv] at hc; cases hc
        | some w => rw [hv] at hc; simp at hc; rw [hc]
      obtain ⟨q, _, hat⟩ := hi.give_at (i := i) (v := v) rfl hval
      exact ⟨q, hat⟩
    | _ => simp at hc

/-- The calls made only grow, one call per step at most. -/
theorem calls_grow {s s' : WSys V} (hs : RaceStep s s') :
    s'.calls = s.calls ∨ ∃ v, s'.calls = s.calls ++ [v] := by
  cases hs with
  | env he => exact .inl rfl
  | walk hw =>
    cases hw with
    | @call h i rest next c sn =>
      cases hv : (h.node i).value with
      | none => left; simp
      | some v => exact .inr ⟨v, by simp⟩
    | _ => exact .inl rfl

/-- C59.  While the children of a node are not changed at the moment they are read, the walk never
raises, and no node is visited twice: the number of visited nodes never exceeds the number of nodes that
were created. -/
theorem C59_calm_walk_never_raises (isId : Str → Bool) (okValue : V → Bool) (ops : List (HOp V))
    {s : WSys V} (hr : ReflTransGen CalmStep (WSys.begin (Heap.init.run isId okValue ops)) s) :
    s.w ≠ .failed ∧ s.seen.Nodup ∧ s.seen.length ≤ s.heap.next := by
  have hi : WalkCInv s := by
    induction hr with
    | refl => exact WalkCInv.begin (Heap.run_good isId okValue ops (Heap.Good_init (V := V)))
    | tail _ hs ih => exact ih.step hs
  have hnd : s.seen.Nodup := (List.nodup_append.1 hi.nodup).1
  refine ⟨hi.ok, hnd, ?_⟩
  have hsub : s.seen ⊆ List.range s.heap.next := by
    intro x hx
    exact List.mem_range.2 (hi.base.lt (.inl hx))
  have := (List.subperm_of_subset hnd hsub).length_le
  simpa using this

/-- The changes made by the operations on the namespace are sequences of the steps above. -/
theorem C59_operations_are_changes (isId : Str → Bool) (okValue : V → Bool) (ops : List (HOp V))
    (op : HOp V) : ReflTransGen EnvStep (Heap.init.run isId okValue ops)
      ((Heap.init.run isId okValue ops).step isId okValue op).1 := by
  have hg := Heap.run_good isId okValue ops (Heap.Good_init (V := V))
  have hspec : Grow (Heap.init.run isId okValue ops) ((Heap.init.run isId okValue ops).step isId okValue op).1 ∨
      Shrink (Heap.init.run isId okValue ops) ((Heap.init.run isId okValue ops).step isId okValue op).1 := by
    rcases Heap.step_spec isId okValue hg op with ⟨_, h1⟩ | ⟨_, h1⟩
    · exact .inl h1
    · exact .inr h1
  revert hspec
  generalize ((Heap.init.run isId okValue ops).step isId okValue op).1 = h'
  intro hspec
  rcases hspec with h1 | h1
  · induction h1 with
    | refl => exact .refl
    | tail _ hs ih =>
      refine .tail ih ?_
      cases hs with
      | setVal i v hr => obtain ⟨p, hp⟩ := hr; exact .setVal p i v hp
      | ofC hc => obtain ⟨i, k, ⟨p, hp⟩, hn⟩ := hc; exact .create p i k hp hn
  · induction h1 with
    | refl => exact .refl
    | tail _ hs ih =>
      refine .tail ih ?_
      cases hs with
      | delVal i hi => exact .delVal i hi
      | prune i hi => exact .prune i hi

/-- `At` is what reading the namespace by the dotted name gives. -/
theorem At_iff_get (isId : Str → Bool) (h : Heap V) {s : Str} (hs : TreeSpec.validKey isId s = true) (v : V) :
    At h (pathOf s) v ↔ h.get isId (.str s) = .ok (some v) := by
  rw [Heap.get_valid, if_pos hs, At_iff_val]
  simp

end Polog
