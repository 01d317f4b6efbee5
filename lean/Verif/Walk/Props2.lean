import Verif.Walk.Props

/-!
C59, continued: the walk ends when the changes end; a registration at the wrong moment makes handlers
miss the log.
-/

namespace Polog

open WalkSpec Relation

variable {V : Type}

theorem copy_runs {h : Heap V} {i : Nat} {rest : List Nat} {c : List V} {sn : List Nat} (d : Nat) :
    ∀ {pos : Nat} {next : List Nat}, (h.node i).childs.length = pos + d →
    ∃ next', ReflTransGen WalkStep ⟨h, .copy i (h.node i).childs.length pos rest next, c, sn⟩
      ⟨h, .layer rest next', c, sn⟩ := by
  induction d with
  | zero =>
    intro pos next hd
    exact ⟨next, .single (.childsEnd rfl (List.getElem?_eq_none_iff.2 (by omega)))⟩
  | succ d ih =>
    intro pos next hd
    have hlt : pos < (h.node i).childs.length := by omega
    obtain ⟨n', hn'⟩ := ih (pos := pos + 1) (next := next ++ [((h.node i).childs[pos]).2]) (by omega)
    exact ⟨n', .head (.child rfl (k := ((h.node i).childs[pos]).1) (List.getElem?_eq_getElem hlt)) hn'⟩

theorem after_runs (h : Heap V) (i : Nat) (rest next : List Nat) (c : List V) (sn : List Nat) :
    ∃ next', ReflTransGen WalkStep ⟨h, .after i rest next, c, sn⟩ ⟨h, .layer rest next', c, sn⟩ := by
  obtain ⟨n', hn'⟩ := copy_runs (h := h) (i := i) (rest := rest) (c := c) (sn := sn)
    (h.node i).childs.length (pos := 0) (next := next) (by omega)
  exact ⟨n', .head .iter hn'⟩

theorem give_runs (h : Heap V) (i : Nat) (rest next : List Nat) (c : List V) (sn : List Nat) :
    ∃ next' c', ReflTransGen WalkStep ⟨h, .give i rest next, c, sn⟩ ⟨h, .layer rest next', c', sn⟩ := by
  obtain ⟨n', hn'⟩ := after_runs h i rest next (c ++ (h.node i).value.toList) sn
  exact ⟨n', _, .head .call hn'⟩

theorem check_runs (h : Heap V) (i : Nat) (rest next : List Nat) (c : List V) (sn : List Nat) :
    ∃ next' c', ReflTransGen WalkStep ⟨h, .check i rest next, c, sn⟩ ⟨h, .layer rest next', c', sn⟩ := by
  cases hv : (h.node i).value with
  | none =>
    obtain ⟨n', hn'⟩ := after_runs h i rest next c sn
    exact ⟨n', c, .head (.skip hv) hn'⟩
  | some v =>
    obtain ⟨n', c', hn'⟩ := give_runs h i rest next c sn
    exact ⟨n', c', .head (.full (by rw [hv]; simp)) hn'⟩

theorem WalkCInv.walkRun {s s' : WSys V} (hi : WalkCInv s) (hr : ReflTransGen WalkStep s s') : WalkCInv s' := by
  induction hr with
  | refl => exact hi
  | tail _ hs ih => exact ih.step (.walk hs)

theorem WalkCInv.seen_le {s : WSys V} (hi : WalkCInv s) : s.seen.length ≤ s.heap.next := by
  have hnd : s.seen.Nodup := (List.nodup_append.1 hi.nodup).1
  have hsub : s.seen ⊆ List.range s.heap.next := by
    intro x hx
    exact List.mem_range.2 (hi.base.lt (.inl hx))
  simpa using (List.subperm_of_subset hnd hsub).length_le

theorem layer_runs (d : Nat) : ∀ {h : Heap V} {rest next : List Nat} {c : List V} {sn : List Nat},
    WalkCInv ⟨h, .layer rest next, c, sn⟩ → h.next ≤ sn.length + d →
    ∃ s' : WSys V, ReflTransGen WalkStep ⟨h, .layer rest next, c, sn⟩ s' ∧ s'.w = .done := by
  induction d with
  | zero =>
    intro h rest next c sn hi hd
    have key : ∀ {i rest next}, ¬ WalkCInv (⟨h, .layer (i :: rest) next, c, sn⟩ : WSys V) := by
      intro i rest next hi
      have := (hi.step (.walk .node)).seen_le
      simp at this; omega
    cases rest with
    | cons i rest => exact absurd hi key
    | nil =>
      cases next with
      | cons i next => exact absurd (hi.step (.walk .nextLayer)) key
      | nil => exact ⟨_, .single .stop, rfl⟩
  | succ d ih =>
    intro h rest next c sn hi hd
    have key : ∀ {i rest next}, WalkCInv (⟨h, .layer (i :: rest) next, c, sn⟩ : WSys V) →
        ∃ s' : WSys V, ReflTransGen WalkStep ⟨h, .layer (i :: rest) next, c, sn⟩ s' ∧ s'.w = .done := by
      intro i rest next hi
      obtain ⟨n', c', hr⟩ := check_runs h i rest next c (sn ++ [i])
      have hi' := (hi.step (.walk .node)).walkRun hr
      obtain ⟨s', h1, h2⟩ := ih hi' (by simp; omega)
      exact ⟨s', .head .node (hr.trans h1), h2⟩
    cases rest with
    | cons i rest => exact key hi
    | nil =>
      cases next with
      | cons i next =>
        obtain ⟨s', h1, h2⟩ := key (hi.step (.walk .nextLayer))
        exact ⟨s', .head .nextLayer h1, h2⟩
      | nil => exact ⟨_, .single .stop, rfl⟩

/-- C59.  Once the changes stop, the walk comes to its end by its own steps: no sequence of earlier
registrations and deletions makes it endless or stuck. -/
theorem C59_walk_ends_when_changes_stop (isId : Str → Bool) (okValue : V → Bool) (ops : List (HOp V))
    {s : WSys V} (hr : ReflTransGen CalmStep (WSys.begin (Heap.init.run isId okValue ops)) s) :
    ∃ s' : WSys V, ReflTransGen WalkStep s s' ∧ s'.w = .done := by
  have hi : WalkCInv s := by
    induction hr with
    | refl => exact WalkCInv.begin (Heap.run_good isId okValue ops (Heap.Good_init (V := V)))
    | tail _ hs ih => exact ih.step hs
  clear hr
  have fin : ∀ {h : Heap V} {rest next c sn}, ReflTransGen WalkStep s ⟨h, .layer rest next, c, sn⟩ →
      ∃ s' : WSys V, ReflTransGen WalkStep s s' ∧ s'.w = .done := by
    intro h rest next c sn hl
    obtain ⟨s', h1, h2⟩ := layer_runs h.next (hi.walkRun hl) (by omega)
    exact ⟨s', hl.trans h1, h2⟩
  obtain ⟨h, w, c, sn⟩ := s
  cases w with
  | start => exact fin (.single .start)
  | layer rest next => exact fin .refl
  | check i rest next => obtain ⟨_, _, hl⟩ := check_runs h i rest next c sn; exact fin hl
  | give i rest next => obtain ⟨_, _, hl⟩ := give_runs h i rest next c sn; exact fin hl
  | after i rest next => obtain ⟨_, hl⟩ := after_runs h i rest next c sn; exact fin hl
  | copy i used pos rest next =>
    have hu : used = (h.node i).childs.length := (hi.copy _ _ _ _ _ rfl).1
    subst hu
    rcases Nat.le_total pos (h.node i).childs.length with hle | hle
    · obtain ⟨d, hd⟩ := Nat.exists_eq_add_of_le hle
      obtain ⟨_, hl⟩ := copy_runs (h := h) (i := i) (rest := rest) (c := c) (sn := sn) d
        (pos := pos) (next := next) hd
      exact fin hl
    · exact fin (.single (.childsEnd rfl (List.getElem?_eq_none_iff.2 hle)))
  | done => exact ⟨_, .refl, rfl⟩
  | failed => exact absurd rfl hi.ok

/-! ### A change at the wrong moment -/

/-- Two handlers, `a` and `b`. -/
def twoHandlers : Heap Nat :=
  Heap.init.run (fun s => !s.isEmpty) (fun _ => true) [.set (.str ['a']) (some 1), .set (.str ['b']) (some 2)]

theorem twoHandlers_eq : (twoHandlers.node 0).childs = [(['a'], 1), (['b'], 2)] ∧
    (twoHandlers.node 0).value = none ∧ (twoHandlers.node 1).value = some 1 ∧
    (twoHandlers.node 2).value = some 2 := by decide +kernel

theorem at_b : At twoHandlers [['b']] 2 := at_iff.2 ⟨2, by decide +kernel, by decide +kernel⟩

theorem at_b_create : At (twoHandlers.createChild 0 ['c']).1 [['b']] 2 :=
  at_iff.2 ⟨2, by decide +kernel, by decide +kernel⟩

/-- C59 fails in general: while the children of the root are being read, another thread registers a third
handler; the walk raises, and the two handlers that were registered all the time do not get the log. -/
theorem C59_concurrent_registration_loses_handlers_fails :
    ¬ ∀ (isId : Str → Bool) (okValue : Nat → Bool) (ops : List (HOp Nat)) (q : List Str) (v : Nat)
      (s : WSys Nat), At (Heap.init.run isId okValue ops) q v →
      ReflTransGen (RaceKeeping q v) (WSys.begin (Heap.init.run isId okValue ops)) s →
      s.w = .done ∨ s.w = .failed → v ∈ s.calls := by
  intro hall
  have := hall (fun s => !s.isEmpty) (fun _ => true)
    [.set (.str ['a']) (some 1), .set (.str ['b']) (some 2)] [['b']] 2
    ⟨(twoHandlers.createChild 0 ['c']).1, .failed, [], [0]⟩ at_b ?_ (.inr rfl)
  · simp at this
  show ReflTransGen (RaceKeeping [['b']] 2) (WSys.begin twoHandlers) _
  obtain ⟨hc, hv, _, _⟩ := twoHandlers_eq
  have s1 : ReflTransGen (RaceKeeping [['b']] 2) (WSys.begin twoHandlers)
      ⟨twoHandlers, .copy 0 (twoHandlers.node 0).childs.length 0 [] [], [], [0]⟩ := by
    refine .tail (.tail (.tail (.tail .refl ⟨.walk .start, at_b⟩) ⟨.walk .node, at_b⟩)
      ⟨.walk (.skip hv), at_b⟩) ⟨.walk .iter, at_b⟩
  refine .tail (.tail s1 ⟨.env (.create [] 0 ['c'] rfl ?_), at_b_create⟩) ⟨.walk (.changed ?_), at_b_create⟩
  · decide +kernel
  · decide +kernel

/-- The same run, seen from the outside: the walk raises although all handlers are fine. -/
example : ∃ s : WSys Nat, ReflTransGen RaceStep (WSys.begin twoHandlers) s ∧ s.w = .failed ∧ s.calls = [] := by
  obtain ⟨hc, hv, _, _⟩ := twoHandlers_eq
  refine ⟨⟨(twoHandlers.createChild 0 ['c']).1, .failed, [], [0]⟩, ?_, rfl, rfl⟩
  refine .tail (.tail (.tail (.tail (.tail (.tail .refl (.walk .start)) (.walk .node)) (.walk (.skip hv)))
    (.walk .iter)) (.env (.create [] 0 ['c'] rfl ?_))) (.walk (.changed ?_))
  · decide +kernel
  · decide +kernel

/-- The hypotheses of the positive theorems: a calm run in which a third node is created between two
steps of the walk, and in which `b` stays registered. -/
theorem calm_walk_in_the_middle : ∃ s : WSys Nat, ReflTransGen (CalmKeeping [['b']] 2) (WSys.begin twoHandlers) s ∧
    s.w = .check 1 [2] [] ∧ s.heap.next = 4 := by
  obtain ⟨hc, hv, hv1, _⟩ := twoHandlers_eq
  refine ⟨⟨(twoHandlers.createChild 0 ['c']).1, .check 1 [2] [], [], [0, 1]⟩, ?_, rfl, by decide +kernel⟩
  refine .tail (.tail (.tail (.tail (.tail (.tail (.tail (.tail (.tail (.tail .refl ⟨.walk .start, at_b⟩)
    ⟨.walk .node, at_b⟩) ⟨.walk (.skip hv), at_b⟩) ⟨.walk .iter, at_b⟩)
    ⟨.walk (.child rfl (k := ['a']) (j := 1) (by rw [hc]; rfl)), at_b⟩)
    ⟨.walk (.child rfl (k := ['b']) (j := 2) (by rw [hc]; rfl)), at_b⟩)
    ⟨.walk (.childsEnd rfl (by rw [hc]; rfl)), at_b⟩) ⟨.walk .nextLayer, at_b⟩)
    ⟨.env (.create [] 0 ['c'] rfl ?_) (by simp [WState.expanding]), at_b_create⟩) ⟨.walk .node, at_b_create⟩
  decide +kernel

theorem WalkStep.heap_eq {s s' : WSys V} (h : WalkStep s s') : s'.heap = s.heap := by cases h <;> rfl

/-- That run goes on to the end of the walk and `b` gets the log (`C59_kept_handlers_are_called_partial`). -/
example : ∃ s : WSys Nat, ReflTransGen (CalmKeeping [['b']] 2) (WSys.begin twoHandlers) s ∧ s.w = .done ∧ s.heap.next = 4 ∧ 2 ∈ s.calls := by
  obtain ⟨s, hr, -, hn⟩ := calm_walk_in_the_middle
  obtain ⟨s', h1, h2⟩ := C59_walk_ends_when_changes_stop (fun s => !s.isEmpty) (fun _ => true)
    [.set (.str ['a']) (some 1), .set (.str ['b']) (some 2)] (s := s) (ReflTransGen.mono (fun _ _ h => h.1) _ _ hr)
  have hat : At s.heap [['b']] 2 := by
    rcases hr.cases_tail with h | ⟨_, _, h⟩
    · exact h ▸ at_b
    · exact h.2
  have key : s'.heap = s.heap ∧ ReflTransGen (CalmKeeping [['b']] 2) (WSys.begin twoHandlers) s' := by
    clear h2
    induction h1 with
    | refl => exact ⟨rfl, hr⟩
    | tail _ hs ih => exact ⟨hs.heap_eq.trans ih.1, ih.2.tail ⟨.walk hs, by rw [hs.heap_eq, ih.1]; exact hat⟩⟩
  exact ⟨s', key.2, h2, by rw [key.1]; exact hn, C59_kept_handlers_are_called_partial _ _ _ at_b key.2 h2⟩

end Polog
