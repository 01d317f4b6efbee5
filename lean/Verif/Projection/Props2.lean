import Verif.Projection.Lemmas5
import Verif.Projection.Props

/-! C05, continued: what exactly is lost, and the global namespace as a map. -/

namespace Polog
open ProjSpec

variable {V : Type}

/-- A branch that a deletion leaves empty is lost for good: when a handler is deleted and then nothing
is registered at or below the selected top-level name, no handler at or below it is visible in the local
namespace any more, whatever is registered there later. -/
theorem C05_emptied_branch_lost (isId : Str → Bool) (hId : isId [] = false) (okValue : V → Bool)
    (before after later : List (HOp V)) (paths : List Key) (handlers : List V) (names : List Str)
    (hnames : ∀ n ∈ names, '.' ∉ n) (h : Heap V) (t : PNode V)
    (hscope : (Heap.init.run isId okValue before).localScope isId paths handlers names
      = some (h, .ok t))
    (p : Str) (hp : Key.str p ∈ paths) (htop : '.' ∉ p) (k : Str) (hk : k ≠ ['.'])
    (hdel : ((h.run isId okValue after).step isId okValue (.del (.str k))).2 = none)
    (hempty : ∀ key v, Under p key →
      (h.run isId okValue (after ++ [.del (.str k)])).get isId (.str key) ≠ .ok (some v))
    (key : Str) (hu : Under p key) (v : V) :
    t.get isId (h.run isId okValue (after ++ .del (.str k) :: later)) (.str key) ≠ .ok (some v) := by
  have hg := Heap.run_good isId okValue before Heap.Good_init
  have hvk := Heap.ValidKeys_run isId okValue before Heap.Good_init (Heap.ValidKeys_init isId)
  obtain ⟨hG, S, L, hv, _, _, _, _, hS, hpaths⟩ := Heap.localScope_spec isId hg hnames hscope
  have hg' := (hG.spec hg).1
  obtain ⟨s, hs1, hs2, hs3⟩ := hpaths _ hp
  cases hs1
  have hsp : splitChar sep p = [p] := splitChar_of_not_mem sep p htop
  obtain ⟨q, i, rest, hq, hqk, hw, hkey⟩ :=
    hv.get_under hId (g := h.run isId okValue (after ++ .del (.str k) :: later))
      ((hS _).2 ⟨p, hp, rfl⟩) hs3 hs2
  have hqp : q = [p] ∧ rest = [] := by
    obtain ⟨s', _, rfl⟩ := (hS q).1 hq
    cases hsp' : splitChar sep s' with
    | nil => exact absurd hsp' (splitChar_ne_nil _ _)
    | cons a b =>
      rw [hsp', hsp] at hqk
      simp only [List.cons_append, List.cons.injEq, List.nil_eq, List.append_eq_nil_iff] at hqk
      obtain ⟨rfl, rfl, rfl⟩ := hqk
      exact ⟨rfl, rfl⟩
  obtain ⟨rfl, rfl⟩ := hqp
  -- the state before and after the deletion
  generalize hgd : h.run isId okValue after = g at hdel
  have hgg : g.Good := by rw [← hgd]; exact Heap.run_good isId okValue after hg'
  have hlive := Heap.run_live isId okValue after hg' hw
  rw [hgd] at hlive
  have hg1 : (g.step isId okValue (.del (.str k))).1.Good := Heap.step_good isId okValue hgg _
  have hval1 : (g.step isId okValue (.del (.str k))).1.ValidKeys isId := by
    refine Heap.ValidKeys_step isId okValue hgg ?_ _
    rw [← hgd]
    refine Heap.ValidKeys_run isId okValue after hg' ?_
    -- making the local scope does not change what is registered
    intro q' hq'
    have hT : Touch (Heap.init.run isId okValue before) h := by
      unfold Heap.localScope at hscope
      have := Heap.select_touch isId hg paths
      cases hsel : (Heap.init.run isId okValue before).select isId paths with
      | mk h1 r =>
        rw [hsel] at this hscope
        cases r with
        | error e => simp at hscope
        | ok t1 =>
          obtain ⟨⟨S1, hi1, hS1⟩, _⟩ :=
            (Heap.on_spec isId paths hg (ShowsPaths.fresh _) (by simp)).2 t1 (by
              show ((Heap.init.run isId okValue before).select isId paths).2 = _
              rw [hsel])
          have heq1 : ((Heap.init.run isId okValue before).on isId (.own none []) paths).1 = h1 := by
            show ((Heap.init.run isId okValue before).select isId paths).1 = _
            rw [hsel]
          rw [heq1] at hi1
          have := (addLocals_spec isId names hi1.lview Dict.WF_nil (by
            intro q hq
            rcases (hS1 q).1 hq with h0 | ⟨s, _, rfl⟩
            · cases h0
            · exact splitChar_ne_nil _ _) hnames (by simp [Dict.keys]) hscope).1
          rw [this]; assumption
    rw [hT.val hg] at hq'
    exact hvk q' hq'
  have hrun : h.run isId okValue (after ++ [.del (.str k)])
      = (g.step isId okValue (.del (.str k))).1 := by
    rw [Heap.run_append, hgd]; rfl
  rw [hrun] at hempty
  have hnone : (g.step isId okValue (.del (.str k))).1.walk 0 [p] = none := by
    have hd := (Heap.del_result isId g k).1 hdel
    have hks : k ≠ [sep] := hk
    have hpo : pathOf k = splitChar sep k := by simp [pathOf, hks]
    cases hwk : g.walk 0 (pathOf k) with
    | none => exact absurd (by simp [Heap.val, hwk]) hd.2
    | some j =>
      have hj0 : j ≠ 0 := by
        rintro rfl
        have := Heap.walk_unique hgg [] (n := 0) rfl hwk
        rw [hpo] at this
        exact splitChar_ne_nil _ _ this.symm
      have hjn := (Heap.walk_lt hgg _ hgg.pos hwk).1
      have hform : (g.step isId okValue (.del (.str k))).1
          = (g.put j { g.node j with value := none }).cut 0 g.next j := by
        simp only [Heap.step, Heap.del]
        cases hck : convKeys isId (.str k) with
        | error e =>
          exfalso
          simp only [Heap.step, Heap.del, hck] at hdel
          cases hdel
        | ok keys =>
          dsimp only
          rw [(Heap.search_path (h := g) hck).2, hwk]
          dsimp only
          rw [if_neg]
          intro hn
          apply hd.2
          simp only [Heap.val, hwk, Option.bind_some]
          simpa using hn
      have hreach : (g.put j { g.node j with value := none }).Reach j := by
        refine ⟨pathOf k, ?_⟩
        rw [Heap.walk_congr (Heap.childs_put_value g j none)]
        exact hwk
      obtain ⟨g0, hg0, heq0⟩ := Heap.cut_root g.next (Heap.Good_put_value hgg j none) hreach hjn hj0
      rw [hform, heq0]
      rw [hform, heq0] at hempty hval1
      cases hc : (g0.prune 0).walk 0 [p] with
      | none => rfl
      | some c =>
        exfalso
        rw [Heap.walk_single] at hc
        obtain ⟨hc1, hc2⟩ := (Heap.prune_get hg0 hg0.pos).1 hc
        have hcl := (hg0.edge 0 hg0.pos p c hc1).1
        obtain ⟨ks, hks'⟩ := (Heap.hasValue_iff hg0 g0.next hcl (by omega)).1 (hc2 rfl)
        have hvp : g0.val 0 (p :: ks) ≠ none := by
          simp only [Heap.val, Heap.walk, hc1] at hks' ⊢
          exact hks'
        rw [← Heap.val_prune hg0 hg0.pos] at hvp
        obtain ⟨s, hsv, hsq⟩ := hval1 _ hvp
        have hss : s ≠ [sep] := by rintro rfl; simp [pathOf] at hsq
        have hsplit : splitChar sep s = splitChar sep p ++ ks := by
          rw [hsp]; simpa [pathOf, hss] using hsq.symm
        cases hvv : (g0.prune 0).val 0 (p :: ks) with
        | none => exact hvp hvv
        | some v' =>
          apply hempty s v' ((under_iff p s).2 ⟨ks, hsplit⟩)
          rw [Heap.get_valid, if_pos hsv, ← hsq, hvv]
  have hdead : (g.step isId okValue (.del (.str k))).1.Dead i := by
    rcases hlive with h1 | h1
    · rcases Heap.step_live isId okValue hgg (.del (.str k)) h1 with h2 | h2
      · rw [hnone] at h2; cases h2
      · exact h2
    · exact Heap.step_dead isId okValue hgg _ h1
  have hfin := Heap.run_dead isId okValue later hg1 hdead
  obtain ⟨hne, r, hr, hval⟩ := hkey key hu
  have hrun2 : h.run isId okValue (after ++ .del (.str k) :: later)
      = (g.step isId okValue (.del (.str k))).1.run isId okValue later := by
    rw [Heap.run_append, hgd]; rfl
  rw [hrun2] at hval ⊢
  rw [PNode.get_str, if_neg hne, hval, hfin.2.2]
  split <;> simp

/-- Reading the global namespace by key after any history gives what a plain map with the same
registrations and deletions gives: making local namespaces never changes what is registered. -/
theorem C05_global_is_a_map (isId : Str → Bool) (okValue : V → Bool) (ops : List (HOp V)) (key : Str) :
    (Heap.init.run isId okValue ops).get isId (.str key) =
      if TreeSpec.validKey isId key = true then
        .ok ((TreeSpec.run isId okValue TreeSpec.empty (ops.flatMap HOp.toMap)).1 key)
      else .error .keyError := by
  have hmain : ∀ (ops : List (HOp V)) (h : Heap V) (m : TreeSpec.Map V), h.Good →
      (∀ s, TreeSpec.validKey isId s = true → h.val 0 (pathOf s) = m s) →
      ∀ s, TreeSpec.validKey isId s = true →
        (h.run isId okValue ops).val 0 (pathOf s)
          = (TreeSpec.run isId okValue m (ops.flatMap HOp.toMap)).1 s := by
    intro ops
    induction ops with
    | nil => intro h m _ hm s hs; exact hm s hs
    | cons op ops ih =>
      intro h m hg hm s hs
      have hg1 := Heap.step_good isId okValue hg op
      cases op with
      | select ps =>
        refine ih _ m hg1 ?_ s hs
        intro s' hs'
        have := (Heap.select_touch isId hg ps).val hg (pathOf s')
        simp only [Heap.step]
        cases hsel : h.select isId ps with
        | mk h' r =>
          rw [hsel] at this
          cases r <;> exact this.trans (hm s' hs')
      | set k v =>
        refine ih _ (TreeSpec.step isId okValue m (.set k v)).1 hg1 ?_ s hs
        intro s' hs'
        simp only [Heap.step]
        cases k with
        | other => exact hm s' hs'
        | str k =>
          cases v with
          | none => exact hm s' hs'
          | some v =>
            rw [Heap.set_val isId okValue hg]
            simp only [TreeSpec.step]
            by_cases ho : okValue v = true
            · by_cases hk : TreeSpec.validKey isId k = true
              · simp only [ho, hk, Bool.not_true, Bool.false_eq_true, ↓reduceIte, true_and,
                  TreeSpec.Map.put]
                by_cases e : s' = k
                · subst e; simp
                · rw [if_neg (fun e' => e (pathOf_inj e')), if_neg e]; exact hm s' hs'
              · simp only [ho, hk, Bool.not_true, Bool.false_eq_true, ↓reduceIte, false_and, and_false,
                  Bool.not_eq_true] at *
                simp only [hk, Bool.not_false, ↓reduceIte]
                exact hm s' hs'
            · simp only [ho, Bool.false_eq_true, ↓reduceIte, false_and]
              simp only [Bool.not_eq_true] at ho
              simp only [ho, Bool.not_false, ↓reduceIte]
              exact hm s' hs'
      | del k =>
        refine ih _ (TreeSpec.step isId okValue m (.del k)).1 hg1 ?_ s hs
        intro s' hs'
        simp only [Heap.step]
        cases k with
        | other => exact hm s' hs'
        | str k =>
          rw [Heap.del_val isId hg]
          simp only [TreeSpec.step]
          by_cases hk : TreeSpec.validKey isId k = true
          · simp only [hk, Bool.not_true, Bool.false_eq_true, ↓reduceIte, true_and]
            cases hmk : m k with
            | none =>
              dsimp only
              by_cases e : s' = k
              · subst e; simp [hmk]
              · rw [if_neg (fun e' => e (pathOf_inj e'))]; exact hm s' hs'
            | some v0 =>
              simp only [TreeSpec.Map.put]
              by_cases e : s' = k
              · subst e; simp
              · rw [if_neg (fun e' => e (pathOf_inj e')), if_neg e]; exact hm s' hs'
          · simp only [Bool.not_eq_true] at hk
            simp only [hk, Bool.not_false, ↓reduceIte, Bool.false_eq_true, false_and]
            exact hm s' hs'
  rw [Heap.get_valid]
  by_cases hv : TreeSpec.validKey isId key = true
  · rw [if_pos hv, if_pos hv]
    congr 1
    refine hmain ops Heap.init TreeSpec.empty Heap.Good_init ?_ key hv
    intro s _
    show _ = none
    cases hp : pathOf s <;> rfl
  · rw [if_neg hv, if_neg hv]

/-! ### Witnesses -/

/-- A key checker for the witnesses: every non-empty name is accepted. -/
def wId (s : Str) : Bool := s != [] && s.all (· != '.')

/-- **C05** is false as stated: select `a` for a local namespace, delete the handler `a` and register
it again.  The global namespace has the handler, the local one does not. -/
theorem C05_selected_branch_fails :
    ∃ (before after : List (HOp Nat)) (h : Heap Nat) (t : PNode Nat),
      (Heap.init.run wId (fun _ => true) before).localScope wId [.str ['a']] [] []
        = some (h, .ok t) ∧
      (h.run wId (fun _ => true) after).get wId (.str ['a']) = .ok (some 2) ∧
      t.get wId (h.run wId (fun _ => true) after) (.str ['a']) = .ok none := by
  refine ⟨[.set (.str ['a']) (some 1)], [.del (.str ['a']), .set (.str ['a']) (some 2)], _, _, rfl, ?_, ?_⟩
  · decide +kernel
  · decide +kernel

/-- The same for a path that is selected before anything is registered there (the order of imports
decides): deleting any other handler breaks the link. -/
theorem C05_selected_early_fails :
    ∃ (after : List (HOp Nat)) (h : Heap Nat) (t : PNode Nat),
      (Heap.init.run wId (fun _ => true) [.set (.str ['a']) (some 1)]).localScope wId
        [.str ['b']] [] [] = some (h, .ok t) ∧
      (h.run wId (fun _ => true) after).get wId (.str ['b']) = .ok (some 2) ∧
      t.get wId (h.run wId (fun _ => true) after) (.str ['b']) = .ok none := by
  refine ⟨[.del (.str ['a']), .set (.str ['b']) (some 2)], _, _, rfl, ?_, ?_⟩
  · decide +kernel
  · decide +kernel

/-- A case of `C05_selected_branch_partial`, `C05_live_or_lost` and `C05_nothing_else_visible`: two
selected paths, one below the other, a handler object, and later registrations and a deletion. -/
example :
    ∃ (h : Heap Nat) (t : PNode Nat),
      (Heap.init.run wId (fun _ => true)
        [.set (.str ['a']) (some 1), .set (.str ['c']) (some 3)]).localScope wId
          [.str ['a', '.', 'b'], .str ['a']] [7] [['a'], ['x']] = some (h, .ok t) ∧
      (let after : List (HOp Nat) := [.set (.str ['a', '.', 'b']) (some 5), .del (.str ['a']),
          .set (.str ['a', '.', 'z']) (some 6)]
       (h.run wId (fun _ => true) after).get wId (.str ['a', '.', 'b']) = .ok (some 5) ∧
       t.get wId (h.run wId (fun _ => true) after) (.str ['a', '.', 'b']) = .ok (some 5) ∧
       t.get wId (h.run wId (fun _ => true) after) (.str ['a', '.', 'z']) = .ok (some 6) ∧
       t.get wId (h.run wId (fun _ => true) after) (.str ['a']) = .ok none ∧
       t.get wId (h.run wId (fun _ => true) after) (.str ['c']) = .ok none ∧
       t.get wId (h.run wId (fun _ => true) after) (.str ['x']) = .ok (some 7)) := by
  refine ⟨_, _, rfl, ?_⟩
  dsimp only
  refine ⟨?_, ?_, ?_, ?_, ?_, ?_⟩ <;> decide +kernel

/-- The hypothesis `hkept` of `C05_selected_branch_partial` holds in that case. -/
example :
    ∃ (h : Heap Nat) (t : PNode Nat),
      (Heap.init.run wId (fun _ => true) [.set (.str ['a', '.', 'b']) (some 1),
        .set (.str ['c']) (some 3)]).localScope wId [.str ['a']] [] [] = some (h, .ok t) ∧
      ∀ p, Key.str p ∈ [Key.str ['a']] → ∀ a b k,
        [.set (.str ['a']) (some 5), .del (.str ['c'])] = a ++ HOp.del k :: b →
        ∃ key v, Under p key ∧
          (h.run wId (fun _ => true) (a ++ [.del k])).get wId (.str key) = .ok (some v) := by
  refine ⟨_, _, rfl, ?_⟩
  intro p hp a b k hab
  simp only [List.mem_singleton, Key.str.injEq] at hp
  subst hp
  cases a with
  | nil => simp at hab
  | cons x a =>
    simp only [List.cons_append, List.cons.injEq] at hab
    obtain ⟨rfl, hab⟩ := hab
    cases a with
    | nil =>
      simp only [List.nil_append, List.cons.injEq, HOp.del.injEq] at hab
      obtain ⟨rfl, _⟩ := hab
      exact ⟨['a'], 5, .inl rfl, by decide +kernel⟩
    | cons y a => simp at hab

end Polog
