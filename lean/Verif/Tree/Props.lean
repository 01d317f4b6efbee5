import Verif.Tree.Lemmas2

/-!
Property theorems about the handler namespace (`NamedTree`): C01, C02, C04.
-/

namespace Polog
open TreeSpec

variable {V : Type}

/-- **C01.** The namespace is a map: any history of assignments, deletions, reads and branch
selections gives, operation by operation, exactly the observations of a plain map from key strings
to handlers (values, exceptions and their classes). -/
theorem C01_namespace_is_a_map (isId : Str → Bool) (okValue : V → Bool) (ops : List (Op V)) :
    (Tree.run isId okValue Tree.empty ops).2 = (TreeSpec.run isId okValue TreeSpec.empty ops).2 := by
  have main : ∀ (ops : List (Op V)) (t : Tree V), t.WF → t.NamesOk isId →
      (Tree.run isId okValue t ops).2 = (TreeSpec.run isId okValue (t.absMap isId) ops).2 := by
    intro ops
    induction ops with
    | nil => intros; rfl
    | cons op ops ih =>
      intro t hw hn
      have h1 := Tree.step_inv (okValue := okValue) hw hn op
      simp only [Tree.run, TreeSpec.run, Tree.step_refines hw]
      rw [ih _ h1.1 h1.2]
  have he : (Tree.empty : Tree V).absMap isId = TreeSpec.empty := by
    funext s
    simp only [Tree.absMap, TreeSpec.empty]
    split
    · exact Tree.valAt_empty _
    · rfl
  rw [main ops Tree.empty trivial (Tree.NamesOk_empty isId), he]

/-- A concrete history: overlapping paths, a deletion that prunes, a rejected key. -/
example :
    (Tree.run (fun s => s ≠ [] && s.all Char.isAlpha) (fun n => n < 100) Tree.empty
      [.set (.str "a.b".toList) (some 1), .set (.str "a".toList) (some 2),
       .del (.str "a.b".toList), .get (.str "a".toList), .get (.str "a.b".toList),
       .set (.str "a b".toList) (some 3), .set (.str "c".toList) (some 200)]).2
    = [.done, .done, .done, .value 2, .raised .keyError, .raised .keyError, .raised .valueError] := by
  decide +kernel

/-- **C01, frame.** After any history, an operation on one key string never changes what another
key string gives. -/
theorem C01_other_keys_unaffected (isId : Str → Bool) (okValue : V → Bool) (t : Tree V)
    (ht : Tree.Reachable isId okValue t) (k k' : Str) (hk : k' ≠ k) (v : Option V) :
    (t.step isId okValue (.set (.str k) v)).1.getitem isId (.str k') = t.getitem isId (.str k') ∧
    (t.step isId okValue (.del (.str k))).1.getitem isId (.str k') = t.getitem isId (.str k') := by
  have hw := (Tree.reachable_inv ht).1
  have hp : pathOf k' ≠ pathOf k := fun h => hk (pathOf_inj h)
  constructor
  · cases v with
    | none => rfl
    | some v =>
      simp only [Tree.step, Tree.setitem_str]
      split <;> rename_i heq
      · rfl
      · split at heq
        · split at heq
          · cases heq
            simp [Tree.getitem_str, Tree.valAt_modifyAt_set, hp]
          · cases heq
        · cases heq
  · simp only [Tree.step, Tree.delitem_str]
    split <;> rename_i heq
    · rfl
    · split at heq
      · split at heq
        · cases heq
        · cases heq
          simp [Tree.getitem_str, Tree.valAt_delAt _ _ hw, hp]
      · cases heq

/-- **C01, last write.** A successful assignment is what is read back; a successful deletion makes
the key unknown. -/
theorem C01_read_back (isId : Str → Bool) (okValue : V → Bool) (t t' : Tree V)
    (ht : Tree.Reachable isId okValue t) (k : Key) :
    (∀ v, t.setitem isId okValue k v = .ok t' → ∃ x, v = some x ∧ t'.getitem isId k = .ok x) ∧
    (t.delitem isId k = .ok t' → t'.getitem isId k = .error .keyError) := by
  have hw := (Tree.reachable_inv ht).1
  cases k with
  | other =>
    constructor
    · intro v h; simp [Tree.setitem] at h
    · intro h; simp [Tree.delitem] at h
  | str k =>
    constructor
    · intro v h
      cases v with
      | none => simp [Tree.setitem] at h
      | some v =>
        rw [Tree.setitem_str] at h
        split at h
        · split at h
          · rename_i hv
            cases h
            exact ⟨v, rfl, by simp [Tree.getitem_str, hv, Tree.valAt_modifyAt_set]⟩
          · cases h
        · cases h
    · intro h
      rw [Tree.delitem_str] at h
      split at h
      · split at h
        · cases h
        · rename_i hv _
          cases h
          simp [Tree.getitem_str, hv, Tree.valAt_delAt _ _ hw]
      · cases h

/-- Non-vacuity: a reachable tree of depth 2 with two handlers. -/
example : ∃ t : Tree Nat, Tree.Reachable (fun s => s ≠ []) (fun _ => true) t ∧ t.len = 2 :=
  ⟨_, ⟨[.set (.str "a.b".toList) (some 1), .set (.str "a".toList) (some 2)], rfl⟩, by decide +kernel⟩

/-- **C02.** In every reachable namespace, iteration enumerates the registered keys: there is a list
of all registered key strings, without repetition and ordered by depth, such that iterating gives
exactly their handlers in that order, and `len` is their number.
(`isId [] = false` is the fact that `''.isidentifier()` is false.) -/
theorem C02_iteration_complete_and_exact (isId : Str → Bool) (okValue : V → Bool)
    (hId : isId [] = false) (t : Tree V) (ht : Tree.Reachable isId okValue t) :
    ∃ keys : List Str,
      keys.Nodup ∧
      (∀ k, k ∈ keys ↔ ∃ v, t.getitem isId (.str k) = .ok v) ∧
      keys.map (fun k => t.getitem isId (.str k)) = t.iter.map Except.ok ∧
      (keys.map depth).Pairwise (· ≤ ·) ∧
      t.len = keys.length := by
  obtain ⟨hw, hn⟩ := Tree.reachable_inv ht
  have hnames : ∀ p n, (p, n) ∈ t.nodesP → (∀ k ∈ p, sep ∉ k) ∧ (∀ k ∈ p, k ≠ []) := by
    intro p n hm
    have hwk := (Tree.mem_nodesP hw p n).1 hm
    have := hn p (by simp [hwk])
    refine ⟨fun k hk => (this k hk).1, ?_⟩
    rintro k hk rfl
    exact absurd (this [] hk).2 (by simp [hId])
  have hvalid : ∀ p n, (p, n) ∈ t.nodesP → validKey isId (keyOf p) = true := by
    intro p n hm
    have hwk := (Tree.mem_nodesP hw p n).1 hm
    have h1 := hn p (by simp [hwk])
    unfold validKey keyOf
    by_cases hp : p = []
    · simp [hp, sep]
    · simp only [hp, ↓reduceIte]
      have : splitChar '.' (joinChar sep p) = p :=
        splitChar_joinChar sep p hp (fun k hk => (h1 k hk).1)
      rw [this]
      have h2 : p.all isId = true := List.all_eq_true.2 fun k hk => (h1 k hk).2
      simp [h2]
  have hpk : ∀ p n, (p, n) ∈ t.nodesP → pathOf (keyOf p) = p := fun p n hm =>
    pathOf_keyOf (hnames p n hm).1 (hnames p n hm).2
  let occ := t.nodesP.filter fun x => x.2.value.isSome
  have hocc : ∀ x ∈ occ, x ∈ t.nodesP ∧ x.2.value.isSome = true := fun x hx =>
    List.mem_filter.1 hx
  have hget : ∀ x ∈ occ, t.getitem isId (.str (keyOf x.1)) =
      match x.2.value with | some v => .ok v | none => .error .keyError := by
    rintro ⟨p, n⟩ hx
    have hm := (hocc _ hx).1
    rw [Tree.getitem_str, hvalid p n hm, hpk p n hm]
    simp [Tree.valAt, (Tree.mem_nodesP hw p n).1 hm]
    rfl
  refine ⟨occ.map fun x => keyOf x.1, ?_, ?_, ?_, ?_, ?_⟩
  · have h1 : (occ.map Prod.fst).Nodup :=
      ((Tree.nodesP_nodup hw).sublist (List.Sublist.map _ List.filter_sublist))
    simp only [List.Nodup, List.pairwise_map] at h1 ⊢
    refine List.Pairwise.imp_of_mem ?_ h1
    intro a b ha hb hab he
    apply hab
    rw [← hpk a.1 a.2 (hocc a ha).1, ← hpk b.1 b.2 (hocc b hb).1, he]
  · intro k
    constructor
    · intro hk
      obtain ⟨x, hx, rfl⟩ := List.mem_map.1 hk
      rw [hget x hx]
      have := (hocc x hx).2
      cases hv : x.2.value with
      | none => simp [hv] at this
      | some v => exact ⟨v, rfl⟩
    · rintro ⟨v, hv⟩
      rw [Tree.getitem_str] at hv
      split at hv
      · unfold Tree.valAt at hv
        cases hwk : t.walk (pathOf k) with
        | none => simp [hwk] at hv
        | some n =>
          refine List.mem_map.2 ⟨(pathOf k, n), List.mem_filter.2 ⟨(Tree.mem_nodesP hw _ _).2 hwk, ?_⟩,
            keyOf_pathOf k⟩
          cases hnv : n.value with
          | none => simp [hwk, hnv] at hv
          | some w => rfl
      · cases hv
  · rw [Tree.iter_eq, List.map_map]
    have h1 : occ.map ((fun k => t.getitem isId (.str k)) ∘ fun x => keyOf x.1)
        = occ.map fun x => (match x.2.value with | some v => .ok v | none => .error .keyError) := by
      apply List.map_congr_left
      intro x hx
      exact hget x hx
    rw [h1]
    have : ∀ l : List (List Str × Tree V),
        (l.filter fun x => x.2.value.isSome).map
          (fun x => (match x.2.value with | some v => Except.ok v | none => .error PyErr.keyError))
        = (l.filterMap fun x => x.2.value).map Except.ok := by
      intro l
      induction l with
      | nil => rfl
      | cons x xs ih =>
        cases hv : x.2.value with
        | none => simp [hv, ih]
        | some v => simp [hv, ih]
    exact this _
  · have h1 : ((occ.map fun x => x.1.length)).Pairwise (· ≤ ·) :=
      (Tree.nodesP_sorted hw).sublist (List.Sublist.map _ List.filter_sublist)
    have h2 : (occ.map fun x => keyOf x.1).map depth = occ.map fun x => x.1.length := by
      rw [List.map_map]
      apply List.map_congr_left
      intro x hx
      simp only [Function.comp, depth_eq, hpk x.1 x.2 (hocc x hx).1]
    rw [h2]; exact h1
  · rw [List.length_map]
    unfold Tree.len
    rw [Tree.iter_eq]
    have : ∀ l : List (List Str × Tree V),
        (l.filterMap fun x => x.2.value).length = (l.filter fun x => x.2.value.isSome).length := by
      intro l
      induction l with
      | nil => rfl
      | cons x xs ih => cases hv : x.2.value <;> simp [hv, ih]
    exact this _

theorem Tree.run_noDead {isId : Str → Bool} {okValue : V → Bool} (ops : List (Op V))
    (hs : NoSelect ops) : ∀ {t : Tree V}, t.WF → t.NamesOk isId → t.NoDead →
    (Tree.run isId okValue t ops).1.NoDead := by
  induction ops with
  | nil => intro t _ _ h; exact h
  | cons op ops ih =>
    intro t hw hn hd
    have h1 := Tree.step_inv (okValue := okValue) hw hn op
    simp only [Tree.run]
    cases op with
    | select k => exact absurd hs (by simp [NoSelect])
    | get k =>
      refine ih (by simpa [NoSelect] using hs) h1.1 h1.2 ?_
      simp only [Tree.step]
      split <;> exact hd
    | set k v =>
      refine ih (by simpa [NoSelect] using hs) h1.1 h1.2 ?_
      cases k with
      | other => exact hd
      | str s =>
        cases v with
        | none => exact hd
        | some v =>
          simp only [Tree.step, Tree.setitem_str]
          split <;> rename_i heq
          · exact hd
          · split at heq
            · split at heq
              · cases heq; exact Tree.NoDead_set hd v _
              · cases heq
            · cases heq
    | del k =>
      refine ih (by simpa [NoSelect] using hs) h1.1 h1.2 ?_
      cases k with
      | other => exact hd
      | str s =>
        simp only [Tree.step, Tree.delitem_str]
        split <;> rename_i heq
        · exact hd
        · split at heq
          · split at heq
            · cases heq
            · cases heq; exact Tree.NoDead_del _ hw hd
          · cases heq

/-- **C04 (partial).** After any history of assignments, deletions and reads, `key in tree` is true
exactly when `key` is the root key or some registered key equals it or lies below it; so no dead
branch is kept.  Missing: histories in which branches were selected for a local namespace, for
which the statement is false (`C04_no_dead_branches_fails`). -/
theorem C04_no_dead_branches_partial (isId : Str → Bool) (okValue : V → Bool)
    (hId : isId [] = false) (ops : List (Op V)) (hs : NoSelect ops) (k : Str)
    (hk : validKey isId k = true) :
    let t := (Tree.run isId okValue Tree.empty ops).1
    t.contains isId (.str k) = .ok true ↔
      k = ['.'] ∨ ∃ k' v, t.getitem isId (.str k') = .ok v ∧ Covers k k' := by
  intro t
  have hr : Tree.Reachable isId okValue t := ⟨ops, rfl⟩
  obtain ⟨hw, hn⟩ := Tree.reachable_inv hr
  have hd : t.NoDead := Tree.run_noDead ops hs trivial (Tree.NamesOk_empty isId) Tree.NoDead_empty
  rw [Tree.contains_str, hk]
  simp only [↓reduceIte, Except.ok.injEq]
  constructor
  · intro hsome
    by_cases hroot : k = ['.']
    · exact .inl hroot
    right
    have hp : pathOf k = splitChar '.' k := by
      unfold pathOf; rw [if_neg (show ¬ k = [sep] from hroot)]; rfl
    have hpne : pathOf k ≠ [] := by rw [hp]; exact splitChar_ne_nil _ _
    obtain ⟨r, hr⟩ := hd (pathOf k) hpne hsome
    have hwk : ∃ n, t.walk (pathOf k ++ r) = some n ∧ n.value ≠ none := by
      unfold Tree.valAt at hr
      cases h : t.walk (pathOf k ++ r) with
      | none => simp [h] at hr
      | some n => exact ⟨n, rfl, by simpa [h] using hr⟩
    obtain ⟨n, hn1, hn2⟩ := hwk
    have hnm := hn _ (by simp [hn1] : (t.walk (pathOf k ++ r)).isSome = true)
    have hne : ∀ x ∈ pathOf k ++ r, x ≠ [] := by
      rintro x hx rfl
      have := (hnm [] hx).2
      rw [hId] at this; cases this
    have hpk := pathOf_keyOf (fun x hx => (hnm x hx).1) hne
    have hv : validKey isId (keyOf (pathOf k ++ r)) = true := by
      unfold validKey
      have : splitChar '.' (keyOf (pathOf k ++ r)) = pathOf k ++ r := by
        unfold keyOf
        rw [if_neg (by simp [hpne])]
        exact splitChar_joinChar sep _ (by simp [hpne]) (fun x hx => (hnm x hx).1)
      rw [this]
      have h2 : (pathOf k ++ r).all isId = true := List.all_eq_true.2 fun x hx => (hnm x hx).2
      rw [h2]; simp
    cases hnv : n.value with
    | none => exact absurd hnv hn2
    | some v =>
      refine ⟨keyOf (pathOf k ++ r), v, ?_, ?_⟩
      · rw [Tree.getitem_str, hv, hpk]
        simp [Tree.valAt, hn1, hnv]
      · by_cases hrn : r = []
        · left; subst hrn; simp [keyOf_pathOf]
        · right
          refine ⟨joinChar '.' r, ?_⟩
          unfold keyOf
          rw [if_neg (by simp [hpne]), joinChar_append sep hpne hrn]
          have : joinChar sep (pathOf k) = k := by rw [hp]; exact joinChar_splitChar _ _
          rw [this]; rfl
  · rintro (rfl | ⟨k', v, hg, hc⟩)
    · simp [pathOf, sep, Tree.walk]
    · rw [Tree.getitem_str] at hg
      split at hg
      · rename_i hv'
        have hsome : (t.walk (pathOf k')).isSome = true := by
          unfold Tree.valAt at hg
          cases h : t.walk (pathOf k') with
          | none => simp [h] at hg
          | some n => rfl
        rcases hc with rfl | ⟨rest, rfl⟩
        · exact hsome
        · by_cases hroot : k = ['.']
          · subst hroot; simp [pathOf, sep, Tree.walk]
          have hknil : k ≠ [] := by
            rintro rfl
            unfold validKey at hk
            simp [splitChar, hId] at hk
          have h1 : k ++ '.' :: rest ≠ [sep] := by
            intro he
            have := congrArg List.length he
            have h3 : 0 < k.length := List.length_pos_iff.2 hknil
            simp only [List.length_append, List.length_cons, List.length_nil] at this
            omega
          have h2 : pathOf (k ++ '.' :: rest) = pathOf k ++ splitChar '.' rest := by
            unfold pathOf
            rw [if_neg h1, if_neg (show ¬ k = [sep] from hroot)]
            exact splitChar_append' '.' k rest
          rw [h2, Tree.walk_append] at hsome
          cases h : t.walk (pathOf k) with
          | none => simp [h] at hsome
          | some n => rfl
      · cases hg

/-- Non-vacuity of C04: pruning really happened in this history. -/
example : NoSelect (V := Nat) [.set (.str "a.b.c".toList) (some 1), .set (.str "a.d".toList) (some 2),
      .del (.str "a.b.c".toList)] ∧
    (let t := (Tree.run (fun s => s ≠ []) (fun _ => true) Tree.empty
      [.set (.str "a.b.c".toList) (some 1), .set (.str "a.d".toList) (some 2),
       .del (.str "a.b.c".toList)]).1
     t.contains (fun s => s ≠ []) (.str "a.b".toList) = .ok false ∧
     t.contains (fun s => s ≠ []) (.str "a".toList) = .ok true) := by
  refine ⟨trivial, ?_⟩
  decide +kernel

/-- **C04 fails in general**: selecting a branch (`config.get_handlers('x')`) of an empty namespace
leaves an empty node, and `'x' in tree` is true although nothing is registered at all. -/
theorem C04_no_dead_branches_fails :
    ∃ ops : List (Op Nat),
      let t := (Tree.run (fun s => s ≠ []) (fun _ => true) Tree.empty ops).1
      t.contains (fun s => s ≠ []) (.str "x".toList) = .ok true ∧
      t.len = 0 ∧ (∀ k, t.getitem (fun s => s ≠ []) (.str k) = .error .keyError) := by
  refine ⟨[.select (.str "x".toList)], ?_⟩
  refine ⟨by decide +kernel, by decide +kernel, ?_⟩
  intro k
  have h : Tree.Reachable (V := Nat) (fun s => s ≠ []) (fun _ => true)
      (Tree.run (fun s => s ≠ []) (fun _ => true) Tree.empty [.select (.str "x".toList)]).1 :=
    ⟨_, rfl⟩
  have hl : (Tree.run (V := Nat) (fun s => s ≠ []) (fun _ => true) Tree.empty
      [.select (.str "x".toList)]).1.len = 0 := by decide +kernel
  have := (Tree.len_eq_zero_iff (Tree.reachable_inv h).1).1 hl (pathOf k)
  rw [Tree.getitem_str, this]
  split <;> rfl

end Polog
