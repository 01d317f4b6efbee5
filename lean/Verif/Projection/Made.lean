import Verif.Projection.Props2
import Verif.Ponies.Props
import Mathlib.Data.List.Perm.Subperm

/-! C05: the local namespace of a decorator is made; the search for unused names ends. -/

namespace Polog

variable {V : Type}

/-- Selecting valid paths gives a tree with its own root, with at most one child for each path. -/
theorem Heap.on_made (isId : Str → Bool) : ∀ (paths : List Key) (h : Heap V) (v : Option V) (f : List (Str × PNode V)),
    (∀ p ∈ paths, ∃ s, p = .str s ∧ s ≠ ['.'] ∧ TreeSpec.validKey isId s = true) →
    ∃ h' f', h.on isId (.own v f) paths = (h', .ok (.own v f')) ∧ f'.length ≤ f.length + paths.length := by
  intro paths
  induction paths with
  | nil => intro h v f _; exact ⟨h, f, rfl, by simp⟩
  | cons p ps ih =>
    intro h v f hp
    obtain ⟨s, rfl, hs, hv⟩ := hp p List.mem_cons_self
    have hne : Key.str s ≠ .str [sep] := by intro he; cases he; exact hs rfl
    have hk : convKeys isId (.str s) = .ok (splitChar sep s) := by
      rw [convKeys_str, if_neg (show ¬ s = [sep] from hs), if_pos]
      simpa [TreeSpec.validKey, hs, sep_eq] using hv
    have hput : ∀ (g : Heap V) (ks : List Str) (n : Nat), ∃ g' f', PNode.putNode g (.own v f) ks n = (g', .own v f') ∧
        f'.length ≤ f.length + 1 := by
      intro g ks n
      have hset : ∀ (k : Str) (x : PNode V), (Dict.set k x f).length ≤ f.length + 1 := by
        intro k x
        have := congrArg List.length (Dict.keys_set k x f)
        rw [apply_ite List.length] at this
        simp only [Dict.keys, List.length_map, List.length_append, List.length_singleton] at this
        rw [this]
        split <;> omega
      match ks with
      | [] => exact ⟨g, f, rfl, by omega⟩
      | [k] => exact ⟨_, _, rfl, hset _ _⟩
      | k :: k2 :: ks => exact ⟨_, _, rfl, hset _ _⟩
    obtain ⟨g', f', hg, hl⟩ := hput (h.searchOrCreate (splitChar sep s)).1 (splitChar sep s) (h.searchOrCreate (splitChar sep s)).2
    obtain ⟨h', f'', h1, h2⟩ := ih g' v f' (fun p hp' => hp p (List.mem_cons_of_mem _ hp'))
    refine ⟨h', f'', ?_, by simp only [List.length_cons]; omega⟩
    simp only [Heap.on, if_neg hne, hk, hg, h1]

/-- If enough of the names are not used in the local tree, all handlers get one. -/
theorem addLocals_made (isId : Str → Bool) : ∀ (names : List Str) (vs : List V) (h : Heap V) (v : Option V)
    (f : List (Str × PNode V)), names.Nodup → (∀ n ∈ names, '.' ∉ n ∧ isId n = true) →
    vs.length ≤ (names.filter fun n => n ∉ Dict.keys f).length →
    ∃ h' t, addLocals isId h (.own v f) names vs = some (h', .ok t) := by
  intro names
  induction names with
  | nil =>
    intro vs h v f _ _ hl
    obtain rfl : vs = [] := by simpa using hl
    exact ⟨_, _, rfl⟩
  | cons name names ih =>
    intro vs h v f hnd hok hl
    cases vs with
    | nil => exact ⟨_, _, rfl⟩
    | cons x vs =>
      obtain ⟨hdot, hid⟩ := hok name List.mem_cons_self
      have hne : name ≠ ['.'] := by rintro rfl; exact hdot (by simp)
      have hk : convKeys isId (.str name) = .ok [name] := by
        rw [convKeys_str, if_neg (show ¬ name = [sep] from hne), splitChar_of_not_mem sep name hdot, if_pos (by simp [hid])]
      obtain ⟨hnot, hnd'⟩ := List.nodup_cons.1 hnd
      have hok' : ∀ n ∈ names, '.' ∉ n ∧ isId n = true := fun n hn => hok n (List.mem_cons_of_mem _ hn)
      cases hg : Dict.get? name f with
      | some t0 =>
        have hmem : name ∈ Dict.keys f := (Dict.get?_isSome_iff name f).1 (by rw [hg]; rfl)
        have hh : (PNode.own v f).hasNode h [name] = true := by
          simp only [PNode.hasNode, hg]
          cases t0 <;> simp [PNode.hasNode, Heap.walk]
        rw [List.filter_cons, if_neg (by simpa using hmem)] at hl
        obtain ⟨h', t, ht⟩ := ih (x :: vs) h v f hnd' hok' hl
        exact ⟨h', t, by simp only [addLocals, hk, hh, if_true]; exact ht⟩
      | none =>
        have hmem : name ∉ Dict.keys f := (Dict.get?_eq_none_iff name f).1 hg
        have hh : (PNode.own v f).hasNode h [name] = false := by simp only [PNode.hasNode, hg]
        rw [List.filter_cons, if_pos (by simpa using hmem), List.length_cons, List.length_cons] at hl
        have hkeys : ∀ y : PNode V, Dict.keys (Dict.set name y f) = Dict.keys f ++ [name] := by
          intro y; rw [Dict.keys_set, if_neg hmem]
        have hfil : ∀ y : PNode V, (names.filter fun n => n ∉ Dict.keys (Dict.set name y f)) = names.filter fun n => n ∉ Dict.keys f := by
          intro y
          refine List.filter_congr fun n hn => ?_
          have : n ≠ name := fun he => hnot (he ▸ hn)
          simp [hkeys, this]
        obtain ⟨h', t, ht⟩ := ih vs (PNode.setVal h (.own v f) [name] x).1 v
          (Dict.set name (PNode.setVal h ((Dict.get? name f).getD (.own none [])) [] x).2 f) hnd' hok'
          (by rw [hfil]; omega)
        refine ⟨h', t, ?_⟩
        simp only [addLocals, hk, hh, Bool.false_eq_true, if_false]
        exact ht

/-- **C05**: `@log(handlers=[...])` with valid paths and any handler objects always makes its namespace: the search for names
that are not used ends, after at most as many generated names as there are paths and handlers. -/
theorem C05_namespace_is_made (isId : Str → Bool) (okValue : V → Bool) (before : List (HOp V)) (paths : List Key)
    (handlers : List V) (names : List Str)
    (hpaths : ∀ p ∈ paths, ∃ s, p = .str s ∧ s ≠ ['.'] ∧ TreeSpec.validKey isId s = true)
    (hnd : names.Nodup) (hok : ∀ n ∈ names, '.' ∉ n ∧ isId n = true)
    (hlen : paths.length + handlers.length ≤ names.length) :
    ∃ h t, (Heap.init.run isId okValue before).localScope isId paths handlers names = some (h, .ok t) := by
  obtain ⟨h', f, h1, h2⟩ := Heap.on_made isId paths (Heap.init.run isId okValue before) none [] hpaths
  have hlen' : (names.filter fun n => n ∈ Dict.keys f).length ≤ f.length := by
    have hs : (names.filter fun n => n ∈ Dict.keys f).Subperm (Dict.keys f) :=
      List.subperm_of_subset (hnd.filter _) (fun n hn => by simpa using (List.mem_filter.1 hn).2)
    simpa [Dict.keys] using hs.length_le
  have hsum : (names.filter fun n => n ∈ Dict.keys f).length + (names.filter fun n => n ∉ Dict.keys f).length = names.length := by
    have := List.length_eq_length_filter_add (l := names) (fun n => decide (n ∈ Dict.keys f))
    simp only [← decide_not] at this
    omega
  obtain ⟨h'', t, h3⟩ := addLocals_made isId names handlers h' none f hnd hok (by simp at h2; omega)
  exact ⟨h'', t, by simp only [Heap.localScope, Heap.select, h1, h3]⟩

/-- **C05**: in particular with the names of the generator, in whatever order it shuffles them, up to its limit. -/
theorem C05_namespace_is_made_with_generated_names (isId : Str → Bool) (okValue : V → Bool) (before : List (HOp V))
    (paths : List Key) (handlers : List V) (shuffled : Nat → List Str) (hs : Shuffle shuffled)
    (hid : ∀ c rest, c.isAlpha = true → (∀ d ∈ rest, d.isAlpha = true ∨ d = '_') → isId (c :: rest) = true)
    (hpaths : ∀ p ∈ paths, ∃ s, p = .str s ∧ s ≠ ['.'] ∧ TreeSpec.validKey isId s = true)
    (hlen : paths.length + handlers.length ≤ 4999 * 74) :
    ∃ names : List Str, names.length = paths.length + handlers.length ∧
      (∀ i (hi : i < names.length), ponyHandlerName shuffled i = .ok names[i]) ∧
      ∃ h t, (Heap.init.run isId okValue before).localScope isId paths handlers names = some (h, .ok t) := by
  have hname : ∀ k, k < 4999 * 74 → ∃ s, ponyHandlerName shuffled k = .ok s ∧ isId s = true ∧ '.' ∉ s := by
    intro k hk
    obtain ⟨c, rest, h1, h2, h3⟩ := C46_generated_names_are_identifiers_partial shuffled hs k hk
    refine ⟨_, h1, hid c rest h2 h3, ?_⟩
    intro hd
    rcases List.mem_cons.1 hd with rfl | hd
    · revert h2; decide
    · rcases h3 _ hd with h | h
      · revert h; decide
      · revert h; decide
  let nm : Nat → Str := fun k => match ponyHandlerName shuffled k with | .ok s => s | .error _ => []
  have hnm : ∀ k, k < 4999 * 74 → ponyHandlerName shuffled k = .ok (nm k) ∧ isId (nm k) = true ∧ '.' ∉ nm k := by
    intro k hk
    obtain ⟨s, h1, h2, h3⟩ := hname k hk
    have : nm k = s := by simp only [nm, h1]
    rw [this]; exact ⟨h1, h2, h3⟩
  refine ⟨(List.range (paths.length + handlers.length)).map nm, by simp, ?_, ?_⟩
  · intro i hi
    simp only [List.length_map, List.length_range] at hi
    simpa using (hnm i (by omega)).1
  · refine C05_namespace_is_made isId okValue before paths handlers _ hpaths ?_ ?_ (by simp)
    · refine List.Nodup.map_on ?_ List.nodup_range
      intro i hi j hj he
      by_contra hij
      rw [List.mem_range] at hi hj
      obtain ⟨a, b, h1, h2, h3⟩ := C46_generated_names_are_distinct_partial shuffled hs i j (by omega) (by omega) hij
      refine h3 ?_
      have e1 : nm i = a := by simp only [nm, h1]
      have e2 : nm j = b := by simp only [nm, h2]
      rw [← e1, ← e2, he]
    · intro n hn
      obtain ⟨k, hk, rfl⟩ := List.mem_map.1 hn
      rw [List.mem_range] at hk
      obtain ⟨_, h2, h3⟩ := hnm k (by omega)
      exact ⟨h3, h2⟩

/-- Two paths, two handlers, and a generator whose first name is the name of a path. -/
example : ∃ h t, (Heap.init.run wId (fun _ : Nat => true) [.set (.str ['a']) (some 1)]).localScope wId
    [.str ['a'], .str ['b', '.', 'c']] [7, 8] [['a'], ['x'], ['y'], ['z']] = some (h, .ok t) :=
  C05_namespace_is_made wId _ _ _ _ _ (by
    intro p hp
    simp only [List.mem_cons, List.not_mem_nil, or_false] at hp
    rcases hp with rfl | rfl
    · exact ⟨_, rfl, by decide, by decide⟩
    · exact ⟨_, rfl, by decide, by decide⟩) (by decide) (by decide) (by decide)

end Polog
