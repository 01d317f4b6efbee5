import Verif.Ponies.Props
import Verif.Handlers.Props

/-! C46 seen through `config.add_handlers(h1, h2, ...)`. -/

namespace Polog
open TreeSpec

variable {V : Type}

/-- Top-level handlers in order of registration. -/
def flat : List (Str × V) → Forest V
  | [] => .nil
  | (n, v) :: l => .cons n (some v) .nil (flat l)

theorem flat_get (l : List (Str × V)) (k : Str) :
    ((flat l).get? k).isSome = decide (k ∈ l.map Prod.fst) := by
  induction l with
  | nil => rfl
  | cons x l ih =>
    obtain ⟨n, v⟩ := x
    unfold flat Forest.get?
    by_cases h : n = k
    · simp [h]
    · rw [if_neg h, ih]
      simp only [List.map_cons, List.mem_cons, decide_eq_decide]
      exact ⟨.inr, fun h' => h'.resolve_left fun e => h e.symm⟩

theorem flat_upsert (l : List (Str × V)) (k : Str) (v : V) (h : k ∉ l.map Prod.fst) :
    (flat l).upsert k (fun n => ⟨some v, n.childs⟩) = flat (l ++ [(k, v)]) := by
  induction l with
  | nil => rfl
  | cons x l ih =>
    obtain ⟨n, w⟩ := x
    simp only [List.map_cons, List.mem_cons, not_or] at h
    simp only [List.cons_append, flat, Forest.upsert]
    rw [if_neg (fun e => h.1 e.symm), ih h.2]

theorem flat_top (l : List (Str × V)) : topValues (flat l) = l.map fun x => some x.2 := by
  induction l with
  | nil => rfl
  | cons x l ih =>
    obtain ⟨n, w⟩ := x
    simp only [topValues, flat, Forest.trees, List.map_cons] at ih ⊢
    rw [ih]

theorem pathOf_plain {s : Str} (h : '.' ∉ s) (hne : s ≠ []) : pathOf s = [s] := by
  have := pathOf_keyOf (p := [s]) (by simpa [sep_eq] using h) (by simpa using hne)
  simpa [keyOf, joinChar] using this

/-- **C46** seen by the user: any number (up to the limit of the generator) of different handlers can be
registered without names, in one or several calls, and the i-th of them is found under the i-th
generated name. `isId` may be any test that accepts names made of ASCII letters and underscores. -/
theorem C46_unnamed_handlers_are_all_registered_partial [DecidableEq V] (env : RegEnv V) (shuffled : Nat → List Str)
    (hs : Shuffle shuffled) (hpony : env.pony = ponyHandlerName shuffled)
    (hid : ∀ c rest, c.isAlpha = true → (∀ d ∈ rest, d.isAlpha = true ∨ d = '_') →
      env.isId (c :: rest) = true)
    (hsl : List V) (hnd : hsl.Nodup) (hok : ∀ h ∈ hsl, env.isHandler h = true)
    (hlen : hsl.length ≤ 4999 * 74) :
    (Registry.init.addArgs env (hsl.map fun h => .obj (some h))).2 = none ∧
    ∀ i (hi : i < hsl.length), ∃ name, ponyHandlerName shuffled i = .ok name ∧
      (Registry.init.addArgs env (hsl.map fun h => .obj (some h))).1.lookup env name = some hsl[i] := by
  -- names
  have hname : ∀ k, k < 4999 * 74 → ∃ s, ponyHandlerName shuffled k = .ok s ∧ env.isId s = true ∧
      s ≠ [] ∧ '.' ∉ s := by
    intro k hk
    obtain ⟨c, rest, h1, h2, h3⟩ := C46_generated_names_are_identifiers_partial shuffled hs k hk
    refine ⟨_, h1, hid c rest h2 h3, by simp, ?_⟩
    intro hd
    rcases List.mem_cons.1 hd with rfl | hd
    · revert h2; decide
    · rcases h3 _ hd with h | h
      · revert h; decide
      · revert h; decide
  have main : ∀ (todo done : List V) (l : List (Str × V)) (r : Registry V),
      done ++ todo = hsl → l.map Prod.snd = done →
      (∀ i (hi : i < l.length), ponyHandlerName shuffled i = .ok (l[i]).1) →
      r.tree = ⟨none, flat l⟩ → r.ponies = l.length →
      ∃ l' : List (Str × V), (r.addArgs env (todo.map fun h => .obj (some h))).2 = none ∧
        (r.addArgs env (todo.map fun h => .obj (some h))).1.tree = ⟨none, flat l'⟩ ∧
        l'.map Prod.snd = hsl ∧
        (∀ i (hi : i < l'.length), ponyHandlerName shuffled i = .ok (l'[i]).1) := by
    intro todo
    induction todo with
    | nil =>
      intro done l r h1 h2 h3 h4 h5
      exact ⟨l, rfl, h4, by rw [h2, ← h1, List.append_nil], h3⟩
    | cons h todo ih =>
      intro done l r h1 h2 h3 h4 h5
      have hll : l.length < hsl.length := by
        rw [← h1, ← h2]; simp
      obtain ⟨name, hn, hnid, hnne, hndot⟩ := hname l.length (by omega)
      have hfresh : name ∉ l.map Prod.fst := by
        intro hm
        obtain ⟨x, hx, hx'⟩ := List.mem_map.1 hm
        obtain ⟨i, hi, rfl⟩ := List.getElem_of_mem hx
        obtain ⟨a, b, ha, hb, hab⟩ := C46_generated_names_are_distinct_partial shuffled hs i l.length
          (by omega) (by omega) (by omega)
        rw [h3 i hi] at ha; cases ha
        rw [hn] at hb; cases hb
        exact hab hx'
      have hpath := pathOf_plain hndot hnne
      have hvalid : validKey env.isId name = true := by
        unfold pathOf at hpath
        split at hpath
        · cases hpath
        · unfold validKey
          rw [show splitChar '.' name = [name] from hpath]
          simp [hnid]
      have hstep : r.addArg env (.obj (some h)) =
          (⟨⟨none, flat (l ++ [(name, h)])⟩, l.length + 1⟩, none) := by
        have hnotin : some h ∉ topValues r.tree.childs := by
          rw [h4, flat_top]
          intro hm
          obtain ⟨x, hx, hx'⟩ := List.mem_map.1 hm
          cases hx'
          have : x.2 ∈ done := by rw [← h2]; exact List.mem_map_of_mem hx
          rw [← h1, List.nodup_append] at hnd
          exact hnd.2.2 x.2 this x.2 List.mem_cons_self rfl
        unfold Registry.addArg
        dsimp only
        rw [if_neg hnotin, hpony, h5, hn]
        dsimp only
        unfold Registry.setHandler
        dsimp only
        rw [Tree.contains_str, if_pos hvalid, hpath, h4]
        have hw : ((⟨none, flat l⟩ : Tree V).walk [name]).isSome = false := by
          have := flat_get l name
          simp only [hfresh, decide_false] at this
          unfold Tree.walk
          generalize (flat l).get? name = q at this
          cases q with
          | none => rfl
          | some _ => cases this
        rw [hw]
        dsimp only
        rw [Tree.setitem_str, if_pos (hok h (by rw [← h1]; simp)), if_pos hvalid, hpath]
        dsimp only
        unfold Tree.modifyAt
        have := flat_upsert l name h hfresh
        dsimp only
        have hm : (Tree.modifyAt (fun n : Tree V => (⟨some h, n.childs⟩ : Tree V)) []) =
          fun n => ⟨some h, n.childs⟩ := rfl
        rw [hm, this]
      have := ih (done ++ [h]) (l ++ [(name, h)]) ⟨⟨none, flat (l ++ [(name, h)])⟩, l.length + 1⟩
        (by rw [← h1]; simp) (by rw [List.map_append, h2]; rfl)
        (by
          intro i hi
          by_cases hil : i < l.length
          · rw [List.getElem_append_left hil]; exact h3 i hil
          · have : i = l.length := by simp at hi; omega
            subst this
            simpa using hn) rfl (by simp)
      obtain ⟨l', g1, g2, g3, g4⟩ := this
      refine ⟨l', ?_, ?_, g3, g4⟩ <;>
      · simp only [List.map_cons, Registry.addArgs, hstep]
        assumption
  obtain ⟨l', g1, g2, g3, g4⟩ := main hsl [] [] Registry.init rfl rfl (by simp) rfl rfl
  refine ⟨g1, ?_⟩
  intro i hi
  have hil : i < l'.length := by
    have := congrArg List.length g3
    simp at this; omega
  refine ⟨_, g4 i hil, ?_⟩
  obtain ⟨name, hn, hnid, hnne, hndot⟩ := hname i (by omega)
  have hnn := g4 i hil
  rw [hn] at hnn; cases hnn
  have hpath := pathOf_plain hndot hnne
  have hvalid : validKey env.isId (l'[i]).1 = true := by
    unfold pathOf at hpath
    split at hpath
    · cases hpath
    · unfold validKey
      rw [show splitChar '.' (l'[i]).1 = [(l'[i]).1] from hpath]
      simp [hnid]
  rw [lookup_eq, if_pos hvalid, g2, hpath]
  have hval : hsl[i] = (l'[i]).2 := by
    have : (l'.map Prod.snd)[i]'(by simpa using hil) = hsl[i] := by simp only [g3]
    rw [← this, List.getElem_map]
  rw [hval]
  -- look-up in a flat forest with distinct names
  have hget : ∀ (m : List (Str × V)) (j : Nat) (hj : j < m.length),
      (∀ a b (ha : a < m.length) (hb : b < m.length), a ≠ b → (m[a]).1 ≠ (m[b]).1) →
      (flat m).get? (m[j]).1 = some ⟨some (m[j]).2, .nil⟩ := by
    intro m
    induction m with
    | nil => intro j hj; simp at hj
    | cons x m ih =>
      intro j hj hd
      obtain ⟨n, v⟩ := x
      cases j with
      | zero => simp [flat, Forest.get?]
      | succ j =>
        have h0 := hd 0 (j + 1) (by simp) hj (by omega)
        simp only [List.getElem_cons_zero, List.getElem_cons_succ] at h0 ⊢
        unfold flat Forest.get?
        rw [if_neg h0]
        exact ih j (by simpa using hj) fun a b ha hb hab => by
          have := hd (a + 1) (b + 1) (by simpa using ha) (by simpa using hb) (by omega)
          simpa using this
  have hd : ∀ a b (ha : a < l'.length) (hb : b < l'.length), a ≠ b → (l'[a]).1 ≠ (l'[b]).1 := by
    intro a b ha hb hab
    have hl' : l'.length = hsl.length := by
      have := congrArg List.length g3
      simpa using this
    obtain ⟨x, y, hx, hy, hxy⟩ := C46_generated_names_are_distinct_partial shuffled hs a b
      (by omega) (by omega) hab
    rw [g4 a ha] at hx; cases hx
    rw [g4 b hb] at hy; cases hy
    exact hxy
  unfold Tree.valAt Tree.walk
  rw [hget l' i hil hd]
  rfl

example : ∃ env : RegEnv Nat, env.pony = ponyHandlerName (fun _ => ponyPortion) ∧
    (∀ c rest, c.isAlpha = true → (∀ d ∈ rest, d.isAlpha = true ∨ d = '_') →
      env.isId (c :: rest) = true) ∧
    [10, 20, 30].Nodup ∧ (∀ h ∈ [10, 20, 30], env.isHandler h = true) :=
  ⟨⟨fun s => decide (s ≠ []), fun _ => true, ponyHandlerName (fun _ => ponyPortion)⟩, rfl,
    by simp, by decide, by simp⟩

end Polog
