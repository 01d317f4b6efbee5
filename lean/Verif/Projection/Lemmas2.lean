import Verif.Projection.Lemmas
import Verif.Tree.Lemmas2

/-! Lemmas on local trees and on histories of operations. -/

namespace Polog

variable {V : Type}

/-- The global node that a walk in a local tree enters, with the rest of the path. -/
def PNode.front : PNode V → List Str → Option (Nat × List Str)
  | .shared i, ks => some (i, ks)
  | .own _ _, [] => none
  | .own _ f, k :: ks =>
    match Dict.get? k f with
    | none => none
    | some t => t.front ks

/-- The value of an own node of a local tree. -/
def PNode.ownVal : PNode V → List Str → Option V
  | .shared _, _ => none
  | .own v _, [] => v
  | .own _ f, k :: ks =>
    match Dict.get? k f with
    | none => none
    | some t => t.ownVal ks

theorem PNode.val_eq (h : Heap V) (ks : List Str) : ∀ t : PNode V,
    t.val h ks = match t.front ks with
      | some (i, rest) => h.val i rest
      | none => t.ownVal ks := by
  induction ks with
  | nil => intro t; cases t <;> rfl
  | cons k ks ih =>
    intro t
    cases t with
    | shared i => rfl
    | own v f =>
      simp only [PNode.val, PNode.front, PNode.ownVal]
      cases hc : Dict.get? k f with
      | none => rfl
      | some t' => simp only [ih t']

theorem PNode.front_append (ks r : List Str) : ∀ {t : PNode V} {i rest},
    t.front ks = some (i, rest) → t.front (ks ++ r) = some (i, rest ++ r) := by
  induction ks with
  | nil =>
    intro t i rest h
    cases t with
    | shared j => simp [PNode.front] at h ⊢; obtain ⟨rfl, rfl⟩ := h; simp
    | own v f => cases h
  | cons k ks ih =>
    intro t i rest h
    cases t with
    | shared j => simp [PNode.front] at h ⊢; obtain ⟨rfl, rfl⟩ := h; simp
    | own v f =>
      simp only [PNode.front, List.cons_append] at h ⊢
      cases hc : Dict.get? k f with
      | none => rw [hc] at h; cases h
      | some t' => rw [hc] at h; exact ih h

/-- Putting the node that is already there changes nothing. -/
theorem Heap.putNode_same (ks : List Str) : ∀ {h : Heap V} {i n : Nat}, h.walk i ks = some n →
    h.putNode i ks n = h := by
  induction ks with
  | nil => intro h i n _; rfl
  | cons k ks ih =>
    intro h i n hw
    cases ks with
    | nil =>
      rw [Heap.walk_single] at hw
      have hset : Dict.set k n (h.node i).childs = (h.node i).childs := by
        generalize (h.node i).childs = d at hw
        induction d with
        | nil => cases hw
        | cons x r ihd =>
          obtain ⟨k0, v0⟩ := x
          simp only [Dict.get?, Dict.set] at hw ⊢
          by_cases e : k0 = k
          · simp only [e, ↓reduceIte, Option.some.injEq] at hw ⊢; rw [hw]
          · simp only [e, ↓reduceIte] at hw ⊢; rw [ihd hw]
      simp only [Heap.putNode, hset, Heap.put]
      cases h with
      | mk node next =>
        simp only [Heap.mk.injEq, and_true]
        funext j
        split
        · rename_i e; subst e; rfl
        · rfl
    | cons k2 ks =>
      simp only [Heap.walk] at hw
      simp only [Heap.putNode]
      cases hc : Dict.get? k (h.node i).childs with
      | none => rw [hc] at hw; cases hw
      | some j =>
        rw [hc] at hw
        exact ih (by simpa [Heap.walk] using hw)

/-- A local tree shows the selected paths `S` (below the prefix `pre`) of the heap. -/
structure ShowsPaths (h : Heap V) (pre : List Str) (S : List (List Str)) (t : PNode V) : Prop where
  shows : ∀ ks i rest, t.front ks = some (i, rest) →
    ∃ q, pre ++ q ∈ S ∧ ks = q ++ rest ∧ h.walk 0 (pre ++ q) = some i
  all : ∀ p, pre ++ p ∈ S → ∀ rest, (t.front (p ++ rest)).isSome
  plain : ∀ ks, t.ownVal ks = none

theorem PNode.putNode_inv {h : Heap V} {n : Nat} (p : List Str) : ∀ {t : PNode V} {pre S},
    p ≠ [] → h.walk 0 (pre ++ p) = some n →
    (∀ q, pre ++ q ∈ S → q ≠ []) →
    (∀ ks i rest, t.front ks = some (i, rest) →
      ∃ q, pre ++ q ∈ S ∧ ks = q ++ rest ∧ h.walk 0 (pre ++ q) = some i) →
    (∀ ks, t.ownVal ks = none) →
    (PNode.putNode h t p n).1 = h ∧
    (∀ ks i rest, (PNode.putNode h t p n).2.front ks = some (i, rest) →
      ∃ q, pre ++ q ∈ (pre ++ p) :: S ∧ ks = q ++ rest ∧ h.walk 0 (pre ++ q) = some i) ∧
    (∀ ks, (t.front ks).isSome → ((PNode.putNode h t p n).2.front ks).isSome) ∧
    (∀ rest, ((PNode.putNode h t p n).2.front (p ++ rest)).isSome) ∧
    (∀ ks, (PNode.putNode h t p n).2.ownVal ks = none) := by
  induction p with
  | nil => intro t pre S h0; exact absurd rfl h0
  | cons k p ih =>
    intro t pre S _ hw hS hf ho
    cases t with
    | shared i =>
      obtain ⟨q, hq, hk, _⟩ := hf [] i [] rfl
      have : q = [] := by
        cases q with
        | nil => rfl
        | cons a b => simp at hk
      exact absurd this (hS q hq)
    | own v f =>
      have hv : v = none := ho []
      cases p with
      | nil =>
        simp only [PNode.putNode]
        refine ⟨by trivial, ?_, ?_, ?_, ?_⟩
        · intro ks i rest hks
          cases ks with
          | nil => cases hks
          | cons a ks =>
            simp only [PNode.front] at hks
            rw [Dict.get?_set] at hks
            by_cases e : k = a
            · subst e
              simp only [↓reduceIte, PNode.front, Option.some.injEq, Prod.mk.injEq] at hks
              obtain ⟨rfl, rfl⟩ := hks
              exact ⟨[k], by simp, rfl, hw⟩
            · rw [if_neg e] at hks
              obtain ⟨q, h1, h2, h3⟩ := hf (a :: ks) i rest (by simpa [PNode.front] using hks)
              exact ⟨q, List.mem_cons_of_mem _ h1, h2, h3⟩
        · intro ks hks
          cases ks with
          | nil => exact hks
          | cons a ks =>
            simp only [PNode.front] at hks ⊢
            rw [Dict.get?_set]
            by_cases e : k = a
            · simp [e, PNode.front]
            · rw [if_neg e]; exact hks
        · intro rest
          simp [PNode.front, Dict.get?_set_self]
        · intro ks
          cases ks with
          | nil => exact hv
          | cons a ks =>
            simp only [PNode.ownVal]
            rw [Dict.get?_set]
            by_cases e : k = a
            · simp [e, PNode.ownVal]
            · rw [if_neg e]
              have := ho (a :: ks)
              simpa [PNode.ownVal] using this
      | cons k2 p =>
        simp only [PNode.putNode]
        generalize ht : (Dict.get? k f).getD (.own none []) = t'
        -- the child of the local tree satisfies the invariant below `pre ++ [k]`
        have hf' : ∀ ks i rest, t'.front ks = some (i, rest) →
            ∃ q, pre ++ (k :: q) ∈ S ∧ ks = q ++ rest ∧ h.walk 0 (pre ++ (k :: q)) = some i := by
          intro ks i rest hks
          cases hc : Dict.get? k f with
          | none =>
            rw [hc] at ht
            simp only [Option.getD_none] at ht
            subst ht
            cases ks with
            | nil => cases hks
            | cons a ks => simp [PNode.front, Dict.get?] at hks
          | some t0 =>
            rw [hc] at ht
            simp only [Option.getD_some] at ht
            subst ht
            obtain ⟨q, h1, h2, h3⟩ := hf (k :: ks) i rest (by simp only [PNode.front, hc]; exact hks)
            cases q with
            | nil => exact absurd rfl (hS [] h1)
            | cons a q =>
              simp only [List.cons_append, List.cons.injEq] at h2
              obtain ⟨rfl, rfl⟩ := h2
              exact ⟨q, h1, rfl, h3⟩
        have ho' : ∀ ks, t'.ownVal ks = none := by
          intro ks
          cases hc : Dict.get? k f with
          | none =>
            rw [hc] at ht
            simp only [Option.getD_none] at ht
            subst ht
            cases ks <;> simp [PNode.ownVal, Dict.get?]
          | some t0 =>
            rw [hc] at ht
            simp only [Option.getD_some] at ht
            subst ht
            have := ho (k :: ks)
            simpa only [PNode.ownVal, hc] using this
        have happ : ∀ q : List Str, (pre ++ [k]) ++ q = pre ++ (k :: q) := by intro q; simp
        -- main facts about the child after the insertion
        have key : (PNode.putNode h t' (k2 :: p) n).1 = h ∧
            (∀ ks i rest, (PNode.putNode h t' (k2 :: p) n).2.front ks = some (i, rest) →
              ∃ q, pre ++ (k :: q) ∈ (pre ++ (k :: k2 :: p)) :: S ∧ ks = q ++ rest ∧
                h.walk 0 (pre ++ (k :: q)) = some i) ∧
            (∀ ks, (t'.front ks).isSome → ((PNode.putNode h t' (k2 :: p) n).2.front ks).isSome) ∧
            (∀ rest, ((PNode.putNode h t' (k2 :: p) n).2.front (k2 :: p ++ rest)).isSome) ∧
            (∀ ks, (PNode.putNode h t' (k2 :: p) n).2.ownVal ks = none) := by
          cases t' with
          | shared i =>
            obtain ⟨q, h1, h2, h3⟩ := hf' [] i [] rfl
            have hq : q = [] := by
              cases q with
              | nil => rfl
              | cons a b => simp at h2
            subst hq
            have hsame : h.putNode i (k2 :: p) n = h := by
              apply Heap.putNode_same
              have : pre ++ (k :: k2 :: p) = (pre ++ [k]) ++ (k2 :: p) := by simp
              rw [this, Heap.walk_append, h3] at hw
              exact hw
            simp only [PNode.putNode, hsame]
            refine ⟨by trivial, ?_, fun ks h => h, fun rest => rfl, fun ks => by simp [PNode.ownVal]⟩
            intro ks j rest hks
            simp only [PNode.front, Option.some.injEq, Prod.mk.injEq] at hks
            obtain ⟨rfl, rfl⟩ := hks
            exact ⟨[], List.mem_cons_of_mem _ h1, rfl, h3⟩
          | own v' f' =>
            by_cases hex : pre ++ [k] ∈ S
            · -- own node at a selected path: only needs the version without that path
              have := ih (t := .own v' f') (pre := pre ++ [k]) (S := S.filter (· ≠ pre ++ [k]))
                (by simp) (by rw [happ]; exact hw)
                (by
                  intro q hq e
                  subst e
                  simp at hq)
                (by
                  intro ks i rest hks
                  obtain ⟨q, h1, h2, h3⟩ := hf' ks i rest hks
                  refine ⟨q, ?_, h2, by rw [happ]; exact h3⟩
                  rw [happ]
                  simp only [List.mem_filter, h1, true_and]
                  have : q ≠ [] := by
                    rintro rfl
                    simp only [List.nil_append] at h2
                    subst h2
                    have := hks
                    cases ks with
                    | nil => cases this
                    | cons a ks =>
                      -- `front` never returns more than it was given minus one step
                      have hlen : ∀ (ks : List Str) (t : PNode V) i rest, t.front ks = some (i, rest) →
                          rest.length ≤ ks.length := by
                        intro ks
                        induction ks with
                        | nil =>
                          intro t i rest h
                          cases t with
                          | shared j => simp [PNode.front] at h; simp [← h.2]
                          | own v f => cases h
                        | cons a ks ihk =>
                          intro t i rest h
                          cases t with
                          | shared j => simp [PNode.front] at h; simp [← h.2]
                          | own v f =>
                            simp only [PNode.front] at h
                            cases hc : Dict.get? a f with
                            | none => rw [hc] at h; cases h
                            | some t0 =>
                              rw [hc] at h
                              have := ihk t0 i rest h
                              simp only [List.length_cons]; omega
                      simp only [PNode.front] at this
                      cases hc : Dict.get? a f' with
                      | none => rw [hc] at this; cases this
                      | some t0 =>
                        rw [hc] at this
                        have := hlen ks t0 i (a :: ks) this
                        simp only [List.length_cons] at this; omega
                  simpa using this) ho'
              obtain ⟨a, b, c, d, e⟩ := this
              refine ⟨a, ?_, c, d, e⟩
              intro ks i rest hks
              obtain ⟨q, h1, h2, h3⟩ := b ks i rest hks
              refine ⟨q, ?_, h2, by rw [← happ]; exact h3⟩
              rw [happ, happ] at h1
              rcases List.mem_cons.1 h1 with h1 | h1
              · rw [h1]; exact List.mem_cons_self
              · exact List.mem_cons_of_mem _ (List.mem_filter.1 h1).1
            · obtain ⟨a, b, c, d, e⟩ := ih (t := .own v' f') (pre := pre ++ [k]) (S := S)
                (by simp) (by rw [happ]; exact hw)
                (by
                  rintro q hq rfl
                  exact hex (by simpa using hq))
                (by
                  intro ks i rest hks
                  obtain ⟨q, h1, h2, h3⟩ := hf' ks i rest hks
                  exact ⟨q, by rw [happ]; exact h1, h2, by rw [happ]; exact h3⟩) ho'
              refine ⟨a, ?_, c, d, e⟩
              intro ks i rest hks
              obtain ⟨q, h1, h2, h3⟩ := b ks i rest hks
              exact ⟨q, by rw [happ, happ] at h1; exact h1, h2, by rw [← happ]; exact h3⟩
        obtain ⟨ka, kb, kc, kd, ke⟩ := key
        refine ⟨ka, ?_, ?_, ?_, ?_⟩
        · intro ks i rest hks
          cases ks with
          | nil => cases hks
          | cons a ks =>
            simp only [PNode.front] at hks
            rw [Dict.get?_set] at hks
            by_cases e : k = a
            · subst e
              simp only [↓reduceIte] at hks
              obtain ⟨q, h1, h2, h3⟩ := kb ks i rest hks
              exact ⟨k :: q, h1, by rw [h2]; rfl, h3⟩
            · rw [if_neg e] at hks
              obtain ⟨q, h1, h2, h3⟩ := hf (a :: ks) i rest (by simpa [PNode.front] using hks)
              exact ⟨q, List.mem_cons_of_mem _ h1, h2, h3⟩
        · intro ks hks
          cases ks with
          | nil => exact hks
          | cons a ks =>
            simp only [PNode.front] at hks ⊢
            rw [Dict.get?_set]
            by_cases e : k = a
            · subst e
              simp only [↓reduceIte]
              cases hc : Dict.get? k f with
              | none => rw [hc] at hks; cases hks
              | some t0 =>
                rw [hc] at hks ht
                simp only [Option.getD_some] at ht
                subst ht
                exact kc ks hks
            · rw [if_neg e]; exact hks
        · intro rest
          simp only [List.cons_append, PNode.front]
          rw [Dict.get?_set_self]
          exact kd rest
        · intro ks
          cases ks with
          | nil => exact hv
          | cons a ks =>
            simp only [PNode.ownVal]
            rw [Dict.get?_set]
            by_cases e : k = a
            · subst e
              simp only [↓reduceIte]
              exact ke ks
            · rw [if_neg e]
              have := ho (a :: ks)
              simpa [PNode.ownVal] using this

end Polog
