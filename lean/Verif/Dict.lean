/-!
Insertion-ordered Python dictionaries with `[]`, `get`, `pop`, `update`, as association lists.
Python semantics modelled: assigning an existing key keeps its position, a new key goes to the end.
-/

namespace Polog

/-- A Python dict: items in insertion order.
Not code of the repository: Python's own dictionary, which the code uses for nodes of the tree (tree.py:54-60),
fields (log_item.py:280-287), levels (levels.py:9-11), settings (settings_store.py:243-260). -/
abbrev Dict (K V : Type) := List (K × V)

namespace Dict

variable {K V : Type} [DecidableEq K]

/-- `d.get(k)` Python's own operation; used e.g. at log_item.py:271-278. -/
def get? (k : K) : Dict K V → Option V
  | [] => none
  | (k', v) :: r => if k' = k then some v else get? k r

/-- `d[k] = v` Python's own operation; used e.g. at log_item.py:45-51. -/
def set (k : K) (v : V) : Dict K V → Dict K V
  | [] => [(k, v)]
  | (k', v') :: r => if k' = k then (k', v) :: r else (k', v') :: set k v r

/-- `del d[k]` / `d.pop(k)`, for a present key (no-op otherwise).
Python's own operation; used e.g. at tree.py:162-183. -/
def erase (k : K) : Dict K V → Dict K V
  | [] => []
  | (k', v') :: r => if k' = k then r else (k', v') :: erase k r

/-- `d.update(other)` Python's own operation; used e.g. at message.py:37-49. -/
def update (d : Dict K V) (other : Dict K V) : Dict K V :=
  other.foldl (fun acc x => set x.1 x.2 acc) d

/-- `k in d` Python's own operation; used e.g. at log_item.py:89-97. -/
def has (k : K) (d : Dict K V) : Bool := (get? k d).isSome

/-- `list(d)`; Python's own operation, used e.g. at config.py:201-208. -/
def keys (d : Dict K V) : List K := d.map Prod.fst

/-- The invariant of every Python dict: keys are distinct. For statements and proofs; no code. -/
def WF (d : Dict K V) : Prop := (keys d).Nodup

theorem get?_nil (k : K) : get? k ([] : Dict K V) = none := rfl

theorem get?_set (k k' : K) (v : V) (d : Dict K V) :
    get? k (set k' v d) = if k' = k then some v else get? k d := by
  induction d with
  | nil => simp [set, get?]
  | cons x r ih =>
    obtain ⟨k0, v0⟩ := x
    simp only [set]
    by_cases h : k0 = k'
    · subst h
      by_cases h2 : k0 = k <;> simp [get?, h2]
    · simp only [h, ↓reduceIte, get?, ih]
      by_cases h2 : k0 = k
      · subst h2
        have : k' ≠ k0 := fun e => h e.symm
        simp [this]
      · simp [h2]

theorem get?_set_self (k : K) (v : V) (d : Dict K V) : get? k (set k v d) = some v := by
  simp [get?_set]

theorem get?_set_ne {k k' : K} (h : k' ≠ k) (v : V) (d : Dict K V) :
    get? k (set k' v d) = get? k d := by
  simp [get?_set, h]

theorem get?_isSome_iff (k : K) (d : Dict K V) : (get? k d).isSome = true ↔ k ∈ keys d := by
  induction d with
  | nil => simp [get?, keys]
  | cons x r ih =>
    obtain ⟨k0, v0⟩ := x
    simp only [get?, keys, List.map_cons, List.mem_cons] at ih ⊢
    by_cases h : k0 = k
    · simp [h]
    · have : k ≠ k0 := fun e => h e.symm
      simp [h, this, ih]

theorem get?_eq_none_iff (k : K) (d : Dict K V) : get? k d = none ↔ k ∉ keys d := by
  rw [← get?_isSome_iff]; cases get? k d <;> simp

theorem keys_set (k : K) (v : V) (d : Dict K V) :
    keys (set k v d) = if k ∈ keys d then keys d else keys d ++ [k] := by
  induction d with
  | nil => simp [set, keys]
  | cons x r ih =>
    obtain ⟨k0, v0⟩ := x
    simp only [set]
    by_cases h : k0 = k
    · simp [h, keys]
    · have hk : k ≠ k0 := fun e => h e.symm
      have ih' : List.map Prod.fst (set k v r)
          = if k ∈ List.map Prod.fst r then List.map Prod.fst r else List.map Prod.fst r ++ [k] := ih
      simp only [h, ↓reduceIte, keys, List.map_cons, List.mem_cons, hk, false_or, ih', List.cons_append]
      split <;> rfl

omit [DecidableEq K] in
theorem WF_nil : WF ([] : Dict K V) := by simp [WF, keys]

theorem WF_set {k : K} {v : V} {d : Dict K V} (h : WF d) : WF (set k v d) := by
  unfold WF at *
  rw [keys_set]
  split
  · exact h
  · rename_i hk
    rw [List.nodup_append]
    refine ⟨h, by simp, ?_⟩
    intro a ha b hb
    simp at hb
    subst hb
    rintro rfl
    exact hk ha

theorem keys_erase_sub (k : K) (d : Dict K V) : (keys (erase k d)).Sublist (keys d) := by
  induction d with
  | nil => simp [erase, keys]
  | cons x r ih =>
    obtain ⟨k0, v0⟩ := x
    simp only [erase]
    split
    · exact List.sublist_cons_self _ _
    · exact List.Sublist.cons_cons _ ih

theorem WF_erase {k : K} {d : Dict K V} (h : WF d) : WF (erase k d) :=
  List.Nodup.sublist (keys_erase_sub k d) h

theorem get?_erase {d : Dict K V} (h : WF d) (k k' : K) :
    get? k (erase k' d) = if k' = k then none else get? k d := by
  induction d with
  | nil => simp [erase, get?]
  | cons x r ih =>
    obtain ⟨k0, v0⟩ := x
    have hr : WF r := by
      unfold WF keys at h ⊢; simp only [List.map_cons, List.nodup_cons] at h; exact h.2
    have h0 : k0 ∉ keys r := by
      unfold WF keys at h; simp only [List.map_cons, List.nodup_cons] at h; exact h.1
    simp only [erase]
    by_cases h1 : k0 = k'
    · subst h1
      simp only [↓reduceIte, get?]
      by_cases h2 : k0 = k
      · subst h2
        simp only [↓reduceIte]
        exact (get?_eq_none_iff _ _).2 h0
      · simp [h2]
    · simp only [h1, ↓reduceIte, get?, ih hr]
      by_cases h2 : k0 = k
      · subst h2
        have : k' ≠ k0 := fun e => h1 e.symm
        simp [this]
      · simp [h2]

theorem mem_iff_get? {d : Dict K V} (h : WF d) (k : K) (v : V) :
    (k, v) ∈ d ↔ get? k d = some v := by
  induction d with
  | nil => simp [get?]
  | cons x r ih =>
    obtain ⟨k0, v0⟩ := x
    have hr : WF r := by
      unfold WF keys at h ⊢; simp only [List.map_cons, List.nodup_cons] at h; exact h.2
    have h0 : k0 ∉ keys r := by
      unfold WF keys at h; simp only [List.map_cons, List.nodup_cons] at h; exact h.1
    simp only [List.mem_cons, Prod.mk.injEq, get?]
    by_cases h2 : k0 = k
    · subst h2
      simp only [true_and, ↓reduceIte, Option.some.injEq]
      constructor
      · rintro (h | h)
        · exact h.symm
        · exact absurd (List.mem_map_of_mem h) h0
      · intro h; exact .inl h.symm
    · have : k ≠ k0 := fun e => h2 e.symm
      simp [h2, this, ih hr]

/-- `update` with a list of items: the last item with a key wins, other keys are kept. -/
theorem get?_update (k : K) (other : Dict K V) : ∀ d : Dict K V,
    get? k (update d other) =
      match (other.reverse.find? fun x => x.1 = k) with
      | some x => some x.2
      | none => get? k d := by
  induction other with
  | nil => intro d; rfl
  | cons x r ih =>
    intro d
    simp only [update, List.foldl_cons] at ih ⊢
    rw [ih]
    simp only [List.reverse_cons, List.find?_append]
    cases h : (List.find? (fun x => decide (x.1 = k)) r.reverse) with
    | some y => simp
    | none =>
      simp only [Option.none_or, List.find?_cons]
      rw [get?_set]
      by_cases h2 : x.1 = k <;> simp [h2]

theorem WF_update {d : Dict K V} (h : WF d) (other : Dict K V) : WF (update d other) := by
  induction other generalizing d with
  | nil => exact h
  | cons x r ih => exact ih (WF_set h)

/-- For a well-formed dict, the last item with a key is the item with that key. -/
theorem find?_reverse {d : Dict K V} (h : WF d) (k : K) :
    (match (d.reverse.find? fun x => x.1 = k) with | some x => some x.2 | none => none) = get? k d := by
  induction d with
  | nil => rfl
  | cons x r ih =>
    obtain ⟨k0, v0⟩ := x
    have hr : WF r := by
      unfold WF keys at h ⊢; simp only [List.map_cons, List.nodup_cons] at h; exact h.2
    have h0 : k0 ∉ keys r := by
      unfold WF keys at h; simp only [List.map_cons, List.nodup_cons] at h; exact h.1
    have ih := ih hr
    simp only [List.reverse_cons, List.find?_append, get?]
    by_cases h2 : k0 = k
    · subst h2
      have hn := (get?_eq_none_iff _ _).2 h0
      cases h : (List.find? (fun x => decide (x.1 = k0)) r.reverse) with
      | some y => simp [h, hn] at ih
      | none => simp
    · cases h : (List.find? (fun x => decide (x.1 = k)) r.reverse) with
      | some y => simp [h] at ih; simp [h2, ih]
      | none => simp [h] at ih; simp [h2, ← ih]

theorem get?_update_wf {other : Dict K V} (h : WF other) (k : K) (d : Dict K V) :
    get? k (update d other) = match get? k other with | some v => some v | none => get? k d := by
  rw [get?_update, ← find?_reverse h k]
  cases (List.find? (fun x => decide (x.1 = k)) other.reverse) <;> rfl

end Dict
end Polog
