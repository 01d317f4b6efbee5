import Verif.Projection.Lemmas4
import Verif.Tree.Spec

/-! The heap of the global tree, read by key, is a plain map. -/

namespace Polog
open ProjSpec

variable {V : Type}

theorem Heap.val_setVal {h : Heap V} (hg : h.Good) {p : List Str} {i : Nat}
    (hp : h.walk 0 p = some i) (v : Option V) (q : List Str) :
    (h.put i { h.node i with value := v }).val 0 q = if q = p then v else h.val 0 q := by
  simp only [Heap.val]
  rw [Heap.walk_congr (Heap.childs_put_value h i v)]
  cases hw : h.walk 0 q with
  | none =>
    have : q ≠ p := by rintro rfl; rw [hp] at hw; cases hw
    simp [this]
  | some j =>
    simp only [Option.bind_some, Heap.put]
    by_cases e : j = i
    · subst e
      rw [if_pos rfl, if_pos (Heap.walk_unique hg q hw hp)]
    · have : q ≠ p := by
        rintro rfl; rw [hp] at hw; exact e (Option.some.inj hw).symm
      rw [if_neg e, if_neg this]

theorem Heap.val_prune {h : Heap V} (hg : h.Good) {p : Nat} (hp : p < h.next) (q : List Str) :
    (h.prune p).val 0 q = h.val 0 q := by
  simp only [Heap.val]
  cases hw' : (h.prune p).walk 0 q with
  | some j =>
    rw [Heap.walk_prune_sub hg hp q hw']
    simp only [Option.bind_some]
    exact (Heap.prune_rest h p j).1
  | none =>
    cases hw : h.walk 0 q with
    | none => rfl
    | some j =>
      rcases Heap.walk_prune_cases hg hp q hg.pos hw with h1 | ⟨c, r, hc, hcv, hcw⟩
      · rw [hw'] at h1; cases h1
      · simp only [Option.bind_some, Option.bind_none]
        by_contra hne
        have : h.val c r ≠ none := by
          simp only [Heap.val, hcw, Option.bind_some]
          exact fun e => hne e.symm
        have := (Heap.hasValue_iff hg h.next hc (by omega)).2 ⟨r, this⟩
        rw [hcv] at this
        cases this

theorem Heap.val_cut (b rounds : Nat) (q : List Str) : ∀ {h : Heap V} {i : Nat}, h.Good → i < h.next →
    (h.cut b rounds i).val 0 q = h.val 0 q := by
  induction rounds with
  | zero => intro h i _ _; rfl
  | succ n ih =>
    intro h i hg hi
    simp only [Heap.cut]
    cases hp : (h.node i).parent with
    | none => rfl
    | some p =>
      dsimp only
      split
      · rfl
      · have hlt := hg.plt i hi p hp
        have hpn : p < h.next := by omega
        rw [ih (Heap.Good_prune hg hpn) hpn, Heap.val_prune hg hpn]

theorem validKey_iff {isId : Str → Bool} {s : Str} :
    TreeSpec.validKey isId s = true ↔ s = [sep] ∨ (splitChar sep s).all isId = true := by
  simp [TreeSpec.validKey, sep]

theorem Heap.get_valid (isId : Str → Bool) (h : Heap V) (s : Str) :
    h.get isId (.str s) =
      if TreeSpec.validKey isId s = true then .ok (h.val 0 (pathOf s)) else .error .keyError := by
  rw [Heap.get_str]
  by_cases hs : s = [sep]
  · rw [if_pos hs, if_pos (validKey_iff.2 (.inl hs))]
    simp [pathOf, hs, Heap.val, Heap.walk]
  · rw [if_neg hs]
    by_cases hv : (splitChar sep s).all isId = true
    · rw [if_pos hv, if_pos (validKey_iff.2 (.inr hv))]
      simp [pathOf, hs]
    · rw [if_neg hv, if_neg]
      rw [validKey_iff]; rintro (h1 | h1)
      · exact hs h1
      · exact hv h1

/-- A registration changes exactly one key. -/
theorem Heap.set_val (isId : Str → Bool) (okValue : V → Bool) {h : Heap V} (hg : h.Good) (s : Str)
    (v : V) (q : List Str) :
    (h.set isId okValue (.str s) (some v)).1.val 0 q =
      if okValue v = true ∧ TreeSpec.validKey isId s = true ∧ q = pathOf s then some v
      else h.val 0 q := by
  unfold Heap.set
  dsimp only
  by_cases ho : okValue v = true
  · rw [if_pos ho, convKeys_str]
    by_cases hs : s = [sep]
    · rw [if_pos hs]
      dsimp only
      have h0 : h.searchOrCreate [[sep]] = (h, 0) := by simp [Heap.searchOrCreate]
      rw [h0]
      dsimp only
      rw [Heap.val_setVal hg (p := []) rfl]
      subst hs
      have hv : TreeSpec.validKey isId [sep] = true := validKey_iff.2 (.inl rfl)
      simp only [ho, hv, true_and, pathOf, if_true]
    · rw [if_neg hs]
      by_cases hv : (splitChar sep s).all isId = true
      · rw [if_pos hv]
        dsimp only
        rw [Heap.searchOrCreate_split]
        obtain ⟨a, b⟩ := Heap.walkNew_spec (splitChar sep s) hg (Heap.reach_zero h)
        rw [Heap.val_setVal (a.grow.spec hg).1 b, a.val hg]
        have hv' : TreeSpec.validKey isId s = true := validKey_iff.2 (.inr hv)
        simp only [ho, hv', true_and, pathOf, if_neg hs]
      · rw [if_neg hv, if_neg]
        rintro ⟨_, h2, _⟩
        rcases validKey_iff.1 h2 with h3 | h3
        · exact hs h3
        · exact hv h3
  · rw [if_neg ho, if_neg (fun h => ho h.1)]

theorem Heap.search_path {h : Heap V} {isId : Str → Bool} {s : Str} {keys : List Str}
    (hk : convKeys isId (.str s) = .ok keys) :
    TreeSpec.validKey isId s = true ∧ h.search keys = h.walk 0 (pathOf s) := by
  rw [convKeys_str] at hk
  split at hk
  · rename_i hs
    cases hk
    exact ⟨validKey_iff.2 (.inl hs), by simp [Heap.search, pathOf, hs, Heap.walk]⟩
  · rename_i hs
    split at hk
    · rename_i hv
      cases hk
      refine ⟨validKey_iff.2 (.inr hv), ?_⟩
      unfold Heap.search pathOf
      rw [if_neg (splitChar_ne_nil _ _), if_neg (splitChar_ne_sep s), if_neg hs]
    · cases hk

/-- A deletion changes exactly one key. -/
theorem Heap.del_val (isId : Str → Bool) {h : Heap V} (hg : h.Good) (s : Str) (q : List Str) :
    (h.del isId (.str s)).1.val 0 q =
      if TreeSpec.validKey isId s = true ∧ q = pathOf s then none else h.val 0 q := by
  unfold Heap.del
  dsimp only
  cases hk : convKeys isId (.str s) with
  | error e =>
    dsimp only
    rw [if_neg]
    rintro ⟨h1, _⟩
    rw [convKeys_str] at hk
    rcases validKey_iff.1 h1 with h2 | h2
    · rw [if_pos h2] at hk; cases hk
    · rw [if_pos h2] at hk
      split at hk <;> cases hk
  | ok keys =>
    dsimp only
    obtain ⟨hv, hs⟩ := Heap.search_path (h := h) hk
    rw [hs]
    simp only [hv, true_and]
    cases hw : h.walk 0 (pathOf s) with
    | none =>
      dsimp only
      split
      · rename_i e; subst e; simp [Heap.val, hw]
      · rfl
    | some i =>
      dsimp only
      split
      · rename_i hn
        split
        · rename_i e; subst e
          simp only [Heap.val, hw, Option.bind_some]
          simpa using hn
        · rfl
      · have hi := (Heap.walk_lt hg _ hg.pos hw).1
        rw [Heap.val_cut 0 h.next q (Heap.Good_put_value hg i none) hi, Heap.val_setVal hg hw]

/-- A failing deletion finds nothing; a successful one finds a value. -/
theorem Heap.del_result (isId : Str → Bool) (h : Heap V) (s : Str) :
    (h.del isId (.str s)).2 = none ↔
      TreeSpec.validKey isId s = true ∧ h.val 0 (pathOf s) ≠ none := by
  unfold Heap.del
  dsimp only
  cases hk : convKeys isId (.str s) with
  | error e =>
    dsimp only
    constructor
    · intro h; cases h
    · rintro ⟨h1, _⟩
      exfalso
      rw [convKeys_str] at hk
      rcases validKey_iff.1 h1 with h2 | h2
      · rw [if_pos h2] at hk; cases hk
      · rw [if_pos h2] at hk
        split at hk <;> cases hk
  | ok keys =>
    dsimp only
    obtain ⟨hv, hs⟩ := Heap.search_path (h := h) hk
    rw [hs]
    simp only [hv, true_and, Heap.val]
    cases hw : h.walk 0 (pathOf s) with
    | none => simp
    | some i =>
      dsimp only [Option.bind_some]
      cases hn : (h.node i).value with
      | none => simp
      | some v => simp

/-- Only valid keys have handlers. -/
def Heap.ValidKeys (isId : Str → Bool) (h : Heap V) : Prop :=
  ∀ q, h.val 0 q ≠ none → ∃ s, TreeSpec.validKey isId s = true ∧ q = pathOf s

theorem Heap.ValidKeys_init (isId : Str → Bool) : (Heap.init : Heap V).ValidKeys isId := by
  intro q hq
  exfalso; apply hq
  cases q with
  | nil => rfl
  | cons k ks => rfl

theorem Heap.ValidKeys_step (isId : Str → Bool) (okValue : V → Bool) {h : Heap V} (hg : h.Good)
    (hv : h.ValidKeys isId) (op : HOp V) : (h.step isId okValue op).1.ValidKeys isId := by
  intro q hq
  cases op with
  | set k v =>
    cases k with
    | other => exact hv q hq
    | str s =>
      cases v with
      | none => exact hv q hq
      | some v =>
        simp only [Heap.step] at hq
        rw [Heap.set_val isId okValue hg] at hq
        split at hq
        · rename_i e; exact ⟨s, e.2.1, e.2.2⟩
        · exact hv q hq
  | del k =>
    cases k with
    | other => exact hv q hq
    | str s =>
      simp only [Heap.step] at hq
      rw [Heap.del_val isId hg] at hq
      split at hq
      · exact absurd rfl hq
      · exact hv q hq
  | select ps =>
    have := (Heap.select_touch isId hg ps).val hg q
    simp only [Heap.step] at hq
    cases hsel : h.select isId ps with
    | mk h' r =>
      rw [hsel] at this hq
      cases r <;> exact hv q (by rw [← this]; exact hq)

theorem Heap.ValidKeys_run (isId : Str → Bool) (okValue : V → Bool) (ops : List (HOp V)) :
    ∀ {h : Heap V}, h.Good → h.ValidKeys isId → (h.run isId okValue ops).ValidKeys isId := by
  induction ops with
  | nil => intro h _ hv; exact hv
  | cons op ops ih =>
    intro h hg hv
    exact ih (Heap.step_good isId okValue hg op) (Heap.ValidKeys_step isId okValue hg hv op)

theorem Heap.run_append (isId : Str → Bool) (okValue : V → Bool) (a b : List (HOp V)) :
    ∀ h : Heap V, h.run isId okValue (a ++ b) = (h.run isId okValue a).run isId okValue b := by
  induction a with
  | nil => intro h; rfl
  | cons op ops ih => intro h; exact ih _

end Polog
