import Verif.Format.Spec
import Mathlib.Tactic.ByContra

/-! Lemmas on the formatter. -/

namespace Polog
open FormatSpec

theorem joinStr_eq (sep : Str) (l : List Str) : joinStr sep l = List.intercalate sep l := by
  induction l with
  | nil => rfl
  | cons a l ih =>
    cases l with
    | nil => simp [joinStr, List.intercalate]
    | cons b l => rw [joinStr, ih]; simp [List.intercalate]

theorem Dict.set_new {K V : Type} [DecidableEq K] {k : K} {v : V} : ∀ {d : Dict K V}, k ∉ Dict.keys d →
    Dict.set k v d = d ++ [(k, v)] := by
  intro d
  induction d with
  | nil => intro; rfl
  | cons x d ih =>
    intro h
    obtain ⟨a, b⟩ := x
    simp only [Dict.keys, List.map_cons, List.mem_cons, not_or] at h
    have : ¬ a = k := fun e => h.1 e.symm
    simp only [Dict.set, if_neg this, List.cons_append]
    rw [ih h.2]

def baseCells (env : FmtEnv) (log : FLog) (handlers : List (Str × FExtractor)) : Dict Str Str :=
  handlers.filterMap fun h => (baseText env log h).map fun t => (h.1, t)

theorem baseCells_keys (env : FmtEnv) (log : FLog) (handlers : List (Str × FExtractor)) :
    (Dict.keys (baseCells env log handlers)).Sublist (handlers.map Prod.fst) := by
  induction handlers with
  | nil => exact List.Sublist.slnil
  | cons h l ih =>
    unfold baseCells at ih ⊢
    rw [List.filterMap_cons]
    cases baseText env log h with
    | none => exact ih.cons _
    | some t => exact ih.cons_cons _

theorem addBaseFields_eq (env : FmtEnv) (log : FLog) : ∀ (handlers : List (Str × FExtractor)) (base : Dict Str Str),
    (handlers.map Prod.fst).Nodup → (∀ h ∈ handlers, h.1 ∉ Dict.keys base) →
    addBaseFields env log handlers base = base ++ baseCells env log handlers := by
  intro handlers
  induction handlers with
  | nil => intro base _ _; simp [addBaseFields, baseCells]
  | cons h l ih =>
    intro base hn hb
    rw [List.map_cons, List.nodup_cons] at hn
    rw [addBaseFields, baseCells, List.filterMap_cons]
    cases hc : baseText env log h with
    | none => exact ih base hn.2 fun x hx => hb x (List.mem_cons_of_mem _ hx)
    | some t =>
      dsimp only [Option.map_some]
      rw [Dict.set_new (hb h List.mem_cons_self), ih _ hn.2, List.append_assoc]
      · rfl
      · intro x hx
        simp only [Dict.keys, List.map_append, List.mem_append, not_or, List.map_cons, List.map_nil, List.mem_singleton]
        refine ⟨hb x (List.mem_cons_of_mem _ hx), fun e => hn.1 ?_⟩
        rw [← e]
        exact List.mem_map_of_mem hx

/-- Which fields of a record are written after the standard ones. -/
def isExtra (shown : Dict Str Str) (hidden : List Str) (x : Str × FVal) : Bool :=
  !Dict.has x.1 shown && decide (x.1 ∉ hidden) && decide (x.2 ≠ .none)

def extraCells (shown : Dict Str Str) (hidden : List Str) : FLog → Option (Dict Str Str)
  | [] => some []
  | x :: rest =>
    if isExtra shown hidden x then
      match extraText x.1 x.2 with
      | none => none
      | some t => (extraCells shown hidden rest).map fun l => (x.1, t) :: l
    else extraCells shown hidden rest

theorem addExtraFields_eq (shown : Dict Str Str) (hidden : List Str) : ∀ (log : FLog) (base : Dict Str Str),
    Dict.WF log → (∀ x ∈ log, Dict.has x.1 base = Dict.has x.1 shown) →
    addExtraFields hidden log base =
      match extraCells shown hidden log with
      | none => .error .typeError
      | some l => .ok (base ++ l) := by
  intro log
  induction log with
  | nil => intro base _ _; simp [addExtraFields, extraCells]
  | cons x rest ih =>
    intro base hw hb
    obtain ⟨name, v⟩ := x
    have hw' : name ∉ Dict.keys rest ∧ Dict.WF rest := List.nodup_cons.1 hw
    have hx := hb (name, v) List.mem_cons_self
    have hrest : ∀ x ∈ rest, Dict.has x.1 base = Dict.has x.1 shown := fun x hx => hb x (List.mem_cons_of_mem _ hx)
    rw [addExtraFields, extraCells]
    unfold isExtra
    dsimp only at hx ⊢
    rw [hx]
    cases hs : Dict.has name shown with
    | true =>
      rw [if_pos rfl, if_neg (by simp)]
      exact ih base hw'.2 hrest
    | false =>
      rw [if_neg (by simp)]
      by_cases hh : name ∈ hidden
      · rw [if_pos hh, if_neg (by simp [hh])]
        exact ih base hw'.2 hrest
      · rw [if_neg hh]
        by_cases hv : v = .none
        · rw [if_pos hv, if_neg (by simp [hv])]
          exact ih base hw'.2 hrest
        · rw [if_neg hv, if_pos (by simp [hh, hv])]
          cases extraText name v with
          | none => rfl
          | some t =>
            dsimp only
            have hk : name ∉ Dict.keys base := by
              intro hm
              rw [← Dict.get?_isSome_iff] at hm
              rw [hs] at hx
              unfold Dict.has at hx
              rw [hm] at hx
              cases hx
            rw [Dict.set_new hk, ih _ hw'.2]
            · cases extraCells shown hidden rest with
              | none => rfl
              | some l => simp
            · intro y hy
              rw [← hrest y hy]
              have hne : y.1 ≠ name := fun e => hw'.1 (e ▸ List.mem_map_of_mem hy)
              rw [← Dict.set_new (v := t) hk]
              unfold Dict.has
              rw [Dict.get?_set_ne (Ne.symm hne)]

def padCell (norms : List (Str × Nat)) (x : Str × Str) : Str × Str :=
  match Dict.get? x.1 norms with
  | some w => (x.1, center w x.2)
  | none => x

theorem Dict.set_map {K V : Type} [DecidableEq K] {k : K} {v : V} (f : V → V) : ∀ {d : Dict K V}, Dict.WF d →
    Dict.get? k d = some v → Dict.set k (f v) d = d.map fun x => if x.1 = k then (x.1, f x.2) else x := by
  intro d
  induction d with
  | nil => intro _ h; cases h
  | cons x d ih =>
    intro hw h
    obtain ⟨a, b⟩ := x
    have hw' : a ∉ Dict.keys d ∧ Dict.WF d := List.nodup_cons.1 hw
    rw [Dict.get?] at h
    rw [Dict.set, List.map_cons]
    by_cases e : a = k
    · rw [if_pos e] at h
      cases h
      rw [if_pos e, if_pos e, e]
      congr 1
      symm
      rw [List.map_congr_left (g := id)]
      · simp
      · intro y hy
        have : ¬ y.1 = k := fun e' => hw'.1 (e ▸ e' ▸ List.mem_map_of_mem hy)
        rw [if_neg this]; rfl
    · rw [if_neg e] at h
      rw [if_neg e, if_neg e, ih hw'.2 h]

theorem widthAndAlign_eq : ∀ (norms : List (Str × Nat)) (data : Dict Str Str), (norms.map Prod.fst).Nodup →
    Dict.WF data → widthAndAlign norms data = data.map (padCell norms) := by
  intro norms
  induction norms with
  | nil => 
    intro data _ _
    rw [widthAndAlign]
    exact (List.map_id data).symm
  | cons x norms ih =>
    intro data hn hw
    obtain ⟨n, w⟩ := x
    rw [List.map_cons, List.nodup_cons] at hn
    have hnone : Dict.get? n norms = none := (Dict.get?_eq_none_iff n norms).2 hn.1
    have hmap : ∀ l : Dict Str Str, List.map (padCell norms) (l.map fun x => if x.1 = n then (x.1, center w x.2) else x) =
        l.map (padCell ((n, w) :: norms)) := by
      intro l
      rw [List.map_map]
      refine List.map_congr_left fun y _ => ?_
      obtain ⟨a, b⟩ := y
      unfold padCell
      dsimp only [Function.comp]
      rw [Dict.get?]
      by_cases e : a = n
      · subst e
        simp [hnone]
      · have e' : ¬ n = a := fun h => e h.symm
        simp [e, e']
    rw [widthAndAlign]
    cases hg : Dict.get? n data with
    | none =>
      dsimp only
      rw [ih data hn.2 hw, ← hmap]
      congr 1
      symm
      rw [List.map_congr_left (g := id)]
      · simp
      · intro y hy
        have : n ∉ Dict.keys data := (Dict.get?_eq_none_iff n data).1 hg
        have hne : ¬ y.1 = n := fun e' => this (e' ▸ List.mem_map_of_mem hy)
        rw [if_neg hne]; rfl
    | some item =>
      dsimp only
      rw [ih _ hn.2 (Dict.WF_set hw), Dict.set_map (center w) hw hg, hmap]

theorem extraCells_keys (shown : Dict Str Str) (hidden : List Str) : ∀ (log : FLog) (l : Dict Str Str),
    extraCells shown hidden log = some l →
    (Dict.keys l).Sublist (Dict.keys log) ∧ ∀ k ∈ Dict.keys l, Dict.has k shown = false := by
  intro log
  induction log with
  | nil => intro l h; cases h; exact ⟨List.Sublist.slnil, fun k hk => nomatch hk⟩
  | cons x rest ih =>
    intro l h
    rw [extraCells] at h
    split at h
    · rename_i hx
      split at h
      · cases h
      · rename_i t ht
        cases hr : extraCells shown hidden rest with
        | none => rw [hr] at h; cases h
        | some m =>
          rw [hr] at h
          cases h
          obtain ⟨h1, h2⟩ := ih m hr
          refine ⟨h1.cons_cons _, fun k hk => ?_⟩
          rcases List.mem_cons.1 hk with e | hk
          · subst e
            unfold isExtra at hx
            simp only [Bool.and_eq_true, Bool.not_eq_true'] at hx
            exact hx.1.1
          · exact h2 k hk
    · obtain ⟨h1, h2⟩ := ih l h
      exact ⟨h1.cons _, h2⟩

/-- The line, written out. -/
theorem formatWith_eq (env : FmtEnv) (handlers : List (Str × FExtractor)) (hidden : List Str)
    (norms : List (Str × Nat)) (separator : Str) (log : FLog) (hn : (handlers.map Prod.fst).Nodup)
    (hm : (norms.map Prod.fst).Nodup) (hw : Dict.WF log) :
    formatWith env handlers hidden norms separator log =
      match extraCells (baseCells env log handlers) hidden log with
      | none => .error .typeError
      | some l => .ok (List.intercalate " | ".toList
          (((baseCells env log handlers ++ l).map (padCell norms)).map Prod.snd) ++ separator) := by
  unfold formatWith
  rw [addBaseFields_eq env log handlers [] hn (fun _ _ => by simp [Dict.keys]), List.nil_append,
    addExtraFields_eq (baseCells env log handlers) hidden log _ hw (fun _ _ => rfl)]
  cases he : extraCells (baseCells env log handlers) hidden log with
  | none => rfl
  | some l =>
    dsimp only
    obtain ⟨h1, h2⟩ := extraCells_keys _ _ _ _ he
    have hwf : Dict.WF (baseCells env log handlers ++ l) := by
      unfold Dict.WF
      unfold Dict.keys
      rw [List.map_append, List.nodup_append]
      refine ⟨(baseCells_keys env log handlers).nodup hn, h1.nodup hw, fun a ha b hb e => ?_⟩
      subst e
      have hf := h2 a hb
      unfold Dict.has at hf
      have := (Dict.get?_isSome_iff a (baseCells env log handlers)).2 ha
      rw [this] at hf
      cases hf
    rw [widthAndAlign_eq norms _ hm hwf, joinStr_eq]

end Polog
