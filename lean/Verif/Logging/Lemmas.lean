import Verif.Logging.Spec
import Verif.Handle.Props
import Mathlib.Tactic.Tauto

/-! Helper lemmas about the dictionary the filter builds from a record. -/

namespace Polog
open HandleSpec LoggingSpec

/-! ### The dictionary built from a record -/

/-- What was given for a name, when exactly one argument has it. -/
theorem given_of_mem {levels : Levels} {kwargs : Dict Str HVal} {name : Str} {v : HVal}
    (h : NoAliases kwargs) (hm : (name, v) ∈ kwargs) (hn : fullName name = name) (hv : v ≠ .none) :
    given levels [] kwargs name = some (stored levels name v) := by
  unfold given
  have : kwargs.find? (fun x => fullName x.1 = name && x.2 ≠ .none) = some (name, v) := by
    induction kwargs with
    | nil => cases hm
    | cons x l ih =>
      unfold NoAliases at h
      rw [List.map_cons, List.nodup_cons] at h
      rcases List.mem_cons.1 hm with rfl | hm'
      · rw [List.find?_cons_of_pos]
        simp [hn, hv]
      · rw [List.find?_cons_of_neg]
        · exact ih h.2 hm'
        · intro hc
          simp only [ne_eq, Bool.and_eq_true, decide_eq_true_eq] at hc
          exact h.1 (List.mem_map.2 ⟨_, hm', by rw [hn, hc.1]⟩)
  rw [this]

theorem given_absent {levels : Levels} {kwargs : Dict Str HVal} {name : Str}
    (h : name ∉ kwargs.map fun x => fullName x.1) : given levels [] kwargs name = none := by
  unfold given
  have : kwargs.find? (fun x => fullName x.1 = name && x.2 ≠ .none) = none := by
    rw [List.find?_eq_none]
    intro x hx hc
    simp only [ne_eq, Bool.and_eq_true, decide_eq_true_eq] at hc
    exact h (List.mem_map.2 ⟨x, hx, hc.1⟩)
  rw [this]
  simp

theorem recData_ok {r : LogRec} (h : Sound r) : ∃ d, recData r = .ok d := by
  unfold recData recMessage recException
  cases hb : r.msgTrue with
  | false => rcases h.exc with he | ⟨t, m, tb, he⟩ <;> rw [he] <;> exact ⟨_, rfl⟩
  | true =>
    obtain ⟨s, hs⟩ := h.message hb
    rw [hs]
    rcases h.exc with he | ⟨t, m, tb, he⟩ <;> rw [he] <;> exact ⟨_, rfl⟩

/-- The arguments that are always given. -/
def recFixed (r : LogRec) : List (Str × HVal) :=
  [("time".toList, r.time), ("level".toList, .int r.levelno),
   ("success".toList, .bool (if r.levelno ≥ 30 then false else true)),
   ("module".toList, .str r.module), ("line_number".toList, .int r.lineno),
   ("path_to_code".toList, .str r.pathname), ("thread".toList, .str r.thread),
   ("process".toList, .str r.process), ("from_logging".toList, .bool true)]

/-- The arguments given in some cases. -/
def recVariable (r : LogRec) : List (Str × HVal) :=
  (match recMessage r with | .ok l => l | .error _ => []) ++
  (if r.funcIsId then [("function".toList, .str r.funcName)] else []) ++
  (match recException r with | .ok l => l | .error _ => [])

def recNames : List Str :=
  ["time", "message", "level", "success", "module", "line_number", "function", "path_to_code",
    "exception_type", "traceback", "exception_message", "thread", "process", "from_logging"].map
    String.toList

theorem or_regroup {a m b f p e t : Prop} :
    ((((((a ∨ m) ∨ b) ∨ f) ∨ p) ∨ e) ∨ t) ↔ (((a ∨ b) ∨ p) ∨ t) ∨ ((m ∨ f) ∨ e) := by
  constructor <;> intro h <;> tauto

theorem recData_mem {r : LogRec} {d : Dict Str HVal} (hd : recData r = .ok d) (x : Str × HVal) :
    x ∈ d ↔ x ∈ recFixed r ∨ x ∈ recVariable r := by
  unfold recData at hd
  unfold recVariable recFixed
  split at hd
  · cases hd
  · rename_i m hm
    split at hd
    · cases hd
    · rename_i e he
      cases hd
      rw [hm, he]
      dsimp only
      have e0 : ∀ (a b c d e f g h i : Str × HVal),
          [a, b, c, d, e, f, g, h, i] = [a] ++ [b, c, d, e] ++ [f] ++ [g, h, i] :=
        fun _ _ _ _ _ _ _ _ _ => rfl
      rw [e0]
      simp only [List.mem_append]
      exact or_regroup

theorem recData_keys {r : LogRec} {d : Dict Str HVal} (hd : recData r = .ok d) :
    (d.map fun x => fullName x.1).Sublist recNames := by
  unfold recData at hd
  split at hd
  · cases hd
  · rename_i m hm
    split at hd
    · cases hd
    · rename_i e he
      cases hd
      have h1 : (m.map fun x => fullName x.1).Sublist ["message".toList] := by
        unfold recMessage at hm
        split at hm
        · split at hm <;> cases hm
          exact List.Sublist.refl _
        · cases hm; exact List.nil_sublist _
      have h2 : (e.map fun x => fullName x.1).Sublist
          ["exception_type".toList, "traceback".toList, "exception_message".toList] := by
        unfold recException at he
        split at he <;> cases he
        · exact List.nil_sublist _
        · exact List.Sublist.refl _
      have h3 : ((if r.funcIsId then [("function".toList, HVal.str r.funcName)] else []).map
          fun x => fullName x.1).Sublist ["function".toList] := by
        split
        · exact List.Sublist.refl _
        · exact List.nil_sublist _
      simp only [List.map_append]
      have e0 : recNames = ["time".toList] ++ ["message".toList] ++
          ["level".toList, "success".toList, "module".toList, "line_number".toList] ++
          ["function".toList] ++ ["path_to_code".toList] ++
          ["exception_type".toList, "traceback".toList, "exception_message".toList] ++
          ["thread".toList, "process".toList, "from_logging".toList] := rfl
      rw [e0]
      exact (((((List.Sublist.refl _).append h1).append (List.Sublist.refl _)).append h3).append
        (List.Sublist.refl _)).append h2 |>.append (List.Sublist.refl _)

theorem recNames_nodup : recNames.Nodup := by decide

theorem recData_noAliases {r : LogRec} {d : Dict Str HVal} (hd : recData r = .ok d) : NoAliases d :=
  (recData_keys hd).nodup recNames_nodup

theorem recVariable_mem {r : LogRec} {k : Str} {v : HVal} (h : (k, v) ∈ recVariable r) :
    (k = "message".toList ∧ r.msgTrue = true ∧ ∃ s, r.getMessage = .ok s ∧ v = .str s) ∨
    (k = "function".toList ∧ r.funcIsId = true ∧ v = .str r.funcName) ∨
    (∃ t m tb, r.excInfo = .triple t m tb ∧
      ((k = "exception_type".toList ∧ v = .str t) ∨ (k = "traceback".toList ∧ v = .str tb) ∨
        (k = "exception_message".toList ∧ v = .str m))) := by
  unfold recVariable at h
  rcases List.mem_append.1 h with h | h
  · rcases List.mem_append.1 h with h | h
    · left
      unfold recMessage at h
      cases hb : r.msgTrue with
      | false => rw [hb] at h; cases h
      | true =>
        rw [hb] at h
        rcases hg : r.getMessage with e | s
        · rw [hg] at h; cases h
        · rw [hg] at h
          rcases List.mem_singleton.1 h with h
          cases h
          exact ⟨rfl, rfl, s, rfl, rfl⟩
    · right; left
      cases hb : r.funcIsId with
      | false => rw [hb] at h; cases h
      | true => rw [hb] at h; cases List.mem_singleton.1 h; exact ⟨rfl, rfl, rfl⟩
  · right; right
    unfold recException at h
    rcases hg : r.excInfo with _ | _ | _ | ⟨t, m, tb⟩ <;> rw [hg] at h
    · cases h
    · cases h
    · cases h
    · refine ⟨t, m, tb, rfl, ?_⟩
      dsimp only at h
      simp only [List.mem_cons, List.not_mem_nil, or_false, Prod.mk.injEq] at h
      exact h

theorem rightArg_other (env : HEnv) {k : Str} (v : HVal) (h : fullName k ∉ standardNames) :
    RightArg simpleLogger env k v := ⟨List.not_mem_nil, .inr ⟨h, .inr (.inr (.inl rfl))⟩⟩

theorem rightArg_std (env : HEnv) {k : Str} {v : HVal} (h : Accepts (fullName k) v) :
    RightArg simpleLogger env k v := ⟨List.not_mem_nil, .inl h⟩

theorem recData_right (env : HEnv) {r : LogRec} {d : Dict Str HVal} (hd : recData r = .ok d)
    {k : Str} {v : HVal} (hm : (k, v) ∈ d) : RightArg simpleLogger env k v := by
  rcases (recData_mem hd _).1 hm with h | h
  · unfold recFixed at h
    simp only [List.mem_cons, List.not_mem_nil, or_false, Prod.mk.injEq] at h
    rcases h with ⟨rfl, rfl⟩ | ⟨rfl, rfl⟩ | ⟨rfl, rfl⟩ | ⟨rfl, rfl⟩ | ⟨rfl, rfl⟩ | ⟨rfl, rfl⟩ |
      ⟨rfl, rfl⟩ | ⟨rfl, rfl⟩ | ⟨rfl, rfl⟩
    · exact rightArg_other env _ (by decide)
    · exact rightArg_std env (.level _)
    · exact rightArg_std env (.success _)
    · exact rightArg_std env (.module _)
    all_goals exact rightArg_other env _ (by decide)
  · rcases recVariable_mem h with ⟨rfl, _, s, _, rfl⟩ | ⟨rfl, _, rfl⟩ | ⟨t, m, tb, _, h⟩
    · exact rightArg_std env (.message _)
    · exact rightArg_std env (.functionName _)
    · rcases h with ⟨rfl, rfl⟩ | ⟨rfl, rfl⟩ | ⟨rfl, rfl⟩ <;>
        exact rightArg_other env _ (by decide)

theorem fixed_level_only {r : LogRec} {d : Dict Str HVal} (hd : recData r = .ok d) {v : HVal}
    (hm : ("level".toList, v) ∈ d) : v = .int r.levelno := by
  rcases (recData_mem hd _).1 hm with h | h
  · unfold recFixed at h
    simp only [List.mem_cons, List.not_mem_nil, or_false, Prod.mk.injEq] at h
    rcases h with ⟨h, rfl⟩ | ⟨h, rfl⟩ | ⟨h, rfl⟩ | ⟨h, rfl⟩ | ⟨h, rfl⟩ | ⟨h, rfl⟩ |
      ⟨h, rfl⟩ | ⟨h, rfl⟩ | ⟨h, rfl⟩ <;> first | rfl | exact absurd h (by decide)
  · rcases recVariable_mem h with ⟨h, _⟩ | ⟨h, _⟩ | ⟨t, m, tb, _, ⟨h, _⟩ | ⟨h, _⟩ | ⟨h, _⟩⟩ <;>
      exact absurd h (by decide)

theorem recData_valid (env : HEnv) {r : LogRec} {d : Dict Str HVal} (h : Sound r)
    (hd : recData r = .ok d) : ValidCall simpleLogger env [] d where
  positional := Nat.zero_le _
  aliases := recData_noAliases hd
  right := fun _ _ hm => recData_right env hd hm
  level := by
    intro v hm _
    rw [fixed_level_only hd hm]
    exact ⟨_, .number _ h.level⟩
  message := by intro m v hm; cases hm

theorem given_fixed (levels : Levels) {r : LogRec} {d : Dict Str HVal} (hd : recData r = .ok d)
    {name : Str} {v : HVal} (hm : (name, v) ∈ recFixed r) (hn : fullName name = name)
    (hv : v ≠ .none) : given levels [] d name = some (stored levels name v) :=
  given_of_mem (recData_noAliases hd) ((recData_mem hd _).2 (.inl hm)) hn hv

theorem given_variable (levels : Levels) {r : LogRec} {d : Dict Str HVal} (hd : recData r = .ok d)
    {name : Str} {v : HVal} (hm : (name, v) ∈ recVariable r) (hn : fullName name = name)
    (hv : v ≠ .none) : given levels [] d name = some (stored levels name v) :=
  given_of_mem (recData_noAliases hd) ((recData_mem hd _).2 (.inr hm)) hn hv

theorem given_nowhere (levels : Levels) {r : LogRec} {d : Dict Str HVal} (hd : recData r = .ok d)
    {name : Str} (h1 : name ∉ (recFixed r).map fun x => fullName x.1)
    (h2 : name ∉ (recVariable r).map fun x => fullName x.1) : given levels [] d name = none := by
  refine given_absent fun hm => ?_
  obtain ⟨x, hx, e⟩ := List.mem_map.1 hm
  rcases (recData_mem hd _).1 hx with h | h
  · exact h1 (List.mem_map.2 ⟨x, h, e⟩)
  · exact h2 (List.mem_map.2 ⟨x, h, e⟩)

end Polog
