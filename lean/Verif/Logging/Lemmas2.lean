import Verif.Logging.Lemmas

/-! Helper lemmas: the fields of the intercepted record. -/

namespace Polog
open HandleSpec LoggingSpec

theorem recVariable_key {r : LogRec} {name : Str}
    (hm : name ∈ (recVariable r).map fun x => fullName x.1) :
    (name = "message".toList ∧ r.msgTrue = true) ∨ (name = "function".toList ∧ r.funcIsId = true) ∨
    ((name = "exception_type".toList ∨ name = "traceback".toList ∨ name = "exception_message".toList) ∧
      r.excInfo ≠ .none) := by
  obtain ⟨x, hx, e⟩ := List.mem_map.1 hm
  rcases recVariable_mem (k := x.1) (v := x.2) hx with ⟨h, h', _⟩ | ⟨h, h', _⟩ | ⟨t, m, tb, he, h⟩
  · rw [h] at e; exact .inl ⟨e.symm, h'⟩
  · rw [h] at e; exact .inr (.inl ⟨e.symm, h'⟩)
  · refine .inr (.inr ⟨?_, by rw [he]; exact fun h => nomatch h⟩)
    rcases h with ⟨h, _⟩ | ⟨h, _⟩ | ⟨h, _⟩
    · rw [h] at e; exact .inl e.symm
    · rw [h] at e; exact .inr (.inl e.symm)
    · rw [h] at e; exact .inr (.inr e.symm)

theorem recFixed_keys (r : LogRec) : ((recFixed r).map fun x => fullName x.1) =
    ["time".toList, "level".toList, "success".toList, "module".toList, "line_number".toList,
      "path_to_code".toList, "thread".toList, "process".toList, "from_logging".toList] := rfl

theorem mem_message {r : LogRec} {s : Str} (h : r.msgTrue = true) (hs : r.getMessage = .ok s) :
    ("message".toList, HVal.str s) ∈ recVariable r := by
  unfold recVariable recMessage
  rw [h, hs]
  exact List.mem_append_left _ (List.mem_append_left _ (List.mem_singleton.2 rfl))

theorem mem_function {r : LogRec} (h : r.funcIsId = true) :
    ("function".toList, HVal.str r.funcName) ∈ recVariable r := by
  unfold recVariable
  rw [h]
  exact List.mem_append_left _ (List.mem_append_right _ (List.mem_singleton.2 rfl))

theorem mem_exc {r : LogRec} {t m tb : Str} (h : r.excInfo = .triple t m tb) {x : Str × HVal}
    (hx : x ∈ [("exception_type".toList, HVal.str t), ("traceback".toList, HVal.str tb),
      ("exception_message".toList, HVal.str m)]) : x ∈ recVariable r := by
  unfold recVariable recException
  rw [h]
  exact List.mem_append_right _ hx

section
variable (levels : Levels) {r : LogRec} {d : Dict Str HVal} (hd : recData r = .ok d)
include hd

theorem given_rec_message {s : Str} (hb : r.msgTrue = true) (hs : r.getMessage = .ok s) :
    given levels [] d "message".toList = some (.str s) :=
  given_variable levels hd (mem_message hb hs) (by decide) (fun h => nomatch h)

theorem given_rec_no_message (hb : r.msgTrue = false) :
    given levels [] d "message".toList = none := by
    refine given_nowhere levels hd (by rw [recFixed_keys]; decide) fun hm => ?_
    rcases recVariable_key hm with ⟨_, h⟩ | ⟨h, _⟩ | ⟨h | h | h, _⟩
    · rw [hb] at h; cases h
    all_goals exact absurd h (by decide)

theorem given_rec_function :
    given levels [] d "function".toList = if r.funcIsId then some (.str r.funcName) else none := by
  cases hb : r.funcIsId with
  | true => exact given_variable levels hd (mem_function hb) (by decide) (fun h => nomatch h)
  | false =>
    refine given_nowhere levels hd (by rw [recFixed_keys]; decide) fun hm => ?_
    rcases recVariable_key hm with ⟨h, _⟩ | ⟨_, h⟩ | ⟨h | h | h, _⟩
    · exact absurd h (by decide)
    · rw [hb] at h; cases h
    all_goals exact absurd h (by decide)

theorem given_rec_level : given levels [] d "level".toList = some (.int r.levelno) :=
  given_fixed levels hd (.tail _ (.head _)) (by decide) (fun h => nomatch h)

theorem given_rec_success :
    given levels [] d "success".toList = some (.bool (decide (r.levelno < 30))) := by
  have h := given_fixed levels hd (name := "success".toList)
    (v := .bool (if r.levelno ≥ 30 then false else true))
    (.tail _ (.tail _ (.head _))) (by decide) (fun h => nomatch h)
  rw [h]
  by_cases h30 : r.levelno ≥ 30
  · rw [if_pos h30, decide_eq_false (by omega)]; rfl
  · rw [if_neg h30, decide_eq_true (by omega)]; rfl

theorem given_rec_module : given levels [] d "module".toList = some (.str r.module) :=
  given_fixed levels hd (.tail _ (.tail _ (.tail _ (.head _)))) (by decide) (fun h => nomatch h)

theorem given_rec_exception : given levels [] d "exception".toList = none := by
  refine given_nowhere levels hd (by rw [recFixed_keys]; decide) fun hm => ?_
  rcases recVariable_key hm with ⟨h, _⟩ | ⟨h, _⟩ | ⟨h | h | h, _⟩ <;> exact absurd h (by decide)

theorem given_rec_auto : given levels [] d "auto".toList = none := by
  refine given_nowhere levels hd (by rw [recFixed_keys]; decide) fun hm => ?_
  rcases recVariable_key hm with ⟨h, _⟩ | ⟨h, _⟩ | ⟨h | h | h, _⟩ <;> exact absurd h (by decide)

theorem given_rec_exc (h : Sound r) :
    (given levels [] d "exception_type".toList =
      match r.excInfo with | .triple t _ _ => some (.str t) | _ => none) ∧
    (given levels [] d "exception_message".toList =
      match r.excInfo with | .triple _ m _ => some (.str m) | _ => none) ∧
    (given levels [] d "traceback".toList =
      match r.excInfo with | .triple _ _ tb => some (.str tb) | _ => none) := by
  rcases h.exc with he | ⟨t, m, tb, he⟩
  · have key : ∀ name : Str, name ≠ "message".toList → name ≠ "function".toList →
        name ∉ (recVariable r).map fun x => fullName x.1 := by
      intro name h1 h2 hm
      rcases recVariable_key hm with ⟨h, _⟩ | ⟨h, _⟩ | ⟨_, h⟩
      · exact h1 h
      · exact h2 h
      · exact h he
    rw [he]
    exact ⟨given_nowhere levels hd (by rw [recFixed_keys]; decide) (key _ (by decide) (by decide)),
      given_nowhere levels hd (by rw [recFixed_keys]; decide) (key _ (by decide) (by decide)),
      given_nowhere levels hd (by rw [recFixed_keys]; decide) (key _ (by decide) (by decide))⟩
  · have h1 := mem_exc he (x := ("exception_type".toList, .str t)) (.head _)
    have h2 := mem_exc he (x := ("traceback".toList, .str tb)) (.tail _ (.head _))
    have h3 := mem_exc he (x := ("exception_message".toList, .str m)) (.tail _ (.tail _ (.head _)))
    rw [he]
    exact ⟨given_variable levels hd h1 (by decide) (fun h => nomatch h),
      given_variable levels hd h3 (by decide) (fun h => nomatch h),
      given_variable levels hd h2 (by decide) (fun h => nomatch h)⟩

theorem fields_copied (env : HEnv) (h : Sound r) {f : Dict Str HVal}
    (hf : ∀ name, name ∈ builtIn → Dict.get? name f = field env (given env.levels [] d) name) :
    CopyOf r f where
  message := by
    intro s hb hs
    rw [hf _ (by decide)]
    unfold field
    repeat rw [if_neg (show ¬ ("message".toList = _) by decide)]
    exact given_rec_message _ hd hb hs
  noMessage := by
    intro hb
    rw [hf _ (by decide)]
    unfold field
    repeat rw [if_neg (show ¬ ("message".toList = _) by decide)]
    exact given_rec_no_message _ hd hb
  level := by
    rw [hf _ (by decide)]
    unfold field
    repeat rw [if_neg (show ¬ ("level".toList = _) by decide)]
    rw [if_pos rfl]
    unfold levelOf
    rw [given_rec_level _ hd]
  success := by
    rw [hf _ (by decide)]
    unfold field
    repeat rw [if_neg (show ¬ ("success".toList = _) by decide)]
    rw [if_pos rfl, given_rec_exception _ hd, given_rec_success _ hd]
    rfl
  function := by
    rw [hf _ (by decide)]
    unfold field
    repeat rw [if_neg (show ¬ ("function".toList = _) by decide)]
    rw [if_pos rfl, given_rec_function _ hd]
    cases r.funcIsId <;> rfl
  module := by
    rw [hf _ (by decide)]
    unfold field
    repeat rw [if_neg (show ¬ ("module".toList = _) by decide)]
    rw [if_pos rfl, given_rec_function _ hd, given_rec_module _ hd]
    cases r.funcIsId <;> rfl
  exception := by
    rw [hf _ (by decide)]
    unfold field
    repeat rw [if_neg (show ¬ ("exception_type".toList = _) by decide)]
    rw [if_pos rfl, given_rec_exception _ hd, (given_rec_exc _ hd h).1]
    cases r.excInfo <;> rfl
  exceptionMessage := by
    rw [hf _ (by decide)]
    unfold field
    repeat rw [if_neg (show ¬ ("exception_message".toList = _) by decide)]
    rw [if_pos rfl, given_rec_exception _ hd, (given_rec_exc _ hd h).2.1]
    cases r.excInfo <;> rfl
  traceback := by
    rw [hf _ (by decide)]
    unfold field
    repeat rw [if_neg (show ¬ ("traceback".toList = _) by decide)]
    rw [if_pos rfl, given_rec_exception _ hd, (given_rec_exc _ hd h).2.2]
    cases r.excInfo <;> rfl
  manual := by
    rw [hf _ (by decide)]
    rfl

end
end Polog
