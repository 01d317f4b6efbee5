import Verif.Handle.Lemmas

/-! The table of fields of a manual record, and the loop over keyword arguments. -/

namespace Polog
open HandleSpec

section table
variable (env : HEnv)

theorem get_auto_stage (f : Dict Str HVal) (n : Str) :
    Dict.get? n (markManual env f) =
    if n = "auto".toList then some (.bool false)
    else if n = "service_name".toList then
      match env.serviceName with | some s => some (.str s) | none => Dict.get? n f
    else Dict.get? n f := by
  unfold markManual
  cases env.serviceName with
  | none =>
    simp only [Dict.get?_set]
    by_cases h : n = "auto".toList
    · subst h; simp
    · rw [if_neg (fun e => h e.symm), if_neg h]; split <;> rfl
  | some s =>
    simp only [Dict.get?_set]
    by_cases h : n = "auto".toList
    · subst h
      rw [if_neg (by decide), if_pos rfl, if_pos rfl]
    · rw [if_neg h]
      by_cases h2 : n = "service_name".toList
      · subst h2; rw [if_pos rfl, if_pos rfl]
      · rw [if_neg h2, if_neg (fun e => h2 e.symm), if_neg (fun e => h e.symm)]

theorem WF_markManual {f : Dict Str HVal} (hf : Dict.WF f) : Dict.WF (markManual env f) := by
  unfold markManual
  cases env.serviceName with
  | none => exact Dict.WF_set hf
  | some s => exact Dict.WF_set (Dict.WF_set hf)

/-- A dictionary update chain read at a literal key. -/
macro "lits" : tactic =>
  `(tactic| simp (decide := true) only [Dict.get?_set, if_true, if_false, ↓reduceIte])

theorem extractException_none {f : Dict Str HVal} (b c : Bool)
    (h : Dict.get? "exception".toList f = none) : extractException env b c f = f := by
  unfold extractException; rw [h]

theorem WF_exc_stage {f : Dict Str HVal} (hf : Dict.WF f) (v : HVal) :
    Dict.WF (exceptionInfo env v f) := by
  unfold exceptionInfo
  cases v with
  | exc i t m =>
    dsimp only
    split
    · exact Dict.WF_set (Dict.WF_set (Dict.WF_set hf))
    · exact Dict.WF_set (Dict.WF_set (Dict.WF_set (Dict.WF_set hf)))
  | str s => exact Dict.WF_set hf
  | _ => exact hf

theorem get_exc_stage (f : Dict Str HVal) (v : HVal) (m : Str) :
    Dict.get? m (exceptionInfo env v f) =
        if m = "exception_type".toList then
          match v with
          | .exc _ t _ => some (.str t)
          | .str s => some (.str s)
          | _ => Dict.get? m f
        else if m = "exception_message".toList then
          match v with
          | .exc _ _ m' => some (.str m')
          | _ => Dict.get? m f
        else if m = "traceback".toList then
          match v with
          | .exc _ _ _ => some (.str env.traceback)
          | _ => Dict.get? m f
        else if m = "local_variables".toList then
          match v with
          | .exc _ _ _ => if env.localsText = [] then Dict.get? m f else some (.str env.localsText)
          | _ => Dict.get? m f
        else Dict.get? m f := by
  unfold exceptionInfo
  by_cases h1 : m = "exception_type".toList
  · subst h1
    cases v <;> dsimp only <;> by_cases hL : env.localsText = [] <;> (try rw [if_pos hL]) <;> (try rw [if_neg hL]) <;> lits <;> simp only [hL, ↓reduceIte]
  by_cases h2 : m = "exception_message".toList
  · subst h2
    cases v <;> dsimp only <;> by_cases hL : env.localsText = [] <;> (try rw [if_pos hL]) <;> (try rw [if_neg hL]) <;> lits <;> simp only [hL, ↓reduceIte]
  by_cases h3 : m = "traceback".toList
  · subst h3
    cases v <;> dsimp only <;> by_cases hL : env.localsText = [] <;> (try rw [if_pos hL]) <;> (try rw [if_neg hL]) <;> lits <;> simp only [hL, ↓reduceIte]
  by_cases h4 : m = "local_variables".toList
  · subst h4
    cases v <;> dsimp only <;> by_cases hL : env.localsText = [] <;> (try rw [if_pos hL]) <;> (try rw [if_neg hL]) <;> lits <;> simp only [hL, ↓reduceIte]
  · have e1 := fun e : "exception_type".toList = m => h1 e.symm
    have e2 := fun e : "exception_message".toList = m => h2 e.symm
    have e3 := fun e : "traceback".toList = m => h3 e.symm
    have e4 := fun e : "local_variables".toList = m => h4 e.symm
    rw [if_neg h1, if_neg h2, if_neg h3, if_neg h4]
    cases v with
    | exc i t x =>
      dsimp only
      split
      · rw [Dict.get?_set_ne e3, Dict.get?_set_ne e1, Dict.get?_set_ne e2]
      · rw [Dict.get?_set_ne e4, Dict.get?_set_ne e3, Dict.get?_set_ne e1, Dict.get?_set_ne e2]
    | str s => dsimp only; rw [Dict.get?_set_ne e1]
    | _ => rfl

/-- What `_extract_exception` (with both flags) leaves under each name. -/
def excTable (g : Str → Option HVal) (n : Str) : Option HVal :=
  match g "exception".toList with
  | none => g n
  | some v =>
    if n = "exception".toList then none
    else if n = "success".toList then some (.bool false)
    else if n = "level".toList then
      match g "level".toList with
      | some l => some l
      | none => some (.int env.defaultErrorLevel)
    else if n = "exception_type".toList then
      match v with
      | .exc _ t _ => some (.str t)
      | .str s => some (.str s)
      | _ => g n
    else if n = "exception_message".toList then
      match v with
      | .exc _ _ m => some (.str m)
      | _ => g n
    else if n = "traceback".toList then
      match v with
      | .exc _ _ _ => some (.str env.traceback)
      | _ => g n
    else if n = "local_variables".toList then
      match v with
      | .exc _ _ _ => if env.localsText = [] then g n else some (.str env.localsText)
      | _ => g n
    else g n

theorem get_exception {f : Dict Str HVal} (hf : Dict.WF f) (n : Str) :
    Dict.get? n (extractException env true true f) = excTable env (fun k => Dict.get? k f) n := by
  rcases Option.eq_none_or_eq_some (Dict.get? "exception".toList f) with hv | ⟨v, hv⟩
  · rw [extractException_none env _ _ hv]
    unfold excTable; dsimp only; rw [hv]
  · unfold extractException excTable
    dsimp only
    rw [hv]
    dsimp only
    simp only [↓reduceIte, Bool.true_and, Dict.has]
    have hW : Dict.WF (exceptionInfo env v f) := WF_exc_stage env hf v
    have hst' := get_exc_stage env f v
    generalize exceptionInfo env v f = st at hW hst'
    have hlev : Dict.get? "level".toList
        (Dict.set "success".toList (.bool false) (Dict.erase "exception".toList st))
        = Dict.get? "level".toList f := by
      rw [Dict.get?_set_ne (by decide), Dict.get?_erase hW, if_neg (by decide), hst']
      rw [if_neg (by decide), if_neg (by decide), if_neg (by decide), if_neg (by decide)]
    have hbase : Dict.get? n
        (Dict.set "success".toList (.bool false) (Dict.erase "exception".toList st))
        = if n = "success".toList then some (.bool false)
          else if n = "exception".toList then none else Dict.get? n st := by
      by_cases h1 : n = "success".toList
      · subst h1; rw [Dict.get?_set_self, if_pos rfl]
      · rw [Dict.get?_set_ne (fun e => h1 e.symm), Dict.get?_erase hW, if_neg h1]
        by_cases h2 : n = "exception".toList
        · subst h2; simp
        · rw [if_neg h2, if_neg (fun e => h2 e.symm)]
    by_cases hl : n = "level".toList
    · subst hl
      rw [hlev, if_neg (show ¬ "level".toList = "exception".toList by decide),
        if_neg (show ¬ "level".toList = "success".toList by decide), if_pos rfl]
      cases hq : Dict.get? "level".toList f with
      | none => simp only [Option.isSome_none, Bool.not_false, ↓reduceIte, Dict.get?_set_self]
      | some l =>
        simp only [Option.isSome_some, Bool.not_true, Bool.false_eq_true, ↓reduceIte]
        rw [hlev, hq]
    · have hl' : Dict.get? n
          (if (!(Dict.get? "level".toList
            (Dict.set "success".toList (.bool false) (Dict.erase "exception".toList st))).isSome) = true
          then Dict.set "level".toList (.int env.defaultErrorLevel)
            (Dict.set "success".toList (.bool false) (Dict.erase "exception".toList st))
          else Dict.set "success".toList (.bool false) (Dict.erase "exception".toList st))
          = Dict.get? n (Dict.set "success".toList (.bool false) (Dict.erase "exception".toList st)) := by
        split
        · rw [Dict.get?_set_ne (fun e => hl e.symm)]
        · rfl
      rw [hl', hbase]
      by_cases h1 : n = "success".toList
      · subst h1
        rw [if_pos rfl, if_neg (by decide), if_pos rfl]
      · rw [if_neg h1, if_neg h1, if_neg hl, hst']

/-- What `_extract_function_data` leaves under each name. -/
def fnTable (g : Str → Option HVal) (n : Str) : Option HVal :=
  if n = "function".toList then
    match g n with
    | some (.fn _ nm _ text) => some (.str (nm.getD text))
    | some (.cls _ nm _) => some (.str nm)
    | v => v
  else if n = "module".toList then
    match g "function".toList with
    | some (.fn _ _ (some m) _) => some (.str m)
    | some (.cls _ _ m) => some (.str m)
    | _ => g n
  else g n

theorem get_function (f : Dict Str HVal) (n : Str) :
    Dict.get? n (extractFunctionData f) = fnTable (fun k => Dict.get? k f) n := by
  unfold extractFunctionData fnTable
  by_cases h1 : n = "function".toList
  · subst h1
    rw [if_pos rfl]
    rcases Option.eq_none_or_eq_some (Dict.get? "function".toList f) with hv | ⟨v, hv⟩
    · simp only [hv]
    · simp only [hv]
      cases v with
      | cls i nm m => dsimp only; rw [Dict.get?_set_ne (by decide), Dict.get?_set_self]
      | fn i nm m t =>
        cases m with
        | none => dsimp only; rw [Dict.get?_set_self]
        | some m => dsimp only; rw [Dict.get?_set_ne (by decide), Dict.get?_set_self]
      | _ => dsimp only; exact hv
  · rw [if_neg h1]
    by_cases h2 : n = "module".toList
    · subst h2
      rw [if_pos rfl]
      rcases Option.eq_none_or_eq_some (Dict.get? "function".toList f) with hv | ⟨v, hv⟩
      · simp only [hv]
      · simp only [hv]
        cases v with
        | cls i nm m => dsimp only; rw [Dict.get?_set_self]
        | fn i nm m t =>
          cases m with
          | none => dsimp only; rw [Dict.get?_set_ne (by decide)]
          | some m => dsimp only; rw [Dict.get?_set_self]
        | _ => rfl
    · rw [if_neg h2]
      have e1 := fun e : "function".toList = n => h1 e.symm
      have e2 := fun e : "module".toList = n => h2 e.symm
      split
      · rw [Dict.get?_set_ne e2, Dict.get?_set_ne e1]
      · dsimp only
        split
        · rw [Dict.get?_set_ne e2, Dict.get?_set_ne e1]
        · rw [Dict.get?_set_ne e1]
      · rfl

theorem get_defaults (f : Dict Str HVal) (n : Str) :
    Dict.get? n (defaultsToDict env f) =
      if n = "level".toList then
        match Dict.get? n f with
        | some v => some v
        | none => some (.int (if successOf f then env.defaultLevel else env.defaultErrorLevel))
      else if n = "time".toList then
        match Dict.get? n f with | some v => some v | none => some env.now
      else Dict.get? n f := by
  unfold defaultsToDict Dict.has
  dsimp only
  by_cases h1 : n = "level".toList
  · subst h1
    rw [if_pos rfl]
    cases hl : Dict.get? "level".toList f with
    | some v =>
      simp only [Option.isSome_some, ↓reduceIte]
      split
      · exact hl
      · rw [Dict.get?_set_ne (by decide)]; exact hl
    | none =>
      simp only [Option.isSome_none, Bool.false_eq_true, ↓reduceIte]
      generalize (if successOf f = true then env.defaultLevel else env.defaultErrorLevel) = lv
      split
      · rw [Dict.get?_set_self]
      · rw [Dict.get?_set_ne (by decide), Dict.get?_set_self]
  · rw [if_neg h1]
    have e1 := fun e : "level".toList = n => h1 e.symm
    have key : ∀ m, m ≠ "level".toList → Dict.get? m
        (if (Dict.get? "level".toList f).isSome = true then f
          else Dict.set "level".toList
            (.int (if successOf f = true then env.defaultLevel else env.defaultErrorLevel)) f)
        = Dict.get? m f := by
      intro m hm
      split
      · rfl
      · rw [Dict.get?_set_ne (fun e => hm e.symm)]
    by_cases h2 : n = "time".toList
    · subst h2
      rw [if_pos rfl, key _ (by decide)]
      cases ht : Dict.get? "time".toList f with
      | some v => simp only [Option.isSome_some, ↓reduceIte]; rw [key _ (by decide), ht]
      | none => simp only [Option.isSome_none, Bool.false_eq_true, ↓reduceIte, Dict.get?_set_self]
    · rw [if_neg h2]
      generalize (if (Dict.get? "level".toList f).isSome = true then f
          else Dict.set "level".toList
            (.int (if successOf f = true then env.defaultLevel else env.defaultErrorLevel)) f) = d at key
      split
      · rw [key _ h1]
      · rw [Dict.get?_set_ne (fun e => h2 e.symm), key _ h1]


theorem lvl_aux (e : Bool) (P : Prop) [Decidable P] (a b : Int) :
    (match (if e = true then some (HVal.int b) else none) with
      | some v => some v
      | none => some (HVal.int (if (!(e || decide P)) = true then a else b)))
    = some (if e = true ∨ P then HVal.int b else HVal.int a) := by
  cases e <;> by_cases h : P <;> simp [h]

/-- The whole processing of a manual record realises the table of the specification. -/
theorem get_specific {f : Dict Str HVal} (hf : Dict.WF f) (n : Str) :
    Dict.get? n (specificProcessing env f) = HandleSpec.field env (fun k => Dict.get? k f) n := by
  unfold specificProcessing
  rw [get_defaults]
  have hW := WF_markManual env hf
  have hg := get_auto_stage env f
  generalize markManual env f = d at hW hg
  have hx : ∀ m, m ≠ "auto".toList → m ≠ "service_name".toList → Dict.get? m d = Dict.get? m f :=
    fun m h1 h2 => by rw [hg, if_neg h1, if_neg h2]
  have hE := get_exception env hW
  generalize extractException env true true d = d2 at hE
  have hF := get_function d2
  have hs : successOf (extractFunctionData d2) =
      !(((Dict.get? "exception".toList f).isSome ||
        decide (Dict.get? "success".toList f = some (.bool false)))) := by
    unfold successOf
    rw [hF]; unfold fnTable
    rw [if_neg (by decide), if_neg (by decide)]
    dsimp only
    rw [hE]
    unfold excTable
    dsimp only
    rw [hx "exception".toList (by decide) (by decide)]
    rcases Option.eq_none_or_eq_some (Dict.get? "exception".toList f) with hv | ⟨v, hv⟩
    · simp only [hv]
      rw [hx "success".toList (by decide) (by decide)]
      generalize Dict.get? "success".toList f = q
      cases q with
      | none => rfl
      | some q =>
        cases q with
        | bool b => cases b <;> rfl
        | _ => rfl
    · simp only [hv]
      rw [if_neg (by decide)]
      rfl
  have hlv : Dict.get? "level".toList (extractFunctionData d2) =
      match Dict.get? "level".toList f with
      | some l => some l
      | none => if (Dict.get? "exception".toList f).isSome then some (.int env.defaultErrorLevel) else none := by
    rw [hF]; unfold fnTable
    rw [if_neg (by decide), if_neg (by decide)]
    dsimp only
    rw [hE]
    unfold excTable
    dsimp only
    rw [hx "exception".toList (by decide) (by decide), hx "level".toList (by decide) (by decide)]
    rcases Option.eq_none_or_eq_some (Dict.get? "exception".toList f) with hv | ⟨v, hv⟩
    · simp only [hv]
      generalize Dict.get? "level".toList f = q
      cases q <;> rfl
    · simp only [hv]
      rw [if_neg (by decide), if_neg (by decide)]
      generalize Dict.get? "level".toList f = q
      cases q <;> rfl
  unfold HandleSpec.field
  by_cases h1 : n = "level".toList
  · subst h1
    rw [if_pos rfl, hlv, hs]
    repeat rw [if_neg (show ¬ ("level".toList = _) by decide)]
    rw [if_pos rfl]
    unfold levelOf
    rcases Option.eq_none_or_eq_some (Dict.get? "level".toList f) with hq | ⟨q, hq⟩
    · simp only [hq]
      exact lvl_aux _ _ _ _
    · simp only [hq]
  · rw [if_neg h1]
    have hmain : Dict.get? n (extractFunctionData d2) = fnTable (excTable env (fun k => Dict.get? k d)) n := by
      rw [hF]; unfold fnTable; simp only [hE]
    rw [hmain]
    have hexc : Dict.get? "exception".toList d = Dict.get? "exception".toList f :=
      hx _ (by decide) (by decide)
    have plain : ∀ m, m ≠ "auto".toList → m ≠ "service_name".toList → m ≠ "exception".toList →
        m ≠ "exception_type".toList → m ≠ "exception_message".toList → m ≠ "traceback".toList →
        m ≠ "local_variables".toList → m ≠ "success".toList → m ≠ "level".toList →
        excTable env (fun k => Dict.get? k d) m = Dict.get? m f := by
      intro m a1 a2 a3 a4 a5 a6 a7 a8 a9
      unfold excTable
      dsimp only
      rw [hexc, hx m a1 a2]
      rcases Option.eq_none_or_eq_some (Dict.get? "exception".toList f) with hv | ⟨v, hv⟩
      · simp only [hv]
      · simp only [hv]
        rw [if_neg a3, if_neg a8, if_neg a9, if_neg a4, if_neg a5, if_neg a6, if_neg a7]
    by_cases hfn : n = "function".toList
    · subst hfn
      repeat rw [if_neg (show ¬ ("function".toList = _) by decide)]
      rw [if_pos rfl]
      unfold fnTable
      rw [if_pos rfl, plain _ (by decide) (by decide) (by decide) (by decide) (by decide) (by decide)
        (by decide) (by decide) (by decide)]
      dsimp only
      generalize Dict.get? "function".toList f = q
      rcases q with _ | q
      · rfl
      · cases q <;> rfl
    by_cases hmd : n = "module".toList
    · subst hmd
      repeat rw [if_neg (show ¬ ("module".toList = _) by decide)]
      rw [if_pos rfl]
      unfold fnTable
      rw [if_neg (by decide), if_pos rfl, plain "function".toList (by decide) (by decide) (by decide)
        (by decide) (by decide) (by decide) (by decide) (by decide) (by decide),
        plain "module".toList (by decide) (by decide) (by decide)
        (by decide) (by decide) (by decide) (by decide) (by decide) (by decide)]
      dsimp only
      generalize Dict.get? "function".toList f = q
      rcases q with _ | q
      · rfl
      · cases q with
        | fn _ _ m _ => cases m <;> rfl
        | _ => rfl
    have hnf : fnTable (excTable env (fun k => Dict.get? k d)) n = excTable env (fun k => Dict.get? k d) n := by
      unfold fnTable; rw [if_neg hfn, if_neg hmd]
    rw [hnf]
    by_cases ht : n = "time".toList
    · subst ht
      repeat rw [if_neg (show ¬ ("time".toList = _) by decide)]
      rw [if_pos rfl, plain _ (by decide) (by decide) (by decide) (by decide) (by decide) (by decide)
        (by decide) (by decide) (by decide)]
      rfl
    rw [if_neg ht]
    by_cases a1 : n = "auto".toList
    · subst a1
      rw [if_pos rfl]
      unfold excTable
      dsimp only
      rw [hexc, hg]
      split
      · rfl
      · rfl
    rw [if_neg a1]
    by_cases a2 : n = "service_name".toList
    · subst a2
      rw [if_pos rfl]
      unfold excTable
      dsimp only
      rw [hexc, hg, if_neg (by decide), if_pos rfl]
      rcases Option.eq_none_or_eq_some (Dict.get? "exception".toList f) with hv | ⟨v, hv⟩
      · simp only [hv]; cases env.serviceName <;> rfl
      · simp only [hv]
        rfl
    rw [if_neg a2]
    have hn := hx n a1 a2
    unfold excTable
    dsimp only
    rw [hexc, hn]
    rcases Option.eq_none_or_eq_some (Dict.get? "exception".toList f) with hv | ⟨v, hv⟩
    · simp only [hv, Option.isSome_none, Bool.false_eq_true, ↓reduceIte]
      by_cases a3 : n = "exception".toList
      · subst a3; simpa using hv
      · rw [if_neg a3]
        simp only [ite_self, h1, hfn, hmd, ht, ↓reduceIte]
    · simp only [hv, Option.isSome_some, ↓reduceIte, h1, hfn, hmd, ht]
      by_cases a3 : n = "exception".toList
      · rw [if_pos a3, if_pos a3]
      rw [if_neg a3, if_neg a3]
      by_cases a4 : n = "success".toList
      · subst a4
        rw [if_pos rfl]
        repeat rw [if_neg (show ¬ ("success".toList = _) by decide)]
        rw [if_pos rfl]
      · simp only [a4, ↓reduceIte]
        by_cases a5 : n = "exception_type".toList
        · simp only [a5, ↓reduceIte]; cases v <;> rfl
        by_cases a6 : n = "exception_message".toList
        · simp only [a6, ↓reduceIte]; cases v <;> rfl
        by_cases a7 : n = "traceback".toList
        · simp only [a7, ↓reduceIte]; cases v <;> rfl
        by_cases a8 : n = "local_variables".toList
        · simp only [a8, ↓reduceIte]; cases v <;> rfl
        · simp only [a5, a6, a7, a8, ↓reduceIte]

end table
end Polog
