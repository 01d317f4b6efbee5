import Verif.LogItem.Lemmas
import Verif.Calls.Lemmas

/-! Helper lemmas about decorated calls: the record of one call. -/

namespace Polog
open CallSpec

theorem get_setStr (k k' : Str) (s : Option Str) (d : Dict Str HVal) :
    Dict.get? k' (setStr k s d) = (if k = k' then s.map HVal.str else none).or (Dict.get? k' d) := by
  cases s with
  | none => simp [setStr]
  | some t =>
    simp only [setStr, Dict.get?_set]
    split <;> simp

/-- The dictionary of a successful call before the message is applied. -/
def normalData (env : CEnv) (d : Deco) (info : FnInfo) (text : Str) (n : Int) : Dict Str HVal :=
  setStr "service_name".toList env.h.serviceName
    (Dict.set "level".toList (.int n)
      (Dict.set "time_of_work".toList env.elapsed
        (Dict.set "result".toList (.str text)
          (Dict.set "success".toList (.bool true) (baseArgs env d info)))))

/-- The dictionary of a failed call before the message is applied. -/
def errorData (env : CEnv) (d : Deco) (info : FnInfo) (name text : Str) (n : Int) : Dict Str HVal :=
  setStr "service_name".toList env.h.serviceName
    (Dict.set "level".toList (.int n)
      (Dict.set "time_of_work".toList env.elapsed
        (Dict.set "local_variables".toList (.str env.h.localsText)
          (Dict.set "traceback".toList (.str env.h.traceback)
            (Dict.set "success".toList (.bool false)
              (Dict.set "exception_type".toList (.str name)
                (Dict.set "exception_message".toList (.str text) (baseArgs env d info))))))))

theorem normalData_get (env : CEnv) (d : Deco) (info : FnInfo) (v : Val) (text : Str) (n : Int)
    (ht : v.text = some text) (key : Str) (hk : info.inputs.join = none ∨ key ≠ "input_variables".toList) :
    Dict.get? key (normalData env d info text n) = autoField env d info (.ret v) none n key := by
  unfold autoField
  have h0 : (if key = "input_variables".toList then info.inputs.join else none) = none := by
    rcases hk with h | h
    · rw [h]; split <;> rfl
    · rw [if_neg h]
  rw [h0]
  dsimp only [Option.bind]
  unfold normalData baseArgs
  by_cases h_auto : key = "auto".toList
  · subst h_auto; simp only [get_setStr, Dict.get?_set, ht]; rfl
  by_cases h_message : key = "message".toList
  · subst h_message; simp only [get_setStr, Dict.get?_set, ht]; cases d.message <;> rfl
  by_cases h_module : key = "module".toList
  · subst h_module; simp only [get_setStr, Dict.get?_set, ht]; cases info.module <;> rfl
  by_cases h_function : key = "function".toList
  · subst h_function; simp only [get_setStr, Dict.get?_set, ht]; cases info.name <;> rfl
  by_cases h_class : key = "class".toList
  · subst h_class; simp only [get_setStr, Dict.get?_set, ht]; cases info.cls <;> rfl
  by_cases h_time : key = "time".toList
  · subst h_time; simp only [get_setStr, Dict.get?_set, ht]; rfl
  by_cases h_time_of_work : key = "time_of_work".toList
  · subst h_time_of_work; simp only [get_setStr, Dict.get?_set, ht]; rfl
  by_cases h_service_name : key = "service_name".toList
  · subst h_service_name; simp only [get_setStr, Dict.get?_set, ht]; cases env.h.serviceName <;> rfl
  by_cases h_level : key = "level".toList
  · subst h_level; simp only [get_setStr, Dict.get?_set, ht]; rfl
  by_cases h_success : key = "success".toList
  · subst h_success; simp only [get_setStr, Dict.get?_set, ht]; rfl
  by_cases h_result : key = "result".toList
  · subst h_result; simp only [get_setStr, Dict.get?_set, ht]; rfl
  simp only [get_setStr, Dict.get?_set, Dict.get?, h_auto, Ne.symm h_auto, h_message, Ne.symm h_message, h_module, Ne.symm h_module, h_function, Ne.symm h_function, h_class, Ne.symm h_class, h_time, Ne.symm h_time, h_time_of_work, Ne.symm h_time_of_work, h_service_name, Ne.symm h_service_name, h_level, Ne.symm h_level, h_success, Ne.symm h_success, h_result, Ne.symm h_result, if_false, Option.none_or]

theorem errorData_get (env : CEnv) (d : Deco) (info : FnInfo) (e : Exc) (text : Str) (n : Int)
    (ht : e.text = some text) (key : Str) (hk : info.inputs.join = none ∨ key ≠ "input_variables".toList) :
    Dict.get? key (errorData env d info e.name text n) = autoField env d info (.raised e) none n key := by
  unfold autoField
  have h0 : (if key = "input_variables".toList then info.inputs.join else none) = none := by
    rcases hk with h | h
    · rw [h]; split <;> rfl
    · rw [if_neg h]
  rw [h0]
  dsimp only [Option.bind]
  unfold errorData baseArgs
  by_cases h_auto : key = "auto".toList
  · subst h_auto; simp only [get_setStr, Dict.get?_set, ht]; rfl
  by_cases h_message : key = "message".toList
  · subst h_message; simp only [get_setStr, Dict.get?_set, ht]; cases d.message <;> rfl
  by_cases h_module : key = "module".toList
  · subst h_module; simp only [get_setStr, Dict.get?_set, ht]; cases info.module <;> rfl
  by_cases h_function : key = "function".toList
  · subst h_function; simp only [get_setStr, Dict.get?_set, ht]; cases info.name <;> rfl
  by_cases h_class : key = "class".toList
  · subst h_class; simp only [get_setStr, Dict.get?_set, ht]; cases info.cls <;> rfl
  by_cases h_time : key = "time".toList
  · subst h_time; simp only [get_setStr, Dict.get?_set, ht]; rfl
  by_cases h_time_of_work : key = "time_of_work".toList
  · subst h_time_of_work; simp only [get_setStr, Dict.get?_set, ht]; rfl
  by_cases h_service_name : key = "service_name".toList
  · subst h_service_name; simp only [get_setStr, Dict.get?_set, ht]; cases env.h.serviceName <;> rfl
  by_cases h_level : key = "level".toList
  · subst h_level; simp only [get_setStr, Dict.get?_set, ht]; rfl
  by_cases h_success : key = "success".toList
  · subst h_success; simp only [get_setStr, Dict.get?_set, ht]; rfl
  by_cases h_exception_type : key = "exception_type".toList
  · subst h_exception_type; simp only [get_setStr, Dict.get?_set, ht]; rfl
  by_cases h_exception_message : key = "exception_message".toList
  · subst h_exception_message; simp only [get_setStr, Dict.get?_set, ht]; rfl
  by_cases h_traceback : key = "traceback".toList
  · subst h_traceback; simp only [get_setStr, Dict.get?_set, ht]; rfl
  by_cases h_local_variables : key = "local_variables".toList
  · subst h_local_variables; simp only [get_setStr, Dict.get?_set, ht]; rfl
  simp only [get_setStr, Dict.get?_set, Dict.get?, h_auto, Ne.symm h_auto, h_message, Ne.symm h_message, h_module, Ne.symm h_module, h_function, Ne.symm h_function, h_class, Ne.symm h_class, h_time, Ne.symm h_time, h_time_of_work, Ne.symm h_time_of_work, h_service_name, Ne.symm h_service_name, h_level, Ne.symm h_level, h_success, Ne.symm h_success, h_exception_type, Ne.symm h_exception_type, h_exception_message, Ne.symm h_exception_message, h_traceback, Ne.symm h_traceback, h_local_variables, Ne.symm h_local_variables, if_false, Option.none_or]

/-- Applying the message and the arguments of the call. -/
theorem withMessage_get {env : CEnv} {d : Deco} {info : FnInfo} {o : Outcome} {s : CallState} {n : Int}
    {data : Dict Str HVal} {inputs : Option Str} (hi : info.inputs = some inputs)
    (hw : ∀ f, s.msg = some f → Dict.WF f)
    (hd : ∀ key, (info.inputs.join = none ∨ key ≠ "input_variables".toList) →
      Dict.get? key data = autoField env d info o none n key) (key : Str) :
    Dict.get? key (setStr "input_variables".toList inputs (copyContext s data)) =
      autoField env d info o s.msg n key := by
  have hj : info.inputs.join = inputs := by rw [hi]; rfl
  rw [get_setStr]
  by_cases hk : "input_variables".toList = key ∧ inputs.isSome = true
  · obtain ⟨t, ht⟩ := Option.isSome_iff_exists.1 hk.2
    unfold autoField
    rw [if_pos hk.1, if_pos hk.1.symm, hj, ht]
    rfl
  · have h0 : info.inputs.join = none ∨ key ≠ "input_variables".toList := by
      rw [hj]
      by_cases h : key = "input_variables".toList
      · left
        cases inputs with
        | none => rfl
        | some t => exact absurd ⟨h.symm, rfl⟩ hk
      · right; exact h
    have h1 : (if "input_variables".toList = key then inputs.map HVal.str else none) = none := by
      split
      · rename_i h
        cases inputs with
        | none => rfl
        | some t => exact absurd ⟨h, rfl⟩ hk
      · rfl
    have h2 : (if key = "input_variables".toList then info.inputs.join else none) = none := by
      rcases h0 with h | h
      · rw [h]; split <;> rfl
      · rw [if_neg h]
    have hd := hd key h0
    rw [h1, Option.none_or]
    unfold copyContext
    cases hm : s.msg with
    | none => exact hd
    | some f =>
      dsimp only
      rw [Dict.get?_update_wf (hw f hm), hd]
      unfold autoField
      rw [h2]
      dsimp only [Option.bind]
      cases Dict.get? key f <;> rfl

/-! ### Bookkeeping of events -/

/-- The exceptions met after some events. -/
def seenAfter (seen : List ExcId) : List Event → List ExcId
  | [] => seen
  | ev :: rest => seenAfter (seen ++ ev.exc?.toList) rest

theorem withEarlier_append (a b : List Event) : ∀ seen,
    withEarlier seen (a ++ b) = withEarlier seen a ++ withEarlier (seenAfter seen a) b := by
  induction a with
  | nil => intro seen; rfl
  | cons ev r ih => intro seen; simp only [List.cons_append, withEarlier, seenAfter, ih]

theorem seenAfter_append (a b : List Event) : ∀ seen,
    seenAfter seen (a ++ b) = seenAfter (seenAfter seen a) b := by
  induction a with
  | nil => intro seen; rfl
  | cons ev r ih => intro seen; simp only [List.cons_append, seenAfter, ih]

theorem toRecord_append (env : CEnv) (seen : List ExcId) (a b : List Event) :
    toRecord env seen (a ++ b) = toRecord env seen a ++ toRecord env (seenAfter seen a) b := by
  simp only [toRecord, withEarlier_append, List.filter_append, List.map_append]

theorem toRecord_nil (env : CEnv) (seen : List ExcId) : toRecord env seen [] = [] := rfl

theorem toRecord_pos {env : CEnv} {seen : List ExcId} {ev : Event} (h : ToRecord env seen ev) :
    toRecord env seen [ev] = [ev] := by
  classical
  simp [toRecord, withEarlier, h]

theorem toRecord_neg {env : CEnv} {seen : List ExcId} {ev : Event} (h : ¬ ToRecord env seen ev) :
    toRecord env seen [ev] = [] := by
  classical
  simp [toRecord, withEarlier, h]

theorem toRecord_byHand (env : CEnv) (seen : List ExcId) (rs : List Rec) :
    toRecord env seen (rs.map .byHand) = rs.map .byHand := by
  induction rs with
  | nil => rfl
  | cons r rest ih =>
    have : toRecord env seen (.byHand r :: rest.map .byHand) =
        toRecord env seen [.byHand r] ++ toRecord env (seenAfter seen [.byHand r]) (rest.map .byHand) :=
      toRecord_append env seen [.byHand r] _
    rw [List.map_cons, this, toRecord_pos (show ToRecord env seen (.byHand r) from trivial)]
    have : seenAfter seen [Event.byHand r] = seen := by simp [seenAfter, Event.exc?]
    rw [this, ih]
    rfl

theorem seenAfter_byHand (rs : List Rec) : ∀ seen, seenAfter seen (rs.map .byHand) = seen := by
  induction rs with
  | nil => intro seen; rfl
  | cons r rest ih => intro seen; simp only [List.map_cons, seenAfter, Event.exc?, Option.toList, List.append_nil, ih]

/-! ### One decorated call -/

/-- How a recorded event and a record have to agree. `m`: it matters that the message is right. -/
def Agree (env : CEnv) (m : Prop) (ev : Event) (r : Rec) : Prop :=
  r.origin = ev.origin ∧ (m → RecordOf env ev r)

/-- The effect of the end of a decorated call outside unlogged calls. -/
structure EndEffect (env : CEnv) (seen : List ExcId) (d : Deco) (info : FnInfo) (o : Outcome)
    (m : Option (Dict Str HVal)) (s s' : CallState) : Prop where
  unlog : s'.unlog = s.unlog
  next : s'.next = s.next
  marked : ∀ x, x ∈ s'.marked ↔ x ∈ seen ++ (Event.ended d info o m).exc?.toList
  records : ∃ recs, s'.records = s.records ++ recs ∧
    List.Forall₂ (Agree env (s.msg = m ∧ ∀ f, m = some f → Dict.WF f))
      (toRecord env seen [.ended d info o m]) recs
  msg : s'.msg = none ∨ s'.msg = s.msg
  surely : SurelyRecorded env false d o → s'.msg = none

theorem endEffect_ret {env : CEnv} {seen : List ExcId} {d : Deco} {info : FnInfo} {v : Val}
    (m : Option (Dict Str HVal)) {s : CallState}
    (hl : GoodLevel env d.level) (hi : info.inputs.isSome = true) (hp : Printable (.ret v))
    (hu : unlogStatus env s = false) (hm : ∀ x, x ∈ s.marked ↔ x ∈ seen) :
    EndEffect env seen d info (.ret v) m s (loggedEnd env d info (.ret v) s).2 := by
  obtain ⟨inputs, hi⟩ := Option.isSome_iff_exists.1 hi
  obtain ⟨t, ht⟩ := Option.isSome_iff_exists.1 (show v.text.isSome = true from hp)
  obtain ⟨n, hn⟩ := goodLevel_ok hl
  have hseen : ∀ x, x ∈ s.marked ↔ x ∈ seen ++ (Event.ended d info (.ret v) m).exc?.toList := by
    intro x; rw [hm x]; simp [Event.exc?]
  by_cases hle : env.h.threshold ≤ n
  · have hrun : (loggedEnd env d info (.ret v) s).2 = { s with
        msg := none
        records := s.records ++ [⟨.auto info (.ret v), extractFrom env.h.fieldsIntersection d.inPlace
          (setStr "input_variables".toList inputs (copyContext s (normalData env d info t n)))⟩] } := by
      simp [loggedEnd, logNormal, hu, hn, hle, ht, hi, normalData]
    rw [hrun]
    refine ⟨rfl, rfl, hseen, ⟨_, rfl, ?_⟩, .inl rfl, fun _ => rfl⟩
    rw [toRecord_pos (show ToRecord env seen (.ended d info (.ret v) m) from (passes_ret hn v).2 hle)]
    refine .cons ⟨rfl, ?_⟩ .nil
    rintro ⟨hsm, hw⟩
    refine ⟨rfl, n, _, (normalLevel_iff _ _ _).1 hn, ?_, extractFrom_extracted ..⟩
    intro key
    rw [← hsm]
    exact withMessage_get hi (fun f h => hw f (hsm ▸ h)) (fun key hk => normalData_get env d info v t n ht key hk) key
  · have hrun : (loggedEnd env d info (.ret v) s).2 = s := by
      simp [loggedEnd, logNormal, hu, hn, hle]
    rw [hrun]
    have hnp : ¬ Passes env d (.ret v) := fun h => hle ((passes_ret hn v).1 h)
    refine ⟨rfl, rfl, hseen, ⟨[], by simp, ?_⟩, .inr rfl, fun h => absurd h.2.1 hnp⟩
    rw [toRecord_neg (show ¬ ToRecord env seen (.ended d info (.ret v) m) from hnp)]
    exact .nil

theorem loggedEnd_snd (env : CEnv) (d : Deco) (info : FnInfo) (e : Exc) (s : CallState) :
    (loggedEnd env d info (.raised e) s).2 =
      if e.isException then (logException env d info e s).2 else s := by
  unfold loggedEnd
  dsimp only
  split
  · split
    · rename_i h; rw [h]
    · rename_i h
      rw [h]
      split
      · rfl
      · split <;> rfl
  · rfl

theorem endEffect_raised {env : CEnv} {seen : List ExcId} {d : Deco} {info : FnInfo} {e : Exc}
    (m : Option (Dict Str HVal)) {s : CallState}
    (hi : info.inputs.isSome = true) (hp : Printable (.raised e))
    (hu : unlogStatus env s = false) (hm : ∀ x, x ∈ s.marked ↔ x ∈ seen) :
    EndEffect env seen d info (.raised e) m s (loggedEnd env d info (.raised e) s).2 := by
  obtain ⟨inputs, hi⟩ := Option.isSome_iff_exists.1 hi
  obtain ⟨t, ht⟩ := Option.isSome_iff_exists.1 (show e.text.isSome = true from hp)
  rw [loggedEnd_snd]
  cases hx : e.isException with
  | false =>
    rw [if_neg (by simp)]
    refine ⟨rfl, rfl, ?_, ⟨[], by simp, ?_⟩, .inr rfl, ?_⟩
    · intro x; rw [hm x]; simp [Event.exc?, hx]
    · rw [toRecord_neg (fun h : ToRecord env seen (.ended d info (.raised e) m) => by
        have := h.2.1; rw [hx] at this; cases this)]
      exact .nil
    · intro h
      have := h.2.2.1
      rw [hx] at this; cases this
  | true =>
    rw [if_pos rfl]
    by_cases hc : e.id ∉ s.marked ∨ env.dedup = false
    · have hseen : ∀ x, x ∈ e.id :: s.marked ↔ x ∈ seen ++ (Event.ended d info (.raised e) m).exc?.toList := by
        intro x
        simp only [List.mem_cons, hm x, Event.exc?, hx, if_true, Option.toList, List.mem_append, List.not_mem_nil,
          or_false]
        exact or_comm
      have hnew : env.dedup = true → e.id ∉ seen := by
        intro hd h
        rcases hc with hc | hc
        · exact hc ((hm _).2 h)
        · rw [hd] at hc; cases hc
      by_cases hle : env.h.threshold ≤ errorsLevel env d.errLevel d.level
      · have hrun : (logException env d info e s).2 = { s with
            msg := none
            marked := e.id :: s.marked
            records := s.records ++ [⟨.auto info (.raised e), extractFrom env.h.fieldsIntersection d.inPlace
              (setStr "input_variables".toList inputs (copyContext s
                (errorData env d info e.name t (errorsLevel env d.errLevel d.level))))⟩] } := by
          unfold logException
          dsimp only
          rw [hu, if_neg (by simp), if_pos hc, if_pos hle, ht, hi]
          rfl
        rw [hrun]
        refine ⟨rfl, rfl, hseen, ⟨_, rfl, ?_⟩, .inl rfl, fun _ => rfl⟩
        rw [toRecord_pos (show ToRecord env seen (.ended d info (.raised e) m) from ⟨(passes_raised env d e).2 hle, hx, hnew⟩)]
        refine .cons ⟨rfl, ?_⟩ .nil
        rintro ⟨hsm, hw⟩
        refine ⟨rfl, _, _, errorsLevel_spec env d, ?_, extractFrom_extracted ..⟩
        intro key
        rw [← hsm]
        exact withMessage_get hi (fun f h => hw f (hsm ▸ h))
          (fun key hk => errorData_get env d info e t _ ht key hk) key
      · have hrun : (logException env d info e s).2 = { s with marked := e.id :: s.marked } := by
          unfold logException
          dsimp only
          rw [hu, if_neg (by simp), if_pos hc, if_neg hle]
        have hnp : ¬ Passes env d (.raised e) := fun h => hle ((passes_raised env d e).1 h)
        rw [hrun]
        refine ⟨rfl, rfl, hseen, ⟨[], by simp, ?_⟩, .inr rfl, fun h => absurd h.2.1 hnp⟩
        rw [toRecord_neg (fun h : ToRecord env seen (.ended d info (.raised e) m) => hnp h.1)]
        exact .nil
    · have hrun : (logException env d info e s).2 = s := by
        unfold logException
        dsimp only
        rw [hu, if_neg (by simp), if_neg hc]
      have hin : e.id ∈ s.marked := Classical.byContradiction fun h => hc (.inl h)
      have hded : env.dedup = true := by
        cases h : env.dedup with
        | true => rfl
        | false => exact absurd (.inr h) hc
      rw [hrun]
      refine ⟨rfl, rfl, ?_, ⟨[], by simp, ?_⟩, .inr rfl, ?_⟩
      · intro x
        simp only [Event.exc?, hx, if_true, Option.toList, List.mem_append, List.mem_singleton, hm x]
        constructor
        · exact .inl
        · rintro (h | h)
          · exact h
          · subst h; exact (hm _).1 hin
      · rw [toRecord_neg (fun h : ToRecord env seen (.ended d info (.raised e) m) => h.2.2 hded ((hm _).1 hin))]
        exact .nil
      · intro h
        have := h.2.2.2
        rw [hded] at this; cases this

theorem endEffect {env : CEnv} {seen : List ExcId} {d : Deco} {info : FnInfo} {o : Outcome}
    (m : Option (Dict Str HVal)) {s : CallState}
    (hl : GoodLevel env d.level) (hi : info.inputs.isSome = true) (hp : Printable o)
    (hu : unlogStatus env s = false) (hm : ∀ x, x ∈ s.marked ↔ x ∈ seen) :
    EndEffect env seen d info o m s (loggedEnd env d info o s).2 := by
  cases o with
  | ret v => exact endEffect_ret m hl hi hp hu hm
  | raised e => exact endEffect_raised m hi hp hu hm

/-- Inside an unlogged call the end of a decorated call changes nothing. -/
theorem loggedEnd_muted (env : CEnv) (d : Deco) (info : FnInfo) (o : Outcome) (s : CallState)
    (hu : unlogStatus env s = true) : (loggedEnd env d info o s).2 = s := by
  cases o with
  | ret v => simp [loggedEnd, logNormal, hu]
  | raised e =>
    rw [loggedEnd_snd]
    split
    · simp [logException, hu]
    · rfl

end Polog
