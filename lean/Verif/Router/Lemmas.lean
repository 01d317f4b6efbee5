import Verif.Router.Spec
import Verif.Handle.Props
import Verif.Calls.Props

/-! The end of a block. -/

namespace Polog
open HandleSpec RouterSpec

/-! ### one more argument -/

theorem mem_set {k k' : Str} {v v' : HVal} : ∀ {d : Dict Str HVal}, (k', v') ∈ Dict.set k v d →
    (k' = k ∧ v' = v) ∨ (k', v') ∈ d
  | [], h => by
    simp only [Dict.set, List.mem_singleton, Prod.mk.injEq] at h; exact Or.inl h
  | x :: d, h => by
    simp only [Dict.set] at h
    split at h
    · rename_i hx
      rcases List.mem_cons.1 h with e | e
      · simp only [Prod.mk.injEq] at e; exact Or.inl ⟨e.1.trans hx, e.2⟩
      · exact Or.inr (List.mem_cons_of_mem _ e)
    · rcases List.mem_cons.1 h with e | e
      · exact Or.inr (e ▸ List.mem_cons_self)
      · rcases mem_set e with e | e
        · exact Or.inl e
        · exact Or.inr (List.mem_cons_of_mem _ e)

theorem map_fullName_set {k : Str} (hk' : fullName k = k) (v : HVal)
    (d : Dict Str HVal) :
    (Dict.set k v d).map (fun x => fullName x.1) =
      if k ∈ Dict.keys d then d.map (fun x => fullName x.1) else d.map (fun x => fullName x.1) ++ [k] := by
  induction d with
  | nil => simp [Dict.set, Dict.keys, hk']
  | cons x d ih =>
    simp only [Dict.set]
    by_cases h : x.1 = k
    · rw [if_pos h]; simp [Dict.keys, h]
    · rw [if_neg h]
      simp only [List.map_cons, ih, Dict.keys, List.mem_cons]
      by_cases h' : k ∈ List.map Prod.fst d
      · simp [h']
      · simp [h', Ne.symm h]

theorem noAliases_set {k : Str} (hk : ∀ x, fullName x = k → x = k) (hk' : fullName k = k) {v : HVal}
    {d : Dict Str HVal} (h : NoAliases d) : NoAliases (Dict.set k v d) := by
  unfold NoAliases at h ⊢
  rw [map_fullName_set hk']
  split
  · exact h
  · rename_i hn
    refine List.nodup_append.2 ⟨h, by simp, ?_⟩
    intro a ha b hb
    rw [List.mem_singleton] at hb; subst hb
    intro e; subst e
    obtain ⟨x, hx, e⟩ := List.mem_map.1 ha
    have := hk _ e
    exact hn (List.mem_map.2 ⟨x, hx, this⟩)

/-- The new argument is one that nothing else stands for, and that is stored as it is. -/
structure Simple (k : Str) : Prop where
  only : ∀ x, fullName x = k → x = k
  itself : fullName k = k
  stored : ∀ levels v, HandleSpec.stored levels k v = v

theorem simple_of {k : Str} (h : k ∉ ["vars", "locals", "e", "class_", "local_variables", "exception", "class",
    "level"].map String.toList) : Simple k := by
  simp only [List.map_cons, List.map_nil, List.mem_cons, not_or, List.not_mem_nil, not_false_eq_true, and_true] at h
  obtain ⟨h1, h2, h3, h4, h5, h6, h7, h8⟩ := h
  refine ⟨fun x hx => ?_, ?_, fun levels v => ?_⟩
  · unfold fullName at hx
    split at hx
    · exact absurd hx.symm h5
    · split at hx
      · exact absurd hx.symm h6
      · split at hx
        · exact absurd hx.symm h7
        · exact hx
  · unfold fullName
    rw [if_neg (by rintro (h | h); exacts [h1 h, h2 h]), if_neg h3, if_neg h4]
  · unfold HandleSpec.stored
    rw [if_neg h8, if_neg h7]

theorem find_set {k : Str} (hk : Simple k) (v : HVal) (name : Str) : ∀ {d : Dict Str HVal}, NoAliases d →
    ((Dict.set k v d).find? fun x => fullName x.1 = name && x.2 ≠ .none) =
      if name = k then (if v = .none then none else some (k, v))
      else d.find? fun x => fullName x.1 = name && x.2 ≠ .none
  | [], _ => by
    simp only [Dict.set, List.find?, hk.itself]
    by_cases h : name = k
    · subst h; by_cases hv : v = .none <;> simp [hv]
    · simp [h, Ne.symm h]
  | x :: d, hd => by
    have hd' : NoAliases d := (List.nodup_cons.1 hd).2
    have hx : fullName x.1 ∉ d.map fun x => fullName x.1 := (List.nodup_cons.1 hd).1
    simp only [Dict.set]
    by_cases h : x.1 = k
    · rw [if_pos h, List.find?_cons, List.find?_cons]
      have hfx : fullName x.1 = k := by rw [h]; exact hk.itself
      dsimp only
      rw [hfx, h]
      by_cases hn : name = k
      · subst hn
        by_cases hv : v = .none
        · subst hv
          simp only [ne_eq, not_true_eq_false, decide_false, Bool.and_false, if_pos]
          rw [List.find?_eq_none]
          intro y hy
          have hy' : fullName y.1 ≠ name := by
            intro e
            exact hx (List.mem_map.2 ⟨y, hy, by rw [e, hfx]⟩)
          simp [hy']
        · simp [hv]
      · simp [hn, Ne.symm hn]
    · rw [if_neg h, List.find?_cons, List.find?_cons, find_set hk v name hd']
      have hfx : fullName x.1 ≠ k := fun e => h (hk.only _ e)
      by_cases hn : name = k
      · subst hn; simp [hfx]
      · simp only [if_neg hn]

theorem given_set {k : Str} (hk : Simple k) (hm : k ≠ "message".toList) (levels : Levels) (v : HVal) {d : Dict Str HVal}
    (hd : NoAliases d) (name : Str) :
    given levels [] (Dict.set k v d) name =
      if name = k then (if v = .none then none else some v) else given levels [] d name := by
  unfold given
  rw [find_set hk v name hd]
  by_cases hn : name = k
  · subst hn
    by_cases hv : v = .none
    · simp only [if_pos, hv]; simp
    · simp only [if_pos, if_neg hv]
      rw [hk.stored]
  · simp only [if_neg hn]

/-- An argument that is no field with a fixed meaning may be added to a correct call. -/
theorem ValidCall.set {env : HEnv} {d : Dict Str HVal} {k : Str} {v : HVal} (hk : Simple k)
    (hm : k ∉ standardNames ∨ Accepts k v) (h : ValidCall simpleLogger env [] d) :
    ValidCall simpleLogger env [] (Dict.set k v d) := by
  refine ⟨by simp, noAliases_set hk.only hk.itself h.aliases, ?_, ?_, by simp⟩
  · intro k' v' hmem
    rcases mem_set hmem with ⟨rfl, rfl⟩ | hmem
    · refine ⟨by simp [simpleLogger], ?_⟩
      rw [hk.itself]
      rcases hm with hm | hm
      · exact Or.inr ⟨hm, Or.inr (Or.inr (Or.inl rfl))⟩
      · exact Or.inl hm
    · exact h.right _ _ hmem
  · intro v' hmem hv'
    rcases mem_set hmem with ⟨e, rfl⟩ | hmem
    · subst e
      have := hk.stored (Levels.mk [("a".toList, 1)] [] ) (.str "a".toList)
      exact absurd this (by decide)
    · exact h.level _ hmem hv'

/-! ### the data of the record of a block -/

theorem sTime : Simple "time".toList := simple_of (by decide)
theorem sSuccess : Simple "success".toList := simple_of (by decide)
theorem sWork : Simple "time_of_work".toList := simple_of (by decide)
theorem sType : Simple "exception_type".toList := simple_of (by decide)
theorem sText : Simple "exception_message".toList := simple_of (by decide)
theorem sTrace : Simple "traceback".toList := simple_of (by decide)

theorem valid_exitData {env : CEnv} {d : Dict Str HVal} (out : Outcome)
    (h : ValidCall simpleLogger env.h [] d) : ValidCall simpleLogger env.h [] (exitData env out d) := by
  unfold exitData
  cases out with
  | ret v =>
    exact ValidCall.set sWork (Or.inl (by decide)) (ValidCall.set sSuccess (Or.inr (.success _)) h)
  | raised e =>
    exact ValidCall.set sWork (Or.inl (by decide))
      (ValidCall.set sTrace (Or.inl (by decide)) (ValidCall.set sSuccess (Or.inr (.success _))
        (ValidCall.set sText (Or.inl (by decide)) (ValidCall.set sType (Or.inl (by decide)) h))))

theorem given_exitData {env : CEnv} {d : Dict Str HVal} (out : Outcome)
    (h : ValidCall simpleLogger env.h [] d) :
    given env.h.levels [] (exitData env out d) = atEnd env out (given env.h.levels [] d) := by
  funext name
  have a0 := h.aliases
  unfold exitData atEnd
  cases out with
  | ret v =>
    dsimp only
    rw [given_set sWork (by decide) _ _ (noAliases_set sSuccess.only sSuccess.itself a0),
      given_set sSuccess (by decide) _ _ a0]
    by_cases h1 : name = "success".toList
    · subst h1; rfl
    · rw [if_neg h1, if_neg h1]
  | raised e =>
    dsimp only
    have a1 := noAliases_set (v := .str e.name) sType.only sType.itself a0
    have a2 := noAliases_set (v := .str (e.text.getD [])) sText.only sText.itself a1
    have a3 := noAliases_set (v := .bool false) sSuccess.only sSuccess.itself a2
    have a4 := noAliases_set (v := .str env.h.traceback) sTrace.only sTrace.itself a3
    rw [given_set sWork (by decide) _ _ a4, given_set sTrace (by decide) _ _ a3,
      given_set sSuccess (by decide) _ _ a2, given_set sText (by decide) _ _ a1, given_set sType (by decide) _ _ a0]
    by_cases h1 : name = "success".toList
    · subst h1; rfl
    · rw [if_neg h1, if_neg h1]
      by_cases h2 : name = "time_of_work".toList
      · rw [if_pos h2, if_pos h2]
      · rw [if_neg h2, if_neg h2]
        by_cases h3 : name = "exception_type".toList
        · subst h3; rfl
        · rw [if_neg h3, if_neg h3]
          by_cases h4 : name = "exception_message".toList
          · subst h4; rfl
          · rw [if_neg h4, if_neg h4]; rfl

/-! ### which exceptions are swallowed -/

theorem mem_excClasses {c : Nat} : ∀ {l : List SuppressArg}, c ∈ excClasses l ↔ SuppressArg.exc c ∈ l
  | [] => by simp [excClasses]
  | .exc d :: l => by simp [excClasses, mem_excClasses]
  | .wrong :: l => by simp [excClasses, mem_excClasses]

theorem suppressLoop_ok {env : HEnv} : ∀ (l : List SuppressArg) (acc : List Nat),
    env.silent = true ∨ SuppressArg.wrong ∉ l → suppressLoop env l acc = .ok (acc ++ excClasses l)
  | [], acc, _ => by simp [suppressLoop, excClasses]
  | .exc c :: l, acc, h => by
    rw [suppressLoop, suppressLoop_ok l _ (h.imp id fun h => by simp at h; exact h)]
    simp [excClasses]
  | .wrong :: l, acc, h => by
    rcases h with h | h
    · rw [suppressLoop, maybeRaise, if_pos h]
      dsimp only
      rw [suppressLoop_ok l _ (Or.inl h)]
      simp [excClasses]
    · simp at h

theorem suppressLoop_error {env : HEnv} (hs : env.silent = false) : ∀ (l : List SuppressArg) (acc : List Nat),
    SuppressArg.wrong ∈ l → suppressLoop env l acc = .error .valueError
  | [], acc, h => by simp at h
  | .exc c :: l, acc, h => by
    rw [suppressLoop, suppressLoop_error hs l _ (by simpa using h)]
  | .wrong :: l, acc, h => by
    rw [suppressLoop, maybeRaise, hs]; rfl

theorem suppress_ok {env : HEnv} (f : Fin) {l : List SuppressArg} (h : env.silent = true ∨ SuppressArg.wrong ∉ l) :
    f.suppress env l = ({ f with suppressAll := f.suppressAll || decide (l = []),
                                 suppressed := f.suppressed ++ excClasses l }, none) := by
  unfold Fin.suppress
  rw [suppressLoop_ok l [] h]
  by_cases hl : l = []
  · simp [hl]
  · simp [hl]

theorem suppress_error {env : HEnv} (f : Fin) {l : List SuppressArg}
    (h : ¬ (env.silent = true ∨ SuppressArg.wrong ∉ l)) : f.suppress env l = (f, some .valueError) := by
  simp only [not_or, not_not, Bool.not_eq_true] at h
  unfold Fin.suppress
  rw [suppressLoop_error h.1 l [] h.2, if_neg (by rintro rfl; simp at h)]

theorem Fin.Has.suppress {env : HEnv} {f : Fin} {d sups} (h : f.Has d sups) {l : List SuppressArg}
    (hl : env.silent = true ∨ SuppressArg.wrong ∉ l) : (f.suppress env l).1.Has d (sups ++ [l]) := by
  rw [suppress_ok f hl]
  refine ⟨h.data, ?_, ?_⟩
  · simp only [Bool.or_eq_true, decide_eq_true_eq, h.all, List.mem_append, List.mem_singleton]
    exact or_congr Iff.rfl eq_comm
  · simp [h.classes]

theorem swallows_iff {env : CEnv} {f : Fin} {d sups} (h : f.Has d sups) (e : Exc) :
    blockSwallows env ⟨f.data, f.suppressAll, f.suppressed⟩ e = true ↔ Swallows env sups e := by
  rw [blockSwallows_iff]
  unfold CallSpec.BlockSwallows Swallows
  dsimp only
  rw [h.all, h.classes]
  have h2 : (∃ c ∈ sups.flatMap excClasses, CallSpec.Matches env e c) ↔
      ∃ call ∈ sups, ∃ c, SuppressArg.exc c ∈ call ∧ CallSpec.Matches env e c := by
    constructor
    · rintro ⟨c, hc, hm⟩
      obtain ⟨l, hl, hcl⟩ := List.mem_flatMap.1 hc
      exact ⟨l, hl, c, mem_excClasses.1 hcl, hm⟩
    · rintro ⟨l, hl, c, hc, hm⟩
      exact ⟨c, List.mem_flatMap.2 ⟨l, hl, mem_excClasses.2 hc⟩, hm⟩
  have h3 : sups.flatMap excClasses = [] ↔ ∀ call ∈ sups, ∀ c, SuppressArg.exc c ∉ call := by
    rw [List.flatMap_eq_nil_iff]
    refine forall₂_congr fun l _ => ?_
    rw [List.eq_nil_iff_forall_not_mem]
    exact forall_congr' fun c => not_congr mem_excClasses
  rw [h2, h3]

/-! ### the end of a block -/

theorem silent_eq (env : CEnv) (s : CallState) : silent env s = unlogStatus env s := by
  unfold silent unlogStatus
  rcases s.unlog with _ | _ | _ | _ <;> simp

theorem exit_recordsOnce {env : CEnv} {f : Fin} {d sups} (h : f.Has d sups) (he : f.entered = true)
    {out : Outcome} (hp : CallSpec.Printable out) (hv : ValidCall simpleLogger env.h [] d) (s : CallState) :
    RecordsOnce env d sups out s (f.exit env out s) := by
  have hv' : ValidCall simpleLogger { env.h with unlogged := unlogStatus env s } [] (exitData env out d) := by
    have := valid_exitData out hv
    exact ⟨this.positional, this.aliases, this.right, this.level, this.message⟩
  obtain ⟨n, fl, hn, hfl, hb⟩ := base_valid (by decide) hv'
  have hg : given env.h.levels [] (exitData env out d) = atEnd env out (given env.h.levels [] d) := given_exitData out hv
  dsimp only at hn hfl hb
  rw [hg] at hn hfl
  have hpr : (out.printable && f.entered) = true := by
    rw [he, Bool.and_true]
    cases out with
    | ret v => rfl
    | raised e => exact hp
  unfold Fin.exit
  rw [if_pos hpr, h.data]
  dsimp only
  rw [hb]
  dsimp only
  have hrec : ∀ (r : Outcome), Ends env sups out r →
      RecordsOnce env d sups out s (r, { s with records := s.records ++
        (if env.h.threshold ≤ n ∧ unlogStatus env s = false
          then [extractFrom env.h.fieldsIntersection env.h.inPlace fl] else []).map fun data => ⟨.block out, data⟩ }) := by
    intro r hr
    refine ⟨hr, n, _, hn, rfl, ?_, ?_⟩
    · rw [List.length_map, silent_eq]; split <;> rfl
    · intro r' hr'
      obtain ⟨x, hx, rfl⟩ := List.mem_map.1 hr'
      refine ⟨rfl, fun name hname => ?_⟩
      split at hx
      · rw [List.mem_singleton] at hx
        subst hx
        dsimp only
        rw [extractFrom_get_other _ _ _ hname, hfl]
        rfl
      · cases hx
  cases out with
  | ret v => exact hrec _ (.well v)
  | raised e =>
    dsimp only
    by_cases hs : blockSwallows env ⟨d, f.suppressAll, f.suppressed⟩ e = true
    · rw [if_pos hs]
      exact hrec _ (.swallowed e ((swallows_iff h e).1 (by rw [h.data]; exact hs)))
    · rw [if_neg hs]
      exact hrec _ (.passed e fun hsw => hs (by have := (swallows_iff (env := env) h e).2 hsw; rw [h.data] at this; exact this))

/-- The blocks of the model of calls are blocks of finalizers. -/
theorem blockEnd_eq (env : CEnv) (o : BlockOpts) (out : Outcome) (s : CallState) (args kwargs) (armed used : Bool) :
    blockEnd env o out s =
      Fin.exit env ⟨used, true, armed, Dict.set "time".toList env.h.now o.data, args, kwargs, o.suppressAll,
        o.suppressed⟩ out s := by
  unfold blockEnd Fin.exit
  rw [Bool.and_true]
  cases out with
  | ret v => rfl
  | raised e => rfl

end Polog
