import Verif.Format.Props3

/-! Property theorems: C57 (one record is one line). -/

namespace Polog
open FormatSpec

def NL (s : Str) : Prop := '\n' ∉ s

theorem NL.app {a b : Str} (ha : NL a) (hb : NL b) : NL (a ++ b) := by
  unfold NL at *
  rw [List.mem_append]
  exact fun h => h.elim ha hb

theorem NL.cons {c : Char} {a : Str} (hc : c ≠ '\n') (ha : NL a) : NL (c :: a) := by
  unfold NL at *
  rw [List.mem_cons]
  exact fun h => h.elim (fun e => hc e.symm) ha

theorem NL.nil : NL [] := List.not_mem_nil

theorem NL.join {sep : Str} (hs : NL sep) : ∀ {l : List Str}, (∀ x ∈ l, NL x) → NL (joinStr sep l) := by
  intro l
  induction l with
  | nil => intro _; exact NL.nil
  | cons a l ih =>
    intro h
    cases l with
    | nil => exact h a List.mem_cons_self
    | cons b l =>
      rw [joinStr]
      exact ((h a List.mem_cons_self).app hs).app (ih fun x hx => h x (List.mem_cons_of_mem _ hx))

theorem NL.digits (n : Nat) : NL (Nat.toDigits 10 n) := by
  intro h
  have := Nat.isDigit_of_mem_toDigits (b := 10) (by decide) (by decide) h
  revert this
  decide

theorem NL.decimal (n : Int) : NL (decimal n) := by
  unfold Polog.decimal
  cases n with
  | ofNat m =>
    show NL (toString m).toList
    rw [Nat.toString_eq_ofList_toDigits, String.toList_ofList]
    exact NL.digits m
  | negSucc m =>
    show NL ("-" ++ (toString (m + 1))).toList
    rw [String.toList_append]
    refine NL.app (show NL "-".toList by unfold NL; decide) ?_
    rw [Nat.toString_eq_ofList_toDigits, String.toList_ofList]
    exact NL.digits _

theorem NL.boolText (b : Bool) : NL (boolText b) := by
  cases b
  · show NL "False".toList; unfold NL; decide
  · show NL "True".toList; unfold NL; decide

theorem NL.rstrip {s : Str} (h : NL s) : NL (rstripZeros s) := by
  obtain ⟨z, hz, _⟩ := rstrip_split s
  rw [hz] at h
  exact fun hm => h (List.mem_append_left _ hm)

theorem NL.replicate {c : Char} (hc : c ≠ '\n') (n : Nat) : NL (List.replicate n c) := by
  intro h
  exact hc (List.eq_of_mem_replicate h).symm

theorem NL.center {s : Str} (h : NL s) (w : Nat) : NL (center w s) := by
  unfold Polog.center
  exact ((NL.replicate (by decide) _).app h).app (NL.replicate (by decide) _)

theorem NL.fixed8 (neg : Bool) (n : Nat) : NL (fixed8 neg n) := by
  unfold Polog.fixed8 digitsPad
  refine NL.app (NL.app ?_ (NL.digits _)) (NL.cons (by decide) (NL.app (NL.replicate (by decide) _) (NL.digits _)))
  cases neg
  · exact NL.nil
  · exact NL.cons (by decide) NL.nil

/-- Every text an extractor gives is without line breaks. -/
def ExNL (r : Except PyErr (Option Str)) : Prop := ∀ t, r = .ok (some t) → NL t

theorem Dict.mem_of_get? {K V : Type} [DecidableEq K] {k : K} {v : V} : ∀ {d : Dict K V},
    Dict.get? k d = some v → (k, v) ∈ d := by
  intro d
  induction d with
  | nil => intro h; cases h
  | cons x d ih =>
    intro h
    obtain ⟨a, b⟩ := x
    rw [Dict.get?] at h
    by_cases e : a = k
    · rw [if_pos e] at h
      cases h
      rw [e]
      exact List.mem_cons_self
    · rw [if_neg e] at h
      exact List.mem_cons_of_mem _ (ih h)

theorem fget_cases (log : FLog) (name : String) : fget log name = .none ∨ (name.toList, fget log name) ∈ log := by
  unfold fget
  rcases Option.eq_none_or_eq_some (Dict.get? name.toList log) with h | ⟨v, h⟩
  · rw [h]; exact Or.inl rfl
  · rw [h]
    exact Or.inr (Dict.mem_of_get? h)

section
variable {env : FmtEnv} {log : FLog} (hf : RecordFree env '\n' log)
include hf

theorem fget_text (name : String) (t : Str) (h : (fget log name).text = some t) : NL t := by
  rcases fget_cases log name with e | hm
  · rw [e] at h; cases h; unfold NL; decide
  · exact hf.values _ hm t h

theorem fget_textE (name : String) (t : Str) (h : (fget log name).textE = .ok t) : NL t := by
  unfold FVal.textE at h
  split at h
  · rename_i s hs; cases h; exact fget_text hf name _ hs
  · cases h

theorem exTime_nl : ExNL (exTime env log) := by
  intro t h
  unfold exTime at h
  split at h
  · cases h; unfold NL; decide
  · cases hv : (fget log "time").textE with
    | error e => rw [hv] at h; cases h
    | ok s =>
      rw [hv] at h
      cases h
      exact NL.cons (by decide) (NL.app (fget_textE hf "time" s hv) (by unfold NL; decide))

theorem exMessage_nl : ExNL (exMessage env log) := by
  intro t h
  unfold exMessage at h
  split at h
  · cases h
  · cases hv : (fget log "message").textE with
    | error e => rw [hv] at h; cases h
    | ok s =>
      rw [hv] at h
      cases h
      exact NL.cons (by decide) (NL.app (fget_textE hf "message" s hv) (by unfold NL; decide))

theorem byNumber_nl {n : Int} {s : Str} (h : Dict.get? n env.levels.byNumber = some s) : NL s := by
  exact hf.levels _ (Dict.mem_of_get? h)

theorem exLevel_nl : ExNL (exLevel env log) := by
  intro t h
  unfold exLevel at h
  split at h
  · cases h; unfold NL; decide
  · rename_i n hn
    unfold Levels.getLevelName at h
    dsimp only at h
    split at h
    · cases h; exact NL.decimal n
    · rename_i name hname; cases h; exact byNumber_nl hf hname
  · rename_i b hb
    split at h
    · rename_i name hname; cases h; exact byNumber_nl hf hname
    · cases h; exact NL.boolText b
  · cases hv : (fget log "level").textE with
    | error e => rw [hv] at h; cases h
    | ok s =>
      rw [hv] at h
      cases h
      exact fget_textE hf "level" _ hv

omit hf in
theorem exSuccess_nl : ExNL (exSuccess env log) := by
  intro t h
  unfold exSuccess at h
  split at h
  · cases h; unfold NL; decide
  · split at h
    · cases h; unfold NL; decide
    · cases h; unfold NL; decide

omit hf in
theorem exAuto_nl : ExNL (exAuto env log) := by
  intro t h
  unfold exAuto at h
  split at h
  · cases h; unfold NL; decide
  · cases h; unfold NL; decide

omit hf in
theorem placeParts_nl : ∀ {l : List FVal} {parts : List Str}, (∀ s, .str s ∈ l → NL s) →
    placeParts l = .ok parts → ∀ p ∈ parts, NL p := by
  intro l
  induction l with
  | nil => intro parts _ h; cases h; intro p hp; cases hp
  | cons v l ih =>
    intro parts hl h
    have hl' : ∀ s, .str s ∈ l → NL s := fun s hs => hl s (List.mem_cons_of_mem _ hs)
    cases v with
    | none => exact ih hl' h
    | str s =>
      rw [placeParts] at h
      cases hr : placeParts l with
      | error e => rw [hr] at h; cases h
      | ok r =>
        rw [hr] at h
        cases h
        intro p hp
        rcases List.mem_cons.1 hp with rfl | hp
        · exact hl p List.mem_cons_self
        · exact ih hl' hr p hp
    | _ => cases h

theorem exFunction_nl : ExNL (exFunction env log) := by
  have hstr : ∀ (name : String) (s : Str), fget log name = .str s → NL s := by
    intro name s h
    exact fget_text hf name s (by rw [h]; rfl)
  have hsrv : ∀ s, optStr env.service = .str s → NL s := by
    intro s h
    unfold optStr at h
    split at h
    · cases h
    · rename_i s' hs
      cases h
      exact hf.service _ hs
  intro t h
  unfold exFunction at h
  dsimp only at h
  split at h
  · cases hp : placeParts [optStr env.service, fget log "module", fget log "class", fget log "function"] with
    | error e => rw [hp] at h; cases h
    | ok parts =>
      rw [hp] at h
      cases h
      have := placeParts_nl (fun s hs => by
        simp only [List.mem_cons, List.not_mem_nil, or_false] at hs
        rcases hs with hs | hs | hs | hs
        · exact hsrv s hs.symm
        · exact hstr _ s hs.symm
        · exact hstr _ s hs.symm
        · exact hstr _ s hs.symm) hp
      refine NL.app (NL.app ?_ (NL.join ?_ this)) ?_ <;> (unfold NL; decide)
  · cases hp : placeParts [optStr env.service, fget log "module", fget log "class"] with
    | error e => rw [hp] at h; cases h
    | ok parts =>
      rw [hp] at h
      have := placeParts_nl (fun s hs => by
        simp only [List.mem_cons, List.not_mem_nil, or_false] at hs
        rcases hs with hs | hs | hs
        · exact hsrv s hs.symm
        · exact hstr _ s hs.symm
        · exact hstr _ s hs.symm) hp
      dsimp only [Except.map] at h
      split at h
      · cases h
        refine NL.app (NL.app ?_ (NL.join ?_ this)) ?_ <;> (unfold NL; decide)
      · cases h; unfold NL; decide

omit hf in
theorem exTimeOfWork_nl : ExNL (exTimeOfWork env log) := by
  intro t h
  unfold exTimeOfWork at h
  split at h
  · cases h
  · cases hv : (fget log "time_of_work").format8 with
    | error e => rw [hv] at h; cases h
    | ok s =>
      rw [hv] at h
      cases h
      have hs : NL s := by
        unfold FVal.format8 at hv
        split at hv <;> cases hv <;> exact NL.fixed8 _ _
      refine NL.app (NL.app ?_ hs.rstrip) ?_ <;> (unfold NL; decide)

omit hf in
theorem J.text_nl {j : J} (h : Free env '\n' j) : NL (j.text env) := by
  cases h with
  | null => show NL "None".toList; unfold NL; decide
  | bool b => exact NL.boolText b
  | int n => exact NL.decimal n
  | float t ht => exact ht
  | str s hs => exact hs
  | arr l h1 h2 => exact h2
  | obj l h1 h2 h3 => exact h3

omit hf in
theorem J.get_free {j r : J} (h : Free env '\n' j) (key : String) (hg : j.get key = .ok r) : Free env '\n' r := by
  unfold J.get at hg
  split at hg
  · rename_i l
    cases hg
    cases h with
    | obj _ h1 h2 h3 =>
      clear h1 h3
      induction l with
      | nil => exact .null
      | cons x l ih =>
        obtain ⟨a, b⟩ := x
        rw [Dict.get?]
        by_cases e : a = key.toList
        · rw [if_pos e]; exact h2 _ List.mem_cons_self
        · rw [if_neg e]; exact ih fun x hx => h2 x (List.mem_cons_of_mem _ hx)
  · cases hg

omit hf in
theorem humanReadable_nl {j : J} (h : Free env '\n' j) {t : Str} (ht : humanReadable env j = .ok t) : NL t := by
  unfold humanReadable at ht
  split at ht
  · cases ht
  · rename_i value hvalue
    split at ht
    · cases ht
    · rename_i type htype
      cases ht
      have hv := J.text_nl (J.get_free h _ hvalue)
      have hty := J.text_nl (J.get_free h _ htype)
      refine NL.app (NL.app (NL.app ?_ (by unfold NL; decide)) hty) (by unfold NL; decide)
      split
      · exact NL.cons (by decide) (NL.app hv (by unfold NL; decide))
      · exact hv

omit hf in
theorem mapExcept_nl {A : Type} {f : A → Except PyErr Str} {l : List A} {ts : List Str} (h : mapExcept f l = .ok ts)
    (hl : ∀ a ∈ l, ∀ t, f a = .ok t → NL t) : ∀ t ∈ ts, NL t := by
  rw [mapExcept_ok] at h
  induction h with
  | nil => intro t ht; cases ht
  | cons hab _ ih =>
    intro t ht
    rcases List.mem_cons.1 ht with rfl | ht
    · exact hl _ List.mem_cons_self _ hab
    · exact ih (fun a ha => hl a (List.mem_cons_of_mem _ ha)) t ht

omit hf in
theorem items_free {j : J} (h : Free env '\n' j) {l : List J} (hl : j.items = .ok l) : ∀ x ∈ l, Free env '\n' x := by
  unfold J.items at hl
  split at hl
  · cases hl; cases h with | arr _ h1 h2 => exact h1
  · cases hl
    cases h with
    | str s hs =>
      intro x hx
      obtain ⟨c, hc, rfl⟩ := List.mem_map.1 hx
      refine .str _ fun hm => hs ?_
      rw [List.mem_singleton] at hm
      rw [hm]; exact hc
  · cases hl
    cases h with
    | obj _ h1 h2 h3 =>
      intro x hx
      obtain ⟨y, hy, rfl⟩ := List.mem_map.1 hx
      exact .str _ (h1 y hy)
  · cases hl

omit hf in
theorem variablesText_nl {j : J} (h : Free env '\n' j) : ExNL (variablesText env j) := by
  have hcs : NL ", ".toList := by unfold NL; decide
  intro t ht
  unfold variablesText at ht
  split at ht
  · cases ht
  · rename_i args hargs
    split at ht
    · cases ht
    · rename_i kwargs hkwargs
      have hA := J.get_free h _ hargs
      have hK := J.get_free h _ hkwargs
      split at ht
      · cases ht
      · split at ht
        · cases ht
        · rename_i first hfirst
          split at ht
          · cases ht
          · rename_i second hsecond
            cases ht
            refine NL.join hcs ?_
            intro x hx
            rcases List.mem_append.1 hx with hx | hx
            · unfold argsPart at hfirst
              split at hfirst
              · cases hfirst; cases hx
              · split at hfirst
                · cases hfirst
                · rename_i items hitems
                  cases hm : mapExcept (humanReadable env) items with
                  | error e => rw [hm] at hfirst; cases hfirst
                  | ok ts =>
                    rw [hm] at hfirst
                    cases hfirst
                    rw [List.mem_singleton] at hx
                    subst hx
                    exact NL.join hcs (mapExcept_nl hm fun a ha t ht => humanReadable_nl (items_free hA hitems a ha) ht)
            · unfold kwargsPart at hsecond
              split at hsecond
              · cases hsecond; cases hx
              · split at hsecond
                · cases hsecond
                · rename_i pairs hpairs
                  cases hm : mapExcept (humanPair env) pairs with
                  | error e => rw [hm] at hsecond; cases hsecond
                  | ok ts =>
                    rw [hm] at hsecond
                    cases hsecond
                    rw [List.mem_singleton] at hx
                    subst hx
                    refine NL.join hcs (mapExcept_nl hm fun a ha t ht => ?_)
                    unfold J.pairs at hpairs
                    split at hpairs
                    · cases hpairs
                      cases hK with
                      | obj _ h1 h2 h3 =>
                        unfold humanPair at ht
                        cases hh : humanReadable env a.2 with
                        | error e => rw [hh] at ht; cases ht
                        | ok s =>
                          rw [hh] at ht
                          cases ht
                          exact NL.app (NL.app (h1 a ha) (by unfold NL; decide)) (humanReadable_nl (h2 a ha) hh)
                    · cases hpairs

theorem jsonVariables_nl (name : String) : ExNL (jsonVariablesToText env (fget log name)) := by
  intro t ht
  unfold jsonVariablesToText at ht
  split at ht
  · split at ht
    · cases ht
    · rename_i j hj
      unfold loadsV at hj
      split at hj
      · rename_i s hs
        rcases fget_cases log name with e | hm
        · rw [e] at hs; cases hs
        · exact variablesText_nl (hf.json _ hm s j hs hj) t ht
      · cases hj
  · cases ht

theorem exInput_nl : ExNL (exInput env log) := by
  intro t ht
  unfold exInput at ht
  cases h : jsonVariablesToText env (fget log "input_variables") with
  | error e => rw [h] at ht; cases ht
  | ok o =>
    rw [h] at ht
    cases o with
    | none => cases ht
    | some s => cases ht; exact NL.app (by unfold NL; decide) (jsonVariables_nl hf _ _ h)

theorem exLocal_nl : ExNL (exLocal env log) := by
  intro t ht
  unfold exLocal at ht
  split at ht
  · cases ht
  · split at ht
    · rename_i o h
      cases o with
      | none => cases ht
      | some s => cases ht; exact NL.app (by unfold NL; decide) (jsonVariables_nl hf _ _ h)
    · cases hv : (fget log "local_variables").textE with
      | error e => rw [hv] at ht; cases ht
      | ok s =>
        rw [hv] at ht
        cases ht
        exact NL.app (by unfold NL; decide) (fget_textE hf _ _ hv)

theorem exResult_nl : ExNL (exResult env log) := by
  intro t ht
  unfold exResult at ht
  rcases Option.eq_none_or_eq_some (Dict.get? "result".toList log) with hg | ⟨v, hg⟩
  · rw [hg] at ht; cases ht
  · rw [hg] at ht
    dsimp only at ht
    have hv : fget log "result" = v := by unfold fget; rw [hg]; rfl
    have hm : v = .none ∨ ("result".toList, v) ∈ log := by
      have := fget_cases log "result"
      rw [hv] at this
      exact this
    have hty : NL v.typeText := by
      rcases hm with e | hm
      · rw [e]; unfold NL; decide
      · exact hf.types _ hm
    have hraw : ExNL (v.textE.map fun t => some ("result: ".toList ++ t ++ " (".toList ++ v.typeText ++ ")".toList)) := by
      intro t ht
      cases he : v.textE with
      | error e => rw [he] at ht; cases ht
      | ok s =>
        rw [he] at ht
        cases ht
        have : NL s := by rw [← hv] at he; exact fget_textE hf _ _ he
        refine NL.app (NL.app (NL.app (NL.app ?_ this) ?_) hty) ?_ <;> (unfold NL; decide)
    cases v with
    | str s =>
      dsimp only at ht
      split at ht
      · exact hraw t ht
      · cases ht
      · rename_i j hj
        cases hh : humanReadable env j with
        | error e => rw [hh] at ht; cases ht
        | ok x =>
          rw [hh] at ht
          cases ht
          rcases hm with e | hm
          · cases e
          · exact NL.app (by unfold NL; decide) (humanReadable_nl (hf.json _ hm s j rfl hj) hh)
    | _ => exact hraw t ht

theorem exException_nl : ExNL (exException env log) := by
  intro t ht
  unfold exException at ht
  split at ht
  · cases ht
  · split at ht
    · cases ht
    · rename_i s hs
      have h1 := fget_textE hf _ _ hs
      split at ht
      · cases ht
        refine NL.app (NL.app ?_ h1) ?_ <;> (unfold NL; decide)
      · cases hm : (fget log "exception_message").textE with
        | error e => rw [hm] at ht; cases ht
        | ok m =>
          rw [hm] at ht
          cases ht
          have h2 := fget_textE hf _ _ hm
          refine NL.app (NL.app (NL.app (NL.app ?_ h1) ?_) h2) ?_ <;> (unfold NL; decide)

omit hf in
theorem wordsFrom_nl (isSpace : Char → Bool) : ∀ (s cur : Str), NL s → NL cur → ∀ w ∈ wordsFrom isSpace cur s, NL w := by
  intro s
  induction s with
  | nil =>
    intro cur _ hc w hw
    rw [wordsFrom] at hw
    split at hw
    · cases hw
    · rw [List.mem_singleton] at hw; rw [hw]; exact hc
  | cons c s ih =>
    intro cur hs hc w hw
    have hs' : NL s := fun h => hs (List.mem_cons_of_mem _ h)
    have hcc : c ≠ '\n' := fun e => hs (by rw [e]; exact List.mem_cons_self)
    rw [wordsFrom] at hw
    split at hw
    · split at hw
      · exact ih [] hs' NL.nil w hw
      · rcases List.mem_cons.1 hw with rfl | hw
        · exact hc
        · exact ih [] hs' NL.nil w hw
    · exact ih _ hs' (hc.app (NL.cons hcc NL.nil)) w hw

theorem exTraceback_nl : ExNL (exTraceback env log) := by
  intro t ht
  unfold exTraceback at ht
  split at ht
  · cases ht
  · split at ht
    · split at ht
      · cases ht
      · rename_i j hj
        split at ht
        · split at ht
          · cases ht
          · rename_i lines hlines
            have hfree : Free env '\n' j := by
              unfold loadsV at hj
              split at hj
              · rename_i s hs
                rcases fget_cases log "traceback" with e | hm
                · rw [e] at hs; cases hs
                · exact hf.json _ hm s j hs hj
              · cases hj
            cases hm : mapExcept (tracebackLine env) lines with
            | error e => rw [hm] at ht; cases ht
            | ok ts =>
              rw [hm] at ht
              cases ht
              refine NL.app (by unfold NL; decide) (NL.join (by unfold NL; decide) (mapExcept_nl hm ?_))
              intro a ha t ht
              have hfa := items_free hfree hlines a ha
              unfold tracebackLine at ht
              split at ht
              · rename_i s
                dsimp only at ht
                have hs : NL s := by cases hfa with | str _ h => exact h
                have hw : ∀ w ∈ splitWords env.isSpace s, NL w := wordsFrom_nl _ _ _ hs NL.nil
                split at ht
                · rename_i path line place h1 h2 h3
                  cases ht
                  have g1 := hw _ (List.mem_of_getElem? h1)
                  have g2 := hw _ (List.mem_of_getElem? h2)
                  have g3 := hw _ (List.mem_of_getElem? h3)
                  have g4 : NL (joinStr " ".toList ((splitWords env.isSpace s).drop 6)) :=
                    NL.join (by unfold NL; decide) fun w h => hw w (List.mem_of_mem_drop h)
                  refine NL.app (NL.app (NL.app (NL.app (NL.app (NL.app (NL.app g4 ?_) g1) ?_) g2) ?_) g3) ?_ <;>
                    (unfold NL; decide)
                · cases ht
              · cases ht
        · cases ht; unfold NL; decide
    · cases ht; unfold NL; decide

theorem cell_nl {name : Str} {t : Str} (h : Cell env log name (some t)) : NL t := by
  cases h with
  | own _ he =>
    obtain ⟨ex, hm, hr⟩ := he
    simp only [fieldHandlers, List.mem_cons, List.not_mem_nil, or_false, Prod.mk.injEq] at hm
    rcases hm with ⟨_, rfl⟩ | ⟨_, rfl⟩ | ⟨_, rfl⟩ | ⟨_, rfl⟩ | ⟨_, rfl⟩ | ⟨_, rfl⟩ | ⟨_, rfl⟩ | ⟨_, rfl⟩ | ⟨_, rfl⟩ |
      ⟨_, rfl⟩ | ⟨_, rfl⟩ | ⟨_, rfl⟩
    · exact exTime_nl hf t hr
    · exact exLevel_nl hf t hr
    · exact exSuccess_nl t hr
    · exact exAuto_nl t hr
    · exact exMessage_nl hf t hr
    · exact exFunction_nl hf t hr
    · exact exTimeOfWork_nl t hr
    · exact exInput_nl hf t hr
    · exact exLocal_nl hf t hr
    · exact exResult_nl hf t hr
    · exact exException_nl hf t hr
    · exact exTraceback_nl hf t hr
  | value e v _ he hg ht => exact hf.values _ (Dict.mem_of_get? hg) t ht

theorem cells_nl {first : Levels} {names ts : List Str} (h : Cells env first log names ts) : ∀ t ∈ ts, NL t := by
  induction h with
  | nil => intro t ht; cases ht
  | shown name s t names ts hc hw _ ih =>
    intro x hx
    rcases List.mem_cons.1 hx with rfl | hx
    · have hs := cell_nl hf hc
      rw [written_iff] at hw
      rw [hw]
      unfold padCell
      split
      · exact hs.center _
      · exact hs
    · exact ih x hx
  | absent name names ts hc _ ih => exact ih

theorem extras_nl {rest : FLog} {ts : List Str} (h : Extras env log rest ts) (hr : ∀ x ∈ rest, x ∈ log) :
    ∀ t ∈ ts, NL t := by
  induction h with
  | nil => intro t ht; cases ht
  | shown name v t rest ts hex hn _ ih =>
    intro x hx
    rcases List.mem_cons.1 hx with rfl | hx
    · have hmem := hr (name, v) List.mem_cons_self
      have hname : NL name := hf.names _ hmem
      have hval := hf.values _ hmem
      unfold Named at hn
      split at hn
      · rename_i s
        rw [hn]
        have : NL s := hval s rfl
        refine NL.app (NL.app (NL.app hname ?_) this) ?_ <;> (unfold NL; decide)
      · obtain ⟨s, hs, e⟩ := hn
        rw [e]
        exact NL.app (NL.app hname (by unfold NL; decide)) (hval s hs)
    · exact ih (fun x hx => hr x (List.mem_cons_of_mem _ hx)) x hx
  | absent name v rest ts hex _ ih => exact ih fun x hx => hr x (List.mem_cons_of_mem _ hx)

end

/-- C57 (partial: only for records without line breaks in what they say). A record is written as exactly one line: the
line break that ends it is the only one. -/
theorem C57_one_record_one_line_partial (env : FmtEnv) (first : Levels) (log : FLog) (hw : Dict.WF log)
    (hfree : RecordFree env '\n' log) (line : Str) (h : formatLine env first "\n".toList log = .ok line) :
    ∃ body, line = body ++ "\n".toList ∧ '\n' ∉ body := by
  obtain ⟨base, extra, hb, he, hl⟩ := (formatLine_iff env first _ log hw line).1 h
  refine ⟨_, hl, ?_⟩
  rw [← joinStr_eq]
  refine NL.join (by unfold NL; decide) fun x hx => ?_
  rcases List.mem_append.1 hx with hx | hx
  · exact cells_nl hfree hb x hx
  · exact extras_nl hfree he (fun x hx => hx) x hx

/-- C57 (partial). A file of such records splits at its line breaks into exactly the records, in their order. -/
theorem C57_file_splits_into_records_partial (env : FmtEnv) (first : Levels) (logs : List FLog) (lines : List Str)
    (h : List.Forall₂ (fun log line => Dict.WF log ∧ RecordFree env '\n' log ∧
      formatLine env first "\n".toList log = .ok line) logs lines) :
    ∃ bodies, lines = bodies.map (· ++ "\n".toList) ∧ splitChar '\n' lines.flatten = bodies ++ [[]] := by
  induction h with
  | nil => exact ⟨[], rfl, rfl⟩
  | @cons log line logs lines hab _ ih =>
    obtain ⟨hw, hfree, hf⟩ := hab
    obtain ⟨body, rfl, hbody⟩ := C57_one_record_one_line_partial env first _ hw hfree _ hf
    obtain ⟨bodies, h1, h2⟩ := ih
    refine ⟨body :: bodies, by rw [h1]; rfl, ?_⟩
    rw [List.flatten_cons, List.append_assoc]
    have : body ++ ("\n".toList ++ lines.flatten) = body ++ '\n' :: lines.flatten := rfl
    rw [this, splitChar_append _ _ _ hbody, h2]
    rfl

/-- A record whose fields have no line breaks. -/
example : RecordFree fmtExampleEnv '\n' [("level".toList, .int 40), ("message".toList, .str "no money".toList)] := by
  refine ⟨?_, ?_, ?_, ?_, ?_, ?_⟩
  · decide +kernel
  · intro x hx t ht
    simp only [List.mem_cons, List.not_mem_nil, or_false] at hx
    rcases hx with rfl | rfl
    · cases ht; exact NL.decimal 40
    · cases ht; decide +kernel
  · decide +kernel
  · intro x hx s j _ h
    cases h
  · decide +kernel
  · intro s hs
    cases hs
    decide +kernel

/-- C57 fails when a message has a line break in it: one record whose second line looks exactly as the line of another
record, which was never made. -/
theorem C57_forged_line_fails : ∃ (env : FmtEnv) (first : Levels) (log forged : FLog) (line forgedLine rest : Str),
    Dict.WF log ∧ Dict.WF forged ∧ formatLine env first "\n".toList log = .ok line ∧
    formatLine env first "\n".toList forged = .ok forgedLine ∧
    splitChar '\n' line = [rest, forgedLine.dropLast, "\" | where: shop.?".toList, []] ∧ rest ≠ forgedLine.dropLast := by
  refine ⟨fmtExampleEnv, Levels.standard .empty,
    [("level".toList, .int 20), ("time".toList, .other (some "12:00".toList) true []), ("auto".toList, .bool false),
     ("message".toList,
      .str "hi\n[12:01] | critical | UNKNOWN | MANUAL | \"all is lost\" | where: shop.?\n".toList)],
    [("level".toList, .int 50), ("time".toList, .other (some "12:01".toList) true []), ("auto".toList, .bool false),
     ("message".toList, .str "all is lost".toList)],
    "[12:00] |   info   | UNKNOWN | MANUAL | \"hi\n[12:01] | critical | UNKNOWN | MANUAL | \"all is lost\" | where: shop.?\n\" | where: shop.?\n".toList,
    "[12:01] | critical | UNKNOWN | MANUAL | \"all is lost\" | where: shop.?\n".toList,
    "[12:00] |   info   | UNKNOWN | MANUAL | \"hi".toList, ?_, ?_, ?_, ?_, ?_, ?_⟩
  · unfold Dict.WF; decide +kernel
  · unfold Dict.WF; decide +kernel
  · decide +kernel
  · decide +kernel
  · decide +kernel
  · decide +kernel

end Polog
