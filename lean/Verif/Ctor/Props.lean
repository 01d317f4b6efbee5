import Verif.Ctor.Spec
import Verif.Signature.Props
import Verif.Rotation.Props
import Verif.LogItem.Props
import Verif.Locks.Props

/-! C62 (constructor arguments of handlers), C63 (the class `field`). -/

namespace Polog

open CtorSpec

theorem proveBool_iff (v : CtorVal) : proveBool v = .ok true ↔ IsBool v := by
  cases v <;> simp [proveBool, IsBool]

theorem proveStr_iff (v : CtorVal) : proveStr v = .ok true ↔ IsStr v := by
  cases v <;> simp [proveStr, IsStr]

theorem proveInt_iff (v : CtorVal) : proveInt v = .ok true ↔ IsInt v := by
  cases v <;> simp [proveInt, IsInt]

theorem proveNoneOrStr_iff (v : CtorVal) : proveNoneOrStr v = .ok true ↔ v = .none ∨ IsStr v := by
  cases v <;> simp [proveNoneOrStr, IsStr]

theorem sigIsHandler_raise {isId : Str → Bool} {f : SigObj} :
    sigIsHandler isId true f = .ok true ↔ ∃ ps, f = .sig ps ∧ sigIsHandler isId false (.sig ps) = .ok true := by
  cases f with
  | notCallable => simp [sigIsHandler, Matcher.matches]
  | noSignature => simp [sigIsHandler, Matcher.matches]
  | sig ps => simp [sigIsHandler, Matcher.matches]

theorem handlerParams_iff {isId : Str → Bool} (hid : isId ".".toList = false) (ps : List Param) (raise : Bool) :
    sigIsHandler isId raise (.sig ps) = .ok true ↔ HandlerParams ps := by
  rw [isHandler_sig hid]
  constructor
  · rintro ⟨h1, h2, h3, h4⟩
    refine ⟨fun p hp => ⟨h1 p hp, h2 p hp⟩, List.length_eq_one_iff.1 h3, fun p hp hd => ?_⟩
    have := h4 p hp
    unfold SigSpec.isKey at this
    cases hk : p.kind <;> simp_all
  · rintro ⟨h1, h2, h3⟩
    refine ⟨fun p hp => (h1 p hp).1, fun p hp => (h1 p hp).2, List.length_eq_one_iff.2 h2, fun p hp hn => ?_⟩
    cases hd : p.hasDefault with
    | false => rfl
    | true =>
      have := h3 p hp hd
      unfold SigSpec.isKey at hn
      simp [this] at hn

theorem proveNoneOrHandler_iff {isId : Str → Bool} (hid : isId ".".toList = false) (v : CtorVal) :
    proveNoneOrHandler isId v = .ok true ↔ OptHandler v := by
  unfold OptHandler IsHandler
  cases v with
  | none => simp [proveNoneOrHandler]
  | callable f =>
    simp only [proveNoneOrHandler, CtorVal.sigObj, sigIsHandler_raise, reduceCtorEq, false_or,
      CtorVal.callable.injEq, handlerParams_iff hid]
  | _ => simp [proveNoneOrHandler, CtorVal.sigObj, sigIsHandler, Matcher.matches]

/-- Every check raises nothing but `ValueError`. -/
def OnlyValueError (p : Prove) : Prop := ∀ v e, p v = .error e → e = .valueError

theorem ove_bool : OnlyValueError proveBool := by intro v e; cases v <;> simp [proveBool]
theorem ove_str : OnlyValueError proveStr := by intro v e; cases v <;> simp [proveStr]
theorem ove_int : OnlyValueError proveInt := by intro v e; cases v <;> simp [proveInt]
theorem ove_noneStr : OnlyValueError proveNoneOrStr := by intro v e; cases v <;> simp [proveNoneOrStr]
theorem ove_handler (isId : Str → Bool) : OnlyValueError (proveNoneOrHandler isId) := by
  intro v e
  cases v with
  | callable f =>
    cases f <;> simp [proveNoneOrHandler, CtorVal.sigObj, sigIsHandler, Matcher.matches] <;>
      exact fun h => h.symm
  | none => simp [proveNoneOrHandler]
  | _ =>
    simp [proveNoneOrHandler, CtorVal.sigObj, sigIsHandler, Matcher.matches]
    try exact fun h => h.symm

theorem provesLoop_spec (t : Dict Str Prove) (kws : List (Str × CtorVal))
    (hk : ∀ x ∈ kws, ∃ p, Dict.get? x.1 t = some p ∧ OnlyValueError p) :
    (provesLoop t kws = .ok () ↔ ∀ x ∈ kws, ∀ p, Dict.get? x.1 t = some p → p x.2 = .ok true) ∧
    ∀ e, provesLoop t kws = .error e → e = .valueError := by
  induction kws with
  | nil => simp [provesLoop]
  | cons x kws ih =>
    obtain ⟨key, v⟩ := x
    obtain ⟨p, hp, ho⟩ := hk (key, v) (by simp)
    obtain ⟨ih1, ih2⟩ := ih (fun y hy => hk y (by simp [hy]))
    simp only at hp
    simp only [provesLoop, hp]
    cases hv : p v with
    | error e =>
      have := ho v e hv
      subst this
      refine ⟨⟨fun h => (nomatch h), fun h => ?_⟩, fun e he => by simpa using he.symm⟩
      have := h (key, v) (by simp) p hp
      simp only at this
      rw [hv] at this; cases this
    | ok b =>
      cases b with
      | false =>
        refine ⟨⟨fun h => (nomatch h), fun h => ?_⟩, fun e he => by simpa using he.symm⟩
        have := h (key, v) (by simp) p hp
        simp only at this
        rw [hv] at this; cases this
      | true =>
        simp only
        refine ⟨?_, ih2⟩
        rw [ih1]
        constructor
        · intro h y hy q hq
          rcases List.mem_cons.1 hy with rfl | hy
          · simp only at hq
            rw [hp] at hq; cases hq; exact hv
          · exact h y hy q hq
        · intro h y hy q hq
          exact h y (by simp [hy]) q hq

theorem get?_smtp_table (isId : Str → Bool) :
    Dict.update (baseProves isId) (smtpProves isId) = baseProves isId ++ smtpProves isId := by
  simp only [Dict.update, baseProves, smtpProves, List.foldl]
  rfl

theorem get?_file_table (isId : Str → Bool) :
    Dict.update (baseProves isId) (fileProves isId) = baseProves isId ++ fileProves isId := by
  simp only [Dict.update, baseProves, fileProves, List.foldl]
  rfl

/-- One check after another. -/
def CheckAll : List (Prove × CtorVal) → Prop
  | [] => True
  | (p, v) :: rest => p v = .ok true ∧ CheckAll rest

/-- Every key of `kws` is looked up as the function beside it. -/
def Looks (t : Dict Str Prove) : List (Str × CtorVal) → List (Prove × CtorVal) → Prop
  | [], [] => True
  | (k, v) :: kws, (p, v') :: ps => Dict.get? k t = some p ∧ v = v' ∧ OnlyValueError p ∧ Looks t kws ps
  | _, _ => False

theorem provesLoop_looks {t : Dict Str Prove} : ∀ {kws : List (Str × CtorVal)} {ps : List (Prove × CtorVal)},
    Looks t kws ps → (provesLoop t kws = .ok () ↔ CheckAll ps) ∧
      ∀ e, provesLoop t kws = .error e → e = .valueError
  | [], [], _ => by simp [provesLoop, CheckAll]
  | (k, v) :: kws, (p, v') :: ps, ⟨h1, h2, h3, h4⟩ => by
    subst h2
    obtain ⟨ih1, ih2⟩ := provesLoop_looks h4
    simp only [provesLoop, h1, CheckAll]
    cases hv : p v with
    | error e =>
      have := h3 v e hv
      subst this
      simp
    | ok b => cases b <;> simp [ih1]; exact ih2
  | [], _ :: _, h => h.elim
  | _ :: _, [], h => h.elim

theorem smtp_looks1 (isId : Str → Bool) (a b c : CtorVal) :
    Looks (Dict.update (baseProves isId) (smtpProves isId))
      [("only_errors".toList, a), ("filter".toList, b), ("alt".toList, c)]
      [(proveBool, a), (proveNoneOrHandler isId, b), (proveNoneOrHandler isId, c)] := by
  rw [get?_smtp_table]
  exact ⟨rfl, rfl, ove_bool, rfl, rfl, ove_handler isId, rfl, rfl, ove_handler isId, trivial⟩

theorem smtp_looks2 (isId : Str → Bool) (a1 a2 a3 a4 a5 a6 a7 a8 : CtorVal) :
    Looks (Dict.update (baseProves isId) (smtpProves isId))
      [("email_from".toList, a1), ("password".toList, a2), ("email_to".toList, a3),
       ("port".toList, a4), ("smtp_server".toList, a5), ("text_assembler".toList, a6),
       ("subject_assembler".toList, a7), ("is_html".toList, a8)]
      [(proveStr, a1), (proveStr, a2), (proveStr, a3), (proveInt, a4), (proveStr, a5),
       (proveNoneOrHandler isId, a6), (proveNoneOrHandler isId, a7), (proveBool, a8)] := by
  rw [get?_smtp_table]
  exact ⟨rfl, rfl, ove_str, rfl, rfl, ove_str, rfl, rfl, ove_str, rfl, rfl, ove_int, rfl, rfl, ove_str,
    rfl, rfl, ove_handler isId, rfl, rfl, ove_handler isId, rfl, rfl, ove_bool, trivial⟩

theorem file_looks1 (isId : Str → Bool) (a b c : CtorVal) :
    Looks (Dict.update (baseProves isId) (fileProves isId))
      [("only_errors".toList, a), ("filter".toList, b), ("alt".toList, c)]
      [(proveBool, a), (proveNoneOrHandler isId, b), (proveNoneOrHandler isId, c)] := by
  rw [get?_file_table]
  exact ⟨rfl, rfl, ove_bool, rfl, rfl, ove_handler isId, rfl, rfl, ove_handler isId, trivial⟩

theorem file_looks2 (isId : Str → Bool) (a1 a2 a3 a4 : CtorVal) :
    Looks (Dict.update (baseProves isId) (fileProves isId))
      [("forced_flush".toList, a1), ("separator".toList, a2), ("formatter".toList, a3),
       ("rotation".toList, a4)]
      [(proveBool, a1), (proveStr, a2), (proveNoneOrHandler isId, a3), (proveNoneOrStr, a4)] := by
  rw [get?_file_table]
  exact ⟨rfl, rfl, ove_bool, rfl, rfl, ove_str, rfl, rfl, ove_handler isId, rfl, rfl, ove_noneStr, trivial⟩

/-- **C62**: `SMTP_sender(...)` is created exactly when every argument has the documented type. -/
theorem C62_smtp_accepted_iff_documented (isId : Str → Bool) (hid : isId ".".toList = false) (a : SmtpArgs) :
    smtpInit isId a = .ok () ↔
      IsStr a.emailFrom ∧ IsStr a.password ∧ IsStr a.smtpServer ∧ IsStr a.emailTo ∧ IsInt a.port ∧
      OptHandler a.textAssembler ∧ OptHandler a.subjectAssembler ∧ IsBool a.onlyErrors ∧
      OptHandler a.filter ∧ OptHandler a.alt ∧ IsBool a.isHtml := by
  have h1 := (provesLoop_looks (smtp_looks1 isId a.onlyErrors a.filter a.alt)).1
  have h2 := (provesLoop_looks (smtp_looks2 isId a.emailFrom a.password a.emailTo a.port a.smtpServer
    a.textAssembler a.subjectAssembler a.isHtml)).1
  simp only [CheckAll, proveBool_iff, proveStr_iff, proveInt_iff, proveNoneOrHandler_iff hid, and_true] at h1 h2
  unfold smtpInit
  simp only [doInputProves]
  split
  · rename_i e he
    rw [he] at h1
    constructor
    · intro h; cases h
    · rintro ⟨_, _, _, _, _, _, _, ho, hf, ha, _⟩
      exact absurd (h1.2 ⟨ho, hf, ha⟩) (fun h => nomatch h)
  · rename_i he
    obtain ⟨ho, hf, ha⟩ := h1.1 he
    rw [h2]
    constructor
    · rintro ⟨b1, b2, b3, b4, b5, b6, b7, b8⟩
      exact ⟨b1, b2, b5, b3, b4, b6, b7, ho, hf, ha, b8⟩
    · rintro ⟨b1, b2, b5, b3, b4, b6, b7, _, _, _, b8⟩
      exact ⟨b1, b2, b3, b4, b5, b6, b7, b8⟩

/-- **C62**: otherwise the constructor raises `ValueError`. -/
theorem C62_smtp_rejected_with_value_error (isId : Str → Bool) (a : SmtpArgs) (e : PyErr)
    (h : smtpInit isId a = .error e) : e = .valueError := by
  have h1 := (provesLoop_looks (smtp_looks1 isId a.onlyErrors a.filter a.alt)).2
  have h2 := (provesLoop_looks (smtp_looks2 isId a.emailFrom a.password a.emailTo a.port a.smtpServer
    a.textAssembler a.subjectAssembler a.isHtml)).2
  unfold smtpInit at h
  simp only [doInputProves] at h
  split at h
  · rename_i e' he
    cases h
    exact h1 _ he
  · exact h2 _ h

theorem getFileObject_ok (files : List CtorVal) (t : FileTarget) :
    getFileObject files = .ok t ↔ Names files t := by
  constructor
  · intro h
    match files, h with
    | [], h => cases h; exact .nothing
    | [v], h =>
      simp only [getFileObject] at h
      cases v with
      | object m =>
        by_cases hm : isFileObject (.object m) = true
        · simp only [hm, if_true] at h
          cases h
          simp only [isFileObject, List.all_cons, List.all_nil, Bool.and_true, Bool.and_eq_true,
            List.contains_iff_mem] at hm
          exact .object m hm.1 hm.2.1 hm.2.2
        · simp [hm] at h
      | str s => simp [isFileObject] at h; subst h; exact .path s
      | _ => simp [isFileObject] at h
    | _ :: _ :: _, h => simp [getFileObject] at h
  · intro h
    cases h with
    | nothing => rfl
    | path s => simp [getFileObject, isFileObject]
    | object m h1 h2 h3 =>
      have : isFileObject (.object m) = true := by
        simp only [isFileObject, List.all_cons, List.all_nil, Bool.and_true, Bool.and_eq_true,
          List.contains_iff_mem]
        exact ⟨h1, h2, h3⟩
      simp [getFileObject, this]

theorem getFileObject_error (files : List CtorVal) (e : PyErr) (h : getFileObject files = .error e) :
    e = .valueError := by
  match files, h with
  | [v], h =>
    simp only [getFileObject] at h
    cases v <;> (split at h <;> simp_all)
  | _ :: _ :: _, h => simp only [getFileObject] at h; cases h; rfl

theorem fileInit_iff (env : TextEnv) {isId : Str → Bool} (hid : isId ".".toList = false) (a : FileArgs)
    (t : FileTarget) (k : LKind) (r : RotConf) :
    fileInit env isId a = .ok (t, k, r) ↔
      (IsBool a.onlyErrors ∧ OptHandler a.filter ∧ OptHandler a.alt) ∧
      (IsBool a.forcedFlush ∧ IsStr a.separator ∧ OptHandler a.formatter ∧
        (a.rotation = .none ∨ IsStr a.rotation)) ∧
      Names a.files t ∧
      (∃ k', lockKind env.isSpace a.lockType.lockArg = .ok k' ∧ k = ⟨k'.thread, k'.file && t.named⟩) ∧
      rotatorInit env t.named a.rotation.rotationArg = .ok r := by
  have h1 := (provesLoop_looks (file_looks1 isId a.onlyErrors a.filter a.alt)).1
  have h2 := (provesLoop_looks (file_looks2 isId a.forcedFlush a.separator a.formatter a.rotation)).1
  simp only [CheckAll, proveBool_iff, proveStr_iff, proveNoneOrStr_iff, proveNoneOrHandler_iff hid,
    and_true] at h1 h2
  rw [← getFileObject_ok]
  unfold fileInit
  simp only [doInputProves]
  split
  · rename_i e he
    rw [he] at h1
    constructor
    · intro h; cases h
    · rintro ⟨h, _⟩
      exact absurd (h1.2 h) (fun h => nomatch h)
  · rename_i he
    have he := h1.1 he
    split
    · rename_i e he'
      rw [he'] at h2
      constructor
      · intro h; cases h
      · rintro ⟨_, h, _⟩
        exact absurd (h2.2 h) (fun h => nomatch h)
    · rename_i he'
      have he' := h2.1 he'
      constructor
      · intro h
        split at h
        · cases h
        · rename_i t' ht'
          split at h
          · cases h
          · rename_i k' hk'
            split at h
            · cases h
            · rename_i r' hr'
              cases h
              exact ⟨he, he', ht', ⟨k', hk', rfl⟩, hr'⟩
      · rintro ⟨_, _, ht, ⟨k', hk, rfl⟩, hr⟩
        simp [ht, hk, hr]

theorem lockKind_iff (isSpace : Char → Bool) (v : CtorVal) (k : LKind) :
    lockKind isSpace v.lockArg = .ok k ↔ Locks isSpace v k.thread k.file := by
  obtain ⟨t, f⟩ := k
  cases v with
  | none =>
    show lockKind isSpace none = _ ↔ _
    rw [(C56_lock_types isSpace [] ⟨t, f⟩).1]
    constructor
    · intro h; cases h; exact .none
    · intro h; cases h; rfl
  | str s =>
    show lockKind isSpace (some (some s)) = _ ↔ _
    rw [(C56_lock_types isSpace s ⟨t, f⟩).2.2]
    constructor
    · rintro ⟨h1, ps, h2, h3, h4, h5, h6⟩; exact .names s t f ps h2 h1 h3 h4 h5 h6
    · intro h
      cases h with
      | names _ _ _ ps hp hb hn hd ht hf => exact ⟨hb, ps, hp, hn, hd, ht, hf⟩
  | _ => exact ⟨fun h => (nomatch h), fun h => (nomatch h)⟩

theorem rotatorInit_iff (env : TextEnv) (hunits : ∀ u, (RotationSpec.unitExponent u).isSome = true → env.int u = none)
    (path : Bool) (v : CtorVal) (hv : v = .none ∨ IsStr v) (r : RotConf) :
    rotatorInit env path v.rotationArg = .ok r ↔ Rotates env path v r.limits r.dir := by
  obtain ⟨limits, dir⟩ := r
  rcases hv with rfl | ⟨s, rfl⟩
  · constructor
    · intro h; cases h; exact .none
    · intro h; cases h; rfl
  · show rotatorInit env path (some s) = _ ↔ _
    have h1 : (s ≠ [] → path = true) → rotatorInit env path (some s) = rotatorInit env true (some s) := by
      intro h
      by_cases hs : s = []
      · subst hs; cases path <;> simp [rotatorInit]
      · rw [h hs]
    by_cases hp : s ≠ [] → path = true
    · rw [h1 hp, C38_accepted_rotation_strings hunits]
      constructor
      · rintro (⟨a, b, c⟩ | ⟨a, b, h, c, d⟩)
        · subst c; exact .conditions s limits hp a b
        · subst d; exact .arrow s a b limits (hp (by rintro rfl; simp [RotationSpec.Arrow] at h)) h c
      · intro h
        cases h with
        | conditions _ _ _ ha hc => exact .inl ⟨ha, hc, rfl⟩
        | arrow _ a b _ _ ha hc => exact .inr ⟨a, b, ha, hc, rfl⟩
    · simp only [Classical.not_imp, Bool.not_eq_true] at hp
      rw [hp.2, (C38_other_strings_raise_value_error hunits s).2.1 hp.1]
      constructor
      · intro h; cases h
      · intro h
        cases h with
        | conditions _ _ h1 => exact absurd (h1 hp.1) (by simp)
        | arrow _ a b _ h1 => exact absurd h1 (by simp)

/-- **C62**: `file_writer(...)` is created exactly when the arguments have the documented types, at most
one file is given (a path or an object with `read`, `write` and `close`), the lock types are correct and
so is the rotation string, which is allowed for paths only.  It writes to that file, or to the standard
output if none is given. -/
theorem C62_file_accepted_iff_documented (env : TextEnv)
    (hunits : ∀ u, (RotationSpec.unitExponent u).isSome = true → env.int u = none)
    (isId : Str → Bool) (hid : isId ".".toList = false) (a : FileArgs) (t : FileTarget) (k : LKind) (r : RotConf) :
    fileInit env isId a = .ok (t, k, r) ↔
      IsBool a.onlyErrors ∧ OptHandler a.filter ∧ OptHandler a.alt ∧ IsBool a.forcedFlush ∧ IsStr a.separator ∧
      OptHandler a.formatter ∧ Names a.files t ∧
      (∃ thread file, Locks env.isSpace a.lockType thread file ∧
        k = ⟨thread, file && ByPath a.files⟩) ∧
      Rotates env (ByPath a.files) a.rotation r.limits r.dir := by
  rw [fileInit_iff env hid]
  have hpath : Names a.files t → t.named = ByPath a.files := by
    intro h
    generalize hf : a.files = fs at h
    cases h <;> simp [FileTarget.named, ByPath]
  constructor
  · rintro ⟨⟨h1, h2, h3⟩, ⟨h4, h5, h6, h7⟩, h8, ⟨k', h9, rfl⟩, h10⟩
    rw [hpath h8] at h10 ⊢
    exact ⟨h1, h2, h3, h4, h5, h6, h8, ⟨_, _, (lockKind_iff _ _ _).1 h9, rfl⟩, (rotatorInit_iff env hunits _ _ h7 r).1 h10⟩
  · rintro ⟨h1, h2, h3, h4, h5, h6, h8, ⟨th, fl, h9, rfl⟩, h10⟩
    have h7 : a.rotation = .none ∨ IsStr a.rotation := by
      generalize a.rotation = v, r.limits = ls, r.dir = d at h10
      cases h10 with
      | none => exact .inl rfl
      | conditions s => exact .inr ⟨s, rfl⟩
      | arrow s => exact .inr ⟨s, rfl⟩
    refine ⟨⟨h1, h2, h3⟩, ⟨h4, h5, h6, h7⟩, h8, ⟨⟨th, fl⟩, (lockKind_iff _ _ _).2 h9, by rw [hpath h8]⟩, ?_⟩
    rw [hpath h8]
    exact (rotatorInit_iff env hunits _ _ h7 r).2 h10

theorem lockKind_error (isSpace : Char → Bool) (l : Option (Option Str)) (e : PyErr)
    (h : lockKind isSpace l = .error e) : e = .valueError := by
  have key : ∀ (xs acc : List Str) (e : PyErr), lockTypesLoop xs acc = .error e → e = .valueError := by
    intro xs
    induction xs with
    | nil => intro acc e h; simp [lockTypesLoop] at h
    | cons x xs ih =>
      intro acc e h
      simp only [lockTypesLoop] at h
      split at h
      · cases h; rfl
      · split at h
        · cases h; rfl
        · exact ih _ _ h
  unfold lockKind at h
  split at h
  · cases h
  · cases h; rfl
  · split at h
    · cases h; rfl
    · split at h
      · rename_i e' he
        cases h
        exact key _ _ _ he
      · cases h

/-- **C62**: otherwise `file_writer(...)` raises `ValueError`. -/
theorem C62_file_rejected_with_value_error (env : TextEnv)
    (hunits : ∀ u, (RotationSpec.unitExponent u).isSome = true → env.int u = none)
    (isId : Str → Bool) (a : FileArgs) (e : PyErr) (h : fileInit env isId a = .error e) :
    e = .valueError := by
  have h1 := (provesLoop_looks (file_looks1 isId a.onlyErrors a.filter a.alt)).2
  have h2 := (provesLoop_looks (file_looks2 isId a.forcedFlush a.separator a.formatter a.rotation)).2
  unfold fileInit at h
  simp only [doInputProves] at h
  split at h
  · cases h; exact h1 _ ‹_›
  split at h
  · cases h; exact h2 _ ‹_›
  split at h
  · cases h; exact getFileObject_error _ _ ‹_›
  split at h
  · cases h; exact lockKind_error _ _ _ ‹_›
  split at h
  · rename_i t ht _ k hk _ e' he
    cases h
    cases hr : a.rotation.rotationArg with
    | none => rw [hr] at he; simp [rotatorInit] at he
    | some s =>
      rw [hr] at he
      obtain ⟨c1, c2, c3⟩ := C38_other_strings_raise_value_error (env := env) hunits s
      cases hn : t.named with
      | true => rw [hn] at he; exact c1 _ he
      | false =>
        rw [hn] at he
        by_cases hs : s = []
        · subst hs
          have : rotatorInit env false (some []) = rotatorInit env true (some []) := by
            simp [rotatorInit]
          rw [this] at he
          exact c1 _ he
        · rw [c2 hs] at he; cases he; rfl
  · cases h

/-- **C62**: a rotation string is refused when the logs do not go to a file with a path. -/
theorem C62_rotation_needs_a_path (env : TextEnv) (isId : Str → Bool) (hid : isId ".".toList = false) (a : FileArgs) (s : Str)
    (hs : s ≠ []) (hr : a.rotation = .str s) (hf : ∀ p, a.files ≠ [.str p]) (res : FileTarget × LKind × RotConf) :
    fileInit env isId a ≠ .ok res := by
  obtain ⟨t, k, r⟩ := res
  rw [Ne, fileInit_iff env hid]
  rintro ⟨_, _, hn, _, hrot⟩
  have : t.named = false := by
    generalize hfs : a.files = fs at hn
    cases hn with
    | nothing => rfl
    | path p => exact absurd hfs (hf p)
    | object => rfl
  rw [this, hr] at hrot
  simp [CtorVal.rotationArg, rotatorInit, hs] at hrot

/-- **C62** for handlers written by the user (subclasses with a table `input_proves`): the constructor
accepts the arguments exactly when each of them passes the function of the subclass for this name if
there is one, or else the standard one if there is one. -/
theorem C62_subclass_checks (isId : Str → Bool) (own : Dict Str Prove) (hw : Dict.WF own)
    (kws : List (Str × CtorVal)) :
    doInputProves isId (some own) kws = .ok () ↔
      ∀ k v, (k, v) ∈ kws →
        (∀ p, Dict.get? k own = some p → p v = .ok true) ∧
        (Dict.get? k own = none → ∀ p, Dict.get? k (baseProves isId) = some p → p v = .ok true) := by
  simp only [doInputProves]
  induction kws with
  | nil => simp [provesLoop]
  | cons x kws ih =>
    obtain ⟨k, v⟩ := x
    have key : (∀ p, Dict.get? k (Dict.update (baseProves isId) own) = some p → p v = .ok true) ↔
        (∀ p, Dict.get? k own = some p → p v = .ok true) ∧
        (Dict.get? k own = none → ∀ p, Dict.get? k (baseProves isId) = some p → p v = .ok true) := by
      rw [Dict.get?_update_wf hw]
      cases Dict.get? k own <;> simp
    have step : provesLoop (Dict.update (baseProves isId) own) ((k, v) :: kws) = .ok () ↔
        (∀ p, Dict.get? k (Dict.update (baseProves isId) own) = some p → p v = .ok true) ∧
        provesLoop (Dict.update (baseProves isId) own) kws = .ok () := by
      simp only [provesLoop]
      cases Dict.get? k (Dict.update (baseProves isId) own) with
      | none => simp
      | some p =>
        simp only [Option.some.injEq, forall_eq']
        cases p v with
        | error e => simp
        | ok b => cases b <;> simp
    rw [step, ih, key]
    constructor
    · rintro ⟨h1, h2⟩ k' v' hm
      rcases List.mem_cons.1 hm with h | h
      · cases h; exact h1
      · exact h2 k' v' h
    · intro h
      exact ⟨h k v (by simp), fun k' v' hm => h k' v' (by simp [hm])⟩

/-! ### Witnesses -/

def ctorFn : CtorVal := .callable (.sig [pX])
def ctorAnyId : Str → Bool := fun s => s != ".".toList
def ctorEnv : TextEnv := ⟨fun c => c == ' ', fun s => if s = "10".toList then some 10 else none⟩

example : smtpInit ctorAnyId ⟨.str "me".toList, .str "pw".toList, .str "host".toList, .str "you".toList,
    .int 465, .none, ctorFn, .bool true, ctorFn, .none, .bool false⟩ = .ok () := by decide +kernel

example : smtpInit ctorAnyId ⟨.str "me".toList, .str "pw".toList, .str "host".toList, .str "you".toList,
    .str "465".toList, .none, .none, .bool true, .none, .none, .bool false⟩ = .error .valueError := by
  decide +kernel

def ctorGoodFile : FileArgs :=
  ⟨[.str "a.log".toList], .none, .str "10 megabytes".toList, .bool true, .str "\n".toList, .bool false,
    ctorFn, .none, .str "thread+file".toList⟩

example : (fileInit ctorEnv ctorAnyId ctorGoodFile).toOption.map (fun x => x.1) =
    some (.path "a.log".toList) := by decide +kernel

example : ctorAnyId ".".toList = false ∧ ∀ u, (RotationSpec.unitExponent u).isSome = true → ctorEnv.int u = none := by
  refine ⟨by decide, fun u hu => ?_⟩
  show (if u = "10".toList then some 10 else none) = none
  split
  · rename_i h; subst h; exact absurd hu (by decide)
  · rfl

example : (fileInit ctorEnv ctorAnyId { ctorGoodFile with files := [] }).toOption.map (fun x => x.1) = none := by
  decide +kernel

def ctorObject : CtorVal := .object ["read".toList, "write".toList, "close".toList]

/-- **C62** fails to keep objects away that cannot be flushed: an object with `read`, `write` and `close`
is accepted, and with the default settings every record is then both written and given to `alt` as not
written. -/
theorem C62_accepted_object_serves_fails :
    ¬ ∀ (m : List Str) (res : FileTarget × LKind × RotConf),
      fileInit ctorEnv ctorAnyId ⟨[.object m], .none, .none, .bool true, .str "\n".toList, .bool false,
        .none, .none, .str "thread".toList⟩ = .ok res →
      ∀ line : Str,
        (BaseH.call ⟨false, none, fun _ => some true, fun l => .ok l, objectDo m true⟩
          (some fun l => ⟨[l], false⟩) line).events = [line] := by
  intro h
  have hok : fileInit ctorEnv ctorAnyId ⟨[ctorObject], .none, .none, .bool true, .str "\n".toList, .bool false,
      .none, .none, .str "thread".toList⟩ =
      .ok (.object ["read".toList, "write".toList, "close".toList], ⟨true, false⟩, ⟨[], "logs".toList⟩) := by
    rw [fileInit_iff _ (by decide)]
    refine ⟨⟨⟨_, rfl⟩, .inl rfl, .inl rfl⟩, ⟨⟨_, rfl⟩, ⟨_, rfl⟩, .inl rfl, .inl rfl⟩,
      .object _ (by decide +kernel) (by decide +kernel) (by decide +kernel), ⟨⟨true, false⟩, ?_, rfl⟩, rfl⟩
    have : (lockKind ctorEnv.isSpace (some (some "thread".toList))).toOption.map
        (fun k => (k.thread, k.file)) = some (true, false) := by decide +kernel
    show lockKind ctorEnv.isSpace (some (some "thread".toList)) = _
    cases hk : lockKind ctorEnv.isSpace (some (some "thread".toList)) with
    | error e => rw [hk] at this; cases this
    | ok k => rw [hk] at this; cases k; cases this; rfl
  exact absurd (h _ _ hok "x".toList) (by decide +kernel)

/-- **C62**: an object that can also be flushed, or is not to be flushed, gets every record once, and
`alt` gets none. -/
theorem C62_object_with_flush_serves (m : List Str) (hw : "write".toList ∈ m) (ff : Bool)
    (hf : ff = true → "flush".toList ∈ m) (alt : Option (Str → Act Str)) (line : Str) :
    BaseH.call ⟨false, none, fun _ => some true, fun l => .ok l, objectDo m ff⟩ alt line =
      ⟨[line], false⟩ := by
  have h1 : m.contains "write".toList = true := List.contains_iff_mem.2 hw
  have : objectDo m ff line = ⟨[line], false⟩ := by
    unfold objectDo
    rw [h1]
    cases ff with
    | false => simp
    | true =>
      have h2 : m.contains "flush".toList = true := List.contains_iff_mem.2 (hf rfl)
      rw [h2]
      simp
  simp only [BaseH.call, BaseH.toDo, BaseH.attempt, this]
  rfl

/-- **C62** fails for `lock_type='file'` with a file object or the standard output: it is accepted, and
no lock is used. -/
theorem C62_requested_lock_is_taken_fails :
    ¬ ∀ (a : FileArgs) (t : FileTarget) (k : LKind) (r : RotConf),
      fileInit ctorEnv ctorAnyId a = .ok (t, k, r) → a.lockType = .str "file".toList → k.file = true := by
  intro h
  have hok : fileInit ctorEnv ctorAnyId ⟨[], .none, .none, .bool true, .str "\n".toList, .bool false,
      .none, .none, .str "file".toList⟩ = .ok (.stdout, ⟨false, false⟩, ⟨[], "logs".toList⟩) := by
    rw [fileInit_iff _ (by decide)]
    refine ⟨⟨⟨_, rfl⟩, .inl rfl, .inl rfl⟩, ⟨⟨_, rfl⟩, ⟨_, rfl⟩, .inl rfl, .inl rfl⟩,
      .nothing, ⟨⟨false, true⟩, ?_, rfl⟩, rfl⟩
    have : (lockKind ctorEnv.isSpace (some (some "file".toList))).toOption.map
        (fun k => (k.thread, k.file)) = some (false, true) := by decide +kernel
    show lockKind ctorEnv.isSpace (some (some "file".toList)) = _
    cases hk : lockKind ctorEnv.isSpace (some (some "file".toList)) with
    | error e => rw [hk] at this; cases this
    | ok k => rw [hk] at this; cases k; cases this; rfl
  exact absurd (h _ _ _ _ hok rfl) (by decide)

/-- **C62**: for a path the locks are the requested ones. -/
theorem C62_locks_for_a_path (env : TextEnv) (isId : Str → Bool) (hid : isId ".".toList = false) (a : FileArgs) (p : Str)
    (hf : a.files = [.str p]) (t : FileTarget) (k : LKind) (r : RotConf)
    (h : fileInit env isId a = .ok (t, k, r)) :
    t = .path p ∧ Locks env.isSpace a.lockType k.thread k.file := by
  obtain ⟨_, _, hn, ⟨k', hk, rfl⟩, _⟩ := (fileInit_iff env hid a t k r).1 h
  rw [hf] at hn
  cases hn
  refine ⟨rfl, ?_⟩
  have := (lockKind_iff _ _ _).1 hk
  simpa [FileTarget.named] using this

/-! ### C63 -/

variable {V : Type}

/-- **C63**: `field(extractor, converter)` is created exactly when the extractor is a callable a handler
could be and the converter is absent or one, too; otherwise it raises `ValueError`. -/
theorem C63_accepted_iff (isId : Str → Bool) (hid : isId ".".toList = false) (x : UserFn (Dict Str V) V) (c : Option (UserFn V V)) :
    ((∃ f, fieldInit isId x c = .ok f) ↔
      IsHandler (.callable x.sig) ∧ ∀ c', c = some c' → IsHandler (.callable c'.sig)) ∧
    ∀ e, fieldInit isId x c = .error e → e = .valueError := by
  have hx : ∀ f : SigObj, (getExtractor isId f = .ok () ↔ IsHandler (.callable f)) ∧
      ∀ e, getExtractor isId f = .error e → e = .valueError := by
    intro f
    unfold IsHandler
    cases f with
    | notCallable => simp [getExtractor]
    | noSignature => simp [getExtractor, sigIsHandler, Matcher.matches]
    | sig ps =>
      simp only [← handlerParams_iff hid _ false, getExtractor, sigIsHandler, Matcher.matches, CtorVal.callable.injEq,
        SigObj.sig.injEq, exists_eq_left']
      split <;> simp_all
  have hc : ∀ f : Option SigObj, (getConverter isId f = .ok () ↔ ∀ g, f = some g → IsHandler (.callable g)) ∧
      ∀ e, getConverter isId f = .error e → e = .valueError := by
    intro f
    cases f with
    | none => simp [getConverter]
    | some f =>
      have : getConverter isId (some f) = getExtractor isId f := by cases f <;> rfl
      rw [this]
      simp only [Option.some.injEq, forall_eq']
      exact hx f
  have h1 := hx x.sig
  have h2 := hc (c.map UserFn.sig)
  unfold fieldInit
  split
  · rename_i e he
    refine ⟨⟨fun ⟨_, h⟩ => (nomatch h), fun ⟨h, _⟩ => ?_⟩, fun e' h => by cases h; exact h1.2 _ he⟩
    rw [h1.1.2 h] at he; cases he
  · rename_i he
    split
    · rename_i e he'
      refine ⟨⟨fun ⟨_, h⟩ => (nomatch h), fun ⟨_, h⟩ => ?_⟩, fun e' h => by cases h; exact h2.2 _ he'⟩
      rw [h2.1.2 (by
        intro g hg
        cases c with
        | none => cases hg
        | some c' => cases hg; exact h c' rfl)] at he'
      cases he'
    · rename_i he'
      refine ⟨⟨fun _ => ⟨h1.1.1 he, fun c' hc' => ?_⟩, fun _ => ⟨_, rfl⟩⟩, fun e' h => nomatch h⟩
      subst hc'
      exact h2.1.1 he' _ rfl

/-- **C63**: the value of the field is what the converter makes of what the extractor gives for the log;
without a converter it is that value itself.  An exception of either is the exception of the field. -/
theorem C63_value (isId : Str → Bool) (x : UserFn (Dict Str V) V) (c : Option (UserFn V V)) (f : FieldObj V)
    (h : fieldInit isId x c = .ok f) (log : Dict Str V) :
    (c = none → f.getData log = x.run log) ∧
    (∀ c', c = some c' → ∀ v, x.run log = .ok v → f.getData log = c'.run v) ∧
    (x.run log = .error () → f.getData log = .error ()) := by
  have hf : f = ⟨x, c⟩ := by
    unfold fieldInit at h
    split at h
    · cases h
    · split at h
      · cases h
      · cases h; rfl
  subst hf
  refine ⟨?_, ?_, ?_⟩
  · rintro rfl
    unfold FieldObj.getData FieldObj.convert
    cases x.run log <;> rfl
  · rintro c' rfl v hv
    simp [FieldObj.getData, FieldObj.convert, hv]
  · intro hv
    simp [FieldObj.getData, hv]

/-- **C63** in a record: a field that is not in the record yet gets the converted value; if the extractor
or the converter raises, it stays absent. -/
theorem C63_value_in_the_record (isId : Str → Bool) (x : UserFn (Dict Str V) V) (c : UserFn V V)
    (f : FieldObj V) (h : fieldInit isId x (some c) = .ok f) (inter : Bool)
    (pre post : List (Str × Extractor V)) (name : Str)
    (hnd : ((pre ++ (name, f.getData) :: post).map Prod.fst).Nodup) (d : Dict Str V)
    (hd : Dict.get? name d = none) (w : V) :
    Dict.get? name (extractFrom inter (pre ++ (name, f.getData) :: post) d) = some w ↔
      ∃ v, x.run (extractFrom inter pre d) = .ok v ∧ c.run v = .ok w := by
  rw [C15_field_value inter pre post name _ hnd d, hd]
  obtain ⟨_, h2, h3⟩ := C63_value isId x (some c) f h (extractFrom inter pre d)
  cases hx : x.run (extractFrom inter pre d) with
  | error e => rw [h3 hx]; simp [FieldsSpec.stored]
  | ok v =>
    rw [h2 c rfl v hx]
    cases hv : c.run v <;> simp [FieldsSpec.stored, hv]

example : (fieldInit (V := Nat) ctorAnyId ⟨.sig [pX], fun _ => .ok 1⟩ (some ⟨.sig [pX], fun n => .ok (n + 1)⟩)).toOption.map
    (fun f => f.getData []) = some (.ok 2) := by decide +kernel

end Polog
