import Verif.Smtp.Spec
import Verif.Base.Props

/-! C60: the letters of `SMTP_sender`. -/

namespace Polog

open MailSpec BaseSpec

variable {V : Type}

theorem mailElements_shows {env : MailEnv V} {log : Dict Str V} {fs : List (Str × Str)}
    (h : Shows env log fs) :
    mailElements env log = .ok (fs.map fun f => f.1 ++ " = ".toList ++ f.2) := by
  induction h with
  | nil => rfl
  | cons h1 _ ih => simp only [mailElements, h1, ih, List.map_cons]

theorem joinChar_ne_nil (c : Char) {ps : List Str} (h : ps ≠ []) (hp : ∀ p ∈ ps, p ≠ []) :
    joinChar c ps ≠ [] := by
  match ps, h with
  | [p], _ => exact hp p (by simp)
  | p :: q :: ps, _ => simp [joinChar]

/-- **C60**, for texts without line breaks: the lines of the standard text are the heading, an empty line
and one line `name = value` for each field of the log, in the order of the log. -/
theorem C60_text_lists_the_fields_partial (env : MailEnv V) (log : Dict Str V) (fs : List (Str × Str))
    (hs : Shows env log fs) (h1 : OneLine fs) :
    ∃ text, standardText env log = .ok text ∧
      (fs = [] → text = "Empty message from the Polog.".toList) ∧
      (fs ≠ [] → lines text = ["Message from the Polog:".toList, []] ++
        fs.map fun f => f.1 ++ " = ".toList ++ f.2) := by
  unfold standardText
  rw [mailElements_shows hs]
  dsimp only
  by_cases hn : fs = []
  · subst hn
    exact ⟨_, rfl, fun _ => rfl, fun h => absurd rfl h⟩
  · have hne : (fs.map fun f => f.1 ++ " = ".toList ++ f.2) ≠ [] := by simpa using hn
    rw [if_pos (joinChar_ne_nil _ hne (by
      intro p hp
      obtain ⟨f, _, rfl⟩ := List.mem_map.1 hp
      simp))]
    refine ⟨_, rfl, fun h => absurd h hn, fun _ => ?_⟩
    have e : "Message from the Polog:\n\n".toList =
        "Message from the Polog:".toList ++ '\n' :: ([] ++ '\n' :: []) := rfl
    rw [e]
    unfold lines
    generalize hj : (fs.map fun f => f.1 ++ " = ".toList ++ f.2) = parts at hne ⊢
    have e2 : "Message from the Polog:".toList ++ '\n' :: ([] ++ '\n' :: []) ++ joinChar '\n' parts =
        "Message from the Polog:".toList ++ '\n' :: '\n' :: joinChar '\n' parts := by
      simp only [List.append_assoc, List.cons_append, List.nil_append]
    rw [e2, splitChar_append _ _ _ (by decide), show ∀ s : Str, splitChar '\n' ('\n' :: s) = [] :: splitChar '\n' s
      from fun s => by simp [splitChar], splitChar_joinChar _ _ hne (by
        intro p hp
        rw [← hj] at hp
        obtain ⟨f, hf, rfl⟩ := List.mem_map.1 hp
        obtain ⟨h2, h3⟩ := h1 f hf
        simp only [List.mem_append, not_or]
        exact ⟨⟨h2, by decide⟩, h3⟩)]
    rfl

theorem field_line_inj {a b : Str × Str} (ha : ' ' ∉ a.1) (hb : ' ' ∉ b.1)
    (h : a.1 ++ " = ".toList ++ a.2 = b.1 ++ " = ".toList ++ b.2) : a = b := by
  obtain ⟨a1, a2⟩ := a
  obtain ⟨b1, b2⟩ := b
  simp only at *
  have hx : splitChar ' ' (a1 ++ " = ".toList ++ a2) = splitChar ' ' (b1 ++ " = ".toList ++ b2) := by rw [h]
  rw [show a1 ++ " = ".toList ++ a2 = a1 ++ ' ' :: ("= ".toList ++ a2) by simp,
    show b1 ++ " = ".toList ++ b2 = b1 ++ ' ' :: ("= ".toList ++ b2) by simp,
    splitChar_append _ _ _ ha, splitChar_append _ _ _ hb] at hx
  obtain rfl := (List.cons.inj hx).1
  have := List.append_cancel_left (by simpa using h : a1 ++ (" = ".toList ++ a2) = a1 ++ (" = ".toList ++ b2))
  simp at this
  rw [this]

/-- **C60**: no two different lists of fields give the same text (names are identifiers, no text contains
a line break). -/
theorem C60_text_determines_the_fields_partial (env : MailEnv V) (log log' : Dict Str V)
    (fs fs' : List (Str × Str)) (hs : Shows env log fs) (hs' : Shows env log' fs')
    (h1 : OneLine fs) (h1' : OneLine fs') (hn : PlainNames fs) (hn' : PlainNames fs')
    (h : standardText env log = standardText env log') : fs = fs' := by
  obtain ⟨t, ht, he, hl⟩ := C60_text_lists_the_fields_partial env log fs hs h1
  obtain ⟨t', ht', he', hl'⟩ := C60_text_lists_the_fields_partial env log' fs' hs' h1'
  have hinj : ∀ gs gs' : List (Str × Str), PlainNames gs → PlainNames gs' →
      (gs.map fun f => f.1 ++ " = ".toList ++ f.2) = (gs'.map fun f => f.1 ++ " = ".toList ++ f.2) →
      gs = gs' := by
    intro gs
    induction gs with
    | nil => intro gs' _ _ h; cases gs' with
      | nil => rfl
      | cons _ _ => simp at h
    | cons g gs ih =>
      intro gs' p1 p2 h
      cases gs' with
      | nil => simp at h
      | cons g' gs' =>
        simp only [List.map_cons, List.cons.injEq] at h
        rw [field_line_inj (p1 g (by simp)) (p2 g' (by simp)) h.1,
          ih gs' (fun f hf => p1 f (by simp [hf])) (fun f hf => p2 f (by simp [hf])) h.2]
  rw [ht, ht'] at h
  cases h
  have hne : lines "Empty message from the Polog.".toList = ["Empty message from the Polog.".toList] := by decide
  by_cases e : fs = [] <;> by_cases e' : fs' = []
  · rw [e, e']
  · have := hl' e'
    rw [he e, hne] at this
    simp at this
  · have := hl e
    rw [he' e', hne] at this
    simp at this
  · have := hl e
    rw [hl' e'] at this
    exact hinj _ _ hn hn' (List.append_cancel_left this).symm

/-- **C60** fails for values with line breaks: a message can forge a further field. -/
theorem C60_text_determines_the_fields_fails :
    ¬ ∀ (log log' : Dict Str Str), standardText ⟨fun s => .ok s, fun _ => true, fun _ => false⟩ log =
      standardText ⟨fun s => .ok s, fun _ => true, fun _ => false⟩ log' → log = log' :=
  fun h => absurd (h [("message".toList, "hi\nsuccess = True".toList)]
    [("message".toList, "hi".toList), ("success".toList, "True".toList)] (by decide +kernel))
    (by decide +kernel)

/-- **C60**: the standard subject tells the outcome of the event. -/
theorem C60_subject_tells_the_outcome (env : MailEnv V) (log : Dict Str V) :
    (outcome env log .success → standardSubject env log = "Success message from the Polog".toList) ∧
    (outcome env log .error → standardSubject env log = "Error message from the Polog".toList) ∧
    (outcome env log .unknown → standardSubject env log = "Message from the Polog".toList) := by
  unfold standardSubject outcome
  refine ⟨?_, ?_, ?_⟩
  · rintro ⟨v, h1, h2⟩
    rw [h1]; dsimp only; rw [if_pos h2]
  · rintro ⟨v, h1, h2, h3⟩
    rw [h1]; dsimp only; rw [if_neg (by rw [h2]; decide), if_neg (by rw [h3]; decide)]
  · rintro (h1 | ⟨v, h1, h2, h3⟩)
    · rw [h1]
    · rw [h1]; dsimp only; rw [if_neg (by rw [h2]; decide), if_pos h3]

/-- **C60**: and it tells it unambiguously. -/
theorem C60_outcome_from_the_subject (env : MailEnv V) (log : Dict Str V) :
    (standardSubject env log = "Success message from the Polog".toList → outcome env log .success) ∧
    (standardSubject env log = "Error message from the Polog".toList → outcome env log .error) ∧
    (standardSubject env log = "Message from the Polog".toList → outcome env log .unknown) := by
  have e1 : "Success message from the Polog".toList ≠ "Error message from the Polog".toList := by decide
  have e2 : "Success message from the Polog".toList ≠ "Message from the Polog".toList := by decide
  have e3 : "Error message from the Polog".toList ≠ "Message from the Polog".toList := by decide
  unfold standardSubject outcome
  cases h : Dict.get? "success".toList log with
  | none => exact ⟨fun h => absurd h.symm e2, fun h => absurd h.symm e3, fun _ => .inl rfl⟩
  | some v =>
    dsimp only
    by_cases ht : env.truthy v = true
    · rw [if_pos ht]
      exact ⟨fun _ => ⟨v, rfl, ht⟩, fun h => absurd h e1, fun h => absurd h e2⟩
    · rw [if_neg ht]
      have ht : env.truthy v = false := by simpa using ht
      by_cases hn : env.isNone v = true
      · rw [if_pos hn]
        exact ⟨fun h => absurd h.symm e2, fun h => absurd h.symm e3, fun _ => .inr ⟨v, rfl, ht, hn⟩⟩
      · rw [if_neg hn]
        have hn : env.isNone v = false := by simpa using hn
        exact ⟨fun h => absurd h.symm e1, fun _ => ⟨v, rfl, ht, hn⟩, fun h => absurd h e3⟩

/-- **C60**: a letter goes from and to the configured addresses, is HTML exactly if this was asked for,
and has the text and the subject of the user's functions where there are such functions. -/
theorem C60_letter (c : MailConf V) (env : MailEnv V) (log : Dict Str V) (l : Letter) :
    c.getContent env log = .ok l ↔
      l.sender = c.emailFrom ∧ l.recipient = c.emailTo ∧ l.html = c.isHtml ∧
      (∀ f, c.textAssembler = some f → f log = .ok l.text) ∧
      (c.textAssembler = none → standardText env log = .ok l.text) ∧
      (∀ f, c.subjectAssembler = some f → f log = .ok l.subject) ∧
      (c.subjectAssembler = none → standardSubject env log = l.subject) := by
  obtain ⟨html, text, subject, sender, recipient⟩ := l
  have ht : c.getText env log = .ok text ↔
      (∀ f, c.textAssembler = some f → f log = .ok text) ∧
      (c.textAssembler = none → standardText env log = .ok text) := by
    unfold MailConf.getText
    cases c.textAssembler <;> simp
  have hs : c.getSubject env log = .ok subject ↔
      (∀ f, c.subjectAssembler = some f → f log = .ok subject) ∧
      (c.subjectAssembler = none → standardSubject env log = subject) := by
    unfold MailConf.getSubject
    cases c.subjectAssembler <;> simp
  simp only
  unfold MailConf.getContent
  constructor
  · intro h
    split at h
    · cases h
    · rename_i t' h1
      split at h
      · cases h
      · rename_i s' h2
        cases h
        obtain ⟨a1, a2⟩ := ht.1 h1
        obtain ⟨b1, b2⟩ := hs.1 h2
        exact ⟨rfl, rfl, rfl, a1, a2, b1, b2⟩
  · rintro ⟨rfl, rfl, rfl, a1, a2, b1, b2⟩
    rw [ht.2 ⟨a1, a2⟩, hs.2 ⟨b1, b2⟩]

/-- **C60**: a log that passes the filters gives exactly one letter, with these contents; if the letter
cannot be composed or sent, no letter is sent and the log goes to `alt`. -/
theorem C60_one_letter_for_a_wanted_log (c : MailConf V) (env : MailEnv V) (oe : Bool)
    (filter : Option (Dict Str V → Except Unit (Option Bool))) (success : Dict Str V → Option Bool)
    (accepts : Letter → Bool) (alt : Option (Dict Str V → Act Letter)) (log : Dict Str V)
    (hw : Wanted (c.handler env oe filter success accepts) log) :
    (∀ l, c.getContent env log = .ok l → accepts l = true →
      (c.handler env oe filter success accepts).call alt log = ⟨[l], false⟩) ∧
    ((∀ l, c.getContent env log = .ok l → accepts l = false) →
      (alt = none → (c.handler env oe filter success accepts).call alt log = ⟨[], false⟩) ∧
      (∀ f, alt = some f → (c.handler env oe filter success accepts).call alt log = f log)) := by
  constructor
  · intro l hl ha
    exact C35_wanted_log_is_written _ alt log [l] hw
      ⟨l, hl, by simp [MailConf.handler, ha], by simp [MailConf.handler, ha]⟩
  · intro h
    have hf : FailsToWrite (c.handler env oe filter success accepts) log [] := by
      cases hc : c.getContent env log with
      | error e => exact .inl ⟨hc, rfl⟩
      | ok l =>
        have := h l hc
        exact .inr ⟨l, hc, by simp [MailConf.handler, this], by simp [MailConf.handler, this]⟩
    obtain ⟨h1, h2⟩ := C35_failed_write_goes_to_alt _ alt log [] hw hf
    refine ⟨h1, fun f hf' => ?_⟩
    rw [h2 f hf']
    simp

/-- **C60**: the representation of a handler, which gets into logs and error messages, tells nothing
about the password: it is the same for all passwords. -/
theorem C60_password_is_not_shown (c : MailConf V) (shownInt : Int → Str) (texts : Str × Str × Str)
    (pw : Str) : { c with password := pw }.repr shownInt texts = c.repr shownInt texts := rfl

/-! ### Witnesses -/

def mailEnvEx : MailEnv Nat := ⟨fun n => .ok (if n = 0 then "False".toList else "True".toList), fun n => n != 0,
  fun _ => false⟩

def mailConfEx : MailConf Nat := ⟨"me".toList, "pw".toList, "host".toList, "you".toList, 465, none, none, false⟩

example : Shows mailEnvEx [("success".toList, 0), ("auto".toList, 1)]
    [("success".toList, "False".toList), ("auto".toList, "True".toList)] := .cons rfl (.cons rfl .nil)

example : OneLine [("success".toList, "False".toList), ("auto".toList, "True".toList)] ∧
    PlainNames [("success".toList, "False".toList), ("auto".toList, "True".toList)] := by
  unfold OneLine PlainNames; decide +kernel

example : outcome mailEnvEx [("success".toList, 0), ("auto".toList, 1)] .error := ⟨0, rfl, rfl, rfl⟩

example : mailConfEx.getContent mailEnvEx [("success".toList, 0), ("auto".toList, 1)] =
    .ok ⟨false, "Message from the Polog:\n\nsuccess = False\nauto = True".toList,
      "Error message from the Polog".toList, "me".toList, "you".toList⟩ := by decide +kernel

example : Wanted (mailConfEx.handler mailEnvEx true none (fun _ => some false) fun _ => true)
    [("success".toList, 0)] := by
  unfold Wanted; simp [MailConf.handler]

end Polog
