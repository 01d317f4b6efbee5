import Verif.Smtp.Model

/-! What the user relies on about letters. -/

namespace Polog.MailSpec

variable {V : Type}

/-- The lines of a text. -/
def lines (text : Str) : List Str := splitChar '\n' text

/-- The fields of a log as they are shown: names and texts of the values. -/
inductive Shows (env : MailEnv V) : Dict Str V → List (Str × Str) → Prop
  | nil : Shows env [] []
  | cons {k v t log fs} : env.shown v = .ok t → Shows env log fs → Shows env ((k, v) :: log) ((k, t) :: fs)

/-- Nothing in the fields breaks lines. -/
def OneLine (fs : List (Str × Str)) : Prop := ∀ f ∈ fs, '\n' ∉ f.1 ∧ '\n' ∉ f.2

/-- Names without spaces (such as identifiers). -/
def PlainNames (fs : List (Str × Str)) : Prop := ∀ f ∈ fs, ' ' ∉ f.1

/-- What the subject of a letter says about the event. -/
inductive Outcome
  | success
  | error
  | unknown

/-- The outcome of the logged event. -/
def outcome (env : MailEnv V) (log : Dict Str V) : Outcome → Prop
  | .success => ∃ v, Dict.get? "success".toList log = some v ∧ env.truthy v = true
  | .error => ∃ v, Dict.get? "success".toList log = some v ∧ env.truthy v = false ∧ env.isNone v = false
  | .unknown => Dict.get? "success".toList log = none ∨
      ∃ v, Dict.get? "success".toList log = some v ∧ env.truthy v = false ∧ env.isNone v = true

/-- The letter a thread is working on and that is not delivered yet. -/
def underway {M : Type} : SendPc M → Option M
  | .begin m | .created m | .logged m => some m
  | .idle | .mailed _ => none

end Polog.MailSpec
