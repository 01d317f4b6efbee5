import Verif.Py
import Verif.Dict
import Verif.Base.Model
import Mathlib.Logic.Relation

/-!
Model of the letters of `SMTP_sender` (`polog/handlers/smtp/sender.py:58-122`) and of the connections of
`SMTPDependencyWrapper` (`polog/handlers/smtp/smtp_dependency_wrapper.py`).
-/

namespace Polog

/-- What the handler asks of the values of a log: `str(value)` (which may raise), `bool(value)` and
`value is None`. sender.py:82-122. -/
structure MailEnv (V : Type) where
  shown : V → Except Unit Str
  truthy : V → Bool
  isNone : V → Bool

/-- A letter: `MIMEText` with three headers.  Simplification: how `email` encodes them is not
modelled. sender.py:68-80. -/
structure Letter where
  html : Bool
  text : Str
  subject : Str
  sender : Str
  recipient : Str
deriving DecidableEq

/-- The attributes of an `SMTP_sender`, sender.py:48-55. -/
structure MailConf (V : Type) where
  emailFrom : Str
  password : Str
  smtpServer : Str
  emailTo : Str
  port : Int
  textAssembler : Option (Dict Str V → Except Unit Str)
  subjectAssembler : Option (Dict Str V → Except Unit Str)
  isHtml : Bool

variable {V : Type}

/-- The list comprehension of sender.py:96. -/
def mailElements (env : MailEnv V) : Dict Str V → Except Unit (List Str)
  | [] => .ok []
  | (key, value) :: rest =>
    match env.shown value with
    | .error e => .error e
    | .ok v =>
      match mailElements env rest with
      | .error e => .error e
      | .ok es => .ok ((key ++ " = ".toList ++ v) :: es)

/-- `get_standart_text`, sender.py:91-101. -/
def standardText (env : MailEnv V) (log : Dict Str V) : Except Unit Str :=
  match mailElements env log with
  | .error e => .error e
  | .ok elements =>
    if joinChar '\n' elements ≠ [] then .ok ("Message from the Polog:\n\n".toList ++ joinChar '\n' elements)
    else .ok "Empty message from the Polog.".toList

/-- `get_text`, sender.py:82-89. -/
def MailConf.getText (c : MailConf V) (env : MailEnv V) (log : Dict Str V) : Except Unit Str :=
  match c.textAssembler with
  | some f => f log
  | none => standardText env log

/-- `get_standart_subject`, sender.py:112-122; a missing key gives `None`. -/
def standardSubject (env : MailEnv V) (log : Dict Str V) : Str :=
  match Dict.get? "success".toList log with
  | none => "Message from the Polog".toList
  | some v =>
    if env.truthy v then "Success message from the Polog".toList
    else if env.isNone v then "Message from the Polog".toList
    else "Error message from the Polog".toList

/-- `get_subject`, sender.py:103-110. -/
def MailConf.getSubject (c : MailConf V) (env : MailEnv V) (log : Dict Str V) : Except Unit Str :=
  match c.subjectAssembler with
  | some f => f log
  | none => .ok (standardSubject env log)

/-- `get_content`, sender.py:68-80. -/
def MailConf.getContent (c : MailConf V) (env : MailEnv V) (log : Dict Str V) : Except Unit Letter :=
  match c.getText env log with
  | .error e => .error e
  | .ok text =>
    match c.getSubject env log with
    | .error e => .error e
    | .ok subject => .ok ⟨c.isHtml, text, subject, c.emailFrom, c.emailTo⟩

/-- `__repr__`, sender.py:58-59; `shownInt` is `str` of an int, `texts` are the representations of the
text assembler, the subject assembler and `alt`. -/
def MailConf.repr (c : MailConf V) (shownInt : Int → Str) (texts : Str × Str × Str) : Str :=
  "SMTP_sender(email_from=\"".toList ++ c.emailFrom ++ "\", password=<HIDDEN>, smtp_server=\"".toList ++
    c.smtpServer ++ "\", email_to=\"".toList ++ c.emailTo ++ "\", port=".toList ++ shownInt c.port ++
    ", text_assembler=".toList ++ texts.1 ++ ", subject_assembler=".toList ++ texts.2.1 ++
    ", alt=".toList ++ texts.2.2 ++ ")".toList

/-- The handler as `BaseHandler` sees it (`do`, sender.py:61-66).  `accepts` says whether the sending of
this letter succeeds. -/
def MailConf.handler (c : MailConf V) (env : MailEnv V) (onlyErrors : Bool)
    (filter : Option (Dict Str V → Except Unit (Option Bool))) (success : Dict Str V → Option Bool)
    (accepts : Letter → Bool) : BaseH (Dict Str V) Letter Letter :=
  ⟨onlyErrors, filter, success, c.getContent env,
    fun l => if accepts l then ⟨[l], false⟩ else ⟨[], true⟩⟩

/-! ### Connections -/

/-- A connection to the mail server. smtp_dependency_wrapper.py:26-47. -/
inductive ConnState where
  | fresh    -- connected, nobody has logged in
  | ready    -- logged in
  | closed   -- after `quit`
deriving DecidableEq

/-- Where a thread is in `send`, smtp_dependency_wrapper.py:17-24. -/
inductive SendPc (M : Type) where
  | idle
  | begin (m : M)     -- before line 30
  | created (m : M)   -- before line 31
  | logged (m : M)    -- before line 37
  | mailed (m : M)    -- before line 45
deriving DecidableEq

/-- One `SMTPDependencyWrapper` used by several threads: the attribute `_server` (`none`: not assigned
yet), the connections made so far, where the threads are; `begun`, `sent` and `failed` record the calls of
`send`, the deliveries and the calls that ended with an exception. smtp_dependency_wrapper.py:10-47. -/
structure SmtpSys (T M : Type) where
  server : Option Nat
  conns : List ConnState
  pc : T → SendPc M
  begun : List M
  sent : List M
  failed : List M

/-- smtp_dependency_wrapper.py:10-15. -/
def SmtpSys.init {T M : Type} : SmtpSys T M := ⟨none, [], fun _ => .idle, [], [], []⟩

variable {T M : Type} [DecidableEq T]

/-- A thread goes to another place of smtp_dependency_wrapper.py:17-47. -/
def SmtpSys.go (s : SmtpSys T M) (t : T) (p : SendPc M) : T → SendPc M :=
  fun t' => if t' = t then p else s.pc t'

/-- The state of the connection in the attribute `_server`. smtp_dependency_wrapper.py:26-47. -/
def SmtpSys.conn (s : SmtpSys T M) : Option ConnState := s.server.bind fun c => s.conns[c]?

/-- A step of a thread in `send`, smtp_dependency_wrapper.py:17-47.  Simplification: each call of
`smtplib` is one step.  `smtplib` takes the answer "already authenticated" of a server as a success of
`login`, raises on a closed connection, and a server refuses letters of clients that have not logged in.
With `faults` connecting, logging in and sending may also fail for reasons of their own. With `lost` the connection may break after the
server has taken the letter and before its answer has come (`sendmail` raises then, too). -/
inductive SendStep (faults lost : Bool) : SmtpSys T M → SmtpSys T M → Prop
  | call (s : SmtpSys T M) (t : T) (m : M) (h : s.pc t = .idle) :
      SendStep faults lost s { s with pc := s.go t (.begin m), begun := s.begun ++ [m] }
  /-- line 30 -/
  | create (s : SmtpSys T M) (t : T) (m : M) (h : s.pc t = .begin m) :
      SendStep faults lost s
        { s with pc := s.go t (.created m), server := some s.conns.length, conns := s.conns ++ [.fresh] }
  /-- line 30: no connection -/
  | createFails (s : SmtpSys T M) (t : T) (m : M) (h : s.pc t = .begin m) (hf : faults = true) :
      SendStep faults lost s { s with pc := s.go t .idle, failed := s.failed ++ [m] }
  /-- line 31 -/
  | login (s : SmtpSys T M) (t : T) (m : M) (c : Nat) (h : s.pc t = .created m) (hs : s.server = some c)
      (hc : s.conns[c]? ≠ some .closed) :
      SendStep faults lost s { s with pc := s.go t (.logged m), conns := s.conns.set c .ready }
  /-- line 31: the connection is closed, or the server refuses the password -/
  | loginFails (s : SmtpSys T M) (t : T) (m : M) (h : s.pc t = .created m)
      (hc : s.conn = some .closed ∨ faults = true) :
      SendStep faults lost s { s with pc := s.go t .idle, failed := s.failed ++ [m] }
  /-- line 37 -/
  | mail (s : SmtpSys T M) (t : T) (m : M) (h : s.pc t = .logged m) (hc : s.conn = some .ready) :
      SendStep faults lost s { s with pc := s.go t (.mailed m), sent := s.sent ++ [m] }
  /-- line 37: the connection is closed, nobody has logged in, or the server refuses the letter -/
  | mailFails (s : SmtpSys T M) (t : T) (m : M) (h : s.pc t = .logged m)
      (hc : s.conn = some .closed ∨ s.conn = some .fresh ∨ faults = true) :
      SendStep faults lost s { s with pc := s.go t .idle, failed := s.failed ++ [m] }
  /-- line 37: the server has taken the letter, but its answer does not come -/
  | mailUnanswered (s : SmtpSys T M) (t : T) (m : M) (h : s.pc t = .logged m) (hc : s.conn = some .ready) (hl : lost = true) :
      SendStep faults lost s { s with pc := s.go t .idle, sent := s.sent ++ [m], failed := s.failed ++ [m] }
  /-- lines 43-47, exceptions are ignored -/
  | quit (s : SmtpSys T M) (t : T) (m : M) (c : Nat) (h : s.pc t = .mailed m) (hs : s.server = some c) :
      SendStep faults lost s { s with pc := s.go t .idle, conns := s.conns.set c .closed }

/-- The states of some execution. smtp_dependency_wrapper.py:17-47. -/
inductive SendReach (faults lost : Bool) : SmtpSys T M → Prop
  | init : SendReach faults lost .init
  | step {s s' : SmtpSys T M} : SendReach faults lost s → SendStep faults lost s s' → SendReach faults lost s'

/-- The states of an execution in which a call of `send` begins only when no other one is running.
smtp_dependency_wrapper.py:17-47. -/
inductive SendReach1 (faults lost : Bool) : SmtpSys T M → Prop
  | init : SendReach1 faults lost .init
  | step {s s' : SmtpSys T M} : SendReach1 faults lost s → SendStep faults lost s s' →
      (∀ t u, s'.pc t ≠ .idle → s'.pc u ≠ .idle → t = u) → SendReach1 faults lost s'

end Polog
