import Verif.Model.Email

/-! # The email script (ndncert-send-email-challenge.py)

The script is Python. The parts of the Python library it uses (`argparse`, `configparser`, `str.format`, `email.mime`, `smtplib`)
are not in /repo; they are modelled here as far as the script depends on them, from their documentation and source
(CPython 3.8 to 3.12). Strings are octets. -/

namespace Ndncert.MailScript

/-- what `argparse` makes of one argument when the only option is `-h`/`--help`
(`ArgumentParser._parse_optional`): `true` if it is taken for a positional argument -/
def isPositional (a : Bytes) : Bool :=
  let digit : UInt8 → Bool := fun b => 48 ≤ b && b ≤ 57
  match a with
  | [] => true
  | [_] => true
  | 45 :: c :: rest =>
    let name := (c :: rest).takeWhile (· ≠ 61)
    -- `-h`, `-hxyz`; `--h`, `--help`, `--help=x` and the like
    if c = 104 then false
    else if c = 45 ∧ (name.drop 1).isPrefixOf (bytes! "help") then false
    -- a negative number, `^-\d+$|^-\d*\.\d+$`
    else if (c :: rest).all digit then true
    else if (match (c :: rest).dropWhile digit with
      | 46 :: frac => frac ≠ [] && frac.all digit
      | _ => false) then true
    else (c :: rest).contains 32
  | _ => true

/-- `parser.parse_args()` (lines 13-18): the four positional arguments. `none`: the script ends with a usage
message (status 2) or with the help text (status 0). Only the first `--` is treated specially; `argparse` also drops a
second one in some versions. -/
def parseArgs (args : List Bytes) : Option (Bytes × Bytes × Bytes × Bytes) :=
  let before := args.takeWhile (· ≠ [45, 45])
  let after := (args.dropWhile (· ≠ [45, 45])).drop 1
  if before.all isPositional then
    match before ++ after with
    | [email, secret, caName, certName] => some (email, secret, caName, certName)
    | _ => none
  else none

/-- how `str.format` counts its fields -/
inductive Numbering where
  | unset
  | automatic (next : Nat)
  | manual
  deriving DecidableEq

/-- the value of a decimal number -/
def decValue (ds : Bytes) : Option Nat :=
  if ds ≠ [] ∧ ds.all (fun b => 48 ≤ b && b ≤ 57) then some (ds.foldl (fun n b => n * 10 + (b.toNat - 48)) 0) else none

/-- the argument for a replacement field. Python raises for unknown names and numbers; fields with attributes, indices, conversions
or format specifications are treated as if they raised. -/
def fieldValue (args : List Bytes) (num : Numbering) (field : Bytes) : Res (Bytes × Numbering) :=
  if field = [] then
    match num with
    | .manual => .exc .runtime
    | .unset => match args[0]? with | some v => .ok (v, .automatic 1) | none => .exc .runtime
    | .automatic n => match args[n]? with | some v => .ok (v, .automatic (n + 1)) | none => .exc .runtime
  else match decValue field, num with
    | some _, .automatic _ => .exc .runtime
    | some n, _ => match args[n]? with | some v => .ok (v, .manual) | none => .exc .runtime
    | none, _ => .exc .runtime

/-- `template.format(*args)` (lines 33-34); `field` holds what was read since the opening brace -/
def format (args : List Bytes) : Numbering → Option Bytes → Bytes → Res Bytes
  | _, none, [] => .ok []
  | _, some _, [] => .exc .runtime
  | _, none, [c] => if c = 123 ∨ c = 125 then .exc .runtime else .ok [c]
  | num, none, c :: d :: rest =>
    if c = 123 then
      if d = 123 then do let s ← format args num none rest; .ok (123 :: s)
      else format args num (some []) (d :: rest)
    else if c = 125 then
      if d = 125 then do let s ← format args num none rest; .ok (125 :: s)
      else .exc .runtime
    else do let s ← format args num none (d :: rest); .ok (c :: s)
  | num, some field, c :: rest =>
    if c = 125 then
      match fieldValue args num field with
      | .ok (v, num') => do let s ← format args num' none rest; .ok (v ++ s)
      | .exc e => .exc e
      | .ub u => .ub u
    else if c = 123 then .exc .runtime
    else format args num (some (field ++ [c])) rest

/-- the message (lines 37-42) -/
structure Message where
  sender : Bytes
  receiver : Bytes
  subject : Bytes
  text : Bytes
  html : Bytes
  deriving DecidableEq, Repr

/-- calls to `smtplib` (lines 45-60) -/
inductive Smtp where
  | connect (ssl : Bool) (server port : Bytes)
  | ehlo
  | starttls
  | login (user password : Bytes)
  | sendmail (sender receiver : Bytes) (msg : Message)
  | close
  deriving DecidableEq, Repr

/-- what the script finds: the values of the configuration file, by section and key (`ConfigParser.get`, after interpolation; `none` if
it raises), which calls fail, and which messages `as_string` can write -/
structure Surroundings where
  conf : Bytes → Bytes → Option Bytes
  fails : Smtp → Bool
  writes : Message → Bool

/-- what the script did: the calls made, the last of which may have failed, and the exit status -/
structure ScriptRun where
  calls : List Smtp
  status : Nat
  deriving DecidableEq, Repr

/-- make the calls until one fails; an exception that nobody catches ends the script with status 1 -/
def perform (fails : Smtp → Bool) : List Smtp → ScriptRun
  | [] => ⟨[], 0⟩
  | c :: rest =>
    if fails c then ⟨[c], 1⟩
    else
      let r := perform fails rest
      ⟨c :: r.calls, r.status⟩

/-- `ENCRYPT_MODE` and the other settings (lines 25-34) -/
structure Settings where
  mode : Bytes
  server : Bytes
  port : Bytes
  user : Bytes
  password : Bytes
  sender : Bytes
  subject : Bytes
  text : Bytes
  html : Bytes
  deriving DecidableEq, Repr

/-- lines 21-34, except for `format`: the settings, or `none` if one is missing -/
def settings (conf : Bytes → Bytes → Option Bytes) : Option Settings := do
  let mode ← conf (bytes! "ndncert_smtp_settings") (bytes! "ENCRYPT_MODE")
  let server ← conf (bytes! "ndncert_smtp_settings") (bytes! "SMTP_SERVER")
  let port ← conf (bytes! "ndncert_smtp_settings") (bytes! "SMTP_PORT")
  let user ← conf (bytes! "ndncert_smtp_settings") (bytes! "SMTP_USER")
  let password ← conf (bytes! "ndncert_smtp_settings") (bytes! "SMTP_PASSWORD")
  let sender ← conf (bytes! "ndncert_email_settings") (bytes! "MAIL_FROM")
  let subject ← conf (bytes! "ndncert_email_settings") (bytes! "SUBJECT")
  let text ← conf (bytes! "ndncert_email_settings") (bytes! "TEXT_TEMPLATE")
  let html ← conf (bytes! "ndncert_email_settings") (bytes! "HTML_TEMPLATE")
  some { mode, server, port, user, password, sender, subject, text, html }

/-- the calls before the message is written (lines 45-57) -/
def session (s : Settings) : List Smtp :=
  [.connect (decide (s.mode = bytes! "ssl")) s.server s.port] ++
  (if s.mode ≠ bytes! "none" then [.ehlo] ++ (if s.mode = bytes! "tls" then [.starttls] else []) else []) ++
  (if s.user ≠ [] ∧ s.password ≠ [] then [.login s.user s.password] else [])

/-- the script (ndncert-send-email-challenge.py:13-61). A missing setting or a template that cannot be filled in raises before
anything is sent. The status after the help text is 0; here it is 2, as after a usage error. The reading of the remaining settings in between and the missing of one is not told apart from a bad
template: status 1 in each case. -/
def script (w : Surroundings) (argv : List Bytes) : ScriptRun :=
  match parseArgs (argv.drop 1) with
  | none => ⟨[], 2⟩
  | some (email, secret, caName, certName) =>
    match settings w.conf with
    | none => ⟨[], 1⟩
    | some s =>
      match format [secret, caName, certName] .unset none s.text, format [secret, caName, certName] .unset none s.html with
      | .ok text, .ok html =>
        let msg : Message := { sender := s.sender, receiver := email, subject := s.subject, text, html }
        if w.writes msg then perform w.fails (session s ++ [.sendmail s.sender email msg, .close])
        else
          let r := perform w.fails (session s)
          ⟨r.calls, 1⟩
      | _, _ => ⟨[], 1⟩

end Ndncert.MailScript
