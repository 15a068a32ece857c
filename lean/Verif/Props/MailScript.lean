import Verif.Lemmas.MailScript
import Verif.Props.Email

/-! # The email script (C100, C101) -/

namespace Ndncert.Props
open MailScript

/-! ## C100 -/

/-- the two templates, sender and subject in the script's configuration -/
structure ConfiguredMail (w : Surroundings) (sender subject : Bytes) (text html : List Piece) : Prop where
  sender : w.conf (bytes! "ndncert_email_settings") (bytes! "MAIL_FROM") = some sender
  subject : w.conf (bytes! "ndncert_email_settings") (bytes! "SUBJECT") = some subject
  text : ∃ s, w.conf (bytes! "ndncert_email_settings") (bytes! "TEXT_TEMPLATE") = some s ∧ WrittenAs text s
  html : ∃ s, w.conf (bytes! "ndncert_email_settings") (bytes! "HTML_TEMPLATE") = some s ∧ WrittenAs html s

/-- the message for an email: the templates with the code, the CA's name and the certificate's name filled in -/
def messageFor (m : Mail) (sender subject : Bytes) (text html : List Piece) : Message :=
  { sender, receiver := m.address, subject, text := filled m.code (nameUri m.caPrefix) (nameUri m.certName) text,
    html := filled m.code (nameUri m.caPrefix) (nameUri m.certName) html }

/-- a path that the command line carries as it is -/
def PlainPath (path : Bytes) : Prop := path ≠ [] ∧ ∀ b ∈ path, b ≠ 0 ∧ b ≠ 32 ∧ b ≠ 34

/-- C100, first half: what is handed to the mail server for an email is the right message, for the address given -/
def MessagesRight : Prop :=
  ∀ path m w sender subject text html argv, PlainPath path → IsCode m.code → ConfiguredMail w sender subject text html →
    mailArgv path m = .ok argv → ∀ x ∈ handedOver w (script w argv).calls, x = (m.address, messageFor m sender subject text html)

/-- C100, second half: if the settings are there and no call fails, the message is handed over -/
def MessagesSent : Prop :=
  ∀ path m w sender subject text html argv, PlainPath path → IsCode m.code → ConfiguredMail w sender subject text html →
    mailArgv path m = .ok argv → (∀ k ∈ [bytes! "ENCRYPT_MODE", bytes! "SMTP_SERVER", bytes! "SMTP_PORT", bytes! "SMTP_USER", bytes! "SMTP_PASSWORD"],
      w.conf (bytes! "ndncert_smtp_settings") k ≠ none) → (∀ c, w.fails c = false) → (∀ x, w.writes x = true) →
    handedOver w (script w argv).calls ≠ []

theorem nameUri_head (n : Name) : (nameUri n).head? = some 47 := by
  unfold nameUri
  split
  · rfl
  · cases n with
    | nil => contradiction
    | cons c n => rfl

theorem code_head {c : Bytes} (h : IsCode c) : c.head? ≠ some 45 := by
  intro he
  cases c with
  | nil => cases he
  | cons b c =>
    simp only [List.head?_cons, Option.some.injEq] at he
    subst he
    have := h.2 _ (List.mem_cons_self ..)
    revert this
    decide

theorem plain_args {path : Bytes} {m : Mail} (hp : PlainPath path) (hc : IsCode m.code) (ha : PlainAddress m.address) :
    ∃ argv, mailArgv path m = .ok argv ∧ parseArgs (argv.drop 1) = some (m.address, m.code, nameUri m.caPrefix, nameUri m.certName) :=
  ⟨_, (C50_exact_partial path m hp.1 hp.2 hc).mpr ha.1,
    parseArgs_plain ha.2 (code_head hc) (by rw [nameUri_head]; decide) (by rw [nameUri_head]; decide)⟩

/-- C100, first half, what holds: for an address that comes through the command line (C50) and does not look like an option, whatever happens,
nothing but the right message is handed over, to that address, at most once. -/
theorem C100_right_partial {path : Bytes} {m : Mail} {w : Surroundings} {sender subject : Bytes} {text html : List Piece} (hp : PlainPath path)
    (hc : IsCode m.code) (ha : PlainAddress m.address) (hw : ConfiguredMail w sender subject text html) :
    ∃ argv, mailArgv path m = .ok argv ∧ (handedOver w (script w argv).calls = [] ∨
      handedOver w (script w argv).calls = [(m.address, messageFor m sender subject text html)]) := by
  obtain ⟨argv, h1, h2⟩ := plain_args hp hc ha
  refine ⟨argv, h1, ?_⟩
  rcases script_handed w argv with h | ⟨email, secret, ca, cert, s, tx, ht, g1, g2, g3, g4, g5⟩
  · exact .inl h
  · right
    rw [h2] at g1
    cases g1
    obtain ⟨_, e1, e2, e3, e4⟩ := settings_some g2
    have w1 := hw.sender
    have w2 := hw.subject
    obtain ⟨s3, w3, a3⟩ := hw.text
    obtain ⟨s4, w4, a4⟩ := hw.html
    rw [e1] at w1; cases w1
    rw [e2] at w2; cases w2
    rw [e3] at w3; injection w3 with w3
    rw [e4] at w4; injection w4 with w4
    rw [w3, format_writtenAs _ _ _ a3] at g3
    rw [w4, format_writtenAs _ _ _ a4] at g4
    cases g3
    cases g4
    exact g5

/-- C100, second half, what holds: for such an address, with the settings in place and if no call fails, the message is handed
over and the script ends with status 0. -/
theorem C100_sent_partial {path : Bytes} {m : Mail} {w : Surroundings} {sender subject : Bytes} {text html : List Piece} (hp : PlainPath path)
    (hc : IsCode m.code) (ha : PlainAddress m.address) (hw : ConfiguredMail w sender subject text html)
    (hs : ∀ k ∈ [bytes! "ENCRYPT_MODE", bytes! "SMTP_SERVER", bytes! "SMTP_PORT", bytes! "SMTP_USER", bytes! "SMTP_PASSWORD"],
      w.conf (bytes! "ndncert_smtp_settings") k ≠ none) (hf : ∀ c, w.fails c = false) (hr : ∀ x, w.writes x = true) :
    ∃ argv, mailArgv path m = .ok argv ∧ (script w argv).status = 0 ∧
      handedOver w (script w argv).calls = [(m.address, messageFor m sender subject text html)] := by
  obtain ⟨argv, h1, h2⟩ := plain_args hp hc ha
  refine ⟨argv, h1, ?_⟩
  have hget : ∀ k ∈ [bytes! "ENCRYPT_MODE", bytes! "SMTP_SERVER", bytes! "SMTP_PORT", bytes! "SMTP_USER", bytes! "SMTP_PASSWORD"],
      ∃ v, w.conf (bytes! "ndncert_smtp_settings") k = some v := fun k hk => Option.ne_none_iff_exists'.mp (hs k hk)
  obtain ⟨v1, e1⟩ := hget (bytes! "ENCRYPT_MODE") (by simp)
  obtain ⟨v2, e2⟩ := hget (bytes! "SMTP_SERVER") (by simp)
  obtain ⟨v3, e3⟩ := hget (bytes! "SMTP_PORT") (by simp)
  obtain ⟨v4, e4⟩ := hget (bytes! "SMTP_USER") (by simp)
  obtain ⟨v5, e5⟩ := hget (bytes! "SMTP_PASSWORD") (by simp)
  obtain ⟨s3, w3, a3⟩ := hw.text
  obtain ⟨s4, w4, a4⟩ := hw.html
  have hset : settings w.conf = some ⟨v1, v2, v3, v4, v5, sender, subject, s3, s4⟩ := by
    unfold settings
    rw [e1, e2, e3, e4, e5, hw.sender, hw.subject, w3, w4]
    rfl
  unfold script
  rw [h2, hset]
  dsimp only
  rw [format_writtenAs _ _ _ a3, format_writtenAs _ _ _ a4]
  dsimp only
  rw [if_pos (hr _)]
  have hst := (perform_status w.fails (session ⟨v1, v2, v3, v4, v5, sender, subject, s3, s4⟩ ++ [.sendmail sender m.address
    (messageFor m sender subject text html), .close])).mpr (fun c _ => hf c)
  refine ⟨hst, ?_⟩
  have := perform_all _ _ hst
  unfold messageFor at this ⊢
  rw [this, handedOver_append, handedOver_session]
  simp [handedOver, hf]

/-- For such an address what is filled in contains nothing that means something in HTML. -/
theorem C100_no_markup (m : Mail) (hc : IsCode m.code) : NoMarkup m.code ∧ NoMarkup (nameUri m.caPrefix) ∧ NoMarkup (nameUri m.certName) := by
  refine ⟨?_, nameUri_noMarkup _, nameUri_noMarkup _⟩
  intro b hb
  have := hc.2 b hb
  refine ⟨?_, ?_, ?_, ?_⟩ <;> rintro rfl <;> revert this <;> decide

/-- An address that begins with a hyphen, has an `@` and no space, quote or NUL gets no message: the script takes it for an
option. The CA takes no notice and asks the applicant for the code. -/
theorem C100_false_hyphen {path : Bytes} {m : Mail} (hp : PlainPath path) (hc : IsCode m.code) (h1 : ∀ b ∈ m.address, b ≠ 0 ∧ b ≠ 34 ∧ b ≠ 32)
    (h2 : m.address.head? = some 45) (h3 : 64 ∈ m.address) (w : Surroundings) :
    ∃ argv, mailArgv path m = .ok argv ∧ (script w argv).calls = [] := by
  refine ⟨_, C50_four_arguments_partial path m hp.1 hp.2 hc (fun b hb => ⟨(h1 b hb).1, (h1 b hb).2.1⟩), ?_⟩
  have hne : m.address ≠ [45, 45] := by
    intro h
    rw [h] at h3
    revert h3
    decide
  have : parseArgs [m.address, m.code, nameUri m.caPrefix, nameUri m.certName] = none := by
    unfold parseArgs
    dsimp only
    have hall : ¬ (([m.address, m.code, nameUri m.caPrefix, nameUri m.certName].takeWhile (fun x => decide (x ≠ [45, 45]))).all isPositional = true) := by
      rw [List.takeWhile_cons_of_pos (by simpa using hne), List.all_cons, isPositional_dash h2 (fun h => (h1 _ h).2.2 rfl) h3]
      simp
    exact if_neg hall
  unfold script
  rw [show List.drop 1 [path, m.address, m.code, nameUri m.caPrefix, nameUri m.certName] =
    [m.address, m.code, nameUri m.caPrefix, nameUri m.certName] from rfl, this]

/-- a configuration -/
def exConf (mode : Bytes) : Surroundings where
  conf := fun s k =>
    if s = bytes! "ndncert_smtp_settings" then
      if k = bytes! "ENCRYPT_MODE" then some mode
      else if k = bytes! "SMTP_USER" then some (bytes! "robot")
      else if k = bytes! "SMTP_PASSWORD" then some (bytes! "secret")
      else some (bytes! "25")
    else
      if k = bytes! "TEXT_TEMPLATE" then some (bytes! "Code {0} from {1}, {{for}} {2}")
      else if k = bytes! "HTML_TEMPLATE" then some (bytes! "<b>{0}</b>")
      else some (bytes! "robot@x.org")
  fails := fun _ => false
  writes := fun _ => true

def exText : List Piece := [.text (bytes! "Code "), .code, .text (bytes! " from "), .caName, .text (bytes! ", {for} "), .certName]
def exHtml : List Piece := [.text (bytes! "<b>"), .code, .text (bytes! "</b>")]

theorem exConf_mail (mode : Bytes) : ConfiguredMail (exConf mode) (bytes! "robot@x.org") (bytes! "robot@x.org") exText exHtml where
  sender := rfl
  subject := rfl
  text := ⟨_, rfl, .inl rfl⟩
  html := ⟨_, rfl, .inl rfl⟩

/-- three quotes in an address, and the applicant decides what is in the mail, and who gets it -/
def exPhish : Mail := { exInject with address := bytes! "bob@x.org\" \"<a href=x>\" \"/bank\" " }

/-- C100 is false of the code: the message for this email goes to another address than the one given and has a text of the
applicant's making in the place of the code. -/
theorem C100_false : ¬ MessagesRight := by
  intro H
  have hb : (match mailArgv (bytes! "mail.py") exPhish with
    | .ok argv => (handedOver (exConf (bytes! "tls")) (script (exConf (bytes! "tls")) argv).calls).map (fun x => (x.1, x.2.html)) ==
        [(bytes! "bob@x.org", bytes! "<b><a href=x></b>")]
    | _ => false) = true := by decide +kernel
  split at hb
  · rename_i argv ha
    have h1 := H (bytes! "mail.py") exPhish (exConf (bytes! "tls")) _ _ _ _ argv (by unfold PlainPath; decide) (by unfold IsCode; decide +kernel)
      (exConf_mail _) ha
    rw [beq_iff_eq] at hb
    cases hx : handedOver (exConf (bytes! "tls")) (script (exConf (bytes! "tls")) argv).calls with
    | nil => rw [hx] at hb; cases hb
    | cons x l =>
      rw [hx] at hb h1
      have := h1 x (List.mem_cons_self ..)
      subst this
      simp only [List.map_cons, List.cons.injEq, Prod.mk.injEq] at hb
      exact absurd hb.1.1 (by decide)
  · cases hb

/-- ... and an email to `-bob@x.org` is never sent. -/
theorem C100_false_sent : ¬ MessagesSent := by
  intro H
  obtain ⟨argv, h1, h2⟩ := C100_false_hyphen (path := bytes! "mail.py") (m := { exInject with address := bytes! "-bob@x.org" })
    (by unfold PlainPath; decide) (by unfold IsCode; decide +kernel) (by decide) (by decide) (by decide) (exConf (bytes! "tls"))
  refine H (bytes! "mail.py") _ (exConf (bytes! "tls")) _ _ _ _ argv (by unfold PlainPath; decide) (by unfold IsCode; decide +kernel) (exConf_mail _) h1
    (by decide +kernel) (fun _ => rfl) (fun _ => rfl) ?_
  rw [h2]
  rfl

/-- the hypotheses are met, and a message is handed over -/
example : PlainPath (bytes! "mail.py") ∧ IsCode exInject.code ∧ PlainAddress (bytes! "eve@x.org") ∧
    ConfiguredMail (exConf (bytes! "tls")) (bytes! "robot@x.org") (bytes! "robot@x.org") exText exHtml ∧
    (match mailArgv (bytes! "mail.py") { exInject with address := bytes! "eve@x.org" } with
      | .ok argv => (handedOver (exConf (bytes! "tls")) (script (exConf (bytes! "tls")) argv).calls).map (fun x => (x.1, x.2.html)) ==
        [(bytes! "eve@x.org", bytes! "<b>123456</b>")]
      | _ => false) = true :=
  ⟨by unfold PlainPath; decide, by unfold IsCode; decide +kernel, ⟨⟨by decide, fun x y h => absurd (h ▸ (by simp : (34 : UInt8) ∈ x ++ 92 :: 34 :: y)) (by decide), by decide, fun x y h => absurd (h ▸ (by simp : (32 : UInt8) ∈ x ++ 32 :: y)) (by decide)⟩, by decide⟩, exConf_mail _, by decide +kernel⟩

/-- a template without numbers in its places -/
example : WrittenAs exText (bytes! "Code {} from {}, {{for}} {}") ∧ ¬ (WrittenAs [.caName, .code] (bytes! "{}{}")) := by
  constructor
  · exact .inr (by decide)
  · unfold WrittenAs
    decide

/-! ## C101 -/

/-- every login comes after the connection was encrypted -/
def LoginsProtected (calls : List Smtp) (w : Surroundings) : Prop :=
  ∀ pre user password post, calls = pre ++ .login user password :: post →
    ∃ c ∈ pre, w.fails c = false ∧ (c = .starttls ∨ ∃ server port, c = .connect true server port)

/-- C101 in full: unless the configuration says that there be no encryption, the password of the mail account is sent over an
encrypted connection only -/
def PasswordProtected : Prop :=
  ∀ w argv mode, w.conf (bytes! "ndncert_smtp_settings") (bytes! "ENCRYPT_MODE") = some mode → mode ≠ bytes! "none" →
    LoginsProtected (script w argv).calls w

theorem ite_calls (b : Bool) (fails : Smtp → Bool) (l l' : List Smtp) (n : Nat) :
    (if b = true then perform fails l else ⟨(perform fails l').calls, n⟩ : ScriptRun).calls = (perform fails (if b = true then l else l')).calls := by
  cases b <;> rfl

/-- C101, what holds: with `ssl` and with `tls` in the configuration. -/
theorem C101_encrypted_partial (w : Surroundings) (argv : List Bytes) {mode : Bytes}
    (hm : w.conf (bytes! "ndncert_smtp_settings") (bytes! "ENCRYPT_MODE") = some mode) (h : mode = bytes! "ssl" ∨ mode = bytes! "tls") :
    LoginsProtected (script w argv).calls w := by
  intro pre user password post hcalls
  obtain ⟨s, l, hs, hl, hpre⟩ : ∃ s l, settings w.conf = some s ∧ (l = session s ∨ ∃ a b x, l = session s ++ [.sendmail a b x, .close]) ∧
      (script w argv).calls = (perform w.fails l).calls := by
    unfold script at hcalls ⊢
    split at hcalls
    · simp at hcalls
    · split at hcalls
      · simp at hcalls
      · rename_i s hs
        split at hcalls
        · refine ⟨s, _, hs, ?_, ite_calls ..⟩
          split
          · exact .inr ⟨_, _, _, rfl⟩
          · exact .inl rfl
        · simp at hcalls
  obtain ⟨e1, _⟩ := settings_some hs
  rw [hm] at e1
  cases e1
  rw [hpre] at hcalls
  have hok := perform_before w.fails l pre post _ hcalls
  have hp := perform_prefix w.fails l
  rw [hcalls] at hp
  -- the calls begin with the connection, and with tls also with starttls
  have hsub : ∃ rest, l = session s ++ rest := by
    rcases hl with rfl | ⟨_, _, _, rfl⟩
    · exact ⟨[], by simp⟩
    · exact ⟨_, rfl⟩
  obtain ⟨rest, rfl⟩ := hsub
  obtain ⟨tl, htl⟩ := hp
  unfold session at htl
  rcases h with h | h
  · -- ssl
    refine ⟨.connect true s.server s.port, ?_, ?_, .inr ⟨_, _, rfl⟩⟩
    · rw [h] at htl
      cases pre with
      | nil => simp at htl
      | cons c pre =>
        simp only [List.cons_append, List.append_assoc] at htl
        injection htl with h1 _
        rw [h1]
        simp
    · apply hok
      rw [h] at htl
      cases pre with
      | nil => simp at htl
      | cons c pre =>
        simp only [List.cons_append, List.append_assoc] at htl
        injection htl with h1 _
        rw [h1]
        simp
  · have hmem : Smtp.starttls ∈ pre := by
      rw [h] at htl
      rw [if_pos (by decide), if_pos rfl] at htl
      match pre, htl with
      | [], htl => simp at htl
      | [a], htl => simp at htl
      | [a, b], htl => simp at htl
      | a :: b :: c :: pre, htl =>
        simp only [List.cons_append, List.append_assoc, List.nil_append] at htl
        injection htl with _ htl
        injection htl with _ htl
        injection htl with h1 _
        rw [h1]
        simp
    exact ⟨_, hmem, hok _ hmem, .inl rfl⟩

/-- C101 is false of the code: any other value, such as `TLS`, gives a connection without encryption. -/
theorem C101_false : ¬ PasswordProtected := by
  intro H
  have h1 := H (exConf (bytes! "TLS")) [bytes! "mail.py", bytes! "a@x.org", bytes! "123456", bytes! "/ca", bytes! "/c"] (bytes! "TLS") (by decide +kernel)
    (by decide)
  have h2 : (script (exConf (bytes! "TLS")) [bytes! "mail.py", bytes! "a@x.org", bytes! "123456", bytes! "/ca", bytes! "/c"]).calls.take 3 =
      [.connect false (bytes! "25") (bytes! "25"), .ehlo] ++ [.login (bytes! "robot") (bytes! "secret")] := by decide +kernel
  obtain ⟨c, hc, _, hx⟩ := h1 _ _ _ ((script (exConf (bytes! "TLS")) [bytes! "mail.py", bytes! "a@x.org", bytes! "123456",
    bytes! "/ca", bytes! "/c"]).calls.drop 3) ((List.take_append_drop 3 _).symm.trans (by rw [h2, List.append_assoc]; rfl))
  simp only [List.mem_cons, List.not_mem_nil, or_false] at hc
  rcases hc with rfl | rfl <;> rcases hx with hx | ⟨_, _, hx⟩ <;> cases hx

/-- with `tls` there is a login, after `starttls` -/
example : (script (exConf (bytes! "tls")) [bytes! "mail.py", bytes! "a@x.org", bytes! "123456", bytes! "/ca", bytes! "/c"]).calls.take 4 =
    [.connect false (bytes! "25") (bytes! "25"), .ehlo, .starttls, .login (bytes! "robot") (bytes! "secret")] := by decide +kernel

end Ndncert.Props
