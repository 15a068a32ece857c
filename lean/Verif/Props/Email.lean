import Verif.Lemmas.Email
import Verif.Spec.Email
import Verif.Props.CaChallenge

/-! # The email challenge (C49, C50) -/

namespace Ndncert.Props

/-! ## C49 -/

/-- C49 in full: a code is mailed only to the address that is the last component of the identity in the name of
the certificate that it is for -/
def MailsMatch {σ : Type} (C : Crypto) (S : StoreI σ) (cfg : CaConfig) : Prop :=
  ∀ h s, Exec C S cfg h s → ∀ i env, env.Wf → IdFits cfg i → ∀ m ∈ mailed (onChallenge C S cfg s.store i env).effects,
    ∃ c, (identityOf m.certName).getLast? = some c ∧ c.val = m.address

/-- C49 is false of the code: the comparison is only logged. Here a code for an identity of `ca` that ends in something else
is sent to `eve@x.org`. -/
theorem C49_false : ¬ MailsMatch Fix.C Fix.S Fix.cfg := by
  intro H
  have hx := exec_of_runs (C := Fix.C) (S := Fix.S) (cfg := Fix.cfg) (idKey := Fix.idKey) (es := [Fix.ev1]) (by decide +kernel)
  have hid : IdFits Fix.cfg exEmail := by
    intro c hc
    have h : (match exEmail.name[Fix.cfg.profile.caPrefix.length + 2]? with | some c => decide (c.val.length ≤ 8) | none => true) = true := by
      decide +kernel
    rw [hc] at h
    simpa using h
  have hb : (match mailed (onChallenge Fix.C Fix.S Fix.cfg (runs Fix.C Fix.S Fix.cfg ⟨Fix.S.empty, Fix.idKey⟩ [Fix.ev1]).2.store exEmail Fix.env2).effects with
    | [m] => decide (m.address = bytes! "eve@x.org") && ((identityOf m.certName).getLast?.map (·.val) != some m.address)
    | _ => false) = true := by decide +kernel
  split at hb
  · rename_i m heq
    obtain ⟨c, hc, hv⟩ := H _ _ hx exEmail Fix.env2 (Fix.env_wf _ _ _) hid m (by rw [heq]; simp)
    rw [Bool.and_eq_true, hc] at hb
    simp [hv] at hb
  · cases hb

section
variable {σ : Type} {C : Crypto} {S : StoreI σ} {Inv : σ → Prop} {cfg : CaConfig}

/-- C49, what holds: an email is sent only when a CHALLENGE that the holder of the request's key signed selects the email challenge
for a request with no challenge yet; it goes to the address in that message, carries the code that is stored, and is for the
requested name. Missing: that the address has anything to do with the name. -/
theorem C49_asked_partial (hS : LawfulStore C S Inv) {st : σ} (hi : Inv st) {i : Interest} {env : Env} (hid : IdFits cfg i) (he : env.Wf)
    {m : Mail} (hm : m ∈ mailed (onChallenge C S cfg st i env).effects) :
    mailed (onChallenge C S cfg st i env).effects = [m] ∧
    ∃ r es, Authentic C S cfg st i env r ∧ Selects C i r es .email ∧ r.status = .beforeChallenge ∧ Gives es m.address ∧
      IsCode m.code ∧ m.caPrefix = r.caPrefix ∧ m.certName = r.cert.name ∧
      ∀ r', .dbUpdate r' ∈ (onChallenge C S cfg st i env).effects → r'.requestId = r.requestId ∧ ∃ cs, AwaitsCode r' cs m.code := by
  have hc := onChallenge_cases C S cfg st i env
  generalize onChallenge C S cfg st i env = o at hm hc
  -- one mail comes only from the start of an email challenge
  have key : ∀ {r' : RequestState} {div es' k out}, ModCase C k env es' { r' with decryptionIv := div } out → ∀ m ∈ out.mails,
      out.mails = [m] ∧ k = .email ∧ r'.status = .beforeChallenge ∧ Gives es' m.address ∧ m.code = secretCode env.word32 ∧ m.caPrefix = r'.caPrefix ∧
      m.certName = r'.cert.name ∧ out.req = (returnWithNewStatus .email env { r' with decryptionIv := div } NEED_CODE [(KEY_CODE, secretCode env.word32)] ChalKind.email.maxTries ChalKind.email.lifetime).req := by
    intro r' div es' k out hmc m hmm
    cases hmc with
    | error code info hcode => cases hmm
    | start cstat secrets mails h hsc =>
      cases hsc with
      | pin => cases hmm
      | email addr hg hid hs =>
        simp only [List.mem_singleton] at hmm
        subst hmm
        exact ⟨rfl, rfl, h, hg, rfl, rfl, rfl, rfl⟩
      | possession => cases hmm
    | wrong => cases hmm
    | code => cases hmm
    | proof => cases hmm
  have hmails : ∀ (l : List Mail) (es : List Effect), mailed (l.map Effect.mail ++ es) = l ++ mailed es := by
    intro l es
    induction l with
    | nil => rfl
    | cons a l ih => simp only [List.map_cons, List.cons_append, mailed, ih]
  cases hc with
  | undefined u _ => cases hm
  | noRequest info h => cases hm
  | badSig r' info h h' => cases hm
  | reject r' code info hv' hcode => cases hm
  | early r' t _ _ => cases hm
  | continued r' div es' k out r2 payload hv' ho hmc hst' henc =>
    have hmm : m ∈ out.mails := by
      rw [hmails] at hm
      simpa [mailed] using hm
    obtain ⟨h1, rfl, h3, h4, h5, h6, h7, h8⟩ := key hmc m hmm
    refine ⟨by rw [hmails, h1]; rfl, r', es', (verified_authentic hS hi hid he.stack).mp hv', ho.selects, h3, h4, ?_, h6, h7, ?_⟩
    · rw [h5]; exact code_isCode (by have := he.word; omega)
    · intro r'' hr''
      rw [List.mem_append] at hr''
      rcases hr'' with hr'' | hr''
      · simp at hr''
      · simp only [List.mem_cons, Effect.dbUpdate.injEq, reduceCtorEq, List.not_mem_nil, or_false] at hr''
        subst hr''
        obtain ⟨_, iv, _, hr2, _⟩ := challengeEncode_ok henc
        rw [hr2, h8]
        refine ⟨rfl, { challengeStatus := NEED_CODE, timestamp := env.nowStore, remainingTries := 3, remainingTime := 300, secrets := [(KEY_CODE, secretCode env.word32)] }, rfl, .inl rfl, ?_⟩
        rw [h5]; rfl
  | contThrew r' div es' k out t hv' ho hmc =>
    have hmm : m ∈ out.mails := by
      have := hmails out.mails []
      rw [List.append_nil] at this
      have hm' : m ∈ mailed (out.mails.map Effect.mail) := hm
      rw [show mailed (out.mails.map Effect.mail) = out.mails from this.trans (by simp [mailed])] at hm'
      exact hm'
    obtain ⟨h1, rfl, h3, h4, h5, h6, h7, h8⟩ := key hmc m hmm
    refine ⟨?_, r', es', (verified_authentic hS hi hid he.stack).mp hv', ho.selects, h3, h4, ?_, h6, h7, ?_⟩
    · show mailed (out.mails.map Effect.mail) = [m]
      rw [h1]; rfl
    · rw [h5]; exact code_isCode (by have := he.word; omega)
    · intro r'' hr''
      simp at hr''
  | issued r' div es k out c r2 payload hv' ho => cases hm
  | issueThrew r' div es k out c t hv' ho => cases hm
  | revoked r' div es k out r2 payload hv' ho => cases hm
  | revokeThrew r' div es k out t hv' ho => cases hm

end

/-! ## C50 -/

/-- C50 in full: the script gets the four strings as its arguments -/
def FourArguments : Prop :=
  ∀ (script : Bytes) (m : Mail), script ≠ [] → (∀ b ∈ script, b ≠ 0 ∧ b ≠ 32 ∧ b ≠ 34) → IsCode m.code →
    mailArgv script m = .ok [script, m.address, m.code, nameUri m.caPrefix, nameUri m.certName]

/-- C50, what holds: addresses without a quote and without NUL are passed on as they are, whatever else they contain (spaces,
backslashes, dollar signs, ...). -/
theorem C50_four_arguments_partial (script : Bytes) (m : Mail) (h0 : script ≠ []) (hs : ∀ b ∈ script, b ≠ 0 ∧ b ≠ 32 ∧ b ≠ 34) (hc : IsCode m.code)
    (ha : ∀ b ∈ m.address, b ≠ 0 ∧ b ≠ 34) :
    mailArgv script m = .ok [script, m.address, m.code, nameUri m.caPrefix, nameUri m.certName] := by
  have hq : ∀ a ∈ [m.address, m.code, nameUri m.caPrefix, nameUri m.certName], (∀ b ∈ a, plainByte b) := by
    intro a hm b hb
    simp only [List.mem_cons, List.not_mem_nil, or_false] at hm
    rcases hm with rfl | rfl | rfl | rfl
    · exact ha b hb
    · exact isCode_plain hc b hb
    · exact nameUri_plain _ _ hb
    · exact nameUri_plain _ _ hb
  unfold mailArgv mailCommand
  have := split_command script [m.address, m.code, nameUri m.caPrefix, nameUri m.certName] h0 (fun h => (hs _ h).2.2 rfl) (fun h => (hs _ h).2.1 rfl)
    (fun a ha h => (hq a ha _ h).2 rfl)
  simp only [List.flatMap_cons, List.flatMap_nil, List.append_nil] at this
  simp only [List.append_assoc]
  rw [this]
  simp only [Res.bind_ok]
  rw [execArgs_id]
  intro a hm
  rw [List.mem_cons] at hm
  rcases hm with rfl | hm
  · exact fun h => (hs _ h).1 rfl
  · exact fun h => (hq a hm _ h).1 rfl

/-- C50, exactly when it holds: the script gets the four strings as its arguments if and only if the address is one that comes
through. -/
theorem C50_exact_partial (script : Bytes) (m : Mail) (h0 : script ≠ []) (hs : ∀ b ∈ script, b ≠ 0 ∧ b ≠ 32 ∧ b ≠ 34) (hc : IsCode m.code) :
    mailArgv script m = .ok [script, m.address, m.code, nameUri m.caPrefix, nameUri m.certName] ↔ ComesThrough m.address := by
  have hq : ∀ a ∈ [m.code, nameUri m.caPrefix, nameUri m.certName], (∀ b ∈ a, solidByte b) := by
    intro a hm b hb
    simp only [List.mem_cons, List.not_mem_nil, or_false] at hm
    rcases hm with rfl | rfl | rfl
    · exact isCode_solid hc b hb
    · exact nameUri_solid _ _ hb
    · exact nameUri_solid _ _ hb
  have key := split_address script m.address [m.code, nameUri m.caPrefix, nameUri m.certName] h0 (fun h => (hs _ h).2.2 rfl)
    (fun h => (hs _ h).2.1 rfl) (fun a ha => ⟨fun h => (hq a ha _ h).2.1 rfl, fun h => (hq a ha _ h).2.2 rfl⟩)
    (fun a ha => by
      rw [List.mem_cons] at ha
      rcases ha with rfl | ha
      · exact fun h => (hs _ h).1 rfl
      · exact fun h => (hq a ha _ h).1 rfl) (by simp)
  simp only [List.flatMap_cons, List.flatMap_nil, List.append_nil] at key
  unfold mailArgv mailCommand
  simp only [List.append_assoc]
  rw [key, spacesInside_iff, quoteAfter_count]
  have e : ∀ n : Nat, (if n % 2 = 0 then true else !true) = true ↔ n % 2 = 0 := by
    intro n; split <;> simp_all
  rw [e]
  unfold ComesThrough
  constructor
  · rintro ⟨h1, h2, h3, h4⟩
    exact ⟨h4, h3, h2, fun x y hxy => by have := h1 x y hxy; rwa [quoteAfter_count, e] at this⟩
  · rintro ⟨h1, h2, h3, h4⟩
    exact ⟨fun x y hxy => by rw [quoteAfter_count, e]; exact h4 x y hxy, h3, h2, h1⟩

-- an address with a quoted user name that comes through, and four that do not
example : mailArgv (bytes! "mail.sh") ⟨bytes! "\"a\"@x.org", bytes! "123456", [], []⟩ =
    .ok [bytes! "mail.sh", bytes! "\"a\"@x.org", bytes! "123456", bytes! "/", bytes! "/"] := by decide +kernel
example : ComesThrough (bytes! "\"a\"@x.org") :=
  (C50_exact_partial (bytes! "mail.sh") ⟨bytes! "\"a\"@x.org", bytes! "123456", [], []⟩ (by decide) (by decide)
    (by unfold IsCode; decide +kernel)).mp (by decide +kernel)
-- an escaped quote loses its backslash; a quoted user name with a space is cut in two; one quote swallows the other arguments
example : mailArgv (bytes! "mail.sh") ⟨bytes! "\\\"a\\\"@x.org", bytes! "123456", [], []⟩ =
    .ok [bytes! "mail.sh", bytes! "\"a\"@x.org", bytes! "123456", bytes! "/", bytes! "/"] := by decide +kernel
example : mailArgv (bytes! "mail.sh") ⟨bytes! "\"a b\"@x.org", bytes! "123456", [], []⟩ =
    .ok [bytes! "mail.sh", bytes! "\"\"a", bytes! "b\"@x.org\"", bytes! "123456", bytes! "/", bytes! "/"] := by decide +kernel
example : mailArgv (bytes! "mail.sh") ⟨bytes! "a\"", bytes! "123456", [], []⟩ =
    .ok [bytes! "mail.sh", bytes! "a\"\" \"123456\" \"/\" \"/"] := by decide +kernel

/-- An address `a" "b` becomes two arguments: the requester chooses what the script takes for the code. -/
theorem C50_false_injection (script a b : Bytes) (m : Mail) (h0 : script ≠ []) (hs : ∀ b ∈ script, b ≠ 0 ∧ b ≠ 32 ∧ b ≠ 34) (hc : IsCode m.code)
    (ha : ∀ x ∈ a, x ≠ 0 ∧ x ≠ 34) (hb : ∀ x ∈ b, x ≠ 0 ∧ x ≠ 34) (hm : m.address = a ++ [34, 32, 34] ++ b) :
    mailArgv script m = .ok [script, a, b, m.code, nameUri m.caPrefix, nameUri m.certName] := by
  have hq : ∀ x ∈ [a, b, m.code, nameUri m.caPrefix, nameUri m.certName], (∀ y ∈ x, plainByte y) := by
    intro x hm y hy
    simp only [List.mem_cons, List.not_mem_nil, or_false] at hm
    rcases hm with rfl | rfl | rfl | rfl | rfl
    · exact ha y hy
    · exact hb y hy
    · exact isCode_plain hc y hy
    · exact nameUri_plain _ _ hy
    · exact nameUri_plain _ _ hy
  unfold mailArgv mailCommand
  have := split_command script [a, b, m.code, nameUri m.caPrefix, nameUri m.certName] h0 (fun h => (hs _ h).2.2 rfl) (fun h => (hs _ h).2.1 rfl)
    (fun a ha h => (hq a ha _ h).2 rfl)
  simp only [List.flatMap_cons, List.flatMap_nil, List.append_nil] at this
  have hcat : quotedArg m.address = quotedArg a ++ quotedArg b := by
    rw [hm]; simp [quotedArg]
  rw [hcat]
  simp only [List.append_assoc]
  rw [this]
  simp only [Res.bind_ok]
  rw [execArgs_id]
  intro x hm
  rw [List.mem_cons] at hm
  rcases hm with rfl | hm
  · exact fun h => (hs _ h).1 rfl
  · exact fun h => (hq x hm _ h).1 rfl

/-- an attacker's address, sent in an email challenge -/
def exInject : Mail := { address := bytes! "eve@x.org\" \"000000", code := bytes! "123456", caPrefix := Fix.ca, certName := Fix.revCert.name }

/-- C50 is false of the code. -/
theorem C50_false : ¬ FourArguments := by
  intro H
  have h1 := H (bytes! "mail.sh") exInject (by decide) (by decide) (by unfold IsCode; decide +kernel)
  have h2 : (match mailArgv (bytes! "mail.sh") exInject with | .ok l => l.length | _ => 0) = 6 := by decide +kernel
  rw [h1] at h2
  cases h2

/-- An address with a single quote makes the parser read a reversed range or swallow the rest; NUL cuts the argument. -/
example : mailArgv (bytes! "mail.sh") { exInject with address := [97, 0, 98] } =
    .ok [bytes! "mail.sh", [97], bytes! "123456", nameUri Fix.ca, nameUri Fix.revCert.name] := by decide +kernel

/-- the hypotheses of `C50_four_arguments_partial` are met by an address with spaces and shell characters -/
example : (∀ b ∈ bytes! "a b;$(rm)@x.org", b ≠ 0 ∧ b ≠ 34) ∧
    mailArgv (bytes! "mail.sh") { exInject with address := bytes! "a b;$(rm)@x.org" } =
    .ok [bytes! "mail.sh", bytes! "a b;$(rm)@x.org", bytes! "123456", nameUri Fix.ca, nameUri Fix.revCert.name] := by
  constructor <;> decide +kernel

end Ndncert.Props
