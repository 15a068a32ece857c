import Verif.Lemmas.ClientCrash
import Verif.Props.Requester
import Verif.Props.ChallengeWire

/-! # Properties of the command line client -/

namespace Ndncert.Props

open Ndncert

variable {C : Crypto} {T : TextIO} {file : Bytes} {pib : Pib} {stdin : List Bytes}

/-! ## Example run: the user selects the first configured CA, which assigns the name /ndn/alice -/

/-- texts: plain URIs, one certificate, and one document -/
def clientText (doc : PTree) : TextIO where
  nameOfUri s := some (((splitAll 47 s).filter (· ≠ [])).map gcomp)
  uriOfName n := (n.map (fun c => 47 :: c.val)).flatten
  loadCert s := if s = bytes! "CERT" then some exNdnCert else none
  saveCert _ := bytes! "CERT"
  readJson _ := some doc
  writeJson _ := none

/-- a profile store with one CA -/
def exStore : PTree :=
  .node [] [(bytes! "ca-list", .node [] [([], .node [] [
    (bytes! "ca-prefix", .leaf (bytes! "/ndn")),
    (bytes! "certificate", .leaf (bytes! "CERT"))])])]

/-- what a callback takes from its environment, at time `t` seconds -/
def clientEnv (t : Int) : ClientEnv :=
  { now := t * nsPerSec, ecdhPriv := [1, 2], rnd := List.replicate 8 1, memId := List.replicate 8 0, memKey := List.replicate 16 0,
    memNonce := List.replicate 16 0, stack := List.replicate 32 0, version := ⟨54, [2]⟩, keyIds := [gcomp [107]], keyIds2 := [gcomp [108]] }

theorem clientEnv_wf (t : Int) : (clientEnv t).Wf := ⟨by simp [clientEnv], by simp [clientEnv], by simp [clientEnv]⟩

/-- /ndn/alice -/
def exAliceName : Name := Fix.ca ++ [gcomp (bytes! "alice")]

/-- a reply signed by the CA -/
def caReply (content : Block) : ClientEvent := .reply (mkData Fix.C Fix.ca [] content) ⟨6, []⟩

/-- metadata, profile, and a PROBE reply with the name /ndn/alice -/
def exReplies : List (ClientEvent × ClientEnv) :=
  [(.reply (onCaProfileDiscovery Fix.C Fix.profile (profileDataName Fix.profile ⟨54, [9]⟩) ⟨54, [9]⟩) ⟨6, []⟩, clientEnv 1000),
   (.reply exProfileData ⟨6, []⟩, clientEnv 1001),
   (caReply (probeEncode [exAliceName] (some 1) []), clientEnv 1002)]

/-- the NEW reply, offering these challenges -/
def exNewReply (challenges : List Bytes) : ClientEvent :=
  caReply (requestEncode (Fix.C.ecdhPub [9]) (List.replicate 32 5) (List.replicate 8 7) challenges)

/-- the program started on a store with one CA, an empty KeyChain and this input -/
def exStarted (input : List Bytes) : ClientOut := selectCaProfile (clientText exStore) [] { pib := [], stdin := input }

theorem exStarted_run (input : List Bytes) :
    ClientRun Fix.C (clientText exStore) [] [] input (exStarted input).acts [] (exStarted input).st (exStarted input).ended :=
  .start _ rfl

/-! ## C68 -/

/-- C68. In every run of the client, every PROBE, NEW and CHALLENGE Interest is for a CA whose profile is trusted at that point: it
verified under a configured certificate, the user typed yes, or it was announced by a trusted CA that was probed. -/
theorem C68_trusted {first : List Act} {h : List ClientStep} {c : Client} {x : Ended} (run : ClientRun C T file pib stdin first h c x) :
    (∀ a ∈ first, a.ca = none) ∧
    ∀ before n after, h = before ++ n :: after → ∀ a ∈ n.acts, ∀ q, a.ca = some q →
      ∃ known, loadProfiles T file = .ok known ∧ TrustedProfile C known (before ++ [n]) q := by
  refine ⟨run.first_acts, ?_⟩
  intro before n after hh a ha q hq
  obtain ⟨known, hk⟩ := run.known (.inr (by rw [hh]; simp))
  obtain ⟨c0, hrun, hacts, hended, _⟩ := run.until hh
  refine ⟨known, hk, ?_⟩
  have := ((hrun.trustInv hk).step n.event n.env).2 a (hacts ▸ ha) q hq
  rw [← hacts, ← hended] at this
  exact this

/-- facts about what is played are facts about a run -/
theorem played {α : Type} {input : List Bytes} {es : List (ClientEvent × ClientEnv)} {f : List ClientStep × ClientOut → α} {v : α}
    (hv : (playClient Fix.C (exStarted input) [] es).map f = some v) :
    ∃ h o, ClientRun Fix.C (clientText exStore) [] [] input (exStarted input).acts h o.st o.ended ∧ f (h, o) = v := by
  cases hp : playClient Fix.C (exStarted input) [] es with
  | none => rw [hp] at hv; cases hv
  | some x =>
    rw [hp] at hv
    injection hv with hv
    exact ⟨x.1, x.2, (exStarted_run input).play hp, hv⟩

/-- the profile the CA sends -/
def exReceived : CaProfile :=
  match infoDecode Fix.C exProfileData.content with | .ok p => p | _ => Fix.profile

/-- the example run: PROBE, NEW and CHALLENGE are sent to the configured CA -/
example : ∃ h, ∃ o : ClientOut, ClientRun Fix.C (clientText exStore) [] [] [bytes! "0", bytes! "1", bytes! "0"]
      (exStarted [bytes! "0", bytes! "1", bytes! "0"]).acts h o.st o.ended ∧
    (h.flatMap ClientStep.acts).filterMap Act.ca = [exReceived, exReceived, exReceived] := by
  apply played (es := exReplies ++ [(exNewReply [bytes! "pin"], clientEnv 1003)])
    (f := fun x => (x.1.flatMap ClientStep.acts).filterMap Act.ca)
  decide +kernel

/-! ## C79, C70 -/

/-- C79. Undefined behaviour in a run of the client happens only in the callback of a reply, and has one of five causes: a CA
profile without certificate, a NEW reply of the CA with an oversized salt or request id, the email challenge offered by a CA
although the first CA probed did not ask for an address, a typed validity period that overflows the clock, or a CHALLENGE reply of the
CA with a remaining time that does. -/
theorem C79_causes {first : List Act} {h : List ClientStep} {c : Client} {u : Ub}
    (run : ClientRun C T file pib stdin first h c (.ub u)) (hw : ∀ n ∈ h, n.env.Wf) :
    ∃ h0 n c0 d w, h = h0 ++ [n] ∧ ClientRun C T file pib stdin first h0 c0 .going ∧ n.event = .reply d w ∧ UbCause C n.env h0 c0 d u := by
  generalize hx : Ended.ub u = x at run
  cases run with
  | start o e => exact absurd hx.symm ((e ▸ selectCaProfile_started T file _).ub u)
  | @step _ h0 c0 e env run o eo =>
    have hi := run.safeInv (fun n hn => hw n (by simp [hn]))
    obtain ⟨d, w, h1, h2⟩ := (hi.step e (C := C) (hw ⟨e, env, o.acts, o.ended⟩ (by simp))).2 u (by rw [eo]; exact hx.symm)
    exact ⟨h0, ⟨e, env, o.acts, o.ended⟩, c0, d, w, rfl, run, h1, h2⟩

/-- C70 is false: a CA that does not ask for an address in PROBE and offers the email challenge makes the client dereference the
end iterator of the parameters typed. -/
theorem C70_false : ∃ h c, ClientRun Fix.C (clientText exStore) [] [] [bytes! "0", bytes! "1"] (exStarted [bytes! "0", bytes! "1"]).acts h c
    (.ub .endDeref) ∧ ∀ n ∈ h, n.env.Wf := by
  obtain ⟨h, o, h1, h2⟩ := played (input := [bytes! "0", bytes! "1"]) (es := exReplies ++ [(exNewReply [bytes! "email"], clientEnv 1003)])
    (f := fun x => (x.2.ended, x.1.map (fun n => (n.env.rnd.length, n.env.memId.length, n.env.stack.length))))
    (v := (.ub .endDeref, List.replicate 4 (8, 8, 32))) (by decide +kernel)
  simp only [Prod.mk.injEq] at h2
  refine ⟨h, o.st, h2.1 ▸ h1, ?_⟩
  intro n hn
  have : (n.env.rnd.length, n.env.memId.length, n.env.stack.length) ∈ List.replicate 4 (8, 8, 32) := h2.2 ▸ List.mem_map_of_mem hn
  have := List.eq_of_mem_replicate this
  simp only [Prod.mk.injEq] at this
  exact ⟨this.1, this.2.1, this.2.2⟩

/-- C70, with the missing hypothesis: if the first CA probed asks for an address, no parameter is missing. -/
theorem C70_address_partial {first : List Act} {h : List ClientStep} {c : Client} {x : Ended}
    (run : ClientRun C T file pib stdin first h c x) (hw : ∀ n ∈ h, n.env.Wf)
    (asked : ∀ p, firstProbe h = some p → (bytes! "email") ∈ p.probeParameterKeys) : x ≠ .ub .endDeref := by
  rintro rfl
  obtain ⟨h0, n, c0, d, w, rfl, _, _, hc⟩ := C79_causes run hw
  cases hc with
  | noAddress _ hf hk => exact hk (asked _ (firstProbe_stays hf n))

/-- a CA that asks for an address -/
def exAskingData : Data :=
  match getCaProfileData Fix.C { Fix.profile with probeParameterKeys := [bytes! "email"] } exNdnCert ⟨54, [9]⟩ with
    | .ok d => d | _ => ⟨[], ⟨0, []⟩, []⟩

def exAskingReplies : List (ClientEvent × ClientEnv) :=
  [(.reply (onCaProfileDiscovery Fix.C Fix.profile (profileDataName Fix.profile ⟨54, [9]⟩) ⟨54, [9]⟩) ⟨6, []⟩, clientEnv 1000),
   (.reply exAskingData ⟨6, []⟩, clientEnv 1001),
   (caReply (probeEncode [exAliceName] (some 1) []), clientEnv 1002)]

/-- with it the email challenge is taken up, with the address typed -/
example : ∃ h, ∃ o : ClientOut, ClientRun Fix.C (clientText exStore) [] [] [bytes! "0", bytes! "A@x.org", bytes! "1"]
      (exStarted [bytes! "0", bytes! "A@x.org", bytes! "1"]).acts h o.st o.ended ∧
    (o.ended == .going && o.st.pending == some .challenge && o.st.captured == some [(bytes! "email", bytes! "a@x.org")] &&
      (firstProbe h).map (·.probeParameterKeys) == some [bytes! "email"]) = true := by
  apply played (es := exAskingReplies ++ [(exNewReply [bytes! "email"], clientEnv 1003)])
    (f := fun x => x.2.ended == .going && x.2.st.pending == some .challenge && x.2.st.captured == some [(bytes! "email", bytes! "a@x.org")] &&
      (firstProbe x.1).map (·.probeParameterKeys) == some [bytes! "email"])
  decide +kernel

/-- The other causes occur as well: a profile without certificate, -/
example : ∃ h, ∃ o : ClientOut, ClientRun Fix.C (clientText exStore) [] [] [bytes! "none", bytes! "/ndn"]
    (exStarted [bytes! "none", bytes! "/ndn"]).acts h o.st o.ended ∧ o.ended = .ub .nullDeref := by
  apply played (es := exReplies.take 1 ++ [(caReply (mkBlock Ndncert.T.Content [nestedBlock Ndncert.T.CaPrefix (nameBlock Fix.ca)]), clientEnv 1001)])
    (f := fun x => x.2.ended)
  decide +kernel

/-- a request id of nine octets, -/
example : ∃ h, ∃ o : ClientOut, ClientRun Fix.C (clientText exStore) [] [] [bytes! "0", bytes! "1"] (exStarted [bytes! "0", bytes! "1"]).acts h o.st o.ended ∧
    o.ended = .ub .overflow := by
  apply played (es := exReplies ++ [(caReply (requestEncode (Fix.C.ecdhPub [9]) (List.replicate 32 5) (List.replicate 9 7) [bytes! "pin"]), clientEnv 1003)])
    (f := fun x => x.2.ended)
  decide +kernel

/-- three million hours, -/
example : ∃ h, ∃ o : ClientOut, ClientRun Fix.C (clientText exStore) [] [] [bytes! "0", bytes! "3000000"] (exStarted [bytes! "0", bytes! "3000000"]).acts h o.st o.ended ∧
    o.ended = .ub .signedOverflow := by
  apply played (es := exReplies) (f := fun x => x.2.ended)
  decide +kernel

/-! ## C80 -/

/-- C80, first half: whatever happens in a run of the client, the identities and keys of the KeyChain stay, with their default
keys. -/
theorem C80_kept {first : List Act} {h : List ClientStep} {c : Client} {x : Ended} (hw : pib.Wf)
    (run : ClientRun C T file pib stdin first h c x) : pib.Kept c.pib :=
  (run.harmless hw).1

/-- C80, second half, partial: SIGINT and SIGTERM end the client with the KeyChain exactly as it was, if every identity had a
default key and no CA assigned the empty name. -/
theorem C80_restored_partial {first : List Act} {h : List ClientStep} {n : ClientStep} {c : Client} {x : Ended} (hw : pib.Wf)
    (hd : ∀ e ∈ pib, e.dflt ≠ none) (run : ClientRun C T file pib stdin first (h ++ [n]) c x)
    (hne : ∀ d, Received h d → ∀ names rs, probeDecode d.content [] [] = .ok (names, rs) → [] ∉ names.map (·.1))
    (hs : n.event = .signal) : c.pib = pib ∧ x = .exit 1 := by
  generalize hh : h ++ [n] = h' at run
  cases run with
  | start o e => simp at hh
  | @step _ h0 c0 e env run o eo =>
    obtain ⟨rfl, hn⟩ := List.append_inj' hh rfl
    injection hn with hn
    subst hn
    dsimp only at hs
    subst hs
    have := ((run.exact hw hd hne) rfl).1.signal hw
    have hst : c0.step C env .signal = handleSignal c0 := rfl
    rw [hst] at eo
    subst eo
    exact this

/-- the program started with this KeyChain -/
def exStartedWith (pib : Pib) (input : List Bytes) : ClientOut := selectCaProfile (clientText exStore) [] { pib := pib, stdin := input }

theorem playedWith {α : Type} {pib : Pib} {input : List Bytes} {es : List (ClientEvent × ClientEnv)} {f : List ClientStep × ClientOut → α} {v : α}
    (hv : (playClient Fix.C (exStartedWith pib input) [] es).map f = some v) :
    ∃ h o, ClientRun Fix.C (clientText exStore) [] pib input (exStartedWith pib input).acts h o.st o.ended ∧ f (h, o) = v := by
  cases hp : playClient Fix.C (exStartedWith pib input) [] es with
  | none => rw [hp] at hv; cases hv
  | some x =>
    rw [hp] at hv
    injection hv with hv
    exact ⟨x.1, x.2, (ClientRun.start _ rfl).play hp, hv⟩

/-- an identity with one key -/
def exEntry (name : Name) : IdEntry := ⟨name, [name ++ [keyComponent, gcomp [49]]], some (name ++ [keyComponent, gcomp [49]])⟩

theorem exEntry_wf : Pib.Wf [exEntry exAliceName] ∧ ∀ e ∈ [exEntry exAliceName], e.dflt ≠ none := by
  refine ⟨⟨by simp, ?_⟩, ?_⟩
  · simp only [List.mem_singleton]
    rintro e rfl k hk
    exact List.mem_singleton.mpr (Option.some.inj hk).symm
  · simp only [List.mem_singleton]
    rintro e rfl
    simp [exEntry]

/-- A key is created while the client runs, and is gone after the signal: the KeyChain holds /ndn/alice, the user asks for a new key. -/
example : ∃ h, ∃ o : ClientOut, ClientRun Fix.C (clientText exStore) [] [exEntry exAliceName] [bytes! "0", bytes! "1", bytes! "new"]
      (exStartedWith [exEntry exAliceName] [bytes! "0", bytes! "1", bytes! "new"]).acts h o.st o.ended ∧
    (o.ended == .going && o.st.pending == some .new && o.st.pib.map (fun e => e.keys.length) == [2]) = true := by
  apply playedWith (es := exReplies) (f := fun x => x.2.ended == .going && x.2.st.pending == some .new && x.2.st.pib.map (fun e => e.keys.length) == [2])
  decide +kernel

example : ∃ h, ∃ o : ClientOut, ClientRun Fix.C (clientText exStore) [] [exEntry exAliceName] [bytes! "0", bytes! "1", bytes! "new"]
      (exStartedWith [exEntry exAliceName] [bytes! "0", bytes! "1", bytes! "new"]).acts h o.st o.ended ∧
    (o.ended == .exit 1 && o.st.pib == [exEntry exAliceName] && (h.getLast?.map (fun n => n.event == .signal)) == some true) = true := by
  apply playedWith (es := exReplies ++ [(.signal, clientEnv 1003)])
    (f := fun x => x.2.ended == .exit 1 && x.2.st.pib == [exEntry exAliceName] && (x.1.getLast?.map (fun n => n.event == .signal)) == some true)
  decide +kernel

/-- The second half of C80 is false in general: for an identity without default key the client creates one; if the user then asks
for a new key, a second key is created, and a signal removes only the second one. -/
theorem C80_false : ∃ h n, ∃ c : Client, Pib.Wf [⟨exAliceName, [], none⟩] ∧
    ClientRun Fix.C (clientText exStore) [] [⟨exAliceName, [], none⟩] [bytes! "0", bytes! "1", bytes! "new"]
      (exStartedWith [⟨exAliceName, [], none⟩] [bytes! "0", bytes! "1", bytes! "new"]).acts (h ++ [n]) c (.exit 1) ∧
    n.event = .signal ∧ c.pib ≠ [⟨exAliceName, [], none⟩] ∧ ∃ e ∈ c.pib, e.keys ≠ [] := by
  obtain ⟨h, o, h1, h2⟩ := playedWith (pib := [⟨exAliceName, [], none⟩]) (input := [bytes! "0", bytes! "1", bytes! "new"])
    (es := exReplies ++ [(.signal, clientEnv 1003)])
    (f := fun x => x.2.ended == .exit 1 && x.2.st.pib.map (fun e => e.keys.length) == [1] &&
      (x.1.getLast?.map (fun n => n.event == .signal)) == some true) (v := true) (by decide +kernel)
  simp only [Bool.and_eq_true, beq_iff_eq] at h2
  obtain ⟨⟨h3, h4⟩, h5⟩ := h2
  cases hl : h.getLast? with
  | none => rw [hl] at h5; cases h5
  | some n =>
    rw [hl] at h5
    have hsplit := List.getLast?_eq_some_iff.mp hl
    obtain ⟨h', rfl⟩ := hsplit
    refine ⟨h', n, o.st, ⟨by simp, by simp⟩, h3 ▸ h1, ?_, ?_, ?_⟩
    · simpa using h5
    · intro e
      rw [e] at h4
      simp at h4
    · cases hp : o.st.pib with
      | nil => rw [hp] at h4; cases h4
      | cons e es =>
        rw [hp] at h4
        refine ⟨e, by simp, ?_⟩
        intro e0
        simp [e0] at h4

/-! ## C81 -/

/-- C81. A certificate is added to the KeyChain only if it is the content of the packet that answers the Interest for the certificate
of the request, its name was announced in a CHALLENGE reply of a trusted CA that decrypts with the key of the request (or is empty if
none was announced), and it certifies the public key of a key of its name in the KeyChain. -/
theorem C81_installed (hC : C.Lawful) (hw : pib.Wf) {first : List Act} {h : List ClientStep} {c : Client} {x : Ended} (run : ClientRun C T file pib stdin first h c x)
    {before after : List ClientStep} {n : ClientStep} (hh : h = before ++ n :: after) {cert : Cert} (hi : .install cert ∈ n.acts) :
    ∃ c0 known d w r hint, ClientRun C T file pib stdin first before c0 .going ∧ loadProfiles T file = .ok known ∧
      n.event = .reply d w ∧ C.decodeCert w = some cert ∧
      c0.pending = some .fetch ∧ c0.request = some r ∧ Did before (.fetch r.issuedCertName hint) ∧
      (r.issuedCertName = [] ∨ ∃ d' es, AcceptedReply C known before r d' es ∧ AnnouncesCert es r.issuedCertName) ∧
      ForKeyIn C c0.pib cert := by
  obtain ⟨known, hk⟩ := run.known (.inr (by rw [hh]; simp))
  obtain ⟨c0, hrun, hacts, _, _⟩ := run.until hh
  obtain ⟨d, w, h1, h2, h3, h4, h5, h6⟩ := step_install (hacts ▸ hi)
  have hf := hrun.fetchInv hk
  obtain ⟨r, hint, h7, h8⟩ := hf.fetch h2
  exact ⟨c0, known, d, w, r, hint, hrun, hk, h1, h3, h2, h7, h8, hf.name r h7,
    (forKeyIn_iff ((hrun.harmless hw).2 rfl).names (hC.decode_name w cert h3)).mp ⟨h4, h5, h6⟩⟩

/-- the key the client creates in the example runs, and a certificate for it -/
def exAliceKey : Name := exAliceName ++ [keyComponent, gcomp [107]]
def exAliceWire : Block :=
  Toy.wire (exAliceKey ++ [gcomp (bytes! "NDNCERT"), gcomp [1]]) (Toy.keyPub exAliceKey) (some Fix.ca) (some (0, 1000 * nsPerSec)) (Toy.idPub Fix.ca)

/-- a CHALLENGE reply that leaves ten thousand million seconds -/
def exLate : ClientEvent :=
  match (challengeEncode Fix.C { exCaRequest with
      challengeState := some { challengeStatus := bytes! "need-code", timestamp := 0, remainingTries := 3, remainingTime := 10000000000, secrets := [] },
      requestId := List.replicate 8 7, encryptionKey := Fix.C.hkdf [12] (List.replicate 32 5) (List.replicate 8 7), status := .challenge }
      [] [] (List.replicate 8 3)).2 with
  | .ok b => caReply b
  | _ => .nack

/-- and a remaining time of ten thousand million seconds (C79) -/
example : ∃ h, ∃ o : ClientOut, ClientRun Fix.C (clientText exStore) [] [] [bytes! "0", bytes! "1", bytes! "0"]
      (exStarted [bytes! "0", bytes! "1", bytes! "0"]).acts h o.st o.ended ∧ o.ended = .ub .signedOverflow := by
  apply played (es := exReplies ++ [(exNewReply [bytes! "pin"], clientEnv 1003), (exLate, clientEnv 1004)]) (f := fun x => x.2.ended)
  decide +kernel

/-- the last CHALLENGE reply, with the name of the certificate -/
def exDone : ClientEvent :=
  match (challengeEncode Fix.C { exCaRequest with
      challengeState := none, requestId := List.replicate 8 7, encryptionKey := Fix.C.hkdf [12] (List.replicate 32 5) (List.replicate 8 7), status := .success }
      (exAliceKey ++ [gcomp (bytes! "NDNCERT"), gcomp [1]]) [] (List.replicate 8 3)).2 with
  | .ok b => caReply b
  | _ => .nack

/-- a whole run: the certificate is fetched and installed -/
example : ∃ h, ∃ o : ClientOut, ClientRun Fix.C (clientText exStore) [] [] [bytes! "0", bytes! "1", bytes! "0"]
      (exStarted [bytes! "0", bytes! "1", bytes! "0"]).acts h o.st o.ended ∧
    (o.ended == .exit 0 && o.st.pib.has exAliceName exAliceKey &&
      (h.getLast?.map ClientStep.acts) == some (((Fix.C.decodeCert exAliceWire).map Act.install).toList)) = true := by
  apply played (es := exReplies ++ [(exNewReply [bytes! "pin"], clientEnv 1003), (exDone, clientEnv 1004), (.reply (mkData Fix.C Fix.ca [] ⟨21, []⟩) exAliceWire, clientEnv 1005)])
    (f := fun x => x.2.ended == .exit 0 && x.2.st.pib.has exAliceName exAliceKey &&
      (x.1.getLast?.map ClientStep.acts) == some (((Fix.C.decodeCert exAliceWire).map Act.install).toList))
  decide +kernel

/-! ## C82 -/

/-- C82, what the code does: the period of NEW is the current time plus the first of at most three lines that stand for a number,
as a 32-bit number of hours. -/
theorem C82_period {env : ClientEnv} {c : Client} {e : ClientEvent} {p : CaProfile} {i : Interest} (h : .new p i ∈ (c.step C env e).acts) :
    ∃ d w names n, e = .reply d w ∧ probeDecode d.content [] [] = .ok (names, []) ∧
      (∃ skipped line rest, hoursLines names c.stdin = skipped ++ line :: rest ∧ skipped.length ≤ 2 ∧
        (∀ l ∈ skipped, ∀ k, ¬ StandsFor l k) ∧ StandsFor line n) ∧
      ∃ p, AsksFor C i p ∧ (0 ≤ env.now → 0 ≤ env.now + asSigned32 n * 3600 * 1000000000 →
        SecondsInside env.now (env.now + asSigned32 n * 3600 * 1000000000) p) := by
  obtain ⟨d, w, q, names, nm, h1, _, h2, h3, _⟩ := step_new h
  rw [h3] at h
  obtain ⟨n, na, h4, h5, h6⟩ := runNew_asks h
  obtain ⟨sk, line, rest, g1, g2, g3, g4⟩ := findSome_split h4
  refine ⟨d, w, names, n, h1, h2, ⟨sk, line, rest, g1, by omega, g3, g4⟩, ?_⟩
  unfold addHours at h5
  dsimp only at h5
  split at h5
  · injection h5 with h5
    refine ⟨_, h6, fun g1 g2 => ?_⟩
    have e : nsPerSec = 1000000000 := rfl
    rw [← h5, e]
    exact roundPeriod_inwards g1 g2
  · cases h5

/-- C82, for decimal numbers below 2^31: the certificate asked for is valid for the number of hours typed, from the current time on,
rounded to whole seconds. -/
theorem C82_hours_partial {env : ClientEnv} {c : Client} {d : Data} {w : Block} {p : CaProfile} {i : Interest} {names : List (Name × Int)}
    {rs : List Name} {n : Nat} (h : .new p i ∈ (c.step C env (.reply d w)).acts) (hnow : 0 ≤ env.now)
    (offered : probeDecode d.content [] [] = .ok (names, rs))
    (typed : (hoursLines names c.stdin).head? = some (decDigits n)) (small : n < 2 ^ 31) :
    ∃ p, AsksFor C i p ∧ SecondsInside env.now (env.now + n * 3600 * 1000000000) p := by
  obtain ⟨d', w', names', m, h1, h2, h3, per, h4, h5⟩ := C82_period h
  injection h1 with h1 _
  subst h1
  rw [offered] at h2
  obtain ⟨rfl, rfl⟩ : names = names' ∧ rs = [] := by simpa using h2
  have hm : m = n := by
    cases hl : hoursLines names c.stdin with
    | nil => rw [hl] at typed; cases typed
    | cons l ls =>
      rw [hl] at typed h3
      obtain rfl : l = decDigits n := by simpa using typed
      obtain ⟨sk, line, rest, g1, _, g3, g4⟩ := h3
      have hd := stoul_decDigits n (by omega)
      cases sk with
      | nil =>
        injection g1 with g1 _
        subst g1
        exact Option.some.inj (((stoul_iff _ _).mpr g4).symm.trans hd)
      | cons x sk =>
        injection g1 with g1 _
        subst g1
        exact absurd ((stoul_iff _ _).mp hd) (g3 _ (by simp) n)
  subst hm
  have h32 : asSigned32 m = m := by
    unfold asSigned32
    rw [Nat.mod_eq_of_lt (by omega), if_pos small]
  rw [h32] at h5
  have hna : (0 : Int) ≤ env.now + m * 3600 * 1000000000 := by
    have : ∀ x : Int, 0 ≤ x → 0 ≤ x + (m : Int) * 3600 * 1000000000 := by intro x hx; omega
    exact this _ hnow
  exact ⟨per, h4, h5 hnow hna⟩

/-- the NEW Interests of a history -/
def newInterests (h : List ClientStep) : List Interest :=
  (h.flatMap ClientStep.acts).filterMap (fun a => match a with | .new _ i => some i | _ => none)

/-- C82 is false in general: whoever types 4294967297 hours asks for the same period as whoever types 1. -/
theorem C82_false : ∃ h h' : List ClientStep, ∃ o o' : ClientOut,
    ClientRun Fix.C (clientText exStore) [] [] [bytes! "0", bytes! "4294967297"] (exStarted [bytes! "0", bytes! "4294967297"]).acts h o.st o.ended ∧
    ClientRun Fix.C (clientText exStore) [] [] [bytes! "0", bytes! "1"] (exStarted [bytes! "0", bytes! "1"]).acts h' o'.st o'.ended ∧
    newInterests h = newInterests h' ∧ newInterests h ≠ [] := by
  obtain ⟨v, hv⟩ : ∃ v, (playClient Fix.C (exStarted [bytes! "0", bytes! "4294967297"]) [] exReplies).map (fun x => newInterests x.1) = some v ∧
      (playClient Fix.C (exStarted [bytes! "0", bytes! "1"]) [] exReplies).map (fun x => newInterests x.1) = some v ∧ v ≠ [] := by
    refine ⟨((playClient Fix.C (exStarted [bytes! "0", bytes! "1"]) [] exReplies).map (fun x => newInterests x.1)).getD [], ?_, ?_, ?_⟩ <;> decide +kernel
  obtain ⟨h, o, h1, h2⟩ := played hv.1
  obtain ⟨h', o', h3, h4⟩ := played hv.2.1
  exact ⟨h, h', o, o', h1, h3, h2.trans h4.symm, by rw [h2]; exact hv.2.2⟩

/-- one hour typed: NEW asks for one hour -/
example : ∃ h, ∃ o : ClientOut, ClientRun Fix.C (clientText exStore) [] [] [bytes! "0", decDigits 1] (exStarted [bytes! "0", decDigits 1]).acts h o.st o.ended ∧
    ((newInterests h).length == 1 && o.ended == .going) = true := by
  apply played (es := exReplies) (f := fun x => (newInterests x.1).length == 1 && x.2.ended == .going)
  decide +kernel

end Ndncert.Props
