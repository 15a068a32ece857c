import Verif.Lemmas.ClientTalk
import Verif.Props.Client

/-! # Properties of the command line client: what it applies for, says and fetches -/

namespace Ndncert.Props

open Ndncert

variable {C : Crypto} {T : TextIO} {file : Bytes} {pib : Pib} {stdin : List Bytes}

/-! ## C81 -/

/-- C81, when a certificate is fetched: only when a CHALLENGE reply of a trusted CA arrives that decrypts with the key of the request
and says, once, that the request succeeded. The name fetched is the one announced there or in an earlier such reply, or empty. -/
theorem C81_fetched_on_success {first : List Act} {h : List ClientStep} {c : Client} {x : Ended} (run : ClientRun C T file pib stdin first h c x)
    {before after : List ClientStep} {n : ClientStep} (hh : h = before ++ n :: after) {name : Name} {hint : Option Name} (hf : .fetch name hint ∈ n.acts) :
    ∃ c0 known d w r es, ClientRun C T file pib stdin first before c0 .going ∧ loadProfiles T file = .ok known ∧
      n.event = .reply d w ∧ c0.pending = some .challenge ∧ c0.request = some r ∧
      AcceptedReply C known (before ++ [n]) r d es ∧ TellsOnce es .success ∧
      (name = [] ∨ ∃ d' es', AcceptedReply C known (before ++ [n]) r d' es' ∧ AnnouncesCert es' name) := by
  obtain ⟨known, hk⟩ := run.known (.inr (by rw [hh]; simp))
  obtain ⟨c0, hrun, hacts, _, _⟩ := run.until hh
  obtain ⟨d, w, r, h1, h2, h3, h4, h5, h6⟩ := step_fetch (hacts ▸ hf)
  obtain ⟨t, pt, es, g1, g2, g3, g4, g5⟩ := onChallengeResponse_told h4
  rw [h5] at g5
  have hrec : Received (before ++ [n]) d := ⟨n, by simp, w, h1⟩
  have htr := ((hrun.trustInv hk).request r h3).mono (h' := [n])
  have acc : AcceptedReply C known (before ++ [n]) r d es := ⟨htr, hrec, ⟨t, g1, g2⟩, ⟨_, _, pt, g3, g4⟩⟩
  refine ⟨c0, known, d, w, r, es, hrun, hk, h1, h2, h3, acc, g5, ?_⟩
  rcases onChallengeResponse_effect C r d n.env.now with ⟨_, he⟩ | ⟨t', pt', es', k1, k2, k3, k4, k5⟩
  · exact absurd h4 (he ())
  · rw [h6]
    rcases k5.name with k | k
    · rw [k]
      rcases (hrun.fetchInv hk).name r h3 with q | ⟨d', es'', q1, q2⟩
      · exact .inl q
      · exact .inr ⟨d', es'', q1.mono, q2⟩
    · exact .inr ⟨d, es', ⟨htr, hrec, ⟨t', k1, k2⟩, ⟨_, _, pt', k3, k4⟩⟩, k⟩

/-- the fetch of the example run -/
example : ∃ h, ∃ o : ClientOut, ClientRun Fix.C (clientText exStore) [] [] [bytes! "0", bytes! "1", bytes! "0"]
      (exStarted [bytes! "0", bytes! "1", bytes! "0"]).acts h o.st o.ended ∧
    (o.ended == .going && (h.getLast?.map ClientStep.acts) == some [.fetch (exAliceKey ++ [gcomp (bytes! "NDNCERT"), gcomp [1]]) none]) = true := by
  apply played (es := exReplies ++ [(exNewReply [bytes! "pin"], clientEnv 1003), (exDone, clientEnv 1004)])
    (f := fun x => x.2.ended == .going && (x.1.getLast?.map ClientStep.acts) == some [.fetch (exAliceKey ++ [gcomp (bytes! "NDNCERT"), gcomp [1]]) none])
  decide +kernel

/-! ## C89 -/

/-- C89. NEW is sent only when a PROBE reply arrives that verifies under the certificate of the CA that was probed and names no other CA.
It is sent to this CA, and applies for a certificate for a key of the identity the user chose among the names offered. -/
theorem C89_chosen_name {first : List Act} {h : List ClientStep} {c : Client} {x : Ended} (hw : pib.Sound)
    (run : ClientRun C T file pib stdin first h c x)
    {before after : List ClientStep} {n : ClientStep} (hh : h = before ++ n :: after) {p : CaProfile} {i : Interest} (hn : .new p i ∈ n.acts) :
    ∃ c0 d w t names name, ClientRun C T file pib stdin first before c0 .going ∧ n.event = .reply d w ∧ c0.pending = some (.probe p) ∧
      p.cert = some t ∧ C.verifyData d t = true ∧ probeDecode d.content [] [] = .ok (names, []) ∧
      Chosen names c0.stdin name ∧ AppliesFor C p.caPrefix i name := by
  obtain ⟨c0, hrun, hacts, _, _⟩ := run.until hh
  have hn' := hacts ▸ hn
  obtain ⟨d, w, q, names, nm, h1, h2, h3, h4, h5, t, h6, h7⟩ := step_new hn'
  rw [h4] at hn'
  have hs : Pib.Sound { c0 with stdin := hoursLines names c0.stdin }.pib := hrun.sound hw rfl
  obtain ⟨rfl, g2⟩ := (runNew_sound hs q nm).2 p i hn'
  exact ⟨c0, d, w, t, names, nm, hrun, h1, h2, h6, h7, h3, h5, g2⟩

/-- the PROBE reply offers two names -/
def exTwoNames : List (ClientEvent × ClientEnv) :=
  exReplies.take 2 ++ [(caReply (probeEncode [exAliceName, Fix.ca ++ [gcomp (bytes! "bob")]] (some 1) []), clientEnv 1002)]

/-- the user types 1: the application is for /ndn/bob -/
example : ∃ h, ∃ o : ClientOut, ClientRun Fix.C (clientText exStore) [] [] [bytes! "0", bytes! "1", bytes! "24"]
      (exStarted [bytes! "0", bytes! "1", bytes! "24"]).acts h o.st o.ended ∧
    ((newInterests h).length == 1 && o.ended == .going && o.st.pib.map IdEntry.name == [Fix.ca ++ [gcomp (bytes! "bob")]]) = true := by
  apply played (es := exTwoNames) (f := fun x => (newInterests x.1).length == 1 && x.2.ended == .going &&
    x.2.st.pib.map IdEntry.name == [Fix.ca ++ [gcomp (bytes! "bob")]])
  decide +kernel

/-! ## C90 -/

/-- C90. A CHALLENGE Interest is sent only when a NEW or a CHALLENGE reply arrives that the trusted CA of the request signed. It goes to
this CA, for this request, and its encrypted content is, for the challenge taken, what the status the CA reported asks for:
after NEW, the start of the challenge picked among those the reply offers; later, the next step of the same challenge, in the status that
the reply tells. A code or proof is the line typed next, and an address is one given to PROBE. -/
theorem C90_says {first : List Act} {h : List ClientStep} {c : Client} {x : Ended} (run : ClientRun C T file pib stdin first h c x)
    {before after : List ClientStep} {n : ClientStep} (hh : h = before ++ n :: after) {p : CaProfile} {i : Interest} (hc : .challenge p i ∈ n.acts) :
    ∃ c0 known d w r r' kind es lines, ClientRun C T file pib stdin first before c0 .going ∧ loadProfiles T file = .ok known ∧
      n.event = .reply d w ∧ c0.request = some r ∧ p = r.profile ∧ r'.profile = r.profile ∧ TrustedProfile C known (before ++ [n]) p ∧
      (∃ t, p.cert = some t ∧ C.verifyData d t = true) ∧
      SentFor C r' i es ∧ Says r'.status r'.challengeStatus lines c0.captured kind es ∧
      (∀ m, c0.captured = some m → ∃ q j, Did before (.probe q j) ∧ CarriesAnswers j m) ∧
      ((c0.pending = some .new ∧ r'.status = .beforeChallenge ∧ ∃ offered, Offers d offered ∧ Picked offered c0.stdin kind.regName lines) ∨
       (c0.pending = some .challenge ∧ r.challengeType = kind.regName ∧ lines = c0.stdin ∧ r'.aesKey = r.aesKey ∧ r'.requestId = r.requestId ∧
        ∃ es', AcceptedReply C known (before ++ [n]) r d es' ∧ TellsOnce es' r'.status ∧ r'.status ≠ .success)) := by
  obtain ⟨known, hk⟩ := run.known (.inr (by rw [hh]; simp))
  obtain ⟨c0, hrun, hacts, _, _⟩ := run.until hh
  obtain ⟨d, w, r, h1, h2, h3⟩ := step_challenge (hacts ▸ hc)
  have htalk := hrun.talkInv
  have hrec : Received (before ++ [n]) d := ⟨n, by simp, w, h1⟩
  have htr := ((hrun.trustInv hk).request r h2).mono (h' := [n])
  rcases h3 with ⟨h3, h4⟩ | ⟨h3, h4⟩
  · obtain ⟨offered, k, lines, es, r', g1, g2, g3, g4, g5, g6, g7, g8, g9⟩ := newCb_says h4
    have hp : p = r.profile := g8.trans g7
    exact ⟨c0, known, d, w, r, r', k, es, lines, hrun, hk, h1, h2, hp, g7, hp ▸ htr, hp ▸ g2, g9, g4, htalk.captured,
      .inl ⟨h3, g6.trans (htalk.fresh h3 r h2), offered, g1, g3⟩⟩
  · obtain ⟨k, es, r', g1, g2, g3, g4, g5, g6, g7, g8, g9, g10, g11⟩ := challengeCb_says h4
    obtain ⟨t, pt, es', k1, k2, k3, k4, k5⟩ := onChallengeResponse_told g1
    have hp : p = r.profile := g10.trans g7
    exact ⟨c0, known, d, w, r, r', k, es, c0.stdin, hrun, hk, h1, h2, hp, g7, hp ▸ htr, ⟨t, hp ▸ k1, k2⟩, g11, g5, htalk.captured,
      .inr ⟨h3, g4, rfl, g8, g9, es', ⟨htr, hrec, ⟨t, k1, k2⟩, ⟨_, _, pt, k3, k4⟩⟩, g2 ▸ k5, g3⟩⟩

/-- the reply to the first CHALLENGE: the CA waits for the code -/
def exWaits : ClientEvent :=
  match (challengeEncode Fix.C { exCaRequest with
      requestId := List.replicate 8 7, encryptionKey := Fix.C.hkdf [12] (List.replicate 32 5) (List.replicate 8 7), status := .challenge,
      challengeState := some { challengeStatus := bytes! "need-code", timestamp := 1003, remainingTries := 3, remainingTime := 300, secrets := [] } }
      [] [] (List.replicate 8 3)).2 with
  | .ok b => caReply b
  | _ => .nack

/-- two CHALLENGE Interests: the PIN challenge, picked with the second line after a wrong one, and then the code typed -/
example : ∃ h, ∃ o : ClientOut, ClientRun Fix.C (clientText exStore) [] [] [bytes! "0", bytes! "1", bytes! "7", bytes! "0", bytes! "123456"]
      (exStarted [bytes! "0", bytes! "1", bytes! "7", bytes! "0", bytes! "123456"]).acts h o.st o.ended ∧
    (o.ended == .going && o.st.stdin == [] && (h.map (fun n => n.acts.length)) == [1, 1, 1, 1, 1] && o.st.pending == some .challenge) = true := by
  apply played (es := exReplies ++ [(exNewReply [bytes! "pin"], clientEnv 1003), (exWaits, clientEnv 1004)])
    (f := fun x => x.2.ended == .going && x.2.st.stdin == [] && (x.1.map (fun n => n.acts.length)) == [1, 1, 1, 1, 1] && x.2.st.pending == some .challenge)
  decide +kernel

end Ndncert.Props
