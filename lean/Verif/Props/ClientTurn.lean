import Verif.Lemmas.ClientTurn
import Verif.Props.ClientProbe

/-! # Properties of the command line client: the CAs it turns to (C102) -/

namespace Ndncert.Props

open Ndncert

variable {C : Crypto} {T : TextIO} {file : Bytes} {pib : Pib} {stdin : List Bytes}

/-- C102, first CA. The client ends at once, or looks for the profile of the CA that was chosen: the configured one whose number was
typed, or the one whose name was typed. The first PROBE goes to the CA of a profile that came in a reply verifying under its own
certificate, and also under the certificate of the configured CA chosen, if there is one; otherwise the user was asked about this
profile, and the next line typed is yes. -/
theorem C102_first {first : List Act} {h : List ClientStep} {c : Client} {x : Ended} (run : ClientRun C T file pib stdin first h c x) :
    (first = [] ∧ h = []) ∨
    ∃ known ca anchor rest nm, loadProfiles T file = .ok known ∧ Selected T known stdin ca anchor rest ∧ first = [.discovery nm] ∧ MetadataName ca nm ∧
      ∀ before n after, h = before ++ n :: after → (∀ q j, ¬ Did before (.probe q j)) → ∀ p i, .probe p i ∈ n.acts →
        ∃ d w t, n.event = .reply d w ∧ infoDecode C d.content = .ok p ∧ p.cert = some t ∧ C.verifyData d t = true ∧
          (∀ a, anchor = some a → C.verifyData d a = true) ∧
          (anchor = none → .asked p (rest.headD []) ∈ n.acts ∧ toLower (rest.headD []) = (bytes! "yes")) := by
  have hfirst := run.first_eq
  rcases selectCaProfile_selected T file pib stdin with ⟨h1, h2⟩ | ⟨known, ca, anchor, nm, h1, h2, h3, h4, h5⟩
  · exact .inl ⟨hfirst.trans h1, (run.unstarted h2).1⟩
  · refine .inr ⟨known, ca, anchor, _, nm, h1, h2, hfirst.trans h3, h4, ?_⟩
    intro before n after hh hno p i hp
    obtain ⟨c0, hrun, hacts, _, _⟩ := run.until hh
    have hinv := hrun.turnInv rfl
    obtain ⟨d, w, full, t, g1, g2, g3, g4⟩ := step_probe (hacts ▸ hp)
    have hfull : full = [] := by
      refine Decidable.byContradiction (fun hne => ?_)
      obtain ⟨b, m, s, c1, _, _, q, _, _, _, _, k1, k2, _, k3, _⟩ := hinv.later full hne (.inr g2)
      obtain ⟨kn, hkn⟩ := hrun.known (.inr (by rw [k1]; simp))
      obtain ⟨_, j, hd⟩ := (k2.trustInv hkn).probe q k3
      exact hno q j (by rw [k1]; obtain ⟨n', hn', hj⟩ := hd; exact ⟨n', by simp [hn'], hj⟩)
    subst hfull
    obtain ⟨_, hstdin, htrusted⟩ := hinv.start (.inr g2)
    obtain ⟨v1, t', v2, v3, v4⟩ := acceptProfile_first g3
    rw [← hacts] at g4
    rw [htrusted, h5] at v4
    refine ⟨d, w, t', g1, v1, v2, v3, v4, ?_⟩
    intro ha
    rcases g4 with ⟨_, k2, k3, _⟩ | ⟨k1, _⟩
    · rw [← hstdin]
      exact ⟨k3, k2⟩
    · exact absurd (htrusted.trans (h5.trans ha)) k1

/-- C102, redirections. Each later PROBE follows a redirection: a reply to a PROBE, verifying under the certificate of the CA probed,
announced CAs, and the client went on to the only one of them or to the one whose number was typed. It looked for the profile of this
very CA, and it probes it only with a profile whose certificate is the one announced, in a reply that verifies under it. -/
theorem C102_redirected {first : List Act} {h : List ClientStep} {c : Client} {x : Ended} (run : ClientRun C T file pib stdin first h c x)
    {before after : List ClientStep} {n : ClientStep} (hh : h = before ++ n :: after) {p : CaProfile} {i : Interest} (hp : .probe p i ∈ n.acts)
    {q0 : CaProfile} {j0 : Interest} (hprev : Did before (.probe q0 j0)) :
    ∃ earlier m since c0 d w q j names redirects full ca nm d' w' t, before = earlier ++ m :: since ∧
      ClientRun C T file pib stdin first earlier c0 .going ∧ Did earlier (.probe q j) ∧ c0.pending = some (.probe q) ∧
      m.event = .reply d w ∧ (∃ t, q.cert = some t ∧ C.verifyData d t = true) ∧
      probeDecode d.content [] [] = .ok (names, redirects) ∧ ChosenCa redirects c0.stdin full ∧ FullNameOfCa ca full ∧
      m.acts = [.discovery nm] ∧ MetadataName ca nm ∧ (∀ q j, ¬ Did since (.probe q j)) ∧
      n.event = .reply d' w' ∧ infoDecode C d'.content = .ok p ∧ p.cert = some t ∧ fullNameOf t = full ∧ C.verifyData d' t = true := by
  obtain ⟨c1, hrun, hacts, _, _⟩ := run.until hh
  have hinv := hrun.turnInv rfl
  obtain ⟨d', w', full, t, g1, g2, g3, _⟩ := step_probe (hacts ▸ hp)
  have hfull : full ≠ [] := by
    rintro rfl
    exact (hinv.start (.inr g2)).1 q0 j0 hprev
  obtain ⟨earlier, m, since, c0, d, w, q, names, redirects, ca, nm, k1, k2, k3, k4, k5, k6, k7, k8, k9, k10, k11⟩ := hinv.later full hfull (.inr g2)
  obtain ⟨kn, hkn⟩ := hrun.known (.inr (by rw [k1]; simp))
  obtain ⟨_, j, hd⟩ := (k2.trustInv hkn).probe q k4
  obtain ⟨v1, t', v2, v3, v4⟩ := acceptProfile_later hfull g3
  exact ⟨earlier, m, since, c0, d, w, q, j, names, redirects, full, ca, nm, d', w', t', k1, k2, hd, k4, k3, k5, k6, k7, k8, k9, k10, k11, g1, v1, v2,
    v3, v4⟩

/-- a PROBE reply with two redirections, of which the user takes the second: the CA is probed again with the same answers -/
example : ∃ h, ∃ o : ClientOut, ClientRun Fix.C (clientText exStore) [] [] [bytes! "0", bytes! "1"] (exStarted [bytes! "0", bytes! "1"]).acts h o.st o.ended ∧
    h.map (fun n => n.acts.map (fun a => a.probed.isSome)) = [[false], [true], [false], [false], [true]] := by
  apply played (es := exReplies.take 2 ++ [(caReply (probeEncode [] none [fullNameOf Fix.caCert, fullNameOf exNdnCert]), clientEnv 1002)] ++ exReplies.take 2)
    (f := fun x => x.1.map (fun n => n.acts.map (fun a => a.probed.isSome)))
  decide +kernel

/-- a configured CA is chosen, and one by its name -/
example : Selected (clientText exStore) [{ Fix.profile with cert := some exNdnCert }] [bytes! "0", bytes! "1"] Fix.ca (some exNdnCert) [bytes! "1"] ∧
    Selected (clientText exStore) [] [bytes! "None", bytes! "/ndn"] Fix.ca none [] ∧
    MetadataName Fix.ca (Fix.ca ++ [gcomp (bytes! "CA"), gcomp (bytes! "INFO"), ⟨32, bytes! "metadata"⟩]) :=
  ⟨.configured (q := { Fix.profile with cert := some exNdnCert }) (j := 0) (by decide) (by decide) rfl,
   .named (by decide) (by decide), .plain (by decide) (by decide)⟩

end Ndncert.Props
