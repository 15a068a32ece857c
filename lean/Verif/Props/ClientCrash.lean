import Verif.Lemmas.ClientCrash
import Verif.Props.ClientTurn
import Verif.Props.ClientEnd

/-! # C113: what ends the client by an exception that nobody catches -/

namespace Ndncert.Props
open Ndncert

variable {C : Crypto} {T : TextIO} {file : Bytes} {pib : Pib} {stdin : List Bytes}

/-- C113. Whenever a run of the client ends by an uncaught exception, either the user asked for a CA with the empty name, or the last
callback is for a reply and one of the eight causes is there. In particular a Nack, a timeout and a signal never end it so. -/
theorem C113_causes_partial (hC : C.Lawful) (hw : pib.Wf) (hs : pib.Sound) {first : List Act} {h : List ClientStep} {c : Client} {e : Exc}
    (henv : ∀ n ∈ h, n.env.Wf) (run : ClientRun C T file pib stdin first h c (.threw e)) :
    (h = [] ∧ ∃ line rest, stdin = line :: rest ∧ toLower line = (bytes! "none") ∧ T.nameOfUri (rest.headD []) = some []) ∨
    ∃ h0 n c0 d w, h = h0 ++ [n] ∧ ClientRun C T file pib stdin first h0 c0 .going ∧ n.event = .reply d w ∧ CrashCause C n.env c0 d w := by
  generalize hx : Ended.threw e = x at run
  cases run with
  | start o eo =>
    left
    rw [← eo] at hx
    exact ⟨rfl, selectCaProfile_threw (T := T) (file := file) (c := { pib := pib, stdin := stdin }) hx.symm⟩
  | @step _ h0 c0 ev env run o eo =>
    right
    have hthrew : (c0.step C env ev).ended = .threw e := by rw [eo]; exact hx.symm
    have hrnd := (henv ⟨ev, env, o.acts, o.ended⟩ (by simp)).rnd
    obtain ⟨d, w, h1, h2⟩ := step_threw (run.sound hs rfl) ((run.harmless hw).2 rfl).names (fun b cert hb => hC.decode_name b cert hb)
      run.keyed (run.created rfl) hrnd hthrew
    exact ⟨h0, ⟨ev, env, o.acts, o.ended⟩, c0, d, w, rfl, run, h1, h2⟩

/-- C113. Three of the causes need no key of any CA, and each does end the client: at every point of a run where it waits for metadata,
for a profile or for the certificate, the reply ends it by an uncaught exception exactly when the cause is there. -/
theorem C113_anyone_partial (hC : C.Lawful) (hw : pib.Wf) {first : List Act} {h : List ClientStep} {c : Client}
    (run : ClientRun C T file pib stdin first h c .going) (env : ClientEnv) (d : Data) (w : Block) :
    (∀ full, c.pending = some (.discovery full) →
      ((∃ e, (c.step C env (.reply d w)).ended = .threw e) ↔ ∀ n, ¬ HasName d.content n)) ∧
    (∀ full, c.pending = some (.info full) →
      ((∃ e, (c.step C env (.reply d w)).ended = .threw e) ↔ c.trusted = none ∧ ∃ p t, infoDecode C d.content = .ok p ∧ p.cert = some t ∧
        (full = [] ∨ t.fullName = full) ∧ C.verifyData d t = true ∧ (C.hasLocator d = false ∨ t.validity = none))) ∧
    (c.pending = some .fetch →
      ((∃ e, (c.step C env (.reply d w)).ended = .threw e) ↔ ∀ cert, C.decodeCert w = some cert → ¬ ForKeyIn C c.pib cert)) := by
  refine ⟨?_, ?_, ?_⟩
  · intro full hpend
    have hs : c.step C env (.reply d w) = discoveryCb c full d := by unfold Client.step; rw [hpend]
    rw [hs, ← genProfileName_iff]
    unfold discoveryCb
    constructor
    · rintro ⟨e, he⟩
      split at he
      · cases he
      · next e' he' => exact ⟨e', he'⟩
      · cases he
    · rintro ⟨e, he⟩
      rw [he]
      exact ⟨e, rfl⟩
  · intro full hpend
    have hs : c.step C env (.reply d w) = infoCb C c full d := by unfold Client.step; rw [hpend]
    rw [hs, infoCb_threw]
    constructor
    · rintro ⟨h1, p, h2, h3⟩
      obtain ⟨g1, t, g2, g3⟩ := acceptProfile_ok h2
      refine ⟨h1, p, t, g1, g2, ?_, g3, ?_⟩
      · by_cases hf : full = []
        · exact .inl hf
        · unfold acceptProfile at h2
          rw [if_neg hf] at h2
          obtain ⟨_, t', k2, k3, _⟩ := afterRedirection_ok h2
          rw [k2] at g2
          cases g2
          exact .inr k3
      unfold canShow at h3
      rw [g2] at h3
      simp only [Bool.and_eq_false_iff] at h3
      rcases h3 with h3 | h3
      · exact .inl h3
      · exact .inr (by simpa using h3)
    · rintro ⟨h1, p, t, g1, g2, hf, g3, h3⟩
      refine ⟨h1, p, ?_, ?_⟩
      · have hok : onCaProfileResponse C d = .ok p := by
          unfold onCaProfileResponse
          rw [g1, Res.bind_ok, g2]
          exact if_pos g3
        unfold acceptProfile
        rw [h1]
        by_cases hfull : full = []
        · rw [if_pos hfull]
          exact hok
        · rw [if_neg hfull]
          unfold onCaProfileResponseAfterRedirection
          rw [g1, Res.bind_ok, g2]
          dsimp only
          rw [if_neg (by simpa using hf.resolve_left hfull)]
          exact hok
      · unfold canShow
        rw [g2]
        rcases h3 with h3 | h3
        · simp [h3]
        · simp [h3]
  · intro hpend
    have hs : c.step C env (.reply d w) = certFetchCb C c w := by unfold Client.step; rw [hpend]
    rw [hs]
    unfold certFetchCb onCertFetchResponse
    cases hcert : C.decodeCert w with
    | none =>
      constructor
      · intro _ cert hc
        cases hc
      · intro _
        exact ⟨_, rfl⟩
    | some cert =>
      dsimp only [Res.ofOption]
      have hi := forKeyIn_iff (C := C) ((run.harmless hw).2 rfl).names (hC.decode_name w cert hcert)
      constructor
      · rintro ⟨e, he⟩ cert' hc' hf
        injection hc' with hc'
        subst hc'
        rw [if_pos (hi.mpr hf)] at he
        cases he
      · intro hn
        rw [if_neg (fun hh => hn cert rfl (hi.mp hh))]
        exact ⟨_, rfl⟩

/-- C113 is false as stated: a metadata packet without a name in it ends the client, though the packet need not be signed by anyone. -/
theorem C113_false : ∃ h c e, ClientRun Fix.C (clientText exStore) [] [] [bytes! "0"] (exStarted [bytes! "0"]).acts h c (.threw e) ∧
    (∀ n ∈ h, n.env.Wf) := by
  obtain ⟨h, o, h1, h2⟩ := played (input := [bytes! "0"]) (es := [(caReply ⟨21, []⟩, clientEnv 1000)])
    (f := fun x => (x.2.ended, x.1.map (fun n => (n.env.rnd.length, n.env.memId.length, n.env.stack.length))))
    (v := (.threw .tlv, List.replicate 1 (8, 8, 32))) (by decide +kernel)
  simp only [Prod.mk.injEq] at h2
  refine ⟨h, o.st, _, h2.1 ▸ h1, ?_⟩
  intro n hn
  have : (n.env.rnd.length, n.env.memId.length, n.env.stack.length) ∈ List.replicate 1 (8, 8, 32) := h2.2 ▸ List.mem_map_of_mem hn
  have := List.eq_of_mem_replicate this
  simp only [Prod.mk.injEq] at this
  exact ⟨this.1, this.2.1, this.2.2⟩

/-- a profile with a certificate that has no validity period -/
def exUnshown : ClientEvent :=
  match getCaProfileData Fix.C Fix.profile ((Fix.C.decodeCert (Toy.wire Fix.caCert.name (some (Toy.idPub Fix.ca)) (some Fix.ca) none [1])).getD Fix.caCert) ⟨54, [9]⟩ with
  | .ok d => .reply d ⟨6, []⟩
  | _ => .nack

/-! The other causes occur as well. -/

/-- the profile of an unknown CA whose certificate has no validity period, -/
example : ∃ h, ∃ o : ClientOut, ClientRun Fix.C (clientText exStore) [] [] [bytes! "none", bytes! "/ndn", bytes! "yes"]
    (exStarted [bytes! "none", bytes! "/ndn", bytes! "yes"]).acts h o.st o.ended ∧ o.ended = .threw .tlv := by
  apply played (es := exReplies.take 1 ++ [(exUnshown, clientEnv 1001)]) (f := fun x => x.2.ended)
  decide +kernel

/-- a redirection to `/ndn/KEY`, -/
example : ∃ h, ∃ o : ClientOut, ClientRun Fix.C (clientText exStore) [] [] [bytes! "0", bytes! "0"]
    (exStarted [bytes! "0", bytes! "0"]).acts h o.st o.ended ∧ o.ended = .threw .name := by
  apply played (es := exReplies.take 2 ++ [(caReply (probeEncode [] none [[gcomp (bytes! "ndn"), gcomp (bytes! "KEY")]]), clientEnv 1002)]) (f := fun x => x.2.ended)
  decide +kernel

/-- no key id drawn, -/
example : ∃ h, ∃ o : ClientOut, ClientRun Fix.C (clientText exStore) [] [] [bytes! "0", bytes! "1"]
    (exStarted [bytes! "0", bytes! "1"]).acts h o.st o.ended ∧ o.ended = .threw .runtime := by
  apply played (es := exReplies.take 2 ++ [(caReply (probeEncode [exAliceName] (some 1) []), { clientEnv 1002 with keyIds := [] })]) (f := fun x => x.2.ended)
  decide +kernel

/-- a line typed that is no certificate, -/
example : ∃ h, ∃ o : ClientOut, ClientRun Fix.C (clientText exStore) [] [] [bytes! "0", bytes! "1", bytes! "0", [], bytes! "x"]
    (exStarted [bytes! "0", bytes! "1", bytes! "0", [], bytes! "x"]).acts h o.st o.ended ∧ o.ended = .threw .tlv := by
  apply played (es := exReplies ++ [(exNewReply [bytes! "possession"], clientEnv 1003)]) (f := fun x => x.2.ended)
  decide +kernel

/-- something else than the certificate,  -/
example : ∃ h, ∃ o : ClientOut, ClientRun Fix.C (clientText exStore) [] [] [bytes! "0", bytes! "1", bytes! "0"]
    (exStarted [bytes! "0", bytes! "1", bytes! "0"]).acts h o.st o.ended ∧ o.ended = .threw .runtime := by
  apply played (es := exReplies ++ [(exNewReply [bytes! "pin"], clientEnv 1003), (exDone, clientEnv 1004), (.reply (mkData Fix.C Fix.ca [] ⟨21, []⟩) ⟨6, []⟩, clientEnv 1005)]) (f := fun x => x.2.ended)
  decide +kernel

/-- and a CA with the empty name. -/
example : ∃ h, ∃ o : ClientOut, ClientRun Fix.C (clientText exStore) [] [] [bytes! "none", bytes! "/"]
    (exStarted [bytes! "none", bytes! "/"]).acts h o.st o.ended ∧ o.ended = .threw .name := by
  apply played (es := []) (f := fun x => x.2.ended)
  decide +kernel

/-- the KeyChain of these runs meets the hypotheses -/
example : (Pib.Wf [] ∧ Pib.Sound []) ∧ Fix.C.Lawful := ⟨⟨⟨by simp, fun _ h => by cases h⟩, fun _ h => by cases h⟩, Toy.lawful⟩

end Ndncert.Props
