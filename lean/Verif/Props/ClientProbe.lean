import Verif.Lemmas.ClientProbe
import Verif.Props.ClientTalk

/-! # Properties of the command line client: what it asks with PROBE (C90) -/

namespace Ndncert.Props

open Ndncert

variable {C : Crypto} {T : TextIO} {file : Bytes} {pib : Pib} {stdin : List Bytes}

/-- C90. A PROBE Interest goes to the CA whose profile just arrived. The first one carries the lines typed next as the answers to this
CA's questions, only the email address in lower case; the line `yes`, if the user had to be asked about the CA, is not one of
them, and lines that are missing count as empty. Each later PROBE carries the same answers. -/
theorem C90_asks {first : List Act} {h : List ClientStep} {c : Client} {x : Ended} (run : ClientRun C T file pib stdin first h c x)
    {before after : List ClientStep} {n : ClientStep} (hh : h = before ++ n :: after) {p : CaProfile} {i : Interest} (hc : .probe p i ∈ n.acts) :
    ∃ c0 d w m, ClientRun C T file pib stdin first before c0 .going ∧ n.event = .reply d w ∧ infoDecode C d.content = .ok p ∧
      (∃ digest, i.name = p.caPrefix ++ [gcomp (bytes! "CA"), gcomp (bytes! "PROBE"), ⟨2, digest⟩]) ∧ CarriesAnswers i m ∧
      (((∃ q j, Did before (.probe q j)) ∧ ∀ q j, Did before (.probe q j) → CarriesAnswers j m) ∨
       ((∀ q j, ¬ Did before (.probe q j)) ∧ ∃ skipped : List Bytes,
         (skipped = [] ∧ (∀ q l, .asked q l ∉ n.acts) ∨ ∃ line, skipped = [line] ∧ .asked p line ∈ n.acts ∧ toLower line = (bytes! "yes")) ∧
         ∃ lines, skipped ++ lines = c0.stdin ∧
           Typed p.probeParameterKeys ((List.range p.probeParameterKeys.length).map (fun j => lines.getD j [])) m)) := by
  obtain ⟨c0, hrun, hacts, _, _⟩ := run.until hh
  have hinv := hrun.probeInv
  obtain ⟨d, w, full, t, h1, h2, h3, h4⟩ := step_probe (hacts ▸ hc)
  rw [← hacts] at h4
  have key : ∀ c1 : Client, c1.captured = c0.captured → i = genProbeInterest C p (probeParams c1 p).1 →
      (∃ digest, i.name = p.caPrefix ++ [gcomp (bytes! "CA"), gcomp (bytes! "PROBE"), ⟨2, digest⟩]) ∧ CarriesAnswers i (probeParams c1 p).1 ∧
      (((∃ q j, Did before (.probe q j)) ∧ ∀ q j, Did before (.probe q j) → CarriesAnswers j (probeParams c1 p).1) ∨
        ((∀ q j, ¬ Did before (.probe q j)) ∧
          Typed p.probeParameterKeys ((List.range p.probeParameterKeys.length).map (fun j => c1.stdin.getD j [])) (probeParams c1 p).1)) := by
    intro c1 hc1 hi
    subst hi
    refine ⟨⟨_, (List.append_assoc ..)⟩, rfl, ?_⟩
    cases hcap : c0.captured with
    | none => exact .inr ⟨hinv.unasked hcap, probeParams_reads (hc1.trans hcap) p⟩
    | some m =>
      have : (probeParams c1 p).1 = m := by
        unfold probeParams
        rw [hc1.trans hcap]
      rw [this]
      exact .inl (hinv.kept m hcap)
  rcases h4 with ⟨_, g2, g3, g4⟩ | ⟨_, g2, g3⟩
  · obtain ⟨k1, k2, k3⟩ := key { c0 with stdin := c0.stdin.tail, trusted := t } rfl g4
    refine ⟨c0, d, w, _, hrun, h1, acceptProfile_decoded h3, k1, k2, ?_⟩
    rcases k3 with k3 | ⟨k3, k4⟩
    · exact .inl k3
    · refine .inr ⟨k3, [c0.stdin.headD []], .inr ⟨_, rfl, g3, g2⟩, c0.stdin.tail, ?_, k4⟩
      cases hs : c0.stdin with
      | nil =>
        rw [hs] at g2
        exact absurd g2 (by decide)
      | cons a l => rfl
  · obtain ⟨k1, k2, k3⟩ := key c0 rfl g3
    refine ⟨c0, d, w, _, hrun, h1, acceptProfile_decoded h3, k1, k2, ?_⟩
    rcases k3 with k3 | ⟨k3, k4⟩
    · exact .inl k3
    · exact .inr ⟨k3, [], .inl ⟨rfl, g2⟩, c0.stdin, rfl, k4⟩

/-- the profile of a CA that asks for a name and an address -/
def exAsking : ClientEvent :=
  match infoEncode { Fix.profile with probeParameterKeys := [bytes! "full name", bytes! "email"] } exNdnCert with
  | .ok b => caReply b
  | _ => .nack

/-- the user says yes to the CA and answers its questions, which come in alphabetical order -/
example : ∃ h, ∃ o : ClientOut, ClientRun Fix.C (clientText exStore) [] [] [bytes! "none", bytes! "/ndn", bytes! "Yes", bytes! "Al@X.org", bytes! "Al B"]
      (exStarted [bytes! "none", bytes! "/ndn", bytes! "Yes", bytes! "Al@X.org", bytes! "Al B"]).acts h o.st o.ended ∧
    (h.map (fun n => n.acts.map (fun a => a.probed.isSome))) = [[false], [false, true]] ∧
    o.st.captured = some [(bytes! "email", bytes! "al@x.org"), (bytes! "full name", bytes! "Al B")] := by
  obtain ⟨h, o, h1, h2⟩ := played (input := [bytes! "none", bytes! "/ndn", bytes! "Yes", bytes! "Al@X.org", bytes! "Al B"])
    (es := exReplies.take 1 ++ [(exAsking, clientEnv 1001)])
    (f := fun x => (x.1.map (fun n => n.acts.map (fun a => a.probed.isSome)), x.2.st.captured))
    (v := ([[false], [false, true]],
      some [(bytes! "email", bytes! "al@x.org"), (bytes! "full name", bytes! "Al B")])) (by decide +kernel)
  exact ⟨h, o, h1, (Prod.mk.inj h2).1, (Prod.mk.inj h2).2⟩

end Ndncert.Props
