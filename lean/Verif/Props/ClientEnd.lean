import Verif.Lemmas.ClientEnd
import Verif.Props.ClientTalk

/-! # Properties of the command line client: how it goes on and ends -/

namespace Ndncert.Props

open Ndncert

variable {C : Crypto} {T : TextIO} {file : Bytes} {pib : Pib} {stdin : List Bytes}

/-! ## C96 -/

/-- C96. In every run of the client, the exit code is 0 if and only if a certificate was put into the KeyChain, or the user did not trust
the CA; otherwise it is 1. -/
theorem C96_exit_code {first : List Act} {h : List ClientStep} {c : Client} {x : Ended} (hw : pib.Sound)
    (run : ClientRun C T file pib stdin first h c x) :
    (x = .exit 0 ↔ (∃ cert, Did h (.install cert)) ∨ Refused h) ∧ ∀ n, x = .exit n → n = 0 ∨ n = 1 := by
  cases run with
  | start o e =>
    have hsh : Shape False o := e ▸ selectCaProfile_shape _
    have hst := e ▸ selectCaProfile_started T file { pib := pib, stdin := stdin }
    have hnot : ¬ ((∃ cert, Did [] (.install cert)) ∨ Refused []) := by simp [Did, Refused]
    have hne : o.ended ≠ .exit 0 := e ▸ selectCaProfile_exit _
    refine ⟨⟨fun hx => absurd hx hne, fun hx => absurd hx hnot⟩, ?_⟩
    cases hsh with
    | failed _ hx => exact fun n hn => .inr (hx n hn)
    | installed => exact absurd rfl hne
    | refused => exact absurd rfl hne
    | sent => simp
    | asked => simp
    | idle => simp
  | @step _ h c e env run o eo =>
    have i := run.goingInv hw rfl
    have hsh : Shape (c.pending = none ∨ Stalls C c e) o := eo ▸ step_shape i.pib e
    have hdid : ∀ a, Did (h ++ [⟨e, env, o.acts, o.ended⟩]) a ↔ Did h a ∨ a ∈ o.acts := fun a => by rw [Did.append, Did.single]
    have hins : (∃ cert, Did (h ++ [⟨e, env, o.acts, o.ended⟩]) (.install cert)) ↔ ∃ cert, .install cert ∈ o.acts :=
      exists_congr fun cert => by rw [hdid]; exact ⟨fun h => h.resolve_left (i.installed cert), .inr⟩
    have href : Refused (h ++ [⟨e, env, o.acts, o.ended⟩]) ↔ ∃ p l, .asked p l ∈ o.acts ∧ toLower l ≠ (bytes! "yes") := by
      constructor
      · rintro ⟨p, l, hd, hl⟩
        rcases (hdid _).mp hd with hd | hd
        · exact absurd ⟨p, l, hd, hl⟩ i.refused
        · exact ⟨p, l, hd, hl⟩
      · rintro ⟨p, l, hd, hl⟩
        exact ⟨p, l, (hdid _).mpr (.inr hd), hl⟩
    rw [hins, href]
    cases hsh with
    | @installed _ cert => exact ⟨⟨fun _ => .inl ⟨cert, by simp⟩, fun _ => rfl⟩, fun n hn => by injection hn with hn; exact .inl hn.symm⟩
    | @refused _ p l no => exact ⟨⟨fun _ => .inr ⟨p, l, by simp, no⟩, fun _ => rfl⟩, fun n hn => by injection hn with hn; exact .inl hn.symm⟩
    | failed _ hx =>
      refine ⟨⟨fun h0 => absurd (hx 0 h0) (by simp), ?_⟩, fun n hn => .inr (hx n hn)⟩
      rintro (⟨_, hm⟩ | ⟨_, _, hm, _⟩) <;> cases hm
    | @sent _ a _ _ ha =>
      refine ⟨⟨by simp, ?_⟩, by simp⟩
      rintro (⟨_, hm⟩ | ⟨_, _, hm, _⟩) <;> (simp only [List.mem_singleton] at hm; subst hm; cases ha)
    | @asked _ p l a _ hy _ ha =>
      refine ⟨⟨by simp, ?_⟩, by simp⟩
      rintro (⟨_, hm⟩ | ⟨_, _, hm, hn⟩) <;> simp only [List.mem_cons, reduceCtorEq, List.not_mem_nil, or_false, false_or] at hm
      · subst hm; cases ha
      · rcases hm with hm | hm
        · injection hm with _ hm; subst hm; exact absurd hy hn
        · subst hm; cases ha
    | idle =>
      refine ⟨⟨by simp, ?_⟩, by simp⟩
      rintro (⟨_, hm⟩ | ⟨_, _, hm, _⟩) <;> cases hm

/-- a KeyChain without identities -/
example : Pib.Sound [] := fun _ h => by cases h

/-- the run that installs the certificate ends with 0, and a run in which the CA's reply cannot be verified with 1 -/
example : (∃ h, ∃ o : ClientOut, ClientRun Fix.C (clientText exStore) [] [] [bytes! "0", bytes! "1", bytes! "0"]
      (exStarted [bytes! "0", bytes! "1", bytes! "0"]).acts h o.st o.ended ∧ o.ended = .exit 1 ∧ h.length = 4) := by
  obtain ⟨h, o, hr, hv⟩ := played (input := [bytes! "0", bytes! "1", bytes! "0"]) (es := exReplies ++ [(.reply (mkData Fix.C [] [] ⟨21, []⟩) ⟨6, []⟩, clientEnv 1003)])
    (f := fun x => decide (x.2.ended = .exit 1 ∧ x.1.length = 4)) (v := true) (by decide +kernel)
  exact ⟨h, o, hr, of_decide_eq_true hv⟩

/-! ## C97 -/

/-- C97 is false: after one timeout the client neither ends nor does anything else, whatever happens, until it gets a signal. (The Interest
for the metadata times out.) -/
theorem C97_false : ∃ h c, ClientRun Fix.C (clientText exStore) [] [] [bytes! "0"] (exStarted [bytes! "0"]).acts h c .going ∧
    (exStarted [bytes! "0"]).acts ≠ [] ∧
    ∀ more c' x, ClientRun Fix.C (clientText exStore) [] [] [bytes! "0"] (exStarted [bytes! "0"]).acts (h ++ more) c' x →
      (∀ n ∈ more, n.event ≠ .signal) → x = .going ∧ ∀ n ∈ more, n.acts = [] := by
  have hgo : (exStarted [bytes! "0"]).ended = .going := by decide +kernel
  have hrun := exStarted_run [bytes! "0"]
  rw [hgo] at hrun
  refine ⟨_, _, .step .timeout (clientEnv 1000) hrun _ rfl, by decide +kernel, ?_⟩
  intro more c' x hr hs
  exact stalled (.step .timeout (clientEnv 1000) hrun _ rfl) rfl hr hs

/-- C97, at the start: the program ends, or sends one Interest. -/
theorem C97_started {first : List Act} {c : Client} (run : ClientRun C T file pib stdin first [] c .going) :
    ∃ a, first = [a] ∧ a.isInterest = true := by
  generalize hh : ([] : List ClientStep) = h at run
  generalize hx : Ended.going = x at run
  cases run with
  | start o e =>
    have hsh : Shape False o := e ▸ selectCaProfile_shape _
    have hst := e ▸ selectCaProfile_started T file { pib := pib, stdin := stdin }
    have hna : ∀ p l, .asked p l ∉ o.acts := e ▸ selectCaProfile_asks _
    cases hsh with
    | installed => cases hx
    | refused => cases hx
    | failed g => exact absurd hx.symm g
    | sent _ ha => exact ⟨_, rfl, ha.isInterest⟩
    | @asked _ p l => exact absurd (by simp) (hna p l)
    | idle _ r => exact r.elim
  | step => simp at hh

/-- C97, partial: if an Interest is outstanding, then the callback of the next event ends the program or sends exactly one Interest, except
for a timeout, a reply with a profile that cannot be used, and a PROBE reply with a name outside the CA's prefix. Missing: in these cases
the client should end (`C97_false`). -/
theorem C97_progress_partial {first : List Act} {h : List ClientStep} {n : ClientStep} {c : Client} {x : Ended} (hw : pib.Sound)
    (run : ClientRun C T file pib stdin first (h ++ [n]) c x) {a : Act} (ha : a ∈ lastActs first h) (hi : a.isInterest = true) :
    x ≠ .going ∨ (∃ b, n.acts.filter Act.isInterest = [b]) ∨
      ∃ c0, ClientRun C T file pib stdin first h c0 .going ∧ Stalls C c0 n.event := by
  generalize hh : h ++ [n] = h' at run
  cases run with
  | start => simp at hh
  | @step _ h0 c e env run o eo =>
    obtain ⟨rfl, hn⟩ := List.append_inj' hh rfl
    simp only [List.cons.injEq, and_true] at hn
    subst hn
    have i := run.goingInv hw rfl
    have hsh : Shape (c.pending = none ∨ Stalls C c e) o := eo ▸ step_shape i.pib e
    have hne : c.pending ≠ none := by
      intro h0
      have := i.idle h0
      have hm : a ∈ (lastActs first h).filter Act.isInterest := List.mem_filter.mpr ⟨ha, hi⟩
      rw [this] at hm
      cases hm
    cases hsh with
    | installed => exact .inl (by simp)
    | refused => exact .inl (by simp)
    | failed g => exact .inl g
    | @sent _ b _ _ ha => exact .inr (.inl ⟨b, by simp [ha.isInterest]⟩)
    | @asked _ _ _ b _ _ _ ha => exact .inr (.inl ⟨b, by simp [ha.isInterest, isInterest_asked]⟩)
    | idle _ r => exact .inr (.inr ⟨c, run, r.resolve_left hne⟩)

/-- in the example run four Interests are sent, one after the other -/
example : ∃ h, ∃ o : ClientOut, ClientRun Fix.C (clientText exStore) [] [] [bytes! "0", bytes! "1", bytes! "0"]
      (exStarted [bytes! "0", bytes! "1", bytes! "0"]).acts h o.st o.ended ∧
    h.map (fun n => (n.acts.filter Act.isInterest).length) = [1, 1, 1, 1] := by
  apply played (es := exReplies ++ [(exNewReply [bytes! "pin"], clientEnv 1003)])
    (f := fun x => x.1.map (fun n => (n.acts.filter Act.isInterest).length))
  decide +kernel

end Ndncert.Props
