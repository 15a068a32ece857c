import Verif.Lemmas.Safe
import Verif.Spec.Run

/-! # Which CHALLENGE Interests the CA survives (C39) -/

namespace Ndncert.Props

/-- C39 in full: in every reachable state every CHALLENGE is answered by exactly one Data of its name, and the handler
returns. -/
def SurvivesChallenges {σ : Type} (C : Crypto) (S : StoreI σ) (cfg : CaConfig) : Prop :=
  ∀ h s, Exec C S cfg h s → ∀ i env, env.Wf → (∀ b, i.params = some b → b.val.length ≤ 2 ^ 36 - 32) →
    (onChallenge C S cfg s.store i env).term = .done ∧
    ∃ d, sent (onChallenge C S cfg s.store i env).effects = [d] ∧ d.name = i.name

/-- a CHALLENGE whose request id component has nine octets; anyone can send it -/
def exLongId : Interest := ⟨Fix.ca ++ [gcomp (bytes! "CA"), gcomp (bytes! "CHALLENGE"), gcomp (List.replicate 9 65)], none, []⟩

/-- C39 is false of the code: a request id component of nine octets overflows a buffer of eight. -/
theorem C39_false : ¬ SurvivesChallenges Fix.C Fix.S Fix.cfg := by
  intro H
  have := (H _ _ (.init Fix.idKey) exLongId (Fix.env 1000) (Fix.env_wf _ _ _) (by intro b h; cases h)).1
  revert this
  decide +kernel

/-- the outcome of that Interest -/
theorem C39_false_overflow : ∃ u, onChallenge Fix.C Fix.S Fix.cfg Fix.st0.store exLongId (Fix.env 1000) = ⟨[], .undefined u⟩ :=
  ⟨.overflow, by decide +kernel⟩

/-- a CHALLENGE of the requester whose plaintext holds a code but selects no challenge, like the proof message of the
library's possession challenge -/
def exNoSelection : Interest := Fix.sealed Fix.req2 [binBlock T.ParameterKey KEY_CODE, binBlock T.ParameterValue (bytes! "1")]

/-- A second way in which C39 is false: an exception leaves the handler, which ends the process. -/
theorem C39_false_exception : (∃ h, Exec Fix.C Fix.S Fix.cfg h (runs Fix.C Fix.S Fix.cfg Fix.st0 [Fix.ev1, Fix.ev2]).2) ∧
    IdFits Fix.cfg exNoSelection ∧
    ∃ e, onChallenge Fix.C Fix.S Fix.cfg (runs Fix.C Fix.S Fix.cfg Fix.st0 [Fix.ev1, Fix.ev2]).2.store exNoSelection Fix.env3 = ⟨[], .threw e⟩ := by
  refine ⟨⟨_, exec_of_runs (es := [Fix.ev1, Fix.ev2]) (by decide +kernel)⟩, ?_, .tlv, by decide +kernel⟩
  intro c hc
  have h : (match exNoSelection.name[Fix.cfg.profile.caPrefix.length + 2]? with | some c => decide (c.val.length ≤ 8) | none => true) = true := by
    decide +kernel
  rw [hc] at h
  simpa using h

section
variable {σ : Type} {C : Crypto} {S : StoreI σ} {Inv : σ → Prop} {cfg : CaConfig}

/-- C39, what holds of every CHALLENGE with a request id component of at most eight octets in every reachable state: the
behaviour is defined; if the handler returns it sent exactly one Data, which has the name of the Interest; if an exception
leaves it, it sent none. Missing: longer components (`C39_false`). -/
theorem C39_defined_partial (hC : C.Lawful) (hS : LawfulStore C S Inv) (hcfg : NameFits cfg.profile.caPrefix)
    {h : List (Step σ)} {s : CaState σ} (hx : Exec C S cfg h s) {i : Interest} {env : Env} (hid : IdFits cfg i) (he : env.Wf) :
    (∀ u, (onChallenge C S cfg s.store i env).term ≠ .undefined u) ∧
    ((onChallenge C S cfg s.store i env).term = .done → ∃ d, sent (onChallenge C S cfg s.store i env).effects = [d] ∧ d.name = i.name) ∧
    ((onChallenge C S cfg s.store i env).term ≠ .done → sent (onChallenge C S cfg s.store i env).effects = []) :=
  ⟨fun u => onChallenge_no_ub hS (hx.life hC hS hcfg).1 hid he (fun _ _ hv => hx.ivsOk hC hS hcfg hv) (fun _ _ hv => (hx.stored hC hS hcfg hv).2.2.1) u, onChallenge_sent C S cfg s.store i env⟩

/-- C39, the Interests that are answered: in every reachable state, every CHALLENGE with a request id component of at most
eight octets such that, if it is authentic for a pending request `r` and decrypts to some `pt`, then `pt` is empty or consists of
elements that say what is needed (`Digestible`), and, for a NEW, the certificate that would be issued has a key and a sane
size. In particular everything that is not authentic or does not decrypt. Missing: the others (`C39_false_exception`). -/
theorem C39_answered_partial (hC : C.Lawful) (hS : LawfulStore C S Inv) (hcfg : NameFits cfg.profile.caPrefix)
    {h : List (Step σ)} {s : CaState σ} (hx : Exec C S cfg h s) {i : Interest} {env : Env} (hid : IdFits cfg i) (he : env.Wf)
    (hok : ∀ r, Authentic C S cfg s.store i env r → (r.requestType = .new → Issuable cfg env r) ∧
      ∀ pt, Decrypts C i r pt → pt ≠ [] → ∃ es, parse pt = .ok es ∧ Digestible C env r es) :
    (onChallenge C S cfg s.store i env).term = .done ∧
    ∃ d, sent (onChallenge C S cfg s.store i env).effects = [d] ∧ d.name = i.name := by
  have := onChallenge_done hC hS (hx.life hC hS hcfg).1 hid he (fun _ _ hv => hx.stored hC hS hcfg hv) hok
  exact ⟨this, (onChallenge_sent C S cfg s.store i env).1 this⟩

end

/-- the hypotheses of `C39_answered_partial` hold of the right code in the fourth step of the run -/
example : ∀ r, Authentic Fix.C Fix.S Fix.cfg (runs Fix.C Fix.S Fix.cfg Fix.st0 [Fix.ev1, Fix.ev2, Fix.ev3]).2.store Fix.chal3 Fix.env4 r →
    (r.requestType = .new → Issuable Fix.cfg Fix.env4 r) ∧
      ∀ pt, Decrypts Fix.C Fix.chal3 r pt → pt ≠ [] → ∃ es, parse pt = .ok es ∧ Digestible Fix.C Fix.env4 r es := by
  intro r hr
  have h0 : Authentic Fix.C Fix.S Fix.cfg (runs Fix.C Fix.S Fix.cfg Fix.st0 [Fix.ev1, Fix.ev2, Fix.ev3]).2.store Fix.chal3 Fix.env4
    (Fix.stored (runs Fix.C Fix.S Fix.cfg Fix.st0 [Fix.ev1, Fix.ev2, Fix.ev3]).2) := authenticOk_sound (by decide +kernel)
  have hrr := hr.unique h0
  subst hrr
  refine ⟨fun _ => ⟨by decide +kernel, by decide +kernel⟩, ?_⟩
  intro pt hpt _
  have hd : Decrypts Fix.C Fix.chal3 (Fix.stored (runs Fix.C Fix.S Fix.cfg Fix.st0 [Fix.ev1, Fix.ev2, Fix.ev3]).2)
    (encodeAll [binBlock T.SelectedChallenge (bytes! "pin"), binBlock T.ParameterKey KEY_CODE, binBlock T.ParameterValue (secretCode Fix.env2.word32)]) :=
    decryptsOk_sound (by decide +kernel)
  rw [hpt.unique hd]
  refine ⟨[binBlock T.SelectedChallenge (bytes! "pin"), binBlock T.ParameterKey KEY_CODE, binBlock T.ParameterValue (secretCode Fix.env2.word32)],
    by decide +kernel, ⟨_, rfl⟩, fun _ _ => ⟨_, _, rfl, rfl⟩, ?_, ?_⟩
  · rintro ⟨sel, h1, h2⟩
    cases h1
    exact absurd h2 (by decide)
  · rintro ⟨sel, h1, h2⟩
    cases h1
    exact absurd h2 (by decide)

end Ndncert.Props
