import Verif.Props.CaExec
import Verif.Spec.Backed

/-! # Issued certificates and the validity of the CA's own (C136) -/

namespace Ndncert.Props
open Ndncert

variable {σ : Type} {C : Crypto} {S : StoreI σ} {Inv : σ → Prop} {cfg : CaConfig}

/-- the certificate of the fixtures' CA, valid until 1002 s -/
def exShortCa : Cert := { Fix.caCert with validity := some (0, 1002 * nsPerSec) }

/-- the surroundings with this certificate -/
def exShort (env : Env) : Env := { env with caCert := exShortCa }

/-- the run of the fixtures with this certificate of the CA: NEW at 1000 s, pin at 1001 s, a wrong code at 1002 s, the right one at 1003 s -/
def exShortRun : List Event :=
  [.msg (.new Fix.newInterest) (exShort Fix.env1), .msg (.challenge Fix.chal1) (exShort Fix.env2),
   .msg (.challenge Fix.chal2) (exShort Fix.env3), .msg (.challenge Fix.chal3) (exShort Fix.env4)]

theorem exShortRun_ok : runsOk Fix.C Fix.S Fix.cfg Fix.st0 exShortRun = true := by decide +kernel

/-- the last step of the run -/
def exShortLast : Step Mem :=
  ⟨(runs Fix.C Fix.S Fix.cfg Fix.st0 (exShortRun.take 3)).2, .msg (.challenge Fix.chal3) (exShort Fix.env4),
   ((Event.msg (.challenge Fix.chal3) (exShort Fix.env4)).run Fix.C Fix.S Fix.cfg (runs Fix.C Fix.S Fix.cfg Fix.st0 (exShortRun.take 3)).2).1⟩

theorem exShortLast_mem : exShortLast ∈ (runs Fix.C Fix.S Fix.cfg Fix.st0 exShortRun).1 := by
  unfold exShortRun
  rw [hist_cons, hist_cons, hist_cons, hist_cons]
  exact List.mem_cons_of_mem _ (List.mem_cons_of_mem _ (List.mem_cons_of_mem _ List.mem_cons_self))

/-- the certificate it signs is valid until 4600 s -/
theorem exShortLast_issues : ∃ c nb, Effect.issue c ∈ exShortLast.effects ∧ c.validity = some (nb, 4600 * nsPerSec) := by
  have h : (exShortLast.effects.any (fun e => match e with
      | .issue c => match c.validity with | some (_, na) => decide (na = 4600 * nsPerSec) | none => false
      | _ => false)) = true := by
    decide +kernel
  rw [List.any_eq_true] at h
  obtain ⟨e, he, h⟩ := h
  cases e with
  | issue c =>
    dsimp only at h
    split at h
    · rename_i nb na hv
      exact ⟨c, nb, he, by rw [hv, of_decide_eq_true h]⟩
    · cases h
  | _ => cases h

/-- C136 is false: the CA's certificate is only looked at when a request comes in. Here it expires at 1002 s, between NEW and the right code, and
the CA signs a certificate at 1003 s. -/
theorem C136_false : ¬ SignsOnlyWhileValid Fix.C Fix.S Fix.cfg := by
  intro H
  obtain ⟨c, _, hc, _⟩ := exShortLast_issues
  obtain ⟨nb, na, hv, _, h2⟩ := H _ _ (exec_of_runs exShortRun_ok) _ exShortLast_mem _ (exShort Fix.env4) rfl c hc
  cases hv
  exact absurd h2 (by decide)

/-- C136 is false also in its second part: the certificate it signs is valid until 4600 s, the CA's own until 1002 s. -/
theorem C136_false_longer : ¬ SignsNothingLonger Fix.C Fix.S Fix.cfg := by
  intro H
  obtain ⟨c, nb, hc, hv⟩ := exShortLast_issues
  have := H _ _ (exec_of_runs exShortRun_ok) _ exShortLast_mem _ (exShort Fix.env4) rfl c hc nb _ _ _ hv rfl
  exact absurd this (by decide)

/-- C136, what holds: behind every certificate `c` the CA signs there is an earlier accepted NEW, for a certificate with its key name, public key and
period, and then the CA's certificate of that time was valid (the clock read `env0.nowCa` for this and `env0.now` for the policy). So `c` is not
valid for more than `max-validity-period` longer than this certificate of the CA, up to the time between the two readings.
Missing: that the CA's certificate is valid when `c` is signed, and that `c` ends no later. -/
theorem C136_backed_partial (hC : C.Lawful) (hS : LawfulStore C S Inv) (hcfg : NameFits cfg.profile.caPrefix)
    {h : List (Step σ)} {s : CaState σ} (hx : Exec C S cfg h s) {h1 h2 : List (Step σ)} {n : Step σ} (hh : h = h1 ++ n :: h2)
    {c : Cert} (hc : .issue c ∈ n.effects) :
    ∃ ha m hb i0 env0 r0, h1 = ha ++ m :: hb ∧ AcceptsNew m i0 env0 r0 ∧ Kept r0.requestId hb ∧
      keyNameOf c.name = keyNameOf r0.cert.name ∧ c.content = r0.cert.content ∧ c.validity = r0.cert.validity ∧
      ValidAt env0.caCert env0.nowCa ∧
      ∃ nb na cb ce, c.validity = some (nb, na) ∧ env0.caCert.validity = some (cb, ce) ∧
        na ≤ ce + cfg.profile.maxValidityPeriod * 1000000000 + (env0.now - env0.nowCa) := by
  obtain ⟨ha, m, hb, i0, env0, r0, hs, hacc, hpol, hk, hct, hv, hkept, _⟩ := C30_issued_only_after hC hS hcfg hx hh hc
  subst hh hs
  obtain ⟨_, _, _, heff, _⟩ := hx.split ha m (hb ++ n :: h2) (by simp)
  obtain ⟨msg, env, hmsg, hmem⟩ := effects_handle heff hacc.2
  have he : some (msg, env) = some (Msg.new i0, env0) := hmsg.symm.trans hacc.1
  cases he
  obtain ⟨_, na, hva, _, h4, _⟩ := hpol.validity
  have hval : ValidAt env0.caCert env0.nowCa := by
    unfold handle at hmem
    dsimp only at hmem
    unfold onNewRenewRevoke certIsValid at hmem
    cases hca : env0.caCert.validity with
    | none => rw [hca] at hmem; cases hmem
    | some v =>
      rw [hca] at hmem
      dsimp only at hmem
      refine ⟨v.1, v.2, hca, ?_⟩
      refine Decidable.byContradiction fun hno => ?_
      rw [decide_eq_false hno] at hmem
      dsimp only [replyError] at hmem
      revert hmem
      simp
  obtain ⟨cb, ce, hce, _, h5⟩ := hval
  refine ⟨ha, m, hb, i0, env0, r0, rfl, hacc, hkept, hk, hct, hv, ⟨cb, ce, hce, by assumption, h5⟩, _, na, cb, ce, hv.trans hva, hce, ?_⟩
  have : ∀ x y z n1 n2 : Int, x ≤ n1 + y → n2 ≤ z → x ≤ z + y + (n1 - n2) := by intros; omega
  exact this _ _ _ _ _ h4 h5

/-- the run above meets the hypotheses: it accepts the request at 1000 s, and signs -/
example : ∃ h s h1 n h2 c, Exec Fix.C Fix.S Fix.cfg h s ∧ h = h1 ++ n :: h2 ∧ Effect.issue c ∈ n.effects := by
  obtain ⟨h1, h2, hm⟩ := List.append_of_mem exShortLast_mem
  obtain ⟨c, _, hc, _⟩ := exShortLast_issues
  exact ⟨_, _, h1, _, h2, c, exec_of_runs exShortRun_ok, hm, hc⟩

end Ndncert.Props
