import Verif.Lemmas.Mailed
import Verif.Props.Revoked
import Verif.Props.Mails

/-! # Who passes the email challenge returns a code that was mailed (C143) -/

namespace Ndncert.Props

section
variable {σ : Type} {C : Crypto} {S : StoreI σ} {Inv : σ → Prop} {cfg : CaConfig}

theorem byMail (hC : C.Lawful) (hS : LawfulStore C S Inv) (hcfg : NameFits cfg.profile.caPrefix)
    {h : List (Step σ)} {s : CaState σ} (hx : Exec C S cfg h s) {h1 h2 h3 : List (Step σ)} {a : Step σ} (hh : h = h1 ++ a :: (h2 ++ h3))
    {i2 : Interest} {env2 : Env} {r2 : RequestState} {k : ChalKind} (hst : StartsChallenge C S cfg a i2 env2 r2 k)
    (hk : ∀ n ∈ h2, ∀ r, .dbAdd r ∈ n.effects → r.requestId ≠ r2.requestId) {es : List Block} (hans : Answered C env2 k es) :
    ByMail C S cfg a h2 i2 env2 r2 k es := by
  obtain ⟨hpre, hwf, hpos, heff, _⟩ := hx.split _ _ _ hh
  obtain ⟨g1, g2⟩ := starts_mails hS (hpre.life hC hS hcfg).1 hwf heff hst
  refine ⟨fun hke => ?_, g2, fun b hb hm => ?_⟩
  · obtain ⟨es2, addr, g3, g4, g5⟩ := g1 hke
    refine ⟨es2, _, g3, g5, rfl, rfl, g4, ?_⟩
    cases hans with
    | code _ h => exact h
    | proof hk' => rw [hke] at hk'; cases hk'
  · obtain ⟨x, y, hxy⟩ := List.append_of_mem hb
    obtain ⟨r1, hup, hid, _⟩ := hst.stored
    have hh' : h = (h1 ++ a :: x) ++ b :: (y ++ h3) := by rw [hh, hxy]; simp
    obtain ⟨bpre, bwf, bpos, beff, _⟩ := hx.split _ _ _ hh'
    obtain ⟨r, hv, hs⟩ := mailsFor_before hS (bpre.life hC hS hcfg).1 bwf bpos beff hm
    rw [← hid] at hv
    exact started_stays hC hS hcfg bpre rfl hup (fun n hn r hr => by rw [hid]; exact hk n (by rw [hxy]; simp [hn]) r hr) hv hs

/-- C143: whenever the CA signs a certificate, the request's challenge was started in an earlier step, and if this was the email challenge then
an email was sent in that step, for the name that was requested and to the address that was given there; it was the last for this request, and
the message that led to the certificate gave the code in it -/
theorem C143_issued (hC : C.Lawful) (hS : LawfulStore C S Inv) (hcfg : NameFits cfg.profile.caPrefix)
    {h : List (Step σ)} {s : CaState σ} (hx : Exec C S cfg h s) {h1 h2 : List (Step σ)} {n : Step σ} (hh : h = h1 ++ n :: h2)
    {c : Cert} (hc : .issue c ∈ n.effects) :
    ∃ ha a hb i2 env2 r2 k i env r es k', h1 = ha ++ a :: hb ∧ StartsChallenge C S cfg a i2 env2 r2 k ∧ Kept r2.requestId hb ∧
      Challenges C S cfg n i env r es k' ∧ r.requestId = r2.requestId ∧ r.cert = r2.cert ∧ keyNameOf c.name = keyNameOf r2.cert.name ∧
      ByMail C S cfg a hb i2 env2 r2 k es := by
  obtain ⟨ha, m, hb, i0, env0, r0, e1, _, _, f1, _, _, hk, hb1, a, hb2, i2, env2, r2, k, e2, hst, g1, g2, i, env, r, es, k', hch, g3, g4, hans⟩ :=
    C30_issued_only_after hC hS hcfg hx hh hc
  rw [← g1] at hk g3
  rw [← g2] at f1 g4
  have hk2 : Kept r2.requestId hb2 := fun x hx => hk x (by rw [e2]; simp [hx])
  refine ⟨ha ++ m :: hb1, a, hb2, i2, env2, r2, k, i, env, r, es, k', by rw [e1, e2]; simp, hst, hk2, hch, g3, g4, f1, ?_⟩
  exact byMail hC hS hcfg hx (h1 := ha ++ m :: hb1) (h3 := n :: h2) (by rw [hh, e1, e2]; simp) hst (fun x hx => (hk2 x hx).2) hans

/-- C143 for revocations: the same whenever the CA completes a revocation -/
theorem C143_revoked (hC : C.Lawful) (hS : LawfulStore C S Inv) (hcfg : NameFits cfg.profile.caPrefix)
    {h : List (Step σ)} {s : CaState σ} (hx : Exec C S cfg h s) {h1 h2 : List (Step σ)} {n : Step σ} (hh : h = h1 ++ n :: h2)
    {i : Interest} {env : Env} {r : RequestState} {d : Data} (hc : CompletesRevoke C S cfg n i env r d) :
    ∃ ha a hb i2 env2 r2 k es k', h1 = ha ++ a :: hb ∧ StartsChallenge C S cfg a i2 env2 r2 k ∧ Kept r2.requestId hb ∧
      Challenges C S cfg n i env r es k' ∧ r.requestId = r2.requestId ∧ r.cert = r2.cert ∧ ByMail C S cfg a hb i2 env2 r2 k es := by
  obtain ⟨⟨ha, m, hb, i0, env0, r0, e1, _, _, _, _, _, _, _, hk, hb1, a, hb2, i2, env2, r2, k, es, k', e2, hst, g1, g2, hch, hans⟩, _⟩ :=
    C137_revoked_only_after hC hS hcfg hx hh hc
  rw [← g1] at hk
  have hk2 : Kept r2.requestId hb2 := fun x hx => hk x (by rw [e2]; simp [hx])
  refine ⟨ha ++ m :: hb1, a, hb2, i2, env2, r2, k, es, k', by rw [e1, e2]; simp, hst, hk2, hch, g1.symm, g2.symm, ?_⟩
  exact byMail hC hS hcfg hx (h1 := ha ++ m :: hb1) (h3 := n :: h2) (by rw [hh, e1, e2]; simp) hst (fun x hx => (hk2 x hx).2) hans

end

/-! ## A run with the email challenge -/

def exByMail2 : Request × Res Interest :=
  genChallengeInterest Fix.C (selectOrContinueChallenge Fix.req1 (bytes! "email")).1 [(KEY_EMAIL, bytes! "eve@x.org")] (List.replicate 8 3)
def exByMailEv2 : Event := .msg (.challenge (Fix.interestOf' exByMail2.2)) Fix.env2
def exByMailReq2 : Request :=
  (onChallengeResponse Fix.C exByMail2.1 (Fix.firstData (exByMailEv2.run Fix.C Fix.S Fix.cfg Fix.st1).1) (1001 * nsPerSec)).1
def exByMail3 : Request × Res Interest :=
  genChallengeInterest Fix.C (selectOrContinueChallenge exByMailReq2 (bytes! "email")).1 [(KEY_CODE, secretCode Fix.env2.word32)] (List.replicate 8 3)
def exByMailEv3 : Event := .msg (.challenge (Fix.interestOf' exByMail3.2)) Fix.env3

/-- NEW, the email challenge, the code: one email is sent, and then one certificate is signed -/
example : Exec Fix.C Fix.S Fix.cfg (runs Fix.C Fix.S Fix.cfg Fix.st0 [Fix.ev1, exByMailEv2, exByMailEv3]).1
      (runs Fix.C Fix.S Fix.cfg Fix.st0 [Fix.ev1, exByMailEv2, exByMailEv3]).2 ∧
    (runs Fix.C Fix.S Fix.cfg Fix.st0 [Fix.ev1, exByMailEv2, exByMailEv3]).1.map (fun n => ((mailed n.effects).map (·.address), (issued n.effects).length)) =
      [([], 0), ([bytes! "eve@x.org"], 0), ([], 1)] :=
  ⟨exec_of_runs (by decide +kernel), by decide +kernel⟩

end Ndncert.Props
