import Verif.Lemmas.Mails
import Verif.Lemmas.Authentic
import Verif.Props.Email
import Verif.Props.CaExec

/-! # One email per request (C142) -/

namespace Ndncert.Props

section
variable {σ : Type} {C : Crypto} {S : StoreI σ} {Inv : σ → Prop} {cfg : CaConfig}

/-- C142: over any history, at most one email is sent for each NEW and REVOKE that was accepted, and one more for each time that the process
died while it handled a CHALLENGE and before it had replied -/
theorem C142_bounded (hC : C.Lawful) (hS : LawfulStore C S Inv) (hcfg : NameFits cfg.profile.caPrefix)
    {h : List (Step σ)} {s : CaState σ} (hx : Exec C S cfg h s) :
    (allMails h).length ≤ (h.filter Step.accepts).length + (h.filter Step.died).length := by
  obtain ⟨l, _, h1⟩ := hx.mails hC hS hcfg
  omega

/-- C142, for one request: when two steps send an email for the same request id, the process died in the first, or the request was created
again between the two -/
theorem C142_once (hC : C.Lawful) (hS : LawfulStore C S Inv) (hcfg : NameFits cfg.profile.caPrefix)
    {h : List (Step σ)} {s : CaState σ} (hx : Exec C S cfg h s) {h1 h2 h3 : List (Step σ)} {a b : Step σ} (hh : h = h1 ++ a :: (h2 ++ b :: h3))
    {id : RequestId} (ha : MailsFor C S cfg id a) (hb : MailsFor C S cfg id b) :
    a.died = true ∨ ∃ n ∈ h2, ∃ r, .dbAdd r ∈ n.effects ∧ r.requestId = id := by
  -- what a step that sends an email for the request does
  have key : ∀ {g1 g2 : List (Step σ)} {n : Step σ}, h = g1 ++ n :: g2 → MailsFor C S cfg id n →
      (∃ r, S.view n.pre.store id = some r ∧ r.status = .beforeChallenge) ∧
      (n.died = true ∨ ∃ r1, .dbUpdate r1 ∈ n.effects ∧ r1.requestId = id) := by
    rintro g1 g2 n hg ⟨hne, i, env, r, hhd, hau, rfl⟩
    obtain ⟨hpre, hwf, hpos, heff, _⟩ := hx.split _ _ _ hg
    have hi := (hpre.life hC hS hcfg).1
    obtain ⟨m, hm⟩ := List.exists_mem_of_ne_nil _ hne
    obtain ⟨i', env', r', hhd', hv, hs, _, hd⟩ := mail_step heff hpos (mem_mailed.mp hm)
    have hsame : some (Msg.challenge i', env') = some (Msg.challenge i, env) := hhd'.symm.trans hhd
    cases hsame
    have hr : r' = r := ((verified_authentic hS hi (idFits_of_wf (hwf _ _ hhd).1) (hwf _ _ hhd).2.stack).mp hv).unique hau
    subst hr
    refine ⟨⟨r', hau.pending, hs⟩, hd.imp id ?_⟩
    rintro ⟨r1, h4, h5⟩
    exact ⟨r1, (mem_dbOps (e := .dbUpdate r1) rfl).mp (by rw [h4]; exact List.mem_cons_self), h5⟩
  have hh' : h = (h1 ++ a :: h2) ++ b :: h3 := by rw [hh, List.append_assoc, List.cons_append]
  obtain ⟨_, h4 | ⟨r1, h4, rfl⟩⟩ := key hh ha
  · exact .inl h4
  · obtain ⟨⟨r, h5, h6⟩, _⟩ := key hh' hb
    right
    apply Classical.byContradiction
    intro hno
    exact started_stays hC hS hcfg (hx.split _ _ _ hh').1 rfl h4 (fun n hn r hr he => hno ⟨n, hn, r, hr, he⟩) h5 h6

end

/-! ## Histories with emails -/

def exMailed : Event := .msg (.challenge exEmail) Fix.env2

/-- a request is made and gets its email, the process restarts and loses it, and the same happens again -/
def exMailRun : List Event := [Fix.ev1, exMailed, .restart Fix.idKey, Fix.ev1, exMailed]

theorem exMailRun_ok : runsOk Fix.C Fix.S Fix.cfg Fix.st0 exMailRun = true := by decide +kernel

/-- the bound is reached: two emails, two accepted requests -/
example : Exec Fix.C Fix.S Fix.cfg (runs Fix.C Fix.S Fix.cfg Fix.st0 exMailRun).1 (runs Fix.C Fix.S Fix.cfg Fix.st0 exMailRun).2 ∧
    (allMails (runs Fix.C Fix.S Fix.cfg Fix.st0 exMailRun).1).length = 2 ∧
    ((runs Fix.C Fix.S Fix.cfg Fix.st0 exMailRun).1.filter Step.accepts).length = 2 ∧
    ((runs Fix.C Fix.S Fix.cfg Fix.st0 exMailRun).1.filter Step.died).length = 0 :=
  ⟨exec_of_runs exMailRun_ok, by decide +kernel, by decide +kernel, by decide +kernel⟩

/-- the steps of that run that send an email -/
def exMailStep (s : CaState Mem) : Step Mem := ⟨s, exMailed, (exMailed.run Fix.C Fix.S Fix.cfg s).1⟩

def exMailPre : CaState Mem :=
  (Fix.ev1.run Fix.C Fix.S Fix.cfg ((Event.restart Fix.idKey).run Fix.C Fix.S Fix.cfg (exMailed.run Fix.C Fix.S Fix.cfg Fix.st1).2).2).2

/-- both emails are for the same request id -/
example : (∃ n m m', (runs Fix.C Fix.S Fix.cfg Fix.st0 exMailRun).1 = [n] ++ exMailStep Fix.st1 :: ([m, m'] ++ exMailStep exMailPre :: [])) ∧
    MailsFor Fix.C Fix.S Fix.cfg (Fix.stored Fix.st1).requestId (exMailStep Fix.st1) ∧
    MailsFor Fix.C Fix.S Fix.cfg (Fix.stored Fix.st1).requestId (exMailStep exMailPre) :=
  ⟨⟨_, _, _, by unfold exMailRun exMailStep exMailPre Fix.st1; simp only [hist_cons, runs, List.cons_append, List.nil_append]; rfl⟩,
    ⟨fun h => absurd (congrArg List.length h) (by decide +kernel), exEmail, Fix.env2, Fix.stored Fix.st1, rfl, authenticOk_sound (by decide +kernel), rfl⟩,
    ⟨fun h => absurd (congrArg List.length h) (by decide +kernel), exEmail, Fix.env2, Fix.stored Fix.st1, rfl, authenticOk_sound (by decide +kernel), rfl⟩⟩

/-- with the SQLite storage, the process dies after it sent the email, and the requester asks again -/
def exMailAgain : List Event := [Fix.ev1, .crash (.challenge exEmail) Fix.env2 1 Fix.idKey, exMailed]

/-- why the deaths count: two emails for one accepted request -/
example : Exec Fix.C (sqlStore Fix.C) Fix.cfg (runs Fix.C (sqlStore Fix.C) Fix.cfg ⟨(sqlStore Fix.C).empty, Fix.idKey⟩ exMailAgain).1
      (runs Fix.C (sqlStore Fix.C) Fix.cfg ⟨(sqlStore Fix.C).empty, Fix.idKey⟩ exMailAgain).2 ∧
    (allMails (runs Fix.C (sqlStore Fix.C) Fix.cfg ⟨(sqlStore Fix.C).empty, Fix.idKey⟩ exMailAgain).1).length = 2 ∧
    ((runs Fix.C (sqlStore Fix.C) Fix.cfg ⟨(sqlStore Fix.C).empty, Fix.idKey⟩ exMailAgain).1.filter Step.accepts).length = 1 ∧
    ((runs Fix.C (sqlStore Fix.C) Fix.cfg ⟨(sqlStore Fix.C).empty, Fix.idKey⟩ exMailAgain).1.filter Step.died).length = 1 :=
  ⟨exec_of_runs (by decide +kernel), by decide +kernel, by decide +kernel, by decide +kernel⟩

end Ndncert.Props
