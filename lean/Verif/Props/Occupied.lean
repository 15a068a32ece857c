import Verif.Lemmas.Occupied
import Verif.Lemmas.Pending
import Verif.Props.CaNew
import Verif.Props.CaHistory

/-! # C116, C117, C118: who can make a request pending, how often, and for how long -/

namespace Ndncert.Props

open Ndncert

variable {σ : Type} {C : Crypto} {S : StoreI σ} {Inv : σ → Prop} {cfg : CaConfig}

/-- none of these steps is a restart or a crash of the CA process -/
def SameProcess (h : List (Step σ)) : Prop := ∀ x ∈ h, ∃ msg env, x.event = .msg msg env

/-- all checks but the last, that nothing is pending for the certificate, are passed -/
def PassesChecks (C : Crypto) (S : StoreI σ) (cfg : CaConfig) (s : CaState σ) (ty : RequestType) (i : Interest) (env : Env) : Prop :=
  ∀ q ∈ (acceptanceChecks C S cfg s.idKey s.store ty i env).dropLast, q.1

theorem passes_iff {s : CaState σ} {ty : RequestType} {i : Interest} {env : Env} :
    (∀ q ∈ acceptanceChecks C S cfg s.idKey s.store ty i env, q.1) ↔ PassesChecks C S cfg s ty i env ∧
      ∃ pub cert, Submits C ty i pub cert ∧ S.view s.store (idFor C s.idKey cert.name) = none := by
  unfold PassesChecks acceptanceChecks
  rw [List.dropLast_append_of_ne_nil (by simp)]
  simp only [List.dropLast_singleton, List.append_nil, List.mem_append, List.mem_singleton]
  constructor
  · intro h
    exact ⟨fun q hq => h q (.inl hq), h (_, _) (.inr rfl)⟩
  · rintro ⟨h1, h2⟩ q (hq | rfl)
    · exact h1 q hq
    · exact h2

/-- these checks do not depend on what is stored -/
theorem passes_any {s s' : CaState σ} {ty : RequestType} {i : Interest} {env : Env} (h : PassesChecks C S cfg s ty i env) :
    PassesChecks C S cfg s' ty i env := by
  unfold PassesChecks acceptanceChecks at h ⊢
  rw [List.dropLast_append_of_ne_nil (by simp)] at h ⊢
  exact h

/-- an addition is among the effects -/
def adds (o : Outcome) : Bool := o.effects.any (fun e => match e with | .dbAdd _ => true | _ => false)

/-- the removal of this request is among the effects -/
def removes (es : List Effect) (id : RequestId) : Bool := es.any (fun e => match e with | .dbDelete id' => decide (id' = id) | _ => false)

theorem accepted_iff {o : Outcome} : Accepted o ↔ adds o = true := by
  unfold Accepted adds
  rw [List.any_eq_true]
  constructor
  · rintro ⟨r, h⟩; exact ⟨_, h, rfl⟩
  · rintro ⟨e, h, he⟩
    cases e with
    | dbAdd r => exact ⟨r, h⟩
    | _ => cases he

/-! ## C116 -/

/-- a REVOKE that passes all checks is accepted unless a request for the same certificate was made with its key -/
def HolderNotBlocked (C : Crypto) (S : StoreI σ) (cfg : CaConfig) : Prop :=
  ∀ h s, Exec C S cfg h s → ∀ i env pub cert, Submits C .revoke i pub cert → PassesChecks C S cfg s .revoke i env →
    (∀ n ∈ h, ∀ i0 env0 r0, AcceptsNew n i0 env0 r0 ∨ AcceptsRevoke n i0 env0 r0 → r0.cert.name = cert.name → C.verifyInterest i0 r0.cert = false) →
    Accepted (onNewRenewRevoke C S cfg s.idKey s.store .revoke i env)

/-- **C116** Anybody who has a certificate that the CA issued can keep its holder from revoking it: a REVOKE Interest with the certificate and any ECDH key,
signed or not, is accepted whenever that of the holder would be; and as long as the request made by it is not removed and the process is not restarted, no
REVOKE or NEW with a certificate of that name is accepted. -/
theorem C116_anyone (hC : C.Lawful) (hS : LawfulStore C S Inv) (hcfg : NameFits cfg.profile.caPrefix) {h : List (Step σ)} {s : CaState σ}
    (hx : Exec C S cfg h s) {i j : Interest} {env : Env} {pub pub' : Bytes} {cert : Cert}
    (hi : Submits C .revoke i pub cert) (hok : Accepted (onNewRenewRevoke C S cfg s.idKey s.store .revoke i env))
    (hj : Submits C .revoke j pub' cert) (hpub : pub' ≠ []) (hder : C.ecdhDerive env.ecdhPriv pub' ≠ none) :
    Accepted (onNewRenewRevoke C S cfg s.idKey s.store .revoke j env) ∧
    ∀ h1 n h2 s', Exec C S cfg (h1 ++ n :: h2) s' → n.event = .msg (.revoke j) env → n.pre = s → SameProcess h2 →
      (∀ x ∈ h2, .dbDelete (idFor C s.idKey cert.name) ∉ x.effects) →
      ∀ ty i' env' pub'' cert', ty = .new ∨ ty = .revoke → Submits C ty i' pub'' cert' → cert'.name = cert.name →
        ¬ Accepted (onNewRenewRevoke C S cfg s'.idKey s'.store ty i' env') := by
  have hinv := (hx.life hC hS hcfg).1
  have hall := (C21_accepted_iff_policy C S cfg s.idKey s.store i env hC hS hinv hcfg (.inr rfl)).mp hok
  have hacc : Accepted (onNewRenewRevoke C S cfg s.idKey s.store .revoke j env) := by
    rw [C21_accepted_iff_policy C S cfg s.idKey s.store j env hC hS hinv hcfg (.inr rfl)]
    simp only [acceptanceChecks, List.cons_append, List.nil_append, List.mem_cons, List.not_mem_nil, or_false, forall_eq_or_imp, forall_eq] at hall ⊢
    obtain ⟨a1, _, _, _, a5, a6, a7⟩ := hall
    have key : ∀ P : Cert → Prop, (∃ pub cert, Submits C .revoke i pub cert ∧ P cert) → P cert := by
      rintro P ⟨p, c, h1, h2⟩
      unfold Submits at h1 hi
      rw [hi] at h1
      injection h1 with h1
      injection h1 with _ h1
      rw [h1]; exact h2
    exact ⟨a1, ⟨_, _, hj⟩, ⟨_, _, hj, hpub⟩, ⟨_, _, hj, hder⟩, ⟨_, _, hj, key _ a5⟩, ⟨_, _, hj, key _ a6⟩, ⟨_, _, hj, key _ a7⟩⟩
  refine ⟨hacc, ?_⟩
  intro h1 n h2 s' hx' hev hpre hproc hdel ty i' env' pub'' cert' hty hi' hname
  obtain ⟨_, _, _, heff, _⟩ := hx'.split _ _ _ rfl
  obtain ⟨r, hr⟩ := hacc
  have hrn : .dbAdd r ∈ n.effects := by rw [heff, hev, hpre]; exact hr
  obtain ⟨pub0, secret, st', b1, _, _, _, _, _, _, b8, _⟩ := added_case C S cfg _ _ j env (.inr rfl) hr
  have hcert : r.cert = cert := by
    unfold Submits at b1 hj
    rw [hj] at b1
    injection b1 with b1
    injection b1 with _ b1
    exact b1.symm
  have hid : r.requestId = idFor C s.idKey cert.name := by rw [← hcert, b8]; rfl
  have hall : ∀ x ∈ n :: h2, ∃ msg env, x.event = .msg msg env := by
    intro x hx
    rcases List.mem_cons.mp hx with rfl | hx
    · exact ⟨_, _, hev⟩
    · exact hproc x hx
  exact (C25_duplicate_refused hC hS hcfg hx' rfl hrn hall (hx'.keeps hC hS hcfg rfl hall hrn (by rw [hid]; exact hdel)) hty hi' (by rw [hcert, hname])).1

/-- **C116** What a REVOKE leads to does not depend on whether and how the Interest is signed. -/
theorem C116_signature_ignored (s : CaState σ) (i : Interest) (sig : Bytes) (env : Env) :
    handle C S cfg s (.revoke { i with sig := sig }) env = handle C S cfg s (.revoke i) env :=
  revoke_unsigned C S cfg s.idKey s.store i sig env

/-- **C116**, the part that holds: an application that passes all checks is refused only if a request with its id is pending. That request was accepted
before and not removed since; if it was made by NEW, the Interest was signed with the key of the certificate in it.
Missing: the same if it was made by REVOKE, see `C116_false`. -/
theorem C116_reason_partial (hC : C.Lawful) (hS : LawfulStore C S Inv) (hcfg : NameFits cfg.profile.caPrefix) {h : List (Step σ)} {s : CaState σ}
    (hx : Exec C S cfg h s) {ty : RequestType} (hty : ty = .new ∨ ty = .revoke) {i : Interest} {env : Env} {pub : Bytes} {cert : Cert}
    (hi : Submits C ty i pub cert) (hp : PassesChecks C S cfg s ty i env) (hn : ¬ Accepted (onNewRenewRevoke C S cfg s.idKey s.store ty i env)) :
    ∃ h1 n h2 i0 env0 r0, h = h1 ++ n :: h2 ∧ (AcceptsNew n i0 env0 r0 ∧ C.verifyInterest i0 r0.cert = true ∨ AcceptsRevoke n i0 env0 r0) ∧
      r0.requestId = idFor C s.idKey cert.name ∧ Kept r0.requestId h2 := by
  have hinv := (hx.life hC hS hcfg).1
  rw [C21_accepted_iff_policy C S cfg s.idKey s.store i env hC hS hinv hcfg hty, passes_iff] at hn
  cases hv : S.view s.store (idFor C s.idKey cert.name) with
  | none => exact absurd ⟨hp, _, _, hi, hv⟩ hn
  | some r =>
    have hrid := hS.get_id _ _ _ hinv hv
    obtain ⟨h1, n, h2, ty0, i0, env0, r0, hh, ha, hs, hk, _⟩ := hx.pending hC hS hcfg hv
    have hid0 : r0.requestId = r.requestId := hs.1
    refine ⟨h1, n, h2, i0, env0, r0, hh, ?_, by rw [hid0, hrid], by rw [hid0]; exact hk⟩
    obtain ⟨m, hm, hreq⟩ := ha.event
    cases m with
    | new i' => cases hreq; exact .inl ⟨⟨hm, ha.effect⟩, (ha.new rfl).2.2⟩
    | revoke i' => cases hreq; exact .inr ⟨hm, ha.effect⟩
    | probe i' => cases hreq
    | challenge i' => cases hreq

/-- a REVOKE Interest of somebody else for the certificate of the example, not signed -/
def exForeignRevoke : Interest := { Fix.revInterest with sig := [] }

def exForeignRun : List Event := [.msg (.revoke exForeignRevoke) Fix.env1]

theorem exForeignRun_ok : runsOk Fix.C Fix.S Fix.cfg ⟨Fix.S.empty, Fix.idKey⟩ exForeignRun = true := by decide +kernel

/-- the certificate added does not verify the Interest -/
def notSigned (C : Crypto) (i : Interest) : Effect → Bool
  | .dbAdd r => !C.verifyInterest i r.cert
  | _ => true

theorem exForeignRun_unsigned :
    (((Event.msg (.revoke exForeignRevoke) Fix.env1).run Fix.C Fix.S Fix.cfg ⟨Fix.S.empty, Fix.idKey⟩).1.all (notSigned Fix.C exForeignRevoke)) = true := by
  decide +kernel

/-- the hypotheses of `C116_anyone` hold for the holder's REVOKE and the one of somebody else, at the start -/
example : ∃ pub cert, Submits Fix.C .revoke Fix.revInterest pub cert ∧
    Accepted (onNewRenewRevoke Fix.C Fix.S Fix.cfg Fix.idKey Fix.S.empty .revoke Fix.revInterest Fix.env1) ∧
    Submits Fix.C .revoke exForeignRevoke pub cert ∧ pub ≠ [] ∧ Fix.C.ecdhDerive Fix.env1.ecdhPriv pub ≠ none := by
  have hfree : Accepted (onNewRenewRevoke Fix.C Fix.S Fix.cfg Fix.idKey Fix.S.empty .revoke Fix.revInterest Fix.env1) :=
    accepted_iff.mpr (by decide +kernel)
  obtain ⟨r, hr⟩ := hfree
  obtain ⟨pub, secret, _, h1, _, h3, h4, _⟩ := added_case _ _ _ _ _ _ _ (.inr rfl) hr
  exact ⟨pub, r.cert, h1, ⟨r, hr⟩, h1, h3, by rw [h4]; simp⟩

/-- and there is a history in which that REVOKE came first and the request was kept: the conclusion is not empty -/
example : ∃ n s', Exec Fix.C Fix.S Fix.cfg ([] ++ n :: []) s' ∧ n.event = .msg (.revoke exForeignRevoke) Fix.env1 ∧ n.pre = ⟨Fix.S.empty, Fix.idKey⟩ :=
  ⟨_, _, exec_of_runs exForeignRun_ok, rfl, rfl⟩

/-- the holder's REVOKE, after that of somebody else, passes all checks but is refused: the hypotheses of `C116_reason_partial` hold -/
theorem exBlocked : ∃ pub cert, Submits Fix.C .revoke Fix.revInterest pub cert ∧
    PassesChecks Fix.C Fix.S Fix.cfg (runs Fix.C Fix.S Fix.cfg ⟨Fix.S.empty, Fix.idKey⟩ exForeignRun).2 .revoke Fix.revInterest Fix.env2 ∧
    ¬ Accepted (onNewRenewRevoke Fix.C Fix.S Fix.cfg (runs Fix.C Fix.S Fix.cfg ⟨Fix.S.empty, Fix.idKey⟩ exForeignRun).2.idKey
      (runs Fix.C Fix.S Fix.cfg ⟨Fix.S.empty, Fix.idKey⟩ exForeignRun).2.store .revoke Fix.revInterest Fix.env2) := by
  have hfree : Accepted (onNewRenewRevoke Fix.C Fix.S Fix.cfg Fix.idKey Fix.S.empty .revoke Fix.revInterest Fix.env2) :=
    accepted_iff.mpr (by decide +kernel)
  obtain ⟨hp, pub, cert, hs, _⟩ := passes_iff (s := ⟨Fix.S.empty, Fix.idKey⟩).mp
    ((C21_accepted_iff_policy Fix.C Fix.S Fix.cfg _ _ _ _ Toy.lawful (memStore_lawful Fix.C) (memStore_lawful Fix.C).empty_inv Fix.cfg_fits (.inr rfl)).mp hfree)
  exact ⟨pub, cert, hs, passes_any hp, fun ha => absurd (accepted_iff.mp ha) (by decide +kernel)⟩

/-- **C116** is false: after the unsigned REVOKE of somebody else, the holder's REVOKE is refused. -/
theorem C116_false : ¬ HolderNotBlocked Fix.C Fix.S Fix.cfg := by
  intro h
  obtain ⟨pub, cert, hs, hp, hno⟩ := exBlocked
  refine hno (h _ _ (exec_of_runs exForeignRun_ok) Fix.revInterest Fix.env2 pub cert hs hp ?_)
  intro n hn i0 env0 r0 ha _
  simp only [exForeignRun, runs, List.mem_singleton] at hn
  subst hn
  have hm : (Event.msg (.revoke exForeignRevoke) Fix.env1).msg? = some (.revoke i0, env0) := by
    rcases ha with ha | ha
    · cases ha.1
    · exact ha.1
  injection hm with hm
  injection hm with hm _
  injection hm with hm
  subst hm
  have hr : .dbAdd r0 ∈ ((Event.msg (.revoke exForeignRevoke) Fix.env1).run Fix.C Fix.S Fix.cfg ⟨Fix.S.empty, Fix.idKey⟩).1 := by
    rcases ha with ha | ha <;> exact ha.2
  simpa [notSigned] using List.all_eq_true.mp exForeignRun_unsigned _ hr

/-! ## C117 -/

/-- no NEW Interest is accepted twice -/
def AcceptedOnce (C : Crypto) (S : StoreI σ) (cfg : CaConfig) : Prop :=
  ∀ h s, Exec C S cfg h s → ∀ n ∈ h, ∀ i env r, AcceptsNew n i env r → ∀ env', ¬ Accepted (onNewRenewRevoke C S cfg s.idKey s.store .new i env')

/-- **C117**, the part that holds: a process that has accepted an application accepts one with a certificate of the same name again only after it has removed
the request. Missing: later, and after a restart, see `C117_again` and `C117_false`. -/
theorem C117_removed_partial (hC : C.Lawful) (hS : LawfulStore C S Inv) (hcfg : NameFits cfg.profile.caPrefix) {h h1 h2 : List (Step σ)} {n : Step σ}
    {s : CaState σ} (hx : Exec C S cfg h s) (hh : h = h1 ++ n :: h2) (hproc : SameProcess (n :: h2)) {r : RequestState} (hadd : .dbAdd r ∈ n.effects)
    {ty : RequestType} (hty : ty = .new ∨ ty = .revoke) {i : Interest} {env : Env} {pub : Bytes} {cert : Cert} (hi : Submits C ty i pub cert)
    (hname : cert.name = r.cert.name) (hacc : Accepted (onNewRenewRevoke C S cfg s.idKey s.store ty i env)) :
    ∃ x ∈ h2, .dbDelete r.requestId ∈ x.effects := by
  cases Classical.em (∃ x ∈ h2, .dbDelete r.requestId ∈ x.effects) with
  | inl h => exact h
  | inr hno =>
    have hdel : ∀ x ∈ h2, .dbDelete r.requestId ∉ x.effects := fun x hx hd => hno ⟨x, hx, hd⟩
    exact absurd hacc (C25_duplicate_refused hC hS hcfg hx hh hadd hproc (hx.keeps hC hS hcfg hh hproc hadd hdel) hty hi hname).1

/-- **C117** The signature of a NEW Interest never grows old: an Interest that was accepted once is accepted, by whomever it is sent, whenever no request with
the id of its certificate is pending, as long as the period it asks for is still admissible and the CA's certificate is valid. -/
theorem C117_again (hC : C.Lawful) (hS : LawfulStore C S Inv) (hcfg : NameFits cfg.profile.caPrefix) {h : List (Step σ)} {s : CaState σ}
    (hx : Exec C S cfg h s) {n : Step σ} (hn : n ∈ h) {i : Interest} {env : Env} {r : RequestState} (ha : AcceptsNew n i env r) {env' : Env}
    (hca : CaCertValid env') (hval : ValidityPolicy cfg.profile r.cert env'.now)
    (hder : ∀ pub, C.ecdhDerive env.ecdhPriv pub ≠ none → C.ecdhDerive env'.ecdhPriv pub ≠ none) :
    Accepted (onNewRenewRevoke C S cfg s.idKey s.store .new i env') ↔ S.view s.store (idFor C s.idKey r.cert.name) = none := by
  have hinv := (hx.life hC hS hcfg).1
  obtain ⟨h1, h2, hh⟩ := List.append_of_mem hn
  obtain ⟨hx1, _, _, heff, _⟩ := hx.split _ _ _ hh
  have hadd : .dbAdd r ∈ (onNewRenewRevoke C S cfg n.pre.idKey n.pre.store .new i env).effects := by
    have he := ha.1
    have hd := ha.2
    unfold Step.Handles at he
    rw [heff] at hd
    cases hev : n.event with
    | msg m e => rw [hev] at he hd; cases he; exact hd
    | crash m e k key => rw [hev] at he hd; cases he; exact List.mem_of_mem_take hd
    | restart key => rw [hev] at he; cases he
  have hinv1 := (hx1.life hC hS hcfg).1
  have hall := (C21_accepted_iff_policy C S cfg n.pre.idKey n.pre.store i env hC hS hinv1 hcfg (.inl rfl)).mp ⟨r, hadd⟩
  obtain ⟨pub0, secret, st', b1, _⟩ := added_case C S cfg _ _ i env (.inl rfl) hadd
  have key : ∀ P : Bytes → Cert → Prop, (∃ pub cert, Submits C .new i pub cert ∧ P pub cert) → P pub0 r.cert := by
    rintro P ⟨p, c, h1, h2⟩
    unfold Submits at h1 b1
    rw [b1] at h1
    injection h1 with h1
    injection h1 with h1 h3
    rw [h1, h3]; exact h2
  rw [C21_accepted_iff_policy C S cfg s.idKey s.store i env' hC hS hinv hcfg (.inl rfl)]
  simp only [acceptanceChecks, List.cons_append, List.nil_append, List.mem_cons, List.not_mem_nil, or_false, forall_eq_or_imp, forall_eq] at hall ⊢
  obtain ⟨_, _, a3, a4, a5, _, a7, a8, _⟩ := hall
  constructor
  · rintro ⟨_, _, _, _, _, _, _, _, h9⟩
    exact key (fun _ c => S.view s.store (idFor C s.idKey c.name) = none) h9
  · intro hv
    exact ⟨hca, ⟨_, _, b1⟩, ⟨_, _, b1, key (fun p _ => p ≠ []) a3⟩, ⟨_, _, b1, hder _ (key (fun p _ => C.ecdhDerive env.ecdhPriv p ≠ none) a4)⟩,
      ⟨_, _, b1, key (fun _ c => NamePolicy cfg.profile c) a5⟩, ⟨_, _, b1, hval⟩, ⟨_, _, b1, key (fun _ c => C.verifyCert c c = true) a7⟩,
      ⟨_, _, b1, key (fun _ c => C.verifyInterest i c = true) a8⟩, ⟨_, _, b1, hv⟩⟩

/-- in the run with the pin challenge the NEW Interest is accepted, and the certificate issued; then the same Interest is accepted again -/
theorem exReplay : Accepted (onNewRenewRevoke Fix.C Fix.S Fix.cfg (runs Fix.C Fix.S Fix.cfg Fix.st0 Fix.pinRun).2.idKey
    (runs Fix.C Fix.S Fix.cfg Fix.st0 Fix.pinRun).2.store .new Fix.newInterest (Fix.env 1004)) :=
  accepted_iff.mpr (by decide +kernel)

/-- the step in which it was accepted first -/
def exFirst : Step Mem := ⟨Fix.st0, Fix.ev1, (Fix.ev1.run Fix.C Fix.S Fix.cfg Fix.st0).1⟩

theorem exFirst_adds : adds ⟨exFirst.effects, .done⟩ = true := by decide +kernel

theorem exFirst_accepts : ∃ r, AcceptsNew exFirst Fix.newInterest Fix.env1 r := by
  obtain ⟨r, hr⟩ := accepted_iff.mpr exFirst_adds
  exact ⟨r, rfl, hr⟩

theorem exFirst_mem : exFirst ∈ Fix.pinHist := by
  simp only [Fix.pinHist, Fix.pinRun, runs]
  exact List.mem_cons_self ..

/-- **C117** is false: once the certificate is issued, the Interest is accepted again. -/
theorem C117_false : ¬ AcceptedOnce Fix.C Fix.S Fix.cfg := by
  intro h
  obtain ⟨r, hr⟩ := exFirst_accepts
  exact h _ _ Fix.pinExec exFirst exFirst_mem _ _ r hr _ exReplay

/-- the hypotheses of `C117_removed_partial` hold in that run -/
example : ∃ h1 n h2 r pub cert, Fix.pinHist = h1 ++ n :: h2 ∧ SameProcess (n :: h2) ∧ .dbAdd r ∈ n.effects ∧
    Submits Fix.C .new Fix.newInterest pub cert ∧ cert.name = r.cert.name := by
  obtain ⟨r, hr⟩ := exFirst_accepts
  obtain ⟨pub, _, _, h1, _⟩ := added_case Fix.C Fix.S Fix.cfg Fix.st0.idKey Fix.st0.store Fix.newInterest Fix.env1 (.inl rfl) (r := r) hr.2
  refine ⟨[], exFirst, (runs Fix.C Fix.S Fix.cfg (Fix.ev1.run Fix.C Fix.S Fix.cfg Fix.st0).2 [Fix.ev2, Fix.ev3, Fix.ev4]).1, r, pub, r.cert,
    by simp only [Fix.pinHist, Fix.pinRun, runs, exFirst, List.nil_append], ?_, hr.2, h1, rfl⟩
  intro x hx
  simp only [runs, List.mem_cons, List.not_mem_nil, or_false] at hx
  rcases hx with rfl | rfl | rfl | rfl <;> exact ⟨_, _, rfl⟩

/-- and those of `C117_again`, with the Interest sent again a second after the certificate was issued -/
example : ∃ n ∈ Fix.pinHist, ∃ r, AcceptsNew n Fix.newInterest Fix.env1 r ∧ CaCertValid (Fix.env 1004) ∧
    ValidityPolicy Fix.cfg.profile r.cert (Fix.env 1004).now ∧
    (∀ pub, Fix.C.ecdhDerive Fix.env1.ecdhPriv pub ≠ none → Fix.C.ecdhDerive (Fix.env 1004).ecdhPriv pub ≠ none) := by
  obtain ⟨r, hr⟩ := exFirst_accepts
  obtain ⟨pub, _, _, h1, _⟩ := added_case Fix.C Fix.S Fix.cfg Fix.st0.idKey Fix.st0.store Fix.newInterest Fix.env1 (.inl rfl) (r := r) hr.2
  obtain ⟨r', hr'⟩ := exReplay
  obtain ⟨pub', _, _, g1, g2, _, _, _, g6, _⟩ := added_case _ _ _ _ _ _ _ (.inl rfl) hr'
  have : r'.cert = r.cert := by
    unfold Submits at g1 h1
    rw [h1] at g1
    injection g1 with g1
    injection g1 with _ g1
    exact g1.symm
  exact ⟨_, exFirst_mem, r, hr, g2, by rw [← this]; exact (g6 rfl).1, fun _ h => h⟩

/-! ## C118 -/

/-- none of these steps handled a CHALLENGE that names the request with this id and is signed with its key -/
def GivenUp (C : Crypto) (S : StoreI σ) (cfg : CaConfig) (id : RequestId) (h : List (Step σ)) : Prop :=
  ∀ x ∈ h, ∀ i env r, x.Handles (.challenge i) env → r.requestId = id → ¬ Authentic C S cfg x.pre.store i env r

/-- a request that was given up for this time does not keep an application that passes all checks from being accepted -/
def MakesWay (C : Crypto) (S : StoreI σ) (cfg : CaConfig) (limit : Time) : Prop :=
  ∀ h1 n h2 s, Exec C S cfg (h1 ++ n :: h2) s → ∀ i0 env0 r, AcceptsNew n i0 env0 r ∨ AcceptsRevoke n i0 env0 r → GivenUp C S cfg r.requestId h2 →
    ∀ ty i env pub cert, ty = .new ∨ ty = .revoke → Submits C ty i pub cert → cert.name = r.cert.name → PassesChecks C S cfg s ty i env →
      env0.now + limit ≤ env.now → Accepted (onNewRenewRevoke C S cfg s.idKey s.store ty i env)

/-- a request is removed only by a CHALLENGE signed with its key -/
theorem removed_by (hC : C.Lawful) (hS : LawfulStore C S Inv) (hcfg : NameFits cfg.profile.caPrefix) {h h1 h2 : List (Step σ)} {n : Step σ}
    {s : CaState σ} (hx : Exec C S cfg h s) (hh : h = h1 ++ n :: h2) {id : RequestId} (hd : .dbDelete id ∈ n.effects) :
    ∃ i env r, n.Handles (.challenge i) env ∧ r.requestId = id ∧ Authentic C S cfg n.pre.store i env r := by
  obtain ⟨hx1, hwf, _, heff, _⟩ := hx.split _ _ _ hh
  have hinv := (hx1.life hC hS hcfg).1
  obtain ⟨_, hvc⟩ := step_view hC hS hcfg hinv hwf heff
  have hmem := (mem_dbOps (e := .dbDelete id) rfl).mpr hd
  cases hvc with
  | same h0 h => rw [h0] at hmem; cases hmem
  | added ty i env r' hd ha h0 h => rw [hd, List.mem_singleton] at hmem; cases hmem
  | updated i env k es out r0 r1 r hd hu h0 hs h => rw [hd, List.mem_singleton] at hmem; cases hmem
  | deleted i env r hd' he hv' h0 h =>
    rw [hd', List.mem_singleton, Effect.dbDelete.injEq] at hmem
    obtain ⟨hm, hen⟩ := hwf _ _ he
    exact ⟨i, env, r, he, hmem.symm, (verified_authentic hS hinv (idFits_of_wf hm) hen.stack).mp hv'⟩

/-- **C118** A request that was given up stays as long as the process runs, and nothing with a certificate of its name is accepted, however much time has
passed: there is no lifetime of requests. -/
theorem C118_stays (hC : C.Lawful) (hS : LawfulStore C S Inv) (hcfg : NameFits cfg.profile.caPrefix) {h1 h2 : List (Step σ)} {n : Step σ}
    {s : CaState σ} (hx : Exec C S cfg (h1 ++ n :: h2) s) (hproc : SameProcess (n :: h2)) {r : RequestState} (hadd : .dbAdd r ∈ n.effects)
    (hg : GivenUp C S cfg r.requestId h2) :
    S.view s.store r.requestId ≠ none ∧
    ∀ ty i env pub cert, ty = .new ∨ ty = .revoke → Submits C ty i pub cert → cert.name = r.cert.name →
      ¬ Accepted (onNewRenewRevoke C S cfg s.idKey s.store ty i env) := by
  have hdel : ∀ x ∈ h2, .dbDelete r.requestId ∉ x.effects := by
    intro x hxm hd
    obtain ⟨a, b, rfl⟩ := List.append_of_mem hxm
    obtain ⟨i, env, r', he, hid, ha⟩ := removed_by hC hS hcfg (h1 := h1 ++ n :: a) (h2 := b) hx (by simp) hd
    exact hg x hxm i env r' he hid ha
  have hp := hx.keeps hC hS hcfg rfl hproc hadd hdel
  exact ⟨hp, fun ty i env pub cert hty hi hname => (C25_duplicate_refused hC hS hcfg hx rfl hadd hproc hp hty hi hname).1⟩

/-- **C118**, the part that holds: once the request was removed and until another one with its id is accepted, every application with a certificate
of that name that passes the checks is accepted. Missing: requests that were not removed, see `C118_stays`. -/
theorem C118_removed_partial (hC : C.Lawful) (hS : LawfulStore C S Inv) (hcfg : NameFits cfg.profile.caPrefix) {h1 h2 : List (Step σ)} {n : Step σ}
    {s : CaState σ} (hx : Exec C S cfg (h1 ++ n :: h2) s) {ty : RequestType} {i : Interest} {env : Env} {pub : Bytes} {cert : Cert}
    (hd : .dbDelete (idFor C s.idKey cert.name) ∈ n.effects)
    (hno : ∀ x ∈ h2, ∀ r, .dbAdd r ∈ x.effects → r.requestId ≠ idFor C s.idKey cert.name)
    (hty : ty = .new ∨ ty = .revoke) (hi : Submits C ty i pub cert) (hp : PassesChecks C S cfg s ty i env) :
    Accepted (onNewRenewRevoke C S cfg s.idKey s.store ty i env) := by
  have hinv := (hx.life hC hS hcfg).1
  rw [C21_accepted_iff_policy C S cfg s.idKey s.store i env hC hS hinv hcfg hty, passes_iff]
  refine ⟨hp, pub, cert, hi, ?_⟩
  cases hv : S.view s.store (idFor C s.idKey cert.name) with
  | none => rfl
  | some r =>
    exfalso
    have hrid := hS.get_id _ _ _ hinv hv
    obtain ⟨a, m, b, ty0, i0, env0, r0, hh, ha, hs, hk, _⟩ := hx.pending hC hS hcfg hv
    have hid0 : r0.requestId = idFor C s.idKey cert.name := by rw [← hrid]; exact hs.1
    rw [hrid] at hk
    have hnm : .dbAdd r0 ∈ n.effects → r0.requestId = idFor C s.idKey cert.name → False := by
      intro hadd _
      obtain ⟨i', env', _, he, _⟩ := removed_by hC hS hcfg hx rfl hd
      obtain ⟨hx1, hwf, _, heff, _⟩ := hx.split _ _ _ rfl
      obtain ⟨_, hvc⟩ := step_view hC hS hcfg (hx1.life hC hS hcfg).1 hwf heff
      have h1 := (mem_dbOps (e := .dbDelete (idFor C s.idKey cert.name)) rfl).mpr hd
      have h2 := (mem_dbOps (e := .dbAdd r0) rfl).mpr hadd
      cases hvc with
      | same h0 h => rw [h0] at h1; cases h1
      | added ty i env r' hd ha h0 h => rw [hd, List.mem_singleton] at h1; cases h1
      | updated i env k es out r0 r1 r hd hu h0 hs h => rw [hd, List.mem_singleton] at h1; cases h1
      | deleted i env r hd' he hv' h0 h => rw [hd', List.mem_singleton] at h2; cases h2
    rcases List.append_eq_append_iff.mp hh with ⟨c, hc1, hc2⟩ | ⟨c, hc1, hc2⟩
    · -- `m` comes at `n` or later
      cases c with
      | nil =>
        simp only [List.nil_append, List.cons.injEq] at hc2
        obtain ⟨rfl, _⟩ := hc2
        exact hnm ha.effect hid0
      | cons y c =>
        simp only [List.cons_append, List.cons.injEq] at hc2
        obtain ⟨rfl, rfl⟩ := hc2
        exact hno m (by simp) r0 ha.effect hid0
    · cases c with
      | nil =>
        simp only [List.nil_append, List.cons.injEq] at hc2
        obtain ⟨rfl, _⟩ := hc2
        exact hnm ha.effect hid0
      | cons y c =>
        simp only [List.cons_append, List.cons.injEq] at hc2
        obtain ⟨rfl, rfl⟩ := hc2
        exact (hk n (by simp)).1 hd

/-- these surroundings at a later time, the CA's certificate having been renewed to be valid until then -/
def exLater (limit : Time) : Env :=
  let t := Fix.env1.now + max limit 0
  { Fix.env1 with now := t, nowCa := t, nowStore := t, caCert := { Fix.caCert with validity := some ((0 : Time), t) } }

theorem exGiven_ok : runsOk Fix.C Fix.S Fix.cfg ⟨Fix.S.empty, Fix.idKey⟩ [Fix.rev1] = true := by decide +kernel

/-- the step in which the holder's REVOKE is accepted -/
def exGiven : Step Mem := ⟨Fix.st0, Fix.rev1, (Fix.rev1.run Fix.C Fix.S Fix.cfg Fix.st0).1⟩

theorem exGiven_accepts : ∃ r, AcceptsRevoke exGiven Fix.revInterest Fix.env1 r := by
  obtain ⟨r, hr⟩ := accepted_iff.mpr (show adds ⟨exGiven.effects, .done⟩ = true by decide +kernel)
  exact ⟨r, rfl, hr⟩

theorem exGiven_exec : Exec Fix.C Fix.S Fix.cfg ([] ++ exGiven :: []) (Fix.rev1.run Fix.C Fix.S Fix.cfg Fix.st0).2 := exec_of_runs exGiven_ok

/-- the holder's REVOKE passes the checks at any later time, if the CA renews its certificate -/
theorem exLater_passes (s : CaState Mem) (limit : Time) : PassesChecks Fix.C Fix.S Fix.cfg s .revoke Fix.revInterest (exLater limit) := by
  obtain ⟨r, hr⟩ := exGiven_accepts
  have hp := (passes_iff (s := Fix.st0).mp
    ((C21_accepted_iff_policy Fix.C Fix.S Fix.cfg _ _ _ _ Toy.lawful (memStore_lawful Fix.C) (memStore_lawful Fix.C).empty_inv Fix.cfg_fits (.inr rfl)).mp ⟨r, hr.2⟩)).1
  unfold PassesChecks acceptanceChecks at hp ⊢
  rw [List.dropLast_append_of_ne_nil (by simp)] at hp ⊢
  simp only [List.dropLast_singleton, List.append_nil, List.cons_append, List.nil_append, List.mem_cons, List.not_mem_nil, or_false, forall_eq_or_imp, forall_eq] at hp ⊢
  refine ⟨⟨0, Fix.env1.now + max limit 0, rfl, ?_⟩, hp.2⟩
  have : (0 : Int) ≤ Fix.env1.now := by decide
  have h2 : (0 : Int) ≤ max limit 0 := Int.le_max_right ..
  exact ⟨Int.add_nonneg this h2, Int.le_refl _⟩

/-- **C118** is false, whatever the time limit: the holder's own REVOKE, given up after the first message, keeps them from starting again. -/
theorem C118_false (limit : Time) : ¬ MakesWay Fix.C Fix.S Fix.cfg limit := by
  intro h
  obtain ⟨r, hr⟩ := exGiven_accepts
  obtain ⟨pub, _, _, h1, _⟩ := added_case Fix.C Fix.S Fix.cfg Fix.st0.idKey Fix.st0.store Fix.revInterest Fix.env1 (.inr rfl) (r := r) hr.2
  have hg : GivenUp Fix.C Fix.S Fix.cfg r.requestId ([] : List (Step Mem)) := fun x hx => by cases hx
  refine (C118_stays Toy.lawful (memStore_lawful Fix.C) Fix.cfg_fits exGiven_exec ?_ hr.2 hg).2 .revoke Fix.revInterest (exLater limit) pub r.cert (.inr rfl) h1 rfl
    (h _ _ _ _ exGiven_exec _ _ r (.inr hr) hg .revoke Fix.revInterest (exLater limit) pub r.cert (.inr rfl) h1 rfl (exLater_passes _ limit)
      (Int.add_le_add_left (Int.le_max_left ..) _))
  intro x hx
  rw [List.mem_singleton] at hx
  subst hx
  exact ⟨_, _, rfl⟩

/-- the last step of that run -/
def exRemoving : Step Mem :=
  ⟨(runs Fix.C Fix.S Fix.cfg Fix.st0 [Fix.ev1, Fix.ev2, Fix.ev3]).2, Fix.ev4,
    (Fix.ev4.run Fix.C Fix.S Fix.cfg (runs Fix.C Fix.S Fix.cfg Fix.st0 [Fix.ev1, Fix.ev2, Fix.ev3]).2).1⟩

/-- the hypotheses of `C118_removed_partial` hold after the run with the pin challenge: the last step removes the request -/
example : ∃ h1 n, Fix.pinHist = h1 ++ n :: [] ∧ ∃ pub cert, Submits Fix.C .new Fix.newInterest pub cert ∧
    PassesChecks Fix.C Fix.S Fix.cfg (runs Fix.C Fix.S Fix.cfg Fix.st0 Fix.pinRun).2 .new Fix.newInterest (Fix.env 1004) ∧
    .dbDelete (idFor Fix.C (runs Fix.C Fix.S Fix.cfg Fix.st0 Fix.pinRun).2.idKey cert.name) ∈ n.effects := by
  obtain ⟨hp, pub, cert, hs, _⟩ := passes_iff.mp ((C21_accepted_iff_policy Fix.C Fix.S Fix.cfg _ _ _ _ Toy.lawful (memStore_lawful Fix.C)
    (Fix.pinExec.life Toy.lawful (memStore_lawful Fix.C) Fix.cfg_fits).1 Fix.cfg_fits (.inl rfl)).mp exReplay)
  refine ⟨(runs Fix.C Fix.S Fix.cfg Fix.st0 [Fix.ev1, Fix.ev2, Fix.ev3]).1, exRemoving,
    by simp only [Fix.pinHist, Fix.pinRun, runs, exRemoving, List.cons_append, List.nil_append],
    pub, cert, hs, hp, ?_⟩
  have hc : ∀ p, requestParamsDecode Fix.C Fix.newInterest.params .new = .ok p →
      removes ((Fix.ev4.run Fix.C Fix.S Fix.cfg (runs Fix.C Fix.S Fix.cfg Fix.st0 [Fix.ev1, Fix.ev2, Fix.ev3]).2).1) (idFor Fix.C Fix.idKey p.2.name) = true := by
    intro p h
    have : (match requestParamsDecode Fix.C Fix.newInterest.params .new with
      | .ok p => removes ((Fix.ev4.run Fix.C Fix.S Fix.cfg (runs Fix.C Fix.S Fix.cfg Fix.st0 [Fix.ev1, Fix.ev2, Fix.ev3]).2).1) (idFor Fix.C Fix.idKey p.2.name)
      | _ => true) = true := by decide +kernel
    rw [h] at this
    exact this
  have := hc _ hs
  unfold removes at this
  obtain ⟨e, he, hr⟩ := List.any_eq_true.mp this
  cases e with
  | dbDelete id =>
    have : id = idFor Fix.C Fix.idKey cert.name := of_decide_eq_true hr
    subst this
    exact he
  | _ => cases hr

end Ndncert.Props
