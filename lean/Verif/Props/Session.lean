import Verif.Lemmas.Session
import Verif.Props.SecretCode
import Verif.Spec.Run
import Verif.Lemmas.Storage

/-! # Complete runs of an honest requester: C62, C78 -/

namespace Ndncert.Props

variable {σ : Type} {C : Crypto} {S : StoreI σ} {Inv : σ → Prop} {cfg : CaConfig}

theorem room {n m : Nat} (h : n + (m + 2) * 1000 ≤ 4000) : n + 1000 + (m + 1) * 1000 ≤ 4000 := by omega

theorem turns_cons {sel typed : Bytes} {x y : Session σ} {t : Turn} {rest : List (Bytes × Turn)} (hl : survives C S cfg x.ca t.others = true)
    (ht : challengeTurn C S cfg x sel typed t = some y) :
    challengeTurns C S cfg sel x ((typed, t) :: rest) = challengeTurns C S cfg sel y rest := by
  rw [challengeTurns, if_pos hl, ht]

theorem turns_dead {sel typed : Bytes} {x : Session σ} {t : Turn} {rest : List (Bytes × Turn)} (hl : ¬ survives C S cfg x.ca t.others = true) :
    challengeTurns C S cfg sel x ((typed, t) :: rest) = .died := by
  rw [challengeTurns, if_neg hl]

/-- if nobody else talks to the CA, its process is not ended by somebody else -/
theorem turns_alone {sel : Bytes} : ∀ {ws : List (Bytes × Turn)} {x : Session σ}, (∀ w ∈ ws, w.2.others = []) →
    challengeTurns C S cfg sel x ws ≠ .died
  | [], x, _ => by rw [challengeTurns]; simp
  | (typed, t) :: ws, x, h => by
    have h0 : survives C S cfg x.ca t.others = true := by rw [h _ (List.mem_cons_self ..)]; rfl
    rw [challengeTurns, if_pos h0]
    split
    · exact turns_alone (fun w hw => h w (List.mem_cons_of_mem _ hw))
    · simp

/-- the same if somebody else talks to it only before the first turn, and the process survives that -/
theorem turns_alone' {sel typed : Bytes} {t : Turn} {ws : List (Bytes × Turn)} {x : Session σ} (h0 : survives C S cfg x.ca t.others = true)
    (h : ∀ w ∈ ws, w.2.others = []) : challengeTurns C S cfg sel x ((typed, t) :: ws) ≠ .died := by
  rw [challengeTurns, if_pos h0]
  split
  · exact turns_alone h
  · simp

/-- wrong codes, then the right one -/
theorem guesses (hC : C.Honest) (hS : LawfulStore C S Inv) (hcfg : NameFits cfg.profile.caPrefix) {k : ChalKind} (hk : k = .pin ∨ k = .email)
    {pub code : Bytes} (hcode : code.length ≤ 8800) {key : Name} {v : Time × Time} {tl : Turn}
    (hsz : (nameBlock (key ++ [ndncertComponent, tl.env.version])).encode.length + (nameBlock cfg.profile.forwardingHint).encode.length ≤ 2 ^ 32)
    (hw : Name.Wf (key ++ [ndncertComponent, tl.env.version])) (hwh : Name.Wf cfg.profile.forwardingHint) :
    ∀ (wrong : List (Bytes × Turn)) (x : Session σ) (r : RequestState) (n tries : Nat) (env : Env),
      Waiting C S Inv cfg x r pub n code tries env.nowStore → wrong.length < tries → tries ≤ 3 → n + tries * 1000 ≤ 4000 →
      (∀ w ∈ wrong, w.1 ≠ code ∧ w.1.length ≤ 8800) → InTime C cfg pub k env (wrong.map (·.2) ++ [tl]) →
      r.requestType = .new → r.cert.keyName = key → r.cert.validity = some v →
      challengeTurns C S cfg k.regName x (wrong ++ [(code, tl)]) = .died ∨
      ∃ y c, challengeTurns C S cfg k.regName x (wrong ++ [(code, tl)]) = .ok y ∧ y.requester.status = .success ∧
        issued y.done = issued x.done ++ [c] ∧ mailed y.done = mailed x.done ∧
        c.name = key ++ [ndncertComponent, tl.env.version] ∧ c.content = some pub ∧ c.validity = some v ∧
        y.requester.issuedCertName = c.name ∧ y.requester.forwardingHint = cfg.profile.forwardingHint ∧
        S.view y.ca.store r.requestId = none
  | [], x, r, n, tries, env, w, ht, ht3, hn, _, hin, hty, hkn, hval => by
    obtain ⟨i1, i2, i3, _, i5, _⟩ := hin
    rw [← lifetime_ns] at i5
    obtain ⟨y, c, t1, _, t3, t4, t5, t6, t7, t8, t9, t10, t11, _⟩ :=
      turn_right hC hS hcfg w (by omega) hk hcode i1 i2 i3 i5 hty hval (by rw [hkn]; exact hsz) (by rw [hkn]; exact hw) hwh
    by_cases hl : survives C S cfg x.ca tl.others = true
    · refine .inr ⟨y, c, ?_, t4, t7, t8, by rw [t9, hkn], t10, t11, t5, t6, t3⟩
      rw [List.nil_append, turns_cons hl t1]
      rfl
    · exact .inl (turns_dead hl)
  | (g, t) :: rest, x, r, n, tries, env, w, ht, ht3, hn, hall, hin, hty, hkn, hval => by
    rw [List.map_cons, List.cons_append] at hin
    unfold InTime at hin
    obtain ⟨i1, i2, i3, i4, i5, i6⟩ := hin
    rw [← lifetime_ns] at i5
    obtain ⟨a1, a2⟩ := hall _ (List.mem_cons_self ..)
    have hlt : rest.length + 1 < tries := ht
    obtain ⟨m, rfl⟩ : ∃ m, tries = m + 2 := ⟨tries - 2, by omega⟩
    obtain ⟨y, r', t1, t2, t3, t4, t5⟩ := turn_wrong hC hS hcfg w ht3 (by omega) hk a1 a2 i1 i2 i3 i4 i5
    have l1 : rest.length < m + 1 := by omega
    have l2 : m + 1 ≤ 3 := by omega
    have l3 : n + 1000 + (m + 1) * 1000 ≤ 4000 := room hn
    rw [List.cons_append]
    by_cases hl : survives C S cfg x.ca t.others = true
    case neg => exact .inl (turns_dead hl)
    rw [turns_cons hl t1]
    rcases guesses hC hS hcfg hk hcode hsz hw hwh rest y r' (n + 1000) (m + 1) t.env t2 l1 l2 l3
      (fun w hw => hall w (List.mem_cons_of_mem _ hw)) i6 (by rw [← t3.2.2.1]; exact hty) (by rw [← t3.2.2.2.1]; exact hkn) (by rw [← t3.2.2.2.1]; exact hval)
      with u | ⟨z, c, u1, u2, u3, u4, u5⟩
    · exact .inl u
    rw [← t3.1] at u5
    exact .inr ⟨z, c, u1, u2, by rw [u3, t4], by rw [u4, t5], u5⟩

theorem code_short {env : Env} (he : env.Wf) : (secretCode env.word32).length ≤ 8800 := by
  have := (C45_six_digits _ he.word).1
  omega

theorem ends_late {nb na : Int} (h1 : 0 ≤ nb) (h2 : nb + 2 * 1000000000 ≤ na) : 0 ≤ na := by omega

/-- **C62** An honest requester whose application the CA's policy admits sends NEW, selects the pin challenge, types at
most two wrong codes and then the code the CA drew, each in time. In between the CA may handle any messages of others. Unless one of these ends the CA process,
nothing throws, every message is answered, and at the end the requester's status is success, the CA has issued
exactly one certificate for it, for the requester's own key and period, and the requester knows its name and where to
fetch it. The request is no longer stored. -/
theorem C62_pin_run (hC : C.Honest) (hS : LawfulStore C S Inv) (hcfg : NameFits cfg.profile.caPrefix)
    {x : Session σ} (hi : Inv x.ca.store) {id : Name} {keyId : Block} {pub : Bytes} {nb na : Time} {version : Block} {stack : Bytes} (hs : stack.length = 32)
    {tn ts tl : Turn} {typed : Bytes} {wrong : List (Bytes × Turn)}
    (hn : tn.env.Wf ∧ tn.others = []) (ha : Admissible C S cfg x id keyId pub nb na version tn.env)
    (hst : Foreign C cfg pub ts.others ∧ ts.env.Wf ∧ ts.Wf ∧ ts.rnd ≠ ts.env.ivRnd)
    (hw : wrong.length ≤ 2 ∧ ∀ w ∈ wrong, w.1 ≠ secretCode ts.env.word32 ∧ w.1.length ≤ 8800)
    (ht : InTime C cfg pub .pin ts.env (wrong.map (·.2) ++ [tl]))
    (hsz : (nameBlock (id ++ [keyComponent, keyId, ndncertComponent, tl.env.version])).encode.length + (nameBlock cfg.profile.forwardingHint).encode.length ≤ 2 ^ 32)
    (hwf : Name.Wf (id ++ [keyComponent, keyId, ndncertComponent, tl.env.version]) ∧ Name.Wf cfg.profile.forwardingHint) :
    ∃ x1, newTurn C S cfg x (id ++ [keyComponent, keyId]) nb na version stack tn = some (x1, cfg.profile.supportedChallenges) ∧
      (challengeTurns C S cfg (bytes! "pin") x1 ((typed, ts) :: wrong ++ [(secretCode ts.env.word32, tl)]) = .died ∨
      ∃ y c, challengeTurns C S cfg (bytes! "pin") x1 ((typed, ts) :: wrong ++ [(secretCode ts.env.word32, tl)]) = .ok y ∧
      y.requester.status = .success ∧ issued y.done = issued x.done ++ [c] ∧ mailed y.done = mailed x.done ∧
      c.name = id ++ [keyComponent, keyId, ndncertComponent, tl.env.version] ∧ c.content = some pub ∧ (∃ p, c.validity = some p ∧ SecondsInside nb na p) ∧
      y.requester.issuedCertName = c.name ∧ y.requester.forwardingHint = cfg.profile.forwardingHint ∧
      S.view y.ca.store (idFor C x.ca.idKey (id ++ [keyComponent, keyId, gcomp (bytes! "cert-request"), version])) = none) := by
  obtain ⟨x1, r, a1, a2, a3, a4, a5, a6, a7, a8, a9⟩ := turn_new hC hS hcfg hi ha hn.1 hn.2 hs
  obtain ⟨x2, r', b1, b2, b3, b4, b5⟩ := turn_start_pin hC hS hcfg a2 hst.1 hst.2.1 hst.2.2.1 hst.2.2.2 typed
  have e1 : id ++ [keyComponent, keyId, ndncertComponent, tl.env.version] = id ++ [keyComponent, keyId] ++ [ndncertComponent, tl.env.version] := by simp
  have e2 : id ++ [keyComponent, keyId, gcomp (bytes! "cert-request"), version] = id ++ [keyComponent, keyId] ++ [gcomp (bytes! "cert-request"), version] := by simp
  rw [e1] at hsz hwf ⊢
  rw [e2]
  have b1' : challengeTurn C S cfg x1 (bytes! "pin") typed ts = some x2 := b1
  refine ⟨x1, a1, ?_⟩
  rw [List.cons_append]
  by_cases hl : survives C S cfg x1.ca ts.others = true
  case neg => exact .inl (turns_dead hl)
  rw [turns_cons hl b1']
  rcases guesses hC hS hcfg (.inl rfl) (code_short hst.2.1) hsz hwf.1 hwf.2 wrong x2 r' 1000 3 ts.env b2
    (by omega) (by omega) (by decide) hw.2 ht (by rw [← b3.2.2.1]; exact a3)
    (by
      rw [← b3.2.2.2.1]
      unfold Cert.keyName
      rw [a6, List.take_left' (by simp)])
    (by rw [← b3.2.2.2.1]; exact a7) with u | ⟨y, c, c1, c2, c3, c4, c5, c6, c7, c8, c9, c10⟩
  · exact .inl u
  refine .inr ⟨y, c, c1, c2, by rw [c3, b4, a8], by rw [c4, b5, a9], c5, c6, ⟨_, c7, roundPeriod_inwards ha.period.1 (ends_late ha.period.1 ha.period.2.2.1)⟩, c8, c9, by rw [idFor_eq, ← a5, b3.1]; exact c10⟩

/-- **C78** The same with the email challenge: the requester gives an address; exactly one mail is sent, to that address,
with the code the CA then accepts and the name of the requested certificate. -/
theorem C78_email_run (hC : C.Honest) (hS : LawfulStore C S Inv) (hcfg : NameFits cfg.profile.caPrefix)
    {x : Session σ} (hi : Inv x.ca.store) {id : Name} {keyId : Block} {pub : Bytes} {nb na : Time} {version : Block} {stack : Bytes} (hs : stack.length = 32)
    {tn ts tl : Turn} {addr : Bytes} {wrong : List (Bytes × Turn)}
    (hn : tn.env.Wf ∧ tn.others = []) (ha : Admissible C S cfg x id keyId pub nb na version tn.env)
    (hst : Foreign C cfg pub ts.others ∧ ts.env.Wf ∧ ts.Wf ∧ ts.rnd ≠ ts.env.ivRnd)
    (haddr : addr.length ≤ 8800) (hscript : ts.env.spawnOk = true)
    (hw : wrong.length ≤ 2 ∧ ∀ w ∈ wrong, w.1 ≠ secretCode ts.env.word32 ∧ w.1.length ≤ 8800)
    (ht : InTime C cfg pub .email ts.env (wrong.map (·.2) ++ [tl]))
    (hsz : (nameBlock (id ++ [keyComponent, keyId, ndncertComponent, tl.env.version])).encode.length + (nameBlock cfg.profile.forwardingHint).encode.length ≤ 2 ^ 32)
    (hwf : Name.Wf (id ++ [keyComponent, keyId, ndncertComponent, tl.env.version]) ∧ Name.Wf cfg.profile.forwardingHint) :
    ∃ x1, newTurn C S cfg x (id ++ [keyComponent, keyId]) nb na version stack tn = some (x1, cfg.profile.supportedChallenges) ∧
      (challengeTurns C S cfg (bytes! "email") x1 ((addr, ts) :: wrong ++ [(secretCode ts.env.word32, tl)]) = .died ∨
      ∃ y c, challengeTurns C S cfg (bytes! "email") x1 ((addr, ts) :: wrong ++ [(secretCode ts.env.word32, tl)]) = .ok y ∧
      y.requester.status = .success ∧ issued y.done = issued x.done ++ [c] ∧
      mailed y.done = mailed x.done ++ [⟨addr, secretCode ts.env.word32, cfg.profile.caPrefix, id ++ [keyComponent, keyId, gcomp (bytes! "cert-request"), version]⟩] ∧
      c.name = id ++ [keyComponent, keyId, ndncertComponent, tl.env.version] ∧ c.content = some pub ∧ (∃ p, c.validity = some p ∧ SecondsInside nb na p) ∧
      y.requester.issuedCertName = c.name ∧ y.requester.forwardingHint = cfg.profile.forwardingHint ∧
      S.view y.ca.store (idFor C x.ca.idKey (id ++ [keyComponent, keyId, gcomp (bytes! "cert-request"), version])) = none) := by
  obtain ⟨x1, r, a1, a2, a3, a4, a5, a6, a7, a8, a9⟩ := turn_new hC hS hcfg hi ha hn.1 hn.2 hs
  have hid : r.cert.identity ≠ [] := by
    have : r.cert.identity = id := by unfold Cert.identity; rw [a6]; simp
    rw [this]
    intro h
    have := ha.below.2.1
    rw [h] at this
    exact absurd this (by simp)
  obtain ⟨x2, r', b1, b2, b3, b4, b5⟩ := turn_start_email hC hS hcfg a2 hst.1 hst.2.1 hst.2.2.1 hst.2.2.2 hscript hid haddr
  have e1 : id ++ [keyComponent, keyId, ndncertComponent, tl.env.version] = id ++ [keyComponent, keyId] ++ [ndncertComponent, tl.env.version] := by simp
  have e2 : id ++ [keyComponent, keyId, gcomp (bytes! "cert-request"), version] = id ++ [keyComponent, keyId] ++ [gcomp (bytes! "cert-request"), version] := by simp
  rw [e1] at hsz hwf ⊢
  rw [e2]
  have b1' : challengeTurn C S cfg x1 (bytes! "email") addr ts = some x2 := b1
  refine ⟨x1, a1, ?_⟩
  rw [List.cons_append]
  by_cases hl : survives C S cfg x1.ca ts.others = true
  case neg => exact .inl (turns_dead hl)
  rw [turns_cons hl b1']
  rcases guesses hC hS hcfg (.inr rfl) (code_short hst.2.1) hsz hwf.1 hwf.2 wrong x2 r' 1000 3 ts.env b2
    (by omega) (by omega) (by decide) hw.2 ht (by rw [← b3.2.2.1]; exact a3)
    (by
      rw [← b3.2.2.2.1]
      unfold Cert.keyName
      rw [a6, List.take_left' (by simp)])
    (by rw [← b3.2.2.2.1]; exact a7) with u | ⟨y, c, c1, c2, c3, c4, c5, c6, c7, c8, c9, c10⟩
  · exact .inl u
  refine .inr ⟨y, c, c1, c2, by rw [c3, b4, a8], by rw [c4, b5, a9, a4, a6], c5, c6, ⟨_, c7, roundPeriod_inwards ha.period.1 (ends_late ha.period.1 ha.period.2.2.1)⟩, c8, c9, by rw [idFor_eq, ← a5, b3.1]; exact c10⟩

/-! ## The hypotheses of C62 and C78 hold of a concrete session

The CA of the fixtures, with nothing stored; /ndn/alice applies at 1000 s for one hour. Before the challenge is selected
the CA handles another NEW; one wrong code is typed. -/

def exSession : Session Mem := ⟨Fix.requester, Fix.st0, []⟩
def exAlice : Name := Fix.ca ++ [gcomp (bytes! "alice")]
def exPub : Bytes := (Fix.C.keyPub Fix.key).getD []
def exStart : Turn := { others := [(.new Fix.newInterest, Fix.env1)], env := Fix.env2, rnd := List.replicate 8 3, clock := 1001 * nsPerSec }
def exWrongTurn : Turn := { env := Fix.env3, rnd := List.replicate 8 3, clock := 1002 * nsPerSec }
def exRightTurn : Turn := { env := Fix.env4, rnd := List.replicate 8 3, clock := 1003 * nsPerSec }

def exNewOk : Bool :=
  match (genNewInterest Fix.C Fix.requester (exAlice ++ [keyComponent, gcomp [107]]) (1000 * nsPerSec) (4600 * nsPerSec) ⟨54, [2]⟩).2 with
  | .ok (some i) => i.params.all fun b => decide (b.val.length < 2 ^ 64)
  | _ => false

theorem exNewOk_true : exNewOk = true := by decide +kernel

theorem exAdmissible : Admissible Fix.C Fix.S Fix.cfg exSession exAlice (gcomp [107]) exPub (1000 * nsPerSec) (4600 * nsPerSec) ⟨54, [2]⟩ Fix.env1 where
  pre := rfl
  caKey := ⟨Fix.caCert, rfl, rfl⟩
  fresh := by decide +kernel
  key := by decide +kernel
  below := ⟨List.prefix_append .., by decide +kernel, by
    intro k hk
    have : Fix.cfg.profile.maxSuffixLength = some 1 := rfl
    rw [this] at hk
    cases hk
    decide +kernel⟩
  period := by decide +kernel
  caValid := ⟨0, 10 ^ 18, rfl, by decide +kernel, by decide +kernel⟩
  notPending := by decide +kernel
  keySize := by decide +kernel
  certSize := by decide +kernel
  newSize := by
    intro i b hi hb
    have h := exNewOk_true
    unfold exNewOk at h
    change (genNewInterest Fix.C Fix.requester (exAlice ++ [keyComponent, gcomp [107]]) (1000 * nsPerSec) (4600 * nsPerSec) ⟨54, [2]⟩).2 = _ at hi
    rw [hi] at h
    dsimp only at h
    rw [hb] at h
    simpa using h
  replySize := by
    intro rid hr
    have a1 := encode_length_small (b := binBlock T.RequestId rid) (by simp [T.RequestId])
    have a2 : (binBlock T.EcdhPub (Fix.C.ecdhPub Fix.env1.ecdhPriv)).encode.length ≤ 1000 := by decide +kernel
    have a3 : (binBlock T.Salt Fix.env1.salt).encode.length ≤ 1000 := by decide +kernel
    have a4 : (encodeAll (Fix.cfg.profile.supportedChallenges.map (binBlock T.Challenge))).length ≤ 1000 := by decide +kernel
    have a5 : (requestEncode (Fix.C.ecdhPub Fix.env1.ecdhPriv) Fix.env1.salt rid Fix.cfg.profile.supportedChallenges).val.length =
        (binBlock T.EcdhPub (Fix.C.ecdhPub Fix.env1.ecdhPriv)).encode.length + ((binBlock T.Salt Fix.env1.salt).encode.length +
          ((binBlock T.RequestId rid).encode.length + (encodeAll (Fix.cfg.profile.supportedChallenges.map (binBlock T.Challenge))).length)) := by
      unfold requestEncode
      simp only [mkBlock, encodeAll, List.cons_append, List.nil_append, List.flatMap_cons, List.length_append]
    rw [a5]
    simp only [binBlock_val] at a1
    omega

theorem exForeign : Foreign Fix.C Fix.cfg exPub exStart.others := by
  intro x hx
  simp only [exStart, List.mem_singleton] at hx
  subst hx
  exact ⟨msgOk_wf (by decide +kernel), Fix.env_wf .., by intro i h; cases h⟩

theorem exInTime (k : ChalKind) (hk : k = .pin ∨ k = .email) : InTime Fix.C Fix.cfg exPub k Fix.env2 [exWrongTurn, exRightTurn] := by
  have h0 : Foreign Fix.C Fix.cfg exPub [] := by intro x hx; cases hx
  rcases hk with rfl | rfl <;>
  exact ⟨h0, Fix.env_wf .., by unfold Turn.Wf; decide +kernel, by decide +kernel, by decide +kernel, h0, Fix.env_wf .., by unfold Turn.Wf; decide +kernel, by decide +kernel, by decide +kernel, trivial⟩

/-- the CA survives the message of somebody else -/
def exSurvives : Bool :=
  match newTurn Fix.C Fix.S Fix.cfg exSession (exAlice ++ [keyComponent, gcomp [107]]) (1000 * nsPerSec) (4600 * nsPerSec) ⟨54, [2]⟩ (List.replicate 32 0) { env := Fix.env1 } with
  | some (x1, _) => survives Fix.C Fix.S Fix.cfg x1.ca exStart.others
  | none => false

theorem exSurvives_true : exSurvives = true := by decide +kernel

theorem exAlone : ∀ w ∈ [((bytes! "000000"), exWrongTurn), (secretCode Fix.env2.word32, exRightTurn)], w.2.others = [] := by
  intro w hw
  simp only [List.mem_cons, List.not_mem_nil, or_false] at hw
  rcases hw with rfl | rfl <;> rfl

example : ∃ x1 y c, newTurn Fix.C Fix.S Fix.cfg exSession (exAlice ++ [keyComponent, gcomp [107]]) (1000 * nsPerSec) (4600 * nsPerSec) ⟨54, [2]⟩ (List.replicate 32 0)
      { env := Fix.env1 } = some (x1, Fix.cfg.profile.supportedChallenges) ∧
    challengeTurns Fix.C Fix.S Fix.cfg (bytes! "pin") x1 [([], exStart), (bytes! "000000", exWrongTurn), (secretCode Fix.env2.word32, exRightTurn)] = .ok y ∧
    y.requester.status = .success ∧ issued y.done = [c] := by
  obtain ⟨x1, h1, hrun⟩ := C62_pin_run Toy.honest (memStore_lawful Fix.C) Fix.cfg_fits (x := exSession) (memStore_lawful Fix.C).empty_inv
    (stack := List.replicate 32 0) (by decide) (tn := { env := Fix.env1 }) (ts := exStart) (tl := exRightTurn) (typed := []) (wrong := [(bytes! "000000", exWrongTurn)])
    ⟨Fix.env_wf .., rfl⟩ exAdmissible ⟨exForeign, Fix.env_wf .., by unfold Turn.Wf; decide +kernel, by decide +kernel⟩
    ⟨by decide, by
      intro w hw
      simp only [List.mem_singleton] at hw
      subst hw
      decide +kernel⟩ (exInTime .pin (.inl rfl)) (by decide +kernel) (by unfold Name.Wf; decide +kernel)
  have hl := exSurvives_true
  unfold exSurvives at hl
  change newTurn Fix.C Fix.S Fix.cfg exSession (exAlice ++ [keyComponent, gcomp [107]]) (1000 * nsPerSec) (4600 * nsPerSec) ⟨54, [2]⟩ (List.replicate 32 0) { env := Fix.env1 } = _ at h1
  rw [h1] at hl
  rcases hrun with hd | ⟨y, c, h2, h3, h4, _⟩
  · exact absurd hd (turns_alone' hl exAlone)
  exact ⟨x1, y, c, h1, h2, h3, h4⟩

example : ∃ x1 y c, newTurn Fix.C Fix.S Fix.cfg exSession (exAlice ++ [keyComponent, gcomp [107]]) (1000 * nsPerSec) (4600 * nsPerSec) ⟨54, [2]⟩ (List.replicate 32 0)
      { env := Fix.env1 } = some (x1, Fix.cfg.profile.supportedChallenges) ∧
    challengeTurns Fix.C Fix.S Fix.cfg (bytes! "email") x1
      [(bytes! "alice@example.com", exStart), (bytes! "000000", exWrongTurn), (secretCode Fix.env2.word32, exRightTurn)] = .ok y ∧
    y.requester.status = .success ∧ issued y.done = [c] ∧ (mailed y.done).map (·.address) = [bytes! "alice@example.com"] := by
  obtain ⟨x1, h1, hrun⟩ := C78_email_run Toy.honest (memStore_lawful Fix.C) Fix.cfg_fits (x := exSession) (memStore_lawful Fix.C).empty_inv
    (stack := List.replicate 32 0) (by decide) (tn := { env := Fix.env1 }) (ts := exStart) (tl := exRightTurn) (addr := bytes! "alice@example.com") (wrong := [(bytes! "000000", exWrongTurn)])
    ⟨Fix.env_wf .., rfl⟩ exAdmissible ⟨exForeign, Fix.env_wf .., by unfold Turn.Wf; decide +kernel, by decide +kernel⟩ (by decide) rfl
    ⟨by decide, by
      intro w hw
      simp only [List.mem_singleton] at hw
      subst hw
      decide +kernel⟩ (exInTime .email (.inr rfl)) (by decide +kernel) (by unfold Name.Wf; decide +kernel)
  have hl := exSurvives_true
  unfold exSurvives at hl
  change newTurn Fix.C Fix.S Fix.cfg exSession (exAlice ++ [keyComponent, gcomp [107]]) (1000 * nsPerSec) (4600 * nsPerSec) ⟨54, [2]⟩ (List.replicate 32 0) { env := Fix.env1 } = _ at h1
  rw [h1] at hl
  rcases hrun with hd | ⟨y, c, h2, h3, h4, h5, _⟩
  · exact absurd hd (turns_alone' hl exAlone)
  exact ⟨x1, y, c, h1, h2, h3, h4, by rw [h5]; rfl⟩

end Ndncert.Props
