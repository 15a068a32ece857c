import Verif.Spec.Fixtures

/-! # Running a list of events

Used only to give concrete executions. -/

namespace Ndncert

variable {σ : Type}

/-- run the events one after the other -/
def runs (C : Crypto) (S : StoreI σ) (cfg : CaConfig) : CaState σ → List Event → List (Step σ) × CaState σ
  | s, [] => ([], s)
  | s, e :: es =>
    let x := e.run C S cfg s
    let y := runs C S cfg x.2 es
    (⟨s, e, x.1⟩ :: y.1, y.2)

def msgOk (cfg : CaConfig) (m : Msg) : Bool :=
  (match m.interest.params with | some b => decide (b.val.length ≤ 2 ^ 36 - 32) | none => true) &&
  (match m with
   | .challenge i => (match idComponent cfg i with | some c => decide (c.val.length ≤ 8) | none => true)
   | _ => true)

def envOk (env : Env) : Bool :=
  decide (env.salt.length = 32) && decide (env.ivRnd.length = 8) && decide (env.word32 < 4294000000) &&
    decide (env.nonce.length = 16) && decide (env.stack.length = 8) &&
    (match env.anchors with | .ub _ => false | _ => true)

def eventOk (cfg : CaConfig) (e : Event) : Bool :=
  match e.msg? with
  | some (m, env) => msgOk cfg m && envOk env
  | none => true

def possibleOk (C : Crypto) (S : StoreI σ) (cfg : CaConfig) (s : CaState σ) : Event → Bool
  | .msg m env => decide ((handle C S cfg s m env).term = .done)
  | _ => true

/-- every event is well formed and possible -/
def runsOk (C : Crypto) (S : StoreI σ) (cfg : CaConfig) : CaState σ → List Event → Bool
  | _, [] => true
  | s, e :: es => eventOk cfg e && possibleOk C S cfg s e && runsOk C S cfg (e.run C S cfg s).2 es

theorem msgOk_wf {cfg : CaConfig} {m : Msg} (h : msgOk cfg m = true) : m.Wf cfg := by
  unfold msgOk at h
  rw [Bool.and_eq_true] at h
  refine ⟨?_, ?_⟩
  · intro b hb
    have h1 := h.1
    rw [hb] at h1
    simpa using h1
  · rintro i rfl comp hc
    have h2 := h.2
    dsimp only at h2
    rw [hc] at h2
    simpa using h2

theorem envOk_wf {env : Env} (h : envOk env = true) : env.Wf := by
  unfold envOk at h
  simp only [Bool.and_eq_true, decide_eq_true_eq] at h
  obtain ⟨⟨⟨⟨⟨h1, h2⟩, h3⟩, h4⟩, h5⟩, h6⟩ := h
  exact ⟨h1, h2, h3, h4, h5, fun u hu => by rw [hu] at h6; cases h6⟩

theorem eventOk_wf {cfg : CaConfig} {e : Event} (h : eventOk cfg e = true) : e.Wf cfg := by
  intro m env hm
  unfold eventOk at h
  rw [hm] at h
  dsimp only at h
  rw [Bool.and_eq_true] at h
  exact ⟨msgOk_wf h.1, envOk_wf h.2⟩

theorem possibleOk_possible {C : Crypto} {S : StoreI σ} {cfg : CaConfig} {s : CaState σ} {e : Event}
    (h : possibleOk C S cfg s e = true) : e.Possible C S cfg s := by
  cases e with
  | msg m env =>
    show (handle C S cfg s m env).term = .done
    simpa [possibleOk] using h
  | crash m env k nk => trivial
  | restart nk => trivial

theorem exec_runs {C : Crypto} {S : StoreI σ} {cfg : CaConfig} : ∀ (es : List Event) (h : List (Step σ)) (s : CaState σ),
    Exec C S cfg h s → runsOk C S cfg s es = true → Exec C S cfg (h ++ (runs C S cfg s es).1) (runs C S cfg s es).2
  | [], h, s, hx, _ => by simpa [runs] using hx
  | e :: es, h, s, hx, hok => by
    unfold runsOk at hok
    rw [Bool.and_eq_true, Bool.and_eq_true] at hok
    have := exec_runs es _ _ (.step e hx (eventOk_wf hok.1.1) (possibleOk_possible hok.1.2)) hok.2
    simpa [runs] using this

/-- the execution that runs the events from an empty storage -/
theorem exec_of_runs {C : Crypto} {S : StoreI σ} {cfg : CaConfig} {idKey : Bytes} {es : List Event}
    (h : runsOk C S cfg ⟨S.empty, idKey⟩ es = true) :
    Exec C S cfg (runs C S cfg ⟨S.empty, idKey⟩ es).1 (runs C S cfg ⟨S.empty, idKey⟩ es).2 := by
  simpa using exec_runs es [] _ (.init idKey) h

namespace Fix

/-! ## A run with the pin challenge: NEW, start, wrong code, right code -/

abbrev S : StoreI Mem := memStore

def st0 : CaState Mem := ⟨S.empty, idKey⟩
def env1 : Env := env 1000
def ev1 : Event := .msg (.new newInterest) env1
def st1 : CaState Mem := (ev1.run C S cfg st0).2
def reply1 : Data := firstData (ev1.run C S cfg st0).1
/-- the requester after the reply to NEW -/
def req1 : Request := (onNewResponse C gen1.1 reply1 (List.replicate 32 0)).1

def env2 : Env := env 1001
def gen2 : Request × Res Interest := genChallengeInterest C (selectOrContinueChallenge req1 (bytes! "pin")).1 [] (List.replicate 8 3)
/-- starts the pin challenge -/
def chal1 : Interest := interestOf' gen2.2
def ev2 : Event := .msg (.challenge chal1) env2
def st2 : CaState Mem := (ev2.run C S cfg st1).2
def reply2 : Data := firstData (ev2.run C S cfg st1).1
def req2 : Request := (onChallengeResponse C gen2.1 reply2 (1001 * nsPerSec)).1

def env3 : Env := env 1002
def gen3 : Request × Res Interest :=
  genChallengeInterest C (selectOrContinueChallenge req2 (bytes! "pin")).1 [(KEY_CODE, bytes! "999999")] (List.replicate 8 3)
/-- a wrong code -/
def chal2 : Interest := interestOf' gen3.2
def ev3 : Event := .msg (.challenge chal2) env3
def st3 : CaState Mem := (ev3.run C S cfg st2).2
def reply3 : Data := firstData (ev3.run C S cfg st2).1
def req3 : Request := (onChallengeResponse C gen3.1 reply3 (1002 * nsPerSec)).1

def env4 : Env := env 1003
def gen4 : Request × Res Interest :=
  genChallengeInterest C (selectOrContinueChallenge req3 (bytes! "pin")).1 [(KEY_CODE, secretCode env2.word32)] (List.replicate 8 3)
/-- the right code -/
def chal3 : Interest := interestOf' gen4.2
def ev4 : Event := .msg (.challenge chal3) env4
def st4 : CaState Mem := (ev4.run C S cfg st3).2
def reply4 : Data := firstData (ev4.run C S cfg st3).1
def req4 : Request := (onChallengeResponse C gen4.1 reply4 (1003 * nsPerSec)).1

def pinRun : List Event := [ev1, ev2, ev3, ev4]

theorem pinRun_ok : runsOk C S cfg st0 pinRun = true := by decide +kernel

/-- the history of the run -/
def pinHist : List (Step Mem) := (runs C S cfg st0 pinRun).1

theorem pinExec : Exec C S cfg pinHist (runs C S cfg st0 pinRun).2 := exec_of_runs pinRun_ok

theorem cfg_fits : NameFits cfg.profile.caPrefix := by decide +kernel

/-- a CHALLENGE Interest with these plaintext elements, made with the secrets of the requester -/
def sealed (r : Request) (es : List Block) : Interest :=
  match encodeAes C T.ApplicationParameters r.aesKey (encodeAll es) r.requestId r.encryptionIv (List.replicate 8 3) with
  | (_, .ok b) => signedInterest C key (ca ++ [caComp, challengeComp, gcomp r.requestId]) b
  | _ => blankInterest

/-- the requester's request, as stored -/
def stored (s : CaState Mem) : RequestState :=
  (S.view s.store req1.requestId).getD (newRequestState C cfg [] .new caCert [] [])

/-- a certificate is issued in the fourth step -/
theorem pinRun_issues : (issued (ev4.run C S cfg st3).1).length = 1 := by decide +kernel

/-- the same run with the CHALLENGEs 4000 s and 7000 s after the epoch -/
def lateRun : List Event := [ev1, ev2, .msg (.challenge chal2) (env 4000), .msg (.challenge chal3) (env 7000)]

theorem lateRun_ok : runsOk C S cfg st0 lateRun = true := by decide +kernel

/-- the right code, submitted as answer to an email challenge -/
def switched : Interest := sealed req2
  [binBlock T.SelectedChallenge (bytes! "email"), binBlock T.ParameterKey KEY_CODE, binBlock T.ParameterValue (secretCode env2.word32)]
def switchRun : List Event := [ev1, ev2, .msg (.challenge switched) env3]

theorem switchRun_ok : runsOk C S cfg st0 switchRun = true := by decide +kernel

/-! ## A run with REVOKE: accepted, pin challenge started, right code -/

/-- a certificate issued by the CA for `key` -/
def revCert : Cert :=
  let pub := (C.keyPub key).getD []
  let (w, l, d) := C.signCert ca (key ++ [ndncertComponent, ⟨54, [3]⟩]) pub (0, 10 ^ 12)
  { wire := w, name := key ++ [ndncertComponent, ⟨54, [3]⟩], content := some pub, keyLocator := some l,
    validity := some (0, 10 ^ 12), digest := d }
def revInterest : Interest := (genRevokeInterest C requester revCert).getD blankInterest
def rev1 : Event := .msg (.revoke revInterest) env1
def rst1 : CaState Mem := (rev1.run C S cfg st0).2
/-- the requester, given the key pair that `genRevokeInterest` forgets -/
def rreq1 : Request :=
  { (onNewResponse C requester (firstData (rev1.run C S cfg st0).1) (List.replicate 32 0)).1 with keyPair := some ⟨key, (C.keyPub key).getD []⟩ }
def rgen2 : Request × Res Interest := genChallengeInterest C (selectOrContinueChallenge rreq1 (bytes! "pin")).1 [] (List.replicate 8 3)
def rchal1 : Interest := interestOf' rgen2.2
def rev2 : Event := .msg (.challenge rchal1) env2
def rst2 : CaState Mem := (rev2.run C S cfg rst1).2
def rreq2 : Request := (onChallengeResponse C rgen2.1 (firstData (rev2.run C S cfg rst1).1) (1001 * nsPerSec)).1
def rgen3 : Request × Res Interest :=
  genChallengeInterest C (selectOrContinueChallenge rreq2 (bytes! "pin")).1 [(KEY_CODE, secretCode env2.word32)] (List.replicate 8 3)
/-- the right code -/
def rchal2 : Interest := interestOf' rgen3.2
def revRun : List Event := [rev1, rev2]

theorem revRun_ok : runsOk C S cfg st0 revRun = true := by decide +kernel

-- only the kernel has to evaluate these
attribute [irreducible] switched revInterest rst1 rreq1 rgen2 rchal1 rst2 rreq2 rgen3 rchal2
attribute [irreducible] st1 reply1 req1 gen2 chal1 st2 reply2 req2 gen3 chal2 st3 reply3 req3 gen4 chal3
  st4 reply4 req4 sealed stored

end Fix
end Ndncert
