import Verif.Model.Shared
import Verif.Spec.Run
import Verif.Spec.History

/-! # Vocabulary and concrete histories for several CAs on one database -/

namespace Ndncert

variable {σ : Type}

/-- the history of the storage, whichever CA executed the steps -/
def steps (h : List (Served σ)) : List (Step σ) := h.map Served.step

/-- run the events one after the other, each in a CA with the configuration and the secret key given -/
def sharedRuns (C : Crypto) (S : StoreI σ) : σ → List (CaConfig × Bytes × Event) → List (Served σ) × σ
  | st, [] => ([], st)
  | st, (cfg, idKey, e) :: es =>
    let x := e.run C S cfg ⟨st, idKey⟩
    let y := sharedRuns C S x.2.store es
    (⟨cfg, ⟨⟨st, idKey⟩, e, x.1⟩⟩ :: y.1, y.2)

def nameFitsOk (n : Name) : Bool := n.all (fun c => decide c.Fits) && decide ((encodeAll n).length < 2 ^ 64)

def sharedRunsOk (C : Crypto) (S : StoreI σ) : σ → List (CaConfig × Bytes × Event) → Bool
  | _, [] => true
  | st, (cfg, idKey, e) :: es =>
    eventOk cfg e && nameFitsOk cfg.profile.caPrefix && possibleOk C S cfg ⟨st, idKey⟩ e &&
      sharedRunsOk C S (e.run C S cfg ⟨st, idKey⟩).2.store es

theorem sharedExec_runs {C : Crypto} {S : StoreI σ} : ∀ (es : List (CaConfig × Bytes × Event)) (h : List (Served σ)) (st : σ),
    SharedExec C S h st → sharedRunsOk C S st es = true →
    SharedExec C S (h ++ (sharedRuns C S st es).1) (sharedRuns C S st es).2
  | [], h, st, hx, _ => by simpa [sharedRuns] using hx
  | (cfg, idKey, e) :: es, h, st, hx, hok => by
    unfold sharedRunsOk at hok
    simp only [Bool.and_eq_true] at hok
    obtain ⟨⟨⟨h1, h2⟩, h3⟩, h4⟩ := hok
    have hf : NameFits cfg.profile.caPrefix := by
      unfold nameFitsOk at h2
      rw [Bool.and_eq_true, List.all_eq_true] at h2
      exact ⟨fun c hc => of_decide_eq_true (h2.1 c hc), of_decide_eq_true h2.2⟩
    have := sharedExec_runs es _ _ (.step cfg idKey e hx (eventOk_wf h1) hf (possibleOk_possible h3)) h4
    simpa [sharedRuns] using this

theorem sharedExec_of_runs {C : Crypto} {S : StoreI σ} {es : List (CaConfig × Bytes × Event)} (h : sharedRunsOk C S S.empty es = true) :
    SharedExec C S (sharedRuns C S S.empty es).1 (sharedRuns C S S.empty es).2 := by
  simpa using sharedExec_runs es [] _ .init h

namespace Fix

/-! ## The CAs /a/b and /a_b of one user: NEW at the first, CHALLENGEs at the second -/

abbrev Q : StoreI Db := sqlStore C

def caA : Name := [gcomp (bytes! "a"), gcomp (bytes! "b")]
def caB : Name := [gcomp (bytes! "a_b")]

def certOf (n : Name) : Cert := { caCert with name := n ++ [keyComponent, gcomp [1], gcomp (bytes! "self"), gcomp [1]], content := some (Toy.idPub n) }
def cfgOf (n : Name) : CaConfig := { profile := { profile with caPrefix := n, cert := some (certOf n) } }
def envOf (n : Name) (t : Int) : Env := { env t with caCert := certOf n }

/-- /a/b/alice/KEY/k -/
def keyA : Name := caA ++ [gcomp (bytes! "alice"), keyComponent, gcomp [107]]
def genA : Request × Res (Option Interest) :=
  genNewInterest C { requester with profile := (cfgOf caA).profile } keyA (1000 * nsPerSec) (4600 * nsPerSec) ⟨54, [2]⟩
def newA : Event := .msg (.new (interestOf genA.2)) (envOf caA 1000)
def dbA : Db := (newA.run C Q (cfgOf caA) ⟨Q.empty, idKey⟩).2.store
/-- the requester after the reply to NEW -/
def reqA : Request := (onNewResponse C genA.1 (firstData (newA.run C Q (cfgOf caA) ⟨Q.empty, idKey⟩).1) (List.replicate 32 0)).1

/-- a CHALLENGE Interest to the CA `ca`, made with the secrets of the requester; `iv`: the initialisation vector -/
def sealedTo (ca : Name) (r : Request) (iv : Bytes) (es : List Block) : Interest :=
  match encodeAes C T.ApplicationParameters r.aesKey (encodeAll es) r.requestId iv (List.replicate 8 3) with
  | (_, .ok b) => signedInterest C keyA (ca ++ [caComp, challengeComp, gcomp r.requestId]) b
  | _ => blankInterest

def startB : Event := .msg (.challenge (sealedTo caB reqA [] [binBlock T.SelectedChallenge (bytes! "pin")])) (envOf caB 1001)
def codeB : Event := .msg (.challenge (sealedTo caB reqA (List.replicate 8 3 ++ [0, 0, 0, 1])
  [binBlock T.SelectedChallenge (bytes! "pin"), binBlock T.ParameterKey KEY_CODE,
    binBlock T.ParameterValue (secretCode (envOf caB 1001).word32)])) (envOf caB 1002)

def crossRun : List (CaConfig × Bytes × Event) :=
  [(cfgOf caA, idKey, newA), (cfgOf caB, List.replicate 32 9, startB), (cfgOf caB, List.replicate 32 9, codeB)]

attribute [irreducible] genA newA dbA reqA sealedTo startB codeB

theorem crossRun_ok : sharedRunsOk C Q Q.empty crossRun = true := by decide +kernel

/-- one CA, restarted with a smaller max-suffix-length before the last CHALLENGE -/
def stricter : CaConfig := { cfg with profile := { profile with maxSuffixLength := some 0 } }
def reconfRun : List (CaConfig × Bytes × Event) :=
  [(cfg, idKey, ev1), (cfg, idKey, ev2), (stricter, List.replicate 32 9, .restart (List.replicate 32 9)), (stricter, List.replicate 32 9, ev3),
    (stricter, List.replicate 32 9, ev4)]

theorem reconfRun_ok : sharedRunsOk C Q Q.empty reconfRun = true := by decide +kernel

end Fix
end Ndncert
