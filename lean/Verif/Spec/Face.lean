import Verif.Model.Face
import Verif.Spec.Run

/-! # The names the CA listens to -/

namespace Ndncert

/-- the components after `PREFIX/CA` in the names that are for a handler -/
def Handler.words : Handler → List Block
  | .discovery => [gcomp (bytes! "INFO"), ⟨32, bytes! "metadata"⟩]
  | .probe => [gcomp (bytes! "PROBE")]
  | .new => [gcomp (bytes! "NEW")]
  | .challenge => [gcomp (bytes! "CHALLENGE")]
  | .revoke => [gcomp (bytes! "REVOKE")]

/-- the name is `PREFIX/CA/<words of the handler>/...` -/
def Handler.For (p : CaProfile) (name : Name) (h : Handler) : Prop := p.caPrefix ++ [gcomp (bytes! "CA")] ++ h.words <+: name

namespace Fix

/-! ## A run for the key /ndn/CA/PROBE/KEY/k: NEW, start of the pin challenge, right code -/

def openCfg : CaConfig := { profile := { profile with maxSuffixLength := none } }
def probeKey : Name := ca ++ [caComp, probeComp, keyComponent, gcomp [107]]
def pgen1 : Request × Res (Option Interest) := genNewInterest C requester probeKey (1000 * nsPerSec) (4600 * nsPerSec) ⟨54, [2]⟩
def pev1 : Event := .msg (.new (interestOf pgen1.2)) env1
def pst1 : CaState Mem := (pev1.run C S openCfg st0).2
def preq1 : Request := (onNewResponse C pgen1.1 (firstData (pev1.run C S openCfg st0).1) (List.replicate 32 0)).1
def pgen2 : Request × Res Interest := genChallengeInterest C (selectOrContinueChallenge preq1 (bytes! "pin")).1 [] (List.replicate 8 3)
def pev2 : Event := .msg (.challenge (interestOf' pgen2.2)) env2
def pst2 : CaState Mem := (pev2.run C S openCfg pst1).2
def preq2 : Request := (onChallengeResponse C pgen2.1 (firstData (pev2.run C S openCfg pst1).1) (1001 * nsPerSec)).1
def pgen3 : Request × Res Interest :=
  genChallengeInterest C (selectOrContinueChallenge preq2 (bytes! "pin")).1 [(KEY_CODE, secretCode env2.word32)] (List.replicate 8 3)
def pev3 : Event := .msg (.challenge (interestOf' pgen3.2)) env3
def probeRun : List Event := [pev1, pev2, pev3]

theorem probeRun_ok : runsOk C S openCfg st0 probeRun = true := by decide +kernel

def probeHist : List (Step Mem) := (runs C S openCfg st0 probeRun).1

theorem probeExec : Exec C S openCfg probeHist (runs C S openCfg st0 probeRun).2 := exec_of_runs probeRun_ok

/-- the name of the certificate issued -/
def probeName : Name := ((probeHist.flatMap (fun n => issued n.effects)).map Cert.name).headD []

end Fix

end Ndncert
