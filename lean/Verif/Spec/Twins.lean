import Verif.Spec.Run
import Verif.Spec.History

/-! # Names of issued certificates (C141) -/

namespace Ndncert

/-- `Name::appendVersion()`: the component of type 54 with the time since the epoch as a number, in a unit of so many nanoseconds -/
def versionAt (unit : Int) (t : Time) : Block := nniBlock 54 (t / unit).toNat

/-- the versions in the names of issued certificates are taken from this clock -/
def VersionsFrom {σ : Type} (unit : Int) (clock : Step σ → Time) (h : List (Step σ)) : Prop :=
  ∀ n ∈ h, ∀ m env, n.Handles m env → env.version = versionAt unit (clock n)

/-- the clock always goes forward -/
def Forward {σ : Type} (clock : Step σ → Time) (h : List (Step σ)) : Prop := (h.map clock).Pairwise (· < ·)

/-- C141: certificates that the CA issues in different steps have different names, with a clock in milliseconds that always goes forward -/
def NamesDiffer {σ : Type} (C : Crypto) (S : StoreI σ) (cfg : CaConfig) : Prop :=
  ∀ (h h1 h2 h3 : List (Step σ)) (n m : Step σ) (s : CaState σ) (clock : Step σ → Time) (c c' : Cert), Exec C S cfg h s →
    VersionsFrom 1000000 clock h → Forward clock h → h = h1 ++ n :: (h2 ++ m :: h3) → .issue c ∈ n.effects → .issue c' ∈ m.effects → c.name ≠ c'.name

/-! ## Two requests for one key, completed within a millisecond -/
namespace Fix

/-- surroundings at a time in nanoseconds -/
def envAt (t : Time) : Env := { env 0 with now := t, nowStore := t, version := versionAt 1000000 t }

/-- the clock of these runs -/
def clockOf (n : Step Mem) : Time :=
  match n.event.msg? with
  | some (_, env) => env.now
  | none => 0

/-- a second requester with the same key asks for a shorter period -/
def twinGen1 : Request × Res (Option Interest) := genNewInterest C requester key (1000 * nsPerSec) (2000 * nsPerSec) ⟨54, [4]⟩

def tevA1 : Event := .msg (.new newInterest) (envAt (1000 * nsPerSec))
def tstA1 : CaState Mem := (tevA1.run C S cfg st0).2
def treqA1 : Request := (onNewResponse C gen1.1 (firstData (tevA1.run C S cfg st0).1) (List.replicate 32 0)).1
def tgenA2 : Request × Res Interest := genChallengeInterest C (selectOrContinueChallenge treqA1 (bytes! "pin")).1 [] (List.replicate 8 3)
def tevA2 : Event := .msg (.challenge (interestOf' tgenA2.2)) (envAt (1001 * nsPerSec))
def tstA2 : CaState Mem := (tevA2.run C S cfg tstA1).2
def treqA2 : Request := (onChallengeResponse C tgenA2.1 (firstData (tevA2.run C S cfg tstA1).1) (1001 * nsPerSec)).1

def tevB1 : Event := .msg (.new (interestOf twinGen1.2)) (envAt (1002 * nsPerSec))
def tstB1 : CaState Mem := (tevB1.run C S cfg tstA2).2
def treqB1 : Request := (onNewResponse C twinGen1.1 (firstData (tevB1.run C S cfg tstA2).1) (List.replicate 32 0)).1
def tgenB2 : Request × Res Interest := genChallengeInterest C (selectOrContinueChallenge treqB1 (bytes! "pin")).1 [] (List.replicate 8 3)
def tevB2 : Event := .msg (.challenge (interestOf' tgenB2.2)) (envAt (1003 * nsPerSec))
def tstB2 : CaState Mem := (tevB2.run C S cfg tstB1).2
def treqB2 : Request := (onChallengeResponse C tgenB2.1 (firstData (tevB2.run C S cfg tstB1).1) (1003 * nsPerSec)).1

/-- the right code -/
def tcode (r : Request) : Interest :=
  interestOf' (genChallengeInterest C (selectOrContinueChallenge r (bytes! "pin")).1 [(KEY_CODE, secretCode (env 0).word32)] (List.replicate 8 3)).2
def tevA3 : Event := .msg (.challenge (tcode treqA2)) (envAt (1004 * nsPerSec))
/-- the second right code so many nanoseconds after the first -/
def tevB3 (d : Int) : Event := .msg (.challenge (tcode treqB2)) (envAt (1004 * nsPerSec + d))

def twinRun : List Event := [tevA1, tevA2, tevB1, tevB2, tevA3, tevB3 400000]
/-- the same with two milliseconds in between -/
def apartRun : List Event := [tevA1, tevA2, tevB1, tevB2, tevA3, tevB3 2000000]
def twinHist : List (Step Mem) := (runs C S cfg st0 twinRun).1

theorem twinRun_ok : runsOk C S cfg st0 twinRun = true := by decide +kernel

theorem twinExec : Exec C S cfg twinHist (runs C S cfg st0 twinRun).2 := exec_of_runs twinRun_ok

def apartHist : List (Step Mem) := (runs C S cfg st0 apartRun).1

theorem apartRun_ok : runsOk C S cfg st0 apartRun = true := by decide +kernel

theorem apartExec : Exec C S cfg apartHist (runs C S cfg st0 apartRun).2 := exec_of_runs apartRun_ok

end Fix

end Ndncert
