import Verif.Spec.Toy
import Verif.Spec.Ca

/-! # A concrete CA, requester and run

Used in examples and witnesses only. -/

namespace Ndncert.Fix

abbrev C : Crypto := Toy.crypto

/-- /ndn -/
def ca : Name := [gcomp (bytes! "ndn")]

/-- the CA's certificate -/
def caCert : Cert :=
  { wire := ⟨6, []⟩, name := ca ++ [keyComponent, gcomp [1], gcomp (bytes! "self"), gcomp [1]],
    content := some (Toy.idPub ca), keyLocator := none, validity := some (0, 10 ^ 18), digest := [] }

def profile : CaProfile :=
  { caPrefix := ca, forwardingHint := [gcomp (bytes! "hint")], maxValidityPeriod := 86400, maxSuffixLength := some 1,
    supportedChallenges := [bytes! "pin"], cert := some caCert }

def cfg : CaConfig := { profile := profile }

/-- the surroundings of a handler execution at time `t` seconds -/
def env (t : Int) (salt : UInt8 := 5) (word : Nat := 4294123456) : Env :=
  { now := t * nsPerSec, nowStore := t * nsPerSec, caCert := caCert, ecdhPriv := [9, 9], salt := List.replicate 32 salt,
    ivRnd := List.replicate 8 77, word32 := word % 4294000000, nonce := List.replicate 16 171, rand64 := fun n => n,
    version := ⟨54, [3]⟩, anchors := .ok [caCert], spawnOk := true, stack := List.replicate 8 0 }

theorem env_wf (t : Int) (salt : UInt8) (word : Nat) : (env t salt word).Wf where
  salt := by simp [env]
  ivRnd := by simp [env]
  word := Nat.mod_lt _ (by decide)
  nonce := by simp [env]
  stack := by simp [env]
  anchors := by simp [env]

/-- /ndn/alice/KEY/k -/
def key : Name := ca ++ [gcomp (bytes! "alice"), keyComponent, gcomp [107]]

/-- a fresh requester -/
def requester : Request :=
  { profile := profile, type := .new, requestId := List.replicate 8 0, ecdhPriv := [1, 2], aesKey := List.replicate 16 0,
    nonce := List.replicate 16 0 }

def blankInterest : Interest := ⟨[], none, []⟩

def interestOf : Res (Option Interest) → Interest
  | .ok (some i) => i
  | _ => blankInterest

def interestOf' : Res Interest → Interest
  | .ok i => i
  | _ => blankInterest

def firstData : List Effect → Data
  | .put d :: _ => d
  | _ :: es => firstData es
  | [] => ⟨[], ⟨0, []⟩, []⟩

/-- the requester's NEW Interest at time 1000 s for one hour -/
def gen1 : Request × Res (Option Interest) :=
  genNewInterest C requester key (1000 * nsPerSec) (4600 * nsPerSec) ⟨54, [2]⟩
def newInterest : Interest := interestOf gen1.2

def idKey : Bytes := List.replicate 32 8

-- only the kernel has to evaluate these
attribute [irreducible] gen1 newInterest

end Ndncert.Fix
