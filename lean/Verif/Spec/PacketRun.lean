import Verif.Spec.Packet
import Verif.Spec.Run

/-! # A run with certificates, replies and Interests as octets

Used only to give concrete cases. -/

namespace Ndncert.PacketRun
open Ndncert Ndncert.Fix

/-- a toy signature scheme: everyone can sign -/
def ring : KeyRing where
  pubOf priv := priv
  sign priv text := Toy.pad 32 (Toy.sum priv :: Toy.sum text :: text.reverse)
  verify pub text sig := sig == Toy.pad 32 (Toy.sum pub :: Toy.sum text :: text.reverse)
  sigType _ := 3
  idPriv := Toy.idPub
  idLocator _ := ca ++ [keyComponent, gcomp [1]]
  keyPriv := Toy.keyPub
  keyLocator _ := key

theorem ring_lawful : ring.Lawful where
  verifies _ _ := by simp [ring]
  sign_length _ _ := by show (Toy.pad 32 _).length < _; rw [Toy.pad_length]; decide
  id_locator _ := by show NameFits (ca ++ [keyComponent, gcomp [1]]) ∧ (encodeAll (ca ++ [keyComponent, gcomp [1]])).length < 2 ^ 32; decide +kernel
  key_locator _ := by show NameFits key ∧ (encodeAll key).length < 2 ^ 32; decide +kernel

def C : Crypto := packetCrypto ring Toy.crypto

def gen1 : Request × Res (Option Interest) :=
  genNewInterest C requester key (1000 * nsPerSec) (4600 * nsPerSec) ⟨54, [2]⟩

def interest1 : Interest := interestOf gen1.2
def ev1 : Event := .msg (.new interest1) env1
def st1 : CaState Mem := (ev1.run C S cfg st0).2
def reply1 : Data := firstData (ev1.run C S cfg st0).1
def req1 : Request := (onNewResponse C gen1.1 reply1 (List.replicate 32 0)).1

def gen2 : Request × Res Interest := genChallengeInterest C (selectOrContinueChallenge req1 (bytes! "pin")).1 [] (List.replicate 8 3)
def chal1 : Interest := interestOf' gen2.2
def ev2 : Event := .msg (.challenge chal1) env2
def st2 : CaState Mem := (ev2.run C S cfg st1).2
def reply2 : Data := firstData (ev2.run C S cfg st1).1
def req2 : Request := (onChallengeResponse C gen2.1 reply2 (1001 * nsPerSec)).1

def gen3 : Request × Res Interest :=
  genChallengeInterest C (selectOrContinueChallenge req2 (bytes! "pin")).1 [(KEY_CODE, secretCode env2.word32)] (List.replicate 8 3)
/-- the right code -/
def chal2 : Interest := interestOf' gen3.2
def ev3 : Event := .msg (.challenge chal2) env3

def run : List Event := [ev1, ev2, ev3]

theorem run_ok : runsOk C S cfg st0 run = true := by decide +kernel

def hist : List (Step Mem) := (runs C S cfg st0 run).1

theorem exec : Exec C S cfg hist (runs C S cfg st0 run).2 := exec_of_runs run_ok

/-- the certificate issued -/
def cert : Cert := (issued (ev3.run C S cfg st2).1).headD caCert

/-- the last step -/
def last : Step Mem := ⟨st2, ev3, (ev3.run C S cfg st2).1⟩

theorem cert_issued : .issue cert ∈ last.effects ∧ cert.wire.val.length < 2 ^ 64 := by decide +kernel

theorem runs_three {σ : Type} (C : Crypto) (S : StoreI σ) (cfg : CaConfig) (s : CaState σ) (a b c : Event) :
    (runs C S cfg s [a, b, c]).1 = (runs C S cfg s [a, b]).1 ++
      ⟨(b.run C S cfg (a.run C S cfg s).2).2, c, (c.run C S cfg (b.run C S cfg (a.run C S cfg s).2).2).1⟩ :: [] := rfl

/-- the last step issues the certificate -/
theorem hist_last : hist = (runs C S cfg st0 [ev1, ev2]).1 ++ last :: [] := runs_three C S cfg st0 ev1 ev2 ev3

end Ndncert.PacketRun
