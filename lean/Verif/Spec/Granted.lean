import Verif.Spec.Challenge

/-! # The terms of a challenge, as replies announce them (C139) -/

namespace Ndncert

/-- the reply tells the requester that the challenge goes on, with this challenge status, so many remaining tries and so
many remaining seconds -/
def TellsTerms (C : Crypto) (r : RequestState) (d : Data) (chalStatus : Bytes) (tries seconds : Nat) : Prop :=
  ∃ rest, Encloses C r d (nniBlock T.Status Status.challenge.toNat :: binBlock T.ChallengeStatus chalStatus ::
    nniBlock T.RemainingTries tries :: nniBlock T.RemainingTime seconds :: rest)

/-- what is announced when a challenge starts -/
structure Terms where
  chalStatus : Bytes
  tries : Nat
  seconds : Nat

/-- a PIN or an emailed code may be tried three times, within an hour or five minutes; a proof of possession can be
given once, within a minute -/
def firstTerms : ChalKind → Terms
  | .pin => ⟨bytes! "need-code", 3, 3600⟩
  | .email => ⟨bytes! "need-code", 3, 300⟩
  | .possession => ⟨bytes! "need-proof", 1, 60⟩

/-- the whole seconds that were left at this time of the lifetime of a code that was set at `t0` -/
def secondsLeft (k : ChalKind) (t0 now : Time) : Nat := ((t0 + secretLifetime k - now) / 1000000000).toNat

/-- no step stores anything under this id -/
def NothingStored {σ : Type} (id : RequestId) (h : List (Step σ)) : Prop :=
  ∀ n ∈ h, ∀ r, (.dbAdd r ∈ n.effects ∨ .dbUpdate r ∈ n.effects) → r.requestId ≠ id

end Ndncert
