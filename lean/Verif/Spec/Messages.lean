import Verif.Model.Messages
import Verif.Spec.Challenge

/-! # What a program is told of an error -/

namespace Ndncert

/-- the error codes of the protocol and their names -/
def documentedCodes : List (Nat × Bytes) :=
  [(1, bytes! "BAD_INTEREST_FORMAT"), (2, bytes! "BAD_PARAMETER_FORMAT"), (3, bytes! "BAD_SIGNATURE"), (4, bytes! "INVALID_PARAMETER"),
   (5, bytes! "NAME_NOT_ALLOWED"), (6, bytes! "BAD_VALIDITY_PERIOD"), (7, bytes! "OUT_OF_TRIES"), (8, bytes! "OUT_OF_TIME"),
   (9, bytes! "NO_AVAILABLE_NAMES")]

/-- what the program reads with `what()` if a call ended with this exception -/
def Exc.Says (e : Exc) (text : Bytes) : Prop := ∃ code info, e = .caError code info ∧ text = whatOf (caErrorText code info)

/-- why the challenge module `k` refuses the parameters `es` for the request `r` with this code -/
def RefusedFor (k : ChalKind) (env : Env) (es : List Block) (r : RequestState) (code : Nat) : Prop :=
  code = 4 ∨ (code = 1 ∧ k = .possession) ∨
  (code = 8 ∧ (k = .pin ∨ k = .email) ∧ ∃ cs, r.challengeState = some cs ∧ secretLifetime k ≤ env.now - cs.timestamp) ∨
  (code = 7 ∧ (k = .pin ∨ k = .email) ∧ ∃ cs right, AwaitsCode r cs right ∧ ¬ Gives es right ∧ cs.remainingTries ≤ 1 ∧
    env.now - cs.timestamp < secretLifetime k)

end Ndncert
