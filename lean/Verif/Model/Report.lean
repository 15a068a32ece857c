import Verif.Model.Files
import Verif.Model.TextStore

/-! # What `ndncert-ca-status` prints (tools/ndncert-ca-status.cpp, src/detail/ca-request-state.cpp) -/

namespace Ndncert

/-- `statusToString` (ca-request-state.cpp:28-44) -/
def statusText : Status → Bytes
  | .beforeChallenge => bytes! "Before challenge"
  | .challenge => bytes! "In challenge"
  | .pending => bytes! "Pending after challenge"
  | .success => bytes! "Success"
  | .failure => bytes! "Failure"
  | .other _ => bytes! "Unrecognized status"

/-- the challenge part of `operator<<` (ca-request-state.cpp:76-84). `toIsoString` and `write_json` may throw. -/
def challengeText (cs : ChallengeState) : Res Bytes := do
  let time ← timeText cs.timestamp
  let json ← secretText cs.secrets
  .ok (bytes! "Challenge Status: " ++ cs.challengeStatus ++ [10] ++
    bytes! "Challenge remaining tries:" ++ decDigits cs.remainingTries ++ bytes! " times\n" ++
    bytes! "Challenge remaining time: " ++ intDigits cs.remainingTime ++ bytes! " seconds\n" ++
    bytes! "Challenge last update: " ++ time ++ [10] ++
    bytes! "Challenge secret: " ++ json ++ [10])

/-- `IndentedStream` with two spaces: every line is indented -/
def indented (lines : List Bytes) : Bytes := lines.flatMap (fun l => bytes! "  " ++ l ++ [10])

/-- `operator<<(std::ostream&, const RequestState&)` (ca-request-state.cpp:69-89). `certLines`: the lines ndn-cxx prints for a certificate, of
which the last ends with a line feed like the others. -/
def requestText (certLines : Cert → List Bytes) (r : RequestState) : Res Bytes := do
  let challenge ← (match r.challengeState with | some cs => challengeText cs | none => .ok [])
  .ok (bytes! "Request's CA name: " ++ nameUri r.caPrefix ++ [10] ++
    bytes! "Request's request ID: " ++ toHex r.requestId ++ [10] ++
    bytes! "Request's status: " ++ statusText r.status ++ [10] ++
    bytes! "Request's challenge type: " ++ r.challengeType ++ [10] ++
    challenge ++
    bytes! "Certificate:\n" ++ indented (certLines r.cert))

/-- the line around each request (ndncert-ca-status.cpp:69, 71) -/
def starLine : Bytes := bytes! "***************************************\n"

/-- the loop over the requests (ndncert-ca-status.cpp:68-72) -/
def entriesText (certLines : Cert → List Bytes) : List RequestState → Res Bytes
  | [] => .ok []
  | r :: rs => do
    let x ← requestText certLines r
    let y ← entriesText certLines rs
    .ok (starLine ++ x ++ starLine ++ y)

/-- what is printed once the requests are read (ndncert-ca-status.cpp:67-72) -/
def statusListing (certLines : Cert → List Bytes) (rs : List RequestState) : Res Bytes := do
  let x ← entriesText certLines rs
  .ok (bytes! "The pending requests are :\n" ++ x)

/-- `main` after the options (ndncert-ca-status.cpp:64-73): the text on the error stream, or an exception that ends the program. (An
exception in the loop comes after part of the text was printed; that part is left out here.) -/
def caStatusText (C : Crypto) (certLines : Cert → List Bytes) (db : Db) : Res Bytes := do
  let rs ← caStatus C db
  statusListing certLines rs

end Ndncert
