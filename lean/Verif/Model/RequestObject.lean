import Verif.Model.Requester

/-! # A `requester::Request` object and the calls a program may make on it

`Request` (src/requester-request.hpp:36-270) is the library's interface for programs that ask for certificates. Its methods can be called in any
order and any number of times. -/

namespace Ndncert

/-- `Request::Request` (requester-request.cpp:113-118) with the default member initialisers (requester-request.hpp:199-269): the AES key and
the nonce are 16 zero octets; `m_requestId` has no initialiser, `id` is what is in memory. `priv`: the ECDH key drawn by `ECDHState`. -/
def Request.create (p : CaProfile) (ty : RequestType) (priv : Bytes) (id : RequestId) : Request :=
  { profile := p, type := ty, requestId := id, ecdhPriv := priv, aesKey := List.replicate 16 0, nonce := List.replicate 16 0 }

/-- a call of a method that is not static, with its arguments and what it draws or reads from the clock. `genCertFetchInterest` and
`onCertFetchResponse` (requester-request.cpp:251-271) change nothing and are left out. -/
inductive ReqCall where
  | genNew (key : Name) (nb na : Time) (version : Block)
  | genRevoke (cert : Cert)
  | onNew (reply : Data) (stack : Bytes)
  | select (challenge : Bytes)
  | genChallenge (params : MMap) (rnd : Bytes)
  | onChallenge (reply : Data) (now : Time)

/-- what a call returns -/
inductive ReqReturn where
  | interest (i : Interest)
  | null
  | challenges (l : List Bytes)
  | keys (l : List Bytes)
  | nothing
  deriving DecidableEq

/-- the result of a call, given the one of the method -/
def Res.as {α β : Type} (f : α → β) : Res α → Res β
  | .ok a => .ok (f a)
  | .exc e => .exc e
  | .ub u => .ub u

/-- a pointer to an Interest -/
def ReqReturn.ofOption : Option Interest → ReqReturn
  | some i => .interest i
  | none => .null

/-- the effect of a call on the object, and its result (requester-request.cpp:120-249) -/
def ReqCall.run (C : Crypto) (r : Request) : ReqCall → Request × Res ReqReturn
  | .genNew key nb na version => ((genNewInterest C r key nb na version).1, (genNewInterest C r key nb na version).2.as .ofOption)
  | .genRevoke cert => (r, .ok (.ofOption (genRevokeInterest C r cert)))
  | .onNew reply stack => ((onNewResponse C r reply stack).1, (onNewResponse C r reply stack).2.as .challenges)
  | .select challenge => ((selectOrContinueChallenge r challenge).1, (selectOrContinueChallenge r challenge).2.as .keys)
  | .genChallenge params rnd => ((genChallengeInterest C r params rnd).1, (genChallengeInterest C r params rnd).2.as .interest)
  | .onChallenge reply now => ((onChallengeResponse C r reply now).1, (onChallengeResponse C r reply now).2.as (fun _ => .nothing))

/-- what the program and the machine can supply: arguments and Data of bounded size, 32 octets of memory for the salt, eight random octets -/
def ReqCall.Wf : ReqCall → Prop
  | .genNew .. => True
  | .genRevoke _ => True
  | .onNew _ stack => stack.length = 32
  | .select _ => True
  | .genChallenge params rnd => rnd.length = 8 ∧ ∀ e ∈ params, e.2.length < 2 ^ 32
  | .onChallenge reply _ => reply.content.val.length < 2 ^ 32

/-- a call that was made and its result -/
structure Called where
  call : ReqCall
  result : Res ReqReturn

/-- the calls made on an object that was created as `r0`, oldest first, and the object reached; no call so far had undefined behaviour -/
inductive ReqRun (C : Crypto) (r0 : Request) : List Called → Request → Prop where
  | init : ReqRun C r0 [] r0
  | call {h : List Called} {r : Request} (c : ReqCall) (prev : ReqRun C r0 h r) (wf : c.Wf) (defined : ∀ u, (c.run C r).2 ≠ .ub u) :
      ReqRun C r0 (h ++ [⟨c, (c.run C r).2⟩]) (c.run C r).1

end Ndncert
