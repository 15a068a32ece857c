import Verif.Spec.IvRuns
import Verif.Model.RequestObject

/-! # Replies that are not for this request (C146) -/

namespace Ndncert

/-- the content of a Data packet holds a ciphertext (159), an IV (157) and a tag (175) that open under the key, for the request id -/
def OpensWith (C : Crypto) (d : Data) (key : Bytes) (id : RequestId) : Prop :=
  ∃ es ct iv tag pt, parse d.content.val = .ok es ∧ es.find? (fun e => e.typ == T.EncryptedPayload) = some ct ∧
    es.find? (fun e => e.typ == T.InitializationVector) = some iv ∧ es.find? (fun e => e.typ == T.AuthenticationTag) = some tag ∧
    C.aesDec key iv.val id ct.val tag.val = some pt

/-- a Request object takes the reply to its CHALLENGE -/
def Request.takes (C : Crypto) (q : Request) (d : Data) (now : Time) : Prop := ((ReqCall.onChallenge d now).run C q).2 = .ok .nothing

/-- the object after it was given a Data packet as a reply to CHALLENGE -/
def Request.given (C : Crypto) (q : Request) (d : Data) (now : Time) : Request := ((ReqCall.onChallenge d now).run C q).1

end Ndncert
