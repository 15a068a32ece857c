import Verif.Model.Encoders
import Verif.Spec.Number

/-! # What the elements of a message say

The vocabulary of C110: how a message that is a list of TLV elements is to be read. Nothing here runs a decoder; type numbers are
those of the protocol. -/

namespace Ndncert

/-- the elements of one type, in the order of the message -/
def ofType (t : Nat) (es : List Block) : List Block := es.filter (fun b => b.typ == t)

/-- The field that elements of type `t` set: every such element can be read, the last one counts, and the field keeps what it was
if there is none. -/
def LastSays {α : Type} (t : Nat) (es : List Block) (Reads : Block → α → Prop) (old new : α) : Prop :=
  (∀ b ∈ ofType t es, ∃ a, Reads b a) ∧
    match (ofType t es).getLast? with
    | none => new = old
    | some b => Reads b new

/-- A field that elements fill one by one: the first entry is what the first element says, and so on. -/
inductive EachSays {α : Type} (Reads : Block → α → Prop) : List Block → List α → Prop where
  | nil : EachSays Reads [] []
  | cons {b : Block} {a : α} {bs as} : Reads b a → EachSays Reads bs as → EachSays Reads (b :: bs) (a :: as)

/-- an element that holds text or octets -/
def SaysBytes (b : Block) (s : Bytes) : Prop := s = b.val

/-- an element that holds a number: one, two, four or eight octets, most significant first -/
def SaysNumber (b : Block) (n : Nat) : Prop := b.val.length ∈ [1, 2, 4, 8] ∧ n = beVal b.val

/-- a Name element: its sub-elements are the components -/
def SaysName (b : Block) (n : Name) : Prop := b.typ = 7 ∧ parse b.val = .ok n

/-- an element that holds exactly one element, a Name -/
def HoldsName (b : Block) (n : Name) : Prop := ∃ e, parse b.val = .ok [e] ∧ SaysName e n

/-- an element whose first sub-element of type Name is to be read -/
def HasName (b : Block) (n : Name) : Prop :=
  ∃ inner e, parse b.val = .ok inner ∧ inner.find? (fun x => x.typ == 7) = some e ∧ parse e.val = .ok n

/-- an element whose first sub-element of type Data is a certificate -/
def HasCert (C : Crypto) (b : Block) (c : Option Cert) : Prop :=
  ∃ inner e, parse b.val = .ok inner ∧ inner.find? (fun x => x.typ == 6) = some e ∧ C.decodeCert e = c ∧ c ≠ none

/-- a number of 64 bits as a signed one -/
def asSigned64 (n : Nat) : Int := if n < 2 ^ 63 then n else (n : Int) - 2 ^ 64

/-- types that a reader may not skip if it does not know them -/
def MayNotSkip (t : Nat) : Prop := t ≤ 31 ∨ t % 2 = 1

/-- all elements of types other than those listed may be skipped -/
def OnlyKnown (known : List Nat) (es : List Block) : Prop := ∀ b ∈ es, b.typ ∉ known → ¬ MayNotSkip b.typ

/-- One suggestion of a PROBE reply: exactly one Name that is not empty (and no second Name after it; empty Names before it are
passed over), possibly a MaxSuffixLength, nothing else that may not be skipped. -/
def SaysSuggestion (b : Block) (s : Name × Int) : Prop :=
  ∃ inner, parse b.val = .ok inner ∧ OnlyKnown [7, 143] inner ∧
    (∃ before e, ofType 7 inner = before ++ [e] ∧ (∀ x ∈ before, parse x.val = .ok []) ∧ parse e.val = .ok s.1 ∧ s.1 ≠ []) ∧
    LastSays 143 inner (fun b (k : Int) => ∃ n, SaysNumber b n ∧ k = asSigned32 n) 0 s.2

/-- The parameters of a CHALLENGE reply: every ParameterKey is `nonce`, and directly after it comes a ParameterValue of 16 octets,
or the message ends; and a ParameterValue is nowhere else. -/
def NonceAfterKey : List Block → Prop
  | [] => True
  | [k] => k.typ ≠ 135 ∧ (k.typ = 133 → k.val = bytes! "nonce")
  | k :: v :: rest =>
    if k.typ = 133 then k.val = bytes! "nonce" ∧ v.typ = 135 ∧ v.val.length = 16 ∧ NonceAfterKey rest
    else k.typ ≠ 135 ∧ NonceAfterKey (v :: rest)

/-- The key and value pairs of PROBE parameters: what is between the pairs may be skipped. -/
inductive Pairs : List Block → List (Bytes × Bytes) → Prop where
  | nil : Pairs [] []
  | pair {k v : Block} {es kvs} : k.typ = 133 → v.typ = 135 → Pairs es kvs → Pairs (k :: v :: es) ((k.val, v.val) :: kvs)
  | skip {b : Block} {es kvs} : ¬ MayNotSkip b.typ → Pairs es kvs → Pairs (b :: es) kvs

/-- A sealed message, opened with a key and a request id: IV, tag and ciphertext are the first elements of their types; the IV has the
random part of the messages read before and a counter no smaller, and not the random part of the messages written; and the
IV kept for the next message is past the counter values this one used. -/
def Unseals (C : Crypto) (content : Block) (key id encIv decIv decIv' pt : Bytes) : Prop :=
  ∃ es ct iv tag, parse content.val = .ok es ∧ es.find? (fun x => x.typ == 159) = some ct ∧
    es.find? (fun x => x.typ == 157) = some iv ∧ es.find? (fun x => x.typ == 175) = some tag ∧
    iv.val.length = 12 ∧ tag.val.length = 16 ∧
    (encIv ≠ [] → 8 ≤ encIv.length ∧ iv.val.take 8 ≠ encIv.take 8) ∧
    (decIv ≠ [] → 12 ≤ decIv.length ∧ iv.val.take 8 = decIv.take 8 ∧
      beVal ((decIv.drop 8).take 4) ≤ beVal ((iv.val.drop 8).take 4)) ∧
    C.aesDec key iv.val id ct.val tag.val = some pt ∧ pt.length = ct.val.length ∧
    beVal ((iv.val.drop 8).take 4) + (pt.length + 15) / 16 % 2 ^ 32 < 2 ^ 32 - 1 ∧
    decIv' = iv.val.take 8 ++ beBytes 4 (beVal ((iv.val.drop 8).take 4) + (pt.length + 15) / 16 % 2 ^ 32)

/-- an element of type RemainingTime, read at a moment: the deadline is that many seconds later, all numbers being representable -/
def SaysDeadline (now : Time) (b : Block) (t : Time) : Prop :=
  ∃ n, SaysNumber b n ∧ t = now + asSigned64 n * 1000000000 ∧ -(2 ^ 63) ≤ asSigned64 n * 1000000000 ∧
    asSigned64 n * 1000000000 < 2 ^ 63 ∧ -(2 ^ 63) ≤ t ∧ t < 2 ^ 63

/-- what a requester knows after it has read the elements of a CHALLENGE reply; nothing else of it changes -/
def ReplySays (es : List Block) (now : Time) (q q' : Request) : Prop :=
  OnlyKnown [155, 163, 165, 167, 169, 30, 133, 135] es ∧ NonceAfterKey es ∧
    (∃ x n, ofType 155 es = [x] ∧ SaysNumber x n ∧ n ≤ 6 ∧ q'.status = Status.ofNat n) ∧
    LastSays 163 es SaysBytes q.challengeStatus q'.challengeStatus ∧
    LastSays 165 es (fun b k => ∃ n, SaysNumber b n ∧ k = asSigned32 n) q.remainingTries q'.remainingTries ∧
    LastSays 167 es (SaysDeadline now) q.freshBefore q'.freshBefore ∧
    LastSays 169 es HoldsName q.issuedCertName q'.issuedCertName ∧
    LastSays 30 es HoldsName q.forwardingHint q'.forwardingHint ∧
    LastSays 135 es SaysBytes q.nonce q'.nonce ∧
    q'.profile = q.profile ∧ q'.type = q.type ∧ q'.identityName = q.identityName ∧ q'.requestId = q.requestId ∧
    q'.challengeType = q.challengeType ∧ q'.ecdhPriv = q.ecdhPriv ∧ q'.aesKey = q.aesKey ∧
    q'.encryptionIv = q.encryptionIv ∧ q'.keyPair = q.keyPair

end Ndncert
