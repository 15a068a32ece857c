import Verif.Model.RequestObject
import Verif.Spec.Client
import Verif.Spec.IvRuns

/-! # Vocabulary for the calls on a `Request` object -/

namespace Ndncert

/-- this call returned a CHALLENGE Interest -/
def Called.SendsChallenge (n : Called) (i : Interest) : Prop := (∃ params rnd, n.call = .genChallenge params rnd) ∧ n.result = .ok (.interest i)

/-- this call made a NEW Interest -/
def Called.MakesNew (n : Called) : Prop := (∃ key nb na version, n.call = .genNew key nb na version) ∧ ∃ i, n.result = .ok (.interest i)

/-- this call passed a reply to NEW or REVOKE to the object, which accepted it -/
def Called.AcceptsReply (n : Called) (d : Data) : Prop := (∃ stack, n.call = .onNew d stack) ∧ ∃ l, n.result = .ok (.challenges l)

/-- the parameters of the Interest hold an IV (type 157), a tag (175) and a ciphertext (159) -/
def Interest.CarriesSealed (i : Interest) (iv tag ct : Bytes) : Prop :=
  ∃ b es, i.params = some b ∧ parse b.val = .ok es ∧ es.map (·.typ) = [157, 175, 159] ∧ es.map (·.val) = [iv, tag, ct]

/-- the Interest is a CHALLENGE to the CA `ca` for the request `id`, and what it carries can be decrypted with `key` to `pt` -/
def SealedFor (C : Crypto) (i : Interest) (ca : Name) (id : RequestId) (key pt : Bytes) : Prop :=
  (∃ digest, i.name = ca ++ [⟨8, bytes! "CA"⟩, ⟨8, bytes! "CHALLENGE"⟩, ⟨8, id⟩, ⟨2, digest⟩]) ∧
  ∃ iv tag ct, i.CarriesSealed iv tag ct ∧ C.aesDec key iv id ct tag = some pt

/-- why a call on an object with the profile `p`, now in state `r`, has undefined behaviour -/
inductive ReqUb (C : Crypto) (p : CaProfile) (r : Request) : ReqCall → Ub → Prop where
  /-- the program passed a profile without certificate -/
  | noCertNew (d : Data) (stack : Bytes) (none : p.cert = none) : ReqUb C p r (.onNew d stack) .nullDeref
  | noCertChallenge (d : Data) (now : Time) (none : p.cert = none) : ReqUb C p r (.onChallenge d now) .nullDeref
  /-- a NEW or REVOKE reply signed by the CA has a salt or request id that is too long -/
  | tooLong (d : Data) (stack : Bytes) (t : Cert) (es : List Block) (e : Block) (cert : p.cert = some t) (verified : C.verifyData d t = true)
      (elements : parse d.content.val = .ok es) (mem : e ∈ es)
      (long : (e.typ = 149 ∧ 32 < e.val.length) ∨ (e.typ = 151 ∧ 8 < e.val.length)) : ReqUb C p r (.onNew d stack) .overflow
  /-- a CHALLENGE reply signed by the CA and encrypted with the key of the object gives a remaining time outside the range of the clock -/
  | deadline (d : Data) (now : Time) (t : Cert) (pt : Bytes) (es : List Block) (e : Block) (n : Nat) (cert : p.cert = some t)
      (verified : C.verifyData d t = true)
      (decrypted : (decodeAes C d.content r.aesKey r.requestId r.decryptionIv r.encryptionIv).2 = .ok pt) (elements : parse pt = .ok es)
      (mem : e ∈ es) (typ : e.typ = 167) (number : readNni e = .ok n) (long : ¬ DeadlineFits now n) : ReqUb C p r (.onChallenge d now) .signedOverflow

/-! ## Concrete runs -/

/-- make the calls one after the other -/
def calls (C : Crypto) : Request → List ReqCall → List Called × Request
  | r, [] => ([], r)
  | r, c :: cs =>
    let x := c.run C r
    let y := calls C x.1 cs
    (⟨c, x.2⟩ :: y.1, y.2)

def callOk : ReqCall → Bool
  | .onNew _ stack => decide (stack.length = 32)
  | .genChallenge params rnd => decide (rnd.length = 8) && params.all (fun e => decide (e.2.length < 2 ^ 32))
  | .onChallenge reply _ => decide (reply.content.val.length < 2 ^ 32)
  | _ => true

def definedOk : Res ReqReturn → Bool
  | .ub _ => false
  | _ => true

/-- every call is well formed and defined -/
def callsOk (C : Crypto) : Request → List ReqCall → Bool
  | _, [] => true
  | r, c :: cs => callOk c && definedOk (c.run C r).2 && callsOk C (c.run C r).1 cs

theorem callOk_wf {c : ReqCall} (h : callOk c = true) : c.Wf := by
  cases c with
  | onNew d stack => simpa [callOk, ReqCall.Wf] using h
  | genChallenge params rnd =>
    unfold callOk at h
    rw [Bool.and_eq_true, List.all_eq_true] at h
    exact ⟨by simpa using h.1, fun e he => by simpa using h.2 e he⟩
  | onChallenge d now => simpa [callOk, ReqCall.Wf] using h
  | genNew _ _ _ _ => trivial
  | genRevoke _ => trivial
  | select _ => trivial

theorem run_of_calls {C : Crypto} {r0 : Request} : ∀ {cs : List ReqCall} {h : List Called} {r : Request}, ReqRun C r0 h r → callsOk C r cs = true →
    ReqRun C r0 (h ++ (calls C r cs).1) (calls C r cs).2
  | [], h, r, hx, _ => by simpa [calls] using hx
  | c :: cs, h, r, hx, ho => by
    unfold callsOk at ho
    rw [Bool.and_eq_true, Bool.and_eq_true] at ho
    have h1 := ReqRun.call c hx (callOk_wf ho.1.1) (fun u hu => by have := ho.1.2; rw [hu] at this; cases this)
    have h2 := run_of_calls h1 ho.2
    simpa [calls] using h2

/-- the values of the first three elements of the parameters -/
def sealedParts (i : Interest) : Bytes × Bytes × Bytes :=
  match i.params with
  | some b => match parse b.val with
    | .ok [x, y, z] => (x.val, y.val, z.val)
    | _ => ([], [], [])
  | none => ([], [], [])

def sealedOk (i : Interest) : Bool :=
  match i.params with
  | some b => match parse b.val with
    | .ok [x, y, z] => decide (x.typ = 157) && decide (y.typ = 175) && decide (z.typ = 159)
    | _ => false
  | none => false

theorem sealedOk_carries {i : Interest} (h : sealedOk i = true) : i.CarriesSealed (sealedParts i).1 (sealedParts i).2.1 (sealedParts i).2.2 := by
  unfold sealedOk at h
  split at h
  · next b hb =>
    split at h
    · next x y z hp =>
      have hs : sealedParts i = (x.val, y.val, z.val) := by unfold sealedParts; simp only [hb, hp]
      rw [hs]
      simp only [Bool.and_eq_true, decide_eq_true_eq] at h
      exact ⟨b, _, hb, hp, by simp [h.1.1, h.1.2, h.2], rfl⟩
    · cases h
  · cases h

end Ndncert
