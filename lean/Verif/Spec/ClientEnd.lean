import Verif.Spec.Client

/-! # Specification of how a run of the client goes on and ends -/

namespace Ndncert

/-- the act is an Interest -/
def Act.isInterest : Act → Bool
  | .asked _ _ => false
  | .install _ => false
  | _ => true

/-- the user was asked whether a CA is trusted and did not type yes -/
def Refused (h : List ClientStep) : Prop := ∃ p answer, Did h (.asked p answer) ∧ toLower answer ≠ (bytes! "yes")

/-- what was done last: in the last callback, or at the start if there was none -/
def lastActs (first : List Act) (h : List ClientStep) : List Act := (h.getLast?.map ClientStep.acts).getD first

/-- A reply with a CA profile that can be used: it is signed with the certificate in the profile. If the user selected a configured CA,
it verifies under the certificate configured; if the CA was announced by another one, its certificate has the full name announced. -/
def Usable (C : Crypto) (trusted : Option Cert) (full : Name) (d : Data) : Prop :=
  ∃ p t, infoDecode C d.content = .ok p ∧ p.cert = some t ∧ C.verifyData d t = true ∧
    (full = [] → ∀ t', trusted = some t' → C.verifyData d t' = true) ∧ (full ≠ [] → fullNameOf t = full)

/-- the reasons for the client to go on without sending an Interest -/
inductive Stalls (C : Crypto) (c : Client) : ClientEvent → Prop
  /-- a timeout -/
  | timeout : Stalls C c .timeout
  /-- a reply with a profile that cannot be used -/
  | profile {d : Data} {w : Block} {full : Name} (pending : c.pending = some (.info full)) (unusable : ¬ Usable C c.trusted full d) :
      Stalls C c (.reply d w)
  /-- a PROBE reply of the CA from which the user chose a name that is not under the CA's prefix -/
  | name {d : Data} {w : Block} {p : CaProfile} {t : Cert} {names : List (Name × Int)} {name : Name} (pending : c.pending = some (.probe p))
      (cert : p.cert = some t) (verified : C.verifyData d t = true) (decoded : probeDecode d.content [] [] = .ok (names, []))
      (chosen : Chosen names c.stdin name) (foreign : ¬ p.caPrefix <+: name) : Stalls C c (.reply d w)

end Ndncert
