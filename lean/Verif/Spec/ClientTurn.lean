import Verif.Spec.Client

/-! # Specification: the CAs that the user of the client chooses -/

namespace Ndncert

/-- The CA chosen at the start: the configured one whose number is typed, or, after `none`, the one whose name is typed. `ca`: its
name, `anchor`: its certificate if it is configured, `rest`: the lines left. -/
inductive Selected (T : TextIO) (known : Profiles) : (lines : List Bytes) → (ca : Name) → (anchor : Option Cert) → (rest : List Bytes) → Prop
  | configured {line : Bytes} {rest : List Bytes} {j : Nat} {q : CaProfile} (notNone : toLower line ≠ (bytes! "none"))
      (number : StandsFor line j) (listed : known[j]? = some q) : Selected T known (line :: rest) q.caPrefix q.cert rest
  | named {line : Bytes} {rest : List Bytes} {ca : Name} (isNone : toLower line = (bytes! "none")) (name : T.nameOfUri (rest.headD []) = some ca) :
      Selected T known (line :: rest) ca none rest.tail

/-- the name under which the metadata of a CA's profile is found: `CA` is appended to the name of the CA unless it is there already -/
inductive MetadataName : (ca name : Name) → Prop
  | plain {ca : Name} (h : ∀ c, ca.getLast? = some c → c.val ≠ (bytes! "CA")) (nonempty : ca ≠ []) :
      MetadataName ca (ca ++ [gcomp (bytes! "CA"), gcomp (bytes! "INFO"), ⟨32, bytes! "metadata"⟩])
  | component {ca : Name} (h : ∃ c, ca.getLast? = some c ∧ c.val = (bytes! "CA")) :
      MetadataName ca (ca ++ [gcomp (bytes! "INFO"), ⟨32, bytes! "metadata"⟩])

/-- the redirection to follow: the only one announced, or the one whose number is typed in the next line -/
inductive ChosenCa (redirects : List Name) (lines : List Bytes) : Name → Prop
  | only {n : Name} (announced : redirects = [n]) : ChosenCa redirects lines n
  | typed {n : Name} {line : Bytes} {rest : List Bytes} {j : Nat} (several : redirects.length ≠ 1) (next : lines = line :: rest)
      (number : StandsFor line j) (announced : redirects[j]? = some n) : ChosenCa redirects lines n

/-- the full name of a certificate of this CA -/
def FullNameOfCa (ca full : Name) : Prop :=
  ∃ keyId issuer version digest, full = ca ++ [gcomp (bytes! "KEY"), keyId, issuer, version, digest]

end Ndncert
