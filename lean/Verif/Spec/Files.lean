import Verif.Spec.History
import Verif.Model.Config

/-! # Pending requests and listed trust anchors -/

namespace Ndncert

variable {σ : Type}

/-- the history accepted a request with this id, and since then neither removed it nor accepted another one with it -/
def PendingIn (h : List (Step σ)) (id : RequestId) : Prop :=
  ∃ h1 n h2 i env r, h = h1 ++ n :: h2 ∧ (AcceptsNew n i env r ∨ AcceptsRevoke n i env r) ∧ r.requestId = id ∧ Kept id h2

/-- the text is a JSON document with a list "anchor-list", one entry of which has a "certificate" that is this one -/
def ListedIn (T : TextIO) (text : Bytes) (c : Cert) : Prop :=
  ∃ doc list entry, T.readJson text = some doc ∧ doc.child (bytes! "anchor-list") = some list ∧ entry ∈ list.kids ∧
    T.loadCert (entry.2.getStr (bytes! "certificate") []) = some c

end Ndncert
