import Verif.Spec.Config
import Verif.Spec.Options
import Verif.Model.ClientMain

/-! # What the configuration file of the client says -/

namespace Ndncert

/-- the document lists a CA with this name and this certificate; `load`: the certificate a text stands for -/
def ListsCa (load : Bytes → Option Cert) (t : PTree) (ca : Name) (cert : Cert) : Prop :=
  ∃ list, t.FirstEntry (bytes! "ca-list") list ∧ ∃ item ∈ list.kids,
    (∃ v, item.2.FirstEntry (bytes! "ca-prefix") v ∧ readUri v.data = some ca) ∧ ∃ v, item.2.FirstEntry (bytes! "certificate") v ∧ load v.data = some cert

end Ndncert
