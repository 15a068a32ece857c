import Verif.Model.Lifecycle
import Verif.Spec.Store
import Verif.Spec.Ca

/-! # When a CA module listens, and when its storage can be used -/

namespace Ndncert

/-- the forwarder has confirmed the prefix, and the module was not destroyed -/
def Listening (past : List (ModuleEvent × ModuleResult)) : Prop :=
  (∃ r, (.confirm, r) ∈ past) ∧ ∀ r, (.destroy, r) ∉ past

/-- the module was destroyed -/
def Destroyed (past : List (ModuleEvent × ModuleResult)) : Prop := ∃ r, (.destroy, r) ∈ past

/-- the names of the storages that exist -/
inductive StorageNamed : Bytes → StorageKind → Prop
  | memory : StorageNamed (bytes! "ca-storage-memory") .memory
  | sqlite : StorageNamed (bytes! "ca-storage-sqlite3") .sqlite

/-- the storage can be used: it starts empty, keeps what is added and updated, and forgets what is deleted (`LawfulStore`) -/
def UsableStorage (C : Crypto) (k : Option StorageKind) : Prop :=
  ∃ Inv : (storageOf C k).1 → Prop, LawfulStore C (storageOf C k).2 Inv

/-- answering the Interest takes the storage: a NEW or REVOKE that an empty storage would accept, a CHALLENGE with a request id -/
def Msg.NeedsStorage (C : Crypto) (cfg : CaConfig) (idKey : Bytes) (env : Env) : Msg → Prop
  | .probe _ => False
  | .new i => Accepted (onNewRenewRevoke C memStore cfg idKey [] .new i env)
  | .revoke i => Accepted (onNewRenewRevoke C memStore cfg idKey [] .revoke i env)
  | .challenge i => ∃ id rest, i.name.drop (cfg.profile.caPrefix.length + 2) = id :: rest ∧ id.val.length ≤ 8

end Ndncert
