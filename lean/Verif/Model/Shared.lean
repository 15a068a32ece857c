import Verif.Model.Files

/-! # Several CAs on one database

`CaModule` opens its storage without a path (src/ca-module.cpp:53), so `CaSqlite` takes a file in the home directory of the user whose name
is made from the CA prefix (src/detail/ca-sqlite.cpp:80-97). CAs of one user can therefore keep their requests in one file: two CAs whose
prefixes give the same file name (`dbFileName`), or the same CA after a restart with another configuration file. -/

namespace Ndncert

/-- one entry of the history of a storage: a CA running with this configuration executed this step -/
structure Served (σ : Type) where
  cfg : CaConfig
  step : Step σ

/-- Executions of any number of CAs on one storage that was empty at first: the history, oldest step first, and the storage reached. In each
step some CA process, with any configuration and any secret key for request ids, processes an Interest, is killed while it does, or is
restarted (ca-module.cpp:228-515 as in `Exec`). Simplification: a handler is not interleaved with a handler of another process. -/
inductive SharedExec {σ : Type} (C : Crypto) (S : StoreI σ) : List (Served σ) → σ → Prop where
  | init : SharedExec C S [] S.empty
  | step {h : List (Served σ)} {st : σ} (cfg : CaConfig) (idKey : Bytes) (e : Event) (prev : SharedExec C S h st) (wf : e.Wf cfg)
      (fits : NameFits cfg.profile.caPrefix) (possible : e.Possible C S cfg ⟨st, idKey⟩) :
      SharedExec C S (h ++ [⟨cfg, ⟨⟨st, idKey⟩, e, (e.run C S cfg ⟨st, idKey⟩).1⟩⟩]) (e.run C S cfg ⟨st, idKey⟩).2.store

end Ndncert
