import Verif.Spec.History

/-! # Executions of a CA whose configuration changes when it is restarted -/

namespace Ndncert

variable {σ : Type}

/-- Executions of a CA for the prefix `ca` that is started on an empty storage, whose configuration file may be another one after every restart: the
history, oldest step first, each with the configuration in force, and the configuration in force and the state at the end. The prefix stays, since
the storage belongs to a prefix. -/
inductive Reconfigured (C : Crypto) (S : StoreI σ) (ca : Name) : List (CaConfig × Step σ) → CaConfig → CaState σ → Prop where
  | init (cfg : CaConfig) (idKey : Bytes) (prefix_ : cfg.profile.caPrefix = ca) :
      Reconfigured C S ca [] cfg { store := S.empty, idKey := idKey }
  | step {h : List (CaConfig × Step σ)} {cfg : CaConfig} {s : CaState σ} (e : Event) (prev : Reconfigured C S ca h cfg s) (wf : e.Wf cfg)
      (possible : e.Possible C S cfg s) :
      Reconfigured C S ca (h ++ [(cfg, ⟨s, e, (e.run C S cfg s).1⟩)]) cfg (e.run C S cfg s).2
  | reconfigure {h : List (CaConfig × Step σ)} {cfg : CaConfig} {s : CaState σ} (cfg' : CaConfig) (idKey : Bytes) (prev : Reconfigured C S ca h cfg s)
      (prefix_ : cfg'.profile.caPrefix = ca) :
      Reconfigured C S ca (h ++ [(cfg', ⟨s, .restart idKey, []⟩)]) cfg' { store := S.reopen s.store, idKey := idKey }

end Ndncert
