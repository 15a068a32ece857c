import Verif.Spec.Lifecycle
import Verif.Spec.Face
import Verif.Spec.Fixtures
import Verif.Lemmas.Lifecycle
import Verif.Lemmas.CaNew
import Verif.Lemmas.Sqlite
import Verif.Lemmas.StrictSteps
import Verif.Props.ConfigText

/-! # C114, C115: construction, registration and destruction of a CA module -/

namespace Ndncert.Props

open Ndncert

/-! ## C114 -/

section
variable {p : CaProfile} {h past later : List (ModuleEvent × ModuleResult)} {l : ModuleLife}

theorem listening_iff {past : List (ModuleEvent × ModuleResult)} {l : ModuleLife} (hl : ModuleRuns p past l) :
    Listening past ↔ l.alive = true ∧ l.registration = .confirmed := by
  rw [hl.inv.alive, hl.inv.confirmed]
  unfold Listening
  simp only [List.mem_map, Prod.exists, exists_and_right, exists_eq_right, not_exists]
  exact and_comm

theorem gone_iff {past : List (ModuleEvent × ModuleResult)} {l : ModuleLife} (hl : ModuleRuns p past l) : Destroyed past ↔ l.alive = false := by
  rw [← Bool.not_eq_true, hl.inv.alive]
  unfold Destroyed
  simp

/-- **C114** From the confirmation of its prefix until it is destroyed, a CA module gets every Interest for one of its five handlers, by that handler alone,
and no other Interest; before and after that it gets none. -/
theorem C114_interests {name : Name} {r : ModuleResult} (hl : ModuleRuns p h l) (he : h = past ++ (.interest name, r) :: later) :
    (Listening past → ∃ hs, r = .calls hs ∧ hs.length ≤ 1 ∧ ∀ x, x ∈ hs ↔ x.For p name) ∧
    (¬ Listening past → r = .calls []) := by
  obtain ⟨l1, h1, _, rfl⟩ := hl.split he
  rw [listening_iff h1]
  constructor
  · rintro ⟨ha, hc⟩
    have hf := h1.inv.filters
    rw [if_pos ⟨ha, hc⟩] at hf
    refine ⟨dispatch p name, ?_, ?_, fun x => mem_dispatch⟩
    · unfold ModuleLife.step
      dsimp only
      rw [if_pos (.inl ha), hf]
      rfl
    · rcases dispatch_eq p name with h0 | ⟨_, h0, _⟩ <;> simp [h0]
  · intro hn
    have hf := h1.inv.filters
    rw [if_neg hn] at hf
    unfold ModuleLife.step
    dsimp only
    rw [hf, if_pos (.inr rfl)]
    rfl

/-- **C114** A module that was destroyed is used in exactly one case: the forwarder answers its registration only after that.
Missing to "it is never used": that case, see `C114_false`. -/
theorem C114_destroyed_partial {e : ModuleEvent} {r : ModuleResult} (hl : ModuleRuns p h l) (he : h = past ++ (e, r) :: later) :
    r = .usedAfterDestruction ↔ (e = .confirm ∨ e = .refuse) ∧ Destroyed past := by
  obtain ⟨l1, h1, _, rfl⟩ := hl.split he
  rw [gone_iff h1]
  cases e with
  | confirm => unfold ModuleLife.step; cases l1.alive <;> simp
  | refuse => unfold ModuleLife.step; cases l1.alive <;> simp
  | destroy => unfold ModuleLife.step; simp
  | interest name =>
    have hf := h1.inv.filters
    unfold ModuleLife.step
    cases ha : l1.alive with
    | true => simp
    | false => rw [ha, if_neg (by simp)] at hf; simp [hf]

/-- whatever happens, a module is not used after its destruction -/
def SafelyDestroyed (p : CaProfile) : Prop :=
  ∀ h l, ModuleRuns p h l → ∀ x ∈ h, x.2 ≠ ModuleResult.usedAfterDestruction

/-- **C114** Destroying a module that still waits for the forwarder is not safe. -/
theorem C114_false (p : CaProfile) : ¬ SafelyDestroyed p := by
  intro hs
  have h1 := ModuleRuns.step (p := p) .destroy .constructed rfl
  have h2 := ModuleRuns.step (p := p) .confirm h1 rfl
  exact hs _ _ h2 _ (List.mem_append_right _ (List.mem_singleton_self _)) rfl

end

/-- a module is constructed, confirmed, gets two Interests, is destroyed, and the last Interest comes -/
example : ∃ h l, ModuleRuns Fix.profile h l ∧ h =
    [(.interest Fix.newInterest.name, .calls []), (.confirm, .calls []), (.interest Fix.newInterest.name, .calls [.new]), (.interest Fix.ca, .calls []),
     (.destroy, .calls []), (.interest Fix.newInterest.name, .calls [])] := by
  have h0 := ModuleRuns.step (p := Fix.profile) (.interest Fix.newInterest.name) .constructed trivial
  have h1 := ModuleRuns.step (p := Fix.profile) .confirm h0 rfl
  have h2 := ModuleRuns.step (p := Fix.profile) (.interest Fix.newInterest.name) h1 trivial
  have h3 := ModuleRuns.step (p := Fix.profile) (.interest Fix.ca) h2 trivial
  have h4 := ModuleRuns.step (p := Fix.profile) .destroy h3 rfl
  have h5 := ModuleRuns.step (p := Fix.profile) (.interest Fix.newInterest.name) h4 trivial
  exact ⟨_, _, h5, by decide +kernel⟩

/-! ## C115 -/

theorem storageNamed_iff {ty : Bytes} {k : StorageKind} : createCaStorage ty = some k ↔ StorageNamed ty k := by
  unfold createCaStorage
  constructor
  · intro h
    split at h
    · rename_i ht; cases h; subst ht; exact .memory
    · split at h
      · rename_i ht; cases h; subst ht; exact .sqlite
      · cases h
  · rintro (_ | _) <;> decide +kernel

theorem unnamed_iff {ty : Bytes} : createCaStorage ty = none ↔ ∀ k, ¬ StorageNamed ty k := by
  constructor
  · intro h k hk; rw [storageNamed_iff.mpr hk] at h; cases h
  · intro h
    cases hc : createCaStorage ty with
    | none => rfl
    | some k => exact absurd (storageNamed_iff.mp hc) (h k)

/-- **C115** With the name of a storage that exists, a CA module is constructed exactly if the configuration file is understood and, for the database, it can
be opened; it has the configuration of the file and the storage with that name, which can be used. Otherwise the constructor throws.
Missing: other names, see `C115_false`. -/
theorem C115_known_partial (C : Crypto) (T : TextIO) (file ty : Bytes) (opens : Bool) (idKey : Bytes) {k : StorageKind} (hk : StorageNamed ty k) :
    (∀ c, constructCa T file ty opens idKey = .ok c ↔ loadConfig T file = .ok c.config ∧ (k = .sqlite → opens = true) ∧ c.storage = some k ∧ c.idKey = idKey) ∧
    (∀ l, loadConfig T file = .ok l → k = .sqlite → opens = false → ∃ e, constructCa T file ty opens idKey = .exc e) ∧
    UsableStorage C (some k) := by
  have hs := storageNamed_iff.mpr hk
  refine ⟨fun c => ?_, fun l hl h1 h2 => ?_, ?_⟩
  · unfold constructCa
    rw [hs]
    obtain ⟨cl, ck, ci⟩ := c
    cases hl : loadConfig T file with
    | exc e => simp [Bind.bind, Res.bind]
    | ub u => simp [Bind.bind, Res.bind]
    | ok l =>
      cases k <;> cases opens <;> simp [Bind.bind, Res.bind, eq_comm]
  · unfold constructCa
    rw [hs, hl, h1, h2]
    exact ⟨.runtime, rfl⟩
  · cases k with
    | memory => exact ⟨_, memStore_lawful C⟩
    | sqlite => exact ⟨_, sqlStore_lawful C⟩

/-- **C115** With any other name the constructor does not throw if the configuration file is understood, and the module has no storage. -/
theorem C115_unknown (T : TextIO) (file ty : Bytes) (opens : Bool) (idKey : Bytes) (hty : ∀ k, ¬ StorageNamed ty k) (c : Constructed) :
    constructCa T file ty opens idKey = .ok c ↔ loadConfig T file = .ok c.config ∧ c.storage = none ∧ c.idKey = idKey := by
  unfold constructCa
  rw [unnamed_iff.mpr hty]
  obtain ⟨cl, ck, ci⟩ := c
  cases hl : loadConfig T file with
  | exc e => simp [Bind.bind, Res.bind]
  | ub u => simp [Bind.bind, Res.bind]
  | ok l => simp [Bind.bind, Res.bind, eq_comm]

/-- **C115** A module without storage: every NEW and REVOKE Interest that passes all checks, and every CHALLENGE Interest with a request id, is undefined
behaviour; every other Interest is answered as with an empty storage in memory. -/
theorem C115_without_storage (C : Crypto) (cfg : CaConfig) (idKey : Bytes) (m : Msg) (env : Env) (hs : env.stack.length = 8) :
    (m.NeedsStorage C cfg idKey env →
      handle C (storageOf C none).2 cfg ⟨(storageOf C none).2.empty, idKey⟩ m env = ⟨[], .undefined .nullDeref⟩) ∧
    (¬ m.NeedsStorage C cfg idKey env →
      handle C (storageOf C none).2 cfg ⟨(storageOf C none).2.empty, idKey⟩ m env = handle C memStore cfg ⟨[], idKey⟩ m env) := by
  cases m with
  | probe i => exact ⟨False.elim, fun _ => rfl⟩
  | new i => exact onNew_null C cfg idKey .new i env
  | revoke i => exact onNew_null C cfg idKey .revoke i env
  | challenge i =>
    show (_ → onChallenge C nullStore cfg () i env = _) ∧ (_ → onChallenge C nullStore cfg () i env = onChallenge C memStore cfg [] i env)
    unfold Msg.NeedsStorage onChallenge getCertificateRequest
    have hd : i.name[cfg.profile.caPrefix.length + 2]? = (i.name.drop (cfg.profile.caPrefix.length + 2))[0]? := by simp
    rw [hd]
    cases hx : i.name.drop (cfg.profile.caPrefix.length + 2) with
    | nil => exact ⟨fun ⟨_, _, h1, _⟩ => (by rw [hx] at h1; cases h1), fun _ => rfl⟩
    | cons id rest =>
      simp only [List.getElem?_cons_zero]
      by_cases hid : id.val.length ≤ 8
      · rw [memcpyInto_iff.mpr ⟨by omega, rfl⟩]
        exact ⟨fun _ => rfl, fun hn => absurd ⟨id, rest, hx, hid⟩ hn⟩
      · have hu : memcpyInto env.stack id.val = .ub .overflow := if_pos (by omega)
        rw [hu]
        refine ⟨?_, fun _ => rfl⟩
        rintro ⟨_, _, h1, h2⟩
        rw [hx] at h1
        injection h1 with h1 _
        subst h1
        exact absurd h2 hid

/-- every CA module that can be constructed has a storage that can be used -/
def ConstructedUsable (C : Crypto) (T : TextIO) : Prop :=
  ∀ file ty opens idKey c, constructCa T file ty opens idKey = .ok c → UsableStorage C c.storage

/-- a module without storage cannot be used -/
theorem null_not_usable (C : Crypto) : ¬ UsableStorage C none := by
  rintro ⟨Inv, h⟩
  obtain ⟨e, he⟩ := h.get_absent _ (List.replicate 8 0) h.empty_inv (h.empty_view _)
  cases he

/-- **C115** The name of a storage that does not exist is not noticed: with the sample configuration and "sqlite", the constructor succeeds, and the first
NEW Interest is undefined behaviour. -/
theorem C115_false (load : Bytes → Option Cert) (save : Cert → Bytes) : ¬ ConstructedUsable Fix.C (libText load save) := by
  intro h
  have hl := sampleConf_loads load save
  have hty : ∀ k, ¬ StorageNamed (bytes! "sqlite") k := unnamed_iff.mp (by decide +kernel)
  exact null_not_usable _ (h _ _ true Fix.idKey ⟨_, none, Fix.idKey⟩ ((C115_unknown _ _ _ _ _ hty _).mpr ⟨hl, rfl, rfl⟩))

/-- the NEW Interest of the example needs the storage, and so does a CHALLENGE Interest, but a PROBE Interest does not -/
example : (Msg.new Fix.newInterest).NeedsStorage Fix.C Fix.cfg Fix.idKey (Fix.env 1000) ∧
    handle Fix.C (storageOf Fix.C none).2 Fix.cfg ⟨(storageOf Fix.C none).2.empty, Fix.idKey⟩ (.new Fix.newInterest) (Fix.env 1000) =
      ⟨[], .undefined .nullDeref⟩ ∧
    (Msg.challenge Fix.chal1).NeedsStorage Fix.C Fix.cfg Fix.idKey (Fix.env 1000) ∧ ¬ (Msg.probe Fix.newInterest).NeedsStorage Fix.C Fix.cfg Fix.idKey (Fix.env 1000) := by
  have hn : (Msg.new Fix.newInterest).NeedsStorage Fix.C Fix.cfg Fix.idKey (Fix.env 1000) := by
    have hx : (onNewRenewRevoke Fix.C memStore Fix.cfg Fix.idKey [] .new Fix.newInterest (Fix.env 1000)).effects.any
        (fun e => match e with | .dbAdd _ => true | _ => false) = true := by decide +kernel
    obtain ⟨e, he, hm⟩ := List.any_eq_true.mp hx
    cases e with
    | dbAdd r => exact ⟨r, he⟩
    | _ => cases hm
  refine ⟨hn, (C115_without_storage _ _ _ _ _ rfl).1 hn, ?_, id⟩
  have hd : ((Fix.chal1.name.drop (Fix.cfg.profile.caPrefix.length + 2)).head?.map (fun b => decide (b.val.length ≤ 8))) = some true := by decide +kernel
  show ∃ id rest, Fix.chal1.name.drop (Fix.cfg.profile.caPrefix.length + 2) = id :: rest ∧ id.val.length ≤ 8
  cases hx : Fix.chal1.name.drop (Fix.cfg.profile.caPrefix.length + 2) with
  | nil => rw [hx] at hd; cases hd
  | cons x rest => rw [hx] at hd; exact ⟨x, rest, rfl, by simpa using hd⟩

-- the two storages that exist can be used
example (load : Bytes → Option Cert) (save : Cert → Bytes) : ∃ c, constructCa (libText load save) sampleConf (bytes! "ca-storage-sqlite3") true Fix.idKey = .ok c ∧
    c.storage = some .sqlite ∧ UsableStorage Fix.C c.storage := by
  have hk := C115_known_partial Fix.C (libText load save) sampleConf (bytes! "ca-storage-sqlite3") true Fix.idKey StorageNamed.sqlite
  exact ⟨⟨_, some .sqlite, Fix.idKey⟩, (hk.1 _).mpr ⟨sampleConf_loads load save, fun _ => rfl, rfl, rfl⟩, rfl, hk.2.2⟩

end Ndncert.Props
