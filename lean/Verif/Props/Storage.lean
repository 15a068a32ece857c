import Verif.Lemmas.StorageRun
import Verif.Spec.Toy

/-! # Storage properties (C51, C52) -/

namespace Ndncert.Props

/-! ## Memory -/

/-- C51: after any sequence of add/update/delete calls, the memory storage has reported exactly the failures a finite
map from ids to states would report (an add of a present id), and answers every get and list query as that map. -/
theorem C51_memory_storage_is_map (ops : List StoreOp) :
    (memStore.run memStore.empty ops).2 = (mapRun (fun _ => none) ops).2 ∧
    Answers memStore (memStore.run memStore.empty ops).1 (mapRun (fun _ => none) ops).1 :=
  mem_run ⟨List.nodup_nil, by simp [memStore]⟩ (fun _ => rfl)

/-! ## SQLite -/

/-- C52 as far as it is true: under any sequence of calls in which updates are only made of present requests and keep
their fixed fields (id, CA prefix, type, certificate, key), with representable states, the SQLite storage reports the same failures and gives the same answers as a finite map. Missing: updates of
absent requests and of the fixed fields, see `C52_false`. -/
theorem C52_sqlite_storage_is_map_partial (C : Crypto) (ops : List StoreOp) (h : WellUsed C (fun _ => none) ops) :
    ((sqlStore C).run (sqlStore C).empty ops).2 = (mapRun (fun _ => none) ops).2 ∧
    Answers (sqlStore C) ((sqlStore C).run (sqlStore C).empty ops).1 (mapRun (fun _ => none) ops).1 :=
  sql_run (sqlStore_lawful C).empty_inv (fun _ => rfl) h

/-! ### Concrete cases -/

def stName : Name := [gcomp (bytes! "ndn"), gcomp (bytes! "alice"), keyComponent, gcomp [1], gcomp (bytes! "self"), gcomp [2]]

def stWire : Block := Toy.wire stName (some [7, 7]) (some stName) (some (0, 86400 * nsPerSec)) [7, 7]

def stCert : Cert :=
  { wire := stWire, name := stName, content := some [7, 7], keyLocator := some stName,
    validity := some (0, 86400 * nsPerSec), digest := Toy.digest stWire }

/-- a pending request -/
def stState : RequestState :=
  { caPrefix := [gcomp (bytes! "ndn")], requestId := [1, 2, 3, 4, 5, 6, 7, 8], requestType := .new, cert := stCert,
    encryptionKey := List.replicate 16 9 }

/-- the same after a challenge was started -/
def stState2 : RequestState :=
  { stState with
    status := .challenge, challengeType := bytes! "pin", encryptionIv := List.replicate 12 1
    challengeState := some { challengeStatus := NEED_CODE, timestamp := 5000000, remainingTries := 3,
                             remainingTime := 3600, secrets := [(KEY_CODE, bytes! "123456")] } }

theorem stState_storable : Storable Toy.crypto stState where
  cert := by decide +kernel
  certFits := by decide +kernel
  caFits := by decide +kernel
  key := by decide +kernel
  status := by intro n h; cases h
  chal := ⟨fun _ => rfl, fun _ => rfl⟩
  chalFits := by intro cs h; cases h

theorem stState2_storable : Storable Toy.crypto stState2 where
  cert := by decide +kernel
  certFits := by decide +kernel
  caFits := by decide +kernel
  key := by decide +kernel
  status := by intro n h; cases h
  chal := by constructor <;> (intro h; cases h)
  chalFits := by
    intro cs h
    simp only [stState2, Option.some.injEq] at h
    subst h
    decide

/-- hypotheses of `C52_sqlite_storage_is_map_partial` on a history that adds, fails to add again, updates, deletes -/
example : WellUsed Toy.crypto (fun _ => none) [.add stState, .add stState2, .update stState2, .delete stState.requestId] := by
  refine ⟨⟨stState_storable, by intro cs h; cases h⟩, ⟨stState2_storable, ?_⟩, ⟨⟨stState2_storable, ?_⟩, stState, ?_, ?_⟩, trivial, trivial⟩
  · intro cs h; simp only [stState2, Option.some.injEq] at h; subst h; exact ⟨by decide, by decide, by decide⟩
  · intro cs h; simp only [stState2, Option.some.injEq] at h; subst h; exact ⟨by decide, by decide, by decide⟩
  · decide +kernel
  · exact ⟨rfl, rfl, rfl, rfl, rfl⟩

/-- C52 is false as stated: updating a request that was never added stores it in the map (and in the memory
storage), but is silently dropped by the SQLite storage. -/
theorem C52_false : ∃ (C : Crypto) (r : RequestState), C.Lawful ∧ Storable C r ∧
    (mapRun (fun _ => none) [.update r]).1 r.requestId = some r ∧
    memStore.get (memStore.run memStore.empty [.update r]).1 r.requestId = .ok r ∧
    ((sqlStore C).run (sqlStore C).empty [.update r]).2 = [true] ∧
    ∀ x, (sqlStore C).get ((sqlStore C).run (sqlStore C).empty [.update r]).1 r.requestId ≠ .ok x :=
  ⟨Toy.crypto, stState, Toy.lawful, stState_storable, by decide +kernel, by decide +kernel, by decide +kernel,
    fun x h => by
      have : (sqlStore Toy.crypto).get ((sqlStore Toy.crypto).run (sqlStore Toy.crypto).empty [.update stState]).1
        stState.requestId = .exc .runtime := by decide +kernel
      rw [this] at h; cases h⟩

end Ndncert.Props
