import Verif.Lemmas.Bisim
import Verif.Spec.Reactions
import Verif.Spec.Run

/-! # The two storages are interchangeable for the CA (C53) -/

namespace Ndncert.Props

theorem reactions_alike {C : Crypto} (hC : C.Lawful) {cfg : CaConfig} (hcfg : NameFits cfg.profile.caPrefix) (idKey : Bytes) :
    ∀ (ms : List (Msg × Env)) (m : Mem) (db : Db), MemOk C m → SqlInv C db →
      (∀ id, (memStore.view m id).map dropTime = ((sqlStore C).view db id).map dropTime) →
      (∀ x ∈ ms, x.1.Wf cfg ∧ x.2.Wf ∧ x.2.wholeMicros) →
      reactions C memStore cfg ⟨m, idKey⟩ ms = reactions C (sqlStore C) cfg ⟨db, idKey⟩ ms
  | [], _, _, _, _, _, _ => rfl
  | (msg, env) :: rest, m, db, hm, hd, hv, hw => by
    obtain ⟨w1, w2, w3⟩ := hw _ (List.mem_cons_self ..)
    have hwf : (Event.msg msg env).Wf cfg := by
      intro m' env' h
      cases h
      exact ⟨w1, w2⟩
    obtain ⟨h1, h2, h3, h4⟩ := alike_step hC hcfg hm hd hv idKey msg env hwf w3
    unfold reactions
    dsimp only
    rw [← h1]
    congr 1
    split
    · exact reactions_alike hC hcfg idKey rest _ _ h2 h3 h4 (fun x hx => hw x (List.mem_cons_of_mem _ hx))
    · rfl

/-- **C53** A CA with memory storage and a CA with SQLite storage, started empty with the same id key and driven by the
same messages, clocks and random draws, react the same way to every message: same replies, emails,
issued certificates, callbacks and database operations, and the handler ends the same way. -/
theorem C53_interchangeable {C : Crypto} (hC : C.Lawful) {cfg : CaConfig} (hcfg : NameFits cfg.profile.caPrefix)
    (idKey : Bytes) (ms : List (Msg × Env)) (hw : ∀ x ∈ ms, x.1.Wf cfg ∧ x.2.Wf ∧ x.2.wholeMicros) :
    reactions C memStore cfg ⟨memStore.empty, idKey⟩ ms = reactions C (sqlStore C) cfg ⟨(sqlStore C).empty, idKey⟩ ms :=
  reactions_alike hC hcfg idKey ms _ _ (memStore_lawful C).empty_inv (sqlStore_lawful C).empty_inv (fun _ => rfl) hw

/-- the messages of a run with the pin challenge -/
def exMessages : List (Msg × Env) :=
  [(.new Fix.newInterest, Fix.env1), (.challenge Fix.chal1, Fix.env2), (.challenge Fix.chal2, Fix.env3), (.challenge Fix.chal3, Fix.env4)]

-- the hypotheses are met by a run that ends with an issued certificate
example : (∀ x ∈ exMessages, x.1.Wf Fix.cfg ∧ x.2.Wf ∧ x.2.wholeMicros) ∧
    ((reactions Fix.C (sqlStore Fix.C) Fix.cfg ⟨[], Fix.idKey⟩ exMessages).map (fun o => (issued o.effects).length)) = [0, 0, 0, 1] := by
  refine ⟨?_, by decide +kernel⟩
  intro x hx
  simp only [exMessages, List.mem_cons, List.not_mem_nil, or_false] at hx
  rcases hx with rfl | rfl | rfl | rfl
  · exact ⟨msgOk_wf (by decide +kernel), Fix.env_wf .., by unfold Env.wholeMicros; decide +kernel⟩
  · exact ⟨msgOk_wf (by decide +kernel), Fix.env_wf .., by unfold Env.wholeMicros; decide +kernel⟩
  · exact ⟨msgOk_wf (by decide +kernel), Fix.env_wf .., by unfold Env.wholeMicros; decide +kernel⟩
  · exact ⟨msgOk_wf (by decide +kernel), Fix.env_wf .., by unfold Env.wholeMicros; decide +kernel⟩

/-- **C53** The exclusion of restarts is needed: after one, only the SQLite storage still knows the request. -/
theorem C53_restart_differs : ∃ es : List Event,
    eventEffects Fix.C memStore Fix.cfg ⟨memStore.empty, Fix.idKey⟩ es ≠
      eventEffects Fix.C (sqlStore Fix.C) Fix.cfg ⟨(sqlStore Fix.C).empty, Fix.idKey⟩ es :=
  ⟨[Fix.ev1, .restart [1], Fix.ev2], by decide +kernel⟩

/-- the clock of `Fix.env2` half a microsecond later -/
def exHalfMicro : Env := { Fix.env2 with now := 1001 * nsPerSec + 500, nowStore := 1001 * nsPerSec + 500 }
/-- the last instant at which a code issued then is accepted, if its time stamp is not truncated -/
def exLast : Env := { Fix.env4 with now := 4601 * nsPerSec + 499, nowStore := 4601 * nsPerSec + 499 }

/-- **C53** So is the restriction to whole microseconds: the SQLite storage truncates the time stamp, and the code expires
up to a microsecond earlier. -/
theorem C53_submicrosecond_differs : ∃ ms : List (Msg × Env), (∀ x ∈ ms, x.1.Wf Fix.cfg ∧ x.2.Wf) ∧
    reactions Fix.C memStore Fix.cfg ⟨memStore.empty, Fix.idKey⟩ ms ≠
      reactions Fix.C (sqlStore Fix.C) Fix.cfg ⟨(sqlStore Fix.C).empty, Fix.idKey⟩ ms := by
  refine ⟨[(.new Fix.newInterest, Fix.env1), (.challenge Fix.chal1, exHalfMicro), (.challenge Fix.chal2, exLast)], ?_, by decide +kernel⟩
  intro x hx
  simp only [List.mem_cons, List.not_mem_nil, or_false] at hx
  rcases hx with rfl | rfl | rfl
  · exact ⟨msgOk_wf (by decide +kernel), Fix.env_wf ..⟩
  · exact ⟨msgOk_wf (by decide +kernel), envOk_wf (by decide +kernel)⟩
  · exact ⟨msgOk_wf (by decide +kernel), envOk_wf (by decide +kernel)⟩

end Ndncert.Props
