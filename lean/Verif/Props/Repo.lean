import Verif.Lemmas.Repo
import Verif.Props.Server
import Verif.Props.Encoding

/-! # Delivery of issued certificates: C111 -/

namespace Ndncert.Props

open Ndncert

variable {σ : Type} {C : Crypto} {S : StoreI σ} {Inv : σ → Prop} {cfg : CaConfig}

/-- C111, what a repo holds: with a repo, the server tries to publish each packet once, the profile at each start and each certificate
announced. The repo holds exactly the packets whose attempt went through, in this order, and there is one error line for each
connection refused; none for a connection that breaks. The server itself answers no Interest for them. -/
theorem C111_exact_partial (hC : C.Lawful) (hS : LawfulStore C S Inv) (hcfg : NameFits cfg.profile.caPrefix)
    {h : List (Step σ)} {s : CaState σ} (hx : Exec C S cfg h s) (net : Nat → Link) (first : Data) (next : Step σ → Data) :
    (Publisher.after true net first next h).repo.held =
      ((toPublish first next h).zipIdx.filter (fun x => decide (net x.2 = .whole))).map (·.1) ∧
    (Publisher.after true net first next h).repo.complaints =
      ((List.range (toPublish first next h).length).filter (fun i => decide (net i = .refused))).length ∧
    (∀ name, (Publisher.after true net first next h).onInterest true name = none) := by
  obtain ⟨_, h2⟩ := publisher_after net first next h
  have hw : (Server.after true first next h).written = toPublish first next h := C76_written hC hS hcfg hx first next
  rw [h2, hw]
  exact ⟨(writeAll_eq net _).2.1, (writeAll_eq net _).2.2, fun _ => rfl⟩

/-- C111 where it is true: if every connection to the repo goes through, every certificate issued in a completed step is in the repo
from then on, over any later history, with crashes and restarts; and so is one issued in a step that died after the server was told. -/
theorem C111_delivered_partial (hC : C.Lawful) (hS : LawfulStore C S Inv) (hcfg : NameFits cfg.profile.caPrefix)
    {h1 h2 : List (Step σ)} {n : Step σ} {s : CaState σ} (hx : Exec C S cfg (h1 ++ n :: h2) s) (net : Nat → Link)
    (hnet : ∀ i, net i = .whole) (first : Data) (next : Step σ → Data) {c : Cert} (hc : .issue c ∈ n.effects)
    (hn : n.event.stops = false ∨ callbacks n.effects ≠ []) :
    Fetchable true (Publisher.after true net first next (h1 ++ n :: h2)) c := by
  right
  rw [(C111_exact_partial hC hS hcfg hx net first next).1]
  have hall : ((toPublish first next (h1 ++ n :: h2)).zipIdx.filter (fun x => decide (net x.2 = .whole))) =
      (toPublish first next (h1 ++ n :: h2)).zipIdx := by
    rw [List.filter_eq_self]
    intro x _
    simp [hnet]
  rw [hall, List.zipIdx_map_fst]
  have hann : c ∈ n.announces := by
    rcases hn with hn | hn
    · rw [(step_published hC hS hcfg hx rfl).2 hn]
      exact mem_issued.mpr hc
    · unfold Step.announces
      rw [if_neg hn]
      exact mem_issued.mpr hc
  refine List.mem_cons_of_mem _ ?_
  rw [List.mem_flatMap]
  refine ⟨n, by simp, ?_⟩
  rw [List.mem_append]
  exact .inl (List.mem_map_of_mem hann)

/-- C111, one attempt and no other: if a certificate is announced in one step of a history and in no other, then whether the repo holds
it at the end, however much later, depends on the one connection tried in that step. -/
theorem C111_one_attempt_partial (hC : C.Lawful) (hS : LawfulStore C S Inv) (hcfg : NameFits cfg.profile.caPrefix)
    {h1 h2 : List (Step σ)} {n : Step σ} {s : CaState σ} (hx : Exec C S cfg (h1 ++ n :: h2) s) (net : Nat → Link)
    (first : Data) (next : Step σ → Data) {c : Cert} (hn : n.announces = [c]) (hother : ∀ m ∈ h1 ++ h2, c ∉ m.announces) :
    Fetchable true (Publisher.after true net first next (h1 ++ n :: h2)) c ↔ net (toPublish first next h1).length = .whole := by
  obtain ⟨a1, _, a3⟩ := C111_exact_partial hC hS hcfg hx net first next
  unfold Fetchable
  rw [a3, a1]
  have hsplit : ∃ l, toPublish first next (h1 ++ n :: h2) = toPublish first next h1 ++ .cert c :: l ∧ .cert c ∉ l := by
    refine ⟨(if n.event.stops then [.profile (next n)] else []) ++
      h2.flatMap (fun n => n.announces.map .cert ++ if n.event.stops then [.profile (next n)] else []), ?_, ?_⟩
    · unfold toPublish
      rw [List.flatMap_append, List.flatMap_cons, hn]
      simp
    · rw [List.mem_append, not_or]
      refine ⟨by split <;> simp, ?_⟩
      rw [List.mem_flatMap]
      rintro ⟨m, hm, hmc⟩
      rw [List.mem_append, List.mem_map] at hmc
      rcases hmc with ⟨c', h, e⟩ | h
      · cases e
        exact hother m (List.mem_append_right _ hm) h
      · split at h
        · simp at h
        · cases h
  have hbefore : .cert c ∉ toPublish first next h1 := by
    unfold toPublish
    rw [List.mem_cons, not_or]
    refine ⟨by simp, ?_⟩
    rw [List.mem_flatMap]
    rintro ⟨m, hm, hmc⟩
    rw [List.mem_append, List.mem_map] at hmc
    rcases hmc with ⟨c', h, e⟩ | h
    · cases e
      exact hother m (List.mem_append_left _ hm) h
    · split at h
      · simp at h
      · cases h
  obtain ⟨l, hl, hnl⟩ := hsplit
  have hidx : ∀ i, (Packet.cert c, i) ∈ (toPublish first next (h1 ++ n :: h2)).zipIdx ↔ i = (toPublish first next h1).length := by
    intro i
    rw [List.mem_zipIdx_iff_getElem?, hl]
    constructor
    · intro hi
      rcases Nat.lt_trichotomy i (toPublish first next h1).length with hlt | heq | hgt
      · rw [List.getElem?_append_left hlt] at hi
        exact absurd (List.mem_of_getElem? hi) hbefore
      · exact heq
      · rw [List.getElem?_append_right (by omega)] at hi
        obtain ⟨j, hj⟩ : ∃ j, i - (toPublish first next h1).length = j + 1 := ⟨i - (toPublish first next h1).length - 1, by omega⟩
        rw [hj, List.getElem?_cons_succ] at hi
        exact absurd (List.mem_of_getElem? hi) hnl
    · rintro rfl
      rw [List.getElem?_append_right (Nat.le_refl _), Nat.sub_self]
      rfl
  constructor
  · rintro (h | h)
    · cases h
    · rw [List.mem_map] at h
      obtain ⟨⟨p, i⟩, hpi, hp⟩ := h
      rw [List.mem_filter] at hpi
      cases hp
      have := (hidx i).mp hpi.1
      subst this
      simpa using hpi.2
  · intro h
    right
    rw [List.mem_map]
    exact ⟨(.cert c, _), List.mem_filter.mpr ⟨(hidx _).mpr rfl, by simpa using h⟩, rfl⟩

/-- the certificate issued in the run of the fixtures -/
def repoCert : Cert := ((Fix.pinHist.flatMap (fun n => issued n.effects)).head?).getD exCert

/-- the run of the fixtures, and then the process is started again -/
def repoRun : List Event := Fix.pinRun ++ [.restart Fix.idKey]

theorem repoRun_ok : runsOk Fix.C Fix.S Fix.cfg Fix.st0 repoRun = true := by decide +kernel

/-- C111 is false: a certificate is issued and the reply with its name sent, and then it cannot be had: the repo could not be reached
when the certificate was to be published (one error line); or the connection broke (no error line); or there is no repo and the process
was started again. -/
theorem C111_false :
    (∃ n ∈ Fix.pinHist, .issue repoCert ∈ n.effects ∧ sent n.effects ≠ [] ∧ n.event.stops = false) ∧
    Exec Fix.C Fix.S Fix.cfg Fix.pinHist (runs Fix.C Fix.S Fix.cfg Fix.st0 Fix.pinRun).2 ∧
    (¬ Fetchable true (Publisher.after true (fun i => if i = 1 then .refused else .whole) Fix.reply1 (fun _ => Fix.reply1) Fix.pinHist) repoCert ∧
      (Publisher.after true (fun i => if i = 1 then .refused else .whole) Fix.reply1 (fun _ => Fix.reply1) Fix.pinHist).repo.complaints = 1) ∧
    (¬ Fetchable true (Publisher.after true (fun i => if i = 1 then .cut else .whole) Fix.reply1 (fun _ => Fix.reply1) Fix.pinHist) repoCert ∧
      (Publisher.after true (fun i => if i = 1 then .cut else .whole) Fix.reply1 (fun _ => Fix.reply1) Fix.pinHist).repo.complaints = 0) ∧
    (Exec Fix.C Fix.S Fix.cfg (runs Fix.C Fix.S Fix.cfg Fix.st0 repoRun).1 (runs Fix.C Fix.S Fix.cfg Fix.st0 repoRun).2 ∧
      Fetchable false (Publisher.after false (fun _ => .whole) Fix.reply1 (fun _ => Fix.reply1) Fix.pinHist) repoCert ∧
      ¬ Fetchable false (Publisher.after false (fun _ => .whole) Fix.reply1 (fun _ => Fix.reply1)
        (runs Fix.C Fix.S Fix.cfg Fix.st0 repoRun).1) repoCert) := by
  refine ⟨?_, Fix.pinExec, ?_, ?_, exec_of_runs repoRun_ok, ?_⟩
  · have h : (Fix.pinHist.any (fun n => decide (repoCert ∈ issued n.effects) && !(sent n.effects).isEmpty && !n.event.stops)) = true := by
      decide +kernel
    rw [List.any_eq_true] at h
    obtain ⟨n, hn, h⟩ := h
    simp only [Bool.and_eq_true, decide_eq_true_eq, Bool.not_eq_true', List.isEmpty_eq_false_iff] at h
    exact ⟨n, hn, mem_issued.mp h.1.1, h.1.2, h.2⟩
  · unfold Fetchable; decide +kernel
  · unfold Fetchable; decide +kernel
  · unfold Fetchable; decide +kernel

/-- a run that meets the hypotheses of the theorems: the certificate is announced in the last step only, by the second attempt -/
example : (∃ h1 n, Fix.pinHist = h1 ++ [n] ∧ n.announces = [repoCert] ∧ (∀ m ∈ h1, repoCert ∉ m.announces) ∧
    (toPublish Fix.reply1 (fun _ => Fix.reply1) h1).length = 1 ∧ .issue repoCert ∈ n.effects ∧ n.event.stops = false) := by
  have hl : Fix.pinHist = Fix.pinHist.dropLast ++ [Fix.pinHist.getLast (by decide +kernel)] := (List.dropLast_concat_getLast _).symm
  refine ⟨_, _, hl, by decide +kernel, ?_, by decide +kernel, mem_issued.mp (by decide +kernel), by decide +kernel⟩
  have : (Fix.pinHist.dropLast.all (fun m => decide (repoCert ∉ m.announces))) = true := by decide +kernel
  rw [List.all_eq_true] at this
  exact fun m hm => by simpa using this m hm

end Ndncert.Props
