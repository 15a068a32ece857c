import Verif.Lemmas.Server
import Verif.Lemmas.Storage
import Verif.Lemmas.Sqlite
import Verif.Spec.Run
import Verif.Props.CaExec
import Verif.Model.Requester

/-! # The CA server: C75, C76 -/

namespace Ndncert.Props

open Ndncert

variable {σ : Type} {C : Crypto} {S : StoreI σ} {Inv : σ → Prop} {cfg : CaConfig}

/-! ## C75 -/

/-- what the variables of the server without repo hold after a history -/
theorem server_cache (hC : C.Lawful) (hS : LawfulStore C S Inv) (hcfg : NameFits cfg.profile.caPrefix)
    {h : List (Step σ)} {s : CaState σ} (hx : Exec C S cfg h s) (first : Data) (next : Step σ → Data) :
    (Server.after false first next h).cache = (recent h).take 100 ∧ (Server.after false first next h).written = [] ∧
    (Server.after false first next h).profile = ((h.filter (fun n => n.event.stops)).getLast?.map next).getD first := by
  induction hx with
  | init idKey => exact ⟨rfl, rfl, rfl⟩
  | @step h s e prev wf possible ih =>
    obtain ⟨h1, h2, h3⟩ := ih
    have hpub := (step_published hC hS hcfg (.step e prev wf possible) (h1 := h) (h2 := [])
      (n := ⟨s, e, (e.run C S cfg s).1⟩) rfl).1
    generalize (⟨s, e, (e.run C S cfg s).1⟩ : Step σ) = n at *
    have hstep : Server.after false first next (h ++ [n]) =
        (Server.after false first next h).step false (next n) n.event n.effects := by
      unfold Server.after
      rw [List.foldl_append]
      rfl
    obtain ⟨a1, a2, a3⟩ := status_cache (callbacks n.effects) (Server.after false first next h) (recent h) h1
    rw [hstep]
    rw [step_eq]
    unfold recent
    rw [sinceStart_append, List.filter_append]
    by_cases hs : n.event.stops = true
    · rw [if_pos hs, if_pos hs]
      refine ⟨rfl, ?_, ?_⟩
      · unfold Server.start
        simp only [Bool.false_eq_true, if_false]
        rw [a2, h2]
      · simp [List.filter_cons, hs, Server.start]
    · have hs' : n.event.stops = false := by simpa using hs
      rw [if_neg hs, if_neg hs]
      refine ⟨?_, by rw [a2, h2], ?_⟩
      · rw [a1, hpub, List.flatMap_append, List.reverse_append]
        simp [recent, maxCached]
      · rw [a3, h3, List.filter_cons_of_neg (by simp [hs'])]
        simp

/-- C75: the cache of the server without repo holds exactly the last 100 certificates issued since the process started,
newest first, and an Interest is answered with the profile if its name is a prefix of the profile's name, and otherwise
with the most recent of these certificates whose full name it is a prefix of, if there is one. -/
theorem C75_cache (hC : C.Lawful) (hS : LawfulStore C S Inv) (hcfg : NameFits cfg.profile.caPrefix)
    {h : List (Step σ)} {s : CaState σ} (hx : Exec C S cfg h s) (first : Data) (next : Step σ → Data) (name : Name) :
    (Server.after false first next h).cache = (recent h).take 100 ∧ (Server.after false first next h).cache.length ≤ 100 ∧
    (name <+: (Server.after false first next h).profile.name →
      (Server.after false first next h).onInterest name = some (.profile (Server.after false first next h).profile)) ∧
    (¬ name <+: (Server.after false first next h).profile.name →
      (Server.after false first next h).onInterest name =
        (((recent h).take 100).find? (fun c => decide (name <+: fullNameOf c))).map .cert) := by
  have hc := (server_cache hC hS hcfg hx first next).1
  refine ⟨hc, by rw [hc]; simp; omega, ?_, ?_⟩
  · intro hp
    unfold Server.onInterest
    rw [if_pos (by unfold isPrefixOf; exact List.isPrefixOf_iff_prefix.mpr hp)]
  · intro hp
    unfold Server.onInterest
    rw [if_neg (by unfold isPrefixOf; rw [List.isPrefixOf_iff_prefix]; exact hp), hc]
    congr 2
    funext c
    rw [Bool.eq_iff_iff, decide_eq_true_eq]
    unfold isPrefixOf
    exact List.isPrefixOf_iff_prefix

/-- C75: a certificate issued in a completed step is returned for every prefix of its full name that matches neither the
profile nor a certificate issued later, as long as the process runs and fewer than 100 certificates were issued after it. -/
theorem C75_fetch (hC : C.Lawful) (hS : LawfulStore C S Inv) (hcfg : NameFits cfg.profile.caPrefix)
    {h1 h2 : List (Step σ)} {n : Step σ} {s : CaState σ} (hx : Exec C S cfg (h1 ++ n :: h2) s)
    (first : Data) (next : Step σ → Data) (name : Name) {c : Cert} (hc : .issue c ∈ n.effects)
    (hrun : ∀ m ∈ n :: h2, m.event.stops = false) (hfew : (h2.flatMap (fun m => issued m.effects)).length < 100)
    (hname : name <+: fullNameOf c) (hp : ¬ name <+: (Server.after false first next (h1 ++ n :: h2)).profile.name)
    (hnew : ∀ m ∈ h2, ∀ c', .issue c' ∈ m.effects → ¬ name <+: fullNameOf c') :
    (Server.after false first next (h1 ++ n :: h2)).onInterest name = some (.cert c) := by
  rw [(C75_cache hC hS hcfg hx first next name).2.2.2 hp]
  have hann : ∀ a m b, h1 ++ n :: h2 = a ++ m :: b → m.event.stops = false → m.announces = issued m.effects :=
    fun a m b hh hs => (step_published hC hS hcfg hx hh).2 hs
  have hn := hann h1 n h2 rfl (hrun n (by simp))
  have hone := issued_le_one (hx.split h1 n h2 rfl).2.2.2.1
  have hnc : n.announces = [c] := by
    rw [hn]
    have : c ∈ issued n.effects := mem_issued.mpr hc
    cases hh : issued n.effects with
    | nil => rw [hh] at this; cases this
    | cons a l =>
      rw [hh] at this hone
      have hl : l = [] := by cases l with | nil => rfl | cons _ _ => simp at hone
      subst hl
      simp at this
      rw [this]
  have hlater : h2.flatMap Step.announces = h2.flatMap (fun m => issued m.effects) := by
    have : ∀ a b, h2 = a ++ b → b.flatMap Step.announces = b.flatMap (fun m => issued m.effects) := by
      intro a b
      induction b generalizing a with
      | nil => intro _; rfl
      | cons m b ih =>
        intro hab
        rw [List.flatMap_cons, List.flatMap_cons, ih (a ++ [m]) (by rw [hab]; simp)]
        rw [hann (h1 ++ n :: a) m b (by rw [hab]; simp) (hrun m (by rw [hab]; simp))]
    exact this [] h2 rfl
  have hsince : ∃ pre, sinceStart (h1 ++ n :: h2) = pre ++ n :: h2 := by
    refine ⟨sinceStart h1, ?_⟩
    unfold sinceStart
    rw [List.reverse_append, List.takeWhile_append_of_pos]
    · simp
    · intro m hm
      rw [List.mem_reverse] at hm
      simp [hrun m hm]
  obtain ⟨pre, hpre⟩ := hsince
  have hrecent : recent (h1 ++ n :: h2) = (h2.flatMap (fun m => issued m.effects)).reverse ++ c :: (pre.flatMap Step.announces).reverse := by
    unfold recent
    rw [hpre, List.flatMap_append, List.flatMap_cons, hnc, hlater]
    simp
  rw [hrecent, List.take_append, List.find?_append]
  have h3 : ((h2.flatMap (fun m => issued m.effects)).reverse.take 100).find? (fun c => decide (name <+: fullNameOf c)) = none := by
    rw [List.find?_eq_none]
    intro x hx'
    have := List.mem_of_mem_take hx'
    rw [List.mem_reverse, List.mem_flatMap] at this
    obtain ⟨m, hm, hxm⟩ := this
    simpa using hnew m hm x (mem_issued.mp hxm)
  rw [h3, Option.none_or, List.length_reverse]
  obtain ⟨j, hj⟩ : ∃ j, 100 - (h2.flatMap (fun m => issued m.effects)).length = j + 1 := ⟨99 - (h2.flatMap (fun m => issued m.effects)).length, by omega⟩
  rw [hj, List.take_succ_cons, List.find?_cons_of_pos (by simpa using hname)]
  rfl

/-- C75: so an issued certificate can be fetched by its name, which is never a prefix of the name of the CA profile. -/
theorem C75_by_name (hC : C.Lawful) (hS : LawfulStore C S Inv) (hcfg : NameFits cfg.profile.caPrefix)
    {h1 h2 : List (Step σ)} {n : Step σ} {s : CaState σ} (hx : Exec C S cfg (h1 ++ n :: h2) s)
    (first : Data) (next : Step σ → Data) (hfirst : ∃ v, first.name = profileDataName cfg.profile v)
    (hnext : ∀ m, ∃ v, (next m).name = profileDataName cfg.profile v) {c : Cert} (hc : .issue c ∈ n.effects)
    (hrun : ∀ m ∈ n :: h2, m.event.stops = false) (hfew : (h2.flatMap (fun m => issued m.effects)).length < 100)
    (hnew : ∀ m ∈ h2, ∀ c', .issue c' ∈ m.effects → ¬ c.name <+: fullNameOf c') :
    (Server.after false first next (h1 ++ n :: h2)).onInterest c.name = some (.cert c) := by
  refine C75_fetch hC hS hcfg hx first next c.name hc hrun hfew (List.prefix_append _ _) ?_ hnew
  obtain ⟨_, _, _, _, _, _, hpol⟩ := C31_issued_content hC hS hcfg hx rfl hc
  have hname : ∃ v, (Server.after false first next (h1 ++ n :: h2)).profile.name = profileDataName cfg.profile v := by
    rw [(server_cache hC hS hcfg hx first next).2.2]
    cases (List.filter (fun n => n.event.stops) (h1 ++ n :: h2)).getLast? with
    | none => exact hfirst
    | some m => exact hnext m
  obtain ⟨v, hv⟩ := hname
  rw [hv]
  intro hpre
  have h1 := hpre.length_le
  have h2 := hpol.2.2.1
  unfold identityOf at h2
  unfold profileDataName at h1
  simp at h1 h2
  omega

/-- in the run of the fixtures a certificate is issued, cached and served -/
example : (Server.after false Fix.reply1 (fun _ => Fix.reply1) Fix.pinHist).cache.length = 1 ∧
    (match (Server.after false Fix.reply1 (fun _ => Fix.reply1) Fix.pinHist).onInterest
      (((recent Fix.pinHist).map Cert.name).headD []) with | some (.cert _) => true | _ => false) = true := by
  decide +kernel

/-! ## C76 -/

/-- C76: over any history, the server with repo writes its profile when it starts, each time it is started again, and each
certificate announced, once and in this order, and nothing else. -/
theorem C76_written (hC : C.Lawful) (hS : LawfulStore C S Inv) (hcfg : NameFits cfg.profile.caPrefix)
    {h : List (Step σ)} {s : CaState σ} (hx : Exec C S cfg h s) (first : Data) (next : Step σ → Data) :
    (Server.after true first next h).written =
      .profile first :: h.flatMap (fun n => n.announces.map .cert ++ if n.event.stops then [.profile (next n)] else []) := by
  induction hx with
  | init idKey => rfl
  | @step h s e prev wf possible ih =>
    have hpub := (step_published hC hS hcfg (.step e prev wf possible) (h1 := h) (h2 := [])
      (n := ⟨s, e, (e.run C S cfg s).1⟩) rfl).1
    generalize (⟨s, e, (e.run C S cfg s).1⟩ : Step σ) = n at *
    have hstep : Server.after true first next (h ++ [n]) =
        (Server.after true first next h).step true (next n) n.event n.effects := by
      unfold Server.after
      rw [List.foldl_append]
      rfl
    have a1 := status_repo (callbacks n.effects) (Server.after true first next h)
    rw [hstep]
    rw [step_eq, List.flatMap_append]
    by_cases hs : n.event.stops = true
    · rw [if_pos hs]
      unfold Server.start
      simp only [if_true]
      rw [a1, ih, hpub]
      simp [hs]
    · rw [if_neg hs, a1, ih, hpub]
      simp [hs]

/-- C76: a step that completes announces exactly the certificates it signs, which belong to accepted NEW requests; a step in
which the process dies announces nothing unless the reply had been sent. -/
theorem C76_announced (hC : C.Lawful) (hS : LawfulStore C S Inv) (hcfg : NameFits cfg.profile.caPrefix)
    {h : List (Step σ)} {s : CaState σ} (hx : Exec C S cfg h s) {h1 h2 : List (Step σ)} {n : Step σ} (hh : h = h1 ++ n :: h2) :
    (n.event.stops = false → n.announces = issued n.effects) ∧
    (∀ c ∈ n.announces, .issue c ∈ n.effects ∧ sent n.effects ≠ [] ∧
      ∃ ha m hb i env r, h1 = ha ++ m :: hb ∧ AcceptsNew m i env r ∧ keyNameOf c.name = keyNameOf r.cert.name ∧ c.content = r.cert.content) := by
  refine ⟨(step_published hC hS hcfg hx hh).2, ?_⟩
  intro c hc
  unfold Step.announces at hc
  split at hc
  · cases hc
  · next hcb =>
    have hmem := mem_issued.mp hc
    refine ⟨hmem, ?_, ?_⟩
    · obtain ⟨_, _, _, heff, _⟩ := hx.split h1 n h2 hh
      obtain ⟨i, env, r, k, rest, _, _, _, h4, h5⟩ := issue_effects heff hmem
      rw [h4] at hcb ⊢
      rcases h5 with rfl | ⟨d, r2, rfl⟩
      · exact absurd (by match k with
          | 0 => rfl
          | 1 => rfl
          | k + 2 => simp [callbacks]) hcb
      · match k with
        | 0 => exact absurd rfl hcb
        | 1 => exact absurd rfl hcb
        | 2 => exact absurd rfl hcb
        | k + 3 => simp [sent]
    · obtain ⟨i, env, r, es, k', ha, m, hb1, m2, hb2, i0, env0, r0, i2, env2, r2, k, hi⟩ := issued_by hC hS hcfg hx hh hmem
      have hcert : r0.cert = r.cert := hi.same.2.2.2.1
      have hf := hi.reissues.facts
      exact ⟨ha, m, _, i0, env0, r0, hi.split, hi.accepts, by rw [hcert]; exact hf.1, by rw [hcert]; exact hf.2.1⟩

/-- the run of the fixtures writes the profile and one certificate; a revocation that succeeds writes nothing more -/
example : (Server.after true Fix.reply1 (fun _ => Fix.reply1) Fix.pinHist).written.length = 2 ∧
    (Server.after true Fix.reply1 (fun _ => Fix.reply1) (runs Fix.C Fix.S Fix.cfg Fix.st0
      (Fix.revRun ++ [.msg (.challenge Fix.rchal2) Fix.env3])).1).written.length = 1 ∧
    ((runs Fix.C Fix.S Fix.cfg Fix.st0 (Fix.revRun ++ [.msg (.challenge Fix.rchal2) Fix.env3])).1.flatMap
      (fun n => (callbacks n.effects).map (·.status))).getLast? = some .success := by decide +kernel

end Ndncert.Props
