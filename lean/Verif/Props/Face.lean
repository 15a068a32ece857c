import Verif.Lemmas.Face
import Verif.Props.Server
import Verif.Props.Requester

/-! # Which Interests reach which handler: C84, C85 -/

namespace Ndncert.Props

open Ndncert

variable {σ : Type} {C : Crypto} {S : StoreI σ} {Inv : σ → Prop} {cfg : CaConfig}

/-! ## C84 -/

/-- C84: a callback is called exactly for the names `PREFIX/CA/<its words>/...`, and never more than one for a name. -/
theorem C84_one_handler (p : CaProfile) (name : Name) :
    (∀ h, h ∈ dispatch p name ↔ h.For p name) ∧ (dispatch p name).length ≤ 1 := by
  refine ⟨fun h => mem_dispatch, ?_⟩
  rcases dispatch_eq p name with h | ⟨h, h1, _⟩ <;> simp [*]

/-- C84: the Interests of the requester reach the handler they are meant for, and only that; the component the CA takes the
request id from holds the requester's request id. -/
theorem C84_requests_arrive (cfg : CaConfig) (r : Request) (hp : r.profile.caPrefix = cfg.profile.caPrefix) :
    (∀ info, dispatch cfg.profile (genProbeInterest C r.profile info).name = [.probe]) ∧
    (∀ key nb na version i, (genNewInterest C r key nb na version).2 = .ok (some i) → dispatch cfg.profile i.name = [.new]) ∧
    (∀ cert i, genRevokeInterest C r cert = some i → dispatch cfg.profile i.name = [.revoke]) ∧
    (∀ params rnd i, (genChallengeInterest C r params rnd).2 = .ok i → dispatch cfg.profile i.name = [.challenge] ∧
      ∃ comp, idComponent cfg i = some comp ∧ comp.val = r.requestId) := by
  have reach : ∀ (h : Handler) (t : List Block) (n : Name), n = cfg.profile.caPrefix ++ [gcomp (bytes! "CA")] ++ h.words ++ t →
      dispatch cfg.profile n = [h] := fun h t n hn => dispatch_of ⟨t, hn.symm⟩
  refine ⟨?_, ?_, ?_, ?_⟩
  · intro info
    exact reach .probe _ _ (by unfold genProbeInterest plainInterest; rw [hp]; simp [Handler.words, caComp, probeComp]; rfl)
  · intro key nb na version i h
    unfold genNewInterest at h
    split at h
    · cases h
    split at h
    · cases h
    split at h
    · cases h
    · cases h
    split at h
    · cases h
    · cases h
      exact reach .new _ _ (by unfold signedInterest; rw [hp]; simp [Handler.words, caComp, newComp]; rfl)
  · intro cert i h
    unfold genRevokeInterest at h
    split at h
    · cases h
    · cases h
      exact reach .revoke _ _ (by unfold plainInterest; rw [hp]; simp [Handler.words, caComp, revokeComp]; rfl)
  · intro params rnd i h
    unfold genChallengeInterest at h
    split at h
    · cases h
    split at h
    · cases h
    split at h
    · cases h
    · cases h
    dsimp only at h
    split at h
    · cases h
    · cases h
    split at h
    · cases h
    · cases h
      refine ⟨reach .challenge _ _ (by unfold signedInterest; rw [hp]; simp [Handler.words, caComp, challengeComp]; rfl), gcomp r.requestId, ?_, rfl⟩
      unfold idComponent signedInterest
      dsimp only
      rw [hp, List.append_assoc, List.getElem?_append_right (by omega)]
      simp

/-- the name is `words` followed by the ParametersSha256DigestComponent of this very Interest -/
def Digested (C : Crypto) (words : Name) (i : Interest) : Prop :=
  ∃ params, i.params = some params ∧ i.name = words ++ [⟨2, C.paramsDigest words params i.sig⟩]

/-- C84: the exact name of every Interest of the requester, with the digest that the forwarders and the CA's library check. PROBE and
REVOKE carry no signature. -/
theorem C84_request_names (r : Request) :
    (∀ info, Digested C (r.profile.caPrefix ++ [gcomp (bytes! "CA"), gcomp (bytes! "PROBE")]) (genProbeInterest C r.profile info) ∧
      (genProbeInterest C r.profile info).sig = []) ∧
    (∀ key nb na version i, (genNewInterest C r key nb na version).2 = .ok (some i) →
      Digested C (r.profile.caPrefix ++ [gcomp (bytes! "CA"), gcomp (bytes! "NEW")]) i) ∧
    (∀ cert i, genRevokeInterest C r cert = some i →
      Digested C (r.profile.caPrefix ++ [gcomp (bytes! "CA"), gcomp (bytes! "REVOKE")]) i ∧ i.sig = []) ∧
    (∀ params rnd i, (genChallengeInterest C r params rnd).2 = .ok i →
      Digested C (r.profile.caPrefix ++ [gcomp (bytes! "CA"), gcomp (bytes! "CHALLENGE"), gcomp r.requestId]) i) := by
  refine ⟨fun info => ⟨⟨_, rfl, rfl⟩, rfl⟩, ?_, ?_, ?_⟩
  · intro key nb na version i h
    unfold genNewInterest at h
    split at h
    · cases h
    split at h
    · cases h
    split at h
    · cases h
    · cases h
    split at h
    · cases h
    · cases h
      exact ⟨_, rfl, rfl⟩
  · intro cert i h
    unfold genRevokeInterest at h
    split at h
    · cases h
    · cases h
      exact ⟨⟨_, rfl, rfl⟩, rfl⟩
  · intro params rnd i h
    unfold genChallengeInterest at h
    split at h
    · cases h
    split at h
    · cases h
    split at h
    · cases h
    · cases h
    dsimp only at h
    split at h
    · cases h
    · cases h
    split at h
    · cases h
    · cases h
      exact ⟨_, rfl, rfl⟩

-- each of the four kinds is made in the run of the fixtures or of a revocation
example : (∃ i, (genNewInterest Fix.C Fix.requester Fix.key (1000 * nsPerSec) (4600 * nsPerSec) ⟨54, [2]⟩).2 = .ok (some i)) ∧
    (∃ i, genRevokeInterest Fix.C Fix.requester Fix.revCert = some i) ∧
    ∃ i, (genChallengeInterest Fix.C (selectOrContinueChallenge Fix.req1 (bytes! "pin")).1 [] (List.replicate 8 3)).2 = .ok i := by
  refine ⟨?_, ?_, ?_⟩
  · have h : (match (genNewInterest Fix.C Fix.requester Fix.key (1000 * nsPerSec) (4600 * nsPerSec) ⟨54, [2]⟩).2 with
        | .ok (some _) => true | _ => false) = true := by decide +kernel
    split at h
    · exact ⟨_, ‹_›⟩
    · cases h
  · exact Option.isSome_iff_exists.mp (by decide +kernel)
  · have h : (match (genChallengeInterest Fix.C (selectOrContinueChallenge Fix.req1 (bytes! "pin")).1 [] (List.replicate 8 3)).2 with
        | .ok _ => true | _ => false) = true := by decide +kernel
    split at h
    · exact ⟨_, ‹_›⟩
    · cases h

/-- C84: an Interest is handled as what its name says. The Data sent for `PREFIX/CA/PROBE/...` is that of the PROBE handler, for
`PREFIX/CA/NEW/...` that of the NEW handler and so on, besides the profile Data the server itself may send; for
`PREFIX/CA/INFO/metadata/...` it is the metadata naming the profile Data the server has (its content is described by C71). -/
theorem C84_handled (cfg : CaConfig) (s : CaState σ) (sv : Server) (metaVersion : Block) (i : Interest) (env : Env) (d : Data) :
    let sends := fun m : Msg => .data d ∈ serverSends C S cfg s sv metaVersion i env ↔
      Effect.put d ∈ (handle C S cfg s m env).effects ∨ sv.onInterest i.name = some (.profile d)
    (cfg.profile.caPrefix ++ [gcomp (bytes! "CA"), gcomp (bytes! "PROBE")] <+: i.name → sends (.probe i)) ∧
    (cfg.profile.caPrefix ++ [gcomp (bytes! "CA"), gcomp (bytes! "NEW")] <+: i.name → sends (.new i)) ∧
    (cfg.profile.caPrefix ++ [gcomp (bytes! "CA"), gcomp (bytes! "CHALLENGE")] <+: i.name → sends (.challenge i)) ∧
    (cfg.profile.caPrefix ++ [gcomp (bytes! "CA"), gcomp (bytes! "REVOKE")] <+: i.name → sends (.revoke i)) ∧
    (cfg.profile.caPrefix ++ [gcomp (bytes! "CA"), gcomp (bytes! "INFO"), ⟨32, bytes! "metadata"⟩] <+: i.name →
      (.data d ∈ serverSends C S cfg s sv metaVersion i env ↔
        d = onCaProfileDiscovery C cfg.profile sv.profile.name metaVersion ∨ sv.onInterest i.name = some (.profile d))) := by
  have key : ∀ (h : Handler) (m : Msg) (w : Block), h.words = [w] → h.msg i = some m →
      cfg.profile.caPrefix ++ [gcomp (bytes! "CA"), w] <+: i.name →
      (Reply.data d ∈ serverSends C S cfg s sv metaVersion i env ↔
        Effect.put d ∈ (handle C S cfg s m env).effects ∨ sv.onInterest i.name = some (.profile d)) := by
    intro h m w hw hm hp
    have hd : dispatch cfg.profile i.name = [h] := by
      refine dispatch_of ?_
      show _ <+: _
      rw [hw, List.append_assoc]
      exact hp
    have hpre : isPrefixOf cfg.profile.caPrefix i.name = true := (isPrefixOf_iff _ _).mpr ((List.prefix_append _ _).trans hp)
    unfold serverSends
    rw [if_pos hpre, hd, List.mem_append, or_comm]
    refine or_congr ?_ ?_
    · rw [List.flatMap_cons, List.flatMap_nil, List.append_nil, List.mem_map]
      unfold Handler.sends putsOf
      rw [hm]
      constructor
      · rintro ⟨x, hx, he⟩
        cases he
        rw [List.mem_filterMap] at hx
        obtain ⟨e, he, hx⟩ := hx
        cases e <;> cases hx
        exact he
      · intro he
        exact ⟨d, List.mem_filterMap.mpr ⟨_, he, rfl⟩, rfl⟩
    · cases sv.onInterest i.name with
      | none => simp
      | some p => cases p <;> simp [Packet.reply, eq_comm]
  refine ⟨key .probe _ _ rfl rfl, key .new _ _ rfl rfl, key .challenge _ _ rfl rfl, key .revoke _ _ rfl rfl, ?_⟩
  intro hp
  have hd : dispatch cfg.profile i.name = [.discovery] := by
    refine dispatch_of ?_
    show _ <+: _
    rw [List.append_assoc]
    exact hp
  have hpre : isPrefixOf cfg.profile.caPrefix i.name = true := (isPrefixOf_iff _ _).mpr ((List.prefix_append _ _).trans hp)
  unfold serverSends
  rw [if_pos hpre, hd, List.mem_append, or_comm]
  refine or_congr ?_ ?_
  · rw [List.flatMap_cons, List.flatMap_nil, List.append_nil, List.mem_map]
    unfold Handler.sends Handler.msg
    simp [eq_comm]
  · cases sv.onInterest i.name with
    | none => simp
    | some p => cases p <;> simp [Packet.reply, eq_comm]

/-- the first CHALLENGE of the run of the fixtures; a name outside; the name of a certificate of the CA -/
example : dispatch Fix.cfg.profile Fix.chal1.name = [.challenge] ∧ dispatch Fix.cfg.profile Fix.newInterest.name = [.new] ∧
    dispatch Fix.cfg.profile (Fix.ca ++ [caComp]) = [] ∧ dispatch Fix.cfg.profile Fix.caCert.name = [] := by decide +kernel

/-! ## C85 -/

/-- the CA server without repo never sends more than one Data for an Interest -/
def OneReply (C : Crypto) (S : StoreI σ) (cfg : CaConfig) (h : List (Step σ)) (s : CaState σ) : Prop :=
  ∀ first next, (∃ v : Block, v.typ = 54 ∧ first.name = profileDataName cfg.profile v) →
    (∀ m, ∃ v : Block, v.typ = 54 ∧ (next m).name = profileDataName cfg.profile v) →
    ∀ metaVersion i env, (serverSends C S cfg s (Server.after false first next h) metaVersion i env).length ≤ 1

/-- the name of the profile Data reaches no handler of the CA -/
theorem profile_unhandled (p : CaProfile) {v : Block} (hv : v.typ = 54) {h : Handler} (hf : h.For p (profileDataName p v)) : False := by
  have h2 := (for_next hf).2
  unfold profileDataName at h2
  rw [List.getElem?_append_right (by omega)] at h2
  simp at h2
  cases h with
  | discovery =>
    obtain ⟨t, ht⟩ := hf
    unfold profileDataName at ht
    rw [List.append_assoc, List.append_assoc] at ht
    have := List.append_cancel_left ht
    simp [Handler.words, caComp, infoComp] at this
    rw [← this.1] at hv
    exact absurd hv (by decide)
  | probe => revert h2; decide
  | new => revert h2; decide
  | challenge => revert h2; decide
  | revoke => revert h2; decide

/-- C85 as far as it is true: the server sends at most one Data for an Interest if no issued certificate has a name
`PREFIX/CA/<words of a handler>/...`. Missing: certificates with such names, see `C85_false`. -/
theorem C85_one_reply_partial (hC : C.Lawful) (hS : LawfulStore C S Inv) (hcfg : NameFits cfg.profile.caPrefix)
    {h : List (Step σ)} {s : CaState σ} (hx : Exec C S cfg h s)
    (hnames : ∀ n ∈ h, ∀ c, .issue c ∈ n.effects → ∀ w : Handler, ¬ w.For cfg.profile c.name) :
    OneReply C S cfg h s := by
  intro first next hfirst hnext metaVersion i env
  obtain ⟨hcache, _, hprof⟩ := server_cache hC hS hcfg hx first next
  have hpn : ∃ v : Block, v.typ = 54 ∧ (Server.after false first next h).profile.name = profileDataName cfg.profile v := by
    rw [hprof]
    cases (List.filter (fun n => n.event.stops) h).getLast? with
    | none => exact hfirst
    | some m => exact hnext m
  have hsends : ∀ hd : Handler, (hd.sends C S cfg s (Server.after false first next h).profile.name metaVersion i env).length ≤ 1 := by
    intro hd
    unfold Handler.sends
    split
    · simp
    · rw [putsOf_eq]
      rename_i m _
      rcases handle_sent (C := C) (S := S) (cfg := cfg) s m env with h0 | ⟨d, h0, _⟩ <;> simp [h0]
  have hon : ∀ hd : Handler, hd.For cfg.profile i.name → (Server.after false first next h).onInterest i.name = none := by
    intro hd hf
    unfold Server.onInterest
    rw [if_neg]
    · rw [Option.map_eq_none_iff, List.find?_eq_none]
      intro c hc hpre
      rw [hcache] at hc
      have hc := List.mem_of_mem_take hc
      unfold recent at hc
      rw [List.mem_reverse, List.mem_flatMap] at hc
      obtain ⟨n, hn, hc⟩ := hc
      have hnh : n ∈ h := by
        unfold sinceStart at hn
        rw [List.mem_reverse] at hn
        exact List.mem_reverse.mp ((List.takeWhile_sublist _).mem hn)
      have hiss : Effect.issue c ∈ n.effects := by
        unfold Step.announces at hc
        split at hc
        · cases hc
        · exact mem_issued.mp hc
      have hpre := (isPrefixOf_iff _ _).mp hpre
      have hfull := List.IsPrefix.trans hf hpre
      obtain ⟨h1, h2, rfl⟩ := List.append_of_mem hnh
      obtain ⟨_, _, _, _, _, _, hpol⟩ := C31_issued_content hC hS hcfg hx rfl hiss
      have hl := hpol.2.2.1
      refine hnames n hnh c hiss hd (List.prefix_of_prefix_length_le hfull (List.prefix_append _ _) ?_)
      unfold identityOf at hl
      simp only [List.length_append, List.length_take] at hl ⊢
      have : hd.words.length ≤ 2 := by cases hd <;> decide
      simp only [List.length_cons, List.length_nil]
      omega
    · rw [isPrefixOf_iff]
      obtain ⟨v, hv, hn⟩ := hpn
      rw [hn]
      intro hpre
      exact profile_unhandled cfg.profile hv (List.IsPrefix.trans hf hpre)
  unfold serverSends
  rcases dispatch_eq cfg.profile i.name with h0 | ⟨hd, h1, h2⟩
  · rw [h0]
    split
    · cases (Server.after false first next h).onInterest i.name <;> simp
    · simp
  · rw [h1, hon hd h2]
    have := hsends hd
    simpa using this

/-- C85: with a max-suffix-length of zero or one the server always sends at most one Data for an Interest. -/
theorem C85_short_names (hC : C.Lawful) (hS : LawfulStore C S Inv) (hcfg : NameFits cfg.profile.caPrefix)
    {k : Nat} (hk : cfg.profile.maxSuffixLength = some k) (hk1 : k ≤ 1)
    {h : List (Step σ)} {s : CaState σ} (hx : Exec C S cfg h s) : OneReply C S cfg h s := by
  refine C85_one_reply_partial hC hS hcfg hx ?_
  intro n hn c hc w hw
  obtain ⟨h1, h2, rfl⟩ := List.append_of_mem hn
  obtain ⟨_, _, r, _, _, hre, hpol⟩ := C31_issued_content hC hS hcfg hx rfl hc
  obtain ⟨i, env, r, es, k', ha, m, hb1, m2, hb2, i0, env0, r0, i2, env2, r2, kk, hi⟩ := issued_by hC hS hcfg hx rfl hc
  obtain ⟨pub, hsub⟩ := hi.policy.submitted
  obtain ⟨_, _, hdec⟩ := submits_decode hsub
  have hvn := hC.decode_name _ _ hdec
  rw [hi.same.2.2.2.1] at hvn
  have hname := hi.reissues.1
  unfold isValidCertName at hvn
  simp only [Bool.and_eq_true, decide_eq_true_eq, beq_iff_eq] at hvn
  obtain ⟨hlen, hkey⟩ := hvn
  have hl := hpol.2.2.1
  have hu := hpol.2.2.2 k hk
  have hnl : c.name.length = r.cert.name.length := by
    rw [hname]; unfold keyNameOf; simp; omega
  unfold identityOf at hl hu
  simp only [List.length_take] at hl hu
  have hat : c.name[cfg.profile.caPrefix.length + 1]? = some keyComponent := by
    rw [← hkey, hname]
    unfold keyNameOf
    rw [List.getElem?_append_left (by simp; omega), List.getElem?_take, if_pos (by omega)]
    congr 1
    omega
  have := (for_next hw).2
  rw [hat] at this
  revert this
  cases w <;> decide

/-- C85 is false as stated: a CA without max-suffix-length issues a certificate for a key of /ndn/CA/PROBE. The Interest for
the certificate is then also taken to be a PROBE, and gets two Data. -/
theorem C85_false : ∃ (C : Crypto) (cfg : CaConfig) (h : List (Step Mem)) (s : CaState Mem),
    C.Lawful ∧ NameFits cfg.profile.caPrefix ∧ Exec C memStore cfg h s ∧ ¬ OneReply C memStore cfg h s := by
  refine ⟨Fix.C, Fix.openCfg, Fix.probeHist, _, Toy.lawful, by decide +kernel, Fix.probeExec, ?_⟩
  intro H
  have := H ⟨profileDataName Fix.openCfg.profile ⟨54, [1]⟩, ⟨0, []⟩, []⟩ (fun _ => ⟨profileDataName Fix.openCfg.profile ⟨54, [1]⟩, ⟨0, []⟩, []⟩)
    ⟨⟨54, [1]⟩, rfl, rfl⟩ (fun _ => ⟨⟨54, [1]⟩, rfl, rfl⟩) ⟨54, [9]⟩ ⟨Fix.probeName, none, []⟩ Fix.env4
  revert this
  decide +kernel

/-- in the run of the fixtures the certificate is fetched, and a PROBE is answered -/
example : (serverSends Fix.C Fix.S Fix.cfg Fix.st4 (Server.after false ⟨profileDataName Fix.profile ⟨54, [1]⟩, ⟨0, []⟩, []⟩ (fun _ => Fix.reply1) Fix.pinHist) ⟨54, [9]⟩
      ⟨((recent Fix.pinHist).map Cert.name).headD [], none, []⟩ Fix.env4).length = 1 ∧
    (serverSends Fix.C Fix.S Fix.cfg Fix.st4 (Server.after false ⟨profileDataName Fix.profile ⟨54, [1]⟩, ⟨0, []⟩, []⟩ (fun _ => Fix.reply1) Fix.pinHist) ⟨54, [9]⟩
      (genProbeInterest Fix.C Fix.profile []) Fix.env4).length = 1 := by decide +kernel

end Ndncert.Props
