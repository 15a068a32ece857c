import Verif.Spec.Tools
import Verif.Lemmas.Server
import Verif.Lemmas.Face
import Verif.Lemmas.Session
import Verif.Lemmas.Client
import Verif.Props.Server
import Verif.Props.Face

namespace Ndncert

variable {σ : Type} {C : Crypto} {S : StoreI σ} {Inv : σ → Prop} {cfg : CaConfig}

/-! ## The server's cache -/

/-- the cached certificates have names made by the CA -/
def Marked (sv : Server) : Prop := ∀ c ∈ sv.cache, ∃ k v, c.name = k ++ [ndncertComponent, v]

theorem hears_eq (sv : Server) (es : List Effect) : sv.hears es = (callbacks es).foldl (Server.onStatus false) sv := step_fold false es sv

theorem issue_marked {env : Env} {r : RequestState} {c : Cert} (h : issueCertificate C cfg env r = .ok c) :
    c.name = r.cert.keyName ++ [ndncertComponent, env.version] := by
  unfold issueCertificate at h
  split at h
  · cases h; rfl
  · cases h

theorem newCerts_append (a b : List RequestState) : newCerts (a ++ b) = newCerts a ++ newCerts b := by
  unfold newCerts; exact List.filterMap_append

/-- what a handler announces bears a name made by the CA -/
theorem callbacks_marked (s : CaState σ) (m : Msg) (env : Env) :
    ∀ c ∈ newCerts (callbacks (handle C S cfg s m env).effects), ∃ k v, c.name = k ++ [ndncertComponent, v] := by
  have newcase : ∀ ty i, (ty = .new ∨ ty = .revoke) →
      newCerts (callbacks (onNewRenewRevoke C S cfg s.idKey s.store ty i env).effects) = [] := by
    intro ty i hty
    have hc := onNew_cases C S cfg s.idKey s.store ty hty i env
    generalize onNewRenewRevoke C S cfg s.idKey s.store ty i env = o at hc
    cases hc <;> rfl
  intro c hc
  cases m with
  | new i =>
    have : newCerts (callbacks (handle C S cfg s (.new i) env).effects) = [] := newcase .new i (.inl rfl)
    rw [this] at hc; cases hc
  | revoke i =>
    have : newCerts (callbacks (handle C S cfg s (.revoke i) env).effects) = [] := newcase .revoke i (.inr rfl)
    rw [this] at hc; cases hc
  | probe i =>
    exfalso
    have hh : handle C S cfg s (.probe i) env = onProbe C cfg i env := rfl
    rw [hh] at hc
    revert hc
    unfold onProbe
    split
    · exact fun h => by cases h
    · exact fun h => by cases h
    · dsimp only
      split
      · exact fun h => by cases h
      · exact fun h => by cases h
      · split <;> exact fun h => by cases h
  | challenge i =>
    have hcs := onChallenge_cases C S cfg s.store i env
    have hh : handle C S cfg s (.challenge i) env = onChallenge C S cfg s.store i env := rfl
    rw [hh] at hc
    generalize onChallenge C S cfg s.store i env = o at hcs hc
    cases hcs with
    | undefined u _ => cases hc
    | noRequest info _ => cases hc
    | badSig r info _ _ => cases hc
    | reject r code info hv hcode => cases hc
    | early r t _ ht => cases hc
    | continued r div es k' out r2 payload hv ho hmc hst henc =>
      obtain ⟨es', iv, _, hr2, _⟩ := challengeEncode_ok henc
      have h1 : r2.status = .challenge := by rw [hr2]; exact hst
      rw [callbacks_append, callbacks_mail] at hc
      simp [callbacks, newCerts, h1] at hc
    | contThrew r div es k' out t hv ho hmc hst ht => rw [callbacks_mail] at hc; cases hc
    | issued r div es k' out c' r2 payload hv ho hmc hst hty' hiss henc =>
      obtain ⟨es', iv, _, hr2, _⟩ := challengeEncode_ok henc
      have h3 : r2.cert = c' := by rw [hr2]
      simp only [callbacks, newCerts, List.filterMap_cons, List.filterMap_nil] at hc
      split at hc
      · cases hc
      · next a b h =>
        split at h
        · cases h
          rw [List.mem_singleton] at hc
          subst hc
          rw [h3]
          exact ⟨_, _, issue_marked hiss⟩
        · cases h
    | issueThrew r div es k' out c t hv ho hmc hst hty hiss ht => cases hc
    | revoked r div es k' out r2 payload hv ho hmc hst hty' henc =>
      exfalso
      obtain ⟨es', iv, _, hr2, _⟩ := challengeEncode_ok henc
      have h1 : r2.requestType = .revoke := by
        rw [hr2]
        show out.req.requestType = .revoke
        rcases hmc.fixed with ⟨hcode, _⟩ | ⟨_, _, h3, _⟩
        · exfalso
          cases hmc <;> first | (cases hst; done) | exact hcode rfl
        · rw [h3]; exact hty'
      simp [callbacks, newCerts, h1] at hc
    | revokeThrew r div es k' out t hv ho hmc hst hty ht => cases hc

theorem hears_cache (sv : Server) (es : List Effect) :
    (∀ c ∈ (sv.hears es).cache, c ∈ newCerts (callbacks es) ∨ c ∈ sv.cache) ∧ (sv.hears es).profile = sv.profile := by
  rw [hears_eq]
  generalize callbacks es = rs
  induction rs generalizing sv with
  | nil => exact ⟨fun c h => .inr h, rfl⟩
  | cons r rs ih =>
    rw [List.foldl_cons]
    obtain ⟨h1, h2⟩ := ih (Server.onStatus false sv r)
    by_cases h : r.status = .success ∧ r.requestType = .new
    · have e1 : ∀ c ∈ (Server.onStatus false sv r).cache, c = r.cert ∨ c ∈ sv.cache := by
        intro c hc
        unfold Server.onStatus at hc
        rw [if_pos h] at hc
        simp only [Bool.false_eq_true, if_false] at hc
        have : c ∈ r.cert :: sv.cache := by
          split at hc
          · exact (List.dropLast_sublist _).mem hc
          · exact hc
        exact List.mem_cons.mp this
      have e2 : newCerts (r :: rs) = r.cert :: newCerts rs := by unfold newCerts; rw [List.filterMap_cons, if_pos h]
      refine ⟨fun c hc => ?_, h2.trans (by unfold Server.onStatus; rw [if_pos h]; rfl)⟩
      rw [e2]
      rcases h1 c hc with h3 | h3
      · exact .inl (List.mem_cons_of_mem _ h3)
      · rcases e1 c h3 with rfl | h4
        · exact .inl (List.mem_cons_self ..)
        · exact .inr h4
    · have e1 : Server.onStatus false sv r = sv := by unfold Server.onStatus; rw [if_neg h]
      have e2 : newCerts (r :: rs) = newCerts rs := by unfold newCerts; rw [List.filterMap_cons, if_neg h]
      rw [e1] at h1 h2
      rw [e1, e2]
      exact ⟨h1, h2⟩

theorem hears_marked {sv : Server} (h : Marked sv) (s : CaState σ) (m : Msg) (env : Env) :
    Marked (sv.hears (handle C S cfg s m env).effects) := by
  intro c hc
  rcases (hears_cache sv _).1 c hc with h1 | h1
  · exact callbacks_marked s m env c h1
  · exact h c h1

theorem listen_marked : ∀ (ms : List (Msg × Env)) {sv : Server} (s : CaState σ), Marked sv →
    Marked (listen C S cfg s sv ms) ∧ (listen C S cfg s sv ms).profile = sv.profile
  | [], sv, s, h => ⟨h, rfl⟩
  | (m, env) :: ms, sv, s, h => by
    unfold listen
    obtain ⟨h1, h2⟩ := listen_marked ms { s with store := applyEffects S s.store (handle C S cfg s m env).effects } (hears_marked h s m env)
    exact ⟨h1, h2.trans (hears_cache sv _).2⟩

/-- the server after a history has only certificates with such names in its cache -/
theorem after_marked (hC : C.Lawful) (hS : LawfulStore C S Inv) (hcfg : NameFits cfg.profile.caPrefix)
    {h : List (Step σ)} {s : CaState σ} (hx : Exec C S cfg h s) (first : Data) (next : Step σ → Data) :
    Marked (Server.after false first next h) := by
  intro c hc
  obtain ⟨hcache, _, _⟩ := Props.server_cache hC hS hcfg hx first next
  rw [hcache] at hc
  have hc := List.mem_of_mem_take hc
  unfold recent at hc
  rw [List.mem_reverse, List.mem_flatMap] at hc
  obtain ⟨n, hn, hc⟩ := hc
  have hnh : n ∈ h := by
    unfold sinceStart at hn
    rw [List.mem_reverse] at hn
    exact List.mem_reverse.mp ((List.takeWhile_sublist _).mem hn)
  have hiss : Effect.issue c ∈ n.effects := by
    unfold Step.announces at hc
    split at hc
    · cases hc
    · exact mem_issued.mp hc
  obtain ⟨h1, h2, rfl⟩ := List.append_of_mem hnh
  obtain ⟨i, env, r, es, k', ha, m, hb1, m2, hb2, i0, env0, r0, i2, env2, r2, kk, hi⟩ := issued_by hC hS hcfg hx rfl hiss
  exact ⟨_, _, hi.reissues.1⟩

/-! ## One exchange -/

/-- the Interest is one with parameters, and its name is not that of a certificate -/
def Own (i : Interest) : Prop := ∃ p c d, i.name = p ++ [c, ⟨2, d⟩] ∧ c ≠ ndncertComponent

theorem own_not_cert {i : Interest} (ho : Own i) {c : Cert} {k : Name} {v : Block} (hc : c.name = k ++ [ndncertComponent, v]) :
    i.name ≠ c.name ∧ i.name ≠ c.fullName := by
  obtain ⟨p, b, d, h1, h2⟩ := ho
  constructor
  · intro h
    rw [h1, hc] at h
    have := (List.append_inj' h rfl).2
    simp only [List.cons.injEq] at this
    exact h2 this.1
  · intro h
    rw [h1] at h
    unfold Cert.fullName at h
    have h' : (p ++ [b]) ++ [(⟨2, d⟩ : Block)] = c.name ++ [(⟨1, c.digest⟩ : Block)] := by simpa using h
    have := (List.append_inj' h' rfl).2
    simp at this

theorem handle_named {s : CaState σ} {m : Msg} {env : Env} {s' : CaState σ} {es : List Effect} {d : Data}
    (h : answer C S cfg s m env = some (s', es, d)) : d.name = m.interest.name ∧ (handle C S cfg s m env).term = .done ∧
      sent (handle C S cfg s m env).effects = [d] ∧ es = (handle C S cfg s m env).effects ∧ s' = { s with store := applyEffects S s.store es } := by
  unfold answer at h
  dsimp only at h
  split at h
  · next h1 h2 =>
    cases h
    refine ⟨?_, h1, h2, rfl, rfl⟩
    rcases handle_sent (C := C) (S := S) (cfg := cfg) s m env with h3 | ⟨d', h3, h4⟩
    · rw [h2] at h3; cases h3
    · rw [h2] at h3
      cases h3
      exact h4
  · cases h

/-- an Interest with parameters that the CA answers -/
theorem exchange_of {x : Tools σ} {e : Exchange} (hl : survives C S cfg x.ca e.others = true) (hm : Marked x.server) {v : Block} (hv : v.typ = 54)
    (hp : x.server.profile.name = profileDataName cfg.profile v) (hg : x.out.ended = .going) {a : Act} (ha : x.out.acts.getLast? = some a)
    (hnd : ∀ n, a ≠ .discovery n)
    {i : Interest} (hi : a.interest = some i) (ho : Own i) {h : Handler} (hd : dispatch cfg.profile i.name = [h]) {m : Msg} (hmsg : h.msg i = some m)
    {s' : CaState σ} {es : List Effect} {d : Data} (hans : answer C S cfg (serve C S cfg x.ca e.others) m e.env = some (s', es, d)) :
    exchange C S cfg x e =
      .ok ⟨x.out.st.step C e.client (.reply d e.packet), s', (listen C S cfg x.ca x.server e.others).hears es, x.done ++ es⟩ := by
  obtain ⟨h1, h2, h3, h4, h5⟩ := handle_named hans
  obtain ⟨l1, l2⟩ := listen_marked (C := C) (S := S) (cfg := cfg) e.others x.ca hm
  have hmi : m.interest = i := by cases h <;> cases hmsg <;> rfl
  have hfor : h.For cfg.profile i.name := mem_dispatch.mp (by rw [hd]; exact List.mem_singleton.mpr rfl)
  have hos : handlings C S cfg (serve C S cfg x.ca e.others) i e.env = [handle C S cfg (serve C S cfg x.ca e.others) m e.env] := by
    unfold handlings
    rw [hd]
    simp [hmsg]
  have hpkt : ∀ r ∈ (if isPrefixOf cfg.profile.caPrefix i.name then ((listen C S cfg x.ca x.server e.others).onInterest i.name).toList.map Packet.reply else []),
      a.satisfied i r = false := by
    intro r hr
    have hsat : a.satisfied i r = (match r with
        | .data d => decide (i.name = d.name)
        | .cert c => decide (i.name = c.name) || decide (i.name = c.fullName)) := by
      cases a <;> first | (exact absurd rfl (hnd _)) | (cases r <;> rfl)
    split at hr
    · unfold Server.onInterest at hr
      split at hr
      · simp only [Option.toList_some, List.map_cons, List.map_nil, List.mem_singleton] at hr
        subst hr
        rw [hsat]
        simp only [Packet.reply, decide_eq_false_iff_not]
        rw [l2, hp]
        intro h6
        rw [h6] at hfor
        exact Props.profile_unhandled cfg.profile hv hfor
      · simp only [List.mem_map, Option.mem_toList, Option.map_eq_some_iff] at hr
        obtain ⟨q, ⟨c, h6, rfl⟩, rfl⟩ := hr
        obtain ⟨k, v', hk⟩ := l1 c (List.mem_of_find?_eq_some h6)
        obtain ⟨h7, h8⟩ := own_not_cert ho hk
        rw [hsat]
        simp [Packet.reply, h7, h8]
    · cases hr
  have hsends : (serverSends C S cfg (serve C S cfg x.ca e.others) (listen C S cfg x.ca x.server e.others) e.metaVersion i e.env).filter (a.satisfied i) = [.data d] := by
    unfold serverSends
    rw [List.filter_append, List.filter_eq_nil_iff.mpr (fun r hr => by rw [hpkt r hr]; simp), List.nil_append, hd]
    simp only [List.flatMap_cons, List.flatMap_nil, List.append_nil]
    unfold Handler.sends
    rw [hmsg]
    dsimp only
    rw [putsOf_eq, h3]
    have : a.satisfied i (.data d) = true := by
      have hsat : a.satisfied i (.data d) = decide (i.name = d.name) := by
        cases a <;> first | (exact absurd rfl (hnd _)) | rfl
      rw [hsat, h1, hmi]
      simp
    simp [this]
  unfold exchange
  rw [if_pos hl]
  dsimp only
  rw [hg, ha]
  dsimp only
  rw [hi]
  dsimp only
  rw [hos, hsends]
  simp only [List.all_cons, List.all_nil, h2, decide_true, Bool.and_true, List.flatMap_cons, List.flatMap_nil, List.append_nil]
  rw [h5, h4]
  rfl

/-- an Interest none of the handlers with effects is called for, and one packet satisfies -/
theorem exchange_quiet {x : Tools σ} {e : Exchange} (ho : e.others = []) (hg : x.out.ended = .going) {a : Act} (ha : x.out.acts.getLast? = some a)
    {i : Interest} (hi : a.interest = some i) (hq : handlings C S cfg x.ca i e.env = []) {r : Reply}
    (hs : (serverSends C S cfg x.ca x.server e.metaVersion i e.env).filter (a.satisfied i) = [r]) :
    exchange C S cfg x e = .ok ⟨x.out.st.step C e.client (r.event e.packet), x.ca, x.server, x.done⟩ := by
  unfold exchange
  rw [ho]
  have h0 : survives C S cfg x.ca [] = true := rfl
  rw [if_pos h0]
  dsimp only
  rw [hg, ha]
  dsimp only
  rw [hi]
  dsimp only
  have h1 : serve C S cfg x.ca [] = x.ca := rfl
  have h2 : listen C S cfg x.ca x.server [] = x.server := rfl
  rw [h1, h2, hq, hs]
  show Ran.ok (Tools.mk _ _ _ (x.done ++ [])) = _
  rw [List.append_nil]
  rfl

/-- the metadata -/
theorem exchange_discovery {x : Tools σ} {e : Exchange} (ho : e.others = []) (hg : x.out.ended = .going)
    (ha : x.out.acts.getLast? = some (.discovery (cfg.profile.caPrefix ++ [caComp, infoComp, metadataComp]))) {v : Block} (hv : v.typ = 54)
    (hp : x.server.profile.name = profileDataName cfg.profile v)
    (hc : ∀ c ∈ x.server.cache, ¬ cfg.profile.caPrefix ++ [caComp, infoComp, metadataComp] <+: c.fullName)
    (hn : cfg.profile.caPrefix ++ [caComp, infoComp, metadataComp] <+: (onCaProfileDiscovery C cfg.profile x.server.profile.name e.metaVersion).name) :
    exchange C S cfg x e =
      .ok ⟨x.out.st.step C e.client (.reply (onCaProfileDiscovery C cfg.profile x.server.profile.name e.metaVersion) e.packet), x.ca, x.server, x.done⟩ := by
  have hf : Handler.discovery.For cfg.profile (cfg.profile.caPrefix ++ [caComp, infoComp, metadataComp]) := ⟨[], by simp [Handler.words, caComp, infoComp, metadataComp]⟩
  have hd := dispatch_of hf
  refine exchange_quiet (i := ⟨cfg.profile.caPrefix ++ [caComp, infoComp, metadataComp], none, []⟩) ho hg ha rfl ?_ (r := .data _) ?_
  · unfold handlings
    dsimp only
    rw [hd]
    rfl
  · unfold serverSends
    dsimp only
    have h1 : x.server.onInterest (cfg.profile.caPrefix ++ [caComp, infoComp, metadataComp]) = none := by
      unfold Server.onInterest
      rw [if_neg, Option.map_eq_none_iff, List.find?_eq_none]
      · intro c h2 h3
        exact hc c h2 ((isPrefixOf_iff _ _).mp h3)
      · rw [isPrefixOf_iff, hp]
        intro h2
        exact Props.profile_unhandled cfg.profile hv (hf.trans h2)
    rw [h1, hd]
    have h2 : (Act.discovery (cfg.profile.caPrefix ++ [caComp, infoComp, metadataComp])).satisfied
        ⟨cfg.profile.caPrefix ++ [caComp, infoComp, metadataComp], none, []⟩
        (.data (onCaProfileDiscovery C cfg.profile x.server.profile.name e.metaVersion)) = true := (isPrefixOf_iff _ _).mpr hn
    simp [Handler.sends, Handler.msg, h2]

/-- the profile -/
theorem exchange_profile {x : Tools σ} {e : Exchange} (ho : e.others = []) (hg : x.out.ended = .going)
    (ha : x.out.acts.getLast? = some (.profile x.server.profile.name)) {v : Block} (hv : v.typ = 54)
    (hp : x.server.profile.name = profileDataName cfg.profile v) :
    exchange C S cfg x e = .ok ⟨x.out.st.step C e.client (.reply x.server.profile e.packet), x.ca, x.server, x.done⟩ := by
  have hd : dispatch cfg.profile x.server.profile.name = [] := by
    rcases dispatch_eq cfg.profile x.server.profile.name with h | ⟨h, _, h2⟩
    · exact h
    · rw [hp] at h2
      exact absurd h2 (fun h3 => Props.profile_unhandled cfg.profile hv h3)
  refine exchange_quiet (i := ⟨x.server.profile.name, none, []⟩) ho hg ha rfl ?_ (r := .data _) ?_
  · unfold handlings
    dsimp only
    rw [hd]
    rfl
  · unfold serverSends
    dsimp only
    have h1 : x.server.onInterest x.server.profile.name = some (.profile x.server.profile) := by
      unfold Server.onInterest
      rw [if_pos ((isPrefixOf_iff _ _).mpr List.prefix_rfl)]
    have h2 : isPrefixOf cfg.profile.caPrefix x.server.profile.name = true := by
      rw [isPrefixOf_iff, hp]
      exact List.prefix_append ..
    rw [h1, hd, if_pos h2]
    simp [Packet.reply, Act.satisfied]

/-- a certificate -/
theorem exchange_fetch {x : Tools σ} {e : Exchange} (ho : e.others = []) (hg : x.out.ended = .going) {c : Cert} {cs : List Cert} {hint : Option Name}
    (ha : x.out.acts.getLast? = some (.fetch c.name hint)) {v : Block}
    (hp : x.server.profile.name = profileDataName cfg.profile v) (hc : x.server.cache = c :: cs)
    (hpre : cfg.profile.caPrefix <+: c.name) (hl : cfg.profile.caPrefix.length + 5 ≤ c.name.length)
    (hno : ∀ w : Handler, ¬ w.For cfg.profile c.name) :
    exchange C S cfg x e =
      .ok ⟨x.out.st.step C e.client (.reply ⟨c.name, ⟨T.Content, c.content.getD []⟩, []⟩ c.wire), x.ca, x.server, x.done⟩ := by
  have hd : dispatch cfg.profile c.name = [] := by
    rcases dispatch_eq cfg.profile c.name with h | ⟨h, _, h2⟩
    · exact h
    · exact absurd h2 (hno h)
  refine exchange_quiet (i := ⟨c.name, none, []⟩) ho hg ha rfl ?_ (r := .cert c) ?_
  · unfold handlings
    dsimp only
    rw [hd]
    rfl
  · unfold serverSends
    dsimp only
    have h1 : x.server.onInterest c.name = some (.cert c) := by
      unfold Server.onInterest
      have h0 : isPrefixOf c.name c.fullName = true := (isPrefixOf_iff _ _).mpr (List.prefix_append ..)
      rw [if_neg, hc, List.find?_cons, h0]
      · rfl
      · rw [isPrefixOf_iff, hp]
        intro h
        have := h.length_le
        unfold profileDataName at this
        simp at this
        omega
    rw [h1, hd, if_pos ((isPrefixOf_iff _ _).mpr hpre)]
    simp [Packet.reply, Act.satisfied]

end Ndncert
