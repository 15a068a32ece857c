import Verif.Lemmas.Reconfigure
import Verif.Props.Main

/-! # C130: another configuration after a restart -/

namespace Ndncert.Props
open Ndncert

section
variable {σ : Type} {C : Crypto} {S : StoreI σ} {Inv : σ → Prop} {ca : Name}

/-- **C130** Whatever NEW is accepted meets the limits of the configuration in force. -/
theorem C130_accepted {h : List (CaConfig × Step σ)} {cfg : CaConfig} {s : CaState σ}
    (hx : Reconfigured C S ca h cfg s) {c0 : CaConfig} {m : Step σ} (hm : (c0, m) ∈ h) {i : Interest} {env : Env} {r : RequestState} (ha : AcceptsNew m i env r) :
    NewPolicy C c0 i env r.cert := by
  obtain ⟨_, hsteps⟩ := hx.steps
  obtain ⟨_, hwf, _, he⟩ := hsteps _ hm
  have hdb := step_db C S c0 m hwf he
  have h1 := (mem_dbOps (e := .dbAdd r) rfl).mpr ha.2
  generalize dbOps m.effects = d at hdb h1
  cases hdb with
  | none => cases h1
  | update i env k es out r0 r1 h => simp at h1
  | delete i env r h hv => simp at h1
  | add ty i' env' r' h =>
    simp only [List.mem_singleton, Effect.dbAdd.injEq] at h1
    subst h1
    obtain ⟨mm, hmm, hreq⟩ := h.event
    have := ha.1
    unfold Step.Handles at this
    rw [hmm] at this
    cases this
    simp only [Msg.request?, Option.some.injEq, Prod.mk.injEq] at hreq
    obtain ⟨rfl, rfl⟩ := hreq
    obtain ⟨p1, p2, p3⟩ := h.new rfl
    exact ⟨h.submits, h.name, p1, p2, p3⟩

/-- **C130** Whenever the CA signs a certificate in a step `n`, an earlier step accepted a NEW for its key name, public key and validity period, which met the
limits of the configuration in force *then*; the request was neither removed nor replaced since, a challenge was started for it, and `n` processed a CHALLENGE
that verifies under its key and answers that challenge. All this, however often the configuration was changed in between.
Missing: that the certificate meets the limits of the configuration in force when it is signed; see `C130_false`. -/
theorem C130_issued_partial (hC : C.Lawful) (hS : LawfulStore C S Inv) (hr : ∀ d, S.reopen d = d) (hca : NameFits ca) {h : List (CaConfig × Step σ)} {cfg : CaConfig} {s : CaState σ}
    (hx : Reconfigured C S ca h cfg s) {h1 h2 : List (CaConfig × Step σ)} {cn : CaConfig} {n : Step σ} (hh : h = h1 ++ (cn, n) :: h2)
    {c : Cert} (hc : .issue c ∈ n.effects) :
    ∃ ha c0 m hb i0 env0 r0, h1 = ha ++ (c0, m) :: hb ∧ AcceptsNew m i0 env0 r0 ∧ NewPolicy C c0 i0 env0 r0.cert ∧
      keyNameOf c.name = keyNameOf r0.cert.name ∧ c.content = r0.cert.content ∧ c.validity = r0.cert.validity ∧
      Kept r0.requestId (hb.map Prod.snd) ∧
      ∃ hb1 c2 m2 hb2 i2 env2 r2 k, hb = hb1 ++ (c2, m2) :: hb2 ∧ StartsChallenge C S c2 m2 i2 env2 r2 k ∧
        r2.requestId = r0.requestId ∧ r2.cert = r0.cert ∧
        ∃ i env r es k', Challenges C S cn n i env r es k' ∧ r.requestId = r0.requestId ∧ r.cert = r0.cert ∧ Answered C env2 k es := by
  obtain ⟨_, hsteps⟩ := hx.steps
  obtain ⟨L, hLca, hL⟩ := admits_all ca h (fun x hm => (hsteps x hm).1)
  have hexec := hx.shadow hr hL
  have facts : ∀ x ∈ h, (shadow C S L x).pre = x.2.pre ∧ (∀ e, e.lasts = true → (e ∈ (shadow C S L x).effects ↔ e ∈ x.2.effects)) ∧
      ((∃ e, e.lasts = true ∧ e ∈ x.2.effects) → (shadow C S L x).event.msg? = x.2.event.msg?) := fun x hm =>
    shadow_facts hr (hL x hm) (hsteps x hm).2.1 (hsteps x hm).2.2.2
  have hn : (cn, n) ∈ h := by rw [hh]; simp
  have hc' : Effect.issue c ∈ (shadow C S L (cn, n)).effects := ((facts _ hn).2.1 _ rfl).mpr hc
  obtain ⟨ha', m', hb', i0, env0, r0, e1, hacc, _, k1, k2, k3, hkept, hb1', m2', hb2', i2, env2, r2, k, e2, hst, hid, hcert, i, env, r, es, k', hch, hid2, hcert2, hans⟩ :=
    C30_issued_only_after hC hS (by rw [hLca]; exact hca) hexec (h1 := h1.map (shadow C S L)) (n := shadow C S L (cn, n)) (h2 := h2.map (shadow C S L))
      (by rw [hh, List.map_append, List.map_cons]) hc'
  obtain ⟨ha, rest, rfl, rfl, e3⟩ := List.map_eq_append_iff.mp e1
  obtain ⟨⟨c0, m⟩, hb, rfl, rfl, rfl⟩ := List.map_eq_cons_iff.mp e3
  obtain ⟨hb1, rest, rfl, rfl, e4⟩ := List.map_eq_append_iff.mp e2
  obtain ⟨⟨c2, m2⟩, hb2, rfl, rfl, rfl⟩ := List.map_eq_cons_iff.mp e4
  have hm : (c0, m) ∈ h := by rw [hh]; simp
  have hm2 : (c2, m2) ∈ h := by rw [hh]; simp
  -- a step and its shadow
  have auth : ∀ {x : CaConfig × Step σ} {i : Interest} {env : Env} {r : RequestState}, x ∈ h →
      Authentic C S L (shadow C S L x).pre.store i env r → Authentic C S x.1 x.2.pre.store i env r := by
    intro x i env r hxm ⟨q1, ⟨b, q2, q2'⟩, q3⟩
    refine ⟨by rw [← (facts x hxm).1]; exact q1, ⟨b, ?_, q2'⟩, q3⟩
    rw [(hsteps x hxm).1, ← hLca]
    exact q2
  have hacc' : AcceptsNew m i0 env0 r0 := by
    have hmem := ((facts _ hm).2.1 (.dbAdd r0) rfl).mp hacc.2
    have hev := (facts _ hm).2.2 ⟨_, rfl, hmem⟩
    refine ⟨?_, hmem⟩
    have := hacc.1
    unfold Step.Handles at *
    rw [hev] at this
    exact this
  refine ⟨ha, c0, m, _, i0, env0, r0, rfl, hacc', C130_accepted hx hm hacc', k1, k2, k3, ?_, hb1, c2, m2, hb2, i2, env2, r2, k, rfl, ?_, hid, hcert,
    i, env, r, es, k', ?_, hid2, hcert2, hans⟩
  · intro y hy
    obtain ⟨x, hxm, rfl⟩ := List.mem_map.mp hy
    have hxh : x ∈ h := by rw [hh]; simp only [List.mem_append, List.mem_cons] at hxm ⊢; exact .inl (.inr (.inr hxm))
    obtain ⟨g1, g2⟩ := hkept (shadow C S L x) (List.mem_map_of_mem hxm)
    refine ⟨fun hd => g1 (((facts x hxh).2.1 _ rfl).mpr hd), fun r' hr' => g2 r' (((facts x hxh).2.1 _ rfl).mpr hr')⟩
  · obtain ⟨⟨es2, hh2, hau2, hsel2⟩, hbef, r1, hup, hid1, hty1⟩ := hst
    have hmem := ((facts _ hm2).2.1 (.dbUpdate r1) rfl).mp hup
    have hev := (facts _ hm2).2.2 ⟨_, rfl, hmem⟩
    unfold Step.Handles at hh2
    rw [hev] at hh2
    exact ⟨⟨es2, hh2, auth hm2 hau2, hsel2⟩, hbef, r1, hmem, hid1, hty1⟩
  · obtain ⟨hh3, hau3, hsel3⟩ := hch
    have hev := (facts _ hn).2.2 ⟨_, rfl, hc⟩
    unfold Step.Handles at hh3
    rw [hev] at hh3
    exact ⟨hh3, auth hn hau3, hsel3⟩

/-- **C130** A configuration that never changes: the executions of the other properties. -/
theorem C130_unchanged {cfg : CaConfig} {h : List (Step σ)} {s : CaState σ} (hx : Exec C S cfg h s) :
    Reconfigured C S cfg.profile.caPrefix (h.map (fun n => (cfg, n))) cfg s := by
  induction hx with
  | init idKey => exact .init cfg idKey rfl
  | step e prev wf possible ih =>
    rw [List.map_append]
    exact .step e ih wf possible

end

/-! ## Configuration files -/

/-- **C130** The same with the files: each process of the server was started with a configuration file of its own, for the same prefix. What is issued is for a name below that
prefix by at most the number of components, and for a period that ends at most the number of seconds (or a day) after its NEW was accepted, that are written in
the file with which the process that accepted the NEW was started.
Missing: the limits in the file of the process that signs; see `C130_false`. -/
theorem C130_files_partial {C : Crypto} {load : Bytes → Option Cert} {save : Cert → Bytes} {ca : Name} (hC : C.Lawful) (hca : NameFits ca)
    {h : List (CaConfig × Step Db)} {cfg : CaConfig} {s : CaState Db} (hx : Reconfigured C (sqlStore C) ca h cfg s)
    (hstart : ∀ x ∈ h, ∃ sysconf w args m repo d, serverMain C (libText load save) sysconf w args = .serves m repo d ∧ m.config.toCaConfig = some x.1)
    {h1 h2 : List (CaConfig × Step Db)} {cn : CaConfig} {n : Step Db} (hh : h = h1 ++ (cn, n) :: h2) {c : Cert} (hc : .issue c ∈ n.effects) :
    ∃ c0 m i0 env0 r0, (c0, m) ∈ h1 ∧ AcceptsNew m i0 env0 r0 ∧ keyNameOf c.name = keyNameOf r0.cert.name ∧ c.validity = r0.cert.validity ∧
      ∃ sysconf w args m0 repo d config host port text t, serverMain C (libText load save) sysconf w args = .serves m0 repo d ∧ m0.config.toCaConfig = some c0 ∧
        ServerAsked sysconf args config host port ∧ w.files config = some text ∧ JsonDocument text t ∧ readUri (t.getStr (bytes! "ca-prefix") []) = some ca ∧
        ca <+: identityOf r0.cert.name ∧ ca.length < (identityOf r0.cert.name).length ∧
        (∀ v k, t.FirstEntry (bytes! "max-suffix-length") v → Numeral v.data false k → k < 2 ^ 64 → (identityOf r0.cert.name).length ≤ ca.length + k) ∧
        ∃ nb na, c.validity = some (nb, na) ∧
          (∀ v k, t.FirstEntry (bytes! "max-validity-period") v → Numeral v.data false k → na ≤ env0.now + (k : Int) * 1000000000) ∧
          ((∀ e ∈ t.kids, e.1 ≠ bytes! "max-validity-period") → na ≤ env0.now + 86400 * 1000000000) := by
  obtain ⟨ha, c0, m, hb, i0, env0, r0, e1, hacc, hpol, k1, k2, k3, _⟩ := C130_issued_partial hC (sqlStore_lawful C) (fun _ => rfl) hca hx hh hc
  have hm : (c0, m) ∈ h1 := by rw [e1]; simp
  have hmh : (c0, m) ∈ h := by rw [hh]; exact List.mem_append_left _ hm
  obtain ⟨sysconf, w, args, m0, repo, d, hs, hcfg⟩ := hstart _ hmh
  obtain ⟨config, host, port, text, t, cert, a1, a2, a3, a4, _⟩ := (C128_starts C load save sysconf w args m0 repo d).mp hs
  have hprof : c0.profile = m0.config.profile := ((C74_module_partial m0.config c0).mp hcfg).1
  have hc0 : c0.profile.caPrefix = ca := (hx.steps.2 _ hmh).1
  have hread : readUri (t.getStr (bytes! "ca-prefix") []) = some ca := by
    rw [← hc0, hprof]
    exact (C74_content_partial _ t m0.config a4).1
  obtain ⟨l1, _, l3⟩ := C74_lenient_partial _ t m0.config a4
  have hfirst : ∀ key v, t.FirstEntry key v → t.child key = some v := fun key v hv => ((C74_lookup_partial t key).1 v).mpr hv
  have hnone : ∀ key, (∀ e ∈ t.kids, e.1 ≠ key) → t.child key = none := fun key hv => ((C74_lookup_partial t key).2.2 hv).1
  obtain ⟨hname, hpre, hlen, hmax⟩ := hpol.name
  rw [hc0] at hpre hlen hmax
  obtain ⟨nb, na, hval, _, hna, _⟩ := hpol.validity
  refine ⟨c0, m, i0, env0, r0, hm, hacc, k1, k3, sysconf, w, args, m0, repo, d, config, host, port, text, t, hs, hcfg, a1, a2, a3, hread, hpre, hlen, ?_,
    nb, na, by rw [k3]; exact hval, ?_, ?_⟩
  · intro v k hv hn hk
    refine hmax k ?_
    rw [hprof]
    exact (l1 k).mpr ⟨v, false, k, hfirst _ _ hv, hn, hk, by simp⟩
  · intro v k hv hn
    rw [hprof] at hna
    exact validity_mono hna (validity_limit_le _ t _ a4 (hfirst _ _ hv) hn)
  · intro hv
    have := l3 (by
      rintro ⟨c, _, _, hc2, _⟩
      rw [hnone _ hv] at hc2
      cases hc2)
    rw [hprof, this] at hna
    exact hna

/-! ## A stricter configuration -/

theorem reconfigured_runs {σ : Type} {C : Crypto} {S : StoreI σ} {ca : Name} {cfg : CaConfig} : ∀ (es : List Event) (h : List (CaConfig × Step σ)) (s : CaState σ),
    Reconfigured C S ca h cfg s → runsOk C S cfg s es = true →
    Reconfigured C S ca (h ++ (runs C S cfg s es).1.map (fun n => (cfg, n))) cfg (runs C S cfg s es).2
  | [], h, s, hx, _ => by simpa [runs] using hx
  | e :: es, h, s, hx, hok => by
    unfold runsOk at hok
    rw [Bool.and_eq_true, Bool.and_eq_true] at hok
    have := reconfigured_runs es _ _ (.step e hx (eventOk_wf hok.1.1) (possibleOk_possible hok.1.2)) hok.2
    simpa [runs] using this

/-- the configuration of the fixtures, made stricter: no names at all, and periods of at most one second -/
def exStrict : CaConfig := { Fix.cfg with profile := { Fix.cfg.profile with maxSuffixLength := some 0, maxValidityPeriod := 1 } }

/-- the CA of the fixtures after the NEW -/
def exBefore : List (Step Db) × CaState Db := runs Fix.C (sqlStore Fix.C) Fix.cfg ⟨(sqlStore Fix.C).empty, Fix.idKey⟩ [Fix.ev1]

/-- what it does after the restart with the stricter configuration -/
def exAfter : List (Step Db) × CaState Db :=
  runs Fix.C (sqlStore Fix.C) exStrict ⟨(sqlStore Fix.C).reopen exBefore.2.store, [9, 9]⟩ [Fix.ev2, Fix.ev4]

/-- the history of both -/
def exStricter : List (CaConfig × Step Db) :=
  exBefore.1.map (fun n => (Fix.cfg, n)) ++ [(exStrict, ⟨exBefore.2, .restart [9, 9], []⟩)] ++ exAfter.1.map (fun n => (exStrict, n))

theorem exStricter_runs : Reconfigured Fix.C (sqlStore Fix.C) Fix.ca exStricter exStrict exAfter.2 := by
  have h1 := reconfigured_runs (C := Fix.C) (S := sqlStore Fix.C) [Fix.ev1] [] _ (.init Fix.cfg Fix.idKey (ca := Fix.ca) rfl) (by decide +kernel)
  have h2 := Reconfigured.reconfigure exStrict [9, 9] h1 rfl
  exact reconfigured_runs [Fix.ev2, Fix.ev4] _ _ h2 (by decide +kernel)

/-- what the certificate issued under the stricter configuration violates -/
def exceeds (cfg : CaConfig) (env : Env) (c : Cert) : Bool :=
  (match cfg.profile.maxSuffixLength with
    | some k => decide (cfg.profile.caPrefix.length + k < (identityOf c.name).length)
    | none => false) &&
  (match c.validity with
    | some (_, na) => decide (env.now + (cfg.profile.maxValidityPeriod : Int) * 1000000000 < na)
    | none => false)

/-- **C130** fails for what is issued: a CA restarted with a stricter configuration completes a request that it accepted before, and signs a certificate for a name
longer than the configuration in force allows and for a period that ends later than that configuration allows. -/
theorem C130_false : ∃ (h : List (CaConfig × Step Db)) (cfg : CaConfig) (s : CaState Db) (n : Step Db) (i : Interest) (env : Env) (c : Cert) (k : Nat) (nb na : Time),
    Reconfigured Fix.C (sqlStore Fix.C) Fix.ca h cfg s ∧ (cfg, n) ∈ h ∧ n.Handles (.challenge i) env ∧ .issue c ∈ n.effects ∧
    cfg.profile.maxSuffixLength = some k ∧ cfg.profile.caPrefix.length + k < (identityOf c.name).length ∧
    c.validity = some (nb, na) ∧ env.now + (cfg.profile.maxValidityPeriod : Int) * 1000000000 < na := by
  have hd : exAfter.1.any (fun n => match n.event with
      | .msg (.challenge _) env => n.effects.any (fun e => match e with
        | .issue c => exceeds exStrict env c
        | _ => false)
      | _ => false) = true := by decide +kernel
  obtain ⟨n, hn, h1⟩ := List.any_eq_true.mp hd
  have hmem : (exStrict, n) ∈ exStricter := by
    unfold exStricter
    exact List.mem_append_right _ (List.mem_map_of_mem hn)
  obtain ⟨pre, e, es⟩ := n
  cases e with
  | crash m env k nk => cases h1
  | restart nk => cases h1
  | msg m env =>
    cases m with
    | probe i => cases h1
    | new i => cases h1
    | revoke i => cases h1
    | challenge i =>
      obtain ⟨ef, he, h2⟩ := List.any_eq_true.mp h1
      cases ef with
      | issue c =>
        dsimp only at h2
        unfold exceeds at h2
        rw [Bool.and_eq_true] at h2
        obtain ⟨h3, h4⟩ := h2
        cases hv : c.validity with
        | none => rw [hv] at h4; cases h4
        | some p =>
          rw [hv] at h4
          exact ⟨exStricter, exStrict, exAfter.2, _, i, env, c, 0, p.1, p.2, exStricter_runs, hmem, rfl, he, rfl, of_decide_eq_true h3, hv, of_decide_eq_true h4⟩
      | _ => cases h2

/-- the execution of `C130_false` meets the hypotheses of `C130_issued_partial` and `C130_accepted` -/
example : (∃ cn n c, (cn, n) ∈ exStricter ∧ .issue c ∈ n.effects) ∧ ∃ c0 m i env r, (c0, m) ∈ exStricter ∧ AcceptsNew m i env r := by
  refine ⟨?_, ?_⟩
  · have hd : exStricter.any (fun x => x.2.effects.any (fun e => match e with
        | .issue _ => true
        | _ => false)) = true := by decide +kernel
    obtain ⟨⟨cn, n⟩, hn, h1⟩ := List.any_eq_true.mp hd
    obtain ⟨ef, he, h2⟩ := List.any_eq_true.mp h1
    cases ef with
    | issue c => exact ⟨cn, n, c, hn, he⟩
    | _ => cases h2
  · have hd : exBefore.1.any (fun n => n.effects.any (fun e => match e with
        | .dbAdd _ => true
        | _ => false)) = true := by decide +kernel
    obtain ⟨n, hn, h1⟩ := List.any_eq_true.mp hd
    obtain ⟨ef, he, h2⟩ := List.any_eq_true.mp h1
    have hn' := hn
    unfold exBefore runs at hn'
    cases ef with
    | dbAdd r =>
      refine ⟨Fix.cfg, n, Fix.newInterest, Fix.env1, r, ?_, ?_, he⟩
      · unfold exStricter
        exact List.mem_append_left _ (List.mem_append_left _ (List.mem_map_of_mem hn))
      · simp only [runs, List.mem_singleton] at hn'
        rw [hn']
        rfl
    | _ => cases h2

/-- a file with the stricter limits -/
def exStrictConf : Bytes :=
  bytes! "{ \"ca-prefix\": \"/ndn\", \"forwarding-hint\": \"/hint\", \"max-suffix-length\": 0, \"max-validity-period\": 1, \"supported-challenges\": [ { \"challenge\": \"PIN\" } ], \"certificate\": \"x\" }"

/-- its tree -/
def exStrictTree : PTree :=
  .node [] [(bytes! "ca-prefix", .leaf (bytes! "/ndn")), (bytes! "forwarding-hint", .leaf (bytes! "/hint")), (bytes! "max-suffix-length", .leaf (bytes! "0")),
    (bytes! "max-validity-period", .leaf (bytes! "1")),
    (bytes! "supported-challenges", .node [] [([], .node [] [(bytes! "challenge", .leaf (bytes! "PIN"))])]), (bytes! "certificate", .leaf (bytes! "x"))]

/-- the same surroundings with the stricter file -/
def exStrictAround : ServerSurroundings :=
  { exAround with files := fun f => if f = bytes! "/etc/ndncert/ca.conf" then some exStrictConf else none }

theorem exStrictDoc : JsonDocument exStrictConf exStrictTree := document_of (by decide +kernel)

theorem exStrictLoaded : loadTree (libText exLoad (fun _ => [])) exStrictTree = .ok ⟨exStrict.profile, [], []⟩ := rfl

theorem exStrictServes : ∃ d, serverMain Fix.C (libText exLoad (fun _ => [])) (bytes! "/etc") exStrictAround [bytes! "-H", bytes! "localhost"] =
    .serves ⟨⟨exStrict.profile, [], []⟩, some .sqlite, Fix.idKey⟩ (some (bytes! "localhost", bytes! "7376")) d :=
  ⟨⟨_, _, _⟩, (C128_starts _ _ _ _ _ _ _ _ _).mpr ⟨bytes! "/etc/ndncert/ca.conf", bytes! "localhost", bytes! "7376", exStrictConf, exStrictTree,
    { Fix.caCert with keyLocator := some Fix.ca }, exAsked, by decide +kernel, exStrictDoc, exStrictLoaded, rfl, rfl, rfl, by decide, rfl, rfl, rfl,
    fun h => (by cases h), fun _ => rfl⟩⟩

-- the execution of `C130_false` is one of a server started with two configuration files, as `C130_files_partial` demands
example : ∀ x ∈ exStricter, ∃ sysconf w args m repo d,
    serverMain Fix.C (libText exLoad (fun _ => [])) sysconf w args = .serves m repo d ∧ m.config.toCaConfig = some x.1 := by
  have hb : ∀ c, c = Fix.cfg ∨ c = exStrict → ∃ sysconf w args m repo d,
      serverMain Fix.C (libText exLoad (fun _ => [])) sysconf w args = .serves m repo d ∧ m.config.toCaConfig = some c := by
    rintro c (rfl | rfl)
    · obtain ⟨d, hd⟩ := exServes
      exact ⟨_, _, _, _, _, d, hd, rfl⟩
    · obtain ⟨d, hd⟩ := exStrictServes
      exact ⟨_, _, _, _, _, d, hd, rfl⟩
  intro x hx
  unfold exStricter at hx
  rcases List.mem_append.mp hx with hx | hx
  · rcases List.mem_append.mp hx with hx | hx
    · obtain ⟨n, _, rfl⟩ := List.mem_map.mp hx
      exact hb _ (.inl rfl)
    · rw [List.mem_singleton] at hx
      rw [hx]
      exact hb _ (.inr rfl)
  · obtain ⟨n, _, rfl⟩ := List.mem_map.mp hx
    exact hb _ (.inr rfl)

end Ndncert.Props
