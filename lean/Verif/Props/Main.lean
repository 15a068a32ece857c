import Verif.Lemmas.Main
import Verif.Props.Options
import Verif.Props.ConfigText
import Verif.Props.Lifecycle
import Verif.Props.Limits
import Verif.Props.CaExec
import Verif.Props.Report

/-! # C128, C129: the CA tools from their command line on -/

namespace Ndncert.Props
open Ndncert

variable {C : Crypto} {load : Bytes → Option Cert} {save : Cert → Bytes} {sysconf : Bytes} {w : ServerSurroundings} {args : List Bytes}

theorem serverCreate_ok (w : ServerSurroundings) (config host port : Bytes) (m : Constructed) (repo : Option (Bytes × Bytes)) (d : Data) :
    serverCreate C (libText load save) w config host port = .ok (m, repo, d) ↔
      ∃ text t cert, w.files config = some text ∧ JsonDocument text t ∧ loadTree (libText load save) t = .ok m.config ∧ w.opens = true ∧
        m.storage = some .sqlite ∧ m.idKey = w.idKey ∧ w.identity m.config.profile.caPrefix = some cert ∧
        getCaProfileData C m.config.profile cert w.version = .ok d ∧ repo = if host = [] then none else some (host, port) := by
  unfold serverCreate
  cases hf : w.files config with
  | none => simp [Res.ofOption, Bind.bind, Res.bind]
  | some text =>
    have hk : StorageNamed (bytes! "ca-storage-sqlite3") .sqlite := storageNamed_iff.mp (by decide)
    have h115 := (C115_known_partial C (libText load save) text (bytes! "ca-storage-sqlite3") w.opens w.idKey hk).1
    have hload : ∀ L, loadConfig (libText load save) text = .ok L ↔ ∃ t, JsonDocument text t ∧ loadTree (libText load save) t = .ok L := by
      intro L
      constructor
      · intro h
        cases hj : readJsonText text with
        | none =>
          unfold loadConfig at h
          rw [show (libText load save).readJson text = none from hj] at h
          cases h
        | some t =>
          have ht := (C105_json text t).mp hj
          exact ⟨t, ht, by rw [← load_document load save ht]; exact h⟩
      · rintro ⟨t, ht, h⟩
        rw [load_document load save ht]
        exact h
    simp only [Res.ofOption, Bind.bind, Res.bind]
    cases hc : constructCa (libText load save) text (bytes! "ca-storage-sqlite3") w.opens w.idKey with
    | exc e =>
      refine ⟨fun h => (by cases h), ?_⟩
      rintro ⟨_, t, cert, e1, ht, hl, ho, hs, hi, _⟩
      cases e1
      have := (h115 m).mpr ⟨(hload _).mpr ⟨t, ht, hl⟩, fun _ => ho, hs, hi⟩
      rw [hc] at this
      cases this
    | ub u =>
      refine ⟨fun h => (by cases h), ?_⟩
      rintro ⟨_, t, cert, e1, ht, hl, ho, hs, hi, _⟩
      cases e1
      have := (h115 m).mpr ⟨(hload _).mpr ⟨t, ht, hl⟩, fun _ => ho, hs, hi⟩
      rw [hc] at this
      cases this
    | ok m' =>
      obtain ⟨hl, ho, hs, hi⟩ := (h115 m').mp hc
      obtain ⟨t, ht, hl⟩ := (hload _).mp hl
      dsimp only
      constructor
      · intro h
        cases hid : w.identity m'.config.profile.caPrefix with
        | none => rw [hid] at h; cases h
        | some cert =>
          rw [hid] at h
          dsimp only at h
          cases hp : getCaProfileData C m'.config.profile cert w.version with
          | exc e => rw [hp] at h; cases h
          | ub u => rw [hp] at h; cases h
          | ok d' =>
            rw [hp] at h
            cases h
            exact ⟨text, t, cert, rfl, ht, hl, ho rfl, hs, hi, hid, hp, rfl⟩
      · rintro ⟨_, t', cert, e1, ht', hl', ho', hs', hi', hid, hp, rfl⟩
        cases e1
        have hm : m' = m := by
          have := (h115 m).mpr ⟨(hload _).mpr ⟨t', ht', hl'⟩, fun _ => ho', hs', hi'⟩
          rw [hc] at this
          cases this
          rfl
        subst hm
        rw [hid]
        dsimp only
        rw [hp]

/-- **C128** When the server serves: exactly if the command line asks for it, the configuration file can be read, is a JSON document and loads, the
database can be opened, the KeyChain has a certificate for the CA prefix, and the profile packet can be made. It serves with the configuration in
that file, the database, a fresh key for request ids, and a repo exactly if a host was given. -/
theorem C128_starts (C : Crypto) (load : Bytes → Option Cert) (save : Cert → Bytes) (sysconf : Bytes) (w : ServerSurroundings) (args : List Bytes)
    (m : Constructed) (repo : Option (Bytes × Bytes)) (d : Data) :
    serverMain C (libText load save) sysconf w args = .serves m repo d ↔
      ∃ config host port text t cert, ServerAsked sysconf args config host port ∧ w.files config = some text ∧ JsonDocument text t ∧
        loadTree (libText load save) t = .ok m.config ∧ w.opens = true ∧ m.storage = some .sqlite ∧ m.idKey = w.idKey ∧
        w.identity m.config.profile.caPrefix = some cert ∧ infoEncode m.config.profile cert = .ok d.content ∧
        d.name = m.config.profile.caPrefix ++ [gcomp (bytes! "CA"), gcomp (bytes! "INFO"), w.version, ⟨50, [0]⟩] ∧
        d.sig = C.signData m.config.profile.caPrefix d.name d.content ∧
        (host = [] → repo = none) ∧ (host ≠ [] → repo = some (host, port)) := by
  have hrepo : ∀ host port : Bytes, (repo = if host = [] then none else some (host, port)) ↔ (host = [] → repo = none) ∧ (host ≠ [] → repo = some (host, port)) := by
    intro host port
    by_cases h : host = []
    · simp [h]
    · simp [h]
  have hprof : ∀ cert, getCaProfileData C m.config.profile cert w.version = .ok d ↔ infoEncode m.config.profile cert = .ok d.content ∧
        d.name = m.config.profile.caPrefix ++ [gcomp (bytes! "CA"), gcomp (bytes! "INFO"), w.version, ⟨50, [0]⟩] ∧
        d.sig = C.signData m.config.profile.caPrefix d.name d.content := by
    intro cert
    unfold getCaProfileData
    cases infoEncode m.config.profile cert with
    | exc e => exact ⟨fun h => (by cases h), fun h => (by cases h.1)⟩
    | ub u => exact ⟨fun h => (by cases h), fun h => (by cases h.1)⟩
    | ok b =>
      constructor
      · intro h
        cases h
        exact ⟨rfl, rfl, rfl⟩
      · rintro ⟨e1, e2, e3⟩
        obtain ⟨dn, dc, ds⟩ := d
        cases e1
        dsimp only at e2 e3
        subst e2
        subst e3
        rfl
  unfold serverMain
  cases ho : serverOptions sysconf args with
  | exit n =>
    refine ⟨fun h => (by cases h), ?_⟩
    rintro ⟨config, host, port, text, t, cert, ha, _⟩
    rw [((C127_server sysconf args).1 config host port).mpr ha] at ho
    cases ho
  | run config host port =>
    have hask := ((C127_server sysconf args).1 config host port).mp ho
    dsimp only
    constructor
    · intro h
      cases hc : serverCreate C (libText load save) w config host port with
      | exc e => rw [hc] at h; cases h
      | ub u => rw [hc] at h; cases h
      | ok x =>
        obtain ⟨m', repo', d'⟩ := x
        rw [hc] at h
        cases h
        obtain ⟨text, t, cert, h1, h2, h3, h4, h5, h6, h7, h8, h9⟩ := (serverCreate_ok w config host port m repo d).mp hc
        obtain ⟨p1, p2, p3⟩ := (hprof cert).mp h8
        obtain ⟨q1, q2⟩ := (hrepo host port).mp h9
        exact ⟨config, host, port, text, t, cert, hask, h1, h2, h3, h4, h5, h6, h7, p1, p2, p3, q1, q2⟩
    · rintro ⟨config', host', port', text, t, cert, ha, h1, h2, h3, h4, h5, h6, h7, p1, p2, p3, q1, q2⟩
      have := ((C127_server sysconf args).1 config' host' port').mpr ha
      rw [ho] at this
      cases this
      rw [(serverCreate_ok w config host port m repo d).mpr
        ⟨text, t, cert, h1, h2, h3, h4, h5, h6, h7, (hprof cert).mpr ⟨p1, p2, p3⟩, (hrepo host port).mpr ⟨q1, q2⟩⟩]

/-- **C128** Whether the server serves, in terms of the files only: the document in the configuration file satisfies `ConfigOk` (C74), and, if it has
no text about the CA, the CA's certificate names its issuer. -/
theorem C128_serves_iff (C : Crypto) (load : Bytes → Option Cert) (save : Cert → Bytes) (sysconf : Bytes) (w : ServerSurroundings) (args : List Bytes) :
    (∃ m repo d, serverMain C (libText load save) sysconf w args = .serves m repo d) ↔
      ∃ config host port text t ca cert, ServerAsked sysconf args config host port ∧ w.files config = some text ∧ JsonDocument text t ∧
        ConfigOk (libText load save) t ∧ w.opens = true ∧ readUri (t.getStr (bytes! "ca-prefix") []) = some ca ∧ w.identity ca = some cert ∧
        (t.getStr (bytes! "ca-info") [] = [] → cert.keyLocator ≠ none) := by
  have henc : ∀ (p : CaProfile) (c : Cert), (∃ b, infoEncode p c = .ok b) ↔ (p.caInfo = [] → c.keyLocator ≠ none) := by
    intro p c
    unfold infoEncode caInfoText
    by_cases hi : p.caInfo = []
    · rw [if_pos hi]
      cases hk : c.keyLocator with
      | none => exact ⟨fun ⟨b, h⟩ => (by cases h), fun h => absurd rfl (h hi)⟩
      | some n => exact ⟨fun _ _ => (by simp), fun _ => ⟨_, rfl⟩⟩
    · rw [if_neg hi]
      exact ⟨fun _ h => absurd h hi, fun _ => ⟨_, rfl⟩⟩
  constructor
  · rintro ⟨m, repo, d, h⟩
    obtain ⟨config, host, port, text, t, cert, h1, h2, h3, h4, h5, _, _, h8, h9, _⟩ := (C128_starts C load save sysconf w args m repo d).mp h
    obtain ⟨k1, _, _, _, k5, _⟩ := C74_content_partial _ t m.config h4
    refine ⟨config, host, port, text, t, _, cert, h1, h2, h3, (C74_accepted_iff_partial _ t).mp ⟨_, h4⟩, h5, k1, h8, ?_⟩
    rw [← k5]
    exact (henc _ _).mp ⟨_, h9⟩
  · rintro ⟨config, host, port, text, t, ca, cert, h1, h2, h3, h4, h5, h6, h7, h8⟩
    obtain ⟨L, hL⟩ := (C74_accepted_iff_partial _ t).mpr h4
    obtain ⟨k1, _, _, _, k5, _⟩ := C74_content_partial _ t L hL
    have hca : L.profile.caPrefix = ca := by
      have k1 : readUri (t.getStr (bytes! "ca-prefix") []) = some L.profile.caPrefix := k1
      rw [h6] at k1
      exact (Option.some.inj k1).symm
    rw [← k5] at h8
    obtain ⟨b, hb⟩ := (henc L.profile cert).mpr h8
    have h7 : w.identity L.profile.caPrefix = some cert := by rw [hca]; exact h7
    exact ⟨⟨L, some .sqlite, w.idKey⟩, if host = [] then none else some (host, port),
      ⟨L.profile.caPrefix ++ [gcomp (bytes! "CA"), gcomp (bytes! "INFO"), w.version, ⟨50, [0]⟩], b,
        C.signData L.profile.caPrefix (L.profile.caPrefix ++ [gcomp (bytes! "CA"), gcomp (bytes! "INFO"), w.version, ⟨50, [0]⟩]) b⟩,
      (C128_starts C load save sysconf w args _ _ _).mpr ⟨config, host, port, text, t, cert, h1, h2, h3, hL, h5, rfl, rfl, h7, hb, rfl, rfl,
        fun h => if_pos h, fun h => if_neg h⟩⟩

/-- **C128** If the server does not serve, it has exited with status 0 because help was asked for, or with status 2 because the command line cannot be
understood; or it ends by an exception. The behaviour is undefined only for a configuration file in which a redirection states a prefix but
its certificate is none (C74). -/
theorem C128_ends (C : Crypto) (load : Bytes → Option Cert) (save : Cert → Bytes) (sysconf : Bytes) (w : ServerSurroundings) (args : List Bytes) :
    (serverMain C (libText load save) sysconf w args = .exits 0 ↔ ∃ os v, Understood args os ∧ (bytes! "help", v) ∈ os) ∧
    (serverMain C (libText load save) sysconf w args = .exits 2 ↔ ¬ ∃ os, Understood args os) ∧
    (∀ n, serverMain C (libText load save) sysconf w args = .exits n → n = 0 ∨ n = 2) ∧
    (∀ e, serverMain C (libText load save) sysconf w args = .threw e → ∃ config host port, ServerAsked sysconf args config host port) ∧
    (∀ u, serverMain C (libText load save) sysconf w args = .undefined u →
      ∃ config host port text t item, ServerAsked sysconf args config host port ∧ w.files config = some text ∧ JsonDocument text t ∧
        item ∈ t.items (bytes! "redirect-to") ∧ item.2.getStr (bytes! "ca-prefix") [] ≠ [] ∧ load (item.2.getStr (bytes! "certificate") []) = none) := by
  obtain ⟨g1, g2, g3, g4⟩ := C127_server sysconf args
  unfold serverMain
  cases ho : serverOptions sysconf args with
  | exit n =>
    rw [ho] at g2 g3
    refine ⟨⟨fun h => g2.mp (by cases h; rfl), fun h => (by cases g2.mpr h; rfl)⟩, ⟨fun h => g3.mp (by cases h; rfl), fun h => (by cases g3.mpr h; rfl)⟩,
      fun k hk => (by cases hk; exact g4 _ ho), fun e h => (by cases h), fun u h => (by cases h)⟩
  | run config host port =>
    have hask : ServerAsked sysconf args config host port := (g1 config host port).mp ho
    rw [ho] at g2 g3
    have no0 : ¬ ∃ os v, Understood args os ∧ (bytes! "help", v) ∈ os := fun h => by cases g2.mpr h
    have no2 : ∃ os, Understood args os := hask.imp fun _ h => h.1
    dsimp only
    have hub : ∀ u, serverCreate C (libText load save) w config host port = .ub u → ∃ text t item, w.files config = some text ∧ JsonDocument text t ∧
        item ∈ t.items (bytes! "redirect-to") ∧ item.2.getStr (bytes! "ca-prefix") [] ≠ [] ∧ load (item.2.getStr (bytes! "certificate") []) = none := by
      intro u h
      unfold serverCreate at h
      cases hf : w.files config with
      | none => rw [hf] at h; cases h
      | some text =>
        rw [hf] at h
        simp only [Res.ofOption, Bind.bind, Res.bind] at h
        have hinfo : ∀ p c v, ∃ r, getCaProfileData C p c v = r ∧ ∀ u, r ≠ .ub u := by
          intro p c v
          refine ⟨_, rfl, fun u => ?_⟩
          unfold getCaProfileData infoEncode caInfoText
          split
          · split <;> exact fun h => nomatch h
          · exact fun h => nomatch h
        cases hc : constructCa (libText load save) text (bytes! "ca-storage-sqlite3") w.opens w.idKey with
        | exc e => rw [hc] at h; cases h
        | ok m =>
          rw [hc] at h
          dsimp only at h
          cases hid : w.identity m.config.profile.caPrefix with
          | none => rw [hid] at h; cases h
          | some cert =>
            rw [hid] at h
            dsimp only at h
            obtain ⟨r, hr, hnu⟩ := hinfo m.config.profile cert w.version
            rw [hr] at h
            cases r with
            | ok x => cases h
            | exc e => cases h
            | ub u => exact absurd rfl (hnu u)
        | ub u' =>
          unfold constructCa at hc
          cases hl : loadConfig (libText load save) text with
          | exc e => rw [hl] at hc; cases hc
          | ok L =>
            rw [hl] at hc
            simp only [Bind.bind, Res.bind] at hc
            split at hc <;> cases hc
          | ub u2 =>
            cases hj : readJsonText text with
            | none =>
              unfold loadConfig at hl
              rw [show (libText load save).readJson text = none from hj] at hl
              cases hl
            | some t =>
              have ht := (C105_json text t).mp hj
              rw [load_document load save ht] at hl
              refine Classical.byContradiction fun hno => C74_defined_partial (libText load save) t ?_ u2 hl
              intro item hi hp hn
              exact hno ⟨text, t, item, rfl, ht, hi, hp, hn⟩
    cases hc : serverCreate C (libText load save) w config host port with
    | ok x => exact ⟨⟨fun h => (by cases h), fun h => absurd h no0⟩, ⟨fun h => (by cases h), fun h => absurd no2 h⟩, fun k h => (by cases h),
        fun e h => (by cases h), fun u h => (by cases h)⟩
    | exc x => exact ⟨⟨fun h => (by cases h), fun h => absurd h no0⟩, ⟨fun h => (by cases h), fun h => absurd no2 h⟩, fun k h => (by cases h),
        fun e h => ⟨config, host, port, hask⟩, fun u h => (by cases h)⟩
    | ub x =>
      refine ⟨⟨fun h => (by cases h), fun h => absurd h no0⟩, ⟨fun h => (by cases h), fun h => absurd no2 h⟩, fun k h => (by cases h),
        fun e h => (by cases h), fun u h => ?_⟩
      obtain ⟨text, t, item, k⟩ := hub x hc
      exact ⟨config, host, port, text, t, item, hask, k⟩

/-- **C128** From the configuration file to the certificates. Whatever a server that was started issues in its life, crashes and restarts included, is for a
name strictly below the prefix written in the configuration file, by at most the number of components written there; it carries the name, key and period of a
NEW accepted before, whose period ended at most the number of seconds written there (or a day) after that moment; and in between the code or
nonce of a challenge was answered. (`2 ^ 56`: no file is that big.) -/
theorem C128_issued (hC : C.Lawful) {m : Constructed} {repo : Option (Bytes × Bytes)} {d : Data}
    (hs : serverMain C (libText load save) sysconf w args = .serves m repo d) {cfg : CaConfig} (hcfg : m.config.toCaConfig = some cfg)
    (hsize : ∀ f text, w.files f = some text → text.length < 2 ^ 56) {h : List (Step Db)} {s : CaState Db} (hx : Exec C (sqlStore C) cfg h s)
    {h1 h2 : List (Step Db)} {n : Step Db} (hh : h = h1 ++ n :: h2) {c : Cert} (hc : .issue c ∈ n.effects) :
    ∃ config host port text t ca, ServerAsked sysconf args config host port ∧ w.files config = some text ∧ JsonDocument text t ∧
      readUri (t.getStr (bytes! "ca-prefix") []) = some ca ∧
      IsCertName c.name ∧ ca <+: identityOf c.name ∧ ca.length < (identityOf c.name).length ∧
      (∀ v k, t.FirstEntry (bytes! "max-suffix-length") v → Numeral v.data false k → k < 2 ^ 64 → (identityOf c.name).length ≤ ca.length + k) ∧
      ∃ m1 ∈ h1, ∃ i0 env0 r0, AcceptsNew m1 i0 env0 r0 ∧ C.verifyInterest i0 r0.cert = true ∧
        keyNameOf c.name = keyNameOf r0.cert.name ∧ c.content = r0.cert.content ∧ c.validity = r0.cert.validity ∧
        (∃ nb na, c.validity = some (nb, na) ∧
          (∀ v k, t.FirstEntry (bytes! "max-validity-period") v → Numeral v.data false k → na ≤ env0.now + (k : Int) * 1000000000) ∧
          ((∀ e ∈ t.kids, e.1 ≠ bytes! "max-validity-period") → na ≤ env0.now + 86400 * 1000000000)) ∧
        ∃ m2 ∈ h1, ∃ i2 env2 r2 k, StartsChallenge C (sqlStore C) cfg m2 i2 env2 r2 k ∧ r2.requestId = r0.requestId ∧
          ∃ i env r es k', Challenges C (sqlStore C) cfg n i env r es k' ∧ r.requestId = r0.requestId ∧ Answered C env2 k es := by
  obtain ⟨config, host, port, text, t, cert, a1, a2, a3, a4, _⟩ := (C128_starts C load save sysconf w args m repo d).mp hs
  have hprof : cfg.profile = m.config.profile := ((C74_module_partial m.config cfg).mp hcfg).1
  have hca : readUri (t.getStr (bytes! "ca-prefix") []) = some cfg.profile.caPrefix := by
    rw [hprof]
    exact (C74_content_partial _ t m.config a4).1
  have hfits : NameFits cfg.profile.caPrefix :=
    readUri_fits hca (Nat.lt_of_le_of_lt (getStr_length a3 _) (hsize config text a2))
  obtain ⟨_, _, _, _, _, _, hname, hpre, hlen, hmax⟩ := C31_issued_content hC (sqlStore_lawful C) hfits hx hh hc
  obtain ⟨ha, m1, hb, i0, env0, r0, e1, hacc, hpol, k1, k2, k3, _, hb1, m2, hb2, i2, env2, r2, k, e2, hst, hid, _, i, env, r, es, k', hch, hid2, _, hans⟩ :=
    C30_issued_only_after hC (sqlStore_lawful C) hfits hx hh hc
  obtain ⟨l1, _, l3⟩ := C74_lenient_partial _ t m.config a4
  have hfirst : ∀ key v, t.FirstEntry key v → t.child key = some v := fun key v hv => ((C74_lookup_partial t key).1 v).mpr hv
  have hnone : ∀ key, (∀ e ∈ t.kids, e.1 ≠ key) → t.child key = none := fun key hv => ((C74_lookup_partial t key).2.2 hv).1
  refine ⟨config, host, port, text, t, cfg.profile.caPrefix, a1, a2, a3, hca, hname, hpre, hlen, ?_, m1, by rw [e1]; simp, i0, env0, r0, hacc,
    hpol.possession, k1, k2, k3, ?_, m2, by rw [e1, e2]; simp, i2, env2, r2, k, hst, hid, i, env, r, es, k', hch, hid2, hans⟩
  · intro v k hv hn hk
    refine hmax k ?_
    rw [hprof]
    exact (l1 k).mpr ⟨v, false, k, hfirst _ _ hv, hn, hk, by simp⟩
  · obtain ⟨nb, na, hval, _, hna, _⟩ := hpol.validity
    refine ⟨nb, na, by rw [k3]; exact hval, ?_, ?_⟩
    · intro v k hv hn
      rw [hprof] at hna
      exact validity_mono hna (validity_limit_le _ t _ a4 (hfirst _ _ hv) hn)
    · intro hv
      have := l3 (by
        rintro ⟨c, _, _, hc2, _⟩
        rw [hnone _ hv] at hc2
        cases hc2)
      rw [hprof, this] at hna
      exact hna

theorem served_fits {m : Constructed} {repo : Option (Bytes × Bytes)} {d : Data}
    (hs : serverMain C (libText load save) sysconf w args = .serves m repo d) {cfg : CaConfig} (hcfg : m.config.toCaConfig = some cfg)
    (hsize : ∀ f text, w.files f = some text → text.length < 2 ^ 56) : NameFits cfg.profile.caPrefix := by
  obtain ⟨config, host, port, text, t, cert, a1, a2, a3, a4, _⟩ := (C128_starts C load save sysconf w args m repo d).mp hs
  have hprof : cfg.profile = m.config.profile := ((C74_module_partial m.config cfg).mp hcfg).1
  have hca : readUri (t.getStr (bytes! "ca-prefix") []) = some cfg.profile.caPrefix := by
    rw [hprof]
    exact (C74_content_partial _ t m.config a4).1
  exact readUri_fits hca (Nat.lt_of_le_of_lt (getStr_length a3 _) (hsize config text a2))

/-! ## ndncert-ca-status -/

theorem statusMain_asked {args : List Bytes} {ca : Bytes} (ha : StatusAsked args ca) : statusOptions args = .list ca := ((C127_status args).1 ca).mpr ha

/-- **C129** Asked about a CA that was started with `ndncert-ca-server`, in whatever way its prefix is written, the status tool prints the listing of the requests pending there, which
has one meaning only, and leaves all databases as they are.
Missing: that it leaves them as they are, and lists nothing, if there is no such CA; see `C129_false` and `C129_false_creates`. -/
theorem C129_lists_partial (hC : C.Lawful) {m : Constructed} {repo : Option (Bytes × Bytes)} {d : Data}
    (hs : serverMain C (libText load save) sysconf w args = .serves m repo d) {cfg : CaConfig} (hcfg : m.config.toCaConfig = some cfg)
    (hsize : ∀ f text, w.files f = some text → text.length < 2 ^ 56) {h : List (Step Db)} {s : CaState Db} (hx : Exec C (sqlStore C) cfg h s)
    (hck : ∀ n ∈ h, n.event.ClockFits) (certLines : Cert → List Bytes) (hl : ∀ c, ∀ l ∈ certLines c, (10 : UInt8) ∉ l)
    {disk : Databases} (hd : disk (dbFileName cfg.profile.caPrefix) = some s.store)
    {args' : List Bytes} {ca : Bytes} (ha : StatusAsked args' ca) (hn : readUri ca = some cfg.profile.caPrefix) :
    ∃ text, statusMain C (libText load save) certLines disk args' = (.prints text, disk) ∧
      (∃ as, (∀ r ∈ as, OneLiners r) ∧ statusListing certLines as = .ok text) ∧
      ∀ bs, (∀ r ∈ bs, OneLiners r) → statusListing certLines bs = .ok text →
        (bs.map (·.requestId)).Nodup ∧ (∀ id, id ∈ bs.map (·.requestId) ↔ PendingIn h id) ∧
        ∀ b ∈ bs, ∃ r, (sqlStore C).get s.store b.requestId = .ok r ∧ shown certLines r = shown certLines b := by
  obtain ⟨text, htext, hrest⟩ := C106_listing hC (served_fits hs hcfg hsize) hx hck certLines hl
  refine ⟨text, ?_, hrest⟩
  unfold statusMain
  rw [statusMain_asked ha]
  dsimp only
  rw [show (libText load save).nameOfUri ca = some cfg.profile.caPrefix from hn]
  dsimp only [openDatabase]
  rw [hd]
  dsimp only
  unfold caStatusText caStatus at htext
  rw [htext]
  dsimp only
  congr 1
  funext f
  split
  · rename_i hf
    rw [hf, hd]
    rfl
  · rfl

/-- **C129** Besides listing, the tool only exits: with status 0 if help is asked for, with 1 if the command line cannot be understood, with 2 if it names
no CA; or it ends by an exception if the name cannot be read. Then nothing has changed. -/
theorem C129_otherwise (C : Crypto) (load : Bytes → Option Cert) (save : Cert → Bytes) (certLines : Cert → List Bytes) (disk : Databases) (args : List Bytes)
    (hno : ∀ ca n, StatusAsked args ca → readUri ca ≠ some n) :
    (statusMain C (libText load save) certLines disk args).2 = disk ∧
    ((∃ os v, UnderstoodStatus args os ∧ (bytes! "help", v) ∈ os) → (statusMain C (libText load save) certLines disk args).1 = .exits 0) ∧
    ((¬ ∃ os, UnderstoodStatus args os) → (statusMain C (libText load save) certLines disk args).1 = .exits 1) ∧
    ((∃ os, UnderstoodStatus args os ∧ ∀ v, (bytes! "help", v) ∉ os ∧ (bytes! "caName", v) ∉ os) →
      (statusMain C (libText load save) certLines disk args).1 = .exits 2) ∧
    (∀ ca, StatusAsked args ca → (statusMain C (libText load save) certLines disk args).1 = .threw .runtime) := by
  obtain ⟨g1, g2, g3, g4⟩ := C127_status args
  unfold statusMain
  cases ho : statusOptions args with
  | exit n =>
    refine ⟨rfl, fun h => ?_, fun h => ?_, fun h => ?_, fun ca h => ?_⟩
    · have := g2.mpr h; rw [ho] at this; cases this; rfl
    · have := g3.mpr h; rw [ho] at this; cases this; rfl
    · have := g4.mpr h; rw [ho] at this; cases this; rfl
    · have := (g1 ca).mpr h; rw [ho] at this; cases this
  | list ca =>
    have hn : (libText load save).nameOfUri ca = none := by
      cases h : (libText load save).nameOfUri ca with
      | none => rfl
      | some n => exact absurd h (hno ca n ((g1 ca).mp ho))
    dsimp only
    rw [hn]
    refine ⟨rfl, fun h => ?_, fun h => ?_, fun h => ?_, fun ca h => rfl⟩
    · have := g2.mpr h; rw [ho] at this; cases this
    · have := g3.mpr h; rw [ho] at this; cases this
    · have := g4.mpr h; rw [ho] at this; cases this

/-- **C129** is false: asked about the CA /a_b, the tool lists the requests of the CA /a/b. -/
theorem C129_false (C : Crypto) (load : Bytes → Option Cert) (save : Cert → Bytes) (certLines : Cert → List Bytes) :
    ∃ args args' ca ca' n n', StatusAsked args ca ∧ readUri ca = some n ∧ StatusAsked args' ca' ∧ readUri ca' = some n' ∧ n ≠ n' ∧
      ∀ disk, statusMain C (libText load save) certLines disk args = statusMain C (libText load save) certLines disk args' := by
  have h1 : statusOptions [bytes! "/a/b"] = .list (bytes! "/a/b") := by decide +kernel
  have h2 : statusOptions [bytes! "/a_b"] = .list (bytes! "/a_b") := by decide +kernel
  have e1 : readUri (bytes! "/a/b") = some [gcomp (bytes! "a"), gcomp (bytes! "b")] := by decide +kernel
  have e2 : readUri (bytes! "/a_b") = some [gcomp (bytes! "a_b")] := by decide +kernel
  refine ⟨[bytes! "/a/b"], [bytes! "/a_b"], bytes! "/a/b", bytes! "/a_b", _, _, ((C127_status _).1 _).mp h1, e1, ((C127_status _).1 _).mp h2, e2,
    by decide, fun disk => ?_⟩
  unfold statusMain
  rw [h1, h2]
  dsimp only
  rw [show (libText load save).nameOfUri (bytes! "/a/b") = _ from e1, show (libText load save).nameOfUri (bytes! "/a_b") = _ from e2]
  dsimp only [openDatabase]
  rw [show dbFileName [gcomp (bytes! "a"), gcomp (bytes! "b")] = dbFileName [gcomp (bytes! "a_b")] by decide +kernel]

/-- **C129** is false: asked about a CA that has no database, the tool makes one, and says that there are no requests. -/
theorem C129_false_creates (C : Crypto) (load : Bytes → Option Cert) (save : Cert → Bytes) (certLines : Cert → List Bytes) {disk : Databases}
    {args : List Bytes} {ca : Bytes} {n : Name} (ha : StatusAsked args ca) (hn : readUri ca = some n) (hd : disk (dbFileName n) = none) :
    ∃ disk', statusMain C (libText load save) certLines disk args = (.prints (bytes! "The pending requests are :\n"), disk') ∧
      (∃ db, disk' (dbFileName n) = some db) ∧ ∀ f, f ≠ dbFileName n → disk' f = disk f := by
  unfold statusMain
  rw [statusMain_asked ha]
  dsimp only
  rw [show (libText load save).nameOfUri ca = some n from hn]
  dsimp only [openDatabase]
  rw [hd]
  exact ⟨_, rfl, ⟨_, if_pos rfl⟩, fun f hf => if_neg hf⟩

/-! ## An example -/

/-- a configuration file for the CA of the fixtures -/
def exServerConf : Bytes :=
  bytes! "{ \"ca-prefix\": \"/ndn\", \"forwarding-hint\": \"/hint\", \"max-suffix-length\": 1, \"supported-challenges\": [ { \"challenge\": \"PIN\" } ], \"certificate\": \"x\" }"

/-- its tree -/
def exConfTree : PTree :=
  .node [] [(bytes! "ca-prefix", .leaf (bytes! "/ndn")), (bytes! "forwarding-hint", .leaf (bytes! "/hint")), (bytes! "max-suffix-length", .leaf (bytes! "1")),
    (bytes! "supported-challenges", .node [] [([], .node [] [(bytes! "challenge", .leaf (bytes! "PIN"))])]), (bytes! "certificate", .leaf (bytes! "x"))]

theorem exConf_document : JsonDocument exServerConf exConfTree := document_of (by decide +kernel)

/-- the text `x` stands for the certificate of the CA -/
def exLoad (s : Bytes) : Option Cert := if s = bytes! "x" then some Fix.caCert else none

/-- the file, a database and the CA's key are there -/
def exAround : ServerSurroundings where
  files f := if f = bytes! "/etc/ndncert/ca.conf" then some exServerConf else none
  opens := true
  idKey := Fix.idKey
  identity n := if n = Fix.ca then some { Fix.caCert with keyLocator := some Fix.ca } else none
  version := ⟨54, [1]⟩

theorem exLoaded : loadTree (libText exLoad (fun _ => [])) exConfTree = .ok ⟨Fix.profile, [], []⟩ := rfl

theorem exAsked : ServerAsked (bytes! "/etc") [bytes! "-H", bytes! "localhost"] (bytes! "/etc/ndncert/ca.conf") (bytes! "localhost") (bytes! "7376") :=
  ((C127_server (bytes! "/etc") [bytes! "-H", bytes! "localhost"]).1 _ _ _).mp (by decide +kernel)

/-- it serves, with the repo at localhost -/
theorem exServes : ∃ d, serverMain Fix.C (libText exLoad (fun _ => [])) (bytes! "/etc") exAround [bytes! "-H", bytes! "localhost"] =
    .serves ⟨⟨Fix.profile, [], []⟩, some .sqlite, Fix.idKey⟩ (some (bytes! "localhost", bytes! "7376")) d :=
  ⟨⟨_, _, _⟩, (C128_starts _ _ _ _ _ _ _ _ _).mpr ⟨bytes! "/etc/ndncert/ca.conf", bytes! "localhost", bytes! "7376", exServerConf, exConfTree,
    { Fix.caCert with keyLocator := some Fix.ca }, exAsked, by decide, exConf_document, exLoaded, rfl, rfl, rfl, by decide, rfl, rfl, rfl,
    fun h => (by cases h), fun _ => rfl⟩⟩

-- the hypotheses of C128_issued are met: the server that was started issues a certificate
example : (∃ d, serverMain Fix.C (libText exLoad (fun _ => [])) (bytes! "/etc") exAround [bytes! "-H", bytes! "localhost"] =
      .serves ⟨⟨Fix.profile, [], []⟩, some .sqlite, Fix.idKey⟩ (some (bytes! "localhost", bytes! "7376")) d) ∧
    (⟨Fix.profile, [], []⟩ : LoadedConfig).toCaConfig = some Fix.cfg ∧ (∀ f text, exAround.files f = some text → text.length < 2 ^ 56) ∧
    ∃ h s h1 n h2 c, Exec Fix.C (sqlStore Fix.C) Fix.cfg h s ∧ h = h1 ++ n :: h2 ∧ .issue c ∈ n.effects := by
  refine ⟨exServes, rfl, ?_, ?_⟩
  · intro f text h
    unfold exAround at h
    dsimp only at h
    split at h
    · cases h
      decide +kernel
    · cases h
  · have hx : Exec Fix.C (sqlStore Fix.C) Fix.cfg (runs Fix.C (sqlStore Fix.C) Fix.cfg ⟨(sqlStore Fix.C).empty, Fix.idKey⟩ Fix.pinRun).1
        (runs Fix.C (sqlStore Fix.C) Fix.cfg ⟨(sqlStore Fix.C).empty, Fix.idKey⟩ Fix.pinRun).2 := exec_of_runs (by decide +kernel)
    have hi : (runs Fix.C (sqlStore Fix.C) Fix.cfg ⟨(sqlStore Fix.C).empty, Fix.idKey⟩ Fix.pinRun).1.any (fun n => !(issued n.effects).isEmpty) = true := by
      decide +kernel
    obtain ⟨n, hn, he⟩ := List.any_eq_true.mp hi
    obtain ⟨h1, h2, hh⟩ := List.append_of_mem hn
    cases hc : issued n.effects with
    | nil => rw [hc] at he; cases he
    | cons c cs => exact ⟨_, _, h1, n, h2, c, hx, hh, mem_issued.mp (by rw [hc]; simp)⟩

-- the hypotheses of C129 are met: the CA is asked about, in two ways
example : StatusAsked [bytes! "--caName=ndn:/ndn"] (bytes! "ndn:/ndn") ∧ readUri (bytes! "ndn:/ndn") = some Fix.cfg.profile.caPrefix ∧
    StatusAsked [bytes! "/ndn/"] (bytes! "/ndn/") ∧ readUri (bytes! "/ndn/") = some Fix.cfg.profile.caPrefix :=
  ⟨((C127_status _).1 _).mp (by decide +kernel), by decide +kernel, ((C127_status _).1 _).mp (by decide +kernel), by decide +kernel⟩

-- the hypothesis of `C129_otherwise` is met by a command line with no name, and by one with a name that cannot be read
example : (∀ ca n, StatusAsked [] ca → readUri ca ≠ some n) ∧ (∀ ca n, StatusAsked [bytes! "/sha256digest=00"] ca → readUri ca ≠ some n) ∧
    StatusAsked [bytes! "/sha256digest=00"] (bytes! "/sha256digest=00") := by
  have h0 : statusOptions [] = .exit 2 := by decide +kernel
  have h1 : statusOptions [bytes! "/sha256digest=00"] = .list (bytes! "/sha256digest=00") := by decide +kernel
  refine ⟨fun ca n h => ?_, fun ca n h => ?_, ((C127_status _).1 _).mp h1⟩
  · have := ((C127_status _).1 ca).mpr h
    rw [h0] at this
    cases this
  · have := ((C127_status _).1 ca).mpr h
    rw [h1] at this
    cases this
    rw [show readUri (bytes! "/sha256digest=00") = none by decide +kernel]
    intro h
    cases h

end Ndncert.Props
