import Verif.Lemmas.Files
import Verif.Lemmas.Sqlite
import Verif.Props.Possession
import Verif.Props.CaExec

/-! # Files of the CA: C86, C87, C88 -/

namespace Ndncert.Props

open Ndncert

variable {σ : Type} {C : Crypto} {S : StoreI σ} {Inv : σ → Prop} {cfg : CaConfig}

/-! ## C86 -/

/-- C86 is false as stated: the CAs /a/b and /a_b use the same database file. -/
theorem C86_false : ∃ a b : Name, a ≠ b ∧ dbFileName a = dbFileName b :=
  ⟨[gcomp (bytes! "a"), gcomp (bytes! "b")], [gcomp (bytes! "a_b")], by decide, by decide +kernel⟩

/-- C86 as far as it is true: CAs with different prefixes, none of whose components contains an underscore, use different
database files. Missing: prefixes with underscores. -/
theorem C86_files_differ_partial (a b : Name) (ha : ∀ c ∈ a, (95 : UInt8) ∉ c.val) (hb : ∀ c ∈ b, (95 : UInt8) ∉ c.val)
    (hne : a ≠ b) : dbFileName a ≠ dbFileName b := by
  intro h
  unfold dbFileName at h
  have := List.append_cancel_right h
  exact hne (nameUri_inj (replace_inj (nameUri_no95 ha) (nameUri_no95 hb) this))

/-- two names without underscores, one with an octet that is escaped and a typed component -/
example : (∀ c ∈ [gcomp (bytes! "a b"), ⟨54, [1]⟩], (95 : UInt8) ∉ c.val) ∧ (∀ c ∈ Fix.ca, (95 : UInt8) ∉ c.val) ∧
    dbFileName [gcomp (bytes! "a b"), ⟨54, [1]⟩] = bytes! "_a%20b_54=%01.db" := by decide +kernel

/-! ## C87 -/

/-- C87: after every history of a CA on the SQLite storage, `ndncert-ca-status` lists exactly the requests that were accepted and
since then not removed, each once; each is listed with the id, certificate, type and key it was accepted with, and is waiting for a
challenge to be selected or answered. -/
theorem C87_lists_pending (hC : C.Lawful) (hcfg : NameFits cfg.profile.caPrefix) {h : List (Step Db)} {s : CaState Db}
    (hx : Exec C (sqlStore C) cfg h s) :
    ∃ l, caStatus C s.store = .ok l ∧ (l.map (·.requestId)).Nodup ∧ (∀ id, id ∈ l.map (·.requestId) ↔ PendingIn h id) ∧
      ∀ r ∈ l, (r.status = .beforeChallenge ∨ r.status = .challenge) ∧
        ∃ h1 n h2 i env r0, h = h1 ++ n :: h2 ∧ (AcceptsNew n i env r0 ∨ AcceptsRevoke n i env r0) ∧ SameRequest r0 r ∧ Kept r.requestId h2 := by
  have hS := sqlStore_lawful C
  have hi := (hx.life hC hS hcfg).1
  obtain ⟨l, hl, hnd, hm⟩ := (sql_answers hi (im := (sqlStore C).view s.store) (fun _ => rfl)).list
  refine ⟨l, hl, ?_, ?_, ?_⟩
  · refine (List.pairwise_map.mpr (hnd.imp_of_mem ?_))
    intro a b ha hb hne he
    have h1 := ((hm a).mp ha).1
    have h2 := ((hm b).mp hb).1
    rw [he, h2] at h1
    exact hne (by simpa using h1.symm)
  · intro id
    rw [← hx.view_pending hC hS (fun _ => rfl) hcfg id, List.mem_map]
    constructor
    · rintro ⟨r, hr, rfl⟩
      rw [((hm r).mp hr).1]
      simp
    · intro hv
      cases hh : (sqlStore C).view s.store id with
      | none => exact absurd hh hv
      | some r =>
        have hid := hS.get_id _ _ _ hi hh
        exact ⟨r, (hm r).mpr ⟨by rw [hid]; exact hh, trivial⟩, hid⟩
  · intro r hr
    have hv := ((hm r).mp hr).1
    constructor
    · obtain ⟨_, _, h | h⟩ := C40_stored_waiting hC hS hcfg hx hv
      · exact .inl h.1
      · exact .inr h.1
    · obtain ⟨h1, n, h2, ty, i, env, r0, hh, ha, hsame, hk, _⟩ := hx.pending hC hS hcfg hv
      refine ⟨h1, n, h2, i, env, r0, hh, ?_, hsame, hk⟩
      obtain ⟨m, hm, hreq⟩ := ha.event
      have hmem := ha.effect
      cases m with
      | new i' => cases hreq; exact .inl ⟨hm, hmem⟩
      | revoke i' => cases hreq; exact .inr ⟨hm, hmem⟩
      | probe i' => cases hreq
      | challenge i' => cases hreq

/-- on the SQLite storage, the run of the fixtures leaves one request before the last step and none after it -/
example : let st := fun es => (runs Fix.C (sqlStore Fix.C) Fix.cfg ⟨(sqlStore Fix.C).empty, Fix.idKey⟩ es).2.store
    runsOk Fix.C (sqlStore Fix.C) Fix.cfg ⟨(sqlStore Fix.C).empty, Fix.idKey⟩ Fix.pinRun = true ∧
    (match caStatus Fix.C (st [Fix.ev1, Fix.ev2, .restart [1]]) with | .ok l => l.length == 1 | _ => false) = true ∧
    (match caStatus Fix.C (st Fix.pinRun) with | .ok l => l.length == 0 | _ => false) = true := by decide +kernel

/-! ## C88 -/

/-- C88: the trust anchors are exactly the certificates listed in the file. Reading it is never undefined, and fails if
the file cannot be read, is no JSON document or has no list. -/
theorem C88_listed (T : TextIO) (file : Option Bytes) :
    (∀ u, parseAnchors T file ≠ .ub u) ∧
    (∀ anchors, parseAnchors T file = .ok anchors → ∃ text, file = some text ∧ ∀ c, c ∈ anchors ↔ ListedIn T text c) ∧
    ((∃ anchors, parseAnchors T file = .ok anchors) ↔
      ∃ text doc list, file = some text ∧ T.readJson text = some doc ∧ doc.child (bytes! "anchor-list") = some list) := by
  unfold parseAnchors
  cases file with
  | none => simp
  | some text =>
    dsimp only
    cases hj : T.readJson text with
    | none => simp [hj]
    | some doc =>
      dsimp only
      split
      · rename_i hk
        have hch : doc.child (bytes! "anchor-list") = none := by unfold PTree.child; rw [hk]; rfl
        refine ⟨by simp, by simp, ?_⟩
        constructor
        · rintro ⟨_, h⟩; cases h
        · rintro ⟨_, _, _, h1, h2, h3⟩
          cases h1
          rw [hj] at h2
          cases h2
          rw [hch] at h3
          cases h3
      · cases hc : doc.child (bytes! "anchor-list") with
        | none =>
          refine ⟨by simp, by simp, ?_⟩
          constructor
          · rintro ⟨_, h⟩; cases h
          · rintro ⟨_, _, _, h1, h2, h3⟩
            cases h1
            rw [hj] at h2
            cases h2
            rw [hc] at h3
            cases h3
        | some list =>
          refine ⟨by simp, ?_, ⟨fun _ => ⟨text, doc, list, rfl, hj, hc⟩, fun _ => ⟨_, rfl⟩⟩⟩
          intro anchors h
          cases h
          refine ⟨text, rfl, ?_⟩
          intro c
          rw [mem_loadAnchors]
          constructor
          · rintro ⟨e, he, h⟩; exact ⟨doc, list, e, hj, hc, he, h⟩
          · rintro ⟨doc', list', e, h1, h2, h3, h4⟩
            rw [hj] at h1
            cases h1
            rw [hc] at h2
            cases h2
            exact ⟨e, h3, h4⟩

/-- C88, over histories: if the anchors are read from files, then a certificate issued for a possession challenge was issued to
someone who signed the nonce with the key of a credential that verifies under a certificate listed in the file as it was when the
challenge was started, and that certificate is the one the credential names as its signer. -/
theorem C88_issued (hC : C.Lawful) (hS : LawfulStore C S Inv) (hcfg : NameFits cfg.profile.caPrefix)
    {h : List (Step σ)} {s : CaState σ} (hx : Exec C S cfg h s) {h1 h2 : List (Step σ)} {n : Step σ} (hh : h = h1 ++ n :: h2)
    {c : Cert} (hc : .issue c ∈ n.effects) (T : TextIO) (file : Env → Option Bytes)
    (hread : ∀ m ∈ h, ∀ msg env, m.Handles msg env → env.anchors = parseAnchors T (file env)) :
    ∃ m2 ∈ h1, ∃ i2 env2 r2 k, StartsChallenge C S cfg m2 i2 env2 r2 k ∧
      ∃ i env r es k', Challenges C S cfg n i env r es k' ∧ r.requestId = r2.requestId ∧ keyNameOf c.name = keyNameOf r2.cert.name ∧
        (k = .possession → ∃ text a cred kl p, file env2 = some text ∧ ListedIn T text a ∧ C.decodeCert cred.wire = some cred ∧ cred.keyLocator = some kl ∧
          (keyNameOf a.name = kl ∨ a.name = kl) ∧ C.verifyCert cred a = true ∧ GivesProof es p ∧
          C.verifyRaw env2.nonce p (cred.content.getD []) = true) := by
  obtain ⟨ha, m, hb, i0, env0, r0, hs, _, _, hkn, _, _, _, hb1, m2, hb2, i2, env2, r2, k, hsb, hst, hid2, hcert2, i, env, r, es, k', hch, hid, hcert, hans⟩ :=
    C30_issued_only_after hC hS hcfg hx hh hc
  have hm2 : m2 ∈ h1 := by rw [hs, hsb]; simp
  refine ⟨m2, hm2, i2, env2, r2, k, hst, i, env, r, es, k', hch, by rw [hid, hid2], by rw [hkn, hcert2], ?_⟩
  intro hk
  cases hans with
  | code hk' _ => rw [hk] at hk'; rcases hk' with h | h <;> cases h
  | proof _ anchors cred p han hcred hcf hgp hver =>
    obtain ⟨es2, hch2⟩ := hst.challenges
    have hr := hread m2 (by rw [hh]; simp [hm2]) _ _ hch2.handles
    rw [han] at hr
    obtain ⟨text, htext, hlist⟩ := (C88_listed T (file env2)).2.1 anchors hr.symm
    obtain ⟨a, ham, kl, hkl, hnm, hv⟩ := hcf
    exact ⟨text, a, cred, kl, p, htext, (hlist a).mp ham, hcred, hkl, hnm, hv, hgp, hver⟩

/-- a file with three entries, the second of which is no certificate -/
def exAnchorText : TextIO :=
  { nameOfUri := fun _ => none, uriOfName := fun _ => [], loadCert := fun b => if b = [1] then some Fix.caCert else if b = [2] then some Fix.revCert else none,
    saveCert := fun _ => [], readJson := fun _ => some (.node [] [(bytes! "anchor-list", .node [] [
      ([], .node [] [(bytes! "certificate", .leaf [1])]), ([], .node [] [(bytes! "certificate", .leaf [9])]),
      ([], .node [] [(bytes! "certificate", .leaf [2])])])]),
    writeJson := fun _ => none }

/-- the file is read; the anchors of the fixtures are a file's, and a possession challenge started with them succeeds -/
example : parseAnchors exAnchorText (some []) = .ok [Fix.caCert, Fix.revCert] ∧
    (issued (onChallenge Fix.C Fix.S Fix.cfg
      (runs Fix.C Fix.S Fix.cfg Fix.st0 [Fix.ev1, .msg (.challenge exPoss1) { Fix.env2 with anchors := parseAnchors exAnchorText (some []) }]).2.store
      exPoss2 Fix.env3).effects).length = 1 := by decide +kernel

/-- What a missing file means: a requester who selects the possession challenge ends the process of a CA, also of one that
offers only the PIN challenge. -/
theorem C88_missing_file : Fix.cfg.profile.supportedChallenges = [bytes! "pin"] ∧
    (∃ h, Exec Fix.C Fix.S Fix.cfg h (runs Fix.C Fix.S Fix.cfg Fix.st0 [Fix.ev1]).2) ∧
    ∃ e, onChallenge Fix.C Fix.S Fix.cfg (runs Fix.C Fix.S Fix.cfg Fix.st0 [Fix.ev1]).2.store exPoss1
      { Fix.env2 with anchors := parseAnchors exAnchorText none } = ⟨[], .threw e⟩ :=
  ⟨by decide +kernel, ⟨_, exec_of_runs (es := [Fix.ev1]) (by decide +kernel)⟩, .runtime, by decide +kernel⟩

end Ndncert.Props
