import Verif.Lemmas.Report
import Verif.Props.Files
import Verif.Props.TextColumns

/-! # The listing of `ndncert-ca-status` (C106) -/

namespace Ndncert.Props

/-- **C106** The listing can be read in one way only: if two lists of requests are printed as the same text, then they are the same request by
request in all that is shown. `certLines` is how ndn-cxx prints a certificate: any lines, as long as a certificate determines them. -/
theorem C106_one_reading (certLines : Cert → List Bytes) (hc : ∀ c, ∀ l ∈ certLines c, (10 : UInt8) ∉ l) {as bs : List RequestState}
    {text : Bytes} (h1 : statusListing certLines as = .ok text) (h2 : statusListing certLines bs = .ok text)
    (ha : ∀ r ∈ as, OneLiners r) (hb : ∀ r ∈ bs, OneLiners r) : as.map (shown certLines) = bs.map (shown certLines) := by
  unfold statusListing at h1 h2
  rw [Res.bind_eq_ok] at h1 h2
  obtain ⟨x, hx, h1⟩ := h1
  obtain ⟨y, hy, h2⟩ := h2
  have := List.append_cancel_left ((Res.ok.inj h1).trans (Res.ok.inj h2).symm)
  subst this
  exact entriesText_inj hc hx hy ha hb

variable {C : Crypto} {cfg : CaConfig}

theorem exec_textDb (hC : C.Lawful) (hcfg : NameFits cfg.profile.caPrefix) {h : List (Step Db)} {s : CaState Db}
    (hx : Exec C (sqlStore C) cfg h s) (hck : ∀ n ∈ h, n.event.ClockFits) : SqlInv C s.store ∧ ∃ tdb, TextDb s.store tdb := by
  induction hx with
  | init k => exact ⟨(sqlStore_lawful C).empty_inv, [], .nil⟩
  | step e hx hwf hp ih =>
    rename_i h0 s0
    obtain ⟨hi, tdb, ht⟩ := ih (fun n hn => hck n (List.mem_append_left _ hn))
    have hl := hck _ (List.mem_append_right h0 (List.mem_singleton.mpr rfl))
    obtain ⟨_, _, h3, h4⟩ := ht.run hC hcfg hi s0.idKey e hwf hl
    exact ⟨h3, _, h4⟩

/-- **C106** After every history of a CA on the SQLite storage, `ndncert-ca-status` prints a listing, and the only thing this listing can mean is
the requests that are pending: those that were accepted and since then not removed, each once. Nothing an applicant puts into a certificate
request can look like a request of its own. -/
theorem C106_listing (hC : C.Lawful) (hcfg : NameFits cfg.profile.caPrefix) {h : List (Step Db)} {s : CaState Db}
    (hx : Exec C (sqlStore C) cfg h s) (hck : ∀ n ∈ h, n.event.ClockFits) (certLines : Cert → List Bytes)
    (hc : ∀ c, ∀ l ∈ certLines c, (10 : UInt8) ∉ l) :
    ∃ text, caStatusText C certLines s.store = .ok text ∧
      (∃ as, (∀ r ∈ as, OneLiners r) ∧ statusListing certLines as = .ok text) ∧
      ∀ bs, (∀ r ∈ bs, OneLiners r) → statusListing certLines bs = .ok text →
        (bs.map (·.requestId)).Nodup ∧ (∀ id, id ∈ bs.map (·.requestId) ↔ PendingIn h id) ∧
        ∀ b ∈ bs, ∃ r, (sqlStore C).get s.store b.requestId = .ok r ∧ shown certLines r = shown certLines b := by
  obtain ⟨l, hl, hnd, hpend, _⟩ := C87_lists_pending hC hcfg hx
  obtain ⟨hi, tdb, ht⟩ := exec_textDb hC hcfg hx hck
  have hS := sqlStore_lawful C
  obtain ⟨l', hl', _, hm⟩ := (sql_answers hi (im := (sqlStore C).view s.store) (fun _ => rfl)).list
  have hll : l' = l := by
    have : (sqlStore C).list s.store = .ok l := hl
    rw [this] at hl'
    exact (Res.ok.inj hl').symm
  subst hll
  have hget : ∀ r ∈ l', (sqlStore C).get s.store r.requestId = .ok r := by
    intro r hr
    have := ((hm r).mp hr).1
    unfold StoreI.view at this
    split at this
    · rename_i x hx; rw [hx]; exact congrArg Res.ok (Option.some.inj this)
    · cases this
  have hone : ∀ r ∈ l', OneLiners r ∧ ∀ cs, r.challengeState = some cs → ∃ x, timeText cs.timestamp = .ok x := by
    intro r hr
    have hv := ((hm r).mp hr).1
    refine ⟨?_, ?_⟩
    · rcases hx.waiting hC hS hcfg hv with hf | ⟨k, env, cs, hch⟩
      · refine ⟨by rw [hf.2.2.1]; simp, fun n => by rw [hf.1]; simp, fun cs hcs => ?_⟩
        rw [hf.2.1] at hcs
        cases hcs
      · refine ⟨?_, fun n => by rw [hch.status]; simp, fun cs' hcs => ?_⟩
        · obtain ⟨k', hk'⟩ := hch.type
          rw [hk']
          cases k' <;> decide
        · refine ⟨?_, ht.secrets C (hget r hr) hcs⟩
          rw [hch.state] at hcs
          cases hcs
          cases hch.secret with
          | code _ _ _ h _ => rcases h with h | h <;> (rw [h]; decide)
          | proof _ _ _ h => rw [h]; decide
    · intro cs hcs
      exact ht.time C (hget r hr) hcs
  obtain ⟨x, hx'⟩ := entriesText_ok (certLines := certLines) (fun r hr => (hone r hr).2)
  have hlist : statusListing certLines l' = .ok (bytes! "The pending requests are :\n" ++ x) := by
    unfold statusListing
    rw [hx']
    rfl
  refine ⟨_, ?_, ⟨l', fun r hr => (hone r hr).1, hlist⟩, ?_⟩
  · unfold caStatusText
    rw [hl]
    exact hlist
  · intro bs hb hbs
    have he := C106_one_reading certLines hc hlist hbs (fun r hr => (hone r hr).1) hb
    have hid : l'.map (·.requestId) = bs.map (·.requestId) := by
      have := congrArg (List.map Shown.id) he
      simpa [List.map_map, Function.comp_def, shown] using this
    refine ⟨hid ▸ hnd, hid ▸ hpend, fun b hbm => ?_⟩
    have : shown certLines b ∈ l'.map (shown certLines) := by rw [he]; exact List.mem_map_of_mem hbm
    obtain ⟨r, hr, hsh⟩ := List.mem_map.mp this
    refine ⟨r, ?_, hsh⟩
    have hbid : r.requestId = b.requestId := congrArg Shown.id hsh
    rw [← hbid]
    exact hget r hr

/-- a printer of certificates: the name, and a line of asterisks -/
def exCertLines (c : Cert) : List Bytes := [nameUri c.name, bytes! "***************************************"]

-- the clock fits in the history of the fixtures up to the wrong code; the listing then has one request, and shows the code that was drawn
example : Exec Fix.C (sqlStore Fix.C) Fix.cfg (runs Fix.C (sqlStore Fix.C) Fix.cfg ⟨(sqlStore Fix.C).empty, Fix.idKey⟩ [Fix.ev1, Fix.ev2]).1
      (runs Fix.C (sqlStore Fix.C) Fix.cfg ⟨(sqlStore Fix.C).empty, Fix.idKey⟩ [Fix.ev1, Fix.ev2]).2 ∧
    (∀ n ∈ (runs Fix.C (sqlStore Fix.C) Fix.cfg ⟨(sqlStore Fix.C).empty, Fix.idKey⟩ [Fix.ev1, Fix.ev2]).1, n.event.ClockFits) := by
  refine ⟨exec_of_runs (by decide +kernel), ?_⟩
  have hfit : ∀ s : Int, 0 ≤ s → s < 9000000000 → (Fix.env s).ClockFits := by
    intro s h1 h2
    refine ⟨?_, ?_⟩
    · show (-2 ^ 63 : Int) ≤ s * nsPerSec
      unfold nsPerSec
      omega
    · show s * nsPerSec < 2 ^ 63
      unfold nsPerSec
      omega
  intro n hn
  have : n.event = Fix.ev1 ∨ n.event = Fix.ev2 := by
    simp only [runs, List.mem_cons, List.not_mem_nil, or_false] at hn
    rcases hn with rfl | rfl
    · exact .inl rfl
    · exact .inr rfl
  rcases this with h | h <;> rw [h] <;> exact fun _ _ h => by cases h; exact hfit _ (by decide) (by decide)

-- what is printed for it: the line of asterisks in the certificate does not begin at the margin
example : caStatusText Fix.C exCertLines (runs Fix.C (sqlStore Fix.C) Fix.cfg ⟨(sqlStore Fix.C).empty, Fix.idKey⟩ [Fix.ev1, Fix.ev2]).2.store =
    .ok (bytes! "The pending requests are :\n***************************************\nRequest's CA name: /ndn\nRequest's request ID: 001B020136747365\nRequest's status: In challenge\nRequest's challenge type: pin\nChallenge Status: need-code\nChallenge remaining tries:3 times\nChallenge remaining time: 3600 seconds\nChallenge last update: 19700101T001641\nChallenge secret: {\n    \"code\": \"000028\"\n}\n\nCertificate:\n  /ndn/alice/KEY/k/cert-request/54=%02\n  ***************************************\n***************************************\n") := by
  decide +kernel

end Ndncert.Props
