import Verif.Lemmas.TextStore
import Verif.Spec.Reactions
import Verif.Spec.Run

/-! # What the CA keeps as text it reads back (C104) -/

namespace Ndncert.Props

open Classical in
/-- **C104** `write_json` writes exactly the trees in which no node has both data and children, the root having no data; and `read_json` of
what it wrote gives the tree back if all texts in it are UTF-8, and throws otherwise. -/
theorem C104_json (t : PTree) :
    ((∃ text, writeJsonText t = some text) ↔ t.data = [] ∧ t.Plain) ∧
    ∀ text, writeJsonText t = some text → readJsonText text = if t.TextsUtf8 then some t else none := by
  refine ⟨⟨?_, ?_⟩, fun text h => read_written h⟩
  · rintro ⟨text, h⟩
    obtain ⟨h1, h2, _⟩ := (writeJsonText_iff t text).mp h
    exact ⟨h1, h2⟩
  · rintro ⟨h1, h2⟩
    exact ⟨_, (writeJsonText_iff t _).mpr ⟨h1, h2, rfl⟩⟩

-- a text with quotes, a control character and an umlaut
example : readJsonText ((writeJsonText (.node [] [(bytes! "a\"b", .node [] [([], .leaf [7, 10, 0xC3, 0xA4]), ([], .node [] [])])])).getD []) =
    some (.node [] [(bytes! "a\"b", .node [] [([], .leaf [7, 10, 0xC3, 0xA4]), ([], .leaf [])])]) := by rfl

/-- **C104** Every instant from the year 1400 to the year 9999 has a text, which says its date in the Gregorian calendar and its time of day to the
microsecond; read again, it gives the instant. -/
theorem C104_time (us : Int) (h1 : -usFrom1400 ≤ us) (h2 : us + usFrom1400 < 3141085 * 86400000000) :
    ∃ text, toIsoText us = some text ∧ SaysTime us text ∧ fromIsoText text = some us := by
  obtain ⟨text, h⟩ := toIsoText_of h1 (by unfold usFrom1400 at h2; omega)
  exact ⟨text, h, toIsoText_says h, fromIso_toIso h⟩

-- 31 December 1999, half a second before midnight, and its text
example : toIsoText 946684799500000 = some (bytes! "19991231T235959.500000") := by decide +kernel
-- the last day of February in years that are and are not leap years
example : toIsoText 951782400000000 = some (bytes! "20000229T000000") ∧ toIsoText 4107542400000000 = some (bytes! "21000301T000000") ∧
    toIsoText (4107542400000000 - 1) = some (bytes! "21000228T235959.999999") := by decide +kernel

open Classical in
/-- **C104** Through the storage: secrets always have a text, and reading it gives the secrets back if they are UTF-8; otherwise it throws. -/
theorem C104_secrets (kv : List (Bytes × Bytes)) :
    ∃ text, secretText kv = .ok text ∧ readSecrets text = if SecretsUtf8 kv then .ok kv else .exc .runtime := by
  obtain ⟨t, h1, h2⟩ := secretText_ok kv
  exact ⟨t, h1, readSecrets_text h2⟩

theorem run_textDb {C : Crypto} (hC : C.Lawful) {cfg : CaConfig} (hcfg : NameFits cfg.profile.caPrefix) :
    ∀ (es : List Event) (idKey : Bytes) (db : Db) (tdb : List TextRow), SqlInv C db → TextDb db tdb →
      (∀ e ∈ es, e.Wf cfg ∧ e.ClockFits) →
      eventEffects C (textStore C) cfg ⟨tdb, idKey⟩ es = eventEffects C (sqlStore C) cfg ⟨db, idKey⟩ es ∧
      TextDb (runs C (sqlStore C) cfg ⟨db, idKey⟩ es).2.store (runs C (textStore C) cfg ⟨tdb, idKey⟩ es).2.store
  | [], _, _, _, _, ht, _ => ⟨rfl, ht⟩
  | e :: es, idKey, db, tdb, hd, ht, hw => by
    obtain ⟨w1, w2⟩ := hw e (List.mem_cons_self ..)
    obtain ⟨r1, r2, r3, r4⟩ := ht.run hC hcfg hd idKey e w1 w2
    have ih := run_textDb hC hcfg es (e.run C (sqlStore C) cfg ⟨db, idKey⟩).2.idKey _ _ r3 r4 (fun x hx => hw x (List.mem_cons_of_mem _ hx))
    have ep : (e.run C (textStore C) cfg ⟨tdb, idKey⟩).2 =
        ⟨(e.run C (textStore C) cfg ⟨tdb, idKey⟩).2.store, (e.run C (sqlStore C) cfg ⟨db, idKey⟩).2.idKey⟩ := by rw [← r2]
    unfold eventEffects runs
    dsimp only
    rw [r1, ep]
    exact ⟨by rw [ih.1], ih.2⟩

/-- **C104** The CA on the database with texts does what it does on the one with values, whatever Interests arrive and wherever it crashes or
is restarted: the same database operations, emails, certificates and replies. And at the end every request reads back the same from both, and so
do the lists of all requests and of the requests of one CA. -/
theorem C104_same {C : Crypto} (hC : C.Lawful) {cfg : CaConfig} (hcfg : NameFits cfg.profile.caPrefix) (idKey : Bytes) (es : List Event)
    (hw : ∀ e ∈ es, e.Wf cfg ∧ e.ClockFits) :
    eventEffects C (textStore C) cfg ⟨(textStore C).empty, idKey⟩ es = eventEffects C (sqlStore C) cfg ⟨(sqlStore C).empty, idKey⟩ es ∧
    let db := (runs C (sqlStore C) cfg ⟨(sqlStore C).empty, idKey⟩ es).2.store
    let tdb := (runs C (textStore C) cfg ⟨(textStore C).empty, idKey⟩ es).2.store
    (∀ id, (textStore C).get tdb id = (sqlStore C).get db id) ∧ (textStore C).list tdb = (sqlStore C).list db ∧
    ∀ ca, (textStore C).listFor tdb ca = (sqlStore C).listFor db ca := by
  obtain ⟨h1, h2⟩ := run_textDb hC hcfg es idKey [] [] (sqlStore_lawful C).empty_inv .nil hw
  exact ⟨h1, fun id => h2.get C id, h2.list C, fun ca => h2.listFor C ca⟩

-- a run that issues a certificate after a wrong code and a restart; the clock fits
example : (∀ e ∈ [Fix.ev1, Fix.ev2, Fix.ev3, .restart [1], Fix.ev4], e.Wf Fix.cfg ∧ e.ClockFits) ∧
    ((eventEffects Fix.C (textStore Fix.C) Fix.cfg ⟨[], Fix.idKey⟩ [Fix.ev1, Fix.ev2, Fix.ev3, .restart [1], Fix.ev4]).map
      (fun l => (issued l).length)) = [0, 0, 0, 0, 1] := by
  refine ⟨?_, by decide +kernel⟩
  intro e he
  have hfit : ∀ s : Int, 0 ≤ s → s < 9000000000 → (Fix.env s).ClockFits := by
    intro s h1 h2
    refine ⟨?_, ?_⟩
    · show (-2 ^ 63 : Int) ≤ s * nsPerSec
      unfold nsPerSec
      omega
    · show s * nsPerSec < 2 ^ 63
      unfold nsPerSec
      omega
  simp only [List.mem_cons, List.not_mem_nil, or_false] at he
  rcases he with rfl | rfl | rfl | rfl | rfl
  · exact ⟨eventOk_wf (by decide +kernel), fun _ _ h => by cases h; exact hfit _ (by decide) (by decide)⟩
  · exact ⟨eventOk_wf (by decide +kernel), fun _ _ h => by cases h; exact hfit _ (by decide) (by decide)⟩
  · exact ⟨eventOk_wf (by decide +kernel), fun _ _ h => by cases h; exact hfit _ (by decide) (by decide)⟩
  · exact ⟨eventOk_wf (by decide +kernel), fun _ _ h => by cases h⟩
  · exact ⟨eventOk_wf (by decide +kernel), fun _ _ h => by cases h; exact hfit _ (by decide) (by decide)⟩

/-- a request whose challenge has a secret that is not UTF-8 -/
def exBadSecret : RequestState :=
  { Fix.stored Fix.st2 with challengeType := bytes! "pin", challengeState := some ⟨NEED_CODE, 0, 3, 10, [(KEY_CODE, [0xFF])]⟩ }

/-- **C104** That the CA puts only UTF-8 there matters: the storage accepts other secrets, and from then on neither that request nor the list of
all requests can be read. -/
theorem C104_utf8_matters : ∃ db, (textStore Fix.C).add [] exBadSecret = .ok db ∧
    (∃ e, (textStore Fix.C).get db exBadSecret.requestId = .exc e) ∧ ∃ e, (textStore Fix.C).list db = .exc e := by
  refine ⟨_, rfl, ⟨.runtime, by decide +kernel⟩, ⟨.runtime, by decide +kernel⟩⟩

end Ndncert.Props
