import Verif.Lemmas.JsonFuel
import Verif.Lemmas.TimeText
import Verif.Lemmas.Bisim
import Verif.Lemmas.Code
import Verif.Spec.TextStore

/-! # The storage with texts behaves as the one with values -/

namespace Ndncert

theorem secretTree_plain (kv : List (Bytes × Bytes)) : (secretTree kv).Plain := by
  have : kidsPlain (kv.map (fun e => (e.1, PTree.leaf e.2))) := by
    induction kv with
    | nil => trivial
    | cons e es ih => exact ⟨⟨.inr rfl, trivial⟩, ih⟩
  exact ⟨.inl rfl, this⟩

theorem secretTree_utf8 (kv : List (Bytes × Bytes)) : (secretTree kv).TextsUtf8 ↔ SecretsUtf8 kv := by
  have : kidsUtf8 (kv.map (fun e => (e.1, PTree.leaf e.2))) ↔ SecretsUtf8 kv := by
    induction kv with
    | nil => exact ⟨fun _ _ h => (by cases h), fun _ => trivial⟩
    | cons e es ih =>
      show (Utf8 e.1 ∧ (Utf8 e.2 ∧ True) ∧ kidsUtf8 (es.map (fun e => (e.1, PTree.leaf e.2)))) ↔ _
      rw [ih]
      unfold SecretsUtf8
      rw [List.forall_mem_cons]
      exact ⟨fun h => ⟨⟨h.1, h.2.1.1⟩, h.2.2⟩, fun h => ⟨h.1.1, ⟨h.1.2, trivial⟩, h.2⟩⟩
  exact ⟨fun h => this.mp h.2, fun h => ⟨.nil, this.mpr h⟩⟩

theorem secretTree_kids (kv : List (Bytes × Bytes)) : (secretTree kv).kids.map (fun e => (e.1, e.2.data)) = kv := by
  show ((kv.map (fun e => (e.1, PTree.leaf e.2))).map (fun e => (e.1, e.2.data))) = kv
  rw [List.map_map]
  exact (List.map_congr_left (fun e _ => rfl)).trans (List.map_id kv)

/-- the text of secrets always exists -/
theorem secretText_ok (kv : List (Bytes × Bytes)) : ∃ t, secretText kv = .ok t ∧ writeJsonText (secretTree kv) = some t := by
  have h : writeJsonText (secretTree kv) = some (jsonNode 0 (secretTree kv) ++ [10]) :=
    (writeJsonText_iff _ _).mpr ⟨rfl, secretTree_plain kv, rfl⟩
  refine ⟨_, ?_, h⟩
  unfold secretText
  rw [h]
  rfl

open Classical in
/-- what is read from the text of secrets -/
theorem readSecrets_text {kv : List (Bytes × Bytes)} {t : Bytes} (h : writeJsonText (secretTree kv) = some t) :
    readSecrets t = if SecretsUtf8 kv then .ok kv else .exc .runtime := by
  unfold readSecrets
  rw [read_written h]
  by_cases hu : SecretsUtf8 kv
  · rw [if_pos hu, if_pos ((secretTree_utf8 kv).mpr hu), Option.map_some, secretTree_kids]
    rfl
  · rw [if_neg hu, if_neg (fun c => hu ((secretTree_utf8 kv).mp c))]
    rfl

theorem toIsoText_of {us : Int} (h1 : -usFrom1400 ≤ us) (h2 : us < (5373485 - 2440588) * 86400000000) : ∃ t, toIsoText us = some t := by
  unfold toIsoText
  dsimp only
  unfold usFrom1400 at h1
  rw [if_neg (by unfold usPerDay epochDay; omega)]
  exact ⟨_, rfl⟩

theorem decimalPad_is (w n : Nat) (h : n < 10 ^ w) : Digits w (decimalPad w n) ∧ digitsVal (decimalPad w n) = n :=
  ⟨⟨decimalPad_length w n, decimalPad_digits w n⟩, (decimalPad_value w n).trans (Nat.mod_eq_of_lt h)⟩

theorem toIsoText_says {us : Int} {text : Bytes} (h : toIsoText us = some text) : SaysTime us text := by
  obtain ⟨r1, r2⟩ := toIsoText_some h
  unfold toIsoText at h
  dsimp only at h
  rw [if_neg (by omega)] at h
  obtain ⟨n, hn⟩ : ∃ n : Nat, us / usPerDay + epochDay = 2232400 + n := ⟨(us / usPerDay + epochDay - 2232400).toNat, by omega⟩
  have hnat : (us / usPerDay + epochDay).toNat = 2232400 + n := by omega
  have hcal := ymd_calendar n (by omega)
  rw [hnat] at h
  obtain ⟨v1, v2, v3, v4, v5, v6⟩ := ymd_valid (n := 2232400 + n) (by omega) (by omega)
  rcases hy : ymdOfDay (2232400 + n) with ⟨y, m, d⟩
  rw [hy] at h v1 v2 v3 v4 v5 v6
  dsimp only at h v1 v2 v3 v4 v5 v6
  have hd31 : d ≤ 31 := by
    refine Nat.le_trans v6 ?_
    unfold endOfMonth
    split
    · split <;> omega
    · split <;> omega
  obtain ⟨t, ht⟩ : ∃ t : Nat, us % usPerDay = t := ⟨(us % usPerDay).toNat, by unfold usPerDay; omega⟩
  have ht2 : t < 86400000000 := by unfold usPerDay at ht; omega
  rw [ht, Int.toNat_natCast] at h
  cases h
  obtain ⟨a1, b1⟩ := decimalPad_is 4 y (by omega)
  obtain ⟨a2, b2⟩ := decimalPad_is 2 m (by omega)
  obtain ⟨a3, b3⟩ := decimalPad_is 2 d (by omega)
  obtain ⟨a4, b4⟩ := decimalPad_is 2 (t / 1000000 / 3600) (by omega)
  obtain ⟨a5, b5⟩ := decimalPad_is 2 (t / 1000000 / 60 % 60) (by omega)
  obtain ⟨a6, b6⟩ := decimalPad_is 2 (t / 1000000 % 60) (by omega)
  obtain ⟨a7, b7⟩ := decimalPad_is 6 (t % 1000000) (by omega)
  refine ⟨_, _, _, _, _, _, _, n, t % 1000000, a1, a2, a3, a4, a5, a6, rfl, ?_, ?_, ?_, ?_, ?_, ?_⟩
  · by_cases hz : t % 1000000 = 0
    · exact .inl ⟨if_pos hz, hz⟩
    · exact .inr ⟨_, if_neg hz, a7, b7.symm, hz⟩
  · rw [b1, b2, b3, ← hcal, hy]
  · rw [b4]
    omega
  · rw [b5]
    omega
  · rw [b6]
    omega
  · rw [b4, b5, b6]
    have hdiv : us = usPerDay * (us / usPerDay) + us % usPerDay := (Int.mul_ediv_add_emod us usPerDay).symm
    have hq : us / usPerDay = 2232400 + n - epochDay := by omega
    rw [ht, hq] at hdiv
    unfold usPerDay epochDay at hdiv
    unfold usFrom1400
    omega

theorem tdiv_range {t : Int} (h1 : -9223372036854775808 ≤ t) (h2 : t < 9223372036854775808) :
    -usFrom1400 ≤ t.tdiv 1000 ∧ t.tdiv 1000 < (5373485 - 2440588) * 86400000000 := by
  unfold usFrom1400
  rcases Int.le_total 0 t with h | h
  · rw [Int.tdiv_eq_ediv_of_nonneg h]
    omega
  · have e : t.tdiv 1000 = -((-t) / 1000) := by
      rw [← Int.tdiv_eq_ediv_of_nonneg (a := -t) (by omega), Int.neg_tdiv, Int.neg_neg]
    rw [e]
    omega

theorem timeText_ok {t : Time} (h1 : -2 ^ 63 ≤ t) (h2 : t < 2 ^ 63) : ∃ x, timeText t = .ok x ∧ toIsoText (t.tdiv 1000) = some x := by
  have b := tdiv_range (t := t) h1 h2
  obtain ⟨x, hx⟩ := toIsoText_of b.1 b.2
  refine ⟨x, ?_, hx⟩
  unfold timeText
  rw [hx]
  rfl

theorem readTime_text {us : Int} {t : Bytes} (h : toIsoText us = some t) : readTime t = .ok (us * 1000) := by
  unfold readTime
  rw [fromIso_toIso h]
  rfl

/-- columns with the same content -/
def JsonCol : Option JsonText → Option Bytes → Prop
  | none, t => t = none
  | some .empty, t => t = some []
  | some (.obj kv), t => SecretsUtf8 kv ∧ ∃ x, t = some x ∧ writeJsonText (secretTree kv) = some x
def TimeCol : Option IsoText → Option Bytes → Prop
  | none, t => t = none
  | some .empty, t => t = some []
  | some (.micros us), t => ∃ x, t = some x ∧ toIsoText us = some x

theorem readJson_col {a : Option JsonText} {b : Option Bytes} (h : JsonCol a b) : readSecrets (b.getD []) = readJson a := by
  unfold JsonCol at h
  split at h
  · subst h
    rfl
  · subst h
    rfl
  · obtain ⟨hu, x, rfl, hx⟩ := h
    show readSecrets x = _
    rw [readSecrets_text hx, if_pos hu]
    rfl

theorem readTp_col {a : Option IsoText} {b : Option Bytes} (h : TimeCol a b) : readTime (b.getD []) = readTp a := by
  unfold TimeCol at h
  split at h
  · subst h
    rfl
  · subst h
    rfl
  · obtain ⟨x, rfl, hx⟩ := h
    exact readTime_text hx

/-- a row with texts that stands for the row with values -/
structure TextOf (r : Row) (t : TextRow) : Prop where
  requestId : t.requestId = r.requestId
  caName : t.caName = r.caName
  requestType : t.requestType = r.requestType
  status : t.status = r.status
  certRequest : t.certRequest = r.certRequest
  challengeType : t.challengeType = r.challengeType
  challengeStatus : t.challengeStatus = r.challengeStatus
  secrets : JsonCol r.challengeSecrets t.challengeSecrets
  tp : TimeCol r.challengeTp t.challengeTp
  remainingTries : t.remainingTries = r.remainingTries
  remainingTime : t.remainingTime = r.remainingTime
  encryptionKey : t.encryptionKey = r.encryptionKey
  encryptionIv : t.encryptionIv = r.encryptionIv
  decryptionIv : t.decryptionIv = r.decryptionIv

theorem TextOf.state {r : Row} {t : TextRow} (h : TextOf r t) (C : Crypto) : textRowToState C t = rowToState C r := by
  unfold textRowToState rowToState
  rw [h.requestId, h.caName, h.requestType, h.status, h.certRequest, h.challengeType, h.challengeStatus, h.remainingTries, h.remainingTime,
    h.encryptionKey, h.encryptionIv, h.decryptionIv, readJson_col h.secrets, readTp_col h.tp]

/-- what the texts can hold -/
def TextFits (s : RequestState) : Prop :=
  ∀ cs, s.challengeState = some cs → SecretsUtf8 cs.secrets ∧ -2 ^ 63 ≤ cs.timestamp ∧ cs.timestamp < 2 ^ 63

theorem stateToTextRow_of {s : RequestState} (h : TextFits s) : ∃ t, stateToTextRow s = .ok t ∧ TextOf (stateToRow s) t := by
  unfold stateToTextRow stateToRow
  cases hc : s.challengeState with
  | none => exact ⟨_, rfl, ⟨rfl, rfl, rfl, rfl, rfl, rfl, rfl, rfl, rfl, rfl, rfl, rfl, rfl, rfl⟩⟩
  | some cs =>
    obtain ⟨h1, h2, h3⟩ := h cs hc
    obtain ⟨js, e1, e2⟩ := secretText_ok cs.secrets
    obtain ⟨tp, e3, e4⟩ := timeText_ok h2 h3
    dsimp only
    rw [e1, e3]
    exact ⟨_, rfl, ⟨rfl, rfl, rfl, rfl, rfl, rfl, rfl, ⟨h1, js, rfl, e2⟩, ⟨tp, rfl, e4⟩, rfl, rfl, rfl, rfl, rfl⟩⟩

theorem updateTextRow_of {s : RequestState} (h : TextFits s) :
    ∃ f, updateTextRow s = .ok f ∧ ∀ r t, TextOf r t → TextOf (updateRow s r) (f t) := by
  unfold updateTextRow updateRow
  generalize intToInt32 s.status.toNat = st
  cases hc : s.challengeState with
  | none =>
    dsimp only
    refine ⟨_, rfl, fun r t h => ?_⟩
    exact ⟨h.1, h.2, h.3, rfl, h.5, rfl, rfl, rfl, rfl, rfl, rfl, h.12, rfl, rfl⟩
  | some cs =>
    obtain ⟨h1, h2, h3⟩ := h cs hc
    obtain ⟨js, e1, e2⟩ := secretText_ok cs.secrets
    obtain ⟨tp, e3, e4⟩ := timeText_ok h2 h3
    dsimp only
    rw [e1, e3]
    generalize toInt32 cs.remainingTries = tries
    generalize intToInt32 cs.remainingTime = time
    exact ⟨_, rfl, fun r t h => ⟨h.1, h.2, h.3, rfl, h.5, rfl, rfl, ⟨h1, js, rfl, e2⟩, ⟨tp, rfl, e4⟩, rfl, rfl, h.12, rfl, rfl⟩⟩

/-- a database with texts that stands for the one with values -/
inductive TextDb : Db → List TextRow → Prop where
  | nil : TextDb [] []
  | cons {r : Row} {t : TextRow} {db : Db} {tdb : List TextRow} (h : TextOf r t) (hs : TextDb db tdb) : TextDb (r :: db) (t :: tdb)

theorem TextDb.find {db : Db} {tdb : List TextRow} (h : TextDb db tdb) (id : RequestId) :
    (db.find? (fun r => r.requestId == id) = none ∧ tdb.find? (fun r => r.requestId == id) = none) ∨
    ∃ r t, db.find? (fun r => r.requestId == id) = some r ∧ tdb.find? (fun r => r.requestId == id) = some t ∧ TextOf r t := by
  induction h with
  | nil => exact .inl ⟨rfl, rfl⟩
  | @cons r t db tdb h hs ih =>
    rw [List.find?_cons, List.find?_cons, h.requestId]
    cases hb : r.requestId == id with
    | true => exact .inr ⟨r, t, rfl, rfl, h⟩
    | false => exact ih

theorem TextDb.get {db : Db} {tdb : List TextRow} (h : TextDb db tdb) (C : Crypto) (id : RequestId) :
    (textStore C).get tdb id = (sqlStore C).get db id := by
  show (match tdb.find? (fun r => r.requestId == id) with | some r => textRowToState C r | none => .exc .runtime) =
    (match db.find? (fun r => r.requestId == id) with | some r => rowToState C r | none => .exc .runtime)
  rcases h.find id with ⟨h1, h2⟩ | ⟨r, t, h1, h2, h3⟩
  · rw [h1, h2]
  · rw [h1, h2]
    exact h3.state C

theorem TextDb.append {db : Db} {tdb : List TextRow} {r : Row} {t : TextRow} (h : TextDb db tdb) (hr : TextOf r t) : TextDb (db ++ [r]) (tdb ++ [t]) := by
  induction h with
  | nil => exact .cons hr .nil
  | cons h hs ih => exact .cons h ih

theorem TextDb.add {db : Db} {tdb : List TextRow} (h : TextDb db tdb) (C : Crypto) {s : RequestState} (hs : TextFits s) :
    ((textStore C).add tdb s = .exc .runtime ∧ (sqlStore C).add db s = .exc .runtime) ∨
    ∃ db' tdb', (textStore C).add tdb s = .ok tdb' ∧ (sqlStore C).add db s = .ok db' ∧ TextDb db' tdb' := by
  rcases h.find s.requestId with ⟨h1, h2⟩ | ⟨r, t, h1, h2, h3⟩
  · right
    obtain ⟨t, e1, e2⟩ := stateToTextRow_of hs
    refine ⟨db ++ [stateToRow s], tdb ++ [t], ?_, ?_, h.append e2⟩
    · simp only [textStore, h2, e1]
      rfl
    · simp only [sqlStore, h1]
  · left
    constructor
    · simp only [textStore, h2]
    · simp only [sqlStore, h1]

theorem TextDb.update {db : Db} {tdb : List TextRow} (h : TextDb db tdb) (C : Crypto) {s : RequestState} (hs : TextFits s) :
    ∃ db' tdb', (textStore C).update tdb s = .ok tdb' ∧ (sqlStore C).update db s = .ok db' ∧ TextDb db' tdb' := by
  obtain ⟨f, e1, e2⟩ := updateTextRow_of hs
  refine ⟨_, tdb.map (fun r => if r.requestId == s.requestId then f r else r), ?_, rfl, ?_⟩
  · simp only [textStore, e1]
    rfl
  · induction h with
    | nil => exact .nil
    | @cons r t db tdb h _ ih =>
      refine .cons ?_ ih
      dsimp only
      rw [h.requestId]
      split
      · exact e2 r t h
      · exact h

theorem TextDb.delete {db : Db} {tdb : List TextRow} (h : TextDb db tdb) (C : Crypto) (id : RequestId) :
    TextDb ((sqlStore C).delete db id) ((textStore C).delete tdb id) := by
  show TextDb (db.filter (fun r => !(r.requestId == id))) (tdb.filter (fun r => !(r.requestId == id)))
  induction h with
  | nil => exact .nil
  | @cons r t db tdb h _ ih =>
    rw [List.filter_cons, List.filter_cons, h.requestId]
    split
    · exact .cons h ih
    · exact ih

theorem TextDb.list {db : Db} {tdb : List TextRow} (h : TextDb db tdb) (C : Crypto) : (textStore C).list tdb = (sqlStore C).list db := by
  show mapRes (textRowToState C) tdb = mapRes (rowToState C) db
  induction h with
  | nil => rfl
  | cons h _ ih =>
    unfold mapRes
    rw [h.state C, ih]

theorem TextDb.listFor {db : Db} {tdb : List TextRow} (h : TextDb db tdb) (C : Crypto) (ca : Name) :
    (textStore C).listFor tdb ca = (sqlStore C).listFor db ca := by
  show mapRes (textRowToState C) (tdb.filter (fun r => r.caName == (nameBlock ca).encode)) =
    mapRes (rowToState C) (db.filter (fun r => r.caName == (nameBlock ca).encode))
  induction h with
  | nil => rfl
  | @cons r t db tdb h _ ih =>
    rw [List.filter_cons, List.filter_cons, h.caName]
    split
    · unfold mapRes
      rw [h.state C, ih]
    · exact ih

/-! ## The CA -/

theorem handle_same {σ τ : Type} {S : StoreI σ} {T : StoreI τ} {s : σ} {t : τ} (hg : ∀ id, S.get s id = T.get t id)
    (ha : ∀ r, r.challengeState = none → (∃ s' t', S.add s r = .ok s' ∧ T.add t r = .ok t') ∨ (∃ e e', S.add s r = .exc e ∧ T.add t r = .exc e'))
    (C : Crypto) (cfg : CaConfig) (idKey : Bytes) (m : Msg) (env : Env) :
    handle C S cfg ⟨s, idKey⟩ m env = handle C T cfg ⟨t, idKey⟩ m env := by
  have hacc : ∀ ty i cert secret, acceptRequest C S cfg idKey s ty i env cert secret = acceptRequest C T cfg idKey t ty i env cert secret := by
    intro ty i cert secret
    unfold acceptRequest
    rcases ha (newRequestState C cfg idKey ty cert secret env.salt) rfl with ⟨_, _, h1, h2⟩ | ⟨_, _, h1, h2⟩
    · dsimp only; rw [h1, h2]
    · dsimp only; rw [h1, h2]
  have hn : ∀ ty i, onNewRenewRevoke C S cfg idKey s ty i env = onNewRenewRevoke C T cfg idKey t ty i env := by
    intro ty i
    unfold onNewRenewRevoke
    simp only [hacc]
  have hc : ∀ i, onChallenge C S cfg s i env = onChallenge C T cfg t i env := by
    intro i
    have : getCertificateRequest S cfg s i env = getCertificateRequest T cfg t i env := by
      unfold getCertificateRequest
      simp only [hg]
    unfold onChallenge
    rw [this]
  cases m with
  | probe i => rfl
  | new i => exact hn _ _
  | revoke i => exact hn _ _
  | challenge i => exact hc i

theorem TextDb.handle {db : Db} {tdb : List TextRow} (h : TextDb db tdb) (C : Crypto) (cfg : CaConfig) (idKey : Bytes) (m : Msg) (env : Env) :
    Ndncert.handle C (textStore C) cfg ⟨tdb, idKey⟩ m env = Ndncert.handle C (sqlStore C) cfg ⟨db, idKey⟩ m env := by
  refine handle_same (fun id => h.get C id) (fun r hr => ?_) C cfg idKey m env
  rcases h.add C (s := r) (fun cs hcs => by rw [hr] at hcs; cases hcs) with ⟨h1, h2⟩ | ⟨_, _, h1, h2, _⟩
  · exact .inr ⟨_, _, h1, h2⟩
  · exact .inl ⟨_, _, h1, h2⟩

/-- secrets that were read are UTF-8 -/
theorem TextDb.secrets {db : Db} {tdb : List TextRow} (h : TextDb db tdb) (C : Crypto) {id : RequestId} {r : RequestState} {cs : ChallengeState}
    (hg : (sqlStore C).get db id = .ok r) (hc : r.challengeState = some cs) : SecretsUtf8 cs.secrets := by
  rw [sqlStore_get] at hg
  rcases h.find id with ⟨h1, h2⟩ | ⟨row, t, h1, h2, h3⟩
  · rw [h1] at hg
    cases hg
  · rw [h1] at hg
    dsimp only at hg
    unfold rowToState at hg
    simp only [Res.bind_eq_ok] at hg
    obtain ⟨_, _, _, _, _, _, _, _, _, _, x, hx, hg⟩ := hg
    cases hg
    dsimp only at hc
    subst hc
    split at hx
    · simp only [Res.bind_eq_ok] at hx
      obtain ⟨tp, htp, js, hjs, hx⟩ := hx
      cases hx
      have hcol := h3.secrets
      unfold readJson at hjs
      split at hjs
      · rename_i kv hkv
        cases hjs
        rw [hkv] at hcol
        exact hcol.1
      · cases hjs
    · cases hx

/-- a time stamp that was read has a text -/
theorem TextDb.time {db : Db} {tdb : List TextRow} (h : TextDb db tdb) (C : Crypto) {id : RequestId} {r : RequestState} {cs : ChallengeState}
    (hg : (sqlStore C).get db id = .ok r) (hc : r.challengeState = some cs) : ∃ x, timeText cs.timestamp = .ok x := by
  rw [sqlStore_get] at hg
  rcases h.find id with ⟨h1, h2⟩ | ⟨row, t, h1, h2, h3⟩
  · rw [h1] at hg
    cases hg
  · rw [h1] at hg
    dsimp only at hg
    unfold rowToState at hg
    simp only [Res.bind_eq_ok] at hg
    obtain ⟨_, _, _, _, _, _, _, _, _, _, x, hx, hg⟩ := hg
    cases hg
    dsimp only at hc
    subst hc
    split at hx
    · simp only [Res.bind_eq_ok] at hx
      obtain ⟨tp, htp, js, hjs, hx⟩ := hx
      cases hx
      have hcol := h3.tp
      unfold readTp at htp
      split at htp
      · rename_i us hus
        cases htp
        rw [hus] at hcol
        obtain ⟨x, _, hx⟩ := hcol
        refine ⟨x, ?_⟩
        unfold timeText
        dsimp only
        rw [Int.mul_tdiv_cancel _ (by decide), hx]
        rfl
      · cases htp
    · cases hx

theorem ascii_utf8 {s : Bytes} (h : s.all (fun b => decide (b.toNat < 128)) = true) : Utf8 s :=
  utf8_ascii (fun b hb => by simpa using List.all_eq_true.mp h b hb)

theorem hex_ascii : ∀ n : Fin 16, (hexDigit n.val).toNat < 128 := by decide

theorem toHex_utf8 (s : Bytes) : Utf8 (toHex s) := by
  refine utf8_ascii (fun b hb => ?_)
  unfold toHex at hb
  rw [List.mem_flatMap] at hb
  obtain ⟨a, _, hb⟩ := hb
  have ha := UInt8.toNat_lt a
  simp only [List.mem_cons, List.not_mem_nil, or_false] at hb
  rcases hb with rfl | rfl
  · exact hex_ascii ⟨a.toNat / 16, by omega⟩
  · exact hex_ascii ⟨a.toNat % 16, by omega⟩

theorem startCase_utf8 {C : Crypto} {env : Env} {es : List Block} {r : RequestState} {k : ChalKind} {cstat : Bytes}
    {secrets : List (Bytes × Bytes)} {mails : List Mail} (hw : env.Wf) (h : StartCase C env es r k cstat secrets mails) : SecretsUtf8 secrets := by
  have hcode : Utf8 (secretCode env.word32) := by
    have hword := hw.word
    have := (code_isCode (n := env.word32 / 4294) (by omega)).2
    refine utf8_ascii (fun b hb => ?_)
    have := this b hb
    omega
  cases h with
  | pin =>
    intro e he
    simp only [List.mem_singleton] at he
    subst he
    exact ⟨show Utf8 KEY_CODE from ascii_utf8 (by decide), hcode⟩
  | email addr hg hid hs =>
    intro e he
    simp only [List.mem_singleton] at he
    subst he
    exact ⟨show Utf8 KEY_CODE from ascii_utf8 (by decide), hcode⟩
  | possession c anchors ha hg hc hk hcert =>
    intro e he
    simp only [List.mem_cons, List.not_mem_nil, or_false] at he
    rcases he with rfl | rfl
    · exact ⟨show Utf8 KEY_NONCE from ascii_utf8 (by decide), toHex_utf8 _⟩
    · exact ⟨show Utf8 KEY_CREDENTIAL from ascii_utf8 (by decide), toHex_utf8 _⟩

theorem TextDb.run {C : Crypto} (hC : C.Lawful) {cfg : CaConfig} (hcfg : NameFits cfg.profile.caPrefix) {db : Db} {tdb : List TextRow}
    (hd : SqlInv C db) (h : TextDb db tdb) (idKey : Bytes) (e : Event) (hwf : e.Wf cfg) (hck : e.ClockFits) :
    (e.run C (textStore C) cfg ⟨tdb, idKey⟩).1 = (e.run C (sqlStore C) cfg ⟨db, idKey⟩).1 ∧
    (e.run C (textStore C) cfg ⟨tdb, idKey⟩).2.idKey = (e.run C (sqlStore C) cfg ⟨db, idKey⟩).2.idKey ∧
    SqlInv C (e.run C (sqlStore C) cfg ⟨db, idKey⟩).2.store ∧
    TextDb (e.run C (sqlStore C) cfg ⟨db, idKey⟩).2.store (e.run C (textStore C) cfg ⟨tdb, idKey⟩).2.store := by
  have h1 : (e.run C (textStore C) cfg ⟨tdb, idKey⟩).1 = (e.run C (sqlStore C) cfg ⟨db, idKey⟩).1 := by
    cases e with
    | msg m env => exact congrArg Outcome.effects (h.handle C cfg idKey m env)
    | crash m env k nk => exact congrArg (fun o => (Outcome.effects o).take k) (h.handle C cfg idKey m env)
    | restart nk => rfl
  refine ⟨h1, ?_, ?_⟩
  · cases e <;> rfl
  have s2 := step_view hC (sqlStore_lawful C) hcfg (n := ⟨⟨db, idKey⟩, e, (e.run C (sqlStore C) cfg ⟨db, idKey⟩).1⟩) hd hwf rfl
  obtain ⟨i2, v2⟩ := s2
  have e2 : (e.run C (sqlStore C) cfg ⟨db, idKey⟩).2.store = applyEffects (sqlStore C) db (e.run C (sqlStore C) cfg ⟨db, idKey⟩).1 := by
    cases e <;> rfl
  have e3 : (e.run C (textStore C) cfg ⟨tdb, idKey⟩).2.store = applyEffects (textStore C) tdb (e.run C (sqlStore C) cfg ⟨db, idKey⟩).1 := by
    rw [← h1]
    cases e <;> rfl
  rw [e2, e3]
  refine ⟨i2, ?_⟩
  generalize (e.run C (sqlStore C) cfg ⟨db, idKey⟩).1 = E at *
  rw [applyEffects_dbOps, applyEffects_dbOps (S := textStore C)]
  cases v2 with
  | same h0 _ =>
    rw [show dbOps E = [] from h0]
    exact h
  | added ty i env r hd1 ha h0 _ =>
    rw [show dbOps E = [.dbAdd r] from hd1]
    have hf : TextFits r := fun cs hcs => by
      obtain ⟨_, e⟩ := ha.state
      rw [e] at hcs
      cases hcs
    simp only [applyEffects, List.foldl_cons, List.foldl_nil, applyEffect]
    rcases h.add C hf with ⟨a1, a2⟩ | ⟨_, _, a1, a2, a3⟩
    · rw [a1, a2]
      exact h
    · rw [a1, a2]
      exact a3
  | updated i env k es out r0 r1 r hd1 hu h0 hs _ =>
    rw [show dbOps E = [.dbUpdate r1] from hd1]
    have hf : TextFits r1 := by
      obtain ⟨div, ho, hmc⟩ := hu.module
      obtain ⟨payload, henc⟩ := hu.encode
      have hfit := hck _ env hu.event
      intro cs hcs
      obtain ⟨cs1, e1, e2, _⟩ := hmc.challenge hu.status
      obtain ⟨_, _, _, e3, _⟩ := challengeEncode_ok henc
      rw [e3] at hcs
      have hcs : out.req.challengeState = some cs := hcs
      have hts : cs.timestamp = env.nowStore := by
        rw [e1] at hcs
        cases hcs
        exact e2
      refine ⟨?_, by rw [hts]; exact hfit⟩
      cases hmc with
      | error code info hcode => cases hu.status
      | start cstat secrets mails hs hst =>
        cases hcs
        exact startCase_utf8 hu.wf hst
      | wrong cs0 code given hs hk ha hg hne ht htr time =>
        cases hcs
        exact h.secrets C (cs := cs0) (StoreI.get_of_view h0) ha.1
      | code cs0 code hs hk ha hg ht => cases hu.status
      | proof cs0 cred nonce p hs hk ha hg hl hv => cases hu.status
    simp only [applyEffects, List.foldl_cons, List.foldl_nil, applyEffect]
    obtain ⟨_, _, a1, a2, a3⟩ := h.update C hf
    rw [a1, a2]
    exact a3
  | deleted i env r hd1 _ _ _ _ =>
    rw [show dbOps E = [.dbDelete r.requestId] from hd1]
    exact h.delete C r.requestId

end Ndncert
