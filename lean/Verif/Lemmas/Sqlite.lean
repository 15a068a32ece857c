import Verif.Lemmas.Storage

namespace Ndncert

/-- the time stamp that comes back from the database -/
def truncMicros (t : Time) : Time := t.tdiv 1000 * 1000

/-- the state that comes back from the database -/
def normState (r : RequestState) : RequestState :=
  { r with challengeState := r.challengeState.map (fun cs =>
      { cs with timestamp := truncMicros cs.timestamp, remainingTime := intToInt32 cs.remainingTime }) }

/-- a row holds a request state -/
structure Represents (row : Row) (r : RequestState) : Prop where
  id : row.requestId = r.requestId
  ca : row.caName = (nameBlock r.caPrefix).encode
  ty : row.requestType = r.requestType.code
  st : row.status = intToInt32 r.status.toNat
  cert : row.certRequest = r.cert.wire.encode
  key : row.encryptionKey = r.encryptionKey
  eiv : row.encryptionIv = r.encryptionIv
  div : row.decryptionIv = r.decryptionIv
  none : r.challengeState = none → row.challengeType.getD [] = []
  some : ∀ cs, r.challengeState = some cs → row.challengeType = some r.challengeType ∧
    row.challengeStatus = some cs.challengeStatus ∧ row.challengeSecrets = some (.obj cs.secrets) ∧
    row.challengeTp = some (isoText cs.timestamp) ∧ row.remainingTries = some (toInt32 cs.remainingTries) ∧
    row.remainingTime = some (intToInt32 cs.remainingTime)

theorem status_roundtrip {s : Status} (h : ∀ n, s ≠ .other n) :
    Status.ofNat (intToInt32 s.toNat % 2 ^ 16).toNat = s := by
  cases s with
  | other n => exact absurd rfl (h n)
  | _ => rfl

theorem requestType_roundtrip (t : RequestType) : RequestType.ofCode t.code = t := by cases t <;> rfl

theorem tries_roundtrip {n : Nat} (h : n < 2 ^ 31) : (toInt32 n % 2 ^ 64).toNat = n := by
  unfold toInt32
  have : n % 2 ^ 32 = n := Nat.mod_eq_of_lt (by omega)
  simp only [this]
  rw [if_pos h]
  omega

theorem time_roundtrip {x : Int} (h1 : -2 ^ 31 ≤ x) (h2 : x < 2 ^ 31) : intToInt32 x = x := by
  unfold intToInt32
  dsimp only
  split <;> omega

theorem memcpyInto_full {n : Nat} {src : Bytes} (h : src.length = n) : memcpyInto (List.replicate n 0) src = .ok src := by
  unfold memcpyInto
  rw [if_neg (by simp [h])]
  simp [h]

theorem rowToState_represents {C : Crypto} {row : Row} {r : RequestState} (hr : Represents row r) (hs : Storable C r) :
    rowToState C row = .ok (normState r) := by
  unfold rowToState
  rw [hr.ca, blockOfBytes_encode _ (nameBlock_fits _ hs.caFits)]
  simp only [Res.bind_ok]
  rw [nameOfBlock_nameBlock _ hs.caFits.1]
  simp only [Res.bind_ok]
  rw [hr.cert, blockOfBytes_encode _ hs.certFits]
  simp only [Res.bind_ok]
  have hc : certOfBlock C r.cert.wire = .ok r.cert := by unfold certOfBlock; rw [hs.cert]; rfl
  rw [hc]
  simp only [Res.bind_ok]
  rw [hr.key, memcpyInto_full hs.key]
  simp only [Res.bind_ok]
  cases hcs : r.challengeState with
  | none =>
    have h0 := hr.none hcs
    have ht : r.challengeType = [] := hs.chal.mpr hcs
    simp only [h0, ne_eq, not_true_eq_false, if_false, Res.bind_ok, Res.ok.injEq]
    rw [hr.ty, requestType_roundtrip, hr.st, status_roundtrip hs.status, hr.eiv, hr.div, hr.id]
    simp only [normState, hcs, Option.map_none, ← ht]
  | some cs =>
    obtain ⟨h1, h2, h3, h4, h5, h6⟩ := hr.some cs hcs
    have ht : r.challengeType ≠ [] := by
      intro h0
      rw [hs.chal.mp h0] at hcs
      cases hcs
    have f1 := hs.chalFits cs hcs
    simp only [h1, Option.getD_some, ne_eq, ht, not_false_eq_true, if_true, h3, h4, h5, h6, h2, isoText, readTp, readJson,
      Res.bind_ok, intCol, tries_roundtrip f1, Res.ok.injEq]
    rw [hr.ty, requestType_roundtrip, hr.st, status_roundtrip hs.status, hr.eiv, hr.div, hr.id]
    simp only [normState, hcs, Option.map_some]
    rfl

theorem truncMicros_idem (t : Time) : isoText (truncMicros t) = isoText t := by
  unfold isoText truncMicros
  rw [Int.mul_tdiv_cancel _ (by decide)]

theorem truncMicros_close (t : Time) : t - 1000 < truncMicros t ∧ truncMicros t < t + 1000 := by
  have h1 : t.tmod 1000 + 1000 * t.tdiv 1000 = t := Int.tmod_add_mul_tdiv t 1000
  have h2 : -1000 < t.tmod 1000 := Int.lt_tmod_of_pos t (by decide)
  have h3 : t.tmod 1000 < 1000 := Int.tmod_lt_of_pos t (by decide)
  have key : ∀ x a b : Int, b + 1000 * a = x → -1000 < b → b < 1000 → x - 1000 < a * 1000 ∧ a * 1000 < x + 1000 := by
    intro x a b h1 h2 h3
    omega
  exact key _ _ _ h1 h2 h3

theorem normState_same (r : RequestState) : SameStored r (normState r) := by
  cases h : r.challengeState with
  | none => exact .inl ⟨h, by simp [normState, h], by
      have : normState r = { r with challengeState := none } := by simp [normState, h]
      rw [this, ← h]⟩
  | some cs =>
    refine .inr ⟨cs, { cs with timestamp := truncMicros cs.timestamp, remainingTime := intToInt32 cs.remainingTime }, h, by simp [normState, h], by simp [normState], rfl, ?_⟩
    exact truncMicros_close cs.timestamp

theorem normState_storable {C : Crypto} {r : RequestState} (h : Storable C r) : Storable C (normState r) where
  cert := h.cert
  certFits := h.certFits
  caFits := h.caFits
  key := h.key
  status := h.status
  chal := by
    have := h.chal
    simpa [normState] using this
  chalFits cs hcs := by
    simp only [normState, Option.map_eq_some_iff] at hcs
    obtain ⟨c, hc, rfl⟩ := hcs
    exact h.chalFits c hc

/-- invariant of the database -/
def SqlInv (C : Crypto) (db : Db) : Prop :=
  (db.map (·.requestId)).Nodup ∧ ∀ row ∈ db, ∃ r, Storable C r ∧ Represents row r

theorem find_row {db : Db} (hn : (db.map (·.requestId)).Nodup) {row : Row} (hm : row ∈ db) :
    db.find? (fun r => r.requestId == row.requestId) = some row := by
  induction db with
  | nil => cases hm
  | cons x xs ih =>
    simp only [List.map_cons, List.nodup_cons] at hn
    simp only [List.find?]
    cases hm with
    | head => simp
    | tail _ hm =>
      have : (x.requestId == row.requestId) = false := by
        simp only [beq_eq_false_iff_ne, ne_eq]
        intro h
        apply hn.1
        rw [h]
        exact List.mem_map_of_mem (f := (·.requestId)) hm
      simp only [this]
      exact ih hn.2 hm

theorem sqlStore_get (C : Crypto) (db : Db) (id : RequestId) :
    (sqlStore C).get db id = match db.find? (fun r => r.requestId == id) with
      | some r => rowToState C r
      | none => .exc .runtime := rfl

theorem sql_view_row {C : Crypto} {db : Db} (h : SqlInv C db) {row : Row} (hm : row ∈ db) {r : RequestState}
    (hr : Represents row r) (hs : Storable C r) : (sqlStore C).view db row.requestId = some (normState r) := by
  unfold StoreI.view
  rw [sqlStore_get, find_row h.1 hm]
  dsimp only
  rw [rowToState_represents hr hs]

theorem sql_view_none {C : Crypto} {db : Db} (h : SqlInv C db) (id : RequestId) :
    (sqlStore C).view db id = none ↔ ∀ row ∈ db, row.requestId ≠ id := by
  constructor
  · intro hv row hm he
    obtain ⟨r, hs, hr⟩ := h.2 row hm
    rw [← he, sql_view_row h hm hr hs] at hv
    cases hv
  · intro hn
    unfold StoreI.view
    rw [sqlStore_get]
    have : db.find? (fun r => r.requestId == id) = none := by
      rw [List.find?_eq_none]
      intro row hm
      simpa using hn row hm
    rw [this]

theorem sql_view_some {C : Crypto} {db : Db} (h : SqlInv C db) {id : RequestId} {r : RequestState}
    (hv : (sqlStore C).view db id = some r) :
    ∃ row ∈ db, ∃ r0, row.requestId = id ∧ Storable C r0 ∧ Represents row r0 ∧ r = normState r0 := by
  have : ¬ ∀ row ∈ db, row.requestId ≠ id := by
    intro hn
    rw [(sql_view_none h id).mpr hn] at hv
    cases hv
  have : ∃ row ∈ db, row.requestId = id := by
    apply Classical.byContradiction
    intro hne
    exact this (fun row hm he => hne ⟨row, hm, he⟩)
  obtain ⟨row, hm, he⟩ := this
  obtain ⟨r0, hs, hr⟩ := h.2 row hm
  refine ⟨row, hm, r0, he, hs, hr, ?_⟩
  rw [← he, sql_view_row h hm hr hs] at hv
  simpa using hv.symm

theorem stateToRow_represents {r : RequestState} : Represents (stateToRow r) r := by
  unfold stateToRow
  dsimp only
  cases hc : r.challengeState with
  | none =>
    refine ⟨rfl, rfl, rfl, by dsimp only, rfl, rfl, rfl, rfl, fun _ => rfl, ?_⟩
    intro cs h
    rw [hc] at h; cases h
  | some cs =>
    refine ⟨rfl, rfl, rfl, by dsimp only, rfl, rfl, rfl, rfl, ?_, ?_⟩
    · intro h; rw [hc] at h; cases h
    · intro cs' h
      rw [hc] at h
      simp only [Option.some.injEq] at h
      subst h
      exact ⟨rfl, rfl, rfl, rfl, rfl, rfl⟩

theorem stateToRow_id (r : RequestState) : (stateToRow r).requestId = r.requestId := stateToRow_represents.id

theorem updateRow_id (r : RequestState) (row : Row) : (updateRow r row).requestId = row.requestId := by
  unfold updateRow
  dsimp only
  split <;> rfl

theorem updateRow_fixed (r : RequestState) (row : Row) : (updateRow r row).caName = row.caName ∧
    (updateRow r row).requestType = row.requestType ∧ (updateRow r row).certRequest = row.certRequest ∧
    (updateRow r row).encryptionKey = row.encryptionKey := by
  unfold updateRow
  dsimp only
  split <;> exact ⟨rfl, rfl, rfl, rfl⟩

theorem updateRow_iv (r : RequestState) (row : Row) : (updateRow r row).encryptionIv = r.encryptionIv ∧
    (updateRow r row).decryptionIv = r.decryptionIv ∧ (updateRow r row).challengeType = some r.challengeType := by
  unfold updateRow
  dsimp only
  split <;> exact ⟨rfl, rfl, rfl⟩

theorem updateRow_status (r : RequestState) (row : Row) : (updateRow r row).status = intToInt32 r.status.toNat := by
  unfold updateRow
  generalize intToInt32 (r.status.toNat : Int) = z
  cases r.challengeState <;> rfl

theorem updateRow_some (r : RequestState) (row : Row) (cs : ChallengeState) (h : r.challengeState = some cs) :
    (updateRow r row).challengeStatus = some cs.challengeStatus ∧
    (updateRow r row).challengeSecrets = some (.obj cs.secrets) ∧
    (updateRow r row).challengeTp = some (isoText cs.timestamp) ∧
    (updateRow r row).remainingTries = some (toInt32 cs.remainingTries) ∧
    (updateRow r row).remainingTime = some (intToInt32 cs.remainingTime) := by
  unfold updateRow
  generalize intToInt32 (r.status.toNat : Int) = z
  rw [h]
  dsimp only
  generalize intToInt32 cs.remainingTime = y
  generalize toInt32 cs.remainingTries = w
  exact ⟨rfl, rfl, rfl, rfl, rfl⟩

theorem updateRow_represents {C : Crypto} {row : Row} {r r0 : RequestState} (h0 : Represents row r0)
    (hs : Storable C r) (hsame : SameRequest r0 r) : Represents (updateRow r row) r := by
  obtain ⟨s1, s2, s3, s4, s5⟩ := hsame
  obtain ⟨f1, f2, f3, f4⟩ := updateRow_fixed r row
  obtain ⟨g1, g2, g3⟩ := updateRow_iv r row
  refine ⟨?_, ?_, ?_, updateRow_status r row, ?_, ?_, g1, g2, ?_, ?_⟩
  · rw [updateRow_id, ← s1]; exact h0.id
  · rw [f1, ← s2]; exact h0.ca
  · rw [f2, ← s3]; exact h0.ty
  · rw [f3, ← s4]; exact h0.cert
  · rw [f4, ← s5]; exact h0.key
  · intro h
    rw [g3]
    simpa using hs.chal.mpr h
  · intro cs h
    exact ⟨g3, updateRow_some r row cs h⟩

theorem normState_sameRequest (r : RequestState) : SameRequest (normState r) r := ⟨rfl, rfl, rfl, rfl, rfl⟩

theorem sqlStore_add_view {C : Crypto} {db : Db} {r : RequestState} (h : SqlInv C db) (hs : Storable C r)
    (hv : (sqlStore C).view db r.requestId = none) :
    (sqlStore C).add db r = .ok (db ++ [stateToRow r]) ∧ SqlInv C (db ++ [stateToRow r]) ∧
      ∀ id, (sqlStore C).view (db ++ [stateToRow r]) id =
        if id = r.requestId then some (normState r) else (sqlStore C).view db id := by
  have hn := (sql_view_none h _).mp hv
  have hinv : SqlInv C (db ++ [stateToRow r]) := by
    constructor
    · rw [List.map_append, List.nodup_append]
      refine ⟨h.1, by simp, ?_⟩
      intro a ha b hb
      simp only [List.map_cons, List.map_nil, List.mem_singleton, stateToRow_id] at hb
      rw [List.mem_map] at ha
      obtain ⟨row, hm, rfl⟩ := ha
      rw [hb]
      exact hn row hm
    · intro row hm
      simp only [List.mem_append, List.mem_singleton] at hm
      rcases hm with hm | rfl
      · exact h.2 row hm
      · exact ⟨r, hs, stateToRow_represents⟩
  refine ⟨?_, hinv, ?_⟩
  · show (match db.find? (fun x => x.requestId == r.requestId) with
      | some _ => .exc .runtime
      | none => .ok (db ++ [stateToRow r]) : Res Db) = _
    have : db.find? (fun x => x.requestId == r.requestId) = none := by
      rw [List.find?_eq_none]
      intro row hm
      simpa using hn row hm
    rw [this]
  · intro id
    split
    · rename_i he
      subst he
      have := sql_view_row hinv (row := stateToRow r) (by simp) stateToRow_represents hs
      rw [stateToRow_id] at this
      exact this
    · rename_i he
      cases hx : (sqlStore C).view db id with
      | none =>
        rw [sql_view_none h] at hx
        rw [sql_view_none hinv]
        intro row hm
        simp only [List.mem_append, List.mem_singleton] at hm
        rcases hm with hm | rfl
        · exact hx row hm
        · rw [stateToRow_id]; exact fun e => he e.symm
      | some r' =>
        obtain ⟨row, hm, r0, h1, h2, h3, h4⟩ := sql_view_some h hx
        rw [← h1, sql_view_row hinv (by simp [hm]) h3 h2, h4]

theorem sqlStore_update_view {C : Crypto} {db : Db} {r r0 : RequestState} (h : SqlInv C db) (hs : Storable C r)
    (hv : (sqlStore C).view db r.requestId = some r0) (hsame : SameRequest r0 r) :
    ∃ db', (sqlStore C).update db r = .ok db' ∧ SqlInv C db' ∧
      ∀ id, (sqlStore C).view db' id = if id = r.requestId then some (normState r) else (sqlStore C).view db id := by
  obtain ⟨row, hm, rr, h1, h2, h3, h4⟩ := sql_view_some h hv
  have hsame' : SameRequest rr r := by
    obtain ⟨a, b, c, d, e⟩ := hsame
    rw [h4] at a b c d e
    exact ⟨a, b, c, d, e⟩
  let db' := db.map (fun x => if x.requestId == r.requestId then updateRow r x else x)
  have hids : db'.map (·.requestId) = db.map (·.requestId) := by
    simp only [db', List.map_map]
    apply List.map_congr_left
    intro x _
    simp only [Function.comp]
    split
    · exact updateRow_id r x
    · rfl
  have hrow : ∀ x ∈ db, x.requestId = r.requestId → x = row := by
    intro x hx he
    have e1 := find_row h.1 hx
    have e2 := find_row h.1 hm
    rw [he] at e1
    rw [h1] at e2
    rw [e1] at e2
    simpa using e2
  have hinv : SqlInv C db' := by
    constructor
    · rw [hids]; exact h.1
    · intro x hx
      simp only [db', List.mem_map] at hx
      obtain ⟨y, hy, rfl⟩ := hx
      split
      · rename_i he
        have he' : y.requestId = r.requestId := by simpa using he
        have := hrow y hy he'
        subst this
        exact ⟨r, hs, updateRow_represents h3 hs hsame'⟩
      · exact h.2 y hy
  have hmem : updateRow r row ∈ db' := by
    simp only [db', List.mem_map]
    exact ⟨row, hm, by simp [h1]⟩
  refine ⟨db', rfl, hinv, ?_⟩
  intro id
  split
  · rename_i he
    subst he
    have := sql_view_row hinv hmem (updateRow_represents h3 hs hsame') hs
    rw [updateRow_id, h1] at this
    exact this
  · rename_i he
    cases hx : (sqlStore C).view db id with
    | none =>
      rw [sql_view_none h] at hx
      rw [sql_view_none hinv]
      intro x hxm
      have : x.requestId ∈ db'.map (·.requestId) := List.mem_map_of_mem (f := (·.requestId)) hxm
      rw [hids, List.mem_map] at this
      obtain ⟨y, hy, hye⟩ := this
      rw [← hye]
      exact hx y hy
    | some r' =>
      obtain ⟨x, hxm, r1, g1, g2, g3, g4⟩ := sql_view_some h hx
      have hxm' : x ∈ db' := by
        simp only [db', List.mem_map]
        refine ⟨x, hxm, ?_⟩
        have : (x.requestId == r.requestId) = false := by
          simp only [beq_eq_false_iff_ne, ne_eq]
          intro h0
          exact he (by rw [← g1, h0])
        simp [this]
      rw [← g1, sql_view_row hinv hxm' g3 g2, g4]

theorem sqlStore_delete_view {C : Crypto} {db : Db} (h : SqlInv C db) (id : RequestId) :
    SqlInv C ((sqlStore C).delete db id) ∧
      ∀ id', (sqlStore C).view ((sqlStore C).delete db id) id' = if id' = id then none else (sqlStore C).view db id' := by
  have hd : (sqlStore C).delete db id = db.filter (fun r => !(r.requestId == id)) := rfl
  have hinv : SqlInv C ((sqlStore C).delete db id) := by
    rw [hd]
    constructor
    · exact h.1.sublist ((List.filter_sublist).map _)
    · intro row hm
      exact h.2 row (List.mem_filter.mp hm).1
  refine ⟨hinv, ?_⟩
  intro id'
  split
  · rename_i he
    subst he
    rw [sql_view_none hinv, hd]
    intro row hm
    have := (List.mem_filter.mp hm).2
    simpa using this
  · rename_i he
    cases hx : (sqlStore C).view db id' with
    | none =>
      rw [sql_view_none h] at hx
      rw [sql_view_none hinv, hd]
      intro row hm
      exact hx row (List.mem_filter.mp hm).1
    | some r' =>
      obtain ⟨x, hxm, r1, g1, g2, g3, g4⟩ := sql_view_some h hx
      have hxm' : x ∈ (sqlStore C).delete db id := by
        rw [hd, List.mem_filter]
        refine ⟨hxm, ?_⟩
        simp only [Bool.not_eq_true', beq_eq_false_iff_ne, ne_eq]
        intro h0
        exact he (by rw [← g1, h0])
      rw [← g1, sql_view_row hinv hxm' g3 g2, g4]

theorem sqlStore_lawful (C : Crypto) : LawfulStore C (sqlStore C) (SqlInv C) where
  empty_inv := ⟨List.nodup_nil, by simp [sqlStore]⟩
  empty_view id := rfl
  reopen_inv st h := h
  reopen_view st h := .inl fun id => rfl
  get_absent st id h hv := by
    rw [sql_view_none h] at hv
    refine ⟨.runtime, ?_⟩
    rw [sqlStore_get]
    have : st.find? (fun r => r.requestId == id) = none := by
      rw [List.find?_eq_none]
      intro row hm
      simpa using hv row hm
    rw [this]
  get_id st id r h hv := by
    obtain ⟨row, hm, r0, h1, h2, h3, rfl⟩ := sql_view_some h hv
    rw [← h1, h3.id]; rfl
  get_storable st id r h hv := by
    obtain ⟨row, hm, r0, h1, h2, h3, rfl⟩ := sql_view_some h hv
    exact normState_storable h2
  add_present st r h hv := by
    cases hx : (sqlStore C).view st r.requestId with
    | none => exact absurd hx hv
    | some r' =>
      obtain ⟨row, hm, r0, h1, h2, h3, rfl⟩ := sql_view_some h hx
      refine ⟨.runtime, ?_⟩
      show (match st.find? (fun x => x.requestId == r.requestId) with
        | some _ => .exc .runtime
        | none => .ok (st ++ [stateToRow r]) : Res Db) = _
      rw [← h1, find_row h.1 hm]
  add_absent st r h hs hv := by
    obtain ⟨a, b, c⟩ := sqlStore_add_view h hs hv
    exact ⟨_, normState r, a, b, normState_same r, c⟩
  update_present st r r0 h hs hv hsame := by
    obtain ⟨db', a, b, c⟩ := sqlStore_update_view h hs hv hsame
    exact ⟨db', normState r, a, b, normState_same r, c⟩
  delete_inv st id h := (sqlStore_delete_view h id).1
  delete_view st id h id' := (sqlStore_delete_view h id).2 id'

end Ndncert
