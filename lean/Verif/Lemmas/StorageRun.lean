import Verif.Lemmas.Sqlite

namespace Ndncert

theorem nodup_of_map_nodup {α β : Type} (f : α → β) {l : List α} (h : (l.map f).Nodup) : l.Nodup :=
  (List.pairwise_map.mp h).imp fun hne he => hne (by rw [he])

theorem mem_list_nodup {m : Mem} (h : MemInv m) : (m.map (·.2)).Nodup := by
  apply nodup_of_map_nodup (·.requestId)
  have : (m.map (·.2)).map (·.requestId) = m.map (·.1) := by
    rw [List.map_map]
    apply List.map_congr_left
    intro e he
    exact h.2 e he
  rw [this]
  exact h.1

theorem mem_list_iff {m : Mem} (h : MemInv m) (r : RequestState) :
    r ∈ m.map (·.2) ↔ memFind m r.requestId = some r := by
  rw [memFind_eq_some h, List.mem_map]
  constructor
  · rintro ⟨e, he, rfl⟩
    rw [h.2 e he]
    exact he
  · intro hm
    exact ⟨_, hm, rfl⟩

theorem mem_answers {m : Mem} (h : MemInv m) {im : IdMap} (hv : ∀ id, memFind m id = im id) : Answers memStore m im where
  get id := by
    unfold getSpec
    have : memStore.get m id = Res.ofOption .runtime (memFind m id) := rfl
    rw [this, hv]
    cases im id with
    | none => exact ⟨_, rfl⟩
    | some r => rfl
  list := by
    refine ⟨m.map (·.2), rfl, mem_list_nodup h, fun r => ?_⟩
    rw [mem_list_iff h, hv]
    simp
  listFor ca _ := by
    refine ⟨(m.map (·.2)).filter (fun r => r.caPrefix == ca), rfl, (mem_list_nodup h).sublist List.filter_sublist, fun r => ?_⟩
    rw [List.mem_filter, mem_list_iff h, hv]
    simp

theorem mem_run {ops : List StoreOp} : ∀ {m : Mem} {im : IdMap}, MemInv m → (∀ id, memFind m id = im id) →
    (memStore.run m ops).2 = (mapRun im ops).2 ∧ Answers memStore (memStore.run m ops).1 (mapRun im ops).1 := by
  induction ops with
  | nil => intro m im h hv; exact ⟨rfl, mem_answers h hv⟩
  | cons op ops ih =>
    intro m im h hv
    have key : ∃ m' im' b, memStore.step m op = (m', b) ∧ mapStep im op = (im', b) ∧ MemInv m' ∧
        ∀ id, memFind m' id = im' id := by
      cases op with
      | add r =>
        have hadd : memStore.add m r = match memFind m r.requestId with
          | some _ => .exc .runtime
          | none => .ok (memInsert r.requestId r m) := rfl
        cases hf : memFind m r.requestId with
        | some r0 =>
          refine ⟨m, im, false, ?_, ?_, h, hv⟩
          · unfold StoreI.step; simp only [hadd, hf]
          · unfold mapStep
            dsimp only
            rw [if_neg]
            rw [← hv, hf]; simp
        | none =>
          refine ⟨memInsert r.requestId r m, fun id => if id = r.requestId then some r else im id, true, ?_, ?_, memInsert_inv h hf, ?_⟩
          · unfold StoreI.step; simp only [hadd, hf]
          · unfold mapStep
            dsimp only
            rw [if_pos (by rw [← hv, hf])]
          · intro id
            rw [memFind_insert h hf, hv]
      | update r =>
        refine ⟨memAssign r.requestId r m, _, true, rfl, rfl, memAssign_inv h, ?_⟩
        intro id
        rw [memFind_assign h, hv]
      | delete i =>
        refine ⟨_, _, true, rfl, rfl, memDelete_inv h i, ?_⟩
        intro id
        rw [← hv]
        exact memFind_delete h i id
    obtain ⟨m', im', b, e1, e2, h', hv'⟩ := key
    obtain ⟨i1, i2⟩ := ih h' hv'
    unfold StoreI.run mapRun
    simp only [e1, e2]
    exact ⟨by rw [i1], i2⟩

theorem truncMicros_whole {t : Time} (h : t % 1000 = 0) : truncMicros t = t := by
  unfold truncMicros
  have h1 : t.tmod 1000 + 1000 * t.tdiv 1000 = t := Int.tmod_add_mul_tdiv _ 1000
  have h2 : t.tmod 1000 = 0 := Int.tmod_eq_zero_of_dvd (Int.dvd_of_emod_eq_zero h)
  rw [h2] at h1
  rw [Int.mul_comm]
  simpa using h1

theorem normState_whole {r : RequestState} (h : ∀ cs, r.challengeState = some cs →
    cs.timestamp % 1000 = 0 ∧ -2 ^ 31 ≤ cs.remainingTime ∧ cs.remainingTime < 2 ^ 31) :
    normState r = r := by
  unfold normState
  cases hc : r.challengeState with
  | none => simp only [Option.map_none]; rw [← hc]
  | some cs =>
    obtain ⟨ht, h1, h2⟩ := h cs hc
    simp only [Option.map_some, truncMicros_whole ht, time_roundtrip h1 h2]
    rw [← hc]

theorem mapRes_ok {α β : Type} {f : α → Res β} {l : List α} (g : α → β) (h : ∀ a ∈ l, f a = .ok (g a)) :
    mapRes f l = .ok (l.map g) := by
  induction l with
  | nil => rfl
  | cons a as ih =>
    unfold mapRes
    rw [h a (by simp), ih (fun x hx => h x (by simp [hx]))]
    rfl

/-- the state in a row, as read back -/
def rowVal (C : Crypto) (dflt : RequestState) (row : Row) : RequestState :=
  match rowToState C row with
  | .ok r => r
  | _ => dflt

theorem sql_row {C : Crypto} {db : Db} (h : SqlInv C db) (dflt : RequestState) {row : Row} (hm : row ∈ db) :
    rowToState C row = .ok (rowVal C dflt row) ∧ (rowVal C dflt row).requestId = row.requestId ∧
    row.caName = (nameBlock (rowVal C dflt row).caPrefix).encode ∧ NameFits (rowVal C dflt row).caPrefix ∧
    (sqlStore C).view db row.requestId = some (rowVal C dflt row) := by
  obtain ⟨r, hs, hr⟩ := h.2 row hm
  have e := rowToState_represents hr hs
  have e2 : rowVal C dflt row = normState r := by unfold rowVal; rw [e]
  rw [e2]
  exact ⟨e, hr.id.symm, hr.ca, hs.caFits, sql_view_row h hm hr hs⟩

theorem sql_list {C : Crypto} {db : Db} (h : SqlInv C db) (p : Row → Bool) (q : RequestState → Prop)
    (hpq : ∀ dflt, ∀ row ∈ db, p row = true ↔ q (rowVal C dflt row)) {im : IdMap}
    (hv : ∀ id, (sqlStore C).view db id = im id) :
    listSpec im q (mapRes (rowToState C) (db.filter p)) := by
  cases db with
  | nil =>
    refine ⟨[], rfl, List.nodup_nil, fun r => ?_⟩
    rw [← hv]
    simp [StoreI.view, sqlStore]
  | cons x xs =>
    obtain ⟨dflt, _, _⟩ := h.2 x (by simp)
    refine ⟨((x :: xs).filter p).map (rowVal C dflt), ?_, ?_, ?_⟩
    · apply mapRes_ok
      intro row hm
      exact (sql_row h dflt (List.mem_filter.mp hm).1).1
    · apply nodup_of_map_nodup (·.requestId)
      rw [List.map_map]
      have : ((x :: xs).filter p).map ((·.requestId) ∘ rowVal C dflt) = ((x :: xs).filter p).map (·.requestId) := by
        apply List.map_congr_left
        intro row hm
        exact (sql_row h dflt (List.mem_filter.mp hm).1).2.1
      rw [this]
      exact h.1.sublist (List.filter_sublist.map _)
    · intro r
      rw [List.mem_map]
      constructor
      · rintro ⟨row, hm, rfl⟩
        obtain ⟨h1, h2⟩ := List.mem_filter.mp hm
        obtain ⟨_, e2, _, _, e5⟩ := sql_row h dflt h1
        exact ⟨by rw [← hv, e2, e5], (hpq dflt row h1).mp h2⟩
      · rintro ⟨h1, h2⟩
        rw [← hv] at h1
        obtain ⟨row, hm, r0, g1, _, _, _⟩ := sql_view_some h h1
        obtain ⟨_, e2, _, _, e5⟩ := sql_row h dflt hm
        rw [g1, h1] at e5
        have : rowVal C dflt row = r := by simpa using e5.symm
        refine ⟨row, List.mem_filter.mpr ⟨hm, ?_⟩, this⟩
        rw [hpq dflt row hm, this]
        exact h2

theorem nameBlock_encode_inj {a b : Name} (ha : NameFits a) (hb : NameFits b)
    (h : (nameBlock a).encode = (nameBlock b).encode) : a = b := by
  have h1 := blockOfBytes_encode _ (nameBlock_fits _ ha)
  have h2 := blockOfBytes_encode _ (nameBlock_fits _ hb)
  rw [h, h2] at h1
  have h3 := nameOfBlock_nameBlock _ ha.1
  have h4 := nameOfBlock_nameBlock _ hb.1
  rw [Res.ok.injEq] at h1
  rw [h1] at h4
  rw [h4] at h3
  simpa using h3.symm

theorem sql_answers {C : Crypto} {db : Db} (h : SqlInv C db) {im : IdMap}
    (hv : ∀ id, (sqlStore C).view db id = im id) : Answers (sqlStore C) db im where
  get id := by
    unfold getSpec
    rw [← hv]
    cases hx : (sqlStore C).view db id with
    | none => exact (sqlStore_lawful C).get_absent db id h hx
    | some r =>
      unfold StoreI.view at hx
      revert hx
      cases (sqlStore C).get db id <;> simp
  list := by
    have := sql_list h (fun _ => true) (fun _ => True) (by simp) hv
    rw [List.filter_eq_self.mpr (by simp)] at this
    exact this
  listFor ca hca := by
    refine sql_list h (fun r => r.caName == (nameBlock ca).encode) (fun r => r.caPrefix = ca) ?_ hv
    intro dflt row hm
    obtain ⟨_, _, e3, e4, _⟩ := sql_row h dflt hm
    rw [beq_iff_eq, e3]
    constructor
    · intro he
      exact nameBlock_encode_inj e4 hca he
    · intro he
      rw [he]

theorem sql_run {C : Crypto} {ops : List StoreOp} : ∀ {db : Db} {im : IdMap}, SqlInv C db →
    (∀ id, (sqlStore C).view db id = im id) → WellUsed C im ops →
    ((sqlStore C).run db ops).2 = (mapRun im ops).2 ∧
      Answers (sqlStore C) ((sqlStore C).run db ops).1 (mapRun im ops).1 := by
  induction ops with
  | nil => intro m im h hv _; exact ⟨rfl, sql_answers h hv⟩
  | cons op ops ih =>
    intro db im h hv hw
    obtain ⟨hop, hw⟩ := hw
    have key : ∃ db' b, (sqlStore C).step db op = (db', b) ∧ (mapStep im op).2 = b ∧ SqlInv C db' ∧
        ∀ id, (sqlStore C).view db' id = (mapStep im op).1 id := by
      cases op with
      | add r =>
        obtain ⟨hs, ht⟩ := hop
        by_cases hf : im r.requestId = none
        · obtain ⟨a1, a2, a3⟩ := sqlStore_add_view h hs (by rw [hv, hf])
          refine ⟨db ++ [stateToRow r], true, ?_, ?_, a2, ?_⟩
          · unfold StoreI.step; simp only [a1]
          · unfold mapStep; dsimp only; rw [if_pos hf]
          · intro id
            unfold mapStep
            dsimp only
            rw [if_pos hf, a3, normState_whole ht, hv]
        · obtain ⟨e, he⟩ := (sqlStore_lawful C).add_present db r h (by rw [hv]; exact hf)
          refine ⟨db, false, ?_, ?_, h, ?_⟩
          · unfold StoreI.step; simp only [he]
          · unfold mapStep; dsimp only; rw [if_neg hf]
          · intro id
            unfold mapStep
            dsimp only
            rw [if_neg hf, hv]
      | update r =>
        obtain ⟨⟨hs, ht⟩, r0, h0, hsame⟩ := hop
        obtain ⟨db', a1, a2, a3⟩ := sqlStore_update_view h hs (by rw [hv, h0]) hsame
        refine ⟨db', true, ?_, rfl, a2, ?_⟩
        · unfold StoreI.step; simp only [a1]
        · intro id
          rw [a3, normState_whole ht, hv]; rfl
      | delete i =>
        obtain ⟨a1, a2⟩ := sqlStore_delete_view h i
        refine ⟨_, true, rfl, rfl, a1, ?_⟩
        intro id
        rw [a2, hv]; rfl
    obtain ⟨db', b, e1, e2, h', hv'⟩ := key
    obtain ⟨i1, i2⟩ := ih h' hv' hw
    unfold StoreI.run mapRun
    simp only [e1]
    refine ⟨?_, i2⟩
    show b :: _ = (mapStep im op).2 :: _
    rw [e2, i1]

end Ndncert
