import Verif.Spec.Store
import Verif.Lemmas.Tlv

namespace Ndncert

/-! ## Memory -/

/-- invariant of the memory storage -/
def MemInv (m : Mem) : Prop := (m.map (·.1)).Nodup ∧ ∀ e ∈ m, e.2.requestId = e.1

theorem memFind_eq_some {m : Mem} (h : MemInv m) {id : RequestId} {r : RequestState} :
    memFind m id = some r ↔ (id, r) ∈ m := by
  unfold memFind
  induction m with
  | nil => simp
  | cons e es ih =>
    obtain ⟨hn, hr⟩ := h
    simp only [List.map_cons, List.nodup_cons] at hn
    have ih := ih ⟨hn.2, fun x hx => hr x (by simp [hx])⟩
    simp only [List.find?]
    by_cases he : e.1 = id
    · subst he
      simp only [beq_self_eq_true, Option.map_some, Option.some.injEq, List.mem_cons]
      constructor
      · rintro rfl; exact .inl rfl
      · rintro (h | h)
        · rw [← h]
        · exact absurd (List.mem_map_of_mem (f := (·.1)) h) hn.1
    · have : (e.1 == id) = false := by simpa using he
      simp only [this, List.mem_cons]
      rw [ih]
      constructor
      · exact .inr
      · rintro (h | h)
        · exact absurd (by rw [← h]) he
        · exact h

theorem memFind_eq_none {m : Mem} {id : RequestId} : memFind m id = none ↔ ∀ e ∈ m, e.1 ≠ id := by
  unfold memFind
  rw [Option.map_eq_none_iff, List.find?_eq_none]
  simp

theorem mem_memInsert {id : RequestId} {r : RequestState} {m : Mem} {e : RequestId × RequestState} :
    e ∈ memInsert id r m ↔ e = (id, r) ∨ e ∈ m := by
  induction m with
  | nil => simp [memInsert]
  | cons x xs ih =>
    unfold memInsert
    split
    · simp
    · simp only [List.mem_cons, ih]
      constructor
      · rintro (h | h | h)
        · exact .inr (.inl h)
        · exact .inl h
        · exact .inr (.inr h)
      · rintro (h | h | h)
        · exact .inr (.inl h)
        · exact .inl h
        · exact .inr (.inr h)

theorem memInsert_perm (id : RequestId) (r : RequestState) (m : Mem) : (memInsert id r m).Perm ((id, r) :: m) := by
  induction m with
  | nil => exact .refl _
  | cons x xs ih =>
    unfold memInsert
    split
    · exact .refl _
    · exact (ih.cons x).trans (.swap _ _ _)

theorem memInsert_inv {r : RequestState} {m : Mem} (h : MemInv m) (hf : memFind m r.requestId = none) :
    MemInv (memInsert r.requestId r m) := by
  constructor
  · rw [((memInsert_perm r.requestId r m).map (·.1)).nodup_iff]
    simp only [List.map_cons, List.nodup_cons]
    refine ⟨?_, h.1⟩
    intro hm
    rw [List.mem_map] at hm
    obtain ⟨e, he, hid⟩ := hm
    exact memFind_eq_none.mp hf e he hid
  · intro e he
    rcases mem_memInsert.mp he with rfl | he
    · rfl
    · exact h.2 e he

theorem memFind_insert {r : RequestState} {m : Mem} (h : MemInv m) (hf : memFind m r.requestId = none) (id : RequestId) :
    memFind (memInsert r.requestId r m) id = if id = r.requestId then some r else memFind m id := by
  have hi := memInsert_inv h hf
  split
  · rename_i he
    subst he
    rw [memFind_eq_some hi]
    exact mem_memInsert.mpr (.inl rfl)
  · rename_i he
    cases hx : memFind m id with
    | none =>
      rw [memFind_eq_none] at hx ⊢
      intro e hem
      rcases mem_memInsert.mp hem with rfl | hem
      · exact fun h => he h.symm
      · exact hx e hem
    | some r' =>
      rw [memFind_eq_some hi]
      exact mem_memInsert.mpr (.inr ((memFind_eq_some h).mp hx))

theorem memAssign_keys (id : RequestId) (r : RequestState) (m : Mem) :
    (m.map (fun e => if e.1 == id then (e.1, r) else e)).map (·.1) = m.map (·.1) := by
  rw [List.map_map]
  apply List.map_congr_left
  intro e _
  simp only [Function.comp]
  split <;> rfl

theorem memAssign_inv {r : RequestState} {m : Mem} (h : MemInv m) : MemInv (memAssign r.requestId r m) := by
  unfold memAssign
  cases hf : memFind m r.requestId with
  | none => exact memInsert_inv h hf
  | some r0 =>
    constructor
    · rw [memAssign_keys]; exact h.1
    · intro e he
      rw [List.mem_map] at he
      obtain ⟨x, hx, rfl⟩ := he
      split
      · rename_i hc
        have : x.1 = r.requestId := by simpa using hc
        exact this.symm
      · exact h.2 x hx

theorem memFind_assign {r : RequestState} {m : Mem} (h : MemInv m) (id : RequestId) :
    memFind (memAssign r.requestId r m) id = if id = r.requestId then some r else memFind m id := by
  have hi := memAssign_inv (r := r) h
  unfold memAssign at hi ⊢
  cases hf : memFind m r.requestId with
  | none => exact memFind_insert h hf id
  | some r0 =>
    rw [hf] at hi
    dsimp only at hi ⊢
    split
    · rename_i he
      subst he
      rw [memFind_eq_some hi, List.mem_map]
      exact ⟨_, (memFind_eq_some h).mp hf, by simp⟩
    · rename_i he
      cases hx : memFind m id with
      | none =>
        rw [memFind_eq_none] at hx ⊢
        intro e hem
        rw [List.mem_map] at hem
        obtain ⟨x, hxm, rfl⟩ := hem
        have := hx x hxm
        split <;> exact this
      | some r' =>
        rw [memFind_eq_some hi, List.mem_map]
        refine ⟨_, (memFind_eq_some h).mp hx, ?_⟩
        have : (id == r.requestId) = false := by simpa using he
        simp [this]

theorem memDelete_inv {m : Mem} (h : MemInv m) (id : RequestId) : MemInv (m.filter (fun e => !(e.1 == id))) := by
  constructor
  · exact h.1.sublist ((List.filter_sublist).map _)
  · intro e he
    exact h.2 e (List.mem_filter.mp he).1

theorem memFind_delete {m : Mem} (h : MemInv m) (id id' : RequestId) :
    memFind (m.filter (fun e => !(e.1 == id))) id' = if id' = id then none else memFind m id' := by
  have hi := memDelete_inv h id
  split
  · rename_i he
    subst he
    rw [memFind_eq_none]
    intro e hem
    have := (List.mem_filter.mp hem).2
    simpa using this
  · rename_i he
    cases hx : memFind m id' with
    | none =>
      rw [memFind_eq_none] at hx ⊢
      intro e hem
      exact hx e (List.mem_filter.mp hem).1
    | some r =>
      rw [memFind_eq_some hi, List.mem_filter]
      exact ⟨(memFind_eq_some h).mp hx, by simpa using he⟩

theorem memStore_view (m : Mem) (id : RequestId) : memStore.view m id = memFind m id := by
  show (match (Res.ofOption .runtime (memFind m id) : Res RequestState) with | .ok r => some r | _ => none) = _
  cases memFind m id <;> rfl

theorem sameStored_refl (r : RequestState) : SameStored r r := by
  cases h : r.challengeState with
  | none => exact .inl ⟨h, h, rfl⟩
  | some c => exact .inr ⟨c, c, h, h, rfl, rfl, Int.sub_lt_self _ (by decide), Int.lt_add_of_pos_right _ (by decide)⟩

/-- the memory storage, as used by the CA -/
def MemOk (C : Crypto) (m : Mem) : Prop := MemInv m ∧ ∀ e ∈ m, Storable C e.2

theorem memStore_lawful (C : Crypto) : LawfulStore C memStore (MemOk C) where
  empty_inv := ⟨⟨List.nodup_nil, by simp [memStore]⟩, by simp [memStore]⟩
  empty_view id := rfl
  reopen_inv st h := ⟨⟨List.nodup_nil, by simp [memStore]⟩, by simp [memStore]⟩
  reopen_view st h := .inr fun id => rfl
  get_absent st id h hv := by
    rw [memStore_view] at hv
    refine ⟨.runtime, ?_⟩
    show Res.ofOption .runtime (memFind st id) = _
    rw [hv]; rfl
  get_id st id r h hv := by
    rw [memStore_view, memFind_eq_some h.1] at hv
    exact h.1.2 _ hv
  get_storable st id r h hv := by
    rw [memStore_view, memFind_eq_some h.1] at hv
    exact h.2 _ hv
  add_present st r h hv := by
    rw [memStore_view] at hv
    cases hf : memFind st r.requestId with
    | none => exact absurd hf hv
    | some r0 =>
      refine ⟨.runtime, ?_⟩
      show (match memFind st r.requestId with | some _ => .exc .runtime | none => .ok (memInsert r.requestId r st) : Res Mem) = _
      rw [hf]
  add_absent st r h hs hv := by
    rw [memStore_view] at hv
    refine ⟨memInsert r.requestId r st, r, ?_, ⟨memInsert_inv h.1 hv, ?_⟩, sameStored_refl r, ?_⟩
    · show (match memFind st r.requestId with | some _ => .exc .runtime | none => .ok (memInsert r.requestId r st) : Res Mem) = _
      rw [hv]
    · intro e he
      rcases mem_memInsert.mp he with rfl | he
      · exact hs
      · exact h.2 e he
    · intro id
      rw [memStore_view, memStore_view, memFind_insert h.1 hv]
  update_present st r r0 h hs hv _ := by
    refine ⟨memAssign r.requestId r st, r, rfl, ⟨memAssign_inv h.1, ?_⟩, sameStored_refl r, ?_⟩
    · intro e he
      unfold memAssign at he
      split at he
      · rw [List.mem_map] at he
        obtain ⟨x, hx, rfl⟩ := he
        split
        · exact hs
        · exact h.2 x hx
      · rcases mem_memInsert.mp he with rfl | he
        · exact hs
        · exact h.2 e he
    · intro id
      rw [memStore_view, memStore_view, memFind_assign h.1]
  delete_inv st id h := ⟨memDelete_inv h.1 id, fun e he => h.2 e (List.mem_filter.mp he).1⟩
  delete_view st id h id' := by
    rw [memStore_view, memStore_view]
    exact memFind_delete h.1 id id'

end Ndncert
