import Verif.Model.Main
import Verif.Spec.JsonGrammar
import Verif.Lemmas.UriRead
import Verif.Lemmas.Assign
import Verif.Lemmas.JsonGrammar

/-! # Sizes of what is read from a configuration file -/

namespace Ndncert

theorem uriUnescape_length : ∀ s, (uriUnescape s).length ≤ s.length := by
  intro s
  fun_induction uriUnescape s <;> simp_all <;> omega

theorem splitAll_sum (sep : UInt8) : ∀ s, ((splitAll sep s).map (fun p => p.length + 1)).sum = s.length + 1 := by
  intro s
  induction s with
  | nil => rfl
  | cons b bs ih =>
    unfold splitAll
    split
    · rw [List.map_cons, List.sum_cons, ih]
      simp
      omega
    · cases hs : splitAll sep bs with
      | nil => exact absurd hs (splitAll_ne_nil sep bs)
      | cons p ps =>
        rw [hs, List.map_cons, List.sum_cons] at ih
        dsimp only
        rw [List.map_cons, List.sum_cons, List.length_cons, List.length_cons]
        omega

theorem mkComp_some {ty : Nat} {v : Bytes} {b : Block} (h : mkComp ty v = some b) : b = ⟨ty, v⟩ := by
  unfold mkComp at h
  split at h
  · cases h
  · exact (Option.some.inj h).symm

theorem compValue_some {ty : Nat} {s : Bytes} {b : Block} (h : compValue ty s = some b) : b.typ = ty ∧ b.val.length ≤ s.length := by
  unfold compValue at h
  have := uriUnescape_length s
  dsimp only at h
  split at h
  · split at h
    · cases h
    · cases mkComp_some h
      exact ⟨rfl, by simp; omega⟩
  · cases mkComp_some h
    exact ⟨rfl, this⟩

theorem readComp_some {s : Bytes} {b : Block} (h : readComp s = some b) : 1 ≤ b.typ ∧ b.typ ≤ 65535 ∧ b.val.length ≤ s.length := by
  unfold readComp at h
  split at h
  · obtain ⟨e, hl⟩ := compValue_some h
    rw [e]
    exact ⟨by decide, by decide, hl⟩
  · rename_i ty v hs
    split at h
    · cases h
    · split at h
      · rename_i n _ hn
        obtain ⟨e, hl⟩ := compValue_some h
        rw [e]
        have := (splitFirst_some.mp hs).1
        refine ⟨hn.1, hn.2.1, ?_⟩
        rw [this]
        simp
        omega
      · cases h

theorem skipScheme_length (s : Bytes) : (skipScheme s).length ≤ s.length := by
  unfold skipScheme
  split
  · rename_i before rest hs
    split
    · exact Nat.le_refl _
    · rw [(splitFirst_some.mp hs).1]
      simp
      omega
  · exact Nat.le_refl _

theorem skipRoot_length (s : Bytes) : (skipRoot s).length ≤ s.length := by
  unfold skipRoot
  split
  · rename_i s
    have := (List.dropWhile_sublist (· ≠ (47 : UInt8)) (l := s)).length_le
    simp at this ⊢
    omega
  · simp
  · exact Nat.le_refl _

theorem varNumber_atMost (n : Nat) : (varNumber n).length ≤ 9 := by
  unfold varNumber
  repeat' split
  all_goals simp [beBytes_length]

theorem encode_atMost (b : Block) : b.encode.length ≤ b.val.length + 18 := by
  have h1 := varNumber_atMost b.typ
  have h2 := varNumber_atMost b.val.length
  unfold Block.encode
  simp only [List.length_append]
  omega

theorem mapM_readComp_size : ∀ {ps : List Bytes} {n : Name}, ps.mapM readComp = some n →
    (∀ c ∈ n, 1 ≤ c.typ ∧ c.typ ≤ 65535) ∧ (encodeAll n).length ≤ 18 * (ps.map (fun p => p.length + 1)).sum
  | [], n, h => by
    rw [List.mapM_nil] at h
    cases h
    exact ⟨by simp, by simp [encodeAll]⟩
  | p :: ps, n, h => by
    rw [List.mapM_cons] at h
    cases hp : readComp p with
    | none => rw [hp] at h; cases h
    | some b =>
      cases hq : ps.mapM readComp with
      | none => rw [hp, hq] at h; cases h
      | some m =>
        rw [hp, hq] at h
        cases h
        obtain ⟨ih1, ih2⟩ := mapM_readComp_size hq
        obtain ⟨h1, h2, h3⟩ := readComp_some hp
        have h4 := encode_atMost b
        constructor
        · intro c hc
          rcases List.mem_cons.mp hc with rfl | hc
          · exact ⟨h1, h2⟩
          · exact ih1 c hc
        · rw [encodeAll_cons, List.length_append, List.map_cons, List.sum_cons]
          omega

/-- a name read from a text is not much longer than the text -/
theorem readUri_size {s : Bytes} {n : Name} (h : readUri s = some n) :
    (∀ c ∈ n, 1 ≤ c.typ ∧ c.typ ≤ 65535) ∧ (encodeAll n).length ≤ 18 * (s.length + 1) := by
  unfold readUri at h
  dsimp only at h
  obtain ⟨h1, h2⟩ := mapM_readComp_size h
  refine ⟨h1, Nat.le_trans h2 (Nat.mul_le_mul_left _ ?_)⟩
  have hs := splitAll_sum 47 (skipRoot (skipScheme s))
  have hl := Nat.le_trans (skipRoot_length (skipScheme s)) (skipScheme_length s)
  split
  · have : ∀ l : List Bytes, (l.dropLast.map (fun p => p.length + 1)).sum ≤ (l.map (fun p => p.length + 1)).sum := by
      intro l
      induction l with
      | nil => exact Nat.le_refl _
      | cons a l ih =>
        cases l with
        | nil => simp
        | cons b l => rw [List.dropLast_cons_cons, List.map_cons, List.sum_cons, List.map_cons, List.sum_cons]; omega
    have := this (splitAll 47 (skipRoot (skipScheme s)))
    omega
  · omega

theorem readUri_fits {s : Bytes} {n : Name} (h : readUri s = some n) (hs : s.length < 2 ^ 56) : NameFits n := by
  obtain ⟨h1, h2⟩ := readUri_size h
  have hlt : (encodeAll n).length < 2 ^ 64 := by omega
  refine ⟨fun c hc => ⟨(h1 c hc).1, Nat.lt_of_le_of_lt (h1 c hc).2 (by decide), Nat.lt_of_le_of_lt (mem_encodeAll_length hc) hlt⟩, hlt⟩

theorem utf8_size (c : Char) : c.utf8Size ≤ 4 := by
  exact c.utf8Size_le_four

theorem jsonChars_length {s m : Bytes} (h : JsonChars s m) : m.length ≤ s.length := by
  induction h with
  | nil => exact Nat.le_refl _
  | plain _ _ _ _ ih => simp; omega
  | letter _ _ ih => simp; omega
  | code c hq _ ih =>
    have := utf8_size c
    simp
    obtain ⟨_, _, _, _, _, _, _, _, rfl, _⟩ := hq
    simp
    omega
  | pair c hq hr _ _ _ _ ih =>
    have := utf8_size c
    simp
    obtain ⟨_, _, _, _, _, _, _, _, rfl, _⟩ := hq
    simp
    omega

theorem jsonValue_data {s : Bytes} {t : PTree} (h : JsonValue s t) : t.data.length ≤ s.length := by
  cases h with
  | string h => have := jsonChars_length h; simp [PTree.data]; omega
  | number _ => simp [PTree.data]
  | word _ => simp [PTree.data]
  | _ => simp [PTree.data]

theorem jsonMembers_data : ∀ {s : Bytes} {ks : List (Bytes × PTree)}, JsonMembers s ks → ∀ e ∈ ks, e.2.data.length ≤ s.length
  | _, _, .one _ _ _ _ hv _, e, he => by
    cases List.mem_singleton.mp he
    have := jsonValue_data hv
    simp
    omega
  | _, _, .cons _ _ _ _ hv _ hr, e, he => by
    rcases List.mem_cons.mp he with rfl | he
    · have := jsonValue_data hv
      simp
      omega
    · have := jsonMembers_data hr e he
      simp
      omega

theorem jsonElements_data : ∀ {s : Bytes} {ks : List (Bytes × PTree)}, JsonElements s ks → ∀ e ∈ ks, e.2.data.length ≤ s.length
  | _, _, .one _ hv _, e, he => by
    cases List.mem_singleton.mp he
    have := jsonValue_data hv
    simp
    omega
  | _, _, .cons _ hv _ hr, e, he => by
    rcases List.mem_cons.mp he with rfl | he
    · have := jsonValue_data hv
      simp
      omega
    · have := jsonElements_data hr e he
      simp
      omega

/-- the text of an entry of a document is not longer than the document -/
theorem jsonDocument_entry {text : Bytes} {t : PTree} (h : JsonDocument text t) {e : Bytes × PTree} (he : e ∈ t.kids) :
    e.2.data.length ≤ text.length := by
  obtain ⟨bom, w1, s, w2, _, _, hv, _, rfl⟩ := h
  have : e.2.data.length ≤ s.length := by
    cases hv with
    | object h => have := jsonMembers_data h e he; simp; omega
    | array h => have := jsonElements_data h e he; simp; omega
    | _ => exact absurd he (by simp [PTree.kids])
  simp
  omega

theorem getStr_length {text : Bytes} {t : PTree} (h : JsonDocument text t) (key : Bytes) : (t.getStr key []).length ≤ text.length := by
  unfold PTree.getStr
  cases hc : t.child key with
  | none => simp
  | some v =>
    unfold PTree.child at hc
    rw [Option.map_eq_some_iff] at hc
    obtain ⟨e, he, rfl⟩ := hc
    exact jsonDocument_entry h (List.mem_of_find?_eq_some he)

end Ndncert
