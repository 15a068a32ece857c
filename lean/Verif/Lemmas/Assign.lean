import Verif.Spec.Assign
import Verif.Lemmas.Probe

/-! # Lemmas on splitting strings, multimaps and name assignment -/

namespace Ndncert

/-! ## Splitting -/

theorem splitAll_ne_nil (sep : UInt8) : ∀ s, splitAll sep s ≠ []
  | [] => by simp [splitAll]
  | b :: bs => by
    unfold splitAll
    split
    · simp
    · split <;> simp

theorem intercalate_cons_cons' (sep : UInt8) (p q : Bytes) (ps : List Bytes) :
    [sep].intercalate (p :: q :: ps) = p ++ sep :: [sep].intercalate (q :: ps) := by
  simp [List.intercalate, List.intersperse]

theorem splitAll_splits (sep : UInt8) : ∀ s, SplitsInto sep s (splitAll sep s)
  | [] => ⟨by simp [splitAll], by simp [splitAll], by simp [splitAll, List.intercalate]⟩
  | b :: bs => by
    obtain ⟨h1, h2, h3⟩ := splitAll_splits sep bs
    unfold splitAll
    split
    · rename_i hb
      cases hs : splitAll sep bs with
      | nil => exact absurd hs h1
      | cons p ps =>
        rw [hs] at h2 h3
        refine ⟨by simp, ?_, ?_⟩
        · intro x hx
          rw [List.mem_cons] at hx
          rcases hx with rfl | hx
          · simp
          · exact h2 x hx
        · rw [intercalate_cons_cons', ← h3, hb]; rfl
    · rename_i hb
      split
      · rename_i p ps hs
        rw [hs] at h2 h3
        refine ⟨by simp, ?_, ?_⟩
        · intro x hx
          rw [List.mem_cons] at hx
          rcases hx with rfl | hx
          · have := h2 p (by simp)
            simp only [List.mem_cons, not_or]
            exact ⟨fun h => hb h.symm, this⟩
          · exact h2 x (by simp [hx])
        · cases ps with
          | nil => simp only [List.intercalate, List.intersperse, List.flatten_cons, List.flatten_nil, List.append_nil] at h3 ⊢; rw [h3]
          | cons q ps => rw [intercalate_cons_cons'] at h3 ⊢; rw [h3]; rfl
      · rename_i hs
        exact absurd hs h1

theorem splitAll_plain {sep : UInt8} : ∀ {p : Bytes}, sep ∉ p → splitAll sep p = [p]
  | [], _ => rfl
  | b :: bs, h => by
    have hb : b ≠ sep := by rintro rfl; simp at h
    unfold splitAll
    rw [if_neg hb, splitAll_plain (p := bs) (fun hm => h (List.mem_cons_of_mem _ hm))]

theorem splitAll_append {sep : UInt8} : ∀ {p : Bytes} (s : Bytes), sep ∉ p → splitAll sep (p ++ sep :: s) = p :: splitAll sep s
  | [], s, _ => by simp [splitAll]
  | b :: bs, s, h => by
    have hb : b ≠ sep := by rintro rfl; simp at h
    rw [List.cons_append, splitAll, if_neg hb, splitAll_append (p := bs) s (fun hm => h (List.mem_cons_of_mem _ hm))]

theorem SplitsInto.eq {sep : UInt8} {s : Bytes} : ∀ {pieces : List Bytes}, SplitsInto sep s pieces → splitAll sep s = pieces
  | [], h => absurd rfl h.1
  | [p], ⟨_, h2, h3⟩ => by
    simp only [List.intercalate, List.intersperse, List.flatten_cons, List.flatten_nil, List.append_nil] at h3
    rw [h3]; exact splitAll_plain (h2 p (by simp))
  | p :: q :: ps, ⟨_, h2, h3⟩ => by
    rw [intercalate_cons_cons'] at h3
    rw [h3, splitAll_append _ (h2 p (by simp)),
      SplitsInto.eq (pieces := q :: ps) (s := [sep].intercalate (q :: ps)) ⟨by simp, fun x hx => h2 x (by simp [hx]), rfl⟩]

theorem splitFirst_some {sep : UInt8} : ∀ {s k v : Bytes}, splitFirst sep s = some (k, v) ↔ s = k ++ sep :: v ∧ sep ∉ k
  | [], k, v => by simp [splitFirst]
  | b :: bs, k, v => by
    unfold splitFirst
    split
    · rename_i hb
      subst hb
      constructor
      · intro h; cases h; exact ⟨rfl, by simp⟩
      · rintro ⟨h1, h2⟩
        cases k with
        | nil => cases h1; rfl
        | cons c k => cases h1; simp at h2
    · rename_i hb
      rw [Option.map_eq_some_iff]
      constructor
      · rintro ⟨⟨k', v'⟩, h1, h2⟩
        cases h2
        obtain ⟨h3, h4⟩ := splitFirst_some.mp h1
        exact ⟨by rw [h3]; rfl, by simp only [List.mem_cons, not_or]; exact ⟨fun h => hb h.symm, h4⟩⟩
      · rintro ⟨h1, h2⟩
        cases k with
        | nil => cases h1; exact absurd rfl hb
        | cons c k =>
          cases h1
          exact ⟨(k, v), splitFirst_some.mpr ⟨rfl, fun hm => h2 (List.mem_cons_of_mem _ hm)⟩, rfl⟩

theorem splitFirst_none {sep : UInt8} {s : Bytes} : splitFirst sep s = none ↔ sep ∉ s := by
  induction s with
  | nil => simp [splitFirst]
  | cons b bs ih =>
    unfold splitFirst
    split
    · rename_i hb; simp [hb]
    · rename_i hb
      rw [Option.map_eq_none_iff, ih]
      simp only [List.mem_cons, not_or]
      exact ⟨fun h => ⟨fun h' => hb h'.symm, h⟩, fun h => h.2⟩

theorem splitLast_none {sep : UInt8} {s : Bytes} : splitLast sep s = none ↔ sep ∉ s := by
  induction s with
  | nil => simp [splitLast]
  | cons b bs ih =>
    unfold splitLast
    split
    · rename_i p hp
      have : sep ∈ bs := Classical.byContradiction fun h => by rw [ih.mpr h] at hp; cases hp
      simp [this]
    · rename_i hp
      have := ih.mp hp
      split
      · rename_i hb; simp [hb]
      · rename_i hb
        simp only [List.mem_cons, not_or]
        exact ⟨fun _ => ⟨fun h => hb h.symm, this⟩, fun _ => trivial⟩

theorem last_unique {sep : UInt8} : ∀ {k k' v v' : Bytes}, k ++ sep :: v = k' ++ sep :: v' → sep ∉ v → sep ∉ v' → k = k' ∧ v = v'
  | [], [], _, _, h, _, _ => by cases h; exact ⟨rfl, rfl⟩
  | [], c :: k', v, v', h, h1, _ => by cases h; simp at h1
  | c :: k, [], v, v', h, _, h2 => by cases h; simp at h2
  | c :: k, c' :: k', v, v', h, h1, h2 => by
    simp only [List.cons_append, List.cons.injEq] at h
    obtain ⟨rfl, h⟩ := h
    obtain ⟨rfl, rfl⟩ := last_unique h h1 h2
    exact ⟨rfl, rfl⟩

theorem splitLast_sound {sep : UInt8} : ∀ {s k v : Bytes}, splitLast sep s = some (k, v) → s = k ++ sep :: v ∧ sep ∉ v
  | [], k, v, h => by simp [splitLast] at h
  | b :: bs, k, v, h => by
    unfold splitLast at h
    split at h
    · rename_i p hp
      obtain ⟨k', v'⟩ := p
      obtain ⟨h3, h4⟩ := splitLast_sound hp
      cases h
      exact ⟨by rw [h3]; rfl, h4⟩
    · rename_i hp
      split at h
      · rename_i hb
        subst hb
        cases h
        exact ⟨rfl, splitLast_none.mp hp⟩
      · cases h

theorem splitLast_some {sep : UInt8} {s k v : Bytes} : splitLast sep s = some (k, v) ↔ s = k ++ sep :: v ∧ sep ∉ v := by
  refine ⟨splitLast_sound, ?_⟩
  rintro ⟨rfl, h⟩
  cases hs : splitLast sep (k ++ sep :: v) with
  | none => exact absurd (by simp) (splitLast_none.mp hs)
  | some p =>
    obtain ⟨k', v'⟩ := p
    obtain ⟨h3, h4⟩ := splitLast_sound hs
    obtain ⟨rfl, rfl⟩ := last_unique h3 h h4
    rfl

/-! ## Multimaps -/

theorem bytesLt_irrefl : ∀ a : Bytes, bytesLt a a = false
  | [] => rfl
  | a :: as => by simp [bytesLt, bytesLt_irrefl as]

theorem bytesLt_total : ∀ {a b : Bytes}, bytesLt a b = false → bytesLt b a = false → a = b
  | [], [], _, _ => rfl
  | [], _ :: _, h, _ => by simp [bytesLt] at h
  | _ :: _, [], _, h => by simp [bytesLt] at h
  | a :: as, b :: bs, h1, h2 => by
    simp only [bytesLt, Bool.or_eq_false_iff, decide_eq_false_iff_not, Bool.and_eq_false_iff, beq_eq_false_iff_ne] at h1 h2
    have hab : a = b := UInt8.le_antisymm (UInt8.not_lt.mp h2.1) (UInt8.not_lt.mp h1.1)
    subst hab
    rw [bytesLt_total (h1.2.resolve_left (by simp)) (h2.2.resolve_left (by simp))]

theorem bytesLt_trans : ∀ {a b c : Bytes}, bytesLt a b = true → bytesLt b c = true → bytesLt a c = true
  | [], [], [], h, _ => by simp [bytesLt] at h
  | [], _ :: _, [], _, h => by simp [bytesLt] at h
  | [], _, _ :: _, _, _ => rfl
  | _ :: _, [], _, h, _ => by simp [bytesLt] at h
  | _ :: _, _ :: _, [], _, h => by simp [bytesLt] at h
  | a :: as, b :: bs, c :: cs, h1, h2 => by
    simp only [bytesLt, Bool.or_eq_true, decide_eq_true_eq, Bool.and_eq_true, beq_iff_eq] at h1 h2 ⊢
    rcases h1 with h1 | ⟨rfl, h1⟩ <;> rcases h2 with h2 | ⟨rfl, h2⟩
    · exact .inl (UInt8.lt_trans h1 h2)
    · exact .inl h1
    · exact .inl h2
    · exact .inr ⟨rfl, bytesLt_trans h1 h2⟩

theorem mem_takeWhile_prop {α : Type} {p : α → Bool} {a : α} : ∀ {l : List α}, a ∈ l.takeWhile p → p a = true
  | [], h => by cases h
  | x :: l, h => by
    rw [List.takeWhile_cons] at h
    split at h
    · rw [List.mem_cons] at h
      rcases h with rfl | h
      · assumption
      · exact mem_takeWhile_prop h
    · cases h

/-- in a sorted multimap the entries of a key are consecutive -/
theorem valuesOf_sorted {k v : Bytes} : ∀ {m : MMap}, m.Sorted → (v ∈ valuesOf m k ↔ (k, v) ∈ m)
  | [], _ => by simp [valuesOf]
  | (a, w) :: m, hs => by
    unfold MMap.Sorted at hs
    rw [List.pairwise_cons] at hs
    unfold valuesOf
    rcases Classical.em (a = k) with rfl | ha
    · rw [List.dropWhile_cons_of_neg (by simp), List.takeWhile_cons_of_pos (by simp)]
      simp only [List.map_cons, List.mem_cons, Prod.mk.injEq, true_and]
      apply or_congr Iff.rfl
      constructor
      · intro h
        rw [List.mem_map] at h
        obtain ⟨⟨x, y⟩, h1, rfl⟩ := h
        have := mem_takeWhile_prop h1
        simp only [beq_iff_eq] at this
        subst this
        exact (List.takeWhile_sublist _).subset h1
      · intro h
        rw [List.mem_map]
        refine ⟨(a, v), ?_, rfl⟩
        -- everything before an entry of the same key has the same key
        have key : ∀ m : MMap, (∀ e ∈ m, bytesLt e.1 a = false) → m.Pairwise (fun x y => bytesLt y.1 x.1 = false) → (a, v) ∈ m →
            (a, v) ∈ m.takeWhile (fun e => e.1 == a) := by
          intro m
          induction m with
          | nil => intro _ _ h; cases h
          | cons e m ih =>
            intro h1 h2 h3
            rw [List.pairwise_cons] at h2
            have hea : e.1 = a := by
              rw [List.mem_cons] at h3
              rcases h3 with rfl | h3
              · rfl
              · exact bytesLt_total (h1 e (by simp)) (h2.1 _ h3)
            rw [List.takeWhile_cons_of_pos (by simpa using hea), List.mem_cons]
            rw [List.mem_cons] at h3
            rcases h3 with h3 | h3
            · exact .inl h3
            · exact .inr (ih (fun x hx => h1 x (by simp [hx])) h2.2 h3)
        exact key m (fun e he => hs.1 e he) hs.2 h
    · rw [List.dropWhile_cons_of_pos (by simpa using ha)]
      have ih := valuesOf_sorted (k := k) (v := v) (m := m) hs.2
      unfold valuesOf at ih
      rw [ih]
      simp only [List.mem_cons, Prod.mk.injEq]
      exact ⟨.inr, fun h => h.resolve_left (fun h => ha h.1.symm)⟩

theorem mmInsert_mem {k v : Bytes} {e : Bytes × Bytes} : ∀ {m : MMap}, e ∈ mmInsert k v m → e = (k, v) ∨ e ∈ m
  | [], h => by simpa [mmInsert] using h
  | x :: m, h => by
    unfold mmInsert at h
    split at h
    · simpa using h
    · rw [List.mem_cons] at h
      rcases h with rfl | h
      · exact .inr (by simp)
      · rcases mmInsert_mem h with h | h
        · exact .inl h
        · exact .inr (by simp [h])

theorem mmInsert_sorted {k v : Bytes} : ∀ {m : MMap}, m.Sorted → (mmInsert k v m).Sorted
  | [], _ => by simp [mmInsert, MMap.Sorted]
  | x :: m, h => by
    unfold MMap.Sorted at h
    have h' := h
    rw [List.pairwise_cons] at h
    unfold mmInsert
    split
    · rename_i hlt
      unfold MMap.Sorted
      rw [List.pairwise_cons]
      refine ⟨?_, h'⟩
      intro e he
      rw [Bool.eq_false_iff]
      intro hc
      rw [List.mem_cons] at he
      rcases he with rfl | he
      · have := bytesLt_trans hc hlt
        rw [bytesLt_irrefl] at this
        cases this
      · have := bytesLt_trans hc hlt
        rw [h.1 e he] at this
        cases this
    · rename_i hlt
      unfold MMap.Sorted
      rw [List.pairwise_cons]
      refine ⟨?_, mmInsert_sorted h.2⟩
      intro e he
      rcases mmInsert_mem he with rfl | he
      · simpa using hlt
      · exact h.1 e he

theorem probeParamsLoop_sorted : ∀ (n : Nat) (es : List Block), es.length ≤ n → ∀ {acc m : MMap}, acc.Sorted → probeParamsLoop acc es = .ok m → m.Sorted := by
  intro n
  induction n with
  | zero =>
    intro es hl acc m ha h
    have : es = [] := List.eq_nil_of_length_eq_zero (by omega)
    subst this
    simp only [probeParamsLoop, Res.ok.injEq] at h
    exact h ▸ ha
  | succ n ih =>
    intro es hl acc m ha h
    unfold probeParamsLoop at h
    split at h
    · simp only [Res.ok.injEq] at h; exact h ▸ ha
    · split at h
      · cases h
      · simp only [Res.ok.injEq] at h; exact h ▸ ha
    · simp only [List.length_cons] at hl
      split at h
      · exact ih _ (by omega) (mmInsert_sorted ha) h
      · split at h
        · cases h
        · exact ih _ (by simp only [List.length_cons]; omega) ha h

/-- what the CA gets from a PROBE is sorted by key, as in any `std::multimap` -/
theorem probeParamsDecode_sorted {b : Block} {m : MMap} (h : probeParamsDecode b = .ok m) : m.Sorted := by
  unfold probeParamsDecode at h
  rw [Res.bind_eq_ok] at h
  obtain ⟨es, _, h⟩ := h
  exact probeParamsLoop_sorted _ es (Nat.le_refl _) List.Pairwise.nil h

theorem mmFind_some {m : MMap} {k v : Bytes} : mmFind m k = some v ↔ FirstValue m k v := by
  unfold mmFind FirstValue
  rw [Option.map_eq_some_iff]
  constructor
  · rintro ⟨⟨a, b⟩, h, rfl⟩
    rw [List.find?_eq_some_iff_append] at h
    obtain ⟨h1, as, bs, h2, h3⟩ := h
    simp only [beq_iff_eq] at h1
    subst h1
    exact ⟨as, bs, h2, fun e he => by simpa using h3 e he⟩
  · rintro ⟨pre, post, rfl, h⟩
    refine ⟨(k, v), ?_, rfl⟩
    rw [List.find?_eq_some_iff_append]
    exact ⟨by simp, pre, post, rfl, fun e he => by simpa using h e he⟩

theorem mmFind_none {m : MMap} {k : Bytes} : mmFind m k = none ↔ ∀ v, ¬ FirstValue m k v := by
  constructor
  · intro h v hv
    rw [mmFind_some.mpr hv] at h; cases h
  · intro h
    cases hf : mmFind m k with
    | none => rfl
    | some v => exact absurd (mmFind_some.mp hf) (h v)

theorem literal_iff {item : Bytes} : (2 ≤ item.length ∧ item.head? = some 34 ∧ item.getLast? = some 34) ↔ ∃ w, Literal item w := by
  constructor
  · rintro ⟨h1, h2, h3⟩
    cases item with
    | nil => cases h2
    | cons a t =>
      simp only [List.head?_cons, Option.some.injEq] at h2
      subst h2
      rcases List.eq_nil_or_concat t with rfl | ⟨w, b, rfl⟩
      · simp at h1
      · rw [List.concat_eq_append] at h3 ⊢
        rw [← List.cons_append, List.getLast?_concat, Option.some.injEq] at h3
        subst h3
        exact ⟨w, rfl⟩
  · rintro ⟨w, rfl⟩
    refine ⟨by simp, rfl, ?_⟩
    rw [← List.cons_append, List.getLast?_concat]

theorem literal_content {item w : Bytes} (h : Literal item w) : (item.drop 1).take (item.length - 2) = w := by
  unfold Literal at h
  rw [h]
  simp

/-! ## The domain loop of the email assignment -/

theorem splitAll_snoc {sep : UInt8} : ∀ (s l : Bytes), sep ∉ l → splitAll sep (s ++ sep :: l) = splitAll sep s ++ [l]
  | [], l, h => by
    have := splitAll_append (sep := sep) (p := []) l (by simp)
    rw [this, splitAll_plain h]; rfl
  | b :: s, l, h => by
    rw [List.cons_append, splitAll, splitAll, splitAll_snoc s l h]
    cases hs : splitAll sep s with
    | nil => exact absurd hs (splitAll_ne_nil _ _)
    | cons p ps =>
      split
      · rfl
      · rfl

theorem emailLoop_eq : ∀ (n : Nat) (before : Bytes) (fmt : List Bytes) (acc : Name), before.length < n →
    emailLoop n (46 :: before) fmt acc =
      acc ++ (dropLabels fmt (splitAll 46 before).reverse).map (fun l => gcomp (cstr l))
  | 0, before, fmt, acc, h => by omega
  | n + 1, before, fmt, acc, h => by
    unfold emailLoop
    cases hs : splitLast 46 before with
    | none =>
      have hnot := splitLast_none.mp hs
      have h1 : splitLast 46 (46 :: before) = some ([], before) := splitLast_some.mpr ⟨rfl, hnot⟩
      rw [h1]
      dsimp only
      rw [splitAll_plain hnot]
      have hend : ∀ fmt acc, emailLoop n [] fmt acc = acc := by
        intro fmt acc; cases n <;> rfl
      cases fmt with
      | nil => simp only [hend]; rfl
      | cons f fs =>
        simp only [List.reverse_cons, List.reverse_nil, List.nil_append, dropLabels]
        split
        · rw [hend]; cases fs <;> simp
        · rw [hend]; simp
    | some p =>
      obtain ⟨b', l⟩ := p
      obtain ⟨h2, h3⟩ := splitLast_some.mp hs
      have h1 : splitLast 46 (46 :: before) = some (46 :: b', l) := splitLast_some.mpr ⟨by rw [h2]; rfl, h3⟩
      rw [h1]
      dsimp only
      have hlen : b'.length < n := by rw [h2] at h; simp only [List.length_append, List.length_cons] at h; omega
      rw [h2, splitAll_snoc _ _ h3, List.reverse_append, List.reverse_singleton, List.singleton_append]
      cases fmt with
      | nil =>
        dsimp only
        rw [emailLoop_eq n b' [] _ hlen]
        have hd : ∀ ls, dropLabels [] ls = ls := by intro ls; cases ls <;> rfl
        rw [hd, hd]
        simp
      | cons f fs =>
        simp only [dropLabels]
        split
        · rw [emailLoop_eq n b' fs _ hlen]
        · rw [emailLoop_eq n b' (f :: fs) _ hlen]; simp

end Ndncert
