import Verif.Lemmas.JsonText

/-! # The bound on the recursion of the JSON reader is never met -/

namespace Ndncert

theorem jsonSkip_le (s : Bytes) : (jsonSkip s).length ≤ s.length := by
  unfold jsonSkip
  exact (List.dropWhile_sublist _).length_le

theorem jsonSkip_cons {s s' : Bytes} {c : UInt8} (h : jsonSkip s = c :: s') : s'.length < s.length := by
  have := jsonSkip_le s
  rw [h, List.length_cons] at this
  omega

theorem hexQuad_le {s : Bytes} {x : Nat × Bytes} (h : jsonHexQuad s = some x) : x.2.length ≤ s.length := by
  unfold jsonHexQuad at h
  split at h
  · simp only [Option.bind_eq_bind, Option.bind_eq_some_iff, Option.some.injEq] at h
    obtain ⟨_, _, _, _, _, _, _, _, rfl⟩ := h
    simp only [List.length_cons]
    omega
  · cases h

theorem codepoint_le {s : Bytes} {x : Bytes × Bytes} (h : jsonCodepoint s = some x) : x.2.length ≤ s.length := by
  unfold jsonCodepoint at h
  simp only [Option.bind_eq_bind, Option.bind_eq_some_iff] at h
  obtain ⟨⟨u, s1⟩, h1, h⟩ := h
  have l1 := hexQuad_le h1
  dsimp only at h l1
  split at h
  · cases h
  · split at h
    · split at h
      · simp only [Option.bind_eq_bind, Option.bind_eq_some_iff] at h
        obtain ⟨⟨v, s2⟩, h2, h⟩ := h
        have l2 := hexQuad_le h2
        simp only [List.length_cons] at l1 l2
        dsimp only at h l2
        by_cases hv : 0xDC00 ≤ v ∧ v ≤ 0xDFFF
        · rw [if_pos hv, Option.some.injEq] at h
          rw [← h]
          show s2.length ≤ _
          omega
        · rw [if_neg hv] at h
          cases h
      · cases h
    · cases h
      exact l1

theorem unescape_le {s : Bytes} {x : Bytes × Bytes} (h : jsonUnescape s = some x) : x.2.length ≤ s.length := by
  unfold jsonUnescape at h
  split at h
  case h_9 => exact Nat.le_trans (codepoint_le h) (by simp only [List.length_cons]; omega)
  case h_10 => cases h
  all_goals
    cases h
    simp only [List.length_cons]
    omega

theorem utf8Rest_le (n : Nat) : ∀ {s : Bytes} {x : Bytes × Bytes}, utf8Rest n s = some x → x.2.length ≤ s.length := by
  induction n with
  | zero =>
    intro s x h
    unfold utf8Rest at h
    cases h
    exact Nat.le_refl _
  | succ n ih =>
    intro s x h
    cases s with
    | nil => exact absurd h (by unfold utf8Rest; exact fun e => by cases e)
    | cons b s =>
      unfold utf8Rest at h
      split at h
      · rw [Option.map_eq_some_iff] at h
        obtain ⟨y, hy, rfl⟩ := h
        have := ih hy
        simp only [List.length_cons]
        omega
      · cases h

theorem jsonChar_le {s : Bytes} {x : Bytes × Bytes} (h : jsonChar s = some x) : x.2.length < s.length := by
  cases s with
  | nil => cases h
  | cons b s =>
    rw [jsonChar] at h
    rw [List.length_cons]
    split at h
    · exact Nat.lt_succ_of_le (unescape_le h)
    · rw [Option.bind_eq_some_iff] at h
      obtain ⟨n, -, h⟩ := h
      rw [Option.map_eq_some_iff] at h
      obtain ⟨y, hy, rfl⟩ := h
      have := utf8Rest_le n hy
      show y.2.length < s.length + 1
      omega

theorem jsonChars_le (fuel : Nat) : ∀ {s : Bytes} {x : Bytes × Bytes}, jsonChars fuel s = some x → x.2.length < s.length := by
  induction fuel with
  | zero =>
    intro s x h
    unfold jsonChars at h
    split at h
    · cases h
      simp
    · cases h
    · rename_i h0 _
      cases h0
  | succ n ih =>
    intro s x h
    cases s with
    | nil => cases h
    | cons c s =>
      by_cases hc : c = 34
      · subst hc
        cases h
        simp
      · rw [jsonChars_succ _ _ _ hc] at h
        simp only [Option.bind_eq_some_iff, Option.map_eq_some_iff] at h
        obtain ⟨a, ha, b, hb, rfl⟩ := h
        have := jsonChar_le ha
        have := ih hb
        dsimp only
        omega

/-- more fuel than octets changes nothing -/
theorem jsonChars_fuel (n : Nat) : ∀ (s : Bytes) (f : Nat), s.length ≤ n → s.length ≤ f → jsonChars f s = jsonChars s.length s := by
  induction n with
  | zero =>
    intro s f hn hf
    cases s with
    | cons _ _ => simp at hn
    | nil =>
      cases f with
      | zero => rfl
      | succ f => rfl
  | succ n ih =>
    intro s f hn hf
    cases s with
    | nil =>
      cases f with
      | zero => rfl
      | succ f => rfl
    | cons c s =>
      rw [List.length_cons] at hn hf ⊢
      obtain ⟨f, rfl⟩ : ∃ f', f = f' + 1 := ⟨f - 1, by omega⟩
      by_cases hc : c = 34
      · subst hc
        rfl
      · rw [jsonChars_succ _ _ _ hc, jsonChars_succ _ _ _ hc]
        cases h : jsonChar (c :: s) with
        | none => rfl
        | some x =>
          have := jsonChar_le h
          rw [List.length_cons] at this
          simp only [Option.bind_some]
          rw [ih x.2 f (by omega) (by omega), ih x.2 s.length (by omega) (by omega)]

theorem parseString_le {s : Bytes} {x : Bytes × Bytes} (h : jsonParseString s = some (some x)) : x.2.length < s.length := by
  unfold jsonParseString at h
  split at h
  · rename_i s' hs
    have := jsonSkip_cons hs
    rw [Option.some.injEq] at h
    have := jsonChars_le _ h
    omega
  · cases h

theorem isPrefixOf_length {p s : Bytes} (h : p.isPrefixOf s = true) : p.length ≤ s.length := by
  rw [List.isPrefixOf_iff_prefix] at h
  exact h.length_le

theorem parseWord_le {s : Bytes} {x : Bytes × Bytes} (h : jsonParseWord s = some x) : x.2.length < s.length := by
  unfold jsonParseWord at h
  split at h
  · rename_i hp
    have := isPrefixOf_length hp
    have e : (bytes! "true").length = 4 := by decide
    cases h
    simp only [List.length_drop]
    omega
  · split at h
    · rename_i hp
      have := isPrefixOf_length hp
      have e : (bytes! "false").length = 5 := by decide
      cases h
      simp only [List.length_drop]
      omega
    · split at h
      · rename_i hp
        have := isPrefixOf_length hp
        have e : (bytes! "null").length = 4 := by decide
        cases h
        simp only [List.length_drop]
        omega
      · cases h

theorem dropWhile_le (p : UInt8 → Bool) (s : Bytes) : (s.dropWhile p).length ≤ s.length := (List.dropWhile_sublist _).length_le

theorem minus_le (s : Bytes) : (jsonMinus s).2.length ≤ s.length := by
  unfold jsonMinus
  split
  · simp
  · exact Nat.le_refl _

theorem int_le {s : Bytes} {x : Bytes × Bytes} (h : jsonInt s = some x) : x.2.length < s.length := by
  unfold jsonInt at h
  split at h
  · cases h
    simp
  · split at h
    · cases h
      have := dropWhile_le jsonIsDigit ‹_›
      simp only [List.length_cons]
      omega
    · cases h
  · cases h

theorem frac_le {s : Bytes} {x : Bytes × Bytes} (h : jsonFrac s = some x) : x.2.length ≤ s.length := by
  unfold jsonFrac at h
  split at h
  · split at h
    · cases h
    · cases h
      have := dropWhile_le jsonIsDigit ‹_›
      simp only [List.length_cons]
      omega
  · cases h
    exact Nat.le_refl _

theorem sign_le (s : Bytes) : (jsonSign s).2.length ≤ s.length := by
  unfold jsonSign
  split
  · exact Nat.le_refl _
  · split
    · simp
    · exact Nat.le_refl _

theorem exp_le {s : Bytes} {x : Bytes × Bytes} (h : jsonExp s = some x) : x.2.length ≤ s.length := by
  unfold jsonExp at h
  split at h
  · cases h
    exact Nat.le_refl _
  · rename_i b s
    split at h
    · split at h
      · cases h
      · cases h
        have h1 := dropWhile_le jsonIsDigit (jsonSign s).2
        have h2 := sign_le s
        simp only [List.length_cons]
        omega
    · cases h
      exact Nat.le_refl _

theorem parseNumber_le {s : Bytes} {x : Bytes × Bytes} (h : jsonParseNumber s = some (some x)) : x.2.length < s.length := by
  unfold jsonParseNumber at h
  have l1 := minus_le s
  split at h
  · split at h <;> cases h
  · rename_i int s2 h2
    have l2 := int_le h2
    split at h
    · cases h
    · rename_i frac s3 h3
      have l3 := frac_le h3
      split at h
      · cases h
      · rename_i exp s4 h4
        have l4 := exp_le h4
        cases h
        dsimp only at l2 l3 l4 ⊢
        omega

/-- every value, list of members and list of elements takes an octet -/
theorem value_le (fuel : Nat) :
    (∀ (s : Bytes) (x : PTree × Bytes), jsonValue fuel s = some x → x.2.length < s.length) ∧
    (∀ (s : Bytes) (x : List (Bytes × PTree) × Bytes), jsonParseMembers fuel s = some x → x.2.length < s.length) ∧
    (∀ (s : Bytes) (x : List (Bytes × PTree) × Bytes), jsonParseElements fuel s = some x → x.2.length < s.length) := by
  induction fuel with
  | zero =>
    refine ⟨?_, ?_, ?_⟩
    · intro s x h
      rw [jsonValue] at h
      cases h
    · intro s x h
      rw [jsonParseMembers] at h
      cases h
    · intro s x h
      rw [jsonParseElements] at h
      cases h
  | succ fuel ih =>
    obtain ⟨ihv, ihm, ihe⟩ := ih
    refine ⟨?_, ?_, ?_⟩
    · intro s x h
      rw [jsonValue] at h
      have ls := jsonSkip_le s
      split at h
      · rename_i s1 h1
        have l1 := jsonSkip_cons h1
        split at h
        · rename_i s2 h2
          have l2 := jsonSkip_cons h2
          cases h
          dsimp only
          omega
        · have l2 := jsonSkip_le s1
          rw [Option.map_eq_some_iff] at h
          obtain ⟨y, hy, rfl⟩ := h
          have := ihm _ _ hy
          dsimp only
          omega
      · rename_i s1 h1
        have l1 := jsonSkip_cons h1
        split at h
        · rename_i s2 h2
          have l2 := jsonSkip_cons h2
          cases h
          dsimp only
          omega
        · have l2 := jsonSkip_le s1
          rw [Option.map_eq_some_iff] at h
          obtain ⟨y, hy, rfl⟩ := h
          have := ihe _ _ hy
          dsimp only
          omega
      · split at h
        · rename_i r hr
          rw [Option.map_eq_some_iff] at h
          obtain ⟨y, rfl, rfl⟩ := h
          have := parseString_le hr
          dsimp only
          omega
        · split at h
          · rename_i y hy
            cases h
            have := parseWord_le hy
            dsimp only
            omega
          · split at h
            · rename_i r hr
              rw [Option.map_eq_some_iff] at h
              obtain ⟨y, rfl, rfl⟩ := h
              have := parseNumber_le hr
              dsimp only
              omega
            · cases h
    · intro s x h
      rw [jsonParseMembers] at h
      split at h
      · rename_i key s1 h1
        have l1 := parseString_le h1
        split at h
        · rename_i s2 h2
          have l2 := jsonSkip_cons h2
          split at h
          · cases h
          · rename_i v s3 h3
            have l3 := ihv _ _ h3
            dsimp only at l1 l3
            split at h
            · rename_i s4 h4
              have l4 := jsonSkip_cons h4
              rw [Option.map_eq_some_iff] at h
              obtain ⟨y, hy, rfl⟩ := h
              have := ihm _ _ hy
              dsimp only
              omega
            · rename_i s4 h4
              have l4 := jsonSkip_cons h4
              cases h
              dsimp only
              omega
            · cases h
        · cases h
      · cases h
    · intro s x h
      rw [jsonParseElements] at h
      split at h
      · cases h
      · rename_i v s3 h3
        have l3 := ihv _ _ h3
        dsimp only at l3
        split at h
        · rename_i s4 h4
          have l4 := jsonSkip_cons h4
          rw [Option.map_eq_some_iff] at h
          obtain ⟨y, hy, rfl⟩ := h
          have := ihe _ _ hy
          dsimp only
          omega
        · rename_i s4 h4
          have l4 := jsonSkip_cons h4
          cases h
          dsimp only
          omega
        · cases h

/-- with enough fuel the result does not depend on it -/
theorem value_fuel (n : Nat) : ∀ s : Bytes, s.length ≤ n →
    (∀ f g, 2 * s.length + 1 ≤ f → 2 * s.length + 1 ≤ g → jsonValue f s = jsonValue g s) ∧
    (∀ f g, 2 * s.length + 2 ≤ f → 2 * s.length + 2 ≤ g → jsonParseMembers f s = jsonParseMembers g s) ∧
    (∀ f g, 2 * s.length + 2 ≤ f → 2 * s.length + 2 ≤ g → jsonParseElements f s = jsonParseElements g s) := by
  induction n using Nat.strongRecOn with
  | ind n ih =>
    intro s hs
    have hv : ∀ f g, 2 * s.length + 1 ≤ f → 2 * s.length + 1 ≤ g → jsonValue f s = jsonValue g s := by
      intro f g hf hg
      obtain ⟨f, rfl⟩ : ∃ f', f = f' + 1 := ⟨f - 1, by omega⟩
      obtain ⟨g, rfl⟩ : ∃ g', g = g' + 1 := ⟨g - 1, by omega⟩
      rw [jsonValue, jsonValue]
      split
      · rename_i s1 h1
        have l1 := jsonSkip_cons h1
        have l2 := jsonSkip_le s1
        split
        · rfl
        · rw [(ih (jsonSkip s1).length (by omega) _ (Nat.le_refl _)).2.1 f g (by omega) (by omega)]
      · rename_i s1 h1
        have l1 := jsonSkip_cons h1
        have l2 := jsonSkip_le s1
        split
        · rfl
        · rw [(ih (jsonSkip s1).length (by omega) _ (Nat.le_refl _)).2.2 f g (by omega) (by omega)]
      · rfl
    refine ⟨hv, ?_, ?_⟩
    · intro f g hf hg
      obtain ⟨f, rfl⟩ : ∃ f', f = f' + 1 := ⟨f - 1, by omega⟩
      obtain ⟨g, rfl⟩ : ∃ g', g = g' + 1 := ⟨g - 1, by omega⟩
      rw [jsonParseMembers, jsonParseMembers]
      split
      · rename_i key s1 h1
        have l1 := parseString_le h1
        dsimp only at l1
        split
        · rename_i s2 h2
          have l2 := jsonSkip_cons h2
          rw [(ih s2.length (by omega) _ (Nat.le_refl _)).1 f g (by omega) (by omega)]
          split
          · rfl
          · rename_i v s3 h3
            have l3 := (value_le g).1 _ _ h3
            dsimp only at l3
            split
            · rename_i s4 h4
              have l4 := jsonSkip_cons h4
              rw [(ih s4.length (by omega) _ (Nat.le_refl _)).2.1 f g (by omega) (by omega)]
            · rfl
            · rfl
        · rfl
      · rfl
    · intro f g hf hg
      obtain ⟨f, rfl⟩ : ∃ f', f = f' + 1 := ⟨f - 1, by omega⟩
      obtain ⟨g, rfl⟩ : ∃ g', g = g' + 1 := ⟨g - 1, by omega⟩
      rw [jsonParseElements, jsonParseElements, hv f g (by omega) (by omega)]
      split
      · rfl
      · rename_i v s3 h3
        have l3 := (value_le g).1 _ _ h3
        dsimp only at l3
        split
        · rename_i s4 h4
          have l4 := jsonSkip_cons h4
          rw [(ih s4.length (by omega) _ (Nat.le_refl _)).2.2 f g (by omega) (by omega)]
        · rfl
        · rfl

/-- the bound in `readJsonText` is never met: any larger one gives the same result -/
theorem jsonValue_fuel (s : Bytes) (f : Nat) (h : 2 * s.length + 1 ≤ f) : jsonValue f s = jsonValue (2 * s.length + 1) s :=
  (value_fuel s.length s (Nat.le_refl _)).1 f _ h (Nat.le_refl _)

end Ndncert
