import Verif.Spec.JsonText

/-! # Lemmas on JSON texts -/

namespace Ndncert

/-! ## Strings -/

/-- octets that continue a character -/
def isCont (b : UInt8) : Bool := 0x80 ≤ b && b < 0xC0

theorem isCont_iff (b : UInt8) : isCont b = true ↔ 0x80 ≤ b.toNat ∧ b.toNat < 0xC0 := by
  unfold isCont
  rw [Bool.and_eq_true, decide_eq_true_eq, decide_eq_true_eq]
  exact Iff.rfl

theorem utf8Trail_iff (b : UInt8) (n : Nat) : utf8Trail b = some n ↔
    (b.toNat < 0x80 ∧ n = 0 ∨ 0xC0 ≤ b.toNat ∧ b.toNat < 0xE0 ∧ n = 1 ∨ 0xE0 ≤ b.toNat ∧ b.toNat < 0xF0 ∧ n = 2 ∨
      0xF0 ≤ b.toNat ∧ b.toNat < 0xF8 ∧ n = 3) := by
  have e : ∀ c : UInt8, (b < c) ↔ b.toNat < c.toNat := fun c => Iff.rfl
  unfold utf8Trail
  simp only [e]
  simp only [show (0x80 : UInt8).toNat = 0x80 from rfl, show (0xC0 : UInt8).toNat = 0xC0 from rfl, show (0xE0 : UInt8).toNat = 0xE0 from rfl,
    show (0xF0 : UInt8).toNat = 0xF0 from rfl, show (0xF8 : UInt8).toNat = 0xF8 from rfl]
  split
  · rw [Option.some.injEq]; omega
  split
  · constructor
    · intro h; cases h
    · omega
  split
  · rw [Option.some.injEq]; omega
  split
  · rw [Option.some.injEq]; omega
  split
  · rw [Option.some.injEq]; omega
  · constructor
    · intro h; cases h
    · omega

theorem utf8_cons (b : UInt8) (s : Bytes) : Utf8 (b :: s) ↔
    ∃ n, utf8Trail b = some n ∧ n ≤ s.length ∧ (∀ x ∈ s.take n, isCont x = true) ∧ Utf8 (s.drop n) := by
  constructor
  · intro h
    generalize hl : b :: s = l at h
    cases h with
    | nil => cases hl
    | char c tail rest h1 h2 h3 =>
      cases hl
      refine ⟨tail.length, (utf8Trail_iff _ _).mpr h1, by simp, ?_, by simpa using h3⟩
      intro x hx
      rw [show List.append tail rest = tail ++ rest from rfl, List.take_left] at hx
      exact (isCont_iff x).mpr (h2 x hx)
  · rintro ⟨n, h1, h2, h3, h4⟩
    have := Utf8.char b (s.take n) (s.drop n) (by
      rw [List.length_take, Nat.min_eq_left h2]
      exact (utf8Trail_iff _ _).mp h1) (fun x hx => (isCont_iff x).mp (h3 x hx)) h4
    rwa [List.cons_append, List.take_append_drop] at this

/-- ASCII texts are UTF-8 -/
theorem utf8_ascii {s : Bytes} (h : ∀ b ∈ s, b.toNat < 128) : Utf8 s := by
  induction s with
  | nil => exact .nil
  | cons b s ih =>
    exact .char b [] s (.inl ⟨h b (List.mem_cons_self ..), rfl⟩) (by simp) (ih (fun x hx => h x (List.mem_cons_of_mem _ hx)))

theorem hexDigit_back (n : Nat) (h : n < 16) : jsonHexDigit (upperHexDigit n) = some n := by
  have : ∀ n : Fin 16, jsonHexDigit (upperHexDigit n) = some n.val := by decide +kernel
  exact this ⟨n, h⟩

/-- every octet stands for itself or has an escape sequence that is read back -/
theorem jsonEscape_cases (b : UInt8) :
    (jsonEscape b = [b] ∧ b ≠ 34 ∧ b ≠ 92) ∨
    (∃ e, jsonEscape b = 92 :: e ∧ b.toNat < 0x80 ∧ e ≠ [] ∧ (∀ s, jsonUnescape (e ++ s) = some ([b], s))) := by
  unfold jsonEscape
  split
  · next h =>
    refine .inl ⟨rfl, ?_, ?_⟩
    · rintro rfl; revert h; decide
    · rintro rfl; revert h; decide
  · next h =>
    right
    split
    · next e => rw [beq_iff_eq] at e; subst e; exact ⟨_, rfl, by decide, by simp, fun s => rfl⟩
    split
    · next e => rw [beq_iff_eq] at e; subst e; exact ⟨_, rfl, by decide, by simp, fun s => rfl⟩
    split
    · next e => rw [beq_iff_eq] at e; subst e; exact ⟨_, rfl, by decide, by simp, fun s => rfl⟩
    split
    · next e => rw [beq_iff_eq] at e; subst e; exact ⟨_, rfl, by decide, by simp, fun s => rfl⟩
    split
    · next e => rw [beq_iff_eq] at e; subst e; exact ⟨_, rfl, by decide, by simp, fun s => rfl⟩
    split
    · next e => rw [beq_iff_eq] at e; subst e; exact ⟨_, rfl, by decide, by simp, fun s => rfl⟩
    split
    · next e => rw [beq_iff_eq] at e; subst e; exact ⟨_, rfl, by decide, by simp, fun s => rfl⟩
    split
    · next e => rw [beq_iff_eq] at e; subst e; exact ⟨_, rfl, by decide, by simp, fun s => rfl⟩
    · have hlt : b.toNat < 0x80 := by
        refine Nat.lt_of_not_le (fun hc => h ?_)
        have : (0x5D : UInt8) ≤ b := Nat.le_trans (by decide) hc
        simp [this]
      refine ⟨_, rfl, hlt, by simp, fun s => ?_⟩
      show jsonCodepoint (48 :: 48 :: upperHexDigit (b.toNat / 16) :: upperHexDigit (b.toNat % 16) :: s) = _
      have hq : jsonHexQuad (48 :: 48 :: upperHexDigit (b.toNat / 16) :: upperHexDigit (b.toNat % 16) :: s) = some (b.toNat, s) := by
        unfold jsonHexQuad
        dsimp only
        rw [hexDigit_back _ (by omega), hexDigit_back _ (by omega)]
        show some (((0 * 16 + 0) * 16 + b.toNat / 16) * 16 + b.toNat % 16, s) = some (b.toNat, s)
        rw [show ((0 * 16 + 0) * 16 + b.toNat / 16) * 16 + b.toNat % 16 = b.toNat by omega]
      unfold jsonCodepoint
      rw [hq]
      show (if _ then _ else _) = _
      rw [if_neg (by omega), if_neg (by omega)]
      unfold utf8Octets
      rw [if_pos hlt]
      simp

/-- what an escaped text begins with -/
theorem escape_head (b : UInt8) : ∃ c e, jsonEscape b = c :: e ∧ c ≠ 34 ∧ (isCont c = isCont b) ∧ (isCont b = true → e = [] ∧ c = b) := by
  rcases jsonEscape_cases b with ⟨h1, h2, _⟩ | ⟨e, h1, h2, _⟩
  · exact ⟨b, [], h1, h2, rfl, fun _ => ⟨rfl, rfl⟩⟩
  · have hb : isCont b = false := by
      rw [← Bool.not_eq_true, isCont_iff]
      omega
    exact ⟨92, e, h1, by decide, by rw [hb]; decide, fun h => by rw [hb] at h; cases h⟩

/-- the octets that continue a character, read from an escaped text -/
theorem utf8Rest_escaped (n : Nat) (s rest : Bytes) : utf8Rest n (s.flatMap jsonEscape ++ 34 :: rest) =
    if n ≤ s.length ∧ ∀ x ∈ s.take n, isCont x = true then some (s.take n, (s.drop n).flatMap jsonEscape ++ 34 :: rest) else none := by
  induction n generalizing s with
  | zero =>
    rw [if_pos ⟨Nat.zero_le _, by simp⟩]
    rfl
  | succ n ih =>
    cases s with
    | nil =>
      rw [if_neg (by simp)]
      show (if _ then _ else none) = none
      rw [if_neg (by decide)]
    | cons b s =>
      obtain ⟨c, e, h1, h2, h3, h4⟩ := escape_head b
      rw [List.flatMap_cons, h1, List.cons_append, List.cons_append]
      show (if isCont c then (utf8Rest n _).map _ else none) = _
      by_cases hb : isCont b = true
      · obtain ⟨rfl, rfl⟩ := h4 hb
        rw [if_pos hb, List.nil_append, ih]
        by_cases hc : n ≤ s.length ∧ ∀ x ∈ s.take n, isCont x = true
        · rw [if_pos hc, if_pos]
          · rfl
          · refine ⟨by simp [hc.1], ?_⟩
            rw [List.take_succ_cons]
            intro x hx
            rcases List.mem_cons.mp hx with rfl | hx
            · exact hb
            · exact hc.2 x hx
        · rw [if_neg hc, if_neg]
          · rfl
          · rintro ⟨g1, g2⟩
            rw [List.take_succ_cons] at g2
            exact hc ⟨by simpa using g1, fun x hx => g2 x (List.mem_cons_of_mem _ hx)⟩
      · rw [h3, if_neg hb, if_neg]
        rintro ⟨_, g2⟩
        rw [List.take_succ_cons] at g2
        exact hb (g2 b (List.mem_cons_self ..))

theorem jsonChars_succ (fuel : Nat) (c : UInt8) (s : Bytes) (h : c ≠ 34) : jsonChars (fuel + 1) (c :: s) =
    (jsonChar (c :: s)).bind (fun x => (jsonChars fuel x.2).map (fun y => (x.1 ++ y.1, y.2))) := by
  rw [jsonChars]
  · cases jsonChar (c :: s) with
    | none => rfl
    | some x =>
      show (jsonChars fuel x.2).bind _ = (jsonChars fuel x.2).map _
      cases jsonChars fuel x.2 <;> rfl
  · intro s' he
    exact h (List.cons.inj he).1

open Classical in
/-- the characters of an escaped text up to the closing quote -/
theorem jsonChars_escaped (s rest : Bytes) (fuel : Nat) (hf : s.length ≤ fuel) :
    jsonChars fuel (s.flatMap jsonEscape ++ 34 :: rest) = if Utf8 s then some (s, rest) else none := by
  induction fuel generalizing s with
  | zero =>
    cases s with
    | nil => rw [if_pos .nil]; rfl
    | cons b s => simp at hf
  | succ fuel ih =>
    cases s with
    | nil => rw [if_pos .nil]; rfl
    | cons b s =>
      rw [List.length_cons] at hf
      rw [List.flatMap_cons, List.append_assoc]
      rcases jsonEscape_cases b with ⟨h1, h2, h3⟩ | ⟨e, h1, h2, _, h3⟩
      · rw [h1, List.singleton_append, jsonChars_succ _ _ _ h2]
        have hc : jsonChar (b :: (s.flatMap jsonEscape ++ 34 :: rest)) =
            (utf8Trail b).bind (fun n => (utf8Rest n (s.flatMap jsonEscape ++ 34 :: rest)).map (fun x => (b :: x.1, x.2))) := by
          unfold jsonChar
          exact if_neg (by simpa using h3)
        rw [hc]
        cases ht : utf8Trail b with
        | none =>
          rw [if_neg]
          · rfl
          · intro hu
            obtain ⟨n, hn, _⟩ := (utf8_cons b s).mp hu
            rw [ht] at hn
            cases hn
        | some n =>
          rw [Option.bind_some, utf8Rest_escaped]
          by_cases hcond : n ≤ s.length ∧ ∀ x ∈ s.take n, isCont x = true
          · rw [if_pos hcond]
            show ((jsonChars fuel ((s.drop n).flatMap jsonEscape ++ 34 :: rest)).map _) = _
            rw [ih _ (by rw [List.length_drop]; omega)]
            by_cases hu : Utf8 (s.drop n)
            · rw [if_pos hu, if_pos ((utf8_cons b s).mpr ⟨n, ht, hcond.1, hcond.2, hu⟩)]
              simp
            · rw [if_neg hu, if_neg]
              · rfl
              · intro h
                obtain ⟨m, hm, _, _, h4⟩ := (utf8_cons b s).mp h
                rw [ht] at hm
                cases hm
                exact hu h4
          · rw [if_neg hcond, if_neg]
            · rfl
            · intro h
              obtain ⟨m, hm, h5, h6, _⟩ := (utf8_cons b s).mp h
              rw [ht] at hm
              cases hm
              exact hcond ⟨h5, h6⟩
      · rw [h1, List.cons_append, jsonChars_succ _ _ _ (by decide)]
        have hc : jsonChar (92 :: (e ++ (s.flatMap jsonEscape ++ 34 :: rest))) = some ([b], s.flatMap jsonEscape ++ 34 :: rest) := h3 _
        rw [hc, Option.bind_some]
        dsimp only
        rw [ih s (by omega)]
        have ht : utf8Trail b = some 0 := (utf8Trail_iff _ _).mpr (.inl ⟨h2, rfl⟩)
        have hiff : Utf8 (b :: s) ↔ Utf8 s := by
          rw [utf8_cons]
          constructor
          · rintro ⟨n, hn, _, _, h⟩
            rw [ht] at hn
            cases hn
            exact h
          · exact fun h => ⟨0, ht, Nat.zero_le _, by simp, h⟩
        by_cases hu : Utf8 s
        · rw [if_pos hu, if_pos (hiff.mpr hu)]
          rfl
        · rw [if_neg hu, if_neg (fun h => hu (hiff.mp h))]
          rfl

theorem escaped_length (s : Bytes) : s.length ≤ (s.flatMap jsonEscape).length := by
  induction s with
  | nil => simp
  | cons b s ih =>
    obtain ⟨c, e, h, _⟩ := escape_head b
    rw [List.flatMap_cons, h, List.length_append]
    simp only [List.length_cons]
    omega

theorem jsonSkip_head {c : UInt8} (h : jsonIsWs c = false) (s : Bytes) : jsonSkip (c :: s) = c :: s := by
  unfold jsonSkip
  rw [List.dropWhile_cons_of_neg (by simp [h])]

theorem jsonSkip_all {w : Bytes} (h : ∀ b ∈ w, jsonIsWs b = true) (s : Bytes) : jsonSkip (w ++ s) = jsonSkip s := by
  unfold jsonSkip
  induction w with
  | nil => rfl
  | cons x w ih =>
    rw [List.cons_append, List.dropWhile_cons_of_pos (h x (List.mem_cons_self ..))]
    exact ih (fun b hb => h b (List.mem_cons_of_mem _ hb))

theorem indent_ws (n : Nat) : ∀ b ∈ jsonIndent n, jsonIsWs b = true := by
  intro b hb
  rw [(List.mem_replicate.mp hb).2]
  decide

open Classical in
theorem parseString_written (w : Bytes) (hw : ∀ b ∈ w, jsonIsWs b = true) (s rest : Bytes) :
    jsonParseString (w ++ (jsonString s ++ rest)) = some (if Utf8 s then some (s, rest) else none) := by
  unfold jsonParseString jsonString
  rw [jsonSkip_all hw, List.cons_append, List.cons_append, jsonSkip_head (by decide)]
  show some (jsonChars _ _) = _
  rw [List.append_assoc, List.singleton_append, jsonChars_escaped]
  rw [List.length_append]
  have := escaped_length s
  omega

/-! ## Trees -/

mutual
/-- nodes and keys -/
def PTree.weight : PTree → Nat
  | .node _ kids => 1 + kidsWeight kids
def kidsWeight : List (Bytes × PTree) → Nat
  | [] => 0
  | (_, v) :: es => 1 + v.weight + kidsWeight es
end

theorem node_head (depth : Nat) (t : PTree) : ∃ c s, jsonNode depth t = c :: s ∧ (c = 34 ∨ c = 91 ∨ c = 123) := by
  cases t with
  | node d ks =>
    unfold jsonNode
    split
    · exact ⟨34, _, rfl, .inl rfl⟩
    split
    · exact ⟨91, _, rfl, .inr (.inl rfl)⟩
    · exact ⟨123, _, rfl, .inr (.inr rfl)⟩

mutual
theorem node_weight (depth : Nat) : (t : PTree) → t.weight ≤ (jsonNode depth t).length
  | .node d ks => by
    have he := elements_weight depth ks
    have hm := members_weight depth ks
    unfold PTree.weight jsonNode
    split
    · next h =>
      cases ks with
      | nil => simp [kidsWeight, jsonString]
      | cons e es => simp at h
    split
    · simp only [List.length_append, List.length_cons]
      omega
    · simp only [List.length_append, List.length_cons]
      omega
theorem elements_weight (depth : Nat) : (ks : List (Bytes × PTree)) → kidsWeight ks ≤ (jsonElements depth ks).length
  | [] => by simp [kidsWeight]
  | (k, v) :: es => by
    have h1 := node_weight (depth + 1) v
    have h2 := elements_weight depth es
    unfold kidsWeight jsonElements
    simp only [List.length_append, List.length_cons]
    omega
theorem members_weight (depth : Nat) : (ks : List (Bytes × PTree)) → kidsWeight ks ≤ (jsonMembers depth ks).length
  | [] => by simp [kidsWeight]
  | (k, v) :: es => by
    have h1 := node_weight (depth + 1) v
    have h2 := members_weight depth es
    unfold kidsWeight jsonMembers
    simp only [List.length_append, List.length_cons]
    omega
end

/-- a value written as a string -/
theorem jsonValue_string {fuel : Nat} {s : Bytes} (h : ∃ s', jsonSkip s = 34 :: s') :
    jsonValue (fuel + 1) s = (jsonParseString s).bind (fun r => r.map (fun x => (.leaf x.1, x.2))) := by
  obtain ⟨s', h⟩ := h
  have h2 : jsonParseString (34 :: s') = some (jsonChars s'.length s') := by
    unfold jsonParseString
    rw [jsonSkip_head (by decide)]
    rfl
  have h3 : jsonParseString s = some (jsonChars s'.length s') := by
    unfold jsonParseString
    rw [h]
    rfl
  rw [jsonValue, h]
  show (match jsonParseString (34 :: s') with
    | some r => r.map (fun x : Bytes × Bytes => (PTree.leaf x.1, x.2))
    | none =>
      match jsonParseWord (34 :: s') with
      | some x => some (.leaf x.1, x.2)
      | none =>
        match jsonParseNumber (34 :: s') with
        | some r => r.map (fun x : Bytes × Bytes => (PTree.leaf x.1, x.2))
        | none => none) = _
  rw [h2, h3]
  rfl

/-- an object that is not empty -/
theorem jsonValue_object {fuel : Nat} {s s' : Bytes} (h : jsonSkip s = 123 :: s') {c : UInt8} {s'' : Bytes} (h2 : jsonSkip s' = c :: s'') (hc : c ≠ 125) :
    jsonValue (fuel + 1) s = (jsonParseMembers fuel (jsonSkip s')).map (fun x => (.node [] x.1, x.2)) := by
  rw [jsonValue, h]
  show (match jsonSkip s' with | 125 :: s => some (PTree.node [] [], s) | s => (jsonParseMembers fuel s).map (fun x : List (Bytes × PTree) × Bytes => (PTree.node [] x.1, x.2))) = _
  rw [h2]
  split
  · next he => exact absurd (List.cons.inj he).1 hc
  · rfl

/-- the empty object -/
theorem jsonValue_empty {fuel : Nat} {s s' s'' : Bytes} (h : jsonSkip s = 123 :: s') (h2 : jsonSkip s' = 125 :: s'') :
    jsonValue (fuel + 1) s = some (.node [] [], s'') := by
  rw [jsonValue, h]
  show (match jsonSkip s' with | 125 :: s => some (PTree.node [] [], s) | s => (jsonParseMembers fuel s).map (fun x : List (Bytes × PTree) × Bytes => (PTree.node [] x.1, x.2))) = _
  rw [h2]
  rfl

theorem elements_none {fuel : Nat} {s : Bytes} (h : jsonValue fuel s = none) : jsonParseElements (fuel + 1) s = none := by
  rw [jsonParseElements, h]

theorem elements_comma {fuel : Nat} {s s' s'' : Bytes} {v : PTree} (h : jsonValue fuel s = some (v, s')) (h2 : jsonSkip s' = 44 :: s'') :
    jsonParseElements (fuel + 1) s = (jsonParseElements fuel s'').map (fun x => (([], v) :: x.1, x.2)) := by
  rw [jsonParseElements, h]
  show (match jsonSkip s' with | 44 :: s => _ | 93 :: s => some (([([], v)], s) : List (Bytes × PTree) × Bytes) | _ => none) = _
  rw [h2]
  rfl

theorem elements_end {fuel : Nat} {s s' s'' : Bytes} {v : PTree} (h : jsonValue fuel s = some (v, s')) (h2 : jsonSkip s' = 93 :: s'') :
    jsonParseElements (fuel + 1) s = some ([([], v)], s'') := by
  rw [jsonParseElements, h]
  show (match jsonSkip s' with | 44 :: s => (jsonParseElements fuel s).map (fun x : List (Bytes × PTree) × Bytes => (([], v) :: x.1, x.2)) | 93 :: s => some (([([], v)], s) : List (Bytes × PTree) × Bytes) | _ => none) = _
  rw [h2]
  rfl

theorem members_key {fuel : Nat} {s s' s'' : Bytes} {k : Bytes} (h : jsonParseString s = some (some (k, s'))) (h2 : jsonSkip s' = 58 :: s'') :
    jsonParseMembers (fuel + 1) s = match jsonValue fuel s'' with
      | none => none
      | some (v, s) =>
        match jsonSkip s with
        | 44 :: s => (jsonParseMembers fuel s).map (fun x => ((k, v) :: x.1, x.2))
        | 125 :: s => some ([(k, v)], s)
        | _ => none := by
  rw [jsonParseMembers, h]
  show (match jsonSkip s' with | 58 :: s => _ | _ => none) = _
  rw [h2]
  rfl

theorem members_nokey {fuel : Nat} {s : Bytes} (h : jsonParseString s = some none) : jsonParseMembers (fuel + 1) s = none := by
  rw [jsonParseMembers, h]

theorem members_none {fuel : Nat} {s s' s'' : Bytes} {k : Bytes} (h : jsonParseString s = some (some (k, s'))) (h2 : jsonSkip s' = 58 :: s'')
    (h3 : jsonValue fuel s'' = none) : jsonParseMembers (fuel + 1) s = none := by
  rw [members_key h h2, h3]

theorem members_comma {fuel : Nat} {s s' s'' s3 s4 : Bytes} {k : Bytes} {v : PTree} (h : jsonParseString s = some (some (k, s'))) (h2 : jsonSkip s' = 58 :: s'')
    (h3 : jsonValue fuel s'' = some (v, s3)) (h4 : jsonSkip s3 = 44 :: s4) :
    jsonParseMembers (fuel + 1) s = (jsonParseMembers fuel s4).map (fun x => ((k, v) :: x.1, x.2)) := by
  rw [members_key h h2, h3]
  show (match jsonSkip s3 with | 44 :: s => _ | 125 :: s => some ([(k, v)], s) | _ => none) = _
  rw [h4]
  rfl

theorem members_end {fuel : Nat} {s s' s'' s3 s4 : Bytes} {k : Bytes} {v : PTree} (h : jsonParseString s = some (some (k, s'))) (h2 : jsonSkip s' = 58 :: s'')
    (h3 : jsonValue fuel s'' = some (v, s3)) (h4 : jsonSkip s3 = 125 :: s4) :
    jsonParseMembers (fuel + 1) s = some ([(k, v)], s4) := by
  rw [members_key h h2, h3]
  show (match jsonSkip s3 with | 44 :: s => (jsonParseMembers fuel s).map (fun x : List (Bytes × PTree) × Bytes => ((k, v) :: x.1, x.2)) | 125 :: s => some ([(k, v)], s) | _ => none) = _
  rw [h4]
  rfl

theorem jsonElements_cons (depth : Nat) (k : Bytes) (v : PTree) (es : List (Bytes × PTree)) : jsonElements depth ((k, v) :: es) =
    jsonIndent (depth + 1) ++ jsonNode (depth + 1) v ++ (if es.isEmpty then [] else [44]) ++ [10] ++ jsonElements depth es := by
  rw [jsonElements]

theorem jsonMembers_cons (depth : Nat) (k : Bytes) (v : PTree) (es : List (Bytes × PTree)) : jsonMembers depth ((k, v) :: es) =
    jsonIndent (depth + 1) ++ jsonString k ++ [58, 32] ++ jsonNode (depth + 1) v ++ (if es.isEmpty then [] else [44]) ++ [10] ++ jsonMembers depth es := by
  rw [jsonMembers]

/-- an array that is not empty -/
theorem jsonValue_array {fuel : Nat} {s s' : Bytes} (h : jsonSkip s = 91 :: s') {c : UInt8} {s'' : Bytes} (h2 : jsonSkip s' = c :: s'') (hc : c ≠ 93) :
    jsonValue (fuel + 1) s = (jsonParseElements fuel (jsonSkip s')).map (fun x => (.node [] x.1, x.2)) := by
  rw [jsonValue, h]
  show (match jsonSkip s' with | 93 :: s => some (PTree.node [] [], s) | s => (jsonParseElements fuel s).map (fun x : List (Bytes × PTree) × Bytes => (PTree.node [] x.1, x.2))) = _
  rw [h2]
  split
  · next he => exact absurd (List.cons.inj he).1 hc
  · rfl

open Classical in
mutual
theorem value_written : (t : PTree) → ∀ (depth fuel : Nat) (w rest : Bytes), t.weight ≤ fuel → t.Plain → (depth = 0 → t.data = []) →
    (∀ b ∈ w, jsonIsWs b = true) → jsonValue fuel (w ++ (jsonNode depth t ++ rest)) = if t.TextsUtf8 then some (t, rest) else none
  | .node d ks => by
    intro depth fuel w rest hf hp hd hw
    unfold PTree.weight at hf
    unfold PTree.Plain at hp
    unfold PTree.TextsUtf8
    cases fuel with
    | zero => omega
    | succ fuel =>
      unfold jsonNode
      by_cases h1 : depth > 0 ∧ ks.isEmpty
      · rw [if_pos h1]
        have hks : ks = [] := List.isEmpty_iff.mp h1.2
        subst hks
        have hs : ∃ s', jsonSkip (w ++ (jsonString d ++ rest)) = 34 :: s' := by
          rw [jsonSkip_all hw]
          unfold jsonString
          rw [List.cons_append, List.cons_append, jsonSkip_head (by decide)]
          exact ⟨_, rfl⟩
        rw [jsonValue_string hs, parseString_written w hw, Option.bind_some]
        by_cases hu : Utf8 d
        · rw [if_pos hu, if_pos ⟨hu, trivial⟩]
          rfl
        · rw [if_neg hu, if_neg (fun h => hu h.1)]
          rfl
      · rw [if_neg h1]
        by_cases hks : ks = []
        · subst hks
          have hz : depth = 0 := by
            refine Decidable.byContradiction (fun hne => h1 ⟨by omega, rfl⟩)
          subst hz
          rw [if_neg (by simp)]
          cases hd rfl
          have : jsonSkip (w ++ (123 :: 10 :: jsonMembers 0 [] ++ jsonIndent 0 ++ [125] ++ rest)) = 123 :: 10 :: 125 :: rest := by
            rw [jsonSkip_all hw]
            exact jsonSkip_head (by decide) _
          rw [jsonValue_empty this (show jsonSkip (10 :: 125 :: rest) = 125 :: rest from by
            rw [show (10 :: 125 :: rest : Bytes) = [10] ++ 125 :: rest from rfl, jsonSkip_all (by decide), jsonSkip_head (by decide)])]
          rw [if_pos ⟨.nil, trivial⟩]
        · have hdn : d = [] := hp.1.resolve_right hks
          subst hdn
          have hrE := elements_written ks depth fuel [] (jsonIndent depth) rest (by omega) hp.2 hks
          have hrM := members_written ks depth fuel [] (jsonIndent depth) rest (by omega) hp.2 hks
          by_cases h2 : depth > 0 ∧ ks.all (fun e => e.1.isEmpty)
          · rw [if_pos h2]
            obtain ⟨e, es, rfl⟩ := List.exists_cons_of_ne_nil hks
            obtain ⟨k, v⟩ := e
            have hkeys : ∀ e ∈ (k, v) :: es, e.1 = [] := by
              intro e he
              exact List.isEmpty_iff.mp (List.all_eq_true.mp h2.2 e he)
            obtain ⟨c, s, hc, hcc⟩ := node_head (depth + 1) v
            have hcw : jsonIsWs c = false := by rcases hcc with rfl | rfl | rfl <;> decide
            have hc93 : c ≠ 93 := by rcases hcc with rfl | rfl | rfl <;> decide
            have hs1 : jsonSkip (w ++ (91 :: 10 :: jsonElements depth ((k, v) :: es) ++ jsonIndent depth ++ [93] ++ rest)) =
                91 :: ([10] ++ (jsonElements depth ((k, v) :: es) ++ (jsonIndent depth ++ 93 :: rest))) := by
              rw [jsonSkip_all hw]
              simp only [List.cons_append, List.append_assoc, List.nil_append]
              exact jsonSkip_head (by decide) _
            have hs2 : ∃ s'', jsonSkip ([10] ++ (jsonElements depth ((k, v) :: es) ++ (jsonIndent depth ++ 93 :: rest))) = c :: s'' := by
              rw [jsonSkip_all (by decide)]
              rw [jsonElements_cons]
              simp only [List.append_assoc]
              rw [jsonSkip_all (indent_ws _), hc, List.cons_append, jsonSkip_head hcw]
              exact ⟨_, rfl⟩
            obtain ⟨s'', hs2⟩ := hs2
            rw [jsonValue_array hs1 hs2 hc93, jsonSkip_all (by decide)]
            have hsk : jsonParseElements fuel (jsonSkip (jsonElements depth ((k, v) :: es) ++ (jsonIndent depth ++ 93 :: rest))) =
                if kidsUtf8 ((k, v) :: es) then some ((k, v) :: es, rest) else none := by
              exact hrE hkeys (by simp) (indent_ws _) true
            rw [hsk]
            by_cases hu : kidsUtf8 ((k, v) :: es)
            · rw [if_pos hu, if_pos ⟨.nil, hu⟩]
              rfl
            · rw [if_neg hu, if_neg (fun h => hu h.2)]
              rfl
          · rw [if_neg h2]
            obtain ⟨e, es, rfl⟩ := List.exists_cons_of_ne_nil hks
            obtain ⟨k, v⟩ := e
            have hs1 : jsonSkip (w ++ (123 :: 10 :: jsonMembers depth ((k, v) :: es) ++ jsonIndent depth ++ [125] ++ rest)) =
                123 :: ([10] ++ (jsonMembers depth ((k, v) :: es) ++ (jsonIndent depth ++ 125 :: rest))) := by
              rw [jsonSkip_all hw]
              simp only [List.cons_append, List.append_assoc, List.nil_append]
              exact jsonSkip_head (by decide) _
            have hs2 : ∃ s'', jsonSkip ([10] ++ (jsonMembers depth ((k, v) :: es) ++ (jsonIndent depth ++ 125 :: rest))) = 34 :: s'' := by
              rw [jsonSkip_all (by decide)]
              rw [jsonMembers_cons]
              simp only [List.append_assoc]
              rw [jsonSkip_all (indent_ws _)]
              unfold jsonString
              rw [List.cons_append, List.cons_append, jsonSkip_head (by decide)]
              exact ⟨_, rfl⟩
            obtain ⟨s'', hs2⟩ := hs2
            rw [jsonValue_object hs1 hs2 (by decide), jsonSkip_all (by decide)]
            have hsk : jsonParseMembers fuel (jsonSkip (jsonMembers depth ((k, v) :: es) ++ (jsonIndent depth ++ 125 :: rest))) =
                if kidsUtf8 ((k, v) :: es) then some ((k, v) :: es, rest) else none := by
              exact hrM (by simp) (indent_ws _) true
            rw [hsk]
            by_cases hu : kidsUtf8 ((k, v) :: es)
            · rw [if_pos hu, if_pos ⟨.nil, hu⟩]
              rfl
            · rw [if_neg hu, if_neg (fun h => hu h.2)]
              rfl
/-- `skip`: the white space in front has been skipped already -/
theorem elements_written : (ks : List (Bytes × PTree)) → ∀ (depth fuel : Nat) (w w2 rest : Bytes), kidsWeight ks ≤ fuel → kidsPlain ks → ks ≠ [] →
    (∀ e ∈ ks, e.1 = []) → (∀ b ∈ w, jsonIsWs b = true) → (∀ b ∈ w2, jsonIsWs b = true) → ∀ skip : Bool,
    jsonParseElements fuel (if skip then jsonSkip (w ++ (jsonElements depth ks ++ (w2 ++ 93 :: rest))) else w ++ (jsonElements depth ks ++ (w2 ++ 93 :: rest))) =
      if kidsUtf8 ks then some (ks, rest) else none
  | [] => fun _ _ _ _ _ _ _ h => absurd rfl h
  | (k, v) :: es => by
    intro depth fuel w w2 rest hf hp _ hk hw hw2 skip
    cases hk (k, v) (List.mem_cons_self ..)
    unfold kidsWeight at hf
    unfold kidsPlain at hp
    unfold kidsUtf8
    cases fuel with
    | zero => omega
    | succ fuel =>
      obtain ⟨c, s, hc, hcc⟩ := node_head (depth + 1) v
      have hcw : jsonIsWs c = false := by rcases hcc with rfl | rfl | rfl <;> decide
      have hform : ∃ w', (∀ b ∈ w', jsonIsWs b = true) ∧
          (if skip then jsonSkip (w ++ (jsonElements depth (([], v) :: es) ++ (w2 ++ 93 :: rest))) else w ++ (jsonElements depth (([], v) :: es) ++ (w2 ++ 93 :: rest))) =
          w' ++ (jsonNode (depth + 1) v ++ ((if es.isEmpty then [] else [44]) ++ ([10] ++ (jsonElements depth es ++ (w2 ++ 93 :: rest))))) := by
        rw [jsonElements_cons]
        cases skip
        · refine ⟨w ++ jsonIndent (depth + 1), ?_, ?_⟩
          · intro b hb
            rcases List.mem_append.mp hb with hb | hb
            · exact hw b hb
            · exact indent_ws _ b hb
          · simp only [Bool.false_eq_true, if_false, List.append_assoc]
        · refine ⟨[], by simp, ?_⟩
          simp only [if_true, List.append_assoc, List.nil_append]
          rw [jsonSkip_all hw, jsonSkip_all (indent_ws _), hc, List.cons_append, jsonSkip_head hcw]
      obtain ⟨w', hw', hform⟩ := hform
      rw [hform]
      have hv := value_written v (depth + 1) fuel w' ((if es.isEmpty then [] else [44]) ++ ([10] ++ (jsonElements depth es ++ (w2 ++ 93 :: rest)))) (by omega)
        hp.1 (by omega) hw'
      have hr := elements_written es depth fuel [10] w2 rest (by omega) hp.2
      by_cases hu : v.TextsUtf8
      · rw [if_pos hu] at hv
        cases es with
        | nil =>
          have : jsonSkip ((if ([] : List (Bytes × PTree)).isEmpty then [] else [44]) ++ ([10] ++ (jsonElements depth [] ++ (w2 ++ 93 :: rest)))) = 93 :: rest := by
            show jsonSkip ([10] ++ (w2 ++ 93 :: rest)) = _
            rw [jsonSkip_all (by decide), jsonSkip_all hw2, jsonSkip_head (by decide)]
          rw [elements_end hv this, if_pos ⟨.nil, hu, trivial⟩]
        | cons e es =>
          have : jsonSkip ((if (e :: es).isEmpty then [] else [44]) ++ ([10] ++ (jsonElements depth (e :: es) ++ (w2 ++ 93 :: rest)))) =
              44 :: ([10] ++ (jsonElements depth (e :: es) ++ (w2 ++ 93 :: rest))) := by
            exact jsonSkip_head (by decide) _
          have hr := hr (by simp) (fun x hx => hk x (List.mem_cons_of_mem _ hx)) (by decide) hw2 false
          simp only [Bool.false_eq_true, if_false] at hr
          rw [elements_comma hv this, hr]
          by_cases hus : kidsUtf8 (e :: es)
          · rw [if_pos hus, if_pos ⟨.nil, hu, hus⟩]
            rfl
          · rw [if_neg hus, if_neg (fun h => hus h.2.2)]
            rfl
      · rw [if_neg hu] at hv
        rw [elements_none hv, if_neg (fun h => hu h.2.1)]
theorem members_written : (ks : List (Bytes × PTree)) → ∀ (depth fuel : Nat) (w w2 rest : Bytes), kidsWeight ks ≤ fuel → kidsPlain ks → ks ≠ [] →
    (∀ b ∈ w, jsonIsWs b = true) → (∀ b ∈ w2, jsonIsWs b = true) → ∀ skip : Bool,
    jsonParseMembers fuel (if skip then jsonSkip (w ++ (jsonMembers depth ks ++ (w2 ++ 125 :: rest))) else w ++ (jsonMembers depth ks ++ (w2 ++ 125 :: rest))) =
      if kidsUtf8 ks then some (ks, rest) else none
  | [] => fun _ _ _ _ _ _ _ h => absurd rfl h
  | (k, v) :: es => by
    intro depth fuel w w2 rest hf hp _ hw hw2 skip
    unfold kidsWeight at hf
    unfold kidsPlain at hp
    unfold kidsUtf8
    cases fuel with
    | zero => omega
    | succ fuel =>
      have hform : ∃ w', (∀ b ∈ w', jsonIsWs b = true) ∧
          (if skip then jsonSkip (w ++ (jsonMembers depth ((k, v) :: es) ++ (w2 ++ 125 :: rest))) else w ++ (jsonMembers depth ((k, v) :: es) ++ (w2 ++ 125 :: rest))) =
          w' ++ (jsonString k ++ (58 :: ([32] ++ (jsonNode (depth + 1) v ++ ((if es.isEmpty then [] else [44]) ++ ([10] ++ (jsonMembers depth es ++ (w2 ++ 125 :: rest)))))))) := by
        rw [jsonMembers_cons]
        cases skip
        · refine ⟨w ++ jsonIndent (depth + 1), ?_, ?_⟩
          · intro b hb
            rcases List.mem_append.mp hb with hb | hb
            · exact hw b hb
            · exact indent_ws _ b hb
          · simp only [Bool.false_eq_true, if_false, List.append_assoc, List.cons_append, List.nil_append]
        · refine ⟨[], by simp, ?_⟩
          simp only [if_true, List.append_assoc, List.nil_append, List.cons_append]
          rw [jsonSkip_all hw, jsonSkip_all (indent_ws _)]
          unfold jsonString
          rw [List.cons_append, List.cons_append, jsonSkip_head (by decide)]
      obtain ⟨w', hw', hform⟩ := hform
      rw [hform]
      have hkey := parseString_written w' hw' k (58 :: ([32] ++ (jsonNode (depth + 1) v ++ ((if es.isEmpty then [] else [44]) ++ ([10] ++ (jsonMembers depth es ++ (w2 ++ 125 :: rest)))))))
      have hcolon := jsonSkip_head (c := 58) (by decide) ([32] ++ (jsonNode (depth + 1) v ++ ((if es.isEmpty then [] else [44]) ++ ([10] ++ (jsonMembers depth es ++ (w2 ++ 125 :: rest))))))
      have hr := members_written es depth fuel [10] w2 rest (by omega) hp.2
      by_cases huk : Utf8 k
      · rw [if_pos huk] at hkey
        have hv := value_written v (depth + 1) fuel [32] ((if es.isEmpty then [] else [44]) ++ ([10] ++ (jsonMembers depth es ++ (w2 ++ 125 :: rest)))) (by omega)
          hp.1 (by omega) (by decide)
        by_cases hu : v.TextsUtf8
        · rw [if_pos hu] at hv
          cases es with
          | nil =>
            have : jsonSkip ((if ([] : List (Bytes × PTree)).isEmpty then [] else [44]) ++ ([10] ++ (jsonMembers depth [] ++ (w2 ++ 125 :: rest)))) = 125 :: rest := by
              show jsonSkip ([10] ++ (w2 ++ 125 :: rest)) = _
              rw [jsonSkip_all (by decide), jsonSkip_all hw2, jsonSkip_head (by decide)]
            rw [members_end hkey hcolon hv this, if_pos ⟨huk, hu, trivial⟩]
          | cons e es =>
            have : jsonSkip ((if (e :: es).isEmpty then [] else [44]) ++ ([10] ++ (jsonMembers depth (e :: es) ++ (w2 ++ 125 :: rest)))) =
                44 :: ([10] ++ (jsonMembers depth (e :: es) ++ (w2 ++ 125 :: rest))) := by
              exact jsonSkip_head (by decide) _
            have hr := hr (by simp) (by decide) hw2 false
            simp only [Bool.false_eq_true, if_false] at hr
            rw [members_comma hkey hcolon hv this, hr]
            by_cases hus : kidsUtf8 (e :: es)
            · rw [if_pos hus, if_pos ⟨huk, hu, hus⟩]
              rfl
            · rw [if_neg hus, if_neg (fun h => hus h.2.2)]
              rfl
        · rw [if_neg hu] at hv
          rw [members_none hkey hcolon hv, if_neg (fun h => hu h.2.1)]
      · rw [if_neg huk] at hkey
        rw [members_nokey hkey, if_neg (fun h => huk h.1)]
end

mutual
theorem writable_iff : (t : PTree) → (jsonWritable t = true ↔ t.Plain)
  | .node d ks => by
    unfold jsonWritable PTree.Plain
    rw [Bool.and_eq_true, Bool.or_eq_true, List.isEmpty_iff, List.isEmpty_iff, writables_iff ks]
theorem writables_iff : (ks : List (Bytes × PTree)) → (jsonWritables ks = true ↔ kidsPlain ks)
  | [] => by simp [jsonWritables, kidsPlain]
  | (k, v) :: es => by
    unfold jsonWritables kidsPlain
    rw [Bool.and_eq_true, writable_iff v, writables_iff es]
end

theorem writeJsonText_iff (t : PTree) (text : Bytes) : writeJsonText t = some text ↔ (t.data = [] ∧ t.Plain ∧ text = jsonNode 0 t ++ [10]) := by
  unfold writeJsonText
  by_cases h : t.data.isEmpty && jsonWritable t
  · rw [if_pos h, Option.some.injEq]
    rw [Bool.and_eq_true, List.isEmpty_iff, writable_iff] at h
    exact ⟨fun e => ⟨h.1, h.2, e.symm⟩, fun e => e.2.2.symm⟩
  · rw [if_neg h]
    rw [Bool.and_eq_true, List.isEmpty_iff, writable_iff] at h
    exact ⟨fun e => (by cases e), fun e => absurd ⟨e.1, e.2.1⟩ h⟩

open Classical in
theorem read_written {t : PTree} {text : Bytes} (h : writeJsonText t = some text) :
    readJsonText text = if t.TextsUtf8 then some t else none := by
  obtain ⟨h1, h2, rfl⟩ := (writeJsonText_iff t text).mp h
  obtain ⟨c, s, hc, hcc⟩ := node_head 0 t
  unfold readJsonText
  have hb : ([0xEF, 0xBB, 0xBF] : Bytes).isPrefixOf (jsonNode 0 t ++ [10]) = false := by
    rw [hc, List.cons_append]
    rcases hcc with rfl | rfl | rfl <;> rfl
  rw [hb]
  simp only [Bool.false_eq_true, if_false]
  have hv := value_written t 0 (2 * (jsonNode 0 t ++ [10]).length + 1) [] [10] (by
    have := node_weight 0 t
    rw [List.length_append]
    omega) h2 (fun _ => h1) (by simp)
  rw [List.nil_append] at hv
  rw [hv]
  by_cases hu : t.TextsUtf8
  · simp only [if_pos hu]
    rfl
  · simp only [if_neg hu]

end Ndncert
