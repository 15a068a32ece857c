import Verif.Model.Base64
import Verif.Spec.Base64

namespace Ndncert

theorem sextet_char {n : Nat} (h : n < 64) : Sextet (b64Char n) n := by
  have : ∀ n : Fin 64, base64Alphabet[n.val]? = some (b64Char n.val) := by decide +kernel
  exact this ⟨n, h⟩

theorem sextet_lt {c : UInt8} {n : Nat} (h : Sextet c n) : n < 64 := by
  have := (List.getElem?_eq_some_iff.mp h).1
  simpa [base64Alphabet] using this

theorem sextet_value {c : UInt8} {n : Nat} : Sextet c n ↔ b64Value c = some n := by
  constructor
  · intro h
    have hn := sextet_lt h
    have : ∀ n : Fin 64, ∀ c, base64Alphabet[n.val]? = some c → b64Value c = some n.val := by
      intro n c hc
      have h1 : ∀ n : Fin 64, b64Value ((base64Alphabet[n.val]?).getD 0) = some n.val := by decide +kernel
      have := h1 n
      rw [hc] at this
      exact this
    exact this ⟨n, hn⟩ c h
  · intro h
    have h1 : ∀ c : Fin 256, (match b64Value (UInt8.ofNat c.val) with | some n => decide (base64Alphabet[n]? = some (UInt8.ofNat c.val)) | none => true) = true := by decide +kernel
    have := h1 ⟨c.toNat, c.toNat_lt⟩
    simp only [UInt8.ofNat_toNat] at this
    rw [h] at this
    simpa [Sextet] using this

theorem value_pad : b64Value 61 = none := by decide

theorem sextet_pad {n : Nat} : ¬ Sextet 61 n := by
  rw [sextet_value, value_pad]; simp

theorem toNat_ofNat {n : Nat} (h : n < 256) : (UInt8.ofNat n).toNat = n := by
  simp; omega

theorem encode_base64 : ∀ (bs : Bytes), Base64 True (b64Encode bs) bs
  | a :: b :: c :: rest => by
    have ha := a.toNat_lt
    have hb := b.toNat_lt
    have hc := c.toNat_lt
    refine .three a b c _ _ _ _ (a.toNat / 4) (a.toNat % 4 * 16 + b.toNat / 16) (b.toNat % 16 * 4 + c.toNat / 64) (c.toNat % 64) _ _ (sextet_char (by omega)) (sextet_char (by omega)) (sextet_char (by omega)) (sextet_char (by omega)) (by omega)
      (encode_base64 rest)
  | [a, b] => by
    have ha := a.toNat_lt
    have hb := b.toNat_lt
    exact .two a b _ _ _ (a.toNat / 4) (a.toNat % 4 * 16 + b.toNat / 16) (b.toNat % 16 * 4) 0 (sextet_char (by omega)) (sextet_char (by omega)) (sextet_char (by omega)) (by omega) (fun _ => rfl) (by omega)
  | [a] => by
    have ha := a.toNat_lt
    exact .one a _ _ (a.toNat / 4) (a.toNat % 4 * 16) 0 (sextet_char (by omega)) (sextet_char (by omega)) (by omega) (fun _ => rfl) (by omega)
  | [] => .nil

theorem octet_eq {a : UInt8} {n : Nat} (h : a.toNat = n) : UInt8.ofNat n = a := by
  rw [← h, UInt8.ofNat_toNat]

theorem base64_decode {canonical : Prop} {text octets : Bytes} (h : Base64 canonical text octets) : b64Decode text = some octets := by
  induction h with
  | nil => rfl
  | three a b c p q r s w x y z text octets h1 h2 h3 h4 he _ ih =>
    have ha := a.toNat_lt
    have hb := b.toNat_lt
    have hc := c.toNat_lt
    have l1 := sextet_lt h1
    have l2 := sextet_lt h2
    have l3 := sextet_lt h3
    have l4 := sextet_lt h4
    have hr : r ≠ 61 := by rintro rfl; exact sextet_pad h3
    have hs : s ≠ 61 := by rintro rfl; exact sextet_pad h4
    unfold b64Decode
    rw [sextet_value.mp h1, sextet_value.mp h2, sextet_value.mp h3, sextet_value.mp h4, ih]
    simp only [hr, hs, false_and, and_false, if_false, Option.bind_eq_bind, Option.bind_some]
    rw [octet_eq (a := a) (by omega), octet_eq (a := b) (by omega), octet_eq (a := c) (by omega)]
  | two a b p q r w x y extra h1 h2 h3 hx _ he =>
    have ha := a.toNat_lt
    have hb := b.toNat_lt
    have l1 := sextet_lt h1
    have l2 := sextet_lt h2
    have l3 := sextet_lt h3
    have hr : r ≠ 61 := by rintro rfl; exact sextet_pad h3
    unfold b64Decode
    rw [sextet_value.mp h1, sextet_value.mp h2, sextet_value.mp h3]
    simp only [hr, false_and, and_false, if_false, Option.bind_eq_bind, Option.bind_some, and_self, if_true]
    rw [octet_eq (a := a) (by omega), octet_eq (a := b) (by omega)]
  | one a p q w x extra h1 h2 hx _ he =>
    have ha := a.toNat_lt
    have l1 := sextet_lt h1
    have l2 := sextet_lt h2
    unfold b64Decode
    rw [sextet_value.mp h1, sextet_value.mp h2]
    simp only [Option.bind_eq_bind, Option.bind_some, and_self, if_true]
    rw [octet_eq (a := a) (by omega)]

theorem decode_base64 : ∀ (n : Nat) (text octets : Bytes), text.length ≤ n → b64Decode text = some octets → Base64 False text octets := by
  intro n
  induction n with
  | zero =>
    intro text octets hn h
    have : text = [] := by cases text <;> simp at hn ⊢
    subst this
    cases h
    exact .nil
  | succ n ih =>
    intro text octets hn h
    match text, h, hn with
    | [], h, _ => cases h; exact .nil
    | p :: q :: r :: s :: rest, h, hn =>
      unfold b64Decode at h
      cases hw : b64Value p with
      | none => rw [hw] at h; cases h
      | some w =>
      cases hx : b64Value q with
      | none => rw [hw, hx] at h; cases h
      | some x =>
      rw [hw, hx] at h
      simp only [Option.bind_eq_bind, Option.bind_some] at h
      have h1 := sextet_value.mpr hw
      have h2 := sextet_value.mpr hx
      have l1 := sextet_lt h1
      have l2 := sextet_lt h2
      split at h
      · next hc =>
        obtain ⟨rfl, rfl, rfl⟩ := hc
        injection h with h
        subst h
        refine .one _ _ _ w x (x % 16) h1 h2 (by omega) (fun h => h.elim) ?_
        rw [toNat_ofNat (by omega)]
        omega
      · cases hy : b64Value r with
        | none => rw [hy] at h; cases h
        | some y =>
        rw [hy] at h
        simp only [Option.bind_some] at h
        have h3 := sextet_value.mpr hy
        have l3 := sextet_lt h3
        split at h
        · next hc =>
          obtain ⟨rfl, rfl⟩ := hc
          injection h with h
          subst h
          refine .two _ _ _ _ _ w x y (y % 4) h1 h2 h3 (by omega) (fun h => h.elim) ?_
          rw [toNat_ofNat (by omega), toNat_ofNat (by omega)]
          omega
        · cases hz : b64Value s with
          | none => rw [hz] at h; cases h
          | some z =>
          cases hl : b64Decode rest with
          | none => rw [hz, hl] at h; cases h
          | some l =>
          rw [hz, hl] at h
          simp only [Option.bind_some] at h
          injection h with h
          subst h
          have h4 := sextet_value.mpr hz
          have l4 := sextet_lt h4
          refine .three _ _ _ _ _ _ _ w x y z _ _ h1 h2 h3 h4 ?_ (ih rest l (by simp at hn; omega) hl)
          rw [toNat_ofNat (by omega), toNat_ofNat (by omega), toNat_ofNat (by omega)]
          omega

theorem decode_iff {text octets : Bytes} : b64Decode text = some octets ↔ Base64 False text octets :=
  ⟨decode_base64 _ _ _ (Nat.le_refl _), base64_decode⟩

theorem decode_encode (bs : Bytes) : b64Decode (b64Encode bs) = some bs := base64_decode (encode_base64 bs)

theorem sextet_plain : ∀ {c : UInt8} {n : Nat}, Sextet c n → isB64Space c = false ∧ c.toNat < 128 := by
  intro c n h
  have hn := sextet_lt h
  have : ∀ n : Fin 64, isB64Space ((base64Alphabet[n.val]?).getD 0) = false ∧ ((base64Alphabet[n.val]?).getD 0).toNat < 128 := by decide +kernel
  have := this ⟨n, hn⟩
  unfold Sextet at h
  simp only [h] at this
  exact this

theorem base64_plain {canonical : Prop} {text octets : Bytes} (h : Base64 canonical text octets) : ∀ c ∈ text, isB64Space c = false ∧ c.toNat < 128 := by
  have pad : isB64Space 61 = false ∧ (61 : UInt8).toNat < 128 := by decide
  induction h with
  | nil => simp
  | three a b c p q r s w x y z text octets h1 h2 h3 h4 he _ ih =>
    intro c' hc
    simp only [List.mem_cons] at hc
    rcases hc with rfl | rfl | rfl | rfl | hc
    · exact sextet_plain h1
    · exact sextet_plain h2
    · exact sextet_plain h3
    · exact sextet_plain h4
    · exact ih _ hc
  | two a b p q r w x y extra h1 h2 h3 hx _ he =>
    intro c' hc
    simp only [List.mem_cons, List.not_mem_nil, or_false] at hc
    rcases hc with rfl | rfl | rfl | rfl
    · exact sextet_plain h1
    · exact sextet_plain h2
    · exact sextet_plain h3
    · exact pad
  | one a p q w x extra h1 h2 hx _ he =>
    intro c' hc
    simp only [List.mem_cons, List.not_mem_nil, or_false] at hc
    rcases hc with rfl | rfl | rfl | rfl
    · exact sextet_plain h1
    · exact sextet_plain h2
    · exact pad
    · exact pad

theorem blanks_eq (text : Bytes) : withoutBlanks text = text.filter (fun c => !isB64Space c) := by
  unfold withoutBlanks
  congr 1
  funext c
  simp [isB64Space]
  grind

theorem linesN_enough : ∀ (n m : Nat) (s : Bytes), s.length ≤ n → s.length ≤ m → b64LinesN n s = b64LinesN m s := by
  intro n
  induction n with
  | zero =>
    intro m s hn _
    have : s = [] := by cases s <;> simp at hn ⊢
    subst this
    cases m <;> simp [b64LinesN]
  | succ n ih =>
    intro m s hn hm
    by_cases hs : s = []
    · subst hs
      cases m <;> simp [b64LinesN]
    · have hpos := List.length_pos_iff.mpr hs
      cases m with
      | zero => omega
      | succ m =>
        simp only [b64LinesN, hs, if_false]
        rw [ih m (s.drop 64) (by simp; omega) (by simp; omega)]

theorem lines_eq (s : Bytes) : b64Lines s = if s = [] then [] else s.take 64 ++ 10 :: b64Lines (s.drop 64) := by
  by_cases hs : s = []
  · subst hs; rfl
  · have hpos := List.length_pos_iff.mpr hs
    unfold b64Lines
    obtain ⟨n, hn⟩ : ∃ n, s.length = n + 1 := ⟨s.length - 1, by omega⟩
    rw [hn]
    simp only [b64LinesN, hs, if_false]
    rw [linesN_enough n (s.drop 64).length (s.drop 64) (by simp; omega) (Nat.le_refl _)]

theorem lines_strip : ∀ (n : Nat) (s : Bytes), s.length ≤ n → (∀ c ∈ s, isB64Space c = false) → (b64Lines s).filter (fun c => !isB64Space c) = s := by
  intro n
  induction n with
  | zero =>
    intro s hn _
    have : s = [] := by cases s <;> simp at hn ⊢
    subst this
    rfl
  | succ n ih =>
    intro s hn h
    rw [lines_eq]
    split
    · next hs => simp [hs]
    · next hs =>
      have hpos := List.length_pos_iff.mpr hs
      rw [List.filter_append, List.filter_cons, ih (s.drop 64) (by simp; omega) (fun c hc => h c (List.mem_of_mem_drop hc))]
      have h10 : isB64Space 10 = true := by decide
      rw [List.filter_eq_self.mpr (fun c hc => by simp [h c (List.mem_of_mem_take hc)])]
      simp [h10]

/-- lines of 64 characters, the last one perhaps shorter -/
theorem lines_shape : ∀ (n : Nat) (s : Bytes), s.length ≤ n → ∃ (ls last : List Bytes), b64Lines s = (ls ++ last).flatMap (fun l => l ++ [10]) ∧ (ls ++ last).flatten = s ∧ (∀ l ∈ ls, l.length = 64) ∧
    last.length ≤ 1 ∧ ∀ l ∈ last, 0 < l.length ∧ l.length ≤ 64 := by
  intro n
  induction n with
  | zero =>
    intro s hn
    have : s = [] := by cases s <;> simp at hn ⊢
    subst this
    refine ⟨[], [], ?_, rfl, by simp, by simp, by simp⟩
    rfl
  | succ n ih =>
    intro s hn
    by_cases hs : s = []
    · subst hs
      refine ⟨[], [], ?_, rfl, by simp, by simp, by simp⟩
      rfl
    · have hpos := List.length_pos_iff.mpr hs
      obtain ⟨ls, last, e1, e2, e3, e4, e5⟩ := ih (s.drop 64) (by simp; omega)
      have hl : b64Lines s = s.take 64 ++ 10 :: b64Lines (s.drop 64) := by
        rw [lines_eq]; simp [hs]
      by_cases h64 : 64 ≤ s.length
      · refine ⟨s.take 64 :: ls, last, ?_, ?_, ?_, e4, e5⟩
        · rw [hl, e1]; simp
        · rw [List.cons_append, List.flatten_cons, e2, List.take_append_drop]
        · intro l hl
          rcases List.mem_cons.mp hl with rfl | hl
          · simp; omega
          · exact e3 _ hl
      · have hd : s.drop 64 = [] := List.drop_eq_nil_of_le (by omega)
        have ht : s.take 64 = s := List.take_of_length_le (by omega)
        refine ⟨[], [s], ?_, by simp, by simp, by simp, ?_⟩
        · rw [hl, hd, ht]
          have : b64Lines [] = [] := rfl
          simp [this]
        · intro l hl
          rw [List.mem_singleton.mp hl]
          exact ⟨hpos, by omega⟩

end Ndncert
