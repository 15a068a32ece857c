import Verif.Spec.JsonGrammar
import Verif.Lemmas.JsonFuel
import Verif.Lemmas.Uri

/-! The JSON reader accepts exactly the grammar: strings -/

namespace Ndncert

theorem hexDigit_table : ∀ k : Fin 256, ∀ n : Fin 16, jsonHexDigit (UInt8.ofNat k.val) = some n.val →
    (n.val < 10 ∧ UInt8.ofNat k.val = UInt8.ofNat (48 + n.val)) ∨ (10 ≤ n.val ∧ UInt8.ofNat k.val = UInt8.ofNat (65 + (n.val - 10))) ∨
    (10 ≤ n.val ∧ UInt8.ofNat k.val = UInt8.ofNat (97 + (n.val - 10))) := by decide +kernel

theorem hexDigit_lt {b : UInt8} {n : Nat} (h : jsonHexDigit b = some n) : n < 16 := by
  unfold jsonHexDigit at h
  have := b.toNat_lt
  repeat' split at h
  all_goals first
    | (cases h
       rename_i h1
       simp only [Bool.and_eq_true, decide_eq_true_eq, UInt8.le_iff_toNat_le] at h1
       have := h1.2
       simp at this
       omega)
    | cases h

theorem hexDigit_iff (b : UInt8) (n : Nat) : jsonHexDigit b = some n ↔ HexDigit b n := by
  constructor
  · intro h
    have hn := hexDigit_lt h
    have key := byte_cases (P := fun b => jsonHexDigit b = some n → (n < 10 ∧ b = UInt8.ofNat (48 + n)) ∨
      (10 ≤ n ∧ b = UInt8.ofNat (65 + (n - 10))) ∨ (10 ≤ n ∧ b = UInt8.ofNat (97 + (n - 10)))) (fun k => hexDigit_table k ⟨n, hn⟩) b h
    rcases key with ⟨h1, rfl⟩ | ⟨h1, rfl⟩ | ⟨h1, rfl⟩
    · exact .digit n h1
    · have := HexDigit.upper (n - 10) (by omega)
      rwa [show 10 + (n - 10) = n by omega] at this
    · have := HexDigit.lower (n - 10) (by omega)
      rwa [show 10 + (n - 10) = n by omega] at this
  · intro h
    cases h with
    | digit _ h => exact (show ∀ d : Fin 10, jsonHexDigit (UInt8.ofNat (48 + d.val)) = some d.val by decide +kernel) ⟨n, h⟩
    | upper d h => exact (show ∀ d : Fin 6, jsonHexDigit (UInt8.ofNat (65 + d.val)) = some (10 + d.val) by decide +kernel) ⟨d, h⟩
    | lower d h => exact (show ∀ d : Fin 6, jsonHexDigit (UInt8.ofNat (97 + d.val)) = some (10 + d.val) by decide +kernel) ⟨d, h⟩

theorem hexQuad_iff (s : Bytes) (n : Nat) (r : Bytes) : jsonHexQuad s = some (n, r) ↔ ∃ q, HexQuad q n ∧ s = q ++ r := by
  constructor
  · intro h
    unfold jsonHexQuad at h
    split at h
    · rename_i a b c d s
      simp only [Option.bind_eq_bind, Option.bind_eq_some_iff] at h
      obtain ⟨w, hw, x, hx, y, hy, z, hz, h⟩ := h
      simp only [Option.some.injEq, Prod.mk.injEq] at h
      obtain ⟨h1, h2⟩ := h
      exact ⟨[a, b, c, d], ⟨a, b, c, d, w, x, y, z, rfl, (hexDigit_iff _ _).mp hw, (hexDigit_iff _ _).mp hx, (hexDigit_iff _ _).mp hy,
        (hexDigit_iff _ _).mp hz, by omega⟩, by rw [← h2]; rfl⟩
    · cases h
  · rintro ⟨q, ⟨a, b, c, d, w, x, y, z, rfl, hw, hx, hy, hz, rfl⟩, rfl⟩
    show jsonHexQuad (a :: b :: c :: d :: r) = _
    unfold jsonHexQuad
    dsimp only
    rw [(hexDigit_iff _ _).mpr hw, (hexDigit_iff _ _).mpr hx, (hexDigit_iff _ _).mpr hy, (hexDigit_iff _ _).mpr hz]
    simp only [Option.bind_eq_bind, Option.bind_some, Option.some.injEq, Prod.mk.injEq, and_true]
    omega

theorem utf8Octets_char (c : Char) : utf8Octets c.toNat = String.utf8EncodeChar c := by
  have hv : c.toNat < 0x110000 := by
    have := c.valid
    unfold UInt32.isValidChar Nat.isValidChar at this
    unfold Char.toNat
    omega
  unfold utf8Octets String.utf8EncodeChar
  dsimp only
  show _ = ite (c.toNat ≤ 0x7f) _ _
  generalize hn : c.toNat = n at *
  have hcv : c.val.toNat = n := hn
  rw [hcv]
  by_cases h1 : n < 0x80
  · simp only [if_pos h1, if_pos (show n ≤ 0x7f by omega)]
  · by_cases h2 : n < 0x800
    · simp only [if_neg h1, if_neg (show ¬ n ≤ 0x7f by omega), if_pos h2, if_pos (show n ≤ 0x7ff by omega)]
      rw [show n / 64 % 0x20 + 0xC0 = 0xC0 + n / 64 by omega, Nat.add_comm (n % 0x40)]
    · by_cases h3 : n < 0x10000
      · simp only [if_neg h1, if_neg (show ¬ n ≤ 0x7f by omega), if_neg h2, if_neg (show ¬ n ≤ 0x7ff by omega), if_pos h3,
          if_pos (show n ≤ 0xffff by omega)]
        rw [show n / 4096 % 0x10 + 0xE0 = 0xE0 + n / 4096 by omega, Nat.add_comm (n % 0x40), Nat.add_comm (n / 64 % 0x40)]
      · simp only [if_neg h1, if_neg (show ¬ n ≤ 0x7f by omega), if_neg h2, if_neg (show ¬ n ≤ 0x7ff by omega), if_neg h3,
          if_neg (show ¬ n ≤ 0xffff by omega)]
        rw [show n / 262144 % 0x08 + 0xF0 = 0xF0 + n / 262144 by omega, Nat.add_comm (n % 0x40), Nat.add_comm (n / 64 % 0x40), Nat.add_comm (n / 4096 % 0x40)]

theorem char_of {n : Nat} (h : n < 0xD800 ∨ 0xDFFF < n ∧ n < 0x110000) : ∃ c : Char, c.toNat = n := by
  have hv : n.isValidChar := h
  exact ⟨Char.ofNat n, by rw [Char.ofNat, dif_pos hv]; rfl⟩

theorem codepoint_sound {s m r : Bytes} (h : jsonCodepoint s = some (m, r)) :
    (∃ q c, HexQuad q (Char.toNat c) ∧ s = q ++ r ∧ m = String.utf8EncodeChar c) ∨
    ∃ q q2 hi lo c, HexQuad q (0xD800 + hi) ∧ HexQuad q2 (0xDC00 + lo) ∧ hi < 0x400 ∧ lo < 0x400 ∧ Char.toNat c = 0x10000 + hi * 0x400 + lo ∧
      s = q ++ 92 :: 117 :: (q2 ++ r) ∧ m = String.utf8EncodeChar c := by
  unfold jsonCodepoint at h
  cases hq : jsonHexQuad s with
  | none => rw [hq] at h; cases h
  | some x =>
    obtain ⟨u, s1⟩ := x
    rw [hq] at h
    simp only [Option.bind_eq_bind, Option.bind_some] at h
    obtain ⟨q, hq1, rfl⟩ := (hexQuad_iff _ _ _).mp hq
    have hu : u < 65536 := by
      obtain ⟨a, b, c, d, w, x, y, z, _, hw, hx, hy, hz, rfl⟩ := hq1
      have h1 := hexDigit_lt ((hexDigit_iff _ _).mpr hw)
      have h2 := hexDigit_lt ((hexDigit_iff _ _).mpr hx)
      have h3 := hexDigit_lt ((hexDigit_iff _ _).mpr hy)
      have h4 := hexDigit_lt ((hexDigit_iff _ _).mpr hz)
      omega
    split at h
    · cases h
    · rename_i n1
      split at h
      · rename_i n2
        split at h
        · rename_i s2
          cases hv : jsonHexQuad s2 with
          | none => rw [hv] at h; cases h
          | some y =>
            obtain ⟨v, s3⟩ := y
            rw [hv] at h
            simp only [Option.bind_some] at h
            obtain ⟨q2, hq2, rfl⟩ := (hexQuad_iff _ _ _).mp hv
            split at h
            · rename_i n3
              simp only [Option.some.injEq, Prod.mk.injEq] at h
              obtain ⟨h1, rfl⟩ := h
              obtain ⟨c, hc⟩ := char_of (n := 0x10000 + (u - 0xD800) * 0x400 + (v - 0xDC00)) (by omega)
              refine .inr ⟨q, q2, u - 0xD800, v - 0xDC00, c, ?_, ?_, by omega, by omega, hc, rfl, ?_⟩
              · rwa [show 0xD800 + (u - 0xD800) = u by omega]
              · rwa [show 0xDC00 + (v - 0xDC00) = v by omega]
              · rw [← h1, ← hc, utf8Octets_char]
            · cases h
        · cases h
      · rename_i n2
        simp only [Option.some.injEq, Prod.mk.injEq] at h
        obtain ⟨h1, rfl⟩ := h
        obtain ⟨c, hc⟩ := char_of (n := u) (by omega)
        exact .inl ⟨q, c, by rwa [hc], rfl, by rw [← h1, ← hc, utf8Octets_char]⟩

theorem codepoint_code {q r : Bytes} (c : Char) (h : HexQuad q c.toNat) : jsonCodepoint (q ++ r) = some (String.utf8EncodeChar c, r) := by
  have hv : c.toNat < 0xD800 ∨ 0xDFFF < c.toNat ∧ c.toNat < 0x110000 := c.valid
  unfold jsonCodepoint
  rw [(hexQuad_iff _ _ _).mpr ⟨q, h, rfl⟩]
  simp only [Option.bind_eq_bind, Option.bind_some]
  rw [if_neg (by omega), if_neg (by omega), utf8Octets_char]

theorem codepoint_pair {q q2 r : Bytes} {hi lo : Nat} (c : Char) (h1 : HexQuad q (0xD800 + hi)) (h2 : HexQuad q2 (0xDC00 + lo)) (hh : hi < 0x400)
    (hl : lo < 0x400) (hc : c.toNat = 0x10000 + hi * 0x400 + lo) :
    jsonCodepoint (q ++ 92 :: 117 :: (q2 ++ r)) = some (String.utf8EncodeChar c, r) := by
  unfold jsonCodepoint
  rw [(hexQuad_iff _ _ _).mpr ⟨q, h1, rfl⟩]
  simp only [Option.bind_eq_bind, Option.bind_some]
  rw [if_neg (by omega), if_pos (by omega)]
  rw [(hexQuad_iff _ _ _).mpr ⟨q2, h2, rfl⟩]
  simp only [Option.bind_some]
  rw [if_pos (by omega), ← utf8Octets_char, hc, show 0xD800 + hi - 0xD800 = hi by omega, show 0xDC00 + lo - 0xDC00 = lo by omega]

theorem utf8Rest_sound (n : Nat) : ∀ {s m r : Bytes}, utf8Rest n s = some (m, r) →
    s = m ++ r ∧ m.length = n ∧ ∀ x ∈ m, 0x80 ≤ x.toNat ∧ x.toNat < 0xC0 := by
  induction n with
  | zero =>
    intro s m r h
    simp only [utf8Rest, Option.some.injEq, Prod.mk.injEq] at h
    obtain ⟨rfl, rfl⟩ := h
    simp
  | succ n ih =>
    intro s m r h
    cases s with
    | nil => simp [utf8Rest] at h
    | cons b s =>
      rw [utf8Rest] at h
      split at h
      · rename_i hb
        rw [Option.map_eq_some_iff] at h
        obtain ⟨⟨m', r'⟩, h1, h2⟩ := h
        simp only [Prod.mk.injEq] at h2
        obtain ⟨rfl, rfl⟩ := h2
        obtain ⟨rfl, h4, h5⟩ := ih h1
        refine ⟨rfl, by simp [h4], ?_⟩
        intro x hx
        rw [List.mem_cons] at hx
        rcases hx with rfl | hx
        · exact (isCont_iff x).mp hb
        · exact h5 x hx
      · cases h

theorem utf8Rest_complete {m : Bytes} (h : ∀ x ∈ m, 0x80 ≤ x.toNat ∧ x.toNat < 0xC0) (r : Bytes) : utf8Rest m.length (m ++ r) = some (m, r) := by
  induction m with
  | nil => rfl
  | cons b m ih =>
    rw [List.length_cons, List.cons_append, utf8Rest, ih (fun x hx => h x (List.mem_cons_of_mem _ hx))]
    rw [if_pos]
    · rfl
    · exact (isCont_iff b).mpr (h b (List.mem_cons_self ..))

/-- what is read up to the closing quote follows the grammar -/
theorem chars_sound (fuel : Nat) : ∀ {s m r : Bytes}, jsonChars fuel s = some (m, r) → ∃ w, s = w ++ 34 :: r ∧ JsonChars w m := by
  induction fuel with
  | zero =>
    intro s m r h
    unfold jsonChars at h
    split at h
    · simp only [Option.some.injEq, Prod.mk.injEq] at h
      obtain ⟨rfl, rfl⟩ := h
      exact ⟨[], rfl, .nil⟩
    · cases h
    · rename_i he _; cases he
  | succ fuel ih =>
    intro s m r h
    cases s with
    | nil => simp [jsonChars, jsonChar] at h
    | cons c s =>
      by_cases hc : c = 34
      · subst hc
        rw [jsonChars] at h
        simp only [Option.some.injEq, Prod.mk.injEq] at h
        obtain ⟨rfl, rfl⟩ := h
        exact ⟨[], rfl, .nil⟩
      · rw [jsonChars_succ fuel c s hc] at h
        rw [Option.bind_eq_some_iff] at h
        obtain ⟨⟨m1, s1⟩, h1, h2⟩ := h
        rw [Option.map_eq_some_iff] at h2
        obtain ⟨⟨m2, r'⟩, h2, h3⟩ := h2
        simp only [Prod.mk.injEq] at h3
        obtain ⟨rfl, rfl⟩ := h3
        obtain ⟨w, rfl, hw⟩ := ih h2
        unfold jsonChar at h1
        dsimp only at h1
        split at h1
        · rename_i hb
          rw [beq_iff_eq] at hb
          subst hb
          unfold jsonUnescape at h1
          split at h1
          all_goals first
            | (simp only [Option.some.injEq, Prod.mk.injEq] at h1
               obtain ⟨rfl, rfl⟩ := h1
               exact ⟨92 :: _ :: w, rfl, .letter (by decide) hw⟩)
            | skip
          · rename_i s2
            rcases codepoint_sound h1 with ⟨q, c, g1, rfl, rfl⟩ | ⟨q, q2, hi, lo, c, g1, g2, g3, g4, g5, rfl, rfl⟩
            · exact ⟨92 :: 117 :: (q ++ w), by simp, .code c g1 hw⟩
            · exact ⟨92 :: 117 :: (q ++ 92 :: 117 :: (q2 ++ w)), by simp, .pair c g1 g2 g3 g4 g5 hw⟩
          · cases h1
        · rename_i hb
          rw [Option.bind_eq_some_iff] at h1
          obtain ⟨n, hn, h1⟩ := h1
          rw [Option.map_eq_some_iff] at h1
          obtain ⟨⟨tl, r2⟩, h1, h3⟩ := h1
          simp only [Prod.mk.injEq] at h3
          obtain ⟨rfl, rfl⟩ := h3
          obtain ⟨rfl, g2, g3⟩ := utf8Rest_sound n h1
          refine ⟨(c :: tl) ++ w, by simp, .plain ⟨c, tl, rfl, g3, ?_⟩ ?_ ?_ hw⟩
          · rw [g2]; exact (utf8Trail_iff _ _).mp hn
          · intro he; exact hc (List.cons.inj he).1
          · intro he
            rw [(List.cons.inj he).1] at hb
            exact hb rfl

theorem jsonChars_letter {e x : UInt8} (h : (e, x) ∈ escapeLetters) (s : Bytes) : jsonUnescape (e :: s) = some ([x], s) := by
  simp only [escapeLetters, List.mem_cons, Prod.mk.injEq, List.not_mem_nil, or_false] at h
  rcases h with ⟨rfl, rfl⟩ | ⟨rfl, rfl⟩ | ⟨rfl, rfl⟩ | ⟨rfl, rfl⟩ | ⟨rfl, rfl⟩ | ⟨rfl, rfl⟩ | ⟨rfl, rfl⟩ | ⟨rfl, rfl⟩ <;> rfl

/-- and everything that follows the grammar is read -/
theorem chars_complete {w m : Bytes} (h : JsonChars w m) : ∀ (fuel : Nat) (r : Bytes), w.length ≤ fuel →
    jsonChars fuel (w ++ 34 :: r) = some (m, r) := by
  induction h with
  | nil => intro fuel r _; cases fuel <;> rfl
  | @plain c s m h1 h2 h3 _ ih =>
    intro fuel r hf
    obtain ⟨b, tail, rfl, g1, g2⟩ := h1
    have hb : b ≠ 34 ∧ b ≠ 92 := by
      constructor <;> (rintro rfl; rcases g2 with ⟨_, g⟩ | ⟨g, _⟩ | ⟨g, _⟩ | ⟨g, _⟩ <;>
        first | (rw [List.length_eq_zero_iff] at g; subst g; contradiction) | (exact absurd g (by decide)))
    cases fuel with
    | zero => simp at hf
    | succ fuel =>
      have e : jsonChar (b :: (tail ++ (s ++ 34 :: r))) = some (b :: tail, s ++ 34 :: r) := by
        unfold jsonChar
        dsimp only
        rw [if_neg (by simpa using hb.2), (utf8Trail_iff _ _).mpr g2, Option.bind_some, utf8Rest_complete g1]
        rfl
      have e2 : b :: tail ++ s ++ 34 :: r = b :: (tail ++ (s ++ 34 :: r)) := by simp
      rw [e2, jsonChars_succ fuel b _ hb.1, e, Option.bind_some]
      dsimp only
      rw [ih fuel r (by simp at hf; omega)]
      rfl
  | @letter e x s m h1 _ ih =>
    intro fuel r hf
    cases fuel with
    | zero => simp at hf
    | succ fuel =>
      have e1 : jsonChar (92 :: e :: (s ++ 34 :: r)) = some ([x], s ++ 34 :: r) := jsonChars_letter h1 _
      show jsonChars (fuel + 1) (92 :: (e :: (s ++ 34 :: r))) = _
      rw [jsonChars_succ fuel 92 _ (by decide), e1, Option.bind_some]
      dsimp only
      rw [ih fuel r (by simp at hf; omega)]
      rfl
  | @code q s m c h1 _ ih =>
    intro fuel r hf
    cases fuel with
    | zero => simp at hf
    | succ fuel =>
      have e1 : jsonChar (92 :: 117 :: (q ++ (s ++ 34 :: r))) = some (String.utf8EncodeChar c, s ++ 34 :: r) := codepoint_code c h1
      have e2 : 92 :: 117 :: (q ++ s) ++ 34 :: r = 92 :: (117 :: (q ++ (s ++ 34 :: r))) := by simp
      rw [e2, jsonChars_succ fuel 92 _ (by decide), e1, Option.bind_some]
      dsimp only
      rw [ih fuel r (by simp at hf; omega)]
      rfl
  | @pair q q2 s m hi lo c h1 h2 h3 h4 h5 _ ih =>
    intro fuel r hf
    cases fuel with
    | zero => simp at hf
    | succ fuel =>
      have e1 : jsonChar (92 :: 117 :: (q ++ 92 :: 117 :: (q2 ++ (s ++ 34 :: r)))) = some (String.utf8EncodeChar c, s ++ 34 :: r) :=
        codepoint_pair c h1 h2 h3 h4 h5
      have e2 : 92 :: 117 :: (q ++ 92 :: 117 :: (q2 ++ s)) ++ 34 :: r = 92 :: (117 :: (q ++ 92 :: 117 :: (q2 ++ (s ++ 34 :: r)))) := by simp
      rw [e2, jsonChars_succ fuel 92 _ (by decide), e1, Option.bind_some]
      dsimp only
      rw [ih fuel r (by simp at hf; omega)]
      rfl

/-! Numbers -/

theorem isDigit_iff (b : UInt8) : jsonIsDigit b = true ↔ 48 ≤ b.toNat ∧ b.toNat ≤ 57 := by
  unfold jsonIsDigit
  rw [Bool.and_eq_true, decide_eq_true_eq, decide_eq_true_eq]
  exact Iff.rfl

theorem takeWhile_all (s : Bytes) : ∀ b ∈ s.takeWhile jsonIsDigit, 48 ≤ b.toNat ∧ b.toNat ≤ 57 := by
  induction s with
  | nil => simp
  | cons c s ih =>
    intro b hb
    rw [List.takeWhile_cons] at hb
    split at hb
    · rename_i hc
      rw [List.mem_cons] at hb
      rcases hb with rfl | hb
      · exact (isDigit_iff b).mp hc
      · exact ih b hb
    · cases hb

/-- the text does not go on with a digit -/
def NoDigit (r : Bytes) : Prop := ∀ b, r.head? = some b → jsonIsDigit b = false

theorem take_digits {ds r : Bytes} (hd : ∀ b ∈ ds, 48 ≤ b.toNat ∧ b.toNat ≤ 57) (hr : NoDigit r) :
    (ds ++ r).takeWhile jsonIsDigit = ds ∧ (ds ++ r).dropWhile jsonIsDigit = r := by
  induction ds with
  | nil =>
    cases r with
    | nil => exact ⟨rfl, rfl⟩
    | cons b r =>
      have := hr b rfl
      simp [this]
  | cons d ds ih =>
    obtain ⟨h1, h2⟩ := ih (fun b hb => hd b (List.mem_cons_of_mem _ hb))
    have := (isDigit_iff d).mpr (hd d (List.mem_cons_self ..))
    rw [List.cons_append, List.takeWhile_cons, List.dropWhile_cons, if_pos this, if_pos this, h1, h2]
    exact ⟨rfl, rfl⟩

theorem minus_sound (s : Bytes) : s = (jsonMinus s).1 ++ (jsonMinus s).2 ∧ ((jsonMinus s).1 = [] ∨ (jsonMinus s).1 = [45]) := by
  unfold jsonMinus
  split <;> simp

theorem int_sound {s i r : Bytes} (h : jsonInt s = some (i, r)) : s = i ++ r ∧ (i = [48] ∨ Digits1 i ∧ i.head? ≠ some 48) := by
  unfold jsonInt at h
  split at h
  · cases h
    exact ⟨rfl, .inl rfl⟩
  · rename_i b s hne
    split at h
    · rename_i hb
      cases h
      refine ⟨by simp, .inr ⟨⟨by simp, ?_⟩, ?_⟩⟩
      · intro x hx
        rw [List.mem_cons] at hx
        rcases hx with rfl | hx
        · exact (isDigit_iff x).mp hb
        · exact takeWhile_all s x hx
      · intro he
        rw [List.head?_cons, Option.some.injEq] at he
        subst he
        exact hne rfl
    · cases h
  · cases h

theorem frac_sound {s f r : Bytes} (h : jsonFrac s = some (f, r)) : s = f ++ r ∧ (f = [] ∨ ∃ ds, Digits1 ds ∧ f = 46 :: ds) := by
  unfold jsonFrac at h
  split at h
  · rename_i s
    split at h
    · cases h
    · rename_i he
      cases h
      refine ⟨by simp, .inr ⟨_, ⟨?_, takeWhile_all s⟩, rfl⟩⟩
      intro h0
      rw [h0] at he
      exact he rfl
  · cases h
    exact ⟨rfl, .inl rfl⟩

theorem sign_sound (s : Bytes) : s = (jsonSign s).1 ++ (jsonSign s).2 ∧ ((jsonSign s).1 = [] ∨ (jsonSign s).1 = [43] ∨ (jsonSign s).1 = [45]) := by
  unfold jsonSign
  split
  · simp
  · split
    · rename_i h
      rw [Bool.or_eq_true, beq_iff_eq, beq_iff_eq] at h
      rcases h with rfl | rfl <;> simp
    · simp

theorem exp_sound {s e r : Bytes} (h : jsonExp s = some (e, r)) : s = e ++ r ∧
    (e = [] ∨ ∃ l sg ds, (l = 101 ∨ l = 69) ∧ (sg = [] ∨ sg = [43] ∨ sg = [45]) ∧ Digits1 ds ∧ e = l :: (sg ++ ds)) := by
  unfold jsonExp at h
  split at h
  · cases h
    exact ⟨rfl, .inl rfl⟩
  · rename_i b s
    split at h
    · rename_i hb
      rw [Bool.or_eq_true, beq_iff_eq, beq_iff_eq] at hb
      split at h
      · cases h
      · rename_i he
        cases h
        obtain ⟨h1, h2⟩ := sign_sound s
        refine ⟨?_, .inr ⟨b, (jsonSign s).1, _, hb, h2, ⟨?_, takeWhile_all _⟩, rfl⟩⟩
        · rw [List.cons_append, List.append_assoc, List.takeWhile_append_dropWhile, ← h1]
        · intro h0
          rw [h0] at he
          exact he rfl
    · cases h
      exact ⟨rfl, .inl rfl⟩

theorem number_sound {s n r : Bytes} (h : jsonParseNumber s = some (some (n, r))) : s = n ++ r ∧ JsonNumber n := by
  unfold jsonParseNumber at h
  obtain ⟨m1, m2⟩ := minus_sound s
  split at h
  · split at h <;> cases h
  · rename_i int s2 h2
    obtain ⟨i1, i2⟩ := int_sound h2
    split at h
    · cases h
    · rename_i frac s3 h3
      obtain ⟨f1, f2⟩ := frac_sound h3
      split at h
      · cases h
      · rename_i exp s4 h4
        obtain ⟨e1, e2⟩ := exp_sound h4
        cases h
        refine ⟨?_, _, int, frac, exp, rfl, m2, i2, f2, e2⟩
        rw [List.append_assoc, List.append_assoc, List.append_assoc, ← e1, ← f1, ← i1, ← m1]

/-- a number ends here -/
def NumberEnd (r : Bytes) : Prop := NoDigit r ∧ ∀ b, r.head? = some b → b ≠ 46 ∧ b ≠ 101 ∧ b ≠ 69

theorem minus_complete {sign s : Bytes} (h : sign = [] ∨ sign = [45]) (hs : s.head? ≠ some 45) : jsonMinus (sign ++ s) = (sign, s) := by
  rcases h with rfl | rfl
  · rw [List.nil_append]
    unfold jsonMinus
    split
    · exact absurd rfl hs
    · rfl
  · rfl

theorem int_complete {int r : Bytes} (h : int = [48] ∨ Digits1 int ∧ int.head? ≠ some 48) (hr : NoDigit r) : jsonInt (int ++ r) = some (int, r) := by
  rcases h with rfl | ⟨⟨h1, h2⟩, h3⟩
  · rfl
  · cases int with
    | nil => exact absurd rfl h1
    | cons b int =>
      rw [List.cons_append]
      unfold jsonInt
      split
      · next he => exact absurd (by rw [(List.cons.inj he).1]; rfl) h3
      · next he =>
        cases he
        obtain ⟨t1, t2⟩ := take_digits (fun x hx => h2 x (List.mem_cons_of_mem _ hx)) hr
        rw [if_pos ((isDigit_iff _).mpr (h2 _ (List.mem_cons_self ..))), t1, t2]
      · next he => cases he

theorem frac_complete {frac r : Bytes} (h : frac = [] ∨ ∃ ds, Digits1 ds ∧ frac = 46 :: ds) (hr : NoDigit r) (h46 : r.head? ≠ some 46) :
    jsonFrac (frac ++ r) = some (frac, r) := by
  rcases h with rfl | ⟨ds, ⟨h1, h2⟩, rfl⟩
  · rw [List.nil_append]
    unfold jsonFrac
    split
    · exact absurd rfl h46
    · rfl
  · obtain ⟨t1, t2⟩ := take_digits h2 hr
    show (if ((ds ++ r).takeWhile jsonIsDigit).isEmpty then none else some (46 :: (ds ++ r).takeWhile jsonIsDigit, (ds ++ r).dropWhile jsonIsDigit)) = _
    rw [t1, t2, if_neg (by simpa using h1)]

theorem sign_complete {sg ds r : Bytes} (h : sg = [] ∨ sg = [43] ∨ sg = [45]) (hd : Digits1 ds) : jsonSign (sg ++ (ds ++ r)) = (sg, ds ++ r) := by
  rcases h with rfl | rfl | rfl
  · cases ds with
    | nil => exact absurd rfl hd.1
    | cons d ds =>
      have := hd.2 d (List.mem_cons_self ..)
      show (if d == 43 || d == 45 then _ else _) = _
      rw [if_neg]
      · rfl
      · rw [Bool.or_eq_true, beq_iff_eq, beq_iff_eq]
        rintro (rfl | rfl) <;> exact absurd this (by decide)
  · rfl
  · rfl

theorem exp_complete {e r : Bytes} (h : e = [] ∨ ∃ l sg ds, (l = 101 ∨ l = 69) ∧ (sg = [] ∨ sg = [43] ∨ sg = [45]) ∧ Digits1 ds ∧ e = l :: (sg ++ ds))
    (hr : NumberEnd r) : jsonExp (e ++ r) = some (e, r) := by
  rcases h with rfl | ⟨l, sg, ds, hl, hsg, hd, rfl⟩
  · cases r with
    | nil => rfl
    | cons b r =>
      obtain ⟨_, h1, h2⟩ := hr.2 b rfl
      show (if b == 101 || b == 69 then _ else _) = _
      rw [if_neg]
      · rw [Bool.or_eq_true, beq_iff_eq, beq_iff_eq]
        rintro (h | h)
        · exact h1 h
        · exact h2 h
  · obtain ⟨t1, t2⟩ := take_digits hd.2 hr.1
    have e1 : l :: (sg ++ ds) ++ r = l :: (sg ++ (ds ++ r)) := by simp
    rw [e1]
    unfold jsonExp
    dsimp only
    rw [sign_complete hsg hd, t1, t2, if_pos, if_neg (by simpa using hd.1)]
    rw [Bool.or_eq_true, beq_iff_eq, beq_iff_eq]
    exact hl

theorem number_complete {n r : Bytes} (h : JsonNumber n) (hr : NumberEnd r) : jsonParseNumber (n ++ r) = some (some (n, r)) := by
  obtain ⟨sign, int, frac, exp, rfl, h1, h2, h3, h4⟩ := h
  have e0 : sign ++ int ++ frac ++ exp ++ r = sign ++ (int ++ (frac ++ (exp ++ r))) := by simp
  have x1 : NoDigit (exp ++ r) ∧ (exp ++ r).head? ≠ some 46 := by
    rcases h4 with rfl | ⟨l, sg, ds, hl, _, _, rfl⟩
    · refine ⟨hr.1, fun he => ?_⟩
      rw [List.nil_append] at he
      exact (hr.2 _ he).1 rfl
    · constructor
      · intro b hb
        rw [List.cons_append, List.head?_cons, Option.some.injEq] at hb
        subst hb
        rcases hl with rfl | rfl <;> rfl
      · rw [List.cons_append, List.head?_cons, ne_eq, Option.some.injEq]
        rcases hl with rfl | rfl <;> decide
  have x2 : NoDigit (frac ++ (exp ++ r)) := by
    rcases h3 with rfl | ⟨ds, _, rfl⟩
    · exact x1.1
    · intro b hb
      rw [List.cons_append, List.head?_cons, Option.some.injEq] at hb
      subst hb
      rfl
  have x3 : (int ++ (frac ++ (exp ++ r))).head? ≠ some 45 := by
    rcases h2 with rfl | ⟨⟨g1, g2⟩, _⟩
    · simp
    · cases int with
      | nil => exact absurd rfl g1
      | cons b int =>
        rw [List.cons_append, List.head?_cons, ne_eq, Option.some.injEq]
        rintro rfl
        exact absurd (g2 _ (List.mem_cons_self ..)) (by decide)
  rw [e0]
  unfold jsonParseNumber
  rw [minus_complete h1 x3]
  dsimp only
  rw [int_complete h2 x2]
  dsimp only
  rw [frac_complete h3 x1.1 x1.2]
  dsimp only
  rw [exp_complete h4 hr]

/-! Values -/

theorem ws_iff (b : UInt8) : jsonIsWs b = true ↔ b = 32 ∨ b = 9 ∨ b = 10 ∨ b = 13 := by
  unfold jsonIsWs
  simp only [Bool.or_eq_true, beq_iff_eq, or_assoc]

theorem skip_sound (s : Bytes) : ∃ w, JsonWs w ∧ s = w ++ jsonSkip s := by
  refine ⟨s.takeWhile jsonIsWs, ?_, (List.takeWhile_append_dropWhile).symm⟩
  induction s with
  | nil => intro b hb; cases hb
  | cons c s ih =>
    intro b hb
    rw [List.takeWhile_cons] at hb
    split at hb
    · rename_i hc
      rw [List.mem_cons] at hb
      rcases hb with rfl | hb
      · exact (ws_iff b).mp hc
      · exact ih b hb
    · cases hb

theorem skip_ws {w : Bytes} (h : JsonWs w) (s : Bytes) : jsonSkip (w ++ s) = jsonSkip s := jsonSkip_all (fun b hb => (ws_iff b).mpr (h b hb)) s

theorem skip_cons {w : Bytes} (h : JsonWs w) {c : UInt8} (hc : jsonIsWs c = false) (s : Bytes) : jsonSkip (w ++ c :: s) = c :: s := by
  rw [skip_ws h, jsonSkip_head hc]

theorem parseString_sound {s m r : Bytes} (h : jsonParseString s = some (some (m, r))) : ∃ w k, s = w ++ 34 :: (k ++ 34 :: r) ∧ JsonWs w ∧ JsonChars k m := by
  unfold jsonParseString at h
  split at h
  · rename_i s' hs
    obtain ⟨w, hw, he⟩ := skip_sound s
    rw [Option.some.injEq] at h
    obtain ⟨k, rfl, hk⟩ := chars_sound _ h
    exact ⟨w, k, by rw [← hs]; exact he, hw, hk⟩
  · cases h

theorem parseString_complete {w k m : Bytes} (hw : JsonWs w) (hk : JsonChars k m) (r : Bytes) :
    jsonParseString (w ++ 34 :: (k ++ 34 :: r)) = some (some (m, r)) := by
  unfold jsonParseString
  rw [skip_cons hw (by decide)]
  show some (jsonChars (k ++ 34 :: r).length (k ++ 34 :: r)) = _
  rw [chars_complete hk _ _ (by simp)]

theorem word_sound {s x r : Bytes} (h : jsonParseWord s = some (x, r)) : s = x ++ r ∧ (x = bytes! "true" ∨ x = bytes! "false" ∨ x = bytes! "null") := by
  have key : ∀ p : Bytes, p.isPrefixOf s = true → s = p ++ s.drop p.length := fun p hp => by
    obtain ⟨t, rfl⟩ := List.isPrefixOf_iff_prefix.mp hp
    simp
  unfold jsonParseWord at h
  repeat' split at h
  all_goals first
    | (rename_i hp
       cases h
       exact ⟨key _ hp, by simp⟩)
    | cases h

theorem value_sound (fuel : Nat) :
    (∀ {s : Bytes} {t : PTree} {r : Bytes}, jsonValue fuel s = some (t, r) → ∃ w v, s = w ++ (v ++ r) ∧ JsonWs w ∧ JsonValue v t) ∧
    (∀ {s : Bytes} {ks : List (Bytes × PTree)} {r : Bytes}, jsonParseMembers fuel s = some (ks, r) → ∃ v, s = v ++ 125 :: r ∧ JsonMembers v ks) ∧
    (∀ {s : Bytes} {ks : List (Bytes × PTree)} {r : Bytes}, jsonParseElements fuel s = some (ks, r) → ∃ v, s = v ++ 93 :: r ∧ JsonElements v ks) := by
  induction fuel with
  | zero =>
    refine ⟨?_, ?_, ?_⟩
    · intro s t r h; rw [jsonValue] at h; cases h
    · intro s t r h; rw [jsonParseMembers] at h; cases h
    · intro s t r h; rw [jsonParseElements] at h; cases h
  | succ fuel ih =>
    obtain ⟨ihv, ihm, ihe⟩ := ih
    refine ⟨?_, ?_, ?_⟩
    · intro s t r h
      rw [jsonValue] at h
      obtain ⟨w, hw, hs⟩ := skip_sound s
      split at h
      · rename_i s1 h1
        rw [h1] at hs
        obtain ⟨w2, hw2, hs2⟩ := skip_sound s1
        split at h
        · rename_i s2 h2
          cases h
          exact ⟨w, 123 :: (w2 ++ [125]), by rw [hs, hs2, h2]; simp, hw, .object0 hw2⟩
        · rw [Option.map_eq_some_iff] at h
          obtain ⟨⟨ks, r'⟩, hy, h⟩ := h
          cases h
          obtain ⟨v, hv, hm⟩ := ihm hy
          have hm' : JsonMembers (w2 ++ v) ks := by
            have app : ∀ x : Bytes, JsonWs x → JsonWs (w2 ++ x) := fun x hx b hb => by
              rw [List.mem_append] at hb
              exact hb.elim (hw2 b) (hx b)
            cases hm with
            | one g1 g2 g3 g4 g5 g6 =>
              rw [← List.append_assoc]
              exact .one (app _ g1) g2 g3 g4 g5 g6
            | cons g1 g2 g3 g4 g5 g6 g7 =>
              rw [← List.append_assoc]
              exact .cons (app _ g1) g2 g3 g4 g5 g6 g7
          exact ⟨w, 123 :: ((w2 ++ v) ++ [125]), by rw [hs, hs2, hv]; simp, hw, .object hm'⟩
      · rename_i s1 h1
        rw [h1] at hs
        obtain ⟨w2, hw2, hs2⟩ := skip_sound s1
        split at h
        · rename_i s2 h2
          cases h
          exact ⟨w, 91 :: (w2 ++ [93]), by rw [hs, hs2, h2]; simp, hw, .array0 hw2⟩
        · rw [Option.map_eq_some_iff] at h
          obtain ⟨⟨ks, r'⟩, hy, h⟩ := h
          cases h
          obtain ⟨v, hv, hm⟩ := ihe hy
          have hm' : JsonElements (w2 ++ v) ks := by
            have app : ∀ x : Bytes, JsonWs x → JsonWs (w2 ++ x) := fun x hx b hb => by
              rw [List.mem_append] at hb
              exact hb.elim (hw2 b) (hx b)
            cases hm with
            | one g1 g2 g3 =>
              rw [← List.append_assoc]
              exact .one (app _ g1) g2 g3
            | cons g1 g2 g3 g4 =>
              rw [← List.append_assoc]
              exact .cons (app _ g1) g2 g3 g4
          exact ⟨w, 91 :: ((w2 ++ v) ++ [93]), by rw [hs, hs2, hv]; simp, hw, .array hm'⟩
      · split at h
        · rename_i o ho
          rw [Option.map_eq_some_iff] at h
          obtain ⟨⟨m, r'⟩, rfl, h⟩ := h
          cases h
          obtain ⟨w2, k, h2, hw2, hk⟩ := parseString_sound ho
          refine ⟨w ++ w2, 34 :: (k ++ [34]), ?_, ?_, .string hk⟩
          · refine hs.trans ?_
            rw [h2]
            simp
          · intro b hb
            rw [List.mem_append] at hb
            exact hb.elim (hw b) (hw2 b)
        · split at h
          · rename_i x hx
            cases h
            obtain ⟨h2, h3⟩ := word_sound (x := x.1) (r := x.2) hx
            exact ⟨w, x.1, hs.trans (congrArg (w ++ ·) h2), hw, .word h3⟩
          · split at h
            · rename_i o ho
              rw [Option.map_eq_some_iff] at h
              obtain ⟨⟨m, r'⟩, rfl, h⟩ := h
              cases h
              obtain ⟨h2, h3⟩ := number_sound ho
              exact ⟨w, m, hs.trans (congrArg (w ++ ·) h2), hw, .number h3⟩
            · cases h
    · intro s ks r h
      rw [jsonParseMembers] at h
      split at h
      · rename_i key s1 h1
        obtain ⟨w1, k, rfl, hw1, hk⟩ := parseString_sound h1
        split at h
        · rename_i s2 h2
          obtain ⟨w2, hw2, hs2⟩ := skip_sound s1
          rw [h2] at hs2
          split at h
          · cases h
          · rename_i v s3 h3
            obtain ⟨w3, tx, rfl, hw3, hv⟩ := ihv h3
            obtain ⟨w4, hw4, hs4⟩ := skip_sound s3
            split at h
            · rename_i s4 h4
              rw [h4] at hs4
              rw [Option.map_eq_some_iff] at h
              obtain ⟨⟨ks', r'⟩, hy, h⟩ := h
              cases h
              obtain ⟨rr, rfl, hrr⟩ := ihm hy
              exact ⟨_, by rw [hs2, hs4]; simp, .cons hw1 hk hw2 hw3 hv hw4 hrr⟩
            · rename_i s4 h4
              rw [h4] at hs4
              cases h
              exact ⟨_, by rw [hs2, hs4]; simp, .one hw1 hk hw2 hw3 hv hw4⟩
            · cases h
        · cases h
      · cases h
    · intro s ks r h
      rw [jsonParseElements] at h
      split at h
      · cases h
      · rename_i v s3 h3
        obtain ⟨w3, tx, rfl, hw3, hv⟩ := ihv h3
        obtain ⟨w4, hw4, hs4⟩ := skip_sound s3
        split at h
        · rename_i s4 h4
          rw [h4] at hs4
          rw [Option.map_eq_some_iff] at h
          obtain ⟨⟨ks', r'⟩, hy, h⟩ := h
          cases h
          obtain ⟨rr, rfl, hrr⟩ := ihe hy
          exact ⟨_, by rw [hs4]; simp, .cons hw3 hv hw4 hrr⟩
        · rename_i s4 h4
          rw [h4] at hs4
          cases h
          exact ⟨_, by rw [hs4]; simp, .one hw3 hv hw4⟩
        · cases h

theorem ws_end {w : Bytes} (h : JsonWs w) : NumberEnd w := by
  constructor
  · intro b hb
    have := h b (List.mem_of_mem_head? hb)
    rcases this with rfl | rfl | rfl | rfl <;> rfl
  · intro b hb
    have := h b (List.mem_of_mem_head? hb)
    rcases this with rfl | rfl | rfl | rfl <;> decide

theorem ws_end_cons {w : Bytes} (h : JsonWs w) {c : UInt8} (hc : c = 44 ∨ c = 93 ∨ c = 125) (r : Bytes) : NumberEnd (w ++ c :: r) := by
  have key : ∀ b, (w ++ c :: r).head? = some b → b = 32 ∨ b = 9 ∨ b = 10 ∨ b = 13 ∨ b = 44 ∨ b = 93 ∨ b = 125 := by
    intro b hb
    cases w with
    | nil =>
      rw [List.nil_append, List.head?_cons, Option.some.injEq] at hb
      subst hb
      rcases hc with h | h | h <;> simp [h]
    | cons x w =>
      rw [List.cons_append, List.head?_cons, Option.some.injEq] at hb
      subst hb
      rcases h x (List.mem_cons_self ..) with h | h | h | h <;> simp [h]
  constructor
  · intro b hb
    rcases key b hb with rfl | rfl | rfl | rfl | rfl | rfl | rfl <;> rfl
  · intro b hb
    rcases key b hb with rfl | rfl | rfl | rfl | rfl | rfl | rfl <;> decide

/-- a value that is neither an object, an array nor a string -/
theorem jsonValue_other {fuel : Nat} {s s' : Bytes} {c : UInt8} (h : jsonSkip s = c :: s') (hw : jsonIsWs c = false) (h1 : c ≠ 123) (h2 : c ≠ 91)
    (h3 : c ≠ 34) : jsonValue (fuel + 1) s = (match jsonParseWord (c :: s') with
      | some x => some (.leaf x.1, x.2)
      | none =>
        match jsonParseNumber (c :: s') with
        | some r => r.map (fun x => (.leaf x.1, x.2))
        | none => none) := by
  rw [jsonValue, h]
  have hs : jsonParseString (c :: s') = none := by
    unfold jsonParseString
    rw [jsonSkip_head hw]
    split
    · next he => exact absurd (List.cons.inj he).1 h3
    · rfl
  split
  · next he => exact absurd (List.cons.inj he).1 h1
  · next he => exact absurd (List.cons.inj he).1 h2
  · rw [hs]
    rfl

theorem word_complete {x : Bytes} (h : x = bytes! "true" ∨ x = bytes! "false" ∨ x = bytes! "null") (r : Bytes) : jsonParseWord (x ++ r) = some (x, r) := by
  have key : ∀ p : Bytes, p.isPrefixOf (p ++ r) = true := fun p => List.isPrefixOf_iff_prefix.mpr ⟨r, rfl⟩
  unfold jsonParseWord
  rcases h with rfl | rfl | rfl
  · rw [if_pos (key _)]; rfl
  · rw [if_neg (by simp), if_pos (key _)]; rfl
  · rw [if_neg (by simp), if_neg (by simp), if_pos (key _)]; rfl

/-- the first octet of a number -/
theorem number_head {n : Bytes} (h : JsonNumber n) : ∃ c n', n = c :: n' ∧ (c = 45 ∨ (48 ≤ c.toNat ∧ c.toNat ≤ 57)) := by
  obtain ⟨sign, int, frac, exp, rfl, h1, h2, _, _⟩ := h
  rcases h1 with rfl | rfl
  · rcases h2 with rfl | ⟨⟨g1, g2⟩, _⟩
    · exact ⟨48, _, rfl, .inr (by decide)⟩
    · cases int with
      | nil => exact absurd rfl g1
      | cons b int => exact ⟨b, _, rfl, .inr (g2 b (List.mem_cons_self ..))⟩
  · exact ⟨45, _, rfl, .inl rfl⟩

theorem number_byte {c : UInt8} (h : c = 45 ∨ (48 ≤ c.toNat ∧ c.toNat ≤ 57)) :
    jsonIsWs c = false ∧ c ≠ 123 ∧ c ≠ 91 ∧ c ≠ 34 ∧ c ≠ 116 ∧ c ≠ 102 ∧ c ≠ 110 :=
  byte_cases (P := fun c => c = 45 ∨ (48 ≤ c.toNat ∧ c.toNat ≤ 57) →
    jsonIsWs c = false ∧ c ≠ 123 ∧ c ≠ 91 ∧ c ≠ 34 ∧ c ≠ 116 ∧ c ≠ 102 ∧ c ≠ 110) (by decide +kernel) c h

theorem not_word {c : UInt8} {s : Bytes} (h1 : c ≠ 116) (h2 : c ≠ 102) (h3 : c ≠ 110) : jsonParseWord (c :: s) = none := by
  have key : ∀ (a : UInt8) (p : Bytes), c ≠ a → ¬ ((a :: p).isPrefixOf (c :: s) = true) := fun a p ha hp => by
    obtain ⟨t, ht⟩ := List.isPrefixOf_iff_prefix.mp hp
    exact ha (List.cons.inj ht).1.symm
  unfold jsonParseWord
  refine (if_neg (key 116 _ h1)).trans ((if_neg (key 102 _ h2)).trans (if_neg (key 110 _ h3)))

theorem members_head {s : Bytes} {ks : List (Bytes × PTree)} (h : JsonMembers s ks) : ∃ w s', s = w ++ 34 :: s' ∧ JsonWs w := by
  cases h with
  | one g1 => exact ⟨_, _, rfl, g1⟩
  | cons g1 => exact ⟨_, _, rfl, g1⟩

theorem value_head {v : Bytes} {t : PTree} (h : JsonValue v t) : ∃ c v', v = c :: v' ∧ jsonIsWs c = false ∧ c ≠ 93 ∧ c ≠ 125 ∧ c ≠ 0xEF := by
  cases h with
  | number hn =>
    obtain ⟨c, n', rfl, hc⟩ := number_head hn
    exact ⟨c, n', rfl, byte_cases (P := fun c => c = 45 ∨ (48 ≤ c.toNat ∧ c.toNat ≤ 57) →
      jsonIsWs c = false ∧ c ≠ 93 ∧ c ≠ 125 ∧ c ≠ 0xEF) (by decide +kernel) c hc⟩
  | word hx => rcases hx with rfl | rfl | rfl <;> exact ⟨_, _, rfl, by decide, by decide, by decide, by decide⟩
  | _ => exact ⟨_, _, rfl, by decide, by decide, by decide, by decide⟩

theorem elements_head {s : Bytes} {ks : List (Bytes × PTree)} (h : JsonElements s ks) :
    ∃ w c s', s = w ++ c :: s' ∧ JsonWs w ∧ jsonIsWs c = false ∧ c ≠ 93 := by
  cases h with
  | one g1 g2 g3 =>
    obtain ⟨c, v', rfl, hc⟩ := value_head g2
    exact ⟨_, c, _, rfl, g1, hc.1, hc.2.1⟩
  | cons g1 g2 g3 =>
    obtain ⟨c, v', rfl, hc⟩ := value_head g2
    exact ⟨_, c, _, rfl, g1, hc.1, hc.2.1⟩

theorem members_ws {w : Bytes} (h : JsonWs w) {fuel : Nat} {s : Bytes} : jsonParseMembers fuel (w ++ s) = jsonParseMembers fuel s := by
  cases fuel with
  | zero => rfl
  | succ fuel =>
    have : jsonParseString (w ++ s) = jsonParseString s := by unfold jsonParseString; rw [skip_ws h]
    rw [jsonParseMembers, jsonParseMembers, this]

theorem value_ws {w : Bytes} (h : JsonWs w) {fuel : Nat} {s : Bytes} : jsonValue fuel (w ++ s) = jsonValue fuel s := by
  cases fuel with
  | zero => rfl
  | succ fuel => rw [jsonValue, jsonValue, skip_ws h]

theorem elements_ws {w : Bytes} (h : JsonWs w) {fuel : Nat} {s : Bytes} : jsonParseElements fuel (w ++ s) = jsonParseElements fuel s := by
  cases fuel with
  | zero => rfl
  | succ fuel => rw [jsonParseElements, jsonParseElements, value_ws h]

theorem jsonValue_array0 {fuel : Nat} {s s' s'' : Bytes} (h : jsonSkip s = 91 :: s') (h2 : jsonSkip s' = 93 :: s'') :
    jsonValue (fuel + 1) s = some (.node [] [], s'') := by
  rw [jsonValue, h]
  show (match jsonSkip s' with | 93 :: s => some (PTree.node [] [], s) | s => (jsonParseElements fuel s).map (fun x : List (Bytes × PTree) × Bytes => (PTree.node [] x.1, x.2))) = _
  rw [h2]
  rfl

mutual
theorem value_complete {v : Bytes} {t : PTree} (h : JsonValue v t) : ∀ (fuel : Nat) (w r : Bytes), 2 * v.length ≤ fuel → JsonWs w → NumberEnd r →
    jsonValue fuel (w ++ (v ++ r)) = some (t, r) := by
  intro fuel w r hf hw hr
  cases h with
  | @string s m hk =>
    cases fuel with
    | zero => simp at hf
    | succ fuel =>
      have e : w ++ (34 :: (s ++ [34]) ++ r) = w ++ 34 :: (s ++ 34 :: r) := by simp
      rw [e, jsonValue_string ⟨_, skip_cons hw (by decide) _⟩, parseString_complete hw hk]
      rfl
  | number hn =>
    obtain ⟨c, n', rfl, hc⟩ := number_head hn
    obtain ⟨b1, b2, b3, b4, b5, b6, b7⟩ := number_byte hc
    cases fuel with
    | zero => simp at hf
    | succ fuel =>
      have e := number_complete hn hr
      rw [List.cons_append] at e ⊢
      rw [jsonValue_other (skip_cons hw b1 _) b1 b2 b3 b4, not_word b5 b6 b7]
      dsimp only
      rw [e]
      rfl
  | word hx =>
    have e := word_complete hx r
    cases fuel with
    | zero => rcases hx with rfl | rfl | rfl <;> simp at hf
    | succ fuel =>
      have key : ∀ (c : UInt8) (v' : Bytes), v = c :: v' → jsonIsWs c = false → c ≠ 123 → c ≠ 91 → c ≠ 34 →
          jsonValue (fuel + 1) (w ++ (v ++ r)) = some (.node v [], r) := by
        intro c v' hv g1 g2 g3 g4
        subst hv
        rw [List.cons_append] at e ⊢
        rw [jsonValue_other (skip_cons hw g1 _) g1 g2 g3 g4, e]
        rfl
      rcases hx with hv | hv | hv <;> exact key _ _ hv (by decide) (by decide) (by decide) (by decide)
  | @object0 w2 hw2 =>
    cases fuel with
    | zero => simp at hf
    | succ fuel =>
      have e : w ++ (123 :: (w2 ++ [125]) ++ r) = w ++ 123 :: (w2 ++ 125 :: r) := by simp
      rw [e, jsonValue_empty (skip_cons hw (by decide) _) (skip_cons hw2 (by decide) _)]
  | @object s ks hm =>
    cases fuel with
    | zero => simp at hf
    | succ fuel =>
      have e : w ++ (123 :: (s ++ [125]) ++ r) = w ++ 123 :: (s ++ 125 :: r) := by simp
      have ih := members_complete hm fuel r (by simp at hf; omega)
      obtain ⟨w1, s1, rfl, hw1⟩ := members_head hm
      have e2 : w1 ++ 34 :: s1 ++ 125 :: r = w1 ++ 34 :: (s1 ++ 125 :: r) := by simp
      rw [e2] at e ih
      rw [e, jsonValue_object (skip_cons hw (by decide) _) (skip_cons hw1 (by decide) _) (by decide), skip_cons hw1 (by decide)]
      rw [members_ws hw1] at ih
      rw [ih]
      rfl
  | @array0 w2 hw2 =>
    cases fuel with
    | zero => simp at hf
    | succ fuel =>
      have e : w ++ (91 :: (w2 ++ [93]) ++ r) = w ++ 91 :: (w2 ++ 93 :: r) := by simp
      rw [e, jsonValue_array0 (skip_cons hw (by decide) _) (skip_cons hw2 (by decide) _)]
  | @array s ks hm =>
    cases fuel with
    | zero => simp at hf
    | succ fuel =>
      have e : w ++ (91 :: (s ++ [93]) ++ r) = w ++ 91 :: (s ++ 93 :: r) := by simp
      have ih := elements_complete hm fuel r (by simp at hf; omega)
      obtain ⟨w1, c, s1, rfl, hw1, hc, hc2⟩ := elements_head hm
      have e2 : w1 ++ c :: s1 ++ 93 :: r = w1 ++ c :: (s1 ++ 93 :: r) := by simp
      rw [e2] at e ih
      rw [e, jsonValue_array (skip_cons hw (by decide) _) (skip_cons hw1 hc _) hc2, skip_cons hw1 hc]
      rw [elements_ws hw1] at ih
      rw [ih]
      rfl
theorem members_complete {s : Bytes} {ks : List (Bytes × PTree)} (h : JsonMembers s ks) : ∀ (fuel : Nat) (r : Bytes), 2 * s.length + 1 ≤ fuel →
    jsonParseMembers fuel (s ++ 125 :: r) = some (ks, r) := by
  intro fuel r hf
  cases fuel with
  | zero => omega
  | succ fuel =>
    cases h with
    | @one w1 k key w2 w3 v w4 t g1 g2 g3 g4 g5 g6 =>
      have ih := value_complete g5 fuel w3 (w4 ++ 125 :: r) (by simp at hf; omega) g4 (ws_end_cons g6 (.inr (.inr rfl)) r)
      have e : w1 ++ 34 :: (k ++ 34 :: (w2 ++ 58 :: (w3 ++ (v ++ w4)))) ++ 125 :: r =
        w1 ++ 34 :: (k ++ 34 :: (w2 ++ 58 :: (w3 ++ (v ++ (w4 ++ 125 :: r))))) := by simp
      rw [e, members_end (parseString_complete g1 g2 _) (skip_cons g3 (by decide) _) ih (skip_cons g6 (by decide) _)]
    | @cons w1 k key w2 w3 v w4 rest t ks g1 g2 g3 g4 g5 g6 g7 =>
      have ih := value_complete g5 fuel w3 (w4 ++ 44 :: (rest ++ 125 :: r)) (by simp at hf; omega) g4 (ws_end_cons g6 (.inl rfl) _)
      have ih2 := members_complete g7 fuel r (by simp at hf; omega)
      have e : w1 ++ 34 :: (k ++ 34 :: (w2 ++ 58 :: (w3 ++ (v ++ (w4 ++ 44 :: rest))))) ++ 125 :: r =
        w1 ++ 34 :: (k ++ 34 :: (w2 ++ 58 :: (w3 ++ (v ++ (w4 ++ 44 :: (rest ++ 125 :: r)))))) := by simp
      rw [e, members_comma (parseString_complete g1 g2 _) (skip_cons g3 (by decide) _) ih (skip_cons g6 (by decide) _), ih2]
      rfl
theorem elements_complete {s : Bytes} {ks : List (Bytes × PTree)} (h : JsonElements s ks) : ∀ (fuel : Nat) (r : Bytes), 2 * s.length + 1 ≤ fuel →
    jsonParseElements fuel (s ++ 93 :: r) = some (ks, r) := by
  intro fuel r hf
  cases fuel with
  | zero => omega
  | succ fuel =>
    cases h with
    | @one w1 v w2 t g1 g2 g3 =>
      have ih := value_complete g2 fuel w1 (w2 ++ 93 :: r) (by simp at hf; omega) g1 (ws_end_cons g3 (.inr (.inl rfl)) r)
      have e : w1 ++ (v ++ w2) ++ 93 :: r = w1 ++ (v ++ (w2 ++ 93 :: r)) := by simp
      rw [e, elements_end ih (skip_cons g3 (by decide) _)]
    | @cons w1 v w2 rest t ks g1 g2 g3 g4 =>
      have ih := value_complete g2 fuel w1 (w2 ++ 44 :: (rest ++ 93 :: r)) (by simp at hf; omega) g1 (ws_end_cons g3 (.inl rfl) _)
      have ih2 := elements_complete g4 fuel r (by simp at hf; omega)
      have e : w1 ++ (v ++ (w2 ++ 44 :: rest)) ++ 93 :: r = w1 ++ (v ++ (w2 ++ 44 :: (rest ++ 93 :: r))) := by simp
      rw [e, elements_comma ih (skip_cons g3 (by decide) _), ih2]
      rfl
end

/-- **the reader accepts exactly the documents of the grammar** -/
theorem readJsonText_iff (text : Bytes) (t : PTree) : readJsonText text = some t ↔ JsonDocument text t := by
  unfold readJsonText
  constructor
  · intro h
    dsimp only at h
    have key : ∀ s : Bytes, (match jsonValue (2 * s.length + 1) s with
        | some (t, rest) => if (jsonSkip rest).isEmpty then some t else none
        | none => none) = some t → ∃ w1 v w2, JsonWs w1 ∧ JsonValue v t ∧ JsonWs w2 ∧ s = w1 ++ (v ++ w2) := by
      intro s h
      split at h
      · rename_i t' rest hv
        split at h
        · rename_i he
          cases h
          obtain ⟨w1, v, h1, h2, h3⟩ := (value_sound _).1 hv
          obtain ⟨w2, h4, h5⟩ := skip_sound rest
          rw [List.isEmpty_iff] at he
          rw [he, List.append_nil] at h5
          exact ⟨w1, v, w2, h2, h3, h4, by rw [h1, h5]⟩
        · cases h
      · cases h
    obtain ⟨w1, v, w2, h1, h2, h3, h4⟩ := key _ h
    split at h4
    · rename_i hb
      obtain ⟨r, rfl⟩ := List.isPrefixOf_iff_prefix.mp hb
      exact ⟨_, w1, v, w2, .inr rfl, h1, h2, h3, congrArg ([0xEF, 0xBB, 0xBF] ++ ·) (by simpa using h4)⟩
    · exact ⟨[], w1, v, w2, .inl rfl, h1, h2, h3, h4⟩
  · rintro ⟨bom, w1, v, w2, hb, h1, h2, h3, rfl⟩
    have key : (match jsonValue (2 * (w1 ++ (v ++ w2)).length + 1) (w1 ++ (v ++ w2)) with
        | some (t, rest) => if (jsonSkip rest).isEmpty then some t else none
        | none => none) = some t := by
      rw [value_complete h2 _ w1 w2 (by simp; omega) h1 (ws_end h3)]
      dsimp only
      rw [show jsonSkip w2 = [] by have := skip_ws h3 []; rw [List.append_nil] at this; rw [this]; rfl]
      rfl
    rcases hb with rfl | rfl
    · have hne : ¬ (([0xEF, 0xBB, 0xBF] : Bytes).isPrefixOf (w1 ++ (v ++ w2)) = true) := by
        intro hp
        obtain ⟨r, hr⟩ := List.isPrefixOf_iff_prefix.mp hp
        obtain ⟨c, v', rfl, hc⟩ := value_head h2
        cases w1 with
        | nil => exact hc.2.2.2 (List.cons.inj hr).1.symm
        | cons b w1 =>
          have := h1 b (List.mem_cons_self ..)
          rw [show b = 0xEF from (List.cons.inj hr).1.symm] at this
          revert this
          decide
      rw [List.nil_append, if_neg hne]
      exact key
    · have hp : (([0xEF, 0xBB, 0xBF] : Bytes).isPrefixOf ([0xEF, 0xBB, 0xBF] ++ (w1 ++ (v ++ w2))) = true) := List.isPrefixOf_iff_prefix.mpr ⟨_, rfl⟩
      rw [if_pos hp]
      exact key

end Ndncert
