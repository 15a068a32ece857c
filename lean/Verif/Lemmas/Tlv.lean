import Verif.Model.Tlv

/-! # Round trips of the TLV layer (helper lemmas) -/

namespace Ndncert

@[simp] theorem beBytes_length (k n : Nat) : (beBytes k n).length = k := by
  induction k with
  | zero => rfl
  | succ k ih => simp [beBytes, ih]

theorem foldl_be_acc (bs : Bytes) (a : Nat) :
    bs.foldl (fun a b => a * 256 + b.toNat) a = a * 256 ^ bs.length + beVal bs := by
  induction bs generalizing a with
  | nil => simp [beVal]
  | cons b bs ih =>
    simp only [List.foldl_cons, List.length_cons, beVal]
    rw [ih, ih (0 * 256 + b.toNat), Nat.pow_succ]
    rw [Nat.zero_mul, Nat.zero_add, Nat.add_mul, Nat.mul_assoc, Nat.mul_comm 256, Nat.add_assoc]

theorem beVal_cons (b : UInt8) (bs : Bytes) :
    beVal (b :: bs) = b.toNat * 256 ^ bs.length + beVal bs := by
  show (b :: bs).foldl _ 0 = _
  rw [List.foldl_cons, foldl_be_acc]; simp

theorem beVal_beBytes (k n : Nat) : beVal (beBytes k n) = n % 256 ^ k := by
  induction k with
  | zero => simp [beBytes, beVal, Nat.mod_one]
  | succ k ih =>
    rw [beBytes, beVal_cons, beBytes_length, ih, UInt8.toNat_ofNat']
    have h := Nat.mod_mul (x := n) (a := 256 ^ k) (b := 256)
    rw [Nat.pow_succ 256 k, h, Nat.add_comm, Nat.mul_comm]

theorem beVal_beBytes_of_lt {k n : Nat} (h : n < 256 ^ k) : beVal (beBytes k n) = n := by
  rw [beVal_beBytes, Nat.mod_eq_of_lt h]

theorem beVal_lt (bs : Bytes) : beVal bs < 256 ^ bs.length := by
  induction bs with
  | nil => simp [beVal]
  | cons b bs ih =>
    rw [beVal_cons, List.length_cons, Nat.pow_succ]
    have hb : b.toNat < 256 := b.toNat_lt
    have : b.toNat * 256 ^ bs.length ≤ 255 * 256 ^ bs.length := Nat.mul_le_mul_right _ (by omega)
    omega

theorem beBytes_beVal (bs : Bytes) : beBytes bs.length (beVal bs) = bs := by
  have key : ∀ (bs : Bytes) (a : Nat), beBytes bs.length (a * 256 ^ bs.length + beVal bs) = bs := by
    intro bs
    induction bs with
    | nil => intro a; rfl
    | cons b bs ih =>
      intro a
      have hlt := beVal_lt bs
      rw [List.length_cons, beBytes, beVal_cons]
      have e1 : a * 256 ^ (bs.length + 1) + (b.toNat * 256 ^ bs.length + beVal bs)
          = (a * 256 + b.toNat) * 256 ^ bs.length + beVal bs := by
        rw [Nat.pow_succ, Nat.add_mul, Nat.mul_assoc, Nat.mul_comm 256, Nat.add_assoc]
      rw [e1, ih]
      congr 1
      have hp : 0 < 256 ^ bs.length := Nat.pow_pos (by decide)
      have e2 : ((a * 256 + b.toNat) * 256 ^ bs.length + beVal bs) / 256 ^ bs.length = a * 256 + b.toNat := by
        rw [Nat.mul_comm, Nat.mul_add_div hp, Nat.div_eq_of_lt hlt, Nat.add_zero]
      rw [e2]
      apply UInt8.toNat_inj.mp
      rw [UInt8.toNat_ofNat']
      have hb : b.toNat < 256 := b.toNat_lt
      omega
  have := key bs 0
  simpa using this

theorem varNumber_ne_nil (n : Nat) : varNumber n ≠ [] := by
  unfold varNumber; repeat' split
  all_goals simp

theorem varNumber_length_pos (n : Nat) : 0 < (varNumber n).length :=
  List.length_pos_iff.mpr (varNumber_ne_nil n)

theorem readVarNumber_varNumber (n : Nat) (h : n < 2 ^ 64) (rest : Bytes) :
    readVarNumber (varNumber n ++ rest) = .ok (n, rest) := by
  unfold varNumber
  split
  · rename_i h1
    have hn : (UInt8.ofNat n).toNat = n := by
      rw [UInt8.toNat_ofNat']; omega
    have hlt : UInt8.ofNat n < 253 := by
      rw [UInt8.lt_iff_toNat_lt, hn]; exact h1
    simp [readVarNumber, hlt, hn]
  · split
    · rename_i h1 h2
      have : beVal (beBytes 2 n) = n := beVal_beBytes_of_lt (by simpa using h2)
      have ht : (beBytes 2 n ++ rest).take 2 = beBytes 2 n := by
        rw [List.take_append_of_le_length (by simp)]; exact List.take_of_length_le (by simp)
      have hd : (beBytes 2 n ++ rest).drop 2 = rest := by
        rw [List.drop_append_of_le_length (by simp)]; simp [List.drop_of_length_le]
      simp [readVarNumber, ht, hd, this]
    · split
      · rename_i h1 h2 h3
        have : beVal (beBytes 4 n) = n := beVal_beBytes_of_lt (by simpa using h3)
        have ht : (beBytes 4 n ++ rest).take 4 = beBytes 4 n := by
          rw [List.take_append_of_le_length (by simp)]; exact List.take_of_length_le (by simp)
        have hd : (beBytes 4 n ++ rest).drop 4 = rest := by
          rw [List.drop_append_of_le_length (by simp)]; simp [List.drop_of_length_le]
        simp [readVarNumber, ht, hd, this]
      · have : beVal (beBytes 8 n) = n := beVal_beBytes_of_lt (by simpa using h)
        have ht : (beBytes 8 n ++ rest).take 8 = beBytes 8 n := by
          rw [List.take_append_of_le_length (by simp)]; exact List.take_of_length_le (by simp)
        have hd : (beBytes 8 n ++ rest).drop 8 = rest := by
          rw [List.drop_append_of_le_length (by simp)]; simp [List.drop_of_length_le]
        simp [readVarNumber, ht, hd, this]

theorem readElement_encode (b : Block) (h : b.Fits) (rest : Bytes) :
    readElement (b.encode ++ rest) = .ok (b, rest) := by
  obtain ⟨h0, h1, h2⟩ := h
  unfold readElement Block.encode
  rw [List.append_assoc, List.append_assoc, readVarNumber_varNumber _ (by omega)]
  simp only [Res.bind_ok]
  rw [if_neg (by omega), readVarNumber_varNumber _ h2]
  simp

theorem encode_ne_nil (b : Block) : b.encode ≠ [] := by
  simp [Block.encode, varNumber_ne_nil]

theorem encode_length_pos (b : Block) : 0 < b.encode.length :=
  List.length_pos_iff.mpr (encode_ne_nil b)

@[simp] theorem encodeAll_nil : encodeAll [] = [] := rfl
@[simp] theorem encodeAll_cons (b : Block) (bs : List Block) :
    encodeAll (b :: bs) = b.encode ++ encodeAll bs := rfl
theorem encodeAll_append (as bs : List Block) :
    encodeAll (as ++ bs) = encodeAll as ++ encodeAll bs := by simp [encodeAll]

theorem parseFuel_encodeAll (bs : List Block) (h : ∀ b ∈ bs, b.Fits) (n : Nat)
    (hn : (encodeAll bs).length ≤ n) : parseFuel n (encodeAll bs) = .ok bs := by
  induction bs generalizing n with
  | nil => cases n <;> rfl
  | cons b bs ih =>
    have hb := h b (by simp)
    have hbs : ∀ b' ∈ bs, b'.Fits := fun b' hb' => h b' (by simp [hb'])
    rw [encodeAll_cons] at hn ⊢
    have hpos := encode_length_pos b
    rw [List.length_append] at hn
    obtain ⟨n, rfl⟩ : ∃ m, n = m + 1 := ⟨n - 1, by omega⟩
    have hre := readElement_encode b hb (encodeAll bs)
    cases hl : b.encode ++ encodeAll bs with
    | nil => simp at hl; exact absurd hl.1 (encode_ne_nil b)
    | cons x xs =>
      rw [hl] at hre
      simp only [parseFuel, hre, Res.bind_ok]
      rw [ih hbs n (by omega)]
      rfl

/-- Parsing what was encoded gives the elements back. -/
theorem parse_encodeAll (bs : List Block) (h : ∀ b ∈ bs, b.Fits) :
    parse (encodeAll bs) = .ok bs :=
  parseFuel_encodeAll bs h _ (Nat.le_refl _)

theorem elements_mkBlock (t : Nat) (bs : List Block) (h : ∀ b ∈ bs, b.Fits) :
    (mkBlock t bs).elements = .ok bs := parse_encodeAll bs h

theorem blockFromValue_nested (t : Nat) (b : Block) (h : b.Fits) :
    (nestedBlock t b).blockFromValue = .ok b := by
  have := readElement_encode b h []
  simp at this
  simp [Block.blockFromValue, nestedBlock, this]

theorem blockOfBytes_encode (b : Block) (h : b.Fits) : blockOfBytes b.encode = .ok b :=
  blockFromValue_nested 0 b h

theorem elements_nested (t : Nat) (b : Block) (h : b.Fits) :
    (nestedBlock t b).elements = .ok [b] := by
  have := parse_encodeAll [b] (by simpa using h)
  simpa [Block.elements, nestedBlock, encodeAll] using this

theorem nameOfBlock_nameBlock (n : Name) (h : ∀ c ∈ n, c.Fits) : nameOfBlock (nameBlock n) = .ok n := by
  simp [nameOfBlock, nameBlock, mkBlock, Block.elements, parse_encodeAll n h]

theorem nameBlock_fits (n : Name) (h : NameFits n) : (nameBlock n).Fits := by
  refine ⟨?_, ?_, ?_⟩ <;> simp [nameBlock, mkBlock]
  exact h.2

theorem nniBytes_length (n : Nat) :
    (nniBytes n).length = 1 ∨ (nniBytes n).length = 2 ∨ (nniBytes n).length = 4 ∨ (nniBytes n).length = 8 := by
  unfold nniBytes; repeat' split
  all_goals simp

theorem beVal_nniBytes (n : Nat) (h : n < 2 ^ 64) : beVal (nniBytes n) = n := by
  unfold nniBytes; repeat' split
  all_goals apply beVal_beBytes_of_lt; simpa

theorem readNni_nniBlock (t n : Nat) : readNni (nniBlock t n) = .ok (n % 2 ^ 64) := by
  unfold readNni nniBlock
  rw [if_pos (nniBytes_length _), beVal_nniBytes _ (Nat.mod_lt _ (by decide))]

theorem readNni_nniBlock_of_lt (t n : Nat) (h : n < 2 ^ 64) : readNni (nniBlock t n) = .ok n := by
  rw [readNni_nniBlock, Nat.mod_eq_of_lt h]

@[simp] theorem nniBlock_typ (t n : Nat) : (nniBlock t n).typ = t := rfl
@[simp] theorem binBlock_typ (t : Nat) (s : Bytes) : (binBlock t s).typ = t := rfl
@[simp] theorem binBlock_val (t : Nat) (s : Bytes) : (binBlock t s).val = s := rfl
@[simp] theorem nestedBlock_typ (t : Nat) (b : Block) : (nestedBlock t b).typ = t := rfl
@[simp] theorem mkBlock_typ (t : Nat) (bs : List Block) : (mkBlock t bs).typ = t := rfl
@[simp] theorem nameBlock_typ (n : Name) : (nameBlock n).typ = 7 := rfl
@[simp] theorem readString_binBlock (t : Nat) (s : Bytes) : readString (binBlock t s) = s := rfl

theorem nniBlock_fits (t n : Nat) (h0 : 0 < t) (h1 : t < 2 ^ 32) : (nniBlock t n).Fits := by
  refine ⟨h0, h1, ?_⟩
  have := nniBytes_length (n % 2 ^ 64)
  simp only [nniBlock]; omega

theorem binBlock_fits (t : Nat) (s : Bytes) (h0 : 0 < t) (h1 : t < 2 ^ 32) (h : s.length < 2 ^ 64) :
    (binBlock t s).Fits := ⟨h0, h1, h⟩

/-- A successful element read consumes at least one octet and yields a well-formed type. -/
theorem readVarNumber_ok {bs : Bytes} {n : Nat} {rest : Bytes} (h : readVarNumber bs = .ok (n, rest)) :
    rest.length < bs.length ∧ n < 2 ^ 64 := by
  unfold readVarNumber at h
  split at h
  · cases h
  · rename_i b r
    split at h
    · simp at h
      obtain ⟨rfl, rfl⟩ := h
      refine ⟨by simp, ?_⟩
      have := b.toNat_lt
      omega
    · have hk8 : (if b = 253 then 2 else if b = 254 then 4 else 8) ≤ 8 := by
        repeat' split
        all_goals omega
      have hk1 : 1 ≤ (if b = 253 then 2 else if b = 254 then 4 else 8) := by
        repeat' split
        all_goals omega
      generalize (if b = 253 then 2 else if b = 254 then 4 else 8) = k at h hk8 hk1
      dsimp only at h
      by_cases hk : r.length < k
      · simp [hk] at h
      · simp only [hk, if_false, Res.ok.injEq, Prod.mk.injEq] at h
        obtain ⟨rfl, rfl⟩ := h
        refine ⟨by simp [List.length_drop]; omega, ?_⟩
        have hl := beVal_lt (r.take k)
        refine Nat.lt_of_lt_of_le hl ?_
        rw [show (2:Nat) ^ 64 = 256 ^ 8 from by decide]
        apply Nat.pow_le_pow_right (by decide)
        rw [List.length_take]
        omega

theorem readElement_ok {bs : Bytes} {b : Block} {rest : Bytes} (h : readElement bs = .ok (b, rest)) :
    rest.length < bs.length ∧ b.Fits := by
  unfold readElement at h
  rw [Res.bind_eq_ok] at h
  obtain ⟨⟨t, r1⟩, h1, h⟩ := h
  dsimp only at h
  split at h
  · cases h
  · rw [Res.bind_eq_ok] at h
    obtain ⟨⟨l, r2⟩, h2, h⟩ := h
    dsimp only at h
    split at h
    · cases h
    · simp only [Res.ok.injEq, Prod.mk.injEq] at h
      obtain ⟨rfl, rfl⟩ := h
      have := readVarNumber_ok h1
      have := readVarNumber_ok h2
      refine ⟨?_, ?_, ?_, ?_⟩ <;> simp <;> omega

theorem parseFuel_fits {n : Nat} {bs : Bytes} {es : List Block} (h : parseFuel n bs = .ok es) :
    ∀ e ∈ es, e.Fits := by
  induction n generalizing bs es with
  | zero =>
    cases bs with
    | nil => simp [parseFuel] at h; subst h; simp
    | cons b bs => simp [parseFuel] at h
  | succ n ih =>
    cases bs with
    | nil => simp [parseFuel] at h; subst h; simp
    | cons b bs =>
      simp only [parseFuel] at h
      rw [Res.bind_eq_ok] at h
      obtain ⟨⟨e, rest⟩, h1, h⟩ := h
      rw [Res.bind_eq_ok] at h
      obtain ⟨es', h2, h⟩ := h
      simp at h; subst h
      intro x hx
      simp at hx
      rcases hx with rfl | hx
      · exact (readElement_ok h1).2
      · exact ih h2 x hx

theorem parse_fits {bs : Bytes} {es : List Block} (h : parse bs = .ok es) : ∀ e ∈ es, e.Fits :=
  parseFuel_fits h

theorem readElement_val_le {bs : Bytes} {b : Block} {rest : Bytes} (h : readElement bs = .ok (b, rest)) :
    b.val.length ≤ bs.length := by
  unfold readElement at h
  rw [Res.bind_eq_ok] at h
  obtain ⟨⟨t, r1⟩, h1, h⟩ := h
  dsimp only at h
  split at h
  · cases h
  · rw [Res.bind_eq_ok] at h
    obtain ⟨⟨l, r2⟩, h2, h⟩ := h
    dsimp only at h
    split at h
    · cases h
    · simp only [Res.ok.injEq, Prod.mk.injEq] at h
      obtain ⟨rfl, rfl⟩ := h
      have := readVarNumber_ok h1
      have := readVarNumber_ok h2
      simp; omega

theorem parseFuel_val_le {n : Nat} {bs : Bytes} {es : List Block} (h : parseFuel n bs = .ok es) :
    ∀ e ∈ es, e.val.length ≤ bs.length := by
  induction n generalizing bs es with
  | zero =>
    cases bs with
    | nil => simp [parseFuel] at h; subst h; simp
    | cons b bs => simp [parseFuel] at h
  | succ n ih =>
    cases bs with
    | nil => simp [parseFuel] at h; subst h; simp
    | cons b bs =>
      simp only [parseFuel] at h
      rw [Res.bind_eq_ok] at h
      obtain ⟨⟨e, rest⟩, h1, h⟩ := h
      rw [Res.bind_eq_ok] at h
      obtain ⟨es', h2, h⟩ := h
      simp at h; subst h
      intro x hx
      simp only [List.mem_cons] at hx
      rcases hx with rfl | hx
      · exact readElement_val_le h1
      · have h3 := ih h2 x hx
        have h4 := (readElement_ok h1).1
        exact Nat.le_trans h3 (Nat.le_of_lt h4)

theorem parse_val_le {bs : Bytes} {es : List Block} (h : parse bs = .ok es) : ∀ e ∈ es, e.val.length ≤ bs.length :=
  parseFuel_val_le h

theorem getElem_val_le {bs : Bytes} {es : List Block} {t : Nat} {e : Block} (h : parse bs = .ok es)
    (he : getElem es t = .ok e) : e.val.length ≤ bs.length := by
  unfold getElem at he
  rw [Res.ofOption_eq_ok] at he
  exact parse_val_le h e (List.mem_of_find?_eq_some he)

theorem encode_length_ge (b : Block) : b.val.length ≤ b.encode.length := by
  simp [Block.encode]; omega

theorem mem_encodeAll_length {es : List Block} {b : Block} (h : b ∈ es) : b.val.length ≤ (encodeAll es).length := by
  induction es with
  | nil => cases h
  | cons e es ih =>
    rw [encodeAll_cons, List.length_append]
    cases h with
    | head => have := encode_length_ge b; omega
    | tail _ h => have := ih h; omega

theorem mem_encodeAll_length' {es : List Block} {b : Block} (h : b ∈ es) : b.encode.length ≤ (encodeAll es).length := by
  induction es with
  | nil => cases h
  | cons e es ih =>
    rw [encodeAll_cons, List.length_append]
    cases h with
    | head => omega
    | tail _ h => have := ih h; omega

/-- elements with valid types inside a value shorter than 2^64 octets fit -/
theorem fits_of_total {es : List Block} (ht : ∀ e ∈ es, 0 < e.typ ∧ e.typ < 2 ^ 32)
    (hl : (encodeAll es).length < 2 ^ 64) : ∀ e ∈ es, e.Fits := fun e he =>
  ⟨(ht e he).1, (ht e he).2, Nat.lt_of_le_of_lt (mem_encodeAll_length he) hl⟩

theorem nameFits_of_wf {n : Name} (h : Name.Wf n) (hl : (encodeAll n).length < 2 ^ 64) : NameFits n :=
  ⟨fits_of_total (fun e he => ⟨(h e he).1, Nat.lt_of_le_of_lt (h e he).2 (by decide)⟩) hl, hl⟩

theorem readVarNumber_no_ub (xs : Bytes) (u : Ub) : readVarNumber xs ≠ .ub u := by
  unfold readVarNumber
  split
  · simp
  · split
    · simp
    · dsimp only
      generalize (if _ = (253 : UInt8) then 2 else _) = k
      split <;> simp

theorem readElement_no_ub (bs : Bytes) (u : Ub) : readElement bs ≠ .ub u := by
  unfold readElement
  cases h1 : readVarNumber bs with
  | exc e => simp
  | ub v => exact absurd h1 (readVarNumber_no_ub _ _)
  | ok p =>
    simp only [Res.bind_ok]
    split
    · simp
    · cases h2 : readVarNumber p.2 with
      | exc e => simp
      | ub v => exact absurd h2 (readVarNumber_no_ub _ _)
      | ok q => simp only [Res.bind_ok]; split <;> simp

theorem parseFuel_no_ub (n : Nat) (bs : Bytes) (u : Ub) : parseFuel n bs ≠ .ub u := by
  induction n generalizing bs u with
  | zero => cases bs <;> simp [parseFuel]
  | succ n ih =>
    cases bs with
    | nil => simp [parseFuel]
    | cons b bs =>
      rw [parseFuel]
      cases h3 : readElement (b :: bs) with
      | exc e => simp
      | ub v => exact absurd h3 (readElement_no_ub _ _)
      | ok p =>
        simp only [Res.bind_ok]
        cases h4 : parseFuel n p.2 with
        | exc e => simp
        | ub v => exact absurd h4 (ih _ _)
        | ok q => simp

theorem parse_no_ub (bs : Bytes) (u : Ub) : parse bs ≠ .ub u := parseFuel_no_ub _ _ _

theorem elements_no_ub (b : Block) (u : Ub) : b.elements ≠ .ub u := parse_no_ub _ _

end Ndncert
