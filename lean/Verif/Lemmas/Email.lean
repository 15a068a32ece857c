import Verif.Model.Email
import Verif.Lemmas.Code

/-! # Splitting the command line of the email script -/

namespace Ndncert

theorem unescape_id : ∀ a : Bytes, (34 : UInt8) ∉ a → unescapeQuotes a = a
  | [], _ => rfl
  | [_], _ => rfl
  | a :: b :: rest, h => by
    unfold unescapeQuotes
    rw [if_neg (by rintro ⟨_, rfl⟩; simp at h), unescape_id (b :: rest) (fun hm => h (List.mem_cons_of_mem _ hm))]

theorem argEntry_quoted (a : Bytes) (h : (34 : UInt8) ∉ a) : argEntry (34 :: (a ++ [34])) = .ok a := by
  unfold argEntry
  rw [if_neg (by simp), if_pos ⟨rfl, by rw [← List.cons_append, List.getLast?_concat]⟩]
  simp only [List.drop_succ_cons, List.drop_zero, List.dropLast_concat]
  rw [unescape_id a h]

theorem argEntry_plain (a : Bytes) (h : (34 : UInt8) ∉ a) : argEntry a = .ok a := by
  unfold argEntry
  rw [if_neg (by rintro rfl; simp at h), if_neg, unescape_id a h]
  rintro ⟨h1, _⟩
  exact h (List.mem_of_head? h1)

/-- text between quotes -/
theorem split_inside : ∀ (a : Bytes) (prev : Option UInt8) (part rest : Bytes), (34 : UInt8) ∉ a →
    splitArgs true prev part (a ++ 34 :: rest) = splitArgs false (some 34) (part ++ a ++ [34]) rest
  | [], prev, part, rest, _ => by
    simp [splitArgs]
  | c :: a, prev, part, rest, h => by
    have hc : c ≠ 34 := by rintro rfl; simp at h
    rw [List.cons_append, splitArgs]
    simp only [if_neg hc]
    rw [if_neg (by simp), split_inside a _ _ _ (fun hm => h (List.mem_cons_of_mem _ hm))]
    simp

/-- text without spaces and quotes -/
theorem split_plain : ∀ (a : Bytes) (prev : Option UInt8) (part rest : Bytes), a ≠ [] → (34 : UInt8) ∉ a → (32 : UInt8) ∉ a →
    ∃ c, c ≠ 32 ∧ splitArgs false prev part (a ++ rest) = splitArgs false (some c) (part ++ a) rest
  | [c], prev, part, rest, _, h, h' => by
    have hc : c ≠ 34 := by rintro rfl; simp at h
    have hc' : c ≠ 32 := by rintro rfl; simp at h'
    refine ⟨c, hc', ?_⟩
    rw [List.cons_append, splitArgs]
    simp only [if_neg hc]
    rw [if_neg (by simp [hc'])]
    rfl
  | c :: d :: a, prev, part, rest, _, h, h' => by
    have hc : c ≠ 34 := by rintro rfl; simp at h
    have hc' : c ≠ 32 := by rintro rfl; simp at h'
    obtain ⟨e, he, hs⟩ := split_plain (d :: a) (some c) (part ++ [c]) rest (by simp) (fun hm => h (List.mem_cons_of_mem _ hm))
      (fun hm => h' (List.mem_cons_of_mem _ hm))
    refine ⟨e, he, ?_⟩
    rw [List.cons_append, splitArgs]
    simp only [if_neg hc]
    rw [if_neg (by simp [hc']), hs]
    simp

/-- a part followed by quoted arguments -/
theorem split_quoted : ∀ (as : List Bytes) (c : UInt8) (part e : Bytes), c ≠ 32 → part ≠ [] → argEntry part = .ok e → (∀ a ∈ as, (34 : UInt8) ∉ a) →
    splitArgs false (some c) part (as.flatMap quotedArg) = .ok (e :: as)
  | [], c, part, e, hc, hp, he, _ => by
    simp [splitArgs, hp, he]
  | a :: as, c, part, e, hc, hp, he, h => by
    have ha := h a (by simp)
    have ih := split_quoted as 34 (34 :: (a ++ [34])) a (by decide) (by simp) (argEntry_quoted a ha) (fun b hb => h b (by simp [hb]))
    rw [List.flatMap_cons]
    unfold quotedArg
    rw [List.cons_append, List.cons_append, splitArgs]
    simp only [if_neg (show (32 : UInt8) ≠ 34 by decide)]
    rw [if_pos (by simp), if_pos (by simp [hc]), he]
    simp only [Res.bind_ok]
    rw [splitArgs]
    simp only [if_pos]
    rw [if_neg (by simp)]
    rw [List.append_assoc]
    simp only [List.singleton_append, Bool.not_false]
    rw [split_inside a _ _ _ ha]
    simp only [List.nil_append, List.cons_append]
    have ih' : splitArgs false (some 34) (34 :: (a ++ [34])) (List.flatMap quotedArg as) = .ok (a :: as) := ih
    unfold quotedArg at ih'
    rw [ih']
    rfl

/-- a script followed by quoted arguments -/
theorem split_command (script : Bytes) (as : List Bytes) (h0 : script ≠ []) (hq : (34 : UInt8) ∉ script) (hs : (32 : UInt8) ∉ script)
    (h : ∀ a ∈ as, (34 : UInt8) ∉ a) : splitArgs false none [] (script ++ as.flatMap quotedArg) = .ok (script :: as) := by
  obtain ⟨c, hc, he⟩ := split_plain script none [] (as.flatMap quotedArg) h0 hq hs
  rw [he]
  exact split_quoted as c _ _ hc (by simpa using h0) (by rw [List.nil_append]; exact argEntry_plain _ hq) h

theorem takeWhile_id {a : Bytes} (h : (0 : UInt8) ∉ a) : a.takeWhile (· ≠ 0) = a := by
  induction a with
  | nil => rfl
  | cons x a ih =>
    rw [List.takeWhile_cons_of_pos (by simp only [decide_eq_true_eq]; rintro rfl; simp at h), ih (fun hm => h (List.mem_cons_of_mem _ hm))]

theorem execArgs_id {as : List Bytes} (h : ∀ a ∈ as, (0 : UInt8) ∉ a) : execArgs as = as := by
  induction as with
  | nil => rfl
  | cons a as ih =>
    unfold execArgs at ih ⊢
    rw [List.map_cons, takeWhile_id (h a (by simp)), ih (fun b hb => h b (by simp [hb]))]

/-- neither a NUL nor a quote -/
def plainByte (b : UInt8) : Prop := b ≠ 0 ∧ b ≠ 34

theorem toNat_ofNat_small {n : Nat} (h : n < 256) : (UInt8.ofNat n).toNat = n := by
  show n % 256 = n
  omega

/-- neither a NUL nor a quote nor a space -/
def solidByte (b : UInt8) : Prop := b ≠ 0 ∧ b ≠ 34 ∧ b ≠ 32

theorem solidByte_of_toNat {b : UInt8} (h : 35 ≤ b.toNat) : solidByte b := by
  refine ⟨?_, ?_, ?_⟩ <;> rintro rfl <;> revert h <;> decide

theorem uriEscapeByte_plain (b x : UInt8) (h : x ∈ uriEscapeByte b) : solidByte x := by
  unfold uriEscapeByte at h
  dsimp only at h
  split at h
  · rename_i hn
    simp only [List.mem_singleton] at h
    subst h
    exact solidByte_of_toNat (by omega)
  · have hb : b.toNat < 256 := b.toNat_lt
    simp only [List.mem_cons, List.not_mem_nil, or_false] at h
    rcases h with rfl | rfl | rfl
    · exact ⟨by decide, by decide, by decide⟩
    · apply solidByte_of_toNat
      split <;> (rw [toNat_ofNat_small (by omega)]; omega)
    · apply solidByte_of_toNat
      split <;> (rw [toNat_ofNat_small (by omega)]; omega)

theorem decDigits_plain (n : Nat) (x : UInt8) (h : x ∈ decDigits n) : solidByte x := by
  unfold decDigits at h
  rw [List.mem_map] at h
  obtain ⟨c, hc, rfl⟩ := h
  have := Nat.isDigit_of_mem_toDigits (by decide) (by decide) hc
  simp only [Char.isDigit, Bool.and_eq_true, decide_eq_true_eq] at this
  have h1 : 48 ≤ c.toNat := this.1
  have h2 : c.toNat ≤ 57 := this.2
  apply solidByte_of_toNat
  rw [toNat_ofNat_small (by omega)]
  omega

theorem nameUri_solid (n : Name) (x : UInt8) (h : x ∈ nameUri n) : solidByte x := by
  unfold nameUri at h
  split at h
  · simp only [List.mem_singleton] at h
    subst h
    exact ⟨by decide, by decide, by decide⟩
  · rw [List.mem_flatMap] at h
    obtain ⟨c, _, hx⟩ := h
    rw [List.mem_cons] at hx
    rcases hx with rfl | hx
    · exact ⟨by decide, by decide, by decide⟩
    · have hv : ∀ y ∈ (if c.val.all (· == 46) then bytes! "..." else []) ++ c.val.flatMap uriEscapeByte, solidByte y := by
        intro y hy
        rw [List.mem_append] at hy
        rcases hy with hy | hy
        · split at hy
          · simp only [List.mem_cons, List.not_mem_nil, or_false] at hy
            rcases hy with rfl | rfl | rfl <;> exact ⟨by decide, by decide, by decide⟩
          · cases hy
        · rw [List.mem_flatMap] at hy
          obtain ⟨b, _, hb⟩ := hy
          exact uriEscapeByte_plain b y hb
      unfold compUri at hx
      dsimp only at hx
      split at hx
      · exact hv x hx
      · rw [List.mem_append, List.mem_append] at hx
        rcases hx with (hx | hx) | hx
        · exact decDigits_plain _ _ hx
        · simp only [List.mem_singleton] at hx
          subst hx
          exact ⟨by decide, by decide, by decide⟩
        · exact hv x hx

theorem isCode_solid {s : Bytes} (h : IsCode s) (x : UInt8) (hx : x ∈ s) : solidByte x := by
  have := h.2 x hx
  exact solidByte_of_toNat (by omega)

theorem nameUri_plain (n : Name) (x : UInt8) (h : x ∈ nameUri n) : plainByte x :=
  ⟨(nameUri_solid n x h).1, (nameUri_solid n x h).2.1⟩

theorem isCode_plain {s : Bytes} (h : IsCode s) (x : UInt8) (hx : x ∈ s) : plainByte x :=
  ⟨(isCode_solid h x hx).1, (isCode_solid h x hx).2.1⟩

/-! ## which addresses arrive as they are -/

/-- whether the text is in quotes after `a` -/
def quoteAfter : Bool → Bytes → Bool
  | q, [] => q
  | q, c :: a => quoteAfter (if c = 34 then !q else q) a

/-- all spaces of `a` are in quotes -/
def spacesInside : Bool → Bytes → Bool
  | _, [] => true
  | q, c :: a => !(decide ((if c = 34 then !q else q) = false ∧ c = 32)) && spacesInside (if c = 34 then !q else q) a

theorem quoteAfter_count : ∀ (q : Bool) (a : Bytes), quoteAfter q a = if a.count 34 % 2 = 0 then q else !q
  | q, [] => by simp [quoteAfter]
  | q, c :: a => by
    rw [quoteAfter, quoteAfter_count, List.count_cons]
    rcases Classical.em (c = 34) with rfl | h
    · simp only [if_pos, beq_self_eq_true]
      by_cases h : a.count 34 % 2 = 0
      · rw [if_pos h, if_neg (by omega)]
      · rw [if_neg h, if_pos (by omega)]; simp
    · simp [h]

theorem spacesInside_iff : ∀ (q : Bool) (a : Bytes), spacesInside q a = true ↔ ∀ x y, a = x ++ 32 :: y → quoteAfter q x = true
  | q, [] => by simp [spacesInside]
  | q, c :: a => by
    rw [spacesInside, Bool.and_eq_true, spacesInside_iff]
    constructor
    · rintro ⟨h1, h2⟩ x y h
      cases x with
      | nil =>
        cases h
        simpa [quoteAfter] using h1
      | cons d x =>
        cases h
        exact h2 x y rfl
    · intro h
      refine ⟨?_, fun x y hxy => h (c :: x) y (by rw [hxy]; rfl)⟩
      rcases Classical.em (c = 32) with rfl | hc
      · have := h [] a rfl
        simpa [quoteAfter] using this
      · simp [hc]

theorem spacesOutside : ∀ (q : Bool) (a : Bytes), spacesInside q a = false →
    ∃ x y, a = x ++ 32 :: y ∧ spacesInside q x = true ∧ quoteAfter q x = false
  | q, [], h => by simp [spacesInside] at h
  | q, c :: a, h => by
    rw [spacesInside, Bool.and_eq_false_iff] at h
    by_cases h1 : (if c = 34 then !q else q) = false ∧ c = 32
    · obtain ⟨h2, rfl⟩ := h1
      exact ⟨[], a, rfl, rfl, by simpa [quoteAfter] using h2⟩
    · obtain ⟨x, y, h3, h4, h5⟩ := spacesOutside _ a (h.resolve_left (by simp only [h1]; decide))
      refine ⟨c :: x, y, by rw [h3]; rfl, ?_, h5⟩
      rw [spacesInside, h4]
      simp only [h1]
      decide

theorem split_inside_all : ∀ (a : Bytes) (q : Bool) (c : UInt8) (part rest : Bytes), spacesInside q a = true → (c ≠ 32 ∨ q = true) →
    ∃ c', (c' ≠ 32 ∨ quoteAfter q a = true) ∧ splitArgs q (some c) part (a ++ rest) = splitArgs (quoteAfter q a) (some c') (part ++ a) rest
  | [], q, c, part, rest, _, hc => ⟨c, hc, by simp [quoteAfter]⟩
  | d :: a, q, c, part, rest, h, hc => by
    rw [spacesInside, Bool.and_eq_true] at h
    have h1 : ¬ ((if d = 34 then !q else q) = false ∧ d = 32) := by
      intro hh
      have := h.1
      rw [decide_eq_true hh] at this
      cases this
    obtain ⟨c', h2, h3⟩ := split_inside_all a (if d = 34 then !q else q) d (part ++ [d]) rest h.2 (by
      rcases Classical.em (d = 32) with rfl | hd
      · right
        cases hq : (if (32 : UInt8) = 34 then !q else q) with
        | true => rfl
        | false => exact absurd ⟨hq, rfl⟩ h1
      · exact .inl hd)
    refine ⟨c', h2, ?_⟩
    rw [List.cons_append, splitArgs]
    rw [if_neg h1, h3]
    simp [quoteAfter]

theorem unescape_length : ∀ a : Bytes, (unescapeQuotes a).length ≤ a.length
  | [] => Nat.le_refl _
  | [_] => Nat.le_refl _
  | a :: b :: rest => by
    unfold unescapeQuotes
    split
    · have := unescape_length rest
      simp only [List.length_cons]; omega
    · have := unescape_length (b :: rest)
      simp only [List.length_cons] at this ⊢; omega

/-- there is no backslash directly before a quote -/
theorem unescape_exact : ∀ a : Bytes, (∀ x y, a ≠ x ++ 92 :: 34 :: y) → unescapeQuotes a = a
  | [], _ => rfl
  | [_], _ => rfl
  | a :: b :: rest, h => by
    unfold unescapeQuotes
    rw [if_neg (by rintro ⟨rfl, rfl⟩; exact h [] rest rfl), unescape_exact (b :: rest) (fun x y hxy => h (a :: x) y (by rw [hxy]; rfl))]

theorem unescape_shorter : ∀ (a x y : Bytes), a = x ++ 92 :: 34 :: y → (unescapeQuotes a).length < a.length
  | [], x, y, h => by simp at h
  | [_], x, y, h => by
    have := congrArg List.length h
    simp at this; omega
  | a :: b :: rest, x, y, h => by
    unfold unescapeQuotes
    split
    · have := unescape_length rest
      simp only [List.length_cons]; omega
    · rename_i hn
      cases x with
      | nil => simp only [List.nil_append, List.cons.injEq] at h; exact absurd ⟨h.1, h.2.1⟩ hn
      | cons z x =>
        simp only [List.cons_append, List.cons.injEq] at h
        have := unescape_shorter (b :: rest) x y h.2
        simp only [List.length_cons] at this ⊢; omega

theorem argEntry_length {p e : Bytes} (h : argEntry p = .ok e) : e.length ≤ p.length ∧ (e.length = p.length → e = p) := by
  unfold argEntry at h
  split at h
  · cases h
  split at h
  · rename_i hne hq
    cases h
    have := unescape_length (p.drop 1).dropLast
    have h1 : p ≠ [] := by rintro rfl; simp at hq
    have h2 : 0 < p.length := List.length_pos_iff.mpr h1
    simp only [List.length_dropLast, List.length_drop] at this
    exact ⟨by omega, fun h => by omega⟩
  · cases h
    refine ⟨unescape_length p, fun h => unescape_exact p (fun x y hxy => ?_)⟩
    have := unescape_shorter p x y hxy
    omega

theorem takeWhile_length_le {α : Type} (p : α → Bool) (l : List α) : (l.takeWhile p).length ≤ l.length :=
  (List.takeWhile_prefix p).length_le

theorem takeWhile_full {a : Bytes} (h : (a.takeWhile (· ≠ 0)).length = a.length) : a.takeWhile (· ≠ 0) = a ∧ (0 : UInt8) ∉ a := by
  have h1 := (List.takeWhile_prefix (l := a) (fun b : UInt8 => decide (b ≠ 0))).eq_of_length h
  refine ⟨h1, fun hm => ?_⟩
  rw [← h1] at hm
  have : ∀ l : Bytes, (0 : UInt8) ∉ l.takeWhile (· ≠ 0) := by
    intro l
    induction l with
    | nil => simp
    | cons x l ih =>
      by_cases hx : x = 0
      · subst hx; simp
      · rw [List.takeWhile_cons_of_pos (by simpa using hx), List.mem_cons]
        rintro (h | h)
        · exact hx h.symm
        · exact ih h
  exact this _ hm

/-- quoted arguments read with the quotes the wrong way round -/
theorem spacesInside_quoted : ∀ as : List Bytes, (∀ a ∈ as, (34 : UInt8) ∉ a ∧ (32 : UInt8) ∉ a) →
    spacesInside true (as.flatMap quotedArg) = true := by
  have key : ∀ (a rest : Bytes), (34 : UInt8) ∉ a → (32 : UInt8) ∉ a → spacesInside true rest = true →
      spacesInside false (a ++ 34 :: rest) = true := by
    intro a rest h1 h2 h3
    induction a with
    | nil => simpa [spacesInside] using h3
    | cons x a ih =>
      rw [List.mem_cons] at h1 h2
      have hx : x ≠ 34 := fun h => h1 (.inl h.symm)
      have hx' : x ≠ 32 := fun h => h2 (.inl h.symm)
      rw [List.cons_append, spacesInside]
      simp only [if_neg hx, hx', and_false, decide_false, Bool.not_false, Bool.true_and]
      exact ih (fun h => h1 (.inr h)) (fun h => h2 (.inr h))
  intro as
  induction as with
  | nil => intro _; rfl
  | cons a as ih =>
    intro h
    rw [List.flatMap_cons]
    unfold quotedArg
    rw [List.cons_append, List.cons_append, spacesInside, spacesInside]
    simp only [List.append_assoc, List.singleton_append]
    have := key a (as.flatMap quotedArg) (h a (by simp)).1 (h a (by simp)).2 (ih (fun b hb => h b (by simp [hb])))
    unfold quotedArg at this
    simpa using this

/-- a script followed by a quote -/
theorem split_script (script rest : Bytes) (h0 : script ≠ []) (hq : (34 : UInt8) ∉ script) (hs : (32 : UInt8) ∉ script) :
    splitArgs false none [] (script ++ 32 :: 34 :: rest) =
      (do let es ← splitArgs true (some 34) [34] rest; .ok (script :: es)) := by
  obtain ⟨c, hc, he⟩ := split_plain script none [] (32 :: 34 :: rest) h0 hq hs
  rw [he, splitArgs]
  simp only [if_neg (show (32 : UInt8) ≠ 34 by decide)]
  rw [if_pos (by simp), if_pos (by simp [hc]), List.nil_append, argEntry_plain _ hq]
  simp only [Res.bind_ok]
  rw [splitArgs]
  simp only [if_pos]
  rw [if_neg (by simp)]
  rfl

/-- which addresses arrive as they are -/
theorem split_address (script a : Bytes) (as : List Bytes) (h0 : script ≠ []) (hq : (34 : UInt8) ∉ script) (hs : (32 : UInt8) ∉ script)
    (h : ∀ x ∈ as, (34 : UInt8) ∉ x ∧ (32 : UInt8) ∉ x) (hz : ∀ x ∈ script :: as, (0 : UInt8) ∉ x) (hl : as ≠ []) :
    (do let args ← splitArgs false none [] (script ++ (a :: as).flatMap quotedArg); Res.ok (execArgs args)) = .ok (script :: a :: as) ↔
      spacesInside true a = true ∧ quoteAfter true a = true ∧ (∀ x y, a ≠ x ++ 92 :: 34 :: y) ∧ (0 : UInt8) ∉ a := by
  have e1 : script ++ (a :: as).flatMap quotedArg = script ++ 32 :: 34 :: (a ++ 34 :: as.flatMap quotedArg) := by
    simp [quotedArg]
  rw [e1, split_script _ _ h0 hq hs]
  cases hin : spacesInside true a with
  | false =>
    simp only [Bool.false_eq_true, false_and, iff_false]
    intro heq
    obtain ⟨x, y, rfl, h2, h3⟩ := spacesOutside _ _ hin
    obtain ⟨c', hc', h4⟩ := split_inside_all x true 34 [34] (32 :: (y ++ 34 :: as.flatMap quotedArg)) h2 (.inr rfl)
    rw [List.append_assoc, List.cons_append, h4, h3, splitArgs] at heq
    simp only [if_neg (show (32 : UInt8) ≠ 34 by decide)] at heq
    rw [h3] at hc'
    rw [if_pos (by simp), if_pos (by simpa using hc'), List.singleton_append] at heq
    cases he : argEntry (34 :: x) with
    | exc e => rw [he] at heq; cases heq
    | ub u => rw [he] at heq; cases heq
    | ok e =>
      rw [he] at heq
      simp only [Res.bind_ok] at heq
      generalize splitArgs false (some 32) [] (y ++ 34 :: as.flatMap quotedArg) = z at heq
      cases z with
      | exc e => cases heq
      | ub u => cases heq
      | ok z =>
        simp only [Res.bind_ok, Res.ok.injEq, execArgs, List.map_cons, List.cons.injEq] at heq
        obtain ⟨_, h5, _⟩ := heq
        obtain ⟨h6, h7⟩ := argEntry_length he
        have h8 := takeWhile_length_le (fun b : UInt8 => decide (b ≠ 0)) e
        have h9 := congrArg List.length h5
        simp only [List.length_append, List.length_cons] at h6 h7 h9
        have h10 : e = 34 :: x := h7 (by omega)
        have h11 : e.takeWhile (· ≠ 0) = e := (takeWhile_full (by omega)).1
        have h12 := h5
        have h13 : e = x ++ 32 :: y := h11.symm.trans h12
        rw [h10] at h13
        have h14 : y = [] := by
          have := congrArg List.length h13
          simp only [List.length_append, List.length_cons] at this
          exact List.length_eq_zero_iff.mp (by omega)
        have h15 := congrArg (List.count 34) h13
        rw [h14] at h15
        simp [List.count_cons, List.count_append] at h15
  | true =>
    obtain ⟨c', hc', h4⟩ := split_inside_all a true 34 [34] (34 :: as.flatMap quotedArg) hin (.inr rfl)
    rw [h4, splitArgs]
    cases hq2 : quoteAfter true a with
    | false =>
      simp only [Bool.false_eq_true, false_and, and_false, iff_false, if_pos, Bool.not_false]
      intro heq
      obtain ⟨c2, _, h5⟩ := split_inside_all (as.flatMap quotedArg) true 34 ([34] ++ a ++ [34]) [] (spacesInside_quoted as h) (.inr rfl)
      rw [List.append_nil] at h5
      rw [if_neg (by simp), h5, splitArgs] at heq
      rw [if_neg (by simp)] at heq
      generalize argEntry ([34] ++ a ++ [34] ++ as.flatMap quotedArg) = z at heq
      cases z with
      | exc e => cases heq
      | ub u => cases heq
      | ok z =>
        simp only [Res.bind_ok, Res.ok.injEq, execArgs, List.map_cons, List.map_nil, List.cons.injEq] at heq
        exact hl heq.2.2.symm
    | true =>
      simp only [if_pos, Bool.not_true, true_and]
      rw [if_neg (by simp)]
      have he : argEntry ([34] ++ a ++ [34]) = .ok (unescapeQuotes a) := by
        unfold argEntry
        rw [if_neg (by simp), if_pos ⟨rfl, by rw [List.getLast?_concat]⟩]
        simp
      rw [split_quoted as 34 _ _ (by decide) (by simp) he (fun x hx => (h x hx).1)]
      simp only [Res.bind_ok, Res.ok.injEq]
      have hrest : execArgs (script :: unescapeQuotes a :: as) = script :: (unescapeQuotes a).takeWhile (· ≠ 0) :: as := by
        have h1 := execArgs_id (as := as) (fun x hx => hz x (by simp [hx]))
        unfold execArgs at h1 ⊢
        rw [List.map_cons, List.map_cons, h1, takeWhile_id (hz script (by simp))]
      rw [hrest]
      simp only [List.cons.injEq, true_and, and_true]
      constructor
      · intro h5
        have h6 := congrArg List.length h5
        have h7 := takeWhile_length_le (fun b : UInt8 => decide (b ≠ 0)) (unescapeQuotes a)
        have h8 := unescape_length a
        have h9 : (unescapeQuotes a).length = a.length := by omega
        have h10 : ∀ x y, a ≠ x ++ 92 :: 34 :: y := by
          intro x y hxy
          have := unescape_shorter a x y hxy
          omega
        refine ⟨h10, ?_⟩
        have := (takeWhile_full (a := unescapeQuotes a) (by omega)).2
        rwa [unescape_exact a h10] at this
      · rintro ⟨h5, h6⟩
        rw [unescape_exact a h5, takeWhile_id h6]

end Ndncert
