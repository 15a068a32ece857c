import Verif.Spec.Uri
import Verif.Lemmas.Uri
import Verif.Lemmas.Assign

/-! Names read from their URIs -/

namespace Ndncert

theorem escape_read_table : ∀ n : Fin 256,
    (let b := UInt8.ofNat n.val
     ((uriEscapeByte b = [b] ∧ b ≠ 37) ∨
       ∃ h : Fin 256, ∃ l : Fin 256, ∃ x : Fin 16, ∃ y : Fin 16, uriEscapeByte b = [37, UInt8.ofNat h.val, UInt8.ofNat l.val] ∧
         hexChar (UInt8.ofNat h.val) = some x.val ∧ hexChar (UInt8.ofNat l.val) = some y.val ∧ UInt8.ofNat (16 * x.val + y.val) = b)) := by
  intro n
  by_cases hu : uriEscapeByte (UInt8.ofNat n.val) = [UInt8.ofNat n.val] ∧ UInt8.ofNat n.val ≠ 37
  · exact .inl hu
  · have key : ∀ n : Fin 256, ¬ (uriEscapeByte (UInt8.ofNat n.val) = [UInt8.ofNat n.val] ∧ UInt8.ofNat n.val ≠ 37) →
        uriEscapeByte (UInt8.ofNat n.val) = [37, UInt8.ofNat (if n.val / 16 < 10 then 48 + n.val / 16 else 55 + n.val / 16),
          UInt8.ofNat (if n.val % 16 < 10 then 48 + n.val % 16 else 55 + n.val % 16)] := by decide +kernel
    have hx : ∀ d : Fin 16, (if d.val < 10 then 48 + d.val else 55 + d.val) < 256 ∧
        hexChar (UInt8.ofNat (if d.val < 10 then 48 + d.val else 55 + d.val)) = some d.val := by decide +kernel
    have h1 : n.val / 16 < 16 := by have := n.isLt; omega
    have h2 : n.val % 16 < 16 := by omega
    refine .inr ⟨⟨_, (hx ⟨n.val / 16, h1⟩).1⟩, ⟨_, (hx ⟨n.val % 16, h2⟩).1⟩, ⟨_, h1⟩, ⟨_, h2⟩, key n hu, (hx ⟨_, h1⟩).2, (hx ⟨_, h2⟩).2, ?_⟩
    dsimp only
    rw [show 16 * (n.val / 16) + n.val % 16 = n.val by omega]

theorem uriUnescape_cons {b : UInt8} (h : b ≠ 37) (s : Bytes) : uriUnescape (b :: s) = b :: uriUnescape s := by
  rw [uriUnescape]
  intro _ _ _ he
  exact fun _ => absurd he h

theorem uriUnescape_escape (s : Bytes) : uriUnescape (s.flatMap uriEscapeByte) = s := by
  induction s with
  | nil => rfl
  | cons b s ih =>
    rw [List.flatMap_cons]
    rcases byte_cases (P := fun b => (uriEscapeByte b = [b] ∧ b ≠ 37) ∨ ∃ h : Fin 256, ∃ l : Fin 256, ∃ x : Fin 16, ∃ y : Fin 16,
        uriEscapeByte b = [37, UInt8.ofNat h.val, UInt8.ofNat l.val] ∧ hexChar (UInt8.ofNat h.val) = some x.val ∧
        hexChar (UInt8.ofNat l.val) = some y.val ∧ UInt8.ofNat (16 * x.val + y.val) = b) escape_read_table b with ⟨h1, h2⟩ | ⟨h, l, x, y, h1, h2, h3, h4⟩
    · rw [h1, List.singleton_append, uriUnescape_cons h2, ih]
    · rw [h1]
      show uriUnescape (37 :: _ :: _ :: s.flatMap uriEscapeByte) = _
      rw [uriUnescape, h2, h3]
      dsimp only
      rw [h4, ih]

theorem uriUnescape_dots {v : Bytes} (h : v.all (· == 46) = true) : uriUnescape v = v := by
  have := uriUnescape_escape v
  rwa [dots_escape h] at this

theorem compValue_valUri {ty : Nat} {v : Bytes} : compValue ty (valUri v) = mkComp ty v := by
  unfold compValue valUri
  by_cases hv : v.all (· == 46) = true
  · rw [if_pos hv, dots_escape hv]
    have h3 : ((bytes! "...") ++ v).all (· == 46) = true := by
      rw [List.all_append, hv]
      rfl
    rw [uriUnescape_dots h3]
    dsimp only
    rw [if_pos h3, if_neg (by simp)]
    rfl
  · rw [if_neg hv, List.nil_append, uriUnescape_escape]
    dsimp only
    rw [if_neg hv]

theorem splitFirst_at {sep : UInt8} : ∀ {p : Bytes} (s : Bytes), sep ∉ p → splitFirst sep (p ++ sep :: s) = some (p, s)
  | [], s, _ => by rw [List.nil_append, splitFirst, if_pos rfl]
  | b :: p, s, h => by
    have hb : b ≠ sep := by rintro rfl; simp at h
    rw [List.cons_append, splitFirst, if_neg hb, splitFirst_at (p := p) s (fun hm => h (List.mem_cons_of_mem _ hm))]
    rfl

theorem readComp_compUri {c : Block} (h : CompValid c) : readComp (compUri c) = some c := by
  obtain ⟨h1, h2, h3⟩ := h
  have hm : mkComp c.typ c.val = some c := by
    unfold mkComp
    rw [if_neg]
    rintro ⟨g1, g2⟩
    exact g2 (h3 g1)
  rw [compUri_eq]
  unfold readComp
  by_cases h8 : c.typ = 8
  · rw [if_pos h8, splitFirst_none.mpr (fun hm => (valUri_mem hm).2.1 rfl)]
    dsimp only
    rw [compValue_valUri, ← h8, hm]
  · rw [if_neg h8, List.append_assoc, List.singleton_append, splitFirst_at _ (fun hm => (decDigits_mem hm).2.1 rfl)]
    dsimp only
    rw [readDigits_decDigits]
    dsimp only
    rw [if_pos ⟨h1, h2, rfl⟩, compValue_valUri, hm]

theorem flat_pieces (n : Name) : n ≠ [] → ∃ s, n.flatMap (fun c => 47 :: compUri c) = 47 :: s ∧ splitAll 47 s = n.map compUri ∧
    s.head? ≠ some 47 := by
  induction n with
  | nil => exact fun h => absurd rfl h
  | cons c n ih =>
    intro _
    have hc : (47 : UInt8) ∉ compUri c := fun hm => (compUri_mem hm).1 rfl
    have hh : ∀ r : Bytes, (compUri c ++ r).head? ≠ some 47 := by
      intro r
      cases he : compUri c with
      | nil => exact absurd he (compUri_ne_nil c)
      | cons b t =>
        rw [List.cons_append, List.head?_cons, ne_eq, Option.some.injEq]
        rintro rfl
        exact hc (by rw [he]; exact List.mem_cons_self ..)
    cases n with
    | nil =>
      refine ⟨compUri c, by simp, by rw [splitAll_plain hc]; rfl, ?_⟩
      have := hh []
      rwa [List.append_nil] at this
    | cons d n =>
      obtain ⟨s, h1, h2, _⟩ := ih (by simp)
      refine ⟨compUri c ++ 47 :: s, by rw [List.flatMap_cons, h1]; rfl, ?_, hh _⟩
      rw [splitAll_append _ hc, h2]
      rfl

theorem nameUri_no_colon (n : Name) : (58 : UInt8) ∉ nameUri n := by
  have ve : ∀ v : Bytes, (58 : UInt8) ∉ valUri v := by
    intro v hm
    unfold valUri at hm
    rw [List.mem_append] at hm
    rcases hm with hm | hm
    · split at hm
      · revert hm; decide
      · cases hm
    · rw [List.mem_flatMap] at hm
      obtain ⟨b, _, hb⟩ := hm
      exact byte_cases (P := fun b => (58 : UInt8) ∉ uriEscapeByte b) (by decide +kernel) b hb
  intro hm
  unfold nameUri at hm
  split at hm
  · revert hm; decide
  · rw [List.mem_flatMap] at hm
    obtain ⟨c, _, hb⟩ := hm
    rw [List.mem_cons] at hb
    rcases hb with hb | hb
    · revert hb; decide
    · rw [compUri_eq] at hb
      split at hb
      · exact ve _ hb
      · rw [List.mem_append, List.mem_append] at hb
        rcases hb with (hb | hb) | hb
        · have := decDigits_digit _ _ hb
          revert this; decide
        · revert hb; decide
        · exact ve _ hb

theorem mapM_readComp {n : Name} (h : ∀ c ∈ n, CompValid c) : (n.map compUri).mapM readComp = some n := by
  induction n with
  | nil => rfl
  | cons c n ih =>
    rw [List.map_cons, List.mapM_cons, readComp_compUri (h c (List.mem_cons_self ..)), ih (fun x hx => h x (List.mem_cons_of_mem _ hx))]
    rfl

/-- a name is read from its URI -/
theorem readUri_nameUri {n : Name} (h : ∀ c ∈ n, CompValid c) : readUri (nameUri n) = some n := by
  unfold readUri
  rw [show skipScheme (nameUri n) = nameUri n by unfold skipScheme; rw [splitFirst_none.mpr (nameUri_no_colon n)]]
  by_cases hn : n = []
  · subst hn
    rfl
  · obtain ⟨s, h1, h2, h3⟩ := flat_pieces n hn
    have hr : skipRoot (nameUri n) = s := by
      unfold nameUri
      rw [if_neg hn, h1]
      cases s with
      | nil => rfl
      | cons b s =>
        have hb : b ≠ 47 := fun hb => h3 (by rw [hb]; rfl)
        unfold skipRoot
        split
        · next he => exact absurd (List.cons.inj (List.cons.inj he).2).1 hb
        · next he => exact (List.cons.inj he).2.symm
        · next hne => exact absurd rfl (hne _)
    rw [hr]
    dsimp only
    rw [h2, if_neg, mapM_readComp h]
    rw [List.getLast?_map]
    intro he
    cases hl : n.getLast? with
    | none => rw [List.getLast?_eq_none_iff] at hl; exact hn hl
    | some c => rw [hl] at he; exact compUri_ne_nil c (by simpa using he)

theorem hexChar_some : ∀ b : UInt8, hexChar b ≠ none → IsHexDigit b :=
  byte_cases (P := fun b => hexChar b ≠ none → (48 ≤ b ∧ b ≤ 57) ∨ (65 ≤ b ∧ b ≤ 70) ∨ (97 ≤ b ∧ b ≤ 102)) (by decide +kernel)

theorem uriUnescape_plain : ∀ (n : Nat) (s : Bytes), s.length ≤ n →
    (∀ a h l b, s = a ++ 37 :: h :: l :: b → ¬ (IsHexDigit h ∧ IsHexDigit l)) → uriUnescape s = s
  | _, [], _, _ => rfl
  | n + 1, x :: s, hn, he => by
    have tl : ∀ t a, x :: s = a ++ t → t.length ≤ n → uriUnescape t = t := by
      intro t a hat hl
      refine uriUnescape_plain n t hl ?_
      intro a' h l b e
      exact he (a ++ a') h l b (by rw [hat, e, List.append_assoc])
    have hs : s.length ≤ n := by simpa using hn
    by_cases hx : x = 37
    · subst hx
      match s, he, tl, hs with
      | [], _, _, _ => rfl
      | [h], _, tl, hs =>
        rw [uriUnescape, tl [h] [37] rfl hs]
        intro _ _ _ _; simp
      | h :: l :: s, he, tl, hs =>
        have hb := he [] h l s rfl
        rw [uriUnescape, tl s [37, h, l] rfl (by simp at hs; omega)]
        split
        · next x y h1 h2 => exact absurd ⟨hexChar_some h (by rw [h1]; simp), hexChar_some l (by rw [h2]; simp)⟩ hb
        · rfl
    · rw [uriUnescape_cons hx, tl s [x] rfl hs]

theorem readComp_plain {p : Bytes} (h1 : (61 : UInt8) ∉ p) (h2 : ∀ a h l b, p = a ++ 37 :: h :: l :: b → ¬ (IsHexDigit h ∧ IsHexDigit l)) (h3 : ∃ b ∈ p, b ≠ 46) : readComp p = some (gcomp p) := by
  unfold readComp
  rw [splitFirst_none.mpr h1]
  dsimp only
  unfold compValue
  rw [uriUnescape_plain p.length p (Nat.le_refl _) h2]
  dsimp only
  rw [if_neg]
  · rfl
  · intro h
    obtain ⟨b, hb, hne⟩ := h3
    rw [List.all_eq_true] at h
    exact hne (by simpa using h b hb)

theorem mapM_plain {ps : List Bytes} (h : ∀ p ∈ ps, PlainPiece p) :
    ps.mapM readComp = some (ps.map gcomp) := by
  induction ps with
  | nil => rfl
  | cons p ps ih =>
    obtain ⟨_, h1, h2, h3⟩ := h p (List.mem_cons_self ..)
    rw [List.mapM_cons, readComp_plain h1 h2 h3, ih (fun x hx => h x (List.mem_cons_of_mem _ hx))]
    rfl

theorem plain_pieces : ∀ (ps : List Bytes), ps ≠ [] → (∀ p ∈ ps, (47 : UInt8) ∉ p ∧ p ≠ []) →
    ∃ s, ps.flatMap (fun p => 47 :: p) = 47 :: s ∧ splitAll 47 s = ps ∧ s.head? ≠ some 47 ∧ s ≠ []
  | [], h, _ => absurd rfl h
  | p :: ps, _, h => by
    obtain ⟨hp, hne⟩ := h p (List.mem_cons_self ..)
    have hh : ∀ r : Bytes, (p ++ r).head? ≠ some 47 ∧ p ++ r ≠ [] := by
      intro r
      cases p with
      | nil => exact absurd rfl hne
      | cons b t =>
        refine ⟨?_, by simp⟩
        rw [List.cons_append, List.head?_cons, ne_eq, Option.some.injEq]
        rintro rfl
        exact hp (List.mem_cons_self ..)
    cases ps with
    | nil =>
      refine ⟨p, by simp, splitAll_plain hp, ?_⟩
      have := hh []
      rwa [List.append_nil] at this
    | cons q ps =>
      obtain ⟨s, h1, h2, _⟩ := plain_pieces (q :: ps) (by simp) (fun x hx => h x (List.mem_cons_of_mem _ hx))
      refine ⟨p ++ 47 :: s, by rw [List.flatMap_cons, h1]; rfl, ?_, hh _⟩
      rw [splitAll_append _ hp, h2]

theorem skipScheme_slash (s : Bytes) : skipScheme (47 :: s) = 47 :: s := by
  unfold skipScheme
  split
  · next before rest h =>
    rw [if_pos]
    rw [splitFirst, if_neg (by decide)] at h
    rw [Option.map_eq_some_iff] at h
    obtain ⟨⟨a, b⟩, _, h2⟩ := h
    injection h2 with h2 _
    rw [← h2]
    exact List.mem_cons_self ..
  · rfl

theorem skipRoot_one {s : Bytes} (h : s.head? ≠ some 47) : skipRoot (47 :: s) = s := by
  cases s with
  | nil => rfl
  | cons b s =>
    have hb : b ≠ 47 := fun hb => h (by rw [hb]; rfl)
    unfold skipRoot
    split
    · next he => exact absurd (List.cons.inj (List.cons.inj he).2).1 hb
    · next he => exact (List.cons.inj he).2.symm
    · next hne => exact absurd rfl (hne _)

/-- a name written plainly -/
theorem readUri_plain {ps : List Bytes} (hne : ps ≠ [])
    (h : ∀ p ∈ ps, PlainPiece p) :
    readUri (ps.flatMap (fun p => 47 :: p)) = some (ps.map gcomp) ∧ readUri (ps.flatMap (fun p => 47 :: p) ++ [47]) = some (ps.map gcomp) ∧
      readUri (bytes! "ndn:" ++ ps.flatMap (fun p => 47 :: p)) = some (ps.map gcomp) := by
  have hz : ∀ p ∈ ps, p ≠ [] := by
    rintro p hp rfl
    obtain ⟨_, _, _, b, hb, _⟩ := h _ hp
    cases hb
  obtain ⟨s, h1, h2, h3, h4⟩ := plain_pieces ps hne (fun p hp => ⟨(h p hp).1, hz p hp⟩)
  have hm := mapM_plain h
  have hlast : ps.getLast? ≠ some [] := fun he => hz [] (List.mem_of_getLast? he) rfl
  have key : ∀ t, skipScheme t = 47 :: s → readUri t = some (ps.map gcomp) := by
    intro t ht
    unfold readUri
    rw [ht, skipRoot_one h3]
    dsimp only
    rw [h2, if_neg hlast, hm]
  rw [h1]
  refine ⟨key _ (skipScheme_slash s), ?_, key _ ?_⟩
  · unfold readUri
    rw [List.cons_append, skipScheme_slash, skipRoot_one (by cases s with | nil => exact absurd rfl h4 | cons b s => exact h3)]
    dsimp only
    rw [splitAll_snoc s [] (by simp), h2, if_pos (by simp), List.dropLast_concat, hm]
  · show skipScheme ((bytes! "ndn") ++ 58 :: 47 :: s) = _
    unfold skipScheme
    rw [splitFirst_at _ (by decide)]
    dsimp only
    rw [if_neg (by decide)]

end Ndncert
