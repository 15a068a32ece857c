import Verif.Lemmas.Config

/-! Names and their URIs -/

namespace Ndncert

def hexOf (b : UInt8) : Nat := if b.toNat < 65 then b.toNat - 48 else b.toNat - 55

/-- undo `uriEscapeByte` -/
def unescape : Bytes → Bytes
  | [] => []
  | b :: t =>
    if b = 37 then
      match t with
      | h :: l :: t' => UInt8.ofNat (16 * hexOf h + hexOf l) :: unescape t'
      | _ => []
    else b :: unescape t
  termination_by s => s.length

theorem escape_table : ∀ n : Fin 256,
    (let b := UInt8.ofNat n.val
     ((uriEscapeByte b = [b] ∧ b ≠ 37) ∨
       uriEscapeByte b = [37, ((uriEscapeByte b)[1]?.getD 0), ((uriEscapeByte b)[2]?.getD 0)] ∧
         UInt8.ofNat (16 * hexOf ((uriEscapeByte b)[1]?.getD 0) + hexOf ((uriEscapeByte b)[2]?.getD 0)) = b) ∧
     (∀ x ∈ uriEscapeByte b, x ≠ 47 ∧ x ≠ 61 ∧ (x = 95 → b = 95)) ∧
     ((∀ x ∈ uriEscapeByte b, x = 46) → b = 46)) := by decide +kernel

theorem byte_cases {P : UInt8 → Prop} (h : ∀ n : Fin 256, P (UInt8.ofNat n.val)) (b : UInt8) : P b := by
  have := h ⟨b.toNat, b.toNat_lt⟩
  simpa using this

theorem unescape_escape (s : Bytes) : unescape (s.flatMap uriEscapeByte) = s := by
  induction s with
  | nil => simp [unescape]
  | cons b s ih =>
    have hb := (byte_cases (P := fun b => ((uriEscapeByte b = [b] ∧ b ≠ 37) ∨
       uriEscapeByte b = [37, ((uriEscapeByte b)[1]?.getD 0), ((uriEscapeByte b)[2]?.getD 0)] ∧
         UInt8.ofNat (16 * hexOf ((uriEscapeByte b)[1]?.getD 0) + hexOf ((uriEscapeByte b)[2]?.getD 0)) = b)) (fun n => (escape_table n).1) b)
    rw [List.flatMap_cons]
    rcases hb with ⟨h1, h2⟩ | ⟨h1, h2⟩
    · rw [h1]
      show unescape (b :: s.flatMap uriEscapeByte) = _
      rw [unescape.eq_def]
      dsimp only
      rw [if_neg h2, ih]
    · rw [h1]
      show unescape (37 :: _ :: _ :: s.flatMap uriEscapeByte) = _
      rw [unescape.eq_def]
      dsimp only
      rw [if_pos rfl]
      rw [h2, ih]

theorem escape_mem {b x : UInt8} (h : x ∈ uriEscapeByte b) : x ≠ 47 ∧ x ≠ 61 ∧ (x = 95 → b = 95) :=
  byte_cases (P := fun b => ∀ x ∈ uriEscapeByte b, x ≠ 47 ∧ x ≠ 61 ∧ (x = 95 → b = 95)) (fun n => (escape_table n).2.1) b x h

theorem escape_dots {b : UInt8} (h : ∀ x ∈ uriEscapeByte b, x = 46) : b = 46 :=
  byte_cases (P := fun b => (∀ x ∈ uriEscapeByte b, x = 46) → b = 46) (fun n => (escape_table n).2.2) b h

/-- the text of a component's value -/
def valUri (v : Bytes) : Bytes := (if v.all (· == 46) then bytes! "..." else []) ++ v.flatMap uriEscapeByte

theorem compUri_eq (c : Block) : compUri c = if c.typ = 8 then valUri c.val else decDigits c.typ ++ [61] ++ valUri c.val := rfl

theorem valUri_mem {v : Bytes} {x : UInt8} (h : x ∈ valUri v) : x ≠ 47 ∧ x ≠ 61 ∧ (x = 95 → 95 ∈ v) := by
  unfold valUri at h
  rw [List.mem_append] at h
  rcases h with h | h
  · split at h
    · simp only [List.mem_cons, List.not_mem_nil, or_false] at h
      rcases h with rfl | rfl | rfl <;> exact ⟨by decide, by decide, fun h => absurd h (by decide)⟩
    · cases h
  · rw [List.mem_flatMap] at h
    obtain ⟨b, hb, hx⟩ := h
    obtain ⟨h1, h2, h3⟩ := escape_mem hx
    exact ⟨h1, h2, fun h => h3 h ▸ hb⟩

theorem dots_escape {v : Bytes} (h : v.all (· == 46) = true) : v.flatMap uriEscapeByte = v := by
  induction v with
  | nil => rfl
  | cons b v ih =>
    simp only [List.all_cons, Bool.and_eq_true, beq_iff_eq] at h
    rw [List.flatMap_cons, ih h.2, h.1]
    rfl

theorem escape_all_dots {v : Bytes} (h : ∀ x ∈ v.flatMap uriEscapeByte, x = 46) : v.all (· == 46) = true := by
  rw [List.all_eq_true]
  intro b hb
  rw [beq_iff_eq]
  exact escape_dots fun x hx => h x (List.mem_flatMap.mpr ⟨b, hb, hx⟩)

theorem valUri_inj {v w : Bytes} (h : valUri v = valUri w) : v = w := by
  unfold valUri at h
  by_cases hv : v.all (· == 46) = true <;> by_cases hw : w.all (· == 46) = true
  · rw [if_pos hv, if_pos hw, dots_escape hv, dots_escape hw] at h
    exact List.append_cancel_left h
  · rw [if_pos hv, if_neg hw, dots_escape hv] at h
    refine absurd (escape_all_dots (v := w) ?_) hw
    intro x hx
    rw [List.nil_append] at h
    rw [← h, List.mem_append] at hx
    rcases hx with hx | hx
    · simpa using hx
    · simpa using List.all_eq_true.mp hv x hx
  · rw [if_neg hv, if_pos hw, dots_escape hw] at h
    refine absurd (escape_all_dots (v := v) ?_) hv
    intro x hx
    rw [List.nil_append] at h
    rw [h, List.mem_append] at hx
    rcases hx with hx | hx
    · simpa using hx
    · simpa using List.all_eq_true.mp hw x hx
  · rw [if_neg hv, if_neg hw, List.nil_append, List.nil_append] at h
    rw [← unescape_escape v, h, unescape_escape]

theorem decDigits_inj {a b : Nat} (h : decDigits a = decDigits b) : a = b := by
  have h1 := decDigits_val a
  rw [h, decDigits_val] at h1
  exact h1.symm

theorem decDigits_mem {n : Nat} {x : UInt8} (h : x ∈ decDigits n) : x ≠ 47 ∧ x ≠ 61 ∧ x ≠ 95 := by
  have := decDigits_digit n x h
  refine ⟨?_, ?_, ?_⟩ <;> (rintro rfl; revert this; decide)

/-- what comes before the first occurrence of an octet is determined by the whole -/
theorem before_inj {s t u v : Bytes} {x : UInt8} (hs : x ∉ s) (ht : x ∉ t) (h : s ++ x :: u = t ++ x :: v) : s = t ∧ u = v := by
  induction s generalizing t with
  | nil =>
    cases t with
    | nil => simpa using h
    | cons b t =>
      simp only [List.nil_append, List.cons_append, List.cons.injEq] at h
      exact absurd (h.1 ▸ List.mem_cons_self ..) ht
  | cons a s ih =>
    cases t with
    | nil =>
      simp only [List.nil_append, List.cons_append, List.cons.injEq] at h
      exact absurd (h.1 ▸ List.mem_cons_self ..) hs
    | cons b t =>
      simp only [List.cons_append, List.cons.injEq] at h
      obtain ⟨h1, h2⟩ := ih (fun hm => hs (List.mem_cons_of_mem _ hm)) (fun hm => ht (List.mem_cons_of_mem _ hm)) h.2
      exact ⟨by rw [h.1, h1], h2⟩

theorem compUri_mem {c : Block} {x : UInt8} (h : x ∈ compUri c) : x ≠ 47 ∧ (x = 95 → 95 ∈ c.val) := by
  rw [compUri_eq] at h
  split at h
  · exact ⟨(valUri_mem h).1, (valUri_mem h).2.2⟩
  · rw [List.mem_append, List.mem_append] at h
    rcases h with (h | h) | h
    · obtain ⟨h1, _, h3⟩ := decDigits_mem h
      exact ⟨h1, fun h => absurd h h3⟩
    · simp only [List.mem_singleton] at h
      subst h
      exact ⟨by decide, fun h => absurd h (by decide)⟩
    · exact ⟨(valUri_mem h).1, (valUri_mem h).2.2⟩

theorem compUri_inj {c d : Block} (h : compUri c = compUri d) : c = d := by
  have key : c.typ = d.typ ∧ c.val = d.val := by
    rw [compUri_eq, compUri_eq] at h
    have no : ∀ (v : Bytes) (t : Nat) (w : Bytes), valUri v ≠ decDigits t ++ [61] ++ valUri w := by
      intro v t w he
      have : (61 : UInt8) ∈ valUri v := by rw [he]; simp
      exact (valUri_mem this).2.1 rfl
    split at h
    · rename_i hc
      split at h
      · rename_i hd
        exact ⟨by rw [hc, hd], valUri_inj h⟩
      · exact absurd h (no _ _ _)
    · split at h
      · exact absurd h.symm (no _ _ _)
      · rw [List.append_assoc, List.append_assoc] at h
        obtain ⟨h1, h2⟩ := before_inj (x := 61) (fun hm => (decDigits_mem hm).2.1 rfl) (fun hm => (decDigits_mem hm).2.1 rfl) h
        exact ⟨decDigits_inj h1, valUri_inj h2⟩
  cases c; cases d
  simpa using key

theorem compUri_ne_nil (c : Block) : compUri c ≠ [] := by
  rw [compUri_eq]
  split
  · intro h
    unfold valUri at h
    rw [List.append_eq_nil_iff] at h
    have : c.val.all (· == 46) = true := escape_all_dots (by rw [h.2]; simp)
    rw [if_pos this] at h
    simp at h
  · simp

/-- the URI of a name tells the name -/
theorem nameUri_inj {a b : Name} (h : nameUri a = nameUri b) : a = b := by
  have tail : ∀ a b : Name, a.flatMap (fun c => 47 :: compUri c) = b.flatMap (fun c => 47 :: compUri c) → a = b := by
    intro a
    induction a with
    | nil =>
      intro b h
      cases b with
      | nil => rfl
      | cons d b => simp at h
    | cons c a ih =>
      intro b h
      cases b with
      | nil => simp at h
      | cons d b =>
        simp only [List.flatMap_cons, List.cons_append, List.cons.injEq, true_and] at h
        have nc : (47 : UInt8) ∉ compUri c := fun hm => (compUri_mem hm).1 rfl
        have nd : (47 : UInt8) ∉ compUri d := fun hm => (compUri_mem hm).1 rfl
        have hcd : compUri c = compUri d ∧ a.flatMap (fun c => 47 :: compUri c) = b.flatMap (fun c => 47 :: compUri c) := by
          cases a with
          | nil =>
            cases b with
            | nil => simpa using h
            | cons e b =>
              rw [List.flatMap_nil, List.append_nil] at h
              exact absurd (by rw [h]; simp) nc
          | cons e a =>
            cases b with
            | nil =>
              rw [List.flatMap_nil, List.append_nil] at h
              exact absurd (by rw [← h]; simp) nd
            | cons f b =>
              simp only [List.flatMap_cons, List.cons_append] at h ⊢
              obtain ⟨h1, h2⟩ := before_inj nc nd h
              exact ⟨h1, by rw [h2]⟩
        rw [compUri_inj hcd.1, ih b hcd.2]
  unfold nameUri at h
  have single : ∀ n : Name, n ≠ [] → n.flatMap (fun c => 47 :: compUri c) ≠ [47] := by
    intro n hn he
    cases n with
    | nil => exact hn rfl
    | cons c n =>
      simp only [List.flatMap_cons, List.cons_append, List.cons.injEq, true_and, List.append_eq_nil_iff] at he
      exact compUri_ne_nil c he.1
  split at h
  · rename_i ha
    split at h
    · rename_i hb
      rw [ha, hb]
    · rename_i hb
      exact absurd h.symm (single b hb)
  · rename_i ha
    split at h
    · exact absurd h (single a ha)
    · exact tail a b h

end Ndncert
