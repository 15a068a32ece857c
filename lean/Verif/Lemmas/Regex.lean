import Verif.Model.EmailCheck

/-! # Matching with derivatives is matching -/

namespace Ndncert

/-- the strings that match, as in a textbook -/
def Regex.Lang : Regex → Bytes → Prop
  | .never, _ => False
  | .eps, s => s = []
  | .one p, s => ∃ c, s = [c] ∧ p c = true
  | .seq a b, s => ∃ x y, s = x ++ y ∧ a.Lang x ∧ b.Lang y
  | .alt a b, s => a.Lang s ∨ b.Lang s
  | .star a, s => ∃ parts : List Bytes, s = parts.flatten ∧ ∀ x ∈ parts, a.Lang x

theorem Regex.nullable_iff (r : Regex) : r.nullable = true ↔ r.Lang [] := by
  induction r with
  | never => simp [nullable, Lang]
  | eps => simp [nullable, Lang]
  | one p => simp [nullable, Lang]
  | seq a b iha ihb =>
    simp only [nullable, Lang, Bool.and_eq_true, iha, ihb]
    constructor
    · rintro ⟨h1, h2⟩; exact ⟨[], [], rfl, h1, h2⟩
    · rintro ⟨x, y, h, h1, h2⟩
      obtain ⟨rfl, rfl⟩ := List.append_eq_nil_iff.mp h.symm
      exact ⟨h1, h2⟩
  | alt a b iha ihb => simp only [nullable, Lang, Bool.or_eq_true, iha, ihb]
  | star a ih =>
    simp only [nullable, Lang, true_iff]
    exact ⟨[], rfl, by simp⟩

/-- the first part that is not empty -/
theorem flatten_first {parts : List Bytes} {c : UInt8} {s : Bytes} (h : c :: s = parts.flatten) :
    ∃ (x : Bytes) (rest : List Bytes), (c :: x) ∈ parts ∧ s = x ++ rest.flatten ∧ ∀ y ∈ rest, y ∈ parts := by
  induction parts with
  | nil => simp at h
  | cons p parts ih =>
    cases p with
    | nil =>
      obtain ⟨x, rest, h1, h2, h3⟩ := ih (by simpa using h)
      exact ⟨x, rest, by simp [h1], h2, fun y hy => by simp [h3 y hy]⟩
    | cons d p =>
      simp only [List.flatten_cons, List.cons_append, List.cons.injEq] at h
      obtain ⟨rfl, h⟩ := h
      exact ⟨p, parts, by simp, h, fun y hy => by simp [hy]⟩

theorem Regex.after_iff (c : UInt8) (r : Regex) : ∀ s, (r.after c).Lang s ↔ r.Lang (c :: s) := by
  induction r with
  | never => intro s; simp [after, Lang]
  | eps => intro s; simp [after, Lang]
  | one p =>
    intro s
    unfold after
    split
    · rename_i h
      simp only [Lang]
      constructor
      · rintro rfl; exact ⟨c, rfl, h⟩
      · rintro ⟨d, h1, _⟩; cases h1; rfl
    · rename_i h
      simp only [Lang, false_iff]
      rintro ⟨d, h1, h2⟩
      cases h1
      exact h h2
  | seq a b iha ihb =>
    intro s
    have key : Lang (.seq (a.after c) b) s ↔ ∃ x y, s = x ++ y ∧ a.Lang (c :: x) ∧ b.Lang y := by
      simp only [Lang, iha]
    have split : Lang (.seq a b) (c :: s) ↔ (a.Lang [] ∧ b.Lang (c :: s)) ∨ ∃ x y, s = x ++ y ∧ a.Lang (c :: x) ∧ b.Lang y := by
      simp only [Lang]
      constructor
      · rintro ⟨x, y, h, h1, h2⟩
        cases x with
        | nil => simp only [List.nil_append] at h; subst h; exact .inl ⟨h1, h2⟩
        | cons d x => cases h; exact .inr ⟨x, y, rfl, h1, h2⟩
      · rintro (⟨h1, h2⟩ | ⟨x, y, rfl, h1, h2⟩)
        · exact ⟨[], _, rfl, h1, h2⟩
        · exact ⟨c :: x, y, rfl, h1, h2⟩
    rw [split]
    unfold after
    cases hn : a.nullable with
    | true =>
      have hl := (nullable_iff a).mp hn
      rw [if_pos rfl]
      show Lang (.seq (a.after c) b) s ∨ Lang (b.after c) s ↔ _
      rw [key, ihb]
      constructor
      · rintro (h | h)
        · exact .inr h
        · exact .inl ⟨hl, h⟩
      · rintro (⟨_, h⟩ | h)
        · exact .inr h
        · exact .inl h
    | false =>
      have hl : ¬ a.Lang [] := fun h => by rw [(nullable_iff a).mpr h] at hn; cases hn
      rw [if_neg (by simp), key]
      constructor
      · exact .inr
      · rintro (⟨h, _⟩ | h)
        · exact absurd h hl
        · exact h
  | alt a b iha ihb => intro s; simp only [after, Lang, iha, ihb]
  | star a ih =>
    intro s
    simp only [after, Lang, ih]
    constructor
    · rintro ⟨x, y, rfl, h1, parts, rfl, h2⟩
      refine ⟨(c :: x) :: parts, by simp, fun z hz => ?_⟩
      rcases List.mem_cons.mp hz with rfl | hz
      · exact h1
      · exact h2 z hz
    · rintro ⟨parts, h1, h2⟩
      obtain ⟨x, rest, h3, h4, h5⟩ := flatten_first h1
      exact ⟨x, rest.flatten, h4, h2 _ h3, rest, rfl, fun z hz => h2 z (h5 z hz)⟩

theorem Regex.matches_iff (s : Bytes) : ∀ r : Regex, r.matches s = true ↔ r.Lang s := by
  induction s with
  | nil => intro r; exact nullable_iff r
  | cons c s ih =>
    intro r
    rw [← after_iff]
    exact ih (r.after c)

theorem Regex.plus_one (p : UInt8 → Bool) (s : Bytes) : (Regex.plus (.one p)).Lang s ↔ s ≠ [] ∧ ∀ c ∈ s, p c = true := by
  unfold plus
  simp only [Lang]
  constructor
  · rintro ⟨x, y, rfl, ⟨c, rfl, hc⟩, parts, rfl, hp⟩
    refine ⟨by simp, fun d hd => ?_⟩
    rw [List.mem_append, List.mem_singleton, List.mem_flatten] at hd
    rcases hd with rfl | ⟨l, hl, hd⟩
    · exact hc
    · obtain ⟨e, rfl, he⟩ := hp l hl
      rw [List.mem_singleton.mp hd]; exact he
  · rintro ⟨h1, h2⟩
    cases s with
    | nil => exact absurd rfl h1
    | cons c s =>
      refine ⟨[c], s, rfl, ⟨c, rfl, h2 c (by simp)⟩, s.map (fun d => [d]), ?_, ?_⟩
      · clear h1 h2
        induction s with
        | nil => rfl
        | cons d s ih => rw [List.map_cons, List.flatten_cons, ← ih]; rfl
      · intro x hx
        obtain ⟨d, hd, rfl⟩ := List.mem_map.mp hx
        exact ⟨d, rfl, h2 d (by simp [hd])⟩

end Ndncert
