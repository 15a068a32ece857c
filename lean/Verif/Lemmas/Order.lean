import Verif.Spec.Order

/-! # The comparison of strings is the lexicographic order -/

namespace Ndncert

theorem bytesBefore_iff : ∀ a b : Bytes, bytesLt a b = true ↔ BytesBefore a b
  | a, [] => by
    constructor
    · intro h; cases a <;> simp [bytesLt] at h
    · rintro (⟨x, r, h⟩ | ⟨c, x, y, as, bs, _, h, _⟩) <;> simp at h
  | [], b :: bs => by
    constructor
    · intro _; exact .inl ⟨b, bs, rfl⟩
    · intro _; rfl
  | a :: as, b :: bs => by
    have ih := bytesBefore_iff as bs
    have e : bytesLt (a :: as) (b :: bs) = true ↔ a < b ∨ (a = b ∧ bytesLt as bs = true) := by
      simp [bytesLt]
    rw [e, ih]
    constructor
    · rintro (h | ⟨rfl, ⟨x, r, h⟩ | ⟨c, x, y, as', bs', h1, h2, h3⟩⟩)
      · exact .inr ⟨[], a, b, as, bs, rfl, rfl, h⟩
      · exact .inl ⟨x, r, by rw [h]; rfl⟩
      · exact .inr ⟨a :: c, x, y, as', bs', by rw [h1]; rfl, by rw [h2]; rfl, h3⟩
    · rintro (⟨x, r, h⟩ | ⟨c, x, y, as', bs', h1, h2, h3⟩)
      · cases h; exact .inr ⟨rfl, .inl ⟨x, r, rfl⟩⟩
      · cases c with
        | nil => cases h1; cases h2; exact .inl h3
        | cons z c => cases h1; cases h2; exact .inr ⟨rfl, .inr ⟨c, x, y, as', bs', rfl, rfl, h3⟩⟩

theorem bytesBefore_not (a b : Bytes) : bytesLt a b = false ↔ ¬ BytesBefore a b := by
  rw [← bytesBefore_iff]; simp

theorem inOrder_iff (m : MMap) : m.InOrder ↔ m.Sorted := by
  unfold MMap.InOrder MMap.Sorted
  constructor <;> intro h <;> exact h.imp fun h => by first | exact (bytesBefore_not _ _).mpr h | exact (bytesBefore_not _ _).mp h

end Ndncert
