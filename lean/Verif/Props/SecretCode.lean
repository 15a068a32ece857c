import Verif.Lemmas.Code

/-! # Secret codes (C45) -/

namespace Ndncert.Props

/-- C45, first half: every accepted random word gives six decimal digits. -/
theorem C45_six_digits (word : Nat) (h : word < 4294000000) : IsCode (secretCode word) :=
  code_isCode (by omega)

/-- C45, second half: of the accepted words exactly 4294 give any one code. -/
theorem C45_uniform (s : Bytes) (h : IsCode s) :
    (List.range 4294000000).countP (fun w => decide (secretCode w = s)) = 4294 := by
  have hlt := h.lt
  rw [← countP_interval (4294 * digitsVal s) 4294 4294000000 (by omega)]
  apply List.countP_congr
  intro w hw
  rw [List.mem_range] at hw
  simp only [decide_eq_true_eq]
  rw [secretCode_eq h hw]
  omega

/-- The code generated from a sequence of random words is that of the first one that is accepted, as soon as there is one. -/
theorem C45_first_accepted (draws : Nat → Nat) (n w : Nat) :
    firstAccepted draws n = some w ↔ ∃ m < n, draws m = w ∧ w < 4294000000 ∧ ∀ j < m, 4294000000 ≤ draws j := by
  constructor
  · exact firstAccepted_some
  · rintro ⟨m, h1, h2, h3, h4⟩
    cases hf : firstAccepted draws n with
    | none => have := firstAccepted_none hf m h1; omega
    | some v =>
      obtain ⟨k, k1, k2, k3, k4⟩ := firstAccepted_some hf
      have hkm : k = m := by
        rcases Nat.lt_trichotomy k m with h | h | h
        · have := h4 k h; omega
        · exact h
        · have := k4 m h; omega
      subst hkm
      rw [← k2, h2]

/-- concrete codes: padding, and the largest accepted word -/
example : secretCode 5 = bytes! "000000" ∧ secretCode 4294 = bytes! "000001" ∧ secretCode 4293999999 = bytes! "999999" ∧
    IsCode (bytes! "012345") := by unfold IsCode; decide +kernel

/-- two rejected words, then an accepted one -/
example : firstAccepted (fun n => if n < 2 then 4294967295 else 4294) 5 = some 4294 := by decide +kernel

end Ndncert.Props
