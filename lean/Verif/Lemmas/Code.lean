import Verif.Spec.Code

namespace Ndncert

theorem foldl_digits (s : Bytes) (a : Nat) : s.foldl (fun n c => 10 * n + (c.toNat - 48)) a = a * 10 ^ s.length + digitsVal s := by
  induction s generalizing a with
  | nil => simp [digitsVal]
  | cons c s ih =>
    have h1 := ih (10 * a + (c.toNat - 48))
    have h2 := ih (10 * 0 + (c.toNat - 48))
    show s.foldl _ (10 * a + (c.toNat - 48)) = _
    have h3 : digitsVal (c :: s) = s.foldl (fun n c => 10 * n + (c.toNat - 48)) (10 * 0 + (c.toNat - 48)) := rfl
    rw [h1, h3, h2, List.length_cons, Nat.pow_succ]
    generalize 10 ^ s.length = p
    generalize digitsVal s = q
    generalize c.toNat - 48 = d
    rw [Nat.add_mul, Nat.add_mul]
    have : 10 * a * p = a * (p * 10) := by rw [Nat.mul_comm 10 a, Nat.mul_assoc, Nat.mul_comm 10 p]
    omega

theorem digitsVal_cons (c : UInt8) (s : Bytes) : digitsVal (c :: s) = (c.toNat - 48) * 10 ^ s.length + digitsVal s := by
  have h3 : digitsVal (c :: s) = s.foldl (fun n c => 10 * n + (c.toNat - 48)) (10 * 0 + (c.toNat - 48)) := rfl
  rw [h3, foldl_digits]
  simp

theorem digitsVal_append (s t : Bytes) : digitsVal (s ++ t) = digitsVal s * 10 ^ t.length + digitsVal t := by
  unfold digitsVal
  rw [List.foldl_append, foldl_digits]
  rfl

theorem digitsVal_lt (s : Bytes) (h : ∀ c ∈ s, 48 ≤ c.toNat ∧ c.toNat ≤ 57) : digitsVal s < 10 ^ s.length := by
  induction s with
  | nil => simp [digitsVal]
  | cons c s ih =>
    rw [digitsVal_cons, List.length_cons, Nat.pow_succ]
    have h1 := ih (fun x hx => h x (by simp [hx]))
    have h2 := h c (by simp)
    have : (c.toNat - 48) * 10 ^ s.length ≤ 9 * 10 ^ s.length := Nat.mul_le_mul_right _ (by omega)
    omega

theorem digitsVal_inj {s t : Bytes} (hl : s.length = t.length) (hs : ∀ c ∈ s, 48 ≤ c.toNat ∧ c.toNat ≤ 57)
    (ht : ∀ c ∈ t, 48 ≤ c.toNat ∧ c.toNat ≤ 57) (h : digitsVal s = digitsVal t) : s = t := by
  induction s generalizing t with
  | nil => cases t with | nil => rfl | cons _ _ => cases hl
  | cons c s ih =>
    cases t with
    | nil => cases hl
    | cons d t =>
      have hl' : s.length = t.length := by simpa using hl
      rw [digitsVal_cons, digitsVal_cons, ← hl'] at h
      have b1 := digitsVal_lt s (fun x hx => hs x (by simp [hx]))
      have b2 := digitsVal_lt t (fun x hx => ht x (by simp [hx]))
      rw [← hl'] at b2
      have e1 : ((c.toNat - 48) * 10 ^ s.length + digitsVal s) / 10 ^ s.length = c.toNat - 48 := by
        rw [Nat.mul_comm, Nat.mul_add_div (by omega), Nat.div_eq_of_lt b1]; rfl
      have e2 : ((d.toNat - 48) * 10 ^ s.length + digitsVal t) / 10 ^ s.length = d.toNat - 48 := by
        rw [Nat.mul_comm, Nat.mul_add_div (by omega), Nat.div_eq_of_lt b2]; rfl
      have e3 : c.toNat - 48 = d.toNat - 48 := by rw [← e1, h, e2]
      have hc := hs c (by simp)
      have hd := ht d (by simp)
      have e4 : c = d := UInt8.toNat_inj.mp (by omega)
      subst e4
      rw [ih hl' (fun x hx => hs x (by simp [hx])) (fun x hx => ht x (by simp [hx])) (by omega)]

theorem decDigits_digit (n : Nat) : ∀ c ∈ decDigits n, 48 ≤ c.toNat ∧ c.toNat ≤ 57 := by
  intro c hc
  simp only [decDigits, List.mem_map] at hc
  obtain ⟨x, hx, rfl⟩ := hc
  have h := Nat.isDigit_of_mem_toDigits (by decide) (by decide) hx
  simp only [Char.isDigit, Bool.and_eq_true, decide_eq_true_eq] at h
  have h1 : 48 ≤ x.toNat := by have := h.1; exact this
  have h2 : x.toNat ≤ 57 := by have := h.2; exact this
  rw [UInt8.toNat_ofNat']
  omega

theorem digitChar_val : ∀ d : Nat, d < 10 → (UInt8.ofNat (Nat.digitChar d).toNat).toNat - 48 = d := by
  intro d hd
  have : ∀ d : Fin 10, (UInt8.ofNat (Nat.digitChar d.val).toNat).toNat - 48 = d.val := by decide
  exact this ⟨d, hd⟩

theorem decDigits_val (n : Nat) : digitsVal (decDigits n) = n := by
  induction n using Nat.strongRecOn with
  | ind n ih =>
    by_cases h : n < 10
    · unfold decDigits
      rw [Nat.toDigits_of_lt_base h]
      show 10 * 0 + ((UInt8.ofNat (Nat.digitChar n).toNat).toNat - 48) = n
      rw [digitChar_val n h]
      omega
    · have e : decDigits n = decDigits (n / 10) ++ [UInt8.ofNat (Nat.digitChar (n % 10)).toNat] := by
        unfold decDigits
        rw [Nat.toDigits_of_base_le (by decide) (by omega)]
        simp
      rw [e, digitsVal_append, ih (n / 10) (by omega), digitsVal_cons, digitChar_val _ (Nat.mod_lt _ (by decide))]
      simp [digitsVal]
      omega

theorem decDigits_length {n k : Nat} (hk : 0 < k) : (decDigits n).length ≤ k ↔ n < 10 ^ k := by
  unfold decDigits
  rw [List.length_map, Nat.length_toDigits_le_iff (by decide) hk]

theorem replicate_val (n : Nat) : digitsVal (List.replicate n 48) = 0 := by
  induction n with
  | zero => rfl
  | succ n ih => rw [List.replicate_succ, digitsVal_cons, ih]; simp

theorem padSix_val (s : Bytes) : digitsVal (padSix s) = digitsVal s := by
  unfold padSix
  rw [digitsVal_append, replicate_val]
  simp

theorem code_isCode {n : Nat} (h : n < 10 ^ 6) : IsCode (padSix (decDigits n)) := by
  have hl := (decDigits_length (n := n) (k := 6) (by decide)).mpr h
  refine ⟨by simp [padSix]; omega, ?_⟩
  intro c hc
  simp only [padSix, List.mem_append, List.mem_replicate] at hc
  rcases hc with ⟨_, rfl⟩ | hc
  · decide
  · exact decDigits_digit n c hc

theorem IsCode.lt {s : Bytes} (h : IsCode s) : digitsVal s < 1000000 := by
  have := digitsVal_lt s h.2
  rw [h.1] at this
  exact this

theorem secretCode_eq {s : Bytes} (h : IsCode s) {w : Nat} (hw : w < 4294000000) : secretCode w = s ↔ w / 4294 = digitsVal s := by
  constructor
  · intro e
    rw [← e]
    unfold secretCode
    rw [padSix_val, decDigits_val]
  · intro e
    have hc := code_isCode (n := w / 4294) (by omega)
    refine digitsVal_inj (hc.1.trans h.1.symm) hc.2 h.2 ?_
    show digitsVal (padSix (decDigits (w / 4294))) = _
    rw [padSix_val, decDigits_val, e]

theorem firstAccepted_none {draws : Nat → Nat} : ∀ {n : Nat}, firstAccepted draws n = none → ∀ j < n, 4294000000 ≤ draws j := by
  intro n
  induction n with
  | zero => intro _ j hj; omega
  | succ n ih =>
    intro h j hj
    unfold firstAccepted at h
    cases hf : firstAccepted draws n with
    | some v => rw [hf] at h; cases h
    | none =>
      rw [hf] at h
      dsimp only at h
      split at h
      · by_cases hjn : j = n
        · subst hjn; omega
        · exact ih hf j (by omega)
      · cases h

theorem firstAccepted_some {draws : Nat → Nat} : ∀ {n v : Nat}, firstAccepted draws n = some v →
    ∃ k < n, draws k = v ∧ v < 4294000000 ∧ ∀ j < k, 4294000000 ≤ draws j := by
  intro n
  induction n with
  | zero => intro v h; simp [firstAccepted] at h
  | succ n ih =>
    intro v h
    unfold firstAccepted at h
    cases hf : firstAccepted draws n with
    | some u =>
      rw [hf] at h
      cases h
      obtain ⟨k, h1, h2⟩ := ih hf
      exact ⟨k, by omega, h2⟩
    | none =>
      rw [hf] at h
      dsimp only at h
      split at h
      · cases h
      · cases h
        exact ⟨n, by omega, rfl, by omega, firstAccepted_none hf⟩

/-- how many numbers below `n` lie in an interval -/
theorem countP_interval (lo k : Nat) : ∀ n, lo + k ≤ n → (List.range n).countP (fun w => decide (lo ≤ w ∧ w < lo + k)) = k := by
  have below : ∀ n, n ≤ lo → (List.range n).countP (fun w => decide (lo ≤ w ∧ w < lo + k)) = 0 := by
    intro n hn
    rw [List.countP_eq_zero]
    intro a ha
    rw [List.mem_range] at ha
    simp; omega
  have inside : ∀ m, m ≤ k → (List.range (lo + m)).countP (fun w => decide (lo ≤ w ∧ w < lo + k)) = m := by
    intro m
    induction m with
    | zero => intro _; exact below _ (by omega)
    | succ m ih =>
      intro hm
      rw [← Nat.add_assoc, List.range_succ, List.countP_append, ih (by omega)]
      simp [List.countP_cons]; omega
  intro n
  induction n with
  | zero => intro h; have := inside k (Nat.le_refl _); simp at this ⊢; omega
  | succ n ih =>
    intro h
    by_cases he : lo + k = n + 1
    · rw [← he]; exact inside k (Nat.le_refl _)
    · rw [List.range_succ, List.countP_append, ih (by omega)]
      have : ¬ (lo ≤ n ∧ n < lo + k) := by omega
      simp [this]

end Ndncert
