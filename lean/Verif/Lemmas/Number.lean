import Verif.Spec.Client
import Verif.Model.Client
import Verif.Lemmas.Config

namespace Ndncert

theorem digitByte_iff (b : UInt8) : (48 ≤ b && b ≤ 57) = true ↔ 48 ≤ b.toNat ∧ b.toNat ≤ 57 := by
  rw [Bool.and_eq_true, decide_eq_true_eq, decide_eq_true_eq]
  exact Iff.rfl

theorem takeWhile_split {p : UInt8 → Bool} {a l : Bytes} (ha : ∀ b ∈ a, p b = true) (hl : ∀ b, l.head? = some b → p b = false) :
    (a ++ l).takeWhile p = a := by
  induction a with
  | nil =>
    cases l with
    | nil => rfl
    | cons b l => simp [hl b rfl]
  | cons b a ih =>
    rw [List.cons_append, List.takeWhile_cons, if_pos (ha b (by simp)), ih (fun c hc => ha c (by simp [hc]))]

theorem stripSign_spec (s : Bytes) : ∃ sign r, s = sign ++ r ∧ stripSign s = (decide (sign = [45]), r) ∧
    (sign = [] ∨ sign = [43] ∨ sign = [45]) := by
  unfold stripSign
  split
  · exact ⟨[43], _, rfl, by simp, by simp⟩
  · exact ⟨[45], _, rfl, by simp, by simp⟩
  · exact ⟨[], s, rfl, rfl, by simp⟩

theorem stoul_iff (line : Bytes) (n : Nat) : stoul line = some n ↔ StandsFor line n := by
  constructor
  · intro h
    unfold stoul at h
    dsimp only at h
    obtain ⟨sign, r, h1, h2, h3⟩ := stripSign_spec (line.dropWhile isSpace)
    rw [h2] at h
    dsimp only at h
    cases hd : readDigits (r.takeWhile (fun b => 48 ≤ b && b ≤ 57)) with
    | none => rw [hd] at h; cases h
    | some v =>
      rw [hd] at h
      dsimp only at h
      split at h
      · cases h
      · next hv =>
        obtain ⟨d1, d2, d3⟩ := (readDigits_iff _ _).mp hd
        injection h with h
        refine .mk (blanks := line.takeWhile isSpace) (sign := sign) (digits := r.takeWhile (fun b => 48 ≤ b && b ≤ 57))
          (rest := r.dropWhile (fun b => 48 ≤ b && b ≤ 57)) ?_ ?_ h3 d1 d2 ?_ ?_ ?_
        · rw [List.takeWhile_append_dropWhile, ← h1, List.takeWhile_append_dropWhile]
        · intro b hb
          exact (isSpace_iff b).mp (List.all_eq_true.mp List.all_takeWhile b hb)
        · intro b hb hdig
          have := List.head?_dropWhile_not (fun b : UInt8 => (48 ≤ b && b ≤ 57)) r
          rw [hb] at this
          dsimp only at this
          rw [(digitByte_iff b).mpr hdig] at this
          cases this
        · rw [show digitsValue (r.takeWhile (fun b => 48 ≤ b && b ≤ 57)) = v from d3.symm]
          omega
        · rw [show digitsValue (r.takeWhile (fun b => 48 ≤ b && b ≤ 57)) = v from d3.symm]
          by_cases hs : sign = [45]
          · rw [if_pos hs]
            simp only [hs, decide_true, if_true] at h
            subst h
            omega
          · rw [if_neg hs]
            simp only [hs, decide_false, if_false, Bool.false_eq_true] at h
            exact h.symm
  · rintro ⟨shape, blank, signs, some, digit, all, fits, value⟩
    rename_i blanks sign digits rest
    obtain ⟨d0, ds, rfl⟩ := List.exists_cons_of_ne_nil some
    have hd0 := digit d0 (by simp)
    have hns : ∀ b : UInt8, 48 ≤ b.toNat ∧ b.toNat ≤ 57 → isSpace b = false ∧ b ≠ 43 ∧ b ≠ 45 := by
      intro b h
      refine ⟨?_, ?_, ?_⟩
      · rw [← Bool.not_eq_true, isSpace_iff]
        rintro (rfl | h2)
        · revert h; decide
        · omega
      · rintro rfl; revert h; decide
      · rintro rfl; revert h; decide
    have hdrop : line.dropWhile isSpace = sign ++ (d0 :: ds ++ rest) := by
      rw [shape, dropWhile_all (fun b hb => (isSpace_iff b).mpr (blank b hb))]
      rcases signs with rfl | rfl | rfl
      · rw [List.nil_append, List.cons_append, List.dropWhile_cons, (hns d0 hd0).1]
        rfl
      · rfl
      · rfl
    have hstrip : stripSign (sign ++ (d0 :: ds ++ rest)) = (decide (sign = [45]), d0 :: ds ++ rest) := by
      rcases signs with rfl | rfl | rfl
      · rw [List.nil_append, List.cons_append]
        unfold stripSign
        split
        · next h => injection h with h _; exact absurd h (hns d0 hd0).2.1
        · next h => injection h with h _; exact absurd h (hns d0 hd0).2.2
        · rfl
      · rfl
      · rfl
    have htake : (d0 :: ds ++ rest).takeWhile (fun b => 48 ≤ b && b ≤ 57) = d0 :: ds :=
      takeWhile_split (fun b hb => (digitByte_iff b).mpr (digit b hb)) (fun b hb => by
        rw [← Bool.not_eq_true, digitByte_iff]
        exact all b hb)
    have hread : readDigits (d0 :: ds) = .some (digitsValue (d0 :: ds)) := (readDigits_iff _ _).mpr ⟨some, digit, rfl⟩
    unfold stoul
    dsimp only
    rw [hdrop, hstrip]
    dsimp only
    rw [htake, hread]
    dsimp only
    rw [if_neg (by omega)]
    congr 1
    generalize digitsValue (d0 :: ds) = v at *
    by_cases hs : sign = [45]
    · simp only [hs, decide_true, if_true] at value ⊢
      omega
    · simp only [hs, decide_false, if_false, Bool.false_eq_true] at value ⊢
      exact value.symm

instance (line : Bytes) (n : Nat) : Decidable (StandsFor line n) := decidable_of_iff _ (stoul_iff line n)

theorem addHours_none {now : Time} {h : Int} (e : addHours now h = none) : ¬ HoursFit now h := by
  intro hf
  unfold addHours at e
  dsimp only at e
  split at e
  · cases e
  · next h2 => exact h2 hf

theorem stoul_none (line : Bytes) : stoul line = none ↔ ∀ k, ¬ StandsFor line k := by
  constructor
  · intro h k hk
    rw [(stoul_iff line k).mpr hk] at h
    cases h
  · intro h
    cases hs : stoul line with
    | none => rfl
    | some k => exact absurd ((stoul_iff line k).mp hs) (h k)

end Ndncert
