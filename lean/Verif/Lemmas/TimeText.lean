import Verif.Spec.TimeText

/-! # Lemmas on times as text -/

namespace Ndncert

theorem isLeapYear_iff (y : Nat) : isLeapYear y = true ↔ LeapYear y := by
  unfold isLeapYear LeapYear
  simp only [Bool.and_eq_true, Bool.or_eq_true, beq_iff_eq, bne_iff_ne, ne_eq, Nat.dvd_iff_mod_eq_zero]

/-- The numbers `from_day_number` goes through: century, year of the century, day of the year, month, all counted from March. -/
structure YmdParts (n b d e m : Nat) : Prop where
  hn : n + 32044 = 36524 * b + b / 4 + 365 * d + d / 4 + e
  hd : d ≤ 99
  he : e ≤ 365
  he2 : e = 365 → d % 4 = 3 ∧ (d = 99 → b % 4 = 3)
  hm : m ≤ 11
  hm1 : (153 * m + 2) / 5 ≤ e
  hm2 : e < (153 * (m + 1) + 2) / 5 ∨ m = 11
  hy : ymdOfDay n = (100 * b + d - 4800 + m / 10, m + 3 - 12 * (m / 10), e + 1 - (153 * m + 2) / 5)

theorem ymd_parts (n : Nat) : ∃ b d e m, YmdParts n b d e m := by
  obtain ⟨b, hb⟩ : ∃ b, b = (4 * (n + 32044) + 3) / 146097 := ⟨_, rfl⟩
  obtain ⟨c, hc⟩ : ∃ c, c = n + 32044 - (146097 * b) / 4 := ⟨_, rfl⟩
  obtain ⟨d, hd⟩ : ∃ d, d = (4 * c + 3) / 1461 := ⟨_, rfl⟩
  obtain ⟨e, he⟩ : ∃ e, e = c - (1461 * d) / 4 := ⟨_, rfl⟩
  obtain ⟨m, hm⟩ : ∃ m, m = (5 * e + 2) / 153 := ⟨_, rfl⟩
  have hy : ymdOfDay n = (100 * b + d - 4800 + m / 10, m + 3 - 12 * (m / 10), e + 1 - (153 * m + 2) / 5) := by
    rw [hm, he, hd, hc, hb]
    rfl
  have hb0 : (146097 * b) / 4 = 36524 * b + b / 4 := by omega
  have hb1 : n + 32044 = 36524 * b + b / 4 + c := by omega
  have hc1 : c ≤ 36524 := by omega
  have hc2 : c = 36524 → b % 4 = 3 := by omega
  have hd0 : (1461 * d) / 4 = 365 * d + d / 4 := by omega
  have hd1 : d ≤ 99 := by omega
  have he1 : c = 365 * d + d / 4 + e := by omega
  have he2 : e ≤ 365 := by omega
  have he3 : e = 365 → d % 4 = 3 := by omega
  have he4 : e = 365 → d = 99 → c = 36524 := by omega
  have hm1 : m ≤ 11 := by omega
  have hm2 : (153 * m + 2) / 5 ≤ e := by omega
  have hm3 : e < (153 * (m + 1) + 2) / 5 ∨ m = 11 := by omega
  exact ⟨b, d, e, m, by omega, hd1, he2, fun h => ⟨he3 h, fun h99 => hc2 (he4 h h99)⟩, hm1, hm2, hm3, hy⟩

/-- the day number is recovered -/
theorem dayOfYmd_back {n : Nat} (h : 2232400 ≤ n) :
    dayOfYmd (ymdOfDay n).1 (ymdOfDay n).2.1 (ymdOfDay n).2.2 = n := by
  obtain ⟨b, d, e, m, hp⟩ := ymd_parts n
  obtain ⟨h1, h2, h3, _, h5, h6, _, h8⟩ := hp
  rw [h8]
  dsimp only
  have hb : 61 ≤ b := by omega
  have hyear : 4800 ≤ 100 * b + d := by omega
  have y4 : (100 * b + d) / 4 = 25 * b + d / 4 := by omega
  have y100 : (100 * b + d) / 100 = b := by omega
  have y400 : (100 * b + d) / 400 = b / 4 := by omega
  unfold dayOfYmd
  dsimp only
  by_cases hm : m ≤ 9
  · have e1 : m / 10 = 0 := by omega
    rw [e1]
    have e2 : (14 - (m + 3 - 12 * 0)) / 12 = 0 := by omega
    rw [e2]
    have e3 : 100 * b + d - 4800 + 0 + 4800 - 0 = 100 * b + d := by omega
    rw [e3]
    have e4 : m + 3 - 12 * 0 + 12 * 0 - 3 = m := by omega
    rw [e4, y4, y100, y400]
    omega
  · have e1 : m / 10 = 1 := by omega
    rw [e1]
    have e2 : (14 - (m + 3 - 12 * 1)) / 12 = 1 := by omega
    rw [e2]
    have e3 : 100 * b + d - 4800 + 1 + 4800 - 1 = 100 * b + d := by omega
    rw [e3]
    have e4 : m + 3 - 12 * 1 + 12 * 1 - 3 = m := by omega
    rw [e4, y4, y100, y400]
    omega

/-- month and day are in range -/
theorem ymd_valid {n : Nat} (h : 2232400 ≤ n) (h2 : n ≤ 5373484) :
    1400 ≤ (ymdOfDay n).1 ∧ (ymdOfDay n).1 ≤ 9999 ∧ 1 ≤ (ymdOfDay n).2.1 ∧ (ymdOfDay n).2.1 ≤ 12 ∧
      1 ≤ (ymdOfDay n).2.2 ∧ (ymdOfDay n).2.2 ≤ endOfMonth (ymdOfDay n).1 (ymdOfDay n).2.1 := by
  obtain ⟨b, d, e, m, hp⟩ := ymd_parts n
  obtain ⟨h1, hd, he, he2, hm, hm1, hm2, h8⟩ := hp
  rw [h8]
  dsimp only
  have hb : 61 ≤ b := by omega
  have hb2 : b ≤ 147 := by omega
  refine ⟨?_, ?_, by omega, by omega, by omega, ?_⟩
  · by_cases hm9 : m ≤ 9
    · have : e ≤ 305 := by omega
      have : m / 10 = 0 := by omega
      rcases (by omega : b = 61 ∨ 62 ≤ b) with rfl | hb62
      · omega
      · omega
    · have : m / 10 = 1 := by omega
      omega
  · by_cases hm9 : m ≤ 9
    · have : m / 10 = 0 := by omega
      omega
    · have : 306 ≤ e := by omega
      have : m / 10 = 1 := by omega
      omega
  unfold endOfMonth
  by_cases hfeb : m = 11
  · subst hfeb
    rw [if_pos (by omega)]
    have hl : e = 365 → isLeapYear (100 * b + d - 4800 + 11 / 10) = true := by
      intro h365
      rw [isLeapYear_iff]
      unfold LeapYear
      obtain ⟨g1, g2⟩ := he2 h365
      have : (100 * b + d - 4800 + 11 / 10) = 100 * b + d + 1 - 4800 := by omega
      rw [this]
      refine ⟨by omega, ?_⟩
      by_cases h99 : d = 99
      · right
        have := g2 h99
        omega
      · left
        omega
    by_cases h365 : e = 365
    · rw [if_pos (hl h365)]
      omega
    · split <;> omega
  · have hm2 := hm2.resolve_right hfeb
    rw [if_neg (by omega)]
    split <;> omega

/-! ## Decimal numbers -/

theorem decimalPad_length (w n : Nat) : (decimalPad w n).length = w := by
  induction w generalizing n with
  | zero => rfl
  | succ w ih =>
    rw [decimalPad, List.length_append, ih]
    rfl

theorem ofNat_digit (k : Nat) (h : k < 10) : (UInt8.ofNat (48 + k)).toNat = 48 + k := by
  rw [UInt8.toNat_ofNat']
  omega

theorem decimalPad_digits (w n : Nat) : ∀ b ∈ decimalPad w n, 48 ≤ b.toNat ∧ b.toNat ≤ 57 := by
  induction w generalizing n with
  | zero => intro b hb; cases hb
  | succ w ih =>
    intro b hb
    rw [decimalPad, List.mem_append] at hb
    rcases hb with hb | hb
    · exact ih _ b hb
    · rw [List.mem_singleton.mp hb, ofNat_digit _ (Nat.mod_lt _ (by decide))]
      omega

theorem decimalPad_value (w n : Nat) : (decimalPad w n).foldl (fun v b => 10 * v + (b.toNat - 48)) 0 = n % 10 ^ w := by
  induction w generalizing n with
  | zero => simp [decimalPad, Nat.mod_one]
  | succ w ih =>
    rw [decimalPad, List.foldl_append, ih]
    show 10 * (n / 10 % 10 ^ w) + ((UInt8.ofNat (48 + n % 10)).toNat - 48) = _
    rw [ofNat_digit _ (Nat.mod_lt _ (by decide)), Nat.pow_succ, Nat.mul_comm (10 ^ w) 10, Nat.mod_mul]
    omega

theorem readDecimal_pad (w n : Nat) (h : n < 10 ^ w) : readDecimal (decimalPad w n) = some n := by
  unfold readDecimal
  rw [if_pos, decimalPad_value, Nat.mod_eq_of_lt h]
  rw [List.all_eq_true]
  intro b hb
  obtain ⟨h1, h2⟩ := decimalPad_digits w n b hb
  rw [Bool.and_eq_true, decide_eq_true_eq, decide_eq_true_eq]
  exact ⟨h1, h2⟩

theorem toIsoText_some {us : Int} {text : Bytes} (h : toIsoText us = some text) :
    2232400 ≤ us / usPerDay + epochDay ∧ us / usPerDay + epochDay ≤ 5373484 := by
  unfold toIsoText at h
  dsimp only at h
  split at h
  · cases h
  · omega

theorem list_parts {y m d h n s f : Bytes} (h1 : y.length = 4) (h2 : m.length = 2) (h3 : d.length = 2) (h4 : h.length = 2) (h5 : n.length = 2)
    (h6 : s.length = 2) : let l := y ++ m ++ d ++ [84] ++ h ++ n ++ s ++ f
    l.take 4 = y ∧ (l.drop 4).take 2 = m ∧ (l.drop 6).take 2 = d ∧ (l.drop 8).head? = some 84 ∧ (l.drop 9).take 2 = h ∧ (l.drop 11).take 2 = n ∧
      (l.drop 13).take 2 = s ∧ l.drop 15 = f ∧ 15 ≤ l.length := by
  obtain ⟨y1, y2, y3, y4, rfl⟩ : ∃ a b c e, y = [a, b, c, e] := by
    match y, h1 with
    | [a, b, c, e], _ => exact ⟨a, b, c, e, rfl⟩
  have two : ∀ x : Bytes, x.length = 2 → ∃ a b, x = [a, b] := by
    intro x hx
    match x, hx with
    | [a, b], _ => exact ⟨a, b, rfl⟩
  obtain ⟨m1, m2, rfl⟩ := two m h2
  obtain ⟨d1, d2, rfl⟩ := two d h3
  obtain ⟨a1, a2, rfl⟩ := two h h4
  obtain ⟨n1, n2, rfl⟩ := two n h5
  obtain ⟨s1, s2, rfl⟩ := two s h6
  exact ⟨rfl, rfl, rfl, rfl, rfl, rfl, rfl, rfl, by simp⟩

theorem fromIso_toIso {us : Int} {text : Bytes} (h : toIsoText us = some text) : fromIsoText text = some us := by
  obtain ⟨r1, r2⟩ := toIsoText_some h
  unfold toIsoText at h
  rw [if_neg (by omega)] at h
  obtain ⟨day, hday⟩ : ∃ day : Nat, us / usPerDay + epochDay = day := ⟨(us / usPerDay + epochDay).toNat, by omega⟩
  rw [hday] at h r1 r2
  obtain ⟨t, ht⟩ : ∃ t : Nat, us % usPerDay = t := ⟨(us % usPerDay).toNat, by unfold usPerDay; omega⟩
  rw [ht] at h
  rw [Int.toNat_natCast, Int.toNat_natCast] at h
  have ht2 : t < 86400000000 := by
    have : us % usPerDay < 86400000000 := Int.emod_lt_of_pos _ (by decide)
    omega
  obtain ⟨v1, v2, v3, v4, v5, v6⟩ := ymd_valid (n := day) (by omega) (by omega)
  have hback := dayOfYmd_back (n := day) (by omega)
  obtain ⟨y, m, d, hymd⟩ : ∃ y m d, ymdOfDay day = (y, m, d) := ⟨_, _, _, rfl⟩
  rw [hymd] at h v1 v2 v3 v4 v5 v6 hback
  dsimp only at h v1 v2 v3 v4 v5 v6 hback
  have hd31 : d ≤ 31 := by
    refine Nat.le_trans v6 ?_
    unfold endOfMonth
    split
    · split <;> omega
    · split <;> omega
  cases h
  obtain ⟨p1, p2, p3, p4, p5, p6, p7, p8, p9⟩ := list_parts (f := if t % 1000000 = 0 then [] else 46 :: decimalPad 6 (t % 1000000))
    (decimalPad_length 4 y) (decimalPad_length 2 m) (decimalPad_length 2 d) (decimalPad_length 2 (t / 1000000 / 3600))
    (decimalPad_length 2 (t / 1000000 / 60 % 60)) (decimalPad_length 2 (t / 1000000 % 60))
  unfold fromIsoText
  rw [p1, p2, p3, p5, p6, p7, p8, readDecimal_pad 4 y (by omega), readDecimal_pad 2 m (by omega), readDecimal_pad 2 d (by omega),
    readDecimal_pad 2 _ (by omega), readDecimal_pad 2 _ (by omega), readDecimal_pad 2 _ (by omega)]
  simp only [Option.bind_eq_bind, Option.bind_some]
  rw [if_neg (by
    rintro (hl | hh)
    · exact absurd p9 (by omega)
    · exact hh p4), if_neg (by omega)]
  refine (congrArg (Option.bind · _) (?_ : _ = some (t % 1000000))).trans ?_
  · by_cases hz : t % 1000000 = 0
    · rw [if_pos hz, hz]
    · rw [if_neg hz]
      show (if _ then _ else none) = _
      rw [if_pos ⟨.inl rfl, decimalPad_length _ _⟩, readDecimal_pad 6 _ (by omega)]
  show some _ = some us
  rw [hback]
  refine congrArg some ?_
  have hdiv : us = usPerDay * (us / usPerDay) + us % usPerDay := (Int.mul_ediv_add_emod us usPerDay).symm
  rw [ht] at hdiv
  have hq : us / usPerDay = (day : Int) - epochDay := by omega
  have htime : ((t / 1000000 / 3600 * 60 + t / 1000000 / 60 % 60) * 60 + t / 1000000 % 60) * 1000000 + t % 1000000 = t := by omega
  rw [htime, ← hq, Int.mul_comm]
  exact hdiv.symm

/-! ## The calendar -/

theorem ymd_start : ymdOfDay 2232400 = (1400, 1, 1) := by decide

/-- the parts are determined by the day number -/
theorem ymd_of_parts {n b d e m : Nat} (hn : n + 32044 = 36524 * b + b / 4 + 365 * d + d / 4 + e) (hd : d ≤ 99) (he : e ≤ 365)
    (he2 : e = 365 → d % 4 = 3 ∧ (d = 99 → b % 4 = 3)) (hm : m ≤ 11) (hm1 : (153 * m + 2) / 5 ≤ e)
    (hm2 : e < (153 * (m + 1) + 2) / 5 ∨ m = 11) :
    ymdOfDay n = (100 * b + d - 4800 + m / 10, m + 3 - 12 * (m / 10), e + 1 - (153 * m + 2) / 5) := by
  have hr : 365 * d + d / 4 + e ≤ 36524 := by omega
  have hr2 : 365 * d + d / 4 + e = 36524 → b % 4 = 3 := fun h => by
    have h1 : e = 365 := by omega
    have h2 : d = 99 := by omega
    exact (he2 h1).2 h2
  have e1 : (4 * (n + 32044) + 3) / 146097 = b := by omega
  have e2 : n + 32044 - (146097 * b) / 4 = 365 * d + d / 4 + e := by
    have : (146097 * b) / 4 = 36524 * b + b / 4 := by omega
    omega
  have e3 : (4 * (365 * d + d / 4 + e) + 3) / 1461 = d := by
    by_cases h : e = 365
    · have := (he2 h).1
      omega
    · omega
  have e4 : 365 * d + d / 4 + e - (1461 * d) / 4 = e := by
    have : (1461 * d) / 4 = 365 * d + d / 4 := by omega
    omega
  have e5 : (5 * e + 2) / 153 = m := by omega
  unfold ymdOfDay
  dsimp only
  rw [e1, e2, e3, e4, e5]

theorem ymd_march {n y b d : Nat} (hn : n + 32044 = 36524 * b + b / 4 + 365 * d + d / 4) (hd : d ≤ 99) (hy : y = 100 * b + d - 4800) :
    ymdOfDay n = (y, 3, 1) := by
  rw [ymd_of_parts (e := 0) (m := 0) hn hd (by omega) (by omega) (by omega) (by omega) (by omega), hy]
  refine Prod.ext ?_ rfl
  show 100 * b + d - 4800 + 0 / 10 = _
  rw [Nat.zero_div, Nat.add_zero]

theorem triple_eq {a b c a' b' c' : Nat} (h1 : a = a') (h2 : b = b') (h3 : c = c') : (a, b, c) = (a', b', c') := by
  rw [h1, h2, h3]

theorem monthDays_get (y m : Nat) (h1 : 1 ≤ m) (h2 : m ≤ 12) : (monthDays y)[m - 1]? = some (endOfMonth y m) := by
  have hl := isLeapYear_iff y
  unfold monthDays endOfMonth
  match m, h1, h2 with
  | 1, _, _ | 3, _, _ | 4, _, _ | 5, _, _ | 6, _, _ | 7, _, _ | 8, _, _ | 9, _, _ | 10, _, _ | 11, _, _ | 12, _, _ => rfl
  | 2, _, _ =>
    show some (if LeapYear y then 29 else 28) = some (if isLeapYear y = true then 29 else 28)
    by_cases h : LeapYear y
    · rw [if_pos h, if_pos (hl.mpr h)]
    · rw [if_neg h, if_neg (fun c => h (hl.mp c))]

theorem leap_shift {b d : Nat} (hd : d ≤ 99) (hb : 61 ≤ b) :
    isLeapYear (100 * b + d - 4800 + 1) = true ↔ (d % 4 = 3 ∧ (d = 99 → b % 4 = 3)) := by
  rw [isLeapYear_iff]
  unfold LeapYear
  have : 100 * b + d - 4800 + 1 = 100 * b + d + 1 - 4800 := by omega
  rw [this]
  constructor
  · rintro ⟨h1, h2⟩
    refine ⟨by omega, ?_⟩
    rintro rfl
    rcases h2 with h2 | h2
    · exact absurd (by omega : 100 ∣ 100 * b + 99 + 1 - 4800) h2
    · omega
  · rintro ⟨h1, h2⟩
    refine ⟨by omega, ?_⟩
    by_cases h99 : d = 99
    · right
      have := h2 h99
      omega
    · left
      omega

theorem ymd_next {n : Nat} (h : 2232400 ≤ n) (h2 : n ≤ 5373484) : ymdOfDay (n + 1) = nextDate (ymdOfDay n) := by
  obtain ⟨b, d, e, m, hp⟩ := ymd_parts n
  obtain ⟨v1, v2, v3, v4, v5, v6⟩ := ymd_valid h h2
  obtain ⟨h1, hd, he, he2, hm, hm1, hm2, h8⟩ := hp
  rw [h8] at v1 v2 v3 v4 v5 v6 ⊢
  dsimp only at v1 v2 v3 v4 v5 v6
  have hb : 61 ≤ b := by omega
  unfold nextDate
  dsimp only
  rw [monthDays_get _ _ v3 v4]
  by_cases hfeb : m = 11
  · subst hfeb
    have hl := leap_shift hd hb
    have heom : endOfMonth (100 * b + d - 4800 + 11 / 10) (11 + 3 - 12 * (11 / 10)) = if d % 4 = 3 ∧ (d = 99 → b % 4 = 3) then 29 else 28 := by
      unfold endOfMonth
      rw [if_pos (by omega)]
      by_cases hc : d % 4 = 3 ∧ (d = 99 → b % 4 = 3)
      · rw [if_pos hc, if_pos (hl.mpr hc)]
      · rw [if_neg hc, if_neg (fun c => hc (hl.mp c))]
    rw [heom] at v6 ⊢
    by_cases hlast : e + 1 - (153 * 11 + 2) / 5 = if d % 4 = 3 ∧ (d = 99 → b % 4 = 3) then 29 else 28
    · rw [if_neg (by rw [hlast]; simp), if_neg (by omega)]
      by_cases hc : d % 4 = 3 ∧ (d = 99 → b % 4 = 3)
      · rw [if_pos hc] at hlast
        by_cases h99 : d = 99
        · have := hc.2 h99
          exact ymd_march (b := b + 1) (d := 0) (by omega) (by omega) (by omega)
        · exact ymd_march (b := b) (d := d + 1) (by omega) (by omega) (by omega)
      · rw [if_neg hc] at hlast
        by_cases h99 : d = 99
        · have : b % 4 ≠ 3 := fun h => hc ⟨by omega, fun _ => h⟩
          exact ymd_march (b := b + 1) (d := 0) (by omega) (by omega) (by omega)
        · have : d % 4 ≠ 3 := fun h => hc ⟨h, fun h => absurd h h99⟩
          exact ymd_march (b := b) (d := d + 1) (by omega) (by omega) (by omega)
    · rw [if_pos (by rw [ne_eq, Option.some.injEq]; exact hlast)]
      by_cases hc : d % 4 = 3 ∧ (d = 99 → b % 4 = 3)
      · rw [if_pos hc] at hlast v6
        rw [ymd_of_parts (n := n + 1) (b := b) (d := d) (e := e + 1) (m := 11) (by omega) (by omega) (by omega) (fun _ => hc) (by omega) (by omega) (by omega)]
        refine triple_eq ?_ ?_ ?_ <;> omega
      · rw [if_neg hc] at hlast v6
        rw [ymd_of_parts (n := n + 1) (b := b) (d := d) (e := e + 1) (m := 11) (by omega) (by omega) (by omega) (by omega) (by omega) (by omega) (by omega)]
        refine triple_eq ?_ ?_ ?_ <;> omega
  · have hm2 := hm2.resolve_right hfeb
    have heom : (153 * m + 2) / 5 + endOfMonth (100 * b + d - 4800 + m / 10) (m + 3 - 12 * (m / 10)) = (153 * (m + 1) + 2) / 5 := by
      unfold endOfMonth
      rw [if_neg (by omega)]
      by_cases h30 : m = 1 ∨ m = 3 ∨ m = 6 ∨ m = 8
      · rw [if_pos (by omega)]
        omega
      · rw [if_neg (by omega)]
        have : m = 0 ∨ m = 2 ∨ m = 4 ∨ m = 5 ∨ m = 7 ∨ m = 9 ∨ m = 10 := by omega
        omega
    by_cases hlast : e + 1 - (153 * m + 2) / 5 = endOfMonth (100 * b + d - 4800 + m / 10) (m + 3 - 12 * (m / 10))
    · rw [if_neg (by rw [hlast]; simp)]
      rw [ymd_of_parts (n := n + 1) (b := b) (d := d) (e := e + 1) (m := m + 1) (by omega) (by omega) (by omega) (by omega) (by omega) (by omega) (by omega)]
      split
      · refine triple_eq ?_ ?_ ?_ <;> omega
      · refine triple_eq ?_ ?_ ?_ <;> omega
    · rw [if_pos (by rw [ne_eq, Option.some.injEq]; exact hlast)]
      rw [ymd_of_parts (n := n + 1) (b := b) (d := d) (e := e + 1) (m := m) (by omega) (by omega) (by omega) (by omega) (by omega) (by omega) (by omega)]
      refine triple_eq ?_ ?_ ?_ <;> omega

/-- `from_day_number` follows the calendar -/
theorem ymd_calendar (n : Nat) (h : n ≤ 3141084) : ymdOfDay (2232400 + n) = dateAfter n := by
  induction n with
  | zero => exact ymd_start
  | succ n ih =>
    rw [← Nat.add_assoc, ymd_next (by omega) (by omega), ih (by omega)]
    rfl

end Ndncert
