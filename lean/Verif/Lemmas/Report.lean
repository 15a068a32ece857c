import Verif.Model.Report
import Verif.Spec.Report
import Verif.Lemmas.TextStore
import Verif.Lemmas.JsonFuel
import Verif.Lemmas.Uri
import Verif.Lemmas.Pending

namespace Ndncert

/-- two texts up to their first line feeds -/
theorem line_inj {a b u v : Bytes} (ha : (10 : UInt8) ∉ a) (hb : (10 : UInt8) ∉ b) (h : a ++ ([10] ++ u) = b ++ ([10] ++ v)) : a = b ∧ u = v :=
  before_inj ha hb h

theorem space_inj {a b u v w : Bytes} (ha : (32 : UInt8) ∉ a) (hb : (32 : UInt8) ∉ b) (h : a ++ (32 :: w ++ u) = b ++ (32 :: w ++ v)) :
    a = b ∧ u = v := by
  obtain ⟨h1, h2⟩ := before_inj ha hb h
  exact ⟨h1, List.append_cancel_left h2⟩

theorem no10_dec (n : Nat) : (10 : UInt8) ∉ decDigits n := fun h => by
  have := decDigits_digit n _ h
  revert this; decide

theorem no10_int (n : Int) : (10 : UInt8) ∉ intDigits n := by
  unfold intDigits
  split
  · rw [List.mem_cons]
    rintro (h | h)
    · revert h; decide
    · exact no10_dec _ h
  · exact no10_dec _

theorem no10_hex (s : Bytes) : (10 : UInt8) ∉ toHex s := by
  unfold toHex
  rw [List.mem_flatMap]
  rintro ⟨b, _, h⟩
  exact byte_cases (P := fun b => (10 : UInt8) ∉ [hexDigit (b.toNat / 16), hexDigit (b.toNat % 16)]) (by decide +kernel) b h

theorem no10_val (v : Bytes) : (10 : UInt8) ∉ valUri v := by
  unfold valUri
  rw [List.mem_append, List.mem_flatMap]
  rintro (h | ⟨b, _, h⟩)
  · split at h
    · revert h; decide
    · cases h
  · exact byte_cases (P := fun b => (10 : UInt8) ∉ uriEscapeByte b) (by decide +kernel) b h

theorem no10_uri (n : Name) : (10 : UInt8) ∉ nameUri n := by
  unfold nameUri
  split
  · decide
  · rw [List.mem_flatMap]
    rintro ⟨c, _, h⟩
    rw [List.mem_cons] at h
    rcases h with h | h
    · revert h; decide
    · rw [compUri_eq] at h
      split at h
      · exact no10_val _ h
      · rw [List.mem_append, List.mem_append] at h
        rcases h with (h | h) | h
        · exact no10_dec _ h
        · revert h; decide
        · exact no10_val _ h

theorem no10_status (s : Status) : (10 : UInt8) ∉ statusText s := by
  cases s with
  | other n => show (10 : UInt8) ∉ bytes! "Unrecognized status"; decide
  | _ => decide

theorem no10_time {us : Int} {x : Bytes} (h : toIsoText us = some x) : (10 : UInt8) ∉ x := by
  obtain ⟨Y, M, D, hh, m, s, f, days, frac, hY, hM, hD, h1, h2, h3, rfl, hf, _⟩ := toIsoText_says h
  have dig : ∀ {n : Nat} {z : Bytes}, Digits n z → (10 : UInt8) ∉ z := fun hz hx => by
    have := hz.2 _ hx
    revert this; decide
  simp only [List.mem_append, not_or]
  refine ⟨⟨⟨⟨⟨⟨⟨dig hY, dig hM⟩, dig hD⟩, by decide⟩, dig h1⟩, dig h2⟩, dig h3⟩, ?_⟩
  rcases hf with ⟨rfl, _⟩ | ⟨g, rfl, hg, _⟩
  · simp
  · rw [List.mem_cons]
    rintro (h | h)
    · revert h; decide
    · exact dig hg h

theorem statusText_inj {s t : Status} (hs : ∀ n, s ≠ .other n) (ht : ∀ n, t ≠ .other n) (h : statusText s = statusText t) : s = t := by
  cases s <;> cases t <;> first | rfl | exact absurd rfl (hs _) | exact absurd rfl (ht _) | (revert h; unfold statusText; decide)

theorem intDigits_inj {a b : Int} (h : intDigits a = intDigits b) : a = b := by
  have hd : ∀ n, (45 : UInt8) ∉ decDigits n := fun n hn => by
    have := decDigits_digit n _ hn
    revert this; decide
  unfold intDigits at h
  split at h <;> split at h
  · have := decDigits_inj (List.cons.inj h).2
    omega
  · exact absurd (h ▸ List.mem_cons_self ..) (hd b.natAbs)
  · exact absurd (h ▸ List.mem_cons_self ..) (hd a.natAbs)
  · have := decDigits_inj h
    omega

theorem toHex_inj {a b : Bytes} (h : toHex a = toHex b) : a = b := by
  have h1 := fromHex_toHex a
  rw [h, fromHex_toHex] at h1
  exact (Res.ok.inj h1).symm

/-- the text of a JSON object ends where it ends, whatever follows -/
theorem secret_inj {kv kv' : List (Bytes × Bytes)} {x y u v : Bytes} (h1 : writeJsonText (secretTree kv) = some x)
    (h2 : writeJsonText (secretTree kv') = some y) (hu : SecretsUtf8 kv) (hv : SecretsUtf8 kv') (h : x ++ u = y ++ v) : kv = kv' ∧ u = v := by
  rw [writeJsonText_iff] at h1 h2
  obtain ⟨_, p1, rfl⟩ := h1
  obtain ⟨_, p2, rfl⟩ := h2
  rw [List.append_assoc, List.append_assoc] at h
  let fuel := (secretTree kv).weight + (secretTree kv').weight
  have a1 := value_written (secretTree kv) 0 fuel [] ([10] ++ u) (by omega) p1 (fun _ => rfl) (by simp)
  have a2 := value_written (secretTree kv') 0 fuel [] ([10] ++ v) (by omega) p2 (fun _ => rfl) (by simp)
  rw [if_pos ((secretTree_utf8 kv).mpr hu)] at a1
  rw [if_pos ((secretTree_utf8 kv').mpr hv)] at a2
  rw [h, a2] at a1
  have e := Option.some.inj a1
  have e1 := congrArg Prod.fst e
  have e2 := congrArg Prod.snd e
  dsimp only at e1 e2
  refine ⟨?_, ?_⟩
  · rw [← secretTree_kids kv, ← secretTree_kids kv', e1]
  · exact ((List.cons.inj e2).2).symm

theorem indented_inj {a b : List Bytes} {u v : Bytes} (ha : ∀ l ∈ a, (10 : UInt8) ∉ l) (hb : ∀ l ∈ b, (10 : UInt8) ∉ l)
    (h : indented a ++ (starLine ++ u) = indented b ++ (starLine ++ v)) : a = b ∧ u = v := by
  induction a generalizing b with
  | nil =>
    cases b with
    | nil => exact ⟨rfl, List.append_cancel_left h⟩
    | cons l b =>
      have := congrArg List.head? h
      exact absurd this (by unfold indented starLine; simp)
  | cons l a ih =>
    cases b with
    | nil =>
      have := congrArg List.head? h
      exact absurd this (by unfold indented starLine; simp)
    | cons m b =>
      have e : ∀ (z : Bytes) (zs : List Bytes) (w : Bytes), indented (z :: zs) ++ w = (32 :: 32 :: z) ++ 10 :: (indented zs ++ w) := by
        intro z zs w
        unfold indented
        simp
      rw [e, e] at h
      have n10 : ∀ z : Bytes, (10 : UInt8) ∉ z → (10 : UInt8) ∉ (32 :: 32 :: z) := by
        intro z hz
        simp only [List.mem_cons, not_or]
        exact ⟨by decide, by decide, hz⟩
      obtain ⟨h1, h2⟩ := before_inj (n10 l (ha l (List.mem_cons_self ..))) (n10 m (hb m (List.mem_cons_self ..))) h
      obtain ⟨h3, h4⟩ := ih (fun z hz => ha z (List.mem_cons_of_mem _ hz)) (fun z hz => hb z (List.mem_cons_of_mem _ hz)) h2
      simp only [List.cons.injEq, true_and] at h1
      exact ⟨by rw [h1, h3], h4⟩

theorem timeText_some {t : Time} {x : Bytes} (h : timeText t = .ok x) : toIsoText (t.tdiv 1000) = some x := by
  unfold timeText at h
  cases hx : toIsoText (t.tdiv 1000) with
  | none => rw [hx] at h; cases h
  | some y => rw [hx] at h; exact congrArg some (Res.ok.inj h)

theorem secretText_some {kv : List (Bytes × Bytes)} {x : Bytes} (h : secretText kv = .ok x) : writeJsonText (secretTree kv) = some x := by
  obtain ⟨t, h1, h2⟩ := secretText_ok kv
  rw [h1] at h
  cases h
  exact h2

theorem challengeText_inj {a b : ChallengeState} {x y u v : Bytes} (h1 : challengeText a = .ok x) (h2 : challengeText b = .ok y)
    (ha : (10 : UInt8) ∉ a.challengeStatus ∧ SecretsUtf8 a.secrets) (hb : (10 : UInt8) ∉ b.challengeStatus ∧ SecretsUtf8 b.secrets)
    (h : x ++ u = y ++ v) :
    a.challengeStatus = b.challengeStatus ∧ a.remainingTries = b.remainingTries ∧ a.remainingTime = b.remainingTime ∧
    a.timestamp.tdiv 1000 = b.timestamp.tdiv 1000 ∧ a.secrets = b.secrets ∧ u = v := by
  unfold challengeText at h1 h2
  simp only [Res.bind_eq_ok] at h1 h2
  obtain ⟨t1, ht1, j1, hj1, h1⟩ := h1
  obtain ⟨t2, ht2, j2, hj2, h2⟩ := h2
  cases h1
  cases h2
  have it1 := timeText_some ht1
  have it2 := timeText_some ht2
  simp only [List.append_assoc] at h
  have h := List.append_cancel_left h
  obtain ⟨e1, h⟩ := line_inj ha.1 hb.1 h
  have h := List.append_cancel_left h
  have sp : ∀ n, (32 : UInt8) ∉ decDigits n := fun n hn => by
    have := decDigits_digit n _ hn
    revert this; decide
  obtain ⟨e2, h⟩ := space_inj (w := bytes! "times\n") (sp _) (sp _) h
  have spi : ∀ n, (32 : UInt8) ∉ intDigits n := by
    intro n
    unfold intDigits
    split
    · rw [List.mem_cons]
      rintro (h | h)
      · revert h; decide
      · exact sp _ h
    · exact sp _
  have h := List.append_cancel_left h
  obtain ⟨e3, h⟩ := space_inj (w := bytes! "seconds\n") (spi _) (spi _) h
  have h := List.append_cancel_left h
  obtain ⟨e4, h⟩ := line_inj (no10_time it1) (no10_time it2) h
  have h := List.append_cancel_left h
  obtain ⟨e5, h⟩ := secret_inj (secretText_some hj1) (secretText_some hj2) ha.2 hb.2 h
  refine ⟨e1, decDigits_inj e2, intDigits_inj e3, ?_, e5, (List.cons.inj h).2⟩
  have f1 := fromIso_toIso it1
  rw [e4, fromIso_toIso it2] at f1
  exact (Option.some.inj f1).symm

/-- the text begins with "Challenge", not with "Certificate" -/
theorem challengeText_head {a : ChallengeState} {x : Bytes} (h : challengeText a = .ok x) : ∃ z, x = bytes! "Ch" ++ z := by
  unfold challengeText at h
  simp only [Res.bind_eq_ok] at h
  obtain ⟨t1, ht1, j1, hj1, h1⟩ := h
  cases h1
  exact ⟨_, rfl⟩

theorem requestText_inj {certLines : Cert → List Bytes} (hc : ∀ c, ∀ l ∈ certLines c, (10 : UInt8) ∉ l) {a b : RequestState} {x y u v : Bytes}
    (h1 : requestText certLines a = .ok x) (h2 : requestText certLines b = .ok y) (ha : OneLiners a) (hb : OneLiners b)
    (h : x ++ (starLine ++ u) = y ++ (starLine ++ v)) : shown certLines a = shown certLines b ∧ u = v := by
  unfold requestText at h1 h2
  rw [Res.bind_eq_ok] at h1 h2
  obtain ⟨c1, hc1, h1⟩ := h1
  obtain ⟨c2, hc2, h2⟩ := h2
  cases h1
  cases h2
  simp only [List.append_assoc] at h
  have h := List.append_cancel_left h
  obtain ⟨e1, h⟩ := line_inj (no10_uri _) (no10_uri _) h
  have h := List.append_cancel_left h
  obtain ⟨e2, h⟩ := line_inj (no10_hex _) (no10_hex _) h
  have h := List.append_cancel_left h
  obtain ⟨e3, h⟩ := line_inj (no10_status _) (no10_status _) h
  have h := List.append_cancel_left h
  obtain ⟨e4, h⟩ := line_inj ha.1 hb.1 h
  have e1 := nameUri_inj e1
  have e2 := toHex_inj e2
  have e3 := statusText_inj ha.2.1 hb.2.1 e3
  unfold shown
  have fin : ∀ {p q : Bytes}, (bytes! "Certificate:\n") ++ (indented (certLines a.cert) ++ (starLine ++ p)) =
      (bytes! "Certificate:\n") ++ (indented (certLines b.cert) ++ (starLine ++ q)) → certLines a.cert = certLines b.cert ∧ p = q :=
    fun h => indented_inj (hc _) (hc _) (List.append_cancel_left h)
  cases ca : a.challengeState with
  | none =>
    cases cb : b.challengeState with
    | none =>
      rw [ca] at hc1
      rw [cb] at hc2
      cases hc1
      cases hc2
      obtain ⟨f1, f2⟩ := fin h
      exact ⟨by rw [e1, e2, e3, e4, f1], f2⟩
    | some cs =>
      rw [ca] at hc1
      rw [cb] at hc2
      cases hc1
      obtain ⟨z, rfl⟩ := challengeText_head hc2
      exact absurd (congrArg (fun l => l[1]?) h) (by simp)
  | some cs =>
    cases cb : b.challengeState with
    | none =>
      rw [ca] at hc1
      rw [cb] at hc2
      cases hc2
      obtain ⟨z, rfl⟩ := challengeText_head hc1
      exact absurd (congrArg (fun l => l[1]?) h) (by simp)
    | some cs' =>
      rw [ca] at hc1
      rw [cb] at hc2
      obtain ⟨g1, g2, g3, g4, g5, h⟩ := challengeText_inj hc1 hc2 (ha.2.2 _ ca) (hb.2.2 _ cb) h
      obtain ⟨f1, f2⟩ := fin h
      refine ⟨?_, f2⟩
      rw [e1, e2, e3, e4, f1]
      simp only [Option.map_some, g1, g2, g3, g4, g5]

theorem entriesText_inj {certLines : Cert → List Bytes} (hc : ∀ c, ∀ l ∈ certLines c, (10 : UInt8) ∉ l) {as bs : List RequestState} {x : Bytes}
    (h1 : entriesText certLines as = .ok x) (h2 : entriesText certLines bs = .ok x) (ha : ∀ r ∈ as, OneLiners r) (hb : ∀ r ∈ bs, OneLiners r) :
    as.map (shown certLines) = bs.map (shown certLines) := by
  induction as generalizing bs x with
  | nil =>
    cases h1
    cases bs with
    | nil => rfl
    | cons b bs =>
      unfold entriesText at h2
      simp only [Res.bind_eq_ok] at h2
      obtain ⟨_, _, _, _, h2⟩ := h2
      exact absurd (congrArg List.length (Res.ok.inj h2)) (by simp [starLine])
  | cons a as ih =>
    unfold entriesText at h1
    simp only [Res.bind_eq_ok] at h1
    obtain ⟨xa, hxa, ya, hya, h1⟩ := h1
    cases bs with
    | nil =>
      cases h2
      exact absurd (congrArg List.length (Res.ok.inj h1)) (by simp [starLine])
    | cons b bs =>
      unfold entriesText at h2
      simp only [Res.bind_eq_ok] at h2
      obtain ⟨xb, hxb, yb, hyb, h2⟩ := h2
      have h := (Res.ok.inj h1).trans (Res.ok.inj h2).symm
      simp only [List.append_assoc] at h
      obtain ⟨e1, e2⟩ := requestText_inj hc hxa hxb (ha a (List.mem_cons_self ..)) (hb b (List.mem_cons_self ..)) (List.append_cancel_left h)
      subst e2
      rw [List.map_cons, List.map_cons, e1, ih hya hyb (fun r hr => ha r (List.mem_cons_of_mem _ hr)) (fun r hr => hb r (List.mem_cons_of_mem _ hr))]

theorem entriesText_ok {certLines : Cert → List Bytes} {rs : List RequestState}
    (h : ∀ r ∈ rs, ∀ cs, r.challengeState = some cs → ∃ x, timeText cs.timestamp = .ok x) : ∃ x, entriesText certLines rs = .ok x := by
  induction rs with
  | nil => exact ⟨_, rfl⟩
  | cons r rs ih =>
    obtain ⟨y, hy⟩ := ih (fun r hr => h r (List.mem_cons_of_mem _ hr))
    have : ∃ z, requestText certLines r = .ok z := by
      unfold requestText
      cases hc : r.challengeState with
      | none => exact ⟨_, rfl⟩
      | some cs =>
        obtain ⟨x, hx⟩ := h r (List.mem_cons_self ..) cs hc
        obtain ⟨j, hj, _⟩ := secretText_ok cs.secrets
        dsimp only
        unfold challengeText
        rw [hx, hj]
        exact ⟨_, rfl⟩
    obtain ⟨z, hz⟩ := this
    unfold entriesText
    rw [hz, hy]
    exact ⟨_, rfl⟩

end Ndncert
