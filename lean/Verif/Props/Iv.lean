import Verif.Lemmas.IvRuns
import Verif.Spec.Toy

/-! # Properties C13 - C17: encryption IVs -/

namespace Ndncert.Props

/-- two calls with payloads of one and of seventeen octets, used in the examples below -/
def exCalls : List EncCall :=
  [⟨T.Content, [1], [7], [2], [1, 2, 3, 4, 5, 6, 7, 8]⟩,
   ⟨T.Content, [1], List.replicate 17 9, [2], [0, 0, 0, 0, 0, 0, 0, 0]⟩,
   ⟨T.Content, [1], [8, 8], [2], [9, 9, 9, 9, 9, 9, 9, 9]⟩]

theorem exCalls_valid : ∀ c ∈ exCalls, c.Valid := by
  intro c hc
  simp [exCalls] at hc
  rcases hc with rfl | rfl | rfl <;> refine ⟨by simp, by simp [gcmLimit], rfl⟩

/-! ## C13 -/

/-- C13. Any sequence of encryptions that share one IV variable, initially empty: every block produced carries a
12-octet IV that starts with the eight random octets of the first call, and no two blocks carry the same IV. -/
theorem C13_no_iv_reuse (C : Crypto) (hC : C.Lawful) (c : EncCall) (cs : List EncCall)
    (hv : ∀ x ∈ c :: cs, x.Valid) :
    (∀ p ∈ produced (encRun C [] (c :: cs)), ∃ v, carriedIv p.2 = some v ∧ v.length = 12 ∧ v.take 8 = c.rnd) ∧
    ((produced (encRun C [] (c :: cs))).map (fun p => carriedIv p.2)).Nodup := by
  have hr := (hv c (by simp)).2.2
  rw [encRun_start]
  obtain ⟨vs, hp, hm, hw⟩ := encRun_spec (C := C) (c :: cs) (startIv_nil_length hr) (fun x hx => (hv x hx).2.1)
  rw [hp]
  have hiv : ∀ e ∈ vs, carriedIv (sealedBlock C e.1 e.2) = some e.2 := fun e he =>
    sealedBlock_iv hC (hm e he).2.1 (hv _ (hm e he).1).2.1
  constructor
  · intro p hpm
    simp only [List.mem_map] at hpm
    obtain ⟨e, he, rfl⟩ := hpm
    refine ⟨e.2, hiv e he, (hm e he).2.1, ?_⟩
    have := (hm e he).2.2.1
    rw [startIv_nil_prefix hr] at this
    exact this
  · rw [List.map_map, List.Nodup, List.pairwise_map]
    refine List.Pairwise.imp_of_mem ?_ hw
    intro a b ha hb hab heq
    simp only [Function.comp, hiv a ha, hiv b hb, Option.some.injEq] at heq
    have hne := (hv _ (hm a ha).1).1
    have : 0 < blocksOf a.1.payload.length := by
      have : 0 < a.1.payload.length := List.length_pos_iff.mpr hne
      unfold blocksOf; omega
    rw [heq] at hab
    omega

/-- non-vacuity: three valid calls produce three blocks -/
example : (∀ x ∈ exCalls, x.Valid) ∧ (produced (encRun Toy.crypto [] exCalls)).length = 3 :=
  ⟨exCalls_valid, by decide +kernel⟩

/-! ## C14 -/

/-- C14, encryption. With a full IV the call either succeeds and the counter has advanced by exactly the
number of blocks, to a value below 2^32, the random part being unchanged; or it throws and the IV is unchanged. It throws
only if the counter would reach 2^32 - 1. -/
theorem C14_encode_counter (C : Crypto) (c : EncCall) (iv : Bytes) (hl : iv.length = 12)
    (hc : c.payload.length ≤ gcmLimit) :
    (∃ iv' b, encodeAes C c.typ c.key c.payload c.aad iv c.rnd = (iv', .ok b) ∧
      iv'.length = 12 ∧ iv'.take 8 = iv.take 8 ∧
      beVal (iv'.drop 8) = beVal (iv.drop 8) + (c.payload.length + 15) / 16 ∧ beVal (iv'.drop 8) < 2 ^ 32) ∨
    (encodeAes C c.typ c.key c.payload c.aad iv c.rnd = (iv, .exc .runtime) ∧
      2 ^ 32 - 1 ≤ beVal (iv.drop 8) + (c.payload.length + 15) / 16) := by
  have key : ∀ v : Bytes, v.length = 12 → ivCounter v = beVal (v.drop 8) := by
    intro v hv
    unfold ivCounter
    rw [List.take_of_length_le (by simp [hv])]
  rcases encodeAes_cases C hl hc with ⟨iv', he, h1, h2, h3, _, _⟩ | ⟨he, h⟩
  · left
    refine ⟨iv', _, he, h1, h2, ?_, ?_⟩
    · rw [← key _ h1, ← key _ hl, h3]; rfl
    · rw [← key _ h1]; exact ivCounter_lt _
  · right
    refine ⟨he, ?_⟩
    rw [key _ hl] at h
    exact h

/-- C14, decryption. The call never reaches undefined behaviour, and if it returns a plaintext then the decryption IV is
the one carried by the block with the counter advanced by exactly the number of blocks, below 2^32. -/
theorem C14_decode_counter (C : Crypto) (b : Block) (key aad div encIv : Bytes)
    (hd : div = [] ∨ div.length = 12) (he : encIv = [] ∨ encIv.length = 12) (hb : b.val.length ≤ gcmLimit) :
    (∃ v pt div', carriedIv b = some v ∧ decodeAes C b key aad div encIv = (div', .ok pt) ∧
      div'.length = 12 ∧ div'.take 8 = v.take 8 ∧
      beVal (div'.drop 8) = beVal (v.drop 8) + (pt.length + 15) / 16 ∧ beVal (div'.drop 8) < 2 ^ 32) ∨
    (∃ e, (decodeAes C b key aad div encIv).2 = .exc e) := by
  have hcn : ∀ v : Bytes, v.length = 12 → ivCounter v = beVal (v.drop 8) := by
    intro v hv
    unfold ivCounter
    rw [List.take_of_length_le (by simp [hv])]
  rcases h : decodeAes C b key aad div encIv with ⟨div', r⟩
  cases r with
  | exc e => right; exact ⟨e, rfl⟩
  | ub u =>
    exfalso
    refine decodeAes_no_ub (C := C) (b := b) (key := key) (aad := aad) (div := div) (encIv := encIv) ?_ ?_ u (by rw [h])
    · rcases hd with hd | hd
      · exact .inl hd
      · right; omega
    · rcases he with he | he
      · exact .inl he
      · right; omega
  | ok pt =>
    left
    obtain ⟨es, ct, iv, tag, h1, h2, h3, h4, h5, h6, h7, h8, h9, h10, h11⟩ := decodeAes_ok h
    have hct := getElem_val_le h1 h2
    unfold gcmLimit at hb
    obtain ⟨q1, q2, q3, q4⟩ := updateIv_ok h5 (by omega) h11
    refine ⟨iv.val, pt, div', ?_, rfl, q1, q2, ?_, ?_⟩
    · unfold carriedIv
      rw [h1]
      unfold getElem at h3
      rw [Res.ofOption_eq_ok] at h3
      simp only [h3, Option.map_some]
    · rw [← hcn _ q1, ← hcn _ h5, q3]; rfl
    · rw [← hcn _ q1]; exact ivCounter_lt _

/-- non-vacuity: the second call of the example advances the counter from 1 to 3; near the end of the counter range a
call throws -/
example : (encEnd Toy.crypto [] (exCalls.take 1), encEnd Toy.crypto [] (exCalls.take 2)) =
    ([1, 2, 3, 4, 5, 6, 7, 8, 0, 0, 0, 1], [1, 2, 3, 4, 5, 6, 7, 8, 0, 0, 0, 3]) := by decide +kernel

example : encodeAes Toy.crypto T.Content [] [1] [] [0, 0, 0, 0, 0, 0, 0, 0, 255, 255, 255, 254] [] =
    ([0, 0, 0, 0, 0, 0, 0, 0, 255, 255, 255, 254], .exc .runtime) := by decide +kernel

example : (decodeAes Toy.crypto (sealedBlock Toy.crypto ⟨T.Content, [1], List.replicate 17 9, [2], []⟩
    [1, 2, 3, 4, 5, 6, 7, 8, 0, 0, 0, 4]) [1] [2] [] []) =
    ([1, 2, 3, 4, 5, 6, 7, 8, 0, 0, 0, 6], .ok (List.replicate 17 9)) := by decide +kernel

/-! ## C15 -/

theorem decRun_mono {C : Crypto} (cs : List DecCall) {div : Bytes} (hl : div.length = 12)
    (hb : ∀ c ∈ cs, c.block.val.length ≤ gcmLimit) :
    (decRun C div cs).1.length = 12 ∧ ivPrefix (decRun C div cs).1 = ivPrefix div ∧
      ivCounter div ≤ ivCounter (decRun C div cs).1 := by
  induction cs generalizing div with
  | nil => exact ⟨hl, rfl, Nat.le_refl _⟩
  | cons c cs ih =>
    have h0 := hb c (by simp)
    unfold gcmLimit at h0
    obtain ⟨h1, h2, h3⟩ := decodeAes_mono (C := C) (b := c.block) (key := c.key) (aad := c.aad) (encIv := c.encIv) hl
      (by omega)
    obtain ⟨g1, g2, g3⟩ := ih h1 (fun x hx => hb x (by simp [hx]))
    simp only [decRun]
    exact ⟨g1, by rw [g2, h2], by omega⟩

/-- C15. Once a block `b` with non-empty plaintext `pt` has been accepted, then after any further calls `cs` on
the same decryption IV (whatever their outcomes, keys and blocks), every block whose IV counter lies below the end of the
blocks consumed by `b` - in particular `b` itself - is answered with an exception, under any key and associated data. -/
theorem C15_replay_rejected (C : Crypto) (b : Block) (v pt key aad div encIv : Bytes)
    (hb : b.val.length ≤ gcmLimit) (hv : carriedIv b = some v)
    (hacc : (decodeAes C b key aad div encIv).2 = .ok pt) (hpt : pt ≠ [])
    (cs : List DecCall) (hcs : ∀ c ∈ cs, c.block.val.length ≤ gcmLimit)
    (b' : Block) (key' aad' encIv' : Bytes) (he' : encIv' = [] ∨ encIv'.length = 12)
    (hold : b' = b ∨ ∀ w, carriedIv b' = some w → ivCounter w < ivCounter v + (pt.length + 15) / 16) :
    ∃ e, (decodeAes C b' key' aad' (decRun C (decodeAes C b key aad div encIv).1 cs).1 encIv').2 = .exc e := by
  rcases h : decodeAes C b key aad div encIv with ⟨div1, r⟩
  rw [h] at hacc
  dsimp only at hacc ⊢
  subst hacc
  obtain ⟨es, ct, iv, tag, h1, h2, h3, h4, h5, h6, h7, h8, h9, h10, h11⟩ := decodeAes_ok h
  have hiv : v = iv.val := by
    unfold carriedIv at hv
    rw [h1] at hv
    unfold getElem at h3
    rw [Res.ofOption_eq_ok] at h3
    simp only [h3, Option.map_some, Option.some.injEq] at hv
    exact hv.symm
  have hct := getElem_val_le h1 h2
  have hb' := hb
  unfold gcmLimit at hb'
  obtain ⟨q1, q2, q3, q4⟩ := updateIv_ok h5 (by omega) h11
  obtain ⟨m1, m2, m3⟩ := decRun_mono (C := C) cs q1 hcs
  generalize (decRun C div1 cs).1 = div2 at *
  rcases hr : decodeAes C b' key' aad' div2 encIv' with ⟨div3, r⟩
  cases r with
  | exc e => exact ⟨e, rfl⟩
  | ub u =>
    exfalso
    refine decodeAes_no_ub (C := C) (b := b') (key := key') (aad := aad') (div := div2) (encIv := encIv')
      (by right; omega) ?_ u (by rw [hr])
    rcases he' with he | he
    · exact .inl he
    · right; omega
  | ok pt' =>
    exfalso
    obtain ⟨es', ct', iv', tag', k1, k2, k3, k4, k5, k6, k7, k8, k9, k10, k11⟩ := decodeAes_ok hr
    have hne : div2 ≠ [] := by intro h0; rw [h0] at m1; cases m1
    have hctr := (k8 hne).2.1
    have hcar : carriedIv b' = some iv'.val := by
      unfold carriedIv
      rw [k1]
      unfold getElem at k3
      rw [Res.ofOption_eq_ok] at k3
      simp only [k3, Option.map_some]
    have hlt : ivCounter iv'.val < ivCounter v + (pt.length + 15) / 16 := by
      rcases hold with rfl | hold
      · rw [hv] at hcar
        simp only [Option.some.injEq] at hcar
        rw [← hcar]
        have : 0 < pt.length := List.length_pos_iff.mpr hpt
        omega
      · exact hold _ hcar
    have : blocksOf pt.length = (pt.length + 15) / 16 := rfl
    rw [hiv] at hlt
    omega

/-- non-vacuity: a block accepted with an empty decryption IV, another one in between -/
example :
    let b := sealedBlock Toy.crypto ⟨T.Content, [1], [7, 7], [2], []⟩ [1, 2, 3, 4, 5, 6, 7, 8, 0, 0, 0, 0]
    let b2 := sealedBlock Toy.crypto ⟨T.Content, [1], [8, 8], [2], []⟩ [1, 2, 3, 4, 5, 6, 7, 8, 0, 0, 0, 1]
    carriedIv b = some [1, 2, 3, 4, 5, 6, 7, 8, 0, 0, 0, 0] ∧
    (decodeAes Toy.crypto b [1] [2] [] []).2 = .ok [7, 7] ∧
    (decRun Toy.crypto (decodeAes Toy.crypto b [1] [2] [] []).1 [⟨b2, [1], [2], []⟩]).2 = [.ok [8, 8]] ∧
    (decodeAes Toy.crypto b [1] [2] (decRun Toy.crypto (decodeAes Toy.crypto b [1] [2] [] []).1
      [⟨b2, [1], [2], []⟩]).1 []).2 = .exc .runtime := by decide +kernel

/-- Without plaintext the IV does not advance and the same block is accepted again: the condition `pt ≠ []` is needed. -/
theorem C15_empty_plaintext_replays :
    let b := sealedBlock Toy.crypto ⟨T.Content, [1], [], [2], []⟩ [1, 2, 3, 4, 5, 6, 7, 8, 0, 0, 0, 0]
    let r := decodeAes Toy.crypto b [1] [2] [] []
    r.2 = .ok [] ∧ (decodeAes Toy.crypto b [1] [2] r.1 []).2 = .ok [] := by decide +kernel

/-! ## C16 -/

/-- C16. A block whose IV has the random part of the party's own encryption IV is answered with an exception and the
decryption IV is not touched. -/
theorem C16_reflection_rejected (C : Crypto) (b : Block) (v key aad div encIv : Bytes)
    (hv : carriedIv b = some v) (hl : 8 ≤ encIv.length) (hp : v.take 8 = encIv.take 8) :
    ∃ e, decodeAes C b key aad div encIv = (div, .exc e) := by
  have hne : encIv ≠ [] := by intro h; rw [h] at hl; simp at hl
  unfold decodeAes
  split
  · exact ⟨_, rfl⟩
  · rename_i u hu
    exfalso
    cases h1 : b.elements with
    | exc e => rw [h1] at hu; cases hu
    | ub w => exact elements_no_ub _ _ h1
    | ok es =>
      rw [h1] at hu
      simp only [Res.bind_ok, getElem] at hu
      cases h2 : es.find? (fun e => e.typ == T.EncryptedPayload) <;> rw [h2] at hu <;> simp at hu
      cases h3 : es.find? (fun e => e.typ == T.InitializationVector) <;>
        simp only [T.InitializationVector] at h3 <;> rw [h3] at hu <;> simp at hu
      cases h4 : es.find? (fun e => e.typ == T.AuthenticationTag) <;>
        simp only [T.AuthenticationTag] at h4 <;> rw [h4] at hu <;> simp at hu
      split at hu <;> cases hu
  · rename_i ct obs tag hd
    have hobs : obs = v := by
      rw [Res.bind_eq_ok] at hd
      obtain ⟨es, h1, hd⟩ := hd
      rw [Res.bind_eq_ok] at hd
      obtain ⟨c, h2, hd⟩ := hd
      rw [Res.bind_eq_ok] at hd
      obtain ⟨i, h3, hd⟩ := hd
      rw [Res.bind_eq_ok] at hd
      obtain ⟨g, h4, hd⟩ := hd
      split at hd
      · cases hd
      · simp only [Res.ok.injEq, Prod.mk.injEq] at hd
        obtain ⟨rfl, rfl, rfl⟩ := hd
        unfold carriedIv at hv
        have h1' : parse b.val = .ok es := h1
        rw [h1'] at hv
        unfold getElem at h3
        rw [Res.ofOption_eq_ok] at h3
        simp only [h3, Option.map_some, Option.some.injEq] at hv
        exact hv
    subst hobs
    rw [if_neg (by rintro ⟨_, h⟩; omega), if_pos ⟨hne, hp⟩]
    exact ⟨_, rfl⟩

theorem encEnd_spec (C : Crypto) (cs : List EncCall) {iv : Bytes} (hl : iv.length = 12)
    (hv : ∀ c ∈ cs, c.payload.length ≤ gcmLimit) :
    (encEnd C iv cs).length = 12 ∧ ivPrefix (encEnd C iv cs) = ivPrefix iv := by
  induction cs generalizing iv with
  | nil => exact ⟨hl, rfl⟩
  | cons c cs ih =>
    simp only [encEnd]
    rcases encodeAes_cases C hl (hv c (by simp)) with ⟨iv', he, h1, h2, _⟩ | ⟨he, _⟩
    · rw [he]
      obtain ⟨a, b⟩ := ih h1 (fun x hx => hv x (by simp [hx]))
      exact ⟨a, by rw [b, h2]⟩
    · rw [he]
      exact ih hl (fun x hx => hv x (by simp [hx]))

/-- C16, own blocks. After any sequence of own encryptions `cs ++ later`, every block produced in it so far is
answered with an exception. -/
theorem C16_own_blocks_rejected (C : Crypto) (hC : C.Lawful) (cs later : List EncCall)
    (hv : ∀ x ∈ cs ++ later, x.payload.length ≤ gcmLimit ∧ x.rnd.length = 8)
    (p : EncCall × Block) (hp : p ∈ produced (encRun C [] cs)) (key aad div : Bytes) :
    ∃ e, decodeAes C p.2 key aad div (encEnd C [] (cs ++ later)) = (div, .exc e) := by
  cases cs with
  | nil => simp [encRun, produced] at hp
  | cons c cs =>
    have hr := (hv c (by simp)).2
    rw [encRun_start] at hp
    obtain ⟨vs, hpr, hm, _⟩ := encRun_spec (C := C) (c :: cs) (startIv_nil_length hr)
      (fun x hx => (hv x (by simp only [List.mem_append]; exact .inl hx)).1)
    rw [hpr] at hp
    simp only [List.mem_map] at hp
    obtain ⟨e, he, rfl⟩ := hp
    obtain ⟨m1, m2, m3, _⟩ := hm e he
    have hend : encEnd C [] (c :: cs ++ later) = encEnd C (startIv [] c.rnd) (c :: cs ++ later) := by
      simp only [List.cons_append, encEnd, encodeAes_start C]
    obtain ⟨e1, e2⟩ := encEnd_spec C (c :: cs ++ later) (startIv_nil_length hr) (fun x hx => (hv x hx).1)
    rw [hend]
    refine C16_reflection_rejected C _ e.2 _ _ _ _
      (sealedBlock_iv hC m2 (hv e.1 (by simp only [List.mem_append]; exact .inl m1)).1) (by omega) ?_
    have : ivPrefix e.2 = ivPrefix (encEnd C (startIv [] c.rnd) (c :: cs ++ later)) := by rw [m3, e2]
    exact this

/-- non-vacuity: the first block of the example, reflected after all three calls -/
example : (produced (encRun Toy.crypto [] exCalls)).map
    (fun p => (decodeAes Toy.crypto p.2 [1] [2] [] (encEnd Toy.crypto [] exCalls)).2) =
    [.exc .runtime, .exc .runtime, .exc .runtime] := by decide +kernel

/-! ## C17 -/

theorem receive_all {C : Crypto} (hC : C.Lawful) (vs : List ((EncCall × Bytes) × Bytes)) {pre div : Bytes}
    (hm : ∀ d ∈ vs, d.1.1.payload.length ≤ gcmLimit ∧ d.1.2.length = 12 ∧ ivPrefix d.1.2 = pre ∧
      ∃ v', updateIv d.1.2 d.1.1.payload.length = .ok v')
    (hd : ∀ d ∈ vs, d.2 = [] ∨ (8 ≤ d.2.length ∧ ivPrefix d.2 ≠ pre))
    (hw : vs.Pairwise (fun x y => ivCounter x.1.2 + blocksOf x.1.1.payload.length ≤ ivCounter y.1.2))
    (hdiv : div = [] ∨ (div.length = 12 ∧ ivPrefix div = pre ∧ ∀ d ∈ vs, ivCounter div ≤ ivCounter d.1.2)) :
    (decRun C div (vs.map fun d => ⟨sealedBlock C d.1.1 d.1.2, d.1.1.key, d.1.1.aad, d.2⟩)).2 =
      vs.map (fun d => .ok d.1.1.payload) := by
  induction vs generalizing div with
  | nil => rfl
  | cons d ds ih =>
    obtain ⟨m1, m2, m3, v', m4⟩ := hm d (by simp)
    have hdec : decodeAes C (sealedBlock C d.1.1 d.1.2) d.1.1.key d.1.1.aad div d.2 = (v', .ok d.1.1.payload) := by
      refine decodeAes_sealed hC m2 m1 m4 ?_ ?_
      · rw [m3]; exact hd d (by simp)
      · rcases hdiv with h | ⟨h1, h2, h3⟩
        · exact .inl h
        · exact .inr ⟨h1, by rw [h2, m3], h3 d (by simp)⟩
    have m1' := m1
    unfold gcmLimit at m1'
    obtain ⟨q1, q2, q3, _⟩ := updateIv_ok m2 (by omega) m4
    simp only [List.map_cons, decRun, hdec]
    rw [ih (fun x hx => hm x (by simp [hx])) (fun x hx => hd x (by simp [hx])) (List.pairwise_cons.mp hw).2]
    right
    refine ⟨q1, by rw [q2, m3], ?_⟩
    intro x hx
    rw [q3]
    exact (List.pairwise_cons.mp hw).1 x hx

/-- C17. One party makes the calls `c :: cs`; of the blocks produced an arbitrary subsequence is delivered, in
order, to the peer (`ds`: each delivered block with the encryption IV the peer has at that time, empty or with another random
part). The peer, starting with an empty decryption IV, obtains exactly the payloads. -/
theorem C17_lossy_delivery (C : Crypto) (hC : C.Lawful) (c : EncCall) (cs : List EncCall)
    (hv : ∀ x ∈ c :: cs, x.payload.length ≤ gcmLimit ∧ x.rnd.length = 8)
    (ds : List ((EncCall × Block) × Bytes))
    (hsub : (ds.map (·.1)).Sublist (produced (encRun C [] (c :: cs))))
    (henc : ∀ d ∈ ds, d.2 = [] ∨ (d.2.length = 12 ∧ d.2.take 8 ≠ c.rnd)) :
    (decRun C [] (ds.map fun d => ⟨d.1.2, d.1.1.key, d.1.1.aad, d.2⟩)).2 = ds.map (fun d => .ok d.1.1.payload) := by
  have hr := (hv c (by simp)).2
  rw [encRun_start] at hsub
  obtain ⟨vs, hp, hm, hw⟩ := encRun_spec (C := C) (c :: cs) (startIv_nil_length hr) (fun x hx => (hv x hx).1)
  rw [hp] at hsub
  obtain ⟨ws, hws, hdw⟩ := List.sublist_map_iff.mp hsub
  -- pair the IVs with the peer's encryption IVs
  have hlen : ds.length = ws.length := by
    have := congrArg List.length hdw
    simpa using this
  let us : List ((EncCall × Bytes) × Bytes) := ws.zip (ds.map (·.2))
  have hds : ds = us.map (fun u => ((u.1.1, sealedBlock C u.1.1 u.1.2), u.2)) := by
    have e1 : us.map (fun u => ((u.1.1, sealedBlock C u.1.1 u.1.2), u.2)) = (ds.map (·.1)).zip (ds.map (·.2)) := by
      rw [hdw]
      simp only [us, List.zip_map_left]
      rfl
    rw [e1, List.zip_map']
    simp
  have hus1 : us.map (·.1) = ws := List.map_fst_zip (by simp [hlen])
  have hmem : ∀ u ∈ us, u.1 ∈ vs := by
    intro u hu
    apply hws.subset
    rw [← hus1]
    exact List.mem_map_of_mem hu
  have key := receive_all (C := C) hC us (pre := c.rnd) (div := []) ?_ ?_ ?_ (.inl rfl)
  · rw [hds]
    simp only [List.map_map]
    exact key
  · intro u hu
    obtain ⟨a, b, cc, d, e⟩ := hm _ (hmem u hu)
    rw [startIv_nil_prefix hr] at cc
    exact ⟨(hv _ a).1, b, cc, e⟩
  · intro u hu
    have hmd : ((u.1.1, sealedBlock C u.1.1 u.1.2), u.2) ∈ ds := by
      rw [hds]
      exact List.mem_map_of_mem (f := fun u => ((u.1.1, sealedBlock C u.1.1 u.1.2), u.2)) hu
    rcases henc _ hmd with h | ⟨h1, h2⟩
    · exact .inl h
    · exact .inr ⟨by dsimp only at h1; omega, h2⟩
  · have hww := hw.sublist hws
    rw [← hus1, List.pairwise_map] at hww
    exact hww

/-- non-vacuity: the first and third block of the example are delivered -/
example :
    let sent := produced (encRun Toy.crypto [] exCalls)
    let ds := (sent.take 1).map (fun p => (p, ([] : Bytes))) ++ (sent.drop 2).map (fun p => (p, List.replicate 12 (0 : UInt8)))
    ds.length = 2 ∧ (ds.map (·.1)).isSublist sent = true ∧
    (∀ d ∈ ds, d.2 = [] ∨ (d.2.length = 12 ∧ d.2.take 8 ≠ [1, 2, 3, 4, 5, 6, 7, 8])) ∧
    (decRun Toy.crypto [] (ds.map fun d => ⟨d.1.2, d.1.1.key, d.1.1.aad, d.2⟩)).2 = [.ok [7], .ok [8, 8]] := by
  decide +kernel

end Ndncert.Props
