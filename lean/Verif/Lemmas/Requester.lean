import Verif.Lemmas.Honest
import Verif.Lemmas.Safe

namespace Ndncert

variable {C : Crypto}

theorem nameOfBlock_no_ub (b : Block) (u : Ub) : nameOfBlock b ≠ .ub u := by
  unfold nameOfBlock
  split
  · exact elements_no_ub _ _
  · simp

theorem infoStep_no_ub (p : CaProfile) (e : Block) (u : Ub) : infoStep C p e ≠ .ub u := by
  unfold infoStep
  intro h
  split at h
  · rcases Res.of_bind_ub h with h | ⟨es, _, h⟩
    · exact elements_no_ub _ _ h
    rcases Res.of_bind_ub h with h | ⟨nb, _, h⟩
    · exact getElem_no_ub _ _ _ h
    rcases Res.of_bind_ub h with h | ⟨n, _, h⟩
    · exact nameOfBlock_no_ub _ _ h
    · cases h
  split at h
  · cases h
  split at h
  · cases h
  split at h
  · rcases Res.of_bind_ub h with h | ⟨n, _, h⟩
    · unfold readNni at h; split at h <;> cases h
    · cases h
  split at h
  · rcases Res.of_bind_ub h with h | ⟨es, _, h⟩
    · exact elements_no_ub _ _ h
    rcases Res.of_bind_ub h with h | ⟨nb, _, h⟩
    · exact getElem_no_ub _ _ _ h
    rcases Res.of_bind_ub h with h | ⟨n, _, h⟩
    · exact certOfBlock_no_ub _ _ _ h
    · cases h
  split at h <;> cases h

theorem infoLoop_no_ub : ∀ (es : List Block) (p : CaProfile) (u : Ub), es.foldlM (infoStep C) p ≠ .ub u
  | [], p, u, h => by cases h
  | e :: es, p, u, h => by
    rw [List.foldlM_cons] at h
    rcases Res.of_bind_ub h with h | ⟨q, _, h⟩
    · exact infoStep_no_ub _ _ _ h
    · exact infoLoop_no_ub es q u h

theorem infoDecode_no_ub (b : Block) (u : Ub) : infoDecode C b ≠ .ub u := by
  unfold infoDecode
  intro h
  rcases Res.of_bind_ub h with h | ⟨es, _, h⟩
  · exact elements_no_ub _ _ h
  · exact infoLoop_no_ub _ _ _ h

/-- a certificate, once there, stays; a CaCertificate element brings one -/
theorem infoStep_cert {p q : CaProfile} {e : Block} (h : infoStep C p e = .ok q) :
    (p.cert ≠ none → q.cert ≠ none) ∧ (e.typ = T.CaCertificate → q.cert ≠ none) := by
  unfold infoStep at h
  split at h
  · rename_i ht
    obtain ⟨_, _, h⟩ := Res.bind_eq_ok.mp h
    obtain ⟨_, _, h⟩ := Res.bind_eq_ok.mp h
    obtain ⟨_, _, h⟩ := Res.bind_eq_ok.mp h
    cases h
    exact ⟨id, fun h => by rw [ht] at h; cases h⟩
  split at h
  · rename_i ht
    cases h
    exact ⟨id, fun h => by rw [ht] at h; cases h⟩
  split at h
  · rename_i ht
    cases h
    exact ⟨id, fun h => by rw [ht] at h; cases h⟩
  split at h
  · rename_i ht
    obtain ⟨_, _, h⟩ := Res.bind_eq_ok.mp h
    cases h
    exact ⟨id, fun h => by rw [ht] at h; cases h⟩
  split at h
  · obtain ⟨_, _, h⟩ := Res.bind_eq_ok.mp h
    obtain ⟨_, _, h⟩ := Res.bind_eq_ok.mp h
    obtain ⟨_, _, h⟩ := Res.bind_eq_ok.mp h
    cases h
    exact ⟨fun _ => by simp, fun _ => by simp⟩
  · rename_i ht
    split at h
    · cases h
    · cases h
      exact ⟨id, fun h => absurd h ht⟩

theorem infoLoop_cert : ∀ {es : List Block} {p q : CaProfile}, es.foldlM (infoStep C) p = .ok q →
    (p.cert ≠ none ∨ ∃ e ∈ es, e.typ = T.CaCertificate) → q.cert ≠ none
  | [], p, q, h, hc => by
    cases h
    rcases hc with hc | ⟨_, h, _⟩
    · exact hc
    · cases h
  | e :: es, p, q, h, hc => by
    rw [List.foldlM_cons] at h
    obtain ⟨p', h1, h2⟩ := Res.bind_eq_ok.mp h
    obtain ⟨a, b⟩ := infoStep_cert h1
    refine infoLoop_cert h2 ?_
    rcases hc with hc | ⟨x, hx, ht⟩
    · exact .inl (a hc)
    · rcases List.mem_cons.mp hx with rfl | hx
      · exact .inl (b ht)
      · exact .inr ⟨x, hx, ht⟩

/-- how a NEW Interest is made -/
theorem genNewInterest_ok {r r' : Request} {k : Name} {nb na : Time} {v : Block} {i : Interest}
    (h : genNewInterest C r k nb na v = (r', .ok (some i))) :
    ∃ id pub, isPrefixOf r.profile.caPrefix k = true ∧ identityOfKeyName k = .ok id ∧ C.keyPub k = some pub ∧
      r' = { r with identityName := id, keyPair := some ⟨k, pub⟩ } ∧
      i = signedInterest C k (r.profile.caPrefix ++ [caComp, newComp])
        (requestParamsEncode .new (C.ecdhPub r.ecdhPriv) (keySignedCert C k (k ++ [gcomp (bytes! "cert-request"), v]) pub (roundPeriod nb na))) := by
  unfold genNewInterest at h
  split at h
  · cases h
  rename_i hp
  split at h
  · cases h
  split at h
  · cases h
  · cases h
  rename_i id hid
  split at h
  · cases h
  rename_i pub hpub
  cases h
  exact ⟨id, pub, by simpa using hp, hid, hpub, rfl, rfl⟩

theorem identityOfKeyName_ok {k id : Name} : identityOfKeyName k = .ok id ↔ ∃ c, k = id ++ [keyComponent, c] := by
  unfold identityOfKeyName
  constructor
  · intro h
    split at h
    · rename_i hc
      obtain ⟨h1, h2⟩ := hc
      cases h
      have hlt : k.length - 2 < k.length := by omega
      refine ⟨k[k.length - 1], ?_⟩
      have e1 : k.drop (k.length - 2) = [keyComponent, k[k.length - 1]] := by
        rw [List.drop_eq_getElem_cons hlt]
        rw [List.getElem?_eq_getElem hlt] at h2
        rw [Option.some.inj h2, List.drop_eq_getElem_cons (by omega)]
        simp only [show k.length - 2 + 1 = k.length - 1 by omega, show k.length - 1 + 1 = k.length by omega]
        simp
      rw [← e1, List.take_append_drop]
    · cases h
  · rintro ⟨c, rfl⟩
    rw [if_pos]
    · simp
    · simp

/-- rounded to whole seconds, inwards -/
theorem roundPeriod_inwards {nb na : Time} (h1 : 0 ≤ nb) (h2 : 0 ≤ na) :
    SecondsInside nb na (roundPeriod nb na) := by
  have e : nsPerSec = 1000000000 := rfl
  unfold roundPeriod SecondsInside
  rw [e]
  have k1 : ∀ x : Int, 0 ≤ x → x ≤ (x + (1000000000 - 1)).tdiv 1000000000 * 1000000000 ∧
      (x + (1000000000 - 1)).tdiv 1000000000 * 1000000000 < x + 1000000000 := by
    intro x hx
    rw [Int.tdiv_eq_ediv_of_nonneg (by omega)]; omega
  have k2 : ∀ x : Int, 0 ≤ x → x.tdiv 1000000000 * 1000000000 ≤ x ∧ x < x.tdiv 1000000000 * 1000000000 + 1000000000 := by
    intro x hx
    rw [Int.tdiv_eq_ediv_of_nonneg hx]; omega
  exact ⟨⟨_, rfl⟩, (k1 nb h1).1, (k1 nb h1).2, ⟨_, rfl⟩, (k2 na h2).1, (k2 na h2).2⟩

end Ndncert
