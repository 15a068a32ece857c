import Verif.Lemmas.Formed
import Verif.Props.Packet

/-! # C140: what is read as a certificate has the format of a certificate; signed Interests end in a digest of their parameters -/

namespace Ndncert.Props
open Ndncert

variable {K : KeyRing} {C : Crypto}

/-- Octets that are read as a certificate are a packet of the format, the certificate read is what the packet says, and it is kept with the octets as
received. -/
theorem C140_certificate {b : Block} {c : Cert} (h : (packetCrypto K C).decodeCert b = some c) : FormedCert b c ∧ c.wire = b := by
  obtain ⟨p, hp, h⟩ := Option.bind_eq_some_iff.mp h
  split at h
  · rename_i hv
    cases h
    obtain ⟨h1, es, h2, h3, h4⟩ := decodePacket_some hp
    refine ⟨⟨h1, ?_⟩, rfl⟩
    unfold packetFields at h3
    split at h3
    · rename_i e rest
      split at h3
      · rename_i ht
        obtain ⟨n, h5, h3⟩ := Option.bind_eq_some_iff.mp h3
        obtain ⟨i1, i2, i3, i4, i5, i6, i7⟩ := packetFold_formed h3 (Nat.le_refl 1)
        refine ⟨e, rest, h2, ht, ?_, i2, i4, ?_, ?_, ?_⟩
        · rw [toOption_some h5]
          exact congrArg Res.ok i1.symm
        · rcases i5 with h | ⟨m, hm, hmt, f, hf⟩
          · rw [hv.2] at h
            cases h
          · rw [hv.2] at hf
            exact ⟨m, hm, hmt, metaInfoOf_key hf⟩
        · intro v
          show p.content = some v ↔ _
          rcases i6 with ⟨h, hn⟩ | ⟨x, hx, hxt, h⟩
          · rw [h]
            constructor
            · intro hv
              cases hv
            · rintro ⟨y, hy, hyt, _⟩
              exact absurd hyt (hn y hy)
          · rw [h]
            constructor
            · intro hv
              exact ⟨x, hx, hxt, Option.some.inj hv⟩
            · rintro ⟨y, hy, hyt, rfl⟩
              rw [OrderedOnce.eq_of_typ i2 hx hy (by rw [hxt]; simp) (hxt.trans hyt.symm)]
        · rcases i7 with h | ⟨s, hs, hst, h⟩
          · exact absurd h h4
          · refine ⟨s, hs, hst, ?_⟩
            cases hsi : p.sigInfo with
            | none => exact absurd hsi h4
            | some q =>
              have := sigInfoOf_formed (h.trans hsi)
              simpa only [packetCert, hsi, Option.bind_some] using this
      · cases h3
    · cases h3
  · cases h

/-- An Interest is taken as signed only if it has parameters and its name ends in the component for their digest. -/
theorem C140_interest {i : Interest} {signer : Cert} (h : (packetCrypto K C).verifyInterest i signer = true) :
    ∃ name digest params, i.name = name ++ [⟨2, digest⟩] ∧ i.params = some params := by
  change verifyInterestOctets K i signer = true at h
  unfold verifyInterestOctets at h
  split at h
  · rename_i pub p v c _ hp _ hc
    simp only [Bool.and_eq_true, beq_iff_eq] at h
    refine ⟨i.name.dropLast, c.val, p, ?_, hp⟩
    obtain ⟨ys, hy⟩ := List.getLast?_eq_some_iff.mp hc
    rw [hy, List.dropLast_concat, ← h.1]
  · cases h

/-- The name of each Interest with parameters that the requester makes ends in the digest of the elements from the parameters on. -/
theorem C140_made {r : Request} :
    (∀ ca info, EndsInDigest C.sha256 (genProbeInterest (packetCrypto K C) ca info)) ∧
    (∀ key nb na version i, (genNewInterest (packetCrypto K C) r key nb na version).2 = .ok (some i) → EndsInDigest C.sha256 i) ∧
    (∀ cert i, genRevokeInterest (packetCrypto K C) r cert = some i → EndsInDigest C.sha256 i) ∧
    (∀ params rnd i, (genChallengeInterest (packetCrypto K C) r params rnd).2 = .ok i → EndsInDigest C.sha256 i) := by
  refine ⟨fun ca info => ⟨_, _, rfl, rfl⟩, ?_, ?_, ?_⟩
  · intro key nb na version i h
    unfold genNewInterest at h
    split at h
    · cases Res.ok.inj h
    split at h
    · cases Res.ok.inj h
    split at h
    · cases h
    · cases h
    · split at h
      · cases h
      · cases Res.ok.inj h
        exact ⟨_, _, rfl, rfl⟩
  · intro cert i h
    unfold genRevokeInterest at h
    split at h
    · cases h
    · cases h
      exact ⟨_, _, rfl, rfl⟩
  · intro params rnd i h
    unfold genChallengeInterest at h
    split at h
    · cases h
    split at h
    · cases h
    split at h
    · cases h
    · cases h
    · dsimp only at h
      split at h
      · cases h
      · cases h
      · split at h
        · cases h
        · cases Res.ok.inj h
          exact ⟨_, _, rfl, rfl⟩

/-! ## Concrete cases -/

/-- the certificate of the run is read; with a second Content at its end it is not -/
example : PacketRun.C.decodeCert PacketRun.cert.wire = some PacketRun.cert ∧
    PacketRun.C.decodeCert ⟨6, PacketRun.cert.wire.val ++ (binBlock 21 [9]).encode⟩ = none := by decide +kernel

/-- the NEW Interest of the run is taken as signed -/
example : PacketRun.C.verifyInterest PacketRun.interest1 { Fix.caCert with content := PacketRun.C.keyPub Fix.key } = true := by decide +kernel

/-- the requester of the run makes the NEW Interest and two CHALLENGE Interests, and can ask for a revocation -/
example : PacketRun.gen1.2 = .ok (some PacketRun.interest1) ∧ PacketRun.gen2.2 = .ok PacketRun.chal1 ∧ PacketRun.gen3.2 = .ok PacketRun.chal2 ∧
    (genRevokeInterest PacketRun.C PacketRun.gen1.1 PacketRun.cert).isSome = true := by decide +kernel

end Ndncert.Props
