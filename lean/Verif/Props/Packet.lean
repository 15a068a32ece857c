import Verif.Lemmas.Packet
import Verif.Props.CaExec
import Verif.Spec.PacketRun

/-! # C134: certificates, replies and Interests as octets -/

namespace Ndncert.Props
open Ndncert

variable {K : KeyRing} {C : Crypto}

/-- the certificates signed by either side decode and verify -/
theorem decodeCert_certWire {priv : Bytes} {locator name : Name} {content : Bytes} {v : Time × Time} {fresh : Nat} (hf : fresh < 2 ^ 64)
    (hk : NameFits locator) (hn : NameFits name) (hv : isValidCertName name = true) (hp : PeriodFits v)
    (hl : (certWire K priv locator name content v fresh).val.length < 2 ^ 64) :
    (packetCrypto K C).decodeCert (certWire K priv locator name content v fresh) = some
      { wire := certWire K priv locator name content v fresh, name := name, content := some content, keyLocator := some locator, validity := some v,
        digest := C.sha256 (certWire K priv locator name content v fresh).encode } := by
  have hd := decodePacket_certWire hf hk hn hl
  have hfit := (certWire_fits hl).1
  generalize hw : certWire K priv locator name content v fresh = w at hd hl
  show ((decodePacket w).bind fun p => if isValidCertName p.name ∧ p.contentType = 2 then some (packetCert C.sha256 w p) else none) = _
  rw [hd]
  have hval : validityOf (validityBlock v) = some v := by
    refine validityOf_block hp ?_
    have hinfo : (sigInfoBlock 22 (K.sigType priv) locator (some v)).Fits := hfit _ (by simp [signedElements])
    have h1 : (validityBlock v).val.length < 2 ^ 64 :=
      Nat.lt_of_le_of_lt (mem_encodeAll_length (b := validityBlock v) (es := [nniBlock 27 (K.sigType priv), nestedBlock 28 (nameBlock locator)] ++ (some v).toList.map validityBlock)
        (by simp)) hinfo.2.2
    refine fits_of_total ?_ h1
    intro e he
    simp only [List.mem_cons, List.not_mem_nil, or_false] at he
    rcases he with rfl | rfl
    · exact ⟨by show 0 < 254; omega, by show 254 < 2 ^ 32; omega⟩
    · exact ⟨by show 0 < 255; omega, by show 255 < 2 ^ 32; omega⟩
  simp [signedFields, packetCert, SigInfo.validity, hv, validityBlock, mkBlock] at hval ⊢
  exact hval

theorem verify_certWire (hK : K.Lawful) {priv : Bytes} {locator name : Name} {content : Bytes} {v : Time × Time} {fresh : Nat} (hf : fresh < 2 ^ 64)
    (hk : NameFits locator) (hn : NameFits name) (hl : (certWire K priv locator name content v fresh).val.length < 2 ^ 64) {signer : Cert}
    (hs : signer.content = some (K.pubOf priv)) : verifyPacket K (certWire K priv locator name content v fresh) signer = true := by
  have hd := decodePacket_certWire hf hk hn hl
  obtain ⟨f1, f2⟩ := certWire_fits hl
  unfold verifyPacket
  rw [hs, hd]
  dsimp only
  rw [certWire_val, signedOctets_mk f1 (fun e he => (signedElements_types e he).2.2) _ f2]
  exact hK.verifies priv _

/-- C134: All that the other theorems assume of decoding, signing and verifying certificates, replies and Interests holds of the packet
format of NDN, for every signature scheme whose signatures verify. -/
theorem C134_laws (hK : K.Lawful) (hC : C.Lawful) : (packetCrypto K C).Honest where
  decode_wire b c h := by
    obtain ⟨p, h1, h2⟩ := Option.bind_eq_some_iff.mp h
    split at h2
    · cases h2; exact ⟨rfl, (decodePacket_some h1).1⟩
    · cases h2
  decode_name b c h := by
    obtain ⟨p, h1, h2⟩ := Option.bind_eq_some_iff.mp h
    split at h2
    · rename_i hp
      cases h2; exact hp.1
    · cases h2
  data_wire b c h := by
    obtain ⟨p, h1, h2⟩ := Option.map_eq_some_iff.mp h
    cases h2; exact ⟨rfl, (decodePacket_some h1).1⟩
  data_of_cert b c h := by
    obtain ⟨p, h1, h2⟩ := Option.bind_eq_some_iff.mp h
    split at h2
    · cases h2; exact Option.map_eq_some_iff.mpr ⟨p, h1, rfl⟩
    · cases h2
  hmac_length := hC.hmac_length
  hkdf_length := hC.hkdf_length
  sha256_length := hC.sha256_length
  aes_length := hC.aes_length
  aes_correct := hC.aes_correct
  ecdh_agree := hC.ecdh_agree
  ecdh_total := hC.ecdh_total
  ecdh_pub_ne := hC.ecdh_pub_ne
  interest_verifies k pub n p c hk hc := by
    obtain ⟨priv, h1, h2⟩ := Option.map_eq_some_iff.mp hk
    exact verifyInterest_own hK h1 n p _ c (by rw [hc, h2])
  cert_verifies k pub n content v c hk hc _ hn hl := by
    obtain ⟨priv, h1, h2⟩ := Option.map_eq_some_iff.mp hk
    have e : (packetCrypto K C).keySignCert k n content v = signedPacket C.sha256 (K.keyLocator k) (certWire K priv (K.keyLocator k) n content v 0) := by
      show signedPacket C.sha256 (K.keyLocator k) (certWire K ((K.keyPriv k).getD []) (K.keyLocator k) n content v 0) = _
      rw [h1]; rfl
    rw [e] at hl ⊢
    exact verify_certWire hK (by omega) (hK.key_locator k).1 hn hl (by rw [hc, h2])
  cert_decodes k n content v _ hn hv hp hl := decodeCert_certWire (by omega) (hK.key_locator k).1 hn hv hp hl
  issued_decodes id n content v _ hn hv hp hl := decodeCert_certWire (by omega) (hK.id_locator id).1 hn hv hp hl
  data_verifies id n content c hc := verifyReply_own hK id n content c hc

/-- C134: What a signature of a certificate is for determines what is read of the certificate: two packets with the same signed
octets have the same name, public key, KeyLocator and validity period. -/
theorem C134_certificate {b b' : Block} {c c' : Cert} (h : (packetCrypto K C).decodeCert b = some c) (h' : (packetCrypto K C).decodeCert b' = some c')
    (hs : signedOctets b = signedOctets b') :
    c.name = c'.name ∧ c.content = c'.content ∧ c.keyLocator = c'.keyLocator ∧ c.validity = c'.validity := by
  obtain ⟨p, h1, h2⟩ := Option.bind_eq_some_iff.mp h
  obtain ⟨p', h1', h2'⟩ := Option.bind_eq_some_iff.mp h'
  have hcore := decodePacket_core h1 h1' hs
  split at h2
  · split at h2'
    · cases h2; cases h2'
      simp only [DataPacket.core, Prod.mk.injEq] at hcore
      obtain ⟨e1, e2, e3, e4, e5⟩ := hcore
      simp only [packetCert, e1, e4, e5, and_self]
    · cases h2'
  · cases h2

/-- C134: If only these packets were signed with the signer's key (that is, its public key verifies only signatures over their signed
octets), every certificate that verifies has the name, public key, KeyLocator and validity period of one of them. -/
theorem C134_only_signed {signer : Cert} {pub : Bytes} {signed : List Block} (hpub : signer.content = some pub)
    (honly : ∀ text sig, K.verify pub text sig = true → ∃ b ∈ signed, text = signedOctets b) {b : Block} {c : Cert}
    (h : (packetCrypto K C).decodeCert b = some c) (hv : (packetCrypto K C).verifyCert c signer = true)
    (hsig : ∀ b ∈ signed, ((packetCrypto K C).decodeCert b).isSome = true) :
    ∃ b' ∈ signed, ∃ c', (packetCrypto K C).decodeCert b' = some c' ∧
      c.name = c'.name ∧ c.content = c'.content ∧ c.keyLocator = c'.keyLocator ∧ c.validity = c'.validity := by
  have hw : c.wire = b := by
    obtain ⟨p, h1, h2⟩ := Option.bind_eq_some_iff.mp h
    split at h2
    · cases h2; rfl
    · cases h2
  have hv' : verifyPacket K b signer = true := by rw [← hw]; exact hv
  unfold verifyPacket at hv'
  rw [hpub] at hv'
  split at hv'
  · rename_i pub' p heq hd
    cases heq
    obtain ⟨b', hb', ht⟩ := honly _ _ hv'
    obtain ⟨c', hc'⟩ := Option.isSome_iff_exists.mp (hsig b' hb')
    exact ⟨b', hb', c', hc', C134_certificate h hc' ht⟩
  · cases hv'

/-- C134: A reply verifies exactly if its signature is one over all its elements but the signature. -/
theorem C134_reply_verifies {d : Data} {text sig : Bytes} (hd : FormedReply d text sig) {signer : Cert} :
    (packetCrypto K C).verifyData d signer = true ↔ ∃ pub, signer.content = some pub ∧ K.verify pub text sig = true := by
  obtain ⟨m, s, hsig, tm, ts, fm, fs, fv, fn, tc, fc, rfl⟩ := hd
  obtain ⟨e1, e2⟩ := replySigned_text hsig tm ts rfl fm fs ⟨by show 0 < 23; omega, by show 23 < 2 ^ 32; omega, fv⟩
  show verifyReply K d signer = true ↔ _
  unfold verifyReply
  rw [e2, e1]
  cases hp : signer.content with
  | none => simp
  | some pub => simp

/-- C134: The text that is signed determines the name and the content of a reply. -/
theorem C134_reply {d d' : Data} {text sig sig' : Bytes} (h : FormedReply d text sig) (h' : FormedReply d' text sig') :
    d.name = d'.name ∧ d.content = d'.content := by
  obtain ⟨m, s, hsig, tm, ts, fm, fs, fv, fn, tc, fc, rfl⟩ := h
  obtain ⟨m', s', hsig', tm', ts', fm', fs', fv', fn', tc', fc', ht⟩ := h'
  simp only [encodeAll, List.flatMap_cons, List.flatMap_nil, List.append_nil] at ht
  obtain ⟨a1, a2⟩ := encode_append_inj (nameBlock_fits _ fn) (nameBlock_fits _ fn') ht
  obtain ⟨b1, b2⟩ := encode_append_inj fm fm' a2
  obtain ⟨c1, c2⟩ := encode_append_inj fc fc' b2
  exact ⟨nameBlock_encode_inj fn fn' (by rw [a1]), c1⟩

/-- C134: An Interest verifies exactly if its signature is one over its name, parameters and InterestSignatureInfo. -/
theorem C134_interest_verifies {i : Interest} {name : Name} {params : Block} {text sig : Bytes} (hi : FormedInterest i name params text sig) {signer : Cert} :
    (packetCrypto K C).verifyInterest i signer = true ↔ ∃ pub, signer.content = some pub ∧ K.verify pub text sig = true := by
  obtain ⟨digest, s, hn, hp, hsig, ts, fs, fv, fn, tp, fp, rfl⟩ := hi
  obtain ⟨e1, e2⟩ := interestSigned_text (name := name) (params := params) hsig ts rfl fs ⟨by show 0 < 46; omega, by show 46 < 2 ^ 32; omega, fv⟩
  show verifyInterestOctets K i signer = true ↔ _
  unfold verifyInterestOctets
  rw [e2, hp, hn, List.dropLast_concat]
  cases hp : signer.content with
  | none => simp
  | some pub => simp [e1]

/-- C134: The text that is signed determines the name and the parameters of an Interest. -/
theorem C134_interest {i i' : Interest} {name name' : Name} {params params' : Block} {text sig sig' : Bytes}
    (h : FormedInterest i name params text sig) (h' : FormedInterest i' name' params' text sig') : name = name' ∧ params = params' := by
  obtain ⟨digest, s, hn, hp, hsig, ts, fs, fv, fn, tp, fp, rfl⟩ := h
  obtain ⟨digest', s', hn', hp', hsig', ts', fs', fv', fn', tp', fp', ht⟩ := h'
  have e : ∀ (n : Name) (p s : Block), encodeAll (n ++ [p, s]) = encodeAll n ++ (p.encode ++ s.encode) := by intro n p s; simp [encodeAll]
  rw [e, e] at ht
  exact encodeAll_until fn fn' ⟨fp, tp⟩ ⟨fp', tp'⟩ ht

/-- C134: The full name of a certificate (its name and the digest of the packet) determines every octet of the packet, or else the two
packets are a collision of SHA-256. -/
theorem C134_full_name {b b' : Block} {c c' : Cert} (h : (packetCrypto K C).decodeCert b = some c) (h' : (packetCrypto K C).decodeCert b' = some c')
    (fb : b.Fits) (fb' : b'.Fits) (hd : c.digest = c'.digest) : b = b' ∨ (b.encode ≠ b'.encode ∧ C.sha256 b.encode = C.sha256 b'.encode) := by
  obtain ⟨p, h1, h2⟩ := Option.bind_eq_some_iff.mp h
  obtain ⟨p', h1', h2'⟩ := Option.bind_eq_some_iff.mp h'
  split at h2
  · split at h2'
    · cases h2; cases h2'
      by_cases hb : b = b'
      · exact Or.inl hb
      · exact Or.inr ⟨fun e => hb (encode_inj fb fb' e), hd⟩
    · cases h2'
  · cases h2

/-- C134: The packet of a certificate the CA issues: name, MetaInfo with ContentType KEY and a freshness period of one hour, the submitted public
key, SignatureInfo with the type of the CA's key, a KeyLocator with its name and the submitted validity period, and a signature over these four
elements that verifies with the CA's public key. -/
theorem C134_issued {σ : Type} {S : StoreI σ} {Inv : σ → Prop} {cfg : CaConfig} (hK : K.Lawful) (hC : C.Lawful)
    (hS : LawfulStore (packetCrypto K C) S Inv) (hcfg : NameFits cfg.profile.caPrefix)
    {h : List (Step σ)} {s : CaState σ} (hx : Exec (packetCrypto K C) S cfg h s) {h1 h2 : List (Step σ)} {n : Step σ} (hh : h = h1 ++ n :: h2)
    {c : Cert} (hc : .issue c ∈ n.effects) (hl : c.wire.val.length < 2 ^ 64) :
    ∃ i env r, n.Handles (.challenge i) env ∧ Authentic (packetCrypto K C) S cfg n.pre.store i env r ∧
    ∃ key notBefore notAfter sig, r.cert.content = some key ∧ r.cert.validity = some (notBefore, notAfter) ∧
    let priv := K.idPriv cfg.profile.caPrefix
    let info := mkBlock 22 [nniBlock 27 (K.sigType priv), mkBlock 28 [nameBlock (K.idLocator cfg.profile.caPrefix)],
      mkBlock 253 [binBlock 254 (periodText notBefore), binBlock 255 (periodText notAfter)]]
    let signed := [nameBlock (keyNameOf r.cert.name ++ [gcomp (bytes! "NDNCERT"), env.version]), mkBlock 20 [nniBlock 24 2, nniBlock 25 3600000],
      binBlock 21 key, info]
    parse c.wire.val = .ok (signed ++ [binBlock 23 sig]) ∧ K.verify (K.pubOf priv) (encodeAll signed) sig = true := by
  obtain ⟨i, env, r, g1, g2, g3, g4⟩ := C31_issued_content (C134_laws hK hC).toLawful hS hcfg hx hh hc
  refine ⟨i, env, r, g1, g2, ?_⟩
  obtain ⟨e1, key, ⟨nb, na⟩, e2, e3, e4, e5, e6, e7⟩ := g3
  have hw : c.wire = certWire K (K.idPriv cfg.profile.caPrefix) (K.idLocator cfg.profile.caPrefix) c.name key (nb, na) 3600000 :=
    (Prod.mk.inj e6).1.symm
  rw [hw] at hl
  obtain ⟨f1, f2⟩ := certWire_fits hl
  rw [hw, certWire_val]
  rw [e1] at f1 f2 ⊢
  generalize K.idPriv cfg.profile.caPrefix = priv at *
  generalize K.idLocator cfg.profile.caPrefix = loc at *
  have e : sigInfoBlock 22 (K.sigType priv) loc (some (nb, na)) = mkBlock 22 [nniBlock 27 (K.sigType priv), mkBlock 28 [nameBlock loc],
      mkBlock 253 [binBlock 254 (periodText nb), binBlock 255 (periodText na)]] := by
    simp [sigInfoBlock, validityBlock, nestedBlock, mkBlock, encodeAll]
  have em : metaInfoBlock 2 3600000 = mkBlock 20 [nniBlock 24 2, nniBlock 25 3600000] := by simp [metaInfoBlock]
  unfold signedElements at f1 f2 ⊢
  rw [e, em] at f1 f2 ⊢
  dsimp only
  refine ⟨key, nb, na, _, e2, e4, ?_, hK.verifies _ _⟩
  show parse (encodeAll _) = _
  rw [parse_encodeAll]
  intro x hx'
  rcases List.mem_append.mp hx' with h | h
  · exact f1 x h
  · rw [List.mem_singleton.mp h]
    exact binBlock_fits _ _ (by omega) (by omega) f2

/-! ## Concrete cases -/

/-- the laws hold with a toy scheme -/
example : PacketRun.C.Honest := C134_laws PacketRun.ring_lawful Toy.lawful

/-- the issued certificate of the run decodes to itself and verifies with the CA's key, not with another one -/
example : PacketRun.C.decodeCert PacketRun.cert.wire = some PacketRun.cert ∧ PacketRun.C.verifyCert PacketRun.cert Fix.caCert = true ∧
    PacketRun.C.verifyCert PacketRun.cert { Fix.caCert with content := some [1, 2] } = false := by decide +kernel

/-- the same packet with another signature -/
def otherSig (b : Block) : Block := ⟨b.typ, signedOctets b ++ (binBlock 23 [7]).encode⟩

/-- the hypotheses of `C134_certificate` are met by two packets that differ in the signature; the second does not verify -/
example : otherSig PacketRun.cert.wire ≠ PacketRun.cert.wire ∧
    signedOctets (otherSig PacketRun.cert.wire) = signedOctets PacketRun.cert.wire ∧
    (PacketRun.C.decodeCert (otherSig PacketRun.cert.wire)).map (·.name) = some PacketRun.cert.name ∧
    (PacketRun.C.decodeCert (otherSig PacketRun.cert.wire)).map (fun c => PacketRun.C.verifyCert c Fix.caCert) = some false := by decide +kernel

/-- a scheme in which one certificate was signed -/
def oneSigned : KeyRing := { PacketRun.ring with verify := fun _ text _ => text == signedOctets PacketRun.cert.wire }

/-- the hypotheses of `C134_only_signed` are met -/
example : (∀ text sig, oneSigned.verify [1] text sig = true → ∃ b ∈ [PacketRun.cert.wire], text = signedOctets b) ∧
    (∀ b ∈ [PacketRun.cert.wire], ((packetCrypto oneSigned Toy.crypto).decodeCert b).isSome = true) ∧
    (packetCrypto oneSigned Toy.crypto).verifyCert PacketRun.cert { Fix.caCert with content := some [1] } = true := by
  refine ⟨?_, ?_, ?_⟩
  · intro text sig h
    exact ⟨_, List.mem_cons_self .., by simpa [oneSigned] using h⟩
  · intro b hb
    rw [List.mem_singleton.mp hb]
    decide +kernel
  · decide +kernel

/-- the reply to NEW is formed as assumed, and verifies -/
example : (∃ text sig, FormedReply PacketRun.reply1 text sig) ∧ PacketRun.C.verifyData PacketRun.reply1 Fix.caCert = true := by
  refine ⟨⟨_, _, metaInfoBlock 0 1000, sigInfoBlock 22 3 (Fix.ca ++ [keyComponent, gcomp [1]]) none,
    show _ = encodeAll [_, _, ⟨23, (valueOf 23 PacketRun.reply1.sig).getD []⟩] from ?_, rfl, rfl, ?_, ?_, ?_, ?_, ?_, ?_, rfl⟩, ?_⟩ <;> decide +kernel

/-- the NEW Interest is formed as assumed, and verifies with the requester's key -/
example : (∃ params text sig, FormedInterest PacketRun.interest1 (Fix.ca ++ [caComp, newComp]) params text sig) ∧
    PacketRun.C.verifyInterest PacketRun.interest1 { Fix.caCert with content := PacketRun.C.keyPub Fix.key } = true := by
  refine ⟨⟨PacketRun.interest1.params.getD ⟨0, []⟩, _, _, (PacketRun.interest1.name.getLastD ⟨0, []⟩).val, sigInfoBlock 44 3 Fix.key none, ?_, ?_,
    show _ = encodeAll [_, ⟨46, (valueOf 46 PacketRun.interest1.sig).getD []⟩] from ?_, rfl, ?_, ?_, ?_, ?_, ?_, rfl⟩, ?_⟩ <;> decide +kernel

/-- `C134_issued` applies to the run, which issues a certificate -/
example : ∃ i env r, PacketRun.last.Handles (.challenge i) env ∧
    Authentic PacketRun.C Fix.S Fix.cfg PacketRun.last.pre.store i env r := by
  have h := C134_issued PacketRun.ring_lawful Toy.lawful (memStore_lawful _) Fix.cfg_fits PacketRun.exec PacketRun.hist_last
    PacketRun.cert_issued.1 PacketRun.cert_issued.2
  obtain ⟨i, env, r, h1, h2, _⟩ := h
  exact ⟨i, env, r, h1, h2⟩

/-- the full name of the certificate and that of the packet with another signature differ -/
example : (PacketRun.C.decodeCert (otherSig PacketRun.cert.wire)).map (·.digest) ≠ some PacketRun.cert.digest ∧
    PacketRun.cert.wire.Fits := by decide +kernel

end Ndncert.Props
