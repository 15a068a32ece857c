import Verif.Lemmas.Base64
import Verif.Props.ClientMain

/-! # C133: certificates in files -/

namespace Ndncert.Props

variable {C : Crypto}

/-- **C133** What is written of a certificate is the canonical base64 text of its octets, in lines of 64 characters, the last one perhaps shorter,
each with a newline at the end. -/
theorem C133_written (c : Cert) : ∃ (full last : List Bytes), saveCertText c = (full ++ last).flatMap (fun l => l ++ [10]) ∧
    Base64 True (full ++ last).flatten c.wire.encode ∧ (∀ l ∈ full, l.length = 64) ∧ last.length ≤ 1 ∧ ∀ l ∈ last, 0 < l.length ∧ l.length ≤ 64 := by
  obtain ⟨ls, last, e1, e2, e3, e4, e5⟩ := lines_shape _ (b64Encode c.wire.encode) (Nat.le_refl _)
  exact ⟨ls, last, e1, by rw [e2]; exact encode_base64 _, e3, e4, e5⟩

/-- **C133** A text is read as the certificate `c` exactly if, blanks left out, it is the base64 text of octets that begin with an element which
is a certificate packet with the content of `c`. -/
theorem C133_read (text : Bytes) (c : Cert) : loadCertText C text = some c ↔
    ∃ octets b rest, Base64 False (withoutBlanks text) octets ∧ readElement octets = .ok (b, rest) ∧ C.decodeCert b = some c := by
  unfold loadCertText
  rw [← blanks_eq]
  constructor
  · intro h
    split at h
    · cases h
    · next octets ho =>
      split at h
      · next b rest hb => exact ⟨octets, b, rest, decode_iff.mp ho, hb, h⟩
      · cases h
  · rintro ⟨octets, b, rest, h1, h2, h3⟩
    rw [decode_iff.mpr h1]
    dsimp only
    rw [h2]
    exact h3

/-- **C133** A certificate written to a file is read back, also if blanks were put in or left out. -/
theorem C133_survives (c : Cert) (hdec : C.decodeCert c.wire = some c) (hfit : c.wire.Fits) (text : Bytes) (ht : withoutBlanks text = withoutBlanks (saveCertText c)) :
    loadCertText C text = some c := by
  have hp := base64_plain (encode_base64 c.wire.encode)
  rw [C133_read]
  refine ⟨c.wire.encode, c.wire, [], ?_, ?_, hdec⟩
  · rw [ht, blanks_eq]
    unfold saveCertText
    rw [lines_strip _ _ (Nat.le_refl _) (fun x hx => (hp x hx).1)]
    exact decode_iff.mp (decode_encode _)
  · have := readElement_encode c.wire hfit []
    rwa [List.append_nil] at this

/-- **C133** Different certificates have different texts. -/
theorem C133_distinct (c c' : Cert) (hdec : C.decodeCert c.wire = some c) (hdec' : C.decodeCert c'.wire = some c') (hfit : c.wire.Fits) (hfit' : c'.wire.Fits)
    (h : withoutBlanks (saveCertText c) = withoutBlanks (saveCertText c')) : c = c' := by
  have h1 := C133_survives c hdec hfit (saveCertText c') h.symm
  have h2 := C133_survives c' hdec' hfit' (saveCertText c') rfl
  rw [h1] at h2
  injection h2

theorem saveCertText_ne (c : Cert) : saveCertText c ≠ [] := by
  unfold saveCertText
  have he : c.wire.encode ≠ [] := by
    unfold Block.encode
    intro h
    have := congrArg List.length h
    have hv : 0 < (varNumber c.wire.typ).length := by
      unfold varNumber
      split
      · simp
      · split
        · simp
        · split <;> simp
    simp only [List.length_append, List.length_nil] at this
    omega
  have hb : b64Encode c.wire.encode ≠ [] := by
    intro h
    have := decode_encode c.wire.encode
    rw [h] at this
    injection this with this
    exact he this.symm
  rw [lines_eq]
  simp [hb]

/-- **C133** A profile with any certificate, written to a file and read again, has the same prefix, info, suffix limit and certificate, and the same
validity limit if it fits an `int`; what else was in it is lost (C73). Nothing is assumed of the texts but that those of the profile are UTF-8. -/
theorem C133_profile (p : CaProfile) (hn : ∀ c ∈ p.caPrefix, CompValid c) (hp : p.caPrefix ≠ [])
    (hs : ∀ n, p.maxSuffixLength = some n → n < 2 ^ 64) (hc : ∀ c, p.cert = some c → C.decodeCert c.wire = some c ∧ c.wire.Fits)
    (hi : Utf8 p.caInfo) (hk : ∀ k ∈ p.probeParameterKeys, Utf8 k) (hl : ∀ k ∈ p.supportedChallenges, Utf8 k) :
    ∃ text t, writeJsonText (profileToJson (fileText C) p) = some text ∧ JsonDocument text t ∧
      profileFromJson (fileText C) t = .ok
        { caPrefix := p.caPrefix, forwardingHint := p.caPrefix ++ [gcomp (bytes! "CA")], caInfo := p.caInfo, probeParameterKeys := [],
          maxValidityPeriod := if -2147483648 ≤ p.maxValidityPeriod ∧ p.maxValidityPeriod < 2147483648 then p.maxValidityPeriod else 86400,
          maxSuffixLength := p.maxSuffixLength, supportedChallenges := [], cert := p.cert } := by
  refine C105_profile (loadCertText C) saveCertText p hn hp hs ?_ hi hk hl
  intro c hc'
  obtain ⟨h1, h2⟩ := hc c hc'
  refine ⟨saveCertText_ne c, C133_survives c h1 h2 _ rfl, utf8_ascii ?_⟩
  obtain ⟨full, last, e1, e2, _, _, _⟩ := C133_written c
  rw [e1]
  intro b hb
  simp only [List.mem_flatMap, List.mem_append, List.mem_singleton] at hb
  obtain ⟨l, hl, hb | rfl⟩ := hb
  · exact (base64_plain e2 b (List.mem_flatten.mpr ⟨l, by simpa using hl, hb⟩)).2
  · decide

/-- **C133** Every CA that the client reads from its file has the certificate whose base64 text is in its entry of the file. -/
theorem C133_client_file (file : Bytes) (known : Profiles) (h : loadProfiles (fileText C) file = .ok known) :
    ∃ t list, JsonDocument file t ∧ t.FirstEntry (bytes! "ca-list") list ∧ known.length = list.kids.length ∧
      ∀ x ∈ known.zip list.kids, ∃ c octets b rest, x.1.cert = some c ∧ Base64 False (withoutBlanks (x.2.2.getStr (bytes! "certificate") [])) octets ∧
        readElement octets = .ok (b, rest) ∧ C.decodeCert b = some c := by
  obtain ⟨t, list, h1, h2, h3, h4⟩ := (loadProfiles_document (loadCertText C) saveCertText file known).mp h
  refine ⟨t, list, h1, h2, by simpa using (congrArg List.length h3).symm, ?_⟩
  have main : ∀ (ps : Profiles) (ks : List (Bytes × PTree)), ks.map (fun item => profileFromJson (fileText C) item.2) = ps.map Res.ok → (∀ p ∈ ps, p.cert ≠ none) →
      ∀ x ∈ ps.zip ks, ∃ c octets b rest, x.1.cert = some c ∧ Base64 False (withoutBlanks (x.2.2.getStr (bytes! "certificate") [])) octets ∧
        readElement octets = .ok (b, rest) ∧ C.decodeCert b = some c := by
    intro ps
    induction ps with
    | nil => intro ks _ _ x hx; simp at hx
    | cons p ps ih =>
      intro ks he hc x hx
      cases ks with
      | nil => simp at hx
      | cons k ks =>
        simp only [List.map_cons, List.cons.injEq] at he
        rw [List.zip_cons_cons, List.mem_cons] at hx
        rcases hx with rfl | hx
        · obtain ⟨_, _, _, _, _, _, _, _, h9⟩ := (profileFromJson_ok _ _ _).mp he.1
          have hne := hc p (by simp)
          dsimp only
          have hce : certField (fileText C) k.2 = if k.2.getStr (bytes! "certificate") [] ≠ [] then loadCertText C (k.2.getStr (bytes! "certificate") []) else none := rfl
          cases hpc : p.cert with
          | none => exact absurd hpc hne
          | some c =>
            rw [hce, hpc] at h9
            have h9' : loadCertText C (k.2.getStr (bytes! "certificate") []) = some c := by
              split at h9
              · first | exact h9 | exact h9.symm
              · cases h9
            obtain ⟨o, b, r, g1, g2, g3⟩ := (C133_read _ _).mp h9'
            exact ⟨c, o, b, r, rfl, g1, g2, g3⟩
        · exact ih ks he.2 (fun q hq => hc q (List.mem_cons_of_mem _ hq)) x hx
  exact main known list.kids h3 h4

/-- a certificate with a text of more than one line, and texts with padding -/
example : Fix.C.decodeCert exCert.wire = some exCert ∧ exCert.wire.Fits ∧ 65 < (saveCertText exCert).length ∧
    b64Encode [77, 97, 110, 77] = bytes! "TWFuTQ==" ∧ b64Encode [77, 97, 110, 77, 97] = bytes! "TWFuTWE=" := by
  refine ⟨by decide +kernel, by decide +kernel, by decide +kernel, by decide +kernel, by decide +kernel⟩

/-- the file of a client that knows one CA, with the text of that certificate -/
def exBase64File : Bytes := (writeJsonText (.node [] [(bytes! "ca-list", .node [] [([], .node [] [(bytes! "ca-prefix", .leaf (bytes! "/ndn")), (bytes! "certificate", .leaf (saveCertText exCert))])])])).getD []

example : ∃ p, loadProfiles (fileText Fix.C) exBase64File = .ok [p] ∧ p.cert = some exCert := by
  have h : (match loadProfiles (fileText Fix.C) exBase64File with | .ok [p] => decide (p.cert = some exCert) | _ => false) = true := by decide +kernel
  split at h
  · next p hp => exact ⟨p, hp, by simpa using h⟩
  · cases h

end Ndncert.Props
