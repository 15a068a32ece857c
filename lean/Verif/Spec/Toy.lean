import Verif.Spec.Laws
import Verif.Lemmas.Tlv

/-! # A concrete instance of the cryptographic operations

Used only in examples and witnesses, and to show that the laws assumed by theorems can be met. -/

namespace Ndncert.Toy

def sum (bs : Bytes) : UInt8 := bs.foldl (· + ·) 0

def pad (n : Nat) (bs : Bytes) : Bytes := (bs ++ List.replicate n 0).take n

def periodBytes (v : Time × Time) : Bytes :=
  beBytes 8 (v.1 / nsPerSec).toNat ++ beBytes 8 (v.2 / nsPerSec).toNat

def periodOf (bs : Bytes) : Time × Time :=
  ((beVal (bs.take 8) : Int) * nsPerSec, (beVal (bs.drop 8) : Int) * nsPerSec)

/-- wire form of a certificate: name, content, key locator, validity, signature (the signer's public key) -/
def wire (name : Name) (content : Option Bytes) (locator : Option Name) (v : Option (Time × Time)) (sig : Bytes) :
    Block :=
  mkBlock T.Data ([nameBlock name]
    ++ (match content with | some c => [binBlock 21 c] | none => [])
    ++ (match locator with | some l => [nestedBlock 28 (nameBlock l)] | none => [])
    ++ (match v with | some v => [binBlock 253 (periodBytes v)] | none => [])
    ++ [binBlock 23 sig])

def find (es : List Block) (t : Nat) : Option Block := es.find? (fun e => e.typ == t)

def okOpt {α : Type} : Res α → Option α
  | .ok a => some a
  | _ => none

def digest (b : Block) : Bytes := pad 32 (sum b.val :: b.val.reverse)

def decodeCert (b : Block) : Option Cert :=
  if b.typ = T.Data then
    match parse b.val with
    | .ok es =>
      match (find es 7).bind (fun nb => okOpt (nameOfBlock nb)) with
      | some n =>
        if isValidCertName n then
          some { wire := b, name := n, content := (find es 21).map (·.val),
                 keyLocator := ((find es 28).bind (fun l => okOpt l.blockFromValue)).bind (fun l => okOpt (nameOfBlock l)),
                 validity := (find es 253).map (fun p => periodOf p.val),
                 digest := digest b }
        else none
      | none => none
    | _ => none
  else none

/-- without the check of the name -/
def decodeData (b : Block) : Option Cert :=
  if b.typ = T.Data then
    match parse b.val with
    | .ok es =>
      match (find es 7).bind (fun nb => okOpt (nameOfBlock nb)) with
      | some n =>
        some { wire := b, name := n, content := (find es 21).map (·.val),
               keyLocator := ((find es 28).bind (fun l => okOpt l.blockFromValue)).bind (fun l => okOpt (nameOfBlock l)),
               validity := (find es 253).map (fun p => periodOf p.val),
               digest := digest b }
      | none => none
    | _ => none
  else none

def sigOf (c : Cert) : Option Bytes :=
  match parse c.wire.val with
  | .ok es => (find es 23).map (·.val)
  | _ => none

def idPub (n : Name) : Bytes := 2 :: (nameBlock n).encode
def keyPub (n : Name) : Option Bytes := some (1 :: (nameBlock n).encode)

def signCert (pub : Bytes) (locator name : Name) (content : Bytes) (v : Time × Time) : Block × Name × Bytes :=
  let w := wire name (some content) (some locator) (some v) pub
  (w, locator, digest w)

def tag (k iv : Bytes) : Bytes := pad 16 (sum k :: iv)

def crypto : Crypto where
  stringName s := some [gcomp s]
  decodeCert := decodeCert
  decodeData := decodeData
  verifyCert c s := s.content.isSome && sigOf c == s.content
  verifyInterest i c := some i.sig == c.content
  verifyData d c := some d.sig == c.content
  hasLocator d := d.sig ≠ [0]
  signData id _ _ := idPub id
  signCert id n c v := signCert (idPub id) (id ++ [keyComponent, gcomp [1]]) n c v
  idPub := idPub
  keyPub := keyPub
  keySignCert k n c v := signCert ((keyPub k).getD []) k n c v
  keySignInterest k _ _ := (keyPub k).getD []
  paramsDigest _ p s := pad 32 (sum p.val :: sum s :: p.val)
  ecdhPub a := 4 :: a
  ecdhDerive a p := match p with
    | 4 :: b => some [sum a + sum b]
    | _ => none
  hmac k d := pad 32 (sum k :: sum d :: d.reverse)
  hkdf s t i := pad 16 (sum s :: sum t :: sum i :: s ++ t ++ i)
  sha256 d := pad 32 (sum d :: d)
  aesEnc k iv _ p := (p, tag k iv)
  aesDec k iv _ c t := if t = tag k iv then some c else none
  loadKey k := k ≠ []
  verifyRaw n s k := s == n ++ k

@[simp] theorem pad_length (n : Nat) (bs : Bytes) : (pad n bs).length = n := by simp [pad]

theorem lawful : crypto.Lawful where
  decode_wire b c h := by
    have h' : decodeCert b = some c := h
    unfold decodeCert at h'
    split at h'
    · rename_i ht
      split at h' <;> try cases h'
      split at h' <;> try cases h'
      split at h' <;> try cases h'
      exact ⟨rfl, ht⟩
    · cases h'
  decode_name b c h := by
    have h' : decodeCert b = some c := h
    unfold decodeCert at h'
    split at h'
    · split at h' <;> try cases h'
      split at h' <;> try cases h'
      split at h' <;> try cases h'
      assumption
    · cases h'
  data_wire b c h := by
    have h' : decodeData b = some c := h
    unfold decodeData at h'
    split at h'
    · rename_i ht
      split at h' <;> try cases h'
      split at h' <;> try cases h'
      exact ⟨rfl, ht⟩
    · cases h'
  data_of_cert b c h := by
    have h' : decodeCert b = some c := h
    show decodeData b = some c
    unfold decodeCert at h'
    unfold decodeData
    split at h'
    · rename_i ht
      rw [if_pos ht]
      split at h' <;> try cases h'
      split at h' <;> try cases h'
      split at h' <;> try cases h'
      rfl
    · cases h'
  hmac_length k d := pad_length _ _
  hkdf_length s t i := pad_length _ _
  sha256_length d := pad_length _ _
  aes_length k iv a p := ⟨rfl, pad_length _ _⟩
  aes_correct k iv a p := by simp [crypto]
  ecdh_agree a b := by simp [crypto, UInt8.add_comm]
  ecdh_total a b := rfl
  ecdh_pub_ne a := by simp [crypto]

theorem wire_parse (n : Name) (c : Bytes) (l : Name) (v : Time × Time) (s : Bytes)
    (h : (wire n (some c) (some l) (some v) s).Fits) :
    parse (wire n (some c) (some l) (some v) s).val = .ok
      [nameBlock n, binBlock 21 c, nestedBlock 28 (nameBlock l), binBlock 253 (periodBytes v), binBlock 23 s] := by
  apply parse_encodeAll
  intro b hb
  have hl := Nat.lt_of_le_of_lt (mem_encodeAll_length hb) h.2.2
  simp at hb
  rcases hb with rfl | rfl | rfl | rfl | rfl <;> refine ⟨?_, ?_, hl⟩ <;> simp

theorem period_roundtrip (v : Time × Time) (h : PeriodFits v) : periodOf (periodBytes v) = v := by
  obtain ⟨a, b, ha, hb, rfl⟩ := h
  have e : nsPerSec = 1000000000 := rfl
  have h1 : ((a : Int) * nsPerSec / nsPerSec).toNat = a := by rw [e]; omega
  have h2 : ((b : Int) * nsPerSec / nsPerSec).toNat = b := by rw [e]; omega
  simp only [periodOf, periodBytes, h1, h2]
  rw [List.take_left' (by simp), List.drop_left' (by simp), beVal_beBytes_of_lt (by omega),
    beVal_beBytes_of_lt (by omega)]

theorem honest : crypto.Honest where
  toLawful := lawful
  interest_verifies k pub n p c hk hc := by
    simp only [crypto, signedInterest] at hk ⊢
    simp [hk, hc]
  cert_verifies k pub n content v c hk hc _ _ hf := by
    have hp := wire_parse n content k v ((keyPub k).getD []) ⟨(by decide : 0 < T.Data), (by decide : T.Data < 2 ^ 32), hf⟩
    have hs : sigOf (keySignedCert crypto k n content v) = some ((keyPub k).getD []) := by
      unfold sigOf
      show (match parse (wire n (some content) (some k) (some v) ((keyPub k).getD [])).val with
        | .ok es => (find es 23).map (fun (b : Block) => b.val)
        | _ => none) = _
      rw [hp]; rfl
    have hk' : keyPub k = some pub := hk
    show (c.content.isSome && sigOf (keySignedCert crypto k n content v) == c.content) = true
    simp [hc, hs, hk']
  cert_decodes k n content v hk hn hv hp hf := by
    have hpar := wire_parse n content k v ((keyPub k).getD []) ⟨(by decide : 0 < T.Data), (by decide : T.Data < 2 ^ 32), hf⟩
    have e1 := nameOfBlock_nameBlock n hn.1
    have e2 := nameOfBlock_nameBlock k hk.1
    have e3 := blockFromValue_nested 28 (nameBlock k) (nameBlock_fits k hk)
    show decodeCert (wire n (some content) (some k) (some v) ((keyPub k).getD [])) = _
    have ht : (wire n (some content) (some k) (some v) ((keyPub k).getD [])).typ = T.Data := rfl
    unfold decodeCert
    rw [if_pos ht, hpar]
    simp [find, okOpt, e1, e2, e3, hv, keySignedCert, crypto, signCert, period_roundtrip v hp]
  issued_decodes ca n content v hk hn hv hp hf := by
    have hpar := wire_parse n content (ca ++ [keyComponent, gcomp [1]]) v (idPub ca) ⟨(by decide : 0 < T.Data), (by decide : T.Data < 2 ^ 32), hf⟩
    have e1 := nameOfBlock_nameBlock n hn.1
    have hk' : NameFits (ca ++ [keyComponent, gcomp [1]]) := hk
    have e2 := nameOfBlock_nameBlock (ca ++ [keyComponent, gcomp [1]]) hk'.1
    have e3 := blockFromValue_nested 28 (nameBlock (ca ++ [keyComponent, gcomp [1]])) (nameBlock_fits _ hk')
    show decodeCert (wire n (some content) (some (ca ++ [keyComponent, gcomp [1]])) (some v) (idPub ca)) = _
    have ht : (wire n (some content) (some (ca ++ [keyComponent, gcomp [1]])) (some v) (idPub ca)).typ = T.Data := rfl
    unfold decodeCert
    rw [if_pos ht, hpar]
    simp [find, okOpt, e1, e2, e3, hv, crypto, signCert, period_roundtrip v hp]
  data_verifies ca n content c hc := by
    simp [crypto, mkData, hc]

end Ndncert.Toy
