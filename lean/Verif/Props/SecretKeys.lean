import Verif.Lemmas.SecretKeys
import Verif.Spec.Run
import Verif.Spec.Toy
import Verif.Props.RequestObject

/-! # Secret keys and what the user types stay inside (C126) -/

namespace Ndncert.Props

variable {C : Crypto} {K : KeyOps} {f : OtherKeys}

/-- C126, requester: whatever calls a program makes on a `Request` object, had the object drawn another private ECDH key (and hence computed another shared secret and
another AES key), every call would have returned the same: the same Interests, the same exceptions. The object would be the same up to these keys. -/
theorem C126_requester (hK : K.Mirror C f) (p : CaProfile) (ty : RequestType) (priv : Bytes) (id : RequestId) {h : List Called} {r : Request}
    (hx : ReqRun C (Request.create p ty priv id) h r) :
    ReqRun (C.keyed K) (Request.create p ty (f.ecdh priv) id) h (r.otherKeys f) := by
  have h0 : Request.create p ty (f.ecdh priv) id = (Request.create p ty priv id).otherKeys f := by
    unfold Request.create Request.otherKeys
    rw [hK.zeros]
  rw [h0]
  clear h0
  induction hx with
  | init => exact .init
  | call c _ wf df ih =>
    have := ReqRun.call c ih wf (by rw [reqCall_keys hK]; exact df)
    rw [reqCall_keys hK] at this
    exact this

/-- C126, a CA that keeps its requests in memory: whatever happens to it, had it drawn other private ECDH keys and other keys for the request ids, it would have sent
the same Data, signed the same certificates, sent the same emails and ended each handler in the same way. The callback gets the AES key of the request. -/
theorem C126_ca_memory (hC : C.Lawful) (hK : K.Mirror C f) {cfg : CaConfig} {h : List (Step Mem)} {s : CaState Mem} (hx : Exec C memStore cfg h s) :
    ∃ h' s', Exec (C.keyed K) memStore cfg h' s' ∧ s'.idKey = f.mac s.idKey ∧ Each (SameButKeys C (C.keyed K) memStore memStore cfg f) h h' := by
  obtain ⟨_, h', hx', he⟩ := hx.keys hK hC (mem_keyBlind f)
  exact ⟨h', _, hx', rfl, he⟩

/-- C126, the same for a CA with the SQLite storage. (The AES keys are in the database file, as they are.) -/
theorem C126_ca_sqlite (hC : C.Lawful) (hK : K.Mirror C f) {cfg : CaConfig} {h : List (Step Db)} {s : CaState Db} (hx : Exec C (sqlStore C) cfg h s) :
    ∃ h' s', Exec (C.keyed K) (sqlStore (C.keyed K)) cfg h' s' ∧ s'.idKey = f.mac s.idKey ∧
      Each (SameButKeys C (C.keyed K) (sqlStore C) (sqlStore (C.keyed K)) cfg f) h h' := by
  obtain ⟨_, h', hx', he⟩ := hx.keys hK hC (sql_keyBlind hK)
  exact ⟨h', _, hx', rfl, he⟩

/-- C126, what the user types: a code, an email address or a proof of the same length leads to the same Interest and the same object, if the encryption
happens to give the same ciphertext and tag for it. (`enc` is any other encryption; one that satisfies the laws of AES-GCM together with the decryption of `C` would
tell the values apart, as it should.) A credential, which is not secret, is left out: it has to be a TLV element. -/
theorem C126_typed (enc : Bytes → Bytes → Bytes → Bytes → Bytes × Bytes) (r : Request) (rnd key v v' : Bytes) (hkey : key ≠ bytes! "issued-cert")
    (hlen : v'.length = v.length)
    (hvalue : ∀ iv before, enc r.aesKey iv r.requestId (before ++ Block.encode ⟨135, v'⟩) = C.aesEnc r.aesKey iv r.requestId (before ++ Block.encode ⟨135, v⟩))
    (hstart : ∀ iv, enc r.aesKey iv r.requestId (Block.encode ⟨161, bytes! "pin"⟩) = C.aesEnc r.aesKey iv r.requestId (Block.encode ⟨161, bytes! "pin"⟩)) :
    genChallengeInterest { C with aesEnc := enc } r [(key, v')] rnd = genChallengeInterest C r [(key, v)] rnd := by
  have hel : (Block.encode ⟨135, v'⟩).length = (Block.encode ⟨135, v⟩).length := by
    simp only [Block.encode, List.length_append, hlen]
  -- the plaintexts
  have hcase : ∀ k st cs, (∃ e, genChallengeTlv k st cs [(key, v')] = .exc e ∧ genChallengeTlv k st cs [(key, v)] = .exc e) ∨
      (k = .pin ∧ genChallengeTlv k st cs [(key, v')] = .ok [⟨161, bytes! "pin"⟩] ∧ genChallengeTlv k st cs [(key, v)] = .ok [⟨161, bytes! "pin"⟩]) ∨
      ∃ pre : List Block, genChallengeTlv k st cs [(key, v')] = .ok (pre ++ [⟨135, v'⟩]) ∧ genChallengeTlv k st cs [(key, v)] = .ok (pre ++ [⟨135, v⟩]) := by
    have hfind : ∀ k' : Bytes, (mmFind [(key, v')] k' = none ∧ mmFind [(key, v)] k' = none) ∨
        (mmFind [(key, v')] k' = some v' ∧ mmFind [(key, v)] k' = some v) := by
      intro k'
      by_cases h : key = k'
      · right; constructor <;> simp [mmFind, h]
      · left; constructor <;> simp [mmFind, h]
    have hcode : ∀ k, (∃ e, genCodeTlv k [(key, v')] = .exc e ∧ genCodeTlv k [(key, v)] = .exc e) ∨
        ∃ pre : List Block, genCodeTlv k [(key, v')] = .ok (pre ++ [⟨135, v'⟩]) ∧ genCodeTlv k [(key, v)] = .ok (pre ++ [⟨135, v⟩]) := by
      intro k
      unfold genCodeTlv
      rw [if_neg (by simp), if_neg (by simp)]
      rcases hfind KEY_CODE with ⟨h1, h2⟩ | ⟨h1, h2⟩
      · left; rw [h1, h2]; exact ⟨_, rfl, rfl⟩
      · right; rw [h1, h2]; exact ⟨[_, _], rfl, rfl⟩
    intro k st cs
    cases k with
    | pin =>
      unfold genChallengeTlv
      dsimp only
      split
      · exact .inr (.inl ⟨rfl, rfl, rfl⟩)
      split
      · exact (hcode _).imp id .inr
      · exact .inl ⟨_, rfl, rfl⟩
    | email =>
      unfold genChallengeTlv
      dsimp only
      split
      · rw [if_neg (by simp), if_neg (by simp)]
        rcases hfind KEY_EMAIL with ⟨h1, h2⟩ | ⟨h1, h2⟩
        · left; rw [h1, h2]; exact ⟨_, rfl, rfl⟩
        · right; right; rw [h1, h2]; exact ⟨[_, _], rfl, rfl⟩
      split
      · exact (hcode _).imp id .inr
      · exact .inl ⟨_, rfl, rfl⟩
    | possession =>
      unfold genChallengeTlv
      dsimp only
      split
      · have : key ≠ KEY_CREDENTIAL := hkey
        rw [if_neg this, if_neg this]
        exact .inl ⟨_, rfl, rfl⟩
      split
      · split
        · exact .inr (.inr ⟨[_], rfl, rfl⟩)
        · exact .inl ⟨_, rfl, rfl⟩
      · exact .inl ⟨_, rfl, rfl⟩
  have henc : ∀ es es' : List Block, (encodeAll es').length = (encodeAll es).length →
      (∀ iv, enc r.aesKey iv r.requestId (encodeAll es') = C.aesEnc r.aesKey iv r.requestId (encodeAll es)) →
      encodeAes { C with aesEnc := enc } T.ApplicationParameters r.aesKey (encodeAll es') r.requestId r.encryptionIv rnd =
        encodeAes C T.ApplicationParameters r.aesKey (encodeAll es) r.requestId r.encryptionIv rnd := by
    intro es es' h1 h2
    unfold encodeAes
    dsimp only
    rw [h1, h2]
  unfold genChallengeInterest
  split
  · rfl
  split
  · rfl
  rename_i k _
  rcases hcase k r.status r.challengeStatus with ⟨e, h1, h2⟩ | ⟨_, h1, h2⟩ | ⟨pre, h1, h2⟩
  · rw [h1, h2]
  · rw [h1, h2]
    dsimp only
    rw [henc [⟨161, bytes! "pin"⟩] [⟨161, bytes! "pin"⟩] rfl (by simpa [encodeAll] using hstart)]
    rfl
  · rw [h1, h2]
    dsimp only
    rw [henc (pre ++ [(⟨135, v⟩ : Block)]) (pre ++ [(⟨135, v'⟩ : Block)])]
    · rfl
    · simp [encodeAll, hel]
    · intro iv
      have := hvalue iv (encodeAll pre)
      simpa [encodeAll] using this

/-! ## The hypotheses are met -/

/-- for any `C`: every key read backwards -/
def exBackwards (C : Crypto) : KeyOps where
  ecdhPub k := C.ecdhPub k.reverse
  ecdhDerive k p := (C.ecdhDerive k.reverse p).map List.reverse
  hmac k d := C.hmac k.reverse d
  hkdf s t i := (C.hkdf s.reverse t i).reverse
  aesEnc k iv a p := C.aesEnc k.reverse iv a p
  aesDec k iv a ct tag := C.aesDec k.reverse iv a ct tag

def exReverse : OtherKeys := ⟨List.reverse, List.reverse, List.reverse, List.reverse⟩

theorem exMirror (C : Crypto) : (exBackwards C).Mirror C exReverse where
  pub k := by simp [exBackwards, exReverse]
  derive k p := by simp [exBackwards, exReverse]
  hkdf s t i := by simp [exBackwards, exReverse]
  enc k iv a p := by simp [exBackwards, exReverse]
  dec k iv a ct tag := by simp [exBackwards, exReverse]
  mac k d := by simp [exBackwards, exReverse]
  size k h := by simpa [exReverse] using h
  zeros := by decide

/-- operations on keys read backwards satisfy the laws if those of `C` do -/
example (hC : C.Lawful) : (C.keyed (exBackwards C)).Lawful where
  decode_wire := hC.decode_wire
  decode_name := hC.decode_name
  data_wire := hC.data_wire
  data_of_cert := hC.data_of_cert
  hmac_length k d := hC.hmac_length _ d
  hkdf_length s t i := by simpa [Crypto.keyed, exBackwards] using hC.hkdf_length _ t i
  sha256_length := hC.sha256_length
  aes_length k iv a p := hC.aes_length _ iv a p
  aes_correct k iv a p := hC.aes_correct _ iv a p
  ecdh_agree a b := by
    show (C.ecdhDerive a.reverse (C.ecdhPub b.reverse)).map _ = (C.ecdhDerive b.reverse (C.ecdhPub a.reverse)).map _
    rw [hC.ecdh_agree]
  ecdh_total a b := by
    have := hC.ecdh_total a.reverse b.reverse
    simpa [Crypto.keyed, exBackwards] using this
  ecdh_pub_ne a := hC.ecdh_pub_ne _

/-- the run of Spec/Run.lean with the pin challenge, to which this applies -/
example : ∃ h' s', Exec (Fix.C.keyed (exBackwards Fix.C)) Fix.S Fix.cfg h' s' ∧
    Each (SameButKeys Fix.C (Fix.C.keyed (exBackwards Fix.C)) Fix.S Fix.S Fix.cfg exReverse) Fix.pinHist h' := by
  obtain ⟨h', s', h1, _, h2⟩ := C126_ca_memory Toy.lawful (exMirror Fix.C) Fix.pinExec
  exact ⟨h', s', h1, h2⟩

/-- a session of a `Request` object: with the key read backwards the same Interests, although the AES key is another -/
example : ReqRun (Fix.C.keyed (exBackwards Fix.C)) (.create Fix.profile .new [2, 1] (List.replicate 8 0)) exObjectCalled
      ((calls Fix.C exObject exObjectCalls).2.otherKeys exReverse) ∧
    ((calls Fix.C exObject exObjectCalls).2.otherKeys exReverse).aesKey ≠ (calls Fix.C exObject exObjectCalls).2.aesKey :=
  ⟨C126_requester (exMirror Fix.C) Fix.profile .new [1, 2] (List.replicate 8 0) exObjectCalls_run, by decide +kernel⟩

/-- an encryption under which a wrong code looks like the right one -/
example : ∃ enc, genChallengeInterest { Fix.C with aesEnc := enc } Fix.req3 [(KEY_CODE, bytes! "000000")] (List.replicate 8 3) =
    genChallengeInterest Fix.C Fix.req3 [(KEY_CODE, bytes! "123456")] (List.replicate 8 3) := by
  refine ⟨fun k iv a p => Fix.C.aesEnc k iv a (if p.drop (p.length - 8) = Block.encode ⟨135, bytes! "000000"⟩ then p.take (p.length - 8) ++
    Block.encode ⟨135, bytes! "123456"⟩ else p), C126_typed _ _ _ _ _ _ (by decide) (by decide) ?_ ?_⟩
  · intro iv before
    have h8 : (Block.encode ⟨135, bytes! "000000"⟩).length = 8 := by decide
    have : (before ++ Block.encode ⟨135, bytes! "000000"⟩).length - 8 = before.length := by rw [List.length_append, h8]; omega
    rw [this, List.drop_left, List.take_left, if_pos rfl]
  · intro iv
    rfl

end Ndncert.Props
