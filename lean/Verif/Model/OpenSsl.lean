import Verif.Model.Crypto

/-! # The wrappers around OpenSSL (src/detail/crypto-helpers.cpp:43-363)

OpenSSL itself is not modelled: `Prims` are the mathematical operations, and each call of the wrappers may fail, as told by a `Call`.
What a call does to its context, and which value it returns, is what the manual pages of OpenSSL 1.1.1 say, with these
additions from its source: a failing call leaves its context and its output buffer as they were; `EVP_PKEY_derive` returns -2
for a null context, -1 for one that was not initialised, and 0 if a key is missing or the result is the point at infinity;
the IV length of GCM is 12 unless set; `EVP_CTRL_GCM_GET_TAG` fails before `EVP_EncryptFinal_ex` has been called. -/

namespace Ndncert.OpenSsl

/-- what happens in one call of OpenSSL besides its regular effect -/
structure Call where
  /-- it fails -/
  fails : Bool := false
  /-- the value returned then, if it may be another one than zero -/
  code : Int := 0
  /-- what is in the length argument then -/
  left : Nat := 0
  deriving DecidableEq, Repr

/-- a call that does what it should -/
def Call.good : Call := {}

/-- the mathematics behind OpenSSL -/
structure Prims where
  /-- AES-128 in counter mode, as used by GCM: key, IV, text -/
  stream : Bytes → Bytes → Bytes → Bytes
  /-- the tag of GCM: key, IV, associated data, ciphertext -/
  mac : Bytes → Bytes → Bytes → Bytes → Bytes
  /-- HMAC with SHA-256: key, data -/
  hmac : Bytes → Bytes → Bytes
  /-- HKDF with SHA-256: salt (none is a string of zeros), secret, info, length -/
  hkdf : Option Bytes → Bytes → Bytes → Nat → Bytes
  /-- points of the curve prime256v1, other than that at infinity -/
  Point : Type
  /-- the public key of a private key -/
  pubOf : Bytes → Point
  /-- uncompressed form of a point, and its inverse -/
  toOctets : Point → Bytes
  ofOctets : Bytes → Option Point
  /-- the first coordinate of private key times point, as octets -/
  mul : Bytes → Point → Bytes

/-- `EVP_CIPHER_CTX` for AES-128-GCM -/
structure CipherCtx where
  cipher : Bool := false
  ivLen : Nat := 12
  keyIv : Option (Bytes × Bytes) := none
  aad : Bytes := []
  /-- ciphertext processed -/
  text : Bytes := []
  tag : Option Bytes := none
  deriving DecidableEq, Repr

/-- `EVP_EncryptInit_ex(ctx, EVP_aes_128_gcm(), nullptr, nullptr, nullptr)`, and the same for decryption -/
def CipherCtx.init (c : CipherCtx) (f : Call) : CipherCtx := if f.fails then c else { c with cipher := true }
/-- `EVP_CIPHER_CTX_ctrl(ctx, EVP_CTRL_GCM_SET_IVLEN, n, nullptr)` -/
def CipherCtx.setIvLen (c : CipherCtx) (f : Call) (n : Nat) : CipherCtx := if f.fails ∨ c.cipher = false then c else { c with ivLen := n }
/-- `EVP_EncryptInit_ex(ctx, nullptr, nullptr, key, iv)` -/
def CipherCtx.setKey (c : CipherCtx) (f : Call) (key iv : Bytes) : CipherCtx :=
  if f.fails ∨ c.cipher = false then c else { c with keyIv := some (key.take 16, iv.take c.ivLen) }
/-- `EVP_EncryptUpdate(ctx, nullptr, &len, associated, associatedLen)`: the context and `len` -/
def CipherCtx.updateAad (c : CipherCtx) (f : Call) (aad : Bytes) : CipherCtx × Nat :=
  if f.fails ∨ c.keyIv = none then (c, f.left) else ({ c with aad := c.aad ++ aad }, aad.length)
/-- `EVP_EncryptUpdate(ctx, out, &len, in, inLen)`: the context, the buffer `out` and `len` -/
def CipherCtx.encrypt (P : Prims) (c : CipherCtx) (f : Call) (text buf : Bytes) : CipherCtx × Bytes × Nat :=
  match f.fails, c.keyIv with
  | false, some (key, iv) => ({ c with text := P.stream key iv text }, P.stream key iv text, text.length)
  | _, _ => (c, buf, f.left)
/-- `EVP_DecryptUpdate(ctx, out, &len, in, inLen)` -/
def CipherCtx.decrypt (P : Prims) (c : CipherCtx) (f : Call) (text buf : Bytes) : CipherCtx × Bytes × Nat :=
  match f.fails, c.keyIv with
  | false, some (key, iv) => ({ c with text := text }, P.stream key iv text, text.length)
  | _, _ => (c, buf, f.left)
/-- `EVP_EncryptFinal_ex`: the context and `len`; GCM adds no text -/
def CipherCtx.encryptFinal (P : Prims) (c : CipherCtx) (f : Call) : CipherCtx × Nat :=
  match f.fails, c.keyIv with
  | false, some (key, iv) => ({ c with tag := some (P.mac key iv c.aad c.text) }, 0)
  | _, _ => (c, f.left)
/-- `EVP_CIPHER_CTX_ctrl(ctx, EVP_CTRL_GCM_GET_TAG, 16, tag)`: the value returned, and the tag -/
def CipherCtx.getTag (c : CipherCtx) (f : Call) (buf : Bytes) : Int × Bytes :=
  match f.fails, c.tag with
  | false, some t => (1, t)
  | _, _ => (0, buf)
/-- `EVP_CIPHER_CTX_ctrl(ctx, EVP_CTRL_GCM_SET_TAG, 16, tag)` -/
def CipherCtx.setTag (c : CipherCtx) (f : Call) (tag : Bytes) : CipherCtx :=
  if f.fails ∨ c.cipher = false then c else { c with tag := some (tag.take 16) }
/-- `EVP_DecryptFinal_ex`: the value returned, and `len` -/
def CipherCtx.decryptFinal (P : Prims) (c : CipherCtx) (f : Call) : Int × Nat :=
  match f.fails, c.keyIv, c.tag with
  | false, some (key, iv), some t => if t = P.mac key iv c.aad c.text then (1, 0) else (0, 0)
  | _, _, _ => (0, f.left)

/-- the calls of an encryption or decryption -/
structure CipherCalls where
  new : Call := .good
  init : Call := .good
  ivLen : Call := .good
  key : Call := .good
  aad : Call := .good
  text : Call := .good
  final : Call := .good
  tag : Call := .good
  deriving DecidableEq, Repr

/-- `aesGcm128Encrypt` (crypto-helpers.cpp:256-279): the length returned, the buffers `ciphertext` and `tag`. A null context is
dereferenced by the first call. -/
def aesGcm128Encrypt (P : Prims) (f : CipherCalls) (plaintext aad key iv buf tagBuf : Bytes) : Res (Nat × Bytes × Bytes) :=
  if f.new.fails then .ub .nullDeref
  else
    let c : CipherCtx := {}
    let c := c.init f.init
    let c := c.setIvLen f.ivLen 12
    let c := c.setKey f.key key iv
    let (c, _) := c.updateAad f.aad aad
    let (c, out, len) := c.encrypt P f.text plaintext buf
    let (c, _) := c.encryptFinal P f.final
    let (code, tag) := c.getTag f.tag tagBuf
    if code = 0 then .exc .runtime else .ok (len, out, tag)

/-- `aesGcm128Decrypt` (crypto-helpers.cpp:319-341): the length returned and the buffer `plaintext`. -/
def aesGcm128Decrypt (P : Prims) (f : CipherCalls) (ciphertext aad tag key iv buf : Bytes) : Res (Nat × Bytes) :=
  if f.new.fails then .ub .nullDeref
  else
    let c : CipherCtx := {}
    let c := c.init f.init
    let c := c.setIvLen f.ivLen 12
    let c := c.setKey f.key key iv
    let (c, _) := c.updateAad f.aad aad
    let (c, out, len) := c.decrypt P f.text ciphertext buf
    let c := c.setTag f.tag tag
    let (code, len2) := c.decryptFinal P f.final
    if code = 0 then .exc .runtime else .ok (len + len2, out)

/-- `hmacSha256` (crypto-helpers.cpp:200-209): the buffer `result` -/
def hmacSha256 (P : Prims) (f : Call) (data key : Bytes) : Res Bytes := if f.fails then .exc .runtime else .ok (P.hmac key data)

/-- `EVP_PKEY_CTX` for HKDF -/
structure KdfCtx where
  init : Bool := false
  md : Bool := false
  salt : Option Bytes := none
  key : Option Bytes := none
  info : Bytes := []
  deriving DecidableEq, Repr

/-- the calls of `hkdf` -/
structure KdfCalls where
  new : Call := .good
  init : Call := .good
  md : Call := .good
  salt : Call := .good
  key : Call := .good
  info : Call := .good
  derive : Call := .good
  deriving DecidableEq, Repr

/-- one of the settings of HKDF; they fail on a context that is not initialised -/
def KdfCtx.set (c : Option KdfCtx) (f : Call) (g : KdfCtx → KdfCtx) : Option KdfCtx :=
  c.map (fun c => if f.fails ∨ c.init = false then c else g c)

/-- `EVP_PKEY_derive(pctx, output, &outLen)` for HKDF: the value returned and the buffer `output` -/
def KdfCtx.derive (P : Prims) (c : Option KdfCtx) (f : Call) (buf : Bytes) : Int × Bytes :=
  match c with
  | none => (-2, buf)
  | some c =>
    if c.init = false then (-1, buf)
    else if f.fails then (f.code, buf)
    else match c.md, c.key with
      | true, some k => (1, P.hkdf c.salt k c.info buf.length)
      | _, _ => (0, buf)

/-- `hkdf` (crypto-helpers.cpp:211-230): the buffer `output`. The length returned is that of the buffer, also if the last call fails
with a negative value. -/
def hkdf (P : Prims) (f : KdfCalls) (secret salt info buf : Bytes) : Res Bytes :=
  let c : Option KdfCtx := if f.new.fails then none else some {}
  let c := c.map (fun c => if f.init.fails then c else { c with init := true })
  let c := KdfCtx.set c f.md (fun c => { c with md := true })
  let c := KdfCtx.set c f.salt (fun c => { c with salt := some salt })
  let c := KdfCtx.set c f.key (fun c => { c with key := some secret })
  let c := KdfCtx.set c f.info (fun c => { c with info := c.info ++ info })
  let (code, out) := KdfCtx.derive P c f.derive buf
  if code = 0 then .exc .runtime else .ok out

/-- the calls of the constructor of `ECDHState` -/
structure KeygenCalls where
  paramCtx : Call := .good
  paramInit : Call := .good
  curve : Call := .good
  params : Call := .good
  keyCtx : Call := .good
  keyInit : Call := .good
  keygen : Call := .good
  deriving DecidableEq, Repr

/-- `ECDHState::ECDHState` (crypto-helpers.cpp:43-64): the private key, drawn at random. Each step fails if the one before it failed, with a
negative value; the curve is part of the parameters. -/
def ecdhState (f : KeygenCalls) (priv : Bytes) : Res Bytes :=
  let params := !(f.paramCtx.fails || f.paramInit.fails || f.curve.fails || f.params.fails)
  let keyCtx := params && !f.keyCtx.fails
  let keyInit := keyCtx && !f.keyInit.fails
  let code : Int := if keyInit then (if f.keygen.fails then f.keygen.code else 1) else -2
  if code ≤ 0 then .exc .runtime else .ok priv

/-- `ECDHState::getSelfPubKey` (crypto-helpers.cpp:73-88): `get1` fails with a null pointer, which is dereferenced; the first
`EC_POINT_point2oct` tells the length, the second writes. For an empty buffer the second one tells the length again. -/
def getSelfPubKey (P : Prims) (get1 size write : Call) (priv : Bytes) : Res Bytes :=
  if get1.fails then .ub .nullDeref
  else
    let bytes := P.toOctets (P.pubOf priv)
    let n := if size.fails then 0 else bytes.length
    if write.fails then .exc .runtime
    else if n = 0 then (if bytes.length = 0 then .exc .runtime else .ok [])
    else .ok bytes

/-- the calls of `deriveSecret` -/
structure DeriveCalls where
  get1 : Call := .good
  pointNew : Call := .good
  oct2point : Call := .good
  keyNew : Call := .good
  setGroup : Call := .good
  setPublic : Call := .good
  pkeyNew : Call := .good
  set1 : Call := .good
  ctxNew : Call := .good
  init : Call := .good
  setPeer : Call := .good
  size : Call := .good
  derive : Call := .good
  deriving DecidableEq, Repr

/-- the peer's key in the derivation context: none, or a point, which may be that at infinity (`none`) -/
abbrev Peer (P : Prims) := Option (Option P.Point)

/-- `EVP_PKEY_derive(ctx, nullptr, &secretLen)` with `secretLen` being 0: what is in `secretLen` afterwards; 32 octets is the size of the field -/
def deriveSize {P : Prims} (f : DeriveCalls) (peer : Peer P) : Nat :=
  if f.ctxNew.fails ∨ f.init.fails then 0
  else if f.size.fails then f.size.left
  else if peer.isNone then 0
  else 32

/-- `EVP_PKEY_derive(ctx, m_secret.data(), &secretLen)` with a buffer of that length: the value returned and the buffer. An empty
buffer is a null pointer, which asks for the length only; one that is too small is an error. -/
def deriveCode {P : Prims} (f : DeriveCalls) (priv : Bytes) (peer : Peer P) (n : Nat) : Int × Bytes :=
  let buf := List.replicate n (0 : UInt8)
  if f.ctxNew.fails then (-2, buf)
  else if f.init.fails then (-1, buf)
  else if f.derive.fails then (f.derive.code, buf)
  else match peer with
    | none => (0, buf)
    | some q =>
      if n = 0 then (1, buf)
      else match q with
        | none => (0, buf)
        | some q => if n < (P.mul priv q).length then (0, buf) else (1, P.mul priv q ++ buf.drop (P.mul priv q).length)

/-- `ECDHState::deriveSecret` (crypto-helpers.cpp:90-123) on a fresh `ECDHState`. A point that cannot be decoded stays that at
infinity. Null pointers from `EVP_PKEY_get1_EC_KEY`, `EC_POINT_new`, `EC_KEY_new` and `EVP_PKEY_new` are dereferenced. -/
def deriveSecret (P : Prims) (f : DeriveCalls) (priv peerKey : Bytes) : Res Bytes :=
  if f.get1.fails ∨ f.pointNew.fails ∨ f.keyNew.fails ∨ f.pkeyNew.fails then .ub .nullDeref
  else
    let point : Option P.Point := if f.oct2point.fails then none else P.ofOctets peerKey
    let peer : Peer P := if f.setGroup.fails ∨ f.setPublic.fails ∨ f.set1.fails ∨ f.ctxNew.fails ∨ f.init.fails ∨ f.setPeer.fails then none else some point
    let n := deriveSize f peer
    let (code, secret) := deriveCode f priv peer n
    if code = 0 then .exc .runtime else .ok secret

end Ndncert.OpenSsl
