import Verif.Lemmas.ChallengeCases
import Verif.Lemmas.Iv

namespace Ndncert

theorem createChallenge_some {n : Bytes} {k : ChalKind} (h : createChallenge n = some k) : n = k.regName := by
  unfold createChallenge at h
  split at h
  · cases h; assumption
  split at h
  · cases h; assumption
  split at h
  · cases h; assumption
  · cases h

/-- the CHALLENGE Interest names a pending request and verifies under its key -/
structure Verified {σ : Type} (C : Crypto) (S : StoreI σ) (cfg : CaConfig) (st : σ) (i : Interest) (env : Env)
    (r : RequestState) : Prop where
  found : getCertificateRequest S cfg st i env = .ok (some r)
  sig : C.verifyInterest i r.cert = true

/-- its parameters were decrypted (leaving the decryption IV `div`) to the elements `es`, which select challenge `k` -/
def Opened (C : Crypto) (i : Interest) (r : RequestState) (div : Bytes) (es : List Block) (k : ChalKind) : Prop :=
  ∃ pt sel, decodeAes C (i.params.getD ⟨0, []⟩) r.encryptionKey r.requestId r.decryptionIv r.encryptionIv = (div, .ok pt) ∧
    pt ≠ [] ∧ parse pt = .ok es ∧ getElem es T.SelectedChallenge = .ok sel ∧ sel.val = k.regName

theorem decodeAes_decrypts {C : Crypto} {i : Interest} {r : RequestState} {div pt : Bytes}
    (h : decodeAes C (i.params.getD ⟨0, []⟩) r.encryptionKey r.requestId r.decryptionIv r.encryptionIv = (div, .ok pt)) :
    Decrypts C i r pt := by
  obtain ⟨es, ct, iv, tag, h1, h2, h3, h4, _, _, _, _, h9, _⟩ := decodeAes_ok h
  cases hp : i.params with
  | none =>
    rw [hp] at h1
    have : parse [] = .ok [] := by decide
    simp only [Option.getD_none] at h1
    rw [this] at h1
    cases h1
    cases h2
  | some b =>
    rw [hp] at h1
    exact ⟨b, es, ct, iv, tag, hp, h1, h2, h3, h4, h9⟩

theorem Opened.selects {C : Crypto} {i : Interest} {r : RequestState} {div : Bytes} {es : List Block} {k : ChalKind}
    (h : Opened C i r div es k) : Selects C i r es k := by
  obtain ⟨pt, sel, h1, h2, h3, h4, h5⟩ := h
  exact ⟨pt, sel, decodeAes_decrypts h1, h2, h3, h4, h5⟩

/-- how the CHALLENGE handler can end -/
inductive ChalCase {σ : Type} (C : Crypto) (S : StoreI σ) (cfg : CaConfig) (st : σ) (i : Interest) (env : Env) :
    Outcome → Prop where
  | undefined (u : Ub) (h : getCertificateRequest S cfg st i env = .ub u) : ChalCase C S cfg st i env ⟨[], .undefined u⟩
  | noRequest (info : Bytes) (h : getCertificateRequest S cfg st i env = .ok none) : ChalCase C S cfg st i env
      ⟨[.put (errorData C cfg.profile.caPrefix i.name ErrorCode.INVALID_PARAMETER info)], .done⟩
  | badSig (r : RequestState) (info : Bytes) (h : getCertificateRequest S cfg st i env = .ok (some r))
      (hv : C.verifyInterest i r.cert = false) : ChalCase C S cfg st i env
      ⟨[.put (errorData C cfg.profile.caPrefix i.name ErrorCode.BAD_SIGNATURE info)], .done⟩
  | reject (r : RequestState) (code : ErrorCode) (info : Bytes) (hv : Verified C S cfg st i env r) (hcode : code ≠ 0) :
      ChalCase C S cfg st i env
        ⟨[.dbDelete r.requestId, .put (errorData C cfg.profile.caPrefix i.name code info)], .done⟩
  | early (r : RequestState) (t : Term) (hv : Verified C S cfg st i env r) (ht : t ≠ .done) :
      ChalCase C S cfg st i env ⟨[], t⟩
  | continued (r : RequestState) (div : Bytes) (es : List Block) (k : ChalKind) (out : ChalOut) (r2 : RequestState)
      (payload : Block) (hv : Verified C S cfg st i env r) (ho : Opened C i r div es k)
      (hm : ModCase C k env es { r with decryptionIv := div } out) (hst : out.req.status = .challenge)
      (henc : challengeEncode C out.req [] [] env.ivRnd = (r2, .ok payload)) :
      ChalCase C S cfg st i env ⟨out.mails.map .mail ++
        [.dbUpdate r2, .put (mkData C cfg.profile.caPrefix i.name payload), .callback r2], .done⟩
  | contThrew (r : RequestState) (div : Bytes) (es : List Block) (k : ChalKind) (out : ChalOut) (t : Term)
      (hv : Verified C S cfg st i env r) (ho : Opened C i r div es k)
      (hm : ModCase C k env es { r with decryptionIv := div } out) (hst : out.req.status = .challenge)
      (ht : t ≠ .done) : ChalCase C S cfg st i env ⟨out.mails.map .mail, t⟩
  | issued (r : RequestState) (div : Bytes) (es : List Block) (k : ChalKind) (out : ChalOut) (c : Cert)
      (r2 : RequestState) (payload : Block) (hv : Verified C S cfg st i env r) (ho : Opened C i r div es k)
      (hm : ModCase C k env es { r with decryptionIv := div } out) (hst : out.req.status = .pending)
      (hty : r.requestType = .new ∨ r.requestType = .renew) (hiss : issueCertificate C cfg env out.req = .ok c)
      (henc : challengeEncode C { out.req with cert := c, status := .success } c.name cfg.profile.forwardingHint env.ivRnd =
        (r2, .ok payload)) :
      ChalCase C S cfg st i env ⟨[.issue c, .dbDelete r.requestId,
        .put (mkData C cfg.profile.caPrefix i.name payload), .callback r2], .done⟩
  | issueThrew (r : RequestState) (div : Bytes) (es : List Block) (k : ChalKind) (out : ChalOut) (c : Cert) (t : Term)
      (hv : Verified C S cfg st i env r) (ho : Opened C i r div es k)
      (hm : ModCase C k env es { r with decryptionIv := div } out) (hst : out.req.status = .pending)
      (hty : r.requestType = .new ∨ r.requestType = .renew) (hiss : issueCertificate C cfg env out.req = .ok c)
      (ht : t ≠ .done) : ChalCase C S cfg st i env ⟨[.issue c, .dbDelete r.requestId], t⟩
  | revoked (r : RequestState) (div : Bytes) (es : List Block) (k : ChalKind) (out : ChalOut)
      (r2 : RequestState) (payload : Block) (hv : Verified C S cfg st i env r) (ho : Opened C i r div es k)
      (hm : ModCase C k env es { r with decryptionIv := div } out) (hst : out.req.status = .pending)
      (hty : r.requestType = .revoke)
      (henc : challengeEncode C { out.req with status := .success } [] [] env.ivRnd = (r2, .ok payload)) :
      ChalCase C S cfg st i env ⟨[.dbDelete r.requestId,
        .put (mkData C cfg.profile.caPrefix i.name payload), .callback r2], .done⟩
  | revokeThrew (r : RequestState) (div : Bytes) (es : List Block) (k : ChalKind) (out : ChalOut) (t : Term)
      (hv : Verified C S cfg st i env r) (ho : Opened C i r div es k)
      (hm : ModCase C k env es { r with decryptionIv := div } out) (hst : out.req.status = .pending)
      (hty : r.requestType = .revoke) (ht : t ≠ .done) : ChalCase C S cfg st i env ⟨[.dbDelete r.requestId], t⟩

theorem memcpyInto_no_exc (a b : Bytes) (e : Exc) : memcpyInto a b ≠ .exc e := by
  unfold memcpyInto; split <;> simp

theorem getCertificateRequest_no_exc {σ : Type} (S : StoreI σ) (cfg : CaConfig) (st : σ) (i : Interest) (env : Env)
    (e : Exc) : getCertificateRequest S cfg st i env ≠ .exc e := by
  unfold getCertificateRequest
  split
  · simp
  · split
    · simp
    · rename_i h; exact absurd h (memcpyInto_no_exc _ _ _)
    · split <;> simp

theorem abort_eq {α : Type} (pre : List Effect) {x : Res α} (h : ∀ a, x ≠ .ok a) : ∃ t, t ≠ .done ∧ abort pre x = ⟨pre, t⟩ := by
  cases x with
  | ok a => exact absurd rfl (h a)
  | exc e => exact ⟨.threw e, by simp, rfl⟩
  | ub u => exact ⟨.undefined u, by simp, rfl⟩

theorem ModCase.fixed {C : Crypto} {k : ChalKind} {env : Env} {es : List Block} {r : RequestState} {out : ChalOut}
    (h : ModCase C k env es r out) :
    (out.code ≠ 0 ∧ out.mails = [] ∧ out.req.requestId = r.requestId) ∨
    (out.code = 0 ∧ out.req.requestId = r.requestId ∧ out.req.requestType = r.requestType ∧
      (out.req.status = .challenge ∨ (out.req.status = .pending ∧ out.mails = []))) := by
  cases h with
  | error code info hcode => exact .inl ⟨hcode, rfl, rfl⟩
  | start cstat secrets mails hs hst => exact .inr ⟨rfl, rfl, rfl, .inl rfl⟩
  | wrong cs code given hs hk ha hg hne ht htr time => exact .inr ⟨rfl, rfl, rfl, .inl rfl⟩
  | code cs code hs hk ha hg ht => exact .inr ⟨rfl, rfl, rfl, .inr ⟨rfl, rfl⟩⟩
  | proof cs cred nonce p hs hk ha hg hl hv => exact .inr ⟨rfl, rfl, rfl, .inr ⟨rfl, rfl⟩⟩

theorem onChallenge_cases {σ : Type} (C : Crypto) (S : StoreI σ) (cfg : CaConfig) (st : σ) (i : Interest) (env : Env) :
    ChalCase C S cfg st i env (onChallenge C S cfg st i env) := by
  unfold onChallenge
  cases hg : getCertificateRequest S cfg st i env with
  | exc e => exact absurd hg (getCertificateRequest_no_exc S cfg st i env e)
  | ub u => exact .undefined u hg
  | ok o =>
    cases o with
    | none => exact .noRequest _ hg
    | some r =>
      dsimp only
      split
      · rename_i hv; exact .badSig r _ hg hv
      rename_i hv
      have hver : Verified C S cfg st i env r := ⟨hg, by simpa using hv⟩
      have rej : ∀ code info, code ≠ 0 → ChalCase C S cfg st i env (replyError C cfg i [.dbDelete r.requestId] code info) :=
        fun code info h => .reject r code info hver h
      rcases hd : decodeAes C (i.params.getD ⟨0, []⟩) r.encryptionKey r.requestId r.decryptionIv r.encryptionIv with ⟨div, res⟩
      dsimp only
      cases res with
      | exc e => exact rej _ _ (by decide)
      | ub u => exact .early r _ hver (by simp)
      | ok pt =>
        dsimp only
        unfold processParams
        split
        · exact rej _ _ (by decide)
        rename_i hpt
        cases hp : parse pt with
        | exc e => exact .early r (.threw e) hver (by simp)
        | ub u => exact .early r (.undefined u) hver (by simp)
        | ok es =>
          dsimp only
          cases hsel : getElem es T.SelectedChallenge with
          | exc e => exact .early r (.threw e) hver (by simp)
          | ub u => exact .early r (.undefined u) hver (by simp)
          | ok sel =>
            dsimp only
            cases hk : createChallenge (readString sel) with
            | none => exact rej _ _ (by decide)
            | some k =>
              have ho : Opened C i r div es k := ⟨pt, sel, hd, hpt, hp, hsel, createChallenge_some hk⟩
              dsimp only
              cases hh : handleChallenge C k env es { r with decryptionIv := div } with
              | exc e => exact .early r (.threw e) hver (by simp)
              | ub u => exact .early r (.undefined u) hver (by simp)
              | ok out =>
                have hm := handleChallenge_cases C hh
                dsimp only
                rcases hm.fixed with ⟨h1, h2, h3⟩ | ⟨h1, h2, h3, h4⟩
                · rw [if_pos h1, h2, h3]
                  exact .reject r _ _ hver h1
                · rw [if_neg (by simp [h1])]
                  unfold finishChallenge
                  rcases h4 with h4 | ⟨h4, h5⟩
                  · rw [if_neg (by rw [h4]; simp)]
                    rcases he : challengeEncode C out.req [] [] env.ivRnd with ⟨r2, res⟩
                    cases res with
                    | ok payload =>
                      dsimp only
                      have := ChalCase.continued r div es k out r2 payload hver ho hm h4 he
                      simpa [sendChallengeReply] using this
                    | exc e => exact .contThrew r div es k out (.threw e) hver ho hm h4 (by simp)
                    | ub u => exact .contThrew r div es k out (.undefined u) hver ho hm h4 (by simp)
                  · rw [if_pos h4, h5]
                    have h2' : r.requestId = out.req.requestId := h2.symm
                    have h3' : r.requestType = out.req.requestType := h3.symm
                    split
                    · rename_i hty
                      have hty' : r.requestType = .new ∨ r.requestType = .renew := by rw [h3']; exact hty
                      cases hiss : issueCertificate C cfg env out.req with
                      | exc e => exact .early r (.threw e) hver (by simp)
                      | ub u => exact .early r (.undefined u) hver (by simp)
                      | ok c =>
                        dsimp only
                        rcases he : challengeEncode C { out.req with cert := c, status := .success } c.name
                          cfg.profile.forwardingHint env.ivRnd with ⟨r2, res⟩
                        cases res with
                        | ok payload =>
                          have := ChalCase.issued r div es k out c r2 payload hver ho hm h4 hty' hiss he
                          rw [h2'] at this
                          exact this
                        | exc e =>
                          have := ChalCase.issueThrew r div es k out c (.threw e) hver ho hm h4 hty' hiss (by simp)
                          rw [h2'] at this
                          exact this
                        | ub u =>
                          have := ChalCase.issueThrew r div es k out c (.undefined u) hver ho hm h4 hty' hiss (by simp)
                          rw [h2'] at this
                          exact this
                    · split
                      · rename_i hty
                        have hty' : r.requestType = .revoke := by rw [h3']; exact hty
                        dsimp only
                        rcases he : challengeEncode C { out.req with status := .success } [] [] env.ivRnd with ⟨r2, res⟩
                        cases res with
                        | ok payload =>
                          have := ChalCase.revoked r div es k out r2 payload hver ho hm h4 hty' he
                          rw [h2'] at this
                          exact this
                        | exc e =>
                          have := ChalCase.revokeThrew r div es k out (.threw e) hver ho hm h4 hty' (by simp)
                          rw [h2'] at this
                          exact this
                        | ub u =>
                          have := ChalCase.revokeThrew r div es k out (.undefined u) hver ho hm h4 hty' (by simp)
                          rw [h2'] at this
                          exact this
                      · exact .early r (.threw .runtime) hver (by simp)

end Ndncert
