import Verif.Lemmas.Opens

namespace Ndncert

variable {σ : Type} {C : Crypto} {S : StoreI σ} {Inv : σ → Prop} {cfg : CaConfig}

theorem Selects.unique {i : Interest} {r : RequestState} {es es' : List Block} {k k' : ChalKind} (h : Selects C i r es k)
    (h' : Selects C i r es' k') : es = es' ∧ k = k' := by
  obtain ⟨pt, sel, h1, h2, h3, h4, h5⟩ := h
  obtain ⟨pt', sel', g1, g2, g3, g4, g5⟩ := h'
  obtain rfl := h1.unique g1
  rw [h3] at g3; cases g3
  rw [h4] at g4; cases g4
  refine ⟨rfl, ?_⟩
  have e : createChallenge k.regName = createChallenge k'.regName := by rw [← h5, g5]
  rw [createChallenge_regName, createChallenge_regName] at e
  cases e; rfl

/-- what the handler did if it sent a reply that is not an error -/
inductive Answer (C : Crypto) (cfg : CaConfig) (i : Interest) (env : Env) (r : RequestState) (out : ChalOut) (d : Data) : List Effect → Prop where
  | continued (r2 : RequestState) (payload : Block) (hst : out.req.status = .challenge)
      (henc : challengeEncode C out.req [] [] env.ivRnd = (r2, .ok payload)) (hd : d = mkData C cfg.profile.caPrefix i.name payload) :
      Answer C cfg i env r out d (out.mails.map .mail ++ [.dbUpdate r2, .put d, .callback r2])
  | issued (c : Cert) (r2 : RequestState) (payload : Block) (hst : out.req.status = .pending)
      (hty : r.requestType = .new ∨ r.requestType = .renew) (hiss : issueCertificate C cfg env out.req = .ok c)
      (henc : challengeEncode C { out.req with cert := c, status := .success } c.name cfg.profile.forwardingHint env.ivRnd =
        (r2, .ok payload)) (hd : d = mkData C cfg.profile.caPrefix i.name payload) :
      Answer C cfg i env r out d [.issue c, .dbDelete r.requestId, .put d, .callback r2]
  | revoked (r2 : RequestState) (payload : Block) (hst : out.req.status = .pending) (hty : r.requestType = .revoke)
      (henc : challengeEncode C { out.req with status := .success } [] [] env.ivRnd = (r2, .ok payload))
      (hd : d = mkData C cfg.profile.caPrefix i.name payload) :
      Answer C cfg i env r out d [.dbDelete r.requestId, .put d, .callback r2]

theorem answer_module {st : σ} {i : Interest} {env : Env} {r : RequestState} {d : Data} (hv : Verified C S cfg st i env r)
    (hd : d ∈ sent (onChallenge C S cfg st i env).effects) (hne : ¬ ∃ code, IsErrorReply C cfg i code d) :
    ∃ div es k out, Opened C i r div es k ∧ ModCase C k env es { r with decryptionIv := div } out ∧
      Answer C cfg i env r out d (onChallenge C S cfg st i env).effects := by
  have hc := onChallenge_cases C S cfg st i env
  have hsame : ∀ {r'}, Verified C S cfg st i env r' → r' = r := by
    intro r' h
    have h1 := h.found
    rw [hv.found] at h1
    cases h1; rfl
  generalize onChallenge C S cfg st i env = o at hd hc
  cases hc with
  | undefined u _ => cases hd
  | noRequest info h => rw [hv.found] at h; cases h
  | badSig r' info h h' =>
    have h1 := hv.sig
    rw [hv.found] at h; cases h
    rw [h1] at h'; cases h'
  | reject r' code info hv' hcode =>
    simp only [sent, List.mem_singleton] at hd
    exact absurd ⟨code, hcode, info, hd⟩ hne
  | early r' t _ _ => cases hd
  | continued r' div es k out r2 payload hv' ho hmc hst henc =>
    obtain rfl := hsame hv'
    rw [sent_append, sent_mail] at hd
    simp only [sent, List.nil_append, List.mem_singleton] at hd
    refine ⟨div, es, k, out, ho, hmc, ?_⟩
    rw [← hd]
    exact .continued r2 payload hst henc hd
  | contThrew r' div es k out t hv' ho hmc hst ht => rw [sent_mail] at hd; cases hd
  | issued r' div es k out c r2 payload hv' ho hmc hst hty hiss henc =>
    obtain rfl := hsame hv'
    simp only [sent, List.mem_singleton] at hd
    refine ⟨div, es, k, out, ho, hmc, ?_⟩
    rw [← hd]
    exact .issued c r2 payload hst hty hiss henc hd
  | issueThrew r' div es k out c t hv' ho hmc hst hty hiss ht => cases hd
  | revoked r' div es k out r2 payload hv' ho hmc hst hty henc =>
    obtain rfl := hsame hv'
    simp only [sent, List.mem_singleton] at hd
    refine ⟨div, es, k, out, ho, hmc, ?_⟩
    rw [← hd]
    exact .revoked r2 payload hst hty henc hd
  | revokeThrew r' div es k out t hv' ho hmc hst hty ht => cases hd

end Ndncert
