import Verif.Lemmas.Replay

namespace Ndncert

variable {σ : Type} {C : Crypto} {S : StoreI σ} {Inv : σ → Prop} {cfg : CaConfig}

/-- an IV can be advanced if its counter does not overflow -/
theorem updateIv_some {iv : Bytes} {n : Nat} (h : ivCounter iv + (n + 15) / 16 < 2 ^ 32 - 1) : ∃ iv', updateIv iv n = .ok iv' := by
  have h1 : (n + 15) / 16 % 2 ^ 32 = (n + 15) / 16 := Nat.mod_eq_of_lt (by omega)
  unfold updateIv
  dsimp only
  rw [h1, if_neg (by omega)]
  exact ⟨_, rfl⟩

theorem opens_decode {i : Interest} {r : RequestState} {pt : Bytes} (hiv : IvsOk r) (h : Opens C i r pt) :
    ∃ div, decodeAes C (i.params.getD ⟨0, []⟩) r.encryptionKey r.requestId r.decryptionIv r.encryptionIv = (div, .ok pt) := by
  obtain ⟨b, es, ct, iv, tag, h1, h2, h3, h4, h5, h6, h7, ⟨g1, g2, g3, g4⟩, h9⟩ := h
  obtain ⟨iv', hiv'⟩ := updateIv_some g4
  refine ⟨iv', ?_⟩
  rw [h1]
  unfold decodeAes
  have : (do
    let es ← ((some b).getD ⟨0, []⟩).elements
    let payload ← getElem es T.EncryptedPayload
    let iv ← getElem es T.InitializationVector
    let tag ← getElem es T.AuthenticationTag
    if iv.val.length ≠ 12 ∨ tag.val.length ≠ 16 then Res.exc .runtime
    else .ok (payload.val, iv.val, tag.val) : Res (Bytes × Bytes × Bytes)) = .ok (ct.val, iv.val, tag.val) := by
    unfold Block.elements
    simp only [Option.getD_some, h2, h3, h4, h5, Res.bind_ok]
    rw [if_neg (by simp [g1, h6])]
  rw [this]
  dsimp only
  rw [if_neg (by rintro ⟨ha, hb⟩; rcases hiv.enc with h | h; exact ha h; omega)]
  rw [if_neg (by rintro ⟨ha, hb⟩; exact g2 ha hb)]
  rw [if_neg (by rintro ⟨ha, hb⟩; rcases hiv.dec with h | h; exact ha h; omega)]
  rw [if_neg (by
    rintro ⟨ha, hb⟩
    obtain ⟨k1, k2⟩ := g3 ha
    rcases hb with h | h
    · omega
    · exact h k1)]
  rw [h9]
  dsimp only
  rw [if_neg (by omega), hiv']

theorem Opens.decrypts {i : Interest} {r : RequestState} {pt : Bytes} (h : Opens C i r pt) : Decrypts C i r pt := by
  obtain ⟨b, es, ct, iv, tag, h1, h2, h3, h4, h5, h6, h7, _, h9⟩ := h
  exact ⟨b, es, ct, iv, tag, h1, h2, h3, h4, h5, h9⟩

/-- a CHALLENGE that opens is processed -/
theorem onChallenge_opens (hS : LawfulStore C S Inv) {st : σ} (hi : Inv st) {i : Interest} {env : Env} (hid : IdFits cfg i) (he : env.Wf)
    {r : RequestState} (ha : Authentic C S cfg st i env r) (hiv : IvsOk r) {pt : Bytes} (ho : Opens C i r pt) :
    ∃ div, decodeAes C (i.params.getD ⟨0, []⟩) r.encryptionKey r.requestId r.decryptionIv r.encryptionIv = (div, .ok pt) ∧
      onChallenge C S cfg st i env = processParams C cfg i env { r with decryptionIv := div } pt := by
  obtain ⟨div, hd⟩ := opens_decode hiv ho
  refine ⟨div, hd, ?_⟩
  have hv := (verified_authentic hS hi hid he.stack).mpr ha
  unfold onChallenge
  rw [hv.found]
  dsimp only
  rw [if_neg (by rw [hv.sig]; simp), hd]

theorem createChallenge_regName (k : ChalKind) : createChallenge k.regName = some k := by cases k <;> decide

/-- and its challenge module is called -/
theorem processParams_selects {i : Interest} {env : Env} {r : RequestState} {pt : Bytes} {es : List Block} {sel : Block} {k : ChalKind}
    (hne : pt ≠ []) (hp : parse pt = .ok es) (hs : getElem es T.SelectedChallenge = .ok sel) (hk : sel.val = k.regName) {out : ChalOut}
    (ho : handleChallenge C k env es r = .ok out) :
    processParams C cfg i env r pt =
      if out.code ≠ 0 then replyError C cfg i (out.mails.map .mail ++ [.dbDelete out.req.requestId]) out.code out.info
      else finishChallenge C cfg i env (out.mails.map .mail) out.req := by
  unfold processParams
  rw [if_neg hne, hp]
  dsimp only
  rw [hs]
  dsimp only
  unfold readString
  rw [hk, createChallenge_regName]
  dsimp only
  rw [ho]

/-- a CHALLENGE for a request that is not there -/
theorem absent_onlyError (hS : LawfulStore C S Inv) {st : σ} (hi : Inv st) {i : Interest} {env : Env} (hid : IdFits cfg i) (he : env.Wf)
    {id : RequestId} (hn : Names cfg env i id) (hv : S.view st id = none) : OnlyError C cfg i (onChallenge C S cfg st i env) := by
  unfold onChallenge OnlyError
  rcases lookup_cases (cfg := cfg) (i := i) hS hi hid he.stack with ⟨h1, _⟩ | ⟨r, h1, h2, h3⟩
  · rw [h1]
    exact ⟨_, _, ⟨by decide, _, rfl⟩, rfl⟩
  · rw [hn.unique h3, h2] at hv
    cases hv

/-- the random key of the CA instance stays the same without a restart -/
theorem Exec.sameKey {h : List (Step σ)} {s : CaState σ} (hx : Exec C S cfg h s) : ∀ h1 m h2, h = h1 ++ m :: h2 →
    (∀ x ∈ m :: h2, ∃ msg env, x.event = .msg msg env) → s.idKey = m.pre.idKey := by
  induction hx with
  | init idKey => intro h1 m h2 hh; simp at hh
  | @step h s e prev wf possible ih =>
    intro h1 m h2 hh hm
    rcases List.eq_nil_or_concat h2 with rfl | ⟨h2', y, rfl⟩
    · obtain ⟨rfl, h3⟩ := List.append_inj' (s₁ := h) (t₁ := [⟨s, e, (e.run C S cfg s).1⟩]) (s₂ := h1) (t₂ := [m]) hh rfl
      cases h3
      obtain ⟨msg, env, he⟩ := hm _ (List.mem_singleton.mpr rfl)
      dsimp only at he
      rw [he]
      rfl
    · have heq' : h ++ [⟨s, e, (e.run C S cfg s).1⟩] = (h1 ++ m :: h2') ++ [y] := by rw [hh]; simp
      obtain ⟨h3, h4⟩ := List.append_inj' heq' rfl
      cases h4
      obtain ⟨msg, env, he⟩ := hm ⟨s, e, (e.run C S cfg s).1⟩ (by simp)
      dsimp only at he
      have := ih h1 m h2' h3 (fun x hx => hm x (by rcases List.mem_cons.mp hx with h | h <;> simp [h]))
      rw [← this, he]
      rfl

end Ndncert
