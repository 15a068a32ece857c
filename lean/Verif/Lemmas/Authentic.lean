import Verif.Lemmas.Pending

namespace Ndncert

variable {σ : Type} {C : Crypto} {S : StoreI σ} {Inv : σ → Prop} {cfg : CaConfig} {st : σ} {i : Interest} {env : Env}

theorem idFits_of_wf (h : (Msg.challenge i).Wf cfg) : IdFits cfg i := fun c hc => h.2 i rfl c hc

/-- the lookup in terms of `Names` -/
theorem lookup_cases (hS : LawfulStore C S Inv) (hi : Inv st) (hid : IdFits cfg i) (hst : env.stack.length = 8) :
    (getCertificateRequest S cfg st i env = .ok none ∧ ∀ id, Names cfg env i id → S.view st id = none) ∨
    ∃ r, getCertificateRequest S cfg st i env = .ok (some r) ∧ S.view st r.requestId = some r ∧ Names cfg env i r.requestId := by
  unfold getCertificateRequest
  cases hc : i.name[cfg.profile.caPrefix.length + 2]? with
  | none =>
    left
    refine ⟨rfl, ?_⟩
    rintro id ⟨c, h, _⟩
    rw [hc] at h; cases h
  | some comp =>
    have hl := hid comp hc
    have hm : memcpyInto env.stack comp.val = .ok (comp.val ++ env.stack.drop comp.val.length) := by
      unfold memcpyInto
      rw [if_neg (by omega)]
    simp only [hm]
    cases hg : S.get st (comp.val ++ env.stack.drop comp.val.length) with
    | ok r =>
      right
      have hv : S.view st (comp.val ++ env.stack.drop comp.val.length) = some r := by unfold StoreI.view; rw [hg]
      have hid' := hS.get_id _ _ _ hi hv
      refine ⟨r, rfl, by rw [hid']; exact hv, comp, hc, hid'⟩
    | exc e =>
      left
      refine ⟨rfl, ?_⟩
      rintro id ⟨c, h, rfl⟩
      rw [hc] at h; cases h
      unfold StoreI.view; rw [hg]
    | ub u =>
      exfalso
      have hv : S.view st (comp.val ++ env.stack.drop comp.val.length) = none := by unfold StoreI.view; rw [hg]
      obtain ⟨e, he⟩ := hS.get_absent _ _ hi hv
      rw [hg] at he; cases he

theorem Names.unique {id id' : RequestId} (h : Names cfg env i id) (h' : Names cfg env i id') : id = id' := by
  obtain ⟨c, h1, rfl⟩ := h
  obtain ⟨c', h2, rfl⟩ := h'
  rw [h1] at h2; cases h2; rfl

theorem verified_authentic (hS : LawfulStore C S Inv) (hi : Inv st) (hid : IdFits cfg i) (hst : env.stack.length = 8)
    {r : RequestState} : Verified C S cfg st i env r ↔ Authentic C S cfg st i env r := by
  rcases lookup_cases (cfg := cfg) (i := i) hS hi hid hst with ⟨h1, h2⟩ | ⟨r', h1, h2, h3⟩
  · constructor
    · rintro ⟨hf, _⟩; rw [h1] at hf; cases hf
    · rintro ⟨hp, hn, _⟩; rw [h2 _ hn] at hp; cases hp
  · constructor
    · rintro ⟨hf, hs⟩; rw [h1] at hf; cases hf; exact ⟨h2, h3, hs⟩
    · rintro ⟨hp, hn, hs⟩
      have : r'.requestId = r.requestId := h3.unique hn
      rw [this, hp] at h2
      cases h2
      exact ⟨h1, hs⟩

theorem Authentic.unique {r r' : RequestState} (h : Authentic C S cfg st i env r) (h' : Authentic C S cfg st i env r') : r = r' := by
  have h1 := h.pending
  rw [h.names.unique h'.names, h'.pending] at h1
  cases h1; rfl

/-- a success reply is not an error reply -/
theorem errorEncode_ne_aes (code : ErrorCode) (info : Bytes) {t : Nat} {key payload aad iv rnd iv' : Bytes} {b : Block}
    (h : encodeAes C t key payload aad iv rnd = (iv', .ok b)) : b ≠ errorEncode code info := by
  obtain ⟨_, _, rfl⟩ := encodeAes_ok h
  intro heq
  have h1 : (encodeAll [binBlock T.InitializationVector (startIv iv rnd),
    binBlock T.AuthenticationTag (C.aesEnc key ((startIv iv rnd).take 12) aad payload).2,
    binBlock T.EncryptedPayload (C.aesEnc key ((startIv iv rnd).take 12) aad payload).1]).head? =
    (encodeAll [nniBlock T.ErrorCode code, binBlock T.ErrorInfo info]).head? := congrArg (fun x => x.val.head?) heq
  rw [encodeAll_cons] at h1
  have h2 : ∀ (b : Block) (l : Bytes), b.typ < 253 → (b.encode ++ l).head? = some (UInt8.ofNat b.typ) := by
    intro b l hb
    unfold Block.encode varNumber
    rw [if_pos hb]
    rfl
  rw [h2 _ _ (by simp), encodeAll_cons, h2 _ _ (by simp)] at h1
  simp at h1

theorem requestEncode_ne_error (pub salt : Bytes) (id : RequestId) (chals : List Bytes) (code : ErrorCode) (info : Bytes) :
    requestEncode pub salt id chals ≠ errorEncode code info := by
  intro heq
  have h2 : ∀ (b : Block) (l : Bytes), b.typ < 253 → (b.encode ++ l).head? = some (UInt8.ofNat b.typ) := by
    intro b l hb
    unfold Block.encode varNumber
    rw [if_pos hb]
    rfl
  have h1 : (requestEncode pub salt id chals).val.head? = (errorEncode code info).val.head? := congrArg (fun x => x.val.head?) heq
  have h3 : (requestEncode pub salt id chals).val.head? = some (UInt8.ofNat T.EcdhPub) := by
    unfold requestEncode mkBlock
    dsimp only [List.cons_append]
    rw [encodeAll_cons]
    exact h2 _ _ (by simp)
  have h4 : (errorEncode code info).val.head? = some (UInt8.ofNat T.ErrorCode) := by
    unfold errorEncode mkBlock
    dsimp only
    rw [encodeAll_cons]
    exact h2 _ _ (by simp)
  rw [h3, h4] at h1
  simp at h1

theorem challengeEncode_not_error {r r2 : RequestState} {issued hint : Name} {rnd : Bytes} {payload : Block}
    (h : challengeEncode C r issued hint rnd = (r2, .ok payload)) {i : Interest} {code : ErrorCode} :
    ¬ IsErrorReply C cfg i code (mkData C cfg.profile.caPrefix i.name payload) := by
  obtain ⟨es, iv, _, _, h3⟩ := challengeEncode_ok h
  rintro ⟨_, info, heq⟩
  have := congrArg Data.content heq
  exact errorEncode_ne_aes code info h3 this

/-- decides `Authentic` -/
def authenticOk {σ : Type} (C : Crypto) (S : StoreI σ) (cfg : CaConfig) (st : σ) (i : Interest) (env : Env) (r : RequestState) : Bool :=
  decide (S.view st r.requestId = some r) &&
  (match i.name[cfg.profile.caPrefix.length + 2]? with
   | some c => decide (r.requestId = c.val ++ env.stack.drop c.val.length)
   | none => false) &&
  C.verifyInterest i r.cert

theorem authenticOk_sound {r : RequestState} (h : authenticOk C S cfg st i env r = true) : Authentic C S cfg st i env r := by
  unfold authenticOk at h
  rw [Bool.and_eq_true, Bool.and_eq_true] at h
  obtain ⟨⟨h1, h2⟩, h3⟩ := h
  refine ⟨of_decide_eq_true h1, ?_, h3⟩
  split at h2
  · rename_i c hc
    exact ⟨c, hc, of_decide_eq_true h2⟩
  · cases h2

end Ndncert
