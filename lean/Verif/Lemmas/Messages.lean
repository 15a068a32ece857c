import Verif.Spec.Messages
import Verif.Lemmas.ChallengeCases
import Verif.Lemmas.CaChallenge
import Verif.Lemmas.Authentic
import Verif.Lemmas.Uri
import Verif.Lemmas.Code
import Verif.Props.Encoding

namespace Ndncert

/-! ## The text -/

/-- where a text with a mark is cut: `x` has no `m` -/
theorem cut_at {m : UInt8} : ∀ {x y u v : Bytes}, m ∉ x → m ∉ y → x ++ m :: u = y ++ m :: v → x = y ∧ u = v
  | [], [], u, v, _, _, h => by simpa using h
  | [], b :: y, u, v, _, hy, h => by
    simp only [List.nil_append, List.cons_append, List.cons.injEq] at h
    exact absurd (by rw [← h.1]; simp) hy
  | a :: x, [], u, v, hx, _, h => by
    simp only [List.nil_append, List.cons_append, List.cons.injEq] at h
    exact absurd (by rw [h.1]; simp) hx
  | a :: x, b :: y, u, v, hx, hy, h => by
    simp only [List.cons_append, List.cons.injEq] at h
    obtain ⟨h1, h2⟩ := cut_at (fun hm => hx (List.mem_cons_of_mem _ hm)) (fun hm => hy (List.mem_cons_of_mem _ hm)) h.2
    exact ⟨by rw [h.1, h1], h2⟩

theorem takeWhile_nonul {p : UInt8 → Bool} : ∀ {l : Bytes}, (∀ c ∈ l, p c = true) → l.takeWhile p = l
  | [], _ => rfl
  | a :: l, h => by
    rw [List.takeWhile_cons, if_pos (h a (by simp)), takeWhile_nonul (fun c hc => h c (List.mem_cons_of_mem _ hc))]

/-- the names of the documented codes have no space and do not begin with `<`; the others do -/
theorem errorCodeText_cases (code : Nat) :
    (code ≤ 9 ∧ (32 : UInt8) ∉ errorCodeText code ∧ (0 : UInt8) ∉ errorCodeText code ∧ (60 : UInt8) ∉ errorCodeText code) ∨
    (10 ≤ code ∧ errorCodeText code = bytes! "<Unknown Error " ++ decDigits code ++ bytes! ">") := by
  rcases Nat.lt_or_ge 9 code with h | h
  · right
    refine ⟨h, ?_⟩
    obtain ⟨k, rfl⟩ : ∃ k, code = k + 10 := ⟨code - 10, by omega⟩
    rfl
  · left
    have : code = 0 ∨ code = 1 ∨ code = 2 ∨ code = 3 ∨ code = 4 ∨ code = 5 ∨ code = 6 ∨ code = 7 ∨ code = 8 ∨ code = 9 := by omega
    rcases this with rfl | rfl | rfl | rfl | rfl | rfl | rfl | rfl | rfl | rfl <;> decide

theorem errorCodeText_small_inj {a b : Nat} (ha : a ≤ 9) (hb : b ≤ 9) (h : errorCodeText a = errorCodeText b) : a = b := by
  have key : ∀ x : Fin 10, ∀ y : Fin 10, errorCodeText x.1 = errorCodeText y.1 → x.1 = y.1 := by decide
  exact key ⟨a, by omega⟩ ⟨b, by omega⟩ h

theorem decDigits_free {n : Nat} {x : UInt8} (hx : x.toNat < 48 ∨ 57 < x.toNat) : x ∉ decDigits n := by
  intro hm
  have := decDigits_digit n x hm
  omega

theorem errorCodeText_nonul (code : Nat) : (0 : UInt8) ∉ errorCodeText code := by
  rcases errorCodeText_cases code with ⟨_, _, h, _⟩ | ⟨_, h⟩
  · exact h
  · rw [h]
    simp only [List.mem_append, not_or]
    exact ⟨⟨by decide, decDigits_free (by decide)⟩, by decide⟩

theorem caErrorText_nonul {code : Nat} {info : Bytes} (h : (0 : UInt8) ∉ info) : (0 : UInt8) ∉ caErrorText code info := by
  unfold caErrorText
  simp only [List.mem_append, not_or]
  exact ⟨⟨⟨by decide, errorCodeText_nonul code⟩, by decide⟩, h⟩

theorem whatOf_nonul {text : Bytes} (h : (0 : UInt8) ∉ text) : whatOf text = text := by
  unfold whatOf
  refine takeWhile_nonul ?_
  intro c hc
  simp only [bne_iff_ne, ne_eq]
  rintro rfl
  exact h hc

theorem caErrorText_inj {a b : Nat} {x y : Bytes} (h : caErrorText a x = caErrorText b y) : a = b ∧ x = y := by
  unfold caErrorText at h
  simp only [List.append_assoc] at h
  have h := List.append_cancel_left h
  have sp : ∀ z : Bytes, bytes! " and Error Info: " ++ z = 32 :: (bytes! "and Error Info: " ++ z) := fun z => rfl
  have un : ∀ n z, bytes! "<Unknown Error " ++ decDigits n ++ bytes! ">" ++ z = 60 :: (bytes! "Unknown Error " ++ (decDigits n ++ 62 :: z)) := by
    intro n z
    simp [List.append_assoc]
  rcases errorCodeText_cases a with ⟨ha, sa, _, la⟩ | ⟨ha, ea⟩ <;> rcases errorCodeText_cases b with ⟨hb, sb, _, lb⟩ | ⟨hb, eb⟩
  · rw [sp, sp] at h
    obtain ⟨h1, h2⟩ := cut_at sa sb h
    exact ⟨errorCodeText_small_inj ha hb h1, List.append_cancel_left h2⟩
  · exfalso
    rw [eb, un, sp] at h
    cases hc : errorCodeText a with
    | nil => rw [hc] at h; cases h
    | cons c l =>
      rw [hc] at h la
      rw [List.cons_append, List.cons.injEq] at h
      exact la (by rw [h.1]; simp)
  · exfalso
    rw [ea, un, sp] at h
    cases hc : errorCodeText b with
    | nil => rw [hc] at h; cases h
    | cons c l =>
      rw [hc] at h lb
      have h1 : (60 : UInt8) = c := (List.cons.inj h).1
      exact lb (by rw [← h1]; simp)
  · rw [ea, eb, un, un, List.cons.injEq] at h
    have h := List.append_cancel_left h.2
    obtain ⟨h1, h2⟩ := cut_at (decDigits_free (by decide)) (decDigits_free (by decide)) h
    exact ⟨decDigits_inj h1, List.append_cancel_left h2⟩

/-! ## The errors of the CA -/

/-- every packet put has the property -/
def Puts (P : Data → Prop) (es : List Effect) : Prop := ∀ d, .put d ∈ es → P d

/-- an error with a documented code and a short text, or no error -/
def ToldBy (Q : Nat → Prop) (d : Data) : Prop :=
  (∃ (code : Nat) (info : Bytes), d.content = errorEncode code info ∧ 1 ≤ code ∧ code ≤ 9 ∧ Q code ∧ (0 : UInt8) ∉ info ∧ info.length < 2 ^ 16) ∨
    (d.content.val.length < 2 ^ 64 → processIfError d = .ok ())

theorem ToldBy.mono {Q R : Nat → Prop} {d : Data} (h : ToldBy Q d) (hQ : ∀ c, Q c → R c) : ToldBy R d := by
  rcases h with ⟨code, info, h1, h2, h3, h4, h5⟩ | h
  · exact .inl ⟨code, info, h1, h2, h3, hQ _ h4, h5⟩
  · exact .inr h

section

variable {σ : Type} {C : Crypto} {S : StoreI σ} {cfg : CaConfig} {Q : Nat → Prop}

theorem Puts.nil {P : Data → Prop} : Puts P [] := fun _ hd => absurd hd List.not_mem_nil

theorem replyError_told {i : Interest} {pre : List Effect} {code : Nat} {info : Bytes} (hp : ∀ d, .put d ∉ pre) (hQ : Q code)
    (hc : 1 ≤ code ∧ code ≤ 9) (hi : (0 : UInt8) ∉ info ∧ info.length < 2 ^ 16) : Puts (ToldBy Q) (replyError C cfg i pre code info).effects := by
  intro d hd
  simp only [replyError, List.mem_append, List.mem_cons, Effect.put.injEq, List.not_mem_nil, or_false] at hd
  rcases hd with hd | rfl
  · exact absurd hd (hp d)
  · exact .inl ⟨code, info, rfl, hc.1, hc.2, hQ, hi⟩

theorem onProbe_told (i : Interest) (env : Env) : Puts (ToldBy (· = 4)) (onProbe C cfg i env).effects := by
  unfold onProbe
  split
  · exact .nil
  · exact .nil
  dsimp only
  split
  · exact .nil
  · exact .nil
  split
  · exact replyError_told (by simp) rfl (by decide) (by decide)
  · intro d hd
    simp only [List.mem_cons, Effect.put.injEq, List.not_mem_nil, or_false] at hd
    subst hd
    exact .inr (fun hl => Props.C02_probe_not_error _ _ _ hl _ _)

theorem onNew_told (ty : RequestType) (idKey : Bytes) (st : σ) (i : Interest) (env : Env) :
    Puts (ToldBy (fun _ => True)) (onNewRenewRevoke C S cfg idKey st ty i env).effects := by
  have acc : ∀ cert secret, Puts (ToldBy (fun _ => True)) (acceptRequest C S cfg idKey st ty i env cert secret).effects := by
    intro cert secret
    unfold acceptRequest
    dsimp only
    split
    · exact replyError_told (by simp) trivial (by decide) (by decide)
    · exact .nil
    · intro d hd
      simp only [List.mem_cons, Effect.put.injEq, List.not_mem_nil, or_false, reduceCtorEq, false_or] at hd
      subst hd
      exact .inr (fun hl => Props.C02_request_not_error _ _ _ _ hl _ _)
  unfold onNewRenewRevoke
  repeat' split
  all_goals first
    | exact .nil
    | exact acc _ _
    | exact replyError_told (by simp) trivial (by decide) (by decide)
    | (refine replyError_told (by simp) trivial (by decide) ?_; split <;> decide)

/-- what a challenge module says when it refuses -/
def Refusal (Q : Nat → Prop) (out : ChalOut) : Prop :=
  out.code ≠ 0 → 1 ≤ out.code ∧ out.code ≤ 9 ∧ Q out.code ∧ (0 : UInt8) ∉ out.info ∧ out.info.length < 2 ^ 16

theorem refusal_error {r : RequestState} {code : Nat} {info : Bytes} (hQ : Q code) (hc : 1 ≤ code ∧ code ≤ 9)
    (hi : (0 : UInt8) ∉ info ∧ info.length < 2 ^ 16) : Refusal Q (returnWithError r code info) :=
  fun _ => ⟨hc.1, hc.2, hQ, hi⟩

theorem handleCode_refusal {k : ChalKind} (hk : k = .pin ∨ k = .email) {env : Env} {es : List Block} {r : RequestState} {out : ChalOut}
    (h : handleCode k env es r = .ok out) : Refusal (RefusedFor k env es r) out := by
  unfold handleCode at h
  split at h
  · cases h; exact refusal_error (.inl rfl) (by decide) (by decide)
  rename_i cs hcs
  split at h
  · rename_i hst
    rw [Res.bind_eq_ok] at h
    obtain ⟨given, hg, h⟩ := h
    split at h
    · rename_i ht
      cases h
      exact refusal_error (.inr (.inr (.inl ⟨rfl, hk, cs, hcs, by rw [← lifetime_ns]; exact ht⟩))) (by decide) (by decide)
    rename_i ht
    rw [Res.bind_eq_ok] at h
    obtain ⟨code, hcode, h⟩ := h
    split at h
    · cases h; exact fun hn => absurd rfl hn
    rename_i hne
    split at h
    · cases h; exact fun hn => absurd rfl hn
    · rename_i htr
      cases h
      refine refusal_error (.inr (.inr (.inr ⟨rfl, hk, cs, code, ⟨hcs, hst, hcode⟩, ?_, by omega, ?_⟩))) (by decide) ?_
      · rintro ⟨b, hb, hv⟩
        rw [hg] at hb
        cases hb
        exact hne hv
      · rw [← lifetime_ns]
        exact Int.not_le.mp ht
      · split <;> decide
  · cases h; exact refusal_error (.inl rfl) (by decide) (by decide)

theorem handleChallenge_refusal {k : ChalKind} {env : Env} {es : List Block} {r : RequestState} {out : ChalOut}
    (h : handleChallenge C k env es r = .ok out) : Refusal (RefusedFor k env es r) out := by
  unfold handleChallenge at h
  split at h
  · unfold handlePin at h
    split at h
    · cases h; exact fun hn => absurd rfl hn
    · exact handleCode_refusal (.inl rfl) h
  · unfold handleEmail at h
    split at h
    · rw [Res.bind_eq_ok] at h
      obtain ⟨_, _, h⟩ := h
      split at h
      · cases h
      split at h
      · cases h
      · cases h; exact fun hn => absurd rfl hn
    · exact handleCode_refusal (.inr rfl) h
  · have four : ∀ {info : Bytes}, ((0 : UInt8) ∉ info ∧ info.length < 2 ^ 16) →
        Refusal (RefusedFor .possession env es r) (returnWithError r ErrorCode.INVALID_PARAMETER info) := fun hi => refusal_error (.inl rfl) (by decide) hi
    have one : ∀ {info : Bytes}, ((0 : UInt8) ∉ info ∧ info.length < 2 ^ 16) →
        Refusal (RefusedFor .possession env es r) (returnWithError r ErrorCode.BAD_INTEREST_FORMAT info) :=
      fun hi => refusal_error (.inr (.inl ⟨rfl, rfl⟩)) (by decide) hi
    unfold handlePossession at h
    split at h
    · cases h
    split at h
    · cases h
    · cases h
    split at h
    · cases h; exact four (by decide)
    dsimp only at h
    split at h
    · split at h
      · cases h; exact one (by decide)
      split at h
      · cases h
      split at h
      · cases h
      split at h
      · cases h
      split at h
      · cases h; exact fun hn => absurd rfl hn
      · cases h; exact four (by decide)
    · split at h
      · split at h
        · split at h
          · cases h; exact one (by decide)
          simp only [Res.bind_eq_ok] at h
          obtain ⟨_, _, _, _, _, _, _, _, h⟩ := h
          split at h
          · cases h
          split at h
          · cases h; exact fun hn => absurd rfl hn
          · cases h; exact four (by decide)
        · cases h; exact four (by decide)
      · cases h; exact four (by decide)

theorem finish_told {i : Interest} {env : Env} {pre : List Effect} (hpre : ∀ d, .put d ∉ pre) (r : RequestState) :
    Puts (ToldBy Q) (finishChallenge C cfg i env pre r).effects := by
  have send : ∀ pre' r0 r2 issued hint payload, (∀ d, .put d ∉ pre') → challengeEncode C r0 issued hint env.ivRnd = (r2, .ok payload) →
      Puts (ToldBy Q) (sendChallengeReply C cfg i pre' r2 payload).effects := by
    intro pre' r0 r2 issued hint payload hp he d hd
    simp only [sendChallengeReply, List.mem_append, List.mem_cons, Effect.put.injEq, reduceCtorEq, List.not_mem_nil, or_false] at hd
    rcases hd with hd | rfl
    · exact absurd hd (hp d)
    · exact .inr (fun hl => Props.C02_challenge_not_error C r0 r2 issued hint _ payload he hl _ _)
  have stop : ∀ {α : Type} (x : Res α) pre', (∀ d, .put d ∉ pre') → Puts (ToldBy Q) (abort pre' x).effects := by
    intro α x pre' hp d hd
    cases x <;> exact absurd hd (hp d)
  unfold finishChallenge
  split
  · split
    · split
      · rename_i c hi
        dsimp only
        rcases henc : challengeEncode C { r with cert := c, status := .success } c.name cfg.profile.forwardingHint env.ivRnd with ⟨r2, res⟩
        cases res with
        | ok payload => exact send _ _ _ _ _ _ (by simp [hpre]) henc
        | exc e => exact stop _ _ (by simp [hpre])
        | ub u => exact stop _ _ (by simp [hpre])
      · exact stop _ _ hpre
    · split
      · dsimp only
        rcases henc : challengeEncode C { r with status := .success } [] [] env.ivRnd with ⟨r2, res⟩
        cases res with
        | ok payload => exact send _ _ _ _ _ _ (by simp [hpre]) henc
        | exc e => exact stop _ _ (by simp [hpre])
        | ub u => exact stop _ _ (by simp [hpre])
      · exact stop _ _ hpre
  · rcases henc : challengeEncode C r [] [] env.ivRnd with ⟨r2, res⟩
    cases res with
    | ok payload => exact send _ _ _ _ _ _ (by simp [hpre]) henc
    | exc e => exact stop _ _ hpre
    | ub u => exact stop _ _ hpre

/-- why a CHALLENGE Interest is refused -/
def ChalReason (C : Crypto) (S : StoreI σ) (cfg : CaConfig) (st : σ) (i : Interest) (env : Env) (code : Nat) : Prop :=
  code = 4 ∨ (code = 3 ∧ ∃ r, getCertificateRequest S cfg st i env = .ok (some r) ∧ C.verifyInterest i r.cert = false) ∨
  ∃ r es k div, Verified C S cfg st i env r ∧ Opened C i r div es k ∧ RefusedFor k env es r code

/-- why an Interest is refused -/
def MsgReason (C : Crypto) (S : StoreI σ) (cfg : CaConfig) (st : σ) (m : Msg) (env : Env) (code : Nat) : Prop :=
  match m with
  | .probe _ => code = 4
  | .challenge i => ChalReason C S cfg st i env code
  | _ => True

theorem onChallenge_told (st : σ) (i : Interest) (env : Env) :
    Puts (ToldBy (ChalReason C S cfg st i env)) (onChallenge C S cfg st i env).effects := by
  have stop : ∀ {α : Type} (x : Res α), Puts (ToldBy (ChalReason C S cfg st i env)) (abort [] x).effects := by
    intro α x d hd
    cases x <;> exact absurd hd List.not_mem_nil
  unfold onChallenge
  split
  · exact .nil
  · exact .nil
  · exact replyError_told (by simp) (.inl rfl) (by decide) (by decide)
  rename_i r hg
  split
  · rename_i hv
    exact replyError_told (by simp) (.inr (.inl ⟨rfl, r, hg, hv⟩)) (by decide) (by decide)
  rename_i hv
  rcases hd : decodeAes C (i.params.getD ⟨0, []⟩) r.encryptionKey r.requestId r.decryptionIv r.encryptionIv with ⟨div, res⟩
  dsimp only
  split
  · exact replyError_told (by simp) (.inl rfl) (by decide) (by decide)
  · exact .nil
  rename_i pt
  unfold processParams
  split
  · exact replyError_told (by simp) (.inl rfl) (by decide) (by decide)
  rename_i hpt
  split
  · rename_i es hp
    split
    · rename_i sel hsel
      split
      · exact replyError_told (by simp) (.inl rfl) (by decide) (by decide)
      · rename_i k hk
        split
        · rename_i out ho
          split
          · rename_i hcode
            obtain ⟨a1, a2, a3, a4⟩ := handleChallenge_refusal ho hcode
            refine replyError_told (by simp) (.inr (.inr ⟨r, es, k, div, ⟨hg, by simpa using hv⟩, ?_, a3⟩)) ⟨a1, a2⟩ a4
            exact ⟨pt, sel, hd, hpt, hp, hsel, createChallenge_some hk⟩
          · exact finish_told (by simp) _
        · exact stop _
    · exact stop _
  · exact stop _

end

end Ndncert
