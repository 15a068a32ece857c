import Verif.Lemmas.Attempts

namespace Ndncert

variable {σ : Type} {C : Crypto} {S : StoreI σ} {Inv : σ → Prop} {cfg : CaConfig}

/-- what is true of a request after one step, and kept by every update, is true of it as long as it is not created again -/
theorem Exec.preserve (hC : C.Lawful) (hS : LawfulStore C S Inv) (hcfg : NameFits cfg.profile.caPrefix) {id : RequestId}
    {P : RequestState → Prop}
    (hup : ∀ (h : List (Step σ)) (n : Step σ) i env k es out r0 r1 r, Exec C S cfg h n.pre → UpdatedBy C S cfg n i env k es out r0 r1 →
      S.view n.pre.store id = some r0 → r1.requestId = id → SameStored r1 r → P r0 → P r)
    {h : List (Step σ)} {s : CaState σ} (hx : Exec C S cfg h s) : ∀ h1 n h2, h = h1 ++ n :: h2 →
    (∀ r, S.view (n.event.run C S cfg n.pre).2.store id = some r → P r) →
    (∀ x ∈ h2, ∀ r, Effect.dbAdd r ∈ x.effects → r.requestId ≠ id) →
    ∀ r, S.view s.store id = some r → P r := by
  induction hx with
  | init idKey => intro h1 n h2 hh; simp at hh
  | @step h s e prev wf possible ih =>
    intro h1 n h2 hh h0 hno r hr
    rcases List.eq_nil_or_concat h2 with rfl | ⟨h2', y, rfl⟩
    · obtain ⟨_, h4⟩ := List.append_inj' (s₁ := h) (t₁ := [⟨s, e, (e.run C S cfg s).1⟩]) (s₂ := h1) (t₂ := [n]) hh rfl
      simp only [List.cons.injEq, and_true] at h4
      apply h0
      rw [← h4]
      exact hr
    · rw [List.concat_eq_append] at hh hno
      have heq' : h ++ [⟨s, e, (e.run C S cfg s).1⟩] = (h1 ++ n :: h2') ++ [y] := by rw [hh]; simp
      obtain ⟨h3, h4⟩ := List.append_inj' heq' rfl
      simp only [List.cons.injEq, and_true] at h4
      have hi := ih h1 n h2' h3 h0 (fun x hx => hno x (by simp [hx]))
      have he : y.effects = (y.event.run C S cfg y.pre).1 := by rw [← h4]
      have hps : y.pre = s := by rw [← h4]
      have hx' : Exec C S cfg h y.pre := by rw [hps]; exact prev
      have hwf' : y.event.Wf cfg := by rw [← h4]; exact wf
      have hs : (e.run C S cfg s).2 = (y.event.run C S cfg y.pre).2 := by rw [← h4]
      rw [hs] at hr
      rw [← hps] at hi
      have hinv := (hx'.life hC hS hcfg).1
      obtain ⟨hinv', hvc⟩ := step_view hC hS hcfg hinv hwf' he
      obtain ⟨_, hview⟩ := run_view (cfg := cfg) hS he hinv'
      have hr' : S.view (y.afterStore S) id = some r := by
        rcases hview with h | h
        · rw [← h]; exact hr
        · rw [h] at hr; cases hr
      cases hvc with
      | same h0 hsame => rw [hsame] at hr'; exact hi r hr'
      | deleted i' env' r'' hd' _ _ _ hvw =>
        rw [hvw] at hr'
        split at hr'
        · cases hr'
        · exact hi r hr'
      | added ty i env r0 hd ha h0 hvw =>
        rw [hvw, if_neg (fun heq => hno y (by simp) r0 ha.effect heq.symm)] at hr'
        exact hi r hr'
      | updated i env k es out r0 r1 r' hd hu h0 hs hvw =>
        rw [hvw] at hr'
        split at hr'
        · rename_i heq
          cases hr'
          rw [← heq] at h0
          exact hup h y i env k es out r0 r1 r hx' hu h0 heq.symm hs (hi r0 h0)
        · exact hi r hr'

/-- an effect before the only Data has happened if the Data was sent -/
theorem put_take {pre post : List Effect} {d d' : Data} (hpre : sent pre = []) {k : Nat}
    (h : d ∈ sent ((pre ++ .put d' :: post).take k)) : ∀ x ∈ pre, x ∈ (pre ++ .put d' :: post).take k := by
  by_cases hk : k ≤ pre.length
  · rw [List.take_append_of_le_length hk] at h
    have : List.Sublist (sent (pre.take k)) (sent pre) := by
      rw [sent_eq, sent_eq]
      exact (List.take_sublist k pre).filterMap _
    rw [hpre] at this
    rw [List.sublist_nil.mp this] at h
    cases h
  · intro x hx
    rw [List.take_append, List.take_of_length_le (by omega)]
    exact List.mem_append_left _ hx

/-- a reply that is not an error is preceded by a change of the storage -/
theorem nonError_db {st : σ} {i : Interest} {env : Env} {k : Nat} {d : Data}
    (hd : d ∈ sent ((onChallenge C S cfg st i env).effects.take k)) (hne : ¬ ∃ code, IsErrorReply C cfg i code d) :
    dbOps ((onChallenge C S cfg st i env).effects.take k) ≠ [] := by
  have hc := onChallenge_cases C S cfg st i env
  generalize onChallenge C S cfg st i env = o at hd hc
  have hput := List.mem_of_mem_take (mem_sent.mp hd)
  have herr : ∀ code info, code ≠ 0 → d = errorData C cfg.profile.caPrefix i.name code info → False :=
    fun code info h1 h2 => hne ⟨code, h1, info, h2⟩
  have hmem : ∀ x, x ∈ o.effects.take k → x.isDb = true → dbOps (o.effects.take k) ≠ [] := by
    intro x h1 h2 h3
    have := (mem_dbOps h2).mpr h1
    rw [h3] at this
    cases this
  cases hc with
  | undefined u h => cases hput
  | noRequest info h => simp at hput; exact (herr _ _ (by decide) hput).elim
  | badSig r' info h h' => simp at hput; exact (herr _ _ (by decide) hput).elim
  | reject r' code info hv' hcode => simp at hput; exact (herr _ _ hcode hput).elim
  | early r' t _ _ => cases hput
  | continued r' div es k' out r2 payload hv' ho hmc hst henc =>
    have heq : out.mails.map Effect.mail ++ [.dbUpdate r2, .put (mkData C cfg.profile.caPrefix i.name payload), .callback r2] =
      (out.mails.map Effect.mail ++ [.dbUpdate r2]) ++ .put (mkData C cfg.profile.caPrefix i.name payload) :: [.callback r2] := by simp
    refine hmem (.dbUpdate r2) ?_ rfl
    dsimp only at hd ⊢
    rw [heq] at hd ⊢
    exact put_take (by rw [sent_append, sent_mail]; rfl) hd _ (by simp)
  | contThrew r' div es k' out t hv' ho hmc hst ht => simp at hput
  | issued r' div es k' out c r2 payload hv' ho hmc hst hty hiss henc =>
    exact hmem (.dbDelete r'.requestId) (put_take (pre := [.issue c, .dbDelete r'.requestId]) rfl hd _ (by simp)) rfl
  | issueThrew r' div es k' out c t hv' ho hmc hst hty hiss ht => simp at hput
  | revoked r' div es k' out r2 payload hv' ho hmc hst hty henc =>
    exact hmem (.dbDelete r'.requestId) (put_take (pre := [.dbDelete r'.requestId]) rfl hd _ (by simp)) rfl
  | revokeThrew r' div es k' out t hv' ho hmc hst hty ht => simp at hput

/-- the IV in the parameters of an Interest -/
def ivOf (i : Interest) : Option Bytes :=
  match parse (i.params.getD ⟨0, []⟩).val with
  | .ok es => match getElem es T.InitializationVector with
    | .ok iv => some iv.val
    | _ => none
  | _ => none

/-- what a successful decryption says about the IV of the Interest and the IVs kept -/
theorem opened_counter {i : Interest} {r : RequestState} {div : Bytes} {es : List Block} {k : ChalKind}
    (hm : (Msg.challenge i).Wf cfg) (ho : Opened C i r div es k) :
    ∃ iv, ivOf i = some iv ∧ iv.length = 12 ∧ ivCounter iv < ivCounter div ∧ ivPrefix div = ivPrefix iv ∧
      (r.decryptionIv ≠ [] → ivCounter r.decryptionIv ≤ ivCounter iv) := by
  obtain ⟨pt, sel, h1, h2, _⟩ := ho
  obtain ⟨es0, ct, iv, tag, p1, p2, p3, p4, p5, p6, p7, p8, p9, p10, p11⟩ := decodeAes_ok h1
  refine ⟨iv.val, ?_, p5, ?_, ?_, fun h => (p8 h).2.1⟩
  · unfold ivOf; rw [p1]; dsimp only; rw [p3]
  · have hct := getElem_val_le p1 p2
    have hb : (i.params.getD ⟨0, []⟩).val.length ≤ 2 ^ 36 - 32 := by
      cases hp : i.params with
      | none => simp
      | some b => exact hm.1 b hp
    obtain ⟨_, _, h3, _⟩ := updateIv_ok p5 (by omega) p11
    have : 1 ≤ blocksOf pt.length := by
      unfold blocksOf
      have : 1 ≤ pt.length := by
        cases pt with
        | nil => exact absurd rfl h2
        | cons a l => simp
      omega
    omega
  · have hct := getElem_val_le p1 p2
    have hb : (i.params.getD ⟨0, []⟩).val.length ≤ 2 ^ 36 - 32 := by
      cases hp : i.params with
      | none => simp
      | some b => exact hm.1 b hp
    exact (updateIv_ok p5 (by omega) p11).2.1

/-- the decryption IV of a request after an update -/
theorem updated_decIv {n : Step σ} {i : Interest} {env : Env} {k : ChalKind} {es : List Block} {out : ChalOut}
    {r0 r1 r : RequestState} (hu : UpdatedBy C S cfg n i env k es out r0 r1) (hs : SameStored r1 r) :
    ∃ iv, ivOf i = some iv ∧ ivCounter iv < ivCounter r.decryptionIv ∧ r.decryptionIv.length = 12 ∧
      (r0.decryptionIv ≠ [] → ivCounter r0.decryptionIv ≤ ivCounter iv) := by
  obtain ⟨div, ho, hm⟩ := hu.module
  obtain ⟨payload, henc⟩ := hu.encode
  obtain ⟨iv, h1, h2, h3, _, h5⟩ := opened_counter hu.mwf ho
  obtain ⟨es', iv', _, hr1, _⟩ := challengeEncode_ok henc
  have hdiv : r.decryptionIv = div := by
    rw [← hs.fields.2.2.2.2.2.2.1, hr1]
    show out.req.decryptionIv = div
    cases hm <;> rfl
  exact ⟨iv, h1, by rw [hdiv]; exact h3, by rw [hdiv]; exact opened_iv ho, h5⟩

/-- after a CHALLENGE was answered without error, its IV is used up for the request -/
theorem replay_counter (hC : C.Lawful) (hS : LawfulStore C S Inv) (hcfg : NameFits cfg.profile.caPrefix)
    {h : List (Step σ)} {s : CaState σ} (hx : Exec C S cfg h s) {h1 h2 : List (Step σ)} {n : Step σ} (hh : h = h1 ++ n :: h2)
    {i : Interest} {env : Env} {r : RequestState} (hm : n.Handles (.challenge i) env) (hau : Authentic C S cfg n.pre.store i env r)
    {d : Data} (hd : d ∈ sent n.effects) (hne : ¬ ∃ code, IsErrorReply C cfg i code d)
    (hno : ∀ x ∈ h2, ∀ r', Effect.dbAdd r' ∈ x.effects → r'.requestId ≠ r.requestId)
    {r' : RequestState} (hr' : S.view s.store r.requestId = some r') :
    ∃ iv, ivOf i = some iv ∧ ivCounter iv < ivCounter r'.decryptionIv ∧ r'.decryptionIv.length = 12 := by
  obtain ⟨hx1, hwf, _, heff, _⟩ := hx.split _ _ _ hh
  have hinv := (hx1.life hC hS hcfg).1
  obtain ⟨hmw, hew⟩ := hwf _ _ hm
  obtain ⟨hinv', hvc⟩ := step_view hC hS hcfg hinv hwf heff
  obtain ⟨_, hview⟩ := run_view (cfg := cfg) hS heff hinv'
  obtain ⟨k, hk⟩ := handles_effects (C := C) (S := S) (cfg := cfg) heff hm
  have hdb : dbOps n.effects ≠ [] := by
    rw [hk] at hd ⊢
    exact nonError_db hd hne
  refine hx.preserve (id := r.requestId) (P := fun r' => ∃ iv, ivOf i = some iv ∧ ivCounter iv < ivCounter r'.decryptionIv ∧ r'.decryptionIv.length = 12)
    hC hS hcfg ?_ h1 n h2 hh ?_ hno r' hr'
  · rintro h0 n0 i0 env0 k0 es0 out0 ra rb rc hx0 hu hva hid hs ⟨iv, g1, g2, g3⟩
    obtain ⟨iv', q1, q2, q3, q4⟩ := updated_decIv hu hs
    have := q4 (by intro h; rw [h] at g3; cases g3)
    exact ⟨iv, g1, by omega, q3⟩
  · intro rr hrr
    have hrr' : S.view (n.afterStore S) r.requestId = some rr := by
      rcases hview with h | h
      · rw [← h]; exact hrr
      · rw [h] at hrr; cases hrr
    cases hvc with
    | same h0 hsame => exact absurd h0 hdb
    | deleted i' env' r'' hd' he' hv' _ hvw =>
      unfold Step.Handles at hm
      rw [hm] at he'
      cases he'
      have := ((verified_authentic hS hinv (idFits_of_wf hmw) hew.stack).mp hv').unique hau
      subst this
      rw [hvw, if_pos rfl] at hrr'
      cases hrr'
    | added ty i0 env0 r0 hd ha h0 hvw =>
      exfalso
      obtain ⟨m, h1, h2⟩ := ha.event
      unfold Step.Handles at hm
      rw [hm] at h1
      cases h1
      cases h2
    | updated i0 env0 k0 es out r0 r1 rx hd hu h0 hs hvw =>
      have h1 := hu.event
      unfold Step.Handles at hm
      rw [hm] at h1
      cases h1
      have hv0 := ((verified_authentic hS hinv (idFits_of_wf hmw) hew.stack).mp hu.verified).unique hau
      subst hv0
      have hid : r1.requestId = r0.requestId := (hS.get_id _ _ _ hinv h0).symm
      rw [hvw, if_pos hid.symm] at hrr'
      cases hrr'
      obtain ⟨iv', q1, q2, q3, q4⟩ := updated_decIv hu hs
      exact ⟨iv', q1, q2, q3⟩

/-- a CHALLENGE whose IV is used up is refused -/
theorem stale_refused (hS : LawfulStore C S Inv) {st : σ} (hi : Inv st) {i : Interest} {env : Env} (hid : IdFits cfg i) (he : env.Wf)
    {id : RequestId} (hn : Names cfg env i id)
    (hst : ∀ r, S.view st id = some r → IvsOk r ∧ ∃ iv, ivOf i = some iv ∧ ivCounter iv < ivCounter r.decryptionIv ∧ r.decryptionIv.length = 12) :
    OnlyError C cfg i (onChallenge C S cfg st i env) ∨
    ∃ code d, IsErrorReply C cfg i code d ∧ onChallenge C S cfg st i env = ⟨[.dbDelete id, .put d], .done⟩ := by
  unfold onChallenge OnlyError
  rcases lookup_cases (cfg := cfg) (i := i) hS hi hid he.stack with ⟨h1, _⟩ | ⟨r, h1, h2, h3⟩
  · left
    rw [h1]
    exact ⟨_, _, ⟨by decide, _, rfl⟩, rfl⟩
  · have hrid : r.requestId = id := h3.unique hn
    rw [h1]
    dsimp only
    by_cases hv : C.verifyInterest i r.cert = false
    · left
      rw [if_pos hv]
      exact ⟨_, _, ⟨by decide, _, rfl⟩, rfl⟩
    · right
      rw [if_neg hv]
      rw [hrid] at h2
      obtain ⟨hiv, iv, g1, g2, g3⟩ := hst r h2
      rcases hdec : decodeAes C (i.params.getD ⟨0, []⟩) r.encryptionKey r.requestId r.decryptionIv r.encryptionIv with ⟨div, res⟩
      dsimp only
      cases res with
      | exc e => rw [hrid]; exact ⟨_, _, ⟨by decide, _, rfl⟩, rfl⟩
      | ub u => exact absurd (congrArg Prod.snd hdec) (decodeAes_no_ub (by rcases hiv.dec with h | h <;> simp [h]) (by rcases hiv.enc with h | h <;> simp [h]) u)
      | ok pt =>
        exfalso
        obtain ⟨es0, ct, iv', tag, p1, p2, p3, p4, p5, p6, p7, p8, p9, p10, p11⟩ := decodeAes_ok hdec
        have : ivOf i = some iv'.val := by unfold ivOf; rw [p1]; dsimp only; rw [p3]
        rw [g1] at this
        cases this
        have := (p8 (by intro h; rw [h] at g3; cases g3)).2.1
        omega

end Ndncert
