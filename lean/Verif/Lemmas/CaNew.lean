import Verif.Spec.Ca
import Verif.Lemmas.Encoders

namespace Ndncert

theorem requestParamsDecode_no_ub (C : Crypto) (p : Option Block) (ty : RequestType) (u : Ub) :
    requestParamsDecode C p ty ≠ .ub u := by
  intro h
  unfold requestParamsDecode at h
  have fold_no_ub : ∀ (es : List Block) (a : ReqParamsAcc), es.foldlM (requestParamsStep C ty) a ≠ .ub u := by
    intro es
    induction es with
    | nil => intro a h; cases h
    | cons e es ih =>
      intro a h
      simp only [List.foldlM_cons] at h
      cases hs : requestParamsStep C ty a e with
      | ok a' => rw [hs] at h; exact ih _ h
      | exc x => rw [hs] at h; cases h
      | ub w =>
        rw [requestParamsStep_eq] at hs
        split at hs
        · cases hs
        · split at hs
          · unfold certOfItem at hs
            cases h1 : e.elements with
            | ok es1 =>
              rw [h1] at hs
              simp only [Res.bind_ok] at hs
              cases h2 : getElem es1 T.Data with
              | ok d =>
                rw [h2] at hs
                simp only [Res.bind_ok, certOfBlock] at hs
                cases hd : C.decodeCert d <;> rw [hd] at hs <;> cases hs
              | exc x => rw [h2] at hs; cases hs
              | ub w => unfold getElem at h2; cases hf : es1.find? (fun e => e.typ == T.Data) <;> rw [hf] at h2 <;> cases h2
            | exc x => rw [h1] at hs; cases hs
            | ub w => exact elements_no_ub _ _ h1
          · split at hs <;> cases hs
  have tail : ∀ es : List Block, ((es.foldlM (requestParamsStep C ty) {} : Res ReqParamsAcc) >>= fun a =>
      if a.pubCount ≠ 1 ∨ a.certCount ≠ 1 then (.exc .runtime : Res (Bytes × Cert))
      else match a.cert with
        | some c => .ok (a.pub, c)
        | none => .ub .nullDeref) ≠ .ub u := by
    intro es h
    cases hf : es.foldlM (requestParamsStep C ty) {} with
    | exc e => rw [hf] at h; cases h
    | ub w =>
      rw [hf] at h
      cases h
      exact fold_no_ub _ _ hf
    | ok a =>
      rw [hf] at h
      simp only [Res.bind_ok] at h
      obtain ⟨_, _, i3, i4, _⟩ := requestParams_fold C ty hf
      split at h
      · cases h
      · rename_i hn
        have hl : (es.filter (fun e => certElemType ty = some e.typ)).length = 1 := by
          simp only [Nat.zero_add] at i3; omega
        obtain ⟨x, hx⟩ := List.length_eq_one_iff.mp hl
        rw [hx] at i4
        simp only [List.getLast?_singleton] at i4
        obtain ⟨c, _, hc2⟩ := i4
        rw [hc2] at h
        cases h
  cases p with
  | none => exact tail [] h
  | some b =>
    dsimp only at h
    cases he : b.elements with
    | ok es => rw [he] at h; exact tail es h
    | exc e => rw [he] at h; cases h
    | ub w => exact elements_no_ub _ _ he

/-- a submitted certificate was decoded from a Data element -/
theorem submits_decode {C : Crypto} {ty : RequestType} {i : Interest} {pub : Bytes} {cert : Cert}
    (h : Submits C ty i pub cert) : ∃ d : Block, d.Fits ∧ C.decodeCert d = some cert := by
  unfold Submits at h
  cases hp : i.params with
  | none => rw [hp] at h; simp [requestParamsDecode] at h
  | some b =>
    rw [hp, requestParamsDecode_ok_iff] at h
    obtain ⟨es, h1, _, ⟨e, _, h4⟩, _⟩ := h
    unfold certOfItem at h4
    rw [Res.bind_eq_ok] at h4
    obtain ⟨inner, h6, h4⟩ := h4
    rw [Res.bind_eq_ok] at h4
    obtain ⟨d, h7, h4⟩ := h4
    refine ⟨d, ?_, by simpa [certOfBlock] using h4⟩
    simp only [getElem, Res.ofOption_eq_ok] at h7
    exact parse_fits h6 d (List.mem_of_find?_eq_some h7)

theorem submits_unique {C : Crypto} {ty : RequestType} {i : Interest} {pub pub' : Bytes} {cert cert' : Cert}
    (h : Submits C ty i pub cert) (h' : Submits C ty i pub' cert') : pub' = pub ∧ cert' = cert := by
  unfold Submits at h h'
  rw [h] at h'
  cases h'
  exact ⟨rfl, rfl⟩

theorem isPrefixOf_iff (a b : Name) : isPrefixOf a b = true ↔ a <+: b := List.isPrefixOf_iff_prefix

theorem identityOf_eq (c : Cert) : identityOf c.name = c.identity := rfl

theorem idFor_eq (C : Crypto) (idKey : Bytes) (n : Name) : idFor C idKey n = requestIdOf C idKey n := rfl

theorem isCertName_iff (n : Name) : isValidCertName n = true ↔ IsCertName n := by
  unfold isValidCertName IsCertName
  constructor
  · intro h
    simp only [Bool.and_eq_true, decide_eq_true_eq, beq_iff_eq] at h
    obtain ⟨h1, h2⟩ := h
    refine ⟨n.take (n.length - 4), ?_⟩
    have hd : (n.drop (n.length - 4)).length = 4 := by rw [List.length_drop]; omega
    have h3 : (n.drop (n.length - 4))[0]? = some keyComponent := by rw [List.getElem?_drop]; exact h2
    have h4 := List.take_append_drop (n.length - 4) n
    generalize n.drop (n.length - 4) = t at hd h3 h4
    match t, hd with
    | [a, b, c, d], _ =>
      simp only [List.getElem?_cons_zero, Option.some.injEq] at h3
      subst h3
      exact ⟨b, c, d, h4.symm⟩
  · rintro ⟨a, b, c, d, rfl⟩
    simp [keyComponent]

theorem nameRejected_iff {p : CaProfile} {c : Cert} : nameRejected p c = false ↔ NamePolicy p c := by
  unfold nameRejected NamePolicy
  rw [← isCertName_iff, ← isPrefixOf_iff, identityOf_eq]
  cases p.maxSuffixLength with
  | none => simp [and_assoc, and_left_comm]
  | some k => simp [and_assoc, and_left_comm]

theorem nameRejected_policy {p : CaProfile} {c : Cert} (h : nameRejected p c = false) : NamePolicy p c := nameRejected_iff.mp h

theorem validityRejected_iff {p : CaProfile} {nb na now : Time} :
    validityRejected p nb na now = false ↔
    now - 120 * 1000000000 ≤ nb ∧ na ≤ now + p.maxValidityPeriod * 1000000000 ∧ nb < na := by
  unfold validityRejected graceNs nsPerSec
  simp only [decide_eq_false_iff_not, not_or, Int.not_lt, Int.not_le, gt_iff_lt]

/-- the reply to an accepted request -/
def acceptOutcome (C : Crypto) (cfg : CaConfig) (i : Interest) (env : Env) (rs : RequestState) : Outcome :=
  { effects := [.dbAdd rs,
      .put (mkData C cfg.profile.caPrefix i.name
        (requestEncode (C.ecdhPub env.ecdhPriv) env.salt rs.requestId cfg.profile.supportedChallenges)),
      .callback rs],
    term := .done }

/-- how a NEW or REVOKE handler can end -/
inductive NewCase {σ : Type} (C : Crypto) (S : StoreI σ) (cfg : CaConfig) (idKey : Bytes) (st : σ) (ty : RequestType)
    (i : Interest) (env : Env) : Outcome → Prop where
  | accept (pub : Bytes) (cert : Cert) (secret : Bytes) (st' : σ) (hsub : Submits C ty i pub cert)
      (hca : CaCertValid env) (hpub : pub ≠ [])
      (hsec : C.ecdhDerive env.ecdhPriv pub = some secret) (hname : NamePolicy cfg.profile cert)
      (hnew : ty = .new → ValidityPolicy cfg.profile cert env.now ∧ C.verifyCert cert cert = true ∧
        C.verifyInterest i cert = true)
      (hrev : ty = .revoke → C.verifyCert cert env.caCert = true)
      (hadd : S.add st (newRequestState C cfg idKey ty cert secret env.salt) = .ok st') :
      NewCase C S cfg idKey st ty i env (acceptOutcome C cfg i env (newRequestState C cfg idKey ty cert secret env.salt))
  | error (code : ErrorCode) (info : Bytes) (hcode : code ≠ 0) : NewCase C S cfg idKey st ty i env
      { effects := [.put (errorData C cfg.profile.caPrefix i.name code info)], term := .done }
  | threwCa (e : Exc) (hv : env.caCert.validity = none) : NewCase C S cfg idKey st ty i env ⟨[], .threw e⟩
  | threw (pub : Bytes) (cert : Cert) (hsub : Submits C ty i pub cert) (hty : ty = .new) (hv : cert.validity = none)
      (e : Exc) : NewCase C S cfg idKey st ty i env ⟨[], .threw e⟩
  | undefined (r : RequestState) (u : Ub) (h : S.add st r = .ub u) : NewCase C S cfg idKey st ty i env ⟨[], .undefined u⟩

theorem onNew_cases {σ : Type} (C : Crypto) (S : StoreI σ) (cfg : CaConfig) (idKey : Bytes) (st : σ) (ty : RequestType)
    (hty : ty = .new ∨ ty = .revoke) (i : Interest) (env : Env) :
    NewCase C S cfg idKey st ty i env (onNewRenewRevoke C S cfg idKey st ty i env) := by
  have err : ∀ code info, code ≠ 0 → NewCase C S cfg idKey st ty i env (replyError C cfg i [] code info) :=
    fun code info h => .error code info h
  unfold onNewRenewRevoke
  cases hca : certIsValid env.caCert env.nowCa with
  | exc e =>
    refine .threwCa e ?_
    unfold certIsValid at hca
    revert hca
    cases env.caCert.validity <;> simp
  | ub u => unfold certIsValid at hca; revert hca; cases env.caCert.validity <;> simp
  | ok b =>
    cases b with
    | false => exact err _ _ (by decide)
    | true =>
      have hca' : CaCertValid env := by
        unfold certIsValid at hca
        revert hca
        cases hv : env.caCert.validity with
        | none => simp
        | some v =>
          simp only [Res.ok.injEq, decide_eq_true_eq]
          intro h
          exact ⟨v.1, v.2, hv, h⟩
      dsimp only
      cases hd : requestParamsDecode C i.params ty with
      | ub u => exact absurd hd (requestParamsDecode_no_ub C _ _ u)
      | exc e => exact err _ _ (by decide)
      | ok pc =>
        obtain ⟨pub, cert⟩ := pc
        dsimp only
        split
        · exact err _ _ (by decide)
        rename_i hpub
        cases hs : C.ecdhDerive env.ecdhPriv pub with
        | none => exact err _ _ (by decide)
        | some secret =>
          dsimp only
          split
          · exact err _ _ (by decide)
          rename_i hname
          have hname' := nameRejected_policy (by simpa using hname)
          have acc : (ty = .new → ValidityPolicy cfg.profile cert env.now ∧ C.verifyCert cert cert = true ∧
              C.verifyInterest i cert = true) → (ty = .revoke → C.verifyCert cert env.caCert = true) →
              NewCase C S cfg idKey st ty i env (acceptRequest C S cfg idKey st ty i env cert secret) := by
            intro h1 h2
            unfold acceptRequest
            dsimp only
            cases hadd : S.add st (newRequestState C cfg idKey ty cert secret env.salt) with
            | exc e => exact err _ _ (by decide)
            | ub u => exact .undefined _ u hadd
            | ok st' => exact .accept pub cert secret st' hd hca' hpub hs hname' h1 h2 hadd
          split
          · rename_i htn
            cases hv : cert.validity with
            | none => exact .threw pub cert hd htn hv _
            | some v =>
              dsimp only
              split
              · exact err _ _ (by decide)
              rename_i hval
              split
              · exact err _ _ (by decide)
              rename_i hself
              split
              · exact err _ _ (by decide)
              rename_i hint
              apply acc
              · intro _
                exact ⟨⟨v.1, v.2, hv, validityRejected_iff.mp (by simpa using hval)⟩, by simpa using hself, by simpa using hint⟩
              · intro h; rw [htn] at h; cases h
          · rename_i htn
            split
            · split
              · exact err _ _ (by decide)
              rename_i hself
              exact acc (fun h => absurd h htn) (fun _ => by simpa using hself)
            · rename_i htr
              rcases hty with h | h
              · exact absurd h htn
              · exact absurd h htr

theorem newRequestState_storable {C : Crypto} (hC : C.Lawful) {cfg : CaConfig} (hcfg : NameFits cfg.profile.caPrefix)
    {ty : RequestType} {i : Interest} {pub : Bytes} {cert : Cert} (hs : Submits C ty i pub cert)
    (idKey secret salt : Bytes) : Storable C (newRequestState C cfg idKey ty cert secret salt) := by
  obtain ⟨d, hf, hd⟩ := submits_decode hs
  obtain ⟨hw, _⟩ := hC.decode_wire d cert hd
  exact
    { cert := by show C.decodeCert cert.wire = some cert; rw [hw]; exact hd
      certFits := by show cert.wire.Fits; rw [hw]; exact hf
      caFits := hcfg
      key := hC.hkdf_length _ _ _
      status := by intro n h; cases h
      chal := ⟨fun _ => rfl, fun _ => rfl⟩
      chalFits := by intro cs h; cases h }

/-- with a lawful storage adding an acceptable request fails only if its id is present -/
theorem add_iff {σ : Type} {C : Crypto} {S : StoreI σ} {Inv : σ → Prop} (hS : LawfulStore C S Inv) {st : σ} (hi : Inv st)
    {r : RequestState} (hr : Storable C r) : (∃ st', S.add st r = .ok st') ↔ S.view st r.requestId = none := by
  constructor
  · rintro ⟨st', h⟩
    apply Classical.byContradiction
    intro hne
    obtain ⟨e, he⟩ := hS.add_present st r hi hne
    rw [he] at h
    cases h
  · intro h
    obtain ⟨st', _, h1, _⟩ := hS.add_absent st r hi hr h
    exact ⟨st', h1⟩

end Ndncert
