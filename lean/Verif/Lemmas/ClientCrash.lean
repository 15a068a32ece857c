import Verif.Spec.ClientCrash
import Verif.Lemmas.ClientEnd
import Verif.Lemmas.ClientTalk
import Verif.Lemmas.StrictSteps

/-! # Uncaught exceptions in the command line client -/

namespace Ndncert

variable {C : Crypto} {T : TextIO} {file : Bytes} {pib : Pib} {stdin : List Bytes}

/-! ## Names -/

theorem genProfileName_iff {d : Data} : (∃ e, genProfileName d = .exc e) ↔ ∀ n, ¬ HasName d.content n := by
  constructor
  · rintro ⟨e, h⟩ n hn
    have := hasName_bind hn (fun n => Res.ok (n ++ [segmentZero]))
    unfold genProfileName at h
    rw [this] at h
    cases h
  · intro h
    cases hg : genProfileName d with
    | exc e => exact ⟨e, rfl⟩
    | ub u => exact absurd hg (genProfileName_no_ub d u)
    | ok n =>
      unfold genProfileName at hg
      rw [Res.bind_eq_ok] at hg
      obtain ⟨es, h1, hg⟩ := hg
      rw [Res.bind_eq_ok] at hg
      obtain ⟨nb, h2, hg⟩ := hg
      rw [Res.bind_eq_ok] at hg
      obtain ⟨m, h3, _⟩ := hg
      exact absurd ⟨es, nb, h1, getElem_iff.mp h2, (nameOfBlock_iff.mp h3).2⟩ (h m)

theorem runDiscovery_threw {c : Client} {n full : Name} {e : Exc} (h : (runDiscovery c n full).ended = .threw e) : n = [] := by
  cases n with
  | nil => rfl
  | cons a l =>
    unfold runDiscovery genDiscoveryName at h
    rw [List.getLast?_cons] at h
    cases h

theorem isValidCertName_shape {n : Name} : isValidCertName n = true ↔ ∃ id a b c, n = id ++ [keyComponent, a, b, c] := by
  constructor
  · intro h
    unfold isValidCertName at h
    simp only [Bool.and_eq_true, decide_eq_true_eq, beq_iff_eq] at h
    obtain ⟨h1, h2⟩ := h
    have hd : n = n.take (n.length - 4) ++ n.drop (n.length - 4) := (List.take_append_drop _ _).symm
    have hl : (n.drop (n.length - 4)).length = 4 := by rw [List.length_drop]; omega
    have h0 : (n.drop (n.length - 4))[0]? = some keyComponent := by rw [List.getElem?_drop]; simpa using h2
    match hx : n.drop (n.length - 4), hl, h0 with
    | [w, x, y, z], _, h0 =>
      simp at h0
      subst h0
      exact ⟨_, x, y, z, hx ▸ hd⟩
  · rintro ⟨id, a, b, c, rfl⟩
    unfold isValidCertName
    simp

theorem Name.parent_concat (n : Name) (d : Block) : Name.parent (n ++ [d]) = n := by
  unfold Name.parent
  simp

theorem fullName_concat (ca : Name) (a b c d : Block) :
    ca ++ [gcomp (bytes! "KEY"), a, b, c, d] = (ca ++ [keyComponent, a, b, c]) ++ [d] :=
  (List.append_assoc ca [keyComponent, a, b, c] [d]).symm

theorem fullNameOfCa_iff {r : Name} : isValidCertName r.parent = true ∧ r ≠ [] ↔ ∃ ca, FullNameOfCa ca r := by
  constructor
  · rintro ⟨h, hr⟩
    obtain ⟨id, a, b, c, h⟩ := isValidCertName_shape.mp h
    refine ⟨id, a, b, c, r.getLast hr, ?_⟩
    have h1 := List.dropLast_concat_getLast hr
    have h2 : r.parent = r.dropLast := by unfold Name.parent; rw [List.dropLast_eq_take]
    rw [← h2, h] at h1
    exact h1.symm.trans (List.append_assoc _ _ _)
  · rintro ⟨ca, a, b, c, d, rfl⟩
    refine ⟨isValidCertName_shape.mpr ⟨ca, a, b, c, ?_⟩, by simp⟩
    rw [fullName_concat, Name.parent_concat]

/-- the identity of a redirection -/
theorem identity_of_redirect {r id : Name} (h : identityOfCertName r.parent = .ok id) : FullNameOfCa id r := by
  unfold identityOfCertName at h
  split at h
  · next hv =>
    injection h with h
    have hr : r ≠ [] := by rintro rfl; simp [Name.parent, isValidCertName] at hv
    obtain ⟨ca, hca⟩ := fullNameOfCa_iff.mp ⟨hv, hr⟩
    have : ca = id := by
      obtain ⟨a, b, c, d, rfl⟩ := hca
      rw [← h, fullName_concat, Name.parent_concat]
      simp
    exact this ▸ hca
  · cases h

theorem FullNameOfCa.unique {ca ca' r : Name} (h : FullNameOfCa ca r) (h' : FullNameOfCa ca' r) : ca = ca' := by
  obtain ⟨a, b, c, d, rfl⟩ := h
  obtain ⟨a', b', c', d', e⟩ := h'
  exact (List.append_inj' e rfl).1

theorem redirect_bad {r : Name} {e : Exc} (h : identityOfCertName r.parent = .exc e) : ∀ ca, FullNameOfCa ca r → ca = [] := by
  intro ca hca
  have := (fullNameOfCa_iff.mpr ⟨ca, hca⟩).1
  unfold identityOfCertName at h
  rw [if_pos this] at h
  cases h

/-! ## Keys -/

theorem createKey_none {p : Pib} {id : Name} {ds : List Block} {e : IdEntry} (he : p.get id = some e) (h : createKey p id ds = none) :
    ∀ b ∈ ds, id ++ [keyComponent, b] ∈ e.keys := by
  unfold createKey at h
  rw [he] at h
  dsimp only at h
  split at h
  · next hf =>
    intro b hb
    have := List.find?_eq_none.mp hf b hb
    simpa using this
  · cases h

theorem createKey_drawn {p p' : Pib} {id k : Name} {ds : List Block} (h : createKey p id ds = some (k, p')) :
    ∃ b ∈ ds, k = id ++ [keyComponent, b] := by
  unfold createKey at h
  split at h
  · cases h
  · split at h
    · cases h
    · next b hb =>
      injection h with h
      injection h with h1 _
      exact ⟨b, List.mem_of_find?_eq_some hb, h1.symm⟩

theorem Pib.get_append_new {p : Pib} {id : Name} (h : p.get id = none) (e : IdEntry) (he : e.name = id) : Pib.get (p ++ [e]) id = some e := by
  unfold Pib.get at *
  rw [List.find?_append, h]
  simp [he]

theorem Pib.get_of_mem {p : Pib} (hn : (p.map IdEntry.name).Nodup) {e : IdEntry} (he : e ∈ p) : p.get e.name = some e := by
  cases hg : p.get e.name with
  | none => exact absurd rfl (Pib.get_none hg e he)
  | some e' =>
    obtain ⟨h1, h2⟩ := Pib.get_some hg
    rw [Pib.same_name hn h1 he h2]

theorem prepareKey_none {c : Client} {id : Name} {ds : List Block} (h : prepareKey c id ds = none) : AllUsed c.pib [] ds := by
  unfold prepareKey at h
  split at h
  · next hg =>
    split at h
    · next hc =>
      unfold createIdentity at hc
      intro b hb
      have := createKey_none (Pib.get_append_new hg ⟨id, [], none⟩ rfl) hc b hb
      cases this
    · cases h
  · next e hg =>
    split at h
    · cases h
    · split at h
      · next hc =>
        obtain ⟨h1, h2⟩ := Pib.get_some hg
        intro b hb
        exact .inr ⟨e, h1, h2 ▸ createKey_none hg hc b hb⟩
      · cases h

theorem Pib.mem_addKey {p : Pib} {id k : Name} {e : IdEntry} (h : e ∈ p.addKey id k) :
    ∃ e0 ∈ p, e.name = e0.name ∧ ∀ x ∈ e.keys, x ∈ e0.keys ∨ x = k := by
  unfold Pib.addKey at h
  obtain ⟨e0, h1, h2⟩ := List.mem_map.mp h
  refine ⟨e0, h1, ?_⟩
  subst h2
  split
  · exact ⟨rfl, fun x hx => by simpa using hx⟩
  · exact ⟨rfl, fun x hx => .inl hx⟩

theorem prepareKey_drawn {c c' : Client} {id k : Name} {ds : List Block} {e : IdEntry} (h : prepareKey c id ds = some (c', e, k)) :
    (∃ e0, c'.pib.get e.name = some e0) ∧
    ∀ x ∈ c'.pib, ∀ b, x.name ++ [keyComponent, b] ∈ x.keys → b ∈ ds ∨ ∃ e0 ∈ c.pib, e0.name ++ [keyComponent, b] ∈ e0.keys := by
  unfold prepareKey at h
  split at h
  · next hg =>
    split at h
    · cases h
    · next k' p' hc =>
      injection h with h; injection h with h1 h2; injection h2 with h2 h3
      subst h1; subst h2; subst h3
      obtain ⟨b0, hb0, hk⟩ := createKey_drawn hc
      obtain ⟨_, g2⟩ := createIdentity_some hg hc
      subst g2
      refine ⟨⟨_, Pib.get_append_new hg _ rfl⟩, ?_⟩
      intro x hx b hb
      rcases List.mem_append.mp hx with hx | hx
      · exact .inr ⟨x, hx, hb⟩
      · simp only [List.mem_singleton] at hx
        subst hx
        simp only [List.mem_singleton, hk] at hb
        have := List.append_cancel_left hb
        simp at this
        exact .inl (this ▸ hb0)
  · next e0 hg =>
    split at h
    · injection h with h; injection h with h1 h2; injection h2 with h2 h3
      subst h1; subst h2; subst h3
      exact ⟨⟨_, by rw [(Pib.get_some hg).2]; exact hg⟩, fun x hx b hb => .inr ⟨x, hx, hb⟩⟩
    · split at h
      · cases h
      · next k' p' hc =>
        injection h with h; injection h with h1 h2; injection h2 with h2 h3
        subst h1; subst h2; subst h3
        obtain ⟨b0, hb0, hk⟩ := createKey_drawn hc
        obtain ⟨e1, _, g1, _, _, g4⟩ := createKey_some hc
        obtain ⟨m1, m2⟩ := Pib.get_some hg
        subst g4
        refine ⟨?_, ?_⟩
        · dsimp only
          rw [m2]
          cases hq : Pib.get (c.pib.addKey id k') id with
          | some q => exact ⟨q, rfl⟩
          | none =>
            obtain ⟨e', n1, n2, _⟩ := Pib.Kept.addKey c.pib id k' e0 m1
            exact absurd (n2.trans m2) (Pib.get_none hq e' n1)
        · intro x hx b hb
          obtain ⟨y, y1, y2, y3⟩ := Pib.mem_addKey hx
          rcases y3 _ hb with g | g
          · exact .inr ⟨y, y1, y2 ▸ g⟩
          · rw [hk] at g
            have := (List.append_inj' g rfl).2
            simp at this
            exact .inl (this ▸ hb0)

theorem captureKeyName_threw {c c' : Client} {e : IdEntry} {ds : List Block} {x : Exc} {e0 : IdEntry} (hg : c.pib.get e.name = some e0)
    (h : captureKeyName c e ds = (c', .inl (.threw x))) : ∀ b ∈ ds, ∃ e ∈ c.pib, e.name ++ [keyComponent, b] ∈ e.keys := by
  unfold captureKeyName at h
  rw [getline_eq] at h
  dsimp only at h
  split at h
  · split at h
    · next hc =>
      obtain ⟨h1, h2⟩ := Pib.get_some hg
      intro b hb
      exact ⟨e0, h1, h2 ▸ createKey_none hg hc b hb⟩
    · cases h
  · split at h
    · cases h
    · split at h <;> cases h

theorem genNew_threw {r : Request} {id : Name} {b : Block} {nb na : Time} {v : Block} {x : Exc}
    (h : (genNewInterest C r (id ++ [keyComponent, b]) nb na v).2 = .exc x) : C.keyPub (id ++ [keyComponent, b]) = none := by
  unfold genNewInterest at h
  split at h
  · cases h
  · split at h
    · cases h
    · rw [identityOfKeyName_key] at h
      dsimp only at h
      split at h
      · next hk => exact hk
      · cases h

theorem runNew_threw {env : ClientEnv} {c : Client} (hs : c.pib.Sound) {p : CaProfile} {id : Name} {x : Exc}
    (h : (runNew C env c p id).ended = .threw x) :
    AllUsed c.pib [] env.keyIds ∨ AllUsed c.pib env.keyIds env.keyIds2 ∨ ∃ b, C.keyPub (id ++ [keyComponent, b]) = none := by
  unfold runNew at h
  obtain ⟨ls, hl⟩ := captureValidity_same 3 c
  generalize captureValidity 3 c = y at *
  obtain ⟨o, c1⟩ := y
  dsimp only at hl
  subst hl
  cases o with
  | none => cases h
  | some hrs =>
    dsimp only at h
    unfold runNewWith at h
    dsimp only at h
    generalize hpk : prepareKey _ id env.keyIds = y at *
    cases y with
    | none => exact .inl (prepareKey_none (c := { c with stdin := ls, request := some _ }) hpk)
    | some y =>
      obtain ⟨c2, e, k⟩ := y
      obtain ⟨s1, s2, s3, s4⟩ := prepareKey_sound hpk hs
      obtain ⟨⟨e0, d1⟩, d2⟩ := prepareKey_drawn hpk
      dsimp only at h
      have hb : ∃ c3 chosen, (if c2.newIdentity = [] then captureKeyName c2 e env.keyIds2 else (c2, Sum.inr k)) = (c3, chosen) ∧
          (∀ k, chosen = .inr k → ∃ b, k = id ++ [keyComponent, b]) ∧
          ∀ x, chosen = .inl (.threw x) → AllUsed c.pib env.keyIds env.keyIds2 := by
        split
        · have := captureKeyName_sound (c := c2) (e := e) env.keyIds2 s1 (s2.symm ▸ s4)
          rw [s2] at this
          refine ⟨_, _, rfl, this.2, ?_⟩
          intro x hx
          have ht := captureKeyName_threw (c' := (captureKeyName c2 e env.keyIds2).1) d1 (Prod.ext rfl hx)
          intro b hb
          obtain ⟨y, y1, y2⟩ := ht b hb
          exact d2 y y1 b y2
        · exact ⟨_, _, rfl, fun x hx => by injection hx with hx; subst hx; exact s3, by simp⟩
      obtain ⟨c3, chosen, heq, b2, b3⟩ := hb
      rw [heq] at h
      dsimp only at h
      cases chosen with
      | inl z => exact .inr (.inl (b3 x (by rw [show z = .threw x from h])))
      | inr key =>
        obtain ⟨b, rfl⟩ := b2 key rfl
        dsimp only at h
        cases hah : addHours env.now hrs with
        | none => rw [hah] at h; cases h
        | some na =>
          rw [hah] at h
          dsimp only at h
          have hg := fun x => @genNew_threw C { profile := p, type := .new, requestId := env.memId, ecdhPriv := env.ecdhPriv, aesKey := env.memKey, nonce := env.memNonce }
            id b env.now na env.version x
          generalize genNewInterest C _ (id ++ [keyComponent, b]) env.now na env.version = z at *
          obtain ⟨r1, res⟩ := z
          dsimp only at h hg
          cases res with
          | exc y => exact .inr (.inr ⟨b, hg y rfl⟩)
          | ub y => cases h
          | ok o => cases o <;> cases h

/-! ## Challenges -/

theorem blockOfBytes_exc {v : Bytes} {x : Exc} (h : blockOfBytes v = .exc x) : ∀ b, parse v ≠ .ok [b] := by
  intro b hb
  have : blockOfBytes v = .ok b := blockFromValue_iff.mpr hb
  rw [h] at this
  cases this

theorem challengeParams_no_exc (c : Client) (r : Request) (ty : Bytes) (keys : List Bytes) (x : Exc) : (challengeParams c r ty keys).2 ≠ .exc x := by
  unfold challengeParams
  split
  · simp
  · split
    · split
      · simp
      · split
        · simp
        · split <;> simp
    · simp

theorem genCodeTlv_single {k : ChalKind} {v : Bytes} {x : Exc} : genCodeTlv k [(KEY_CODE, v)] ≠ .exc x := by
  have : mmFind [(KEY_CODE, v)] KEY_CODE = some v := by simp [mmFind]
  unfold genCodeTlv
  rw [if_neg (by simp), this]
  simp

/-- with what was asked for filled in, only a certificate that is not one TLV element is refused -/
theorem tlv_threw {k : ChalKind} {ty : Bytes} (hty : ty = k.regName) {st : Status} {cs : Bytes} {keys : List Bytes} (hkeys : requestedParams k st cs = .ok keys)
    {c : Client} {r : Request} (hst : r.status = st) {m : MMap} (hp : (challengeParams c r ty keys).2 = .ok m) {x : Exc}
    (hes : genChallengeTlv k st cs m = .exc x) : ∀ b, parse (c.stdin.headD []) ≠ .ok [b] := by
  subst hst
  have hcode : ∀ k', r.status = .challenge → keys = [KEY_CODE] → genCodeTlv k' m = .exc x → False := by
    intro k' h1 h3 h4
    subst h3
    have hm := challengeParams_line (by rw [h1]; simp) hp
    subst hm
    exact genCodeTlv_single h4
  cases k with
  | pin =>
    unfold requestedParams at hkeys
    unfold genChallengeTlv at hes
    dsimp only at hkeys hes
    by_cases h1 : r.status = .beforeChallenge
    · rw [if_pos h1] at hes
      cases hes
    · rw [if_neg h1] at hkeys hes
      split at hes
      · next h2 =>
        refine (hcode .pin h2.1 ?_ hes).elim
        split at hkeys
        · injection hkeys with hkeys; exact hkeys.symm
        · split at hkeys
          · injection hkeys with hkeys; exact hkeys.symm
          · cases hkeys
      · next h2 =>
        split at hkeys
        · next h3 => exact absurd ⟨h3.1, .inl h3.2⟩ h2
        · split at hkeys
          · next h3 => exact absurd ⟨h3.1, .inr h3.2⟩ h2
          · cases hkeys
  | email =>
    unfold requestedParams at hkeys
    unfold genChallengeTlv at hes
    dsimp only at hkeys hes
    by_cases h1 : r.status = .beforeChallenge
    · rw [if_pos h1] at hes
      have hk : keys = [KEY_EMAIL] := by
        split at hkeys
        · injection hkeys with hkeys; exact hkeys.symm
        · rw [h1] at hkeys
          simp at hkeys
      subst hk
      subst hty
      obtain ⟨a, y, g1, g2, g3⟩ := challengeParams_email h1 hp
      subst g3
      have : mmFind [((bytes! "email"), y)] KEY_EMAIL = some y := by
        unfold mmFind
        have : List.find? (fun e : Bytes × Bytes => e.1 == KEY_EMAIL) [((bytes! "email"), y)] = some ((bytes! "email"), y) :=
          List.find?_cons_of_pos (by show ((bytes! "email") == KEY_EMAIL) = true; decide)
        rw [this]
        rfl
      rw [if_neg (by simp), this] at hes
      cases hes
    · rw [if_neg h1] at hes
      split at hkeys
      · next h => exact absurd h.1 h1
      · split at hkeys
        · next h3 =>
          rw [if_pos ⟨h3.1, .inl h3.2⟩] at hes
          injection hkeys with hkeys
          exact (hcode .email h3.1 hkeys.symm hes).elim
        · split at hkeys
          · next h3 =>
            rw [if_pos ⟨h3.1, .inr h3.2⟩] at hes
            injection hkeys with hkeys
            exact (hcode .email h3.1 hkeys.symm hes).elim
          · cases hkeys
  | possession =>
    unfold requestedParams at hkeys
    unfold genChallengeTlv at hes
    dsimp only at hkeys hes
    have hne : ¬(r.status = .beforeChallenge ∧ ty = (bytes! "email")) := by
      rintro ⟨_, h⟩
      rw [hty] at h
      revert h
      decide
    by_cases h1 : r.status = .beforeChallenge
    · rw [if_pos h1] at hkeys hes
      injection hkeys with hkeys
      subst hkeys
      have hm := challengeParams_line hne hp
      subst hm
      dsimp only at hes
      rw [if_pos rfl] at hes
      cases hb : blockOfBytes (c.stdin.headD []) with
      | ok b => rw [hb] at hes; cases hes
      | exc y => exact blockOfBytes_exc hb
      | ub u => exact absurd hb (blockOfBytes_no_ub _ _)
    · rw [if_neg h1] at hkeys hes
      split at hkeys
      · next h2 =>
        injection hkeys with hkeys
        subst hkeys
        have hm := challengeParams_line hne hp
        subst hm
        rw [if_pos h2] at hes
        dsimp only at hes
        rw [if_pos rfl] at hes
        cases hes
      · cases hkeys

theorem encodeAes_threw {t : Nat} {key payload aad iv rnd : Bytes} {x : Exc} (hrnd : rnd.length = 8)
    (h : (encodeAes C t key payload aad iv rnd).2 = .exc x) : 2 ^ 32 - 1 ≤ blocksCounted iv + (payload.length + 15) / 16 := by
  unfold encodeAes at h
  dsimp only at h
  split at h
  · cases h
  · split at h
    · cases h
    · next e hu =>
      unfold updateIv at hu
      dsimp only at hu
      split at hu
      · next hle =>
        have hc : ivCounter (startIv iv rnd) = blocksCounted iv := by
          unfold startIv
          split
          · next hiv =>
            subst hiv
            unfold ivCounter
            rw [List.drop_append, hrnd]
            rw [List.drop_eq_nil_of_le (by omega)]
            rfl
          · rfl
        rw [hc] at hle
        have := Nat.mod_le ((payload.length + 15) / 16) (2 ^ 32)
        omega
      · cases hu
    · cases h

theorem runChallenge_threw {env : ClientEnv} {c : Client} {r : Request} {ty : Bytes} {x : Exc} (hkp : r.keyPair ≠ none) (hrnd : env.rnd.length = 8)
    (h : (runChallenge C env c r ty).ended = .threw x) : (∀ b, parse (c.stdin.headD []) ≠ .ok [b]) ∨
      ∃ k es, Says r.status r.challengeStatus c.stdin c.captured k es ∧ 2 ^ 32 - 1 ≤ blocksCounted r.encryptionIv + ((encodeAll es).length + 15) / 16 := by
  unfold runChallenge at h
  dsimp only at h
  cases hk : createChallenge ty with
  | none =>
    have : selectOrContinueChallenge r ty = (r, .exc .runtime) := by unfold selectOrContinueChallenge; rw [hk]
    rw [this] at h
    cases h
  | some k =>
    have hsel : selectOrContinueChallenge r ty = ({ r with challengeType := ty }, requestedParams k r.status r.challengeStatus) := by
      unfold selectOrContinueChallenge; rw [hk]
    rw [hsel] at h
    dsimp only at h
    have hty := createChallenge_some hk
    split at h
    · cases h
    · cases h
    · next keys hkeys =>
      have hnx := challengeParams_no_exc { c with request := some { r with challengeType := ty } } { r with challengeType := ty } ty keys
      generalize hy : challengeParams { c with request := some { r with challengeType := ty } } { r with challengeType := ty } ty keys = y at *
      split at h
      · next e he => exact absurd he (hnx e)
      · cases h
      · next m hm =>
        have hy2 : (challengeParams { c with request := some { r with challengeType := ty } } { r with challengeType := ty } ty keys).2 = .ok m := by
          rw [hy]; exact hm
        generalize hz : genChallengeInterest C { r with challengeType := ty } m env.rnd = z at *
        split at h
        case h_1 e he =>
          obtain ⟨z1, z2⟩ := z
          dsimp only at he
          subst he
          unfold genChallengeInterest at hz
          dsimp only at hz
          split at hz
          · next h0 =>
            rw [hty] at h0
            exact absurd h0 (by cases k <;> decide)
          · rw [hk] at hz
            dsimp only at hz
            split at hz
            · next e' he' =>
              exact .inl (tlv_threw hty hkeys (c := { c with request := some { r with challengeType := ty } }) (r := { r with challengeType := ty }) rfl hy2 he')
            · cases hz
            · next es hes =>
              have hsaid := said hty hkeys (c := { c with request := some { r with challengeType := ty } }) (r := { r with challengeType := ty }) rfl hy2 hes
              have hthrow := fun x => @encodeAes_threw C T.ApplicationParameters r.aesKey (encodeAll es) r.requestId r.encryptionIv env.rnd x hrnd
              generalize encodeAes C T.ApplicationParameters r.aesKey (encodeAll es) r.requestId r.encryptionIv env.rnd = w at *
              obtain ⟨iv, res⟩ := w
              dsimp only at hz hthrow
              split at hz
              · next e2 => exact .inr ⟨k, es, hsaid, hthrow e2 rfl⟩
              · cases hz
              · split at hz
                · next hn => exact absurd hn hkp
                · cases hz
        · cases h
        · cases h

/-! ## Callbacks -/

theorem onNew_keeps_keys (C : Crypto) (r : Request) (d : Data) (s : Bytes) :
    (onNewResponse C r d s).1.keyPair = r.keyPair ∧ (onNewResponse C r d s).1.encryptionIv = r.encryptionIv := by
  unfold onNewResponse
  split
  · exact ⟨rfl, rfl⟩
  · exact ⟨rfl, rfl⟩
  · dsimp only
    split
    · exact ⟨rfl, rfl⟩
    · exact ⟨rfl, rfl⟩
    · split <;> exact ⟨rfl, rfl⟩

theorem challengeLoop_iv (es0 : List Block) (now : Time) (es : List Block) (a : ChalDecAcc) :
    (loopRes (challengeStep es0 now) a es).1.req.encryptionIv = a.req.encryptionIv := by
  induction es generalizing a with
  | nil => rfl
  | cons e es ih =>
    unfold loopRes
    split
    · next a' h => rw [ih a', (challengeStep_full h).1]
    · rfl
    · rfl

theorem onChallengeResponse_iv (C : Crypto) (r : Request) (d : Data) (now : Time) : (onChallengeResponse C r d now).1.encryptionIv = r.encryptionIv := by
  unfold onChallengeResponse
  split
  · rfl
  · rfl
  · unfold challengeDecode
    dsimp only
    split
    · rfl
    · rfl
    · split
      · rfl
      · rfl
      · next es _ =>
        exact challengeLoop_iv es now es ({ req := { r with decryptionIv := (decodeAes C d.content r.aesKey r.requestId r.decryptionIv r.encryptionIv).1 } } : ChalDecAcc)

theorem onChallengeResponse_verified {r : Request} {d : Data} {now : Time} (h : (onChallengeResponse C r d now).2 = .ok ()) :
    ∃ t, r.profile.cert = some t ∧ C.verifyData d t = true := by
  unfold onChallengeResponse at h
  split at h
  · cases h
  · cases h
  · next hc =>
    unfold checkReply at hc
    split at hc
    · cases hc
    · next t ht =>
      split at hc
      · next hv => exact ⟨t, ht, hv⟩
      · cases hc

theorem headD_typed {lines all : List Bytes} (h : lines <:+ all) : lines.headD [] ∈ all ∨ lines.headD [] = [] := by
  cases lines with
  | nil => exact .inr rfl
  | cons a l => exact .inl (h.subset (by simp))

theorem newCb_threw {env : ClientEnv} {c : Client} {r : Request} {d : Data} {w : Block} {x : Exc} (hpend : c.pending = some .new)
    (hreq : c.request = some r) (hkp : r.keyPair ≠ none) (hrnd : env.rnd.length = 8) (h : (newCb C env c r d).ended = .threw x) :
    CrashCause C env c d w := by
  unfold newCb at h
  dsimp only at h
  obtain ⟨k1, k2⟩ := onNew_keeps_keys C r d env.stack
  have ho := @onNewResponse_offers C r d env.stack
  generalize onNewResponse C r d env.stack = y at *
  obtain ⟨r1, res⟩ := y
  dsimp only at h k1 k2 ho
  cases res with
  | exc e => cases h
  | ub u => cases h
  | ok cs =>
    obtain ⟨_, t, ht, hv⟩ := ho rfl
    dsimp only at h
    have done : ∀ ls, ls <:+ c.stdin → ∀ ty, (runChallenge C env { c with request := some r1, stdin := ls } r1 ty).ended = .threw x → CrashCause C env c d w := by
      intro ls hls ty hr
      rcases runChallenge_threw (k1 ▸ hkp) hrnd hr with g | ⟨k, es, g1, g2⟩
      · exact .credential (.inl hpend) hreq ht hv (headD_typed hls) g
      · exact .counter (.inl hpend) hreq ht hv hls g1 (k2 ▸ g2)
    split at h
    · cases h
    · split at h
      · exact done c.stdin (List.suffix_refl _) _ h
      · cases hc : captureIndex cs.length 3 { c with request := some r1 } with
        | mk o c2 =>
          rw [hc] at h
          cases o with
          | none => cases h
          | some i =>
            obtain ⟨sk, line, rest, g1, g2, _⟩ := captureIndex_picked cs 3 _ hc
            subst g2
            exact done rest ⟨sk ++ [line], by rw [List.append_assoc]; exact g1.symm⟩ _ h

theorem challengeCb_threw {env : ClientEnv} {c : Client} {r : Request} {d : Data} {w : Block} {x : Exc} (hpend : c.pending = some .challenge)
    (hreq : c.request = some r) (hkp : r.keyPair ≠ none) (hrnd : env.rnd.length = 8) (h : (challengeCb C env c r d).ended = .threw x) :
    CrashCause C env c d w := by
  unfold challengeCb at h
  dsimp only at h
  have k1 := (onChallengeResponse_frame C r d env.now).keyPair
  have k2 := onChallengeResponse_iv C r d env.now
  have ho := @onChallengeResponse_verified C r d env.now
  generalize onChallengeResponse C r d env.now = y at *
  obtain ⟨r1, res⟩ := y
  dsimp only at h k1 k2 ho
  cases res with
  | exc e => cases h
  | ub u => cases h
  | ok cs =>
    obtain ⟨t, ht, hv⟩ := ho rfl
    dsimp only at h
    split at h
    · cases h
    · rcases runChallenge_threw (k1 ▸ hkp) hrnd h with g | ⟨k, es, g1, g2⟩
      · exact .credential (.inr hpend) hreq ht hv (headD_typed (List.suffix_refl _)) g
      · exact .counter (.inr hpend) hreq ht hv (List.suffix_refl _) g1 (k2 ▸ g2)

theorem chooseRedirect_threw {c c1 : Client} {rs : List Name} {x : Exc} (h : chooseRedirect c rs = (c1, .inl (.threw x))) :
    ∃ r ∈ rs, ∀ ca, FullNameOfCa ca r → ca = [] := by
  unfold chooseRedirect at h
  split at h
  · cases h
  · cases h
  · split at h
    · next hany =>
      obtain ⟨r, h1, h2⟩ := List.any_eq_true.mp hany
      refine ⟨r, h1, fun ca hca => ?_⟩
      have := (fullNameOfCa_iff.mpr ⟨ca, hca⟩).1
      rw [this] at h2
      cases h2
    · rw [getline_eq] at h
      dsimp only at h
      split at h
      · cases h
      · split at h <;> cases h

theorem probeCb_threw {env : ClientEnv} {c : Client} {p : CaProfile} {d : Data} {w : Block} {x : Exc} (hs : c.pib.Sound) (hpend : c.pending = some (.probe p))
    (h : (probeCb C env c p d).ended = .threw x) : CrashCause C env c d w := by
  unfold probeCb at h
  cases hok : onProbeResponse C d p [] [] with
  | exc e => rw [hok] at h; cases h
  | ub u => rw [hok] at h; cases h
  | ok y =>
    obtain ⟨names, rs⟩ := y
    rw [hok] at h
    dsimp only at h
    obtain ⟨⟨t, ht, hv⟩, hdec⟩ := onProbeResponse_ok hok
    split at h
    · have hspec := chooseRedirect_spec c rs
      cases hc : chooseRedirect c rs with
      | mk c1 chosen =>
        rw [hc] at h hspec
        cases chosen with
        | inl y =>
          have h' : y = .threw x := h
          subst h'
          obtain ⟨r, h1, h2⟩ := chooseRedirect_threw hc
          exact .redirect hpend ht hv hdec h1 h2
        | inr full =>
          have hm := hspec.2 full rfl
          dsimp only at h
          split at h
          · next id hid =>
            have h0 := runDiscovery_threw h
            subst h0
            exact .redirect hpend ht hv hdec hm (fun ca hca => hca.unique (identity_of_redirect hid))
          · next e he => exact .redirect hpend ht hv hdec hm (redirect_bad he)
          · cases h
    · obtain ⟨ls, hl⟩ := chooseName_same c names
      cases hc : chooseName c names with
      | mk c1 o =>
        rw [hc] at h hl
        dsimp only at hl
        subst hl
        cases o with
        | none => cases h
        | some n =>
          rcases runNew_threw (c := { c with stdin := ls }) hs h with g | g | ⟨b, g⟩
          · exact .keyIds hpend ht hv (.inl g)
          · exact .keyIds hpend ht hv (.inr g)
          · exact .noKey hpend ht hv g

theorem infoCb_threw {c : Client} {full : Name} {d : Data} : (∃ x, (infoCb C c full d).ended = .threw x) ↔
    c.trusted = none ∧ ∃ p, acceptProfile C c full d = .ok p ∧ canShow C d p = false := by
  unfold infoCb
  cases ha : acceptProfile C c full d with
  | exc e => simp
  | ub u => simp
  | ok p =>
    dsimp only
    by_cases ht : c.trusted = none
    · rw [if_pos ht]
      cases hs : canShow C d p with
      | false => simp [hs, ht]
      | true =>
        rw [if_pos rfl, getline_eq]
        dsimp only
        split <;> simp [ClientOut.after, runProbe, hs]
    · rw [if_neg ht]
      simp [runProbe, ht]

theorem acceptProfile_ok {c : Client} {full : Name} {d : Data} {p : CaProfile} (h : acceptProfile C c full d = .ok p) :
    infoDecode C d.content = .ok p ∧ ∃ t, p.cert = some t ∧ C.verifyData d t = true := by
  unfold acceptProfile at h
  split at h
  · split at h
    · split at h
      · exact onCaProfileResponse_ok h
      · cases h
    · exact onCaProfileResponse_ok h
  · obtain ⟨h1, t, h2, _, h3⟩ := afterRedirection_ok h
    exact ⟨h1, t, h2, h3⟩

/-! ## The certificate fetched -/

theorem cert_names {cert : Cert} {id : Name} {a b c : Block} (h : cert.name = id ++ [keyComponent, a, b, c]) :
    cert.identity = id ∧ cert.keyName = id ++ [keyComponent, a] := by
  have h2 : id ++ [keyComponent, a, b, c] = (id ++ [keyComponent, a]) ++ [b, c] := (List.append_assoc id [keyComponent, a] [b, c]).symm
  unfold Cert.identity Cert.keyName
  constructor
  · rw [h]; simp
  · rw [h, h2]
    exact List.take_left' (by simp)

theorem forKeyIn_iff {p : Pib} (hn : (p.map IdEntry.name).Nodup) {cert : Cert} (hv : isValidCertName cert.name = true) :
    (p.has cert.identity cert.keyName ∧ C.keyPub cert.keyName = cert.content ∧ cert.content ≠ none) ↔ ForKeyIn C p cert := by
  obtain ⟨id, a, b, c, hname⟩ := isValidCertName_shape.mp hv
  obtain ⟨h1, h2⟩ := cert_names hname
  rw [h1, h2]
  constructor
  · rintro ⟨g1, g2, g3⟩
    unfold Pib.has at g1
    split at g1
    · next e he =>
      obtain ⟨m1, m2⟩ := Pib.get_some he
      subst m2
      cases hc : cert.content with
      | none => exact absurd hc g3
      | some pub => exact ⟨e, m1, a, b, c, hname, List.contains_iff_mem.mp g1, pub, hc, g2.trans hc⟩
    · cases g1
  · rintro ⟨e, m1, a', b', c', hname', hk, pub, hp1, hp2⟩
    have he : e.name = id ∧ a' = a := by
      rw [hname'] at hname
      obtain ⟨x1, x2⟩ := List.append_inj' hname rfl
      simp at x2
      exact ⟨x1, x2.2.1⟩
    obtain ⟨rfl, rfl⟩ := he
    refine ⟨?_, hp2.trans hp1.symm, by rw [hp1]; simp⟩
    unfold Pib.has
    rw [Pib.get_of_mem hn m1]
    exact List.contains_iff_mem.mpr hk

/-! ## The request has its key -/

/-- a request that is going on has its key -/
def HasKey (c : Client) : Prop :=
  c.pending = some .new ∨ c.pending = some .challenge → ∀ r, c.request = some r → r.keyPair ≠ none

theorem genChallenge_keyPair (C : Crypto) (r : Request) (m : MMap) (rnd : Bytes) : (genChallengeInterest C r m rnd).1.keyPair = r.keyPair := by
  unfold genChallengeInterest
  split
  · rfl
  · split
    · rfl
    · split
      · rfl
      · rfl
      · dsimp only
        split
        · rfl
        · rfl
        · split <;> rfl

theorem select_keyPair (r : Request) (ty : Bytes) : (selectOrContinueChallenge r ty).1.keyPair = r.keyPair := by
  unfold selectOrContinueChallenge
  split <;> rfl

theorem runChallenge_keyPair {env : ClientEnv} {c : Client} {r : Request} {ty : Bytes} {r' : Request}
    (hr : (runChallenge C env c r ty).st.request = some r') : r'.keyPair = r.keyPair := by
  unfold runChallenge at hr
  dsimp only at hr
  have h1 := select_keyPair r ty
  generalize selectOrContinueChallenge r ty = x at *
  obtain ⟨r1, res⟩ := x
  dsimp only at hr h1
  have stop : some r1 = some r' → r'.keyPair = r.keyPair := by
    intro e
    injection e with e
    rw [← e, h1]
  cases res with
  | exc e => exact stop hr
  | ub e => exact stop hr
  | ok keys =>
    dsimp only at hr
    obtain ⟨ls, h2⟩ := challengeParams_same { c with request := some r1 } r1 ty keys
    generalize challengeParams { c with request := some r1 } r1 ty keys = y at *
    obtain ⟨c2, res⟩ := y
    dsimp only at hr h2
    subst h2
    cases res with
    | exc e => exact stop hr
    | ub e => exact stop hr
    | ok m =>
      dsimp only at hr
      have h3 := genChallenge_keyPair C r1 m env.rnd
      generalize genChallengeInterest C r1 m env.rnd = z at *
      obtain ⟨r2, res⟩ := z
      dsimp only at hr h3
      have stop2 : some r2 = some r' → r'.keyPair = r.keyPair := by
        intro e
        injection e with e
        rw [← e, h3, h1]
      cases res with
      | exc e => exact stop2 hr
      | ub e => exact stop2 hr
      | ok i => exact stop2 hr

theorem newCb_keyPair {env : ClientEnv} {c : Client} {r : Request} {d : Data} {r' : Request} (hr : (newCb C env c r d).st.request = some r') :
    r'.keyPair = r.keyPair := by
  unfold newCb at hr
  dsimp only at hr
  have h1 := (onNew_keeps_keys C r d env.stack).1
  generalize onNewResponse C r d env.stack = x at *
  obtain ⟨r1, res⟩ := x
  dsimp only at hr h1
  have stop : some r1 = some r' → r'.keyPair = r.keyPair := by
    intro e
    injection e with e
    rw [← e, h1]
  cases res with
  | exc e => exact stop hr
  | ub e => exact stop hr
  | ok cs =>
    dsimp only at hr
    split at hr
    · exact stop hr
    · split at hr
      · exact (runChallenge_keyPair hr).trans h1
      · obtain ⟨ls, h2⟩ := captureIndex_same cs.length 3 { c with request := some r1 }
        generalize captureIndex cs.length 3 { c with request := some r1 } = y at *
        obtain ⟨o, c2⟩ := y
        dsimp only at hr h2
        subst h2
        cases o with
        | none => exact stop hr
        | some j => exact (runChallenge_keyPair hr).trans h1

theorem challengeCb_keyPair {env : ClientEnv} {c : Client} {r : Request} {d : Data} {r' : Request}
    (hr : (challengeCb C env c r d).st.request = some r') : r'.keyPair = r.keyPair := by
  unfold challengeCb at hr
  dsimp only at hr
  have h1 := (onChallengeResponse_frame C r d env.now).keyPair
  generalize onChallengeResponse C r d env.now = x at *
  obtain ⟨r1, res⟩ := x
  dsimp only at hr h1
  have stop : some r1 = some r' → r'.keyPair = r.keyPair := by
    intro e
    injection e with e
    rw [← e, h1]
  cases res with
  | exc e => exact stop hr
  | ub e => exact stop hr
  | ok cs =>
    dsimp only at hr
    split at hr
    · exact stop hr
    · exact (runChallenge_keyPair hr).trans h1

theorem genNew_keyPair {r : Request} {k : Name} {nb na : Time} {v : Block} {i : Interest}
    (h : (genNewInterest C r k nb na v).2 = .ok (some i)) : (genNewInterest C r k nb na v).1.keyPair ≠ none := by
  unfold genNewInterest at h ⊢
  split at h
  · cases h
  · split at h
    · cases h
    · next h1 h2 =>
      rw [if_neg h1, if_neg h2]
      split at h
      · cases h
      · cases h
      · split at h
        · cases h
        · simp

theorem runNew_keyPair {env : ClientEnv} {c : Client} {p : CaProfile} {id : Name} (hp : c.pending ≠ some .new) (hp2 : c.pending ≠ some .challenge) :
    HasKey (runNew C env c p id).st := by
  intro h r hr
  unfold runNew at h hr
  obtain ⟨ls, hl⟩ := captureValidity_same 3 c
  generalize captureValidity 3 c = x at *
  obtain ⟨o, c1⟩ := x
  dsimp only at hl
  subst hl
  have no : ∀ {c' : Client}, c'.pending = c.pending → (c'.pending = some .new ∨ c'.pending = some .challenge) → r.keyPair ≠ none := by
    intro c' e h
    rw [e] at h
    exact absurd h (by rintro (g | g); exact hp g; exact hp2 g)
  cases o with
  | none => exact no (c' := { c with stdin := ls }) rfl h
  | some hrs =>
    dsimp only at h hr
    unfold runNewWith at h hr
    dsimp only at h hr
    generalize hpk : prepareKey _ id env.keyIds = y at *
    cases y with
    | none => exact no (c' := { c with stdin := ls, request := some _ }) rfl h
    | some y =>
      obtain ⟨c2, e, k⟩ := y
      have a3 := (prepareKey_like hpk).1
      dsimp only at h hr
      have hb : ∃ c3 chosen, (if c2.newIdentity = [] then captureKeyName c2 e env.keyIds2 else (c2, Sum.inr k)) = (c3, chosen) ∧
          c3.pending = c2.pending := by
        split
        · exact ⟨(captureKeyName c2 e env.keyIds2).1, (captureKeyName c2 e env.keyIds2).2, rfl, (captureKeyName_like _ _ _).1.2.1⟩
        · exact ⟨_, _, rfl, rfl⟩
      obtain ⟨c3, chosen, heq, b3⟩ := hb
      rw [heq] at h hr
      dsimp only at h hr
      have hp3 : c3.pending = c.pending := by rw [b3, a3.2.1]
      cases chosen with
      | inl x => exact no hp3 h
      | inr key =>
        dsimp only at h hr
        cases hah : addHours env.now hrs with
        | none => rw [hah] at h; exact no hp3 h
        | some na =>
          rw [hah] at h hr
          dsimp only at h hr
          have hst := fun i => @genNew_keyPair C { profile := p, type := .new, requestId := env.memId, ecdhPriv := env.ecdhPriv, aesKey := env.memKey, nonce := env.memNonce }
            key env.now na env.version i
          generalize genNewInterest C _ key env.now na env.version = z at *
          obtain ⟨r1, res⟩ := z
          dsimp only at h hr hst
          cases res with
          | exc x => exact no (c' := { c3 with request := some r1 }) hp3 h
          | ub x => exact no (c' := { c3 with request := some r1 }) hp3 h
          | ok o =>
            cases o with
            | none => rcases h with h | h <;> cases h
            | some i =>
              injection hr with hr
              subst hr
              exact hst i rfl

theorem HasKey.step {c : Client} (hi : HasKey c) (e : ClientEvent) (env : ClientEnv) : HasKey (c.step C env e).st := by
  cases step_case (C := C) env c e with
  | quiet hq =>
    intro hp
    rw [hq.request]
    rcases hq.pending with h | h
    · exact hi (h ▸ hp)
    · exact (hp.elim h.1 h.2).elim
  | @probe d w full p ls t acts _ hpend out _ =>
    rw [out]
    intro hp
    rcases hp with hp | hp <;> simp [ClientOut.after, runProbe] at hp
  | @new d w q ls nm _ hpend out =>
    rw [out]
    exact runNew_keyPair (c := { c with stdin := ls }) (by rw [hpend]; simp) (by rw [hpend]; simp)
  | @newCb d w r _ hpend hreq out =>
    rw [out]
    intro _ r' hr'
    rw [newCb_keyPair hr']
    exact hi (.inl hpend) r hreq
  | @challengeCb d w r _ hpend hreq out =>
    rw [out]
    intro _ r' hr'
    rw [challengeCb_keyPair hr']
    exact hi (.inr hpend) r hreq

theorem ClientRun.keyed {first : List Act} {h : List ClientStep} {c : Client} {x : Ended} (run : ClientRun C T file pib stdin first h c x) : HasKey c := by
  induction run with
  | start o e =>
    have hs := e ▸ selectCaProfile_started T file { pib := pib, stdin := stdin }
    intro _ r hr
    rw [hs.request] at hr
    cases hr
  | step e env run o eo ih => exact eo ▸ ih.step e env

/-! ## What was created is there -/

/-- what is noted as created is in the KeyChain -/
structure Created (c : Client) : Prop where
  identity : c.newIdentity ≠ [] → c.pib.get c.newIdentity ≠ none
  key : c.newKey ≠ [] → ∃ id b, c.newKey = id ++ [keyComponent, b] ∧ c.pib.has id c.newKey = true

theorem Created.same {c c' : Client} (h : Created c) (hs : c.SameKeys c') : Created c' := by
  obtain ⟨h1, h2, h3⟩ := hs
  obtain ⟨a, b⟩ := h
  exact ⟨by rw [h1, h2]; exact a, by rw [h1, h3]; exact b⟩

theorem Pib.get_addKey (p : Pib) (id k id' : Name) : (p.addKey id k).get id' = (p.get id').map
    (fun e => if e.name = id then { e with keys := e.keys ++ [k], dflt := some (e.dflt.getD k) } else e) := by
  unfold Pib.addKey Pib.get
  rw [List.find?_map]
  congr 2
  funext e
  simp only [Function.comp]
  split <;> rfl

theorem Pib.has_addKey {p : Pib} {id k id' x : Name} (h : p.has id' x = true) : (p.addKey id k).has id' x = true := by
  unfold Pib.has at *
  rw [Pib.get_addKey]
  cases hg : p.get id' with
  | none => rw [hg] at h; cases h
  | some e =>
    rw [hg] at h
    dsimp only [Option.map_some] at h ⊢
    split
    · simp only [List.contains_iff_mem] at h ⊢
      exact List.mem_append_left _ h
    · exact h

theorem Pib.has_added {p : Pib} {id k : Name} {e0 : IdEntry} (h : p.get id = some e0) : (p.addKey id k).has id k = true := by
  unfold Pib.has
  rw [Pib.get_addKey, h]
  dsimp only [Option.map_some]
  rw [if_pos (Pib.get_some h).2]
  simp

theorem Created.add {c c' : Client} (h : Created c) {id : Name} {b : Block} {e0 : IdEntry} (hg : c.pib.get id = some e0)
    (h1 : c'.pib = c.pib.addKey id (id ++ [keyComponent, b])) (h2 : c'.newIdentity = c.newIdentity) (h3 : c'.newKey = id ++ [keyComponent, b]) :
    Created c' := by
  refine ⟨?_, ?_⟩
  · rw [h2, h1, Pib.get_addKey]
    intro hn hh
    exact h.identity hn (Option.map_eq_none_iff.mp hh)
  · intro _
    exact ⟨id, b, h3, by rw [h1, h3]; exact Pib.has_added hg⟩

theorem Created.prepareKey {c c' : Client} (h : Created c) {id k : Name} {ds : List Block} {e : IdEntry}
    (hp : Ndncert.prepareKey c id ds = some (c', e, k)) : Created c' := by
  rcases prepareKey_some hp with ⟨g1, g2, g3, g4, g5, g6⟩ | ⟨g1, g2, rfl⟩ | ⟨e0, b, g1, g2, g3, g4, g5, g6, g7, g8⟩
  · refine ⟨?_, ?_⟩
    · intro _
      rw [g4, g3, Pib.get_append_new g1 _ rfl]
      simp
    · rw [g5]
      intro hk
      obtain ⟨id', b, h1, h2⟩ := h.key hk
      refine ⟨id', b, h1, ?_⟩
      unfold Pib.has at h2 ⊢
      cases hg : c.pib.get id' with
      | none => rw [hg] at h2; cases h2
      | some e' =>
        have : c'.pib.get id' = some e' := by
          rw [g3]
          unfold Pib.get at hg ⊢
          rw [List.find?_append, hg]
          rfl
        rw [this]
        rw [hg] at h2
        exact h2
  · exact h
  · subst g3
    exact h.add g1 g5 g6 g7

theorem Created.runNew {c : Client} (h : Created c) (C : Crypto) (env : ClientEnv) (p : CaProfile) (id : Name) :
    Created (Ndncert.runNew C env c p id).st := by
  unfold Ndncert.runNew
  obtain ⟨ls, hl⟩ := captureValidity_same 3 c
  split
  · next c1 hc =>
    rw [hc] at hl
    dsimp only at hl
    subst hl
    exact h.same ⟨rfl, rfl, rfl⟩
  · next hr c1 hc =>
    rw [hc] at hl
    dsimp only at hl
    subst hl
    obtain ⟨_, r, ⟨_, hs⟩ | ⟨c2, e, k, hp, hs⟩⟩ := runNewWith_keys C env { c with stdin := ls } p id hr
    · exact (h.same ⟨rfl, rfl, rfl⟩).same hs
    · have h0 : Created { c with stdin := ls, request := some r } := h.same ⟨rfl, rfl, rfl⟩
      have h2 := h0.prepareKey hp
      rcases hs with ⟨_, hs⟩ | ⟨_, hs⟩
      · refine Created.same ?_ hs
        rcases captureKeyName_keys c2 e env.keyIds2 with hk | ⟨e0, b, g1, g2, g3, g4, g5⟩
        · exact h2.same hk
        · exact h2.add g1 g3 g4 g5
      · exact h2.same hs

theorem Created.signal {c : Client} (h : Created c) (x : Exc) : (handleSignal c).ended ≠ .threw x := by
  unfold handleSignal
  split
  · simp
  · split
    · next hn =>
      split
      · next hg => exact absurd hg (h.identity hn)
      · simp
    · split
      · next hk =>
        obtain ⟨id, b, h1, h2⟩ := h.key hk
        have : identityOfKeyName c.newKey = .ok id := by rw [h1]; exact identityOfKeyName_key id b
        rw [this]
        dsimp only
        rw [if_pos h2]
        simp
      · simp

theorem ClientRun.created {first : List Act} {h : List ClientStep} {c : Client} {x : Ended}
    (run : ClientRun C T file pib stdin first h c x) : x = .going → Created c := by
  induction run with
  | start o e =>
    have hs := e ▸ selectCaProfile_started T file { pib := pib, stdin := stdin }
    have h0 : Created { pib := pib, stdin := stdin } := ⟨by simp, by simp⟩
    exact fun _ => h0.same ⟨hs.pib, hs.newIdentity, hs.newKey⟩
  | @step first h c e env run o eo ih =>
    intro hx
    have hc := ih rfl
    rcases step_keys C env c e with rfl | ⟨d, w, p, ls, nm, names, rs, _, _, _, _, h5⟩ | ⟨h1, _⟩
    · have : c.step C env .signal = handleSignal c := rfl
      rw [this] at eo
      subst eo
      exact absurd hx (handleSignal_ends c)
    · rw [eo] at h5
      subst h5
      exact Created.runNew (c := { c with stdin := ls }) (hc.same ⟨rfl, rfl, rfl⟩) C env p nm
    · rw [eo] at h1
      exact hc.same h1

/-! ## All callbacks -/

theorem step_threw {env : ClientEnv} {c : Client} {e : ClientEvent} {x : Exc} (hs : c.pib.Sound) (hn : (c.pib.map IdEntry.name).Nodup)
    (hv : ∀ b cert, C.decodeCert b = some cert → isValidCertName cert.name = true)
    (hk : HasKey c) (hc : Created c) (hrnd : env.rnd.length = 8) (h : (c.step C env e).ended = .threw x) :
    ∃ d w, e = .reply d w ∧ CrashCause C env c d w := by
  cases e with
  | signal => exact absurd h (hc.signal x)
  | nack =>
    have hs : c.step C env .nack = if c.pending = Option.none then { st := c } else { st := c, ended := .exit 1 } := rfl
    rw [hs] at h
    split at h <;> cases h
  | timeout => cases h
  | reply d w =>
    refine ⟨d, w, rfl, ?_⟩
    cases hpend : c.pending with
    | none =>
      have hs : c.step C env (.reply d w) = { st := c } := by unfold Client.step; rw [hpend]
      rw [hs] at h
      cases h
    | some aw =>
      cases aw with
      | discovery full =>
        have hs : c.step C env (.reply d w) = discoveryCb c full d := by unfold Client.step; rw [hpend]
        rw [hs] at h
        unfold discoveryCb at h
        split at h
        · cases h
        · next e he => exact .metadata hpend (genProfileName_iff.mp ⟨e, he⟩)
        · cases h
      | info full =>
        have hs : c.step C env (.reply d w) = infoCb C c full d := by unfold Client.step; rw [hpend]
        rw [hs] at h
        obtain ⟨h1, p, h2, h3⟩ := infoCb_threw.mp ⟨x, h⟩
        obtain ⟨g1, t, g2, g3⟩ := acceptProfile_ok h2
        refine .question hpend h1 g1 g2 g3 ?_
        unfold canShow at h3
        rw [g2] at h3
        simp only [Bool.and_eq_false_iff] at h3
        rcases h3 with h3 | h3
        · exact .inl h3
        · exact .inr (by simpa using h3)
      | probe p =>
        have hs' : c.step C env (.reply d w) = probeCb C env c p d := by unfold Client.step; rw [hpend]
        rw [hs'] at h
        exact probeCb_threw hs hpend h
      | new =>
        cases hreq : c.request with
        | none =>
          have hs : c.step C env (.reply d w) = { st := c, ended := .ub .nullDeref } := by unfold Client.step; rw [hpend, hreq]
          rw [hs] at h
          cases h
        | some r =>
          have hs : c.step C env (.reply d w) = newCb C env c r d := by unfold Client.step; rw [hpend, hreq]
          rw [hs] at h
          exact newCb_threw hpend hreq (hk (.inl hpend) r hreq) hrnd h
      | challenge =>
        cases hreq : c.request with
        | none =>
          have hs : c.step C env (.reply d w) = { st := c, ended := .ub .nullDeref } := by unfold Client.step; rw [hpend, hreq]
          rw [hs] at h
          cases h
        | some r =>
          have hs : c.step C env (.reply d w) = challengeCb C env c r d := by unfold Client.step; rw [hpend, hreq]
          rw [hs] at h
          exact challengeCb_threw hpend hreq (hk (.inr hpend) r hreq) hrnd h
      | fetch =>
        have hs : c.step C env (.reply d w) = certFetchCb C c w := by unfold Client.step; rw [hpend]
        rw [hs] at h
        refine .certificate hpend ?_
        intro cert hcert hfor
        unfold certFetchCb onCertFetchResponse at h
        rw [hcert] at h
        dsimp only [Res.ofOption] at h
        rw [if_pos ((forKeyIn_iff hn (hv w cert hcert)).mpr hfor)] at h
        cases h

theorem forEach_mem {α β : Type} {f : α → Res β} {l : List α} {ys : List β} (h : forEach f l = .ok ys) {y : β} (hy : y ∈ ys) :
    ∃ a ∈ l, f a = .ok y := by
  have h1 : Res.ok y ∈ l.map f := by
    rw [(forEach_ok f l ys).mp h]
    exact List.mem_map_of_mem hy
  obtain ⟨a, ha, hf⟩ := List.mem_map.mp h1
  exact ⟨a, ha, hf⟩

theorem loadProfiles_prefix {known : Profiles} (h : loadProfiles T file = .ok known) {p : CaProfile} (hp : p ∈ known) : p.caPrefix ≠ [] := by
  unfold loadProfiles at h
  split at h
  · cases h
  · split at h
    · cases h
    · unfold loadProfilesTree at h
      split at h
      · cases h
      · obtain ⟨a, _, ha⟩ := forEach_mem h hp
        unfold storedProfileOfItem at ha
        cases hq : profileFromJson T a.2 with
        | exc e => rw [hq] at ha; cases ha
        | ub e => rw [hq] at ha; cases ha
        | ok q =>
          rw [hq, Res.bind_ok] at ha
          split at ha
          · cases ha
          · cases ha
            exact ((profileFromJson_ok T a.2 _).mp hq).2.1

theorem selectCaProfile_threw {c : Client} {x : Exc} (h : (selectCaProfile T file c).ended = .threw x) :
    ∃ line rest, c.stdin = line :: rest ∧ toLower line = (bytes! "none") ∧ T.nameOfUri (rest.headD []) = some [] := by
  unfold selectCaProfile at h
  split at h
  · cases h
  · cases h
  · next known hk =>
    rw [getline_eq] at h
    dsimp only at h
    split at h
    · next hl =>
      rw [getline_eq] at h
      dsimp only at h
      cases hst : c.stdin with
      | nil => rw [hst] at hl; exact absurd hl (by decide)
      | cons line rest =>
        rw [hst] at h hl
        dsimp only [List.tail, List.headD] at h hl
        split at h
        · cases h
        · next n hn =>
          have := runDiscovery_threw h
          subst this
          exact ⟨line, rest, rfl, hl, hn⟩
    · split at h
      · cases h
      · next i hi =>
        split at h
        · cases h
        · next p hp =>
          have := runDiscovery_threw h
          exact absurd this (loadProfiles_prefix hk (List.mem_of_getElem? hp))

end Ndncert
