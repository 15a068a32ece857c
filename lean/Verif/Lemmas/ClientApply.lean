import Verif.Lemmas.ClientFetch

/-! # Lemmas about the name the client applies for and the status that makes it fetch -/

namespace Ndncert

/-! ## The status -/

/-- what the decoder has seen of the status -/
structure StatusSeen (es : List Block) (seen : Nat) (a : ChalDecAcc) : Prop where
  count : a.numStatus = seen
  status : a.numStatus ≠ 0 → ∃ b, getElem es T.Status = .ok b ∧ statusFromBlock b = .ok a.req.status

theorem challengeStep_seen {es : List Block} {now : Time} {a a' : ChalDecAcc} {item : Block} {seen : Nat} (hi : StatusSeen es seen a)
    (h : challengeStep es now a item = .ok a') : StatusSeen es (seen + if item.typ == T.Status then 1 else 0) a' := by
  obtain ⟨h1, h2⟩ := hi
  unfold challengeStep at h
  split at h
  · split at h
    · next ht =>
      rw [Res.bind_eq_ok] at h
      obtain ⟨b, hb, h⟩ := h
      rw [Res.bind_eq_ok] at h
      obtain ⟨s, hs, h⟩ := h
      injection h with h
      subst h
      exact ⟨by simp [ht, h1], fun _ => ⟨b, hb, hs⟩⟩
    · next ht =>
      have ht' : (item.typ == T.Status) = false := by simpa using ht
      rw [ht']
      split at h
      · injection h with h; subst h; exact ⟨h1, h2⟩
      · split at h
        · rw [Res.bind_eq_ok] at h
          obtain ⟨b, _, h⟩ := h
          injection h with h; subst h; exact ⟨h1, h2⟩
        · split at h
          · rw [Res.bind_eq_ok] at h
            obtain ⟨b, _, h⟩ := h
            rw [Res.bind_eq_ok] at h
            obtain ⟨s, _, h⟩ := h
            injection h with h; subst h; exact ⟨h1, h2⟩
          · split at h
            · rw [Res.bind_eq_ok] at h
              obtain ⟨b, hb, h⟩ := h
              rw [Res.bind_eq_ok] at h
              obtain ⟨s, hs, h⟩ := h
              injection h with h; subst h; exact ⟨h1, h2⟩
            · split at h
              · rw [Res.bind_eq_ok] at h
                obtain ⟨b, _, h⟩ := h
                rw [Res.bind_eq_ok] at h
                obtain ⟨s, _, h⟩ := h
                injection h with h; subst h; exact ⟨h1, h2⟩
              · split at h
                · split at h
                  · injection h with h; subst h; exact ⟨h1, h2⟩
                  · cases h
                · split at h
                  · cases h
                  · injection h with h; subst h; exact ⟨h1, h2⟩
  · split at h
    · next hv =>
      have ht' : (item.typ == T.Status) = false := by rw [hv]; decide
      rw [ht']
      split at h
      · cases h
      · injection h with h; subst h; exact ⟨h1, h2⟩
    · cases h

theorem challengeLoop_seen (es0 : List Block) (now : Time) (es : List Block) {seen : Nat} {a : ChalDecAcc} (hi : StatusSeen es0 seen a)
    (hok : (loopRes (challengeStep es0 now) a es).2 = .ok ()) :
    StatusSeen es0 (seen + (es.filter (fun e => e.typ == T.Status)).length) (loopRes (challengeStep es0 now) a es).1 := by
  induction es generalizing a seen with
  | nil => exact hi
  | cons e es ih =>
    unfold loopRes at hok ⊢
    split at hok
    · next a' h =>
      have h1 := ih (challengeStep_seen hi h) hok
      have : seen + (List.filter (fun e => e.typ == T.Status) (e :: es)).length =
          (seen + if e.typ == T.Status then 1 else 0) + (List.filter (fun e => e.typ == T.Status) es).length := by
        rw [List.filter_cons]
        split <;> simp <;> omega
      rw [this]
      exact h1
    · cases hok
    · cases hok

/-- a CHALLENGE reply that is accepted says in which status the request is -/
theorem onChallengeResponse_told {C : Crypto} {r : Request} {d : Data} {now : Time} (hok : (onChallengeResponse C r d now).2 = .ok ()) :
    ∃ t pt es, r.profile.cert = some t ∧ C.verifyData d t = true ∧
      (decodeAes C d.content r.aesKey r.requestId r.decryptionIv r.encryptionIv).2 = .ok pt ∧ parse pt = .ok es ∧
      TellsOnce es (onChallengeResponse C r d now).1.status := by
  unfold onChallengeResponse at hok ⊢
  split at hok
  · cases hok
  · cases hok
  · next hc =>
    have hv : ∃ t, r.profile.cert = some t ∧ C.verifyData d t = true := by
      unfold checkReply at hc
      split at hc
      · cases hc
      · next t ht =>
        split at hc
        · next hv => exact ⟨t, ht, hv⟩
        · cases hc
    obtain ⟨t, ht, hv⟩ := hv
    unfold challengeDecode at hok ⊢
    dsimp only at hok ⊢
    split at hok
    · cases hok
    · cases hok
    · next pt hpt =>
      split at hok
      · cases hok
      · cases hok
      · next es hes =>
        refine ⟨t, pt, es, ht, hv, hpt, hes, ?_⟩
        dsimp only at hok ⊢
        generalize ha0 : ({ req := { r with decryptionIv := (decodeAes C d.content r.aesKey r.requestId r.decryptionIv r.encryptionIv).1 } } : ChalDecAcc) = a0 at *
        have h0 : StatusSeen es 0 a0 := by subst ha0; exact ⟨rfl, fun h => absurd rfl h⟩
        have h1 := fun h => challengeLoop_seen es now es h0 h
        generalize loopRes (challengeStep es now) a0 es = x at *
        split at hok
        · cases hok
        · cases hok
        · next hx =>
          split at hok
          · cases hok
          · next hn =>
            obtain ⟨g1, g2⟩ := h1 hx
            have hn' : x.1.numStatus = 1 := Classical.byContradiction hn
            obtain ⟨b, g3, g4⟩ := g2 (by omega)
            rw [hn', Nat.zero_add] at g1
            obtain ⟨b', hb'⟩ := List.length_eq_one_iff.mp g1.symm
            refine ⟨b', hb', ?_⟩
            unfold getElem at g3
            rw [← List.head?_filter, hb'] at g3
            injection g3 with g3
            rw [g3]
            exact g4

variable {C : Crypto} {T : TextIO} {file : Bytes} {pib : Pib} {stdin : List Bytes}

/-! ## The name -/

theorem Pib.Sound.addKey {p : Pib} (h : p.Sound) (id : Name) (b : Block) : (p.addKey id (id ++ [keyComponent, b])).Sound := by
  intro e he
  unfold Pib.addKey at he
  obtain ⟨e0, h0, rfl⟩ := List.mem_map.mp he
  obtain ⟨h1, h2⟩ := h e0 h0
  split
  · next hn =>
    refine ⟨?_, ?_⟩
    · intro k hk
      dsimp only at hk ⊢
      rw [List.mem_append, List.mem_singleton] at hk
      rcases hk with hk | rfl
      · exact h1 k hk
      · exact ⟨b, by rw [hn]⟩
    · intro k hk
      dsimp only at hk ⊢
      injection hk with hk
      cases hd : e0.dflt with
      | none => rw [hd] at hk; simp at hk; simp [hk]
      | some x => rw [hd] at hk; simp at hk; subst hk; simp [h2 x hd]
  · exact ⟨h1, h2⟩

theorem Pib.Sound.append {p : Pib} (h : p.Sound) (id : Name) (b : Block) :
    Pib.Sound (p ++ [⟨id, [id ++ [keyComponent, b]], some (id ++ [keyComponent, b])⟩]) := by
  intro e he
  rw [List.mem_append, List.mem_singleton] at he
  rcases he with he | rfl
  · exact h e he
  · exact ⟨fun k hk => ⟨b, by simpa using hk⟩, fun k hk => by injection hk with hk; simp [hk]⟩

/-- `prepareKey`: the KeyChain stays sound, and the default key and all keys of the entry belong to the identity -/
theorem prepareKey_sound {c c' : Client} {id k : Name} {ds : List Block} {e : IdEntry} (h : prepareKey c id ds = some (c', e, k))
    (hs : c.pib.Sound) : c'.pib.Sound ∧ e.name = id ∧ (∃ b, k = id ++ [keyComponent, b]) ∧ ∀ x ∈ e.keys, ∃ b, x = id ++ [keyComponent, b] := by
  rcases prepareKey_some h with ⟨_, ⟨b, hb⟩, h3, _, _, h6⟩ | ⟨h1, h2, rfl⟩ | ⟨e0, b, h1, _, h3, _, h5, _, _, h8⟩
  · subst hb; subst h6
    refine ⟨h3 ▸ hs.append id b, rfl, ⟨b, rfl⟩, ?_⟩
    intro x hx
    exact ⟨b, by simpa using hx⟩
  · obtain ⟨g1, g2⟩ := Pib.get_some h1
    obtain ⟨g3, g4⟩ := hs e g1
    subst g2
    exact ⟨hs, rfl, g3 k (g4 k h2), g3⟩
  · obtain ⟨g1, g2⟩ := Pib.get_some h1
    obtain ⟨g3, g4⟩ := hs e0 g1
    subst h3; subst h8; subst g2
    refine ⟨h5 ▸ hs.addKey _ b, rfl, ⟨b, rfl⟩, ?_⟩
    intro x hx
    dsimp only at hx
    rw [List.mem_append, List.mem_singleton] at hx
    rcases hx with hx | rfl
    · exact g3 x hx
    · exact ⟨b, rfl⟩

theorem captureKeyName_sound {c : Client} {e : IdEntry} (ds : List Block) (hs : c.pib.Sound) (hk : ∀ x ∈ e.keys, ∃ b, x = e.name ++ [keyComponent, b]) :
    (captureKeyName c e ds).1.pib.Sound ∧ ∀ k, (captureKeyName c e ds).2 = .inr k → ∃ b, k = e.name ++ [keyComponent, b] := by
  unfold captureKeyName
  rw [getline_eq]
  dsimp only
  split
  · split
    · exact ⟨hs, by simp⟩
    · next k pib' hc =>
      obtain ⟨e1, b, g1, g2, g3, g4⟩ := createKey_some hc
      subst g2
      refine ⟨?_, ?_⟩
      · dsimp only
        rw [g4]
        exact hs.addKey _ b
      · intro k hk
        injection hk with hk
        exact ⟨b, hk.symm⟩
  · split
    · exact ⟨hs, by simp⟩
    · split
      · exact ⟨hs, by simp⟩
      · next k hk' =>
        refine ⟨hs, ?_⟩
        intro k' h
        injection h with h
        subst h
        exact hk _ (List.mem_of_getElem? hk')

/-- the NEW Interest carries a certificate request for the key -/
theorem genNew_applies {r : Request} {id : Name} {b : Block} {nb na : Time} {v : Block} {i : Interest}
    (h : (genNewInterest C r (id ++ [keyComponent, b]) nb na v).2 = .ok (some i)) : AppliesFor C r.profile.caPrefix i id := by
  unfold genNewInterest at h
  split at h
  · cases h
  · split at h
    · cases h
    · split at h
      · cases h
      · cases h
      · split at h
        · cases h
        · next pub hpub =>
          injection h with h
          injection h with h
          subst h
          exact ⟨_, b, v, pub, _, _, _, hpub, rfl, rfl, List.append_assoc _ _ _, rfl⟩

theorem runNew_sound {env : ClientEnv} {c : Client} (hs : c.pib.Sound) (p : CaProfile) (id : Name) :
    (runNew C env c p id).st.pib.Sound ∧ ∀ q i, .new q i ∈ (runNew C env c p id).acts → q = p ∧ AppliesFor C p.caPrefix i id := by
  unfold runNew
  obtain ⟨ls, hl⟩ := captureValidity_same 3 c
  split
  · next c1 hc =>
    rw [hc] at hl
    dsimp only at hl
    subst hl
    exact ⟨hs, by simp⟩
  · next hr c1 hc =>
    rw [hc] at hl
    dsimp only at hl
    subst hl
    unfold runNewWith
    dsimp only
    split
    · exact ⟨hs, by simp⟩
    · next c2 e k hp =>
      obtain ⟨a1, a2, a3, a4⟩ := prepareKey_sound hp hs
      have hb : ∃ c3 chosen, (if c2.newIdentity = [] then captureKeyName c2 e env.keyIds2 else (c2, Sum.inr k)) = (c3, chosen) ∧
          c3.pib.Sound ∧ ∀ k, chosen = .inr k → ∃ b, k = id ++ [keyComponent, b] := by
        split
        · have := captureKeyName_sound (c := c2) (e := e) env.keyIds2 a1 (a2.symm ▸ a4)
          rw [a2] at this
          exact ⟨_, _, rfl, this⟩
        · exact ⟨_, _, rfl, a1, fun x hx => by injection hx with hx; subst hx; exact a3⟩
      obtain ⟨c3, chosen, heq, b1, b2⟩ := hb
      rw [heq]
      dsimp only
      split
      · exact ⟨b1, by simp⟩
      · next key =>
        obtain ⟨b, rfl⟩ := b2 key rfl
        split
        · exact ⟨b1, by simp⟩
        · split
          · exact ⟨b1, by simp⟩
          · exact ⟨b1, by simp⟩
          · exact ⟨b1, by simp⟩
          · next i hi =>
            refine ⟨b1, ?_⟩
            intro q j hj
            simp only [List.mem_singleton, Act.new.injEq] at hj
            obtain ⟨rfl, rfl⟩ := hj
            exact ⟨rfl, genNew_applies hi⟩

theorem ClientRun.sound (hw : pib.Sound) {first : List Act} {h : List ClientStep} {c : Client} {x : Ended}
    (run : ClientRun C T file pib stdin first h c x) : x = .going → c.pib.Sound := by
  induction run with
  | start o e =>
    have hs := e ▸ selectCaProfile_started T file { pib := pib, stdin := stdin }
    intro _
    rw [hs.pib]
    exact hw
  | @step first h c e env run o eo ih =>
    intro hx
    have hc := ih rfl
    rcases step_keys C env c e with rfl | ⟨d, w, p, ls, nm, names, rs, _, _, _, _, h5⟩ | ⟨h1, _⟩
    · have : c.step C env .signal = handleSignal c := rfl
      rw [this] at eo
      subst eo
      exact absurd hx (handleSignal_ends c)
    · rw [eo] at h5
      subst h5
      exact (runNew_sound (c := { c with stdin := ls }) hc p nm).1
    · rw [eo] at h1
      rw [h1.1]
      exact hc

end Ndncert
