import Verif.Lemmas.CaIv
import Verif.Spec.Run

/-! # The IVs of the CA's encrypted replies -/

namespace Ndncert.Props

variable {σ : Type} {C : Crypto} {S : StoreI σ} {Inv : σ → Prop} {cfg : CaConfig}

/-- C77. Take any history of the CA, any two encrypted replies to CHALLENGEs for the request with one id, and suppose no
request with that id was created in between. Then the two IVs have the same random part, and the counter of the later one is
past all blocks that the earlier one encrypted. So the IVs differ and no counter block is used twice. The history may
contain crashes and restarts at any point. -/
theorem C77_no_reuse (hC : C.Lawful) (hS : LawfulStore C S Inv) (hcfg : NameFits cfg.profile.caPrefix)
    {h h1 h2 h3 : List (Step σ)} {s : CaState σ} {n1 n2 : Step σ} (hx : Exec C S cfg h s) (hh : h = h1 ++ n1 :: (h2 ++ n2 :: h3))
    {id : RequestId} (hno : ∀ n ∈ h2, ∀ r, Effect.dbAdd r ∈ n.effects → r.requestId ≠ id)
    {iv1 ct1 iv2 ct2 : Bytes} (hr1 : EncryptedReply cfg n1 id iv1 ct1) (hr2 : EncryptedReply cfg n2 id iv2 ct2) :
    ivPrefix iv1 = ivPrefix iv2 ∧ 0 < ct1.length ∧ ivCounter iv1 + blocksOf ct1.length ≤ ivCounter iv2 ∧ iv1 ≠ iv2 := by
  obtain ⟨hx0, hwf, _, heff, _⟩ := hx.split (h1 ++ n1 :: h2) n2 h3 (by rw [hh]; simp)
  have hA := hx0.iv_after hC hS hcfg (h1 := h1) (n := n1) (h2 := h2) rfl hr1 hno
  obtain ⟨i, env, d, hh1, hn, hd, hc⟩ := hr2
  obtain ⟨hmw, hew⟩ := hwf _ _ hh1
  have hinv := (hx0.life hC hS hcfg).1
  obtain ⟨k, hk⟩ : ∃ k, n2.effects = (onChallenge C S cfg n2.pre.store i env).effects.take k := by
    rcases run_effects C S cfg n2.pre n2.event with ⟨h, _⟩ | ⟨m, env', k, h, h'⟩
    · rw [hh1] at h; cases h
    · rw [hh1] at h
      cases h
      exact ⟨k, heff.trans h'⟩
  rw [hk] at hd
  obtain ⟨r, ha, e1, _⟩ := reply_iv hC hS hinv hmw hew hd hc
  have hid : r.requestId = id := by
    obtain ⟨c, q1, q2⟩ := ha.names
    obtain ⟨c', q3, q4⟩ := hn
    rw [q1] at q3
    injection q3 with q3
    rw [q2, q4, q3]
  have hp := ha.pending
  rw [hid] at hp
  obtain ⟨a1, a2, a3, a4⟩ := hA r hp
  rw [startIv_full a2] at e1
  subst e1
  refine ⟨a3.symm, a1, a4, ?_⟩
  intro he
  rw [he] at a4
  have : 0 < blocksOf ct1.length := by unfold blocksOf; omega
  omega

/-- IV and ciphertext of the packet -/
def ivOf (d : Data) : Option (Bytes × Bytes) :=
  match parse d.content.val with
  | .ok es =>
    match getElem es T.InitializationVector, getElem es T.EncryptedPayload with
    | .ok a, .ok b => some (a.val, b.val)
    | _, _ => none
  | _ => none

theorem carries_of_ivOf {d : Data} {iv ct : Bytes} (hl : d.content.val.length < 2 ^ 64) (h : ivOf d = some (iv, ct)) : Carries d iv ct := by
  unfold ivOf at h
  split at h
  · rename_i es he
    split at h
    · rename_i a b ha hb
      injection h with h
      injection h with h1 h2
      exact ⟨hl, es, a, b, he, ha, h1, hb, h2⟩
    · cases h
  · cases h

/-- the steps of the run with a wrong code in which the CA sent an encrypted reply, for the one request -/
def exIvs (n : Step Mem) : List (Bytes × Bytes) := (sent n.effects).filterMap ivOf

/-- the run of the pin challenge contains two such replies, with no request created in between -/
example : ∃ n0 n1 n2 n3 iv1 ct1 iv2 ct2, Fix.pinHist = [n0] ++ n1 :: ([] ++ n2 :: [n3]) ∧
    EncryptedReply Fix.cfg n1 Fix.req1.requestId iv1 ct1 ∧ EncryptedReply Fix.cfg n2 Fix.req1.requestId iv2 ct2 := by
  have e1 : (ivOf Fix.reply2).isSome = true := by decide +kernel
  have e2 : (ivOf Fix.reply3).isSome = true := by decide +kernel
  obtain ⟨⟨iv1, ct1⟩, h1⟩ := Option.isSome_iff_exists.mp e1
  obtain ⟨⟨iv2, ct2⟩, h2⟩ := Option.isSome_iff_exists.mp e2
  refine ⟨⟨Fix.st0, Fix.ev1, (Fix.ev1.run Fix.C Fix.S Fix.cfg Fix.st0).1⟩, ⟨Fix.st1, Fix.ev2, (Fix.ev2.run Fix.C Fix.S Fix.cfg Fix.st1).1⟩,
    ⟨Fix.st2, Fix.ev3, (Fix.ev3.run Fix.C Fix.S Fix.cfg Fix.st2).1⟩, ⟨Fix.st3, Fix.ev4, (Fix.ev4.run Fix.C Fix.S Fix.cfg Fix.st3).1⟩,
    iv1, ct1, iv2, ct2, by unfold Fix.pinHist Fix.pinRun Fix.st3 Fix.st2 Fix.st1; rfl, ?_, ?_⟩
  · exact ⟨Fix.chal1, Fix.env2, Fix.reply2, rfl, ⟨gcomp Fix.req1.requestId, by decide +kernel, by decide +kernel⟩, by decide +kernel, carries_of_ivOf (by decide +kernel) h1⟩
  · exact ⟨Fix.chal2, Fix.env3, Fix.reply3, rfl, ⟨gcomp Fix.req1.requestId, by decide +kernel, by decide +kernel⟩, by decide +kernel, carries_of_ivOf (by decide +kernel) h2⟩

/-- the counters of the three replies of the run -/
example : (Fix.pinHist.map fun n => (exIvs n).map fun x => (ivCounter x.1, x.2.length)) = [[], [(0, 21)], [(2, 22)], [(4, 49)]] := by
  decide +kernel

end Ndncert.Props
