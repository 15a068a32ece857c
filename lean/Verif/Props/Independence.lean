import Verif.Lemmas.Secrecy
import Verif.Lemmas.Opens
import Verif.Spec.Run

/-! # Requests do not influence each other, and codes do not leak -/

namespace Ndncert.Props

variable {σ : Type} {C : Crypto} {S : StoreI σ} {Inv : σ → Prop} {cfg : CaConfig}

/-! ## C98 -/

/-- Two executions of the CA get the same Interests at the same times and with the same random values, except for
those from which the secret codes are made. As long as in neither of them the right code is given for a request, the CA
answers alike, signs the same certificates, sends the same emails but for the code, and calls the callback with the same
states but for the code: nothing that it sends depends on a code that was not given. -/
theorem C98_replies_hide_code (hC : C.Lawful) (hS : ExactStore C S Inv) (hcfg : NameFits cfg.profile.caPrefix)
    {h h' : List (Step σ)} {s s' : CaState σ} (hx : Exec C S cfg h s) (hx' : Exec C S cfg h' s')
    (hev : Each OtherCode (h.map Step.event) (h'.map Step.event)) (hk : startKey h s = startKey h' s')
    (hg : NoRightCode C S cfg (fun _ => True) h) (hg' : NoRightCode C S cfg (fun _ => True) h') :
    Each (SameButCode C S cfg) h h' := by
  exact (exec_like hC hS hcfg (fun _ => True) hx hx' hev hk hg hg').1.mono fun n n' h1 => by
    rcases h1 with ⟨_, h, _⟩ | h
    · exact absurd trivial h
    · exact h

/-- The same for a part of the requests: whatever codes are given for the others, right or wrong, the Interests that are
not about those others are answered alike, and nothing depends on the codes of the requests in `P`. -/
theorem C98_replies_hide_code_of (hC : C.Lawful) (hS : ExactStore C S Inv) (hcfg : NameFits cfg.profile.caPrefix)
    (P : RequestId → Prop) {h h' : List (Step σ)} {s s' : CaState σ} (hx : Exec C S cfg h s) (hx' : Exec C S cfg h' s')
    (hev : Each OtherCode (h.map Step.event) (h'.map Step.event)) (hk : startKey h s = startKey h' s')
    (hg : NoRightCode C S cfg P h) (hg' : NoRightCode C S cfg P h') :
    Each (fun n n' => (∃ id, ¬ P id ∧ Concerns C cfg id n) ∨ SameButCode C S cfg n n') h h' :=
  (exec_like hC hS hcfg P hx hx' hev hk hg hg').1

/-- both kinds of storage are exact -/
theorem C98_storages (C : Crypto) : ExactStore C memStore (MemOk C) ∧ ExactStore C (sqlStore C) (SqlInv C) :=
  ⟨memStore_exact C, sqlStore_exact C⟩

/-- whether the step gives a wrong code or none, as a program (used in the examples) -/
def exNotRight (n : Step Mem) : Bool :=
  match n.event.msg? with
  | some (.challenge i, env) =>
    match getCertificateRequest Fix.S Fix.cfg n.pre.store i env with
    | .ok (some r) =>
      match decodeAes Fix.C (i.params.getD ⟨0, []⟩) r.encryptionKey r.requestId r.decryptionIv r.encryptionIv with
      | (_, .ok pt) =>
        match parse pt with
        | .ok es =>
          match r.challengeState with
          | none => true
          | some cs =>
            match secretGet cs.secrets KEY_CODE, getElem es T.ParameterValue with
            | .ok code, .ok b => b.val != code
            | _, _ => false
        | _ => false
      | _ => false
    | _ => false
  | _ => true

theorem exNotRight_sound {n : Step Mem} (hi : MemOk Fix.C n.pre.store) (hwf : n.event.Wf Fix.cfg) (h : exNotRight n = true)
    (P : RequestId → Prop) : NoRightCode Fix.C Fix.S Fix.cfg P [n] := by
  intro n' hn i env r es k cs code _ hch _ hw
  rw [List.mem_singleton] at hn
  subst hn
  obtain ⟨h1, h2, h3⟩ := hch
  unfold Step.Handles at h1
  obtain ⟨w1, w2⟩ := hwf _ _ h1
  have hv := (verified_authentic (memStore_lawful Fix.C) hi (idFits_of_wf w1) w2.stack).mpr h2
  unfold exNotRight at h
  rw [h1] at h
  dsimp only at h
  rw [hv.found] at h
  dsimp only at h
  obtain ⟨pt, sel, g1, g2, g3, g4, g5⟩ := h3
  split at h
  · rename_i div pt' hd
    have hdec : Decrypts Fix.C i r pt' := decodeAes_decrypts hd
    obtain rfl := hdec.unique g1
    rw [g3] at h
    dsimp only at h
    rw [hw.1] at h
    dsimp only at h
    have hw3 : secretGet cs.secrets KEY_CODE = .ok code := hw.2.2
    rw [hw3] at h
    rintro ⟨b, hb, rfl⟩
    rw [hb] at h
    simp at h
  · cases h

theorem exNotRight_all {h : List (Step Mem)} {s : CaState Mem} (hx : Exec Fix.C Fix.S Fix.cfg h s) (ha : h.all exNotRight = true)
    (P : RequestId → Prop) : NoRightCode Fix.C Fix.S Fix.cfg P h := by
  intro n hn
  obtain ⟨h1, h2, hh⟩ := List.append_of_mem hn
  obtain ⟨e1, e2, _⟩ := hx.split h1 n h2 hh
  exact exNotRight_sound (exec_inv Toy.lawful (memStore_lawful Fix.C) Fix.cfg_fits e1) e2 (List.all_eq_true.mp ha n hn) P n
    (List.mem_singleton.mpr rfl)

/-- the random source gives another word when the pin challenge is started -/
def exEv2 : Event := .msg (.challenge Fix.chal1) { Fix.env2 with word32 := 123 }

def exRun : List Event := [Fix.ev1, Fix.ev2, Fix.ev3]
def exRun' : List Event := [Fix.ev1, exEv2, Fix.ev3]

/-- two executions with different codes, in which a wrong code is given, meet the hypotheses; the codes in the storage do
differ, and something is sent in each step -/
example : ∃ (h h' : List (Step Mem)) (s s' : CaState Mem), Exec Fix.C Fix.S Fix.cfg h s ∧ Exec Fix.C Fix.S Fix.cfg h' s' ∧
    Each OtherCode (h.map Step.event) (h'.map Step.event) ∧ startKey h s = startKey h' s' ∧
    NoRightCode Fix.C Fix.S Fix.cfg (fun _ => True) h ∧ NoRightCode Fix.C Fix.S Fix.cfg (fun _ => True) h' ∧
    ExactStore Fix.C Fix.S (MemOk Fix.C) ∧
    Fix.S.view s.store Fix.req1.requestId ≠ Fix.S.view s'.store Fix.req1.requestId ∧
    h.map (fun n => (sent n.effects).length) = [1, 1, 1] := by
  have x1 := exec_of_runs (C := Fix.C) (S := Fix.S) (cfg := Fix.cfg) (idKey := Fix.idKey) (es := exRun) (by decide +kernel)
  have x2 := exec_of_runs (C := Fix.C) (S := Fix.S) (cfg := Fix.cfg) (idKey := Fix.idKey) (es := exRun') (by decide +kernel)
  refine ⟨_, _, _, _, x1, x2, ?_, rfl, exNotRight_all x1 (by decide +kernel) _, exNotRight_all x2 (by decide +kernel) _,
    memStore_exact _, by decide +kernel, by decide +kernel⟩
  exact .cons (.msg _ Fix.env1 Fix.env1.word32) (.cons (.msg _ _ _) (.cons (.msg _ Fix.env3 Fix.env3.word32) .nil))

/-- with the right code the CA does answer differently: the theorem would be wrong without its hypothesis -/
example : (Fix.ev4.run Fix.C Fix.S Fix.cfg (runs Fix.C Fix.S Fix.cfg Fix.st0 exRun).2).1.length ≠
    (Fix.ev4.run Fix.C Fix.S Fix.cfg (runs Fix.C Fix.S Fix.cfg Fix.st0 exRun').2).1.length := by decide +kernel

/-! ## C99 -/

/-- Take any execution of the CA and the id of a request, and leave out every Interest that is not the requester's: what is left, with the
same effects (so the same replies, emails, certificates and callbacks), is an execution of the CA too, and it leaves the
same entry for the request. What others send has no influence. -/
theorem C99_others_irrelevant (hC : C.Lawful) (hS : ExactStore C S Inv) (hcfg : NameFits cfg.profile.caPrefix) (id : RequestId)
    {h : List (Step σ)} {s : CaState σ} (hx : Exec C S cfg h s) :
    ∃ h' s', Exec C S cfg h' s' ∧ h'.map (fun n => (n.event, n.effects)) = leftWith (OwnStep C S cfg id) h ∧
      S.view s'.store id = S.view s.store id := by
  obtain ⟨h', s', a, b, _, c⟩ := leave_out hC hS hcfg id (OwnStep C S cfg id) hx (fun _ _ h => h) (by
    intro n hn ho
    obtain ⟨h1, h2, hh⟩ := List.append_of_mem hn
    obtain ⟨_, e2, _, e4, _⟩ := hx.split h1 n h2 hh
    exact ho.concerns e2 e4)
  exact ⟨h', s', a, b, c⟩

/-- The same with every Interest that names the request kept, whoever sent it: replies to Interests about a request,
error replies included, depend on no other request. -/
theorem C99_other_requests_irrelevant (hC : C.Lawful) (hS : ExactStore C S Inv) (hcfg : NameFits cfg.profile.caPrefix) (id : RequestId)
    {h : List (Step σ)} {s : CaState σ} (hx : Exec C S cfg h s) :
    ∃ h' s', Exec C S cfg h' s' ∧ h'.map (fun n => (n.event, n.effects)) = leftWith (Concerns C cfg id) h ∧
      S.view s'.store id = S.view s.store id := by
  obtain ⟨h', s', a, b, _, c⟩ := leave_out hC hS hcfg id (Concerns C cfg id) hx (by
    intro n hn ho
    obtain ⟨h1, h2, hh⟩ := List.append_of_mem hn
    obtain ⟨_, e2, _, e4, _⟩ := hx.split h1 n h2 hh
    exact ho.concerns e2 e4) (fun _ _ h => h)
  exact ⟨h', s', a, b, c⟩

/-- /ndn/bob/KEY/b: another requester -/
def exBob : Interest := Fix.interestOf (genNewInterest Fix.C Fix.requester (Fix.ca ++ [gcomp (bytes! "bob"), keyComponent, gcomp [98]])
  (1000 * nsPerSec) (4600 * nsPerSec) ⟨54, [2]⟩).2
def exBobEv : Event := .msg (.new exBob) (Fix.env 1001 6)
/-- a CHALLENGE for the request of alice that bob signed -/
def exForged : Interest := { Fix.chal2 with sig := exBob.sig }
def exForgedEv : Event := .msg (.challenge exForged) (Fix.env 1001 7)
def exMixed : List Event := [Fix.ev1, exBobEv, exForgedEv, Fix.ev2, Fix.ev3, Fix.ev4]
def exMixedHist : List (Step Mem) := (runs Fix.C Fix.S Fix.cfg Fix.st0 exMixed).1

/-- whether the step is one of the requester's, as a program (used in the example) -/
def exOwn (id : RequestId) (n : Step Mem) : Bool :=
  match n.event.msg? with
  | some (.challenge i, env) =>
    match getCertificateRequest Fix.S Fix.cfg n.pre.store i env with
    | .ok (some r) => Fix.C.verifyInterest i r.cert && decide (r.requestId = id)
    | _ => false
  | some (.new _, _) => n.effects.any (fun e => match e with | .dbAdd r => decide (r.requestId = id) | _ => false)
  | some (.revoke _, _) => n.effects.any (fun e => match e with | .dbAdd r => decide (r.requestId = id) | _ => false)
  | _ => false

theorem exOwn_iff {n : Step Mem} (hi : MemOk Fix.C n.pre.store) (hwf : n.event.Wf Fix.cfg) (id : RequestId) :
    exOwn id n = true ↔ OwnStep Fix.C Fix.S Fix.cfg id n := by
  have hadd : n.effects.any (fun e => match e with | .dbAdd r => decide (r.requestId = id) | _ => false) = true ↔
      ∃ r, Effect.dbAdd r ∈ n.effects ∧ r.requestId = id := by
    rw [List.any_eq_true]
    constructor
    · rintro ⟨e, h1, h2⟩
      cases e <;> simp at h2
      exact ⟨_, h1, h2⟩
    · rintro ⟨r, h1, h2⟩
      exact ⟨_, h1, by simpa using h2⟩
  unfold exOwn OwnStep AcceptsNew AcceptsRevoke Step.Handles
  cases hm : n.event.msg? with
  | none => simp
  | some x =>
    obtain ⟨m, env⟩ := x
    cases m with
    | probe i => simp
    | new i =>
      dsimp only
      rw [hadd]
      constructor
      · rintro ⟨r, h1, h2⟩
        exact .inr ⟨i, env, r, .inl ⟨rfl, h1⟩, h2⟩
      · rintro (⟨_, _, _, h, _⟩ | ⟨_, _, r, ⟨_, h⟩ | ⟨h, _⟩, h2⟩)
        · cases h
        · exact ⟨r, h, h2⟩
        · cases h
    | revoke i =>
      dsimp only
      rw [hadd]
      constructor
      · rintro ⟨r, h1, h2⟩
        exact .inr ⟨i, env, r, .inr ⟨rfl, h1⟩, h2⟩
      · rintro (⟨_, _, _, h, _⟩ | ⟨_, _, r, ⟨h, _⟩ | ⟨_, h⟩, h2⟩)
        · cases h
        · cases h
        · exact ⟨r, h, h2⟩
    | challenge i =>
      obtain ⟨w1, w2⟩ := hwf _ _ hm
      have hau : ∀ r, _ ↔ _ := fun r => verified_authentic (r := r) (memStore_lawful Fix.C) hi (idFits_of_wf w1) w2.stack (cfg := Fix.cfg)
      constructor
      · intro h
        dsimp only at h
        split at h
        · rename_i r hr
          rw [Bool.and_eq_true, decide_eq_true_eq] at h
          exact .inl ⟨i, env, r, rfl, (hau r).mp ⟨hr, h.1⟩, h.2⟩
        · cases h
      · rintro (⟨_, _, r, h, h1, h2⟩ | ⟨_, _, _, ⟨h, _⟩ | ⟨h, _⟩, _⟩)
        · cases h
          have hv := (hau r).mpr h1
          dsimp only
          rw [hv.found]
          dsimp only
          rw [hv.sig, h2]
          simp
        · cases h
        · cases h

theorem exOwn_left {h : List (Step Mem)} {s : CaState Mem} (hx : Exec Fix.C Fix.S Fix.cfg h s) (id : RequestId) :
    leftWith (OwnStep Fix.C Fix.S Fix.cfg id) h = h.filterMap (fun n =>
      if exOwn id n = true then some (n.event, n.effects)
      else match n.event with
        | .msg _ _ => none
        | .crash _ _ _ newKey => some (.restart newKey, [])
        | .restart newKey => some (.restart newKey, [])) := by
  unfold leftWith
  have hcongr : ∀ {α β : Type} (f g : α → Option β) (l : List α), (∀ a ∈ l, f a = g a) → l.filterMap f = l.filterMap g := by
    intro α β f g l
    induction l with
    | nil => intro _; rfl
    | cons a l ih =>
      intro h
      rw [List.filterMap_cons, List.filterMap_cons, h a (by simp), ih (fun b hb => h b (by simp [hb]))]
  apply hcongr
  intro n hn
  obtain ⟨h1, h2, hh⟩ := List.append_of_mem hn
  obtain ⟨e1, e2, _⟩ := hx.split h1 n h2 hh
  have := exOwn_iff (exec_inv Toy.lawful (memStore_lawful Fix.C) Fix.cfg_fits e1) e2 id
  by_cases ho : exOwn id n = true
  · rw [if_pos ho, if_pos (this.mp ho)]
  · rw [if_neg ho, if_neg (fun h => ho (this.mpr h))]
    cases n.event <;> rfl

/-- in this run bob starts a request of their own and forges a CHALLENGE for the request of alice, and both are answered;
what is left when they are left out is the run of alice alone, with all its effects -/
example : Exec Fix.C Fix.S Fix.cfg exMixedHist (runs Fix.C Fix.S Fix.cfg Fix.st0 exMixed).2 ∧
    exMixedHist.map (fun n => (sent n.effects).length) = [1, 1, 1, 1, 1, 1] ∧
    (leftWith (OwnStep Fix.C Fix.S Fix.cfg Fix.req1.requestId) exMixedHist).map (fun x => (x.1.msg?.map (fun y => y.1.interest), x.2)) =
      Fix.pinHist.map (fun n => (n.event.msg?.map (fun y => y.1.interest), n.effects)) := by
  have hx := exec_of_runs (C := Fix.C) (S := Fix.S) (cfg := Fix.cfg) (idKey := Fix.idKey) (es := exMixed) (by decide +kernel)
  refine ⟨hx, by decide +kernel, ?_⟩
  rw [show leftWith (OwnStep Fix.C Fix.S Fix.cfg Fix.req1.requestId) exMixedHist = _ from exOwn_left hx Fix.req1.requestId]
  decide +kernel

end Ndncert.Props
