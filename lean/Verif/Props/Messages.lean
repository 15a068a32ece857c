import Verif.Lemmas.Messages
import Verif.Lemmas.Agreement
import Verif.Props.CaHistory

/-! # C135: what a program is told of an error -/

namespace Ndncert.Props

/-- **C135** The text of the exception says which code and which description the CA sent: different ones give different texts. (`what()` ends
at a NUL; a description without one is given in full.) -/
theorem C135_text (code code' : Nat) (info info' : Bytes) (h : (0 : UInt8) ∉ info) (h' : (0 : UInt8) ∉ info')
    {e e' : Exc} (he : e = .caError code info) (he' : e' = .caError code' info') {text : Bytes} (hs : e.Says text) (hs' : e'.Says text) :
    code = code' ∧ info = info' := by
  subst he he'
  obtain ⟨c, i, e1, rfl⟩ := hs
  obtain ⟨c', i', e2, e3⟩ := hs'
  cases e1
  cases e2
  rw [whatOf_nonul (caErrorText_nonul h), whatOf_nonul (caErrorText_nonul h')] at e3
  exact caErrorText_inj e3

/-- with a NUL the rest is lost -/
example : whatOf (caErrorText 4 [65, 0, 66]) = whatOf (caErrorText 4 [65]) := by decide
/-- a code that is not documented -/
example : whatOf (caErrorText 77 (bytes! "x")) = bytes! "Error info replied from the CA with Error code: <Unknown Error 77> and Error Info: x" := by decide

section

variable {σ : Type} {C : Crypto} {S : StoreI σ} {Inv : σ → Prop} {cfg : CaConfig}

theorem step_told {h : List (Step σ)} {s : CaState σ} (hx : Exec C S cfg h s) {n : Step σ} (hn : n ∈ h) {d : Data} (hd : d ∈ sent n.effects) :
    ∃ h1 h2 m env, h = h1 ++ n :: h2 ∧ Exec C S cfg h1 n.pre ∧ n.Handles m env ∧ m.Wf cfg ∧ env.Wf ∧
      ToldBy (MsgReason C S cfg n.pre.store m env) d := by
  obtain ⟨h1, h2, m, env, k, e1, hp, hm, he, hw, hw'⟩ := handled_step hx hn hd
  refine ⟨h1, h2, m, env, e1, hp, hm, hw, hw', ?_⟩
  have hput : Effect.put d ∈ (handle C S cfg n.pre m env).effects := by
    have : Effect.put d ∈ n.effects := mem_sent.mp hd
    rw [he] at this
    exact List.mem_of_mem_take this
  cases m with
  | probe i => exact onProbe_told i env d hput
  | new i => exact onNew_told .new n.pre.idKey n.pre.store i env d hput
  | revoke i => exact onNew_told .revoke n.pre.idKey n.pre.store i env d hput
  | challenge i => exact onChallenge_told n.pre.store i env d hput

/-- **C135** In every history of a CA, a reply it sends is either taken as no error, or it has one of the documented codes, and whichever handler of
a requester that trusts the CA's certificate gets it throws an exception whose text is made of the name of the code and what the CA said. -/
theorem C135_told {h : List (Step σ)} {s : CaState σ} (hx : Exec C S cfg h s) {n : Step σ} (hn : n ∈ h) {d : Data} (hd : d ∈ sent n.effects)
    (hl : d.content.val.length < 2 ^ 64) :
    processIfError d = .ok () ∨
    ∃ (code : Nat) (name info : Bytes), (code, name) ∈ documentedCodes ∧ (0 : UInt8) ∉ info ∧ d.content = errorEncode code info ∧
      ∀ (r : Request) c, r.profile.cert = some c → C.verifyData d c = true →
        ∃ e, e.Says (bytes! "Error info replied from the CA with Error code: " ++ name ++ bytes! " and Error Info: " ++ info) ∧
          (∀ names cas, onProbeResponse C d r.profile names cas = .exc e) ∧
          (∀ stack, onNewResponse C r d stack = (r, .exc e)) ∧
          (∀ now, onChallengeResponse C r d now = (r, .exc e)) := by
  obtain ⟨_, _, _, _, _, _, _, _, _, ht⟩ := step_told hx hn hd
  rcases ht with ⟨code, info, hc, h1, h9, _, h0, hlen⟩ | ht
  · right
    have hname : (code, errorCodeText code) ∈ documentedCodes := by
      have : code = 1 ∨ code = 2 ∨ code = 3 ∨ code = 4 ∨ code = 5 ∨ code = 6 ∨ code = 7 ∨ code = 8 ∨ code = 9 := by omega
      rcases this with rfl | rfl | rfl | rfl | rfl | rfl | rfl | rfl | rfl <;> decide
    refine ⟨code, errorCodeText code, info, hname, h0, hc, ?_⟩
    intro r c hr hv
    have hi : info.length < 2 ^ 64 := by omega
    refine ⟨.caError code info, ⟨code, info, rfl, ?_⟩, fun names cas => C01_probe_error C r.profile c d code info names cas hr hv hc (by omega) (by omega) hi,
      fun stack => C01_new_error C r c d code info stack hr hv hc (by omega) (by omega) hi,
      fun now => C01_challenge_error C r c d code info now hr hv hc (by omega) (by omega) hi⟩
    rw [whatOf_nonul (caErrorText_nonul h0)]
    rfl
  · exact .inl (ht hl)

/-- **C135** The code says why. PROBE is refused with INVALID_PARAMETER only. CHALLENGE is refused with BAD_SIGNATURE only if there is a request of
the id named and the Interest does not verify under its certificate; with OUT_OF_TIME only if the code had expired; with OUT_OF_TRIES only if a code was given that is not
the right one and there was no more than one try left; with BAD_INTEREST_FORMAT only by the proof of possession; and otherwise with
INVALID_PARAMETER. (For NEW and REVOKE: C21.) -/
theorem C135_reason (hC : C.Lawful) (hS : LawfulStore C S Inv) (hcfg : NameFits cfg.profile.caPrefix) {h : List (Step σ)} {s : CaState σ}
    (hx : Exec C S cfg h s) {n : Step σ} (hn : n ∈ h) {d : Data} (hd : d ∈ sent n.effects) (hl : d.content.val.length < 2 ^ 64)
    {code : Nat} {info : Bytes} (he : d.content = errorEncode code info) (h0 : code ≠ 0) (hc : code < 2 ^ 64) (hi : info.length < 2 ^ 64) :
    (∀ i env, n.Handles (.probe i) env → code = 4) ∧
    (∀ i env, n.Handles (.challenge i) env → code = 4 ∨
      (code = 3 ∧ ∃ r, S.view n.pre.store r.requestId = some r ∧ Names cfg env i r.requestId ∧ C.verifyInterest i r.cert = false) ∨
      ∃ r es k, Challenges C S cfg n i env r es k ∧ RefusedFor k env es r code) := by
  obtain ⟨h1, h2, m, env, e1, hp, hm, hw, hw', ht⟩ := step_told hx hn hd
  have hdec := C01_error_roundtrip code info hc hi
  obtain ⟨code', info', hc', _, h9, hQ, _, hlen⟩ : ∃ (code' : Nat) (info' : Bytes), d.content = errorEncode code' info' ∧ 1 ≤ code' ∧ code' ≤ 9 ∧
      MsgReason C S cfg n.pre.store m env code' ∧ (0 : UInt8) ∉ info' ∧ info'.length < 2 ^ 16 := by
    rcases ht with ht | ht
    · exact ht
    · have := ht hl
      unfold processIfError at this
      rw [he, hdec] at this
      dsimp only at this
      rw [if_neg h0] at this
      cases this
  have hcode : code' = code := by
    have := C01_error_roundtrip code' info' (by omega) (by omega)
    rw [← hc', he, hdec] at this
    exact (Prod.mk.inj this).1.symm
  subst hcode
  refine ⟨?_, ?_⟩
  · intro i env' hm'
    unfold Step.Handles at hm hm'
    rw [hm] at hm'
    cases hm'
    exact hQ
  · intro i env' hm'
    have hme := hm'
    unfold Step.Handles at hm hm'
    rw [hm] at hm'
    cases hm'
    have hinv := (hp.life hC hS hcfg).1
    have hid := idFits_of_wf hw
    rcases hQ with hQ | ⟨hQ, r, hg, hv⟩ | ⟨r, es, k, div, hver, ho, hr⟩
    · exact .inl hQ
    · refine .inr (.inl ⟨hQ, r, ?_⟩)
      rcases lookup_cases (cfg := cfg) (i := i) hS hinv hid hw'.stack with ⟨h1, _⟩ | ⟨r', h1, h2, h3⟩
      · rw [h1] at hg; cases hg
      · rw [h1] at hg
        cases hg
        exact ⟨h2, h3, hv⟩
    · exact .inr (.inr ⟨r, es, k, ⟨hme, (verified_authentic hS hinv hid hw'.stack).mp hver, ho.selects⟩, hr⟩)

end

/-- the third wrong code: the program reads the name of the code and the description -/
example : (match (runs Fix.C Fix.S Fix.cfg Fix.st0 exWrongRun).1.getLast? with
    | some n => (sent n.effects).map (fun d => whatOf (caErrorText (errorDecode d.content).1 (errorDecode d.content).2))
    | none => []) = [bytes! "Error info replied from the CA with Error code: OUT_OF_TRIES and Error Info: Ran out tires."] := by decide +kernel

end Ndncert.Props
