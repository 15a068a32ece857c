import Verif.Lemmas.Size
import Verif.Lemmas.Face
import Verif.Props.CaHistory
import Verif.Props.Probe

/-! # Replies and the packet size of the network: C95 -/

namespace Ndncert.Props

open Ndncert

variable {σ : Type} {C : Crypto} {S : StoreI σ} {Inv : σ → Prop} {cfg : CaConfig}

/-- C95, the limit: packets of at most 8800 octets are sent as the handler made them; a bigger one is not sent, and ends the process. (`extra`: the octets of
the parts of a packet that are not modelled.) -/
theorem C95_limit (extra : Nat) (o : Outcome) :
    ((∀ d, .put d ∈ o.effects → (Block.encode ⟨7, encodeAll d.name⟩).length + d.content.encode.length + extra ≤ 8800) → onFace extra o = o) ∧
    ∀ d, .put d ∈ o.effects → 8800 < (Block.encode ⟨7, encodeAll d.name⟩).length + d.content.encode.length + extra →
      (onFace extra o).term = .threw .runtime ∧
      ∀ e, e ∈ (onFace extra o).effects ↔
        e ∈ o.effects ∧ ∀ d', e = .put d' → (Block.encode ⟨7, encodeAll d'.name⟩).length + d'.content.encode.length + extra ≤ 8800 := by
  have big : ∀ e, Effect.tooBig extra e = true ↔ ∃ d', e = .put d' ∧ 8800 < (Block.encode ⟨7, encodeAll d'.name⟩).length + d'.content.encode.length + extra := by
    intro e
    cases e with
    | put d' =>
      constructor
      · intro h
        exact ⟨d', rfl, of_decide_eq_true h⟩
      · rintro ⟨d2, e2, h⟩
        cases e2
        exact decide_eq_true h
    | _ => exact ⟨fun h => (by cases h), fun ⟨d', h, _⟩ => (by cases h)⟩
  constructor
  · intro h
    unfold onFace
    rw [if_neg]
    intro hany
    obtain ⟨e, he, hb⟩ := List.any_eq_true.mp hany
    obtain ⟨d', rfl, hlt⟩ := (big e).mp hb
    have := h d' he
    omega
  · intro d hd hlt
    have hany : o.effects.any (Effect.tooBig extra) = true := List.any_eq_true.mpr ⟨_, hd, (big _).mpr ⟨d, rfl, hlt⟩⟩
    unfold onFace
    rw [if_pos hany]
    refine ⟨rfl, fun e => ?_⟩
    rw [List.mem_filter]
    refine and_congr_right fun _ => ?_
    constructor
    · intro h d' e'
      have hn : ¬ Effect.tooBig extra e = true := by simpa using h
      exact Nat.le_of_not_lt fun hl => hn ((big e).mpr ⟨d', e', hl⟩)
    · intro h
      have hn : ¬ Effect.tooBig extra e = true := fun hb => by
        obtain ⟨d', e', hl⟩ := (big e).mp hb
        have := h d' e'
        omega
      simpa using hn

/-- C95 is false: every CA whose prefix is not itself enormous, in every state, is ended by one Interest that fits into a packet,
needs no signature and no parameters, and reaches the NEW handler. The handler returns normally, but its error reply repeats the name
and does not fit: the face throws. (`24` octets are more than header, nonce, lifetime and selectors of an Interest take.) -/
theorem C95_false (C : Crypto) (S : StoreI σ) (cfg : CaConfig) (s : CaState σ) (env : Env) (hp : nameOctets cfg.profile.caPrefix ≤ 8000)
    (hv : env.caCert.validity ≠ none) :
    ∃ i : Interest, i.params = none ∧ i.sig = [] ∧ nameOctets i.name + 24 ≤ 8800 ∧ dispatch cfg.profile i.name = [.new] ∧
      (handle C S cfg s (.new i) env).term = .done ∧
      ∀ extra, onFace extra (handle C S cfg s (.new i) env) = ⟨[], .threw .runtime⟩ := by
  obtain ⟨c, hc⟩ := long_name cfg.profile.caPrefix hp (n := 8776) (by decide) (by decide)
  let i : Interest := { name := cfg.profile.caPrefix ++ [gcomp (bytes! "CA"), gcomp (bytes! "NEW"), c], params := none, sig := [] }
  have err : ∃ (code : ErrorCode) (info : Bytes), 34 ≤ info.length ∧ handle C S cfg s (.new i) env = replyError C cfg i [] code info := by
    show ∃ (code : ErrorCode) (info : Bytes), 34 ≤ info.length ∧ onNewRenewRevoke C S cfg s.idKey s.store .new i env = _
    unfold onNewRenewRevoke certIsValid
    cases h : env.caCert.validity with
    | none => exact absurd h hv
    | some v =>
      dsimp only
      cases decide (v.1 ≤ env.nowCa ∧ env.nowCa ≤ v.2) with
      | false => exact ⟨_, _, by decide, rfl⟩
      | true => exact ⟨ErrorCode.INVALID_PARAMETER, bytes! "Empty TLV obtained from the Interest parameter.", by decide, rfl⟩
  obtain ⟨code, info, hlen, herr⟩ := err
  refine ⟨i, rfl, rfl, by rw [show nameOctets i.name = 8776 from hc]; decide, dispatch_of ⟨[c], by simp [i, Handler.words]⟩, by rw [herr]; rfl, ?_⟩
  intro extra
  have hbig : Effect.tooBig extra (.put (errorData C cfg.profile.caPrefix i.name code info)) = true := by
    have := errorEncode_octets_ge code info
    have hn : nameOctets i.name = 8776 := hc
    simp only [Effect.tooBig, Data.octets, errorData, mkData, decide_eq_true_eq, maxPacketSize, hn]
    omega
  rw [herr]
  unfold onFace replyError
  simp [hbig]

/-- the CA of the fixtures, at the start -/
example : nameOctets Fix.cfg.profile.caPrefix ≤ 8000 ∧ Fix.env1.caCert.validity ≠ none := by decide +kernel

/-- C95, partial: in every execution, what the CA sends for NEW, REVOKE and CHALLENGE does fit if the name of the Interest leaves
enough room: 200 octets and the list of challenges for NEW and REVOKE; 150 octets, the name of the certificate to be issued and the
forwarding hint for CHALLENGE. Then face and handler together do just what the handler does. For PROBE, whose reply can repeat the caller's
parameters in the names it offers, see `C95_probe_any_partial` and `C95_probe_partial`. -/
theorem C95_fits_partial (hC : C.Lawful) (hS : LawfulStore C S Inv) (hcfg : NameFits cfg.profile.caPrefix) {h : List (Step σ)} {s : CaState σ}
    (hx : Exec C S cfg h s) {m : Msg} {env : Env} (hm : m.Wf cfg) (he : env.Wf) (extra : Nat) (hprobe : ∀ i, m ≠ .probe i)
    (hnew : ∀ i, m = .new i ∨ m = .revoke i →
      nameOctets i.name + (C.ecdhPub env.ecdhPriv).length + offerOctets cfg.profile + 200 + extra ≤ 8800)
    (hchal : ∀ i, m = .challenge i → nameOctets i.name + 150 + extra ≤ 8800 ∧
      ∀ r, S.view s.store r.requestId = some r → Names cfg env i r.requestId → nameOctets i.name + challengeOctets cfg env r + extra ≤ 8800) :
    onFace extra (handle C S cfg s m env) = handle C S cfg s m env := by
  have hmax : maxPacketSize = 8800 := rfl
  cases m with
  | probe i => exact absurd rfl (hprobe i)
  | new i =>
    have := hnew i (.inl rfl)
    exact onFace_fits (new_within (S := S) .new s.idKey s.store i env he.salt) (by omega)
  | revoke i =>
    have := hnew i (.inr rfl)
    exact onFace_fits (new_within (S := S) .revoke s.idKey s.store i env he.salt) (by omega)
  | challenge i =>
    obtain ⟨h1, h2⟩ := hchal i rfl
    have hi := (hx.life hC hS hcfg).1
    refine onFace_fits (n := maxPacketSize - nameOctets i.name - extra) (challenge_within hC he (by omega) ?_) (by omega)
    intro r hr
    rcases lookup_cases (cfg := cfg) (i := i) (env := env) hS hi (hm.2 i rfl) he.stack with ⟨g, _⟩ | ⟨r', g, g2, g3⟩
    · rw [g] at hr; cases hr
    rw [g] at hr
    cases hr
    refine ⟨?_, by have := h2 r g2 g3; omega⟩
    rcases (hx.stored hC hS hcfg g2).1 with h | ⟨k, env, cs, h⟩
    · exact .inl h.2.2.2.1
    · exact .inr h.encIv

/-- the last CHALLENGE of the run of the fixtures, in which the certificate is issued, with 500 octets for the signature -/
example : onFace 500 (handle Fix.C Fix.S Fix.cfg Fix.st3 (.challenge Fix.chal3) Fix.env4) =
    handle Fix.C Fix.S Fix.cfg Fix.st3 (.challenge Fix.chal3) Fix.env4 ∧
    nameOctets Fix.chal3.name + challengeOctets Fix.cfg Fix.env4 (Fix.stored Fix.st3) + 500 ≤ 8800 ∧
    nameOctets Fix.newInterest.name + (Fix.C.ecdhPub Fix.env1.ecdhPriv).length + offerOctets Fix.cfg.profile + 200 + 500 ≤ 8800 := by
  decide +kernel

/-- C95, partial: a CA that assigns random names and does not redirect (the default) answers every PROBE whose name leaves room for the
CA prefix and 100 octets with a packet that fits. -/
theorem C95_probe_partial (C : Crypto) (S : StoreI σ) (cfg : CaConfig) (s : CaState σ) (i : Interest) (env : Env) (extra : Nat)
    (ha : cfg.assignments = [.random]) (hr : cfg.redirection = []) (hw : env.rand64 0 < 2 ^ 64)
    (hfit : nameOctets i.name + nameOctets cfg.profile.caPrefix + 100 + extra ≤ 8800) :
    onFace extra (handle C S cfg s (.probe i) env) = handle C S cfg s (.probe i) env :=
  onFace_fits (probe_within ha hr hw) (by have hmax : maxPacketSize = 8800 := rfl; omega)

/-- C95, partial: a CA with any name assignments and redirections answers every PROBE with a packet that fits if the names it offers, the names of the
certificates it redirects to (10 octets more for each) and the name of the Interest leave enough room. -/
theorem C95_probe_any_partial (C : Crypto) (S : StoreI σ) (cfg : CaConfig) (s : CaState σ) (i : Interest) (env : Env) (extra : Nat)
    (hfit : ∀ params names, (∀ b, i.params = some b → probeParamsDecode b = .ok params) → (i.params = none → params = []) →
      Assigns C cfg.assignments params env.rand64 names →
      nameOctets i.name + ((offers cfg names).map (fun n => nameOctets n + 30)).sum + ((redirects cfg params).map (fun n => nameOctets n + 10)).sum +
        130 + extra ≤ 8800) :
    onFace extra (handle C S cfg s (.probe i) env) = handle C S cfg s (.probe i) env := by
  have hmax : maxPacketSize = 8800 := rfl
  show onFace extra (onProbe C cfg i env) = onProbe C cfg i env
  have hnil : ∀ t, onFace extra ⟨[], t⟩ = ⟨[], t⟩ := fun t => rfl
  unfold onProbe
  split
  · exact hnil _
  · exact hnil _
  rename_i params hp
  dsimp only
  split
  · exact hnil _
  · exact hnil _
  rename_i names hc
  have hf := hfit params names (by intro b hb; simp only [hb] at hp; exact hp)
    (by intro hb; simp only [hb] at hp; injection hp with hp; exact hp.symm)
    (by simpa using collectNames_ok.mp hc)
  split
  · exact onFace_fits (replyError_within (by decide) (by simp)) (by omega)
  · refine onFace_fits (name := i.name) (n := ((offers cfg names).map (fun n => nameOctets n + 30)).sum +
      ((redirects cfg params).map (fun n => nameOctets n + 10)).sum + 10) ?_ (by omega)
    intro d hd
    simp only [List.mem_singleton, Effect.put.injEq] at hd
    subst hd
    exact ⟨rfl, probeEncode_octets _ _ _⟩

/-- the CA of the example with a name assignment by parameter, asked by a PROBE with an email address -/
example : ∀ params names, (∀ b, some (probeParamsEncode [(bytes! "email", bytes! "a@b")]) = some b → probeParamsDecode b = .ok params) →
    Assigns Fix.C [.param [bytes! "email"]] params Fix.env1.rand64 names →
    nameOctets (Fix.ca ++ [caComp, probeComp]) + ((offers Fix.cfg names).map (fun n => nameOctets n + 30)).sum +
      ((redirects Fix.cfg params).map (fun n => nameOctets n + 10)).sum + 130 + 500 ≤ 8800 ∧ names ≠ [] := by
  intro params names h1 h2
  replace h1 := h1 _ rfl
  have hp : probeParamsDecode (probeParamsEncode [(bytes! "email", bytes! "a@b")]) = .ok [(bytes! "email", bytes! "a@b")] := by decide +kernel
  rw [hp] at h1
  injection h1 with h1
  subst h1
  have hc : collectNames Fix.C [(bytes! "email", bytes! "a@b")] Fix.env1.rand64 0 [.param [bytes! "email"]] = .ok [[gcomp (bytes! "a@b")]] := by decide +kernel
  have h3 : collectNames Fix.C [(bytes! "email", bytes! "a@b")] Fix.env1.rand64 0 [.param [bytes! "email"]] = .ok names :=
    collectNames_ok.mpr (by simpa using h2)
  rw [hc] at h3
  injection h3 with h3
  subst h3
  decide +kernel

/-- a PROBE without parameters -/
example : nameOctets (Fix.ca ++ [caComp, probeComp]) + nameOctets Fix.ca + 100 + 500 ≤ 8800 ∧ Fix.env1.rand64 0 < 2 ^ 64 := by
  decide +kernel

end Ndncert.Props
