import Verif.Props.Config
import Verif.Props.CaNew

/-! # The limits in the configuration file: C103 -/

namespace Ndncert.Props

open Ndncert

variable {σ : Type}

/-- the CA with configuration `L` keeps to what document `t` says about the length of suffixes and about validity periods: a limit that
is given is a number, and that number is the limit -/
def LimitsKept (t : PTree) (L : LoadedConfig) : Prop :=
  (∀ c, t.child (bytes! "max-suffix-length") = some c → ∃ n, Numeral c.data false n ∧ L.profile.maxSuffixLength = some n) ∧
  (∀ c, t.child (bytes! "max-validity-period") = some c → ∃ n, Numeral c.data false n ∧ L.profile.maxValidityPeriod = (n : Int))

/-- a document with these texts for the limits -/
def limitDoc (suffix validity : Bytes) : PTree :=
  .node [] [
    (bytes! "ca-prefix", .leaf (bytes! "/ndn")),
    (bytes! "max-suffix-length", .leaf suffix),
    (bytes! "max-validity-period", .leaf validity),
    (bytes! "supported-challenges", .node [] [([], .node [] [(bytes! "challenge", .leaf (bytes! "pin"))])])]

/-- the document is accepted whatever the texts of the limits are -/
theorem limitDoc_accepted (T : TextIO) {n : Name} (hn : n ≠ []) (h1 : T.nameOfUri (bytes! "/ndn") = some n) (h2 : T.nameOfUri [] = some [])
    (suffix validity : Bytes) : loadTree T (limitDoc suffix validity) = .ok
      ⟨⟨n, n ++ [gcomp (bytes! "CA")], [], [], (readInt validity).getD 86400, readSize suffix, [bytes! "pin"], none⟩, [], []⟩ := by
  rw [loadTree_ok]
  refine ⟨?_, by simp, rfl, rfl⟩
  rw [profileFromJson_ok]
  refine ⟨h1, hn, ⟨[], h2, by simp⟩, rfl, rfl, rfl, ?_, rfl, rfl⟩
  show (readInt validity).getD 86400 = (match readInt validity with | some v => v | none => 86400)
  cases readInt validity <;> rfl

/-- C103 is false: a document whose maximum suffix length is "two" is accepted, and suffixes of any length are allowed; one whose
maximum validity period is "600s" is accepted, and certificates may be valid for a day; one with "-1" components is accepted and allows
more than there can be. -/
theorem C103_false (T : TextIO) (n : Name) (hn : n ≠ []) (h1 : T.nameOfUri (bytes! "/ndn") = some n) (h2 : T.nameOfUri [] = some []) :
    (∃ L, loadTree T (limitDoc (bytes! "two") (bytes! "600s")) = .ok L ∧ ¬ LimitsKept (limitDoc (bytes! "two") (bytes! "600s")) L ∧
      L.profile.maxSuffixLength = none ∧ L.profile.maxValidityPeriod = 86400) ∧
    (∃ L, loadTree T (limitDoc (bytes! "-1") (bytes! "3000000000")) = .ok L ∧ ¬ LimitsKept (limitDoc (bytes! "-1") (bytes! "3000000000")) L ∧
      L.profile.maxSuffixLength = some (2 ^ 64 - 1) ∧ L.profile.maxValidityPeriod = 86400) := by
  have hno : ∀ s, (readNumber s).all (fun x => x.1) = true → ∀ k, ¬ Numeral s false k := by
    intro s hs k hk
    rw [(readNumber_iff _ _ _).mpr hk] at hs
    cases hs
  refine ⟨⟨_, limitDoc_accepted T hn h1 h2 _ _, ?_, show readSize (bytes! "two") = none by decide +kernel,
      show (readInt (bytes! "600s")).getD 86400 = 86400 by decide +kernel⟩,
    ⟨_, limitDoc_accepted T hn h1 h2 _ _, ?_, show readSize (bytes! "-1") = some (2 ^ 64 - 1) by decide +kernel,
      show (readInt (bytes! "3000000000")).getD 86400 = 86400 by decide +kernel⟩⟩
  · rintro ⟨h, _⟩
    obtain ⟨k, hk, _⟩ := h (.leaf (bytes! "two")) rfl
    exact hno _ (by decide +kernel) k hk
  · rintro ⟨h, _⟩
    obtain ⟨k, hk, _⟩ := h (.leaf (bytes! "-1")) rfl
    exact hno _ (by decide +kernel) k hk

/-- C103 as far as it is true: if the limits in the document are numbers without a minus sign that fit into 64 and 31 bits, they are
kept; if one is missing, there is no limit for suffixes and one day for validity periods. Missing: other texts, see `C103_false`. -/
theorem C103_limits_partial (T : TextIO) (t : PTree) (L : LoadedConfig) (h : loadTree T t = .ok L) :
    ((∀ c, t.child (bytes! "max-suffix-length") = some c → ∃ n, Numeral c.data false n ∧ n < 2 ^ 64) →
      (∀ c, t.child (bytes! "max-validity-period") = some c → ∃ n, Numeral c.data false n ∧ n < 2 ^ 31) → LimitsKept t L) ∧
    (t.child (bytes! "max-suffix-length") = none → L.profile.maxSuffixLength = none) ∧
    (t.child (bytes! "max-validity-period") = none → L.profile.maxValidityPeriod = 86400) := by
  obtain ⟨h1, h2, h3⟩ := C74_lenient_partial T t L h
  refine ⟨fun hs hv => ⟨?_, ?_⟩, ?_, ?_⟩
  · intro c hc
    obtain ⟨n, hn, hlt⟩ := hs c hc
    exact ⟨n, hn, (h1 n).mpr ⟨c, false, n, hc, hn, hlt, by simp⟩⟩
  · intro c hc
    obtain ⟨n, hn, hlt⟩ := hv c hc
    refine ⟨n, hn, ?_⟩
    have := h2 c false n hc hn (by simp only [Bool.false_eq_true, if_false]; omega) (by simp only [Bool.false_eq_true, if_false]; omega)
    simpa using this
  · intro hc
    cases hm : L.profile.maxSuffixLength with
    | none => rfl
    | some n =>
      obtain ⟨c, _, _, hc2, _⟩ := (h1 n).mp hm
      rw [hc] at hc2
      cases hc2
  · intro hc
    refine h3 ?_
    rintro ⟨c, _, _, hc2, _⟩
    rw [hc] at hc2
    cases hc2

/-- C103, what the limits mean for requests: a CA whose configuration was read from a document with limit `k` for suffixes and `v`
seconds for validity periods takes up a request only for an identity at most `k` components longer than its prefix, and for NEW only with
an end of validity at most `v` seconds from now. -/
theorem C103_requests_partial (C : Crypto) (S : StoreI σ) (T : TextIO) (t : PTree) (L : LoadedConfig) (cfg : CaConfig)
    (h : loadTree T t = .ok L) (hcfg : L.toCaConfig = some cfg) (idKey : Bytes) (st : σ) (i : Interest) (env : Env)
    (ty : RequestType) (hty : ty = .new ∨ ty = .revoke) (r : RequestState)
    (ha : Effect.dbAdd r ∈ (onNewRenewRevoke C S cfg idKey st ty i env).effects) :
    (∀ c k, t.child (bytes! "max-suffix-length") = some c → Numeral c.data false k → k < 2 ^ 64 →
      (identityOf r.cert.name).length ≤ cfg.profile.caPrefix.length + k) ∧
    (∀ c v, t.child (bytes! "max-validity-period") = some c → Numeral c.data false v → ty = .new →
      ∃ nb na, r.cert.validity = some (nb, na) ∧ na ≤ env.now + (v : Int) * 1000000000) ∧
    (t.child (bytes! "max-validity-period") = none → ty = .new →
      ∃ nb na, r.cert.validity = some (nb, na) ∧ na ≤ env.now + 86400 * 1000000000) := by
  have hp : cfg.profile = L.profile := by
    unfold LoadedConfig.toCaConfig at hcfg
    rw [Option.map_eq_some_iff] at hcfg
    obtain ⟨_, _, rfl⟩ := hcfg
    rfl
  obtain ⟨h1, _⟩ := C74_lenient_partial T t L h
  refine ⟨?_, ?_, ?_⟩
  · intro c k hc hk hlt
    refine (C18_name_policy C S cfg idKey st i env hty ha).2.2.2.2 k ?_
    rw [hp]
    exact (h1 k).mpr ⟨c, false, k, hc, hk, hlt, by simp⟩
  · rintro c v hc hv rfl
    obtain ⟨nb, na, e1, _, e2, _⟩ := C19_validity_policy C S cfg idKey st i env ha
    have hv := validity_limit_le T t L h hc hv
    rw [hp] at e2
    exact ⟨nb, na, e1, validity_mono e2 hv⟩
  · rintro hc rfl
    obtain ⟨nb, na, e1, _, e2, _⟩ := C19_validity_policy C S cfg idKey st i env ha
    rw [hp, (C103_limits_partial T t L h).2.2 hc] at e2
    exact ⟨nb, na, e1, e2⟩

/-- a document with usable limits, read into the configuration of a running CA -/
example : ∃ n, (ToyText.text Fix.caCert).nameOfUri (bytes! "/ndn") = some n ∧ n ≠ [] ∧ (ToyText.text Fix.caCert).nameOfUri [] = some [] ∧
    ∃ L cfg, loadTree (ToyText.text Fix.caCert) (limitDoc (bytes! "2") (bytes! "3600")) = .ok L ∧ L.toCaConfig = some cfg ∧
      cfg.profile.maxSuffixLength = some 2 ∧ cfg.profile.maxValidityPeriod = 3600 ∧
      Numeral (bytes! "2") false 2 ∧ Numeral (bytes! "3600") false 3600 := by
  have h1 : (ToyText.text Fix.caCert).nameOfUri (bytes! "/ndn") = some [gcomp (bytes! "ndn")] := by unfold ToyText.text; decide +kernel
  have h2 : (ToyText.text Fix.caCert).nameOfUri [] = some [] := by unfold ToyText.text; decide +kernel
  exact ⟨_, h1, by simp, h2, _, _, limitDoc_accepted _ (by simp) h1 h2 _ _, rfl, by decide +kernel, by decide +kernel,
    (readNumber_iff _ _ _).mp (by decide +kernel), (readNumber_iff _ _ _).mp (by decide +kernel)⟩

end Ndncert.Props
