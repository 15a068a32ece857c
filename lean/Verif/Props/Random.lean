import Verif.Props.Probe
import Verif.Props.Config
import Verif.Spec.Random
import Verif.Lemmas.Uri

/-! # The random name assignment (C112), and lower case (C74) -/

namespace Ndncert.Props

theorem decDigits_head (n : Nat) : (decDigits n).head? = some 48 → decDigits n = [48] := by
  induction n using Nat.strongRecOn with
  | ind n ih =>
    by_cases h : n < 10
    · intro hh
      have : ∀ d : Fin 10, (decDigits d.val).head? = some 48 → decDigits d.val = [48] := by decide
      exact this ⟨n, h⟩ hh
    · have e : decDigits n = decDigits (n / 10) ++ [UInt8.ofNat (Nat.digitChar (n % 10)).toNat] := by
        unfold decDigits
        rw [Nat.toDigits_of_base_le (by decide) (by omega)]
        simp
      intro hh
      have hne := decDigits_ne_nil (n / 10)
      rw [e] at hh
      have hh' : (decDigits (n / 10)).head? = some 48 := by
        cases hx : decDigits (n / 10) with
        | nil => exact absurd hx hne
        | cons a l => rw [hx] at hh; exact hh
      have h1 := ih (n / 10) (by omega) hh'
      have h2 := decDigits_val (n / 10)
      rw [h1] at h2
      have : n / 10 = 0 := by rw [← h2]; rfl
      omega

theorem decDigits_decimal (n : Nat) : DecimalOf n (decDigits n) :=
  ⟨decDigits_ne_nil n, decDigits_digit n, decDigits_head n, decDigits_val n⟩

section
variable {C : Crypto} {cfg : CaConfig} {i : Interest} {env : Env}

theorem random_assigns (params : MMap) (rand : Nat → Nat) : Assigns C [.random] params rand [[gcomp (decDigits (rand 0))]] := by
  refine ⟨[[[gcomp (decDigits (rand 0))]]], rfl, rfl, ?_⟩
  intro j a l ha hl
  match j with
  | 0 => simp at ha hl; subst ha hl; rfl
  | j + 1 => simp at ha

/-- C112: a CA whose configuration lists no name assignment uses the random one, and so does one that lists "random" only. -/
theorem C112_default (T : TextIO) (t : PTree) (L : LoadedConfig) (h : loadTree T t = .ok L) (hcfg : L.toCaConfig = some cfg)
    (ht : t.items (bytes! "name-assignment") = [] ∨ ∃ item, t.items (bytes! "name-assignment") = [item] ∧ item.1 = bytes! "random") :
    cfg.assignments = [.random] := by
  obtain ⟨_, _, _, _, _, _, _, _, _, _, _, _, hlen, hitems, _, hmod⟩ := C74_content_partial T t L h
  have hc : cfg.assignments = moduleAssignments L := by
    unfold LoadedConfig.toCaConfig at hcfg
    cases hm : L.redirection.mapM (fun (e : Option Cert × Redirection) => e.1.map (fun c => (c, e.2))) with
    | none => rw [hm] at hcfg; cases hcfg
    | some r => rw [hm] at hcfg; cases hcfg; rfl
  rw [hc]
  rcases ht with h0 | ⟨item, h1, h2⟩
  · rw [h0] at hlen
    have : L.assignments = [] := List.eq_nil_of_length_eq_zero hlen
    unfold moduleAssignments
    rw [if_pos this]
  · rw [h1] at hlen
    obtain ⟨a, ha⟩ := List.length_eq_one_iff.mp hlen
    rw [hmod (by rw [ha]; simp), ha]
    have hi := hitems 0 item a (by rw [h1]; rfl) (by rw [ha]; rfl)
    rw [h2] at hi
    rcases hi with ⟨_, e⟩ | ⟨e, _⟩ | ⟨e, _⟩ | ⟨e, _⟩
    · rw [e]
    · exact absurd e (by decide)
    · exact absurd e (by decide)
    · exact absurd e (by decide)

/-- C112: whatever the (decodable) parameters, the reply offers exactly one name: the CA prefix and one component, the decimal numeral
of the number drawn, of at most twenty digits. -/
theorem C112_offered (hr : cfg.assignments = [.random]) (hrand : env.rand64 0 < 2 ^ 64)
    {b : Block} (hb : i.params = some b) {params : MMap} (hd : probeParamsDecode b = .ok params)
    (hp : cfg.profile.caPrefix ≠ []) (hw : Name.Wf cfg.profile.caPrefix) (hwr : ∀ n ∈ redirects cfg params, Name.Wf n)
    (hms : ∀ k, cfg.profile.maxSuffixLength = some k → k < 2 ^ 31)
    (hl : ∀ v : Bytes, v.length ≤ 20 → (probeEncode [cfg.profile.caPrefix ++ [gcomp v]] cfg.profile.maxSuffixLength (redirects cfg params)).val.length < 2 ^ 64) :
    ∃ d v, onProbe C cfg i env = ⟨[.put d], .done⟩ ∧ d.name = i.name ∧ d.sig = C.signData cfg.profile.caPrefix i.name d.content ∧
      processIfError d = .ok () ∧ DecimalOf (env.rand64 0) v ∧ v.length ≤ 20 ∧
      probeDecode d.content [] [] = .ok ([(cfg.profile.caPrefix ++ [gcomp v], ((cfg.profile.maxSuffixLength.getD 0 : Nat) : Int))], redirects cfg params) := by
  have hv : (decDigits (env.rand64 0)).length ≤ 20 := (decDigits_length (by decide)).mpr (Nat.lt_trans hrand (by decide))
  have hw' : ∀ n ∈ offers cfg [[gcomp (decDigits (env.rand64 0))]], Name.Wf n := by
    intro n hn c hc
    simp only [offers, List.map_cons, List.map_nil, List.mem_singleton] at hn
    subst hn
    rcases List.mem_append.mp hc with hc | hc
    · exact hw c hc
    · rw [List.mem_singleton.mp hc]; exact ⟨(by decide : (0:Nat) < 8), (by decide : (8:Nat) ≤ 65535)⟩
  obtain ⟨d, h1, h2, h3, h4, h5⟩ := C60_probe_reply (C := C) (cfg := cfg) (env := env) hb hd (names := [[gcomp (decDigits (env.rand64 0))]])
    (by rw [hr]; exact random_assigns params env.rand64) (by simp) hp hw' hwr hms (hl _ hv)
  exact ⟨d, _, h1, h2, h3, h4, decDigits_decimal _, hv, h5⟩

/-- C112: the same name is offered to two PROBEs (of the same or of other parameters) exactly if the same number was drawn for both. -/
theorem C112_distinct (hr : cfg.assignments = [.random]) {env' : Env}
    {p p' : MMap} {names names' : List Name} (ha : Assigns C cfg.assignments p env.rand64 names) (ha' : Assigns C cfg.assignments p' env'.rand64 names') :
    offers cfg names = offers cfg names' ↔ env.rand64 0 = env'.rand64 0 := by
  have key : ∀ (p : MMap) (rand : Nat → Nat) (names : List Name), Assigns C cfg.assignments p rand names → names = [[gcomp (decDigits (rand 0))]] := by
    intro p rand names h
    have h1 := collectNames_ok (C := C) (n := 0).mpr (show Assigns C cfg.assignments p (fun j => rand (0 + j)) names by simpa using h)
    have h2 := collectNames_ok (C := C) (n := 0).mpr (show Assigns C cfg.assignments p (fun j => rand (0 + j)) [[gcomp (decDigits (rand 0))]] by
      rw [hr]; simpa using random_assigns (C := C) p rand)
    rw [h1] at h2
    exact Res.ok.inj h2
  rw [key _ _ _ ha, key _ _ _ ha']
  constructor
  · intro h
    simp only [offers, List.map_cons, List.map_nil, List.cons.injEq, and_true, List.append_cancel_left_eq] at h
    have h2 : decDigits (env.rand64 0) = decDigits (env'.rand64 0) := congrArg Block.val h
    rw [← decDigits_val (env.rand64 0), h2, decDigits_val]
  · intro h
    rw [h]

/-- C112: the name offered passes the CA's own policy for NEW, unless no suffix at all is allowed. -/
theorem C112_acceptable (hr : cfg.assignments = [.random]) (hms : cfg.profile.maxSuffixLength ≠ some 0)
    {params : MMap} {names : List Name} (ha : Assigns C cfg.assignments params env.rand64 names) :
    ∀ n ∈ offers cfg names, IdentityPolicy cfg.profile n := by
  have h1 := collectNames_ok (C := C) (n := 0).mpr (show Assigns C cfg.assignments params (fun j => env.rand64 (0 + j)) names by simpa using ha)
  have h2 := collectNames_ok (C := C) (n := 0).mpr (show Assigns C cfg.assignments params (fun j => env.rand64 (0 + j)) [[gcomp (decDigits (env.rand64 0))]] by
    rw [hr]; simpa using random_assigns (C := C) params env.rand64)
  rw [h1] at h2
  rw [Res.ok.inj h2]
  intro n hn
  simp only [offers, List.map_cons, List.map_nil, List.mem_singleton] at hn
  subst hn
  refine ⟨List.prefix_append _ _, by rw [List.length_append]; simp, ?_⟩
  intro k hk
  rw [List.length_append]
  have : k ≠ 0 := fun e => hms (by rw [hk, e])
  simp only [List.length_cons, List.length_nil]
  omega

end

/-- C74: "in lower case" means that each capital letter is replaced by the small one, and everything else kept. -/
theorem C74_lower_case (s t : Bytes) : toLower s = t ↔ InSmallLetters s t := by
  have one : ∀ b c : UInt8, lowerByte b = c ↔ ((∃ k : Nat, capitals[k]? = some b ∧ smallLetters[k]? = some c) ∨ (b ∉ capitals ∧ c = b)) := by
    intro b c
    have fwd : ∀ b : UInt8, (∃ k : Fin 26, capitals[k.val]? = some b ∧ smallLetters[k.val]? = some (lowerByte b)) ∨ (b ∉ capitals ∧ lowerByte b = b) :=
      byte_cases (P := fun b => (∃ k : Fin 26, capitals[k.val]? = some b ∧ smallLetters[k.val]? = some (lowerByte b)) ∨ (b ∉ capitals ∧ lowerByte b = b)) (by decide +kernel)
    have bwd : ∀ k : Fin 26, ∀ b c, capitals[k.val]? = some b → smallLetters[k.val]? = some c → lowerByte b = c := by
      have h : ∀ k : Fin 26, (capitals[k.val]?).map lowerByte = smallLetters[k.val]? := by decide +kernel
      intro k b c h1 h2
      have := h k
      rw [h1, h2] at this
      exact Option.some.inj this
    constructor
    · rintro rfl
      rcases fwd b with ⟨k, h1, h2⟩ | h
      · exact .inl ⟨k.val, h1, h2⟩
      · exact .inr h
    · rintro (⟨k, h1, h2⟩ | ⟨h1, rfl⟩)
      · have hk : k < 26 := by
          have := (List.getElem?_eq_some_iff.mp h1).1
          exact this
        exact bwd ⟨k, hk⟩ b c h1 h2
      · rcases fwd c with ⟨k, h2, _⟩ | h
        · exact absurd (List.mem_of_getElem? h2) h1
        · exact h.2
  constructor
  · rintro rfl
    induction s with
    | nil => exact .nil
    | cons b s ih => exact .cons ((one b _).mp rfl) ih
  · intro h
    induction h with
    | nil => rfl
    | cons h _ ih =>
      show lowerByte _ :: toLower _ = _
      rw [(one _ _).mpr h, ih]

/-- the hypotheses of `C112_offered` are met: the CA of the example with only the random assignment draws 42 -/
example : ∃ d, onProbe Fix.C { Fix.cfg with assignments := [.random] }
      { name := Fix.profile.caPrefix ++ [gcomp (bytes! "CA"), gcomp (bytes! "PROBE")], params := some (probeParamsEncode [(bytes! "email", bytes! "a@b")]), sig := [] }
      { Fix.env 1000 with rand64 := fun _ => 42 } = ⟨[.put d], .done⟩ ∧
    probeDecode d.content [] [] = .ok ([(Fix.profile.caPrefix ++ [gcomp (bytes! "42")], ((Fix.profile.maxSuffixLength.getD 0 : Nat) : Int))], []) := by
  refine ⟨_, rfl, ?_⟩
  decide +kernel

example : InSmallLetters (bytes! "E-Mail Z[") (bytes! "e-mail z[") := (C74_lower_case _ _).mp (by decide +kernel)

end Ndncert.Props
