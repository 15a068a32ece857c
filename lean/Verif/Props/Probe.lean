import Verif.Props.Assign
import Verif.Props.Encoding
import Verif.Lemmas.Exec
import Verif.Spec.Ca

/-! # PROBE at the CA (C60, C61) -/

namespace Ndncert.Props

/-- `names` are the results of the assignment functions, in the order of the configuration; the j-th function may use
the j-th random word -/
def Assigns (C : Crypto) (assignments : List Assignment) (params : MMap) (rand : Nat → Nat) (names : List Name) : Prop :=
  ∃ ls : List (List Name), ls.length = assignments.length ∧ names = ls.flatten ∧
    ∀ (j : Nat) (a : Assignment) (l : List Name), assignments[j]? = some a → ls[j]? = some l → a.assignName C params (rand j) = .ok l

/-- the full names of the certificates whose policy matches, in the order of the configuration -/
def redirects (cfg : CaConfig) (params : MMap) : List Name :=
  (cfg.redirection.filter (fun r => r.2.isRedirecting params)).map (fun r => fullNameOf r.1)

/-- the names that are offered: each assigned name below the CA prefix -/
def offers (cfg : CaConfig) (names : List Name) : List Name := names.map (cfg.profile.caPrefix ++ ·)

section
variable {C : Crypto} {cfg : CaConfig} {i : Interest} {env : Env}

theorem collectNames_ok : ∀ {as : List Assignment} {params : MMap} {rand : Nat → Nat} {n : Nat} {names : List Name},
    collectNames C params rand n as = .ok names ↔ Assigns C as params (fun j => rand (n + j)) names
  | [], params, rand, n, names => by
    simp only [collectNames, Res.ok.injEq]
    constructor
    · rintro rfl; exact ⟨[], rfl, rfl, by simp⟩
    · rintro ⟨ls, h1, h2, _⟩
      have : ls = [] := List.eq_nil_of_length_eq_zero (by simpa using h1)
      subst this
      exact h2.symm
  | a :: as, params, rand, n, names => by
    unfold collectNames
    rw [Res.bind_eq_ok]
    constructor
    · rintro ⟨l, h1, h2⟩
      rw [Res.bind_eq_ok] at h2
      obtain ⟨rest, h3, h4⟩ := h2
      cases h4
      obtain ⟨ls, h5, h6, h7⟩ := collectNames_ok.mp h3
      refine ⟨l :: ls, by simp [h5], by simp [h6], ?_⟩
      intro j a' l' ha hl
      cases j with
      | zero => simp only [List.getElem?_cons_zero, Option.some.injEq] at ha hl; subst ha hl; exact h1
      | succ j =>
        simp only [List.getElem?_cons_succ] at ha hl
        have h8 : a'.assignName C params (rand (n + 1 + j)) = .ok l' := h7 j a' l' ha hl
        show a'.assignName C params (rand (n + (j + 1))) = .ok l'
        rwa [show n + (j + 1) = n + 1 + j by omega]
    · rintro ⟨ls, h5, h6, h7⟩
      cases ls with
      | nil => simp at h5
      | cons l ls =>
        refine ⟨l, h7 0 a l rfl rfl, ?_⟩
        rw [Res.bind_eq_ok]
        refine ⟨ls.flatten, collectNames_ok.mpr ⟨ls, by simpa using h5, rfl, ?_⟩, by rw [h6]; rfl⟩
        intro j a' l' ha hl
        have h8 : a'.assignName C params (rand (n + (j + 1))) = .ok l' := h7 (j + 1) a' l' ha hl
        rwa [show n + (j + 1) = n + 1 + j by omega] at h8

theorem probeParams_no_ub {b : Block} (u : Ub) : probeParamsDecode b ≠ .ub u := by
  have hloop : ∀ (n : Nat) (es : List Block), es.length ≤ n → ∀ acc, probeParamsLoop acc es ≠ .ub u := by
    intro n
    induction n with
    | zero =>
      intro es hl acc h
      have : es = [] := List.eq_nil_of_length_eq_zero (by omega)
      subst this
      simp only [probeParamsLoop, reduceCtorEq] at h
    | succ n ih =>
      intro es hl acc h
      unfold probeParamsLoop at h
      split at h
      · cases h
      · split at h <;> cases h
      · simp only [List.length_cons] at hl
        split at h
        · exact ih _ (by omega) _ h
        · split at h
          · cases h
          · exact ih _ (by simp only [List.length_cons]; omega) _ h
  intro h
  unfold probeParamsDecode at h
  cases he : b.elements with
  | ok es => rw [he] at h; exact hloop _ es (Nat.le_refl _) _ h
  | exc e => rw [he] at h; cases h
  | ub u => exact elements_no_ub _ _ he

theorem appendItems_no_ub {f : Bytes → Res (Option Name)} {u : Ub} (hf : ∀ item, f item ≠ .ub u) : ∀ {items : List Bytes} {acc : Name}, appendItems f acc items ≠ .ub u
  | [], acc => by simp [appendItems]
  | x :: items, acc => by
    intro h
    unfold appendItems at h
    cases hx : f x with
    | ok o =>
      rw [hx] at h
      cases o with
      | none => cases h
      | some n => exact appendItems_no_ub hf h
    | exc e => rw [hx] at h; cases h
    | ub u' => rw [hx] at h; cases h; exact hf x hx

theorem collectNames_no_ub {params : MMap} {rand : Nat → Nat} {u : Ub} : ∀ {as : List Assignment} {n : Nat}, collectNames C params rand n as ≠ .ub u
  | [], n => by simp [collectNames]
  | a :: as, n => by
    intro h
    have ha : a.assignName C params (rand n) ≠ .ub u := by
      intro h
      have hopt : ∀ o : Option Name, ((do let n ← Res.ofOption Exc.name o; Res.ok (some n)) : Res (Option Name)) ≠ .ub u := by
        intro o; cases o <;> (intro h; cases h)
      cases a with
      | random => cases h
      | email f => cases h
      | param f =>
        unfold Assignment.assignName assignParam at h
        dsimp only at h
        cases hx : appendItems (paramItem C params) [] f with
        | ok o => rw [hx] at h; cases h
        | exc e => rw [hx] at h; cases h
        | ub u' =>
          rw [hx] at h
          cases h
          refine appendItems_no_ub (fun item hi => ?_) hx
          unfold paramItem at hi
          split at hi
          · exact hopt _ hi
          · split at hi
            · split at hi
              · exact hopt _ hi
              · cases hi
            · cases hi
      | hash f =>
        unfold Assignment.assignName assignHash at h
        dsimp only at h
        cases hx : appendItems (hashItem C params) [] f with
        | ok o => rw [hx] at h; cases h
        | exc e => rw [hx] at h; cases h
        | ub u' =>
          rw [hx] at h
          cases h
          refine appendItems_no_ub (fun item hi => ?_) hx
          unfold hashItem at hi
          split at hi
          · exact hopt _ hi
          · cases hi
    unfold collectNames at h
    cases hx : a.assignName C params (rand n) with
    | ok l =>
      rw [hx] at h
      simp only [Res.bind_ok] at h
      cases hy : collectNames C params rand (n + 1) as with
      | ok l' => rw [hy] at h; cases h
      | exc e => rw [hy] at h; cases h
      | ub u' => rw [hy] at h; cases h; exact collectNames_no_ub hy
    | exc e => rw [hx] at h; cases h
    | ub u' => rw [hx] at h; cases h; exact ha hx

/-- C60, an assignment function that throws: nothing is sent. -/
theorem C60_throwing {b : Block} (hb : i.params = some b) {params : MMap} (hd : probeParamsDecode b = .ok params)
    (ha : ∀ names, ¬ Assigns C cfg.assignments params env.rand64 names) : onProbe C cfg i env = ⟨[], .done⟩ := by
  unfold onProbe
  rw [hb]
  dsimp only
  rw [hd]
  dsimp only
  cases h : collectNames C params env.rand64 0 cfg.assignments with
  | ok m => exact absurd (by simpa using collectNames_ok.mp h) (ha m)
  | ub u => exact absurd h collectNames_no_ub
  | exc e => rfl

/-- C60, undecodable parameters: nothing is sent. -/
theorem C60_undecodable {b : Block} (hb : i.params = some b) (hd : ∀ m, probeParamsDecode b ≠ .ok m) :
    onProbe C cfg i env = ⟨[], .done⟩ := by
  unfold onProbe
  rw [hb]
  dsimp only
  cases h : probeParamsDecode b with
  | ok m => exact absurd h (hd m)
  | ub u => exact absurd h (probeParams_no_ub u)
  | exc e => rfl

/-- C60, no results: an error reply. -/
theorem C60_no_results {b : Block} (hb : i.params = some b) {params : MMap} (hd : probeParamsDecode b = .ok params)
    (ha : Assigns C cfg.assignments params env.rand64 []) (hr : redirects cfg params = []) :
    ∃ d, IsErrorReply C cfg i ErrorCode.INVALID_PARAMETER d ∧ onProbe C cfg i env = ⟨[.put d], .done⟩ := by
  have hc : collectNames C params env.rand64 0 cfg.assignments = .ok [] := collectNames_ok.mpr (by simpa using ha)
  unfold onProbe
  rw [hb]
  dsimp only
  rw [hd]
  dsimp only
  rw [hc]
  dsimp only
  rw [if_pos ⟨rfl, hr⟩]
  exact ⟨_, ⟨by decide, _, rfl⟩, rfl⟩

/-- C60, the reply: a requester that decodes it reads exactly the offered names, in order, each with the CA's limit, and exactly the
redirections, in order. It is not an error reply. -/
theorem C60_probe_reply {b : Block} (hb : i.params = some b) {params : MMap} (hd : probeParamsDecode b = .ok params) {names : List Name}
    (ha : Assigns C cfg.assignments params env.rand64 names) (hne : ¬ (names = [] ∧ redirects cfg params = []))
    (hp : cfg.profile.caPrefix ≠ []) (hw : ∀ n ∈ offers cfg names, Name.Wf n) (hwr : ∀ n ∈ redirects cfg params, Name.Wf n)
    (hms : ∀ k, cfg.profile.maxSuffixLength = some k → k < 2 ^ 31)
    (hl : (probeEncode (offers cfg names) cfg.profile.maxSuffixLength (redirects cfg params)).val.length < 2 ^ 64) :
    ∃ d, onProbe C cfg i env = ⟨[.put d], .done⟩ ∧ d.name = i.name ∧ d.sig = C.signData cfg.profile.caPrefix i.name d.content ∧ processIfError d = .ok () ∧
      probeDecode d.content [] [] = .ok ((offers cfg names).map (fun n => (n, ((cfg.profile.maxSuffixLength.getD 0 : Nat) : Int))), redirects cfg params) := by
  have hc : collectNames C params env.rand64 0 cfg.assignments = .ok names := collectNames_ok.mpr (by simpa using ha)
  refine ⟨mkData C cfg.profile.caPrefix i.name (probeEncode (offers cfg names) cfg.profile.maxSuffixLength (redirects cfg params)), ?_, rfl, rfl, ?_, ?_⟩
  · unfold onProbe
    rw [hb]
    dsimp only
    rw [hd]
    dsimp only
    rw [hc]
    dsimp only
    exact if_neg hne
  · exact C02_probe_not_error _ _ _ hl _ _
  · have := C08_probe_reply_roundtrip (offers cfg names) cfg.profile.maxSuffixLength (redirects cfg params) [] []
      (by intro n hn; unfold offers at hn; rw [List.mem_map] at hn; obtain ⟨m, _, rfl⟩ := hn; simp [hp]) hw hwr hms hl
    simp only [List.nil_append] at this
    exact this

/-- C60: PROBE never changes the storage, and issues, mails and reports nothing. -/
theorem C60_no_effects : ∀ e ∈ (onProbe C cfg i env).effects, ∃ d, e = .put d := by
  unfold onProbe
  split
  · simp
  · simp
  · dsimp only
    split
    · simp
    · simp
    · split
      · intro e he; simp [replyError] at he; exact ⟨_, he⟩
      · intro e he; simp at he; exact ⟨_, he⟩

/-- C60: whatever the parameters, their decoding is never undefined, and what the policies see is sorted as in any multimap. -/
theorem C60_params_sorted {b : Block} {params : MMap} (hd : probeParamsDecode b = .ok params) : params.InOrder :=
  (inOrder_iff _).mpr (probeParamsDecode_sorted hd)

/-! ## C61 -/

/-- the CA's name policy for an identity: strictly below the CA prefix, by at most max-suffix-length components -/
def IdentityPolicy (p : CaProfile) (id : Name) : Prop :=
  p.caPrefix <+: id ∧ p.caPrefix.length < id.length ∧ ∀ k, p.maxSuffixLength = some k → id.length ≤ p.caPrefix.length + k

/-- it is the policy that NEW applies to certificate names (C21) -/
theorem identityPolicy_iff (p : CaProfile) (c : Cert) : IsCertName c.name ∧ IdentityPolicy p (identityOf c.name) ↔ NamePolicy p c := Iff.rfl

end

/-- C61 in full -/
def OffersAcceptable (C : Crypto) (cfg : CaConfig) : Prop :=
  ∀ i env d names reds, onProbe C cfg i env = ⟨[.put d], .done⟩ → processIfError d = .ok () → probeDecode d.content [] [] = .ok (names, reds) →
    ∀ n ∈ names, IdentityPolicy cfg.profile n.1

/-- a CA that assigns two components but allows only one -/
def exNarrow : CaConfig :=
  { Fix.cfg with profile := { Fix.profile with maxSuffixLength := some 1 }, assignments := [.param (nameFormat (bytes! "/a/b"))] }
/-- a CA with an empty format -/
def exEmptyFormat : CaConfig := { Fix.cfg with assignments := [.param (nameFormat [])] }

def exProbe : Interest := plainInterest Fix.C (Fix.ca ++ [gcomp (bytes! "CA"), gcomp (bytes! "PROBE")])
  (probeParamsEncode [(bytes! "a", bytes! "x"), (bytes! "b", bytes! "y")])

/-- C61 is false of the code: the limit is not applied to assigned names, so the CA can offer a name that it refuses. -/
theorem C61_false : ¬ OffersAcceptable Fix.C exNarrow := by
  intro H
  have h : (match onProbe Fix.C exNarrow exProbe (Fix.env 1000) with
    | ⟨[.put d], .done⟩ => decide (processIfError d = .ok ()) && (match probeDecode d.content [] [] with
      | .ok ([n], _) => decide (exNarrow.profile.caPrefix.length + 1 < n.1.length) && decide (exNarrow.profile.maxSuffixLength = some 1)
      | _ => false)
    | _ => false) = true := by decide +kernel
  split at h
  · rename_i d heq
    rw [Bool.and_eq_true] at h
    obtain ⟨h1, h2⟩ := h
    split at h2
    · rename_i n reds hd
      have := (H exProbe (Fix.env 1000) d [n] reds heq (of_decide_eq_true h1) hd n (by simp)).2.2
      rw [Bool.and_eq_true] at h2
      have h3 := this 1 (of_decide_eq_true h2.2)
      have h4 := of_decide_eq_true h2.1
      omega
    · cases h2
  · cases h

/-- C61 is false in a second way: with an empty format the CA prefix itself is offered. -/
theorem C61_false_empty : ¬ OffersAcceptable Fix.C exEmptyFormat := by
  intro H
  have h : (match onProbe Fix.C exEmptyFormat exProbe (Fix.env 1000) with
    | ⟨[.put d], .done⟩ => decide (processIfError d = .ok ()) && (match probeDecode d.content [] [] with
      | .ok ([n], _) => decide (exEmptyFormat.profile.caPrefix.length = n.1.length)
      | _ => false)
    | _ => false) = true := by decide +kernel
  split at h
  · rename_i d heq
    rw [Bool.and_eq_true] at h
    obtain ⟨h1, h2⟩ := h
    split at h2
    · rename_i n reds hd
      have := (H exProbe (Fix.env 1000) d [n] reds heq (of_decide_eq_true h1) hd n (by simp)).2.1
      have h4 := of_decide_eq_true h2
      omega
    · cases h2
  · cases h

/-- assignment functions whose names are certain to fit the limit: random names and formats that are not empty and not
longer than the limit; email only without a limit -/
def Fitting (limit : Option Nat) : Assignment → Prop
  | .random => ∀ k, limit = some k → 1 ≤ k
  | .param f => f ≠ [] ∧ ∀ k, limit = some k → f.length ≤ k
  | .hash f => f ≠ [] ∧ ∀ k, limit = some k → f.length ≤ k
  | .email _ => limit = none

section
variable {C : Crypto} {cfg : CaConfig}

theorem items_length {f : Bytes → Res (Option Name)} (hf : ∀ item n, f item = .ok (some n) → n.length = 1) {items : List Bytes} {n : Name}
    (h : appendItems f [] items = .ok (some n)) : n.length = items.length := by
  obtain ⟨ns, h1, rfl⟩ := appendItems_some.mp h
  clear h
  rw [List.nil_append]
  induction h1 with
  | nil => rfl
  | cons h _ ih =>
    rw [List.flatten_cons, List.length_append, ih, hf _ _ h, List.length_cons]; omega

theorem fitting_length (hC : ∀ s, C.stringName s = some [gcomp s]) {a : Assignment} {limit : Option Nat} (h : Fitting limit a) {params : MMap} {rand : Nat}
    {l : List Name} (hl : a.assignName C params rand = .ok l) {n : Name} (hn : n ∈ l) : 0 < n.length ∧ ∀ k, limit = some k → n.length ≤ k := by
  cases a with
  | random =>
    cases hl
    simp only [List.mem_singleton] at hn
    subst hn
    exact ⟨by simp, fun k hk => h k hk⟩
  | param f =>
    unfold Assignment.assignName assignParam at hl
    dsimp only at hl
    rw [Res.bind_eq_ok] at hl
    obtain ⟨o, h1, h2⟩ := hl
    cases h2
    cases o with
    | none => cases hn
    | some m =>
      simp only [Option.toList_some, List.mem_singleton] at hn
      subst hn
      have hlen := items_length (by
        intro item m hm
        obtain ⟨v, _, h3⟩ := paramItem_some.mp hm
        rw [hC] at h3
        cases h3; rfl) h1
      rw [hlen]
      exact ⟨List.length_pos_iff.mpr h.1, h.2⟩
  | hash f =>
    unfold Assignment.assignName assignHash at hl
    dsimp only at hl
    rw [Res.bind_eq_ok] at hl
    obtain ⟨o, h1, h2⟩ := hl
    cases h2
    cases o with
    | none => cases hn
    | some m =>
      simp only [Option.toList_some, List.mem_singleton] at hn
      subst hn
      have hlen := items_length (by
        intro item m hm
        unfold hashItem at hm
        split at hm
        · rw [hC] at hm
          simp only [Res.ofOption_some, Res.bind_ok, Res.ok.injEq, Option.some.injEq] at hm
          subst hm; rfl
        · cases hm) h1
      rw [hlen]
      exact ⟨List.length_pos_iff.mpr h.1, h.2⟩
  | email f =>
    have h' : limit = none := h
    subst h'
    refine ⟨?_, by simp⟩
    unfold Assignment.assignName assignEmail at hl
    dsimp only at hl
    cases hl
    split at hn
    · split at hn
      · cases hn
      · split at hn
        · cases hn
        · split at hn
          · cases hn
          · simp only [List.mem_singleton] at hn
            subst hn
            simp
    · cases hn

/-- C61, what holds: with fitting assignment functions (and strings appended as single components) every offered name passes
the policy. Missing: configurations in which the limit is smaller than the format, or the format is empty. -/
theorem C61_offers_partial (hC : ∀ s, C.stringName s = some [gcomp s]) (hfit : ∀ a ∈ cfg.assignments, Fitting cfg.profile.maxSuffixLength a)
    {params : MMap} {rand : Nat → Nat} {names : List Name} (ha : Assigns C cfg.assignments params rand names) :
    ∀ n ∈ offers cfg names, IdentityPolicy cfg.profile n := by
  intro n hn
  unfold offers at hn
  rw [List.mem_map] at hn
  obtain ⟨m, hm, rfl⟩ := hn
  obtain ⟨ls, h1, rfl, h3⟩ := ha
  rw [List.mem_flatten] at hm
  obtain ⟨l, hl, hml⟩ := hm
  obtain ⟨j, hj⟩ := List.mem_iff_getElem?.mp hl
  have hjl : j < cfg.assignments.length := by
    rw [← h1]
    exact (List.getElem?_eq_some_iff.mp hj).1
  have haj : cfg.assignments[j]? = some cfg.assignments[j] := List.getElem?_eq_getElem hjl
  obtain ⟨h4, h5⟩ := fitting_length hC (hfit _ (List.getElem_mem hjl)) (h3 j _ l haj hj) hml
  refine ⟨List.prefix_append _ _, by rw [List.length_append]; omega, ?_⟩
  intro k hk
  have := h5 k hk
  rw [List.length_append]
  omega

end

/-- the hypotheses of the C60 theorems are met: two functions, one of which assigns nothing -/
example : Assigns Fix.C [.param (nameFormat (bytes! "/a/b")), .email [bytes! "org"], .random] [(bytes! "a", bytes! "x"), (bytes! "b", bytes! "y")] (fun _ => 42)
    [[gcomp (bytes! "x"), gcomp (bytes! "y")], [gcomp (bytes! "42")]] := by
  refine ⟨[[[gcomp (bytes! "x"), gcomp (bytes! "y")]], [], [[gcomp (bytes! "42")]]], rfl, rfl, ?_⟩
  intro j a l ha hl
  match j with
  | 0 => simp at ha hl; subst ha hl; decide +kernel
  | 1 => simp at ha hl; subst ha hl; decide +kernel
  | 2 => simp at ha hl; subst ha hl; decide +kernel
  | j + 3 => simp at ha

/-- a CA that assigns names in three ways and sends some requesters elsewhere -/
def exGenerous : CaConfig :=
  { Fix.cfg with assignments := [.param (nameFormat (bytes! "/a/b")), .email [bytes! "org"], .random],
                 redirection := [(Fix.caCert, .param [(bytes! "a", bytes! "x")]), (Fix.caCert, .param [(bytes! "a", bytes! "z")])] }

/-- `C60_probe_reply` for this CA: two names and one redirection -/
example : ∃ d, onProbe Fix.C exGenerous exProbe (Fix.env 1000) = ⟨[.put d], .done⟩ ∧ d.name = exProbe.name ∧
    d.sig = Fix.C.signData Fix.ca exProbe.name d.content ∧ processIfError d = .ok () ∧
    probeDecode d.content [] [] = .ok ([(Fix.ca ++ [gcomp (bytes! "x"), gcomp (bytes! "y")], 1), (Fix.ca ++ [gcomp (bytes! "2")], 1)], [fullNameOf Fix.caCert]) := by
  have ha : Assigns Fix.C exGenerous.assignments [(bytes! "a", bytes! "x"), (bytes! "b", bytes! "y")] (Fix.env 1000).rand64
      [[gcomp (bytes! "x"), gcomp (bytes! "y")], [gcomp (bytes! "2")]] := by
    refine ⟨[[[gcomp (bytes! "x"), gcomp (bytes! "y")]], [], [[gcomp (bytes! "2")]]], rfl, rfl, ?_⟩
    intro j a l ha hl
    match j with
    | 0 => simp [exGenerous] at ha hl; subst ha hl; decide +kernel
    | 1 => simp [exGenerous] at ha hl; subst ha hl; decide +kernel
    | 2 => simp [exGenerous] at ha hl; subst ha hl; decide +kernel
    | j + 3 => simp [exGenerous] at ha
  refine C60_probe_reply rfl (by decide +kernel) ha (by simp) (by decide) ?_ ?_
    (by intro k hk; cases hk; decide) (by decide +kernel)
  · intro n hn
    have : n = Fix.ca ++ [gcomp (bytes! "x"), gcomp (bytes! "y")] ∨ n = Fix.ca ++ [gcomp (bytes! "2")] := by simpa [offers, exGenerous, Fix.cfg, Fix.profile] using hn
    rcases this with rfl | rfl <;> simp [Name.Wf, Fix.ca, gcomp]
  · intro n hn
    have : n = fullNameOf Fix.caCert := by
      have h : redirects exGenerous [(bytes! "a", bytes! "x"), (bytes! "b", bytes! "y")] = [fullNameOf Fix.caCert] := by decide +kernel
      rw [h] at hn
      simpa using hn
    subst this
    simp [Name.Wf, fullNameOf, Fix.caCert, Fix.ca, gcomp, keyComponent]

/-- `C60_no_results`: a CA that assigns names only to mail addresses -/
example : ∃ d, IsErrorReply Fix.C { Fix.cfg with assignments := [.email [bytes! "org"]] } exProbe ErrorCode.INVALID_PARAMETER d ∧
    onProbe Fix.C { Fix.cfg with assignments := [.email [bytes! "org"]] } exProbe (Fix.env 1000) = ⟨[.put d], .done⟩ := by
  refine C60_no_results (params := [(bytes! "a", bytes! "x"), (bytes! "b", bytes! "y")]) rfl (by decide +kernel) ⟨[[]], rfl, rfl, ?_⟩ rfl
  intro j a l ha hl
  match j with
  | 0 => simp at ha hl; subst ha hl; decide +kernel
  | j + 1 => simp at ha

/-- `C60_throwing`: a library that rejects every text as a name -/
example : onProbe { Fix.C with stringName := fun _ => none } exNarrow exProbe (Fix.env 1000) = ⟨[], .done⟩ := by
  refine C60_throwing (params := [(bytes! "a", bytes! "x"), (bytes! "b", bytes! "y")]) rfl (by decide +kernel) ?_
  intro names ⟨ls, h1, _, h3⟩
  match ls, h1 with
  | [l], _ =>
    have := h3 0 (.param (nameFormat (bytes! "/a/b"))) l rfl rfl
    have h : (match (Assignment.param (nameFormat (bytes! "/a/b"))).assignName { Fix.C with stringName := fun _ => none }
        [(bytes! "a", bytes! "x"), (bytes! "b", bytes! "y")] ((Fix.env 1000).rand64 0) with | .ok _ => false | _ => true) = true := by decide +kernel
    rw [this] at h
    cases h

/-- `C60_undecodable`: a key without a value -/
example : onProbe Fix.C exGenerous { exProbe with params := some ⟨T.ApplicationParameters, encodeAll [binBlock T.ParameterKey (bytes! "a")]⟩ } (Fix.env 1000) =
    ⟨[], .done⟩ := by
  refine C60_undecodable rfl ?_
  intro m hm
  have h : (match probeParamsDecode ⟨T.ApplicationParameters, encodeAll [binBlock T.ParameterKey (bytes! "a")]⟩ with | .ok _ => false | _ => true) = true := by
    decide +kernel
  rw [hm] at h
  cases h

/-- and of `C61_offers_partial` -/
example : ∀ a ∈ ([.random, .param [bytes! "a"]] : List Assignment), Fitting (some 1) a := by
  intro a ha
  simp only [List.mem_cons, List.not_mem_nil, or_false] at ha
  rcases ha with rfl | rfl
  · intro k hk; cases hk; decide
  · exact ⟨by simp, by intro k hk; cases hk; decide⟩

end Ndncert.Props
