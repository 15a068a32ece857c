import Verif.Spec.Config
import Verif.Lemmas.Code

namespace Ndncert

/-! ## Loops -/

theorem forEach_ok {α β : Type} (f : α → Res β) (l : List α) (r : List β) :
    forEach f l = .ok r ↔ l.map f = r.map Res.ok := by
  induction l generalizing r with
  | nil => cases r <;> simp [forEach]
  | cons a l ih =>
    unfold forEach
    cases h : f a with
    | ok b =>
      cases hl : forEach f l with
      | ok bs =>
        have := (ih bs).mp hl
        rw [Res.bind_ok, Res.bind_ok]
        cases r with
        | nil => simp
        | cons c r =>
          rw [List.map_cons, List.map_cons, h, this, List.cons.injEq, Res.ok.injEq, Res.ok.injEq, List.cons.injEq]
          constructor
          · rintro ⟨rfl, rfl⟩; exact ⟨rfl, rfl⟩
          · rintro ⟨rfl, h2⟩
            refine ⟨rfl, ?_⟩
            exact (List.map_inj_right (fun x y e => Res.ok.inj e)).mp h2
      | exc e =>
        rw [Res.bind_ok, Res.bind_exc]
        cases r with
        | nil => simp
        | cons c r =>
          constructor
          · intro x; cases x
          · intro x
            rw [List.map_cons, List.map_cons, List.cons.injEq] at x
            rw [(ih r).mpr x.2] at hl
            cases hl
      | ub e =>
        rw [Res.bind_ok]
        cases r with
        | nil => simp [bind, Res.bind]
        | cons c r =>
          constructor
          · intro x; cases x
          · intro x
            rw [List.map_cons, List.map_cons, List.cons.injEq] at x
            rw [(ih r).mpr x.2] at hl
            cases hl
    | exc e =>
      rw [Res.bind_exc]
      cases r <;> simp [h]
    | ub e =>
      cases r <;> simp [h, bind, Res.bind]

/-- a loop succeeds iff every item does -/
theorem forEach_total {α β : Type} (f : α → Res β) (l : List α) :
    (∃ r, forEach f l = .ok r) ↔ ∀ a ∈ l, ∃ b, f a = .ok b := by
  constructor
  · rintro ⟨r, h⟩ a ha
    have := (forEach_ok f l r).mp h
    have h2 : f a ∈ l.map f := List.mem_map_of_mem ha
    rw [this] at h2
    obtain ⟨b, _, e⟩ := List.mem_map.mp h2
    exact ⟨b, e.symm⟩
  · intro h
    induction l with
    | nil => exact ⟨[], rfl⟩
    | cons a l ih =>
      obtain ⟨b, hb⟩ := h a (by simp)
      obtain ⟨r, hr⟩ := ih (fun x hx => h x (by simp [hx]))
      exact ⟨b :: r, by unfold forEach; rw [hb, hr]; rfl⟩

/-! ## Letters -/

theorem lowerByte_lower (b : UInt8) : ¬ (65 ≤ (lowerByte b).toNat ∧ (lowerByte b).toNat ≤ 90) := by
  unfold lowerByte
  split
  · next h =>
    simp only [Bool.and_eq_true, decide_eq_true_eq, UInt8.le_iff_toNat_le] at h
    have h1 : (65 : UInt8).toNat = 65 := rfl
    have h2 : (90 : UInt8).toNat = 90 := rfl
    rw [UInt8.toNat_add]
    have h3 : (32 : UInt8).toNat = 32 := rfl
    omega
  · next h =>
    simp only [Bool.and_eq_true, decide_eq_true_eq, UInt8.le_iff_toNat_le] at h
    have h1 : (65 : UInt8).toNat = 65 := rfl
    have h2 : (90 : UInt8).toNat = 90 := rfl
    omega

theorem toLower_lower (s : Bytes) : LowerCase (toLower s) := by
  intro b hb
  obtain ⟨x, _, rfl⟩ := List.mem_map.mp hb
  exact lowerByte_lower x

theorem toLower_nil (s : Bytes) : toLower s = [] ↔ s = [] := by simp [toLower]

/-! ## Items -/

theorem probeKeyOfItem_ok (item : Bytes × PTree) (k : Bytes) :
    probeKeyOfItem item = .ok k ↔ item.2.getStr (bytes! "probe-parameter-key") [] ≠ [] ∧
      k = toLower (item.2.getStr (bytes! "probe-parameter-key") []) := by
  unfold probeKeyOfItem
  dsimp only
  split
  · next h => simp [(toLower_nil _).mp h]
  · next h =>
    have := fun e => h ((toLower_nil _).mpr e)
    constructor
    · intro e; cases e; exact ⟨this, rfl⟩
    · rintro ⟨_, rfl⟩; rfl

theorem createChallenge_known (ty : Bytes) :
    (createChallenge ty).isSome = true ↔ ty ∈ [bytes! "pin", bytes! "email", bytes! "possession"] := by
  unfold createChallenge
  simp only [ChalKind.regName]
  by_cases h1 : ty = bytes! "pin"
  · simp [h1]
  · by_cases h2 : ty = bytes! "email"
    · simp [h2]
    · by_cases h3 : ty = bytes! "possession"
      · simp [h3]
      · simp [h1, h2, h3]

theorem challengeOfItem_ok (item : Bytes × PTree) (k : Bytes) :
    challengeOfItem item = .ok k ↔
      toLower (item.2.getStr (bytes! "challenge") []) ∈ [bytes! "pin", bytes! "email", bytes! "possession"] ∧
      k = toLower (item.2.getStr (bytes! "challenge") []) := by
  unfold challengeOfItem
  dsimp only
  split
  · next h => rw [h]; simp
  · next h =>
    split
    · next h2 =>
      have h3 : ¬ (isChallengeSupported (toLower (item.2.getStr (bytes! "challenge") [])) = true) := by
        intro e; rw [e] at h2; cases h2
      have h4 := fun e => h3 ((createChallenge_known _).mpr e)
      constructor
      · intro e; cases e
      · intro e; exact absurd e.1 h4
    · next h2 =>
      have h3 : isChallengeSupported (toLower (item.2.getStr (bytes! "challenge") [])) = true := by
        cases hh : isChallengeSupported (toLower (item.2.getStr (bytes! "challenge") [])) with
        | true => rfl
        | false => rw [hh] at h2; exact absurd rfl h2
      have h4 := (createChallenge_known _).mp h3
      constructor
      · intro e; cases e; exact ⟨h4, rfl⟩
      · rintro ⟨_, rfl⟩; rfl

theorem splitFirst_absent (sep : UInt8) (s : Bytes) : splitFirst sep s = none ↔ sep ∉ s := by
  induction s with
  | nil => simp [splitFirst]
  | cons b s ih =>
    unfold splitFirst
    split
    · next h => simp [h]
    · next h =>
      simp only [Option.map_eq_none_iff, ih, List.mem_cons, not_or]
      exact ⟨fun e => ⟨fun e2 => h e2.symm, e⟩, fun e => e.2⟩

theorem paramFormat_total (l : List Bytes) (m : List (Bytes × Bytes)) :
    (∃ r, l.foldlM paramFormatStep m = .ok r) ↔ ∀ piece ∈ l, (61 : UInt8) ∈ piece := by
  induction l generalizing m with
  | nil => simp [List.foldlM]
  | cons p l ih =>
    rw [List.foldlM_cons]
    cases h : splitFirst 61 p with
    | none =>
      have := (splitFirst_absent 61 p).mp h
      have hs : paramFormatStep m p = .exc .runtime := by unfold paramFormatStep; rw [h]
      rw [hs, Res.bind_exc]
      constructor
      · rintro ⟨r, e⟩; cases e
      · intro e; exact absurd (e p (by simp)) this
    | some kv =>
      obtain ⟨k, v⟩ := kv
      have hs : paramFormatStep m p = .ok (mapEmplace m k v) := by unfold paramFormatStep; rw [h]
      rw [hs, Res.bind_ok, ih]
      have : (61 : UInt8) ∈ p := by
        apply Classical.byContradiction
        intro e
        rw [(splitFirst_absent 61 p).mpr e] at h
        cases h
      simp [this]

theorem mkRedirectionParam_ok (s : Bytes) : (∃ r, mkRedirectionParam s = .ok r) ↔ PolicyParamOk s := by
  unfold mkRedirectionParam PolicyParamOk
  split
  · next h => simp [h]
  · next h =>
    rw [← paramFormat_total _ []]
    simp only [h, false_or]
    constructor
    · rintro ⟨r, e⟩
      cases hh : (splitAll 38 s).foldlM paramFormatStep [] with
      | ok m => exact ⟨m, rfl⟩
      | exc x => rw [hh, Res.bind_exc] at e; cases e
      | ub x => rw [hh] at e; cases e
    · rintro ⟨m, e⟩
      exact ⟨.param m, by rw [e]; rfl⟩

/-- what `createPolicy` makes -/
theorem createPolicy_ok (ty param : Bytes) (r : Redirection) :
    createPolicy ty param = .ok (some r) ↔
      (ty = bytes! "email" ∧ r = .email param) ∨ (ty = bytes! "param" ∧ mkRedirectionParam param = .ok r) := by
  unfold createPolicy mkRedirectionEmail
  split
  · next h => rw [h]; simp [eq_comm]
  · next h =>
    split
    · next h2 =>
      rw [h2]
      cases hm : mkRedirectionParam param with
      | ok x => simp
      | exc x => simp
      | ub x => simp [bind, Res.bind]
    · next h2 => simp [h, h2]

theorem checkRedirectPrefix_ok (T : TextIO) (uri : Bytes) (cert : Option Cert) :
    checkRedirectPrefix T uri cert = .ok () ↔ uri = [] ∨ ∃ c, cert = some c ∧ T.nameOfUri uri = some c.identity := by
  unfold checkRedirectPrefix
  split
  · next h => simp [h]
  · next h =>
    simp only [h, false_or]
    cases hn : T.nameOfUri uri with
    | none => simp [Res.ofOption]
    | some n =>
      cases cert with
      | none => simp [Res.ofOption]
      | some c =>
        simp only [Res.ofOption, Res.bind_ok]
        split
        · next h2 => simp [h2]
        · next h2 =>
          have : n = c.identity := Classical.byContradiction h2
          simp [this]

theorem redirectionOfItem_ok (T : TextIO) (item : Bytes × PTree) (r : Option Cert × Redirection) :
    redirectionOfItem T item = .ok r ↔
      item.2.getStr (bytes! "certificate") [] ≠ [] ∧
      checkRedirectPrefix T (item.2.getStr (bytes! "ca-prefix") []) (T.loadCert (item.2.getStr (bytes! "certificate") [])) = .ok () ∧
      r.1 = T.loadCert (item.2.getStr (bytes! "certificate") []) ∧
      createPolicy (item.2.getStr (bytes! "policy-type") []) (item.2.getStr (bytes! "policy-param") []) = .ok (some r.2) := by
  unfold redirectionOfItem
  dsimp only
  split
  · next h => simp [h]
  · next h =>
    cases hc : checkRedirectPrefix T (item.2.getStr (bytes! "ca-prefix") []) (T.loadCert (item.2.getStr (bytes! "certificate") [])) with
    | exc e => simp
    | ub e => simp [bind, Res.bind]
    | ok u =>
      rw [Res.bind_ok]
      split
      · next h2 =>
        rw [h2]
        simp [createPolicy]
      · next h2 =>
        cases hp : createPolicy (item.2.getStr (bytes! "policy-type") []) (item.2.getStr (bytes! "policy-param") []) with
        | exc e => simp
        | ub e => simp [bind, Res.bind]
        | ok p =>
          rw [Res.bind_ok]
          cases p with
          | none => simp
          | some p =>
            simp only [h, Res.ok.injEq, ne_eq, not_false_eq_true, true_and, Option.some.injEq]
            constructor
            · rintro rfl; exact ⟨rfl, rfl⟩
            · rintro ⟨h3, h4⟩; rw [h4, ← h3]

theorem redirectionOfItem_total (T : TextIO) (item : Bytes × PTree) :
    (∃ r, redirectionOfItem T item = .ok r) ↔ RedirectItemOk T item.2 := by
  constructor
  · rintro ⟨r, h⟩
    obtain ⟨h1, h2, _, h4⟩ := (redirectionOfItem_ok T item r).mp h
    refine ⟨h1, (checkRedirectPrefix_ok _ _ _).mp h2, ?_⟩
    rcases (createPolicy_ok _ _ _).mp h4 with ⟨e, _⟩ | ⟨e, f⟩
    · exact .inl e
    · exact .inr ⟨e, (mkRedirectionParam_ok _).mp ⟨_, f⟩⟩
  · rintro ⟨h1, h2, h3⟩
    rcases h3 with e | ⟨e, f⟩
    · exact ⟨(_, _), (redirectionOfItem_ok T item _).mpr ⟨h1, (checkRedirectPrefix_ok _ _ _).mpr h2, rfl,
        (createPolicy_ok _ _ _).mpr (.inl ⟨e, rfl⟩)⟩⟩
    · obtain ⟨r, hr⟩ := (mkRedirectionParam_ok _).mpr f
      exact ⟨(_, r), (redirectionOfItem_ok T item _).mpr ⟨h1, (checkRedirectPrefix_ok _ _ _).mpr h2, rfl,
        (createPolicy_ok _ _ _).mpr (.inr ⟨e, hr⟩)⟩⟩

theorem assignmentOfItem_total (item : Bytes × PTree) :
    (∃ r, assignmentOfItem item = .ok r) ↔ item.1 ∈ [bytes! "random", bytes! "param", bytes! "hash", bytes! "email"] := by
  unfold assignmentOfItem createAssignment
  by_cases h1 : item.1 = bytes! "random"
  · simp [h1]
  · by_cases h2 : item.1 = bytes! "param"
    · simp [h2]
    · by_cases h3 : item.1 = bytes! "hash"
      · simp [h3]
      · by_cases h4 : item.1 = bytes! "email"
        · simp [h4]
        · simp [h1, h2, h3, h4]

theorem assignmentOfItem_ok (item : Bytes × PTree) (a : Assignment) (h : assignmentOfItem item = .ok a) :
    (item.1 = bytes! "random" ∧ a = .random) ∨ (item.1 = bytes! "param" ∧ a = .param (nameFormat item.2.data)) ∨
    (item.1 = bytes! "hash" ∧ a = .hash (nameFormat item.2.data)) ∨ (item.1 = bytes! "email" ∧ a = .email (nameFormat item.2.data)) := by
  unfold assignmentOfItem createAssignment at h
  by_cases h1 : item.1 = bytes! "random"
  · simp [h1] at h; simp [h1, h]
  · by_cases h2 : item.1 = bytes! "param"
    · simp [h2] at h; simp [h2, h]
    · by_cases h3 : item.1 = bytes! "hash"
      · simp [h3] at h; simp [h3, h]
      · by_cases h4 : item.1 = bytes! "email"
        · simp [h4] at h; simp [h4, h]
        · simp [h1, h2, h3, h4] at h

/-! ## Whole documents -/

theorem nameField_ok (T : TextIO) (t : PTree) (key : Bytes) (n : Name) :
    nameField T t key = .ok n ↔ T.nameOfUri (t.getStr key []) = some n := by
  unfold nameField
  cases T.nameOfUri (t.getStr key []) <;> simp [Res.ofOption]

theorem nameField_not_ub (T : TextIO) (t : PTree) (key : Bytes) (u : Ub) : nameField T t key ≠ .ub u := by
  unfold nameField
  cases T.nameOfUri (t.getStr key []) <;> simp [Res.ofOption]

theorem forEach_not_ub {α β : Type} (f : α → Res β) (l : List α) (h : ∀ a ∈ l, ∀ u, f a ≠ .ub u) : ∀ u, forEach f l ≠ .ub u := by
  induction l with
  | nil => intro u e; cases e
  | cons a l ih =>
    intro u
    unfold forEach
    cases ha : f a with
    | exc e => simp
    | ub v => exact absurd ha (h a (by simp) v)
    | ok b =>
      rw [Res.bind_ok]
      cases hl : forEach f l with
      | exc e => simp
      | ok r => simp
      | ub v => exact absurd hl (ih (fun x hx => h x (by simp [hx])) v)

theorem probeKeyOfItem_not_ub (item : Bytes × PTree) (u : Ub) : probeKeyOfItem item ≠ .ub u := by
  unfold probeKeyOfItem
  dsimp only
  split <;> simp

theorem challengeOfItem_not_ub (item : Bytes × PTree) (u : Ub) : challengeOfItem item ≠ .ub u := by
  unfold challengeOfItem
  dsimp only
  split
  · simp
  · split <;> simp

theorem assignmentOfItem_not_ub (item : Bytes × PTree) (u : Ub) : assignmentOfItem item ≠ .ub u := by
  unfold assignmentOfItem
  split <;> simp

/-- `CaProfile::fromJson`, as conditions -/
theorem profileFromJson_ok (T : TextIO) (t : PTree) (p : CaProfile) :
    profileFromJson T t = .ok p ↔
      T.nameOfUri (t.getStr (bytes! "ca-prefix") []) = some p.caPrefix ∧ p.caPrefix ≠ [] ∧
      (∃ h, T.nameOfUri (t.getStr (bytes! "forwarding-hint") []) = some h ∧
        p.forwardingHint = if h = [] then p.caPrefix ++ [gcomp (bytes! "CA")] else h) ∧
      forEach probeKeyOfItem (t.items (bytes! "probe-parameters")) = .ok p.probeParameterKeys ∧
      forEach challengeOfItem (t.items (bytes! "supported-challenges")) = .ok p.supportedChallenges ∧
      p.caInfo = t.getStr (bytes! "ca-info") [] ∧ p.maxValidityPeriod = validityField t ∧ p.maxSuffixLength = suffixField t ∧
      p.cert = certField T t := by
  unfold profileFromJson
  cases h1 : nameField T t (bytes! "ca-prefix") with
  | exc e =>
    rw [Res.bind_exc]
    constructor
    · intro x; cases x
    · intro x
      rw [(nameField_ok _ _ _ _).mpr x.1] at h1
      cases h1
  | ub e => exact absurd h1 (nameField_not_ub _ _ _ _)
  | ok n =>
    rw [Res.bind_ok]
    have e1 := (nameField_ok _ _ _ _).mp h1
    by_cases hn : n = []
    · rw [if_pos hn]
      constructor
      · intro x; cases x
      · intro x
        rw [e1] at x
        exact absurd hn (by rw [Option.some.inj x.1]; exact x.2.1)
    · rw [if_neg hn]
      cases h2 : nameField T t (bytes! "forwarding-hint") with
      | exc e =>
        rw [Res.bind_exc]
        constructor
        · intro x; cases x
        · rintro ⟨_, _, ⟨h, x, _⟩, _⟩
          rw [(nameField_ok _ _ _ _).mpr x] at h2
          cases h2
      | ub e => exact absurd h2 (nameField_not_ub _ _ _ _)
      | ok hint =>
        have e2 := (nameField_ok _ _ _ _).mp h2
        rw [Res.bind_ok]
        cases h3 : forEach probeKeyOfItem (t.items (bytes! "probe-parameters")) with
        | exc e => simp
        | ub e => exact absurd h3 (forEach_not_ub _ _ (fun a _ => probeKeyOfItem_not_ub a) _)
        | ok keys =>
          rw [Res.bind_ok]
          cases h4 : forEach challengeOfItem (t.items (bytes! "supported-challenges")) with
          | exc e => simp
          | ub e => exact absurd h4 (forEach_not_ub _ _ (fun a _ => challengeOfItem_not_ub a) _)
          | ok chs =>
            rw [Res.bind_ok, e1, e2]
            constructor
            · intro x
              cases x
              exact ⟨rfl, hn, ⟨hint, rfl, rfl⟩, rfl, rfl, rfl, rfl, rfl, rfl⟩
            · rintro ⟨a1, a2, ⟨hh, a3, a4⟩, a5, a6, a7, a8, a9, a10⟩
              cases a3
              have := Option.some.inj a1
              have b5 := Res.ok.inj a5
              have b6 := Res.ok.inj a6
              cases p
              simp only at *
              subst this b5 b6 a4 a7 a8 a9 a10
              rfl

theorem profileFromJson_not_ub (T : TextIO) (t : PTree) (u : Ub) : profileFromJson T t ≠ .ub u := by
  unfold profileFromJson
  cases h1 : nameField T t (bytes! "ca-prefix") with
  | exc e => simp
  | ub e => exact absurd h1 (nameField_not_ub _ _ _ _)
  | ok n =>
    rw [Res.bind_ok]
    split
    · simp
    · cases h2 : nameField T t (bytes! "forwarding-hint") with
      | exc e => simp
      | ub e => exact absurd h2 (nameField_not_ub _ _ _ _)
      | ok hint =>
        rw [Res.bind_ok]
        cases h3 : forEach probeKeyOfItem (t.items (bytes! "probe-parameters")) with
        | exc e => simp
        | ub e => exact absurd h3 (forEach_not_ub _ _ (fun a _ => probeKeyOfItem_not_ub a) _)
        | ok keys =>
          rw [Res.bind_ok]
          cases h4 : forEach challengeOfItem (t.items (bytes! "supported-challenges")) with
          | exc e => simp
          | ub e => exact absurd h4 (forEach_not_ub _ _ (fun a _ => challengeOfItem_not_ub a) _)
          | ok chs => simp

/-- `CaConfig::load`, as conditions -/
theorem loadTree_ok (T : TextIO) (t : PTree) (L : LoadedConfig) :
    loadTree T t = .ok L ↔
      profileFromJson T t = .ok L.profile ∧ L.profile.supportedChallenges ≠ [] ∧
      forEach (redirectionOfItem T) (t.items (bytes! "redirect-to")) = .ok L.redirection ∧
      forEach assignmentOfItem (t.items (bytes! "name-assignment")) = .ok L.assignments := by
  unfold loadTree
  split
  · next h =>
    constructor
    · intro x; cases x
    · rintro ⟨x, y, _⟩
      have z := ((profileFromJson_ok T t _).mp x).2.2.2.2.1
      have : t.items (bytes! "supported-challenges") = [] := by
        simp [PTree.items, PTree.child, h]
      rw [this] at z
      exact absurd (Res.ok.inj z).symm y
  · next h =>
    cases h1 : profileFromJson T t with
    | exc e => simp
    | ub e => simp [bind, Res.bind]
    | ok p =>
      rw [Res.bind_ok]
      split
      · next h2 =>
        constructor
        · intro x; cases x
        · rintro ⟨x, y, _⟩
          cases x
          exact absurd h2 y
      · next h2 =>
        cases h3 : forEach (redirectionOfItem T) (t.items (bytes! "redirect-to")) with
        | exc e => simp
        | ub e => simp [bind, Res.bind]
        | ok rs =>
          rw [Res.bind_ok]
          cases h4 : forEach assignmentOfItem (t.items (bytes! "name-assignment")) with
          | exc e => simp
          | ub e => simp [bind, Res.bind]
          | ok as =>
            rw [Res.bind_ok]
            cases L
            simp only [Res.ok.injEq, LoadedConfig.mk.injEq]
            constructor
            · rintro ⟨rfl, rfl, rfl⟩; exact ⟨rfl, h2, rfl, rfl⟩
            · rintro ⟨rfl, _, rfl, rfl⟩; exact ⟨rfl, rfl, rfl⟩

theorem map_ok_inj {α : Type} {l r : List α} (h : l.map Res.ok = r.map Res.ok) : l = r :=
  (List.map_inj_right (fun _ _ e => Res.ok.inj e)).mp h

/-- a successful loop whose items determine their results by `g` -/
theorem forEach_map {α β : Type} (f : α → Res β) (g : α → β) (l : List α) (r : List β)
    (hf : ∀ a b, f a = .ok b → b = g a) (h : forEach f l = .ok r) : r = l.map g := by
  have := (forEach_ok f l r).mp h
  clear h
  induction l generalizing r with
  | nil => cases r with | nil => rfl | cons _ _ => cases this
  | cons a l ih =>
    cases r with
    | nil => cases this
    | cons b r =>
      rw [List.map_cons, List.map_cons, List.cons.injEq] at this
      rw [List.map_cons, hf a b this.1, ih r this.2]

/-- the i-th result comes from the i-th item -/
theorem forEach_get {α β : Type} (f : α → Res β) (l : List α) (r : List β) (h : forEach f l = .ok r) :
    l.length = r.length ∧ ∀ (k : Nat) a b, l[k]? = some a → r[k]? = some b → f a = .ok b := by
  have := (forEach_ok f l r).mp h
  refine ⟨by simpa using congrArg List.length this, fun k a b ha hb => ?_⟩
  have h2 := congrArg (fun x => x[k]?) this
  simp only [List.getElem?_map, ha, hb, Option.map_some, Option.some.injEq] at h2
  exact h2

/-! ## Numbers -/

theorem decDigits_ne_nil (n : Nat) : decDigits n ≠ [] := by
  intro h
  have h1 := (decDigits_length (n := n) (k := 1) (by decide)).mp (by rw [h]; simp)
  have h2 := decDigits_val n
  rw [h] at h2
  have h3 : n = 0 := h2.symm
  rw [h3] at h
  exact absurd h (by decide)

theorem isSpace_digit {b : UInt8} (h : 48 ≤ b.toNat) : isSpace b = false := by
  unfold isSpace
  have h1 : ¬ b = 32 := by intro e; rw [e] at h; exact absurd h (by decide)
  have h2 : ¬ b ≤ 13 := by
    intro e
    have : b.toNat ≤ 13 := UInt8.le_iff_toNat_le.mp e
    omega
  simp [h1, h2]

theorem dropWhile_none {s : Bytes} (h : ∀ b ∈ s, isSpace b = false) : s.dropWhile isSpace = s := by
  cases s with
  | nil => rfl
  | cons b s => rw [List.dropWhile_cons, h b (by simp)]; rfl

theorem trim_none {s : Bytes} (h : ∀ b ∈ s, isSpace b = false) : trim s = s := by
  unfold trim
  rw [dropWhile_none h, dropWhile_none (s := s.reverse) (fun b hb => h b (by simpa using hb)), List.reverse_reverse]

theorem readDigits_decDigits (n : Nat) : readDigits (decDigits n) = some n := by
  unfold readDigits
  rw [if_neg (decDigits_ne_nil n), if_pos, show (decDigits n).foldl (fun n b => 10 * n + (b.toNat - 48)) 0 = n from decDigits_val n]
  rw [List.all_eq_true]
  intro b hb
  have := decDigits_digit n b hb
  simp only [Bool.and_eq_true, decide_eq_true_eq, UInt8.le_iff_toNat_le]
  exact this

theorem readNumber_decDigits (n : Nat) : readNumber (decDigits n) = some (false, n) := by
  unfold readNumber
  rw [trim_none (fun b hb => isSpace_digit (decDigits_digit n b hb).1)]
  have hd := decDigits_digit n
  split
  · next ds h => rw [h] at hd; exact absurd (hd 43 (by simp)).1 (by decide)
  · next ds h => rw [h] at hd; exact absurd (hd 45 (by simp)).1 (by decide)
  · rw [readDigits_decDigits]; rfl

theorem readNumber_minus (n : Nat) : readNumber (45 :: decDigits n) = some (true, n) := by
  unfold readNumber
  rw [trim_none]
  · simp only
    rw [readDigits_decDigits]; rfl
  · intro b hb
    rcases List.mem_cons.mp hb with e | e
    · rw [e]; decide
    · exact isSpace_digit (decDigits_digit n b e).1

theorem readInt_intDigits (i : Int) :
    readInt (intDigits i) = if -2147483648 ≤ i ∧ i < 2147483648 then some i else none := by
  unfold readInt intDigits
  by_cases hi : i < 0
  · rw [if_pos hi, readNumber_minus]
    simp only
    by_cases h2 : i.natAbs ≤ 2 ^ 31
    · rw [if_pos h2, if_pos (by omega)]
      congr 1
      omega
    · rw [if_neg h2, if_neg (by omega)]
  · rw [if_neg hi, readNumber_decDigits]
    simp only
    by_cases h2 : i.natAbs < 2 ^ 31
    · rw [if_pos h2, if_pos (by omega)]
      congr 1
      omega
    · rw [if_neg h2, if_neg (by omega)]

theorem readSize_decDigits (n : Nat) (h : n < 2 ^ 64) : readSize (decDigits n) = some n := by
  unfold readSize
  rw [readNumber_decDigits]
  simp only
  rw [if_pos h]

end Ndncert

namespace Ndncert

/-! ## Reading what `toJson` writes -/

section
variable (T : TextIO) (p : CaProfile)

theorem toJson_prefix : (profileToJson T p).getStr (bytes! "ca-prefix") [] = T.uriOfName p.caPrefix := rfl

theorem toJson_info : (profileToJson T p).getStr (bytes! "ca-info") [] = p.caInfo := rfl

theorem toJson_validity : validityField (profileToJson T p) =
    if -2147483648 ≤ p.maxValidityPeriod ∧ p.maxValidityPeriod < 2147483648 then p.maxValidityPeriod else 86400 := by
  have : (profileToJson T p).child (bytes! "max-validity-period") = some (.leaf (intDigits p.maxValidityPeriod)) := rfl
  unfold validityField
  rw [this, Option.bind_some]
  show (match readInt (intDigits p.maxValidityPeriod) with | some v => v | none => 86400) = _
  rw [readInt_intDigits]
  by_cases h : -2147483648 ≤ p.maxValidityPeriod ∧ p.maxValidityPeriod < 2147483648
  · rw [if_pos h, if_pos h]
  · rw [if_neg h, if_neg h]

theorem toJson_child (key : Bytes) : (profileToJson T p).child key =
    (((
    [(bytes! "ca-prefix", .leaf (T.uriOfName p.caPrefix)), (bytes! "ca-info", .leaf p.caInfo),
     (bytes! "max-validity-period", .leaf (intDigits p.maxValidityPeriod))]
    ++ (match p.maxSuffixLength with
        | some n => [(bytes! "max-suffix-length", .leaf (decDigits n))]
        | none => [])
    ++ (if p.probeParameterKeys ≠ [] then [([], listTree (bytes! "probe-parameter-key") p.probeParameterKeys)] else [])
    ++ (if p.supportedChallenges ≠ [] then [([], listTree (bytes! "challenge") p.supportedChallenges)] else [])
    ++ (match p.cert with
        | some c => [(bytes! "certificate", .leaf (T.saveCert c))]
        | none => [])) : List (Bytes × PTree)).find? (fun e => e.1 == key)).map (·.2) := rfl

theorem toJson_suffix (h : ∀ n, p.maxSuffixLength = some n → n < 2 ^ 64) : suffixField (profileToJson T p) = p.maxSuffixLength := by
  unfold suffixField
  rw [toJson_child]
  cases hs : p.maxSuffixLength with
  | some n =>
    show readSize (decDigits n) = some n
    exact readSize_decDigits n (h n hs)
  | none =>
    cases hc : p.cert with
    | none => by_cases h1 : p.probeParameterKeys = [] <;> by_cases h2 : p.supportedChallenges = [] <;> simp [h1, h2]
    | some c => by_cases h1 : p.probeParameterKeys = [] <;> by_cases h2 : p.supportedChallenges = [] <;> simp [h1, h2]

theorem toJson_missing (key : Bytes) (h : key ∈ [bytes! "probe-parameters", bytes! "supported-challenges", bytes! "forwarding-hint"]) :
    (profileToJson T p).child key = none := by
  rw [toJson_child]
  simp only [List.mem_cons, List.not_mem_nil, or_false] at h
  cases hs : p.maxSuffixLength <;> cases hc : p.cert <;>
    by_cases h1 : p.probeParameterKeys = [] <;> by_cases h2 : p.supportedChallenges = [] <;>
    rcases h with rfl | rfl | rfl <;> simp [h1, h2]

theorem toJson_cert (h : ∀ c, p.cert = some c → T.CertReadable c) : certField T (profileToJson T p) = p.cert := by
  unfold certField PTree.getStr
  rw [toJson_child]
  cases hc : p.cert with
  | some c =>
    have := h c hc
    cases hs : p.maxSuffixLength <;>
      by_cases h1 : p.probeParameterKeys = [] <;> by_cases h2 : p.supportedChallenges = [] <;>
      simp [h1, h2, PTree.leaf, PTree.data, this.1, this.2]
  | none =>
    cases hs : p.maxSuffixLength <;>
      by_cases h1 : p.probeParameterKeys = [] <;> by_cases h2 : p.supportedChallenges = [] <;> simp [h1, h2]

end

/-! ## The toy texts -/

namespace ToyText

theorem esc_inj (s s' r r' : Bytes) (h : esc s ++ r = esc s' ++ r') : s = s' ∧ r = r' := by
  induction s generalizing s' with
  | nil => cases s' with
    | nil => exact ⟨rfl, by simpa [esc] using h⟩
    | cons b s' => simp [esc] at h
  | cons a s ih => cases s' with
    | nil => simp [esc] at h
    | cons b s' =>
      simp only [esc, List.cons_append, List.cons.injEq, true_and] at h
      have := ih s' h.2
      exact ⟨by rw [h.1, this.1], this.2⟩

mutual
theorem encTree_inj : ∀ (t t' : PTree) (r r' : Bytes), encTree t ++ r = encTree t' ++ r' → t = t' ∧ r = r'
  | .node d ks, .node d' ks', r, r', h => by
    simp only [encTree, List.append_assoc] at h
    obtain ⟨h1, h2⟩ := esc_inj _ _ _ _ h
    obtain ⟨h3, h4⟩ := encKids_inj ks ks' r r' h2
    exact ⟨by rw [h1, h3], h4⟩
theorem encKids_inj : ∀ (ks ks' : List (Bytes × PTree)) (r r' : Bytes), encKids ks ++ r = encKids ks' ++ r' → ks = ks' ∧ r = r'
  | [], [], r, r', h => ⟨rfl, by simpa [encKids] using h⟩
  | [], _ :: _, r, r', h => by simp [encKids] at h
  | _ :: _, [], r, r', h => by simp [encKids] at h
  | (k, t) :: ks, (k', t') :: ks', r, r', h => by
    simp only [encKids, List.cons_append, List.cons.injEq, true_and, List.append_assoc] at h
    obtain ⟨h1, h2⟩ := esc_inj _ _ _ _ h
    obtain ⟨h3, h4⟩ := encTree_inj t t' _ _ h2
    obtain ⟨h5, h6⟩ := encKids_inj ks ks' r r' h4
    exact ⟨by rw [h1, h3, h5], h6⟩
end

open Classical in
theorem readJson_write (cert : Cert) (t : PTree) : (text cert).readJson (encTree t) = some t := by
  show (if h : ∃ t', encTree t' = encTree t then some (Classical.choose h) else none) = some t
  have h : ∃ t', encTree t' = encTree t := ⟨t, rfl⟩
  rw [dif_pos h]
  congr 1
  refine (encTree_inj _ _ [] [] ?_).1
  rw [List.append_nil, List.append_nil]
  exact Classical.choose_spec h

theorem faithful (cert : Cert) : (text cert).JsonFaithful := by
  intro t file h
  have : encTree t = file := Option.some.inj h
  exact .inl (this ▸ readJson_write cert t)

end ToyText

/-! ## Numbers -/

theorem isSpace_iff (b : UInt8) : isSpace b = true ↔ (b = 32 ∨ 9 ≤ b.toNat ∧ b.toNat ≤ 13) := by
  unfold isSpace
  rw [Bool.or_eq_true, beq_iff_eq, Bool.and_eq_true, decide_eq_true_eq, decide_eq_true_eq]
  exact Iff.rfl

theorem dropWhile_all {p : UInt8 → Bool} {a : Bytes} (h : ∀ b ∈ a, p b = true) (l : Bytes) : (a ++ l).dropWhile p = l.dropWhile p := by
  induction a with
  | nil => rfl
  | cons x a ih =>
    rw [List.cons_append, List.dropWhile_cons_of_pos (h x (List.mem_cons_self ..)), ih (fun b hb => h b (List.mem_cons_of_mem _ hb))]

theorem trim_spaces {left core right : Bytes} (hl : ∀ b ∈ left, isSpace b = true) (hr : ∀ b ∈ right, isSpace b = true)
    (hc : ∀ b ∈ core, isSpace b = false) (hne : core ≠ []) : trim (left ++ core ++ right) = core := by
  have hd : ∀ (l m : Bytes), (∀ b ∈ l, isSpace b = false) → l ≠ [] → (l ++ m).dropWhile isSpace = l ++ m := by
    intro l m h1 h2
    cases l with
    | nil => exact absurd rfl h2
    | cons x l => rw [List.cons_append, List.dropWhile_cons_of_neg (by rw [h1 x (List.mem_cons_self ..)]; simp)]
  unfold trim
  rw [List.append_assoc, dropWhile_all hl, hd _ _ hc hne, List.reverse_append, dropWhile_all (fun b hb => hr b (List.mem_reverse.mp hb))]
  have := hd core.reverse [] (fun b hb => hc b (List.mem_reverse.mp hb)) (by simpa using hne)
  rw [List.append_nil] at this
  rw [this, List.reverse_reverse]

theorem trim_split (s : Bytes) : ∃ left right, s = left ++ trim s ++ right ∧ (∀ b ∈ left, isSpace b = true) ∧ ∀ b ∈ right, isSpace b = true := by
  refine ⟨s.takeWhile isSpace, ((s.dropWhile isSpace).reverse.takeWhile isSpace).reverse, ?_, ?_, ?_⟩
  · unfold trim
    rw [List.append_assoc, ← List.reverse_append, List.takeWhile_append_dropWhile, List.reverse_reverse, List.takeWhile_append_dropWhile]
  · exact List.all_eq_true.mp List.all_takeWhile
  · intro b hb
    exact List.all_eq_true.mp List.all_takeWhile b (List.mem_reverse.mp hb)

theorem readDigits_iff (s : Bytes) (n : Nat) : readDigits s = some n ↔
    (s ≠ [] ∧ (∀ b ∈ s, 48 ≤ b.toNat ∧ b.toNat ≤ 57) ∧ n = s.foldl (fun v b => 10 * v + (b.toNat - 48)) 0) := by
  have hall : s.all (fun b => 48 ≤ b && b ≤ 57) = true ↔ ∀ b ∈ s, 48 ≤ b.toNat ∧ b.toNat ≤ 57 := by
    rw [List.all_eq_true]
    refine forall_congr' (fun b => forall_congr' (fun _ => ?_))
    rw [Bool.and_eq_true, decide_eq_true_eq, decide_eq_true_eq]
    exact Iff.rfl
  unfold readDigits
  split
  · next h => simp [h]
  · next h =>
    split
    · next h2 =>
      rw [Option.some.injEq]
      exact ⟨fun e => ⟨h, hall.mp h2, e.symm⟩, fun e => e.2.2.symm⟩
    · next h2 => exact ⟨fun e => (by cases e), fun e => absurd (hall.mpr e.2.1) h2⟩

theorem readNumber_iff (s : Bytes) (minus : Bool) (n : Nat) : readNumber s = some (minus, n) ↔ Numeral s minus n := by
  have hdig : ∀ b : UInt8, 48 ≤ b.toNat ∧ b.toNat ≤ 57 → isSpace b = false := by
    intro b h
    rw [← Bool.not_eq_true, isSpace_iff]
    rintro (rfl | h2)
    · revert h; decide
    · omega
  constructor
  · intro h
    obtain ⟨left, right, h1, h2, h3⟩ := trim_split s
    have hsp : ∀ b ∈ left ++ right, b = 32 ∨ 9 ≤ b.toNat ∧ b.toNat ≤ 13 := by
      intro b hb
      rw [List.mem_append] at hb
      exact (isSpace_iff b).mp (hb.elim (h2 b) (h3 b))
    unfold readNumber at h
    split at h
    · next ds hds =>
      rw [Option.map_eq_some_iff] at h
      obtain ⟨m, hm, he⟩ := h
      cases he
      obtain ⟨g1, g2, g3⟩ := (readDigits_iff _ _).mp hm
      exact ⟨left, [43], ds, right, by rw [h1, hds]; simp, hsp, .inr ⟨rfl, rfl⟩, g1, g2, g3⟩
    · next ds hds =>
      rw [Option.map_eq_some_iff] at h
      obtain ⟨m, hm, he⟩ := h
      cases he
      obtain ⟨g1, g2, g3⟩ := (readDigits_iff _ _).mp hm
      exact ⟨left, [45], ds, right, by rw [h1, hds]; simp, hsp, .inl rfl, g1, g2, g3⟩
    · rw [Option.map_eq_some_iff] at h
      obtain ⟨m, hm, he⟩ := h
      cases he
      obtain ⟨g1, g2, g3⟩ := (readDigits_iff _ _).mp hm
      exact ⟨left, [], trim s, right, by rw [List.append_nil]; exact h1, hsp, .inl rfl, g1, g2, g3⟩
  · rintro ⟨left, sign, digits, right, rfl, h2, h3, h4, h5, h6⟩
    have hr : readDigits digits = some n := (readDigits_iff _ _).mpr ⟨h4, h5, h6⟩
    have hsign : sign = [] ∨ sign = [43] ∨ sign = [45] := by
      rcases h3 with h | ⟨_, h⟩
      · cases minus
        · exact .inl h
        · exact .inr (.inr h)
      · exact .inr (.inl h)
    have htrim : trim (left ++ sign ++ digits ++ right) = sign ++ digits := by
      rw [List.append_assoc left]
      refine trim_spaces (fun b hb => (isSpace_iff b).mpr (h2 b (List.mem_append_left _ hb)))
        (fun b hb => (isSpace_iff b).mpr (h2 b (List.mem_append_right _ hb))) ?_ (by simp [h4])
      intro b hb
      rw [List.mem_append] at hb
      rcases hb with hb | hb
      · rcases hsign with rfl | rfl | rfl
        · cases hb
        · rw [List.mem_singleton.mp hb]; decide
        · rw [List.mem_singleton.mp hb]; decide
      · exact hdig b (h5 b hb)
    unfold readNumber
    rw [htrim]
    rcases h3 with h | ⟨rfl, rfl⟩
    · cases minus
      · rw [show sign = [] from h, List.nil_append]
        cases hd : digits with
        | nil => exact absurd hd h4
        | cons b ds =>
          rw [hd] at hr h5
          have hb := h5 b (List.mem_cons_self ..)
          split
          · next he => cases he; exact absurd hb (by decide)
          · next he => cases he; exact absurd hb (by decide)
          · rw [hr]; rfl
      · rw [show sign = [45] from h]
        show (readDigits digits).map _ = _
        rw [hr]; rfl
    · show (readDigits digits).map _ = _
      rw [hr]; rfl

end Ndncert
