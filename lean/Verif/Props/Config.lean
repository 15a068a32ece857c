import Verif.Lemmas.Config
import Verif.Spec.Fixtures

/-! # Configuration files and the profile store: C72, C73, C74 -/

namespace Ndncert.Props

open Ndncert

/-! ## C72 -/

theorem add_prefixes (ps : Profiles) (p : CaProfile) :
    (addProfile ps p).map (·.caPrefix) =
      if p.caPrefix ∈ ps.map (·.caPrefix) then ps.map (·.caPrefix) else ps.map (·.caPrefix) ++ [p.caPrefix] := by
  induction ps with
  | nil => simp [addProfile]
  | cons q ps ih =>
    unfold addProfile
    split
    · next h => simp [h]
    · next h =>
      rw [List.map_cons, ih]
      have h2 : ¬ p.caPrefix = q.caPrefix := fun e => h e.symm
      by_cases hm : p.caPrefix ∈ ps.map (·.caPrefix)
      · rw [if_pos hm, if_pos (by rw [List.map_cons]; exact List.mem_cons_of_mem _ hm)]; rfl
      · rw [if_neg hm, if_neg (by rw [List.map_cons, List.mem_cons]; exact fun e => e.elim h2 hm)]; rfl

theorem add_find (ps : Profiles) (p : CaProfile) (n : Name) :
    profileOf (addProfile ps p) n = if n = p.caPrefix then some p else profileOf ps n := by
  induction ps with
  | nil =>
    by_cases h : n = p.caPrefix
    · simp [addProfile, profileOf, h]
    · have h2 : ¬ p.caPrefix = n := fun e => h e.symm
      simp [addProfile, profileOf, h, h2]
  | cons q ps ih =>
    unfold addProfile
    by_cases hq : q.caPrefix = p.caPrefix
    · rw [if_pos hq]
      by_cases h : n = p.caPrefix
      · simp [profileOf, h]
      · have h2 : ¬ p.caPrefix = n := fun e => h e.symm
        simp [profileOf, h, h2, hq]
    · rw [if_neg hq]
      by_cases hqn : q.caPrefix = n
      · have : ¬ n = p.caPrefix := fun e => hq (hqn.trans e)
        rw [if_neg this]
        simp [profileOf, hqn]
      · have e1 : profileOf (q :: addProfile ps p) n = profileOf (addProfile ps p) n := by
          simp [profileOf, hqn]
        have e2 : profileOf (q :: ps) n = profileOf ps n := by simp [profileOf, hqn]
        rw [e1, e2, ih]

theorem remove_find (ps : Profiles) (m n : Name) :
    profileOf (removeProfile ps m) n = if n = m then none else profileOf ps n := by
  induction ps with
  | nil => simp [removeProfile, profileOf]
  | cons q ps ih =>
    by_cases hq : q.caPrefix = m
    · have e1 : removeProfile (q :: ps) m = removeProfile ps m := by simp [removeProfile, hq]
      rw [e1, ih]
      by_cases h : n = m
      · rw [if_pos h, if_pos h]
      · have h2 : ¬ q.caPrefix = n := fun e => h (e.symm.trans hq)
        rw [if_neg h, if_neg h]
        simp [profileOf, h2]
    · have e1 : removeProfile (q :: ps) m = q :: removeProfile ps m := by simp [removeProfile, hq]
      rw [e1]
      by_cases hqn : q.caPrefix = n
      · have : ¬ n = m := fun e => hq (hqn.trans e)
        rw [if_neg this]
        simp [profileOf, hqn]
      · have e2 : profileOf (q :: removeProfile ps m) n = profileOf (removeProfile ps m) n := by simp [profileOf, hqn]
        have e3 : profileOf (q :: ps) n = profileOf ps n := by simp [profileOf, hqn]
        rw [e2, e3, ih]

/-- C72: after any sequence of additions and removals there is at most one profile per CA prefix, and the profile known
for a prefix is the one the map described by the operations holds. -/
theorem C72_map (ops : List ProfileOp) :
    ((ops.foldl ProfileOp.run []).map (·.caPrefix)).Nodup ∧
    ∀ n, profileOf (ops.foldl ProfileOp.run []) n = ops.foldl ProfileOp.map (fun _ => none) n := by
  have key : ∀ (ops : List ProfileOp) (ps : Profiles) (m : Name → Option CaProfile), (ps.map (·.caPrefix)).Nodup →
      (∀ n, profileOf ps n = m n) → ((ops.foldl ProfileOp.run ps).map (·.caPrefix)).Nodup ∧
        ∀ n, profileOf (ops.foldl ProfileOp.run ps) n = ops.foldl ProfileOp.map m n := by
    intro ops
    induction ops with
    | nil => intro ps m h1 h2; exact ⟨h1, h2⟩
    | cons o ops ih =>
      intro ps m h1 h2
      rw [List.foldl_cons, List.foldl_cons]
      cases o with
      | add p =>
        apply ih
        · show ((addProfile ps p).map (·.caPrefix)).Nodup
          rw [add_prefixes]
          split
          · exact h1
          · next hm =>
            rw [List.nodup_append]
            refine ⟨h1, by simp, ?_⟩
            intro a ha b hb e
            rw [List.mem_singleton] at hb
            exact hm (by rw [← hb, ← e]; exact ha)
        · intro n
          show profileOf (addProfile ps p) n = if n = p.caPrefix then some p else m n
          rw [add_find, h2]
      | remove r =>
        apply ih
        · exact h1.sublist ((List.filter_sublist).map _)
        · intro n
          show profileOf (removeProfile ps r) n = if n = r then none else m n
          rw [remove_find, h2]
  exact key ops [] _ (by simp) (fun n => by simp [profileOf])

/-- C72: adding a profile replaces the one with the same prefix at its place, and otherwise appends it. -/
theorem C72_add (ps : Profiles) (p : CaProfile) :
    ((∀ q ∈ ps, q.caPrefix ≠ p.caPrefix) → addProfile ps p = ps ++ [p]) ∧
    (∀ l q r, ps = l ++ q :: r → q.caPrefix = p.caPrefix → (∀ x ∈ l, x.caPrefix ≠ p.caPrefix) → addProfile ps p = l ++ p :: r) := by
  constructor
  · intro h
    induction ps with
    | nil => rfl
    | cons q ps ih =>
      unfold addProfile
      rw [if_neg (h q (by simp)), ih (fun x hx => h x (by simp [hx]))]
      rfl
  · intro l q r hl hq hx
    subst hl
    induction l with
    | nil =>
      show addProfile (q :: r) p = p :: r
      unfold addProfile
      rw [if_pos hq]
    | cons a l ih =>
      show addProfile (a :: (l ++ q :: r)) p = _
      unfold addProfile
      rw [if_neg (hx a (by simp)), ih (fun x h => hx x (by simp [h]))]
      rfl

/-- C72: removing a prefix removes exactly the profiles of that prefix and keeps the others in order. -/
theorem C72_remove (ps : Profiles) (n : Name) :
    (removeProfile ps n).Sublist ps ∧ (∀ q ∈ removeProfile ps n, q.caPrefix ≠ n) ∧
    ∀ q, q.caPrefix ≠ n → (removeProfile ps n).count q = ps.count q := by
  refine ⟨List.filter_sublist, ?_, ?_⟩
  · intro q hq
    have := (List.mem_filter.mp hq).2
    intro e
    simp [e] at this
  · intro q hq
    exact List.count_filter (by simp [hq])

/-- two profiles with one prefix, one with another, and their removal -/
example :
    let a : CaProfile := { caPrefix := [gcomp [1]], caInfo := [1] }
    let a' : CaProfile := { caPrefix := [gcomp [1]], caInfo := [2] }
    let b : CaProfile := { caPrefix := [gcomp [2]] }
    [ProfileOp.add a, .add b, .add a'].foldl ProfileOp.run [] = [a', b] ∧
    [ProfileOp.add a, .add b, .add a', .remove [gcomp [1]]].foldl ProfileOp.run [] = [b] := by decide +kernel

/-! ## C73 -/

/-- C73 is false: whatever is saved, loading it fails. The list is written without the name "ca-list" under which it is
looked for. -/
theorem C73_false (T : TextIO) (hT : T.JsonFaithful) (ps : Profiles) (file : Bytes) (h : saveProfiles T ps = some file) :
    ∀ qs, loadProfiles T file ≠ .ok qs := by
  intro qs
  unfold loadProfiles
  rcases hT _ _ h with e | e
  · rw [e]
    show (if (profilesTree T ps).kids = [] then .exc .runtime else loadProfilesTree T (profilesTree T ps)) ≠ .ok qs
    split
    · simp
    · have : (profilesTree T ps).child (bytes! "ca-list") = none := by
        unfold PTree.child
        rw [Option.map_eq_none_iff, List.find?_eq_none]
        intro x hx
        obtain ⟨p, _, rfl⟩ := List.mem_map.mp hx
        simp
      unfold loadProfilesTree
      rw [this]
      simp
  · rw [e]; simp

/-- a store with one profile is written and read back as the same tree -/
example : (ToyText.text Fix.caCert).JsonFaithful ∧
    ∃ file, saveProfiles (ToyText.text Fix.caCert) [{ caPrefix := [gcomp [97]], cert := some Fix.caCert }] = some file ∧
      (ToyText.text Fix.caCert).readJson file ≠ none :=
  ⟨ToyText.faithful _, _, rfl, by rw [ToyText.readJson_write]; simp⟩

/-- C73, what does survive: a single profile read back from what was written of it has the same prefix, info, suffix limit
and certificate, and the same maximum validity period if that fits an `int` (otherwise it becomes one day). The probe keys,
the supported challenges and the forwarding hint are lost. -/
theorem C73_profile_partial (T : TextIO) (p : CaProfile) (hn : T.NameReadable p.caPrefix) (h0 : T.nameOfUri [] = some [])
    (hp : p.caPrefix ≠ []) (hs : ∀ n, p.maxSuffixLength = some n → n < 2 ^ 64) (hc : ∀ c, p.cert = some c → T.CertReadable c) :
    profileFromJson T (profileToJson T p) = .ok
      { caPrefix := p.caPrefix, forwardingHint := p.caPrefix ++ [gcomp (bytes! "CA")], caInfo := p.caInfo,
        probeParameterKeys := [],
        maxValidityPeriod := if -2147483648 ≤ p.maxValidityPeriod ∧ p.maxValidityPeriod < 2147483648 then p.maxValidityPeriod else 86400,
        maxSuffixLength := p.maxSuffixLength, supportedChallenges := [], cert := p.cert } := by
  rw [profileFromJson_ok]
  refine ⟨?_, hp, ⟨[], ?_, by simp⟩, ?_, ?_, rfl, (toJson_validity T p).symm, (toJson_suffix T p hs).symm, (toJson_cert T p hc).symm⟩
  · rw [toJson_prefix]; exact hn
  · unfold PTree.getStr
    rw [toJson_missing T p (bytes! "forwarding-hint") (by simp)]
    exact h0
  · unfold PTree.items
    rw [toJson_missing T p (bytes! "probe-parameters") (by simp)]
    rfl
  · unfold PTree.items
    rw [toJson_missing T p (bytes! "supported-challenges") (by simp)]
    rfl

/-- the hypotheses are met by a profile with all fields set -/
example : ∃ p : CaProfile, p.caPrefix ≠ [] ∧ p.supportedChallenges ≠ [] ∧ p.cert ≠ none ∧
    (ToyText.text Fix.caCert).NameReadable p.caPrefix ∧ (ToyText.text Fix.caCert).nameOfUri [] = some [] ∧
    (∀ n, p.maxSuffixLength = some n → n < 2 ^ 64) ∧ (∀ c, p.cert = some c → (ToyText.text Fix.caCert).CertReadable c) := by
  refine ⟨⟨[gcomp (bytes! "ndn")], [], bytes! "info", [bytes! "email"], 3600, some 2, [bytes! "pin"], some Fix.caCert⟩,
    by simp, by simp, by simp, ?_, ?_, ?_, ?_⟩
  · unfold TextIO.NameReadable ToyText.text
    decide +kernel
  · unfold ToyText.text
    decide +kernel
  · intro n hn
    cases hn
    decide
  · intro c hc
    cases hc
    constructor
    · show (if Fix.caCert = Fix.caCert then bytes! "CERT" else []) ≠ []
      rw [if_pos rfl]; simp
    · show (if (if Fix.caCert = Fix.caCert then bytes! "CERT" else []) = bytes! "CERT" then some Fix.caCert else none) = some Fix.caCert
      rw [if_pos (if_pos rfl)]

theorem listTree_texts (key : Bytes) (l : List Bytes) (key' : Bytes) :
    (listTree key l).kids.filterMap (fun i => (i.2.child key').map (·.data)) = if key = key' then l else [] := by
  unfold listTree
  show ((l.map _).filterMap _) = _
  rw [List.filterMap_map]
  by_cases h : key = key'
  · subst h
    rw [if_pos rfl]
    have : ((fun i : Bytes × PTree => (i.2.child key).map (·.data)) ∘ (fun s => (([] : Bytes), PTree.node [] [(key, PTree.leaf s)]))) = some := by
      funext s
      simp [PTree.child, PTree.kids, PTree.leaf, PTree.data]
    rw [this, List.filterMap_some]
  · rw [if_neg h, List.filterMap_eq_nil_iff]
    intro s _
    simp [PTree.child, PTree.kids, h]

/-- C73, what is in a saved file: the entries of the list are the profiles, in order; each is what `C73_profile_partial` reads back, and carries the
probe keys and the challenges in order, in lists without a name (therefore not found when it is read). -/
theorem C73_entries_partial (T : TextIO) (hT : T.JsonFaithful) (ps : Profiles) (file : Bytes) (h : saveProfiles T ps = some file) (t : PTree)
    (hr : T.readJson file = some t) :
    t.kids = ps.map (fun p => ([], profileToJson T p)) ∧
    ∀ p ∈ ps, (profileToJson T p).listed (bytes! "probe-parameter-key") = p.probeParameterKeys ∧
      (profileToJson T p).listed (bytes! "challenge") = p.supportedChallenges := by
  have ht : t = profilesTree T ps := by
    rcases hT _ _ h with e | e <;> rw [e] at hr
    · injection hr with hr; exact hr.symm
    · cases hr
  subst ht
  refine ⟨rfl, fun p _ => ?_⟩
  have key : ∀ k, (profileToJson T p).listed k =
      (if bytes! "probe-parameter-key" = k then p.probeParameterKeys else []) ++ (if bytes! "challenge" = k then p.supportedChallenges else []) := by
    intro k
    rw [← listTree_texts, ← listTree_texts]
    unfold PTree.listed profileToJson
    simp only [PTree.kids]
    cases p.maxSuffixLength <;> cases p.cert <;> by_cases h1 : p.probeParameterKeys = [] <;> by_cases h2 : p.supportedChallenges = [] <;>
      simp [h1, h2, listTree, PTree.kids]
  rw [key, key]
  simp

/-- a store with two profiles that have lists -/
example : ∃ (ps : Profiles) (file : Bytes) (t : PTree), ps.length = 2 ∧ (∀ p ∈ ps, p.probeParameterKeys ≠ [] ∧ p.supportedChallenges.length = 2) ∧
    (ToyText.text Fix.caCert).JsonFaithful ∧ saveProfiles (ToyText.text Fix.caCert) ps = some file ∧ (ToyText.text Fix.caCert).readJson file = some t :=
  ⟨[{ caPrefix := [gcomp [97]], probeParameterKeys := [[98]], supportedChallenges := [bytes! "pin", bytes! "email"] },
    { caPrefix := [gcomp [99]], probeParameterKeys := [[98], [97]], supportedChallenges := [bytes! "email", bytes! "pin"] }], _, _, rfl,
   by simp, ToyText.faithful _, rfl, by rw [ToyText.readJson_write]⟩

/-- C73: a file in the layout `load` expects yields the profiles of the list in order; each must have a certificate. -/
theorem C73_load_partial (T : TextIO) (file : Bytes) (ps : Profiles) :
    loadProfiles T file = .ok ps ↔ ∃ t c, T.readJson file = some t ∧ t.child (bytes! "ca-list") = some c ∧
      c.kids.map (fun item => profileFromJson T item.2) = ps.map Res.ok ∧ ∀ p ∈ ps, p.cert ≠ none := by
  have item : ∀ (i : Bytes × PTree) p, storedProfileOfItem T i = .ok p ↔ profileFromJson T i.2 = .ok p ∧ p.cert ≠ none := by
    intro i p
    unfold storedProfileOfItem
    cases h : profileFromJson T i.2 with
    | exc e => simp
    | ub e => simp [bind, Res.bind]
    | ok q =>
      rw [Res.bind_ok]
      split
      · next hc =>
        constructor
        · intro x; cases x
        · rintro ⟨x, y⟩; cases x; exact absurd hc y
      · next hc =>
        constructor
        · intro x; cases x; exact ⟨rfl, hc⟩
        · rintro ⟨x, _⟩; exact x
  have items : ∀ (l : List (Bytes × PTree)) (ps : List CaProfile), l.map (storedProfileOfItem T) = ps.map Res.ok ↔
      l.map (fun item => profileFromJson T item.2) = ps.map Res.ok ∧ ∀ p ∈ ps, p.cert ≠ none := by
    intro l
    induction l with
    | nil => intro ps; cases ps <;> simp
    | cons i l ih =>
      intro ps
      cases ps with
      | nil => simp
      | cons p ps =>
        simp only [List.map_cons, List.cons.injEq, item, ih, List.mem_cons, forall_eq_or_imp]
        constructor
        · rintro ⟨⟨a, b⟩, c, d⟩; exact ⟨⟨a, c⟩, b, d⟩
        · rintro ⟨⟨a, c⟩, b, d⟩; exact ⟨⟨a, b⟩, c, d⟩
  unfold loadProfiles
  cases hr : T.readJson file with
  | none => simp
  | some t =>
    show (if t.kids = [] then .exc .runtime else loadProfilesTree T t) = .ok ps ↔ _
    unfold loadProfilesTree
    cases hc : t.child (bytes! "ca-list") with
    | none =>
      constructor
      · intro x; split at x <;> cases x
      · rintro ⟨t', c, h1, h2, _⟩
        cases h1
        rw [hc] at h2
        cases h2
    | some c =>
      have hk : t.kids ≠ [] := by
        intro e
        unfold PTree.child at hc
        rw [e] at hc
        cases hc
      rw [if_neg hk]
      show forEach (storedProfileOfItem T) c.kids = .ok ps ↔ _
      rw [forEach_ok, items]
      constructor
      · intro x; exact ⟨t, c, rfl, hc, x⟩
      · rintro ⟨t', c', h1, h2, h3⟩
        cases h1
        rw [hc] at h2
        cases h2
        exact h3

/-- a file with one profile loads -/
example : ∃ file ps, loadProfiles (ToyText.text Fix.caCert) file = .ok ps ∧ ps.length = 1 := by
  refine ⟨ToyText.encTree (.node [] [(bytes! "ca-list", .node [] [([], .node [] [(bytes! "ca-prefix", .leaf (bytes! "/ndn")),
    (bytes! "certificate", .leaf (bytes! "CERT"))])])]),
    [⟨[gcomp (bytes! "ndn")], [gcomp (bytes! "ndn"), gcomp (bytes! "CA")], [], [], 86400, none, [], some Fix.caCert⟩], ?_, rfl⟩
  rw [C73_load_partial]
  refine ⟨_, _, ToyText.readJson_write _ _, rfl, ?_, by simp⟩
  simp only [PTree.kids, List.map_cons, List.map_nil, List.cons.injEq, and_true]
  rw [profileFromJson_ok]
  refine ⟨?_, by simp, ⟨[], ?_, by simp⟩, rfl, rfl, rfl, rfl, rfl, ?_⟩
  · unfold ToyText.text; decide +kernel
  · unfold ToyText.text; decide +kernel
  · show some Fix.caCert = if bytes! "CERT" ≠ [] then (if bytes! "CERT" = bytes! "CERT" then some Fix.caCert else none) else none
    rw [if_pos (by simp), if_pos rfl]

/-! ## C74 -/

/-- C74, how a field of a document is read: of several entries with the same key the first one counts; the text of the field is the text of
this entry and the items of the field are its children, in order; if no entry has the key, the text is the default and there are no items. -/
theorem C74_lookup_partial (t : PTree) (key : Bytes) :
    (∀ v, t.child key = some v ↔ t.FirstEntry key v) ∧
    (∀ v, t.FirstEntry key v → t.items key = v.kids ∧ ∀ dflt, t.getStr key dflt = v.data) ∧
    ((∀ e ∈ t.kids, e.1 ≠ key) → t.child key = none ∧ t.items key = [] ∧ ∀ dflt, t.getStr key dflt = dflt) := by
  have h1 : ∀ v, t.child key = some v ↔ t.FirstEntry key v := by
    intro v
    unfold PTree.child PTree.FirstEntry
    rw [Option.map_eq_some_iff]
    constructor
    · rintro ⟨⟨k, w⟩, h, rfl⟩
      rw [List.find?_eq_some_iff_append] at h
      obtain ⟨hk, pre, post, he, hp⟩ := h
      have hk : k = key := by simpa using hk
      subst hk
      exact ⟨pre, post, he, fun e hm => by simpa using hp e hm⟩
    · rintro ⟨pre, post, he, hp⟩
      refine ⟨(key, v), ?_, rfl⟩
      rw [List.find?_eq_some_iff_append]
      exact ⟨by simp, pre, post, he, fun e hm => by simpa using hp e hm⟩
  refine ⟨h1, fun v hv => ?_, fun hn => ?_⟩
  · have := (h1 v).mpr hv
    unfold PTree.items PTree.getStr
    rw [this]
    exact ⟨rfl, fun _ => rfl⟩
  · have : t.child key = none := by
      unfold PTree.child
      rw [Option.map_eq_none_iff, List.find?_eq_none]
      intro e he
      simpa using hn e he
    unfold PTree.items PTree.getStr
    rw [this]
    exact ⟨rfl, rfl, fun _ => rfl⟩

/-- a key given twice -/
example : (PTree.node [] [(bytes! "a", .leaf [1]), (bytes! "b", .node [] [([], .leaf [2]), ([], .leaf [3])]), (bytes! "b", .leaf [4])]).FirstEntry
    (bytes! "b") (.node [] [([], .leaf [2]), ([], .leaf [3])]) :=
  ⟨[(bytes! "a", .leaf [1])], [(bytes! "b", .leaf [4])], rfl, by decide⟩

/-- C74: exactly the documents described by `ConfigOk` are accepted. -/
theorem C74_accepted_iff_partial (T : TextIO) (t : PTree) : (∃ L, loadTree T t = .ok L) ↔ ConfigOk T t := by
  constructor
  · rintro ⟨L, h⟩
    obtain ⟨h1, h2, h3, h4⟩ := (loadTree_ok T t L).mp h
    obtain ⟨a1, a2, ⟨hh, a3, _⟩, a5, a6, _⟩ := (profileFromJson_ok T t _).mp h1
    refine ⟨⟨_, a1, a2⟩, ⟨hh, a3⟩, ?_, ?_, ?_, ?_, ?_⟩
    · intro item hi
      obtain ⟨b, hb⟩ := (forEach_total _ _).mp ⟨_, a5⟩ item hi
      exact ((probeKeyOfItem_ok _ _).mp hb).1
    · intro e
      rw [e] at a6
      exact h2 (Res.ok.inj a6).symm
    · intro item hi
      obtain ⟨b, hb⟩ := (forEach_total _ _).mp ⟨_, a6⟩ item hi
      exact ((challengeOfItem_ok _ _).mp hb).1
    · intro item hi
      exact (redirectionOfItem_total T item).mp ((forEach_total _ _).mp ⟨_, h3⟩ item hi)
    · intro item hi
      exact (assignmentOfItem_total item).mp ((forEach_total _ _).mp ⟨_, h4⟩ item hi)
  · rintro ⟨⟨n, hn, hne⟩, ⟨hh, hhint⟩, hk, hsc, hch, hr, ha⟩
    obtain ⟨keys, hkeys⟩ := (forEach_total probeKeyOfItem (t.items (bytes! "probe-parameters"))).mpr
      (fun a ha => ⟨_, (probeKeyOfItem_ok a _).mpr ⟨hk a ha, rfl⟩⟩)
    obtain ⟨chs, hchs⟩ := (forEach_total challengeOfItem (t.items (bytes! "supported-challenges"))).mpr
      (fun a ha => ⟨_, (challengeOfItem_ok a _).mpr ⟨hch a ha, rfl⟩⟩)
    obtain ⟨rs, hrs⟩ := (forEach_total (redirectionOfItem T) (t.items (bytes! "redirect-to"))).mpr
      (fun a ha => (redirectionOfItem_total T a).mpr (hr a ha))
    obtain ⟨as, has⟩ := (forEach_total assignmentOfItem (t.items (bytes! "name-assignment"))).mpr
      (fun a h => (assignmentOfItem_total a).mpr (ha a h))
    refine ⟨⟨⟨n, if hh = [] then n ++ [gcomp (bytes! "CA")] else hh, t.getStr (bytes! "ca-info") [], keys,
      validityField t, suffixField t, chs, certField T t⟩, rs, as⟩, (loadTree_ok _ _ _).mpr ⟨?_, ?_, hrs, has⟩⟩
    · exact (profileFromJson_ok _ _ _).mpr ⟨hn, hne, ⟨hh, hhint, rfl⟩, hkeys, hchs, rfl, rfl, rfl, rfl⟩
    · intro e
      have := (forEach_get _ _ _ hchs).1
      rw [show chs = [] from e] at this
      exact hsc (List.length_eq_zero_iff.mp this)

/-- C74: the configuration loaded from an accepted document. The CA prefix and the forwarding hint are not empty, the probe
keys are the documented ones in lower case and not empty, there is a supported challenge, each is one of the three
registered ones, the redirections are the listed ones in order, with the certificates listed and policies of the stated
kind, the certificate of a redirection with a stated prefix is for this prefix, the assignment functions are the listed
ones in order, and the CA started from it has at least one. -/
theorem C74_content_partial (T : TextIO) (t : PTree) (L : LoadedConfig) (h : loadTree T t = .ok L) :
    T.nameOfUri (t.getStr (bytes! "ca-prefix") []) = some L.profile.caPrefix ∧ L.profile.caPrefix ≠ [] ∧
    (T.nameOfUri (t.getStr (bytes! "forwarding-hint") []) = some L.profile.forwardingHint ∨
      (T.nameOfUri (t.getStr (bytes! "forwarding-hint") []) = some [] ∧
        L.profile.forwardingHint = L.profile.caPrefix ++ [gcomp (bytes! "CA")])) ∧ L.profile.forwardingHint ≠ [] ∧
    L.profile.caInfo = t.getStr (bytes! "ca-info") [] ∧
    L.profile.probeParameterKeys =
      (t.items (bytes! "probe-parameters")).map (fun i => toLower (i.2.getStr (bytes! "probe-parameter-key") [])) ∧
    (∀ k ∈ L.profile.probeParameterKeys, k ≠ [] ∧ LowerCase k) ∧
    L.profile.supportedChallenges =
      (t.items (bytes! "supported-challenges")).map (fun i => toLower (i.2.getStr (bytes! "challenge") [])) ∧
    L.profile.supportedChallenges ≠ [] ∧
    (∀ c ∈ L.profile.supportedChallenges, c ∈ [bytes! "pin", bytes! "email", bytes! "possession"]) ∧
    L.redirection.map (·.1) = (t.items (bytes! "redirect-to")).map (fun i => T.loadCert (i.2.getStr (bytes! "certificate") [])) ∧
    (∀ (k : Nat) item r, (t.items (bytes! "redirect-to"))[k]? = some item → L.redirection[k]? = some r →
      (item.2.getStr (bytes! "ca-prefix") [] ≠ [] →
        ∃ c, r.1 = some c ∧ T.nameOfUri (item.2.getStr (bytes! "ca-prefix") []) = some (identityOf c.name)) ∧
      ((item.2.getStr (bytes! "policy-type") [] = bytes! "email" ∧ r.2 = .email (item.2.getStr (bytes! "policy-param") [])) ∨
       (item.2.getStr (bytes! "policy-type") [] = bytes! "param" ∧
        mkRedirectionParam (item.2.getStr (bytes! "policy-param") []) = .ok r.2))) ∧
    L.assignments.length = (t.items (bytes! "name-assignment")).length ∧
    (∀ (k : Nat) item a, (t.items (bytes! "name-assignment"))[k]? = some item → L.assignments[k]? = some a →
      (item.1 = bytes! "random" ∧ a = .random) ∨ (item.1 = bytes! "param" ∧ a = .param (nameFormat item.2.data)) ∨
      (item.1 = bytes! "hash" ∧ a = .hash (nameFormat item.2.data)) ∨ (item.1 = bytes! "email" ∧ a = .email (nameFormat item.2.data))) ∧
    moduleAssignments L ≠ [] ∧ (L.assignments ≠ [] → moduleAssignments L = L.assignments) := by
  obtain ⟨h1, h2, h3, h4⟩ := (loadTree_ok T t L).mp h
  obtain ⟨a1, a2, ⟨hh, a3, a4⟩, a5, a6, a7, _⟩ := (profileFromJson_ok T t _).mp h1
  have k1 : L.profile.probeParameterKeys = _ := forEach_map probeKeyOfItem
    (fun i => toLower (i.2.getStr (bytes! "probe-parameter-key") [])) _ _ (fun a b hb => ((probeKeyOfItem_ok _ _).mp hb).2) a5
  have k2 : L.profile.supportedChallenges = _ := forEach_map challengeOfItem
    (fun i => toLower (i.2.getStr (bytes! "challenge") [])) _ _ (fun a b hb => ((challengeOfItem_ok _ _).mp hb).2) a6
  have hhint : L.profile.forwardingHint ≠ [] := by
    rw [a4]
    split
    · simp
    · next e => exact e
  refine ⟨a1, a2, ?_, hhint, a7, k1, ?_, k2, h2, ?_, ?_, ?_, (forEach_get _ _ _ h4).1.symm, ?_, ?_, ?_⟩
  · by_cases e : hh = []
    · rw [if_pos e] at a4
      exact .inr ⟨by rw [a3, e], a4⟩
    · rw [if_neg e] at a4
      exact .inl (by rw [a3, a4])
  · intro k hk
    rw [k1] at hk
    obtain ⟨i, hi, rfl⟩ := List.mem_map.mp hk
    obtain ⟨b, hb⟩ := (forEach_total _ _).mp ⟨_, a5⟩ i hi
    exact ⟨fun e => ((probeKeyOfItem_ok _ _).mp hb).1 ((toLower_nil _).mp e), toLower_lower _⟩
  · intro c hc
    rw [k2] at hc
    obtain ⟨i, hi, rfl⟩ := List.mem_map.mp hc
    obtain ⟨b, hb⟩ := (forEach_total _ _).mp ⟨_, a6⟩ i hi
    exact ((challengeOfItem_ok _ _).mp hb).1
  · have hg := (forEach_ok _ _ _).mp h3
    apply List.ext_getElem?
    intro k
    rw [List.getElem?_map, List.getElem?_map]
    have hlen := (forEach_get _ _ _ h3).1
    cases e1 : (t.items (bytes! "redirect-to"))[k]? with
    | none =>
      have : (L.redirection)[k]? = none := by
        rw [List.getElem?_eq_none_iff] at e1 ⊢
        omega
      rw [this]; rfl
    | some item =>
      cases e2 : L.redirection[k]? with
      | none =>
        rw [List.getElem?_eq_none_iff] at e2
        have := (List.getElem?_eq_some_iff.mp e1).1
        omega
      | some r =>
        have := (forEach_get _ _ _ h3).2 k item r e1 e2
        simp only [Option.map_some, Option.some.injEq]
        exact ((redirectionOfItem_ok T item r).mp this).2.2.1
  · intro k item r e1 e2
    have := (forEach_get _ _ _ h3).2 k item r e1 e2
    obtain ⟨b1, b2, b3, b4⟩ := (redirectionOfItem_ok T item r).mp this
    refine ⟨?_, (createPolicy_ok _ _ _).mp b4⟩
    intro hne
    rcases (checkRedirectPrefix_ok _ _ _).mp b2 with e | ⟨c, hc, hn⟩
    · exact absurd e hne
    · exact ⟨c, by rw [b3, hc], hn⟩
  · intro k item a e1 e2
    exact assignmentOfItem_ok item a ((forEach_get _ _ _ h4).2 k item a e1 e2)
  · unfold moduleAssignments
    split
    · simp
    · next e => exact e
  · intro e
    unfold moduleAssignments
    rw [if_neg e]

/-- C74: the configuration a running CA works with. It has the profile and all the redirections of the file, in order; the name assignment functions of the
file, or the random one if there is none. It exists (no null pointer in it) exactly if every redirection has a certificate. -/
theorem C74_module_partial (L : LoadedConfig) (cfg : CaConfig) :
    L.toCaConfig = some cfg ↔ cfg.profile = L.profile ∧ cfg.redirection.map (fun r => (some r.1, r.2)) = L.redirection ∧
      (L.assignments ≠ [] → cfg.assignments = L.assignments) ∧ (L.assignments = [] → cfg.assignments = [.random]) := by
  have hm : ∀ (l : List (Option Cert × Redirection)) (r : List (Cert × Redirection)),
      l.mapM (fun e => e.1.map (fun c => (c, e.2))) = some r ↔ r.map (fun r => (some r.1, r.2)) = l := by
    intro l
    induction l with
    | nil => intro r; cases r <;> simp
    | cons e l ih =>
      intro r
      rw [List.mapM_cons]
      obtain ⟨c, q⟩ := e
      cases c with
      | none => cases r <;> simp
      | some c =>
        cases hl : l.mapM (fun e => e.1.map (fun c => (c, e.2))) with
        | none =>
          have hn : ∀ r' : List (Cert × Redirection), r'.map (fun r : Cert × Redirection => (some r.1, r.2)) ≠ l := fun r' h => by
            have := (ih r').mpr h
            rw [hl] at this; cases this
          cases r with
          | nil => simp
          | cons x r => simp [hn r]
        | some l' =>
          have := (ih l').mp hl
          cases r with
          | nil => simp
          | cons x r =>
            have h2 : r.map (fun r : Cert × Redirection => (some r.1, r.2)) = l ↔ l' = r := by
              rw [← ih r, hl]; simp
            obtain ⟨x1, x2⟩ := x
            simp [h2]
            intro _
            constructor
            · rintro ⟨rfl, rfl⟩; simp
            · rintro ⟨rfl, rfl⟩; simp
  unfold LoadedConfig.toCaConfig moduleAssignments
  rw [Option.map_eq_some_iff]
  constructor
  · rintro ⟨r, hr, rfl⟩
    refine ⟨rfl, (hm _ _).mp hr, ?_, ?_⟩ <;> intro h <;> simp [h]
  · obtain ⟨p, r, a⟩ := cfg
    rintro ⟨h1, h2, h3, h4⟩
    refine ⟨r, (hm _ _).mpr h2, ?_⟩
    dsimp only at h1 h3 h4
    subst h1
    split
    · rename_i h; rw [h4 h]
    · rename_i h; rw [h3 h]

/-- a configuration with two redirections -/
example : ∃ (L : LoadedConfig) (cfg : CaConfig), L.toCaConfig = some cfg ∧ L.redirection.length = 2 :=
  ⟨⟨Fix.profile, [(some Fix.caCert, .email [97]), (some Fix.caCert, .email [98])], []⟩, _, rfl, rfl⟩

/-- C74: the only undefined behaviour while loading: a redirection states a prefix but its certificate text is not a
certificate. Documents without such an item load or are refused with an exception. -/
theorem C74_defined_partial (T : TextIO) (t : PTree)
    (h : ∀ item ∈ t.items (bytes! "redirect-to"), item.2.getStr (bytes! "ca-prefix") [] ≠ [] →
      T.loadCert (item.2.getStr (bytes! "certificate") []) ≠ none) (u : Ub) : loadTree T t ≠ .ub u := by
  unfold loadTree
  split
  · simp
  · cases h1 : profileFromJson T t with
    | exc e => simp
    | ub e => exact absurd h1 (profileFromJson_not_ub T t e)
    | ok p =>
      rw [Res.bind_ok]
      split
      · simp
      · cases h3 : forEach (redirectionOfItem T) (t.items (bytes! "redirect-to")) with
        | exc e => simp
        | ub e =>
          refine absurd h3 (forEach_not_ub _ _ ?_ e)
          intro item hi v
          unfold redirectionOfItem
          dsimp only
          split
          · simp
          · cases hc : checkRedirectPrefix T (item.2.getStr (bytes! "ca-prefix") [])
              (T.loadCert (item.2.getStr (bytes! "certificate") [])) with
            | exc e => simp
            | ub e =>
              exfalso
              unfold checkRedirectPrefix at hc
              split at hc
              · cases hc
              · next hne =>
                have := h item hi hne
                cases hl : T.loadCert (item.2.getStr (bytes! "certificate") []) with
                | none => exact this hl
                | some c =>
                  rw [hl] at hc
                  cases hn : T.nameOfUri (item.2.getStr (bytes! "ca-prefix") []) with
                  | none => rw [hn] at hc; simp [Res.ofOption] at hc
                  | some n =>
                    rw [hn] at hc
                    simp only [Res.ofOption, Res.bind_ok] at hc
                    split at hc <;> cases hc
            | ok _ =>
              rw [Res.bind_ok]
              split
              · simp
              · cases hp : createPolicy (item.2.getStr (bytes! "policy-type") []) (item.2.getStr (bytes! "policy-param") []) with
                | exc e => simp
                | ub e =>
                  exfalso
                  unfold createPolicy mkRedirectionEmail mkRedirectionParam at hp
                  have key : ∀ (l : List Bytes) m w, l.foldlM paramFormatStep m ≠ .ub w := by
                    intro l
                    induction l with
                    | nil => intro m w x; cases x
                    | cons a l ih =>
                      intro m w
                      rw [List.foldlM_cons]
                      cases hs : paramFormatStep m a with
                      | exc e => simp
                      | ub e => unfold paramFormatStep at hs; split at hs <;> cases hs
                      | ok m' => rw [Res.bind_ok]; exact ih m' w
                  split at hp
                  · cases hp
                  · split at hp
                    · split at hp
                      · cases hp
                      · cases hf : (splitAll 38 (item.2.getStr (bytes! "policy-param") [])).foldlM paramFormatStep [] with
                        | exc e => rw [hf] at hp; cases hp
                        | ub e => exact key _ _ _ hf
                        | ok m => rw [hf] at hp; cases hp
                    · cases hp
                | ok p => cases p <;> simp
        | ok rs =>
          rw [Res.bind_ok]
          cases h4 : forEach assignmentOfItem (t.items (bytes! "name-assignment")) with
          | exc e => simp
          | ub e => exact absurd h4 (forEach_not_ub _ _ (fun a _ => assignmentOfItem_not_ub a) e)
          | ok as => simp

/-- an item of "redirect-to" with these prefix and certificate texts -/
def exItem (ca cert : Bytes) : PTree :=
  .node [] [(bytes! "ca-prefix", .leaf ca), (bytes! "certificate", .leaf cert),
      (bytes! "policy-type", .leaf (bytes! "param")), (bytes! "policy-param", .leaf (bytes! "group=x"))]

/-- a document with all sections; `ca` and `cert` are the prefix and certificate texts of its redirection -/
def exDoc (ca cert : Bytes) : PTree :=
  .node [] [
    (bytes! "ca-prefix", .leaf (bytes! "/ndn")),
    (bytes! "max-suffix-length", .leaf (bytes! "3")),
    (bytes! "probe-parameters", .node [] [([], .node [] [(bytes! "probe-parameter-key", .leaf (bytes! "Email"))])]),
    (bytes! "supported-challenges", .node [] [([], .node [] [(bytes! "challenge", .leaf (bytes! "PIN"))])]),
    (bytes! "redirect-to", .node [] [([], exItem ca cert)]),
    (bytes! "name-assignment", .node [] [(bytes! "param", .leaf (bytes! "/email"))])]

/-- C74 is false: if the text of a redirection certificate is not a certificate, loading dereferences a null pointer when
the item states a prefix, and otherwise accepts the document and keeps the null pointer as the CA to redirect to. -/
theorem C74_false (T : TextIO) (n : Name) (hn : n ≠ []) (h1 : T.nameOfUri (bytes! "/ndn") = some n) (h2 : T.nameOfUri [] = some [])
    (bad : Bytes) (hb : bad ≠ []) (hbad : T.loadCert bad = none) :
    loadTree T (exDoc (bytes! "/ndn") bad) = .ub .nullDeref ∧
    ∃ L, loadTree T (exDoc [] bad) = .ok L ∧ ∃ r ∈ L.redirection, r.1 = none := by
  have hp : ∀ ca, profileFromJson T (exDoc ca bad) = .ok
      ⟨n, n ++ [gcomp (bytes! "CA")], [], [bytes! "email"], 86400, some 3, [bytes! "pin"], none⟩ := by
    intro ca
    rw [profileFromJson_ok]
    refine ⟨h1, hn, ⟨[], h2, by simp⟩, rfl, rfl, rfl, rfl, ?_, rfl⟩
    show some 3 = readSize (bytes! "3")
    decide +kernel
  constructor
  · unfold loadTree
    rw [if_neg (by simp [exDoc, PTree.kids]), hp, Res.bind_ok, if_neg (by simp)]
    have : forEach (redirectionOfItem T) ((exDoc (bytes! "/ndn") bad).items (bytes! "redirect-to")) = .ub .nullDeref := by
      have hc : checkRedirectPrefix T (bytes! "/ndn") (T.loadCert bad) = .ub .nullDeref := by
        unfold checkRedirectPrefix
        rw [if_neg (by simp), h1, hbad]
        rfl
      have hi : redirectionOfItem T ([], exItem (bytes! "/ndn") bad) = .ub .nullDeref := by
        unfold redirectionOfItem
        show (if bad = [] then _ else (checkRedirectPrefix T (bytes! "/ndn") (T.loadCert bad) >>= _)) = _
        rw [if_neg hb, hc]
        rfl
      show forEach (redirectionOfItem T) [([], exItem (bytes! "/ndn") bad)] = _
      unfold forEach
      rw [hi]
      rfl
    rw [this]
    rfl
  · refine ⟨⟨_, [(none, .param [(bytes! "group", bytes! "x")])], [.param [bytes! "email"]]⟩, (loadTree_ok _ _ _).mpr ⟨hp [], by simp, ?_, rfl⟩,
      (none, .param [(bytes! "group", bytes! "x")]), List.mem_singleton.mpr rfl, rfl⟩
    show forEach (redirectionOfItem T) [([], exItem [] bad)] = _
    rw [forEach_ok]
    simp only [List.map_cons, List.map_nil, List.cons.injEq, and_true]
    rw [redirectionOfItem_ok]
    exact ⟨hb, rfl, hbad.symm, rfl⟩

/-- such text operations exist -/
example : (ToyText.text Fix.caCert).nameOfUri (bytes! "/ndn") = some [gcomp (bytes! "ndn")] ∧
    (ToyText.text Fix.caCert).nameOfUri [] = some [] ∧ (ToyText.text Fix.caCert).loadCert (bytes! "oops") = none := by
  unfold ToyText.text
  decide +kernel

/-- and with a good certificate the document is accepted -/
example : ∃ L, loadTree (ToyText.text Fix.caCert) (exDoc [] (bytes! "CERT")) = .ok L := by
  rw [C74_accepted_iff_partial]
  refine ⟨⟨_, rfl, by decide +kernel⟩, ⟨_, rfl⟩, ?_, by decide +kernel, ?_, ?_, ?_⟩
  · intro item hi
    cases List.mem_singleton.mp hi
    exact (by simp : (bytes! "Email" : Bytes) ≠ [])
  · intro item hi
    cases List.mem_singleton.mp hi
    exact (by decide +kernel : toLower (bytes! "PIN") ∈ [bytes! "pin", bytes! "email", bytes! "possession"])
  · intro item hi
    cases List.mem_singleton.mp hi
    exact ⟨(by simp : (bytes! "CERT" : Bytes) ≠ []), .inl rfl,
      .inr ⟨rfl, (mkRedirectionParam_ok _).mp ⟨.param [(bytes! "group", bytes! "x")], rfl⟩⟩⟩
  · intro item hi
    cases List.mem_singleton.mp hi
    simp

/-- C74: the limits are read leniently. The maximum suffix length is the number given, if it is a number that fits into 64 bits;
with a minus sign it is counted down from 2^64. Anything else means no limit. The maximum validity period is the number of seconds
given, if it fits into an `int`; anything else means one day. -/
theorem C74_lenient_partial (T : TextIO) (t : PTree) (L : LoadedConfig) (h : loadTree T t = .ok L) :
    (∀ n, L.profile.maxSuffixLength = some n ↔ ∃ c minus m, t.child (bytes! "max-suffix-length") = some c ∧ Numeral c.data minus m ∧ m < 2 ^ 64 ∧
      n = if minus ∧ m ≠ 0 then 2 ^ 64 - m else m) ∧
    (∀ c minus m, t.child (bytes! "max-validity-period") = some c → Numeral c.data minus m → -(2 ^ 31) ≤ (if minus then -(m : Int) else m) →
      (if minus then -(m : Int) else m) < 2 ^ 31 → L.profile.maxValidityPeriod = if minus then -(m : Int) else m) ∧
    ((¬ ∃ c minus m, t.child (bytes! "max-validity-period") = some c ∧ Numeral c.data minus m ∧ -(2 ^ 31) ≤ (if minus then -(m : Int) else m) ∧
      (if minus then -(m : Int) else m) < 2 ^ 31) → L.profile.maxValidityPeriod = 86400) := by
  obtain ⟨h1, _⟩ := (loadTree_ok T t L).mp h
  obtain ⟨_, _, _, _, _, _, a8, a9, _⟩ := (profileFromJson_ok T t _).mp h1
  have hint : ∀ s v, readInt s = some v ↔ ∃ minus m, Numeral s minus m ∧ -(2 ^ 31) ≤ (if minus then -(m : Int) else m) ∧
      (if minus then -(m : Int) else m) < 2 ^ 31 ∧ v = if minus then -(m : Int) else m := by
    intro s v
    unfold readInt
    cases hr : readNumber s with
    | none =>
      refine ⟨fun e => (by cases e), fun ⟨b, m, e, _⟩ => ?_⟩
      rw [(readNumber_iff _ _ _).mpr e] at hr
      cases hr
    | some x =>
      obtain ⟨b, m⟩ := x
      have huniq : ∀ b' m', Numeral s b' m' → b' = b ∧ m' = m := by
        intro b' m' e
        rw [(readNumber_iff _ _ _).mpr e] at hr
        cases hr
        exact ⟨rfl, rfl⟩
      have hnum := (readNumber_iff _ _ _).mp hr
      cases b
      · dsimp only
        constructor
        · intro e
          split at e
          · next hlt =>
            cases e
            exact ⟨false, m, hnum, by simp only [Bool.false_eq_true, if_false]; omega, by simp only [Bool.false_eq_true, if_false]; omega, rfl⟩
          · cases e
        · rintro ⟨b', m', e, _, h2, h3⟩
          obtain ⟨rfl, rfl⟩ := huniq b' m' e
          simp only [Bool.false_eq_true, if_false] at h2 h3
          rw [if_pos (by omega), h3]
      · dsimp only
        constructor
        · intro e
          split at e
          · next hlt =>
            cases e
            exact ⟨true, m, hnum, by simp only [if_true]; omega, by simp only [if_true]; omega, rfl⟩
          · cases e
        · rintro ⟨b', m', e, h2, _, h3⟩
          obtain ⟨rfl, rfl⟩ := huniq b' m' e
          simp only [if_true] at h2 h3
          rw [if_pos (by omega), h3]
  have hv : L.profile.maxValidityPeriod = ((t.child (bytes! "max-validity-period")).bind (fun c => readInt c.data)).getD 86400 := by
    rw [a8]
    unfold validityField
    cases (t.child (bytes! "max-validity-period")).bind (fun c => readInt c.data) <;> rfl
  refine ⟨?_, ?_, ?_⟩
  · intro n
    rw [a9]
    unfold suffixField readSize
    rw [Option.bind_eq_some_iff]
    constructor
    · rintro ⟨c, hc, e⟩
      split at e
      · next m hm =>
        split at e
        · next hlt => cases e; exact ⟨c, false, _, hc, (readNumber_iff _ _ _).mp hm, hlt, by simp⟩
        · cases e
      · next m hm =>
        split at e
        · next hlt =>
          cases e
          refine ⟨c, true, m, hc, (readNumber_iff _ _ _).mp hm, hlt, ?_⟩
          by_cases h0 : m = 0
          · subst h0; simp
          · rw [if_pos ⟨rfl, h0⟩, Nat.mod_eq_of_lt (by omega)]
        · cases e
      · cases e
    · rintro ⟨c, b, m, hc, hm, hlt, rfl⟩
      refine ⟨c, hc, ?_⟩
      rw [(readNumber_iff _ _ _).mpr hm]
      cases b
      · simp [hlt]
      · dsimp only
        rw [if_pos hlt]
        by_cases h0 : m = 0
        · subst h0; simp
        · rw [if_pos ⟨rfl, h0⟩, Nat.mod_eq_of_lt (by omega)]
  · intro c b m hc hm h2 h3
    rw [hv, hc, Option.bind_some, (hint _ _).mpr ⟨b, m, hm, h2, h3, rfl⟩]
    rfl
  · intro hno
    rw [hv]
    cases hc : (t.child (bytes! "max-validity-period")).bind (fun c => readInt c.data) with
    | none => rfl
    | some v =>
      rw [Option.bind_eq_some_iff] at hc
      obtain ⟨c, h3, h4⟩ := hc
      obtain ⟨b, m, g1, g2, g3, _⟩ := (hint _ _).mp h4
      exact absurd ⟨c, b, m, h3, g1, g2, g3⟩ hno

example : readSize (bytes! "two") = none ∧ readSize (bytes! "-1") = some (2 ^ 64 - 1) ∧ readSize (bytes! " 3 ") = some 3 ∧
    readInt (bytes! "3000000000") = none ∧ readInt (bytes! "-5") = some (-5) ∧ readInt (bytes! "3600s") = none := by decide +kernel

example : Numeral (bytes! " 3 ") false 3 ∧ Numeral (bytes! "-1") true 1 ∧ ∀ b n, ¬ Numeral (bytes! "two") b n :=
  ⟨(readNumber_iff _ _ _).mp (by decide +kernel), (readNumber_iff _ _ _).mp (by decide +kernel),
    fun b n h => by
      have := (readNumber_iff _ _ _).mpr h
      rw [show readNumber (bytes! "two") = none from by decide +kernel] at this
      cases this⟩

theorem validity_mono {a now : Int} {x y : Int} (h : a ≤ now + x * 1000000000) (hxy : x ≤ y) : a ≤ now + y * 1000000000 := by
  omega

/-- a limit for validity periods that is written as a number is kept: one that does not fit `int` is read as one day, which is less -/
theorem validity_limit_le (T : TextIO) (t : PTree) (L : LoadedConfig) (h : loadTree T t = .ok L) {c : PTree}
    (hc : t.child (bytes! "max-validity-period") = some c) {v : Nat} (hv : Numeral c.data false v) : L.profile.maxValidityPeriod ≤ v := by
  obtain ⟨_, h2, h3⟩ := C74_lenient_partial T t L h
  by_cases hlt : v < 2 ^ 31
  · have := h2 c false v hc hv (by simp only [Bool.false_eq_true, if_false]; omega) (by simp only [Bool.false_eq_true, if_false]; omega)
    rw [this]
    simp
  · have : L.profile.maxValidityPeriod = 86400 := by
      refine h3 ?_
      rintro ⟨c', minus, m, hc', hm, _, hlt'⟩
      rw [hc] at hc'
      cases hc'
      rw [← readNumber_iff] at hm hv
      rw [hv] at hm
      cases hm
      simp only [Bool.false_eq_true, if_false] at hlt'
      omega
    rw [this]
    omega

end Ndncert.Props
