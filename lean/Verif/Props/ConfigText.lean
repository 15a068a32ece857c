import Verif.Lemmas.JsonGrammar
import Verif.Lemmas.UriRead
import Verif.Props.Config

/-! # Configuration files mean what their text says (C105) -/

namespace Ndncert.Props

/-- **C105** The configuration readers accept exactly the JSON documents, and get the tree the document stands for. -/
theorem C105_json (text : Bytes) (t : PTree) : readJsonText text = some t ↔ JsonDocument text t := readJsonText_iff text t

/-- **C105** A text stands for at most one tree. -/
theorem C105_one_meaning {text : Bytes} {t t' : PTree} (h : JsonDocument text t) (h' : JsonDocument text t') : t = t' := by
  rw [← readJsonText_iff] at h h'
  rw [h] at h'
  exact Option.some.inj h'

-- a document with a byte order mark, white space, escapes, a surrogate pair, a number and a word
example : JsonDocument (([0xEF, 0xBB, 0xBF] : Bytes) ++ bytes! " {\"a\" : [ -1.5e+3,true],\n\"\\uD83D\\uDE00\":\"x\\ty\"} ")
    (.node [] [(bytes! "a", .node [] [([], .node (bytes! "-1.5e+3") []), ([], .node (bytes! "true") [])]),
      ([0xF0, 0x9F, 0x98, 0x80], .node (bytes! "x\ty") [])]) := by
  rw [← C105_json]
  rfl
-- texts that are no documents: a comma too many, a leading zero, half a pair, something after the end
example : (∀ t, ¬ JsonDocument (bytes! "[1,]") t) ∧ (∀ t, ¬ JsonDocument (bytes! "[01]") t) ∧ (∀ t, ¬ JsonDocument (bytes! "\"\\uD83D\"") t) ∧
    (∀ t, ¬ JsonDocument (bytes! "{} {}") t) := by
  refine ⟨fun t => ?_, fun t => ?_, fun t => ?_, fun t => ?_⟩ <;> (rw [← C105_json]; exact fun h => nomatch h)

/-- **C105** A name written as a URI is read as this name. -/
theorem C105_uri {n : Name} (h : ∀ c ∈ n, CompValid c) : readUri (nameUri n) = some n := readUri_nameUri h

/-- **C105** A name typed as `/a/b/c` is read as the generic components typed, also with a slash at the end or `ndn:` before it. Colons, spaces and
percent signs that begin no escape stand for themselves. -/
theorem C105_typed {ps : List Bytes} (hne : ps ≠ []) (h : ∀ p ∈ ps, PlainPiece p) :
    readUri (ps.flatMap (fun p => 47 :: p)) = some (ps.map gcomp) ∧
    readUri (ps.flatMap (fun p => 47 :: p) ++ bytes! "/") = some (ps.map gcomp) ∧
    readUri (bytes! "ndn:" ++ ps.flatMap (fun p => 47 :: p)) = some (ps.map gcomp) := readUri_plain hne h

/-- such components: `a:b`, `100%`, `%4x` -/
example : ∀ p ∈ [bytes! "a:b", bytes! "100%", bytes! "%4x"], PlainPiece p := by
  have key : ∀ p : Bytes, (47 : UInt8) ∉ p → (61 : UInt8) ∉ p → (∃ b ∈ p, b ≠ 46) →
      (∀ a ∈ List.range 4, ∀ h l, (p.drop a).take 3 = [37, h, l] → ¬ (IsHexDigit h ∧ IsHexDigit l)) → p.length ≤ 4 → PlainPiece p := by
    intro p h1 h2 h3 h4 h5
    refine ⟨h1, h2, ?_, h3⟩
    rintro a h l b rfl
    exact h4 a.length (by simp at h5 ⊢; omega) h l (by simp)
  intro p hp
  simp only [List.mem_cons, List.not_mem_nil, or_false] at hp
  rcases hp with rfl | rfl | rfl
  · exact key _ (by decide) (by decide) (by decide) (by intro a ha h l; revert a; simp [List.range, List.range.loop]) (by decide)
  · exact key _ (by decide) (by decide) (by decide) (by intro a ha h l; revert a; simp [List.range, List.range.loop]) (by decide)
  · exact key _ (by decide) (by decide) (by decide) (by
      intro a ha h l; revert a; simp [List.range, List.range.loop]; rintro rfl rfl; unfold IsHexDigit; decide) (by decide)

-- a name with special characters, periods only, an empty component and a typed one; and other ways to write a name
example : nameUri [gcomp (bytes! "a/b c"), gcomp (bytes! ".."), gcomp [], ⟨54, [0, 7]⟩] = bytes! "/a%2Fb%20c/...../.../54=%00%07" ∧
    readUri (bytes! "ndn:/a%2fb/8=c/") = some [gcomp (bytes! "a/b"), gcomp (bytes! "c")] ∧ readUri [] = some [] ∧
    readUri (bytes! "//host/a") = some [gcomp (bytes! "a")] ∧ readUri (bytes! "/a//b") = none ∧ readUri (bytes! "/a/..") = none := by decide +kernel

theorem find_perm {α β : Type} [BEq α] [LawfulBEq α] {l l' : List (α × β)} (hp : l.Perm l') (hd : (l.map Prod.fst).Nodup) (key : α) :
    l.find? (fun e => e.1 == key) = l'.find? (fun e => e.1 == key) := by
  have hd' : (l'.map Prod.fst).Nodup := (hp.map Prod.fst).nodup_iff.mp hd
  have uniq : ∀ {m : List (α × β)}, (m.map Prod.fst).Nodup → ∀ e ∈ m, m.find? (fun x => x.1 == e.1) = some e := by
    intro m hm e he
    induction m with
    | nil => cases he
    | cons a m ih =>
      rw [List.map_cons, List.nodup_cons] at hm
      rw [List.mem_cons] at he
      rcases he with rfl | he
      · rw [List.find?_cons_of_pos (by simp)]
      · rw [List.find?_cons_of_neg, ih hm.2 he]
        intro hb
        exact hm.1 (List.mem_map.mpr ⟨e, he, (beq_iff_eq.mp hb).symm⟩)
  cases h : l.find? (fun e => e.1 == key) with
  | some e =>
    have h1 := List.mem_of_find?_eq_some h
    have h2 : (e.1 == key) = true := by have := List.find?_some h; exact this
    rw [← beq_iff_eq.mp h2]
    exact (uniq hd' e (hp.mem_iff.mp h1)).symm
  | none =>
    symm
    rw [List.find?_eq_none] at h ⊢
    exact fun x hx => h x (hp.mem_iff.mpr hx)

theorem same_child {t t' : PTree} (h : SameMembers t t') (key : Bytes) : t.child key = t'.child key := by
  unfold PTree.child
  rw [find_perm h.2.1 h.2.2]

theorem same_profile (T : TextIO) {t t' : PTree} (h : SameMembers t t') : profileFromJson T t = profileFromJson T t' := by
  unfold profileFromJson nameField certField validityField suffixField PTree.items PTree.getStr
  simp only [same_child h]

theorem same_loadTree (T : TextIO) {t t' : PTree} (h : SameMembers t t') : loadTree T t = loadTree T t' := by
  have hk : t.kids = [] ↔ t'.kids = [] := by
    have := h.2.1.length_eq
    rw [← List.length_eq_zero_iff, ← List.length_eq_zero_iff, this]
  unfold loadTree PTree.items
  rw [same_profile T h, same_child h, same_child h]
  by_cases h0 : t.kids = []
  · rw [if_pos h0, if_pos (hk.mp h0)]
  · rw [if_neg h0, if_neg (fun h' => h0 (hk.mpr h'))]

theorem load_document (load : Bytes → Option Cert) (save : Cert → Bytes) {f : Bytes} {u : PTree} (h : JsonDocument f u) :
    loadConfig (libText load save) f = loadTree (libText load save) u := by
  unfold loadConfig
  rw [show (libText load save).readJson f = some u from (readJsonText_iff _ _).mpr h]

/-- **C105** Two configuration files with the same members, in whatever order and layout, configure the CA in the same way; a file that is no JSON
document is refused. -/
theorem C105_config (load : Bytes → Option Cert) (save : Cert → Bytes) (file : Bytes) :
    (∀ t file' t', JsonDocument file t → JsonDocument file' t' → SameMembers t t' →
      loadConfig (libText load save) file = loadConfig (libText load save) file') ∧
    ((∀ t, ¬ JsonDocument file t) → loadConfig (libText load save) file = .exc .runtime) := by
  constructor
  · intro t file' t' h h' hs
    rw [load_document load save h, load_document load save h', same_loadTree _ hs]
  · intro h
    unfold loadConfig
    cases hr : (libText load save).readJson file with
    | none => rfl
    | some u => exact absurd ((readJsonText_iff _ _).mp hr) (h u)

/-- the sample configuration of the repository, with the redirection left out (ca.conf.sample) -/
def sampleConf : Bytes := bytes! "{\n  \"ca-prefix\": \"/example\",\n  \"ca-info\": \"An example NDNCERT CA\",\n  \"max-validity-period\": \"1296000\",\n  \"max-suffix-length\": \"2\",\n  \"probe-parameters\": [\n    {\n      \"probe-parameter-key\": \"email\"\n    }\n  ],\n  \"supported-challenges\": [\n    {\n      \"challenge\": \"pin\"\n    },\n    {\n      \"challenge\": \"email\"\n    }\n  ]\n}\n"

/-- the same in the opposite order, and with another layout -/
def sampleConf' : Bytes := bytes! "{\"supported-challenges\":[{\"challenge\":\"pin\"},{\"challenge\":\"email\"}],\"probe-parameters\":[{\"probe-parameter-key\":\"email\"}],\"max-suffix-length\":2,\"max-validity-period\":1296000,\"ca-info\":\"An example NDNCERT CA\",\"ca-prefix\":\"/example\"}"

/-- what they say -/
def sampleMembers : List (Bytes × PTree) :=
  [(bytes! "ca-prefix", .leaf (bytes! "/example")), (bytes! "ca-info", .leaf (bytes! "An example NDNCERT CA")),
   (bytes! "max-validity-period", .leaf (bytes! "1296000")), (bytes! "max-suffix-length", .leaf (bytes! "2")),
   (bytes! "probe-parameters", .node [] [([], .node [] [(bytes! "probe-parameter-key", .leaf (bytes! "email"))])]),
   (bytes! "supported-challenges", .node [] [([], .node [] [(bytes! "challenge", .leaf (bytes! "pin"))]),
     ([], .node [] [(bytes! "challenge", .leaf (bytes! "email"))])])]

theorem document_of {text : Bytes} {t : PTree} (h : (readJsonText text).map ToyText.encTree = some (ToyText.encTree t)) : JsonDocument text t := by
  rw [Option.map_eq_some_iff] at h
  obtain ⟨u, h1, h2⟩ := h
  rw [(ToyText.encTree_inj u t [] [] (by rw [h2])).1] at h1
  exact (C105_json _ _).mp h1

/-- the CA is configured as the sample says -/
theorem sampleConf_loads (load : Bytes → Option Cert) (save : Cert → Bytes) : loadConfig (libText load save) sampleConf = .ok
      ⟨⟨[gcomp (bytes! "example")], [gcomp (bytes! "example"), gcomp (bytes! "CA")], bytes! "An example NDNCERT CA", [bytes! "email"], 1296000, some 2,
        [bytes! "pin", bytes! "email"], none⟩, [], []⟩ := by
  have h1 : JsonDocument sampleConf (.node [] sampleMembers) := document_of (by decide +kernel)
  rw [load_document load save h1]
  rfl

-- the hypotheses are met by two files, and the CA is configured as they say
example : (∃ t t', JsonDocument sampleConf t ∧ JsonDocument sampleConf' t' ∧ SameMembers t t') ∧
    ∀ load save, loadConfig (libText load save) sampleConf = .ok
      ⟨⟨[gcomp (bytes! "example")], [gcomp (bytes! "example"), gcomp (bytes! "CA")], bytes! "An example NDNCERT CA", [bytes! "email"], 1296000, some 2,
        [bytes! "pin", bytes! "email"], none⟩, [], []⟩ := by
  have h1 : JsonDocument sampleConf (.node [] sampleMembers) := document_of (by decide +kernel)
  have h2 : JsonDocument sampleConf' (.node [] sampleMembers.reverse) := document_of (by decide +kernel)
  refine ⟨⟨_, _, h1, h2, rfl, (List.reverse_perm _).symm, by decide +kernel⟩, fun load save => ?_⟩
  rw [load_document load save h1]
  rfl

/-- **C105** A profile written to a file and read again has the same prefix, info, suffix limit and certificate, and the same validity limit if it fits an
`int`; what else was in it is lost (C73). Here the file is a text, and it is only asked that the texts in it are UTF-8 and that the certificate can be
saved and loaded again. -/
theorem C105_profile (load : Bytes → Option Cert) (save : Cert → Bytes) (p : CaProfile) (hn : ∀ c ∈ p.caPrefix, CompValid c) (hp : p.caPrefix ≠ [])
    (hs : ∀ n, p.maxSuffixLength = some n → n < 2 ^ 64)
    (hc : ∀ c, p.cert = some c → save c ≠ [] ∧ load (save c) = some c ∧ Utf8 (save c))
    (hi : Utf8 p.caInfo) (hk : ∀ k ∈ p.probeParameterKeys, Utf8 k) (hl : ∀ k ∈ p.supportedChallenges, Utf8 k) :
    ∃ text t, writeJsonText (profileToJson (libText load save) p) = some text ∧ JsonDocument text t ∧
      profileFromJson (libText load save) t = .ok
        { caPrefix := p.caPrefix, forwardingHint := p.caPrefix ++ [gcomp (bytes! "CA")], caInfo := p.caInfo, probeParameterKeys := [],
          maxValidityPeriod := if -2147483648 ≤ p.maxValidityPeriod ∧ p.maxValidityPeriod < 2147483648 then p.maxValidityPeriod else 86400,
          maxSuffixLength := p.maxSuffixLength, supportedChallenges := [], cert := p.cert } := by
  have hd : (profileToJson (libText load save) p).data = [] := rfl
  have app : ∀ a b : List (Bytes × PTree), (kidsPlain (a ++ b) ↔ kidsPlain a ∧ kidsPlain b) ∧ (kidsUtf8 (a ++ b) ↔ kidsUtf8 a ∧ kidsUtf8 b) := by
    intro a b
    induction a with
    | nil => simp [kidsPlain, kidsUtf8]
    | cons x a ih => obtain ⟨k, v⟩ := x; simp only [List.cons_append, kidsPlain, kidsUtf8, ih.1, ih.2, and_assoc, and_self]
  have leafPlain : ∀ s : Bytes, (PTree.leaf s).Plain := fun s => ⟨.inr rfl, trivial⟩
  have leafUtf8 : ∀ s : Bytes, Utf8 s → (PTree.leaf s).TextsUtf8 := fun s h => ⟨h, trivial⟩
  have listPlain : ∀ (key : Bytes) (l : List Bytes), (listTree key l).Plain := by
    intro key l
    refine ⟨.inl rfl, ?_⟩
    induction l with
    | nil => trivial
    | cons s l ih => exact ⟨⟨.inl rfl, leafPlain s, trivial⟩, ih⟩
  have listUtf8 : ∀ (key : Bytes) (l : List Bytes), Utf8 key → (∀ k ∈ l, Utf8 k) → (listTree key l).TextsUtf8 := by
    intro key l h1 h2
    refine ⟨.nil, ?_⟩
    induction l with
    | nil => trivial
    | cons s l ih => exact ⟨.nil, ⟨.nil, h1, leafUtf8 s (h2 s (List.mem_cons_self ..)), trivial⟩, ih (fun k hk => h2 k (List.mem_cons_of_mem _ hk))⟩
  have hplain : (profileToJson (libText load save) p).Plain := by
    refine ⟨.inl rfl, ?_⟩
    rw [(app _ _).1, (app _ _).1, (app _ _).1, (app _ _).1]
    refine ⟨⟨⟨⟨⟨leafPlain _, leafPlain _, leafPlain _, trivial⟩, ?_⟩, ?_⟩, ?_⟩, ?_⟩
    · split
      · exact ⟨leafPlain _, trivial⟩
      · trivial
    · split
      · exact ⟨listPlain _ _, trivial⟩
      · trivial
    · split
      · exact ⟨listPlain _ _, trivial⟩
      · trivial
    · split
      · exact ⟨leafPlain _, trivial⟩
      · trivial
  have hutf : (profileToJson (libText load save) p).TextsUtf8 := by
    have ascii : ∀ s : Bytes, (∀ b ∈ s, b.toNat < 128) → Utf8 s := fun s h => utf8_ascii h
    have decAscii : ∀ n : Nat, Utf8 (decDigits n) := fun n => ascii _ (fun b hb => by have := decDigits_digit n b hb; omega)
    have intAscii : ∀ n : Int, Utf8 (intDigits n) := by
      intro n
      refine ascii _ (fun b hb => ?_)
      unfold intDigits at hb
      split at hb
      · rw [List.mem_cons] at hb
        rcases hb with rfl | hb
        · decide
        · have := decDigits_digit _ b hb; omega
      · have := decDigits_digit _ b hb; omega
    have uriAscii : Utf8 (nameUri p.caPrefix) := by
      have val : ∀ (v : Bytes), ∀ b ∈ valUri v, b.toNat < 128 := by
        intro v b hb
        unfold valUri at hb
        rw [List.mem_append] at hb
        rcases hb with hb | hb
        · split at hb
          · simp only [List.mem_cons, List.not_mem_nil, or_false] at hb
            rcases hb with rfl | rfl | rfl <;> decide
          · cases hb
        · rw [List.mem_flatMap] at hb
          obtain ⟨x, _, hx⟩ := hb
          exact byte_cases (P := fun x => ∀ b ∈ uriEscapeByte x, b.toNat < 128) (by decide +kernel) x b hx
      refine ascii _ (fun b hb => ?_)
      unfold nameUri at hb
      split at hb
      · simp only [List.mem_singleton] at hb; subst hb; decide
      · rw [List.mem_flatMap] at hb
        obtain ⟨c, _, hb⟩ := hb
        rw [List.mem_cons] at hb
        rcases hb with rfl | hb
        · decide
        · rw [compUri_eq] at hb
          split at hb
          · exact val _ b hb
          · rw [List.mem_append, List.mem_append] at hb
            rcases hb with (hb | hb) | hb
            · have := decDigits_digit _ b hb; omega
            · simp only [List.mem_singleton] at hb; subst hb; decide
            · exact val _ b hb
    refine ⟨.nil, ?_⟩
    rw [(app _ _).2, (app _ _).2, (app _ _).2, (app _ _).2]
    have lit : ∀ s : Bytes, s.all (· < 128) = true → Utf8 s := fun s h => ascii s (fun b hb => by
      have := List.all_eq_true.mp h b hb
      simpa [UInt8.lt_iff_toNat_lt] using this)
    refine ⟨⟨⟨⟨⟨lit _ (by decide), leafUtf8 _ uriAscii, lit _ (by decide), leafUtf8 _ hi, lit _ (by decide), leafUtf8 _ (intAscii _), trivial⟩, ?_⟩, ?_⟩, ?_⟩, ?_⟩
    · split
      · exact ⟨lit _ (by decide), leafUtf8 _ (decAscii _), trivial⟩
      · trivial
    · split
      · exact ⟨.nil, listUtf8 _ _ (lit _ (by decide)) hk, trivial⟩
      · trivial
    · split
      · exact ⟨.nil, listUtf8 _ _ (lit _ (by decide)) hl, trivial⟩
      · trivial
    · split
      · rename_i c hcert
        exact ⟨lit _ (by decide), leafUtf8 _ (hc c hcert).2.2, trivial⟩
      · trivial
  have hw := (writeJsonText_iff (profileToJson (libText load save) p) _).mpr ⟨hd, hplain, rfl⟩
  have hr := read_written hw
  rw [if_pos hutf] at hr
  refine ⟨_, _, hw, (readJsonText_iff _ _).mp hr, ?_⟩
  exact C73_profile_partial (libText load save) p (readUri_nameUri hn) rfl hp hs (fun c h => ⟨(hc c h).1, (hc c h).2.1⟩)

-- the hypotheses are met by a profile with all fields set
example : ∃ (load : Bytes → Option Cert) (save : Cert → Bytes) (p : CaProfile), p.caPrefix ≠ [] ∧ (∀ c ∈ p.caPrefix, CompValid c) ∧
    p.maxSuffixLength ≠ none ∧ (∀ n, p.maxSuffixLength = some n → n < 2 ^ 64) ∧ p.cert ≠ none ∧
    (∀ c, p.cert = some c → save c ≠ [] ∧ load (save c) = some c ∧ Utf8 (save c)) ∧ Utf8 p.caInfo ∧ p.caInfo ≠ [] ∧
    p.supportedChallenges ≠ [] ∧ (∀ k ∈ p.probeParameterKeys, Utf8 k) ∧ (∀ k ∈ p.supportedChallenges, Utf8 k) := by
  refine ⟨fun _ => some Fix.caCert, fun _ => bytes! "Bv0B", ⟨[gcomp (bytes! "ndn"), ⟨54, [1]⟩], [], bytes! "info", [], 3600, some 2, [bytes! "pin"], some Fix.caCert⟩,
    by simp, ?_, by simp, ?_, by simp, ?_, ?_, by simp, by simp, by simp, ?_⟩
  · intro c hc
    simp only [List.mem_cons, List.not_mem_nil, or_false] at hc
    rcases hc with rfl | rfl <;> exact ⟨by decide, by decide, by decide⟩
  · intro n hn
    cases hn
    decide
  · intro c hc
    cases hc
    exact ⟨by simp, rfl, utf8_ascii (by decide)⟩
  · exact utf8_ascii (by decide)
  · intro k hk
    simp only [List.mem_singleton] at hk
    subst hk
    exact utf8_ascii (by decide)

end Ndncert.Props
