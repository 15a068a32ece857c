import Verif.Lemmas.Assign
import Verif.Lemmas.Order
import Verif.Spec.Fixtures

/-! # Redirection policies and name assignment (C54-C59) -/

namespace Ndncert.Props

/-! ## C54 -/

/-- C54: the email policy redirects exactly the addresses in the configured domain. -/
theorem C54_email_redirection {format : Bytes} {r : Redirection} (hr : mkRedirectionEmail format = .ok r) {params : MMap} (hs : params.InOrder) :
    r.isRedirecting params = true ↔ ∃ addr user, (bytes! "email", addr) ∈ params ∧ LastAt addr user format := by
  have hs := (inOrder_iff _).mp hs
  cases hr
  unfold Redirection.isRedirecting
  dsimp only
  rw [List.any_eq_true]
  constructor
  · rintro ⟨v, hv, h⟩
    split at h
    · rename_i u d hd
      obtain ⟨h1, h2⟩ := splitLast_some.mp hd
      simp only [beq_iff_eq] at h
      subst h
      exact ⟨v, u, (valuesOf_sorted hs).mp hv, h1, h2⟩
    · cases h
  · rintro ⟨v, u, hv, h1, h2⟩
    refine ⟨v, (valuesOf_sorted hs).mpr hv, ?_⟩
    rw [splitLast_some.mpr ⟨h1, h2⟩]
    simp

/-- an address in the domain, one in another domain, and one whose text after the first '@' only contains the domain -/
example : (Redirection.email (bytes! "x.org")).isRedirecting [(bytes! "email", bytes! "a@y@x.org")] = true ∧
    (Redirection.email (bytes! "x.org")).isRedirecting [(bytes! "email", bytes! "a@x.org.evil")] = false ∧
    (Redirection.email (bytes! "x.org")).isRedirecting [(bytes! "email", bytes! "a@b.com"), (bytes! "email", bytes! "a@x.org")] = true := by
  decide +kernel

/-! ## C55 -/

theorem mapEmplace_mem {m : List (Bytes × Bytes)} {k v : Bytes} {e : Bytes × Bytes} :
    e ∈ mapEmplace m k v ↔ e ∈ m ∨ (e = (k, v) ∧ ∀ x ∈ m, x.1 ≠ k) := by
  unfold mapEmplace
  split
  · rename_i h
    rw [List.any_eq_true] at h
    obtain ⟨x, hx, hk⟩ := h
    simp only [beq_iff_eq] at hk
    exact ⟨.inl, fun h => h.resolve_right (fun h => h.2 x hx hk)⟩
  · rename_i h
    rw [List.mem_append, List.mem_singleton]
    refine or_congr Iff.rfl ⟨fun he => ⟨he, ?_⟩, fun h => h.1⟩
    intro x hx hk
    exact h (List.any_eq_true.mpr ⟨x, hx, by simpa using hk⟩)

theorem paramFormat_ok : ∀ {pieces : List Bytes} {kvs : List (Bytes × Bytes)} {m : List (Bytes × Bytes)},
    Each (fun p e => KeyValue p e.1 e.2) pieces kvs → ∃ m', pieces.foldlM paramFormatStep m = .ok m' ∧
      ∀ e, e ∈ m' ↔ e ∈ m ∨ ∃ pre post, kvs = pre ++ e :: post ∧ (∀ x ∈ pre, x.1 ≠ e.1) ∧ ∀ x ∈ m, x.1 ≠ e.1
  | [], _, m, h => by
    cases h
    refine ⟨m, rfl, fun e => ⟨.inl, fun h => h.resolve_right ?_⟩⟩
    rintro ⟨pre, post, h, _⟩
    cases pre <;> cases h
  | p :: ps, _, m, h => by
    cases h with
    | @cons _ e0 _ es h1 h2 =>
      obtain ⟨k, v⟩ := e0
      have hs : splitFirst 61 p = some (k, v) := splitFirst_some.mpr h1
      obtain ⟨m', h3, h4⟩ := paramFormat_ok (m := mapEmplace m k v) h2
      refine ⟨m', ?_, ?_⟩
      · rw [List.foldlM_cons]
        unfold paramFormatStep
        rw [hs]
        exact h3
      · intro e
        rw [h4, mapEmplace_mem]
        constructor
        · rintro ((h | ⟨rfl, h⟩) | ⟨pre, post, h5, h6, h7⟩)
          · exact .inl h
          · exact .inr ⟨[], es, rfl, by simp, h⟩
          · refine .inr ⟨(k, v) :: pre, post, by rw [h5]; rfl, ?_, ?_⟩
            · intro x hx
              rw [List.mem_cons] at hx
              rcases hx with rfl | hx
              · -- the key is in the map after the first insertion
                rcases Classical.em (∃ x ∈ m, x.1 = k) with ⟨y, hy, hk⟩ | hn
                · have := h7 y (mapEmplace_mem.mpr (.inl hy))
                  rw [hk] at this
                  exact this
                · exact h7 (k, v) (mapEmplace_mem.mpr (.inr ⟨rfl, fun x hx hk => hn ⟨x, hx, hk⟩⟩))
              · exact h6 x hx
            · intro x hx
              exact h7 x (mapEmplace_mem.mpr (.inl hx))
        · rintro (h | ⟨pre, post, h5, h6, h7⟩)
          · exact .inl (.inl h)
          · cases pre with
            | nil => cases h5; exact .inl (.inr ⟨rfl, h7⟩)
            | cons x pre =>
              cases h5
              refine .inr ⟨pre, post, rfl, fun y hy => h6 y (by simp [hy]), ?_⟩
              intro y hy
              rcases mapEmplace_mem.mp hy with hy | ⟨rfl, _⟩
              · exact h7 y hy
              · exact h6 _ (by simp)

theorem paramFormat_exc : ∀ {pieces : List Bytes} {m : List (Bytes × Bytes)},
    (∃ p ∈ pieces, (61 : UInt8) ∉ p) → pieces.foldlM paramFormatStep m = .exc .runtime
  | [], m, ⟨p, h, _⟩ => by cases h
  | q :: ps, m, ⟨p, hp, hn⟩ => by
    rw [List.foldlM_cons]
    unfold paramFormatStep
    cases hs : splitFirst 61 q with
    | none => rfl
    | some kv =>
      rw [List.mem_cons] at hp
      rcases hp with rfl | hp
      · rw [splitFirst_none.mpr hn] at hs; cases hs
      · exact paramFormat_exc ⟨p, hp, hn⟩

/-- C55, first half: the policy can be constructed iff each piece of the format contains '='; the empty format is accepted. -/
theorem C55_param_construction (format : Bytes) (pieces : List Bytes) (hp : SplitsInto 38 format pieces) :
    (∃ r, mkRedirectionParam format = .ok r) ↔ format = [] ∨ ∀ p ∈ pieces, (61 : UInt8) ∈ p := by
  unfold mkRedirectionParam
  split
  · rename_i h; simp [h]
  · rename_i hne
    rw [hp.eq]
    rcases Classical.em (∃ p ∈ pieces, (61 : UInt8) ∉ p) with h | h
    · rw [paramFormat_exc h]
      obtain ⟨p, h1, h2⟩ := h
      simp only [Res.bind_exc, reduceCtorEq, exists_false, false_iff, not_or]
      exact ⟨hne, fun h => h2 (h p h1)⟩
    · have h' : ∀ p ∈ pieces, (61 : UInt8) ∈ p := fun p hp => Classical.byContradiction fun hn => h ⟨p, hp, hn⟩
      have : ∀ pieces : List Bytes, (∀ p ∈ pieces, (61 : UInt8) ∈ p) → ∃ kvs : List (Bytes × Bytes), Each (fun p e => KeyValue p e.1 e.2) pieces kvs := by
        intro pieces
        induction pieces with
        | nil => intro _; exact ⟨[], .nil⟩
        | cons p ps ih =>
          intro h
          obtain ⟨kvs, hk⟩ := ih (fun q hq => h q (by simp [hq]))
          cases hs : splitFirst 61 p with
          | none => exact absurd (h p (by simp)) (splitFirst_none.mp hs)
          | some kv => exact ⟨kv :: kvs, .cons (splitFirst_some.mp hs) hk⟩
      obtain ⟨kvs, hk⟩ := this pieces h'
      obtain ⟨m', h3, _⟩ := paramFormat_ok (m := []) hk
      rw [h3]
      simp only [Res.bind_ok, Res.ok.injEq, exists_eq', true_iff]
      exact .inr h'

/-- C55, second half: the policy redirects iff for every key of the format, the PROBE parameters contain that key with the
value of its first piece. -/
theorem C55_param_redirection (format : Bytes) (pieces : List Bytes) (hp : SplitsInto 38 format pieces) (hne : format ≠ [])
    (kvs : List (Bytes × Bytes)) (hk : Each (fun p e => KeyValue p e.1 e.2) pieces kvs) {params : MMap} (hs : params.InOrder) :
    ∃ r, mkRedirectionParam format = .ok r ∧ (r.isRedirecting params = true ↔ ∀ k v, FirstValue kvs k v → (k, v) ∈ params) := by
  have hs := (inOrder_iff _).mp hs
  obtain ⟨m', h3, h4⟩ := paramFormat_ok (m := []) hk
  refine ⟨.param m', ?_, ?_⟩
  · unfold mkRedirectionParam
    rw [if_neg hne, hp.eq, h3]
    rfl
  · unfold Redirection.isRedirecting
    dsimp only
    rw [List.all_eq_true]
    constructor
    · rintro h k v ⟨pre, post, h5, h6⟩
      have := h (k, v) ((h4 (k, v)).mpr (.inr ⟨pre, post, h5, h6, by simp⟩))
      rw [List.any_eq_true] at this
      obtain ⟨w, hw, he⟩ := this
      simp only [beq_iff_eq] at he
      subst he
      exact (valuesOf_sorted hs).mp hw
    · intro h e he
      rcases (h4 e).mp he with h' | ⟨pre, post, h5, h6, _⟩
      · cases h'
      · have := h e.1 e.2 ⟨pre, post, h5, h6⟩
        rw [List.any_eq_true]
        exact ⟨e.2, (valuesOf_sorted hs).mpr this, by simp⟩

/-- the empty format redirects everything -/
theorem C55_param_empty (params : MMap) : ∃ r, mkRedirectionParam [] = .ok r ∧ r.isRedirecting params = true :=
  ⟨.param [], rfl, rfl⟩

/-- a format of three pieces with a repeated key -/
example : SplitsInto 38 (bytes! "a=1&b=2=3&a=4") [bytes! "a=1", bytes! "b=2=3", bytes! "a=4"] ∧
    Each (fun p e => KeyValue p e.1 e.2) [bytes! "a=1", bytes! "b=2=3", bytes! "a=4"]
      [(bytes! "a", bytes! "1"), (bytes! "b", bytes! "2=3"), (bytes! "a", bytes! "4")] := by
  refine ⟨⟨by simp, by decide, by decide⟩, .cons ⟨rfl, by decide⟩ (.cons ⟨rfl, by decide⟩ (.cons ⟨rfl, by decide⟩ .nil))⟩

/-! ## C56 -/

section
variable {C : Crypto}

theorem nameFormat_pieces {format : Bytes} {pieces : List Bytes} (hp : SplitsInto 47 format pieces) :
    nameFormat format = pieces.filter (· ≠ []) := by
  unfold nameFormat; rw [hp.eq]

theorem paramItem_some {params : MMap} {item : Bytes} {n : Name} :
    paramItem C params item = .ok (some n) ↔ ∃ v, ItemText params item v ∧ C.stringName v = some n := by
  unfold paramItem
  split
  · rename_i h
    obtain ⟨w, hw⟩ := literal_iff.mp h
    rw [literal_content hw]
    constructor
    · intro h1
      rw [Res.bind_eq_ok] at h1
      obtain ⟨m, h2, h3⟩ := h1
      cases h3
      exact ⟨w, .inl hw, by simpa using h2⟩
    · rintro ⟨v, hv | hv, h3⟩
      · have : v = w := by
          unfold Literal at hv hw
          rw [hw] at hv
          simpa using hv.symm
        subst this
        rw [h3]; rfl
      · exact absurd hw (hv.1 w)
  · rename_i h
    have hl : ∀ w, ¬ Literal item w := fun w hw => h (literal_iff.mpr ⟨w, hw⟩)
    cases hf : mmFind params item with
    | none =>
      simp only [Res.ok.injEq, reduceCtorEq, false_iff]
      rintro ⟨v, hv | ⟨_, hv, _⟩, _⟩
      · exact hl v hv
      · exact mmFind_none.mp hf v hv
    | some v =>
      have hfv := mmFind_some.mp hf
      dsimp only
      split
      · rename_i hne
        constructor
        · intro h1
          rw [Res.bind_eq_ok] at h1
          obtain ⟨m, h2, h3⟩ := h1
          cases h3
          exact ⟨v, .inr ⟨hl, hfv, hne⟩, by simpa using h2⟩
        · rintro ⟨v', hv | ⟨_, hv, _⟩, h3⟩
          · exact absurd hv (hl v')
          · have := mmFind_some.mpr hv
            rw [hf] at this
            cases this
            rw [h3]; rfl
      · rename_i hne
        simp only [Res.ok.injEq, reduceCtorEq, false_iff]
        rintro ⟨v', hv | ⟨_, hv, hne'⟩, _⟩
        · exact hl v' hv
        · have := mmFind_some.mpr hv
          rw [hf] at this
          cases this
          exact hne hne'

theorem paramItem_none {params : MMap} {item : Bytes} : paramItem C params item = .ok none ↔ ∀ v, ¬ ItemText params item v := by
  unfold paramItem
  split
  · rename_i h
    obtain ⟨w, hw⟩ := literal_iff.mp h
    constructor
    · intro h1
      rw [Res.bind_eq_ok] at h1
      obtain ⟨m, h2, h3⟩ := h1
      cases h3
    · intro h1
      exact absurd (.inl hw) (h1 w)
  · rename_i h
    have hl : ∀ w, ¬ Literal item w := fun w hw => h (literal_iff.mpr ⟨w, hw⟩)
    cases hf : mmFind params item with
    | none =>
      simp only [true_iff]
      rintro v (hv | ⟨_, hv, _⟩)
      · exact hl v hv
      · exact mmFind_none.mp hf v hv
    | some v =>
      have hfv := mmFind_some.mp hf
      dsimp only
      split
      · rename_i hne
        constructor
        · intro h1
          rw [Res.bind_eq_ok] at h1
          obtain ⟨m, h2, h3⟩ := h1
          cases h3
        · intro h1
          exact absurd (.inr ⟨hl, hfv, hne⟩) (h1 v)
      · rename_i hne
        simp only [true_iff]
        rintro v' (hv | ⟨_, hv, hne'⟩)
        · exact hl v' hv
        · have := mmFind_some.mpr hv
          rw [hf] at this
          cases this
          exact hne hne'

theorem appendItems_some {f : Bytes → Res (Option Name)} : ∀ {items : List Bytes} {acc n : Name},
    appendItems f acc items = .ok (some n) ↔ ∃ ns, Each (fun item m => f item = .ok (some m)) items ns ∧ n = acc ++ ns.flatten
  | [], acc, n => by
    simp only [appendItems, Res.ok.injEq, Option.some.injEq]
    constructor
    · rintro rfl; exact ⟨[], .nil, by simp⟩
    · rintro ⟨ns, h, h2⟩; cases h; simpa using h2.symm
  | item :: items, acc, n => by
    unfold appendItems
    constructor
    · intro h
      rw [Res.bind_eq_ok] at h
      obtain ⟨o, h1, h2⟩ := h
      cases o with
      | none => cases h2
      | some m =>
        obtain ⟨ns, h3, h4⟩ := appendItems_some.mp h2
        exact ⟨m :: ns, .cons h1 h3, by rw [h4]; simp⟩
    · rintro ⟨ns, h, h2⟩
      cases h with
      | @cons _ m _ ns h3 h4 =>
        rw [h3]
        simp only [Res.bind_ok]
        exact appendItems_some.mpr ⟨ns, h4, by rw [h2]; simp⟩

theorem appendItems_none {f : Bytes → Res (Option Name)} : ∀ {items : List Bytes} {acc : Name},
    appendItems f acc items = .ok none ↔ ∃ pre item post ns, items = pre ++ item :: post ∧ Each (fun i m => f i = .ok (some m)) pre ns ∧ f item = .ok none
  | [], acc => by
    simp only [appendItems, Res.ok.injEq, reduceCtorEq, false_iff]
    rintro ⟨pre, item, post, ns, h, _⟩
    cases pre <;> cases h
  | item :: items, acc => by
    unfold appendItems
    constructor
    · intro h
      rw [Res.bind_eq_ok] at h
      obtain ⟨o, h1, h2⟩ := h
      cases o with
      | none => exact ⟨[], item, items, [], rfl, .nil, h1⟩
      | some m =>
        obtain ⟨pre, it, post, ns, h3, h4, h5⟩ := appendItems_none.mp h2
        exact ⟨item :: pre, it, post, m :: ns, by rw [h3]; rfl, .cons h1 h4, h5⟩
    · rintro ⟨pre, it, post, ns, h3, h4, h5⟩
      cases pre with
      | nil => cases h3; rw [h5]; rfl
      | cons x pre =>
        cases h3
        cases h4 with
        | @cons _ m _ ns h6 h7 =>
          rw [h6]
          simp only [Res.bind_ok]
          exact appendItems_none.mpr ⟨pre, it, post, ns, rfl, h7, h5⟩

theorem appendItems_missing {f : Bytes → Res (Option Name)} (hf : ∀ i, ∃ o, f i = .ok o) : ∀ {items : List Bytes} {acc : Name},
    appendItems f acc items = .ok none ↔ ∃ i ∈ items, f i = .ok none
  | [], acc => by simp [appendItems]
  | x :: items, acc => by
    unfold appendItems
    obtain ⟨o, ho⟩ := hf x
    rw [ho]
    simp only [Res.bind_ok]
    cases o with
    | none => simp [ho]
    | some n =>
      dsimp only
      rw [appendItems_missing hf]
      simp [ho]

/-- C56, what is assigned: one name, made of what the library appends for the text of each item, in order. -/
theorem C56_param_assignment {format : Bytes} {pieces : List Bytes} (hp : SplitsInto 47 format pieces) (params : MMap) (names : List Name)
    (hne : names ≠ []) :
    assignParam C (nameFormat format) params = .ok names ↔
      ∃ ns, names = [ns.flatten] ∧ Each (fun item n => ∃ v, ItemText params item v ∧ C.stringName v = some n) (pieces.filter (· ≠ [])) ns := by
  rw [nameFormat_pieces hp]
  unfold assignParam
  rw [Res.bind_eq_ok]
  have hiff : ∀ items ns, Each (fun item m => paramItem C params item = .ok (some m)) items ns ↔
      Each (fun item n => ∃ v, ItemText params item v ∧ C.stringName v = some n) items ns := by
    intro items ns
    constructor
    · intro h; induction h with
      | nil => exact .nil
      | cons h _ ih => exact .cons (paramItem_some.mp h) ih
    · intro h; induction h with
      | nil => exact .nil
      | cons h _ ih => exact .cons (paramItem_some.mpr h) ih
  constructor
  · rintro ⟨o, h1, h2⟩
    cases h2
    cases o with
    | none => exact absurd rfl hne
    | some n =>
      obtain ⟨ns, h3, h4⟩ := appendItems_some.mp h1
      exact ⟨ns, by rw [h4]; rfl, (hiff _ _).mp h3⟩
  · rintro ⟨ns, rfl, h⟩
    exact ⟨some ns.flatten, appendItems_some.mpr ⟨ns, (hiff _ _).mpr h, by simp⟩, rfl⟩

/-- C56, what is assigned when the library appends a string as one component: one component per item, in order. -/
theorem C56_param_components (hC : ∀ s, C.stringName s = some [gcomp s]) {format : Bytes} {pieces : List Bytes} (hp : SplitsInto 47 format pieces)
    (params : MMap) (n : Name) :
    assignParam C (nameFormat format) params = .ok [n] ↔
      Each (fun item c => ∃ v, ItemText params item v ∧ c = gcomp v) (pieces.filter (· ≠ [])) n := by
  rw [C56_param_assignment hp params [n] (by simp)]
  constructor
  · rintro ⟨ns, h1, h2⟩
    cases h1
    generalize pieces.filter (· ≠ []) = items at h2
    induction h2 with
    | nil => exact .nil
    | cons h _ ih =>
      obtain ⟨v, h3, h4⟩ := h
      rw [hC] at h4
      cases h4
      exact .cons ⟨v, h3, rfl⟩ ih
  · intro h
    refine ⟨n.map (fun c => [c]), ?_, ?_⟩
    · have : ∀ l : Name, (l.map (fun c => [c])).flatten = l := by
        intro l; induction l with
        | nil => rfl
        | cons a l ih => simp [ih]
      rw [this]
    · generalize pieces.filter (· ≠ []) = items at h
      induction h with
      | nil => exact .nil
      | cons h _ ih =>
        obtain ⟨v, h3, rfl⟩ := h
        exact .cons ⟨v, h3, hC v⟩ ih

/-- C56, when nothing is assigned: iff some item has no text, that is, its parameter is missing or empty. -/
theorem C56_param_nothing (hC : ∀ s, C.stringName s ≠ none) {format : Bytes} {pieces : List Bytes} (hp : SplitsInto 47 format pieces) (params : MMap) :
    assignParam C (nameFormat format) params = .ok [] ↔ ∃ item ∈ pieces, item ≠ [] ∧ ∀ v, ¬ ItemText params item v := by
  have htot : ∀ i, ∃ o, paramItem C params i = .ok o := by
    intro i
    rcases Classical.em (∃ v, ItemText params i v) with ⟨v, hv⟩ | hn
    · obtain ⟨n, hn⟩ := Option.ne_none_iff_exists'.mp (hC v)
      exact ⟨_, paramItem_some.mpr ⟨v, hv, hn⟩⟩
    · exact ⟨_, paramItem_none.mpr (fun v hv => hn ⟨v, hv⟩)⟩
  rw [nameFormat_pieces hp]
  unfold assignParam
  rw [Res.bind_eq_ok]
  constructor
  · rintro ⟨o, h1, h2⟩
    cases o with
    | some n => cases h2
    | none =>
      obtain ⟨item, h3, h5⟩ := (appendItems_missing htot).mp h1
      rw [List.mem_filter] at h3
      exact ⟨item, h3.1, by simpa using h3.2, paramItem_none.mp h5⟩
  · rintro ⟨item, h1, h2, h3⟩
    exact ⟨none, (appendItems_missing htot).mpr ⟨item, List.mem_filter.mpr ⟨h1, by simpa using h2⟩, paramItem_none.mpr h3⟩, rfl⟩

/-- a format with a literal and a parameter -/
example : SplitsInto 47 (bytes! "/\"guest\"/email") [[], bytes! "\"guest\"", bytes! "email"] ∧
    Each (fun item c => ∃ v, ItemText [(bytes! "email", bytes! "a@b")] item v ∧ c = gcomp v) [bytes! "\"guest\"", bytes! "email"]
      [gcomp (bytes! "guest"), gcomp (bytes! "a@b")] ∧
    assignParam Fix.C (nameFormat (bytes! "/\"guest\"/email")) [(bytes! "email", bytes! "a@b")] = .ok [[gcomp (bytes! "guest"), gcomp (bytes! "a@b")]] ∧
    assignParam Fix.C (nameFormat (bytes! "/\"guest\"/email")) [(bytes! "email", [])] = .ok [] := by
  refine ⟨⟨by simp, by decide, by decide⟩, .cons ⟨bytes! "guest", .inl rfl, rfl⟩ (.cons ⟨_, .inr ⟨?_, ⟨[], [], rfl, by simp⟩, by simp⟩, rfl⟩ .nil), by decide +kernel, by decide +kernel⟩
  intro w hw
  cases hw

/-! ## C57 -/

/-- C57: the hash assignment assigns the upper case hexadecimal SHA-256 digests of the first values of the parameters; nothing
iff a parameter is missing. The hypothesis says what the library appends for a string of hexadecimal digits: one component under
both readings. -/
theorem C57_hash_assignment (hC : ∀ s, C.stringName (toHex s) = some [gcomp (toHex s)]) {format : Bytes} {pieces : List Bytes}
    (hp : SplitsInto 47 format pieces) (params : MMap) :
    (∀ n, assignHash C (nameFormat format) params = .ok [n] ↔
      Each (fun item c => ∃ v, FirstValue params item v ∧ c = gcomp (toHex (C.sha256 v))) (pieces.filter (· ≠ [])) n) ∧
    (assignHash C (nameFormat format) params = .ok [] ↔ ∃ item ∈ pieces, item ≠ [] ∧ ∀ v, ¬ FirstValue params item v) := by
  rw [nameFormat_pieces hp]
  have hsome : ∀ item c, hashItem C params item = .ok (some c) ↔ ∃ v, FirstValue params item v ∧ c = [gcomp (toHex (C.sha256 v))] := by
    intro item c
    unfold hashItem
    cases hf : mmFind params item with
    | none =>
      simp only [Res.ok.injEq, reduceCtorEq, false_iff]
      rintro ⟨v, hv, _⟩
      exact mmFind_none.mp hf v hv
    | some v =>
      dsimp only
      rw [hC]
      simp only [Res.ofOption_some, Res.bind_ok, Res.ok.injEq, Option.some.injEq]
      constructor
      · rintro rfl; exact ⟨v, mmFind_some.mp hf, rfl⟩
      · rintro ⟨v', hv, rfl⟩
        have := mmFind_some.mpr hv
        rw [hf] at this
        cases this; rfl
  have hnone : ∀ item, hashItem C params item = .ok none ↔ ∀ v, ¬ FirstValue params item v := by
    intro item
    unfold hashItem
    cases hf : mmFind params item with
    | none => simp only [true_iff]; exact mmFind_none.mp hf
    | some v =>
      dsimp only
      rw [hC]
      simp only [Res.ofOption_some, Res.bind_ok, Res.ok.injEq, reduceCtorEq, false_iff]
      exact fun h => h v (mmFind_some.mp hf)
  constructor
  · intro n
    unfold assignHash
    rw [Res.bind_eq_ok]
    constructor
    · rintro ⟨o, h1, h2⟩
      cases o with
      | none => cases h2
      | some m =>
        cases h2
        obtain ⟨ns, h3, h4⟩ := appendItems_some.mp h1
        rw [List.nil_append] at h4
        subst h4
        clear h1
        generalize pieces.filter (· ≠ []) = items at h3
        induction h3 with
        | nil => exact .nil
        | cons h _ ih =>
          obtain ⟨v, h5, rfl⟩ := (hsome _ _).mp h
          exact .cons ⟨v, h5, rfl⟩ ih
    · intro h
      refine ⟨some n, appendItems_some.mpr ?_, rfl⟩
      generalize pieces.filter (· ≠ []) = items at h
      induction h with
      | nil => exact ⟨[], .nil, rfl⟩
      | cons h _ ih =>
        obtain ⟨v, h5, rfl⟩ := h
        obtain ⟨ns, h6, h7⟩ := ih
        exact ⟨_ :: ns, .cons ((hsome _ _).mpr ⟨v, h5, rfl⟩) h6, by simpa using h7⟩
  · have htot : ∀ i, ∃ o, hashItem C params i = .ok o := by
      intro i
      rcases Classical.em (∃ v, FirstValue params i v) with ⟨v, hv⟩ | hn
      · exact ⟨_, (hsome _ _).mpr ⟨v, hv, rfl⟩⟩
      · exact ⟨_, (hnone _).mpr (fun v hv => hn ⟨v, hv⟩)⟩
    unfold assignHash
    rw [Res.bind_eq_ok]
    constructor
    · rintro ⟨o, h1, h2⟩
      cases o with
      | some n => cases h2
      | none =>
        obtain ⟨item, h3, h5⟩ := (appendItems_missing htot).mp h1
        rw [List.mem_filter] at h3
        exact ⟨item, h3.1, by simpa using h3.2, (hnone _).mp h5⟩
    · rintro ⟨item, h1, h2, h3⟩
      exact ⟨none, (appendItems_missing htot).mpr ⟨item, List.mem_filter.mpr ⟨h1, by simpa using h2⟩, (hnone _).mpr h3⟩, rfl⟩

end

/-- a hash format of one parameter that occurs twice: the first value is hashed -/
example : assignHash Fix.C (nameFormat (bytes! "/a")) [(bytes! "a", [1]), (bytes! "a", [2])] = .ok [[gcomp (toHex (Fix.C.sha256 [1]))]] ∧
    assignHash Fix.C (nameFormat (bytes! "/a/b")) [(bytes! "a", [1])] = .ok [] ∧
    (∀ s, Fix.C.stringName (toHex s) = some [gcomp (toHex s)]) := by
  refine ⟨by decide +kernel, by decide +kernel, fun s => rfl⟩

/-! ## C58 -/

/-- the name that the email assignment should give an address: the labels of its domain from right to left, without those of the
format, then the local part -/
def emailName (format : List Bytes) (user : Bytes) (labels : List Bytes) : Name :=
  ((dropLabels format labels.reverse).map gcomp) ++ [gcomp user]

/-- C58 in full -/
def EmailAssigned : Prop :=
  ∀ (format : List Bytes) (params : MMap), format ≠ [] → params.InOrder → ∀ addr user domain labels, FirstValue params (bytes! "email") addr →
    LastAt addr user domain → user ≠ [] → SplitsInto 46 domain labels → (0 : UInt8) ∉ addr →
    assignEmail format params = [emailName format user labels]

/-- C58 is false of the code: the address is taken from the first parameter, whatever its key. Here the parameter `dept` comes
before `email`. -/
theorem C58_false : ¬ EmailAssigned := by
  intro H
  have h := H [bytes! "org"] [(bytes! "dept", bytes! "boss@x.org"), (bytes! "email", bytes! "eve@y.org")] (by simp) ((inOrder_iff _).mpr (by unfold MMap.Sorted; decide))
    (bytes! "eve@y.org") (bytes! "eve") (bytes! "y.org") [bytes! "y", bytes! "org"]
    ⟨[(bytes! "dept", bytes! "boss@x.org")], [], rfl, by decide⟩ ⟨rfl, by decide⟩ (by simp) ⟨by simp, by decide, by decide⟩ (by decide)
  revert h
  decide +kernel

theorem cstr_id {s : Bytes} (h : (0 : UInt8) ∉ s) : cstr s = s := by
  unfold cstr
  induction s with
  | nil => rfl
  | cons x a ih =>
    rw [List.takeWhile_cons_of_pos (by simp only [decide_eq_true_eq]; rintro rfl; simp at h), ih (fun hm => h (List.mem_cons_of_mem _ hm))]

theorem dropLabels_subset : ∀ {format labels : List Bytes} {l : Bytes}, l ∈ dropLabels format labels → l ∈ labels
  | _, [], l, h => by simp [dropLabels] at h
  | [], _ :: _, l, h => h
  | f :: fs, x :: ls, l, h => by
    unfold dropLabels at h
    split at h
    · exact List.mem_cons_of_mem _ (dropLabels_subset h)
    · rw [List.mem_cons] at h ⊢
      exact h.imp id dropLabels_subset

theorem mem_of_splits {sep x : UInt8} {s : Bytes} {pieces : List Bytes} (h : SplitsInto sep s pieces) {p : Bytes} (hp : p ∈ pieces) (hx : x ∈ p) : x ∈ s := by
  rw [h.2.2]
  clear h
  induction pieces with
  | nil => cases hp
  | cons q ps ih =>
    cases ps with
    | nil =>
      rw [List.mem_singleton] at hp
      subst hp
      simpa [List.intercalate, List.intersperse] using hx
    | cons r ps =>
      rw [intercalate_cons_cons', List.mem_append, List.mem_cons]
      rw [List.mem_cons] at hp
      rcases hp with rfl | hp
      · exact .inl hx
      · exact .inr (.inr (ih hp))

/-- what the assignment does with an address that it takes -/
theorem assignEmail_addr {format : List Bytes} {params : MMap} {k addr user domain : Bytes} {labels : List Bytes} (hf : format ≠ [])
    (he : ∃ v, FirstValue params (bytes! "email") v) (hh : params.head? = some (k, addr))
    (ha : LastAt addr user domain) (hu : user ≠ []) (hl : SplitsInto 46 domain labels) (hz : (0 : UInt8) ∉ addr) :
    assignEmail format params = [emailName format user labels] := by
  obtain ⟨v, pre, post, h1, h2⟩ := he
  cases params with
  | nil => cases hh
  | cons e rest =>
    cases hh
    unfold assignEmail
    rw [if_pos ⟨hf, by rw [h1, List.any_append, List.any_cons]; simp [KEY_EMAIL]⟩]
    dsimp only
    rw [splitLast_some.mpr ha]
    dsimp only
    rw [if_neg hu, emailLoop_eq _ _ _ _ (by simp only [List.length_cons]; omega), hl.eq, List.nil_append]
    unfold emailName
    have hz' : ∀ l ∈ labels, (0 : UInt8) ∉ l := by
      intro l hlm hx
      apply hz
      rw [ha.1, List.mem_append, List.mem_cons]
      exact .inr (.inr (mem_of_splits hl hlm hx))
    rw [cstr_id (s := user) (fun hx => hz (by rw [ha.1, List.mem_append]; exact .inl hx))]
    congr 2
    apply List.map_congr_left
    intro l hlm
    rw [cstr_id (hz' l (by simpa using dropLabels_subset hlm))]

/-- C58, what holds: if `email` is the first parameter in order of the keys (for instance the only one), the name is the one specified.
Missing: other parameters with smaller keys (`C58_false`). -/
theorem C58_email_assignment_partial (format : List Bytes) (params : MMap) (hf : format ≠ []) (addr user domain : Bytes) (labels : List Bytes)
    (hh : params.head? = some (bytes! "email", addr)) (ha : LastAt addr user domain) (hu : user ≠ []) (hl : SplitsInto 46 domain labels) (hz : (0 : UInt8) ∉ addr) :
    assignEmail format params = [emailName format user labels] := by
  refine assignEmail_addr hf ?_ hh ha hu hl hz
  cases params with
  | nil => cases hh
  | cons e rest => cases hh; exact ⟨addr, [], rest, rfl, by simp⟩

/-- C58, when nothing is assigned (in the same cases). -/
theorem C58_email_nothing_partial (format : List Bytes) (params : MMap) (h : ∀ k v, params.head? = some (k, v) → k = bytes! "email" ∨ ∀ w, ¬ FirstValue params (bytes! "email") w) :
    assignEmail format params = [] ↔ format = [] ∨ (∀ v, ¬ FirstValue params (bytes! "email") v) ∨
      ∀ addr, params.head? = some (bytes! "email", addr) → ∀ user domain, LastAt addr user domain → user = [] := by
  unfold assignEmail
  cases params with
  | nil =>
    simp only [List.any_nil, Bool.false_eq_true, and_false, if_false, true_iff]
    right; left
    rintro v ⟨pre, post, h1, _⟩
    cases pre <;> cases h1
  | cons e rest =>
    obtain ⟨k, addr⟩ := e
    rcases h k addr rfl with rfl | hno
    · rcases Classical.em (format = []) with rfl | hf
      · simp
      · rw [if_pos ⟨hf, by simp [KEY_EMAIL]⟩]
        dsimp only
        have hfv : FirstValue ((bytes! "email", addr) :: rest) (bytes! "email") addr := ⟨[], rest, rfl, by simp⟩
        constructor
        · intro h1
          right; right
          rintro addr' h2 user domain ha
          cases h2
          rw [splitLast_some.mpr ha] at h1
          dsimp only at h1
          split at h1
          · assumption
          · cases h1
        · rintro (h1 | h1 | h1)
          · exact absurd h1 hf
          · exact absurd hfv (h1 addr)
          · split
            · rfl
            · rename_i u a hs
              rw [if_pos (h1 addr rfl u a (splitLast_some.mp hs))]
    · have : ((k, addr) :: rest).any (fun e => e.1 == KEY_EMAIL) = false := by
        rw [Bool.eq_false_iff]
        intro ht
        have hne : mmFind ((k, addr) :: rest) (bytes! "email") ≠ none := by
          intro hn
          unfold mmFind at hn
          rw [Option.map_eq_none_iff, List.find?_eq_none] at hn
          rw [List.any_eq_true] at ht
          obtain ⟨x, hx, hk⟩ := ht
          exact hn x hx hk
        exact hne (mmFind_none.mpr hno)
      rw [if_neg (by rw [this]; simp)]
      simp [hno]

/-- an address below the configured domain -/
example : LastAt (bytes! "das@math.ucla.edu") (bytes! "das") (bytes! "math.ucla.edu") ∧
    SplitsInto 46 (bytes! "math.ucla.edu") [bytes! "math", bytes! "ucla", bytes! "edu"] ∧
    emailName [bytes! "edu", bytes! "ucla"] (bytes! "das") [bytes! "math", bytes! "ucla", bytes! "edu"] =
      [gcomp (bytes! "math"), gcomp (bytes! "das")] ∧
    assignEmail (nameFormat (bytes! "/edu/ucla")) [(bytes! "email", bytes! "das@math.ucla.edu")] = [[gcomp (bytes! "math"), gcomp (bytes! "das")]] := by
  refine ⟨⟨rfl, by decide⟩, ⟨by simp, by decide, by decide⟩, by decide +kernel, by decide +kernel⟩

/-! ## C59 -/

/-- C59 in full: with the same format, different addresses get different names -/
def EmailInjective : Prop :=
  ∀ (format : List Bytes) (a b : Bytes) (n : Name), format ≠ [] → assignEmail format [(bytes! "email", a)] = [n] →
    assignEmail format [(bytes! "email", b)] = [n] → a = b

/-- C59 is false of the code: labels of the format are dropped wherever they occur, and need not occur. -/
theorem C59_false : ¬ EmailInjective := by
  intro H
  have h := H [bytes! "edu", bytes! "ucla"] (bytes! "das@math.ucla.edu") (bytes! "das@math") [gcomp (bytes! "math"), gcomp (bytes! "das")]
    (by simp) (by decide +kernel) (by decide +kernel)
  revert h
  decide

/-- three more addresses with the same name -/
example : ∀ a ∈ [bytes! "das@ucla.math.edu", bytes! "das@math.edu", bytes! "das@math"],
    assignEmail [bytes! "edu", bytes! "ucla"] [(bytes! "email", a)] = [[gcomp (bytes! "math"), gcomp (bytes! "das")]] := by decide +kernel

/-- `domain` is `sub` followed by the labels of the format, written from left to right -/
def Below (format : List Bytes) (domain : Bytes) (sub : List Bytes) : Prop := SplitsInto 46 domain (sub ++ format.reverse)

theorem dropLabels_prefix : ∀ (format rest : List Bytes), dropLabels format (format ++ rest) = rest
  | [], rest => by cases rest <;> rfl
  | f :: fs, rest => by
    rw [List.cons_append, dropLabels, if_pos rfl, dropLabels_prefix fs rest]

theorem gcomp_injective {a b : Bytes} (h : gcomp a = gcomp b) : a = b := by
  unfold gcomp at h
  simpa using h

theorem map_gcomp_injective : ∀ {a b : List Bytes}, a.map gcomp = b.map gcomp → a = b
  | [], [], _ => rfl
  | [], _ :: _, h => by cases h
  | _ :: _, [], h => by cases h
  | x :: xs, y :: ys, h => by
    simp only [List.map_cons, List.cons.injEq] at h
    rw [gcomp_injective h.1, map_gcomp_injective h.2]

/-- C59, what holds: different addresses below the configured domain get different names. Missing: addresses in other domains, which
are not refused (`C59_false`). -/
theorem C59_email_injective_partial (format : List Bytes) (hf : format ≠ []) {a b ua ub da db : Bytes} {sa sb : List Bytes}
    (ha : LastAt a ua da) (hb : LastAt b ub db) (hua : ua ≠ []) (hub : ub ≠ []) (hsa : Below format da sa) (hsb : Below format db sb)
    (hza : (0 : UInt8) ∉ a) (hzb : (0 : UInt8) ∉ b)
    (h : assignEmail format [(bytes! "email", a)] = assignEmail format [(bytes! "email", b)]) : a = b := by
  rw [C58_email_assignment_partial format _ hf a ua da _ rfl ha hua hsa hza,
    C58_email_assignment_partial format _ hf b ub db _ rfl hb hub hsb hzb] at h
  unfold emailName at h
  simp only [List.reverse_append, List.reverse_reverse, dropLabels_prefix, List.cons.injEq, and_true] at h
  obtain ⟨h1, h2⟩ := List.append_inj' h rfl
  have h3 := map_gcomp_injective h1
  have h4 := gcomp_injective (List.cons.inj h2).1
  rw [List.reverse_inj] at h3
  subst h3 h4
  rw [ha.1, hb.1, hsa.2.2, hsb.2.2]

/-- two addresses below `ucla.edu` -/
example : Below [bytes! "edu", bytes! "ucla"] (bytes! "math.ucla.edu") [bytes! "math"] ∧ Below [bytes! "edu", bytes! "ucla"] (bytes! "ucla.edu") [] := by
  constructor <;> exact ⟨by simp, by decide, by decide⟩

end Ndncert.Props
