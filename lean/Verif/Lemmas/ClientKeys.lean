import Verif.Lemmas.ClientRun

/-! # Lemmas about the KeyChain during runs of the client -/

namespace Ndncert

/-! ## The KeyChain -/

/-- add a key to the identities of a name -/
def Pib.addKey (p : Pib) (id k : Name) : Pib :=
  p.map (fun e => if e.name = id then { e with keys := e.keys ++ [k], dflt := some (e.dflt.getD k) } else e)

theorem Pib.Kept.refl (p : Pib) : p.Kept p := fun e he => ⟨e, he, rfl, fun _ h => h, fun _ h => h⟩

theorem Pib.Kept.trans {p q r : Pib} (h1 : p.Kept q) (h2 : q.Kept r) : p.Kept r := by
  intro e he
  obtain ⟨e', he', a1, a2, a3⟩ := h1 e he
  obtain ⟨e'', he'', b1, b2, b3⟩ := h2 e' he'
  exact ⟨e'', he'', b1.trans a1, fun k hk => b2 k (a2 k hk), fun k hk => b3 k (a3 k hk)⟩

theorem Pib.Kept.addKey (p : Pib) (id k : Name) : p.Kept (p.addKey id k) := by
  intro e he
  refine ⟨_, List.mem_map_of_mem he, ?_⟩
  split
  · exact ⟨rfl, fun x hx => by simp [hx], fun x hx => by simp [hx]⟩
  · exact ⟨rfl, fun x hx => hx, fun x hx => hx⟩

theorem Pib.Kept.append (p q : Pib) : p.Kept (p ++ q) := fun e he => ⟨e, by simp [he], rfl, fun _ h => h, fun _ h => h⟩

theorem Pib.addKey_names (p : Pib) (id k : Name) : (p.addKey id k).map IdEntry.name = p.map IdEntry.name := by
  unfold Pib.addKey
  rw [List.map_map]
  congr 1
  funext e
  simp only [Function.comp]
  split <;> rfl

theorem Pib.get_some {p : Pib} {id : Name} {e : IdEntry} (h : p.get id = some e) : e ∈ p ∧ e.name = id := by
  unfold Pib.get at h
  exact ⟨List.mem_of_find?_eq_some h, by simpa using List.find?_some h⟩

theorem Pib.get_none {p : Pib} {id : Name} (h : p.get id = none) : ∀ e ∈ p, e.name ≠ id := by
  unfold Pib.get at h
  intro e he
  simpa using List.find?_eq_none.mp h e he

theorem Pib.same_name {p : Pib} (h : (p.map IdEntry.name).Nodup) {e e' : IdEntry} (he : e ∈ p) (he' : e' ∈ p) (hn : e.name = e'.name) :
    e = e' := by
  induction p with
  | nil => cases he
  | cons x xs ih =>
    rw [List.map_cons, List.nodup_cons] at h
    have h1 := List.mem_cons.mp he
    have h2 := List.mem_cons.mp he'
    clear he he'
    rcases h1 with h1 | h1 <;> rcases h2 with h2 | h2
    · rw [h1, h2]
    · exact absurd (List.mem_map_of_mem (f := IdEntry.name) h2) (by rw [← hn, h1]; exact h.1)
    · exact absurd (List.mem_map_of_mem (f := IdEntry.name) h1) (by rw [hn, h2]; exact h.1)
    · exact ih h.2 h1 h2

theorem createKey_some {p p' : Pib} {id k : Name} {ds : List Block} (h : createKey p id ds = some (k, p')) :
    ∃ e b, p.get id = some e ∧ k = id ++ [keyComponent, b] ∧ k ∉ e.keys ∧ p' = p.addKey id k := by
  unfold createKey at h
  split at h
  · cases h
  · next e he =>
    split at h
    · cases h
    · next b hb =>
      injection h with h
      injection h with h1 h2
      have := List.find?_some hb
      refine ⟨e, b, he, h1.symm, ?_, ?_⟩
      · rw [← h1]; simpa using this
      · rw [← h2, ← h1]; rfl

theorem createIdentity_some {p p' : Pib} {id k : Name} {ds : List Block} (hn : p.get id = none)
    (h : createIdentity p id ds = some (k, p')) :
    (∃ b, k = id ++ [keyComponent, b]) ∧ p' = p ++ [⟨id, [k], some k⟩] := by
  unfold createIdentity at h
  obtain ⟨e, b, h1, h2, h3, h4⟩ := createKey_some h
  refine ⟨⟨b, h2⟩, ?_⟩
  rw [h4]
  have hne := Pib.get_none hn
  unfold Pib.addKey
  rw [List.map_append]
  congr 1
  · conv => rhs; rw [← List.map_id p]
    apply List.map_congr_left
    intro e he
    rw [if_neg (hne e he)]
    rfl
  · simp

theorem Pib.deleteIdentity_kept {p q : Pib} {id : Name} (h : p.Kept q) (hn : ∀ e ∈ p, e.name ≠ id) : p.Kept (q.deleteIdentity id) := by
  intro e he
  obtain ⟨e', h1, h2, h3⟩ := h e he
  refine ⟨e', ?_, h2, h3⟩
  unfold Pib.deleteIdentity
  rw [List.mem_filter]
  refine ⟨h1, ?_⟩
  have := hn e he
  rw [← h2] at this
  simpa using this

theorem Pib.deleteKey_kept {p q : Pib} {id k : Name} (hd : ∀ e ∈ p, ∀ x, e.dflt = some x → x ∈ e.keys) (h : p.Kept q)
    (hn : ∀ e ∈ p, e.name = id → k ∉ e.keys) : p.Kept (q.deleteKey id k) := by
  intro e he
  obtain ⟨e', h1, h2, h3, h4⟩ := h e he
  refine ⟨_, List.mem_map_of_mem h1, ?_⟩
  split
  · next hi =>
    have hk := hn e he (h2 ▸ hi)
    refine ⟨h2, ?_, ?_⟩
    · intro x hx
      rw [List.mem_filter]
      refine ⟨h3 x hx, ?_⟩
      have : x ≠ k := fun hh => hk (hh ▸ hx)
      simpa using this
    · intro x hx
      have : x ≠ k := fun hh => hk (hh ▸ hd e he x hx)
      dsimp only
      rw [h4 x hx, if_neg (by simpa using this)]
  · exact ⟨h2, h3, h4⟩

theorem Pib.deleteKey_addKey {p : Pib} (hw : p.Wf) {id k : Name} (hn : ∀ e ∈ p, e.name = id → k ∉ e.keys) :
    (p.addKey id k).deleteKey id k = p := by
  unfold Pib.addKey Pib.deleteKey
  rw [List.map_map]
  conv => rhs; rw [← List.map_id p]
  apply List.map_congr_left
  intro e he
  simp only [Function.comp]
  by_cases hi : e.name = id
  · have hk := hn e he hi
    rw [if_pos hi]
    dsimp only
    rw [if_pos hi]
    have h1 : (e.keys ++ [k]).filter (fun x => !(x == k)) = e.keys := by
      rw [List.filter_append]
      have : e.keys.filter (fun x => !(x == k)) = e.keys := by
        rw [List.filter_eq_self]
        intro x hx
        have : x ≠ k := fun hh => hk (hh ▸ hx)
        simpa using this
      rw [this]
      simp
    rw [h1]
    obtain ⟨nm, ks, df⟩ := e
    cases df with
    | none => simp
    | some d =>
      have : d ≠ k := fun hh => hk (hh ▸ hw.dflt _ he d rfl)
      simp [this]
  · rw [if_neg hi, if_neg hi]
    rfl

theorem Pib.deleteIdentity_append {p : Pib} {id k : Name} (hn : ∀ e ∈ p, e.name ≠ id) :
    Pib.deleteIdentity (p ++ [⟨id, [k], some k⟩]) id = p := by
  unfold Pib.deleteIdentity
  rw [List.filter_append]
  have : p.filter (fun e => !(e.name == id)) = p := by
    rw [List.filter_eq_self]
    intro e he
    simpa using hn e he
  rw [this]
  simp

/-! ## Callbacks -/

/-- the KeyChain and the notes about what was created are the same -/
def Client.SameKeys (c c' : Client) : Prop := c'.pib = c.pib ∧ c'.newIdentity = c.newIdentity ∧ c'.newKey = c.newKey

theorem Client.SameKeys.refl (c : Client) : c.SameKeys c := ⟨rfl, rfl, rfl⟩

theorem runChallenge_keys (C : Crypto) (env : ClientEnv) (c : Client) (r : Request) (ty : Bytes) :
    c.SameKeys (runChallenge C env c r ty).st ∧ (runChallenge C env c r ty).st.request ≠ none := by
  unfold runChallenge
  dsimp only
  generalize selectOrContinueChallenge r ty = x at *
  split
  · exact ⟨⟨rfl, rfl, rfl⟩, by simp⟩
  · exact ⟨⟨rfl, rfl, rfl⟩, by simp⟩
  · next keys hk =>
    obtain ⟨ls, h2⟩ := challengeParams_same { c with request := some x.1 } x.1 ty keys
    generalize challengeParams { c with request := some x.1 } x.1 ty keys = y at *
    split
    · rw [h2]; exact ⟨⟨rfl, rfl, rfl⟩, by simp⟩
    · rw [h2]; exact ⟨⟨rfl, rfl, rfl⟩, by simp⟩
    · next m hm =>
      generalize genChallengeInterest C x.1 m env.rnd = z at *
      split
      · rw [h2]; exact ⟨⟨rfl, rfl, rfl⟩, by simp⟩
      · rw [h2]; exact ⟨⟨rfl, rfl, rfl⟩, by simp⟩
      · rw [h2]; exact ⟨⟨rfl, rfl, rfl⟩, by simp⟩

theorem newCb_keys (C : Crypto) (env : ClientEnv) (c : Client) (r : Request) (d : Data) :
    c.SameKeys (newCb C env c r d).st ∧ (newCb C env c r d).st.request ≠ none := by
  unfold newCb
  dsimp only
  generalize onNewResponse C r d env.stack = x at *
  split
  · exact ⟨⟨rfl, rfl, rfl⟩, by simp⟩
  · exact ⟨⟨rfl, rfl, rfl⟩, by simp⟩
  · next cs hcs =>
    split
    · exact ⟨⟨rfl, rfl, rfl⟩, by simp⟩
    · split
      · exact runChallenge_keys C env { c with request := some x.1 } x.1 (bytes! "email")
      · obtain ⟨ls, h2⟩ := captureIndex_same cs.length 3 { c with request := some x.1 }
        split
        · next c2 hc =>
          rw [hc] at h2
          dsimp only at h2
          subst h2
          exact ⟨⟨rfl, rfl, rfl⟩, by simp⟩
        · next i c2 hc =>
          rw [hc] at h2
          dsimp only at h2
          subst h2
          exact runChallenge_keys C env { c with request := some x.1, stdin := ls } x.1 (cs[i]?.getD [])

theorem challengeCb_keys (C : Crypto) (env : ClientEnv) (c : Client) (r : Request) (d : Data) :
    c.SameKeys (challengeCb C env c r d).st ∧ (challengeCb C env c r d).st.request ≠ none := by
  unfold challengeCb
  dsimp only
  generalize onChallengeResponse C r d env.now = x at *
  split
  · exact ⟨⟨rfl, rfl, rfl⟩, by simp⟩
  · exact ⟨⟨rfl, rfl, rfl⟩, by simp⟩
  · split
    · exact ⟨⟨rfl, rfl, rfl⟩, by simp⟩
    · exact runChallenge_keys C env { c with request := some x.1 } x.1 x.1.challengeType

theorem probeParams_keysame (c : Client) (p : CaProfile) : c.SameKeys (probeParams c p).2 := by
  unfold probeParams
  split
  · exact .refl c
  · obtain ⟨ls, h⟩ := captureValues_same (p.probeParameterKeys.foldl (fun m k => mmInsert k [] m) []) c
    unfold captureKeys
    dsimp only
    rw [h]
    exact ⟨rfl, rfl, rfl⟩

theorem runDiscovery_keys (c : Client) (n full : Name) : c.SameKeys (runDiscovery c n full).st := by
  unfold runDiscovery
  split <;> exact ⟨rfl, rfl, rfl⟩

/-- a CA is being looked for -/
def Early (w : Option Awaiting) : Prop := (∃ f, w = some (.discovery f)) ∨ (∃ f, w = some (.info f)) ∨ ∃ p, w = some (.probe p)

theorem Client.Keeps.early {c : Client} {p : CaProfile} {o : ClientOut} (h : c.Keeps p o) (he : Early o.st.pending) : Early c.pending := by
  rcases h.pending with h | h | h | h | h
  · rw [← h]; exact he
  all_goals
    rw [h] at he
    rcases he with ⟨f, he⟩ | ⟨f, he⟩ | ⟨f, he⟩ <;> cases he

/-- the name is one of those in the PROBE reply -/
theorem chooseName_mem {c c' : Client} {ns : List (Name × Int)} {n : Name} (h : chooseName c ns = (c', some n)) : n ∈ ns.map (·.1) := by
  unfold chooseName at h
  split at h
  · cases h
  · injection h with _ h; injection h with h; simp [h]
  · rw [getline_eq] at h
    dsimp only at h
    split at h
    · cases h
    · next i hi =>
      injection h with _ h
      rw [Option.map_eq_some_iff] at h
      obtain ⟨x, h1, h2⟩ := h
      exact List.mem_map.mpr ⟨x, List.mem_of_getElem? h1, h2⟩

/-- what a callback does to the KeyChain: it is a signal; or `runNew` with a name from the PROBE reply; or nothing -/
theorem step_keys (C : Crypto) (env : ClientEnv) (c : Client) (e : ClientEvent) :
    e = .signal ∨
    (∃ d w p ls nm names rs, e = .reply d w ∧ c.pending = some (.probe p) ∧ probeDecode d.content [] [] = .ok (names, rs) ∧
      nm ∈ names.map (·.1) ∧ c.step C env e = runNew C env { c with stdin := ls } p nm) ∨
    (c.SameKeys (c.step C env e).st ∧ (Early (c.step C env e).st.pending → Early c.pending) ∧
      ((c.step C env e).st.request = c.request ∨ (c.request ≠ none ∧ (c.step C env e).st.request ≠ none))) := by
  cases e with
  | signal => exact .inl rfl
  | nack =>
    right; right
    have hs : c.step C env .nack = if c.pending = Option.none then { st := c } else { st := c, ended := .exit 1 } := rfl
    rw [hs]
    split <;> exact ⟨.refl c, fun h => h, .inl rfl⟩
  | timeout =>
    right; right
    refine ⟨⟨rfl, rfl, rfl⟩, ?_, .inl rfl⟩
    rintro (⟨f, he⟩ | ⟨f, he⟩ | ⟨f, he⟩) <;> cases he
  | reply d w =>
    cases hpend : c.pending with
    | none =>
      right; right
      have hs : c.step C env (.reply d w) = { st := c } := by unfold Client.step; rw [hpend]
      rw [hs]
      exact ⟨.refl c, fun h => hpend ▸ h, .inl rfl⟩
    | some aw =>
      cases aw with
      | discovery full =>
        right; right
        have hs : c.step C env (.reply d w) = discoveryCb c full d := by unfold Client.step; rw [hpend]
        rw [hs]
        unfold discoveryCb
        split <;> exact ⟨⟨rfl, rfl, rfl⟩, fun _ => .inl ⟨_, rfl⟩, .inl rfl⟩
      | info full =>
        right; right
        have hs : c.step C env (.reply d w) = infoCb C c full d := by unfold Client.step; rw [hpend]
        rw [hs]
        have hearly : Early (some (.info full)) := .inr (.inl ⟨_, rfl⟩)
        unfold infoCb
        split
        · exact ⟨⟨rfl, rfl, rfl⟩, fun _ => hearly, .inl rfl⟩
        · exact ⟨⟨rfl, rfl, rfl⟩, fun _ => hearly, .inl rfl⟩
        · next p hp =>
          split
          · split
            · rw [getline_eq]
              dsimp only
              split
              · refine ⟨?_, fun _ => hearly, .inl ?_⟩
                · exact probeParams_keysame { c with stdin := c.stdin.tail, trusted := p.cert } p
                · exact (probeParams_same { c with stdin := c.stdin.tail, trusted := p.cert } p).2.1
              · exact ⟨⟨rfl, rfl, rfl⟩, fun _ => hearly, .inl rfl⟩
            · exact ⟨⟨rfl, rfl, rfl⟩, fun _ => hearly, .inl rfl⟩
          · exact ⟨probeParams_keysame c p, fun _ => hearly, .inl (probeParams_same c p).2.1⟩
      | probe p =>
        have hs : c.step C env (.reply d w) = probeCb C env c p d := by unfold Client.step; rw [hpend]
        rw [hs]
        have hearly : Early (some (.probe p)) := .inr (.inr ⟨_, rfl⟩)
        unfold probeCb
        split
        · exact .inr (.inr ⟨⟨rfl, rfl, rfl⟩, fun _ => hearly, .inl rfl⟩)
        · exact .inr (.inr ⟨⟨rfl, rfl, rfl⟩, fun _ => hearly, .inl rfl⟩)
        · next names rs hok =>
          split
          · right; right
            obtain ⟨⟨ls, hl⟩, _⟩ := chooseRedirect_spec c rs
            split
            · next c1 x hc =>
              rw [hc] at hl
              dsimp only at hl
              subst hl
              exact ⟨⟨rfl, rfl, rfl⟩, fun _ => hearly, .inl rfl⟩
            · next c1 full hc =>
              rw [hc] at hl
              dsimp only at hl
              subst hl
              split
              · next id hid => exact ⟨runDiscovery_keys _ _ _, fun _ => hearly, .inl (runDiscovery_safe _ _ _).2.1⟩
              · exact ⟨⟨rfl, rfl, rfl⟩, fun _ => hearly, .inl rfl⟩
              · exact ⟨⟨rfl, rfl, rfl⟩, fun _ => hearly, .inl rfl⟩
          · obtain ⟨ls, hl⟩ := chooseName_same c names
            split
            · next c1 hc =>
              right; right
              rw [hc] at hl
              dsimp only at hl
              subst hl
              exact ⟨⟨rfl, rfl, rfl⟩, fun _ => hearly, .inl rfl⟩
            · next c1 nm hc =>
              right; left
              have hm := chooseName_mem hc
              rw [hc] at hl
              dsimp only at hl
              subst hl
              obtain ⟨_, h3⟩ := onProbeResponse_ok hok
              exact ⟨d, w, p, ls, nm, names, rs, rfl, rfl, h3, hm, by rw [hpend]⟩
      | new =>
        right; right
        cases hreq : c.request with
        | none =>
          have hs : c.step C env (.reply d w) = { st := c, ended := .ub .nullDeref } := by unfold Client.step; rw [hpend, hreq]
          rw [hs]
          exact ⟨.refl c, fun h => hpend ▸ h, .inl hreq⟩
        | some r =>
          have hs : c.step C env (.reply d w) = newCb C env c r d := by unfold Client.step; rw [hpend, hreq]
          rw [hs]
          obtain ⟨h1, h2⟩ := newCb_keys C env c r d
          exact ⟨h1, fun h => hpend ▸ (newCb_keeps C env c r d).early h, .inr ⟨by simp, h2⟩⟩
      | challenge =>
        right; right
        cases hreq : c.request with
        | none =>
          have hs : c.step C env (.reply d w) = { st := c, ended := .ub .nullDeref } := by unfold Client.step; rw [hpend, hreq]
          rw [hs]
          exact ⟨.refl c, fun h => hpend ▸ h, .inl hreq⟩
        | some r =>
          have hs : c.step C env (.reply d w) = challengeCb C env c r d := by unfold Client.step; rw [hpend, hreq]
          rw [hs]
          obtain ⟨h1, h2⟩ := challengeCb_keys C env c r d
          exact ⟨h1, fun h => hpend ▸ (challengeCb_keeps C env c r d).early h, .inr ⟨by simp, h2⟩⟩
      | fetch =>
        right; right
        have hs : c.step C env (.reply d w) = certFetchCb C c w := by unfold Client.step; rw [hpend]
        rw [hs]
        unfold certFetchCb
        split
        · exact ⟨⟨rfl, rfl, rfl⟩, fun h => hpend ▸ h, .inl rfl⟩
        · exact ⟨⟨rfl, rfl, rfl⟩, fun h => hpend ▸ h, .inl rfl⟩
        · split
          · refine ⟨⟨rfl, rfl, rfl⟩, ?_, .inl rfl⟩
            rintro (⟨f, he⟩ | ⟨f, he⟩ | ⟨f, he⟩) <;> cases he
          · exact ⟨⟨rfl, rfl, rfl⟩, fun h => hpend ▸ h, .inl rfl⟩

/-! ## `runNew` -/

theorem runNewWith_keys (C : Crypto) (env : ClientEnv) (c : Client) (p : CaProfile) (id : Name) (hours : Int) :
    (runNewWith C env c p id hours).st.request ≠ none ∧
    ∃ r, (prepareKey { c with request := some r } id env.keyIds = none ∧ c.SameKeys (runNewWith C env c p id hours).st) ∨
    ∃ c2 e k, prepareKey { c with request := some r } id env.keyIds = some (c2, e, k) ∧
      ((c2.newIdentity = [] ∧ (captureKeyName c2 e env.keyIds2).1.SameKeys (runNewWith C env c p id hours).st) ∨
        (c2.newIdentity ≠ [] ∧ c2.SameKeys (runNewWith C env c p id hours).st)) := by
  unfold runNewWith
  dsimp only
  split
  · next h => exact ⟨by simp, _, .inl ⟨h, rfl, rfl, rfl⟩⟩
  · next c2 e k hp =>
    have hreq2 : c2.request ≠ none := by rw [(prepareKey_like hp).1.2.2]; simp
    have hb : ∃ c3 chosen, (if c2.newIdentity = [] then captureKeyName c2 e env.keyIds2 else (c2, Sum.inr k)) = (c3, chosen) ∧
        c3.request ≠ none ∧
        ((c2.newIdentity = [] ∧ (captureKeyName c2 e env.keyIds2).1 = c3) ∨ (c2.newIdentity ≠ [] ∧ c2 = c3)) := by
      split
      · next hn =>
        refine ⟨(captureKeyName c2 e env.keyIds2).1, (captureKeyName c2 e env.keyIds2).2, rfl, ?_, .inl ⟨hn, rfl⟩⟩
        rw [(captureKeyName_like c2 e env.keyIds2).1.2.2]
        exact hreq2
      · next hn => exact ⟨_, _, rfl, hreq2, .inr ⟨hn, rfl⟩⟩
    obtain ⟨c3, chosen, heq, hreq3, hc3⟩ := hb
    rw [heq]
    dsimp only
    have hdone : ∀ c', c3.SameKeys c' → ∃ r, (prepareKey { c with request := some r } id env.keyIds = none ∧ c.SameKeys c') ∨
        ∃ c2 e k, prepareKey { c with request := some r } id env.keyIds = some (c2, e, k) ∧
        ((c2.newIdentity = [] ∧ (captureKeyName c2 e env.keyIds2).1.SameKeys c') ∨ (c2.newIdentity ≠ [] ∧ c2.SameKeys c')) := by
      intro c' hc'
      refine ⟨_, .inr ⟨c2, e, k, hp, ?_⟩⟩
      rcases hc3 with ⟨h1, h2⟩ | ⟨h1, h2⟩
      · exact .inl ⟨h1, h2 ▸ hc'⟩
      · exact .inr ⟨h1, h2 ▸ hc'⟩
    split
    · exact ⟨hreq3, hdone _ ⟨rfl, rfl, rfl⟩⟩
    · split
      · exact ⟨hreq3, hdone _ ⟨rfl, rfl, rfl⟩⟩
      · split
        · exact ⟨by simp, hdone _ ⟨rfl, rfl, rfl⟩⟩
        · exact ⟨by simp, hdone _ ⟨rfl, rfl, rfl⟩⟩
        · exact ⟨by simp, hdone _ ⟨rfl, rfl, rfl⟩⟩
        · exact ⟨by simp, hdone _ ⟨rfl, rfl, rfl⟩⟩

theorem captureKeyName_ends {c c' : Client} {e : IdEntry} {ds : List Block} {x : Ended} (h : captureKeyName c e ds = (c', .inl x)) : x ≠ .going := by
  unfold captureKeyName at h
  rw [getline_eq] at h
  dsimp only at h
  split at h
  · split at h
    · injection h with _ h; injection h with h; subst h; simp
    · injection h with _ h; cases h
  · split at h
    · injection h with _ h; injection h with h; subst h; simp
    · split at h
      · injection h with _ h; injection h with h; subst h; simp
      · injection h with _ h; cases h

theorem runNew_going {C : Crypto} {env : ClientEnv} {c : Client} {p : CaProfile} {id : Name}
    (h : (runNew C env c p id).ended = .going) : ¬ Early (runNew C env c p id).st.pending := by
  have hno : ∀ w, w = none ∨ w = some Awaiting.new → ¬ Early w := by
    rintro w (rfl | rfl) (⟨f, he⟩ | ⟨f, he⟩ | ⟨f, he⟩) <;> cases he
  unfold runNew at h ⊢
  split at h
  · cases h
  · next hr c1 hc =>
    unfold runNewWith at h ⊢
    dsimp only at h ⊢
    split at h
    · cases h
    · next c2 e k hp =>
      have hb : ∃ c3 chosen, (if c2.newIdentity = [] then captureKeyName c2 e env.keyIds2 else (c2, Sum.inr k)) = (c3, chosen) ∧
          ∀ x, chosen = .inl x → x ≠ .going := by
        split
        · refine ⟨(captureKeyName c2 e env.keyIds2).1, (captureKeyName c2 e env.keyIds2).2, rfl, ?_⟩
          intro x hx
          exact captureKeyName_ends (c' := (captureKeyName c2 e env.keyIds2).1) (Prod.ext rfl hx)
        · exact ⟨_, _, rfl, by simp⟩
      obtain ⟨c3, chosen, heq, hend⟩ := hb
      rw [heq] at h ⊢
      dsimp only at h ⊢
      split at h
      · exact absurd h (hend _ rfl)
      · split at h
        · cases h
        · split at h
          · cases h
          · cases h
          · exact hno _ (.inl rfl)
          · exact hno _ (.inr rfl)

/-- what `prepareKey` does -/
theorem prepareKey_some {c c' : Client} {id k : Name} {ds : List Block} {e : IdEntry} (h : prepareKey c id ds = some (c', e, k)) :
    (c.pib.get id = none ∧ (∃ b, k = id ++ [keyComponent, b]) ∧ c'.pib = c.pib ++ [⟨id, [k], some k⟩] ∧ c'.newIdentity = id ∧
      c'.newKey = c.newKey ∧ e = ⟨id, [k], some k⟩) ∨
    (c.pib.get id = some e ∧ e.dflt = some k ∧ c' = c) ∨
    ∃ e0 b, c.pib.get id = some e0 ∧ e0.dflt = none ∧ k = id ++ [keyComponent, b] ∧ k ∉ e0.keys ∧ c'.pib = c.pib.addKey id k ∧
      c'.newIdentity = c.newIdentity ∧ c'.newKey = k ∧ e = { e0 with keys := e0.keys ++ [k], dflt := some k } := by
  unfold prepareKey at h
  split at h
  · next hn =>
    split at h
    · cases h
    · next k' pib' hc =>
      injection h with h; injection h with h1 h2; injection h2 with h2 h3
      subst h1; subst h2; subst h3
      obtain ⟨g1, g2⟩ := createIdentity_some hn hc
      exact .inl ⟨hn, g1, g2, rfl, rfl, rfl⟩
  · next e0 he =>
    split at h
    · next k' hk =>
      injection h with h; injection h with h1 h2; injection h2 with h2 h3
      subst h1; subst h2; subst h3
      exact .inr (.inl ⟨he, hk, rfl⟩)
    · next hk =>
      split at h
      · cases h
      · next k' pib' hc =>
        injection h with h; injection h with h1 h2; injection h2 with h2 h3
        subst h1; subst h2; subst h3
        obtain ⟨e1, b, g1, g2, g3, g4⟩ := createKey_some hc
        rw [he] at g1
        injection g1 with g1
        subst g1
        exact .inr (.inr ⟨e0, b, he, hk, g2, g3, g4, rfl, rfl, rfl⟩)

/-- what `captureKeyName` does -/
theorem captureKeyName_keys (c : Client) (e : IdEntry) (ds : List Block) :
    c.SameKeys (captureKeyName c e ds).1 ∨
    ∃ e0 b, c.pib.get e.name = some e0 ∧ (e.name ++ [keyComponent, b]) ∉ e0.keys ∧
      (captureKeyName c e ds).1.pib = c.pib.addKey e.name (e.name ++ [keyComponent, b]) ∧
      (captureKeyName c e ds).1.newIdentity = c.newIdentity ∧ (captureKeyName c e ds).1.newKey = e.name ++ [keyComponent, b] := by
  unfold captureKeyName
  rw [getline_eq]
  dsimp only
  split
  · split
    · exact .inl ⟨rfl, rfl, rfl⟩
    · next k pib' hc =>
      obtain ⟨e1, b, g1, g2, g3, g4⟩ := createKey_some hc
      subst g2
      exact .inr ⟨e1, b, g1, g3, g4, rfl, rfl⟩
  · split
    · exact .inl ⟨rfl, rfl, rfl⟩
    · split <;> exact .inl ⟨rfl, rfl, rfl⟩

/-! ## Existing keys are kept -/

/-- nothing that was there before is marked as created -/
structure Harmless (pib : Pib) (c : Client) : Prop where
  kept : pib.Kept c.pib
  names : (c.pib.map IdEntry.name).Nodup
  identity : c.newIdentity ≠ [] → ∀ e ∈ pib, e.name ≠ c.newIdentity
  key : c.newKey ≠ [] → ∃ id b, c.newKey = id ++ [keyComponent, b] ∧ ∀ e ∈ pib, e.name = id → c.newKey ∉ e.keys

theorem Harmless.same {pib : Pib} {c c' : Client} (h : Harmless pib c) (hs : c.SameKeys c') : Harmless pib c' := by
  obtain ⟨h1, h2, h3⟩ := hs
  obtain ⟨a, b, d, e⟩ := h
  refine ⟨h1 ▸ a, h1 ▸ b, ?_, ?_⟩
  · rw [h2]; exact d
  · rw [h3]; exact e

theorem Harmless.unused {pib : Pib} {c : Client} (h : Harmless pib c) {id k : Name} {e0 : IdEntry} (hg : c.pib.get id = some e0)
    (hk : k ∉ e0.keys) : ∀ e ∈ pib, e.name = id → k ∉ e.keys := by
  intro e he hn hh
  obtain ⟨e', g1, g2, g3, _⟩ := h.kept e he
  obtain ⟨g4, g5⟩ := Pib.get_some hg
  have : e' = e0 := Pib.same_name h.names g1 g4 (by rw [g2, hn, g5])
  subst this
  exact hk (g3 k hh)

theorem Harmless.add {pib : Pib} {c c' : Client} (h : Harmless pib c) {id : Name} {b : Block} {e0 : IdEntry} (hg : c.pib.get id = some e0)
    (hk : (id ++ [keyComponent, b]) ∉ e0.keys) (h1 : c'.pib = c.pib.addKey id (id ++ [keyComponent, b]))
    (h2 : c'.newIdentity = c.newIdentity) (h3 : c'.newKey = id ++ [keyComponent, b]) : Harmless pib c' := by
  refine ⟨?_, ?_, ?_, ?_⟩
  · rw [h1]; exact h.kept.trans (.addKey _ _ _)
  · rw [h1, Pib.addKey_names]; exact h.names
  · rw [h2]; exact h.identity
  · intro _
    exact ⟨id, b, h3, h3 ▸ h.unused hg hk⟩

theorem Harmless.prepareKey {pib : Pib} {c c' : Client} (h : Harmless pib c) {id k : Name} {ds : List Block} {e : IdEntry}
    (hp : Ndncert.prepareKey c id ds = some (c', e, k)) : Harmless pib c' ∧ e.name = id := by
  rcases prepareKey_some hp with ⟨g1, g2, g3, g4, g5, g6⟩ | ⟨g1, g2, rfl⟩ | ⟨e0, b, g1, g2, g3, g4, g5, g6, g7, g8⟩
  · refine ⟨⟨?_, ?_, ?_, ?_⟩, by rw [g6]⟩
    · rw [g3]; exact h.kept.trans (.append _ _)
    · rw [g3, List.map_append, List.nodup_append]
      refine ⟨h.names, by simp, ?_⟩
      intro a ha b hb
      obtain ⟨x, hx, rfl⟩ := List.mem_map.mp ha
      simp only [List.map_cons, List.map_nil, List.mem_singleton] at hb
      subst hb
      exact Pib.get_none g1 x hx
    · rw [g4]
      intro _ x hx
      obtain ⟨x', k1, k2, _⟩ := h.kept x hx
      rw [← k2]
      exact Pib.get_none g1 x' k1
    · rw [g5]; exact h.key
  · exact ⟨h, (Pib.get_some g1).2⟩
  · subst g3
    exact ⟨h.add g1 g4 g5 g6 g7, by rw [g8]; exact (Pib.get_some g1).2⟩

theorem Harmless.runNew {pib : Pib} {c : Client} (h : Harmless pib c) (C : Crypto) (env : ClientEnv) (p : CaProfile) (id : Name) :
    Harmless pib (Ndncert.runNew C env c p id).st := by
  unfold Ndncert.runNew
  obtain ⟨ls, hl⟩ := captureValidity_same 3 c
  split
  · next c1 hc =>
    rw [hc] at hl
    dsimp only at hl
    subst hl
    exact h.same ⟨rfl, rfl, rfl⟩
  · next hr c1 hc =>
    rw [hc] at hl
    dsimp only at hl
    subst hl
    obtain ⟨_, r, ⟨_, hs⟩ | ⟨c2, e, k, hp, hs⟩⟩ := runNewWith_keys C env { c with stdin := ls } p id hr
    · exact (h.same ⟨rfl, rfl, rfl⟩).same hs
    · have h0 : Harmless pib { c with stdin := ls, request := some r } := h.same ⟨rfl, rfl, rfl⟩
      obtain ⟨h2, hn⟩ := h0.prepareKey hp
      rcases hs with ⟨_, hs⟩ | ⟨_, hs⟩
      · refine Harmless.same ?_ hs
        rcases captureKeyName_keys c2 e env.keyIds2 with hk | ⟨e0, b, g1, g2, g3, g4, g5⟩
        · exact h2.same hk
        · exact h2.add g1 g2 g3 g4 g5
      · exact h2.same hs

theorem identityOfKeyName_key (id : Name) (b : Block) : identityOfKeyName (id ++ [keyComponent, b]) = .ok id := by
  unfold identityOfKeyName
  rw [if_pos]
  · simp
  · simp

theorem Harmless.signal {pib : Pib} (hw : pib.Wf) {c : Client} (h : Harmless pib c) : pib.Kept (handleSignal c).st.pib := by
  unfold handleSignal
  split
  · exact h.kept
  · split
    · next hn =>
      split
      · exact h.kept
      · exact Pib.deleteIdentity_kept h.kept (h.identity hn)
    · split
      · next hk =>
        obtain ⟨id, b, h1, h2⟩ := h.key hk
        split
        · next id' hid =>
          rw [h1, identityOfKeyName_key] at hid
          cases hid
          split
          · exact Pib.deleteKey_kept hw.dflt h.kept h2
          · exact h.kept
        · exact h.kept
        · exact h.kept
      · exact h.kept

variable {C : Crypto} {T : TextIO} {file : Bytes} {pib : Pib} {stdin : List Bytes}

/-- a signal ends the program -/
theorem handleSignal_ends (c : Client) : (handleSignal c).ended ≠ .going := by
  unfold handleSignal
  split
  · simp
  · split
    · split <;> simp
    · split
      · split
        · split <;> simp
        · simp
        · simp
      · simp

theorem ClientRun.harmless (hw : pib.Wf) {first : List Act} {h : List ClientStep} {c : Client} {x : Ended}
    (run : ClientRun C T file pib stdin first h c x) : pib.Kept c.pib ∧ (x = .going → Harmless pib c) := by
  induction run with
  | start o e =>
    have hs := e ▸ selectCaProfile_started T file { pib := pib, stdin := stdin }
    have h0 : Harmless pib { pib := pib, stdin := stdin } := ⟨.refl _, hw.names, by simp, by simp⟩
    have h1 := h0.same ⟨hs.pib, hs.newIdentity, hs.newKey⟩
    exact ⟨h1.kept, fun _ => h1⟩
  | @step first h c e env run o eo ih =>
    have hc := (ih).2 rfl
    rcases step_keys C env c e with rfl | ⟨d, w, p, ls, nm, names, rs, _, _, _, _, h5⟩ | ⟨h1, _⟩
    · have : c.step C env .signal = handleSignal c := rfl
      rw [this] at eo
      subst eo
      exact ⟨hc.signal hw, fun h => absurd h (handleSignal_ends c)⟩
    · rw [eo] at h5
      subst h5
      have := Harmless.runNew (c := { c with stdin := ls }) (hc.same ⟨rfl, rfl, rfl⟩) C env p nm
      exact ⟨this.kept, fun _ => this⟩
    · rw [eo] at h1
      have := hc.same h1
      exact ⟨this.kept, fun _ => this⟩

/-! ## The KeyChain is restored -/

/-- what the client created, exactly -/
inductive Exact (pib : Pib) (c : Client) : Prop
  | same (h1 : c.pib = pib) (h2 : c.newIdentity = []) (h3 : c.newKey = [])
  | identity (id k : Name) (h1 : id ≠ []) (h2 : ∀ e ∈ pib, e.name ≠ id) (h3 : c.pib = pib ++ [⟨id, [k], some k⟩])
      (h4 : c.newIdentity = id) (h5 : c.request ≠ none)
  | key (id : Name) (b : Block) (h1 : ∀ e ∈ pib, e.name = id → (id ++ [keyComponent, b]) ∉ e.keys) (h2 : ∃ e ∈ pib, e.name = id)
      (h3 : c.pib = pib.addKey id (id ++ [keyComponent, b])) (h4 : c.newIdentity = []) (h5 : c.newKey = id ++ [keyComponent, b])
      (h6 : c.request ≠ none)

theorem Exact.keys {pib : Pib} {c c' : Client} (h : Exact pib c) (hs : c.SameKeys c')
    (hr : c'.request = c.request ∨ c'.request ≠ none) : Exact pib c' := by
  obtain ⟨s1, s2, s3⟩ := hs
  have hreq : c.request ≠ none → c'.request ≠ none := by
    intro h
    rcases hr with hr | hr
    · rw [hr]; exact h
    · exact hr
  cases h with
  | same h1 h2 h3 => exact .same (s1.trans h1) (s2.trans h2) (s3.trans h3)
  | identity id k h1 h2 h3 h4 h5 => exact .identity id k h1 h2 (s1.trans h3) (s2.trans h4) (hreq h5)
  | key id b h1 h2 h3 h4 h5 h6 => exact .key id b h1 h2 (s1.trans h3) (s2.trans h4) (s3.trans h5) (hreq h6)

theorem Pib.get_of_names {p : Pib} (hn : (p.map IdEntry.name).Nodup) {e : IdEntry} (he : e ∈ p) : p.get e.name = some e := by
  cases h : p.get e.name with
  | none => exact absurd rfl (Pib.get_none h e he)
  | some e' =>
    obtain ⟨h1, h2⟩ := Pib.get_some h
    rw [Pib.same_name hn h1 he h2]

theorem Exact.runNew {pib : Pib} (hw : pib.Wf) (hd : ∀ e ∈ pib, e.dflt ≠ none) {c : Client} (h1 : c.pib = pib) (h2 : c.newIdentity = [])
    (h3 : c.newKey = []) (C : Crypto) (env : ClientEnv) (p : CaProfile) {id : Name} (hid : id ≠ []) :
    Exact pib (Ndncert.runNew C env c p id).st := by
  unfold Ndncert.runNew
  obtain ⟨ls, hl⟩ := captureValidity_same 3 c
  split
  · next c1 hc =>
    rw [hc] at hl
    dsimp only at hl
    subst hl
    exact .same h1 h2 h3
  · next hr c1 hc =>
    rw [hc] at hl
    dsimp only at hl
    subst hl
    obtain ⟨hreq, r, ⟨_, s1, s2, s3⟩ | ⟨c2, e, k, hp, hs⟩⟩ := runNewWith_keys C env { c with stdin := ls } p id hr
    · exact .same (s1.trans h1) (s2.trans h2) (s3.trans h3)
    · rcases prepareKey_some hp with ⟨g1, g2, g3, g4, g5, g6⟩ | ⟨g1, g2, rfl⟩ | ⟨e0, b, g1, g2, _⟩
      · rcases hs with ⟨hs, _⟩ | ⟨_, s1, s2, s3⟩
        · exact absurd (g4.symm.trans hs) hid
        · refine .identity id k hid ?_ (s1.trans (g3.trans ?_)) (s2.trans g4) hreq
          · intro x hx
            exact Pib.get_none g1 x (by rw [h1]; exact hx)
          · rw [h1]
      · rcases hs with ⟨_, s1, s2, s3⟩ | ⟨hs, _⟩
        · rcases captureKeyName_keys { c with stdin := ls, request := some r } e env.keyIds2 with ⟨k1, k2, k3⟩ | ⟨e0, b, k1, k2, k3, k4, k5⟩
          · exact .same (s1.trans (k1.trans h1)) (s2.trans (k2.trans h2)) (s3.trans (k3.trans h3))
          · dsimp only at k1 k3 k4
            rw [h1] at k1
            obtain ⟨m1, m2⟩ := Pib.get_some k1
            refine .key e.name b ?_ ⟨e0, m1, m2⟩ (s1.trans (k3.trans (by rw [h1]))) (s2.trans (k4.trans h2)) (s3.trans k5) hreq
            intro x hx hn
            rw [Pib.same_name hw.names hx m1 (hn.trans m2.symm)]
            exact k2
        · exact absurd h2 hs
      · dsimp only at g1
        rw [h1] at g1
        exact absurd g2 (hd _ (Pib.get_some g1).1)

theorem Exact.signal {pib : Pib} (hw : pib.Wf) {c : Client} (h : Exact pib c) : (handleSignal c).st.pib = pib ∧
    (handleSignal c).ended = .exit 1 := by
  cases h with
  | same h1 h2 h3 =>
    unfold handleSignal
    rw [if_neg (by simp [h2] : ¬ c.newIdentity ≠ []), if_neg (by simp [h3] : ¬ c.newKey ≠ [])]
    split <;> exact ⟨h1, rfl⟩
  | identity id k h1 h2 h3 h4 h5 =>
    unfold handleSignal
    rw [if_neg h5, if_pos (by rw [h4]; exact h1), h4]
    cases hg : c.pib.get id with
    | none => exact absurd rfl (Pib.get_none hg ⟨id, [k], some k⟩ (by rw [h3]; simp))
    | some e =>
      refine ⟨?_, rfl⟩
      dsimp only
      rw [h3, Pib.deleteIdentity_append h2]
  | key id b h1 h2 h3 h4 h5 h6 =>
    unfold handleSignal
    rw [if_neg h6, if_neg (by simp [h4] : ¬ c.newIdentity ≠ []), if_pos (by rw [h5]; simp), h5, identityOfKeyName_key]
    dsimp only
    obtain ⟨e, he, hn⟩ := h2
    have hhas : c.pib.has id (id ++ [keyComponent, b]) = true := by
      unfold Pib.has
      have hm : ({ e with keys := e.keys ++ [id ++ [keyComponent, b]], dflt := some (e.dflt.getD (id ++ [keyComponent, b])) } : IdEntry) ∈ c.pib := by
        rw [h3]
        unfold Pib.addKey
        rw [List.mem_map]
        exact ⟨e, he, by rw [if_pos hn]⟩
      have := Pib.get_of_names (p := c.pib) (by rw [h3, Pib.addKey_names]; exact hw.names) hm
      dsimp only at this
      rw [hn] at this
      rw [this]
      simp
    rw [if_pos hhas]
    refine ⟨?_, rfl⟩
    dsimp only
    rw [h3, Pib.deleteKey_addKey hw h1]

/-- the invariant of runs in which identities have default keys and no CA assigns the empty name -/
theorem ClientRun.exact (hw : pib.Wf) (hd : ∀ e ∈ pib, e.dflt ≠ none) {first : List Act} {h : List ClientStep} {c : Client} {x : Ended}
    (run : ClientRun C T file pib stdin first h c x)
    (hne : ∀ d, Received h d → ∀ names rs, probeDecode d.content [] [] = .ok (names, rs) → [] ∉ names.map (·.1)) :
    x = .going → Exact pib c ∧ (Early c.pending → c.request = none ∧ c.pib = pib ∧ c.newIdentity = [] ∧ c.newKey = []) := by
  induction run with
  | start o e =>
    intro _
    have hs := e ▸ selectCaProfile_started T file { pib := pib, stdin := stdin }
    exact ⟨.same hs.pib hs.newIdentity hs.newKey, fun _ => ⟨hs.request, hs.pib, hs.newIdentity, hs.newKey⟩⟩
  | @step first h c e env run o eo ih =>
    intro hx
    obtain ⟨ih1, ih2⟩ := ih (fun d hd => hne d hd.mono) rfl
    rcases step_keys C env c e with rfl | ⟨d, w, p, ls, nm, names, rs, h1, h2, h3, h4, h5⟩ | ⟨h1, h2, h3⟩
    · have : c.step C env .signal = handleSignal c := rfl
      rw [this] at eo
      subst eo
      exact absurd hx (handleSignal_ends c)
    · rw [eo] at h5
      obtain ⟨_, k1, k2, k3⟩ := ih2 (.inr (.inr ⟨p, h2⟩))
      have hnm : nm ≠ [] := fun hh => hne d ⟨⟨e, env, o.acts, o.ended⟩, by simp, w, h1⟩ names rs h3 (hh ▸ h4)
      subst h5
      refine ⟨Exact.runNew (c := { c with stdin := ls }) hw hd k1 k2 k3 C env p hnm, ?_⟩
      intro he
      exact absurd he (runNew_going hx)
    · rw [eo] at h1 h2 h3
      refine ⟨ih1.keys h1 (h3.imp_right (·.2)), ?_⟩
      intro he
      obtain ⟨k0, k1, k2, k3⟩ := ih2 (h2 he)
      obtain ⟨s1, s2, s3⟩ := h1
      refine ⟨?_, s1.trans k1, s2.trans k2, s3.trans k3⟩
      rcases h3 with h3 | h3
      · exact h3.trans k0
      · exact absurd k0 h3.1

end Ndncert
