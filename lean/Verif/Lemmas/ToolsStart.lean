import Verif.Lemmas.ToolsClient
import Verif.Lemmas.Assign
import Verif.Props.Probe
import Verif.Props.Requester

/-! # The client up to NEW -/

namespace Ndncert

variable {σ : Type} {C : Crypto} {S : StoreI σ} {Inv : σ → Prop} {cfg : CaConfig}

/-! ## The answers to the CA's questions -/

theorem foldl_insert_sorted (ks : List Bytes) {m : MMap} (h : m.Sorted) : (ks.foldl (fun m k => mmInsert k [] m) m).Sorted := by
  induction ks generalizing m with
  | nil => exact h
  | cons k ks ih => exact ih (mmInsert_sorted h)

theorem mmInsert_perm (k v : Bytes) (m : MMap) : ((mmInsert k v m).map (·.1)).Perm (k :: m.map (·.1)) := by
  induction m with
  | nil => exact List.Perm.refl _
  | cons e es ih =>
    unfold mmInsert
    split
    · exact List.Perm.refl _
    · exact (ih.cons e.1).trans (List.Perm.swap ..)

theorem foldl_insert_perm (ks : List Bytes) (m : MMap) : ((ks.foldl (fun m k => mmInsert k [] m) m).map (·.1)).Perm (ks ++ m.map (·.1)) := by
  induction ks generalizing m with
  | nil => exact List.Perm.refl _
  | cons k ks ih =>
    refine (ih _).trans (((mmInsert_perm k [] m).append_left ks).trans ?_)
    exact List.perm_middle

theorem captureValues_typed (m : MMap) (answers rest : List Bytes) (c : Client) (hs : c.stdin = answers ++ rest) (hl : answers.length = m.length) :
    captureValues m c = ((m.map (·.1)).zip answers, { c with stdin := rest }) := by
  induction m generalizing answers c with
  | nil =>
    have : answers = [] := List.eq_nil_of_length_eq_zero hl
    subst this
    rw [List.nil_append] at hs
    subst hs
    rfl
  | cons e es ih =>
    cases answers with
    | nil => cases hl
    | cons a as =>
      have ih := ih as { c with stdin := as ++ rest } rfl (by simpa using hl)
      unfold captureValues
      rw [getline_eq, hs]
      dsimp only [List.cons_append, List.headD_cons, List.tail_cons]
      rw [ih]
      rfl

theorem probeParams_typed {c : Client} {p : CaProfile} {answers rest : List Bytes} {m : MMap} (hc : c.captured = none) (hs : c.stdin = answers ++ rest)
    (ht : Typed p.probeParameterKeys answers m) : probeParams c p = (m, { c with stdin := rest, captured := some m }) := by
  have hkeys : (p.probeParameterKeys.foldl (fun m k => mmInsert k [] m) []).map (·.1) = m.map (·.1) := by
    refine List.Perm.eq_of_pairwise (le := fun a b => bytesLt b a = false) (fun a b _ _ h1 h2 => bytesLt_total h2 h1) ?_ ?_ ?_
    · rw [List.pairwise_map]; exact foldl_insert_sorted _ List.Pairwise.nil
    · rw [List.pairwise_map]; exact (inOrder_iff _).mp ht.sorted
    · exact ((foldl_insert_perm _ _).trans (by rw [List.map_nil, List.append_nil])).trans ht.keys.symm
  have hlen : (p.probeParameterKeys.foldl (fun m k => mmInsert k [] m) []).length = m.length := by
    have := congrArg List.length hkeys
    simpa using this
  unfold probeParams
  rw [hc]
  dsimp only
  unfold captureKeys
  rw [captureValues_typed _ answers rest c hs (by rw [hlen]; exact ht.count), hkeys]
  dsimp only
  have hval : (match ((m.map (·.1)).zip answers).findIdx? (fun e => e.1 == (bytes! "email")) with
      | some i => ((m.map (·.1)).zip answers).modify i (fun e => (e.1, toLower e.2))
      | none => (m.map (·.1)).zip answers) = m := by
    have hz : ((m.map (·.1)).zip answers).length = m.length := by
      rw [List.length_zip, List.length_map, ht.count, Nat.min_self]
    have hzi : ∀ j (hj : j < m.length), ((m.map (·.1)).zip answers)[j]'(by omega) = (m[j].1, answers[j]'(by rw [ht.count]; exact hj)) := by
      intro j hj
      rw [List.getElem_zip, List.getElem_map]
    have hv : ∀ j (hj : j < m.length), m[j].2 = if m[j].1 = (bytes! "email") ∧ (bytes! "email") ∉ (m.take j).map (·.1)
        then toLower (answers[j]'(by rw [ht.count]; exact hj)) else answers[j]'(by rw [ht.count]; exact hj) := by
      intro j hj
      exact ht.values j _ _ (List.getElem?_eq_getElem hj) (List.getElem?_eq_getElem _)
    have hin : ∀ j (hj : j < m.length), ((bytes! "email") ∈ (m.take j).map (·.1)) ↔ ∃ i, ∃ hi : i < m.length, i < j ∧ m[i].1 = (bytes! "email") := by
      intro j hj
      rw [List.mem_map]
      constructor
      · rintro ⟨e, he, h1⟩
        rw [List.mem_take_iff_getElem] at he
        obtain ⟨i, hi, rfl⟩ := he
        exact ⟨i, by omega, by omega, h1⟩
      · rintro ⟨i, hi, h1, h2⟩
        exact ⟨m[i], List.mem_take_iff_getElem.mpr ⟨i, by omega, rfl⟩, h2⟩
    cases hf : ((m.map (·.1)).zip answers).findIdx? (fun e => e.1 == (bytes! "email")) with
    | none =>
      rw [List.findIdx?_eq_none_iff] at hf
      dsimp only
      refine List.ext_getElem hz (fun j h1 h2 => ?_)
      have h3 := hf _ (List.getElem_mem h1)
      rw [hzi j h2] at h3 ⊢
      have h4 := hv j h2
      rw [if_neg (fun h => by simp [h.1] at h3)] at h4
      rw [← h4]
    | some i =>
      rw [List.findIdx?_eq_some_iff_getElem] at hf
      obtain ⟨hi, g1, g2⟩ := hf
      dsimp only
      refine List.ext_getElem (by rw [List.length_modify]; exact hz) (fun j h1 h2 => ?_)
      rw [List.getElem_modify]
      have h4 := hv j h2
      have hi' : i < m.length := by omega
      rw [hzi i hi'] at g1
      rw [hzi j h2]
      dsimp only at g1 ⊢
      by_cases hij : i = j
      · subst hij
        rw [if_pos ⟨by simpa using g1, fun h => by
          obtain ⟨i', h5, h6, h7⟩ := (hin i hi').mp h
          have := g2 i' h6
          rw [hzi i' h5] at this
          simp [h7] at this⟩] at h4
        rw [if_pos rfl, ← h4]
      · rw [if_neg (fun h => by
          rcases Nat.lt_or_gt_of_ne hij with h5 | h5
          · exact h.2 ((hin j h2).mpr ⟨i, hi', h5, by simpa using g1⟩)
          · have := g2 j h5
            rw [hzi j h2] at this
            simp [h.1] at this)] at h4
        rw [if_neg hij, ← h4]
  cases hf : ((m.map (·.1)).zip answers).findIdx? (fun e => e.1 == (bytes! "email")) with
  | none =>
    rw [hf] at hval
    dsimp only at hval ⊢
    rw [hval]
  | some i =>
    rw [hf] at hval
    dsimp only at hval ⊢
    rw [hval]

/-! ## Discovery -/

/-- from the question which CA to talk to, to PROBE -/
theorem exchanges_profile {x : Tools σ} {e1 e2 : Exchange} {c : Client} {t : Cert} {v last : Block} {q : CaProfile} (ho1 : e1.others = []) (ho2 : e2.others = [])
    (hout : x.out = runDiscovery c cfg.profile.caPrefix []) (ht : c.trusted = some t) (hv : v.typ = 54)
    (hlast : cfg.profile.caPrefix.getLast? = some last) (hne : last.val ≠ (bytes! "CA"))
    (hp : x.server.profile.name = profileDataName cfg.profile v) (hf : NameFits (cfg.profile.caPrefix ++ [caComp, infoComp, v]))
    (hc : ∀ c ∈ x.server.cache, ¬ cfg.profile.caPrefix ++ [caComp, infoComp, metadataComp] <+: c.fullName)
    (hver : C.verifyData x.server.profile t = true) (hq : onCaProfileResponse C x.server.profile = .ok q) :
    exchanges C S cfg x [e1, e2] = .ok ⟨runProbe C { c with pending := some (.info []) } q, x.ca, x.server, x.done⟩ := by
  have hdn : genDiscoveryName cfg.profile.caPrefix = .ok (cfg.profile.caPrefix ++ [caComp, infoComp, metadataComp]) := by
    unfold genDiscoveryName
    rw [hlast]
    dsimp only
    rw [if_neg (show ¬ readString last = bytes! "CA" from hne)]
    simp
  have hout' : x.out = { st := { c with pending := some (.discovery []) }, acts := [.discovery (cfg.profile.caPrefix ++ [caComp, infoComp, metadataComp])] } := by
    rw [hout]
    unfold runDiscovery
    rw [hdn]
  have hpre : cfg.profile.caPrefix ++ [caComp, infoComp, metadataComp] <+: (onCaProfileDiscovery C cfg.profile x.server.profile.name e1.metaVersion).name := by
    obtain ⟨n, h1, _, h2⟩ := Props.C71_discovery_partial (C := C) cfg.profile last hlast hne _ (.inl rfl)
    rw [hdn] at h1
    cases h1
    rw [hp]
    exact h2 v e1.metaVersion
  have h1 := exchange_discovery (C := C) (S := S) (cfg := cfg) (x := x) ho1 (by rw [hout']) (by rw [hout']; rfl) hv hp hc hpre
  rw [exchanges_cons h1]
  have h2 : Client.step C e1.client x.out.st (.reply (onCaProfileDiscovery C cfg.profile x.server.profile.name e1.metaVersion) e1.packet) =
      { st := { c with pending := some (.info []) }, acts := [.profile x.server.profile.name] } := by
    rw [hout']
    show discoveryCb { c with pending := some (.discovery []) } [] _ = _
    unfold discoveryCb
    rw [hp, Props.C71_profile_name cfg.profile v e1.metaVersion hf]
  rw [h2]
  have h3 := exchange_profile (C := C) (S := S) (cfg := cfg)
    (x := ⟨{ st := { c with pending := some (.info []) }, acts := [.profile x.server.profile.name] }, x.ca, x.server, x.done⟩) ho2 rfl rfl hv hp
  rw [exchanges_cons h3]
  have h4 : Client.step C e2.client { c with pending := some (.info []) } (.reply x.server.profile e2.packet) = runProbe C { c with pending := some (.info []) } q := by
    show infoCb C { c with pending := some (.info []) } [] _ = _
    unfold infoCb acceptProfile
    rw [if_pos rfl]
    dsimp only
    rw [ht]
    dsimp only
    rw [if_pos hver, hq]
    dsimp only
    rw [if_neg (by simp)]
  exact congrArg (fun o => Ran.ok (Tools.mk o x.ca x.server x.done)) h4

/-! ## The key -/

theorem get_map_self {p : Pib} {id : Name} {e : IdEntry} (f : IdEntry → IdEntry) (hf : ∀ x, (f x).name = x.name) (h : p.get id = some e) :
    Pib.get (p.map f) id = some (f e) := by
  unfold Pib.get at h ⊢
  rw [List.find?_map, show (fun e => e.name == id) ∘ f = (fun e => e.name == id) from by funext x; simp [hf], h]
  rfl

theorem get_name {p : Pib} {id : Name} {e : IdEntry} (h : p.get id = some e) : e.name = id := by
  have := List.find?_some h
  simpa using this

theorem find_head {f : Block → Bool} {l : List Block} {b : Block} (h : l.head? = some b) (hf : f b = true) : l.find? f = some b := by
  cases l with
  | nil => cases h
  | cons a l => cases h; rw [List.find?_cons_of_pos hf]

theorem createKey_head {p : Pib} {id : Name} {e : IdEntry} {draws : List Block} {b : Block} (h : p.get id = some e) (hd : draws.head? = some b)
    (hn : id ++ [keyComponent, b] ∉ e.keys) :
    ∃ p', createKey p id draws = some (id ++ [keyComponent, b], p') ∧ p'.has id (id ++ [keyComponent, b]) = true := by
  unfold createKey
  rw [h]
  dsimp only
  rw [find_head hd (by simpa using hn)]
  refine ⟨_, rfl, ?_⟩
  unfold Pib.has
  rw [get_map_self (e := e) _ (fun x => by split <;> rfl) h]
  dsimp only
  rw [if_pos (get_name h)]
  simp

/-- `runNewWith` up to the NEW Interest -/
theorem runNewWith_keyed {env : ClientEnv} {c : Client} {p : CaProfile} {id : Name} {hours : Int} {keyId : Block} {rest : List Bytes} {na : Time}
    {r1 : Request} {i : Interest} (hn : c.newIdentity = []) (hid : id ≠ []) (hk : Keyed c.pib id env.keyIds env.keyIds2 c.stdin keyId rest)
    (hna : addHours env.now hours = some na)
    (hgen : genNewInterest C { profile := p, type := .new, requestId := env.memId, ecdhPriv := env.ecdhPriv, aesKey := env.memKey, nonce := env.memNonce }
      (id ++ [keyComponent, keyId]) env.now na env.version = (r1, .ok (some i))) :
    ∃ c', runNewWith C env c p id hours = { st := c', acts := [.new p i] } ∧ c'.pending = some .new ∧ c'.request = some r1 ∧ c'.stdin = rest ∧
      c'.captured = c.captured ∧ c'.pib.has id (id ++ [keyComponent, keyId]) = true := by
  obtain ⟨tr, cap, rq, ni, nk, pib, stdin, pend⟩ := c
  dsimp only at hn hk ⊢
  subst hn
  unfold runNewWith
  dsimp only
  cases hk with
  | identity absent drawn =>
    have hg : Pib.get (pib ++ [⟨id, [], none⟩]) id = some ⟨id, [], none⟩ := by
      unfold Pib.get at absent ⊢
      rw [List.find?_append, absent]
      simp
    obtain ⟨p', g1, g2⟩ := createKey_head hg drawn (by simp)
    unfold prepareKey createIdentity
    dsimp only
    rw [absent]
    dsimp only
    rw [g1]
    dsimp only
    rw [if_neg hid]
    dsimp only
    rw [hna]
    dsimp only
    rw [hgen]
    exact ⟨_, rfl, rfl, rfl, rfl, rfl, g2⟩
  | @own e keyId d line rest j present dflt notNew number key =>
    unfold prepareKey
    dsimp only
    rw [present]
    dsimp only
    rw [dflt]
    dsimp only
    unfold captureKeyName
    simp only [getline_eq, if_true, List.headD_cons, List.tail_cons]
    rw [if_neg notNew, (stoul_iff _ _).mpr number]
    dsimp only
    rw [key]
    dsimp only
    rw [hna]
    dsimp only
    rw [hgen]
    refine ⟨_, rfl, rfl, rfl, rfl, rfl, ?_⟩
    unfold Pib.has
    rw [present]
    simpa using List.mem_of_getElem? key
  | @new e keyId d line rest present dflt asked drawn unused =>
    obtain ⟨p', g1, g2⟩ := createKey_head present drawn unused
    unfold prepareKey
    dsimp only
    rw [present]
    dsimp only
    rw [dflt]
    dsimp only
    unfold captureKeyName
    simp only [getline_eq, if_true, List.headD_cons, List.tail_cons]
    rw [if_pos asked, get_name present, g1]
    dsimp only
    rw [hna]
    dsimp only
    rw [hgen]
    exact ⟨_, rfl, rfl, rfl, rfl, rfl, g2⟩

/-! ## PROBE -/

theorem captureValidity_hours {lines rest : List Bytes} {hours : Int} (h : Hours lines hours rest) (c : Client) (hs : c.stdin = lines) :
    captureValidity 3 c = (some hours, { c with stdin := rest }) := by
  cases h with
  | @typed skipped rest line n next tries number small no =>
    rw [next] at hs
    clear next
    have key : ∀ (t : Nat) (c : Client) (skipped : List Bytes), c.stdin = skipped ++ line :: rest → skipped.length < t → (∀ l ∈ skipped, stoul l = none) →
        captureValidity t c = (some (n : Int), { c with stdin := rest }) := by
      intro t
      induction t with
      | zero => intro c sk _ h; omega
      | succ t ih =>
        intro c sk hs ht hno
        cases sk with
        | nil =>
          unfold captureValidity
          rw [getline_eq, hs]
          dsimp only [List.nil_append, List.headD_cons, List.tail_cons]
          rw [(stoul_iff _ _).mpr number]
          dsimp only
          rw [toInt32_small small]
        | cons l sk =>
          have ih := ih { c with stdin := sk ++ line :: rest } sk rfl (by simp at ht; omega) (fun l hl => hno l (List.mem_cons_of_mem _ hl))
          unfold captureValidity
          rw [getline_eq, hs]
          dsimp only [List.cons_append, List.headD_cons, List.tail_cons]
          rw [hno l (List.mem_cons_self ..)]
          exact ih
    exact key 3 c skipped hs (by omega) (fun l hl => (stoul_none l).mpr (no l hl))

theorem chooseName_takes {names : List (Name × Int)} {lines : List Bytes} {id : Name} (h : Chosen names lines id) (c : Client) (hs : c.stdin = lines) :
    chooseName c names = ({ c with stdin := hoursLines names lines }, some id) := by
  cases h with
  | only offered =>
    subst offered
    subst hs
    rfl
  | @typed k line rest j several next number offered =>
    subst next
    unfold hoursLines
    rw [if_neg several]
    unfold chooseName
    split
    · cases offered
    · exact absurd rfl several
    · rw [getline_eq, hs]
      dsimp only [List.headD_cons, List.tail_cons]
      rw [(stoul_iff _ _).mpr number]
      dsimp only
      rw [offered]
      rfl

/-- the names a PROBE reply offers, as the client sees them -/
def offered (cfg : CaConfig) (names : List Name) : List (Name × Int) :=
  (names.map (cfg.profile.caPrefix ++ ·)).map (fun n => (n, ((cfg.profile.maxSuffixLength.getD 0 : Nat) : Int)))

/-- from PROBE to NEW -/
theorem exchange_probe (hC : C.Honest) {x : Tools σ} {e : Exchange} {c : Client} {q : CaProfile} {caCert : Cert} {answers l1 l2 l3 : List Bytes} {m : MMap} {names : List Name}
    {id : Name} {keyId : Block} {hours : Int} {na : Time} {r1 : Request} {i : Interest} {v : Block} (hv : v.typ = 54)
    (hm : Marked x.server) (hp : x.server.profile.name = profileDataName cfg.profile v)
    (ho : e.others = []) (hout : x.out = runProbe C c q) (hcap : c.captured = none) (hni : c.newIdentity = []) (hs : c.stdin = answers ++ l1)
    (ht : Typed q.probeParameterKeys answers m) (hq : q.caPrefix = cfg.profile.caPrefix) (hcert : q.cert = some caCert)
    (hpub : caCert.content = some (C.idPub cfg.profile.caPrefix))
    (ha : Props.Assigns C cfg.assignments m e.env.rand64 names) (hr : Props.redirects cfg m = []) (hcp : cfg.profile.caPrefix ≠ [])
    (hw : ∀ n ∈ names, Name.Wf (cfg.profile.caPrefix ++ n)) (hms : ∀ k, cfg.profile.maxSuffixLength = some k → k < 2 ^ 31)
    (hl : (probeEncode (names.map (cfg.profile.caPrefix ++ ·)) cfg.profile.maxSuffixLength []).val.length < 2 ^ 64)
    (hlp : (probeParamsEncode m).val.length < 2 ^ 64)
    (hchosen : Chosen (offered cfg names) l1 id) (hid : id ≠ []) (hhours : Hours (hoursLines (offered cfg names) l1) hours l2)
    (hk : Keyed c.pib id e.client.keyIds e.client.keyIds2 l2 keyId l3) (hna : addHours e.client.now hours = some na)
    (hgen : genNewInterest C { profile := q, type := .new, requestId := e.client.memId, ecdhPriv := e.client.ecdhPriv, aesKey := e.client.memKey, nonce := e.client.memNonce }
      (id ++ [keyComponent, keyId]) e.client.now na e.client.version = (r1, .ok (some i))) :
    ∃ c' d, exchange C S cfg x e = .ok ⟨{ st := c', acts := [.new q i] }, x.ca, x.server, x.done ++ [.put d]⟩ ∧
      c'.pending = some .new ∧ c'.request = some r1 ∧ c'.stdin = l3 ∧
      c'.captured = some m ∧ c'.pib.has id (id ++ [keyComponent, keyId]) = true := by
  have hout' : x.out = { st := { { c with stdin := l1, captured := some m } with pending := some (.probe q) }, acts := [.probe q (genProbeInterest C q m)] } := by
    rw [hout]
    unfold runProbe
    rw [probeParams_typed hcap hs ht]
  have hname : ∃ dg, (genProbeInterest C q m).name = cfg.profile.caPrefix ++ [caComp, probeComp, ⟨2, dg⟩] := by
    unfold genProbeInterest plainInterest
    exact ⟨_, by dsimp only; rw [hq, List.append_assoc]; rfl⟩
  obtain ⟨dg, hname⟩ := hname
  have hdisp : dispatch cfg.profile (genProbeInterest C q m).name = [.probe] := by
    refine dispatch_of ⟨[⟨2, dg⟩], ?_⟩
    rw [hname]
    simp [Handler.words, caComp, probeComp]
  have hown : Own (genProbeInterest C q m) := ⟨cfg.profile.caPrefix ++ [caComp], probeComp, dg, by rw [hname]; simp, by decide⟩
  have hnames : names ≠ [] := by
    rintro rfl
    cases hchosen with
    | only h => cases h
    | typed _ _ _ h => cases h
  obtain ⟨d, d1, d2a, d2b, d3, d4⟩ := Props.C60_probe_reply (C := C) (cfg := cfg) (i := genProbeInterest C q m) (env := e.env) (b := probeParamsEncode m) rfl
    (Props.C07_probe_params_roundtrip m ht.sorted hlp) ha (fun h => hnames h.1) hcp
    (fun n hn => by
      unfold Props.offers at hn
      rw [List.mem_map] at hn
      obtain ⟨a, ha, rfl⟩ := hn
      exact hw a ha)
    (fun n hn => by rw [hr] at hn; cases hn) hms (by rw [hr]; exact hl)
  have hans : answer C S cfg (serve C S cfg x.ca e.others) (.probe (genProbeInterest C q m)) e.env = some (x.ca, [.put d], d) := by
    rw [ho]
    show answer C S cfg x.ca _ _ = _
    unfold answer
    dsimp only
    have : handle C S cfg x.ca (.probe (genProbeInterest C q m)) e.env = ⟨[.put d], .done⟩ := d1
    rw [this]
    rfl
  have hex := exchange_of (C := C) (S := S) (cfg := cfg) (x := x) (e := e) (i := genProbeInterest C q m) (a := .probe q (genProbeInterest C q m)) (h := .probe)
    (m := .probe (genProbeInterest C q m)) (s' := x.ca) (es := [.put d]) (d := d) (by rw [ho]; rfl) hm hv hp (by rw [hout']) (by rw [hout']; rfl) (by intro n; simp) rfl
    hown hdisp rfl hans
  have hresp : onProbeResponse C d q [] [] = .ok (offered cfg names, []) := by
    unfold onProbeResponse checkReply
    rw [hcert]
    dsimp only
    have hver : C.verifyData d caCert = true := by
      rw [show d = mkData C cfg.profile.caPrefix (genProbeInterest C q m).name d.content by
        cases d; simp only at d2a d2b; subst d2a; subst d2b; rfl]
      exact hC.data_verifies _ _ _ _ hpub
    rw [if_pos hver, d3]
    simp only [Res.bind_ok]
    rw [d4, hr]
    rfl
  obtain ⟨c', g1, g2, g3, g4, g5, g6⟩ := runNewWith_keyed (C := C) (env := e.client) (p := q) (hours := hours)
    (c := ⟨c.trusted, some m, c.request, c.newIdentity, c.newKey, c.pib, l2, some (.probe q)⟩) hni hid hk hna hgen
  refine ⟨c', d, ?_, g2, g3, g4, g5, g6⟩
  rw [hex]
  have hstep : Client.step C e.client x.out.st (.reply d e.packet) = { st := c', acts := [.new q i] } := by
    rw [hout']
    show probeCb C e.client _ q d = _
    unfold probeCb
    rw [hresp]
    dsimp only
    rw [if_neg (by simp)]
    rw [chooseName_takes hchosen _ rfl]
    dsimp only
    unfold runNew
    rw [captureValidity_hours hhours _ rfl]
    exact g1
  rw [hstep, ho]
  rfl

end Ndncert
