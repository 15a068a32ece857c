import Verif.Spec.ClientMain
import Verif.Props.Options
import Verif.Props.ClientTurn
import Verif.Props.ClientEnd
import Verif.Props.ConfigText

/-! # C131: ndncert-client from its command line and configuration file on -/

namespace Ndncert.Props
open Ndncert

theorem clientLine_distinct : OptsDistinct clientLine where
  long d hd := by
    simp only [clientLine, List.mem_cons, List.not_mem_nil, or_false] at hd
    rcases hd with rfl | rfl <;> exact ⟨_, _, rfl, by decide⟩
  short d hd c hc := by
    simp only [clientLine, List.mem_cons, List.not_mem_nil, or_false] at hd
    rcases hd with rfl | rfl <;> cases hc <;> decide
  longs := by decide
  shorts := by decide

theorem namePositional_nil : ∀ (rs rs' : List RawOpt), namePositional [] rs = some rs' ↔ rs' = rs ∧ wordsOf rs = []
  | [], rs' => by simp [namePositional, wordsOf, eq_comm]
  | o :: rs, rs' => by
    unfold namePositional
    by_cases ho : o.1 = []
    · rw [if_pos ho]
      constructor
      · intro h; cases h
      · rintro ⟨_, h⟩
        unfold wordsOf at h
        simp [ho] at h
    · rw [if_neg ho, Option.map_eq_some_iff]
      have hw : wordsOf (o :: rs) = wordsOf rs := by simp [wordsOf, ho]
      rw [hw]
      constructor
      · rintro ⟨l, hl, rfl⟩
        obtain ⟨rfl, h2⟩ := (namePositional_nil rs l).mp hl
        exact ⟨rfl, h2⟩
      · rintro ⟨rfl, h⟩
        exact ⟨rs, (namePositional_nil rs rs).mpr ⟨rfl, h⟩, rfl⟩

theorem client_vm (args : List Bytes) (vm : List (Bytes × Bytes)) :
    ((parseArgs clientDescs none args).bind (namePositional [])).bind (storeOpts []) = some vm ↔ UnderstoodClient args vm := by
  unfold UnderstoodClient
  rw [Option.bind_eq_some_iff]
  constructor
  · rintro ⟨rs', h1, hs⟩
    obtain ⟨rs, hp, hn⟩ := Option.bind_eq_some_iff.mp h1
    obtain ⟨rfl, hw⟩ := (namePositional_nil _ _).mp hn
    obtain ⟨e, hn, _⟩ := (storeOpts_iff rs' [] vm).mp hs
    rw [List.nil_append] at e
    subst e
    exact ⟨(parse_iff_says clientLine_distinct _ _ _).mpr ⟨rs', hp, rfl, hw⟩, hn⟩
  · rintro ⟨hsay, hn⟩
    obtain ⟨rs, hp, rfl, hw⟩ := (parse_iff_says clientLine_distinct _ _ _).mp hsay
    exact ⟨rs, Option.bind_eq_some_iff.mpr ⟨rs, hp, (namePositional_nil _ _).mpr ⟨rfl, hw⟩⟩, (storeOpts_iff rs [] _).mpr ⟨rfl, hn, by simp⟩⟩

/-- **C131** What a command line says is determined, and the client goes on exactly if its command line can be understood and does not ask for help, and then with
the configuration file given there or the default one. If help is asked for it exits with status 0, if the command line cannot be understood, with status 1. -/
theorem C131_line (sysconf : Bytes) (args : List Bytes) :
    (∀ os os' ws ws', LineSays clientLine args os ws → LineSays clientLine args os' ws' → os = os' ∧ ws = ws') ∧
    (∀ config, clientOptions sysconf args = .run config ↔ ClientAsked sysconf args config) ∧
    (clientOptions sysconf args = .exit 0 ↔ ∃ os v, UnderstoodClient args os ∧ (bytes! "help", v) ∈ os) ∧
    (clientOptions sysconf args = .exit 1 ↔ ¬ ∃ os, UnderstoodClient args os) ∧
    (∀ status, clientOptions sysconf args = .exit status → status = 0 ∨ status = 1) := by
  refine ⟨?_, ?_⟩
  · intro os os' ws ws' h h'
    obtain ⟨rs, hp, rfl, rfl⟩ := (parse_iff_says clientLine_distinct _ _ _).mp h
    obtain ⟨rs', hp', rfl, rfl⟩ := (parse_iff_says clientLine_distinct _ _ _).mp h'
    rw [hp] at hp'
    cases hp'
    exact ⟨rfl, rfl⟩
  cases hv : ((parseArgs clientDescs none args).bind (namePositional [])).bind (storeOpts []) with
  | none =>
    have hno : ¬ ∃ os, UnderstoodClient args os := by
      rintro ⟨os, h⟩
      rw [(client_vm _ _).mpr h] at hv
      cases hv
    have he : clientOptions sysconf args = .exit 1 := by unfold clientOptions; rw [hv]
    rw [he]
    refine ⟨fun c => ⟨fun x => (by cases x), fun ⟨os, h, _⟩ => absurd ⟨os, h⟩ hno⟩, ⟨fun x => (by cases x), fun ⟨os, _, h, _⟩ => absurd ⟨os, h⟩ hno⟩,
      ⟨fun _ => hno, fun _ => rfl⟩, fun s hs => (by cases hs; exact .inr rfl)⟩
  | some vm =>
    have hu := (client_vm args vm).mp hv
    have huniq : ∀ os, UnderstoodClient args os → os = vm := by
      intro os h
      have := (client_vm args os).mpr h
      rw [hv] at this
      cases this
      rfl
    by_cases hh : optGiven vm (bytes! "help") = true
    · have he : clientOptions sysconf args = .exit 0 := by unfold clientOptions; rw [hv]; dsimp only; rw [if_pos hh]
      obtain ⟨v, hm⟩ := (optGiven_iff _ _).mp hh
      rw [he]
      refine ⟨fun c => ⟨fun x => (by cases x), fun ⟨os, h, hno, _⟩ => ?_⟩, ⟨fun _ => ⟨vm, v, hu, hm⟩, fun _ => rfl⟩,
        ⟨fun x => (by cases x), fun x => absurd ⟨vm, hu⟩ x⟩, fun s hs => (by cases hs; exact .inl rfl)⟩
      cases huniq os h
      exact absurd hm (hno v)
    · have he : clientOptions sysconf args = .run (optValue vm (bytes! "config-file") (sysconf ++ bytes! "/ndncert/client.conf")) := by
        unfold clientOptions; rw [hv]; dsimp only; rw [if_neg hh]
      have hno : ∀ v, (bytes! "help", v) ∉ vm := fun v h => hh ((optGiven_iff _ _).mpr ⟨v, h⟩)
      rw [he]
      refine ⟨fun c => ⟨fun x => ?_, fun ⟨os, hos, _, h1⟩ => ?_⟩, ⟨fun x => (by cases x), fun ⟨os, v, h, hm⟩ => ?_⟩,
        ⟨fun x => (by cases x), fun x => absurd ⟨vm, hu⟩ x⟩, fun s hs => (by cases hs)⟩
      · injection x with e1
        exact ⟨vm, hu, hno, (optValue_iff hu.2 _ _ _).mp e1.symm⟩
      · cases huniq os hos
        rw [(optValue_iff hu.2 _ _ _).mpr h1]
      · cases huniq os h
        exact absurd hm (hno v)

section
variable {C : Crypto} {T : TextIO} {sysconf : Bytes} {files : Bytes → Option Bytes} {args : List Bytes} {pib : Pib} {stdin : List Bytes}

/-- a run of the program ends at the command line, or for want of a file, or is a run on the file that the command line means -/
theorem program_cases {first : List Act} {h : List ClientStep} {c : Client} {x : Ended} (run : ClientProgram C T sysconf files args pib stdin first h c x) :
    (first = [] ∧ h = [] ∧ ∃ n, x = .exit n ∧ (clientOptions sysconf args = .exit n ∨ n = 1 ∧ ∃ config, ClientAsked sysconf args config ∧ files config = none)) ∨
    ∃ config file, ClientAsked sysconf args config ∧ files config = some file ∧ ClientRun C T file pib stdin first h c x := by
  induction run with
  | start o eq =>
    subst eq
    unfold clientMain
    cases ho : clientOptions sysconf args with
    | exit n => exact .inl ⟨rfl, rfl, n, rfl, .inl rfl⟩
    | run config =>
      have hask := ((C131_line sysconf args).2.1 config).mp ho
      dsimp only
      cases hf : files config with
      | none => exact .inl ⟨rfl, rfl, 1, rfl, .inr ⟨rfl, config, hask, hf⟩⟩
      | some file => exact .inr ⟨config, file, hask, hf, .start _ rfl⟩
  | step e env run o eq ih =>
    rcases ih with ⟨_, _, n, hn, _⟩ | ⟨config, file, h1, h2, h3⟩
    · cases hn
    · exact .inr ⟨config, file, h1, h2, .step e env h3 o eq⟩

end

/-- the profiles of a client's configuration file that is this JSON document -/
theorem loadProfiles_document (load : Bytes → Option Cert) (save : Cert → Bytes) (file : Bytes) (known : Profiles) :
    loadProfiles (libText load save) file = .ok known ↔ ∃ t list, JsonDocument file t ∧ t.FirstEntry (bytes! "ca-list") list ∧
      list.kids.map (fun item => profileFromJson (libText load save) item.2) = known.map Res.ok ∧ ∀ p ∈ known, p.cert ≠ none := by
  rw [C73_load_partial]
  refine exists_congr (fun t => exists_congr (fun list => and_congr (C105_json file t) (and_congr_left' ?_)))
  exact ((C74_lookup_partial t (bytes! "ca-list")).1 list)

theorem getStr_entry {t : PTree} {key : Bytes} (h : t.getStr key [] ≠ []) : ∃ v, t.FirstEntry key v ∧ t.getStr key [] = v.data := by
  cases hc : t.child key with
  | none => exact absurd (by unfold PTree.getStr; rw [hc]) h
  | some v =>
    have := ((C74_lookup_partial t key).1 v).mp hc
    exact ⟨v, this, ((C74_lookup_partial t key).2.1 v this).2 []⟩

/-- every CA known to the client is listed in its file -/
theorem known_listed {load : Bytes → Option Cert} {save : Cert → Bytes} {t list : PTree} {known : Profiles} (hl : t.FirstEntry (bytes! "ca-list") list)
    (he : list.kids.map (fun item => profileFromJson (libText load save) item.2) = known.map Res.ok) (hc : ∀ p ∈ known, p.cert ≠ none) :
    ∀ k ∈ known, ∃ cert, k.cert = some cert ∧ ListsCa load t k.caPrefix cert := by
  intro k hk
  have : Res.ok k ∈ list.kids.map (fun item => profileFromJson (libText load save) item.2) := by rw [he]; exact List.mem_map_of_mem hk
  obtain ⟨item, hi, hp⟩ := List.mem_map.mp this
  obtain ⟨h1, h2, _, _, _, _, _, _, h3⟩ := (profileFromJson_ok _ _ _).mp hp
  have hce : certField (libText load save) item.2 = if item.2.getStr (bytes! "certificate") [] ≠ [] then load (item.2.getStr (bytes! "certificate") []) else none := rfl
  rw [hce] at h3
  cases hk2 : k.cert with
  | none => exact absurd hk2 (hc k hk)
  | some cert =>
    rw [hk2] at h3
    refine ⟨cert, rfl, list, hl, item, hi, ?_, ?_⟩
    · have hne : item.2.getStr (bytes! "ca-prefix") [] ≠ [] := by
        intro h0
        rw [h0] at h1
        have : readUri [] = some k.caPrefix := h1
        exact h2 (Option.some.inj (this.symm.trans (by decide)))
      obtain ⟨v, hv, hd⟩ := getStr_entry hne
      exact ⟨v, hv, by rw [← hd]; exact h1⟩
    · by_cases hne : item.2.getStr (bytes! "certificate") [] ≠ []
      · rw [if_pos hne] at h3
        obtain ⟨v, hv, hd⟩ := getStr_entry hne
        exact ⟨v, hv, by rw [← hd]; exact h3.symm⟩
      · rw [if_neg hne] at h3
        cases h3

section
variable {C : Crypto} {load : Bytes → Option Cert} {save : Cert → Bytes} {sysconf : Bytes} {files : Bytes → Option Bytes} {args : List Bytes} {pib : Pib}
  {stdin : List Bytes}

/-- **C131** In every run of the program, every PROBE, NEW and CHALLENGE Interest is for a CA whose profile is trusted at that point: it verified under the certificate of a
CA listed in the configuration file that the command line means, or the user typed yes, or it was announced by a trusted CA that was probed. -/
theorem C131_trusted {first : List Act} {h : List ClientStep} {c : Client} {x : Ended}
    (run : ClientProgram C (libText load save) sysconf files args pib stdin first h c x) :
    (∀ a ∈ first, a.ca = none) ∧
    ∀ before n after, h = before ++ n :: after → ∀ a ∈ n.acts, ∀ q, a.ca = some q →
      ∃ config text t known, ClientAsked sysconf args config ∧ files config = some text ∧ JsonDocument text t ∧
        (∀ k ∈ known, ∃ cert, k.cert = some cert ∧ ListsCa load t k.caPrefix cert) ∧ TrustedProfile C known (before ++ [n]) q := by
  rcases program_cases run with ⟨rfl, rfl, _⟩ | ⟨config, text, h1, h2, hrun⟩
  · exact ⟨fun a ha => (by cases ha), fun before n after hh => absurd hh.symm (by simp)⟩
  · obtain ⟨g1, g2⟩ := C68_trusted hrun
    refine ⟨g1, fun before n after hh a ha q hq => ?_⟩
    obtain ⟨known, hk, ht⟩ := g2 before n after hh a ha q hq
    obtain ⟨t, list, k1, k2, k3, k4⟩ := (loadProfiles_document load save text known).mp hk
    exact ⟨config, text, t, known, h1, h2, k1, known_listed k2 k3 k4, ht⟩

/-- **C131** The exit status: 0 exactly if help was asked for, a certificate was installed, or the user was asked about a CA and did not type yes; 1 otherwise. -/
theorem C131_exit (hw : pib.Sound) {first : List Act} {h : List ClientStep} {c : Client} {x : Ended}
    (run : ClientProgram C (libText load save) sysconf files args pib stdin first h c x) :
    (x = .exit 0 ↔ (∃ os v, UnderstoodClient args os ∧ (bytes! "help", v) ∈ os) ∨ (∃ cert, Did h (.install cert)) ∨ Refused h) ∧
    ∀ n, x = .exit n → n = 0 ∨ n = 1 := by
  obtain ⟨l0, l1, l2, l3, l4⟩ := C131_line sysconf args
  rcases program_cases run with ⟨rfl, rfl, n, rfl, hn⟩ | ⟨config, text, h1, h2, hrun⟩
  · have hnot : ¬ ((∃ cert, Did [] (.install cert)) ∨ Refused []) := by simp [Did, Refused]
    rcases hn with hn | ⟨rfl, config, hask, _⟩
    · refine ⟨⟨fun hx => ?_, fun hx => ?_⟩, fun m hm => (by cases hm; exact l4 n hn)⟩
      · cases hx
        exact .inl (l2.mp hn)
      · rcases hx with hx | hx
        · have := l2.mpr hx
          rw [hn] at this
          cases this
          rfl
        · exact absurd hx hnot
    · refine ⟨⟨fun hx => (by cases hx), fun hx => ?_⟩, fun m hm => (by cases hm; exact .inr rfl)⟩
      rcases hx with hx | hx
      · have h0 := l2.mpr hx
        rw [(l1 config).mpr hask] at h0
        cases h0
      · exact absurd hx hnot
  · obtain ⟨g1, g2⟩ := C96_exit_code hw hrun
    refine ⟨⟨fun hx => .inr (g1.mp hx), fun hx => ?_⟩, g2⟩
    rcases hx with hx | hx
    · have h0 := l2.mpr hx
      rw [(l1 config).mpr h1] at h0
      cases h0
    · exact g1.mpr hx

/-- what `selectCaProfile` does with a choice that can be understood -/
theorem selectCaProfile_of {T : TextIO} {file : Bytes} {known : Profiles} {ca : Name} {anchor : Option Cert} {rest : List Bytes} {nm : Name}
    (hk : loadProfiles T file = .ok known) (hs : Selected T known stdin ca anchor rest) (hn : genDiscoveryName ca = .ok nm) :
    (selectCaProfile T file { pib := pib, stdin := stdin }).acts = [.discovery nm] ∧ (selectCaProfile T file { pib := pib, stdin := stdin }).ended = .going := by
  have hd : ∀ c : Client, (runDiscovery c ca []).acts = [.discovery nm] ∧ (runDiscovery c ca []).ended = .going := by
    intro c
    unfold runDiscovery
    rw [hn]
    exact ⟨rfl, rfl⟩
  cases hs with
  | @configured line rest j q notNone number listed =>
    unfold selectCaProfile
    rw [hk]
    dsimp only [Client.getline]
    rw [if_neg notNone, (stoul_iff _ _).mpr number]
    dsimp only
    rw [listed]
    exact hd _
  | @named line rest ca isNone name =>
    unfold selectCaProfile
    rw [hk]
    dsimp only [Client.getline]
    rw [if_pos isNone]
    cases rest with
    | nil =>
      dsimp only [List.headD] at name ⊢
      rw [name]
      exact hd _
    | cons l ls =>
      dsimp only [List.headD] at name ⊢
      rw [name]
      exact hd _

theorem discovery_of {ca nm : Name} (h : MetadataName ca nm) : genDiscoveryName ca = .ok nm := by
  unfold genDiscoveryName
  cases h with
  | plain h0 hne =>
    cases hl : ca.getLast? with
    | none => exact absurd (List.getLast?_eq_none_iff.mp hl) hne
    | some c =>
      have := h0 c hl
      simp [readString, this, caComp, infoComp, metadataComp]
  | component h0 =>
    obtain ⟨c, hl, hv⟩ := h0
    rw [hl]
    simp [readString, hv, infoComp, metadataComp]

/-- **C131** The start: the client asks for the profile of a CA exactly if the command line asks it to run, the configuration file that it means can be read, is a JSON
document, lists CAs that all can be used, and the user chooses one of them by its number, or another one by its name. It never behaves in an undefined way before that,
and ends by an exception only if the name typed is the empty one. -/
theorem C131_starts :
    (∀ nm, (clientMain (libText load save) sysconf files args { pib := pib, stdin := stdin }).acts = [.discovery nm] ∧
        (clientMain (libText load save) sysconf files args { pib := pib, stdin := stdin }).ended = .going ↔
      ∃ config text t list known ca anchor rest, ClientAsked sysconf args config ∧ files config = some text ∧ JsonDocument text t ∧
        t.FirstEntry (bytes! "ca-list") list ∧ list.kids.map (fun item => profileFromJson (libText load save) item.2) = known.map Res.ok ∧
        (∀ p ∈ known, p.cert ≠ none) ∧ Selected (libText load save) known stdin ca anchor rest ∧ MetadataName ca nm) ∧
    ((clientMain (libText load save) sysconf files args { pib := pib, stdin := stdin }).ended = .going →
      ∃ nm, (clientMain (libText load save) sysconf files args { pib := pib, stdin := stdin }).acts = [.discovery nm]) ∧
    (∀ u, (clientMain (libText load save) sysconf files args { pib := pib, stdin := stdin }).ended ≠ .ub u) ∧
    ∀ e, (clientMain (libText load save) sysconf files args { pib := pib, stdin := stdin }).ended = .threw e →
      ∃ line typed, stdin = line :: typed ∧ toLower line = bytes! "none" ∧ readUri (typed.headD []) = some [] := by
  obtain ⟨_, l1, _⟩ := C131_line sysconf args
  cases ho : clientOptions sysconf args with
  | exit n =>
    have hm : clientMain (libText load save) sysconf files args { pib := pib, stdin := stdin } = { st := { pib := pib, stdin := stdin }, ended := .exit n } := by
      unfold clientMain; rw [ho]
    rw [hm]
    refine ⟨fun nm => ⟨fun h => (by cases h.2), ?_⟩, fun h => (by cases h), fun u h => (by cases h), fun e h => (by cases h)⟩
    rintro ⟨config, _, _, _, _, _, _, _, h1, _⟩
    rw [(l1 config).mpr h1] at ho
    cases ho
  | run config =>
    have hask := (l1 config).mp ho
    have huniq : ∀ config', ClientAsked sysconf args config' → config' = config := by
      intro config' h'
      have := (l1 config').mpr h'
      rw [ho] at this
      cases this
      rfl
    cases hf : files config with
    | none =>
      have hm : clientMain (libText load save) sysconf files args { pib := pib, stdin := stdin } = { st := { pib := pib, stdin := stdin }, ended := .exit 1 } := by
        unfold clientMain; rw [ho]; dsimp only; rw [hf]
      rw [hm]
      refine ⟨fun nm => ⟨fun h => (by cases h.2), ?_⟩, fun h => (by cases h), fun u h => (by cases h), fun e h => (by cases h)⟩
      rintro ⟨config', _, _, _, _, _, _, _, h1, h2, _⟩
      rw [huniq config' h1, hf] at h2
      cases h2
    | some text =>
      have hm : clientMain (libText load save) sysconf files args { pib := pib, stdin := stdin } =
          selectCaProfile (libText load save) text { pib := pib, stdin := stdin } := by
        unfold clientMain; rw [ho]; dsimp only; rw [hf]
      rw [hm]
      refine ⟨fun nm => ⟨?_, ?_⟩, ?_, ?_, ?_⟩
      · rintro ⟨ha, hg⟩
        rcases selectCaProfile_selected (libText load save) text pib stdin with ⟨_, h2⟩ | ⟨known, ca, anchor, nm', h1, h2, h3, h4, _⟩
        · exact absurd hg h2
        · rw [ha] at h3
          cases h3
          obtain ⟨t, list, k1, k2, k3, k4⟩ := (loadProfiles_document load save text known).mp h1
          exact ⟨config, text, t, list, known, ca, anchor, _, hask, hf, k1, k2, k3, k4, h2, h4⟩
      · rintro ⟨config', text', t, list, known, ca, anchor, rest, h1, h2, k1, k2, k3, k4, hs, hn⟩
        rw [huniq config' h1, hf] at h2
        cases h2
        exact selectCaProfile_of ((loadProfiles_document load save text known).mpr ⟨t, list, k1, k2, k3, k4⟩) hs (discovery_of hn)
      · intro hg
        rcases selectCaProfile_selected (libText load save) text pib stdin with ⟨_, h2⟩ | ⟨_, _, _, nm', _, _, h3, _⟩
        · exact absurd hg h2
        · exact ⟨nm', h3⟩
      · intro u
        exact (selectCaProfile_started (libText load save) text _).ub u
      · intro e he
        exact selectCaProfile_threw he

end

/-! ## Example -/

/-- a configuration file of the client with one CA -/
def exClientConf : Bytes := bytes! "{ \"ca-list\": [ { \"ca-prefix\": \"/ndn\", \"certificate\": \"CERT\" } ] }"

/-- its text stands for the certificate of the CA of the fixtures -/
def exClientLoad (s : Bytes) : Option Cert := if s = bytes! "CERT" then some exNdnCert else none

/-- one file -/
def exClientFiles (f : Bytes) : Option Bytes := if f = bytes! "my.conf" then some exClientConf else none

/-- the program started with this file, an empty KeyChain and this input -/
def exProgram (input : List Bytes) : ClientOut :=
  clientMain (libText exClientLoad (fun _ => [])) (bytes! "/etc") exClientFiles [bytes! "--config=my.conf"] { pib := [], stdin := input }

theorem ClientProgram.play {C : Crypto} {T : TextIO} {sysconf : Bytes} {files : Bytes → Option Bytes} {args : List Bytes} {pib : Pib} {stdin : List Bytes}
    {first : List Act} : ∀ (es : List (ClientEvent × ClientEnv)) {h : List ClientStep} {o : ClientOut} {h' : List ClientStep} {o' : ClientOut},
    ClientProgram C T sysconf files args pib stdin first h o.st o.ended → playClient C o h es = some (h', o') →
    ClientProgram C T sysconf files args pib stdin first h' o'.st o'.ended
  | [], h, o, h', o', run, hp => by cases hp; exact run
  | (e, env) :: es, h, o, h', o', run, hp => by
    unfold playClient at hp
    split at hp
    · next hg =>
      rw [hg] at run
      exact ClientProgram.play es (.step e env run _ rfl) hp
    · cases hp

-- a run of the program in which PROBE, NEW and CHALLENGE are sent
example : ∃ h, ∃ o : ClientOut, ClientProgram Fix.C (libText exClientLoad (fun _ => [])) (bytes! "/etc") exClientFiles [bytes! "--config=my.conf"] []
      [bytes! "0", bytes! "1", bytes! "0"] (exProgram [bytes! "0", bytes! "1", bytes! "0"]).acts h o.st o.ended ∧
    (h.flatMap ClientStep.acts).filterMap Act.ca = [exReceived, exReceived, exReceived] := by
  have hv : (playClient Fix.C (exProgram [bytes! "0", bytes! "1", bytes! "0"]) [] (exReplies ++ [(exNewReply [bytes! "pin"], clientEnv 1003)])).map
      (fun x => (x.1.flatMap ClientStep.acts).filterMap Act.ca) = some [exReceived, exReceived, exReceived] := by decide +kernel
  cases hp : playClient Fix.C (exProgram [bytes! "0", bytes! "1", bytes! "0"]) [] (exReplies ++ [(exNewReply [bytes! "pin"], clientEnv 1003)]) with
  | none => rw [hp] at hv; cases hv
  | some x =>
    rw [hp] at hv
    injection hv with hv
    exact ⟨x.1, x.2, ClientProgram.play _ (.start _ rfl) hp, hv⟩

-- command lines of the client
example : clientOptions (bytes! "/etc") [] = .run (bytes! "/etc/ndncert/client.conf") ∧ clientOptions (bytes! "/etc") [bytes! "-cx"] = .run (bytes! "x") ∧
    clientOptions (bytes! "/etc") [bytes! "x"] = .exit 1 ∧ clientOptions (bytes! "/etc") [bytes! "--", bytes! "-h"] = .exit 1 ∧
    clientOptions (bytes! "/etc") [bytes! "-hc", bytes! "x"] = .exit 0 := by decide +kernel

end Ndncert.Props
