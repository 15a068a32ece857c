import Verif.Lemmas.Options

/-! # C127: the command lines of the CA tools -/

namespace Ndncert.Props
open Ndncert

theorem serverLine_distinct : OptsDistinct serverLine where
  long d hd := by
    simp only [serverLine, List.mem_cons, List.not_mem_nil, or_false] at hd
    rcases hd with rfl | rfl | rfl | rfl <;> exact ⟨_, _, rfl, by decide⟩
  short d hd c hc := by
    simp only [serverLine, List.mem_cons, List.not_mem_nil, or_false] at hd
    rcases hd with rfl | rfl | rfl | rfl <;> cases hc <;> decide
  longs := by decide
  shorts := by decide

theorem statusLine_distinct : OptsDistinct statusLine where
  long d hd := by
    simp only [statusLine, List.mem_cons, List.not_mem_nil, or_false] at hd
    rcases hd with rfl | rfl <;> exact ⟨_, _, rfl, by decide⟩
  short d hd c hc := by
    simp only [statusLine, List.mem_cons, List.not_mem_nil, or_false] at hd
    rcases hd with rfl | rfl <;> cases hc
    decide
  longs := by decide
  shorts := by decide

/-- **C127** What a command line says is determined: it cannot be read in two ways. -/
theorem C127_one_reading (ds : List OptDesc) (hds : ds = serverLine ∨ ds = statusLine) (args : List Bytes)
    (os os' : List (Bytes × Bytes)) (ws ws' : List Bytes) (h : LineSays ds args os ws) (h' : LineSays ds args os' ws') : os = os' ∧ ws = ws' := by
  have hd : OptsDistinct ds := by rcases hds with rfl | rfl; exact serverLine_distinct; exact statusLine_distinct
  obtain ⟨rs, hp, rfl, rfl⟩ := (parse_iff_says hd _ _ _).mp h
  obtain ⟨rs', hp', rfl, rfl⟩ := (parse_iff_says hd _ _ _).mp h'
  rw [hp] at hp'
  cases hp'
  exact ⟨rfl, rfl⟩

theorem server_vm (args : List Bytes) (vm : List (Bytes × Bytes)) :
    (parseArgs serverDescs none args).bind (storeOpts []) = some vm ↔ Understood args vm := by
  unfold Understood
  rw [Option.bind_eq_some_iff]
  constructor
  · rintro ⟨rs, hp, hs⟩
    obtain ⟨e, hn, _⟩ := (storeOpts_iff rs [] vm).mp hs
    rw [List.nil_append] at e
    subst e
    exact ⟨⟨_, (parse_iff_says serverLine_distinct _ _ _).mpr ⟨rs, hp, rfl, rfl⟩⟩, hn⟩
  · rintro ⟨⟨ws, hsay⟩, hn⟩
    obtain ⟨rs, hp, rfl, _⟩ := (parse_iff_says serverLine_distinct _ _ _).mp hsay
    exact ⟨rs, hp, (storeOpts_iff rs [] _).mpr ⟨rfl, hn, by simp⟩⟩

/-- **C127** The server goes on exactly if its command line can be understood and does not ask for help, and then with the configuration file,
the repo host and the repo port given there, or their defaults. If help is asked for, it exits with status 0; if the command line cannot be
understood, with status 2. -/
theorem C127_server (sysconf : Bytes) (args : List Bytes) :
    (∀ config host port, serverOptions sysconf args = .run config host port ↔ ∃ os, Understood args os ∧ (∀ v, (bytes! "help", v) ∉ os) ∧
      OptGives os (bytes! "config-file") (sysconf ++ bytes! "/ndncert/ca.conf") config ∧ OptGives os (bytes! "repo-host") [] host ∧
      OptGives os (bytes! "repo-port") (bytes! "7376") port) ∧
    (serverOptions sysconf args = .exit 0 ↔ ∃ os v, Understood args os ∧ (bytes! "help", v) ∈ os) ∧
    (serverOptions sysconf args = .exit 2 ↔ ¬ ∃ os, Understood args os) ∧
    (∀ status, serverOptions sysconf args = .exit status → status = 0 ∨ status = 2) := by
  cases hv : (parseArgs serverDescs none args).bind (storeOpts []) with
  | none =>
    have hno : ¬ ∃ os, Understood args os := by
      rintro ⟨os, h⟩
      rw [(server_vm _ _).mpr h] at hv
      cases hv
    have he : serverOptions sysconf args = .exit 2 := by unfold serverOptions; rw [hv]
    rw [he]
    refine ⟨fun c h p => ⟨fun x => (by cases x), fun ⟨os, h, _⟩ => absurd ⟨os, h⟩ hno⟩, ⟨fun x => (by cases x), fun ⟨os, _, h, _⟩ => absurd ⟨os, h⟩ hno⟩,
      ⟨fun _ => hno, fun _ => rfl⟩, fun s hs => (by cases hs; exact .inr rfl)⟩
  | some vm =>
    have hu := (server_vm args vm).mp hv
    have huniq : ∀ os, Understood args os → os = vm := by
      intro os h
      have := (server_vm args os).mpr h
      rw [hv] at this
      cases this
      rfl
    by_cases hh : optGiven vm (bytes! "help") = true
    · have he : serverOptions sysconf args = .exit 0 := by unfold serverOptions; rw [hv]; dsimp only; rw [if_pos hh]
      obtain ⟨v, hm⟩ := (optGiven_iff _ _).mp hh
      rw [he]
      refine ⟨fun c h p => ⟨fun x => (by cases x), fun ⟨os, h, hno, _⟩ => ?_⟩, ⟨fun _ => ⟨vm, v, hu, hm⟩, fun _ => rfl⟩,
        ⟨fun x => (by cases x), fun x => absurd ⟨vm, hu⟩ x⟩, fun s hs => (by cases hs; exact .inl rfl)⟩
      cases huniq os h
      exact absurd hm (hno v)
    · have he : serverOptions sysconf args = .run (optValue vm (bytes! "config-file") (sysconf ++ bytes! "/ndncert/ca.conf"))
          (optValue vm (bytes! "repo-host") []) (optValue vm (bytes! "repo-port") (bytes! "7376")) := by
        unfold serverOptions; rw [hv]; dsimp only; rw [if_neg hh]
      have hno : ∀ v, (bytes! "help", v) ∉ vm := fun v h => hh ((optGiven_iff _ _).mpr ⟨v, h⟩)
      rw [he]
      refine ⟨fun c h p => ⟨fun x => ?_, fun ⟨os, hos, _, h1, h2, h3⟩ => ?_⟩, ⟨fun x => (by cases x), fun ⟨os, v, h, hm⟩ => ?_⟩,
        ⟨fun x => (by cases x), fun x => absurd ⟨vm, hu⟩ x⟩, fun s hs => (by cases hs)⟩
      · injection x with e1 e2 e3
        exact ⟨vm, hu, hno, (optValue_iff hu.2 _ _ _).mp e1.symm, (optValue_iff hu.2 _ _ _).mp e2.symm, (optValue_iff hu.2 _ _ _).mp e3.symm⟩
      · cases huniq os hos
        rw [(optValue_iff hu.2 _ _ _).mpr h1, (optValue_iff hu.2 _ _ _).mpr h2, (optValue_iff hu.2 _ _ _).mpr h3]
      · cases huniq os h
        exact absurd hm (hno v)

theorem status_vm (args : List Bytes) (vm : List (Bytes × Bytes))
    (h : ((parseArgs statusDescs none args).bind (namePositional [bytes! "caName"])).bind (storeOpts []) = some vm) :
    ∃ os, UnderstoodStatus args os ∧ vm.Perm os := by
  rw [Option.bind_eq_some_iff] at h
  obtain ⟨rs', h1, h2⟩ := h
  rw [Option.bind_eq_some_iff] at h1
  obtain ⟨rs, hp, hn⟩ := h1
  obtain ⟨e, hnd, _⟩ := (storeOpts_iff rs' [] vm).mp h2
  rw [List.nil_append] at e
  subst e
  have hsay := (parse_iff_says statusLine_distinct args _ _).mpr ⟨rs, hp, rfl, rfl⟩
  rcases namePositional_iff _ (by simp) rs rs' hn with ⟨a, b⟩ | ⟨w, l, l', a, b, c⟩
  · refine ⟨_, ⟨⟨_, _, hsay, rfl⟩, ?_⟩, ?_⟩ <;> rw [a, List.map_nil, List.append_nil, ← b]
    exact hnd
  · have hperm : (optsOf rs').Perm (optsOf rs ++ (wordsOf rs).map (fun w => (bytes! "caName", w))) := by
      rw [a, b, c, List.map_cons, List.map_nil]
      exact List.perm_middle.trans (List.perm_append_comm (l₁ := [(bytes! "caName", w)]) (l₂ := l ++ l'))
    exact ⟨_, ⟨⟨_, _, hsay, rfl⟩, (hperm.map _).nodup_iff.mp hnd⟩, hperm⟩

theorem status_vm' (args : List Bytes) (os : List (Bytes × Bytes)) (h : UnderstoodStatus args os) :
    ∃ vm, ((parseArgs statusDescs none args).bind (namePositional [bytes! "caName"])).bind (storeOpts []) = some vm ∧ vm.Perm os := by
  obtain ⟨⟨given, ws, hsay, rfl⟩, hnd⟩ := h
  obtain ⟨rs, hp, rfl, rfl⟩ := (parse_iff_says statusLine_distinct _ _ _).mp hsay
  have hlen : (wordsOf rs).length ≤ 1 := by
    rw [List.map_append, List.nodup_append] at hnd
    have hw := hnd.2.1
    rw [List.map_map] at hw
    cases hww : wordsOf rs with
    | nil => simp
    | cons x l =>
      cases l with
      | nil => simp
      | cons y l => rw [hww] at hw; simp at hw
  obtain ⟨rs', hn⟩ := namePositional_some (bytes! "caName") rs hlen
  have hperm : (optsOf rs').Perm (optsOf rs ++ (wordsOf rs).map (fun w => (bytes! "caName", w))) := by
    rcases namePositional_iff _ (by simp) rs rs' hn with ⟨a, b⟩ | ⟨w, l, l', a, b, c⟩
    · rw [a, b]; simp
    · rw [a, b, c, List.map_cons, List.map_nil]
      exact List.perm_middle.trans (List.perm_append_comm (l₁ := [(bytes! "caName", w)]) (l₂ := l ++ l'))
  refine ⟨optsOf rs', ?_, hperm⟩
  rw [show parseArgs statusDescs none args = some rs from hp, Option.bind_some, hn, Option.bind_some]
  exact (storeOpts_iff rs' [] _).mpr ⟨rfl, (hperm.map _).nodup_iff.mpr hnd, by simp⟩

/-- **C127** The status tool lists the requests of a CA exactly if its command line can be understood, does not ask for help, and names that CA.
It exits with status 0 if help is asked for, with 1 if the command line cannot be understood, and with 2 if it names no CA. -/
theorem C127_status (args : List Bytes) :
    (∀ ca, statusOptions args = .list ca ↔ ∃ os, UnderstoodStatus args os ∧ (∀ v, (bytes! "help", v) ∉ os) ∧ (bytes! "caName", ca) ∈ os) ∧
    (statusOptions args = .exit 0 ↔ ∃ os v, UnderstoodStatus args os ∧ (bytes! "help", v) ∈ os) ∧
    (statusOptions args = .exit 1 ↔ ¬ ∃ os, UnderstoodStatus args os) ∧
    (statusOptions args = .exit 2 ↔ ∃ os, UnderstoodStatus args os ∧ ∀ v, (bytes! "help", v) ∉ os ∧ (bytes! "caName", v) ∉ os) := by
  cases hv : ((parseArgs statusDescs none args).bind (namePositional [bytes! "caName"])).bind (storeOpts []) with
  | none =>
    have hno : ¬ ∃ os, UnderstoodStatus args os := by
      rintro ⟨os, h⟩
      obtain ⟨vm, h', _⟩ := status_vm' args os h
      rw [h'] at hv
      cases hv
    have he : statusOptions args = .exit 1 := by unfold statusOptions; rw [hv]
    rw [he]
    exact ⟨fun c => ⟨fun x => (by cases x), fun ⟨os, h, _⟩ => absurd ⟨os, h⟩ hno⟩, ⟨fun x => (by cases x), fun ⟨os, _, h, _⟩ => absurd ⟨os, h⟩ hno⟩,
      ⟨fun _ => hno, fun _ => rfl⟩, ⟨fun x => (by cases x), fun ⟨os, h, _⟩ => absurd ⟨os, h⟩ hno⟩⟩
  | some vm =>
    obtain ⟨os, hu, hperm⟩ := status_vm args vm hv
    have hall : ∀ os', UnderstoodStatus args os' → os'.Perm vm := by
      intro os' h
      obtain ⟨vm', h', hp⟩ := status_vm' args os' h
      rw [hv] at h'
      cases h'
      exact hp.symm
    have hnd : (vm.map (·.1)).Nodup := (hperm.map _).nodup_iff.mpr hu.2
    by_cases hh : optGiven vm (bytes! "help") = true
    · have he : statusOptions args = .exit 0 := by unfold statusOptions; rw [hv]; dsimp only; rw [if_pos hh]
      obtain ⟨v, hm⟩ := (optGiven_iff _ _).mp hh
      rw [he]
      exact ⟨fun c => ⟨fun x => (by cases x), fun ⟨os', h, hno, _⟩ => absurd ((hall os' h).mem_iff.mpr hm) (hno v)⟩,
        ⟨fun _ => ⟨os, v, hu, hperm.mem_iff.mp hm⟩, fun _ => rfl⟩, ⟨fun x => (by cases x), fun x => absurd ⟨os, hu⟩ x⟩,
        ⟨fun x => (by cases x), fun ⟨os', h, hno⟩ => absurd ((hall os' h).mem_iff.mpr hm) (hno v).1⟩⟩
    · have hno : ∀ v, (bytes! "help", v) ∉ vm := fun v h => hh ((optGiven_iff _ _).mpr ⟨v, h⟩)
      by_cases hc : optGiven vm (bytes! "caName") = true
      · have he : statusOptions args = .list (optValue vm (bytes! "caName") []) := by
          unfold statusOptions; rw [hv]; dsimp only; rw [if_neg hh, if_pos hc]
        obtain ⟨ca, hm⟩ := (optGiven_iff _ _).mp hc
        have hval : ∀ v, (bytes! "caName", v) ∈ vm → v = optValue vm (bytes! "caName") [] := fun v h => (optValue_iff hnd _ _ _).mpr (.inl h)
        rw [he]
        refine ⟨fun c => ⟨fun x => ?_, fun ⟨os', h, _, h'⟩ => ?_⟩, ⟨fun x => (by cases x), fun ⟨os', v, h, h'⟩ => absurd ((hall os' h).mem_iff.mp h') (hno v)⟩,
          ⟨fun x => (by cases x), fun x => absurd ⟨os, hu⟩ x⟩, ⟨fun x => (by cases x), fun ⟨os', h, h'⟩ => absurd ((hall os' h).mem_iff.mpr hm) (h' ca).2⟩⟩
        · injection x with e
          refine ⟨os, hu, fun v h => hno v (hperm.mem_iff.mpr h), hperm.mem_iff.mp ?_⟩
          rw [← e, ← hval ca hm]
          exact hm
        · rw [hval c ((hall os' h).mem_iff.mp h')]
      · have he : statusOptions args = .exit 2 := by
          unfold statusOptions; rw [hv]; dsimp only; rw [if_neg hh, if_neg hc]
        have hnc : ∀ v, (bytes! "caName", v) ∉ vm := fun v h => hc ((optGiven_iff _ _).mpr ⟨v, h⟩)
        rw [he]
        exact ⟨fun c => ⟨fun x => (by cases x), fun ⟨os', h, _, h'⟩ => absurd ((hall os' h).mem_iff.mp h') (hnc c)⟩,
          ⟨fun x => (by cases x), fun ⟨os', v, h, h'⟩ => absurd ((hall os' h).mem_iff.mp h') (hno v)⟩,
          ⟨fun x => (by cases x), fun x => absurd ⟨os, hu⟩ x⟩,
          ⟨fun _ => ⟨os, hu, fun v => ⟨fun h => hno v (hperm.mem_iff.mpr h), fun h => hnc v (hperm.mem_iff.mpr h)⟩⟩, fun _ => rfl⟩⟩

/-- a line with a short option, a long one abbreviated, a word that is ignored, and a value that looks like an option -/
example : serverOptions (bytes! "/etc") [bytes! "-c", bytes! "my.conf", bytes! "--repo-h=localhost", bytes! "word", bytes! "--repo-port", bytes! "--help"] =
    .run (bytes! "my.conf") (bytes! "localhost") (bytes! "--help") ∧
    serverOptions (bytes! "/etc") [] = .run (bytes! "/etc/ndncert/ca.conf") [] (bytes! "7376") ∧
    serverOptions (bytes! "/etc") [bytes! "-hcx"] = .exit 0 ∧
    serverOptions (bytes! "/etc") [bytes! "--repo", bytes! "x"] = .exit 2 ∧
    serverOptions (bytes! "/etc") [bytes! "-c", bytes! "a", bytes! "-cb"] = .exit 2 ∧
    serverOptions (bytes! "/etc") [bytes! "-c", bytes! "-H"] = .exit 2 := by decide +kernel

example : LineSays serverLine [bytes! "-c", bytes! "my.conf", bytes! "--repo-h=localhost", bytes! "word"]
    [(bytes! "config-file", bytes! "my.conf"), (bytes! "repo-host", bytes! "localhost")] [bytes! "word"] :=
  (parse_iff_says serverLine_distinct _ _ _).mpr ⟨[(bytes! "config-file", [bytes! "my.conf"]), (bytes! "repo-host", [bytes! "localhost"]),
    ([], [bytes! "word"])], by decide +kernel, by decide +kernel, by decide +kernel⟩

/-- the status tool with a name, with two, with none, and with help -/
example : statusOptions [bytes! "/ndn"] = .list (bytes! "/ndn") ∧ statusOptions [bytes! "/a", bytes! "/b"] = .exit 1 ∧
    statusOptions [bytes! "--caName=/a", bytes! "/b"] = .exit 1 ∧ statusOptions [] = .exit 2 ∧ statusOptions [bytes! "/a", bytes! "-h"] = .exit 0 ∧
    statusOptions [bytes! "--", bytes! "-h"] = .list (bytes! "-h") := by decide +kernel

end Ndncert.Props
