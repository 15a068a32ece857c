import Verif.Spec.Options
import Verif.Lemmas.Assign

/-! # Command lines -/

namespace Ndncert

/-- the options in what was parsed -/
def optsOf (rs : List RawOpt) : List (Bytes × Bytes) := (rs.filter (fun r => r.1 ≠ [])).map (fun r => (r.1, r.2.headD []))

/-- the words in what was parsed -/
def wordsOf (rs : List RawOpt) : List Bytes := (rs.filter (fun r => r.1 = [])).map (fun r => r.2.headD [])

theorem optsOf_append (a b : List RawOpt) : optsOf (a ++ b) = optsOf a ++ optsOf b := by simp [optsOf]
theorem wordsOf_append (a b : List RawOpt) : wordsOf (a ++ b) = wordsOf a ++ wordsOf b := by simp [wordsOf]

theorem filter_single {α : Type} {p : α → Bool} {d : α} : ∀ {l : List α}, l.Nodup → d ∈ l → p d = true → (∀ e ∈ l, p e = true → e = d) →
    l.filter p = [d]
  | [], _, h, _, _ => by cases h
  | a :: l, hn, hm, hp, hu => by
    rw [List.nodup_cons] at hn
    by_cases h : a = d
    · subst h
      rw [List.filter_cons_of_pos hp, List.filter_eq_nil_iff.mpr]
      intro e he hpe
      exact hn.1 (hu e (List.mem_cons_of_mem _ he) hpe ▸ he)
    · have ha : p a ≠ true := fun hh => h (hu a (by simp) hh)
      rw [List.filter_cons_of_neg ha]
      refine filter_single hn.2 ?_ hp (fun e he => hu e (List.mem_cons_of_mem _ he))
      rcases List.mem_cons.mp hm with e | e
      · exact absurd e.symm h
      · exact e

theorem nodup_of_map {α β : Type} {f : α → β} : ∀ {l : List α}, (l.map f).Nodup → l.Nodup
  | [], _ => List.nodup_nil
  | a :: l, h => by
    rw [List.map_cons, List.nodup_cons] at h
    exact List.nodup_cons.mpr ⟨fun ha => h.1 (List.mem_map_of_mem ha), nodup_of_map h.2⟩

theorem map_inj_on {α β : Type} {f : α → β} : ∀ {l : List α}, (l.map f).Nodup → ∀ {a b : α}, a ∈ l → b ∈ l → f a = f b → a = b
  | [], _, _, _, h, _, _ => by cases h
  | x :: l, h, a, b, ha, hb, he => by
    rw [List.map_cons, List.nodup_cons] at h
    rcases List.mem_cons.mp ha with ea | ha' <;> rcases List.mem_cons.mp hb with eb | hb'
    · rw [ea, eb]
    · exact absurd (List.mem_map.mpr ⟨b, hb', by rw [← he, ea]⟩) h.1
    · exact absurd (List.mem_map.mpr ⟨a, ha', by rw [he, eb]⟩) h.1
    · exact map_inj_on h.2 ha' hb' he

theorem filterMap_inj_on {α β : Type} {f : α → Option β} : ∀ {l : List α}, (l.filterMap f).Nodup → ∀ {a b : α} {c : β}, a ∈ l → b ∈ l →
    f a = some c → f b = some c → a = b
  | [], _, _, _, _, h, _, _, _ => by cases h
  | x :: l, h, a, b, c, ha, hb, e1, e2 => by
    cases hx : f x with
    | none =>
      rw [List.filterMap_cons_none hx] at h
      rcases List.mem_cons.mp ha with rfl | ha
      · rw [hx] at e1; cases e1
      · rcases List.mem_cons.mp hb with rfl | hb
        · rw [hx] at e2; cases e2
        · exact filterMap_inj_on h ha hb e1 e2
    | some y =>
      rw [List.filterMap_cons_some hx, List.nodup_cons] at h
      rcases List.mem_cons.mp ha with ea | ha' <;> rcases List.mem_cons.mp hb with eb | hb'
      · rw [ea, eb]
      · rw [ea, hx] at e1; cases e1
        exact absurd (List.mem_filterMap.mpr ⟨b, hb', e2⟩) h.1
      · rw [eb, hx] at e2; cases e2
        exact absurd (List.mem_filterMap.mpr ⟨a, ha', e1⟩) h.1
      · exact filterMap_inj_on h.2 ha' hb' e1 e2

variable {ds : List OptDesc}

theorem full_iff (d : OptDesc) (n : Bytes) : d.full n = true ↔ n = d.long ∨ ∃ c, d.short = some c ∧ n = [45, c] := by
  unfold OptDesc.full
  rw [Bool.or_eq_true, beq_iff_eq]
  cases d.short with
  | none => simp
  | some c => simp

theorem near_iff (d : OptDesc) (n : Bytes) : d.near n = true ↔ n <+: d.long := by
  unfold OptDesc.near
  exact List.isPrefixOf_iff_prefix

/-- a long name does not begin with a dash -/
theorem OptsDistinct.no_dash (h : OptsDistinct ds) {d : OptDesc} (hd : d ∈ ds) {s : Bytes} : ¬ (45 :: s) <+: d.long := by
  obtain ⟨b, bs, e, hb⟩ := h.long d hd
  rw [e, List.cons_prefix_cons]
  exact fun x => hb x.1.symm

theorem full_unique (h : OptsDistinct ds) {d e : OptDesc} {n : Bytes} (hd : d ∈ ds) (he : e ∈ ds) (h1 : d.full n = true) (h2 : e.full n = true) :
    e = d := by
  rcases (full_iff _ _).mp h1 with a | ⟨c, a, a'⟩ <;> rcases (full_iff _ _).mp h2 with b | ⟨c', b, b'⟩
  · exact map_inj_on h.longs he hd (b.symm.trans a)
  · exact absurd (List.prefix_rfl : n <+: n) (by
      intro _
      refine h.no_dash hd (s := [c']) ?_
      rw [← a, ← b']
      exact List.prefix_rfl)
  · exact absurd (List.prefix_rfl : n <+: n) (by
      intro _
      refine h.no_dash he (s := [c]) ?_
      rw [← b, ← a']
      exact List.prefix_rfl)
  · rw [a'] at b'
    cases b'
    exact filterMap_inj_on h.shorts he hd b a

theorem optLookup_iff (h : OptsDistinct ds) (n : Bytes) (d : OptDesc) : optLookup ds n = some d ↔ OptNamed ds n d := by
  have hnd : ds.Nodup := nodup_of_map h.longs
  have hfull : ∀ {e : OptDesc}, e ∈ ds → e.full n = true → optLookup ds n = some e := by
    intro e he hf
    unfold optLookup
    rw [filter_single hnd he hf (fun x hx hxf => full_unique h he hx hf hxf)]
  unfold OptNamed
  constructor
  · intro hl
    by_cases hex : ∃ e ∈ ds, e.full n = true
    · obtain ⟨e, he, hf⟩ := hex
      rw [hfull he hf] at hl
      cases hl
      refine ⟨he, ?_⟩
      rcases (full_iff _ _).mp hf with a | a
      · exact .inl a
      · exact .inr (.inl a)
    · have hnil : ds.filter (·.full n) = [] := List.filter_eq_nil_iff.mpr (fun e he hf => hex ⟨e, he, hf⟩)
      unfold optLookup at hl
      rw [hnil] at hl
      dsimp only at hl
      split at hl
      · next x hx =>
        cases hl
        have hm : ∀ e, e ∈ ds ∧ e.near n = true ↔ e = d := fun e => by
          have := List.mem_filter (p := fun x => OptDesc.near x n) (x := e) (as := ds)
          rw [hx, List.mem_singleton] at this
          exact this.symm
        obtain ⟨h1, h2⟩ := (hm d).mpr rfl
        exact ⟨h1, .inr (.inr ⟨(near_iff _ _).mp h2, fun e he hp => (hm e).mp ⟨he, (near_iff _ _).mpr hp⟩⟩)⟩
      · cases hl
  · rintro ⟨hd, a | a | ⟨a, hu⟩⟩
    · exact hfull hd ((full_iff _ _).mpr (.inl a))
    · exact hfull hd ((full_iff _ _).mpr (.inr a))
    · by_cases hex : ∃ e ∈ ds, e.full n = true
      · obtain ⟨e, he, hf⟩ := hex
        rcases (full_iff _ _).mp hf with b | ⟨c, _, b⟩
        · cases hu e he (b ▸ List.prefix_rfl)
          exact hfull hd hf
        · rw [b] at a
          exact absurd a (h.no_dash hd)
      · have hnil : ds.filter (·.full n) = [] := List.filter_eq_nil_iff.mpr (fun e he hf => hex ⟨e, he, hf⟩)
        unfold optLookup
        rw [hnil]
        dsimp only
        rw [filter_single hnd hd ((near_iff _ _).mpr a) (fun e he hp => hu e he ((near_iff _ _).mp hp))]

theorem OptNamed.of_short (h : OptsDistinct ds) {c : UInt8} {d : OptDesc} (hn : OptNamed ds [45, c] d) : d ∈ ds ∧ d.short = some c := by
  obtain ⟨hd, a | ⟨c', a, b⟩ | ⟨a, _⟩⟩ := hn
  · exact absurd (a ▸ List.prefix_rfl) (h.no_dash hd (s := [c]))
  · cases b
    exact ⟨hd, a⟩
  · exact absurd a (h.no_dash hd)

theorem short_find (h : OptsDistinct ds) {c : UInt8} {d : OptDesc} (hd : d ∈ ds) (hc : d.short = some c) :
    ds.find? (·.full [45, c]) = some d ∧ optLookup ds [45, c] = some d := by
  have hf : d.full [45, c] = true := (full_iff _ _).mpr (.inr ⟨c, hc, rfl⟩)
  constructor
  · cases hx : ds.find? (·.full [45, c]) with
    | none => exact absurd hf (by simpa using List.find?_eq_none.mp hx d hd)
    | some e =>
      have h1 : e.full [45, c] = true := by simpa using List.find?_some hx
      rw [full_unique h hd (List.mem_of_find?_eq_some hx) hf h1]
  · exact (optLookup_iff h _ _).mpr ⟨hd, .inr (.inl ⟨c, hc, rfl⟩)⟩

theorem shortLoop_ne (c : UInt8) (adj : Bytes) : shortLoop ds c adj ≠ [] := by
  cases adj with
  | nil => simp [shortLoop]
  | cons a rest =>
    unfold shortLoop
    split
    · split <;> simp
    · simp

theorem finishAll_cons (o : RawOpt) {os : List RawOpt} (hos : os ≠ []) : finishAll ds (o :: os) =
    match finishOption ds o with
    | some (.inl o) => (finishAll ds os).map (fun r => (o :: r.1, r.2))
    | _ => none := by
  cases os with
  | nil => exact absurd rfl hos
  | cons a os => rfl

theorem finish_flag {n : Bytes} {d : OptDesc} (hn : n ≠ []) (h : optLookup ds n = some d)
    (hv : d.value = false) : finishOption ds (n, []) = some (.inl (d.long, [])) := by
  unfold finishOption
  rw [if_neg hn, h]
  simp [hv]

theorem finish_value {n v : Bytes} {d : OptDesc} (hn : n ≠ []) (h : optLookup ds n = some d)
    (hv : d.value = true) : finishOption ds (n, [v]) = some (.inl (d.long, [v])) := by
  unfold finishOption
  rw [if_neg hn, h]
  simp [hv]

theorem finish_wait {n : Bytes} {d : OptDesc} (hn : n ≠ []) (h : optLookup ds n = some d)
    (hv : d.value = true) : finishOption ds (n, []) = some (.inr d.long) := by
  unfold finishOption
  rw [if_neg hn, h]
  simp [hv]

theorem tokenShape_short {c : UInt8} (hc : c ≠ 45) (adj : Bytes) : tokenShape ds (45 :: c :: adj) = .opts (shortLoop ds c adj) := by
  unfold tokenShape
  split
  · next h => cases h; exact absurd rfl hc
  · next h => cases h; exact absurd rfl hc
  · next h => cases h; rfl
  · next h => exact absurd rfl (h _ _)

theorem tokenShape_long {n : Bytes} (hn : n ≠ []) : tokenShape ds (dashes ++ n) =
    match splitFirst 61 n with
    | some (n, v) => if v = [] then .bad else .opts [(n, [v])]
    | none => .opts [(n, [])] := by
  show tokenShape ds (45 :: 45 :: n) = _
  cases n with
  | nil => exact absurd rfl hn
  | cons b n => rfl

theorem tokenShape_word {w : Bytes} : tokenShape ds w = .word ↔ NoOption w := by
  unfold NoOption tokenShape
  split
  · simp
  · split
    · split <;> simp
    · simp
  · simp
  · next h1 h2 h3 =>
    simp only [true_iff]
    rcases w with _ | ⟨b, _ | ⟨c, w⟩⟩
    · simp
    · by_cases e : b = 45
      · exact .inr (by rw [e])
      · exact .inl (by simpa using e)
    · refine .inl ?_
      rintro e
      cases e
      exact h3 _ _ rfl

theorem takesValue_iff (h : OptsDistinct ds) (t : Bytes) : takesValue ds t = true ↔ CanBeValue ds t := by
  have hany : ∀ s : Bytes, t = 45 :: s → ((!(ds.any (fun d => d.full t || d.near t))) = true ↔ ∀ d ∈ ds, ∀ c, d.short = some c → t ≠ [45, c]) := by
    rintro s rfl
    rw [Bool.not_eq_true', List.any_eq_false]
    constructor
    · intro hh d hd c hc e
      have := hh d hd
      rw [e, (full_iff _ _).mpr (.inr ⟨c, hc, rfl⟩)] at this
      simp at this
    · intro hh d hd hx
      rw [Bool.or_eq_true] at hx
      rcases hx with hx | hx
      · rcases (full_iff _ _).mp hx with a | ⟨c, hc, a⟩
        · exact h.no_dash hd (s := s) (by rw [a]; exact List.prefix_rfl)
        · exact hh d hd c hc a
      · exact h.no_dash hd ((near_iff _ _).mp hx)
  have hw : ∀ {w : Bytes}, NoOption w → CanBeValue ds w := by
    rintro w (h1 | rfl)
    · refine ⟨?_, ?_⟩
      · rintro d hd c hc rfl; simp at h1
      · rintro n hn rfl; simp [dashes] at h1
    · refine ⟨fun d hd c hc e => ?_, fun n hn e => ?_⟩
      · simp at e
      · have := congrArg List.length e
        simp [dashes] at this
  unfold takesValue
  rcases t with _ | ⟨b, _ | ⟨c, s⟩⟩
  · exact ⟨fun _ => hw (.inl (by simp)), fun _ => rfl⟩
  · by_cases e : b = 45
    · subst e
      exact ⟨fun _ => hw (.inr rfl), fun _ => rfl⟩
    · have hn : NoOption [b] := .inl (by simpa using e)
      rw [tokenShape_word.mpr hn]
      exact ⟨fun _ => hw hn, fun _ => rfl⟩
  · by_cases e : b = 45
    · subst e
      by_cases e2 : c = 45
      · subst e2
        cases s with
        | nil =>
          refine ⟨fun _ => ⟨fun d hd c hc e => ?_, fun n hn e => ?_⟩, fun _ => rfl⟩
          · cases e
            exact h.short d hd _ hc rfl
          · have := congrArg List.length e
            simp [dashes] at this
        | cons x s =>
          have hsh := tokenShape_long (ds := ds) (n := x :: s) (by simp)
          rw [show dashes ++ (x :: s) = (45 :: 45 :: x :: s : Bytes) from rfl] at hsh
          rw [hsh]
          cases hs : splitFirst 61 (x :: s) with
          | none =>
            dsimp only
            rw [hany _ rfl]
            refine ⟨fun hh => ⟨hh, fun n hn e => ?_⟩, fun hh => hh.1⟩
            have e := List.append_cancel_left (show dashes ++ (x :: s) = dashes ++ (n ++ [61]) from (show (45 :: 45 :: x :: s : Bytes) = _ from e).trans (List.append_assoc _ _ _))
            rw [e] at hs
            exact (splitFirst_none.mp hs) (by simp)
          | some kv =>
            obtain ⟨k, v⟩ := kv
            obtain ⟨e, hk⟩ := splitFirst_some.mp hs
            dsimp only
            by_cases hv : v = []
            · rw [if_pos hv]
              subst hv
              refine ⟨fun hh => by simp at hh, fun hh => ?_⟩
              refine absurd ?_ (hh.2 k hk)
              rw [e, List.append_assoc]; rfl
            · rw [if_neg hv]
              dsimp only
              rw [hany _ rfl]
              refine ⟨fun hh => ⟨hh, fun n hn e' => ?_⟩, fun hh => hh.1⟩
              have e' := List.append_cancel_left (show dashes ++ (x :: s) = dashes ++ (n ++ [61]) from (show (45 :: 45 :: x :: s : Bytes) = _ from e').trans (List.append_assoc _ _ _))
              have := splitFirst_some.mpr ⟨e', hn⟩
              rw [hs] at this
              cases this
              exact hv rfl
      · rw [tokenShape_short e2]
        dsimp only
        rw [hany _ rfl]
        refine ⟨fun hh => ⟨hh, fun n hn e => ?_⟩, fun hh => hh.1⟩
        cases e
        exact e2 rfl
    · have hn : NoOption (b :: c :: s) := .inl (by simpa using e)
      rw [tokenShape_word.mpr hn]
      exact ⟨fun _ => hw hn, fun _ => rfl⟩

/-! ## The whole command line -/

theorem OptsDistinct.long_ne (h : OptsDistinct ds) {d : OptDesc} (hd : d ∈ ds) : d.long ≠ [] := by
  obtain ⟨b, bs, e, _⟩ := h.long d hd
  rw [e]; simp

theorem parse_opts {t : Bytes} {os : List RawOpt} (h : tokenShape ds t = .opts os) (ts : List Bytes) :
    parseArgs ds none (t :: ts) = match finishAll ds os with
      | none => none
      | some (done, wait) => (parseArgs ds wait ts).map (done ++ ·) := by
  rw [parseArgs, h]
  rfl

/-- what the command line says is parsed -/
theorem parse_of_says (h : OptsDistinct ds) {args : List Bytes} {os : List (Bytes × Bytes)} {ws : List Bytes} (hs : LineSays ds args os ws) :
    ∃ rs, parseArgs ds none args = some rs ∧ optsOf rs = os ∧ wordsOf rs = ws := by
  have hone : ∀ {t : Bytes} {args : List Bytes} {raw : RawOpt} {d : OptDesc} {v : List Bytes} {rs : List RawOpt}
      {os : List (Bytes × Bytes)} {ws : List Bytes}, d ∈ ds → tokenShape ds t = .opts [raw] → finishOption ds raw = some (.inl (d.long, v)) →
      parseArgs ds none args = some rs → optsOf rs = os → wordsOf rs = ws →
      ∃ rs, parseArgs ds none (t :: args) = some rs ∧ optsOf rs = (d.long, v.headD []) :: os ∧ wordsOf rs = ws := by
    intro t args raw d v rs os ws hd ht hf hp ho hw
    refine ⟨(d.long, v) :: rs, ?_, ?_, ?_⟩
    · rw [parse_opts ht, finishAll, hf]
      simp [hp]
    · rw [← ho]
      simp [optsOf, h.long_ne hd]
    · rw [← hw]
      simp [wordsOf, h.long_ne hd]
  have htwo : ∀ {t v : Bytes} {args : List Bytes} {raw : RawOpt} {d : OptDesc} {rs : List RawOpt}
      {os : List (Bytes × Bytes)} {ws : List Bytes}, d ∈ ds → tokenShape ds t = .opts [raw] → finishOption ds raw = some (.inr d.long) →
      CanBeValue ds v → parseArgs ds none args = some rs → optsOf rs = os → wordsOf rs = ws →
      ∃ rs, parseArgs ds none (t :: v :: args) = some rs ∧ optsOf rs = (d.long, v) :: os ∧ wordsOf rs = ws := by
    intro t v args raw d rs os ws hd ht hf hv hp ho hw
    refine ⟨(d.long, [v]) :: rs, ?_, ?_, ?_⟩
    · rw [parse_opts ht, finishAll, hf]
      dsimp only
      rw [parseArgs, if_pos ((takesValue_iff h v).mpr hv), hp]
      simp
    · rw [← ho]
      simp [optsOf, h.long_ne hd]
    · rw [← hw]
      simp [wordsOf, h.long_ne hd]
  induction hs with
  | nil => exact ⟨[], rfl, rfl, rfl⟩
  | rest ws =>
    refine ⟨ws.map (fun w => ([], [w])), rfl, ?_, ?_⟩
    · unfold optsOf
      rw [List.filter_eq_nil_iff.mpr]
      · rfl
      · intro r hr
        obtain ⟨w, _, rfl⟩ := List.mem_map.mp hr
        simp
    · unfold wordsOf
      rw [List.filter_eq_self.mpr]
      · rw [List.map_map]
        exact (List.map_id'' (fun _ => rfl) ws)
      · intro r hr
        obtain ⟨w, _, rfl⟩ := List.mem_map.mp hr
        simp
  | @word w args os ws hw _ ih =>
    obtain ⟨rs, hp, ho, hw'⟩ := ih
    refine ⟨([], [w]) :: rs, ?_, ?_, ?_⟩
    · rw [parseArgs, tokenShape_word.mpr hw, hp]
      rfl
    · rw [← ho]; rfl
    · rw [← hw']; rfl
  | @anonymous w args os ws hw _ ih =>
    obtain ⟨rs, hp, ho, hw'⟩ := ih
    refine ⟨([], [w]) :: rs, ?_, ?_, ?_⟩
    · have ht : tokenShape ds (dashes ++ 61 :: w) = .opts [([], [w])] := by
        rw [tokenShape_long (by simp), show splitFirst 61 (61 :: w) = some ([], w) from splitFirst_some.mpr ⟨rfl, by simp⟩]
        dsimp only
        rw [if_neg hw]
      rw [parse_opts ht, finishAll, finishOption]
      simp [hp]
    · rw [← ho]; rfl
    · rw [← hw']; rfl
  | @flag n d args os ws hn hv hne heq _ ih =>
    obtain ⟨rs, hp, ho, hw'⟩ := ih
    exact hone (v := []) hn.1 (by rw [tokenShape_long hne, splitFirst_none.mpr heq]) (finish_flag hne ((optLookup_iff h _ _).mpr hn) hv) hp ho hw'
  | @short c d args os ws hd hc hv _ ih =>
    obtain ⟨rs, hp, ho, hw'⟩ := ih
    exact hone (v := []) hd (tokenShape_short (h.short d hd c hc) []) (finish_flag (by simp) (short_find h hd hc).2 hv) hp ho hw'
  | @group c x xs d args os ws hd hc hv hx _ ih =>
    obtain ⟨rs, hp, ho, hw'⟩ := ih
    rw [parse_opts (tokenShape_short hx xs)] at hp
    refine ⟨(d.long, []) :: rs, ?_, ?_, ?_⟩
    · rw [parse_opts (tokenShape_short (h.short d hd c hc) _)]
      have : shortLoop ds c (x :: xs) = ([45, c], []) :: shortLoop ds x xs := by
        rw [shortLoop, (short_find h hd hc).1]
        simp [hv]
      rw [this, finishAll_cons _ (shortLoop_ne _ _), finish_flag (by simp) (short_find h hd hc).2 hv]
      dsimp only
      cases hf : finishAll ds (shortLoop ds x xs) with
      | none => rw [hf] at hp; cases hp
      | some r =>
        rw [hf] at hp
        dsimp only [Option.map_some] at hp ⊢
        cases hq : parseArgs ds r.2 args with
        | none => rw [hq] at hp; cases hp
        | some q =>
          rw [hq] at hp
          cases hp
          rfl
    · rw [← ho]
      simp [optsOf, h.long_ne hd]
    · rw [← hw']
      simp [wordsOf, h.long_ne hd]
  | @joined n v d args os ws hn hv hne heq hvn _ ih =>
    obtain ⟨rs, hp, ho, hw'⟩ := ih
    refine hone (v := [v]) (raw := (n, [v])) hn.1 ?_ (finish_value hne ((optLookup_iff h _ _).mpr hn) hv) hp ho hw'
    rw [List.append_assoc, tokenShape_long (by simp [hne]), splitFirst_some.mpr ⟨rfl, heq⟩]
    dsimp only
    rw [if_neg hvn]
  | @apart n v d args os ws hn hv hne heq hc _ ih =>
    obtain ⟨rs, hp, ho, hw'⟩ := ih
    exact htwo hn.1 (by rw [tokenShape_long hne, splitFirst_none.mpr heq]) (finish_wait hne ((optLookup_iff h _ _).mpr hn) hv) hc hp ho hw'
  | @shortJoined c v d args os ws hd hc hv hvn _ ih =>
    obtain ⟨rs, hp, ho, hw'⟩ := ih
    refine hone (v := [v]) (raw := ([45, c], [v])) hd ?_ (finish_value (by simp) (short_find h hd hc).2 hv) hp ho hw'
    rw [tokenShape_short (h.short d hd c hc)]
    cases v with
    | nil => exact absurd rfl hvn
    | cons a v =>
      rw [shortLoop, (short_find h hd hc).1]
      simp [hv]
  | @shortApart c v d args os ws hd hc hv hcv _ ih =>
    obtain ⟨rs, hp, ho, hw'⟩ := ih
    exact htwo hd (tokenShape_short (h.short d hd c hc) []) (finish_wait (by simp) (short_find h hd hc).2 hv) hcv hp ho hw'

/-- the rest of a line: it may have to begin with a value -/
def RestSays (ds : List OptDesc) : (wait : Option Bytes) → List Bytes → List (Bytes × Bytes) → List Bytes → Prop
  | none, args, os, ws => LineSays ds args os ws
  | some k, args, os, ws => ∃ v rest os', args = v :: rest ∧ CanBeValue ds v ∧ os = (k, v) :: os' ∧ LineSays ds rest os' ws

theorem finishOption_cases {o : RawOpt} {r : RawOpt ⊕ Bytes} (h : finishOption ds o = some r) :
    (o.1 = [] ∧ r = .inl o) ∨ (o.1 ≠ [] ∧ ∃ d, optLookup ds o.1 = some d ∧
      ((d.value = true ∧ o.2 = [] ∧ r = .inr d.long) ∨ (d.value = true ∧ o.2 ≠ [] ∧ r = .inl (d.long, o.2)) ∨
       (d.value = false ∧ o.2 = [] ∧ r = .inl (d.long, [])))) := by
  unfold finishOption at h
  split at h
  · next e => cases h; exact .inl ⟨e, rfl⟩
  · next e =>
    refine .inr ⟨e, ?_⟩
    split at h
    · cases h
    · next d hd =>
      refine ⟨d, hd, ?_⟩
      split at h
      · next hv =>
        split at h
        · next e2 => cases h; exact .inl ⟨hv, e2, rfl⟩
        · next e2 => cases h; exact .inr (.inl ⟨hv, e2, rfl⟩)
      · next hv =>
        split at h
        · next e2 => cases h; exact .inr (.inr ⟨by simpa using hv, e2, rfl⟩)
        · cases h

theorem finishAll_wait (h : OptsDistinct ds) : ∀ (os done : List RawOpt) (k : Bytes), finishAll ds os = some (done, some k) → k ≠ []
  | [], done, k, hf => by cases hf
  | o :: os, done, k, hf => by
    cases ho : finishOption ds o with
    | none =>
      cases os with
      | nil => rw [finishAll, ho] at hf; cases hf
      | cons p os => rw [finishAll_cons _ (by simp), ho] at hf; cases hf
    | some r =>
      cases os with
      | nil =>
        rw [finishAll, ho] at hf
        rcases finishOption_cases ho with ⟨_, rfl⟩ | ⟨_, d, hl, hc⟩
        · cases hf
        · rcases hc with ⟨_, _, rfl⟩ | ⟨_, _, rfl⟩ | ⟨_, _, rfl⟩
          · cases hf
            exact h.long_ne ((optLookup_iff h _ _).mp hl).1
          · cases hf
          · cases hf
      | cons p os =>
        rw [finishAll_cons _ (by simp), ho] at hf
        cases r with
        | inr _ => cases hf
        | inl x =>
          dsimp only at hf
          cases hq : finishAll ds (p :: os) with
          | none => rw [hq] at hf; cases hf
          | some q =>
            rw [hq] at hf
            obtain ⟨q1, q2⟩ := q
            cases hf
            exact finishAll_wait h (p :: os) q1 k hq

theorem short_says (h : OptsDistinct ds) : ∀ (adj : Bytes) (c : UInt8) (done : List RawOpt) (wait : Option Bytes),
    finishAll ds (shortLoop ds c adj) = some (done, wait) → c ≠ 45 ∧ wordsOf done = [] ∧
      ∀ ts os ws, RestSays ds wait ts os ws → LineSays ds ((45 :: c :: adj) :: ts) (optsOf done ++ os) ws
  | [], c, done, wait, hf => by
    rw [shortLoop, finishAll] at hf
    cases ho : finishOption ds ([45, c], []) with
    | none => rw [ho] at hf; cases hf
    | some r =>
      rw [ho] at hf
      rcases finishOption_cases ho with ⟨e, _⟩ | ⟨_, d, hl, hc⟩
      · cases e
      · obtain ⟨hd, hsh⟩ := ((optLookup_iff h _ _).mp hl).of_short h
        rcases hc with ⟨hv, _, rfl⟩ | ⟨_, e, _⟩ | ⟨hv, _, rfl⟩
        · cases hf
          refine ⟨h.short d hd c hsh, rfl, fun ts os ws hr => ?_⟩
          obtain ⟨v, rest, os', rfl, hcv, rfl, hs⟩ := hr
          exact .shortApart hd hsh hv hcv hs
        · exact absurd rfl e
        · cases hf
          refine ⟨h.short d hd c hsh, by simp [wordsOf, h.long_ne hd], fun ts os ws hr => ?_⟩
          have : optsOf [(d.long, [])] = [(d.long, [])] := by simp [optsOf, h.long_ne hd]
          rw [this]
          exact .short hd hsh hv hr
  | a :: rest, c, done, wait, hf => by
    have hval : finishAll ds [([45, c], [a :: rest])] = some (done, wait) → c ≠ 45 ∧ wordsOf done = [] ∧
        ∀ ts os ws, RestSays ds wait ts os ws → LineSays ds ((45 :: c :: a :: rest) :: ts) (optsOf done ++ os) ws := by
      intro hf
      rw [finishAll] at hf
      cases ho : finishOption ds ([45, c], [a :: rest]) with
      | none => rw [ho] at hf; cases hf
      | some r =>
        rw [ho] at hf
        rcases finishOption_cases ho with ⟨e, _⟩ | ⟨_, d, hl, hc⟩
        · cases e
        · obtain ⟨hd, hsh⟩ := ((optLookup_iff h _ _).mp hl).of_short h
          rcases hc with ⟨_, e, _⟩ | ⟨hv, _, rfl⟩ | ⟨_, e, _⟩
          · cases e
          · cases hf
            refine ⟨h.short d hd c hsh, by simp [wordsOf, h.long_ne hd], fun ts os ws hr => ?_⟩
            have : optsOf [(d.long, [a :: rest])] = [(d.long, a :: rest)] := by simp [optsOf, h.long_ne hd]
            rw [this]
            exact .shortJoined hd hsh hv (by simp) hr
          · cases e
    rw [shortLoop] at hf
    split at hf
    · next d hfd =>
      split at hf
      · exact hval hf
      · next hv =>
        have hv : d.value = false := by simpa using hv
        have hd := List.mem_of_find?_eq_some hfd
        have hfull : d.full [45, c] = true := by simpa using List.find?_some hfd
        have hsh : d.short = some c := by
          rcases (full_iff _ _).mp hfull with e | ⟨c', e, e'⟩
          · exact absurd (e ▸ List.prefix_rfl) (h.no_dash hd (s := [c]))
          · cases e'; exact e
        rw [finishAll_cons _ (shortLoop_ne _ _), finish_flag (by simp) (short_find h hd hsh).2 hv] at hf
        dsimp only at hf
        cases hq : finishAll ds (shortLoop ds a rest) with
        | none => rw [hq] at hf; cases hf
        | some q =>
          rw [hq] at hf
          cases hf
          obtain ⟨ha, hw, ih⟩ := short_says h rest a q.1 q.2 hq
          refine ⟨h.short d hd c hsh, ?_, fun ts os ws hr => ?_⟩
          · rw [← hw]; simp [wordsOf, h.long_ne hd]
          · have : optsOf ((d.long, []) :: q.1) ++ os = (d.long, []) :: (optsOf q.1 ++ os) := by simp [optsOf, h.long_ne hd]
            rw [this]
            exact .group hd hsh hv ha (ih ts os ws hr)
    · exact hval hf

theorem says_of_parse (h : OptsDistinct ds) : ∀ (args : List Bytes) (wait : Option Bytes) (rs : List RawOpt),
    parseArgs ds wait args = some rs → (∀ k, wait = some k → k ≠ []) → RestSays ds wait args (optsOf rs) (wordsOf rs)
  | [], none, rs, hp, _ => by
    cases hp
    exact .nil
  | [], some k, rs, hp, _ => by cases hp
  | t :: ts, some k, rs, hp, hk => by
    rw [parseArgs] at hp
    split at hp
    · next hv =>
      cases hq : parseArgs ds none ts with
      | none => rw [hq] at hp; cases hp
      | some q =>
        rw [hq] at hp
        cases hp
        have hk := hk k rfl
        refine ⟨t, ts, optsOf q, rfl, (takesValue_iff h t).mp hv, by simp [optsOf, hk], ?_⟩
        have := says_of_parse h ts none q hq (by simp)
        rwa [show wordsOf ((k, [t]) :: q) = wordsOf q by simp [wordsOf, hk]]
    · cases hp
  | t :: ts, none, rs, hp, _ => by
    show LineSays ds (t :: ts) (optsOf rs) (wordsOf rs)
    cases hsh : tokenShape ds t with
    | word =>
      rw [parseArgs, hsh] at hp
      dsimp only at hp
      cases hq : parseArgs ds none ts with
      | none => rw [hq] at hp; cases hp
      | some q =>
        rw [hq] at hp
        cases hp
        exact .word (tokenShape_word.mp hsh) (says_of_parse h ts none q hq (by simp))
    | bad => rw [parseArgs, hsh] at hp; cases hp
    | stop =>
      rw [parseArgs, hsh] at hp
      dsimp only at hp
      cases hp
      have ht : t = dashes := by
        unfold tokenShape at hsh
        split at hsh
        · rfl
        · split at hsh
          · split at hsh <;> cases hsh
          · cases hsh
        · cases hsh
        · cases hsh
      subst ht
      obtain ⟨rs, hp, ho, hw⟩ := parse_of_says h (LineSays.rest (ds := ds) ts)
      have he : parseArgs ds none (dashes :: ts) = some (ts.map (fun w => ([], [w]))) := by rw [parseArgs, hsh]
      rw [he] at hp
      cases hp
      rw [ho, hw]
      exact .rest ts
    | opts os =>
      rw [parse_opts hsh] at hp
      cases hf : finishAll ds os with
      | none => rw [hf] at hp; cases hp
      | some r =>
        obtain ⟨done, wait⟩ := r
        rw [hf] at hp
        dsimp only at hp
        cases hq : parseArgs ds wait ts with
        | none => rw [hq] at hp; cases hp
        | some q =>
          rw [hq] at hp
          cases hp
          rw [optsOf_append, wordsOf_append]
          rcases t with _ | ⟨b, _ | ⟨c, s⟩⟩
          · cases hsh
          · exact absurd hsh (by
              by_cases e : b = 45
              · subst e; intro e'; cases e'
              · rw [tokenShape_word.mpr (.inl (by simpa using e))]; intro e'; cases e')
          · by_cases e : b = 45

            · subst e
              by_cases e2 : c = 45
              · subst e2
                cases s with
                | nil => cases hsh
                | cons x s =>
                  have hl := tokenShape_long (ds := ds) (n := x :: s) (by simp)
                  have hl := hsh.symm.trans hl
                  show LineSays ds ((dashes ++ (x :: s)) :: ts) _ _
                  cases hs : splitFirst 61 (x :: s) with
                  | none =>
                    rw [hs] at hl
                    cases hl
                    rw [finishAll] at hf
                    cases ho : finishOption ds (x :: s, []) with
                    | none => rw [ho] at hf; cases hf
                    | some r =>
                      rw [ho] at hf
                      rcases finishOption_cases ho with ⟨e, _⟩ | ⟨_, d, hl, hc⟩
                      · cases e
                      · have hn := (optLookup_iff h _ _).mp hl
                        rcases hc with ⟨hv, _, rfl⟩ | ⟨_, e, _⟩ | ⟨hv, _, rfl⟩
                        · cases hf
                          obtain ⟨v, rest, os', rfl, hcv, ho', hs'⟩ := says_of_parse h ts (some d.long) q hq
                            (fun k e => by cases e; exact h.long_ne hn.1)
                          rw [ho']
                          exact .apart hn hv (by simp) (splitFirst_none.mp hs) hcv hs'
                        · exact absurd rfl e
                        · cases hf
                          rw [show optsOf [(d.long, [])] = [(d.long, [])] by simp [optsOf, h.long_ne hn.1],
                            show wordsOf [(d.long, [])] = [] by simp [wordsOf, h.long_ne hn.1]]
                          exact .flag hn hv (by simp) (splitFirst_none.mp hs) (says_of_parse h ts none q hq (by simp))
                  | some kv =>
                    obtain ⟨k, v⟩ := kv
                    rw [hs] at hl
                    dsimp only at hl
                    obtain ⟨e, hk⟩ := splitFirst_some.mp hs
                    by_cases hv0 : v = []
                    · rw [if_pos hv0] at hl; cases hl
                    · rw [if_neg hv0] at hl
                      cases hl
                      rw [finishAll] at hf
                      cases ho : finishOption ds (k, [v]) with
                      | none => rw [ho] at hf; cases hf
                      | some r =>
                        rw [ho] at hf
                        rcases finishOption_cases ho with ⟨e', rfl⟩ | ⟨hk0, d, hl, hc⟩
                        · cases hf
                          have e' : k = [] := e'
                          subst e'
                          rw [e]
                          exact .anonymous hv0 (says_of_parse h ts none q hq (by simp))
                        · have hn := (optLookup_iff h _ _).mp hl
                          rcases hc with ⟨_, e, _⟩ | ⟨hv, _, rfl⟩ | ⟨_, e, _⟩
                          · cases e
                          · cases hf
                            rw [show optsOf [(d.long, [v])] = [(d.long, v)] by simp [optsOf, h.long_ne hn.1],
                              show wordsOf [(d.long, [v])] = [] by simp [wordsOf, h.long_ne hn.1], e, ← List.append_assoc]
                            exact .joined hn hv hk0 hk hv0 (says_of_parse h ts none q hq (by simp))
                          · cases e
              · rw [tokenShape_short e2] at hsh
                cases hsh
                obtain ⟨_, hw, hsay⟩ := short_says h s c done wait hf
                rw [hw]
                exact hsay ts _ _ (says_of_parse h ts wait q hq (fun k e => finishAll_wait h _ done k (e ▸ hf)))
            · rw [tokenShape_word.mpr (.inl (by simpa using e))] at hsh
              cases hsh

/-- parsing and saying are the same -/
theorem parse_iff_says (h : OptsDistinct ds) (args : List Bytes) (os : List (Bytes × Bytes)) (ws : List Bytes) :
    LineSays ds args os ws ↔ ∃ rs, parseArgs ds none args = some rs ∧ optsOf rs = os ∧ wordsOf rs = ws := by
  constructor
  · exact parse_of_says h
  · rintro ⟨rs, hp, rfl, rfl⟩
    exact says_of_parse h args none rs hp (by simp)

/-! ## The variables -/

theorem storeOpts_iff : ∀ (rs : List RawOpt) (vm vm' : List (Bytes × Bytes)), storeOpts vm rs = some vm' ↔
    vm' = vm ++ optsOf rs ∧ ((optsOf rs).map (·.1)).Nodup ∧ ∀ k ∈ (optsOf rs).map (·.1), k ∉ vm.map (·.1)
  | [], vm, vm' => by simp [storeOpts, optsOf, eq_comm]
  | o :: rs, vm, vm' => by
    rw [storeOpts]
    by_cases ho : o.1 = []
    · rw [if_pos ho, storeOpts_iff rs, show optsOf (o :: rs) = optsOf rs by simp [optsOf, ho]]
    · rw [if_neg ho, show optsOf (o :: rs) = (o.1, o.2.headD []) :: optsOf rs by simp [optsOf, ho]]
      have hany : (vm.any (fun e => e.1 == o.1)) = true ↔ o.1 ∈ vm.map (·.1) := by
        rw [List.any_eq_true, List.mem_map]
        simp
      by_cases hm : o.1 ∈ vm.map (·.1)
      · rw [if_pos (hany.mpr hm)]
        simp only [reduceCtorEq, false_iff, not_and]
        intro _ _ hh
        exact hh o.1 (by simp) hm
      · rw [if_neg (fun x => hm (hany.mp x)), storeOpts_iff rs]
        simp only [List.append_assoc, List.singleton_append, List.map_cons, List.nodup_cons, List.map_append, List.mem_append, List.mem_cons,
          List.map_nil, List.not_mem_nil, or_false, not_or]
        constructor
        · rintro ⟨e, hn, hd⟩
          exact ⟨e, ⟨fun x => (hd _ x).2 rfl, hn⟩, fun k hk => hk.elim (fun e => e ▸ hm) (fun hk => (hd k hk).1)⟩
        · rintro ⟨e, ⟨hx, hn⟩, hd⟩
          exact ⟨e, hn, fun k hk => ⟨hd k (.inr hk), fun e => hx (e ▸ hk)⟩⟩

theorem optGiven_iff (vm : List (Bytes × Bytes)) (key : Bytes) : optGiven vm key = true ↔ ∃ v, (key, v) ∈ vm := by
  unfold optGiven
  rw [List.any_eq_true]
  constructor
  · rintro ⟨⟨k, v⟩, h, e⟩
    have e : k = key := by simpa using e
    exact ⟨v, e ▸ h⟩
  · rintro ⟨v, h⟩
    exact ⟨_, h, by simp⟩

theorem optValue_iff {vm : List (Bytes × Bytes)} (hn : (vm.map (·.1)).Nodup) (key dflt v : Bytes) :
    v = optValue vm key dflt ↔ OptGives vm key dflt v := by
  unfold optValue OptGives
  cases hf : vm.find? (fun e => e.1 == key) with
  | none =>
    have hno : ∀ w, (key, w) ∉ vm := fun w hw => by
      have := List.find?_eq_none.mp hf _ hw
      simp at this
    simp only [Option.map_none, Option.getD_none]
    exact ⟨fun e => .inr ⟨e, hno⟩, fun h => h.elim (fun x => absurd x (hno v)) (·.1)⟩
  | some e =>
    have hm := List.mem_of_find?_eq_some hf
    have hk : e.1 = key := by simpa using List.find?_some hf
    obtain ⟨k, w⟩ := e
    cases hk
    simp only [Option.map_some, Option.getD_some]
    constructor
    · rintro rfl; exact .inl hm
    · rintro (x | ⟨_, x⟩)
      · have := map_inj_on hn x hm rfl
        cases this; rfl
      · exact absurd hm (x w)

theorem namePositional_iff (key : Bytes) (hkey : key ≠ []) : ∀ (rs rs' : List RawOpt), namePositional [key] rs = some rs' →
    (wordsOf rs = [] ∧ optsOf rs' = optsOf rs) ∨ ∃ w l l', wordsOf rs = [w] ∧ optsOf rs = l ++ l' ∧ optsOf rs' = l ++ (key, w) :: l'
  | [], rs', h => by
    cases h
    exact .inl ⟨rfl, rfl⟩
  | o :: rs, rs', h => by
    rw [namePositional] at h
    by_cases ho : o.1 = []
    · rw [if_pos ho] at h
      cases hq : namePositional [] rs with
      | none => rw [hq] at h; cases h
      | some q =>
        rw [hq] at h
        cases h
        have hnone : ∀ (rs q : List RawOpt), namePositional [] rs = some q → wordsOf rs = [] ∧ q = rs := by
          intro rs
          induction rs with
          | nil => intro q h; cases h; exact ⟨rfl, rfl⟩
          | cons o rs ih =>
            intro q h
            rw [namePositional] at h
            by_cases ho : o.1 = []
            · rw [if_pos ho] at h; cases h
            · rw [if_neg ho] at h
              cases hq : namePositional [] rs with
              | none => rw [hq] at h; cases h
              | some q' =>
                rw [hq] at h
                cases h
                obtain ⟨a, b⟩ := ih q' hq
                exact ⟨by rw [← a]; simp [wordsOf, ho], by rw [b]⟩
        obtain ⟨a, rfl⟩ := hnone rs q hq
        refine .inr ⟨o.2.headD [], [], optsOf q, ?_, by simp [optsOf, ho], by simp [optsOf, hkey]⟩
        have : wordsOf (o :: q) = o.2.headD [] :: wordsOf q := by simp [wordsOf, ho]
        rw [this, a]
    · rw [if_neg ho] at h
      cases hq : namePositional [key] rs with
      | none => rw [hq] at h; cases h
      | some q =>
        rw [hq] at h
        cases h
        have hw : wordsOf (o :: rs) = wordsOf rs := by simp [wordsOf, ho]
        have h1 : ∀ l, optsOf (o :: l) = (o.1, o.2.headD []) :: optsOf l := fun l => by simp [optsOf, ho]
        rw [hw, h1, h1]
        rcases namePositional_iff key hkey rs q hq with ⟨a, b⟩ | ⟨w, l, l', a, b, c⟩
        · exact .inl ⟨a, by rw [b]⟩
        · exact .inr ⟨w, _ :: l, l', a, by rw [b]; rfl, by rw [c]; rfl⟩

theorem namePositional_some (key : Bytes) : ∀ (rs : List RawOpt), (wordsOf rs).length ≤ 1 → ∃ rs', namePositional [key] rs = some rs'
  | [], _ => ⟨[], rfl⟩
  | o :: rs, h => by
    rw [namePositional]
    by_cases ho : o.1 = []
    · rw [if_pos ho]
      have : wordsOf (o :: rs) = o.2.headD [] :: wordsOf rs := by simp [wordsOf, ho]
      rw [this, List.length_cons] at h
      have hw : wordsOf rs = [] := List.length_eq_zero_iff.mp (by omega)
      have hnone : ∀ rs : List RawOpt, wordsOf rs = [] → ∃ q, namePositional [] rs = some q := by
        intro rs
        induction rs with
        | nil => intro _; exact ⟨[], rfl⟩
        | cons o rs ih =>
          intro h
          by_cases ho : o.1 = []
          · simp [wordsOf, ho] at h
          · have : wordsOf (o :: rs) = wordsOf rs := by simp [wordsOf, ho]
            obtain ⟨q, hq⟩ := ih (this ▸ h)
            exact ⟨o :: q, by rw [namePositional, if_neg ho, hq]; rfl⟩
      obtain ⟨q, hq⟩ := hnone rs hw
      exact ⟨_, by rw [hq]; rfl⟩
    · rw [if_neg ho]
      have : wordsOf (o :: rs) = wordsOf rs := by simp [wordsOf, ho]
      obtain ⟨q, hq⟩ := namePositional_some key rs (this ▸ h)
      exact ⟨_, by rw [hq]; rfl⟩

end Ndncert
