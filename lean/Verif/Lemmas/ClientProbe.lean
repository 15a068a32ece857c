import Verif.Lemmas.ToolsStart
import Verif.Lemmas.ClientTalk

/-! # Lemmas about the PROBE Interests of the client -/

namespace Ndncert

variable {C : Crypto}

theorem captureValues_reads (m : MMap) (c : Client) :
    (captureValues m c).1 = (m.map (·.1)).zip ((List.range m.length).map (fun j => c.stdin.getD j [])) := by
  induction m generalizing c with
  | nil => rfl
  | cons e es ih =>
    unfold captureValues
    rw [getline_eq]
    dsimp only
    rw [ih, List.length_cons, List.range_succ_eq_map, List.map_cons, List.map_cons, List.zip_cons_cons, List.map_map]
    congr 1
    · cases c.stdin <;> rfl
    · congr 1
      apply List.map_congr_left
      intro j _
      cases c.stdin <;> rfl

/-- the email is put in lower case, nothing else -/
theorem lowered_typed {ks lines : List Bytes} {m m' : MMap} (hs : m.Sorted) (hk : (m.map (·.1)).Perm ks) (hl : lines.length = m.length)
    (hv : m = (m.map (·.1)).zip lines)
    (hm : m' = match m.findIdx? (fun e => e.1 == (bytes! "email")) with
      | some i => m.modify i (fun e => (e.1, toLower e.2))
      | none => m) : Typed ks lines m' := by
  have hlen : m'.length = m.length := by
    rw [hm]
    split
    · rw [List.length_modify]
    · rfl
  have hkeys : m'.map (·.1) = m.map (·.1) := by
    rw [hm]
    split
    · refine List.ext_getElem (by simp) (fun j h1 h2 => ?_)
      rw [List.getElem_map, List.getElem_map, List.getElem_modify]
      split <;> rfl
    · rfl
  have hzi : ∀ j (hj : j < m.length), m[j].2 = lines[j]'(by rw [hl]; exact hj) := by
    intro j hj
    have : m[j] = ((m.map (·.1)).zip lines)[j]'(by rw [← hv]; exact hj) := by congr 1
    rw [this, List.getElem_zip]
  refine ⟨?_, hkeys ▸ hk, hl.trans hlen.symm, ?_⟩
  · have h1 : (m.map (·.1)).Pairwise (fun a b => bytesLt b a = false) := List.pairwise_map.mpr hs
    rw [← hkeys] at h1
    exact (inOrder_iff _).mpr (List.pairwise_map.mp h1)
  · intro j e l he hl'
    have hj : j < m.length := by
      have := (List.getElem?_eq_some_iff.mp he).1
      omega
    have hjl : lines[j]'(by rw [hl]; exact hj) = l := (List.getElem?_eq_some_iff.mp hl').2
    have htk : (m'.take j).map (·.1) = (m.take j).map (·.1) := by rw [List.map_take, List.map_take, hkeys]
    have hin : ((bytes! "email") ∈ (m.take j).map (·.1)) ↔ ∃ i, ∃ hi : i < m.length, i < j ∧ m[i].1 = (bytes! "email") := by
      rw [List.mem_map]
      constructor
      · rintro ⟨e, he, h1⟩
        rw [List.mem_take_iff_getElem] at he
        obtain ⟨i, hi, rfl⟩ := he
        exact ⟨i, by omega, by omega, h1⟩
      · rintro ⟨i, hi, h1, h2⟩
        exact ⟨m[i], List.mem_take_iff_getElem.mpr ⟨i, by omega, rfl⟩, h2⟩
    rw [htk]
    cases hf : m.findIdx? (fun e => e.1 == (bytes! "email")) with
    | none =>
      rw [hf] at hm
      dsimp only at hm
      subst hm
      rw [List.findIdx?_eq_none_iff] at hf
      rw [List.getElem?_eq_getElem hj] at he
      injection he with he
      subst he
      have h3 := hf _ (List.getElem_mem hj)
      rw [if_neg (fun h => by simp [h.1] at h3), hzi j hj, hjl]
    | some i =>
      rw [hf] at hm
      dsimp only at hm
      rw [List.findIdx?_eq_some_iff_getElem] at hf
      obtain ⟨hi, g1, g2⟩ := hf
      subst hm
      rw [List.getElem?_eq_getElem (by rw [List.length_modify]; exact hj), List.getElem_modify] at he
      injection he with he
      by_cases hij : i = j
      · subst hij
        rw [if_pos rfl] at he
        subst he
        rw [if_pos ⟨by simpa using g1, fun h => by
          obtain ⟨i', h5, h6, h7⟩ := hin.mp h
          have := g2 i' h6
          simp [h7] at this⟩, hzi i hj, hjl]
      · rw [if_neg hij] at he
        subst he
        rw [if_neg (fun h => by
          rcases Nat.lt_or_gt_of_ne hij with h5 | h5
          · exact h.2 (hin.mpr ⟨i, hi, h5, by simpa using g1⟩)
          · have := g2 j h5
            simp [h.1] at this), hzi j hj, hjl]

/-- the answers read for the first PROBE -/
theorem probeParams_reads {c : Client} (hc : c.captured = none) (p : CaProfile) :
    Typed p.probeParameterKeys ((List.range p.probeParameterKeys.length).map (fun j => c.stdin.getD j [])) (probeParams c p).1 := by
  have hlen : (p.probeParameterKeys.foldl (fun m k => mmInsert k [] m) []).length = p.probeParameterKeys.length := by
    have := (foldl_insert_perm p.probeParameterKeys []).length_eq
    simpa using this
  have hr := captureValues_reads (p.probeParameterKeys.foldl (fun m k => mmInsert k [] m) []) c
  rw [hlen] at hr
  have hk : ((captureValues (p.probeParameterKeys.foldl (fun m k => mmInsert k [] m) []) c).1).map (·.1) =
      (p.probeParameterKeys.foldl (fun m k => mmInsert k [] m) []).map (·.1) := by
    rw [hr, List.map_fst_zip]
    simp [hlen]
  refine lowered_typed (m := (captureValues (p.probeParameterKeys.foldl (fun m k => mmInsert k [] m) []) c).1) ?_ ?_ ?_ ?_ ?_
  · have h1 : ((p.probeParameterKeys.foldl (fun m k => mmInsert k [] m) []).map (·.1)).Pairwise (fun a b => bytesLt b a = false) :=
      List.pairwise_map.mpr (foldl_insert_sorted _ List.Pairwise.nil)
    rw [← hk] at h1
    exact List.pairwise_map.mp h1
  · rw [hk]
    exact (foldl_insert_perm _ _).trans (by rw [List.map_nil, List.append_nil])
  · have := congrArg List.length hk
    simp only [List.length_map] at this
    rw [this, hlen]
    simp
  · rw [hk]
    exact hr
  · unfold probeParams
    rw [hc]
    rfl

theorem acceptProfile_decoded {c : Client} {full : Name} {d : Data} {p : CaProfile}
    (h : acceptProfile C c full d = .ok p) : infoDecode C d.content = .ok p := by
  unfold acceptProfile at h
  split at h
  · split at h
    · split at h
      · exact (onCaProfileResponse_ok h).1
      · cases h
    · exact (onCaProfileResponse_ok h).1
  · exact (afterRedirection_ok h).1

/-- when PROBE is sent -/
theorem step_probe {env : ClientEnv} {c : Client} {e : ClientEvent} {p : CaProfile} {i : Interest} (h : .probe p i ∈ (c.step C env e).acts) :
    ∃ d w full t, e = .reply d w ∧ c.pending = some (.info full) ∧ acceptProfile C c full d = .ok p ∧
      ((c.trusted = none ∧ toLower (c.stdin.headD []) = (bytes! "yes") ∧ .asked p (c.stdin.headD []) ∈ (c.step C env e).acts ∧
          i = genProbeInterest C p (probeParams { c with stdin := c.stdin.tail, trusted := t } p).1) ∨
       (c.trusted ≠ none ∧ (∀ q l, .asked q l ∉ (c.step C env e).acts) ∧ i = genProbeInterest C p (probeParams c p).1)) := by
  cases step_case (C := C) env c e with
  | quiet hq => exact absurd (hq.acts _ h) (by simp [Act.Quiet])
  | new _ _ out =>
    rw [out] at h
    obtain ⟨_, _, h⟩ := runNew_acts _ _ _ _ _ h
    cases h
  | newCb _ _ _ out =>
    rw [out] at h
    obtain ⟨_, _, h⟩ := newCb_acts _ _ _ _ _ h
    cases h
  | challengeCb _ _ _ out =>
    rw [out] at h
    rcases challengeCb_acts _ _ _ _ _ h with ⟨_, _, h⟩ | ⟨_, _, h⟩ <;> cases h
  | @probe d w full q ls t acts event hpend out quiet =>
    subst event
    have hs : c.step C env (.reply d w) = infoCb C c full d := by unfold Client.step; rw [hpend]
    rw [hs] at h ⊢
    unfold infoCb at h ⊢
    cases ha : acceptProfile C c full d with
    | exc x => rw [ha] at h; simp at h
    | ub x => rw [ha] at h; simp at h
    | ok p' =>
      rw [ha] at h
      dsimp only at h ⊢
      by_cases ht : c.trusted = none
      · rw [if_pos ht] at h ⊢
        by_cases hsh : canShow C d p' = true
        case neg => rw [if_neg hsh] at h; simp at h
        rw [if_pos hsh, getline_eq] at h ⊢
        dsimp only at h ⊢
        by_cases hy : toLower (c.stdin.headD []) = (bytes! "yes")
        · rw [if_pos hy] at h ⊢
          simp only [ClientOut.after, runProbe, List.mem_append, List.mem_singleton, Act.probe.injEq, reduceCtorEq, false_or] at h
          obtain ⟨rfl, rfl⟩ := h
          exact ⟨d, w, full, p.cert, rfl, hpend, ha, .inl ⟨ht, hy, by simp [ClientOut.after], rfl⟩⟩
        · rw [if_neg hy] at h
          simp at h
      · rw [if_neg ht] at h ⊢
        simp only [runProbe, List.mem_singleton, Act.probe.injEq] at h
        obtain ⟨rfl, rfl⟩ := h
        exact ⟨d, w, full, none, rfl, hpend, ha, .inr ⟨ht, by simp [runProbe], rfl⟩⟩

/-- the answers kept are those of every PROBE sent -/
structure ProbeInv (h : List ClientStep) (c : Client) : Prop where
  unasked : c.captured = none → ∀ q j, ¬ Did h (.probe q j)
  kept : ∀ m, c.captured = some m → (∃ q j, Did h (.probe q j)) ∧ ∀ q j, Did h (.probe q j) → CarriesAnswers j m

theorem did_append {h : List ClientStep} {n : ClientStep} {a : Act} : Did (h ++ [n]) a ↔ Did h a ∨ a ∈ n.acts := by
  constructor
  · rintro ⟨k, hk, ha⟩
    rw [List.mem_append, List.mem_singleton] at hk
    rcases hk with hk | rfl
    · exact .inl ⟨k, hk, ha⟩
    · exact .inr ha
  · rintro (⟨k, hk, ha⟩ | ha)
    · exact ⟨k, by simp [hk], ha⟩
    · exact ⟨n, by simp, ha⟩

theorem ProbeInv.quiet {h : List ClientStep} {c c' : Client} (hi : ProbeInv h c) {n : ClientStep} (hc : c'.captured = c.captured)
    (ha : ∀ q j, .probe q j ∉ n.acts) : ProbeInv (h ++ [n]) c' := by
  have heq : ∀ q j, Did (h ++ [n]) (.probe q j) ↔ Did h (.probe q j) := fun q j => by rw [did_append]; simp [ha]
  refine ⟨?_, ?_⟩
  · intro h1 q j h2
    exact hi.unasked (hc ▸ h1) q j ((heq q j).mp h2)
  · intro m h1
    obtain ⟨⟨q, j, h2⟩, h3⟩ := hi.kept m (hc ▸ h1)
    exact ⟨⟨q, j, (heq q j).mpr h2⟩, fun q j h => h3 q j ((heq q j).mp h)⟩

theorem ProbeInv.step {h : List ClientStep} {c : Client} (hi : ProbeInv h c) (e : ClientEvent) (env : ClientEnv) :
    ProbeInv (h ++ [⟨e, env, (c.step C env e).acts, (c.step C env e).ended⟩]) (c.step C env e).st := by
  cases step_case (C := C) env c e with
  | quiet hq => exact hi.quiet hq.captured (fun q j hm => absurd (hq.acts _ hm) (by simp [Act.Quiet]))
  | new _ _ out =>
    refine hi.quiet (by rw [out]; exact (runNew_keeps ..).captured) (fun q j hm => ?_)
    rw [out] at hm
    obtain ⟨_, _, h⟩ := runNew_acts _ _ _ _ _ hm
    cases h
  | newCb _ _ _ out =>
    refine hi.quiet (by rw [out]; exact (newCb_keeps ..).captured) (fun q j hm => ?_)
    rw [out] at hm
    obtain ⟨_, _, h⟩ := newCb_acts _ _ _ _ _ hm
    cases h
  | challengeCb _ _ _ out =>
    refine hi.quiet (by rw [out]; exact (challengeCb_keeps ..).captured) (fun q j hm => ?_)
    rw [out] at hm
    rcases challengeCb_acts _ _ _ _ _ hm with ⟨_, _, h⟩ | ⟨_, _, h⟩ <;> cases h
  | @probe d w full p ls t acts _ hpend out hq =>
    have hcap : (c.step C env e).st.captured = some (probeParams { c with stdin := ls, trusted := t } p).1 := by
      rw [out]
      exact (probeParams_same _ p).2.2
    have hmem : ∀ q j, .probe q j ∈ (c.step C env e).acts ↔ (q = p ∧ j = genProbeInterest C p (probeParams { c with stdin := ls, trusted := t } p).1) := by
      intro q j
      rw [out]
      simp only [ClientOut.after, runProbe, List.mem_append, List.mem_singleton, Act.probe.injEq]
      constructor
      · rintro (h | h)
        · exact absurd (hq _ h) (by simp [Act.Quiet])
        · exact h
      · exact .inr
    refine ⟨fun h1 => absurd (hcap.symm.trans h1) (by simp), ?_⟩
    intro m hm
    rw [hcap] at hm
    injection hm with hm
    refine ⟨⟨_, _, did_append.mpr (.inr ((hmem _ _).mpr ⟨rfl, rfl⟩))⟩, ?_⟩
    intro q j hd
    rcases did_append.mp hd with hd | hd
    · cases hcc : c.captured with
      | none => exact absurd hd (hi.unasked hcc q j)
      | some m' =>
        have : (probeParams { c with stdin := ls, trusted := t } p).1 = m' := by
          unfold probeParams
          rw [hcc]
        rw [← hm, this]
        exact (hi.kept m' hcc).2 q j hd
    · obtain ⟨rfl, rfl⟩ := (hmem q j).mp hd
      rw [hm]
      rfl

variable {T : TextIO} {file : Bytes} {pib : Pib} {stdin : List Bytes}

theorem ClientRun.probeInv {first : List Act} {h : List ClientStep} {c : Client} {x : Ended} (run : ClientRun C T file pib stdin first h c x) :
    ProbeInv h c := by
  induction run with
  | start o e =>
    have hs := e ▸ selectCaProfile_started T file { pib := pib, stdin := stdin }
    refine ⟨fun _ q j hd => ?_, fun m hm => ?_⟩
    · obtain ⟨_, h, _⟩ := hd
      cases h
    · rw [hs.captured] at hm
      cases hm
  | step e env run o eo ih => exact eo ▸ ih.step e env

end Ndncert
