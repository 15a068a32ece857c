import Verif.Lemmas.Strict
import Verif.Lemmas.Assign

/-! # Lemmas for C110: what each step of each decoder accepts -/

namespace Ndncert

/-! ## CA profiles -/

theorem hasName_bind {β : Type} {b : Block} {n : Name} (h : HasName b n) (f : Name → Res β) :
    (do let es ← b.elements; let nb ← getElem es T.Name; let n ← nameOfBlock nb; f n) = f n := by
  obtain ⟨es, nb, h1, h2, h3⟩ := h
  have ht : nb.typ = 7 := by simpa using List.find?_some h2
  have h1' : b.elements = .ok es := h1
  rw [h1', Res.bind_ok, getElem_iff.mpr h2, Res.bind_ok, nameOfBlock_iff.mpr ⟨ht, h3⟩, Res.bind_ok]

theorem hasCert_bind {β : Type} {C : Crypto} {b : Block} {c : Cert} (h : HasCert C b (some c)) (f : Cert → Res β) :
    (do let es ← b.elements; let nb ← getElem es T.Data; let n ← certOfBlock C nb; f n) = f c := by
  obtain ⟨es, nb, h1, h2, h3, _⟩ := h
  have h1' : b.elements = .ok es := h1
  have h4 : certOfBlock C nb = .ok c := by unfold certOfBlock; rw [Res.ofOption_eq_ok]; exact h3
  rw [h1', Res.bind_ok, getElem_iff.mpr h2, Res.bind_ok, h4, Res.bind_ok]

theorem HasName.unique {b : Block} {n m : Name} (h : HasName b n) (h' : HasName b m) : n = m := by
  obtain ⟨es, d, h1, h2, h3⟩ := h
  obtain ⟨es', d', h1', h2', h3'⟩ := h'
  rw [h1] at h1'; cases h1'
  rw [h2] at h2'; cases h2'
  rw [h3] at h3'; cases h3'; rfl

theorem HasCert.unique {C : Crypto} {b : Block} {n m : Option Cert} (h : HasCert C b n) (h' : HasCert C b m) : n = m := by
  obtain ⟨es, d, h1, h2, h3, _⟩ := h
  obtain ⟨es', d', h1', h2', h3', _⟩ := h'
  rw [h1] at h1'; cases h1'
  rw [h2] at h2'; cases h2'
  exact h3.symm.trans h3'

theorem SaysNumber.unique {b : Block} {n m : Nat} (h : SaysNumber b n) (h' : SaysNumber b m) : n = m := h.2.trans h'.2.symm

inductive InfoCase (C : Crypto) (p : CaProfile) (b : Block) (q : CaProfile) : Prop where
  | pre (n : Name) : b.typ = 129 → HasName b n → q = { p with caPrefix := n } → InfoCase C p b q
  | info : b.typ = 131 → q = { p with caInfo := b.val } → InfoCase C p b q
  | key : b.typ = 133 → q = { p with probeParameterKeys := p.probeParameterKeys ++ [b.val] } → InfoCase C p b q
  | max (n : Nat) : b.typ = 139 → SaysNumber b n → q = { p with maxValidityPeriod := asSigned64 n } → InfoCase C p b q
  | cert (c : Cert) : b.typ = 137 → HasCert C b (some c) → q = { p with cert := some c } → InfoCase C p b q
  | other : b.typ ∉ [129, 131, 133, 139, 137] → ¬ MayNotSkip b.typ → q = p → InfoCase C p b q

theorem infoStep_iff {C : Crypto} {p q : CaProfile} {b : Block} : infoStep C p b = .ok q ↔ InfoCase C p b q := by
  constructor
  · intro h
    unfold infoStep at h
    split at h
    · rename_i ht
      rw [Res.bind_eq_ok] at h
      obtain ⟨es, h1, h⟩ := h
      rw [Res.bind_eq_ok] at h
      obtain ⟨nb, h2, h⟩ := h
      rw [Res.bind_eq_ok] at h
      obtain ⟨n, h3, h⟩ := h
      cases h
      exact .pre n ht ⟨es, nb, h1, getElem_iff.mp h2, (nameOfBlock_iff.mp h3).2⟩ rfl
    split at h
    · cases h; exact .info (by assumption) rfl
    split at h
    · cases h; exact .key (by assumption) rfl
    split at h
    · rename_i ht
      rw [Res.bind_eq_ok] at h
      obtain ⟨n, h1, h2⟩ := h
      cases h2
      have hn := readNni_iff.mp h1
      exact .max n ht hn (by rw [toInt64_eq hn.lt])
    split at h
    · rename_i ht
      rw [Res.bind_eq_ok] at h
      obtain ⟨es, h1, h⟩ := h
      rw [Res.bind_eq_ok] at h
      obtain ⟨nb, h2, h⟩ := h
      rw [Res.bind_eq_ok] at h
      obtain ⟨n, h3, h⟩ := h
      cases h
      unfold certOfBlock at h3
      rw [Res.ofOption_eq_ok] at h3
      exact .cert n ht ⟨es, nb, h1, getElem_iff.mp h2, h3, by simp⟩ rfl
    split at h
    · cases h
    · rename_i n1 n2 n3 n4 n5 n6
      cases h
      refine .other ?_ (fun hm => n6 (mayNotSkip_iff.mpr hm)) rfl
      simp only [List.mem_cons, List.not_mem_nil, or_false, not_or]
      exact ⟨n1, n2, n3, n4, n5⟩
  · intro h
    unfold infoStep
    cases h with
    | pre n ht hn hq =>
      subst hq
      rw [if_pos ht]
      exact hasName_bind hn _
    | info ht hq => subst hq; simp [ht, readString]
    | key ht hq => subst hq; simp [ht, readString]
    | max n ht hn hq => subst hq; simp [ht, readNni_iff.mpr hn, toInt64_eq hn.lt]
    | cert c ht hn hq =>
      subst hq
      rw [if_neg (by simp [ht]), if_neg (by simp [ht]), if_neg (by simp [ht]), if_neg (by simp [ht]), if_pos ht]
      exact hasCert_bind hn _
    | other ht hc hq =>
      subst hq
      simp only [List.mem_cons, List.not_mem_nil, or_false, not_or] at ht
      rw [if_neg ht.1, if_neg ht.2.1, if_neg ht.2.2.1, if_neg ht.2.2.2.1, if_neg ht.2.2.2.2]
      rw [if_neg (fun hm => hc (mayNotSkip_iff.mp hm))]

/-! ## PROBE replies -/

/-- the loop over one suggestion -/
theorem probeName_fold {es : List Block} : ∀ {a r : Name × Int}, es.foldlM probeNameStep a = .ok r → 
    (∀ b ∈ es, b.typ ∉ [7, 143] → ¬ MayNotSkip b.typ) ∧
    LastSays 143 es (fun b (k : Int) => ∃ n, SaysNumber b n ∧ k = asSigned32 n) a.2 r.2 ∧
    (a.1 ≠ [] → ofType 7 es = [] ∧ r.1 = a.1) ∧
    (a.1 = [] → r.1 ≠ [] →
      ∃ before e, ofType 7 es = before ++ [e] ∧ (∀ x ∈ before, parse x.val = .ok []) ∧ parse e.val = .ok r.1) := by
  induction es with
  | nil =>
    intro a r h
    cases h
    exact ⟨by simp, ⟨by simp [ofType], by simp [ofType]⟩, fun h => ⟨rfl, rfl⟩, fun h h' => absurd h h'⟩
  | cons b es ih =>
    intro a r h
    rw [List.foldlM_cons, Res.bind_eq_ok] at h
    obtain ⟨a', h1, h2⟩ := h
    obtain ⟨i1, i2, i3, i4⟩ := ih h2
    have hlast : b.typ ≠ 143 → a'.2 = a.2 → LastSays 143 (b :: es) (fun b (k : Int) => ∃ n, SaysNumber b n ∧ k = asSigned32 n) a.2 r.2 := by
      intro hb he
      rw [he] at i2
      unfold LastSays
      rw [ofType_cons_ne _ hb]
      exact i2
    unfold probeNameStep at h1
    split at h1
    · rename_i ht
      have ht : b.typ = 7 := ht
      split at h1
      · cases h1
      rename_i hn
      rw [Res.bind_eq_ok] at h1
      obtain ⟨n, h3, h4⟩ := h1
      cases h4
      have hsn := (nameOfBlock_iff.mp h3).2
      refine ⟨?_, hlast (by omega) rfl, fun h => absurd h hn, ?_⟩
      · intro x hx
        rcases List.mem_cons.mp hx with rfl | hx
        · intro h; simp [ht] at h
        · exact i1 x hx
      · intro _ hr
        rw [ofType_cons_eq _ ht]
        by_cases hne : n = []
        · obtain ⟨before, e, j1, j2, j3⟩ := i4 hne hr
          refine ⟨b :: before, e, by rw [j1]; rfl, ?_, j3⟩
          intro x hx
          rcases List.mem_cons.mp hx with rfl | hx
          · rw [hsn, hne]
          · exact j2 x hx
        · obtain ⟨j1, j2⟩ := i3 hne
          refine ⟨[], b, by rw [j1]; rfl, by simp, ?_⟩
          rw [j2]; exact hsn
    split at h1
    · rename_i n7 ht
      have ht : b.typ = 143 := ht
      rw [Res.bind_eq_ok] at h1
      obtain ⟨n, h3, h4⟩ := h1
      cases h4
      refine ⟨?_, ?_, ?_, ?_⟩
      · intro x hx
        rcases List.mem_cons.mp hx with rfl | hx
        · intro h; simp [ht] at h
        · exact i1 x hx
      · obtain ⟨i5, i6⟩ := i2
        refine ⟨?_, ?_⟩
        · rw [ofType_cons_eq _ ht]
          intro x hx
          rcases List.mem_cons.mp hx with rfl | hx
          · exact ⟨_, n, readNni_iff.mp h3, rfl⟩
          · exact i5 x hx
        · rw [ofType_cons_eq _ ht, List.getLast?_cons]
          cases hl : (ofType 143 es).getLast? with
          | none =>
            rw [hl] at i6
            simp only [Option.getD_none]
            exact ⟨n, readNni_iff.mp h3, i6⟩
          | some x => rw [hl] at i6; exact i6
      · rw [ofType_cons_ne _ (by omega)]; exact i3
      · rw [ofType_cons_ne _ (by omega)]; exact i4
    split at h1
    · cases h1
    · rename_i n7 n143 hc
      cases h1
      refine ⟨?_, hlast n143 rfl, ?_, ?_⟩
      · intro x hx
        rcases List.mem_cons.mp hx with rfl | hx
        · intro _ hm; exact hc (mayNotSkip_iff.mpr hm)
        · exact i1 x hx
      · rw [ofType_cons_ne _ n7]; exact i3
      · rw [ofType_cons_ne _ n7]; exact i4

theorem probeName_ok {es : List Block} : ∀ {a : Name × Int},
    (∀ b ∈ es, b.typ ∉ [7, 143] → ¬ MayNotSkip b.typ) → (∀ b ∈ ofType 143 es, ∃ n, SaysNumber b n) →
    ((a.1 ≠ [] ∧ ofType 7 es = []) ∨
      (a.1 = [] ∧ ∃ before e n, ofType 7 es = before ++ [e] ∧ (∀ x ∈ before, parse x.val = .ok []) ∧ parse e.val = .ok n ∧ n ≠ [])) →
    ∃ r, es.foldlM probeNameStep a = .ok r ∧ r.1 ≠ [] := by
  induction es with
  | nil =>
    intro a _ _ h
    rcases h with h | ⟨_, before, e, n, h, _⟩
    · exact ⟨a, rfl, h.1⟩
    · simp [ofType] at h
  | cons b es ih =>
    intro a h1 h2 h3
    have h1' := fun x hx => h1 x (List.mem_cons_of_mem _ hx)
    have h2' : ∀ x ∈ ofType 143 es, ∃ n, SaysNumber x n := by
      intro x hx
      exact h2 x (mem_ofType.mpr ⟨List.mem_cons_of_mem _ (mem_ofType.mp hx).1, (mem_ofType.mp hx).2⟩)
    by_cases t7 : b.typ = 7
    · rw [ofType_cons_eq _ t7] at h3
      rcases h3 with ⟨_, h3⟩ | ⟨h0, before, e, n, h3, h4, h5, h6⟩
      · cases h3
      cases before with
      | nil =>
        simp only [List.nil_append, List.cons.injEq] at h3
        obtain ⟨rfl, h3⟩ := h3
        obtain ⟨r, hr, hne⟩ := ih (a := (n, a.2)) h1' h2' (.inl ⟨h6, h3⟩)
        refine ⟨r, ?_, hne⟩
        rw [List.foldlM_cons, Res.bind_eq_ok]
        refine ⟨_, ?_, hr⟩
        unfold probeNameStep
        rw [if_pos t7, if_neg (by simp [h0]), nameOfBlock_iff.mpr ⟨t7, h5⟩]
        rfl
      | cons x before =>
        simp only [List.cons_append, List.cons.injEq] at h3
        obtain ⟨rfl, h3⟩ := h3
        obtain ⟨r, hr, hne⟩ := ih (a := ([], a.2)) h1' h2'
          (.inr ⟨rfl, before, e, n, h3, fun x hx => h4 x (List.mem_cons_of_mem _ hx), h5, h6⟩)
        refine ⟨r, ?_, hne⟩
        rw [List.foldlM_cons, Res.bind_eq_ok]
        refine ⟨_, ?_, hr⟩
        unfold probeNameStep
        rw [if_pos t7, if_neg (by simp [h0]), nameOfBlock_iff.mpr ⟨t7, h4 b (by simp)⟩]
        rfl
    · rw [ofType_cons_ne _ t7] at h3
      by_cases t143 : b.typ = 143
      · obtain ⟨n, hn⟩ := h2 b (by simp [ofType, t143])
        obtain ⟨r, hr, hne⟩ := ih (a := (a.1, toInt32 n)) h1' h2' h3
        refine ⟨r, ?_, hne⟩
        rw [List.foldlM_cons, Res.bind_eq_ok]
        refine ⟨_, ?_, hr⟩
        unfold probeNameStep
        rw [if_neg t7, if_pos t143, readNni_iff.mpr hn]
        rfl
      · obtain ⟨r, hr, hne⟩ := ih (a := a) h1' h2' h3
        refine ⟨r, ?_, hne⟩
        rw [List.foldlM_cons, Res.bind_eq_ok]
        refine ⟨_, ?_, hr⟩
        unfold probeNameStep
        rw [if_neg t7, if_neg t143, if_neg]
        intro hm
        exact h1 b (by simp) (by simp [t7, t143]) (mayNotSkip_iff.mp hm)

theorem suggestion_iff {b : Block} {r : Name × Int} :
    (do
      let es ← b.elements
      let r ← es.foldlM probeNameStep ([], 0)
      if r.1 = [] then Res.exc .runtime else .ok r) = .ok r ↔ SaysSuggestion b r := by
  constructor
  · intro h
    rw [Res.bind_eq_ok] at h
    obtain ⟨es, h1, h⟩ := h
    rw [Res.bind_eq_ok] at h
    obtain ⟨r', h2, h⟩ := h
    split at h
    · cases h
    rename_i hne
    cases h
    obtain ⟨i1, i2, _, i4⟩ := probeName_fold h2
    obtain ⟨before, e, j1, j2, j3⟩ := i4 rfl hne
    exact ⟨es, h1, i1, ⟨before, e, j1, j2, j3, hne⟩, i2⟩
  · rintro ⟨es, h1, h2, ⟨before, e, h3, h4, h5, h6⟩, h7⟩
    obtain ⟨r', hr, hne⟩ := probeName_ok (a := ([], 0)) h2
      (fun x hx => by obtain ⟨_, n, hn, _⟩ := h7.1 x hx; exact ⟨n, hn⟩) (.inr ⟨rfl, before, e, r.1, h3, h4, h5, h6⟩)
    obtain ⟨_, i2, _, i4⟩ := probeName_fold hr
    have e2 := i2.unique (by
      rintro x a c ⟨n, hn, rfl⟩ ⟨m, hm, rfl⟩
      rw [SaysNumber.unique hn hm]) h7
    obtain ⟨before', e', j1, j2, j3⟩ := i4 rfl hne
    rw [h3] at j1
    obtain ⟨_, j4⟩ := List.append_inj' j1 rfl
    cases j4
    rw [h5] at j3
    have e1 : r.1 = r'.1 := Res.ok.inj j3
    have h1' : b.elements = .ok es := h1
    rw [h1', Res.bind_ok, hr, Res.bind_ok, if_neg hne]
    rw [show r' = r from Prod.ext e1.symm e2]

theorem SaysSuggestion.unique {b : Block} {r s : Name × Int} (h : SaysSuggestion b r) (h' : SaysSuggestion b s) : r = s := by
  have := suggestion_iff.mpr h
  rw [suggestion_iff.mpr h'] at this
  cases this; rfl

theorem holdsName_iff {b : Block} {n : Name} : (do let e ← b.blockFromValue; nameOfBlock e) = .ok n ↔ HoldsName b n := by
  constructor
  · intro h
    rw [Res.bind_eq_ok] at h
    obtain ⟨e, h1, h2⟩ := h
    exact ⟨e, blockFromValue_iff.mp h1, nameOfBlock_iff.mp h2⟩
  · rintro ⟨e, h1, h2⟩
    rw [blockFromValue_iff.mpr h1, Res.bind_ok, nameOfBlock_iff.mpr h2]

theorem HoldsName.unique {b : Block} {r s : Name} (h : HoldsName b r) (h' : HoldsName b s) : r = s := by
  have := holdsName_iff.mpr h
  rw [holdsName_iff.mpr h'] at this
  cases this; rfl

inductive ProbeCase (a : List (Name × Int) × List Name) (b : Block) (q : List (Name × Int) × List Name) : Prop where
  | name (r : Name × Int) : b.typ = 141 → SaysSuggestion b r → q = (a.1 ++ [r], a.2) → ProbeCase a b q
  | redirect (n : Name) : b.typ = 179 → HoldsName b n → q = (a.1, a.2 ++ [n]) → ProbeCase a b q
  | other : b.typ ∉ [141, 179] → ¬ MayNotSkip b.typ → q = a → ProbeCase a b q

theorem probeStep_iff {a q : List (Name × Int) × List Name} {b : Block} : probeStep a b = .ok q ↔ ProbeCase a b q := by
  constructor
  · intro h
    unfold probeStep at h
    split at h
    · rename_i ht
      rw [Res.bind_eq_ok] at h
      obtain ⟨es, h1, h⟩ := h
      rw [Res.bind_eq_ok] at h
      obtain ⟨r, h2, h⟩ := h
      split at h
      · cases h
      rename_i hne
      cases h
      exact .name r ht (suggestion_iff.mp (by rw [h1, Res.bind_ok, h2, Res.bind_ok, if_neg hne])) rfl
    split at h
    · rename_i ht
      rw [Res.bind_eq_ok] at h
      obtain ⟨e, h1, h⟩ := h
      rw [Res.bind_eq_ok] at h
      obtain ⟨n, h2, h⟩ := h
      cases h
      exact .redirect n ht (holdsName_iff.mp (by rw [h1, Res.bind_ok, h2])) rfl
    split at h
    · cases h
    · rename_i n1 n2 n3
      cases h
      exact .other (by simp only [List.mem_cons, List.not_mem_nil, or_false, not_or]; exact ⟨n1, n2⟩)
        (fun hm => n3 (mayNotSkip_iff.mpr hm)) rfl
  · intro h
    unfold probeStep
    cases h with
    | name r ht hr hq =>
      subst hq
      have h := suggestion_iff.mpr hr
      rw [Res.bind_eq_ok] at h
      obtain ⟨es, h1, h⟩ := h
      rw [Res.bind_eq_ok] at h
      obtain ⟨r, h2, h⟩ := h
      split at h
      · cases h
      rename_i hne
      cases h
      rw [if_pos ht, h1, Res.bind_ok, h2, Res.bind_ok, if_neg hne]
    | redirect n ht hn hq =>
      subst hq
      obtain ⟨e, h1, h2⟩ := hn
      rw [if_neg (by simp [ht]), if_pos ht, blockFromValue_iff.mpr h1, Res.bind_ok, nameOfBlock_iff.mpr h2, Res.bind_ok]
    | other ht hc hq =>
      subst hq
      simp only [List.mem_cons, List.not_mem_nil, or_false, not_or] at ht
      rw [if_neg ht.1, if_neg ht.2, if_neg (fun hm => hc (mayNotSkip_iff.mp hm))]

/-! ## error replies -/

inductive ErrorCase (es : List Block) (a : ErrorAcc) (b : Block) (q : ErrorAcc) : Prop where
  | code (x : Block) (n : Nat) : b.typ = 171 → es.find? (fun x => x.typ == 171) = some x → SaysNumber x n →
      q = { a with error := n, codeCount := a.codeCount + 1 } → ErrorCase es a b q
  | info (x : Block) : b.typ = 173 → es.find? (fun x => x.typ == 173) = some x →
      q = { a with info := x.val, infoCount := a.infoCount + 1 } → ErrorCase es a b q
  | crit : b.typ ∉ [171, 173] → MayNotSkip b.typ → q = { a with otherCritical := a.otherCritical + 1 } → ErrorCase es a b q
  | other : b.typ ∉ [171, 173] → ¬ MayNotSkip b.typ → q = a → ErrorCase es a b q

theorem errorStep_iff {es : List Block} {a q : ErrorAcc} {b : Block} : errorStep es a b = .ok q ↔ ErrorCase es a b q := by
  constructor
  · intro h
    unfold errorStep at h
    split at h
    · rename_i ht
      rw [Res.bind_eq_ok] at h
      obtain ⟨x, h1, h⟩ := h
      rw [Res.bind_eq_ok] at h
      obtain ⟨n, h2, h⟩ := h
      cases h
      exact .code x n ht (getElem_iff.mp h1) (readNni_iff.mp h2) rfl
    split at h
    · rename_i ht
      rw [Res.bind_eq_ok] at h
      obtain ⟨x, h1, h⟩ := h
      cases h
      exact .info x ht (getElem_iff.mp h1) rfl
    rename_i n1 n2
    have hn : b.typ ∉ [171, 173] := by
      simp only [List.mem_cons, List.not_mem_nil, or_false, not_or]; exact ⟨n1, n2⟩
    split at h
    · rename_i hc
      cases h
      exact .crit hn (mayNotSkip_iff.mp hc) rfl
    · rename_i hc
      cases h
      exact .other hn (fun hm => hc (mayNotSkip_iff.mpr hm)) rfl
  · intro h
    unfold errorStep
    cases h with
    | code x n ht hx hn hq =>
      subst hq
      rw [if_pos ht, getElem_iff.mpr hx, Res.bind_ok, readNni_iff.mpr hn]; rfl
    | info x ht hx hq =>
      subst hq
      rw [if_neg (by simp [ht]), if_pos ht, getElem_iff.mpr hx]; rfl
    | crit ht hc hq =>
      subst hq
      simp only [List.mem_cons, List.not_mem_nil, or_false, not_or] at ht
      rw [if_neg ht.1, if_neg ht.2, if_pos (mayNotSkip_iff.mpr hc)]
    | other ht hc hq =>
      subst hq
      simp only [List.mem_cons, List.not_mem_nil, or_false, not_or] at ht
      rw [if_neg ht.1, if_neg ht.2, if_neg (fun hm => hc (mayNotSkip_iff.mp hm))]

/-! ## NEW and REVOKE replies -/

inductive ReplyCase (a : ReqDataAcc) (b : Block) (q : ReqDataAcc) : Prop where
  | challenge : b.typ = 153 → q = { a with challenges := a.challenges ++ [b.val] } → ReplyCase a b q
  | pub : b.typ = 145 → q = { a with pub := b.val, pubCount := a.pubCount + 1 } → ReplyCase a b q
  | salt : b.typ = 149 → b.val.length ≤ a.salt.length →
      q = { a with salt := b.val ++ a.salt.drop b.val.length, saltCount := a.saltCount + 1 } → ReplyCase a b q
  | id : b.typ = 151 → b.val.length ≤ a.requestId.length →
      q = { a with requestId := b.val ++ a.requestId.drop b.val.length, idCount := a.idCount + 1 } → ReplyCase a b q
  | other : b.typ ∉ [153, 145, 149, 151] → ¬ MayNotSkip b.typ → q = a → ReplyCase a b q

theorem memcpyInto_iff {d s r : Bytes} : memcpyInto d s = .ok r ↔ s.length ≤ d.length ∧ r = s ++ d.drop s.length := by
  unfold memcpyInto
  split
  · rename_i h
    constructor
    · intro h'; cases h'
    · rintro ⟨h', _⟩; omega
  · rename_i h
    constructor
    · intro h'; cases h'; exact ⟨by omega, rfl⟩
    · rintro ⟨_, rfl⟩; rfl

theorem requestStep_iff {a q : ReqDataAcc} {b : Block} : requestStep a b = .ok q ↔ ReplyCase a b q := by
  constructor
  · intro h
    unfold requestStep at h
    split at h
    · cases h; exact .challenge (by assumption) rfl
    split at h
    · cases h; exact .pub (by assumption) rfl
    split at h
    · rename_i ht
      rw [Res.bind_eq_ok] at h
      obtain ⟨x, h1, h⟩ := h
      cases h
      obtain ⟨h2, rfl⟩ := memcpyInto_iff.mp h1
      exact .salt ht h2 rfl
    split at h
    · rename_i ht
      rw [Res.bind_eq_ok] at h
      obtain ⟨x, h1, h⟩ := h
      cases h
      obtain ⟨h2, rfl⟩ := memcpyInto_iff.mp h1
      exact .id ht h2 rfl
    split at h
    · cases h
    · rename_i n1 n2 n3 n4 n5
      cases h
      exact .other (by simp only [List.mem_cons, List.not_mem_nil, or_false, not_or]; exact ⟨n1, n2, n3, n4⟩)
        (fun hm => n5 (mayNotSkip_iff.mpr hm)) rfl
  · intro h
    unfold requestStep
    cases h with
    | challenge ht hq => subst hq; rw [if_pos ht]; rfl
    | pub ht hq => subst hq; rw [if_neg (by simp [ht]), if_pos ht]
    | salt ht hl hq =>
      subst hq
      rw [if_neg (by simp [ht]), if_neg (by simp [ht]), if_pos ht, memcpyInto_iff.mpr ⟨hl, rfl⟩]; rfl
    | id ht hl hq =>
      subst hq
      rw [if_neg (by simp [ht]), if_neg (by simp [ht]), if_neg (by simp [ht]), if_pos ht, memcpyInto_iff.mpr ⟨hl, rfl⟩]; rfl
    | other ht hc hq =>
      subst hq
      simp only [List.mem_cons, List.not_mem_nil, or_false, not_or] at ht
      rw [if_neg ht.1, if_neg ht.2.1, if_neg ht.2.2.1, if_neg ht.2.2.2, if_neg (fun hm => hc (mayNotSkip_iff.mp hm))]

/-! ## PROBE parameters -/

theorem probeParams_fold : ∀ {es : List Block} {acc m : MMap}, probeParamsLoop acc es = .ok m →
    ∃ kvs, Pairs es kvs ∧ m = kvs.foldl (fun a e => mmInsert e.1 e.2 a) acc
  | [], acc, m, h => by cases h; exact ⟨[], .nil, rfl⟩
  | [a], acc, m, h => by
    unfold probeParamsLoop at h
    split at h
    · cases h
    · rename_i hc
      cases h
      exact ⟨[], .skip (fun hm => hc (mayNotSkip_iff.mpr hm)) .nil, rfl⟩
  | a :: b :: rest, acc, m, h => by
    unfold probeParamsLoop at h
    split at h
    · rename_i ht
      obtain ⟨kvs, h1, h2⟩ := probeParams_fold h
      exact ⟨(a.val, b.val) :: kvs, .pair ht.1 ht.2 h1, h2⟩
    split at h
    · cases h
    · rename_i hc
      obtain ⟨kvs, h1, h2⟩ := probeParams_fold h
      exact ⟨kvs, .skip (fun hm => hc (mayNotSkip_iff.mpr hm)) h1, h2⟩

theorem probeParams_pairs {es : List Block} {kvs : List (Bytes × Bytes)} (h : Pairs es kvs) :
    ∀ acc, ∃ m, probeParamsLoop acc es = .ok m := by
  induction h with
  | nil => exact fun acc => ⟨acc, rfl⟩
  | pair hk hv _ ih =>
    intro acc
    unfold probeParamsLoop
    rw [if_pos ⟨hk, hv⟩]
    exact ih _
  | @skip b es kvs hc _ ih =>
    intro acc
    have hc' : ¬ isCriticalType b.typ = true := fun hm => hc (mayNotSkip_iff.mp hm)
    cases es with
    | nil => unfold probeParamsLoop; rw [if_neg hc']; exact ⟨_, rfl⟩
    | cons x es =>
      unfold probeParamsLoop
      rw [if_neg, if_neg hc']
      · exact ih acc
      · rintro ⟨ht, _⟩
        exact hc (.inr (by have ht : b.typ = 133 := ht; omega))

/-- entries under one key -/
theorem mmInsert_filter (k v key : Bytes) (hk : (k == key) = true) :
    ∀ m : MMap, m.Sorted → (mmInsert k v m).filter (fun e => e.1 == key) = m.filter (fun e => e.1 == key) ++ [(k, v)]
  | [], _ => by simp [mmInsert, hk]
  | e :: m, hs => by
    unfold mmInsert
    unfold MMap.Sorted at hs
    rw [List.pairwise_cons] at hs
    split
    · rename_i hlt
      have hnone : (e :: m).filter (fun e => e.1 == key) = [] := by
        rw [List.filter_eq_nil_iff]
        intro x hx
        have hkk : k = key := by simpa using hk
        rcases List.mem_cons.mp hx with rfl | hx
        · intro h
          have : x.1 = key := by simpa using h
          rw [this, ← hkk, bytesLt_irrefl] at hlt
          cases hlt
        · intro h
          have : x.1 = key := by simpa using h
          have h2 := hs.1 x hx
          rw [this, ← hkk, hlt] at h2
          cases h2
      rw [List.filter_cons, if_pos hk, hnone]
      rfl
    · rw [List.filter_cons, List.filter_cons, mmInsert_filter k v key hk m hs.2]
      split <;> rfl

theorem mmInsert_filter_ne (k v key : Bytes) (hk : (k == key) = false) :
    ∀ m : MMap, (mmInsert k v m).filter (fun e => e.1 == key) = m.filter (fun e => e.1 == key)
  | [] => by simp [mmInsert, hk]
  | e :: m => by
    unfold mmInsert
    split
    · rw [List.filter_cons, if_neg (by simp [hk])]
    · rw [List.filter_cons, List.filter_cons, mmInsert_filter_ne k v key hk m]

theorem foldl_filter (kvs : List (Bytes × Bytes)) : ∀ {m : MMap}, m.Sorted →
    (kvs.foldl (fun a e => mmInsert e.1 e.2 a) m).Sorted ∧
      ∀ key, (kvs.foldl (fun a e => mmInsert e.1 e.2 a) m).filter (fun e => e.1 == key) =
        m.filter (fun e => e.1 == key) ++ kvs.filter (fun e => e.1 == key) := by
  induction kvs with
  | nil => intro m h; exact ⟨h, by simp⟩
  | cons e kvs ih =>
    intro m h
    obtain ⟨i1, i2⟩ := ih (mmInsert_sorted (k := e.1) (v := e.2) h)
    refine ⟨i1, ?_⟩
    intro key
    rw [List.foldl_cons, i2]
    cases hk : e.1 == key with
    | true => rw [mmInsert_filter _ _ _ hk _ h, List.filter_cons, if_pos hk]; simp
    | false => rw [mmInsert_filter_ne _ _ _ hk, List.filter_cons, if_neg (by simp [hk])]

/-! ## CHALLENGE replies -/

theorem unseals_iff {C : Crypto} {b : Block} {key id encIv decIv decIv' pt : Bytes} :
    decodeAes C b key id decIv encIv = (decIv', .ok pt) ↔ Unseals C b key id encIv decIv decIv' pt := by
  constructor
  · intro h
    obtain ⟨es, ct, iv, tag, h1, h2, h3, h4, h5, h6, h7, h8, h9, h10, h11⟩ := decodeAes_ok h
    unfold updateIv ivCounter at h11
    simp only at h11
    split at h11
    · cases h11
    rename_i hlt
    refine ⟨es, ct, iv, tag, h1, getElem_iff.mp h2, getElem_iff.mp h3, getElem_iff.mp h4, h5, h6, h7,
      fun h => ⟨(h8 h).1, (h8 h).2.2, (h8 h).2.1⟩, h9, h10, by omega, ?_⟩
    have hd : iv.val.drop 12 = [] := List.drop_eq_nil_of_le (by omega)
    cases h11
    rw [hd]
    simp
  · rintro ⟨es, ct, iv, tag, h1, h2, h3, h4, h5, h6, h7, h8, h9, h10, h11, h12⟩
    have h1' : b.elements = .ok es := h1
    unfold decodeAes
    simp only [h1', Res.bind_ok, getElem_iff.mpr h2, getElem_iff.mpr h3, getElem_iff.mpr h4]
    rw [if_neg (by omega)]
    simp only
    rw [if_neg (by rintro ⟨a, b⟩; have := (h7 a).1; omega), if_neg (by rintro ⟨a, b⟩; exact (h7 a).2 b),
      if_neg (by rintro ⟨a, b⟩; have := (h8 a).1; omega), if_neg]
    · simp only [h9]
      rw [if_neg (by omega)]
      have : updateIv iv.val pt.length = .ok decIv' := by
        unfold updateIv ivCounter
        simp only
        have hd : iv.val.drop 12 = [] := List.drop_eq_nil_of_le (by omega)
        rw [if_neg (by omega), hd, h12]
        simp
      simp only [this]
    · rintro ⟨a, b | b⟩
      · have := (h8 a).2.2
        unfold ivCounter at b
        omega
      · exact b (h8 a).2.1

inductive ReadCase (es : List Block) (now : Time) (a : ChalDecAcc) (b : Block) (q : ChalDecAcc) : Prop where
  | status (x : Block) (n : Nat) : a.lookingForNonce = false → b.typ = 155 → es.find? (fun x => x.typ == 155) = some x →
      SaysNumber x n → n ≤ 6 →
      q = { a with req := { a.req with status := Status.ofNat n }, numStatus := a.numStatus + 1 } → ReadCase es now a b q
  | chStatus : a.lookingForNonce = false → b.typ = 163 → q = { a with req := { a.req with challengeStatus := b.val } } →
      ReadCase es now a b q
  | tries (n : Nat) : a.lookingForNonce = false → b.typ = 165 → SaysNumber b n →
      q = { a with req := { a.req with remainingTries := asSigned32 n } } → ReadCase es now a b q
  | time (n : Nat) (t : Time) : a.lookingForNonce = false → b.typ = 167 → SaysNumber b n → t = now + asSigned64 n * 1000000000 →
      -(2 ^ 63) ≤ asSigned64 n * 1000000000 → asSigned64 n * 1000000000 < 2 ^ 63 → -(2 ^ 63) ≤ t → t < 2 ^ 63 →
      q = { a with req := { a.req with freshBefore := t } } → ReadCase es now a b q
  | issued (n : Name) : a.lookingForNonce = false → b.typ = 169 → HoldsName b n →
      q = { a with req := { a.req with issuedCertName := n } } → ReadCase es now a b q
  | hint (n : Name) : a.lookingForNonce = false → b.typ = 30 → HoldsName b n →
      q = { a with req := { a.req with forwardingHint := n } } → ReadCase es now a b q
  | key : a.lookingForNonce = false → b.typ = 133 → b.val = bytes! "nonce" → q = { a with lookingForNonce := true } →
      ReadCase es now a b q
  | value : a.lookingForNonce = true → b.typ = 135 → b.val.length = 16 →
      q = { a with req := { a.req with nonce := b.val }, lookingForNonce := false } → ReadCase es now a b q
  | other : a.lookingForNonce = false → b.typ ∉ [155, 163, 165, 167, 169, 30, 133, 135] → ¬ MayNotSkip b.typ → q = a →
      ReadCase es now a b q

theorem addSeconds_iff {now t : Time} {n : Nat} (hn : n < 2 ^ 64) : addSeconds now n = .ok t ↔
    t = now + asSigned64 n * 1000000000 ∧ -(2 ^ 63) ≤ asSigned64 n * 1000000000 ∧ asSigned64 n * 1000000000 < 2 ^ 63 ∧
      -(2 ^ 63) ≤ t ∧ t < 2 ^ 63 := by
  unfold addSeconds
  rw [toInt64_eq hn]
  simp only [show nsPerSec = 1000000000 from rfl]
  split
  · rename_i h
    constructor
    · intro e; cases e; exact ⟨rfl, h⟩
    · rintro ⟨rfl, _⟩; rfl
  · rename_i h
    constructor
    · intro e; cases e
    · rintro ⟨rfl, h'⟩; exact absurd h' h

theorem challengeStep_iff {es : List Block} {now : Time} {a q : ChalDecAcc} {b : Block} :
    challengeStep es now a b = .ok q ↔ ReadCase es now a b q := by
  constructor
  · intro h
    unfold challengeStep at h
    split at h
    · rename_i hl
      split at h
      · rename_i ht
        rw [Res.bind_eq_ok] at h
        obtain ⟨x, h1, h⟩ := h
        rw [Res.bind_eq_ok] at h
        obtain ⟨s, h2, h⟩ := h
        cases h
        unfold statusFromBlock at h2
        rw [Res.bind_eq_ok] at h2
        obtain ⟨n, h2, h3⟩ := h2
        split at h3
        · cases h3
        cases h3
        exact .status x n hl ht (getElem_iff.mp h1) (readNni_iff.mp h2) (by omega) rfl
      split at h
      · cases h; exact .chStatus hl (by assumption) rfl
      split at h
      · rename_i ht
        rw [Res.bind_eq_ok] at h
        obtain ⟨n, h1, h⟩ := h
        cases h
        exact .tries n hl ht (readNni_iff.mp h1) rfl
      split at h
      · rename_i ht
        rw [Res.bind_eq_ok] at h
        obtain ⟨n, h1, h⟩ := h
        rw [Res.bind_eq_ok] at h
        obtain ⟨t, h2, h⟩ := h
        cases h
        have hn := readNni_iff.mp h1
        obtain ⟨h3, h4, h5, h6, h7⟩ := (addSeconds_iff hn.lt).mp h2
        exact .time n t hl ht hn h3 h4 h5 h6 h7 rfl
      split at h
      · rename_i ht
        rw [Res.bind_eq_ok] at h
        obtain ⟨e, h1, h⟩ := h
        rw [Res.bind_eq_ok] at h
        obtain ⟨n, h2, h⟩ := h
        cases h
        exact .issued n hl ht ⟨e, blockFromValue_iff.mp h1, nameOfBlock_iff.mp h2⟩ rfl
      split at h
      · rename_i ht
        rw [Res.bind_eq_ok] at h
        obtain ⟨e, h1, h⟩ := h
        rw [Res.bind_eq_ok] at h
        obtain ⟨n, h2, h⟩ := h
        cases h
        exact .hint n hl ht ⟨e, blockFromValue_iff.mp h1, nameOfBlock_iff.mp h2⟩ rfl
      split at h
      · rename_i ht
        split at h
        · rename_i hk
          cases h
          exact .key hl ht hk rfl
        · cases h
      split at h
      · cases h
      · rename_i n1 n2 n3 n4 n5 n6 n7 n8
        cases h
        have hm : ¬ MayNotSkip b.typ := fun hm => n8 (mayNotSkip_iff.mpr hm)
        refine .other hl ?_ hm rfl
        simp only [List.mem_cons, List.not_mem_nil, or_false, not_or]
        exact ⟨n1, n2, n3, n4, n5, n6, n7, fun h135 => hm (.inr (by omega))⟩
    · rename_i hl
      split at h
      · rename_i ht
        split at h
        · cases h
        · cases h
          exact .value (by simpa using hl) ht (by omega) rfl
      · cases h
  · intro h
    unfold challengeStep
    cases h with
    | status x n hl ht hx hn hle hq =>
      subst hq
      rw [if_pos hl, if_pos ht, getElem_iff.mpr hx, Res.bind_ok]
      have : statusFromBlock x = .ok (Status.ofNat n) := by
        unfold statusFromBlock
        rw [readNni_iff.mpr hn, Res.bind_ok, if_neg (by omega)]
      rw [this]; rfl
    | chStatus hl ht hq => subst hq; rw [if_pos hl, if_neg (by simp [ht]), if_pos ht]; rfl
    | tries n hl ht hn hq =>
      subst hq
      rw [if_pos hl, if_neg (by simp [ht]), if_neg (by simp [ht]), if_pos ht, readNni_iff.mpr hn]; rfl
    | time n t hl ht hn h1 h2 h3 h4 h5 hq =>
      subst hq
      rw [if_pos hl, if_neg (by simp [ht]), if_neg (by simp [ht]), if_neg (by simp [ht]), if_pos ht, readNni_iff.mpr hn, Res.bind_ok,
        (addSeconds_iff hn.lt).mpr ⟨h1, h2, h3, h4, h5⟩]
      rfl
    | issued n hl ht hn hq =>
      subst hq
      obtain ⟨e, h1, h2⟩ := hn
      rw [if_pos hl, if_neg (by simp [ht]), if_neg (by simp [ht]), if_neg (by simp [ht]), if_neg (by simp [ht]), if_pos ht,
        blockFromValue_iff.mpr h1, Res.bind_ok, nameOfBlock_iff.mpr h2]
      rfl
    | hint n hl ht hn hq =>
      subst hq
      obtain ⟨e, h1, h2⟩ := hn
      rw [if_pos hl, if_neg (by simp [ht]), if_neg (by simp [ht]), if_neg (by simp [ht]), if_neg (by simp [ht]), if_neg (by simp [ht]),
        if_pos ht, blockFromValue_iff.mpr h1, Res.bind_ok, nameOfBlock_iff.mpr h2]
      rfl
    | key hl ht hk hq =>
      subst hq
      rw [if_pos hl, if_neg (by simp [ht]), if_neg (by simp [ht]), if_neg (by simp [ht]), if_neg (by simp [ht]), if_neg (by simp [ht]),
        if_neg (by simp [ht]), if_pos ht, if_pos (show readString b = KEY_NONCE from hk)]
    | value hl ht hv hq =>
      subst hq
      rw [if_neg (by simp [hl]), if_pos ht, if_neg (by omega)]
    | other hl ht hc hq =>
      subst hq
      simp only [List.mem_cons, List.not_mem_nil, or_false, not_or] at ht
      obtain ⟨n1, n2, n3, n4, n5, n6, n7, n8⟩ := ht
      rw [if_pos hl, if_neg n1, if_neg n2, if_neg n3, if_neg n4, if_neg n5, if_neg n6, if_neg n7,
        if_neg (fun hm => hc (mayNotSkip_iff.mp hm))]

theorem nonce_grammar {es0 : List Block} {now : Time} : ∀ {es : List Block} {a q : ChalDecAcc},
    es.foldlM (challengeStep es0 now) a = .ok q →
    (a.lookingForNonce = false → NonceAfterKey es) ∧
    (a.lookingForNonce = true → es = [] ∨ ∃ v rest, es = v :: rest ∧ v.typ = 135 ∧ v.val.length = 16 ∧ NonceAfterKey rest)
  | [], a, q, h => ⟨fun _ => trivial, fun _ => .inl rfl⟩
  | b :: es, a, q, h => by
    rw [List.foldlM_cons, Res.bind_eq_ok] at h
    obtain ⟨a1, h1, h2⟩ := h
    obtain ⟨i1, i2⟩ := nonce_grammar h2
    have hplain : b.typ ≠ 133 → b.typ ≠ 135 → a1.lookingForNonce = false → NonceAfterKey (b :: es) := by
      intro n1 n2 hl
      cases es with
      | nil => exact ⟨n2, fun h => absurd h n1⟩
      | cons v es =>
        unfold NonceAfterKey
        rw [if_neg n1]
        exact ⟨n2, i1 hl⟩
    cases challengeStep_iff.mp h1 with
    | status x n hl ht _ _ _ hq =>
      subst hq; exact ⟨fun _ => hplain (by omega) (by omega) hl, fun h => by rw [hl] at h; cases h⟩
    | chStatus hl ht hq => subst hq; exact ⟨fun _ => hplain (by omega) (by omega) hl, fun h => by rw [hl] at h; cases h⟩
    | tries n hl ht _ hq => subst hq; exact ⟨fun _ => hplain (by omega) (by omega) hl, fun h => by rw [hl] at h; cases h⟩
    | time n t hl ht _ _ _ _ _ _ hq => subst hq; exact ⟨fun _ => hplain (by omega) (by omega) hl, fun h => by rw [hl] at h; cases h⟩
    | issued n hl ht _ hq => subst hq; exact ⟨fun _ => hplain (by omega) (by omega) hl, fun h => by rw [hl] at h; cases h⟩
    | hint n hl ht _ hq => subst hq; exact ⟨fun _ => hplain (by omega) (by omega) hl, fun h => by rw [hl] at h; cases h⟩
    | other hl ht _ hq =>
      simp only [List.mem_cons, List.not_mem_nil, or_false, not_or] at ht
      subst hq; exact ⟨fun _ => hplain ht.2.2.2.2.2.2.1 ht.2.2.2.2.2.2.2 hl, fun h => by rw [hl] at h; cases h⟩
    | value hl ht hv hq =>
      subst hq
      exact ⟨fun h => by (rw [hl] at h; cases h), fun _ => .inr ⟨b, es, rfl, ht, hv, i1 rfl⟩⟩
    | key hl ht hk hq =>
      subst hq
      refine ⟨fun _ => ?_, fun h => by rw [hl] at h; cases h⟩
      rcases i2 rfl with rfl | ⟨v, rest, rfl, j1, j2, j3⟩
      · exact ⟨by omega, fun _ => hk⟩
      · unfold NonceAfterKey
        rw [if_pos ht]
        exact ⟨hk, j1, j2, j3⟩

/-- the message is accepted -/
theorem challenge_accepts {es0 : List Block} {now : Time} : ∀ {es : List Block} {a : ChalDecAcc}, a.lookingForNonce = false →
    NonceAfterKey es →
    (∀ b ∈ es, b.typ ∉ [133, 135] → ∀ a : ChalDecAcc, a.lookingForNonce = false →
      ∃ q, challengeStep es0 now a b = .ok q ∧ q.lookingForNonce = false) →
    ∃ q, es.foldlM (challengeStep es0 now) a = .ok q
  | [], a, _, _, _ => ⟨a, rfl⟩
  | [b], a, hl, hg, h => by
    by_cases t1 : b.typ = 133
    · have := challengeStep_iff (es := es0) (now := now) (a := a) |>.mpr (.key hl t1 (hg.2 t1) rfl)
      exact ⟨_, by rw [List.foldlM_cons, this]; rfl⟩
    · obtain ⟨q, h1, _⟩ := h b (by simp) (by simp [t1, hg.1]) a hl
      exact ⟨q, by rw [List.foldlM_cons, h1]; rfl⟩
  | b :: v :: es, a, hl, hg, h => by
    unfold NonceAfterKey at hg
    by_cases t1 : b.typ = 133
    · rw [if_pos t1] at hg
      obtain ⟨g1, g2, g3, g4⟩ := hg
      have e1 := challengeStep_iff (es := es0) (now := now) (a := a) |>.mpr (.key hl t1 g1 rfl)
      have e2 := challengeStep_iff (es := es0) (now := now) (a := { a with lookingForNonce := true }) |>.mpr (.value rfl g2 g3 rfl)
      obtain ⟨q, hq⟩ := challenge_accepts (es := es) (a := { a with req := { a.req with nonce := v.val }, lookingForNonce := false }) rfl g4
        (fun x hx => h x (List.mem_cons_of_mem _ (List.mem_cons_of_mem _ hx)))
      exact ⟨q, by rw [List.foldlM_cons, e1, Res.bind_ok, List.foldlM_cons, e2]; exact hq⟩
    · rw [if_neg t1] at hg
      obtain ⟨q, h1, h2⟩ := h b (by simp) (by simp [t1, hg.1]) a hl
      obtain ⟨q', hq⟩ := challenge_accepts (es := v :: es) h2 hg.2 (fun x hx => h x (List.mem_cons_of_mem _ hx))
      exact ⟨q', by rw [List.foldlM_cons, h1]; exact hq⟩

end Ndncert
