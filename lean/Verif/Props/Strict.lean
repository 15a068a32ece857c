import Verif.Lemmas.StrictSteps
import Verif.Spec.Fixtures
import Verif.Props.Encoding

/-! # Property C110: a message is accepted exactly if it is well formed, and is read as its elements say -/

namespace Ndncert.Props

/-! ## CA profiles -/

/-- C110, CA profiles: the content of an INFO reply is accepted exactly if it consists of elements that can be read, and the profile
is what they say. -/
theorem C110_profile (C : Crypto) (b : Block) (p : CaProfile) :
    infoDecode C b = .ok p ↔
    ∃ es, parse b.val = .ok es ∧ OnlyKnown [129, 131, 133, 139, 137] es ∧
      LastSays 129 es HasName [] p.caPrefix ∧
      LastSays 131 es SaysBytes [] p.caInfo ∧
      EachSays SaysBytes (ofType 133 es) p.probeParameterKeys ∧
      LastSays 139 es (fun b v => ∃ n, SaysNumber b n ∧ v = asSigned64 n) 0 p.maxValidityPeriod ∧
      LastSays 137 es (HasCert C) none p.cert ∧
      p.forwardingHint = [] ∧ p.maxSuffixLength = none ∧ p.supportedChallenges = [] := by
  have key : ∀ {es : List Block} {p : CaProfile}, es.foldlM (infoStep C) {} = .ok p →
      OnlyKnown [129, 131, 133, 139, 137] es ∧
      LastSays 129 es HasName [] p.caPrefix ∧
      LastSays 131 es SaysBytes [] p.caInfo ∧
      EachSays SaysBytes (ofType 133 es) p.probeParameterKeys ∧
      LastSays 139 es (fun b v => ∃ n, SaysNumber b n ∧ v = asSigned64 n) 0 p.maxValidityPeriod ∧
      LastSays 137 es (HasCert C) none p.cert ∧
      p.forwardingHint = [] ∧ p.maxSuffixLength = none ∧ p.supportedChallenges = [] := by
    intro es p h
    have hsame : ∀ {es : List Block} {s s' : CaProfile}, es.foldlM (infoStep C) s = .ok s' →
        s'.forwardingHint = s.forwardingHint ∧ s'.maxSuffixLength = s.maxSuffixLength ∧
          s'.supportedChallenges = s.supportedChallenges := by
      intro es
      induction es with
      | nil => intro s s' h; cases h; exact ⟨rfl, rfl, rfl⟩
      | cons x es ih =>
        intro s s' h
        rw [List.foldlM_cons, Res.bind_eq_ok] at h
        obtain ⟨s1, h1, h2⟩ := h
        obtain ⟨i1, i2, i3⟩ := ih h2
        cases infoStep_iff.mp h1 <;> (rename_i hq; subst hq; exact ⟨i1, i2, i3⟩)
    refine ⟨?_, ?_, ?_, ?_, ?_, ?_, hsame h⟩
    · refine fold_each (P := fun b => b.typ ∉ [129, 131, 133, 139, 137] → ¬ MayNotSkip b.typ) ?_ h
      intro s s' b hb hn
      cases infoStep_iff.mp hb <;> simp_all
    · refine fold_last (proj := CaProfile.caPrefix) ?_ ?_ h
      · intro s s' b hb ht
        cases infoStep_iff.mp hb <;> simp_all
      · intro s s' b hb ht
        cases infoStep_iff.mp hb <;> simp_all
    · refine fold_last (proj := CaProfile.caInfo) ?_ ?_ h
      · intro s s' b hb ht
        cases infoStep_iff.mp hb <;> simp_all [SaysBytes]
      · intro s s' b hb ht
        cases infoStep_iff.mp hb <;> simp_all
    · obtain ⟨as, h1, h2⟩ := fold_collect (proj := CaProfile.probeParameterKeys) (t := 133) (Reads := SaysBytes) (by
        intro s s' b hb ht
        cases infoStep_iff.mp hb <;> simp_all [SaysBytes]) (by
        intro s s' b hb ht
        cases infoStep_iff.mp hb <;> simp_all) h
      rw [h2]; exact h1
    · refine fold_last (proj := CaProfile.maxValidityPeriod) ?_ ?_ h
      · intro s s' b hb ht
        cases infoStep_iff.mp hb with
        | max n _ hn hq => exact ⟨n, hn, by rw [hq]⟩
        | _ => simp_all
      · intro s s' b hb ht
        cases infoStep_iff.mp hb <;> simp_all
    · refine fold_last (proj := CaProfile.cert) ?_ ?_ h
      · intro s s' b hb ht
        cases infoStep_iff.mp hb <;> simp_all
      · intro s s' b hb ht
        cases infoStep_iff.mp hb <;> simp_all
  unfold infoDecode
  constructor
  · intro h
    rw [Res.bind_eq_ok] at h
    obtain ⟨es, h1, h2⟩ := h
    exact ⟨es, h1, key h2⟩
  · rintro ⟨es, h1, k0, k1, k2, k3, k4, k5, k6, k7, k8⟩
    have h1' : b.elements = .ok es := h1
    obtain ⟨q, hq⟩ := fold_ok (f := infoStep C) (es := es) {} (by
      intro x hx s
      by_cases t1 : x.typ = 129
      · obtain ⟨n, hn⟩ := k1.1 x (mem_ofType.mpr ⟨hx, t1⟩)
        exact ⟨_, infoStep_iff.mpr (.pre n t1 hn rfl)⟩
      by_cases t2 : x.typ = 131
      · exact ⟨_, infoStep_iff.mpr (.info t2 rfl)⟩
      by_cases t3 : x.typ = 133
      · exact ⟨_, infoStep_iff.mpr (.key t3 rfl)⟩
      by_cases t4 : x.typ = 139
      · obtain ⟨_, n, hn, _⟩ := k4.1 x (mem_ofType.mpr ⟨hx, t4⟩)
        exact ⟨_, infoStep_iff.mpr (.max n t4 hn rfl)⟩
      by_cases t5 : x.typ = 137
      · obtain ⟨c, hc⟩ := k5.1 x (mem_ofType.mpr ⟨hx, t5⟩)
        cases c with
        | none => exact absurd rfl hc.choose_spec.choose_spec.2.2.2
        | some c => exact ⟨_, infoStep_iff.mpr (.cert c t5 hc rfl)⟩
      have hn : x.typ ∉ [129, 131, 133, 139, 137] := by simp [t1, t2, t3, t4, t5]
      exact ⟨_, infoStep_iff.mpr (.other hn (k0 x hx hn) rfl)⟩)
    rw [h1', Res.bind_ok, hq]
    obtain ⟨_, j1, j2, j3, j4, j5, j6, j7, j8⟩ := key hq
    have e1 := j1.unique (fun x a c (h : HasName x a) (h' : HasName x c) => HasName.unique h h') k1
    have e2 := j2.unique (fun _ _ _ h h' => h.trans h'.symm) k2
    have e3 := j3.unique (fun _ _ _ h h' => h.trans h'.symm) k3
    have e4 := j4.unique (by
      rintro x a c ⟨n, hn, rfl⟩ ⟨m, hm, rfl⟩
      rw [SaysNumber.unique hn hm]) k4
    have e5 := j5.unique (fun x a c (h : HasCert C x a) (h' : HasCert C x c) => HasCert.unique h h') k5
    obtain ⟨⟩ := p
    obtain ⟨⟩ := q
    simp_all

-- a profile with two CaInfo elements, of which the second counts, and an element to be skipped; one with an element that may not be skipped
example : infoDecode Toy.crypto (mkBlock 21 [nestedBlock 129 (nameBlock [gcomp [67]]), binBlock 131 [1], binBlock 133 [5],
    binBlock 200 [9], binBlock 131 [2, 3], binBlock 139 [1, 0], binBlock 133 [6], nestedBlock 137 exCert.wire]) =
    .ok { caPrefix := [gcomp [67]], caInfo := [2, 3], probeParameterKeys := [[5], [6]], maxValidityPeriod := 256, cert := some exCert } := by
  decide +kernel
example : ∀ p, infoDecode Toy.crypto (mkBlock 21 [binBlock 131 [1], binBlock 201 [9]]) ≠ .ok p := by
  have h : infoDecode Toy.crypto (mkBlock 21 [binBlock 131 [1], binBlock 201 [9]]) = .exc .runtime := by decide +kernel
  intro p hp
  rw [h] at hp
  cases hp

/-! ## PROBE replies -/

/-- C110, PROBE replies: accepted exactly if every element can be read, and then the suggestions and the redirections are those of
the elements, in their order. -/
theorem C110_probe_reply (b : Block) (names : List (Name × Int)) (redirects : List Name) :
    probeDecode b [] [] = .ok (names, redirects) ↔
    ∃ es, parse b.val = .ok es ∧ OnlyKnown [141, 179] es ∧
      EachSays SaysSuggestion (ofType 141 es) names ∧ EachSays HoldsName (ofType 179 es) redirects := by
  have key : ∀ {es : List Block} {q : List (Name × Int) × List Name}, es.foldlM probeStep ([], []) = .ok q →
      OnlyKnown [141, 179] es ∧ EachSays SaysSuggestion (ofType 141 es) q.1 ∧ EachSays HoldsName (ofType 179 es) q.2 := by
    intro es q h
    refine ⟨?_, ?_, ?_⟩
    · refine fold_each (P := fun b => b.typ ∉ [141, 179] → ¬ MayNotSkip b.typ) ?_ h
      intro s s' b hb hn
      cases probeStep_iff.mp hb <;> simp_all
    · obtain ⟨as, h1, h2⟩ := fold_collect (proj := Prod.fst) (t := 141) (Reads := SaysSuggestion) (by
        intro s s' b hb ht
        cases probeStep_iff.mp hb with
        | name r _ hr hq => exact ⟨r, hr, by rw [hq]⟩
        | _ => simp_all) (by
        intro s s' b hb ht
        cases probeStep_iff.mp hb <;> simp_all) h
      rw [h2]; exact h1
    · obtain ⟨as, h1, h2⟩ := fold_collect (proj := Prod.snd) (t := 179) (Reads := HoldsName) (by
        intro s s' b hb ht
        cases probeStep_iff.mp hb with
        | redirect r _ hr hq => exact ⟨r, hr, by rw [hq]⟩
        | _ => simp_all) (by
        intro s s' b hb ht
        cases probeStep_iff.mp hb <;> simp_all) h
      rw [h2]; exact h1
  unfold probeDecode
  constructor
  · intro h
    rw [Res.bind_eq_ok] at h
    obtain ⟨es, h1, h2⟩ := h
    exact ⟨es, h1, key h2⟩
  · rintro ⟨es, h1, k0, k1, k2⟩
    have h1' : b.elements = .ok es := h1
    obtain ⟨q, hq⟩ := fold_ok (f := probeStep) (es := es) ([], []) (by
      intro x hx s
      by_cases t1 : x.typ = 141
      · obtain ⟨r, hr⟩ := k1.of_mem x (mem_ofType.mpr ⟨hx, t1⟩)
        exact ⟨_, probeStep_iff.mpr (.name r t1 hr rfl)⟩
      by_cases t2 : x.typ = 179
      · obtain ⟨r, hr⟩ := k2.of_mem x (mem_ofType.mpr ⟨hx, t2⟩)
        exact ⟨_, probeStep_iff.mpr (.redirect r t2 hr rfl)⟩
      have hn : x.typ ∉ [141, 179] := by simp [t1, t2]
      exact ⟨_, probeStep_iff.mpr (.other hn (k0 x hx hn) rfl)⟩)
    rw [h1', Res.bind_ok, hq]
    obtain ⟨_, j1, j2⟩ := key hq
    have e1 := j1.unique (fun x a c (h : SaysSuggestion x a) (h' : SaysSuggestion x c) => SaysSuggestion.unique h h') k1
    have e2 := j2.unique (fun x a c (h : HoldsName x a) (h' : HoldsName x c) => HoldsName.unique h h') k2
    rw [← e1, ← e2]

-- two suggestions and a redirection; a suggestion without a name
example : probeDecode (mkBlock 21 [mkBlock 141 [nameBlock [gcomp [65]], nniBlock 143 3], nestedBlock 179 (nameBlock [gcomp [90]]),
    mkBlock 141 [nameBlock [gcomp [66]]]]) [] [] = .ok ([([gcomp [65]], 3), ([gcomp [66]], 0)], [[gcomp [90]]]) := by decide +kernel
example : probeDecode (mkBlock 21 [mkBlock 141 [nniBlock 143 3]]) [] [] = .exc .runtime := by decide +kernel

/-! ## error replies -/

/-- C110, error replies: a reply is taken for an error with a code exactly if it has one ErrorCode, which holds that number, and one ErrorInfo,
which holds the description, and no other element that may not be skipped. -/
theorem C110_error (b : Block) (code : Nat) (info : Bytes) (h0 : code ≠ 0) :
    errorDecode b = (code, info) ↔
    ∃ es x y, parse b.val = .ok es ∧ ofType 171 es = [x] ∧ ofType 173 es = [y] ∧ SaysNumber x code ∧ SaysBytes y info ∧
      OnlyKnown [171, 173] es := by
  have hcrit : ∀ {es0 es : List Block} {a q : ErrorAcc}, es.foldlM (errorStep es0) a = .ok q →
      a.otherCritical ≤ q.otherCritical ∧ (q.otherCritical = a.otherCritical ↔ OnlyKnown [171, 173] es) := by
    intro es0 es
    induction es with
    | nil => intro a q h; cases h; exact ⟨Nat.le_refl _, by simp [OnlyKnown]⟩
    | cons x es ih =>
      intro a q h
      rw [List.foldlM_cons, Res.bind_eq_ok] at h
      obtain ⟨a1, h1, h2⟩ := h
      obtain ⟨i1, i2⟩ := ih h2
      have hk : OnlyKnown [171, 173] (x :: es) ↔ (x.typ ∉ [171, 173] → ¬ MayNotSkip x.typ) ∧ OnlyKnown [171, 173] es := by
        unfold OnlyKnown
        exact List.forall_mem_cons
      rw [hk, ← i2]
      cases errorStep_iff.mp h1 with
      | code _ _ ht _ _ hq => subst hq; exact ⟨i1, by simp [ht]⟩
      | info _ ht _ hq => subst hq; exact ⟨i1, by simp [ht]⟩
      | crit hn hc hq =>
        subst hq
        simp only at i1 i2 ⊢
        refine ⟨by omega, ⟨fun h => by omega, fun h => absurd hc (h.1 hn)⟩⟩
      | other hn hc hq => subst hq; exact ⟨i1, by simp [hc]⟩
  have hcode : ∀ {es : List Block} {q : ErrorAcc}, es.foldlM (errorStep es) {} = .ok q → q.codeCount = (ofType 171 es).length := by
    intro es q h
    have := fold_count (f := errorStep es) (proj := ErrorAcc.codeCount) (t := 171) (by
      intro s s' b hb ht
      cases errorStep_iff.mp hb <;> simp_all) (by
      intro s s' b hb ht
      cases errorStep_iff.mp hb <;> simp_all) h
    simpa using this
  have hinfo : ∀ {es : List Block} {q : ErrorAcc}, es.foldlM (errorStep es) {} = .ok q → q.infoCount = (ofType 173 es).length := by
    intro es q h
    have := fold_count (f := errorStep es) (proj := ErrorAcc.infoCount) (t := 173) (by
      intro s s' b hb ht
      cases errorStep_iff.mp hb <;> simp_all) (by
      intro s s' b hb ht
      cases errorStep_iff.mp hb <;> simp_all) h
    simpa using this
  have herr : ∀ {es : List Block} {q : ErrorAcc} {x : Block}, es.foldlM (errorStep es) {} = .ok q → ofType 171 es = [x] →
      SaysNumber x q.error := by
    intro es q x h hx
    have := (fold_one (f := errorStep es) (proj := ErrorAcc.error) (t := 171) (Rel := fun _ _ n => SaysNumber x n) (by
      intro s s' b hb ht
      cases errorStep_iff.mp hb with
      | code y n _ hy hn hq =>
        rw [find_of_single hx] at hy
        cases hy
        rw [hq]; exact hn
      | _ => simp_all) (by
      intro s s' b hb ht
      cases errorStep_iff.mp hb <;> simp_all) h).2 x hx
    exact this
  have hdesc : ∀ {es : List Block} {q : ErrorAcc} {x : Block}, es.foldlM (errorStep es) {} = .ok q → ofType 173 es = [x] →
      SaysBytes x q.info := by
    intro es q x h hx
    have := (fold_one (f := errorStep es) (proj := ErrorAcc.info) (t := 173) (Rel := fun _ _ n => SaysBytes x n) (by
      intro s s' b hb ht
      cases errorStep_iff.mp hb with
      | info y _ hy hq =>
        rw [find_of_single hx] at hy
        cases hy
        rw [hq]; rfl
      | _ => simp_all) (by
      intro s s' b hb ht
      cases errorStep_iff.mp hb <;> simp_all) h).2 x hx
    exact this
  constructor
  · intro h
    unfold errorDecode at h
    split at h
    · rename_i r hr
      subst h
      unfold errorDecodeBody at hr
      rw [Res.bind_eq_ok] at hr
      obtain ⟨es, h1, hr⟩ := hr
      rw [Res.bind_eq_ok] at hr
      obtain ⟨a, h2, hr⟩ := hr
      split at hr
      · cases hr; exact absurd rfl h0
      split at hr
      · cases hr
      rename_i hc
      split at hr
      · cases hr
      rename_i ho
      cases hr
      obtain ⟨x, hx⟩ := length_one (l := ofType 171 es) (by rw [← hcode h2]; omega)
      obtain ⟨y, hy⟩ := length_one (l := ofType 173 es) (by rw [← hinfo h2]; omega)
      refine ⟨es, x, y, h1, hx, hy, herr h2 hx, hdesc h2 hy, (hcrit h2).2.mp ?_⟩
      show a.otherCritical = 0
      omega
    · cases h; exact absurd rfl h0
  · rintro ⟨es, x, y, h1, hx, hy, hn, hi, hk⟩
    obtain ⟨a, ha⟩ := fold_ok (f := errorStep es) (es := es) {} (by
      intro b hb s
      by_cases t1 : b.typ = 171
      · exact ⟨_, errorStep_iff.mpr (.code x code t1 (find_of_single hx) hn rfl)⟩
      by_cases t2 : b.typ = 173
      · exact ⟨_, errorStep_iff.mpr (.info y t2 (find_of_single hy) rfl)⟩
      have hn : b.typ ∉ [171, 173] := by simp [t1, t2]
      exact ⟨_, errorStep_iff.mpr (.other hn (hk b hb hn) rfl)⟩)
    have c1 := hcode ha
    have c2 := hinfo ha
    rw [hx] at c1
    rw [hy] at c2
    have c3 : a.otherCritical = 0 := (hcrit ha).2.mpr hk
    have e1 : a.error = code := SaysNumber.unique (herr ha hx) hn
    have e2 : a.info = info := (hdesc ha hy).trans hi.symm
    have h1' : b.elements = .ok es := h1
    simp only [List.length_cons, List.length_nil] at c1 c2
    have : errorDecodeBody b = .ok (code, info) := by
      unfold errorDecodeBody
      rw [h1', Res.bind_ok, ha, Res.bind_ok, if_neg (by omega), if_neg (by omega), if_neg (by omega), e1, e2]
    unfold errorDecode
    rw [this]

-- an error; a reply with two codes is not taken for one
example : errorDecode (mkBlock 21 [binBlock 171 [5], binBlock 173 [104, 105], binBlock 200 []]) = (5, [104, 105]) := by decide +kernel
example : errorDecode (mkBlock 21 [binBlock 171 [5], binBlock 171 [5], binBlock 173 [104]]) = (0, []) := by decide +kernel

/-! ## NEW and REVOKE replies -/

/-- C110, NEW and REVOKE replies: accepted exactly if there are one public key, one salt and one request id, none of the latter longer
than the place for it, and nothing else that may not be skipped. The challenges are those listed. A salt or an id that is too short
fills the front of its place only. -/
theorem C110_new_reply (b : Block) (salt salt' : Bytes) (id id' : RequestId) (pub : Bytes) (challenges : List Bytes) :
    requestDecode b salt id = ((salt', id'), .ok (pub, challenges)) ↔
    ∃ es k s i, parse b.val = .ok es ∧ OnlyKnown [153, 145, 149, 151] es ∧
      ofType 145 es = [k] ∧ SaysBytes k pub ∧
      ofType 149 es = [s] ∧ s.val.length ≤ salt.length ∧ salt' = s.val ++ salt.drop s.val.length ∧
      ofType 151 es = [i] ∧ i.val.length ≤ id.length ∧ id' = i.val ++ id.drop i.val.length ∧
      EachSays SaysBytes (ofType 153 es) challenges := by
  have key : ∀ {es : List Block} {a : ReqDataAcc}, es.foldlM requestStep { salt := salt, requestId := id } = .ok a →
      OnlyKnown [153, 145, 149, 151] es ∧ a.pubCount = (ofType 145 es).length ∧ a.saltCount = (ofType 149 es).length ∧
      a.idCount = (ofType 151 es).length ∧ (∀ k, ofType 145 es = [k] → SaysBytes k a.pub) ∧
      (∀ k, ofType 149 es = [k] → k.val.length ≤ salt.length ∧ a.salt = k.val ++ salt.drop k.val.length) ∧
      (∀ k, ofType 151 es = [k] → k.val.length ≤ id.length ∧ a.requestId = k.val ++ id.drop k.val.length) ∧
      EachSays SaysBytes (ofType 153 es) a.challenges := by
    intro es a h
    refine ⟨?_, ?_, ?_, ?_, ?_, ?_, ?_, ?_⟩
    · refine fold_each (P := fun b => b.typ ∉ [153, 145, 149, 151] → ¬ MayNotSkip b.typ) ?_ h
      intro s s' b hb hn
      cases requestStep_iff.mp hb <;> simp_all
    · have := fold_count (f := requestStep) (proj := ReqDataAcc.pubCount) (t := 145) (by
        intro s s' b hb ht
        cases requestStep_iff.mp hb <;> simp_all) (by
        intro s s' b hb ht
        cases requestStep_iff.mp hb <;> simp_all) h
      simpa using this
    · have := fold_count (f := requestStep) (proj := ReqDataAcc.saltCount) (t := 149) (by
        intro s s' b hb ht
        cases requestStep_iff.mp hb <;> simp_all) (by
        intro s s' b hb ht
        cases requestStep_iff.mp hb <;> simp_all) h
      simpa using this
    · have := fold_count (f := requestStep) (proj := ReqDataAcc.idCount) (t := 151) (by
        intro s s' b hb ht
        cases requestStep_iff.mp hb <;> simp_all) (by
        intro s s' b hb ht
        cases requestStep_iff.mp hb <;> simp_all) h
      simpa using this
    · intro k hk
      exact (fold_one (f := requestStep) (proj := ReqDataAcc.pub) (t := 145) (Rel := fun b _ n => SaysBytes b n) (by
        intro s s' b hb ht
        cases requestStep_iff.mp hb <;> simp_all [SaysBytes]) (by
        intro s s' b hb ht
        cases requestStep_iff.mp hb <;> simp_all) h).2 k hk
    · intro k hk
      exact (fold_one (f := requestStep) (proj := ReqDataAcc.salt) (t := 149)
        (Rel := fun b o n => b.val.length ≤ o.length ∧ n = b.val ++ o.drop b.val.length) (by
        intro s s' b hb ht
        cases requestStep_iff.mp hb <;> simp_all) (by
        intro s s' b hb ht
        cases requestStep_iff.mp hb <;> simp_all) h).2 k hk
    · intro k hk
      exact (fold_one (f := requestStep) (proj := ReqDataAcc.requestId) (t := 151)
        (Rel := fun b o n => b.val.length ≤ o.length ∧ n = b.val ++ o.drop b.val.length) (by
        intro s s' b hb ht
        cases requestStep_iff.mp hb <;> simp_all) (by
        intro s s' b hb ht
        cases requestStep_iff.mp hb <;> simp_all) h).2 k hk
    · obtain ⟨as, h1, h2⟩ := fold_collect (proj := ReqDataAcc.challenges) (t := 153) (Reads := SaysBytes) (by
        intro s s' b hb ht
        cases requestStep_iff.mp hb <;> simp_all [SaysBytes]) (by
        intro s s' b hb ht
        cases requestStep_iff.mp hb <;> simp_all) h
      rw [h2]; exact h1
  constructor
  · intro h
    unfold requestDecode at h
    split at h
    · simp at h
    · simp at h
    rename_i es h1
    cases hl : loopRes requestStep { salt := salt, requestId := id } es with
    | mk a r =>
      rw [hl] at h
      simp only [Prod.mk.injEq] at h
      obtain ⟨⟨h2, h3⟩, h4⟩ := h
      cases r with
      | exc e => cases h4
      | ub u => cases h4
      | ok _ =>
        simp only at h4
        split at h4
        · cases h4
        rename_i hc
        simp only [Res.ok.injEq, Prod.mk.injEq] at h4
        obtain ⟨k0, k1, k2, k3, k4, k5, k6, k7⟩ := key (loopRes_ok_iff.mp hl)
        obtain ⟨x, hx⟩ := length_one (l := ofType 145 es) (by omega)
        obtain ⟨y, hy⟩ := length_one (l := ofType 149 es) (by omega)
        obtain ⟨z, hz⟩ := length_one (l := ofType 151 es) (by omega)
        refine ⟨es, x, y, z, h1, k0, hx, h4.1 ▸ k4 x hx, hy, (k5 y hy).1, h2 ▸ (k5 y hy).2, hz, (k6 z hz).1, h3 ▸ (k6 z hz).2,
          h4.2 ▸ k7⟩
  · rintro ⟨es, k, s, i, h1, k0, hx, hk, hy, hs1, hs2, hz, hi1, hi2, hc⟩
    obtain ⟨a, ha⟩ := fold_ok_inv (f := requestStep) (es := es)
      (Inv := fun a => a.salt.length = salt.length ∧ a.requestId.length = id.length)
      { salt := salt, requestId := id } ⟨rfl, rfl⟩ (by
      rintro b hb a ⟨ia, ib⟩
      by_cases t1 : b.typ = 153
      · exact ⟨_, requestStep_iff.mpr (.challenge t1 rfl), ia, ib⟩
      by_cases t2 : b.typ = 145
      · exact ⟨_, requestStep_iff.mpr (.pub t2 rfl), ia, ib⟩
      by_cases t3 : b.typ = 149
      · have : b ∈ ofType 149 es := mem_ofType.mpr ⟨hb, t3⟩
        rw [hy] at this
        cases List.mem_singleton.mp this
        exact ⟨_, requestStep_iff.mpr (.salt t3 (by omega) rfl), by simp; omega, ib⟩
      by_cases t4 : b.typ = 151
      · have : b ∈ ofType 151 es := mem_ofType.mpr ⟨hb, t4⟩
        rw [hz] at this
        cases List.mem_singleton.mp this
        exact ⟨_, requestStep_iff.mpr (.id t4 (by omega) rfl), ia, by simp; omega⟩
      have hn : b.typ ∉ [153, 145, 149, 151] := by simp [t1, t2, t3, t4]
      exact ⟨_, requestStep_iff.mpr (.other hn (k0 b hb hn) rfl), ia, ib⟩)
    obtain ⟨_, c1, c2, c3, c4, c5, c6, c7⟩ := key ha
    rw [hx] at c1
    rw [hy] at c2
    rw [hz] at c3
    simp only [List.length_cons, List.length_nil] at c1 c2 c3
    have h1' : b.elements = .ok es := h1
    unfold requestDecode
    rw [h1']
    simp only [loopRes_ok_iff.mpr ha]
    rw [if_neg (by omega), (c5 s hy).2, (c6 i hz).2, ← hs2, ← hi2]
    have e1 : a.pub = pub := (c4 k hx).trans hk.symm
    have e2 : a.challenges = challenges := c7.unique (fun _ _ _ h h' => h.trans h'.symm) hc
    rw [e1, e2]

-- a reply whose id is a little short, read into places of 4 and 3 octets; one with two salts
example : requestDecode (mkBlock 21 [binBlock 153 [1], binBlock 145 [2], binBlock 149 [3, 3, 3, 3], binBlock 151 [4, 4], binBlock 153 [5]])
    [0, 0, 0, 0] [8, 8, 8] = (([3, 3, 3, 3], [4, 4, 8]), .ok ([2], [[1], [5]])) := by decide +kernel
example : (requestDecode (mkBlock 21 [binBlock 145 [2], binBlock 149 [3], binBlock 149 [3], binBlock 151 [4]]) [0] [0]).2 =
    .exc .runtime := by decide +kernel

/-! ## PROBE parameters -/

/-- C110, PROBE parameters: accepted exactly if they are pairs of a key and a value with nothing between them that may not be skipped;
and then the parameters are sorted by key, and under each key they have the values of the message, in its order. -/
theorem C110_probe_params (b : Block) :
    ((∃ m, probeParamsDecode b = .ok m) ↔ ∃ es kvs, parse b.val = .ok es ∧ Pairs es kvs) ∧
    ∀ m, probeParamsDecode b = .ok m → ∃ es kvs, parse b.val = .ok es ∧ Pairs es kvs ∧
      m.InOrder ∧
      ∀ key, m.filter (fun e => e.1 == key) = kvs.filter (fun e => e.1 == key) := by
  have key : ∀ m, probeParamsDecode b = .ok m → ∃ es kvs, parse b.val = .ok es ∧ Pairs es kvs ∧
      m.InOrder ∧
      ∀ key, m.filter (fun e => e.1 == key) = kvs.filter (fun e => e.1 == key) := by
    intro m h
    unfold probeParamsDecode at h
    rw [Res.bind_eq_ok] at h
    obtain ⟨es, h1, h2⟩ := h
    obtain ⟨kvs, h3, rfl⟩ := probeParams_fold h2
    obtain ⟨h4, h5⟩ := foldl_filter kvs (m := []) List.Pairwise.nil
    exact ⟨es, kvs, h1, h3, (inOrder_iff _).mpr h4, by simpa using h5⟩
  refine ⟨⟨?_, ?_⟩, key⟩
  · rintro ⟨m, h⟩
    obtain ⟨es, kvs, h1, h2, _⟩ := key m h
    exact ⟨es, kvs, h1, h2⟩
  · rintro ⟨es, kvs, h1, h2⟩
    have h1' : b.elements = .ok es := h1
    obtain ⟨m, hm⟩ := probeParams_pairs h2 []
    exact ⟨m, by unfold probeParamsDecode; rw [h1']; exact hm⟩

-- three pairs, two of them under one key; a key without a value
example : probeParamsDecode (mkBlock 36 [binBlock 133 [98], binBlock 135 [1], binBlock 133 [97], binBlock 135 [2], binBlock 200 [],
    binBlock 133 [98], binBlock 135 [0]]) = .ok [([97], [2]), ([98], [1]), ([98], [0])] := by decide +kernel
example : probeParamsDecode (mkBlock 36 [binBlock 133 [98]]) = .exc .runtime := by decide +kernel

/-! ## CHALLENGE replies -/

/-- C110, CHALLENGE replies: accepted exactly if the reply can be opened with the key and id of the request, its plaintext consists of elements
that can be read, with one Status, and the requester then knows what they say, and no more. -/
theorem C110_challenge_reply (C : Crypto) (content : Block) (q q' : Request) (now : Time) :
    challengeDecode C content q now = (q', .ok ()) ↔
    ∃ pt es, Unseals C content q.aesKey q.requestId q.encryptionIv q.decryptionIv q'.decryptionIv pt ∧ parse pt = .ok es ∧
      ReplySays es now q q' := by
  have key : ∀ {es : List Block} {a r : ChalDecAcc}, es.foldlM (challengeStep es now) a = .ok r → a.lookingForNonce = false →
      r.numStatus = a.numStatus + (ofType 155 es).length ∧
      ((ofType 155 es).length = 1 → ReplySays es now a.req r.req) ∧ r.req.decryptionIv = a.req.decryptionIv := by
    intro es a r h hl
    have hsame : ∀ {es0 es : List Block} {a r : ChalDecAcc}, es.foldlM (challengeStep es0 now) a = .ok r →
        r.req.profile = a.req.profile ∧ r.req.type = a.req.type ∧ r.req.identityName = a.req.identityName ∧
        r.req.requestId = a.req.requestId ∧ r.req.challengeType = a.req.challengeType ∧ r.req.ecdhPriv = a.req.ecdhPriv ∧
        r.req.aesKey = a.req.aesKey ∧ r.req.encryptionIv = a.req.encryptionIv ∧ r.req.keyPair = a.req.keyPair ∧
        r.req.decryptionIv = a.req.decryptionIv := by
      intro es0 es
      induction es with
      | nil => intro a r h; cases h; simp
      | cons x es ih =>
        intro a r h
        rw [List.foldlM_cons, Res.bind_eq_ok] at h
        obtain ⟨s1, h1, h2⟩ := h
        have i := ih h2
        cases challengeStep_iff.mp h1 <;> (rename_i hq; subst hq; exact i)
    have hs := hsame h
    refine ⟨?_, ?_, hs.2.2.2.2.2.2.2.2.2⟩
    · exact fold_count (f := challengeStep es now) (proj := ChalDecAcc.numStatus) (t := 155) (by
        intro s s' b hb ht
        cases challengeStep_iff.mp hb <;> simp_all) (by
        intro s s' b hb ht
        cases challengeStep_iff.mp hb <;> simp_all) h
    intro hlen
    refine ⟨?_, (nonce_grammar h).1 hl, ?_, ?_, ?_, ?_, ?_, ?_, ?_, hs.1, hs.2.1, hs.2.2.1, hs.2.2.2.1, hs.2.2.2.2.1, hs.2.2.2.2.2.1,
      hs.2.2.2.2.2.2.1, hs.2.2.2.2.2.2.2.1, hs.2.2.2.2.2.2.2.2.1⟩
    · refine fold_each (P := fun b => b.typ ∉ [155, 163, 165, 167, 169, 30, 133, 135] → ¬ MayNotSkip b.typ) ?_ h
      intro s s' b hb hn
      cases challengeStep_iff.mp hb <;> simp_all
    · obtain ⟨x, hx⟩ := length_one hlen
      have := (fold_one (f := challengeStep es now) (proj := fun a => a.req.status) (t := 155)
        (Rel := fun _ _ s => ∃ n, SaysNumber x n ∧ n ≤ 6 ∧ s = Status.ofNat n) (by
        intro s s' b hb ht
        cases challengeStep_iff.mp hb with
        | status y n _ _ hy hn hle hq =>
          rw [find_of_single hx] at hy
          cases hy
          exact ⟨n, hn, hle, by rw [hq]⟩
        | _ => simp_all) (by
        intro s s' b hb ht
        cases challengeStep_iff.mp hb <;> simp_all) h).2 x hx
      obtain ⟨n, h1, h2, h3⟩ := this
      exact ⟨x, n, hx, h1, h2, h3⟩
    · refine fold_last (f := challengeStep es now) (proj := fun a => a.req.challengeStatus) ?_ ?_ h
      · intro s s' b hb ht
        cases challengeStep_iff.mp hb <;> simp_all [SaysBytes]
      · intro s s' b hb ht
        cases challengeStep_iff.mp hb <;> simp_all
    · refine fold_last (f := challengeStep es now) (proj := fun a => a.req.remainingTries) ?_ ?_ h
      · intro s s' b hb ht
        cases challengeStep_iff.mp hb with
        | tries n _ _ hn hq => exact ⟨n, hn, by rw [hq]⟩
        | _ => simp_all
      · intro s s' b hb ht
        cases challengeStep_iff.mp hb <;> simp_all
    · refine fold_last (f := challengeStep es now) (proj := fun a => a.req.freshBefore) ?_ ?_ h
      · intro s s' b hb ht
        cases challengeStep_iff.mp hb with
        | time n t _ _ hn h1 h2 h3 h4 h5 hq => rw [hq]; exact ⟨n, hn, h1, h2, h3, h4, h5⟩
        | _ => simp_all
      · intro s s' b hb ht
        cases challengeStep_iff.mp hb <;> simp_all
    · refine fold_last (f := challengeStep es now) (proj := fun a => a.req.issuedCertName) ?_ ?_ h
      · intro s s' b hb ht
        cases challengeStep_iff.mp hb <;> simp_all
      · intro s s' b hb ht
        cases challengeStep_iff.mp hb <;> simp_all
    · refine fold_last (f := challengeStep es now) (proj := fun a => a.req.forwardingHint) ?_ ?_ h
      · intro s s' b hb ht
        cases challengeStep_iff.mp hb <;> simp_all
      · intro s s' b hb ht
        cases challengeStep_iff.mp hb <;> simp_all
    · refine fold_last (f := challengeStep es now) (proj := fun a => a.req.nonce) ?_ ?_ h
      · intro s s' b hb ht
        cases challengeStep_iff.mp hb <;> simp_all [SaysBytes]
      · intro s s' b hb ht
        cases challengeStep_iff.mp hb <;> simp_all
  constructor
  · intro h
    unfold challengeDecode at h
    cases hd : decodeAes C content q.aesKey q.requestId q.decryptionIv q.encryptionIv with
    | mk div res =>
      rw [hd] at h
      simp only at h
      cases res with
      | exc e => simp at h
      | ub u => simp at h
      | ok pt =>
        simp only at h
        cases hp : parse pt with
        | exc e => rw [hp] at h; simp at h
        | ub u => rw [hp] at h; simp at h
        | ok es =>
          rw [hp] at h
          simp only at h
          cases hl : loopRes (challengeStep es now) { req := { q with decryptionIv := div } } es with
          | mk a r =>
            rw [hl] at h
            simp only [Prod.mk.injEq] at h
            obtain ⟨rfl, h⟩ := h
            cases r with
            | exc e => cases h
            | ub u => cases h
            | ok _ =>
              simp only at h
              split at h
              · cases h
              rename_i hc
              obtain ⟨k1, k2, k3⟩ := key (loopRes_ok_iff.mp hl) rfl
              simp only at k1 k2 k3
              refine ⟨pt, es, ?_, hp, k2 (by omega)⟩
              rw [k3]
              exact unseals_iff.mp hd
  · rintro ⟨pt, es, h1, h2, h3⟩
    obtain ⟨k0, k1, ⟨x, n, hx, hn, hle, hst⟩, k2, k3, k4, k5, k6, k7, s1, s2, s3, s4, s5, s6, s7, s8, s9⟩ := h3
    obtain ⟨a, ha⟩ := challenge_accepts (es0 := es) (now := now) (es := es)
      (a := { req := { q with decryptionIv := q'.decryptionIv } }) rfl k1 (by
      intro b hb ht a hl
      by_cases t1 : b.typ = 155
      · exact ⟨_, challengeStep_iff.mpr (.status x n hl t1 (find_of_single hx) hn hle rfl), hl⟩
      by_cases t2 : b.typ = 163
      · exact ⟨_, challengeStep_iff.mpr (.chStatus hl t2 rfl), hl⟩
      by_cases t3 : b.typ = 165
      · obtain ⟨_, m, hm, _⟩ := k3.1 b (mem_ofType.mpr ⟨hb, t3⟩)
        exact ⟨_, challengeStep_iff.mpr (.tries m hl t3 hm rfl), hl⟩
      by_cases t4 : b.typ = 167
      · obtain ⟨t, m, hm, e1, e2, e3, e4, e5⟩ := k4.1 b (mem_ofType.mpr ⟨hb, t4⟩)
        exact ⟨_, challengeStep_iff.mpr (.time m t hl t4 hm e1 e2 e3 e4 e5 rfl), hl⟩
      by_cases t5 : b.typ = 169
      · obtain ⟨m, hm⟩ := k5.1 b (mem_ofType.mpr ⟨hb, t5⟩)
        exact ⟨_, challengeStep_iff.mpr (.issued m hl t5 hm rfl), hl⟩
      by_cases t6 : b.typ = 30
      · obtain ⟨m, hm⟩ := k6.1 b (mem_ofType.mpr ⟨hb, t6⟩)
        exact ⟨_, challengeStep_iff.mpr (.hint m hl t6 hm rfl), hl⟩
      have hn : b.typ ∉ [155, 163, 165, 167, 169, 30, 133, 135] := by
        simp only [List.mem_cons, List.not_mem_nil, or_false, not_or] at ht
        simp [t1, t2, t3, t4, t5, t6, ht]
      exact ⟨_, challengeStep_iff.mpr (.other hl hn (k0 b hb hn) rfl), hl⟩)
    obtain ⟨c1, c2, c3⟩ := key ha rfl
    rw [hx] at c1 c2
    obtain ⟨_, _, ⟨x', n', hx', hn', _, hst'⟩, j2, j3, j4, j5, j6, j7, r1, r2, r3, r4, r5, r6, r7, r8, r9⟩ := c2 rfl
    rw [hx] at hx'
    cases hx'
    have hnum : n' = n := SaysNumber.unique hn' hn
    have e2 := j2.unique (fun _ _ _ h h' => h.trans h'.symm) k2
    have e3 := j3.unique (by
      rintro x a c ⟨n, hn, rfl⟩ ⟨m, hm, rfl⟩
      rw [SaysNumber.unique hn hm]) k3
    have e4 := j4.unique (by
      rintro x a c ⟨n, hn, e, _⟩ ⟨m, hm, e', _⟩
      rw [e, e', SaysNumber.unique hn hm]) k4
    have e5 := j5.unique (fun x a c (h : HoldsName x a) (h' : HoldsName x c) => HoldsName.unique h h') k5
    have e6 := j6.unique (fun x a c (h : HoldsName x a) (h' : HoldsName x c) => HoldsName.unique h h') k6
    have e7 := j7.unique (fun _ _ _ h h' => h.trans h'.symm) k7
    have hreq : a.req = q' := by
      obtain ⟨req, ns, lf⟩ := a
      obtain ⟨⟩ := req
      obtain ⟨⟩ := q'
      simp_all
    unfold challengeDecode
    rw [unseals_iff.mpr h1]
    simp only [h2, loopRes_ok_iff.mpr ha, hreq]
    rw [if_neg (by rw [c1]; simp)]

/-- a requester in the course of a challenge, for the examples -/
def strictReq : Request :=
  { profile := {}, type := .new, requestId := [1, 2, 3, 4, 5, 6, 7, 8], ecdhPriv := [1], aesKey := List.replicate 16 5,
    nonce := List.replicate 16 0, remainingTries := 9 }

/-- a reply that the CA of the examples seals -/
def strictReply (es : List Block) : Block :=
  match (encodeAes Toy.crypto 21 (List.replicate 16 5) (encodeAll es) [1, 2, 3, 4, 5, 6, 7, 8] [] (List.replicate 8 7)).2 with
  | .ok b => b
  | _ => ⟨0, []⟩

-- a reply with a status, a deadline and a nonce; a reply with a parameter other than the nonce; one with a nonce that is too short
example : (challengeDecode Toy.crypto (strictReply [binBlock 155 [1], binBlock 163 [120], binBlock 167 [60], binBlock 133 (bytes! "nonce"),
      binBlock 135 (List.replicate 16 3)]) strictReq 1000).2 = .ok () ∧
    (challengeDecode Toy.crypto (strictReply [binBlock 155 [1], binBlock 163 [120], binBlock 167 [60], binBlock 133 (bytes! "nonce"),
      binBlock 135 (List.replicate 16 3)]) strictReq 1000).1.freshBefore = 60000001000 := by decide +kernel
example : (challengeDecode Toy.crypto (strictReply [binBlock 155 [1], binBlock 133 (bytes! "other"), binBlock 135 [3]]) strictReq 1000).2 =
    .exc .runtime := by decide +kernel
example : (challengeDecode Toy.crypto (strictReply [binBlock 155 [1], binBlock 133 (bytes! "nonce"), binBlock 135 [3]]) strictReq 1000).2 =
    .exc .runtime := by decide +kernel

end Ndncert.Props
