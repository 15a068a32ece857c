import Verif.Spec.Packet
import Verif.Lemmas.Tlv
import Verif.Lemmas.TimeText
import Verif.Lemmas.Main
import Verif.Props.Requester

/-! # Lemmas about packets -/

namespace Ndncert

/-! ## Reading depends only on what is read -/

theorem readVarNumber_prefix {bs : Bytes} {n : Nat} {rest : Bytes} (h : readVarNumber bs = .ok (n, rest)) :
    ∃ pre, bs = pre ++ rest ∧ ∀ r, readVarNumber (pre ++ r) = .ok (n, r) := by
  unfold readVarNumber at h
  split at h
  · cases h
  · rename_i b xs
    split at h
    · rename_i hb
      cases h
      exact ⟨[b], rfl, fun r => by simp [readVarNumber, hb]⟩
    · rename_i hb
      dsimp only at h
      generalize hk : (if b = 253 then 2 else if b = 254 then 4 else 8) = k at h
      split at h
      · cases h
      · rename_i hl
        cases h
        refine ⟨b :: xs.take k, by simp, fun r => ?_⟩
        have hlen : (xs.take k).length = k := by rw [List.length_take]; omega
        show readVarNumber (b :: (xs.take k ++ r)) = _
        unfold readVarNumber
        dsimp only
        rw [if_neg hb, hk, if_neg (by rw [List.length_append, hlen]; omega), List.take_left' hlen, List.drop_left' hlen]

theorem readElement_prefix {bs : Bytes} {e : Block} {rest : Bytes} (h : readElement bs = .ok (e, rest)) :
    ∃ pre, bs = pre ++ rest ∧ pre ≠ [] ∧ ∀ r, readElement (pre ++ r) = .ok (e, r) := by
  unfold readElement at h
  rw [Res.bind_eq_ok] at h
  obtain ⟨⟨t, r1⟩, h1, h⟩ := h
  dsimp only at h
  split at h
  · cases h
  · rename_i ht
    rw [Res.bind_eq_ok] at h
    obtain ⟨⟨l, r2⟩, h2, h⟩ := h
    dsimp only at h
    split at h
    · cases h
    · rename_i hl
      cases h
      obtain ⟨p1, e1, q1⟩ := readVarNumber_prefix h1
      obtain ⟨p2, e2, q2⟩ := readVarNumber_prefix h2
      have hlen : (r2.take l).length = l := by rw [List.length_take]; omega
      refine ⟨p1 ++ p2 ++ r2.take l, ?_, ?_, fun r => ?_⟩
      · rw [e1, e2]; simp
      · intro hp
        have := q1 []
        simp at hp
        rw [hp.1] at this
        simp [readVarNumber] at this
      · unfold readElement
        rw [List.append_assoc, List.append_assoc, q1]
        simp only [Res.bind_ok]
        rw [if_neg ht, q2]
        simp only [Res.bind_ok]
        rw [if_neg (by rw [List.length_append, hlen]; omega), List.take_left' hlen, List.drop_left' hlen]

theorem parseFuel_mono {n m : Nat} {bs : Bytes} {es : List Block} (h : parseFuel n bs = .ok es) (hm : n ≤ m) : parseFuel m bs = .ok es := by
  induction n generalizing m bs es with
  | zero =>
    cases bs with
    | nil => cases m <;> simpa [parseFuel] using h
    | cons b bs => simp [parseFuel] at h
  | succ n ih =>
    cases bs with
    | nil => cases m <;> simpa [parseFuel] using h
    | cons b bs =>
      cases m with
      | zero => omega
      | succ m =>
        unfold parseFuel at h ⊢
        rw [Res.bind_eq_ok] at h
        obtain ⟨⟨e, rest⟩, h1, h⟩ := h
        dsimp only at h
        rw [Res.bind_eq_ok] at h
        obtain ⟨es', h2, h⟩ := h
        rw [h1]
        simp only [Res.bind_ok]
        rw [ih h2 (by omega)]
        exact h

theorem parseFuel_count {n : Nat} {bs : Bytes} {es : List Block} (h : parseFuel n bs = .ok es) : parseFuel es.length bs = .ok es := by
  induction n generalizing bs es with
  | zero =>
    cases bs with
    | nil => rw [show es = [] from by simpa [parseFuel] using h.symm]; rfl
    | cons b bs => simp [parseFuel] at h
  | succ n ih =>
    cases bs with
    | nil => rw [show es = [] from by simpa [parseFuel] using h.symm]; rfl
    | cons b bs =>
      unfold parseFuel at h
      rw [Res.bind_eq_ok] at h
      obtain ⟨⟨e, rest⟩, h1, h⟩ := h
      dsimp only at h
      rw [Res.bind_eq_ok] at h
      obtain ⟨es', h2, h⟩ := h
      cases h
      rw [List.length_cons]
      unfold parseFuel
      rw [h1]
      simp only [Res.bind_ok]
      rw [ih h2]
      rfl

/-- the first elements, up to the first of type `t` -/
def elementsBefore (t : Nat) (es : List Block) : List Block := es.takeWhile (fun e => e.typ != t)

theorem octetsBefore_parse (t : Nat) {n : Nat} {bs : Bytes} {es : List Block} (h : parseFuel n bs = .ok es) (m : Nat) (hm : n ≤ m) :
    parseFuel n (octetsBefore t m bs) = .ok (elementsBefore t es) ∧ (elementsBefore t es).length ≤ (octetsBefore t m bs).length := by
  induction n generalizing m bs es with
  | zero =>
    cases bs with
    | nil =>
      have : es = [] := by simpa [parseFuel] using h.symm
      subst this
      have : octetsBefore t m [] = [] := by cases m <;> simp [octetsBefore, readElement, readVarNumber]
      rw [this]
      exact ⟨rfl, Nat.le_refl _⟩
    | cons b bs => simp [parseFuel] at h
  | succ n ih =>
    cases bs with
    | nil =>
      have : es = [] := by simpa [parseFuel] using h.symm
      subst this
      have : octetsBefore t m [] = [] := by cases m <;> simp [octetsBefore, readElement, readVarNumber]
      rw [this]
      exact ⟨rfl, Nat.le_refl _⟩
    | cons b bs =>
      cases m with
      | zero => omega
      | succ m =>
        unfold parseFuel at h
        rw [Res.bind_eq_ok] at h
        obtain ⟨⟨e, rest⟩, h1, h⟩ := h
        dsimp only at h
        rw [Res.bind_eq_ok] at h
        obtain ⟨es', h2, h⟩ := h
        cases h
        unfold octetsBefore
        rw [h1]
        dsimp only
        by_cases ht : e.typ = t
        · rw [if_pos ht]
          have : elementsBefore t (e :: es') = [] := by simp [elementsBefore, ht]
          rw [this]
          exact ⟨rfl, Nat.le_refl _⟩
        · rw [if_neg ht]
          have he : elementsBefore t (e :: es') = e :: elementsBefore t es' := by simp [elementsBefore, ht]
          rw [he]
          obtain ⟨pre, hp, hne, hq⟩ := readElement_prefix h1
          have hpre : (b :: bs).take ((b :: bs).length - rest.length) = pre := by
            rw [hp, List.length_append]
            exact List.take_left' (by omega)
          rw [hpre]
          obtain ⟨i1, i2⟩ := ih h2 m (by omega)
          have hpos : 0 < pre.length := List.length_pos_iff.mpr hne
          refine ⟨?_, by rw [List.length_append, List.length_cons]; omega⟩
          cases hc : pre ++ octetsBefore t m rest with
          | nil => simp [hne] at hc
          | cons x xs =>
            unfold parseFuel
            rw [← hc, hq]
            simp only [Res.bind_ok]
            rw [i1]
            rfl

theorem parse_octetsBefore (t : Nat) {bs : Bytes} {es : List Block} (h : parse bs = .ok es) :
    parse (octetsBefore t bs.length bs) = .ok (elementsBefore t es) := by
  obtain ⟨h1, h2⟩ := octetsBefore_parse t h bs.length (Nat.le_refl _)
  exact parseFuel_mono (parseFuel_count h1) h2

/-! ## What is signed determines what is read -/

/-- all that is read but the signature value -/
def DataPacket.core (p : DataPacket) : Name × Nat × Nat × Option Bytes × Option SigInfo := (p.name, p.contentType, p.freshness, p.content, p.sigInfo)

theorem packetStep_last {p q : DataPacket} {e : Block} (hl : p.last = 5) (h : packetStep p e = some q) : q = p := by
  unfold packetStep at h
  rw [hl] at h
  simp only [show (2 ≤ 5) = True from by simp, show (3 ≤ 5) = True from by simp, show (4 ≤ 5) = True from by simp,
    show (5 ≤ 5) = True from by simp, if_true] at h
  split at h <;> try cases h
  split at h <;> try cases h
  split at h <;> try cases h
  split at h <;> try cases h
  split at h <;> cases h
  rfl

theorem packetFold_last {es : List Block} {p q : DataPacket} (hl : p.last = 5) (h : es.foldlM packetStep p = some q) : q = p := by
  induction es with
  | nil => cases h; rfl
  | cons e es ih =>
    rw [List.foldlM_cons] at h
    obtain ⟨p', h1, h⟩ := Option.bind_eq_some_iff.mp h
    rw [packetStep_last hl h1] at h
    exact ih h

theorem packetFold_before {es : List Block} {p q : DataPacket} (h : es.foldlM packetStep p = some q) :
    ∃ q', (elementsBefore 23 es).foldlM packetStep p = some q' ∧ q'.core = q.core := by
  induction es generalizing p with
  | nil => exact ⟨q, h, rfl⟩
  | cons e es ih =>
    rw [List.foldlM_cons] at h
    obtain ⟨p', h1, h⟩ := Option.bind_eq_some_iff.mp h
    by_cases ht : e.typ = 23
    · have : elementsBefore 23 (e :: es) = [] := by simp [elementsBefore, ht]
      rw [this]
      refine ⟨p, rfl, ?_⟩
      have hp : p' = { p with last := 5, sigValue := some e.val } := by
        unfold packetStep at h1
        rw [if_neg (by omega), if_neg (by omega), if_neg (by omega), if_pos ht] at h1
        split at h1
        · cases h1
        · cases h1; rfl
      have := packetFold_last (by rw [hp]) h
      rw [this, hp]
      rfl
    · have : elementsBefore 23 (e :: es) = e :: elementsBefore 23 es := by simp [elementsBefore, ht]
      rw [this]
      obtain ⟨q', h2, h3⟩ := ih h
      refine ⟨q', ?_, h3⟩
      rw [List.foldlM_cons, h1]
      exact h2

theorem packetFields_before {es : List Block} {p : DataPacket} (h : packetFields es = some p) :
    ∃ q, packetFields (elementsBefore 23 es) = some q ∧ q.core = p.core := by
  cases es with
  | nil => cases h
  | cons e es =>
    unfold packetFields at h
    dsimp only at h
    split at h
    · rename_i ht
      obtain ⟨n, h1, h⟩ := Option.bind_eq_some_iff.mp h
      obtain ⟨q, h2, h3⟩ := packetFold_before h
      have : elementsBefore 23 (e :: es) = e :: elementsBefore 23 es := by simp [elementsBefore, ht]
      rw [this]
      unfold packetFields
      dsimp only
      rw [if_pos ht, h1]
      exact ⟨q, h2, h3⟩
    · cases h

theorem toOption_some {α : Type} {r : Res α} {a : α} (h : toOption r = some a) : r = .ok a := by
  cases r <;> simp [toOption] at h
  rw [h]

theorem decodePacket_some {b : Block} {p : DataPacket} (h : decodePacket b = some p) :
    b.typ = T.Data ∧ ∃ es, parse b.val = .ok es ∧ packetFields es = some p ∧ p.sigInfo ≠ none := by
  unfold decodePacket at h
  split at h
  · rename_i ht
    obtain ⟨es, h1, h⟩ := Option.bind_eq_some_iff.mp h
    obtain ⟨q, h2, h⟩ := Option.bind_eq_some_iff.mp h
    split at h
    · cases h
    · rename_i hs
      cases h
      exact ⟨ht, es, toOption_some h1, h2, hs⟩
  · cases h

theorem decodePacket_core {b b' : Block} {p p' : DataPacket} (h : decodePacket b = some p) (h' : decodePacket b' = some p')
    (hs : signedOctets b = signedOctets b') : p.core = p'.core := by
  obtain ⟨_, es, h1, h2, _⟩ := decodePacket_some h
  obtain ⟨_, es', h1', h2', _⟩ := decodePacket_some h'
  obtain ⟨q, h3, h4⟩ := packetFields_before h2
  obtain ⟨q', h3', h4'⟩ := packetFields_before h2'
  have e1 := parse_octetsBefore 23 h1
  have e2 := parse_octetsBefore 23 h1'
  unfold signedOctets at hs
  rw [hs, e2] at e1
  have e3 := Res.ok.inj e1
  rw [← e3, h3'] at h3
  cases h3
  rw [← h4, h4']

/-! ## Reading what was written -/

theorem octetsBefore_encode (t : Nat) {es : List Block} (hf : ∀ e ∈ es, e.Fits) (hn : ∀ e ∈ es, e.typ ≠ t) {rest : Bytes}
    (hr : rest = [] ∨ ∃ e tail, readElement rest = .ok (e, tail) ∧ e.typ = t) (m : Nat) (hm : es.length < m) :
    octetsBefore t m (encodeAll es ++ rest) = encodeAll es := by
  induction es generalizing m with
  | nil =>
    cases m with
    | zero => omega
    | succ m =>
      rcases hr with rfl | ⟨e, tail, h1, h2⟩
      · rfl
      · show octetsBefore t (m + 1) rest = []
        unfold octetsBefore
        rw [h1]
        exact if_pos h2
  | cons e es ih =>
    cases m with
    | zero => omega
    | succ m =>
      have e1 : encodeAll (e :: es) ++ rest = e.encode ++ (encodeAll es ++ rest) := by simp [encodeAll]
      rw [e1]
      unfold octetsBefore
      rw [readElement_encode e (hf e (List.mem_cons_self ..))]
      dsimp only
      rw [if_neg (hn e (List.mem_cons_self ..)), ih (fun x hx => hf x (List.mem_cons_of_mem _ hx)) (fun x hx => hn x (List.mem_cons_of_mem _ hx)) m
        (by simp at hm; omega), List.take_left' (by simp)]
      simp [encodeAll]

theorem encodeAll_length_ge (es : List Block) : es.length ≤ (encodeAll es).length := by
  induction es with
  | nil => simp
  | cons e es ih =>
    have := encode_length_pos e
    rw [show encodeAll (e :: es) = e.encode ++ encodeAll es from by simp [encodeAll], List.length_append, List.length_cons]
    omega

theorem signedOctets_mk {es : List Block} (hf : ∀ e ∈ es, e.Fits) (hn : ∀ e ∈ es, e.typ ≠ 23) (v : Bytes) (hv : v.length < 2 ^ 64) (t : Nat) :
    signedOctets (mkBlock t (es ++ [binBlock 23 v])) = encodeAll es := by
  unfold signedOctets mkBlock
  dsimp only
  have e1 : encodeAll (es ++ [binBlock 23 v]) = encodeAll es ++ (binBlock 23 v).encode := by rw [encodeAll_append]; simp [encodeAll]
  have hb := binBlock_fits 23 v (by omega) (by omega) hv
  rw [e1]
  refine octetsBefore_encode 23 hf hn (Or.inr ⟨binBlock 23 v, [], ?_, rfl⟩) _ ?_
  · have := readElement_encode _ hb []
    rwa [List.append_nil] at this
  · have h1 := encodeAll_length_ge es
    have h2 := encode_length_pos (binBlock 23 v)
    rw [List.length_append]
    omega

theorem periodText_read {a : Nat} (h : a < 2 ^ 37) :
    fromIsoText (periodText ((a : Int) * nsPerSec)) = some ((a : Int) * 1000000) := by
  have e : (a : Int) * nsPerSec / 1000 = (a : Int) * 1000000 := by unfold nsPerSec; omega
  unfold periodText
  rw [e]
  cases hi : toIsoText ((a : Int) * 1000000) with
  | none =>
    unfold toIsoText at hi
    dsimp only at hi
    split at hi
    · rename_i hr
      unfold usPerDay epochDay at hr
      omega
    · cases hi
  | some text => exact fromIso_toIso hi

theorem validityOf_texts {x y : Bytes} {nb na : Int} (hx : fromIsoText x = some nb) (hy : fromIsoText y = some na)
    (hl : ∀ e ∈ [binBlock 254 x, binBlock 255 y], e.Fits) :
    validityOf (mkBlock 253 [binBlock 254 x, binBlock 255 y]) = some (nb.tdiv 1000000 * nsPerSec, na.tdiv 1000000 * nsPerSec) := by
  unfold validityOf
  rw [elements_mkBlock _ _ hl]
  simp only [toOption, binBlock, Option.bind_eq_bind, Option.bind_some, and_self, if_true, hx, hy]

theorem validityOf_block {v : Time × Time} (h : PeriodFits v) (hl : ∀ e ∈ [binBlock 254 (periodText v.1), binBlock 255 (periodText v.2)], e.Fits) :
    validityOf (validityBlock v) = some v := by
  obtain ⟨a, b, ha, hb, rfl⟩ := h
  unfold validityBlock
  rw [validityOf_texts (periodText_read ha) (periodText_read hb) hl, Int.mul_tdiv_cancel _ (by omega), Int.mul_tdiv_cancel _ (by omega)]

theorem keyLocatorOf_block {n : Name} (h : NameFits n) : keyLocatorOf (nestedBlock 28 (nameBlock n)) = some (some n) := by
  unfold keyLocatorOf
  rw [elements_nested 28 _ (nameBlock_fits n h)]
  show (if (nameBlock n).typ = 7 then (toOption (nameOfBlock (nameBlock n))).map some else some none) = _
  rw [if_pos (show (nameBlock n).typ = 7 from rfl), nameOfBlock_nameBlock n h.1]
  rfl

theorem sigInfoOf_block (t : Nat) {typ : Nat} {n : Name} (h : NameFits n) (v : Option (Time × Time))
    (hl : ∀ e ∈ [nniBlock 27 typ, nestedBlock 28 (nameBlock n)] ++ v.toList.map validityBlock, e.Fits) :
    sigInfoOf (sigInfoBlock t typ n v) = some ⟨some (typ % 2 ^ 64), some (some n), v.toList.map validityBlock⟩ := by
  unfold sigInfoOf sigInfoBlock
  rw [elements_mkBlock _ _ hl]
  have s1 : sigInfoStep {} (nniBlock 27 typ) = some ⟨some (typ % 2 ^ 64), none, []⟩ := by
    unfold sigInfoStep
    rw [if_pos (show (nniBlock 27 typ).typ = 27 from rfl), if_neg (by simp), readNni_nniBlock]
    rfl
  have s2 : sigInfoStep ⟨some (typ % 2 ^ 64), none, []⟩ (nestedBlock 28 (nameBlock n)) = some ⟨some (typ % 2 ^ 64), some (some n), []⟩ := by
    unfold sigInfoStep
    rw [if_neg (by simp [nestedBlock]), if_pos (show (nestedBlock 28 (nameBlock n)).typ = 28 from rfl), if_neg (by simp), keyLocatorOf_block h]
    rfl
  have s3 : ∀ v, sigInfoStep ⟨some (typ % 2 ^ 64), some (some n), []⟩ (validityBlock v) =
      some ⟨some (typ % 2 ^ 64), some (some n), [validityBlock v]⟩ := by
    intro v
    unfold sigInfoStep
    rw [if_neg (by simp [validityBlock, mkBlock]), if_neg (by simp [validityBlock, mkBlock])]
    rfl
  generalize typ % 2 ^ 64 = k at s1 s2 s3 ⊢
  cases v with
  | none =>
    simp only [toOption, Option.bind_eq_bind, Option.bind_some, Option.toList_none, List.map_nil, List.append_nil, List.foldlM_cons, s1, s2,
      List.foldlM_nil]
    rfl
  | some v =>
    simp only [toOption, Option.bind_eq_bind, Option.bind_some, Option.toList_some, List.map_cons, List.map_nil, List.cons_append, List.nil_append,
      List.foldlM_cons, s1, s2, s3, List.foldlM_nil]
    rfl

theorem metaInfoOf_block (ct fresh : Nat) (hct : ct < 2 ^ 32) (hf : fresh < 2 ^ 64) : metaInfoOf (metaInfoBlock ct fresh) = some (ct, fresh) := by
  unfold metaInfoOf metaInfoBlock
  have r1 : readNni (nniBlock 24 ct) = .ok ct := readNni_nniBlock_of_lt 24 ct (by omega)
  have r2 : readNni (nniBlock 25 fresh) = .ok fresh := readNni_nniBlock_of_lt 25 fresh hf
  have f1 := nniBlock_fits 24 ct (by omega) (by omega)
  have f2 := nniBlock_fits 25 fresh (by omega) (by omega)
  have t1 : (nniBlock 24 ct).typ = 24 := rfl
  have t2 : (nniBlock 25 fresh).typ = 25 := rfl
  by_cases h1 : ct = 0 <;> by_cases h2 : fresh = 0
  · subst h1 h2; rfl
  · subst h1
    rw [if_pos rfl, if_neg h2, elements_mkBlock _ _ (by simpa using f2)]
    simp [toOption, r2, t2]
  · subst h2
    rw [if_pos rfl, if_neg h1, elements_mkBlock _ _ (by simpa using f1)]
    simp [toOption, r1, t1, hct]
  · rw [if_neg h1, if_neg h2, elements_mkBlock _ _ (by simpa using ⟨f1, f2⟩)]
    simp [toOption, r1, r2, t1, t2, hct]

/-- what a signed certificate is decoded to -/
def signedFields (K : KeyRing) (priv : Bytes) (locator name : Name) (content : Bytes) (v : Time × Time) (freshness : Nat) : DataPacket :=
  { name := name, last := 5, contentType := 2, freshness := freshness, content := some content,
    sigInfo := some ⟨some (K.sigType priv % 2 ^ 64), some (some locator), [validityBlock v]⟩
    sigValue := some (K.sign priv (encodeAll (signedElements name 2 freshness content (sigInfoBlock 22 (K.sigType priv) locator (some v))))) }

theorem certWire_val (K : KeyRing) (priv : Bytes) (locator name : Name) (content : Bytes) (v : Time × Time) (freshness : Nat) :
    certWire K priv locator name content v freshness =
      mkBlock T.Data (signedElements name 2 freshness content (sigInfoBlock 22 (K.sigType priv) locator (some v)) ++
        [binBlock 23 (K.sign priv (encodeAll (signedElements name 2 freshness content (sigInfoBlock 22 (K.sigType priv) locator (some v)))))]) := rfl

theorem signedElements_types {name : Name} {ct fresh : Nat} {content : Bytes} {typ : Nat} {l : Name} {v : Option (Time × Time)} :
    ∀ e ∈ signedElements name ct fresh content (sigInfoBlock 22 typ l v), 0 < e.typ ∧ e.typ < 2 ^ 32 ∧ e.typ ≠ 23 := by
  intro e he
  simp only [signedElements, List.mem_cons, List.not_mem_nil, or_false] at he
  rcases he with rfl | rfl | rfl | rfl
  · exact ⟨(by decide : 0 < 7), (by decide : 7 < 2 ^ 32), (by decide : 7 ≠ 23)⟩
  · exact ⟨(by decide : 0 < 20), (by decide : 20 < 2 ^ 32), (by decide : 20 ≠ 23)⟩
  · exact ⟨(by decide : 0 < 21), (by decide : 21 < 2 ^ 32), (by decide : 21 ≠ 23)⟩
  · exact ⟨(by decide : 0 < 22), (by decide : 22 < 2 ^ 32), (by decide : 22 ≠ 23)⟩

theorem certWire_fits {K : KeyRing} {priv : Bytes} {locator name : Name} {content : Bytes} {v : Time × Time} {freshness : Nat}
    (hl : (certWire K priv locator name content v freshness).val.length < 2 ^ 64) :
    (∀ e ∈ signedElements name 2 freshness content (sigInfoBlock 22 (K.sigType priv) locator (some v)), e.Fits) ∧
    (K.sign priv (encodeAll (signedElements name 2 freshness content (sigInfoBlock 22 (K.sigType priv) locator (some v))))).length < 2 ^ 64 := by
  rw [certWire_val] at hl
  generalize hs : K.sign priv (encodeAll (signedElements name 2 freshness content (sigInfoBlock 22 (K.sigType priv) locator (some v)))) = sig at hl ⊢
  have hm : ∀ e ∈ signedElements name 2 freshness content (sigInfoBlock 22 (K.sigType priv) locator (some v)) ++ [binBlock 23 sig], e.val.length < 2 ^ 64 :=
    fun e he => Nat.lt_of_le_of_lt (mem_encodeAll_length he) hl
  refine ⟨fun e he => ?_, hm (binBlock 23 sig) (by simp)⟩
  obtain ⟨h1, h2, _⟩ := signedElements_types e he
  exact ⟨h1, h2, hm e (by simp [he])⟩

theorem decodePacket_certWire {K : KeyRing} {priv : Bytes} {locator name : Name} {content : Bytes} {v : Time × Time} {freshness : Nat}
    (hf : freshness < 2 ^ 64) (hk : NameFits locator) (hn : NameFits name)
    (hl : (certWire K priv locator name content v freshness).val.length < 2 ^ 64) :
    decodePacket (certWire K priv locator name content v freshness) = some (signedFields K priv locator name content v freshness) := by
  obtain ⟨f1, f2⟩ := certWire_fits hl
  have hinfo : (sigInfoBlock 22 (K.sigType priv) locator (some v)).Fits := f1 _ (by simp [signedElements])
  have hsub : ∀ e ∈ [nniBlock 27 (K.sigType priv), nestedBlock 28 (nameBlock locator)] ++ (some v).toList.map validityBlock, e.Fits := by
    refine fits_of_total ?_ hinfo.2.2
    intro e he
    simp only [Option.toList_some, List.map_cons, List.map_nil, List.cons_append, List.nil_append, List.mem_cons, List.not_mem_nil, or_false] at he
    rcases he with rfl | rfl | rfl
    · exact ⟨(by decide : 0 < 27), (by decide : 27 < 2 ^ 32)⟩
    · exact ⟨(by decide : 0 < 28), (by decide : 28 < 2 ^ 32)⟩
    · exact ⟨(by decide : 0 < 253), (by decide : 253 < 2 ^ 32)⟩
  have hi := sigInfoOf_block 22 hk (some v) hsub
  have hm := metaInfoOf_block 2 freshness (by omega) hf
  have hname := nameOfBlock_nameBlock name hn.1
  rw [certWire_val]
  unfold signedFields
  generalize hs : K.sign priv (encodeAll (signedElements name 2 freshness content (sigInfoBlock 22 (K.sigType priv) locator (some v)))) = sig at f2 ⊢
  have hpar : (mkBlock T.Data (signedElements name 2 freshness content (sigInfoBlock 22 (K.sigType priv) locator (some v)) ++ [binBlock 23 sig])).elements =
      .ok (signedElements name 2 freshness content (sigInfoBlock 22 (K.sigType priv) locator (some v)) ++ [binBlock 23 sig]) := by
    refine elements_mkBlock _ _ ?_
    intro e he
    rcases List.mem_append.mp he with he | he
    · exact f1 e he
    · rw [List.mem_singleton.mp he]
      exact binBlock_fits 23 sig (by omega) (by omega) f2
  unfold decodePacket
  rw [if_pos (show (mkBlock T.Data _).typ = T.Data from rfl), hpar]
  generalize hib : sigInfoBlock 22 (K.sigType priv) locator (some v) = ib at hi ⊢
  have hit : ib.typ = 22 := by rw [← hib]; rfl
  generalize hmb : metaInfoBlock 2 freshness = mb at hm
  have hmt : mb.typ = 20 := by rw [← hmb]; rfl
  generalize K.sigType priv % 2 ^ 64 = k at hi ⊢
  unfold signedElements
  rw [hmb]
  have c1 : ∀ p : DataPacket, p.last = 1 → packetStep p mb = some { p with last := 2, contentType := 2, freshness := freshness } := by
    intro p hp
    unfold packetStep
    rw [if_pos hmt, if_neg (by omega), hm]
    rfl
  have c2 : ∀ p : DataPacket, p.last = 2 → packetStep p (binBlock 21 content) = some { p with last := 3, content := some content } := by
    intro p hp
    unfold packetStep
    rw [if_neg (by simp [binBlock]), if_pos (show (binBlock 21 content).typ = 21 from rfl), if_neg (by omega)]
    rfl
  have c3 : ∀ p : DataPacket, p.last = 3 →
      packetStep p ib = some { p with last := 4, sigInfo := some ⟨some k, some (some locator), (some v).toList.map validityBlock⟩ } := by
    intro p hp
    unfold packetStep
    rw [if_neg (by omega), if_neg (by omega), if_pos hit, if_neg (by omega), hi]
    rfl
  have c4 : ∀ p : DataPacket, p.last = 4 → packetStep p (binBlock 23 sig) = some { p with last := 5, sigValue := some sig } := by
    intro p hp
    unfold packetStep
    rw [if_neg (by simp [binBlock]), if_neg (by simp [binBlock]), if_neg (by simp [binBlock]), if_pos (show (binBlock 23 sig).typ = 23 from rfl),
      if_neg (by omega)]
    rfl
  have hpf : packetFields ([nameBlock name, mb, binBlock 21 content, ib] ++ [binBlock 23 sig]) =
      some { name := name, last := 5, contentType := 2, freshness := freshness, content := some content,
             sigInfo := some ⟨some k, some (some locator), [validityBlock v]⟩, sigValue := some sig } := by
    unfold packetFields
    dsimp only [List.cons_append, List.nil_append]
    rw [if_pos (show (nameBlock name).typ = 7 from rfl), hname]
    simp only [toOption, Option.bind_eq_bind, Option.bind_some, List.foldlM_cons, List.foldlM_nil]
    rw [c1 _ rfl, Option.bind_some, c2 _ rfl, Option.bind_some, c3 _ rfl, Option.bind_some, c4 _ rfl, Option.bind_some]
    rfl
  simp only [toOption, Option.bind_eq_bind, Option.bind_some]
  rw [hpf]
  rfl

/-! ## Replies and Interests -/

theorem encode_length_atMost (b : Block) : b.encode.length ≤ b.val.length + 18 := by
  have h1 := varNumber_atMost b.typ
  have h2 := varNumber_atMost b.val.length
  unfold Block.encode
  simp only [List.length_append]
  omega

theorem sigInfoBlock_fits {t typ : Nat} {l : Name} (ht : 0 < t ∧ t < 2 ^ 32) (hl : (encodeAll l).length < 2 ^ 32) :
    (sigInfoBlock t typ l none).Fits := by
  refine ⟨ht.1, ht.2, ?_⟩
  have h1 := encode_length_atMost (nniBlock 27 typ)
  have h2 := encode_length_atMost (nestedBlock 28 (nameBlock l))
  have h3 := encode_length_atMost (nameBlock l)
  have h4 : (nniBlock 27 typ).val.length ≤ 8 := by
    have : (nniBytes (typ % 2 ^ 64)).length = 1 ∨ (nniBytes (typ % 2 ^ 64)).length = 2 ∨ (nniBytes (typ % 2 ^ 64)).length = 4 ∨ (nniBytes (typ % 2 ^ 64)).length = 8 :=
      nniBytes_length _
    show (nniBytes (typ % 2 ^ 64)).length ≤ 8
    omega
  have h5 : (nestedBlock 28 (nameBlock l)).val.length = (nameBlock l).encode.length := rfl
  have h6 : (nameBlock l).val.length = (encodeAll l).length := rfl
  have e : (sigInfoBlock t typ l none).val = (nniBlock 27 typ).encode ++ (nestedBlock 28 (nameBlock l)).encode := by
    simp [sigInfoBlock, mkBlock, encodeAll]
  rw [e, List.length_append]
  omega

theorem metaInfoBlock_fits (ct fresh : Nat) : (metaInfoBlock ct fresh).Fits := by
  refine ⟨(by decide : 0 < 20), (by decide : 20 < 2 ^ 32), ?_⟩
  have hn : ∀ t n, (nniBlock t n).encode.length ≤ 26 := by
    intro t n
    have h1 := encode_length_atMost (nniBlock t n)
    have : (nniBytes (n % 2 ^ 64)).length = 1 ∨ (nniBytes (n % 2 ^ 64)).length = 2 ∨ (nniBytes (n % 2 ^ 64)).length = 4 ∨ (nniBytes (n % 2 ^ 64)).length = 8 :=
      nniBytes_length _
    have h2 : (nniBlock t n).val.length = (nniBytes (n % 2 ^ 64)).length := rfl
    omega
  have h1 := hn 24 ct
  have h2 := hn 25 fresh
  show (encodeAll _).length < _
  split <;> split <;> simp [encodeAll] <;> omega

theorem valueOf_last {t : Nat} {es : List Block} {v : Bytes} (hf : ∀ e ∈ es, e.Fits) (hn : ∀ e ∈ es, e.typ ≠ t) (ht : 0 < t ∧ t < 2 ^ 32)
    (hv : v.length < 2 ^ 64) : valueOf t (encodeAll es ++ (binBlock t v).encode) = some v := by
  have e1 : encodeAll es ++ (binBlock t v).encode = encodeAll (es ++ [binBlock t v]) := by rw [encodeAll_append]; simp [encodeAll]
  unfold valueOf
  rw [e1, parse_encodeAll _ (by
    intro e he
    rcases List.mem_append.mp he with he | he
    · exact hf e he
    · rw [List.mem_singleton.mp he]
      exact binBlock_fits t v ht.1 ht.2 hv)]
  show ((es ++ [binBlock t v]).find? (fun e => e.typ == t)).map (·.val) = some v
  rw [List.find?_append, List.find?_eq_none.mpr (by intro e he; simpa using hn e he)]
  simp [binBlock]

theorem octetsBefore_whole (t : Nat) {es : List Block} (hf : ∀ e ∈ es, e.Fits) (hn : ∀ e ∈ es, e.typ ≠ t) :
    octetsBefore t (encodeAll es).length (encodeAll es) = encodeAll es := by
  cases es with
  | nil => rfl
  | cons e es =>
    have h := octetsBefore_encode t hf hn (rest := []) (Or.inl rfl) (encodeAll (e :: es)).length
    rw [List.append_nil] at h
    refine h ?_
    have h1 := encodeAll_length_ge es
    have h2 : 1 < e.encode.length := by
      have a := varNumber_length_pos e.typ
      have b := varNumber_length_pos e.val.length
      unfold Block.encode
      simp only [List.length_append]
      omega
    rw [show encodeAll (e :: es) = e.encode ++ encodeAll es from by simp [encodeAll], List.length_append, List.length_cons]
    omega

theorem octetsBefore_value (t : Nat) {es : List Block} (hf : ∀ e ∈ es, e.Fits) (hn : ∀ e ∈ es, e.typ ≠ t) {b : Block} (hb : b.Fits) (ht : b.typ = t)
    (more : Bytes) : octetsBefore t (encodeAll es ++ (b.encode ++ more)).length (encodeAll es ++ (b.encode ++ more)) = encodeAll es := by
  refine octetsBefore_encode t hf hn (Or.inr ⟨b, more, readElement_encode b hb more, ht⟩) _ ?_
  have h1 := encodeAll_length_ge es
  have h2 := encode_length_pos b
  rw [List.length_append, List.length_append]
  omega

theorem replySigned_rest {name : Name} {content m s : Block} (hm : m.Fits) (hs : s.Fits) (tm : m.typ = 20) (ts : s.typ = 22) (v : Bytes)
    (hv : v.length < 2 ^ 64) :
    replySigned name content (encodeAll [m, s] ++ (binBlock 23 v).encode) = (nameBlock name).encode ++ m.encode ++ content.encode ++ s.encode ∧
    replySigned name content (encodeAll [m, s]) = (nameBlock name).encode ++ m.encode ++ content.encode ++ s.encode := by
  have hb := binBlock_fits 23 v (by omega) (by omega) hv
  have e2 : encodeAll [m, s] = m.encode ++ s.encode := by simp [encodeAll]
  have e1 : encodeAll [m] = m.encode := by simp [encodeAll]
  have hf2 : ∀ e ∈ [m, s], e.Fits := by simp [hm, hs]
  have hn2 : ∀ e ∈ [m, s], e.typ ≠ 23 := by simp [tm, ts]
  have hf1 : ∀ e ∈ [m], e.Fits := by simp [hm]
  have hn1 : ∀ e ∈ [m], e.typ ≠ 22 := by simp [tm]
  have a1 := octetsBefore_value 22 hf1 hn1 hs ts (binBlock 23 v).encode
  have a2 := octetsBefore_value 22 hf1 hn1 hs ts []
  have b1 := octetsBefore_value 23 hf2 hn2 hb rfl []
  have b2 := octetsBefore_whole 23 hf2 hn2
  rw [e1, ← List.append_assoc, ← e2] at a1
  rw [e1, List.append_nil, ← e2] at a2
  rw [List.append_nil] at b1
  unfold replySigned
  dsimp only
  rw [a1, a2, b1, b2, e2, List.drop_left' rfl]
  exact ⟨rfl, rfl⟩

theorem replyInfo_mk {K : KeyRing} (hK : K.Lawful) (id : Name) :
    ∃ m s, replyInfo K id = [m, s] ∧ m.Fits ∧ s.Fits ∧ m.typ = 20 ∧ s.typ = 22 :=
  ⟨_, _, rfl, metaInfoBlock_fits _ _, sigInfoBlock_fits (by omega) (hK.id_locator id).2, rfl, rfl⟩

theorem verifyReply_own {K : KeyRing} (hK : K.Lawful) (id name : Name) (content : Block) (signer : Cert)
    (h : signer.content = some (K.pubOf (K.idPriv id))) :
    verifyReply K { name := name, content := content, sig := replySig K id name content } signer = true := by
  obtain ⟨m, s, e, hm, hs, tm, ts⟩ := replyInfo_mk hK id
  unfold verifyReply replySig
  rw [e]
  generalize hsig : K.sign (K.idPriv id) (replySigned name content (encodeAll [m, s])) = v
  have hv : v.length < 2 ^ 64 := by
    have := hK.sign_length (K.idPriv id) (replySigned name content (encodeAll [m, s]))
    rw [hsig] at this
    omega
  dsimp only
  rw [h, valueOf_last (by simp [hm, hs]) (by simp [tm, ts]) (by omega) hv]
  dsimp only
  obtain ⟨r1, r2⟩ := replySigned_rest (name := name) (content := content) hm hs tm ts v hv
  rw [r1, ← hsig, r2]
  exact hK.verifies _ _

theorem interestSigned_rest {name : Name} {params s : Block} (hs : s.Fits) (ts : s.typ = 44) (v : Bytes) (hv : v.length < 2 ^ 64) :
    interestSigned name params (s.encode ++ (binBlock 46 v).encode) = encodeAll name ++ params.encode ++ s.encode ∧
    interestSigned name params s.encode = encodeAll name ++ params.encode ++ s.encode := by
  have hb := binBlock_fits 46 v (by omega) (by omega) hv
  have e1 : encodeAll [s] = s.encode := by simp [encodeAll]
  have hf1 : ∀ e ∈ [s], e.Fits := by simp [hs]
  have hn1 : ∀ e ∈ [s], e.typ ≠ 46 := by simp [ts]
  have a1 := octetsBefore_value 46 hf1 hn1 hb rfl []
  have a2 := octetsBefore_whole 46 hf1 hn1
  rw [e1, List.append_nil] at a1
  rw [e1] at a2
  unfold interestSigned
  rw [a1, a2]
  exact ⟨rfl, rfl⟩

theorem verifyInterest_own {K : KeyRing} (hK : K.Lawful) {key : Name} {priv : Bytes} (hk : K.keyPriv key = some priv) (name : Name) (params : Block)
    (digest : Bytes) (signer : Cert) (h : signer.content = some (K.pubOf priv)) :
    verifyInterestOctets K { name := name ++ [⟨2, digest⟩], params := some params, sig := interestSig K key name params } signer = true := by
  have hs : (sigInfoBlock 44 (K.sigType priv) (K.keyLocator key) none).Fits := sigInfoBlock_fits (by omega) (hK.key_locator key).2
  have ts : (sigInfoBlock 44 (K.sigType priv) (K.keyLocator key) none).typ = 44 := rfl
  unfold verifyInterestOctets interestSig
  rw [hk]
  dsimp only [Option.getD_some]
  generalize sigInfoBlock 44 (K.sigType priv) (K.keyLocator key) none = s at hs ts
  generalize hsig : K.sign priv (interestSigned name params s.encode) = v
  have hv : v.length < 2 ^ 64 := by
    have := hK.sign_length priv (interestSigned name params s.encode)
    rw [hsig] at this
    omega
  have e1 : encodeAll [s] = s.encode := by simp [encodeAll]
  have hval := valueOf_last (t := 46) (es := [s]) (v := v) (by simp [hs]) (by simp [ts]) (by omega) hv
  rw [e1] at hval
  rw [h, hval, List.getLast?_concat, List.dropLast_concat]
  dsimp only
  obtain ⟨r1, r2⟩ := interestSigned_rest (name := name) (params := params) hs ts v hv
  rw [r1, ← hsig, r2]
  simpa using hK.verifies _ _

/-! ## Texts determine what is in them -/

theorem encode_append_inj {a b : Block} {r s : Bytes} (ha : a.Fits) (hb : b.Fits) (h : a.encode ++ r = b.encode ++ s) : a = b ∧ r = s := by
  have h1 := readElement_encode a ha r
  rw [h, readElement_encode b hb s] at h1
  have h2 := Res.ok.inj h1
  exact ⟨(Prod.mk.inj h2).1.symm, (Prod.mk.inj h2).2.symm⟩

theorem encode_inj {a b : Block} (ha : a.Fits) (hb : b.Fits) (h : a.encode = b.encode) : a = b :=
  (encode_append_inj (r := []) (s := []) ha hb (by rw [h])).1

theorem encodeAll_until {t : Nat} {as bs : List Block} {x y : Block} {r s : Bytes} (ha : ∀ e ∈ as, e.Fits ∧ e.typ ≠ t) (hb : ∀ e ∈ bs, e.Fits ∧ e.typ ≠ t)
    (hx : x.Fits ∧ x.typ = t) (hy : y.Fits ∧ y.typ = t) (h : encodeAll as ++ (x.encode ++ r) = encodeAll bs ++ (y.encode ++ s)) : as = bs ∧ x = y := by
  have ec : ∀ (e : Block) (es : List Block) (r : Bytes), encodeAll (e :: es) ++ r = e.encode ++ (encodeAll es ++ r) := by
    intro e es r; simp [encodeAll]
  induction as generalizing bs with
  | nil =>
    cases bs with
    | nil => exact ⟨rfl, (encode_append_inj hx.1 hy.1 h).1⟩
    | cons b bs =>
      have hb1 := hb b (List.mem_cons_self ..)
      rw [ec] at h
      have e1 := (encode_append_inj hx.1 hb1.1 h).1
      exact absurd (e1 ▸ hx.2) hb1.2
  | cons a as ih =>
    have ha1 := ha a (List.mem_cons_self ..)
    cases bs with
    | nil =>
      rw [ec] at h
      have e1 := (encode_append_inj ha1.1 hy.1 h).1
      exact absurd (e1 ▸ hy.2) ha1.2
    | cons b bs =>
      have hb1 := hb b (List.mem_cons_self ..)
      rw [ec, ec] at h
      obtain ⟨e1, e2⟩ := encode_append_inj ha1.1 hb1.1 h
      obtain ⟨e3, e4⟩ := ih (fun e he => ha e (List.mem_cons_of_mem _ he)) (fun e he => hb e (List.mem_cons_of_mem _ he)) e2
      exact ⟨by rw [e1, e3], e4⟩

theorem encodeAll_three (a b c : Block) : encodeAll [a, b, c] = encodeAll [a, b] ++ c.encode := by simp [encodeAll]

theorem binBlock_self {b : Block} {t : Nat} (h : b.typ = t) : binBlock t b.val = b := by cases b; cases h; rfl

/-- the text that is verified is the text of the reply -/
theorem replySigned_text {d : Data} {m s v : Block} (hsig : d.sig = encodeAll [m, s, v]) (tm : m.typ = 20) (ts : s.typ = 22) (tv : v.typ = 23)
    (hm : m.Fits) (hs : s.Fits) (hv : v.Fits) :
    replySigned d.name d.content d.sig = encodeAll [nameBlock d.name, m, d.content, s] ∧ valueOf 23 d.sig = some v.val := by
  have e : d.sig = encodeAll [m, s] ++ (binBlock 23 v.val).encode := by rw [hsig, encodeAll_three, binBlock_self tv]
  rw [e, (replySigned_rest hm hs tm ts v.val hv.2.2).1, valueOf_last (by simp [hm, hs]) (by simp [tm, ts]) (by omega) hv.2.2]
  refine ⟨by simp [encodeAll], rfl⟩

theorem interestSigned_text {name : Name} {params : Block} {sig : Bytes} {s v : Block} (hsig : sig = encodeAll [s, v]) (ts : s.typ = 44) (tv : v.typ = 46)
    (hs : s.Fits) (hv : v.Fits) :
    interestSigned name params sig = encodeAll (name ++ [params, s]) ∧ valueOf 46 sig = some v.val := by
  have e0 : encodeAll [s] = s.encode := by simp [encodeAll]
  have e : sig = encodeAll [s] ++ (binBlock 46 v.val).encode := by rw [hsig, binBlock_self tv]; simp [encodeAll]
  rw [e, valueOf_last (by simp [hs]) (by simp [ts]) (by omega) hv.2.2, e0, (interestSigned_rest hs ts v.val hv.2.2).1]
  refine ⟨by simp [encodeAll], rfl⟩

end Ndncert
