import Verif.Lemmas.Tlv
import Verif.Model.Encoders

namespace Ndncert

/-! ### foldlM in `Res` -/

theorem foldlM_append {σ : Type} (f : σ → Block → Res σ) (s : σ) (as bs : List Block) :
    (as ++ bs).foldlM f s = as.foldlM f s >>= fun s' => bs.foldlM f s' := by
  induction as generalizing s with
  | nil => simp
  | cons a as ih =>
    simp only [List.cons_append, List.foldlM_cons]
    cases f s a <;> simp [ih]

theorem foldlM_insert {σ : Type} (f : σ → Block → Res σ) (x : Block) (hx : ∀ s, f s x = .ok s)
    (s : σ) (as bs : List Block) : (as ++ x :: bs).foldlM f s = (as ++ bs).foldlM f s := by
  rw [foldlM_append, foldlM_append]
  congr 1
  funext s'
  simp [hx]

theorem foldlM_reject {σ : Type} (f : σ → Block → Res σ) (x : Block) (hx : ∀ s s', f s x ≠ .ok s')
    {es : List Block} (hmem : x ∈ es) (s s' : σ) : es.foldlM f s ≠ .ok s' := by
  induction es generalizing s with
  | nil => cases hmem
  | cons e es ih =>
    simp only [List.foldlM_cons]
    intro h
    rw [Res.bind_eq_ok] at h
    obtain ⟨s1, h1, h2⟩ := h
    cases hmem with
    | head => exact hx _ _ h1
    | tail _ hm => exact ih hm _ h2

theorem loopRes_insert {σ : Type} (f : σ → Block → Res σ) (x : Block) (hx : ∀ s, f s x = .ok s)
    (s : σ) (as bs : List Block) : loopRes f s (as ++ x :: bs) = loopRes f s (as ++ bs) := by
  induction as generalizing s with
  | nil => simp [loopRes, hx]
  | cons a as ih =>
    simp only [List.cons_append, loopRes]
    cases f s a <;> simp [ih]

theorem loopRes_reject {σ : Type} (f : σ → Block → Res σ) (x : Block) (hx : ∀ s s', f s x ≠ .ok s')
    {es : List Block} (hmem : x ∈ es) (s : σ) : (loopRes f s es).2 ≠ .ok () := by
  induction es generalizing s with
  | nil => cases hmem
  | cons e es ih =>
    simp only [loopRes]
    cases h : f s e with
    | ok s' =>
      cases hmem with
      | head => exact absurd h (hx _ _)
      | tail _ hm => exact ih hm _
    | exc e => simp
    | ub u => simp

theorem loopRes_append {σ : Type} (f : σ → Block → Res σ) (s : σ) (as bs : List Block) :
    loopRes f s (as ++ bs) =
      match loopRes f s as with
      | (s', .ok ()) => loopRes f s' bs
      | r => r := by
  induction as generalizing s with
  | nil => simp [loopRes]
  | cons a as ih =>
    simp only [List.cons_append, loopRes]
    cases f s a <;> simp [ih]

/-! ### lists of elements that fit -/

theorem fits_of_map_bin (t : Nat) (h0 : 0 < t) (h1 : t < 2 ^ 32) {l : List Bytes} (h : ∀ s ∈ l, s.length < 2 ^ 64) :
    ∀ b ∈ l.map (binBlock t), b.Fits := by
  intro b hb
  rw [List.mem_map] at hb
  obtain ⟨s, hs, rfl⟩ := hb
  exact binBlock_fits _ _ h0 h1 (h s hs)

/-! ### error decoder -/

theorem errorFold_none (es0 : List Block) {es : List Block}
    (h : ∀ e ∈ es, e.typ ≠ T.ErrorCode ∧ e.typ ≠ T.ErrorInfo) (a : ErrorAcc) :
    ∃ n, es.foldlM (errorStep es0) a = .ok { a with otherCritical := n } := by
  induction es generalizing a with
  | nil => exact ⟨_, rfl⟩
  | cons e es ih =>
    have he := h e (by simp)
    simp only [List.foldlM_cons, errorStep, if_neg he.1, if_neg he.2]
    split
    · obtain ⟨n, hn⟩ := ih (fun e h' => h e (by simp [h'])) { a with otherCritical := a.otherCritical + 1 }
      exact ⟨n, by simpa using hn⟩
    · obtain ⟨n, hn⟩ := ih (fun e h' => h e (by simp [h'])) a
      exact ⟨n, by simpa using hn⟩

theorem errorDecode_none {b : Block} {es : List Block} (hb : b.elements = .ok es)
    (h : ∀ e ∈ es, e.typ ≠ T.ErrorCode ∧ e.typ ≠ T.ErrorInfo) : errorDecode b = (0, []) := by
  obtain ⟨n, hn⟩ := errorFold_none es h {}
  simp [errorDecode, errorDecodeBody, hb, hn]

/-! ### NEW/REVOKE parameters -/

/-- the certificate carried by a CertRequest / CertToRevoke element -/
def certOfItem (C : Crypto) (item : Block) : Res Cert := do
  let es ← item.elements
  let db ← getElem es T.Data
  certOfBlock C db

/-- the type of the certificate element for a request type -/
def certElemType : RequestType → Option Nat
  | .new => some T.CertRequest
  | .revoke => some T.CertToRevoke
  | _ => none

theorem requestParamsStep_eq (C : Crypto) (ty : RequestType) (a : ReqParamsAcc) (item : Block) :
    requestParamsStep C ty a item =
      if item.typ = T.EcdhPub then .ok { a with pub := item.val, pubCount := a.pubCount + 1 }
      else if certElemType ty = some item.typ then
        (certOfItem C item) >>= fun c => .ok { a with cert := some c, certCount := a.certCount + 1 }
      else if isCriticalType item.typ then .exc .runtime
      else .ok a := by
  unfold requestParamsStep certOfItem
  split
  · rfl
  · have : ((ty = .new ∧ item.typ = T.CertRequest) ∨ (ty = .revoke ∧ item.typ = T.CertToRevoke)) ↔
        certElemType ty = some item.typ := by
      cases ty <;> simp [certElemType, eq_comm]
    simp only [this]
    split
    · cases item.elements with
      | ok es => cases h : getElem es T.Data <;> simp [h]
      | exc e => rfl
      | ub u => rfl
    · rfl

theorem requestParams_fold (C : Crypto) (ty : RequestType) {es : List Block} {a a' : ReqParamsAcc}
    (h : es.foldlM (requestParamsStep C ty) a = .ok a') :
    a'.pubCount = a.pubCount + (es.filter (fun e => e.typ = T.EcdhPub)).length ∧
    a'.pub = ((es.filter (fun e => e.typ = T.EcdhPub)).map (·.val)).getLastD a.pub ∧
    a'.certCount = a.certCount + (es.filter (fun e => certElemType ty = some e.typ)).length ∧
    (match (es.filter (fun e => certElemType ty = some e.typ)).getLast? with
      | some e => ∃ c, certOfItem C e = .ok c ∧ a'.cert = some c
      | none => a'.cert = a.cert) ∧
    (∀ e ∈ es, e.typ ≠ T.EcdhPub → certElemType ty ≠ some e.typ → isCriticalType e.typ = false) := by
  induction es generalizing a with
  | nil =>
    simp at h; subst h; simp
  | cons e es ih =>
    simp only [List.foldlM_cons] at h
    rw [Res.bind_eq_ok] at h
    obtain ⟨a1, h1, h2⟩ := h
    have hi := ih h2
    obtain ⟨i1, i2, i3, i4, i5⟩ := hi
    rw [requestParamsStep_eq] at h1
    split at h1
    · rename_i ht
      cases h1
      have hc : certElemType ty ≠ some e.typ := by rw [ht]; cases ty <;> simp [certElemType]
      refine ⟨?_, ?_, ?_, ?_, ?_⟩
      · rw [i1]; simp [ht]; omega
      · rw [i2, List.filter_cons_of_pos (by simpa using ht), List.map_cons, List.getLastD_cons]
      · rw [i3]; simp [hc]
      · simpa [hc] using i4
      · intro x hx h3 h4
        rcases List.mem_cons.mp hx with rfl | hx
        · exact absurd ht h3
        · exact i5 x hx h3 h4
    · rename_i ht
      split at h1
      · rename_i hc
        rw [Res.bind_eq_ok] at h1
        obtain ⟨c, hc1, hc2⟩ := h1
        cases hc2
        refine ⟨?_, ?_, ?_, ?_, ?_⟩
        · rw [i1]; simp [ht]
        · rw [i2]; simp [ht]
        · rw [i3]; simp [hc]; omega
        · rw [List.filter_cons_of_pos (by simp [hc])]
          rw [List.getLast?_cons]
          cases hl : (es.filter (fun e => certElemType ty = some e.typ)).getLast? with
          | none => rw [hl] at i4; simp at i4 ⊢; exact ⟨c, hc1, i4⟩
          | some x => rw [hl] at i4; simpa using i4
        · intro x hx h3 h4
          rcases List.mem_cons.mp hx with rfl | hx
          · exact absurd hc h4
          · exact i5 x hx h3 h4
      · rename_i hc
        split at h1
        · cases h1
        · rename_i hcrit
          cases h1
          refine ⟨?_, ?_, ?_, ?_, ?_⟩
          · rw [i1]; simp [ht]
          · rw [i2]; simp [ht]
          · rw [i3]; simp [hc]
          · simpa [hc] using i4
          · intro x hx h3 h4
            rcases List.mem_cons.mp hx with rfl | hx
            · simpa using hcrit
            · exact i5 x hx h3 h4

theorem requestParams_fold_ok (C : Crypto) (ty : RequestType) {es : List Block}
    (hcrit : ∀ e ∈ es, e.typ ≠ T.EcdhPub → certElemType ty ≠ some e.typ → isCriticalType e.typ = false)
    (hcert : ∀ e ∈ es, certElemType ty = some e.typ → ∃ c, certOfItem C e = .ok c) (a : ReqParamsAcc) :
    ∃ a', es.foldlM (requestParamsStep C ty) a = .ok a' := by
  induction es generalizing a with
  | nil => exact ⟨a, rfl⟩
  | cons e es ih =>
    have ih' := ih (fun x hx => hcrit x (by simp [hx])) (fun x hx => hcert x (by simp [hx]))
    simp only [List.foldlM_cons, requestParamsStep_eq]
    split
    · simpa using ih' _
    · rename_i ht
      split
      · rename_i hc
        obtain ⟨c, hc1⟩ := hcert e (by simp) hc
        rw [hc1]; simpa using ih' _
      · rename_i hc
        rw [if_neg (by simp [hcrit e (by simp) ht hc])]
        simpa using ih' _

/-- exact characterisation of a successful decoding -/
theorem requestParamsDecode_ok_iff (C : Crypto) (ty : RequestType) (b : Block) (pub : Bytes) (cert : Cert) :
    requestParamsDecode C (some b) ty = .ok (pub, cert) ↔
    ∃ es, b.elements = .ok es ∧ (es.filter (fun e => e.typ = T.EcdhPub)).map (·.val) = [pub] ∧
      (∃ e, es.filter (fun e => certElemType ty = some e.typ) = [e] ∧ certOfItem C e = .ok cert) ∧
      (∀ e ∈ es, e.typ ≠ T.EcdhPub → certElemType ty ≠ some e.typ → isCriticalType e.typ = false) := by
  constructor
  · intro h
    unfold requestParamsDecode at h
    rw [Res.bind_eq_ok] at h
    obtain ⟨es, he, h⟩ := h
    rw [Res.bind_eq_ok] at h
    obtain ⟨a, ha, h⟩ := h
    obtain ⟨i1, i2, i3, i4, i5⟩ := requestParams_fold C ty ha
    split at h
    · cases h
    · rename_i hn
      refine ⟨es, he, ?_, ?_, i5⟩
      · have hl : (es.filter (fun e => e.typ = T.EcdhPub)).length = 1 := by
          simp only [Nat.zero_add] at i1; omega
        obtain ⟨x, hx⟩ := List.length_eq_one_iff.mp hl
        rw [hx] at i2 ⊢
        split at h
        · cases h; simpa using i2.symm
        · cases h
      · have hl : (es.filter (fun e => certElemType ty = some e.typ)).length = 1 := by
          simp only [Nat.zero_add] at i3; omega
        obtain ⟨x, hx⟩ := List.length_eq_one_iff.mp hl
        rw [hx] at i4
        simp only [List.getLast?_singleton] at i4
        obtain ⟨c, hc1, hc2⟩ := i4
        refine ⟨x, hx, ?_⟩
        rw [hc2] at h
        cases h; exact hc1
  · rintro ⟨es, he, hp, ⟨e, hf, hc⟩, hcrit⟩
    have hcert : ∀ x ∈ es, certElemType ty = some x.typ → ∃ c, certOfItem C x = .ok c := by
      intro x hx hxt
      have : x ∈ es.filter (fun e => certElemType ty = some e.typ) := by simp [List.mem_filter, hx, hxt]
      rw [hf] at this
      simp at this; subst this; exact ⟨_, hc⟩
    obtain ⟨a, ha⟩ := requestParams_fold_ok C ty hcrit hcert {}
    obtain ⟨i1, i2, i3, i4, _⟩ := requestParams_fold C ty ha
    rw [hf] at i3 i4
    rw [hp] at i2
    have hl : (es.filter (fun e => e.typ = T.EcdhPub)).length = 1 := by
      have := congrArg List.length hp; simpa using this
    rw [hl] at i1
    simp only [List.getLast?_singleton] at i4
    obtain ⟨c, hc1, hc2⟩ := i4
    rw [hc1] at hc; cases hc
    unfold requestParamsDecode
    simp [he, ha, i1, i3, hc2, i2]

end Ndncert
