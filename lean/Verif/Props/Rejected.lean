import Verif.Props.Encoding
import Verif.Lemmas.ClientSafe
import Verif.Lemmas.CaNew

/-! # C10: an unrecognised critical element makes decoding throw -/

namespace Ndncert.Props

theorem throws_of {α : Type} {r : Res α} (h1 : ∀ a, r ≠ .ok a) (h2 : ∀ u, r ≠ .ub u) : ∃ e, r = .exc e := by
  cases r with
  | ok a => exact absurd rfl (h1 a)
  | exc e => exact ⟨e, rfl⟩
  | ub u => exact absurd rfl (h2 u)

theorem probeParamsLoop_no_ub (u : Ub) : ∀ (n : Nat) (es : List Block) (acc : MMap), es.length ≤ n → probeParamsLoop acc es ≠ .ub u := by
  intro n
  induction n with
  | zero => intro es acc hn; cases es <;> simp [probeParamsLoop] at hn ⊢
  | succ n ih =>
    intro es acc hn
    match es with
    | [] => simp [probeParamsLoop]
    | [a] => unfold probeParamsLoop; split <;> simp
    | a :: b :: rest =>
      unfold probeParamsLoop
      split
      · exact ih _ _ (by simp at hn; omega)
      · split
        · simp
        · exact ih _ _ (by simp at hn ⊢; omega)

/-- C10, critical elements: an unrecognised one makes every decoder throw. (The one of NEW/REVOKE replies may copy a Salt or RequestId element
over the end of an array before it comes to that element, see C06; without such an element it throws, too.) -/
theorem C10_rejected_throws (C : Crypto) (b : Block) (es : List Block) (x : Block) (hb : parse b.val = .ok es) (hmem : x ∈ es) (hx : Critical x.typ) :
    (∀ ty, x.typ ∉ knownRequestParams ty → ∃ e, requestParamsDecode C (some b) ty = .exc e) ∧
    (x.typ ∉ knownProbeParams → ∃ e, probeParamsDecode b = .exc e) ∧
    (x.typ ∉ knownProbeReply → ∀ names cas, ∃ e, probeDecode b names cas = .exc e) ∧
    (x.typ ∉ knownInfo → ∃ e, infoDecode C b = .exc e) ∧
    (x.typ ∉ knownRequestReply → (∀ y ∈ es, (y.typ = 149 → y.val.length ≤ 32) ∧ (y.typ = 151 → y.val.length ≤ 8)) →
      ∀ salt id, salt.length = 32 → id.length = 8 → ∃ e, (requestDecode b salt id).2 = .exc e) := by
  refine ⟨fun ty hk => throws_of (C10_rejected_request_params C ty b es x hb hmem hx hk) (fun u => requestParamsDecode_no_ub C _ ty u), fun hk => throws_of (C10_rejected_probe_params b es x hb hmem hx hk) ?_,
    fun hk names cas => throws_of (C10_rejected_probe_reply b es x names cas hb hmem hx hk) (fun u => probeDecode_no_ub _ _ _ u),
    fun hk => throws_of (C10_rejected_info C b es x hb hmem hx hk) (fun u => infoDecode_no_ub _ u), ?_⟩
  · intro u
    have hb1 : b.elements = .ok es := hb
    simp only [probeParamsDecode, hb1, Res.bind_ok]
    exact probeParamsLoop_no_ub u _ _ _ (Nat.le_refl _)
  · intro hk hlen salt id hs hid
    refine throws_of (C10_rejected_request_reply b es x salt id hb hmem hx hk) (C06_partial b salt id hs hid ?_).1
    intro es' hes' e he
    rw [hb] at hes'
    injection hes' with hes'
    subst hes'
    exact hlen e he

/-- a NEW/REVOKE reply with an element of type 155, which is critical -/
example : ∃ (b : Block) (es : List Block) (x : Block), parse b.val = .ok es ∧ x ∈ es ∧ Critical x.typ ∧ x.typ ∉ knownRequestReply ∧ (∀ y ∈ es, (y.typ = 149 → y.val.length ≤ 32) ∧ (y.typ = 151 → y.val.length ≤ 8)) ∧ es.length = 2 :=
  ⟨mkBlock 21 [binBlock 151 [1, 2, 3, 4, 5, 6, 7, 8], binBlock 155 []], [binBlock 151 [1, 2, 3, 4, 5, 6, 7, 8], binBlock 155 []], binBlock 155 [], by decide +kernel, by simp, by simp [Critical, binBlock], by simp [knownRequestReply, binBlock],
    by decide +kernel, rfl⟩

end Ndncert.Props
