import Verif.Spec.Thrown
import Verif.Lemmas.Thrown
import Verif.Props.RequestObject

/-! # C124: what the requester library throws -/

namespace Ndncert.Props

variable {C : Crypto}

theorem isRuntime_of_rt {α : Type} {x : Res α} (h : Rt x) (e : Exc) (he : x.Throws e) : e.IsRuntimeError := by
  cases e with
  | name => exact absurd he h
  | _ => trivial

/-- C124: the functions of the library that read a reply throw nothing but `std::runtime_error`, whatever the reply is and whatever state
the object is in. -/
theorem C124_replies (d : Data) (e : Exc) :
    ((genProfileName d).Throws e → e.IsRuntimeError) ∧
    ((onCaProfileResponse C d).Throws e → e.IsRuntimeError) ∧
    (∀ full, (onCaProfileResponseAfterRedirection C d full).Throws e → e.IsRuntimeError) ∧
    (∀ ca names cas, (onProbeResponse C d ca names cas).Throws e → e.IsRuntimeError) ∧
    (∀ r stack, (onNewResponse C r d stack).2.Throws e → e.IsRuntimeError) ∧
    (∀ r now, (onChallengeResponse C r d now).2.Throws e → e.IsRuntimeError) ∧
    (∀ wire, (onCertFetchResponse C wire).Throws e → e.IsRuntimeError) := by
  have hp : Rt (onCaProfileResponse C d) := by
    refine Rt.bind (infoDecode_rt C _) fun p => ?_
    rt
  refine ⟨isRuntime_of_rt ?_ e, isRuntime_of_rt hp e, fun full => isRuntime_of_rt ?_ e, fun ca names cas => isRuntime_of_rt ?_ e,
    fun r stack => isRuntime_of_rt ?_ e, fun r now => isRuntime_of_rt ?_ e, fun wire => isRuntime_of_rt ?_ e⟩
  · exact Rt.bind (elements_rt _) fun _ => Rt.bind (getElem_rt _ _) fun _ => Rt.bind (nameOfBlock_rt _) fun _ => Rt.ok _
  · refine Rt.bind (infoDecode_rt C _) fun p => ?_
    split
    · rt
    split
    · rt
    · exact hp
  · exact Rt.bind (checkReply_rt C ca d) fun _ => probeDecode_rt _ _ _
  · unfold onNewResponse
    split
    · exact Rt.same (checkReply_rt C r.profile d) ‹_›
    · rt
    dsimp only
    split
    · exact Rt.same (requestDecode_rt d.content stack r.requestId) ‹_›
    · rt
    rt
  · unfold onChallengeResponse
    split
    · exact Rt.same (checkReply_rt C r.profile d) ‹_›
    · rt
    exact challengeDecode_rt C _ r now
  · exact Rt.ofOption (by decide) _

/-- C124: a call on a Request object throws nothing but `std::runtime_error`, except `genNewInterest` for a name below the prefix of the CA
that is not the name of a key. -/
theorem C124_calls (r : Request) (c : ReqCall) (e : Exc) (he : (c.run C r).2.Throws e) :
    e.IsRuntimeError ∨ ∃ key nb na v, c = .genNew key nb na v ∧ r.profile.caPrefix <+: key ∧ ¬ ∃ id x, key = id ++ [gcomp (bytes! "KEY"), x] := by
  cases c with
  | genRevoke cert => cases he
  | onNew d s => exact .inl ((C124_replies (C := C) d e).2.2.2.2.1 r s (as_throws he))
  | onChallenge d now => exact .inl ((C124_replies (C := C) d e).2.2.2.2.2.1 r now (as_throws he))
  | select ch =>
    refine .inl (isRuntime_of_rt (Rt.as ?_ _) e he)
    unfold selectOrContinueChallenge requestedParams
    rt
  | genChallenge m rnd =>
    refine .inl (isRuntime_of_rt (Rt.as ?_ _) e he)
    unfold genChallengeInterest
    split
    · rt
    split
    · rt
    split
    · exact Rt.same (genChallengeTlv_rt _ _ _ _) ‹_›
    · rt
    dsimp only
    split
    · exact Rt.same (encodeAes_rt C _ _ _ _ _ _) ‹_›
    · rt
    rt
  | genNew key nb na v =>
    have h := as_throws he
    unfold genNewInterest at h
    split at h
    · cases h
    rename_i hp
    split at h
    · cases h
    split at h
    · rename_i e' hk
      refine .inr ⟨key, nb, na, v, rfl, (isPrefixOf_iff _ _).mp (by simpa using hp), ?_⟩
      rintro ⟨id, x, hx⟩
      rw [identityOfKeyName_ok.mpr ⟨x, hx⟩] at hk
      cases hk
    · cases h
    split at h
    · injection h with h
      subst h
      exact .inl trivial
    · cases h
where
  as_throws {α β : Type} {x : Res α} {f : α → β} {e : Exc} (h : (x.as f).Throws e) : x.Throws e := by
    cases x with
    | ok a => cases h
    | exc e' => injection h with h; subst h; rfl
    | ub u => cases h

/-! ## Examples: each kind occurs -/

example : (onNewResponse Fix.C Fix.requester exBadReply (List.replicate 32 0)).2.Throws .runtime := by unfold Res.Throws; decide +kernel

example : (ReqCall.run Fix.C exObject (.genNew (Fix.ca ++ [gcomp [120]]) 0 1 ⟨54, [2]⟩)).2.Throws .name := by unfold Res.Throws; decide +kernel

example : (genProfileName { name := [], content := ⟨21, []⟩, sig := [] }).Throws .tlv := by unfold Res.Throws; decide +kernel

end Ndncert.Props
