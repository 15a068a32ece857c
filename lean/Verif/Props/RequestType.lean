import Verif.Spec.RequestType
import Verif.Lemmas.RequestType
import Verif.Props.Revoke
import Verif.Props.Face

/-! # C123: the type a Request object was made for -/

namespace Ndncert.Props

variable {C : Crypto}

/-- an Interest asks for one type -/
theorem asksFor_unique {i : Interest} {ca : Name} {ty ty' : RequestType} (h : i.AsksFor ca ty) (h' : i.AsksFor ca ty') : ty = ty' := by
  obtain ⟨w, rest, h1, h2⟩ := h
  obtain ⟨w', rest', h1', h2'⟩ := h'
  rw [h2, List.append_assoc, List.append_assoc] at h2'
  have := List.append_cancel_left h2'
  simp only [List.cons_append, List.nil_append, List.cons.injEq, gcomp, Block.mk.injEq, true_and] at this
  have hw := this.1
  subst hw
  rw [← h1'] at h1
  revert h1
  cases ty <;> cases ty' <;> decide

/-- C123 is false: an object made for a revocation makes a NEW Interest, and the CA takes it up as one. -/
theorem C123_false : ∃ h r n i, ReqRun Fix.C exRevoker h r ∧ exRevoker.type = .revoke ∧ n ∈ h ∧ n.result = .ok (.interest i) ∧
    i.AsksFor Fix.cfg.profile.caPrefix .new ∧ ¬ i.AsksFor Fix.cfg.profile.caPrefix .revoke ∧
    Accepted (onNewRenewRevoke Fix.C Fix.S Fix.cfg Fix.st0.idKey Fix.st0.store .new i Fix.env1) := by
  have hn : Fix.newInterest.AsksFor Fix.cfg.profile.caPrefix .new :=
    ⟨bytes! "NEW", Fix.newInterest.name.drop (Fix.cfg.profile.caPrefix.length + 2), rfl, by decide +kernel⟩
  have hc : (calls Fix.C exRevoker [.genNew Fix.key (1000 * nsPerSec) (4600 * nsPerSec) ⟨54, [2]⟩]).1.map (·.result) = [.ok (.interest Fix.newInterest)] := by
    decide +kernel
  refine ⟨_, _, ⟨.genNew Fix.key (1000 * nsPerSec) (4600 * nsPerSec) ⟨54, [2]⟩, .ok (.interest Fix.newInterest)⟩, Fix.newInterest,
    run_of_calls (cs := [.genNew Fix.key (1000 * nsPerSec) (4600 * nsPerSec) ⟨54, [2]⟩]) (r := exRevoker) (C := Fix.C) .init (by decide +kernel), rfl, ?_, rfl, hn,
    fun h => absurd (asksFor_unique hn h) (by decide), ?_⟩
  · simp only [calls, List.map_cons, List.map_nil, List.cons.injEq, and_true] at hc ⊢
    rw [hc]
    simp
  · have hd : ((onNewRenewRevoke Fix.C Fix.S Fix.cfg Fix.st0.idKey Fix.st0.store .new Fix.newInterest Fix.env1).effects.any
      fun e => match e with | .dbAdd _ => true | _ => false) = true := by decide +kernel
    rw [List.any_eq_true] at hd
    obtain ⟨e, he, h⟩ := hd
    cases e with
    | dbAdd r => exact ⟨r, he⟩
    | _ => cases h

/-- C123, how far it is false: the type has no influence on anything. What an object made for one type does, with the same key, one made
for any other type does as well: the same calls return the same. -/
theorem C123_ignored (p : CaProfile) (ty ty' : RequestType) (priv : Bytes) (id : RequestId) {h : List Called} {r : Request}
    (hx : ReqRun C (.create p ty priv id) h r) : ∃ r', ReqRun C (.create p ty' priv id) h r' :=
  ⟨_, hx.retype ty'⟩

/-- C123, what holds: it is the method that decides. `genNewInterest` returns nothing but Interests that ask the CA of the object for NEW,
`genRevokeInterest` for REVOKE; other calls return no Interest that asks for anything. -/
theorem C123_method_partial (p : CaProfile) (ty : RequestType) (priv : Bytes) (id : RequestId) {h : List Called} {r : Request}
    (hx : ReqRun C (.create p ty priv id) h r) (n : Called) (hn : n ∈ h) (i : Interest) (hi : n.result = .ok (.interest i)) :
    ((∃ key nb na v, n.call = .genNew key nb na v) ∧ i.AsksFor p.caPrefix .new) ∨
    ((∃ cert, n.call = .genRevoke cert) ∧ i.AsksFor p.caPrefix .revoke) ∨
    ((∃ params rnd, n.call = .genChallenge params rnd) ∧ ∀ t, ¬ i.AsksFor p.caPrefix t) := by
  obtain ⟨h1, h2, rfl⟩ := List.append_of_mem hn
  obtain ⟨r1, x1, _, e1, _⟩ := hx.split rfl
  have hp : r1.profile = p := x1.frame.1
  rw [hi] at e1
  cases hc : n.call with
  | genNew key nb na v =>
    rw [hc] at e1
    obtain ⟨j, hj, hji⟩ := Res.as_ok e1.symm
    cases j with
    | none => cases hji
    | some j =>
      injection hji with hji
      subst hji
      obtain ⟨_, _, _, _, _, _, g⟩ := genNewInterest_ok (Prod.ext rfl hj : genNewInterest C r1 key nb na v = (_, .ok (some j)))
      rw [g, hp]
      exact .inl ⟨⟨_, _, _, _, rfl⟩, bytes! "NEW", [⟨2, C.paramsDigest _ _ _⟩], rfl, rfl⟩
  | genRevoke cert =>
    rw [hc] at e1
    simp only [ReqCall.run, Res.ok.injEq] at e1
    cases hj : genRevokeInterest C r1 cert with
    | none => rw [hj] at e1; cases e1
    | some j =>
      rw [hj] at e1
      injection e1 with e1
      subst e1
      unfold genRevokeInterest at hj
      split at hj
      · cases hj
      injection hj with hj
      subst hj
      rw [hp]
      exact .inr (.inl ⟨⟨_, rfl⟩, bytes! "REVOKE", [⟨2, C.paramsDigest _ _ _⟩], rfl, rfl⟩)
  | genChallenge m rnd =>
    rw [hc] at e1
    obtain ⟨j, hj, hji⟩ := Res.as_ok e1.symm
    injection hji with hji
    subst hji
    obtain ⟨_, _, _, _, _, _, _, _, _, _, g⟩ := genChallengeInterest_ok (Prod.ext rfl hj : genChallengeInterest C r1 m rnd = (_, .ok j))
    refine .inr (.inr ⟨⟨_, _, rfl⟩, ?_⟩)
    rintro t ⟨w, rest, hw, hname⟩
    rw [g, hp] at hname
    unfold signedInterest at hname
    dsimp only at hname
    rw [List.append_assoc, List.append_assoc] at hname
    have := List.append_cancel_left hname
    simp only [List.cons_append, List.nil_append, List.cons.injEq, gcomp, challengeComp, caComp, Block.mk.injEq, true_and] at this
    have hw' := this.1
    subst hw'
    revert hw
    cases t <;> decide
  | onNew d s => 
    rw [hc] at e1
    obtain ⟨j, hj, hji⟩ := Res.as_ok e1.symm
    cases hji
  | select ch =>
    rw [hc] at e1
    obtain ⟨j, hj, hji⟩ := Res.as_ok e1.symm
    cases hji
  | onChallenge d now =>
    rw [hc] at e1
    obtain ⟨j, hj, hji⟩ := Res.as_ok e1.symm
    cases hji

/-- C123: no object asks for a renewal, whatever its type and whatever is called on it. -/
theorem C123_no_renewal (p : CaProfile) (ty : RequestType) (priv : Bytes) (id : RequestId) {h : List Called} {r : Request}
    (hx : ReqRun C (.create p ty priv id) h r) (n : Called) (hn : n ∈ h) (i : Interest) (hi : n.result = .ok (.interest i)) :
    ¬ i.AsksFor p.caPrefix .renew := by
  intro ha
  rcases C123_method_partial p ty priv id hx n hn i hi with ⟨_, g⟩ | ⟨_, g⟩ | ⟨_, g⟩
  · exact absurd (asksFor_unique g ha) (by decide)
  · exact absurd (asksFor_unique g ha) (by decide)
  · exact g _ ha

/-- C123: and a CA hands no Interest that asks for a renewal to any of its handlers. -/
theorem C123_not_handled (q : CaProfile) (i : Interest) (ha : i.AsksFor q.caPrefix .renew) : dispatch q i.name = [] := by
  obtain ⟨w, rest, hw, hname⟩ := ha
  injection hw with hw
  subst hw
  rcases hd : dispatch q i.name with _ | ⟨h, t⟩
  · rfl
  have hm : h ∈ dispatch q i.name := by rw [hd]; exact List.mem_cons_self ..
  obtain ⟨t', ht⟩ := ((C84_one_handler q i.name).1 h).mp hm
  rw [hname, List.append_assoc, List.append_assoc, List.append_assoc] at ht
  have := List.append_cancel_left ht
  revert this
  cases h <;> simp [Handler.words, gcomp]

/-! ## The hypotheses hold of concrete runs -/

/-- the run of C119 -/
example : ∃ r', ReqRun Fix.C (.create Fix.profile .renew [1, 2] (List.replicate 8 0)) (calls Fix.C exRevoker exRevokeCalls).1 r' :=
  C123_ignored Fix.profile .revoke .renew [1, 2] (List.replicate 8 0) C119_false.1

example : Fix.revInterest.AsksFor Fix.cfg.profile.caPrefix .revoke :=
  ⟨bytes! "REVOKE", Fix.revInterest.name.drop (Fix.cfg.profile.caPrefix.length + 2), rfl, by decide +kernel⟩

example : dispatch Fix.profile (Fix.profile.caPrefix ++ [gcomp (bytes! "CA"), gcomp (bytes! "RENEW")]) = [] :=
  C123_not_handled Fix.profile { name := Fix.profile.caPrefix ++ [gcomp (bytes! "CA"), gcomp (bytes! "RENEW")], params := none, sig := [] }
    ⟨bytes! "RENEW", [], rfl, by simp⟩

end Ndncert.Props
