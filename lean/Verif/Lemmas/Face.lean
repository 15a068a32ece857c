import Verif.Spec.Face
import Verif.Lemmas.Safe
import Verif.Lemmas.CaNewOutcome

namespace Ndncert

variable {σ : Type} {C : Crypto} {S : StoreI σ} {cfg : CaConfig}

theorem putsOf_eq (es : List Effect) : putsOf es = sent es := (sent_eq es).symm

/-- a callback for PROBE, NEW, REVOKE or CHALLENGE sends at most one Data, named as the Interest -/
theorem handle_sent (s : CaState σ) (m : Msg) (env : Env) :
    sent (handle C S cfg s m env).effects = [] ∨ ∃ d, sent (handle C S cfg s m env).effects = [d] ∧ d.name = m.interest.name := by
  have hnew : ∀ ty, (ty = RequestType.new ∨ ty = .revoke) → ∀ i,
      sent (onNewRenewRevoke C S cfg s.idKey s.store ty i env).effects = [] ∨
        ∃ d, sent (onNewRenewRevoke C S cfg s.idKey s.store ty i env).effects = [d] ∧ d.name = i.name := by
    intro ty hty i
    have hc := onNew_cases C S cfg s.idKey s.store ty hty i env
    generalize onNewRenewRevoke C S cfg s.idKey s.store ty i env = o at hc
    cases hc with
    | accept pub cert secret st' h1 h2 h3 h4 h5 h6 h7 h8 => exact .inr ⟨_, rfl, rfl⟩
    | error code info _ => exact .inr ⟨_, rfl, rfl⟩
    | threwCa e _ => exact .inl rfl
    | threw pub cert _ _ _ e => exact .inl rfl
    | undefined r u _ => exact .inl rfl
  cases m with
  | probe i =>
    show sent (onProbe C cfg i env).effects = [] ∨ ∃ d, sent (onProbe C cfg i env).effects = [d] ∧ d.name = i.name
    unfold onProbe
    split
    · exact .inl rfl
    · exact .inl rfl
    · dsimp only
      split
      · exact .inl rfl
      · exact .inl rfl
      · split
        · exact .inr ⟨_, rfl, rfl⟩
        · exact .inr ⟨_, rfl, rfl⟩
  | new i => exact hnew .new (.inl rfl) i
  | revoke i => exact hnew .revoke (.inr rfl) i
  | challenge i =>
    obtain ⟨h1, h2⟩ := onChallenge_sent C S cfg s.store i env
    by_cases h : (onChallenge C S cfg s.store i env).term = .done
    · exact .inr (h1 h)
    · exact .inl (h2 h)

theorem mem_dispatch {p : CaProfile} {name : Name} {h : Handler} : h ∈ dispatch p name ↔ h.For p name := by
  unfold dispatch filters Handler.For
  simp only [List.mem_map, List.mem_filter, List.mem_cons, List.not_mem_nil, or_false]
  constructor
  · rintro ⟨f, ⟨hf, hp⟩, rfl⟩
    rw [isPrefixOf_iff] at hp
    rcases hf with rfl | rfl | rfl | rfl | rfl <;> simpa [Handler.words, caComp, infoComp, probeComp, newComp, challengeComp, revokeComp, metadataComp] using hp
  · intro hp
    cases h
    · exact ⟨(p.caPrefix ++ [caComp] ++ [infoComp, metadataComp], .discovery), ⟨by simp, (isPrefixOf_iff _ _).mpr hp⟩, rfl⟩
    · exact ⟨(p.caPrefix ++ [caComp] ++ [probeComp], .probe), ⟨by simp, (isPrefixOf_iff _ _).mpr hp⟩, rfl⟩
    · exact ⟨(p.caPrefix ++ [caComp] ++ [newComp], .new), ⟨by simp, (isPrefixOf_iff _ _).mpr hp⟩, rfl⟩
    · exact ⟨(p.caPrefix ++ [caComp] ++ [challengeComp], .challenge), ⟨by simp, (isPrefixOf_iff _ _).mpr hp⟩, rfl⟩
    · exact ⟨(p.caPrefix ++ [caComp] ++ [revokeComp], .revoke), ⟨by simp, (isPrefixOf_iff _ _).mpr hp⟩, rfl⟩

/-- the component after `PREFIX/CA` tells the handler -/
theorem for_next {p : CaProfile} {name : Name} {h : Handler} (hf : h.For p name) :
    name[p.caPrefix.length]? = some (gcomp (bytes! "CA")) ∧ name[p.caPrefix.length + 1]? = h.words[0]? := by
  obtain ⟨t, rfl⟩ := hf
  constructor
  · rw [List.append_assoc, List.append_assoc, List.getElem?_append_right (by omega)]
    simp
  · rw [List.append_assoc, List.append_assoc, List.getElem?_append_right (by omega)]
    cases h <;> simp [Handler.words]

theorem for_unique {p : CaProfile} {name : Name} {h h' : Handler} (hf : h.For p name) (hf' : h'.For p name) : h = h' := by
  have a := (for_next hf).2
  rw [(for_next hf').2] at a
  revert a
  cases h <;> cases h' <;> decide

theorem dispatch_nodup (p : CaProfile) (name : Name) : (dispatch p name).Nodup := by
  have hs : ∀ l : List (Name × Handler), (l.map (·.2)).Nodup → ((l.filter (fun f => isPrefixOf f.1 name)).map (·.2)).Nodup := by
    intro l hl
    exact hl.sublist (List.Sublist.map _ List.filter_sublist)
  exact hs _ (by simp [filters])

theorem dispatch_eq (p : CaProfile) (name : Name) : dispatch p name = [] ∨ ∃ h, dispatch p name = [h] ∧ h.For p name := by
  have hn := dispatch_nodup p name
  have hm : ∀ h ∈ dispatch p name, h.For p name := fun h hh => mem_dispatch.mp hh
  match hd : dispatch p name with
  | [] => exact .inl rfl
  | [h] => exact .inr ⟨h, rfl, hm h (by simp [hd])⟩
  | h :: h' :: t =>
    rw [hd] at hn
    have := for_unique (hm h (by simp [hd])) (hm h' (by simp [hd]))
    subst this
    simp at hn

theorem dispatch_of {p : CaProfile} {name : Name} {h : Handler} (hf : h.For p name) : dispatch p name = [h] := by
  rcases dispatch_eq p name with h0 | ⟨h', h1, h2⟩
  · have := mem_dispatch.mpr hf
    rw [h0] at this
    cases this
  · rw [h1, for_unique hf h2]

end Ndncert
