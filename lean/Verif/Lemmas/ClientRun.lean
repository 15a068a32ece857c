import Verif.Lemmas.ClientSafe
import Verif.Lemmas.Config

/-! # Lemmas about runs of the command line client -/

namespace Ndncert

theorem storedProfile_not_ub (T : TextIO) (item : Bytes × PTree) (u : Ub) : storedProfileOfItem T item ≠ .ub u := by
  unfold storedProfileOfItem
  intro h
  rcases Res.of_bind_ub h with h | ⟨p, hp, h⟩
  · exact profileFromJson_not_ub _ _ _ h
  · split at h <;> cases h

theorem loadProfiles_not_ub (T : TextIO) (file : Bytes) (u : Ub) : loadProfiles T file ≠ .ub u := by
  unfold loadProfiles
  split
  · simp
  · split
    · simp
    · unfold loadProfilesTree
      split
      · simp
      · exact forEach_not_ub _ _ (fun a _ => storedProfile_not_ub T a) _

/-- what the start of the program does -/
structure Started (T : TextIO) (file : Bytes) (c : Client) (o : ClientOut) : Prop where
  ub : ∀ u, o.ended ≠ .ub u
  acts : ∀ a ∈ o.acts, a.ca = none
  request : o.st.request = c.request
  captured : o.st.captured = c.captured
  pib : o.st.pib = c.pib
  newIdentity : o.st.newIdentity = c.newIdentity
  newKey : o.st.newKey = c.newKey
  pending : o.st.pending = c.pending ∨ o.st.pending = some (.discovery [])
  going : o.ended = .going → ∃ known, loadProfiles T file = .ok known
  trusted : o.st.trusted = c.trusted ∨ ∃ known, loadProfiles T file = .ok known ∧ ∃ q ∈ known, q.cert = o.st.trusted

theorem Started.discovery {T : TextIO} {file : Bytes} {c c' : Client} {known : Profiles} (hk : loadProfiles T file = .ok known)
    (h1 : c'.request = c.request) (h2 : c'.captured = c.captured) (h3 : c'.pib = c.pib) (h4 : c'.newIdentity = c.newIdentity)
    (h5 : c'.newKey = c.newKey) (h6 : c'.pending = c.pending)
    (h7 : c'.trusted = c.trusted ∨ ∃ q ∈ known, q.cert = c'.trusted) (n : Name) : Started T file c (runDiscovery c' n []) := by
  have ht : c'.trusted = c.trusted ∨ ∃ known, loadProfiles T file = .ok known ∧ ∃ q ∈ known, q.cert = c'.trusted := by
    rcases h7 with h | h
    · exact .inl h
    · exact .inr ⟨known, hk, h⟩
  unfold runDiscovery
  split
  · exact ⟨by simp, by simp [Act.ca], h1, h2, h3, h4, h5, .inr rfl, fun _ => ⟨known, hk⟩, ht⟩
  · exact ⟨by simp, by simp, h1, h2, h3, h4, h5, .inl h6, by simp, ht⟩
  · next h => exact absurd h (genDiscoveryName_no_ub _ _)

theorem selectCaProfile_started (T : TextIO) (file : Bytes) (c : Client) : Started T file c (selectCaProfile T file c) := by
  have hstop : ∀ (ls : List Bytes) (x : Ended), x ≠ .going → (∀ u, x ≠ .ub u) →
      Started T file c { st := { c with stdin := ls }, ended := x } := fun ls x h1 h2 =>
    ⟨h2, by simp, rfl, rfl, rfl, rfl, rfl, .inl rfl, fun h => absurd h h1, .inl rfl⟩
  unfold selectCaProfile
  split
  · exact hstop c.stdin _ (by simp) (by simp)
  · next h => exact absurd h (loadProfiles_not_ub _ _ _)
  · next known hk =>
    simp only [getline_eq]
    split
    · split
      · exact hstop _ _ (by simp) (by simp)
      · exact Started.discovery (c := c) (c' := { c with stdin := c.stdin.tail.tail }) hk rfl rfl rfl rfl rfl rfl (.inl rfl) _
    · split
      · exact hstop _ _ (by simp) (by simp)
      · split
        · exact hstop _ _ (by simp) (by simp)
        · next p hp =>
          exact Started.discovery (c := c) (c' := { c with stdin := c.stdin.tail, trusted := p.cert }) hk rfl rfl rfl rfl rfl rfl (.inr ⟨p, List.mem_of_getElem? hp, rfl⟩) _

variable {C : Crypto} {T : TextIO} {file : Bytes} {pib : Pib} {stdin : List Bytes}

/-- every stretch of a run is a run -/
theorem ClientRun.until {first : List Act} {h : List ClientStep} {c : Client} {x : Ended} (run : ClientRun C T file pib stdin first h c x)
    {h1 : List ClientStep} {n : ClientStep} {h2 : List ClientStep} (eq : h = h1 ++ n :: h2) :
    ∃ c0, ClientRun C T file pib stdin first h1 c0 .going ∧ n.acts = (c0.step C n.env n.event).acts ∧
      n.ended = (c0.step C n.env n.event).ended ∧
      ClientRun C T file pib stdin first (h1 ++ [n]) (c0.step C n.env n.event).st n.ended := by
  induction run generalizing h2 with
  | start o e => cases h1 <;> cases eq
  | @step first h c e env run o eo ih =>
    rcases List.eq_nil_or_concat h2 with rfl | ⟨h2', n2, rfl⟩
    · have := List.append_inj' eq (by simp)
      obtain ⟨rfl, hn⟩ := this
      simp only [List.cons.injEq, and_true] at hn
      subst hn
      refine ⟨c, run, ?_, ?_, ?_⟩
      · rw [← eo]
      · rw [← eo]
      · dsimp only
        rw [eo]
        exact .step e env run o eo
    · have : h ++ [⟨e, env, o.acts, o.ended⟩] = (h1 ++ n :: h2') ++ [n2] := by rw [eq]; simp
      exact ih (List.append_inj' this rfl).1

/-- what is known at the start -/
theorem ClientRun.known {first : List Act} {h : List ClientStep} {c : Client} {x : Ended} (run : ClientRun C T file pib stdin first h c x) :
    (x = .going ∨ h ≠ []) → ∃ known, loadProfiles T file = .ok known := by
  induction run with
  | start o e =>
    rintro (hx | hx)
    · exact (e ▸ selectCaProfile_started T file _).going hx
    · exact absurd rfl hx
  | step e env run o eo ih => exact fun _ => ih (.inl rfl)

theorem ClientRun.first_acts {first : List Act} {h : List ClientStep} {c : Client} {x : Ended}
    (run : ClientRun C T file pib stdin first h c x) : ∀ a ∈ first, a.ca = none := by
  induction run with
  | start o e => exact (e ▸ selectCaProfile_started T file _).acts
  | step e env run o eo ih => exact ih

theorem ClientRun.trustInv {known : Profiles} (hk : loadProfiles T file = .ok known) {first : List Act} {h : List ClientStep} {c : Client}
    {x : Ended} (run : ClientRun C T file pib stdin first h c x) : TrustInv C known h c := by
  induction run with
  | start o e =>
    have hs := e ▸ selectCaProfile_started T file { pib := pib, stdin := stdin }
    have hp : ∀ w, o.st.pending = some w → w = .discovery [] := by
      intro w hw
      rcases hs.pending with h | h
      · rw [h] at hw; cases hw
      · rw [h] at hw; injection hw with hw; exact hw.symm
    refine ⟨?_, ?_, ?_, ?_⟩
    · intro p h
      cases hp _ h
    · intro _ t ht
      rcases hs.trusted with h | ⟨known', h1, q, h2, h3⟩
      · rw [h] at ht; cases ht
      · rw [hk] at h1
        cases h1
        exact ⟨q, h2, h3.trans ht⟩
    · rintro full hf (h | h)
      · exact absurd (hp _ h) (by simp [hf])
      · cases hp _ h
    · intro r hr
      rw [hs.request] at hr
      cases hr
  | step e env run o eo ih => exact eo ▸ (ih.step e env).1

theorem ClientRun.safeInv {first : List Act} {h : List ClientStep} {c : Client} {x : Ended} (run : ClientRun C T file pib stdin first h c x)
    (hw : ∀ n ∈ h, n.env.Wf) : SafeInv h c := by
  induction run with
  | start o e =>
    have hs := e ▸ selectCaProfile_started T file { pib := pib, stdin := stdin }
    have hp : ∀ w, o.st.pending = some w → w = .discovery [] := by
      intro w hw
      rcases hs.pending with h | h
      · rw [h] at hw; cases hw
      · rw [h] at hw; injection hw with hw; exact hw.symm
    refine ⟨?_, ?_, ?_, ?_, ?_⟩
    · intro p h
      cases hp _ h
    · intro r hr
      rw [hs.request] at hr
      cases hr
    · rintro (h | h) <;> cases hp _ h
    · intro m hm
      rw [hs.captured] at hm
      cases hm
    · exact fun _ => rfl
  | step e env run o eo ih =>
    exact eo ▸ ((ih (fun n hn => hw n (by simp [hn]))).step e (hw ⟨e, env, o.acts, o.ended⟩ (by simp))).1

/-- what is played is a run -/
theorem ClientRun.play {first : List Act} {h : List ClientStep} {o : ClientOut} (run : ClientRun C T file pib stdin first h o.st o.ended)
    {es : List (ClientEvent × ClientEnv)} {h' : List ClientStep} {o' : ClientOut} (hp : playClient C o h es = some (h', o')) :
    ClientRun C T file pib stdin first h' o'.st o'.ended := by
  induction es generalizing h o with
  | nil =>
    cases hp
    exact run
  | cons e es ih =>
    obtain ⟨e, env⟩ := e
    unfold playClient at hp
    split at hp
    · next hg => exact ih (.step e env (hg ▸ run) _ rfl) hp
    · cases hp

end Ndncert
