import Verif.Lemmas.ClientProbe
import Verif.Lemmas.CaNew
import Verif.Spec.ClientTurn

/-! # Lemmas about the CAs to which the client turns -/

namespace Ndncert

variable {C : Crypto}

theorem genDiscoveryName_metadata {ca nm : Name} (h : genDiscoveryName ca = .ok nm) : MetadataName ca nm := by
  unfold genDiscoveryName at h
  split at h
  · cases h
  · next c hc =>
    injection h with h
    subst h
    split
    · next hr => exact .component ⟨c, hc, hr⟩
    · next hr =>
      have : ca ≠ [] := by rintro rfl; cases hc
      rw [List.append_assoc]
      exact .plain (fun c' hc' => by rw [hc] at hc'; cases hc'; exact hr) this

theorem chooseRedirect_chosen {c c1 : Client} {rs : List Name} {full : Name} (h : chooseRedirect c rs = (c1, .inr full)) : ChosenCa rs c.stdin full := by
  unfold chooseRedirect at h
  split at h
  · cases h
  · cases h
    exact .only rfl
  · next h1 h2 =>
    split at h
    · cases h
    · rw [getline_eq] at h
      dsimp only at h
      split at h
      · cases h
      · next i hi =>
        split at h
        · cases h
        · next n hn =>
          cases h
          cases hs : c.stdin with
          | nil => rw [hs] at hi; exact absurd (hi.symm.trans (by decide : stoul [] = none)) (by simp)
          | cons l ls =>
            rw [hs] at hi
            refine .typed ?_ rfl ((stoul_iff _ _).mp hi) hn
            match rs, h1, h2 with
            | [], h1, _ => exact absurd rfl h1
            | [a], _, h2 => exact absurd rfl (h2 a)
            | a :: b :: rs, _, _ => simp

theorem identityOfCertName_full {full id : Name} (h : identityOfCertName full.parent = .ok id) : FullNameOfCa id full := by
  unfold identityOfCertName at h
  split at h
  · next hv =>
    injection h with h
    obtain ⟨id', k, i, v, he⟩ := (isCertName_iff _).mp hv
    rw [he] at h
    have : id' = id := by
      rw [← h]
      simp
    subst this
    unfold Name.parent at he
    rcases List.eq_nil_or_concat full with rfl | ⟨f, d, rfl⟩
    · simp at he
    · simp at he
      subst he
      exact ⟨k, i, v, d, by simp⟩
  · cases h

/-- what a callback does to the CA that the client turns to -/
inductive TurnCase (C : Crypto) (c : Client) (e : ClientEvent) (o : ClientOut) : Prop
  | ends (h : o.ended ≠ .going)
  | other (h : ∀ full, o.st.pending ≠ some (.discovery full) ∧ o.st.pending ≠ some (.info full))
  | profile {full nm : Name} (h : c.pending = some (.discovery full)) (pending : o.st.pending = some (.info full)) (stdin : o.st.stdin = c.stdin)
      (trusted : o.st.trusted = c.trusted) (acts : o.acts = [.profile nm])
  | redirect {d : Data} {w : Block} {q : CaProfile} {names : List (Name × Int)} {redirects : List Name} {full ca nm : Name}
      (event : e = .reply d w) (h : c.pending = some (.probe q)) (verified : ∃ t, q.cert = some t ∧ C.verifyData d t = true)
      (decoded : probeDecode d.content [] [] = .ok (names, redirects)) (chosen : ChosenCa redirects c.stdin full)
      (pending : o.st.pending = some (.discovery full)) (isCa : FullNameOfCa ca full) (acts : o.acts = [.discovery nm]) (name : MetadataName ca nm)

theorem step_turn (env : ClientEnv) (c : Client) (e : ClientEvent) : TurnCase C c e (c.step C env e) := by
  have hkeep : ∀ {p : CaProfile} {c' : Client} {o : ClientOut}, c'.Keeps p o → (∀ full, c'.pending ≠ some (.discovery full) ∧ c'.pending ≠ some (.info full)) →
      TurnCase C c e o := by
    intro p c' o hk hc
    refine .other (fun full => ?_)
    rcases hk.pending with h | h | h | h | h <;> rw [h]
    · exact hc full
    all_goals exact ⟨by simp, by simp⟩
  cases e with
  | signal =>
    refine .ends ?_
    have hs : c.step C env .signal = handleSignal c := rfl
    rw [hs]
    unfold handleSignal
    split
    · simp
    · split
      · split <;> simp
      · split
        · split
          · split <;> simp
          · simp
          · simp
        · simp
  | nack =>
    have hs : c.step C env .nack = if c.pending = none then { st := c } else { st := c, ended := .exit 1 } := rfl
    rw [hs]
    split
    · next h => exact .other (fun full => by dsimp only; rw [h]; simp)
    · exact .ends (by simp)
  | timeout => exact .other (fun full => by simp [Client.step])
  | reply d w =>
    cases hpend : c.pending with
    | none =>
      have hs : c.step C env (.reply d w) = { st := c } := by unfold Client.step; rw [hpend]
      rw [hs]
      exact .other (fun full => by dsimp only; rw [hpend]; simp)
    | some aw =>
      cases aw with
      | discovery full =>
        have hs : c.step C env (.reply d w) = discoveryCb c full d := by unfold Client.step; rw [hpend]
        rw [hs]
        unfold discoveryCb
        split
        · exact .profile hpend rfl rfl rfl rfl
        · exact .ends (by simp)
        · exact .ends (by simp)
      | info full =>
        have hs : c.step C env (.reply d w) = infoCb C c full d := by unfold Client.step; rw [hpend]
        rw [hs]
        unfold infoCb
        split
        · exact .other (fun full => by simp)
        · exact .ends (by simp)
        · split
          · split
            · rw [getline_eq]
              dsimp only
              split
              · exact .other (fun full => by simp [ClientOut.after, runProbe])
              · exact .ends (by simp)
            · exact .ends (by simp)
          · exact .other (fun full => by simp [runProbe])
      | probe q =>
        have hs : c.step C env (.reply d w) = probeCb C env c q d := by unfold Client.step; rw [hpend]
        rw [hs]
        unfold probeCb
        split
        · exact .ends (by simp)
        · exact .ends (by simp)
        · next names rs ho =>
          obtain ⟨h1, h2⟩ := onProbeResponse_ok ho
          split
          · split
            · next c1 x hc =>
              cases x with
              | going =>
                exfalso
                unfold chooseRedirect at hc
                split at hc
                · cases hc
                · cases hc
                · split at hc
                  · cases hc
                  · dsimp only at hc
                    split at hc
                    · cases hc
                    · split at hc <;> cases hc
              | _ => exact .ends (by simp)
            · next c1 full hc =>
              have hch := chooseRedirect_chosen hc
              split
              · next id hid =>
                have hf := identityOfCertName_full hid
                unfold runDiscovery
                split
                · next nm hnm => exact .redirect rfl hpend h1 h2 hch rfl hf rfl (genDiscoveryName_metadata hnm)
                · exact .ends (by simp)
                · exact .ends (by simp)
              · exact .ends (by simp)
              · exact .ends (by simp)
          · obtain ⟨ls, hl⟩ := chooseName_same c names
            split
            · exact .ends (by simp)
            · next c1 nm hc =>
              rw [hc] at hl
              dsimp only at hl
              subst hl
              exact hkeep (runNew_keeps C env _ q nm) (fun full => by dsimp only; rw [hpend]; simp)
      | new =>
        cases hreq : c.request with
        | none =>
          have hs : c.step C env (.reply d w) = { st := c, ended := .ub .nullDeref } := by unfold Client.step; rw [hpend, hreq]
          exact hs ▸ .ends (by simp)
        | some r =>
          have hs : c.step C env (.reply d w) = newCb C env c r d := by unfold Client.step; rw [hpend, hreq]
          rw [hs]
          exact hkeep (newCb_keeps C env c r d) (fun full => by rw [hpend]; simp)
      | challenge =>
        cases hreq : c.request with
        | none =>
          have hs : c.step C env (.reply d w) = { st := c, ended := .ub .nullDeref } := by unfold Client.step; rw [hpend, hreq]
          exact hs ▸ .ends (by simp)
        | some r =>
          have hs : c.step C env (.reply d w) = challengeCb C env c r d := by unfold Client.step; rw [hpend, hreq]
          rw [hs]
          exact hkeep (challengeCb_keeps C env c r d) (fun full => by rw [hpend]; simp)
      | fetch =>
        have hs : c.step C env (.reply d w) = certFetchCb C c w := by unfold Client.step; rw [hpend]
        rw [hs]
        unfold certFetchCb
        split
        · exact .ends (by simp)
        · exact .ends (by simp)
        · split <;> exact .ends (by simp)

variable {T : TextIO} {file : Bytes} {pib : Pib} {stdin : List Bytes}

/-- the step `m` followed the redirection `full`, and no PROBE was sent since -/
def Redirected (C : Crypto) (T : TextIO) (file : Bytes) (pib : Pib) (stdin : List Bytes) (first : List Act) (h : List ClientStep) (full : Name) : Prop :=
  ∃ before m since c d w q names redirects ca nm, h = before ++ m :: since ∧ ClientRun C T file pib stdin first before c .going ∧
    m.event = .reply d w ∧ c.pending = some (.probe q) ∧ (∃ t, q.cert = some t ∧ C.verifyData d t = true) ∧
    probeDecode d.content [] [] = .ok (names, redirects) ∧ ChosenCa redirects c.stdin full ∧ FullNameOfCa ca full ∧
    m.acts = [.discovery nm] ∧ MetadataName ca nm ∧ ∀ q j, ¬ Did since (.probe q j)

/-- the CA the client is about to ask for its profile -/
structure TurnInv (C : Crypto) (T : TextIO) (file : Bytes) (pib : Pib) (stdin : List Bytes) (first : List Act) (h : List ClientStep) (c : Client) : Prop where
  start : (c.pending = some (.discovery []) ∨ c.pending = some (.info [])) → (∀ q j, ¬ Did h (.probe q j)) ∧
    c.stdin = (selectCaProfile T file { pib := pib, stdin := stdin }).st.stdin ∧
    c.trusted = (selectCaProfile T file { pib := pib, stdin := stdin }).st.trusted
  later : ∀ full, full ≠ [] → (c.pending = some (.discovery full) ∨ c.pending = some (.info full)) → Redirected C T file pib stdin first h full

theorem ClientRun.turnInv {first : List Act} {h : List ClientStep} {c : Client} {x : Ended} (run : ClientRun C T file pib stdin first h c x) :
    x = .going → TurnInv C T file pib stdin first h c := by
  induction run with
  | start o e =>
    intro _
    have hs := e ▸ selectCaProfile_started T file { pib := pib, stdin := stdin }
    refine ⟨fun _ => ⟨?_, by rw [e], by rw [e]⟩, ?_⟩
    · rintro q j ⟨_, h, _⟩
      cases h
    · rintro full hf h
      rcases hs.pending with hp | hp <;> rw [hp] at h
      · rcases h with h | h <;> cases h
      · rcases h with h | h <;> cases h
        exact absurd rfl hf
  | @step first h c e env run o eo ih =>
    intro hx
    have hi := ih rfl
    have ht := step_turn (C := C) env c e
    rw [eo] at ht
    cases ht with
    | ends h => exact absurd hx h
    | other h => exact ⟨fun hp => by rcases hp with hp | hp; exact absurd hp (h []).1; exact absurd hp (h []).2,
        fun full _ hp => by rcases hp with hp | hp; exact absurd hp (h full).1; exact absurd hp (h full).2⟩
    | @profile full nm hp pending stdin' trusted acts =>
      refine ⟨?_, ?_⟩
      · intro hq
        rw [pending] at hq
        rcases hq with hq | hq <;> cases hq
        obtain ⟨h1, h2, h3⟩ := hi.start (.inl hp)
        refine ⟨fun q j hd => ?_, stdin'.trans h2, trusted.trans h3⟩
        rcases did_append.mp hd with hd | hd
        · exact h1 q j hd
        · dsimp only at hd; rw [acts] at hd; simp at hd
      · intro full' hf hq
        rw [pending] at hq
        rcases hq with hq | hq <;> cases hq
        obtain ⟨before, m, since, c1, d, w, q, names, redirects, ca, nm', g1, g2, g3, g4, g5, g6, g7, g8, g9, g10, g11⟩ := hi.later full hf (.inl hp)
        refine ⟨before, m, since ++ [⟨e, env, o.acts, o.ended⟩], c1, d, w, q, names, redirects, ca, nm', by rw [g1]; simp, g2, g3, g4, g5, g6, g7, g8, g9, g10, ?_⟩
        intro q' j hd
        rcases did_append.mp hd with hd | hd
        · exact g11 q' j hd
        · dsimp only at hd; rw [acts] at hd; simp at hd
    | @redirect d w q names redirects full ca nm event hp verified decoded chosen pending hca acts name =>
      have hne : full ≠ [] := by
        obtain ⟨_, _, _, _, rfl⟩ := hca
        simp
      refine ⟨?_, ?_⟩
      · intro hq
        rw [pending] at hq
        rcases hq with hq | hq <;> cases hq
        exact absurd rfl hne
      · intro full' hf hq
        rw [pending] at hq
        rcases hq with hq | hq <;> cases hq
        exact ⟨h, ⟨e, env, o.acts, o.ended⟩, [], c, d, w, q, names, redirects, ca, nm, rfl, run, event, hp, verified, decoded, chosen, hca, acts, name,
          fun q j hd => by obtain ⟨_, h, _⟩ := hd; cases h⟩

/-- what the start does -/
theorem selectCaProfile_selected (T : TextIO) (file : Bytes) (pib : Pib) (stdin : List Bytes) :
    (selectCaProfile T file { pib := pib, stdin := stdin }).acts = [] ∧ (selectCaProfile T file { pib := pib, stdin := stdin }).ended ≠ .going ∨
    ∃ known ca anchor nm, loadProfiles T file = .ok known ∧
      Selected T known stdin ca anchor (selectCaProfile T file { pib := pib, stdin := stdin }).st.stdin ∧
      (selectCaProfile T file { pib := pib, stdin := stdin }).acts = [.discovery nm] ∧ MetadataName ca nm ∧
      (selectCaProfile T file { pib := pib, stdin := stdin }).st.trusted = anchor := by
  have hd : ∀ (c : Client) (ca : Name), (runDiscovery c ca []).acts = [] ∧ (runDiscovery c ca []).ended ≠ .going ∨
      ∃ nm, (runDiscovery c ca []).acts = [.discovery nm] ∧ MetadataName ca nm ∧ (runDiscovery c ca []).st.stdin = c.stdin ∧
        (runDiscovery c ca []).st.trusted = c.trusted := by
    intro c ca
    unfold runDiscovery
    split
    · next nm h => exact .inr ⟨nm, rfl, genDiscoveryName_metadata h, rfl, rfl⟩
    · exact .inl ⟨rfl, by simp⟩
    · exact .inl ⟨rfl, by simp⟩
  unfold selectCaProfile
  split
  · exact .inl ⟨rfl, by simp⟩
  · exact .inl ⟨rfl, by simp⟩
  · next known hk =>
    simp only [getline_eq]
    split
    · next hn =>
      split
      · exact .inl ⟨rfl, by simp⟩
      · next ca hca =>
        rcases hd { pib := pib, stdin := stdin.tail.tail } ca with h | ⟨nm, h1, h2, h3, h4⟩
        · exact .inl h
        · refine .inr ⟨known, ca, none, nm, hk, ?_, h1, h2, h4⟩
          rw [h3]
          cases stdin with
          | nil => exact absurd hn (by decide)
          | cons l ls => exact .named hn hca
    · next hn =>
      split
      · exact .inl ⟨rfl, by simp⟩
      · next j hj =>
        split
        · exact .inl ⟨rfl, by simp⟩
        · next q hq =>
          rcases hd { pib := pib, stdin := stdin.tail, trusted := q.cert } q.caPrefix with h | ⟨nm, h1, h2, h3, h4⟩
          · exact .inl h
          · refine .inr ⟨known, _, _, nm, hk, ?_, h1, h2, h4⟩
            rw [h3]
            cases stdin with
            | nil => exact absurd (hj.symm.trans (by decide : stoul [] = none)) (by simp)
            | cons l ls => exact .configured hn ((stoul_iff _ _).mp hj) hq

theorem acceptProfile_first {c : Client} {d : Data} {p : CaProfile} (h : acceptProfile C c [] d = .ok p) :
    infoDecode C d.content = .ok p ∧ ∃ t, p.cert = some t ∧ C.verifyData d t = true ∧ ∀ a, c.trusted = some a → C.verifyData d a = true := by
  unfold acceptProfile at h
  rw [if_pos rfl] at h
  split at h
  · next t ht =>
    split at h
    · next hv =>
      obtain ⟨h1, t', h2, h3⟩ := onCaProfileResponse_ok h
      exact ⟨h1, t', h2, h3, fun a ha => by rw [ht] at ha; cases ha; exact hv⟩
    · cases h
  · next ht =>
    obtain ⟨h1, t', h2, h3⟩ := onCaProfileResponse_ok h
    exact ⟨h1, t', h2, h3, fun a ha => by rw [ht] at ha; cases ha⟩

theorem acceptProfile_later {c : Client} {full : Name} {d : Data} {p : CaProfile} (hf : full ≠ []) (h : acceptProfile C c full d = .ok p) :
    infoDecode C d.content = .ok p ∧ ∃ t, p.cert = some t ∧ fullNameOf t = full ∧ C.verifyData d t = true := by
  unfold acceptProfile at h
  rw [if_neg hf] at h
  exact afterRedirection_ok h

theorem ClientRun.first_eq {first : List Act} {h : List ClientStep} {c : Client} {x : Ended} (run : ClientRun C T file pib stdin first h c x) :
    first = (selectCaProfile T file { pib := pib, stdin := stdin }).acts := by
  induction run with
  | start o e => rw [e]
  | step e env run o eo ih => exact ih

theorem ClientRun.unstarted {first : List Act} {h : List ClientStep} {c : Client} {x : Ended} (run : ClientRun C T file pib stdin first h c x)
    (hs : (selectCaProfile T file { pib := pib, stdin := stdin }).ended ≠ .going) : h = [] ∧ x ≠ .going := by
  induction run with
  | start o e => exact ⟨rfl, e ▸ hs⟩
  | step e env run o eo ih => exact absurd rfl ih.2

end Ndncert
