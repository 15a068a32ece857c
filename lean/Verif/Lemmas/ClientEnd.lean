import Verif.Spec.ClientEnd
import Verif.Lemmas.ClientTalk

/-! # How a run of the client goes on and ends -/

namespace Ndncert

/-- the Interest that is waited for -/
inductive Awaits : Act → Awaiting → Prop
  | discovery {n full : Name} : Awaits (.discovery n) (.discovery full)
  | info {n full : Name} : Awaits (.profile n) (.info full)
  | probe {p : CaProfile} {i : Interest} : Awaits (.probe p i) (.probe p)
  | new {p : CaProfile} {i : Interest} : Awaits (.new p i) .new
  | challenge {p : CaProfile} {i : Interest} : Awaits (.challenge p i) .challenge
  | fetch {n : Name} {x : Option Name} : Awaits (.fetch n x) .fetch

theorem Awaits.isInterest {a : Act} {w : Awaiting} (h : Awaits a w) : a.isInterest = true := by cases h <;> rfl

theorem isInterest_asked (p : CaProfile) (l : Bytes) : Act.isInterest (.asked p l) = false := rfl

/-- what a callback may do; `why`: the reason to go on without sending an Interest -/
inductive Shape (why : Prop) : ClientOut → Prop
  | installed {c : Client} {cert : Cert} : Shape why ⟨c, [.install cert], .exit 0⟩
  | refused {c : Client} {p : CaProfile} {l : Bytes} (no : toLower l ≠ (bytes! "yes")) : Shape why ⟨c, [.asked p l], .exit 0⟩
  | failed {c : Client} {x : Ended} (going : x ≠ .going) (exit : ∀ n, x = .exit n → n = 1) : Shape why ⟨c, [], x⟩
  | sent {c : Client} {a : Act} {w : Awaiting} (pending : c.pending = some w) (awaits : Awaits a w) : Shape why ⟨c, [a], .going⟩
  | asked {c : Client} {p : CaProfile} {l : Bytes} {a : Act} {w : Awaiting} (yes : toLower l = (bytes! "yes")) (pending : c.pending = some w)
      (awaits : Awaits a w) : Shape why ⟨c, [.asked p l, a], .going⟩
  | idle {c : Client} (pending : c.pending = none) (reason : why) : Shape why ⟨c, [], .going⟩

variable {C : Crypto} {T : TextIO} {file : Bytes} {pib : Pib} {stdin : List Bytes}

theorem Shape.imp {p q : Prop} {o : ClientOut} (h : Shape p o) (hq : p → q) : Shape q o := by
  cases h with
  | installed => exact .installed
  | refused no => exact .refused no
  | failed g e => exact .failed g e
  | sent p a => exact .sent p a
  | asked y p a => exact .asked y p a
  | idle p r => exact .idle p (hq r)

theorem Shape.exit {why : Prop} (c : Client) : Shape why { st := c, ended := .exit 1 } := .failed (by simp) (by simp)
theorem Shape.threw {why : Prop} (c : Client) (e : Exc) : Shape why { st := c, ended := .threw e } := .failed (by simp) (by simp)
theorem Shape.ub {why : Prop} (c : Client) (u : Ub) : Shape why { st := c, ended := .ub u } := .failed (by simp) (by simp)

theorem runDiscovery_shape {why : Prop} (c : Client) (ca full : Name) : Shape why (runDiscovery c ca full) := by
  unfold runDiscovery
  split
  · exact .sent rfl .discovery
  · exact .threw _ _
  · exact .ub _ _

theorem discoveryCb_shape {why : Prop} (c : Client) (full : Name) (d : Data) : Shape why (discoveryCb c full d) := by
  unfold discoveryCb
  split
  · exact .sent rfl .info
  · exact .threw _ _
  · exact .ub _ _

theorem runProbe_shape {why : Prop} (c : Client) (p : CaProfile) : Shape why (runProbe C c p) := .sent rfl .probe

theorem acceptProfile_exc {c : Client} {full : Name} {d : Data} {e : Exc} (h : acceptProfile C c full d = .exc e) : ¬ Usable C c.trusted full d := by
  rintro ⟨p, t, h1, h2, h3, h4, h5⟩
  have h6 : onCaProfileResponse C d = .ok p := by
    show Res.bind (infoDecode C d.content) _ = _
    rw [h1]
    show (match p.cert with | none => _ | some c => _) = _
    rw [h2]
    exact if_pos h3
  unfold acceptProfile at h
  split at h
  · next hf =>
    split at h
    · next t' ht =>
      rw [if_pos (h4 hf t' ht), h6] at h
      cases h
    · rw [h6] at h
      cases h
  · next hf =>
    have h7 : onCaProfileResponseAfterRedirection C d full = .ok p := by
      show Res.bind (infoDecode C d.content) _ = _
      rw [h1]
      show (match p.cert with | none => _ | some c => _) = _
      rw [h2]
      exact (if_neg (by simpa using (show t.fullName = full from h5 hf))).trans h6
    rw [h7] at h
    cases h

theorem infoCb_shape (c : Client) (full : Name) (d : Data) : Shape (¬ Usable C c.trusted full d) (infoCb C c full d) := by
  unfold infoCb
  split
  · next e he => exact .idle rfl (acceptProfile_exc he)
  · exact .ub _ _
  · split
    · split
      · dsimp only
        split
        · next hy => exact .asked hy rfl .probe
        · next hy => exact .refused hy
      · exact .threw _ _
    · exact runProbe_shape _ _

theorem chooseRedirect_inl {c c1 : Client} {rs : List Name} {x : Ended} (h : chooseRedirect c rs = (c1, .inl x)) : x ≠ .going ∧ ∀ n, x = .exit n → n = 1 := by
  unfold chooseRedirect at h
  split at h
  · cases h; simp
  · cases h
  · split at h
    · cases h; simp
    · dsimp only at h
      split at h
      · cases h; simp
      · split at h
        · cases h; simp
        · cases h

theorem captureKeyName_inl {c c1 : Client} {e : IdEntry} {ds : List Block} {x : Ended} (h : captureKeyName c e ds = (c1, .inl x)) :
    x ≠ .going ∧ ∀ n, x = .exit n → n = 1 := by
  unfold captureKeyName at h
  dsimp only at h
  split at h
  · split at h
    · cases h; simp
    · cases h
  · split at h
    · cases h; simp
    · split at h
      · cases h; simp
      · cases h

theorem isPrefixOf_append_right {p n m : Name} (h : isPrefixOf p n = true) : isPrefixOf p (n ++ m) = true := by
  rw [isPrefixOf_iff] at *
  exact h.trans (List.prefix_append _ _)

theorem genNew_none {r : Request} {id : Name} {b : Block} {nb na : Time} {v : Block}
    (h : (genNewInterest C r (id ++ [keyComponent, b]) nb na v).2 = .ok none) : isPrefixOf r.profile.caPrefix id = false := by
  cases hp : isPrefixOf r.profile.caPrefix id with
  | false => rfl
  | true =>
    unfold genNewInterest at h
    rw [if_neg (by rw [isPrefixOf_append_right hp]; simp), if_neg (by simp)] at h
    split at h
    · cases h
    · cases h
    · split at h <;> cases h

theorem runNew_shape {env : ClientEnv} {c : Client} (hs : c.pib.Sound) (p : CaProfile) (id : Name) :
    Shape (isPrefixOf p.caPrefix id = false) (runNew C env c p id) := by
  unfold runNew
  obtain ⟨ls, hl⟩ := captureValidity_same 3 c
  split
  · exact .exit _
  · next hr c1 hc =>
    rw [hc] at hl
    dsimp only at hl
    subst hl
    unfold runNewWith
    dsimp only
    split
    · exact .threw _ _
    · next c2 e k hp =>
      obtain ⟨a1, a2, a3, a4⟩ := prepareKey_sound hp hs
      have hb : ∃ c3 chosen, (if c2.newIdentity = [] then captureKeyName c2 e env.keyIds2 else (c2, Sum.inr k)) = (c3, chosen) ∧
          (∀ k, chosen = .inr k → ∃ b, k = id ++ [keyComponent, b]) ∧ ∀ x, chosen = .inl x → x ≠ .going ∧ ∀ n, x = .exit n → n = 1 := by
        split
        · have := captureKeyName_sound (c := c2) (e := e) env.keyIds2 a1 (a2.symm ▸ a4)
          rw [a2] at this
          exact ⟨_, _, rfl, this.2, fun x hx => captureKeyName_inl (Prod.ext rfl hx)⟩
        · exact ⟨_, _, rfl, fun x hx => by injection hx with hx; subst hx; exact a3, by simp⟩
      obtain ⟨c3, chosen, heq, b2, b3⟩ := hb
      rw [heq]
      dsimp only
      split
      · next x => exact .failed (b3 x rfl).1 (b3 x rfl).2
      · next key =>
        obtain ⟨b, rfl⟩ := b2 key rfl
        split
        · exact .ub _ _
        · split
          · exact .threw _ _
          · exact .ub _ _
          · next hi => exact .idle rfl (genNew_none hi)
          · exact .sent rfl .new

theorem probeCb_shape {env : ClientEnv} {c : Client} (hs : c.pib.Sound) {p : CaProfile} (hp : c.pending = some (.probe p)) (d : Data) (w : Block) :
    Shape (Stalls C c (.reply d w)) (probeCb C env c p d) := by
  unfold probeCb
  split
  · exact .exit _
  · exact .ub _ _
  · next names rs hok =>
    split
    · split
      · next h => exact .failed (chooseRedirect_inl h).1 (chooseRedirect_inl h).2
      · split
        · exact runDiscovery_shape _ _ _
        · exact .threw _ _
        · exact .ub _ _
    · next hrs =>
      have hrs' : rs = [] := by
        by_cases e : rs = []
        · exact e
        · exact absurd e hrs
      subst hrs'
      split
      · exact .exit _
      · next c1 nm hc =>
        obtain ⟨t, h1, h2⟩ := (onProbeResponse_ok hok).1
        have hc1 := chooseName_hours hc
        refine (runNew_shape (c := c1) (by rw [hc1]; exact hs) p nm).imp fun hn => .name hp h1 h2 (onProbeResponse_decoded hok) (chooseName_chosen hc) ?_
        intro hpre
        rw [← isPrefixOf_iff, hn] at hpre
        cases hpre

theorem runChallenge_shape {why : Prop} (env : ClientEnv) (c : Client) (r : Request) (ty : Bytes) : Shape why (runChallenge C env c r ty) := by
  unfold runChallenge
  dsimp only
  split
  · exact .exit _
  · exact .ub _ _
  · split
    · exact .threw _ _
    · exact .ub _ _
    · split
      · exact .threw _ _
      · exact .ub _ _
      · exact .sent rfl .challenge

theorem newCb_shape {why : Prop} (env : ClientEnv) (c : Client) (r : Request) (d : Data) : Shape why (newCb C env c r d) := by
  unfold newCb
  dsimp only
  split
  · exact .exit _
  · exact .ub _ _
  · split
    · exact .exit _
    · split
      · exact runChallenge_shape _ _ _ _
      · split
        · exact .exit _
        · exact runChallenge_shape _ _ _ _

theorem challengeCb_shape {why : Prop} (env : ClientEnv) (c : Client) (r : Request) (d : Data) : Shape why (challengeCb C env c r d) := by
  unfold challengeCb
  dsimp only
  split
  · exact .exit _
  · exact .ub _ _
  · split
    · exact .sent rfl .fetch
    · exact runChallenge_shape _ _ _ _

theorem certFetchCb_shape {why : Prop} (c : Client) (w : Block) : Shape why (certFetchCb C c w) := by
  unfold certFetchCb
  split
  · exact .threw _ _
  · exact .ub _ _
  · split
    · exact .installed
    · exact .threw _ _

theorem handleSignal_shape {why : Prop} (c : Client) : Shape why (handleSignal c) := by
  unfold handleSignal
  split
  · exact .exit _
  · split
    · split
      · exact .threw _ _
      · exact .exit _
    · split
      · split
        · split
          · exact .exit _
          · exact .threw _ _
        · exact .threw _ _
        · exact .ub _ _
      · exact .exit _

theorem step_shape {env : ClientEnv} {c : Client} (hs : c.pib.Sound) (e : ClientEvent) :
    Shape (c.pending = none ∨ Stalls C c e) (c.step C env e) := by
  cases e with
  | signal => exact handleSignal_shape c
  | nack =>
    show Shape _ (if c.pending = none then { st := c } else { st := c, ended := .exit 1 })
    split
    · next h => exact .idle h (.inl h)
    · exact .exit _
  | timeout => exact .idle rfl (.inr .timeout)
  | reply d w =>
    unfold Client.step
    dsimp only
    split
    · next h => exact .idle h (.inl h)
    · exact discoveryCb_shape _ _ _
    · next h => exact (infoCb_shape _ _ _).imp fun hu => .inr (.profile h hu)
    · next h => exact (probeCb_shape hs h d w).imp .inr
    · split
      · exact newCb_shape _ _ _ _
      · exact .ub _ _
    · split
      · exact challengeCb_shape _ _ _ _
      · exact .ub _ _
    · exact certFetchCb_shape _ _

theorem selectCaProfile_shape {why : Prop} (c : Client) : Shape why (selectCaProfile T file c) := by
  unfold selectCaProfile
  split
  · exact .exit _
  · exact .ub _ _
  · dsimp only
    split
    · split
      · exact .exit _
      · exact runDiscovery_shape _ _ _
    · split
      · exact .exit _
      · split
        · exact .exit _
        · exact runDiscovery_shape _ _ _

theorem Did.append {h h' : List ClientStep} {a : Act} : Did (h ++ h') a ↔ Did h a ∨ Did h' a := by
  unfold Did
  simp only [List.mem_append]
  constructor
  · rintro ⟨n, hn | hn, ha⟩
    · exact .inl ⟨n, hn, ha⟩
    · exact .inr ⟨n, hn, ha⟩
  · rintro (⟨n, hn, ha⟩ | ⟨n, hn, ha⟩)
    · exact ⟨n, .inl hn, ha⟩
    · exact ⟨n, .inr hn, ha⟩

theorem Did.single {n : ClientStep} {a : Act} : Did [n] a ↔ a ∈ n.acts := by simp [Did]

/-- what the history of a run that goes on looks like -/
structure GoingInv (first : List Act) (h : List ClientStep) (c : Client) : Prop where
  pib : c.pib.Sound
  installed : ∀ cert, ¬ Did h (.install cert)
  refused : ¬ Refused h
  waits : ∀ w, c.pending = some w → ∃ a, Awaits a w ∧ (lastActs first h).filter Act.isInterest = [a]
  idle : c.pending = none → (lastActs first h).filter Act.isInterest = []

theorem lastActs_concat (first : List Act) (h : List ClientStep) (n : ClientStep) : lastActs first (h ++ [n]) = n.acts := by
  simp [lastActs]

theorem ClientRun.goingInv (hw : pib.Sound) {first : List Act} {h : List ClientStep} {c : Client} {x : Ended}
    (run : ClientRun C T file pib stdin first h c x) : x = .going → GoingInv first h c := by
  have hsound := @ClientRun.sound C T file pib stdin hw
  induction run with
  | start o e =>
    intro hx
    have hr := hsound (.start o e) hx
    refine ⟨hr, by simp [Did], by simp [Refused, Did], ?_, ?_⟩
    all_goals
      have hsh : Shape False o := e ▸ selectCaProfile_shape _
      cases hsh with
      | installed => cases hx
      | refused => cases hx
      | failed g => exact absurd hx g
      | sent hp ha =>
        intro w
        first
        | (intro h; rw [hp] at h; injection h with h; subst h
           exact ⟨_, ha, by simp [lastActs, ha.isInterest]⟩)
        | (rw [hp] at w; cases w)
      | asked _ hp ha =>
        intro w
        first
        | (intro h; rw [hp] at h; injection h with h; subst h
           exact ⟨_, ha, by simp [lastActs, ha.isInterest, isInterest_asked]⟩)
        | (rw [hp] at w; cases w)
      | idle _ r => exact r.elim
  | @step first h c e env run o eo ih =>
    intro hx
    have i := ih rfl
    have hr := hsound (.step e env run o eo) hx
    have hsh : Shape (c.pending = none ∨ Stalls C c e) o := eo ▸ step_shape i.pib e
    have key : (∀ cert, .install cert ∉ o.acts) ∧ (∀ p l, .asked p l ∈ o.acts → toLower l = (bytes! "yes")) ∧
        (∀ w, o.st.pending = some w → ∃ a, Awaits a w ∧ o.acts.filter Act.isInterest = [a]) ∧
        (o.st.pending = none → o.acts.filter Act.isInterest = []) := by
      cases hsh with
      | installed => cases hx
      | refused => cases hx
      | failed g => exact absurd hx g
      | @sent _ a _ hp ha =>
        refine ⟨?_, ?_, ?_, ?_⟩
        · intro cert hm; simp only [List.mem_singleton] at hm; subst hm; cases ha
        · intro p l hm; simp only [List.mem_singleton] at hm; subst hm; cases ha
        · intro w h; rw [hp] at h; injection h with h; subst h; exact ⟨_, ha, by simp [ha.isInterest]⟩
        · intro h; rw [hp] at h; cases h
      | @asked _ _ _ a _ hy hp ha =>
        refine ⟨?_, ?_, ?_, ?_⟩
        · intro cert hm; simp only [List.mem_cons, reduceCtorEq, List.not_mem_nil, or_false, false_or] at hm; subst hm; cases ha
        · intro p l hm
          simp only [List.mem_cons, List.not_mem_nil, or_false] at hm
          rcases hm with hm | hm
          · injection hm with _ hm; subst hm; exact hy
          · subst hm; cases ha
        · intro w h; rw [hp] at h; injection h with h; subst h; exact ⟨_, ha, by simp [ha.isInterest, isInterest_asked]⟩
        · intro h; rw [hp] at h; cases h
      | idle hp _ => exact ⟨by simp, by simp, fun w h => absurd (hp.symm.trans h) (by simp), by simp⟩
    obtain ⟨k1, k2, k3, k4⟩ := key
    refine ⟨hr, ?_, ?_, ?_, ?_⟩
    · intro cert hd
      rcases Did.append.mp hd with hd | hd
      · exact i.installed cert hd
      · exact k1 cert (Did.single.mp hd)
    · rintro ⟨p, l, hd, hl⟩
      rcases Did.append.mp hd with hd | hd
      · exact i.refused ⟨p, l, hd, hl⟩
      · exact hl (k2 p l (Did.single.mp hd))
    · rw [lastActs_concat]; exact k3
    · rw [lastActs_concat]; exact k4

theorem runDiscovery_asks (c : Client) (ca full : Name) : (∀ p l, .asked p l ∉ (runDiscovery c ca full).acts) ∧ (runDiscovery c ca full).ended ≠ .exit 0 := by
  unfold runDiscovery
  split <;> simp

theorem selectCaProfile_both (c : Client) : (∀ p l, .asked p l ∉ (selectCaProfile T file c).acts) ∧ (selectCaProfile T file c).ended ≠ .exit 0 := by
  unfold selectCaProfile
  split
  · simp
  · simp
  · dsimp only
    split
    · split
      · simp
      · exact runDiscovery_asks _ _ _
    · split
      · simp
      · split
        · simp
        · exact runDiscovery_asks _ _ _

theorem selectCaProfile_asks (c : Client) : ∀ p l, .asked p l ∉ (selectCaProfile T file c).acts := (selectCaProfile_both c).1
theorem selectCaProfile_exit (c : Client) : (selectCaProfile T file c).ended ≠ .exit 0 := (selectCaProfile_both c).2

theorem step_idle {env : ClientEnv} {c : Client} (hp : c.pending = none) {e : ClientEvent} (he : e ≠ .signal) :
    (c.step C env e).st.pending = none ∧ (c.step C env e).acts = [] ∧ (c.step C env e).ended = .going := by
  cases e with
  | signal => exact absurd rfl he
  | nack =>
    have : c.step C env .nack = if c.pending = none then { st := c } else { st := c, ended := .exit 1 } := rfl
    rw [this, if_pos hp]
    exact ⟨hp, rfl, rfl⟩
  | timeout => exact ⟨rfl, rfl, rfl⟩
  | reply d w =>
    have : c.step C env (.reply d w) = { st := c } := by unfold Client.step; rw [hp]
    rw [this]
    exact ⟨hp, rfl, rfl⟩

/-- the state of a run is determined by its history -/
theorem ClientRun.unique {first first' : List Act} {h : List ClientStep} {c c' : Client} {x x' : Ended}
    (run : ClientRun C T file pib stdin first h c x) (run' : ClientRun C T file pib stdin first' h c' x') : c = c' ∧ x = x' := by
  induction run generalizing first' c' x' with
  | start o e =>
    generalize hh : ([] : List ClientStep) = h at run'
    cases run' with
    | start o' e' => rw [← e, ← e']; exact ⟨rfl, rfl⟩
    | step => simp at hh
  | @step first h c e env run o eo ih =>
    generalize hh : h ++ [⟨e, env, o.acts, o.ended⟩] = h' at run'
    cases run' with
    | start => simp at hh
    | @step _ h0 c0 e' env' run' o' eo' =>
      obtain ⟨rfl, hn⟩ := List.append_inj' hh rfl
      simp only [List.cons.injEq, ClientStep.mk.injEq, and_true] at hn
      obtain ⟨rfl, rfl, _⟩ := hn
      obtain ⟨rfl, _⟩ := ih run'
      rw [← eo, ← eo']
      exact ⟨rfl, rfl⟩

/-- once nothing is pending, nothing happens until a signal -/
theorem stalled {first : List Act} {h : List ClientStep} {c : Client} (run : ClientRun C T file pib stdin first h c .going) (hp : c.pending = none)
    {more : List ClientStep} {c' : Client} {x : Ended} (run' : ClientRun C T file pib stdin first (h ++ more) c' x)
    (hs : ∀ n ∈ more, n.event ≠ .signal) : x = .going ∧ ∀ n ∈ more, n.acts = [] := by
  suffices hmain : ∀ k c' x, ∀ more : List ClientStep, more.length = k → ClientRun C T file pib stdin first (h ++ more) c' x →
      (∀ n ∈ more, n.event ≠ .signal) → x = .going ∧ c'.pending = none ∧ ∀ n ∈ more, n.acts = [] by
    have := hmain _ c' x more rfl run' hs
    exact ⟨this.1, this.2.2⟩
  intro k
  induction k with
  | zero =>
    intro c' x more hl hr _
    rw [List.length_eq_zero_iff] at hl
    subst hl
    rw [List.append_nil] at hr
    obtain ⟨rfl, rfl⟩ := run.unique hr
    exact ⟨rfl, hp, by simp⟩
  | succ k ih =>
    intro c' x more hl hr hs
    rcases List.eq_nil_or_concat more with rfl | ⟨more', n, rfl⟩
    · simp at hl
    · rw [List.concat_eq_append] at hr hl hs ⊢
      generalize hh : h ++ (more' ++ [n]) = h' at hr
      cases hr with
      | start => simp at hh
      | @step _ h0 c0 e env run0 o eo =>
        rw [← List.append_assoc] at hh
        obtain ⟨rfl, hn⟩ := List.append_inj' hh rfl
        simp only [List.cons.injEq, and_true] at hn
        subst hn
        obtain ⟨_, i2, i3⟩ := ih _ _ more' (by simpa using hl) run0 (fun n hn => hs n (by simp [hn]))
        have he : e ≠ .signal := hs ⟨e, env, o.acts, o.ended⟩ (by simp)
        obtain ⟨s1, s2, s3⟩ := step_idle (C := C) (env := env) i2 he
        rw [eo] at s1 s2 s3
        refine ⟨s3, s1, ?_⟩
        intro n hn
        rcases List.mem_append.mp hn with hn | hn
        · exact i3 n hn
        · simp only [List.mem_singleton] at hn
          subst hn
          exact s2

end Ndncert
