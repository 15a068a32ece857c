import Verif.Spec.Server
import Verif.Lemmas.Count

namespace Ndncert

variable {σ : Type} {C : Crypto} {S : StoreI σ} {Inv : σ → Prop} {cfg : CaConfig}

/-- the certificates the status callback publishes -/
def newCerts (rs : List RequestState) : List Cert :=
  rs.filterMap (fun r => if r.status = .success ∧ r.requestType = .new then some r.cert else none)

/-- how callbacks and issued certificates go together in a handler -/
theorem publish_cases (s : CaState σ) (m : Msg) (env : Env)
    (hty : ∀ i r, m = .challenge i → Verified C S cfg s.store i env r → r.requestType = .new ∨ r.requestType = .revoke) :
    (callbacks (handle C S cfg s m env).effects = [] ∧
      ((handle C S cfg s m env).term = .done → issued (handle C S cfg s m env).effects = [])) ∨
    (∃ pre d r, (handle C S cfg s m env).effects = pre ++ [.put d, .callback r] ∧ callbacks pre = [] ∧
      newCerts [r] = issued pre) := by
  have newcase : ∀ ty i, (ty = .new ∨ ty = .revoke) →
      handle C S cfg s m env = onNewRenewRevoke C S cfg s.idKey s.store ty i env →
      (callbacks (handle C S cfg s m env).effects = [] ∧
        ((handle C S cfg s m env).term = .done → issued (handle C S cfg s m env).effects = [])) ∨
      (∃ pre d r, (handle C S cfg s m env).effects = pre ++ [.put d, .callback r] ∧ callbacks pre = [] ∧
        newCerts [r] = issued pre) := by
    intro ty i hty hh
    have hc := onNew_cases C S cfg s.idKey s.store ty hty i env
    rw [← hh] at hc
    generalize handle C S cfg s m env = o at hc
    cases hc with
    | accept pub cert secret st' h1 h2 h3 h4 h5 h6 h7 h8 =>
      right
      exact ⟨[.dbAdd _], _, _, rfl, rfl, rfl⟩
    | error code info hcode => exact .inl ⟨rfl, fun _ => rfl⟩
    | threwCa e _ => exact .inl ⟨rfl, fun h => by cases h⟩
    | threw pub cert _ _ _ e => exact .inl ⟨rfl, fun h => by cases h⟩
    | undefined r u _ => exact .inl ⟨rfl, fun h => by cases h⟩
  cases m with
  | new i => exact newcase .new i (.inl rfl) rfl
  | revoke i => exact newcase .revoke i (.inr rfl) rfl
  | probe i =>
    left
    have hh : handle C S cfg s (.probe i) env = onProbe C cfg i env := rfl
    rw [hh]
    unfold onProbe
    split
    · exact ⟨rfl, fun _ => rfl⟩
    · exact ⟨rfl, fun _ => rfl⟩
    · dsimp only
      split
      · exact ⟨rfl, fun _ => rfl⟩
      · exact ⟨rfl, fun _ => rfl⟩
      · split <;> exact ⟨rfl, fun _ => rfl⟩
  | challenge i =>
    have hc := onChallenge_cases C S cfg s.store i env
    have hh : handle C S cfg s (.challenge i) env = onChallenge C S cfg s.store i env := rfl
    rw [← hh] at hc
    generalize handle C S cfg s (.challenge i) env = o at hc
    cases hc with
    | undefined u _ => exact .inl ⟨rfl, fun h => by cases h⟩
    | noRequest info _ => exact .inl ⟨rfl, fun _ => rfl⟩
    | badSig r info _ _ => exact .inl ⟨rfl, fun _ => rfl⟩
    | reject r code info hv hcode => exact .inl ⟨rfl, fun _ => rfl⟩
    | early r t _ ht => exact .inl ⟨rfl, fun h => absurd h ht⟩
    | continued r div es k' out r2 payload hv ho hmc hst henc =>
      right
      obtain ⟨es', iv, _, hr2, _⟩ := challengeEncode_ok henc
      refine ⟨out.mails.map .mail ++ [.dbUpdate r2], mkData C cfg.profile.caPrefix i.name payload, r2, by simp, ?_, ?_⟩
      · rw [callbacks_append, callbacks_mail]; rfl
      · have h1 : r2.status = .challenge := by rw [hr2]; exact hst
        have h2 : issued (out.mails.map Effect.mail) = [] := by
          generalize out.mails = ms
          induction ms with
          | nil => rfl
          | cons m ms ih => exact ih
        rw [issued_append, h2]
        simp [newCerts, h1, issued]
    | contThrew r div es k' out t hv ho hmc hst ht => exact .inl ⟨callbacks_mail _, fun h => absurd h ht⟩
    | issued r div es k' out c r2 payload hv ho hmc hst hty' hiss henc =>
      right
      obtain ⟨es', iv, _, hr2, _⟩ := challengeEncode_ok henc
      have hnew : r.requestType = .new := by
        rcases hty i r rfl hv with h | h
        · exact h
        · rcases hty' with h' | h' <;> rw [h] at h' <;> cases h'
      have h1 : r2.requestType = .new := by
        rw [hr2]
        show out.req.requestType = .new
        rcases hmc.fixed with ⟨hcode, _⟩ | ⟨_, _, h3, _⟩
        · exfalso
          cases hmc <;> first | (cases hst; done) | exact hcode rfl
        · rw [h3]; exact hnew
      refine ⟨[.issue c, .dbDelete r.requestId], _, r2, rfl, rfl, ?_⟩
      have h2 : r2.status = .success := by rw [hr2]
      have h3 : r2.cert = c := by rw [hr2]
      simp [newCerts, h1, h2, h3, issued]
    | issueThrew r div es k' out c t hv ho hmc hst hty hiss ht => exact .inl ⟨rfl, fun h => absurd h ht⟩
    | revoked r div es k' out r2 payload hv ho hmc hst hty' henc =>
      right
      obtain ⟨es', iv, _, hr2, _⟩ := challengeEncode_ok henc
      have h1 : r2.requestType = .revoke := by
        rw [hr2]
        show out.req.requestType = .revoke
        rcases hmc.fixed with ⟨hcode, _⟩ | ⟨_, _, h3, _⟩
        · exfalso
          cases hmc <;> first | (cases hst; done) | exact hcode rfl
        · rw [h3]; exact hty'
      refine ⟨[.dbDelete r.requestId], _, r2, rfl, rfl, ?_⟩
      simp [newCerts, h1, issued]
    | revokeThrew r div es k' out t hv ho hmc hst hty ht => exact .inl ⟨rfl, fun h => absurd h ht⟩

/-- in a history, the published certificates of a step are those it announces, and a completed step announces what it issued -/
theorem step_published (hC : C.Lawful) (hS : LawfulStore C S Inv) (hcfg : NameFits cfg.profile.caPrefix)
    {h : List (Step σ)} {s : CaState σ} (hx : Exec C S cfg h s) {h1 h2 : List (Step σ)} {n : Step σ} (hh : h = h1 ++ n :: h2) :
    newCerts (callbacks n.effects) = n.announces ∧ (n.event.stops = false → n.announces = issued n.effects) := by
  obtain ⟨hx1, hwf, hposs, heff, _⟩ := hx.split h1 n h2 hh
  rcases run_effects C S cfg n.pre n.event with ⟨_, he⟩ | ⟨m, env, k, hm, he⟩
  · rw [← heff] at he
    unfold Step.announces
    rw [he]
    exact ⟨rfl, fun _ => rfl⟩
  have hpend : ∀ id r, S.view n.pre.store id = some r → r.requestType = .new ∨ r.requestType = .revoke := by
    intro id r hv
    obtain ⟨_, _, _, ty, _, _, r0, _, hadd, hsame, _⟩ := hx1.pending hC hS hcfg hv
    obtain ⟨secret, hr0⟩ := hadd.state
    have h1 : r0.requestType = ty := by rw [hr0]; rfl
    rw [← hsame.2.2.1, h1]
    exact hadd.type
  have hi := (hx1.life hC hS hcfg).1
  have hcase := publish_cases (C := C) (S := S) (cfg := cfg) n.pre m env (by
    intro i r hmi hv
    subst hmi
    obtain ⟨hmwf, hewf⟩ := hwf _ _ hm
    have hau := (verified_authentic hS hi (idFits_of_wf hmwf) hewf.stack).mp hv
    exact hpend _ _ hau.pending)
  rw [← heff] at he
  have hfull : n.event.stops = false → n.effects = (handle C S cfg n.pre m env).effects ∧ (handle C S cfg n.pre m env).term = .done := by
    intro hs
    cases hev : n.event with
    | msg m' env' =>
      rw [hev] at hm hposs heff
      cases hm
      exact ⟨heff, hposs⟩
    | crash m' env' k' nk => rw [hev] at hs; cases hs
    | restart nk => rw [hev] at hs; cases hs
  rcases hcase with ⟨h1, h2⟩ | ⟨pre, d, r, h1, h2, h3⟩
  · have hnil : callbacks n.effects = [] := by
      rw [he]
      rw [callbacks_eq] at h1 ⊢
      exact List.sublist_nil.mp (h1 ▸ (List.take_sublist k _).filterMap _)
    refine ⟨by unfold Step.announces; rw [hnil]; rfl, fun hs => ?_⟩
    obtain ⟨h4, h5⟩ := hfull hs
    unfold Step.announces
    rw [if_pos hnil, h4, h2 h5]
  · have hiss : issued (pre ++ [Effect.put d, .callback r]) = issued pre := by rw [issued_append]; simp [issued]
    have hcb : callbacks (pre ++ [Effect.put d, .callback r]) = [r] := by rw [callbacks_append, h2]; rfl
    by_cases hk : pre.length + 2 ≤ k
    · have hall : n.effects = pre ++ [Effect.put d, .callback r] := by
        rw [he, h1]
        exact List.take_of_length_le (by simp; omega)
      unfold Step.announces
      rw [hall, hcb, hiss]
      exact ⟨by rw [if_neg (by simp)]; exact h3, fun _ => by rw [if_neg (by simp)]⟩
    · have hsplit : n.effects = (pre ++ [Effect.put d]).take k := by
        rw [he, h1, show pre ++ [Effect.put d, .callback r] = (pre ++ [Effect.put d]) ++ [.callback r] from by rw [List.append_assoc]; rfl]
        exact List.take_append_of_le_length (by simp; omega)
      have hnil : callbacks n.effects = [] := by
        rw [hsplit]
        have h4 : callbacks (pre ++ [Effect.put d]) = [] := by rw [callbacks_append, h2]; rfl
        rw [callbacks_eq] at h4 ⊢
        exact List.sublist_nil.mp (h4 ▸ (List.take_sublist k _).filterMap _)
      refine ⟨by unfold Step.announces; rw [hnil]; rfl, fun hs => ?_⟩
      obtain ⟨h4, _⟩ := hfull hs
      exfalso
      have h5 := congrArg List.length (h4.trans h1)
      rw [hsplit] at h5
      simp at h5
      omega

/-! ## The server's variables -/

theorem step_fold (repo : Bool) (es : List Effect) (sv : Server) :
    es.foldl (fun sv x => match x with | .callback r => Server.onStatus repo sv r | _ => sv) sv =
      (callbacks es).foldl (Server.onStatus repo) sv := by
  induction es generalizing sv with
  | nil => rfl
  | cons e es ih => cases e <;> exact ih _

theorem step_eq (repo : Bool) (next : Data) (sv : Server) (e : Event) (es : List Effect) :
    Server.step repo next sv e es =
      if e.stops then Server.start repo next ((callbacks es).foldl (Server.onStatus repo) sv).written
      else (callbacks es).foldl (Server.onStatus repo) sv := by
  rw [← step_fold]
  rfl

theorem status_repo (rs : List RequestState) (sv : Server) :
    (rs.foldl (Server.onStatus true) sv).written = sv.written ++ (newCerts rs).map .cert := by
  induction rs generalizing sv with
  | nil => simp [newCerts]
  | cons r rs ih =>
    rw [List.foldl_cons, ih]
    unfold Server.onStatus newCerts
    split
    · next h => rw [List.filterMap_cons, if_pos h]; simp
    · next h => rw [List.filterMap_cons, if_neg h]

theorem take_cons_dropLast {α : Type} (a : α) (l : List α) (n : Nat) (h : n ≤ l.length) :
    (a :: l.take n).dropLast = (a :: l).take n := by
  cases n with
  | zero => simp
  | succ n =>
    rw [List.dropLast_eq_take]
    simp only [List.length_cons, List.length_take, Nat.add_sub_cancel, List.take_succ_cons]
    rw [Nat.min_eq_left h, List.take_succ_cons, List.take_take, Nat.min_eq_left (by omega)]

theorem status_cache (rs : List RequestState) (sv : Server) (all : List Cert) (hc : sv.cache = all.take maxCached) :
    (rs.foldl (Server.onStatus false) sv).cache = ((newCerts rs).reverse ++ all).take maxCached ∧
    (rs.foldl (Server.onStatus false) sv).written = sv.written ∧ (rs.foldl (Server.onStatus false) sv).profile = sv.profile := by
  induction rs generalizing sv all with
  | nil => simp [newCerts, hc]
  | cons r rs ih =>
    rw [List.foldl_cons]
    by_cases h : r.status = .success ∧ r.requestType = .new
    · have e1 : (Server.onStatus false sv r).cache = (r.cert :: all).take maxCached := by
        unfold Server.onStatus
        rw [if_pos h]
        simp only [Bool.false_eq_true, if_false]
        rw [hc]
        by_cases hl : maxCached ≤ all.length
        · rw [if_pos (by simp; omega), take_cons_dropLast _ _ _ hl]
        · rw [if_neg (by simp; omega), List.take_of_length_le (by omega), List.take_of_length_le (by simp; omega)]
      have e2 : (Server.onStatus false sv r).written = sv.written ∧ (Server.onStatus false sv r).profile = sv.profile := by
        unfold Server.onStatus
        rw [if_pos h]
        exact ⟨rfl, rfl⟩
      obtain ⟨i1, i2, i3⟩ := ih _ _ e1
      refine ⟨?_, i2.trans e2.1, i3.trans e2.2⟩
      rw [i1]
      unfold newCerts
      rw [List.filterMap_cons, if_pos h]
      simp
    · have e1 : Server.onStatus false sv r = sv := by unfold Server.onStatus; rw [if_neg h]
      rw [e1]
      have : newCerts (r :: rs) = newCerts rs := by
        unfold newCerts
        rw [List.filterMap_cons, if_neg h]
      rw [this]
      exact ih sv all hc

theorem sinceStart_append (h : List (Step σ)) (n : Step σ) :
    sinceStart (h ++ [n]) = if n.event.stops then [] else sinceStart h ++ [n] := by
  unfold sinceStart
  rw [List.reverse_append, List.reverse_singleton, List.singleton_append, List.takeWhile_cons]
  cases n.event.stops <;> simp

end Ndncert
