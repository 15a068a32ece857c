import Verif.Spec.Race
import Verif.Lemmas.Count
import Verif.Lemmas.Sqlite

namespace Ndncert

variable {C : Crypto}

/-! ## An UPDATE of a row that may have changed, or gone, since it was read -/

/-- `r` with the columns an UPDATE leaves alone -/
def overRow (r0 r : RequestState) : RequestState :=
  { r with caPrefix := r0.caPrefix, requestType := r0.requestType, cert := r0.cert, encryptionKey := r0.encryptionKey }

theorem updateRow_overRow (r0 r : RequestState) (row : Row) : updateRow (overRow r0 r) row = updateRow r row := by
  unfold updateRow overRow
  dsimp only

theorem overRow_storable {r0 r : RequestState} (h0 : Storable C r0) (h : Storable C r) : Storable C (overRow r0 r) where
  cert := h0.cert
  certFits := h0.certFits
  caFits := h0.caFits
  key := h0.key
  status := h.status
  chal := h.chal
  chalFits := h.chalFits

/-- what an UPDATE does to the database, whatever happened to it since the row was read -/
theorem sql_update_any {db : Db} {r : RequestState} (h : SqlInv C db) (hs : Storable C r) :
    SqlInv C (applyEffect (sqlStore C) db (.dbUpdate r)) ∧
    ∀ id, (sqlStore C).view (applyEffect (sqlStore C) db (.dbUpdate r)) id =
      if id = r.requestId then ((sqlStore C).view db id).map (fun r0 => normState (overRow r0 r)) else (sqlStore C).view db id := by
  cases hv : (sqlStore C).view db r.requestId with
  | none =>
    have hn := (sql_view_none h _).mp hv
    have he : applyEffect (sqlStore C) db (.dbUpdate r) = db := by
      show db.map (fun x => if x.requestId == r.requestId then updateRow r x else x) = db
      conv => rhs; rw [← List.map_id db]
      apply List.map_congr_left
      intro x hx
      have : (x.requestId == r.requestId) = false := by simpa using hn x hx
      simp [this]
    rw [he]
    refine ⟨h, ?_⟩
    intro id
    split
    · rename_i hid
      rw [hid, hv]; rfl
    · rfl
  | some r0 =>
    obtain ⟨_, _, rr, h1, h2, h3, h4⟩ := sql_view_some h hv
    have hst0 : Storable C r0 := by rw [h4]; exact normState_storable h2
    have hid : r0.requestId = r.requestId := (sqlStore_lawful C).get_id _ _ _ h hv
    obtain ⟨db', u1, u2, u3⟩ := sqlStore_update_view (r := overRow r0 r) h (overRow_storable hst0 hs) hv
      ⟨hid, rfl, rfl, rfl, rfl⟩
    have he : applyEffect (sqlStore C) db (.dbUpdate r) = db' := by
      have e1 : (sqlStore C).update db (overRow r0 r) = (sqlStore C).update db r := by
        show Res.ok (db.map (fun x => if x.requestId == (overRow r0 r).requestId then updateRow (overRow r0 r) x else x)) = _
        simp only [updateRow_overRow]
        rfl
      rw [e1] at u1
      show (match (sqlStore C).update db r with | .ok s => s | _ => db) = db'
      rw [u1]
    rw [he]
    refine ⟨u2, ?_⟩
    intro id
    rw [u3 id]
    show (if id = r.requestId then _ else _) = _
    split
    · rename_i hh
      rw [hh, hv]; rfl
    · rfl

theorem InChallenge.over {r r0 : RequestState} {k : ChalKind} {env : Env} {cs : ChallengeState} (h : InChallenge C (normState r) k env cs) :
    InChallenge C (normState (overRow r0 r)) k env cs := ⟨h.status, h.state, h.type, h.tries, h.encIv, h.decIv, h.encCtr, h.secret⟩

/-! ## The past of a row -/

/-- the step a handler would be if it were alone -/
def Done.step (C : Crypto) (d : Done) : Step Db :=
  ⟨⟨d.seen, d.idKey⟩, .msg d.msg d.env, (handle C (sqlStore C) d.cfg ⟨d.seen, d.idKey⟩ d.msg d.env).effects⟩

/-- a row that is or was in the database -/
def Past (C : Crypto) (log : List Done) (r : RequestState) : Prop :=
  (∃ d ∈ log, ∃ ty i r0, d.effect = .dbAdd r0 ∧ AddedBy C (sqlStore C) d.cfg (d.step C) ty i d.env r0 ∧ SameRequest r0 r) ∧
  (Fresh r ∨ ∃ d ∈ log, ∃ i r2 k cs, d.Starts C i r2 k ∧ r2.requestId = r.requestId ∧ InChallenge C r k d.env cs)

theorem Past.mono {log log' : List Done} {r : RequestState} (h : Past C log r) (hsub : ∀ d ∈ log, d ∈ log') : Past C log' r := by
  obtain ⟨⟨d, hd, h1⟩, h2⟩ := h
  refine ⟨⟨d, hsub d hd, h1⟩, ?_⟩
  rcases h2 with h2 | ⟨d', hd', h2⟩
  · exact .inl h2
  · exact .inr ⟨d', hsub d' hd', h2⟩

/-- a state of the database in which every row has a past -/
structure Rows (C : Crypto) (log : List Done) (db : Db) : Prop where
  inv : SqlInv C db
  past : ∀ id r, (sqlStore C).view db id = some r → Past C log r

theorem Rows.mono {log log' : List Done} {db : Db} (h : Rows C log db) (hsub : ∀ d ∈ log, d ∈ log') : Rows C log' db :=
  ⟨h.inv, fun id r hv => (h.past id r hv).mono hsub⟩

/-- a handler at work does what the handler does on the database it saw -/
structure WorkOk (C : Crypto) (log : List Done) (x : Proc) (w : Work) : Prop where
  wf : w.msg.Wf x.cfg
  ewf : w.env.Wf
  rows : Rows C log w.seen
  todo : ∃ l, (handle C (sqlStore C) x.cfg ⟨w.seen, x.idKey⟩ w.msg w.env).effects = l ++ w.todo
  first : w.msg.readsFirst = false → w.todo = []

/-- process `p` has removed request `id`, and no request with this id was created since -/
def Gone (log : List Done) (p : Nat) (id : RequestId) : Prop :=
  ∃ l1 a l2, log = l1 ++ a :: l2 ∧ a.proc = p ∧ a.effect = .dbDelete id ∧ ∀ m ∈ l2, ∀ r, m.effect = .dbAdd r → r.requestId ≠ id

theorem Gone.snoc {log : List Done} {d : Done} {p : Nat} {id : RequestId} (h : Gone (log ++ [d]) p id) :
    (Gone log p id ∧ ∀ r, d.effect = .dbAdd r → r.requestId ≠ id) ∨ (d.proc = p ∧ d.effect = .dbDelete id) := by
  obtain ⟨l1, a, l2, hh, h1, h2, h3⟩ := h
  rcases List.eq_nil_or_concat l2 with rfl | ⟨l2', y, rfl⟩
  · obtain ⟨rfl, h4⟩ := List.append_inj' hh rfl
    simp only [List.cons.injEq, and_true] at h4
    subst h4
    exact .inr ⟨h1, h2⟩
  · rw [List.concat_eq_append, ← List.cons_append, ← List.append_assoc] at hh
    obtain ⟨h4, h5⟩ := List.append_inj' hh rfl
    simp only [List.cons.injEq, and_true] at h5
    subst h5
    refine .inl ⟨⟨l1, a, l2', h4, h1, h2, fun m hm => h3 m (by simp [hm])⟩, h3 d (by simp)⟩

theorem Gone.app {log : List Done} {p : Nat} {id : RequestId} : ∀ (ds : List Done), (∀ d ∈ ds, ∀ id', d.effect ≠ .dbDelete id') →
    Gone (log ++ ds) p id → Gone log p id ∧ ∀ d ∈ ds, ∀ r, d.effect = .dbAdd r → r.requestId ≠ id := by
  intro ds
  induction ds generalizing log with
  | nil => intro _ h; exact ⟨by simpa using h, by simp⟩
  | cons d ds ih =>
    intro hnd h
    have h' : Gone ((log ++ [d]) ++ ds) p id := by simpa using h
    obtain ⟨h1, h2⟩ := ih (fun x hx => hnd x (by simp [hx])) h'
    rcases h1.snoc with ⟨h3, h4⟩ | ⟨_, h4⟩
    · refine ⟨h3, ?_⟩
      intro x hx
      simp only [List.mem_cons] at hx
      rcases hx with rfl | hx
      · exact h4
      · exact h2 x hx
    · exact absurd h4 (hnd d (by simp) id)

/-- after it has removed a request, a handler signs nothing -/
theorem nothing_signed_after {cfg : CaConfig} {s : CaState Db} {m : Msg} {env : Env} {l1 l2 : List Effect} {id : RequestId}
    (h : (handle C (sqlStore C) cfg s m env).effects = l1 ++ .dbDelete id :: l2) (c : Cert) : Effect.issue c ∉ l2 := by
  intro hc
  have hmem : Effect.issue c ∈ (handle C (sqlStore C) cfg s m env).effects := by rw [h]; simp [hc]
  obtain ⟨i, _, _, _, _, _, rfl, _⟩ := issue_case hmem
  have hcase := onChallenge_cases C (sqlStore C) cfg s.store i env
  have hh : handle C (sqlStore C) cfg s (.challenge i) env = onChallenge C (sqlStore C) cfg s.store i env := rfl
  rw [hh] at h hmem
  generalize onChallenge C (sqlStore C) cfg s.store i env = o at *
  cases hcase <;> try (simp at hmem; done)
  · dsimp only at h
    rcases l1 with _ | ⟨e1, _ | ⟨e2, _ | ⟨e3, _ | ⟨e4, l1⟩⟩⟩⟩ <;> simp at h
    obtain ⟨_, _, rfl⟩ := h
    simp at hc
  · dsimp only at h
    rcases l1 with _ | ⟨e1, _ | ⟨e2, l1⟩⟩ <;> simp at h
    obtain ⟨_, _, rfl⟩ := h
    simp at hc

/-- the facts behind a certificate that is signed -/
structure Origin (C : Crypto) (log : List Done) (d : Done) (c : Cert) : Prop where
  inv : SqlInv C d.seen
  facts : ∃ i r es k', d.Challenges C i r es k' ∧ Reissues C d.cfg d.env.version r.cert c ∧
    (∃ a ∈ log, ∃ i0 r0, a.AcceptsNew i0 r0 ∧ NewPolicy C a.cfg i0 a.env r0.cert ∧ SameRequest r0 r) ∧
    ∃ b ∈ log, ∃ i2 r2 k, b.Starts C i2 r2 k ∧ r2.requestId = r.requestId ∧ Answered C b.env k es

structure RaceInv (C : Crypto) (log : List Done) (s : RaceState) : Prop where
  rows : Rows C log s.db
  procs : ∀ (p : Nat) (x : Proc), s.procs[p]? = some x → NameFits x.cfg.profile.caPrefix ∧ ∀ w, x.work = some w → WorkOk C log x w
  gone : ∀ (p : Nat) (id : RequestId), Gone log p id → (sqlStore C).view s.db id = none ∧
    ∀ (x : Proc) (w : Work), s.procs[p]? = some x → x.work = some w → (∀ c, Effect.issue c ∉ w.todo) ∨ (sqlStore C).view w.seen id = none
  signed : ∀ l1 d l2 c, log = l1 ++ d :: l2 → d.effect = .issue c →
    Origin C l1 d c ∧ ∀ id, Gone l1 d.proc id → (sqlStore C).view d.seen id = none

theorem set_procs {s : RaceState} {p q : Nat} {y z : Proc} {db : Db} (h : (s.set p y db).procs[q]? = some z) :
    (q = p ∧ z = y) ∨ (q ≠ p ∧ s.procs[q]? = some z) := by
  unfold RaceState.set at h
  dsimp only at h
  rw [List.getElem?_set] at h
  split at h
  · rename_i he
    split at h
    · simp only [Option.some.injEq] at h
      exact .inl ⟨he.symm, h.symm⟩
    · cases h
  · rename_i hne
    exact .inr ⟨fun e => hne e.symm, h⟩

theorem WorkOk.mono {log log' : List Done} {x : Proc} {w : Work} (h : WorkOk C log x w) (hsub : ∀ d ∈ log, d ∈ log') : WorkOk C log' x w :=
  ⟨h.wf, h.ewf, h.rows.mono hsub, h.todo, h.first⟩

/-- the statement a handler executes next for the database, and why -/
theorem next_db {log : List Done} {x : Proc} {w : Work} {e : Effect} {es : List Effect} (hw : WorkOk C log x w) (ht : w.todo = e :: es)
    (hdb : e.isDb = true) (p : Nat) :
    (∃ i k els out r0 r1, e = .dbUpdate r1 ∧ UpdatedBy C (sqlStore C) x.cfg (Done.step C ⟨p, x.cfg, x.idKey, w.msg, w.env, w.seen, e⟩) i w.env k els out r0 r1) ∨
    (∃ i r, e = .dbDelete r.requestId ∧ w.msg = .challenge i ∧ Verified C (sqlStore C) x.cfg w.seen i w.env r) := by
  have hwf : (Done.step C ⟨p, x.cfg, x.idKey, w.msg, w.env, w.seen, e⟩).event.Wf x.cfg := by
    intro m env hm
    simp only [Done.step, Event.msg?, Option.some.injEq, Prod.mk.injEq] at hm
    obtain ⟨rfl, rfl⟩ := hm
    exact ⟨hw.wf, hw.ewf⟩
  have hcase := step_db C (sqlStore C) x.cfg (Done.step C ⟨p, x.cfg, x.idKey, w.msg, w.env, w.seen, e⟩) hwf rfl
  obtain ⟨l, hl⟩ := hw.todo
  have hmem : e ∈ dbOps (Done.step C ⟨p, x.cfg, x.idKey, w.msg, w.env, w.seen, e⟩).effects := by
    rw [mem_dbOps hdb]
    show e ∈ (handle C (sqlStore C) x.cfg ⟨w.seen, x.idKey⟩ w.msg w.env).effects
    rw [hl, ht]
    simp
  have hev : (Done.step C ⟨p, x.cfg, x.idKey, w.msg, w.env, w.seen, e⟩).event.msg? = some (w.msg, w.env) := rfl
  generalize dbOps (Done.step C ⟨p, x.cfg, x.idKey, w.msg, w.env, w.seen, e⟩).effects = ops at hcase hmem
  cases hcase with
  | none => cases hmem
  | add ty i env r ha =>
    exfalso
    obtain ⟨m, hm, hr⟩ := ha.event
    rw [hev] at hm
    cases hm
    have : w.msg.readsFirst = false := by
      cases hmsg : w.msg <;> rw [hmsg] at hr <;> simp [Msg.request?] at hr <;> rfl
    rw [hw.first this] at ht
    cases ht
  | update i env k els out r0 r1 hu =>
    simp only [List.mem_singleton] at hmem
    have h1 := hu.event
    rw [hev] at h1
    simp only [Option.some.injEq, Prod.mk.injEq] at h1
    obtain ⟨h1, rfl⟩ := h1
    exact .inl ⟨i, k, els, out, r0, r1, hmem, hu⟩
  | delete i env r h hv =>
    simp only [List.mem_singleton] at hmem
    rw [hev] at h
    simp only [Option.some.injEq, Prod.mk.injEq] at h
    obtain ⟨h1, rfl⟩ := h
    exact .inr ⟨i, r, hmem, h1, hv⟩

/-- the database after the next effect of a handler -/
theorem act_rows {log : List Done} {db : Db} {x : Proc} {w : Work} {e : Effect} {es : List Effect} (hrows : Rows C log db)
    (hw : WorkOk C log x w) (ht : w.todo = e :: es) (p : Nat) :
    Rows C (log ++ [⟨p, x.cfg, x.idKey, w.msg, w.env, w.seen, e⟩]) (applyEffect (sqlStore C) db e) := by
  have hsub : ∀ d ∈ log, d ∈ log ++ [⟨p, x.cfg, x.idKey, w.msg, w.env, w.seen, e⟩] := fun d hd => List.mem_append_left _ hd
  cases hdb : e.isDb with
  | false =>
    have : applyEffect (sqlStore C) db e = db := by cases e <;> first | rfl | cases hdb
    rw [this]
    exact hrows.mono hsub
  | true =>
    rcases next_db hw ht hdb p with ⟨i, k, els, out, r0, r1, he, hu⟩ | ⟨i, r, rfl, hm, hv⟩
    · have hinv := hw.rows.inv
      have hS := sqlStore_lawful C
      have hau := (verified_authentic hS hinv (idFits_of_wf (show (Msg.challenge i).Wf x.cfg from hu.mwf)) hw.ewf.stack).mp hu.verified
      have hpast := hw.rows.past _ _ hau.pending
      obtain ⟨div, ho, hm⟩ := hu.module
      obtain ⟨payload, henc⟩ := hu.encode
      have hsame := sameRequest_challenge hm hu.status henc
      have hstor := storable_challenge (hS.get_storable _ _ _ hinv hau.pending) hm hu.status henc
      have hmsg : w.msg = .challenge i := by
        have h1 := hu.event
        simp only [Done.step, Event.msg?, Option.some.injEq, Prod.mk.injEq] at h1
        exact h1.1
      rw [he] at hsub ⊢
      obtain ⟨hinv', hview⟩ := sql_update_any hrows.inv hstor
      refine ⟨hinv', ?_⟩
      intro id r hr
      rw [hview] at hr
      split at hr
      · rename_i hid
        rw [Option.map_eq_some_iff] at hr
        obtain ⟨row, hrow, rfl⟩ := hr
        obtain ⟨⟨d, hd, ty, i0, r00, g1, g2, g3⟩, _⟩ := hrows.past _ _ hrow
        have hrowid : row.requestId = r1.requestId := by rw [← hid]; exact hS.get_id _ _ _ hrows.inv hrow
        refine ⟨⟨d, hsub d hd, ty, i0, r00, g1, g2, ?_⟩, ?_⟩
        · exact ⟨g3.1.trans hrowid, g3.2.1, g3.2.2.1, g3.2.2.2.1, g3.2.2.2.2⟩
        · right
          rcases hpast.2 with hf | ⟨d', hd', i2, r2, k0, cs0, h2, h3, h4⟩
          · obtain ⟨cs, h5, _, h6⟩ := start_inChallenge hu.wf hf ho hm hu.status henc (normState_same r1)
            refine ⟨⟨p, x.cfg, x.idKey, w.msg, w.env, w.seen, .dbUpdate r1⟩, by simp, i, r0, k, cs, ?_, hsame.1, h5.over⟩
            exact ⟨⟨els, hmsg, hau, ho.selects⟩, hf.1, r1, rfl, hsame.1.symm, h6⟩
          · obtain ⟨cs, h5, _⟩ := again_inChallenge hu.wf h4 ho hm hu.status henc (normState_same r1)
            exact ⟨d', hsub d' hd', i2, r2, k0, cs, h2, h3.trans hsame.1, h5.over⟩
      · exact (hrows.past _ _ hr).mono hsub
    · obtain ⟨hinv', hview⟩ := sqlStore_delete_view (C := C) hrows.inv r.requestId
      refine ⟨hinv', ?_⟩
      intro id r' hr
      have hr' : (sqlStore C).view ((sqlStore C).delete db r.requestId) id = some r' := hr
      rw [hview] at hr'
      split at hr'
      · cases hr'
      · exact (hrows.past _ _ hr').mono hsub

/-- what lies behind a certificate that a handler is about to sign -/
theorem act_origin (hC : C.Lawful) {log : List Done} {x : Proc} {w : Work} {c : Cert} {es : List Effect}
    (hw : WorkOk C log x w) (ht : w.todo = .issue c :: es) (p : Nat) :
    Origin C log ⟨p, x.cfg, x.idKey, w.msg, w.env, w.seen, .issue c⟩ c := by
  obtain ⟨l, hl⟩ := hw.todo
  have hmem : Effect.issue c ∈ (handle C (sqlStore C) x.cfg ⟨w.seen, x.idKey⟩ w.msg w.env).effects := by rw [hl, ht]; simp
  obtain ⟨i, r, div, els, k', out, hmsg, hv, ho, hm, hst, hty, hiss⟩ := issue_case hmem
  have hS := sqlStore_lawful C
  have hau := (verified_authentic hS hw.rows.inv (idFits_of_wf (by rw [← hmsg]; exact hw.wf)) hw.ewf.stack).mp hv
  obtain ⟨⟨a, ha, ty, i0, r0, g1, g2, g3⟩, hchal⟩ := hw.rows.past _ _ hau.pending
  have hty0 : ty = .new := by
    obtain ⟨secret, hr0⟩ := g2.state
    have h1 : r0.requestType = ty := by rw [hr0]; rfl
    have h2 := g3.2.2.1
    rw [h1] at h2
    rcases g2.type with h | h
    · exact h
    · rw [h] at h2
      rcases hty with h3 | h3 <;> rw [← h2] at h3 <;> cases h3
  subst hty0
  obtain ⟨mm, hmm, hreq⟩ := g2.event
  have hmm' : a.msg = .new i0 := by
    simp only [Done.step, Event.msg?, Option.some.injEq, Prod.mk.injEq] at hmm
    rw [hmm.1]
    cases mm <;> simp [Msg.request?] at hreq
    rw [hreq]
  obtain ⟨hpol1, hpol2, hpol3⟩ := g2.new rfl
  have hcert : out.req.cert = r.cert := by cases hm <;> rfl
  have hre := issueCertificate_reissues hiss
  rw [hcert] at hre
  rcases hchal with hfresh | ⟨b, hb, i2, r2, k, cs, h2, h3, h4⟩
  · exfalso
    cases hm with
    | error code info hcode => cases hst
    | start cstat secrets mails hs0 hsc => cases hst
    | wrong cs code given hns hk ha hg hne ht htr time => cases hst
    | code cs0 code hs hk ha hg ht => exact hs hfresh.1
    | proof cs0 cred nonce p hs hk ha hg hl hv => exact hs hfresh.1
  · exact ⟨hw.rows.inv, i, r, els, k', ⟨hmsg, hau, ho.selects⟩, hre,
      ⟨a, ha, i0, r0, ⟨hmm', g1⟩, ⟨g2.submits, g2.name, hpol1, hpol2, hpol3⟩, g3⟩,
      b, hb, i2, r2, k, h2, h3, (answered hC h4 hm hst).1⟩

/-- the database after a handler that looks at it only in its one statement -/
theorem start_rows (hC : C.Lawful) {log : List Done} {db : Db} {x : Proc} {m : Msg} {env : Env} (hrows : Rows C log db)
    (hfit : NameFits x.cfg.profile.caPrefix) (hwf : m.Wf x.cfg) (hewf : env.Wf) (hm : m.readsFirst = false) (p : Nat) :
    Rows C (log ++ (handle C (sqlStore C) x.cfg ⟨db, x.idKey⟩ m env).effects.map (fun e => ⟨p, x.cfg, x.idKey, m, env, db, e⟩))
      (applyEffects (sqlStore C) db (handle C (sqlStore C) x.cfg ⟨db, x.idKey⟩ m env).effects) ∧
    (∀ e ∈ (handle C (sqlStore C) x.cfg ⟨db, x.idKey⟩ m env).effects, (∀ id, e ≠ .dbDelete id) ∧ ∀ c, e ≠ .issue c) ∧
    ∀ id, (∀ r, .dbAdd r ∈ (handle C (sqlStore C) x.cfg ⟨db, x.idKey⟩ m env).effects → r.requestId ≠ id) →
      (sqlStore C).view db id = none →
      (sqlStore C).view (applyEffects (sqlStore C) db (handle C (sqlStore C) x.cfg ⟨db, x.idKey⟩ m env).effects) id = none := by
  have hwf' : (Event.msg m env).Wf x.cfg := by
    intro m' env' hm'
    simp only [Event.msg?, Option.some.injEq, Prod.mk.injEq] at hm'
    obtain ⟨rfl, rfl⟩ := hm'
    exact ⟨hwf, hewf⟩
  have hev : ∀ i : Interest, m ≠ .challenge i := by rintro i rfl; cases hm
  let n : Step Db := ⟨⟨db, x.idKey⟩, .msg m env, (handle C (sqlStore C) x.cfg ⟨db, x.idKey⟩ m env).effects⟩
  obtain ⟨hinv, hcase⟩ := step_view (n := n) hC (sqlStore_lawful C) hfit hrows.inv hwf' rfl
  have hsub : ∀ d ∈ log, d ∈ log ++ (handle C (sqlStore C) x.cfg ⟨db, x.idKey⟩ m env).effects.map (fun e => ⟨p, x.cfg, x.idKey, m, env, db, e⟩) :=
    fun d hd => List.mem_append_left _ hd
  have hafter : n.afterStore (sqlStore C) = applyEffects (sqlStore C) db (handle C (sqlStore C) x.cfg ⟨db, x.idKey⟩ m env).effects := rfl
  rw [hafter] at hinv hcase
  have hno : (∀ e ∈ (handle C (sqlStore C) x.cfg ⟨db, x.idKey⟩ m env).effects, (∀ id, e ≠ .dbDelete id) ∧ ∀ c, e ≠ .issue c) := by
    intro e he
    constructor
    · rintro id rfl
      have hmem : Effect.dbDelete id ∈ dbOps n.effects := (mem_dbOps rfl).mpr he
      have hc := step_db C (sqlStore C) x.cfg n hwf' rfl
      generalize dbOps n.effects = ops at hmem hc
      cases hc with
      | none => cases hmem
      | add ty i env r ha => simp at hmem
      | update i env k es out r0 r1 hu => simp at hmem
      | delete i env' r h hv =>
        simp only [n, Event.msg?, Option.some.injEq, Prod.mk.injEq] at h
        exact hev _ h.1
    · rintro c rfl
      obtain ⟨i, _, _, _, _, _, h, _⟩ := issue_case he
      exact hev _ h
  cases hcase with
  | same h0 hsame =>
    refine ⟨⟨hinv, ?_⟩, hno, ?_⟩
    · intro id r hr
      rw [hsame] at hr
      exact (hrows.past _ _ hr).mono hsub
    · intro id _ h
      rw [hsame]; exact h
  | added ty i env' r0 hd ha h0 hv =>
    have henv : env' = env := by
      obtain ⟨m', hm', _⟩ := ha.event
      simp only [n, Event.msg?, Option.some.injEq, Prod.mk.injEq] at hm'
      exact hm'.2.symm
    subst henv
    refine ⟨⟨hinv, ?_⟩, hno, ?_⟩
    · intro id r hr
      rw [hv] at hr
      split at hr
      · cases hr
        refine ⟨⟨⟨p, x.cfg, x.idKey, m, env', db, .dbAdd r0⟩, ?_, ty, i, r0, rfl, ha, .refl _⟩, .inl (fresh_of_added ha)⟩
        apply List.mem_append_right
        exact List.mem_map.mpr ⟨_, ha.effect, rfl⟩
      · exact (hrows.past _ _ hr).mono hsub
    · intro id hne h
      rw [hv, if_neg (fun e => hne r0 ha.effect e.symm)]
      exact h
  | updated i env' k es out r0 r1 r' hd hu h0 hs hv =>
    exfalso
    have h := hu.event
    simp only [n, Event.msg?, Option.some.injEq, Prod.mk.injEq] at h
    exact hev _ h.1
  | deleted i env' r0 hd hev' hv' h0 hv =>
    exfalso
    simp only [n, Event.msg?, Option.some.injEq, Prod.mk.injEq] at hev'
    exact hev _ hev'.1

/-- the next effect of a handler creates no request -/
theorem act_absent {log : List Done} {db : Db} {x : Proc} {w : Work} {e : Effect} {es : List Effect} (hrows : Rows C log db)
    (hw : WorkOk C log x w) (ht : w.todo = e :: es) {id : RequestId} (h : (sqlStore C).view db id = none) :
    (sqlStore C).view (applyEffect (sqlStore C) db e) id = none := by
  cases hdb : e.isDb with
  | false =>
    have : applyEffect (sqlStore C) db e = db := by cases e <;> first | rfl | cases hdb
    rw [this]; exact h
  | true =>
    rcases next_db hw ht hdb 0 with ⟨i, k, els, out, r0, r1, he, hu⟩ | ⟨i, r, rfl, hm, hv⟩
    · have hinv := hw.rows.inv
      have hS := sqlStore_lawful C
      obtain ⟨hv, _⟩ := getCertificateRequest_some hS hinv hu.verified.found
      obtain ⟨div, ho, hm⟩ := hu.module
      obtain ⟨payload, henc⟩ := hu.encode
      have hstor := storable_challenge (hS.get_storable _ _ _ hinv hv) hm hu.status henc
      rw [he, (sql_update_any hrows.inv hstor).2, h]
      split <;> rfl
    · show (sqlStore C).view ((sqlStore C).delete db r.requestId) id = none
      rw [(sqlStore_delete_view hrows.inv r.requestId).2, h]
      split <;> rfl

theorem last_entry {log l1 l2 : List Done} {d a : Done} (h : log ++ [d] = l1 ++ a :: l2) :
    (l1 = log ∧ a = d) ∨ ∃ l2', log = l1 ++ a :: l2' := by
  rcases List.eq_nil_or_concat l2 with rfl | ⟨l2', y, rfl⟩
  · obtain ⟨h3, h4⟩ := List.append_inj' h rfl
    simp only [List.cons.injEq, and_true] at h4
    exact .inl ⟨h3.symm, h4.symm⟩
  · rw [List.concat_eq_append, ← List.cons_append, ← List.append_assoc] at h
    obtain ⟨h4, _⟩ := List.append_inj' h rfl
    exact .inr ⟨l2', h4⟩

theorem last_entries {log : List Done} : ∀ (ds : List Done) {l1 l2 : List Done} {a : Done}, log ++ ds = l1 ++ a :: l2 →
    a ∈ ds ∨ ∃ l2', log = l1 ++ a :: l2' := by
  intro ds
  induction ds generalizing log with
  | nil => intro l1 l2 a h; exact .inr ⟨l2, by simpa using h⟩
  | cons d ds ih =>
    intro l1 l2 a h
    have h' : (log ++ [d]) ++ ds = l1 ++ a :: l2 := by simpa using h
    rcases ih h' with h1 | ⟨l2', h1⟩
    · exact .inl (by simp [h1])
    · rcases last_entry h1 with ⟨_, rfl⟩ | h2
      · exact .inl (by simp)
      · exact .inr h2

theorem RaceExec.inv (hC : C.Lawful) {log : List Done} {s : RaceState} (hx : RaceExec C log s) : RaceInv C log s := by
  induction hx with
  | init procs fits idle =>
    refine ⟨⟨(sqlStore_lawful C).empty_inv, ?_⟩, ?_, ?_, ?_⟩
    · intro id r h
      have : (sqlStore C).view [] id = none := (sqlStore_lawful C).empty_view id
      rw [this] at h; cases h
    · intro p x hp
      have hm : x ∈ procs := List.mem_of_getElem? hp
      refine ⟨fits x hm, ?_⟩
      intro w hw
      rw [idle x hm] at hw; cases hw
    · rintro p id ⟨l1, a, l2, h, _⟩
      simp at h
    · intro l1 d l2 c h
      simp at h
  | @start log s p x m env prev here idle wf ewf ih =>
    obtain ⟨hfit, _⟩ := ih.procs p x here
    cases hm : m.readsFirst with
    | true =>
      have h1 : atOnce m (handle C (sqlStore C) x.cfg ⟨s.db, x.idKey⟩ m env) = [] := by simp [atOnce, hm]
      have h2 : later m (handle C (sqlStore C) x.cfg ⟨s.db, x.idKey⟩ m env) =
        (handle C (sqlStore C) x.cfg ⟨s.db, x.idKey⟩ m env).effects := by simp [later, hm]
      rw [h1, h2]
      simp only [List.map_nil, List.append_nil]
      refine ⟨ih.rows, ?_, ?_, ih.signed⟩
      · intro q z hq
        rcases set_procs hq with ⟨rfl, rfl⟩ | ⟨_, hq⟩
        · refine ⟨hfit, ?_⟩
          intro w hw
          simp only [Option.some.injEq] at hw
          subst hw
          exact ⟨wf, ewf, ih.rows, ⟨[], rfl⟩, fun h => by rw [hm] at h; cases h⟩
        · exact ih.procs q z hq
      · intro q id hg
        obtain ⟨g1, g2⟩ := ih.gone q id hg
        refine ⟨g1, ?_⟩
        intro z w hq hw
        rcases set_procs hq with ⟨rfl, rfl⟩ | ⟨_, hq⟩
        · simp only [Option.some.injEq] at hw
          subst hw
          exact .inr g1
        · exact g2 z w hq hw
    | false =>
      have h1 : atOnce m (handle C (sqlStore C) x.cfg ⟨s.db, x.idKey⟩ m env) =
        (handle C (sqlStore C) x.cfg ⟨s.db, x.idKey⟩ m env).effects := by simp [atOnce, hm]
      have h2 : later m (handle C (sqlStore C) x.cfg ⟨s.db, x.idKey⟩ m env) = [] := by simp [later, hm]
      rw [h1, h2]
      obtain ⟨hrows, hno, habs⟩ := start_rows hC ih.rows hfit wf ewf hm p
      have hsub : ∀ d ∈ log, d ∈ log ++ (handle C (sqlStore C) x.cfg ⟨s.db, x.idKey⟩ m env).effects.map (fun e => ⟨p, x.cfg, x.idKey, m, env, s.db, e⟩) :=
        fun d hd => List.mem_append_left _ hd
      refine ⟨hrows, ?_, ?_, ?_⟩
      · intro q z hq
        rcases set_procs hq with ⟨rfl, rfl⟩ | ⟨_, hq⟩
        · refine ⟨hfit, ?_⟩
          intro w hw
          simp only [Option.some.injEq] at hw
          subst hw
          exact ⟨wf, ewf, ih.rows.mono hsub, ⟨_, (List.append_nil _).symm⟩, fun _ => rfl⟩
        · exact ⟨(ih.procs q z hq).1, fun w hw => ((ih.procs q z hq).2 w hw).mono hsub⟩
      · intro q id hg
        obtain ⟨hg, hadd⟩ := Gone.app _ (by
          intro d hd id'
          obtain ⟨e, he, rfl⟩ := List.mem_map.mp hd
          exact (hno e he).1 id') hg
        obtain ⟨g1, g2⟩ := ih.gone q id hg
        refine ⟨habs id (fun r hr => hadd _ (List.mem_map.mpr ⟨_, hr, rfl⟩) r rfl) g1, ?_⟩
        intro z w hq hw
        rcases set_procs hq with ⟨rfl, rfl⟩ | ⟨_, hq⟩
        · simp only [Option.some.injEq] at hw
          subst hw
          exact .inl (fun c => by simp)
        · exact g2 z w hq hw
      · intro l1 d l2 c h hc
        rcases last_entries _ h with hd | ⟨l2', h⟩
        · obtain ⟨e, he, rfl⟩ := List.mem_map.mp hd
          exact absurd hc ((hno e he).2 c)
        · exact ih.signed l1 d l2' c h hc
  | @act log s p x w e es prev here busy next ih =>
    obtain ⟨hfit, hwork⟩ := ih.procs p x here
    have hw := hwork w busy
    have hsub : ∀ d ∈ log, d ∈ log ++ [⟨p, x.cfg, x.idKey, w.msg, w.env, w.seen, e⟩] := fun d hd => List.mem_append_left _ hd
    have hsuf : ∃ l, (handle C (sqlStore C) x.cfg ⟨w.seen, x.idKey⟩ w.msg w.env).effects = l ++ es := by
      obtain ⟨l, hl⟩ := hw.todo
      exact ⟨l ++ [e], by rw [hl, next]; simp⟩
    refine ⟨act_rows ih.rows hw next p, ?_, ?_, ?_⟩
    · intro q z hq
      rcases set_procs hq with ⟨rfl, rfl⟩ | ⟨_, hq⟩
      · refine ⟨hfit, ?_⟩
        intro w' hw'
        simp only [Option.some.injEq] at hw'
        subst hw'
        refine ⟨hw.wf, hw.ewf, hw.rows.mono hsub, hsuf, ?_⟩
        intro hf
        have := hw.first hf
        rw [next] at this; cases this
      · exact ⟨(ih.procs q z hq).1, fun w' hw' => ((ih.procs q z hq).2 w' hw').mono hsub⟩
    · intro q id hg
      rcases hg.snoc with ⟨hg, hadd⟩ | ⟨hpq, hdel⟩
      · obtain ⟨g1, g2⟩ := ih.gone q id hg
        refine ⟨act_absent ih.rows hw next g1, ?_⟩
        intro z w' hq hw'
        rcases set_procs hq with ⟨rfl, rfl⟩ | ⟨_, hq⟩
        · simp only [Option.some.injEq] at hw'
          subst hw'
          rcases g2 x w here busy with h | h
          · exact .inl (fun c hc => h c (by rw [next]; simp [hc]))
          · exact .inr h
        · exact g2 z w' hq hw'
      · have hpq : p = q := hpq
        subst hpq
        have hdel : e = .dbDelete id := hdel
        subst hdel
        refine ⟨?_, ?_⟩
        · show (sqlStore C).view ((sqlStore C).delete s.db id) id = none
          rw [(sqlStore_delete_view ih.rows.inv id).2, if_pos rfl]
        · intro z w' hq hw'
          rcases set_procs hq with ⟨_, rfl⟩ | ⟨hne, hq⟩
          · simp only [Option.some.injEq] at hw'
            subst hw'
            obtain ⟨l, hl⟩ := hw.todo
            rw [next] at hl
            exact .inl (fun c => nothing_signed_after hl c)
          · exact absurd rfl hne
    · intro l1 d l2 c h hc
      rcases last_entry h with ⟨rfl, rfl⟩ | ⟨l2', h⟩
      · have hc : e = .issue c := hc
        subst hc
        refine ⟨act_origin hC hw next p, ?_⟩
        intro id hg
        rcases (ih.gone p id hg).2 x w here busy with h1 | h1
        · exact absurd (by rw [next]; simp) (h1 c)
        · exact h1
      · exact ih.signed l1 d l2' c h hc
  | @lost log s p x w id es prev here busy next ih =>
    obtain ⟨hfit, hwork⟩ := ih.procs p x here
    have hw := hwork w busy
    refine ⟨ih.rows, ?_, ?_, ih.signed⟩
    · intro q z hq
      rcases set_procs hq with ⟨rfl, rfl⟩ | ⟨_, hq⟩
      · refine ⟨hfit, ?_⟩
        intro w' hw'
        simp only [Option.some.injEq] at hw'
        subst hw'
        refine ⟨hw.wf, hw.ewf, hw.rows, ?_, ?_⟩
        · obtain ⟨l, hl⟩ := hw.todo
          exact ⟨l ++ [.dbDelete id], by rw [hl, next]; simp⟩
        · intro hf
          have := hw.first hf
          rw [next] at this; cases this
      · exact ih.procs q z hq
    · intro q id' hg
      obtain ⟨g1, g2⟩ := ih.gone q id' hg
      refine ⟨g1, ?_⟩
      intro z w' hq hw'
      rcases set_procs hq with ⟨rfl, rfl⟩ | ⟨_, hq⟩
      · simp only [Option.some.injEq] at hw'
        subst hw'
        rcases g2 x w here busy with h | h
        · exact .inl (fun c hc => h c (by rw [next]; simp [hc]))
        · exact .inr h
      · exact g2 z w' hq hw'
  | @finish log s p x w prev here busy last term ih =>
    refine ⟨ih.rows, ?_, ?_, ih.signed⟩
    · intro q z hq
      rcases set_procs hq with ⟨rfl, rfl⟩ | ⟨_, hq⟩
      · exact ⟨(ih.procs q x here).1, fun w' hw' => by cases hw'⟩
      · exact ih.procs q z hq
    · intro q id' hg
      obtain ⟨g1, g2⟩ := ih.gone q id' hg
      refine ⟨g1, ?_⟩
      intro z w' hq hw'
      rcases set_procs hq with ⟨rfl, rfl⟩ | ⟨_, hq⟩
      · cases hw'
      · exact g2 z w' hq hw'
  | @kill log s p x cfg idKey prev here fits ih =>
    refine ⟨ih.rows, ?_, ?_, ih.signed⟩
    · intro q z hq
      rcases set_procs hq with ⟨rfl, rfl⟩ | ⟨_, hq⟩
      · exact ⟨fits, fun w' hw' => by cases hw'⟩
      · exact ih.procs q z hq
    · intro q id' hg
      obtain ⟨g1, g2⟩ := ih.gone q id' hg
      refine ⟨g1, ?_⟩
      intro z w' hq hw'
      rcases set_procs hq with ⟨rfl, rfl⟩ | ⟨_, hq⟩
      · cases hw'
      · exact g2 z w' hq hw'

end Ndncert
