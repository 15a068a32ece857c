import Verif.Model.Files
import Verif.Lemmas.Uri
import Verif.Lemmas.Pending
import Verif.Lemmas.StorageRun
import Verif.Spec.Files

namespace Ndncert

variable {σ : Type} {C : Crypto} {S : StoreI σ} {Inv : σ → Prop} {cfg : CaConfig}

theorem mem_loadAnchors {T : TextIO} {c : Cert} : ∀ {es : List (Bytes × PTree)},
    c ∈ loadAnchors T es ↔ ∃ e ∈ es, T.loadCert (e.2.getStr (bytes! "certificate") []) = some c
  | [] => by simp [loadAnchors]
  | e :: es => by
    unfold loadAnchors
    cases h : T.loadCert (e.2.getStr (bytes! "certificate") []) with
    | none => simp [mem_loadAnchors (es := es), h]
    | some d => simp [mem_loadAnchors (es := es), h, eq_comm]

/-- replacing `/` by `_` loses nothing in a URI without `_` -/
theorem replace_inj {s t : Bytes} (hs : (95 : UInt8) ∉ s) (ht : (95 : UInt8) ∉ t)
    (h : s.map (fun b => if b = 47 then (95 : UInt8) else b) = t.map (fun b => if b = 47 then (95 : UInt8) else b)) : s = t := by
  induction s generalizing t with
  | nil =>
    cases t with
    | nil => rfl
    | cons b t => simp at h
  | cons a s ih =>
    cases t with
    | nil => simp at h
    | cons b t =>
      simp only [List.map_cons, List.cons.injEq] at h
      simp only [List.mem_cons, not_or] at hs ht
      have hab : a = b := by
        have h1 := h.1
        by_cases ha : a = 47 <;> by_cases hb : b = 47
        · rw [ha, hb]
        · rw [if_pos ha, if_neg hb] at h1; exact absurd h1 ht.1
        · rw [if_neg ha, if_pos hb] at h1; exact absurd h1.symm hs.1
        · rw [if_neg ha, if_neg hb] at h1; exact h1
      rw [hab, ih hs.2 ht.2 h.2]

theorem nameUri_no95 {n : Name} (h : ∀ c ∈ n, (95 : UInt8) ∉ c.val) : (95 : UInt8) ∉ nameUri n := by
  unfold nameUri
  split
  · decide
  · intro hm
    rw [List.mem_flatMap] at hm
    obtain ⟨c, hc, hx⟩ := hm
    rw [List.mem_cons] at hx
    rcases hx with hx | hx
    · exact absurd hx (by decide)
    · exact h c hc ((compUri_mem hx).2 rfl)

theorem pendingIn_append {h : List (Step σ)} {n : Step σ} {id : RequestId} :
    PendingIn (h ++ [n]) id ↔ (∃ i env r, (AcceptsNew n i env r ∨ AcceptsRevoke n i env r) ∧ r.requestId = id) ∨
      (PendingIn h id ∧ Kept id [n]) := by
  constructor
  · rintro ⟨h1, m, h2, i, env, r, hh, ha, hid, hk⟩
    rcases List.eq_nil_or_concat h2 with rfl | ⟨h2', l, rfl⟩
    · have hm : h1 = h ∧ m = n := by
        have := List.append_inj' hh.symm rfl
        simpa using this
      obtain ⟨rfl, rfl⟩ := hm
      exact .inl ⟨i, env, r, ha, hid⟩
    · rw [List.concat_eq_append, ← List.cons_append, ← List.append_assoc] at hh
      have := List.append_inj' hh rfl
      simp only [List.cons.injEq, and_true] at this
      obtain ⟨rfl, rfl⟩ := this
      refine .inr ⟨⟨h1, m, h2', i, env, r, rfl, ha, hid, fun x hx => hk x (by simp [hx])⟩, fun x hx => hk x (by simp at hx; simp [hx])⟩
  · rintro (⟨i, env, r, ha, hid⟩ | ⟨⟨h1, m, h2, i, env, r, rfl, ha, hid, hk⟩, hn⟩)
    · exact ⟨h, n, [], i, env, r, rfl, ha, hid, fun _ hx => by cases hx⟩
    · refine ⟨h1, m, h2 ++ [n], i, env, r, by simp, ha, hid, ?_⟩
      intro x hx
      rw [List.mem_append] at hx
      rcases hx with hx | hx
      · exact hk x hx
      · exact hn x hx

theorem kept_single {n : Step σ} {id : RequestId} : Kept id [n] ↔
    .dbDelete id ∉ dbOps n.effects ∧ ∀ r, .dbAdd r ∈ dbOps n.effects → r.requestId ≠ id := by
  unfold Kept
  simp only [List.mem_singleton, forall_eq, mem_dbOps (e := .dbDelete id) rfl]
  constructor
  · rintro ⟨h1, h2⟩; exact ⟨h1, fun r hr => h2 r ((mem_dbOps rfl).mp hr)⟩
  · rintro ⟨h1, h2⟩; exact ⟨h1, fun r hr => h2 r ((mem_dbOps rfl).mpr hr)⟩

/-- a storage that survives restarts holds exactly the pending requests -/
theorem Exec.view_pending (hC : C.Lawful) (hS : LawfulStore C S Inv) (hp : ∀ st, S.reopen st = st) (hcfg : NameFits cfg.profile.caPrefix)
    {h : List (Step σ)} {s : CaState σ} (hx : Exec C S cfg h s) (id : RequestId) :
    S.view s.store id ≠ none ↔ PendingIn h id := by
  induction hx with
  | init idKey =>
    constructor
    · intro h; exact absurd (hS.empty_view id) h
    · rintro ⟨h1, n, h2, i, env, r, hh, _⟩; simp at hh
  | @step h s e prev wf possible ih =>
    have hi := (prev.life hC hS hcfg).1
    obtain ⟨_, hv⟩ := step_view hC hS hcfg (n := ⟨s, e, (e.run C S cfg s).1⟩) hi wf rfl
    have hst : (e.run C S cfg s).2.store = Step.afterStore S (⟨s, e, (e.run C S cfg s).1⟩ : Step σ) := by
      unfold Step.afterStore
      rcases run_store C S cfg s e with h | h
      · exact h
      · rw [h, hp]
    rw [hst, pendingIn_append, ← ih]
    generalize hn : (⟨s, e, (e.run C S cfg s).1⟩ : Step σ) = n at *
    have hpre : n.pre = s := by rw [← hn]
    have hadd : ∀ r, (∃ i env, AcceptsNew n i env r ∨ AcceptsRevoke n i env r) → .dbAdd r ∈ dbOps n.effects := by
      rintro r ⟨i, env, h | h⟩ <;> exact (mem_dbOps rfl).mpr h.2
    rw [kept_single]
    cases hv with
    | same h0 h =>
      rw [h, hpre, h0]
      constructor
      · intro hs; exact .inr ⟨hs, by simp, by simp⟩
      · rintro (⟨i, env, r, ha, _⟩ | ⟨hs, _⟩)
        · have := hadd r ⟨i, env, ha⟩
          rw [h0] at this; cases this
        · exact hs
    | added ty i env r hd ha h0 h =>
      rw [h, hd]
      by_cases hid : id = r.requestId
      · rw [if_pos hid]
        refine ⟨fun _ => .inl ⟨i, env, r, ?_, hid.symm⟩, fun _ => by simp⟩
        obtain ⟨m, hm, hreq⟩ := ha.event
        have hmem := ha.effect
        cases m with
        | new i' => cases hreq; exact .inl ⟨hm, hmem⟩
        | revoke i' => cases hreq; exact .inr ⟨hm, hmem⟩
        | probe i' => cases hreq
        | challenge i' => cases hreq
      · rw [if_neg hid, hpre]
        constructor
        · intro hs
          refine .inr ⟨hs, by simp, ?_⟩
          intro r' hr'
          simp only [List.mem_singleton, Effect.dbAdd.injEq] at hr'
          subst hr'
          exact fun he => hid he.symm
        · rintro (⟨i', env', r', ha', hid'⟩ | ⟨hs, _⟩)
          · have := hadd r' ⟨i', env', ha'⟩
            rw [hd] at this
            simp only [List.mem_singleton, Effect.dbAdd.injEq] at this
            subst this
            exact absurd hid'.symm hid
          · exact hs
    | updated i env k es out r0 r1 r hd hu h0 hs h =>
      rw [h, hd]
      have hcase : (if id = r1.requestId then some r else S.view n.pre.store id) ≠ none ↔ S.view s.store id ≠ none := by
        by_cases hid : id = r1.requestId
        · rw [if_pos hid, hid, ← hpre, h0]; simp
        · rw [if_neg hid, hpre]
      rw [hcase]
      constructor
      · intro hs; exact .inr ⟨hs, by simp, by simp⟩
      · rintro (⟨i', env', r', ha', _⟩ | ⟨hs, _⟩)
        · have := hadd r' ⟨i', env', ha'⟩
          rw [hd] at this; simp at this
        · exact hs
    | deleted i env r hd he hv h0 h =>
      rw [h, hd]
      by_cases hid : id = r.requestId
      · rw [if_pos hid]
        constructor
        · intro h; exact absurd rfl h
        · rintro (⟨i', env', r', ha', _⟩ | ⟨_, hdel, _⟩)
          · have := hadd r' ⟨i', env', ha'⟩
            rw [hd] at this; simp at this
          · exact absurd (by simp [hid]) hdel
      · rw [if_neg hid, hpre]
        constructor
        · intro hs
          exact .inr ⟨hs, by simp [hid], by simp⟩
        · rintro (⟨i', env', r', ha', _⟩ | ⟨hs, _⟩)
          · have := hadd r' ⟨i', env', ha'⟩
            rw [hd] at this; simp at this
          · exact hs

end Ndncert
