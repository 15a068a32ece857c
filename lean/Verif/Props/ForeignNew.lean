import Verif.Spec.Agreement
import Verif.Props.Foreign

/-! # A reply to NEW that belongs to another requester (C147) -/

namespace Ndncert.Props

/-- C147 in full: the reply of the CA to a NEW that this object did not make is refused -/
def ForeignNewRefused {σ : Type} (C : Crypto) (S : StoreI σ) (cfg : CaConfig) : Prop :=
  ∀ h s, Exec C S cfg h s → ∀ p ty priv id, id.length = 8 → ∀ before q, ReqRun C (.create p ty priv id) before q →
    ∀ n ∈ h, ∀ i env, n.Handles (.new i) env → (∀ m ∈ before, ¬ m.Asks i) → ∀ d ∈ sent n.effects,
    ∀ stack l, stack.length = 32 → ((ReqCall.onNew d stack).run C q).2 ≠ .ok (.challenges l)

/-- the other requester waits for the reply to its NEW -/
def asking : Request := (calls Fix.C bob0 [.genNew bobKey (1000 * nsPerSec) (4600 * nsPerSec) ⟨54, [2]⟩]).2

def askingCalled : List Called := (calls Fix.C bob0 [.genNew bobKey (1000 * nsPerSec) (4600 * nsPerSec) ⟨54, [2]⟩]).1

theorem asking_run : ReqRun Fix.C bob0 askingCalled asking :=
  run_of_calls (cs := [.genNew bobKey (1000 * nsPerSec) (4600 * nsPerSec) ⟨54, [2]⟩]) (r := bob0) (C := Fix.C) .init (by decide +kernel)

/-- C147 is false of the code: an object takes the reply to the NEW of another requester -/
theorem C147_false : ¬ ForeignNewRefused Fix.C Fix.S Fix.cfg := by
  intro H
  have hx := exec_of_runs (C := Fix.C) (S := Fix.S) (cfg := Fix.cfg) (idKey := Fix.idKey) (es := [Fix.ev1]) (by decide +kernel)
  have e : (runs Fix.C Fix.S Fix.cfg ⟨Fix.S.empty, Fix.idKey⟩ [Fix.ev1]).1 = [⟨Fix.st0, Fix.ev1, (Fix.ev1.run Fix.C Fix.S Fix.cfg Fix.st0).1⟩] := rfl
  rw [e] at hx
  have h1 : Fix.reply1 ∈ sent (Fix.ev1.run Fix.C Fix.S Fix.cfg Fix.st0).1 := by decide +kernel
  have ht : ((ReqCall.onNew Fix.reply1 (List.replicate 32 0)).run Fix.C asking).2 = .ok (.challenges [bytes! "pin"]) := by decide +kernel
  have hno : ∀ m ∈ askingCalled, ¬ m.Asks Fix.newInterest := by
    have hr : ∀ m ∈ askingCalled, m.result ≠ .ok (.interest Fix.newInterest) := by decide +kernel
    intro m hm ha
    exact hr m hm ha.2
  have m1 := H _ _ hx Fix.profile .new [1, 3] (List.replicate 8 0) rfl _ asking asking_run
  generalize Fix.ev1.run Fix.C Fix.S Fix.cfg Fix.st0 = x1 at m1 h1
  exact m1 ⟨_, _, x1.1⟩ (.head _) Fix.newInterest Fix.env1 rfl hno Fix.reply1 h1 _ _ (by simp) ht

/-- C147, what holds: whatever was given to the object as a reply to its NEW, taken or refused, without undefined behaviour: if the object
would have taken its own reply (with a salt of 32 and an id of 8 octets, as the CA sends them), it still takes it, tells the same challenges,
and is then in the same state as if the other packet had not come. -/
theorem C147_recovers_partial {C : Crypto} (p : CaProfile) (ty : RequestType) (priv : Bytes) (id : RequestId) (hid : id.length = 8)
    {before : List Called} {q : Request} (hr : ReqRun C (.create p ty priv id) before q)
    {d0 d : Data} {stack0 stack : Bytes} (hs0 : stack0.length = 32) (hs : stack.length = 32)
    (hdef : ∀ u, ((ReqCall.onNew d0 stack0).run C q).2 ≠ .ub u) {l : List Bytes}
    (ht : ((ReqCall.onNew d stack).run C q).2 = .ok (.challenges l))
    (hlen : ∀ es, parse d.content.val = .ok es → ∀ x ∈ ofType 151 es, x.val.length = 8) :
    (ReqCall.onNew d stack).run C ((ReqCall.onNew d0 stack0).run C q).1 = (ReqCall.onNew d stack).run C q := by
  have f1 := hr.full (create_full p ty priv hid)
  have f2 := run_full (c := .onNew d0 stack0) f1 hs0 hdef
  have hq : ∃ a k, ((ReqCall.onNew d0 stack0).run C q).1 = { q with requestId := a, aesKey := k } := by
    unfold ReqCall.run onNewResponse
    dsimp only
    cases checkReply C q.profile d0 with
    | exc e => exact ⟨q.requestId, q.aesKey, rfl⟩
    | ub u => exact ⟨q.requestId, q.aesKey, rfl⟩
    | ok _ =>
      dsimp only
      rcases requestDecode d0.content stack0 q.requestId with ⟨⟨salt, id'⟩, res⟩
      cases res with
      | exc e => exact ⟨id', q.aesKey, rfl⟩
      | ub u => exact ⟨id', q.aesKey, rfl⟩
      | ok pc =>
        dsimp only
        cases C.ecdhDerive q.ecdhPriv pc.1 with
        | none => exact ⟨id', q.aesKey, rfl⟩
        | some s => exact ⟨id', _, rfl⟩
  obtain ⟨a, k, hq⟩ := hq
  rw [hq] at f2 ⊢
  have ha : a.length = 8 := f2.id
  unfold ReqCall.run onNewResponse at ht ⊢
  dsimp only at ht ⊢
  cases hc : checkReply C q.profile d with
  | exc e => rw [hc] at ht; simp [Res.as] at ht
  | ub u => rw [hc] at ht; simp [Res.as] at ht
  | ok _ =>
    rw [hc] at ht
    dsimp only at ht ⊢
    rcases hd : requestDecode d.content stack q.requestId with ⟨⟨salt, id'⟩, res⟩
    rw [hd] at ht
    cases res with
    | exc e => simp [Res.as] at ht
    | ub u => simp [Res.as] at ht
    | ok pc =>
      obtain ⟨pub, chs⟩ := pc
      obtain ⟨es, kk, s, x, a1, a2, a3, a4, a5, a6, a7, a8, a9, a10, a11⟩ := (C110_new_reply _ _ _ _ _ _ _).mp hd
      have hx : x.val.length = 8 := hlen es a1 x (by rw [a8]; exact .head _)
      have hd' : requestDecode d.content stack a = ((salt, id'), .ok (pub, chs)) := by
        refine (C110_new_reply _ _ _ _ _ _ _).mpr ⟨es, kk, s, x, a1, a2, a3, a4, a5, a6, a7, a8, by omega, ?_, a11⟩
        rw [a10, List.drop_eq_nil_of_le (by have := f1.id; omega), List.drop_eq_nil_of_le (by omega)]
      rw [hd']
      dsimp only at ht ⊢
      cases hs : C.ecdhDerive q.ecdhPriv pub with
      | none => rw [hs] at ht; simp [Res.as] at ht
      | some secret => rfl

/-- the hypotheses are met: the object takes the reply to the other requester, which changes its request id; its own reply, with an id of
eight octets, is one it would take -/
example : ((ReqCall.onNew Fix.reply1 (List.replicate 32 0)).run Fix.C asking).2 = .ok (.challenges [bytes! "pin"]) ∧
    ((ReqCall.onNew Fix.reply1 (List.replicate 32 0)).run Fix.C asking).1.requestId ≠ asking.requestId ∧
    ((ReqCall.onNew bobReply1 (List.replicate 32 0)).run Fix.C asking).2 = .ok (.challenges [bytes! "pin"]) ∧
    ((ReqCall.onNew bobReply1 (List.replicate 32 0)).run Fix.C asking).1.requestId ≠ ((ReqCall.onNew Fix.reply1 (List.replicate 32 0)).run Fix.C asking).1.requestId := by
  refine ⟨?_, ?_, ?_, ?_⟩ <;> decide +kernel
example : ∀ es, parse bobReply1.content.val = .ok es → ∀ x ∈ ofType 151 es, x.val.length = 8 := by
  have h : (match parse bobReply1.content.val with
    | .ok es => (ofType 151 es).all (fun x => x.val.length == 8) && (ofType 151 es).length == 1
    | _ => false) = true := by decide +kernel
  intro es hes x hx
  rw [hes] at h
  dsimp only at h
  rw [Bool.and_eq_true, List.all_eq_true] at h
  simpa using h.1 x hx

end Ndncert.Props
