import Verif.Props.CaExec
import Verif.Lemmas.Count
import Verif.Spec.Twins

/-! # C141: the names of issued certificates -/

namespace Ndncert.Props
open Ndncert

variable {σ : Type} {C : Crypto} {S : StoreI σ} {Inv : σ → Prop} {cfg : CaConfig}

theorem nniBlock_inj {a b : Int} (h : nniBlock 54 a.toNat = nniBlock 54 b.toNat) (ha : 0 ≤ a ∧ a < 2 ^ 64) (hb : 0 ≤ b ∧ b < 2 ^ 64) : a = b := by
  have h1 := readNni_nniBlock_of_lt 54 a.toNat (by omega)
  have h2 := readNni_nniBlock_of_lt 54 b.toNat (by omega)
  rw [h, h2] at h1
  have := Res.ok.inj h1
  omega

theorem versionAt_inj {unit : Int} {t t' : Time} (h : versionAt unit t = versionAt unit t') (ht : 0 ≤ t / unit ∧ t / unit < 2 ^ 64)
    (ht' : 0 ≤ t' / unit ∧ t' / unit < 2 ^ 64) : t / unit = t' / unit := nniBlock_inj h ht ht'

theorem tick_passed {unit a b : Int} (hu : 0 < unit) (h : a + unit ≤ b) : a / unit ≠ b / unit := by
  have h1 : (a + unit) / unit ≤ b / unit := Int.ediv_le_ediv hu h
  rw [Int.add_ediv_of_dvd_right (Int.dvd_refl _), Int.ediv_self (by omega)] at h1
  omega

/-- C141, what holds: two certificates that the CA issues have the same name exactly if they are for the same key and the clock was read within the
same unit of time (of a clock that counts less than 2^64 units). So they differ if the clock always goes forward and a unit passes between them.
Missing: that the CA sees to it that a name is not used again. -/
theorem C141_names_partial (hC : C.Lawful) (hS : LawfulStore C S Inv) (hcfg : NameFits cfg.profile.caPrefix)
    {h h1 h2 h3 : List (Step σ)} {s : CaState σ} (hx : Exec C S cfg h s) {n m : Step σ} (hh : h = h1 ++ n :: (h2 ++ m :: h3))
    {unit : Int} {clock : Step σ → Time} (hv : VersionsFrom unit clock h) (hb : ∀ x ∈ h, 0 ≤ clock x / unit ∧ clock x / unit < 2 ^ 64)
    {c c' : Cert} (hc : .issue c ∈ n.effects) (hc' : .issue c' ∈ m.effects) :
    c.name = c'.name ↔ keyNameOf c.name = keyNameOf c'.name ∧ clock n / unit = clock m / unit := by
  have hn : n ∈ h := by rw [hh]; simp
  have hm : m ∈ h := by rw [hh]; simp
  obtain ⟨i, env, r, k1, _, k2, _⟩ := C31_issued_content hC hS hcfg hx hh hc
  obtain ⟨i', env', r', k1', _, k2', _⟩ := C31_issued_content hC hS hcfg hx (h1 := h1 ++ n :: h2) (by rw [hh, List.append_assoc, List.cons_append]) hc'
  have v := hv n hn _ _ k1
  have v' := hv m hm _ _ k1'
  have e : keyNameOf c.name = keyNameOf r.cert.name := k2.facts.1
  have e' : keyNameOf c'.name = keyNameOf r'.cert.name := k2'.facts.1
  obtain ⟨a, _⟩ := k2
  obtain ⟨a', _⟩ := k2'
  constructor
  · intro heq
    refine ⟨by rw [heq], versionAt_inj ?_ (hb n hn) (hb m hm)⟩
    rw [← v, ← v']
    rw [heq, a'] at a
    have := (List.append_inj_right' a (by simp))
    simp only [List.cons.injEq, and_true, true_and] at this
    exact this.symm
  · rintro ⟨h1, h2⟩
    rw [a, a', v, v', ← e, ← e', h1]
    unfold versionAt
    rw [h2]

/-- A corollary for a clock that goes forward: with a unit of time between the steps, the names differ. -/
theorem C141_apart_partial (hC : C.Lawful) (hS : LawfulStore C S Inv) (hcfg : NameFits cfg.profile.caPrefix)
    {h h1 h2 h3 : List (Step σ)} {s : CaState σ} (hx : Exec C S cfg h s) {n m : Step σ} (hh : h = h1 ++ n :: (h2 ++ m :: h3))
    {unit : Int} (hu : 0 < unit) {clock : Step σ → Time} (hv : VersionsFrom unit clock h)
    (hb : ∀ x ∈ h, 0 ≤ clock x / unit ∧ clock x / unit < 2 ^ 64)
    {c c' : Cert} (hc : .issue c ∈ n.effects) (hc' : .issue c' ∈ m.effects) (hw : clock n + unit ≤ clock m) : c.name ≠ c'.name := by
  intro he
  exact tick_passed hu hw ((C141_names_partial hC hS hcfg hx hh hv hb hc hc').mp he).2

theorem two_of {α β : Type} {l : List α} {f : α → β} {x y : β} (h : l.map f = [x, y]) : ∃ n m, l = [n, m] ∧ f n = x ∧ f m = y := by
  rcases l with _ | ⟨n, _ | ⟨m, _ | ⟨k, l⟩⟩⟩ <;> simp at h
  exact ⟨n, m, rfl, h.1, h.2⟩

theorem issue_of {es : List Effect} {x : Name} (h : (issued es).map (·.name) = [x]) : ∃ c, Effect.issue c ∈ es ∧ c.name = x := by
  have : x ∈ (issued es).map (·.name) := by rw [h]; simp
  obtain ⟨c, hc, he⟩ := List.mem_map.mp this
  exact ⟨c, mem_issued.mp hc, he⟩

/-- a check of `VersionsFrom` for the clock of the fixtures -/
theorem versionsFrom_of {h : List (Step Mem)} (hall : h.all (fun x => match x.event.msg? with
    | some (_, env) => env.version == versionAt 1000000 env.now
    | none => true) = true) : VersionsFrom 1000000 Fix.clockOf h := by
  intro x hx msg env hh
  have := List.all_eq_true.mp hall x hx
  unfold Step.Handles at hh
  rw [hh] at this
  unfold Fix.clockOf
  rw [hh]
  simpa using this

/-- C141 is false: two requests for one key are completed 0.4 ms apart. The two certificates have the same name (and different periods). -/
theorem C141_false : ¬ NamesDiffer Fix.C Fix.S Fix.cfg := by
  intro hd
  have key : ∃ c c' n m h1, Fix.twinHist = h1 ++ n :: ([] ++ m :: []) ∧ Effect.issue c ∈ n.effects ∧ Effect.issue c' ∈ m.effects ∧ c.name = c'.name := by
    have hi : (Fix.twinHist.drop 4).map (fun n => (issued n.effects).map (·.name)) =
        [[Fix.key ++ [ndncertComponent, versionAt 1000000 (1004 * nsPerSec)]], [Fix.key ++ [ndncertComponent, versionAt 1000000 (1004 * nsPerSec)]]] := by
      decide +kernel
    obtain ⟨n, m, hdr, i1, i2⟩ := two_of hi
    obtain ⟨c, k1, k2⟩ := issue_of i1
    obtain ⟨c', k1', k2'⟩ := issue_of i2
    exact ⟨c, c', n, m, Fix.twinHist.take 4, by rw [List.nil_append, ← hdr, List.take_append_drop], k1, k1', k2.trans k2'.symm⟩
  obtain ⟨c, c', n, m, h1, e, k1, k2, k3⟩ := key
  exact hd Fix.twinHist h1 [] [] n m _ Fix.clockOf c c' Fix.twinExec (versionsFrom_of (by decide +kernel)) (by unfold Forward; decide +kernel) e k1 k2 k3

/-! ## Concrete cases -/

/-- the two certificates of the run differ in their periods -/
example : (issued (Fix.twinHist.flatMap Step.effects)).map (·.validity) =
    [some (1000 * nsPerSec, 4600 * nsPerSec), some (1000 * nsPerSec, 2000 * nsPerSec)] := by decide +kernel

/-- the hypotheses of `C141_names_partial` and `C141_apart_partial` are met by the run with two milliseconds in between -/
example : VersionsFrom 1000000 Fix.clockOf Fix.apartHist ∧
    (Fix.apartHist.all fun x => decide (0 ≤ Fix.clockOf x / 1000000 ∧ Fix.clockOf x / 1000000 < 2 ^ 64)) = true ∧
    ((Fix.apartHist.drop 4).map fun n => (issued n.effects).length) = [1, 1] ∧
    ((Fix.apartHist.drop 4).map Fix.clockOf) = [1004 * nsPerSec, 1004 * nsPerSec + 2000000] :=
  ⟨versionsFrom_of (by decide +kernel), by decide +kernel, by decide +kernel, by decide +kernel⟩

end Ndncert.Props
