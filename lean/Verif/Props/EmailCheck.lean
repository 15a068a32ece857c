import Verif.Lemmas.Regex
import Verif.Lemmas.Report
import Verif.Spec.Email
import Verif.Props.Email

/-! # The check of email addresses (C125) -/

namespace Ndncert.Props

/-- C125, first half: the check accepts the well-formed addresses and nothing else -/
def ChecksAddresses : Prop := ∀ a, isValidEmailAddress a = true ↔ WellFormedAddress a

/-- C125, second half: emails go to well-formed addresses only -/
def MailsToAddresses (C : Crypto) {σ : Type} (S : StoreI σ) (cfg : CaConfig) : Prop :=
  ∀ h s, Exec C S cfg h s → ∀ i env, env.Wf → IdFits cfg i → ∀ m ∈ mailed (onChallenge C S cfg s.store i env).effects, WellFormedAddress m.address

theorem email_classes : ∀ c : UInt8,
    ((isAlnum c || c == 95 || c == 46 || c == 43 || c == 45) = true ↔ c ∈ alphanumerics ++ bytes! "_.+-") ∧
    ((isAlnum c || c == 45) = true ↔ c ∈ alphanumerics ++ bytes! "-") ∧
    ((isAlnum c || c == 45 || c == 46) = true ↔ c ∈ alphanumerics ++ bytes! "-.") ∧
    (isDotChar c = true ↔ c ∉ bytes! "\n\r") :=
  byte_cases (P := fun c => ((isAlnum c || c == 95 || c == 46 || c == 43 || c == 45) = true ↔ c ∈ alphanumerics ++ bytes! "_.+-") ∧
    ((isAlnum c || c == 45) = true ↔ c ∈ alphanumerics ++ bytes! "-") ∧
    ((isAlnum c || c == 45 || c == 46) = true ↔ c ∈ alphanumerics ++ bytes! "-.") ∧
    (isDotChar c = true ↔ c ∉ bytes! "\n\r")) (by decide +kernel)

/-- C125, what the check does accept: the dot of its pattern stands for any character but a line break. -/
theorem C125_accepts_partial (a : Bytes) : isValidEmailAddress a = true ↔ AlmostAddress a := by
  unfold isValidEmailAddress
  rw [Regex.matches_iff]
  unfold emailPattern AlmostAddress
  simp only [Regex.Lang, Regex.plus_one]
  constructor
  · rintro ⟨u, _, rfl, ⟨hu, hu'⟩, _, _, rfl, ⟨c, rfl, hc⟩, h, _, rfl, ⟨hh, hh'⟩, _, d, rfl, ⟨x, rfl, hx⟩, hd, hd'⟩
    have : c = 64 := by simpa using hc
    subst this
    exact ⟨u, h, x, d, by simp, hu, hh, hd, (email_classes x).2.2.2.mp hx, fun c hc => (email_classes c).1.mp (hu' c hc),
      fun c hc => (email_classes c).2.1.mp (hh' c hc), fun c hc => (email_classes c).2.2.1.mp (hd' c hc)⟩
  · rintro ⟨u, h, x, d, rfl, hu, hh, hd, hx, hu', hh', hd'⟩
    exact ⟨u, 64 :: (h ++ x :: d), by simp, ⟨hu, fun c hc => (email_classes c).1.mpr (hu' c hc)⟩, [64], h ++ x :: d, rfl, ⟨64, rfl, by decide⟩,
      h, x :: d, rfl, ⟨hh, fun c hc => (email_classes c).2.1.mpr (hh' c hc)⟩, [x], d, rfl, ⟨x, rfl, (email_classes x).2.2.2.mpr hx⟩,
      hd, fun c hc => (email_classes c).2.2.1.mpr (hd' c hc)⟩

/-- C125: every well-formed address is accepted. -/
theorem C125_well_formed_partial (a : Bytes) (h : WellFormedAddress a) : isValidEmailAddress a = true := by
  obtain ⟨u, ho, d, h1, h2, h3, h4, h5, h6, h7⟩ := h
  exact (C125_accepts_partial a).mpr ⟨u, ho, 46, d, h1, h2, h3, h4, by decide, h5, h6, h7⟩

/-- C125, first half, is false of the code: it accepts `alice@localhost`, which has no dot, and `a@b"c`, which breaks the command line of the
script. -/
theorem C125_false_check : ¬ ChecksAddresses ∧ isValidEmailAddress (bytes! "a@b\"c") = true ∧ ¬ ComesThrough (bytes! "a@b\"c") := by
  refine ⟨fun H => ?_, by decide +kernel, fun h => absurd h.2.2.1 (by decide)⟩
  obtain ⟨u, ho, d, h, _⟩ := (H (bytes! "alice@localhost")).mp (by decide +kernel)
  have hm : (46 : UInt8) ∈ u ++ bytes! "@" ++ ho ++ bytes! "." ++ d := by simp
  rw [← h] at hm
  revert hm
  decide

/-- an email challenge with something that is no address -/
def exNoAddress : Interest :=
  Fix.sealed Fix.req1 [binBlock T.SelectedChallenge (bytes! "email"), binBlock T.ParameterKey (bytes! "email"), binBlock T.ParameterValue (bytes! "nobody")]

/-- C125, second half, is false of the code: the check is never called, and the script is run for `nobody`. -/
theorem C125_false : ¬ MailsToAddresses Fix.C Fix.S Fix.cfg := by
  intro H
  have hx := exec_of_runs (C := Fix.C) (S := Fix.S) (cfg := Fix.cfg) (idKey := Fix.idKey) (es := [Fix.ev1]) (by decide +kernel)
  have hid : IdFits Fix.cfg exNoAddress := by
    intro c hc
    have h : (match exNoAddress.name[Fix.cfg.profile.caPrefix.length + 2]? with | some c => decide (c.val.length ≤ 8) | none => true) = true := by
      decide +kernel
    rw [hc] at h
    simpa using h
  have hb : (match mailed (onChallenge Fix.C Fix.S Fix.cfg (runs Fix.C Fix.S Fix.cfg ⟨Fix.S.empty, Fix.idKey⟩ [Fix.ev1]).2.store exNoAddress Fix.env2).effects with
    | [m] => decide (m.address = bytes! "nobody")
    | _ => false) = true := by decide +kernel
  split at hb
  · rename_i m heq
    have hm := H _ _ hx exNoAddress Fix.env2 (Fix.env_wf _ _ _) hid m (by rw [heq]; simp)
    rw [of_decide_eq_true hb] at hm
    have := C125_well_formed_partial _ hm
    revert this
    decide +kernel
  · cases hb

/-- C125, why it matters: a well-formed address reaches the script as it is (C50). -/
theorem C125_safe_partial (script : Bytes) (m : Mail) (h0 : script ≠ []) (hs : ∀ b ∈ script, b ≠ 0 ∧ b ≠ 32 ∧ b ≠ 34) (hc : IsCode m.code)
    (h : WellFormedAddress m.address) :
    mailArgv script m = .ok [script, m.address, m.code, nameUri m.caPrefix, nameUri m.certName] := by
  refine C50_four_arguments_partial script m h0 hs hc ?_
  have key : ∀ l : Bytes, (0 : UInt8) ∉ l → (34 : UInt8) ∉ l → ∀ b : UInt8, b ∈ l → b ≠ 0 ∧ b ≠ 34 :=
    fun l h1 h2 b hb => ⟨fun e => h1 (e ▸ hb), fun e => h2 (e ▸ hb)⟩
  obtain ⟨u, ho, d, h1, _, _, _, h5, h6, h7⟩ := h
  intro b hb
  rw [h1] at hb
  simp only [List.mem_append] at hb
  rcases hb with (((hb | hb) | hb) | hb) | hb
  · exact key _ (by decide) (by decide) b (h5 b hb)
  · exact key _ (by decide) (by decide) b hb
  · exact key _ (by decide) (by decide) b (h6 b hb)
  · exact key _ (by decide) (by decide) b hb
  · exact key _ (by decide) (by decide) b (h7 b hb)

-- the addresses of the unit test, and some more
example : isValidEmailAddress (bytes! "zhiyi@cs.ucla.edu") = true ∧ isValidEmailAddress (bytes! "zhiyi@cs") = false ∧
    isValidEmailAddress (bytes! "zhiyi.ucla.edu") = false ∧ isValidEmailAddress (bytes! "a b@cs.ucla.edu") = false ∧
    isValidEmailAddress (bytes! "o'neill@x.org") = false ∧ isValidEmailAddress (bytes! "a@b@c") = true := by decide +kernel
example : WellFormedAddress (bytes! "zhiyi@cs.ucla.edu") :=
  ⟨bytes! "zhiyi", bytes! "cs", bytes! "ucla.edu", by decide, by decide, by decide, by decide, by decide, by decide, by decide⟩

end Ndncert.Props
