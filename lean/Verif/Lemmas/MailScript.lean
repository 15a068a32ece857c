import Verif.Spec.MailScript
import Verif.Spec.Code
import Verif.Lemmas.Email

namespace Ndncert.MailScript

/-! ## Templates -/

/-- put something before a result -/
def before (v : Bytes) : Res Bytes → Res Bytes
  | .ok s => .ok (v ++ s)
  | .exc e => .exc e
  | .ub u => .ub u

theorem before_append (u v : Bytes) (r : Res Bytes) : before u (before v r) = before (u ++ v) r := by
  cases r <;> simp [before]

theorem format_char (args : List Bytes) (num : Numbering) {c : UInt8} (h1 : c ≠ 123) (h2 : c ≠ 125) (rest : Bytes) :
    format args num none (c :: rest) = before [c] (format args num none rest) := by
  cases rest with
  | nil => simp [format, before, h1, h2]
  | cons d rest =>
    rw [format, if_neg h1, if_neg h2]
    cases format args num none (d :: rest) <;> rfl

theorem format_brace (args : List Bytes) (num : Numbering) {c : UInt8} (h : c = 123 ∨ c = 125) (rest : Bytes) :
    format args num none (c :: c :: rest) = before [c] (format args num none rest) := by
  rcases h with rfl | rfl
  · rw [format, if_pos rfl, if_pos rfl]
    cases format args num none rest <;> rfl
  · rw [format, if_neg (by decide), if_pos rfl, if_pos rfl]
    cases format args num none rest <;> rfl

theorem format_text (args : List Bytes) (num : Numbering) (t rest : Bytes) :
    format args num none (t.flatMap (fun b => if b = 123 ∨ b = 125 then [b, b] else [b]) ++ rest) = before t (format args num none rest) := by
  induction t with
  | nil =>
    show format args num none rest = _
    cases format args num none rest <;> rfl
  | cons c t ih =>
    rw [List.flatMap_cons]
    split
    · rename_i h
      rw [List.append_assoc]
      show format args num none (c :: c :: (t.flatMap _ ++ rest)) = _
      rw [format_brace args num h, ih, before_append]
      rfl
    · rename_i h
      rw [List.append_assoc]
      show format args num none (c :: (t.flatMap _ ++ rest)) = _
      rw [format_char args num (fun e => h (.inl e)) (fun e => h (.inr e)), ih, before_append]
      rfl

theorem format_field (args : List Bytes) (num : Numbering) {d : UInt8} {v : Bytes} (h1 : d ≠ 123) (h2 : d ≠ 125)
    (hv : fieldValue args num [d] = .ok (v, .manual)) (rest : Bytes) :
    format args num none (123 :: d :: 125 :: rest) = before v (format args .manual none rest) := by
  rw [format, if_pos rfl, if_neg h1]
  rw [format, if_neg h2, if_neg h1, List.nil_append]
  rw [format, if_pos rfl, hv]
  dsimp only
  cases format args .manual none rest <;> rfl

/-- a template is filled in as it should be -/
theorem format_written (code ca cert : Bytes) (t : List Piece) : ∀ num, num = .unset ∨ num = .manual →
    format [code, ca, cert] num none (written t) = .ok (filled code ca cert t) := by
  induction t with
  | nil => intro num _; rfl
  | cons p t ih =>
    intro num hn
    have hfield : ∀ (d : UInt8) (v : Bytes), decValue [d] = some 0 ∧ v = code ∨ decValue [d] = some 1 ∧ v = ca ∨ decValue [d] = some 2 ∧ v = cert →
        fieldValue [code, ca, cert] num [d] = .ok (v, .manual) := by
      intro d v h
      unfold fieldValue
      rw [if_neg (by simp)]
      rcases hn with rfl | rfl <;> rcases h with ⟨h, rfl⟩ | ⟨h, rfl⟩ | ⟨h, rfl⟩ <;> rw [h] <;> rfl
    unfold written filled at *
    rw [List.flatMap_cons, List.flatMap_cons]
    cases p with
    | text x =>
      show format _ num none (x.flatMap _ ++ _) = _
      rw [format_text, ih num hn]
      rfl
    | code =>
      show format _ num none (123 :: 48 :: 125 :: t.flatMap _) = _
      rw [format_field _ num (by decide) (by decide) (hfield 48 code (.inl ⟨by decide, rfl⟩)), ih .manual (.inr rfl)]
      rfl
    | caName =>
      show format _ num none (123 :: 49 :: 125 :: t.flatMap _) = _
      rw [format_field _ num (by decide) (by decide) (hfield 49 ca (.inr (.inl ⟨by decide, rfl⟩))), ih .manual (.inr rfl)]
      rfl
    | certName =>
      show format _ num none (123 :: 50 :: 125 :: t.flatMap _) = _
      rw [format_field _ num (by decide) (by decide) (hfield 50 cert (.inr (.inr ⟨by decide, rfl⟩))), ih .manual (.inr rfl)]
      rfl

theorem format_blank (args : List Bytes) (num num' : Numbering) {v : Bytes} (hv : fieldValue args num [] = .ok (v, num')) (rest : Bytes) :
    format args num none (123 :: 125 :: rest) = before v (format args num' none rest) := by
  rw [format, if_pos rfl, if_neg (by decide)]
  rw [format, if_pos rfl, hv]
  dsimp only
  cases format args num' none rest <;> rfl

/-- ... also if its places have no numbers -/
theorem format_writtenBlank (code ca cert : Bytes) (t : List Piece) : ∀ num k, num = .automatic k ∨ (num = .unset ∧ k = 0) →
    places t <+: ([0, 1, 2] : List Nat).drop k → format [code, ca, cert] num none (writtenBlank t) = .ok (filled code ca cert t) := by
  induction t with
  | nil => intro num k _ _; cases num <;> rfl
  | cons p t ih =>
    intro num k hn hp
    have hfield : ∀ v, ([code, ca, cert] : List Bytes)[k]? = some v → fieldValue [code, ca, cert] num [] = .ok (v, .automatic (k + 1)) := by
      intro v h
      unfold fieldValue
      rw [if_pos rfl]
      rcases hn with rfl | ⟨rfl, rfl⟩
      · dsimp only
        rw [h]
      · dsimp only
        rw [h]
    have hstep : ∀ (j : Nat) (v : Bytes), ([j] ++ places t) <+: ([0, 1, 2] : List Nat).drop k → ([code, ca, cert] : List Bytes)[j]? = some v →
        format [code, ca, cert] num none (123 :: 125 :: writtenBlank t) = .ok (v ++ filled code ca cert t) := by
      intro j v hj hv
      obtain ⟨rest, hr⟩ := hj
      generalize places t = ps at hr ih
      have hk : j = k ∧ ps ++ rest = ([0, 1, 2] : List Nat).drop (k + 1) := by
        match k, hr with
        | 0, hr => simpa using hr
        | 1, hr => simpa using hr
        | 2, hr => simpa using hr
        | k + 3, hr => simp at hr
      rw [format_blank _ num _ (hfield v (hk.1 ▸ hv)), ih (.automatic (k + 1)) (k + 1) (.inl rfl) ⟨rest, hk.2⟩]
      rfl
    cases p with
    | text x =>
      show format _ num none (x.flatMap _ ++ writtenBlank t) = .ok (x ++ filled code ca cert t)
      rw [format_text, ih num k hn hp]
      rfl
    | code => exact hstep 0 code hp rfl
    | caName => exact hstep 1 ca hp rfl
    | certName => exact hstep 2 cert hp rfl

theorem format_writtenAs (code ca cert : Bytes) {t : List Piece} {s : Bytes} (h : WrittenAs t s) :
    format [code, ca, cert] .unset none s = .ok (filled code ca cert t) := by
  rcases h with rfl | ⟨rfl, hp⟩
  · exact format_written code ca cert t .unset (.inl rfl)
  · exact format_writtenBlank code ca cert t .unset 0 (.inr ⟨rfl, rfl⟩) hp

/-! ## Arguments -/

theorem isPositional_plain {a : Bytes} (h : a.head? ≠ some 45) : isPositional a = true := by
  unfold isPositional
  split
  · rfl
  · rfl
  · simp at h
  · rfl

theorem parseArgs_plain {a b c d : Bytes} (ha : a.head? ≠ some 45) (hb : b.head? ≠ some 45) (hc : c.head? ≠ some 45) (hd : d.head? ≠ some 45) :
    parseArgs [a, b, c, d] = some (a, b, c, d) := by
  have hne : ∀ x : Bytes, x.head? ≠ some 45 → x ≠ [45, 45] := by
    rintro x h rfl
    exact h rfl
  unfold parseArgs
  simp [List.takeWhile_cons, List.dropWhile_cons, hne _ ha, hne _ hb, hne _ hc, hne _ hd, isPositional_plain ha, isPositional_plain hb,
    isPositional_plain hc, isPositional_plain hd]

theorem isPositional_dash {a : Bytes} (h : a.head? = some 45) (hs : 32 ∉ a) (hat : 64 ∈ a) : isPositional a = false := by
  unfold isPositional
  split
  · simp at h
  · simp only [List.mem_singleton] at hat
    subst hat
    simp at h
  · rename_i c rest
    dsimp only
    have hat' : (64 : UInt8) ∈ c :: rest := by
      rw [List.mem_cons] at hat
      rcases hat with h | h
      · cases h
      · exact h
    have hs' : (c :: rest).contains 32 = false := by
      rw [List.contains_eq_mem]
      simp only [decide_eq_false_iff_not]
      exact fun hm => hs (List.mem_cons_of_mem _ hm)
    split
    · rfl
    · split
      · rfl
      · rw [if_neg]
        · rw [if_neg]
          · exact hs'
          · intro hx
            split at hx
            · rename_i frac hd
              rw [Bool.and_eq_true] at hx
              have hall := List.all_eq_true.mp hx.2
              -- the octet @ is neither a digit nor a point
              have hsplit := List.takeWhile_append_dropWhile (p := fun b : UInt8 => (48 ≤ b && b ≤ 57)) (l := c :: rest)
              rw [hd] at hsplit
              rw [← hsplit, List.mem_append, List.mem_cons] at hat'
              rcases hat' with h1 | h1 | h1
              · have := List.all_eq_true.mp (List.all_takeWhile (p := fun b : UInt8 => (48 ≤ b && b ≤ 57)) (l := c :: rest)) _ h1
                simp at this
              · cases h1
              · have := hall _ h1
                simp at this
            · cases hx
        · intro hx
          have := List.all_eq_true.mp hx _ hat'
          simp at this
  · rename_i h1 h2 h3
    cases a with
    | nil => simp at h
    | cons x t =>
      simp only [List.head?_cons, Option.some.injEq] at h
      subst h
      cases t with
      | nil => exact absurd rfl (h2 _)
      | cons y t => exact absurd rfl (h3 _ _)

/-! ## Calls -/

theorem perform_prefix (f : Smtp → Bool) (l : List Smtp) : (perform f l).calls <+: l := by
  induction l with
  | nil => exact List.nil_prefix
  | cons c l ih =>
    unfold perform
    split
    · exact ⟨l, rfl⟩
    · obtain ⟨t, ht⟩ := ih
      exact ⟨t, by dsimp only; rw [List.cons_append, ht]⟩

theorem perform_status (f : Smtp → Bool) (l : List Smtp) : (perform f l).status = 0 ↔ ∀ c ∈ l, f c = false := by
  induction l with
  | nil => simp [perform]
  | cons c l ih =>
    unfold perform
    split
    · rename_i h
      simp [h]
    · rename_i h
      dsimp only
      rw [ih]
      simp at h
      simp [h]

theorem perform_all (f : Smtp → Bool) (l : List Smtp) (h : (perform f l).status = 0) : (perform f l).calls = l := by
  induction l with
  | nil => rfl
  | cons c l ih =>
    unfold perform at h ⊢
    split
    · rename_i hf
      rw [if_pos hf] at h
      cases h
    · rename_i hf
      rw [if_neg hf] at h
      exact congrArg _ (ih h)

/-- a call that failed is the last one -/
theorem perform_before (f : Smtp → Bool) (l : List Smtp) (pre post : List Smtp) (c : Smtp) (h : (perform f l).calls = pre ++ c :: post) :
    ∀ x ∈ pre, f x = false := by
  induction l generalizing pre with
  | nil => simp [perform] at h
  | cons d l ih =>
    unfold perform at h
    split at h
    · cases pre with
      | nil => simp
      | cons y pre => simp at h
    · rename_i hf
      cases pre with
      | nil => simp
      | cons y pre =>
        dsimp only at h
        rw [List.cons_append] at h
        injection h with h1 h2
        subst h1
        intro x hx
        rw [List.mem_cons] at hx
        rcases hx with rfl | hx
        · simpa using hf
        · exact ih pre h2 x hx

theorem handedOver_append (w : Surroundings) (a b : List Smtp) : handedOver w (a ++ b) = handedOver w a ++ handedOver w b := by
  induction a with
  | nil => rfl
  | cons c a ih => cases c <;> simp [handedOver, ih]

theorem handedOver_session (w : Surroundings) (s : Settings) : handedOver w (session s) = [] := by
  unfold session
  rw [handedOver_append, handedOver_append]
  have h1 : handedOver w (if s.mode ≠ bytes! "none" then [.ehlo] ++ (if s.mode = bytes! "tls" then [.starttls] else []) else []) = [] := by
    split
    · split <;> rfl
    · rfl
  have h2 : handedOver w (if s.user ≠ [] ∧ s.password ≠ [] then [.login s.user s.password] else []) = [] := by
    split <;> rfl
  rw [h1, h2]
  rfl

theorem handedOver_prefix (w : Surroundings) {a b : List Smtp} (h : a <+: b) : handedOver w a <+: handedOver w b := by
  obtain ⟨t, rfl⟩ := h
  rw [handedOver_append]
  exact ⟨_, rfl⟩

/-- what can be handed over -/
theorem script_handed (w : Surroundings) (argv : List Bytes) : handedOver w (script w argv).calls = [] ∨
    ∃ email secret ca cert s text html, parseArgs (argv.drop 1) = some (email, secret, ca, cert) ∧ settings w.conf = some s ∧
      format [secret, ca, cert] .unset none s.text = .ok text ∧ format [secret, ca, cert] .unset none s.html = .ok html ∧
      handedOver w (script w argv).calls = [(email, ⟨s.sender, email, s.subject, text, html⟩)] := by
  unfold script
  split
  · exact .inl rfl
  · rename_i email secret ca cert hp
    split
    · exact .inl rfl
    · rename_i s hs
      split
      · rename_i text html ht hh
        dsimp only
        split
        · have hpre := handedOver_prefix w (perform_prefix w.fails (session s ++ [.sendmail s.sender email
            { sender := s.sender, receiver := email, subject := s.subject, text, html }, .close]))
          rw [handedOver_append, handedOver_session] at hpre
          generalize handedOver w _ = x at hpre ⊢
          simp only [handedOver, List.nil_append, List.append_nil] at hpre
          split at hpre
          · left
            simpa using hpre
          · rcases List.prefix_cons_iff.mp hpre with h | ⟨t, h, h'⟩
            · exact .inl h
            · right
              rw [List.prefix_nil] at h'
              subst h'
              exact ⟨email, secret, ca, cert, s, text, html, hp, hs, ht, hh, h⟩
        · left
          have hpre := handedOver_prefix w (perform_prefix w.fails (session s))
          rw [handedOver_session] at hpre
          exact List.prefix_nil.mp hpre
      · exact .inl rfl

theorem settings_some {conf : Bytes → Bytes → Option Bytes} {s : Settings} (h : settings conf = some s) :
    conf (bytes! "ndncert_smtp_settings") (bytes! "ENCRYPT_MODE") = some s.mode ∧
    conf (bytes! "ndncert_email_settings") (bytes! "MAIL_FROM") = some s.sender ∧
    conf (bytes! "ndncert_email_settings") (bytes! "SUBJECT") = some s.subject ∧
    conf (bytes! "ndncert_email_settings") (bytes! "TEXT_TEMPLATE") = some s.text ∧
    conf (bytes! "ndncert_email_settings") (bytes! "HTML_TEMPLATE") = some s.html := by
  unfold settings at h
  simp only [bind, Option.bind_eq_some_iff] at h
  obtain ⟨mode, h1, server, h2, port, h3, user, h4, password, h5, sender, h6, subject, h7, text, h8, html, h9, h⟩ := h
  cases h
  exact ⟨h1, h6, h7, h8, h9⟩

/-! ## Names have no markup -/

/-- none of the octets that mean something in HTML -/
def plainHtml (b : UInt8) : Prop := b ≠ 60 ∧ b ≠ 62 ∧ b ≠ 38 ∧ b ≠ 34

theorem plainHtml_of_toNat {x : UInt8} (h : x.toNat ≠ 60 ∧ x.toNat ≠ 62 ∧ x.toNat ≠ 38 ∧ x.toNat ≠ 34) : plainHtml x := by
  refine ⟨?_, ?_, ?_, ?_⟩ <;> rintro rfl <;> revert h <;> decide

theorem uriEscapeByte_plainHtml (b x : UInt8) (h : x ∈ uriEscapeByte b) : plainHtml x := by
  unfold uriEscapeByte at h
  dsimp only at h
  split at h
  · rename_i hn
    simp only [List.mem_singleton] at h
    subst h
    exact plainHtml_of_toNat (by omega)
  · have hb : b.toNat < 256 := b.toNat_lt
    simp only [List.mem_cons, List.not_mem_nil, or_false] at h
    rcases h with rfl | rfl | rfl
    · exact plainHtml_of_toNat (by decide)
    · apply plainHtml_of_toNat
      split <;> (rw [toNat_ofNat_small (by omega)]; omega)
    · apply plainHtml_of_toNat
      split <;> (rw [toNat_ofNat_small (by omega)]; omega)

theorem decDigits_plainHtml (n : Nat) (x : UInt8) (h : x ∈ decDigits n) : plainHtml x := by
  unfold decDigits at h
  rw [List.mem_map] at h
  obtain ⟨c, hc, rfl⟩ := h
  have := Nat.isDigit_of_mem_toDigits (by decide) (by decide) hc
  simp only [Char.isDigit, Bool.and_eq_true, decide_eq_true_eq] at this
  have h1 : 48 ≤ c.toNat := this.1
  have h2 : c.toNat ≤ 57 := this.2
  apply plainHtml_of_toNat
  rw [toNat_ofNat_small (by omega)]
  omega

theorem nameUri_noMarkup (n : Name) : NoMarkup (nameUri n) := by
  intro x h
  show plainHtml x
  unfold nameUri at h
  split at h
  · simp only [List.mem_singleton] at h
    subst h
    exact plainHtml_of_toNat (by decide)
  · rw [List.mem_flatMap] at h
    obtain ⟨c, _, hx⟩ := h
    rw [List.mem_cons] at hx
    rcases hx with rfl | hx
    · exact plainHtml_of_toNat (by decide)
    · have hv : ∀ y ∈ (if c.val.all (· == 46) then bytes! "..." else []) ++ c.val.flatMap uriEscapeByte, plainHtml y := by
        intro y hy
        rw [List.mem_append] at hy
        rcases hy with hy | hy
        · split at hy
          · simp only [List.mem_cons, List.not_mem_nil, or_false] at hy
            rcases hy with rfl | rfl | rfl <;> exact plainHtml_of_toNat (by decide)
          · cases hy
        · rw [List.mem_flatMap] at hy
          obtain ⟨b, _, hb⟩ := hy
          exact uriEscapeByte_plainHtml b y hb
      unfold compUri at hx
      dsimp only at hx
      split at hx
      · exact hv x hx
      · rw [List.mem_append, List.mem_append] at hx
        rcases hx with (hx | hx) | hx
        · exact decDigits_plainHtml _ _ hx
        · simp only [List.mem_singleton] at hx
          subst hx
          exact plainHtml_of_toNat (by decide)
        · exact hv x hx

end Ndncert.MailScript
