import Verif.Spec.Strict
import Verif.Lemmas.Iv
import Verif.Lemmas.Encoders

/-! # Lemmas for C110 -/

namespace Ndncert

theorem mem_ofType {t : Nat} {es : List Block} {b : Block} : b ∈ ofType t es ↔ b ∈ es ∧ b.typ = t := by
  simp [ofType]

theorem ofType_cons_eq {t : Nat} {b : Block} (es : List Block) (h : b.typ = t) : ofType t (b :: es) = b :: ofType t es := by
  simp [ofType, h]

theorem ofType_cons_ne {t : Nat} {b : Block} (es : List Block) (h : b.typ ≠ t) : ofType t (b :: es) = ofType t es := by
  simp [ofType, h]

/-- what a loop that ends normally did to one field -/
theorem fold_last {σ α : Type} {f : σ → Block → Res σ} {proj : σ → α} {t : Nat} {Reads : Block → α → Prop}
    (h1 : ∀ s s' b, f s b = .ok s' → b.typ = t → Reads b (proj s'))
    (h2 : ∀ s s' b, f s b = .ok s' → b.typ ≠ t → proj s' = proj s) :
    ∀ {es : List Block} {s s' : σ}, es.foldlM f s = .ok s' → LastSays t es Reads (proj s) (proj s')
  | [], s, s', h => by
    cases h
    exact ⟨by simp [ofType], by simp [ofType]⟩
  | b :: es, s, s', h => by
    rw [List.foldlM_cons, Res.bind_eq_ok] at h
    obtain ⟨s1, h3, h4⟩ := h
    obtain ⟨i1, i2⟩ := fold_last h1 h2 h4
    by_cases hb : b.typ = t
    · refine ⟨?_, ?_⟩
      · rw [ofType_cons_eq _ hb]
        intro x hx
        rcases List.mem_cons.mp hx with rfl | hx
        · exact ⟨_, h1 _ _ _ h3 hb⟩
        · exact i1 x hx
      · rw [ofType_cons_eq _ hb, List.getLast?_cons]
        cases hl : (ofType t es).getLast? with
        | none => rw [hl] at i2; simp only [Option.getD_none]; rw [i2]; exact h1 _ _ _ h3 hb
        | some x => rw [hl] at i2; exact i2
    · rw [h2 _ _ _ h3 hb] at i2
      unfold LastSays
      rw [ofType_cons_ne _ hb]
      exact ⟨i1, i2⟩

/-- a field that collects the elements of a type -/
theorem fold_collect {σ α : Type} {f : σ → Block → Res σ} {proj : σ → List α} {t : Nat} {Reads : Block → α → Prop}
    (h1 : ∀ s s' b, f s b = .ok s' → b.typ = t → ∃ a, Reads b a ∧ proj s' = proj s ++ [a])
    (h2 : ∀ s s' b, f s b = .ok s' → b.typ ≠ t → proj s' = proj s) :
    ∀ {es : List Block} {s s' : σ}, es.foldlM f s = .ok s' →
      ∃ as, EachSays Reads (ofType t es) as ∧ proj s' = proj s ++ as
  | [], s, s', h => by
    cases h
    exact ⟨[], .nil, by simp⟩
  | b :: es, s, s', h => by
    rw [List.foldlM_cons, Res.bind_eq_ok] at h
    obtain ⟨s1, h3, h4⟩ := h
    obtain ⟨as, i1, i2⟩ := fold_collect h1 h2 h4
    by_cases hb : b.typ = t
    · obtain ⟨a, j1, j2⟩ := h1 _ _ _ h3 hb
      refine ⟨a :: as, ?_, by rw [i2, j2]; simp⟩
      rw [ofType_cons_eq _ hb]
      exact .cons j1 i1
    · rw [h2 _ _ _ h3 hb] at i2
      rw [ofType_cons_ne _ hb]
      exact ⟨as, i1, i2⟩

/-- every element was taken -/
theorem fold_each {σ : Type} {f : σ → Block → Res σ} {P : Block → Prop} (h1 : ∀ s s' b, f s b = .ok s' → P b) :
    ∀ {es : List Block} {s s' : σ}, es.foldlM f s = .ok s' → ∀ b ∈ es, P b
  | [], s, s', h, b, hb => by cases hb
  | x :: es, s, s', h, b, hb => by
    rw [List.foldlM_cons, Res.bind_eq_ok] at h
    obtain ⟨s1, h3, h4⟩ := h
    rcases List.mem_cons.mp hb with rfl | hb
    · exact h1 _ _ _ h3
    · exact fold_each h1 h4 b hb

/-- a loop all of whose elements can be taken ends normally -/
theorem fold_ok {σ : Type} {f : σ → Block → Res σ} :
    ∀ {es : List Block} (s : σ), (∀ b ∈ es, ∀ s, ∃ s', f s b = .ok s') → ∃ s', es.foldlM f s = .ok s'
  | [], s, _ => ⟨s, rfl⟩
  | x :: es, s, h => by
    obtain ⟨s1, h1⟩ := h x (by simp) s
    obtain ⟨s2, h2⟩ := fold_ok (es := es) s1 (fun b hb => h b (List.mem_cons_of_mem _ hb))
    exact ⟨s2, by rw [List.foldlM_cons, h1]; exact h2⟩

/-- a field that only the elements of one type change: as it was without them, changed once with one of them -/
theorem fold_one {σ α : Type} {f : σ → Block → Res σ} {proj : σ → α} {t : Nat} {Rel : Block → α → α → Prop}
    (h1 : ∀ s s' b, f s b = .ok s' → b.typ = t → Rel b (proj s) (proj s'))
    (h2 : ∀ s s' b, f s b = .ok s' → b.typ ≠ t → proj s' = proj s) :
    ∀ {es : List Block} {s s' : σ}, es.foldlM f s = .ok s' →
      (ofType t es = [] → proj s' = proj s) ∧ (∀ b, ofType t es = [b] → Rel b (proj s) (proj s'))
  | [], s, s', h => by
    cases h
    exact ⟨fun _ => rfl, by simp [ofType]⟩
  | x :: es, s, s', h => by
    rw [List.foldlM_cons, Res.bind_eq_ok] at h
    obtain ⟨s1, h3, h4⟩ := h
    obtain ⟨i1, i2⟩ := fold_one h1 h2 h4
    by_cases hb : x.typ = t
    · rw [ofType_cons_eq _ hb]
      refine ⟨by simp, ?_⟩
      intro b he
      simp only [List.cons.injEq] at he
      obtain ⟨rfl, he⟩ := he
      rw [i1 he]
      exact h1 _ _ _ h3 hb
    · rw [ofType_cons_ne _ hb, ← h2 _ _ _ h3 hb]
      exact ⟨i1, i2⟩

/-- a counter of the elements of one type -/
theorem fold_count {σ : Type} {f : σ → Block → Res σ} {proj : σ → Nat} {t : Nat}
    (h1 : ∀ s s' b, f s b = .ok s' → b.typ = t → proj s' = proj s + 1)
    (h2 : ∀ s s' b, f s b = .ok s' → b.typ ≠ t → proj s' = proj s) :
    ∀ {es : List Block} {s s' : σ}, es.foldlM f s = .ok s' → proj s' = proj s + (ofType t es).length
  | [], s, s', h => by
    cases h
    rfl
  | x :: es, s, s', h => by
    rw [List.foldlM_cons, Res.bind_eq_ok] at h
    obtain ⟨s1, h3, h4⟩ := h
    have ih := fold_count h1 h2 h4
    by_cases hb : x.typ = t
    · rw [ofType_cons_eq _ hb, ih, h1 _ _ _ h3 hb]; simp only [List.length_cons]; omega
    · rw [ofType_cons_ne _ hb, ih, h2 _ _ _ h3 hb]

/-- a loop all of whose elements can be taken in the states it goes through -/
theorem fold_ok_inv {σ : Type} {f : σ → Block → Res σ} {Inv : σ → Prop} :
    ∀ {es : List Block} (s : σ), Inv s → (∀ b ∈ es, ∀ s, Inv s → ∃ s', f s b = .ok s' ∧ Inv s') → ∃ s', es.foldlM f s = .ok s'
  | [], s, _, _ => ⟨s, rfl⟩
  | x :: es, s, hi, h => by
    obtain ⟨s1, h1, hi1⟩ := h x (by simp) s hi
    obtain ⟨s2, h2⟩ := fold_ok_inv (es := es) s1 hi1 (fun b hb => h b (List.mem_cons_of_mem _ hb))
    exact ⟨s2, by rw [List.foldlM_cons, h1]; exact h2⟩

theorem length_one {α : Type} {l : List α} (h : l.length = 1) : ∃ a, l = [a] := by
  cases l with
  | nil => cases h
  | cons a l => cases l with
    | nil => exact ⟨a, rfl⟩
    | cons _ _ => simp at h

theorem find_of_single {t : Nat} {es : List Block} {b : Block} (h : ofType t es = [b]) :
    es.find? (fun x => x.typ == t) = some b := by
  have h' : es.filter (fun x => x.typ == t) = [b] := h
  rw [← List.head?_filter, h']; rfl

theorem loopRes_ok_iff {σ : Type} {f : σ → Block → Res σ} :
    ∀ {es : List Block} {s s' : σ}, loopRes f s es = (s', .ok ()) ↔ es.foldlM f s = .ok s'
  | [], s, s' => by simp [loopRes]
  | x :: es, s, s' => by
    rw [List.foldlM_cons]
    unfold loopRes
    cases f s x with
    | ok a => exact loopRes_ok_iff
    | exc e => simp
    | ub u => simp

theorem LastSays.unique {α : Type} {t : Nat} {es : List Block} {Reads : Block → α → Prop} {old a b : α}
    (hr : ∀ x a b, Reads x a → Reads x b → a = b) (ha : LastSays t es Reads old a) (hb : LastSays t es Reads old b) : a = b := by
  have h1 := ha.2
  have h2 := hb.2
  cases hl : (ofType t es).getLast? with
  | none => rw [hl] at h1 h2; exact h1.trans h2.symm
  | some x => rw [hl] at h1 h2; exact hr _ _ _ h1 h2

theorem EachSays.unique {α : Type} {Reads : Block → α → Prop} (hr : ∀ x a b, Reads x a → Reads x b → a = b) :
    ∀ {bs : List Block} {as as' : List α}, EachSays Reads bs as → EachSays Reads bs as' → as = as'
  | _, _, _, .nil, .nil => rfl
  | _, _, _, .cons h1 h2, .cons h3 h4 => by rw [hr _ _ _ h1 h3, EachSays.unique hr h2 h4]

theorem EachSays.of_mem {α : Type} {Reads : Block → α → Prop} :
    ∀ {bs : List Block} {as : List α}, EachSays Reads bs as → ∀ b ∈ bs, ∃ a, Reads b a
  | _, _, .nil, b, hb => by cases hb
  | _, _, .cons h1 h2, b, hb => by
    rcases List.mem_cons.mp hb with rfl | hb
    · exact ⟨_, h1⟩
    · exact h2.of_mem b hb

theorem readNni_iff {b : Block} {n : Nat} : readNni b = .ok n ↔ SaysNumber b n := by
  unfold readNni SaysNumber
  split
  · rename_i h
    simp only [Res.ok.injEq, List.mem_cons, List.not_mem_nil, or_false]
    exact ⟨fun e => ⟨h, e.symm⟩, fun e => e.2.symm⟩
  · rename_i h
    simp only [List.mem_cons, List.not_mem_nil, or_false]
    exact ⟨fun e => (by cases e), fun e => absurd e.1 h⟩

theorem nameOfBlock_iff {b : Block} {n : Name} : nameOfBlock b = .ok n ↔ SaysName b n := by
  unfold nameOfBlock SaysName Block.elements
  split
  · rename_i h; simp [h]
  · rename_i h; simp [h]

theorem blockFromValue_iff {b e : Block} : b.blockFromValue = .ok e ↔ parse b.val = .ok [e] := by
  unfold Block.blockFromValue parse
  cases hv : b.val with
  | nil => 
    constructor
    · intro h
      simp [readElement, readVarNumber] at h
    · intro h; cases h
  | cons x xs =>
    simp only [List.length_cons, parseFuel]
    cases hr : readElement (x :: xs) with
    | ok p =>
      obtain ⟨e', rest⟩ := p
      simp only [Res.bind_ok]
      by_cases h0 : rest = []
      · subst h0
        have : parseFuel xs.length ([] : Bytes) = .ok [] := by cases xs.length <;> rfl
        rw [this]
        simp
      · rw [if_neg h0]
        constructor
        · intro h; cases h
        · intro h
          rw [Res.bind_eq_ok] at h
          obtain ⟨es, h1, h2⟩ := h
          cases h2
          cases rest with
          | nil => exact absurd rfl h0
          | cons y ys =>
            cases hn : xs.length with
            | zero => rw [hn] at h1; cases h1
            | succ m =>
              rw [hn] at h1
              simp only [parseFuel] at h1
              rw [Res.bind_eq_ok] at h1
              obtain ⟨_, _, h1⟩ := h1
              rw [Res.bind_eq_ok] at h1
              obtain ⟨_, _, h1⟩ := h1
              cases h1
    | exc e => simp
    | ub u => simp

theorem mayNotSkip_iff {t : Nat} : isCriticalType t = true ↔ MayNotSkip t := by simp [isCriticalType, MayNotSkip]

theorem getElem_iff {es : List Block} {t : Nat} {b : Block} : getElem es t = .ok b ↔ es.find? (fun x => x.typ == t) = some b := by
  unfold getElem
  rw [Res.ofOption_eq_ok]

theorem SaysNumber.lt {b : Block} {n : Nat} (h : SaysNumber b n) : n < 2 ^ 64 := by
  obtain ⟨h1, rfl⟩ := h
  have := beVal_lt b.val
  have h2 : b.val.length ≤ 8 := by
    simp only [List.mem_cons, List.not_mem_nil, or_false] at h1
    omega
  exact Nat.lt_of_lt_of_le this (Nat.le_trans (Nat.pow_le_pow_right (by omega) h2) (by decide))

theorem toInt64_eq {n : Nat} (h : n < 2 ^ 64) : toInt64 n = asSigned64 n := by
  unfold toInt64 asSigned64
  simp only [Nat.mod_eq_of_lt h]

theorem toInt32_eq (n : Nat) : toInt32 n = asSigned32 n := rfl

end Ndncert
