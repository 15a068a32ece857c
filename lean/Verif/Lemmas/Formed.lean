import Verif.Spec.Formed
import Verif.Lemmas.Packet

namespace Ndncert

theorem orderedOnce_cons_out {types : List Nat} {e : Block} {es : List Block} (h : e.typ ∉ types) (ho : OrderedOnce types es) :
    OrderedOnce types (e :: es) := by
  unfold OrderedOnce at *
  rw [List.filter_cons_of_neg (by simpa using h)]
  exact ho

theorem orderedOnce_cons_in {types : List Nat} {e : Block} {es : List Block} (h : e.typ ∈ types) (ho : OrderedOnce types es)
    (hl : ∀ x ∈ es, x.typ ∈ types → e.typ < x.typ) : OrderedOnce types (e :: es) := by
  unfold OrderedOnce at *
  rw [List.filter_cons_of_pos (by simpa using h), List.map_cons, List.pairwise_cons]
  refine ⟨?_, ho⟩
  intro t ht
  obtain ⟨x, hx, rfl⟩ := List.mem_map.mp ht
  obtain ⟨h1, h2⟩ := List.mem_filter.mp hx
  exact hl x h1 (by simpa using h2)

/-- there is at most one element of each of the types -/
theorem OrderedOnce.eq_of_typ {types : List Nat} {es : List Block} (h : OrderedOnce types es) {x y : Block} (hx : x ∈ es) (hy : y ∈ es)
    (ht : x.typ ∈ types) (he : x.typ = y.typ) : x = y := by
  unfold OrderedOnce at h
  rw [List.pairwise_map] at h
  have hx' : x ∈ es.filter fun e => decide (e.typ ∈ types) := List.mem_filter.mpr ⟨hx, by simpa using ht⟩
  have hy' : y ∈ es.filter fun e => decide (e.typ ∈ types) := List.mem_filter.mpr ⟨hy, by simpa [← he] using ht⟩
  generalize (es.filter fun e => decide (e.typ ∈ types)) = l at h hx' hy'
  induction l with
  | nil => cases hx'
  | cons a l ih =>
    obtain ⟨h1, h2⟩ := List.pairwise_cons.mp h
    rcases List.mem_cons.mp hx' with rfl | hx2 <;> rcases List.mem_cons.mp hy' with rfl | hy2
    · rfl
    · have := h1 y hy2; omega
    · have := h1 x hx2; omega
    · exact ih h2 hx2 hy2

/-- what the steps over the elements of a Data imply -/
theorem packetFold_formed {es : List Block} {p q : DataPacket} (h : es.foldlM packetStep p = some q) (hp1 : 1 ≤ p.last) :
    q.name = p.name ∧ OrderedOnce [20, 21, 22, 23] es ∧ (∀ e ∈ es, e.typ ∈ [20, 21, 22, 23] → 18 + p.last < e.typ) ∧
    (∀ e ∈ es, e.typ ∉ [20, 21, 22, 23] → isCriticalType e.typ = false) ∧
    (q.contentType = p.contentType ∨ ∃ m ∈ es, m.typ = 20 ∧ ∃ f, metaInfoOf m = some (q.contentType, f)) ∧
    ((q.content = p.content ∧ ∀ e ∈ es, e.typ ≠ 21) ∨ ∃ e ∈ es, e.typ = 21 ∧ q.content = some e.val) ∧
    (q.sigInfo = p.sigInfo ∨ ∃ s ∈ es, s.typ = 22 ∧ sigInfoOf s = q.sigInfo) := by
  induction es generalizing p with
  | nil =>
    cases h
    exact ⟨rfl, by simp [OrderedOnce], by simp, by simp, .inl rfl, .inl ⟨rfl, by simp⟩, .inl rfl⟩
  | cons e es ih =>
    rw [List.foldlM_cons] at h
    obtain ⟨p', h1, h⟩ := Option.bind_eq_some_iff.mp h
    unfold packetStep at h1
    split at h1
    · rename_i ht
      split at h1
      · cases h1
      · rename_i hl
        obtain ⟨m, hm, rfl⟩ := Option.map_eq_some_iff.mp h1
        obtain ⟨i1, i2, i3, i4, i5, i6, i7⟩ := ih h (by show 1 ≤ 2; omega)
        refine ⟨i1, orderedOnce_cons_in (by rw [ht]; simp) i2 (fun x hx hxt => by have := i3 x hx hxt; dsimp only at this; omega), ?_, ?_, ?_, ?_, ?_⟩
        · intro x hx hxt
          rcases List.mem_cons.mp hx with rfl | hx
          · omega
          · have := i3 x hx hxt; dsimp only at this; omega
        · intro x hx hxt
          rcases List.mem_cons.mp hx with rfl | hx
          · rw [ht] at hxt; simp at hxt
          · exact i4 x hx hxt
        · right
          rcases i5 with h5 | ⟨m', h6, h7⟩
          · exact ⟨e, by simp, ht, m.2, by rw [hm, h5]⟩
          · exact ⟨m', by simp [h6], h7⟩
        · rcases i6 with ⟨h5, h6⟩ | ⟨x, h5, h6⟩
          · left
            refine ⟨h5, ?_⟩
            intro x hx
            rcases List.mem_cons.mp hx with rfl | hx
            · omega
            · exact h6 x hx
          · exact .inr ⟨x, by simp [h5], h6⟩
        · rcases i7 with h5 | ⟨x, h5, h6⟩
          · exact .inl h5
          · exact .inr ⟨x, by simp [h5], h6⟩
    split at h1
    · rename_i _ ht
      split at h1
      · cases h1
      · rename_i hl
        cases h1
        obtain ⟨i1, i2, i3, i4, i5, i6, i7⟩ := ih h (by show 1 ≤ 3; omega)
        refine ⟨i1, orderedOnce_cons_in (by rw [ht]; simp) i2 (fun x hx hxt => by have := i3 x hx hxt; dsimp only at this; omega), ?_, ?_, ?_, ?_, ?_⟩
        · intro x hx hxt
          rcases List.mem_cons.mp hx with rfl | hx
          · omega
          · have := i3 x hx hxt; dsimp only at this; omega
        · intro x hx hxt
          rcases List.mem_cons.mp hx with rfl | hx
          · rw [ht] at hxt; simp at hxt
          · exact i4 x hx hxt
        · rcases i5 with h5 | ⟨x, h5, h6⟩
          · exact .inl h5
          · exact .inr ⟨x, by simp [h5], h6⟩
        · right
          rcases i6 with ⟨h5, h6⟩ | ⟨x, h5, h6⟩
          · exact ⟨e, by simp, ht, h5⟩
          · exact ⟨x, by simp [h5], h6⟩
        · rcases i7 with h5 | ⟨x, h5, h6⟩
          · exact .inl h5
          · exact .inr ⟨x, by simp [h5], h6⟩
    split at h1
    · rename_i _ _ ht
      split at h1
      · cases h1
      · rename_i hl
        obtain ⟨m, hm, rfl⟩ := Option.map_eq_some_iff.mp h1
        obtain ⟨i1, i2, i3, i4, i5, i6, i7⟩ := ih h (by show 1 ≤ 4; omega)
        refine ⟨i1, orderedOnce_cons_in (by rw [ht]; simp) i2 (fun x hx hxt => by have := i3 x hx hxt; dsimp only at this; omega), ?_, ?_, ?_, ?_, ?_⟩
        · intro x hx hxt
          rcases List.mem_cons.mp hx with rfl | hx
          · omega
          · have := i3 x hx hxt; dsimp only at this; omega
        · intro x hx hxt
          rcases List.mem_cons.mp hx with rfl | hx
          · rw [ht] at hxt; simp at hxt
          · exact i4 x hx hxt
        · rcases i5 with h5 | ⟨x, h5, h6⟩
          · exact .inl h5
          · exact .inr ⟨x, by simp [h5], h6⟩
        · rcases i6 with ⟨h5, h6⟩ | ⟨x, h5, h6⟩
          · left
            refine ⟨h5, ?_⟩
            intro x hx
            rcases List.mem_cons.mp hx with rfl | hx
            · omega
            · exact h6 x hx
          · exact .inr ⟨x, by simp [h5], h6⟩
        · right
          rcases i7 with h5 | ⟨x, h5, h6⟩
          · exact ⟨e, by simp, ht, by rw [hm, h5]⟩
          · exact ⟨x, by simp [h5], h6⟩
    split at h1
    · rename_i _ _ _ ht
      split at h1
      · cases h1
      · rename_i hl
        cases h1
        obtain ⟨i1, i2, i3, i4, i5, i6, i7⟩ := ih h (by show 1 ≤ 5; omega)
        refine ⟨i1, orderedOnce_cons_in (by rw [ht]; simp) i2 (fun x hx hxt => by have := i3 x hx hxt; dsimp only at this; omega), ?_, ?_, ?_, ?_, ?_⟩
        · intro x hx hxt
          rcases List.mem_cons.mp hx with rfl | hx
          · omega
          · have := i3 x hx hxt; dsimp only at this; omega
        · intro x hx hxt
          rcases List.mem_cons.mp hx with rfl | hx
          · rw [ht] at hxt; simp at hxt
          · exact i4 x hx hxt
        · rcases i5 with h5 | ⟨x, h5, h6⟩
          · exact .inl h5
          · exact .inr ⟨x, by simp [h5], h6⟩
        · rcases i6 with ⟨h5, h6⟩ | ⟨x, h5, h6⟩
          · left
            refine ⟨h5, ?_⟩
            intro x hx
            rcases List.mem_cons.mp hx with rfl | hx
            · omega
            · exact h6 x hx
          · exact .inr ⟨x, by simp [h5], h6⟩
        · rcases i7 with h5 | ⟨x, h5, h6⟩
          · exact .inl h5
          · exact .inr ⟨x, by simp [h5], h6⟩
    split at h1
    · cases h1
    · rename_i t1 t2 t3 t4 hcr
      cases h1
      obtain ⟨i1, i2, i3, i4, i5, i6, i7⟩ := ih h hp1
      have hout : e.typ ∉ [20, 21, 22, 23] := by simp [t1, t2, t3, t4]
      refine ⟨i1, orderedOnce_cons_out hout i2, ?_, ?_, ?_, ?_, ?_⟩
      · intro x hx hxt
        rcases List.mem_cons.mp hx with rfl | hx
        · exact absurd hxt hout
        · exact i3 x hx hxt
      · intro x hx hxt
        rcases List.mem_cons.mp hx with rfl | hx
        · simpa using hcr
        · exact i4 x hx hxt
      · rcases i5 with h5 | ⟨x, h5, h6⟩
        · exact .inl h5
        · exact .inr ⟨x, by simp [h5], h6⟩
      · rcases i6 with ⟨h5, h6⟩ | ⟨x, h5, h6⟩
        · left
          refine ⟨h5, ?_⟩
          intro x hx
          rcases List.mem_cons.mp hx with rfl | hx
          · exact t2
          · exact h6 x hx
        · exact .inr ⟨x, by simp [h5], h6⟩
      · rcases i7 with h5 | ⟨x, h5, h6⟩
        · exact .inl h5
        · exact .inr ⟨x, by simp [h5], h6⟩

/-- what the steps over the elements of a SignatureInfo imply -/
theorem sigInfoFold_formed {es : List Block} {a s : SigInfo} (h : es.foldlM sigInfoStep a = some s) :
    OrderedOnce [27, 28] es ∧ (a.sigType ≠ none ∨ a.locator ≠ none → ∀ e ∈ es, e.typ ≠ 27) ∧ (a.locator ≠ none → ∀ e ∈ es, e.typ ≠ 28) ∧
    (s.sigType = a.sigType ∨ ∃ t ∈ es, t.typ = 27 ∧ ∃ n, readNni t = .ok n) ∧
    (s.locator = a.locator ∨ ∃ l ∈ es, l.typ = 28 ∧ keyLocatorOf l = s.locator) ∧
    (∀ x ∈ s.others, x ∈ a.others ∨ x ∈ es) := by
  induction es generalizing a with
  | nil =>
    cases h
    exact ⟨by simp [OrderedOnce], by simp, by simp, .inl rfl, .inl rfl, fun x hx => .inl hx⟩
  | cons e es ih =>
    rw [List.foldlM_cons] at h
    obtain ⟨a', h1, h⟩ := Option.bind_eq_some_iff.mp h
    unfold sigInfoStep at h1
    split at h1
    · rename_i ht
      split at h1
      · cases h1
      · rename_i hn
        obtain ⟨n, hm, rfl⟩ := Option.map_eq_some_iff.mp h1
        obtain ⟨i1, i2, i3, i4, i5, i6⟩ := ih h
        have h27 := i2 (.inl (by simp))
        refine ⟨orderedOnce_cons_in (by rw [ht]; simp) i1 ?_, fun hh => absurd hh hn, ?_, ?_, ?_, ?_⟩
        · intro x hx hxt
          have := h27 x hx
          simp at hxt
          omega
        · intro hl x hx
          exact absurd (.inr hl) hn
        · exact .inr ⟨e, by simp, ht, n, toOption_some hm⟩
        · rcases i5 with h5 | ⟨x, h5, h6⟩
          · exact .inl h5
          · exact .inr ⟨x, by simp [h5], h6⟩
        · intro x hx
          rcases i6 x hx with h5 | h5
          · exact .inl h5
          · exact .inr (by simp [h5])
    split at h1
    · rename_i _ ht
      split at h1
      · cases h1
      · rename_i hn
        obtain ⟨l, hm, rfl⟩ := Option.map_eq_some_iff.mp h1
        obtain ⟨i1, i2, i3, i4, i5, i6⟩ := ih h
        have h27 := i2 (.inr (by simp))
        have h28 := i3 (by simp)
        refine ⟨orderedOnce_cons_in (by rw [ht]; simp) i1 ?_, ?_, fun hh => absurd hh hn, ?_, ?_, ?_⟩
        · intro x hx hxt
          have h1 := h27 x hx
          have h2 := h28 x hx
          simp at hxt
          omega
        · intro _ x hx
          rcases List.mem_cons.mp hx with rfl | hx
          · omega
          · exact h27 x hx
        · rcases i4 with h5 | ⟨x, h5, h6⟩
          · exact .inl h5
          · exact .inr ⟨x, by simp [h5], h6⟩
        · right
          rcases i5 with h5 | ⟨x, h5, h6⟩
          · exact ⟨e, by simp, ht, by rw [hm, h5]⟩
          · exact ⟨x, by simp [h5], h6⟩
        · intro x hx
          rcases i6 x hx with h5 | h5
          · exact .inl h5
          · exact .inr (by simp [h5])
    · rename_i t1 t2
      cases h1
      obtain ⟨i1, i2, i3, i4, i5, i6⟩ := ih h
      refine ⟨orderedOnce_cons_out (by simp [t1, t2]) i1, ?_, ?_, ?_, ?_, ?_⟩
      · intro hh x hx
        rcases List.mem_cons.mp hx with rfl | hx
        · exact t1
        · exact i2 hh x hx
      · intro hh x hx
        rcases List.mem_cons.mp hx with rfl | hx
        · exact t2
        · exact i3 hh x hx
      · rcases i4 with h5 | ⟨x, h5, h6⟩
        · exact .inl h5
        · exact .inr ⟨x, by simp [h5], h6⟩
      · rcases i5 with h5 | ⟨x, h5, h6⟩
        · exact .inl h5
        · exact .inr ⟨x, by simp [h5], h6⟩
      · intro x hx
        rcases i6 x hx with h5 | h5
        · rcases List.mem_append.mp h5 with h5 | h5
          · exact .inl h5
          · exact .inr (by simp at h5; simp [h5])
        · exact .inr (by simp [h5])

theorem metaInfoOf_key {m : Block} {f : Nat} (h : metaInfoOf m = some (2, f)) : SaysKey m := by
  unfold metaInfoOf at h
  obtain ⟨es, h1, h⟩ := Option.bind_eq_some_iff.mp h
  replace h1 := toOption_some h1
  obtain ⟨⟨ct, es1⟩, h2, h⟩ := Option.bind_eq_some_iff.mp h
  have hct : ct = 2 := by
    obtain ⟨⟨fr, es2⟩, h3, h⟩ := Option.bind_eq_some_iff.mp h
    dsimp only at h
    split at h
    · split at h
      · obtain ⟨_, _, h⟩ := Option.map_eq_some_iff.mp h
        cases h; rfl
      · cases h; rfl
    · cases h; rfl
  subst hct
  split at h2
  · rename_i e rest
    split at h2
    · rename_i ht
      obtain ⟨n, h3, h2⟩ := Option.bind_eq_some_iff.mp h2
      split at h2
      · cases h2
        exact ⟨e, _, h1, ht, toOption_some h3⟩
      · cases h2
    · cases h2
  · cases h2

theorem keyLocatorOf_name {l : Block} {n : Name} (h : keyLocatorOf l = some (some n)) : Locates l n := by
  unfold keyLocatorOf at h
  obtain ⟨es, h1, h⟩ := Option.bind_eq_some_iff.mp h
  replace h1 := toOption_some h1
  split at h
  · rename_i e rest
    split at h
    · rename_i ht
      obtain ⟨n', h2, h3⟩ := Option.map_eq_some_iff.mp h
      cases h3
      exact ⟨e, rest, h1, ht, toOption_some h2⟩
    · cases h
  · cases h

theorem validityOf_period {b : Block} {p : Time × Time} (h : validityOf b = some p) :
    ∃ x y a c, SaysPeriod b x y ∧ fromIsoText x = some a ∧ fromIsoText y = some c ∧
      p = (a.tdiv 1000000 * 1000000000, c.tdiv 1000000 * 1000000000) := by
  unfold validityOf at h
  obtain ⟨es, h1, h⟩ := Option.bind_eq_some_iff.mp h
  replace h1 := toOption_some h1
  split at h
  · rename_i x y
    split at h
    · rename_i ht
      obtain ⟨nb, h2, h⟩ := Option.bind_eq_some_iff.mp h
      obtain ⟨na, h3, h⟩ := Option.bind_eq_some_iff.mp h
      cases h
      refine ⟨x.val, y.val, nb, na, ?_, h2, h3, rfl⟩
      unfold SaysPeriod
      rw [h1, ← ht.1, ← ht.2]
    · cases h
  · cases h

theorem sigInfoOf_formed {b : Block} {s : SigInfo} (h : sigInfoOf b = some s) : FormedInfo b s.locator.join s.validity := by
  unfold sigInfoOf at h
  obtain ⟨es, h1, h⟩ := Option.bind_eq_some_iff.mp h
  obtain ⟨a, h2, h⟩ := Option.bind_eq_some_iff.mp h
  split at h
  · cases h
  · rename_i hn
    cases h
    obtain ⟨i1, _, _, i4, i5, i6⟩ := sigInfoFold_formed h2
    refine ⟨es, toOption_some h1, i1, ?_, ?_, ?_⟩
    · rcases i4 with h | h
      · exact absurd h hn
      · exact h
    · intro name hname
      rcases i5 with h | ⟨l, hl, ht, hk⟩
      · rw [h] at hname; cases hname
      · refine ⟨l, hl, ht, keyLocatorOf_name ?_⟩
        rw [hk]
        cases hs : s.locator with
        | none => rw [hs] at hname; cases hname
        | some x => rw [hs] at hname; exact congrArg some hname
    · intro p hp
      unfold SigInfo.validity at hp
      obtain ⟨v, hv, hp⟩ := Option.bind_eq_some_iff.mp hp
      have hm := List.mem_of_find?_eq_some hv
      have ht := List.find?_some hv
      rcases i6 v hm with h | h
      · cases h
      · exact ⟨v, h, by simpa using ht, validityOf_period hp⟩

end Ndncert
