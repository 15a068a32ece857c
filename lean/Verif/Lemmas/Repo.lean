import Verif.Spec.Repo
import Verif.Lemmas.Server

namespace Ndncert

variable {σ : Type}

/-- all attempts in order -/
def writeAll (net : Nat → Link) (ps : List Packet) : Repo := ps.foldl (fun r p => (writeDataToRepo net r p).1) Repo.empty

theorem writeAll_snoc (net : Nat → Link) (ps : List Packet) (p : Packet) :
    writeAll net (ps ++ [p]) = (writeDataToRepo net (writeAll net ps) p).1 := by
  unfold writeAll
  rw [List.foldl_append]
  rfl

theorem list_snoc_induction {α : Type} {P : List α → Prop} (h0 : P []) (h1 : ∀ l a, P l → P (l ++ [a])) (l : List α) : P l := by
  have : ∀ l : List α, P l.reverse := by
    intro l
    induction l with
    | nil => exact h0
    | cons a l ih => rw [List.reverse_cons]; exact h1 _ _ ih
  have := this l.reverse
  rwa [List.reverse_reverse] at this

/-- attempts, packets held and complaints -/
theorem writeAll_eq (net : Nat → Link) (ps : List Packet) :
    (writeAll net ps).attempts = ps.length ∧
    (writeAll net ps).held = (ps.zipIdx.filter (fun x => decide (net x.2 = .whole))).map (·.1) ∧
    (writeAll net ps).complaints = ((List.range ps.length).filter (fun i => decide (net i = .refused))).length := by
  induction ps using list_snoc_induction with
  | h0 => exact ⟨rfl, rfl, rfl⟩
  | h1 ps p ih =>
    obtain ⟨h1, h2, h3⟩ := ih
    rw [writeAll_snoc]
    unfold writeDataToRepo
    rw [h1, List.zipIdx_append, List.filter_append, List.map_append, List.length_append, List.length_singleton, List.range_succ,
      List.filter_append, List.length_append]
    cases hn : net ps.length <;> simp [h1, h2, h3, hn]

/-- the server part does what `Server` does, and the repo gets what `Server` writes -/
theorem publisher_status (net : Nat → Link) (es : List Effect) (p : Publisher) (h : p.repo = writeAll net p.server.written) :
    (es.foldl (fun p x => match x with | .callback r => Publisher.onStatus true net p r | _ => p) p).server =
      es.foldl (fun sv x => match x with | .callback r => sv.onStatus true r | _ => sv) p.server ∧
    (es.foldl (fun p x => match x with | .callback r => Publisher.onStatus true net p r | _ => p) p).repo =
      writeAll net (es.foldl (fun p x => match x with | .callback r => Publisher.onStatus true net p r | _ => p) p).server.written := by
  induction es generalizing p with
  | nil => exact ⟨rfl, h⟩
  | cons e es ih =>
    rw [List.foldl_cons, List.foldl_cons]
    cases e with
    | callback r =>
      refine ih _ ?_
      unfold Publisher.onStatus Server.onStatus
      by_cases hr : r.status = .success ∧ r.requestType = .new
      · simp only [hr, and_self, if_true]
        rw [writeAll_snoc, h]
      · simp only [hr, and_false, if_false]
        exact h
    | _ => exact ih _ h

theorem publisher_after (net : Nat → Link) (first : Data) (next : Step σ → Data) (h : List (Step σ)) :
    (Publisher.after true net first next h).server = Server.after true first next h ∧
    (Publisher.after true net first next h).repo = writeAll net (Server.after true first next h).written := by
  induction h using list_snoc_induction with
  | h0 => exact ⟨rfl, rfl⟩
  | h1 h n ih =>
    obtain ⟨h1, h2⟩ := ih
    have a : Publisher.after true net first next (h ++ [n]) =
        (Publisher.after true net first next h).step true net (next n) n.event n.effects := by
      unfold Publisher.after; rw [List.foldl_append]; rfl
    have b : Server.after true first next (h ++ [n]) = (Server.after true first next h).step true (next n) n.event n.effects := by
      unfold Server.after; rw [List.foldl_append]; rfl
    obtain ⟨c1, c2⟩ := publisher_status net n.effects (Publisher.after true net first next h) (by rw [h2, h1])
    rw [h1] at c1
    rw [c1] at c2
    rw [a, b]
    unfold Publisher.step Server.step
    by_cases hs : n.event.stops = true
    · simp only [hs, if_true]
      refine ⟨congrArg (fun sv : Server => Server.start true (next n) sv.written) c1, ?_⟩
      refine Eq.trans (congrArg (fun r : Repo => (writeDataToRepo net r (.profile (next n))).1) c2) ?_
      exact (writeAll_snoc net _ _).symm
    · simp only [hs, Bool.false_eq_true, if_false]
      exact ⟨c1, c2⟩

theorem publisher_server (net : Nat → Link) (first : Data) (next : Step σ → Data) (h : List (Step σ)) :
    (Publisher.after false net first next h).server = Server.after false first next h ∧
    (Publisher.after false net first next h).repo = Repo.empty := by
  have st : ∀ (es : List Effect) (p : Publisher),
      (es.foldl (fun p x => match x with | .callback r => Publisher.onStatus false net p r | _ => p) p).server =
        es.foldl (fun sv x => match x with | .callback r => sv.onStatus false r | _ => sv) p.server ∧
      (es.foldl (fun p x => match x with | .callback r => Publisher.onStatus false net p r | _ => p) p).repo = p.repo := by
    intro es
    induction es with
    | nil => exact fun _ => ⟨rfl, rfl⟩
    | cons e es ih =>
      intro p
      rw [List.foldl_cons, List.foldl_cons]
      cases e with
      | callback r =>
        obtain ⟨x, y⟩ := ih (Publisher.onStatus false net p r)
        refine ⟨x, y.trans ?_⟩
        unfold Publisher.onStatus
        simp
      | _ => exact ih p
  induction h using list_snoc_induction with
  | h0 => exact ⟨rfl, rfl⟩
  | h1 h n ih =>
    obtain ⟨h1, h2⟩ := ih
    have a : Publisher.after false net first next (h ++ [n]) =
        (Publisher.after false net first next h).step false net (next n) n.event n.effects := by
      unfold Publisher.after; rw [List.foldl_append]; rfl
    have b : Server.after false first next (h ++ [n]) = (Server.after false first next h).step false (next n) n.event n.effects := by
      unfold Server.after; rw [List.foldl_append]; rfl
    obtain ⟨c1, c2⟩ := st n.effects (Publisher.after false net first next h)
    rw [h1] at c1
    rw [h2] at c2
    rw [a, b]
    unfold Publisher.step Server.step
    by_cases hs : n.event.stops = true
    · simp only [hs, if_true]
      exact ⟨congrArg (fun sv : Server => Server.start false (next n) sv.written) c1, c2⟩
    · simp only [hs, Bool.false_eq_true, if_false]
      exact ⟨c1, c2⟩

end Ndncert
