import Verif.Lemmas.Encoders

namespace Ndncert

theorem mmInsert_last {k v : Bytes} {m : MMap} (h : ∀ e ∈ m, bytesLt k e.1 = false) :
    mmInsert k v m = m ++ [(k, v)] := by
  induction m with
  | nil => rfl
  | cons e es ih =>
    simp only [mmInsert, h e (by simp), List.cons_append]
    rw [ih (fun e h' => h e (by simp [h']))]
    simp

theorem foldl_mmInsert {m acc : MMap} (hs : MMap.Sorted (acc ++ m)) :
    m.foldl (fun a e => mmInsert e.1 e.2 a) acc = acc ++ m := by
  induction m generalizing acc with
  | nil => simp
  | cons e es ih =>
    rw [List.foldl_cons, mmInsert_last, ih]
    · simp
    · simpa using hs
    · intro x hx
      unfold MMap.Sorted at hs
      rw [List.pairwise_append] at hs
      exact hs.2.2 x hx e (by simp)

theorem probeParamsLoop_pairs (m acc : MMap) :
    probeParamsLoop acc (m.flatMap fun e => [binBlock T.ParameterKey e.1, binBlock T.ParameterValue e.2]) =
      .ok (m.foldl (fun a e => mmInsert e.1 e.2 a) acc) := by
  induction m generalizing acc with
  | nil => rfl
  | cons e es ih =>
    simp only [List.flatMap_cons, List.cons_append, List.nil_append]
    rw [probeParamsLoop, if_pos ⟨rfl, rfl⟩, ih]
    rfl

/-- the loop on pairs followed by something -/
theorem probeParamsLoop_pairs_append (m acc : MMap) (rest : List Block) :
    probeParamsLoop acc ((m.flatMap fun e => [binBlock T.ParameterKey e.1, binBlock T.ParameterValue e.2]) ++ rest) =
      probeParamsLoop (m.foldl (fun a e => mmInsert e.1 e.2 a) acc) rest := by
  induction m generalizing acc with
  | nil => rfl
  | cons e es ih =>
    simp only [List.flatMap_cons, List.cons_append, List.nil_append]
    rw [probeParamsLoop, if_pos ⟨rfl, rfl⟩, ih]
    rfl

/-- a non-critical element at the front is skipped -/
theorem probeParamsLoop_skip (acc : MMap) (x : Block) (hx : isCriticalType x.typ = false)
    (rest : List Block) : probeParamsLoop acc (x :: rest) = probeParamsLoop acc rest := by
  have hne : x.typ ≠ T.ParameterKey := by
    intro h; rw [h] at hx; exact absurd hx (by decide)
  cases rest with
  | nil => simp [probeParamsLoop, hx]
  | cons y rest => rw [probeParamsLoop, if_neg (fun h => hne h.1), if_neg (by simp [hx])]

theorem toInt32_small {n : Nat} (h : n < 2 ^ 31) : toInt32 n = (n : Int) := by
  unfold toInt32
  have : n % 2 ^ 32 = n := Nat.mod_eq_of_lt (by omega)
  simp only [this]
  rw [if_pos h]

theorem toInt64_small {n : Nat} (h : n < 2 ^ 63) : toInt64 n = (n : Int) := by
  unfold toInt64
  have : n % 2 ^ 64 = n := Nat.mod_eq_of_lt (by omega)
  simp only [this]
  rw [if_pos h]

/-- a 64-bit signed number survives the conversion to unsigned and back -/
theorem toInt64_back {x : Int} (h0 : -(2 ^ 63) ≤ x) (h1 : x < 2 ^ 63) : toInt64 (x % 2 ^ 64).toNat = x := by
  unfold toInt64
  have : (x % 2 ^ 64).toNat % 2 ^ 64 = (x % 2 ^ 64).toNat := Nat.mod_eq_of_lt (by omega)
  dsimp only
  rw [this]
  split <;> omega

end Ndncert
