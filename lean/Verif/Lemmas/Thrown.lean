import Verif.Lemmas.RequestObject

/-! # Which kinds of exceptions the requester throws -/

namespace Ndncert

/-- it does not throw `std::invalid_argument` -/
def Rt {α : Type} (x : Res α) : Prop := x ≠ .exc .name

namespace Rt

variable {α β : Type}

theorem ok (a : α) : Rt (.ok a : Res α) := nofun
theorem ub (u : Ub) : Rt (.ub u : Res α) := nofun
theorem exc {e : Exc} (h : e ≠ .name) : Rt (.exc e : Res α) := by
  intro h'
  injection h' with h'
  exact h h'

theorem bind {x : Res α} {f : α → Res β} (hx : Rt x) (hf : ∀ a, Rt (f a)) : Rt (x >>= f) := by
  cases x with
  | ok a => exact hf a
  | exc e => exact Rt.exc (fun h => hx (by rw [h]))
  | ub u => exact Rt.ub u

theorem ofOption {e : Exc} (h : e ≠ .name) (o : Option α) : Rt (Res.ofOption e o) := by
  cases o
  · exact Rt.exc h
  · exact Rt.ok _

theorem foldlM {f : α → β → Res α} (hf : ∀ a b, Rt (f a b)) : ∀ (l : List β) (a : α), Rt (l.foldlM f a)
  | [], a => Rt.ok a
  | b :: l, a => by
    rw [List.foldlM_cons]
    exact Rt.bind (hf a b) (fun a' => foldlM hf l a')

theorem loop {f : α → Block → Res α} (hf : ∀ a b, Rt (f a b)) : ∀ (l : List Block) (a : α), Rt (loopRes f a l).2
  | [], a => Rt.ok ()
  | b :: l, a => by
    unfold loopRes
    have := hf a b
    split
    · exact loop hf l _
    · rename_i e h
      rw [h] at this
      exact Rt.exc (fun h' => this (by rw [h']))
    · exact Rt.ub _

/-- if a result has an exception in common with one that does not throw it -/
theorem same {x : Res α} {e : Exc} (hx : Rt x) (h : x = .exc e) : Rt (.exc e : Res β) := Rt.exc (fun h' => hx (by rw [h, h']))

theorem as {x : Res α} (hx : Rt x) (f : α → β) : Rt (x.as f) := by
  cases x with
  | ok a => exact Rt.ok _
  | exc e => exact same hx rfl
  | ub u => exact Rt.ub u

end Rt

/-- prove `Rt` by following the program -/
macro "rt" : tactic => `(tactic| repeat' (first
  | exact Rt.ok _ | exact Rt.ub _ | exact Rt.exc (by decide) | exact Rt.exc nofun
  | split))

theorem readVarNumber_rt (bs : Bytes) : Rt (readVarNumber bs) := by
  unfold readVarNumber
  dsimp only
  rt

theorem readElement_rt (bs : Bytes) : Rt (readElement bs) := by
  unfold readElement
  refine Rt.bind (readVarNumber_rt _) fun a => ?_
  split
  split
  · rt
  refine Rt.bind (readVarNumber_rt _) fun b => ?_
  rt

theorem parseFuel_rt : ∀ (n : Nat) (bs : Bytes), Rt (parseFuel n bs)
  | _, [] => by rw [parseFuel]; exact Rt.ok _
  | 0, _ :: _ => Rt.exc (by decide)
  | n + 1, b :: bs => by
    unfold parseFuel
    exact Rt.bind (readElement_rt _) fun a => Rt.bind (parseFuel_rt n _) fun b => Rt.ok _

theorem parse_rt (bs : Bytes) : Rt (parse bs) := parseFuel_rt _ _
theorem elements_rt (b : Block) : Rt b.elements := parse_rt _
theorem getElem_rt (es : List Block) (t : Nat) : Rt (getElem es t) := Rt.ofOption (by decide) _
theorem fromValue_rt (b : Block) : Rt b.blockFromValue := Rt.bind (readElement_rt _) fun a => by rt
theorem readNni_rt (b : Block) : Rt (readNni b) := by unfold readNni; rt
theorem nameOfBlock_rt (b : Block) : Rt (nameOfBlock b) := by
  unfold nameOfBlock
  split
  · exact elements_rt b
  · rt

theorem certOfBlock_rt (C : Crypto) (b : Block) : Rt (certOfBlock C b) := Rt.ofOption (by decide) _

theorem infoDecode_rt (C : Crypto) (b : Block) : Rt (infoDecode C b) := by
  refine Rt.bind (elements_rt b) fun es => Rt.foldlM (fun p item => ?_) es _
  unfold infoStep
  split
  · exact Rt.bind (elements_rt _) fun _ => Rt.bind (getElem_rt _ _) fun _ => Rt.bind (nameOfBlock_rt _) fun _ => Rt.ok _
  split
  · rt
  split
  · rt
  split
  · exact Rt.bind (readNni_rt _) fun _ => Rt.ok _
  split
  · exact Rt.bind (elements_rt _) fun _ => Rt.bind (getElem_rt _ _) fun _ => Rt.bind (certOfBlock_rt _ _) fun _ => Rt.ok _
  rt

theorem probeDecode_rt (b : Block) (names : List (Name × Int)) (rs : List Name) : Rt (probeDecode b names rs) := by
  refine Rt.bind (elements_rt b) fun es => Rt.foldlM (fun acc item => ?_) es _
  unfold probeStep
  split
  · refine Rt.bind (elements_rt _) fun _ => Rt.bind (Rt.foldlM (fun a sub => ?_) _ _) fun _ => by rt
    unfold probeNameStep
    split
    · split
      · rt
      · exact Rt.bind (nameOfBlock_rt _) fun _ => Rt.ok _
    split
    · exact Rt.bind (readNni_rt _) fun _ => Rt.ok _
    rt
  split
  · exact Rt.bind (fromValue_rt _) fun _ => Rt.bind (nameOfBlock_rt _) fun _ => Rt.ok _
  rt

theorem checkReply_rt (C : Crypto) (p : CaProfile) (d : Data) : Rt (checkReply C p d) := by
  unfold checkReply processIfError
  split
  · rt
  split
  · dsimp only
    rt
  · rt

theorem requestDecode_rt (b : Block) (salt id : Bytes) : Rt (requestDecode b salt id).2 := by
  unfold requestDecode
  have he := elements_rt b
  split
  · exact Rt.same he ‹_›
  · rt
  dsimp only
  have hl := Rt.loop (f := requestStep) (fun a e => by
    unfold requestStep
    split
    · rt
    split
    · rt
    split
    · refine Rt.bind ?_ fun _ => Rt.ok _
      unfold memcpyInto
      rt
    split
    · refine Rt.bind ?_ fun _ => Rt.ok _
      unfold memcpyInto
      rt
    rt) ‹_› { salt := salt, requestId := id }
  split
  · exact Rt.same hl ‹_›
  · rt
  · rt

theorem updateIv_rt (iv : Bytes) (n : Nat) : Rt (updateIv iv n) := by
  unfold updateIv
  dsimp only
  rt

theorem encodeAes_rt (C : Crypto) (t : Nat) (key payload aad iv rnd : Bytes) : Rt (encodeAes C t key payload aad iv rnd).2 := by
  unfold encodeAes
  dsimp only
  split
  · rt
  have h := updateIv_rt (startIv iv rnd) payload.length
  split
  · rt
  · exact Rt.same h ‹_›
  · rt

theorem decodeAes_rt (C : Crypto) (b : Block) (key aad decIv encIv : Bytes) : Rt (decodeAes C b key aad decIv encIv).2 := by
  unfold decodeAes
  split
  · rename_i e h
    refine Rt.same (α := Bytes × Bytes × Bytes) ?_ h
    exact Rt.bind (elements_rt _) fun _ => Rt.bind (getElem_rt _ _) fun _ => Rt.bind (getElem_rt _ _) fun _ => Rt.bind (getElem_rt _ _) fun _ => by rt
  · rt
  rename_i ct obs tag _
  split
  · rt
  split
  · rt
  split
  · rt
  split
  · rt
  split
  · rt
  split
  · rt
  have h := updateIv_rt obs (‹Bytes›).length
  split
  · rt
  · exact Rt.same (updateIv_rt _ _) ‹_›
  · rt

theorem challengeStep_rt (es : List Block) (now : Time) (a : ChalDecAcc) (b : Block) : Rt (challengeStep es now a b) := by
  unfold challengeStep
  split
  · split
    · refine Rt.bind (getElem_rt _ _) fun _ => Rt.bind ?_ fun _ => Rt.ok _
      unfold statusFromBlock
      exact Rt.bind (readNni_rt _) fun _ => by rt
    split
    · rt
    split
    · exact Rt.bind (readNni_rt _) fun _ => Rt.ok _
    split
    · refine Rt.bind (readNni_rt _) fun _ => Rt.bind ?_ fun _ => Rt.ok _
      unfold addSeconds
      dsimp only
      rt
    split
    · exact Rt.bind (fromValue_rt _) fun _ => Rt.bind (nameOfBlock_rt _) fun _ => Rt.ok _
    split
    · exact Rt.bind (fromValue_rt _) fun _ => Rt.bind (nameOfBlock_rt _) fun _ => Rt.ok _
    rt
  · rt

theorem challengeDecode_rt (C : Crypto) (b : Block) (r : Request) (now : Time) : Rt (challengeDecode C b r now).2 := by
  unfold challengeDecode
  have hd := decodeAes_rt C b r.aesKey r.requestId r.decryptionIv r.encryptionIv
  dsimp only
  split
  · exact Rt.same hd ‹_›
  · rt
  split
  · exact Rt.same (parse_rt _) ‹_›
  · rt
  dsimp only
  split
  · exact Rt.same (Rt.loop (challengeStep_rt _ now) _ _) ‹_›
  · rt
  · rt

theorem genChallengeTlv_rt (k : ChalKind) (st : Status) (cs : Bytes) (m : MMap) : Rt (genChallengeTlv k st cs m) := by
  unfold genChallengeTlv genCodeTlv
  split
  · rt
  · rt
  · split
    · split
      · split
        · exact Rt.bind (fromValue_rt _) fun _ => Rt.ok _
        · rt
      · rt
    · rt

end Ndncert
