import Verif.Props.BtcSpendVerify

/-! Property C63: a signed transaction with another number of signatures than the script requires is refused. -/

namespace Verif
open Verif.Spec Verif.Btc

namespace Btc

theorem attachAll_some : ∀ (is : List TxIn) (hs out : List TxHash), attachAll is hs = .ok (some out) →
    ∀ i ∈ is, ∃ h h', h ∈ hs ∧ attach i h = .ok (some h')
  | [], _, _, _ => by simp
  | _ :: _, [], _, h => by simp [attachAll] at h
  | i :: is, x :: hs, out, h => by
    rw [attachAll] at h
    obtain ⟨y, hy, h⟩ := Res.bind_eq_ok.mp h
    cases y with
    | none => simp at h
    | some x' =>
      dsimp only at h
      obtain ⟨z, hz, h⟩ := Res.bind_eq_ok.mp h
      cases z with
      | none => simp at h
      | some rest =>
        intro j hj
        rcases List.mem_cons.mp hj with rfl | hj
        · exact ⟨x, x', by simp, hy⟩
        · obtain ⟨a, b, h1, h2⟩ := attachAll_some is hs rest hz j hj
          exact ⟨a, b, by simp [h1], h2⟩

end Btc

/-- C63, the number of signatures: a transaction in which an input for a multi-signature output that requires `m` of the keys carries another number of
signatures (more or fewer, all of them possibly valid) is not accepted. The script of the input is the one the chain prescribes, with the signatures
in range of `C24_roundtrip_partial`; it may be longer than 252 bytes. -/
theorem C63_count (H : Hashes) (C : Curve) (P : AddressPrefix) (text b : Bytes) (us : List TxUnlock) (segwitOn : Bool) (t : Tx) (i : TxIn)
    (hb : Hex.decode text = .ok b) (ht : decodeTx (hexSpare b) segwitOn b = .ok t) (hi : i ∈ t.vins) (hty : i.inType = .multi)
    (sty : UInt8) (m : Nat) (keys sigs ders : List Bytes) (h1 : 1 ≤ m) (h2 : m ≤ keys.length) (h3 : keys.length ≤ 15) (hk : ∀ k ∈ keys, k.length = 33)
    (hd : List.Forall₂ (IsSig sty) sigs ders) (hr : ∀ s ∈ sigs, InRange s)
    (hs : let s := (Unlocking.multi ders (multisigScript m keys)).script (H.hash .sha256)
      i.scriptMulti = s ∨ (s.length < 65536 ∧ i.scriptMulti = 0xfd :: (leBytes 2 s.length ++ s)))
    (hne : sigs.length ≠ m) : verifyRaw H C text us segwitOn P ≠ .ok true := by
  have hml := multisig_length (m := m) hk
  obtain ⟨hdr, e1, e2⟩ := isHeader_pushData (multisigScript m keys) (by omega)
  have hdec : decodeMulti i.scriptMulti = .err := by
    have e : (Unlocking.multi ders (multisigScript m keys)).script (H.hash .sha256) = 0x00 :: ((ders.map push).flatten ++ (hdr ++ multisigScript m keys)) := by
      rw [Unlocking.script, e1]
    rcases hs with h | ⟨hl, h⟩
    · rw [h]
      have := decodeMulti_std (pre := []) h1 h2 h3 hk hd hr e2 e (.inl rfl)
      rw [if_neg hne] at this
      exact this
    · rw [h]
      have := decodeMulti_std (pre := 0xfd :: leBytes 2 _) h1 h2 h3 hk hd hr e2 e (.inr ⟨rfl, hl⟩)
      rw [if_neg hne] at this
      exact this
  have hatt : ∀ h h', attach i h ≠ .ok (some h') := by
    intro h h'
    unfold attach
    simp [hty, hdec]
  unfold verifyRaw
  rw [hb]
  simp only [ht]
  split
  · simp
  cases hashesForSig H segwitOn P (cloneEmpty t) us with
  | err => simp
  | panic => simp
  | ok hs' =>
    dsimp only
    intro hc
    obtain ⟨y, hy, hc⟩ := Res.bind_eq_ok.mp hc
    cases y with
    | none => simp at hc
    | some out =>
      obtain ⟨h, h', _, h2⟩ := attachAll_some _ _ _ hy i hi
      exact hatt _ _ h2

/-- One of two keys is required: with one signature the transaction is accepted, with two it is refused, on a curve on which all signatures are valid. -/
example : let tx := fun ders => Hex.encode ((demoTxN 1).unlocked (toyHashes.hash .sha256) [.multi ders (multisigScript 1 [key0, key1])])
    verifyRaw toyHashes anyCurve (tx [der11]) [multiUnlock 1 [key0, key1]] false btcMainnet = .ok true ∧
    verifyRaw toyHashes anyCurve (tx [der11, der11]) [multiUnlock 1 [key0, key1]] false btcMainnet = .ok false ∧
    verifyRaw toyHashes anyCurve (tx []) [multiUnlock 1 [key0, key1]] false btcMainnet = .ok false := by decide +kernel

/-- The hypotheses are met by this transaction with two signatures. -/
example : ∃ b t i, Hex.decode (Hex.encode ((demoTxN 1).unlocked (toyHashes.hash .sha256) [.multi [der11, der11] (multisigScript 1 [key0, key1])])) = .ok b ∧
    decodeTx (hexSpare b) false b = .ok t ∧ i ∈ t.vins ∧ i.inType = .multi ∧
    i.scriptMulti = (Unlocking.multi [der11, der11] (multisigScript 1 [key0, key1])).script (toyHashes.hash .sha256) ∧
    List.Forall₂ (IsSig 1) [sig11, sig11] [der11, der11] ∧ ∀ s ∈ [sig11, sig11], InRange s := by
  have key : (decodeTx (hexSpare ((demoTxN 1).unlocked (toyHashes.hash .sha256) [.multi [der11, der11] (multisigScript 1 [key0, key1])])) false
      ((demoTxN 1).unlocked (toyHashes.hash .sha256) [.multi [der11, der11] (multisigScript 1 [key0, key1])]) >>= fun t =>
      Res.ok (t.vins.map fun i => (i.inType, i.scriptMulti))) =
    .ok [(.multi, (Unlocking.multi [der11, der11] (multisigScript 1 [key0, key1])).script (toyHashes.hash .sha256))] := by decide +kernel
  obtain ⟨t, ht, h⟩ := Res.bind_eq_ok.mp key
  rw [Res.ok.injEq, List.map_eq_singleton_iff] at h
  obtain ⟨i, hi, h⟩ := h
  rw [Prod.mk.injEq] at h
  refine ⟨_, t, i, Hex.decode_encode _, ht, by simp [hi], h.1, h.2, .cons der11_is (.cons der11_is .nil), ?_⟩
  intro s hs
  simp only [List.mem_cons, List.not_mem_nil, or_false, or_self] at hs
  subst hs
  unfold InRange
  exact Or.inr (by decide +kernel)

end Verif
