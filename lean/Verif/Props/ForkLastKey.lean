import Verif.Props.BtcExact

/-! C92: several signatures of one key in the packages derived from Bitcoin. -/

namespace Verif
open Verif.Spec Verif.Btc

/-- C92 is false (3), whatever the hash functions and the curve are: in Bitcoin Cash, Bitcoin SV, CXC and HC, too, a script for `m` signatures of its keys is satisfied by
`m` signatures of its last key alone. -/
theorem C92_last_key_violated (V : BtcVariants.Variant) (hV : V = BtcVariants.bch ∨ V = BtcVariants.bsv ∨ V = BtcVariants.cxc ∨ V = BtcVariants.hc) (sty : UInt8)
    (H : Hashes) (C : Curve) (P : AddressPrefix) (t : RawTx) (hu : UnsignedV V.version t)
    (u : TxUnlock) (h th : TxHash) (m : Nat) (keys : List Bytes) (sigs : List (Option Bytes)) (ders : List Bytes) (msg last : Bytes)
    (_several : 2 ≤ m) (sm : SignedMulti sty u h m keys sigs ders) (hread : Readable (.multi ders (multisigScript m keys)))
    (hc : BtcVariants.createHashes V H (Hex.encode t.ser) [u] false P = .ok [th]) (hhash : h.hash = th.hash) (hm : Hex.decode th.hash = .ok msg)
    (hon : ∀ k ∈ keys, (C.decompress k).length ≠ 0) (hlast : keys.getLast? = some last)
    (hv : ∀ s ∈ sigs.filterMap id, InRange s ∧ C.verify ((C.decompress last).drop 1) msg s = true) :
    ∃ signed, BtcVariants.insertSignatures V H (Hex.encode t.ser) [h] [u] false = .ok signed ∧ BtcVariants.verifyRaw V H C signed [u] false P = .ok true := by
  have hmsg : Hex.decode h.hash = .ok msg := by rw [hhash]; exact hm
  obtain ⟨signed, b, e1, e2, e3⟩ := C92_exact_partial V hV sty H C P t hu [⟨u, h, .multi ders (multisigScript m keys)⟩] false [th] hc (by simp [hhash])
    (by
      intro e he
      rw [List.mem_singleton.mp he]
      exact Fills.multi sm rfl)
    (by
      intro e he
      rw [List.mem_singleton.mp he]
      exact hread)
    (by
      intro e he
      rw [List.mem_singleton.mp he]
      have hreq : h.nRequired ≠ 0 := by
        rw [sm.required]
        intro h0
        have := congrArg UInt8.toNat h0
        rw [u8_len (by have := sm.le; have := sm.few; omega)] at this
        simp at this
        omega
      refine ⟨?_, ?_, ?_⟩
      · exact fun h0 => absurd h0 hreq
      · intro row hrow s hs
        refine (hv s ?_).1
        rw [← rows_sigs (sty := sty) keys sigs sm.length, ← sm.filled]
        exact List.mem_filterMap.mpr ⟨row, hrow, hs⟩
      · intro row hrow k hk
        simp only at hrow
        rw [sm.filled] at hrow
        obtain ⟨j, hj⟩ := List.mem_iff_getElem?.mp hrow
        have hjl : j < keys.length := by
          have := (List.getElem?_eq_some_iff.mp hj).1
          simp at this
          omega
        obtain ⟨row', r1, r2⟩ := row_get (sty := sty) sm.length (List.getElem?_eq_getElem hjl)
        rw [hj] at r1
        simp only [Option.some.injEq] at r1
        rw [r1, r2, Hex.decode_encode, Res.ok.injEq] at hk
        rw [← hk]
        exact hon _ (List.getElem_mem _))
  refine ⟨signed, e1, ?_⟩
  rw [e3.mpr] at e2
  · exact e2
  · intro e he
    rw [List.mem_singleton.mp he]
    refine (multi_right (C := C) sm hmsg).mp ?_
    intro i hi
    have hen := sm.enough
    have hle := sm.le
    refine ⟨keys.length - 1, (sigs.filterMap id)[i], last, by omega, List.getElem?_eq_getElem _, ?_, (hv _ (List.getElem_mem _)).2⟩
    rw [← hlast, List.getLast?_eq_getElem?]

-- Bitcoin Cash: two of three signatures, both of the last key
example : ∃ th signed, BtcVariants.insertSignatures BtcVariants.bch toyHashes (Hex.encode BtcVariants.demoTx1.ser)
      [⟨th, 2, none, List.zipWith (multiRow 0x41) [key0, key1, key2] [some sig11, none, some sig11]⟩] [BtcVariants.forkMulti 2 [key0, key1, key2]] false = .ok signed ∧
    BtcVariants.verifyRaw BtcVariants.bch toyHashes (oneKeyCurve key2) signed [BtcVariants.forkMulti 2 [key0, key1, key2]] false btcMainnet = .ok true := by
  obtain ⟨th, msg, h1, h2⟩ := one_message (r := BtcVariants.createHashes BtcVariants.bch toyHashes (Hex.encode BtcVariants.demoTx1.ser)
    [BtcVariants.forkMulti 2 [key0, key1, key2]] false btcMainnet) (by decide +kernel)
  refine ⟨th.hash, C92_last_key_violated BtcVariants.bch (by simp) 0x41 _ _ _ _ BtcVariants.demoTx1_unsigned _ _ th 2 [key0, key1, key2] [some sig11, none, some sig11]
    [BtcVariants.der41, BtcVariants.der41] msg key2 (by decide) ⟨⟨_, rfl, Hex.decode_encode _⟩, Hex.decode_encode _, by decide, by decide, by decide, demo_keys, rfl, rfl, rfl,
      by decide, by intro s hs; rw [demo_sigs s hs]; rfl, List.Forall₂.cons BtcVariants.der41_is (List.Forall₂.cons BtcVariants.der41_is List.Forall₂.nil)⟩
    ?_ h1 rfl h2 (by simp [oneKeyCurve]) rfl ?_⟩
  · show 0x6c < ((Unlocking.multi [BtcVariants.der41, BtcVariants.der41] (multisigScript 2 [key0, key1, key2])).script id).length
    decide +kernel
  · intro s hs
    rw [demo_sigs s hs]
    exact ⟨sig11_in, by simp [oneKeyCurve]⟩

end Verif
