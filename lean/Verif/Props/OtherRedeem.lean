import Verif.Props.BtcExact

/-! C61, C92: an output of several keys is spent with a redeem script of other keys. -/

namespace Verif
open Verif.Spec Verif.Btc

namespace Btc
variable {sty : UInt8}

/-- `attach_multi_exact` without the keys of the unlock data: only their number counts. -/
theorem attach_multi_other {C : Curve} {i : TxIn} {u : TxUnlock} {th h : TxHash} {m : Nat} {keys : List Bytes} {sigs : List (Option Bytes)} {ders : List Bytes}
    (hty : i.inType = .multi) (sm : SignedMulti sty u h m keys sigs ders)
    (hdec : (∀ s ∈ (sigs.filterMap id).take m, InRange s) → decodeMulti i.scriptMulti = .ok ((List.range keys.length).map (fun j =>
      (((sigs.filterMap id).take m)[j]?, keys[j]?, (((sigs.filterMap id).take m)[j]?.map fun _ => sty).getD 0))))
    (hn : th.nRequired = UInt8.ofNat m) (hmul : th.multi.length = keys.length)
    {d : Bytes} (hd : Hex.decode th.hash = .ok d) (hr : ∀ s ∈ sigs.filterMap id, InRange s) (hpts : ∀ k ∈ keys, (C.decompress k).length ≠ 0) :
    ∃ th' b, attach i th = .ok (some th') ∧ verifyOne C th' = .ok b ∧ (b = true ↔ ∀ i0 < m, ∃ (j : Nat) (s key : Bytes), i0 ≤ j ∧
      (sigs.filterMap id)[i0]? = some s ∧ keys[j]? = some key ∧ C.verify ((C.decompress key).drop 1) d s = true) := by
  have h1 := sm.pos
  have h2 := sm.le
  have h3 := sm.few
  have hen := sm.enough
  have hin : ∀ s ∈ (sigs.filterMap id).take m, InRange s := fun s hs => hr s (List.mem_of_mem_take hs)
  have hm : (UInt8.ofNat m).toNat = m := u8_len (by omega)
  have hm0 : UInt8.ofNat m ≠ 0 := by
    intro hc
    have := congrArg UInt8.toNat hc
    rw [hm] at this
    simp at this
    omega
  unfold attach
  rw [hty]
  simp only [hdec hin]
  rw [if_neg (by rw [hmul]; simp)]
  obtain ⟨rows, hrows⟩ : ∃ rows, (th.multi.zipIdx).map (fun (p : MultiTx × Nat) =>
      match (List.map (fun j => (((sigs.filterMap id).take m)[j]?, keys[j]?,
        (((sigs.filterMap id).take m)[j]?.map fun _ => sty).getD 0)) (List.range keys.length))[p.2]? with
      | some (sig, pub, st) => { p.1 with sigType := st, sigPub := ⟨sig, pub⟩ }
      | none => p.1) = rows := ⟨_, rfl⟩
  have hget : ∀ j (hj : j < keys.length), ∃ row, rows[j]? = some row ∧ row.sigPub = ⟨((sigs.filterMap id).take m)[j]?, some keys[j]⟩ := by
    intro j hj
    rw [← hrows, List.getElem?_map, List.getElem?_zipIdx]
    simp only [List.getElem?_eq_getElem (show j < th.multi.length by omega), Option.map_some, Nat.zero_add]
    refine ⟨_, rfl, ?_⟩
    simp [hj]
  have hrl : rows.length = keys.length := by rw [← hrows]; simp [hmul]
  have hkeys : ∀ row ∈ ({ th with multi := rows } : TxHash).multi, (C.decompress (row.sigPub.pubkey.getD [])).length ≠ 0 := by
    intro row hr
    obtain ⟨j, hj⟩ := List.mem_iff_getElem?.mp hr
    simp only at hj
    have hjl : j < keys.length := by rw [← hrl]; exact (List.getElem?_eq_some_iff.mp hj).1
    obtain ⟨r1, e1, e2⟩ := hget j hjl
    rw [hj] at e1
    simp only [Option.some.injEq] at e1
    rw [e1, e2]
    exact hpts _ (List.getElem_mem _)
  have hreq : ({ th with multi := rows } : TxHash).nRequired ≠ 0 := by simp only [hn]; exact hm0
  obtain ⟨b, hb⟩ := verifyOne_total (C := C) (h := { th with multi := rows }) hreq (by simp only [hn, hm]; omega) hkeys
  have hiff := C28_each_signature_partial C { th with multi := rows } d hd hreq hkeys
  rw [hb] at hiff
  simp only [Res.ok.injEq, hn, hm] at hiff
  refine ⟨{ th with multi := rows }, b, by rw [← hrows]; rfl, hb, ?_⟩
  rw [hiff]
  constructor
  · intro hall i0 hi0
    obtain ⟨j, s, k, h4, h5, h6, h7⟩ := hall i0 hi0
    have hjl : j < keys.length := by rw [← hrl]; exact (List.getElem?_eq_some_iff.mp h6).1
    obtain ⟨r1, e1, e2⟩ := hget i0 (by omega)
    obtain ⟨r2, e3, e4⟩ := hget j hjl
    rw [h5] at e1
    rw [h6] at e3
    simp only [Option.some.injEq] at e1 e3
    rw [e1, e2, e3, e4] at h7
    simp only [Option.getD_some] at h7
    rw [List.getElem?_take_of_lt hi0, List.getElem?_eq_getElem (by omega)] at h7
    exact ⟨j, _, _, h4, List.getElem?_eq_getElem (by omega), List.getElem?_eq_getElem hjl, h7⟩
  · intro hall i0 hi0
    obtain ⟨j, s, key, h4, h5, h6, h7⟩ := hall i0 hi0
    obtain ⟨hjl, hke⟩ := List.getElem?_eq_some_iff.mp h6
    obtain ⟨r1, e1, e2⟩ := hget i0 (by omega)
    obtain ⟨r2, e3, e4⟩ := hget j hjl
    refine ⟨j, r1, r2, h4, e1, e3, ?_⟩
    rw [e2, e4]
    simp only [Option.getD_some, hke]
    rw [List.getElem?_take_of_lt hi0, h5]
    exact h7

end Btc

/-- C61 is false (4), whatever the hash functions and the curve are: an output that the unlock data say is locked to `m` of the keys `keys` is spent with `m` signatures of as many other keys `own`: the
attacker has the signatures inserted with unlock data of their own (`mine`) over the message for the true unlock data `u`, and `VerifyRawTransaction` with `u` accepts the result. -/
theorem C61_any_redeem_violated (H : Hashes) (C : Curve) (P : AddressPrefix) (t : RawTx) (hu : Unsigned t)
    (u mine : TxUnlock) (h th : TxHash) (m : Nat) (keys own : List Bytes) (k : Bytes) (sigs : List (Option Bytes)) (ders : List Bytes) (msg : Bytes)
    (hk : k.length = 20) (hlock : Hex.decode u.lockScript = .ok (p2shScript k)) (hred : Hex.decode u.redeemScript = .ok (multisigScript m keys))
    (hkeys : ∀ key ∈ keys, key.length = 33) (_other : ∀ key ∈ own, key ∉ keys) (hn : own.length = keys.length)
    (sm : SignedMulti 1 mine h m own sigs ders) (hread : Readable (.multi ders (multisigScript m own)))
    (hc : createHashes H (Hex.encode t.ser) [u] false P = .ok [th]) (hm : Hex.decode th.hash = .ok msg)
    (hon : ∀ key ∈ own, (C.decompress key).length ≠ 0) (hin : ∀ s ∈ sigs.filterMap id, InRange s)
    (hv : ∀ i < m, ∃ (j : Nat) (s key : Bytes), i ≤ j ∧ (sigs.filterMap id)[i]? = some s ∧ own[j]? = some key ∧
      C.verify ((C.decompress key).drop 1) msg s = true) :
    ∃ signed, insertSignatures H (Hex.encode t.ser) [h] [mine] false = .ok signed ∧ verifyRaw H C signed [u] false P = .ok true := by
  obtain ⟨hl1, hl2, hget⟩ := createHashes_get hu hc
  have hl : ([⟨mine, h, .multi ders (multisigScript m own)⟩] : List Entry).length = t.ins.length := by simpa using hl1
  have h32 : ∀ b, (H.hash .sha256 b).length = 32 := H.size .sha256
  have hh : hashesForSig H false P (ofRaw t) [u] = .ok [th] := by
    unfold createHashes at hc
    rw [Hex.decode_encode, Res.bind_ok, decode_unsigned hu, Res.bind_ok] at hc
    exact hc
  have hf : ∀ e ∈ ([⟨mine, h, .multi ders (multisigScript m own)⟩] : List Entry), Fills 1 false e.unlock e.hash e.expect := by
    intro e he
    rw [List.mem_singleton.mp he]
    exact Fills.multi sm rfl
  have hr : ∀ e ∈ ([⟨mine, h, .multi ders (multisigScript m own)⟩] : List Entry), Readable e.expect := by
    intro e he
    rw [List.mem_singleton.mp he]
    exact hread
  have hpos := sm.pos
  have hle := sm.le
  have hfew := sm.few
  obtain ⟨th2, e1, e2⟩ := hget 0 u rfl
  simp only [List.getElem?_cons_zero, Option.some.injEq] at e1
  subst e1
  have hrl := multisig_length (m := m) hkeys
  have hck := check_multi hlock hk hred (by rw [hrl]; omega) (multisig_last m keys)
  obtain ⟨d, hd, hnew⟩ := hashForSig_parts hck e2
  rw [hm, Res.ok.injEq] at hd
  subst hd
  obtain ⟨hreq, hmul⟩ := newTxHash_multi hpos (by omega) (by omega) hkeys hnew
  obtain ⟨i, hi⟩ : ∃ i, t.ins = [i] := List.length_eq_one_iff.mp (by simpa using hl1.symm)
  obtain ⟨th', b, a1, a2, a3⟩ := attach_multi_other (C := C) (i := readIn (H.hash .sha256) i (.multi ders (multisigScript m own))) rfl sm (fun hin => by
      have hrl := multisig_length (m := m) sm.keysLen
      have htl := take_length sm.enough
      obtain ⟨hdr, e1, e2⟩ := isHeader_pushData (multisigScript m own) (by omega)
      obtain ⟨b, hb⟩ : ∃ b, (Unlocking.multi ders (multisigScript m own)).script (H.hash .sha256) = b := ⟨_, rfl⟩
      have hbl := script_multi_length (m := m) sm.dersOk (by omega) sm.keysLen sm.few (H.hash .sha256)
      have hbe : b = 0x00 :: ((ders.map push).flatten ++ (hdr ++ multisigScript m own)) := by rw [← hb, ← e1]; rfl
      show decodeMulti (if ((Unlocking.multi ders (multisigScript m own)).script (H.hash .sha256)).length < 253 then _ else _) = _
      rw [hb] at hbl ⊢
      by_cases hl : b.length < 253
      · rw [if_pos hl]
        exact decodeMulti_ok (pre := []) sm.pos sm.le sm.few sm.keysLen sm.dersOk hin htl e2 hbe (Or.inl rfl)
      · rw [if_neg hl]
        exact decodeMulti_ok (pre := 0xfd :: leBytes 2 b.length) sm.pos sm.le sm.few sm.keysLen sm.dersOk hin htl e2 hbe (Or.inr ⟨rfl, hbl⟩))
    hreq (by rw [hmul]; simp [hn]) hm hin hon
  rw [a3.mpr hv] at a2
  refine ⟨_, insert_fills H t hu _ hl false hf, ?_⟩
  unfold verifyRaw
  rw [Hex.decode_encode]
  simp only [decodeTx_fills h32 hu _ hl hf hr]
  rw [if_neg (by simp [readTx, hi]), hashes_signed hl, hh]
  simp only
  rw [show (readTx (H.hash .sha256) t [⟨mine, h, .multi ders (multisigScript m own)⟩]).vins =
    List.zipWith (readIn (H.hash .sha256)) t.ins [.multi ders (multisigScript m own)] from rfl, hi]
  simp only [List.zipWith_cons_cons, List.zipWith_nil_left]
  rw [attachAll, a1, Res.bind_ok]
  simp only [attachAll, Res.bind_ok]
  rw [verifyAll, a2, Res.bind_ok]
  simp [verifyAll]

-- an output of two of `key0`, `key1`, `key2` is spent by the owner of `key3` alone
example : ∃ th signed, insertSignatures toyHashes (Hex.encode (demoTxN 1).ser) [multiRecord th 2 [key3, key3, key3] [some sig11, none, some sig11]]
      [multiUnlock 2 [key3, key3, key3]] false = .ok signed ∧
    verifyRaw toyHashes (oneKeyCurve key3) signed [multiUnlock 2 [key0, key1, key2]] false btcMainnet = .ok true := by
  obtain ⟨th, msg, h1, h2⟩ := one_message (r := createHashes toyHashes (Hex.encode (demoTxN 1).ser) [multiUnlock 2 [key0, key1, key2]] false btcMainnet)
    (by decide +kernel)
  refine ⟨th.hash, C61_any_redeem_violated _ _ _ _ (demoTxN_unsigned 1 (by decide) (by decide)) (multiUnlock 2 [key0, key1, key2]) _ _ th 2 [key0, key1, key2] [key3, key3, key3]
    (List.replicate 20 5) _ (List.replicate 2 der11) msg rfl (Hex.decode_encode _) (Hex.decode_encode _) demo_keys (by decide) rfl
    (multi_signed der11_is th.hash 2 [key3, key3, key3] [some sig11, none, some sig11] (by decide) (by decide) (by decide)
      (by decide) rfl (by decide) demo_sigs) ?_ h1 h2 (by simp [oneKeyCurve]) (fun s hs => by rw [demo_sigs s hs]; exact sig11_in) ?_⟩
  · show 0x6c < ((Unlocking.multi (List.replicate 2 der11) (multisigScript 2 [key3, key3, key3])).script id).length
    decide +kernel
  · intro i hi
    refine ⟨2, sig11, key3, by omega, ?_, rfl, by simp [oneKeyCurve]⟩
    match i, hi with
    | 0, _ => rfl
    | 1, _ => rfl

/-- C92 is false (4), whatever the hash functions and the curve are: in Bitcoin Cash, Bitcoin SV, CXC and HC, too, an output that the unlock data say is locked to `m` of the keys `keys` is spent with `m` signatures of as many other keys `own`: the
attacker has the signatures inserted with unlock data of their own (`mine`) over the message for the true unlock data `u`, and `VerifyRawTransaction` with `u` accepts the result. -/
theorem C92_any_redeem_violated (V : BtcVariants.Variant) (hV : V = BtcVariants.bch ∨ V = BtcVariants.bsv ∨ V = BtcVariants.cxc ∨ V = BtcVariants.hc) (sty : UInt8)
    (H : Hashes) (C : Curve) (P : AddressPrefix) (t : RawTx) (hu : UnsignedV V.version t)
    (u mine : TxUnlock) (h th : TxHash) (m : Nat) (keys own : List Bytes) (k : Bytes) (sigs : List (Option Bytes)) (ders : List Bytes) (msg : Bytes)
    (hk : k.length = 20) (hlock : Hex.decode u.lockScript = .ok (p2shScript k)) (hred : Hex.decode u.redeemScript = .ok (multisigScript m keys))
    (hkeys : ∀ key ∈ keys, key.length = 33) (_other : ∀ key ∈ own, key ∉ keys) (hn : own.length = keys.length)
    (sm : SignedMulti sty mine h m own sigs ders) (hread : Readable (.multi ders (multisigScript m own)))
    (hc : BtcVariants.createHashes V H (Hex.encode t.ser) [u] false P = .ok [th]) (hm : Hex.decode th.hash = .ok msg)
    (hon : ∀ key ∈ own, (C.decompress key).length ≠ 0) (hin : ∀ s ∈ sigs.filterMap id, InRange s)
    (hv : ∀ i < m, ∃ (j : Nat) (s key : Bytes), i ≤ j ∧ (sigs.filterMap id)[i]? = some s ∧ own[j]? = some key ∧
      C.verify ((C.decompress key).drop 1) msg s = true) :
    ∃ signed, BtcVariants.insertSignatures V H (Hex.encode t.ser) [h] [mine] false = .ok signed ∧ BtcVariants.verifyRaw V H C signed [u] false P = .ok true := by
  have hvl := BtcVariants.HasScripts.version_lt hV
  obtain ⟨hl1, hl2, hget⟩ := BtcVariants.createHashes_get hvl hu hc
  have hl : ([⟨mine, h, .multi ders (multisigScript m own)⟩] : List Entry).length = t.ins.length := by simpa using hl1
  have h32 : ∀ b, (H.hash .sha256 b).length = 32 := H.size .sha256
  have hh : BtcVariants.hashesForSig V H false P (ofRaw t) [u] = .ok [th] := by
    unfold BtcVariants.createHashes at hc
    rw [Hex.decode_encode, Res.bind_ok, BtcVariants.decode_unsignedV hvl hu, Res.bind_ok] at hc
    exact hc
  have hf : ∀ e ∈ ([⟨mine, h, .multi ders (multisigScript m own)⟩] : List Entry), Fills sty false e.unlock e.hash e.expect := by
    intro e he
    rw [List.mem_singleton.mp he]
    exact Fills.multi sm rfl
  have hr : ∀ e ∈ ([⟨mine, h, .multi ders (multisigScript m own)⟩] : List Entry), Readable e.expect := by
    intro e he
    rw [List.mem_singleton.mp he]
    exact hread
  have hpos := sm.pos
  have hle := sm.le
  have hfew := sm.few
  obtain ⟨th2, e1, e2⟩ := hget 0 u rfl
  simp only [List.getElem?_cons_zero, Option.some.injEq] at e1
  subst e1
  have hrl := multisig_length (m := m) hkeys
  have hck := check_multi hlock hk hred (by rw [hrl]; omega) (multisig_last m keys)
  obtain ⟨-, hsh⟩ := BtcVariants.shapeV hV (x := .multi [] (multisigScript m keys)) hck ⟨rfl, rfl⟩ e2
  obtain ⟨hreq, _, hmul⟩ := hsh m keys hpos (by omega) (by omega) hkeys rfl
  obtain ⟨i, hi⟩ : ∃ i, t.ins = [i] := List.length_eq_one_iff.mp (by simpa using hl1.symm)
  obtain ⟨th', b, a1, a2, a3⟩ := attach_multi_other (C := C) (i := readIn (H.hash .sha256) i (.multi ders (multisigScript m own))) rfl sm (fun hin => by
      have hrl := multisig_length (m := m) sm.keysLen
      have htl := take_length sm.enough
      obtain ⟨hdr, e1, e2⟩ := isHeader_pushData (multisigScript m own) (by omega)
      obtain ⟨b, hb⟩ : ∃ b, (Unlocking.multi ders (multisigScript m own)).script (H.hash .sha256) = b := ⟨_, rfl⟩
      have hbl := script_multi_length (m := m) sm.dersOk (by omega) sm.keysLen sm.few (H.hash .sha256)
      have hbe : b = 0x00 :: ((ders.map push).flatten ++ (hdr ++ multisigScript m own)) := by rw [← hb, ← e1]; rfl
      show decodeMulti (if ((Unlocking.multi ders (multisigScript m own)).script (H.hash .sha256)).length < 253 then _ else _) = _
      rw [hb] at hbl ⊢
      by_cases hl : b.length < 253
      · rw [if_pos hl]
        exact decodeMulti_ok (pre := []) sm.pos sm.le sm.few sm.keysLen sm.dersOk hin htl e2 hbe (Or.inl rfl)
      · rw [if_neg hl]
        exact decodeMulti_ok (pre := 0xfd :: leBytes 2 b.length) sm.pos sm.le sm.few sm.keysLen sm.dersOk hin htl e2 hbe (Or.inr ⟨rfl, hbl⟩))
    hreq (by rw [hmul]; simp [hn]) hm hin hon
  rw [a3.mpr hv] at a2
  refine ⟨_, BtcVariants.insert_fillsV hV H t hu _ hl false hf, ?_⟩
  unfold BtcVariants.verifyRaw
  rw [Hex.decode_encode]
  simp only [BtcVariants.decodeTxV_fills hvl h32 hu _ hl hf hr]
  rw [if_neg (by simp [readTx, hi]), BtcVariants.hashes_signedV hV hl, hh]
  simp only
  rw [show (readTx (H.hash .sha256) t [⟨mine, h, .multi ders (multisigScript m own)⟩]).vins =
    List.zipWith (readIn (H.hash .sha256)) t.ins [.multi ders (multisigScript m own)] from rfl, hi]
  simp only [List.zipWith_cons_cons, List.zipWith_nil_left]
  rw [attachAll, a1, Res.bind_ok]
  simp only [attachAll, Res.bind_ok]
  rw [verifyAll, a2, Res.bind_ok]
  simp [verifyAll]

-- Bitcoin Cash
example : ∃ th signed, BtcVariants.insertSignatures BtcVariants.bch toyHashes (Hex.encode BtcVariants.demoTx1.ser)
      [⟨th, 2, none, List.zipWith (multiRow 0x41) [key3, key3, key3] [some sig11, none, some sig11]⟩] [BtcVariants.forkMulti 2 [key3, key3, key3]] false = .ok signed ∧
    BtcVariants.verifyRaw BtcVariants.bch toyHashes (oneKeyCurve key3) signed [BtcVariants.forkMulti 2 [key0, key1, key2]] false btcMainnet = .ok true := by
  obtain ⟨th, msg, h1, h2⟩ := one_message (r := BtcVariants.createHashes BtcVariants.bch toyHashes (Hex.encode BtcVariants.demoTx1.ser)
    [BtcVariants.forkMulti 2 [key0, key1, key2]] false btcMainnet) (by decide +kernel)
  refine ⟨th.hash, C92_any_redeem_violated BtcVariants.bch (by simp) 0x41 _ _ _ _ BtcVariants.demoTx1_unsigned (BtcVariants.forkMulti 2 [key0, key1, key2]) _ _ th 2
    [key0, key1, key2] [key3, key3, key3] (List.replicate 20 5) [some sig11, none, some sig11] [BtcVariants.der41, BtcVariants.der41] msg rfl (Hex.decode_encode _)
    (Hex.decode_encode _) demo_keys (by decide) rfl ⟨⟨_, rfl, Hex.decode_encode _⟩, Hex.decode_encode _, by decide, by decide, by decide, by decide, rfl, rfl, rfl,
      by decide, by intro s hs; rw [demo_sigs s hs]; rfl, List.Forall₂.cons BtcVariants.der41_is (List.Forall₂.cons BtcVariants.der41_is List.Forall₂.nil)⟩
    ?_ h1 h2 (by simp [oneKeyCurve]) (fun s hs => by rw [demo_sigs s hs]; exact sig11_in) ?_⟩
  · show 0x6c < ((Unlocking.multi [BtcVariants.der41, BtcVariants.der41] (multisigScript 2 [key3, key3, key3])).script id).length
    decide +kernel
  · intro i hi
    refine ⟨2, sig11, key3, by omega, ?_, rfl, by simp [oneKeyCurve]⟩
    match i, hi with
    | 0, _ => rfl
    | 1, _ => rfl

end Verif
