import Verif.Props.BtcVariantsSpend

/-! Exactly which signed transactions `VerifyRawTransaction` accepts (C61, C92): a transaction completed by `InsertSignatureIntoEmptyTransaction` is
accepted if and only if its signatures are right for the messages of `CreateRawTransactionHashForSig`; whose keys they belong to makes no difference. -/

namespace Verif
open Verif.Spec Btc

namespace Btc

/-- The signatures of a record can be read back from a script (`C24_roundtrip_partial`), and its keys are on the curve. Nothing is said about whether the
signatures are right. -/
structure LegibleRecord (C : Curve) (h : TxHash) : Prop where
  one : h.nRequired = 0 → ∀ n sig pub, h.normal = some n → n.sigPub = ⟨some sig, some pub⟩ → InRange sig ∧ (C.decompress pub).length ≠ 0
  multi : ∀ row ∈ h.multi, ∀ sig, row.sigPub.signature = some sig → InRange sig
  points : ∀ row ∈ h.multi, ∀ k, Hex.decode row.pubkey = .ok k → (C.decompress k).length ≠ 0

/-- The signatures of a record are right for its message: with one key, the signature verifies under the key beside it; with more, each of the first
`nRequired` signatures verifies under a key whose place is not before the number of that signature. -/
def RightRecord (C : Curve) (h : TxHash) : Prop := ∀ msg, Hex.decode h.hash = .ok msg →
  (h.nRequired = 0 → ∃ n sig pub, h.normal = some n ∧ n.sigPub = ⟨some sig, some pub⟩ ∧ C.verify ((C.decompress pub).drop 1) msg sig = true) ∧
  (h.nRequired ≠ 0 → ∀ i < h.nRequired.toNat, ∃ (j : Nat) (s : Bytes) (row : MultiTx) (key : Bytes), i ≤ j ∧
    (h.multi.filterMap (fun row => row.sigPub.signature))[i]? = some s ∧ h.multi[j]? = some row ∧ Hex.decode row.pubkey = .ok key ∧
    C.verify ((C.decompress key).drop 1) msg s = true)

variable {sty : UInt8}

theorem attach_one_exact {C : Curve} {i : TxIn} {th : TxHash} {sig pub der a : Bytes} {st : UInt8}
    (hty : i.inType = .p2pkh ∨ i.inType = .p2wpkh ∨ i.inType = .bech32)
    (hs : i.scriptSig = push der ++ push pub) (hsig : IsSig sty sig der) (hp : pub.length = 33) (hn : th.nRequired = 0)
    (hnorm : th.normal = some ⟨a, st, ⟨none, none⟩⟩) {d : Bytes} (hd : Hex.decode th.hash = .ok d) (hr : InRange sig) (hc : (C.decompress pub).length ≠ 0) :
    ∃ th', attach i th = .ok (some th') ∧ verifyOne C th' = .ok (C.verify ((C.decompress pub).drop 1) d sig) := by
  have hdec := decodeSigPub_isSig hsig hr hp
  refine ⟨{ th with normal := some { (⟨a, st, ⟨none, none⟩⟩ : NormalTx) with sigType := sty, sigPub := ⟨some sig, some pub⟩ } }, ?_, ?_⟩
  · unfold attach
    rcases hty with e | e | e <;> rw [e] <;> simp only [hs, hdec, hnorm]
  · unfold verifyOne
    simp only [hn, if_true, hd]
    unfold pubPoint
    simp only [Option.getD_some]
    rw [slice_ok (by omega) (by omega), List.take_length, Res.bind_ok]

theorem countValid_total {C : Curve} {th : Bytes} {multi : List MultiTx} (h : ∀ m ∈ multi, (C.decompress (m.sigPub.pubkey.getD [])).length ≠ 0) :
    ∀ (is : List Nat) (c : Nat), (∀ i ∈ is, i < multi.length) → ∃ n, countValid C th multi is c = .ok n
  | [], c, _ => ⟨c, rfl⟩
  | i :: is, c, hi => by
    rw [countValid]
    have ht : ∀ x ∈ is, x < multi.length := fun x hx => hi x (by simp [hx])
    by_cases hc : multi.length ≤ c
    · rw [if_pos hc]
      exact countValid_total h is c ht
    · rw [if_neg hc, index_ok (hi i (by simp)), Res.bind_ok, tryKeys_ok C th _ _ (fun m hm => h m (List.mem_of_mem_drop hm)), Res.bind_ok]
      exact countValid_total h is _ ht

/-- Checking a record with several keys returns an answer. -/
theorem verifyOne_total {C : Curve} {h : TxHash} (h0 : h.nRequired ≠ 0) (hl : h.nRequired.toNat ≤ h.multi.length)
    (hk : ∀ m ∈ h.multi, (C.decompress (m.sigPub.pubkey.getD [])).length ≠ 0) : ∃ b, verifyOne C h = .ok b := by
  unfold verifyOne
  simp only
  rw [if_neg h0]
  have key : ∀ th, ∃ n, countValid C th h.multi (List.range h.nRequired.toNat) 0 = .ok n := fun th => countValid_total hk _ 0
    (fun i hi => by have := List.mem_range.mp hi; omega)
  cases Hex.decode h.hash <;> simp only <;> exact ⟨_, by rw [(key _).choose_spec, Res.bind_ok]⟩

theorem attach_multi_exact {C : Curve} {i : TxIn} {u : TxUnlock} {th h : TxHash} {m : Nat} {keys : List Bytes} {sigs : List (Option Bytes)} {ders : List Bytes} {st : UInt8}
    (hty : i.inType = .multi) (sm : SignedMulti sty u h m keys sigs ders)
    (hdec : (∀ s ∈ (sigs.filterMap id).take m, InRange s) → decodeMulti i.scriptMulti = .ok ((List.range keys.length).map (fun j =>
      (((sigs.filterMap id).take m)[j]?, keys[j]?, (((sigs.filterMap id).take m)[j]?.map fun _ => sty).getD 0))))
    (hn : th.nRequired = UInt8.ofNat m) (hmul : th.multi = keys.map (fun k => ⟨Hex.encode k, st, ⟨none, none⟩⟩))
    {d : Bytes} (hd : Hex.decode th.hash = .ok d) (hr : ∀ s ∈ sigs.filterMap id, InRange s) (hpts : ∀ k ∈ keys, (C.decompress k).length ≠ 0) :
    ∃ th' b, attach i th = .ok (some th') ∧ verifyOne C th' = .ok b ∧ (b = true ↔ ∀ i0 < m, ∃ (j : Nat) (s key : Bytes), i0 ≤ j ∧
      (sigs.filterMap id)[i0]? = some s ∧ keys[j]? = some key ∧ C.verify ((C.decompress key).drop 1) d s = true) := by
  have h1 := sm.pos
  have h2 := sm.le
  have h3 := sm.few
  have hen := sm.enough
  have hin : ∀ s ∈ (sigs.filterMap id).take m, InRange s := fun s hs => hr s (List.mem_of_mem_take hs)
  have hm : (UInt8.ofNat m).toNat = m := u8_len (by omega)
  have hm0 : UInt8.ofNat m ≠ 0 := by
    intro hc
    have := congrArg UInt8.toNat hc
    rw [hm] at this
    simp at this
    omega
  unfold attach
  rw [hty]
  simp only [hdec hin]
  rw [if_neg (by rw [hmul]; simp)]
  obtain ⟨rows, hrows⟩ : ∃ rows, (th.multi.zipIdx).map (fun (p : MultiTx × Nat) =>
      match (List.map (fun j => (((sigs.filterMap id).take m)[j]?, keys[j]?,
        (((sigs.filterMap id).take m)[j]?.map fun _ => sty).getD 0)) (List.range keys.length))[p.2]? with
      | some (sig, pub, st) => { p.1 with sigType := st, sigPub := ⟨sig, pub⟩ }
      | none => p.1) = rows := ⟨_, rfl⟩
  have hget : ∀ j (hj : j < keys.length), ∃ row, rows[j]? = some row ∧ row.sigPub = ⟨((sigs.filterMap id).take m)[j]?, some keys[j]⟩ := by
    intro j hj
    rw [← hrows, hmul, List.getElem?_map, List.getElem?_zipIdx]
    simp only [List.getElem?_map, List.getElem?_eq_getElem hj, Option.map_some, Nat.zero_add]
    refine ⟨_, rfl, ?_⟩
    simp [hj]
  have hrl : rows.length = keys.length := by rw [← hrows, hmul]; simp
  have hkeys : ∀ row ∈ ({ th with multi := rows } : TxHash).multi, (C.decompress (row.sigPub.pubkey.getD [])).length ≠ 0 := by
    intro row hr
    obtain ⟨j, hj⟩ := List.mem_iff_getElem?.mp hr
    simp only at hj
    have hjl : j < keys.length := by rw [← hrl]; exact (List.getElem?_eq_some_iff.mp hj).1
    obtain ⟨r1, e1, e2⟩ := hget j hjl
    rw [hj] at e1
    simp only [Option.some.injEq] at e1
    rw [e1, e2]
    exact hpts _ (List.getElem_mem _)
  have hreq : ({ th with multi := rows } : TxHash).nRequired ≠ 0 := by simp only [hn]; exact hm0
  obtain ⟨b, hb⟩ := verifyOne_total (C := C) (h := { th with multi := rows }) hreq (by simp only [hn, hm]; omega) hkeys
  have hiff := C28_each_signature_partial C { th with multi := rows } d hd hreq hkeys
  rw [hb] at hiff
  simp only [Res.ok.injEq, hn, hm] at hiff
  refine ⟨{ th with multi := rows }, b, by rw [← hrows]; rfl, hb, ?_⟩
  rw [hiff]
  constructor
  · intro hall i0 hi0
    obtain ⟨j, s, k, h4, h5, h6, h7⟩ := hall i0 hi0
    have hjl : j < keys.length := by rw [← hrl]; exact (List.getElem?_eq_some_iff.mp h6).1
    obtain ⟨r1, e1, e2⟩ := hget i0 (by omega)
    obtain ⟨r2, e3, e4⟩ := hget j hjl
    rw [h5] at e1
    rw [h6] at e3
    simp only [Option.some.injEq] at e1 e3
    rw [e1, e2, e3, e4] at h7
    simp only [Option.getD_some] at h7
    rw [List.getElem?_take_of_lt hi0, List.getElem?_eq_getElem (by omega)] at h7
    exact ⟨j, _, _, h4, List.getElem?_eq_getElem (by omega), List.getElem?_eq_getElem hjl, h7⟩
  · intro hall i0 hi0
    obtain ⟨j, s, key, h4, h5, h6, h7⟩ := hall i0 hi0
    obtain ⟨hjl, hke⟩ := List.getElem?_eq_some_iff.mp h6
    obtain ⟨r1, e1, e2⟩ := hget i0 (by omega)
    obtain ⟨r2, e3, e4⟩ := hget j hjl
    refine ⟨j, r1, r2, h4, e1, e3, ?_⟩
    rw [e2, e4]
    simp only [Option.getD_some, hke]
    rw [List.getElem?_take_of_lt hi0, h5]
    exact h7

theorem rows_sigs : ∀ (keys : List Bytes) (sigs : List (Option Bytes)), sigs.length = keys.length →
    (List.zipWith (multiRow sty) keys sigs).filterMap (fun row => row.sigPub.signature) = sigs.filterMap id
  | [], [], _ => rfl
  | [], _ :: _, h => by simp at h
  | _ :: _, [], h => by simp at h
  | k :: keys, s :: sigs, h => by
    rw [List.zipWith_cons_cons, List.filterMap_cons, List.filterMap_cons, rows_sigs keys sigs (by simpa using h)]
    cases s <;> rfl

theorem row_get {keys : List Bytes} {sigs : List (Option Bytes)} (hl : sigs.length = keys.length) {j : Nat} {key : Bytes} (hj : keys[j]? = some key) :
    ∃ row, (List.zipWith (multiRow sty) keys sigs)[j]? = some row ∧ row.pubkey = Hex.encode key := by
  have hjs : j < sigs.length := by rw [hl]; exact (List.getElem?_eq_some_iff.mp hj).1
  refine ⟨multiRow sty key sigs[j], by rw [List.getElem?_zipWith, hj, List.getElem?_eq_getElem hjs], ?_⟩
  cases sigs[j] <;> rfl

theorem multi_right {C : Curve} {u : TxUnlock} {h : TxHash} {m : Nat} {keys : List Bytes} {sigs : List (Option Bytes)} {ders : List Bytes}
    (sm : SignedMulti sty u h m keys sigs ders) {d : Bytes} (hd : Hex.decode h.hash = .ok d) :
    (∀ i0 < m, ∃ (j : Nat) (s key : Bytes), i0 ≤ j ∧ (sigs.filterMap id)[i0]? = some s ∧ keys[j]? = some key ∧
      C.verify ((C.decompress key).drop 1) d s = true) ↔ RightRecord C h := by
  have hm : (UInt8.ofNat m).toNat = m := u8_len (by have := sm.le; have := sm.few; omega)
  have hm0 : h.nRequired ≠ 0 := by
    rw [sm.required]
    intro hc
    have := congrArg UInt8.toNat hc
    rw [hm] at this
    have hp := sm.pos
    simp at this
    omega
  unfold RightRecord
  rw [sm.filled, rows_sigs _ _ sm.length, sm.required, hm]
  constructor
  · intro hall msg hmsg
    rw [hd] at hmsg
    simp only [Res.ok.injEq] at hmsg
    subst hmsg
    refine ⟨fun h0 => absurd h0 (by rw [← sm.required]; exact hm0), fun _ i0 hi0 => ?_⟩
    obtain ⟨j, s, key, h1, h2, h3, h4⟩ := hall i0 hi0
    obtain ⟨row, r1, r2⟩ := row_get (sty := sty) sm.length h3
    exact ⟨j, s, row, key, h1, h2, r1, by rw [r2, Hex.decode_encode], h4⟩
  · intro hall i0 hi0
    obtain ⟨j, s, row, key, h1, h2, h3, h4, h5⟩ := (hall d hd).2 (by rw [← sm.required]; exact hm0) i0 hi0
    have hjl : j < keys.length := by
      have := (List.getElem?_eq_some_iff.mp h3).1
      simp at this
      omega
    obtain ⟨row', r1, r2⟩ := row_get (sty := sty) sm.length (List.getElem?_eq_getElem hjl)
    rw [h3] at r1
    simp only [Option.some.injEq] at r1
    rw [r1, r2, Hex.decode_encode, Res.ok.injEq] at h4
    exact ⟨j, s, key, h1, h2, by rw [List.getElem?_eq_getElem hjl, h4], h5⟩

theorem multi_legible {C : Curve} {u : TxUnlock} {h : TxHash} {m : Nat} {keys : List Bytes} {sigs : List (Option Bytes)} {ders : List Bytes}
    (sm : SignedMulti sty u h m keys sigs ders) (hv : LegibleRecord C h) :
    (∀ s ∈ sigs.filterMap id, InRange s) ∧ ∀ k ∈ keys, (C.decompress k).length ≠ 0 := by
  constructor
  · intro s hs
    rw [← rows_sigs (sty := sty) _ _ sm.length, ← sm.filled] at hs
    obtain ⟨row, h1, h2⟩ := List.mem_filterMap.mp hs
    exact hv.multi row h1 s h2
  · intro k hk
    obtain ⟨j, hj⟩ := List.mem_iff_getElem?.mp hk
    obtain ⟨row, r1, r2⟩ := row_get (sty := sty) sm.length hj
    rw [← sm.filled] at r1
    exact hv.points row (List.mem_of_getElem? r1) k (by rw [r2, Hex.decode_encode])

/-- What is read from an input verifies exactly if the record is right. -/
theorem attach_exact {C : Curve} {seg : Bool} {sha : Bytes → Bytes} {e : Entry} {th : TxHash} (i : RawIn)
    (hf : Fills sty seg e.unlock e.hash e.expect) (hr : Readable e.expect) (hsh : Shape e.expect th) {d : Bytes} (hd : Hex.decode th.hash = .ok d)
    (hh : th.hash = e.hash.hash) (hv : LegibleRecord C e.hash) :
    ∃ th' b, attach (readIn sha i e.expect) th = .ok (some th') ∧ verifyOne C th' = .ok b ∧ (b = true ↔ RightRecord C e.hash) := by
  obtain ⟨u, h, x⟩ := e
  simp only at hf hr hsh hh hv ⊢
  have hd' : Hex.decode h.hash = .ok d := by rw [← hh]; exact hd
  cases hf with
  | one so hseg =>
    rename_i o sig pub der
    obtain ⟨ok, hlock, hred, hreq, ⟨a0, hfill⟩, hsig, hpub⟩ := so
    obtain ⟨hl1, hl2⟩ := hv.one hreq _ sig pub hfill rfl
    obtain ⟨hn, a, st, hnorm⟩ := hsh
    obtain ⟨th', h1, h2⟩ := attach_one_exact (C := C) (i := readIn sha i (.one o der pub)) (der := der)
      (by cases o with
        | keyHash k => exact Or.inl rfl
        | nested g k => exact Or.inr (Or.inl rfl)
        | native k => exact Or.inr (Or.inr rfl)) (by cases o <;> rfl) hsig hpub hn hnorm hd hl1 hl2
    refine ⟨th', _, h1, h2, ?_⟩
    constructor
    · intro hv msg hmsg
      rw [hd'] at hmsg
      simp only [Res.ok.injEq] at hmsg
      subst hmsg
      exact ⟨fun _ => ⟨_, sig, pub, hfill, rfl, hv⟩, fun h0 => absurd hreq h0⟩
    · intro hall
      obtain ⟨n, s, p, q1, q2, q3⟩ := (hall d hd').1 hreq
      rw [hfill] at q1
      simp only [Option.some.injEq] at q1
      subst q1
      simp only [SigPub.mk.injEq, Option.some.injEq] at q2
      rw [q2.1, q2.2]
      exact q3
  | multi sm hseg =>
    rename_i m keys sigs ders
    obtain ⟨hn, st, hmul⟩ := hsh m keys sm.pos sm.le sm.few sm.keysLen rfl
    obtain ⟨l1, l2⟩ := multi_legible sm hv
    obtain ⟨th', b, h1, h2, h3⟩ := attach_multi_exact (C := C) (i := readIn sha i (.multi ders (multisigScript m keys))) rfl sm (fun hin => by
      have hrl := multisig_length (m := m) sm.keysLen
      have hfew := sm.few
      have hle := sm.le
      have htl := take_length sm.enough
      obtain ⟨hdr, e1, e2⟩ := isHeader_pushData (multisigScript m keys) (by omega)
      obtain ⟨b, hb⟩ : ∃ b, (Unlocking.multi ders (multisigScript m keys)).script sha = b := ⟨_, rfl⟩
      have hbl := script_multi_length (m := m) sm.dersOk (by omega) sm.keysLen sm.few sha
      have hbe : b = 0x00 :: ((ders.map push).flatten ++ (hdr ++ multisigScript m keys)) := by rw [← hb, ← e1]; rfl
      show decodeMulti (if ((Unlocking.multi ders (multisigScript m keys)).script sha).length < 253 then _ else _) = _
      rw [hb] at hbl ⊢
      by_cases hl : b.length < 253
      · rw [if_pos hl]
        exact decodeMulti_ok (pre := []) sm.pos sm.le sm.few sm.keysLen sm.dersOk hin htl e2 hbe (Or.inl rfl)
      · rw [if_neg hl]
        exact decodeMulti_ok (pre := 0xfd :: leBytes 2 b.length) sm.pos sm.le sm.few sm.keysLen sm.dersOk hin htl e2 hbe (Or.inr ⟨rfl, hbl⟩))
      hn hmul hd l1 l2
    exact ⟨th', b, h1, h2, h3.trans (multi_right sm hd')⟩
  | witnessMulti sm hseg =>
    rename_i m keys sigs ders
    obtain ⟨hn, st, hmul⟩ := hsh m keys sm.pos sm.le sm.few sm.keysLen rfl
    obtain ⟨l1, l2⟩ := multi_legible sm hv
    obtain ⟨th', b, h1, h2, h3⟩ := attach_multi_exact (C := C) (i := readIn sha i (.witnessMulti ders (multisigScript m keys))) rfl sm (fun hin => by
      have hr' : (multisigScript m keys).length < 256 := hr
      exact decodeMulti_ok (pre := []) (hdr := [UInt8.ofNat (multisigScript m keys).length]) sm.pos sm.le sm.few sm.keysLen sm.dersOk hin
        (take_length sm.enough) (Or.inl ⟨rfl, hr'⟩) rfl (Or.inl rfl)) hn hmul hd l1 l2
    exact ⟨th', b, h1, h2, h3.trans (multi_right sm hd')⟩

theorem newTxHash_shape {H : Hashes} {d lock redeem : Bytes} {ty : InType} {st : UInt8} {P : AddressPrefix} {th : TxHash} {x : Unlocking}
    (hty : KindOf x redeem ty) (hnew : newTxHash H d lock redeem ty st P = .ok th) : Shape x th := by
  cases x with
  | one o der pub =>
    obtain ⟨h1, a, h2⟩ := newTxHash_one hty hnew
    exact ⟨h1, a, _, h2⟩
  | multi ders r =>
    obtain ⟨rfl, rfl⟩ := hty
    intro m keys a1 a2 a3 a4 a5
    rw [a5] at hnew
    obtain ⟨h1, h2⟩ := newTxHash_multi a1 a2 a3 a4 hnew
    exact ⟨h1, _, h2⟩
  | witnessMulti ders r =>
    obtain ⟨rfl, rfl⟩ := hty
    intro m keys a1 a2 a3 a4 a5
    rw [a5] at hnew
    obtain ⟨h1, h2⟩ := newTxHash_multi a1 a2 a3 a4 hnew
    exact ⟨h1, _, h2⟩

theorem attachAll_exact {C : Curve} {sha : Bytes → Bytes} : ∀ (ins : List RawIn) (l : List Entry) (hs : List TxHash), l.length = ins.length →
    hs.length = l.length → (∀ (j : Nat) (i : RawIn) e th, ins[j]? = some i → l[j]? = some e → hs[j]? = some th →
      ∃ th' b, attach (readIn sha i e.expect) th = .ok (some th') ∧ verifyOne C th' = .ok b ∧ (b = true ↔ RightRecord C e.hash)) →
    ∃ hs' b, attachAll (List.zipWith (readIn sha) ins (l.map Entry.expect)) hs = .ok (some hs') ∧ verifyAll C hs' = .ok b ∧
      (b = true ↔ ∀ e ∈ l, RightRecord C e.hash)
  | [], [], hs, _, _, _ => ⟨[], true, by simp [attachAll], by simp [verifyAll], by simp⟩
  | [], _ :: _, _, h, _, _ => by simp at h
  | _ :: _, [], _, h, _, _ => by simp at h
  | _ :: _, _ :: _, [], _, h, _ => by simp at h
  | i :: ins, e :: l, th :: hs, h1, h2, hall => by
    obtain ⟨th', b, a1, a2, a3⟩ := hall 0 i e th rfl rfl rfl
    obtain ⟨hs', b', b1, b2, b3⟩ := attachAll_exact ins l hs (by simpa using h1) (by simpa using h2) (fun j x y z hx hy hz =>
      hall (j + 1) x y z (by simpa using hx) (by simpa using hy) (by simpa using hz))
    refine ⟨th' :: hs', b && b', ?_, ?_, ?_⟩
    · simp only [List.map_cons, List.zipWith_cons_cons]
      rw [attachAll, a1, Res.bind_ok]
      simp only
      rw [b1, Res.bind_ok]
    · rw [verifyAll, a2, Res.bind_ok]
      cases b
      · rfl
      · simp [b2]
    · rw [Bool.and_eq_true, a3, b3]
      simp

end Btc

/-- C61, transactions completed by the API, for all kinds of inputs and whatever the signatures are worth: `VerifyRawTransaction` answers, and it
accepts exactly if the signatures of every input are right for its message. Missing: the keys are those that the caller gave and not those of
the locking script, and one key may count for several signatures (`C61_any_key_violated`, `C28_api_violated`); and the inputs excluded
in `C63_all_inputs_partial`. -/
theorem C61_exact_partial (H : Hashes) (C : Curve) (P : AddressPrefix) (t : RawTx) (hu : Unsigned t) (l : List Entry) (segwitOn : Bool)
    (hs : List TxHash) (hc : createHashes H (Hex.encode t.ser) (l.map Entry.unlock) segwitOn P = .ok hs)
    (hhash : l.map (fun e => e.hash.hash) = hs.map TxHash.hash)
    (hf : ∀ e ∈ l, Fills 1 segwitOn e.unlock e.hash e.expect) (hr : ∀ e ∈ l, Readable e.expect) (hv : ∀ e ∈ l, LegibleRecord C e.hash) :
    ∃ signed b, insertSignatures H (Hex.encode t.ser) (l.map Entry.hash) (l.map Entry.unlock) segwitOn = .ok signed ∧
      verifyRaw H C signed (l.map Entry.unlock) segwitOn P = .ok b ∧ (b = true ↔ ∀ e ∈ l, RightRecord C e.hash) := by
  obtain ⟨hl1, hl2, hget⟩ := createHashes_get hu hc
  have hl : l.length = t.ins.length := by simpa using hl1
  have h32 : ∀ b, (H.hash .sha256 b).length = 32 := H.size .sha256
  have hh : hashesForSig H segwitOn P (ofRaw t) (l.map Entry.unlock) = .ok hs := by
    unfold createHashes at hc
    rw [Hex.decode_encode, Res.bind_ok, decode_unsigned hu, Res.bind_ok] at hc
    exact hc
  obtain ⟨hs', b, a1, a2, a3⟩ := attachAll_exact (C := C) (sha := H.hash .sha256) t.ins l hs hl (by simpa using hl2) (by
    intro j i e th hi he hth
    obtain ⟨th2, e1, e2⟩ := hget j e.unlock (by simp [he])
    rw [hth] at e1
    simp only [Option.some.injEq] at e1
    subst e1
    have he' := List.mem_of_getElem? he
    obtain ⟨lock, redeem, ty, hck, hty⟩ := check_fills (hf e he')
    obtain ⟨d, hd, hnew⟩ := hashForSig_parts hck e2
    refine attach_exact i (hf e he') (hr e he') (newTxHash_shape hty hnew) hd ?_ (hv e he')
    have := congrArg (fun l => l[j]?) hhash
    simp only [List.getElem?_map, he, hth, Option.map_some, Option.some.injEq] at this
    exact this.symm)
  refine ⟨_, b, insert_fills H t hu l hl segwitOn hf, ?_, a3⟩
  unfold verifyRaw
  rw [Hex.decode_encode]
  simp only [decodeTx_fills h32 hu l hl hf hr]
  rw [if_neg (by simp [readTx, hl]), hashes_signed hl, hh]
  simp only
  rw [show (readTx (H.hash .sha256) t l).vins = List.zipWith (readIn (H.hash .sha256)) t.ins (l.map Entry.expect) from rfl, a1, Res.bind_ok]
  exact a2

/-- C61 is false (3), whatever the hash functions and the curve are: a transaction that spends a P2PKH output is accepted with the signature
of *any* key on the curve, although the key does not have the hash in the locking script. -/
theorem C61_any_key_violated (H : Hashes) (C : Curve) (P : AddressPrefix) (t : RawTx) (hu : Unsigned t) (segwitOn : Bool)
    (keyHash pub sig der a msg : Bytes) (hk : keyHash.length = 20) (hp : pub.length = 33) (_other : H.hash .hash160 pub ≠ keyHash)
    (hd : IsSig 1 sig der) (hr : InRange sig) (hon : (C.decompress pub).length ≠ 0)
    (th : TxHash) (hc : createHashes H (Hex.encode t.ser) [p2pkhUnlock keyHash] segwitOn P = .ok [th])
    (hm : Hex.decode th.hash = .ok msg) (hv : C.verify ((C.decompress pub).drop 1) msg sig = true) :
    ∃ signed, insertSignatures H (Hex.encode t.ser) [⟨th.hash, 0, some ⟨a, 1, ⟨some sig, some pub⟩⟩, []⟩] [p2pkhUnlock keyHash] segwitOn = .ok signed ∧
      verifyRaw H C signed [p2pkhUnlock keyHash] segwitOn P = .ok true := by
  obtain ⟨signed, b, e1, e2, e3⟩ := C61_exact_partial H C P t hu
    [⟨p2pkhUnlock keyHash, ⟨th.hash, 0, some ⟨a, 1, ⟨some sig, some pub⟩⟩, []⟩, .one (.keyHash keyHash) der pub⟩] segwitOn [th] hc rfl
    (by
      intro e he
      rw [List.mem_singleton.mp he]
      exact Fills.one (sig := sig) ⟨hk, Hex.decode_encode _, rfl, rfl, ⟨_, rfl⟩, hd, hp⟩ (by intro h; cases h))
    (by
      intro e he
      rw [List.mem_singleton.mp he]
      trivial)
    (by
      intro e he
      rw [List.mem_singleton.mp he]
      refine ⟨?_, by simp, by simp⟩
      intro _ n s p hn hs
      simp only [Option.some.injEq] at hn
      subst hn
      simp only [SigPub.mk.injEq, Option.some.injEq] at hs
      rw [← hs.1, ← hs.2]
      exact ⟨hr, hon⟩)
  refine ⟨signed, e1, ?_⟩
  rw [e3.mpr] at e2
  · exact e2
  · intro e he
    rw [List.mem_singleton.mp he]
    intro msg' hmsg
    rw [hm] at hmsg
    simp only [Res.ok.injEq] at hmsg
    subst hmsg
    exact ⟨fun _ => ⟨_, sig, pub, rfl, rfl, hv⟩, fun h0 => absurd rfl h0⟩

/-- C28 is false of the API, whatever the hash functions and the curve are: a script for `m` signatures of its keys is satisfied by `m` signatures
of its last key alone. -/
theorem C28_last_key_violated (H : Hashes) (C : Curve) (P : AddressPrefix) (t : RawTx) (hu : Unsigned t)
    (u : TxUnlock) (h th : TxHash) (m : Nat) (keys : List Bytes) (sigs : List (Option Bytes)) (ders : List Bytes) (msg last : Bytes)
    (_several : 2 ≤ m) (sm : SignedMulti 1 u h m keys sigs ders) (hread : Readable (.multi ders (multisigScript m keys)))
    (hc : createHashes H (Hex.encode t.ser) [u] false P = .ok [th]) (hhash : h.hash = th.hash) (hm : Hex.decode th.hash = .ok msg)
    (hon : ∀ k ∈ keys, (C.decompress k).length ≠ 0) (hlast : keys.getLast? = some last)
    (hv : ∀ s ∈ sigs.filterMap id, InRange s ∧ C.verify ((C.decompress last).drop 1) msg s = true) :
    ∃ signed, insertSignatures H (Hex.encode t.ser) [h] [u] false = .ok signed ∧ verifyRaw H C signed [u] false P = .ok true := by
  have hmsg : Hex.decode h.hash = .ok msg := by rw [hhash]; exact hm
  obtain ⟨signed, b, e1, e2, e3⟩ := C61_exact_partial H C P t hu [⟨u, h, .multi ders (multisigScript m keys)⟩] false [th] hc (by simp [hhash])
    (by
      intro e he
      rw [List.mem_singleton.mp he]
      exact Fills.multi sm rfl)
    (by
      intro e he
      rw [List.mem_singleton.mp he]
      exact hread)
    (by
      intro e he
      rw [List.mem_singleton.mp he]
      have hreq : h.nRequired ≠ 0 := by
        rw [sm.required]
        intro h0
        have := congrArg UInt8.toNat h0
        rw [u8_len (by have := sm.le; have := sm.few; omega)] at this
        simp at this
        omega
      refine ⟨?_, ?_, ?_⟩
      · exact fun h0 => absurd h0 hreq
      · intro row hrow s hs
        refine (hv s ?_).1
        rw [← rows_sigs (sty := 1) keys sigs sm.length, ← sm.filled]
        exact List.mem_filterMap.mpr ⟨row, hrow, hs⟩
      · intro row hrow k hk
        simp only at hrow
        rw [sm.filled] at hrow
        obtain ⟨j, hj⟩ := List.mem_iff_getElem?.mp hrow
        have hjl : j < keys.length := by
          have := (List.getElem?_eq_some_iff.mp hj).1
          simp at this
          omega
        obtain ⟨row', r1, r2⟩ := row_get (sty := 1) sm.length (List.getElem?_eq_getElem hjl)
        rw [hj] at r1
        simp only [Option.some.injEq] at r1
        rw [r1, r2, Hex.decode_encode, Res.ok.injEq] at hk
        rw [← hk]
        exact hon _ (List.getElem_mem _))
  refine ⟨signed, e1, ?_⟩
  rw [e3.mpr] at e2
  · exact e2
  · intro e he
    rw [List.mem_singleton.mp he]
    refine (multi_right (C := C) sm hmsg).mp ?_
    intro i hi
    have hen := sm.enough
    have hle := sm.le
    refine ⟨keys.length - 1, (sigs.filterMap id)[i], last, by omega, List.getElem?_eq_getElem _, ?_, (hv _ (List.getElem_mem _)).2⟩
    rw [← hlast, List.getLast?_eq_getElem?]

/-- C92 for Bitcoin Cash, Bitcoin SV, CXC and HC, transactions completed by the API: as in `C61_exact_partial`. Missing: as in
`C61_exact_partial`. -/
theorem C92_exact_partial (V : BtcVariants.Variant) (hV : V = BtcVariants.bch ∨ V = BtcVariants.bsv ∨ V = BtcVariants.cxc ∨ V = BtcVariants.hc) (sty : UInt8)
    (H : Hashes) (C : Curve) (P : AddressPrefix)
    (t : RawTx) (hu : UnsignedV V.version t) (l : List Entry) (segwitOn : Bool)
    (hs : List TxHash) (hc : BtcVariants.createHashes V H (Hex.encode t.ser) (l.map Entry.unlock) segwitOn P = .ok hs)
    (hhash : l.map (fun e => e.hash.hash) = hs.map TxHash.hash)
    (hf : ∀ e ∈ l, Fills sty segwitOn e.unlock e.hash e.expect) (hr : ∀ e ∈ l, Readable e.expect) (hv : ∀ e ∈ l, LegibleRecord C e.hash) :
    ∃ signed b, BtcVariants.insertSignatures V H (Hex.encode t.ser) (l.map Entry.hash) (l.map Entry.unlock) segwitOn = .ok signed ∧
      BtcVariants.verifyRaw V H C signed (l.map Entry.unlock) segwitOn P = .ok b ∧ (b = true ↔ ∀ e ∈ l, RightRecord C e.hash) := by
  have hvl := BtcVariants.HasScripts.version_lt hV
  obtain ⟨hl1, hl2, hget⟩ := BtcVariants.createHashes_get hvl hu hc
  have hl : l.length = t.ins.length := by simpa using hl1
  have h32 : ∀ b, (H.hash .sha256 b).length = 32 := H.size .sha256
  have hh : BtcVariants.hashesForSig V H segwitOn P (ofRaw t) (l.map Entry.unlock) = .ok hs := by
    unfold BtcVariants.createHashes at hc
    rw [Hex.decode_encode, Res.bind_ok, BtcVariants.decode_unsignedV hvl hu, Res.bind_ok] at hc
    exact hc
  obtain ⟨hs', b, a1, a2, a3⟩ := attachAll_exact (C := C) (sha := H.hash .sha256) t.ins l hs hl (by simpa using hl2) (by
    intro j i e th hi he hth
    obtain ⟨th2, e1, e2⟩ := hget j e.unlock (by simp [he])
    rw [hth] at e1
    simp only [Option.some.injEq] at e1
    subst e1
    have he' := List.mem_of_getElem? he
    obtain ⟨lock, redeem, ty, hck, hty⟩ := check_fills (hf e he')
    obtain ⟨⟨d, hd⟩, hsh⟩ := BtcVariants.shapeV hV hck hty e2
    refine attach_exact i (hf e he') (hr e he') hsh hd ?_ (hv e he')
    have := congrArg (fun l => l[j]?) hhash
    simp only [List.getElem?_map, he, hth, Option.map_some, Option.some.injEq] at this
    exact this.symm)
  refine ⟨_, b, BtcVariants.insert_fillsV hV H t hu l hl segwitOn hf, ?_, a3⟩
  unfold BtcVariants.verifyRaw
  rw [Hex.decode_encode]
  simp only [BtcVariants.decodeTxV_fills hvl h32 hu l hl hf hr]
  rw [if_neg (by simp [readTx, hl]), BtcVariants.hashes_signedV hV hl, hh]
  simp only
  rw [show (readTx (H.hash .sha256) t l).vins = List.zipWith (readIn (H.hash .sha256)) t.ins (l.map Entry.expect) from rfl, a1, Res.bind_ok]
  exact a2

/-- C92 is false (2), whatever the hash functions and the curve are: in Bitcoin Cash, Bitcoin SV, CXC and HC, too, a P2PKH output can be spent with
any key. -/
theorem C92_any_key_violated (V : BtcVariants.Variant) (hV : V = BtcVariants.bch ∨ V = BtcVariants.bsv ∨ V = BtcVariants.cxc ∨ V = BtcVariants.hc) (sty : UInt8)
    (H : Hashes) (C : Curve) (P : AddressPrefix) (t : RawTx) (hu : UnsignedV V.version t) (segwitOn : Bool)
    (u : TxUnlock) (keyHash pub sig der a msg : Bytes) (hk : keyHash.length = 20) (hlock : Hex.decode u.lockScript = .ok (p2pkhScript keyHash))
    (hred : u.redeemScript = []) (hp : pub.length = 33) (_other : H.hash .hash160 pub ≠ keyHash)
    (hd : IsSig sty sig der) (hr : InRange sig) (hon : (C.decompress pub).length ≠ 0)
    (th : TxHash) (hc : BtcVariants.createHashes V H (Hex.encode t.ser) [u] segwitOn P = .ok [th])
    (hm : Hex.decode th.hash = .ok msg) (hv : C.verify ((C.decompress pub).drop 1) msg sig = true) :
    ∃ signed, BtcVariants.insertSignatures V H (Hex.encode t.ser) [⟨th.hash, 0, some ⟨a, sty, ⟨some sig, some pub⟩⟩, []⟩] [u] segwitOn = .ok signed ∧
      BtcVariants.verifyRaw V H C signed [u] segwitOn P = .ok true := by
  obtain ⟨signed, b, e1, e2, e3⟩ := C92_exact_partial V hV sty H C P t hu
    [⟨u, ⟨th.hash, 0, some ⟨a, sty, ⟨some sig, some pub⟩⟩, []⟩, .one (.keyHash keyHash) der pub⟩] segwitOn [th] hc rfl
    (by
      intro e he
      rw [List.mem_singleton.mp he]
      exact Fills.one (sig := sig) ⟨hk, hlock, hred, rfl, ⟨_, rfl⟩, hd, hp⟩ (by intro h; cases h))
    (by
      intro e he
      rw [List.mem_singleton.mp he]
      trivial)
    (by
      intro e he
      rw [List.mem_singleton.mp he]
      refine ⟨?_, by simp, by simp⟩
      intro _ n s p hn hs
      simp only [Option.some.injEq] at hn
      subst hn
      simp only [SigPub.mk.injEq, Option.some.injEq] at hs
      rw [← hs.1, ← hs.2]
      exact ⟨hr, hon⟩)
  refine ⟨signed, e1, ?_⟩
  rw [e3.mpr] at e2
  · exact e2
  · intro e he
    rw [List.mem_singleton.mp he]
    intro msg' hmsg
    rw [hm] at hmsg
    simp only [Res.ok.injEq] at hmsg
    subst hmsg
    exact ⟨fun _ => ⟨_, sig, pub, rfl, rfl, hv⟩, fun h0 => absurd rfl h0⟩

/-! ### The hypotheses can be met -/

namespace Btc

theorem one_message {r : Res (List TxHash)} (h : (match r with | .ok [th] => (Hex.decode th.hash).isOk | _ => false) = true) :
    ∃ th msg, r = .ok [th] ∧ Hex.decode th.hash = .ok msg := by
  match r, h with
  | .ok [th], h =>
    cases hd : Hex.decode th.hash with
    | ok msg => exact ⟨th, msg, rfl, hd⟩
    | err => simp [hd, Res.isOk] at h
    | panic => simp [hd, Res.isOk] at h

theorem sig11_in : InRange sig11 := by
  unfold InRange
  exact Or.inr (by decide +kernel)

end Btc

-- an output of another key is spent with `key3`
example : ∃ th signed, insertSignatures toyHashes (Hex.encode (demoTxN 1).ser) [⟨th, 0, some ⟨[], 1, ⟨some sig11, some key3⟩⟩, []⟩]
      [p2pkhUnlock (toyHashes.hash .hash160 key0)] true = .ok signed ∧
    verifyRaw toyHashes (oneKeyCurve key3) signed [p2pkhUnlock (toyHashes.hash .hash160 key0)] true btcMainnet = .ok true := by
  obtain ⟨th, msg, h1, h2⟩ := one_message (r := createHashes toyHashes (Hex.encode (demoTxN 1).ser) [p2pkhUnlock (toyHashes.hash .hash160 key0)] true btcMainnet)
    (by decide +kernel)
  exact ⟨th.hash, C61_any_key_violated _ _ _ _ (demoTxN_unsigned 1 (by decide) (by decide)) true _ key3 sig11 der11 [] msg
    (toyHashes.size .hash160 _) rfl (by decide +kernel) der11_is sig11_in (by simp [oneKeyCurve]) th h1 h2 (by simp [oneKeyCurve])⟩

-- the same record is refused if the curve accepts signatures of `key0` only
example : ∃ th signed, insertSignatures toyHashes (Hex.encode (demoTxN 1).ser) [oneRecord th] [p2pkhUnlock (List.replicate 20 5)] true = .ok signed ∧
    verifyRaw toyHashes (oneKeyCurve key0) signed [p2pkhUnlock (List.replicate 20 5)] true btcMainnet = .ok false := by
  obtain ⟨th, msg, h1, h2⟩ := one_message (r := createHashes toyHashes (Hex.encode (demoTxN 1).ser) [p2pkhUnlock (List.replicate 20 5)] true btcMainnet)
    (by decide +kernel)
  obtain ⟨signed, b, e1, e2, e3⟩ := C61_exact_partial toyHashes (oneKeyCurve key0) btcMainnet _ (demoTxN_unsigned 1 (by decide) (by decide))
    [keyHashEntry th.hash] true [th] h1 rfl
    (by intro e he; rw [List.mem_singleton.mp he]; exact one_fills true _)
    (by intro e he; rw [List.mem_singleton.mp he]; trivial)
    (by
      intro e he
      rw [List.mem_singleton.mp he]
      refine ⟨?_, by simp [keyHashEntry, oneRecord], by simp [keyHashEntry, oneRecord]⟩
      intro _ n s p hn hs
      simp only [keyHashEntry, oneRecord, Option.some.injEq] at hn
      subst hn
      simp only [SigPub.mk.injEq, Option.some.injEq] at hs
      rw [← hs.1]
      exact ⟨sig11_in, by simp [oneKeyCurve]⟩)
  refine ⟨th.hash, signed, e1, ?_⟩
  cases b with
  | false => exact e2
  | true =>
    obtain ⟨n, s, p, q1, q2, q3⟩ := (e3.mp rfl _ (List.mem_singleton.mpr rfl) msg h2).1 rfl
    simp only [keyHashEntry, oneRecord, Option.some.injEq] at q1
    subst q1
    simp only [SigPub.mk.injEq, Option.some.injEq] at q2
    rw [← q2.1, ← q2.2] at q3
    exact absurd q3 (by simp [oneKeyCurve, key0, key1])

-- two of three signatures, both of the last key
example : ∃ th signed, insertSignatures toyHashes (Hex.encode (demoTxN 1).ser) [multiRecord th 2 [key0, key1, key2] [some sig11, none, some sig11]]
      [multiUnlock 2 [key0, key1, key2]] false = .ok signed ∧
    verifyRaw toyHashes (oneKeyCurve key2) signed [multiUnlock 2 [key0, key1, key2]] false btcMainnet = .ok true := by
  obtain ⟨th, msg, h1, h2⟩ := one_message (r := createHashes toyHashes (Hex.encode (demoTxN 1).ser) [multiUnlock 2 [key0, key1, key2]] false btcMainnet)
    (by decide +kernel)
  refine ⟨th.hash, C28_last_key_violated _ _ _ _ (demoTxN_unsigned 1 (by decide) (by decide)) _ _ th 2 [key0, key1, key2] _ (List.replicate 2 der11) msg key2
    (by decide) (multi_signed der11_is th.hash 2 [key0, key1, key2] [some sig11, none, some sig11] (by decide) (by decide) (by decide)
      demo_keys rfl (by decide) demo_sigs) ?_ h1 rfl h2 (by simp [oneKeyCurve]) rfl ?_⟩
  · show 0x6c < ((Unlocking.multi (List.replicate 2 der11) (multisigScript 2 [key0, key1, key2])).script id).length
    decide +kernel
  · intro s hs
    rw [demo_sigs s hs]
    exact ⟨sig11_in, by simp [oneKeyCurve]⟩

-- Bitcoin Cash
example : ∃ th signed, BtcVariants.insertSignatures BtcVariants.bch toyHashes (Hex.encode BtcVariants.demoTx1.ser) [⟨th, 0, some ⟨[], 0x41, ⟨some sig11, some key3⟩⟩, []⟩]
      [BtcVariants.forkUnlock (toyHashes.hash .hash160 key0)] false = .ok signed ∧
    BtcVariants.verifyRaw BtcVariants.bch toyHashes (oneKeyCurve key3) signed [BtcVariants.forkUnlock (toyHashes.hash .hash160 key0)] false btcMainnet =
      .ok true := by
  obtain ⟨th, msg, h1, h2⟩ := one_message (r := BtcVariants.createHashes BtcVariants.bch toyHashes (Hex.encode BtcVariants.demoTx1.ser)
    [BtcVariants.forkUnlock (toyHashes.hash .hash160 key0)] false btcMainnet) (by decide +kernel)
  exact ⟨th.hash, C92_any_key_violated BtcVariants.bch (by simp) 0x41 _ _ _ _ BtcVariants.demoTx1_unsigned false _ _ key3 sig11 BtcVariants.der41 [] msg
    (toyHashes.size .hash160 _) (Hex.decode_encode _) rfl rfl (by decide +kernel) BtcVariants.der41_is sig11_in (by simp [oneKeyCurve]) th h1 h2 (by simp [oneKeyCurve])⟩

end Verif
