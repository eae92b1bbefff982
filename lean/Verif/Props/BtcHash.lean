import Verif.Lemmas.BtcTx

/-! Property C29: the messages signed for the inputs of a transaction (package btcTransaction). -/

namespace Verif
open Verif.Spec Verif.Btc

namespace Btc

/-- The structure of a transaction without unlocking scripts. -/
def ofRaw (t : RawTx) : Tx :=
  { version := leBytes 4 t.version
    vins := t.ins.map (fun i => ⟨.empty, i.prev, leBytes 4 i.index, [], [], leBytes 4 i.sequence, []⟩)
    vouts := t.outs.map (fun o => ⟨leBytes 8 o.value, o.script⟩)
    lockTime := leBytes 4 t.lockTime
    witness := false }

theorem toRaw_ofRaw {t : RawTx} (u : Unsigned t) : toRaw (ofRaw t) = t := by
  cases t with
  | mk v ins outs l =>
    simp only [toRaw, ofRaw, List.map_map]
    congr 1
    · have := u.version
      simp only at this
      subst this; rfl
    · rw [List.map_congr_left (g := id), List.map_id]
      intro i hi
      obtain ⟨h1, h2, h3, h4⟩ := u.ins i hi
      simp only [Function.comp]
      rw [leNat_leBytes_of_lt (by simpa using h2), leNat_leBytes_of_lt (by simpa using h4)]
      cases i; simp_all
    · rw [List.map_congr_left (g := id), List.map_id]
      intro o ho
      obtain ⟨h1, h2, h3⟩ := u.outs o ho
      simp only [Function.comp]
      rw [leNat_leBytes_of_lt (by simpa using h1)]
      rfl
    · exact leNat_leBytes_of_lt (by simpa using u.lockTime)

theorem good_ofRaw {t : RawTx} (u : Unsigned t) (seg : Bool) : GoodTx seg (ofRaw t) := by
  have h1 := u.insPos
  have h2 := u.insLt
  have h3 := u.outsPos
  have h4 := u.outsLt
  refine ⟨?_, by simp [ofRaw], by simpa [ofRaw] using h1, by simp [ofRaw]; omega, by simpa [ofRaw] using h3, by simp [ofRaw]; omega,
    ?_, ?_⟩
  · simp only [ofRaw]; rw [u.version]
  · intro i hi
    simp only [ofRaw, List.mem_map] at hi
    obtain ⟨r, hr, rfl⟩ := hi
    exact ⟨(u.ins r hr).1, by simp, by simp, Or.inl ⟨rfl, rfl, rfl, rfl, rfl⟩⟩
  · intro o ho
    simp only [ofRaw, List.mem_map] at ho
    obtain ⟨r, hr, rfl⟩ := ho
    obtain ⟨k1, k2, k3⟩ := u.outs r hr
    exact ⟨by simp, k2, by simp; omega⟩

/-- Serialisation of the transaction with some scripts placed in the inputs. -/
theorem encodeTx_scripts {t : RawTx} (u : Unsigned t) (seg : Bool) (f : Nat → Bytes) (hf : ∀ k, (f k).length < 253) :
    encodeTx seg { ofRaw t with vins := (ofRaw t).vins.mapIdx (fun k i => { i with scriptPub := f k }) } =
      .ok (RawTx.ser { t with ins := t.ins.mapIdx (fun k i => { i with script := f k }) }) := by
  have h1 := u.insPos
  have h2 := u.insLt
  have h3 := u.outsPos
  have h4 := u.outsLt
  rw [encodeTx_standard]
  · congr 1
    congr 1
    have := toRaw_ofRaw u
    unfold toRaw at this ⊢
    simp only at this ⊢
    cases t with
    | mk v ins outs l =>
      simp only [RawTx.mk.injEq] at this
      obtain ⟨e1, e2, e3, e4⟩ := this
      rw [e1, e3, e4]
      congr 1
      apply List.ext_getElem?
      intro k
      have e := congrArg (fun l => l[k]?) e2
      simp only [List.getElem?_map, List.getElem?_mapIdx, ofRaw] at e ⊢
      cases hk : ins[k]? with
      | none => simp
      | some i =>
        rw [hk] at e
        simp only [Option.map_some, Option.some.injEq] at e ⊢
        exact congrArg (fun r : RawIn => { r with script := f k }) e
  · simp [ofRaw]
  · simp [ofRaw]
  · rfl
  · intro hc
    have := congrArg List.length hc
    simp [ofRaw] at this
    rw [this] at h1; simp at h1
  · simpa [ofRaw] using h2
  · intro hc
    have := congrArg List.length hc
    simp [ofRaw] at this
    rw [this] at h3; simp at h3
  · simpa [ofRaw] using h4
  · intro i hi
    rw [List.mem_iff_getElem?] at hi
    obtain ⟨k, hk⟩ := hi
    simp only [ofRaw, List.getElem?_mapIdx, List.getElem?_map, Option.map_map, Option.map_eq_some_iff] at hk
    obtain ⟨r, hr, rfl⟩ := hk
    exact ⟨rfl, (u.ins r (List.mem_of_getElem? hr)).1, by simp, by simp, hf k⟩
  · intro o ho
    simp only [ofRaw, List.mem_map] at ho
    obtain ⟨r, hr, rfl⟩ := ho
    obtain ⟨k1, k2, k3⟩ := u.outs r hr
    exact ⟨by simp, by intro hc; simp only at hc; rw [hc] at k2; simp at k2, k3⟩

theorem decode_unsigned {t : RawTx} (u : Unsigned t) (seg : Bool) (spare : Nat) :
    decodeTx spare seg t.ser = .ok (ofRaw t) := by
  obtain ⟨b, h1, h2⟩ := decodeTx_good (good_ofRaw u seg) spare
  have h3 := encodeTx_scripts u seg (fun _ => []) (by simp)
  have e1 : (ofRaw t).vins.mapIdx (fun k i => { i with scriptPub := [] }) = (ofRaw t).vins := by
    apply List.ext_getElem?
    intro k
    simp only [ofRaw, List.getElem?_mapIdx, List.getElem?_map, Option.map_map]
    rfl
  have e2 : t.ins.mapIdx (fun k i => { i with script := [] }) = t.ins := by
    apply List.ext_getElem?
    intro k
    simp only [List.getElem?_mapIdx]
    cases hk : t.ins[k]? with
    | none => rfl
    | some i =>
      have := (u.ins i (List.mem_of_getElem? hk)).2.2.1
      cases i; simp_all
  rw [e1, e2] at h3
  have h4 : encodeTx seg (ofRaw t) = .ok t.ser := h3
  rw [h4] at h1
  simp only [Res.ok.injEq] at h1
  rw [h1]; exact h2

theorem map_modify_empty (l : List TxIn) (idx : Nat) (s : Bytes) :
    ((l.map setEmpty).modify idx (fun i => { i with scriptPub := s })).map setEmpty = l.map setEmpty := by
  induction l generalizing idx with
  | nil => cases idx <;> rfl
  | cons i l ih =>
    cases idx with
    | zero => simp [setEmpty]
    | succ n => simp only [List.map_cons, List.modify_succ_cons, ih]; rfl

/-- What an iteration leaves in the inputs does not matter to the next ones. -/
theorem hashForSig_after {H : Hashes} {seg : Bool} {P : AddressPrefix} (t : Tx) (idx k : Nat) (u v : TxUnlock) :
    hashForSig H seg P (afterSig seg t idx u) k v = hashForSig H seg P t k v := by
  have e : ({ afterSig seg t idx u with vins := (afterSig seg t idx u).vins.map setEmpty } : Tx) = { t with vins := t.vins.map setEmpty } := by
    have hm : (t.vins.map setEmpty).map setEmpty = t.vins.map setEmpty := by simp [setEmpty]
    unfold afterSig
    split
    · split
      · simp only [map_modify_empty]
      · simp only [hm]
    · simp only [hm]
  unfold hashForSig
  simp only [e]

theorem hashesLoop_get {H : Hashes} {seg : Bool} {P : AddressPrefix} {t : Tx} : ∀ (us : List TxUnlock) (idx : Nat) {hs : List TxHash},
    hashesLoop H seg P t idx us = .ok hs → hs.length = us.length ∧
      ∀ k u, us[k]? = some u → ∃ th, hs[k]? = some th ∧ hashForSig H seg P t (idx + k) u = .ok th
  | [], idx, hs, h => by
    simp [hashesLoop] at h; subst h; simp
  | u :: us, idx, hs, h => by
    rw [hashesLoop] at h
    obtain ⟨a, ha, h⟩ := Res.bind_eq_ok.mp h
    obtain ⟨l, hl, h⟩ := Res.bind_eq_ok.mp h
    simp only [Res.ok.injEq] at h
    subst h
    obtain ⟨h1, h2⟩ := hashesLoop_get us (idx + 1) hl
    refine ⟨by simp [h1], ?_⟩
    intro k v hk
    cases k with
    | zero => simp at hk; subst hk; exact ⟨a, by simp, ha⟩
    | succ k =>
      simp only [List.getElem?_cons_succ] at hk
      obtain ⟨th, e1, e2⟩ := h2 k v hk
      exact ⟨th, by simpa using e1, by rw [show idx + (k + 1) = idx + 1 + k by omega, ← hashForSig_after t idx _ u v]; exact e2⟩

theorem createHashes_get {H : Hashes} {P : AddressPrefix} {t : RawTx} {us : List TxUnlock} {seg : Bool} {hs : List TxHash}
    (u : Unsigned t) (hc : createHashes H (Hex.encode t.ser) us seg P = .ok hs) :
    us.length = t.ins.length ∧ hs.length = us.length ∧
      ∀ k v, us[k]? = some v → ∃ th, hs[k]? = some th ∧ hashForSig H seg P (ofRaw t) k v = .ok th := by
  unfold createHashes at hc
  rw [Hex.decode_encode, Res.bind_ok, decode_unsigned u, Res.bind_ok] at hc
  unfold hashesForSig at hc
  split at hc
  · simp at hc
  rename_i c1
  split at hc
  · simp at hc
  obtain ⟨h1, h2⟩ := hashesLoop_get us 0 hc
  exact ⟨by simpa [ofRaw] using (Decidable.not_not.mp c1).symm, h1, by simpa using h2⟩

theorem ofRaw_empty (t : RawTx) : { ofRaw t with vins := (ofRaw t).vins.map setEmpty } = ofRaw t := by
  simp [ofRaw, setEmpty, Function.comp_def]

theorem check_p2pkh {lock h : Bytes} (hd : Hex.decode lock = .ok (p2pkhScript h)) (hl : h.length = 20) :
    checkScriptType lock [] = .ok (p2pkhScript h, [], .p2pkh) := by
  unfold checkScriptType
  rw [hd]
  simp [p2pkhScript, hl]

theorem check_p2wpkh {lock redeem h k : Bytes} (hd : Hex.decode lock = .ok (p2shScript h)) (hl : h.length = 20)
    (hr : Hex.decode redeem = .ok (witnessV0Script k)) (hk : k.length = 20) :
    checkScriptType lock redeem = .ok (p2shScript h, witnessV0Script k, .p2wpkh) := by
  unfold checkScriptType
  rw [hd, hr]
  simp [p2shScript, witnessV0Script, push, hl, hk]

theorem check_bech32 {lock k : Bytes} (hd : Hex.decode lock = .ok (witnessV0Script k)) (hk : k.length = 20) :
    checkScriptType lock [] = .ok (witnessV0Script k, [], .bech32) := by
  unfold checkScriptType
  rw [hd]
  simp [witnessV0Script, push, hk]

theorem check_multi {lock redeem h r : Bytes} (hd : Hex.decode lock = .ok (p2shScript h)) (hl : h.length = 20)
    (hr : Hex.decode redeem = .ok r) (h37 : 37 ≤ r.length) (hlast : r.getLast? = some 0xae) :
    checkScriptType lock redeem = .ok (p2shScript h, r, .multi) := by
  unfold checkScriptType
  rw [hd, hr]
  simp [p2shScript, hl, hlast, h37, show r.length ≠ 22 by omega]

theorem newTxHash_hash {H : Hashes} {hash lock redeem : Bytes} {ty : InType} {st : UInt8} {P : AddressPrefix} {th : TxHash}
    (h : newTxHash H hash lock redeem ty st P = .ok th) : th.hash = Hex.encode hash := by
  unfold newTxHash at h
  cases ty <;> simp only at h
  · simp at h
  · obtain ⟨a, _, h⟩ := Res.bind_eq_ok.mp h
    obtain ⟨b, _, h⟩ := Res.bind_eq_ok.mp h
    simp only [Res.ok.injEq] at h; rw [← h]
  · obtain ⟨a, _, h⟩ := Res.bind_eq_ok.mp h
    obtain ⟨b, _, h⟩ := Res.bind_eq_ok.mp h
    simp only [Res.ok.injEq] at h; rw [← h]
  · obtain ⟨a, _, h⟩ := Res.bind_eq_ok.mp h
    obtain ⟨b, _, h⟩ := Res.bind_eq_ok.mp h
    simp only [Res.ok.injEq] at h; rw [← h]
  · obtain ⟨a, _, h⟩ := Res.bind_eq_ok.mp h
    simp only [Res.ok.injEq] at h; rw [← h]

/-- The inputs with one script placed. -/
theorem modify_ofRaw (t : RawTx) (k : Nat) (code : Bytes) :
    (ofRaw t).vins.modify k (fun i => { i with scriptPub := code }) =
      (ofRaw t).vins.mapIdx (fun j i => { i with scriptPub := if j = k then code else [] }) := by
  apply List.ext_getElem?
  intro j
  rw [List.getElem?_modify]
  simp only [ofRaw, List.getElem?_mapIdx, List.getElem?_map]
  cases t.ins[j]? with
  | none => simp
  | some i =>
    by_cases h : k = j
    · subst h; simp
    · have h' : ¬ j = k := fun e => h e.symm
      simp [h, h']

theorem legacy_bytes {t : RawTx} (u : Unsigned t) (seg : Bool) (k : Nat) (code : Bytes) (hc : code.length < 253) :
    encodeTx seg { ofRaw t with vins := (ofRaw t).vins.modify k (fun i => { i with scriptPub := code }) } =
      .ok (RawTx.ser { t with ins := t.ins.mapIdx (fun j i => { i with script := if j = k then code else [] }) }) := by
  rw [modify_ofRaw]
  exact encodeTx_scripts u seg (fun j => if j = k then code else []) (by intro j; split <;> simp [hc])

theorem scriptCode_p2wpkh {k : Bytes} (hk : k.length = 20) : scriptCode (witnessV0Script k) = .ok (p2pkhScript k) := by
  simp [scriptCode, witnessV0Script, push, index, hk, p2pkhScript]

theorem scriptCode_other {r : Bytes} (x : UInt8) (b : Bytes) (h : r = x :: b) (hx : x ≠ 0) : scriptCode r = .ok r := by
  subst h
  simp [scriptCode, index, hx]

theorem multisig_last (m : Nat) (keys : List Bytes) : (multisigScript m keys).getLast? = some 0xae := by
  unfold multisigScript
  rw [List.getLast?_append]
  rfl

theorem segwit_bytes {H : Hashes} {t : RawTx} (u : Unsigned t) (redeem code : Bytes) (hcode : scriptCode redeem = .ok code)
    (hlt : code.length < 253) {k : Nat} {i : RawIn} (hi : t.ins[k]? = some i) {amount : UInt64} {ti : TxIn} {b : Bytes}
    (hti : index (ofRaw t).vins k = .ok ti) (hb : segwitBytesForSig H (ofRaw t) redeem ti amount = .ok b) :
    b ++ leBytes 4 1 = bip143Preimage (H.hash .doubleSha256) t i code amount.toNat := by
  have hk : k < t.ins.length := (List.getElem?_eq_some_iff.mp hi).1
  rw [index_ok (by simpa [ofRaw] using hk)] at hti
  have hte : ti = ⟨.empty, i.prev, leBytes 4 i.index, [], [], leBytes 4 i.sequence, []⟩ := by
    simp only [Res.ok.injEq] at hti
    rw [← hti]
    simp only [ofRaw, List.getElem_map]
    rw [(List.getElem?_eq_some_iff.mp hi).2]
  subst hte
  unfold segwitBytesForSig at hb
  rw [hcode, Res.bind_ok] at hb
  split at hb
  · simp at hb
  simp only [Res.ok.injEq] at hb
  rw [← hb]
  have e1 : prevoutsBytes (ofRaw t) = (t.ins.map RawIn.outpoint).flatten := by
    simp only [prevoutsBytes, ofRaw, List.map_map]; rfl
  have e2 : sequenceBytes (ofRaw t) = (t.ins.map (fun i => leBytes 4 i.sequence)).flatten := by
    simp only [sequenceBytes, ofRaw, List.map_map]; rfl
  have e3 : outputsBytes (ofRaw t) = (t.outs.map RawOut.ser).flatten := by
    simp only [outputsBytes, ofRaw, List.map_map]
    congr 1
    apply List.map_congr_left
    intro o ho
    simp only [Function.comp, RawOut.ser, varBytes, compactSize_small (u.outs o ho).2.2, List.append_assoc]
  rw [e1, e2, e3]
  simp only [bip143Preimage, RawIn.outpoint, varBytes, compactSize_small hlt, ofRaw, List.append_assoc]

end Btc

/-! The five kinds of inputs. `tx.ser` is the standard serialisation of the unsigned transaction (`C22`); `us` lists the outputs spent.
Missing in all of them: 253 or more inputs, outputs or script bytes. -/

/-- C29, P2PKH: the message signed for input `k` is the hash of the legacy preimage with the locking script in place. -/
theorem C29_p2pkh_partial (H : Hashes) (P : AddressPrefix) (tx : RawTx) (hu : Unsigned tx) (us : List TxUnlock) (segwitOn : Bool)
    (hs : List TxHash) (hc : createHashes H (Hex.encode tx.ser) us segwitOn P = .ok hs) (k : Nat) (u : TxUnlock)
    (hk : us[k]? = some u) (h : Bytes) (hl : h.length = 20) (hlock : Hex.decode u.lockScript = .ok (p2pkhScript h))
    (hred : u.redeemScript = []) :
    ∃ th, hs[k]? = some th ∧ th.hash = Hex.encode (H.hash .doubleSha256 (legacyPreimage tx k (p2pkhScript h))) := by
  obtain ⟨_, _, hget⟩ := createHashes_get hu hc
  obtain ⟨th, h1, h2⟩ := hget k u hk
  refine ⟨th, h1, ?_⟩
  unfold hashForSig at h2
  simp only [ofRaw_empty] at h2
  rw [hred, check_p2pkh hlock hl, Res.bind_ok] at h2
  obtain ⟨b, h3, h4⟩ := Res.bind_eq_ok.mp h2
  rw [newTxHash_hash h4]
  unfold bytesForSig at h3
  split at h3
  · simp at h3
  simp only at h3
  rw [legacy_bytes hu segwitOn k (p2pkhScript h) (by simp [p2pkhScript, hl]), Res.bind_ok] at h3
  simp only [Res.ok.injEq] at h3
  rw [← h3]; rfl

/-- C29, P2SH multisig without segwit: the redeem script is in place. -/
theorem C29_multisig_partial (H : Hashes) (P : AddressPrefix) (tx : RawTx) (hu : Unsigned tx) (us : List TxUnlock)
    (hs : List TxHash) (hc : createHashes H (Hex.encode tx.ser) us false P = .ok hs) (k : Nat) (u : TxUnlock)
    (hk : us[k]? = some u) (h r : Bytes) (hl : h.length = 20) (hlock : Hex.decode u.lockScript = .ok (p2shScript h))
    (hred : Hex.decode u.redeemScript = .ok r) (h37 : 37 ≤ r.length) (hlast : r.getLast? = some 0xae) (hr : r.length < 253) :
    ∃ th, hs[k]? = some th ∧ th.hash = Hex.encode (H.hash .doubleSha256 (legacyPreimage tx k r)) := by
  obtain ⟨_, _, hget⟩ := createHashes_get hu hc
  obtain ⟨th, h1, h2⟩ := hget k u hk
  refine ⟨th, h1, ?_⟩
  unfold hashForSig at h2
  simp only [ofRaw_empty] at h2
  rw [check_multi hlock hl hred h37 hlast, Res.bind_ok] at h2
  obtain ⟨b, h3, h4⟩ := Res.bind_eq_ok.mp h2
  rw [newTxHash_hash h4]
  unfold bytesForSig at h3
  split at h3
  · simp at h3
  simp only [Bool.false_eq_true, if_false] at h3
  rw [legacy_bytes hu false k r hr, Res.bind_ok] at h3
  simp only [Res.ok.injEq] at h3
  rw [← h3]; rfl

/-- C29, P2SH-P2WPKH: the BIP 143 preimage with the script code of the key hash. -/
theorem C29_p2sh_p2wpkh_partial (H : Hashes) (P : AddressPrefix) (tx : RawTx) (hu : Unsigned tx) (us : List TxUnlock) (segwitOn : Bool)
    (hs : List TxHash) (hc : createHashes H (Hex.encode tx.ser) us segwitOn P = .ok hs) (k : Nat) (u : TxUnlock)
    (hk : us[k]? = some u) (i : RawIn) (hi : tx.ins[k]? = some i) (h kh : Bytes) (hl : h.length = 20) (hkh : kh.length = 20)
    (hlock : Hex.decode u.lockScript = .ok (p2shScript h)) (hred : Hex.decode u.redeemScript = .ok (witnessV0Script kh)) :
    ∃ th, hs[k]? = some th ∧ th.hash = Hex.encode (H.hash .doubleSha256
      (bip143Preimage (H.hash .doubleSha256) tx i (p2pkhScript kh) u.amount.toNat)) := by
  obtain ⟨_, _, hget⟩ := createHashes_get hu hc
  obtain ⟨th, h1, h2⟩ := hget k u hk
  refine ⟨th, h1, ?_⟩
  unfold hashForSig at h2
  simp only [ofRaw_empty] at h2
  rw [check_p2wpkh hlock hl hred hkh, Res.bind_ok] at h2
  obtain ⟨b, h3, h4⟩ := Res.bind_eq_ok.mp h2
  rw [newTxHash_hash h4]
  unfold bytesForSig at h3
  split at h3
  · simp at h3
  simp only at h3
  obtain ⟨ti, h7, h3⟩ := Res.bind_eq_ok.mp h3
  obtain ⟨body, h8, h6⟩ := Res.bind_eq_ok.mp h3
  simp only [Res.ok.injEq] at h6
  rw [← h6, segwit_bytes hu _ _ (scriptCode_p2wpkh hkh) (by simp [p2pkhScript, hkh]) hi h7 h8]

/-- C29, P2WPKH. -/
theorem C29_p2wpkh_partial (H : Hashes) (P : AddressPrefix) (tx : RawTx) (hu : Unsigned tx) (us : List TxUnlock) (segwitOn : Bool)
    (hs : List TxHash) (hc : createHashes H (Hex.encode tx.ser) us segwitOn P = .ok hs) (k : Nat) (u : TxUnlock)
    (hk : us[k]? = some u) (i : RawIn) (hi : tx.ins[k]? = some i) (kh : Bytes) (hkh : kh.length = 20)
    (hlock : Hex.decode u.lockScript = .ok (witnessV0Script kh)) (hred : u.redeemScript = []) :
    ∃ th, hs[k]? = some th ∧ th.hash = Hex.encode (H.hash .doubleSha256
      (bip143Preimage (H.hash .doubleSha256) tx i (p2pkhScript kh) u.amount.toNat)) := by
  obtain ⟨_, _, hget⟩ := createHashes_get hu hc
  obtain ⟨th, h1, h2⟩ := hget k u hk
  refine ⟨th, h1, ?_⟩
  unfold hashForSig at h2
  simp only [ofRaw_empty] at h2
  rw [hred, check_bech32 hlock hkh, Res.bind_ok] at h2
  obtain ⟨b, h3, h4⟩ := Res.bind_eq_ok.mp h2
  rw [newTxHash_hash h4]
  unfold bytesForSig at h3
  split at h3
  · simp at h3
  simp only at h3
  obtain ⟨ti, h7, h3⟩ := Res.bind_eq_ok.mp h3
  obtain ⟨body, h8, h6⟩ := Res.bind_eq_ok.mp h3
  simp only [Res.ok.injEq] at h6
  rw [← h6, segwit_bytes hu _ _ (scriptCode_p2wpkh hkh) (by simp [p2pkhScript, hkh]) hi h7 h8]

/-- C29, P2SH-P2WSH multisig. -/
theorem C29_p2wsh_partial (H : Hashes) (P : AddressPrefix) (tx : RawTx) (hu : Unsigned tx) (us : List TxUnlock)
    (hs : List TxHash) (hc : createHashes H (Hex.encode tx.ser) us true P = .ok hs) (k : Nat) (u : TxUnlock)
    (hk : us[k]? = some u) (i : RawIn) (hi : tx.ins[k]? = some i) (h : Bytes) (m : Nat) (keys : List Bytes)
    (hm : m ≤ 16) (hl : h.length = 20)
    (hlock : Hex.decode u.lockScript = .ok (p2shScript h)) (hred : Hex.decode u.redeemScript = .ok (multisigScript m keys))
    (h37 : 37 ≤ (multisigScript m keys).length) (hr : (multisigScript m keys).length < 253) :
    ∃ th, hs[k]? = some th ∧ th.hash = Hex.encode (H.hash .doubleSha256
      (bip143Preimage (H.hash .doubleSha256) tx i (multisigScript m keys) u.amount.toNat)) := by
  obtain ⟨_, _, hget⟩ := createHashes_get hu hc
  obtain ⟨th, h1, h2⟩ := hget k u hk
  refine ⟨th, h1, ?_⟩
  unfold hashForSig at h2
  simp only [ofRaw_empty] at h2
  rw [check_multi hlock hl hred h37 (multisig_last m keys), Res.bind_ok] at h2
  obtain ⟨b, h3, h4⟩ := Res.bind_eq_ok.mp h2
  rw [newTxHash_hash h4]
  unfold bytesForSig at h3
  split at h3
  · simp at h3
  simp only [if_true] at h3
  obtain ⟨ti, h7, h3⟩ := Res.bind_eq_ok.mp h3
  obtain ⟨body, h8, h6⟩ := Res.bind_eq_ok.mp h3
  simp only [Res.ok.injEq] at h6
  have hcode : scriptCode (multisigScript m keys) = .ok (multisigScript m keys) :=
    scriptCode_other (UInt8.ofNat (0x50 + m)) _ rfl (u8_ofNat_ne0 (by omega) (by omega))
  rw [← h6, segwit_bytes hu _ _ hcode hr hi h7 h8]

namespace Btc

theorem flatten_length_lt {α : Type} (f g : α → Bytes) : ∀ (l : List α), (∀ x ∈ l, (f x).length ≤ (g x).length) →
    (∃ x ∈ l, (f x).length < (g x).length) → ((l.map f).flatten).length < ((l.map g).flatten).length
  | [], _, h => by simp at h
  | a :: l, h1, h2 => by
    have ha := h1 a (by simp)
    have hl : ((l.map f).flatten).length ≤ ((l.map g).flatten).length := by
      clear h2
      induction l with
      | nil => simp
      | cons b l ih =>
        simp only [List.map_cons, List.flatten_cons, List.length_append]
        have := h1 b (by simp)
        have := ih (by
          intro x hx
          rcases List.mem_cons.mp hx with rfl | hx
          · exact ha
          · exact h1 x (by simp [hx]))
        omega
    simp only [List.map_cons, List.flatten_cons, List.length_append]
    obtain ⟨x, hx, hlt⟩ := h2
    rcases List.mem_cons.mp hx with rfl | hx
    · omega
    · have := flatten_length_lt f g l (fun y hy => h1 y (by simp [hy])) ⟨x, hx, hlt⟩
      omega

theorem encodeOuts_ofRaw {tx : RawTx} (hu : Unsigned tx) :
    concatAll encodeOut (ofRaw tx).vouts = .ok ((tx.outs.map RawOut.ser).flatten) := by
  rw [concatAll_ok (g := fun o => RawOut.ser ⟨leNat o.amount, o.lockScript⟩)]
  · have e : (ofRaw tx).vouts.map (fun o => RawOut.ser ⟨leNat o.amount, o.lockScript⟩) = tx.outs.map RawOut.ser := by
      simp only [ofRaw, List.map_map]
      apply List.map_congr_left
      intro o ho
      simp only [Function.comp]
      rw [leNat_leBytes_of_lt (by simpa using (hu.outs o ho).1)]
    rw [e]
  · intro o ho
    simp only [ofRaw, List.mem_map] at ho
    obtain ⟨r, hr, rfl⟩ := ho
    obtain ⟨k1, k2, k3⟩ := hu.outs r hr
    unfold encodeOut
    rw [if_neg]
    · simp only [RawOut.ser, varBytes, compactSize_small k3, List.append_assoc]
      rw [leNat_leBytes_of_lt (by simpa using k1)]
    · rintro (h | h)
      · simp at h
      · simp only at h; rw [h] at k2; simp at k2

end Btc

/-- C29 is false for redeem scripts of 253 bytes and more (eight or more keys): `getBytesForSig` writes the length in one byte, and the
bytes hashed are not the preimage, whatever the transaction. -/
theorem C29_long_redeem_violated (H : Hashes) (tx : RawTx) (hu : Unsigned tx) (k : Nat) (hk : k < tx.ins.length) (lock r b : Bytes)
    (amount : UInt64) (hr : 253 ≤ r.length)
    (hb : bytesForSig H false (ofRaw tx) lock r .multi 1 k amount = .ok b) : b ≠ legacyPreimage tx k r := by
  unfold bytesForSig at hb
  rw [if_neg (by simp)] at hb
  simp only [Bool.false_eq_true, if_false] at hb
  obtain ⟨body, h1, h2⟩ := Res.bind_eq_ok.mp hb
  simp only [Res.ok.injEq] at h2
  rw [← h2]
  unfold legacyPreimage
  intro hc
  have hc := List.append_cancel_right hc
  have hlen := congrArg List.length hc
  rw [modify_ofRaw] at h1
  generalize hL : tx.ins.mapIdx (fun j i => ({ i with script := if j = k then r else [] } : RawIn)) = L at hlen
  have hV : (ofRaw tx).vins.mapIdx (fun j i => { i with scriptPub := if j = k then r else [] }) =
      L.map (fun i => (⟨.empty, i.prev, leBytes 4 i.index, i.script, [], leBytes 4 i.sequence, []⟩ : TxIn)) := by
    rw [← hL]
    apply List.ext_getElem?
    intro j
    simp only [ofRaw, List.getElem?_mapIdx, List.getElem?_map, Option.map_map]
    rfl
  rw [hV] at h1
  have hLl : L.length = tx.ins.length := by rw [← hL]; simp
  have hmem : ∀ i ∈ L, i.prev.length = 32 := by
    intro i hi
    rw [← hL, List.mem_iff_getElem?] at hi
    obtain ⟨j, hj⟩ := hi
    simp only [List.getElem?_mapIdx, Option.map_eq_some_iff] at hj
    obtain ⟨i0, hj, rfl⟩ := hj
    exact (hu.ins i0 (List.mem_of_getElem? hj)).1
  have hex : ∃ i ∈ L, i.script = r := by
    refine ⟨{ tx.ins[k] with script := r }, ?_, rfl⟩
    rw [← hL, List.mem_iff_getElem?]
    exact ⟨k, by simp [hk]⟩
  have e1 : ∀ i ∈ L, encodeIn false ⟨.empty, i.prev, leBytes 4 i.index, i.script, [], leBytes 4 i.sequence, []⟩ =
      .ok (i.prev ++ leBytes 4 i.index ++ (UInt8.ofNat i.script.length :: i.script) ++ leBytes 4 i.sequence) := by
    intro i hi
    unfold encodeIn
    rw [if_neg (by simp [hmem i hi])]
    rfl
  have e2 : concatAll (encodeIn false) (L.map (fun i => (⟨.empty, i.prev, leBytes 4 i.index, i.script, [], leBytes 4 i.sequence, []⟩ : TxIn))) =
      .ok ((L.map (fun i => i.prev ++ leBytes 4 i.index ++ (UInt8.ofNat i.script.length :: i.script) ++ leBytes 4 i.sequence)).flatten) := by
    clear h1 hlen hex hLl hV hL
    induction L with
    | nil => rfl
    | cons a L ih =>
      rw [List.map_cons, concatAll, e1 a (by simp), Res.bind_ok, ih (fun i hi => hmem i (by simp [hi])) (fun i hi => e1 i (by simp [hi]))]
      rfl
  have e3 := encodeOuts_ofRaw hu
  unfold encodeTx at h1
  simp only at h1
  split at h1
  · simp at h1
  rw [e2, Res.bind_ok, e3, Res.bind_ok] at h1
  simp only [ofRaw, Bool.false_eq_true, if_false, Res.bind_ok, Res.ok.injEq, List.append_nil, List.length_map] at h1
  rw [← h1] at hlen
  have hlt := flatten_length_lt (fun i : RawIn => i.prev ++ leBytes 4 i.index ++ (UInt8.ofNat i.script.length :: i.script) ++
    leBytes 4 i.sequence) RawIn.ser L (by
      intro i hi
      have := (compactSize_length i.script.length).1
      simp [RawIn.ser, RawIn.outpoint, varBytes]
      omega) (by
      obtain ⟨i, hi, he⟩ := hex
      refine ⟨i, hi, ?_⟩
      have := (compactSize_length i.script.length).2 (by rw [he]; exact hr)
      simp [RawIn.ser, RawIn.outpoint, varBytes]
      omega)
  have a1 := (compactSize_length L.length).1
  have a2 := (compactSize_length tx.outs.length).1
  simp only [RawTx.ser, List.length_append, List.length_cons, List.length_nil, leBytes_length] at hlen
  omega

end Verif
