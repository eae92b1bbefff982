import Verif.Props.BtcHash
import Verif.Props.BtcSig
import Verif.Props.BtcMulti

/-! Properties C61, C62, C63: inserting and verifying signatures (package btcTransaction). -/

namespace Verif
open Verif.Spec Verif.Btc

namespace Btc

/-- Fill in signature and public key of an input with a single key, as a caller does after signing. -/
def setSig (h : TxHash) (sig pub : Bytes) : TxHash :=
  { h with normal := h.normal.map (fun n => { n with sigPub := ⟨some sig, some pub⟩ }) }

/-- The output spent is locked by P2PKH. -/
def IsP2pkh (u : TxUnlock) : Prop :=
  u.redeemScript = [] ∧ ∃ h : Bytes, h.length = 20 ∧ Hex.decode u.lockScript = .ok (p2pkhScript h)

theorem check_isP2pkh {u : TxUnlock} (h : IsP2pkh u) :
    ∃ s, checkScriptType u.lockScript u.redeemScript = .ok (s, [], .p2pkh) := by
  obtain ⟨h1, k, hk, hd⟩ := h
  exact ⟨_, by rw [h1]; exact check_p2pkh hd hk⟩

theorem isSegwit_p2pkh {seg : Bool} {us : List TxUnlock} (hne : us ≠ []) (h : ∀ u ∈ us, IsP2pkh u) :
    isSegwit seg us = .ok false := by
  have go : ∀ l : List TxUnlock, (∀ u ∈ l, IsP2pkh u) → isSegwit.go seg l = .ok false := by
    intro l
    induction l with
    | nil => intro _; rfl
    | cons u l ih =>
      intro h
      obtain ⟨s, hs⟩ := check_isP2pkh (h u (by simp))
      rw [isSegwit.go, hs, Res.bind_ok]
      simp only
      rw [if_neg (by simp)]
      exact ih (fun v hv => h v (by simp [hv]))
  cases us with
  | nil => exact absurd rfl hne
  | cons u us => exact go _ h

theorem insertLoop_p2pkh {H : Hashes} {seg sw : Bool} {hashes : List TxHash} {f : Nat → Bytes} : ∀ (ins : List TxIn) (us : List TxUnlock)
    (idx : Nat), us.length = ins.length → (∀ u ∈ us, IsP2pkh u) →
    (∀ j, j < ins.length → ∃ h, hashes[idx + j]? = some h ∧ encodeToScript h [] seg = .ok (f (idx + j))) →
    insertLoop H seg sw hashes idx ins us =
      .ok (some (ins.mapIdx (fun j i => { i with inType := .p2pkh, scriptPub := [], scriptSig := f (idx + j) })))
  | [], us, idx, _, _, _ => by simp [insertLoop]
  | i :: ins, [], idx, hl, _, _ => by simp at hl
  | i :: ins, u :: us, idx, hl, hu, hh => by
    obtain ⟨s, hs⟩ := check_isP2pkh (hu u (by simp))
    obtain ⟨h, h1, h2⟩ := hh 0 (by simp)
    simp only [Nat.add_zero] at h1 h2
    obtain ⟨hlt, he⟩ := List.getElem?_eq_some_iff.mp h1
    have ih := insertLoop_p2pkh (H := H) (sw := sw) ins us (idx + 1) (by simpa using hl) (fun v hv => hu v (by simp [hv])) (by
      intro j hj
      obtain ⟨h', k1, k2⟩ := hh (j + 1) (by simpa using hj)
      exact ⟨h', by rw [show idx + 1 + j = idx + (j + 1) by omega]; exact k1, by
        rw [show idx + 1 + j = idx + (j + 1) by omega]; exact k2⟩)
    rw [insertLoop, hs]
    simp only
    rw [index_ok hlt, he, Res.bind_ok, h2, Res.bind_ok]
    simp only [Res.bind_ok, ih, Option.map_some, List.mapIdx_cons, Nat.add_zero]
    congr 3
    apply List.ext_getElem?
    intro j
    simp only [List.getElem?_mapIdx, show idx + 1 + j = idx + (j + 1) by omega]

theorem attachAll_p2pkh {sig pub : Nat → Bytes} {st : UInt8} {f : Nat → Bytes} : ∀ (ins : List TxIn) (hs : List TxHash) (idx : Nat),
    hs.length = ins.length →
    (∀ j, j < ins.length → decodeSigPub (f (idx + j)) = .ok (sig (idx + j), pub (idx + j), st)) →
    (∀ h ∈ hs, ∃ n, h.normal = some n ∧ n.sigType = st) →
    attachAll (ins.mapIdx (fun j i => { i with inType := .p2pkh, scriptPub := [], scriptSig := f (idx + j) })) hs =
      .ok (some (hs.mapIdx (fun j h => setSig h (sig (idx + j)) (pub (idx + j)))))
  | [], [], idx, _, _, _ => by simp [attachAll]
  | [], h :: hs, idx, hl, _, _ => by simp at hl
  | i :: ins, [], idx, hl, _, _ => by simp at hl
  | i :: ins, h :: hs, idx, hl, hd, hn => by
    obtain ⟨n, e1, e2⟩ := hn h (by simp)
    have hd0 := hd 0 (by simp)
    simp only [Nat.add_zero] at hd0
    have ih := attachAll_p2pkh (f := f) (sig := sig) (pub := pub) (st := st) ins hs (idx + 1) (by simpa using hl) (by
      intro j hj
      have := hd (j + 1) (by simpa using hj)
      rw [show idx + 1 + j = idx + (j + 1) by omega]; exact this) (fun h hh => hn h (by simp [hh]))
    simp only [show ∀ j, idx + 1 + j = idx + (j + 1) from fun j => by omega] at ih
    rw [List.mapIdx_cons, attachAll]
    simp only [attach, Nat.add_zero, hd0, e1, Res.bind_ok, ih]
    rw [List.mapIdx_cons]
    congr 3
    unfold setSig
    rw [e1]
    subst e2
    rfl

theorem verifyAll_true {C : Curve} : ∀ (hs : List TxHash), (∀ h ∈ hs, verifyOne C h = .ok true) → verifyAll C hs = .ok true
  | [], _ => rfl
  | h :: hs, hall => by
    rw [verifyAll, hall h (by simp), Res.bind_ok]
    simp only [if_true]
    exact verifyAll_true hs (fun x hx => hall x (by simp [hx]))

/-- For P2PKH, `hashForSig` returns one required key and the type asked for. -/
theorem hashForSig_p2pkh {H : Hashes} {seg : Bool} {P : AddressPrefix} {t : Tx} {k : Nat} {u : TxUnlock} {th : TxHash}
    (hu : IsP2pkh u) (h : hashForSig H seg P t k u = .ok th) :
    th.nRequired = 0 ∧ th.multi = [] ∧ ∃ a, th.normal = some ⟨a, u.sigType, ⟨none, none⟩⟩ := by
  obtain ⟨s, hs⟩ := check_isP2pkh hu
  unfold hashForSig at h
  simp only at h
  rw [hs, Res.bind_ok] at h
  obtain ⟨b, h3, h4⟩ := Res.bind_eq_ok.mp h
  unfold newTxHash at h4
  simp only at h4
  obtain ⟨x, _, h4⟩ := Res.bind_eq_ok.mp h4
  obtain ⟨y, _, h4⟩ := Res.bind_eq_ok.mp h4
  simp only [Res.ok.injEq] at h4
  rw [← h4]
  exact ⟨rfl, rfl, _, rfl⟩

theorem script_length {sig pub : Bytes} {ht : UInt8} (hl : sig.length = 64) (hp : pub.length = 33)
    (hr : beNat (sig.take 32) ≠ 0) (hs : beNat (sig.drop 32) ≠ 0) {script : Bytes} (h : encodeSigPub sig pub ht = .ok script) :
    44 ≤ script.length ∧ script.length ≤ 0x6c := by
  obtain ⟨R, S, dR, dS, lR, lS, he⟩ := C24_encode_canonical sig ht hl hr hs
  unfold encodeSigPub at h
  rw [he, Res.bind_ok] at h
  simp only [Res.ok.injEq] at h
  rw [← h]
  have := Btc.IsDerInt.length_pos dR
  have := Btc.IsDerInt.length_pos dS
  simp [push, derSig, hp]
  omega

end Btc

/-- C63, restricted to P2PKH inputs: a transaction taken through the API verifies. For every unsigned transaction, if the messages `hs` are obtained
from `CreateRawTransactionHashForSig`, a signature and key that verify for each message are filled in, then
`InsertSignatureIntoEmptyTransaction` succeeds and `VerifyRawTransaction` accepts its result. Signatures must be in the range of
`C24_roundtrip_partial`. Missing: other kinds of inputs. -/
theorem C63_sign_verify_partial (H : Hashes) (C : Curve) (P : AddressPrefix) (tx : RawTx) (hu : Unsigned tx) (us : List TxUnlock)
    (segwitOn : Bool) (hp : ∀ u ∈ us, IsP2pkh u) (h1 : ∀ u ∈ us, u.sigType = 1)
    (hs : List TxHash) (hc : createHashes H (Hex.encode tx.ser) us segwitOn P = .ok hs)
    (sig pub : Nat → Bytes) (msg : Nat → Bytes) (hmsg : ∀ k th, hs[k]? = some th → Hex.decode th.hash = .ok (msg k))
    (hsig : ∀ k, (sig k).length = 64 ∧ beNat ((sig k).take 32) ≠ 0 ∧ beNat ((sig k).drop 32) ≠ 0 ∧
      (beNat ((sig k).take 32) < 2 ^ 247 ∨ 2 ^ 231 ≤ beNat ((sig k).drop 32)))
    (hpub : ∀ k, (pub k).length = 33 ∧ (C.decompress (pub k)).length ≠ 0)
    (hv : ∀ k, k < hs.length → C.verify ((C.decompress (pub k)).drop 1) (msg k) (sig k) = true) :
    ∃ signed, insertSignatures H (Hex.encode tx.ser) (hs.mapIdx (fun k h => setSig h (sig k) (pub k))) us segwitOn = .ok signed ∧
      signed ≠ [] ∧ verifyRaw H C signed us segwitOn P = .ok true := by
  obtain ⟨hl1, hl2, hget⟩ := createHashes_get hu hc
  have hpos := hu.insPos
  have hne : us ≠ [] := by intro h; rw [h] at hl1; simp at hl1; omega
  have hhs : ∀ h ∈ hs, h.nRequired = 0 ∧ ∃ a, h.normal = some ⟨a, 1, ⟨none, none⟩⟩ := by
    intro h hh
    obtain ⟨k, hk⟩ := List.mem_iff_getElem?.mp hh
    have hkl := (List.getElem?_eq_some_iff.mp hk).1
    have huk : us[k]? = some (us[k]'(by omega)) := List.getElem?_eq_getElem _
    obtain ⟨th, e1, e2⟩ := hget k _ huk
    rw [hk] at e1
    simp only [Option.some.injEq] at e1
    subst e1
    obtain ⟨g1, _, a, g3⟩ := hashForSig_p2pkh (hp _ (List.getElem_mem _)) e2
    rw [h1 _ (List.getElem_mem _)] at g3
    exact ⟨g1, a, g3⟩
  -- the scripts
  have hscript : ∀ k, ∃ s, encodeSigPub (sig k) (pub k) 1 = .ok s ∧ decodeSigPub s = .ok (sig k, pub k, 1) := by
    intro k
    obtain ⟨a, b, c, d⟩ := hsig k
    exact C24_roundtrip_partial (sig k) (pub k) 1 a (hpub k).1 b c d
  choose f hf1 hf2 using hscript
  have hflen : ∀ k, 44 ≤ (f k).length ∧ (f k).length ≤ 0x6c := by
    intro k
    obtain ⟨a, b, c, d⟩ := hsig k
    exact script_length a (hpub k).1 b c (hf1 k)
  have hvl : (ofRaw tx).vins.length = tx.ins.length := by simp [ofRaw]
  have hins := insertLoop_p2pkh (H := H) (seg := segwitOn) (sw := false) (hashes := hs.mapIdx (fun k h => setSig h (sig k) (pub k))) (f := f)
    (ofRaw tx).vins us 0 (by omega) hp (by
      intro j hj
      have hj' : j < hs.length := by omega
      obtain ⟨g1, a, g2⟩ := hhs hs[j] (List.getElem_mem _)
      refine ⟨setSig hs[j] (sig j) (pub j), by simp [hj'], ?_⟩
      unfold encodeToScript setSig
      simp only [g1, if_true, g2, Option.map_some, Option.getD_some]
      rw [if_neg (by simp [(hsig j).1]), if_neg (by simp [(hpub j).1])]
      simpa using hf1 j)
  simp only [Nat.zero_add] at hins
  let t' : Tx := { ofRaw tx with vins := (ofRaw tx).vins.mapIdx (fun j i => { i with inType := .p2pkh, scriptPub := [], scriptSig := f j }) }
  have hgood : GoodTx segwitOn t' := by
    have g := good_ofRaw hu segwitOn
    refine ⟨g.version, g.lockTime, by simpa [t'] using g.insPos, by simpa [t'] using g.insLe, g.outsPos, g.outsLe, ?_, g.outs⟩
    intro i hi
    obtain ⟨k, hk⟩ := List.mem_iff_getElem?.mp hi
    simp only [t', List.getElem?_mapIdx, Option.map_eq_some_iff] at hk
    obtain ⟨i0, hk, rfl⟩ := hk
    have g0 := g.ins i0 (List.mem_of_getElem? hk)
    have hm : i0.scriptMulti = [] := by
      simp only [ofRaw, List.getElem?_map, Option.map_eq_some_iff] at hk
      obtain ⟨r, _, rfl⟩ := hk
      rfl
    refine ⟨g0.txid, g0.vout, g0.sequence, Or.inr (Or.inl ⟨rfl, rfl, hm, ?_, ?_, ?_, ?_⟩)⟩ <;> have := hflen k <;> simp only <;> omega
  obtain ⟨b, hb, hdec⟩ := decodeTx_good hgood (hexSpare (0 :: []))
  have hdec : ∀ spare, decodeTx spare segwitOn b = .ok t' := by
    intro spare
    obtain ⟨b', hb', hd'⟩ := decodeTx_good hgood spare
    rw [hb] at hb'
    simp only [Res.ok.injEq] at hb'
    rw [hb']; exact hd'
  refine ⟨Hex.encode b, ?_, ?_, ?_⟩
  · unfold insertSignatures
    rw [Hex.decode_encode, Res.bind_ok, decode_unsigned hu, Res.bind_ok, if_neg]
    · rw [isSegwit_p2pkh hne hp]
      simp only [Bool.false_eq_true, false_and, if_false]
      rw [hins, Res.bind_ok]
      show (do let r ← encodeTx segwitOn t'; Res.ok (Hex.encode r)) = _
      rw [hb]
      rfl
    · rintro (h | h | h | h | h)
      · exact hne h
      · have := congrArg List.length h
        simp at this
        rw [this] at hl2; simp at hl2; omega
      · have := congrArg List.length h
        simp [ofRaw] at this
        rw [this] at hpos; simp at hpos
      · have := congrArg List.length h
        simp [ofRaw] at this
        have h3 := hu.outsPos
        rw [this] at h3; simp at h3
      · omega
  · intro h
    have h' := congrArg List.length h
    rw [Hex.encode_length] at h'
    have hb0 : b = [] := by
      cases b with
      | nil => rfl
      | cons => simp at h'
    have := hdec 100
    rw [hb0] at this
    simp [decodeTx, takeN] at this
  · unfold verifyRaw
    rw [Hex.decode_encode]
    simp only [hdec]
    rw [if_neg (by simp [t', ofRaw]; omega)]
    have hclone : cloneEmpty t' = ofRaw tx := by
      have e : (t'.vins.map setEmpty) = (ofRaw tx).vins := by
        apply List.ext_getElem?
        intro k
        simp only [t', List.getElem?_map, List.getElem?_mapIdx, ofRaw, Option.map_map]
        cases tx.ins[k]? <;> rfl
      unfold cloneEmpty
      rw [e]
      rfl
    have hhash : hashesForSig H segwitOn P (ofRaw tx) us = .ok hs := by
      unfold createHashes at hc
      rw [Hex.decode_encode, Res.bind_ok, decode_unsigned hu, Res.bind_ok] at hc
      exact hc
    rw [hclone, hhash]
    simp only
    have hatt := attachAll_p2pkh (sig := sig) (pub := pub) (st := 1) (f := f) (ofRaw tx).vins hs 0 (by omega) (by
      intro j _; simpa using hf2 j) (by
      intro h hh
      obtain ⟨_, a, g⟩ := hhs h hh
      exact ⟨_, g, rfl⟩)
    simp only [Nat.zero_add] at hatt
    have hatt' : attachAll t'.vins hs = .ok (some (hs.mapIdx (fun j h => setSig h (sig j) (pub j)))) := hatt
    rw [hatt', Res.bind_ok]
    simp only
    apply verifyAll_true
    intro h hh
    obtain ⟨k, hk⟩ := List.mem_iff_getElem?.mp hh
    simp only [List.getElem?_mapIdx, Option.map_eq_some_iff] at hk
    obtain ⟨h0, hk, rfl⟩ := hk
    have hkl := (List.getElem?_eq_some_iff.mp hk).1
    obtain ⟨g1, a, g2⟩ := hhs h0 (List.mem_of_getElem? hk)
    unfold verifyOne setSig
    simp only [g1, if_true, g2, Option.map_some, hmsg k h0 hk]
    unfold pubPoint
    simp only [Option.getD_some]
    have := (hpub k).2
    rw [slice_ok (by omega) (by omega), List.take_length, Res.bind_ok, hv k hkl]

/-! ### Concrete cases -/

namespace Btc

/-- One input, one output. -/
def demoTx : RawTx :=
  { version := 2
    ins := [⟨List.replicate 32 9, 0, [], 0xffffffff⟩]
    outs := [⟨1000, p2pkhScript (List.replicate 20 5)⟩]
    lockTime := 0 }

theorem demoTx_unsigned : Unsigned demoTx := by
  refine ⟨rfl, by decide, by decide, by decide, by decide, by decide, ?_, ?_⟩
  · intro i hi
    simp only [demoTx, List.mem_cons, List.not_mem_nil, or_false] at hi
    subst hi
    exact ⟨rfl, by decide, rfl, by decide⟩
  · intro o ho
    simp only [demoTx, List.mem_cons, List.not_mem_nil, or_false] at ho
    subst ho
    exact ⟨by decide, by decide, by decide⟩

/-- A "curve" whose points are the compressed keys and which accepts any signature under one particular key and nothing else. -/
def oneKeyCurve (key : Bytes) : Curve where
  decompress k := 0x04 :: k
  verify p _ _ := p == key

def key0 : Bytes := 2 :: List.replicate 32 10
def key1 : Bytes := 2 :: List.replicate 32 11
def key2 : Bytes := 2 :: List.replicate 32 12
def key3 : Bytes := 2 :: List.replicate 32 13

/-- A signature with r = s = 0x0101...01 and its DER push. -/
def sig11 : Bytes := List.replicate 64 1
def sigPush11 : Bytes := push (derSig (List.replicate 32 1) (List.replicate 32 1) ++ [1])

/-- `demoTx` with an unlocking script. -/
def demoSigned (script : Bytes) : Bytes := RawTx.ser { demoTx with ins := [⟨List.replicate 32 9, 0, script, 0xffffffff⟩] }

def p2pkhUnlock (h : Bytes) : TxUnlock := ⟨Hex.encode (p2pkhScript h), [], 0, 1⟩
def multiUnlock (m : Nat) (keys : List Bytes) : TxUnlock :=
  ⟨Hex.encode (p2shScript (List.replicate 20 5)), Hex.encode (multisigScript m keys), 7, 1⟩
def wpkhUnlock : TxUnlock := ⟨Hex.encode (witnessV0Script (List.replicate 20 5)), [], 7, 1⟩
def nestedUnlock : TxUnlock := ⟨Hex.encode (p2shScript (List.replicate 20 5)), Hex.encode (witnessV0Script (List.replicate 20 6)), 7, 1⟩

theorem p2pkhUnlock_is {h : Bytes} (hl : h.length = 20) : IsP2pkh (p2pkhUnlock h) :=
  ⟨rfl, h, hl, Hex.decode_encode _⟩

-- the hypotheses of the five theorems on C29 can be met
example : ∃ hs, createHashes toyHashes (Hex.encode demoTx.ser) [p2pkhUnlock (List.replicate 20 5)] true btcMainnet = .ok hs :=
  ⟨_, rfl⟩
example : (createHashes toyHashes (Hex.encode demoTx.ser) [multiUnlock 2 [key0, key1]] false btcMainnet).isOk = true := by decide +kernel
example : (createHashes toyHashes (Hex.encode demoTx.ser) [multiUnlock 2 [key0, key1]] true btcMainnet).isOk = true := by decide +kernel
example : (createHashes toyHashes (Hex.encode demoTx.ser) [wpkhUnlock] true btcMainnet).isOk = true := by decide +kernel
example : (createHashes toyHashes (Hex.encode demoTx.ser) [nestedUnlock] true btcMainnet).isOk = true := by decide +kernel
example : (bytesForSig toyHashes false (ofRaw demoTx) [] (List.replicate 253 1) .multi 1 0 7).isOk = true := by decide +kernel

end Btc

-- the hypotheses of `C63_sign_verify_partial` can be met
example : ∃ signed, insertSignatures toyHashes (Hex.encode demoTx.ser)
    [⟨Hex.encode (toyHashes.hash .doubleSha256 (legacyPreimage demoTx 0 (p2pkhScript (List.replicate 20 5)))), 0,
      some ⟨asc "1T34cCjQuZXz6SU9jVPoQ4n9mmp3YhATk", 1, ⟨some sig11, some key0⟩⟩, []⟩]
    [p2pkhUnlock (List.replicate 20 5)] true = .ok signed ∧ signed = Hex.encode (demoSigned (sigPush11 ++ push key0)) :=
  ⟨_, rfl, by decide +kernel⟩

/-- C28 is false of the API: one signature by one of two keys, written twice, satisfies a 2-of-2 policy. The curve accepts signatures under
`key1` only. -/
theorem C28_api_violated :
    verifyRaw toyHashes (oneKeyCurve key1)
      (Hex.encode (demoSigned ([0x00] ++ sigPush11 ++ sigPush11 ++ push (multisigScript 2 [key0, key1]))))
      [multiUnlock 2 [key0, key1]] false btcMainnet = .ok true := by
  decide +kernel

/-- C61 is false (1): a P2PKH output can be spent with a key that does not hash to the hash in the locking script. -/
theorem C61_wrong_key_violated :
    verifyRaw toyHashes (oneKeyCurve key3) (Hex.encode (demoSigned (sigPush11 ++ push key3)))
      [p2pkhUnlock (toyHashes.hash .hash160 key0)] true btcMainnet = .ok true ∧
    toyHashes.hash .hash160 key3 ≠ toyHashes.hash .hash160 key0 := by
  decide +kernel

/-- C61 is false (2): a multisig output can be spent with a redeem script (and keys) different from the one in the unlock data. -/
theorem C61_wrong_redeem_violated :
    verifyRaw toyHashes (oneKeyCurve key3)
      (Hex.encode (demoSigned ([0x00] ++ sigPush11 ++ sigPush11 ++ push (multisigScript 2 [key2, key3]))))
      [multiUnlock 2 [key0, key1]] false btcMainnet = .ok true := by
  decide +kernel

namespace Btc

theorem verifyAll_inv {C : Curve} : ∀ (hs : List TxHash), verifyAll C hs = .ok true → ∀ h ∈ hs, verifyOne C h = .ok true
  | [], _ => by simp
  | h :: hs, hv => by
    rw [verifyAll] at hv
    obtain ⟨ok, h1, h2⟩ := Res.bind_eq_ok.mp hv
    cases ok with
    | false => simp at h2
    | true =>
      intro x hx
      rcases List.mem_cons.mp hx with rfl | hx
      · exact h1
      · exact verifyAll_inv hs (by simpa using h2) x hx

theorem attachAll_inv : ∀ (ins : List TxIn) (hs : List TxHash) {hs' : List TxHash}, attachAll ins hs = .ok (some hs') →
    ∀ (k : Nat) (i : TxIn), ins[k]? = some i → ∃ h h', hs[k]? = some h ∧ hs'[k]? = some h' ∧ attach i h = .ok (some h')
  | [], _, _, _ => by simp
  | _ :: _, [], _, h => by simp [attachAll] at h
  | i :: is, h :: hs, hs', ha => by
    rw [attachAll] at ha
    obtain ⟨o, h1, h2⟩ := Res.bind_eq_ok.mp ha
    cases o with
    | none => simp at h2
    | some h' =>
      simp only at h2
      obtain ⟨o2, h3, h4⟩ := Res.bind_eq_ok.mp h2
      cases o2 with
      | none => simp at h4
      | some rest =>
        simp only [Res.ok.injEq, Option.some.injEq] at h4
        subst h4
        intro k x hk
        cases k with
        | zero => simp at hk; subst hk; exact ⟨h, h', by simp, by simp, h1⟩
        | succ k => simpa using attachAll_inv is hs h3 k x (by simpa using hk)

end Btc

/-- C61, restricted: if `VerifyRawTransaction` accepts, the text is a transaction with as many inputs as unlock data, and every input with a
single key carries a public key under which its signature verifies for the message of that input (the message of
C29). Missing: the key is not compared with the locking script. -/
theorem C61_signature_partial (H : Hashes) (C : Curve) (text : Bytes) (us : List TxUnlock) (segwitOn : Bool) (P : AddressPrefix)
    (hv : verifyRaw H C text us segwitOn P = .ok true) :
    ∃ b t hs, Hex.decode text = .ok b ∧ decodeTx (hexSpare b) segwitOn b = .ok t ∧ t.vins.length = us.length ∧
      hashesForSig H segwitOn P (cloneEmpty t) us = .ok hs ∧
      ∀ (k : Nat) (i : TxIn), t.vins[k]? = some i → ∃ h : TxHash, hs[k]? = some h ∧
        ∀ msg, Hex.decode h.hash = .ok msg → h.nRequired = 0 → i.inType = .p2pkh ∨ i.inType = .p2wpkh ∨ i.inType = .bech32 →
          ∃ sig pub st, decodeSigPub i.scriptSig = .ok (sig, pub, st) ∧
            C.verify ((C.decompress pub).drop 1) msg sig = true := by
  unfold verifyRaw at hv
  cases hd : Hex.decode text with
  | err => simp [hd] at hv
  | panic => simp [hd] at hv
  | ok b =>
    simp only [hd] at hv
    cases ht : decodeTx (hexSpare b) segwitOn b with
    | err => simp [ht] at hv
    | panic => simp [ht] at hv
    | ok t =>
      simp only [ht] at hv
      by_cases hl : t.vins.length = us.length
      swap
      · rw [if_pos hl] at hv; simp at hv
      rw [if_neg (by simpa using hl)] at hv
      cases hh : hashesForSig H segwitOn P (cloneEmpty t) us with
      | err => simp [hh] at hv
      | panic => simp [hh] at hv
      | ok hs =>
        simp only [hh] at hv
        obtain ⟨o, h1, h2⟩ := Res.bind_eq_ok.mp hv
        cases o with
        | none => simp at h2
        | some hs' =>
          simp only at h2
          refine ⟨b, t, hs, rfl, ht, hl, hh, ?_⟩
          intro k i hk
          obtain ⟨h, h', e1, e2, e3⟩ := attachAll_inv _ _ h1 k i hk
          refine ⟨h, e1, ?_⟩
          intro msg hm h0 hty
          have hone := verifyAll_inv _ h2 h' (List.mem_of_getElem? e2)
          have e3' : (match decodeSigPub i.scriptSig with
              | .ok (sig, pub, st) =>
                match h.normal with
                | none => Res.panic
                | some n => .ok (some { h with normal := some { n with sigType := st, sigPub := ⟨some sig, some pub⟩ } })
              | .err => .ok none
              | .panic => .panic) = .ok (some h') := by
            unfold attach at e3
            rcases hty with ht | ht | ht <;> rw [ht] at e3 <;> exact e3
          cases hs2 : decodeSigPub i.scriptSig with
          | err => simp [hs2] at e3'
          | panic => simp [hs2] at e3'
          | ok r =>
            obtain ⟨sig, pub, st⟩ := r
            simp only [hs2] at e3'
            cases hn : h.normal with
            | none => simp [hn] at e3'
            | some n =>
              simp only [hn, Res.ok.injEq, Option.some.injEq] at e3'
              subst e3'
              refine ⟨sig, pub, st, rfl, ?_⟩
              unfold verifyOne at hone
              simp only [hm, h0, if_true] at hone
              obtain ⟨p, h3, h4⟩ := Res.bind_eq_ok.mp hone
              simp only [Res.ok.injEq, Option.getD_some] at h4
              unfold pubPoint at h3
              simp only [Option.getD_some] at h3
              by_cases hl : 1 ≤ (C.decompress pub).length
              · rw [slice_ok hl (Nat.le_refl _), List.take_length] at h3
                simp only [Res.ok.injEq] at h3
                rw [h3]; exact h4
              · unfold slice at h3
                rw [if_neg (by omega)] at h3
                simp at h3

/-- C62 is false: for every unsigned transaction, a locking script of an unknown kind makes `InsertSignatureIntoEmptyTransaction` return the
empty text without an error. -/
theorem C62_empty_text_violated (H : Hashes) (tx : RawTx) (hu : Unsigned tx) (hashes : List TxHash) (hh : hashes ≠ []) (u : TxUnlock)
    (us : List TxUnlock) (hl : us.length + 1 = tx.ins.length) (hun : checkScriptType u.lockScript u.redeemScript = .err) (segwitOn : Bool) :
    insertSignatures H (Hex.encode tx.ser) hashes (u :: us) segwitOn = .ok [] := by
  unfold insertSignatures
  rw [Hex.decode_encode, Res.bind_ok, decode_unsigned hu, Res.bind_ok, if_neg]
  · simp [isSegwit, isSegwit.go, hun]
  · have h1 := hu.insPos
    have h2 := hu.outsPos
    rintro (h | h | h | h | h)
    · simp at h
    · exact hh h
    · have := congrArg List.length h
      simp [ofRaw] at this
      rw [this] at h1; simp at h1
    · have := congrArg List.length h
      simp [ofRaw] at this
      rw [this] at h2; simp at h2
    · simp [ofRaw] at h; omega

-- an OP_RETURN script
example : checkScriptType (asc "6a00") [] = .err := by decide +kernel

end Verif
