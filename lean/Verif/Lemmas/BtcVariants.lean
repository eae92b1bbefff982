import Verif.Model.BtcVariants
import Verif.Spec.BtcVariants
import Verif.Props.BtcVerify

/-! Lemmas about the packages derived from `btcTransaction`: everything that does not depend on the version number is carried over
from `Verif.Btc`. -/

namespace Verif.BtcVariants
open Verif Verif.Spec Verif.Btc

theorem unsigned_two {v : Nat} {t : RawTx} (u : UnsignedV v t) : Unsigned { t with version := 2 } :=
  ⟨rfl, u.lockTime, u.insPos, u.insLt, u.outsPos, u.outsLt, u.ins, u.outs⟩

theorem decodeBody_version {spare : Nat} {seg w : Bool} {v v' b : Bytes} {t : Tx} (h : decodeBody spare seg w v b = .ok t) :
    decodeBody spare seg w v' b = .ok { t with version := v' } := by
  unfold decodeBody at h ⊢
  obtain ⟨⟨n, b1⟩, h1, h⟩ := Res.bind_eq_ok.mp h
  rw [h1, Res.bind_ok]
  simp only at h ⊢
  split at h
  · cases h
  rename_i c1
  rw [if_neg c1]
  obtain ⟨⟨ins, b2⟩, h2, h⟩ := Res.bind_eq_ok.mp h
  rw [h2, Res.bind_ok]
  simp only at h ⊢
  obtain ⟨⟨m, b3⟩, h3, h⟩ := Res.bind_eq_ok.mp h
  rw [h3, Res.bind_ok]
  simp only at h ⊢
  split at h
  · cases h
  rename_i c2
  rw [if_neg c2]
  obtain ⟨⟨outs, b4⟩, h4, h⟩ := Res.bind_eq_ok.mp h
  rw [h4, Res.bind_ok]
  simp only at h ⊢
  cases w with
  | false =>
    rw [if_neg (by simp)] at h ⊢
    rw [Res.bind_ok] at h ⊢
    simp only at h ⊢
    obtain ⟨⟨lt, b6⟩, h6, h⟩ := Res.bind_eq_ok.mp h
    rw [h6, Res.bind_ok]
    simp only at h ⊢
    split at h
    · cases h
    rename_i c3
    rw [if_neg c3]
    simp only [Res.ok.injEq] at h
    rw [← h]
  | true =>
    rw [if_pos rfl] at h ⊢
    obtain ⟨⟨ins2, b5⟩, h5, h⟩ := Res.bind_eq_ok.mp h
    rw [h5, Res.bind_ok]
    simp only at h ⊢
    obtain ⟨⟨lt, b6⟩, h6, h⟩ := Res.bind_eq_ok.mp h
    rw [h6, Res.bind_ok]
    simp only at h ⊢
    split at h
    · cases h
    rename_i c3
    rw [if_neg c3]
    simp only [Res.ok.injEq] at h
    rw [← h]

/-- A transaction parses as version `v` if it parses as version 2 after exchanging the first four bytes. -/
theorem decodeTxV_of {v : Nat} (hv : v < 2 ^ 32) {spare : Nat} {seg : Bool} {r : Bytes} {t : Tx}
    (h : decodeTx spare seg (leBytes 4 2 ++ r) = .ok t) :
    decodeTxV v spare seg (leBytes 4 v ++ r) = .ok { t with version := leBytes 4 v } := by
  unfold decodeTx at h
  unfold decodeTxV
  rw [takeN_append _ _ (by simp), Res.bind_ok] at h
  rw [takeN_append _ _ (by simp), Res.bind_ok]
  simp only at h ⊢
  rw [if_neg (by decide)] at h
  rw [if_neg (by rw [leNat_leBytes_of_lt (by simpa using hv)]; simp)]
  split at h
  · cases h
  rename_i c
  rw [if_neg c]
  split at h
  · split at h
    · cases h
    rename_i c2
    simp only
    rw [if_neg c2]
    exact decodeBody_version h
  · rename_i hno
    have e := decodeBody_version (v' := leBytes 4 v) h
    split
    · rename_i w r'
      exact absurd rfl (hno w r')
    · exact e

theorem encodeTx_version {seg : Bool} {t : Tx} {b w : Bytes} (hw : w.length = 4) (h : encodeTx seg t = .ok b) :
    ∃ r, b = t.version ++ r ∧ encodeTx seg { t with version := w } = .ok (w ++ r) := by
  unfold encodeTx at h ⊢
  split at h
  · cases h
  rename_i c
  rw [if_neg (by simp only [not_or] at c ⊢; exact ⟨c.1, c.2.1, by simp [hw], c.2.2.2⟩)]
  obtain ⟨ins, h1, h⟩ := Res.bind_eq_ok.mp h
  obtain ⟨outs, h2, h⟩ := Res.bind_eq_ok.mp h
  simp only at h1 h2 h ⊢
  rw [h1, Res.bind_ok, h2, Res.bind_ok]
  by_cases hw2 : t.witness = true
  · rw [if_pos hw2] at h ⊢
    obtain ⟨wit, h3, h⟩ := Res.bind_eq_ok.mp h
    rw [h3, Res.bind_ok]
    simp only [Res.ok.injEq] at h
    exact ⟨(if t.witness then [0x00, 0x01] else []) ++ ([UInt8.ofNat t.vins.length] ++ (ins ++ ([UInt8.ofNat t.vouts.length] ++ (outs ++
      (wit ++ t.lockTime))))), by rw [← h]; simp only [List.append_assoc], by simp only [List.append_assoc]⟩
  · rw [if_neg hw2] at h ⊢
    rw [Res.bind_ok] at h ⊢
    simp only [Res.ok.injEq] at h
    exact ⟨(if t.witness then [0x00, 0x01] else []) ++ ([UInt8.ofNat t.vins.length] ++ (ins ++ ([UInt8.ofNat t.vouts.length] ++ (outs ++
      ([] ++ t.lockTime))))), by rw [← h]; simp only [List.append_assoc], by simp only [List.append_assoc]⟩

theorem ser_version (t : RawTx) (v : Nat) : ∃ r, t.ser = leBytes 4 t.version ++ r ∧ RawTx.ser { t with version := v } = leBytes 4 v ++ r :=
  ⟨compactSize t.ins.length ++ ((t.ins.map RawIn.ser).flatten ++ (compactSize t.outs.length ++ ((t.outs.map RawOut.ser).flatten ++
    leBytes 4 t.lockTime))), by simp only [RawTx.ser, List.append_assoc], by simp only [RawTx.ser, List.append_assoc]⟩

/-- Serialising with any version, from the version 2 case. -/
theorem encodeTx_ofTwo {seg : Bool} {t : Tx} {v : Nat} {x : RawTx} (hx : x.version = v)
    (h : encodeTx seg { t with version := leBytes 4 2 } = .ok (RawTx.ser { x with version := 2 })) :
    encodeTx seg { t with version := leBytes 4 v } = .ok x.ser := by
  obtain ⟨r, h1, h2⟩ := encodeTx_version (w := leBytes 4 v) (by simp) h
  obtain ⟨r', h3, h4⟩ := ser_version x 2
  simp only at h1 h2
  rw [h4] at h1
  have := List.append_cancel_left h1
  subst this
  rw [h2, h3, hx]

theorem decode_unsignedV {v : Nat} (hv : v < 2 ^ 32) {t : RawTx} (u : UnsignedV v t) (seg : Bool) (spare : Nat) :
    decodeTxV v spare seg t.ser = .ok (ofRaw t) := by
  have h := decode_unsigned (unsigned_two u) seg spare
  obtain ⟨r, h1, h2⟩ := ser_version t 2
  rw [h2] at h
  have h3 := decodeTxV_of hv h
  rw [h1, u.version, h3]
  unfold ofRaw
  rw [u.version]

theorem legacy_bytesV {v : Nat} {t : RawTx} (u : UnsignedV v t) (seg : Bool) (k : Nat) (code : Bytes) (hc : code.length < 253) :
    encodeTx seg { ofRaw t with vins := (ofRaw t).vins.modify k (fun i => { i with scriptPub := code }) } =
      .ok (RawTx.ser { t with ins := t.ins.mapIdx (fun j i => { i with script := if j = k then code else [] }) }) := by
  have h := legacy_bytes (unsigned_two u) seg k code hc
  have e := encodeTx_ofTwo (v := v) (x := { t with ins := t.ins.mapIdx (fun j i => { i with script := if j = k then code else [] }) })
    (t := { ofRaw t with vins := (ofRaw t).vins.modify k (fun i => { i with scriptPub := code }) }) u.version h
  rw [← e]
  have : (ofRaw t).version = leBytes 4 v := by simp [ofRaw, u.version]
  rw [← this]

/-- The replay-protected preimage. -/
theorem forkid_bytes {H : Hashes} {v : Nat} {t : RawTx} (u : UnsignedV v t) (redeem code : Bytes) (hcode : scriptCode redeem = .ok code)
    (hlt : code.length < 253) {k : Nat} {i : RawIn} (hi : t.ins[k]? = some i) {amount : UInt64} {ti : TxIn} {b : Bytes}
    (hti : index (ofRaw t).vins k = .ok ti) (hb : segwitBytesForSig H (ofRaw t) redeem ti amount = .ok b) :
    b ++ leBytes 4 0x41 = forkIdPreimage (H.hash .doubleSha256) t i code amount.toNat := by
  have hk : k < t.ins.length := (List.getElem?_eq_some_iff.mp hi).1
  rw [index_ok (by simpa [ofRaw] using hk)] at hti
  have hte : ti = ⟨.empty, i.prev, leBytes 4 i.index, [], [], leBytes 4 i.sequence, []⟩ := by
    simp only [Res.ok.injEq] at hti
    rw [← hti]
    simp only [ofRaw, List.getElem_map]
    rw [(List.getElem?_eq_some_iff.mp hi).2]
  subst hte
  unfold segwitBytesForSig at hb
  rw [hcode, Res.bind_ok] at hb
  split at hb
  · simp at hb
  simp only [Res.ok.injEq] at hb
  rw [← hb]
  have e1 : prevoutsBytes (ofRaw t) = (t.ins.map RawIn.outpoint).flatten := by
    simp only [prevoutsBytes, ofRaw, List.map_map]; rfl
  have e2 : sequenceBytes (ofRaw t) = (t.ins.map (fun i => leBytes 4 i.sequence)).flatten := by
    simp only [sequenceBytes, ofRaw, List.map_map]; rfl
  have e3 : outputsBytes (ofRaw t) = (t.outs.map RawOut.ser).flatten := by
    simp only [outputsBytes, ofRaw, List.map_map]
    congr 1
    apply List.map_congr_left
    intro o ho
    simp only [Function.comp, RawOut.ser, varBytes, compactSize_small (u.outs o ho).2.2, List.append_assoc]
  rw [e1, e2, e3]
  simp only [forkIdPreimage, RawIn.outpoint, varBytes, compactSize_small hlt, ofRaw, List.append_assoc]

/-! ### Messages -/

/-- What an iteration leaves in the inputs does not matter to the next ones. -/
theorem hashForSig_after {V : Variant} {H : Hashes} {seg : Bool} {P : AddressPrefix} (t : Tx) (idx k : Nat) (u v : TxUnlock) :
    hashForSig V H seg P (afterSig V seg t idx u) k v = hashForSig V H seg P t k v := by
  have e : ({ afterSig V seg t idx u with vins := (afterSig V seg t idx u).vins.map setEmpty } : Tx) = { t with vins := t.vins.map setEmpty } := by
    have hm : (t.vins.map setEmpty).map setEmpty = t.vins.map setEmpty := by simp [setEmpty]
    unfold afterSig
    split
    · split
      · simp only [map_modify_empty]
      · simp only [hm]
    · simp only [hm]
  unfold hashForSig
  simp only [e]

theorem hashesLoop_get {V : Variant} {H : Hashes} {seg : Bool} {P : AddressPrefix} {t : Tx} : ∀ (us : List TxUnlock) (idx : Nat)
    {hs : List TxHash}, hashesLoop V H seg P t idx us = .ok hs → hs.length = us.length ∧
      ∀ k u, us[k]? = some u → ∃ th, hs[k]? = some th ∧ hashForSig V H seg P t (idx + k) u = .ok th
  | [], idx, hs, h => by
    simp [hashesLoop] at h; subst h; simp
  | u :: us, idx, hs, h => by
    rw [hashesLoop] at h
    obtain ⟨a, ha, h⟩ := Res.bind_eq_ok.mp h
    obtain ⟨l, hl, h⟩ := Res.bind_eq_ok.mp h
    simp only [Res.ok.injEq] at h
    subst h
    obtain ⟨h1, h2⟩ := hashesLoop_get us (idx + 1) hl
    refine ⟨by simp [h1], ?_⟩
    intro k v hk
    cases k with
    | zero => simp at hk; subst hk; exact ⟨a, by simp, ha⟩
    | succ k =>
      simp only [List.getElem?_cons_succ] at hk
      obtain ⟨th, e1, e2⟩ := h2 k v hk
      exact ⟨th, by simpa using e1, by rw [show idx + (k + 1) = idx + 1 + k by omega, ← hashForSig_after t idx _ u v]; exact e2⟩

theorem createHashes_get {V : Variant} (hv : V.version < 2 ^ 32) {H : Hashes} {P : AddressPrefix} {t : RawTx} {us : List TxUnlock}
    {seg : Bool} {hs : List TxHash} (u : UnsignedV V.version t) (hc : createHashes V H (Hex.encode t.ser) us seg P = .ok hs) :
    us.length = t.ins.length ∧ hs.length = us.length ∧
      ∀ k v, us[k]? = some v → ∃ th, hs[k]? = some th ∧ hashForSig V H seg P (ofRaw t) k v = .ok th := by
  unfold createHashes at hc
  rw [Hex.decode_encode, Res.bind_ok, decode_unsignedV hv u, Res.bind_ok] at hc
  unfold hashesForSig at hc
  split at hc
  · simp at hc
  rename_i c1
  split at hc
  · simp at hc
  obtain ⟨h1, h2⟩ := hashesLoop_get us 0 hc
  exact ⟨by simpa [ofRaw] using (Decidable.not_not.mp c1).symm, h1, by simpa using h2⟩

theorem newTxHashBch_hash {f : Hashes → AddressPrefix → Bytes → Res Bytes} {H : Hashes} {hash lock redeem : Bytes} {ty : InType}
    {st : UInt8} {P : AddressPrefix} {th : TxHash}
    (h : newTxHashBch f H hash lock redeem ty st P = .ok th) : th.hash = Hex.encode hash := by
  unfold newTxHashBch at h
  cases ty <;> simp only at h
  · simp at h
  · obtain ⟨a, _, h⟩ := Res.bind_eq_ok.mp h
    obtain ⟨b, _, h⟩ := Res.bind_eq_ok.mp h
    simp only [Res.ok.injEq] at h; rw [← h]
  · obtain ⟨a, _, h⟩ := Res.bind_eq_ok.mp h
    obtain ⟨b, _, h⟩ := Res.bind_eq_ok.mp h
    simp only [Res.ok.injEq] at h; rw [← h]
  · simp at h
  · obtain ⟨a, _, h⟩ := Res.bind_eq_ok.mp h
    simp only [Res.ok.injEq] at h; rw [← h]

/-- The five packages. -/
def IsVariant (V : Variant) : Prop := V = bch ∨ V = bsv ∨ V = cxc ∨ V = hc ∨ V = zen

theorem IsVariant.version_lt {V : Variant} (h : IsVariant V) : V.version < 2 ^ 32 := by
  rcases h with rfl | rfl | rfl | rfl | rfl <;> decide

theorem newTxHash_shape {H : Hashes} {hash lock redeem : Bytes} {st : UInt8} {P : AddressPrefix} {th : TxHash}
    (h : Btc.newTxHash H hash lock redeem .p2pkh st P = .ok th) :
    th.hash = Hex.encode hash ∧ th.nRequired = 0 ∧ ∃ a, th.normal = some ⟨a, st, ⟨none, none⟩⟩ := by
  unfold Btc.newTxHash at h
  simp only at h
  obtain ⟨x, _, h⟩ := Res.bind_eq_ok.mp h
  obtain ⟨y, _, h⟩ := Res.bind_eq_ok.mp h
  simp only [Res.ok.injEq] at h
  rw [← h]
  exact ⟨rfl, rfl, _, rfl⟩

theorem newTxHashBch_shape {f : Hashes → AddressPrefix → Bytes → Res Bytes} {H : Hashes} {hash lock redeem : Bytes} {st : UInt8}
    {P : AddressPrefix} {th : TxHash} (h : newTxHashBch f H hash lock redeem .p2pkh st P = .ok th) :
    th.hash = Hex.encode hash ∧ th.nRequired = 0 ∧ ∃ a, th.normal = some ⟨a, st, ⟨none, none⟩⟩ := by
  unfold newTxHashBch at h
  simp only at h
  obtain ⟨x, _, h⟩ := Res.bind_eq_ok.mp h
  obtain ⟨y, _, h⟩ := Res.bind_eq_ok.mp h
  simp only [Res.ok.injEq] at h
  rw [← h]
  exact ⟨rfl, rfl, _, rfl⟩

theorem IsVariant.shape {V : Variant} (hV : IsVariant V) {H : Hashes} {hash lock redeem : Bytes} {st : UInt8} {P : AddressPrefix}
    {th : TxHash} (h : V.newTxHash H hash lock redeem .p2pkh st P = .ok th) :
    th.hash = Hex.encode hash ∧ th.nRequired = 0 ∧ ∃ a, th.normal = some ⟨a, st, ⟨none, none⟩⟩ := by
  rcases hV with rfl | rfl | rfl | rfl | rfl
  · exact newTxHashBch_shape (redeem := redeem) h
  · exact newTxHashBch_shape (redeem := redeem) h
  · exact newTxHash_shape (redeem := redeem) h
  · exact newTxHash_shape (redeem := redeem) h
  · exact newTxHash_shape (redeem := redeem) h

/-- The output spent is recognised as P2PKH. -/
def TakesKey (V : Variant) (u : TxUnlock) : Prop := ∃ s, V.check u.lockScript u.redeemScript = .ok (s, [], .p2pkh)

theorem isSegwit_p2pkh {V : Variant} {seg : Bool} {us : List TxUnlock} (hne : us ≠ []) (h : ∀ u ∈ us, TakesKey V u) :
    isSegwit V seg us = .ok false := by
  have go : ∀ l : List TxUnlock, (∀ u ∈ l, TakesKey V u) → isSegwit.go V seg l = .ok false := by
    intro l
    induction l with
    | nil => intro _; rfl
    | cons u l ih =>
      intro h
      obtain ⟨s, hs⟩ := h u (by simp)
      rw [isSegwit.go, hs, Res.bind_ok]
      simp only
      rw [if_neg (by simp)]
      exact ih (fun v hv => h v (by simp [hv]))
  cases us with
  | nil => exact absurd rfl hne
  | cons u us => exact go _ h

theorem insertLoop_p2pkh {V : Variant} {H : Hashes} {seg sw : Bool} {hashes : List TxHash} {f : Nat → Bytes} : ∀ (ins : List TxIn)
    (us : List TxUnlock) (idx : Nat), us.length = ins.length → (∀ u ∈ us, TakesKey V u) →
    (∀ j, j < ins.length → ∃ h, hashes[idx + j]? = some h ∧ encodeToScript h [] seg = .ok (f (idx + j))) →
    insertLoop V H seg sw hashes idx ins us =
      .ok (some (ins.mapIdx (fun j i => { i with inType := .p2pkh, scriptPub := [], scriptSig := f (idx + j) })))
  | [], us, idx, _, _, _ => by simp [insertLoop]
  | i :: ins, [], idx, hl, _, _ => by simp at hl
  | i :: ins, u :: us, idx, hl, hu, hh => by
    obtain ⟨s, hs⟩ := hu u (by simp)
    obtain ⟨h, h1, h2⟩ := hh 0 (by simp)
    simp only [Nat.add_zero] at h1 h2
    obtain ⟨hlt, he⟩ := List.getElem?_eq_some_iff.mp h1
    have ih := insertLoop_p2pkh (H := H) (sw := sw) ins us (idx + 1) (by simpa using hl) (fun v hv => hu v (by simp [hv])) (by
      intro j hj
      obtain ⟨h', k1, k2⟩ := hh (j + 1) (by simpa using hj)
      exact ⟨h', by rw [show idx + 1 + j = idx + (j + 1) by omega]; exact k1, by
        rw [show idx + 1 + j = idx + (j + 1) by omega]; exact k2⟩)
    rw [insertLoop, hs]
    simp only
    rw [index_ok hlt, he, Res.bind_ok, h2, Res.bind_ok]
    simp only [Res.bind_ok, ih, Option.map_some, List.mapIdx_cons, Nat.add_zero]
    congr 3
    apply List.ext_getElem?
    intro j
    simp only [List.getElem?_mapIdx, show idx + 1 + j = idx + (j + 1) by omega]

/-- For an input recognised as P2PKH, one signature by one key is asked for. -/
theorem hashForSig_p2pkh {V : Variant} (hV : IsVariant V) {H : Hashes} {seg : Bool} {P : AddressPrefix} {t : Tx} {k : Nat} {u : TxUnlock}
    {th : TxHash} (hu : TakesKey V u) (h : hashForSig V H seg P t k u = .ok th) :
    th.nRequired = 0 ∧ ∃ a, th.normal = some ⟨a, u.sigType, ⟨none, none⟩⟩ := by
  obtain ⟨s, hs⟩ := hu
  unfold hashForSig at h
  simp only at h
  rw [hs, Res.bind_ok] at h
  obtain ⟨b, h3, h4⟩ := Res.bind_eq_ok.mp h
  exact (hV.shape h4).2

end Verif.BtcVariants
