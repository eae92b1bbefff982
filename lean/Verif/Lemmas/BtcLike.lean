import Verif.Model.BtcLike
import Verif.Spec.BtcLike
import Verif.Lemmas.BtcTx
import Verif.Lemmas.BtcVariantsCreate

/-! Lemmas about `btcLikeTxDriver`: serialising, parsing and creating transactions. -/

namespace Verif.BtcLike
open Verif Verif.Spec
open _root_.Verif.Btc (Vin Vout TxOut Curve takeN take1 concatAll takeN_append concatAll_ok compactSize_small)

/-- The structure for an input, an output, a transaction. -/
def ofIn (i : RawIn) : TxIn := ⟨i.prev, leBytes 4 i.index, i.script, leBytes 4 i.sequence⟩
def ofOut (o : RawOut) : TxOut := ⟨leBytes 8 o.value, o.script⟩
def ofRaw (t : RawTx) (ws : List SigPub) : Tx :=
  ⟨leBytes 4 t.version, t.ins.map ofIn, t.outs.map ofOut, ws, leBytes 4 t.lockTime⟩

theorem take1_cons (x : UInt8) (b : Bytes) : take1 (x :: b) = .ok (x, b) := by simp [take1]

theorem encodeIn_ofIn {i : RawIn} (h1 : i.prev.length = 32) (h2 : i.script.length < 253) : encodeIn TxIn.script (ofIn i) = .ok i.ser := by
  unfold encodeIn
  rw [if_neg (by simp [ofIn, h1])]
  simp [ofIn, RawIn.ser, RawIn.outpoint, varBytes, compactSize_small h2]

theorem encodeOut_ofOut {o : RawOut} (h : o.script.length < 253) : encodeOut (ofOut o) = .ok o.ser := by
  unfold encodeOut
  rw [if_neg (by simp [ofOut])]
  simp [ofOut, RawOut.ser, varBytes, compactSize_small h]

theorem concat_ins {l : List RawIn} (h : ∀ i ∈ l, i.prev.length = 32 ∧ i.script.length < 253) :
    concatAll (encodeIn TxIn.script) (l.map ofIn) = .ok (l.map RawIn.ser).flatten := by
  induction l with
  | nil => rfl
  | cons i l ih =>
    rw [List.map_cons, Btc.concatAll, encodeIn_ofIn (h i (by simp)).1 (h i (by simp)).2, Res.bind_ok, ih (fun j hj => h j (by simp [hj]))]
    simp

theorem concat_outs {l : List RawOut} (h : ∀ i ∈ l, i.script.length < 253) :
    concatAll encodeOut (l.map ofOut) = .ok (l.map RawOut.ser).flatten := by
  induction l with
  | nil => rfl
  | cons i l ih =>
    rw [List.map_cons, Btc.concatAll, encodeOut_ofOut (h i (by simp)), Res.bind_ok, ih (fun j hj => h j (by simp [hj]))]
    simp

theorem _root_.Verif.Spec.Small.ins_ne {t : RawTx} (s : Small t) {ws : List SigPub} : (ofRaw t ws).vins ≠ [] := by
  intro h
  have h1 := s.insPos
  rw [List.map_eq_nil_iff.mp h] at h1
  simp at h1

theorem _root_.Verif.Spec.Small.outs_ne {t : RawTx} (s : Small t) {ws : List SigPub} : (ofRaw t ws).vouts ≠ [] := by
  intro h
  have h1 := s.outsPos
  rw [List.map_eq_nil_iff.mp h] at h1
  simp at h1

/-- The transaction is not taken for a multi-signature transaction: it has another number of inputs than one, or the script of that input does not
end in 0xae. -/
def Plain (t : RawTx) : Prop := ∀ i, t.ins = [i] → i.script.getLast? ≠ some 0xae

theorem isMultiSig_ofRaw {t : RawTx} {ws : List SigPub} (h : Plain t) : (ofRaw t ws).isMultiSig = false := by
  obtain ⟨v, ins, outs, lt⟩ := t
  unfold Tx.isMultiSig ofRaw
  match ins, h with
  | [], _ => rfl
  | [i], h => simpa [ofIn] using h i rfl
  | _ :: _ :: _, _ => rfl

theorem encodeTx_ser {H : Hashes} {t : RawTx} (s : Small t) (p : Plain t) : encodeTx H (ofRaw t []) = .ok t.ser := by
  unfold encodeTx
  rw [if_neg (s.ins_ne),
    if_neg (s.outs_ne),
    if_neg (by rw [isMultiSig_ofRaw p]; simp)]
  simp only [ofRaw, concat_ins s.ins, concat_outs s.outs, Btc.concatAll, Res.bind_ok]
  simp [RawTx.ser, compactSize_small s.insLt, compactSize_small s.outsLt]

theorem encodeTx_serWitness {H : Hashes} {t : RawTx} (s : Small t) (p : Plain t) {ws : List SigPub} {sts : List (List Bytes)} (hne : ws ≠ [])
    (hw : List.Forall₂ (fun w st => encodeWitness w = .ok (stackBytes st)) ws sts) :
    encodeTx H (ofRaw t ws) = .ok (t.serWitness sts) := by
  have hc : concatAll encodeWitness ws = .ok (sts.map stackBytes).flatten := by
    clear hne
    induction hw with
    | nil => rfl
    | cons h _ ih => rw [Btc.concatAll, h, Res.bind_ok, ih]; simp
  unfold encodeTx
  rw [if_neg (s.ins_ne),
    if_neg (s.outs_ne),
    if_neg (by rw [isMultiSig_ofRaw p]; simp)]
  simp only [ofRaw, concat_ins s.ins, concat_outs s.outs, Res.bind_ok, hc]
  simp [RawTx.serWitness, hne, compactSize_small s.insLt, compactSize_small s.outsLt]

theorem decodeIn_ser {i : RawIn} (h1 : i.prev.length = 32) (h2 : i.script.length < 253) (r : Bytes) : decodeIn (i.ser ++ r) = .ok (ofIn i, r) := by
  have hl : (UInt8.ofNat i.script.length).toNat = i.script.length := by simp; omega
  unfold decodeIn
  simp only [RawIn.ser, RawIn.outpoint, varBytes, compactSize_small h2, List.append_assoc, List.cons_append, List.nil_append]
  rw [takeN_append _ _ h1, Res.bind_ok]
  simp only
  rw [takeN_append _ _ (by simp), Res.bind_ok]
  simp only
  rw [take1_cons, Res.bind_ok]
  simp only [hl]
  rw [takeN_append _ _ rfl, Res.bind_ok]
  simp only
  rw [takeN_append _ _ (by simp), Res.bind_ok]
  rfl

theorem decodeIns_ser : ∀ {l : List RawIn}, (∀ i ∈ l, i.prev.length = 32 ∧ i.script.length < 253) → ∀ r,
    decodeIns l.length ((l.map RawIn.ser).flatten ++ r) = .ok (l.map ofIn, r)
  | [], _, r => rfl
  | i :: l, h, r => by
    simp only [List.length_cons, List.map_cons, List.flatten_cons, List.append_assoc]
    rw [decodeIns, decodeIn_ser (h i (by simp)).1 (h i (by simp)).2, Res.bind_ok]
    simp only
    rw [decodeIns_ser (fun j hj => h j (by simp [hj])), Res.bind_ok]

theorem decodeOut_ser {o : RawOut} (h2 : o.script.length < 253) (r : Bytes) : decodeOut (o.ser ++ r) = .ok (ofOut o, r) := by
  have hl : (UInt8.ofNat o.script.length).toNat = o.script.length := by simp; omega
  unfold decodeOut
  simp only [RawOut.ser, varBytes, compactSize_small h2, List.append_assoc, List.cons_append, List.nil_append]
  rw [takeN_append _ _ (by simp), Res.bind_ok]
  simp only
  rw [take1_cons, Res.bind_ok]
  simp only [hl]
  rw [takeN_append _ _ rfl, Res.bind_ok]
  rfl

theorem decodeOuts_ser : ∀ {l : List RawOut}, (∀ i ∈ l, i.script.length < 253) → ∀ r,
    decodeOuts l.length ((l.map RawOut.ser).flatten ++ r) = .ok (l.map ofOut, r)
  | [], _, r => rfl
  | i :: l, h, r => by
    simp only [List.length_cons, List.map_cons, List.flatten_cons, List.append_assoc]
    rw [decodeOuts, decodeOut_ser (h i (by simp)), Res.bind_ok]
    simp only
    rw [decodeOuts_ser (fun j hj => h j (by simp [hj])), Res.bind_ok]

theorem takeN_two (x y : UInt8) (r : Bytes) : takeN 2 (x :: y :: r) = .ok ([x, y], r) := by simp [takeN]

theorem decodeTx_ser {t : RawTx} (s : Small t) : decodeTx t.ser = .ok (ofRaw t []) := by
  have hl : (UInt8.ofNat t.ins.length).toNat = t.ins.length := by have := s.insLt; simp; omega
  have hm : (UInt8.ofNat t.outs.length).toNat = t.outs.length := by have := s.outsLt; simp; omega
  have hn : UInt8.ofNat t.ins.length ≠ 0 := Btc.u8_ofNat_ne0 (by have := s.insLt; omega) s.insPos
  unfold decodeTx
  simp only [RawTx.ser, compactSize_small s.insLt, compactSize_small s.outsLt, List.append_assoc, List.cons_append, List.nil_append]
  rw [takeN_append _ _ (by simp), Res.bind_ok]
  simp only
  obtain ⟨y, r, hr⟩ : ∃ y r, (t.ins.map RawIn.ser).flatten ++ UInt8.ofNat t.outs.length :: ((t.outs.map RawOut.ser).flatten ++ leBytes 4 t.lockTime) = y :: r := by
    match h : (t.ins.map RawIn.ser).flatten with
    | [] => exact ⟨_, _, rfl⟩
    | y :: q => exact ⟨_, _, rfl⟩
  rw [hr, takeN_two, Res.bind_ok, ← hr]
  simp only [List.head?_cons, Option.some.injEq, hn, decide_false, Bool.false_eq_true, false_and, if_false]
  rw [take1_cons, Res.bind_ok]
  simp only [hl]
  rw [decodeIns_ser s.ins, Res.bind_ok]
  simp only
  rw [take1_cons, Res.bind_ok]
  simp only [hm]
  rw [decodeOuts_ser s.outs, Res.bind_ok]
  simp only [Res.bind_ok]
  have := takeN_append (n := 4) (leBytes 4 t.lockTime) [] (by simp)
  rw [List.append_nil] at this
  rw [this, Res.bind_ok]
  simp [ofRaw]

/-- The list of witnesses that is read for sts. -/
theorem decodeWitnesses_ser {ws : List SigPub} {sts : List (List Bytes)}
    (hw : List.Forall₂ (fun w st => ∀ r, decodeWitness (stackBytes st ++ r) = .ok ([w], r)) ws sts) (r : Bytes) :
    decodeWitnesses ws.length ((sts.map stackBytes).flatten ++ r) = .ok (ws, r) := by
  induction hw with
  | nil => rfl
  | cons h _ ih =>
    simp only [List.length_cons, List.map_cons, List.flatten_cons, List.append_assoc]
    rw [decodeWitnesses, h, Res.bind_ok]
    simp only
    rw [ih, Res.bind_ok]
    rfl

theorem decodeTx_serWitness {t : RawTx} (s : Small t) {ws : List SigPub} {sts : List (List Bytes)} (hlen : ws.length = t.ins.length)
    (hw : List.Forall₂ (fun w st => ∀ r, decodeWitness (stackBytes st ++ r) = .ok ([w], r)) ws sts) :
    decodeTx (t.serWitness sts) = .ok (ofRaw t ws) := by
  have hl : (UInt8.ofNat t.ins.length).toNat = t.ins.length := by have := s.insLt; simp; omega
  have hm : (UInt8.ofNat t.outs.length).toNat = t.outs.length := by have := s.outsLt; simp; omega
  unfold decodeTx
  simp only [RawTx.serWitness, compactSize_small s.insLt, compactSize_small s.outsLt, List.append_assoc, List.cons_append, List.nil_append]
  rw [takeN_append _ _ (by simp), Res.bind_ok]
  simp only
  rw [takeN_two, Res.bind_ok]
  simp only [List.head?_cons, decide_true, ne_eq, not_true_eq_false, and_false, if_false, if_true, List.drop_succ_cons, List.drop_zero]
  rw [take1_cons, Res.bind_ok]
  simp only [hl]
  rw [decodeIns_ser s.ins, Res.bind_ok]
  simp only
  rw [take1_cons, Res.bind_ok]
  simp only [hm]
  rw [decodeOuts_ser s.outs, Res.bind_ok]
  simp only
  rw [← hlen, decodeWitnesses_ser hw, Res.bind_ok]
  simp only
  have := takeN_append (n := 4) (leBytes 4 t.lockTime) [] (by simp)
  rw [List.append_nil] at this
  rw [this, Res.bind_ok]
  simp [ofRaw]

end Verif.BtcLike
