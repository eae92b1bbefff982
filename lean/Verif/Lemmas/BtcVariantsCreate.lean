import Verif.Lemmas.BtcVariants
import Verif.Lemmas.Bech32Err
import Verif.Props.BtcTx

/-! Lemmas about `CreateEmptyRawTransaction` of the packages derived from `btcTransaction`. -/

namespace Verif.BtcVariants
open Verif Verif.Spec Verif.Btc

/-- The requested transaction apart from its outputs: the version, the given lock time, unsigned inputs spending the given outputs, with sequence
number 0xfffffffd if replaceable, otherwise 0xfffffffe with a lock time and 0xffffffff without. -/
structure IsRequest (version : Nat) (vins : List Vin) (lockTime : UInt32) (replaceable : Bool) (t : RawTx) : Prop where
  version : t.version = version
  locked : t.lockTime = lockTime.toNat
  ins : List.Forall₂ (fun v i => Hex.decode v.txid = .ok i.prev.reverse ∧ i.prev.length = 32 ∧ i.index = v.vout.toNat ∧
    i.script = [] ∧ i.sequence = if replaceable then 0xfffffffd else if lockTime ≠ 0 then 0xfffffffe else 0xffffffff)
    vins t.ins

theorem newTxIn_ok {v : Vin} {id : Bytes} (h : Hex.decode v.txid = .ok id) (hl : id.length = 32) :
    newTxIn v = .ok { inType := .empty, txid := id.reverse, vout := leBytes 4 v.vout.toNat, scriptPub := [], scriptSig := [],
                      sequence := [], scriptMulti := [] } := by
  have he := Hex.decode_length _ _ h
  unfold newTxIn reverseHexToBytes
  rw [if_neg (by omega), h]
  simp [hl]

theorem newTxInLoop_ok {R : Vin → RawIn → Prop}
    (hR : ∀ v i, R v i → Hex.decode v.txid = .ok i.prev.reverse ∧ i.prev.length = 32 ∧ i.index = v.vout.toNat) :
    ∀ {vs : List Vin} {is : List RawIn}, List.Forall₂ R vs is →
    newTxInLoop vs = .ok (is.map (fun i => (⟨.empty, i.prev, leBytes 4 i.index, [], [], [], []⟩ : TxIn)))
  | _, _, .nil => rfl
  | _, _, .cons (a := v) (b := i) h hs => by
    obtain ⟨h1, h2, h3⟩ := hR _ _ h
    rw [newTxInLoop, newTxIn_ok h1 (by simpa using h2), Res.bind_ok, newTxInLoop_ok hR hs, Res.bind_ok]
    simp [h3]

theorem sequenceFor_lt (lt : UInt32) (r : Bool) : sequenceFor lt r < 2 ^ 32 := by
  unfold sequenceFor
  split
  · decide
  · split <;> decide

/-- What `CreateEmptyRawTransaction` returns, given what the outputs are. -/
theorem createWith_iff {v : Nat} (hv : v < 2 ^ 32) {vins : List Vin} {txOuts : Res (List TxOut)} {lt : UInt32} {r : Bool} {text : Bytes}
    (hi : vins.length < 253)
    (hos : ∀ os, txOuts = .ok os → os ≠ [] ∧ os.length < 253 ∧ ∀ o ∈ os, o.amount.length = 8 ∧ o.lockScript ≠ [] ∧ o.lockScript.length < 253) :
    createWith v vins txOuts lt r = .ok text ↔ vins ≠ [] ∧ ∃ os t, txOuts = .ok os ∧ IsRequest v vins lt r t ∧
      t.outs = os.map (fun o => ⟨leNat o.amount, o.lockScript⟩) ∧ text = Hex.encode t.ser := by
  have hlt := lt.toNat_lt
  constructor
  · intro h
    unfold createWith newTxIns at h
    split at h
    · simp at h
    rename_i hne
    obtain ⟨ins, h1, h⟩ := Res.bind_eq_ok.mp h
    obtain ⟨os, h2, h⟩ := Res.bind_eq_ok.mp h
    obtain ⟨b, h3, h⟩ := Res.bind_eq_ok.mp h
    simp only [Res.ok.injEq] at h
    obtain ⟨o1, o2, o3⟩ := hos os h2
    obtain ⟨a1, a2⟩ := newTxInLoop_inv vins h1
    have hin : ∀ p ∈ vins.zip ins, ∃ id, Hex.decode p.1.txid = .ok id ∧ id.length = 32 ∧
        setSequence lt r p.2 = ⟨.empty, id.reverse, leBytes 4 p.1.vout.toNat, [], [], leBytes 4 (sequenceFor lt r), []⟩ := by
      intro p hp
      obtain ⟨id, k1, k2, k3⟩ := newTxIn_inv (a2 p hp)
      exact ⟨id, k1, k2, by rw [setSequence_eq, k3]⟩
    rw [encodeTx_standard (by simp) (by simp) rfl] at h3
    · simp only [Res.ok.injEq] at h3
      refine ⟨hne, os, _, h2, ⟨?_, ?_, ?_⟩, ?_, by rw [← h, ← h3]⟩
      · exact leNat_leBytes_of_lt (by simpa using hv)
      · exact leNat_leBytes_of_lt (by simpa using hlt)
      · simp only [toRaw, List.map_map, List.forall₂_map_right_iff]
        rw [List.forall₂_iff_zip]
        refine ⟨a1.symm, ?_⟩
        intro v i hvi
        obtain ⟨id, k1, k2, k3⟩ := hin _ hvi
        simp only at k1 k3
        simp only [Function.comp, k3]
        refine ⟨by simp [k1], by simpa using k2, leNat_leBytes_of_lt (by have := v.vout.toNat_lt; simpa using this), trivial, ?_⟩
        rw [leNat_leBytes_of_lt (by simpa using sequenceFor_lt lt r)]
        rfl
      · rfl
    · intro hn
      rw [List.map_eq_nil_iff.mp hn] at a1
      exact hne (List.length_eq_zero_iff.mp a1.symm)
    · simp only [List.length_map]; omega
    · exact o1
    · exact o2
    · intro i hi
      simp only [List.mem_map] at hi
      obtain ⟨j, hj, rfl⟩ := hi
      obtain ⟨w, hw⟩ := mem_of_zip_right a1 hj
      obtain ⟨id, k1, k2, k3⟩ := hin _ hw
      simp only at k3
      rw [k3]
      simp [k2]
    · exact o3
  · rintro ⟨hne, os, t, h2, hr, ho, rfl⟩
    obtain ⟨o1, o2, o3⟩ := hos os h2
    have hins := newTxInLoop_ok (fun v i h => ⟨h.1, h.2.1, h.2.2.1⟩) hr.ins
    unfold createWith newTxIns
    rw [if_neg hne, hins, Res.bind_ok, h2, Res.bind_ok]
    have hlen := hr.ins.length_eq
    have hall : ∀ i ∈ t.ins, i.prev.length = 32 ∧ i.index < 2 ^ 32 ∧ i.script = [] ∧ i.sequence = sequenceFor lt r := by
      intro i hi
      obtain ⟨w, hw⟩ := mem_of_zip_right hlen.symm hi
      obtain ⟨_, k2, k3, k4, k5⟩ := (List.forall₂_iff_zip.mp hr.ins).2 hw
      exact ⟨k2, by rw [k3]; exact w.vout.toNat_lt, k4, k5⟩
    rw [encodeTx_standard (by simp) (by simp) rfl]
    · rw [Res.bind_ok]
      congr 2
      have e : toRaw
          { version := leBytes 4 v
            vins := (t.ins.map (fun i => (⟨.empty, i.prev, leBytes 4 i.index, [], [], [], []⟩ : TxIn))).map (setSequence lt r)
            vouts := os, lockTime := leBytes 4 lt.toNat, witness := false } = t := by
        have e1 : leNat (leBytes 4 v) = t.version := by rw [leNat_leBytes_of_lt (by simpa using hv), hr.version]
        have e2 : leNat (leBytes 4 lt.toNat) = t.lockTime := by rw [leNat_leBytes_of_lt (by simpa using hlt), hr.locked]
        have e3 : (((t.ins.map (fun i => (⟨.empty, i.prev, leBytes 4 i.index, [], [], [], []⟩ : TxIn))).map (setSequence lt r)).map
            (fun i => (⟨i.txid, leNat i.vout, i.scriptPub, leNat i.sequence⟩ : RawIn))) = t.ins := by
          rw [List.map_map, List.map_map]
          conv_rhs => rw [← List.map_id t.ins]
          apply List.map_congr_left
          intro i hi
          obtain ⟨_, k3, k4, k5⟩ := hall i hi
          simp only [Function.comp, setSequence_eq, id]
          rw [leNat_leBytes_of_lt (by simpa using k3), leNat_leBytes_of_lt (by simpa using sequenceFor_lt lt r), ← k5, ← k4]
        unfold toRaw
        simp only [e1, e2, e3, ← ho]
      rw [e]
    · intro hn
      rw [List.map_eq_nil_iff, List.map_eq_nil_iff] at hn
      rw [hn] at hlen
      exact hne (List.length_eq_zero_iff.mp hlen)
    · simp only [List.length_map]; omega
    · exact o1
    · exact o2
    · intro i hi
      simp only [List.map_map, List.mem_map] at hi
      obtain ⟨j, hj, rfl⟩ := hi
      simp [setSequence_eq, (hall j hj).1]
    · exact o3

theorem appendAll_iff {α β : Type} {f : α → Res (List β)} {R : α → β → Prop} : ∀ {xs : List α} {ys : List β},
    (∀ x ∈ xs, ∀ l, f x = .ok l ↔ ∃ y, l = [y] ∧ R x y) → (appendAll f xs = .ok ys ↔ List.Forall₂ R xs ys)
  | [], ys, _ => by
    rw [appendAll]
    constructor
    · intro h; cases h; exact .nil
    · intro h; cases h; rfl
  | x :: xs, ys, hf => by
    have ih := fun ys => appendAll_iff (R := R) (xs := xs) (ys := ys) (fun a ha => hf a (by simp [ha]))
    rw [appendAll]
    constructor
    · intro h
      obtain ⟨a, ha, h⟩ := Res.bind_eq_ok.mp h
      obtain ⟨b, hb, h⟩ := Res.bind_eq_ok.mp h
      simp only [Res.ok.injEq] at h
      obtain ⟨y, rfl, hy⟩ := (hf x (by simp) a).mp ha
      subst h
      exact .cons hy ((ih b).mp hb)
    · intro h
      cases h with
      | cons h1 h2 =>
        rw [(hf x (by simp) _).mpr ⟨_, rfl, h1⟩, Res.bind_ok, (ih _).mpr h2, Res.bind_ok]
        rfl

/-- The locking script for a Base58Check address: P2PKH under the network's first version prefix, P2SH under the second (or the third, if the
package has one), followed by `tail`. -/
def PaysBase58 (H : Hashes) (P : AddressPrefix) (p2sh : Bool) (address tail script : Bytes) : Prop :=
  ∃ ver h, h.length = 20 ∧ IsBase58Check H Btc.alphabet ver h address ∧
    ((ver = P.p2pkh ∧ script = p2pkhScript h ++ tail) ∨
      (ver ≠ P.p2pkh ∧ (ver = P.p2wpkh ∨ p2sh = true ∧ ver = P.p2sh) ∧ script = p2shScript h ++ tail))

theorem base58Script_iff {H : Hashes} {P : AddressPrefix} {p2sh : Bool} {tail addr script : Bytes} :
    base58Script H P p2sh tail addr = .ok script ↔ PaysBase58 H P p2sh addr tail script := by
  unfold base58Script PaysBase58
  constructor
  · intro hp
    split at hp
    · rename_i ver h hd
      obtain ⟨h1, h2⟩ := (decodeCheck_iff H addr ver h).mp hd
      rw [if_neg (by simp [h1])] at hp
      refine ⟨ver, h, h1, h2, ?_⟩
      simp only at hp
      split at hp
      · rename_i hv
        simp only [Res.ok.injEq] at hp
        refine Or.inl ⟨hv, ?_⟩
        rw [← hp, h1]; rfl
      · rename_i hv
        split at hp
        · rename_i hv2
          simp only [Res.ok.injEq] at hp
          refine Or.inr ⟨hv, hv2, ?_⟩
          rw [← hp, h1]; rfl
        · simp at hp
    · simp at hp
    · simp at hp
  · rintro ⟨ver, h, h1, h2, h3⟩
    rw [(decodeCheck_iff H addr ver h).mpr ⟨h1, h2⟩]
    simp only
    rw [if_neg (by simp [h1])]
    rcases h3 with ⟨hv, rfl⟩ | ⟨hv, hv2, rfl⟩
    · rw [if_pos hv, h1]; rfl
    · rw [if_neg hv, if_pos hv2, h1]; rfl

theorem PaysBase58.length {H : Hashes} {P : AddressPrefix} {p2sh : Bool} {addr tail script : Bytes}
    (h : PaysBase58 H P p2sh addr tail script) : 23 + tail.length ≤ script.length ∧ script.length ≤ 25 + tail.length := by
  obtain ⟨ver, k, h1, _, ⟨_, rfl⟩ | ⟨_, _, rfl⟩⟩ := h <;> simp [p2pkhScript, p2shScript, h1] <;> omega

/-- No text is a number of outputs different from one for an address without the bech32 prefix. -/
theorem bech32Outs_none {P : AddressPrefix} {amount tail addr : Bytes} (h : P.bech32.isPrefixOf addr = false) :
    bech32Outs P amount tail addr = .ok [] := by
  unfold bech32Outs
  simp [h]

/-- For an address with the bech32 prefix there is one output from the bech32 branch, if any. -/
theorem bech32Outs_one {P : AddressPrefix} {amount tail addr : Bytes} {l : List TxOut} (h : P.bech32.isPrefixOf addr = true)
    (ho : bech32Outs P amount tail addr = .ok l) : ∃ o, l = [o] := by
  unfold bech32Outs at ho
  rw [if_pos h] at ho
  split at ho
  · simp only [Res.ok.injEq] at ho; exact ⟨_, ho.symm⟩
  · simp at ho
  · simp at ho

/-- Mixed case is not bech32. -/
theorem bech32_mixed {addr : Bytes} {a b : UInt8} {r : Bytes} (h : addr = a :: b :: r) (ha : 0x41 ≤ a ∧ a ≤ 0x5a) (hb : 0x61 ≤ b ∧ b ≤ 0x7a) :
    Bech32.decode addr = .err := by
  have hp : Bech32.parse 0x31 addr = .err := by
    unfold Bech32.parse
    cases hs : Bech32.scan 0x31 0 ⟨false, false, false, 0⟩ addr with
    | none => rfl
    | some s =>
      have hna : ¬(0x61 ≤ a ∧ a ≤ 0x7a) := by
        rintro ⟨h1, _⟩
        have := ha.2
        rw [UInt8.le_iff_toNat_le] at h1 this
        simp at h1 this; omega
      rw [h, Bech32.scan, if_neg hna, if_pos ha, Bech32.scan, if_pos hb] at hs
      obtain ⟨e1, e2⟩ := Bech32.scan_flags 0x31 (Or.inl rfl) r _ _ _ hs
      simp only [Bool.true_or] at e1 e2
      simp [e1, e2]
  unfold Bech32.decode
  rw [hp]; rfl

end Verif.BtcVariants
