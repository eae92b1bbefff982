import Verif.Lemmas.BtcMemory
import Verif.Props.BtcTx

/-! C31 in memory: the inputs of a decoded transaction are parts of the caller's raw bytes. -/

namespace Verif
open Verif.Btc Verif.Mem

/-! ### C31: histories of reads -/

theorem BtcMem.reads_history {seg : Bool} {raw : Slice} {ins : List BtcMem.Input} : ∀ (js : List Nat) (h : Heap) (t : Tx), Valid h raw → raw.arr < h.length →
    decodeTx (raw.cap - raw.len) seg (read h raw) = .ok t → BtcMem.decodeInputs seg h raw = .ok ins → (∀ j ∈ js, j < t.vins.length) →
    (∀ (k j : Nat), js[k]? = some j → ∃ i, t.vins[j]? = some i ∧
      (BtcMem.reads ins js h).1[k]? = some (Hex.encode (if (js.take k).count j % 2 = 0 then i.txid.reverse else i.txid))) ∧
    (∀ (j : Nat) (i : TxIn) (s : BtcMem.Input), t.vins[j]? = some i → ins[j]? = some s → BtcMem.getVout (BtcMem.reads ins js h).2 s = leNat i.vout) ∧
    (∀ a, a ≠ raw.arr → array (BtcMem.reads ins js h).2 a = array h a) ∧
    decodeTx (raw.cap - raw.len) seg (read (BtcMem.reads ins js h).2 raw) =
      .ok { t with vins := t.vins.mapIdx fun j i => if js.count j % 2 = 0 then i else { i with txid := i.txid.reverse } }
  | [], h, t, v, ha, ht, hi, _ => by
    obtain ⟨l, st⟩ := BtcMem.getTxID_step v ha ht hi
    refine ⟨by simp, ?_, fun _ _ => rfl, ?_⟩
    · intro j i s hj hs
      simp only [BtcMem.reads, BtcMem.getVout]
      rw [(st j i s hj hs).1]
    · simp only [BtcMem.reads, List.count_nil, Nat.zero_mod, if_true]
      rw [ht]
      have : (t.vins.mapIdx fun _ i => i) = t.vins := by
        apply List.ext_getElem?
        intro k
        simp
      rw [this]
  | j0 :: js, h, t, v, ha, ht, hi, hb => by
    obtain ⟨l, st⟩ := BtcMem.getTxID_step v ha ht hi
    have h0 : j0 < t.vins.length := hb j0 (by simp)
    have g1 : t.vins[j0]? = some t.vins[j0] := List.getElem?_eq_getElem h0
    have g2 : ins[j0]? = some (ins[j0]'(by omega)) := List.getElem?_eq_getElem (by omega)
    obtain ⟨s1, s2, s3, s4, s5, _, s7, s8⟩ := st j0 _ _ g1 g2
    generalize ins[j0]'(by omega) = s0 at g2 s1 s2 s3 s4 s5 s7 s8
    have hr : BtcMem.reads ins (j0 :: js) h = ((BtcMem.getTxID h s0).1 :: (BtcMem.reads ins js (BtcMem.getTxID h s0).2).1,
        (BtcMem.reads ins js (BtcMem.getTxID h s0).2).2) := by
      conv_lhs => unfold BtcMem.reads
      rw [g2]
    obtain ⟨r1, r2, r3, r4⟩ := BtcMem.reads_history js (BtcMem.getTxID h s0).2 _ s3 s4 s7 s8
      (fun j hj => by simp only [List.length_modify]; exact hb j (by simp [hj]))
    rw [hr]
    simp only at r1 r2 r3 r4 ⊢
    have getm : ∀ k, (t.vins.modify j0 fun i => BtcMem.setId i.txid.reverse i)[k]? =
        if k = j0 then t.vins[k]?.map (fun i => BtcMem.setId i.txid.reverse i) else t.vins[k]? := by
      intro k
      rw [List.getElem?_modify]
      by_cases e : j0 = k
      · simp only [if_pos e, if_pos e.symm]; rfl
      · simp only [if_neg e, if_neg (Ne.symm e)]; simp
    refine ⟨?_, ?_, ?_, ?_⟩
    · intro k j hk
      cases k with
      | zero =>
        simp only [List.getElem?_cons_zero, Option.some.injEq] at hk
        subst hk
        exact ⟨_, g1, by simp [s2]⟩
      | succ k =>
        simp only [List.getElem?_cons_succ] at hk
        obtain ⟨i, hi1, hi2⟩ := r1 k j hk
        rw [getm] at hi1
        by_cases e : j = j0
        · subst e
          rw [if_pos rfl, g1] at hi1
          simp only [Option.map_some, Option.some.injEq] at hi1
          refine ⟨_, g1, ?_⟩
          rw [List.getElem?_cons_succ, hi2, ← hi1, List.take_succ_cons, List.count_cons_self]
          simp only [BtcMem.setId, List.reverse_reverse]
          congr 2
          split <;> split <;> first | rfl | omega
        · rw [if_neg e] at hi1
          refine ⟨i, hi1, ?_⟩
          rw [List.getElem?_cons_succ, hi2, List.take_succ_cons, List.count_cons_of_ne (Ne.symm e)]
    · intro j i s hj hs
      by_cases e : j = j0
      · have : (t.vins.modify j0 fun i => BtcMem.setId i.txid.reverse i)[j]? = some (BtcMem.setId i.txid.reverse i) := by
          rw [getm, if_pos e, hj]; rfl
        exact r2 j (BtcMem.setId i.txid.reverse i) s this hs
      · exact r2 j i s (by rw [getm, if_neg e]; exact hj) hs
    · intro a hne
      rw [r3 a hne, s5 a hne]
    · rw [r4]
      congr 2
      apply List.ext_getElem?
      intro k
      simp only [List.getElem?_mapIdx, getm]
      cases hk : t.vins[k]? with
      | none => simp
      | some i =>
        by_cases e : k = j0
        · subst e
          simp only [if_true, Option.map_some, BtcMem.setId, List.reverse_reverse, List.count_cons_self]
          congr 1
          split <;> split <;> first | rfl | omega
        · simp only [if_neg e, Option.map_some]
          rw [List.count_cons_of_ne (Ne.symm e)]

/-- C31, every history of reads of the ids of a decoded transaction, in memory: a read returns the displayed id if the id of this input was read an even
number of times before, and otherwise the id in wire order; output numbers are always right; after the history the caller's own raw bytes decode to the
transaction in which the ids that were read an odd number of times are reversed; no other memory changes. (Missing: reads that leave the transaction
alone.) -/
theorem C31_history_partial (seg : Bool) (h : Heap) (raw : Slice) (v : Valid h raw) (ha : raw.arr < h.length) (t : Tx)
    (ht : decodeTx (raw.cap - raw.len) seg (read h raw) = .ok t) (js : List Nat) (hj : ∀ j ∈ js, j < t.vins.length) :
    ∃ ins, BtcMem.decodeInputs seg h raw = .ok ins ∧ ins.length = t.vins.length ∧
    (∀ (k j : Nat), js[k]? = some j → ∃ i, t.vins[j]? = some i ∧
      (BtcMem.reads ins js h).1[k]? = some (Hex.encode (if (js.take k).count j % 2 = 0 then i.txid.reverse else i.txid))) ∧
    (∀ (j : Nat) (i : TxIn) (s : BtcMem.Input), t.vins[j]? = some i → ins[j]? = some s → BtcMem.getVout (BtcMem.reads ins js h).2 s = leNat i.vout) ∧
    (∀ a, a ≠ raw.arr → (BtcMem.reads ins js h).2.getD a [] = h.getD a []) ∧
    decodeTx (raw.cap - raw.len) seg (read (BtcMem.reads ins js h).2 raw) =
      .ok { t with vins := t.vins.mapIdx fun j i => if js.count j % 2 = 0 then i else { i with txid := i.txid.reverse } } := by
  cases hi : BtcMem.decodeInputs seg h raw with
  | ok ins =>
    obtain ⟨l, _⟩ := BtcMem.getTxID_step v ha ht hi
    exact ⟨ins, rfl, l, BtcMem.reads_history js h t v ha ht hi hj⟩
  | err => unfold BtcMem.decodeInputs at hi; rw [ht] at hi; cases hi
  | panic => unfold BtcMem.decodeInputs at hi; rw [ht] at hi; cases hi

/-- C31 fails outside the transaction too: reading an id changes the raw bytes that the caller passed to `DecodeRawTransaction`, for every id that is not a
palindrome; afterwards they are the raw bytes of a transaction that spends something else. -/
theorem C31_bytes_violated (seg : Bool) (h : Heap) (raw : Slice) (v : Valid h raw) (ha : raw.arr < h.length) (t : Tx)
    (ht : decodeTx (raw.cap - raw.len) seg (read h raw) = .ok t) (ins : List BtcMem.Input) (hi : BtcMem.decodeInputs seg h raw = .ok ins)
    (j : Nat) (i : TxIn) (s : BtcMem.Input) (hj : t.vins[j]? = some i) (hs : ins[j]? = some s) (hp : i.txid.reverse ≠ i.txid) :
    read (BtcMem.getTxID h s).2 raw ≠ read h raw ∧
    decodeTx (raw.cap - raw.len) seg (read (BtcMem.getTxID h s).2 raw) =
      .ok { t with vins := t.vins.modify j fun i => { i with txid := i.txid.reverse } } := by
  obtain ⟨_, st⟩ := BtcMem.getTxID_step v ha ht hi
  obtain ⟨_, _, _, _, _, _, s7, _⟩ := st j i s hj hs
  refine ⟨fun e => ?_, s7⟩
  rw [e, ht] at s7
  have := congrArg Tx.vins (Res.ok.inj s7)
  simp only at this
  have := congrArg (fun l => l[j]?) this
  simp only [List.getElem?_modify, hj, if_true, Option.map_eq_map, Option.map_some, Option.some.injEq, BtcMem.setId] at this
  exact hp (congrArg TxIn.txid this).symm

/-- The hypotheses are met: a transaction with two inputs whose ids are not palindromes. -/
example : let id1 : Bytes := 1 :: List.replicate 31 0
    let id2 : Bytes := 2 :: List.replicate 31 0
    let b : Bytes := [2, 0, 0, 0, 2] ++ id1 ++ [0, 0, 0, 0, 0, 255, 255, 255, 255] ++ id2 ++ [1, 0, 0, 0, 0, 255, 255, 255, 255] ++
      [1, 1, 0, 0, 0, 0, 0, 0, 0, 1, 0x51, 0, 0, 0, 0]
    let raw : Slice := ⟨0, 0, b.length, b.length⟩
    Valid [b] raw ∧ (match decodeTx 0 true (read [b] raw) with
      | .ok t => t.vins.map TxIn.txid == [id1, id2]
      | _ => false) = true ∧ (match BtcMem.decodeInputs true [b] raw with
      | .ok ins => (BtcMem.reads ins [0, 1, 0] [b]).1 == [Hex.encode id1.reverse, Hex.encode id2.reverse, Hex.encode id1]
      | _ => false) = true := by
  refine ⟨⟨?_, ?_⟩, ?_, ?_⟩ <;> decide +kernel

end Verif
