import Verif.Props.HyperCash

/-! C76, C77: reading the inputs back, and signing, in package `hypercashTransaction`. -/

namespace Verif
open Verif.HyperCash Verif.Spec Verif.Spec.HyperCash

namespace HyperCash

theorem inWire_length {i : In} (h : i.txid.length = 32) : (inWire i).length = 41 := by simp [inWire, h]

theorem vinLoop_eq : ∀ (t : List In) (r : Bytes), (∀ i ∈ t, i.txid.length = 32 ∧ i.vout < 2 ^ 32) →
    vinLoop t.length (t.flatMap inWire ++ r) = .ok (t.map fun i => (Hex.encode i.txid, UInt32.ofNat i.vout))
  | [], _, _ => rfl
  | i :: t, r, h => by
    obtain ⟨⟨h1, h2⟩, h⟩ := List.forall_mem_cons.mp h
    have hl := inWire_length h1
    rw [List.length_cons, List.flatMap_cons, List.append_assoc]
    unfold vinLoop
    rw [if_neg (by simp only [List.length_append, hl]; omega), if_neg (by simp only [List.length_drop, List.length_append, hl]; omega), List.drop_left' hl, vinLoop_eq t r h, Res.bind_ok, List.map_cons]
    have e1 : (inWire i ++ (t.flatMap inWire ++ r)).take 32 = i.txid.reverse := by
      unfold inWire
      simp only [List.append_assoc]
      exact List.take_left' (by simp [h1])
    have e2 : ((inWire i ++ (t.flatMap inWire ++ r)).drop 32).take 4 = leBytes 4 i.vout := by
      unfold inWire
      simp only [List.append_assoc]
      rw [List.drop_left' (by simp [h1])]
      exact List.take_left' (by simp)
    rw [e1, e2, List.reverse_reverse, leNat_leBytes_of_lt (by simpa using h2)]

theorem vinLoop_ok : ∀ (n : Nat) (b : Bytes), 41 * n ≤ b.length → ∃ l, vinLoop n b = .ok l
  | 0, _, _ => ⟨_, rfl⟩
  | n + 1, b, h => by
    unfold vinLoop
    rw [if_neg (by omega), if_neg (by simp; omega)]
    obtain ⟨l, hl⟩ := vinLoop_ok n (b.drop 41) (by simp; omega)
    rw [hl, Res.bind_ok]
    exact ⟨_, rfl⟩

theorem getVinList_text (raw : Bytes) (xs : List TxIn) (h : xs ≠ []) (h5 : 5 ≤ raw.length) :
    getVinList (Hex.encode raw ++ xs.flatMap fun x => 0x3a :: piece x) = (do
      let c ← index raw 4
      if c.toNat = 0 ∨ c.toNat ≠ xs.length then .err else vinLoop c.toNat (raw.drop 5)) := by
  unfold getVinList
  rw [split_text]
  simp only [List.length_map]
  rw [if_neg (by simpa using h), Hex.decode_encode, Res.bind_ok, if_neg (by omega), if_neg (by omega)]

/-- The serialisation behind the four bytes of version and type. -/
theorem body_drop (t : Tx) : ∃ rest, t.body 0 = [1, 0, 0, 0] ++ (compactSize t.ins.length ++ (t.ins.flatMap inWire ++ rest)) ∧ 8 ≤ rest.length := by
  refine ⟨compactSize t.outs.length ++ t.outs.flatMap outWire ++ leBytes 4 t.lockTime ++ leBytes 4 t.expiry, ?_, by simp; omega⟩
  unfold Tx.body
  have : leBytes 2 0 = [0, 0] := by decide
  rw [this]
  simp only [List.append_assoc]
  rfl

/-- A list that repeats with period two. -/
theorem period_two (a b : UInt8) : ∀ (n : Nat) (x : Bytes), x.length = 2 * n → x = (a :: b :: x).take (2 * n) → x = (List.replicate n [a, b]).flatten
  | 0, x, h, _ => by simpa using h
  | n + 1, x, h, e => by
    rw [show 2 * (n + 1) = 2 * n + 1 + 1 from by omega, List.take_succ_cons, List.take_succ_cons] at e
    have hy : (x.take (2 * n)).length = 2 * n := by simp; omega
    have e2 : x.take (2 * n) = (a :: b :: x.take (2 * n)).take (2 * n) := by
      conv_lhs => rw [e]
    rw [List.replicate_succ, List.flatten_cons, ← period_two a b n _ hy e2]
    exact e

theorem createEmpty_isOk (H : Hashes) (ins : List Vin) (outs : List Vout) (a b : UInt32) (h : (newTxStruct H ins outs a b).isOk = true)
    (h1 : ins ≠ []) (h2 : outs ≠ []) : ∃ text hashes, createEmpty H ins outs a b = .ok (text, hashes) := by
  unfold createEmpty
  rw [if_neg (by simp [h1, h2])]
  match hx : newTxStruct H ins outs a b with
  | .ok x => rw [Res.bind_ok, create_eq]; exact ⟨_, _, rfl⟩
  | .err => rw [hx] at h; cases h
  | .panic => rw [hx] at h; cases h

end HyperCash

/-- C76: for the text of a created transaction with less than 253 inputs, `GetVinList` gives the ids (in lower case) and output numbers of
the inputs, in order. Missing: 253 and more inputs, see the next two theorems. -/
theorem C76_vin_list_partial (H : Hashes) (ins : List Vin) (outs : List Vout) (lockTime expiry : UInt32) (text : Bytes) (hashes : List Bytes)
    (h : createEmpty H ins outs lockTime expiry = .ok (text, hashes)) (hn : ins.length < 253) :
    ∃ l, getVinList text = .ok l ∧
      List.Forall₂ (fun v r => ∃ id, Hex.decode v.txid = .ok id ∧ r = (Hex.encode id, v.vout)) ins l := by
  unfold createEmpty at h
  split at h
  · cases h
  obtain ⟨x, hx, h⟩ := Res.bind_eq_ok.mp h
  obtain ⟨h1, h2, t, ht, rfl⟩ := (newTxStruct_iff ..).mp hx
  rw [create_eq] at h
  cases h
  obtain ⟨rest, hb, hr⟩ := body_drop t
  have hlen := ht.1.length_eq
  have hne : t.ins ≠ [] := by
    intro h0; rw [h0] at hlen; exact h1 (List.length_eq_zero_iff.mp hlen)
  have hne' : (mTx t).ins ≠ [] := by simpa [mTx] using hne
  have hpos : 0 < t.ins.length := List.length_pos_iff.mpr hne
  rw [prefixBytes_eq t (shortOuts_of ht), hb, Btc.compactSize_small (by omega), getVinList_text _ _ hne' (by simp)]
  have hidx : index ([1, 0, 0, 0] ++ ([UInt8.ofNat t.ins.length] ++ (t.ins.flatMap inWire ++ rest))) 4 = .ok (UInt8.ofNat t.ins.length) := rfl
  have hc : (UInt8.ofNat t.ins.length).toNat = t.ins.length := UInt8.toNat_ofNat_of_lt' (by show _ < 256; omega)
  have hm : (mTx t).ins.length = t.ins.length := by simp [mTx]
  rw [hidx, Res.bind_ok, hc, if_neg (by rw [hm]; omega)]
  have hd : ([1, 0, 0, 0] ++ ([UInt8.ofNat t.ins.length] ++ (t.ins.flatMap inWire ++ rest))).drop 5 = t.ins.flatMap inWire ++ rest := rfl
  rw [hd]
  have hin : ∀ i ∈ t.ins, i.txid.length = 32 ∧ i.vout < 2 ^ 32 := by
    intro i hi
    obtain ⟨v, _, g⟩ := Elastos.forall₂_mem ht.1 i hi
    exact ⟨g.2.1, by rw [g.2.2.1]; exact v.vout.toNat_lt⟩
  refine ⟨_, vinLoop_eq t.ins rest hin, ?_⟩
  refine List.forall₂_map_right_iff.mpr (ht.1.imp ?_)
  rintro v i ⟨g1, _, g3, _⟩
  exact ⟨i.txid, g1, by rw [g3, UInt32.ofNat_toNat]⟩

example : (createEmpty toyHashes demoIns [⟨50, demo⟩] 0 0 >>= fun r => getVinList r.1) =
    .ok [(Hex.encode (List.replicate 32 1), 0), (Hex.encode (List.replicate 32 2), 3)] := by decide +kernel

/-- Where C76 fails (a): the text of a transaction with more than 253 inputs is refused. -/
theorem C76_many_violated (H : Hashes) (ins : List Vin) (outs : List Vout) (lockTime expiry : UInt32) (text : Bytes) (hashes : List Bytes)
    (h : createEmpty H ins outs lockTime expiry = .ok (text, hashes)) (hn : 253 < ins.length) : getVinList text = .err := by
  unfold createEmpty at h
  split at h
  · cases h
  obtain ⟨x, hx, h⟩ := Res.bind_eq_ok.mp h
  obtain ⟨h1, h2, t, ht, rfl⟩ := (newTxStruct_iff ..).mp hx
  rw [create_eq] at h
  cases h
  have hlen := ht.1.length_eq
  have hm : (mTx t).ins.length = t.ins.length := by simp [mTx]
  have hne' : (mTx t).ins ≠ [] := by
    intro h0; rw [h0] at hm; simp at hm; omega
  obtain ⟨rest, hb, hr⟩ := body_drop t
  rw [prefixBytes_eq t (shortOuts_of ht), hb]
  rw [hlen] at hn
  obtain ⟨c, u, hc, hne⟩ : ∃ c u, compactSize t.ins.length = c :: u ∧ c.toNat ≠ t.ins.length := by
    unfold compactSize
    rw [if_neg (by omega)]
    by_cases h1 : t.ins.length ≤ 0xffff
    · rw [if_pos h1]; exact ⟨_, _, rfl, fun h => by change 253 = _ at h; omega⟩
    rw [if_neg h1]
    split
    · exact ⟨_, _, rfl, fun h => by change 254 = _ at h; omega⟩
    · exact ⟨_, _, rfl, fun h => by change 255 = _ at h; omega⟩
  rw [hc, getVinList_text _ _ hne' (by simp)]
  have hidx : index ([1, 0, 0, 0] ++ (c :: u ++ (t.ins.flatMap inWire ++ rest))) 4 = .ok c := rfl
  rw [hidx, Res.bind_ok, if_pos]
  right
  rw [hm]
  exact hne

example : ∃ text hashes, createEmpty toyHashes (List.replicate 300 (demoIns.headD ⟨[], 0, 0, [], 0, 0⟩)) [⟨50, demo⟩] 0 0 = .ok (text, hashes) :=
  createEmpty_isOk _ _ _ _ _ (by decide +kernel) (List.cons_ne_nil _ _) (List.cons_ne_nil _ _)

/-- Where C76 fails (b): for a transaction with exactly 253 inputs, a list is returned, and its first id is not that of the first input
(unless that id is `00fd` repeated). -/
theorem C76_253_violated (H : Hashes) (v : Vin) (ins : List Vin) (outs : List Vout) (lockTime expiry : UInt32) (text : Bytes) (hashes : List Bytes)
    (h : createEmpty H (v :: ins) outs lockTime expiry = .ok (text, hashes)) (hn : (v :: ins).length = 253)
    (hv : Hex.decode v.txid ≠ .ok (List.replicate 16 [0x00, 0xfd]).flatten) :
    ∃ r l, getVinList text = .ok (r :: l) ∧ Hex.decode r.1 ≠ Hex.decode v.txid := by
  unfold createEmpty at h
  split at h
  · cases h
  obtain ⟨x, hx, h⟩ := Res.bind_eq_ok.mp h
  obtain ⟨h1, h2, t, ht, rfl⟩ := (newTxStruct_iff ..).mp hx
  rw [create_eq] at h
  cases h
  obtain ⟨rest, hb, hr⟩ := body_drop t
  have hlen := ht.1.length_eq
  have hm : (mTx t).ins.length = t.ins.length := by simp [mTx]
  have hne' : (mTx t).ins ≠ [] := by
    intro h0; rw [h0] at hm; simp at hm; omega
  have hcs : compactSize t.ins.length = [0xfd, 0xfd, 0x00] := by rw [← hlen, hn]; decide
  rw [prefixBytes_eq t (shortOuts_of ht), hb, hcs, getVinList_text _ _ hne' (by simp)]
  have hidx : index ([1, 0, 0, 0] ++ ([0xfd, 0xfd, 0x00] ++ (t.ins.flatMap inWire ++ rest))) 4 = .ok 0xfd := rfl
  have hd : ([1, 0, 0, 0] ++ ([0xfd, 0xfd, 0x00] ++ (t.ins.flatMap inWire ++ rest))).drop 5 = 0xfd :: 0x00 :: (t.ins.flatMap inWire ++ rest) := rfl
  rw [hidx, Res.bind_ok, if_neg (by rw [hm, ← hlen, hn]; decide), hd]
  match hti : t.ins, ht.1 with
  | i :: is, .cons hi his =>
    obtain ⟨g1, g2, _⟩ := hi
    rw [List.flatMap_cons, List.append_assoc]
    have hin : ∀ i ∈ is, i.txid.length = 32 := by
      intro i hi
      obtain ⟨v, _, g⟩ := Elastos.forall₂_mem his i hi
      exact g.2.1
    have hfl : (is.flatMap inWire).length = 41 * 252 := by
      have hisl : is.length = 252 := by rw [← his.length_eq]; simp at hn; omega
      rw [← hisl]
      clear hti his hisl
      induction is with
      | nil => rfl
      | cons j is ih =>
        obtain ⟨hj, hin⟩ := List.forall_mem_cons.mp hin
        rw [List.flatMap_cons, List.length_append, ih hin, inWire_length hj, List.length_cons]
        omega
    obtain ⟨l, hl⟩ := vinLoop_ok 252 ((0xfd :: 0x00 :: (inWire i ++ (is.flatMap inWire ++ rest))).drop 41) (by
      simp [hfl, inWire_length g2]; omega)
    have h253 : (0xfd : UInt8).toNat = 252 + 1 := rfl
    rw [h253]
    unfold vinLoop
    rw [if_neg (by simp [inWire_length g2]; omega), if_neg (by simp [inWire_length g2]; omega), hl, Res.bind_ok]
    refine ⟨_, _, rfl, ?_⟩
    rw [Hex.decode_encode, g1]
    intro e
    have e := Res.ok.inj e
    have e3 : (0xfd :: 0x00 :: (inWire i ++ (is.flatMap inWire ++ rest))).take 32 = (0xfd :: 0x00 :: i.txid.reverse).take 32 := by
      unfold inWire
      simp only [List.append_assoc, List.take_succ_cons]
      rw [List.take_append_of_le_length (by simp [g2])]
    rw [e3] at e
    have e4 : i.txid.reverse = (0xfd :: 0x00 :: i.txid.reverse).take (2 * 16) := by
      conv_lhs => rw [← e, List.reverse_reverse]
    have := period_two 0xfd 0x00 16 i.txid.reverse (by simp [g2]) e4
    apply hv
    rw [g1, ← List.reverse_reverse i.txid, this]
    decide

example : (∃ text hashes, createEmpty toyHashes (List.replicate 253 (demoIns.headD ⟨[], 0, 0, [], 0, 0⟩)) [⟨50, demo⟩] 0 0 = .ok (text, hashes)) ∧
    Hex.decode (demoIns.headD ⟨[], 0, 0, [], 0, 0⟩).txid ≠ .ok (List.replicate 16 [0x00, 0xfd]).flatten :=
  ⟨createEmpty_isOk _ _ _ _ _ (by decide +kernel) (List.cons_ne_nil _ _) (List.cons_ne_nil _ _), by decide +kernel⟩

/-! ### C77 -/

/-- C77: the signature returned has the same first half as the external one and the smaller of s and n - s in the second half, provided
n - s is at least 2^240 when it is used. Missing: smaller n - s, see `C77_low_s_violated`. -/
theorem C77_low_s_partial (sign : Bytes → Bytes → Option Bytes) (hash key sig : Bytes) (h : hash.length = 32)
    (hs : sign hash key = some sig) (hl : sig.length = 64) (hlt : beNat (sig.drop 32) < Btc.curveOrder)
    (h240 : Btc.curveOrder / 2 < beNat (sig.drop 32) → 2 ^ 240 ≤ Btc.curveOrder - beNat (sig.drop 32)) :
    signTransaction sign (Hex.encode hash) key =
      .ok (sig.take 32 ++ beBytes 32 (min (beNat (sig.drop 32)) (Btc.curveOrder - beNat (sig.drop 32)))) := by
  unfold signTransaction
  rw [Hex.decode_encode, Res.bind_ok, if_neg (by simpa using h), hs]
  simp only
  refine congrArg _ ?_
  unfold serilizeInPlace
  have hh : Btc.halfOrder = Btc.curveOrder / 2 := by decide +kernel
  simp only [hh]
  have l4 : (sig.drop 32).length = 32 := by simp; omega
  by_cases hgt : beNat (sig.drop 32) > Btc.curveOrder / 2
  · rw [if_pos hgt]
    have h240 := h240 hgt
    have hmin : min (beNat (sig.drop 32)) (Btc.curveOrder - beNat (sig.drop 32)) = Btc.curveOrder - beNat (sig.drop 32) := by
      generalize beNat (sig.drop 32) = v at *
      generalize Btc.curveOrder = n at *
      omega
    rw [hmin]
    generalize hv : beNat (sig.drop 32) = v at *
    have e1 : ((Btc.curveOrder : Int) - v).natAbs = Btc.curveOrder - v := by omega
    rw [e1]
    have hup : Btc.curveOrder - v < 256 ^ 32 := by
      have : Btc.curveOrder < 256 ^ 32 := by decide
      exact lt_of_le_of_lt (Nat.sub_le _ _) this
    have l1 := (OwKeychain.bigBytes_length_le (Btc.curveOrder - v) 32).mpr hup
    have l2 : ¬ (OwKeychain.bigBytes (Btc.curveOrder - v)).length ≤ 30 := by
      rw [OwKeychain.bigBytes_length_le, show (256 : Nat) ^ 30 = 2 ^ 240 by norm_num]
      exact not_lt.mpr h240
    have l3 : (OwKeychain.padLoop 32 0 (OwKeychain.bigBytes (Btc.curveOrder - v))).length = 32 := by
      rw [OwKeychain.pad_length _ l1]; omega
    unfold Btc.overwrite
    rw [l3, List.drop_of_length_le (by omega), List.append_nil]
    refine congrArg _ ?_
    apply beNat_inj
    · rw [l3, beBytes_length]
    · rw [OwKeychain.beNat_padLoop, OwKeychain.beNat_bigBytes, beNat_beBytes_of_lt hup]
  · rw [if_neg hgt]
    have hmin : min (beNat (sig.drop 32)) (Btc.curveOrder - beNat (sig.drop 32)) = beNat (sig.drop 32) := by
      generalize beNat (sig.drop 32) = v at *
      generalize Btc.curveOrder = n at *
      omega
    rw [hmin]
    conv_lhs => rw [← List.take_append_drop 32 sig]
    refine congrArg _ ?_
    have := beBytes_beNat (sig.drop 32)
    rw [l4] at this
    exact this.symm

example : beNat ((List.replicate 64 (0x90 : UInt8)).drop 32) < Btc.curveOrder ∧
    2 ^ 240 ≤ Btc.curveOrder - beNat ((List.replicate 64 (0x90 : UInt8)).drop 32) := by decide +kernel

/-- Where C77 fails: whenever n - s is positive and below 2^240, the second half of the result is neither s nor n - s, so the signature is not
valid any more. -/
theorem C77_low_s_violated (sign : Bytes → Bytes → Option Bytes) (hash key sig : Bytes) (h : hash.length = 32)
    (hs : sign hash key = some sig) (hl : sig.length = 64) (hlt : beNat (sig.drop 32) < Btc.curveOrder)
    (hsmall : Btc.curveOrder - beNat (sig.drop 32) < 2 ^ 240) :
    ∃ out, signTransaction sign (Hex.encode hash) key = .ok out ∧ out.length = 64 ∧ beNat (out.drop 32) ≠ Btc.curveOrder - beNat (sig.drop 32) ∧
      beNat (out.drop 32) ≠ beNat (sig.drop 32) := by
  unfold signTransaction
  rw [Hex.decode_encode, Res.bind_ok, if_neg (by simpa using h), hs]
  simp only
  refine ⟨_, rfl, ?_⟩
  unfold serilizeInPlace
  have hh : Btc.halfOrder = Btc.curveOrder / 2 := by decide +kernel
  simp only [hh]
  have l4 : (sig.drop 32).length = 32 := by simp; omega
  generalize hR : sig.drop 32 = R at *
  generalize hv : beNat R = v at *
  have hbig : Btc.curveOrder / 2 + 2 ^ 240 < Btc.curveOrder ∧ 2 ^ 249 < Btc.curveOrder - 2 ^ 240 := by decide +kernel
  have hgt : v > Btc.curveOrder / 2 := by
    clear hv
    generalize Btc.curveOrder / 2 = a at *
    generalize Btc.curveOrder = b at *
    generalize 2 ^ 240 = c at *
    omega
  rw [if_pos hgt]
  have e1 : ((Btc.curveOrder : Int) - v).natAbs = Btc.curveOrder - v := by omega
  rw [e1]
  have l1 := (OwKeychain.bigBytes_length_le (Btc.curveOrder - v) 30).mpr (by
    rw [show (256 : Nat) ^ 30 = 2 ^ 240 by norm_num]
    exact hsmall)
  have l3 := OwKeychain.pad_length (OwKeychain.bigBytes (Btc.curveOrder - v)) (by omega)
  have l0 : 1 ≤ (OwKeychain.bigBytes (Btc.curveOrder - v)).length := by
    by_contra hc
    have := (OwKeychain.bigBytes_length_le (Btc.curveOrder - v) 0).mp (by omega)
    have hpos : 0 < Btc.curveOrder - v := Nat.sub_pos_of_lt hlt
    omega
  have hval : beNat (OwKeychain.padLoop 32 0 (OwKeychain.bigBytes (Btc.curveOrder - v))) = Btc.curveOrder - v := by
    rw [OwKeychain.beNat_padLoop, OwKeychain.beNat_bigBytes]
  generalize OwKeychain.padLoop 32 0 (OwKeychain.bigBytes (Btc.curveOrder - v)) = P at *
  have hP : P.length ≤ 31 := by omega
  have hwlt : Btc.curveOrder - v < 256 ^ (OwKeychain.bigBytes (Btc.curveOrder - v)).length :=
    (OwKeychain.bigBytes_length_le _ _).mp le_rfl
  have etail : (Btc.overwrite sig 32 P).drop 32 = P ++ R.drop P.length := by
    unfold Btc.overwrite
    rw [List.append_assoc, List.drop_left' (by simp; omega), ← hR, List.drop_drop]
  have hlen : (Btc.overwrite sig 32 P).length = 64 := by
    unfold Btc.overwrite
    simp; omega
  refine ⟨hlen, ?_, ?_⟩
  · rw [etail, beNat_append, hval]
    have hpow : 256 ^ 1 ≤ 256 ^ (R.drop P.length).length := Nat.pow_le_pow_right (by norm_num) (by simp; omega)
    have hpos : 0 < Btc.curveOrder - v := Nat.sub_pos_of_lt hlt
    have := Nat.mul_le_mul_left (Btc.curveOrder - v) hpow
    generalize Btc.curveOrder - v = w at *
    generalize w * 256 ^ (R.drop P.length).length = z at *
    omega
  · rw [etail, beNat_append, hval]
    have htl := beNat_lt (R.drop P.length)
    have hk : (OwKeychain.bigBytes (Btc.curveOrder - v)).length + (R.drop P.length).length ≤ 31 := by
      rw [List.length_drop]; omega
    have hp := Nat.pow_le_pow_right (n := 256) (by norm_num) hk
    rw [Nat.pow_add] at hp
    have h249 : 256 ^ 31 < Btc.curveOrder - 2 ^ 240 := by decide +kernel
    have hvb : Btc.curveOrder - 2 ^ 240 < v := by
      clear hv hgt e1 hp htl hwlt hval l3 l1 l0 h249
      generalize 2 ^ 240 = c at *
      generalize Btc.curveOrder = b at *
      omega
    clear hv hbig hsmall
    generalize 256 ^ (OwKeychain.bigBytes (Btc.curveOrder - v)).length = A at *
    generalize 256 ^ (R.drop P.length).length = B at *
    have : (Btc.curveOrder - v + 1) * B ≤ A * B := Nat.mul_le_mul_right _ hwlt
    rw [Nat.add_mul, Nat.one_mul] at this
    intro hc
    rw [hc.symm] at hvb
    have := lt_of_lt_of_le (Nat.add_lt_add_left htl ((Btc.curveOrder - v) * B)) (this.trans hp)
    exact absurd (hvb.trans this) (not_lt.mpr h249.le)

example : ∃ (sign : Bytes → Bytes → Option Bytes) (hash key sig : Bytes), hash.length = 32 ∧ sign hash key = some sig ∧ sig.length = 64 ∧
    beNat (sig.drop 32) < Btc.curveOrder ∧ Btc.curveOrder - beNat (sig.drop 32) < 2 ^ 240 :=
  ⟨fun _ _ => some (List.replicate 32 1 ++ beBytes 32 (Btc.curveOrder - 5)), List.replicate 32 7, [], _, by decide, rfl, by decide +kernel,
    by decide +kernel, by decide +kernel⟩

end Verif
