import Verif.Lemmas.Verge

/-! Lemmas about `vollarTransaction`. -/

namespace Verif.Vollar
open Verif Verif.Spec Verif.Spec.Verge
open Verif.HyperCash (mapAll mapAll_iff)
open Verif.Verge (Vin Vout TxIn SigPub InOf OutOf mIn inBytes Fits Small Valid NonZero)

/-- The structures of the code. -/
def mOut (o : Out) : TxOut := ⟨leBytes 8 o.amount, 0, push o.script, List.replicate 32 0⟩
def mTx (t : VTx) : TxStruct := ⟨[1, 0, 0, 0], 0, t.ins.map mIn, t.outs.map mOut⟩

theorem newTxOut_iff (H : Hashes) (v : Vout) (x : TxOut) :
    newTxOut H v = .ok x ↔ ∃ o, OutOf H [0x10, 0x1c] [0x10, 0x41] v o ∧ x = mOut o := by
  unfold newTxOut OutOf mOut
  constructor
  · intro h
    obtain ⟨⟨p, k⟩, hd, h⟩ := Res.bind_eq_ok.mp h
    obtain ⟨hl, hb⟩ := (Btc.decodeCheck_iff H _ _ _).mp hd
    simp only at h
    by_cases hp : p = [0x10, 0x1c]
    · rw [if_pos hp] at h
      subst hp
      cases h
      refine ⟨⟨v.amount.toNat, p2pkhScript k⟩, ⟨rfl, k, hl, .inl ⟨hb, rfl⟩⟩, ?_⟩
      simp only [push, p2pkhScript, List.length_append, List.length_cons, List.length_nil, hl]
      rfl
    · rw [if_neg hp] at h
      by_cases hq : p = [0x10, 0x41]
      · rw [if_pos hq] at h
        subst hq
        cases h
        refine ⟨⟨v.amount.toNat, p2shScript k⟩, ⟨rfl, k, hl, .inr ⟨hb, rfl⟩⟩, ?_⟩
        simp only [push, p2shScript, List.length_append, List.length_cons, List.length_nil, hl]
        rfl
      · rw [if_neg hq] at h; cases h
  · rintro ⟨o, ⟨h1, k, hl, ⟨hb, h3⟩ | ⟨hb, h3⟩⟩, rfl⟩
    · rw [(Btc.decodeCheck_iff H _ _ _).mpr ⟨hl, hb⟩, Res.bind_ok]
      simp only [if_true]
      rw [h1, h3]
      simp only [push, p2pkhScript, List.length_append, List.length_cons, List.length_nil, hl]
      rfl
    · rw [(Btc.decodeCheck_iff H _ _ _).mpr ⟨hl, hb⟩, Res.bind_ok]
      simp only [if_true]
      rw [if_neg (by decide), h1, h3]
      simp only [push, p2shScript, List.length_append, List.length_cons, List.length_nil, hl]
      rfl

/-- The transaction a request describes. -/
def TxOf (H : Hashes) (ins : List Vin) (outs : List Vout) (t : VTx) : Prop :=
  List.Forall₂ InOf ins t.ins ∧ List.Forall₂ (OutOf H [0x10, 0x1c] [0x10, 0x41]) outs t.outs

theorem newTxStruct_iff (H : Hashes) (ins : List Vin) (outs : List Vout) (x : TxStruct) :
    newTxStruct H ins outs = .ok x ↔ ∃ t, TxOf H ins outs t ∧ x = mTx t := by
  have ho : ∀ xs, mapAll (newTxOut H) outs = .ok xs ↔ ∃ os, List.Forall₂ (OutOf H [0x10, 0x1c] [0x10, 0x41]) outs os ∧ xs = os.map mOut := by
    intro xs
    rw [mapAll_iff, Verge.forall₂_congr_mem fun a _ b => newTxOut_iff H a b, Elastos.forall₂_exists]
  unfold newTxStruct TxOf mTx
  constructor
  · intro h
    obtain ⟨i, hi, h⟩ := Res.bind_eq_ok.mp h
    obtain ⟨o, ho', h⟩ := Res.bind_eq_ok.mp h
    cases h
    obtain ⟨is, his, rfl⟩ := (Verge.newIns_iff _ _).mp hi
    obtain ⟨os, hos, rfl⟩ := (ho _).mp ho'
    exact ⟨⟨is, os⟩, ⟨his, hos⟩, rfl⟩
  · rintro ⟨t, ⟨h2, h3⟩, rfl⟩
    rw [(Verge.newIns_iff _ _).mpr ⟨_, h2, rfl⟩, Res.bind_ok, (ho _).mpr ⟨_, h3, rfl⟩, Res.bind_ok]

/-! ### Serialisation -/

/-- An output of the code on the wire. -/
def outBytes (o : Out) : Bytes := leBytes 8 o.amount ++ 0 :: push o.script ++ List.replicate 32 0

theorem outs_toBytes (os : List Out) : (os.map mOut).flatMap TxOut.toBytes = os.flatMap outBytes := by
  rw [List.flatMap_map]; rfl

/-- The bytes of an unsigned transaction of the code. -/
def rawBytes (t : VTx) : Bytes :=
  [1, 0, 0, 0] ++ 0 :: UInt8.ofNat t.ins.length :: t.ins.flatMap inBytes ++ UInt8.ofNat t.outs.length :: t.outs.flatMap outBytes

theorem mTx_toBytes (t : VTx) : (mTx t).toBytes = .ok (rawBytes t) := by
  unfold TxStruct.toBytes mTx rawBytes
  simp only
  rw [Verge.ins_toBytes, Res.bind_ok, outs_toBytes, List.length_map, List.length_map, List.flatMap]
  rfl

theorem outs_wire {outs : List Out} (h : ∀ o ∈ outs, o.script.length < 253) : outs.flatMap outBytes = outs.flatMap voutWire := by
  refine List.flatMap_congr fun o ho => ?_
  unfold voutWire outBytes
  rw [Verge.varBytes_push (h o ho)]
  simp

theorem rawBytes_eq (t : VTx) (h : Small t.ins t.outs) : rawBytes t = t.unsigned := by
  obtain ⟨h1, h2, _, h4⟩ := h
  unfold rawBytes VTx.unsigned VTx.body
  rw [Verge.zipWith_map_self, Verge.ofNat_cons h1, Verge.ofNat_cons h2, outs_wire h4]
  simp only [Verge.inWire_nil, List.append_assoc, List.cons_append]
  rfl

theorem hashData_eq (H : Hashes) (t : VTx) (h : Small t.ins t.outs) (i : In) (hi : i ∈ t.ins) :
    (mTx t).hashData H (mIn i) = t.preimage (H.hash .doubleSha256) i := by
  obtain ⟨h1, h2, h3, h4⟩ := h
  unfold TxStruct.hashData VTx.preimage mTx
  simp only
  rw [outs_toBytes, outs_wire h4, Verge.varBytes_push (h3 i hi), List.flatMap_map, List.flatMap_map]
  simp only [List.append_assoc]
  rfl

/-! ### Reading -/

theorem readOut_ok (o : Out) (h : o.script.length < 256) (r : Bytes) : readOut (outBytes o ++ r) = .ok (mOut o, r) := by
  unfold readOut outBytes
  simp only [List.append_assoc, List.cons_append]
  rw [Btc.takeN_append _ _ (leBytes_length _ _), Res.bind_ok]
  simp only [Btc.take1, Res.bind_ok]
  rw [Verge.readScript_ok _ _ h, Res.bind_ok]
  simp only
  rw [Btc.takeN_append _ _ (List.length_replicate ..), Res.bind_ok]
  rfl

/-- What the text form gives back. -/
def bare (t : VTx) : TxStruct := { mTx t with ins := t.ins.map fun i => ({ mIn i with lock := [] } : TxIn) }

theorem decodeRaw_ok (H : Hashes) (ins : List Vin) (outs : List Vout) (t : VTx) (ht : TxOf H ins outs t) (hf : Fits ins outs) :
    decodeRaw (Hex.encode (rawBytes t) ++ ins.flatMap fun v => 0x3a :: v.lock) = .ok (bare t, ins.map (·.lock)) := by
  obtain ⟨hi, ho⟩ := ht
  obtain ⟨f1, f2, f3, f4⟩ := hf
  unfold decodeRaw
  rw [Verge.split_locks _ _ (fun h => (HyperCash.hex_mem _ _ h).1 rfl) (fun v hv => by
    obtain ⟨i, _, h⟩ := Elastos.forall₂_mem hi.flip v hv
    exact Verge.decode_no_colon _ _ h.2.2)]
  simp only
  rw [if_neg (by simpa using f1), Hex.decode_encode, Res.bind_ok]
  have e : rawBytes t = [1, 0, 0, 0] ++ (0 :: UInt8.ofNat t.ins.length :: (t.ins.flatMap inBytes ++
      UInt8.ofNat t.outs.length :: (t.outs.flatMap outBytes ++ []))) := by
    simp [rawBytes]
  rw [e, Btc.takeN_append (n := 4) [1, 0, 0, 0] _ rfl, Res.bind_ok]
  simp only [Btc.take1, Res.bind_ok]
  rw [show (UInt8.ofNat t.ins.length).toNat = t.ins.length from by
      rw [UInt8.toNat_ofNat']; have := hi.length_eq; omega,
    Verge.readMany_flat (k := fun i => ({ mIn i with lock := [] } : TxIn)) t.ins
      (fun i hm r => Verge.readIn_ok i (Verge.txid_length hi f4 i hm) r), Res.bind_ok]
  simp only [Res.bind_ok]
  rw [show (UInt8.ofNat t.outs.length).toNat = t.outs.length from by
      rw [UInt8.toNat_ofNat']; have := ho.length_eq; omega,
    Verge.readMany_flat (k := mOut) t.outs (fun o hm r => readOut_ok o (by
      obtain ⟨v, _, _, hd⟩ := Elastos.forall₂_mem ho o hm
      have := Verge.dest_length hd
      omega) r), Res.bind_ok]
  simp only
  rw [if_neg (by simp), if_neg (by simp [hi.length_eq])]
  rfl

theorem setLocks_ok : ∀ {vs : List Vin} {is : List In}, List.Forall₂ InOf vs is →
    setLocks (is.map fun i => ({ mIn i with lock := [] } : TxIn)) (vs.map (·.lock)) = .ok (is.map mIn)
  | _, _, .nil => rfl
  | _, _, .cons (a := v) (b := i) h hs => by
    rw [List.map_cons, List.map_cons, List.map_cons]
    unfold setLocks
    rw [h.2.2, Res.bind_ok, setLocks_ok hs, Res.bind_ok]
    rfl

/-! ### Combining -/

theorem signLoop_iff (E : Btc.Curve) : ∀ (hs : List Bytes) (sps : List SigPub) (is xs : List TxIn) (pass : Bool), hs.length = is.length →
    sps.length = is.length → (signLoop E (hs.map Hex.encode) sps is = .ok (pass, xs) ↔
      (∀ s ∈ sps, E.decompress s.pub ≠ []) ∧ (pass = true ↔ List.Forall₂ (Valid E) hs sps) ∧
        xs = List.zipWith (fun i sp => ({ i with sigPub := some sp } : TxIn)) is sps)
  | [], [], [], xs, pass, _, _ => by
    unfold signLoop
    constructor
    · intro h; cases h; exact ⟨by simp, by simp, rfl⟩
    · rintro ⟨_, h, rfl⟩
      rw [h.mpr .nil]
      rfl
  | h :: hs, sp :: sps, i :: is, xs, pass, l1, l2 => by
    have ih := fun xs pass => signLoop_iff E hs sps is xs pass (by simpa using l1) (by simpa using l2)
    rw [List.map_cons]
    unfold signLoop
    rw [Hex.decodePrefix_encode, List.forall₂_cons, List.zipWith_cons_cons, List.forall_mem_cons]
    match hd : E.decompress sp.pub with
    | [] =>
      constructor
      · intro h; cases h
      · rintro ⟨⟨h, _⟩, _⟩; exact absurd rfl h
    | p0 :: p =>
      rw [slice_ok (by simp) (le_refl _)]
      simp only [List.take_length, List.drop_succ_cons, List.drop_zero, Res.bind_ok]
      have hv : Valid E h sp ↔ E.verify p h sp.sig = true := by
        unfold Valid
        rw [hd]
        constructor
        · rintro ⟨_, _, e, g⟩; cases e; exact g
        · intro g; exact ⟨p0, p, rfl, g⟩
      constructor
      · intro e
        obtain ⟨⟨q, r⟩, hr, e⟩ := Res.bind_eq_ok.mp e
        cases e
        obtain ⟨g1, g2, rfl⟩ := (ih _ _).mp hr
        refine ⟨⟨by simp, g1⟩, ?_, rfl⟩
        rw [Bool.and_eq_true, hv, g2]
      · rintro ⟨⟨_, g1⟩, g2, rfl⟩
        classical
        rw [(ih _ (decide (List.Forall₂ (Valid E) hs sps))).mpr ⟨g1, by simp, rfl⟩, Res.bind_ok]
        have : pass = (E.verify p h sp.sig && decide (List.Forall₂ (Valid E) hs sps)) := by
          rw [Bool.eq_iff_iff, Bool.and_eq_true, g2, hv, decide_eq_true_eq]
        rw [this]
  | [], _ :: _, _, _, _, l1, l2 => by simp at l1 l2; omega
  | [], [], _ :: _, _, _, l1, l2 => by simp at l1
  | _ :: _, [], _, _, _, l1, l2 => by simp at l1 l2; omega
  | _ :: _, _ :: _, [], _, _, l1, l2 => by simp at l1

theorem verifyAndCombine_iff (H : Hashes) (E : Btc.Curve) (text : Bytes) (t : VTx) (ins : List Vin) (hi : List.Forall₂ InOf ins t.ins)
    (hd : decodeRaw text = .ok (bare t, ins.map (·.lock))) (hne : t.ins ≠ []) (h1 : t.ins.length < 253) (h2 : t.outs.length < 253)
    (h4 : ∀ o ∈ t.outs, o.script.length < 253) (sps : List SigPub) (pass : Bool) (out : Bytes)
    (hw : ∀ s ∈ sps, s.sig.length = 64 ∧ s.pub.length = 33) :
    verifyAndCombine H E text sps = .ok (pass, out) ↔ sps.length = t.ins.length ∧ (∀ s ∈ sps, E.decompress s.pub ≠ []) ∧
      (pass = true ↔ List.Forall₂ (Valid E) (t.ins.map fun i => H.hash .doubleSha256 ((mTx t).hashData H (mIn i))) sps) ∧
      (∀ s ∈ sps, NonZero s) ∧
      ∃ us, List.Forall₂ (fun sp u => IsUnlock sp.sig sp.pub u) sps us ∧ out = Hex.encode (t.signed us) := by
  unfold verifyAndCombine
  rw [hd, Res.bind_ok]
  simp only
  have hl : (bare t).ins.length = t.ins.length := by simp [bare]
  by_cases hlen : sps.length = t.ins.length
  · rw [if_neg (by rw [hl]; simp [hlen, hi.length_eq]), show (bare t).ins = t.ins.map fun i => ({ mIn i with lock := [] } : TxIn) from rfl,
      setLocks_ok hi, Res.bind_ok]
    rw [show ({ bare t with ins := t.ins.map mIn } : TxStruct) = mTx t from rfl]
    unfold TxStruct.getHash
    have hl' : (mTx t).ins.length = t.ins.length := by simp [mTx]
    rw [if_neg (by rw [hl']; simpa using hne), Res.bind_ok]
    have hm : (mTx t).ins.map (fun i => Hex.encode (H.hash .doubleSha256 ((mTx t).hashData H i))) =
        (t.ins.map fun i => H.hash .doubleSha256 ((mTx t).hashData H (mIn i))).map Hex.encode := by
      rw [show (mTx t).ins = t.ins.map mIn from rfl, List.map_map, List.map_map]; rfl
    rw [hm]
    generalize hhs : t.ins.map (fun i => H.hash .doubleSha256 ((mTx t).hashData H (mIn i))) = hs
    have hhl : hs.length = t.ins.length := by rw [← hhs]; simp
    have hz : ∀ us : List Bytes, sps.length = us.length → UInt8.ofNat (List.zipWith (fun i sp => ({ i with sigPub := some sp } : TxIn)) (t.ins.map mIn) sps).length = UInt8.ofNat t.ins.length := by
      intro us _
      rw [List.length_zipWith, List.length_map, hlen, Nat.min_self]
    constructor
    · intro h
      obtain ⟨⟨q, is⟩, hi', h⟩ := Res.bind_eq_ok.mp h
      obtain ⟨b, hb, h⟩ := Res.bind_eq_ok.mp h
      cases h
      obtain ⟨g0, g1, rfl⟩ := (signLoop_iff E hs sps _ is q (by simp [hhl]) (by simp [hlen])).mp hi'
      unfold TxStruct.toBytes at hb
      obtain ⟨bs, hbs, hb⟩ := Res.bind_eq_ok.mp hb
      obtain ⟨g2, us, g3, rfl⟩ := (Verge.signed_toBytes t.ins sps bs hlen.symm hw).mp hbs
      refine ⟨hlen, g0, g1, g2, us, g3, ?_⟩
      cases hb
      unfold VTx.signed VTx.body
      simp only [bare, mTx]
      rw [hz us g3.length_eq, List.length_map, List.length_map, Verge.ofNat_cons h1, Verge.ofNat_cons h2, outs_toBytes, outs_wire h4]
      simp only [List.append_assoc, List.cons_append]
      rfl
    · rintro ⟨_, g0, g1, g2, us, g3, rfl⟩
      rw [(signLoop_iff E hs sps (t.ins.map mIn) _ pass (by simp [hhl]) (by simp [hlen])).mpr ⟨g0, g1, rfl⟩, Res.bind_ok]
      unfold TxStruct.toBytes
      simp only
      rw [(Verge.signed_toBytes t.ins sps _ hlen.symm hw).mpr ⟨g2, us, g3, rfl⟩, Res.bind_ok, Res.bind_ok]
      unfold VTx.signed VTx.body
      simp only [bare, mTx]
      rw [hz us g3.length_eq, List.length_map, List.length_map, Verge.ofNat_cons h1, Verge.ofNat_cons h2, outs_toBytes, outs_wire h4]
      simp only [List.append_assoc, List.cons_append]
      rfl
  · rw [if_pos (by rw [hl]; exact .inl fun h => hlen h.symm)]
    constructor
    · intro h; cases h
    · rintro ⟨h, _⟩
      exact absurd h hlen

end Verif.Vollar
