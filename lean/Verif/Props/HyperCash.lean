import Verif.Lemmas.HyperCash

/-! C53, C75, C76, C77: transactions of package `hypercashTransaction`. -/

namespace Verif
open Verif.HyperCash Verif.Spec Verif.Spec.HyperCash

namespace HyperCash

/-- Combining the text made from a transaction structure. -/
theorem combine_iff (H : Hashes) (E : Btc.Curve) (t : TxStruct) (hne : t.ins ≠ []) (sps : List SigPub) (out : Bytes)
    (hw : ∀ s ∈ sps, s.sig.length = 64 ∧ s.pub.length = 33) :
    verifyAndCombine H E (Hex.encode (t.prefixBytes 0) ++ t.ins.flatMap fun x => 0x3a :: piece x) sps = .ok (true, out) ↔
      List.Forall₂ (Good E) ((List.range' 0 t.ins.length).map (hk H t)) sps ∧
      ∃ us, List.Forall₂ (fun sp u => IsUnlock sp.sig sp.pub u) sps us ∧
        out = Hex.encode (t.prefixBytes 0 ++ compactSize t.ins.length ++ (List.zipWith (fun x u => x.sigScript ++ varBytes u) t.ins us).flatten) := by
  obtain ⟨p2, p3, ps⟩ := prefix_set t
  have hlen : t.ins.length ≠ 0 := by simpa using hne
  unfold verifyAndCombine
  rw [split_text]
  simp only [List.length_map]
  rw [if_neg hlen]
  by_cases hl : t.ins.length = sps.length
  · have key := fun o => combineLoop_iff H E t t.ins sps 0 (t.prefixBytes 0 ++ varInt sps.length) o (fun m x hm => by simpa using hm) hl hw
    rw [hl] at key
    rw [if_neg (by simpa using hl), Hex.decode_encode]
    simp only
    rw [p2, Res.bind_ok, if_neg (by simp), p3, Res.bind_ok, if_neg (by simp), ps, hl]
    constructor
    · intro h
      obtain ⟨r, hr, h⟩ := Res.bind_eq_ok.mp h
      match r, hr, h with
      | some ret, hr, h =>
        cases h
        obtain ⟨h1, us, h2, rfl⟩ := (key _).mp hr
        exact ⟨h1, us, h2, rfl⟩
      | none, hr, h => cases h
    · rintro ⟨h1, us, h2, rfl⟩
      rw [(key _).mpr ⟨h1, us, h2, rfl⟩, Res.bind_ok, varInt_eq]
  · rw [if_pos (by simpa using hl)]
    constructor
    · intro h; cases h
    · rintro ⟨h, _⟩
      have := h.length_eq
      simp at this
      exact absurd this hl

theorem create_eq (H : Hashes) (t : TxStruct) : hashLoop H t 0 t.ins (Hex.encode (t.prefixBytes 0)) [] =
    .ok (Hex.encode (t.prefixBytes 0) ++ t.ins.flatMap (fun x => 0x3a :: piece x), (List.range' 0 t.ins.length).map fun k => Hex.encode (hk H t k)) := by
  rw [hashLoop_eq H t t.ins 0 _ _ (by omega), List.nil_append]

/-- What `verifyAndCombine` has to do with the text and the hashes a creation returned. -/
def CombineSpec (H : Hashes) (E : Btc.Curve) (ins : List Vin) (text : Bytes) (hashes : List Bytes) (sps : List SigPub) (out : Bytes) : Prop :=
  verifyAndCombine H E text sps = .ok (true, out) ↔
    List.Forall₂ (fun hash sp => ∃ hb p0 p, Hex.decode hash = .ok hb ∧ E.decompress sp.pub = p0 :: p ∧ E.verify p hb sp.sig = true ∧
      beNat (sp.sig.take 32) ≠ 0 ∧ beNat (sp.sig.drop 32) ≠ 0) hashes sps ∧
    ∃ raw us, text.takeWhile (· ≠ 0x3a) = Hex.encode raw ∧ List.Forall₂ (fun sp u => IsUnlock sp.sig sp.pub u) sps us ∧
      out = Hex.encode (raw ++ compactSize ins.length ++ (List.zipWith (fun v u => leBytes 8 v.amount.toNat ++ leBytes 4 v.height.toNat ++
        leBytes 4 v.blockIndex.toNat ++ varBytes u) ins us).flatten)

theorem takeWhile_text (b : Bytes) (xs : List TxIn) (h : xs ≠ []) :
    (Hex.encode b ++ xs.flatMap fun x => 0x3a :: piece x).takeWhile (· ≠ 0x3a) = Hex.encode b := by
  rw [List.takeWhile_append_of_pos fun c hc => by simpa using (hex_mem b c hc).1]
  match xs, h with
  | x :: xs, _ => simp

theorem combineSpec_of (H : Hashes) (E : Btc.Curve) (ins : List Vin) (t : Tx) (outs' : List TxOut) (hi : List.Forall₂ InOf ins t.ins) (hne : ins ≠ [])
    (sps : List SigPub) (out : Bytes) (hw : ∀ s ∈ sps, s.sig.length = 64 ∧ s.pub.length = 33) (text : Bytes) (hashes : List Bytes)
    (h : hashLoop H { mTx t with outs := outs' } 0 (mTx t).ins (Hex.encode (TxStruct.prefixBytes { mTx t with outs := outs' } 0)) [] =
      .ok (text, hashes)) : CombineSpec H E ins text hashes sps out := by
  generalize hT : ({ mTx t with outs := outs' } : TxStruct) = T at h
  have hTi : T.ins = t.ins.map mIn := by rw [← hT]; rfl
  rw [show (mTx t).ins = T.ins from by rw [hTi]; rfl, create_eq] at h
  cases h
  have hne' : T.ins ≠ [] := by
    rw [hTi]
    intro h0
    have := hi.length_eq
    rw [List.map_eq_nil_iff] at h0
    rw [h0, List.length_nil, List.length_eq_zero_iff] at this
    exact hne this
  have hz : ∀ us : List Bytes, List.zipWith (fun x u => x.sigScript ++ varBytes u) T.ins us =
      List.zipWith (fun v u => leBytes 8 v.amount.toNat ++ leBytes 4 v.height.toNat ++ leBytes 4 v.blockIndex.toNat ++ varBytes u) ins us := by
    rw [hTi]
    clear hTi hT hne' hne
    generalize t.ins = ti at hi
    intro us
    induction hi generalizing us with
    | nil => rfl
    | cons h _ ih =>
      cases us with
      | nil => rfl
      | cons u us =>
        rw [List.map_cons, List.zipWith_cons_cons, List.zipWith_cons_cons, ih]
        obtain ⟨_, _, _, h4, h5, h6, _⟩ := h
        simp only [mIn, valueWire, h4, h5, h6]
  have hl : T.ins.length = ins.length := by rw [hTi, List.length_map, hi.length_eq]
  unfold CombineSpec
  rw [combine_iff H E T hne' sps out hw, takeWhile_text _ _ hne', List.forall₂_map_left_iff, List.forall₂_map_left_iff]
  refine and_congr ⟨fun h => h.imp ?_, fun h => h.imp ?_⟩ ?_
  · rintro k sp ⟨p0, p, h1, h2, h3⟩
    exact ⟨_, p0, p, Hex.decode_encode _, h1, h2, h3⟩
  · rintro k sp ⟨hb, p0, p, h0, h1, h2, h3⟩
    rw [Hex.decode_encode] at h0
    cases h0
    exact ⟨p0, p, h1, h2, h3⟩
  · constructor
    · rintro ⟨us, h1, rfl⟩
      exact ⟨_, us, rfl, h1, by rw [hz, hl]⟩
    · rintro ⟨raw, us, h0, h1, rfl⟩
      exact ⟨us, h1, by rw [hz, hl, Hex.encode_inj h0]⟩

end HyperCash

/-- C53: for the text and the hashes returned by a creation, combining succeeds exactly when there is one signature per returned hash, in
order, and each is valid for that hash (the hash recomputed at combine time is the one returned for signing); the result is the
transaction with these signatures. -/
theorem C53_combine (H : Hashes) (E : Btc.Curve) (ins : List Vin) (outs : List Vout) (lockTime expiry : UInt32) (text : Bytes)
    (hashes : List Bytes) (sps : List SigPub) (out : Bytes) (h : createEmpty H ins outs lockTime expiry = .ok (text, hashes))
    (hw : ∀ s ∈ sps, s.sig.length = 64 ∧ s.pub.length = 33) : CombineSpec H E ins text hashes sps out := by
  unfold createEmpty at h
  split at h
  · cases h
  obtain ⟨x, hx, h⟩ := Res.bind_eq_ok.mp h
  obtain ⟨h1, _, t, ht, rfl⟩ := (newTxStruct_iff ..).mp hx
  exact combineSpec_of H E ins t (mTx t).outs ht.1 h1 sps out hw text hashes h

/-- C53 for token transfers. -/
theorem C53_combine_omni (H : Hashes) (E : Btc.Curve) (ins : List Vin) (to_ change : Option Vout) (amount : UInt64)
    (propertyId lockTime expiry : UInt32) (text : Bytes) (hashes : List Bytes) (sps : List SigPub) (out : Bytes)
    (h : createOmni H ins to_ change amount propertyId lockTime expiry = .ok (text, hashes))
    (hw : ∀ s ∈ sps, s.sig.length = 64 ∧ s.pub.length = 33) : CombineSpec H E ins text hashes sps out := by
  unfold createOmni at h
  split at h
  · cases h
  match to_, h with
  | some v, h =>
    obtain ⟨x, hx, h⟩ := Res.bind_eq_ok.mp h
    obtain ⟨h1, _, t, ht, rfl⟩ := (newTxStruct_iff ..).mp hx
    obtain ⟨o, _, h⟩ := Res.bind_eq_ok.mp h
    exact combineSpec_of H E ins t _ ht.1 h1 sps out hw text hashes h

/-- One hash per input. -/
theorem C53_count (H : Hashes) (ins : List Vin) (outs : List Vout) (lockTime expiry : UInt32) (text : Bytes)
    (hashes : List Bytes) (h : createEmpty H ins outs lockTime expiry = .ok (text, hashes)) : hashes.length = ins.length := by
  unfold createEmpty at h
  split at h
  · cases h
  obtain ⟨x, hx, h⟩ := Res.bind_eq_ok.mp h
  obtain ⟨_, _, t, ht, rfl⟩ := (newTxStruct_iff ..).mp hx
  rw [create_eq] at h
  cases h
  simp [mTx, ht.1.length_eq]

/-- An address, for the toy hashes. -/
def HyperCash.demo : Bytes := asc "HsC6t2hp6J9oh453SVvLQbaBF1jvZ9HDY8N"

/-- A request with two inputs. -/
def HyperCash.demoIns : List Vin :=
  [⟨Hex.encode (List.replicate 32 1), 0, 100, Hex.encode (p2pkhScript (List.replicate 20 6)), 9, 1⟩,
   ⟨Hex.encode (List.replicate 32 2), 3, 200, Hex.encode (p2pkhScript (List.replicate 20 7)), 8, 2⟩]

example : (createEmpty toyHashes demoIns [⟨50, demo⟩] 0 0 >>= fun r => verifyAndCombine toyHashes ⟨fun _ => [4, 1], fun _ _ _ => true⟩ r.1
    [⟨List.replicate 64 3, List.replicate 33 2⟩, ⟨List.replicate 64 3, List.replicate 33 2⟩] >>= fun r => Res.ok r.1) = .ok true := by
  decide +kernel

example : (createOmni toyHashes demoIns (some ⟨50, demo⟩) none 7 11 0 0 >>= fun r => verifyAndCombine toyHashes ⟨fun _ => [4, 1], fun _ _ _ => true⟩ r.1
    [⟨List.replicate 64 3, List.replicate 33 2⟩, ⟨List.replicate 64 3, List.replicate 33 2⟩] >>= fun r => Res.ok r.1) = .ok true := by
  decide +kernel

/-! ### C75 -/

/-- The text of a transaction: full serialisation, then for each input script and value part. -/
def HyperCash.textOf (t : Tx) : Bytes :=
  Hex.encode (t.body 0) ++ t.ins.flatMap fun i => asc ":" ++ Hex.encode (varBytes i.lock) ++ asc "/" ++ Hex.encode (valueWire i)

theorem HyperCash.text_eq (t : Tx) (ho : ShortOuts t) (hi : ∀ i ∈ t.ins, i.lock.length < 253) :
    Hex.encode ((mTx t).prefixBytes 0) ++ (mTx t).ins.flatMap (fun x => 0x3a :: piece x) = textOf t := by
  unfold textOf
  rw [prefixBytes_eq t ho]
  refine congrArg _ ?_
  unfold mTx
  simp only
  rw [List.flatMap_map]
  refine List.flatMap_congr fun i h => ?_
  rw [varBytes_short (hi i h)]
  have : asc ":" = [0x3a] := by decide
  have h2 : asc "/" = [0x2f] := by decide
  rw [this, h2]
  simp [piece, mIn]

theorem HyperCash.locks_short {ins : List Vin} {t : List In} (h : List.Forall₂ InOf ins t) (hl : ∀ v ∈ ins, v.lock.length < 506) :
    ∀ i ∈ t, i.lock.length < 253 := by
  intro i hi
  obtain ⟨v, hv, h⟩ := Elastos.forall₂_mem h i hi
  have := Hex.decode_length _ _ h.2.2.2.2.2.2
  have := hl v hv
  omega

/-- C75, exact condition and result, when the scripts of the spent outputs have less than 253 bytes: a request is accepted exactly when it
has inputs and outputs, hex ids of 32 bytes, hex scripts and valid addresses; the text states it in the format of the chain, and the
hashes are those the chain checks. Missing: longer scripts, see `C75_long_script_violated`. -/
theorem C75_layout_partial (H : Hashes) (ins : List Vin) (outs : List Vout) (lockTime expiry : UInt32) (text : Bytes) (hashes : List Bytes)
    (hl : ∀ v ∈ ins, v.lock.length < 506) :
    createEmpty H ins outs lockTime expiry = .ok (text, hashes) ↔ ins ≠ [] ∧ outs ≠ [] ∧ ∃ t : Tx,
      List.Forall₂ (fun v i => Hex.decode v.txid = .ok i.txid ∧ i.txid.length = 32 ∧ i.vout = v.vout.toNat ∧ i.amount = v.amount.toNat ∧
        i.height = v.height.toNat ∧ i.blockIndex = v.blockIndex.toNat ∧ Hex.decode v.lock = .ok i.lock) ins t.ins ∧
      List.Forall₂ (fun v o => o.amount = v.amount.toNat ∧ ∃ h, IsAddress (H.hash .blake256) Btc.alphabet h v.address ∧ o.script = p2pkhScript h)
        outs t.outs ∧
      t.lockTime = lockTime.toNat ∧ t.expiry = expiry.toNat ∧ text = textOf t ∧
      hashes = (List.range ins.length).map fun k => Hex.encode (t.sigHash (H.hash .blake256) k) := by
  have key : ∀ t : Tx, TxOf H ins outs lockTime expiry t → hashLoop H (mTx t) 0 (mTx t).ins (Hex.encode ((mTx t).prefixBytes 0)) [] =
      .ok (textOf t, (List.range ins.length).map fun k => Hex.encode (t.sigHash (H.hash .blake256) k)) := by
    intro t ht
    have hi := locks_short ht.1 hl
    rw [create_eq, text_eq t (shortOuts_of ht) hi, List.range_eq_range']
    simp only [hk_eq H t (shortOuts_of ht) hi]
    simp only [ht.1.length_eq, mTx, List.length_map]
  unfold createEmpty
  constructor
  · intro h
    split at h
    · cases h
    obtain ⟨x, hx, h⟩ := Res.bind_eq_ok.mp h
    obtain ⟨h1, h2, t, ht, rfl⟩ := (newTxStruct_iff ..).mp hx
    rw [key t ht] at h
    cases h
    exact ⟨h1, h2, t, ht.1, ht.2.1, ht.2.2.1, ht.2.2.2, rfl, rfl⟩
  · rintro ⟨h1, h2, t, t1, t2, t3, t4, rfl, rfl⟩
    rw [if_neg (by simp [h1, h2]), (newTxStruct_iff ..).mpr ⟨h1, h2, t, ⟨t1, t2, t3, t4⟩, rfl⟩, Res.bind_ok, key t ⟨t1, t2, t3, t4⟩]

example : (∀ v ∈ demoIns, v.lock.length < 506) ∧ (createEmpty toyHashes demoIns [⟨50, demo⟩] 0 0).isOk = true := by decide +kernel

/-- C75 for token transfers: the outputs are the payment to the receiver, a zero payment whose script is the data output
`omni`, version 0, type 0, token number, amount, and the change if one is given. -/
theorem C75_omni_partial (H : Hashes) (ins : List Vin) (to_ : Vout) (change : Option Vout) (amount : UInt64) (propertyId lockTime expiry : UInt32)
    (text : Bytes) (hashes : List Bytes) (hl : ∀ v ∈ ins, v.lock.length < 506)
    (h : createOmni H ins (some to_) change amount propertyId lockTime expiry = .ok (text, hashes)) :
    ∃ (t : Tx) (pay : Out) (ch : List Out), List.Forall₂ InOf ins t.ins ∧
      t.outs = [pay, ⟨0, 0x6a :: push (asc "omni" ++ beBytes 4 0 ++ beBytes 4 propertyId.toNat ++ beBytes 8 amount.toNat)⟩] ++ ch ∧
      (pay.amount = to_.amount.toNat ∧ ∃ h, IsAddress (H.hash .blake256) Btc.alphabet h to_.address ∧ pay.script = p2pkhScript h) ∧
      List.Forall₂ (fun v o => o.amount = v.amount.toNat ∧ ∃ h, IsAddress (H.hash .blake256) Btc.alphabet h v.address ∧ o.script = p2pkhScript h)
        change.toList ch ∧
      t.lockTime = lockTime.toNat ∧ t.expiry = expiry.toNat ∧ text = textOf t ∧
      hashes = (List.range ins.length).map fun k => Hex.encode (t.sigHash (H.hash .blake256) k) := by
  unfold createOmni at h
  split at h
  · cases h
  simp only at h
  obtain ⟨x, hx, h⟩ := Res.bind_eq_ok.mp h
  obtain ⟨h1, _, t, ht, rfl⟩ := (newTxStruct_iff ..).mp hx
  obtain ⟨o, ho, h⟩ := Res.bind_eq_ok.mp h
  obtain ⟨tins, touts, tl, te⟩ := t
  obtain ⟨ht1, ht2, ht3, ht4⟩ := ht
  simp only at ht1 ht2 ht3 ht4
  match touts, ht2 with
  | pay :: dup :: ch, .cons hp (.cons hd hc) =>
    have ho' : o = mOut dup := by
      have : index (mTx ⟨tins, pay :: dup :: ch, tl, te⟩).outs 1 = .ok (mOut dup) := rfl
      rw [this] at ho
      exact (Res.ok.inj ho).symm
    let data : Out := ⟨0, 0x6a :: push (asc "omni" ++ beBytes 4 0 ++ beBytes 4 propertyId.toNat ++ beBytes 8 amount.toNat)⟩
    have hdl : data.script.length = 22 := by simp [data, push]; decide
    have e : (⟨(mTx ⟨tins, pay :: dup :: ch, tl, te⟩).ins,
        (mTx ⟨tins, pay :: dup :: ch, tl, te⟩).outs.set 1 { o with amount := leBytes 8 0, script := simpleSend propertyId amount },
        (mTx ⟨tins, pay :: dup :: ch, tl, te⟩).lockTime, (mTx ⟨tins, pay :: dup :: ch, tl, te⟩).expiry⟩ : TxStruct) =
        mTx ⟨tins, pay :: data :: ch, tl, te⟩ := by
      have : ({ o with amount := leBytes 8 0, script := simpleSend propertyId amount } : TxOut) = mOut data := by
        rw [ho']
        unfold mOut
        rw [hdl]
        simp only [TxOut.mk.injEq, true_and]
        refine ⟨rfl, ?_⟩
        have l1 : (asc "omni" ++ (beBytes 2 0 ++ beBytes 2 0 ++ beBytes 4 propertyId.toNat ++ beBytes 8 amount.toNat)).length = 20 := by simp; decide
        have l2 : (asc "omni" ++ beBytes 4 0 ++ beBytes 4 propertyId.toNat ++ beBytes 8 amount.toNat).length = 20 := by simp; decide
        unfold simpleSend
        simp only [List.length_cons, l1, data, push, l2]
        have e4 : beBytes 4 0 = beBytes 2 0 ++ beBytes 2 0 := by decide
        rw [e4]
        simp only [List.append_assoc]
      unfold mTx
      simp only [List.map_cons, List.set_cons_succ, List.set_cons_zero, this]
    have hshort : ShortOuts ⟨tins, pay :: data :: ch, tl, te⟩ := by
      have hs : ∀ (v : Vout) (o : Out), OutOf H v o → o.script.length < 253 := by
        rintro v o ⟨_, k, hk, e⟩
        rw [e]; simp [p2pkhScript, hk.1]
      refine List.forall_mem_cons.mpr ⟨hs _ _ hp, List.forall_mem_cons.mpr ⟨by rw [hdl]; decide, fun o ho => ?_⟩⟩
      obtain ⟨v, _, hv⟩ := Elastos.forall₂_mem hc o ho
      exact hs v o hv
    have hi := locks_short ht1 hl
    rw [e, show (mTx ⟨tins, pay :: dup :: ch, tl, te⟩).ins = (mTx ⟨tins, pay :: data :: ch, tl, te⟩).ins from rfl, create_eq,
      text_eq _ hshort hi] at h
    cases h
    refine ⟨⟨tins, pay :: data :: ch, tl, te⟩, pay, ch, ht1, rfl, hp, hc, ht3, ht4, rfl, ?_⟩
    rw [List.range_eq_range']
    simp only [hk_eq H _ hshort hi]
    simp only [ht1.length_eq, mTx, List.length_map]

example : (createOmni toyHashes demoIns (some ⟨50, demo⟩) (some ⟨40, demo⟩) 7 11 0 0).isOk = true := by decide +kernel

/-- Where C75 fails: when an input spends a script of 253 bytes or more, its hash is computed from bytes that are not those the chain
hashes (the length is written in one byte, modulo 256). -/
theorem C75_long_script_violated (H : Hashes) (ins : List Vin) (outs : List Vout) (lockTime expiry : UInt32) (text : Bytes) (hashes : List Bytes)
    (k : Nat) (v : Vin) (lock : Bytes) (hv : ins[k]? = some v) (hd : Hex.decode v.lock = .ok lock) (hlong : 253 ≤ lock.length)
    (h : createEmpty H ins outs lockTime expiry = .ok (text, hashes)) :
    ∃ (t : Tx) (w : Bytes), TxOf H ins outs lockTime expiry t ∧ w ≠ t.witnessSigning k ∧
      hashes[k]? = some (Hex.encode (H.hash .blake256 (leBytes 4 1 ++ H.hash .blake256 (t.body 1) ++ H.hash .blake256 w))) := by
  unfold createEmpty at h
  split at h
  · cases h
  obtain ⟨x, hx, h⟩ := Res.bind_eq_ok.mp h
  obtain ⟨h1, h2, t, ht, rfl⟩ := (newTxStruct_iff ..).mp hx
  rw [create_eq] at h
  cases h
  have hlen := ht.1.length_eq
  have hkl : k < ins.length := (List.getElem?_eq_some_iff.mp hv).1
  have hk' : k < t.ins.length := by omega
  have hio : InOf v t.ins[k] := by
    have := (List.forall₂_iff_get.mp ht.1).2 k hkl hk'
    rw [List.getElem?_eq_getElem hkl] at hv
    simp only [List.get_eq_getElem] at this
    rwa [Option.some.inj hv] at this
  have hlock : t.ins[k].lock = lock := by
    have := hio.2.2.2.2.2.2
    rw [hd] at this
    exact (Res.ok.inj this).symm
  refine ⟨t, wit (mTx t) k, ht, ?_, ?_⟩
  · intro e
    have hx : (mTx t).ins[k]? = some (mIn t.ins[k]) := by simp [mTx, hk']
    have hwl : (wit (mTx t) k).length = 4 + (compactSize t.ins.length).length + (t.ins.length - 1) + (1 + lock.length) := by
      unfold wit
      rw [witnessParts_eq _ k _ hx, varInt_eq]
      simp only [List.length_append, leBytes_length]
      rw [parts_length _ (by simpa [mTx] using hk')]
      simp only [mTx, List.length_map, mIn, List.length_cons, hlock]
      omega
    have hsl : (t.witnessSigning k).length = 4 + (compactSize t.ins.length).length + (t.ins.length - 1) + (varBytes lock).length := by
      unfold Tx.witnessSigning
      have : (t.ins.mapIdx fun j i => if j = k then varBytes i.lock else [0]).flatten = witnessParts t.ins.length k (varBytes lock) :=
        mapIdx_parts t.ins k lock (by rw [List.getElem?_eq_getElem hk', ← hlock]; rfl)
      rw [this]
      simp only [List.length_append, List.length_cons, List.length_nil]
      rw [parts_length _ hk']
      omega
    rw [e, hsl] at hwl
    unfold varBytes at hwl
    have := (Btc.compactSize_length lock.length).2 hlong
    simp only [List.length_append] at hwl
    omega
  · simp only [List.getElem?_map]
    rw [List.getElem?_range' (by simpa [mTx] using hk')]
    simp only [Option.map_some, hk, prefixBytes_eq t (shortOuts_of ht)]
    simp

/-- A request that spends a script of 256 bytes. -/
example : (createEmpty toyHashes [⟨Hex.encode (List.replicate 32 1), 0, 100, Hex.encode (List.replicate 256 6), 9, 1⟩] [⟨50, demo⟩] 0 0).isOk = true := by
  decide +kernel

end Verif
