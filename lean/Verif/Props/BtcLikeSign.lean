import Verif.Lemmas.BtcLikeFlow

/-! Properties of `btcLikeTxDriver`: hashes to sign (C115), inserting and verifying signatures (C116). -/

namespace Verif
open Verif.Spec Verif.BtcLike
open _root_.Verif.Btc (Curve)

/-! ### C115: hashes to sign -/

/-- C115: for a transaction without witness data that spends outputs of the three kinds, the hash returned for each input is the double SHA-256
of what the chain checks: the transaction with the locking script in place of the unlocking script for a key hash output, the bytes of BIP 143
with the value for the two witness kinds. Missing: more than 252 inputs or outputs, scripts over 252 bytes. -/
theorem C115_hashes_partial (H : Hashes) (t : RawTx) (small : Small t) (us : List TxUnlock) (outs : List (KeyOutput × Nat))
    (hd : List.Forall₂ (fun u o => Describes u o.1 o.2) us outs) (hl : t.ins.length = outs.length) :
    ∃ hashes us', createHashes H (Hex.encode t.ser) us = .ok (hashes, us') ∧ hashes.length = t.ins.length ∧
      ∀ (k : Nat) (i : RawIn) (o : KeyOutput) (v : Nat), t.ins[k]? = some i → outs[k]? = some (o, v) →
        hashes[k]? = some (Hex.encode (H.hash .doubleSha256 (o.preimage (H.hash .doubleSha256) t k i v))) := by
  have hd' : List.Forall₂ (fun u (s : Spend) => Describes u s.out s.value) us (outs.map fun o => ⟨o.1, o.2, [], [], []⟩) := by
    rw [List.forall₂_map_right_iff]
    exact hd
  have hl' : t.ins.length = (outs.map fun o => (⟨o.1, o.2, [], [], []⟩ : Spend)).length := by simpa using hl
  have hlen := hashesFrom_length (H := H) (t := t) (k := 0) hl'
  have hlu : us.length = outs.length := hd.length_eq
  have hlz : (hashesFrom H t 0 t.ins (outs.map fun o => (⟨o.1, o.2, [], [], []⟩ : Spend))).length =
      (List.zipWith (fun s u => afterHash s.out u) (outs.map fun o => (⟨o.1, o.2, [], [], []⟩ : Spend)) us).length := by
    rw [hlen]
    simp only [List.length_map, List.length_zipWith]
    omega
  have hc : createHashes H (Hex.encode t.ser) us =
      .ok ((hashesFrom H t 0 t.ins (outs.map fun o => (⟨o.1, o.2, [], [], []⟩ : Spend))).map Hex.encode,
        List.zipWith (fun s u => afterHash s.out u) (outs.map fun o => (⟨o.1, o.2, [], [], []⟩ : Spend)) us) := by
    unfold createHashes
    rw [Hex.decode_encode, Res.bind_ok, decodeTx_ser small, Res.bind_ok, getHashes_eq small hd' hl', Res.bind_ok, List.map_snd_zip (by omega),
      show (fun h : Bytes × TxUnlock => Hex.encode h.1) = Hex.encode ∘ Prod.fst from rfl, ← List.map_map, List.map_fst_zip (by omega)]
  refine ⟨_, _, hc, ?_, ?_⟩
  · rw [List.length_map, hlen, List.length_map, hl]
  · intro k i o v hi ho
    have h1 := hashesFrom_get (H := H) (t := t) (k := 0) hi
      (show (outs.map fun o => (⟨o.1, o.2, [], [], []⟩ : Spend))[k]? = some ⟨o, v, [], [], []⟩ by rw [List.getElem?_map, ho]; rfl)
    rw [List.getElem?_map, h1]
    simp

namespace BtcLike

theorem script_length {u : TxUnlock} {s : Spend} (d : Describes u s.out s.value) (g : Written s) : (s.out.script s.der s.pub).length < 253 := by
  have h1 := g.len
  have h2 := g.pub
  have ok := d.ok
  cases ho : s.out with
  | keyHash h => simp [KeyOutput.script, push]; omega
  | nested h k => rw [ho] at ok; simp only [KeyOutput.Ok] at ok; simp [KeyOutput.script, push, witnessV0Script, ok]
  | native k => simp [KeyOutput.script]

theorem small_withScripts {t : RawTx} (s : Small t) {scripts : List Bytes} (hl : t.ins.length = scripts.length) (h : ∀ x ∈ scripts, x.length < 253) :
    Small (t.withScripts scripts) := by
  refine ⟨?_, ?_, s.outsPos, s.outsLt, ?_, s.outs⟩
  · have := s.insPos
    simp only [RawTx.withScripts, List.length_zipWith]; omega
  · have := s.insLt
    simp only [RawTx.withScripts, List.length_zipWith]; omega
  · intro i hi
    obtain ⟨j, h1, rfl⟩ := List.getElem_of_mem hi
    simp only [RawTx.withScripts, List.length_zipWith] at h1
    simp only [RawTx.withScripts, List.getElem_zipWith]
    exact ⟨(s.ins _ (List.getElem_mem (by omega))).1, h _ (List.getElem_mem (by omega))⟩

theorem scripts_lt {us : List TxUnlock} {ss : List Spend} (hf : List.Forall₂ (fun u s => Describes u s.out s.value) us ss) (g : ∀ s ∈ ss, Written s) :
    ∀ x ∈ ss.map (fun s => s.out.script s.der s.pub), x.length < 253 := by
  intro x hx
  obtain ⟨s, hs, rfl⟩ := List.mem_map.mp hx
  obtain ⟨k, hk, rfl⟩ := List.getElem_of_mem hs
  have hlu := hf.length_eq
  exact script_length (hf.get (by omega) hk) (g _ hs)

theorem isMultiSig_false {u : TxUnlock} {s : Spend} (f : Fresh u s) (h : ∀ h k, s.out = .nested h k → k.getLast? ≠ some 0xae) :
    isMultiSig u.lockScript u.redeemScript = false := by
  have hl := f.desc.lock
  have hlen := Hex.decode_length _ _ hl
  have ok := f.desc.ok
  unfold isMultiSig
  cases ho : s.out with
  | keyHash x =>
    rw [ho] at hlen ok
    simp only [KeyOutput.Ok] at ok
    rw [if_pos (by rw [hlen]; simp [KeyOutput.lock, p2pkhScript, ok])]
  | nested x k =>
    rw [ho] at hl hlen ok
    simp only [KeyOutput.Ok] at ok
    rw [if_neg (by rw [hlen]; simp [KeyOutput.lock, p2shScript, ok]), hl, f.desc.nested x k ho]
    have hk : k ≠ [] := List.ne_nil_of_length_pos (by omega)
    have e : (witnessV0Script k).getLast? = k.getLast? := by
      rw [show witnessV0Script k = [0x00, UInt8.ofNat k.length] ++ k by simp [witnessV0Script, push], List.getLast?_append_of_ne_nil _ hk]
    simp only [e]
    have := h x k ho
    simp [this]
  | native k =>
    rw [ho] at hlen ok
    simp only [KeyOutput.Ok] at ok
    rw [if_pos (by rw [hlen]; simp [KeyOutput.lock, witnessV0Script, push, ok])]

theorem plain_withScripts {t : RawTx} {ss : List Spend} (hl : t.ins.length = ss.length)
    (h1 : ss.length = 1 → ∀ s ∈ ss, (s.out.script s.der s.pub).getLast? ≠ some 0xae) :
    Plain (t.withScripts (ss.map fun s => s.out.script s.der s.pub)) := by
  intro i hi
  have hlen := congrArg List.length hi
  simp only [RawTx.withScripts, List.length_zipWith, List.length_map, List.length_singleton] at hlen
  have hs : ss.length = 1 := by omega
  obtain ⟨s, rfl⟩ := List.length_eq_one_iff.mp hs
  obtain ⟨j, hj⟩ := List.length_eq_one_iff.mp (hl.trans hs)
  simp only [RawTx.withScripts, hj, List.map_cons, List.map_nil, List.zipWith_cons_cons, List.zipWith_nil_left, List.cons.injEq, and_true] at hi
  subst hi
  exact h1 rfl s (by simp)

/-- The bytes of the signed transaction, whichever of the two formats it has. -/
theorem encode_signed {H : Hashes} {t : RawTx} (small : Small t) {us : List TxUnlock} {ss : List Spend}
    (hf : List.Forall₂ (fun u s => Describes u s.out s.value) us ss) (hl : t.ins.length = ss.length) (g : ∀ s ∈ ss, Written s)
    (h1 : ss.length = 1 → ∀ s ∈ ss, (s.out.script s.der s.pub).getLast? ≠ some 0xae) :
    encodeTx H (ofRaw (t.withScripts (ss.map fun s => s.out.script s.der s.pub)) (witsFrom 0 [] ss)) = .ok (t.spend ss) := by
  have sm := small_withScripts small (scripts := ss.map fun s => s.out.script s.der s.pub) (by simpa using hl) (scripts_lt hf g)
  have pl := plain_withScripts hl h1
  unfold RawTx.spend
  simp only [witsFrom, true_and]
  cases ha : ss.any (fun s => s.out.isWitness) with
  | false => simp only [if_true, Bool.false_eq_true, if_false]; exact encodeTx_ser sm pl
  | true =>
    simp only [Bool.true_eq_false, if_false, if_true, padWitness, List.replicate_zero, List.nil_append]
    refine encodeTx_serWitness sm pl ?_ ?_
    · intro h
      rw [List.map_eq_nil_iff.mp h] at ha
      simp at ha
    · rw [List.forall₂_map_left_iff, List.forall₂_map_right_iff]
      exact List.forall₂_same.mpr fun s hs => encodeWitness_witOf (g s hs)

theorem decode_signed {t : RawTx} (small : Small t) {us : List TxUnlock} {ss : List Spend}
    (hf : List.Forall₂ (fun u s => Describes u s.out s.value) us ss) (hl : t.ins.length = ss.length) (g : ∀ s ∈ ss, Written s) :
    decodeTx (t.spend ss) = .ok (ofRaw (t.withScripts (ss.map fun s => s.out.script s.der s.pub)) (witsFrom 0 [] ss)) := by
  have sm := small_withScripts small (scripts := ss.map fun s => s.out.script s.der s.pub) (by simpa using hl) (scripts_lt hf g)
  unfold RawTx.spend
  simp only [witsFrom, true_and]
  cases ha : ss.any (fun s => s.out.isWitness) with
  | false => simp only [if_true, Bool.false_eq_true, if_false]; exact decodeTx_ser sm
  | true =>
    simp only [Bool.true_eq_false, if_false, if_true, padWitness, List.replicate_zero, List.nil_append]
    refine decodeTx_serWitness sm ?_ ?_
    · simp [RawTx.withScripts, hl]
    · rw [List.forall₂_map_left_iff, List.forall₂_map_right_iff]
      exact List.forall₂_same.mpr fun s hs r => decodeWitness_witOf (g s hs) r

end BtcLike

namespace BtcLike

theorem preimage_scripts (hash : Bytes → Bytes) (t : RawTx) (scripts : List Bytes) (hl : t.ins.length = scripts.length) (k : Nat) (i : RawIn) (x : Bytes) (v : Nat)
    (o : KeyOutput) : o.preimage hash (t.withScripts scripts) k { i with script := x } v = o.preimage hash t k i v := by
  have e1 : (t.withScripts scripts).ins.map RawIn.outpoint = t.ins.map RawIn.outpoint := by
    simp only [RawTx.withScripts, List.map_zipWith]
    apply List.ext_getElem (by simp [hl])
    intro j _ _
    simp [RawIn.outpoint]
  have e2 : ((t.withScripts scripts).ins.map fun i => leBytes 4 i.sequence) = t.ins.map fun i => leBytes 4 i.sequence := by
    simp only [RawTx.withScripts, List.map_zipWith]
    apply List.ext_getElem (by simp [hl])
    intro j _ _
    simp
  have hb : ∀ code, bip143Preimage hash (t.withScripts scripts) { i with script := x } code v = bip143Preimage hash t i code v := by
    intro code
    unfold bip143Preimage
    rw [e1, e2]
    rfl
  cases o with
  | keyHash h =>
    simp only [KeyOutput.preimage, legacyPreimage]
    congr 2
    simp only [RawTx.withScripts]
    congr 1
    apply List.ext_getElem (by simp [hl])
    intro j _ _
    simp
  | nested h k => exact hb _
  | native k => exact hb _

theorem hashesFrom_scripts {H : Hashes} {t : RawTx} {scripts : List Bytes} (hl : t.ins.length = scripts.length) :
    ∀ {k : Nat} {is : List RawIn} {xs : List Bytes} {ss : List Spend}, is.length = xs.length →
      hashesFrom H (t.withScripts scripts) k (List.zipWith (fun i s => { i with script := s }) is xs) ss = hashesFrom H t k is ss
  | k, [], [], ss, _ => by simp [hashesFrom]
  | k, i :: is, x :: xs, [], _ => by simp [hashesFrom]
  | k, i :: is, x :: xs, s :: ss, h => by
    simp only [List.zipWith_cons_cons, hashesFrom]
    rw [hashesFrom_scripts hl (by simpa using h), preimage_scripts _ _ _ hl]
  | _, [], _ :: _, _, h => by simp at h
  | _, _ :: _, [], _, h => by simp at h

/-- The unlock data after reading the signatures. -/
def afterRead (s : Spend) (u : TxUnlock) : TxUnlock :=
  match s.out with
  | .nested _ k => { u with redeemScript := Hex.encode (witnessV0Script k) }
  | _ => u

theorem Describes.afterRead {u : TxUnlock} {s : Spend} (d : Describes u s.out s.value) : Describes (afterRead s u) s.out s.value := by
  unfold BtcLike.afterRead
  cases ho : s.out with
  | keyHash h => rw [ho] at d; exact d
  | native h => rw [ho] at d; exact d
  | nested h k =>
    rw [ho] at d
    refine ⟨d.ok, d.lock, ?_, d.value⟩
    intro h' k' e
    simp only [KeyOutput.nested.injEq] at e
    rw [← e.2]
    exact Hex.decode_encode _

/-- A signature that is read back from an unlocking script. -/
def Readable (s : Spend) : Prop := s.out.isWitness = false → decodeSigPub (push s.der ++ push s.pub) = .ok (s.sig, s.pub)

theorem readable {s : Spend} (g : Written s) (hr : s.out.isWitness = false →
    beNat (s.sig.take 32) ≠ 0 ∧ beNat (s.sig.drop 32) ≠ 0 ∧ (beNat (s.sig.take 32) < 2 ^ 247 ∨ 2 ^ 231 ≤ beNat (s.sig.drop 32))) : Readable s := by
  intro hi
  obtain ⟨h1, h2, h3⟩ := hr hi
  obtain ⟨script, h4, h5⟩ := C24_roundtrip_partial s.sig s.pub 1 g.sig g.pub h1 h2 h3
  have h6 := g.key hi
  simp only [scriptSig] at h6
  rw [h4] at h6
  unfold decodeSigPub
  rw [← Res.ok.inj h6, h5, Res.bind_ok]
  simp

theorem readSigs_eq {noWitness : Bool} {ws : List SigPub} : ∀ {k : Nat} {is : List RawIn} {us : List TxUnlock} {ss : List Spend},
    List.Forall₂ (fun u s => Describes u s.out s.value) us ss → is.length = ss.length → (∀ s ∈ ss, Written s) → (∀ s ∈ ss, Readable s) →
    (∀ j s, ss[j]? = some s → if noWitness then s.out.isWitness = false else ws[k + j]? = some (witOf s)) →
    readSigs noWitness ws k ((List.zipWith (fun i s => { i with script := s }) is (ss.map fun s => s.out.script s.der s.pub)).map ofIn) us =
      .ok (ss.map (fun s => (s.sig, s.pub)), List.zipWith afterRead ss us)
  | k, [], [], [], .nil, _, _, _, _ => by simp [readSigs]
  | _, [], _ :: _, _ :: _, .cons _ _, hl, _, _, _ => by simp at hl
  | _, _ :: _, [], [], .nil, hl, _, _, _ => by simp at hl
  | k, i :: is, u :: us, s :: ss, .cons d ds, hl, g, r, hw => by
    have gs := g s (by simp)
    have hrest := readSigs_eq (noWitness := noWitness) (ws := ws) (k := k + 1) (is := is) ds (by simpa using hl) (fun x hx => g x (by simp [hx]))
      (fun x hx => r x (by simp [hx])) (fun j x hx => by
        have := hw (j + 1) x (by simpa using hx)
        rwa [show k + (j + 1) = k + 1 + j by omega] at this)
    have h0 := hw 0 s rfl
    simp only [List.map_cons, List.zipWith_cons_cons, readSigs]
    generalize (List.zipWith (fun (i : RawIn) s => { i with script := s }) is (ss.map fun s => s.out.script s.der s.pub)).map ofIn = L at hrest ⊢
    cases ho : s.out with
    | keyHash h =>
      have hi : s.out.isWitness = false := by rw [ho]; rfl
      have hr := r s (by simp) hi
      cases noWitness with
      | true =>
        simp only [if_true, Res.bind_ok, ofIn, KeyOutput.script, hr]
        rw [hrest, Res.bind_ok]
        simp [BtcLike.afterRead, ho]
      | false =>
        simp only [Bool.false_eq_true, if_false, Nat.add_zero] at h0
        simp only [Bool.false_eq_true, if_false, index, h0, Res.bind_ok, witOf, hi, ofIn, KeyOutput.script, hr]
        rw [hrest, Res.bind_ok]
        simp [BtcLike.afterRead, ho]
    | nested h k' =>
      have hi : s.out.isWitness = true := by rw [ho]; rfl
      have hn : noWitness = false := by
        cases noWitness with
        | true => simp [hi] at h0
        | false => rfl
      subst hn
      simp only [Bool.false_eq_true, if_false, Nat.add_zero] at h0
      simp only [Bool.false_eq_true, if_false, index, h0, Res.bind_ok, witOf, hi, if_true]
      have hwl : isWitnessLock u.lockScript = false := by
        rw [Bool.eq_false_iff]; intro hc; obtain ⟨k', hk⟩ := d.witness_iff.mp hc; rw [ho] at hk; cases hk
      rw [if_neg (by rw [hwl]; simp)]
      simp only [ofIn, KeyOutput.script]
      rw [slice_ok (by simp [push]) (by simp)]
      simp only [Res.bind_ok, List.take_length, push, List.drop_one, List.tail_cons]
      rw [hrest, Res.bind_ok]
      simp [BtcLike.afterRead, ho]
    | native k' =>
      have hi : s.out.isWitness = true := by rw [ho]; rfl
      have hn : noWitness = false := by
        cases noWitness with
        | true => simp [hi] at h0
        | false => rfl
      subst hn
      simp only [Bool.false_eq_true, if_false, Nat.add_zero] at h0
      simp only [Bool.false_eq_true, if_false, index, h0, Res.bind_ok, witOf, hi, if_true]
      rw [if_pos (d.witness_iff.mpr ⟨k', ho⟩), hrest, Res.bind_ok]
      simp [BtcLike.afterRead, ho]

theorem verifyHashes_iff {C : Curve} : ∀ {hs : List Bytes} {ss : List Spend}, hs.length = ss.length → (∀ s ∈ ss, (C.decompress s.pub).length ≠ 0) →
    ∃ b, verifyHashes C hs (ss.map fun s => (s.sig, s.pub)) = .ok b ∧
      (b = true ↔ ∀ (k : Nat) (h : Bytes) (s : Spend), hs[k]? = some h → ss[k]? = some s → C.verify ((C.decompress s.pub).drop 1) h s.sig = true)
  | [], [], _, _ => ⟨true, by simp [verifyHashes], by simp⟩
  | h :: hs, s :: ss, hl, hp => by
    obtain ⟨b, hb, hi⟩ := verifyHashes_iff (C := C) (hs := hs) (ss := ss) (by simpa using hl) (fun x hx => hp x (by simp [hx]))
    have h0 := hp s (by simp)
    have hpt : Btc.pubPoint C (some s.pub) = .ok ((C.decompress s.pub).drop 1) := by
      simp only [Btc.pubPoint, Option.getD_some]
      rw [slice_ok (Nat.one_le_iff_ne_zero.mpr h0) (Nat.le_refl _)]
      simp
    simp only [List.map_cons, verifyHashes, hpt, Res.bind_ok]
    cases hv : C.verify ((C.decompress s.pub).drop 1) h s.sig with
    | false =>
      refine ⟨false, by simp, ?_⟩
      constructor
      · intro h; cases h
      · intro hall
        have := hall 0 h s rfl rfl
        rw [hv] at this
        exact this
    | true =>
      refine ⟨b, by simpa using hb, ?_⟩
      rw [hi]
      constructor
      · intro hall k h' s' h1 h2
        cases k with
        | zero =>
          simp only [List.getElem?_cons_zero, Option.some.injEq] at h1 h2
          subst h1; subst h2
          exact hv
        | succ k => exact hall k h' s' (by simpa using h1) (by simpa using h2)
      · intro hall k h' s' h1 h2
        exact hall (k + 1) h' s' (by simpa using h1) (by simpa using h2)
  | [], _ :: _, hl, _ => by simp at hl
  | _ :: _, [], hl, _ => by simp at hl

theorem insert_written {H : Hashes} {t : RawTx} (small : Small t) {us : List TxUnlock} {ss : List Spend} (hf : List.Forall₂ Fresh us ss)
    (hl : t.ins.length = ss.length) (good : ∀ s ∈ ss, Written s)
    (h1 : ss.length = 1 → ∀ s ∈ ss, (s.out.script s.der s.pub).getLast? ≠ some 0xae)
    (h2 : ∀ s h k, ss.head? = some s → s.out = .nested h k → k.getLast? ≠ some 0xae) :
    insertSignatures H (Hex.encode t.ser) (ss.map fun s => ⟨some s.sig, s.pub⟩) us = .ok (Hex.encode (t.spend ss), List.zipWith afterInsert ss us) := by
  have hd : List.Forall₂ (fun u s => Describes u s.out s.value) us ss := hf.imp fun _ _ h => h.desc
  have hlu := hf.length_eq
  have hpos := small.insPos
  cases hf with
  | nil => rw [List.length_nil] at hl; omega
  | @cons u s us ss f fs =>
    unfold insertSignatures
    rw [Hex.decode_encode, Res.bind_ok, decodeTx_ser small, Res.bind_ok, if_neg (by simp), if_neg (by simp), if_neg small.ins_ne,
      if_neg small.outs_ne, if_neg (by simp only [ofRaw, List.length_map]; omega)]
    simp only [index, List.getElem?_cons_zero, Res.bind_ok]
    rw [isMultiSig_false f (fun h k => h2 s h k rfl)]
    have e : (ofRaw t []).vins.length = (s :: ss).length := by simp [ofRaw, hl]
    rw [e, if_neg (by simp)]
    rw [show (ofRaw t []).witness = [] from rfl, insertLoop_eq (.cons f fs) good, Res.bind_ok]
    simp only
    rw [setScripts_ofRaw, show ({ ofRaw (t.withScripts ((s :: ss).map fun s => s.out.script s.der s.pub)) [] with witness := witsFrom 0 [] (s :: ss) } : Tx) =
      ofRaw (t.withScripts ((s :: ss).map fun s => s.out.script s.der s.pub)) (witsFrom 0 [] (s :: ss)) from rfl, encode_signed small hd hl good h1,
      Res.bind_ok]


theorem verify_written {H : Hashes} {C : Curve} {t : RawTx} (small : Small t) {us : List TxUnlock} {ss : List Spend}
    (hd : List.Forall₂ (fun u s => Describes u s.out s.value) us ss) (hl : t.ins.length = ss.length) (good : ∀ s ∈ ss, Written s)
    (read : ∀ s ∈ ss, Readable s) (hp : ∀ s ∈ ss, (C.decompress s.pub).length ≠ 0) :
    ∃ answer, verifyRaw H C (Hex.encode (t.spend ss)) us = .ok answer ∧
      (answer = true ↔ ∀ (k : Nat) (i : RawIn) (s : Spend), t.ins[k]? = some i → ss[k]? = some s →
        C.verify ((C.decompress s.pub).drop 1) (H.hash .doubleSha256 (s.out.preimage (H.hash .doubleSha256) t k i s.value)) s.sig = true) := by
  have hlu := hd.length_eq
  have hls : t.ins.length = (ss.map fun s => s.out.script s.der s.pub).length := by simpa using hl
  have sm := small_withScripts small hls (scripts_lt hd good)
  have hd' : List.Forall₂ (fun u s => Describes u s.out s.value) (List.zipWith afterRead ss us) ss := by
    rw [List.forall₂_iff_get]
    refine ⟨by simp [hlu], fun k h1 h2 => ?_⟩
    simp only [List.get_eq_getElem, List.getElem_zipWith]
    exact Describes.afterRead (hd.get (by simpa [hlu] using h2) h2)
  have hl' : (t.withScripts (ss.map fun s => s.out.script s.der s.pub)).ins.length = ss.length := by simp [RawTx.withScripts, hl]
  have hread := readSigs_eq (noWitness := decide (witsFrom 0 [] ss = [])) (ws := witsFrom 0 [] ss) (k := 0) hd hl good read (by
    intro j s hj
    simp only [witsFrom, true_and, padWitness, if_true, List.replicate_zero, List.nil_append, Nat.zero_add]
    cases ha : ss.any (fun s => s.out.isWitness) with
    | false =>
      simp only [if_true, decide_true]
      have := List.any_eq_false.mp ha s (List.mem_of_getElem? hj)
      simpa using this
    | true =>
      simp only [Bool.true_eq_false, if_false]
      rw [if_neg]
      · rw [List.getElem?_map, hj]; rfl
      · rw [decide_eq_true_eq]
        intro h
        rw [List.map_eq_nil_iff.mp h] at ha
        simp at ha)
  obtain ⟨b, hb, hi⟩ := verifyHashes_iff (C := C) (hs := hashesFrom H t 0 t.ins ss) (hashesFrom_length hl) hp
  refine ⟨b, ?_, ?_⟩
  · have hg : getHashes H ⟨(ofRaw (t.withScripts (ss.map fun s => s.out.script s.der s.pub)) (witsFrom 0 [] ss)).version,
        (List.zipWith (fun (i : RawIn) s => { i with script := s }) t.ins (ss.map fun s => s.out.script s.der s.pub)).map ofIn,
        (ofRaw (t.withScripts (ss.map fun s => s.out.script s.der s.pub)) (witsFrom 0 [] ss)).vouts, [],
        (ofRaw (t.withScripts (ss.map fun s => s.out.script s.der s.pub)) (witsFrom 0 [] ss)).lockTime⟩ (List.zipWith afterRead ss us) = _ :=
      getHashes_eq (H := H) sm hd' hl'
    unfold verifyRaw
    rw [Hex.decode_encode, Res.bind_ok, decode_signed small hd hl good, Res.bind_ok,
      if_neg (by simp only [ofRaw, List.length_map, hl']; omega)]
    rw [show (ofRaw (t.withScripts (ss.map fun s => s.out.script s.der s.pub)) (witsFrom 0 [] ss)).witness = witsFrom 0 [] ss from rfl,
      show (ofRaw (t.withScripts (ss.map fun s => s.out.script s.der s.pub)) (witsFrom 0 [] ss)).vins =
        (List.zipWith (fun (i : RawIn) s => { i with script := s }) t.ins (ss.map fun s => s.out.script s.der s.pub)).map ofIn from rfl, hread, Res.bind_ok]
    simp only
    rw [hg, Res.bind_ok, List.map_fst_zip,
      show (t.withScripts (ss.map fun s => s.out.script s.der s.pub)).ins =
        List.zipWith (fun (i : RawIn) s => { i with script := s }) t.ins (ss.map fun s => s.out.script s.der s.pub) from rfl,
      hashesFrom_scripts hls hls, hb]
    rw [hashesFrom_length hl']
    simp only [List.length_zipWith]
    omega
  · rw [hi]
    constructor
    · intro hall k i s h1 h2
      have := hashesFrom_get (H := H) (t := t) (k := 0) h1 h2
      rw [Nat.zero_add] at this
      exact hall k _ s this h2
    · intro hall k h s h1 h2
      have hk : k < t.ins.length := by rw [hl]; exact (List.getElem?_eq_some_iff.mp h2).1
      have := hashesFrom_get (H := H) (t := t) (k := 0) (List.getElem?_eq_getElem hk) h2
      rw [Nat.zero_add, h1] at this
      rw [Option.some.inj this]
      exact hall k _ s (List.getElem?_eq_getElem hk) h2

end BtcLike

/-! ### C116: inserting and verifying signatures -/

/-- C116 (insert): given fresh unlock data and one signature with its key for each input, the text returned is exactly the transaction spent with
them: the unlocking scripts, and the witness data if an output needs them, all in the canonical encoding. Missing: signatures with r or s below
2^247 in a witness, and scripts that end in 0xae, which are mistaken for multi-signature scripts; see the theorems below. -/
theorem C116_insert_partial (H : Hashes) (t : RawTx) (small : Small t) (us : List TxUnlock) (ss : List Spend) (hf : List.Forall₂ Fresh us ss)
    (hl : t.ins.length = ss.length) (good : ∀ s ∈ ss, s.Good)
    (h1 : ss.length = 1 → ∀ s ∈ ss, (s.out.script s.der s.pub).getLast? ≠ some 0xae)
    (h2 : ∀ s h k, ss.head? = some s → s.out = .nested h k → k.getLast? ≠ some 0xae) :
    ∃ us', insertSignatures H (Hex.encode t.ser) (ss.map fun s => ⟨some s.sig, s.pub⟩) us = .ok (Hex.encode (t.spend ss), us') :=
  ⟨_, insert_written small hf hl (fun s hs => (good s hs).written) h1 h2⟩

/-- C116 (verify): the text of a transaction spent with canonical signatures verifies, given the outputs, if and only if every signature verifies
for its key and the hash of its input; otherwise the answer is false. Missing as above, and signatures of key hash outputs that are not read back
(C24). The key is not compared with the hash in the output (`C116_wrong_key_violated`). -/
theorem C116_verify_partial (H : Hashes) (C : Curve) (t : RawTx) (small : Small t) (us : List TxUnlock) (ss : List Spend)
    (hd : List.Forall₂ (fun u s => Describes u s.out s.value) us ss) (hl : t.ins.length = ss.length) (good : ∀ s ∈ ss, s.Good)
    (read : ∀ s ∈ ss, s.out.isWitness = false → beNat (s.sig.take 32) < 2 ^ 247 ∨ 2 ^ 231 ≤ beNat (s.sig.drop 32))
    (hp : ∀ s ∈ ss, (C.decompress s.pub).length ≠ 0) :
    ∃ answer, verifyRaw H C (Hex.encode (t.spend ss)) us = .ok answer ∧
      (answer = true ↔ ∀ (k : Nat) (i : RawIn) (s : Spend), t.ins[k]? = some i → ss[k]? = some s →
        C.verify ((C.decompress s.pub).drop 1) (H.hash .doubleSha256 (s.out.preimage (H.hash .doubleSha256) t k i s.value)) s.sig = true) :=
  verify_written small hd hl (fun s hs => (good s hs).written)
    (fun s hs => readable (good s hs).written fun h => ⟨(good s hs).rPos, (good s hs).sPos, read s hs h⟩) hp

/-- C116 (one output per input): signatures are inserted only into transactions with as many inputs as there are outputs given, and a transaction
without witness data verifies only if that many are given. -/
theorem C116_count (H : Hashes) (C : Curve) (t : RawTx) (small : Small t) (us : List TxUnlock) (sps : List SigPub) (h : us.length ≠ t.ins.length) :
    insertSignatures H (Hex.encode t.ser) sps us = .err ∧ verifyRaw H C (Hex.encode t.ser) us = .ok false := by
  constructor
  · unfold insertSignatures
    rw [Hex.decode_encode, Res.bind_ok, decodeTx_ser small, Res.bind_ok]
    split
    · rfl
    split
    · rfl
    rw [if_neg small.ins_ne, if_neg small.outs_ne, if_pos (by simp only [ofRaw, List.length_map]; omega)]
  · unfold verifyRaw
    simp only [Hex.decode_encode, Res.bind_ok, decodeTx_ser small]
    rw [if_pos (by simp only [ofRaw, List.length_map]; omega)]

namespace BtcLike

/-- The unlocking script does not end in 0xae. -/
def NotAe (s : Spend) : Prop :=
  match s.out with
  | .keyHash _ => s.pub.getLast? ≠ some 0xae
  | .nested _ k => k.getLast? ≠ some 0xae
  | .native _ => True

theorem NotAe.script {s : Spend} (n : NotAe s) (hp : s.pub.length = 33) (ok : s.out.Ok) : (s.out.script s.der s.pub).getLast? ≠ some 0xae := by
  unfold NotAe at n
  cases ho : s.out with
  | keyHash h =>
    rw [ho] at n
    simp only [KeyOutput.script]
    rw [show push s.der ++ push s.pub = (push s.der ++ [UInt8.ofNat s.pub.length]) ++ s.pub by simp [push],
      List.getLast?_append_of_ne_nil _ (List.ne_nil_of_length_pos (by omega))]
    exact n
  | nested h k =>
    rw [ho] at n ok
    simp only [KeyOutput.Ok] at ok
    simp only [KeyOutput.script]
    rw [show push (witnessV0Script k) = [UInt8.ofNat (witnessV0Script k).length, 0x00, UInt8.ofNat k.length] ++ k by simp [push, witnessV0Script],
      List.getLast?_append_of_ne_nil _ (List.ne_nil_of_length_pos (by omega))]
    exact n
  | native k => simp [KeyOutput.script]

theorem exists_written {s : Spend} (hs : s.sig.length = 64) (hp : s.pub.length = 33)
    (hr : s.out.isWitness = false → beNat (s.sig.take 32) ≠ 0 ∧ beNat (s.sig.drop 32) ≠ 0) : ∃ d, Written { s with der := d } := by
  cases ho : s.out.isWitness with
  | false =>
    obtain ⟨h1, h2⟩ := hr ho
    obtain ⟨R, S, hR, hS, lR, lS, he⟩ := C24_encode_canonical s.sig 1 hs h1 h2
    refine ⟨derSig R S ++ [1], hs, hp, fun _ => ?_, fun h => ?_, ?_⟩
    · simp only [scriptSig, Btc.encodeSigPub]
      rw [he, Res.bind_ok]
      simp [push]
    · simp [ho] at h
    · simp [derSig]; omega
  | true =>
    have l1 := widen_length (x := s.sig.take 32) (by rw [List.length_take, hs]; rfl)
    have l2 := widen_length (x := s.sig.drop 32) (by rw [List.length_drop, hs])
    refine ⟨derSig (widen (s.sig.take 32)) (widen (s.sig.drop 32)) ++ [1], hs, hp, fun h => ?_, fun _ => rfl, ?_⟩
    · simp [ho] at h
    · simp [derSig]; omega

theorem all_written : ∀ {ss : List Spend}, (∀ s ∈ ss, ∃ d, Written { s with der := d }) → ∃ ds : List Bytes, ds.length = ss.length ∧
    ∀ s ∈ List.zipWith (fun (s : Spend) d => { s with der := d }) ss ds, Written s
  | [], _ => ⟨[], rfl, by simp⟩
  | s :: ss, h => by
    obtain ⟨d, hd⟩ := h s (by simp)
    obtain ⟨ds, hl, hds⟩ := all_written (ss := ss) (fun x hx => h x (by simp [hx]))
    refine ⟨d :: ds, by simp [hl], ?_⟩
    intro x hx
    rcases List.mem_cons.mp hx with rfl | hx
    · exact hd
    · exact hds x hx

theorem zip_mem {ss : List Spend} {ds : List Bytes} {x : Spend} (hx : x ∈ List.zipWith (fun (s : Spend) d => { s with der := d }) ss ds) :
    ∃ s ∈ ss, ∃ d, x = { s with der := d } := by
  obtain ⟨k, hk, rfl⟩ := List.getElem_of_mem hx
  rw [List.length_zipWith] at hk
  exact ⟨ss[k]'(by omega), List.getElem_mem _, ds[k]'(by omega), by simp⟩

end BtcLike

/-- C116 (round trip): whatever the signatures (64 bytes) and keys (33 bytes), the text made from them is accepted by the verification, given the
outputs, if and only if every signature verifies for the hash of its input. Missing: signatures of key hash outputs with r or s zero or not read
back (C24), and keys and witness programs that end in 0xae. -/
theorem C116_roundtrip_partial (H : Hashes) (C : Curve) (t : RawTx) (small : Small t) (us : List TxUnlock) (ss : List Spend)
    (hf : List.Forall₂ Fresh us ss) (hl : t.ins.length = ss.length) (sizes : ∀ s ∈ ss, s.sig.length = 64 ∧ s.pub.length = 33)
    (read : ∀ s ∈ ss, s.out.isWitness = false → beNat (s.sig.take 32) ≠ 0 ∧ beNat (s.sig.drop 32) ≠ 0 ∧
      (beNat (s.sig.take 32) < 2 ^ 247 ∨ 2 ^ 231 ≤ beNat (s.sig.drop 32)))
    (ae : ∀ s ∈ ss, NotAe s) (hp : ∀ s ∈ ss, (C.decompress s.pub).length ≠ 0) :
    ∃ text us' answer, insertSignatures H (Hex.encode t.ser) (ss.map fun s => ⟨some s.sig, s.pub⟩) us = .ok (text, us') ∧
      verifyRaw H C text us = .ok answer ∧
      (answer = true ↔ ∀ (k : Nat) (i : RawIn) (s : Spend), t.ins[k]? = some i → ss[k]? = some s →
        C.verify ((C.decompress s.pub).drop 1) (H.hash .doubleSha256 (s.out.preimage (H.hash .doubleSha256) t k i s.value)) s.sig = true) := by
  obtain ⟨ds, hlen, hw⟩ := all_written (ss := ss) fun s hs => exists_written (sizes s hs).1 (sizes s hs).2 fun h => ⟨(read s hs h).1, (read s hs h).2.1⟩
  have hlu := hf.length_eq
  have hf' : List.Forall₂ Fresh us (List.zipWith (fun (s : Spend) d => { s with der := d }) ss ds) := by
    rw [List.forall₂_iff_get]
    refine ⟨by simp [hlu, hlen], fun k h1 h2 => ?_⟩
    simp only [List.get_eq_getElem, List.getElem_zipWith]
    have := hf.get (i := k) h1 (by omega)
    exact ⟨this.desc, this.redeem⟩
  have hok : ∀ s ∈ ss, s.out.Ok := by
    intro s hs
    obtain ⟨k, hk, rfl⟩ := List.getElem_of_mem hs
    exact (hf.get (i := k) (by omega) hk).desc.ok
  have hl' : t.ins.length = (List.zipWith (fun (s : Spend) d => { s with der := d }) ss ds).length := by simp [hl, hlen]
  have hmap : (List.zipWith (fun (s : Spend) d => { s with der := d }) ss ds).map (fun s => (⟨some s.sig, s.pub⟩ : SigPub)) =
      ss.map fun s => ⟨some s.sig, s.pub⟩ := by
    apply List.ext_getElem (by simp [hlen])
    intro k _ _
    simp
  have hins := insert_written (H := H) small hf' hl' hw (by
      intro _ x hx
      obtain ⟨s, hs, d, rfl⟩ := zip_mem hx
      exact NotAe.script (s := { s with der := d }) (ae s hs) (sizes s hs).2 (hok s hs)) (by
      intro x h k hx ho
      obtain ⟨s, hs, d, rfl⟩ := zip_mem (List.mem_of_mem_head? hx)
      have := ae s hs
      simp only at ho
      simp only [NotAe, ho] at this
      exact this)
  rw [hmap] at hins
  obtain ⟨b, hb, hi⟩ := verify_written (H := H) (C := C) small (hf'.imp fun _ _ h => h.desc) hl' hw (by
      intro x hx
      have wx := hw x hx
      obtain ⟨s, hs, d, rfl⟩ := zip_mem hx
      exact readable wx (read s hs)) (by
      intro x hx
      obtain ⟨s, hs, d, rfl⟩ := zip_mem hx
      exact hp s hs)
  refine ⟨_, _, b, hins, hb, ?_⟩
  rw [hi]
  constructor
  · intro hall k i s h1 h2
    have hk := (List.getElem?_eq_some_iff.mp h2).1
    refine hall k i { s with der := ds[k]'(by omega) } h1 ?_
    rw [List.getElem?_zipWith, h2, List.getElem?_eq_getElem (by omega)]
  · intro hall k i s h1 h2
    rw [List.getElem?_zipWith] at h2
    cases h3 : ss[k]? with
    | none => simp [h3] at h2
    | some s' =>
      cases h4 : ds[k]? with
      | none => simp [h3, h4] at h2
      | some d =>
        simp only [h3, h4, Option.some.injEq] at h2
        subst h2
        exact hall k i s' h1 h3

end Verif
