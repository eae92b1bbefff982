import Verif.Props.CreatePanic
import Verif.Props.BtcLike
import Verif.Props.Elastos
import Verif.Props.Fiii
import Verif.Props.OntologyVM
import Verif.Props.Vsys
import Verif.Props.Wayki
import Verif.Props.Moac
import Verif.Props.Ripple
import Verif.Props.BigBang

/-! C140: the packages with one receiver, and those that do not crash. -/

namespace Verif
open Verif.Spec Verif.Spec.Crash Verif.Spec.Eip55 CreatePanic

namespace CreatePanic

theorem bind_ne {α β : Type} {x : Res α} {f : α → Res β} (hx : x ≠ .panic) (hf : ∀ a, f a ≠ .panic) : (x >>= f) ≠ .panic := by
  cases x with
  | ok a => simpa using hf a
  | err => simp
  | panic => exact absurd rfl hx

theorem any58_ne_panic {alph : Bytes} (hal : IsAlphabet alph) (t : Bytes) : Base58.decode alph t ≠ .panic := by
  obtain ⟨h1, h2⟩ := C02_base58_decode_total alph hal t
  by_cases h : ∀ c ∈ t, c ∈ alph
  · obtain ⟨b, hb⟩ := h1 h; rw [hb]; simp
  · simp only [not_forall] at h
    obtain ⟨c, hc, hn⟩ := h
    rw [h2 ⟨c, hc, hn⟩]; simp

theorem vsys_panic (H : Hashes) (t : Bytes) : Vsys.decodeCheck H t = .panic ↔
    ∃ b, IsBase58 Btc.alphabet b t ∧ b.length < 4 := by
  unfold Vsys.decodeCheck
  cases hd : Base58.decode Btc.alphabet t with
  | panic => exact absurd hd (decode58_ne_panic t)
  | err =>
    refine iff_of_false (by simp) ?_
    rintro ⟨b, h, _⟩
    rw [(decode58_iff t b).mpr h] at hd; cases hd
  | ok ret =>
    have hr := (decode58_iff t ret).mp hd
    simp only
    by_cases h4 : ret.length < 4
    · rw [if_pos h4]; exact iff_of_true rfl ⟨ret, hr, h4⟩
    · rw [if_neg h4]
      refine iff_of_false (by split_ifs <;> simp) ?_
      rintro ⟨b, h, hb⟩
      rw [(decode58_iff t b).mpr h] at hd
      rw [Res.ok.inj hd] at hb
      exact h4 hb

theorem ont_panic (H : Hashes) (t : Bytes) : Ontology.decodeCheck H t = .panic ↔ ShortBase58 Btc.alphabet (H.hash .doubleSha256) 1 t := by
  rw [← check_panic (H.hash .doubleSha256) (fun d => by rw [H.size]; decide) 1
    (fun ret => match ret.take (ret.length - 4) with
      | [] => .panic
      | p :: h => .ok (p, h)) (by
      intro ret h4
      cases h : ret.take (ret.length - 4) with
      | nil =>
        have := congrArg List.length h
        rw [List.length_take, List.length_nil] at this
        exact iff_of_true rfl (by omega)
      | cons p l =>
        have := congrArg List.length h
        rw [List.length_take, List.length_cons] at this
        exact iff_of_false (by simp) (by omega)) t]
  unfold Ontology.decodeCheck
  cases Base58.decode Btc.alphabet t <;> rfl

theorem addressHash_panic (H : Hashes) (t : Bytes) : Ontology.addressHash H t = .panic ↔ ShortBase58 Btc.alphabet (H.hash .doubleSha256) 1 t := by
  rw [← ont_panic]
  unfold Ontology.addressHash
  cases Ontology.decodeCheck H t with
  | panic => simp
  | err => simp
  | ok q => simp only [Res.bind_ok]; split_ifs <;> simp

end CreatePanic

/-- C140, VSYS: only the receiver matters; fewer than four bytes crash. -/
theorem C140_vsys (H : Hashes) (nanos : Nat) (ts : Vsys.TxStruct) :
    Vsys.createEmptyTransaction H nanos ts = .panic ↔ ∃ b, IsBase58 Btc.alphabet b ts.recipient ∧ b.length < 4 := by
  unfold Vsys.createEmptyTransaction
  rw [DecPanic.bind_panic _ _ (by intro a; simp), vsys_panic]

/-- C140, MOAC: a receiver of fewer than two characters crashes. -/
theorem C140_moac (H : Hashes) (to_ : Bytes) (nonce : UInt64) (amount gasLimit gasPrice : Int) (test : Bool) :
    Moac.create H to_ nonce amount gasLimit gasPrice test = .panic ↔ to_.length < 2 := by
  have h : Moac.getAddressHashBytes to_ = .panic ↔ to_.length < 2 := by
    unfold Moac.getAddressHashBytes
    by_cases hl : to_.length < 2
    · simp [hl]
    · rw [if_neg hl]
      refine iff_of_false ?_ hl
      split_ifs
      · simp
      · cases hd : Hex.decode (to_.drop 2) with
        | panic => exact absurd hd (Hex.decode_ne_panic _)
        | err => simp
        | ok x => simp only; split_ifs <;> simp
  rw [← h]
  unfold Moac.create Moac.newTxStruct
  cases Moac.getAddressHashBytes to_ <;> simp

/-- C140, BigBang: with everything before it in order, the empty receiver crashes. -/
theorem C140_bigbang (H : Hashes) (ts lock : UInt32) (anchor : Bytes) (ins : List BigBang.Vin) (to_ : Bytes) (amount fee : UInt64) (data : Bytes) :
    BigBang.createEmpty H ts lock anchor ins to_ amount fee data = .panic ↔
      (∃ a, HexText anchor a) ∧ ins ≠ [] ∧ (∀ v ∈ ins, ∃ id, HexText v.txid id ∧ id.length = 32) ∧ to_ = [] := by
  have ha : BigBang.addressDecode to_ = .panic ↔ to_ = [] := by
    match to_ with
    | [] => simp [BigBang.addressDecode]
    | p :: r =>
      refine iff_of_false ?_ (by simp)
      simp only [BigBang.addressDecode]
      split_ifs
      · simp
      · cases BigBang.base32Decode (BigBang.stripNewlines r) with
        | none => simp
        | some k => simp only; split_ifs <;> simp
  have hin : ∀ v : BigBang.Vin, (∃ b, BigBang.newTxIn v = .ok b) ↔ ∃ id, HexText v.txid id ∧ id.length = 32 := by
    intro v
    unfold BigBang.newTxIn
    by_cases hl : v.txid.length = 64
    · rw [if_neg (by simpa using hl)]
      constructor
      · rintro ⟨b, h⟩
        obtain ⟨x, hx, _⟩ := Res.bind_eq_ok.mp h
        have hx := (reverse_iff _ _).mp hx
        exact ⟨_, hx, by have := hx.1; omega⟩
      · rintro ⟨id, hid, _⟩
        exact ⟨_, by rw [(reverse_iff _ id.reverse).mpr (by simpa using hid)]; rfl⟩
    · rw [if_pos hl]
      refine iff_of_false (by simp) ?_
      rintro ⟨id, hid, h32⟩
      have := hid.1
      omega
  have hinp : ∀ v : BigBang.Vin, BigBang.newTxIn v ≠ .panic := by
    intro v
    unfold BigBang.newTxIn
    split_ifs
    · simp
    · exact bind_ne (reverse_ne_panic _) (by intro a; simp)
  unfold BigBang.createEmpty
  rw [DecPanic.bind_panic _ _ (by intro a; simp)]
  unfold BigBang.newTx
  cases hr : Btc.reverseHexToBytes anchor with
  | panic => exact absurd hr (reverse_ne_panic _)
  | err =>
    refine iff_of_false (by simp) ?_
    rintro ⟨⟨a, h⟩, _⟩
    rw [(reverse_iff _ a.reverse).mpr (by simpa using h)] at hr; cases hr
  | ok a =>
    have hA : ∃ a, HexText anchor a := ⟨_, (reverse_iff _ _).mp hr⟩
    simp only [Res.bind_ok, hA, true_and]
    by_cases hne : ins = []
    · simp [hne]
    · rw [if_neg hne]
      have hlo := loop_ok (L := BigBang.newTxIns) (f := BigBang.newTxIn) rfl (fun _ _ => rfl) ins
      have hln := loop_ne_panic (L := BigBang.newTxIns) (f := BigBang.newTxIn) rfl (fun _ _ => rfl) hinp ins
      simp only [hin] at hlo
      rw [← hlo]
      simp only [ne_eq, hne, not_false_eq_true, true_and]
      cases h : BigBang.newTxIns ins with
      | panic => exact absurd h hln
      | err => simp
      | ok is =>
        simp only [Res.bind_ok, Res.ok.injEq, exists_eq', true_and]
        rw [← ha, DecPanic.bind_panic]
        intro x
        split_ifs <;> simp

/-- C140, Ontology: the sender is read first, then the receiver, then the payer if one is named; one byte and its checksum are enough not to crash. -/
theorem C140_ontology (H : Hashes) (v2 : Bool) (emit : Bytes) (nonce : UInt32) (gasPrice gasLimit : UInt64) (s : Ontology.TxState) :
    Ontology.createWith H v2 emit nonce gasPrice gasLimit s = .panic ↔
      ShortBase58 Btc.alphabet (H.hash .doubleSha256) 1 s.from_ ∨
      ((∃ h, Ontology.IsAddress H s.from_ h) ∧ ShortBase58 Btc.alphabet (H.hash .doubleSha256) 1 s.to_) ∨
      ((∃ h, Ontology.IsAddress H s.from_ h) ∧ (∃ h, Ontology.IsAddress H s.to_ h) ∧ s.payer ≠ [] ∧
        ShortBase58 Btc.alphabet (H.hash .doubleSha256) 1 s.payer) := by
  have h1 := addressHash_panic H s.from_
  have h2 := addressHash_panic H s.to_
  have o1 : ∀ h, Ontology.IsAddress H s.from_ h ↔ Ontology.addressHash H s.from_ = .ok h := fun h => (Ontology.addressHash_iff H _ h).symm
  have o2 : ∀ h, Ontology.IsAddress H s.to_ h ↔ Ontology.addressHash H s.to_ = .ok h := fun h => (Ontology.addressHash_iff H _ h).symm
  rw [← h1, ← h2, ← ont_panic]
  simp only [o1, o2]
  unfold Ontology.createWith Ontology.invokeBytes
  simp only
  cases e1 : Ontology.addressHash H s.from_ with
  | panic => simp
  | err => simp
  | ok a =>
    have hw : ∃ w, Ontology.withdrawSource s.assetType = .ok w := by
      unfold Ontology.withdrawSource
      split_ifs
      · obtain ⟨c, hc⟩ : ∃ c, Ontology.ontContract = .ok c := ⟨_, rfl⟩
        rw [hc]; exact ⟨_, rfl⟩
      · exact ⟨_, rfl⟩
    obtain ⟨w, hw⟩ := hw
    have hcm : ∃ c, (Ontology.contractAndMethod v2 s.assetType).1 = .ok c := by
      unfold Ontology.contractAndMethod
      split_ifs <;> exact ⟨_, rfl⟩
    obtain ⟨c, hc⟩ := hcm
    simp only [Res.bind_ok, hw, hc, reduceCtorEq, false_or, Res.ok.injEq, exists_eq', true_and]
    cases e2 : Ontology.addressHash H s.to_ with
    | panic => simp
    | err => simp
    | ok b =>
      simp only [Res.bind_ok, reduceCtorEq, false_or, Res.ok.injEq, exists_eq', true_and]
      have hpost : ∀ t, (Ontology.toBytes t >>= fun b => Res.ok (Hex.encode b, Hex.encode (Ontology.signHash H b),
          if (if s.payer = [] then s.from_ else s.payer) ≠ s.from_ then [if s.payer = [] then s.from_ else s.payer, s.from_]
          else [if s.payer = [] then s.from_ else s.payer])) ≠ .panic := by
        intro t
        refine bind_ne ?_ (by intro a; simp)
        unfold Ontology.toBytes
        split_ifs <;> simp
      rw [DecPanic.bind_panic _ _ hpost]
      unfold Ontology.newEmptyTransaction
      simp only
      by_cases hp : s.payer = []
      · rw [if_pos hp]
        have : Ontology.decodeCheck H s.from_ ≠ .panic := by
          intro h
          rw [Ontology.addressHash, h] at e1
          cases e1
        cases hd : Ontology.decodeCheck H s.from_ with
        | panic => exact absurd hd this
        | err => simp [hp]
        | ok q => simp [hp]
      · rw [if_neg hp]
        cases hd : Ontology.decodeCheck H s.payer with
        | panic => simp [hp]
        | err => simp
        | ok q => simp

/-- C140: the creation of WaykiChain and Ripple transactions never crashes. -/
theorem C140_never (H : Hashes) :
    (∀ a b c amount fee height ty, Wayki.create H a b c amount fee height ty ≠ .panic) ∧
    (∀ p, Ripple.createEmptyRawTransactionAndHash H p ≠ .panic) := by
  constructor
  · intro a b c amount fee height ty
    have hph : ∀ t, Wayki.programHash H t ≠ .panic := by
      intro t
      unfold Wayki.programHash
      cases hd : Base58.decode Btc.alphabet t with
      | panic => exact absurd hd (decode58_ne_panic t)
      | err => simp
      | ok r => simp only; split_ifs <;> simp
    refine bind_ne ?_ (by intro a; simp)
    unfold Wayki.newTx
    split_ifs
    · unfold Wayki.newCommonTx
      split_ifs
      · simp
      · simp
      · exact bind_ne (hph _) (by intro a; simp)
    · unfold Wayki.newRegisterAccountTx
      split_ifs
      · simp
      · cases hd : Hex.decode a with
        | panic => exact absurd hd (Hex.decode_ne_panic _)
        | err => simp
        | ok x => simp only; split_ifs <;> simp
    · unfold Wayki.newCallContractTx
      split_ifs
      · simp
      · simp
      · simp
      · exact bind_ne (Hex.decode_ne_panic _) (by intro a; simp)
    · unfold Wayki.newUcoinTransferTx
      split_ifs
      · simp
      · exact bind_ne (hph _) (by intro a; simp)
      · exact bind_ne (hph _) (by intro a; simp)
    · simp
  · intro p
    have hal : IsAlphabet Ripple.alphabet := ⟨by decide, by decide⟩
    have hacc : ∀ enc t, Ripple.accountBytes H enc t ≠ .panic := by
      intro enc t
      refine bind_ne ?_ (by intro a; simp)
      unfold Ripple.programHash
      cases hd : Base58.decode Ripple.alphabet t with
      | panic => exact absurd hd (any58_ne_panic hal t)
      | err => simp
      | ok r => simp only; split_ifs <;> simp
    refine bind_ne ?_ (by intro a; simp)
    unfold Ripple.newTxStruct
    refine bind_ne (by unfold Ripple.amountBytes; split_ifs <;> simp) fun _ => ?_
    refine bind_ne (by unfold Ripple.amountBytes; split_ifs <;> simp) fun _ => ?_
    refine bind_ne ?_ fun _ => ?_
    · unfold Ripple.signingPubKeyBytes
      cases hd : Hex.decode p.pubkey with
      | panic => exact absurd hd (Hex.decode_ne_panic _)
      | err => simp
      | ok x => simp only; split_ifs <;> simp
    refine bind_ne (by simp [Ripple.optionalSignature]) fun _ => ?_
    refine bind_ne (hacc _ _) fun _ => ?_
    exact bind_ne (hacc _ _) (by intro a; simp)

/-- C140, Elastos: creation does not crash, for requests of fewer than 2^56 inputs and outputs. -/
theorem C140_elastos (H : Hashes) (vins : List Elastos.Vin) (vouts : List Elastos.Vout) (hi : vins.length < 2 ^ 56) (ho : vouts.length < 2 ^ 56) :
    Elastos.createEmpty H vins vouts ≠ .panic := by
  have hlen : ∀ {α : Type} (f : α → Res Bytes) (l : List α) (bs : List Bytes), Elastos.mapAll f l = .ok bs → bs.length = l.length := by
    intro α f l
    induction l with
    | nil => intro bs h; cases h; rfl
    | cons x xs ih =>
      intro bs h
      obtain ⟨b, _, h⟩ := Res.bind_eq_ok.mp h
      obtain ⟨cs, hc, h⟩ := Res.bind_eq_ok.mp h
      cases h
      simp [ih cs hc]
  have hph : ∀ t, Elastos.programHash H t ≠ .panic := by
    intro t
    refine bind_ne (decode58_ne_panic t) ?_
    intro r
    split_ifs <;> simp
  unfold Elastos.createEmpty
  split_ifs
  · simp
  refine bind_ne ?_ (by intro a; simp)
  unfold Elastos.newTx
  have n1 : Elastos.mapAll Elastos.newInput vins ≠ .panic := by
    refine loop_ne_panic (L := Elastos.mapAll Elastos.newInput) rfl (fun _ _ => rfl) ?_ vins
    intro v
    unfold Elastos.newInput
    exact bind_ne (reverse_ne_panic _) (by intro a; simp)
  have n2 : Elastos.mapAll (Elastos.newOutput H) vouts ≠ .panic := by
    refine loop_ne_panic (L := Elastos.mapAll (Elastos.newOutput H)) rfl (fun _ _ => rfl) ?_ vouts
    intro v
    unfold Elastos.newOutput
    exact bind_ne (reverse_ne_panic _) fun _ => bind_ne (hph _) (by intro a; simp)
  cases h1 : Elastos.mapAll Elastos.newInput vins with
  | panic => exact absurd h1 n1
  | err => simp
  | ok is =>
    cases h2 : Elastos.mapAll (Elastos.newOutput H) vouts with
    | panic => exact absurd h2 n2
    | err => simp
    | ok os =>
      simp only [Res.bind_ok]
      rw [Elastos.uint64ToUvarint_eq (by rw [hlen _ _ _ h1]; exact hi), Elastos.uint64ToUvarint_eq (by rw [hlen _ _ _ h2]; exact ho)]
      simp

namespace CreatePanic
open Verif.Fiii

theorem outputMsg_index (H : Hashes) (v : Vout) (n : Nat) : newOutputMsg H v n = (newOutputMsg H v 0 >>= fun o => .ok { o with index := n }) := by
  unfold newOutputMsg
  cases Fiii.decodeCheck H v.address v.addressPrefix with
  | panic => rfl
  | err => rfl
  | ok h =>
    simp only [Res.bind_ok]
    split_ifs <;> rfl

theorem outputs_index (H : Hashes) : ∀ (vs : List Vout) (n : Nat), newOutputs H n vs =
    (HyperCash.mapAll (fun v => newOutputMsg H v 0) vs >>= fun os => .ok (os.mapIdx fun i o => { o with index := ((n + i : Nat) : Int) }))
  | [], n => rfl
  | v :: vs, n => by
    rw [newOutputs, HyperCash.mapAll, outputMsg_index, outputs_index H vs (n + 1)]
    cases newOutputMsg H v 0 with
    | panic => rfl
    | err => rfl
    | ok o =>
      simp only [Res.bind_ok]
      cases HyperCash.mapAll (fun v => newOutputMsg H v 0) vs with
      | panic => rfl
      | err => rfl
      | ok os =>
        simp only [Res.bind_ok, List.mapIdx_cons, Res.ok.injEq, List.cons.injEq, Nat.add_zero, true_and]
        congr 1
        funext i o
        rw [Nat.add_right_comm, Nat.add_assoc]

theorem prefixLoop_panic : ∀ (p r : Bytes), prefixLoop p r = .panic ↔ r <+: p ∧ r ≠ p
  | [], r => by
    simp only [prefixLoop, reduceCtorEq, List.prefix_nil, false_iff, not_and, not_not, imp_self]
  | p :: ps, [] => by simp [prefixLoop]
  | p :: ps, r :: rs => by
    unfold prefixLoop
    rw [List.cons_prefix_cons]
    by_cases h : p = r
    · rw [if_neg (by simpa using h), prefixLoop_panic ps rs]
      simp [h]
    · rw [if_pos h]
      refine iff_of_false (by simp) ?_
      rintro ⟨⟨h1, _⟩, _⟩
      exact h h1.symm

theorem fiii_panic (H : Hashes) (t p : Bytes) : Fiii.decodeCheck H t p = .panic ↔
    ∃ b, IsBase58 Btc.alphabet b t ∧ (b.length < 4 ∨ ((∃ d, b = d ++ (H.hash .doubleSha256 d).take 4) ∧ b <+: p ∧ b ≠ p)) := by
  unfold Fiii.decodeCheck
  cases hd : Base58.decode Btc.alphabet t with
  | panic => exact absurd hd (decode58_ne_panic t)
  | err =>
    refine iff_of_false (by simp) ?_
    rintro ⟨b, h, _⟩
    rw [(decode58_iff t b).mpr h] at hd; cases hd
  | ok ret =>
    rw [Res.bind_ok]
    have huniq : ∀ b, IsBase58 Btc.alphabet b t ↔ b = ret := by
      intro b
      rw [← decode58_iff, hd]
      exact ⟨fun h => (Res.ok.inj h).symm, fun h => by rw [h]⟩
    simp only [huniq, exists_eq_left]
    by_cases h4 : ret.length < 4
    · rw [if_pos h4]; exact iff_of_true rfl (Or.inl h4)
    rw [if_neg h4]
    simp only [h4, false_or]
    have hsum : ∀ d, ((H.hash .doubleSha256 d).take 4).length = 4 := by intro d; rw [List.length_take, H.size]; rfl
    by_cases hc : (H.hash .doubleSha256 (ret.take (ret.length - 4))).take 4 = ret.drop (ret.length - 4)
    · rw [if_neg (not_not.mpr hc)]
      have hx : ∃ d, ret = d ++ (H.hash .doubleSha256 d).take 4 := ⟨ret.take (ret.length - 4), by rw [hc, List.take_append_drop]⟩
      rw [← prefixLoop_panic]
      simp only [hx, true_and]
      cases hp : prefixLoop p ret with
      | panic => simp
      | err => simp
      | ok u =>
        simp only [Res.bind_ok, reduceCtorEq, iff_false]
        split_ifs with h
        · simp
        · rw [slice_ok (by omega) (by omega)]; simp
    · rw [if_pos hc]
      refine iff_of_false (by simp) ?_
      rintro ⟨⟨d, h2⟩, _⟩
      apply hc
      have e : ret.length - 4 = d.length := by
        have := congrArg List.length h2
        rw [List.length_append, hsum] at this
        omega
      rw [e, h2, List.take_left, List.drop_left]

end CreatePanic

/-- C140, FiiiCoin: an output crashes if its address text has fewer than four bytes, or is, with a correct checksum, a proper beginning of the version bytes
that the caller names. -/
theorem C140_fiii (H : Hashes) (now : Int) (ins : List Fiii.Vin) (outs : List Fiii.Vout) (version lockTime expired : Int) :
    Fiii.createEmpty H now ins outs version lockTime expired = .panic ↔
      (ins ≠ [] ∧ ∀ v ∈ ins, ∃ id, HexText v.txid id ∧ id.length = 32) ∧
      FirstBad (fun w => ∃ text, Fiii.createEmpty H now ins [w] version lockTime expired = .ok text)
        (fun w => ∃ b, IsBase58 Btc.alphabet b w.address ∧ (b.length < 4 ∨
          ((∃ d, b = d ++ (H.hash .doubleSha256 d).take 4) ∧ b <+: w.addressPrefix ∧ b ≠ w.addressPrefix))) outs := by
  have hf : ∀ w : Fiii.Vout, Fiii.newOutputMsg H w 0 = .panic ↔ ∃ b, IsBase58 Btc.alphabet b w.address ∧ (b.length < 4 ∨
      ((∃ d, b = d ++ (H.hash .doubleSha256 d).take 4) ∧ b <+: w.addressPrefix ∧ b ≠ w.addressPrefix)) := by
    intro w
    rw [← fiii_panic]
    unfold Fiii.newOutputMsg
    rw [DecPanic.bind_panic]
    intro a
    split_ifs <;> simp
  have hin : ∀ v : Fiii.Vin, (∃ i, Fiii.newInputMsg v = .ok i) ↔ ∃ id, HexText v.txid id ∧ id.length = 32 := by
    intro v
    unfold Fiii.newInputMsg
    simp only [← Eip.decode_iff]
    by_cases hl : v.txid.length = 64
    · rw [if_neg (by simpa using hl)]
      cases hd : Hex.decode v.txid with
      | panic => simp
      | err => simp
      | ok x =>
        have := Hex.decode_length _ _ hd
        simp only [Res.bind_ok, Res.ok.injEq, exists_eq', exists_eq_left', true_iff]
        omega
    · rw [if_pos hl]
      refine iff_of_false (by simp) ?_
      rintro ⟨id, hid, h32⟩
      have := Hex.decode_length _ _ hid
      omega
  have hinp : ∀ v : Fiii.Vin, Fiii.newInputMsg v ≠ .panic := by
    intro v
    unfold Fiii.newInputMsg
    split_ifs
    · simp
    · exact bind_ne (Hex.decode_ne_panic _) (by intro a; simp)
  by_cases hne : ins = []
  · subst hne
    refine iff_of_false ?_ (fun h => h.1.1 rfl)
    simp [Fiii.createEmpty]
  have key := create_panic (create := fun vs => Fiii.createEmpty H now ins vs version lockTime expired) (ins := Fiii.newInputs ins >>= fun i => .ok i)
    (L := fun vs => HyperCash.mapAll (fun v => Fiii.newOutputMsg H v 0) vs >>= fun os => .ok (vs.length, os))
    (f := fun v => Fiii.newOutputMsg H v 0) (g := fun a b => (b.1 + 1, a :: b.2)) (c := (0, []))
    (post := fun is os => .ok (Json.marshal (Fiii.txJson ⟨version, [], now, lockTime, expired, ins.length, os.1, some is,
      some (os.2.mapIdx fun i o => { o with index := ((0 + i : Nat) : Int) }), 0⟩), ins.map Fiii.genMessage))
    (by simp [Fiii.createEmpty, hne])
    (by
      refine bind_ne ?_ (by intro a; simp)
      exact loop_ne_panic (L := Fiii.newInputs) (f := Fiii.newInputMsg) rfl (fun _ _ => rfl) hinp ins)
    (by
      intro vs hv
      simp only [Fiii.createEmpty, if_neg hne, if_neg hv, outputs_index]
      cases Fiii.newInputs ins with
      | panic => rfl
      | err => rfl
      | ok i => cases HyperCash.mapAll (fun v => Fiii.newOutputMsg H v 0) vs <;> rfl)
    rfl
    (by
      intro x xs
      simp only [HyperCash.mapAll]
      cases Fiii.newOutputMsg H x 0 with
      | panic => rfl
      | err => rfl
      | ok o => cases HyperCash.mapAll (fun v => Fiii.newOutputMsg H v 0) xs <;> rfl)
    (by intro i os _; simp)
    (by intro i w o _ _; exact ⟨_, rfl⟩) outs
  have hins : (∃ i, (Fiii.newInputs ins >>= fun i => .ok i) = .ok i) ↔ ∀ v ∈ ins, ∃ id, HexText v.txid id ∧ id.length = 32 := by
    rw [← (by simp only [hin] : (∀ w ∈ ins, ∃ y, Fiii.newInputMsg w = .ok y) ↔ ∀ v ∈ ins, ∃ id, HexText v.txid id ∧ id.length = 32),
      ← loop_ok (L := Fiii.newInputs) (f := Fiii.newInputMsg) rfl (fun _ _ => rfl) ins]
    cases Fiii.newInputs ins <;> simp
  rw [hins] at key
  simp only [hf] at key
  simp only [ne_eq, hne, not_false_eq_true, true_and]
  exact key

namespace CreatePanic

theorem empty_short (alph : Bytes) (digest : Bytes → Bytes) (n : Nat) : ShortBase58 alph digest n [] :=
  ⟨[], rfl, Or.inl (by simp)⟩

end CreatePanic

/-- C140 is false, in every one of these packages and whatever the network: a payment to the empty address crashes as soon as the inputs are in order. -/
theorem C140_empty_violated (H : Hashes) (amount : UInt64) (lt : UInt32) (r : Bool) (P : Btc.AddressPrefix) :
    (∀ vins, GoodIns vins → Btc.createEmptyRawTransaction H vins [⟨[], amount⟩] lt r P = .panic ∧
      BtcVariants.createBch H vins [⟨[], amount⟩] lt r P = .panic ∧
      (P.bech32 ≠ [] → BtcVariants.createCxc H vins [⟨[], amount⟩] lt r P = .panic ∧ BtcVariants.createHc H vins [⟨[], amount⟩] lt r P = .panic ∧
        ∀ block height b, HexText block b → BtcVariants.createZen H vins [⟨[], amount⟩] lt r P block height = .panic)) ∧
    (∀ now iv ins, HexIns ins → Verge.createEmpty H now ins [⟨[], amount⟩] lt iv = .panic ∧ Alien.createEmpty H ins [⟨[], amount⟩] lt = .panic ∧
      (ins ≠ [] → Vollar.createEmpty H ins [⟨[], amount⟩] = .panic)) ∧
    (∀ ins ex, ins ≠ [] → (∀ v ∈ ins, (∃ id, HexText v.txid id ∧ id.length = 32) ∧ ∃ l, HexText v.lock l) →
      HyperCash.createEmpty H ins [⟨amount, []⟩] lt ex = .panic) := by
  have one : ∀ {α : Type} (g b : α → Prop) (x : α), b x → FirstBad g b [x] := fun g b x h => ⟨[], x, [], rfl, by simp, h⟩
  refine ⟨fun vins hi => ⟨?_, ?_, fun hp => ⟨?_, ?_, ?_⟩⟩, fun now iv ins hi => ⟨?_, ?_, fun hne => ?_⟩, fun ins ex hne hi => ?_⟩
  · refine (C140_btc H vins _ lt r P).mpr ⟨hi, one _ _ _ ?_⟩
    show if P.bech32 <+: [] then ShortBech32 [] else _
    split_ifs
    · exact Or.inl rfl
    · exact empty_short _ _ _
  · exact (C140_bch H vins _ lt r P).mpr ⟨hi, one _ _ _ (empty_short _ _ _)⟩
  · exact (C140_cxc_hc H vins _ lt r P (by simpa using hp)).1.mpr ⟨hi, one _ _ _ (empty_short _ _ _)⟩
  · exact (C140_cxc_hc H vins _ lt r P (by simpa using hp)).2.mpr ⟨hi, one _ _ _ (empty_short _ _ _)⟩
  · intro block height b hb
    exact (C140_zen H vins _ lt r P block height (by simpa using hp)).mpr ⟨hi, ⟨b, hb⟩, one _ _ _ (empty_short _ _ _)⟩
  · exact (C140_verge H now ins _ lt iv).mpr ⟨hi, one _ _ _ (empty_short _ _ _)⟩
  · exact (C140_alien H ins _ lt).mpr ⟨hi, one _ _ _ (empty_short _ _ _)⟩
  · exact (C140_vollar H ins hne _).mpr ⟨hi, one _ _ _ (empty_short _ _ _)⟩
  · exact (C140_hypercash H ins _ lt ex).mpr ⟨⟨hne, hi⟩, one _ _ _ (empty_short _ _ _)⟩

-- inputs in order
example : GoodIns [⟨Hex.encode (List.replicate 32 7), 1⟩] := by
  refine ⟨by simp, fun v hv => ?_⟩
  simp only [List.mem_singleton] at hv
  subst hv
  exact ⟨List.replicate 32 7, (Eip.decode_iff _ _).mp (Hex.decode_encode _), by simp⟩
example : HexIns [⟨Hex.encode (List.replicate 32 7), 1, Hex.encode [0x76]⟩] := by
  intro v hv
  simp only [List.mem_singleton] at hv
  subst hv
  exact ⟨⟨_, (Eip.decode_iff _ _).mp (Hex.decode_encode _)⟩, ⟨_, (Eip.decode_iff _ _).mp (Hex.decode_encode _)⟩⟩
-- an address behind a payable one: "111" stands for three zero bytes
example (H : Hashes) : ShortBase58 Btc.alphabet (H.hash .doubleSha256) 20 (asc "111") :=
  ⟨[0, 0, 0], (decode58_iff _ _).mp (by decide +kernel), Or.inl (by decide)⟩
-- requests that do not crash
example (H : Hashes) (nanos : Nat) : Vsys.createEmptyTransaction H nanos ⟨2, asc "l", 1, 1, 100, []⟩ ≠ .panic := by
  rw [Ne, C140_vsys]
  rintro ⟨b, hb, _⟩
  have := (decode58_iff _ _).mpr hb
  have e : Base58.decode Btc.alphabet (asc "l") = .err := by decide +kernel
  rw [e] at this; cases this

end Verif
